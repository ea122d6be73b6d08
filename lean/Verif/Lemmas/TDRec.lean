/-
Facts about the training tables of TDRec and TDRecRe.
-/
import Verif.Lemmas.Crop
import Verif.Lemmas.History
import Verif.Lemmas.Selection
import Verif.Lemmas.Hooi
import Verif.Props.Mapping
import Verif.Props.Crop
import Verif.Model.TDRec

set_option linter.unusedSectionVars false

namespace DynCF
variable {K : Type}

/-- `data'` is `data` with external ids replaced by their indices in `users` and `items`. -/
def MappedTo (users items : List ℤ) (data data' : List (PRow K)) : Prop :=
  List.Forall₂ (fun p p' : PRow K => p'.pos = p.pos ∧ p'.row.rel = p.row.rel ∧
    (∃ k : ℕ, p'.row.user = (k : ℤ) ∧ users[k]? = some p.row.user) ∧
    (∃ k : ℕ, p'.row.item = (k : ℤ) ∧ items[k]? = some p.row.item)) data data'

theorem withPos_forall₂ {R : Row K → Row K → Prop} (data : List (PRow K)) (rows : List (Row K))
    (h : List.Forall₂ R (data.map PRow.row) rows) :
    List.Forall₂ (fun p p' : PRow K => p'.pos = p.pos ∧ R p.row p'.row) data (withPos rows data) := by
  induction data generalizing rows with
  | nil =>
    cases h
    exact List.Forall₂.nil
  | cons p data ih =>
    rw [List.map_cons] at h
    cases h with
    | cons h1 h2 => exact List.Forall₂.cons ⟨rfl, h1⟩ (ih _ h2)

/-- fresh training: the indices are those of first appearance -/
theorem train_mapped (data : List (PRow K)) :
    ∃ rows m users items, getDfWithUpdatedIndices (data.map PRow.row) = .ok (rows, m) ∧
      FirstAppearance (data.map fun p => p.row.user) users ∧ Represents m.user users ∧
      FirstAppearance (data.map fun p => p.row.item) items ∧ Represents m.item items ∧
      MappedTo users items data (withPos rows data) := by
  obtain ⟨rows, m, users, items, h1, h2, h3, h4, h5, h6⟩ := C01_training_mapping (data.map PRow.row)
  rw [List.map_map] at h2 h4
  refine ⟨rows, m, users, items, h1, h2, h3, h4, h5, ?_⟩
  exact (withPos_forall₂ data rows h6).imp fun p p' h => ⟨h.1, h.2.1.1.symm, h.2.2.1, h.2.2.2⟩

/-- retraining with known mappings -/
theorem retrain_mapped (data : List (PRow K)) (m : Mappings) (users items : List ℤ)
    (hu : Represents m.user users) (hi : Represents m.item items) (rows : List (Row K))
    (h : mapDfColumns (data.map PRow.row) m = .ok rows) :
    MappedTo users items data (withPos rows data) := by
  refine (withPos_forall₂ data rows ((mapDfColumns_ok_iff _ _ _).1 h)).imp fun p p' h => ?_
  exact ⟨h.1, h.2.1.1.symm, (hu.old2new _ _).1 h.2.2.1, (hi.old2new _ _).1 h.2.2.2⟩

/-- the interaction triple of a row -/
def PRow.inter (p : PRow K) : Inter := ⟨p.row.user, p.row.item, p.pos⟩

/-- the order of `sort_values(by=[USER_ID, POSITION_ID])` -/
def interLe (a b : Inter) : Bool := decide (a.user < b.user ∨ (a.user = b.user ∧ a.pos ≤ b.pos))

theorem interLe_trans : ∀ a b c, interLe a b = true → interLe b c = true → interLe a c = true := by
  intro a b c; simp only [interLe, decide_eq_true_eq]; omega
theorem interLe_total : ∀ a b, interLe a b = true ∨ interLe b a = true := by
  intro a b; simp only [interLe, decide_eq_true_eq]; omega

theorem sortedInds_eq (data : List (PRow K)) :
    sortedInds data = stableSort interLe (data.map PRow.inter) := rfl

theorem getElem?_inj_nodup {l : List ℤ} (hn : l.Nodup) {a b : ℕ} {x : ℤ} (ha : l[a]? = some x)
    (hb : l[b]? = some x) : a = b := by
  obtain ⟨ha', h1⟩ := List.getElem?_eq_some_iff.1 ha
  obtain ⟨hb', h2⟩ := List.getElem?_eq_some_iff.1 hb
  exact (List.Nodup.getElem_inj_iff hn).1 (h1.trans h2.symm)

/-- distinct values of an ascending list, in order of first appearance, ascend strictly -/
theorem firstAppearance_sorted {l ids : List ℤ} (h : FirstAppearance l ids)
    (hl : l.Pairwise (· ≤ ·)) : ids.Pairwise (· < ·) := by
  have h' := (List.pairwise_and_iff.2 ⟨h.order, h.nodup⟩)
  have hm : ids.Pairwise fun x y => x ∈ ids ∧ y ∈ ids := by
    rw [List.pairwise_iff_forall_sublist]
    intro a b hab
    exact ⟨hab.subset (by simp), hab.subset (by simp)⟩
  refine (List.pairwise_and_iff.2 ⟨h', hm⟩).imp ?_
  rintro x y ⟨⟨hxy, hne⟩, hx, hy⟩
  have hx' := (h.mem x).1 hx
  have hy' := (h.mem y).1 hy
  have := List.pairwise_iff_getElem.1 hl _ _ (List.idxOf_lt_length_of_mem hx')
    (List.idxOf_lt_length_of_mem hy') hxy
  simp only [List.getElem_idxOf] at this
  omega

theorem sorted_getElem?_le {l : List ℤ} (hl : l.Pairwise (· < ·)) {a b : ℕ} {x y : ℤ}
    (ha : l[a]? = some x) (hb : l[b]? = some y) (hxy : x < y) : a < b := by
  obtain ⟨ha', h1⟩ := List.getElem?_eq_some_iff.1 ha
  obtain ⟨hb', h2⟩ := List.getElem?_eq_some_iff.1 hb
  by_contra hab
  rcases Nat.lt_or_ge b a with h | h
  · have := List.pairwise_iff_getElem.1 hl b a hb' ha' h
    omega
  · have : a = b := by omega
    subst this
    omega

theorem posed_sorted (l : List (Row K)) : (posed l).Pairwise fun a b => a.pos ≤ b.pos := by
  have h : ((posed l).map PRow.pos).Pairwise (· ≤ ·) := by
    rw [posed_pos, List.pairwise_map]
    refine List.pairwise_lt_range.imp ?_
    intro a b h
    omega
  rwa [List.pairwise_map] at h

theorem flatMap_users_sorted (us : List ℤ) (f : ℤ → List (PRow K)) (hs : us.Pairwise (· < ·))
    (hf : ∀ u, ∀ r ∈ f u, r.row.user = u) (hp : ∀ u, (f u).Pairwise fun a b => a.pos ≤ b.pos) :
    (us.flatMap f).Pairwise fun a b =>
      a.row.user < b.row.user ∨ (a.row.user = b.row.user ∧ a.pos ≤ b.pos) := by
  induction us with
  | nil => simp
  | cons v us ih =>
    rw [List.pairwise_cons] at hs
    rw [List.flatMap_cons, List.pairwise_append]
    refine ⟨?_, ih hs.2, ?_⟩
    · have hm : (f v).Pairwise fun x y => x ∈ f v ∧ y ∈ f v := by
        rw [List.pairwise_iff_forall_sublist]
        intro a b hab
        exact ⟨hab.subset (by simp), hab.subset (by simp)⟩
      refine (List.pairwise_and_iff.2 ⟨hp v, hm⟩).imp ?_
      rintro a b ⟨h, ha, hb⟩
      exact Or.inr ⟨by rw [hf v a ha, hf v b hb], h⟩
    · intro a ha b hb
      obtain ⟨w, hw, hb⟩ := List.mem_flatMap.1 hb
      have := hs.1 w hw
      rw [hf v a ha, hf w b hb]
      exact Or.inl this

/-- A cropped table is sorted by user and position. -/
theorem cropSpec_sorted (L : ℕ) (df : List (Row K)) (b : Bool) :
    (cropSpec L df b).Pairwise fun a b =>
      a.row.user < b.row.user ∨ (a.row.user = b.row.user ∧ a.pos ≤ b.pos) :=
  flatMap_users_sorted _ _ (groupUsers_sorted df) (posed_user L df b) fun _ => posed_sorted _

theorem forall₂_pairwise {α β : Type} {R : α → β → Prop} {S : α → α → Prop} {T : β → β → Prop}
    (hT : ∀ a a' b b', R a b → R a' b' → S a a' → T b b') {l : List α} {l' : List β}
    (h : List.Forall₂ R l l') (hl : l.Pairwise S) : l'.Pairwise T := by
  induction h with
  | nil => exact List.Pairwise.nil
  | cons h hs ih =>
    rw [List.pairwise_cons] at hl ⊢
    refine ⟨?_, ih hl.2⟩
    intro b' hb'
    obtain ⟨a', ha', hr⟩ := forall₂_mem_right hs hb'
    exact hT _ _ _ _ h hr (hl.1 a' ha')

/-- If the table is sorted by (external user, position) and the user indices are those of first
appearance, the mapped table is sorted too, so that sorting leaves it alone. -/
theorem sortedInds_of_sorted {data data' : List (PRow K)} {users items : List ℤ}
    (hm : MappedTo users items data data')
    (hfa : FirstAppearance (data.map fun p => p.row.user) users)
    (hs : data.Pairwise fun a b =>
      a.row.user < b.row.user ∨ (a.row.user = b.row.user ∧ a.pos ≤ b.pos)) :
    sortedInds data' = data'.map PRow.inter := by
  rw [sortedInds_eq]
  apply stableSort_of_sorted
  rw [List.pairwise_map]
  have hus : users.Pairwise (· < ·) := by
    apply firstAppearance_sorted hfa
    rw [List.pairwise_map]
    refine hs.imp ?_
    intro a b h
    omega
  refine forall₂_pairwise ?_ hm hs
  rintro a a' b b' ⟨hp, _, ⟨k, hk, hku⟩, _⟩ ⟨hp', _, ⟨k', hk', hku'⟩, _⟩ h
  apply decide_eq_true
  show b.row.user < b'.row.user ∨ (b.row.user = b'.row.user ∧ b.pos ≤ b'.pos)
  rcases h with h | ⟨h, hpos⟩
  · left
    have := sorted_getElem?_le hus hku hku' h
    omega
  · right
    rw [h] at hku
    have := getElem?_inj_nodup hfa.nodup hku hku'
    omega

end DynCF
