/-
Properties C30-C33 of the PSI recommender (`models/psi.py`).
-/
import Verif.Lemmas.PsiUpdate
import Verif.Props.Recommend
import Verif.Props.Mapping
import Mathlib.Data.Finset.Card
import Mathlib.Data.Finset.Dedup
import Mathlib.Algebra.Order.Field.Rat

set_option linter.unusedSectionVars false

namespace DynCF
open Matrix
variable {K : Type}

/-! ### The rows of the first three rounds -/

section sets

/-- rows given to the step `new` -/
def psiD1 (us is : List ℤ) (data : List (Row K)) : List (Row K) := data.filter (stepClass us is .new)
/-- rows left after it -/
def psiL1 (us is : List ℤ) (data : List (Row K)) : List (Row K) :=
  data.filter fun x => !stepClass us is .new x
/-- users known after it -/
def psiU1 (us is : List ℤ) (data : List (Row K)) : List ℤ := us ++ pdUnique ((psiD1 us is data).map Row.user)
/-- items known after it -/
def psiI1 (us is : List ℤ) (data : List (Row K)) : List ℤ := is ++ pdUnique ((psiD1 us is data).map Row.item)
/-- rows given to the step `new_users` -/
def psiD2 (us is : List ℤ) (data : List (Row K)) : List (Row K) :=
  (psiL1 us is data).filter (stepClass (psiU1 us is data) (psiI1 us is data) .newUsers)
/-- rows left after it -/
def psiL2 (us is : List ℤ) (data : List (Row K)) : List (Row K) :=
  (psiL1 us is data).filter fun x => !stepClass (psiU1 us is data) (psiI1 us is data) .newUsers x
/-- users known after it -/
def psiU2 (us is : List ℤ) (data : List (Row K)) : List ℤ :=
  psiU1 us is data ++ pdUnique ((psiD2 us is data).map Row.user)
/-- rows given to the step `new_items` -/
def psiD3 (us is : List ℤ) (data : List (Row K)) : List (Row K) :=
  (psiL2 us is data).filter (stepClass (psiU2 us is data) (psiI1 us is data) .newItems)
/-- rows left after it -/
def psiL3 (us is : List ℤ) (data : List (Row K)) : List (Row K) :=
  (psiL2 us is data).filter fun x => !stepClass (psiU2 us is data) (psiI1 us is data) .newItems x
/-- items known after it -/
def psiI3 (us is : List ℤ) (data : List (Row K)) : List ℤ :=
  psiI1 us is data ++ pdUnique ((psiD3 us is data).map Row.item)

variable (us is : List ℤ) (data : List (Row K))

theorem mem_psiD1 (x : Row K) : x ∈ psiD1 us is data ↔ x ∈ data ∧ x.user ∉ us ∧ x.item ∉ is := by
  simp [psiD1, stepClass]

theorem mem_psiL1 (x : Row K) : x ∈ psiL1 us is data ↔ x ∈ data ∧ (x.user ∈ us ∨ x.item ∈ is) := by
  simp only [psiL1, stepClass, List.mem_filter, Bool.not_eq_true', decide_eq_false_iff_not, and_congr_right_iff]
  intro _; tauto

theorem mem_psiU1 (a : ℤ) : a ∈ psiU1 us is data ↔ a ∈ us ∨ ∃ x ∈ psiD1 us is data, x.user = a := by
  simp [psiU1, mem_pdUnique]

theorem mem_psiI1 (a : ℤ) : a ∈ psiI1 us is data ↔ a ∈ is ∨ ∃ x ∈ psiD1 us is data, x.item = a := by
  simp [psiI1, mem_pdUnique]

theorem mem_psiD2 (x : Row K) : x ∈ psiD2 us is data ↔
    x ∈ psiL1 us is data ∧ x.user ∉ psiU1 us is data ∧ x.item ∈ psiI1 us is data := by
  simp [psiD2, stepClass]

theorem mem_psiL2 (x : Row K) : x ∈ psiL2 us is data ↔
    x ∈ psiL1 us is data ∧ (x.user ∈ psiU1 us is data ∨ x.item ∉ psiI1 us is data) := by
  simp only [psiL2, stepClass, List.mem_filter, Bool.not_eq_true', decide_eq_false_iff_not, and_congr_right_iff]
  intro _; tauto

theorem mem_psiU2 (a : ℤ) : a ∈ psiU2 us is data ↔ a ∈ psiU1 us is data ∨
    ∃ x ∈ psiD2 us is data, x.user = a := by
  simp [psiU2, mem_pdUnique]

theorem mem_psiD3 (x : Row K) : x ∈ psiD3 us is data ↔
    x ∈ psiL2 us is data ∧ x.user ∈ psiU2 us is data ∧ x.item ∉ psiI1 us is data := by
  simp [psiD3, stepClass]

theorem mem_psiL3 (x : Row K) : x ∈ psiL3 us is data ↔
    x ∈ psiL2 us is data ∧ (x.user ∉ psiU2 us is data ∨ x.item ∈ psiI1 us is data) := by
  simp only [psiL3, stepClass, List.mem_filter, Bool.not_eq_true', decide_eq_false_iff_not, and_congr_right_iff]
  intro _; tauto

theorem mem_psiI3 (a : ℤ) : a ∈ psiI3 us is data ↔ a ∈ psiI1 us is data ∨
    ∃ x ∈ psiD3 us is data, x.item = a := by
  simp [psiI3, mem_pdUnique]

/-- After the first three rounds every user and item of the chunk is known. -/
theorem psi_all_known (x : Row K) (hx : x ∈ data) :
    x.user ∈ psiU2 us is data ∧ x.item ∈ psiI3 us is data := by
  by_cases h1 : x.user ∉ us ∧ x.item ∉ is
  · have hd : x ∈ psiD1 us is data := (mem_psiD1 ..).2 ⟨hx, h1⟩
    exact ⟨(mem_psiU2 ..).2 (Or.inl ((mem_psiU1 ..).2 (Or.inr ⟨x, hd, rfl⟩))),
      (mem_psiI3 ..).2 (Or.inl ((mem_psiI1 ..).2 (Or.inr ⟨x, hd, rfl⟩)))⟩
  · have hl : x ∈ psiL1 us is data := (mem_psiL1 ..).2 ⟨hx, by tauto⟩
    by_cases h2 : x.user ∉ psiU1 us is data ∧ x.item ∈ psiI1 us is data
    · have hd : x ∈ psiD2 us is data := (mem_psiD2 ..).2 ⟨hl, h2⟩
      exact ⟨(mem_psiU2 ..).2 (Or.inr ⟨x, hd, rfl⟩), (mem_psiI3 ..).2 (Or.inl h2.2)⟩
    · have hl2 : x ∈ psiL2 us is data := (mem_psiL2 ..).2 ⟨hl, by tauto⟩
      have hu : x.user ∈ psiU1 us is data := by
        by_contra hu
        have hi : x.item ∉ psiI1 us is data := fun hi => h2 ⟨hu, hi⟩
        rw [mem_psiU1] at hu
        rw [mem_psiI1] at hi
        tauto
      have hu2 : x.user ∈ psiU2 us is data := (mem_psiU2 ..).2 (Or.inl hu)
      refine ⟨hu2, ?_⟩
      rw [mem_psiI3]
      by_cases hi : x.item ∈ psiI1 us is data
      · exact Or.inl hi
      · exact Or.inr ⟨x, (mem_psiD3 ..).2 ⟨hl2, hu2, hi⟩, rfl⟩

theorem psiD_sub (x : Row K) : (x ∈ psiD1 us is data → x ∈ data) ∧ (x ∈ psiD2 us is data → x ∈ data) ∧
    (x ∈ psiD3 us is data → x ∈ data) := by
  simp only [mem_psiD1, mem_psiD2, mem_psiD3, mem_psiL2, mem_psiL1]
  tauto

theorem psiU2_mem (a : ℤ) : a ∈ psiU2 us is data ↔ a ∈ us ∨ ∃ x ∈ data, x.user = a := by
  constructor
  · rw [mem_psiU2, mem_psiU1]
    rintro ((h | ⟨x, hx, rfl⟩) | ⟨x, hx, rfl⟩)
    · exact Or.inl h
    · exact Or.inr ⟨x, (psiD_sub us is data x).1 hx, rfl⟩
    · exact Or.inr ⟨x, (psiD_sub us is data x).2.1 hx, rfl⟩
  · rintro (h | ⟨x, hx, rfl⟩)
    · exact (mem_psiU2 ..).2 (Or.inl ((mem_psiU1 ..).2 (Or.inl h)))
    · exact (psi_all_known us is data x hx).1

theorem psiI3_mem (a : ℤ) : a ∈ psiI3 us is data ↔ a ∈ is ∨ ∃ x ∈ data, x.item = a := by
  constructor
  · rw [mem_psiI3, mem_psiI1]
    rintro ((h | ⟨x, hx, rfl⟩) | ⟨x, hx, rfl⟩)
    · exact Or.inl h
    · exact Or.inr ⟨x, (psiD_sub us is data x).1 hx, rfl⟩
    · exact Or.inr ⟨x, (psiD_sub us is data x).2.2 hx, rfl⟩
  · rintro (h | ⟨x, hx, rfl⟩)
    · exact (mem_psiI3 ..).2 (Or.inl ((mem_psiI1 ..).2 (Or.inl h)))
    · exact (psi_all_known us is data x hx).2

theorem psi_perm : (psiD1 us is data ++ psiD2 us is data ++ psiD3 us is data ++ psiL3 us is data).Perm data := by
  have h1 : (psiD1 us is data ++ psiL1 us is data).Perm data := List.filter_append_perm _ _
  have h2 : (psiD2 us is data ++ psiL2 us is data).Perm (psiL1 us is data) := List.filter_append_perm _ _
  have h3 : (psiD3 us is data ++ psiL3 us is data).Perm (psiL2 us is data) := List.filter_append_perm _ _
  rw [List.append_assoc, List.append_assoc]
  exact ((h3.append_left _).trans h2).append_left _ |>.trans h1

end sets

section
variable [Field K] [LinearOrder K]

/-- The number of distinct values of `f` on the chunk that are not in `known`. -/
def newCount (known : List ℤ) (l : List ℤ) : ℕ := (l.toFinset \ known.toFinset).card

/-- `update_svd_new_vectors` can only refuse when a chunk has more new users than items are known, or
more new items than users are known. -/
def ManyNew (us is : List ℤ) (data : List (Row K)) : Prop :=
  is.length < newCount us (data.map Row.user) ∨ us.length < newCount is (data.map Row.item)

theorem newCount_le {known l l' : List ℤ} (h : ∀ x ∈ l', x ∈ l ∧ x ∉ known) :
    (pdUnique l').length ≤ newCount known l := by
  rw [newCount, ← List.toFinset_card_of_nodup (nodup_pdUnique l')]
  refine Finset.card_le_card fun x hx => ?_
  rw [List.mem_toFinset, mem_pdUnique] at hx
  simpa using h x hx

/-- Exactly when `update_svd_new_vectors` refuses a chunk. Let `S` be the rows with unknown user and unknown
item. Either the unknown users without a row in `S` are more than the known items together with the items
of `S`; or the unknown items without a row in `S` are more than the users known after the chunk. -/
def Crowded (us is : List ℤ) (data : List (Row K)) : Prop :=
  let S := data.filter fun x => decide (x.user ∉ us ∧ x.item ∉ is)
  (is ++ S.map Row.item).toFinset.card < newCount (us ++ S.map Row.user) (data.map Row.user) ∨
  (us ++ data.map Row.user).toFinset.card < newCount (is ++ S.map Row.item) (data.map Row.item)

theorem Crowded.manyNew {us is : List ℤ} (hu : us.Nodup) (hi : is.Nodup) {data : List (Row K)}
    (h : Crowded us is data) : ManyNew us is data := by
  have h1 : ∀ (a b l : List ℤ), a.Nodup → a.length ≤ (a ++ b).toFinset.card := fun a b l ha => by
    rw [← List.toFinset_card_of_nodup ha]
    exact Finset.card_le_card (by intro x; simp; tauto)
  have h2 : ∀ (a b l : List ℤ), newCount (a ++ b) l ≤ newCount a l := fun a b l =>
    Finset.card_le_card (by intro x; simp; tauto)
  rcases h with h | h
  · exact Or.inl ((h1 _ _ [] hi).trans_lt (h.trans_le (h2 _ _ _)))
  · exact Or.inr ((h1 _ _ [] hu).trans_lt (h.trans_le (h2 _ _ _)))

theorem psiI1_length {us is : List ℤ} (hi : is.Nodup) (data : List (Row K)) :
    (psiI1 us is data).length = (is ++ (psiD1 us is data).map Row.item).toFinset.card := by
  have hn : (psiI1 us is data).Nodup := by
    rw [psiI1, List.nodup_append]
    refine ⟨hi, nodup_pdUnique _, ?_⟩
    intro a ha b hb
    rw [mem_pdUnique] at hb
    obtain ⟨x, hx, rfl⟩ := List.mem_map.1 hb
    rintro rfl
    exact ((mem_psiD1 us is data x).1 hx).2.2 ha
  rw [← List.toFinset_card_of_nodup hn]
  congr 1
  ext a
  simp [mem_psiI1]

theorem psiU2_length {us is : List ℤ} (hu : us.Nodup) (data : List (Row K)) :
    (psiU2 us is data).length = (us ++ data.map Row.user).toFinset.card := by
  have hn : (psiU2 us is data).Nodup := by
    rw [psiU2, List.nodup_append]
    refine ⟨?_, nodup_pdUnique _, ?_⟩
    · rw [psiU1, List.nodup_append]
      refine ⟨hu, nodup_pdUnique _, ?_⟩
      intro a ha b hb
      rw [mem_pdUnique] at hb
      obtain ⟨x, hx, rfl⟩ := List.mem_map.1 hb
      rintro rfl
      exact ((mem_psiD1 us is data x).1 hx).2.1 ha
    · intro a ha b hb
      rw [mem_pdUnique] at hb
      obtain ⟨x, hx, rfl⟩ := List.mem_map.1 hb
      rintro rfl
      exact ((mem_psiD2 us is data x).1 hx).2.1 ha
  rw [← List.toFinset_card_of_nodup hn]
  congr 1
  ext a
  simp [psiU2_mem]

theorem psiD2_count (us is : List ℤ) (data : List (Row K)) :
    (pdUnique ((psiD2 us is data).map Row.user)).length =
      newCount (us ++ (psiD1 us is data).map Row.user) (data.map Row.user) := by
  rw [newCount, ← List.toFinset_card_of_nodup (nodup_pdUnique _)]
  congr 1
  ext a
  rw [List.mem_toFinset, mem_pdUnique, Finset.mem_sdiff, List.mem_toFinset, List.mem_toFinset, List.mem_append,
    List.mem_map, List.mem_map, List.mem_map]
  constructor
  · rintro ⟨x, hx, rfl⟩
    refine ⟨⟨x, (psiD_sub us is data x).2.1 hx, rfl⟩, ?_⟩
    rw [mem_psiD2, mem_psiU1] at hx
    exact hx.2.1
  · rintro ⟨⟨x, hx, rfl⟩, hn⟩
    have hxi : x.item ∈ is := by
      by_contra hxi
      exact hn (Or.inr ⟨x, (mem_psiD1 us is data x).2 ⟨hx, fun h => hn (Or.inl h), hxi⟩, rfl⟩)
    refine ⟨x, (mem_psiD2 us is data x).2 ⟨(mem_psiL1 us is data x).2 ⟨hx, Or.inr hxi⟩, ?_, ?_⟩, rfl⟩
    · rw [mem_psiU1]; exact hn
    · rw [mem_psiI1]; exact Or.inl hxi

theorem psiD3_count (us is : List ℤ) (data : List (Row K)) :
    (pdUnique ((psiD3 us is data).map Row.item)).length =
      newCount (is ++ (psiD1 us is data).map Row.item) (data.map Row.item) := by
  rw [newCount, ← List.toFinset_card_of_nodup (nodup_pdUnique _)]
  congr 1
  ext a
  rw [List.mem_toFinset, mem_pdUnique, Finset.mem_sdiff, List.mem_toFinset, List.mem_toFinset, List.mem_append,
    List.mem_map, List.mem_map, List.mem_map]
  constructor
  · rintro ⟨x, hx, rfl⟩
    refine ⟨⟨x, (psiD_sub us is data x).2.2 hx, rfl⟩, ?_⟩
    rw [mem_psiD3, mem_psiI1] at hx
    exact hx.2.2
  · rintro ⟨⟨x, hx, rfl⟩, hn⟩
    have hxu : x.user ∈ us := by
      by_contra hxu
      exact hn (Or.inr ⟨x, (mem_psiD1 us is data x).2 ⟨hx, hxu, fun h => hn (Or.inl h)⟩, rfl⟩)
    have hU1 : x.user ∈ psiU1 us is data := (mem_psiU1 us is data _).2 (Or.inl hxu)
    refine ⟨x, (mem_psiD3 us is data x).2 ⟨(mem_psiL2 us is data x).2
      ⟨(mem_psiL1 us is data x).2 ⟨hx, Or.inl hxu⟩, Or.inl hU1⟩, ?_, ?_⟩, rfl⟩
    · rw [mem_psiU2]; exact Or.inl hU1
    · rw [mem_psiI1]; exact hn

/-- The condition in terms of the sizes used by the rounds. -/
theorem crowded_iff {us is : List ℤ} (hu : us.Nodup) (hi : is.Nodup) (data : List (Row K)) :
    Crowded us is data ↔
      (psiI1 us is data).length < (pdUnique ((psiD2 us is data).map Row.user)).length ∨
      (psiU2 us is data).length < (pdUnique ((psiD3 us is data).map Row.item)).length := by
  rw [psiI1_length hi, psiU2_length hu, psiD2_count, psiD3_count]
  rfl

/-- The first three rounds. -/
theorem psiRounds3 (env : PSIEnv K) (hsort : ArgSortOk env.argsort) (cfg : PSICfg)
    {st : PSIState K} {us is : List ℤ} {r : ℕ} (h : PsiShape st us is r) (data : List (Row K)) :
    (∃ st1 st3, psiRound env cfg ⟨st, data, []⟩ .new = .ok ⟨st1, psiL1 us is data, [(.new, psiD1 us is data)]⟩ ∧
      [PsiMode.newUsers, .newItems].foldlM (psiRound env cfg)
          ⟨st1, psiL1 us is data, [(.new, psiD1 us is data)]⟩ =
        .ok ⟨st3, psiL3 us is data, [(.new, psiD1 us is data), (.newUsers, psiD2 us is data),
          (.newItems, psiD3 us is data)]⟩ ∧
      PsiShape st3 (psiU2 us is data) (psiI3 us is data) r ∧ st3.history = st.history ∧
      (cfg.init = none → ¬ Crowded us is data)) ∨
    (∃ st1, psiRound env cfg ⟨st, data, []⟩ .new = .ok ⟨st1, psiL1 us is data, [(.new, psiD1 us is data)]⟩ ∧
      [PsiMode.newUsers, .newItems].foldlM (psiRound env cfg)
          ⟨st1, psiL1 us is data, [(.new, psiD1 us is data)]⟩ = .error .valueError ∧
      cfg.init = none ∧ Crowded us is data) := by
  rw [crowded_iff h.user.nodup h.item.nodup]
  rcases psiRound_eq env hsort cfg (l := ⟨st, data, []⟩) h .new with ⟨st1, e1, s1, hh1, -⟩ | ⟨-, -, hb⟩
  swap
  · simp at hb
  have e1' : psiRound env cfg ⟨st, data, []⟩ .new = .ok ⟨st1, psiL1 us is data, [(.new, psiD1 us is data)]⟩ := e1
  have s1' : PsiShape st1 (psiU1 us is data) (psiI1 us is data) r := s1
  rw [e1']
  rcases psiRound_eq env hsort cfg (l := ⟨st1, psiL1 us is data, [(.new, psiD1 us is data)]⟩) s1' .newUsers
    with ⟨st2, e2, s2, hh2, hn2⟩ | ⟨e2, hin, hb⟩
  · have e2' : psiRound env cfg ⟨st1, psiL1 us is data, [(.new, psiD1 us is data)]⟩ .newUsers =
      .ok ⟨st2, psiL2 us is data, [(.new, psiD1 us is data), (.newUsers, psiD2 us is data)]⟩ := e2
    have s2' : PsiShape st2 (psiU2 us is data) (psiI1 us is data) r := s2
    rcases psiRound_eq env hsort cfg (l := ⟨st2, psiL2 us is data, [(.new, psiD1 us is data),
      (.newUsers, psiD2 us is data)]⟩) s2' .newItems with ⟨st3, e3, s3, hh3, hn3⟩ | ⟨e3, hin, hb⟩
    · left
      refine ⟨st1, st3, rfl, ?_, s3, hh3.trans (hh2.trans hh1), ?_⟩
      · rw [List.foldlM_cons, e2', except_bind_ok, List.foldlM_cons, e3, except_bind_ok]
        rfl
      · rintro hin (hb | hb)
        · exact hn2 ⟨hin, Or.inl ⟨rfl, hb⟩⟩
        · exact hn3 ⟨hin, Or.inr ⟨rfl, hb⟩⟩
    · right
      refine ⟨st1, rfl, ?_, hin, ?_⟩
      · rw [List.foldlM_cons, e2', except_bind_ok, List.foldlM_cons, e3]
        rfl
      · rcases hb with ⟨hc, -⟩ | ⟨-, hb⟩
        · cases hc
        · exact Or.inr hb
  · right
    refine ⟨st1, rfl, ?_, hin, ?_⟩
    · rw [List.foldlM_cons, e2]
      rfl
    · rcases hb with ⟨-, hb⟩ | ⟨hc, -⟩
      · exact Or.inl hb
      · cases hc

/-- the step `new_users` gets the rows whose user is not known after the first step -/
theorem psiD2_eq (us is : List ℤ) (data : List (Row K)) :
    psiD2 us is data = data.filter fun x => decide (x.user ∉ us ++ (psiD1 us is data).map Row.user) := by
  unfold psiD2 psiL1
  rw [List.filter_filter]
  refine List.filter_congr fun x hx => ?_
  rw [← Bool.coe_iff_coe]
  simp only [stepClass, Bool.and_eq_true, decide_eq_true_eq, Bool.not_eq_true', decide_eq_false_iff_not, mem_psiU1, mem_psiI1,
    List.mem_append, List.mem_map]
  refine ⟨fun h => h.1.1, fun h => ⟨⟨h, ?_⟩, ?_⟩⟩
  · by_contra hn
    exact h (Or.inr ⟨x, (mem_psiD1 us is data x).2 ⟨hx, fun hu => h (Or.inl hu), fun hi => hn (Or.inl hi)⟩, rfl⟩)
  · exact fun hn => h (Or.inr ⟨x, (mem_psiD1 us is data x).2 ⟨hx, hn⟩, rfl⟩)

/-- the step `new_items` gets the rows whose item is not known after the first step -/
theorem psiD3_eq (us is : List ℤ) (data : List (Row K)) :
    psiD3 us is data = data.filter fun x => decide (x.item ∉ is ++ (psiD1 us is data).map Row.item) := by
  unfold psiD3 psiL2 psiL1
  rw [List.filter_filter, List.filter_filter]
  refine List.filter_congr fun x hx => ?_
  rw [← Bool.coe_iff_coe]
  simp only [stepClass, Bool.and_eq_true, decide_eq_true_eq, Bool.not_eq_true', decide_eq_false_iff_not, mem_psiU2, mem_psiU1,
    mem_psiI1, List.mem_append, List.mem_map]
  refine ⟨fun h => h.1.1.2, fun h => ?_⟩
  have hn : ¬ (x.user ∉ us ∧ x.item ∉ is) := fun hn => h (Or.inr ⟨x, (mem_psiD1 us is data x).2 ⟨hx, hn⟩, rfl⟩)
  have hu : x.user ∈ us := by
    by_contra hu
    exact hn ⟨hu, fun hi => h (Or.inl hi)⟩
  exact ⟨⟨⟨Or.inl (Or.inl hu), h⟩, fun hc => hc.1 (Or.inl hu)⟩, hn⟩

/-- the step `old` gets the rows that none of the other steps got -/
theorem psiL3_eq (us is : List ℤ) (data : List (Row K)) :
    psiL3 us is data = data.filter fun x => decide ((x.user ∈ us ∨ x.item ∈ is) ∧
      x.user ∈ us ++ (psiD1 us is data).map Row.user ∧ x.item ∈ is ++ (psiD1 us is data).map Row.item) := by
  unfold psiL3 psiL2 psiL1
  rw [List.filter_filter, List.filter_filter]
  refine List.filter_congr fun x hx => ?_
  rw [← Bool.coe_iff_coe]
  simp only [stepClass, Bool.and_eq_true, decide_eq_true_eq, Bool.not_eq_true', decide_eq_false_iff_not, mem_psiU2, mem_psiU1,
    mem_psiI1, List.mem_append, List.mem_map]
  generalize (∃ y ∈ psiD1 us is data, y.user = x.user) = b
  generalize (∃ y ∈ psiD2 us is data, y.user = x.user) = c
  generalize (∃ y ∈ psiD1 us is data, y.item = x.item) = d
  by_cases h1 : x.user ∈ us <;> by_cases h2 : x.item ∈ is <;> by_cases h3 : b <;> by_cases h4 : c <;> by_cases h5 : d <;>
    simp [h1, h2, h3, h4, h5]

/-- The rounds of one update: shape of the result and log of the steps. -/
theorem psiRounds_eq (env : PSIEnv K) (hsort : ArgSortOk env.argsort) (cfg : PSICfg)
    {st : PSIState K} {us is : List ℤ} {r : ℕ} (h : PsiShape st us is r) (data : List (Row K)) :
    (∃ l, psiRounds env cfg st data = .ok l ∧ PsiShape l.st (psiU2 us is data) (psiI3 us is data) r ∧
      l.st.history = st.history ∧ (cfg.init = none → l.left = [] ∧ ¬ Crowded us is data) ∧
      l.log = [(.new, psiD1 us is data), (.newUsers, psiD2 us is data), (.newItems, psiD3 us is data),
        (.old, if cfg.init = none then psiL3 us is data else if cfg.integrator then data
          else psiL1 us is data)]) ∨
    (psiRounds env cfg st data = .error .valueError ∧ cfg.init = none ∧ cfg.integrator = false ∧
      Crowded us is data) ∨
    (psiRounds env cfg st data = .error .runtimeError ∧ cfg.init = none ∧ cfg.integrator = true) := by
  have hold : ∀ x ∈ data, stepClass (psiU2 us is data) (psiI3 us is data) .old x = true := fun x hx => by
    simp only [stepClass, decide_eq_true_eq]
    exact psi_all_known us is data x hx
  have hL1 : ∀ x ∈ psiL1 us is data, x ∈ data := fun x hx => ((mem_psiL1 us is data x).1 hx).1
  have hL3 : ∀ x ∈ psiL3 us is data, x ∈ data := fun x hx => by
    simp only [mem_psiL3, mem_psiL2, mem_psiL1] at hx
    exact hx.1.1.1
  unfold psiRounds
  rcases hin : cfg.init with - | e <;> rcases hni : cfg.integrator with - | - <;> dsimp only
  · rcases psiRounds3 env hsort cfg h data with ⟨st1, st3, e1, e3, s3, hh, hnc⟩ | ⟨st1, e1, e3, -, hm⟩
    · left
      rcases psiRound_eq env hsort cfg (l := ⟨st3, psiL3 us is data, [(.new, psiD1 us is data),
        (.newUsers, psiD2 us is data), (.newItems, psiD3 us is data)]⟩) s3 .old
        with ⟨st4, e4, s4, hh4, -⟩ | ⟨-, -, hb⟩
      swap
      · simp at hb
      have hf : (psiL3 us is data).filter (stepClass (psiU2 us is data) (psiI3 us is data) .old) =
          psiL3 us is data := List.filter_eq_self.2 fun x hx => hold x (hL3 x hx)
      have hf' : (psiL3 us is data).filter (fun x => !stepClass (psiU2 us is data) (psiI3 us is data) .old x) =
          [] := List.filter_eq_nil_iff.2 fun x hx => by simp [hold x (hL3 x hx)]
      dsimp only at e4 s4 hh4
      rw [hf, hf'] at e4
      refine ⟨⟨st4, [], [(.new, psiD1 us is data), (.newUsers, psiD2 us is data),
        (.newItems, psiD3 us is data), (.old, psiL3 us is data)]⟩, ?_, s4, hh4.trans hh, fun _ => ⟨rfl, hnc hin⟩, ?_⟩
      · rw [show [PsiMode.new, .newUsers, .newItems, .old] = .new :: ([.newUsers, .newItems] ++ [.old]) from rfl,
          List.foldlM_cons, e1, except_bind_ok, List.foldlM_append, e3, except_bind_ok, List.foldlM_cons, e4,
          except_bind_ok]
        rfl
      · simp
    · right; left
      refine ⟨?_, rfl, rfl, hm⟩
      rw [show [PsiMode.new, .newUsers, .newItems, .old] = .new :: ([.newUsers, .newItems] ++ [.old]) from rfl,
        List.foldlM_cons, e1, except_bind_ok, List.foldlM_append, e3]
      rfl
  · right; right
    exact ⟨rfl, rfl, rfl⟩
  · left
    unfold psiRoundsInit
    rcases psiRounds3 env hsort cfg h data with ⟨st1, st3, e1, e3, s3, hh, -⟩ | ⟨-, -, -, hc, -⟩
    swap
    · rw [hin] at hc; cases hc
    rcases updateFactors_eq env hsort cfg s3 (psiL1 us is data) .old (fun x hx => hold x (hL1 x hx))
      with ⟨st4, e4, s4, hh4, -⟩ | ⟨-, hc, -⟩
    swap
    · rw [hin] at hc; cases hc
    rw [e1, except_bind_ok, e3, except_bind_ok, e4, except_bind_ok]
    exact ⟨_, rfl, s4, hh4.trans hh, fun hc => (by cases hc), by simp⟩
  · left
    unfold psiRoundsIntegrator
    rcases psiRounds3 env hsort cfg h data with ⟨st1, st3, e1, e3, s3, hh, -⟩ | ⟨-, -, -, hc, -⟩
    swap
    · rw [hin] at hc; cases hc
    rcases updateFactors_eq env hsort cfg s3 data .old hold
      with ⟨st4, e4, s4, hh4, -⟩ | ⟨-, hc, -⟩
    swap
    · rw [hin] at hc; cases hc
    rw [List.foldlM_cons, e1, except_bind_ok, e3, except_bind_ok, e4, except_bind_ok]
    exact ⟨_, rfl, s4, hh4.trans hh, fun hc => (by cases hc), by simp⟩

/-! ### C30 -/

/-- **C30** The default configuration: four steps, in this order; together they get every row of the
chunk exactly once and none is left; the first gets exactly the rows with unknown user and unknown item;
each gets only rows of its class with respect to what is known at that time (`us`, `is` and the users
and items of the earlier steps). -/
theorem C30_partition (env : PSIEnv K) (hsort : ArgSortOk env.argsort) (cfg : PSICfg)
    (hcfg : cfg.init = none) {st : PSIState K} {us is : List ℤ} {r : ℕ} (h : PsiShape st us is r)
    (data : List (Row K)) (l : PsiLoop K) (hl : psiRounds env cfg st data = .ok l) :
    ∃ d1 d2 d3 d4, l.log = [(.new, d1), (.newUsers, d2), (.newItems, d3), (.old, d4)] ∧ l.left = [] ∧
      (d1 ++ d2 ++ d3 ++ d4).Perm data ∧
      d1 = data.filter (fun x => decide (x.user ∉ us ∧ x.item ∉ is)) ∧
      d2 = data.filter (fun x => decide (x.user ∉ us ++ d1.map Row.user)) ∧
      d3 = data.filter (fun x => decide (x.item ∉ is ++ d1.map Row.item)) ∧
      d4 = data.filter (fun x => decide ((x.user ∈ us ∨ x.item ∈ is) ∧ x.user ∈ us ++ d1.map Row.user ∧
        x.item ∈ is ++ d1.map Row.item)) ∧
      (∀ x ∈ d2, x.user ∉ us ++ d1.map Row.user ∧ x.item ∈ is ++ d1.map Row.item) ∧
      (∀ x ∈ d3, x.user ∈ us ++ d1.map Row.user ++ d2.map Row.user ∧ x.item ∉ is ++ d1.map Row.item) ∧
      ∀ x ∈ d4, x.user ∈ us ++ d1.map Row.user ++ d2.map Row.user ∧
        x.item ∈ is ++ d1.map Row.item ++ d3.map Row.item := by
  rcases psiRounds_eq env hsort cfg h data with ⟨l', e, -, -, hleft, hlog⟩ | ⟨e, -⟩ | ⟨e, -⟩
  · rw [hl] at e
    cases e
    rw [if_pos hcfg] at hlog
    refine ⟨_, _, _, _, hlog, (hleft hcfg).1, psi_perm us is data, rfl, psiD2_eq us is data, psiD3_eq us is data,
      psiL3_eq us is data, ?_, ?_, ?_⟩
    · intro x hx
      rw [mem_psiD2, mem_psiU1, mem_psiI1] at hx
      simpa using hx.2
    · intro x hx
      rw [mem_psiD3, mem_psiU2, mem_psiU1, mem_psiI1] at hx
      simpa [or_assoc] using hx.2
    · intro x hx
      simp only [mem_psiL3, mem_psiL2, mem_psiL1] at hx
      have := psi_all_known us is data x hx.1.1.1
      rw [mem_psiU2, mem_psiU1, mem_psiI3, mem_psiI1] at this
      simpa [or_assoc] using this
  · rw [hl] at e; cases e
  · rw [hl] at e; cases e

/-- **C30**, other configurations: only the rows with unknown user and unknown item are used by the
first step, the rows whose user (item) is still unknown by the second (third) one; the last step (`psi_step`) gets all other rows (no integrator for new ids) or all rows. -/
theorem C30_embeddings (env : PSIEnv K) (hsort : ArgSortOk env.argsort) (cfg : PSICfg)
    (hcfg : cfg.init ≠ none) {st : PSIState K} {us is : List ℤ} {r : ℕ} (h : PsiShape st us is r)
    (data : List (Row K)) :
    ∃ l d1, psiRounds env cfg st data = .ok l ∧ d1 = data.filter (fun x => decide (x.user ∉ us ∧ x.item ∉ is)) ∧
      l.log = [(.new, d1), (.newUsers, data.filter fun x => decide (x.user ∉ us ++ d1.map Row.user)),
        (.newItems, data.filter fun x => decide (x.item ∉ is ++ d1.map Row.item)), (.old, if cfg.integrator then data
          else data.filter (fun x => !decide (x.user ∉ us ∧ x.item ∉ is)))] := by
  rcases psiRounds_eq env hsort cfg h data with ⟨l, e, -, -, -, hlog⟩ | ⟨-, hc, -⟩ | ⟨-, hc, -⟩
  · rw [if_neg hcfg] at hlog
    refine ⟨l, psiD1 us is data, e, rfl, ?_⟩
    rw [← psiD2_eq, ← psiD3_eq]
    exact hlog
  · exact absurd hc hcfg
  · exact absurd hc hcfg

/-! ### C31 -/

/-- What holds between updates: mappings and factors fit together, the history lists the (mapped) rows
of all tables seen, in order, and the stored prediction factors have the same sizes. -/
structure PsiInv (st : PSIState K) (us is : List ℤ) (r : ℕ) (seen : List (Row K)) : Prop where
  shape : PsiShape st us is r
  pos : 1 ≤ r
  big : r < us.length ∧ r < is.length
  hist : List.Forall₂ (fun (x : Row K) (p : ℤ × ℤ) => ∃ a b : ℕ, p = ((a : ℤ), (b : ℤ)) ∧
    us[a]? = some x.user ∧ is[b]? = some x.item) seen st.history
  users : ∀ x, x ∈ us ↔ ∃ t ∈ seen, t.user = x
  items : ∀ x, x ∈ is ↔ ∃ t ∈ seen, t.item = x
  uf : st.userFactors.rows = us.length ∧ st.userFactors.cols = r
  itf : st.itemFactors.rows = r ∧ st.itemFactors.cols = is.length

theorem inferDim_aux (a : List ℤ) (m n : ℕ) :
    a.foldl (fun m x => max m (x + 1).toNat) m ≤ n ↔ m ≤ n ∧ ∀ x ∈ a, (x + 1).toNat ≤ n := by
  induction a generalizing m with
  | nil => simp
  | cons x a ih =>
    rw [List.foldl_cons, ih]
    simp only [List.mem_cons, forall_eq_or_imp]
    constructor
    · rintro ⟨h1, h2⟩; exact ⟨by omega, by omega, h2⟩
    · rintro ⟨h1, h2, h3⟩; exact ⟨by omega, h3⟩

theorem inferDim_le (a : List ℤ) (n : ℕ) : inferDim a ≤ n ↔ ∀ x ∈ a, (x + 1).toNat ≤ n := by
  unfold inferDim
  rw [inferDim_aux]; simp

/-- Indices `0..n-1`, all used: the inferred dimension is `n`. -/
theorem inferDim_eq {a : List ℤ} {n : ℕ} (h1 : ∀ x ∈ a, ∃ k : ℕ, x = k ∧ k < n)
    (h2 : ∀ k < n, (k : ℤ) ∈ a) : inferDim a = n := by
  refine le_antisymm ((inferDim_le a n).2 fun x hx => ?_) ?_
  · obtain ⟨k, rfl, hk⟩ := h1 x hx; omega
  · by_contra hlt
    have hlt : inferDim a < n := by omega
    have := (inferDim_le a _).1 le_rfl _ (h2 _ hlt)
    omega

theorem psiTrain_eq (env : PSIEnv K) (cfg : PSICfg) (data : List (Row K)) :
    ∃ us is, FirstAppearance (data.map Row.user) us ∧ FirstAppearance (data.map Row.item) is ∧
      ((∃ st, svdTrain env cfg data = .ok st ∧ PsiInv st us is cfg.rank data ∧
        1 ≤ cfg.rank ∧ cfg.rank < min us.length is.length) ∨
      (svdTrain env cfg data = .error .valueError ∧
        ¬ (1 ≤ cfg.rank ∧ cfg.rank < min us.length is.length))) := by
  obtain ⟨df', m, us, is, he, hfu, hu, hfi, hi, hrel⟩ := C01_training_mapping data
  refine ⟨us, is, hfu, hfi, ?_⟩
  have hmem : ∀ x ∈ df', (∃ k : ℕ, x.user = k ∧ k < us.length) ∧ ∃ k : ℕ, x.item = k ∧ k < is.length := by
    intro x hx
    obtain ⟨y, hy, -, ⟨k, h1, h2⟩, ⟨k', h3, h4⟩⟩ := forall₂_mem_right hrel hx
    exact ⟨⟨k, h1, (List.getElem?_eq_some_iff.1 h2).1⟩, ⟨k', h3, (List.getElem?_eq_some_iff.1 h4).1⟩⟩
  have hd0 : inferDim ((df'.map fun r => ((r.user, r.item), r.rel)).map fun x => x.1.1) = us.length := by
    rw [List.map_map]
    refine inferDim_eq ?_ ?_
    · intro x hx
      obtain ⟨y, hy, rfl⟩ := List.mem_map.1 hx
      exact (hmem y hy).1
    · intro k hk
      have : us[k] ∈ data.map Row.user := (hfu.mem _).1 (List.getElem_mem hk)
      obtain ⟨y, hy, hyk⟩ := List.mem_map.1 this
      obtain ⟨z, hz, -, ⟨k', h1, h2⟩, -⟩ := forall₂_mem_left hrel hy
      have hk' : k' = k := by
        obtain ⟨hlt, h2⟩ := List.getElem?_eq_some_iff.1 h2
        exact (List.Nodup.getElem_inj_iff hfu.nodup).1 (h2.trans hyk)
      refine List.mem_map.2 ⟨z, hz, ?_⟩
      simp only [Function.comp]
      rw [h1, hk']
  have hd1 : inferDim ((df'.map fun r => ((r.user, r.item), r.rel)).map fun x => x.1.2) = is.length := by
    rw [List.map_map]
    refine inferDim_eq ?_ ?_
    · intro x hx
      obtain ⟨y, hy, rfl⟩ := List.mem_map.1 hx
      exact (hmem y hy).2
    · intro k hk
      have : is[k] ∈ data.map Row.item := (hfi.mem _).1 (List.getElem_mem hk)
      obtain ⟨y, hy, hyk⟩ := List.mem_map.1 this
      obtain ⟨z, hz, -, -, ⟨k', h1, h2⟩⟩ := forall₂_mem_left hrel hy
      have hk' : k' = k := by
        obtain ⟨hlt, h2⟩ := List.getElem?_eq_some_iff.1 h2
        exact (List.Nodup.getElem_inj_iff hfi.nodup).1 (h2.trans hyk)
      refine List.mem_map.2 ⟨z, hz, ?_⟩
      simp only [Function.comp]
      rw [h1, hk']
  unfold svdTrain
  rw [he, except_bind_ok]
  dsimp only
  by_cases hemp : df' = []
  · right
    subst hemp
    have hdat : data = [] := by cases hrel; rfl
    subst hdat
    refine ⟨rfl, ?_⟩
    have : us = [] := List.eq_nil_iff_forall_not_mem.2 fun x hx => by simpa using (hfu.mem x).1 hx
    subst this
    simp
  · have hcoo : ∃ A : Matrix (Fin us.length) (Fin is.length) K,
        cooInfer (df'.map fun r => ((r.user, r.item), r.rel)) = .ok ⟨us.length, is.length, A⟩ := by
      unfold cooInfer
      rw [if_neg (by simpa using hemp), hd0, hd1]
      unfold getMappedMatrix
      rw [if_pos]
      · exact ⟨_, rfl⟩
      · rw [List.all_eq_true]
        intro x hx
        obtain ⟨y, hy, rfl⟩ := List.mem_map.1 hx
        obtain ⟨⟨k, h1, h2⟩, ⟨k', h3, h4⟩⟩ := hmem y hy
        simp only [decide_eq_true_eq, h1, h3]
        omega
    obtain ⟨A, hA⟩ := hcoo
    rw [hA, except_bind_ok]
    unfold svdStep
    dsimp only
    split
    · rename_i hr
      left
      simp only [except_bind_ok, Mat.diag, Mat.revRows, Mat.revCols, Mat.dot_mk]
      have hh : List.Forall₂ (fun (x : Row K) (p : ℤ × ℤ) => ∃ a b : ℕ, p = ((a : ℤ), (b : ℤ)) ∧
          us[a]? = some x.user ∧ is[b]? = some x.item) data (df'.map fun r => (r.user, r.item)) := by
        rw [List.forall₂_map_right_iff]
        refine hrel.imp ?_
        rintro x y ⟨-, ⟨k, h1, h2⟩, ⟨k', h3, h4⟩⟩
        exact ⟨k, k', by rw [h1, h3], h2, h4⟩
      refine ⟨_, rfl, ⟨⟨hu, hi, rfl, rfl, rfl, rfl, ⟨rfl, rfl⟩, ?_, ?_⟩, hr.1, ⟨?_, ?_⟩, hh, ?_, ?_,
        ⟨rfl, rfl⟩, ⟨rfl, rfl⟩⟩, hr⟩
      · omega
      · omega
      · omega
      · omega
      · intro x; rw [hfu.mem]; simp
      · intro x; rw [hfi.mem]; simp
    · rename_i hr
      right
      exact ⟨rfl, hr⟩

/-- **C31** (training) Training succeeds exactly when `1 ≤ rank < min(#users, #items)` and then the
invariant holds for the users and items of the table in order of first appearance. -/
theorem C31_train (env : PSIEnv K) (cfg : PSICfg) (data : List (Row K)) :
    ∃ us is, FirstAppearance (data.map Row.user) us ∧ FirstAppearance (data.map Row.item) is ∧
      ((∃ st, svdTrain env cfg data = .ok st ∧ PsiInv st us is cfg.rank data ∧
        1 ≤ cfg.rank ∧ cfg.rank < min us.length is.length) ∨
      (svdTrain env cfg data = .error .valueError ∧
        ¬ (1 ≤ cfg.rank ∧ cfg.rank < min us.length is.length))) := psiTrain_eq env cfg data

theorem psiUpdateHistory_eq {st : PSIState K} {us is : List ℤ} (hu : Represents st.maps.user us)
    (hi : Represents st.maps.item is) (data : List (Row K)) (h1 : ∀ x ∈ data, x.user ∈ us)
    (h2 : ∀ x ∈ data, x.item ∈ is) :
    psiUpdateHistory st data = .ok { st with
      history := st.history ++ data.map fun x => (((us.idxOf x.user : ℕ) : ℤ), ((is.idxOf x.item : ℕ) : ℤ)) } := by
  unfold psiUpdateHistory
  rw [mapM_getItem hu.idxMap Row.user data h1, except_bind_ok, mapM_getItem hi.idxMap Row.item data h2,
    except_bind_ok, List.zip_map']
  rfl

/-- **C31** One update, in any configuration. Either it succeeds, then the invariant holds again: known
ids keep their indices (`us`, `is` are prefixes), exactly the ids of the chunk become known, sizes of
factors and mappings agree and the chunk is recorded in the history. Or it raises, for one of two
reasons: too many new users (items) when appending vectors, exactly in the case `Crowded`; or the unsupported
combination of configuration attributes. In particular no lookup fails and no index is out of range. -/
theorem C31_update (env : PSIEnv K) (hsort : ArgSortOk env.argsort) (cfg : PSICfg)
    {st : PSIState K} {us is : List ℤ} {r : ℕ} {seen : List (Row K)} (h : PsiInv st us is r seen)
    (data : List (Row K)) :
    (∃ st' eu ei, psiUpdate env cfg st data = .ok st' ∧ PsiInv st' (us ++ eu) (is ++ ei) r (seen ++ data) ∧
      (cfg.init = none → ¬ Crowded us is data)) ∨
    (psiUpdate env cfg st data = .error .valueError ∧ cfg.init = none ∧ cfg.integrator = false ∧
      Crowded us is data) ∨
    (psiUpdate env cfg st data = .error .runtimeError ∧ cfg.init = none ∧ cfg.integrator = true) := by
  unfold psiUpdate
  rcases psiRounds_eq env hsort cfg h.shape data with ⟨l, e, hs, hh, hnc, -⟩ | ⟨e, hb⟩ | ⟨e, hb⟩
  · left
    obtain ⟨eu, heu⟩ : ∃ eu, psiU2 us is data = us ++ eu := ⟨_, by rw [psiU2, psiU1, List.append_assoc]⟩
    obtain ⟨ei, hei⟩ : ∃ ei, psiI3 us is data = is ++ ei := ⟨_, by rw [psiI3, psiI1, List.append_assoc]⟩
    have hk := psi_all_known us is data
    have mu := psiU2_mem us is data
    have mi := psiI3_mem us is data
    rw [heu, hei] at hs
    rw [heu] at mu
    rw [hei] at mi
    rw [heu, hei] at hk
    rw [e, except_bind_ok, psiUpdateHistory_eq hs.user hs.item data (fun x hx => (hk x hx).1)
      (fun x hx => (hk x hx).2), except_bind_ok]
    obtain ⟨S, hS⟩ := SArg.toMat_mk hs.sDim
    obtain ⟨⟨maps, u, s, ⟨vr, vc, V⟩, hist, uf, itf⟩, left, log⟩ := l
    have hv1 := hs.vRows
    have hv2 := hs.vCols
    dsimp only at hh hS hv1 hv2 ⊢
    subst hv1 hv2
    rw [hS, Mat.dot_mk, except_bind_ok]
    refine ⟨_, eu, ei, rfl, ⟨⟨hs.user, hs.item, hs.uRows, hs.uCols, rfl, rfl, ⟨rfl, rfl⟩, hs.ru, hs.ri⟩,
      h.pos, ?_, ?_, ?_, ?_, ⟨hs.uRows, hs.uCols⟩, ⟨rfl, rfl⟩⟩, fun hin => (hnc hin).2⟩
    · have := h.big
      simp only [List.length_append]
      omega
    · subst hh
      refine List.rel_append ?_ ?_
      · refine h.hist.imp ?_
        rintro x p ⟨a, b, rfl, ha, hb⟩
        exact ⟨a, b, rfl, List.getElem?_append_left (List.getElem?_eq_some_iff.1 ha).1 ▸ ha,
          List.getElem?_append_left (List.getElem?_eq_some_iff.1 hb).1 ▸ hb⟩
      · rw [List.forall₂_map_right_iff, List.forall₂_same]
        intro x hx
        refine ⟨_, _, rfl, ?_, ?_⟩
        · rw [List.getElem?_eq_getElem (List.idxOf_lt_length_of_mem (hk x hx).1)]; simp
        · rw [List.getElem?_eq_getElem (List.idxOf_lt_length_of_mem (hk x hx).2)]; simp
    · intro a
      rw [mu, h.users]
      simp only [List.mem_append]
      constructor
      · rintro (⟨t, ht, rfl⟩ | ⟨t, ht, rfl⟩)
        · exact ⟨t, Or.inl ht, rfl⟩
        · exact ⟨t, Or.inr ht, rfl⟩
      · rintro ⟨t, ht | ht, rfl⟩
        · exact Or.inl ⟨t, ht, rfl⟩
        · exact Or.inr ⟨t, ht, rfl⟩
    · intro a
      rw [mi, h.items]
      simp only [List.mem_append]
      constructor
      · rintro (⟨t, ht, rfl⟩ | ⟨t, ht, rfl⟩)
        · exact ⟨t, Or.inl ht, rfl⟩
        · exact ⟨t, Or.inr ht, rfl⟩
      · rintro ⟨t, ht | ht, rfl⟩
        · exact Or.inl ⟨t, ht, rfl⟩
        · exact Or.inr ⟨t, ht, rfl⟩
  · right; left
    rw [e]
    exact ⟨rfl, hb⟩
  · right; right
    rw [e]
    exact ⟨rfl, hb⟩

theorem psiUpdates_inv (env : PSIEnv K) (hsort : ArgSortOk env.argsort) (cfg : PSICfg)
    (chunks : List (List (Row K))) {st : PSIState K} {us is : List ℤ} {r : ℕ} {seen : List (Row K)}
    (h : PsiInv st us is r seen) (st' : PSIState K) (hrun : chunks.foldlM (psiUpdate env cfg) st = .ok st') :
    ∃ eu ei, PsiInv st' (us ++ eu) (is ++ ei) r (seen ++ chunks.flatten) := by
  induction chunks generalizing st us is seen with
  | nil => cases hrun; exact ⟨[], [], by simpa using h⟩
  | cons c cs ih =>
    rw [List.foldlM_cons] at hrun
    rcases C31_update env hsort cfg h c with ⟨st1, eu, ei, e, h1, -⟩ | ⟨e, -⟩ | ⟨e, -⟩
    · rw [e, except_bind_ok] at hrun
      obtain ⟨eu', ei', h2⟩ := ih h1 hrun
      exact ⟨eu ++ eu', ei ++ ei', by simpa [List.append_assoc] using h2⟩
    · rw [e] at hrun; cases hrun
    · rw [e] at hrun; cases hrun

/-- **C31** Any successful training followed by any successful sequence of updates. -/
theorem C31_run (env : PSIEnv K) (hsort : ArgSortOk env.argsort) (cfg : PSICfg) (train : List (Row K))
    (chunks : List (List (Row K))) (st : PSIState K) (hrun : psiRun env cfg train chunks = .ok st) :
    ∃ us is, PsiInv st us is cfg.rank (train ++ chunks.flatten) ∧
      (∃ us0, FirstAppearance (train.map Row.user) us0 ∧ us0 <+: us) ∧
      ∃ is0, FirstAppearance (train.map Row.item) is0 ∧ is0 <+: is := by
  unfold psiRun at hrun
  obtain ⟨us, is, hu, hi, ⟨st0, e, hinv, -⟩ | ⟨e, -⟩⟩ := psiTrain_eq env cfg train
  · rw [e, except_bind_ok] at hrun
    obtain ⟨eu, ei, h⟩ := psiUpdates_inv env hsort cfg chunks hinv st hrun
    exact ⟨_, _, h, ⟨us, hu, List.prefix_append _ _⟩, ⟨is, hi, List.prefix_append _ _⟩⟩
  · rw [e] at hrun; cases hrun

/-! ### C32 -/

theorem represents_get_append {m : Mapping ℤ} {ids c : List ℤ} (h : Represents m (ids ++ c)) {x : ℤ}
    {j : ℕ} (hx : m.old2new.get? x = some ((ids.length + j : ℕ) : ℤ)) (hj : j < c.length) :
    c.get ⟨j, hj⟩ = x := by
  obtain ⟨k, hk, hk2⟩ := (h.old2new x _).1 hx
  have : k = ids.length + j := by exact_mod_cast hk.symm
  subst this
  rw [List.getElem?_append_right (by omega), Nat.add_sub_cancel_left] at hk2
  exact (List.getElem?_eq_some_iff.1 hk2).2

theorem represents_get {m : Mapping ℤ} {ids : List ℤ} (h : Represents m ids) {x : ℤ}
    {j : ℕ} (hx : m.old2new.get? x = some (j : ℤ)) (hj : j < ids.length) : ids.get ⟨j, hj⟩ = x := by
  obtain ⟨k, hk, hk2⟩ := (h.old2new x _).1 hx
  have : k = j := by exact_mod_cast hk.symm
  subst this
  exact (List.getElem?_eq_some_iff.1 hk2).2

theorem represents_new_mem {m : Mapping ℤ} {ids c : List ℤ} (h : Represents m (ids ++ pdUnique c)) {x : ℤ}
    (hx : x ∈ c) : ∃ j : ℕ, j < (pdUnique c).length ∧
      m.old2new.get? x = some ((ids.length + j : ℕ) : ℤ) := by
  obtain ⟨j, hj, rfl⟩ := List.mem_iff_getElem.1 ((mem_pdUnique c x).2 hx)
  refine ⟨j, hj, (h.old2new _ _).2 ⟨ids.length + j, rfl, ?_⟩⟩
  rw [List.getElem?_append_right (by omega), Nat.add_sub_cancel_left, List.getElem?_eq_getElem hj]

/-- The sum of the relevances of the rows of user `x` and item `y`. -/
def relOf (data : List (Row K)) (x y : ℤ) : K :=
  ((data.filter fun t => decide (t.user = x ∧ t.item = y)).map Row.rel).sum

/-- **C32** New users: column `j` of the matrix that is appended as column `#known + j` belongs to the
user whose new index is `#known + j`; its entry in row `i` is the sum for the item of index `i`. Every
user of the chunk has such a column. -/
theorem C32_users {st : PSIState K} {us is : List ℤ} {r : ℕ} (h : PsiShape st us is r)
    (data : List (Row K)) (hd : ∀ x ∈ data, x.user ∉ us ∧ x.item ∈ is) :
    ∃ nc maps, ∃ N : Matrix (Fin is.length) (Fin nc) K,
      processData st data .newUsers = .ok (⟨is.length, nc, N⟩, { st with maps := maps }) ∧
      (∀ t ∈ data, ∃ j : Fin nc, maps.user.old2new.get? t.user = some ((us.length + j : ℕ) : ℤ)) ∧
      ∀ (i : Fin is.length) (j : Fin nc) (x y : ℤ),
        maps.user.old2new.get? x = some ((us.length + j : ℕ) : ℤ) →
        maps.item.old2new.get? y = some ((i : ℕ) : ℤ) → N i j = relOf data x y := by
  obtain ⟨maps, da, e, hu, hi, rfl⟩ := processData_eq h data .newUsers
    (fun x hx => by simpa [stepClass] using hd x hx)
  refine ⟨_, maps, _, e, ?_, ?_⟩
  · intro t ht
    obtain ⟨j, hj, hg⟩ := represents_new_mem (c := data.map Row.user) hu (List.mem_map_of_mem ht)
    exact ⟨⟨j, hj⟩, hg⟩
  · intro i j x y hx hy
    have a1 := represents_get_append hu hx j.2
    have a2 := represents_get (ids := is) hi hy i.2
    rw [sumAt, Matrix.of_apply, relOf, a1, a2]
    refine congrArg (fun l => (List.map Row.rel l).sum) (List.filter_congr fun t _ => ?_)
    exact decide_eq_decide.2 and_comm

/-- **C32** New items. -/
theorem C32_items {st : PSIState K} {us is : List ℤ} {r : ℕ} (h : PsiShape st us is r)
    (data : List (Row K)) (hd : ∀ x ∈ data, x.user ∈ us ∧ x.item ∉ is) :
    ∃ nc maps, ∃ N : Matrix (Fin us.length) (Fin nc) K,
      processData st data .newItems = .ok (⟨us.length, nc, N⟩, { st with maps := maps }) ∧
      (∀ t ∈ data, ∃ j : Fin nc, maps.item.old2new.get? t.item = some ((is.length + j : ℕ) : ℤ)) ∧
      ∀ (i : Fin us.length) (j : Fin nc) (x y : ℤ),
        maps.user.old2new.get? x = some ((i : ℕ) : ℤ) →
        maps.item.old2new.get? y = some ((is.length + j : ℕ) : ℤ) → N i j = relOf data x y := by
  obtain ⟨maps, da, e, hu, hi, rfl⟩ := processData_eq h data .newItems
    (fun x hx => by simpa [stepClass] using hd x hx)
  refine ⟨_, maps, _, e, ?_, ?_⟩
  · intro t ht
    obtain ⟨j, hj, hg⟩ := represents_new_mem (c := data.map Row.item) hi (List.mem_map_of_mem ht)
    exact ⟨⟨j, hj⟩, hg⟩
  · intro i j x y hx hy
    have a1 := represents_get (ids := us) hu hx i.2
    have a2 := represents_get_append hi hy j.2
    rw [sumAt, Matrix.of_apply, relOf, a1, a2]

/-- **C32** New users with new items: the block appended at row `#users`, column `#items`. -/
theorem C32_block {st : PSIState K} {us is : List ℤ} {r : ℕ} (h : PsiShape st us is r)
    (data : List (Row K)) (hd : ∀ x ∈ data, x.user ∉ us ∧ x.item ∉ is) :
    ∃ a b maps, ∃ N : Matrix (Fin a) (Fin b) K,
      processData st data .new = .ok (⟨a, b, N⟩, { st with maps := maps }) ∧
      (∀ t ∈ data, (∃ i : Fin a, maps.user.old2new.get? t.user = some ((us.length + i : ℕ) : ℤ)) ∧
        ∃ j : Fin b, maps.item.old2new.get? t.item = some ((is.length + j : ℕ) : ℤ)) ∧
      ∀ (i : Fin a) (j : Fin b) (x y : ℤ),
        maps.user.old2new.get? x = some ((us.length + i : ℕ) : ℤ) →
        maps.item.old2new.get? y = some ((is.length + j : ℕ) : ℤ) → N i j = relOf data x y := by
  obtain ⟨maps, da, e, hu, hi, rfl⟩ := processData_eq h data .new
    (fun x hx => by simpa [stepClass] using hd x hx)
  refine ⟨_, _, maps, _, e, ?_, ?_⟩
  · intro t ht
    obtain ⟨i, hi', hg⟩ := represents_new_mem (c := data.map Row.user) hu (List.mem_map_of_mem ht)
    obtain ⟨j, hj, hg'⟩ := represents_new_mem (c := data.map Row.item) hi (List.mem_map_of_mem ht)
    exact ⟨⟨⟨i, hi'⟩, hg⟩, ⟨⟨j, hj⟩, hg'⟩⟩
  · intro i j x y hx hy
    have a1 := represents_get_append hu hx i.2
    have a2 := represents_get_append hi hy j.2
    rw [sumAt, Matrix.of_apply, relOf, a1, a2]

/-- **C32** Known users and items: the increment of the projector-splitting step. -/
theorem C32_old {st : PSIState K} {us is : List ℤ} {r : ℕ} (h : PsiShape st us is r)
    (data : List (Row K)) (hd : ∀ x ∈ data, x.user ∈ us ∧ x.item ∈ is) :
    ∃ D : Matrix (Fin us.length) (Fin is.length) K,
      processData st data .old = .ok (⟨us.length, is.length, D⟩, st) ∧
      ∀ (i : Fin us.length) (j : Fin is.length) (x y : ℤ),
        st.maps.user.old2new.get? x = some ((i : ℕ) : ℤ) →
        st.maps.item.old2new.get? y = some ((j : ℕ) : ℤ) → D i j = relOf data x y := by
  refine ⟨sumAt data Row.user Row.item us is, ?_, ?_⟩
  · unfold processData
    dsimp only
    rw [h.uRows, h.vCols, mappedEntries_eq data Row.user Row.item h.user.idxMap h.item.idxMap
      (fun x hx => (hd x hx).1) (fun x hx => (hd x hx).2)]
    rfl
  · intro i j x y hx hy
    have a1 := represents_get h.user hx i.2
    have a2 := represents_get h.item hy j.2
    rw [sumAt, Matrix.of_apply, relOf, a1, a2]

/-! ### C33 -/

theorem psiView_ok {st : PSIState K} {us is : List ℤ} {r : ℕ} {seen : List (Row K)}
    (h : PsiInv st us is r seen) : ViewOk st.view us is := by
  refine ⟨h.shape.user, h.shape.item, h.shape.uRows, h.shape.vCols, ?_⟩
  intro p hp
  obtain ⟨x, -, a, b, rfl, ha, hb⟩ := forall₂_mem_right h.hist hp
  have h1 := (List.getElem?_eq_some_iff.1 ha).1
  have h2 := (List.getElem?_eq_some_iff.1 hb).1
  have e1 : st.view.nUsers = us.length := h.shape.uRows
  have e2 : st.view.nItems = is.length := h.shape.vCols
  rw [e1, e2]
  dsimp only
  omega

theorem dotVec_mk' {m n : ℕ} (A : Matrix (Fin m) (Fin n) K) (x : Fin n → K) :
    Mat.dotVec ⟨m, n, A⟩ ⟨n, x⟩ = .ok ⟨m, fun i => ∑ j, A i j * x j⟩ := by
  unfold Mat.dotVec
  rw [dif_pos rfl]
  rfl

theorem psiScores_ok {st : PSIState K} {us is : List ℤ} {r : ℕ} {seen : List (Row K)}
    (h : PsiInv st us is r seen) : ∃ f, ScoresOk st.view (fun _ u => psiScore st u) f := by
  have hv : ∀ a < st.view.nUsers, ∃ l, psiScore st ((a : ℕ) : ℤ) = .ok l ∧ l.length = st.view.nItems := by
    intro a ha
    have e1 : st.view.nUsers = us.length := h.shape.uRows
    have e2 : st.view.nItems = is.length := h.shape.vCols
    rw [e1] at ha
    rw [e2]
    obtain ⟨h1, h2⟩ := h.uf
    obtain ⟨h3, h4⟩ := h.itf
    unfold psiScore
    obtain ⟨maps, u, s, v, hist, ⟨m, c, U⟩, ⟨c', n, V⟩⟩ := st
    dsimp only at h1 h2 h3 h4 ⊢
    subst h1 h2 h3 h4
    unfold Mat.row
    rw [show ((a : ℕ) : ℤ) = (((⟨a, ha⟩ : Fin us.length) : ℕ) : ℤ) from rfl, pyIdx_coe]
    have hp : (pure (U ⟨a, ha⟩) : PyM (Fin c' → K)) = .ok (U ⟨a, ha⟩) := rfl
    simp only [except_bind_ok, Mat.T_mk, hp, dotVec_mk']
    exact ⟨_, rfl, by simp⟩
  classical
  refine ⟨fun _ a => if ha : a < st.view.nUsers then (hv a ha).choose else [], ?_⟩
  intro i a ha
  dsimp only
  rw [dif_pos ha]
  exact (hv a ha).choose_spec

/-- **C33** After training and any sequence of updates, in any configuration, a filtered recommendation
for user `u` contains no item of any row of `u` in any of the tables seen (shown by external id or, if
`internal`, by index). -/
theorem C33_filtered (env : PSIEnv K) (hsort : ArgSortOk env.argsort) (cfg : PSICfg) (train : List (Row K))
    (chunks : List (List (Row K))) (st : PSIState K) (hrun : psiRun env cfg train chunks = .ok st)
    (argp : ArgPart K) (hargp : ArgPartOk argp) (users : List ℤ) (k : ℕ) (hk : 1 ≤ k) (internal : Bool)
    (res : List (List ℤ)) (hres : psiRecommend argp st users k true internal = .ok res)
    (i : ℕ) (u : ℤ) (row : List ℤ) (hu : users[i]? = some u) (hrow : res[i]? = some row)
    (t : Row K) (ht : t ∈ train ++ chunks.flatten) (htu : t.user = u) :
    ∀ x ∈ row, if internal then st.maps.item.old2new.get? t.item ≠ some x else x ≠ t.item := by
  obtain ⟨us, is, h, -, -⟩ := C31_run env hsort cfg train chunks st hrun
  obtain ⟨f, hf⟩ := psiScores_ok h
  have hset : RecSetting argp st.view us is (fun _ u => psiScore st u) f k true :=
    ⟨hargp, psiView_ok h, hf, hk, by have := h.big; have := h.pos; omega,
      fun _ => by have := h.big; have := h.pos; omega⟩
  have : Inhabited K := ⟨0⟩
  have key := C17_filtered hset true internal users res hres i u row hu hrow
  obtain ⟨p, hp, a, b, rfl, ha, hb⟩ := forall₂_mem_left h.hist ht
  have hrec : Recorded st.view us u b := ⟨a, by rw [ha, htu], hp⟩
  have hlt := (List.getElem?_eq_some_iff.1 hb).1
  intro x hx
  cases internal with
  | true =>
    simp only [if_true]
    intro hg
    obtain ⟨k', rfl, hk'⟩ := (h.shape.item.old2new _ _).1 hg
    exact key _ hx k' ⟨(List.getElem?_eq_some_iff.1 hk').1, by simp⟩ (by
      have : k' = b := by
        obtain ⟨h1, h1'⟩ := List.getElem?_eq_some_iff.1 hk'
        obtain ⟨h2, h2'⟩ := List.getElem?_eq_some_iff.1 hb
        exact (List.Nodup.getElem_inj_iff h.shape.item.nodup).1 (h1'.trans h2'.symm)
      exact this ▸ hrec)
  | false =>
    simp only [Bool.false_eq_true, if_false]
    rintro rfl
    exact key _ hx b ⟨hlt, by simpa using hb⟩ hrec

/-! ### A concrete run, with arbitrary numerical routines -/

section examples

def psiExTrain : List (Row ℚ) := [⟨10, 20, 1, 0, 0⟩, ⟨11, 21, 1, 1, 0⟩, ⟨10, 21, 1, 2, 0⟩]
/-- both new; new user, known item; known user, new item; both known; both known only after the first step -/
def psiExChunk : List (Row ℚ) :=
  [⟨12, 22, 1, 3, 1⟩, ⟨13, 20, 1, 4, 1⟩, ⟨10, 23, 1, 5, 1⟩, ⟨11, 20, 1, 6, 1⟩, ⟨12, 21, 1, 7, 1⟩]

def psiExCfg (init : Option Emb) (b : Bool) : PSICfg := ⟨1, 1, 2, init, b⟩

theorem psiEx_trained (env : PSIEnv ℚ) (init : Option Emb) (b : Bool) :
    ∃ st us is, svdTrain env (psiExCfg init b) psiExTrain = .ok st ∧ PsiInv st us is 1 psiExTrain ∧
      us.toFinset = {10, 11} ∧ is.toFinset = {20, 21} ∧ us.length = 2 ∧ is.length = 2 := by
  obtain ⟨us, is, hu, hi, h⟩ := C31_train env (psiExCfg init b) psiExTrain
  have e1 : us.toFinset = {10, 11} := by
    ext x; rw [List.mem_toFinset, hu.mem]; simp [psiExTrain]; tauto
  have e2 : is.toFinset = {20, 21} := by
    ext x; rw [List.mem_toFinset, hi.mem]; simp [psiExTrain]
  have l1 : us.length = 2 := by rw [← List.toFinset_card_of_nodup hu.nodup, e1]; rfl
  have l2 : is.length = 2 := by rw [← List.toFinset_card_of_nodup hi.nodup, e2]; rfl
  rcases h with ⟨st, e, hinv, -⟩ | ⟨-, hc⟩
  · exact ⟨st, us, is, e, hinv, e1, e2, l1, l2⟩
  · exact absurd (by rw [l1, l2]; exact ⟨le_refl 1, (by decide : 1 < min 2 2)⟩) hc

/-- The chunk is accepted in every supported configuration, whatever the numerical routines return. -/
theorem psiEx_run (env : PSIEnv ℚ) (hsort : ArgSortOk env.argsort) (init : Option Emb) (b : Bool)
    (hb : init = none → b = false) :
    ∃ st, psiRun env (psiExCfg init b) psiExTrain [psiExChunk] = .ok st := by
  obtain ⟨st, us, is, e, hinv, e1, e2, l1, l2⟩ := psiEx_trained env init b
  unfold psiRun
  rw [e, except_bind_ok, List.foldlM_cons]
  rcases C31_update env hsort (psiExCfg init b) hinv psiExChunk with ⟨st', -, -, e', -⟩ | ⟨-, -, -, hm⟩ | ⟨-, hc, hd⟩
  · exact ⟨st', by rw [e']; rfl⟩
  · replace hm := hm.manyNew hinv.shape.user.nodup hinv.shape.item.nodup
    rw [ManyNew, newCount, newCount, e1, e2, l1, l2] at hm
    exact absurd hm (by decide +kernel)
  · rw [hb hc] at hd; cases hd

/-- C30 on the chunk: the first step gets exactly the first row. -/
example (env : PSIEnv ℚ) (hsort : ArgSortOk env.argsort) :
    ∃ st l, svdTrain env (psiExCfg none false) psiExTrain = .ok st ∧
      psiRounds env (psiExCfg none false) st psiExChunk = .ok l ∧ l.left = [] ∧
      ∃ d2 d3 d4, l.log = [(.new, [⟨12, 22, 1, 3, 1⟩]), (.newUsers, d2), (.newItems, d3), (.old, d4)] := by
  obtain ⟨st, us, is, e, hinv, e1, e2, l1, l2⟩ := psiEx_trained env none false
  rcases psiRounds_eq env hsort (psiExCfg none false) hinv.shape psiExChunk with
    ⟨l, el, -⟩ | ⟨-, -, -, hm⟩ | ⟨-, -, hd⟩
  · obtain ⟨d1, d2, d3, d4, hlog, hleft, -, hd1, -⟩ :=
      C30_partition env hsort (psiExCfg none false) rfl hinv.shape psiExChunk l el
    refine ⟨st, l, e, el, hleft, d2, d3, d4, ?_⟩
    rw [hlog, hd1]
    have : (fun x : Row ℚ => decide (x.user ∉ us ∧ x.item ∉ is)) =
        fun x => decide (x.user ∉ ({10, 11} : Finset ℤ) ∧ x.item ∉ ({20, 21} : Finset ℤ)) := by
      funext x
      rw [← e1, ← e2]
      simp only [List.mem_toFinset]
    rw [this]
    rfl
  · replace hm := hm.manyNew hinv.shape.user.nodup hinv.shape.item.nodup
    rw [ManyNew, newCount, newCount, e1, e2, l1, l2] at hm
    exact absurd hm (by decide +kernel)
  · cases hd

/-- C33 on the chunk: user 12 (new in the chunk) is never recommended item 21 again. -/
example (env : PSIEnv ℚ) (hsort : ArgSortOk env.argsort) (argp : ArgPart ℚ) (hargp : ArgPartOk argp) :
    ∃ st, psiRun env (psiExCfg (some .random) false) psiExTrain [psiExChunk] = .ok st ∧
      ∀ res row, psiRecommend argp st [10, 12] 1 true false = .ok res → res[1]? = some row → 21 ∉ row := by
  obtain ⟨st, e⟩ := psiEx_run env hsort (some .random) false (by simp)
  refine ⟨st, e, fun res row hres hrow hm => ?_⟩
  have := C33_filtered env hsort _ _ _ st e argp hargp [10, 12] 1 (by omega) false res hres 1 12 row rfl hrow
    ⟨12, 21, 1, 7, 1⟩ (by simp [psiExChunk]) rfl 21 hm
  simp at this

/-- C32 on a concrete step: users 13 and 14 become columns 2 and 3. -/
example (env : PSIEnv ℚ) : ∃ st maps, ∃ N : Matrix (Fin 2) (Fin 2) ℚ,
    svdTrain env (psiExCfg none false) psiExTrain = .ok st ∧
    processData st [⟨13, 21, 4, 0, 0⟩, ⟨14, 20, 5, 0, 0⟩, ⟨13, 21, 1, 0, 0⟩] .newUsers =
      .ok (⟨2, 2, N⟩, { st with maps := maps }) := by
  obtain ⟨st, us, is, e, hinv, e1, e2, l1, l2⟩ := psiEx_trained env none false
  obtain ⟨maps, da, h, -, -, hda⟩ := processData_eq hinv.shape
    [⟨13, 21, 4, 0, 0⟩, ⟨14, 20, 5, 0, 0⟩, ⟨13, 21, 1, 0, 0⟩] .newUsers (by
      intro x hx
      simp only [stepClass, ← List.mem_toFinset, e1, e2]
      simp only [List.mem_cons, List.not_mem_nil, or_false] at hx
      rcases hx with rfl | rfl | rfl <;> decide)
  have hda : da = _ := hda
  have hr : da.rows = 2 := by rw [hda]; exact l2
  have hc : da.cols = 2 := by rw [hda]; rfl
  obtain ⟨a, b, N⟩ := da
  dsimp only at hr hc
  subst hr hc
  exact ⟨st, maps, N, e, h⟩

end examples

end
end DynCF
