/-
Property theorems C27 and C26: what TDRec and TDRecRe factorise and which sequential history
training leaves behind.
-/
import Verif.Lemmas.TDRec
import Verif.Props.History
import Verif.Lemmas.ExampleOracle
import Verif.Props.Attention
import Mathlib.Algebra.Order.Field.Rat

set_option linter.unusedSectionVars false

namespace DynCF
variable {K : Type}

/-! ### C27 -/

/-- Value of the factorised tensor at a cell: the sum of the values whose index is the cell. -/
def tensorAt [AddCommMonoid K] (t : TrainTensor K) (u i p : ℤ) : K :=
  (((t.inds.zip t.vals).filter fun e => decide (e.1.user = u ∧ e.1.item = i ∧ e.1.pos = p)).map
    Prod.snd).sum

/-- The relevance a table gives to user `u`, item `i` at position `p` (repeated rows add up). -/
def tableAt [AddCommMonoid K] (data : List (PRow K)) (u i p : ℤ) : K :=
  ((data.filter fun r => decide (r.row.user = u ∧ r.row.item = i ∧ r.pos = p)).map
    fun r => r.row.rel).sum

/-- The claim of C27: with `users` and `items` the ids behind the indices, the factorised tensor
holds at `(a, b, p)` the relevance that the table gives to `(users[a], items[b], p)`. -/
def TensorIsTable [AddCommMonoid K] (users items : List ℤ) (data : List (PRow K))
    (t : TrainTensor K) : Prop :=
  ∀ (a b : ℕ) (u i p : ℤ), users[a]? = some u → items[b]? = some i →
    tensorAt t a b p = tableAt data u i p

theorem tableAt_mapped [AddCommMonoid K] {users items : List ℤ} {data data' : List (PRow K)}
    (hu : users.Nodup) (hi : items.Nodup) (hm : MappedTo users items data data') (a b : ℕ)
    (u i p : ℤ) (ha : users[a]? = some u) (hb : items[b]? = some i) :
    tableAt data' a b p = tableAt data u i p := by
  unfold tableAt
  congr 1
  induction hm with
  | nil => rfl
  | @cons r r' l l' h hs ih =>
    obtain ⟨hp, hrel, ⟨k, hk, hku⟩, ⟨j, hj, hji⟩⟩ := h
    have h1 : r'.row.user = (a : ℤ) ↔ r.row.user = u := by
      rw [hk]
      constructor
      · intro h
        have : k = a := by omega
        subst this
        rw [hku] at ha
        exact Option.some.inj ha
      · intro h
        rw [h] at hku
        rw [getElem?_inj_nodup hu hku ha]
    have h2 : r'.row.item = (b : ℤ) ↔ r.row.item = i := by
      rw [hj]
      constructor
      · intro h
        have : j = b := by omega
        subst this
        rw [hji] at hb
        exact Option.some.inj hb
      · intro h
        rw [h] at hji
        rw [getElem?_inj_nodup hi hji hb]
    rw [List.filter_cons, List.filter_cons]
    have h3 : decide (r'.row.user = (a : ℤ) ∧ r'.row.item = (b : ℤ) ∧ r'.pos = p) =
        decide (r.row.user = u ∧ r.row.item = i ∧ r.pos = p) := by
      rw [decide_eq_decide, h1, h2, hp]
    rw [h3]
    split
    · rw [List.map_cons, List.map_cons, hrel, ih]
    · exact ih

theorem trainTensor_ok {data : List (PRow K)} {t : TrainTensor K} (h : trainTensor data = .ok t) :
    t.inds = sortedInds data ∧ t.vals = data.map (fun p => p.row.rel) ∧
      indsShape (sortedInds data) = .ok t.shape := by
  unfold trainTensor at h
  rw [bind_ok_iff] at h
  obtain ⟨s, hs, h⟩ := h
  cases h
  exact ⟨rfl, rfl, hs⟩

theorem tensorAt_of_unsorted [AddCommMonoid K] {data : List (PRow K)} {t : TrainTensor K}
    (h : trainTensor data = .ok t) (hs : sortedInds data = data.map PRow.inter) (u i p : ℤ) :
    tensorAt t u i p = tableAt data u i p := by
  obtain ⟨h1, h2, _⟩ := trainTensor_ok h
  unfold tensorAt tableAt
  rw [h1, h2, hs, List.zip_map', List.filter_map, List.map_map]
  rfl

theorem sum_filter_zip_const [AddCommMonoid K] (f : Inter → Bool) (c : K) (l : List Inter) :
    (((l.zip (List.replicate l.length c)).filter fun e => f e.1).map Prod.snd).sum =
      (l.countP f) • c := by
  induction l with
  | nil => simp
  | cons x l ih =>
    rw [List.length_cons, List.replicate_succ, List.zip_cons_cons, List.filter_cons,
      List.countP_cons]
    by_cases h : f x = true
    · simp only [h, if_true, List.map_cons, List.sum_cons, ih]
      rw [add_comm, succ_nsmul]
    · simp only [h, Bool.false_eq_true, if_false, ih, add_zero]

theorem tensorAt_const [AddCommMonoid K] {data : List (PRow K)} {t : TrainTensor K} {c : K}
    (h : trainTensor data = .ok t) (hc : ∀ r ∈ data, r.row.rel = c) (u i p : ℤ) :
    tensorAt t u i p = tableAt data u i p := by
  obtain ⟨h1, h2, _⟩ := trainTensor_ok h
  have hv : data.map (fun p => p.row.rel) = List.replicate data.length c := by
    rw [List.eq_replicate_iff]
    refine ⟨by simp, ?_⟩
    intro b hb
    obtain ⟨r, hr, rfl⟩ := List.mem_map.1 hb
    exact hc r hr
  have hl : (sortedInds data).length = data.length := by
    rw [sortedInds_eq, stableSort_length, List.length_map]
  have hl' : (data.map PRow.inter).length = data.length := List.length_map _
  have e1 : tensorAt t u i p = ((sortedInds data).countP
      fun e => decide (e.user = u ∧ e.item = i ∧ e.pos = p)) • c := by
    unfold tensorAt
    rw [h1, h2, hv, ← hl]
    exact sum_filter_zip_const (fun e => decide (e.user = u ∧ e.item = i ∧ e.pos = p)) c _
  have e2 : tableAt data u i p = ((data.map PRow.inter).countP
      fun e => decide (e.user = u ∧ e.item = i ∧ e.pos = p)) • c := by
    rw [← sum_filter_zip_const, hl', ← hv, List.zip_map', List.filter_map, List.map_map]
    rfl
  rw [e1, e2, sortedInds_eq, (stableSort_perm _ _).countP_eq]

/-- **C27 (partial).** `TDRec.train` on a table produced by `get_df_with_cropped_pos_column`
(the way the experiments call it), or on any table with constant relevance, factorises exactly the
table. Missing: tables in another order with varying relevance (`C27_violated`). -/
theorem C27_tdrec_partial [AddCommMonoid K] (data : List (PRow K))
    (h : (∃ df L b, 1 ≤ L ∧ getDfWithCroppedPos df L b = .ok data) ∨
      ∃ c, ∀ r ∈ data, r.row.rel = c) :
    ∃ rows m users items, getDfWithUpdatedIndices (data.map PRow.row) = .ok (rows, m) ∧
      FirstAppearance (data.map fun p => p.row.user) users ∧ Represents m.user users ∧
      FirstAppearance (data.map fun p => p.row.item) items ∧ Represents m.item items ∧
      ∀ t, trainTensor (withPos rows data) = .ok t → TensorIsTable users items data t := by
  obtain ⟨rows, m, users, items, h1, h2, h3, h4, h5, h6⟩ := train_mapped data
  refine ⟨rows, m, users, items, h1, h2, h3, h4, h5, ?_⟩
  intro t ht a b u i p ha hb
  rw [← tableAt_mapped h2.nodup h4.nodup h6 a b u i p ha hb]
  rcases h with ⟨df, L, b', hL, hcrop⟩ | ⟨c, hc⟩
  · apply tensorAt_of_unsorted ht
    apply sortedInds_of_sorted h6 h2
    have hne : df ≠ [] := by
      rintro rfl
      cases hcrop
    rw [getDfWithCroppedPos_eq df L b' hL hne] at hcrop
    rw [← Except.ok.inj hcrop]
    exact cropSpec_sorted L df b'
  · apply tensorAt_const (c := c) ht
    intro r hr
    obtain ⟨r0, hr0, _, hrel, _⟩ := forall₂_mem_right h6 hr
    rw [hrel, hc r0 hr0]

/-- **C27 (partial), `TDRecRe`.** Retraining with previous mappings factorises exactly the table
if the relevance is constant. Missing: varying relevance (`C27_re_violated`). -/
theorem C27_tdrec_re_partial [AddCommMonoid K] (data : List (PRow K)) (m : Mappings)
    (users items : List ℤ) (hu : Represents m.user users) (hi : Represents m.item items)
    (rows : List (Row K)) (hrows : mapDfColumns (data.map PRow.row) m = .ok rows)
    (c : K) (hc : ∀ r ∈ data, r.row.rel = c) (t : TrainTensor K)
    (ht : trainTensor (withPos rows data) = .ok t) : TensorIsTable users items data t := by
  have hm := retrain_mapped data m users items hu hi rows hrows
  intro a b u i p ha hb
  rw [← tableAt_mapped hu.nodup hi.nodup hm a b u i p ha hb]
  apply tensorAt_const (c := c) ht
  intro r hr
  obtain ⟨r0, hr0, _, hrel, _⟩ := forall₂_mem_right hm hr
  rw [hrel, hc r0 hr0]

/-- two interactions of user 7, the later one first -/
def exUnsorted : List (PRow ℤ) := [⟨⟨7, 40, 5, 2, 0⟩, 1⟩, ⟨⟨7, 30, 3, 1, 0⟩, 0⟩]

/-- **C27 is violated**: for this table the interaction with item 40 has relevance 5 in the table
but 3 in the factorised tensor (the indices are sorted, the values are not). -/
theorem C27_violated :
    ∃ (data : List (PRow ℤ)) (rows : List (Row ℤ)) (m : Mappings) (t : TrainTensor ℤ),
      getDfWithUpdatedIndices (data.map PRow.row) = .ok (rows, m) ∧
      trainTensor (withPos rows data) = .ok t ∧
      Represents m.user [7] ∧ Represents m.item [40, 30] ∧
      ¬ TensorIsTable [7] [40, 30] data t := by
  refine ⟨exUnsorted, [⟨0, 0, 5, 2, 0⟩, ⟨0, 1, 3, 1, 0⟩],
    ⟨getContMappingStruct [7] 0, getContMappingStruct [40, 30] 0⟩,
    ⟨[⟨0, 1, 0⟩, ⟨0, 0, 1⟩], [5, 3], (1, 2, 2)⟩, rfl, rfl, represents_start_zero _ (by decide),
    represents_start_zero _ (by decide), ?_⟩
  intro h
  have := h 0 0 7 40 1 rfl rfl
  revert this
  decide

/-- the rows of the initial table, then with one more user with a smaller id -/
def exGrow0 : List (Row ℤ) := [⟨7, 40, 5, 1, 0⟩]
def exGrow1 : List (Row ℤ) := exGrow0 ++ [⟨3, 40, 2, 2, 0⟩]

/-- **C27 is violated by `TDRecRe` even on cropped tables**: user 3 is new and gets index 1 after
user 7, but is first in the cropped table; the two relevances are exchanged. -/
theorem C27_re_violated :
    ∃ (d0 d1 : List (PRow ℤ)) (r0 r1 : List (Row ℤ)) (m : Mappings) (t : TrainTensor ℤ),
      getDfWithCroppedPos exGrow0 2 true = .ok d0 ∧
      getDfWithUpdatedIndices (d0.map PRow.row) = .ok (r0, m) ∧
      getDfWithCroppedPos exGrow1 2 true = .ok d1 ∧
      mapDfColumns (d1.map PRow.row) (registerNew m (d1.map PRow.row)) = .ok r1 ∧
      trainTensor (withPos r1 d1) = .ok t ∧
      Represents (registerNew m (d1.map PRow.row)).user [7, 3] ∧
      Represents (registerNew m (d1.map PRow.row)).item [40] ∧
      ¬ TensorIsTable [7, 3] [40] d1 t := by
  refine ⟨[⟨⟨7, 40, 5, 1, 0⟩, 0⟩], [⟨⟨3, 40, 2, 2, 0⟩, 0⟩, ⟨⟨7, 40, 5, 1, 0⟩, 0⟩],
    [⟨0, 0, 5, 1, 0⟩], [⟨1, 0, 2, 2, 0⟩, ⟨0, 0, 5, 1, 0⟩],
    ⟨getContMappingStruct [7] 0, getContMappingStruct [40] 0⟩,
    ⟨[⟨0, 0, 0⟩, ⟨1, 0, 0⟩], [2, 5], (2, 1, 1)⟩, rfl, rfl, rfl, rfl, rfl, ?_, ?_, ?_⟩
  · exact represents_update (represents_start_zero [7] (by decide)) [3] (by decide)
  · exact represents_update (represents_start_zero [40] (by decide)) [] (by decide)
  · intro h
    have := h 0 0 7 40 0 rfl rfl
    revert this
    decide

/-- the partial theorem applied to a cropped table with different relevances -/
example : ∃ rows m t, getDfWithCroppedPos exGrow1 2 true =
      .ok [⟨⟨3, 40, 2, 2, 0⟩, 0⟩, ⟨⟨7, 40, 5, 1, 0⟩, 0⟩] ∧
    getDfWithUpdatedIndices [⟨3, 40, 2, 2, 0⟩, ⟨7, 40, 5, 1, 0⟩] = .ok (rows, m) ∧
    trainTensor (withPos rows [⟨⟨3, 40, 2, 2, 0⟩, 0⟩, ⟨⟨7, 40, 5, 1, 0⟩, 0⟩]) = .ok t ∧
    tensorAt t 0 0 0 = (2 : ℤ) ∧ tensorAt t 1 0 0 = (5 : ℤ) ∧ tensorAt t 1 0 1 = (0 : ℤ) :=
  ⟨_, _, _, rfl, rfl, rfl, by decide, by decide, by decide⟩

/-! ### C26 -/

theorem forall₂_filter {α β : Type} {R : α → β → Prop} {P : α → Bool} {Q : β → Bool}
    (hPQ : ∀ a b, R a b → P a = Q b) {l : List α} {l' : List β} (h : List.Forall₂ R l l') :
    List.Forall₂ R (l.filter P) (l'.filter Q) := by
  induction h with
  | nil => exact List.Forall₂.nil
  | @cons a b l l' h _ ih =>
    rw [List.filter_cons, List.filter_cons, hPQ a b h]
    split
    · exact List.Forall₂.cons h ih
    · exact ih

theorem forall₂_ins {α β : Type} {R : α → β → Prop} {le : α → α → Bool} {le' : β → β → Bool}
    (hle : ∀ a b a' b', R a b → R a' b' → le a a' = le' b b') {a : α} {b : β} (hab : R a b)
    {l : List α} {l' : List β} (h : List.Forall₂ R l l') :
    List.Forall₂ R (ins le a l) (ins le' b l') := by
  induction h with
  | nil => exact List.Forall₂.cons hab List.Forall₂.nil
  | @cons x y l l' h hs ih =>
    rw [ins_cons, ins_cons, hle a b x y hab h]
    split
    · exact List.Forall₂.cons hab (List.Forall₂.cons h hs)
    · exact List.Forall₂.cons h ih

theorem forall₂_stableSort {α β : Type} {R : α → β → Prop} {le : α → α → Bool} {le' : β → β → Bool}
    (hle : ∀ a b a' b', R a b → R a' b' → le a a' = le' b b')
    {l : List α} {l' : List β} (h : List.Forall₂ R l l') :
    List.Forall₂ R (stableSort le l) (stableSort le' l') := by
  induction h with
  | nil => exact List.Forall₂.nil
  | @cons x y l l' h hs ih =>
    rw [stableSort_cons, stableSort_cons]
    exact forall₂_ins hle h ih

/-- `l'` is `l` sorted by position with ties in original order. -/
def IsStablePosSort (l l' : List (PRow K)) : Prop :=
  l'.Pairwise (fun a b => a.pos ≤ b.pos) ∧
    ∀ q, l'.filter (fun r => decide (r.pos = q)) = l.filter (fun r => decide (r.pos = q))

theorem stablePosSort_ok (l : List (PRow K)) :
    IsStablePosSort l (stableSort (fun a b => decide (a.pos ≤ b.pos)) l) := by
  have ht : ∀ a b c : PRow K, decide (a.pos ≤ b.pos) = true → decide (b.pos ≤ c.pos) = true →
      decide (a.pos ≤ c.pos) = true := by
    intro a b c; simp only [decide_eq_true_eq]; omega
  have htot : ∀ a b : PRow K, decide (a.pos ≤ b.pos) = true ∨ decide (b.pos ≤ a.pos) = true := by
    intro a b; simp only [decide_eq_true_eq]; omega
  refine ⟨(stableSort_sorted ht htot l).imp (by intro a b h; simpa using h), ?_⟩
  intro q
  rw [filter_stableSort ht htot]
  apply stableSort_of_sorted
  rw [List.pairwise_iff_forall_sublist]
  intro a b hab
  have ha : a ∈ l.filter (fun r => decide (r.pos = q)) := hab.subset (by simp)
  have hb : b ∈ l.filter (fun r => decide (r.pos = q)) := hab.subset (by simp)
  have ha' := (List.mem_filter.1 ha).2
  have hb' := (List.mem_filter.1 hb).2
  simp only [decide_eq_true_eq] at ha' hb' ⊢
  omega

/-- The claim of C26 about a sequential history `h`: exactly the users of the table have an entry,
and it is the window of the (indices of the) items of the user's rows in order of position. -/
def HistoryIsTable (L : ℕ) (users items : List ℤ) (data : List (PRow K)) (h : SeqHist) : Prop :=
  (∀ (a : ℕ) (u : ℤ), users[a]? = some u → ∃ rows xs,
    IsStablePosSort (data.filter fun r => decide (r.row.user = u)) rows ∧
    List.Forall₂ (fun (r : PRow K) (x : ℤ) => ∃ j : ℕ, x = j ∧ items[j]? = some r.row.item) rows xs ∧
    h.get? (a : ℤ) = some ⟨L, window L xs⟩) ∧
  ∀ x : ℤ, (¬ ∃ a : ℕ, x = a ∧ a < users.length) → h.get? x = none

theorem itemsOf_sortedInds (a : ℤ) (data : List (PRow K)) :
    itemsOf a (sortedInds data) = (stableSort (fun x y : PRow K => decide (x.pos ≤ y.pos))
      (data.filter fun r => decide (r.row.user = a))).map fun r => r.row.item := by
  unfold itemsOf
  rw [sortedInds_eq, filter_stableSort interLe_trans interLe_total, List.filter_map]
  have hc : stableSort interLe ((data.filter ((fun t : Inter => decide (t.user = a)) ∘ PRow.inter)).map
        PRow.inter) =
      stableSort (fun x y : Inter => decide (x.pos ≤ y.pos))
        ((data.filter ((fun t : Inter => decide (t.user = a)) ∘ PRow.inter)).map PRow.inter) := by
    apply stableSort_congr
    intro x hx y hy
    obtain ⟨r, hr, rfl⟩ := List.mem_map.1 hx
    obtain ⟨r', hr', rfl⟩ := List.mem_map.1 hy
    have h1 : r.row.user = a := of_decide_eq_true (List.mem_filter.1 hr).2
    have h2 : r'.row.user = a := of_decide_eq_true (List.mem_filter.1 hr').2
    show decide (r.row.user < r'.row.user ∨ (r.row.user = r'.row.user ∧ r.pos ≤ r'.pos)) =
      decide (r.pos ≤ r'.pos)
    rw [decide_eq_decide, h1, h2]
    omega
  rw [hc]
  have hf : List.Forall₂ (fun (x : Inter) (y : PRow K) => x = y.inter)
      ((data.filter ((fun t : Inter => decide (t.user = a)) ∘ PRow.inter)).map PRow.inter)
      (data.filter fun r => decide (r.row.user = a)) := by
    rw [List.forall₂_map_left_iff]
    exact List.forall₂_same.2 fun _ _ => rfl
  exact forall₂_map_eq (fun x y h => by rw [h]; rfl) (forall₂_stableSort (by
    rintro x y x' y' rfl rfl
    rfl) hf)

/-- the history left by sorted indices of a mapped table, starting from nothing -/
theorem historyIsTable_of_mapped {users items : List ℤ} {data data' : List (PRow K)} (L : ℕ)
    (hfa : FirstAppearance (data.map fun p => p.row.user) users)
    (hm : MappedTo users items data data') :
    HistoryIsTable L users items data (updateUserSeqHistory (sortedInds data') [] L) := by
  have hI := histInv_update L [] [] (sortedInds data') (histInv_nil L)
  rw [List.nil_append] at hI
  have hmem : ∀ a : ℕ, ∀ u, users[a]? = some u → ∃ r ∈ data'.filter
      (fun r => decide (r.row.user = (a : ℤ))), True := by
    intro a u ha
    have hu : u ∈ data.map fun p => p.row.user := (hfa.mem u).1 (List.mem_of_getElem? ha)
    obtain ⟨r, hr, rfl⟩ := List.mem_map.1 hu
    obtain ⟨r', hr', _, _, ⟨k, hk, hku⟩, _⟩ := forall₂_mem_left hm hr
    refine ⟨r', ?_, trivial⟩
    rw [List.mem_filter]
    refine ⟨hr', ?_⟩
    rw [getElem?_inj_nodup hfa.nodup hku ha] at hk
    simpa using hk
  constructor
  · intro a u ha
    refine ⟨_, itemsOf a (sortedInds data'), stablePosSort_ok _, ?_, ?_⟩
    · rw [itemsOf_sortedInds, List.forall₂_map_right_iff]
      have hfil : List.Forall₂ (fun p p' : PRow K => p'.pos = p.pos ∧ p'.row.rel = p.row.rel ∧
          (∃ k : ℕ, p'.row.user = (k : ℤ) ∧ users[k]? = some p.row.user) ∧
          (∃ k : ℕ, p'.row.item = (k : ℤ) ∧ items[k]? = some p.row.item))
          (data.filter fun r => decide (r.row.user = u))
          (data'.filter fun r => decide (r.row.user = (a : ℤ))) := by
        refine forall₂_filter ?_ hm
        rintro p p' ⟨_, _, ⟨k, hk, hku⟩, _⟩
        rw [decide_eq_decide, hk]
        constructor
        · intro h
          rw [h] at hku
          rw [getElem?_inj_nodup hfa.nodup hku ha]
        · intro h
          have : k = a := by omega
          subst this
          rw [hku] at ha
          exact Option.some.inj ha
      refine (forall₂_stableSort ?_ hfil).imp ?_
      · rintro x y x' y' ⟨h, _⟩ ⟨h', _⟩
        rw [h, h']
      · rintro x y ⟨_, _, _, h⟩
        exact h
    · rw [hI.entry]
      unfold histEntry
      rw [if_neg]
      rw [itemsOf_sortedInds]
      obtain ⟨r, hr, _⟩ := hmem a u ha
      intro h
      have h' := List.map_eq_nil_iff.1 h
      have := (mem_stableSort (fun x y : PRow K => decide (x.pos ≤ y.pos)) _ r).2 hr
      rw [h'] at this
      cases this
  · intro x hx
    rw [hI.entry]
    unfold histEntry
    rw [if_pos]
    rw [itemsOf_sortedInds, List.map_eq_nil_iff]
    have : (data'.filter fun r => decide (r.row.user = x)) = [] := by
      rw [List.filter_eq_nil_iff]
      intro r hr hrx
      obtain ⟨r0, _, _, _, ⟨k, hk, hku⟩, _⟩ := forall₂_mem_right hm hr
      apply hx
      refine ⟨k, ?_, (List.getElem?_eq_some_iff.1 hku).1⟩
      rw [← hk]
      exact (of_decide_eq_true hrx).symm
    rw [this]
    rfl

theorem tdFit_ok [Field K] [LinearOrder K] {τ : Type} {c : TDCfg K} {m : TDAtt K}
    {cb : Option (ExitCallback K τ)} {cb0 : τ} {init : Option (Fac K)} {h0 : SeqHist}
    {maps : Mappings} {data : List (PRow K)} {s : TDState K}
    (h : tdFit c m cb cb0 init h0 maps data = .ok s) :
    ∃ t f g cbEnd aw lw, trainTensor data = .ok t ∧
      gaSatf c.hooi c.normOf (t.inds.map Inter.ind) t.vals t.shape m.att c.nIter c.growthTol cb cb0
        init c.force = .ok ((f, g), cbEnd) ∧
      m.att.dot f.f2 = .ok aw ∧ m.attInv.T.dot f.f2 = .ok lw ∧
      s.maps = maps ∧ s.history = (data.map fun p => (p.row.user, p.row.item)) ∧
      s.seqHist = updateUserSeqHistory (sortedInds data) h0 c.seqLen ∧
      s.u = f.f0 ∧ s.v = f.f1 ∧ s.w = f.f2 ∧ s.core = g ∧ s.aw = aw := by
  unfold tdFit at h
  simp only [bind_ok_iff] at h
  obtain ⟨t, ht, ⟨⟨f, g⟩, cbEnd⟩, hr, aw, haw, lw, hlw, last, _, h⟩ := h
  cases h
  exact ⟨t, f, g, cbEnd, aw, lw, ht, hr, haw, hlw, rfl, rfl, by rw [(trainTensor_ok ht).1],
    rfl, rfl, rfl, rfl, rfl⟩

/-- **C26 (partial).** For an object that has not been trained before, the sequential history after
`TDRec.train` is that of the table. Missing: later calls of `train` on the same object
(`C26_violated`). -/
theorem C26_history_partial [Field K] [LinearOrder K] {τ : Type} (c : TDCfg K) (m : TDAtt K)
    (cb : Option (ExitCallback K τ)) (cb0 : τ) (data : List (PRow K)) (s : TDState K)
    (h : tdTrain c m cb cb0 [] data = .ok s) :
    ∃ users items, Represents s.maps.user users ∧ Represents s.maps.item items ∧
      FirstAppearance (data.map fun p => p.row.user) users ∧
      FirstAppearance (data.map fun p => p.row.item) items ∧
      HistoryIsTable c.seqLen users items data s.seqHist := by
  obtain ⟨rows, mp, users, items, h1, h2, h3, h4, h5, h6⟩ := train_mapped data
  unfold tdTrain at h
  rw [h1, except_bind_ok] at h
  obtain ⟨t, f, g, cbEnd, aw, lw, ht, _, _, _, hmaps, _, hseq, _⟩ := tdFit_ok h
  refine ⟨users, items, by rw [hmaps]; exact h3, by rw [hmaps]; exact h5, h2, h4, ?_⟩
  rw [hseq]
  exact historyIsTable_of_mapped _ h2 h6

/-- first table: users 7 and 8 both have items 40, 30 -/
def exTrain1 : List (PRow ℚ) :=
  [⟨⟨7, 40, 1, 1, 0⟩, 0⟩, ⟨⟨7, 30, 1, 2, 0⟩, 1⟩, ⟨⟨8, 40, 1, 1, 0⟩, 0⟩, ⟨⟨8, 30, 1, 2, 0⟩, 1⟩]
/-- second table: user 8 has the item 50 only -/
def exTrain2 : List (PRow ℚ) :=
  [⟨⟨7, 40, 1, 1, 0⟩, 0⟩, ⟨⟨7, 30, 1, 2, 0⟩, 1⟩, ⟨⟨8, 50, 1, 3, 0⟩, 0⟩]
/-- identity attention, no sweeps -/
def exTDCfg0 : TDCfg ℚ := { exTDCfg with attF := none }
def exTDAtt0 : TDAtt ℚ := ⟨Mat.eye 2, Mat.eye 2⟩
/-- training without a callback -/
def exTrainOn (h0 : SeqHist) (data : List (PRow ℚ)) : PyM (TDState ℚ) :=
  tdTrain exTDCfg0 exTDAtt0 (none : Option (ExitCallback ℚ Unit)) () h0 data
/-- the sequential history after training -/
def exSeqHist (r : PyM (TDState ℚ)) : PyM SeqHist := r >>= fun s => pure s.seqHist

/-- **C26 is violated**: training a second time on the same object keeps the old sequences. User 8
(index 1) has the single item 50 (index 2) in the second table, but the window is `[1, 2]` instead of
`[PAD, 2]`. -/
theorem C26_violated :
    tdInit exTDCfg0 = .ok exTDAtt0 ∧
    exSeqHist (exTrainOn [] exTrain1) = .ok [(0, ⟨2, [0, 1]⟩), (1, ⟨2, [0, 1]⟩)] ∧
    exSeqHist (exTrainOn [(0, ⟨2, [0, 1]⟩), (1, ⟨2, [0, 1]⟩)] exTrain2) =
      .ok [(0, ⟨2, [0, 1]⟩), (1, ⟨2, [1, 2]⟩)] ∧
    exSeqHist (exTrainOn [] exTrain2) = .ok [(0, ⟨2, [0, 1]⟩), (1, ⟨2, [-1, 2]⟩)] ∧
    ¬ HistoryIsTable 2 [7, 8] [40, 30, 50] exTrain2 [(0, ⟨2, [0, 1]⟩), (1, ⟨2, [1, 2]⟩)] := by
  refine ⟨rfl, by decide +kernel, by decide +kernel, by decide +kernel, ?_⟩
  rintro ⟨h, _⟩
  obtain ⟨rows, xs, ⟨_, hr⟩, hx, hg⟩ := h 1 8 rfl
  have hl : xs.length = 1 := by
    have hrows : rows.length = 1 := by
      have h0 := hr 0
      have hall : rows.filter (fun r => decide (r.pos = 0)) = rows := by
        rw [List.filter_eq_self]
        intro r hrr
        have := hr r.pos
        have hm : r ∈ rows.filter (fun r' => decide (r'.pos = r.pos)) := by
          rw [List.mem_filter]; exact ⟨hrr, by simp⟩
        rw [this] at hm
        have := (List.mem_filter.1 hm).1
        have h3 : exTrain2.filter (fun r => decide (r.row.user = 8)) = [⟨⟨8, 50, 1, 3, 0⟩, 0⟩] := by
          decide +kernel
        rw [h3] at this
        rw [List.mem_singleton.1 this]
        rfl
      rw [hall] at h0
      rw [h0]
      decide +kernel
    rw [← hx.length_eq, hrows]
  obtain ⟨x, rfl⟩ := List.length_eq_one_iff.1 hl
  have h2 : (Dict.get? ([(0, ⟨2, [0, 1]⟩), (1, ⟨2, [1, 2]⟩)] : SeqHist) ((1 : ℕ) : ℤ)) =
      some ⟨2, [1, 2]⟩ := rfl
  rw [h2] at hg
  have h3 := congrArg Deque.items (Option.some.inj hg)
  have h4 : window 2 [x] = [PAD, x] := rfl
  rw [h4] at h3
  have h5 := (List.cons.inj h3).1
  revert h5
  decide

end DynCF
