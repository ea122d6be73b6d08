/-
Property theorems C01-C04: id mappings and the evaluation selection.
-/
import Verif.Lemmas.Selection

namespace DynCF
variable {K : Type}

/-- **C01.** Training re-indexes every table successfully; both mappings are exactly the
correspondence "k-th distinct id in order of first appearance ↔ k", and every row carries the
index of its own user and item, in the original row order, with the rest unchanged. -/
theorem C01_training_mapping (df : List (Row K)) :
    ∃ df' m users items, getDfWithUpdatedIndices df = .ok (df', m) ∧
      FirstAppearance (df.map Row.user) users ∧ Represents m.user users ∧
      FirstAppearance (df.map Row.item) items ∧ Represents m.item items ∧
      List.Forall₂ (fun r r' => SameRest r r' ∧
        (∃ k : ℕ, r'.user = k ∧ users[k]? = some r.user) ∧
        (∃ k : ℕ, r'.item = k ∧ items[k]? = some r.item)) df df' := by
  have hU := represents_start_zero _ (nodup_pdUnique (df.map Row.user))
  have hI := represents_start_zero _ (nodup_pdUnique (df.map Row.item))
  obtain ⟨df1, h1⟩ := applyUserMap_exists
    (getContMappingStruct (pdUnique (df.map Row.user)) 0) df (by
      intro r hr
      rw [represents_mem hU, mem_pdUnique]
      exact List.mem_map_of_mem (f := Row.user) hr)
  have hf1 := (applyUserMap_ok_iff _ _ _).1 h1
  have hitems : df.map Row.item = df1.map Row.item :=
    forall₂_map_eq (fun a b h => h.2.1.symm) hf1
  obtain ⟨df2, h2⟩ := applyItemMap_exists
    (getContMappingStruct (pdUnique (df1.map Row.item)) 0) df1 (by
      intro r hr
      rw [← hitems, represents_mem hI, mem_pdUnique, hitems]
      exact List.mem_map_of_mem (f := Row.item) hr)
  refine ⟨df2, ⟨_, _⟩, _, _, ?_, firstAppearance_pdUnique _, hU, firstAppearance_pdUnique _, hI, ?_⟩
  · unfold getDfWithUpdatedIndices
    simp only
    rw [h1, except_bind_ok, h2, except_bind_ok, hitems]; rfl
  · have hf2 := (applyItemMap_ok_iff _ _ _).1 h2
    rw [← hitems] at hf2
    refine forall₂_comp ?_ hf1 hf2
    rintro r r1 r2 ⟨⟨a1, a2, a3⟩, hi, hu⟩ ⟨⟨b1, b2, b3⟩, hu2, hi2⟩
    refine ⟨⟨a1.trans b1, a2.trans b2, a3.trans b3⟩, ?_, ?_⟩
    · rw [hu2]; exact (hU.old2new _ _).1 hu
    · rw [← hi]; exact (hI.old2new _ _).1 hi2

/-- The round trip promised by C01: both lookup tables invert each other, and the indices in
use are exactly `0, …, n-1`. -/
theorem C01_mutual_inverse {α : Type} [DecidableEq α] {m : Mapping α} {ids : List α}
    (h : Represents m ids) :
    (∀ x i, m.old2new.get? x = some i ↔ m.new2old.get? i = some x) ∧
    (∀ i : ℤ, (m.new2old.get? i).isSome ↔ 0 ≤ i ∧ i < m.n) ∧
    (∀ x, (m.old2new.get? x).isSome ↔ x ∈ ids) := by
  refine ⟨fun x i => by rw [h.old2new, h.new2old], ?_, ?_⟩
  · intro i
    rw [Option.isSome_iff_exists]
    constructor
    · rintro ⟨x, hx⟩
      obtain ⟨k, rfl, hk⟩ := (h.new2old i x).1 hx
      have := (List.getElem?_eq_some_iff.1 hk).1
      rw [h.count]; omega
    · rintro ⟨h0, h1⟩
      rw [h.count] at h1
      obtain ⟨k, rfl⟩ := Int.eq_ofNat_of_zero_le h0
      exact ⟨_, (h.new2old k _).2 ⟨k, rfl, List.getElem?_eq_getElem (by omega)⟩⟩
  · intro x
    rw [← represents_mem h, Dict.mem_keys_iff]

/-- **C02.** Any number of registrations of unseen, pairwise distinct ids extends the
correspondence at its end: old ids keep their index, new ids get the next ones in order. -/
theorem C02_incremental_registration {α : Type} [DecidableEq α] (m : Mapping α) (ids : List α)
    (batches : List (List α)) (h : Represents m ids) (hnd : (ids ++ batches.flatten).Nodup) :
    Represents (batches.foldl updateContMappingStruct m) (ids ++ batches.flatten) := by
  induction batches generalizing m ids with
  | nil => simpa using h
  | cons b bs ih =>
    simp only [List.foldl_cons, List.flatten_cons] at hnd ⊢
    rw [← List.append_assoc] at hnd ⊢
    exact ih _ _ (represents_update h b (List.nodup_append.1 hnd).1) hnd

/-- C02, stability made explicit: an id known before keeps its index through any number of
registrations of unseen ids. -/
theorem C02_ids_stable {α : Type} [DecidableEq α] (m : Mapping α) (ids : List α)
    (batches : List (List α)) (h : Represents m ids) (hnd : (ids ++ batches.flatten).Nodup)
    (x : α) (i : ℤ) (hx : m.old2new.get? x = some i) :
    (batches.foldl updateContMappingStruct m).old2new.get? x = some i := by
  obtain ⟨k, rfl, hk⟩ := (h.old2new x i).1 hx
  refine ((C02_incremental_registration m ids batches h hnd).old2new x k).2 ⟨k, rfl, ?_⟩
  rw [List.getElem?_append_left (List.getElem?_eq_some_iff.1 hk).1]; exact hk

/-- C02, the caller's obligation: registering an already known id gives it a second index
(the first one still points back to it), so the correspondence is broken. -/
theorem C02_duplicate_breaks {α : Type} [DecidableEq α] (m : Mapping α) (ids : List α)
    (h : Represents m ids) (x : α) (k : ℕ) (hx : ids[k]? = some x) :
    let m' := updateContMappingStruct m [x]
    m'.new2old.get? (k : ℤ) = some x ∧ m'.new2old.get? (ids.length : ℤ) = some x ∧
      k ≠ ids.length ∧ ¬ ∃ ids', Represents m' ids' := by
  intro m'
  have hkl := (List.getElem?_eq_some_iff.1 hx).1
  have hn : m'.new2old = m.new2old ++ [((ids.length : ℤ), x)] := by
    simp only [m', updateContMappingStruct, getContMappingStruct_new2old, pyEnumerate, h.count]
    rw [Dict.update_fresh]
    · simp [Dict.keys]
    · intro i hi
      simp only [Dict.keys, List.map_cons, List.map_nil, List.mem_singleton] at hi
      rw [hi]
      have := represents_new2old_none h (ids.length : ℤ) (le_refl _)
      rwa [Dict.get?_eq_none_iff] at this
  have h1 : m'.new2old.get? (k : ℤ) = some x := by
    rw [hn, Dict.get?_append, (h.new2old k x).2 ⟨k, rfl, hx⟩]; rfl
  have h2 : m'.new2old.get? (ids.length : ℤ) = some x := by
    rw [hn, Dict.get?_append, represents_new2old_none h _ (le_refl _)]
    simp [Dict.get?]
  refine ⟨h1, h2, by omega, ?_⟩
  rintro ⟨ids', h'⟩
  obtain ⟨a, ha, ha'⟩ := (h'.new2old _ _).1 h1
  obtain ⟨b, hb, hb'⟩ := (h'.new2old _ _).1 h2
  have ha1 := (List.getElem?_eq_some_iff.1 ha').1
  have hb1 := (List.getElem?_eq_some_iff.1 hb').1
  have := List.nodup_iff_injective_get.1 h'.nodup (a₁ := ⟨a, ha1⟩) (a₂ := ⟨b, hb1⟩) (by
    simp only [List.get_eq_getElem]
    rw [(List.getElem?_eq_some_iff.1 ha').2, (List.getElem?_eq_some_iff.1 hb').2])
  rw [Fin.mk.injEq] at this
  omega

/-- What every registration does to the table from indices to ids, whatever is registered: the new ids follow. -/
theorem update_new2old {α : Type} [DecidableEq α] {m : Mapping α} {ids : List α} (h : Represents m ids) (new : List α) (k : ℕ) :
    (updateContMappingStruct m new).new2old.get? (k : ℤ) = (ids ++ new)[k]? := by
  have hn : (updateContMappingStruct m new).new2old = m.new2old ++ pyEnumerate new (m.n : ℤ) := by
    simp only [updateContMappingStruct]
    rw [getContMappingStruct_new2old, Dict.update_fresh]
    · exact pyEnumerate_fst_nodup _ _
    · intro k hk hk2
      obtain ⟨⟨j, y⟩, h1, h2⟩ := List.mem_map.1 hk
      simp only at h2
      subst h2
      obtain ⟨k', rfl, _⟩ := (mem_pyEnumerate new _ j y).1 h1
      have := represents_new2old_none h ((m.n : ℤ) + k') (by rw [h.count]; omega)
      rw [Dict.get?_eq_none_iff] at this
      exact this hk2
  have hget : ∀ (l : List α) (s k : ℕ), s ≤ k → Dict.get? (pyEnumerate l (s : ℤ)) (k : ℤ) = l[k - s]? := by
    intro l
    induction l with
    | nil => intro s k _; rfl
    | cons x l ih =>
      intro s k hk
      unfold pyEnumerate
      rw [Dict.get?_cons]
      rcases Nat.eq_or_lt_of_le hk with rfl | hlt
      · simp
      · rw [if_neg (by omega), show ((s : ℤ) + 1) = ((s + 1 : ℕ) : ℤ) by push_cast; rfl, ih (s + 1) k hlt,
          show k - s = (k - (s + 1)) + 1 by omega, List.getElem?_cons_succ]
  rw [hn, Dict.get?_append]
  by_cases hk : k < ids.length
  · rw [(h.new2old k (ids[k])).2 ⟨k, rfl, List.getElem?_eq_getElem hk⟩, List.getElem?_append_left hk,
      List.getElem?_eq_getElem hk]
    rfl
  · rw [represents_new2old_none h _ (by omega), List.getElem?_append_right (by omega), h.count]
    exact hget new _ k (by omega)

/-- **C02, exactly when.** A registration gives a one-to-one correspondence again iff the registered ids are unseen and
pairwise distinct; otherwise some id has two indices. -/
theorem C02_iff {α : Type} [DecidableEq α] (m : Mapping α) (ids : List α) (h : Represents m ids) (new : List α) :
    ((∃ ids', Represents (updateContMappingStruct m new) ids') ↔ (ids ++ new).Nodup) ∧
    (¬ (ids ++ new).Nodup → ∃ (x : α) (i j : ℕ), i ≠ j ∧ (updateContMappingStruct m new).new2old.get? (i : ℤ) = some x ∧
      (updateContMappingStruct m new).new2old.get? (j : ℤ) = some x) := by
  have two : ¬ (ids ++ new).Nodup → ∃ (x : α) (i j : ℕ), i ≠ j ∧
      (updateContMappingStruct m new).new2old.get? (i : ℤ) = some x ∧
      (updateContMappingStruct m new).new2old.get? (j : ℤ) = some x := by
    intro hd
    rw [List.nodup_iff_injective_get] at hd
    unfold Function.Injective at hd
    push Not at hd
    obtain ⟨a, b, hab, hne⟩ := hd
    refine ⟨(ids ++ new).get a, a, b, fun e => hne (Fin.ext e), ?_, ?_⟩
    · rw [update_new2old h, List.getElem?_eq_getElem a.2]; rfl
    · rw [update_new2old h, hab, List.getElem?_eq_getElem b.2]; rfl
  refine ⟨⟨?_, fun hn => ⟨_, represents_update h new hn⟩⟩, two⟩
  rintro ⟨ids', h'⟩
  by_contra hd
  obtain ⟨x, i, j, hij, hi, hj⟩ := two hd
  obtain ⟨a, ha, ha'⟩ := (h'.new2old _ _).1 hi
  obtain ⟨b, hb, hb'⟩ := (h'.new2old _ _).1 hj
  have ha1 := (List.getElem?_eq_some_iff.1 ha').1
  have hb1 := (List.getElem?_eq_some_iff.1 hb').1
  have := List.nodup_iff_injective_get.1 h'.nodup (a₁ := ⟨a, ha1⟩) (a₂ := ⟨b, hb1⟩) (by
    simp only [List.get_eq_getElem]
    rw [(List.getElem?_eq_some_iff.1 ha').2, (List.getElem?_eq_some_iff.1 hb').2])
  rw [Fin.mk.injEq] at this
  omega

/-- **C03.** `map_df_columns` succeeds iff every user and item of the table is known, and
then maps row by row; otherwise it raises `KeyError`. -/
theorem C03_map_columns (df : List (Row K)) (m : Mappings) :
    ((∀ r ∈ df, r.user ∈ m.user.old2new.keys ∧ r.item ∈ m.item.old2new.keys) →
      ∃ df', mapDfColumns df m = .ok df' ∧
        List.Forall₂ (fun r r' => SameRest r r' ∧ m.user.old2new.get? r.user = some r'.user ∧
          m.item.old2new.get? r.item = some r'.item) df df') ∧
    (¬ (∀ r ∈ df, r.user ∈ m.user.old2new.keys ∧ r.item ∈ m.item.old2new.keys) →
      mapDfColumns df m = .error .keyError) := by
  constructor
  · intro h
    obtain ⟨df', h'⟩ := mapDfColumns_exists df m (fun r hr => (h r hr).1) (fun r hr => (h r hr).2)
    exact ⟨df', h', (mapDfColumns_ok_iff _ _ _).1 h'⟩
  · intro h
    cases hr : mapDfColumns df m with
    | error e => rw [mapDfColumns_error df m e hr]
    | ok df' =>
      exfalso; apply h
      intro r hr'
      obtain ⟨r', _, _, h2, h3⟩ := forall₂_mem_left ((mapDfColumns_ok_iff _ _ _).1 hr) hr'
      rw [Dict.mem_keys_iff, Dict.mem_keys_iff, h2, h3]; exact ⟨rfl, rfl⟩

/-- A row both of whose ids are known. -/
def KnownRow (users items : List ℤ) (r : Row K) : Prop := r.user ∈ users ∧ r.item ∈ items

/-- **C04.** The evaluation selection returns each user having a row with both ids known
exactly once, in order of the first such row, paired with that row's item. -/
theorem C04_evaluation_selection (df : List (Row K)) (m : Mappings) (users items : List ℤ)
    (hU : Represents m.user users) (hI : Represents m.item items) :
    ∃ known : List (Row K),
      known = df.filter (fun r => decide (r.user ∈ users ∧ r.item ∈ items)) ∧
      FirstAppearance (known.map Row.user) (getUsersToRecommendTestItems df m).1 ∧
      (getUsersToRecommendTestItems df m).1.length = (getUsersToRecommendTestItems df m).2.length ∧
      ∀ u i, (u, i) ∈ (getUsersToRecommendTestItems df m).1.zip (getUsersToRecommendTestItems df m).2 ↔
        ∃ pre r post, df = pre ++ r :: post ∧ KnownRow users items r ∧ r.user = u ∧ r.item = i ∧
          ∀ r' ∈ pre, KnownRow users items r' → r'.user ≠ u := by
  have hpad : ∀ (m : Mapping ℤ) (ids : List ℤ), Represents m ids → ∀ x,
      (decide (mapGetPad m x = PAD)) = decide (x ∉ ids) := by
    intro m ids h x
    rw [decide_eq_decide]
    unfold mapGetPad
    by_cases hx : x ∈ ids
    · rw [represents_get?_idxOf h x hx]
      simp only [Option.getD_some, hx, not_true_eq_false, iff_false, PAD]
      omega
    · rw [(represents_none h x).2 hx]; simp [hx]
  have hmask : getKnownUiDfMask df m =
      df.map (fun r => decide (r.user ∈ users ∧ r.item ∈ items)) := by
    unfold getKnownUiDfMask
    apply List.map_congr_left
    intro r _
    simp only [hpad _ _ hU, hpad _ _ hI, decide_not, Bool.not_not, Bool.decide_and]
  set known := df.filter (fun r => decide (r.user ∈ users ∧ r.item ∈ items)) with hknown
  have hsel : maskSelect df (getKnownUiDfMask df m) = known := by
    rw [hmask, maskSelect_map]
  have hres : getUsersToRecommendTestItems df m =
      ((selectFirst Prod.fst (known.map fun r => (r.user, r.item)) []).map Prod.fst,
       (selectFirst Prod.fst (known.map fun r => (r.user, r.item)) []).map Prod.snd) := by
    unfold getUsersToRecommendTestItems
    simp only [hsel, getIndsVals, maskFirst_eq_rec, maskSelect_firstMaskRec]
  refine ⟨known, rfl, ?_, ?_, ?_⟩
  · rw [hres]
    simp only
    rw [selectFirst_keys]
    simp only [List.not_mem_nil, not_false_eq_true, decide_true, List.map_map]
    have : (Prod.fst ∘ fun r : Row K => (r.user, r.item)) = Row.user := rfl
    rw [this, List.filter_true]
    exact firstAppearance_pdUnique _
  · rw [hres]; simp
  · intro u i
    rw [hres]
    simp only
    have hzip : ∀ l : List (ℤ × ℤ), (l.map Prod.fst).zip (l.map Prod.snd) = l := by
      intro l; induction l with
      | nil => rfl
      | cons a l ih => simp [ih]
    rw [hzip, mem_selectFirst]
    simp only [List.not_mem_nil, not_false_eq_true, true_and]
    constructor
    · rintro ⟨pre, post, h1, h2⟩
      -- pull the split of `known` back to a split of `df`
      have key : ∀ (l : List (Row K)) (pre post : List (ℤ × ℤ)),
          (l.filter (fun r => decide (r.user ∈ users ∧ r.item ∈ items))).map
            (fun r => (r.user, r.item)) = pre ++ (u, i) :: post → (∀ b ∈ pre, b.1 ≠ u) →
          ∃ pre' r post', l = pre' ++ r :: post' ∧ KnownRow users items r ∧ r.user = u ∧
            r.item = i ∧ ∀ r' ∈ pre', KnownRow users items r' → r'.user ≠ u := by
        intro l
        induction l with
        | nil => intro pre post h; cases pre <;> simp at h
        | cons a l ih =>
          intro pre post h hp
          rw [List.filter_cons] at h
          by_cases ha : a.user ∈ users ∧ a.item ∈ items
          · rw [if_pos (by simpa using ha)] at h
            cases pre with
            | nil =>
              simp only [List.map_cons, List.nil_append, List.cons.injEq, Prod.mk.injEq] at h
              exact ⟨[], a, l, rfl, ha, h.1.1, h.1.2, by simp⟩
            | cons c pre =>
              simp only [List.map_cons, List.cons_append, List.cons.injEq] at h
              obtain ⟨pre', r, post', e1, e2, e3, e4, e5⟩ :=
                ih pre post h.2 (fun b hb => hp b (List.mem_cons_of_mem _ hb))
              refine ⟨a :: pre', r, post', by rw [e1]; rfl, e2, e3, e4, ?_⟩
              intro r' hr' hk
              rcases List.mem_cons.1 hr' with rfl | hr'
              · have := hp c List.mem_cons_self
                rw [← h.1] at this; exact this
              · exact e5 r' hr' hk
          · rw [if_neg (by simpa using ha)] at h
            obtain ⟨pre', r, post', e1, e2, e3, e4, e5⟩ := ih pre post h hp
            refine ⟨a :: pre', r, post', by rw [e1]; rfl, e2, e3, e4, ?_⟩
            intro r' hr' hk
            rcases List.mem_cons.1 hr' with rfl | hr'
            · exact absurd hk ha
            · exact e5 r' hr' hk
      exact key df pre post h1 h2
    · rintro ⟨pre, r, post, rfl, hr, rfl, rfl, h⟩
      refine ⟨(pre.filter (fun r => decide (r.user ∈ users ∧ r.item ∈ items))).map
          (fun r => (r.user, r.item)),
        (post.filter (fun r => decide (r.user ∈ users ∧ r.item ∈ items))).map
          (fun r => (r.user, r.item)), ?_, ?_⟩
      · rw [hknown, List.filter_append, List.filter_cons, if_pos (by simpa [KnownRow] using hr)]
        simp
      · intro b hb
        obtain ⟨r', hr', rfl⟩ := List.mem_map.1 hb
        have := List.mem_filter.1 hr'
        exact h r' this.1 (by simpa [KnownRow] using this.2)

/-! Non-vacuity: a concrete table with repeated and unknown ids. -/

/-- Test table: users 7,3,7,9; items 5,5,8,5. -/
def exDf : List (Row ℤ) :=
  [⟨7, 5, 1, 0, 0⟩, ⟨3, 5, 1, 1, 0⟩, ⟨7, 8, 1, 2, 1⟩, ⟨9, 5, 1, 3, 1⟩]

example : (getContMappingStruct [7, 3, 9] (0 : ℤ)).old2new.get? 9 = some 2 := by decide

example : Represents (getContMappingStruct [7, 3] (0 : ℤ)) [7, 3] ∧
    ([7, 3] ++ [[9], [4, 1]].flatten : List ℤ).Nodup :=
  ⟨represents_start_zero _ (by decide), by decide⟩

/-- an id repeated in a batch gets two indices, and no correspondence is left -/
example : let m := updateContMappingStruct (getContMappingStruct [7, 3] (0 : ℤ)) [5, 5]
    m.new2old.get? 2 = some 5 ∧ m.new2old.get? 3 = some 5 ∧ ¬ ∃ ids, Represents m ids :=
  ⟨by decide, by decide, fun h =>
    absurd ((C02_iff _ [7, 3] (represents_start_zero _ (by decide)) [5, 5]).1.1 h) (by decide)⟩

example : (getUsersToRecommendTestItems exDf
    ⟨getContMappingStruct [7, 3] 0, getContMappingStruct [8] 0⟩) = ([7], [8]) := by decide +kernel

end DynCF
