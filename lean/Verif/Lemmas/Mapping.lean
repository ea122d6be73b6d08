/- Helper lemmas for id mappings. -/
import Verif.Lemmas.Dict
import Verif.Spec.Mapping

namespace DynCF
variable {α : Type} [DecidableEq α]

/-! ### `mapM` in `Except` -/

theorem except_bind_ok {ε α β : Type} (a : α) (f : α → Except ε β) :
    ((Except.ok a : Except ε α) >>= f) = f a := rfl

theorem except_bind_error {ε α β : Type} (e : ε) (f : α → Except ε β) :
    ((Except.error e : Except ε α) >>= f) = .error e := rfl

theorem mapM_ok_iff {ε : Type} {α β : Type} (f : α → Except ε β) (l : List α) (r : List β) :
    l.mapM f = .ok r ↔ List.Forall₂ (fun a b => f a = .ok b) l r := by
  induction l generalizing r with
  | nil =>
    simp only [List.mapM_nil, List.forall₂_nil_left_iff]
    constructor
    · intro h; exact (Except.ok.inj h).symm
    · rintro rfl; rfl
  | cons a l ih =>
    rw [List.mapM_cons]
    cases ha : f a with
    | error e =>
      rw [except_bind_error]
      constructor
      · intro h; cases h
      · intro h; cases h with | cons h1 _ => rw [ha] at h1; cases h1
    | ok b =>
      rw [except_bind_ok]
      cases hl : l.mapM f with
      | error e =>
        rw [except_bind_error]
        constructor
        · intro h; cases h
        · intro h
          cases h with
          | cons h1 h2 => rw [(ih _).2 h2] at hl; cases hl
      | ok bs =>
        rw [except_bind_ok]
        constructor
        · intro h
          have : r = b :: bs := (Except.ok.inj h).symm
          subst this
          exact List.Forall₂.cons ha ((ih bs).1 hl)
        · intro h
          cases h with
          | cons h1 h2 =>
            rw [ha] at h1
            cases h1
            rw [(ih _).2 h2] at hl
            cases hl
            rfl

theorem mapM_error {ε : Type} {α β : Type} (f : α → Except ε β) (l : List α) (e : ε)
    (h : l.mapM f = .error e) : ∃ a ∈ l, f a = .error e := by
  induction l with
  | nil => cases h
  | cons a l ih =>
    rw [List.mapM_cons] at h
    cases ha : f a with
    | error e' =>
      rw [ha, except_bind_error] at h; cases h
      exact ⟨a, List.mem_cons_self, ha⟩
    | ok b =>
      rw [ha, except_bind_ok] at h
      cases hl : l.mapM f with
      | error e' =>
        rw [hl, except_bind_error] at h; cases h
        obtain ⟨a', h1, h2⟩ := ih hl
        exact ⟨a', List.mem_cons_of_mem _ h1, h2⟩
      | ok bs => rw [hl, except_bind_ok] at h; cases h

theorem getItem_ok_iff {β : Type} (d : Dict α β) (k : α) (v : β) :
    d.getItem k = .ok v ↔ d.get? k = some v := by
  unfold Dict.getItem; cases d.get? k <;> simp

theorem getItem_error {β : Type} (d : Dict α β) (k : α) (e : PyErr) :
    d.getItem k = .error e ↔ e = .keyError ∧ d.get? k = none := by
  unfold Dict.getItem; cases d.get? k <;> simp [eq_comm]

/-! ### enumerate -/

theorem pyEnumerate_length {α : Type} (l : List α) (s : ℤ) :
    (pyEnumerate l s).length = l.length := by
  induction l generalizing s with
  | nil => rfl
  | cons a l ih => simp [pyEnumerate, ih]

theorem mem_pyEnumerate {α : Type} (l : List α) (s i : ℤ) (x : α) :
    (i, x) ∈ pyEnumerate l s ↔ ∃ k : ℕ, i = s + k ∧ l[k]? = some x := by
  induction l generalizing s with
  | nil => simp [pyEnumerate]
  | cons a l ih =>
    simp only [pyEnumerate, List.mem_cons, Prod.mk.injEq, ih]
    constructor
    · rintro (⟨rfl, rfl⟩ | ⟨k, rfl, h⟩)
      · exact ⟨0, by simp, by simp⟩
      · exact ⟨k + 1, by omega, by simpa using h⟩
    · rintro ⟨k, rfl, h⟩
      cases k with
      | zero => left; simp at h; simp [h]
      | succ k => right; exact ⟨k, by omega, by simpa using h⟩

theorem pyEnumerate_map_snd {α : Type} (l : List α) (s : ℤ) :
    (pyEnumerate l s).map Prod.snd = l := by
  induction l generalizing s with
  | nil => rfl
  | cons a l ih => simp [pyEnumerate, ih]

theorem pyEnumerate_fst_nodup {α : Type} (l : List α) (s : ℤ) :
    ((pyEnumerate l s).map Prod.fst).Nodup := by
  induction l generalizing s with
  | nil => simp [pyEnumerate]
  | cons a l ih =>
    simp only [pyEnumerate, List.map_cons, List.nodup_cons]
    refine ⟨?_, ih _⟩
    intro h
    obtain ⟨⟨i, x⟩, h1, h2⟩ := List.mem_map.1 h
    simp only at h2
    subst h2
    obtain ⟨k, hk, _⟩ := (mem_pyEnumerate l (i + 1) i x).1 h1
    omega

theorem getContMappingStruct_new2old {α : Type} [DecidableEq α] (l : List α) (s : ℤ) :
    (getContMappingStruct l s).new2old = pyEnumerate l s := by
  simp only [getContMappingStruct]
  rw [Dict.update_fresh]
  · simp
  · exact pyEnumerate_fst_nodup l s
  · simp [Dict.keys]

theorem getContMappingStruct_n {α : Type} [DecidableEq α] (l : List α) (s : ℤ) :
    (getContMappingStruct l s).n = l.length := by
  have : (getContMappingStruct l s).n = (getContMappingStruct l s).new2old.keys.length := rfl
  rw [this, getContMappingStruct_new2old]
  simp [Dict.keys, pyEnumerate_length]

theorem swap_keys {α : Type} (l : List α) (s : ℤ) :
    Dict.keys ((pyEnumerate l s).map Prod.swap) = l := by
  simp only [Dict.keys, List.map_map]
  have : (Prod.fst ∘ Prod.swap : ℤ × α → α) = Prod.snd := rfl
  rw [this, pyEnumerate_map_snd]

theorem getContMappingStruct_old2new (l : List α) (s : ℤ) (h : l.Nodup) :
    (getContMappingStruct l s).old2new = (pyEnumerate l s).map Prod.swap := by
  simp only [getContMappingStruct]
  rw [Dict.update_fresh]
  · simp
  · rw [swap_keys]; exact h
  · simp [Dict.keys]

theorem represents_start_zero (l : List α) (h : l.Nodup) :
    Represents (getContMappingStruct l 0) l := by
  refine ⟨h, getContMappingStruct_n l 0, ?_, ?_⟩
  · intro x i
    rw [getContMappingStruct_old2new l 0 h]
    constructor
    · intro hg
      have := Dict.mem_of_get? _ hg
      obtain ⟨⟨j, y⟩, h1, h2⟩ := List.mem_map.1 this
      simp only [Prod.swap_prod_mk, Prod.mk.injEq] at h2
      obtain ⟨rfl, rfl⟩ := h2
      obtain ⟨k, hk, hx⟩ := (mem_pyEnumerate l 0 j y).1 h1
      exact ⟨k, by simpa using hk, hx⟩
    · rintro ⟨k, rfl, hx⟩
      apply Dict.get?_of_mem
      · rw [swap_keys]; exact h
      · exact List.mem_map.2 ⟨((k : ℤ), x), (mem_pyEnumerate l 0 k x).2 ⟨k, by simp, hx⟩, rfl⟩
  · intro i x
    rw [getContMappingStruct_new2old]
    constructor
    · intro hg
      obtain ⟨k, hk, hx⟩ := (mem_pyEnumerate l 0 i x).1 (Dict.mem_of_get? _ hg)
      exact ⟨k, by simpa using hk, hx⟩
    · rintro ⟨k, rfl, hx⟩
      apply Dict.get?_of_mem
      · exact pyEnumerate_fst_nodup l 0
      · exact (mem_pyEnumerate l 0 k x).2 ⟨k, by simp, hx⟩

omit [DecidableEq α] in
theorem get?_enum (l : List α) (s i : ℤ) (x : α) :
    Dict.get? (pyEnumerate l s) i = some x ↔ ∃ k : ℕ, i = s + k ∧ l[k]? = some x := by
  constructor
  · intro hg; exact (mem_pyEnumerate l s i x).1 (Dict.mem_of_get? _ hg)
  · intro h
    exact Dict.get?_of_mem _ (pyEnumerate_fst_nodup l s) ((mem_pyEnumerate l s i x).2 h)

theorem get?_enum_swap (l : List α) (s i : ℤ) (x : α) (h : l.Nodup) :
    Dict.get? ((pyEnumerate l s).map Prod.swap) x = some i ↔
      ∃ k : ℕ, i = s + k ∧ l[k]? = some x := by
  rw [← mem_pyEnumerate]
  constructor
  · intro hg
    obtain ⟨⟨j, y⟩, h1, h2⟩ := List.mem_map.1 (Dict.mem_of_get? _ hg)
    simp only [Prod.swap_prod_mk, Prod.mk.injEq] at h2
    obtain ⟨rfl, rfl⟩ := h2
    exact h1
  · intro hm
    exact Dict.get?_of_mem _ (by rw [swap_keys]; exact h) (List.mem_map.2 ⟨(i, x), hm, rfl⟩)

theorem represents_new2old_none {m : Mapping α} {ids : List α} (h : Represents m ids) (i : ℤ)
    (hi : (ids.length : ℤ) ≤ i) : m.new2old.get? i = none := by
  cases hg : m.new2old.get? i with
  | none => rfl
  | some x =>
    obtain ⟨k, rfl, hx⟩ := (h.new2old i x).1 hg
    have := (List.getElem?_eq_some_iff.1 hx).1
    omega

theorem represents_mem {m : Mapping α} {ids : List α} (h : Represents m ids) (x : α) :
    x ∈ m.old2new.keys ↔ x ∈ ids := by
  rw [Dict.mem_keys_iff, Option.isSome_iff_exists]
  constructor
  · rintro ⟨i, hi⟩
    obtain ⟨k, _, hx⟩ := (h.old2new x i).1 hi
    exact List.mem_of_getElem? hx
  · intro hx
    obtain ⟨k, hk⟩ := List.mem_iff_getElem?.1 hx
    exact ⟨k, (h.old2new x k).2 ⟨k, rfl, hk⟩⟩

theorem represents_get? {m : Mapping α} {ids : List α} (h : Represents m ids) (x : α) (k : ℕ)
    (hk : ids[k]? = some x) : m.old2new.get? x = some (k : ℤ) :=
  (h.old2new x k).2 ⟨k, rfl, hk⟩

theorem represents_get?_idxOf {m : Mapping α} {ids : List α} (h : Represents m ids) (x : α)
    (hx : x ∈ ids) : m.old2new.get? x = some (ids.idxOf x : ℤ) := by
  apply represents_get? h
  rw [List.getElem?_eq_getElem (List.idxOf_lt_length_of_mem hx)]
  simp

theorem represents_none {m : Mapping α} {ids : List α} (h : Represents m ids) (x : α) :
    m.old2new.get? x = none ↔ x ∉ ids := by
  rw [Dict.get?_eq_none_iff, represents_mem h]

theorem represents_update {m : Mapping α} {ids : List α} (h : Represents m ids) (extra : List α)
    (hnd : (ids ++ extra).Nodup) :
    Represents (updateContMappingStruct m extra) (ids ++ extra) := by
  have hne : extra.Nodup := (List.nodup_append.1 hnd).2.1
  have hdis : ∀ x ∈ extra, x ∉ ids := by
    intro x hx hx2
    exact (List.nodup_append.1 hnd).2.2 x hx2 x hx rfl
  have hn2o : (updateContMappingStruct m extra).new2old =
      m.new2old ++ pyEnumerate extra (m.n : ℤ) := by
    simp only [updateContMappingStruct]
    rw [getContMappingStruct_new2old, Dict.update_fresh]
    · exact pyEnumerate_fst_nodup _ _
    · intro k hk hk2
      obtain ⟨⟨j, y⟩, h1, h2⟩ := List.mem_map.1 hk
      simp only at h2
      subst h2
      obtain ⟨k', rfl, _⟩ := (mem_pyEnumerate extra _ j y).1 h1
      have := represents_new2old_none h ((m.n : ℤ) + k') (by rw [h.count]; omega)
      rw [Dict.get?_eq_none_iff] at this
      exact this hk2
  have ho2n : (updateContMappingStruct m extra).old2new =
      m.old2new ++ (pyEnumerate extra (m.n : ℤ)).map Prod.swap := by
    simp only [updateContMappingStruct]
    rw [getContMappingStruct_old2new _ _ hne, Dict.update_fresh]
    · rw [swap_keys]; exact hne
    · rw [swap_keys]
      intro k hk hk2
      exact hdis k hk ((represents_mem h k).1 hk2)
  refine ⟨hnd, ?_, ?_, ?_⟩
  · simp [updateContMappingStruct, getContMappingStruct_n, h.count]
  · intro x i
    rw [ho2n, Dict.get?_append]
    cases hg : m.old2new.get? x with
    | some j =>
      obtain ⟨k, rfl, hk⟩ := (h.old2new x j).1 hg
      have hkl := (List.getElem?_eq_some_iff.1 hk).1
      simp only [Option.some_or, Option.some.injEq]
      constructor
      · rintro rfl
        exact ⟨k, rfl, by rw [List.getElem?_append_left hkl]; exact hk⟩
      · rintro ⟨k', rfl, hk'⟩
        have hk2 : (ids ++ extra)[k]? = some x := by
          rw [List.getElem?_append_left hkl]; exact hk
        have hlt : k < (ids ++ extra).length := (List.getElem?_eq_some_iff.1 hk2).1
        have := (List.nodup_iff_injective_get.1 hnd)
        have hlt' : k' < (ids ++ extra).length := (List.getElem?_eq_some_iff.1 hk').1
        have e : (⟨k, hlt⟩ : Fin _) = ⟨k', hlt'⟩ := this (by
          simp only [List.get_eq_getElem]
          rw [(List.getElem?_eq_some_iff.1 hk2).2, (List.getElem?_eq_some_iff.1 hk').2])
        rw [Fin.mk.injEq] at e; rw [e]
    | none =>
      have hx : x ∉ ids := (represents_none h x).1 hg
      simp only [Option.none_or]
      rw [get?_enum_swap _ _ _ _ hne]
      constructor
      · rintro ⟨k, rfl, hk⟩
        refine ⟨m.n + k, by omega, ?_⟩
        rw [h.count, List.getElem?_append_right (by omega)]
        simpa using hk
      · rintro ⟨k, rfl, hk⟩
        have hge : ids.length ≤ k := by
          by_contra hc
          rw [List.getElem?_append_left (by omega)] at hk
          exact hx (List.mem_of_getElem? hk)
        rw [List.getElem?_append_right hge] at hk
        exact ⟨k - ids.length, by rw [h.count]; omega, hk⟩
  · intro i x
    rw [hn2o, Dict.get?_append]
    cases hg : m.new2old.get? i with
    | some y =>
      obtain ⟨k, rfl, hk⟩ := (h.new2old i y).1 hg
      have hkl := (List.getElem?_eq_some_iff.1 hk).1
      simp only [Option.some_or, Option.some.injEq]
      constructor
      · rintro rfl
        exact ⟨k, rfl, by rw [List.getElem?_append_left hkl]; exact hk⟩
      · rintro ⟨k', hk', hx⟩
        have : k = k' := by omega
        subst this
        rw [List.getElem?_append_left hkl, hk] at hx
        exact Option.some.inj hx
    | none =>
      simp only [Option.none_or]
      rw [get?_enum]
      constructor
      · rintro ⟨k, rfl, hk⟩
        refine ⟨m.n + k, by omega, ?_⟩
        rw [h.count, List.getElem?_append_right (by omega)]
        simpa using hk
      · rintro ⟨k, rfl, hk⟩
        have hge : ids.length ≤ k := by
          by_contra hc
          rw [List.getElem?_append_left (by omega)] at hk
          rw [(h.new2old k x).2 ⟨k, rfl, hk⟩] at hg
          cases hg
        rw [List.getElem?_append_right hge] at hk
        exact ⟨k - ids.length, by rw [h.count]; omega, hk⟩

theorem firstAppearance_pdUnique (l : List α) : FirstAppearance l (pdUnique l) := by
  refine ⟨nodup_pdUnique l, mem_pdUnique l, ?_⟩
  induction l with
  | nil => simp [pdUnique]
  | cons a l ih =>
    simp only [pdUnique, List.pairwise_cons]
    refine ⟨?_, ?_⟩
    · intro x hx
      have hne : x ≠ a := by simpa using (List.mem_filter.1 hx).2
      rw [List.idxOf_cons_self, List.idxOf_cons_ne _ (fun e => hne e.symm)]
      omega
    · refine (ih.filter _).imp_of_mem ?_
      intro x y hx hy hxy
      have hxa : x ≠ a := by simpa using (List.mem_filter.1 hx).2
      have hya : y ≠ a := by simpa using (List.mem_filter.1 hy).2
      rw [List.idxOf_cons_ne _ (fun e => hxa e.symm), List.idxOf_cons_ne _ (fun e => hya e.symm)]
      omega

end DynCF
