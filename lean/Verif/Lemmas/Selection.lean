/- Helper lemmas for re-indexing tables and for the evaluation selection. -/
import Verif.Lemmas.Mapping
import Mathlib.Data.List.Forall2

namespace DynCF
variable {K : Type}

theorem applyUserMap_ok_iff (m : Mapping ℤ) (df df' : List (Row K)) :
    applyUserMap m df = .ok df' ↔
      List.Forall₂ (fun r r' => SameRest r r' ∧ r'.item = r.item ∧
        m.old2new.get? r.user = some r'.user) df df' := by
  unfold applyUserMap
  rw [mapM_ok_iff]
  have : ∀ r r' : Row K, ((do let u ← m.old2new.getItem r.user; pure { r with user := u }) : PyM (Row K)) = .ok r'
      ↔ SameRest r r' ∧ r'.item = r.item ∧ m.old2new.get? r.user = some r'.user := by
    intro r r'
    unfold Dict.getItem
    cases hg : m.old2new.get? r.user with
    | none =>
      simp
    | some u =>
      rw [except_bind_ok]
      constructor
      · intro h; cases h; exact ⟨⟨rfl, rfl, rfl⟩, rfl, rfl⟩
      · rintro ⟨⟨h1, h2, h3⟩, h4, h5⟩
        obtain ⟨u', i', r', t', d'⟩ := r'
        simp only at h1 h2 h3 h4 h5
        cases h5; subst h1 h2 h3 h4; rfl
  simp only [this]

theorem applyItemMap_ok_iff (m : Mapping ℤ) (df df' : List (Row K)) :
    applyItemMap m df = .ok df' ↔
      List.Forall₂ (fun r r' => SameRest r r' ∧ r'.user = r.user ∧
        m.old2new.get? r.item = some r'.item) df df' := by
  unfold applyItemMap
  rw [mapM_ok_iff]
  have : ∀ r r' : Row K, ((do let i ← m.old2new.getItem r.item; pure { r with item := i }) : PyM (Row K)) = .ok r'
      ↔ SameRest r r' ∧ r'.user = r.user ∧ m.old2new.get? r.item = some r'.item := by
    intro r r'
    unfold Dict.getItem
    cases hg : m.old2new.get? r.item with
    | none =>
      simp
    | some u =>
      rw [except_bind_ok]
      constructor
      · intro h; cases h; exact ⟨⟨rfl, rfl, rfl⟩, rfl, rfl⟩
      · rintro ⟨⟨h1, h2, h3⟩, h4, h5⟩
        obtain ⟨u', i', r', t', d'⟩ := r'
        simp only at h1 h2 h3 h4 h5
        cases h5; subst h1 h2 h3 h4; rfl
  simp only [this]

theorem applyUserMap_exists (m : Mapping ℤ) (df : List (Row K))
    (h : ∀ r ∈ df, r.user ∈ m.old2new.keys) : ∃ df', applyUserMap m df = .ok df' := by
  cases hr : applyUserMap m df with
  | ok df' => exact ⟨df', rfl⟩
  | error e =>
    obtain ⟨r, hr1, hr2⟩ := mapM_error _ _ _ hr
    have := (Dict.mem_keys_iff _ _).1 (h r hr1)
    obtain ⟨u, hu⟩ := Option.isSome_iff_exists.1 this
    unfold Dict.getItem at hr2
    rw [hu, except_bind_ok] at hr2; cases hr2

theorem applyItemMap_exists (m : Mapping ℤ) (df : List (Row K))
    (h : ∀ r ∈ df, r.item ∈ m.old2new.keys) : ∃ df', applyItemMap m df = .ok df' := by
  cases hr : applyItemMap m df with
  | ok df' => exact ⟨df', rfl⟩
  | error e =>
    obtain ⟨r, hr1, hr2⟩ := mapM_error _ _ _ hr
    have := (Dict.mem_keys_iff _ _).1 (h r hr1)
    obtain ⟨u, hu⟩ := Option.isSome_iff_exists.1 this
    unfold Dict.getItem at hr2
    rw [hu, except_bind_ok] at hr2; cases hr2

theorem applyUserMap_error (m : Mapping ℤ) (df : List (Row K)) (e : PyErr)
    (h : applyUserMap m df = .error e) : e = .keyError := by
  obtain ⟨r, _, hr2⟩ := mapM_error _ _ _ h
  unfold Dict.getItem at hr2
  cases hg : m.old2new.get? r.user with
  | none => rw [hg, except_bind_error] at hr2; cases hr2; rfl
  | some u => rw [hg, except_bind_ok] at hr2; cases hr2

theorem applyItemMap_error (m : Mapping ℤ) (df : List (Row K)) (e : PyErr)
    (h : applyItemMap m df = .error e) : e = .keyError := by
  obtain ⟨r, _, hr2⟩ := mapM_error _ _ _ h
  unfold Dict.getItem at hr2
  cases hg : m.old2new.get? r.item with
  | none => rw [hg, except_bind_error] at hr2; cases hr2; rfl
  | some u => rw [hg, except_bind_ok] at hr2; cases hr2

theorem forall₂_comp {α β γ : Type} {R : α → β → Prop} {S : β → γ → Prop} {T : α → γ → Prop}
    (hT : ∀ a b c, R a b → S b c → T a c) {l1 : List α} {l2 : List β} {l3 : List γ}
    (h1 : List.Forall₂ R l1 l2) (h2 : List.Forall₂ S l2 l3) : List.Forall₂ T l1 l3 := by
  induction h1 generalizing l3 with
  | nil => cases h2; exact List.Forall₂.nil
  | cons h _ ih =>
    cases h2 with
    | cons h' h2' => exact List.Forall₂.cons (hT _ _ _ h h') (ih h2')

theorem forall₂_mem_left {α β : Type} {R : α → β → Prop} {l1 : List α} {l2 : List β}
    (h : List.Forall₂ R l1 l2) {a : α} (ha : a ∈ l1) : ∃ b ∈ l2, R a b := by
  induction h with
  | nil => cases ha
  | cons h _ ih =>
    rcases List.mem_cons.1 ha with rfl | ha
    · exact ⟨_, List.mem_cons_self, h⟩
    · obtain ⟨b, h1, h2⟩ := ih ha; exact ⟨b, List.mem_cons_of_mem _ h1, h2⟩

theorem forall₂_mem_right {α β : Type} {R : α → β → Prop} {l1 : List α} {l2 : List β}
    (h : List.Forall₂ R l1 l2) {b : β} (hb : b ∈ l2) : ∃ a ∈ l1, R a b := by
  induction h with
  | nil => cases hb
  | cons h _ ih =>
    rcases List.mem_cons.1 hb with rfl | hb
    · exact ⟨_, List.mem_cons_self, h⟩
    · obtain ⟨b, h1, h2⟩ := ih hb; exact ⟨b, List.mem_cons_of_mem _ h1, h2⟩

theorem forall₂_map_eq {α β γ : Type} {R : α → β → Prop} {f : α → γ} {g : β → γ}
    (hR : ∀ a b, R a b → f a = g b) {l1 : List α} {l2 : List β}
    (h : List.Forall₂ R l1 l2) : l1.map f = l2.map g := by
  induction h with
  | nil => rfl
  | cons h _ ih => simp [hR _ _ h, ih]

/-- Full row-wise description of a successful `map_df_columns`. -/
theorem mapDfColumns_ok_iff (df df' : List (Row K)) (m : Mappings) :
    mapDfColumns df m = .ok df' ↔
      List.Forall₂ (fun r r' => SameRest r r' ∧ m.user.old2new.get? r.user = some r'.user ∧
        m.item.old2new.get? r.item = some r'.item) df df' := by
  unfold mapDfColumns
  constructor
  · intro h
    cases h1 : applyUserMap m.user df with
    | error e => rw [h1, except_bind_error] at h; cases h
    | ok df1 =>
      rw [h1, except_bind_ok] at h
      refine forall₂_comp ?_ ((applyUserMap_ok_iff _ _ _).1 h1) ((applyItemMap_ok_iff _ _ _).1 h)
      rintro r r1 r2 ⟨⟨a1, a2, a3⟩, hi, hu⟩ ⟨⟨b1, b2, b3⟩, hu2, hi2⟩
      exact ⟨⟨a1.trans b1, a2.trans b2, a3.trans b3⟩, by rw [hu2]; exact hu, by rw [← hi]; exact hi2⟩
  · intro h
    obtain ⟨df1, h1⟩ := applyUserMap_exists m.user df (by
      intro r hr
      obtain ⟨r', _, _, h2, _⟩ := forall₂_mem_left h hr
      rw [Dict.mem_keys_iff, h2]; rfl)
    rw [h1, except_bind_ok]
    rw [applyItemMap_ok_iff]
    have hf1 := (applyUserMap_ok_iff _ _ _).1 h1
    clear h1
    induction hf1 generalizing df' with
    | nil => cases h; exact List.Forall₂.nil
    | cons hh _ ih =>
      cases h with
      | cons h2 h3 =>
        refine List.Forall₂.cons ?_ (ih _ h3)
        obtain ⟨⟨a1, a2, a3⟩, hi, hu⟩ := hh
        obtain ⟨⟨b1, b2, b3⟩, hu2, hi2⟩ := h2
        rw [hu] at hu2
        exact ⟨⟨a1.symm.trans b1, a2.symm.trans b2, a3.symm.trans b3⟩, (Option.some.inj hu2).symm, by rw [hi]; exact hi2⟩

theorem mapDfColumns_error (df : List (Row K)) (m : Mappings) (e : PyErr)
    (h : mapDfColumns df m = .error e) : e = .keyError := by
  unfold mapDfColumns at h
  cases h1 : applyUserMap m.user df with
  | error e' => rw [h1, except_bind_error] at h; cases h; exact applyUserMap_error _ _ _ h1
  | ok df1 => rw [h1, except_bind_ok] at h; exact applyItemMap_error _ _ _ h

theorem mapDfColumns_exists (df : List (Row K)) (m : Mappings)
    (hu : ∀ r ∈ df, r.user ∈ m.user.old2new.keys) (hi : ∀ r ∈ df, r.item ∈ m.item.old2new.keys) :
    ∃ df', mapDfColumns df m = .ok df' := by
  unfold mapDfColumns
  obtain ⟨df1, h1⟩ := applyUserMap_exists m.user df hu
  rw [h1, except_bind_ok]
  apply applyItemMap_exists
  intro r' hr'
  obtain ⟨r, hr, _, h2, _⟩ := forall₂_mem_right ((applyUserMap_ok_iff _ _ _).1 h1) hr'
  rw [h2]; exact hi r hr

/-! ### first-occurrence mask -/

theorem mem_npUniqueIndex (a : List ℤ) (i : ℕ) :
    i ∈ npUniqueIndex a ↔ ∃ x ∈ a, a.idxOf x = i := by
  unfold npUniqueIndex stableSort
  simp only [List.mem_map, List.mem_insertionSort, mem_pdUnique]

/-- The complement of `mask_first_occurence` selects exactly the rows whose key has not
occurred before. -/
def selectFirst {α : Type} (key : α → ℤ) : List α → List ℤ → List α
  | [], _ => []
  | a :: l, seen => if key a ∈ seen then selectFirst key l seen
      else a :: selectFirst key l (key a :: seen)

theorem maskFirst_get (a : List ℤ) (i : ℕ) (hi : i < a.length) :
    ((maskFirstOccurence a).map (fun b => !b))[i]? = some (decide (a[i] ∉ a.take i)) := by
  unfold maskFirstOccurence
  simp only [List.map_map, List.getElem?_map, List.getElem?_range hi, Option.map_some,
    Function.comp, Bool.not_not, Option.some.injEq, decide_eq_decide, mem_npUniqueIndex]
  have hm : a[i] ∈ a := List.getElem_mem hi
  rw [List.mem_take_iff_idxOf_lt hm]
  have hle : a.idxOf a[i] ≤ i := by
    have : a[i] ∈ a.take (i + 1) := by
      rw [List.mem_take_iff_getElem]
      exact ⟨i, by omega, rfl⟩
    rw [List.mem_take_iff_idxOf_lt hm] at this
    omega
  constructor
  · rintro ⟨x, hx, hxi⟩
    have e : a[i] = x := by
      subst hxi; exact List.getElem_idxOf (List.idxOf_lt_length_of_mem hx)
    rw [e]; omega
  · intro h
    exact ⟨a[i], hm, by omega⟩

/-- Recursive form of the complemented mask. -/
def firstMaskRec : List ℤ → List ℤ → List Bool
  | [], _ => []
  | x :: l, seen => decide (x ∉ seen) :: firstMaskRec l (x :: seen)

theorem firstMaskRec_length (a seen : List ℤ) : (firstMaskRec a seen).length = a.length := by
  induction a generalizing seen with
  | nil => rfl
  | cons x l ih => simp [firstMaskRec, ih]

theorem firstMaskRec_get (a seen : List ℤ) (i : ℕ) (hi : i < a.length) :
    (firstMaskRec a seen)[i]? = some (decide (a[i] ∉ seen ∧ a[i] ∉ a.take i)) := by
  induction a generalizing seen i with
  | nil => simp at hi
  | cons x l ih =>
    cases i with
    | zero => simp [firstMaskRec]
    | succ i =>
      simp only [List.length_cons] at hi
      simp only [firstMaskRec, List.getElem?_cons_succ, List.getElem_cons_succ,
        List.take_succ_cons]
      rw [ih _ i (by omega)]
      simp only [List.mem_cons, not_or, Option.some.injEq, decide_eq_decide]
      tauto

theorem maskFirst_eq_rec (a : List ℤ) :
    (maskFirstOccurence a).map (fun b => !b) = firstMaskRec a [] := by
  apply List.ext_getElem?
  intro i
  by_cases hi : i < a.length
  · rw [maskFirst_get a i hi, firstMaskRec_get a [] i hi]
    simp
  · rw [List.getElem?_eq_none, List.getElem?_eq_none]
    · rw [firstMaskRec_length]; omega
    · simp [maskFirstOccurence]; omega

theorem maskSelect_firstMaskRec {α : Type} (key : α → ℤ) (l : List α) (seen : List ℤ) :
    maskSelect l (firstMaskRec (l.map key) seen) = selectFirst key l seen := by
  induction l generalizing seen with
  | nil => rfl
  | cons a l ih =>
    simp only [List.map_cons, firstMaskRec, maskSelect, selectFirst, decide_eq_true_eq, ih]
    by_cases h : key a ∈ seen
    · simp only [h, not_true_eq_false, if_false, if_true]
      -- a repeated key added to `seen` changes nothing
      have hcongr : ∀ (l : List α) (s1 s2 : List ℤ), (∀ x, x ∈ s1 ↔ x ∈ s2) →
          selectFirst key l s1 = selectFirst key l s2 := by
        intro l
        induction l with
        | nil => intros; rfl
        | cons b l ih2 =>
          intro s1 s2 hs
          simp only [selectFirst, hs (key b)]
          split
          · exact ih2 _ _ hs
          · rw [ih2 (key b :: s1) (key b :: s2) (by intro x; simp [hs x])]
      exact hcongr l _ _ (by intro x; simp only [List.mem_cons]; constructor
                             · rintro (rfl | hx)
                               · exact h
                               · exact hx
                             · exact Or.inr)
    · simp [h]

theorem mem_selectFirst {α : Type} (key : α → ℤ) (l : List α) (seen : List ℤ) (a : α) :
    a ∈ selectFirst key l seen ↔
      key a ∉ seen ∧ ∃ pre post, l = pre ++ a :: post ∧ ∀ b ∈ pre, key b ≠ key a := by
  induction l generalizing seen with
  | nil => simp [selectFirst]
  | cons b l ih =>
    simp only [selectFirst]
    split
    · rename_i hb
      rw [ih]
      constructor
      · rintro ⟨h1, pre, post, rfl, h3⟩
        refine ⟨h1, b :: pre, post, rfl, ?_⟩
        intro c hc
        rcases List.mem_cons.1 hc with rfl | hc
        · intro e; rw [e] at hb; exact h1 hb
        · exact h3 c hc
      · rintro ⟨h1, pre, post, h2, h3⟩
        cases pre with
        | nil => simp only [List.nil_append, List.cons.injEq] at h2; rw [h2.1] at hb; exact absurd hb h1
        | cons c pre =>
          simp only [List.cons_append, List.cons.injEq] at h2
          exact ⟨h1, pre, post, h2.2, fun x hx => h3 x (List.mem_cons_of_mem _ hx)⟩
    · rename_i hb
      rw [List.mem_cons, ih]
      constructor
      · rintro (rfl | ⟨h1, pre, post, rfl, h3⟩)
        · exact ⟨hb, [], l, rfl, by simp⟩
        · simp only [List.mem_cons, not_or] at h1
          refine ⟨h1.2, b :: pre, post, rfl, ?_⟩
          intro c hc
          rcases List.mem_cons.1 hc with rfl | hc
          · exact fun e => h1.1 e.symm
          · exact h3 c hc
      · rintro ⟨h1, pre, post, h2, h3⟩
        cases pre with
        | nil => simp only [List.nil_append, List.cons.injEq] at h2; exact Or.inl h2.1.symm
        | cons c pre =>
          simp only [List.cons_append, List.cons.injEq] at h2
          right
          refine ⟨?_, pre, post, h2.2, fun x hx => h3 x (List.mem_cons_of_mem _ hx)⟩
          simp only [List.mem_cons, not_or]
          refine ⟨?_, h1⟩
          intro e
          exact h3 c List.mem_cons_self (by rw [← h2.1]; exact e.symm)

theorem selectFirst_keys {α : Type} (key : α → ℤ) (l : List α) (seen : List ℤ) :
    (selectFirst key l seen).map key = (pdUnique (l.map key)).filter (fun x => decide (x ∉ seen)) := by
  induction l generalizing seen with
  | nil => rfl
  | cons a l ih =>
    simp only [selectFirst, List.map_cons, pdUnique, List.filter_cons, decide_eq_true_eq]
    by_cases h : key a ∈ seen
    · simp only [h, if_true, not_true_eq_false, if_false, ih, List.filter_filter]
      apply List.filter_congr
      intro x _
      by_cases hx : x ∈ seen
      · simp [hx]
      · have : x ≠ key a := by rintro rfl; exact hx h
        simp [hx, this]
    · simp only [h, if_false, not_false_eq_true, if_true, List.map_cons, ih, List.filter_filter]
      congr 1
      apply List.filter_congr
      intro x _
      by_cases hx : x = key a <;> simp [hx]

end DynCF
