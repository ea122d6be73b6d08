/- Helper lemmas on stable sorting. -/
import Verif.Py.Basic
import Mathlib.Data.List.Perm.Basic

namespace DynCF
variable {α : Type} (le : α → α → Bool)

/-- insertion step of `stableSort` -/
abbrev ins (a : α) (l : List α) : List α := l.orderedInsert (fun a b => le a b = true) a

theorem stableSort_nil : stableSort le ([] : List α) = [] := rfl
theorem stableSort_cons (a : α) (l : List α) :
    stableSort le (a :: l) = ins le a (stableSort le l) := rfl
theorem ins_cons (a b : α) (l : List α) :
    ins le a (b :: l) = if le a b = true then a :: b :: l else b :: ins le a l := rfl

theorem stableSort_perm (l : List α) : (stableSort le l).Perm l := List.perm_insertionSort _ l
theorem mem_stableSort (l : List α) (x : α) : x ∈ stableSort le l ↔ x ∈ l :=
  (stableSort_perm le l).mem_iff
theorem stableSort_length (l : List α) : (stableSort le l).length = l.length :=
  (stableSort_perm le l).length_eq

variable {le}

theorem ins_sorted (ht : ∀ a b c, le a b = true → le b c = true → le a c = true)
    (htot : ∀ a b, le a b = true ∨ le b a = true) (a : α) (l : List α)
    (h : l.Pairwise (fun a b => le a b = true)) :
    (ins le a l).Pairwise (fun a b => le a b = true) := by
  induction l with
  | nil => simp [ins]
  | cons b l ih =>
    rw [ins_cons]
    rw [List.pairwise_cons] at h
    split
    · rename_i hab
      rw [List.pairwise_cons]
      refine ⟨?_, List.pairwise_cons.2 h⟩
      intro c hc
      rcases List.mem_cons.1 hc with rfl | hc
      · exact hab
      · exact ht _ _ _ hab (h.1 c hc)
    · rename_i hab
      rw [List.pairwise_cons]
      refine ⟨?_, ih h.2⟩
      intro c hc
      rw [List.mem_orderedInsert] at hc
      rcases hc with rfl | hc
      · exact (htot _ _).resolve_left hab
      · exact h.1 c hc

theorem stableSort_sorted (ht : ∀ a b c, le a b = true → le b c = true → le a c = true)
    (htot : ∀ a b, le a b = true ∨ le b a = true) (l : List α) :
    (stableSort le l).Pairwise (fun a b => le a b = true) := by
  induction l with
  | nil => simp [stableSort_nil]
  | cons a l ih => rw [stableSort_cons]; exact ins_sorted ht htot a _ ih

theorem stableSort_of_sorted (l : List α) (h : l.Pairwise (fun a b => le a b = true)) :
    stableSort le l = l := List.Pairwise.insertionSort_eq h

/-- In a sorted list, insertion splits at the first element not smaller. -/
theorem ins_split (ht : ∀ a b c, le a b = true → le b c = true → le a c = true)
    (a : α) (l : List α) (h : l.Pairwise (fun a b => le a b = true)) :
    ∃ p q, l = p ++ q ∧ ins le a l = p ++ a :: q ∧ (∀ x ∈ p, ¬ le a x = true) ∧
      (∀ x ∈ q, le a x = true) := by
  induction l with
  | nil => exact ⟨[], [], rfl, rfl, by simp, by simp⟩
  | cons b l ih =>
    rw [List.pairwise_cons] at h
    rw [ins_cons]
    split
    · rename_i hab
      refine ⟨[], b :: l, rfl, rfl, by simp, ?_⟩
      intro x hx
      rcases List.mem_cons.1 hx with rfl | hx
      · exact hab
      · exact ht _ _ _ hab (h.1 x hx)
    · rename_i hab
      obtain ⟨p, q, h1, h2, h3, h4⟩ := ih h.2
      refine ⟨b :: p, q, by rw [h1]; rfl, by rw [h2]; rfl, ?_, h4⟩
      intro x hx
      rcases List.mem_cons.1 hx with rfl | hx
      · exact hab
      · exact h3 x hx

theorem ins_of_split (a : α) (p q : List α) (hp : ∀ x ∈ p, ¬ le a x = true)
    (hq : ∀ x ∈ q, le a x = true) : ins le a (p ++ q) = p ++ a :: q := by
  induction p with
  | nil =>
    cases q with
    | nil => rfl
    | cons b q => simp only [List.nil_append]; rw [ins_cons, if_pos (hq b (by simp))]
  | cons b p ih =>
    simp only [List.cons_append]
    rw [ins_cons, if_neg (hp b (by simp)), ih (fun x hx => hp x (List.mem_cons_of_mem _ hx))]

theorem filter_ins (ht : ∀ a b c, le a b = true → le b c = true → le a c = true)
    (P : α → Bool) (a : α) (l : List α) (h : l.Pairwise (fun a b => le a b = true)) :
    (ins le a l).filter P = if P a = true then ins le a (l.filter P) else l.filter P := by
  obtain ⟨p, q, h1, h2, h3, h4⟩ := ins_split ht a l h
  rw [h2, h1, List.filter_append, List.filter_append, List.filter_cons]
  split
  · rw [ins_of_split]
    · intro x hx; exact h3 x (List.mem_filter.1 hx).1
    · intro x hx; exact h4 x (List.mem_filter.1 hx).1
  · rfl

/-- Stability: filtering commutes with stable sorting. -/
theorem filter_stableSort (ht : ∀ a b c, le a b = true → le b c = true → le a c = true)
    (htot : ∀ a b, le a b = true ∨ le b a = true) (P : α → Bool) (l : List α) :
    (stableSort le l).filter P = stableSort le (l.filter P) := by
  induction l with
  | nil => rfl
  | cons a l ih =>
    rw [stableSort_cons, filter_ins ht P a _ (stableSort_sorted ht htot l), ih, List.filter_cons]
    split <;> rfl

theorem ins_congr {le' : α → α → Bool} (a : α) (l : List α)
    (h : ∀ x ∈ l, le a x = le' a x) : ins le a l = ins le' a l := by
  induction l with
  | nil => rfl
  | cons b l ih =>
    rw [ins_cons, ins_cons, h b (by simp), ih (fun x hx => h x (List.mem_cons_of_mem _ hx))]

theorem stableSort_congr {le' : α → α → Bool} (l : List α)
    (h : ∀ x ∈ l, ∀ y ∈ l, le x y = le' x y) : stableSort le l = stableSort le' l := by
  induction l with
  | nil => rfl
  | cons a l ih =>
    rw [stableSort_cons, stableSort_cons,
      ih (fun x hx y hy => h x (List.mem_cons_of_mem _ hx) y (List.mem_cons_of_mem _ hy))]
    apply ins_congr
    intro x hx
    exact h a (by simp) x (List.mem_cons_of_mem _ ((mem_stableSort _ _ _).1 hx))

/-- Two sorted lists that agree on every key class are equal. -/
theorem sorted_eq_of_filter_eq {β : Type} [LinearOrder β] (key : α → β) (l1 l2 : List α)
    (h1 : l1.Pairwise (fun a b => key a ≤ key b)) (h2 : l2.Pairwise (fun a b => key a ≤ key b))
    (h : ∀ t, l1.filter (fun a => decide (key a = t)) = l2.filter (fun a => decide (key a = t))) :
    l1 = l2 := by
  induction l1 generalizing l2 with
  | nil =>
    cases l2 with
    | nil => rfl
    | cons b l2 => have := h (key b); simp at this
  | cons a l1 ih =>
    cases l2 with
    | nil => have := h (key a); simp at this
    | cons b l2 =>
      rw [List.pairwise_cons] at h1 h2
      have hab : key a = key b := by
        apply le_antisymm
        · have hb : b ∈ (a :: l1).filter (fun x => decide (key x = key b)) := by
            rw [h (key b)]; simp
          have := (List.mem_filter.1 hb).1
          rcases List.mem_cons.1 this with e | e
          · rw [e]
          · exact h1.1 b e
        · have hb : a ∈ (b :: l2).filter (fun x => decide (key x = key a)) := by
            rw [← h (key a)]; simp
          have := (List.mem_filter.1 hb).1
          rcases List.mem_cons.1 this with e | e
          · rw [e]
          · exact h2.1 a e
      have e0 := h (key a)
      rw [List.filter_cons, List.filter_cons, if_pos (by simp), if_pos (by simp [hab])] at e0
      have eab := (List.cons.inj e0).1
      subst eab
      congr 1
      apply ih l2 h1.2 h2.2
      intro t
      have := h t
      rw [List.filter_cons, List.filter_cons] at this
      split at this
      · exact (List.cons.inj this).2
      · exact this

theorem strictly_sorted_unique (l1 l2 : List ℤ) (h1 : l1.Pairwise (· < ·))
    (h2 : l2.Pairwise (· < ·)) (h : ∀ x, x ∈ l1 ↔ x ∈ l2) : l1 = l2 :=
  List.Pairwise.eq_of_mem_iff h1 h2 (fun {x} => h x)

/-- `sorted(set(l))` -/
def sortedUnique (l : List ℤ) : List ℤ := stableSort (fun a b => decide (a ≤ b)) (pdUnique l)

end DynCF
