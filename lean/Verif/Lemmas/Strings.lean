/- Facts about `str.split` on lists of characters. -/
import Verif.Model.Graphs

namespace DynCF

theorem breakOn_none (c : Char) (t s : Str) (h : c ∉ s) : breakOn (c :: t) s = none := by
  induction s with
  | nil => rfl
  | cons d s ih =>
    have hd : c ≠ d := fun e => h (by simp [e])
    have hs : c ∉ s := fun e => h (List.mem_cons_of_mem _ e)
    simp [breakOn, ih hs, List.isPrefixOf, hd]

theorem breakOn_skip (c : Char) (t a r : Str) (h : c ∉ a) :
    breakOn (c :: t) (a ++ r) = (breakOn (c :: t) r).map fun p => (a ++ p.1, p.2) := by
  induction a with
  | nil => simp
  | cons d a ih =>
    have hd : c ≠ d := fun e => h (by simp [e])
    have hs : c ∉ a := fun e => h (List.mem_cons_of_mem _ e)
    rw [List.cons_append, breakOn]
    simp only [List.isPrefixOf, ih hs]
    rw [if_neg (by simp [hd])]
    cases breakOn (c :: t) r <;> simp

theorem breakOn_here (sep r : Str) (h : sep ≠ []) : breakOn sep (sep ++ r) = some ([], r) := by
  cases sep with
  | nil => exact absurd rfl h
  | cons c t =>
    rw [List.cons_append, breakOn, if_pos]
    · simp
    · rw [List.isPrefixOf_iff_prefix]
      exact ⟨r, rfl⟩

/-- The text is what surrounds the separator. -/
theorem breakOn_some {sep s a b : Str} (h : breakOn sep s = some (a, b)) : s = a ++ sep ++ b := by
  induction s generalizing a with
  | nil => simp [breakOn] at h
  | cons c s ih =>
    rw [breakOn] at h
    by_cases hp : sep.isPrefixOf (c :: s) = true
    · rw [if_pos hp] at h
      obtain ⟨rfl, rfl⟩ := Prod.mk.inj (Option.some.inj h)
      rw [List.isPrefixOf_iff_prefix] at hp
      obtain ⟨r, hr⟩ := hp
      rw [← hr]
      simp
    · rw [if_neg hp] at h
      rcases hb : breakOn sep s with - | ⟨x, y⟩
      · simp [hb] at h
      · rw [hb] at h
        simp only [Option.map_some, Option.some.injEq, Prod.mk.injEq] at h
        obtain ⟨rfl, rfl⟩ := h
        rw [ih hb]
        simp

/-- The first occurrence is found. -/
theorem breakOn_first (sep a b : Str) (hs : sep ≠ []) (h : ¬ sep <:+: (a ++ sep.dropLast)) :
    breakOn sep (a ++ sep ++ b) = some (a, b) := by
  induction a with
  | nil => simpa using breakOn_here sep b hs
  | cons c a ih =>
    have hlen : 0 < sep.length := List.length_pos_of_ne_nil hs
    have hno : ¬ sep.isPrefixOf (c :: a ++ sep ++ b) = true := by
      rw [List.isPrefixOf_iff_prefix]
      intro hp
      apply h
      have h2 : (c :: a ++ sep.dropLast) <+: (c :: a ++ sep ++ b) := by
        refine ⟨sep.drop (sep.length - 1) ++ b, ?_⟩
        rw [List.dropLast_eq_take]
        have := List.take_append_drop (sep.length - 1) sep
        rw [← List.append_assoc, List.append_assoc (c :: a), this]
      exact (List.prefix_of_prefix_length_le hp h2 (by simp; omega)).isInfix
    have h' : ¬ sep <:+: (a ++ sep.dropLast) := by
      intro hi
      exact h (hi.trans (List.infix_cons (List.infix_refl _)))
    have : breakOn sep (c :: (a ++ sep ++ b)) = some (c :: a, b) := by
      rw [breakOn, if_neg (by simpa using hno), ih h']
      rfl
    simpa using this

theorem splitN_none (sep s : Str) (n : ℕ) (h : breakOn sep s = none) : splitN sep n s = [s] := by
  cases n <;> simp [splitN, h]

theorem pySplit_none (sep s : Str) (h : breakOn sep s = none) : pySplit sep s = [s] := splitN_none _ _ _ h

theorem pySplit_cons {sep s a b : Str} (hs : sep ≠ []) (h : breakOn sep s = some (a, b)) :
    ∃ n, b.length ≤ n ∧ pySplit sep s = a :: splitN sep n b := by
  have e := breakOn_some h
  have hl : s.length = a.length + sep.length + b.length := by rw [e]; simp; omega
  have := List.length_pos_of_ne_nil hs
  obtain ⟨n, hn⟩ : ∃ n, s.length = n + 1 := ⟨s.length - 1, by omega⟩
  refine ⟨n, by omega, ?_⟩
  unfold pySplit
  rw [hn, splitN, h]

theorem pySplit_two {sep s a b : Str} (hs : sep ≠ []) (h : breakOn sep s = some (a, b))
    (hb : breakOn sep b = none) : pySplit sep s = [a, b] := by
  obtain ⟨n, -, e⟩ := pySplit_cons hs h
  rw [e, splitN_none _ _ _ hb]

/-- Joining the parts with the separator gives the text back. -/
theorem splitN_join (sep : Str) (n : ℕ) (s : Str) : sep.intercalate (splitN sep n s) = s := by
  induction n generalizing s with
  | zero => simp [splitN, List.intercalate]
  | succ n ih =>
    rw [splitN]
    rcases h : breakOn sep s with - | ⟨a, b⟩
    · simp [List.intercalate]
    · have hne : splitN sep n b ≠ [] := by
        cases n with
        | zero => simp [splitN]
        | succ n => rw [splitN]; cases breakOn sep b <;> simp
      obtain ⟨y, l, hy⟩ := List.exists_cons_of_ne_nil hne
      have e := ih b
      rw [hy] at e
      simp only [hy]
      rw [show sep.intercalate (a :: y :: l) = a ++ sep ++ sep.intercalate (y :: l) by
        simp [List.intercalate, List.intersperse], e]
      exact (breakOn_some h).symm

/-- The text after the last separator, for a separator of one character. -/
theorem splitN_last (c : Char) (n : ℕ) (d r : Str) (hn : d.length + 1 ≤ n) (hr : c ∉ r) :
    (splitN [c] n (d ++ c :: r)).getLast? = some r := by
  induction n generalizing d with
  | zero => omega
  | succ n ih =>
    rw [splitN]
    by_cases hd : c ∈ d
    · obtain ⟨d1, d2, rfl, h1⟩ := List.eq_append_cons_of_mem hd
      have hb : breakOn [c] (d1 ++ c :: d2 ++ c :: r) = some (d1, d2 ++ c :: r) := by
        have := breakOn_here [c] (d2 ++ c :: r) (by simp)
        simp only [List.singleton_append] at this
        rw [List.append_assoc, breakOn_skip c [] d1 _ h1, List.cons_append, this]
        simp
      rw [hb]
      simp only
      have := ih d2 (by simp at hn; omega)
      rw [List.getLast?_cons, this]
      rfl
    · have hb : breakOn [c] (d ++ c :: r) = some (d, r) := by
        have := breakOn_here [c] r (by simp)
        simp only [List.singleton_append] at this
        rw [breakOn_skip c [] d _ hd, this]
        simp
      rw [hb]
      simp only
      rw [splitN_none _ _ _ (breakOn_none c [] r hr)]
      rfl

theorem pySplit_last (c : Char) (d r : Str) (hr : c ∉ r) :
    (pySplit [c] (d ++ c :: r)).getLastD [] = r := by
  have := splitN_last c (d ++ c :: r).length d r (by simp) hr
  unfold pySplit
  rw [List.getLastD_eq_getLast?, this]
  rfl

theorem append_cons_inj (c : Char) (a a' r r' : Str) (ha : c ∉ a) (ha' : c ∉ a')
    (h : a ++ c :: r = a' ++ c :: r') : a = a' ∧ r = r' := by
  have e1 := breakOn_skip c [] a (c :: r) ha
  have e2 := breakOn_skip c [] a' (c :: r') ha'
  have h1 := breakOn_here [c] r (by simp)
  have h2 := breakOn_here [c] r' (by simp)
  simp only [List.singleton_append] at h1 h2
  rw [h1] at e1
  rw [h2, ← h, e1] at e2
  simpa using e2

end DynCF
