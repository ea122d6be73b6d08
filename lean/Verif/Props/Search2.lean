/- Property C123: the tables on which TDRec parameters are validated. -/
import Verif.Props.Search

set_option linter.unusedSectionVars false

namespace DynCF
variable {K : Type} [Field K] [LinearOrder K] [IsStrictOrderedRing K]

theorem filter_eq_take {α : Type} (p : α → Bool) (l : List α)
    (h : l.Pairwise fun a b => p b = true → p a = true) :
    l.filter p = l.take (l.countP p) ∧ l.filter (fun x => !p x) = l.drop (l.countP p) := by
  induction l with
  | nil => exact ⟨rfl, rfl⟩
  | cons x l ih =>
    rw [List.pairwise_cons] at h
    obtain ⟨i1, i2⟩ := ih h.2
    cases hx : p x with
    | true =>
      rw [List.filter_cons_of_pos hx, List.countP_cons_of_pos hx, List.take_succ_cons, ← i1,
        List.filter_cons_of_neg (by simp [hx]), List.drop_succ_cons, ← i2]
      exact ⟨rfl, rfl⟩
    | false =>
      have hl : ∀ y ∈ l, p y = false := by
        intro y hy
        by_contra hc
        rw [Bool.not_eq_false] at hc
        rw [h.1 y hy hc] at hx
        cases hx
      have h0 : (x :: l).countP p = 0 := by
        rw [List.countP_eq_zero]
        intro y hy
        rcases List.mem_cons.1 hy with rfl | hy
        · simp [hx]
        · simp [hl y hy]
      rw [h0, List.take_zero, List.drop_zero]
      refine ⟨List.filter_eq_nil_iff.2 (List.countP_eq_zero.1 h0), List.filter_eq_self.2 ?_⟩
      intro y hy
      rcases List.mem_cons.1 hy with rfl | hy
      · simp [hx]
      · simp [hl y hy]

theorem filter_lastN_append {α : Type} (p : α → Bool) (a b : List α) (L : ℕ) (ha : ∀ x ∈ a, p x = true)
    (hb : ∀ x ∈ b, p x = false) :
    (lastN L (a ++ b)).filter p = lastN (L - b.length) a ∧
    (lastN L (a ++ b)).filter (fun x => !p x) = lastN L b := by
  have e : lastN L (a ++ b) = lastN (L - b.length) a ++ lastN L b := by
    unfold lastN
    rw [List.length_append, List.drop_append]
    congr 1
    · by_cases hL : b.length ≤ L
      · congr 1
        omega
      · rw [List.drop_eq_nil_of_le (by omega), List.drop_eq_nil_of_le (by omega)]
    · congr 1
      omega
  have ha' : ∀ x ∈ lastN (L - b.length) a, p x = true := fun x hx => ha x (List.mem_of_mem_drop hx)
  have hb' : ∀ x ∈ lastN L b, p x = false := fun x hx => hb x (List.mem_of_mem_drop hx)
  rw [e, List.filter_append, List.filter_append]
  constructor
  · rw [List.filter_eq_self.2 ha', List.filter_eq_nil_iff.2 fun x hx => by simp [hb' x hx], List.append_nil]
  · rw [List.filter_eq_nil_iff.2 fun x hx => by simp [ha' x hx],
      List.filter_eq_self.2 fun x hx => by simp [hb' x hx], List.nil_append]

/-- Cropping first and then taking the earlier part. -/
theorem filter_lastN {α : Type} (p : α → Bool) (l : List α) (L : ℕ)
    (h : l.Pairwise fun a b => p b = true → p a = true) :
    (lastN L l).filter p = lastN (L - (l.filter fun x => !p x).length) (l.filter p) ∧
    (lastN L l).filter (fun x => !p x) = lastN L (l.filter fun x => !p x) := by
  obtain ⟨h1, h2⟩ := filter_eq_take p l h
  have hs : l.filter p ++ l.filter (fun x => !p x) = l := by rw [h1, h2, List.take_append_drop]
  have := filter_lastN_append p (l.filter p) (l.filter fun x => !p x) L
    (fun x hx => (List.mem_filter.1 hx).2) (fun x hx => by simpa using (List.mem_filter.1 hx).2)
  rwa [hs] at this

/-! ### Specification -/

/-- For every user the earlier table holds the last `L - m` of the user's rows before the day `D`, where `m` is
the number of the user's rows on that day or later, numbered from 0; the later table holds the last `L` of
those. Rows are ordered by time. -/
def CroppedThenSplit (L : ℕ) (D : ℤ) (initial : List (Row K)) (train valid : List (PRow K)) : Prop :=
  ∀ u, ∃ s, IsStableTimeSort (rowsOf u initial) s ∧
    (train.filter fun p => decide (p.row.user = u)).map PRow.row =
      lastN (L - (s.filter fun r => decide (D ≤ r.day)).length) (s.filter fun r => decide (r.day < D)) ∧
    (train.filter fun p => decide (p.row.user = u)).map PRow.pos =
      (List.range (train.filter fun p => decide (p.row.user = u)).length).map (fun i : ℕ => (i : ℤ)) ∧
    (valid.filter fun p => decide (p.row.user = u)).map PRow.row = lastN L (s.filter fun r => decide (D ≤ r.day))

/-! ### Proof -/

theorem splitP_day [FloorRing K] {stamp : ℤ → K} (hstamp : ∀ a b, a < b → stamp a < stamp b)
    {t train valid : List (PRow K)} {q : K} (h : trainTestSplitP stamp t q = .ok (train, valid)) :
    ∃ D : ℤ, (∃ p ∈ t, p.row.day = D) ∧ train = t.filter (fun p => decide (p.row.day < D)) ∧
      valid = t.filter fun p => decide (D ≤ p.row.day) := by
  unfold trainTestSplitP at h
  split at h
  · cases h
  split at h
  · cases h
  simp only at h
  split at h
  · cases h
  rename_i x hx
  have hmem := List.mem_of_getElem? hx
  rw [(stableSort_perm _ _).mem_iff] at hmem
  obtain ⟨p, hp, rfl⟩ := List.mem_map.1 hmem
  have h := Except.ok.inj h
  simp only [Prod.mk.injEq] at h
  have hle : ∀ a b, stamp a ≤ stamp b ↔ a ≤ b := by
    intro a b
    constructor
    · intro hab
      by_contra hc
      exact absurd (hstamp b a (by omega)) (not_lt.2 hab)
    · intro hab
      rcases lt_or_eq_of_le hab with h | rfl
      · exact (hstamp a b h).le
      · exact le_refl _
  refine ⟨p.row.day, ⟨p, hp, rfl⟩, ?_, ?_⟩
  · rw [← h.1]
    apply List.filter_congr
    intro y _
    rw [decide_eq_decide.2 (hle _ _), ← decide_not, decide_eq_decide, not_le]
  · rw [← h.2]
    apply List.filter_congr
    intro y _
    exact decide_eq_decide.2 (hle _ _)

theorem filter_comm' {α : Type} (p q : α → Bool) (l : List α) : (l.filter p).filter q = (l.filter q).filter p := by
  rw [List.filter_filter, List.filter_filter]
  apply List.filter_congr
  intro x _
  exact Bool.and_comm _ _

theorem day_prefix {s : List (Row K)} (hs : s.Pairwise fun a b => a.ts ≤ b.ts)
    (hday : ∀ a ∈ s, ∀ b ∈ s, a.ts ≤ b.ts → a.day ≤ b.day) (D : ℤ) :
    s.Pairwise fun a b => decide (b.day < D) = true → decide (a.day < D) = true := by
  rw [List.pairwise_iff_getElem] at hs ⊢
  intro i j hi hj hij
  have := hday _ (List.getElem_mem hi) _ (List.getElem_mem hj) (hs i j hi hj hij)
  simp only [decide_eq_true_eq]
  omega

/-- **C123 (partial).** The table used for validation is cropped before it is split: a user's rows in the later
part take places of the `L` rows kept. Missing: training tables cropped as in the experiment
(`C123_violated`). -/
theorem C123_tables_partial [FloorRing K] (stamp : ℤ → K) (hstamp : ∀ a b, a < b → stamp a < stamp b)
    (initial : List (Row K)) (hday : ∀ a ∈ initial, ∀ b ∈ initial, a.ts ≤ b.ts → a.day ≤ b.day) (L : ℕ)
    (hL : 1 ≤ L) (t train valid : List (PRow K)) (q : K) (h1 : getDfWithCroppedPos initial L true = .ok t)
    (h2 : trainTestSplitP stamp t q = .ok (train, valid)) :
    ∃ D, (∀ p ∈ train, p.row.day < D) ∧ (∀ p ∈ valid, D ≤ p.row.day) ∧ (∃ p ∈ valid, p.row.day = D) ∧
      (train.Pairwise fun a b => a.row.user ≤ b.row.user) ∧ CroppedThenSplit L D initial train valid := by
  have hne : initial ≠ [] := by
    rintro rfl
    rw [(C08_crop_errors [] true).2 L] at h1
    cases h1
  obtain ⟨t', e1, hsorted, hc⟩ := C08_crop initial L hL hne
  rw [h1] at e1
  have e1 := Except.ok.inj e1
  subst e1
  obtain ⟨D, ⟨p0, hp0, hD⟩, rfl, rfl⟩ := splitP_day hstamp h2
  refine ⟨D, fun p hp => by simpa using (List.mem_filter.1 hp).2, fun p hp => by simpa using (List.mem_filter.1 hp).2,
    ⟨p0, List.mem_filter.2 ⟨hp0, by simp [hD]⟩, hD⟩, hsorted.sublist List.filter_sublist, ?_⟩
  intro u
  obtain ⟨s, hs, hr, hpos⟩ := hc u
  have hsm : ∀ a ∈ s, a ∈ initial := by
    intro a ha
    have : a ∈ s.filter fun r => decide (r.ts = a.ts) := List.mem_filter.2 ⟨ha, by simp⟩
    rw [hs.2] at this
    exact (List.mem_filter.1 (List.mem_filter.1 this).1).1
  have hpre := day_prefix hs.1 (fun a ha b hb => hday a (hsm a ha) b (hsm b hb)) D
  have hnot : (fun r : Row K => !decide (r.day < D)) = fun r => decide (D ≤ r.day) := by
    funext r
    rw [← decide_not, decide_eq_decide, not_lt]
  obtain ⟨f1, f2⟩ := filter_lastN (fun r : Row K => decide (r.day < D)) s L hpre
  rw [hnot] at f1 f2
  refine ⟨s, hs, ?_, ?_, ?_⟩
  · rw [filter_comm', ← f1, ← hr, List.filter_map]
    rfl
  · rw [filter_comm']
    have hw : (t.filter fun p => decide (p.row.user = u)).Pairwise
        fun a b => decide (b.row.day < D) = true → decide (a.row.day < D) = true := by
      have : (lastN L s).Pairwise fun a b => decide (b.day < D) = true → decide (a.day < D) = true :=
        hpre.sublist (List.drop_sublist _ _)
      rw [← hr, List.pairwise_map] at this
      exact this
    have hlen : (t.filter fun p => decide (p.row.user = u)).length = min L (rowsOf u initial).length := by
      have := congrArg List.length hpos
      rw [List.length_map] at this
      rw [this]
      show ((List.range _).map _).length = _
      rw [List.length_map, List.length_range]
    generalize t.filter (fun p => decide (p.row.user = u)) = w at *
    have hpos : w.map PRow.pos = (List.range w.length).map fun i : ℕ => (i : ℤ) := by rw [hpos, hlen]; rfl
    rw [(filter_eq_take _ w hw).1, List.map_take, hpos, ← List.map_take, List.take_range, List.length_take]
  · rw [filter_comm', ← f2, ← hr, List.filter_map]
    rfl

/-- **C123, exactly when.** The earlier table is the cropped table of the rows before the day `D` if and only if
every user has no row from that day on, or none before it, or at most `L` rows altogether. -/
theorem C123_iff (L : ℕ) (D : ℤ) (hL : 1 ≤ L) (initial : List (Row K)) (train valid : List (PRow K))
    (hsorted : train.Pairwise fun a b => a.row.user ≤ b.row.user)
    (h : CroppedThenSplit L D initial train valid) :
    IsCropped L (initial.filter fun r => decide (r.day < D)) train ↔
      ∀ u, (rowsOf u initial).filter (fun r => decide (D ≤ r.day)) = [] ∨
        (rowsOf u initial).filter (fun r => decide (r.day < D)) = [] ∨ (rowsOf u initial).length ≤ L := by
  have hu : ∀ u s, IsStableTimeSort (rowsOf u initial) s →
      IsStableTimeSort (rowsOf u (initial.filter fun r => decide (r.day < D))) (s.filter fun r => decide (r.day < D)) ∧
      s.length = (rowsOf u initial).length ∧
      (∀ p : Row K → Bool, (s.filter p).length = ((rowsOf u initial).filter p).length) := by
    intro u s hs
    have hperm : s.Perm (rowsOf u initial) := by
      rw [isStableTimeSort_unique hs (tsSort_stable _)]
      exact stableSort_perm _ _
    refine ⟨⟨hs.1.sublist List.filter_sublist, ?_⟩, hperm.length_eq, fun p => (hperm.filter p).length_eq⟩
    intro x
    unfold rowsOf
    rw [filter_comm', hs.2, filter_comm' _ (fun r : Row K => decide (r.user = u))]
    unfold rowsOf
    rw [filter_comm']
  have hsplit : ∀ l : List (Row K), l.length = (l.filter fun r => decide (r.day < D)).length +
      (l.filter fun r => decide (D ≤ r.day)).length := by
    intro l
    have hnot : (fun r : Row K => decide (D ≤ r.day)) = fun r => !decide (r.day < D) := by
      funext r
      rw [← decide_not, decide_eq_decide, not_lt]
    rw [hnot]
    exact (List.length_eq_length_filter_add _)
  constructor
  · rintro ⟨-, hc⟩ u
    obtain ⟨s, hs, g1, -, -⟩ := h u
    obtain ⟨s', hs', g1', -⟩ := hc u
    obtain ⟨k1, k2, k3⟩ := hu u s hs
    rw [isStableTimeSort_unique hs' k1, g1] at g1'
    have := congrArg List.length g1'
    rw [lastN_length, lastN_length, k3, k3] at this
    have hb := hsplit (rowsOf u initial)
    by_cases c1 : ((rowsOf u initial).filter fun r => decide (D ≤ r.day)).length = 0
    · exact .inl (List.length_eq_zero_iff.1 c1)
    · by_cases c2 : ((rowsOf u initial).filter fun r => decide (r.day < D)).length = 0
      · exact .inr (.inl (List.length_eq_zero_iff.1 c2))
      · exact .inr (.inr (by omega))
  · intro hc
    refine ⟨hsorted, ?_⟩
    intro u
    obtain ⟨s, hs, g1, g2, -⟩ := h u
    obtain ⟨k1, k2, k3⟩ := hu u s hs
    have hb := hsplit (rowsOf u initial)
    have hlast : (train.filter fun p => decide (p.row.user = u)).map PRow.row =
        lastN L (s.filter fun r => decide (r.day < D)) := by
      rw [g1]
      rcases hc u with c | c | c
      · rw [k3, c]
        rfl
      · have c := congrArg List.length c
        rw [← k3, List.length_nil, List.length_eq_zero_iff] at c
        rw [c]
        simp [lastN]
      · rw [lastN_of_length_le _ _ (by rw [k3, k3]; omega), lastN_of_length_le _ _ (by rw [k3]; omega)]
    refine ⟨_, k1, hlast, ?_⟩
    rw [g2]
    have e := congrArg List.length hlast
    rw [List.length_map, lastN_length, k3] at e
    rw [e]
    show _ = (List.range _).map _
    unfold rowsOf
    rw [filter_comm']

/-- Users 7 and 8; user 7 has a row on each of two days. -/
def exSplitRows : List (Row ℚ) := [⟨7, 40, 1, 0, 0⟩, ⟨8, 41, 1, 1, 0⟩, ⟨7, 42, 1, 86401, 1⟩]

/-- Sequences of length two: users 7 and 8 keep all their rows, so that the training table is the cropped one. -/
example : ∃ t, getDfWithCroppedPos exSplitRows 2 true = .ok t ∧
    trainTestSplitP (fun d => (86400 * d : ℚ)) t 1 =
      .ok ([⟨⟨7, 40, 1, 0, 0⟩, 0⟩, ⟨⟨8, 41, 1, 1, 0⟩, 0⟩], [⟨⟨7, 42, 1, 86401, 1⟩, 1⟩]) :=
  ⟨[⟨⟨7, 40, 1, 0, 0⟩, 0⟩, ⟨⟨7, 42, 1, 86401, 1⟩, 1⟩, ⟨⟨8, 41, 1, 1, 0⟩, 0⟩], by decide +kernel, by decide +kernel⟩

example : ∃ D, CroppedThenSplit 1 D exSplitRows [⟨⟨8, 41, 1, 1, 0⟩, 0⟩] [⟨⟨7, 42, 1, 86401, 1⟩, 0⟩] := by
  obtain ⟨D, -, -, -, -, h⟩ := C123_tables_partial (fun d => (86400 * d : ℚ))
    (fun a b h => by have : (a : ℚ) < b := by exact_mod_cast h
                     show (86400 * a : ℚ) < 86400 * b; linarith)
    exSplitRows (by decide +kernel) 1 (le_refl _)
    [⟨⟨7, 42, 1, 86401, 1⟩, 0⟩, ⟨⟨8, 41, 1, 1, 0⟩, 0⟩] [⟨⟨8, 41, 1, 1, 0⟩, 0⟩] [⟨⟨7, 42, 1, 86401, 1⟩, 0⟩] 1 (by decide +kernel) (by decide +kernel)
  exact ⟨D, h⟩

/-- **C123 fails.** Sequences of length one: user 7 disappears from the training table because the only row kept
is one of the later day, while the table of the earlier day cropped by itself has a row of user 7. -/
theorem C123_violated : ∃ t, getDfWithCroppedPos exSplitRows 1 true = .ok t ∧
    trainTestSplitP (fun d => (86400 * d : ℚ)) t 1 =
      .ok ([⟨⟨8, 41, 1, 1, 0⟩, 0⟩], [⟨⟨7, 42, 1, 86401, 1⟩, 0⟩]) ∧
    getDfWithCroppedPos (exSplitRows.filter fun r => decide (r.day < 1)) 1 true =
      .ok [⟨⟨7, 40, 1, 0, 0⟩, 0⟩, ⟨⟨8, 41, 1, 1, 0⟩, 0⟩] :=
  ⟨[⟨⟨7, 42, 1, 86401, 1⟩, 0⟩, ⟨⟨8, 41, 1, 1, 0⟩, 0⟩], by decide +kernel, by decide +kernel, by decide +kernel⟩

end DynCF
