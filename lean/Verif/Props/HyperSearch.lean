/- Properties C74, C75: early stopping and selection of hyper-parameters. -/
import Verif.Model.HyperSearch
import Verif.Lemmas.Sort
import Verif.Lemmas.Hooi
import Mathlib.Algebra.Order.Field.Rat

set_option linter.unusedSectionVars false

namespace DynCF
variable {K : Type}

/-! ### C74 -/

section callback
variable [LinearOrder K] [Zero K]

/-- The best of 0 and all scores. -/
def best (scores : List K) : K := scores.foldl max 0

theorem le_best (scores : List K) : 0 ≤ best scores ∧ ∀ x ∈ scores, x ≤ best scores := by
  have h : ∀ (l : List K) (a : K), a ≤ l.foldl max a ∧ ∀ x ∈ l, x ≤ l.foldl max a := by
    intro l
    induction l with
    | nil => intro a; exact ⟨le_refl _, by simp⟩
    | cons y l ih =>
      intro a
      obtain ⟨h1, h2⟩ := ih (max a y)
      refine ⟨le_trans (le_max_left _ _) h1, ?_⟩
      intro x hx
      rcases List.mem_cons.1 hx with rfl | hx
      · exact le_trans (le_max_right _ _) h1
      · exact h2 x hx
  exact h scores 0

theorem best_mem (scores : List K) : best scores = 0 ∨ best scores ∈ scores := by
  have h : ∀ (l : List K) (a : K), l.foldl max a = a ∨ l.foldl max a ∈ l := by
    intro l
    induction l with
    | nil => intro a; exact Or.inl rfl
    | cons y l ih =>
      intro a
      rcases ih (max a y) with h | h
      · rcases max_choice a y with hm | hm
        · left; rw [List.foldl_cons, h, hm]
        · right; rw [List.foldl_cons, h, hm]; simp
      · right
        exact List.mem_cons_of_mem _ h
  exact h scores 0

theorem best_snoc (scores : List K) (x : K) : best (scores ++ [x]) = max (best scores) x := by
  simp [best, List.foldl_append]

/-- The last `c` scores bring no improvement: none exceeds the best of 0 and the scores before them. -/
def Stale (scores : List K) (c : ℕ) : Prop :=
  c ≤ scores.length ∧
    ∀ x ∈ scores.drop (scores.length - c), x ≤ best (scores.take (scores.length - c))

/-- The callback is called with these scores in turn and never answers `True`. -/
def cbRun (relax : ℤ) (st : CbState K) : List K → Option (CbState K)
  | [] => some st
  | x :: xs => if (cbStep relax st x).1 then none else cbRun relax (cbStep relax st x).2 xs

theorem cbRun_snoc (relax : ℤ) (st : CbState K) (l : List K) (x : K) :
    cbRun relax st (l ++ [x]) = (cbRun relax st l).bind fun s =>
      if (cbStep relax s x).1 then none else some (cbStep relax s x).2 := by
  induction l generalizing st with
  | nil => rfl
  | cons y l ih =>
    rw [List.cons_append, cbRun, cbRun]
    split
    · rfl
    · exact ih _

theorem cbStep_up (relax : ℤ) (s : CbState K) (x : K) (hx : s.maxMetric < x) :
    cbStep relax s x = (false, ⟨x, 1, s.metricList ++ [x]⟩) := by
  unfold cbStep
  rw [if_neg (fun h => absurd h.1 (not_le.2 hx)), if_pos hx]

theorem cbStep_stop (relax : ℤ) (s : CbState K) (x : K) (hx : ¬ s.maxMetric < x)
    (hn : s.nIter > relax) : cbStep relax s x = (true, s) := by
  unfold cbStep
  rw [if_pos ⟨not_lt.1 hx, hn⟩]

theorem cbStep_wait (relax : ℤ) (s : CbState K) (x : K) (hx : ¬ s.maxMetric < x)
    (hn : ¬ s.nIter > relax) :
    cbStep relax s x = (false, ⟨s.maxMetric, s.nIter + 1, s.metricList ++ [x]⟩) := by
  unfold cbStep
  rw [if_neg (fun h => hn h.2), if_neg hx]

theorem stale_zero (l : List K) : Stale l 0 := ⟨Nat.zero_le _, by simp⟩

theorem stale_snoc (l : List K) (x : K) (c : ℕ) :
    Stale (l ++ [x]) (c + 1) ↔ Stale l c ∧ x ≤ best (l.take (l.length - c)) := by
  unfold Stale
  rw [List.length_append, List.length_singleton, Nat.add_le_add_iff_right]
  by_cases hc : c ≤ l.length
  · rw [show l.length + 1 - (c + 1) = l.length - c by omega,
      List.drop_append_of_le_length (by omega), List.take_append_of_le_length (by omega)]
    constructor
    · rintro ⟨-, h⟩
      exact ⟨⟨hc, fun y hy => h y (by simp [hy])⟩, h x (by simp)⟩
    · rintro ⟨⟨-, h⟩, hx⟩
      refine ⟨hc, fun y hy => ?_⟩
      rcases List.mem_append.1 hy with hy | hy
      · exact h y hy
      · rw [List.mem_singleton.1 hy]; exact hx
  · constructor
    · intro h; exact absurd h.1 hc
    · intro h; exact absurd h.1.1 hc

/-- if the last `c` scores bring no improvement, the best is that of the earlier ones -/
theorem stale_best (l : List K) (c : ℕ) (h : Stale l c) : best (l.take (l.length - c)) = best l := by
  obtain ⟨hc, hx⟩ := h
  refine le_antisymm ?_ ?_
  · rcases best_mem (l.take (l.length - c)) with hb | hb
    · rw [hb]; exact (le_best l).1
    · exact (le_best l).2 _ (List.mem_of_mem_take hb)
  · rcases best_mem l with hb | hb
    · rw [hb]; exact (le_best _).1
    · rw [← List.take_append_drop (l.length - c) l] at hb
      rcases List.mem_append.1 hb with hb | hb
      · rw [List.take_append_drop] at hb
        exact (le_best _).2 _ hb
      · rw [List.take_append_drop] at hb
        exact hx _ hb

theorem stale_mono (l : List K) (c d : ℕ) (h : Stale l c) (hd : d ≤ c) : Stale l d := by
  refine ⟨hd.trans h.1, fun x hx => ?_⟩
  have hmem : x ∈ l := List.mem_of_mem_drop hx
  have h1 := (le_best l).2 x hmem
  rw [← stale_best l c h] at h1
  refine h1.trans ?_
  rcases best_mem (l.take (l.length - c)) with hb | hb
  · rw [hb]; exact (le_best _).1
  · refine (le_best _).2 _ ?_
    have hsub : l.take (l.length - c) <+: l.take (l.length - d) :=
      List.take_prefix_take_left (by omega)
    exact hsub.subset hb

/-- The attributes after a run: the maximum, the recorded scores, and `n_iter - 1` is the length of
the current series without improvement. -/
theorem cbRun_spec (relax : ℤ) (scores : List K) (st : CbState K)
    (h : cbRun relax cbStart scores = some st) :
    st.metricList = scores ∧ st.maxMetric = best scores ∧
      ∃ c : ℕ, st.nIter = c + 1 ∧ Stale scores c ∧ ¬ Stale scores (c + 1) := by
  induction scores using List.reverseRecOn generalizing st with
  | nil =>
    simp only [cbRun, Option.some.injEq] at h
    subst h
    exact ⟨rfl, rfl, 0, rfl, stale_zero _, fun h => absurd h.1 (by simp)⟩
  | append_singleton l x ih =>
    rw [cbRun_snoc, Option.bind_eq_some_iff] at h
    obtain ⟨s, hs, h⟩ := h
    obtain ⟨h1, h2, c, h3, h4, h5⟩ := ih s hs
    by_cases hx : s.maxMetric < x
    · rw [cbStep_up _ _ _ hx] at h
      simp only [Bool.false_eq_true, if_false, Option.some.injEq] at h
      subst h
      refine ⟨by rw [h1], by rw [best_snoc, ← h2, max_eq_right (le_of_lt hx)], 0, rfl, stale_zero _, ?_⟩
      rw [stale_snoc]
      rintro ⟨-, hle⟩
      rw [Nat.sub_zero, List.take_length, ← h2] at hle
      exact absurd hx (not_lt.2 hle)
    · by_cases hn : s.nIter > relax
      · rw [cbStep_stop _ _ _ hx hn] at h
        simp at h
      · rw [cbStep_wait _ _ _ hx hn] at h
        simp only [Bool.false_eq_true, if_false, Option.some.injEq] at h
        subst h
        refine ⟨by rw [h1], by rw [best_snoc, ← h2, max_eq_left (not_lt.1 hx)], c + 1,
          by simp only [h3]; push_cast; ring, ?_, ?_⟩
        · rw [stale_snoc]
          exact ⟨h4, by rw [stale_best l c h4, ← h2]; exact not_lt.1 hx⟩
        · rw [stale_snoc]
          exact fun h => h5 h.1

/-- **C74**: the state of the callback after any scores on which it did not stop, and its next
decision. All scores so far are recorded, the recorded maximum is the best of 0 and them. The
callback stops on the next score iff this score and the `relax` scores before it bring no
improvement (it is the (relax+1)-th such call in a row; a negative
`relax` acts as 0); then nothing is recorded. Otherwise the
score is recorded. An improving score never stops it. -/
theorem C74_callback (relax : ℤ) (scores : List K) (st : CbState K) (x : K)
    (h : cbRun relax cbStart scores = some st) :
    st.metricList = scores ∧ st.maxMetric = best scores ∧
    ((cbStep relax st x).1 = true ↔ Stale (scores ++ [x]) (relax.toNat + 1)) ∧
    ((cbStep relax st x).1 = true → (cbStep relax st x).2 = st) ∧
    ((cbStep relax st x).1 = false → (cbStep relax st x).2.metricList = scores ++ [x] ∧
      (cbStep relax st x).2.maxMetric = best (scores ++ [x])) ∧
    (best scores < x → (cbStep relax st x).1 = false) := by
  obtain ⟨h1, h2, c, h3, h4, h5⟩ := cbRun_spec _ scores st h
  have hstop : (cbStep relax st x).1 = true ↔ x ≤ best scores ∧ relax.toNat ≤ c := by
    unfold cbStep
    by_cases hc : x ≤ st.maxMetric ∧ st.nIter > relax
    · rw [if_pos hc]
      refine ⟨fun _ => ⟨by rw [← h2]; exact hc.1, ?_⟩, fun _ => rfl⟩
      have := hc.2
      rw [h3] at this
      omega
    · rw [if_neg hc]
      constructor
      · intro hh
        split at hh <;> cases hh
      · rintro ⟨ha, hb⟩
        exact absurd ⟨by rw [h2]; exact ha, by rw [h3]; omega⟩ hc
  refine ⟨h1, h2, ?_, ?_, ?_, ?_⟩
  · rw [hstop, stale_snoc]
    constructor
    · rintro ⟨ha, hb⟩
      have := stale_mono scores c relax.toNat h4 hb
      exact ⟨this, by rw [stale_best scores relax.toNat this]; exact ha⟩
    · rintro ⟨ha, hb⟩
      refine ⟨by rw [← stale_best scores relax.toNat ha]; exact hb, ?_⟩
      by_contra hlt
      exact h5 (stale_mono scores relax.toNat (c + 1) ha (by omega))
  · unfold cbStep
    split
    · intro _; rfl
    · split <;> intro hh <;> cases hh
  · unfold cbStep
    split
    · intro hh; cases hh
    · rename_i hns
      split
      · rename_i hlt
        intro _
        exact ⟨by rw [h1], by rw [best_snoc, ← h2, max_eq_right (le_of_lt hlt)]⟩
      · rename_i hge
        intro _
        exact ⟨by rw [h1], by rw [best_snoc, ← h2, max_eq_left (not_lt.1 hge)]⟩
  · intro hlt
    cases hb : (cbStep relax st x).1 with
    | false => rfl
    | true => exact absurd (hstop.1 hb).1 (not_le.2 hlt)

end callback

/-- With `relax = 3`: three calls without improvement are forgiven, the fourth stops. -/
example : cbRun 3 (cbStart : CbState ℚ) [1/10, 3/10, 2/10, 3/10, 1/10] =
    some ⟨3/10, 4, [1/10, 3/10, 2/10, 3/10, 1/10]⟩ := by decide +kernel
example : (cbStep 3 (⟨3/10, 4, [1/10, 3/10, 2/10, 3/10, 1/10]⟩ : CbState ℚ) (3/10)).1 = true := by
  decide +kernel
example : (cbStep 3 (⟨3/10, 4, [1/10, 3/10, 2/10, 3/10, 1/10]⟩ : CbState ℚ) (4/10)).1 = false := by
  decide +kernel

/-! ### C75 -/

/-- `argmin` returns a row with the smallest value, the first of them. -/
theorem firstMin_spec {β : Type} (f : β → ℤ) (l : List β) :
    (l = [] ∧ firstMin f l = .error .typeError) ∨
    ∃ pre x post, l = pre ++ x :: post ∧ firstMin f l = .ok x ∧ (∀ y ∈ pre, f x < f y) ∧
      ∀ y ∈ post, f x ≤ f y := by
  cases l with
  | nil => exact Or.inl ⟨rfl, rfl⟩
  | cons a l =>
    right
    induction l using List.reverseRecOn with
    | nil => exact ⟨[], a, [], rfl, rfl, by simp, by simp⟩
    | append_singleton l y ih =>
      obtain ⟨pre, x, post, h1, h2, h3, h4⟩ := ih
      simp only [firstMin, Except.ok.injEq] at h2
      simp only [firstMin, List.foldl_append, List.foldl_cons, List.foldl_nil, h2]
      by_cases hy : f y < f x
      · rw [if_pos hy]
        refine ⟨a :: l, y, [], by simp, rfl, ?_, by simp⟩
        rw [h1]
        intro z hz
        rcases List.mem_append.1 hz with hz | hz
        · exact hy.trans (h3 z hz)
        · rcases List.mem_cons.1 hz with rfl | hz
          · exact hy
          · exact lt_of_lt_of_le hy (h4 z hz)
      · rw [if_neg hy]
        refine ⟨pre, x, post ++ [y], by rw [← List.cons_append, h1]; simp, rfl, h3, ?_⟩
        intro z hz
        rcases List.mem_append.1 hz with hz | hz
        · exact h4 z hz
        · rw [List.mem_singleton.1 hz]; exact not_lt.1 hy

section select
variable [LinearOrder K]

theorem maxOf?_spec (l : List K) : (l = [] ∧ maxOf? l = none) ∨
    ∃ b, maxOf? l = some b ∧ b ∈ l ∧ ∀ x ∈ l, x ≤ b := by
  cases l with
  | nil => exact Or.inl ⟨rfl, rfl⟩
  | cons a l =>
    right
    refine ⟨_, rfl, ?_⟩
    induction l using List.reverseRecOn with
    | nil => simp
    | append_singleton l y ih =>
      obtain ⟨h1, h2⟩ := ih
      rw [List.foldl_append, List.foldl_cons, List.foldl_nil]
      constructor
      · rcases max_choice (l.foldl max a) y with h | h
        · rw [h, ← List.cons_append]; exact List.mem_append_left _ h1
        · rw [h]; simp
      · intro x hx
        rw [← List.cons_append] at hx
        rcases List.mem_append.1 hx with hx | hx
        · exact (h2 x hx).trans (le_max_left _ _)
        · rw [List.mem_singleton.1 hx]; exact le_max_right _ _

/-- the mask `metric >= metric.max()` keeps exactly the rows with the maximal metric -/
theorem geMask_max {β : Type} (m : β → K) (rows : List β) :
    ∃ q : β → Bool, geMask m (maxOf? (rows.map m)) rows = rows.filter q ∧
      ∀ r ∈ rows, (q r = true ↔ ∀ x ∈ rows, m x ≤ m r) := by
  rcases maxOf?_spec (rows.map m) with ⟨h1, h2⟩ | ⟨b, h1, h2, h3⟩
  · rw [List.map_eq_nil_iff] at h1
    subst h1
    exact ⟨fun _ => true, by simp [geMask, maxOf?], by simp⟩
  · refine ⟨fun r => decide (b ≤ m r), by rw [h1]; rfl, ?_⟩
    intro r hr
    rw [decide_eq_true_eq]
    constructor
    · intro h x hx
      exact (h3 _ (List.mem_map_of_mem hx)).trans h
    · intro h
      obtain ⟨x, hx, hxb⟩ := List.mem_map.1 h2
      rw [← hxb]
      exact h x hx

/-- **C75, SVD**: for a known data set and a non-empty table the chosen rank is the rank of a row
with the maximal metric and the smallest rank of such rows. An empty table and an unknown data set
are refused. -/
theorem C75_svd (ds : Dataset) (rows : List (SvdRow K)) :
    (ds = .other → getOptimalSvdRank ds rows = .error .runtimeError) ∧
    (ds ≠ .other → rows = [] → getOptimalSvdRank ds rows = .error .typeError) ∧
    (ds ≠ .other → rows ≠ [] → ∃ r, getOptimalSvdRank ds rows = .ok r ∧
      (∃ row ∈ rows, row.rank = r ∧ ∀ x ∈ rows, x.metric ≤ row.metric) ∧
      ∀ y ∈ rows, (∀ x ∈ rows, x.metric ≤ y.metric) → r ≤ y.rank) := by
  have hrun : ds ≠ .other → getOptimalSvdRank ds rows = (do
      let r ← firstMin SvdRow.rank (geMask SvdRow.metric (maxOf? (rows.map SvdRow.metric)) rows)
      pure r.rank) := by
    intro h
    cases ds <;> first | rfl | exact absurd rfl h
  refine ⟨?_, ?_, ?_⟩
  · rintro rfl; rfl
  · rintro h rfl
    rw [hrun h]; rfl
  · intro h hne
    rw [hrun h]
    obtain ⟨q, hq, hq2⟩ := geMask_max SvdRow.metric rows
    rw [hq]
    rcases firstMin_spec SvdRow.rank (rows.filter q) with ⟨h1, -⟩ | ⟨pre, x, post, h1, h2, h3, h4⟩
    · exfalso
      rcases maxOf?_spec (rows.map SvdRow.metric) with ⟨ha, -⟩ | ⟨b, -, hb, hc⟩
      · exact hne (List.map_eq_nil_iff.1 ha)
      · obtain ⟨r, hr, rfl⟩ := List.mem_map.1 hb
        have : r ∈ rows.filter q := List.mem_filter.2 ⟨hr, (hq2 r hr).2 fun x hx =>
          hc _ (List.mem_map_of_mem hx)⟩
        rw [h1] at this
        simp at this
    · rw [h2]
      have hx : x ∈ rows.filter q := by rw [h1]; simp
      obtain ⟨hx1, hx2⟩ := List.mem_filter.1 hx
      refine ⟨_, rfl, ⟨x, hx1, rfl, (hq2 x hx1).1 hx2⟩, ?_⟩
      intro y hy hmax
      have hyf : y ∈ rows.filter q := List.mem_filter.2 ⟨hy, (hq2 y hy).2 hmax⟩
      rw [h1] at hyf
      rcases List.mem_append.1 hyf with hyf | hyf
      · exact le_of_lt (h3 y hyf)
      · rcases List.mem_cons.1 hyf with rfl | hyf
        · exact le_refl _
        · exact h4 y hyf

example : getOptimalSvdRank .steam [(⟨30, 1/5⟩ : SvdRow ℚ), ⟨20, 1/4⟩, ⟨10, 1/4⟩, ⟨5, 1/8⟩] = .ok 10 := by
  decide +kernel

variable [Zero K]

/-- The rows that may be chosen: at most five sweeps, and attention for ML-20M. -/
def Allowed : Dataset → TdRow K → Prop
  | .ml20m, r => r.nIter ≤ 5 ∧ r.attF ≠ 0
  | _, r => r.nIter ≤ 5

/-- `r` is the first of the rows that satisfy `cand` with the smallest product of the rank. -/
def FirstSmallest (cand : TdRow K → Prop) (rows : List (TdRow K)) (r : TdRow K) : Prop :=
  ∃ pre post, rows = pre ++ r :: post ∧ cand r ∧
    (∀ y ∈ pre, cand y → r.rank.prod < y.rank.prod) ∧
    ∀ y ∈ post, cand y → r.rank.prod ≤ y.rank.prod

/-- A row that may be chosen, with the maximal metric of all such rows. -/
def BestAllowed (ds : Dataset) (rows : List (TdRow K)) (r : TdRow K) : Prop :=
  Allowed ds r ∧ ∀ x ∈ rows, Allowed ds x → x.metric ≤ r.metric

/-- The full claim for the tensor parameters. -/
def TdSelectClaim (K : Type) [LinearOrder K] [Zero K] (ds : Dataset) : Prop :=
  ∀ rows : List (TdRow K), (∃ r ∈ rows, Allowed ds r) →
    ∃ r, getOptimalTdrecParams ds rows = .ok (r.rank, r.attF, r.nIter) ∧
      FirstSmallest (BestAllowed ds rows) rows r

/-- choosing from a filtered table -/
theorem firstMin_filter (rows : List (TdRow K)) (q : TdRow K → Bool) (cand : TdRow K → Prop)
    (hq : ∀ r ∈ rows, (q r = true ↔ cand r)) :
    ((∃ r ∈ rows, cand r) → ∃ r, firstMin (fun r => r.rank.prod) (rows.filter q) = .ok r ∧
      FirstSmallest cand rows r) ∧
    ((¬ ∃ r ∈ rows, cand r) →
      firstMin (fun r => r.rank.prod) (rows.filter q) = .error .typeError) := by
  constructor
  · rintro ⟨r, hr, hc⟩
    rcases firstMin_spec (fun r : TdRow K => r.rank.prod) (rows.filter q) with
      ⟨h1, -⟩ | ⟨pre, x, post, h1, h2, h3, h4⟩
    · have : r ∈ rows.filter q := List.mem_filter.2 ⟨hr, (hq r hr).2 hc⟩
      rw [h1] at this
      simp at this
    · refine ⟨x, h2, ?_⟩
      obtain ⟨a, b, hab, ha, hb⟩ := List.filter_eq_append_iff.1 h1
      obtain ⟨b1, b2, hb12, hnot, hqx, hb2⟩ := List.filter_eq_cons_iff.1 hb
      subst hab hb12 ha hb2
      refine ⟨a ++ b1, b2, by simp, (hq x (by simp)).1 hqx, ?_, ?_⟩
      · intro y hy hcy
        have hqy := (hq y (by
          rcases List.mem_append.1 hy with h | h
          · simp [h]
          · simp [h])).2 hcy
        rcases List.mem_append.1 hy with hy | hy
        · exact h3 y (List.mem_filter.2 ⟨hy, hqy⟩)
        · exact absurd hqy (hnot y hy)
      · intro y hy hcy
        have hqy := (hq y (by simp [hy])).2 hcy
        exact h4 y (List.mem_filter.2 ⟨hy, hqy⟩)
  · intro hno
    have : rows.filter q = [] := by
      rw [List.filter_eq_nil_iff]
      intro r hr hqr
      exact hno ⟨r, hr, (hq r hr).1 hqr⟩
    rw [this]; rfl

/-- some row attains the maximum of an allowed part of the table -/
theorem exists_best (rows : List (TdRow K)) (p : TdRow K → Bool) (h : ∃ r ∈ rows, p r = true) :
    ∃ r ∈ rows, p r = true ∧ ∀ x ∈ rows, p x = true → x.metric ≤ r.metric := by
  obtain ⟨r0, hr0, hp0⟩ := h
  rcases maxOf?_spec ((rows.filter p).map TdRow.metric) with ⟨h1, -⟩ | ⟨b, -, hb, hc⟩
  · have : r0 ∈ rows.filter p := List.mem_filter.2 ⟨hr0, hp0⟩
    rw [List.map_eq_nil_iff.1 h1] at this
    simp at this
  · obtain ⟨r, hr, rfl⟩ := List.mem_map.1 hb
    obtain ⟨hr1, hr2⟩ := List.mem_filter.1 hr
    exact ⟨r, hr1, hr2, fun x hx hpx => hc _ (List.mem_map_of_mem (List.mem_filter.2 ⟨hx, hpx⟩))⟩

/-- the mask of the maximum over the first five sweeps, as a mask of the whole table -/
theorem maskFive (rows : List (TdRow K)) :
    ∃ q : TdRow K → Bool,
      geMask TdRow.metric (maxOf? ((rows.filter fun r => decide (r.nIter ≤ 5)).map TdRow.metric))
        (rows.filter fun r => decide (r.nIter ≤ 5)) = rows.filter q ∧
      ∀ r ∈ rows, (q r = true ↔ r.nIter ≤ 5 ∧ ∀ x ∈ rows, x.nIter ≤ 5 → x.metric ≤ r.metric) := by
  obtain ⟨q, h1, h2⟩ := geMask_max TdRow.metric (rows.filter fun r => decide (r.nIter ≤ 5))
  refine ⟨fun r => q r && decide (r.nIter ≤ 5), by rw [h1, List.filter_filter], ?_⟩
  intro r hr
  rw [Bool.and_eq_true, decide_eq_true_eq]
  constructor
  · rintro ⟨ha, hb⟩
    refine ⟨hb, fun x hx hx5 => ?_⟩
    exact (h2 r (List.mem_filter.2 ⟨hr, by simpa using hb⟩)).1 ha x
      (List.mem_filter.2 ⟨hx, by simpa using hx5⟩)
  · rintro ⟨hb, hc⟩
    refine ⟨(h2 r (List.mem_filter.2 ⟨hr, by simpa using hb⟩)).2 ?_, hb⟩
    intro x hx
    obtain ⟨hx1, hx2⟩ := List.mem_filter.1 hx
    exact hc x hx1 (by simpa using hx2)

/-- **C75, tensor, partial**: for the data sets `amz_b` and `steam` the full claim holds; without any
row of at most five sweeps the call is refused. -/
theorem C75_tdrec_partial (ds : Dataset) (hds : ds = .amzB ∨ ds = .steam) :
    TdSelectClaim K ds ∧ ∀ rows : List (TdRow K), (¬ ∃ r ∈ rows, Allowed ds r) →
      getOptimalTdrecParams ds rows = .error .typeError := by
  have hal : ∀ r : TdRow K, Allowed ds r ↔ r.nIter ≤ 5 := by
    intro r
    rcases hds with rfl | rfl <;> exact Iff.rfl
  have hrun : ∀ rows : List (TdRow K), getOptimalTdrecParams ds rows = (do
      let r ← firstMin (fun r => r.rank.prod)
        (geMask TdRow.metric (maxOf? ((rows.filter fun r => decide (r.nIter ≤ 5)).map TdRow.metric))
          (rows.filter fun r => decide (r.nIter ≤ 5)))
      pure (r.rank, r.attF, r.nIter)) := by
    intro rows
    rcases hds with rfl | rfl <;> rfl
  constructor
  · intro rows hex
    obtain ⟨q, h1, h2⟩ := maskFive rows
    have h2' : ∀ r ∈ rows, (q r = true ↔ BestAllowed ds rows r) := by
      intro r hr
      rw [h2 r hr]
      unfold BestAllowed
      simp only [hal]
    obtain ⟨r0, hr0, hr1, hr2⟩ := exists_best rows (fun r => decide (r.nIter ≤ 5)) (by
      obtain ⟨r, hr, ha⟩ := hex
      exact ⟨r, hr, by simpa using (hal r).1 ha⟩)
    obtain ⟨r, hr, hs⟩ := (firstMin_filter rows q _ h2').1 ⟨r0, hr0, by
      rw [← h2' r0 hr0, h2 r0 hr0]
      exact ⟨by simpa using hr1, fun x hx hx5 => hr2 x hx (by simpa using hx5)⟩⟩
    refine ⟨r, ?_, hs⟩
    rw [hrun, h1, hr]
    rfl
  · intro rows hno
    obtain ⟨q, h1, h2⟩ := maskFive rows
    rw [hrun, h1, (firstMin_filter rows q _ h2).2 ?_]
    · rfl
    · rintro ⟨r, hr, h5, -⟩
      exact hno ⟨r, hr, (hal r).2 h5⟩

/-- **C75, tensor, ML-20M, partial**: what is chosen is the first row with the smallest rank product
among the rows with attention whose metric is maximal *among all rows* of at most five sweeps, with
or without attention; if no row with attention reaches that maximum, the call raises. -/
theorem C75_ml20m_partial (rows : List (TdRow K)) :
    ((∃ r ∈ rows, Allowed .ml20m r ∧ ∀ x ∈ rows, x.nIter ≤ 5 → x.metric ≤ r.metric) →
      ∃ r, getOptimalTdrecParams .ml20m rows = .ok (r.rank, r.attF, r.nIter) ∧
        FirstSmallest (BestAllowed .ml20m rows) rows r) ∧
    ((¬ ∃ r ∈ rows, Allowed .ml20m r ∧ ∀ x ∈ rows, x.nIter ≤ 5 → x.metric ≤ r.metric) →
      getOptimalTdrecParams .ml20m rows = .error .typeError) := by
  obtain ⟨q, h1, h2⟩ := maskFive rows
  have hrun : getOptimalTdrecParams .ml20m rows = (do
      let r ← firstMin (fun r => r.rank.prod) (rows.filter fun r => decide (r.attF ≠ 0) && q r)
      pure (r.rank, r.attF, r.nIter)) := by
    unfold getOptimalTdrecParams
    dsimp only
    rw [h1, List.filter_filter]
  have h3 : ∀ r ∈ rows, ((decide (r.attF ≠ 0) && q r) = true ↔
      Allowed .ml20m r ∧ ∀ x ∈ rows, x.nIter ≤ 5 → x.metric ≤ r.metric) := by
    intro r hr
    rw [Bool.and_eq_true, decide_eq_true_eq, h2 r hr]
    unfold Allowed
    tauto
  obtain ⟨h4, h5⟩ := firstMin_filter rows _ _ h3
  constructor
  · intro hex
    obtain ⟨r, hr, pre, post, hs1, hs2, hs3, hs4⟩ := h4 hex
    refine ⟨r, by rw [hrun, hr]; rfl, pre, post, hs1, ⟨hs2.1, fun x hx ha => hs2.2 x hx ha.1⟩, ?_, ?_⟩
    · intro y hy hb
      refine hs3 y hy ⟨hb.1, fun x hx hx5 => ?_⟩
      exact (hs2.2 x hx hx5).trans (hb.2 r (by rw [hs1]; simp) hs2.1)
    · intro y hy hb
      refine hs4 y hy ⟨hb.1, fun x hx hx5 => ?_⟩
      exact (hs2.2 x hx hx5).trans (hb.2 r (by rw [hs1]; simp) hs2.1)
  · intro hno
    rw [hrun, h5 hno]; rfl

/-- the second largest distinct value of a list -/
theorem secondLargest_spec (l : List K) :
    ((∀ a ∈ l, ∀ b ∈ l, a = b) ∧ secondLargest l = .error .indexError) ∨
    ∃ x, secondLargest l = .ok x ∧ (∃ a ∈ l, ∃ b ∈ l, a ≠ b) ∧
      ∀ y ∈ l, (x ≤ y ↔ ∀ a ∈ l, ∀ b ∈ l, y < a → y < b → a = b) := by
  have hsort := stableSort_sorted (le := fun a b : K => decide (b ≤ a))
    (by intro a b c; simp only [decide_eq_true_eq]; exact fun h1 h2 => h2.trans h1)
    (by intro a b; simp only [decide_eq_true_eq]; exact le_total b a) l
  have hsub : ∀ m : List K, (pdUnique m).Sublist m := by
    intro m
    induction m with
    | nil => exact List.Sublist.refl _
    | cons a m ih =>
      rw [pdUnique]
      exact List.Sublist.cons_cons a (List.filter_sublist.trans ih)
  have hdesc : (pdUnique (stableSort (fun a b : K => decide (b ≤ a)) l)).Pairwise (fun a b => b < a) := by
    refine ((hsort.sublist (hsub _)).and (nodup_pdUnique _)).imp ?_
    rintro a b ⟨h1, h2⟩
    exact lt_of_le_of_ne (by simpa using h1) (Ne.symm h2)
  have hmem : ∀ x, x ∈ pdUnique (stableSort (fun a b : K => decide (b ≤ a)) l) ↔ x ∈ l := by
    intro x
    rw [mem_pdUnique, mem_stableSort]
  unfold secondLargest
  generalize pdUnique (stableSort (fun a b : K => decide (b ≤ a)) l) = d at hdesc hmem
  match d, hdesc, hmem with
  | [], _, hmem =>
    exact Or.inl ⟨fun a ha => absurd ((hmem a).2 ha) (by simp), rfl⟩
  | [m], _, hmem =>
    refine Or.inl ⟨fun a ha b hb => ?_, rfl⟩
    have h1 := (hmem a).2 ha
    have h2 := (hmem b).2 hb
    rw [List.mem_singleton] at h1 h2
    rw [h1, h2]
  | m :: x :: rest, hdesc, hmem =>
    right
    rw [List.pairwise_cons, List.pairwise_cons] at hdesc
    obtain ⟨hd1, hd2, -⟩ := hdesc
    have hxm : x < m := hd1 x (by simp)
    have hm : m ∈ l := (hmem m).1 (by simp)
    have hx : x ∈ l := (hmem x).1 (by simp)
    have hcase : ∀ a ∈ l, a = m ∨ a ≤ x := by
      intro a ha
      rcases List.mem_cons.1 ((hmem a).2 ha) with h | h
      · exact Or.inl h
      · rcases List.mem_cons.1 h with h | h
        · exact Or.inr (le_of_eq h)
        · exact Or.inr (le_of_lt (hd2 a h))
    refine ⟨x, rfl, ⟨m, hm, x, hx, ne_of_gt hxm⟩, fun y hy => ?_⟩
    constructor
    · intro hxy a ha b hb hya hyb
      rcases hcase a ha with h1 | h1
      · rcases hcase b hb with h2 | h2
        · rw [h1, h2]
        · exact absurd (lt_of_le_of_lt hxy hyb) (not_lt.2 h2)
      · exact absurd (lt_of_le_of_lt hxy hya) (not_lt.2 h1)
    · intro h
      by_contra hlt
      rw [not_le] at hlt
      exact absurd (h x hx m hm hlt (hlt.trans hxm)) (ne_of_lt hxm)

/-- **C75, tensor, AMZ-G, partial**: what is chosen is the first row with the smallest rank product
among the rows whose metric is one of the two largest values of the rows of at most five sweeps; if
these have fewer than two distinct values, the call raises. -/
theorem C75_amzG_partial (rows : List (TdRow K)) :
    ((∃ a ∈ rows, ∃ b ∈ rows, a.nIter ≤ 5 ∧ b.nIter ≤ 5 ∧ a.metric ≠ b.metric) →
      ∃ r, getOptimalTdrecParams .amzG rows = .ok (r.rank, r.attF, r.nIter) ∧
        FirstSmallest (fun y => y.nIter ≤ 5 ∧ ∀ a ∈ rows, ∀ b ∈ rows, a.nIter ≤ 5 → b.nIter ≤ 5 →
          y.metric < a.metric → y.metric < b.metric → a.metric = b.metric) rows r) ∧
    ((∀ a ∈ rows, ∀ b ∈ rows, a.nIter ≤ 5 → b.nIter ≤ 5 → a.metric = b.metric) →
      getOptimalTdrecParams .amzG rows = .error .indexError) := by
  have hmem : ∀ z, z ∈ (rows.filter fun r => decide (r.nIter ≤ 5)).map TdRow.metric ↔
      ∃ a ∈ rows, a.nIter ≤ 5 ∧ a.metric = z := by
    intro z
    simp only [List.mem_map, List.mem_filter, decide_eq_true_eq, and_assoc]
  unfold getOptimalTdrecParams
  dsimp only
  rcases secondLargest_spec ((rows.filter fun r : TdRow K => decide (r.nIter ≤ 5)).map TdRow.metric) with
    ⟨h1, h2⟩ | ⟨x, h1, h2, h3⟩
  · constructor
    · rintro ⟨a, ha, b, hb, ha5, hb5, hne⟩
      exact absurd (h1 _ ((hmem _).2 ⟨a, ha, ha5, rfl⟩) _ ((hmem _).2 ⟨b, hb, hb5, rfl⟩)) hne
    · intro _
      rw [h2]; rfl
  · constructor
    · rintro ⟨a, ha, b, hb, ha5, hb5, hne⟩
      rw [h1, except_bind_ok]
      have hq : geMask TdRow.metric (some x) (rows.filter fun r => decide (r.nIter ≤ 5)) =
          rows.filter fun r => decide (x ≤ r.metric) && decide (r.nIter ≤ 5) := by
        unfold geMask
        dsimp only
        rw [List.filter_filter]
      have hqi : ∀ y : TdRow K, y ∈ rows → ((decide (x ≤ y.metric) && decide (y.nIter ≤ 5)) = true ↔
          (y.nIter ≤ 5 ∧ ∀ a ∈ rows, ∀ b ∈ rows, a.nIter ≤ 5 → b.nIter ≤ 5 →
          y.metric < a.metric → y.metric < b.metric → a.metric = b.metric)) := by
        intro y hy
        rw [Bool.and_eq_true, decide_eq_true_eq, decide_eq_true_eq]
        constructor
        · rintro ⟨hxy, hy5⟩
          refine ⟨hy5, fun a ha b hb ha5 hb5 => ?_⟩
          exact (h3 _ ((hmem _).2 ⟨y, hy, hy5, rfl⟩)).1 hxy _ ((hmem _).2 ⟨a, ha, ha5, rfl⟩) _
            ((hmem _).2 ⟨b, hb, hb5, rfl⟩)
        · rintro ⟨hy5, hall⟩
          refine ⟨(h3 _ ((hmem _).2 ⟨y, hy, hy5, rfl⟩)).2 ?_, hy5⟩
          intro a' ha' b' hb'
          obtain ⟨a, ha, ha5, rfl⟩ := (hmem _).1 ha'
          obtain ⟨b, hb, hb5, rfl⟩ := (hmem _).1 hb'
          exact hall a ha b hb ha5 hb5
      rw [hq]
      obtain ⟨r0, hr0, hr1, hr2⟩ := exists_best rows (fun r => decide (r.nIter ≤ 5))
        ⟨a, ha, by simpa using ha5⟩
      obtain ⟨r, hr, hs⟩ := (firstMin_filter rows _ _ hqi).1 ⟨r0, hr0, by simpa using hr1, by
        intro a ha b hb ha5 hb5 hlt
        exact absurd hlt (not_lt.2 (hr2 a ha (by simpa using ha5)))⟩
      exact ⟨r, by rw [hr]; rfl, hs⟩
    · intro hall
      obtain ⟨a', ha', b', hb', hne⟩ := h2
      obtain ⟨a, ha, ha5, rfl⟩ := (hmem _).1 ha'
      obtain ⟨b, hb, hb5, rfl⟩ := (hmem _).1 hb'
      exact absurd (hall a ha b hb ha5 hb5) hne

end select

example : getOptimalTdrecParams .amzB [(⟨[8, 8, 4], 0, 3, 1/4⟩ : TdRow ℚ), ⟨[8, 4, 4], 1, 2, 1/4⟩,
    ⟨[4, 8, 4], 1, 1, 1/4⟩, ⟨[2, 2, 2], 1, 6, 1/2⟩] = .ok ([8, 4, 4], 1, 2) := by decide +kernel

/-- **C75 is violated** for two data sets. ML-20M: the best row with attention (metric 1/5) is never
chosen when a row without attention is better (1/4); the call raises instead. AMZ-G: the row with
the second best metric is chosen (smaller rank), and a table with a single metric value is refused. -/
theorem C75_violated : ¬ TdSelectClaim ℚ .ml20m ∧ ¬ TdSelectClaim ℚ .amzG := by
  constructor
  · intro h
    obtain ⟨r, hr, -⟩ := h [⟨[8, 8, 4], 0, 3, 1/4⟩, ⟨[8, 4, 4], 1, 2, 1/5⟩]
      ⟨⟨[8, 4, 4], 1, 2, 1/5⟩, by simp, by norm_num, by norm_num⟩
    have : getOptimalTdrecParams .ml20m
        [(⟨[8, 8, 4], 0, 3, 1/4⟩ : TdRow ℚ), ⟨[8, 4, 4], 1, 2, 1/5⟩] = .error .typeError := by
      decide +kernel
    rw [this] at hr
    cases hr
  · intro h
    obtain ⟨r, hr, pre, post, h1, h2, -, -⟩ := h [⟨[8, 8, 4], 1, 3, 1/4⟩, ⟨[8, 4, 4], 1, 2, 1/5⟩]
      ⟨⟨[8, 4, 4], 1, 2, 1/5⟩, by simp, by show (2 : ℤ) ≤ 5; norm_num⟩
    have : getOptimalTdrecParams .amzG
        [(⟨[8, 8, 4], 1, 3, 1/4⟩ : TdRow ℚ), ⟨[8, 4, 4], 1, 2, 1/5⟩] = .ok ([8, 4, 4], 1, 2) := by
      decide +kernel
    rw [this] at hr
    simp only [Except.ok.injEq, Prod.mk.injEq] at hr
    have hmem : r ∈ [(⟨[8, 8, 4], 1, 3, 1/4⟩ : TdRow ℚ), ⟨[8, 4, 4], 1, 2, 1/5⟩] := by
      rw [h1]; simp
    have hb := h2.2 ⟨[8, 8, 4], 1, 3, 1/4⟩ (by simp) (by show (3 : ℤ) ≤ 5; norm_num)
    simp only [List.mem_cons, List.not_mem_nil, or_false] at hmem
    rcases hmem with rfl | rfl
    · norm_num at hr
    · norm_num at hb

end DynCF
