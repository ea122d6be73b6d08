/-
C179: what the figures of the numerical experiment show.
-/
import Verif.Model.NumFigures
import Verif.Props.PsiExperiments

set_option linter.unusedSectionVars false

namespace DynCF
variable {K : Type}

/-! ### Specification -/

/-- The curve shows `ys`, the `i`-th value at time `t0 + i * h`. -/
def ShowsOverTime (c : NumCurve) (t0 h : ℝ) (ys : List ℝ) : Prop :=
  c.y = ys ∧ c.x.length = ys.length ∧ ∀ i, (hi : i < c.x.length) → c.x[i] = t0 + i * h

/-- The points are the entries of the matrix over their column and row. -/
def ShowsEntries (pts : List (ℕ × ℕ × K)) (a : Mat K) : Prop :=
  ∀ q, q ∈ pts ↔ ∃ (i : Fin a.rows) (j : Fin a.cols), q = ((j : ℕ), (i : ℕ), a.val i j)

/-- The panels show the first `n` matrices, with their numbers in the titles. -/
def ShowsFirst2d (ps : List (Panel K)) (l : List (Mat K)) (n : ℕ) : Prop :=
  ps.length = n ∧ ∀ k, (hk : k < ps.length) → ps[k].title = "A(t".toList ++ Nat.toDigits 10 k ++ ")".toList ∧
    l[k]? = some ps[k].matrix

def ShowsFirst3d (ps : List (Surface K)) (l : List (Mat K)) (n : ℕ) : Prop :=
  ps.length = n ∧ ∀ k, (hk : k < ps.length) → ps[k].title = "A(t".toList ++ Nat.toDigits 10 k ++ ")".toList ∧
    ∃ a, l[k]? = some a ∧ ShowsEntries ps[k].points a

/-- All matrices have entries. -/
def Filled (l : List (Mat K)) : Prop := ∀ a ∈ l, 0 < a.rows ∧ 0 < a.cols

/-! ### The curves -/

theorem linspace_spec (t0 h : ℝ) (n : ℕ) (hn : 0 < n) :
    (linspace t0 (t0 + ((n : ℝ) - 1) * h) n).length = n ∧
      ∀ i, (hi : i < (linspace t0 (t0 + ((n : ℝ) - 1) * h) n).length) →
        (linspace t0 (t0 + ((n : ℝ) - 1) * h) n)[i] = t0 + i * h := by
  unfold linspace
  split
  · rename_i h1
    subst h1
    refine ⟨rfl, fun i hi => ?_⟩
    have : i = 0 := by simpa using hi
    subst this
    simp
  · rename_i h1
    refine ⟨by simp, fun i hi => ?_⟩
    rw [List.getElem_map, List.getElem_range]
    have : (n : ℝ) - 1 ≠ 0 := fun h => h1 (by
      have : (n : ℝ) = ((1 : ℕ) : ℝ) := by push_cast; linarith
      exact_mod_cast this)
    rw [add_sub_cancel_left, mul_div_cancel_left₀ _ this]
    ring

theorem getPlot_two {c1 c2 : NumCurve} (h1 : c1.x.length = c1.y.length) (h2 : c2.x.length = c2.y.length)
    (xl yl t : Str) : getPlot [c1, c2] xl yl t = .ok ⟨xl, yl, t, [c1, c2]⟩ := by
  unfold getPlot
  rw [List.mapM_cons, List.mapM_cons, List.mapM_nil, if_pos h1, if_pos h2]
  rfl

/-- **C179, the curves.** `compare_approximations` with plots returns for every number of steps `≥ 1` what it returns without
plots, shows the measured times and the errors of both methods, the `i`-th value over the time `t0 + i * step_size` of the
`i`-th matrix, and prints the sums of the times. -/
theorem C179_curves (la : LinAlg ℝ) (hqr : QrAlways la) (rng : Rng ℝ) (clock1 clock2 : ℕ → ℝ) (x : NumExp)
    {n : ℕ} (hn : x.size = n) (h0 : 0 < n) (A1 A2 T1 T2 : Matrix (Fin n) (Fin n) ℝ)
    (ha1 : x.a1 = ⟨_, _, A1⟩) (ha2 : x.a2 = ⟨_, _, A2⟩) (ht1 : x.t1 = ⟨_, _, T1⟩)
    (ht2 : x.t2 = ⟨_, _, T2⟩) (nSteps rank : ℕ) (hpos : 0 < nSteps) :
    ∃ s p c1 c2 c3 c4, compareApproximations la rng clock1 clock2 x nSteps rank = .ok (s, p) ∧
      compareWithPlots la rng clock1 clock2 x nSteps rank =
        .ok ((⟨"Timestamp".toList, "Computational Time (sec)".toList, "Computational Time Dynamics".toList, [c1, c2]⟩,
          ⟨"Timestamp".toList, "Relative Error".toList, "Relative Error Dynamics".toList, [c3, c4]⟩),
          (s.times.sum, p.times.sum), s, p) ∧
      c1.label = "SVD".toList ∧ c2.label = "PSI".toList ∧ c3.label = "SVD".toList ∧ c4.label = "PSI".toList ∧
      s.errs.length = nSteps ∧ p.errs.length = nSteps ∧
      ShowsOverTime c1 x.t0 x.ss s.times ∧ ShowsOverTime c2 x.t0 x.ss p.times ∧
      ShowsOverTime c3 x.t0 x.ss s.errs ∧ ShowsOverTime c4 x.t0 x.ss p.errs := by
  obtain ⟨s, p, h1, h2, h3, -⟩ := (C101_compare la hqr rng clock1 clock2 x hn h0 A1 A2 T1 T2 ha1 ha2 ht1 ht2 nSteps rank).1 hpos
  obtain ⟨l1, l2⟩ := linspace_spec x.t0 x.ss nSteps hpos
  have ht : s.times.length = nSteps ∧ p.times.length = nSteps := by
    unfold compareApproximations at h1
    obtain ⟨l, -, h1⟩ := (bind_ok_iff _ _ _).1 h1
    obtain ⟨s', e1, h1⟩ := (bind_ok_iff _ _ _).1 h1
    obtain ⟨p', e2, h1⟩ := (bind_ok_iff _ _ _).1 h1
    cases h1
    constructor
    · unfold getSvdDynamics at e1
      obtain ⟨errs, -, e1⟩ := (bind_ok_iff _ _ _).1 e1
      split at e1
      · cases e1
      · cases e1
        simpa using h2
    · unfold getPsiDynamics at e2
      split at e2
      · cases e2
      · obtain ⟨t, -, e2⟩ := (bind_ok_iff _ _ _).1 e2
        obtain ⟨q, -, e2⟩ := (bind_ok_iff _ _ _).1 e2
        obtain ⟨e, -, e2⟩ := (bind_ok_iff _ _ _).1 e2
        obtain ⟨es, -, e2⟩ := (bind_ok_iff _ _ _).1 e2
        cases e2
        simpa using h3
  refine ⟨s, p, ⟨_, s.times, "SVD".toList⟩, ⟨_, p.times, "PSI".toList⟩, ⟨_, s.errs, "SVD".toList⟩,
    ⟨_, p.errs, "PSI".toList⟩, h1, ?_, rfl, rfl, rfl, rfl, h2, h3, ⟨rfl, l1.trans ht.1.symm, l2⟩, ⟨rfl, l1.trans ht.2.symm, l2⟩,
    ⟨rfl, l1.trans h2.symm, l2⟩, ⟨rfl, l1.trans h3.symm, l2⟩⟩
  unfold compareWithPlots
  rw [h1, except_bind_ok]
  dsimp only
  rw [getPlot_two (l1.trans ht.1.symm) (l1.trans ht.2.symm), except_bind_ok,
    getPlot_two (l1.trans h2.symm) (l1.trans h3.symm), except_bind_ok]
  rfl

/-! ### The panels -/

theorem panelIdx_eq (n : ℕ) : panelIdx n = List.range (n * 3) := by
  unfold panelIdx
  induction n with
  | zero => rfl
  | succ n ih =>
    rw [List.range_succ (n := n), List.flatMap_append, ih, Nat.succ_mul, List.range_add]
    simp

theorem drawAll_ok {α β : Type} (f : α → PyM β) (l : List α) {R : α → β → Prop} (h : ∀ a ∈ l, ∃ b, f a = .ok b ∧ R a b) :
    ∃ bs, drawAll (l.map f) = (bs, none) ∧ List.Forall₂ R l bs := by
  induction l with
  | nil => exact ⟨[], rfl, .nil⟩
  | cons a l ih =>
    obtain ⟨b, h1, h2⟩ := h a (List.mem_cons_self ..)
    obtain ⟨bs, h3, h4⟩ := ih fun x hx => h x (List.mem_cons_of_mem _ hx)
    exact ⟨b :: bs, by rw [List.map_cons, h1, drawAll, h3], .cons h2 h4⟩

theorem forall₂_range {β : Type} {n : ℕ} {bs : List β} {R : ℕ → β → Prop} (h : List.Forall₂ R (List.range n) bs) :
    bs.length = n ∧ ∀ k, (hk : k < bs.length) → R k bs[k] := by
  have h1 : bs.length = n := by rw [← h.length_eq, List.length_range]
  refine ⟨h1, fun k hk => ?_⟩
  have := (List.forall₂_iff_get.1 h).2 k (by rw [List.length_range]; omega) hk
  simpa using this

theorem drawAll_append {α : Type} (l l' : List (PyM α)) (as : List α) (h : drawAll l = (as, none)) :
    drawAll (l ++ l') = (as ++ (drawAll l').1, (drawAll l').2) := by
  induction l generalizing as with
  | nil =>
    obtain ⟨rfl, -⟩ := Prod.mk.inj h
    rfl
  | cons x l ih =>
    cases x with
    | error e => exact absurd (Prod.mk.inj h).2 (by simp)
    | ok a =>
      rw [drawAll] at h
      obtain ⟨h1, h2⟩ := Prod.mk.inj h
      subst h1
      rw [List.cons_append, drawAll, ih _ (Prod.ext rfl h2)]
      rfl

theorem panelMatrix_ok {l : List (Mat K)} (hl : Filled l) {k : ℕ} (hk : k < l.length) : panelMatrix l k = .ok l[k] := by
  unfold panelMatrix
  rw [List.getElem?_eq_getElem hk]
  have := hl _ (List.getElem_mem hk)
  exact if_neg (by omega)

theorem panelTitle_eq (k : ℕ) : panelTitle k = "A(t".toList ++ Nat.toDigits 10 k ++ ")".toList := by
  unfold panelTitle intStr
  rw [if_neg (by omega)]
  rfl

/-- **C179, violated.** The claim that all matrices are drawn is false: of four steps three are drawn as surfaces, without an
exception, and none as an image. -/
theorem C179_violated : ¬ ∀ l : List (Mat ℚ), Filled l →
    ShowsFirst2d (plotDynamics2d l).1 l l.length ∧ ShowsFirst3d (plotDynamics3d l).1 l l.length := by
  intro h
  obtain ⟨h1, h2⟩ := h (List.replicate 4 ⟨1, 1, fun _ _ => 1⟩) fun a ha => by
    rw [List.eq_of_mem_replicate ha]
    exact ⟨Nat.one_pos, Nat.one_pos⟩
  have := h1.1
  simp [plotDynamics2d, panelIdx, drawAll, List.range_succ] at this

/-- **C179, the images.** With fewer than six matrices nothing is drawn and `plot_dynamics_2d` raises (`ValueError` below three,
`IndexError` from three on). With six or more it draws the matrices in order, with their numbers, up to the last multiple of
three: all of them exactly if their number is a multiple of three. -/
theorem C179_images_partial (l : List (Mat K)) (hl : Filled l) :
    (l.length < 3 → plotDynamics2d l = ([], some .valueError)) ∧
    (3 ≤ l.length → l.length < 6 → plotDynamics2d l = ([], some .indexError)) ∧
    (6 ≤ l.length → (plotDynamics2d l).2 = none ∧ ShowsFirst2d (plotDynamics2d l).1 l (l.length - l.length % 3)) := by
  refine ⟨fun h => ?_, fun h h' => ?_, fun h => ?_⟩
  · unfold plotDynamics2d
    exact if_pos (by omega)
  · have e : l.length / 3 = 1 := by omega
    unfold plotDynamics2d
    dsimp only
    rw [e, if_neg (by decide), panelIdx_eq]
    rfl
  · obtain ⟨bs, h1, h2⟩ := drawAll_ok
      (fun idx => if l.length / 3 = 1 then .error .indexError
        else do
          let a ← panelMatrix l idx
          pure (⟨panelTitle idx, a⟩ : Panel K)) (List.range (l.length / 3 * 3))
      (R := fun k b => b.title = "A(t".toList ++ Nat.toDigits 10 k ++ ")".toList ∧ l[k]? = some b.matrix) fun k hk => by
        have hk := List.mem_range.1 hk
        have hk' : k < l.length := by omega
        refine ⟨⟨panelTitle k, l[k]⟩, ?_, panelTitle_eq k, List.getElem?_eq_getElem hk'⟩
        rw [if_neg (by omega), panelMatrix_ok hl hk']
        rfl
    have e : plotDynamics2d l = (bs, none) := by
      unfold plotDynamics2d
      dsimp only
      rw [if_neg (by omega), panelIdx_eq]
      exact h1
    rw [e]
    obtain ⟨h3, h4⟩ := forall₂_range h2
    exact ⟨rfl, h3.trans (by omega), h4⟩

theorem surfacePoints_square {a : Mat K} (h : a.rows = a.cols) :
    ∃ p, surfacePoints a = .ok p ∧ ShowsEntries p a := by
  refine ⟨_, by unfold surfacePoints; rw [if_pos h], fun q => ?_⟩
  simp only [List.mem_flatMap, List.mem_finRange, true_and, List.mem_map]
  constructor
  · rintro ⟨i, j, rfl⟩
    exact ⟨i, j, rfl⟩
  · rintro ⟨i, j, rfl⟩
    exact ⟨i, j, rfl⟩

/-- **C179, the surfaces.** For square matrices `plot_dynamics_3d` draws the matrices in order, with their numbers, up to the
last multiple of three, but at most six: with nine or more matrices it raises `ValueError` after six surfaces, otherwise it
raises nothing. Every surface has exactly the entries of its matrix over their column and row. -/
theorem C179_surfaces_partial (l : List (Mat K)) (hl : Filled l) (hsq : ∀ a ∈ l, a.rows = a.cols) :
    (plotDynamics3d l).2 = (if 9 ≤ l.length then some .valueError else none) ∧
      ShowsFirst3d (plotDynamics3d l).1 l (min 6 (l.length - l.length % 3)) := by
  have key : ∀ n ≤ 6, n ≤ l.length → ∃ bs, drawAll ((List.range n).map fun idx => do
      let a ← panelMatrix l idx
      if idx + 1 > 6 then .error .valueError
      else do
        let p ← surfacePoints a
        pure (⟨panelTitle idx, p⟩ : Surface K)) = (bs, none) ∧ ShowsFirst3d bs l n := by
    intro n hn hn'
    obtain ⟨bs, h1, h2⟩ := drawAll_ok
      (fun idx => do
        let a ← panelMatrix l idx
        if idx + 1 > 6 then .error .valueError
        else do
          let p ← surfacePoints a
          pure (⟨panelTitle idx, p⟩ : Surface K)) (List.range n)
      (R := fun k b => b.title = "A(t".toList ++ Nat.toDigits 10 k ++ ")".toList ∧
        ∃ a, l[k]? = some a ∧ ShowsEntries b.points a) fun k hk => by
        have hk := List.mem_range.1 hk
        have hk' : k < l.length := by omega
        obtain ⟨p, h3, h4⟩ := surfacePoints_square (hsq _ (List.getElem_mem hk'))
        refine ⟨⟨panelTitle k, p⟩, ?_, panelTitle_eq k, _, List.getElem?_eq_getElem hk', h4⟩
        rw [panelMatrix_ok hl hk', except_bind_ok, if_neg (by omega), h3]
        rfl
    exact ⟨bs, h1, forall₂_range h2⟩
  unfold plotDynamics3d
  rw [panelIdx_eq]
  by_cases h9 : 9 ≤ l.length
  · obtain ⟨bs, h1, h2⟩ := key 6 le_rfl (by omega)
    obtain ⟨k, hk⟩ : ∃ k, l.length / 3 * 3 = 6 + (k + 1) := ⟨l.length / 3 * 3 - 7, by omega⟩
    rw [hk, List.range_add, List.map_append, drawAll_append _ _ _ h1, List.range_succ_eq_map, List.map_cons, List.map_cons,
      panelMatrix_ok hl (show 6 + 0 < l.length by omega), except_bind_ok, if_pos (by decide), drawAll, if_pos h9,
      show min 6 (l.length - l.length % 3) = 6 by omega, List.append_nil]
    exact ⟨rfl, h2⟩
  · obtain ⟨bs, h1, h2⟩ := key (l.length / 3 * 3) (by omega) (by omega)
    rw [h1, if_neg h9, show min 6 (l.length - l.length % 3) = l.length / 3 * 3 by omega]
    exact ⟨rfl, h2⟩

/-- **C179, matrices that are not square.** With two or more rows and columns such a matrix is refused; a matrix with one row
and `n ≥ 2` columns is drawn over column 0 only. -/
theorem C179_not_square (a : Mat K) (h : a.rows ≠ a.cols) :
    (a.rows ≠ 1 → a.cols ≠ 1 → surfacePoints a = .error .valueError) ∧
    (a.rows = 1 → 0 < a.cols → ∃ p, surfacePoints a = .ok p ∧ (∀ q ∈ p, q.1 = 0) ∧ ¬ ShowsEntries p a) := by
  refine ⟨fun h1 h2 => ?_, fun h1 h2 => ?_⟩
  · unfold surfacePoints
    rw [if_neg h, dif_neg h1, dif_neg h2]
  · have h0 : ∀ q ∈ ((List.finRange a.cols).flatMap fun i =>
        (List.finRange a.cols).map fun j => (0, i.val, a.val ⟨0, by omega⟩ j)), q.1 = 0 := by
      intro q hq
      simp only [List.mem_flatMap, List.mem_finRange, true_and, List.mem_map] at hq
      obtain ⟨i, j, rfl⟩ := hq
      rfl
    refine ⟨_, by unfold surfacePoints; rw [if_neg h, dif_pos h1], h0, fun hs => ?_⟩
    have := h0 _ ((hs (1, 0, a.val ⟨0, by omega⟩ ⟨1, by omega⟩)).2 ⟨⟨0, by omega⟩, ⟨1, by omega⟩, rfl⟩)
    exact Nat.one_ne_zero this

/-- The default of six steps: the list of the synthetic dynamics is drawn completely in both ways. -/
theorem C179_default (x : NumExp) {n : ℕ} (hn : x.size = n) (h0 : 0 < n) (A1 A2 T1 T2 : Matrix (Fin n) (Fin n) ℝ)
    (ha1 : x.a1 = ⟨_, _, A1⟩) (ha2 : x.a2 = ⟨_, _, A2⟩) (ht1 : x.t1 = ⟨_, _, T1⟩) (ht2 : x.t2 = ⟨_, _, T2⟩) :
    ∃ l, getDynamicsList x 6 = .ok l ∧ (plotDynamics2d l).2 = none ∧ ShowsFirst2d (plotDynamics2d l).1 l 6 ∧
      (plotDynamics3d l).2 = none ∧ ShowsFirst3d (plotDynamics3d l).1 l 6 ∧ l.length = 6 := by
  have hl := C100_dynamics x hn A1 A2 T1 T2 ha1 ha2 ht1 ht2 6
  refine ⟨_, hl, ?_⟩
  generalize hL : (List.map _ (List.range 6) : List (Mat ℝ)) = L
  have hlen : L.length = 6 := by rw [← hL]; simp
  have hm : ∀ a ∈ L, a.rows = n ∧ a.cols = n := by
    rw [← hL]
    intro a ha
    obtain ⟨k, -, rfl⟩ := List.mem_map.1 ha
    exact ⟨rfl, rfl⟩
  have hf : Filled L := fun a ha => by rw [(hm a ha).1, (hm a ha).2]; exact ⟨h0, h0⟩
  have h2 := (C179_images_partial L hf).2.2 (by omega)
  have h3 := C179_surfaces_partial L hf fun a ha => by rw [(hm a ha).1, (hm a ha).2]
  rw [hlen] at h2 h3
  exact ⟨h2.1, h2.2, h3.1, h3.2, hlen⟩

/-- Seven matrices: six images, no exception; a matrix with one row and two columns: both entries are drawn twice over
column 0. -/
example : (plotDynamics2d (List.replicate 7 (⟨1, 1, fun _ _ => 1⟩ : Mat ℚ))).1.length = 6 ∧
    surfacePoints (⟨1, 2, !![5, 7]⟩ : Mat ℚ) = .ok [(0, 0, 5), (0, 0, 7), (0, 1, 5), (0, 1, 7)] := by
  constructor
  · exact ((C179_images_partial (List.replicate 7 (⟨1, 1, fun _ _ => 1⟩ : Mat ℚ)) fun a ha => by
      rw [List.eq_of_mem_replicate ha]
      exact ⟨Nat.one_pos, Nat.one_pos⟩).2.2 (by simp)).2.1
  · rfl

/-- The time axis of three steps from 1 with step 1/2. -/
example : ∃ c : NumCurve, c.x = linspace 1 (1 + ((3 : ℕ) - 1 : ℝ) * (1 / 2)) 3 ∧ ShowsOverTime c 1 (1 / 2) [9, 8, 7] :=
  ⟨⟨_, [9, 8, 7], []⟩, rfl, rfl, (linspace_spec 1 (1 / 2) 3 (by norm_num)).1, (linspace_spec 1 (1 / 2) 3 (by norm_num)).2⟩

end DynCF
