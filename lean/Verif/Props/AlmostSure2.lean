/-
C160: with normal draws `generate_matrix` has the requested rank almost surely, and so has every leading block that is
large enough; the incremental experiment of C113 is then exact almost surely.
-/
import Verif.Props.AlmostSure
import Verif.Props.PsiExperiments5

namespace DynCF
open MeasureTheory Matrix ProbabilityTheory

variable {Ω Ω' : Type} [MeasurableSpace Ω] [MeasurableSpace Ω']

/-- The draws of `generate_matrix` are standard normal: each of the three arrays has independent entries. -/
structure NormalGen (P : Measure Ω) (d : Ω → GenDraws ℝ) : Prop where
  a : NormalDraws P fun w => (d w).a
  b : NormalDraws P fun w => (d w).b
  s : ∀ n, HasLaw (fun w => (d w).s n) (Measure.pi fun _ : Fin n => gaussianReal 0 1) P

/-! ### Lemmas -/

theorem NormalGen.s_ne {P : Measure Ω} {d : Ω → GenDraws ℝ} (h : NormalGen P d) (n : ℕ) :
    ∀ᵐ w ∂P, ∀ i, (d w).s n i ≠ 0 := by
  haveI : NullSingletonClass (gaussianReal 0 1) := nullSingletonClass_gaussianReal one_ne_zero
  rw [ae_all_iff]
  intro i
  have h1 := poly_ae (fun _ : Fin n => gaussianReal 0 1) (MvPolynomial.X i) (MvPolynomial.X_ne_zero i)
  rw [← (h.s n).map_eq] at h1
  filter_upwards [ae_of_ae_map (h.s n).aemeasurable h1] with w hw
  rwa [MvPolynomial.eval_X] at hw

/-- the leading square block of a tall normal matrix is invertible almost surely -/
theorem NormalDraws.top {P : Measure Ω} {rng : Ω → Rng ℝ} (h : NormalDraws P rng) {m r : ℕ} (hr : r ≤ m) :
    ∀ᵐ w ∂P, FullRows ((rng w m r).submatrix (Fin.castLE hr) id) := by
  refine h.ae (Q := fun R => FullRows (R.submatrix (Fin.castLE hr) id)) ?_
  have h1 : FullRows ((1 : Matrix (Fin m) (Fin m) ℝ).submatrix (Fin.castLE hr) id) := by
    refine ⟨(1 : Matrix (Fin m) (Fin m) ℝ).submatrix id (Fin.castLE hr), ?_⟩
    ext i j
    simp [Matrix.mul_apply, Matrix.one_apply]
  filter_upwards [randn_fullRows _ h1 (le_refl r)] with w hw
  convert hw using 1
  ext i j
  simp [Matrix.mul_apply, Matrix.one_apply]

/-- the leading square block of `Q` is invertible with that of the factorised matrix -/
theorem qr_top (la : LinAlg ℝ) {m r : ℕ} (h : r ≤ m) (A : Matrix (Fin m) (Fin r) ℝ) (hA : QrOk la A)
    (hf : FullRows (A.submatrix (Fin.castLE h) id)) :
    ∃ Q : Matrix (Fin m) (Fin r) ℝ, (la.qrM ⟨m, r, A⟩).1 = ⟨m, r, Q⟩ ∧
      IsUnit (Q.submatrix (Fin.castLE h) id).det := by
  obtain ⟨h1, -⟩ := hA
  have hr : min m r = r := Nat.min_eq_right h
  rw [qrM_mk]
  dsimp only
  revert h1
  generalize (la.qr A).1 = Q
  generalize (la.qr A).2 = R
  revert Q R
  rw [hr]
  intro Q R hQ
  refine ⟨Q, rfl, ?_⟩
  obtain ⟨B, hB⟩ := hf
  rw [← hQ] at hB
  have : Q.submatrix (Fin.castLE h) id * (R * B) = 1 := by
    rw [← Matrix.mul_assoc, ← hB]
    rfl
  exact (Matrix.isUnit_det_of_right_inverse this)

/-! ### Theorems -/

/-- **C160, rank.** `generate_matrix` returns almost surely a matrix whose rank is the requested one, and so is the rank
of each leading block with at least `rank` rows and columns. -/
theorem C160_matrix (P : Measure Ω) (d : Ω → GenDraws ℝ) (h : NormalGen P d) (la : LinAlg ℝ) (hqr : QrAlways la)
    (nRows nCols rank : ℕ) (h1 : rank ≤ nRows) (h2 : rank ≤ nCols) :
    ∀ᵐ w ∂P, ∃ M : Matrix (Fin nRows) (Fin nCols) ℝ, generateMatrix la (d w) nRows nCols rank = .ok ⟨nRows, nCols, M⟩ ∧
      M.rank = rank ∧
      ∀ (k l : ℕ) (hk : k ≤ nRows) (hl : l ≤ nCols), rank ≤ k → rank ≤ l →
        (M.submatrix (Fin.castLE hk) (Fin.castLE hl)).rank = rank := by
  filter_upwards [h.s_ne rank, h.a.top h1, h.b.top h2] with w hs ha hb
  obtain ⟨Q1, e1, u1⟩ := qr_top la h1 _ (hqr _) ha
  obtain ⟨Q2, e2, u2⟩ := qr_top la h2 _ (hqr _) hb
  obtain ⟨M, hM⟩ : ∃ M, M = Q1 * diagonal ((d w).s rank) * Q2.transpose := ⟨_, rfl⟩
  have hle : M.rank ≤ rank := by
    rw [hM, Matrix.mul_assoc]
    exact (Matrix.rank_mul_le_left _ _).trans (Matrix.rank_le_width _)
  have htop : (M.submatrix (Fin.castLE h1) (Fin.castLE h2)).rank = rank := by
    have e : M.submatrix (Fin.castLE h1) (Fin.castLE h2) =
        Q1.submatrix (Fin.castLE h1) id * diagonal ((d w).s rank) * (Q2.submatrix (Fin.castLE h2) id).transpose := by
      rw [hM]
      rfl
    have hu : IsUnit (M.submatrix (Fin.castLE h1) (Fin.castLE h2)).det := by
      rw [e, Matrix.det_mul, Matrix.det_mul, Matrix.det_transpose, Matrix.det_diagonal]
      exact (u1.mul (isUnit_iff_ne_zero.2 (Finset.prod_ne_zero_iff.2 fun i _ => hs i))).mul u2
    rw [Matrix.rank_of_isUnit _ ((Matrix.isUnit_iff_isUnit_det _).2 hu), Fintype.card_fin]
  have hblock : ∀ (k l : ℕ) (hk : k ≤ nRows) (hl : l ≤ nCols), rank ≤ k → rank ≤ l →
      (M.submatrix (Fin.castLE hk) (Fin.castLE hl)).rank = rank := by
    intro k l hk hl hrk hrl
    refine le_antisymm ((Matrix.rank_submatrix_le _ _ _).trans hle) ?_
    have := Matrix.rank_submatrix_le (M.submatrix (Fin.castLE hk) (Fin.castLE hl)) (Fin.castLE hrk) (Fin.castLE hrl)
    rw [Matrix.submatrix_submatrix] at this
    rw [← htop]
    exact this
  refine ⟨M, ?_, ?_, hblock⟩
  · unfold generateMatrix
    dsimp only
    rw [e1, e2, Mat.T_mk, svd2mtx_mk, hM]
  · exact hblock nRows nCols le_rfl le_rfl h1 h2

theorem splitMatrix_sizes (A : Mat ℝ) (axis : ℤ) (hax : axis = 0 ∨ axis = 1 ∨ axis = -1) (rf rn : ℝ)
    (hrf : 0 ≤ rf) (first step : ℕ) (hfirst : firstBlock (alongAxis axis A).rows rf = first)
    (hle : first ≤ (alongAxis axis A).rows) (hstep : blockStep (alongAxis axis A).rows rf rn = step)
    (hpos : 0 < step) (B : Mat ℝ) (l : List (Mat ℝ)) (hl : splitMatrix A rf rn axis = .ok (B :: l)) :
    ∀ c ∈ l, (alongAxis axis c).rows ≤ step := by
  obtain ⟨l', h1, -, h2⟩ := C77_sizes (alongAxis axis A) rf rn hrf first step hfirst hle hstep hpos
  have e : l' = (B :: l).map (alongAxis axis) := by
    unfold splitMatrix at hl h1
    rw [if_pos (Or.inl rfl)] at h1
    rcases hax with rfl | rfl | rfl
    · rw [if_pos (Or.inl rfl)] at hl
      have : (alongAxis 0 : Mat ℝ → Mat ℝ) = id := rfl
      rw [this] at h1 ⊢
      rw [id, hl] at h1
      rw [List.map_id]
      exact (Except.ok.inj h1).symm
    · have ha : (alongAxis 1 : Mat ℝ → Mat ℝ) = Mat.T := rfl
      rw [ha] at h1 ⊢
      rw [if_neg (by decide), if_pos (by decide), h1, except_bind_ok] at hl
      rw [← Except.ok.inj hl, List.map_map]
      exact (List.map_id _).symm
    · have ha : (alongAxis (-1) : Mat ℝ → Mat ℝ) = Mat.T := rfl
      rw [ha] at h1 ⊢
      rw [if_neg (by decide), if_pos (by decide), h1, except_bind_ok] at hl
      rw [← Except.ok.inj hl, List.map_map]
      exact (List.map_id _).symm
  intro c hc
  obtain ⟨k, hk⟩ := List.mem_iff_getElem?.1 hc
  have hk' : l'[k + 1]? = some (alongAxis axis c) := by
    rw [e, List.map_cons, List.getElem?_cons_succ, List.getElem?_map, hk]
    rfl
  obtain ⟨h3, h4⟩ := h2 (k + 1) (by omega)
  by_cases hlt : first + (k + 1 - 1) * step < (alongAxis axis A).rows
  · obtain ⟨B', h5, -, h6⟩ := h3 hlt
    rw [hk'] at h5
    cases h5
    omega
  · rw [h4 (by omega)] at hk'
    cases hk'

/-- **C160, experiment.** Normal draws for the generated matrix and, independently, for `random_svd`: if the first block
has at least `rank` rows (columns) and every later one at most as many as the oversampling, then for almost all generated
matrices and almost all draws of `random_svd` the experiment completes and every recorded error is zero. -/
theorem C160_experiment (P : Measure Ω) (d : Ω → GenDraws ℝ) (h : NormalGen P d) (P' : Measure Ω') (rng : Ω' → Rng ℝ)
    (h' : NormalDraws P' rng) (la : LinAlg ℝ) (hla : LaOk la) (clock : ℕ → ℝ) (size rank nPower os : ℕ) (rf rn : ℝ)
    (hrf : 0 ≤ rf) (axis : ℤ) (hax : axis = 0 ∨ axis = 1 ∨ axis = -1) (hr0 : 0 < rank) (first step : ℕ)
    (hfirst : firstBlock size rf = first) (hle : first ≤ size) (hrank : rank ≤ first)
    (hstep : blockStep size rf rn = step) (hpos : 0 < step) (hos : step ≤ os) :
    ∀ᵐ w ∂P, ∀ᵐ w' ∂P', ∃ res,
      getDynamicsVec la (d w) clock size rank rf rn axis (getIncrementalSvdTriple la (rng w') nPower os) = .ok res ∧
        res.errs ≠ [] ∧ ∀ e ∈ res.errs, e = 0 := by
  filter_upwards [C160_matrix P d h la hla.qr size size rank (by omega) (by omega)] with w ⟨M, hM, _, hblock⟩
  have hfull : ∀ᵐ w' ∂P', ∀ r nc, nc ≤ os → FullRows (rng w' (r + nc) (r + os)) := by
    simp only [ae_all_iff]
    intro r nc hnc
    refine h'.ae (Q := FullRows) ?_
    filter_upwards [randn_fullRows (1 : Matrix (Fin (r + nc)) (Fin (r + nc)) ℝ) ⟨1, Matrix.one_mul _⟩
      (show r + nc ≤ r + os by omega)] with w hw
    rwa [Matrix.one_mul] at hw
  have hrk : (leading axis (⟨size, size, M⟩ : Mat ℝ) first).val.rank = rank := by
    have hmin : min first size = first := by omega
    by_cases hx : axis = 0 ∨ axis = -2
    · rw [leading, if_pos hx]
      have := hblock (min first size) size (by omega) le_rfl (by omega) (by omega)
      exact this
    · rw [leading, if_neg hx]
      have := hblock size (min first size) le_rfl (by omega) (by omega) (by omega)
      exact this
  have hcap := C159_captures P' rng h' (leading axis (⟨size, size, M⟩ : Mat ℝ) first).val rank nPower os (by omega)
  filter_upwards [hfull, hcap] with w' hf hc
  obtain ⟨C, l, hC, hl, hrun⟩ := C113_exact la hla.qr hla.svd (rng w') (d w) clock size rank nPower os rf rn hrf axis
    hax hr0 (by omega) first step hfirst hle hstep hpos
  rw [hM] at hC
  obtain rfl := Except.ok.inj hC
  have hrows : (alongAxis axis (⟨size, size, M⟩ : Mat ℝ)).rows = size := by
    unfold alongAxis
    split <;> rfl
  have hsz := splitMatrix_sizes ⟨size, size, M⟩ axis hax rf rn hrf first step (by rw [hrows, hfirst])
    (by rw [hrows]; exact hle) (by rw [hrows, hstep]) hpos _ l hl
  obtain ⟨res, e1, e2, e3⟩ := hrun hrk hc (incCaptures_full la (rng w') nPower os axis hf l (fun c hc => by
    rw [colForm_along hax]
    exact (hsz c hc).trans hos) _)
  refine ⟨res, e1, ?_, e3⟩
  intro h0
  rw [h0] at e2
  simp at e2

/-! ### Example -/

/-- three arrays read from the same source -/
def sourceGen (w : ℕ × ℕ → ℝ) : GenDraws ℝ := ⟨sourceRng w, sourceRng w, fun _ i => w (i, 0)⟩

theorem sourceGen_normal : NormalGen normalSource sourceGen := by
  refine ⟨source_normal, source_normal, fun n => ?_⟩
  have hm : ∀ q : Fin n, Measurable fun w : ℕ × ℕ → ℝ => w (q, 0) := fun q => by fun_prop
  have hi : iIndepFun (fun (q : Fin n) (w : ℕ × ℕ → ℝ) => w (q, 0)) normalSource :=
    (iIndepFun_infinitePi (P := fun _ : ℕ × ℕ => gaussianReal 0 1) (X := fun _ x => x) fun _ => measurable_id).precomp
      (g := fun q : Fin n => ((q : ℕ), 0)) fun a b hab => Fin.ext (Prod.mk.inj hab).1
  refine ⟨(measurable_pi_lambda _ hm).aemeasurable, ?_⟩
  have e := hi.map_fun_eq_pi_map fun q => (hm q).aemeasurable
  refine e.trans (congrArg Measure.pi (funext fun q => ?_))
  exact (measurePreserving_eval_infinitePi (fun _ : ℕ × ℕ => gaussianReal 0 1) _).map_eq

-- a 5 × 4 matrix of rank 2 and its leading 2 × 3 block
example : ∀ᵐ w ∂normalSource, ∃ M : Matrix (Fin 5) (Fin 4) ℝ, generateMatrix realLA (sourceGen w) 5 4 2 = .ok ⟨5, 4, M⟩ ∧
    M.rank = 2 ∧ (M.submatrix (Fin.castLE (by decide : 2 ≤ 5)) (Fin.castLE (by decide : 3 ≤ 4))).rank = 2 := by
  filter_upwards [C160_matrix _ _ sourceGen_normal realLA laOk_real.qr 5 4 2 (by decide) (by decide)] with w ⟨M, h1, h2, h3⟩
  exact ⟨M, h1, h2, h3 2 3 _ _ (by decide) (by decide)⟩

-- size 6, rank 2, first block of three columns, then blocks of one column
example : ∀ᵐ w ∂normalSource, ∀ᵐ w' ∂normalSource, ∃ res,
    getDynamicsVec realLA (sourceGen w) (fun _ => 0) 6 2 (1 / 2) (1 / 3) 1
      (getIncrementalSvdTriple realLA (sourceRng w') 1 2) = .ok res ∧ res.errs ≠ [] ∧ ∀ e ∈ res.errs, e = 0 := by
  have hf : firstBlock 6 (1 / 2 : ℝ) = (3 : ℕ) := by
    unfold firstBlock pyInt
    norm_num
  refine C160_experiment _ _ sourceGen_normal _ _ source_normal realLA laOk_real _ 6 2 1 2 (1 / 2) (1 / 3) (by norm_num) 1
    (by decide) (by decide) 3 1 hf (by decide) (by decide) ?_ (by decide) (by decide)
  unfold blockStep
  rw [hf]
  unfold pyInt
  norm_num

end DynCF
