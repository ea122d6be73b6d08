/-
C166: the expected error of `hosvd_dense` with normal draws.
-/
import Verif.Props.RandomSvdError
import Verif.Props.TuckerError

namespace DynCF
open MeasureTheory Matrix ProbabilityTheory

variable {Ω : Type} [MeasurableSpace Ω]

/-! ### Lemmas -/

/-- a factor of the dense HOSVD: projecting the unfolding on its columns is at least as good as the result of
`random_svd` for the transposed unfolding -/
theorem rsvd_factor_error (la : LinAlg ℝ) (hla : LaOk la) (rng : Rng ℝ) {n N r : ℕ} (hn : r ≤ n) (hN : r ≤ N)
    (X : Matrix (Fin n) (Fin N) ℝ) (nPower os : ℕ) {b : ENNReal}
    (hb : ∃ (k : ℕ) (U' : Matrix (Fin N) (Fin k) ℝ) (s' : Fin k → ℝ) (V' : Matrix (Fin k) (Fin n) ℝ),
      randomSvd la rng ⟨N, n, X.transpose⟩ r nPower os = (⟨N, k, U'⟩, ⟨k, s'⟩, ⟨k, n, V'⟩) ∧
      ENNReal.ofReal (sqSum (X.transpose - U' * diagonal s' * V')) ≤ b) :
    ∃ F : Matrix (Fin n) (Fin r) ℝ,
      (randomSvd la rng ⟨N, n, X.transpose⟩ r nPower os).2.2.T.revCols = ⟨n, r, F⟩ ∧ F.transpose * F = 1 ∧
      ENNReal.ofReal (sqSum (X - F * (F.transpose * X))) ≤ b := by
  obtain ⟨k, U, s, V, hk, hkk, he, -⟩ := C47_components la rng X.transpose r nPower os
  obtain rfl : k = r := by omega
  obtain ⟨k', U', s', V', he', hle⟩ := hb
  rw [he] at he'
  have hk' : k = k' := congrArg (fun x => x.2.1.len) he'
  subst hk'
  simp only [Prod.mk.injEq, Mat.mk.injEq, Vec.mk.injEq, heq_eq_eq, true_and] at he'
  obtain ⟨rfl, rfl, rfl⟩ := he'
  have h2 := (C47_orthonormal la rng X.transpose k nPower os ⟨hla.qr _, hla.svd _⟩).2
  rw [he] at h2
  dsimp only at h2
  rw [he]
  refine ⟨_, rfl, castLE_cols_orth V.transpose (by rw [Matrix.transpose_transpose, h2]) Fin.rev Fin.rev_injective _
    fun _ _ => rfl, le_trans (ENNReal.ofReal_le_ofReal ?_) hle⟩
  have hp := revCols_proj V
  have e : (Matrix.of fun i j => V (Fin.rev j) i : Matrix (Fin n) (Fin k) ℝ) *
      ((Matrix.of fun i j => V (Fin.rev j) i : Matrix (Fin n) (Fin k) ℝ).transpose * X) =
      V.transpose * (V * X) := by
    rw [← Matrix.mul_assoc, hp, Matrix.mul_assoc]
  change sqSum (X - (Matrix.of fun i j => V (Fin.rev j) i : Matrix (Fin n) (Fin k) ℝ) *
      ((Matrix.of fun i j => V (Fin.rev j) i : Matrix (Fin n) (Fin k) ℝ).transpose * X)) ≤ _
  have hQ : V.transpose.transpose * V.transpose = 1 := by rw [Matrix.transpose_transpose, h2]
  have e2 : X.transpose - U * diagonal s * V = (X - V.transpose * (diagonal s * U.transpose)).transpose := by
    rw [Matrix.transpose_sub, Matrix.transpose_mul, Matrix.transpose_mul, Matrix.transpose_transpose,
      Matrix.transpose_transpose, Matrix.diagonal_transpose]
  rw [e, e2, sqSum_transpose, sqSum_proj hQ, sqSum_proj hQ, Matrix.transpose_transpose, sub_self]
  have h0 : sqSum (0 : Matrix (Fin k) (Fin N) ℝ) = 0 := by simp [sqSum]
  have := sqSum_nonneg (V * X - diagonal s * U.transpose)
  linarith

variable {n0 n1 n2 r0 r1 r2 : ℕ}

theorem tucker_unf0 (x : T3 n0 n1 n2 ℝ) (A0 : Matrix (Fin n0) (Fin r0) ℝ) (A1 : Matrix (Fin n1) (Fin r1) ℝ)
    (A2 : Matrix (Fin n2) (Fin r2) ℝ) (g : T3 r0 r1 r2 ℝ) :
    tenSq (x - tuckerTensor A0 A1 A2 g) = sqSum ((unf x).transpose - (A0 * unf (mul1 A1 (mul2 A2 g))).transpose) := by
  rw [← Matrix.transpose_sub, sqSum_transpose, tenSq_unf, tuckerTensor_eq, ← unf_mul0]
  rfl

theorem tucker_unf1 (x : T3 n0 n1 n2 ℝ) (A0 : Matrix (Fin n0) (Fin r0) ℝ) (A1 : Matrix (Fin n1) (Fin r1) ℝ)
    (A2 : Matrix (Fin n2) (Fin r2) ℝ) (g : T3 r0 r1 r2 ℝ) :
    tenSq (x - tuckerTensor A0 A1 A2 g) =
      sqSum ((unf (front1 x)).transpose - (A1 * unf (front1 (mul0 A0 (mul2 A2 g)))).transpose) := by
  rw [← Matrix.transpose_sub, sqSum_transpose, ← tenSq_front1, tenSq_unf, tuckerTensor_eq, mul01_comm, ← unf_mul0]
  rfl

theorem tucker_unf2 (x : T3 n0 n1 n2 ℝ) (A0 : Matrix (Fin n0) (Fin r0) ℝ) (A1 : Matrix (Fin n1) (Fin r1) ℝ)
    (A2 : Matrix (Fin n2) (Fin r2) ℝ) (g : T3 r0 r1 r2 ℝ) :
    tenSq (x - tuckerTensor A0 A1 A2 g) =
      sqSum ((unf (front2 x)).transpose - (A2 * unf (front2 (mul0 A0 (mul1 A1 g)))).transpose) := by
  rw [← Matrix.transpose_sub, sqSum_transpose, ← tenSq_front2, tenSq_unf, tuckerTensor_eq, mul12_comm, mul02_comm,
    ← unf_mul0]
  rfl

theorem rank_factor_le {n N r : ℕ} (A : Matrix (Fin n) (Fin r) ℝ) (Y : Matrix (Fin r) (Fin N) ℝ) :
    (A * Y).transpose.rank ≤ r := by
  rw [Matrix.rank_transpose]
  exact (Matrix.rank_mul_le_left _ _).trans (Matrix.rank_le_width _)

/-! ### Theorems -/

/-- **C166.** With normal draws (the same for all modes or not) and `os ≥ 2`, the squared error of `hosvd_dense` for a
valid rank not larger than the shape has an upper bound whose mean is at most `3 + (r0 + r1 + r2) / (os - 1)` times the
squared error of *every* Tucker tensor of the same ranks. -/
theorem C166_hosvd (P : Measure Ω) (rng : Ω → ℕ → Rng ℝ) (h : ∀ mode, NormalDraws P fun w => rng w mode)
    (la : LinAlg ℝ) (hla : LaOk la) (x : T3 n0 n1 n2 ℝ) (hv : r0 ≤ r1 * r2 ∧ r1 ≤ r0 * r2 ∧ r2 ≤ r0 * r1)
    (h0 : r0 ≤ n0) (h1 : r1 ≤ n1) (h2 : r2 ≤ n2) (nPower os : ℕ) (hos : 2 ≤ os) :
    ∃ B : Ω → ENNReal, AEMeasurable B P ∧
      (∀ᵐ w ∂P, ∃ (F0 : Matrix (Fin n0) (Fin r0) ℝ) (F1 : Matrix (Fin n1) (Fin r1) ℝ) (F2 : Matrix (Fin n2) (Fin r2) ℝ)
        (c : T3 r0 r1 r2 ℝ),
        hosvdDense la (rng w) ⟨_, _, _, x⟩ (r0, r1, r2) nPower os =
          .ok (⟨⟨_, _, F0⟩, ⟨_, _, F1⟩, ⟨_, _, F2⟩⟩, ⟨_, _, _, c⟩) ∧
        ENNReal.ofReal (∑ i, ∑ j, ∑ k, (x i j k - tuckerTensor F0 F1 F2 c i j k) ^ 2) ≤ B w) ∧
      ∀ (A0 : Matrix (Fin n0) (Fin r0) ℝ) (A1 : Matrix (Fin n1) (Fin r1) ℝ) (A2 : Matrix (Fin n2) (Fin r2) ℝ)
        (g : T3 r0 r1 r2 ℝ),
        ∫⁻ w, B w ∂P ≤ ENNReal.ofReal ((3 + (r0 + r1 + r2) / ((os : ℝ) - 1)) *
          ∑ i, ∑ j, ∑ k, (x i j k - tuckerTensor A0 A1 A2 g i j k) ^ 2) := by
  obtain ⟨v0, v1, v2⟩ := hv
  have g0 : r0 ≤ n2 * n1 := v0.trans (by rw [mul_comm]; exact Nat.mul_le_mul h2 h1)
  have g1 : r1 ≤ n2 * n0 := v1.trans (by rw [mul_comm]; exact Nat.mul_le_mul h2 h0)
  have g2 : r2 ≤ n1 * n0 := v2.trans (by rw [mul_comm]; exact Nat.mul_le_mul h1 h0)
  obtain ⟨B0, m0, p0, q0⟩ := C165_close P _ (h 0) la hla (unf x).transpose r0 nPower os hos
  obtain ⟨B1, m1, p1, q1⟩ := C165_close P _ (h 1) la hla (unf (front1 x)).transpose r1 nPower os hos
  obtain ⟨B2, m2, p2, q2⟩ := C165_close P _ (h 2) la hla (unf (front2 x)).transpose r2 nPower os hos
  refine ⟨fun w => B0 w + B1 w + B2 w, (m0.add m1).add m2, ?_, fun A0 A1 A2 g => ?_⟩
  · filter_upwards [p0, p1, p2] with w w0 w1 w2
    obtain ⟨F0, e0, o0, b0⟩ := rsvd_factor_error la hla (rng w 0) h0 g0 (unf x) nPower os w0
    obtain ⟨F1, e1, o1, b1⟩ := rsvd_factor_error la hla (rng w 1) h1 g1 (unf (front1 x)) nPower os w1
    obtain ⟨F2, e2, o2, b2⟩ := rsvd_factor_error la hla (rng w 2) h2 g2 (unf (front2 x)) nPower os w2
    refine ⟨F0, F1, F2, coreTensor x F0 F1 F2, ?_, ?_⟩
    · unfold hosvdDense hosvdDenseMode
      rw [(checkParams_ok_iff _ (r0, r1, r2)).2 ⟨v0, v1, v2⟩]
      simp only [except_bind_ok, Nat.cast_zero, Nat.cast_one, Nat.cast_ofNat, unfoldDense_0, unfoldDense_1,
        unfoldDense_2, Mat.T_mk, show shapeAt (r0, r1, r2) 0 = r0 from rfl, show shapeAt (r0, r1, r2) 1 = r1 from rfl,
        show shapeAt (r0, r1, r2) 2 = r2 from rfl, e0, e1, e2]
      simp only [pure, Except.pure, except_bind_ok, e0, e1, e2, constructCoreDense_typed]
    · have k0 : tenSq (x - mul0 F0 (mul0 F0.transpose x)) = sqSum (unf x - F0 * (F0.transpose * unf x)) := by
        rw [tenSq_unf, ← unf_mul0, ← unf_mul0]
        rfl
      have k1 : tenSq (x - mul1 F1 (mul1 F1.transpose x)) =
          sqSum (unf (front1 x) - F1 * (F1.transpose * unf (front1 x))) := by
        rw [← tenSq_front1, tenSq_unf, ← unf_mul0, ← unf_mul0]
        rfl
      have k2 : tenSq (x - mul2 F2 (mul2 F2.transpose x)) =
          sqSum (unf (front2 x) - F2 * (F2.transpose * unf (front2 x))) := by
        rw [← tenSq_front2, tenSq_unf, ← unf_mul0, ← unf_mul0]
        rfl
      have h3 := tenSq_three x o0 o1 o2
      rw [k0, k1, k2] at h3
      refine (ENNReal.ofReal_le_ofReal (show _ ≤ _ from h3)).trans ?_
      rw [ENNReal.ofReal_add (add_nonneg (sqSum_nonneg _) (sqSum_nonneg _)) (sqSum_nonneg _),
        ENNReal.ofReal_add (sqSum_nonneg _) (sqSum_nonneg _)]
      exact add_le_add (add_le_add b0 b1) b2
  · have a0 := q0 _ (rank_factor_le A0 (unf (mul1 A1 (mul2 A2 g))))
    have a1 := q1 _ (rank_factor_le A1 (unf (front1 (mul0 A0 (mul2 A2 g)))))
    have a2 := q2 _ (rank_factor_le A2 (unf (front2 (mul0 A0 (mul1 A1 g)))))
    rw [← tucker_unf0] at a0
    rw [← tucker_unf1] at a1
    rw [← tucker_unf2] at a2
    change _ ≤ ENNReal.ofReal (_ * tenSq (x - tuckerTensor A0 A1 A2 g))
    have hT := tenSq_nonneg (x - tuckerTensor A0 A1 A2 g)
    generalize tenSq (x - tuckerTensor A0 A1 A2 g) = T at *
    have h4 : (2 : ℝ) ≤ os := by exact_mod_cast hos
    have h5 : 0 ≤ (os : ℝ) - 1 := by linarith
    have hadd : ∫⁻ w, B0 w + B1 w + B2 w ∂P = ∫⁻ w, B0 w ∂P + ∫⁻ w, B1 w ∂P + ∫⁻ w, B2 w ∂P :=
      (lintegral_add_left' (m0.add m1) B2).trans (congrArg (· + _) (lintegral_add_left' m0 B1))
    refine hadd.le.trans ?_
    refine (add_le_add (add_le_add a0 a1) a2).trans (le_of_eq ?_)
    rw [← ENNReal.ofReal_add (by positivity) (by positivity), ← ENNReal.ofReal_add (by positivity) (by positivity)]
    congr 1
    ring

/-! ### Examples -/

/-- the tensor with the entries 3 and 1 on its diagonal -/
def exDiagTensor : T3 3 3 3 ℝ := fun i j k => if i = 0 ∧ j = 0 ∧ k = 0 then 3 else if i = 1 ∧ j = 1 ∧ k = 1 then 1 else 0

-- rank (1, 1, 1), two more columns: mean squared error at most 6, where keeping the larger entry leaves 1
example : ∃ B : (ℕ × ℕ → ℝ) → ENNReal,
    (∀ᵐ w ∂normalSource, ∃ (F0 F1 F2 : Matrix (Fin 3) (Fin 1) ℝ) (c : T3 1 1 1 ℝ),
      hosvdDense realLA (fun _ => sourceRng w) ⟨_, _, _, exDiagTensor⟩ (1, 1, 1) 1 2 =
        .ok (⟨⟨_, _, F0⟩, ⟨_, _, F1⟩, ⟨_, _, F2⟩⟩, ⟨_, _, _, c⟩) ∧
      ENNReal.ofReal (∑ i, ∑ j, ∑ k, (exDiagTensor i j k - tuckerTensor F0 F1 F2 c i j k) ^ 2) ≤ B w) ∧
    ∫⁻ w, B w ∂normalSource ≤ ENNReal.ofReal 6 := by
  obtain ⟨B, -, h1, h2⟩ := C166_hosvd normalSource (fun w _ => sourceRng w) (fun _ => source_normal) realLA laOk_real
    exDiagTensor (r0 := 1) (r1 := 1) (r2 := 1) (by decide) (by decide) (by decide) (by decide) 1 2 le_rfl
  refine ⟨B, h1, (h2 !![1; 0; 0] !![1; 0; 0] !![1; 0; 0] fun _ _ _ => 3).trans (le_of_eq ?_)⟩
  congr 1
  simp [Fin.sum_univ_succ, exDiagTensor, tuckerTensor]
  norm_num
  decide

end DynCF
