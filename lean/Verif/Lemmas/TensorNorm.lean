/-
Sums of squares of third-order tensors: independence of the unfolding, projections in the three modes, and
the distance of a tensor to Tucker tensors with orthonormal factors.
-/
import Verif.Lemmas.Unfold
import Verif.Lemmas.BestApprox

namespace DynCF
open Matrix

variable {n0 n1 n2 r0 r1 r2 : ℕ}

/-- sum of the squares of all entries of a tensor (the squared Frobenius norm) -/
def tenSq (t : T3 n0 n1 n2 ℝ) : ℝ := ∑ i, ∑ j, ∑ k, t i j k ^ 2

theorem tenSq_nonneg (t : T3 n0 n1 n2 ℝ) : 0 ≤ tenSq t :=
  Finset.sum_nonneg fun _ _ => Finset.sum_nonneg fun _ _ => Finset.sum_nonneg fun _ _ => sq_nonneg _

theorem tenSq_unf (t : T3 n0 n1 n2 ℝ) : tenSq t = sqSum (unf t) := by
  unfold tenSq sqSum
  refine Finset.sum_congr rfl fun i _ => ?_
  rw [sum_finProd, Finset.sum_comm]
  simp only [unf, Matrix.of_apply, Equiv.symm_apply_apply]

theorem tenSq_front1 (t : T3 n0 n1 n2 ℝ) : tenSq (front1 t) = tenSq t := by
  unfold tenSq front1
  rw [Finset.sum_comm]

theorem tenSq_front2 (t : T3 n0 n1 n2 ℝ) : tenSq (front2 t) = tenSq t := by
  unfold tenSq front2
  rw [Finset.sum_comm]
  exact Finset.sum_congr rfl fun _ _ => Finset.sum_comm

/-- the distance to a tensor in the range of `Q` in mode 0 -/
theorem tenSq_proj0 {q : ℕ} {Q : Matrix (Fin n0) (Fin q) ℝ} (hQ : Q.transpose * Q = 1) (t : T3 n0 n1 n2 ℝ)
    (c : T3 q n1 n2 ℝ) :
    tenSq (t - mul0 Q c) = tenSq t - tenSq (mul0 Q.transpose t) + tenSq (mul0 Q.transpose t - c) := by
  have := sqSum_proj hQ (unf t) (unf c)
  rw [tenSq_unf, tenSq_unf, tenSq_unf, tenSq_unf, unf_mul0]
  rw [show unf (t - mul0 Q c) = unf t - Q * unf c by rw [← unf_mul0]; rfl,
    show unf (mul0 Q.transpose t - c) = Q.transpose * unf t - unf c by rw [← unf_mul0]; rfl]
  exact this

theorem tenSq_proj1 {q : ℕ} {Q : Matrix (Fin n1) (Fin q) ℝ} (hQ : Q.transpose * Q = 1) (t : T3 n0 n1 n2 ℝ)
    (c : T3 n0 q n2 ℝ) :
    tenSq (t - mul1 Q c) = tenSq t - tenSq (mul1 Q.transpose t) + tenSq (mul1 Q.transpose t - c) := by
  have := tenSq_proj0 hQ (front1 t) (front1 c)
  rw [← tenSq_front1 (t - _), ← tenSq_front1 t, ← tenSq_front1 (mul1 _ t), ← tenSq_front1 (mul1 _ t - c)]
  exact this

theorem tenSq_proj2 {q : ℕ} {Q : Matrix (Fin n2) (Fin q) ℝ} (hQ : Q.transpose * Q = 1) (t : T3 n0 n1 n2 ℝ)
    (c : T3 n0 n1 q ℝ) :
    tenSq (t - mul2 Q c) = tenSq t - tenSq (mul2 Q.transpose t) + tenSq (mul2 Q.transpose t - c) := by
  have := tenSq_proj0 hQ (front2 t) (front2 c)
  rw [← tenSq_front2 (t - _), ← tenSq_front2 t, ← tenSq_front2 (mul2 _ t), ← tenSq_front2 (mul2 _ t - c)]
  exact this

/-- the distance of a tensor to a Tucker tensor with orthonormal factors and any core -/
theorem tenSq_tucker (t : T3 n0 n1 n2 ℝ) {U : Matrix (Fin n0) (Fin r0) ℝ} {V : Matrix (Fin n1) (Fin r1) ℝ}
    {W : Matrix (Fin n2) (Fin r2) ℝ} (hU : U.transpose * U = 1) (hV : V.transpose * V = 1)
    (hW : W.transpose * W = 1) (c : T3 r0 r1 r2 ℝ) :
    tenSq (t - tuckerTensor U V W c) =
      tenSq t - tenSq (coreTensor t U V W) + tenSq (coreTensor t U V W - c) := by
  rw [tuckerTensor_eq, coreTensor_eq, tenSq_proj0 hU, tenSq_proj1 hV, tenSq_proj2 hW, mul01_comm, mul02_comm,
    mul12_comm]
  ring

/-- The squared error of a Tucker approximation with orthonormal factors and the projected core. -/
theorem tenSq_tucker_core (t : T3 n0 n1 n2 ℝ) {U : Matrix (Fin n0) (Fin r0) ℝ} {V : Matrix (Fin n1) (Fin r1) ℝ}
    {W : Matrix (Fin n2) (Fin r2) ℝ} (hU : U.transpose * U = 1) (hV : V.transpose * V = 1)
    (hW : W.transpose * W = 1) :
    tenSq (t - tuckerTensor U V W (coreTensor t U V W)) = tenSq t - tenSq (coreTensor t U V W) := by
  rw [tenSq_tucker t hU hV hW, sub_self]
  have : tenSq (0 : T3 r0 r1 r2 ℝ) = 0 := by simp [tenSq]
  rw [this, add_zero]

theorem tenSq_zero : tenSq (0 : T3 n0 n1 n2 ℝ) = 0 := by simp [tenSq]

theorem tenSq_res0 {q : ℕ} {Q : Matrix (Fin n0) (Fin q) ℝ} (hQ : Q.transpose * Q = 1) (t : T3 n0 n1 n2 ℝ) :
    tenSq (t - mul0 Q (mul0 Q.transpose t)) = tenSq t - tenSq (mul0 Q.transpose t) := by
  rw [tenSq_proj0 hQ, sub_self, tenSq_zero, add_zero]
theorem tenSq_res1 {q : ℕ} {Q : Matrix (Fin n1) (Fin q) ℝ} (hQ : Q.transpose * Q = 1) (t : T3 n0 n1 n2 ℝ) :
    tenSq (t - mul1 Q (mul1 Q.transpose t)) = tenSq t - tenSq (mul1 Q.transpose t) := by
  rw [tenSq_proj1 hQ, sub_self, tenSq_zero, add_zero]
theorem tenSq_res2 {q : ℕ} {Q : Matrix (Fin n2) (Fin q) ℝ} (hQ : Q.transpose * Q = 1) (t : T3 n0 n1 n2 ℝ) :
    tenSq (t - mul2 Q (mul2 Q.transpose t)) = tenSq t - tenSq (mul2 Q.transpose t) := by
  rw [tenSq_proj2 hQ, sub_self, tenSq_zero, add_zero]

theorem tenSq_contract1 {q : ℕ} {Q : Matrix (Fin n1) (Fin q) ℝ} (hQ : Q.transpose * Q = 1) (t : T3 n0 n1 n2 ℝ) :
    tenSq (mul1 Q.transpose t) ≤ tenSq t := by
  have := tenSq_res1 hQ t
  have := tenSq_nonneg (t - mul1 Q (mul1 Q.transpose t))
  linarith
theorem tenSq_contract2 {q : ℕ} {Q : Matrix (Fin n2) (Fin q) ℝ} (hQ : Q.transpose * Q = 1) (t : T3 n0 n1 n2 ℝ) :
    tenSq (mul2 Q.transpose t) ≤ tenSq t := by
  have := tenSq_res2 hQ t
  have := tenSq_nonneg (t - mul2 Q (mul2 Q.transpose t))
  linarith

theorem mul1_sub {a : ℕ} (A : Matrix (Fin a) (Fin n1) ℝ) (s t : T3 n0 n1 n2 ℝ) :
    mul1 A (s - t) = mul1 A s - mul1 A t := by
  funext i j k
  simp only [mul1, Pi.sub_apply, mul_sub, Finset.sum_sub_distrib]
theorem mul2_sub {a : ℕ} (A : Matrix (Fin a) (Fin n2) ℝ) (s t : T3 n0 n1 n2 ℝ) :
    mul2 A (s - t) = mul2 A s - mul2 A t := by
  funext i j k
  simp only [mul2, Pi.sub_apply, mul_sub, Finset.sum_sub_distrib]

/-- The error of the projection in all three modes is at most the sum of the errors of the three single
projections. -/
theorem tenSq_three (t : T3 n0 n1 n2 ℝ) {U : Matrix (Fin n0) (Fin r0) ℝ} {V : Matrix (Fin n1) (Fin r1) ℝ}
    {W : Matrix (Fin n2) (Fin r2) ℝ} (hU : U.transpose * U = 1) (hV : V.transpose * V = 1)
    (hW : W.transpose * W = 1) :
    tenSq (t - tuckerTensor U V W (coreTensor t U V W)) ≤
      tenSq (t - mul0 U (mul0 U.transpose t)) + tenSq (t - mul1 V (mul1 V.transpose t)) +
        tenSq (t - mul2 W (mul2 W.transpose t)) := by
  rw [tenSq_tucker_core t hU hV hW, coreTensor_eq, tenSq_res2 hW]
  -- ‖t‖² − ‖U V W t‖² = (‖t‖² − ‖W t‖²) + (‖W t‖² − ‖V W t‖²) + (‖V W t‖² − ‖U V W t‖²)
  have a1 : tenSq (mul2 W.transpose t) - tenSq (mul1 V.transpose (mul2 W.transpose t)) ≤
      tenSq (t - mul1 V (mul1 V.transpose t)) := by
    rw [← tenSq_res1 hV, mul12_comm, mul12_comm, ← mul2_sub]
    exact tenSq_contract2 hW _
  have a2 : tenSq (mul1 V.transpose (mul2 W.transpose t)) -
      tenSq (mul0 U.transpose (mul1 V.transpose (mul2 W.transpose t))) ≤
      tenSq (t - mul0 U (mul0 U.transpose t)) := by
    rw [← tenSq_res0 hU, mul01_comm, mul02_comm, mul01_comm, mul02_comm, ← mul1_sub, ← mul2_sub] <;>
    exact (tenSq_contract1 hV _).trans (tenSq_contract2 hW _)
  linarith

end DynCF
