/-
Kronecker products of matrices numbered by `finProdFinEquiv`, contracts of `svds` and of the full SVD.
-/
import Verif.Model.TuckerIntegrator
import Verif.Lemmas.Unfold
import Verif.Lemmas.SvdExists

set_option linter.unusedSectionVars false

namespace DynCF
open Matrix
variable {K : Type}

section
variable [CommRing K]

/-- `np.kron(A, B)` -/
def kronM {a b c d : ℕ} (A : Matrix (Fin a) (Fin b) K) (B : Matrix (Fin c) (Fin d) K) :
    Matrix (Fin (a * c)) (Fin (b * d)) K :=
  Matrix.of fun i j => A (finProdFinEquiv.symm i).1 (finProdFinEquiv.symm j).1 *
    B (finProdFinEquiv.symm i).2 (finProdFinEquiv.symm j).2

variable {a b c d e f n0 n1 n2 : ℕ}

theorem Mat.kron_mk (A : Matrix (Fin a) (Fin b) K) (B : Matrix (Fin c) (Fin d) K) :
    Mat.kron ⟨a, b, A⟩ ⟨c, d, B⟩ = ⟨a * c, b * d, kronM A B⟩ := rfl

theorem kronM_transpose (A : Matrix (Fin a) (Fin b) K) (B : Matrix (Fin c) (Fin d) K) :
    (kronM A B).transpose = kronM A.transpose B.transpose := rfl

theorem kronM_one : kronM (1 : Matrix (Fin a) (Fin a) K) (1 : Matrix (Fin c) (Fin c) K) = 1 := by
  ext i j
  obtain ⟨i, rfl⟩ := finProdFinEquiv.surjective i
  obtain ⟨j, rfl⟩ := finProdFinEquiv.surjective j
  simp only [kronM, Matrix.of_apply, Equiv.symm_apply_apply, Matrix.one_apply,
    finProdFinEquiv.injective.eq_iff, Prod.ext_iff]
  split_ifs with h1 h2 h3 <;> simp_all

theorem kronM_mul (A : Matrix (Fin a) (Fin b) K) (B : Matrix (Fin c) (Fin d) K)
    (A' : Matrix (Fin b) (Fin e) K) (B' : Matrix (Fin d) (Fin f) K) :
    kronM A B * kronM A' B' = kronM (A * A') (B * B') := by
  ext i j
  simp only [Matrix.mul_apply, kronM, Matrix.of_apply, sum_finProd, Equiv.symm_apply_apply,
    Finset.sum_mul_sum]
  exact Finset.sum_congr rfl fun _ _ => Finset.sum_congr rfl fun _ _ => by ring

/-- multiplying modes 1 and 2 is multiplying the unfolding by a Kronecker product -/
theorem unf_mul12 (V : Matrix (Fin a) (Fin n1) K) (W : Matrix (Fin b) (Fin n2) K) (t : T3 n0 n1 n2 K) :
    unf (mul1 V (mul2 W t)) = unf t * (kronM W V).transpose := by
  ext i j
  simp only [unf, mul1, mul2, Matrix.mul_apply, kronM, Matrix.transpose_apply, Matrix.of_apply,
    sum_finProd, Equiv.symm_apply_apply, Finset.mul_sum]
  rw [Finset.sum_comm]
  exact Finset.sum_congr rfl fun _ _ => Finset.sum_congr rfl fun _ _ => by ring

theorem flattenF_kron {p q n m : ℕ} (w : Fin (q * p) → K) (rf : Matrix (Fin n) (Fin p) K)
    (lf : Matrix (Fin m) (Fin q) K) :
    flattenF (rf * reshapeF w * lf.transpose) = (kronM lf rf).mulVec w := by
  funext i
  obtain ⟨⟨i2, i1⟩, rfl⟩ := finProdFinEquiv.surjective i
  simp only [flattenF, reshapeF, Matrix.mul_apply, Matrix.of_apply, Matrix.mulVec, dotProduct,
    Equiv.symm_apply_apply, kronM, Matrix.transpose_apply, sum_finProd, Finset.sum_mul]
  exact Finset.sum_congr rfl fun _ _ => Finset.sum_congr rfl fun _ _ => by ring

/-- the linear operator of the implicit calculation is the transposed explicit matrix -/
theorem kronMv_eq {r p q n m : ℕ} (core : Matrix (Fin r) (Fin (q * p)) K) (rf : Matrix (Fin n) (Fin p) K)
    (lf : Matrix (Fin m) (Fin q) K) (v : Fin r → K) :
    kronMv core rf lf v = (core * kronM lf.transpose rf.transpose).transpose.mulVec v := by
  rw [kronMv, flattenF_kron, Matrix.transpose_mul, kronM_transpose, Matrix.transpose_transpose,
    Matrix.transpose_transpose, Matrix.mulVec_mulVec]

/-- and its adjoint is the adjoint -/
theorem kronRmv_eq {r p q n m : ℕ} (core : Matrix (Fin r) (Fin (q * p)) K) (rf : Matrix (Fin n) (Fin p) K)
    (lf : Matrix (Fin m) (Fin q) K) (v : Fin (m * n) → K) :
    kronRmv core rf lf v = (core * kronM lf.transpose rf.transpose).mulVec v := by
  have := flattenF_kron v rf.transpose lf.transpose
  rw [Matrix.transpose_transpose] at this
  rw [kronRmv, this, Matrix.mulVec_mulVec]

theorem kronOp_eq {r p q n m : ℕ} (core : Matrix (Fin r) (Fin (q * p)) K) (rf : Matrix (Fin n) (Fin p) K)
    (lf : Matrix (Fin m) (Fin q) K) :
    kronOp core rf lf = (core * kronM lf.transpose rf.transpose).transpose := by
  ext i j
  rw [kronOp, Matrix.of_apply, kronMv_eq, Matrix.mulVec_single_one]
  rfl

end

/-- The contract of `svds` at one call: the result lists the `k` largest terms of some singular value
decomposition of `A`, in ascending order. -/
def SvdsOk [CommRing K] [LE K] (la : LinAlg K) {m n : ℕ} (k : ℕ) (A : Matrix (Fin m) (Fin n) K) : Prop :=
  ∃ (U : Matrix (Fin m) (Fin (min m n)) K) (s : Fin (min m n) → K) (V : Matrix (Fin (min m n)) (Fin n) K)
    (h : k ≤ min m n), U * Matrix.diagonal s * V = A ∧ U.transpose * U = 1 ∧ V * V.transpose = 1 ∧
    (∀ i, 0 ≤ s i) ∧ (∀ i j, i ≤ j → s j ≤ s i) ∧
    (∀ i j, (la.svds k A).1 i j = U i (Fin.castLE h (Fin.rev j))) ∧
    (∀ j, (la.svds k A).2.1 j = s (Fin.castLE h (Fin.rev j))) ∧
    ∀ j i, (la.svds k A).2.2 j i = V (Fin.castLE h (Fin.rev j)) i

/-- The contract of the full SVD at one call. -/
def SvdFullOk [CommRing K] [LE K] (la : LinAlg K) {m n : ℕ} (A : Matrix (Fin m) (Fin n) K) : Prop :=
  (la.svdFull A).1.transpose * (la.svdFull A).1 = 1 ∧
  (la.svdFull A).2.2 * (la.svdFull A).2.2.transpose = 1 ∧
  (∀ i, 0 ≤ (la.svdFull A).2.1 i) ∧ (∀ i j, i ≤ j → (la.svdFull A).2.1 j ≤ (la.svdFull A).2.1 i) ∧
  ∀ i j, A i j = ∑ k, (la.svdFull A).1 i (Fin.castLE (Nat.min_le_left m n) k) * (la.svdFull A).2.1 k *
    (la.svdFull A).2.2 (Fin.castLE (Nat.min_le_right m n) k) j

theorem realLA_svds {m n k : ℕ} (h : k ≤ min m n) (A : Matrix (Fin m) (Fin n) ℝ) : SvdsOk realLA k A := by
  obtain ⟨h1, h2, h3, h4, h5⟩ := realLA_svd A
  refine ⟨_, _, _, h, h1, h2, h3, h4, h5, ?_⟩
  unfold realLA
  dsimp only
  rw [dif_pos h]
  exact ⟨fun _ _ => rfl, fun _ => rfl, fun _ _ => rfl⟩

theorem realLA_svdFull {m n : ℕ} (A : Matrix (Fin m) (Fin n) ℝ) : SvdFullOk realLA A := by
  obtain ⟨hU, hV, hs, hanti, hA⟩ :=
    Classical.choose_spec (Classical.choose_spec (Classical.choose_spec (exists_svd A)))
  refine ⟨hU, ?_, hs, fun i j hij => hanti hij, hA⟩
  show (Matrix.transpose _) * (Matrix.transpose _).transpose = 1
  rw [Matrix.transpose_transpose]
  exact hV

end DynCF
