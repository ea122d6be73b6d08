/-
Unfoldings and mode products of 3-way tensors with known dimensions.
-/
import Verif.Props.Tensor2
import Verif.Lemmas.Blocks

set_option linter.unusedSectionVars false

namespace DynCF
open Matrix
variable {K : Type} [CommRing K]

/-- the unfolding along the first mode: column `(k, j)` with `j` running fastest -/
def unf {n0 n1 n2 : ℕ} (t : T3 n0 n1 n2 K) : Matrix (Fin n0) (Fin (n2 * n1)) K :=
  Matrix.of fun i c => t i (finProdFinEquiv.symm c).2 (finProdFinEquiv.symm c).1

/-- product with a matrix in mode 0 -/
def mul0 {a n0 n1 n2 : ℕ} (M : Matrix (Fin a) (Fin n0) K) (t : T3 n0 n1 n2 K) : T3 a n1 n2 K :=
  fun i j k => ∑ l, M i l * t l j k
/-- product with a matrix in mode 1 -/
def mul1 {a n0 n1 n2 : ℕ} (M : Matrix (Fin a) (Fin n1) K) (t : T3 n0 n1 n2 K) : T3 n0 a n2 K :=
  fun i j k => ∑ l, M j l * t i l k
/-- product with a matrix in mode 2 -/
def mul2 {a n0 n1 n2 : ℕ} (M : Matrix (Fin a) (Fin n2) K) (t : T3 n0 n1 n2 K) : T3 n0 n1 a K :=
  fun i j k => ∑ l, M k l * t i j l

variable {n0 n1 n2 a b c r0 r1 r2 : ℕ}

theorem unf_inj {s t : T3 n0 n1 n2 K} (h : unf s = unf t) : s = t := by
  funext i j k
  have := congrFun (congrFun h i) (finProdFinEquiv (k, j))
  simpa only [unf, Matrix.of_apply, Equiv.symm_apply_apply] using this

theorem unf_zero : unf (0 : T3 n0 n1 n2 K) = 0 := rfl
theorem unf_add (s t : T3 n0 n1 n2 K) : unf (s + t) = unf s + unf t := rfl
theorem unf_mul0 (M : Matrix (Fin a) (Fin n0) K) (t : T3 n0 n1 n2 K) : unf (mul0 M t) = M * unf t := by
  ext i c
  simp [unf, mul0, Matrix.mul_apply]

theorem front1_mul0 (M : Matrix (Fin a) (Fin n0) K) (t : T3 n0 n1 n2 K) :
    front1 (mul0 M t) = mul1 M (front1 t) := rfl
theorem front1_mul1 (M : Matrix (Fin a) (Fin n1) K) (t : T3 n0 n1 n2 K) :
    front1 (mul1 M t) = mul0 M (front1 t) := rfl
theorem front1_mul2 (M : Matrix (Fin a) (Fin n2) K) (t : T3 n0 n1 n2 K) :
    front1 (mul2 M t) = mul2 M (front1 t) := rfl
theorem front2_mul0 (M : Matrix (Fin a) (Fin n0) K) (t : T3 n0 n1 n2 K) :
    front2 (mul0 M t) = mul1 M (front2 t) := rfl
theorem front2_mul1 (M : Matrix (Fin a) (Fin n1) K) (t : T3 n0 n1 n2 K) :
    front2 (mul1 M t) = mul2 M (front2 t) := rfl
theorem front2_mul2 (M : Matrix (Fin a) (Fin n2) K) (t : T3 n0 n1 n2 K) :
    front2 (mul2 M t) = mul0 M (front2 t) := rfl
theorem front1_add (s t : T3 n0 n1 n2 K) : front1 (s + t) = front1 s + front1 t := rfl
theorem front2_add (s t : T3 n0 n1 n2 K) : front2 (s + t) = front2 s + front2 t := rfl
theorem front1_inj {s t : T3 n0 n1 n2 K} (h : front1 s = front1 t) : s = t := by
  funext i j k; exact congrFun (congrFun (congrFun h j) i) k
theorem front2_inj {s t : T3 n0 n1 n2 K} (h : front2 s = front2 t) : s = t := by
  funext i j k; exact congrFun (congrFun (congrFun h k) i) j

theorem mul0_mul0 (A : Matrix (Fin b) (Fin a) K) (B : Matrix (Fin a) (Fin n0) K) (t : T3 n0 n1 n2 K) :
    mul0 A (mul0 B t) = mul0 (A * B) t := by
  apply unf_inj
  rw [unf_mul0, unf_mul0, unf_mul0, Matrix.mul_assoc]
theorem mul1_mul1 (A : Matrix (Fin b) (Fin a) K) (B : Matrix (Fin a) (Fin n1) K) (t : T3 n0 n1 n2 K) :
    mul1 A (mul1 B t) = mul1 (A * B) t := by
  apply front1_inj
  rw [front1_mul1, front1_mul1, front1_mul1, mul0_mul0]
theorem mul2_mul2 (A : Matrix (Fin b) (Fin a) K) (B : Matrix (Fin a) (Fin n2) K) (t : T3 n0 n1 n2 K) :
    mul2 A (mul2 B t) = mul2 (A * B) t := by
  apply front2_inj
  rw [front2_mul2, front2_mul2, front2_mul2, mul0_mul0]

theorem mul0_one (t : T3 n0 n1 n2 K) : mul0 1 t = t := by
  apply unf_inj; rw [unf_mul0, Matrix.one_mul]
theorem mul1_one (t : T3 n0 n1 n2 K) : mul1 1 t = t := front1_inj (mul0_one _)
theorem mul2_one (t : T3 n0 n1 n2 K) : mul2 1 t = t := front2_inj (mul0_one _)

theorem mul0_add (A : Matrix (Fin a) (Fin n0) K) (s t : T3 n0 n1 n2 K) :
    mul0 A (s + t) = mul0 A s + mul0 A t := by
  apply unf_inj; rw [unf_mul0, unf_add, unf_add, unf_mul0, unf_mul0, Matrix.mul_add]
theorem mul1_add (A : Matrix (Fin a) (Fin n1) K) (s t : T3 n0 n1 n2 K) :
    mul1 A (s + t) = mul1 A s + mul1 A t := front1_inj (mul0_add A _ _)
theorem mul2_add (A : Matrix (Fin a) (Fin n2) K) (s t : T3 n0 n1 n2 K) :
    mul2 A (s + t) = mul2 A s + mul2 A t := front2_inj (mul0_add A _ _)

theorem mul01_comm (A : Matrix (Fin a) (Fin n0) K) (B : Matrix (Fin b) (Fin n1) K) (t : T3 n0 n1 n2 K) :
    mul0 A (mul1 B t) = mul1 B (mul0 A t) := by
  funext i j k
  simp only [mul0, mul1, Finset.mul_sum]
  rw [Finset.sum_comm]
  exact Finset.sum_congr rfl fun _ _ => Finset.sum_congr rfl fun _ _ => by ring
theorem mul02_comm (A : Matrix (Fin a) (Fin n0) K) (B : Matrix (Fin b) (Fin n2) K) (t : T3 n0 n1 n2 K) :
    mul0 A (mul2 B t) = mul2 B (mul0 A t) := by
  funext i j k
  simp only [mul0, mul2, Finset.mul_sum]
  rw [Finset.sum_comm]
  exact Finset.sum_congr rfl fun _ _ => Finset.sum_congr rfl fun _ _ => by ring
theorem mul12_comm (A : Matrix (Fin a) (Fin n1) K) (B : Matrix (Fin b) (Fin n2) K) (t : T3 n0 n1 n2 K) :
    mul1 A (mul2 B t) = mul2 B (mul1 A t) := by
  funext i j k
  simp only [mul1, mul2, Finset.mul_sum]
  rw [Finset.sum_comm]
  exact Finset.sum_congr rfl fun _ _ => Finset.sum_congr rfl fun _ _ => by ring

theorem tuckerTensor_eq (U : Matrix (Fin n0) (Fin r0) K) (V : Matrix (Fin n1) (Fin r1) K)
    (W : Matrix (Fin n2) (Fin r2) K) (g : T3 r0 r1 r2 K) :
    tuckerTensor U V W g = mul0 U (mul1 V (mul2 W g)) := by
  funext i j k
  simp only [tuckerTensor, mul0, mul1, mul2, Finset.mul_sum]
  exact Finset.sum_congr rfl fun _ _ => Finset.sum_congr rfl fun _ _ =>
    Finset.sum_congr rfl fun _ _ => by ring

theorem coreTensor_eq (t : T3 n0 n1 n2 K) (U : Matrix (Fin n0) (Fin r0) K)
    (V : Matrix (Fin n1) (Fin r1) K) (W : Matrix (Fin n2) (Fin r2) K) :
    coreTensor t U V W = mul0 U.transpose (mul1 V.transpose (mul2 W.transpose t)) := by
  funext i j k
  simp only [coreTensor, mul0, mul1, mul2, Finset.mul_sum, Matrix.transpose_apply]
  exact Finset.sum_congr rfl fun _ _ => Finset.sum_congr rfl fun _ _ =>
    Finset.sum_congr rfl fun _ _ => by ring

/-- sum over the pairs numbered by `finProdFinEquiv` -/
theorem sum_finProd {M : Type} [AddCommMonoid M] {p q : ℕ} (f : Fin (p * q) → M) :
    ∑ c, f c = ∑ x, ∑ y, f (finProdFinEquiv (x, y)) := by
  rw [← Fintype.sum_prod_type' (f := fun x y => f (finProdFinEquiv (x, y)))]
  exact (Fintype.sum_equiv finProdFinEquiv _ _ fun _ => rfl).symm

/-- moving a factor of mode 1 to the other side of `x yᵀ` -/
theorem unf_mul1_adj (A : Matrix (Fin n1) (Fin a) K) (x : T3 n0 n1 n2 K) (y : T3 b a n2 K) :
    unf (mul1 A.transpose x) * (unf y).transpose = unf x * (unf (mul1 A y)).transpose := by
  ext i j
  simp only [Matrix.mul_apply, unf, mul1, Matrix.transpose_apply, Matrix.of_apply]
  rw [sum_finProd, sum_finProd]
  refine Finset.sum_congr rfl fun k _ => ?_
  simp only [Equiv.symm_apply_apply, Finset.sum_mul, Finset.mul_sum]
  rw [Finset.sum_comm]
  exact Finset.sum_congr rfl fun _ _ => Finset.sum_congr rfl fun _ _ => by ring
/-- moving a factor of mode 2 to the other side of `x yᵀ` -/
theorem unf_mul2_adj (A : Matrix (Fin n2) (Fin a) K) (x : T3 n0 n1 n2 K) (y : T3 b n1 a K) :
    unf (mul2 A.transpose x) * (unf y).transpose = unf x * (unf (mul2 A y)).transpose := by
  ext i j
  simp only [Matrix.mul_apply, unf, mul2, Matrix.transpose_apply, Matrix.of_apply]
  rw [sum_finProd, sum_finProd]
  simp only [Equiv.symm_apply_apply, Finset.sum_mul, Finset.mul_sum]
  rw [Finset.sum_comm, Finset.sum_comm (s := Finset.univ (α := Fin n2))]
  refine Finset.sum_congr rfl fun j _ => ?_
  rw [Finset.sum_comm]
  exact Finset.sum_congr rfl fun _ _ => Finset.sum_congr rfl fun _ _ => by ring

theorem projUnfold_eq {s : ℕ} (x : T3 n0 n1 n2 K) (U1 : Matrix (Fin n1) (Fin r1) K)
    (U2 : Matrix (Fin n2) (Fin r2) K) (Q : Matrix (Fin (r2 * r1)) (Fin s) K) :
    projUnfold x U1 U2 Q = unf (mul1 U1.transpose (mul2 U2.transpose x)) * Q := by
  ext i c
  simp only [projUnfold, Matrix.mul_apply, unf, mul1, mul2, Matrix.transpose_apply, Matrix.of_apply]
  rw [sum_finProd]
  simp only [Equiv.symm_apply_apply, Finset.sum_mul, Finset.mul_sum]
  have h1 : ∀ (f : Fin n1 → Fin n2 → Fin r2 → Fin r1 → K),
      ∑ x, ∑ y, ∑ z, ∑ w, f x y z w = ∑ z, ∑ w, ∑ x, ∑ y, f x y z w := by
    intro f
    calc ∑ x, ∑ y, ∑ z, ∑ w, f x y z w = ∑ x, ∑ z, ∑ y, ∑ w, f x y z w :=
          Finset.sum_congr rfl fun _ _ => Finset.sum_comm
      _ = ∑ z, ∑ x, ∑ y, ∑ w, f x y z w := Finset.sum_comm
      _ = ∑ z, ∑ x, ∑ w, ∑ y, f x y z w :=
          Finset.sum_congr rfl fun _ _ => Finset.sum_congr rfl fun _ _ => Finset.sum_comm
      _ = ∑ z, ∑ w, ∑ x, ∑ y, f x y z w := Finset.sum_congr rfl fun _ _ => Finset.sum_comm
  rw [h1]
  exact Finset.sum_congr rfl fun _ _ => Finset.sum_congr rfl fun _ _ =>
    Finset.sum_congr rfl fun _ _ => Finset.sum_congr rfl fun _ _ => by ring

theorem unfoldDense_0 (t : T3 n0 n1 n2 K) :
    unfoldDense ⟨n0, n1, n2, t⟩ 0 = .ok ⟨n0, n2 * n1, unf t⟩ := rfl
theorem unfoldDense_1 (t : T3 n0 n1 n2 K) :
    unfoldDense ⟨n0, n1, n2, t⟩ 1 = .ok ⟨n1, n2 * n0, unf (front1 t)⟩ := rfl
theorem unfoldDense_2 (t : T3 n0 n1 n2 K) :
    unfoldDense ⟨n0, n1, n2, t⟩ 2 = .ok ⟨n2, n1 * n0, unf (front2 t)⟩ := rfl

theorem foldDense_0 (t : T3 n0 n1 n2 K) :
    foldDense ⟨n0, n2 * n1, unf t⟩ (n0, n1, n2) 0 = .ok ⟨n0, n1, n2, t⟩ := by
  have := C52_fold_unfold t 0 (Or.inl rfl)
  rwa [unfoldDense_0, except_bind_ok] at this
theorem foldDense_1 (t : T3 n0 n1 n2 K) :
    foldDense ⟨n1, n2 * n0, unf (front1 t)⟩ (n0, n1, n2) 1 = .ok ⟨n0, n1, n2, t⟩ := by
  have := C52_fold_unfold t 1 (Or.inr (Or.inl rfl))
  rwa [unfoldDense_1, except_bind_ok] at this
theorem foldDense_2 (t : T3 n0 n1 n2 K) :
    foldDense ⟨n2, n1 * n0, unf (front2 t)⟩ (n0, n1, n2) 2 = .ok ⟨n0, n1, n2, t⟩ := by
  have := C52_fold_unfold t 2 (Or.inr (Or.inr rfl))
  rwa [unfoldDense_2, except_bind_ok] at this

end DynCF
