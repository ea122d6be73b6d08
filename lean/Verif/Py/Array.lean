/-
Dense numpy arrays used by the linear algebra of the code: run-time shape plus entries.
Shape mismatches are `ValueError` values.
-/
import Verif.Py.Basic
import Mathlib.LinearAlgebra.Matrix.Notation
import Mathlib.Data.Matrix.Mul
import Mathlib.Logic.Equiv.Fin.Basic

namespace DynCF
variable {K : Type}

/-- 2-D numpy array. -/
structure Mat (K : Type) where
  rows : ℕ
  cols : ℕ
  val : Matrix (Fin rows) (Fin cols) K

/-- 3-D numpy array. -/
structure Ten (K : Type) where
  d0 : ℕ
  d1 : ℕ
  d2 : ℕ
  val : Fin d0 → Fin d1 → Fin d2 → K

/-- Element access with an integer index: Python's negative indices count from the end, other
indices outside the array raise `IndexError` (inside numba-compiled code the access would be
unchecked; that is not modelled). -/
def pyIdx (n : ℕ) (i : ℤ) : PyM (Fin n) :=
  if h : 0 ≤ i ∧ i < n then .ok ⟨i.toNat, by omega⟩
  else if h : -(n : ℤ) ≤ i ∧ i < 0 then .ok ⟨(n + i).toNat, by omega⟩
  else .error .indexError

theorem pyIdx_coe {n : ℕ} (i : Fin n) : pyIdx n (i : ℤ) = .ok i := by
  have : 0 ≤ ((i : ℕ) : ℤ) ∧ ((i : ℕ) : ℤ) < n := ⟨by omega, by omega⟩
  unfold pyIdx
  rw [dif_pos this]
  congr 1

namespace Mat

/-- `a.T` -/
def T (A : Mat K) : Mat K := ⟨A.cols, A.rows, A.val.transpose⟩

/-- `a.dot(b)` / `a @ b` for two 2-D arrays -/
def dot [NonUnitalNonAssocSemiring K] (A B : Mat K) : PyM (Mat K) :=
  if h : A.cols = B.rows then
    .ok ⟨A.rows, B.cols, A.val * B.val.submatrix (Fin.cast h) id⟩
  else .error .valueError

/-- Shapes that numpy would broadcast against each other although they differ. -/
def broadcastable (A B : Mat K) : Bool :=
  (A.rows == B.rows || A.rows == 1 || B.rows == 1) && (A.cols == B.cols || A.cols == 1 || B.cols == 1)

/-- element-wise binary operation; broadcasting of different shapes is refused (`outOfModel`),
incompatible shapes raise `ValueError` -/
def zipWith (f : K → K → K) (A B : Mat K) : PyM (Mat K) :=
  if h : A.rows = B.rows ∧ A.cols = B.cols then
    .ok ⟨A.rows, A.cols, Matrix.of fun i j => f (A.val i j) (B.val (Fin.cast h.1 i) (Fin.cast h.2 j))⟩
  else if broadcastable A B then .error .outOfModel
  else .error .valueError

/-- `a + b` -/
def add [Add K] (A B : Mat K) : PyM (Mat K) := zipWith (· + ·) A B
/-- `a - b` -/
def sub [Sub K] (A B : Mat K) : PyM (Mat K) := zipWith (· - ·) A B

/-- `np.eye(n)` -/
def eye [Zero K] [One K] (n : ℕ) : Mat K := ⟨n, n, 1⟩

/-- `np.zeros((n, m))` -/
def zeros [Zero K] (n m : ℕ) : Mat K := ⟨n, m, 0⟩

/-- `np.diag(s)` for a 1-D array -/
def diag [Zero K] {n : ℕ} (s : Fin n → K) : Mat K := ⟨n, n, Matrix.diagonal s⟩

/-- `a[:, :k]` -/
def takeCols (A : Mat K) (k : ℕ) : Mat K :=
  ⟨A.rows, min k A.cols, Matrix.of fun i j => A.val i (Fin.castLE (Nat.min_le_right _ _) j)⟩

/-- `a[:k, :]` -/
def takeRows (A : Mat K) (k : ℕ) : Mat K :=
  ⟨min k A.rows, A.cols, Matrix.of fun i j => A.val (Fin.castLE (Nat.min_le_right _ _) i) j⟩

/-- `a[:, ::-1]` -/
def revCols (A : Mat K) : Mat K := ⟨A.rows, A.cols, Matrix.of fun i j => A.val i (Fin.rev j)⟩

/-- `a[::-1, :]` -/
def revRows (A : Mat K) : Mat K := ⟨A.rows, A.cols, Matrix.of fun i j => A.val (Fin.rev i) j⟩

/-- `np.concatenate([a, b], axis=1)` -/
def hcat (A B : Mat K) : PyM (Mat K) :=
  if h : A.rows = B.rows then
    .ok ⟨A.rows, A.cols + B.cols,
      Matrix.of fun i j => Fin.addCases (fun j => A.val i j) (fun j => B.val (Fin.cast h i) j) j⟩
  else .error .valueError

/-- `scipy.linalg.block_diag(a, b)` -/
def blockDiag [Zero K] (A B : Mat K) : Mat K :=
  ⟨A.rows + B.rows, A.cols + B.cols, Matrix.of fun i j =>
    Fin.addCases (fun i => Fin.addCases (fun j => A.val i j) (fun _ => 0) j)
      (fun i => Fin.addCases (fun _ => 0) (fun j => B.val i j) j) i⟩

/-- `a[i]` for a 2-D array: one row -/
def row (A : Mat K) (i : ℤ) : PyM (Fin A.cols → K) := do
  let i ← pyIdx A.rows i
  pure (A.val i)

@[simp] theorem dot_mk [NonUnitalNonAssocSemiring K] {m n p : ℕ} (A : Matrix (Fin m) (Fin n) K)
    (B : Matrix (Fin n) (Fin p) K) : dot ⟨m, n, A⟩ ⟨n, p, B⟩ = .ok ⟨m, p, A * B⟩ := by
  unfold dot
  rw [dif_pos rfl]
  rfl

theorem dot_error [NonUnitalNonAssocSemiring K] {A B : Mat K} (h : A.cols ≠ B.rows) :
    dot A B = .error .valueError := by
  unfold dot
  rw [dif_neg h]

@[simp] theorem T_mk {m n : ℕ} (A : Matrix (Fin m) (Fin n) K) :
    T ⟨m, n, A⟩ = ⟨n, m, A.transpose⟩ := rfl

@[simp] theorem add_mk [Add K] {m n : ℕ} (A B : Matrix (Fin m) (Fin n) K) :
    add ⟨m, n, A⟩ ⟨m, n, B⟩ = .ok ⟨m, n, A + B⟩ := by
  unfold add zipWith
  rw [dif_pos ⟨rfl, rfl⟩]
  rfl

@[simp] theorem sub_mk [Sub K] {m n : ℕ} (A B : Matrix (Fin m) (Fin n) K) :
    sub ⟨m, n, A⟩ ⟨m, n, B⟩ = .ok ⟨m, n, A - B⟩ := by
  unfold sub zipWith
  rw [dif_pos ⟨rfl, rfl⟩]
  rfl

end Mat
end DynCF
