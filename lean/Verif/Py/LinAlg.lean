/-
Numerical routines of numpy / scipy that the code calls as black boxes. They are parameters of the
model (a value of `LinAlg K`); only the shapes of their results are built in. What the theorems
assume about their values is stated as hypotheses about the calls made (`QrOk`, `SvdOk`, `InvOk`).
-/
import Verif.Py.Array
import Mathlib.LinearAlgebra.Matrix.NonsingularInverse

namespace DynCF

/-- * `qr A`: `np.linalg.qr(A, mode='reduced')`;
* `svd A`: `np.linalg.svd(A, full_matrices=False)`;
* `svdFull A`: `np.linalg.svd(A, full_matrices=True)`;
* `svds k A`: `scipy.sparse.linalg.svds(A, k=k)`, singular values ascending;
* `inv A`: `scipy.linalg.inv(A)`. -/
structure LinAlg (K : Type) where
  qr : {m n : ℕ} → Matrix (Fin m) (Fin n) K →
    Matrix (Fin m) (Fin (min m n)) K × Matrix (Fin (min m n)) (Fin n) K
  svd : {m n : ℕ} → Matrix (Fin m) (Fin n) K →
    Matrix (Fin m) (Fin (min m n)) K × (Fin (min m n) → K) × Matrix (Fin (min m n)) (Fin n) K
  svdFull : {m n : ℕ} → Matrix (Fin m) (Fin n) K →
    Matrix (Fin m) (Fin m) K × (Fin (min m n) → K) × Matrix (Fin n) (Fin n) K
  svds : {m n : ℕ} → (k : ℕ) → Matrix (Fin m) (Fin n) K →
    Matrix (Fin m) (Fin k) K × (Fin k → K) × Matrix (Fin k) (Fin n) K
  inv : {n : ℕ} → Matrix (Fin n) (Fin n) K → Matrix (Fin n) (Fin n) K

/-- A source of random matrices: `rng m n` is the drawn `m × n` matrix
(`random_state.randn(m, n)`, `random_state.rand(m, n)`). -/
abbrev Rng (K : Type) := (m n : ℕ) → Matrix (Fin m) (Fin n) K

variable {K : Type}

/-- The contract of `qr` at one call. -/
def QrOk [CommRing K] (la : LinAlg K) {m n : ℕ} (A : Matrix (Fin m) (Fin n) K) : Prop :=
  (la.qr A).1 * (la.qr A).2 = A ∧ (la.qr A).1.transpose * (la.qr A).1 = 1

/-- The contract of `svd` at one call: `U diag(s) Vᵀ = A`, orthonormal columns and rows, singular
values non-negative and non-increasing. -/
def SvdOk [CommRing K] [LE K] (la : LinAlg K) {m n : ℕ} (A : Matrix (Fin m) (Fin n) K) : Prop :=
  (la.svd A).1 * Matrix.diagonal (la.svd A).2.1 * (la.svd A).2.2 = A ∧
  (la.svd A).1.transpose * (la.svd A).1 = 1 ∧
  (la.svd A).2.2 * (la.svd A).2.2.transpose = 1 ∧
  (∀ i, 0 ≤ (la.svd A).2.1 i) ∧ ∀ i j, i ≤ j → (la.svd A).2.1 j ≤ (la.svd A).2.1 i

/-- The contract of `inv` at one call. -/
def InvOk [CommRing K] (la : LinAlg K) {n : ℕ} (A : Matrix (Fin n) (Fin n) K) : Prop :=
  la.inv A * A = 1

/-- `np.linalg.qr` on a run-time shaped array -/
def LinAlg.qrM (la : LinAlg K) (A : Mat K) : Mat K × Mat K :=
  (⟨_, _, (la.qr A.val).1⟩, ⟨_, _, (la.qr A.val).2⟩)

/-- A 1-D numpy array. -/
structure Vec (K : Type) where
  len : ℕ
  val : Fin len → K

/-- `a[:k]` -/
def Vec.take (v : Vec K) (k : ℕ) : Vec K :=
  ⟨min k v.len, fun i => v.val (Fin.castLE (Nat.min_le_right _ _) i)⟩

/-- `a.dot(x)` for a 2-D and a 1-D array -/
def Mat.dotVec [NonUnitalNonAssocSemiring K] (A : Mat K) (x : Vec K) : PyM (Vec K) :=
  if h : A.cols = x.len then .ok ⟨A.rows, fun i => ∑ j, A.val i j * x.val (Fin.cast h j)⟩
  else .error .valueError

/-- `a[rows]` with a list of row numbers (negative numbers count from the end) -/
def Mat.takeIdx (A : Mat K) (is : List ℤ) : PyM (Mat K) := do
  let rs ← is.mapM fun i => pyIdx A.rows i
  pure ⟨rs.length, A.cols, Matrix.of fun i j => A.val (rs.get i) j⟩

/-- `x[is]` for a 1-D array -/
def Vec.takeIdx (x : Vec K) (is : List ℤ) : PyM (Vec K) := do
  let rs ← is.mapM fun i => pyIdx x.len i
  pure ⟨rs.length, fun i => x.val (rs.get i)⟩

end DynCF
