/-
Model of `/repo/source/hosvd.py`.
-/
import Verif.Model.Hooi

namespace DynCF
variable {K : Type}

/-- a row of `inds` as an array of three columns -/
def Ind3.vec (c : Ind3) : Fin 3 → ℤ := ![c.1, c.2.1, c.2.2]

/-- hosvd.py:69-75: `svds(x_n, k=rank, return_singular_vectors='u')[0]` with the columns reversed. ARPACK
needs `1 ≤ k < min(shape)`, otherwise scipy raises `ValueError`. -/
def svdsLeft (la : LinAlg K) (x : Mat K) (k : ℕ) : PyM (Mat K) :=
  if 1 ≤ k ∧ k < min x.rows x.cols then .ok (Mat.revCols ⟨_, _, (la.svds k x.val).1⟩)
  else .error .valueError

section
variable [CommRing K]

/-- hosvd.py:66-75: one mode of `hosvd` -/
def hosvdMode (la : LinAlg K) (inds : List Ind3) (vals : List K) (shape rank : ℕ × ℕ × ℕ) (mode : ℕ) :
    PyM (Mat K) := do
  let x ← unfoldSparse (inds.map Ind3.vec) vals shape (mode : ℤ)
  svdsLeft la x (shapeAt rank mode)

/-- hosvd.py:22-78 `hosvd`. The random initial factors are all overwritten. -/
def hosvd (la : LinAlg K) (inds : List Ind3) (vals : List K) (shape rank : ℕ × ℕ × ℕ) (parallel : Bool) :
    PyM (Fac K × Ten K) := do
  checkParams (tri shape) (triZ rank)
  let f0 ← hosvdMode la inds vals shape rank 0
  let f1 ← hosvdMode la inds vals shape rank 1
  let f2 ← hosvdMode la inds vals shape rank 2
  let core ← coreFunction parallel inds vals f0 f1 f2
  pure (⟨f0, f1, f2⟩, core)

/-- the dimensions of a 3-way array -/
def Ten.shape (x : Ten K) : ℕ × ℕ × ℕ := (x.d0, x.d1, x.d2)

/-- hosvd.py:121-132: one mode of `hosvd_dense` -/
def hosvdDenseMode (la : LinAlg K) (rng : ℕ → Rng K) (x : Ten K) (rank : ℕ × ℕ × ℕ) (nPower os mode : ℕ) :
    PyM (Mat K) := do
  let xn ← unfoldDense x (mode : ℤ)
  pure (randomSvd la (rng mode) xn.T (shapeAt rank mode) nPower os).2.2.T.revCols

/-- hosvd.py:80-135 `hosvd_dense`. The random initial factors are all overwritten. `rng mode` is the
sketch drawn for `mode` (equal for all modes when a seed is given). -/
def hosvdDense (la : LinAlg K) (rng : ℕ → Rng K) (x : Ten K) (rank : ℕ × ℕ × ℕ) (nPower os : ℕ) :
    PyM (Fac K × Ten K) := do
  checkParams (tri x.shape) (triZ rank)
  let f0 ← hosvdDenseMode la rng x rank nPower os 0
  let f1 ← hosvdDenseMode la rng x rank nPower os 1
  let f2 ← hosvdDenseMode la rng x rank nPower os 2
  let core ← constructCoreDense x f0 f1 f2
  pure (⟨f0, f1, f2⟩, core)

/-- hosvd.py:155-167: one mode of `tucker2_dense` -/
def tucker2DenseMode (la : LinAlg K) (rng : ℕ → Rng K) (x : Ten K) (rank : ℕ × ℕ × ℕ) (nPower os mode : ℕ) :
    PyM (Mat K) := do
  let xn ← unfoldDense x (mode : ℤ)
  let ok ← tuckerRankIsValid (triZ rank)
  pure (if ok then (randomSvd la (rng mode) xn.T (shapeAt rank mode) nPower os).2.2.T.revCols
    else (Mat.mk _ _ (la.svdFull xn.T.val).2.2).T.revCols)

/-- hosvd.py:148-167: the factor of one mode, the identity for the identity mode -/
def tucker2DenseFactor (la : LinAlg K) (rng : ℕ → Rng K) (x : Ten K) (rank : ℕ × ℕ × ℕ) (im nPower os mode : ℕ) :
    PyM (Mat K) :=
  if mode = im then .ok (Mat.eye (shapeAt rank im)) else tucker2DenseMode la rng x rank nPower os mode

/-- hosvd.py:137-171 `tucker2_dense`; an identity mode other than 0, 1, 2 is refused. -/
def tucker2Dense (la : LinAlg K) (rng : ℕ → Rng K) (x : Ten K) (rank : ℕ × ℕ × ℕ) (im nPower os : ℕ) :
    PyM (Mat K × Mat K × Ten K) :=
  if im > 2 then .error .outOfModel
  else do
    let f0 ← tucker2DenseFactor la rng x rank im nPower os 0
    let f1 ← tucker2DenseFactor la rng x rank im nPower os 1
    let f2 ← tucker2DenseFactor la rng x rank im nPower os 2
    let core ← constructCoreDense x f0 f1 f2
    pure (if im = 0 then f1 else f0, if im = 2 then f1 else f2, core)

end

end DynCF
