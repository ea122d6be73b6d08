/-
Model of `/repo/source/matrix_operations.py`.
-/
import Verif.Model.TensorOps

namespace DynCF
variable {K : Type}

/-- The argument `s` of the error functions: a 1-D array of singular values or a 2-D array. -/
inductive SArg (K : Type)
  | vec (n : ℕ) (s : Fin n → K)
  | mat (s : Mat K)

section
variable [CommRing K]

/-- matrix_operations.py:14-28 `get_svd_element`; the loop runs over the columns of `u` (reading
`s`, `v_j` outside their size is `IndexError` here, unchecked in the compiled code). -/
def getSvdElement (i j : ℤ) (u : Mat K) {n : ℕ} (s : Fin n → K) (vt : Mat K) : PyM K := do
  let a ← u.row i
  let b ← vt.T.row j
  if h : u.cols ≤ n ∧ u.cols ≤ vt.rows then
    pure ((List.finRange u.cols).foldl (fun res r =>
      res + a r * s (Fin.castLE h.1 r) * b (Fin.castLE h.2 r)) 0)
  else throw .indexError

/-- matrix_operations.py:30-43 `get_mf_element` -/
def getMfElement (i j : ℤ) (u vt : Mat K) : PyM K := do
  let a ← u.row i
  let b ← vt.T.row j
  if h : u.cols ≤ vt.rows then
    pure ((List.finRange u.cols).foldl (fun res r => res + a r * b (Fin.castLE h r)) 0)
  else throw .indexError

end

/-- matrix_operations.py:45-64 `_sqrt_err`: `s.ndim == 2` multiplies `s` into `vt` first. -/
noncomputable def mtxSqrtErr (inds : List (ℤ × ℤ)) (vals : List ℝ) (u : Mat ℝ) (s : SArg ℝ)
    (vt : Mat ℝ) : PyM ℝ := do
  let es ← if inds.length ≤ vals.length then .ok (inds.zip vals) else .error .indexError
  match s with
  | .mat s => do
    let vt' ← s.dot vt
    let r ← es.foldlM (fun acc e => do
      let x ← getMfElement e.1.1 e.1.2 u vt'
      pure (acc + (e.2 - x) ^ 2)) 0
    pure (Real.sqrt r)
  | .vec _ s => do
    let r ← es.foldlM (fun acc e => do
      let x ← getSvdElement e.1.1 e.1.2 u s vt
      pure (acc + (e.2 - x) ^ 2)) 0
    pure (Real.sqrt r)

/-- matrix_operations.py:66-75 `sqrt_err_relative` -/
noncomputable def mtxSqrtErrRelative (inds : List (ℤ × ℤ)) (vals : List ℝ) (u : Mat ℝ) (s : SArg ℝ)
    (vt : Mat ℝ) : PyM ℝ := do
  let r ← mtxSqrtErr inds vals u s vt
  pure (r / Real.sqrt ((vals.map (· ^ 2)).sum + EPS))

/-- matrix_operations.py:141-142 `_mean_square`; the mean of an empty array (NaN with a warning) is
not modelled. -/
noncomputable def meanSquare (a : Mat ℝ) : PyM ℝ :=
  if a.rows * a.cols = 0 then .error .outOfModel
  else .ok ((∑ i, ∑ j, a.val i j ^ 2) / ((a.rows * a.cols : ℕ) : ℝ))

/-- matrix_operations.py:144-151 `sqrt_err_relative_mtx` -/
noncomputable def sqrtErrRelativeMtx (a b : Mat ℝ) : PyM ℝ := do
  let error ← a.sub b
  let msError ← meanSquare error
  let denom ← meanSquare b
  pure (Real.sqrt (msError / (denom + EPS)))

end DynCF
