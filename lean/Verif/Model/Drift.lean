/-
Model of `rel_norm` (source/general_functions.py:26-30) and of the embedding drift recorded by
the dynamical experiment (source/experiments/dynamical_experiment.py:114-144).
-/
import Verif.Py.Basic
import Mathlib.Analysis.Real.Sqrt
import Mathlib.Data.Matrix.Basic
import Mathlib.Algebra.BigOperators.Fin

namespace DynCF

/-- `np.linalg.norm(a, ord='fro')` -/
noncomputable def frob {m n : ℕ} (a : Matrix (Fin m) (Fin n) ℝ) : ℝ :=
  Real.sqrt (∑ i, ∑ j, a i j ^ 2)

open Classical in
/-- general_functions.py:26-30 `rel_norm`. With a zero denominator numpy does not raise but
returns inf or nan; the model refuses that case. -/
noncomputable def relNorm {m n : ℕ} (a b : Matrix (Fin m) (Fin n) ℝ) : PyM ℝ :=
  if frob a = 0 then .error .outOfModel else .ok (frob (a - b) / frob a)

/-- dynamical_experiment.py:119-122 (132-135, 123-126, 137-140): `_u = np.zeros(u2.shape);
_u[:u1.shape[0], :] = u1`. -/
def padRows {m k : ℕ} (n : ℕ) (u1 : Matrix (Fin m) (Fin k) ℝ) : Matrix (Fin n) (Fin k) ℝ :=
  Matrix.of fun i j => if h : i.1 < m then u1 ⟨i.1, h⟩ j else 0

/-- dynamical_experiment.py:118-127, 131-136: one recorded user drift value. When the new matrix
has fewer rows the subtraction raises `ValueError` (numpy would broadcast a single row; the model
refuses that case). Equal numbers of columns are built into the types. -/
noncomputable def userDrift {m n k : ℕ} (u1 : Matrix (Fin m) (Fin k) ℝ)
    (u2 : Matrix (Fin n) (Fin k) ℝ) : PyM ℝ :=
  if n < m then (if n = 1 then .error .outOfModel else .error .valueError)
  else relNorm (u2 - padRows n u1) u2

end DynCF
