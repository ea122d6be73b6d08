/- Model of `split_matrix` (`/repo/source/matrix_operations.py:106-139`). -/
import Verif.Py.Array
import Verif.Model.ExperimentData

namespace DynCF
variable {K : Type}

/-- A bound of a Python slice of a sequence of length `n`: negative values count from the end,
values outside are clipped. -/
def clipBound (n : ℕ) (i : ℤ) : ℕ := if i < 0 then (i + n).toNat else min i.toNat n

theorem clipBound_le (n : ℕ) (i : ℤ) : clipBound n i ≤ n := by
  unfold clipBound
  split <;> omega

/-- `mtx[st:end]` -/
def Mat.rowSlice (A : Mat K) (st en : ℤ) : Mat K :=
  ⟨clipBound A.rows en - clipBound A.rows st, A.cols, Matrix.of fun i j =>
    A.val ⟨clipBound A.rows st + i, by
      have := i.isLt
      have := clipBound_le A.rows en
      omega⟩ j⟩

/-- `np.arange(start, stop, step)` of integers: `ceil((stop - start) / step)` values; a zero step
raises `ZeroDivisionError`. -/
def npArange (start stop step : ℤ) : PyM (List ℤ) :=
  if step = 0 then .error .zeroDivisionError
  else .ok ((List.range (-(Int.fdiv (start - stop) step)).toNat).map fun (k : ℕ) => start + k * step)

/-- `np.array_split(mtx, idx, axis=0)`: `mtx[st:end]` for neighbouring points of `[0] + idx + [n]` -/
def arraySplitRows (A : Mat K) (idx : List ℤ) : List (Mat K) :=
  List.zipWith A.rowSlice (0 :: idx) (idx ++ [(A.rows : ℤ)])

/-- matrix_operations.py:106-139 along the first axis -/
def splitRows [Field K] [LinearOrder K] [FloorRing K] (A : Mat K)
    (ratioFirst ratioNext : K) : PyM (List (Mat K)) := do
  let indFirst := pyInt ((A.rows : K) * ratioFirst)
  let step := pyInt ((((A.rows : ℤ) - indFirst : ℤ) : K) * ratioNext)
  let idx ← npArange indFirst A.rows step
  pure (arraySplitRows A idx)

/-- matrix_operations.py:106-139 `split_matrix`; along the second axis `array_split` swaps the axes
of the matrix and of the blocks. Another axis is out of range for `mtx.shape`. -/
def splitMatrix [Field K] [LinearOrder K] [FloorRing K] (A : Mat K)
    (ratioFirst ratioNext : K) (axis : ℤ) : PyM (List (Mat K)) :=
  if axis = 0 ∨ axis = -2 then splitRows A ratioFirst ratioNext
  else if axis = 1 ∨ axis = -1 then do
    let l ← splitRows A.T ratioFirst ratioNext
    pure (l.map Mat.T)
  else .error .indexError

end DynCF
