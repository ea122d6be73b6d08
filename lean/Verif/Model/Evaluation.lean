/-
Model of source/evaluation.py and source/general_functions.py.
Floats are idealised as elements of a linearly ordered field `K`.
-/
import Verif.Py.Basic
import Mathlib.Algebra.Order.Field.Basic

namespace DynCF
variable {K : Type} [Field K] [LinearOrder K]

/-- `a / b` in Python or numba (default error model): raises on a zero divisor. -/
def pyDiv (a b : K) : PyM K := if b = 0 then .error .zeroDivisionError else .ok (a / b)

/-- The inner loop of evaluation.py:12-15: scan `enumerate(u_recs)`, add `1/(1+j)` at the first
match and `break`. -/
def mrrScan (testItem : ℤ) (total : K) : List (ℕ × ℤ) → K
  | [] => total
  | (j, r) :: rest => if r = testItem then total + 1 / (1 + (j : K)) else mrrScan testItem total rest

/-- `list(enumerate(l, start))` with natural counters. -/
def enumNat {α : Type} (start : ℕ) : List α → List (ℕ × α)
  | [] => []
  | x :: xs => (start, x) :: enumNat (start + 1) xs

/-- `for i in range(len(a)): acc = f acc a[i] b[i]` as compiled by numba: an index beyond `b` is
not checked at run time, and refused by the model. -/
def forIdx2 {α β γ : Type} (a : List α) (b : List β) (f : γ → α → β → PyM γ) (init : γ) : PyM γ :=
  (List.range a.length).foldlM (fun acc i =>
    match a[i]?, b[i]? with
    | some x, some y => f acc x y
    | _, _ => .error .outOfModel) init

/-- evaluation.py:7-16 `mrr`. A row index beyond `rec_array` is not checked by numba; the model
refuses it (`outOfModel`). -/
def mrr (recArray : List (List ℤ)) (testItems : List ℤ) : PyM K := do
  let total ← forIdx2 testItems recArray
    (fun (total : K) t r => .ok (mrrScan t total (enumNat 0 r))) 0
  pyDiv total (testItems.length : K)

/-- evaluation.py:19-26 `hr`; same remark on row indices. -/
def hr (recArray : List (List ℤ)) (testItems : List ℤ) : PyM K := do
  let total ← forIdx2 testItems recArray
    (fun (total : K) t r => .ok (if t ∈ r then total + 1 else total)) 0
  pyDiv total (testItems.length : K)

/-- evaluation.py:29-34 `wji`. -/
def wji (u v : List K) : PyM K := do
  let nd ← forIdx2 u v (fun (nd : K × K) a b => .ok (nd.1 + min a b, nd.2 + max a b)) (0, 0)
  pyDiv nd.1 nd.2

/-- `a[idx] = vals` with an index array: lengths must agree (`ValueError`); an index outside the
array is not checked by numba and refused by the model; later writes win. -/
def fancySet (a : List K) (idx : List ℤ) (vals : List K) : PyM (List K) :=
  if idx.length ≠ vals.length then .error .valueError
  else if idx.any (fun i => decide (i < 0 ∨ (a.length : ℤ) ≤ i)) then .error .outOfModel
  else .ok ((idx.zip vals).foldl (fun a p => a.set p.1.toNat p.2) a)

/-- `1 / np.arange(1, topn + 1)` (evaluation.py:42-43). -/
def recipRange (topn : ℕ) : List K := (List.range topn).map fun j : ℕ => 1 / ((j : K) + 1)

/-- evaluation.py:37-45 `wji_sim`; `topn` is the number of columns of `arr1`. -/
def wjiSim (arr1 arr2 : List (List ℤ)) (N : ℕ) : PyM K := do
  let topn := (arr1.headD []).length
  let total ← forIdx2 arr1 arr2 (fun (total : K) r1 r2 => do
    let bow1 ← fancySet (List.replicate N (0 : K)) r1 (recipRange topn)
    let bow2 ← fancySet (List.replicate N (0 : K)) r2 (recipRange topn)
    let w ← wji bow1 bow2
    pure (total + w)) 0
  pyDiv total (arr1.length : K)

/-- general_functions.py:11-24 `sliding_window`. `np.mean` of an empty window (`win_len = 0`)
is NaN with a warning; the model refuses it. -/
def slidingWindow (arr : List K) (winLen : ℕ) (mode : String) : PyM (List K) := do
  if arr.length < winLen then return arr
  let f : List K → PyM K ←
    if mode = "sum" then pure (fun l => .ok l.sum)
    else if mode = "mean" then
      pure (fun l => if l.length = 0 then .error .outOfModel else .ok (l.sum / (l.length : K)))
    else throw .notImplementedError
  (List.range (arr.length - winLen + 1)).mapM fun i => f ((arr.drop i).take winLen)

end DynCF
