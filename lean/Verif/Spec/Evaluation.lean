/- Specifications of the evaluation metrics, independent of the model. -/
import Mathlib.Data.List.Basic
import Mathlib.Algebra.Order.Field.Basic
import Mathlib.Algebra.BigOperators.Group.List.Basic

namespace DynCF
variable {K : Type} [Field K] [LinearOrder K]

/-- arithmetic mean -/
def mean (l : List K) : K := l.sum / (l.length : K)

/-- 1 for a hit, 0 for a miss -/
def hit (row : List ℤ) (item : ℤ) : K := if item ∈ row then 1 else 0

/-- reciprocal of the 1-based rank of `item` in `row`, 0 if it is absent -/
def reciprocalRank (row : List ℤ) (item : ℤ) : K :=
  if item ∈ row then 1 / ((row.idxOf item : K) + 1) else 0

/-- weighted Jaccard index of two ranked lists over the catalogue `0..N-1`, an item weighing the
reciprocal of its rank -/
def rankJaccard (N : ℕ) (a b : List ℤ) : K :=
  ((List.range N).map fun x : ℕ => min (reciprocalRank a x) (reciprocalRank b x)).sum /
  ((List.range N).map fun x : ℕ => max (reciprocalRank a x) (reciprocalRank b x : K)).sum

/-- an array of recommendations: every row has `k ≥ 1` distinct items of the catalogue `0..N-1` -/
def IsRecArray (N k : ℕ) (arr : List (List ℤ)) : Prop :=
  1 ≤ k ∧ ∀ r ∈ arr, r.length = k ∧ r.Nodup ∧ ∀ x ∈ r, 0 ≤ x ∧ x < (N : ℤ)

end DynCF
