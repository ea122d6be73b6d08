/-
Model of `/repo/source/experiments/prepare_data.py`. Day labels (ISO strings in the CSV file, whose
lexicographic order is their time order) are integers.
-/
import Verif.Model.DataPreparation
import Mathlib.Algebra.Order.Floor.Ring
import Mathlib.Algebra.Order.Field.Basic

namespace DynCF
variable {K : Type}

/-- A row of the CSV file with its index label (`index_col=[0]`). -/
structure IRow (K : Type) where
  idx : ℤ
  row : Row K
  deriving DecidableEq

/-- `int(x)` of a float: truncation towards zero. -/
def pyInt [Field K] [LinearOrder K] [FloorRing K] (x : K) : ℤ := if 0 ≤ x then ⌊x⌋ else ⌈x⌉

/-- The keys of `df.groupby(DATE_DAYS)`: ascending. -/
def groupDays (df : List (Row K)) : List ℤ :=
  stableSort (fun a b => decide (a ≤ b)) (pdUnique (df.map Row.day))

/-- Iterating over `df.groupby(DATE_DAYS)`: keys ascending, rows in table order. -/
def groupByDay (df : List (Row K)) : List (ℤ × List (Row K)) :=
  (groupDays df).map fun d => (d, df.filter fun r => decide (r.day = d))

/-- `df.groupby(DATE_DAYS)[USER_ID].count()` as (day, count) pairs (prepare_data.py:44). -/
def dayCounts (df : List (Row K)) : List (ℤ × ℕ) :=
  (groupByDay df).map fun g => (g.1, g.2.length)

/-- The variables of the loop prepare_data.py:12-28 that survive an iteration. -/
structure GroupSt where
  newStart : Bool
  localSum : ℤ
  groupN : ℤ
  dict : Dict ℤ ℤ

/-- The loop body prepare_data.py:16-28 for `i, (d, v)`. `days` is `date_user_count.index`.
`np.sort(days)[i-1]` wraps around for `i = 0`; the index cannot be out of range. -/
def groupBody (days : List ℤ) (hm : ℤ) (i : ℕ) (d : ℤ) (v : ℕ) (st : GroupSt) : GroupSt :=
  let localSum := if st.newStart then (v : ℤ) else st.localSum + v
  let groupN := if st.newStart then d else st.groupN
  let newStart := decide (localSum > hm)
  let dict := st.dict.set d groupN
  let sorted := stableSort (fun a b => decide (a ≤ b)) days
  let prev := if i = 0 then sorted.getLastD d else sorted.getD (i - 1) d
  let dict := if i + 1 = days.length ∧ localSum ≤ hm then dict.set d prev else dict
  ⟨newStart, localSum, groupN, dict⟩

/-- The loop prepare_data.py:16-28. -/
def groupLoop (days : List ℤ) (hm : ℤ) : ℕ → List (ℤ × ℕ) → GroupSt → GroupSt
  | _, [], st => st
  | i, (d, v) :: rest, st => groupLoop days hm (i + 1) rest (groupBody days hm i d v st)

/-- prepare_data.py:11-29 `get_date_to_group_mapping`. -/
def getDateToGroupMapping (counts : List (ℤ × ℕ)) (hm : ℤ) : Dict ℤ ℤ :=
  (groupLoop (counts.map Prod.fst) hm 0 counts ⟨true, 0, 0, []⟩).dict

/-- prepare_data.py:31-49 `prepare_data_for_experiment` on the table read from the file:
`initial_data`, the stream as (key, rows) groups and `left_data`. `sortDay` is
`sort_values(by=DATE_DAYS)`, a single-key sort that numpy does not guarantee to be stable. -/
def prepareDataForExperiment [Field K] [LinearOrder K] [FloorRing K]
    (sortDay : List (Row K) → List (Row K)) (data : List (IRow K)) (ratio : K) (hm : Option ℤ) :
    PyM (List (Row K) × List (ℤ × List (Row K)) × List (Row K)) :=
  let bound := pyInt ((data.length : K) * ratio)
  let initial := (data.filter fun r => decide (r.idx < bound)).map IRow.row
  let left := (data.filter fun r => !decide (r.idx < bound)).map IRow.row
  match hm with
  | none => .ok (initial, groupByDay left, left)
  | some m => do
    let left := sortDay left
    let g := getDateToGroupMapping (dayCounts left) m
    let left ← left.mapM fun r => do
      let k ← g.getItem r.day
      pure { r with day := k }
    pure (initial, groupByDay left, left)

/-- `a[:k]` -/
def sliceTo {α : Type} (a : List α) (k : ℤ) : List α :=
  if 0 ≤ k then a.take k.toNat else a.take (a.length - (-k).toNat)

/-- prepare_data.py:51-62 `get_users_stability`. `sortCnt` is the single-key `sort_values()` of the
per-user numbers of days. -/
def getUsersStability (sortCnt : List (ℤ × ℕ) → List (ℤ × ℕ)) (initial left : List (Row K))
    (hm : ℤ) : List ℤ :=
  let days := sliceTo (groupDays left) hm
  let users := pdUnique (initial.map Row.user)
  let sel := left.filter fun r => decide (r.day ∈ days) && decide (r.user ∈ users)
  let keys := stableSort (fun a b => decide (a ≤ b)) (pdUnique (sel.map Row.user))
  let counts := keys.map fun u =>
    (u, (pdUnique ((sel.filter fun r => decide (r.user = u)).map Row.day)).length)
  let sorted := sortCnt counts
  (sorted.drop (sorted.length - 50)).map Prod.fst

/-- Rounding to the nearest integer, halves to the even one (`interpolation='nearest'`). -/
def roundHalfEven [Field K] [LinearOrder K] [FloorRing K] (x : K) : ℤ :=
  if x - ⌊x⌋ < 1 / 2 then ⌊x⌋
  else if x - ⌊x⌋ = 1 / 2 ∧ ⌊x⌋ % 2 = 0 then ⌊x⌋ else ⌊x⌋ + 1

/-- prepare_data.py:64-69 `train_test_split`. `stamp` is
`datetime.fromisoformat(x).timestamp()`. A quantile outside [0, 1] raises `ValueError`; an empty
table is refused by the model (its quantile is not a number). -/
def trainTestSplit [Field K] [LinearOrder K] [FloorRing K] (stamp : ℤ → K) (data : List (Row K))
    (q : K) : PyM (List (Row K) × List (Row K)) :=
  if q < 0 ∨ 1 < q then .error .valueError
  else if data.isEmpty then .error .outOfModel
  else
    let dd := data.map fun r => stamp r.day
    let sorted := stableSort (fun a b => decide (a ≤ b)) dd
    let i := roundHalfEven (((data.length : K) - 1) * q)
    match sorted[i.toNat]? with
    | none => .error .indexError
    | some t => .ok (data.filter fun r => !decide (t ≤ stamp r.day),
        data.filter fun r => decide (t ≤ stamp r.day))

end DynCF
