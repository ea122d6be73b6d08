/-
Model of `pcore_filter` (`/repo/load_data.py`) and `encode_column` (`/repo/prepare_data.py`).
-/
import Verif.Py.Basic

namespace DynCF

/-! ### `pcore_filter` -/

/-- `data[key].value_counts()`: the distinct values with their numbers of rows (the order of the
pairs is immaterial here). -/
def valueCounts {α : Type} (key : α → ℤ) (data : List α) : List (ℤ × ℕ) :=
  (pdUnique (data.map key)).map fun k => (k, (data.filter fun r => decide (key r = k)).length)

/-- load_data.py:79-85 and 87-93, one column: the table and whether nothing had to be removed. -/
def pcoreCheck {α : Type} (key : α → ℤ) (p : ℤ) (data : List α) : List α × Bool :=
  let valid := valueCounts key data
  if valid.all (fun c => decide (p ≤ c.2)) then (data, true)
  else
    let keep := (valid.filter fun c => decide (p ≤ c.2)).map Prod.fst
    (data.filter (fun r => decide (key r ∈ keep)), false)

/-- load_data.py:77-97 `pcore_filter`, at most `fuel` rounds of the `while` loop; `none` means that
the loop is still running then. `user`, `item` read the columns `userid`, `itemid`. -/
def pcoreFilter {α : Type} (user item : α → ℤ) (p : ℤ) : ℕ → List α → Option (List α)
  | 0, data => if p = 0 then some data else none
  | fuel + 1, data =>
    if p = 0 then some data
    else
      let a := pcoreCheck item p data
      let b := pcoreCheck user p a.1
      if b.2 && a.2 then some b.1 else pcoreFilter user item p fuel b.1

/-! ### `encode_column` -/

/-- A column of a table: raw values (`none` = missing) or integer codes. -/
inductive Column (V : Type) where
  | raw (vals : List (Option V))
  | codes (vals : List ℤ)
  deriving DecidableEq

/-- `pd.Categorical(col).codes`: the position of the value among the sorted distinct values, -1 for
a missing value. -/
def categoricalCodes {V : Type} [LinearOrder V] (col : List (Option V)) : List ℤ :=
  let cats := stableSort (fun a b => decide (a ≤ b)) (pdUnique (col.filterMap id))
  col.map fun
    | none => -1
    | some v => (cats.idxOf v : ℤ)

/-- prepare_data.py:30-36 `encode_column`. A table is the list of its named columns; `assign`
appends `_temp` (replacing a column of that name), `drop` removes `name`, `rename` renames. -/
def encodeColumn {V : Type} [LinearOrder V] (data : List (String × Column V)) (name : String) :
    PyM (List (String × Column V)) :=
  match data.find? (fun c => decide (c.1 = name)) with
  | none => .error .keyError
  | some c =>
    let codes : Column V := match c.2 with
      | .raw vals => .codes (categoricalCodes vals)
      | .codes vals => .codes (categoricalCodes (vals.map some))
    let assigned := if (data.find? (fun c => decide (c.1 = "_temp"))).isSome
      then data.map (fun c => if c.1 = "_temp" then (c.1, codes) else c)
      else data ++ [("_temp", codes)]
    let dropped := assigned.filter fun c => !decide (c.1 = name)
    .ok (dropped.map fun c => if c.1 = "_temp" then (name, c.2) else c)

end DynCF
