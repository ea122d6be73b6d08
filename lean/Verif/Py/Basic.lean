/-
Python / numpy / pandas primitives used by the model: exceptions as values,
insertion-ordered dictionaries, `unique`, `np.unique`, slices.
-/
import Mathlib.Data.List.Basic
import Mathlib.Data.List.Nodup
import Mathlib.Data.List.Sort

namespace DynCF

/-- The Python exceptions the modelled code can raise. `outOfModel` marks inputs the
model deliberately refuses (documented at each use); no theorem treats it as success. -/
inductive PyErr
  | keyError | valueError | indexError | typeError | zeroDivisionError
  | runtimeError | notImplementedError | unboundLocalError | attributeError | fileNotFoundError | osError | outOfModel
  deriving DecidableEq, Repr

abbrev PyM (α : Type) := Except PyErr α

/-- Insertion-ordered dictionary (CPython `dict`). -/
abbrev Dict (α β : Type) := List (α × β)

namespace Dict
variable {α β : Type} [DecidableEq α]

/-- `d.get(k)`: the value stored for `k`, if any. -/
def get? : Dict α β → α → Option β
  | [], _ => none
  | (k', v) :: d, k => if k' = k then some v else get? d k

/-- `k in d`. -/
def contains (d : Dict α β) (k : α) : Bool := (get? d k).isSome

/-- `d[k]`: raises `KeyError` when `k` is missing. -/
def getItem (d : Dict α β) (k : α) : PyM β :=
  match get? d k with
  | some v => .ok v
  | none => .error .keyError

/-- `d[k] = v`: overwrite in place, or append at the end. -/
def set : Dict α β → α → β → Dict α β
  | [], k, v => [(k, v)]
  | (k', v') :: d, k, v => if k' = k then (k', v) :: d else (k', v') :: set d k v

/-- `d.update(e)`; also the meaning of a dict comprehension when `d = []`. -/
def update (d e : Dict α β) : Dict α β := e.foldl (fun d p => d.set p.1 p.2) d

/-- `d.keys()` / iteration order. -/
def keys (d : Dict α β) : List α := d.map Prod.fst

end Dict

/-- `pd.Series.unique()`: distinct values in order of first appearance. -/
def pdUnique {α : Type} [DecidableEq α] : List α → List α
  | [] => []
  | x :: xs => x :: (pdUnique xs).filter (fun y => y ≠ x)

/-- Any stable sort (`DataFrame.sort_values` with several keys, `groupby` keys, `np.unique`,
`sorted`): insertion sort, which places an element before the first later element it is `≤` to. -/
def stableSort {α : Type} (le : α → α → Bool) (l : List α) : List α :=
  l.insertionSort (fun a b => le a b = true)

/-- Boolean-mask indexing `a[mask]`. -/
def maskSelect {α : Type} : List α → List Bool → List α
  | a :: as, b :: bs => if b then a :: maskSelect as bs else maskSelect as bs
  | _, _ => []

/-- `a[-k:]` for `k : ℕ`: Python reads `-0` as `0`, so `k = 0` returns everything. -/
def sliceLast {α : Type} (a : List α) (k : ℕ) : List α :=
  if k = 0 then a else a.drop (a.length - k)

end DynCF
