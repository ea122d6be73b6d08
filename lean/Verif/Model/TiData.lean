/-
Model of `/repo/source/ti_data_processing.py`.
-/
import Verif.Model.DataPreparation

namespace DynCF

/-- `collections.deque` with a maximal length; `items` oldest first. -/
structure Deque where
  maxlen : ℕ
  items : List ℤ
  deriving DecidableEq, Repr

/-- `deque.append`: drop from the left when longer than `maxlen`. -/
def Deque.append (d : Deque) (x : ℤ) : Deque :=
  { d with items := (d.items ++ [x]).drop ((d.items ++ [x]).length - d.maxlen) }

/-- `dict[int, deque[int]]`. -/
abbrev SeqHist := Dict ℤ Deque

/-- An element of `new_interactions`: (user, item, position). -/
structure Inter where
  user : ℤ
  item : ℤ
  pos : ℤ
  deriving DecidableEq, Repr

/-- Body of the loop at ti_data_processing.py:35-38. The lookup `user_seq_history[user]`
cannot fail because the key has just been ensured. -/
def updateUserSeqHistoryStep (L : ℕ) (h : SeqHist) (t : Inter) : SeqHist :=
  let h1 := if h.contains t.user then h else h.set t.user ⟨L, List.replicate L PAD⟩
  match h1.get? t.user with
  | some d => h1.set t.user (d.append t.item)
  | none => h1

/-- ti_data_processing.py:13-38 `update_user_seq_history` (in-place update returned). -/
def updateUserSeqHistory (new : List Inter) (h : SeqHist) (L : ℕ) : SeqHist :=
  new.foldl (updateUserSeqHistoryStep L) h

/-- One entry of the COO tensor built by `calculate_delta`: `inds` row and `vals` element. -/
structure DRow where
  user : ℤ
  item : ℤ
  pos : ℤ
  val : ℤ
  deriving DecidableEq, Repr

/-- ti_data_processing.py:65-68: entries of a user absent from the old history. -/
def deltaNewUser (u : ℤ) (new : List ℤ) : List DRow :=
  (pyEnumerate new 0).flatMap fun p =>
    if p.2 ≠ PAD then [⟨u, p.2, p.1, 1⟩] else []

/-- ti_data_processing.py:70-79: entries of a user present in both histories
(`zip` stops at the shorter one). -/
def deltaOldUser (u : ℤ) (new old : List ℤ) : List DRow :=
  (pyEnumerate (new.zip old) 0).flatMap fun p =>
    if p.2.1 ≠ p.2.2 then
      (if p.2.1 ≠ PAD then [⟨u, p.2.1, p.1, 1⟩] else []) ++
      (if p.2.2 ≠ PAD then [⟨u, p.2.2, p.1, -1⟩] else [])
    else []

/-- ti_data_processing.py:40-80 `calculate_delta`; `inds` and `vals` are returned as one list
of entries in the same order. -/
def calculateDelta (new : SeqHist) (old : Dict ℤ (List ℤ)) : List DRow :=
  new.keys.flatMap fun u =>
    match new.get? u with
    | none => []
    | some d =>
      match old.get? u with
      | none => deltaNewUser u d.items
      | some o => deltaOldUser u d.items o

/-- `{u: list(v) for u, v in self.seq_history.items()}` (models/tirec.py:164). -/
def snapshot (h : SeqHist) : Dict ℤ (List ℤ) := h.map fun p => (p.1, p.2.items)

/-- A table row with its `position` column. -/
structure PRow (K : Type) where
  row : Row K
  pos : ℤ
  deriving DecidableEq, Repr

variable {K : Type}

/-- ti_data_processing.py:82-90 `add_order_cropped`. In the `else` branch the assignment
`order_values[-max_len:] = np.arange(max_len)` has, for `max_len = 0`, the whole
(non-empty) array as target and an empty source: numpy raises `ValueError`. -/
def addOrderCropped (x : List (Row K)) (maxLen : ℕ) : PyM (List (PRow K)) :=
  if maxLen ≥ x.length then
    .ok ((x.zip (List.range x.length)).map fun p => ⟨p.1, (p.2 : ℤ)⟩)
  else
    let start := if maxLen = 0 then 0 else x.length - maxLen
    if x.length - start = maxLen then
      let order : List ℤ := List.replicate start PAD ++ (List.range maxLen).map (fun i : ℕ => (i : ℤ))
      .ok ((x.zip order).map fun p => ⟨p.1, p.2⟩)
    else .error .valueError

/-- `df.sort_values(by=[USER_ID, TIMESTAMP])` (ti_data_processing.py:99): lexicographic and,
having two keys, stable. -/
def sortUserTs (df : List (Row K)) : List (Row K) :=
  stableSort (fun a b => decide (a.user < b.user ∨ (a.user = b.user ∧ a.ts ≤ b.ts))) df

/-- The keys of `df.groupby(USER_ID)`: ascending. -/
def groupUsers (df : List (Row K)) : List ℤ :=
  stableSort (fun a b => decide (a ≤ b)) (pdUnique (df.map Row.user))

/-- ti_data_processing.py:92-106 `get_df_with_cropped_pos_column`. On an empty table (without a
`position` column, as at every call site) `groupby.apply` never calls `add_order_cropped`, so
the column is missing and line 106 raises `KeyError`. -/
def getDfWithCroppedPos (df : List (Row K)) (L : ℕ) (sortBool : Bool) : PyM (List (PRow K)) := do
  if df.isEmpty then throw .keyError
  let df' := if sortBool then sortUserTs df else df
  let groups ← (groupUsers df').mapM fun u =>
    addOrderCropped (df'.filter fun r => decide (r.user = u)) L
  pure (groups.flatten.filter fun r => decide (r.pos ≠ PAD))

end DynCF
