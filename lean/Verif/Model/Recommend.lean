/-
Model of the `recommend` methods: source/models/svd.py:64-103, source/models/tdrec.py:236-309,
source/models/random_rec.py:30-74 (PSI inherits SVD's, TIRec/TIRecA/TDRecRe inherit or share
TDRec's). The three methods have the same body up to the order of two statements.
-/
import Verif.Model.DataPreparation
import Verif.Model.Evaluation

namespace DynCF
variable {K : Type}

/-- The part of a trained model that `recommend` reads: numbers of user and item factor rows, the
id mappings and the (row, column) history arrays, zipped. -/
structure RecView where
  nUsers : ℕ
  nItems : ℕ
  maps : Mappings
  history : List (ℤ × ℤ)

/-- `_raw_history_to_csr` (svd.py:64-72, tdrec.py:236-250, random_rec.py:30-38) through
`coo_matrix` (matrix_operations.py:76-84): scipy raises `ValueError` for an index outside
the shape. Entries of equal coordinates are summed by `tocsr`, so the value stored at a cell is
the number of its occurrences. -/
def historyCsr (v : RecView) : PyM (ℤ → ℤ → ℕ) :=
  if v.history.all fun p => decide (0 ≤ p.1 ∧ p.1 < v.nUsers ∧ 0 ≤ p.2 ∧ p.2 < v.nItems)
  then .ok fun u i => v.history.countP fun p => decide (p = (u, i))
  else .error .valueError

/-- `preferences[user_ind].A.squeeze().astype(bool)`. With a single item `squeeze` gives a 0-d array: see
`singleItemRow`. -/
def viewedMask (v : RecView) (pref : ℤ → ℤ → ℕ) (u : ℤ) : PyM (List Bool) :=
  if 0 ≤ u ∧ u < v.nUsers then
    .ok ((List.range v.nItems).map fun i : ℕ => decide (pref u (i : ℤ) ≠ 0))
  else .error .indexError

/-- `np.argpartition(a, -k)`, a parameter of the model: `argp a k` lists the indices. -/
abbrev ArgPart (K : Type) := List K → ℕ → List ℕ

/-- `np.argpartition(a, -k)` for `k ≥ 1`: `ValueError` when `kth = -k` is out of bounds. (An empty `a` is not
checked by numpy and gives an empty result; the assignment to `results[i]` then raises the same error.) -/
def argPartition (argp : ArgPart K) (a : List K) (k : ℕ) : PyM (List ℕ) :=
  if k ≤ a.length then .ok (argp a k) else .error .valueError

/-- `a[j]` for a natural index. -/
def npIndex {α : Type} (a : List α) (j : ℕ) : PyM α :=
  match a[j]? with
  | some x => .ok x
  | none => .error .indexError

/-- svd.py:93-98 = tdrec.py:299-304 = random_rec.py:64-69: the candidate items (internal
indices) of one user, for `k ≥ 1`. -/
def candidateItems (argp : ArgPart K) (v : RecView) (pref : ℤ → ℤ → ℕ) (rec : List K) (k : ℕ)
    (filterViewed : Bool) (u : ℤ) : PyM (List ℤ) :=
  if filterViewed then do
    let mask ← viewedMask v pref u
    let free := mask.map fun b => !b
    if rec.length ≠ mask.length then .error .indexError
    else do
      let part ← argPartition argp (maskSelect rec free) k
      ((sliceLast part k).reverse).mapM fun j =>
        npIndex (maskSelect ((List.range v.nItems).map fun i : ℕ => (i : ℤ)) free) j
  else do
    let part ← argPartition argp rec k
    pure ((sliceLast part k).reverse.map fun j : ℕ => (j : ℤ))

/-- The same lines for `k = 0`: the slice `[-0:]` selects everything, so all items (all that are not viewed) are
candidates. Their order is chosen by `argpartition` and does not matter below. -/
def allCandidates (v : RecView) (pref : ℤ → ℤ → ℕ) (rec : List K) (filterViewed : Bool) (u : ℤ) :
    PyM (List ℤ) :=
  if filterViewed then do
    let mask ← viewedMask v pref u
    if rec.length ≠ mask.length then .error .indexError
    else pure (maskSelect ((List.range v.nItems).map fun i : ℕ => (i : ℤ)) (mask.map fun b => !b))
  else pure ((List.range rec.length).map fun i : ℕ => (i : ℤ))

/-- svd.py:99-102: the candidates as they are or under their external ids -/
def showItems (v : RecView) (internal : Bool) (cand : List ℤ) : PyM (List ℤ) :=
  if internal then pure cand else cand.mapM fun j => v.maps.item.new2old.getItem j

/-- svd.py:92-102 for `k = 0`: all candidates are assigned to the empty row `results[i]`. numpy accepts this if there
is none, or a single one (broadcast to no elements), and raises `ValueError` otherwise. -/
def zeroRow (v : RecView) (pref : ℤ → ℤ → ℕ) (rec : List K) (filterViewed internal : Bool) (u : ℤ) :
    PyM (List ℤ) := do
  let cand ← allCandidates v pref rec filterViewed u
  let row ← showItems v internal cand
  if row.length ≤ 1 then .ok [] else .error .valueError

/-- svd.py:92-102 with filtering and a catalogue of one item. The mask is 0-d, so `rec[~mask]` and
`items_array[~mask]` have the shapes (1, 1), or (0, 1) if the item is viewed, and `candidate_items` the shape (1, 1, 1)
or (0, 1, 1). Not viewed: stored as the item 0 by `internal`; otherwise a (1, 1) array is looked up in a dictionary, a
`TypeError`. Viewed: three axes without elements do not fit into `results[i]`; without `internal` the list is empty and
fits only into a row of length 0. `rec` must have one score. -/
def singleItemRow (v : RecView) (pref : ℤ → ℤ → ℕ) (rec : List K) (k : ℕ) (internal : Bool) (u : ℤ) :
    PyM (List ℤ) :=
  if rec.length ≠ 1 then .error .outOfModel
  else do
    let mask ← viewedMask v pref u
    if mask.all fun b => !b then
      if internal then .ok (List.replicate k 0) else .error .typeError
    else if internal then .error .valueError
    else if k = 0 then .ok [] else .error .valueError

/-- Body of the loop svd.py:92-102 = tdrec.py:298-308 = random_rec.py:63-73 for one user. -/
def recommendRow (argp : ArgPart K) (v : RecView) (pref : ℤ → ℤ → ℕ) (rec : List K) (k : ℕ)
    (filterViewed internal : Bool) (u : ℤ) : PyM (List ℤ) :=
  if filterViewed = true ∧ v.nItems = 1 then singleItemRow v pref rec k internal u
  else if k = 0 then zeroRow v pref rec filterViewed internal u
  else do
    let cand ← candidateItems argp v pref rec k filterViewed u
    if internal then pure cand else cand.mapM fun j => v.maps.item.new2old.getItem j

/-- svd.py:77-103 / random_rec.py:49-74 (`usersFirst = true`: users are mapped before the history
matrix is built) and tdrec.py:266-309 (`usersFirst = false`). `score i u` is what
`_recommend_user` returns for the `i`-th requested user with internal index `u`. -/
def recommend (usersFirst : Bool) (argp : ArgPart K) (v : RecView)
    (score : ℕ → ℤ → PyM (List K)) (users : List ℤ) (k : ℕ) (filterViewed internal : Bool) :
    PyM (List (List ℤ)) := do
  let getPref : PyM (ℤ → ℤ → ℕ) := if filterViewed then historyCsr v else pure (fun _ _ => 0)
  let getUsers : PyM (List ℤ) := users.mapM fun u => v.maps.user.old2new.getItem u
  let k' := min k v.nItems
  let (mapped, pref) ←
    if usersFirst then do
      let m ← getUsers
      let p ← getPref
      pure (m, p)
    else do
      let p ← getPref
      let m ← getUsers
      pure (m, p)
  (enumNat 0 mapped).mapM fun iu => do
    let rec ← score iu.1 iu.2
    recommendRow argp v pref rec k' filterViewed internal iu.2

end DynCF
