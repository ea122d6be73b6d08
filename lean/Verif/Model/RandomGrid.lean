/- Model of `/repo/source/random_grid.py`. -/
import Verif.Py.Basic
import Mathlib.Data.Finset.Card

namespace DynCF
variable {α : Type} [DecidableEq α]

/-- Outcome of the search: the set returned when the loop condition fails, or the set returned
after an interruption by the user (`KeyboardInterrupt`). -/
inductive GridOut (α : Type) where
  | completed (grid : Finset (List α))
  | interrupted (grid : Finset (List α))

/-- The returned set. -/
def GridOut.grid : GridOut α → Finset (List α)
  | .completed g => g
  | .interrupted g => g

/-- The loop random_grid.py:62-72. `draws` are the configurations chosen in successive iterations
(each a list with one value per parameter); after the last one the user interrupts the search.
An interruption inside an iteration leaves the same sets as one before it. -/
def gridLoop (skip : List α → Bool) (n : ℤ) :
    List (List α) → Finset (List α) → Finset (List α) → GridOut α
  | draws, grid, skipped =>
    if (grid.card : ℤ) < n - skipped.card then
      match draws with
      | [] => .interrupted grid
      | c :: draws =>
        if skip c then gridLoop skip n draws grid (insert c skipped)
        else gridLoop skip n draws (insert c grid) skipped
    else .completed grid

/-- `max_n` of random_grid.py:53 -/
def maxN (values : List (List α)) : ℤ := ((values.map List.length).prod : ℕ)

/-- `n` after random_grid.py:54 -/
def gridSize (values : List (List α)) (n : ℤ) : ℤ := min (if 0 < n then n else maxN values) (maxN values)

/-- random_grid.py:12-75 `random_grid` (`isinstance` of `n` holds by typing; `skip_config=None` is
the predicate that is always false; `grid_cache=None` is the empty set). With no parameters the
unpacking of `zip(*params.items())` fails. -/
def randomGrid (params : List (String × List α)) (n : ℤ) (cache : Finset (List α))
    (skip : List α → Bool) (draws : List (List α)) : PyM (GridOut α × List String) :=
  if n < 0 then .error .valueError
  else if params.isEmpty then .error .valueError
  else .ok (gridLoop skip (gridSize (params.map Prod.snd) n) draws cache ∅, params.map Prod.fst)

/-- `itertools.product(*values)` in its order. -/
def pyProduct : List (List α) → List (List α)
  | [] => [[]]
  | vs :: rest => vs.flatMap fun v => (pyProduct rest).map fun c => v :: c

/-- random_grid.py:78-100 `full_grid`. -/
def fullGrid (params : List (String × List α)) : PyM (Finset (List α) × List String) :=
  if params.isEmpty then .error .valueError
  else .ok ((pyProduct (params.map Prod.snd)).toFinset, params.map Prod.fst)

end DynCF
