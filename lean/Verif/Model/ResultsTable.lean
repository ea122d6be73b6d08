/-
Model of the two tables printed by `/repo/get_table_results_latex.py`. The LaTeX text and the rounding to three decimals
are left out: a table is the list of its rows with their labels.
-/
import Verif.Model.Graphs

namespace DynCF
variable {K : Type}

/-- get_table_results_latex.py:14 -/
def tableSets : List Str := ["ml_20m".toList, "amz_b".toList, "amz_g".toList, "steam".toList]

/-- get_table_results_latex.py:15 -/
def tableModels : List Str :=
  ["SVD".toList, "PSIRec".toList, "TDRec".toList, "TDRecReinit".toList, "TIRec".toList, "TIRecA".toList]

/-- get_table_results_latex.py:19-32: `pd.DataFrame(model_to_metric)`, the columns in the order of `models`; `files` are
the result files that can be read, by data set and model. -/
def tableFrame [Field K] (files : Str → Str → Option (Series K)) (set : Str) : Dict Str (Dict Str (TableCell K)) :=
  tableModels.foldl (fun d m => Dict.set d m (tableColumn (files set m))) []

/-- `df.index`: the keys of the columns in order of appearance -/
def frameIndex (f : Dict Str (Dict Str (TableCell K))) : List Str :=
  pdUnique (f.flatMap fun c => Dict.keys c.2)

/-- The rows of a frame: one entry per column, missing entries are NaN. -/
def frameRows (f : Dict Str (Dict Str (TableCell K))) : List (List (TableCell K)) :=
  (frameIndex f).map fun i => f.map fun c => (Dict.get? c.2 i).getD .nan

/-- get_table_results_latex.py:34-38: the frames below each other, labelled with `zip(np.repeat(data_names, 4), df.index)`;
assigning an index of another length raises `ValueError`. -/
def tableOne [Field K] (files : Str → Str → Option (Series K)) : PyM (List ((Str × Str) × List (TableCell K))) :=
  let frames := tableSets.map (tableFrame files)
  let rows := frames.flatMap frameRows
  let index := (tableSets.flatMap fun s => List.replicate 4 s).zip (frames.flatMap frameIndex)
  if index.length = rows.length then .ok (index.zip rows) else .error .valueError

/-- `unstack().reorder_levels([1, 0]).sort_index()` (line 40): the cells labelled with metric and model, in the order of
the labels. -/
def frameCells (f : Dict Str (Dict Str (TableCell K))) : List ((Str × Str) × TableCell K) :=
  stableSort (fun a b => decide (a.1.1 < b.1.1 ∨ (a.1.1 = b.1.1 ∧ a.1.2 ≤ b.1.2)))
    (f.flatMap fun c => (frameIndex f).map fun i => ((i, c.1), (Dict.get? c.2 i).getD .nan))

/-- get_table_results_latex.py:40-42: the sorted cells side by side, one column per data set. The labels are the same in
all of them, so that `pd.concat(axis=1)` keeps their order. -/
def tableTwo [Field K] (files : Str → Str → Option (Series K)) : List ((Str × Str) × List (TableCell K)) :=
  let cells := tableSets.map fun s => frameCells (tableFrame files s)
  ((cells.headD []).map Prod.fst).map fun l => (l, cells.map fun c => (Dict.get? c l).getD .nan)

end DynCF
