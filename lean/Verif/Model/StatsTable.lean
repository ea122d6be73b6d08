/-
Model of `/repo/get_data_stats_latex.py` and of the file written by `print_recsys_df_stats`
(`/repo/source/data_preparation.py:103-112`). The LaTeX text is left out: the table is the list of its rows.
-/
import Verif.Model.Graphs

namespace DynCF

/-- data_preparation.py:103-112: the saved series; `to_csv` and `read_csv` give back the numbers. -/
def savedStats (s : RecsysStats) : Dict Str ℚ :=
  [("n_users".toList, (s.nUsers : ℚ)), ("n_items".toList, (s.nItems : ℚ)), ("nu_dates".toList, (s.nDates : ℚ)),
   ("n_interactions".toList, (s.nInteractions : ℚ)), ("n_items_mean".toList, s.nItemsMean),
   ("n_items_median".toList, s.nItemsMedian), ("density%".toList, s.density)]

/-- `astype(int)` of a float -/
def truncInt (x : ℚ) : ℤ := if 0 ≤ x then ⌊x⌋ else ⌈x⌉

/-- `data.pivot_table('value', columns=['key'])[key]`: the mean of the values with this key. -/
def pivotValue (file : Dict Str ℚ) (key : Str) : PyM ℚ :=
  let vals := (file.filter fun p => decide (p.1 = key)).map Prod.snd
  if vals.isEmpty then .error .keyError else .ok (vals.sum / vals.length)

/-- A row of the printed table. -/
structure StatsRow where
  dataset : Str
  nUsers : ℤ
  nItems : ℤ
  nInteractions : ℤ
  nItemsMedian : ℤ
  density : ℚ
  deriving DecidableEq

/-- get_data_stats_latex.py:10-15 -/
def statsNames : List (Str × Str) :=
  [("ml_20m".toList, "ML-20M".toList), ("amz_b".toList, "AMZ-B".toList), ("amz_g".toList, "AMZ-G".toList),
   ("steam".toList, "Steam".toList)]

/-- get_data_stats_latex.py:19-27 for one data set; `files` are the existing files `data_stats.csv`. The cast of
lines 32-39 is done here: it cannot fail. -/
def statsRow (files : Str → Option (Dict Str ℚ)) (n : Str × Str) : PyM StatsRow :=
  match files n.1 with
  | none => .error .fileNotFoundError
  | some file => do
    let users ← pivotValue file "n_users".toList
    let items ← pivotValue file "n_items".toList
    let inter ← pivotValue file "n_interactions".toList
    let median ← pivotValue file "n_items_median".toList
    let density ← pivotValue file "density%".toList
    pure ⟨n.2, truncInt users, truncInt items, truncInt inter, truncInt median, density⟩

/-- get_data_stats_latex.py:17-42 -/
def statsTable (files : Str → Option (Dict Str ℚ)) : PyM (List StatsRow) :=
  statsNames.mapM (statsRow files)

end DynCF
