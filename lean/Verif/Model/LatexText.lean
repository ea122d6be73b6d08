/-
Model of the text printed by `/repo/get_table_results_latex.py` (lines 38 and 44-54) and
`/repo/get_data_stats_latex.py` (line 42): the lines of the header and of the rows as `DataFrame.to_latex` of pandas
2.0.2 writes them. Its default `escape=False` leaves the characters of labels and cells as they are. The lines around
the rows (`\begin{tabular}`, the rules, caption and label) are left out; numbers are rationals.
-/
import Verif.Model.ResultsTable
import Verif.Model.StatsTable
import Verif.Model.ExperimentData

namespace DynCF

/-- `"%.df" % x` for d ≥ 1: the digits of |x| rounded to d decimals, ties to even. The sign is written also when zero
is left. -/
def fixedStr (d : ℕ) (x : ℚ) : Str :=
  let n := (roundHalfEven (|x| * 10 ^ d)).toNat
  let frac := Nat.toDigits 10 (n % 10 ^ d)
  (if x < 0 then ['-'] else []) ++
    (Nat.toDigits 10 (n / 10 ^ d) ++ '.' :: (List.replicate (d - frac.length) '0' ++ frac))

/-- `str` of an integer -/
def intStr (n : ℤ) : Str := (if n < 0 then ['-'] else []) ++ Nat.toDigits 10 n.natAbs

/-- A cell with `float_format="%.3f"`: numbers with three decimals, `na_rep` for NaN, text as it is. -/
def cellText : TableCell ℚ → Str
  | .num x => fixedStr 3 x
  | .nan => "NaN".toList
  | .dash => "-".toList

/-- A line of the table: the cells separated by `&`, closed by a double backslash. -/
def latexLine (cells : List Str) : Str := List.intercalate " & ".toList cells ++ " \\\\".toList

/-- The first level of a sparse index: a label is shown in the first of the rows that carry it; with
`multirow=True` (the default) inside `\multirow`. The labels come with the number of their rows. -/
def sparseLevel (multirow : Bool) (groups : List (Str × ℕ)) : List Str :=
  groups.flatMap fun g =>
    match g.2 with
    | 0 => []
    | n + 1 => (if multirow then "\\multirow[t]{".toList ++ Nat.toDigits 10 (n + 1) ++ "}{*}{".toList ++ g.1 ++ "}".toList
        else g.1) :: List.replicate n []

/-- The groups of equal neighbours. -/
def labelGroups (l : List Str) : List (Str × ℕ) :=
  l.foldr (fun s acc =>
    match acc with
    | (t, n) :: r => if s = t then (t, n + 1) :: r else (s, 1) :: (t, n) :: r
    | [] => [(s, 1)]) []

/-- The lines of a table with two index levels: the header, then the rows. -/
def frameLines (multirow : Bool) (columns : List Str) (t : List ((Str × Str) × List (TableCell ℚ))) : List Str :=
  latexLine ([] :: [] :: columns) ::
    ((sparseLevel multirow (labelGroups (t.map fun r => r.1.1))).zip t).map fun p =>
      latexLine (p.1 :: p.2.1.2 :: p.2.2.map cellText)

/-- get_table_results_latex.py:38 -/
def tableOneText (files : Str → Str → Option (Series ℚ)) : PyM (List Str) := do
  let t ← tableOne files
  pure (frameLines true tableModels t)

/-- get_table_results_latex.py:42-54 -/
def tableTwoText (files : Str → Str → Option (Series ℚ)) : List Str :=
  frameLines false tableSets (tableTwo files)

/-- get_data_stats_latex.py:26 -/
def statsColumns : List Str :=
  ["dataset".toList, "n_users".toList, "n_items".toList, "n_interactions".toList, "n_items_median".toList,
   "density%".toList]

/-- The cells of a row: integers, and the density with the six decimals of `styler.format.precision`. -/
def statsCells (r : StatsRow) : List Str :=
  [r.dataset, intStr r.nUsers, intStr r.nItems, intStr r.nInteractions, intStr r.nItemsMedian, fixedStr 6 r.density]

/-- get_data_stats_latex.py:42 `dd.to_latex(index=False)` -/
def statsText (files : Str → Option (Dict Str ℚ)) : PyM (List Str) := do
  let rows ← statsTable files
  pure (latexLine statsColumns :: rows.map fun r => latexLine (statsCells r))

end DynCF
