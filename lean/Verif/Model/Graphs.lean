/-
Model of `/repo/prepare_graphs.py`, `/repo/source/experiments/prepare_graphs.py`, `plot_results` of
`/repo/source/plotting.py` and the averages of `/repo/get_table_results_latex.py`.

Strings are lists of characters. A drawn figure is a record: file name, axis labels, title and curves; the
appearance (colours, sizes, grid, legend, resolution) is left out. `ax.plot(x, y)` raises `ValueError` when the
two lengths differ. A result file is the dictionary of its finite series; `json.load` of a file that is not JSON
and the series `rnd_users`/`rnd_items` (only read by `plot_factors_dynamics`, which nothing calls) are left out.
-/
import Verif.Model.Ablation
import Verif.Model.NewEntities
import Verif.Model.PrepareFiles

namespace DynCF

abbrev Str := List Char

/-! ### Strings -/

/-- The first occurrence of `sep`: the text before and after it. -/
def breakOn (sep : Str) : Str → Option (Str × Str)
  | [] => none
  | c :: s =>
    if sep.isPrefixOf (c :: s) then some ([], (c :: s).drop sep.length)
    else (breakOn sep s).map fun p => (c :: p.1, p.2)

/-- `splitN sep n s`: split at the first `n` occurrences. -/
def splitN (sep : Str) : ℕ → Str → List Str
  | 0, s => [s]
  | n + 1, s =>
    match breakOn sep s with
    | none => [s]
    | some p => p.1 :: splitN sep n p.2

/-- `s.split(sep)` for a non-empty separator; there are at most `len(s)` occurrences. -/
def pySplit (sep s : Str) : List Str := splitN sep s.length s

/-- `s.upper()` for ASCII text. -/
def upperStr (s : Str) : Str := s.map Char.toUpper

/-- `f'{n}'` for a natural number. -/
def natStr (n : ℕ) : Str := Nat.toDigits 10 n

/-! ### Names of files and curves -/

/-- The text of a Boolean in an f-string. -/
def boolStr (b : Bool) : Str := if b then "True".toList else "False".toList

/-- dynamical_ablation_study.py:105: the name of a result file without `.json`; `std` is the text of the
deviation. -/
def ablationName (model std : Str) (integ : Bool) : Str :=
  model ++ "_std_".toList ++ std ++ "_int_".toList ++ boolStr integ

/-- dynamical_ablation_study.py:45-49, 53-57: the texts of `0`, `1e-8`, `1e-5`, `1e-3` in an f-string, with the flags,
in the order of `ablationOptions`. -/
def optionTexts : List (Str × Bool) :=
  [("0".toList, true), ("1e-08".toList, false), ("1e-05".toList, false), ("0.001".toList, false),
    ("1e-08".toList, true), ("1e-05".toList, true), ("0.001".toList, true)]

/-- prepare_graphs.py:46-55 (= 62-71): the label of an option; unpacking two values from a list of another
length raises `ValueError`. -/
def optionLabel (name : Str) : PyM Str :=
  match pySplit "_int_".toList name with
  | [left, intMode] =>
    match pySplit "_std_".toList left with
    | [model, std] =>
      let s := if std = "0".toList then model ++ "(0;".toList else model ++ "(".toList ++ std ++ ";".toList
      .ok (if intMode = "True".toList then s ++ "0)".toList else s ++ "B)".toList)
    | _ => .error .valueError
  | _ => .error .valueError

/-- prepare_graphs.py:40-56 `map_tensor_name` -/
def mapTensorName (name : Str) : PyM Str :=
  if name = "TIRec".toList then .ok name
  else if name = "TIRecA".toList then .ok name
  else optionLabel name

/-- prepare_graphs.py:58-72 `map_matrix_name` -/
def mapMatrixName (name : Str) : PyM Str :=
  if name = "PSIRec".toList then .ok name
  else optionLabel name

/-- prepare_graphs.py:118: `res_path.split('/')[-1].split('.json')[0]` -/
def stemOf (path : Str) : Str :=
  (pySplit ".json".toList ((pySplit "/".toList path).getLastD [])).headD []

/-- prepare_graphs.py:110-120: the results drawn together for one target model. `entries` is what `iterdir()`
yields, in any order: path, whether it is a file, contents. -/
def ablationDict {J : Type} (target : Str) (mapper : Str → PyM Str) (entries : List (Str × Bool × J)) :
    PyM (Dict Str J) :=
  (entries.filter fun e => e.2.1 && decide (target <:+: e.1)).foldlM
    (fun d e => do
      let name ← mapper (stemOf e.1)
      pure (d.set name e.2.2)) []

/-! ### Figures -/

variable {K : Type}

structure Curve (K : Type) where
  x : List ℤ
  y : List K
  label : Str
  marker : Str
  deriving DecidableEq

structure Figure (K : Type) where
  file : Str
  xlabel : Str
  ylabel : Str
  title : Str
  curves : List (Curve K)
  deriving DecidableEq

/-- plotting.py:29-30 `add_plot_ax` -/
def addPlot (x : List ℤ) (y : List K) (label marker : Str) : PyM (Curve K) :=
  if x.length = y.length then .ok ⟨x, y, label, marker⟩ else .error .valueError

/-- plotting.py:35-44 `plot_results`; `zip` stops at the shortest list. -/
def plotResults (x : List ℤ) (ys : List (List K)) (labels : List Str) (xlabel ylabel title file : Str)
    (markers : Option (List Str)) : PyM (Figure K) := do
  let ms := markers.getD (List.replicate labels.length "*".toList)
  let cs ← (ys.zip (labels.zip ms)).mapM fun p => addPlot x p.1 p.2.1 p.2.2
  pure ⟨file, xlabel, ylabel, title, cs⟩

/-- `np.arange(n)` -/
def arange (n : ℕ) : List ℤ := (List.range n).map fun i : ℕ => (i : ℤ)

/-- `np.arange(len(l[0]))`; `IndexError` for an empty list. -/
def arangeFirst (l : List (List K)) : PyM (List ℤ) :=
  match l with
  | [] => .error .indexError
  | y :: _ => .ok (arange y.length)

/-- `np.cumsum` -/
def cumsum [Add K] [Zero K] (l : List K) : List K := go 0 l
where
  go (a : K) : List K → List K
    | [] => []
    | x :: xs => (a + x) :: go (a + x) xs

/-- The contents of a result file. -/
abbrev Series (K : Type) := Dict Str (List K)

/-- One series of every model. -/
def seriesOf (dyn : Dict Str (Series K)) (key : Str) : PyM (List (List K)) :=
  dyn.mapM fun e => Dict.getItem e.2 key

variable [Field K]

/-- source/experiments/prepare_graphs.py:24-48 `plot_computational_time_dynamics` -/
def plotTime (dyn : Dict Str (Series K)) (extra mode : Str) : PyM (Figure K) := do
  let ys ← seriesOf dyn "calculation_time".toList
  let cum := decide (mode = "cum".toList)
  let ys := if cum then ys.map cumsum else ys
  let x ← arangeFirst ys
  plotResults x ys (Dict.keys dyn) "Time step".toList
    (if cum then "$\\Delta$Computational Time (sec)".toList else "Computational Time (sec)".toList)
    (if cum then "Computational Time Dynamics (Cumulative)".toList else "Computational Time Dynamics".toList)
    (extra ++ if cum then "cum_calc_time.pdf".toList else "calc_time.pdf".toList) none

/-- source/experiments/prepare_graphs.py:50-75 `plot_stability`; the axis label spells the *mode*. -/
def plotStability (topk : ℕ) (dyn : Dict Str (Series K)) (extra mode : Str) : PyM (Figure K) := do
  let ys ← seriesOf dyn "wji".toList
  let cum := decide (mode = "cum".toList)
  let ys := if cum then ys.map cumsum else ys
  let x ← arangeFirst ys
  plotResults x ys (Dict.keys dyn) "Time step".toList
    (if cum then "$\\Delta$".toList ++ (upperStr mode ++ "@".toList ++ natStr topk)
      else upperStr mode ++ "@".toList ++ natStr topk)
    (if cum then "Stability of Recommendations (Cumulative)".toList else "Stability of Recommendations".toList)
    (extra ++ if cum then "cum_stability.pdf".toList else "stability.pdf".toList) none

/-- source/experiments/prepare_graphs.py:77-97: `plot_cum_metrics` for one mode. -/
def plotCum (topk : ℕ) (dyn : Dict Str (Series K)) (extra mode : Str) : PyM (Figure K) := do
  let ys ← seriesOf dyn mode
  let ys := ys.map cumsum
  let x ← arangeFirst ys
  plotResults x ys (Dict.keys dyn) "Time step".toList
    ("$\\Delta$".toList ++ (upperStr mode ++ "@".toList ++ natStr topk))
    (upperStr mode ++ " metric dynamics (Cumulative)".toList) (extra ++ "cum_".toList ++ mode ++ ".pdf".toList) none

/-- source/experiments/prepare_graphs.py:99-120: `plot_sliding_window_metrics` for one mode. -/
def plotSliding (topk : ℕ) (dyn : Dict Str (Series K)) (swl : ℕ) (extra mode : Str) : PyM (Figure K) := do
  let ys ← dyn.mapM fun e => do
    let s ← Dict.getItem e.2 mode
    slidingWindow s swl "mean"
  let x ← arangeFirst ys
  plotResults x ys (Dict.keys dyn) "Time step".toList (upperStr mode ++ "@".toList ++ natStr topk)
    (upperStr mode ++ " metric dynamics (SW - ".toList ++ natStr swl ++ ")".toList)
    (extra ++ "sw_".toList ++ natStr swl ++ "_".toList ++ mode ++ ".pdf".toList) none

/-- source/experiments/prepare_graphs.py:143-200 `plot_new_entities_dynamics`, the counting being
`newEntities`. -/
def plotNewEntities [LinearOrder K] [FloorRing K] (sortDay : List (Row K) → List (Row K)) (data : List (IRow K))
    (ratio : K) (hmin : Option ℤ) (hm : ℕ) (extra : Str) : PyM (Figure K) := do
  let d ← prepareDataForExperiment sortDay data ratio hmin
  let st := newEntities d.1 (d.2.1.map Prod.snd)
  plotResults ((List.range hm).map fun i : ℕ => (i : ℤ) + 1)
    ((plottedLists st hm).map fun l => l.map fun n : ℕ => (n : K))
    ["#users".toList, "#items".toList, "#new_users_ni".toList, "#new_items_nu".toList] "Day".toList
    "Amount".toList "New Users, New Items Dynamics".toList (extra ++ "dynamics_new_ui.pdf".toList)
    (some ["v".toList, "s".toList, "*".toList, "^".toList])

/-- source/experiments/prepare_graphs.py:202-227 `plot_data_dynamics`: two axes over the same days. -/
def plotDataDynamics (dyn : Series K) (extra : Str) : PyM (Figure K) := do
  let us ← Dict.getItem dyn "n_users_dynamics".toList
  let x := arange us.length
  let a ← addPlot x us "#Unique Users".toList "*".toList
  let is ← Dict.getItem dyn "n_interactions_dynamics".toList
  let b ← addPlot x is "#Interactions".toList "^".toList
  pure ⟨extra ++ "data_dynamics.pdf".toList, "Day".toList, "#Unique Users".toList, "Data Dynamics".toList, [a, b]⟩

/-! ### The script -/

/-- prepare_graphs.py:21-33 `dynamical_experiment`: the figures in the order they are drawn. -/
def experimentFigures (dyn : Dict Str (Series K)) (extra : Str) (topk : ℕ) (swls : List ℕ) :
    List (PyM (Figure K)) :=
  [plotTime dyn extra "regular".toList, plotCum topk dyn extra "hr".toList,
    plotStability topk dyn extra "regular".toList] ++
    swls.map fun swl => plotSliding topk dyn swl extra "hr".toList

/-- prepare_graphs.py:35-38 `ablation_study` -/
def ablationFigures (dyn : Dict Str (Series K)) (extra : Str) (topk : ℕ) : List (PyM (Figure K)) :=
  [plotStability topk dyn extra "cum".toList, plotCum topk dyn extra "hr".toList,
    plotSliding topk dyn 20 extra "hr".toList]

/-- Statements run one after the other: what has been saved, and the exception that ended them, if any. -/
def runFigures : List (PyM (Figure K)) → List (Figure K) × Option PyErr
  | [] => ([], none)
  | .error e :: _ => ([], some e)
  | .ok f :: l => (f :: (runFigures l).1, (runFigures l).2)

/-- Go on with further statements unless an exception was raised. -/
def andThen {α : Type} (a : List α × Option PyErr) (b : List α × Option PyErr) : List α × Option PyErr :=
  match a.2 with
  | some e => (a.1, some e)
  | none => (a.1 ++ b.1, b.2)

/-- A statement that only computes a value. -/
def withValue {α β : Type} (v : PyM α) (f : α → List β × Option PyErr) : List β × Option PyErr :=
  match v with
  | .error e => ([], some e)
  | .ok a => f a

/-- The settings read by the script. -/
structure GraphCfg (K : Type) where
  dataset : Str
  models : List Str
  dir : Str
  topk : ℕ
  swls : List ℕ
  howMany : ℕ
  initRatio : K
  hmMin : Option ℤ

/-- The path of a result file. -/
def resultPath (dir name : Str) : Str := dir ++ "/".toList ++ name ++ ".json".toList

/-- `with open(path) as f: json.load(f)` on the files of the directory. -/
def openJson (entries : List (Str × Bool × Series K)) (path : Str) : PyM (Series K) :=
  match entries.find? fun e => e.2.1 && decide (e.1 = path) with
  | some e => .ok e.2.2
  | none => .error .fileNotFoundError

/-- prepare_graphs.py:83-87: the results drawn for the dynamical experiment. -/
def experimentDict (g : GraphCfg K) (entries : List (Str × Bool × Series K)) : PyM (Dict Str (Series K)) :=
  (pdUnique g.models).mapM fun name => do
    let s ← openJson entries (resultPath g.dir name)
    pure (name, s)

/-- prepare_graphs.py:110-127: one target of the ablation study; the figures go to another directory. -/
def ablationGraphs (g : GraphCfg K) (entries : List (Str × Bool × Series K)) (target : Str)
    (mapper : Str → PyM Str) : List (Figure K) × Option PyErr :=
  withValue (ablationDict target mapper entries) fun dyn =>
    runFigures (ablationFigures dyn (target ++ "_".toList ++ g.dataset ++ "_".toList) g.topk)

/-- prepare_graphs.py:74-128: the script. -/
def prepareGraphs [LinearOrder K] [FloorRing K] (sortDay : List (Row K) → List (Row K)) (g : GraphCfg K)
    (entries : List (Str × Bool × Series K)) (data : List (IRow K)) : List (Figure K) × Option PyErr :=
  let extra := g.dataset ++ "_".toList
  withValue (experimentDict g entries) fun dyn =>
    andThen (runFigures (experimentFigures dyn extra g.topk g.swls)) <|
    andThen (runFigures [plotNewEntities sortDay data g.initRatio g.hmMin g.howMany extra]) <|
    andThen (withValue (openJson entries (resultPath g.dir "data_dynamics".toList)) fun s =>
      runFigures [plotDataDynamics s extra]) <|
    andThen (ablationGraphs g entries "TIRec".toList mapTensorName) <|
    ablationGraphs g entries "PSIRec".toList mapMatrixName

/-! ### Files -/

/-- The finite series of a result, under the keys of `dynamics_dict`. -/
def dynJson (d : Dynamics K) : Series K :=
  [("calculation_time".toList, d.times), ("hr".toList, d.hr), ("mrr".toList, d.mrr), ("wji".toList, d.wji),
    ("nd_users".toList, d.ndUsers), ("nd_items".toList, d.ndItems)]

/-- prepare_data.py:117-120: the contents of `data_dynamics.json`. -/
def dataJson (p : List ℕ × List ℕ) : Series K :=
  [("n_users_dynamics".toList, p.1.map fun n : ℕ => (n : K)),
    ("n_interactions_dynamics".toList, p.2.map fun n : ℕ => (n : K))]

/-! ### `get_table_results_latex.py` -/

/-- A cell of the table: a number, NaN, or a dash. -/
inductive TableCell (K : Type) where
  | num (x : K)
  | nan
  | dash
  deriving DecidableEq

/-- get_table_results_latex.py:16 -/
def tableMetrics : List Str := ["hr".toList, "mrr".toList, "wji".toList, "calculation_time".toList]

/-- `np.mean` of a list: NaN (with a warning) if it is empty. -/
def npMean (l : List K) : TableCell K :=
  if l.length = 0 then .nan else .num (l.sum / (l.length : K))

/-- get_table_results_latex.py:21-31: the column of a model; the `except` overwrites everything. `file` is
`none` when the file cannot be read. -/
def tableColumn (file : Option (Series K)) : Dict Str (TableCell K) :=
  let read : PyM (Dict Str (TableCell K)) :=
    match file with
    | none => .error .fileNotFoundError
    | some s => tableMetrics.foldlM (fun d m => do
        let l ← Dict.getItem s m
        pure (Dict.set d m (npMean l))) []
  match read with
  | .ok d => d
  | .error _ => tableMetrics.foldl (fun d m => Dict.set d m .dash) []

end DynCF
