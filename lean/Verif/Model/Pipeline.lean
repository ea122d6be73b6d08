/-
Model of `/repo/run_experiments.py`: a sequence of scripts started with `os.system`, which returns the exit code
of a failed script and raises nothing. The scripts communicate through files.
-/
import Verif.Model.Search
import Verif.Model.Ablation
import Verif.Model.Graphs

namespace DynCF
variable {K : Type} [Field K] [LinearOrder K]

/-- The files of one data set the scripts read and write: the results of the search (`hyperparams_dir`) and the
files `<name>.json` of `metric_dynamics_dir`, by name. -/
structure Disk (K : Type) where
  svdCsv : Option (List (SvdRow K))
  tdCsv : Option (List (TdRow K))
  files : Dict Str (Series K)

/-- The scripts with their arguments. -/
inductive Cmd where
  | searchSvd
  | searchTd
  | experiment (name : String)
  | ablation (name : String)
  deriving DecidableEq

/-- Everything a call depends on besides the files. Every script is a process with a clock of its own;
`iterdir` is the order in which the directory is listed. -/
structure PipeEnv (K : Type) [LinearOrder K] where
  env : RunEnv K
  se : SearchEnv K
  cfg : RunCfg K
  sc : SearchCfg K
  fs : FixedSvd
  ft : FixedTd
  graphs : GraphCfg K
  clock : Cmd → ℕ → K
  iterdir : Dict Str (Series K) → Dict Str (Series K)
  data : List (IRow K)

/-- The oracles of one process; it reads the given search results. -/
def PipeEnv.envFor (P : PipeEnv K) (c : Cmd) (rs : List (SvdRow K)) (rt : List (TdRow K)) : RunEnv K :=
  { P.env with clock := P.clock c, svdCsv := rs, tdCsv := rt }

/-- `pd.read_csv(hyperparams_dir / 'svd.csv')` for the matrix models and of `tdrec.csv` for the others
(prepare_model.py:30-90). Only success or failure of a script matters here, so that an exception raised before
this one is not told apart. -/
def csvPresent (d : Disk K) (name : String) : Bool :=
  if name ∈ ["SVD", "PSIRec"] then d.svdCsv.isSome else d.tdCsv.isSome

/-- Write the results of the options finished, under their names (dynamical_ablation_study.py:103-104). -/
def ablationWrites (name : String) (l : List ((K × Bool) × Dynamics K)) : Dict Str (Series K) :=
  (l.zip optionTexts).map fun p => (ablationName name.toList p.2.1 p.2.2, dynJson p.1.2)

variable [FloorRing K]

/-- One script: the files afterwards and the exception that ended it, if any. A search or an experiment writes its
file at the end (hyperparameters_search.py:107, 238, source/experiments/dynamical_experiment.py:232-234), the
ablation study after every option. -/
def runCmd (P : PipeEnv K) (d : Disk K) (c : Cmd) : Disk K × Option PyErr :=
  let env := P.envFor c (d.svdCsv.getD []) (d.tdCsv.getD [])
  match c with
  | .searchSvd =>
    match hyperparametersSearchSvd env P.se P.cfg P.sc P.fs P.data with
    | .ok rows => ({ d with svdCsv := some rows }, none)
    | .error e => (d, some e)
  | .searchTd =>
    match hyperparametersSearchTdrec env P.se P.cfg P.sc P.ft P.data with
    | .ok rows => ({ d with tdCsv := some rows }, none)
    | .error e => (d, some e)
  | .experiment name =>
    if csvPresent d name then
      match runScript env P.cfg P.fs P.ft name P.data with
      | .ok r => ({ d with files := Dict.set d.files name.toList (dynJson r) }, none)
      | .error e => (d, some e)
    else (d, some .fileNotFoundError)
  | .ablation name =>
    if csvPresent d name then
      let r := ablationScript env P.cfg P.fs P.ft name P.data
      ({ d with files := Dict.update d.files (ablationWrites name r.1) }, r.2)
    else (d, some .fileNotFoundError)

/-- run_experiments.py:12-14 -/
def expModels : List String := ["SVD", "PSIRec", "TIRec", "TIRecA", "TDRec", "TDRecReinit"]
/-- run_experiments.py:15 -/
def ablModels : List String := ["PSIRec", "TIRecA"]

/-- run_experiments.py:17-23: the scripts before the figures. -/
def pipelineCmds : List Cmd :=
  [.searchSvd, .searchTd] ++ expModels.map .experiment ++ ablModels.map .ablation

/-- Start scripts one after the other whatever their exit codes. -/
def runCmds (P : PipeEnv K) : List Cmd → Disk K → Disk K × List (Option PyErr)
  | [], d => (d, [])
  | c :: cs, d =>
    let r := runCmd P d c
    let q := runCmds P cs r.1
    (q.1, r.2 :: q.2)

/-- The listing of `metric_dynamics_dir` as `prepareGraphs` reads it. -/
def diskEntries (P : PipeEnv K) (d : Disk K) : List (Str × Bool × Series K) :=
  (P.iterdir d.files).map fun e => (resultPath P.graphs.dir e.1, true, e.2)

/-- run_experiments.py: the files and exit states of the scripts, the figures saved and the exception of the last
script. -/
def runExperiments (P : PipeEnv K) (d : Disk K) :
    (Disk K × List (Option PyErr)) × (List (Figure K) × Option PyErr) :=
  let r := runCmds P pipelineCmds d
  (r, prepareGraphs P.env.sortDay P.graphs (diskEntries P r.1) P.data)

end DynCF
