/-
Model of the command lines of the scripts: the strings `run_experiments.py` passes to `os.system`, what the shell makes
of them, and `argparse` with a fixed number of positional arguments.
-/
import Verif.Model.Pipeline

namespace DynCF

/-- Characters the shell takes as they are wherever they stand in a word. Others (quotes, `$`, `*`, `&`, ...) are
refused by `shellLine`, except for blanks and semicolons. -/
def plainChar (c : Char) : Bool := c.isAlphanum || c = '_' || c = '-' || c = '.' || c = '/'

/-- The pieces between the occurrences of a character. -/
def splitChar (c : Char) : Str → List Str
  | [] => [[]]
  | x :: xs =>
    if x = c then [] :: splitChar c xs
    else match splitChar c xs with
      | [] => [[x]]
      | w :: ws => (x :: w) :: ws

/-- The words of a simple command: what is left between blanks. -/
def shellWords (s : Str) : List Str := (splitChar ' ' s).filter (· ≠ [])

/-- Words that are not the name of a program at the beginning of a command. -/
def shellReserved : List Str :=
  ["if", "then", "else", "elif", "fi", "do", "done", "case", "esac", "while", "until", "for"].map String.toList

/-- `sh -c s`: the commands executed one after the other, as lists of words. An empty command is a syntax error unless
it is the last one; this and compound commands are refused. -/
def shellLine (s : Str) : PyM (List (List Str)) :=
  if s.all fun c => plainChar c || c = ' ' || c = ';' then
    let parts := (splitChar ';' s).map shellWords
    let cmds := if parts.getLast? = some [] then parts.dropLast else parts
    if cmds.any fun ws => ws.isEmpty || shellReserved.contains (ws.headD []) then .error .outOfModel
    else .ok cmds
  else .error .outOfModel

/-- `parser.parse_args()` with `n` positional arguments of type `str` (all six scripts): `none` stands for the usage
message and exit status 2. Words that begin with a dash (options) are refused. -/
def parseArgs (n : ℕ) (argv : List Str) : PyM (Option (List Str)) :=
  if argv.any fun w => w.head? = some '-' then .error .outOfModel
  else if argv.length = n then .ok (some argv)
  else .ok none

/-- What a command starts. -/
inductive Start where
  /-- one of the scripts with the data set named, and whether the progress line is disabled -/
  | script (c : Cmd) (dataset : Str) (noBar : Bool)
  /-- `prepare_graphs.py` with the data set named -/
  | graphs (dataset : Str)
  /-- a script that stops in `parse_args` -/
  | usage
  /-- `find_hyperparams.py` with an unknown type of model: raises (find_hyperparams.py:49-50), at the latest after
  `import_config` -/
  | badType
  /-- anything else -/
  | foreign (words : List Str)
  deriving DecidableEq

/-- find_hyperparams.py:22, dynamical_experiment.py:23, dynamical_ablation_study.py:31 -/
def noBarOf (t : Str) : Bool := if t = "True".toList then true else false

/-- find_hyperparams.py:15-50, dynamical_experiment.py:16-23, dynamical_ablation_study.py:24-31,
prepare_graphs.py:76-80: the arguments of the scripts. -/
def startOf (words : List Str) : PyM Start :=
  match words with
  | prog :: file :: argv =>
    if prog = "python".toList then
      if file = "find_hyperparams.py".toList then do
        match ← parseArgs 3 argv with
        | some [d, t, b] =>
          if t = "svd".toList then pure (.script .searchSvd d (noBarOf b))
          else if t = "tdrec".toList then pure (.script .searchTd d (noBarOf b))
          else pure .badType
        | _ => pure .usage
      else if file = "dynamical_experiment.py".toList then do
        match ← parseArgs 3 argv with
        | some [d, m, b] => pure (.script (.experiment (String.ofList m)) d (noBarOf b))
        | _ => pure .usage
      else if file = "dynamical_ablation_study.py".toList then do
        match ← parseArgs 3 argv with
        | some [d, m, b] => pure (.script (.ablation (String.ofList m)) d (noBarOf b))
        | _ => pure .usage
      else if file = "prepare_graphs.py".toList then do
        match ← parseArgs 1 argv with
        | some [d] => pure (.graphs d)
        | _ => pure .usage
      else pure (.foreign words)
    else pure (.foreign words)
  | _ => pure (.foreign words)

/-- run_experiments.py:11-24: the strings passed to `os.system`, in this order. -/
def commandLines (data : Str) : List Str :=
  (["svd", "tdrec"].map fun m =>
      "python find_hyperparams.py ".toList ++ data ++ " ".toList ++ m.toList ++ " False".toList) ++
  (expModels.map fun m =>
      "python dynamical_experiment.py ".toList ++ data ++ " ".toList ++ m.toList ++ " False".toList) ++
  (ablModels.map fun m =>
      "python dynamical_ablation_study.py ".toList ++ data ++ " ".toList ++ m.toList ++ " False".toList) ++
  ["python prepare_graphs.py ".toList ++ data]

/-- `os.system` on one line: what it starts. -/
def osSystem (line : Str) : PyM (List Start) := do
  let cmds ← shellLine line
  cmds.mapM startOf

/-- run_experiments.py: everything started by a call with the given data set name (its own `parse_args` accepts one
argument). -/
def startedBy (data : Str) : PyM (List (List Start)) := (commandLines data).mapM osSystem

end DynCF
