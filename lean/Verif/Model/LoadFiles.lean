/-
Model of the part of `/repo/load_data.py` that works on files: downloading, unpacking, parsing, and the directories
of the results. The file system is the part below the working directory (POSIX rules).
-/
import Mathlib.Data.Rat.Defs
import Verif.Py.Basic

namespace DynCF

/-- A path relative to the working directory, as the list of its parts. -/
abbrev FPath := List String

/-- What is found under a path. -/
inductive FNode (C : Type) where
  | dir
  | file (c : C)
  deriving DecidableEq

/-- The files and directories below the working directory; the working directory itself is `[]`. -/
abbrev FileSys (C : Type) := Dict FPath (FNode C)

/-- A computation on the file system. An exception keeps what has been written before. -/
def FsM (C α : Type) := FileSys C → Except PyErr α × FileSys C

/-- an action that only returns -/
def FsM.pure {C α : Type} (a : α) : FsM C α := fun d => (.ok a, d)

/-- one action after the other -/
def FsM.bind {C α β : Type} (x : FsM C α) (f : α → FsM C β) : FsM C β := fun d =>
  match x d with
  | (.ok a, d') => f a d'
  | (.error e, d') => (.error e, d')

instance {C : Type} : Monad (FsM C) where
  pure := FsM.pure
  bind := FsM.bind

/-- a computation that does not touch the files -/
def FsM.lift {C α : Type} (x : PyM α) : FsM C α := fun d => (x, d)

variable {C : Type}

/-- `os.path.isdir`; the working directory is a directory. -/
def FileSys.isDir (d : FileSys C) (p : FPath) : Bool :=
  p = [] || match d.get? p with
    | some .dir => true
    | _ => false

/-- `os.mkdir(p)` that accepts an existing directory. -/
def mkdir1 (p : FPath) : FsM C Unit := fun d =>
  match d.get? p with
  | none => (.ok (), d.set p .dir)
  | some .dir => (.ok (), d)
  | some (.file _) => (.error .osError, d)

/-- `Path.mkdir(parents=True, exist_ok=True)`: all initial parts of the path, from the top. -/
def mkdirP (p : FPath) : FsM C Unit :=
  (p.inits.tail).forM mkdir1

/-- `open(p, 'w')` and writing: the directory must exist and `p` must not be a directory. -/
def writeFile (p : FPath) (c : C) : FsM C Unit := fun d =>
  if d.isDir p then (.error .osError, d)
  else if d.isDir p.dropLast then (.ok (), d.set p (.file c))
  else (.error .fileNotFoundError, d)

/-- `open(p)` and reading. -/
def readFile (p : FPath) : FsM C C := fun d =>
  match d.get? p with
  | some (.file c) => (.ok c, d)
  | some .dir => (.error .osError, d)
  | none => (.error .fileNotFoundError, d)

/-- `Path.unlink(missing_ok=True)`. -/
def unlinkOk (p : FPath) : FsM C Unit := fun d =>
  match d.get? p with
  | some .dir => (.error .osError, d)
  | _ => (.ok (), d.filter fun e => e.1 ≠ p)

/-- Is there anything below the directory? -/
def FileSys.hasBelow (d : FileSys C) (p : FPath) : Bool :=
  d.any fun e => p.isPrefixOf e.1 && e.1 ≠ p

/-- The path of an entry after the directory `src` has become `dst`. -/
def movedTo (src dst p : FPath) : FPath :=
  if src.isPrefixOf p then dst ++ p.drop src.length else p

/-- `os.rename(src, dst)` of a directory: the target may be missing or an empty directory. -/
def renameDir (src dst : FPath) : FsM C Unit := fun d =>
  match d.get? src with
  | none => (.error .fileNotFoundError, d)
  | some (.file _) => (.error .outOfModel, d)
  | some .dir =>
    match d.get? dst with
    | some (.file _) => (.error .osError, d)
    | _ =>
      if d.hasBelow dst then (.error .osError, d)
      else (.ok (), (d.filter fun e => e.1 ≠ dst).map fun e => (movedTo src dst e.1, e.2))

/-- One member of an archive: a directory, or a file with its contents. The directories above are made if needed. -/
def extractMember (root : FPath) (m : FPath × Option C) : FsM C Unit :=
  match m.2 with
  | none => mkdirP (root ++ m.1)
  | some c => do
    mkdirP (root ++ m.1).dropLast
    writeFile (root ++ m.1) c

/-! ### JSON lines -/

/-- The value of one JSON text. -/
inductive Json where
  | null
  | bool (b : Bool)
  | num (q : ℚ)
  | str (s : String)
  | arr (l : List Json)
  | obj (l : List (String × Json))

/-- The Python value built by `json.loads` with the object hook of load_data.py:45: every object has become a tuple. -/
inductive JVal where
  | null
  | bool (b : Bool)
  | num (q : ℚ)
  | str (s : String)
  | list (l : List JVal)
  | tup (l : List JVal)

/-- `tuple(dct[key] for key in fields)` (load_data.py:45). -/
def hookTuple (fields : List String) (dct : Dict String JVal) : PyM JVal := do
  let l ← fields.mapM fun key => dct.getItem key
  pure (.tup l)

mutual
/-- `json.loads(line, object_hook=…)` on a parsed text (load_data.py:45): inner objects are converted first, and the
hook is called for them as well. -/
def hookVal (fields : List String) : Json → PyM JVal
  | .null => .ok .null
  | .bool b => .ok (.bool b)
  | .num q => .ok (.num q)
  | .str s => .ok (.str s)
  | .arr l => do
    let l ← hookList fields l
    pure (.list l)
  | .obj l => do
    let ps ← hookPairs fields l
    hookTuple fields (Dict.update [] ps)
/-- the elements of an array, from the left -/
def hookList (fields : List String) : List Json → PyM (List JVal)
  | [] => .ok []
  | x :: l => do
    let v ← hookVal fields x
    let vs ← hookList fields l
    pure (v :: vs)
/-- the members of an object, from the left -/
def hookPairs (fields : List String) : List (String × Json) → PyM (List (String × JVal))
  | [] => .ok []
  | (k, x) :: l => do
    let v ← hookVal fields x
    let vs ← hookPairs fields l
    pure ((k, v) :: vs)
end

/-- One row of `pd.DataFrame.from_records` (load_data.py:64). Lines that are not objects are refused. -/
def recordRow (v : JVal) : PyM (List JVal) :=
  match v with
  | .tup l => .ok l
  | _ => .error .outOfModel

/-- `parse_lines_amz` and `from_records` (load_data.py:42-45, 64): the rows, or the exception of the first bad line. -/
def amzRows (fields : List String) (lines : List Json) : PyM (List (List JVal)) :=
  lines.mapM fun j => do
    let v ← hookVal fields j
    recordRow v

/-! ### The loaders -/

/-- The world outside: the network and the formats of the files. `steamCsv` is `load_steam` from the temporary file to
the csv text (load_data.py:110-121; the table operations are modelled in `PrepareFiles`). -/
structure LoadEnv (C : Type) where
  fetch : String → PyM C
  unzip : C → PyM (List (FPath × Option C))
  jsonLines : C → PyM (List Json)
  toCsv : List String → List (List JVal) → C
  steamCsv : C → PyM C

/-- `urllib.request.urlretrieve(url, filename)`: nothing is written when the server cannot be reached. -/
def retrieve (E : LoadEnv C) (url : String) (p : FPath) : FsM C Unit := do
  let c ← FsM.lift (E.fetch url)
  writeFile p c

/-- `load_ml20m` (load_data.py:24-39) -/
def loadMl20m (E : LoadEnv C) : FsM C Unit := do
  mkdirP ["data"]
  retrieve E "https://files.grouplens.org/datasets/movielens/ml-20m.zip" ["data", "temp.zip"]
  let c ← readFile ["data", "temp.zip"]
  let ms ← FsM.lift (E.unzip c)
  ms.forM (extractMember ["data"])
  unlinkOk ["data", "temp.zip"]
  renameDir ["data", "ml-20m"] ["data", "ml_20m"]

/-- `dsname` (load_data.py:52) -/
def amzNames : Dict String String := [("amz_b", "Beauty"), ("amz_g", "Toys_and_Games")]

/-- `fields` (load_data.py:63) -/
def amzFields : List String := ["reviewerID", "asin", "unixReviewTime"]

/-- `load_amazon` (load_data.py:47-68) -/
def loadAmazon (E : LoadEnv C) (dataset : String) : FsM C Unit := do
  let name ← FsM.lift (amzNames.getItem dataset)
  mkdirP ["data", dataset]
  retrieve E ("http://snap.stanford.edu/data/amazon/productGraph/categoryFiles/reviews_" ++ name ++ "_5.json.gz")
    ["data", "temp_" ++ dataset]
  let c ← readFile ["data", "temp_" ++ dataset]
  let lines ← FsM.lift (E.jsonLines c)
  let rows ← FsM.lift (amzRows amzFields lines)
  writeFile ["data", dataset, dataset ++ ".gz"] (E.toCsv amzFields rows)
  unlinkOk ["data", "temp_" ++ dataset]

/-- `load_steam` (load_data.py:99-123) -/
def loadSteamFile (E : LoadEnv C) : FsM C Unit := do
  mkdirP ["data", "steam"]
  retrieve E "http://cseweb.ucsd.edu/~wckang/steam_reviews.json.gz" ["data", "temp_steam"]
  let c ← readFile ["data", "temp_steam"]
  let out ← FsM.lift (E.steamCsv c)
  writeFile ["data", "steam", "steam.csv"] out
  unlinkOk ["data", "temp_steam"]

/-- `data_dirs` (load_data.py:126) -/
def dataDirs : List String := ["ml_20m", "amz_b", "amz_g", "steam"]

/-- `target_dirs` (load_data.py:127) -/
def targetDirs : List String := ["graphics", "hyperparams", "metric_dynamics", "ablation_study"]

/-- `prepare_extra_dirs` (load_data.py:125-133) -/
def prepareExtraDirs : FsM C Unit := do
  dataDirs.forM fun d => targetDirs.forM fun t => mkdirP ["results", d, t]
  dataDirs.forM fun d => mkdirP ["configs", d]

/-- `load_data` (load_data.py:135-140) -/
def loadData (E : LoadEnv C) : FsM C Unit := do
  loadMl20m E
  loadAmazon E "amz_b"
  loadAmazon E "amz_g"
  loadSteamFile E
  prepareExtraDirs

/-! ### Files of the other scripts -/

/-- The files read by `prepare_data` (prepare_data.py:42, 58 with 100-101, 79), one for each data set. -/
def prepareReads : List FPath :=
  [["data", "ml_20m", "ratings.csv"], ["data", "amz_b", "amz_b.gz"], ["data", "amz_g", "amz_g.gz"],
    ["data", "steam", "steam.csv"]]

/-- The files written for a data set: the two tables of `prepare_data.py` (lines 53-54, 74-75, 95-96) and its
`data_dynamics.json` (123), the tables of the search (hyperparameters_search.py:107, 238), the results of the experiments
and of the ablation study (source/experiments/dynamical_experiment.py:246, dynamical_ablation_study.py:105), the figures
(prepare_graphs.py of the root and of the experiments, configs/*/config.py: hyperparams_dir and below). -/
def scriptWrites (d : String) (name figure : String) : List FPath :=
  [["data", d, "data_stats.csv"], ["data", d, "prepared_data.csv"],
    ["results", d, "metric_dynamics", "data_dynamics.json"],
    ["results", d, "hyperparams", "svd.csv"], ["results", d, "hyperparams", "tdrec.csv"],
    ["results", d, "metric_dynamics", name ++ ".json"],
    ["results", d, "graphics", figure], ["results", d, "ablation_study", figure]]

end DynCF
