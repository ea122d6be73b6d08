/-
Model of `/repo/source/experiments/prepare_model.py`, of `full_dynamical_experiment`
(source/experiments/dynamical_experiment.py:176-249) and of the choices made by the scripts
`/repo/dynamical_experiment.py` and `/repo/dynamical_ablation_study.py`.
-/
import Verif.Model.Experiment
import Verif.Model.ExperimentData
import Verif.Model.HyperSearch
import Verif.Model.RandomRec
import Verif.Model.TIRec

namespace DynCF
variable {K : Type}

/-! ### The recommender classes as seen by the experiment -/

/-- What `get_factors()` returns, for the one class whose `train` takes it (`TDRecRe`). -/
abbrev FacArg (K : Type) := Option (Fac K)

/-- The object before `train`: no mappings. The experiment always trains first. -/
def noMaps : Mappings := ⟨⟨[], [], 0⟩, ⟨[], [], 0⟩⟩

variable [Field K] [LinearOrder K]

/-- models/svd.py: the object is `none` before the first training. `SVD` has no method `update`;
`train` takes one argument. -/
def svdClass (env : PSIEnv K) (argp : ArgPart K) (c : PSICfg) :
    RecModel K (Option (PSIState K)) (FacArg K) where
  train _ d := do
    let s ← svdTrain env c d.rows
    pure (some s)
  update _ _ := .error .attributeError
  updateRe _ _ _ _ := .error .typeError
  recommend s us k internal :=
    match s with
    | none => .error .attributeError
    | some st => do
      let r ← psiRecommend argp st us k true internal
      pure (r, some st)
  maps s := (s.map PSIState.maps).getD noMaps
  factors _ := none
  nItems s := ((s.map fun st => st.vt.cols)).getD 0
  getU s := match s with | none => .error .attributeError | some st => .ok st.u
  getV s := match s with | none => .error .attributeError | some st => .ok st.vt.T

/-- models/psi.py: `PSI` inherits from `SVD` and adds `update`. -/
def psiClass (env : PSIEnv K) (argp : ArgPart K) (c : PSICfg) :
    RecModel K (Option (PSIState K)) (FacArg K) :=
  { svdClass env argp c with
    update := fun s d =>
      match s with
      | none => .error .typeError
      | some st => do
        let st' ← psiUpdate env c st d.rows
        pure (some st') }

/-- The sequential history of the object (an empty dictionary before the first training). -/
def histOf (s : Option (TDState K)) : SeqHist := (s.map TDState.seqHist).getD []

/-- models/tdrec.py. A table without `position` column raises `KeyError` (tdrec.py:191). -/
def tdClass (argp : ArgPart K) (c : TDCfg K) (m : TDAtt K) :
    RecModel K (Option (TDState K)) (FacArg K) where
  train s d :=
    match d with
    | .plain _ => .error .keyError
    | .posed rows => do
      let st ← tdTrain c m (none : Option (ExitCallback K Unit)) () (histOf s) rows
      pure (some st)
  update _ _ := .error .attributeError
  updateRe _ _ _ _ := .error .typeError
  recommend s us k internal :=
    match s with
    | none => .error .attributeError
    | some st => do
      let r ← tdRecommend argp st us k true internal
      pure (r, some st)
  maps s := (s.map TDState.maps).getD noMaps
  factors s := s.map fun st => ⟨st.u, st.v, st.w⟩
  nItems s := ((s.map fun st => st.v.rows)).getD 0
  getU s := match s with | none => .error .attributeError | some st => .ok st.u
  getV s := match s with | none => .error .attributeError | some st => .ok st.v

/-- models/tdrec_reinit.py: `train` with optional factors and mappings. -/
def tdReClass (argp : ArgPart K) (c : TDCfg K) (m : TDAtt K) :
    RecModel K (Option (TDState K)) (FacArg K) :=
  { tdClass argp c m with
    train := fun s d =>
      match d with
      | .plain _ => .error .keyError
      | .posed rows => do
        let st ← tdReTrain c m (histOf s) rows none none
        pure (some st)
    updateRe := fun s d f mp =>
      match d with
      | .plain _ => .error .keyError
      | .posed rows => do
        let st ← tdReTrain c m (histOf s) rows f (some mp)
        pure (some st) }

/-- models/tirec.py and models/tirec_accelerated.py: `update` (with `sort_bool=True`) is added. The
rows given to it carry no `position` column. -/
def tiClass (rounds : TIRounds K) (argp : ArgPart K) (c : TICfg K) (m : TDAtt K) :
    RecModel K (Option (TDState K)) (FacArg K) :=
  { tdClass argp c.td m with
    update := fun s d =>
      match s with
      | none => .error .typeError
      | some st => do
        let st' ← tiUpdate rounds c m st d.rows true
        pure (some st') }

/-- models/random_rec.py. The state holds how many normal numbers have been drawn; `normals` is the
stream of `np.random.RandomState(13)`. The class has no `get_u`, `get_v` and `get_factors`. -/
def randomClass (argp : ArgPart K) (normals : ℕ → K) : RecModel K (Option RecView × ℕ) (FacArg K) where
  train s d :=
    match d with
    | .plain _ => .error .keyError
    | .posed rows => do
      let v ← randomTrain (rows.map PRow.row)
      pure (some v, s.2)
  update _ _ := .error .attributeError
  updateRe _ _ _ _ := .error .typeError
  recommend s us k internal :=
    match s.1 with
    | none => .error .typeError
    | some v => do
      let r ← randomRecommend argp v (fun i j => normals (s.2 + i * v.nItems + j)) us k true internal
      pure (r, (some v, s.2 + us.length * v.nItems))
  maps s := (s.1.map RecView.maps).getD noMaps
  factors _ := none
  nItems s := (s.1.map RecView.nItems).getD 0
  getU _ := .error .attributeError
  getV _ := .error .attributeError

/-- `'update_fuction': model.train` instead of `model.update`. -/
def useTrain {σ F : Type} (M : RecModel K σ F) : RecModel K σ F := { M with update := M.train }

/-! ### `prepare_model` -/

/-- `config['fixed_config_svd']` -/
structure FixedSvd where
  nPower : ℕ
  os : ℕ

/-- `config['fixed_config_tdrec']` -/
structure FixedTd where
  seqLen : ℕ
  nPower : ℕ
  os : ℕ
  parallel : Bool
  force : Bool

/-- The dictionary `config`. The scripts store only one of the two `fixed_config_…` entries
(dynamical_experiment.py:37-42). -/
structure RunCfg (K : Type) where
  dataset : Dataset
  topk : ℕ
  initRatio : K
  hmMin : Option ℤ
  howMany : ℤ
  maxLen : ℕ
  fixedSvd : Option FixedSvd
  fixedTd : Option FixedTd

/-- Everything outside the library: linear algebra, random draws, sorting, clock, norms, powers
and the two result files of the hyper-parameter search. -/
structure RunEnv (K : Type) where
  psi : PSIEnv K
  argp : ArgPart K
  la : LinAlg K
  initRng : ℕ → Rng K
  rsvdRng : ℕ → ℕ → Rng K
  vecRng : ℕ → Rng K
  matRng : ℕ → ℕ → Rng K
  normal : Rng K
  normals : ℕ → K
  normT : Ten K → K
  normM : Mat K → K
  clock : ℕ → K
  /-- `float(i) ** att_f` -/
  pow : K → ℕ → K
  /-- the constant `0.01` -/
  growthTol : K
  sortDay : List (Row K) → List (Row K)
  sortCnt : List (ℤ × ℕ) → List (ℤ × ℕ)
  svdCsv : List (SvdRow K)
  tdCsv : List (TdRow K)

/-- The recommender object built by `prepare_model`. -/
inductive RecObj (K : Type) where
  | svd (c : PSICfg)
  | psi (c : PSICfg)
  | td (c : TDCfg K) (m : TDAtt K)
  | tdRe (c : TDCfg K) (m : TDAtt K)
  | ti (c : TICfg K) (m : TDAtt K)
  | tiA (c : TICfg K) (m : TDAtt K)
  | random

/-- The dictionary returned by `prepare_model`; `byTrain` says whether `update_fuction` is the method
`train` or `update` of the object. -/
structure Prepared (K : Type) where
  obj : RecObj K
  byTrain : Bool
  chunkMode : Bool
  reinit : Bool
  threeD : Bool
  maxLen : Option ℕ

/-- A rank read from the file as the size used by the factorisation; negative ranks are refused. -/
def natRank (r : ℤ) : PyM ℕ := if 0 ≤ r then .ok r.toNat else .error .outOfModel

/-- A rank triple read from the file; tuples of another length are refused. -/
def natRank3 (r : List ℤ) : PyM (ℕ × ℕ × ℕ) :=
  match r with
  | [a, b, c] => do
    let a ← natRank a
    let b ← natRank b
    let c ← natRank c
    pure (a, b, c)
  | _ => .error .outOfModel

/-- `config[key]` -/
def cfgGet {α : Type} : Option α → PyM α
  | some a => .ok a
  | none => .error .keyError

/-- prepare_model.py:17-18, 29-30: the selected rank and the constructor of `SVD` and `PSI`
(psi.py:40-41: `_init_new_embeddings = None`, `_nu_ni_process_integrator = False`). -/
def prepSvdCfg (env : RunEnv K) (cfg : RunCfg K) : PyM PSICfg := do
  let r ← getOptimalSvdRank cfg.dataset env.svdCsv
  let f ← cfgGet cfg.fixedSvd
  let r ← natRank r
  pure ⟨r, f.nPower, f.os, none, false⟩

/-- prepare_model.py:41-42 (= 53-54, 65-66, 77-78): the selected rank and attention exponent; the
third selected value, `n_iter`, is thrown away and the default `25` of the constructor is used. -/
def prepTdCfg (env : RunEnv K) (cfg : RunCfg K) : PyM (TDCfg K) := do
  let p ← getOptimalTdrecParams cfg.dataset env.tdCsv
  let f ← cfgGet cfg.fixedTd
  let r ← natRank3 p.1
  pure { hooi := ⟨env.la, env.initRng, env.rsvdRng, r, f.nPower, f.os, f.parallel⟩
         normOf := env.normT
         seqLen := f.seqLen
         attF := some (env.pow p.2.1)
         nIter := 25
         growthTol := env.growthTol
         force := f.force }

/-- prepare_model.py:65-66, 77-78: `att_light_mode = False`, `explicit_calc = True` (tirec.py:113-114),
zero embeddings without integrator (tirec_accelerated.py:117-121). -/
def prepTiCfg (env : RunEnv K) (c : TDCfg K) : TICfg K :=
  ⟨c, false, true, env.vecRng, env.matRng, env.normal, .zero, false⟩

/-- prepare_model.py:16-26 -/
def prepareSvd (env : RunEnv K) (cfg : RunCfg K) : PyM (Prepared K) := do
  let c ← prepSvdCfg env cfg
  pure ⟨.svd c, true, false, false, false, none⟩

/-- prepare_model.py:28-38 -/
def preparePsi (env : RunEnv K) (cfg : RunCfg K) : PyM (Prepared K) := do
  let c ← prepSvdCfg env cfg
  pure ⟨.psi c, false, true, false, false, none⟩

/-- prepare_model.py:40-50 -/
def prepareTd (env : RunEnv K) (cfg : RunCfg K) : PyM (Prepared K) := do
  let c ← prepTdCfg env cfg
  let m ← tdInit c
  pure ⟨.td c m, true, false, false, true, some cfg.maxLen⟩

/-- prepare_model.py:52-62 -/
def prepareTdRe (env : RunEnv K) (cfg : RunCfg K) : PyM (Prepared K) := do
  let c ← prepTdCfg env cfg
  let m ← tdInit c
  pure ⟨.tdRe c m, true, false, true, true, some cfg.maxLen⟩

/-- prepare_model.py:64-74 -/
def prepareTi (env : RunEnv K) (cfg : RunCfg K) : PyM (Prepared K) := do
  let c ← prepTdCfg env cfg
  let m ← tdInit c
  pure ⟨.ti (prepTiCfg env c) m, false, true, false, true, some cfg.maxLen⟩

/-- prepare_model.py:76-86 -/
def prepareTiA (env : RunEnv K) (cfg : RunCfg K) : PyM (Prepared K) := do
  let c ← prepTdCfg env cfg
  let m ← tdInit c
  pure ⟨.tiA (prepTiCfg env c) m, false, true, false, true, some cfg.maxLen⟩

/-- prepare_model.py:88-97 -/
def prepareRandom (cfg : RunCfg K) : PyM (Prepared K) :=
  .ok ⟨.random, true, false, false, true, some cfg.maxLen⟩

/-- prepare_model.py:98-116 `prepare_model` -/
def prepareModel (env : RunEnv K) (cfg : RunCfg K) (name : String) : PyM (Prepared K) :=
  if name = "SVD" then prepareSvd env cfg
  else if name = "PSIRec" then preparePsi env cfg
  else if name = "TDRec" then prepareTd env cfg
  else if name = "TDRecReinit" then prepareTdRe env cfg
  else if name = "TIRec" then prepareTi env cfg
  else if name = "TIRecA" then prepareTiA env cfg
  else if name = "Random" then prepareRandom cfg
  else .error .runtimeError

/-! ### The whole experiment -/

/-- dynamical_experiment.py:236-244: the call of `dynamical_experiment`. -/
def expCfgOf (env : RunEnv K) (cfg : RunCfg K) (p : Prepared K) (users : List ℤ) : ExpCfg K :=
  ⟨users, cfg.topk, p.maxLen.getD 0, cfg.howMany, p.chunkMode, p.reinit, p.threeD, env.normM, env.clock⟩

/-- `update_fuction` of the prepared object. -/
def withUpdate {σ F : Type} (byTrain : Bool) (M : RecModel K σ F) : RecModel K σ F :=
  if byTrain then useTrain M else M

/-- Run an experiment and keep the returned dictionary. -/
def runWith {σ F : Type} (M : RecModel K σ F) (e : ExpCfg K) (s0 : σ) (initial : Tab K)
    (stream : List (List (Row K))) : PyM (Dynamics K) := do
  let st ← dynamicalExperiment M e s0 initial stream
  pure st.dyn

/-- dynamical_experiment.py:236-244 for the class of the object. -/
def runPrepared (env : RunEnv K) (e : ExpCfg K) (p : Prepared K) (initial : Tab K)
    (stream : List (List (Row K))) : PyM (Dynamics K) :=
  match p.obj with
  | .svd c => runWith (withUpdate p.byTrain (svdClass env.psi env.argp c)) e none initial stream
  | .psi c => runWith (withUpdate p.byTrain (psiClass env.psi env.argp c)) e none initial stream
  | .td c m => runWith (withUpdate p.byTrain (tdClass env.argp c m)) e none initial stream
  | .tdRe c m => runWith (withUpdate p.byTrain (tdReClass env.argp c m)) e none initial stream
  | .ti c m => runWith (withUpdate p.byTrain (tiClass tirecRounds env.argp c m)) e none initial stream
  | .tiA c m => runWith (withUpdate p.byTrain (tiClass tirecaMiddle env.argp c m)) e none initial stream
  | .random => runWith (withUpdate p.byTrain (randomClass env.argp env.normals)) e (none, 0) initial stream

/-- dynamical_experiment.py:216-225: the initial table for the requested dimension. -/
def initialTable (dim : String) (maxLen : ℕ) (initial : List (Row K)) : PyM (Tab K) :=
  if dim = "3d" then do
    let t ← getDfWithCroppedPos initial maxLen true
    pure (.posed t)
  else if dim = "2d" then .ok (.plain initial)
  else .error .runtimeError

/-- dynamical_experiment.py:176-249 `full_dynamical_experiment` on the rows of the prepared file;
writing the result file is left out. -/
def fullDynamicalExperiment [FloorRing K] (env : RunEnv K) (cfg : RunCfg K) (name dim : String)
    (data : List (IRow K)) : PyM (Dynamics K) := do
  let d ← prepareDataForExperiment env.sortDay data cfg.initRatio cfg.hmMin
  let t ← initialTable dim cfg.maxLen d.1
  let users := getUsersStability env.sortCnt t.rows d.2.2 cfg.howMany
  let p ← prepareModel env cfg name
  runPrepared env (expCfgOf env cfg p users) p t (d.2.1.map Prod.snd)

/-- /repo/dynamical_experiment.py:37-44: the dimension and the fixed configuration for a name. -/
def scriptChoice (fs : FixedSvd) (ft : FixedTd) (name : String) :
    PyM (String × Option FixedSvd × Option FixedTd) :=
  if name ∈ ["SVD", "PSIRec"] then .ok ("2d", some fs, none)
  else if name ∈ ["TDRec", "TDRecReinit", "TIRec", "TIRecA", "Random"] then .ok ("3d", none, some ft)
  else .error .runtimeError

/-- /repo/dynamical_experiment.py: the script. -/
def runScript [FloorRing K] (env : RunEnv K) (cfg : RunCfg K) (fs : FixedSvd) (ft : FixedTd)
    (name : String) (data : List (IRow K)) : PyM (Dynamics K) := do
  let s ← scriptChoice fs ft name
  fullDynamicalExperiment env { cfg with fixedSvd := s.2.1, fixedTd := s.2.2 } name s.1 data

/-- /repo/dynamical_ablation_study.py:84-85: the two attributes are overwritten after the object has
been prepared; an object of another class would only get unused attributes. -/
def ablate (init : Emb) (integrator : Bool) (p : Prepared K) : Prepared K :=
  match p.obj with
  | .psi c => { p with obj := .psi { c with init := some init, integrator := integrator } }
  | .tiA c m => { p with obj := .tiA { c with init := init, integrator := integrator } m }
  | _ => p

end DynCF
