/-
Model of `dynamical_experiment` (source/experiments/dynamical_experiment.py:23-174) and
`prepare_model`'s choices (source/experiments/prepare_model.py).

The recommender is a parameter: any object with the interface the experiment uses. Its mutable
state is threaded explicitly, so `recommend` may change it (the random recommender does). Values
returned by `get_u`/`get_v` are snapshots: no model of the library writes into those arrays, they
are always rebound.
-/
import Verif.Model.TiData
import Verif.Model.Evaluation
import Verif.Py.Array

namespace DynCF
variable {K : Type}

/-- A data frame given to a model: without or with its `position` column. -/
inductive Tab (K : Type) where
  | plain (rows : List (Row K))
  | posed (rows : List (PRow K))

/-- The rows of a table, i.e. `df[[i for i in df.columns if i != POSITION_ID]]`
(dynamical_experiment.py:157). -/
def Tab.rows : Tab K → List (Row K)
  | .plain r => r
  | .posed r => r.map PRow.row

/-- The part of the recommender interface used by the experiment. `σ` is the state of the object,
`F` the type of what `get_factors()` returns. -/
structure RecModel (K σ F : Type) where
  /-- `rec_model.train(data)` -/
  train : σ → Tab K → PyM σ
  /-- `update_fuction(data)` -/
  update : σ → Tab K → PyM σ
  /-- `update_fuction(data, factors_init_list, previous_mappings)` -/
  updateRe : σ → Tab K → F → Mappings → PyM σ
  /-- `rec_model.recommend(users, k, internal=…)` -/
  recommend : σ → List ℤ → ℕ → Bool → PyM (List (List ℤ) × σ)
  maps : σ → Mappings
  factors : σ → F
  nItems : σ → ℕ
  /-- `rec_model.get_u()`; a model without the method raises `AttributeError` -/
  getU : σ → PyM (Mat K)
  /-- `rec_model.get_v()` -/
  getV : σ → PyM (Mat K)

/-- The parameters of `dynamical_experiment` (lines 24-36). `normOf` is
`np.linalg.norm(·, ord='fro')`, `clock` the successive readings of `time()`. -/
structure ExpCfg (K : Type) where
  testUsers : List ℤ
  kRecs : ℕ
  maxLen : ℕ
  howMany : ℤ
  chunkMode : Bool
  reinit : Bool
  threeD : Bool
  normOf : Mat K → K
  clock : ℕ → K

/-- A float result of a numpy division: finite, infinite or not a number. -/
inductive Num (K : Type) where
  | fin (x : K)
  | inf
  | nan
  deriving DecidableEq

/-- The lists of `dynamics_dict` (lines 77-86). -/
structure Dynamics (K : Type) where
  times : List K := []
  hr : List K := []
  mrr : List K := []
  wji : List K := []
  rndUsers : List (Num K) := []
  rndItems : List (Num K) := []
  ndUsers : List K := []
  ndItems : List K := []

/-- The variables of the loop. Local variables that may be unbound are `Option`s. -/
structure ExpState (K σ : Type) where
  model : σ
  conc : Tab K
  ticks : ℕ
  dyn : Dynamics K
  recT1 : Option (List (List ℤ)) := none
  recT2 : Option (List (List ℤ)) := none
  u1 : Option (Mat K) := none
  v1 : Option (Mat K) := none
  u2 : Option (Mat K) := none
  v2 : Option (Mat K) := none

/-- Reading a local variable. -/
def bound {α : Type} : Option α → PyM α
  | some a => .ok a
  | none => .error .unboundLocalError

variable [Field K] [LinearOrder K]

/-- numpy's `a / b` for the non-negative scalars produced by norms: no exception. -/
def npDiv (a b : K) : Num K := if b = 0 then (if a = 0 then .nan else .inf) else .fin (a / b)

/-- general_functions.py:26-30 `rel_norm(a, b)`. -/
def relNormM (normOf : Mat K → K) (a b : Mat K) : PyM (Num K) := do
  let d ← a.sub b
  pure (npDiv (normOf d) (normOf a))

/-- lines 119-122 (also 123-126, 132-135, 137-140): zero rows are added below the older matrix
when it has fewer rows. Assigning a block of another width raises `ValueError` (numpy would
broadcast a single column: refused). -/
def padTo (a1 a2 : Mat K) : PyM (Mat K) :=
  if a2.rows > a1.rows then
    if h : a1.cols = a2.cols then
      .ok ⟨a2.rows, a2.cols, Matrix.of fun i j =>
        if hi : i.1 < a1.rows then a1.val ⟨i.1, hi⟩ (Fin.cast h.symm j) else 0⟩
    else if a1.cols = 1 then .error .outOfModel else .error .valueError
  else .ok a1

/-- `rel_norm(a2 - a1, a2)` (lines 127, 128, 136, 144). -/
def driftOf (normOf : Mat K → K) (a1 a2 : Mat K) : PyM (Num K) := do
  let d ← a2.sub a1
  relNormM normOf d a2

/-- lines 102-111: stability of the recommendations. -/
def stabilityStep {σ F : Type} (M : RecModel K σ F) (cfg : ExpCfg K) (i : ℕ) (st : ExpState K σ) :
    PyM (ExpState K σ) :=
  if i = 1 then do
    let r ← M.recommend st.model cfg.testUsers cfg.kRecs true
    pure { st with model := r.2, recT1 := some r.1 }
  else if i = 2 then do
    let r ← M.recommend st.model cfg.testUsers cfg.kRecs true
    let r1 ← bound st.recT1
    let w ← wjiSim r1 r.1 (M.nItems r.2)
    pure { st with model := r.2, recT2 := some r.1, dyn := { st.dyn with wji := st.dyn.wji ++ [w] } }
  else do
    let r1 ← bound st.recT2
    let r ← M.recommend st.model cfg.testUsers cfg.kRecs true
    let w ← wjiSim r1 r.1 (M.nItems r.2)
    pure { st with model := r.2, recT1 := some r1, recT2 := some r.1,
                   dyn := { st.dyn with wji := st.dyn.wji ++ [w] } }

/-- lines 141-144: from the third step on, `-1` is recorded when the item matrix has shrunk. -/
def itemDriftLater (normOf : Mat K → K) (v1 v2 : Mat K) : PyM (Num K) :=
  if v2.rows < v1.rows then .ok (.fin (-1)) else driftOf normOf v1 v2

/-- lines 114-144: drift of the embeddings. -/
def driftStep {σ F : Type} (M : RecModel K σ F) (cfg : ExpCfg K) (i : ℕ) (st : ExpState K σ) :
    PyM (ExpState K σ) :=
  if i = 1 then do
    let u1 ← M.getU st.model
    let v1 ← M.getV st.model
    pure { st with u1 := some u1, v1 := some v1 }
  else if i = 2 then do
    let u2 ← M.getU st.model
    let v2 ← M.getV st.model
    let u1 ← bound st.u1
    let u1 ← padTo u1 u2
    let v1 ← bound st.v1
    let v1 ← padTo v1 v2
    let du ← driftOf cfg.normOf u1 u2
    let dv ← driftOf cfg.normOf v1 v2
    pure { st with u1 := some u1, v1 := some v1, u2 := some u2, v2 := some v2,
                   dyn := { st.dyn with rndUsers := st.dyn.rndUsers ++ [du],
                                        rndItems := st.dyn.rndItems ++ [dv] } }
  else do
    let u1 ← bound st.u2
    let v1 ← bound st.v2
    let u2 ← M.getU st.model
    let v2 ← M.getV st.model
    let u1 ← padTo u1 u2
    let du ← driftOf cfg.normOf u1 u2
    let v1 ← padTo v1 v2
    let dv ← itemDriftLater cfg.normOf v1 v2
    pure { st with u1 := some u1, v1 := some v1, u2 := some u2, v2 := some v2,
                   dyn := { st.dyn with rndUsers := st.dyn.rndUsers ++ [du],
                                        rndItems := st.dyn.rndItems ++ [dv] } }

/-- lines 95-101: quality metrics on the chunk, before the model has seen it. -/
def scoreStep {σ F : Type} (M : RecModel K σ F) (cfg : ExpCfg K) (chunk : List (Row K))
    (st : ExpState K σ) : PyM (ExpState K σ) := do
  let ut := getUsersToRecommendTestItems chunk (M.maps st.model)
  let r ← M.recommend st.model ut.1 cfg.kRecs false
  let h ← hr r.1 ut.2
  let m ← mrr r.1 ut.2
  pure { st with model := r.2, dyn := { st.dyn with hr := st.dyn.hr ++ [h], mrr := st.dyn.mrr ++ [m] } }

/-- lines 145-151: norms of the embeddings. -/
def normStep {σ F : Type} (M : RecModel K σ F) (cfg : ExpCfg K) (st : ExpState K σ) :
    PyM (ExpState K σ) := do
  let u ← M.getU st.model
  let v ← M.getV st.model
  pure { st with dyn := { st.dyn with ndUsers := st.dyn.ndUsers ++ [cfg.normOf u],
                                      ndItems := st.dyn.ndItems ++ [cfg.normOf v] } }

/-- lines 154-162: the concatenated data. Concatenating a table with a `position` column and a
chunk without one (two-dimensional mode on three-dimensional data) would produce missing values:
refused. -/
def concatStep (cfg : ExpCfg K) (conc : Tab K) (chunk : List (Row K)) : PyM (Tab K) :=
  if cfg.chunkMode then .ok conc
  else if cfg.threeD then do
    let t ← getDfWithCroppedPos (conc.rows ++ chunk) cfg.maxLen true
    pure (.posed t)
  else
    match conc with
    | .plain rows => .ok (.plain (rows ++ chunk))
    | .posed _ => .error .outOfModel

/-- lines 163-170: `update_fuction` on the chunk or on the concatenated data. -/
def updateStep {σ F : Type} (M : RecModel K σ F) (cfg : ExpCfg K) (s : σ) (conc : Tab K)
    (chunk : List (Row K)) : PyM σ :=
  let data := if cfg.chunkMode then Tab.plain chunk else conc
  if cfg.reinit then M.updateRe s data (M.factors s) (M.maps s) else M.update s data

/-- One iteration of the loop (lines 94-171) with `iter_number = i`. -/
def expStep {σ F : Type} (M : RecModel K σ F) (cfg : ExpCfg K) (i : ℕ) (chunk : List (Row K))
    (st : ExpState K σ) : PyM (ExpState K σ) := do
  let st ← scoreStep M cfg chunk st
  let st ← stabilityStep M cfg i st
  let st ← driftStep M cfg i st
  let st ← normStep M cfg st
  let conc ← concatStep cfg st.conc chunk
  let s ← updateStep M cfg st.model conc chunk
  pure { st with model := s, conc := conc, ticks := st.ticks + 2,
                 dyn := { st.dyn with times :=
                   st.dyn.times ++ [cfg.clock (st.ticks + 1) - cfg.clock st.ticks] } }

/-- lines 93-173: the loop, left early when `iter_number == how_many_iterations`. -/
def expLoop {σ F : Type} (M : RecModel K σ F) (cfg : ExpCfg K) :
    ℕ → List (List (Row K)) → ExpState K σ → PyM (ExpState K σ)
  | _, [], st => .ok st
  | i, chunk :: rest, st => do
    let st ← expStep M cfg i chunk st
    if (i : ℤ) = cfg.howMany then pure st else expLoop M cfg (i + 1) rest st

/-- lines 87-91: the first training. -/
def expInit {σ F : Type} (M : RecModel K σ F) (cfg : ExpCfg K) (s0 : σ) (initial : Tab K) :
    PyM (ExpState K σ) := do
  let s ← M.train s0 initial
  pure { model := s, conc := initial, ticks := 2,
         dyn := { times := [cfg.clock 1 - cfg.clock 0] } }

/-- dynamical_experiment.py:23-174 `dynamical_experiment`: the final state, whose field `dyn` is
the returned dictionary; `stream` lists the chunks of `data_stream` in iteration order. -/
def dynamicalExperiment {σ F : Type} (M : RecModel K σ F) (cfg : ExpCfg K) (s0 : σ)
    (initial : Tab K) (stream : List (List (Row K))) : PyM (ExpState K σ) := do
  let st ← expInit M cfg s0 initial
  expLoop M cfg 1 stream st

end DynCF
