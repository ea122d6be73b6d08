/- Model of `/repo/source/experiments/hyperparameters_search.py`. -/
import Verif.Model.RandomGrid
import Verif.Model.TDRec
import Verif.Model.Evaluation

namespace DynCF
variable {K : Type}

/-! ### The early-stopping callback -/

/-- The attributes of `exit_callback`. -/
structure CbState (K : Type) where
  maxMetric : K
  nIter : ℤ
  metricList : List K
  deriving DecidableEq

/-- hyperparameters_search.py:160-162: the attributes at the start. -/
def cbStart [Zero K] : CbState K := ⟨0, 1, []⟩

/-- hyperparameters_search.py:150-159: the decision on a score. -/
def cbStep [LinearOrder K] (relax : ℤ) (st : CbState K) (score : K) : Bool × CbState K :=
  if score ≤ st.maxMetric ∧ st.nIter > relax then (true, st)
  else if st.maxMetric < score then (false, ⟨score, 1, st.metricList ++ [score]⟩)
  else (false, ⟨st.maxMetric, st.nIter + 1, st.metricList ++ [score]⟩)

/-- hyperparameters_search.py:136-163 `prepare_exit_callback`; `score` is what lines 144-149
compute from the factors and the core (see `tdScore`). -/
def exitCallback [LinearOrder K] (score : Fac K → Ten K → PyM K) (relax : ℤ) :
    ExitCallback K (CbState K) := fun st f g => do
  let s ← score f g
  pure (cbStep relax st s)

/-- hyperparameters_search.py:144-146 (= tdrec.py:218-219): the object with the given factors. -/
def tdWithFactors [Field K] (m : TDAtt K) (maps : Mappings) (history : List (ℤ × ℤ)) (sh : SeqHist)
    (f : Fac K) (core : Option (Ten K)) : PyM (TDState K) := do
  let aw ← m.att.dot f.f2
  let lw ← m.attInv.T.dot f.f2
  let last ← lw.row (-1)
  pure ⟨maps, history, sh, f.f0, f.f1, f.f2, core, aw, ⟨_, last⟩⟩

/-- hyperparameters_search.py:147-149: the metric of a model on the validation table. -/
def tdMetric [Field K] (argp : ArgPart K) (metric : List (List ℤ) → List ℤ → PyM K)
    (valid : List (Row K)) (topk : ℕ) (s : TDState K) : PyM K := do
  let ut := getUsersToRecommendTestItems valid s.maps
  let rec_ ← tdRecommend argp s ut.1 topk true false
  metric rec_ ut.2

/-- hyperparameters_search.py:144-149: the score of factors and core inside the callback. -/
def tdScore [Field K] (argp : ArgPart K) (metric : List (List ℤ) → List ℤ → PyM K)
    (valid : List (Row K)) (topk : ℕ) (m : TDAtt K) (maps : Mappings) (history : List (ℤ × ℤ))
    (sh : SeqHist) (f : Fac K) (core : Ten K) : PyM K := do
  let s ← tdWithFactors m maps history sh f (some core)
  tdMetric argp metric valid topk s

/-- hyperparameters_search.py:182-186: construct a model, train it with the callback, return the
recorded scores (tdrec.py:166-219 with the callback state kept). -/
def tdSearchTrain [Field K] [LinearOrder K] (argp : ArgPart K)
    (metric : List (List ℤ) → List ℤ → PyM K) (valid : List (Row K)) (topk : ℕ) (relax : ℤ)
    (c : TDCfg K) (train : List (PRow K)) : PyM (TDState K × List K) := do
  let m ← tdInit c
  let r ← getDfWithUpdatedIndices (train.map PRow.row)
  let data := withPos r.1 train
  let t ← trainTensor data
  let history := data.map fun p => (p.row.user, p.row.item)
  let sh := updateUserSeqHistory t.inds [] c.seqLen
  let cb := exitCallback (tdScore argp metric valid topk m r.2 history sh) relax
  let g ← gaSatf c.hooi c.normOf (t.inds.map Inter.ind) t.vals t.shape m.att c.nIter c.growthTol
    (some cb) cbStart none c.force
  let s ← tdWithFactors m r.2 history sh g.1.1 g.1.2
  pure (s, g.2.metricList)

/-- hyperparameters_search.py:165-192 `get_hparams_metric_grid_tdrec`. `order` is the iteration
order of the set of configurations, `scores c` trains the model of configuration `c` and gives the
recorded scores. A row: configuration, `n_iter`, score. -/
def hparamsGridTdrec {α : Type} [DecidableEq α] (order : Finset (List α) → List (List α))
    (params : List (String × List α)) (scores : List α → PyM (List K)) :
    PyM (List (List α × ℕ × K)) := do
  let g ← fullGrid params
  let l ← (order g.1).mapM fun c => do
    let s ← scores c
    pure (s.mapIdx fun j x => (c, j + 1, x))
  pure l.flatten

/-- hyperparameters_search.py:44-67 `get_hparams_metric_grid_svd`. A row: configuration, score. -/
def hparamsGridSvd {α : Type} [DecidableEq α] (order : Finset (List α) → List (List α))
    (params : List (String × List α)) (score : List α → PyM K) : PyM (List (List α × K)) := do
  let g ← fullGrid params
  (order g.1).mapM fun c => do
    let s ← score c
    pure (c, s)

/-! ### Selection of the parameters -/

/-- The data set names; `import_config` refuses any other. -/
inductive Dataset
  | ml20m | amzB | amzG | steam | other
  deriving DecidableEq

/-- `Series.argmin()`: the first place of the smallest value. Returned is the row (`iloc`). The series
can only be empty where its type is `object`, for which pandas refuses `argmin` with a `TypeError`:
the ranks of TDRec are tuples, and `apply` on an empty series keeps its type; in `svd.csv` the
selection contains a maximal row unless the file has no rows, and then every column is `object`. -/
def firstMin {β : Type} (f : β → ℤ) : List β → PyM β
  | [] => .error .typeError
  | x :: xs => .ok (xs.foldl (fun b y => if f y < f b then y else b) x)

/-- `Series.max()`; the maximum of no values is not a number, which no comparison accepts. -/
def maxOf? [LinearOrder K] : List K → Option K
  | [] => none
  | x :: xs => some (xs.foldl max x)

/-- `series >= bound` as a filter of the rows. -/
def geMask {β : Type} [LinearOrder K] (m : β → K) (bound : Option K) (rows : List β) : List β :=
  match bound with
  | none => []
  | some b => rows.filter fun r => decide (b ≤ m r)

/-- A row of `svd.csv`. -/
structure SvdRow (K : Type) where
  rank : ℤ
  metric : K
  deriving DecidableEq

/-- hyperparameters_search.py:110-130 `get_optimal_svd_rank` on the rows of the file (the four
branches are equal). -/
def getOptimalSvdRank [LinearOrder K] (ds : Dataset) (rows : List (SvdRow K)) : PyM ℤ :=
  match ds with
  | .other => .error .runtimeError
  | _ => do
    let r ← firstMin SvdRow.rank (geMask SvdRow.metric (maxOf? (rows.map SvdRow.metric)) rows)
    pure r.rank

/-- A row of `tdrec.csv`. -/
structure TdRow (K : Type) where
  rank : List ℤ
  attF : K
  nIter : ℤ
  metric : K
  deriving DecidableEq

/-- `sort_values(ascending=False).unique()[1]`: the second largest distinct value. -/
def secondLargest [LinearOrder K] (l : List K) : PyM K :=
  match (pdUnique (stableSort (fun a b => decide (b ≤ a)) l))[1]? with
  | none => .error .indexError
  | some x => .ok x

/-- hyperparameters_search.py:241-279 `get_optimal_tdrec_params` on the rows of the file. -/
def getOptimalTdrecParams [LinearOrder K] [Zero K] (ds : Dataset) (rows : List (TdRow K)) :
    PyM (List ℤ × K × ℤ) :=
  match ds with
  | .other => .error .runtimeError
  | .ml20m => do
    let rows := rows.filter fun r => decide (r.nIter ≤ 5)
    let masked := (geMask TdRow.metric (maxOf? (rows.map TdRow.metric)) rows).filter
      fun r => decide (r.attF ≠ 0)
    let r ← firstMin (fun r => r.rank.prod) masked
    pure (r.rank, r.attF, r.nIter)
  | .amzG => do
    let rows := rows.filter fun r => decide (r.nIter ≤ 5)
    let b ← secondLargest (rows.map TdRow.metric)
    let r ← firstMin (fun r => r.rank.prod) (geMask TdRow.metric (some b) rows)
    pure (r.rank, r.attF, r.nIter)
  | _ => do
    let rows := rows.filter fun r => decide (r.nIter ≤ 5)
    let r ← firstMin (fun r => r.rank.prod)
      (geMask TdRow.metric (maxOf? (rows.map TdRow.metric)) rows)
    pure (r.rank, r.attF, r.nIter)

end DynCF
