/-
Model of `hyperparameters_search_svd` and `hyperparameters_search_tdrec`
(`/repo/source/experiments/hyperparameters_search.py`) from the prepared table to the saved file, as called by
`/repo/find_hyperparams.py`.
-/
import Verif.Model.PrepareModel

namespace DynCF
variable {K : Type}

/-- The search part of a configuration file (configs/*/config.py: `quantile_train`, `optional_config_svd`,
`optional_config_tdrec`). -/
structure SearchCfg (K : Type) where
  quantile : K
  svdRanks : List ℕ
  tdRanks : List (ℕ × ℕ × ℕ)
  attFs : List K

/-- A value of the grid for TDRec. -/
inductive TdParam (K : Type) where
  | rank (r : ℕ × ℕ × ℕ)
  | att (f : K)
  deriving DecidableEq

variable [Field K] [LinearOrder K]

/-- What the search uses besides `RunEnv`: the time stamps of days and the iteration orders of two sets. -/
structure SearchEnv (K : Type) [LinearOrder K] where
  stamp : ℤ → K
  orderSvd : Finset (List ℕ) → List (List ℕ)
  orderTd : Finset (List (TdParam K)) → List (List (TdParam K))

/-- hyperparameters_search.py:57-64: the score of one rank. -/
def svdSearchScore (env : RunEnv K) (fs : FixedSvd) (train valid : List (Row K)) (topk : ℕ) (c : List ℕ) :
    PyM K :=
  match c with
  | [r] => do
    let s ← svdTrain env.psi ⟨r, fs.nPower, fs.os, none, false⟩ train
    let ut := getUsersToRecommendTestItems valid s.maps
    let recs ← psiRecommend env.argp s ut.1 topk true false
    hr recs ut.2
  | _ => .error .typeError

/-- hyperparameters_search.py:69-108 `hyperparameters_search_svd`; returned are the rows of `svd.csv`. -/
def hyperparametersSearchSvd [FloorRing K] (env : RunEnv K) (se : SearchEnv K) (cfg : RunCfg K) (sc : SearchCfg K)
    (fs : FixedSvd) (data : List (IRow K)) : PyM (List (SvdRow K)) := do
  let d ← prepareDataForExperiment env.sortDay data cfg.initRatio none
  let tv ← trainTestSplit se.stamp d.1 sc.quantile
  let table ← hparamsGridSvd se.orderSvd [("rank", sc.svdRanks)] (svdSearchScore env fs tv.1 tv.2 cfg.topk)
  pure (table.map fun p => ⟨(p.1.headD 0 : ℕ), p.2⟩)

/-- prepare_data.py:64-69 `train_test_split` on a table with positions. -/
def trainTestSplitP [FloorRing K] (stamp : ℤ → K) (data : List (PRow K)) (q : K) :
    PyM (List (PRow K) × List (PRow K)) :=
  if q < 0 ∨ 1 < q then .error .valueError
  else if data.isEmpty then .error .outOfModel
  else
    let dd := data.map fun p => stamp p.row.day
    let sorted := stableSort (fun a b => decide (a ≤ b)) dd
    let i := roundHalfEven (((data.length : K) - 1) * q)
    match sorted[i.toNat]? with
    | none => .error .indexError
    | some t => .ok (data.filter fun p => !decide (t ≤ stamp p.row.day),
        data.filter fun p => decide (t ≤ stamp p.row.day))

/-- hyperparameters_search.py:181-182: the constructor call of the search; `n_iter` is the default 25. -/
def tdSearchCfg (env : RunEnv K) (f : FixedTd) (r : ℕ × ℕ × ℕ) (a : K) : TDCfg K :=
  { hooi := ⟨env.la, env.initRng, env.rsvdRng, r, f.nPower, f.os, f.parallel⟩
    normOf := env.normT
    seqLen := f.seqLen
    attF := some (env.pow a)
    nIter := 25
    growthTol := env.growthTol
    force := f.force }

/-- hyperparameters_search.py:181-187: the recorded scores of one combination. -/
def tdSearchScores (env : RunEnv K) (f : FixedTd) (train valid : List (PRow K)) (topk : ℕ)
    (c : List (TdParam K)) : PyM (List K) :=
  match c with
  | [.rank r, .att a] => do
    let s ← tdSearchTrain env.argp hr (valid.map PRow.row) topk 3 (tdSearchCfg env f r a) train
    pure s.2
  | _ => .error .typeError

/-- A row of `tdrec.csv`. -/
def tdRowOf (p : List (TdParam K) × ℕ × K) : TdRow K :=
  match p.1 with
  | [.rank r, .att a] => ⟨[(r.1 : ℤ), (r.2.1 : ℤ), (r.2.2 : ℤ)], a, p.2.1, p.2.2⟩
  | _ => ⟨[], 0, p.2.1, p.2.2⟩

/-- hyperparameters_search.py:194-239 `hyperparameters_search_tdrec`; returned are the rows of `tdrec.csv`. The
table is cropped before it is split. -/
def hyperparametersSearchTdrec [FloorRing K] (env : RunEnv K) (se : SearchEnv K) (cfg : RunCfg K)
    (sc : SearchCfg K) (ft : FixedTd) (data : List (IRow K)) : PyM (List (TdRow K)) := do
  let d ← prepareDataForExperiment env.sortDay data cfg.initRatio none
  let t ← getDfWithCroppedPos d.1 cfg.maxLen true
  let tv ← trainTestSplitP se.stamp t sc.quantile
  let table ← hparamsGridTdrec se.orderTd
    [("rank", sc.tdRanks.map TdParam.rank), ("att_f", sc.attFs.map TdParam.att)]
    (tdSearchScores env ft tv.1 tv.2 cfg.topk)
  pure (table.map tdRowOf)

end DynCF
