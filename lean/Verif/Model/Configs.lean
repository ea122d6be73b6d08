/-
Model of the configuration files `/repo/configs/*/config.py`, of `import_config`
(`/repo/source/experiments/hyperparameters_search.py:29-40`) and of what the scripts take from them.
-/
import Verif.Model.Pipeline

namespace DynCF
variable {K : Type}

/-- The names a configuration file defines, except `n_chunks_list`, which nothing reads, the seeds, which are part of
the random draws, and `prepared_data_path`: the data are an argument. -/
structure ConfFile (K : Type) where
  dataset : Str
  initRatio : K
  quantile : K
  hmMin : Option ℤ
  howMany : ℕ
  maxLen : ℕ
  topk : ℕ
  svdRanks : List ℕ
  fixedSvd : FixedSvd
  tdRanks : List (ℕ × ℕ × ℕ)
  attFs : List K
  fixedTd : FixedTd
  swls : List ℕ
  plotModels : List Str
  metricDir : Str

/-- `np.arange(start, stop, step)` for a positive step -/
def arangeStep (start stop step : ℕ) : List ℕ :=
  (List.range ((stop - start + step - 1) / step)).map fun i => start + step * i

/-- The comprehension `[rank for rank in product(…) if tucker_rank_is_valid(rank)]` (configs/ml_20m/config.py:32-35);
the check raises nothing for a tuple of three. -/
def validRanks (r0 r1 r2 : List ℕ) : List (ℕ × ℕ × ℕ) :=
  (r0.flatMap fun a => r1.flatMap fun b => r2.map fun c => (a, b, c)).filter fun r =>
    match tuckerRankIsValid (triZ r) with
    | .ok b => b
    | .error _ => false

/-- `RESULTS_DIR / name / 'metric_dynamics'` with load_data.py:12 -/
def metricDirOf (name : Str) : Str := "results/".toList ++ name ++ "/metric_dynamics".toList

section files
variable [Field K]

/-- configs/steam/config.py -/
def confSteam : ConfFile K where
  dataset := "steam".toList
  initRatio := 8 / 10
  quantile := 99 / 100
  hmMin := none
  howMany := 50
  maxLen := 8
  topk := 5
  svdRanks := arangeStep 10 400 10
  fixedSvd := ⟨1, 2⟩
  tdRanks := validRanks [64, 128, 256] [64, 100] [2, 4]
  attFs := [0, 2]
  fixedTd := ⟨8, 1, 2, true, false⟩
  swls := [20]
  plotModels := ["SVD", "PSIRec", "TDRec", "TDRecReinit", "TIRecA"].map String.toList
  metricDir := metricDirOf "steam".toList

/-- configs/ml_20m/config.py -/
def confMl20m : ConfFile K where
  dataset := "ml_20m".toList
  initRatio := 4 / 10
  quantile := 99 / 100
  hmMin := none
  howMany := 200
  maxLen := 20
  topk := 5
  svdRanks := arangeStep 10 300 10
  fixedSvd := ⟨1, 2⟩
  tdRanks := validRanks [32, 64, 100, 128, 256] [32, 64, 100, 128, 256] [5, 10]
  attFs := [0, 2, 4]
  fixedTd := ⟨20, 1, 2, true, false⟩
  swls := [20]
  plotModels := ["SVD", "PSIRec", "TDRec", "TDRecReinit", "TIRec", "TIRecA"].map String.toList
  metricDir := metricDirOf "ml_20m".toList

/-- configs/amz_b/config.py -/
def confAmzB : ConfFile K where
  dataset := "amz_b".toList
  initRatio := 7 / 10
  quantile := 99 / 100
  hmMin := none
  howMany := 100
  maxLen := 20
  topk := 5
  svdRanks := arangeStep 10 300 10
  fixedSvd := ⟨1, 2⟩
  tdRanks := validRanks [32, 64, 100, 128, 256] [32, 64, 100, 128, 256] [5, 10]
  attFs := [0, 2, 4]
  fixedTd := ⟨20, 1, 2, true, false⟩
  swls := [20]
  plotModels := ["SVD", "PSIRec", "TDRec", "TDRecReinit", "TIRec", "TIRecA"].map String.toList
  metricDir := metricDirOf "amz_b".toList

/-- configs/amz_g/config.py -/
def confAmzG : ConfFile K where
  dataset := "amz_g".toList
  initRatio := 7 / 10
  quantile := 99 / 100
  hmMin := none
  howMany := 100
  maxLen := 20
  topk := 5
  svdRanks := arangeStep 10 300 10
  fixedSvd := ⟨1, 2⟩
  tdRanks := validRanks [32, 64, 100, 128, 256] [32, 64, 100, 128, 256] [5, 10]
  attFs := [0, 2, 4]
  fixedTd := ⟨20, 1, 2, true, false⟩
  swls := [20]
  plotModels := ["SVD", "PSIRec", "TDRec", "TDRecReinit", "TIRec", "TIRecA"].map String.toList
  metricDir := metricDirOf "amz_g".toList

/-- hyperparameters_search.py:29-40 `import_config`; the constants are those of load_data.py:14-17 -/
def importConfig (name : Str) : PyM (ConfFile K) :=
  if name = "ml_20m".toList then .ok confMl20m
  else if name = "amz_b".toList then .ok confAmzB
  else if name = "amz_g".toList then .ok confAmzG
  else if name = "steam".toList then .ok confSteam
  else .error .runtimeError

end files

/-- The comparisons of `config['dataset']` with the constants (prepare_model.py) -/
def datasetOf (name : Str) : Dataset :=
  if name = "ml_20m".toList then .ml20m
  else if name = "amz_b".toList then .amzB
  else if name = "amz_g".toList then .amzG
  else if name = "steam".toList then .steam
  else .other

/-- dynamical_experiment.py:24-33, find_hyperparams.py:25-47, dynamical_ablation_study.py: the dictionary of the
experiments and searches; the scripts add one of the two fixed parts. -/
def ConfFile.run (c : ConfFile K) : RunCfg K where
  dataset := datasetOf c.dataset
  topk := c.topk
  initRatio := c.initRatio
  hmMin := c.hmMin
  howMany := c.howMany
  maxLen := c.maxLen
  fixedSvd := none
  fixedTd := none

/-- find_hyperparams.py:25-47 -/
def ConfFile.search (c : ConfFile K) : SearchCfg K where
  quantile := c.quantile
  svdRanks := c.svdRanks
  tdRanks := c.tdRanks
  attFs := c.attFs

/-- prepare_graphs.py:79-136: the figures are named after the argument, not after `conf.dataset`. -/
def ConfFile.graphs (c : ConfFile K) (arg : Str) : GraphCfg K where
  dataset := arg
  models := c.plotModels
  dir := c.metricDir
  topk := c.topk
  swls := c.swls
  howMany := c.howMany
  initRatio := c.initRatio
  hmMin := c.hmMin

/-- The scripts started by `run_experiments.py arg` read the configuration themselves; everything else as in `P`. -/
def PipeEnv.withConf [Field K] [LinearOrder K] (P : PipeEnv K) (c : ConfFile K) (arg : Str) : PipeEnv K :=
  { P with cfg := c.run, sc := c.search, fs := c.fixedSvd, ft := c.fixedTd, graphs := c.graphs arg }

end DynCF
