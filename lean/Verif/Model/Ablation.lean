/-
Model of `/repo/dynamical_ablation_study.py`.
-/
import Verif.Model.PrepareModel

namespace DynCF
variable {K : Type} [Field K] [LinearOrder K]

/-- dynamical_ablation_study.py:44-48 (= 52-56): standard deviation of new embeddings, integrator for
interactions of new users with new items. -/
def ablationOptions : List (K × Bool) :=
  [(0, true), (1 / 10 ^ 8, false), (1 / 10 ^ 5, false), (1 / 10 ^ 3, false),
    (1 / 10 ^ 8, true), (1 / 10 ^ 5, true), (1 / 10 ^ 3, true)]

/-- The value of `_init_new_embeddings` as the models read it. -/
def embOf (std : K) : Emb := if std = 0 then .zero else .random

/-- `normal(loc=0, scale=std)` is `std` times the standard draws of the same generator. -/
def scaleNormal (std : K) (env : RunEnv K) : RunEnv K :=
  { env with
    normal := fun m n => std • env.normal m n
    psi := { env.psi with normal := fun m n => std • env.psi.normal m n } }

/-- dynamical_ablation_study.py:63-103: one turn of the loop, a new object for every option. -/
def ablationRun [FloorRing K] (env : RunEnv K) (cfg : RunCfg K) (name dim : String) (data : List (IRow K))
    (o : K × Bool) : PyM (Dynamics K) := do
  let env := scaleNormal o.1 env
  let d ← prepareDataForExperiment env.sortDay data cfg.initRatio cfg.hmMin
  let t ← initialTable dim cfg.maxLen d.1
  let users := getUsersStability env.sortCnt t.rows d.2.2 cfg.howMany
  let p ← prepareModel env cfg name
  let p := ablate (embOf o.1) o.2 p
  runPrepared env (expCfgOf env cfg p users) p t (d.2.1.map Prod.snd)

/-- dynamical_ablation_study.py:63-107: the loop with the files written so far (by option, which the file
name spells out) and the exception that ends it, if any. -/
def ablationLoop (run : K × Bool → PyM (Dynamics K)) :
    List (K × Bool) → List ((K × Bool) × Dynamics K) × Option PyErr
  | [] => ([], none)
  | o :: os =>
    match run o with
    | .error e => ([], some e)
    | .ok d => ((o, d) :: (ablationLoop run os).1, (ablationLoop run os).2)

/-- dynamical_ablation_study.py: the script. -/
def ablationScript [FloorRing K] (env : RunEnv K) (cfg : RunCfg K) (fs : FixedSvd) (ft : FixedTd)
    (name : String) (data : List (IRow K)) : List ((K × Bool) × Dynamics K) × Option PyErr :=
  if name ∈ ["PSIRec"] then
    ablationLoop (ablationRun env { cfg with fixedSvd := some fs, fixedTd := none } name "2d" data)
      ablationOptions
  else if name ∈ ["TIRecA"] then
    ablationLoop (ablationRun env { cfg with fixedSvd := none, fixedTd := some ft } name "3d" data)
      ablationOptions
  else ([], some .runtimeError)

end DynCF
