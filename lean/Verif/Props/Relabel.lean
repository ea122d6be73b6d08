/-
C140, C141: what the recorded results do not depend on. Two runs are compared: one on a table and one on the
same table with other names for users, items, timestamps and days (`Relabel`, `Relabel.irow`: a row keeps its
index label and its relevance).
-/
import Verif.Lemmas.RelabelData
import Verif.Props.FullExperiment3

namespace DynCF
variable {K : Type}

/-! ### C140 -/

/-- **C140 (dynamical_experiment.py).** Give the items any other distinct names, and the users, timestamps and
days other values in the same order: the script records exactly the same series, or fails with the same
exception, for every recommender. (`FitsEnv`: the two sorts by a single key, which need not be stable, look at
the key column only.) -/
theorem C140_script [Field K] [LinearOrder K] [FloorRing K] (g : Relabel) (hu : StrictMono g.user)
    (hi : Function.Injective g.item) (ht : StrictMono g.ts) (hd : StrictMono g.day) (env : RunEnv K)
    (he : g.FitsEnv env) (cfg : RunCfg K) (fs : FixedSvd) (ft : FixedTd) (name : String) (data : List (IRow K)) :
    runScript env cfg fs ft name (data.map g.irow) = runScript env cfg fs ft name data := by
  unfold runScript
  simp only [fullDynamicalExperiment_ren ⟨hu, hi, ht, hd⟩ env he]

/-- **C140 (dynamical_ablation_study.py).** The same for all options of the ablation study: the same files are
written and it ends in the same way. -/
theorem C140_ablation [Field K] [LinearOrder K] [FloorRing K] (g : Relabel) (hu : StrictMono g.user)
    (hi : Function.Injective g.item) (ht : StrictMono g.ts) (hd : StrictMono g.day) (env : RunEnv K)
    (he : g.FitsEnv env) (cfg : RunCfg K) (fs : FixedSvd) (ft : FixedTd) (name : String) (data : List (IRow K)) :
    ablationScript env cfg fs ft name (data.map g.irow) = ablationScript env cfg fs ft name data := by
  have h : ∀ (cfg : RunCfg K) (name dim : String), ablationRun env cfg name dim (data.map g.irow) =
      ablationRun env cfg name dim data := fun cfg name dim => by
    funext o
    exact ablationRun_ren ⟨hu, hi, ht, hd⟩ env he cfg name dim data o
  unfold ablationScript
  simp only [h]

/-- stable sorts by day and by count satisfy the assumption on the sorts -/
theorem fitsEnv_stable [Field K] [LinearOrder K] (g : Relabel) (hd : StrictMono g.day) (env : RunEnv K) :
    g.FitsEnv { env with sortDay := stableSort fun a b => decide (a.day ≤ b.day)
                         sortCnt := stableSort fun a b => decide (a.2 ≤ b.2) } where
  day l := stableSort_map' _ _ _ (fun _ _ => decide_eq_decide.2 hd.le_iff_le) l
  cnt l := stableSort_map' _ _ _ (fun _ _ => rfl) l

/-- other names for the table of the examples: users in the same order, items reversed, other times and days -/
def exRelabel : Relabel := ⟨fun x => 3 * x - 5, fun x => -x, fun x => 2 * x + 1, fun x => x - 4⟩

example : (exRunData.map exRelabel.irow).head? = some ⟨0, ⟨16, -40, 1, 1, -4⟩⟩ := by decide +kernel

/-- the run on the renamed table records the same series as the run of the examples, which completes -/
example : ∃ d, runScript exRunEnv2 exRunCfg exFixSvd exFixTd "TDRec" (exRunData.map exRelabel.irow) = .ok d ∧
    d.wji = [1] := by
  rw [C140_script exRelabel (fun a b h => by simp only [exRelabel]; omega)
    (fun a b h => by simp only [exRelabel] at h; omega) (fun a b h => by simp only [exRelabel]; omega)
    (fun a b h => by simp only [exRelabel]; omega) exRunEnv2
    ⟨fun _ => rfl, fun _ => rfl⟩]
  exact C95_violated.1

/-! ### C141 -/

/-- **C141 (SVD and PSIRec).** For the two models of the matrix (also with the options of the ablation study, and
however they are updated) the names of the users do not matter either, not even their order, provided the test
users of the stability score are the same persons in the same order. -/
theorem C141_matrix_partial [Field K] [LinearOrder K] (g : Relabel) (hu : Function.Injective g.user)
    (hi : Function.Injective g.item) (env : RunEnv K) (e : ExpCfg K) (h2 : e.threeD = false) (p : Prepared K)
    (hp : ∃ c, p.obj = .svd c ∨ p.obj = .psi c) (initial : List (Row K)) (stream : List (List (Row K))) :
    runPrepared env { e with testUsers := e.testUsers.map g.user } p (.plain (initial.map g.row))
      (stream.map (List.map g.row)) = runPrepared env e p (.plain initial) stream := by
  have hf : g.FitsCfg e := Or.inr (Or.inl h2)
  have hg : g.Inj := ⟨hu, hi⟩
  obtain ⟨c, hc | hc⟩ := hp
  · simp only [runPrepared, hc]
    exact runWith_ren hg ((svdClass_ren hg _ _ _).useTrain _) e hf none rfl (.plain initial) stream
  · simp only [runPrepared, hc]
    exact runWith_ren hg ((psiClass_ren hg _ _ _).useTrain _) e hf none rfl (.plain initial) stream

/-- users 7 and 8 exchange their names -/
def exSwap : Relabel := ⟨fun x => if x = 7 then 8 else if x = 8 then 7 else x, id, id, id⟩

theorem exSwap_inj : Function.Injective exSwap.user := fun a b h => by
  simp only [exSwap] at h
  split at h <;> split at h <;> (try split at h) <;> (try split at h) <;> omega

/-- the recorded hit rates and stabilities before (`false`) and after two users have exchanged their names -/
def exSwapped (name : String) (swap : Bool) : Option (List ℚ × List ℚ) :=
  match runScript exRunEnv2 exRunCfg exFixSvd exFixTd name
      (if swap then exRunData.map exSwap.irow else exRunData) with
  | .ok d => some (d.hr, d.wji)
  | .error _ => none

/-- **C141 is violated** for the sequence models: the hit rates recorded for TIRec, TIRecA and TDRecReinit and the
stability recorded for TDRec change when two users exchange their names and nothing else changes. The cropped
table is sorted by user, so the users' order decides which numbers users and items get. -/
theorem C141_violated :
    (exSwapped "TIRec" false = some ([0, 0], [1]) ∧ exSwapped "TIRec" true = some ([0, 1], [1])) ∧
    (exSwapped "TIRecA" false = some ([0, 0], [1]) ∧ exSwapped "TIRecA" true = some ([0, 1], [1])) ∧
    (exSwapped "TDRecReinit" false = some ([0, 0], [1 / 2]) ∧
      exSwapped "TDRecReinit" true = some ([0, 1], [1 / 2])) ∧
    (exSwapped "TDRec" false = some ([0, 1], [1]) ∧ exSwapped "TDRec" true = some ([0, 1], [0])) := by
  decide +kernel

/-- the matrix models on the same two tables -/
example : exSwapped "SVD" false = some ([0, 1], [1]) ∧ exSwapped "SVD" true = some ([0, 1], [1]) ∧
    exSwapped "PSIRec" false = exSwapped "PSIRec" true := by decide +kernel

end DynCF
