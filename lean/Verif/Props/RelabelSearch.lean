/-
C147 and a part of C141: the searches and the whole of run_experiments.py under other names of users, items,
timestamps and days. Two runs are compared, as in `Props/Relabel`.
-/
import Verif.Lemmas.RelabelSearch
import Verif.Props.Relabel
import Verif.Props.Pipeline2

namespace DynCF
variable {K : Type}

section
variable [Field K] [LinearOrder K] [FloorRing K]

/-- **C147 (search for the rank).** Any other distinct names of users and items, and days in the same order: the
search for the rank of the matrix models gives the same table or the same exception. The order of the users does not
matter, nor do the timestamps. -/
theorem C147_svd (g : Relabel) (hu : Function.Injective g.user) (hi : Function.Injective g.item)
    (hd : StrictMono g.day) (env : RunEnv K) (hday : ∀ l, env.sortDay (l.map g.row) = (env.sortDay l).map g.row)
    (se : SearchEnv K) (hse : ∀ a b, a < b → se.stamp a < se.stamp b) (cfg : RunCfg K) (sc : SearchCfg K)
    (fs : FixedSvd) (data : List (IRow K)) :
    hyperparametersSearchSvd env se cfg sc fs (data.map g.irow) = hyperparametersSearchSvd env se cfg sc fs data :=
  searchSvd_ren ⟨hu, hi⟩ hd env hday se (fun a b h => hse a b h) cfg sc fs data

/-- **C147 (search for the parameters of the sequence models).** Other names of items, and users, timestamps and days
with other values in the same order: the same table or the same exception. -/
theorem C147_tdrec (g : Relabel) (hu : StrictMono g.user) (hi : Function.Injective g.item) (ht : StrictMono g.ts)
    (hd : StrictMono g.day) (env : RunEnv K) (hday : ∀ l, env.sortDay (l.map g.row) = (env.sortDay l).map g.row)
    (se : SearchEnv K) (hse : ∀ a b, a < b → se.stamp a < se.stamp b) (cfg : RunCfg K) (sc : SearchCfg K)
    (ft : FixedTd) (data : List (IRow K)) :
    hyperparametersSearchTdrec env se cfg sc ft (data.map g.irow) =
      hyperparametersSearchTdrec env se cfg sc ft data :=
  searchTdrec_ren ⟨hu, hi, ht, hd⟩ env hday se (fun a b h => hse a b h) cfg sc ft data

/-- **C147 (run_experiments.py).** Whatever files are there, a call on the renamed table leaves exactly the same files
with the same contents, its scripts end with the same exceptions, and it draws the same figures. -/
theorem C147_pipeline (g : Relabel) (hu : StrictMono g.user) (hi : Function.Injective g.item) (ht : StrictMono g.ts)
    (hd : StrictMono g.day) (P : PipeEnv K) (he : g.FitsEnv P.env)
    (hse : ∀ a b, a < b → P.se.stamp a < P.se.stamp b) (d : Disk K) :
    runExperiments { P with data := P.data.map g.irow } d = runExperiments P d := by
  have hg : g.Mono := ⟨hu, hi, ht, hd⟩
  have h1 : ∀ (d : Disk K) (c : Cmd), runCmd { P with data := P.data.map g.irow } d c = runCmd P d c := by
    intro d c
    have he' : g.FitsEnv (P.envFor c (d.svdCsv.getD []) (d.tdCsv.getD [])) := ⟨he.day, he.cnt⟩
    have e : PipeEnv.envFor { P with data := P.data.map g.irow } c (d.svdCsv.getD []) (d.tdCsv.getD []) =
      P.envFor c (d.svdCsv.getD []) (d.tdCsv.getD []) := rfl
    unfold runCmd
    simp only [e]
    cases c with
    | searchSvd => simp only [C147_svd g hu.injective hi hd _ he'.day P.se hse]
    | searchTd => simp only [C147_tdrec g hu hi ht hd _ he'.day P.se hse]
    | experiment name => simp only [C140_script g hu hi ht hd _ he']
    | ablation name => simp only [C140_ablation g hu hi ht hd _ he']
  have h2 : ∀ (cs : List Cmd) (d : Disk K), runCmds { P with data := P.data.map g.irow } cs d = runCmds P cs d := by
    intro cs
    induction cs with
    | nil => intro d; rfl
    | cons c cs ih => intro d; simp only [runCmds, h1, ih]
  unfold runExperiments
  simp only [h2]
  show (_, prepareGraphs _ _ _ (P.data.map g.irow)) = _
  rw [prepareGraphs_ren hg.inj hd P.env.sortDay he.day]
  rfl

end

/-- The table of the examples of the search, with other names of users in another order and of items, and other days:
the search for the rank gives the same table. -/
example : hyperparametersSearchSvd exRunEnv exSearchEnv exSearchRun exGridCfg exFixSvd
    (exSearchData.map (⟨fun u => -u, fun i => 100 - i, id, fun d => 7 * d + 2⟩ : Relabel).irow) =
      .ok [⟨1, 1/2⟩, ⟨2, 1/2⟩] := by
  rw [C147_svd _ (fun a b h => by simpa using h) (fun a b h => by simpa using h) (fun a b h => by dsimp only; omega)
    exRunEnv (fun _ => rfl) exSearchEnv exSearchEnv_ok.1]
  exact exSearch_svd

example : hyperparametersSearchTdrec exRunEnv exSearchEnv exSearchRun exGridCfg exFixTd
    (exSearchData.map exRelabel.irow) =
      .ok [⟨[1, 1, 1], 1, 1, 0⟩, ⟨[1, 1, 1], 1, 2, 0⟩, ⟨[1, 1, 1], 1, 3, 0⟩] := by
  rw [C147_tdrec exRelabel (fun a b h => by simp only [exRelabel]; omega)
    (fun a b h => by simp only [exRelabel] at h; omega) (fun a b h => by simp only [exRelabel]; omega)
    (fun a b h => by simp only [exRelabel]; omega) exRunEnv (fun _ => rfl) exSearchEnv exSearchEnv_ok.1]
  exact exSearch_td

/-- a complete call on renamed data: all scripts succeed, as on the original data -/
example : ∀ e ∈ (runExperiments { exPipeOne with data := exPipeOne.data.map exRelabel.irow } exDisk).1.2, e = none := by
  rw [C147_pipeline exRelabel (fun a b h => by simp only [exRelabel]; omega)
    (fun a b h => by simp only [exRelabel] at h; omega) (fun a b h => by simp only [exRelabel]; omega)
    (fun a b h => by simp only [exRelabel]; omega) exPipeOne ⟨fun _ => rfl, fun _ => rfl⟩ exSearchEnv_ok.1]
  exact exPipeOne_success

/-- **C141 is violated** for the search too: when users 7 and 8 exchange their names, the search for the parameters of
the sequence models records other hit rates, and more of them. -/
theorem C141_violated_search :
    hyperparametersSearchTdrec exRunEnv exSearchEnv exSearchRun exGridCfg exFixTd exSearchData =
      .ok [⟨[1, 1, 1], 1, 1, 0⟩, ⟨[1, 1, 1], 1, 2, 0⟩, ⟨[1, 1, 1], 1, 3, 0⟩] ∧
    hyperparametersSearchTdrec exRunEnv exSearchEnv exSearchRun exGridCfg exFixTd (exSearchData.map exSwap.irow) =
      .ok [⟨[1, 1, 1], 1, 1, 1/2⟩, ⟨[1, 1, 1], 1, 2, 1/2⟩, ⟨[1, 1, 1], 1, 3, 1/2⟩, ⟨[1, 1, 1], 1, 4, 1/2⟩] :=
  ⟨exSearch_td, by decide +kernel⟩

end DynCF
