/- Property C135: settings that do not influence the results. -/
import Verif.Lemmas.Settings
import Verif.Model.Ablation
import Verif.Props.Search

set_option linter.unusedSectionVars false
namespace DynCF
variable {K : Type} [Field K] [LinearOrder K]

/-! ### The flag in the configuration of the models -/

/-- The configuration with another value of `parallel`. -/
def TDCfg.flag (c : TDCfg K) (b : Bool) : TDCfg K := { c with hooi := c.hooi.flag b }

theorem tdFit_flag {τ : Type} (c : TDCfg K) (b : Bool) (m : TDAtt K) (cb : Option (ExitCallback K τ)) (cb0 : τ)
    (init : Option (Fac K)) (h0 : SeqHist) (maps : Mappings) (data : List (PRow K)) :
    tdFit (c.flag b) m cb cb0 init h0 maps data = tdFit c m cb cb0 init h0 maps data := by
  unfold tdFit TDCfg.flag
  simp only [gaSatf_flag]

theorem tdTrain_flag {τ : Type} (c : TDCfg K) (b : Bool) (m : TDAtt K) (cb : Option (ExitCallback K τ)) (cb0 : τ)
    (h0 : SeqHist) (data : List (PRow K)) :
    tdTrain (c.flag b) m cb cb0 h0 data = tdTrain c m cb cb0 h0 data := by
  unfold tdTrain
  simp only [tdFit_flag]

theorem tdReTrain_flag (c : TDCfg K) (b : Bool) (m : TDAtt K) (h0 : SeqHist) (data : List (PRow K))
    (init : Option (Fac K)) (maps : Option Mappings) :
    tdReTrain (c.flag b) m h0 data init maps = tdReTrain c m h0 data init maps := by
  unfold tdReTrain
  simp only [tdFit_flag]

theorem tdInit_flag (c : TDCfg K) (b : Bool) : tdInit (c.flag b) = tdInit c := rfl

theorem tdClass_flag (argp : ArgPart K) (c : TDCfg K) (b : Bool) (m : TDAtt K) :
    tdClass argp (c.flag b) m = tdClass argp c m := by
  unfold tdClass
  simp only [tdTrain_flag]

theorem tdReClass_flag (argp : ArgPart K) (c : TDCfg K) (b : Bool) (m : TDAtt K) :
    tdReClass argp (c.flag b) m = tdReClass argp c m := by
  unfold tdReClass
  simp only [tdReTrain_flag, tdClass_flag]

/-- The same for the integrator models. -/
def TICfg.flag (c : TICfg K) (b : Bool) : TICfg K := { c with td := c.td.flag b }

theorem tiOld_le (c : TICfg K) (b : Bool) (m : TDAtt K) (st : TDState K) (data : List DRow) :
    Le (tiOld (c.flag false) m st data) (tiOld (c.flag b) m st data) := by
  unfold tiOld
  refine (Le.refl _).bind fun g => ?_
  exact (tuckerIntegrator_le _ _ _ _ _ _ _ _).bind fun r => Le.refl _

theorem tiStep_le (vec : TIVectors K) (hv : ∀ (c : TICfg K) b, vec (c.flag b) = vec c) (c : TICfg K) (b : Bool) (m : TDAtt K) (st : TDState K)
    (data : List DRow) (mode : PsiMode) :
    Le (tiStep vec (c.flag false) m st data mode) (tiStep vec (c.flag b) m st data mode) := by
  cases mode
  · exact Le.refl _
  · unfold tiStep
    rw [hv, hv]
    exact Le.refl _
  · unfold tiStep
    rw [hv, hv]
    exact Le.refl _
  · exact tiOld_le c b m st data

theorem tiUpdateFactors_le (vec : TIVectors K) (hv : ∀ (c : TICfg K) b, vec (c.flag b) = vec c) (c : TICfg K) (b : Bool) (m : TDAtt K)
    (st : TDState K) (data : List DRow) (mode : PsiMode) :
    Le (tiUpdateFactors vec (c.flag false) m st data mode) (tiUpdateFactors vec (c.flag b) m st data mode) := by
  unfold tiUpdateFactors
  exact Le.ite (tiStep_le vec hv c b m st data mode) (Le.refl _)

theorem tiRound_le (vec : TIVectors K) (hv : ∀ (c : TICfg K) b, vec (c.flag b) = vec c) (c : TICfg K) (b : Bool) (m : TDAtt K)
    (l : TIRound K) (mode : PsiMode) :
    Le (tiRound vec (c.flag false) m l mode) (tiRound vec (c.flag b) m l mode) := by
  unfold tiRound
  exact (tiUpdateFactors_le vec hv c b m _ _ _).bind fun _ => Le.refl _

theorem tirecVectors_flag (c : TICfg K) (b : Bool) : tirecVectors (c.flag b) = tirecVectors c := rfl
theorem tirecaVectors_flag (c : TICfg K) (b : Bool) : tirecaVectors (c.flag b) = tirecaVectors c := rfl

/-- how the flag acts on the rounds of a class -/
def RoundsLe (rounds : TIRounds K) : Prop :=
  ∀ (c : TICfg K) b m st nu ni delta, Le (rounds (c.flag false) m st nu ni delta) (rounds (c.flag b) m st nu ni delta)

theorem tirecRounds_le : RoundsLe (K := K) tirecRounds := by
  intro c b m st nu ni delta
  unfold tirecRounds
  exact (Le.refl _).bind fun left => Le.foldlM (fun l mode => tiRound_le _ tirecVectors_flag c b m l mode) _ _

theorem tirecaMiddle_le : RoundsLe (K := K) tirecaMiddle := by
  intro c b m st nu ni delta
  have e : ∀ b, tirecaMiddle (c.flag b) = if c.integrator then tirecaIntegrator (c.flag b) else tirecaRounds (c.flag b) :=
    fun _ => rfl
  rw [e, e]
  cases c.integrator with
  | true =>
    simp only [if_true]
    unfold tirecaIntegrator
    refine (Le.refl _).bind fun left => (Le.refl _).bind fun s1 => (Le.refl _).bind fun s2 => ?_
    exact (tiUpdateFactors_le _ tirecaVectors_flag c b m _ _ _).bind fun _ => Le.refl _
  | false =>
    simp only [Bool.false_eq_true, if_false]
    unfold tirecaRounds
    refine (Le.refl _).bind fun left => ?_
    refine (Le.foldlM (fun l mode => tiRound_le _ tirecaVectors_flag c b m l mode) _ _).bind fun l => ?_
    exact (tiUpdateFactors_le _ tirecaVectors_flag c b m _ _ _).bind fun _ => Le.refl _

theorem tiUpdate_le (rounds : TIRounds K) (hr : RoundsLe rounds) (c : TICfg K) (b : Bool) (m : TDAtt K)
    (st : TDState K) (data : List (Row K)) (s : Bool) :
    Le (tiUpdate rounds (c.flag false) m st data s) (tiUpdate rounds (c.flag b) m st data s) := by
  unfold tiUpdate tiUpdateLog
  refine Le.bind ?_ fun r => Le.refl _
  refine (Le.refl _).bind fun p => ?_
  exact (hr c b m _ _ _ _).bind fun l => Le.refl _

/-! ### The flag in an experiment -/

/-- Two recommenders of which the second reproduces every completed update of the first. -/
structure ModelLe {σ F : Type} (M N : RecModel K σ F) : Prop where
  eq : ∃ u, N = { M with update := u } ∧ ∀ s d, Le (M.update s d) (u s d)

theorem expLoop_le {σ F : Type} (M N : RecModel K σ F) (h : ModelLe M N) (e : ExpCfg K) :
    ∀ (chunks : List (List (Row K))) (i : ℕ) (st : ExpState K σ), Le (expLoop M e i chunks st) (expLoop N e i chunks st)
  | [], _, _ => Le.refl _
  | chunk :: rest, i, st => by
    obtain ⟨u, rfl, hu⟩ := h.eq
    unfold expLoop
    refine Le.bind ?_ fun st' => Le.ite (Le.refl _) (expLoop_le M _ ⟨u, rfl, hu⟩ e rest (i + 1) st')
    unfold expStep
    refine (Le.refl _).bind fun s1 => (Le.refl _).bind fun s2 => (Le.refl _).bind fun s3 => (Le.refl _).bind fun s4 =>
      (Le.refl _).bind fun conc => ?_
    refine Le.bind ?_ fun s => Le.refl _
    unfold updateStep
    exact Le.ite (Le.refl _) (hu _ _)

theorem runWith_le {σ F : Type} (M N : RecModel K σ F) (h : ModelLe M N) (e : ExpCfg K) (s0 : σ) (initial : Tab K)
    (stream : List (List (Row K))) : Le (runWith M e s0 initial stream) (runWith N e s0 initial stream) := by
  unfold runWith dynamicalExperiment
  refine Le.bind ?_ fun st => Le.refl _
  refine Le.bind ?_ fun st => expLoop_le M N h e stream 1 st
  obtain ⟨u, rfl, _⟩ := h.eq
  exact Le.refl _

theorem tiClass_le (rounds : TIRounds K) (hr : RoundsLe rounds) (argp : ArgPart K) (c : TICfg K) (b : Bool) (m : TDAtt K)
    (byTrain : Bool) :
    ModelLe (withUpdate byTrain (tiClass rounds argp (c.flag false) m)) (withUpdate byTrain (tiClass rounds argp (c.flag b) m)) := by
  have hf : tdClass argp (c.flag b).td m = tdClass argp (c.flag false).td m := by
    show tdClass argp (c.td.flag b) m = tdClass argp (c.td.flag false) m
    rw [tdClass_flag, tdClass_flag]
  cases byTrain with
  | true =>
    refine ⟨(tdClass argp (c.flag false).td m).train, ?_, fun s d => Le.refl _⟩
    show ({ tdClass argp (c.flag b).td m with update := (tdClass argp (c.flag b).td m).train } :
      RecModel K (Option (TDState K)) (FacArg K)) = _
    rw [hf]
    rfl
  | false =>
    refine ⟨(tiClass rounds argp (c.flag b) m).update, ?_, ?_⟩
    · show ({ tdClass argp (c.flag b).td m with update := (tiClass rounds argp (c.flag b) m).update } :
        RecModel K (Option (TDState K)) (FacArg K)) = _
      rw [hf]
      rfl
    · intro s d
      cases s with
      | none => exact Le.refl _
      | some st =>
        show Le (tiUpdate rounds (c.flag false) m st d.rows true >>= _) (tiUpdate rounds (c.flag b) m st d.rows true >>= _)
        exact (tiUpdate_le rounds hr c b m st d.rows true).bind fun _ => Le.refl _

/-- The settings with another value of `parallel`. -/
def FixedTd.flag (f : FixedTd) (b : Bool) : FixedTd := { f with parallel := b }

/-- The object with another value of `parallel`. -/
def RecObj.flag (b : Bool) : RecObj K → RecObj K
  | .td c m => .td (c.flag b) m
  | .tdRe c m => .tdRe (c.flag b) m
  | .ti c m => .ti (c.flag b) m
  | .tiA c m => .tiA (c.flag b) m
  | o => o

/-- The prepared dictionary with another value of `parallel`. -/
def Prepared.flag (p : Prepared K) (b : Bool) : Prepared K := { p with obj := p.obj.flag b }

/-- is the object one of the integrator models? -/
def RecObj.integ : RecObj K → Bool
  | .ti _ _ => true
  | .tiA _ _ => true
  | _ => false

theorem runPrepared_le (env : RunEnv K) (e : ExpCfg K) (p : Prepared K) (b : Bool) (initial : Tab K)
    (stream : List (List (Row K))) :
    Le (runPrepared env e (p.flag false) initial stream) (runPrepared env e (p.flag b) initial stream) := by
  obtain ⟨o, bt, cm, re, td, ml⟩ := p
  cases o with
  | svd c => exact Le.refl _
  | psi c => exact Le.refl _
  | random => exact Le.refl _
  | td c m =>
    show Le (runWith (withUpdate bt (tdClass env.argp (c.flag false) m)) e none initial stream)
      (runWith (withUpdate bt (tdClass env.argp (c.flag b) m)) e none initial stream)
    rw [tdClass_flag, tdClass_flag]
    exact Le.refl _
  | tdRe c m =>
    show Le (runWith (withUpdate bt (tdReClass env.argp (c.flag false) m)) e none initial stream)
      (runWith (withUpdate bt (tdReClass env.argp (c.flag b) m)) e none initial stream)
    rw [tdReClass_flag, tdReClass_flag]
    exact Le.refl _
  | ti c m => exact runWith_le _ _ (tiClass_le tirecRounds tirecRounds_le env.argp c b m bt) e none initial stream
  | tiA c m => exact runWith_le _ _ (tiClass_le tirecaMiddle tirecaMiddle_le env.argp c b m bt) e none initial stream

theorem runPrepared_flag (env : RunEnv K) (e : ExpCfg K) (p : Prepared K) (hp : p.obj.integ = false) (b : Bool)
    (initial : Tab K) (stream : List (List (Row K))) :
    runPrepared env e (p.flag b) initial stream = runPrepared env e p initial stream := by
  obtain ⟨o, bt, cm, re, td, ml⟩ := p
  cases o with
  | svd c => rfl
  | psi c => rfl
  | random => rfl
  | td c m =>
    show runWith (withUpdate bt (tdClass env.argp (c.flag b) m)) e none initial stream =
      runWith (withUpdate bt (tdClass env.argp c m)) e none initial stream
    rw [tdClass_flag]
  | tdRe c m =>
    show runWith (withUpdate bt (tdReClass env.argp (c.flag b) m)) e none initial stream =
      runWith (withUpdate bt (tdReClass env.argp c m)) e none initial stream
    rw [tdReClass_flag]
  | ti c m => cases hp
  | tiA c m => cases hp

/-- `config` with another value of `parallel`. -/
def RunCfg.flag (cfg : RunCfg K) (b : Bool) : RunCfg K := { cfg with fixedTd := cfg.fixedTd.map fun f => f.flag b }

theorem prepTdCfg_flag (env : RunEnv K) (cfg : RunCfg K) (b : Bool) :
    prepTdCfg env (cfg.flag b) = (prepTdCfg env cfg).map fun c => c.flag b := by
  unfold prepTdCfg RunCfg.flag
  simp only
  cases getOptimalTdrecParams cfg.dataset env.tdCsv with
  | error e => rfl
  | ok p =>
    cases cfg.fixedTd with
    | none => rfl
    | some f =>
      show (natRank3 p.1 >>= _) = Except.map _ (natRank3 p.1 >>= _)
      cases natRank3 p.1 with
      | error e => rfl
      | ok r => rfl

theorem prepareModel_flag (env : RunEnv K) (cfg : RunCfg K) (b : Bool) (name : String) :
    prepareModel env (cfg.flag b) name = (prepareModel env cfg name).map fun p => p.flag b := by
  have td : ∀ (g : TDCfg K → TDAtt K → Prepared K), (∀ c m, g (c.flag b) m = (g c m).flag b) →
      ((prepTdCfg env (cfg.flag b) >>= fun c => tdInit c >>= fun m => pure (g c m)) : PyM (Prepared K)) =
        (prepTdCfg env cfg >>= fun c => tdInit c >>= fun m => pure (g c m)).map fun p => p.flag b := by
    intro g hg
    rw [prepTdCfg_flag]
    cases prepTdCfg env cfg with
    | error e => rfl
    | ok c =>
      show (tdInit (c.flag b) >>= fun m => pure (g (c.flag b) m)) = _
      rw [tdInit_flag]
      show _ = (tdInit c >>= fun m => pure (g c m)).map _
      cases tdInit c with
      | error e => rfl
      | ok m =>
        show Except.ok (g (c.flag b) m) = .ok ((g c m).flag b)
        rw [hg]
  have svd : ∀ (g : PSICfg → Prepared K), (∀ c, g c = (g c).flag b) →
      ((prepSvdCfg env (cfg.flag b) >>= fun c => pure (g c)) : PyM (Prepared K)) =
        (prepSvdCfg env cfg >>= fun c => pure (g c)).map fun p => p.flag b := by
    intro g hg
    show ((prepSvdCfg env cfg >>= fun c => pure (g c)) : PyM (Prepared K)) = _
    cases prepSvdCfg env cfg with
    | error e => rfl
    | ok c =>
      show Except.ok (g c) = .ok ((g c).flag b)
      rw [← hg]
  unfold prepareModel
  split
  · exact svd _ fun _ => rfl
  split
  · exact svd _ fun _ => rfl
  split
  · exact td (fun c m => ⟨.td c m, true, false, false, true, some cfg.maxLen⟩) fun _ _ => rfl
  split
  · exact td (fun c m => ⟨.tdRe c m, true, false, true, true, some cfg.maxLen⟩) fun _ _ => rfl
  split
  · exact td (fun c m => ⟨.ti (prepTiCfg env c) m, false, true, false, true, some cfg.maxLen⟩) fun _ _ => rfl
  split
  · exact td (fun c m => ⟨.tiA (prepTiCfg env c) m, false, true, false, true, some cfg.maxLen⟩) fun _ _ => rfl
  split
  · rfl
  · rfl

theorem map_bind {α β γ : Type} (x : PyM α) (g : α → β) (f : β → PyM γ) : (x.map g >>= f) = (x >>= fun a => f (g a)) := by
  cases x <;> rfl

variable [FloorRing K]

theorem fullDynamicalExperiment_le (env : RunEnv K) (cfg : RunCfg K) (name dim : String) (data : List (IRow K)) (b : Bool) :
    Le (fullDynamicalExperiment env (cfg.flag false) name dim data)
      (fullDynamicalExperiment env (cfg.flag b) name dim data) := by
  unfold fullDynamicalExperiment
  refine (Le.refl _).bind fun d => (Le.refl _).bind fun t => ?_
  simp only [prepareModel_flag, map_bind]
  exact (Le.refl _).bind fun p => runPrepared_le env _ p b t _

theorem fullDynamicalExperiment_flag (env : RunEnv K) (cfg : RunCfg K) (name dim : String) (data : List (IRow K))
    (h1 : name ≠ "TIRec") (h2 : name ≠ "TIRecA") (b : Bool) :
    fullDynamicalExperiment env (cfg.flag b) name dim data = fullDynamicalExperiment env cfg name dim data := by
  unfold fullDynamicalExperiment
  apply bind_congr_ok
  intro d _
  apply bind_congr_ok
  intro t _
  simp only [prepareModel_flag, map_bind]
  apply bind_congr_ok
  intro p hp
  refine runPrepared_flag env _ p ?_ b t _
  have td : ∀ (g : TDCfg K → TDAtt K → Prepared K), (∀ c m, (g c m).obj.integ = false) →
      ((prepTdCfg env cfg >>= fun c => tdInit c >>= fun m => pure (g c m)) : PyM (Prepared K)) = .ok p →
      p.obj.integ = false := by
    intro g hg h
    obtain ⟨c, _, h⟩ := (bind_ok_iff _ _ _).1 h
    obtain ⟨m, _, h⟩ := (bind_ok_iff _ _ _).1 h
    have h := Except.ok.inj h
    subst h
    exact hg c m
  unfold prepareModel at hp
  split at hp
  · unfold prepareSvd at hp
    obtain ⟨c, _, h⟩ := (bind_ok_iff _ _ _).1 hp
    have h := Except.ok.inj h
    subst h
    rfl
  split at hp
  · unfold preparePsi at hp
    obtain ⟨c, _, h⟩ := (bind_ok_iff _ _ _).1 hp
    have h := Except.ok.inj h
    subst h
    rfl
  split at hp
  · exact td _ (fun _ _ => rfl) hp
  split at hp
  · exact td _ (fun _ _ => rfl) hp
  split at hp
  · have h := Except.ok.inj hp
    subst h
    rfl
  · cases hp

theorem runScript_unfold (env : RunEnv K) (cfg : RunCfg K) (fs : FixedSvd) (ft : FixedTd) (name : String)
    (data : List (IRow K)) :
    runScript env cfg fs ft name data =
      if name ∈ ["SVD", "PSIRec"] then
        fullDynamicalExperiment env { cfg with fixedSvd := some fs, fixedTd := none } name "2d" data
      else if name ∈ ["TDRec", "TDRecReinit", "TIRec", "TIRecA", "Random"] then
        fullDynamicalExperiment env { cfg with fixedSvd := none, fixedTd := some ft } name "3d" data
      else .error .runtimeError := by
  unfold runScript scriptChoice
  split
  · rfl
  · split <;> rfl

/-- **C135** (the two functions that build a core). They agree in every case, errors included, when the first factor
has a column; the sequential one never completes with anything else. -/
theorem C135_core (inds : List Ind3) (vals : List K) (u1 u2 u3 : Mat K) :
    (u1.cols ≠ 0 → constructCoreParallel inds vals u1 u2 u3 = constructCore inds vals u1 u2 u3) ∧
    ∀ g, constructCore inds vals u1 u2 u3 = .ok g → constructCoreParallel inds vals u1 u2 u3 = .ok g :=
  ⟨core_variants_cols inds vals u1 u2 u3, fun g h => core_le inds vals u1 u2 u3 true g h⟩

/-- **C135** (`parallel`, experiment). For every model except the two integrator models the result of the script, error
or table, does not depend on the setting `parallel`. -/
theorem C135_parallel (env : RunEnv K) (cfg : RunCfg K) (fs : FixedSvd) (ft : FixedTd) (name : String)
    (data : List (IRow K)) (h1 : name ≠ "TIRec") (h2 : name ≠ "TIRecA") (b : Bool) :
    runScript env cfg fs { ft with parallel := b } name data = runScript env cfg fs ft name data := by
  rw [runScript_unfold, runScript_unfold]
  split
  · rfl
  · split
    · exact fullDynamicalExperiment_flag env { cfg with fixedSvd := none, fixedTd := some ft } name "3d" data h1 h2 b
    · rfl

/-- **C135** (`parallel`, integrator models). Whatever the model, an experiment that completes with `parallel=False`
completes with `parallel=True` too, with the same result. -/
theorem C135_parallel_complete (env : RunEnv K) (cfg : RunCfg K) (fs : FixedSvd) (ft : FixedTd) (name : String)
    (data : List (IRow K)) (d : Dynamics K)
    (h : runScript env cfg fs { ft with parallel := false } name data = .ok d) :
    runScript env cfg fs { ft with parallel := true } name data = .ok d := by
  rw [runScript_unfold] at h ⊢
  by_cases h1 : name ∈ ["SVD", "PSIRec"]
  · rw [if_pos h1] at h ⊢
    exact h
  · rw [if_neg h1] at h ⊢
    by_cases h2 : name ∈ ["TDRec", "TDRecReinit", "TIRec", "TIRecA", "Random"]
    · rw [if_pos h2] at h ⊢
      exact fullDynamicalExperiment_le env { cfg with fixedSvd := none, fixedTd := some ft } name "3d" data true d h
    · rw [if_neg h2] at h
      cases h

/-- **C135** (`parallel`, search). The table of the search for the sequence models does not depend on it. -/
theorem C135_parallel_search (env : RunEnv K) (se : SearchEnv K) (cfg : RunCfg K) (sc : SearchCfg K) (ft : FixedTd)
    (data : List (IRow K)) (b : Bool) :
    hyperparametersSearchTdrec env se cfg sc { ft with parallel := b } data =
      hyperparametersSearchTdrec env se cfg sc ft data := by
  have h : ∀ train valid topk, tdSearchScores env { ft with parallel := b } train valid topk =
      tdSearchScores env ft train valid topk := by
    intro train valid topk
    funext c
    unfold tdSearchScores
    split
    · have : ∀ r a, tdSearchCfg env { ft with parallel := b } r a = (tdSearchCfg env ft r a).flag b := fun _ _ => rfl
      rw [this]
      unfold tdSearchTrain
      rw [tdInit_flag]
      simp only [TDCfg.flag, gaSatf_flag]
    · rfl
  unfold hyperparametersSearchTdrec
  simp only [h]

theorem ablate_flag (init : Emb) (integ : Bool) (p : Prepared K) (b : Bool) :
    ablate init integ (p.flag b) = (ablate init integ p).flag b := by
  obtain ⟨o, bt, cm, re, td, ml⟩ := p
  cases o <;> rfl

theorem ablationRun_le (env : RunEnv K) (cfg : RunCfg K) (name dim : String) (data : List (IRow K)) (b : Bool)
    (o : K × Bool) :
    Le (ablationRun env (cfg.flag false) name dim data o) (ablationRun env (cfg.flag b) name dim data o) := by
  unfold ablationRun
  simp only
  refine (Le.refl _).bind fun d => (Le.refl _).bind fun t => ?_
  simp only [prepareModel_flag, map_bind, ablate_flag]
  exact (Le.refl _).bind fun p => runPrepared_le _ _ _ b t _

theorem ablationLoop_le (f g : K × Bool → PyM (Dynamics K)) (h : ∀ o, Le (f o) (g o)) :
    ∀ os, (ablationLoop f os).1 <+: (ablationLoop g os).1 ∧
      ((ablationLoop f os).2 = none → ablationLoop g os = ablationLoop f os)
  | [] => ⟨List.nil_prefix, fun _ => rfl⟩
  | o :: os => by
    obtain ⟨h1, h2⟩ := ablationLoop_le f g h os
    unfold ablationLoop
    cases hf : f o with
    | error e => exact ⟨List.nil_prefix, fun h => by cases h⟩
    | ok d =>
      rw [h o d hf]
      refine ⟨?_, fun hn => ?_⟩
      · obtain ⟨t, ht⟩ := h1
        exact ⟨t, by rw [← ht]; rfl⟩
      · have := h2 hn
        simp only [this]

/-- **C135** (`parallel`, ablation study). The files written with `parallel=False` are the first files written with
`parallel=True`; if the study completes, the two agree. -/
theorem C135_parallel_ablation (env : RunEnv K) (cfg : RunCfg K) (fs : FixedSvd) (ft : FixedTd) (name : String)
    (data : List (IRow K)) :
    (ablationScript env cfg fs { ft with parallel := false } name data).1 <+:
      (ablationScript env cfg fs { ft with parallel := true } name data).1 ∧
    ((ablationScript env cfg fs { ft with parallel := false } name data).2 = none →
      ablationScript env cfg fs { ft with parallel := true } name data =
        ablationScript env cfg fs { ft with parallel := false } name data) := by
  unfold ablationScript
  split
  · exact ⟨List.prefix_refl _, fun _ => rfl⟩
  · split
    · exact ablationLoop_le _ _ (fun o => ablationRun_le env { cfg with fixedSvd := none, fixedTd := some ft } name "3d"
        data true o) ablationOptions
    · exact ⟨List.prefix_refl _, fun _ => rfl⟩

/-- **C135** (fixed settings of the matrix models). `n_power_iter` and `oversampling` have no influence on the search
for the rank and on the experiment with the model `SVD`. -/
theorem C135_svd (env : RunEnv K) (se : SearchEnv K) (cfg : RunCfg K) (sc : SearchCfg K) (fs fs' : FixedSvd)
    (ft ft' : FixedTd) (data : List (IRow K)) :
    hyperparametersSearchSvd env se cfg sc fs data = hyperparametersSearchSvd env se cfg sc fs' data ∧
    runScript env cfg fs ft "SVD" data = runScript env cfg fs' ft' "SVD" data := by
  constructor
  · have h : ∀ train valid topk, svdSearchScore env fs train valid topk = svdSearchScore env fs' train valid topk := by
      intro train valid topk
      funext c
      unfold svdSearchScore
      split <;> rfl
    unfold hyperparametersSearchSvd
    simp only [h]
  · rw [runScript_unfold, runScript_unfold, if_pos (by decide), if_pos (by decide)]
    unfold fullDynamicalExperiment
    apply bind_congr_ok
    intro d _
    apply bind_congr_ok
    intro t _
    have hm : ∀ (fs : FixedSvd), prepareModel env { cfg with fixedSvd := some fs, fixedTd := none } "SVD" =
        (getOptimalSvdRank cfg.dataset env.svdCsv >>= fun r => natRank r >>= fun r =>
          pure ⟨.svd ⟨r, fs.nPower, fs.os, none, false⟩, true, false, false, false, none⟩) := by
      intro fs
      unfold prepareModel
      rw [if_pos rfl]
      unfold prepareSvd prepSvdCfg
      simp only [bind_assoc, cfgGet]
      apply bind_congr_ok
      intro r _
      show (natRank r >>= _) = _
      apply bind_congr_ok
      intro r' _
      rfl
    simp only [hm, bind_assoc]
    apply bind_congr_ok
    intro r _
    apply bind_congr_ok
    intro r' _
    rfl

/-- **C135** (randomness of `SVD`). The search for the rank and the experiment with `SVD` read no random number: two
environments that differ only in the random draws, the norms of tensors, the powers, the table of the sequence models
and the tolerance give the same results. -/
theorem C135_svd_draws (env env' : RunEnv K) (hla : env.psi.la = env'.psi.la) (hargp : env.argp = env'.argp)
    (hnorm : env.normM = env'.normM) (hclock : env.clock = env'.clock) (hday : env.sortDay = env'.sortDay)
    (hcnt : env.sortCnt = env'.sortCnt) (hcsv : env.svdCsv = env'.svdCsv) (se : SearchEnv K) (cfg : RunCfg K)
    (sc : SearchCfg K) (fs : FixedSvd) (ft : FixedTd) (data : List (IRow K)) :
    hyperparametersSearchSvd env se cfg sc fs data = hyperparametersSearchSvd env' se cfg sc fs data ∧
    runScript env cfg fs ft "SVD" data = runScript env' cfg fs ft "SVD" data := by
  have ht : ∀ (c : PSICfg) (rows : List (Row K)), svdTrain env.psi c rows = svdTrain env'.psi c rows := by
    intro c rows
    unfold svdTrain svdStep
    simp only [hla]
  constructor
  · have h : ∀ train valid topk, svdSearchScore env fs train valid topk = svdSearchScore env' fs train valid topk := by
      intro train valid topk
      funext c
      unfold svdSearchScore
      simp only [ht, hargp]
    unfold hyperparametersSearchSvd
    simp only [h, hday]
  · rw [runScript_unfold, runScript_unfold, if_pos (by decide), if_pos (by decide)]
    unfold fullDynamicalExperiment
    rw [hday]
    apply bind_congr_ok
    intro d _
    apply bind_congr_ok
    intro t _
    have hm : prepareModel env { cfg with fixedSvd := some fs, fixedTd := none } "SVD" =
        prepareModel env' { cfg with fixedSvd := some fs, fixedTd := none } "SVD" := by
      unfold prepareModel
      rw [if_pos rfl, if_pos rfl]
      unfold prepareSvd prepSvdCfg
      rw [hcsv]
    rw [hm]
    apply bind_congr_ok
    intro p hp
    unfold prepareModel at hp
    rw [if_pos rfl] at hp
    unfold prepareSvd at hp
    obtain ⟨c, _, hp⟩ := (bind_ok_iff _ _ _).1 hp
    have hp := Except.ok.inj hp
    subst hp
    have hc : svdClass env.psi env.argp c = svdClass env'.psi env'.argp c := by
      unfold svdClass
      simp only [ht, hargp]
    unfold runPrepared expCfgOf
    simp only [hc, hnorm, hclock, hcnt]

/-- **C135** (what is read from `tdrec.csv`). Two tables from which the same ranks and exponent are selected give the same
experiment, whatever the number of sweeps and the metric of the selected rows. -/
theorem C135_selected (env : RunEnv K) (rows : List (TdRow K)) (cfg : RunCfg K) (fs : FixedSvd) (ft : FixedTd)
    (name : String) (data : List (IRow K)) (p p' : List ℤ × K × ℤ)
    (h : getOptimalTdrecParams cfg.dataset env.tdCsv = .ok p) (h' : getOptimalTdrecParams cfg.dataset rows = .ok p')
    (hr : p.1 = p'.1) (ha : p.2.1 = p'.2.1) :
    runScript env cfg fs ft name data = runScript { env with tdCsv := rows } cfg fs ft name data := by
  rw [runScript_unfold, runScript_unfold]
  have hcfg : ∀ c : RunCfg K, c.dataset = cfg.dataset → prepTdCfg env c = prepTdCfg { env with tdCsv := rows } c := by
    intro c hc
    unfold prepTdCfg
    simp only [hc, h, h', except_bind_ok]
    rw [hr, ha]
  have hm : ∀ c : RunCfg K, c.dataset = cfg.dataset → prepareModel env c name = prepareModel { env with tdCsv := rows } c name := by
    intro c hc
    unfold prepareModel prepareTd prepareTdRe prepareTi prepareTiA
    simp only [hcfg c hc]
    rfl
  have hf : ∀ (c : RunCfg K) dim, c.dataset = cfg.dataset → fullDynamicalExperiment env c name dim data =
      fullDynamicalExperiment { env with tdCsv := rows } c name dim data := by
    intro c dim hc
    unfold fullDynamicalExperiment
    simp only [hm c hc]
    rfl
  split
  · exact hf _ _ rfl
  · split
    · exact hf _ _ rfl
    · rfl

/-! ### Examples -/

/-- The search of the example with the parallel function. -/
example : hyperparametersSearchTdrec exRunEnv exSearchEnv exSearchRun exGridCfg { exFixTd with parallel := true }
    exSearchData = .ok [⟨[1, 1, 1], 1, 1, 0⟩, ⟨[1, 1, 1], 1, 2, 0⟩, ⟨[1, 1, 1], 1, 3, 0⟩] := by
  rw [C135_parallel_search]
  exact exSearch_td

/-- The run of `TIRec` in the example with the parallel function. -/
example : ∃ d, runScript exRunEnv exRunCfg exFixSvd { exFixTd with parallel := true } "TIRec" exRunData = .ok d ∧
    d.hr = [0, 0] := by
  have hrun : exRunHr "TIRec" = some [0, 0] := by decide +kernel
  unfold exRunHr at hrun
  cases h : runScript exRunEnv exRunCfg exFixSvd exFixTd "TIRec" exRunData with
  | error e => rw [h] at hrun; cases hrun
  | ok d =>
    rw [h] at hrun
    exact ⟨d, C135_parallel_complete exRunEnv exRunCfg exFixSvd exFixTd "TIRec" exRunData d h, Option.some.inj hrun⟩

/-- The run of `SVD` in the example with other settings and another random stream. -/
example : ∃ d, runScript { exRunEnv with psi := ⟨exRunLA, fun _ _ _ _ => 7, fun v => List.range v.length, fun _ _ _ _ => 5⟩ }
    exRunCfg ⟨3, 10⟩ exFixTd "SVD" exRunData = .ok d ∧ d.hr = [0, 1] := by
  have hrun : exRunHr "SVD" = some [0, 1] := by decide +kernel
  unfold exRunHr at hrun
  rw [(C135_svd exRunEnv exSearchEnv exRunCfg exGridCfg exFixSvd ⟨3, 10⟩ exFixTd exFixTd exRunData).2,
    (C135_svd_draws exRunEnv
      { exRunEnv with psi := ⟨exRunLA, fun _ _ _ _ => 7, fun v => List.range v.length, fun _ _ _ _ => 5⟩ }
      rfl rfl rfl rfl rfl rfl rfl exSearchEnv exRunCfg exGridCfg ⟨3, 10⟩ exFixTd exRunData).2] at hrun
  cases h : runScript { exRunEnv with psi := ⟨exRunLA, fun _ _ _ _ => 7, fun v => List.range v.length, fun _ _ _ _ => 5⟩ }
    exRunCfg ⟨3, 10⟩ exFixTd "SVD" exRunData with
  | error e => rw [h] at hrun; cases hrun
  | ok d =>
    rw [h] at hrun
    exact ⟨d, rfl, Option.some.inj hrun⟩

/-- A table with 4 instead of 2 sweeps in the selected row. -/
example : runScript exRunEnv exRunCfg exFixSvd exFixTd "TDRec" exRunData =
    runScript { exRunEnv with tdCsv := [⟨[1, 1, 1], 1, 4, 3⟩, ⟨[2, 2, 2], 1, 1, 3⟩] } exRunCfg exFixSvd exFixTd "TDRec" exRunData :=
  C135_selected exRunEnv _ exRunCfg exFixSvd exFixTd "TDRec" exRunData ([1, 1, 1], 1, 2) ([1, 1, 1], 1, 4)
    (by decide +kernel) (by decide +kernel) rfl rfl

/-- A first factor without columns and an index outside the factor: only the sequential function raises. -/
example : constructCore [(5, 0, 0)] [(1 : ℚ)] ⟨1, 0, 0⟩ ⟨1, 1, 1⟩ ⟨1, 1, 1⟩ = .error .indexError ∧
    ∃ g, constructCoreParallel [(5, 0, 0)] [(1 : ℚ)] ⟨1, 0, 0⟩ ⟨1, 1, 1⟩ ⟨1, 1, 1⟩ = .ok g :=
  ⟨rfl, _, rfl⟩

end DynCF
