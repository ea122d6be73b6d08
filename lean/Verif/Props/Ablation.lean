/-
The ablation study (C109).
-/
import Verif.Model.Ablation
import Verif.Props.FullExperiment

namespace DynCF
variable {K : Type} [Field K] [LinearOrder K]

/-- The files hold the results of the first options in order; either all options are there and nothing was
raised, or the run of the next option raised what ended the script. -/
theorem ablationLoop_spec (run : K × Bool → PyM (Dynamics K)) (os : List (K × Bool)) :
    ∃ rest, os = (ablationLoop run os).1.map Prod.fst ++ rest ∧
      (∀ x ∈ (ablationLoop run os).1, run x.1 = .ok x.2) ∧
      ((rest = [] ∧ (ablationLoop run os).2 = none) ∨
        ∃ o tl e, rest = o :: tl ∧ run o = .error e ∧ (ablationLoop run os).2 = some e) := by
  induction os with
  | nil => exact ⟨[], rfl, by simp [ablationLoop], .inl ⟨rfl, rfl⟩⟩
  | cons o os ih =>
    obtain ⟨rest, h1, h2, h3⟩ := ih
    unfold ablationLoop
    cases hr : run o with
    | error e => exact ⟨o :: os, rfl, by simp, .inr ⟨o, os, e, rfl, hr, rfl⟩⟩
    | ok d =>
      refine ⟨rest, ?_, ?_, h3⟩
      · simp only [List.map_cons, List.cons_append, ← h1]
      · intro x hx
        rcases List.mem_cons.1 hx with rfl | hx
        · exact hr
        · exact h2 x hx

/-- The script writes one file per option in the order of `options`, a prefix of them if a run raises. -/
def WritesOptions (options : List (K × Bool)) (out : List ((K × Bool) × Dynamics K) × Option PyErr) : Prop :=
  ∃ rest, options = out.1.map Prod.fst ++ rest ∧ (rest = [] ↔ out.2 = none)

theorem ablationRun_plain [FloorRing K] {env : RunEnv K} {cfg : RunCfg K} {name : String}
    {data : List (IRow K)} {o : K × Bool} {d : Dynamics K}
    (h : ablationRun env cfg name "2d" data o = .ok d) :
    ∃ initial stream left p, prepareDataForExperiment env.sortDay data cfg.initRatio cfg.hmMin =
        .ok (initial, stream, left) ∧
      prepareModel (scaleNormal o.1 env) cfg name = .ok p ∧
      runPrepared (scaleNormal o.1 env) (expCfgOf (scaleNormal o.1 env) cfg (ablate (embOf o.1) o.2 p)
        (getUsersStability env.sortCnt initial left cfg.howMany)) (ablate (embOf o.1) o.2 p)
        (.plain initial) (stream.map Prod.snd) = .ok d := by
  unfold ablationRun at h
  obtain ⟨⟨initial, stream, left⟩, h1, h⟩ := (bind_ok_iff _ _ _).1 h
  obtain ⟨t, h2, h⟩ := (bind_ok_iff _ _ _).1 h
  have h2 : t = .plain initial := by
    unfold initialTable at h2
    rw [if_neg (show ¬ "2d" = "3d" by decide), if_pos rfl] at h2
    exact (Except.ok.inj h2).symm
  subst h2
  obtain ⟨p, h3, h⟩ := (bind_ok_iff _ _ _).1 h
  exact ⟨initial, stream, left, p, h1, h3, h⟩

theorem ablationRun_posed [FloorRing K] {env : RunEnv K} {cfg : RunCfg K} {name : String}
    {data : List (IRow K)} {o : K × Bool} {d : Dynamics K}
    (h : ablationRun env cfg name "3d" data o = .ok d) :
    ∃ initial stream left t p, prepareDataForExperiment env.sortDay data cfg.initRatio cfg.hmMin =
        .ok (initial, stream, left) ∧ getDfWithCroppedPos initial cfg.maxLen true = .ok t ∧
      prepareModel (scaleNormal o.1 env) cfg name = .ok p ∧
      runPrepared (scaleNormal o.1 env) (expCfgOf (scaleNormal o.1 env) cfg (ablate (embOf o.1) o.2 p)
        (getUsersStability env.sortCnt initial left cfg.howMany)) (ablate (embOf o.1) o.2 p)
        (.posed t) (stream.map Prod.snd) = .ok d := by
  unfold ablationRun at h
  obtain ⟨⟨initial, stream, left⟩, h1, h⟩ := (bind_ok_iff _ _ _).1 h
  obtain ⟨t, h2, h⟩ := (bind_ok_iff _ _ _).1 h
  unfold initialTable at h2
  rw [if_pos rfl] at h2
  obtain ⟨t', h4, h2⟩ := (bind_ok_iff _ _ _).1 h2
  have h2 := Except.ok.inj h2
  subst h2
  obtain ⟨p, h3, h⟩ := (bind_ok_iff _ _ _).1 h
  refine ⟨initial, stream, left, t', p, h1, h4, h3, ?_⟩
  have hu := stability_congr env.sortCnt (Tab.posed t').rows initial left cfg.howMany
    (crop_mem_user (crop_ok_inv _ _ _ h4).2.1 (crop_ok_isCropped _ _ _ h4))
  have hs : (scaleNormal o.1 env).sortCnt = env.sortCnt := rfl
  dsimp only at h
  rw [hs, hu] at h
  exact h

theorem ablationLoop_writes (run : K × Bool → PyM (Dynamics K)) (os : List (K × Bool)) :
    WritesOptions os (ablationLoop run os) := by
  obtain ⟨rest, h1, -, h3⟩ := ablationLoop_spec run os
  refine ⟨rest, h1, ?_⟩
  rcases h3 with ⟨e1, e2⟩ | ⟨o, tl, e, e1, -, e2⟩
  · exact ⟨fun _ => e2, fun _ => e1⟩
  · rw [e1, e2]
    simp

/-- **C109, PSIRec.** The files are written in the order of the options. The file of the option
`(std, integrator)` is the record of an object trained on the initial rows and updated with every chunk,
whose new embeddings are zero if `std = 0` and `std` times the standard draws otherwise, and which uses the
integrator for pairs of new users and new items exactly as the option says. No option sees another's object. -/
theorem C109_psirec [FloorRing K] (env : RunEnv K) (cfg : RunCfg K) (fs : FixedSvd) (ft : FixedTd)
    (data : List (IRow K)) :
    WritesOptions ablationOptions (ablationScript env cfg fs ft "PSIRec" data) ∧
    ∀ std integ d, ((std, integ), d) ∈ (ablationScript env cfg fs ft "PSIRec" data).1 →
      ∃ r : ℕ, getOptimalSvdRank cfg.dataset env.svdCsv = .ok (r : ℤ) ∧
      ScriptRun env cfg data (fun initial past f =>
        ∃ st, psiRun { env.psi with normal := fun m n => std • env.psi.normal m n }
            ⟨r, fs.nPower, fs.os, some (if std = 0 then .zero else .random), integ⟩ initial past = .ok st ∧
          f = svdFace env.argp st) d := by
  unfold ablationScript
  rw [if_pos (by simp)]
  refine ⟨ablationLoop_writes _ _, ?_⟩
  intro std integ d hd
  obtain ⟨-, -, h, -⟩ := ablationLoop_spec
    (ablationRun env { cfg with fixedSvd := some fs, fixedTd := none } "PSIRec" "2d" data) ablationOptions
  obtain ⟨initial, stream, left, p, h1, h2, h3⟩ := ablationRun_plain (h _ hd)
  unfold prepareModel at h2
  rw [if_neg (by decide), if_pos rfl] at h2
  obtain ⟨c, h4, h2⟩ := (bind_ok_iff _ _ _).1 h2
  have h2 := Except.ok.inj h2
  subst h2
  obtain ⟨r, h5, rfl⟩ := prepSvdCfg_ok rfl h4
  refine ⟨r, h5, scriptRun_intro (p := ablate (embOf std) integ ⟨.psi _, false, true, false, false, none⟩)
    h1 h3 ?_⟩
  intro past snaps s s' c snap hw hs
  obtain ⟨st, rfl, hst⟩ := psi_watched rfl rfl hw
  exact ⟨_, ⟨st, hst, rfl⟩, (svd_shows (env := (scaleNormal std env).psi)
    (c0 := ⟨r, fs.nPower, fs.os, some (embOf std), integ⟩) rfl rfl rfl rfl rfl hs).2⟩

/-- **C109, TIRecA.** As for PSIRec; the initial rows are cropped, rank and attention are the selected
ones. -/
theorem C109_tireca [FloorRing K] (env : RunEnv K) (cfg : RunCfg K) (fs : FixedSvd) (ft : FixedTd)
    (data : List (IRow K)) :
    WritesOptions ablationOptions (ablationScript env cfg fs ft "TIRecA" data) ∧
    ∀ std integ d, ((std, integ), d) ∈ (ablationScript env cfg fs ft "TIRecA" data).1 →
      ∃ c m, TdSelected env cfg ft c.td m ∧ c.light = false ∧ c.explicitCalc = true ∧
        c.init = (if std = 0 then .zero else .random) ∧ c.integrator = integ ∧
        c.normal = (fun m n => std • env.normal m n) ∧
      ScriptRun env cfg data (fun initial past f =>
        ∃ t st0 st, IsCropped cfg.maxLen initial t ∧
          tdTrain c.td m (none : Option (ExitCallback K Unit)) () [] t = .ok st0 ∧
          tiUpdates tirecaMiddle c m st0 past true = .ok st ∧ f = tdFace env.argp st) d := by
  unfold ablationScript
  rw [if_neg (by decide), if_pos (by simp)]
  refine ⟨ablationLoop_writes _ _, ?_⟩
  intro std integ d hd
  obtain ⟨-, -, h, -⟩ := ablationLoop_spec
    (ablationRun env { cfg with fixedSvd := none, fixedTd := some ft } "TIRecA" "3d" data) ablationOptions
  obtain ⟨initial, stream, left, t, p, h1, ht, h2, h3⟩ := ablationRun_posed (h _ hd)
  unfold prepareModel at h2
  rw [if_neg (by decide), if_neg (by decide), if_neg (by decide), if_neg (by decide), if_neg (by decide),
    if_pos rfl] at h2
  obtain ⟨c, h4, h2⟩ := (bind_ok_iff _ _ _).1 h2
  obtain ⟨m, h5, h2⟩ := (bind_ok_iff _ _ _).1 h2
  have h2 := Except.ok.inj h2
  subst h2
  have h6 := prepTdCfg_ok (ft := ft) rfl h4 h5
  refine ⟨{ prepTiCfg (scaleNormal std env) c with init := embOf std, integrator := integ }, m, h6, rfl, rfl,
    rfl, rfl, rfl, scriptRun_intro (p := ablate (embOf std) integ
      ⟨.tiA (prepTiCfg (scaleNormal std env) c) m, false, true, false, true, some cfg.maxLen⟩) h1 h3 ?_⟩
  intro past snaps s s' c' snap hw hs
  obtain ⟨st0, st, rfl, hst0, hst⟩ := ti_watched rfl rfl hw
  exact ⟨_, ⟨t, st0, st, crop_ok_isCropped _ _ _ ht, hst0, hst, rfl⟩,
    (td_shows (c0 := c) (m := m) rfl rfl rfl rfl rfl hs).2⟩

/-- **C109, the options.** Seven different pairs, hence seven different files: zero embeddings with the
integrator and three positive deviations with and without it. Other model names are rejected before anything
is written. -/
theorem C109_options [FloorRing K] [IsStrictOrderedRing K] (env : RunEnv K) (cfg : RunCfg K) (fs : FixedSvd)
    (ft : FixedTd) (data : List (IRow K)) (name : String) :
    (ablationOptions : List (K × Bool)).Nodup ∧
    (∀ o, o ∈ (ablationOptions : List (K × Bool)) ↔
      o = (0, true) ∨ ∃ e ∈ [8, 5, 3], o.1 = (1 / 10 ^ e : K)) ∧
    (name ≠ "PSIRec" → name ≠ "TIRecA" →
      ablationScript env cfg fs ft name data = ([], some .runtimeError)) := by
  refine ⟨?_, ?_, ?_⟩
  · unfold ablationOptions
    simp only [List.nodup_cons, List.mem_cons, Prod.mk.injEq, List.not_mem_nil, not_false_eq_true]
    norm_num
  · rintro ⟨x, b⟩
    unfold ablationOptions
    cases b <;> simp [Prod.ext_iff] <;> tauto
  · intro h1 h2
    unfold ablationScript
    rw [if_neg (by simpa using h1), if_neg (by simpa using h2)]

/-! ### Examples -/

/-- The recorded hit rates, file by file. -/
def exAblHr (name : String) : List ((ℚ × Bool) × List ℚ) :=
  (ablationScript exRunEnv exRunCfg exFixSvd exFixTd name exRunData).1.map fun x => (x.1, x.2.hr)

example : exAblHr "PSIRec" = [((0, true), [0, 1]), ((1 / 10 ^ 8, false), [0, 0]), ((1 / 10 ^ 5, false), [0, 0]),
    ((1 / 10 ^ 3, false), [0, 0]), ((1 / 10 ^ 8, true), [0, 0]), ((1 / 10 ^ 5, true), [0, 0]),
    ((1 / 10 ^ 3, true), [0, 0])] := by decide +kernel
example : (exAblHr "TIRecA").length = 7 := by decide +kernel
example : (ablationScript exRunEnv exRunCfg exFixSvd exFixTd "TIRec" exRunData).2 = some .runtimeError := by
  rw [(C109_options _ _ _ _ _ _).2.2 (by decide) (by decide)]

end DynCF
