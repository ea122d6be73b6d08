/-
C125: the figures drawn at the end of `run_experiments.py`.
-/
import Verif.Props.Pipeline

namespace DynCF
variable {K : Type} [Field K] [LinearOrder K] [FloorRing K]

theorem Dict.keys_update_nodup {α β : Type} [DecidableEq α] (d e : Dict α β) (h : (Dict.keys d).Nodup) :
    (Dict.keys (Dict.update d e)).Nodup := by
  induction e generalizing d with
  | nil => exact h
  | cons p e ih => exact ih _ (Dict.keys_set_nodup _ _ _ h)

theorem files_nodup (P : PipeEnv K) (d : Disk K) (h : (Dict.keys d.files).Nodup) (cs : List Cmd) :
    (Dict.keys (runCmds P cs d).1.files).Nodup := by
  induction cs generalizing d with
  | nil => exact h
  | cons c cs ih =>
    refine ih _ ?_
    cases c with
    | searchSvd =>
      simp only [runCmd]
      split <;> exact h
    | searchTd =>
      simp only [runCmd]
      split <;> exact h
    | experiment name =>
      simp only [runCmd]
      split
      · split
        · exact Dict.keys_set_nodup _ _ _ h
        · exact h
      · exact h
    | ablation name =>
      simp only [runCmd]
      split
      · exact Dict.keys_update_nodup _ _ h
      · exact h

/-- Results of one call have series of the same lengths. -/
theorem fresh_series {P : PipeEnv K} {svd : Option (List (SvdRow K))} {td : Option (List (TdRow K))} {n : Str}
    {s : Series K} (hf : Fresh P svd td n s) {initial left : List (Row K)} {stream : List (ℤ × List (Row K))}
    (hd : prepareDataForExperiment P.env.sortDay P.data P.cfg.initRatio P.cfg.hmMin = .ok (initial, stream, left)) :
    StepSeries (expSteps P.cfg.howMany stream.length) s := by
  cases hf with
  | experiment name r hn hs ht h => exact (C116_lengths (P.envFor (.experiment name) (svd.getD []) (td.getD [])) P.cfg P.fs P.ft
    name P.data initial left stream hd).1 r h
  | ablation name i o r t hn hs ht h hi =>
    exact (C116_lengths (P.envFor (.ablation name) (svd.getD []) (td.getD [])) P.cfg P.fs P.ft name P.data initial left
      stream hd).2 o r (List.mem_of_getElem? h)

/-- The settings of the figures are those of the experiments, on one of the four data sets; `data_dynamics.json` has
been written for the data. -/
structure GraphsMatch (P : PipeEnv K) (d : Disk K) (initial left : List (Row K)) (stream : List (ℤ × List (Row K))) :
    Prop where
  iterdir : ∀ f, (P.iterdir f).Perm f
  ratio : P.graphs.initRatio = P.cfg.initRatio
  hmMin : P.graphs.hmMin = P.cfg.hmMin
  howMany : P.graphs.howMany = P.cfg.howMany
  dir : P.graphs.dir ∈ resultDirs
  models : P.graphs.models ≠ []
  known : ∀ m ∈ P.graphs.models, m ∈ scriptModels
  windows : ∀ w ∈ P.graphs.swls, 1 ≤ w
  prepared : prepareDataForExperiment P.env.sortDay P.data P.cfg.initRatio P.cfg.hmMin = .ok (initial, stream, left)
  names : (Dict.keys d.files).Nodup
  only : ∀ n ∈ Dict.keys d.files, n = "data_dynamics".toList ∨ n ∈ allRuns.map RunId.name
  dynamics : ∃ dd, saveDataDynamics left P.cfg.howMany = .ok dd ∧
    Dict.get? d.files "data_dynamics".toList = some (dataJson dd)

/-- **C125.** If no script before it fails and the directory contains nothing but `data_dynamics.json` and results of
earlier calls, the last script draws all figures if the stream has at least `how_many_iterations` chunks, and
otherwise stops with `ValueError` after those of the experiments. -/
theorem C125_figures [IsStrictOrderedRing K] (P : PipeEnv K) (d : Disk K) (initial left : List (Row K)) (stream : List (ℤ × List (Row K)))
    (hm : GraphsMatch P d initial left stream) (h : ∀ e ∈ (runExperiments P d).1.2, e = none) :
    (P.graphs.howMany ≤ stream.length → ∃ fs, (runExperiments P d).2 = (fs, none) ∧
      fs.map Figure.file = experimentFiles P.graphs.dataset P.graphs.swls ++
        [P.graphs.dataset ++ "_dynamics_new_ui.pdf".toList, P.graphs.dataset ++ "_data_dynamics.pdf".toList] ++
        ablationFiles "TIRec".toList P.graphs.dataset ++ ablationFiles "PSIRec".toList P.graphs.dataset) ∧
    (stream.length < P.graphs.howMany → ∃ fs, (runExperiments P d).2 = (fs, some .valueError) ∧
      fs.map Figure.file = experimentFiles P.graphs.dataset P.graphs.swls) := by
  obtain ⟨rs, rt, -, -, -, -, a5, a6⟩ := C124_success P d h
  obtain ⟨dd, hdd, hdg⟩ := hm.dynamics
  have hnd : (Dict.keys (runExperiments P d).1.1.files).Nodup := files_nodup P d hm.names _
  have hdn : "data_dynamics".toList ∉ allRuns.map RunId.name := by decide +kernel
  have hnames : (allRuns.map RunId.name).Nodup := by decide +kernel
  have hperm : (runExperiments P d).1.1.files.Perm
      ((allRuns.map fun r => (r.name, (Dict.get? (runExperiments P d).1.1.files r.name).getD [])) ++
        [("data_dynamics".toList, dataJson dd)]) := by
    rw [List.perm_ext_iff_of_nodup (List.Nodup.of_map _ hnd)]
    · rintro ⟨n, s⟩
      rw [List.mem_append, List.mem_singleton]
      constructor
      · intro hx
        have hg := Dict.get?_of_mem _ hnd hx
        by_cases hn : n ∈ allRuns.map RunId.name
        · obtain ⟨r, hr, rfl⟩ := List.mem_map.1 hn
          exact .inl (List.mem_map.2 ⟨r, hr, by rw [hg]; rfl⟩)
        · rw [a6 n hn] at hg
          have hk : n ∈ Dict.keys d.files := by
            rw [Dict.mem_keys_iff, hg]
            rfl
          rcases hm.only n hk with rfl | hk
          · rw [hdg] at hg
            rw [Option.some.inj hg]
            exact .inr rfl
          · exact absurd hk hn
      · rintro (hx | hx)
        · obtain ⟨r, hr, he⟩ := List.mem_map.1 hx
          obtain ⟨s', hs', -⟩ := a5 r hr
          rw [hs'] at he
          simp only [Prod.mk.injEq, Option.getD_some] at he
          obtain ⟨rfl, rfl⟩ := he
          exact Dict.mem_of_get? _ hs'
        · simp only [Prod.mk.injEq] at hx
          obtain ⟨rfl, rfl⟩ := hx
          refine Dict.mem_of_get? _ ?_
          rw [a6 _ hdn, hdg]
    · refine List.Nodup.of_map Prod.fst ?_
      rw [List.map_append, List.map_map]
      refine List.Nodup.append hnames (List.nodup_singleton _) ?_
      intro x hx hx'
      rw [List.mem_map] at hx'
      obtain ⟨y, hy, rfl⟩ := hx'
      rw [List.mem_singleton] at hy
      subst hy
      exact hdn hx
  have hentries : (diskEntries P (runExperiments P d).1.1).Perm
      ((allRuns.map fun r => (resultPath P.graphs.dir r.name, true,
        (Dict.get? (runExperiments P d).1.1.files r.name).getD [])) ++
        [(resultPath P.graphs.dir "data_dynamics".toList, true, dataJson dd)]) := by
    have := ((hm.iterdir (runExperiments P d).1.1.files).trans hperm).map
      fun e : Str × Series K => (resultPath P.graphs.dir e.1, true, e.2)
    rw [List.map_append, List.map_map] at this
    exact this
  have := C116_drawn_partial P.env.sortDay P.graphs (diskEntries P (runExperiments P d).1.1) P.data initial left stream
    (fun r => (Dict.get? (runExperiments P d).1.1.files r.name).getD []) dd (expSteps P.cfg.howMany stream.length)
    hm.dir hm.models hm.known hm.windows (by rw [hm.ratio, hm.hmMin]; exact hm.prepared)
    (fun r hr => by
      obtain ⟨s, hs, hf⟩ := a5 r hr
      rw [hs]
      exact fresh_series hf hm.prepared)
    (by rw [hm.howMany]; exact hdd) hentries
  exact this

/-- **C125, nothing without every listed model.** If nothing was there before except other files and the call
computes no result for one of the models to be drawn, no figure is drawn at all. -/
theorem C125_missing (P : PipeEnv K) (d : Disk K) (hiter : ∀ f, (P.iterdir f).Perm f) (m : Str) (hm : m ∈ P.graphs.models)
    (hold : Dict.get? d.files m = none)
    (hno : ∀ s, ¬ Fresh P (runExperiments P d).1.1.svdCsv (runExperiments P d).1.1.tdCsv m s) :
    (runExperiments P d).2 = ([], some .fileNotFoundError) := by
  have hg : Dict.get? (runExperiments P d).1.1.files m = none := by
    obtain ⟨-, -, -, -, a5⟩ := C124_sources_partial P d
    rw [(a5 m).2 hno, hold]
  have hpath : ∀ a b, resultPath P.graphs.dir a = resultPath P.graphs.dir b → a = b := by
    intro a b h
    unfold resultPath at h
    rw [List.append_assoc, List.append_assoc, List.append_assoc, List.append_assoc] at h
    exact List.append_cancel_right (List.append_cancel_left (List.append_cancel_left h))
  have hopen : openJson (diskEntries P (runExperiments P d).1.1) (resultPath P.graphs.dir m) =
      .error .fileNotFoundError := by
    unfold openJson
    rw [List.find?_eq_none.2]
    rintro x hx
    obtain ⟨e, he, rfl⟩ := List.mem_map.1 hx
    simp only [Bool.true_and, decide_eq_true_eq]
    intro heq
    have := hpath _ _ heq
    rw [Dict.get?_eq_none_iff] at hg
    exact hg (List.mem_map.2 ⟨e, (hiter _).subset he, this⟩)
  have hdict : experimentDict P.graphs (diskEntries P (runExperiments P d).1.1) = .error .fileNotFoundError := by
    unfold experimentDict
    have hm' : m ∈ pdUnique P.graphs.models := (mem_pdUnique _ _).2 hm
    have key : ∀ l : List Str, m ∈ l → (l.mapM fun name => do
        let s ← openJson (diskEntries P (runExperiments P d).1.1) (resultPath P.graphs.dir name)
        pure (name, s)) = (.error .fileNotFoundError : PyM (List (Str × Series K))) := by
      intro l
      induction l with
      | nil => intro h; cases h
      | cons a l ih =>
        intro h
        rw [List.mapM_cons]
        cases ho : openJson (diskEntries P (runExperiments P d).1.1) (resultPath P.graphs.dir a) with
        | error e =>
          have : e = .fileNotFoundError := by
            unfold openJson at ho
            split at ho
            · cases ho
            · exact (Except.error.inj ho).symm
          subst this
          rfl
        | ok s =>
          rcases List.mem_cons.1 h with rfl | h
          · rw [hopen] at ho
            cases ho
          · rw [except_bind_ok]
            rw [show (pure (a, s) : PyM (Str × Series K)) = .ok (a, s) from rfl, except_bind_ok, ih h]
            rfl
    exact key _ hm'
  show prepareGraphs P.env.sortDay P.graphs (diskEntries P (runExperiments P d).1.1) P.data = _
  unfold prepareGraphs
  simp only [withValue, hdict]

/-! ### A call that draws everything -/

/-- one iteration, on the one chunk of `exSearchData` -/
def exPipeOne : PipeEnv ℚ := { exPipe [1, 2] with cfg := { exSearchRun with howMany := 1 } }
def exDisk : Disk ℚ := ⟨none, none, [("data_dynamics".toList, dataJson ([], []))]⟩

theorem exMatch : ∃ initial left stream, GraphsMatch exPipeOne exDisk initial left stream ∧ stream.length = 1 := by
  refine ⟨exSearchData.take 7 |>.map IRow.row, [⟨9, 41, 1, 86404, 2⟩], [(2, [⟨9, 41, 1, 86404, 2⟩])],
    ⟨fun _ => List.Perm.refl _, rfl, rfl, rfl, by decide +kernel, by decide, by decide +kernel, by decide, by decide +kernel,
      by decide +kernel, by decide +kernel, ([], []), by decide +kernel, rfl⟩, rfl⟩

theorem exPipeOne_success : ∀ e ∈ (runExperiments exPipeOne exDisk).1.2, e = none := by decide +kernel

example : ∃ fs : List (Figure ℚ), (runExperiments exPipeOne exDisk).2 = (fs, none) ∧ fs.length = 12 := by
  obtain ⟨initial, left, stream, hm, hl⟩ := exMatch
  obtain ⟨fs, h1, h2⟩ := (C125_figures exPipeOne exDisk initial left stream hm exPipeOne_success).1 (by rw [hl]; rfl)
  have := congrArg List.length h2
  rw [List.length_map] at this
  exact ⟨fs, h1, this.trans rfl⟩

end DynCF
