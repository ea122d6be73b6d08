/- Property C127: what the four configuration files that come with the code need from the data. -/
import Verif.Model.Configs
import Verif.Props.Completion
import Verif.Props.Pipeline2
import Verif.Props.SearchCompletion

set_option linter.unusedSectionVars false

namespace DynCF
variable {K : Type}

/-! ### Specification -/

/-- The settings of a data set: its name, the share of the initial part in tenths, the number of
iterations and the largest rank tried for the matrix models. -/
structure Shipped where
  name : String
  tenths : ℕ
  steps : ℕ
  maxRank : ℕ
  deriving DecidableEq

/-- The four data sets. -/
def shippedSets : List Shipped :=
  [⟨"ml_20m", 4, 200, 290⟩, ⟨"amz_b", 7, 100, 290⟩, ⟨"amz_g", 7, 100, 290⟩, ⟨"steam", 8, 50, 390⟩]

/-- The number of rows of the initial part: `int(len(data) * init_ratio)`. -/
def Shipped.cut (s : Shipped) (n : ℕ) : ℕ := n * s.tenths / 10

/-- The figures of one call. -/
def allFiguresOf (name : String) : List Str :=
  [name ++ "_calc_time.pdf", name ++ "_cum_hr.pdf", name ++ "_stability.pdf", name ++ "_sw_20_hr.pdf",
    name ++ "_dynamics_new_ui.pdf", name ++ "_data_dynamics.pdf",
    "TIRec_" ++ name ++ "_cum_stability.pdf", "TIRec_" ++ name ++ "_cum_hr.pdf", "TIRec_" ++ name ++ "_sw_20_hr.pdf",
    "PSIRec_" ++ name ++ "_cum_stability.pdf", "PSIRec_" ++ name ++ "_cum_hr.pdf",
    "PSIRec_" ++ name ++ "_sw_20_hr.pdf"].map String.toList

/-! ### Proof -/

section proofs
variable [Field K] [LinearOrder K]

/-- What the proofs read off the files. -/
structure Agrees (s : Shipped) (c : ConfFile K) : Prop where
  imports : importConfig s.name.toList = .ok c
  ratio : c.initRatio = (s.tenths : K) / 10
  hmMin : c.hmMin = none
  steps : c.howMany = s.steps
  ranks : ∀ r, r ∈ c.svdRanks ↔ 1 ≤ r ∧ r ≤ s.maxRank ∧ 10 ∣ r
  models : c.plotModels ≠ []
  known : ∀ m ∈ c.plotModels, m ∈ scriptModels
  svd : "SVD".toList ∈ c.plotModels
  swls : c.swls = [20]
  dir : c.metricDir ∈ resultDirs
  dataset : c.run.dataset ≠ .other
  topk : c.topk = 5

theorem arange300 (r : ℕ) : r ∈ arangeStep 10 300 10 ↔ 1 ≤ r ∧ r ≤ 290 ∧ 10 ∣ r := by
  unfold arangeStep
  rw [List.mem_map]
  constructor
  · rintro ⟨i, hi, rfl⟩
    rw [List.mem_range] at hi
    omega
  · rintro ⟨h1, h2, k, rfl⟩
    exact ⟨k - 1, List.mem_range.2 (by omega), by omega⟩

theorem arange400 (r : ℕ) : r ∈ arangeStep 10 400 10 ↔ 1 ≤ r ∧ r ≤ 390 ∧ 10 ∣ r := by
  unfold arangeStep
  rw [List.mem_map]
  constructor
  · rintro ⟨i, hi, rfl⟩
    rw [List.mem_range] at hi
    omega
  · rintro ⟨h1, h2, k, rfl⟩
    exact ⟨k - 1, List.mem_range.2 (by omega), by omega⟩

theorem shipped_agrees (s : Shipped) (hs : s ∈ shippedSets) : ∃ c : ConfFile K, Agrees s c := by
  simp only [shippedSets, List.mem_cons, List.not_mem_nil, or_false] at hs
  rcases hs with rfl | rfl | rfl | rfl
  · exact ⟨confMl20m, ⟨rfl, by simp [confMl20m], rfl, rfl, arange300, by dsimp only [confMl20m]; decide, by dsimp only [confMl20m]; decide, by dsimp only [confMl20m]; decide, rfl,
      by dsimp only [confMl20m]; decide, by dsimp only [ConfFile.run, confMl20m]; decide, rfl⟩⟩
  · exact ⟨confAmzB, ⟨rfl, by simp [confAmzB], rfl, rfl, arange300, by dsimp only [confAmzB]; decide, by dsimp only [confAmzB]; decide, by dsimp only [confAmzB]; decide, rfl,
      by dsimp only [confAmzB]; decide, by dsimp only [ConfFile.run, confAmzB]; decide, rfl⟩⟩
  · exact ⟨confAmzG, ⟨rfl, by simp [confAmzG], rfl, rfl, arange300, by dsimp only [confAmzG]; decide, by dsimp only [confAmzG]; decide, by dsimp only [confAmzG]; decide, rfl,
      by dsimp only [confAmzG]; decide, by dsimp only [ConfFile.run, confAmzG]; decide, rfl⟩⟩
  · exact ⟨confSteam, ⟨rfl, by simp [confSteam], rfl, rfl, arange400, by dsimp only [confSteam]; decide, by dsimp only [confSteam]; decide, by dsimp only [confSteam]; decide, rfl,
      by dsimp only [confSteam]; decide, by dsimp only [ConfFile.run, confSteam]; decide, rfl⟩⟩

/-- **C127, names.** `import_config` finds a configuration for exactly the four names and raises `RuntimeError` for
every other one. -/
theorem C127_names (name : String) :
    (name ∈ shippedSets.map Shipped.name → ∃ c : ConfFile K, importConfig name.toList = .ok c ∧ c.dataset = name.toList ∧
      c.metricDir = ("results/" ++ name ++ "/metric_dynamics").toList) ∧
    (name ∉ shippedSets.map Shipped.name → importConfig (K := K) name.toList = .error .runtimeError) := by
  constructor
  · intro h
    simp only [shippedSets, List.map_cons, List.map_nil, List.mem_cons, List.not_mem_nil, or_false] at h
    rcases h with rfl | rfl | rfl | rfl
    · exact ⟨confMl20m, rfl, rfl, by dsimp only [confMl20m]; decide⟩
    · exact ⟨confAmzB, rfl, rfl, by dsimp only [confAmzB]; decide⟩
    · exact ⟨confAmzG, rfl, rfl, by dsimp only [confAmzG]; decide⟩
    · exact ⟨confSteam, rfl, rfl, by dsimp only [confSteam]; decide⟩
  · intro h
    simp only [shippedSets, List.map_cons, List.map_nil, List.mem_cons, List.not_mem_nil, or_false, not_or] at h
    unfold importConfig
    rw [if_neg fun e => h.1 (String.toList_inj.1 e), if_neg fun e => h.2.1 (String.toList_inj.1 e),
      if_neg fun e => h.2.2.1 (String.toList_inj.1 e), if_neg fun e => h.2.2.2 (String.toList_inj.1 e)]

theorem tucker_ok (a b c : ℕ) :
    tuckerRankIsValid (triZ (a, b, c)) = .ok (decide (a ≤ b * c ∧ b ≤ a * c ∧ c ≤ a * b)) := by
  unfold tuckerRankIsValid triZ
  simp only
  have e1 : ((a : ℤ) > b * c) ↔ b * c < a := by rw [gt_iff_lt]; exact_mod_cast Iff.rfl
  have e2 : ((b : ℤ) > a * c) ↔ a * c < b := by rw [gt_iff_lt]; exact_mod_cast Iff.rfl
  have e3 : ((c : ℤ) > a * b) ↔ a * b < c := by rw [gt_iff_lt]; exact_mod_cast Iff.rfl
  simp only [e1, e2, e3]
  split
  · rw [decide_eq_false]; omega
  · split
    · rw [decide_eq_false]; omega
    · split
      · rw [decide_eq_false]; omega
      · rw [decide_eq_true]; omega

theorem mem_validRanks (l0 l1 l2 : List ℕ) (a b c : ℕ) :
    (a, b, c) ∈ validRanks l0 l1 l2 ↔ (a ∈ l0 ∧ b ∈ l1 ∧ c ∈ l2) ∧ a ≤ b * c ∧ b ≤ a * c ∧ c ≤ a * b := by
  unfold validRanks
  rw [List.mem_filter, tucker_ok]
  simp only [decide_eq_true_eq]
  refine and_congr ?_ Iff.rfl
  simp only [List.mem_flatMap, List.mem_map, Prod.mk.injEq]
  constructor
  · rintro ⟨a', h1, b', h2, c', h3, rfl, rfl, rfl⟩
    exact ⟨h1, h2, h3⟩
  · rintro ⟨h1, h2, h3⟩
    exact ⟨a, h1, b, h2, c, h3, rfl, rfl, rfl⟩

/-- **C127, ranks of the tensor models.** The grid consists of the listed combinations that `check_params` accepts
(so that no trial ends with its `RuntimeError`); it is not empty; and the number of positions of the models is the
length to which histories are cut. -/
theorem C127_grid (name : String) (c : ConfFile K) (h : importConfig name.toList = .ok c) :
    c.tdRanks ≠ [] ∧ c.fixedTd.seqLen = c.maxLen ∧ (∀ shape : ℕ × ℕ × ℕ, ∀ r ∈ c.tdRanks,
      checkParams (tri shape) (triZ r) = .ok () ∧ r.2.2 ≤ c.maxLen) ∧
    ∀ r, r ∈ c.tdRanks ↔ (r.1 ≤ r.2.1 * r.2.2 ∧ r.2.1 ≤ r.1 * r.2.2 ∧ r.2.2 ≤ r.1 * r.2.1) ∧
      if name = "steam" then r.1 ∈ [64, 128, 256] ∧ r.2.1 ∈ [64, 100] ∧ r.2.2 ∈ [2, 4]
      else r.1 ∈ [32, 64, 100, 128, 256] ∧ r.2.1 ∈ [32, 64, 100, 128, 256] ∧ r.2.2 ∈ [5, 10] := by
  have key : ∀ (l0 l1 l2 : List ℕ) (m : ℕ), (∀ x ∈ l2, x ≤ m) → ∀ shape : ℕ × ℕ × ℕ, ∀ r ∈ validRanks l0 l1 l2,
      checkParams (tri shape) (triZ r) = .ok () ∧ r.2.2 ≤ m := by
    intro l0 l1 l2 m hm shape r hr
    obtain ⟨a, b, c⟩ := r
    obtain ⟨⟨-, -, h3⟩, h4⟩ := (mem_validRanks _ _ _ _ _ _).1 hr
    refine ⟨?_, hm _ h3⟩
    unfold checkParams tri
    rw [if_neg (by simp), tucker_ok, decide_eq_true h4]
    rfl
  by_cases hn : name ∈ shippedSets.map Shipped.name
  · simp only [shippedSets, List.map_cons, List.map_nil, List.mem_cons, List.not_mem_nil, or_false] at hn
    rcases hn with rfl | rfl | rfl | rfl
    · have h : Except.ok confMl20m = Except.ok c := h
      have h := Except.ok.inj h
      subst h
      refine ⟨fun e => absurd (e ▸ (mem_validRanks [32, 64, 100, 128, 256] [32, 64, 100, 128, 256] [5, 10] 32 32 5).2 (by decide) :
        (32, 32, 5) ∈ ([] : List (ℕ × ℕ × ℕ))) (List.not_mem_nil), rfl, key _ _ _ _ (by dsimp only [confMl20m]; decide), ?_⟩
      rintro ⟨a, b, c⟩
      rw [if_neg (by decide), and_comm]
      exact mem_validRanks _ _ _ _ _ _
    · have h : Except.ok confAmzB = Except.ok c := h
      have h := Except.ok.inj h
      subst h
      refine ⟨fun e => absurd (e ▸ (mem_validRanks [32, 64, 100, 128, 256] [32, 64, 100, 128, 256] [5, 10] 32 32 5).2 (by decide) :
        (32, 32, 5) ∈ ([] : List (ℕ × ℕ × ℕ))) (List.not_mem_nil), rfl, key _ _ _ _ (by dsimp only [confAmzB]; decide), ?_⟩
      rintro ⟨a, b, c⟩
      rw [if_neg (by decide), and_comm]
      exact mem_validRanks _ _ _ _ _ _
    · have h : Except.ok confAmzG = Except.ok c := h
      have h := Except.ok.inj h
      subst h
      refine ⟨fun e => absurd (e ▸ (mem_validRanks [32, 64, 100, 128, 256] [32, 64, 100, 128, 256] [5, 10] 32 32 5).2 (by decide) :
        (32, 32, 5) ∈ ([] : List (ℕ × ℕ × ℕ))) (List.not_mem_nil), rfl, key _ _ _ _ (by dsimp only [confAmzG]; decide), ?_⟩
      rintro ⟨a, b, c⟩
      rw [if_neg (by decide), and_comm]
      exact mem_validRanks _ _ _ _ _ _
    · have h : Except.ok confSteam = Except.ok c := h
      have h := Except.ok.inj h
      subst h
      refine ⟨fun e => absurd (e ▸ (mem_validRanks [64, 128, 256] [64, 100] [2, 4] 64 64 2).2 (by decide) :
        (64, 64, 2) ∈ ([] : List (ℕ × ℕ × ℕ))) (List.not_mem_nil), rfl, key _ _ _ _ (by dsimp only [confSteam]; decide), ?_⟩
      rintro ⟨a, b, c⟩
      rw [if_pos rfl, and_comm]
      exact mem_validRanks _ _ _ _ _ _
  · rw [(C127_names name).2 hn] at h
    cases h

variable [FloorRing K] [IsStrictOrderedRing K]

/-- The split and the days of a shipped configuration. -/
theorem shipped_data {s : Shipped} {c : ConfFile K} (ha : Agrees s c) (sortDay : List (Row K) → List (Row K))
    (data : List (IRow K)) (hidx : Indexed data) :
    ∃ stream, prepareDataForExperiment sortDay data c.initRatio none =
        .ok ((data.take (s.cut data.length)).map IRow.row, stream, (data.drop (s.cut data.length)).map IRow.row) ∧
      stream.length = (((data.drop (s.cut data.length)).map fun r => r.row.day).toFinset).card := by
  obtain ⟨m, h1, h2, stream, h3, h4, h5, h6⟩ := C65_days sortDay data c.initRatio hidx (by rw [ha.ratio]; positivity)
  have hm : m = s.cut data.length := by
    rw [ha.ratio] at h1 h2
    have h1 : ((m * 10 : ℕ) : K) ≤ ((data.length * s.tenths : ℕ) : K) := by
      push_cast
      have : (data.length : K) * (s.tenths / 10) * 10 = data.length * s.tenths := by ring
      rw [← this]
      exact mul_le_mul_of_nonneg_right h1 (by norm_num)
    have h2 : ((data.length * s.tenths : ℕ) : K) < (((m + 1) * 10 : ℕ) : K) := by
      push_cast
      have : (data.length : K) * (s.tenths / 10) * 10 = data.length * s.tenths := by ring
      rw [← this]
      exact mul_lt_mul_of_pos_right h2 (by norm_num)
    rw [Nat.cast_le] at h1
    rw [Nat.cast_lt] at h2
    unfold Shipped.cut
    omega
  subst hm
  refine ⟨stream, h3, ?_⟩
  have hnd : (stream.map Prod.fst).Nodup := h4.imp fun h => ne_of_lt h
  rw [← List.length_map (f := Prod.fst), ← List.toFinset_card_of_nodup hnd]
  congr 1
  ext d
  rw [List.mem_toFinset, List.mem_toFinset, List.mem_map, List.mem_map]
  constructor
  · rintro ⟨c, hc, rfl⟩
    obtain ⟨g1, g2⟩ := h6 c hc
    obtain ⟨r, hr⟩ := List.exists_mem_of_ne_nil _ g1
    rw [g2, List.mem_filter, decide_eq_true_eq] at hr
    obtain ⟨x, hx, rfl⟩ := List.mem_map.1 hr.1
    exact ⟨x, hx, hr.2⟩
  · rintro ⟨x, hx, rfl⟩
    have : x.row ∈ stream.flatMap Prod.snd := h5.mem_iff.2 (List.mem_map.2 ⟨x, hx, rfl⟩)
    obtain ⟨c, hc, hx'⟩ := List.mem_flatMap.1 this
    rw [(h6 c hc).2, List.mem_filter, decide_eq_true_eq] at hx'
    exact ⟨c, hc, hx'.2.symm⟩

/-- **C127, figures.** With the results of all runs in the directory, the last script draws its twelve figures, with
names all different, if the rows after the initial part are from at least 200, 100, 100 or 50 different days, and
otherwise stops with `ValueError` after the first four. -/
theorem C127_figures (s : Shipped) (hs : s ∈ shippedSets) (c : ConfFile K)
    (h : importConfig s.name.toList = .ok c) (sortDay : List (Row K) → List (Row K)) (data : List (IRow K))
    (hidx : Indexed data) (entries : List (Str × Bool × Series K)) (series : RunId → Series K) (dd : List ℕ × List ℕ)
    (T : ℕ) (hc : ∀ r ∈ allRuns, StepSeries T (series r))
    (hdd : saveDataDynamics ((data.drop (s.cut data.length)).map IRow.row) s.steps = .ok dd)
    (hentries : entries.Perm
      ((allRuns.map fun r => (("results/" ++ s.name ++ "/metric_dynamics/").toList ++ r.name ++ ".json".toList, true, series r)) ++
      [(("results/" ++ s.name ++ "/metric_dynamics/data_dynamics.json").toList, true, dataJson dd)])) :
    let days := (((data.drop (s.cut data.length)).map fun r => r.row.day).toFinset).card
    (allFiguresOf s.name).Nodup ∧
    (s.steps ≤ days → ∃ fs, prepareGraphs sortDay (c.graphs s.name.toList) entries data = (fs, none) ∧
      fs.map Figure.file = allFiguresOf s.name) ∧
    (days < s.steps → ∃ fs, prepareGraphs sortDay (c.graphs s.name.toList) entries data = (fs, some .valueError) ∧
      fs.map Figure.file = (allFiguresOf s.name).take 4) := by
  intro days
  obtain ⟨c', ha⟩ := shipped_agrees (K := K) s hs
  have hcc : c' = c := Except.ok.inj (ha.imports.symm.trans h)
  subst hcc
  obtain ⟨stream, hd, hl⟩ := shipped_data ha sortDay data hidx
  have hfig : experimentFiles s.name.toList c'.swls ++
      [s.name.toList ++ "_dynamics_new_ui.pdf".toList, s.name.toList ++ "_data_dynamics.pdf".toList] ++
      ablationFiles "TIRec".toList s.name.toList ++ ablationFiles "PSIRec".toList s.name.toList = allFiguresOf s.name ∧
      experimentFiles s.name.toList c'.swls = (allFiguresOf s.name).take 4 ∧ (allFiguresOf s.name).Nodup ∧
      c'.metricDir = ("results/" ++ s.name ++ "/metric_dynamics").toList := by
    rw [ha.swls]
    have hdir := (C127_names (K := K) s.name).1 (List.mem_map.2 ⟨s, hs, rfl⟩)
    obtain ⟨c'', e1, -, e2⟩ := hdir
    have : c'' = c' := Except.ok.inj (e1.symm.trans h)
    subst this
    clear * - hs e2
    revert s
    intro s hs e2
    refine ⟨?_, ?_, ?_, e2⟩ <;> clear e2 <;> revert s <;> decide +kernel
  obtain ⟨f1, f2, f3, f4⟩ := hfig
  have hp : ∀ n : Str, resultPath c'.metricDir n = ("results/" ++ s.name ++ "/metric_dynamics/").toList ++ n ++ ".json".toList := by
    intro n
    unfold resultPath
    rw [f4]
    simp
  have key := C116_drawn_partial sortDay (c'.graphs s.name.toList) entries data
    ((data.take (s.cut data.length)).map IRow.row) ((data.drop (s.cut data.length)).map IRow.row) stream series dd T
    ha.dir ha.models ha.known (by show ∀ w ∈ c'.swls, 1 ≤ w; rw [ha.swls]; decide)
    (by show prepareDataForExperiment sortDay data c'.initRatio c'.hmMin = _; rw [ha.hmMin]; exact hd) hc
    (by show saveDataDynamics _ c'.howMany = _; rw [ha.steps]; exact hdd)
    (by
      show entries.Perm ((allRuns.map fun r => (resultPath c'.metricDir r.name, true, series r)) ++
        [(resultPath c'.metricDir "data_dynamics".toList, true, dataJson dd)])
      rw [hp]
      simp only [hp]
      convert hentries using 4
      simp)
  have e : (c'.graphs s.name.toList).howMany = s.steps := ha.steps
  rw [e, hl] at key
  refine ⟨f3, fun hle => ?_, fun hlt => ?_⟩
  · obtain ⟨fs, g1, g2⟩ := key.1 hle
    exact ⟨fs, g1, g2.trans f1⟩
  · obtain ⟨fs, g1, g2⟩ := key.2 hlt
    exact ⟨fs, g1, g2.trans f2⟩

/-- **C127, data that are too small.** If the rows have at most 290 (for Steam 390) users, or items, the SVD search
fails; and on a directory without earlier results a call of `run_experiments.py` then leaves no result for `SVD` and
`PSIRec` and draws no figure at all. -/
theorem C127_small (s : Shipped) (hs : s ∈ shippedSets) (c : ConfFile K)
    (h : importConfig s.name.toList = .ok c) (P : PipeEnv K) (hse : P.se.Ok) (hiter : ∀ f, (P.iterdir f).Perm f)
    (hidx : Indexed P.data)
    (hsmall : (P.data.map fun r => r.row.user).toFinset.card ≤ s.maxRank ∨
      (P.data.map fun r => r.row.item).toFinset.card ≤ s.maxRank)
    (td : Option (List (TdRow K))) (files : Dict Str (Series K)) (hf : Dict.get? files "SVD".toList = none)
    (hf' : Dict.get? files "PSIRec".toList = none) :
    let Q := P.withConf c s.name.toList
    (∃ e, hyperparametersSearchSvd Q.env Q.se Q.cfg Q.sc Q.fs Q.data = .error e) ∧
    (runExperiments Q ⟨none, td, files⟩).1.1.svdCsv = none ∧
    Dict.get? (runExperiments Q ⟨none, td, files⟩).1.1.files "SVD".toList = none ∧
    Dict.get? (runExperiments Q ⟨none, td, files⟩).1.1.files "PSIRec".toList = none ∧
    (runExperiments Q ⟨none, td, files⟩).2 = ([], some .fileNotFoundError) := by
  intro Q
  obtain ⟨c', ha⟩ := shipped_agrees (K := K) s hs
  have hcc : c' = c := Except.ok.inj (ha.imports.symm.trans h)
  subst hcc
  have hfail : ∃ e, hyperparametersSearchSvd Q.env Q.se Q.cfg Q.sc Q.fs Q.data = .error e := by
    cases hr : hyperparametersSearchSvd Q.env Q.se Q.cfg Q.sc Q.fs Q.data with
    | error e => exact ⟨e, rfl⟩
    | ok rows =>
      exfalso
      obtain ⟨initial, stream, left, train, valid, h1, ⟨⟨p, h2, -⟩, -⟩, h3⟩ :=
        C122_svd_ranks Q.env Q.se hse Q.cfg Q.sc Q.fs Q.data rows hr
      obtain ⟨stream', h4, -⟩ := shipped_data ha Q.env.sortDay Q.data hidx
      have h5 := Except.ok.inj (h1.symm.trans h4)
      have h5 : initial = (Q.data.take (s.cut Q.data.length)).map IRow.row := congrArg Prod.fst h5
      have hmem : s.maxRank ∈ Q.sc.svdRanks := by
        refine (ha.ranks _).2 ?_
        clear * - hs
        revert s
        decide
      obtain ⟨-, h6, h7⟩ := h3 _ hmem
      have hsub : ∀ f : Row K → ℤ, (train.map f).toFinset.card ≤ (P.data.map fun r => f r.row).toFinset.card := by
        intro f
        refine Finset.card_le_card ?_
        intro x hx
        rw [List.mem_toFinset, List.mem_map] at hx ⊢
        obtain ⟨r, hr, rfl⟩ := hx
        rw [h2, List.mem_filter, h5, List.mem_map] at hr
        obtain ⟨⟨y, hy, rfl⟩, -⟩ := hr
        exact ⟨y, List.mem_of_mem_take hy, rfl⟩
      have h8 := hsub Row.user
      have h9 := hsub Row.item
      omega
  obtain ⟨e, he⟩ := hfail
  obtain ⟨-, a2, -, -, a5⟩ := C124_sources_partial Q ⟨none, td, files⟩
  have hcsv := a2 e he
  have hno : ∀ name : String, name = "SVD" ∨ name = "PSIRec" → ∀ x, ¬ Fresh Q
      (runExperiments Q ⟨none, td, files⟩).1.1.svdCsv (runExperiments Q ⟨none, td, files⟩).1.1.tdCsv name.toList x := by
    intro name hn x hx
    rw [hcsv] at hx
    generalize hnn : name.toList = nn at hx
    cases hx with
    | experiment name' r h1 h2 =>
      have : name = name' := String.toList_inj.1 hnn
      subst this
      exact h2 hn rfl
    | ablation name' i o r t h1 h2 h3 h4 h5 =>
      have ht : t ∈ optionTexts := List.mem_of_getElem? h5
      have key : ∀ n ∈ ["SVD", "PSIRec"], ∀ n' ∈ ["PSIRec", "TIRecA"], ∀ t ∈ optionTexts,
          String.toList n ≠ ablationName (String.toList n') t.1 t.2 := by decide +kernel
      exact key name (by rcases hn with rfl | rfl <;> simp) name' h1 t ht hnn
  refine ⟨⟨e, he⟩, hcsv, ?_, ?_, ?_⟩
  · rw [(a5 _).2 (hno "SVD" (Or.inl rfl))]
    exact hf
  · rw [(a5 _).2 (hno "PSIRec" (Or.inr rfl))]
    exact hf'
  · exact C125_missing Q ⟨none, td, files⟩ hiter "SVD".toList ha.svd hf (hno "SVD" (Or.inl rfl))

/-- **C127, the selected rank.** Once the SVD search has completed, its result is never a reason for the experiment to
fail: with `SVD` (and likewise `PSIRec`) the experiment completes exactly if every step can be done. -/
theorem C127_experiment (s : Shipped) (hs : s ∈ shippedSets) (c : ConfFile K)
    (h : importConfig s.name.toList = .ok c) (env : RunEnv K) (hargp : ArgPartOk env.argp)
    (hsort : ArgSortOk env.psi.argsort)
    (hperm : ∀ l, (env.sortCnt l).Perm l) (se : SearchEnv K) (hse : se.Ok) (data : List (IRow K)) (hidx : Indexed data)
    (rows : List (SvdRow K)) (hr : hyperparametersSearchSvd env se c.run c.search c.fixedSvd data = .ok rows)
    (name : String) (hn : name = "SVD" ∨ name = "PSIRec") :
    (∃ d, runScript { env with svdCsv := rows } c.run c.fixedSvd c.fixedTd name data = .ok d) ↔
      ∃ stream chunks, let initial := (data.take (s.cut data.length)).map IRow.row
        let tests := getUsersStability env.sortCnt initial ((data.drop (s.cut data.length)).map IRow.row) s.steps
        prepareDataForExperiment env.sortDay data c.initRatio none =
          .ok (initial, stream, (data.drop (s.cut data.length)).map IRow.row) ∧
        chunks = (stream.map Prod.snd).take (expSteps s.steps stream.length) ∧
        (∀ (i : ℕ) (ch : List (Row K)), chunks[i]? = some ch →
          StepRuns 5 tests (initial ++ (chunks.take i).flatten) ch ∧
          (name = "PSIRec" → ¬ Crowded ((initial ++ (chunks.take i).flatten).map Row.user)
            ((initial ++ (chunks.take i).flatten).map Row.item) ch)) ∧
        (2 ≤ chunks.length → tests ≠ []) := by
  obtain ⟨c', ha⟩ := shipped_agrees (K := K) s hs
  have hcc : c' = c := Except.ok.inj (ha.imports.symm.trans h)
  subst hcc
  obtain ⟨stream, hd, -⟩ := shipped_data ha env.sortDay data hidx
  have hds := ha.dataset
  obtain ⟨r, e2, -, hst⟩ := C128_trains env se hse c'.run c'.search c'.fixedSvd data rows hr hds
    (List.ne_nil_of_mem ((ha.ranks 10).2 (by
      clear * - hs
      revert s
      decide))) _ _ stream (by show prepareDataForExperiment _ _ c'.initRatio c'.hmMin = _; rw [ha.hmMin]; exact hd)
  obtain ⟨q1, q2, q3⟩ := (svdTrain_iff env.psi _ _).1 hst
  have hmain : ∀ A : List (Row K) → List (Row K) → Prop,
      ScriptNeeds { env with svdCsv := rows } c'.run data A ↔
      ∃ stream chunks, let initial := (data.take (s.cut data.length)).map IRow.row
        let tests := getUsersStability env.sortCnt initial ((data.drop (s.cut data.length)).map IRow.row) s.steps
        prepareDataForExperiment env.sortDay data c'.initRatio none =
          .ok (initial, stream, (data.drop (s.cut data.length)).map IRow.row) ∧
        chunks = (stream.map Prod.snd).take (expSteps s.steps stream.length) ∧
        (∀ (i : ℕ) (ch : List (Row K)), chunks[i]? = some ch →
          StepRuns 5 tests (initial ++ (chunks.take i).flatten) ch ∧ A (initial ++ (chunks.take i).flatten) ch) ∧
        (2 ≤ chunks.length → tests ≠ []) := by
    intro A
    have eh : c'.run.howMany = (s.steps : ℤ) := congrArg (Nat.cast : ℕ → ℤ) ha.steps
    have ek : c'.run.topk = 5 := ha.topk
    have em : c'.run.hmMin = none := ha.hmMin
    unfold ScriptNeeds
    simp only [eh, ek, em]
    constructor
    · rintro ⟨initial, stream, left, chunks, r', h1, h2, -, -, -, -, h3, h4⟩
      have h5 := Except.ok.inj (h1.symm.trans hd)
      injection h5 with h5 h6
      injection h6 with h6 h7
      subst h5 h7
      exact ⟨stream, chunks, h1, h2, h3, h4⟩
    · rintro ⟨stream, chunks, h1, h2, h3, h4⟩
      exact ⟨_, stream, _, chunks, r, h1, h2, e2, q1, q2, q3, h3, h4⟩
  rcases hn with rfl | rfl
  · rw [C126_svd { env with svdCsv := rows } hargp hperm c'.run (by show 1 ≤ c'.topk; rw [ha.topk]; decide), hmain]
    simp
  · rw [C126_psirec { env with svdCsv := rows } hsort hargp hperm c'.run (by show 1 ≤ c'.topk; rw [ha.topk]; decide), hmain]
    simp

end proofs

/-! ### Examples -/

example : importConfig (K := ℚ) "netflix".toList = .error .runtimeError := (C127_names "netflix").2 (by decide)

/-- For Steam (256, 64, 4) is tried and (256, 64, 2) is not. -/
example : (256, 64, 4) ∈ (confSteam (K := ℚ)).tdRanks ∧ (256, 64, 2) ∉ (confSteam (K := ℚ)).tdRanks := by
  obtain ⟨-, -, -, h⟩ := C127_grid "steam" (confSteam (K := ℚ)) rfl
  rw [h, h]
  decide

/-- One row on each of 250 days. -/
def exDaily : List (IRow ℚ) := (List.range 250).map fun i : ℕ => ⟨(i : ℤ), ⟨0, 0, 1, 86400 * (i : ℤ), (i : ℤ)⟩⟩

theorem indexed_of_map {data : List (IRow ℚ)} (h : data.map IRow.idx = (List.range data.length).map Int.ofNat) :
    Indexed data := by
  intro i x hx
  have := congrArg (fun l => l[i]?) h
  simp only [List.getElem?_map, hx, Option.map_some] at this
  cases hr : (List.range data.length)[i]? with
  | none => rw [hr] at this; cases this
  | some y =>
    rw [hr] at this
    obtain ⟨h1, h2⟩ := List.getElem?_eq_some_iff.1 hr
    rw [List.getElem_range] at h2
    rw [Option.some.inj this, h2]
    rfl

theorem exDaily_length : exDaily.length = 250 := by rw [exDaily, List.length_map, List.length_range]

/-- For Steam the last 50 days follow the initial part and all figures are drawn; for ML-20M there are only 150. -/
example (entries entries' : List (Str × Bool × Series ℚ)) (dd dd' : List ℕ × List ℕ)
    (hdd : saveDataDynamics ((exDaily.drop 200).map IRow.row) 50 = .ok dd)
    (hdd' : saveDataDynamics ((exDaily.drop 100).map IRow.row) 200 = .ok dd')
    (he : entries = (allRuns.map fun r => ("results/steam/metric_dynamics/".toList ++ r.name ++ ".json".toList, true, exTwoSteps)) ++
      [("results/steam/metric_dynamics/data_dynamics.json".toList, true, dataJson dd)])
    (he' : entries' = (allRuns.map fun r => ("results/ml_20m/metric_dynamics/".toList ++ r.name ++ ".json".toList, true, exTwoSteps)) ++
      [("results/ml_20m/metric_dynamics/data_dynamics.json".toList, true, dataJson dd')]) :
    (∃ fs, prepareGraphs exRunEnv.sortDay (confSteam.graphs "steam".toList) entries exDaily = (fs, none) ∧ fs.length = 12) ∧
    ∃ fs, prepareGraphs exRunEnv.sortDay (confMl20m.graphs "ml_20m".toList) entries' exDaily = (fs, some .valueError) ∧
      fs.length = 4 := by
  have hidx : Indexed exDaily := indexed_of_map (by decide +kernel)
  constructor
  · obtain ⟨fs, h1, h2⟩ := (C127_figures ⟨"steam", 8, 50, 390⟩ (by decide) confSteam rfl exRunEnv.sortDay exDaily hidx entries
      (fun _ => exTwoSteps) dd 2 (fun _ _ => ⟨⟨_, rfl, rfl⟩, ⟨_, rfl, rfl⟩, ⟨_, rfl, rfl⟩⟩)
      (by rw [exDaily_length]; exact hdd) (by rw [he]; exact List.Perm.refl _)).2.1 (by decide +kernel)
    refine ⟨fs, h1, ?_⟩
    have := congrArg List.length h2
    rwa [List.length_map] at this
  · obtain ⟨fs, h1, h2⟩ := (C127_figures ⟨"ml_20m", 4, 200, 290⟩ (by decide) confMl20m rfl exRunEnv.sortDay exDaily hidx entries'
      (fun _ => exTwoSteps) dd' 2 (fun _ _ => ⟨⟨_, rfl, rfl⟩, ⟨_, rfl, rfl⟩, ⟨_, rfl, rfl⟩⟩)
      (by rw [exDaily_length]; exact hdd') (by rw [he']; exact List.Perm.refl _)).2.2 (by decide +kernel)
    refine ⟨fs, h1, ?_⟩
    have := congrArg List.length h2
    rwa [List.length_map] at this

example : ∃ dd, saveDataDynamics ((exDaily.drop 200).map IRow.row) 50 = .ok dd ∧ dd.1.length = 49 :=
  ⟨(List.replicate 49 1, List.replicate 49 1), by decide +kernel, rfl⟩

/-- Three users are too few for any of the four. -/
example (s : Shipped) (hs : s ∈ shippedSets) (c : ConfFile ℚ) (h : importConfig s.name.toList = .ok c) :
    (runExperiments ((exPipe [1]).withConf c s.name.toList) ⟨none, none, []⟩).2 = ([], some .fileNotFoundError) := by
  have hcard : (exSearchData.map fun r => r.row.user).toFinset.card ≤ 290 := by decide +kernel
  have hmax : 290 ≤ s.maxRank := by
    clear * - hs
    revert s
    decide
  exact (C127_small s hs c h (exPipe [1]) exSearchEnv_ok (fun _ => List.Perm.refl _) (indexed_of_map (by decide +kernel))
    (Or.inl (hcard.trans hmax)) none [] rfl rfl).2.2.2.2

/-- 750 rows: 296 on day 0, each of another user and item, four on day 1 of user 0 with other items, then 450 on
day 2 of the users 1 and 2. -/
def exLarge : List (IRow ℚ) := (List.range 750).map fun i : ℕ =>
  ⟨(i : ℤ), if i < 296 then ⟨i, i, 1, i, 0⟩ else if i < 300 then ⟨0, i - 290, 1, 86400 + i, 1⟩
    else ⟨1 + (i : ℤ) % 2, 20, 1, 172800 + i, 2⟩⟩

theorem exLarge_split : trainTestSplit exSearchEnv.stamp ((exLarge.take 300).map IRow.row) (99 / 100) =
    .ok ((exLarge.take 296).map IRow.row, ((exLarge.take 300).drop 296).map IRow.row) := by decide +kernel

theorem exLarge_runs : StepRuns 5 (getUsersStability exRunEnv.sortCnt ((exLarge.take 300).map IRow.row)
    ((exLarge.drop 300).map IRow.row) ((200 : ℕ) : ℤ)) ((exLarge.take 300).map IRow.row) ((exLarge.drop 300).map IRow.row) := by
  have h : ∀ u ∈ ([1, 2] : List ℤ), 5 ≤ unseenOf ((exLarge.take 300).map IRow.row) u := by decide +kernel
  have h1 : ∀ r ∈ (exLarge.drop 300).map IRow.row, r.user ∈ ([1, 2] : List ℤ) := by decide +kernel
  have h2 : ∀ u ∈ getUsersStability exRunEnv.sortCnt ((exLarge.take 300).map IRow.row)
    ((exLarge.drop 300).map IRow.row) ((200 : ℕ) : ℤ), u ∈ ([1, 2] : List ℤ) := by decide +kernel
  exact ⟨⟨⟨1, 20, 1, 172800 + 300, 2⟩, by decide +kernel, by decide +kernel⟩, fun r hr _ => h _ (h1 r hr),
    fun u hu => h u (h2 u hu)⟩

/-- On these rows the search of ML-20M completes, and so does the experiment with `SVD`, whatever the decompositions
return. -/
example (psi : PSIEnv ℚ) (hsort : ArgSortOk psi.argsort) :
    ∃ rows, hyperparametersSearchSvd { exRunEnv with psi := psi } exSearchEnv confMl20m.run confMl20m.search
        (confMl20m (K := ℚ)).fixedSvd
        exLarge = .ok rows ∧
      ∃ d, runScript { exRunEnv with psi := psi, svdCsv := rows } confMl20m.run (confMl20m (K := ℚ)).fixedSvd
        (confMl20m (K := ℚ)).fixedTd "SVD"
        exLarge = .ok d := by
  have hlen : exLarge.length = 750 := by rw [exLarge, List.length_map, List.length_range]
  have hidx : Indexed exLarge := indexed_of_map (by decide +kernel)
  obtain ⟨c, ha⟩ := shipped_agrees (K := ℚ) ⟨"ml_20m", 4, 200, 290⟩ (by decide)
  have hcc : c = confMl20m := Except.ok.inj (ha.imports.symm.trans rfl)
  subst hcc
  obtain ⟨stream, hd, -⟩ := shipped_data ha exRunEnv.sortDay exLarge hidx
  have hcut : (⟨"ml_20m", 4, 200, 290⟩ : Shipped).cut 750 = 300 := by decide
  rw [hlen, hcut] at hd
  have hs : stream = [(2, (exLarge.drop 300).map IRow.row)] := by
    have : prepareDataForExperiment exRunEnv.sortDay exLarge (4 / 10) none = .ok ((exLarge.take 300).map IRow.row,
        [(2, (exLarge.drop 300).map IRow.row)], (exLarge.drop 300).map IRow.row) := by decide +kernel
    have e := Except.ok.inj (hd.symm.trans this)
    exact congrArg (fun x => x.2.1) e
  subst hs
  obtain ⟨rows, hr⟩ := (C128_search { exRunEnv with psi := psi } exRunArgp_ok exSearchEnv exSearchEnv_ok confMl20m.run
    (by decide) confMl20m.search (confMl20m (K := ℚ)).fixedSvd exLarge).2 ⟨_, _, _, _, _, hd, exLarge_split, by
      intro r hr
      have hr := (ha.ranks r).1 hr
      have h1 : (((exLarge.take 296).map IRow.row).map Row.user).toFinset.card = 296 := by decide +kernel
      have h2 : (((exLarge.take 296).map IRow.row).map Row.item).toFinset.card = 296 := by decide +kernel
      rw [h1, h2]
      refine ⟨by simp only at hr; omega, by decide +kernel, by decide +kernel⟩⟩
  refine ⟨rows, hr, (C127_experiment ⟨"ml_20m", 4, 200, 290⟩ (by decide) confMl20m rfl { exRunEnv with psi := psi }
    exRunArgp_ok hsort (fun _ => List.Perm.refl _) exSearchEnv exSearchEnv_ok exLarge hidx rows hr "SVD" (Or.inl rfl)).2
    ⟨_, _, by rw [hlen, hcut]; exact hd, rfl, ?_, ?_⟩⟩
  · rw [hlen, hcut]
    intro i ch hch
    have e : ∀ X : List (Row ℚ), ([((2 : ℤ), X)].map Prod.snd).take (expSteps ((200 : ℕ) : ℤ) 1) = [X] := fun _ => rfl
    simp only [List.length_singleton] at hch
    rw [e] at hch
    rw [List.length_singleton, e]
    have : i = 0 ∧ ch = (exLarge.drop 300).map IRow.row := by
      cases i with
      | zero =>
        rw [List.getElem?_cons_zero] at hch
        exact ⟨rfl, (Option.some.inj hch).symm⟩
      | succ i =>
        rw [List.getElem?_cons_succ, List.getElem?_nil] at hch
        cases hch
    obtain ⟨hi, hch'⟩ := this
    rw [hi, hch', List.take_zero, List.flatten_nil, List.append_nil]
    exact ⟨exLarge_runs, fun h => absurd h (by decide)⟩
  · intro h
    rw [List.length_take, List.length_map, List.length_singleton] at h
    omega

end DynCF
