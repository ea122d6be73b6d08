/-
C116: whether the results of completed experiments can be drawn.
-/
import Verif.Props.Graphs2
import Verif.Props.Ablation
import Verif.Props.NewEntities
import Verif.Props.FullExperiment

namespace DynCF
variable {K : Type} [Field K] [LinearOrder K]

/-- The lengths of the series of an experiment of `T` steps: one hit rate per step, one stability value between
consecutive steps, and the times of the first training and of every update. -/
def StepSeries (T : ℕ) (s : Series K) : Prop :=
  (∃ y, Dict.get? s "hr".toList = some y ∧ y.length = T) ∧
  (∃ y, Dict.get? s "wji".toList = some y ∧ y.length = T - 1) ∧
  (∃ y, Dict.get? s "calculation_time".toList = some y ∧ y.length = T + 1)

theorem runWith_series {σ F : Type} (M : RecModel K σ F) (e : ExpCfg K) (s0 : σ) (initial : Tab K)
    (stream : List (List (Row K))) (d : Dynamics K) (h : runWith M e s0 initial stream = .ok d) :
    StepSeries (expSteps e.howMany stream.length) (dynJson d) := by
  obtain ⟨st, h1, h2⟩ := (bind_ok_iff _ _ _).1 h
  have h2 := Except.ok.inj h2
  subst h2
  obtain ⟨a, -, -, -, b, c, -, -⟩ := C63_lengths M e s0 initial stream st h1
  exact ⟨⟨_, rfl, a⟩, ⟨_, rfl, c⟩, ⟨_, rfl, b⟩⟩

theorem runPrepared_series (env : RunEnv K) (e : ExpCfg K) (p : Prepared K) (initial : Tab K)
    (stream : List (List (Row K))) (d : Dynamics K) (h : runPrepared env e p initial stream = .ok d) :
    StepSeries (expSteps e.howMany stream.length) (dynJson d) := by
  unfold runPrepared at h
  cases hp : p.obj <;> rw [hp] at h <;> exact runWith_series _ _ _ _ _ _ h

/-- **C116, lengths.** All results obtained on the same data with the same settings have series of the same
lengths, whatever the model and the option. -/
theorem C116_lengths [FloorRing K] (env : RunEnv K) (cfg : RunCfg K) (fs : FixedSvd) (ft : FixedTd) (name : String)
    (data : List (IRow K)) (initial left : List (Row K)) (stream : List (ℤ × List (Row K)))
    (hd : prepareDataForExperiment env.sortDay data cfg.initRatio cfg.hmMin = .ok (initial, stream, left)) :
    (∀ d, runScript env cfg fs ft name data = .ok d →
      StepSeries (expSteps cfg.howMany stream.length) (dynJson d)) ∧
    (∀ o d, (o, d) ∈ (ablationScript env cfg fs ft name data).1 →
      StepSeries (expSteps cfg.howMany stream.length) (dynJson d)) := by
  constructor
  · intro d h
    obtain ⟨s, -, h⟩ := (bind_ok_iff _ _ _).1 h
    unfold fullDynamicalExperiment at h
    obtain ⟨x, hx, h⟩ := (bind_ok_iff _ _ _).1 h
    have hx : Except.ok (initial, stream, left) = Except.ok x := hd.symm.trans hx
    have hx := Except.ok.inj hx
    subst hx
    obtain ⟨t, -, h⟩ := (bind_ok_iff _ _ _).1 h
    obtain ⟨p, -, h⟩ := (bind_ok_iff _ _ _).1 h
    have := runPrepared_series _ _ _ _ _ _ h
    rw [List.length_map] at this
    exact this
  · intro o d h
    have hrun : ∀ (cfg' : RunCfg K) (nm dim : String), cfg'.initRatio = cfg.initRatio → cfg'.hmMin = cfg.hmMin →
        cfg'.howMany = cfg.howMany → ablationRun env cfg' nm dim data o = .ok d →
        StepSeries (expSteps cfg.howMany stream.length) (dynJson d) := by
      intro cfg' nm dim h1 h2 h3 h
      unfold ablationRun at h
      obtain ⟨x, hx, h⟩ := (bind_ok_iff _ _ _).1 h
      rw [h1, h2] at hx
      have hx : Except.ok (initial, stream, left) = Except.ok x := hd.symm.trans hx
      have hx := Except.ok.inj hx
      subst hx
      obtain ⟨t, -, h⟩ := (bind_ok_iff _ _ _).1 h
      obtain ⟨p, -, h⟩ := (bind_ok_iff _ _ _).1 h
      have := runPrepared_series _ _ _ _ _ _ h
      rw [List.length_map] at this
      rw [← h3]
      exact this
    have hloop : ∀ (run : K × Bool → PyM (Dynamics K)) (os : List (K × Bool)),
        (o, d) ∈ (ablationLoop run os).1 → run o = .ok d := by
      intro run os
      induction os with
      | nil => intro h; simp [ablationLoop] at h
      | cons a os ih =>
        intro h
        rw [ablationLoop] at h
        cases ha : run a with
        | error e => rw [ha] at h; simp at h
        | ok x =>
          rw [ha] at h
          simp only [List.mem_cons, Prod.mk.injEq] at h
          rcases h with ⟨rfl, rfl⟩ | h
          · exact ha
          · exact ih h
    unfold ablationScript at h
    split at h
    · have := hloop _ _ h
      refine hrun _ _ _ ?_ ?_ ?_ this <;> rfl
    · split at h
      · have := hloop _ _ h
        refine hrun _ _ _ ?_ ?_ ?_ this <;> rfl
      · simp at h

/-! ### Lemmas about the script -/

omit [LinearOrder K] in
theorem runFigures_ok (l : List (PyM (Figure K))) (fs : List (Figure K)) (h : l = fs.map Except.ok) :
    runFigures l = (fs, none) := by
  subst h
  induction fs with
  | nil => rfl
  | cons f fs ih => simp [runFigures, ih]

theorem newEntities_lengths {K : Type} (initial : List (Row K)) (stream : List (List (Row K))) :
    (newEntities initial stream).nNewUsers.length = stream.length ∧
    (newEntities initial stream).nNewItems.length = stream.length ∧
    (newEntities initial stream).nNewUsersNi.length = stream.length ∧
    (newEntities initial stream).nNewItemsNu.length = stream.length := by
  unfold newEntities
  suffices h : ∀ (st : NewSt), (stream.foldl newStep st).nNewUsers.length = st.nNewUsers.length + stream.length ∧
      (stream.foldl newStep st).nNewItems.length = st.nNewItems.length + stream.length ∧
      (stream.foldl newStep st).nNewUsersNi.length = st.nNewUsersNi.length + stream.length ∧
      (stream.foldl newStep st).nNewItemsNu.length = st.nNewItemsNu.length + stream.length by
    simpa using h ⟨_, _, [], [], [], []⟩
  induction stream with
  | nil => intro st; simp
  | cons c stream ih =>
    intro st
    obtain ⟨a, b, c', d⟩ := ih (newStep st c)
    rw [List.foldl_cons, a, b, c', d]
    simp [newStep]
    omega

omit [LinearOrder K] [Field K] in
theorem plot_four (x : List ℤ) (y1 y2 y3 y4 : List K) (l1 l2 l3 l4 m1 m2 m3 m4 xl yl ti fi : Str) (n : ℕ)
    (h1 : y1.length = n) (h2 : y2.length = n) (h3 : y3.length = n) (h4 : y4.length = n) :
    (x.length = n → ∃ f, plotResults x [y1, y2, y3, y4] [l1, l2, l3, l4] xl yl ti fi (some [m1, m2, m3, m4]) = .ok f ∧
      f.file = fi ∧ f.curves = [⟨x, y1, l1, m1⟩, ⟨x, y2, l2, m2⟩, ⟨x, y3, l3, m3⟩, ⟨x, y4, l4, m4⟩]) ∧
    (x.length ≠ n → plotResults x [y1, y2, y3, y4] [l1, l2, l3, l4] xl yl ti fi (some [m1, m2, m3, m4]) =
      .error .valueError) := by
  unfold plotResults
  simp only [Option.getD_some, List.zip_cons_cons, List.zip_nil_right, List.mapM_cons, List.mapM_nil, addPlot,
    h1, h2, h3, h4]
  constructor
  · intro h
    simp only [h, if_true, except_bind_ok]
    exact ⟨_, rfl, rfl, rfl⟩
  · intro h
    rw [if_neg h]
    rfl

/-- The figure of new users and items: drawn exactly when the stream has as many chunks as the figure has
days. -/
theorem plotNewEntities_iff [FloorRing K] (sortDay : List (Row K) → List (Row K)) (data : List (IRow K))
    (ratio : K) (hmin : Option ℤ) (hm : ℕ) (extra : Str) (initial left : List (Row K))
    (stream : List (ℤ × List (Row K)))
    (hd : prepareDataForExperiment sortDay data ratio hmin = .ok (initial, stream, left)) :
    (hm ≤ stream.length → ∃ f, plotNewEntities sortDay data ratio hmin hm extra = .ok f ∧
      f.file = extra ++ "dynamics_new_ui.pdf".toList) ∧
    (stream.length < hm → plotNewEntities sortDay data ratio hmin hm extra = .error .valueError) := by
  obtain ⟨a, b, c, d⟩ := newEntities_lengths initial (stream.map Prod.snd)
  rw [List.length_map] at a b c d
  unfold plotNewEntities
  rw [hd]
  simp only [except_bind_ok]
  obtain ⟨h1, h2⟩ := plot_four ((List.range hm).map fun i : ℕ => (i : ℤ) + 1)
    (((newEntities initial (stream.map Prod.snd)).nNewUsers.take hm).map fun n : ℕ => (n : K))
    (((newEntities initial (stream.map Prod.snd)).nNewItems.take hm).map fun n : ℕ => (n : K))
    (((newEntities initial (stream.map Prod.snd)).nNewUsersNi.take hm).map fun n : ℕ => (n : K))
    (((newEntities initial (stream.map Prod.snd)).nNewItemsNu.take hm).map fun n : ℕ => (n : K))
    "#users".toList "#items".toList "#new_users_ni".toList "#new_items_nu".toList "v".toList "s".toList "*".toList
    "^".toList "Day".toList "Amount".toList "New Users, New Items Dynamics".toList
    (extra ++ "dynamics_new_ui.pdf".toList) (min hm stream.length)
    (by rw [List.length_map, List.length_take, a]) (by rw [List.length_map, List.length_take, b])
    (by rw [List.length_map, List.length_take, c]) (by rw [List.length_map, List.length_take, d])
  rw [List.length_map, List.length_range] at h1 h2
  constructor
  · intro h
    obtain ⟨f, hf, hfi, -⟩ := h1 (by omega)
    exact ⟨f, hf, hfi⟩
  · intro h
    exact h2 (by omega)

omit [LinearOrder K] in
theorem openJson_unique (entries : List (Str × Bool × Series K)) (path : Str) (s : Series K)
    (hm : (path, true, s) ∈ entries) (hu : ∀ e ∈ entries, e.1 = path → e = (path, true, s)) :
    openJson entries path = .ok s := by
  unfold openJson
  cases h : entries.find? fun e => e.2.1 && decide (e.1 = path) with
  | none =>
    have := List.find?_eq_none.1 h _ hm
    simp at this
  | some e =>
    have h1 := List.mem_of_find?_eq_some h
    have h2 := List.find?_some h
    simp only [Bool.and_eq_true, decide_eq_true_eq] at h2
    rw [hu e h1 h2.2]

theorem resultPath_inj (dir a b : Str) (h : resultPath dir a = resultPath dir b) : a = b := by
  unfold resultPath at h
  exact List.append_cancel_left (List.append_cancel_right h)

omit [LinearOrder K] in
/-- Every file of the study can be opened. -/
theorem study_open (dir : Str) (c : RunId → Series K) (dd : Series K) (entries : List (Str × Bool × Series K))
    (hentries : entries.Perm ((allRuns.map fun r => (resultPath dir r.name, true, c r)) ++
      [(resultPath dir "data_dynamics".toList, true, dd)])) :
    (∀ r ∈ allRuns, openJson entries (resultPath dir r.name) = .ok (c r)) ∧
    openJson entries (resultPath dir "data_dynamics".toList) = .ok dd := by
  have hnames : ∀ r ∈ allRuns, ∀ r' ∈ allRuns, r.name = r'.name → r = r' := by decide
  have hdd : ∀ r ∈ allRuns, r.name ≠ "data_dynamics".toList := by decide
  have hmem : ∀ e, e ∈ entries ↔ (∃ r ∈ allRuns, (resultPath dir r.name, true, c r) = e) ∨
      e = (resultPath dir "data_dynamics".toList, true, dd) := by
    intro e
    rw [hentries.mem_iff, List.mem_append, List.mem_map, List.mem_singleton]
  constructor
  · intro r hr
    refine openJson_unique _ _ _ ((hmem _).2 (.inl ⟨r, hr, rfl⟩)) ?_
    intro e he hp
    rcases (hmem e).1 he with ⟨r', hr', rfl⟩ | rfl
    · rw [hnames r' hr' r hr (resultPath_inj _ _ _ hp)]
    · exact absurd (resultPath_inj _ _ _ hp).symm (hdd r hr)
  · refine openJson_unique _ _ _ ((hmem _).2 (.inr rfl)) ?_
    intro e he hp
    rcases (hmem e).1 he with ⟨r', hr', rfl⟩ | rfl
    · exact absurd (resultPath_inj _ _ _ hp) (hdd r' hr')
    · rfl

omit [LinearOrder K] in
theorem plot_file {x : List ℤ} {ys : List (List K)} {l : List Str} {xl yl ti fi : Str} {ms : Option (List Str)}
    {f : Figure K} (h : plotResults x ys l xl yl ti fi ms = .ok f) : f.file = fi := by
  unfold plotResults at h
  obtain ⟨cs, -, h⟩ := (bind_ok_iff _ _ _).1 h
  have h := Except.ok.inj h
  subst h
  rfl

/-- The files of the experiment figures. -/
def experimentFiles (dataset : Str) (swls : List ℕ) : List Str :=
  ["_calc_time.pdf".toList, "_cum_hr.pdf".toList, "_stability.pdf".toList].map (dataset ++ ·) ++
    swls.map fun w => dataset ++ "_sw_".toList ++ natStr w ++ "_hr.pdf".toList

/-- The files of the ablation figures of one target. -/
def ablationFiles (target dataset : Str) : List Str :=
  ["_cum_stability.pdf".toList, "_cum_hr.pdf".toList, "_sw_20_hr.pdf".toList].map
    (target ++ "_".toList ++ dataset ++ ·)

variable [IsStrictOrderedRing K]

theorem experimentFigures_ok (dyn : Dict Str (Series K)) (hne : dyn ≠ []) (T : ℕ)
    (h : ∀ e ∈ dyn, StepSeries T e.2) (dataset : Str) (topk : ℕ) (swls : List ℕ) (hw : ∀ w ∈ swls, 1 ≤ w) :
    ∃ fs, runFigures (experimentFigures dyn (dataset ++ "_".toList) topk swls) = (fs, none) ∧
      fs.map Figure.file = experimentFiles dataset swls := by
  have h1 : HasSeries dyn "calculation_time".toList (T + 1) := fun e he => (h e he).2.2
  have h2 : HasSeries dyn "hr".toList T := fun e he => (h e he).1
  have h3 : HasSeries dyn "wji".toList (T - 1) := fun e he => (h e he).2.1
  obtain ⟨f1, e1, -⟩ := (C115_figures dyn hne (dataset ++ "_".toList) topk _).1 h1
  obtain ⟨f2, e2, -⟩ := (C115_figures dyn hne (dataset ++ "_".toList) topk _).2.2.2.2 _ h2
  obtain ⟨f3, e3, -⟩ := (C115_figures dyn hne (dataset ++ "_".toList) topk _).2.2.1 h3
  have hex : ∀ w ∈ swls, ∃ f, plotSliding topk dyn w (dataset ++ "_".toList) "hr".toList = .ok f := by
    intro w hwm
    obtain ⟨f, hf, -⟩ := C115_windows dyn hne (dataset ++ "_".toList) "hr".toList topk T w (hw w hwm) h2
    exact ⟨f, hf⟩
  have hl : ∃ fs : List (Figure K), swls.map (fun w => plotSliding topk dyn w (dataset ++ "_".toList) "hr".toList) =
      fs.map Except.ok ∧ fs.map Figure.file =
        swls.map fun w => dataset ++ "_sw_".toList ++ natStr w ++ "_hr.pdf".toList := by
    clear hw
    induction swls with
    | nil => exact ⟨[], rfl, rfl⟩
    | cons w swls ih =>
      obtain ⟨fs, a, b⟩ := ih fun w hw => hex w (List.mem_cons_of_mem _ hw)
      obtain ⟨f, hf⟩ := hex w (by simp)
      refine ⟨f :: fs, by rw [List.map_cons, List.map_cons, hf, a], ?_⟩
      rw [List.map_cons, List.map_cons, b]
      congr 1
      obtain ⟨_, -, hf⟩ := (bind_ok_iff _ _ _).1 hf
      obtain ⟨_, -, hf⟩ := (bind_ok_iff _ _ _).1 hf
      rw [plot_file hf]
      simp
  obtain ⟨fs, a, b⟩ := hl
  refine ⟨f1 :: f2 :: f3 :: fs, runFigures_ok _ _ ?_, ?_⟩
  · unfold experimentFigures
    rw [e1, e2, e3, a]
    rfl
  · unfold experimentFiles
    rw [List.map_cons, List.map_cons, List.map_cons, b]
    obtain ⟨_, -, e1⟩ := (bind_ok_iff _ _ _).1 e1
    obtain ⟨_, -, e1⟩ := (bind_ok_iff _ _ _).1 e1
    obtain ⟨_, -, e2⟩ := (bind_ok_iff _ _ _).1 e2
    obtain ⟨_, -, e2⟩ := (bind_ok_iff _ _ _).1 e2
    obtain ⟨_, -, e3⟩ := (bind_ok_iff _ _ _).1 e3
    obtain ⟨_, -, e3⟩ := (bind_ok_iff _ _ _).1 e3
    rw [plot_file e1, plot_file e2, plot_file e3]
    simp

theorem ablationFigures_ok (dyn : Dict Str (Series K)) (hne : dyn ≠ []) (T : ℕ)
    (h : ∀ e ∈ dyn, StepSeries T e.2) (target dataset : Str) (topk : ℕ) :
    ∃ fs, runFigures (ablationFigures dyn (target ++ "_".toList ++ dataset ++ "_".toList) topk) = (fs, none) ∧
      fs.map Figure.file = ablationFiles target dataset := by
  have h2 : HasSeries dyn "hr".toList T := fun e he => (h e he).1
  have h3 : HasSeries dyn "wji".toList (T - 1) := fun e he => (h e he).2.1
  obtain ⟨f1, e1, -⟩ := (C115_figures dyn hne (target ++ "_".toList ++ dataset ++ "_".toList) topk _).2.2.2.1 h3
  obtain ⟨f2, e2, -⟩ := (C115_figures dyn hne (target ++ "_".toList ++ dataset ++ "_".toList) topk _).2.2.2.2 _ h2
  obtain ⟨f3, e3, -⟩ := C115_windows dyn hne (target ++ "_".toList ++ dataset ++ "_".toList) "hr".toList topk T 20
    (by norm_num) h2
  refine ⟨[f1, f2, f3], runFigures_ok _ _ ?_, ?_⟩
  · unfold ablationFigures
    rw [e1, e2, e3]
    rfl
  · unfold ablationFiles
    rw [List.map_cons, List.map_cons, List.map_cons]
    obtain ⟨_, -, e1⟩ := (bind_ok_iff _ _ _).1 e1
    obtain ⟨_, -, e1⟩ := (bind_ok_iff _ _ _).1 e1
    obtain ⟨_, -, e2⟩ := (bind_ok_iff _ _ _).1 e2
    obtain ⟨_, -, e2⟩ := (bind_ok_iff _ _ _).1 e2
    obtain ⟨_, -, e3⟩ := (bind_ok_iff _ _ _).1 e3
    obtain ⟨_, -, e3⟩ := (bind_ok_iff _ _ _).1 e3
    rw [plot_file e1, plot_file e2, plot_file e3, show natStr 20 = ['2', '0'] from rfl]
    simp

/-! ### C116 -/

/-- **C116.** All scripts have been run on one of the four data sets and every experiment made the same number
`T` of steps. If the stream has at least `how_many_iterations` chunks, the graph script draws all its figures.
Missing: with fewer chunks (the experiments then complete all the same) the script stops with `ValueError` at the
figure of new users and items, and the data figure and the whole ablation study are never drawn. -/
theorem C116_drawn_partial [FloorRing K] (sortDay : List (Row K) → List (Row K)) (g : GraphCfg K)
    (entries : List (Str × Bool × Series K)) (data : List (IRow K)) (initial left : List (Row K))
    (stream : List (ℤ × List (Row K))) (c : RunId → Series K) (dd : List ℕ × List ℕ) (T : ℕ)
    (hdir : g.dir ∈ resultDirs) (hmod : g.models ≠ []) (hsub : ∀ m ∈ g.models, m ∈ scriptModels)
    (hw : ∀ w ∈ g.swls, 1 ≤ w)
    (hd : prepareDataForExperiment sortDay data g.initRatio g.hmMin = .ok (initial, stream, left))
    (hc : ∀ r ∈ allRuns, StepSeries T (c r)) (hdd : saveDataDynamics left g.howMany = .ok dd)
    (hentries : entries.Perm ((allRuns.map fun r => (resultPath g.dir r.name, true, c r)) ++
      [(resultPath g.dir "data_dynamics".toList, true, dataJson dd)])) :
    (g.howMany ≤ stream.length → ∃ fs, prepareGraphs sortDay g entries data = (fs, none) ∧
      fs.map Figure.file = experimentFiles g.dataset g.swls ++
        [g.dataset ++ "_dynamics_new_ui.pdf".toList, g.dataset ++ "_data_dynamics.pdf".toList] ++
        ablationFiles "TIRec".toList g.dataset ++ ablationFiles "PSIRec".toList g.dataset) ∧
    (stream.length < g.howMany → ∃ fs, prepareGraphs sortDay g entries data = (fs, some .valueError) ∧
      fs.map Figure.file = experimentFiles g.dataset g.swls) := by
  obtain ⟨hopen, hopend⟩ := study_open g.dir c (dataJson dd) entries hentries
  have hdict : experimentDict g entries = .ok ((pdUnique g.models).map fun m => (m, c (.plain m))) := by
    refine mapM_const_ok _ _ _ fun m hm => ?_
    rw [mem_pdUnique] at hm
    have : RunId.plain m ∈ allRuns := by
      unfold allRuns
      rw [List.mem_append, List.mem_append]
      exact .inl (.inl (List.mem_map.2 ⟨m, hsub m hm, rfl⟩))
    have := hopen _ this
    simp only [RunId.name] at this
    rw [this]
    rfl
  have hser : ∀ e ∈ (pdUnique g.models).map fun m => (m, c (RunId.plain m)), StepSeries T e.2 := by
    intro e he
    obtain ⟨m, hm, rfl⟩ := List.mem_map.1 he
    rw [mem_pdUnique] at hm
    refine hc _ ?_
    unfold allRuns
    rw [List.mem_append, List.mem_append]
    exact .inl (.inl (List.mem_map.2 ⟨m, hsub m hm, rfl⟩))
  have hne : ((pdUnique g.models).map fun m => (m, c (RunId.plain m))) ≠ [] := by
    cases hm : g.models with
    | nil => exact absurd hm hmod
    | cons a l => simp [pdUnique]
  obtain ⟨fs1, a1, b1⟩ := experimentFigures_ok _ hne T hser g.dataset g.topk g.swls hw
  obtain ⟨hn1, hn2⟩ := plotNewEntities_iff sortDay data g.initRatio g.hmMin g.howMany (g.dataset ++ "_".toList)
    initial left stream hd
  unfold prepareGraphs
  simp only [withValue, hdict, a1]
  constructor
  · intro hle
    obtain ⟨f2, a2, b2⟩ := hn1 hle
    have hdlen : dd.1.length = dd.2.length := by
      unfold saveDataDynamics at hdd
      split at hdd
      · simp at hdd
      · have := Except.ok.inj hdd
        rw [← this]
        simp
    obtain ⟨f3, a3, b3⟩ : ∃ f3, plotDataDynamics (dataJson dd) (g.dataset ++ "_".toList) = .ok f3 ∧
        (f3 : Figure K).file = g.dataset ++ "_".toList ++ "data_dynamics.pdf".toList := by
      have g1 : Dict.getItem (dataJson dd) "n_users_dynamics".toList = .ok (dd.1.map fun n : ℕ => (n : K)) := rfl
      have g2 : Dict.getItem (dataJson dd) "n_interactions_dynamics".toList =
        .ok (dd.2.map fun n : ℕ => (n : K)) := rfl
      unfold plotDataDynamics
      simp only [g1, g2, except_bind_ok, addPlot]
      rw [if_pos (by simp [arange]), if_pos (by simp [arange, hdlen])]
      exact ⟨_, rfl, rfl⟩
    obtain ⟨⟨d4, a4, -, p4, l4⟩, ⟨d5, a5, -, p5, l5⟩⟩ := C114_study g.dir hdir c (dataJson dd) entries hentries
    have hsub4 : ∀ r ∈ tensorRuns, r ∈ allRuns := by decide
    have hsub5 : ∀ r ∈ matrixRuns, r ∈ allRuns := by decide
    obtain ⟨fs4, a4', b4⟩ := ablationFigures_ok d4 (by rintro rfl; simp at l4) T (fun e he => by
      obtain ⟨r, hr, rfl⟩ := List.mem_map.1 (p4.subset he)
      exact hc r (hsub4 r hr)) "TIRec".toList g.dataset g.topk
    obtain ⟨fs5, a5', b5⟩ := ablationFigures_ok d5 (by rintro rfl; simp at l5) T (fun e he => by
      obtain ⟨r, hr, rfl⟩ := List.mem_map.1 (p5.subset he)
      exact hc r (hsub5 r hr)) "PSIRec".toList g.dataset g.topk
    simp only [a2, hopend, a3, runFigures, ablationGraphs, withValue, a4, a5, a4', a5', andThen]
    refine ⟨_, rfl, ?_⟩
    simp [b1, b2, b3, b4, b5]
  · intro hlt
    simp only [hn2 hlt, runFigures, andThen]
    refine ⟨_, rfl, ?_⟩
    simp [b1]

/-! ### Witness -/

/-- The result of the experiment script for SVD on seven rows: two chunks for five iterations. -/
def exSvdDyn : PyM (Dynamics ℚ) := runScript exRunEnv exRunCfg exFixSvd exFixTd "SVD" exRunData

/-- What the graph script does with it. -/
def exGraphs (hm : ℕ) : PyM (List String × Option PyErr) := do
  let d ← exSvdDyn
  let r := prepareGraphs exRunEnv.sortDay ⟨"steam".toList, ["SVD".toList], "results/steam/metric_dynamics".toList, 1,
    [20], hm, exRunCfg.initRatio, exRunCfg.hmMin⟩
    [(resultPath "results/steam/metric_dynamics".toList "SVD".toList, true, dynJson d)] exRunData
  pure (r.1.map fun f => String.ofList f.file, r.2)

/-- **C116 is violated**: the experiment completes on a stream of two chunks although five iterations are asked
for, but its graphs cannot be drawn; with two iterations the script goes on to the next file. -/
theorem C116_violated : (∃ d, exSvdDyn = .ok d) ∧
    exGraphs 5 = .ok (["steam_calc_time.pdf", "steam_cum_hr.pdf", "steam_stability.pdf", "steam_sw_20_hr.pdf"],
      some .valueError) ∧
    exGraphs 2 = .ok (["steam_calc_time.pdf", "steam_cum_hr.pdf", "steam_stability.pdf", "steam_sw_20_hr.pdf",
      "steam_dynamics_new_ui.pdf"], some .fileNotFoundError) := by
  have h : exGraphs 5 = .ok (["steam_calc_time.pdf", "steam_cum_hr.pdf", "steam_stability.pdf",
      "steam_sw_20_hr.pdf"], some .valueError) := by decide +kernel
  refine ⟨?_, h, by decide +kernel⟩
  obtain ⟨d, hd, -⟩ := (bind_ok_iff _ _ _).1 h
  exact ⟨d, hd⟩

/-- The record of two steps. -/
def exTwoSteps : Series ℚ :=
  dynJson { times := [5, 1, 1], hr := [1 / 2, 1 / 4], mrr := [1 / 2, 1 / 8], wji := [1] }

/-- A complete study in which every run recorded two steps. -/
example : ∃ fs, prepareGraphs exRunEnv.sortDay ⟨"steam".toList, scriptModels, "results/steam/metric_dynamics".toList,
    1, [20], 2, exRunCfg.initRatio, exRunCfg.hmMin⟩
    ((allRuns.map fun r => (resultPath "results/steam/metric_dynamics".toList r.name, true,
      exTwoSteps)) ++
      [(resultPath "results/steam/metric_dynamics".toList "data_dynamics".toList, true, dataJson ([2], [2]))])
    exRunData = (fs, none) ∧ fs.length = 12 := by
  obtain ⟨fs, h, hl⟩ := (C116_drawn_partial exRunEnv.sortDay ⟨"steam".toList, scriptModels,
    "results/steam/metric_dynamics".toList, 1, [20], 2, exRunCfg.initRatio, exRunCfg.hmMin⟩ _ exRunData
    [⟨7, 40, 1, 0, 0⟩, ⟨8, 41, 1, 1, 0⟩, ⟨8, 42, 1, 2, 0⟩, ⟨8, 43, 1, 3, 0⟩]
    [⟨8, 43, 1, 4, 1⟩, ⟨9, 41, 1, 5, 1⟩, ⟨7, 43, 1, 6, 2⟩]
    [(1, [⟨8, 43, 1, 4, 1⟩, ⟨9, 41, 1, 5, 1⟩]), (2, [⟨7, 43, 1, 6, 2⟩])]
    (fun _ => exTwoSteps)
    ([2], [2]) 2 (by decide) (by decide) (by decide) (by decide) (by decide +kernel)
    (fun _ _ => ⟨⟨_, rfl, rfl⟩, ⟨_, rfl, rfl⟩, ⟨_, rfl, rfl⟩⟩) (by decide +kernel) (List.Perm.refl _)).1 (by decide)
  refine ⟨fs, h, ?_⟩
  rw [← List.length_map (f := Figure.file (K := ℚ)), hl]
  rfl

end DynCF
