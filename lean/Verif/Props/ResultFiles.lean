/- Properties C115 and C122, further parts: the files between the scripts keep their meaning. -/
import Verif.Props.ExperimentSeries
import Verif.Props.Graphs3
import Verif.Props.Search
import Verif.Props.PrepareFiles2

set_option linter.unusedSectionVars false

namespace DynCF
variable {K : Type} {σ F : Type}

/-! ### The result file of a run -/

/-- The contents of a result file belong to what was seen in the run, every series under its own key. -/
structure FileOf [Field K] [LinearOrder K] (e : ExpCfg K) (snaps : List (Snap K)) (s : Series K) : Prop where
  hr : Dict.get? s "hr".toList = some (snaps.map Snap.hit)
  mrr : Dict.get? s "mrr".toList = some (snaps.map Snap.rr)
  ndUsers : Dict.get? s "nd_users".toList = some (snaps.map fun x => e.normOf x.u)
  ndItems : Dict.get? s "nd_items".toList = some (snaps.map fun x => e.normOf x.v)
  wji : ∃ w, Dict.get? s "wji".toList = some w ∧
    Neighbours (fun _ a b x => wjiSim a.recs b.recs b.nItems = .ok x) snaps w
  times : Dict.get? s "calculation_time".toList =
    some ((List.range (snaps.length + 1)).map fun i => e.clock (2 * i + 1) - e.clock (2 * i))

/-- **C115, the result file.** The file saved for a completed run has under each key the values of this series. -/
theorem C115_saved [Field K] [LinearOrder K] (M : RecModel K σ F) (e : ExpCfg K) (s0 : σ) (initial : Tab K)
    (stream : List (List (Row K))) (d : Dynamics K) (h : runWith M e s0 initial stream = .ok d) :
    ∃ snaps s, Watched M e s0 initial (stream.take (expSteps e.howMany stream.length)) snaps s ∧
      FileOf e snaps (dynJson d) := by
  obtain ⟨st, h1, h2⟩ := (bind_ok_iff _ _ _).1 h
  have h2 := Except.ok.inj h2
  subst h2
  obtain ⟨snaps, hw, hr⟩ := C92_records M e s0 initial stream st h1
  refine ⟨snaps, _, hw, ?_, ?_, ?_, ?_, ⟨_, rfl, hr.wji⟩, ?_⟩
  · rw [← hr.hr]; rfl
  · rw [← hr.mrr]; rfl
  · rw [← hr.ndUsers]; rfl
  · rw [← hr.ndItems]; rfl
  · rw [← hr.times]; rfl

example : Dict.get? (dynJson (K := ℚ) { times := [5], ndUsers := [2], ndItems := [3] }) "nd_items".toList = some [3] := by
  decide +kernel

/-- one snapshot per chunk -/
theorem Watched.length_eq [Field K] [LinearOrder K] {M : RecModel K σ F} {e : ExpCfg K} {s0 : σ} {initial : Tab K}
    {past : List (List (Row K))} {snaps : List (Snap K)} {s : σ} (h : Watched M e s0 initial past snaps s) :
    snaps.length = past.length := by
  induction h with
  | train => rfl
  | step _ _ _ _ ih => rw [List.length_append, List.length_append, ih]; rfl

/-- **C118, the column of a run.** The column of the results table that belongs to the file of a completed run that
processed `n` chunks: the means of the hit rates, the reciprocal ranks and the stability values, and the mean of `n + 1` durations, of
the first training and of all updates. -/
theorem C118_run [Field K] [LinearOrder K] (M : RecModel K σ F) (e : ExpCfg K) (s0 : σ) (initial : Tab K)
    (stream : List (List (Row K))) (past : List (List (Row K)))
    (hp : past = stream.take (expSteps e.howMany stream.length)) (d : Dynamics K)
    (h : runWith M e s0 initial stream = .ok d) :
    ∃ snaps s w, Watched M e s0 initial past snaps s ∧ snaps.length = past.length ∧
      Neighbours (fun _ a b x => wjiSim a.recs b.recs b.nItems = .ok x) snaps w ∧
      tableColumn (some (dynJson d)) = [("hr".toList, meanCell (snaps.map Snap.hit)),
        ("mrr".toList, meanCell (snaps.map Snap.rr)), ("wji".toList, meanCell w),
        ("calculation_time".toList, .num (((List.range (past.length + 1)).map fun i =>
          e.clock (2 * i + 1) - e.clock (2 * i)).sum / ((past.length + 1 : ℕ) : K)))] := by
  obtain ⟨snaps, s, hw, hf⟩ := C115_saved M e s0 initial stream d h
  obtain ⟨w, h1, h2⟩ := hf.wji
  rw [← hp] at hw
  have hl := hw.length_eq
  refine ⟨snaps, s, w, hw, hl, h2, ?_⟩
  rw [(C118_columns (some (dynJson d))).1 _ rfl (by
    intro m hm
    simp only [tableMetrics, List.mem_cons, List.not_mem_nil, or_false] at hm
    rcases hm with rfl | rfl | rfl | rfl
    · rw [hf.hr]; simp
    · rw [hf.mrr]; simp
    · rw [h1]; simp
    · rw [hf.times]; simp)]
  have ht : meanCell (theSeries "calculation_time".toList (dynJson d)) =
      .num (((List.range (past.length + 1)).map fun i => e.clock (2 * i + 1) - e.clock (2 * i)).sum /
        ((past.length + 1 : ℕ) : K)) := by
    unfold theSeries meanCell
    rw [hf.times, hl, Option.getD_some, if_neg (by simp [List.range_succ]), List.length_map, List.length_range]
  rw [← ht]
  have e1 : theSeries "hr".toList (dynJson d) = snaps.map Snap.hit := by unfold theSeries; rw [hf.hr]; rfl
  have e2 : theSeries "mrr".toList (dynJson d) = snaps.map Snap.rr := by unfold theSeries; rw [hf.mrr]; rfl
  have e3 : theSeries "wji".toList (dynJson d) = w := by unfold theSeries; rw [h1]; rfl
  rw [← e1, ← e2, ← e3]
  rfl

example : tableColumn (some (dynJson (K := ℚ) { times := [5, 1], hr := [1/2], mrr := [1/4] })) =
    [("hr".toList, .num (1/2)), ("mrr".toList, .num (1/4)), ("wji".toList, .nan),
      ("calculation_time".toList, .num 3)] := by
  decide +kernel

/-! ### The figure of the data -/

/-- **C115, the data figure.** From the saved numbers of users and interactions the figure shows, over the days numbered
from zero, first the number of distinct users and then the number of interactions of each chunk. -/
theorem C115_data [Field K] (chunks : List (ℤ × List (Row K))) (res : List ℕ × List ℕ) (h : ChunkSeries chunks res)
    (extra : Str) : ∃ f : Figure K, plotDataDynamics (dataJson res) extra = .ok f ∧
      f.curves.map (fun c => (c.label, c.x, c.y)) =
        [("#Unique Users".toList, (List.range chunks.length).map fun i : ℕ => (i : ℤ),
            chunks.map fun c => (((c.2.map Row.user).toFinset.card : ℕ) : K)),
          ("#Interactions".toList, (List.range chunks.length).map fun i : ℕ => (i : ℤ),
            chunks.map fun c => ((c.2.length : ℕ) : K))] ∧
      f.file = extra ++ "data_dynamics.pdf".toList ∧ f.xlabel = "Day".toList := by
  obtain ⟨h1, h2⟩ := h
  have g1 : Dict.getItem (dataJson res) "n_users_dynamics".toList = .ok (res.1.map fun n : ℕ => (n : K)) := rfl
  have g2 : Dict.getItem (dataJson res) "n_interactions_dynamics".toList =
    .ok (res.2.map fun n : ℕ => (n : K)) := rfl
  unfold plotDataDynamics
  simp only [g1, g2, except_bind_ok, addPlot]
  rw [if_pos (by simp [arange]), if_pos (by simp [arange, h1, h2])]
  refine ⟨_, rfl, ?_, rfl, rfl⟩
  simp only [List.map_cons, List.map_nil, h1, h2, List.map_map, List.length_map, arange]
  rfl

/-- **C115, the data figure, errors.** Without one of the two series: `KeyError`; with lists of different lengths:
`ValueError`. -/
theorem C115_data_errors [Field K] (s : Series K) (extra : Str) :
    (Dict.get? s "n_users_dynamics".toList = none ∨ Dict.get? s "n_interactions_dynamics".toList = none →
      plotDataDynamics s extra = .error .keyError) ∧
    (∀ y z, Dict.get? s "n_users_dynamics".toList = some y → Dict.get? s "n_interactions_dynamics".toList = some z →
      y.length ≠ z.length → plotDataDynamics s extra = .error .valueError) := by
  have hself : ∀ y : List K, (arange y.length).length = y.length := by intro y; simp [arange]
  constructor
  · rintro (h | h)
    · unfold plotDataDynamics Dict.getItem
      rw [h]
      rfl
    · unfold plotDataDynamics
      cases hu : Dict.get? s "n_users_dynamics".toList with
      | none => simp only [Dict.getItem, hu]; rfl
      | some y =>
        simp only [Dict.getItem, hu, h, except_bind_ok, addPlot, hself, if_true]
        rfl
  · intro y z hy hz hne
    unfold plotDataDynamics
    simp only [Dict.getItem, hy, hz, except_bind_ok, addPlot, hself, if_true]
    rw [if_neg hne]
    rfl

example : (∃ f, plotDataDynamics (dataJson (K := ℚ) ([2, 1], [3, 4])) "steam_".toList = .ok f ∧
    f.curves.map Curve.y = [[2, 1], [3, 4]]) ∧
    plotDataDynamics (dataJson (K := ℚ) ([2, 1], [3])) "steam_".toList = .error .valueError := by
  refine ⟨⟨_, rfl, by decide +kernel⟩, by decide +kernel⟩

/-! ### The selected parameters are used as they were scored -/

/-- **C122, one object.** The object built by the experiment for the row that was selected is the object whose scores the
search wrote into this row: same rank, attention, sequence length and settings of the decomposition. -/
theorem C122_same_object [Field K] [LinearOrder K] (env : RunEnv K) (cfg : RunCfg K) (ft : FixedTd) (c : TDCfg K)
    (m : TDAtt K) (h : TdSelected env cfg ft c m) :
    ∃ (r : ℕ × ℕ × ℕ) (a : K) (n : ℤ),
      getOptimalTdrecParams cfg.dataset env.tdCsv = .ok ([(r.1 : ℤ), (r.2.1 : ℤ), (r.2.2 : ℤ)], a, n) ∧
      c = tdSearchCfg env ft r a := by
  obtain ⟨r1, r2, r3, f, n, h1, h2, -⟩ := h
  exact ⟨(r1, r2, r3), f, n, h1, h2⟩

/-- For instance with the attention exponents the search went through. -/
example : (tdSearchCfg exRunEnv exFixTd (1, 1, 1) 2).attF = some (exRunEnv.pow 2) ∧
    (tdSearchCfg exRunEnv exFixTd (1, 1, 1) 2).seqLen = 3 := ⟨rfl, rfl⟩

end DynCF
