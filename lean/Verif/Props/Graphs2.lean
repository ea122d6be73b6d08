/-
C115: figures show the recorded series. C117: axis labels. C118: the table of averages.
-/
import Verif.Props.Graphs
import Verif.Props.Evaluation

namespace DynCF
variable {K : Type}

/-! ### What should be drawn -/

/-- The line of a model: one point per entry of its series, numbered from zero. -/
def lineOf (name : Str) (y : List K) : Curve K := ⟨(List.range y.length).map Int.ofNat, y, name, ['*']⟩

/-- The sums of the first entries. -/
def prefixSums [AddMonoid K] (l : List K) : List K := (List.range l.length).map fun i => (l.take (i + 1)).sum

/-- The means over windows of `w` consecutive entries; short series are left as they are. -/
def windowMeans [Field K] (w : ℕ) (l : List K) : List K :=
  if l.length < w then l else (List.range (l.length - w + 1)).map fun i => (windowAt l w i).sum / (w : K)

/-- Every model of the dictionary has a series of length `n` under the key. -/
def HasSeries (dyn : Dict Str (Series K)) (key : Str) (n : ℕ) : Prop :=
  ∀ e ∈ dyn, ∃ y, Dict.get? e.2 key = some y ∧ y.length = n

/-- The series of a model. -/
def theSeries (key : Str) (s : Series K) : List K := (Dict.get? s key).getD []

/-! ### Lemmas -/

theorem mapM_const_ok {α β : Type} (f : α → PyM β) (g : α → β) (l : List α) (h : ∀ a ∈ l, f a = .ok (g a)) :
    l.mapM f = .ok (l.map g) := by
  induction l with
  | nil => rfl
  | cons a l ih =>
    rw [List.mapM_cons, h a (by simp), ih fun b hb => h b (List.mem_cons_of_mem _ hb)]
    rfl

theorem cumsum_go [AddCommMonoid K] (l : List K) (a : K) :
    cumsum.go a l = (List.range l.length).map fun i => a + (l.take (i + 1)).sum := by
  induction l generalizing a with
  | nil => rfl
  | cons x l ih =>
    rw [cumsum.go, ih, List.length_cons, List.range_succ_eq_map, List.map_cons, List.map_map]
    congr 1
    · simp
    · refine List.map_congr_left fun i _ => ?_
      simp [add_assoc]

theorem cumsum_eq [AddCommMonoid K] (l : List K) : cumsum l = prefixSums l := by
  unfold cumsum prefixSums
  rw [cumsum_go]
  simp

theorem prefixSums_length [AddMonoid K] (l : List K) : (prefixSums l).length = l.length := by
  simp [prefixSums]

theorem windowMeans_length [Field K] (w n : ℕ) (l : List K) (h : l.length = n) :
    (windowMeans w l).length = if n < w then n else n - w + 1 := by
  unfold windowMeans
  rw [h]
  split
  · exact h
  · simp

theorem plot_lines (dyn : Dict Str (Series K)) (v : Str × Series K → List K) (n : ℕ)
    (h : ∀ e ∈ dyn, (v e).length = n) (xl yl ti fi : Str) :
    plotResults (arange n) (dyn.map v) (Dict.keys dyn) xl yl ti fi none =
      .ok ⟨fi, xl, yl, ti, dyn.map fun e => lineOf e.1 (v e)⟩ := by
  have hz : (dyn.map v).zip ((Dict.keys dyn).zip (List.replicate (Dict.keys dyn).length "*".toList)) =
      dyn.map fun e => (v e, e.1, "*".toList) := by
    clear h
    unfold Dict.keys
    induction dyn with
    | nil => rfl
    | cons e dyn ih =>
      simp only [List.map_cons, List.length_cons, List.replicate_succ, List.zip_cons_cons]
      rw [ih]
  unfold plotResults
  simp only [Option.getD_none, hz]
  rw [mapM_const_ok _ (fun p => ⟨arange n, p.1, p.2.1, p.2.2⟩)]
  · simp only [except_bind_ok]
    rw [List.map_map]
    show Except.ok _ = Except.ok _
    congr 2
    refine List.map_congr_left fun e he => ?_
    simp only [Function.comp, lineOf, h e he]
    rfl
  · intro p hp
    obtain ⟨e, he, rfl⟩ := List.mem_map.1 hp
    unfold addPlot
    rw [if_pos]
    simp [arange, h e he]

theorem seriesOf_ok (dyn : Dict Str (Series K)) (key : Str) (n : ℕ) (h : HasSeries dyn key n) :
    seriesOf dyn key = .ok (dyn.map fun e => theSeries key e.2) ∧
      ∀ e ∈ dyn, (theSeries key e.2).length = n := by
  constructor
  · refine mapM_const_ok _ _ _ fun e he => ?_
    obtain ⟨y, hy, -⟩ := h e he
    simp [Dict.getItem, theSeries, hy]
  · intro e he
    obtain ⟨y, hy, hl⟩ := h e he
    simp [theSeries, hy, hl]

theorem arangeFirst_ok {α : Type} (l : List α) (v : α → List K) (n : ℕ) (hne : l ≠ [])
    (h : ∀ e ∈ l, (v e).length = n) : arangeFirst (l.map v) = .ok (arange n) := by
  cases l with
  | nil => exact absurd rfl hne
  | cons e l => simp [arangeFirst, h e (by simp)]

/-! ### C115 -/

/-- **C115, figures.** For a non-empty dictionary in which all models have series of the same length, every plot
function draws one line per model, under its name, through the recorded values (their prefix sums, their window
means), numbered from zero. -/
theorem C115_figures [Field K] (dyn : Dict Str (Series K)) (hne : dyn ≠ []) (extra : Str) (topk n : ℕ) :
    (HasSeries dyn "calculation_time".toList n →
      ∃ f, plotTime dyn extra "regular".toList = .ok f ∧
        f.curves = dyn.map fun e => lineOf e.1 (theSeries "calculation_time".toList e.2)) ∧
    (HasSeries dyn "calculation_time".toList n →
      ∃ f, plotTime dyn extra "cum".toList = .ok f ∧
        f.curves = dyn.map fun e => lineOf e.1 (prefixSums (theSeries "calculation_time".toList e.2))) ∧
    (HasSeries dyn "wji".toList n →
      ∃ f, plotStability topk dyn extra "regular".toList = .ok f ∧
        f.curves = dyn.map fun e => lineOf e.1 (theSeries "wji".toList e.2)) ∧
    (HasSeries dyn "wji".toList n →
      ∃ f, plotStability topk dyn extra "cum".toList = .ok f ∧
        f.curves = dyn.map fun e => lineOf e.1 (prefixSums (theSeries "wji".toList e.2))) ∧
    (∀ mode, HasSeries dyn mode n →
      ∃ f, plotCum topk dyn extra mode = .ok f ∧
        f.curves = dyn.map fun e => lineOf e.1 (prefixSums (theSeries mode e.2))) := by
  refine ⟨?_, ?_, ?_, ?_, ?_⟩
  · intro h
    obtain ⟨h1, h2⟩ := seriesOf_ok dyn _ n h
    unfold plotTime
    simp only [h1, except_bind_ok]
    rw [if_neg (by decide), arangeFirst_ok dyn _ n hne h2]
    simp only [except_bind_ok, plot_lines dyn _ n h2]
    exact ⟨_, rfl, rfl⟩
  · intro h
    obtain ⟨h1, h2⟩ := seriesOf_ok dyn _ n h
    have h3 : ∀ e ∈ dyn, (cumsum (theSeries "calculation_time".toList e.2)).length = n := fun e he => by
      rw [cumsum_eq, prefixSums_length, h2 e he]
    unfold plotTime
    simp only [h1, except_bind_ok]
    rw [if_pos (by decide), List.map_map, show (cumsum ∘ fun e : Str × Series K =>
      theSeries "calculation_time".toList e.2) = fun e => cumsum (theSeries "calculation_time".toList e.2) from rfl,
      arangeFirst_ok dyn _ n hne h3]
    simp only [except_bind_ok, plot_lines dyn _ n h3]
    exact ⟨_, rfl, by simp only [cumsum_eq]⟩
  · intro h
    obtain ⟨h1, h2⟩ := seriesOf_ok dyn _ n h
    unfold plotStability
    simp only [h1, except_bind_ok]
    rw [if_neg (by decide), arangeFirst_ok dyn _ n hne h2]
    simp only [except_bind_ok, plot_lines dyn _ n h2]
    exact ⟨_, rfl, rfl⟩
  · intro h
    obtain ⟨h1, h2⟩ := seriesOf_ok dyn _ n h
    have h3 : ∀ e ∈ dyn, (cumsum (theSeries "wji".toList e.2)).length = n := fun e he => by
      rw [cumsum_eq, prefixSums_length, h2 e he]
    unfold plotStability
    simp only [h1, except_bind_ok]
    rw [if_pos (by decide), List.map_map, show (cumsum ∘ fun e : Str × Series K =>
      theSeries "wji".toList e.2) = fun e => cumsum (theSeries "wji".toList e.2) from rfl,
      arangeFirst_ok dyn _ n hne h3]
    simp only [except_bind_ok, plot_lines dyn _ n h3]
    exact ⟨_, rfl, by simp only [cumsum_eq]⟩
  · intro mode h
    obtain ⟨h1, h2⟩ := seriesOf_ok dyn _ n h
    have h3 : ∀ e ∈ dyn, (cumsum (theSeries mode e.2)).length = n := fun e he => by
      rw [cumsum_eq, prefixSums_length, h2 e he]
    unfold plotCum
    simp only [h1, except_bind_ok]
    rw [List.map_map, show (cumsum ∘ fun e : Str × Series K =>
      theSeries mode e.2) = fun e => cumsum (theSeries mode e.2) from rfl,
      arangeFirst_ok dyn _ n hne h3]
    simp only [except_bind_ok, plot_lines dyn _ n h3]
    exact ⟨_, rfl, by simp only [cumsum_eq]⟩

theorem slidingWindow_means [Field K] [LinearOrder K] [IsStrictOrderedRing K] (l : List K) (w : ℕ) (hw : 1 ≤ w) :
    slidingWindow l w "mean" = .ok (windowMeans w l) := by
  unfold windowMeans
  by_cases h : l.length < w
  · rw [if_pos h, (C15_sliding_window_edges l w "mean").1 h]
  · rw [if_neg h, (C15_sliding_window l w (by omega)).2 hw]

/-- **C115, windows.** -/
theorem C115_windows [Field K] [LinearOrder K] [IsStrictOrderedRing K] (dyn : Dict Str (Series K)) (hne : dyn ≠ [])
    (extra mode : Str) (topk n w : ℕ) (hw : 1 ≤ w) (h : HasSeries dyn mode n) :
    ∃ f, plotSliding topk dyn w extra mode = .ok f ∧
      f.curves = dyn.map fun e => lineOf e.1 (windowMeans w (theSeries mode e.2)) := by
  obtain ⟨-, h2⟩ := seriesOf_ok dyn _ n h
  have h1 : dyn.mapM (fun e => do
      let s ← Dict.getItem e.2 mode
      slidingWindow s w "mean") = .ok (dyn.map fun e => windowMeans w (theSeries mode e.2)) := by
    refine mapM_const_ok _ _ _ fun e he => ?_
    obtain ⟨y, hy, -⟩ := h e he
    simp only [Dict.getItem, theSeries, hy, except_bind_ok, Option.getD_some]
    exact slidingWindow_means y w hw
  have h3 : ∀ e ∈ dyn, (windowMeans w (theSeries mode e.2)).length = if n < w then n else n - w + 1 :=
    fun e he => windowMeans_length w n _ (h2 e he)
  unfold plotSliding
  simp only [h1, except_bind_ok]
  rw [arangeFirst_ok dyn _ _ hne h3]
  simp only [except_bind_ok, plot_lines dyn _ _ h3]
  exact ⟨_, rfl, rfl⟩

theorem mapM_one_error {α β : Type} (f : α → PyM β) (e : PyErr) (l : List α)
    (h : ∀ a ∈ l, (∃ b, f a = .ok b) ∨ f a = .error e) (hx : ∃ a ∈ l, f a = .error e) : l.mapM f = .error e := by
  induction l with
  | nil => obtain ⟨a, ha, -⟩ := hx; simp at ha
  | cons a l ih =>
    rw [List.mapM_cons]
    rcases h a (by simp) with ⟨b, hb⟩ | hb
    · have hx' : ∃ a ∈ l, f a = .error e := by
        obtain ⟨a', ha', he⟩ := hx
        rcases List.mem_cons.1 ha' with rfl | ha'
        · rw [hb] at he; simp at he
        · exact ⟨a', ha', he⟩
      rw [hb, ih (fun a ha => h a (List.mem_cons_of_mem _ ha)) hx']
      rfl
    · rw [hb]; rfl

theorem plot_unequal (dyn : Dict Str (Series K)) (v : Str × Series K → List K) (n : ℕ)
    (h : ∃ e ∈ dyn, (v e).length ≠ n) (xl yl ti fi : Str) :
    plotResults (arange n) (dyn.map v) (Dict.keys dyn) xl yl ti fi none = .error .valueError := by
  have hz : (dyn.map v).zip ((Dict.keys dyn).zip (List.replicate (Dict.keys dyn).length "*".toList)) =
      dyn.map fun e => (v e, e.1, "*".toList) := by
    clear h
    unfold Dict.keys
    induction dyn with
    | nil => rfl
    | cons e dyn ih =>
      simp only [List.map_cons, List.length_cons, List.replicate_succ, List.zip_cons_cons]
      rw [ih]
  unfold plotResults
  simp only [Option.getD_none, hz]
  rw [mapM_one_error _ .valueError]
  · rfl
  · intro p _
    unfold addPlot
    split
    · exact .inl ⟨_, rfl⟩
    · exact .inr rfl
  · obtain ⟨e, he, hl⟩ := h
    refine ⟨_, List.mem_map.2 ⟨e, he, rfl⟩, ?_⟩
    unfold addPlot
    rw [if_neg]
    simpa [arange] using fun h => hl h.symm

/-- **C115, errors.** Without any result the figures fail with `IndexError`; a result without the series fails
with `KeyError`; series of different lengths fail with `ValueError`. Nothing is drawn in these cases. -/
theorem C115_errors [Field K] (dyn : Dict Str (Series K)) (extra : Str) (topk : ℕ) :
    (dyn = [] → plotTime dyn extra "regular".toList = .error .indexError ∧
      plotStability topk dyn extra "regular".toList = .error .indexError ∧
      plotStability topk dyn extra "cum".toList = .error .indexError ∧
      (∀ mode, plotCum topk dyn extra mode = .error .indexError) ∧
      (∀ mode w, plotSliding topk dyn w extra mode = .error .indexError)) ∧
    ((∃ e ∈ dyn, Dict.get? e.2 "calculation_time".toList = none) →
      plotTime dyn extra "regular".toList = .error .keyError) ∧
    ((∃ e ∈ dyn, Dict.get? e.2 "wji".toList = none) →
      ∀ mode, plotStability topk dyn extra mode = .error .keyError) ∧
    (∀ mode, (∃ e ∈ dyn, Dict.get? e.2 mode = none) → plotCum topk dyn extra mode = .error .keyError) ∧
    (∀ e ∈ dyn, ∀ e' ∈ dyn, ∀ mode, (∀ x ∈ dyn, Dict.get? x.2 mode ≠ none) →
      (theSeries mode e.2).length ≠ (theSeries mode e'.2).length →
      plotCum topk dyn extra mode = .error .valueError ∧
      (mode = "calculation_time".toList → plotTime dyn extra "regular".toList = .error .valueError) ∧
      (mode = "wji".toList → plotStability topk dyn extra "regular".toList = .error .valueError ∧
        plotStability topk dyn extra "cum".toList = .error .valueError)) := by
  have hkey : ∀ key, (∃ e ∈ dyn, Dict.get? e.2 key = none) → seriesOf dyn key = .error .keyError := by
    rintro key ⟨e, he, hn⟩
    refine mapM_one_error _ .keyError _ (fun x _ => ?_) ⟨e, he, ?_⟩
    · cases h : Dict.get? x.2 key with
      | none => exact .inr (by simp [Dict.getItem, h])
      | some y => exact .inl ⟨y, by simp [Dict.getItem, h]⟩
    · simp [Dict.getItem, hn]
  refine ⟨?_, ?_, ?_, ?_, ?_⟩
  · rintro rfl
    exact ⟨rfl, rfl, rfl, fun _ => rfl, fun _ _ => rfl⟩
  · intro h
    unfold plotTime
    rw [hkey _ h]; rfl
  · intro h mode
    unfold plotStability
    rw [hkey _ h]; rfl
  · intro mode h
    unfold plotCum
    rw [hkey _ h]; rfl
  · intro e he e' he' mode hall hne
    have hs : seriesOf dyn mode = .ok (dyn.map fun e => theSeries mode e.2) := by
      refine mapM_const_ok _ _ _ fun e he => ?_
      obtain ⟨y, hy⟩ := Option.ne_none_iff_exists'.1 (hall e he)
      simp [Dict.getItem, theSeries, hy]
    have hplot : ∀ v : Str × Series K → List K, (∀ e, (v e).length = (theSeries mode e.2).length) →
        ∀ xl yl ti fi, (do
          let x ← arangeFirst (dyn.map v)
          plotResults x (dyn.map v) (Dict.keys dyn) xl yl ti fi none) = .error .valueError := by
      intro v hv xl yl ti fi
      obtain ⟨e0, l, rfl⟩ : ∃ e0 l, dyn = e0 :: l := by
        cases dyn with
        | nil => simp at he
        | cons e0 l => exact ⟨e0, l, rfl⟩
      have : arangeFirst ((e0 :: l).map v) = .ok (arange (v e0).length) := rfl
      rw [this]
      simp only [except_bind_ok]
      refine plot_unequal _ v _ ?_ _ _ _ _
      by_cases h0 : (v e).length = (v e0).length
      · refine ⟨e', he', ?_⟩
        rw [hv, hv] at *
        rw [← h0]
        exact fun h => hne h.symm
      · exact ⟨e, he, h0⟩
    have hc : ∀ e : Str × Series K, (cumsum (theSeries mode e.2)).length = (theSeries mode e.2).length :=
      fun e => by rw [cumsum_eq, prefixSums_length]
    refine ⟨?_, ?_, ?_⟩
    · unfold plotCum
      simp only [hs, except_bind_ok, List.map_map]
      exact hplot (fun e => cumsum (theSeries mode e.2)) hc _ _ _ _
    · rintro rfl
      unfold plotTime
      simp only [hs, except_bind_ok]
      rw [if_neg (by decide)]
      exact hplot (fun e => theSeries _ e.2) (fun _ => rfl) _ _ _ _
    · rintro rfl
      unfold plotStability
      simp only [hs, except_bind_ok]
      constructor
      · rw [if_neg (by decide)]
        exact hplot (fun e => theSeries _ e.2) (fun _ => rfl) _ _ _ _
      · rw [if_pos (by decide), List.map_map]
        exact hplot (fun e => cumsum (theSeries _ e.2)) hc _ _ _ _

/-! ### C117 -/

/-- The metric named by an axis label, as in `HR@5`. -/
def NamesMetric (metric label : Str) (topk : ℕ) : Prop := metric ++ ['@'] ++ natStr topk <:+ label

/-- **C117.** The labels of the hit-rate figures name the metric, but the stability figures are labelled with the
*mode* of the figure: `REGULAR@k` and `$\Delta$CUM@k`. Missing: the name `WJI` on the axis. -/
theorem C117_labels_partial [Field K] (topk w : ℕ) (dyn : Dict Str (Series K)) (extra : Str) (f : Figure K) :
    (plotCum topk dyn extra "hr".toList = .ok f → NamesMetric "HR".toList f.ylabel topk) ∧
    (plotSliding topk dyn w extra "hr".toList = .ok f → NamesMetric "HR".toList f.ylabel topk) ∧
    (plotCum topk dyn extra "mrr".toList = .ok f → NamesMetric "MRR".toList f.ylabel topk) ∧
    (plotSliding topk dyn w extra "mrr".toList = .ok f → NamesMetric "MRR".toList f.ylabel topk) ∧
    (plotStability topk dyn extra "regular".toList = .ok f →
      f.ylabel = "REGULAR@".toList ++ natStr topk) ∧
    (plotStability topk dyn extra "cum".toList = .ok f →
      f.ylabel = "$\\Delta$CUM@".toList ++ natStr topk) := by
  have hy : ∀ {x : List ℤ} {ys : List (List K)} {l xl yl ti fi ms}, plotResults x ys l xl yl ti fi ms = .ok f →
      f.ylabel = yl := by
    intro x ys l xl yl ti fi ms h
    unfold plotResults at h
    obtain ⟨cs, -, h⟩ := (bind_ok_iff _ _ _).1 h
    have h := Except.ok.inj h
    subst h
    rfl
  refine ⟨?_, ?_, ?_, ?_, ?_, ?_⟩
  · intro h
    obtain ⟨_, -, h⟩ := (bind_ok_iff _ _ _).1 h
    obtain ⟨_, -, h⟩ := (bind_ok_iff _ _ _).1 h
    rw [NamesMetric, hy h]
    exact ⟨_, rfl⟩
  · intro h
    obtain ⟨_, -, h⟩ := (bind_ok_iff _ _ _).1 h
    obtain ⟨_, -, h⟩ := (bind_ok_iff _ _ _).1 h
    rw [NamesMetric, hy h]
    exact ⟨[], rfl⟩
  · intro h
    obtain ⟨_, -, h⟩ := (bind_ok_iff _ _ _).1 h
    obtain ⟨_, -, h⟩ := (bind_ok_iff _ _ _).1 h
    rw [NamesMetric, hy h]
    exact ⟨_, rfl⟩
  · intro h
    obtain ⟨_, -, h⟩ := (bind_ok_iff _ _ _).1 h
    obtain ⟨_, -, h⟩ := (bind_ok_iff _ _ _).1 h
    rw [NamesMetric, hy h]
    exact ⟨[], rfl⟩
  · intro h
    obtain ⟨_, -, h⟩ := (bind_ok_iff _ _ _).1 h
    obtain ⟨_, -, h⟩ := (bind_ok_iff _ _ _).1 h
    rw [hy h]
    rfl
  · intro h
    obtain ⟨_, -, h⟩ := (bind_ok_iff _ _ _).1 h
    obtain ⟨_, -, h⟩ := (bind_ok_iff _ _ _).1 h
    rw [hy h]
    rfl

/-- **C117 is violated**: the axis of a stability figure does not name the metric. -/
theorem C117_violated : ∃ (dyn : Dict Str (Series ℚ)) (f : Figure ℚ),
    plotStability 5 dyn "steam_".toList "regular".toList = .ok f ∧ String.ofList f.ylabel = "REGULAR@5" ∧
    ¬ NamesMetric "WJI".toList f.ylabel 5 :=
  ⟨[("SVD".toList, [("wji".toList, [1 / 2, 1])])],
    ⟨"steam_stability.pdf".toList, "Time step".toList, "REGULAR@5".toList, "Stability of Recommendations".toList,
      [⟨[0, 1], [1 / 2, 1], "SVD".toList, "*".toList⟩]⟩, by decide +kernel, by decide +kernel,
    by unfold NamesMetric; decide +kernel⟩

/-! ### C118 -/

/-- The mean of a series as a cell. -/
def meanCell [Field K] (l : List K) : TableCell K := if l = [] then .nan else .num (l.sum / (l.length : K))

/-- **C118, columns.** A model whose file holds the four series gets their means (NaN for an empty one); a
missing file, or a file without one of them, gives dashes in all four rows, also for the series it has. -/
theorem C118_columns [Field K] (file : Option (Series K)) :
    (∀ s, file = some s → (∀ m ∈ tableMetrics, Dict.get? s m ≠ none) →
      tableColumn file = tableMetrics.map fun m => (m, meanCell (theSeries m s))) ∧
    ((∀ s, file = some s → ∃ m ∈ tableMetrics, Dict.get? s m = none) →
      tableColumn file = tableMetrics.map fun m => (m, .dash)) := by
  have hmean : ∀ l : List K, npMean l = meanCell l := by
    intro l
    unfold npMean meanCell
    by_cases h : l = []
    · simp [h]
    · rw [if_neg h, if_neg (by simpa using h)]
  constructor
  · rintro s rfl hall
    obtain ⟨a, ha⟩ := Option.ne_none_iff_exists'.1 (hall "hr".toList (by decide))
    obtain ⟨b, hb⟩ := Option.ne_none_iff_exists'.1 (hall "mrr".toList (by decide))
    obtain ⟨c, hc⟩ := Option.ne_none_iff_exists'.1 (hall "wji".toList (by decide))
    obtain ⟨d, hd⟩ := Option.ne_none_iff_exists'.1 (hall "calculation_time".toList (by decide))
    unfold tableColumn tableMetrics
    simp only [List.foldlM_cons, List.foldlM_nil, Dict.getItem, ha, hb, hc, hd, hmean, except_bind_ok]
    simp only [List.map_cons, List.map_nil, theSeries, ha, hb, hc, hd, Option.getD_some]
    rfl
  · intro h
    have hdash : tableMetrics.foldl (fun (d : Dict Str (TableCell K)) m => Dict.set d m .dash) [] =
        tableMetrics.map fun m => (m, .dash) := rfl
    cases file with
    | none => exact hdash
    | some s =>
      obtain ⟨m, hm, hn⟩ := h s rfl
      unfold tableColumn
      have : ∀ (l : List Str) (d : Dict Str (TableCell K)), m ∈ l → ∃ e, l.foldlM (fun d m => do
          let y ← Dict.getItem s m
          pure (Dict.set d m (npMean y))) d = (.error e : PyM (Dict Str (TableCell K))) := by
        intro l
        induction l with
        | nil => intro d hl; simp at hl
        | cons x l ih =>
          intro d hl
          rw [List.foldlM_cons]
          cases hx : Dict.getItem s x with
          | error e => exact ⟨e, rfl⟩
          | ok y =>
            rcases List.mem_cons.1 hl with rfl | hl
            · simp [Dict.getItem, hn] at hx
            · obtain ⟨e', he'⟩ := ih (Dict.set d x (npMean y)) hl
              exact ⟨e', he'⟩
      obtain ⟨e, he⟩ := this tableMetrics [] hm
      simp only [he]
      exact hdash

/-- **C118, agreement with the figures.** The last point of the cumulated line is the cell of the table times
the number of points. -/
theorem C118_agrees [Field K] [CharZero K] (y : List K) (hy : y ≠ []) :
    ∃ c, meanCell y = .num c ∧ (lineOf [] (prefixSums y)).y.getLast? = some (c * y.length) := by
  refine ⟨y.sum / (y.length : K), by simp [meanCell, hy], ?_⟩
  have hl : 0 < y.length := List.length_pos_of_ne_nil hy
  have hn : (y.length : K) ≠ 0 := by exact_mod_cast hl.ne'
  have : (prefixSums y).getLast? = some y.sum := by
    rw [List.getLast?_eq_getElem?, prefixSums_length]
    unfold prefixSums
    rw [List.getElem?_map, List.getElem?_range (by omega)]
    simp [show y.length - 1 + 1 = y.length by omega]
  rw [div_mul_cancel₀ _ hn]
  exact this

/-! ### Examples -/

def exResults : Dict Str (Series ℚ) :=
  [("SVD".toList, dynJson { times := [5, 1, 1], hr := [1 / 2, 1 / 4], mrr := [1 / 2, 1 / 8], wji := [1] }),
    ("PSIRec".toList, dynJson { times := [4, 1, 3], hr := [0, 1], mrr := [0, 1], wji := [1 / 3] })]

example : HasSeries exResults "hr".toList 2 ∧ HasSeries exResults "wji".toList 1 := by
  constructor
  · intro e he
    rcases List.mem_cons.1 he with rfl | he
    · exact ⟨[1 / 2, 1 / 4], rfl, rfl⟩
    · obtain rfl := List.mem_singleton.1 he
      exact ⟨[0, 1], rfl, rfl⟩
  · intro e he
    rcases List.mem_cons.1 he with rfl | he
    · exact ⟨[1], rfl, rfl⟩
    · obtain rfl := List.mem_singleton.1 he
      exact ⟨[1 / 3], rfl, rfl⟩
example : plotCum 5 exResults "steam_".toList "hr".toList = .ok ⟨"steam_cum_hr.pdf".toList, "Time step".toList,
    "$\\Delta$HR@5".toList, "HR metric dynamics (Cumulative)".toList,
    [⟨[0, 1], [1 / 2, 3 / 4], "SVD".toList, "*".toList⟩, ⟨[0, 1], [0, 1], "PSIRec".toList, "*".toList⟩]⟩ := by
  decide +kernel
example : plotSliding 5 exResults 2 "steam_".toList "hr".toList = .ok ⟨"steam_sw_2_hr.pdf".toList,
    "Time step".toList, "HR@5".toList, "HR metric dynamics (SW - 2)".toList,
    [⟨[0], [3 / 8], "SVD".toList, "*".toList⟩, ⟨[0], [1 / 2], "PSIRec".toList, "*".toList⟩]⟩ := by
  decide +kernel
example : (tableColumn (some (exResults.headD ([], [])).2)).map Prod.snd = [.num (3 / 8), .num (5 / 16), .num 1, .num (7 / 3)] :=
  by decide +kernel
example : (tableColumn (some [("hr".toList, [(1 : ℚ)])])).map Prod.snd = [.dash, .dash, .dash, .dash] := by
  decide +kernel

end DynCF
