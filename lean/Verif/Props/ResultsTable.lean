/- C151: the two printed tables of results. -/
import Verif.Model.ResultsTable
import Verif.Props.Graphs2
import Verif.Lemmas.Relabel
import Verif.Lemmas.Sort

namespace DynCF
variable {K : Type}

/-- What belongs into the table for a result file and a metric: the mean of the series if the file holds all four
series, otherwise a dash. -/
def CellFor [Field K] (file : Option (Series K)) (metric : Str) (c : TableCell K) : Prop :=
  (∃ s y, file = some s ∧ (∀ m ∈ tableMetrics, Dict.get? s m ≠ none) ∧ Dict.get? s metric = some y ∧
    ((y = [] ∧ c = .nan) ∨ (y ≠ [] ∧ c = .num (y.sum / (y.length : K))))) ∨
  ((∀ s, file = some s → ∃ m ∈ tableMetrics, Dict.get? s m = none) ∧ c = .dash)

/-- the cell of a column -/
def cellAt [Field K] (file : Option (Series K)) (metric : Str) : TableCell K := (Dict.get? (tableColumn file) metric).getD .nan

theorem tableColumn_cells [Field K] (file : Option (Series K)) :
    tableColumn file = tableMetrics.map (fun m => (m, cellAt file m)) ∧
    ∀ m ∈ tableMetrics, CellFor file m (cellAt file m) := by
  by_cases h : ∃ s, file = some s ∧ ∀ m ∈ tableMetrics, Dict.get? s m ≠ none
  · obtain ⟨s, hs, hall⟩ := h
    have h1 := (C118_columns file).1 s hs hall
    have h2 : ∀ m ∈ tableMetrics, cellAt file m = meanCell (theSeries m s) := by
      intro m hm
      unfold cellAt
      rw [h1]
      simp only [tableMetrics, List.mem_cons, List.not_mem_nil, or_false] at hm
      rcases hm with rfl | rfl | rfl | rfl <;> rfl
    refine ⟨?_, fun m hm => Or.inl ?_⟩
    · rw [h1]
      exact List.map_congr_left fun m hm => by rw [h2 m hm]
    · obtain ⟨y, hy⟩ := Option.ne_none_iff_exists'.1 (hall m hm)
      refine ⟨s, y, hs, hall, hy, ?_⟩
      rw [h2 m hm]
      unfold theSeries meanCell
      rw [hy, Option.getD_some]
      by_cases he : y = []
      · exact Or.inl ⟨he, if_pos he⟩
      · exact Or.inr ⟨he, if_neg he⟩
  · have h' : ∀ s, file = some s → ∃ m ∈ tableMetrics, Dict.get? s m = none := by
      intro s hs
      by_contra hn
      push Not at hn
      exact h ⟨s, hs, hn⟩
    have h1 := (C118_columns file).2 h'
    have h2 : ∀ m ∈ tableMetrics, cellAt file m = .dash := by
      intro m hm
      unfold cellAt
      rw [h1]
      simp only [tableMetrics, List.mem_cons, List.not_mem_nil, or_false] at hm
      rcases hm with rfl | rfl | rfl | rfl <;> rfl
    refine ⟨?_, fun m hm => Or.inr ⟨h', h2 m hm⟩⟩
    rw [h1]
    exact List.map_congr_left fun m hm => by rw [h2 m hm]

theorem tableFrame_eq [Field K] (files : Str → Str → Option (Series K)) (set : Str) :
    tableFrame files set = tableModels.map fun m => (m, tableMetrics.map fun i => (i, cellAt (files set m) i)) := by
  have : tableFrame files set = tableModels.map fun m => (m, tableColumn (files set m)) := rfl
  rw [this]
  exact List.map_congr_left fun m _ => by rw [(tableColumn_cells (files set m)).1]

theorem frame_index [Field K] (files : Str → Str → Option (Series K)) (set : Str) :
    frameIndex (tableFrame files set) = tableMetrics := by
  rw [tableFrame_eq]
  have : ((tableModels.map fun m => (m, tableMetrics.map fun i => (i, cellAt (files set m) i))).flatMap
      fun c => Dict.keys c.2) = tableModels.flatMap fun _ => tableMetrics := rfl
  unfold frameIndex
  rw [this]
  decide

/-- **C151, the first table.** It has sixteen rows, four for each data set in their order, labelled with data set and
metric; the entry of a row in the column of a model is the mean for this data set, model and metric (or a dash). -/
theorem C151_first [Field K] (files : Str → Str → Option (Series K)) :
    ∃ t, tableOne files = .ok t ∧
      t.map Prod.fst = tableSets.flatMap (fun s => tableMetrics.map fun m => (s, m)) ∧
      ∀ r ∈ t, List.Forall₂ (fun m c => CellFor (files r.1.1 m) r.1.2 c) tableModels r.2 := by
  have hrows : ∀ s, frameRows (tableFrame files s) =
      tableMetrics.map fun i => tableModels.map fun m => cellAt (files s m) i := by
    intro s
    unfold frameRows
    rw [frame_index, tableFrame_eq]
    rfl
  have ht : tableOne files = .ok (tableSets.flatMap fun s => tableMetrics.map fun i =>
      ((s, i), tableModels.map fun m => cellAt (files s m) i)) := by
    unfold tableOne
    simp only [List.flatMap_map, frame_index, hrows]
    rfl
  refine ⟨_, ht, ?_, ?_⟩
  · rfl
  · intro r hr
    obtain ⟨s, hs, hr⟩ := List.mem_flatMap.1 hr
    obtain ⟨i, hi, rfl⟩ := List.mem_map.1 hr
    rw [List.forall₂_map_right_iff]
    exact List.forall₂_same.2 fun m _ => (tableColumn_cells (files s m)).2 i hi

/-- the labels of the second table -/
def secondLabels : List (Str × Str) :=
  stableSort (fun a b => decide (a.1 < b.1 ∨ (a.1 = b.1 ∧ a.2 ≤ b.2)))
    (tableModels.flatMap fun m => tableMetrics.map fun i => (i, m))

theorem frame_cells [Field K] (files : Str → Str → Option (Series K)) (set : Str) :
    frameCells (tableFrame files set) = secondLabels.map fun l => (l, cellAt (files set l.2) l.1) := by
  unfold frameCells secondLabels
  rw [frame_index, tableFrame_eq, ← stableSort_map' _
    (fun a b : (Str × Str) × TableCell K => decide (a.1.1 < b.1.1 ∨ (a.1.1 = b.1.1 ∧ a.1.2 ≤ b.1.2)))
    (fun l : Str × Str => (l, cellAt (files set l.2) l.1))]
  · rfl
  · intro a b; rfl

theorem dict_get?_map {α β : Type} [DecidableEq α] (f : α → β) : ∀ (l : List α) (a : α), a ∈ l →
    Dict.get? (l.map fun x => (x, f x)) a = some (f a)
  | x :: l, a, h => by
    by_cases hx : x = a
    · subst hx; simp [Dict.get?]
    · have := dict_get?_map f l a ((List.mem_cons.1 h).resolve_left (Ne.symm hx))
      simpa [Dict.get?, hx] using this

theorem tableTwo_eq [Field K] (files : Str → Str → Option (Series K)) :
    tableTwo files = secondLabels.map fun l => (l, tableSets.map fun s => cellAt (files s l.2) l.1) := by
  unfold tableTwo
  simp only [frame_cells]
  have h : (((tableSets.map fun s => secondLabels.map fun l => (l, cellAt (files s l.2) l.1)).headD []).map Prod.fst) =
      secondLabels := by
    have h0 : ((tableSets.map fun s => secondLabels.map fun l => (l, cellAt (files s l.2) l.1)).headD []) =
        secondLabels.map fun l => (l, cellAt (files "ml_20m".toList l.2) l.1) := rfl
    rw [h0, List.map_map]
    exact List.map_id _
  rw [h]
  refine List.map_congr_left fun l hl => ?_
  rw [List.map_map]
  congr 1
  refine List.map_congr_left fun s _ => ?_
  show (Dict.get? (secondLabels.map fun l => (l, cellAt (files s l.2) l.1)) l).getD .nan = _
  rw [dict_get?_map (fun l : Str × Str => cellAt (files s l.2) l.1) _ _ hl]
  rfl

theorem second_labels : secondLabels.Pairwise (fun a b => a.1 < b.1 ∨ (a.1 = b.1 ∧ a.2 < b.2)) := by
  decide +kernel

/-- **C151, the second table.** It has one row for each metric and model, in alphabetical order; the entry in the column of
a data set is the mean for this data set, model and metric (or a dash). -/
theorem C151_second [Field K] (files : Str → Str → Option (Series K)) :
    ((tableTwo files).map Prod.fst).Nodup ∧
    (∀ l, l ∈ (tableTwo files).map Prod.fst ↔ l.1 ∈ tableMetrics ∧ l.2 ∈ tableModels) ∧
    ((tableTwo files).map Prod.fst).Pairwise (fun a b => a.1 < b.1 ∨ (a.1 = b.1 ∧ a.2 < b.2)) ∧
    ∀ r ∈ tableTwo files, List.Forall₂ (fun s c => CellFor (files s r.1.2) r.1.1 c) tableSets r.2 := by
  have hl : (tableTwo files).map Prod.fst = secondLabels := by
    rw [tableTwo_eq, List.map_map]
    exact List.map_id _
  have hm : ∀ l : Str × Str, l ∈ secondLabels ↔ l.1 ∈ tableMetrics ∧ l.2 ∈ tableModels := by
    intro l
    unfold secondLabels
    rw [mem_stableSort, List.mem_flatMap]
    constructor
    · rintro ⟨m, hm, h⟩
      obtain ⟨i, hi, rfl⟩ := List.mem_map.1 h
      exact ⟨hi, hm⟩
    · rintro ⟨h1, h2⟩
      exact ⟨l.2, h2, List.mem_map.2 ⟨l.1, h1, rfl⟩⟩
  rw [hl]
  refine ⟨by decide +kernel, hm, second_labels, ?_⟩
  rw [tableTwo_eq]
  intro r hr
  obtain ⟨l, hl', rfl⟩ := List.mem_map.1 hr
  rw [List.forall₂_map_right_iff]
  exact List.forall₂_same.2 fun s _ => (tableColumn_cells (files s l.2)).2 l.1 ((hm l).1 hl').1

/-! ### Examples -/

/-- two result files: SVD on the games and PSIRec on the books; the latter lacks its stabilities -/
def exFiles (s m : Str) : Option (Series ℚ) :=
  if s = "amz_g".toList ∧ m = "SVD".toList then
    some (dynJson { times := [5, 1, 1], hr := [1 / 2, 1 / 4], mrr := [1 / 2, 1 / 8], wji := [1] })
  else if s = "amz_b".toList ∧ m = "PSIRec".toList then some [("hr".toList, [1]), ("mrr".toList, [1])]
  else none

example : ∃ t, tableOne exFiles = .ok t ∧ t.length = 16 ∧
    t[4]? = some (("amz_b".toList, "hr".toList), [.dash, .dash, .dash, .dash, .dash, .dash]) ∧
    t[8]? = some (("amz_g".toList, "hr".toList), [.num (3 / 8), .dash, .dash, .dash, .dash, .dash]) :=
  ⟨_, rfl, by decide +kernel, by decide +kernel, by decide +kernel⟩
example : (tableTwo exFiles).length = 24 ∧
    (tableTwo exFiles)[0]? = some (("calculation_time".toList, "PSIRec".toList), [.dash, .dash, .dash, .dash]) ∧
    (tableTwo exFiles)[7]? = some (("hr".toList, "SVD".toList), [.dash, .dash, .num (3 / 8), .dash]) := by decide +kernel
example : CellFor (exFiles "amz_g".toList "SVD".toList) "hr".toList (.num (3 / 8)) :=
  Or.inl ⟨_, [1 / 2, 1 / 4], rfl, by decide +kernel, rfl, Or.inr ⟨by decide, by norm_num⟩⟩
example : CellFor (exFiles "amz_b".toList "PSIRec".toList) "hr".toList .dash :=
  Or.inr ⟨fun s h => ⟨"wji".toList, by decide, by
    have : s = [("hr".toList, [1]), ("mrr".toList, [1])] := (Option.some.inj h).symm
    subst this; decide +kernel⟩, rfl⟩

end DynCF
