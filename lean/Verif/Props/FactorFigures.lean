/- C177: the figures of the factor dynamics. -/
import Verif.Model.FactorFigures
import Verif.Props.Graphs3

namespace DynCF
variable {K : Type}

/-- the figure of one mode -/
def factorFigure (dyn : Dict Str (Series K)) (extra mode : Str) : Figure K :=
  ⟨extra ++ mode ++ ".pdf".toList, "Time step".toList, "$\\dfrac{\\|U_i - U_{i-1}\\|}{\\|U_i\\|}$".toList,
    "Factors Dynamics".toList, dyn.map fun e => lineOf e.1 (theSeries mode e.2)⟩

theorem plotFactors_ok {dyn : Dict Str (Series K)} {mode : Str} {n : ℕ} (hne : dyn ≠ []) (h : HasSeries dyn mode n)
    (extra : Str) : plotFactors dyn extra mode = .ok (factorFigure dyn extra mode) := by
  obtain ⟨h1, h2⟩ := seriesOf_ok dyn _ n h
  unfold plotFactors
  simp only [h1, except_bind_ok, arangeFirst_ok dyn _ n hne h2, plot_lines dyn _ n h2]
  rfl

/-- **C177, figures.** If all models have series of the same length for the users, and for the items, two figures are
saved in two files, the first with the series of the users, the second with those of the items, one line per model. -/
theorem C177_figures_partial {dyn : Dict Str (Series K)} {n m : ℕ} (hne : dyn ≠ []) (extra : Str)
    (hu : HasSeries dyn "rnd_users".toList n) (hi : HasSeries dyn "rnd_items".toList m) :
    ∃ fu fi, plotFactorsDynamics dyn extra = ([fu, fi], none) ∧
      fu.file = extra ++ "rnd_users.pdf".toList ∧ fi.file = extra ++ "rnd_items.pdf".toList ∧
      fu.curves = dyn.map (fun e => lineOf e.1 (theSeries "rnd_users".toList e.2)) ∧
      fi.curves = dyn.map (fun e => lineOf e.1 (theSeries "rnd_items".toList e.2)) := by
  refine ⟨factorFigure dyn extra "rnd_users".toList, factorFigure dyn extra "rnd_items".toList, ?_, ?_, ?_, rfl, rfl⟩
  · unfold plotFactorsDynamics
    rw [plotFactors_ok hne hu, plotFactors_ok hne hi]
    rfl
  · exact List.append_assoc _ _ _
  · exact List.append_assoc _ _ _

theorem plotFactors_label {dyn : Dict Str (Series K)} {extra mode : Str} {f : Figure K}
    (h : plotFactors dyn extra mode = .ok f) :
    f.ylabel = "$\\dfrac{\\|U_i - U_{i-1}\\|}{\\|U_i\\|}$".toList ∧ f.title = "Factors Dynamics".toList := by
  unfold plotFactors at h
  obtain ⟨ys, _, h⟩ := (bind_ok_iff _ _ _).1 h
  obtain ⟨x, _, h⟩ := (bind_ok_iff _ _ _).1 h
  unfold plotResults at h
  obtain ⟨cs, _, h⟩ := (bind_ok_iff _ _ _).1 h
  have h := Except.ok.inj h
  subst h
  exact ⟨rfl, rfl⟩

/-- **C177, violated.** Whatever the series are, the figure of the items has the label and the title of the figure of the
users: both name the user factors. -/
theorem C177_violated {dyn : Dict Str (Series K)} {extra : Str} {fu fi : Figure K} {e : Option PyErr}
    (h : plotFactorsDynamics dyn extra = ([fu, fi], e)) : fi.ylabel = fu.ylabel ∧ fi.title = fu.title ∧
      fi.ylabel = "$\\dfrac{\\|U_i - U_{i-1}\\|}{\\|U_i\\|}$".toList := by
  unfold plotFactorsDynamics at h
  cases h1 : plotFactors dyn extra "rnd_users".toList with
  | error e1 => rw [h1] at h; cases h
  | ok f1 =>
    cases h2 : plotFactors dyn extra "rnd_items".toList with
    | error e2 => rw [h1, h2] at h; cases h
    | ok f2 =>
      rw [h1, h2] at h
      have e : [f1, f2] = [fu, fi] := congrArg Prod.fst h
      have eu := (List.cons.inj e).1
      have ei := (List.cons.inj (List.cons.inj e).2).1
      rw [← eu, ← ei]
      have l1 := plotFactors_label h1
      have l2 := plotFactors_label h2
      exact ⟨l2.1.trans l1.1.symm, l2.2.trans l1.2.symm, l2.1⟩

/-- **C177, refusals.** Without a model there is an `IndexError`; a first model without the series of the users is a
`KeyError`. In both cases nothing is saved. If only the items fail, the figure of the users is saved. -/
theorem C177_errors (extra : Str) :
    plotFactorsDynamics ([] : Dict Str (Series K)) extra = ([], some .indexError) ∧
    (∀ (dyn : Dict Str (Series K)) (name : Str) (s : Series K), Dict.get? s "rnd_users".toList = none →
      plotFactorsDynamics ((name, s) :: dyn) extra = ([], some .keyError)) ∧
    (∀ (dyn : Dict Str (Series K)) (name : Str) (s : Series K) (n : ℕ),
      HasSeries ((name, s) :: dyn) "rnd_users".toList n → Dict.get? s "rnd_items".toList = none →
      ∃ fu, plotFactorsDynamics ((name, s) :: dyn) extra = ([fu], some .keyError) ∧
        fu.curves = ((name, s) :: dyn).map fun e => lineOf e.1 (theSeries "rnd_users".toList e.2)) := by
  have hkey : ∀ (dyn : Dict Str (Series K)) (name : Str) (s : Series K) (mode : Str), Dict.get? s mode = none →
      plotFactors ((name, s) :: dyn) extra mode = .error .keyError := by
    intro dyn name s mode h
    unfold plotFactors seriesOf
    rw [List.mapM_cons]
    simp only [Dict.getItem, h]
    rfl
  refine ⟨rfl, fun dyn name s h => ?_, fun dyn name s n hu h => ?_⟩
  · unfold plotFactorsDynamics
    rw [hkey _ _ _ _ h]
    rfl
  · refine ⟨factorFigure ((name, s) :: dyn) extra "rnd_users".toList, ?_, rfl⟩
    unfold plotFactorsDynamics
    rw [hkey _ _ _ _ h, plotFactors_ok (List.cons_ne_nil _ _) hu]
    rfl

/-! ### Examples -/

/-- two models with two recorded steps -/
def exFactorSeries : Dict Str (Series ℚ) :=
  [("SVD".toList, [("rnd_users".toList, [1, 2]), ("rnd_items".toList, [3, 4])]),
   ("PSIRec".toList, [("rnd_users".toList, [5, 6]), ("rnd_items".toList, [7, -1])])]

example : HasSeries exFactorSeries "rnd_users".toList 2 ∧ HasSeries exFactorSeries "rnd_items".toList 2 := by
  constructor
  · intro e he
    simp only [exFactorSeries, List.mem_cons, List.not_mem_nil, or_false] at he
    rcases he with rfl | rfl
    · exact ⟨[1, 2], rfl, rfl⟩
    · exact ⟨[5, 6], rfl, rfl⟩
  · intro e he
    simp only [exFactorSeries, List.mem_cons, List.not_mem_nil, or_false] at he
    rcases he with rfl | rfl
    · exact ⟨[3, 4], rfl, rfl⟩
    · exact ⟨[7, -1], rfl, rfl⟩
example : ((plotFactorsDynamics exFactorSeries "x_".toList).1.map fun f => f.curves.map fun c => c.y) =
    [[[1, 2], [5, 6]], [[3, 4], [7, -1]]] := by decide +kernel

end DynCF
