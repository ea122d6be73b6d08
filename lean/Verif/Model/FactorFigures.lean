/-
Model of `plot_factors_dynamics` in `/repo/source/experiments/prepare_graphs.py`. No script calls it.
-/
import Verif.Model.Graphs

namespace DynCF
variable {K : Type}

/-- source/experiments/prepare_graphs.py:129-141: the figure of one mode; the axis label is the same for both. -/
def plotFactors (dyn : Dict Str (Series K)) (extra mode : Str) : PyM (Figure K) := do
  let ys ← seriesOf dyn mode
  let x ← arangeFirst ys
  plotResults x ys (Dict.keys dyn) "Time step".toList "$\\dfrac{\\|U_i - U_{i-1}\\|}{\\|U_i\\|}$".toList
    "Factors Dynamics".toList (extra ++ mode ++ ".pdf".toList) none

/-- source/experiments/prepare_graphs.py:122-141 `plot_factors_dynamics`: the figures that are saved, and the exception
that ends the function, if there is one. -/
def plotFactorsDynamics (dyn : Dict Str (Series K)) (extra : Str) : List (Figure K) × Option PyErr :=
  runFigures [plotFactors dyn extra "rnd_users".toList, plotFactors dyn extra "rnd_items".toList]

end DynCF
