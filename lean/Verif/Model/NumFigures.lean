/-
Model of the plots of `/repo/source/psi_experiments/psi_step_experiments.py`. A figure is a record of its labels and of what
is drawn; its appearance (sizes, colours, colour bars, the thinning of large surfaces) is left out.
-/
import Verif.Model.PsiExperiments
import Verif.Model.LatexText

namespace DynCF
variable {K : Type}

/-- One curve of `get_plot`. -/
structure NumCurve where
  x : List ℝ
  y : List ℝ
  label : Str

/-- One figure of `get_plot`. -/
structure NumFigure where
  xlabel : Str
  ylabel : Str
  title : Str
  curves : List NumCurve

/-- `np.linspace(start, stop, num)` of numpy 1.24.3 -/
noncomputable def linspace (start stop : ℝ) (num : ℕ) : List ℝ :=
  if num = 1 then [start]
  else (List.range num).map fun (i : ℕ) => (i : ℝ) * ((stop - start) / ((num : ℝ) - 1)) + start

/-- psi_step_experiments.py:296-302 `get_plot`; `ax.plot` refuses lists of different lengths. -/
noncomputable def getPlot (curves : List NumCurve) (xlabel ylabel title : Str) : PyM NumFigure := do
  let cs ← curves.mapM fun c => if c.x.length = c.y.length then .ok c else .error .valueError
  pure ⟨xlabel, ylabel, title, cs⟩

/-- psi_step_experiments.py:256-293 `compare_approximations` with `plot_bool=True`: the two figures, the two printed sums
and the returned results -/
noncomputable def compareWithPlots (la : LinAlg ℝ) (rng : Rng ℝ) (clock1 clock2 : ℕ → ℝ) (e : NumExp) (nSteps rank : ℕ) :
    PyM ((NumFigure × NumFigure) × (ℝ × ℝ) × (DynResult ℕ × DynResult ℕ)) := do
  let r ← compareApproximations la rng clock1 clock2 e nSteps rank
  let x := linspace e.t0 (e.t0 + ((nSteps : ℝ) - 1) * e.ss) nSteps
  let f1 ← getPlot [⟨x, r.1.times, "SVD".toList⟩, ⟨x, r.2.times, "PSI".toList⟩] "Timestamp".toList
    "Computational Time (sec)".toList "Computational Time Dynamics".toList
  let f2 ← getPlot [⟨x, r.1.errs, "SVD".toList⟩, ⟨x, r.2.errs, "PSI".toList⟩] "Timestamp".toList
    "Relative Error".toList "Relative Error Dynamics".toList
  pure ((f1, f2), (r.1.times.sum, r.2.times.sum), r)

/-- One panel of `plot_dynamics_2d`: an image of the matrix, `rows` downwards and `cols` to the right. -/
structure Panel (K : Type) where
  title : Str
  matrix : Mat K

/-- `f"A(t{idx})"` -/
def panelTitle (idx : ℕ) : Str := "A(t".toList ++ intStr idx ++ ")".toList

/-- Draw one after the other until an exception is raised. -/
def drawAll {α : Type} : List (PyM α) → List α × Option PyErr
  | [] => ([], none)
  | .error e :: _ => ([], some e)
  | .ok a :: l => (a :: (drawAll l).1, (drawAll l).2)

/-- `dynamics_list[idx]`; a matrix without entries is refused by the model. -/
def panelMatrix (l : List (Mat K)) (idx : ℕ) : PyM (Mat K) :=
  match l[idx]? with
  | none => .error .indexError
  | some a => if a.rows = 0 ∨ a.cols = 0 then .error .outOfModel else .ok a

/-- the values of `idx` in the two loops over `n_rows` rows and three columns -/
def panelIdx (nRows : ℕ) : List ℕ := (List.range nRows).flatMap fun i => (List.range 3).map fun j => i * 3 + j

/-- psi_step_experiments.py:311-318 `plot_dynamics_2d`: `plt.subplots` refuses zero rows, and with one row the array of axes
has one dimension, so that `axs[i, j]` raises `IndexError`. -/
def plotDynamics2d (l : List (Mat K)) : List (Panel K) × Option PyErr :=
  let nRows := l.length / 3
  if nRows = 0 then ([], some .valueError)
  else drawAll ((panelIdx nRows).map fun idx =>
    if nRows = 1 then .error .indexError
    else do
      let a ← panelMatrix l idx
      pure ⟨panelTitle idx, a⟩)

/-- One panel of `plot_dynamics_3d`: the points `(x, y, z)` of a surface, `x` labelled with the columns and `y` with the
rows. -/
structure Surface (K : Type) where
  title : Str
  points : List (ℕ × ℕ × K)

/-- psi_step_experiments.py:321-325: the points of the surface. `np.meshgrid` of the row numbers and the column numbers has
one row per column and one column per row of the matrix: `x[i, j] = j`, `y[i, j] = i`. `plot_surface` broadcasts the three
arrays. -/
def surfacePoints (a : Mat K) : PyM (List (ℕ × ℕ × K)) :=
  if a.rows = a.cols then
    .ok ((List.finRange a.rows).flatMap fun i => (List.finRange a.cols).map fun j => (j.val, i.val, a.val i j))
  else if h1 : a.rows = 1 then
    .ok ((List.finRange a.cols).flatMap fun i => (List.finRange a.cols).map fun j => (0, i.val, a.val ⟨0, by omega⟩ j))
  else if h1 : a.cols = 1 then
    .ok ((List.finRange a.rows).flatMap fun i => (List.finRange a.rows).map fun j => (j.val, 0, a.val i ⟨0, by omega⟩))
  else .error .valueError

/-- psi_step_experiments.py:320-338 `plot_dynamics_3d`: `add_subplot(2, 3, n)` refuses `n > 6`. -/
def plotDynamics3d (l : List (Mat K)) : List (Surface K) × Option PyErr :=
  drawAll ((panelIdx (l.length / 3)).map fun idx => do
    let a ← panelMatrix l idx
    if idx + 1 > 6 then .error .valueError
    else do
      let p ← surfacePoints a
      pure ⟨panelTitle idx, p⟩)

end DynCF
