/- Model of `generate_matrix` (`/repo/source/matrix_operations.py:87-104`) and of the experiments of
`/repo/source/psi_experiments/psi_step_experiments.py` (without the plotting functions).

Measured times are values of a parameter `clock`; the matrices drawn by numpy are parameters. -/
import Verif.Model.MatrixOps
import Verif.Model.SplitMatrix
import Verif.Model.Psi
import Mathlib.Analysis.SpecialFunctions.Exp

namespace DynCF
variable {K : Type}

/-- The three draws of `generate_matrix` (`randn(n_rows, rank)`, `randn(n_cols, rank)`, `randn(rank)`). -/
structure GenDraws (K : Type) where
  a : Rng K
  b : Rng K
  s : (n : ℕ) → Fin n → K

/-- matrix_operations.py:87-104 `generate_matrix`; the seed is part of the draws. -/
def generateMatrix [CommRing K] (la : LinAlg K) (d : GenDraws K) (nRows nCols rank : ℕ) :
    PyM (Mat K) :=
  let q1 := (la.qrM ⟨nRows, rank, d.a nRows rank⟩).1
  let q2 := (la.qrM ⟨nCols, rank, d.b nCols rank⟩).1
  svd2mtx q1 ⟨rank, d.s rank⟩ q2.T

/-- The dictionary built by psi_step_experiments.py:22-29 `_get_experimental_results`; `steps` is
`shape_dynamics` (shapes, or time stamps in the PSI experiments). -/
structure DynResult (σ : Type) where
  times : List ℝ
  errs : List ℝ
  size : ℕ
  rank : ℕ
  steps : List σ

/-- `u, s, vt` with a 1-D `s` -/
abbrev Triple := Mat ℝ × Vec ℝ × Mat ℝ

/-- A function passed as `triple_func`: step, axis, previous factors, target matrix, chunk, rank.
(Its parameters `n_power_iter`, `oversampling_factor`, `seed` are fixed beforehand.) -/
abbrev TripleFn := ℕ → Option ℤ → Option Triple → Mat ℝ → Mat ℝ → ℕ → PyM Triple

/-- psi_step_experiments.py:32-34 `get_svd_triple` -/
def getSvdTriple (la : LinAlg ℝ) (rng : Rng ℝ) (nPower os : ℕ) : TripleFn :=
  fun _ _ _ target _ rank => .ok (randomSvd la rng target rank nPower os)

/-- `(vt.T, s, u.T)` -/
def flipTriple (t : Triple) : Triple := (t.2.2.T, t.2.1, t.1.T)

/-- psi_step_experiments.py:36-47 `get_incremental_svd_triple`. The factors are `None` only in step 0;
`None.shape` would be an `AttributeError`. -/
noncomputable def getIncrementalSvdTriple (la : LinAlg ℝ) (rng : Rng ℝ) (nPower os : ℕ) : TripleFn :=
  fun step axis prev _ chunk rank =>
    if step = 0 then .ok (randomSvd la rng chunk rank nPower os)
    else match prev with
      | none => .error .attributeError
      | some t =>
        if axis = some 0 then do
          let f := flipTriple t
          let r ← updateSvdNewVectors la rng f.1 (.vec f.2.1.len f.2.1.val) f.2.2 chunk.T nPower os
          pure (flipTriple r)
        else updateSvdNewVectors la rng t.1 (.vec t.2.1.len t.2.1.val) t.2.2 chunk nPower os

/-- psi_step_experiments.py:90-96 `get_incremental_svd_triple_block`; `update_svd_new_submatrix` is
called with its default parameters and returns a 1-D `s` for a 1-D `s`. -/
noncomputable def getIncrementalSvdTripleBlock (la : LinAlg ℝ) (rng : Rng ℝ) (argsort : ArgSort ℝ)
    (nPower os : ℕ) : TripleFn :=
  fun step _ prev _ chunk rank =>
    if step = 0 then .ok (randomSvd la rng chunk rank nPower os)
    else match prev with
      | none => .error .attributeError
      | some t => do
        let r ← updateSvdNewSubmatrix la rng argsort t.1 (.vec t.2.1.len t.2.1.val) t.2.2 chunk nPower os
        match r.2.1 with
        | .vec n s => pure (r.1, ⟨n, s⟩, r.2.2)
        | .mat _ => .error .outOfModel

/-- `np.concatenate([a, b], axis=0)` -/
def Mat.vcat (A B : Mat K) : PyM (Mat K) := do
  let r ← A.T.hcat B.T
  pure r.T

/-- `np.concatenate([a, b], axis=axis)`; another axis is an error of the class `ValueError` -/
def Mat.concat (A B : Mat K) (axis : ℤ) : PyM (Mat K) :=
  if axis = 0 ∨ axis = -2 then A.vcat B
  else if axis = 1 ∨ axis = -1 then A.hcat B
  else .error .valueError

/-- The body shared by the loops of `get_dynamics_vec` and `get_dynamics_mtx` (psi_step_experiments.py:58-67, 108-117) after the target matrix is known: the factors, the error and the shape. -/
noncomputable def dynRecord (f : TripleFn) (axis : Option ℤ) (rank i : ℕ) (prev : Option Triple)
    (target chunk : Mat ℝ) : PyM (Triple × ℝ × (ℕ × ℕ)) := do
  let t ← f i axis prev target chunk rank
  let p ← svd2mtx t.1 t.2.1 t.2.2
  let e ← sqrtErrRelativeMtx p target
  pure (t, e, (target.rows, target.cols))

/-- psi_step_experiments.py:60: the chunk itself in the first step, later the previous target matrix with the
chunk appended -/
def nextTarget (axis : ℤ) (target : Option (Mat K)) (c : Mat K) : PyM (Mat K) :=
  match target with
  | none => .ok c
  | some t => t.concat c axis

/-- psi_step_experiments.py:58-67: the loop over the chunks; `target_matrix` is the previous one with
the chunk appended (the chunk itself in the first step). -/
noncomputable def dynVecLoop (f : TripleFn) (axis : ℤ) (rank : ℕ) :
    ℕ → Option Triple → Option (Mat ℝ) → List (Mat ℝ) → PyM (List (ℝ × (ℕ × ℕ)))
  | _, _, _, [] => .ok []
  | i, prev, target, c :: cs => do
    let tm ← nextTarget axis target c
    let r ← dynRecord f (some axis) rank i prev tm c
    let rest ← dynVecLoop f axis rank (i + 1) (some r.1) (some tm) cs
    pure (r.2 :: rest)

/-- psi_step_experiments.py:49-69 `get_dynamics_vec` -/
noncomputable def getDynamicsVec (la : LinAlg ℝ) (d : GenDraws ℝ) (clock : ℕ → ℝ) (size rank : ℕ)
    (ratioFirst ratioNext : ℝ) (axis : ℤ) (f : TripleFn) : PyM (DynResult (ℕ × ℕ)) := do
  let c ← generateMatrix la d size size rank
  let chunks ← splitMatrix c ratioFirst ratioNext axis
  let rec_ ← dynVecLoop f axis rank 0 none none chunks
  pure ⟨(List.range rec_.length).map clock, rec_.map Prod.fst, size, rank, rec_.map Prod.snd⟩

/-- `mtx[i0:i1, j0:j1]` -/
def Mat.slice2 (A : Mat K) (i0 i1 j0 j1 : ℤ) : Mat K := ((A.rowSlice i0 i1).T.rowSlice j0 j1).T

/-- psi_step_experiments.py:72-88 `split_mtx_block_diag`; `//` with a zero step raises
`ZeroDivisionError`. The block number `k` starts at `ind_first + k * step`. -/
def splitMtxBlockDiag [Field K] [LinearOrder K] [FloorRing K] (A : Mat K)
    (ratioFirst ratioNext : K) : PyM (List (Mat K)) :=
  let indFirst := pyInt ((A.cols : K) * ratioFirst)
  let step := pyInt ((((A.cols : ℤ) - indFirst : ℤ) : K) * ratioNext)
  if step = 0 then .error .zeroDivisionError
  else
    let nSteps := Int.fdiv ((A.cols : ℤ) - indFirst) step
    .ok (A.slice2 0 indFirst 0 indFirst :: (List.range nSteps.toNat).map fun (k : ℕ) =>
      A.slice2 (indFirst + k * step) (indFirst + k * step + step)
        (indFirst + k * step) (indFirst + k * step + step))

/-- `scipy.linalg.block_diag(*mats)`; only called with at least two matrices -/
def blockDiagList [Zero K] : List (Mat K) → Mat K
  | [] => ⟨0, 0, 0⟩
  | A :: l => l.foldl Mat.blockDiag A

/-- psi_step_experiments.py:108-117: the loop; the target matrix of step `i` is `block_diag` of the first
`i + 1` chunks. -/
noncomputable def dynMtxLoop (f : TripleFn) (rank : ℕ) (all : List (Mat ℝ)) :
    ℕ → Option Triple → List (Mat ℝ) → PyM (List (ℝ × (ℕ × ℕ)))
  | _, _, [] => .ok []
  | i, prev, c :: cs => do
    let tm := if i = 0 then c else blockDiagList (all.take (i + 1))
    let r ← dynRecord f none rank i prev tm c
    let rest ← dynMtxLoop f rank all (i + 1) (some r.1) cs
    pure (r.2 :: rest)

/-- psi_step_experiments.py:103 `max(int(rank // (1 / ratio_next + 1)), 1)`; a zero ratio or
`ratio_next = -1` divides by zero. -/
def smallRank [Field K] [LinearOrder K] [FloorRing K] (rank : ℕ) (ratioNext : K) : PyM ℤ :=
  if ratioNext = 0 then .error .zeroDivisionError
  else if 1 / ratioNext + 1 = 0 then .error .zeroDivisionError
  else .ok (max ⌊(rank : K) / (1 / ratioNext + 1)⌋ 1)

/-- psi_step_experiments.py:98-119 `get_dynamics_mtx` -/
noncomputable def getDynamicsMtx (la : LinAlg ℝ) (d : GenDraws ℝ) (clock : ℕ → ℝ) (size rank : ℕ)
    (ratioFirst ratioNext : ℝ) (f : TripleFn) : PyM (DynResult (ℕ × ℕ)) := do
  let small ← smallRank rank ratioNext
  let c ← generateMatrix la d size size small.toNat
  let chunks ← splitMtxBlockDiag c ratioFirst ratioNext
  let rec_ ← dynMtxLoop f rank chunks 0 none chunks
  pure ⟨(List.range rec_.length).map clock, rec_.map Prod.fst, size, rank, rec_.map Prod.snd⟩

/-- psi_step_experiments.py:122-135 `svd_step` of this file: as in random_svd.py, but the singular values
of `svds` are not reversed. -/
def svdStepExp (la : LinAlg ℝ) (rng : Rng ℝ) (a : SvdArg ℝ) (rank nPower os : ℕ) : PyM Triple :=
  match a with
  | .csr A =>
    if 1 ≤ rank ∧ rank < min A.rows A.cols then
      let d := la.svds rank A.val
      .ok (⟨_, _, d.1⟩, ⟨rank, d.2.1⟩, ⟨_, _, d.2.2⟩)
    else .error .valueError
  | .dense A => .ok (randomSvd la rng A rank nPower os)
  | .other => .error .valueError

/-- psi_step_experiments.py:137-149 `get_svd_dynamics` on dense matrices (`SVD_PARAMS`: one power
iteration, oversampling 2, seed 13); after an empty list `mtx` is unbound. -/
noncomputable def getSvdDynamics (la : LinAlg ℝ) (rng : Rng ℝ) (clock : ℕ → ℝ) (dyn : List (Mat ℝ))
    (rank : ℕ) : PyM (DynResult ℕ) := do
  let errs ← dyn.mapM fun a => do
    let t ← svdStepExp la rng (.dense a) rank 1 2
    let p ← svd2mtx t.1 t.2.1 t.2.2
    sqrtErrRelativeMtx p a
  match dyn.getLast? with
  | none => .error .unboundLocalError
  | some a => pure ⟨(List.range errs.length).map clock, errs, a.rows, rank, List.range errs.length⟩

/-- psi_step_experiments.py:166-173: the steps `i ≥ 1` of `get_psi_dynamics`; `prev` is `a_i0`. -/
noncomputable def psiDynLoop (la : LinAlg ℝ) : Mat ℝ × Mat ℝ × Mat ℝ → Mat ℝ → List (Mat ℝ) → PyM (List ℝ)
  | _, _, [] => .ok []
  | f, prev, a :: l => do
    let da ← a.sub prev
    let g ← psiStep la f.1 (.mat f.2.1) f.2.2 da
    let sv ← g.2.1.dot g.2.2
    let p ← g.1.dot sv
    let e ← sqrtErrRelativeMtx p a
    let rest ← psiDynLoop la g a l
    pure (e :: rest)

/-- psi_step_experiments.py:151-174 `get_psi_dynamics` on dense matrices; on an empty list `a_i0` is unbound. -/
noncomputable def getPsiDynamics (la : LinAlg ℝ) (rng : Rng ℝ) (clock : ℕ → ℝ) (dyn : List (Mat ℝ))
    (rank : ℕ) : PyM (DynResult ℕ) :=
  match dyn with
  | [] => .error .unboundLocalError
  | a :: l => do
    let t ← svdStepExp la rng (.dense a) rank 1 2
    let p ← svd2mtx t.1 t.2.1 t.2.2
    let e ← sqrtErrRelativeMtx p a
    let es ← psiDynLoop la (t.1, Mat.diag t.2.1.val, t.2.2) a l
    pure ⟨(List.range (es.length + 1)).map clock, e :: es, ((a :: l).getLast (by simp)).rows, rank,
      List.range (es.length + 1)⟩

/-- `seed → number of the draw → rand(m, n)` -/
abbrev SeededRng := ℤ → ℕ → Rng ℝ

/-- psi_step_experiments.py:200-215 `_get_const_mtx`: a small random matrix plus a random block with raised
diagonal in the upper left corner. A block that is not square or does not fit raises `ValueError`
(an empty matrix with a non-empty block is refused). -/
noncomputable def getConstMtx (draw : SeededRng) (shape block : ℕ × ℕ) (eps epsBlock : ℝ) (seed : ℤ) :
    PyM (Mat ℝ) :=
  if block.1 ≠ block.2 then .error .valueError
  else if block.1 ≤ shape.1 ∧ block.2 ≤ shape.2 then
    let a0 : Matrix (Fin block.1) (Fin block.2) ℝ := Matrix.of fun i j =>
      epsBlock * draw seed 0 block.1 block.2 i j + if (i : ℕ) = j then 1 else 0
    .ok ⟨shape.1, shape.2, Matrix.of fun i j =>
      eps * draw seed 1 shape.1 shape.2 i j +
        if h : (i : ℕ) < block.1 ∧ (j : ℕ) < block.2 then a0 ⟨i, h.1⟩ ⟨j, h.2⟩ else 0⟩
  else if shape.1 = 0 ∨ shape.2 = 0 then .error .outOfModel
  else .error .valueError

/-- psi_step_experiments.py:217-225 `_get_skew_symmetric` -/
noncomputable def getSkewSymmetric (draw : SeededRng) (shape : ℕ × ℕ) (scale : ℝ) (seed : ℤ) :
    PyM (Mat ℝ) := do
  let a : Mat ℝ := ⟨shape.1, shape.2, Matrix.of fun i j => scale * draw seed 0 shape.1 shape.2 i j⟩
  let d ← a.sub a.T
  pure ⟨d.rows, d.cols, Matrix.of fun i j => (1 / 2 : ℝ) * d.val i j⟩

/-- The attributes of `NumericalExperiment` set by `__init__`. -/
structure NumExp where
  t0 : ℝ
  ss : ℝ
  size : ℕ
  a1 : Mat ℝ
  a2 : Mat ℝ
  t1 : Mat ℝ
  t2 : Mat ℝ

/-- psi_step_experiments.py:177-198 `NumericalExperiment.__init__` -/
noncomputable def numExpInit (draw : SeededRng) (t0 stepSize : ℝ) (size blockSize : ℕ)
    (eps epsBlock : ℝ) (seed : ℤ) : PyM NumExp := do
  let a1 ← getConstMtx draw (size, size) (blockSize, blockSize) eps epsBlock (seed + 1)
  let a2 ← getConstMtx draw (size, size) (blockSize, blockSize) eps epsBlock (seed + 2)
  let t1 ← getSkewSymmetric draw (size, size) 1 (seed + 1)
  let t2 ← getSkewSymmetric draw (size, size) 1 (seed + 2)
  pure ⟨t0, stepSize, size, a1, a2, t1, t2⟩

/-- psi_step_experiments.py:227-231 `_step` -/
noncomputable def numExpStep (x : NumExp) (t : ℝ) (q1 q2 : Mat ℝ) : PyM (Mat ℝ) := do
  let a3 ← x.a1.add ⟨x.a2.rows, x.a2.cols, Matrix.of fun i j => Real.exp t * x.a2.val i j⟩
  let b ← q1.dot a3
  b.dot q2.T

/-- psi_step_experiments.py:233-242 `_solve_ivp`; `diag_indices_from` needs a square matrix. -/
noncomputable def solveIvp (q : Mat ℝ) (h : ℝ) (mix : Mat ℝ) : PyM (Mat ℝ) :=
  if mix.rows ≠ mix.cols then .error .valueError
  else
    Mat.dot ⟨mix.rows, mix.cols, Matrix.of fun i j =>
      h * mix.val i j + if (i : ℕ) = j then 1 else 0⟩ q

/-- psi_step_experiments.py:249-253: the loop -/
noncomputable def numExpLoop (x : NumExp) : ℕ → ℝ → Mat ℝ → Mat ℝ → PyM (List (Mat ℝ))
  | 0, _, _, _ => .ok []
  | n + 1, t, q1, q2 => do
    let a ← numExpStep x t q1 q2
    let q1' ← solveIvp q1 x.ss x.t1
    let q2' ← solveIvp q2 x.ss x.t2
    let rest ← numExpLoop x n (t + x.ss) q1' q2'
    pure (a :: rest)

/-- psi_step_experiments.py:244-254 `get_dynamics_list` -/
noncomputable def getDynamicsList (x : NumExp) (nSteps : ℕ) : PyM (List (Mat ℝ)) :=
  numExpLoop x nSteps x.t0 (Mat.eye x.size) (Mat.eye x.size)

/-- psi_step_experiments.py:256-258, 293 `compare_approximations` without plots -/
noncomputable def compareApproximations (la : LinAlg ℝ) (rng : Rng ℝ) (clock1 clock2 : ℕ → ℝ) (x : NumExp)
    (nSteps rank : ℕ) : PyM (DynResult ℕ × DynResult ℕ) := do
  let l ← getDynamicsList x nSteps
  let s ← getSvdDynamics la rng clock1 l rank
  let p ← getPsiDynamics la rng clock2 l rank
  pure (s, p)

end DynCF
