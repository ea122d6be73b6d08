/-
Model of `/repo/source/tensor_operations.py`. Floats are elements of a commutative ring / field.
COO data is a list of index triples `inds` and a list of values `vals`.
-/
import Verif.Py.Array
import Mathlib.Data.List.FinRange
import Mathlib.Analysis.Real.Sqrt

namespace DynCF
variable {K : Type}

/-- entries of a 3-way array with known dimensions -/
abbrev T3 (n0 n1 n2 : ℕ) (K : Type) := Fin n0 → Fin n1 → Fin n2 → K

/-- rows of `inds` for a 3-way tensor -/
abbrev Ind3 := ℤ × ℤ × ℤ

/-- `coords[mode]` for `mode` 0, 1, 2 (a larger value never occurs in the code) -/
def Ind3.at (c : Ind3) : ℕ → ℤ
  | 0 => c.1
  | 1 => c.2.1
  | _ => c.2.2

/-- `shape[mode]` for a triple -/
def shapeAt (s : ℕ × ℕ × ℕ) : ℕ → ℕ
  | 0 => s.1
  | 1 => s.2.1
  | _ => s.2.2

/-- `mode_a, mode_b = modes[modes != mode]` with `modes = np.arange(3)`: any other `mode` leaves
three elements and the unpacking raises `ValueError`. -/
def otherModes (mode : ℤ) : PyM (ℕ × ℕ) :=
  if mode = 0 then .ok (1, 2) else if mode = 1 then .ok (0, 2) else if mode = 2 then .ok (0, 1)
  else .error .valueError

/-- `for ind in range(len(vals)): ... inds[ind] ... vals[ind]`: the pairs visited; `IndexError`
when `inds` is shorter. -/
def cooEntries (inds : List Ind3) (vals : List K) : PyM (List (Ind3 × K)) :=
  if vals.length ≤ inds.length then .ok (inds.zip vals) else .error .indexError

/-- `scipy.sparse.coo_matrix((vals, (rows, cols)), shape=(m, n))`, represented by the matrix it
denotes: repeated coordinates add up; a coordinate outside the shape raises `ValueError`. -/
def cooMatrix [AddMonoid K] (es : List (ℤ × ℤ × K)) (m n : ℕ) : PyM (Mat K) :=
  if es.all (fun e => decide (0 ≤ e.1 ∧ e.1 < m ∧ 0 ≤ e.2.1 ∧ e.2.1 < n)) then
    .ok ⟨m, n, Matrix.of fun i j =>
      ((es.filter fun e => decide (e.1 = (i : ℤ) ∧ e.2.1 = (j : ℤ))).map fun e => e.2.2).sum⟩
  else .error .valueError

/-- `inds[:, c]` of an array with `nCols` columns: `IndexError` if there is no such column, also without rows -/
def indCol {nCols : ℕ} (inds : List (Fin nCols → ℤ)) (c : ℕ) : PyM (List ℤ) :=
  if h : c < nCols then .ok (inds.map fun r => r ⟨c, h⟩) else .error .indexError

/-- tensor_operations.py:12-35 `unfold_sparse`; `nCols` is `inds.shape[1]`. -/
def unfoldSparse [AddMonoid K] {nCols : ℕ} (inds : List (Fin nCols → ℤ)) (vals : List K)
    (shape : ℕ × ℕ × ℕ) (mode : ℤ) : PyM (Mat K) :=
  if inds.length ≠ vals.length then .error .runtimeError
  else if mode ≥ nCols ∨ mode < 0 then .error .runtimeError
  else if nCols > 3 then .error .notImplementedError
  else do
    let (a, b) ← otherModes mode
    let rows ← indCol inds mode.toNat
    let ca ← indCol inds a
    let cb ← indCol inds b
    let cols := (ca.zip cb).map fun p => p.1 + (shapeAt shape a : ℤ) * p.2
    cooMatrix (rows.zip (cols.zip vals)) (shapeAt shape mode.toNat) (shapeAt shape a * shapeAt shape b)

/-- `tensor.transpose(0, 2, 1)` -/
def Ten.transpose021 (t : Ten K) : Ten K := ⟨t.d0, t.d2, t.d1, fun i j k => t.val i k j⟩
/-- `tensor.transpose(1, 2, 0)` -/
def Ten.transpose120 (t : Ten K) : Ten K := ⟨t.d1, t.d2, t.d0, fun i j k => t.val k i j⟩
/-- `tensor.transpose(2, 1, 0)` -/
def Ten.transpose210 (t : Ten K) : Ten K := ⟨t.d2, t.d1, t.d0, fun i j k => t.val k j i⟩
/-- `tensor.transpose(2, 0, 1)` -/
def Ten.transpose201 (t : Ten K) : Ten K := ⟨t.d2, t.d0, t.d1, fun i j k => t.val j k i⟩

/-- `t.reshape(d0, d1*d2)` of a `(d0, d1, d2)` array (C order: the last index runs fastest) -/
def Ten.reshape2 (t : Ten K) : Mat K :=
  ⟨t.d0, t.d1 * t.d2, Matrix.of fun i c =>
    t.val i (finProdFinEquiv.symm c).1 (finProdFinEquiv.symm c).2⟩

/-- `mtx.reshape(a, b, c)` (C order); different sizes raise `ValueError` -/
def Mat.reshape3 (M : Mat K) (a b c : ℕ) : PyM (Ten K) :=
  if h : M.rows * M.cols = a * b * c then
    .ok ⟨a, b, c, fun i j k =>
      let p := finProdFinEquiv.symm
        (Fin.cast h.symm (finProdFinEquiv (finProdFinEquiv (i, j), k)))
      M.val p.1 p.2⟩
  else .error .valueError

/-- tensor_operations.py:37-47 `unfold_dense` -/
def unfoldDense (t : Ten K) (mode : ℤ) : PyM (Mat K) :=
  if mode = 0 then .ok t.transpose021.reshape2
  else if mode = 1 then .ok t.transpose120.reshape2
  else if mode = 2 then .ok t.transpose210.reshape2
  else .error .valueError

/-- tensor_operations.py:49-60 `fold_dense` -/
def foldDense (M : Mat K) (shape : ℕ × ℕ × ℕ) (mode : ℤ) : PyM (Ten K) :=
  if mode = 0 then do
    let x ← M.reshape3 shape.1 shape.2.2 shape.2.1
    pure x.transpose021
  else if mode = 1 then do
    let x ← M.reshape3 shape.2.1 shape.2.2 shape.1
    pure x.transpose201
  else if mode = 2 then do
    let x ← M.reshape3 shape.2.2 shape.2.1 shape.1
    pure x.transpose210
  else .error .valueError

/-- `core[i, j, k] += x` -/
def addAt [Add K] {n0 n1 n2 : ℕ} (t : T3 n0 n1 n2 K) (i : Fin n0) (j : Fin n1) (k : Fin n2)
    (x : K) : T3 n0 n1 n2 K :=
  fun a b c => if a = i ∧ b = j ∧ c = k then t a b c + x else t a b c

section loops
variable [Zero K] [Add K] [Mul K]

/-- tensor_operations.py:89-94: the three loops for one entry -/
def coreEntryLoops {r1 r2 r3 : ℕ} (v : K) (a : Fin r1 → K) (b : Fin r2 → K) (c : Fin r3 → K)
    (core : T3 r1 r2 r3 K) : T3 r1 r2 r3 K :=
  (List.finRange r1).foldl (fun core i =>
    (List.finRange r2).foldl (fun core j =>
      (List.finRange r3).foldl (fun core k => addAt core i j k (v * a i * b j * c k)) core) core) core

/-- the rows `u1[i1]`, `u2[i2]`, `u3[i3]` used by one entry (lines 80-87) -/
def coreRows (u1 u2 u3 : Mat K) (e : Ind3 × K) :
    PyM ((Fin u1.cols → K) × (Fin u2.cols → K) × (Fin u3.cols → K)) := do
  let a ← u1.row e.1.1
  let b ← u2.row e.1.2.1
  let c ← u3.row e.1.2.2
  pure (a, b, c)

/-- tensor_operations.py:62-95 `construct_core` -/
def constructCore (inds : List Ind3) (vals : List K) (u1 u2 u3 : Mat K) : PyM (Ten K) := do
  let es ← cooEntries inds vals
  let core ← es.foldlM (fun core e => do
    let r ← coreRows u1 u2 u3 e
    pure (coreEntryLoops e.2 r.1 r.2.1 r.2.2 core)) (fun _ _ _ => 0 : T3 u1.cols u2.cols u3.cols K)
  pure ⟨_, _, _, core⟩

/-- tensor_operations.py:115-129: iteration `i` of the parallel loop -/
def corePrangeBody (es : List (Ind3 × K)) (u1 u2 u3 : Mat K) (i : Fin u1.cols)
    (core : T3 u1.cols u2.cols u3.cols K) : PyM (T3 u1.cols u2.cols u3.cols K) :=
  es.foldlM (fun core e => do
    let r ← coreRows u1 u2 u3 e
    pure ((List.finRange u2.cols).foldl (fun core j =>
      (List.finRange u3.cols).foldl (fun core k =>
        addAt core i j k (e.2 * r.1 i * r.2.1 j * r.2.2 k)) core) core)) core

/-- tensor_operations.py:97-130 `construct_core_parallel`, its iterations executed one after the
other (interleaved executions: `Verif/Model/Parallel.lean`) -/
def constructCoreParallel (inds : List Ind3) (vals : List K) (u1 u2 u3 : Mat K) : PyM (Ten K) := do
  let es ← cooEntries inds vals
  let core ← (List.finRange u1.cols).foldlM (fun core i => corePrangeBody es u1 u2 u3 i core)
    (fun _ _ _ => 0 : T3 u1.cols u2.cols u3.cols K)
  pure ⟨_, _, _, core⟩

end loops

section core
variable [CommRing K]

/-- tensor_operations.py:132-163 `construct_core_parallel_dense`: `u1[i1]` for `i1 in range(n1)`
fails when `u1` has fewer rows than `x` (only reached when `r1 > 0`, and likewise for the inner
loops, which is simplified to a check in front). -/
def constructCoreDense (x : Ten K) (u1 u2 u3 : Mat K) : PyM (Ten K) :=
  if h : x.d0 ≤ u1.rows ∧ x.d1 ≤ u2.rows ∧ x.d2 ≤ u3.rows then
    .ok ⟨u1.cols, u2.cols, u3.cols,
      (List.finRange u1.cols).foldl (fun core i =>
      (List.finRange x.d0).foldl (fun core i1 =>
      (List.finRange x.d1).foldl (fun core i2 =>
      (List.finRange x.d2).foldl (fun core i3 =>
      (List.finRange u2.cols).foldl (fun core j =>
      (List.finRange u3.cols).foldl (fun core k =>
        addAt core i j k (x.val i1 i2 i3 * u1.val (Fin.castLE h.1 i1) i *
          u2.val (Fin.castLE h.2.1 i2) j * u3.val (Fin.castLE h.2.2 i3) k))
        core) core) core) core) core) (fun _ _ _ => 0)⟩
  else .error .indexError

/-- tensor_operations.py:165-189 `_double_tensordot` (in-place on `res`) -/
def doubleTensordot {n0 : ℕ} (es : List (Ind3 × K)) (u v : Mat K) (mode0 mode1 mode2 : ℕ)
    (res : T3 n0 u.cols v.cols K) : PyM (T3 n0 u.cols v.cols K) :=
  es.foldlM (fun res e => do
    let a ← u.row (e.1.at mode1)
    let b ← v.row (e.1.at mode2)
    let i0 ← pyIdx n0 (e.1.at mode0)
    pure ((List.finRange u.cols).foldl (fun res j =>
      (List.finRange v.cols).foldl (fun res k => addAt res i0 j k (e.2 * a j * b k)) res) res)) res

/-- tensor_operations.py:191-219 `tensordot2`; `shape` a tuple of any length. -/
def tensordot2 (inds : List Ind3) (vals : List K) (shape : List ℕ) (u v : Mat K) (modes : ℤ × ℤ) :
    PyM (Ten K) :=
  if shape.length > 3 then .error .notImplementedError
  else if ¬ (modes.1 = 0 ∨ modes.1 = 1 ∨ modes.1 = 2) then .error .runtimeError
  else if ¬ (modes.2 = 0 ∨ modes.2 = 1 ∨ modes.2 = 2) then .error .runtimeError
  else if modes.1 = modes.2 then .error .runtimeError
  else
    let mode0 := (3 - (modes.1 + modes.2)).toNat
    match shape[mode0]? with
    | none => .error .indexError
    | some n0 => do
      let es ← cooEntries inds vals
      let res ← doubleTensordot es u v mode0 modes.1.toNat modes.2.toNat
        (fun _ _ _ => 0 : T3 n0 u.cols v.cols K)
      pure ⟨_, _, _, res⟩

/-- tensor_operations.py:221-253 `tensordot`. Another `mode` leaves `new_shape` unassigned. -/
def tensordot (inds : List Ind3) (vals : List K) (shape : ℕ × ℕ × ℕ) (u : Mat K) (mode : ℤ) :
    PyM (Ten K) := do
  let es ← cooEntries inds vals
  if mode = 0 then do
    let res ← (List.finRange u.rows).foldlM (fun res j => es.foldlM (fun res e => do
      let c ← pyIdx u.cols e.1.1
      let i1 ← pyIdx shape.2.1 e.1.2.1
      let i2 ← pyIdx shape.2.2 e.1.2.2
      pure (addAt res j i1 i2 (e.2 * u.val j c))) res)
      (fun _ _ _ => 0 : T3 u.rows shape.2.1 shape.2.2 K)
    pure ⟨_, _, _, res⟩
  else if mode = 1 then do
    let res ← (List.finRange u.rows).foldlM (fun res j => es.foldlM (fun res e => do
      let c ← pyIdx u.cols e.1.2.1
      let i0 ← pyIdx shape.1 e.1.1
      let i2 ← pyIdx shape.2.2 e.1.2.2
      pure (addAt res i0 j i2 (e.2 * u.val j c))) res)
      (fun _ _ _ => 0 : T3 shape.1 u.rows shape.2.2 K)
    pure ⟨_, _, _, res⟩
  else if mode = 2 then do
    let res ← (List.finRange u.rows).foldlM (fun res j => es.foldlM (fun res e => do
      let c ← pyIdx u.cols e.1.2.2
      let i0 ← pyIdx shape.1 e.1.1
      let i1 ← pyIdx shape.2.1 e.1.2.1
      pure (addAt res i0 i1 j (e.2 * u.val j c))) res)
      (fun _ _ _ => 0 : T3 shape.1 shape.2.1 u.rows K)
    pure ⟨_, _, _, res⟩
  else throw .unboundLocalError

/-- one column of `khatri_rao(u2[i2].T, u1[i1].T)`: the Kronecker product of the two rows -/
def kronVec {p q : ℕ} (a : Fin p → K) (b : Fin q → K) : Fin (p * q) → K :=
  fun c => a (finProdFinEquiv.symm c).1 * b (finProdFinEquiv.symm c).2

/-- `result[r] += row` -/
def addRow {n m : ℕ} (res : Matrix (Fin n) (Fin m) K) (r : Fin n) (x : Fin m → K) :
    Matrix (Fin n) (Fin m) K :=
  fun i j => if i = r then res i j + x j else res i j

/-- the vector `q_t.dot(kron(u2[i2], u1[i1]))` of one entry (lines 276-279, one column;
a wrong number of rows in `q` raises `ValueError`) -/
def projVec (q : Mat K) (u1 u2 : Mat K) (i1 i2 : ℤ) : PyM (Fin q.cols → K) := do
  let b ← u2.row i2
  let a ← u1.row i1
  if h : u2.cols * u1.cols = q.rows then
    pure fun c => ∑ l : Fin (u2.cols * u1.cols), q.val (Fin.cast h l) c * kronVec b a l
  else throw .valueError

/-- tensor_operations.py:270 `n_points_per_step = min(10000, n)`: the constant -/
def stepSize : ℕ := 10000

/-- tensor_operations.py:281-287: one entry of a chunk -/
def sttEntry [DecidableEq K] {n : ℕ} (q : Mat K) (mode a b : ℕ) (u1 u2 : Mat K) (e : Ind3 × K)
    (res : Matrix (Fin n) (Fin q.cols) K) : PyM (Matrix (Fin n) (Fin q.cols) K) := do
  let v ← projVec q u1 u2 (e.1.at a) (e.1.at b)
  let r ← pyIdx n (e.1.at mode)
  pure (if e.2 ≠ 1 then addRow res r (fun c => e.2 * v c) else addRow res r v)

/-- tensor_operations.py:255-288 `sparse_tensor_double_tensor`, the block size a parameter `B`.
The `vec_all` matrix of a chunk is computed column by column. -/
def sttLoop [DecidableEq K] (B : ℕ) (inds : List Ind3) (vals : List K) (shape : ℕ × ℕ × ℕ)
    (q : Mat K) (mode : ℤ) (u1 u2 : Mat K) : PyM (Mat K) := do
  let (a, b) ← otherModes mode
  let n := inds.length
  let npts := min B n
  if npts = 0 then throw .zeroDivisionError
  else do
    let es ← cooEntries inds vals
    let res ← (List.range (n / npts)).foldlM (fun res step =>
      ((es.drop (step * npts)).take npts).foldlM
        (fun res e => sttEntry q mode.toNat a b u1 u2 e res) res)
      (0 : Matrix (Fin (shapeAt shape mode.toNat)) (Fin q.cols) K)
    pure ⟨_, _, res⟩

/-- tensor_operations.py:255-288 `sparse_tensor_double_tensor`. All call sites pass `vals` of the
length of `inds`. -/
def sparseTensorDoubleTensor [DecidableEq K] (inds : List Ind3) (vals : List K)
    (shape : ℕ × ℕ × ℕ) (q : Mat K) (mode : ℤ) (u1 u2 : Mat K) : PyM (Mat K) :=
  sttLoop stepSize inds vals shape q mode u1 u2

/-- tensor_operations.py:317-323: `temp` holds the vectors computed so far, by `(i2, i1)` -/
def sttOldCache (q u1 u2 : Mat K) (i1 i2 : ℤ) (cache : Dict (ℤ × ℤ) (Fin q.cols → K)) :
    PyM (Dict (ℤ × ℤ) (Fin q.cols → K)) :=
  match cache.get? (i2, i1) with
  | some _ => .ok cache
  | none => do
    let v ← projVec q u1 u2 i1 i2
    pure (cache.set (i2, i1) v)

/-- tensor_operations.py:314-327: one entry -/
def sttOldEntry {n : ℕ} (q : Mat K) (mode a b : ℕ) (u1 u2 : Mat K)
    (st : Matrix (Fin n) (Fin q.cols) K × Dict (ℤ × ℤ) (Fin q.cols → K)) (e : Ind3 × K) :
    PyM (Matrix (Fin n) (Fin q.cols) K × Dict (ℤ × ℤ) (Fin q.cols → K)) := do
  let cache ← sttOldCache q u1 u2 (e.1.at a) (e.1.at b) st.2
  let r ← pyIdx n (e.1.at mode)
  let v ← cache.getItem (e.1.at b, e.1.at a)
  pure (addRow st.1 r (fun c => e.2 * v c), cache)

/-- tensor_operations.py:301-329 `sparse_tensor_double_tensor_old` (with its cache) -/
def sparseTensorDoubleTensorOld (inds : List Ind3) (vals : List K) (shape : ℕ × ℕ × ℕ) (q : Mat K)
    (mode : ℤ) (u1 u2 : Mat K) : PyM (Mat K) := do
  let (a, b) ← otherModes mode
  let es ← if inds.length ≤ vals.length then .ok (inds.zip vals) else .error .indexError
  let st ← es.foldlM (sttOldEntry q mode.toNat a b u1 u2)
    ((0, []) : Matrix (Fin (shapeAt shape mode.toNat)) (Fin q.cols) K × _)
  pure ⟨_, _, st.1⟩

/-- tensor_operations.py:332-354 `get_tucker_element`. The dimensions of `core` are expected to be
the column counts (otherwise the compiled code would read outside the array: `IndexError` here). -/
def getTuckerElement (i j k : ℤ) (u1 u2 u3 : Mat K) (core : Ten K) : PyM K := do
  let a ← u1.row i
  let b ← u2.row j
  let c ← u3.row k
  if h : u1.cols = core.d0 ∧ u2.cols = core.d1 ∧ u3.cols = core.d2 then
    pure ((List.finRange u1.cols).foldl (fun res i1 =>
      (List.finRange u2.cols).foldl (fun res i2 =>
        (List.finRange u3.cols).foldl (fun res i3 =>
          res + core.val (Fin.cast h.1 i1) (Fin.cast h.2.1 i2) (Fin.cast h.2.2 i3) *
            (a i1 * b i2) * c i3) res) res) 0)
  else throw .indexError

/-- tensor_operations.py:356-369 `construct_tensor_from_tucker` -/
def constructTensorFromTucker (u1 u2 u3 : Mat K) (core : Ten K) : PyM (Ten K) := do
  let cells ← (List.finRange u1.rows).mapM fun i : Fin u1.rows =>
    (List.finRange u2.rows).mapM fun j : Fin u2.rows =>
      (List.finRange u3.rows).mapM fun k : Fin u3.rows =>
        getTuckerElement ((i : ℕ) : ℤ) ((j : ℕ) : ℤ) ((k : ℕ) : ℤ) u1 u2 u3 core
  pure ⟨u1.rows, u2.rows, u3.rows, fun i j k => ((cells.getD i []).getD j []).getD k 0⟩

/-- tensor_operations.py:371-381 `dense_to_sparse_tensor` -/
def denseToSparse (t : Ten K) : List Ind3 × List K :=
  let cells := (List.finRange t.d0).flatMap fun i => (List.finRange t.d1).flatMap fun j =>
    (List.finRange t.d2).map fun k => (i, j, k)
  (cells.map fun c => (((c.1 : ℕ) : ℤ), ((c.2.1 : ℕ) : ℤ), ((c.2.2 : ℕ) : ℤ)),
   cells.map fun c => t.val c.1 c.2.1 c.2.2)

/-- tensor_operations.py:383-389 `sparse_to_dense_tensor`: assignment, not addition -/
def sparseToDense (inds : List Ind3) (vals : List K) (shape : ℕ × ℕ × ℕ) : PyM (Ten K) := do
  let es ← cooEntries inds vals
  let res ← es.foldlM (fun res e => do
    let i ← pyIdx shape.1 e.1.1
    let j ← pyIdx shape.2.1 e.1.2.1
    let k ← pyIdx shape.2.2 e.1.2.2
    pure (fun a b c => if a = i ∧ b = j ∧ c = k then e.2 else res a b c))
    (fun _ _ _ => 0 : T3 shape.1 shape.2.1 shape.2.2 K)
  pure ⟨_, _, _, res⟩

end core

/-- tensor_operations.py:391-402 `gen_hilbert_tensor` -/
def genHilbertTensor [Field K] (shape : ℕ × ℕ × ℕ) : List Ind3 × List K :=
  let cells := (List.range shape.1).flatMap fun i => (List.range shape.2.1).flatMap fun j =>
    (List.range shape.2.2).map fun k => (i, j, k)
  (cells.map fun c => ((c.1 : ℤ), (c.2.1 : ℤ), (c.2.2 : ℤ)),
   cells.map fun c => 1 / ((c.1 + c.2.1 + c.2.2 + 1 : ℕ) : K))

/-- `EPS = 1e-14` (tensor_operations.py:9, matrix_operations.py:10) -/
noncomputable def EPS : ℝ := 1 / 10 ^ 14

/-- tensor_operations.py:404-417 `_sqrt_err` -/
noncomputable def tuckerSqrtErr (inds : List Ind3) (vals : List ℝ) (u1 u2 u3 : Mat ℝ) (core : Ten ℝ) :
    PyM ℝ := do
  let es ← if inds.length ≤ vals.length then .ok (inds.zip vals) else .error .indexError
  let r ← es.foldlM (fun acc e => do
    let x ← getTuckerElement e.1.1 e.1.2.1 e.1.2.2 u1 u2 u3 core
    pure (acc + (e.2 - x) ^ 2)) 0
  pure (Real.sqrt r)

/-- tensor_operations.py:419-429 `sqrt_err_relative` -/
noncomputable def tuckerSqrtErrRelative (inds : List Ind3) (vals : List ℝ) (u1 u2 u3 : Mat ℝ)
    (core : Ten ℝ) : PyM ℝ := do
  let r ← tuckerSqrtErr inds vals u1 u2 u3 core
  pure (r / Real.sqrt ((vals.map (· ^ 2)).sum + EPS))

end DynCF
