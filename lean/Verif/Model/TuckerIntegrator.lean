/-
Model of `/repo/source/tucker_integrator.py`.
-/
import Verif.Model.Hosvd
import Verif.Model.Psi

namespace DynCF
variable {K : Type}

/-- `factors[mode]` for `mode` 0, 1, 2 -/
def Fac.at (f : Fac K) : ℕ → Mat K
  | 0 => f.f0
  | 1 => f.f1
  | _ => f.f2

/-- `a + b` for 3-way arrays; broadcasting of different shapes is refused (`outOfModel`), incompatible
shapes raise `ValueError` -/
def Ten.add [Add K] (a b : Ten K) : PyM (Ten K) :=
  if h : a.d0 = b.d0 ∧ a.d1 = b.d1 ∧ a.d2 = b.d2 then
    .ok ⟨a.d0, a.d1, a.d2, fun i j k =>
      a.val i j k + b.val (Fin.cast h.1 i) (Fin.cast h.2.1 j) (Fin.cast h.2.2 k)⟩
  else if (a.d0 = b.d0 ∨ a.d0 = 1 ∨ b.d0 = 1) ∧ (a.d1 = b.d1 ∨ a.d1 = 1 ∨ b.d1 = 1) ∧
      (a.d2 = b.d2 ∨ a.d2 = 1 ∨ b.d2 = 1) then .error .outOfModel
  else .error .valueError

section
variable [CommRing K]

/-- the local variables of the loop of `tucker_intergrator`: `c0`, `u1`, `u2` -/
structure TILoop (K : Type) where
  c0 : Ten K
  u1 : Mat K
  u2 : Mat K

/-- tucker_integrator.py:73-74: `u2 = att_mtx.dot(u2)` in modes 0 and 1 -/
def tiAttRight (att : Option (Mat K)) (i : ℕ) (u2 : Mat K) : PyM (Mat K) :=
  match att with
  | some a => if i < 2 then a.dot u2 else .ok u2
  | none => .ok u2

/-- tucker_integrator.py:76-77: `da_v0_i = att_mtx.T.dot(da_v0_i)` in mode 2 -/
def tiAttLeft (att : Option (Mat K)) (i : ℕ) (da : Mat K) : PyM (Mat K) :=
  match att with
  | some a => if i = 2 then a.T.dot da else .ok da
  | none => .ok da

/-- what steps 1 and 2 of iteration `i` compute -/
structure TIInc (K : Type) where
  /-- `q0_i` and the triangular factor (the transpose of `s0_i`) -/
  q : Mat K × Mat K
  /-- `u2` -/
  u2 : Mat K
  /-- `da_v0_i` -/
  da : Mat K

/-- tucker_integrator.py:68-77: steps 1 and 2 of iteration `i` -/
def tiIncrement [DecidableEq K] (la : LinAlg K) (inds : List Ind3) (vals : List K)
    (shape : ℕ × ℕ × ℕ) (att : Option (Mat K)) (i : ℕ) (st : TILoop K) : PyM (TIInc K) := do
  let c ← unfoldDense st.c0 (i : ℤ)
  let q := la.qrM c.T
  let u2 ← tiAttRight att i st.u2
  let da ← sparseTensorDoubleTensor inds vals shape q.1 (i : ℤ) st.u1 u2
  let da ← tiAttLeft att i da
  pure ⟨q, u2, da⟩

/-- tucker_integrator.py:78-87: steps 3 to 8 (without folding): `u1_i` and `c0_i` -/
def tiSplit (la : LinAlg K) (f : Mat K) (q : Mat K × Mat K) (da : Mat K) : PyM (Mat K × Mat K) := do
  -- 3, 4
  let k0 ← f.dot q.2.T
  let k1 ← k0.add da
  -- 5, 6
  let q1 := la.qrM k1
  -- 7
  let p ← q1.1.T.dot da
  let s1 ← q1.2.sub p
  -- 8
  let ci ← s1.dot q.1.T
  pure (q1.1, ci)

/-- tucker_integrator.py:67-93: iteration `i`; the new factor `u1_i` and the loop variables -/
def tiMode [DecidableEq K] (la : LinAlg K) (f : Fac K) (inds : List Ind3) (vals : List K)
    (shape : ℕ × ℕ × ℕ) (att : Option (Mat K)) (i : ℕ) (st : TILoop K) : PyM (Mat K × TILoop K) := do
  let d ← tiIncrement la inds vals shape att i st
  let s ← tiSplit la (f.at i) d.q d.da
  let c0 ← foldDense s.2 st.c0.shape (i : ℤ)
  -- 9
  pure (s.1, ⟨c0, if i = 0 then s.1 else st.u1, if i = 0 then d.u2 else s.1⟩)

/-- tucker_integrator.py:95-98: the last factor used for the core -/
def tiCoreFactor (att : Option (Mat K)) (w : Mat K) : PyM (Mat K) :=
  match att with
  | some a => a.dot w
  | none => .ok w

/-- tucker_integrator.py:23-100 `tucker_intergrator` -/
def tuckerIntegrator [DecidableEq K] (la : LinAlg K) (f : Fac K) (core : Ten K) (inds : List Ind3)
    (vals : List K) (shape : ℕ × ℕ × ℕ) (parallel : Bool) (att : Option (Mat K)) : PyM (Fac K × Ten K) := do
  let r0 ← tiMode la f inds vals shape att 0 ⟨core, f.f1, f.f2⟩
  let r1 ← tiMode la f inds vals shape att 1 r0.2
  let r2 ← tiMode la f inds vals shape att 2 r1.2
  let w ← tiCoreFactor att r2.1
  let g ← coreFunction parallel inds vals r0.1 r1.1 w
  let c1 ← r2.2.c0.add g
  pure (⟨r0.1, r1.1, r2.1⟩, c1)

/-- `np.kron(a, b)` of two 2-D arrays -/
def Mat.kron (A B : Mat K) : Mat K :=
  ⟨A.rows * B.rows, A.cols * B.cols, Matrix.of fun i j =>
    A.val (finProdFinEquiv.symm i).1 (finProdFinEquiv.symm j).1 *
      B.val (finProdFinEquiv.symm i).2 (finProdFinEquiv.symm j).2⟩

/-- `s[:, np.newaxis] * a`: row `i` times `s[i]` (the lengths agree at the only call; broadcasting is
refused) -/
def Mat.scaleRows (s : Vec K) (A : Mat K) : PyM (Mat K) :=
  if h : A.rows = s.len then .ok ⟨A.rows, A.cols, Matrix.of fun i j => s.val (Fin.cast h i) * A.val i j⟩
  else if s.len = 1 ∨ A.rows = 1 then .error .outOfModel
  else .error .valueError

/-- `v.reshape((p, q), order='F')` of a vector of length `q * p`: element `(a, b)` is `v[a + p * b]` -/
def reshapeF {p q : ℕ} (v : Fin (q * p) → K) : Matrix (Fin p) (Fin q) K :=
  Matrix.of fun a b => v (finProdFinEquiv (b, a))

/-- `m.flatten(order='F')` -/
def flattenF {p q : ℕ} (m : Matrix (Fin p) (Fin q) K) : Fin (q * p) → K :=
  fun c => m (finProdFinEquiv.symm c).2 (finProdFinEquiv.symm c).1

/-- tucker_integrator.py:174-178 `kron_mv` (the shapes agree because `core_unf` is the unfolding of a
core whose dimensions are the column counts of the factors) -/
def kronMv {r p q n m : ℕ} (core : Matrix (Fin r) (Fin (q * p)) K) (rf : Matrix (Fin n) (Fin p) K)
    (lf : Matrix (Fin m) (Fin q) K) (v : Fin r → K) : Fin (m * n) → K :=
  flattenF (rf * reshapeF (core.transpose.mulVec v) * lf.transpose)

/-- tucker_integrator.py:180-184 `kron_rmv` -/
def kronRmv {r p q n m : ℕ} (core : Matrix (Fin r) (Fin (q * p)) K) (rf : Matrix (Fin n) (Fin p) K)
    (lf : Matrix (Fin m) (Fin q) K) (v : Fin (m * n) → K) : Fin r → K :=
  core.mulVec (flattenF (rf.transpose * reshapeF v * lf))

/-- the matrix of the `LinearOperator` given by `kron_mv`: column `j` is the image of the `j`-th unit
vector -/
def kronOp {r p q n m : ℕ} (core : Matrix (Fin r) (Fin (q * p)) K) (rf : Matrix (Fin n) (Fin p) K)
    (lf : Matrix (Fin m) (Fin q) K) : Matrix (Fin (m * n)) (Fin r) K :=
  Matrix.of fun i j => kronMv core rf lf (Pi.single j 1) i

/-- tucker_integrator.py:163-168: the explicit SVD of `x.T`; returns `v1t.T`, `s1`, `u1` -/
def tnvExplicit (la : LinAlg K) (rng : Rng K) (coreUnf wv : Mat K) (rank nPower os : ℕ) :
    PyM (Mat K × Vec K × Mat K) := do
  let x ← coreUnf.dot wv
  let d := randomSvd la rng x.T rank nPower os
  pure (d.1, d.2.1, d.2.2.T)

/-- tucker_integrator.py:169-195: `svds` (PROPACK) of the linear operator; returns `v1t.T`, `s1`, `u1`.
PROPACK needs `1 ≤ k ≤ min(shape)`. A shape mismatch would raise inside the operator. -/
def tnvImplicit (la : LinAlg K) (coreUnf lf rf : Mat K) (rank : ℕ) : PyM (Mat K × Vec K × Mat K) :=
  if h : coreUnf.cols = lf.cols * rf.cols then
    if 1 ≤ rank ∧ rank ≤ min (lf.rows * rf.rows) coreUnf.rows then
      let d := la.svds rank (kronOp (coreUnf.val.submatrix id (Fin.cast h.symm)) rf.val lf.val)
      .ok (Mat.revCols ⟨_, _, d.1⟩, ⟨rank, fun i => d.2.1 (Fin.rev i)⟩, (Mat.revRows ⟨_, _, d.2.2⟩).T)
    else .error .valueError
  else .error .valueError

/-- tucker_integrator.py:162-195: the first SVD, `v1t.T`, `s1`, `u1` -/
def tnvSvd (la : LinAlg K) (rng : Rng K) (coreUnf lf rf : Mat K) (rank nPower os : ℕ) (explicitCalc : Bool) :
    PyM (Mat K × Vec K × Mat K) :=
  if explicitCalc then tnvExplicit la rng coreUnf (Mat.kron lf.T rf.T) rank nPower os
  else tnvImplicit la coreUnf lf rf rank

/-- tucker_integrator.py:205-209: replace one factor -/
def Fac.set (f : Fac K) (mode : ℕ) (m : Mat K) : Fac K :=
  match mode with
  | 0 => { f with f0 := m }
  | 1 => { f with f1 := m }
  | _ => { f with f2 := m }

end

/-- tucker_integrator.py:197-203: add the new vectors; returns the new factor and the unfolded core. The
inner call of `update_svd_new_vectors` has its default parameters. -/
def tnvAppend [Field K] [LinearOrder K] (la : LinAlg K) (rng : Rng K) (f : Mat K)
    (d : Mat K × Vec K × Mat K) (new wv : Mat K) : PyM (Mat K × Mat K) := do
  let u1 ← f.dot d.2.2
  let r ← updateSvdNewVectors la rng d.1 (.vec d.2.1.len d.2.1.val) u1.T new.T 1 2
  let svt ← Mat.scaleRows r.2.1 r.1.T
  let c ← svt.dot wv.T
  pure (r.2.2.T, c)

/-- tucker_integrator.py:102-210 `update_tucker_new_vectors`. `rng 0` and `rng 1` are the draws of the
two calls of `random_svd` (equal when a seed is given). -/
def updateTuckerNewVectors [Field K] [LinearOrder K] (la : LinAlg K) (rng : ℕ → Rng K) (f : Fac K)
    (core : Ten K) (new : Mat K) (mode : ℤ) (nPower os : ℕ) (explicitCalc : Bool) :
    PyM (Fac K × Ten K) := do
  let ab ← otherModes mode
  let coreUnf ← unfoldDense core mode
  let d ← tnvSvd la (rng 0) coreUnf (f.at ab.2) (f.at ab.1) (shapeAt core.shape mode.toNat) nPower os
    explicitCalc
  let r ← tnvAppend la (rng 1) (f.at mode.toNat) d new (Mat.kron (f.at ab.2).T (f.at ab.1).T)
  let core ← foldDense r.2 core.shape mode
  pure (f.set mode.toNat r.1, core)

section
variable [CommRing K]

/-- tucker_integrator.py:273-277: the extended core; a different third dimension cannot be assigned
(a single slice would be broadcast: refused) -/
def extendedCore (core new : Ten K) : PyM (Ten K) :=
  if h : core.d2 = new.d2 then
    .ok ⟨core.d0 + new.d0, core.d1 + new.d1, core.d2, fun i j k =>
      Fin.addCases (fun i => Fin.addCases (fun j => core.val i j k) (fun _ => 0) j)
        (fun i => Fin.addCases (fun _ => 0) (fun j => new.val i j (Fin.cast h k)) j) i⟩
  else if new.d2 = 1 then .error .outOfModel
  else .error .valueError

/-- tucker_integrator.py:212-288 `update_tucker_new_matrix`. `rng 0` are the draws of `tucker2_dense`,
`rng 1` those of `hosvd_dense` (which has its default parameters). -/
def updateTuckerNewMatrix (la : LinAlg K) (rng : ℕ → ℕ → Rng K) (f : Fac K) (core : Ten K)
    (inds : List Ind3) (vals : List K) (shape : ℕ × ℕ × ℕ) (nPower os : ℕ) (att : Option (Mat K)) :
    PyM (Fac K × Ten K) := do
  let aw ← tiCoreFactor att f.f2
  let x ← tensordot inds vals shape aw.T 2
  let n ← tucker2Dense la (rng 0) x x.shape 2 nPower os
  let c1 ← extendedCore core n.2.2
  let h ← hosvdDense la (rng 1) c1 core.shape 1 2
  let u ← (Mat.blockDiag f.f0 n.1).dot h.1.f0
  let v ← (Mat.blockDiag f.f1 n.2.1).dot h.1.f1
  let w ← f.f2.dot h.1.f2
  pure (⟨u, v, w⟩, h.2)

end
end DynCF
