/-
Model of `/repo/source/psi.py`.
-/
import Verif.Model.RandomSvd
import Verif.Model.MatrixOps
import Mathlib.Algebra.Order.Field.Basic

namespace DynCF
variable {K : Type}

/-- `np.diag(s) if s.ndim == 1 else s` -/
def SArg.toMat [Zero K] : SArg K → Mat K
  | .vec _ s => Mat.diag s
  | .mat s => s

/-- psi.py:11-52 `psi_step` -/
def psiStep [CommRing K] (la : LinAlg K) (u : Mat K) (s : SArg K) (vt da : Mat K) :
    PyM (Mat K × Mat K × Mat K) := do
  let daV ← da.dot vt.T
  -- step 1
  let us ← u.dot s.toMat
  let k1 ← us.add daV
  let q1 := la.qrM k1
  -- step 2
  let p ← q1.1.T.dot daV
  let s0 ← q1.2.sub p
  -- step 3
  let vs ← vt.T.dot s0.T
  let au ← da.T.dot q1.1
  let l1 ← vs.add au
  let q2 := la.qrM l1
  pure (q1.1, q2.2.T, q2.1.T)

/-- `np.argsort` of a 1-D array -/
abbrev ArgSort (K : Type) := List K → List ℕ

/-- `a[:, mask]` -/
def Mat.selectCols (A : Mat K) (mask : List ℕ) : PyM (Mat K) := do
  let r ← A.T.takeIdx (mask.map fun i : ℕ => (i : ℤ))
  pure r.T

/-- `np.concatenate((a, b), axis=0)` of 1-D arrays -/
def Vec.append (a b : Vec K) : Vec K :=
  ⟨a.len + b.len, fun i => Fin.addCases a.val b.val i⟩

/-- psi.py:54-106 `update_svd_new_submatrix`. `argsort` is `np.argsort`. -/
def updateSvdNewSubmatrix [CommRing K] (la : LinAlg K) (rng : Rng K) (argsort : ArgSort K)
    (u : Mat K) (s : SArg K) (vt new : Mat K) (nPower os : ℕ) : PyM (Mat K × SArg K × Mat K) :=
  let rank := u.cols
  let d := la.svd new.val
  let u2 := Mat.blockDiag u ⟨_, _, d.1⟩
  let v2 := Mat.blockDiag vt.T (Mat.T ⟨_, _, d.2.2⟩)
  match s with
  | .vec n sv => do
    let s2 := Vec.append ⟨n, sv⟩ ⟨_, d.2.1⟩
    let mask := ((argsort (List.ofFn s2.val)).reverse).take rank
    let a ← u2.selectCols mask
    let b ← s2.takeIdx (mask.map fun i : ℕ => (i : ℤ))
    let c ← v2.selectCols mask
    pure (a, .vec b.len b.val, c.T)
  | .mat sm => do
    let s2 := Mat.blockDiag sm (Mat.diag d.2.1)
    let r := randomSvd la rng s2 rank nPower os
    let a ← u2.dot r.1
    let c ← v2.dot r.2.2.T
    pure (a, .vec r.2.1.len r.2.1.val, c.T)

/-- numpy's broadcasting of a 2-D array in an assignment to a block of shape `(h, w)` -/
def Mat.broadcastTo (B : Mat K) (h w : ℕ) : PyM (Matrix (Fin h) (Fin w) K) :=
  if hb : (B.rows = h ∨ B.rows = 1) ∧ (B.cols = w ∨ B.cols = 1) then
    .ok (Matrix.of fun i j => B.val
      ⟨if B.rows = 1 then 0 else i, by split <;> omega⟩ ⟨if B.cols = 1 then 0 else j, by split <;> omega⟩)
  else .error .valueError

/-- psi.py:169-171: `vi` -/
def viBlock [CommRing K] (vt : Mat K) (rank nc : ℕ) : PyM (Mat K) := do
  let v ← vt.T.broadcastTo vt.cols rank
  pure (Mat.blockDiag ⟨_, _, v⟩ (Mat.eye nc))

/-- psi.py:173-176: `dq` -/
def dqBlock [CommRing K] (s p k : Mat K) (rank nc : ℕ) : PyM (Mat K) := do
  let s ← s.broadcastTo rank rank
  let p ← p.broadcastTo rank nc
  let k ← k.broadcastTo nc nc
  pure ⟨rank + nc, rank + nc, Matrix.of fun i j =>
    Fin.addCases (fun i => Fin.addCases (fun j => s i j) (fun j => p i j) j)
      (fun i => Fin.addCases (fun _ => 0) (fun j => k i j) j) i⟩

/-- psi.py:9 -/
def orthEps [Field K] : K := 1 / 10 ^ 10

/-- psi.py:180: `uj[:, 0].dot(uj[:, -1])` -/
def orthErr [CommRing K] (uj : Mat K) : PyM K := do
  let a ← pyIdx uj.cols 0
  let b ← pyIdx uj.cols (-1)
  pure (∑ i, uj.val i a * uj.val i b)

/-- psi.py:180-183 -/
def reorth [Field K] [LinearOrder K] (la : LinAlg K) (uj dq : Mat K) : PyM (Mat K × Mat K) := do
  let err ← orthErr uj
  if err > orthEps then do
    let q := la.qrM uj
    let dq ← q.2.dot dq
    pure (q.1, dq)
  else pure (uj, dq)

/-- psi.py:108-190 `update_svd_new_vectors` -/
def updateSvdNewVectors [Field K] [LinearOrder K] (la : LinAlg K) (rng : Rng K) (u : Mat K)
    (s : SArg K) (vt new : Mat K) (nPower os : ℕ) : PyM (Mat K × Vec K × Mat K) := do
  let rank := u.cols
  let nc := new.cols
  let projection ← u.T.dot new
  let up ← u.dot projection
  let complement ← new.sub up
  let jk := la.qrM complement
  let uj ← u.hcat jk.1
  let vi ← viBlock vt rank nc
  let dq ← dqBlock s.toMat projection jk.2 rank nc
  let r ← reorth la uj dq
  let d := randomSvd la rng r.2 rank nPower os
  let u2 ← r.1.dot d.1
  let v2 ← vi.dot d.2.2.T
  pure (u2, d.2.1, v2.T)

end DynCF
