/-
Model of `/repo/source/random_svd.py`.
-/
import Verif.Py.LinAlg

namespace DynCF
variable {K : Type} [CommRing K]

/-- random_svd.py:46-47: `for _ in range(n_power_iter): z = x.dot(x.T.dot(z))` -/
def powerIter {m n p : ℕ} (x : Matrix (Fin m) (Fin n) K) : ℕ → Matrix (Fin m) (Fin p) K →
    Matrix (Fin m) (Fin p) K
  | 0, z => z
  | t + 1, z => powerIter x t (x * (x.transpose * z))

/-- The number of components computed by `random_svd` before truncation:
the smaller of the number of columns of `q` and of `x`. -/
abbrev rsvdRank (m n rank os : ℕ) : ℕ := min (min m (rank + os)) n

/-- random_svd.py:42-52, before truncation: `q.dot(uy)`, `s`, `vt`
(`full_matrices` is `False` at every call site). The shapes always match, so nothing can raise. -/
def randomSvdFull (la : LinAlg K) (rng : Rng K) {m n : ℕ} (x : Matrix (Fin m) (Fin n) K)
    (rank nPower os : ℕ) :
    Matrix (Fin m) (Fin (rsvdRank m n rank os)) K × (Fin (rsvdRank m n rank os) → K) ×
      Matrix (Fin (rsvdRank m n rank os)) (Fin n) K :=
  let p := rng n (rank + os)
  let z := powerIter x nPower (x * p)
  let q := (la.qr z).1
  let y := q.transpose * x
  let d := la.svd y
  (q * d.1, d.2.1, d.2.2)

/-- random_svd.py:8-53 `random_svd`; line 53 keeps the first `rank` components. -/
def randomSvd (la : LinAlg K) (rng : Rng K) (x : Mat K) (rank nPower os : ℕ) :
    Mat K × Vec K × Mat K :=
  let r := randomSvdFull la rng x.val rank nPower os
  (Mat.takeCols ⟨_, _, r.1⟩ rank, Vec.take ⟨_, r.2.1⟩ rank, Mat.takeRows ⟨_, _, r.2.2⟩ rank)

/-- The argument `a` of `svd_step`. -/
inductive SvdArg (K : Type)
  | csr (a : Mat K)
  | dense (a : Mat K)
  | other

/-- random_svd.py:55-97 `svd_step`. `svds` returns ascending singular values, reversed here;
it raises `ValueError` unless `1 ≤ k < min(shape)` (ARPACK). -/
def svdStep (la : LinAlg K) (rng : Rng K) (a : SvdArg K) (rank nPower os : ℕ) :
    PyM (Mat K × Vec K × Mat K) :=
  match a with
  | .csr A =>
    if 1 ≤ rank ∧ rank < min A.rows A.cols then
      let d := la.svds rank A.val
      .ok (Mat.revCols ⟨_, _, d.1⟩, ⟨rank, fun i => d.2.1 (Fin.rev i)⟩, Mat.revRows ⟨_, _, d.2.2⟩)
    else .error .valueError
  | .dense A => .ok (randomSvd la rng A rank nPower os)
  | .other => .error .valueError

/-- random_svd.py:99-118 `svd2mtx`: `(u * s).dot(v)`; `u * s` multiplies column `j` by `s[j]`. A single column is
stretched to the length of `s`, a single number to the number of columns; other lengths raise `ValueError`. -/
def svd2mtx (u : Mat K) (s : Vec K) (v : Mat K) : PyM (Mat K) :=
  if h : u.cols = s.len then
    Mat.dot ⟨u.rows, u.cols, Matrix.of fun i j => u.val i j * s.val (Fin.cast h j)⟩ v
  else if h : u.cols = 1 then
    Mat.dot ⟨u.rows, s.len, Matrix.of fun i j => u.val i (Fin.cast h.symm 0) * s.val j⟩ v
  else if h : s.len = 1 then
    Mat.dot ⟨u.rows, u.cols, Matrix.of fun i j => u.val i j * s.val (Fin.cast h.symm 0)⟩ v
  else .error .valueError

end DynCF
