/-
Model of `kron_vec_jit` (`/repo/source/tensor_operations.py:291-299`), the Kronecker product of two
vectors written as two loops, and of its use in `sparse_tensor_double_tensor_old`.
-/
import Verif.Model.TensorOps
import Verif.Model.Evaluation

namespace DynCF
variable {K : Type}

/-- tensor_operations.py:297-298: the inner loop. `vec[k + lb_i] = a_i * b[k]`; `k + lb_i` is inside the
array, so the compiled store needs no check. -/
def kronInner [Mul K] (b : List K) (off : ℕ) (x : K) (vec : List K) : List K :=
  (enumNat 0 b).foldl (fun vec p => vec.set (p.1 + off) (x * p.2)) vec

/-- tensor_operations.py:291-299 `kron_vec_jit`. `np.empty` leaves the content of the new array open:
`junk` is what the memory happens to hold. -/
def kronVecJit [Mul K] (junk : ℕ → K) (a b : List K) : List K :=
  (enumNat 0 a).foldl (fun vec p => kronInner b (b.length * p.1) p.2 vec)
    ((List.range (a.length * b.length)).map junk)

/-- tensor_operations.py:325-326: `q_t.dot(kron_vec_jit(u2[i2], u1[i1]))` with the loops -/
def projVecJit [CommRing K] (junk : ℕ → K) (q u1 u2 : Mat K) (i1 i2 : ℤ) : PyM (Fin q.cols → K) := do
  let b ← u2.row i2
  let a ← u1.row i1
  let v := kronVecJit junk (List.ofFn b) (List.ofFn a)
  if v.length = q.rows then
    pure fun c => ((List.ofFn fun l : Fin q.rows => q.val l c).zipWith (· * ·) v).sum
  else throw .valueError

end DynCF
