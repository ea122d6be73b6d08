/- Specifications for tensor operations. -/
import Verif.Model.TensorOps

namespace DynCF
variable {K : Type}

/-- an entry of COO data whose indices are inside an `n0 × n1 × n2` tensor -/
abbrev Ent (n0 n1 n2 : ℕ) (K : Type) := (Fin n0 × Fin n1 × Fin n2) × K

/-- the row of `inds` of an entry -/
def Ent.ind {n0 n1 n2 : ℕ} (e : Ent n0 n1 n2 K) : Ind3 :=
  (((e.1.1 : ℕ) : ℤ), ((e.1.2.1 : ℕ) : ℤ), ((e.1.2.2 : ℕ) : ℤ))

/-- `inds` of COO data -/
def indsOf {n0 n1 n2 : ℕ} (es : List (Ent n0 n1 n2 K)) : List Ind3 := es.map Ent.ind
/-- `vals` of COO data -/
def valsOf {n0 n1 n2 : ℕ} (es : List (Ent n0 n1 n2 K)) : List K := es.map Prod.snd

/-- The tensor represented by COO data: repeated coordinates add up. -/
def cooTensor [AddCommMonoid K] {n0 n1 n2 : ℕ} (es : List (Ent n0 n1 n2 K)) : T3 n0 n1 n2 K :=
  fun i j k => ((es.filter fun e => decide (e.1 = (i, j, k))).map Prod.snd).sum

/-- Tucker format: the tensor `∑ core[a,b,c] U1[i,a] U2[j,b] U3[k,c]`. -/
def tuckerTensor [CommRing K] {n0 n1 n2 r0 r1 r2 : ℕ} (U1 : Matrix (Fin n0) (Fin r0) K)
    (U2 : Matrix (Fin n1) (Fin r1) K) (U3 : Matrix (Fin n2) (Fin r2) K) (g : T3 r0 r1 r2 K) :
    T3 n0 n1 n2 K :=
  fun i j k => ∑ a, ∑ b, ∑ c, g a b c * U1 i a * U2 j b * U3 k c

/-- The multilinear product of a tensor with three matrices: `∑ T[i,j,k] U1[i,a] U2[j,b] U3[k,c]`. -/
def coreTensor [CommRing K] {n0 n1 n2 r0 r1 r2 : ℕ} (t : T3 n0 n1 n2 K)
    (U1 : Matrix (Fin n0) (Fin r0) K) (U2 : Matrix (Fin n1) (Fin r1) K)
    (U3 : Matrix (Fin n2) (Fin r2) K) : T3 r0 r1 r2 K :=
  fun a b c => ∑ i, ∑ j, ∑ k, t i j k * U1 i a * U2 j b * U3 k c

end DynCF

namespace DynCF
variable {K : Type} [CommRing K]

/-- tensor with mode 1 moved to the front: `x[j, i, k] = t[i, j, k]` -/
def front1 {n0 n1 n2 : ℕ} (t : T3 n0 n1 n2 K) : T3 n1 n0 n2 K := fun j i k => t i j k
/-- tensor with mode 2 moved to the front: `x[k, i, j] = t[i, j, k]` -/
def front2 {n0 n1 n2 : ℕ} (t : T3 n0 n1 n2 K) : T3 n2 n0 n1 K := fun k i j => t i j k

/-- `(unfolding of x along its first mode) · (U2 ⊗ U1) · Q`: rows of `Q` are numbered by pairs
(column `b` of `U2`, column `a` of `U1`), `a` running fastest. -/
def projUnfold {r m1 m2 p1 p2 s : ℕ} (x : T3 r m1 m2 K) (U1 : Matrix (Fin m1) (Fin p1) K)
    (U2 : Matrix (Fin m2) (Fin p2) K) (Q : Matrix (Fin (p2 * p1)) (Fin s) K) :
    Matrix (Fin r) (Fin s) K :=
  fun i c => ∑ i1, ∑ i2, x i i1 i2 * ∑ b, ∑ a, U1 i1 a * U2 i2 b * Q (finProdFinEquiv (b, a)) c

/-- the last value listed for a coordinate (0 if there is none) -/
def lastVal {n0 n1 n2 : ℕ} (es : List (Ent n0 n1 n2 K)) : T3 n0 n1 n2 K :=
  fun i j k => ((es.filter fun e => decide (e.1 = (i, j, k))).map Prod.snd).getLastD 0

end DynCF
