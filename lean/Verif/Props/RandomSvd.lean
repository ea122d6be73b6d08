/-
Property theorems C47 (randomised SVD).
-/
import Verif.Lemmas.SvdExists
import Verif.Model.RandomSvd
import Mathlib.LinearAlgebra.Matrix.Rank
import Mathlib.Algebra.Order.Field.Basic

set_option linter.unusedSectionVars false

namespace DynCF
open Matrix
variable {K : Type}

/-- The power iteration multiplies by `(x xᵀ)^t`. -/
theorem powerIter_eq [CommRing K] {m n p : ℕ} (x : Matrix (Fin m) (Fin n) K) (t : ℕ)
    (z : Matrix (Fin m) (Fin p) K) : powerIter x t z = (x * x.transpose) ^ t * z := by
  induction t generalizing z with
  | zero => rw [pow_zero, Matrix.one_mul]; rfl
  | succ t ih =>
    unfold powerIter
    rw [ih, pow_succ, Matrix.mul_assoc, Matrix.mul_assoc]

/-- The matrix whose range is used: `(x xᵀ)^t x p` with the random `p`. -/
def sketch [CommRing K] (rng : Rng K) {m n : ℕ} (x : Matrix (Fin m) (Fin n) K) (rank nPower os : ℕ) :
    Matrix (Fin m) (Fin (rank + os)) K :=
  (x * x.transpose) ^ nPower * (x * rng n (rank + os))

/-- The orthonormal basis of the sketch. -/
def sketchQ [CommRing K] (la : LinAlg K) (rng : Rng K) {m n : ℕ} (x : Matrix (Fin m) (Fin n) K)
    (rank nPower os : ℕ) : Matrix (Fin m) (Fin (min m (rank + os))) K :=
  (la.qr (sketch rng x rank nPower os)).1

/-- The two calls of numerical routines made by `random_svd` meet their contracts. -/
def RsvdOk [CommRing K] [LE K] (la : LinAlg K) (rng : Rng K) {m n : ℕ}
    (x : Matrix (Fin m) (Fin n) K) (rank nPower os : ℕ) : Prop :=
  QrOk la (sketch rng x rank nPower os) ∧ SvdOk la ((sketchQ la rng x rank nPower os).transpose * x)

theorem randomSvdFull_eq [CommRing K] (la : LinAlg K) (rng : Rng K) {m n : ℕ}
    (x : Matrix (Fin m) (Fin n) K) (rank nPower os : ℕ) :
    randomSvdFull la rng x rank nPower os =
      (sketchQ la rng x rank nPower os *
        (la.svd ((sketchQ la rng x rank nPower os).transpose * x)).1,
       (la.svd ((sketchQ la rng x rank nPower os).transpose * x)).2.1,
       (la.svd ((sketchQ la rng x rank nPower os).transpose * x)).2.2) := by
  unfold randomSvdFull sketchQ sketch
  dsimp only
  rw [powerIter_eq]

/-- **C47.** Before truncation the three factors multiply to `Q Qᵀ x`; the left vectors are orthonormal,
the right vectors too, the singular values are non-negative and non-increasing. -/
theorem C47_projection [CommRing K] [LE K] (la : LinAlg K) (rng : Rng K) {m n : ℕ}
    (x : Matrix (Fin m) (Fin n) K) (rank nPower os : ℕ) (h : RsvdOk la rng x rank nPower os) :
    let r := randomSvdFull la rng x rank nPower os
    let Q := sketchQ la rng x rank nPower os
    Q.transpose * Q = 1 ∧ r.1 * Matrix.diagonal r.2.1 * r.2.2 = Q * (Q.transpose * x) ∧
      r.1.transpose * r.1 = 1 ∧ r.2.2 * r.2.2.transpose = 1 ∧ (∀ i, 0 ≤ r.2.1 i) ∧
      ∀ i j, i ≤ j → r.2.1 j ≤ r.2.1 i := by
  dsimp only
  rw [randomSvdFull_eq]
  obtain ⟨⟨_, hQ⟩, h1, h2, h3, h4, h5⟩ := h
  change (sketchQ la rng x rank nPower os).transpose * (sketchQ la rng x rank nPower os) = 1 at hQ
  refine ⟨hQ, ?_, ?_, h3, h4, h5⟩
  · dsimp only
    rw [Matrix.mul_assoc, Matrix.mul_assoc, ← Matrix.mul_assoc (la.svd _).1, h1]
  · dsimp only
    rw [Matrix.transpose_mul, Matrix.mul_assoc, ← Matrix.mul_assoc _ (sketchQ la rng x rank nPower os), hQ,
      Matrix.one_mul, h2]

/-- **C47, exactness.** If the columns of `x` are combinations of the columns of the sketch, the
decomposition before truncation is exact. -/
theorem C47_exact [CommRing K] [LE K] (la : LinAlg K) (rng : Rng K) {m n : ℕ}
    (x : Matrix (Fin m) (Fin n) K) (rank nPower os : ℕ) (h : RsvdOk la rng x rank nPower os)
    (B : Matrix (Fin (rank + os)) (Fin n) K) (hB : sketch rng x rank nPower os * B = x) :
    let r := randomSvdFull la rng x rank nPower os
    r.1 * Matrix.diagonal r.2.1 * r.2.2 = x := by
  dsimp only
  rw [(C47_projection la rng x rank nPower os h).2.1]
  obtain ⟨⟨hqr, hQ⟩, _⟩ := h
  change sketchQ la rng x rank nPower os * (la.qr (sketch rng x rank nPower os)).2 = _ at hqr
  change (sketchQ la rng x rank nPower os).transpose * (sketchQ la rng x rank nPower os) = 1 at hQ
  have hx : x = sketchQ la rng x rank nPower os * ((la.qr (sketch rng x rank nPower os)).2 * B) := by
    rw [← Matrix.mul_assoc, hqr, hB]
  generalize (la.qr (sketch rng x rank nPower os)).2 * B = C at hx
  generalize sketchQ la rng x rank nPower os = Q at hx hQ
  rw [hx, ← Matrix.mul_assoc Q.transpose, hQ, Matrix.one_mul]

/-- **C47, number of components.** `random_svd` returns the first `min(rank, rows, columns)` components
of the decomposition above. -/
theorem C47_components [CommRing K] (la : LinAlg K) (rng : Rng K) {m n : ℕ}
    (x : Matrix (Fin m) (Fin n) K) (rank nPower os : ℕ) :
    ∃ (k : ℕ) (U : Matrix (Fin m) (Fin k) K) (s : Fin k → K) (V : Matrix (Fin k) (Fin n) K)
      (hk : k ≤ rsvdRank m n rank os), k = min rank (min m n) ∧
      randomSvd la rng ⟨m, n, x⟩ rank nPower os = (⟨m, k, U⟩, ⟨k, s⟩, ⟨k, n, V⟩) ∧
      (∀ i j, U i j = (randomSvdFull la rng x rank nPower os).1 i (Fin.castLE hk j)) ∧
      (∀ j, s j = (randomSvdFull la rng x rank nPower os).2.1 (Fin.castLE hk j)) ∧
      ∀ j i, V j i = (randomSvdFull la rng x rank nPower os).2.2 (Fin.castLE hk j) i :=
  ⟨min rank (rsvdRank m n rank os), _, _, _, Nat.min_le_right _ _,
    by show min rank (min (min m (rank + os)) n) = min rank (min m n); omega, rfl,
    fun _ _ => rfl, fun _ => rfl, fun _ _ => rfl⟩

theorem castLE_cols_orth [CommRing K] {m p k : ℕ} (U : Matrix (Fin m) (Fin p) K)
    (h : U.transpose * U = 1) (f : Fin k → Fin p) (hf : Function.Injective f) (U' : Matrix (Fin m) (Fin k) K)
    (hU : ∀ i j, U' i j = U i (f j)) : U'.transpose * U' = 1 := by
  ext i j
  have := congrFun (congrFun h (f i)) (f j)
  rw [Matrix.mul_apply] at this ⊢
  simp only [Matrix.transpose_apply, hU] at this ⊢
  rw [this, Matrix.one_apply, Matrix.one_apply]
  simp only [hf.eq_iff]

/-- **C47, orthonormality after truncation.** -/
theorem C47_orthonormal [CommRing K] [LE K] (la : LinAlg K) (rng : Rng K) {m n : ℕ}
    (x : Matrix (Fin m) (Fin n) K) (rank nPower os : ℕ) (h : RsvdOk la rng x rank nPower os) :
    (randomSvd la rng ⟨m, n, x⟩ rank nPower os).1.val.transpose *
      (randomSvd la rng ⟨m, n, x⟩ rank nPower os).1.val = 1 ∧
    (randomSvd la rng ⟨m, n, x⟩ rank nPower os).2.2.val *
      (randomSvd la rng ⟨m, n, x⟩ rank nPower os).2.2.val.transpose = 1 := by
  obtain ⟨_, _, h3, h4, _⟩ := C47_projection la rng x rank nPower os h
  constructor
  · exact castLE_cols_orth _ h3 (Fin.castLE (Nat.min_le_right rank _)) (Fin.castLE_injective _) _
      fun _ _ => rfl
  · have h4' : ((randomSvdFull la rng x rank nPower os).2.2.transpose).transpose *
        (randomSvdFull la rng x rank nPower os).2.2.transpose = 1 := by
      rw [Matrix.transpose_transpose]; exact h4
    have := castLE_cols_orth _ h4' (Fin.castLE (Nat.min_le_right rank _)) (Fin.castLE_injective _)
      (randomSvd la rng ⟨m, n, x⟩ rank nPower os).2.2.val.transpose fun _ _ => rfl
    exact this

/-- A decomposition with orthonormal factors has at most `rank A` non-zero singular values. -/
theorem svd_values_zero [Field K] [LinearOrder K] {m n p : ℕ} (U : Matrix (Fin m) (Fin p) K)
    (s : Fin p → K) (V : Matrix (Fin p) (Fin n) K) (A : Matrix (Fin m) (Fin n) K)
    (hA : U * Matrix.diagonal s * V = A) (hU : U.transpose * U = 1) (hV : V * V.transpose = 1)
    (hpos : ∀ i, 0 ≤ s i) (hanti : ∀ i j, i ≤ j → s j ≤ s i) (k : ℕ) (hk : A.rank ≤ k) (i : Fin p)
    (hi : k ≤ (i : ℕ)) : s i = 0 := by
  by_contra hne
  have hd : Matrix.diagonal s = U.transpose * A * V.transpose := by
    rw [← hA, Matrix.mul_assoc, Matrix.mul_assoc, Matrix.mul_assoc, hV, Matrix.mul_one,
      ← Matrix.mul_assoc, hU, Matrix.one_mul]
  have hr : (Matrix.diagonal s).rank ≤ k := by
    rw [hd]
    exact (Matrix.rank_mul_le_left _ _).trans ((Matrix.rank_mul_le_right _ _).trans hk)
  rw [Matrix.rank_diagonal] at hr
  have hsi : 0 < s i := lt_of_le_of_ne (hpos i) (Ne.symm hne)
  have : (i : ℕ) + 1 ≤ Fintype.card {j // s j ≠ 0} := by
    have hle : (i : ℕ) + 1 ≤ p := i.2
    have := Fintype.card_le_of_injective
      (fun j : Fin ((i : ℕ) + 1) => (⟨Fin.castLE hle j, by
        have : s i ≤ s (Fin.castLE hle j) := hanti _ _ (by
          show (j : ℕ) ≤ (i : ℕ)
          omega)
        exact ne_of_gt (lt_of_lt_of_le hsi this)⟩ : {j // s j ≠ 0}))
      (fun a b hab => by
        have := congrArg (fun q => ((q.1 : Fin p) : ℕ)) hab
        exact Fin.ext this)
    rwa [Fintype.card_fin] at this
  omega

theorem truncated_sum [Field K] {m n p k : ℕ} (U : Matrix (Fin m) (Fin p) K) (s : Fin p → K)
    (V : Matrix (Fin p) (Fin n) K) (hk : k ≤ p) (h0 : ∀ i : Fin p, k ≤ (i : ℕ) → s i = 0) (i : Fin m)
    (j : Fin n) :
    (U * Matrix.diagonal s * V) i j =
      ∑ a : Fin k, U i (Fin.castLE hk a) * s (Fin.castLE hk a) * V (Fin.castLE hk a) j := by
  rw [Matrix.mul_apply]
  simp only [Matrix.mul_diagonal]
  symm
  refine Finset.sum_of_injOn (fun a => Fin.castLE hk a) ?_ ?_ ?_ ?_
  · intro a _ b _ h
    exact Fin.castLE_injective _ h
  · intro a _
    exact Finset.mem_coe.2 (Finset.mem_univ _)
  · intro a _ ha
    have : k ≤ (a : ℕ) := by
      by_contra hlt
      exact ha ⟨⟨a, by omega⟩, Finset.mem_coe.2 (Finset.mem_univ _), rfl⟩
    rw [h0 a this, mul_zero, zero_mul]
  · intro a _
    rfl

/-- **C47, exact recovery.** If `x` has rank at most `rank` and the sketch captures its range, the
returned (truncated) factors multiply to `x` exactly. -/
theorem C47_recovery [Field K] [LinearOrder K] (la : LinAlg K) (rng : Rng K) {m n : ℕ}
    (x : Matrix (Fin m) (Fin n) K) (rank nPower os : ℕ) (h : RsvdOk la rng x rank nPower os)
    (B : Matrix (Fin (rank + os)) (Fin n) K) (hB : sketch rng x rank nPower os * B = x)
    (hrank : x.rank ≤ rank) :
    ∃ (k : ℕ) (U : Matrix (Fin m) (Fin k) K) (s : Fin k → K) (V : Matrix (Fin k) (Fin n) K),
      randomSvd la rng ⟨m, n, x⟩ rank nPower os = (⟨m, k, U⟩, ⟨k, s⟩, ⟨k, n, V⟩) ∧
      U * Matrix.diagonal s * V = x := by
  obtain ⟨k, U, s, V, hk, hkk, he, hU, hs, hV⟩ := C47_components la rng x rank nPower os
  refine ⟨k, U, s, V, he, ?_⟩
  have hx := C47_exact la rng x rank nPower os h B hB
  obtain ⟨_, _, h1, h2, h3, h4⟩ := C47_projection la rng x rank nPower os h
  dsimp only at hx
  have hz : ∀ i : Fin (rsvdRank m n rank os), k ≤ (i : ℕ) →
      (randomSvdFull la rng x rank nPower os).2.1 i = 0 := by
    intro i hi
    refine svd_values_zero _ _ _ x hx h1 h2 h3 h4 rank hrank i ?_
    have h5 : (i : ℕ) < min (min m (rank + os)) n := i.2
    omega
  ext i j
  have := truncated_sum (randomSvdFull la rng x rank nPower os).1 _
    (randomSvdFull la rng x rank nPower os).2.2 hk hz i j
  rw [hx] at this
  rw [this, Matrix.mul_apply]
  refine Finset.sum_congr rfl fun a _ => ?_
  rw [Matrix.mul_diagonal, hU, hs, hV]

/-- The contracts can be met for every matrix and every sketch (over the reals). -/
theorem rsvdOk_real (rng : Rng ℝ) {m n : ℕ} (x : Matrix (Fin m) (Fin n) ℝ) (rank nPower os : ℕ) :
    RsvdOk realLA rng x rank nPower os :=
  ⟨realLA_qr _, realLA_svd _⟩

/-- The all-ones 2 × 3 matrix has rank 1; with the all-ones random matrix the sketch captures its
range, so rank 1 recovers it exactly. -/
example : ∃ (k : ℕ) (U : Matrix (Fin 2) (Fin k) ℝ) (s : Fin k → ℝ) (V : Matrix (Fin k) (Fin 3) ℝ),
    randomSvd realLA (fun _ _ => Matrix.of fun _ _ => 1) ⟨2, 3, Matrix.of fun _ _ => 1⟩ 1 0 1 =
      (⟨2, k, U⟩, ⟨k, s⟩, ⟨k, 3, V⟩) ∧
    U * Matrix.diagonal s * V = Matrix.of fun _ _ => 1 := by
  refine C47_recovery realLA _ _ 1 0 1 (rsvdOk_real _ _ 1 0 1) (Matrix.of fun _ _ => 1 / 6) ?_ ?_
  · ext i j
    simp [sketch, Matrix.mul_apply]
    norm_num
  · have : (Matrix.of fun _ _ => 1 : Matrix (Fin 2) (Fin 3) ℝ) =
        Matrix.of (fun _ _ => 1 : Fin 2 → Fin 1 → ℝ) * Matrix.of (fun _ _ => 1 : Fin 1 → Fin 3 → ℝ) := by
      ext i j
      simp [Matrix.mul_apply]
    rw [this]
    exact (Matrix.rank_mul_le_left _ _).trans (Matrix.rank_le_width _)

end DynCF
