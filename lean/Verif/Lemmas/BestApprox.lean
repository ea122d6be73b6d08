/-
The truncated singular value decomposition is a best approximation of its rank (Eckart, Young), for the
sum of squared entries.
-/
import Verif.Lemmas.Kron
import Verif.Lemmas.SvdExists
import Mathlib.LinearAlgebra.Matrix.Trace
import Mathlib.Algebra.Order.BigOperators.Ring.Finset

namespace DynCF
open Matrix

/-- the sum of the squared entries -/
def sqSum {m n : ℕ} (A : Matrix (Fin m) (Fin n) ℝ) : ℝ := ∑ i, ∑ j, A i j ^ 2

/-- `U`, `s`, `V` are the leading `r` terms of a singular value decomposition of `A` with non-increasing
singular values. -/
def TruncatedSvd {K : Type} [CommRing K] [LE K] {m n r : ℕ} (A : Matrix (Fin m) (Fin n) K)
    (U : Matrix (Fin m) (Fin r) K) (s : Fin r → K) (V : Matrix (Fin r) (Fin n) K) : Prop :=
  ∃ (U' : Matrix (Fin m) (Fin (min m n)) K) (s' : Fin (min m n) → K) (V' : Matrix (Fin (min m n)) (Fin n) K)
    (h : r ≤ min m n), U' * diagonal s' * V' = A ∧ U'.transpose * U' = 1 ∧ V' * V'.transpose = 1 ∧
    (∀ i, 0 ≤ s' i) ∧ (∀ i j, i ≤ j → s' j ≤ s' i) ∧
    (∀ i k, U i k = U' i (Fin.castLE h k)) ∧ (∀ k, s k = s' (Fin.castLE h k)) ∧
    ∀ k j, V k j = V' (Fin.castLE h k) j

theorem sqSum_nonneg {m n : ℕ} (A : Matrix (Fin m) (Fin n) ℝ) : 0 ≤ sqSum A :=
  Finset.sum_nonneg fun _ _ => Finset.sum_nonneg fun _ _ => sq_nonneg _

theorem sqSum_eq_trace {m n : ℕ} (A : Matrix (Fin m) (Fin n) ℝ) : sqSum A = (A.transpose * A).trace := by
  unfold sqSum Matrix.trace
  rw [Finset.sum_comm]
  refine Finset.sum_congr rfl fun j _ => ?_
  rw [Matrix.diag_apply, Matrix.mul_apply]
  exact Finset.sum_congr rfl fun i _ => by rw [Matrix.transpose_apply, sq]

theorem sqSum_transpose {m n : ℕ} (A : Matrix (Fin m) (Fin n) ℝ) : sqSum A.transpose = sqSum A := by
  unfold sqSum
  rw [Finset.sum_comm]
  rfl

theorem sqSum_sub {m n : ℕ} (A B : Matrix (Fin m) (Fin n) ℝ) :
    sqSum (A - B) = sqSum A - 2 * (B.transpose * A).trace + sqSum B := by
  have : (A.transpose * B).trace = (B.transpose * A).trace := by
    rw [← Matrix.trace_transpose, Matrix.transpose_mul, Matrix.transpose_transpose]
  rw [sqSum_eq_trace, sqSum_eq_trace, sqSum_eq_trace, Matrix.transpose_sub, Matrix.sub_mul, Matrix.mul_sub,
    Matrix.mul_sub, Matrix.trace_sub, Matrix.trace_sub, Matrix.trace_sub, this]
  ring

/-- multiplication by orthonormal columns keeps the sum of squares -/
theorem sqSum_orth {m q n : ℕ} {Q : Matrix (Fin m) (Fin q) ℝ} (hQ : Q.transpose * Q = 1)
    (C : Matrix (Fin q) (Fin n) ℝ) : sqSum (Q * C) = sqSum C := by
  rw [sqSum_eq_trace, sqSum_eq_trace, Matrix.transpose_mul, Matrix.mul_assoc, ← Matrix.mul_assoc Q.transpose,
    hQ, Matrix.one_mul]

theorem sqSum_orth_right {m q n : ℕ} {V : Matrix (Fin q) (Fin n) ℝ} (hV : V * V.transpose = 1)
    (C : Matrix (Fin m) (Fin q) ℝ) : sqSum (C * V) = sqSum C := by
  rw [← sqSum_transpose, Matrix.transpose_mul, sqSum_orth (by rw [Matrix.transpose_transpose]; exact hV),
    sqSum_transpose]

/-- the distance to a matrix whose columns lie in the range of `Q` -/
theorem sqSum_proj {m q n : ℕ} {Q : Matrix (Fin m) (Fin q) ℝ} (hQ : Q.transpose * Q = 1)
    (A : Matrix (Fin m) (Fin n) ℝ) (C : Matrix (Fin q) (Fin n) ℝ) :
    sqSum (A - Q * C) = sqSum A - sqSum (Q.transpose * A) + sqSum (Q.transpose * A - C) := by
  rw [sqSum_sub, sqSum_sub, sqSum_orth hQ, Matrix.transpose_mul, Matrix.mul_assoc]
  ring

theorem sqSum_contract {m q n : ℕ} {Q : Matrix (Fin m) (Fin q) ℝ} (hQ : Q.transpose * Q = 1)
    (A : Matrix (Fin m) (Fin n) ℝ) : sqSum (Q.transpose * A) ≤ sqSum A := by
  have h := sqSum_proj hQ A (Q.transpose * A)
  rw [sub_self] at h
  have h0 := sqSum_nonneg (A - Q * (Q.transpose * A))
  have : sqSum (0 : Matrix (Fin q) (Fin n) ℝ) = 0 := by simp [sqSum]
  rw [this] at h
  linarith

theorem sqSum_orth_self {m q : ℕ} {Q : Matrix (Fin m) (Fin q) ℝ} (hQ : Q.transpose * Q = 1) : sqSum Q = q := by
  rw [sqSum_eq_trace, hQ, Matrix.trace_one, Fintype.card_fin]

/-- a weighted sum with weights in `[0, 1]` of total at most `r` is at most the sum of the `r` largest -/
theorem weighted_le {p r : ℕ} (a t : Fin p → ℝ) (ha : ∀ i, 0 ≤ a i) (hd : ∀ i j, i ≤ j → a j ≤ a i)
    (h0 : ∀ i, 0 ≤ t i) (h1 : ∀ i, t i ≤ 1) (hs : ∑ i, t i ≤ r) :
    ∑ i, t i * a i ≤ ∑ i : Fin p, (if (i : ℕ) < r then 1 else 0) * a i := by
  rcases Nat.lt_or_ge r p with hr | hr
  · have hcard : ∑ i : Fin p, (if (i : ℕ) < r then (1 : ℝ) else 0) = r := by
      rw [Finset.sum_ite, Finset.sum_const_zero, add_zero, Finset.sum_const, nsmul_eq_mul, mul_one]
      have : (Finset.univ.filter fun i : Fin p => (i : ℕ) < r) = Finset.Iio ⟨r, hr⟩ := by
        ext i
        simp [Fin.lt_def]
      rw [this, Fin.card_Iio]
    have key : ∀ i : Fin p, (t i - (if (i : ℕ) < r then 1 else 0)) * a i ≤
        (t i - (if (i : ℕ) < r then 1 else 0)) * a ⟨r, hr⟩ := by
      intro i
      split
      · rename_i h
        have := hd i ⟨r, hr⟩ (by rw [Fin.le_def]; exact h.le)
        have := h1 i
        nlinarith
      · rename_i h
        have := hd ⟨r, hr⟩ i (by rw [Fin.le_def]; exact Nat.le_of_not_lt h)
        have := h0 i
        nlinarith
    have hsum := Finset.sum_le_sum fun i (_ : i ∈ Finset.univ) => key i
    rw [← Finset.sum_mul, Finset.sum_sub_distrib, hcard] at hsum
    simp only [sub_mul, Finset.sum_sub_distrib] at hsum
    have : (∑ i, t i - (r : ℝ)) * a ⟨r, hr⟩ ≤ 0 :=
      mul_nonpos_of_nonpos_of_nonneg (by linarith) (ha _)
    linarith
  · refine Finset.sum_le_sum fun i _ => ?_
    rw [if_pos (lt_of_lt_of_le i.2 hr)]
    exact mul_le_mul_of_nonneg_right (h1 i) (ha i)

theorem sqSum_mul_diagonal {m p : ℕ} (W : Matrix (Fin m) (Fin p) ℝ) (d : Fin p → ℝ) :
    sqSum (W * diagonal d) = ∑ k, (∑ i, W i k ^ 2) * d k ^ 2 := by
  unfold sqSum
  rw [Finset.sum_comm]
  refine Finset.sum_congr rfl fun k _ => ?_
  rw [Finset.sum_mul]
  exact Finset.sum_congr rfl fun i _ => by rw [Matrix.mul_diagonal, mul_pow]

/-- The residual of the truncated decomposition is the rest of the decomposition. -/
theorem truncated_residual {K : Type} [CommRing K] {m n p r : ℕ} (h : r ≤ p) (U' : Matrix (Fin m) (Fin p) K)
    (s' : Fin p → K) (V' : Matrix (Fin p) (Fin n) K) (U : Matrix (Fin m) (Fin r) K) (s : Fin r → K)
    (V : Matrix (Fin r) (Fin n) K) (hU : ∀ i k, U i k = U' i (Fin.castLE h k))
    (hs : ∀ k, s k = s' (Fin.castLE h k)) (hV : ∀ k j, V k j = V' (Fin.castLE h k) j) :
    U' * diagonal s' * V' - U * diagonal s * V =
      U' * diagonal (fun k : Fin p => if (k : ℕ) < r then 0 else s' k) * V' := by
  ext i j
  rw [Matrix.sub_apply, Matrix.mul_apply, Matrix.mul_apply, Matrix.mul_apply]
  simp only [Matrix.mul_diagonal]
  have : ∑ k : Fin r, U i k * s k * V k j = ∑ k : Fin p, if (k : ℕ) < r then U' i k * s' k * V' k j else 0 := by
    rw [← Finset.sum_filter]
    refine Finset.sum_bij (fun k _ => Fin.castLE h k) ?_ ?_ ?_ ?_
    · intro k _; simp
    · intro a _ b _ hab; exact Fin.castLE_injective h hab
    · intro b hb
      have hb : (b : ℕ) < r := by simpa using hb
      exact ⟨⟨b, hb⟩, Finset.mem_univ _, rfl⟩
    · intro k _; rw [hU, hs, hV]
  rw [this, ← Finset.sum_sub_distrib]
  refine Finset.sum_congr rfl fun k _ => ?_
  split <;> simp

/-- No product of an `m × r` and an `r × n` matrix is closer to `A` than the truncated decomposition. -/
theorem best_approximation {m n r : ℕ} (A : Matrix (Fin m) (Fin n) ℝ) (U : Matrix (Fin m) (Fin r) ℝ)
    (s : Fin r → ℝ) (V : Matrix (Fin r) (Fin n) ℝ) (h : TruncatedSvd A U s V)
    (X : Matrix (Fin m) (Fin r) ℝ) (Y : Matrix (Fin r) (Fin n) ℝ) :
    sqSum (A - U * diagonal s * V) ≤ sqSum (A - X * Y) := by
  obtain ⟨U', s', V', hr, hA, hUU, hVV, h0, hd, hU, hs, hV⟩ := h
  obtain ⟨hX, hQ⟩ := realLA_qr X
  generalize (realLA.qr X).1 = Q at hX hQ
  generalize (realLA.qr X).2 = R at hX
  have hXY : X * Y = Q * (R * Y) := by rw [← Matrix.mul_assoc, hX]
  have e1 : sqSum (A - X * Y) = sqSum A - sqSum (Q.transpose * A) + sqSum (Q.transpose * A - R * Y) := by
    rw [hXY, sqSum_proj hQ]
  have e2 : sqSum A = ∑ k, s' k ^ 2 := by
    rw [← hA, sqSum_orth_right hVV, sqSum_orth hUU]
    have := sqSum_mul_diagonal (1 : Matrix (Fin (min m n)) (Fin (min m n)) ℝ) s'
    rw [Matrix.one_mul] at this
    rw [this]
    refine Finset.sum_congr rfl fun k _ => ?_
    have : ∑ i, (1 : Matrix (Fin (min m n)) (Fin (min m n)) ℝ) i k ^ 2 = 1 := by
      rw [Finset.sum_eq_single k]
      · simp
      · intro b _ hb; simp [Matrix.one_apply_ne hb]
      · simp
    rw [this, one_mul]
  have e3 : sqSum (Q.transpose * A) = ∑ k, (∑ i, (Q.transpose * U') i k ^ 2) * s' k ^ 2 := by
    rw [← hA, ← Matrix.mul_assoc, sqSum_orth_right hVV, ← Matrix.mul_assoc, sqSum_mul_diagonal]
  have e4 : sqSum (A - U * diagonal s * V) = ∑ k : Fin (min m n), (if (k : ℕ) < r then 0 else s' k) ^ 2 := by
    rw [← hA, truncated_residual hr U' s' V' U s V hU hs hV, sqSum_orth_right hVV, sqSum_orth hUU]
    have := sqSum_mul_diagonal (1 : Matrix (Fin (min m n)) (Fin (min m n)) ℝ)
      (fun k : Fin (min m n) => if (k : ℕ) < r then 0 else s' k)
    rw [Matrix.one_mul] at this
    rw [this]
    refine Finset.sum_congr rfl fun k _ => ?_
    have : ∑ i, (1 : Matrix (Fin (min m n)) (Fin (min m n)) ℝ) i k ^ 2 = 1 := by
      rw [Finset.sum_eq_single k]
      · simp
      · intro b _ hb; simp [Matrix.one_apply_ne hb]
      · simp
    rw [this, one_mul]
  have t1 : ∀ k, ∑ i, (Q.transpose * U') i k ^ 2 ≤ 1 := by
    intro k
    have hc := sqSum_contract hQ (U'.submatrix id (fun _ : Fin 1 => k))
    have l1 : sqSum (Q.transpose * U'.submatrix id (fun _ : Fin 1 => k)) = ∑ i, (Q.transpose * U') i k ^ 2 := by
      unfold sqSum
      refine Finset.sum_congr rfl fun i _ => ?_
      rw [Fin.sum_univ_one]
      rfl
    have l2 : sqSum (U'.submatrix id (fun _ : Fin 1 => k)) = 1 := by
      have := congrFun (congrFun hUU k) k
      rw [Matrix.mul_apply, Matrix.one_apply_eq] at this
      rw [← this]
      unfold sqSum
      refine Finset.sum_congr rfl fun i _ => ?_
      rw [Fin.sum_univ_one, Matrix.submatrix_apply, Matrix.transpose_apply, sq]
      rfl
    rw [l1, l2] at hc
    exact hc
  have t2 : ∑ k, ∑ i, (Q.transpose * U') i k ^ 2 ≤ (r : ℝ) := by
    have hc := sqSum_contract hUU Q
    rw [sqSum_orth_self hQ, ← sqSum_transpose, Matrix.transpose_mul, Matrix.transpose_transpose] at hc
    have : sqSum (Q.transpose * U') = ∑ k, ∑ i, (Q.transpose * U') i k ^ 2 := by
      unfold sqSum
      rw [Finset.sum_comm]
    rw [← this]
    refine hc.trans ?_
    exact_mod_cast Nat.min_le_right m r
  have hw := weighted_le (r := r) (fun k => s' k ^ 2) _ (fun k => sq_nonneg _)
    (fun i j hij => by
      have a := hd i j hij
      have b := h0 j
      exact pow_le_pow_left₀ b a 2)
    (fun k => Finset.sum_nonneg fun i _ => sq_nonneg ((Q.transpose * U') i k)) t1 t2
  have e5 : ∑ k : Fin (min m n), (if (k : ℕ) < r then 0 else s' k) ^ 2 =
      ∑ k, s' k ^ 2 - ∑ k : Fin (min m n), (if (k : ℕ) < r then 1 else 0) * s' k ^ 2 := by
    rw [← Finset.sum_sub_distrib]
    refine Finset.sum_congr rfl fun k _ => ?_
    split <;> ring
  have := sqSum_nonneg (Q.transpose * A - R * Y)
  rw [e1, e2, e3, e4, e5]
  linarith

end DynCF
