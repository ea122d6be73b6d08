/-
The leading left singular vectors span the best projection: among all orthonormal systems of at most `r` columns
the first `r` left singular vectors keep most of a matrix. The random SVD returns such vectors when its sketch
captures the range of the matrix.
-/
import Verif.Lemmas.BestApprox
import Verif.Props.PsiEmbed

namespace DynCF
open Matrix

/-- what an orthonormal system keeps of a decomposed matrix -/
theorem kept_le {m n p q r : ℕ} (A : Matrix (Fin m) (Fin n) ℝ) (U' : Matrix (Fin m) (Fin p) ℝ) (s' : Fin p → ℝ)
    (V' : Matrix (Fin p) (Fin n) ℝ) (hA : U' * diagonal s' * V' = A) (hU : U'.transpose * U' = 1)
    (hV : V' * V'.transpose = 1) (h0 : ∀ i, 0 ≤ s' i) (hd : ∀ i j, i ≤ j → s' j ≤ s' i)
    (G : Matrix (Fin m) (Fin q) ℝ) (hG : G.transpose * G = 1) (hq : q ≤ r) :
    sqSum (G.transpose * A) ≤ ∑ k : Fin p, (if (k : ℕ) < r then 1 else 0) * s' k ^ 2 := by
  have e3 : sqSum (G.transpose * A) = ∑ k, (∑ i, (G.transpose * U') i k ^ 2) * s' k ^ 2 := by
    rw [← hA, ← Matrix.mul_assoc, sqSum_orth_right hV, ← Matrix.mul_assoc, sqSum_mul_diagonal]
  have t1 : ∀ k, ∑ i, (G.transpose * U') i k ^ 2 ≤ 1 := by
    intro k
    have hc := sqSum_contract hG (U'.submatrix id (fun _ : Fin 1 => k))
    have l1 : sqSum (G.transpose * U'.submatrix id (fun _ : Fin 1 => k)) = ∑ i, (G.transpose * U') i k ^ 2 := by
      unfold sqSum
      refine Finset.sum_congr rfl fun i _ => ?_
      rw [Fin.sum_univ_one]
      rfl
    have l2 : sqSum (U'.submatrix id (fun _ : Fin 1 => k)) = 1 := by
      have := congrFun (congrFun hU k) k
      rw [Matrix.mul_apply, Matrix.one_apply_eq] at this
      rw [← this]
      unfold sqSum
      refine Finset.sum_congr rfl fun i _ => ?_
      rw [Fin.sum_univ_one, Matrix.submatrix_apply, Matrix.transpose_apply, sq]
      rfl
    rw [l1, l2] at hc
    exact hc
  have t2 : ∑ k, ∑ i, (G.transpose * U') i k ^ 2 ≤ (r : ℝ) := by
    have hc := sqSum_contract hU G
    rw [sqSum_orth_self hG, ← sqSum_transpose, Matrix.transpose_mul, Matrix.transpose_transpose] at hc
    have : sqSum (G.transpose * U') = ∑ k, ∑ i, (G.transpose * U') i k ^ 2 := by
      unfold sqSum
      rw [Finset.sum_comm]
    rw [← this]
    exact hc.trans (by exact_mod_cast hq)
  rw [e3]
  exact weighted_le (r := r) (fun k => s' k ^ 2) _ (fun k => sq_nonneg _)
    (fun i j hij => pow_le_pow_left₀ (h0 j) (hd i j hij) 2)
    (fun k => Finset.sum_nonneg fun i _ => sq_nonneg ((G.transpose * U') i k)) t1 t2

/-- what the first left singular vectors keep -/
theorem kept_first {m n p r k : ℕ} (A : Matrix (Fin m) (Fin n) ℝ) (U' : Matrix (Fin m) (Fin p) ℝ) (s' : Fin p → ℝ)
    (V' : Matrix (Fin p) (Fin n) ℝ) (hA : U' * diagonal s' * V' = A) (hU : U'.transpose * U' = 1)
    (hV : V' * V'.transpose = 1) (hk : k = min r p) (hkp : k ≤ p) (U : Matrix (Fin m) (Fin k) ℝ)
    (hUU : ∀ i j, U i j = U' i (Fin.castLE hkp j)) :
    sqSum (U.transpose * A) = ∑ k : Fin p, (if (k : ℕ) < r then 1 else 0) * s' k ^ 2 := by
  rw [← hA, ← Matrix.mul_assoc, sqSum_orth_right hV, ← Matrix.mul_assoc, sqSum_mul_diagonal]
  refine Finset.sum_congr rfl fun l _ => ?_
  congr 1
  have he : ∀ i : Fin k, (U.transpose * U') i l = if Fin.castLE hkp i = l then 1 else 0 := by
    intro i
    have := congrFun (congrFun hU (Fin.castLE hkp i)) l
    rw [Matrix.mul_apply, Matrix.one_apply] at this
    rw [Matrix.mul_apply, ← this]
    exact Finset.sum_congr rfl fun a _ => by rw [Matrix.transpose_apply, Matrix.transpose_apply, hUU]
  simp only [he]
  split
  · rename_i hl
    have hlk : (l : ℕ) < k := by
      have := l.2
      omega
    rw [Finset.sum_eq_single ⟨(l : ℕ), hlk⟩]
    · have hl' : Fin.castLE hkp ⟨(l : ℕ), hlk⟩ = l := Fin.ext rfl
      rw [if_pos hl']; norm_num
    · intro b _ hb
      rw [if_neg]
      · norm_num
      · intro h
        have h1 := congrArg Fin.val h
        exact hb (Fin.ext h1)
    · simp
  · rename_i hl
    refine Finset.sum_eq_zero fun i _ => ?_
    rw [if_neg]
    · norm_num
    · intro h
      have h1 := congrArg Fin.val h
      have h2 : ((Fin.castLE hkp i : Fin p) : ℕ) = (i : ℕ) := rfl
      have := i.2
      omega

/-- The random SVD with a capturing sketch: its left vectors keep at least as much of the matrix as any
orthonormal system with at most `rank` columns. -/
theorem rsvd_best (la : LinAlg ℝ) (rng : Rng ℝ) {m n : ℕ} (X : Matrix (Fin m) (Fin n) ℝ) (rank nPower os : ℕ)
    (h : RsvdOk la rng X rank nPower os) (hc : Captures rng X rank nPower os) :
    ∃ (k : ℕ) (U : Matrix (Fin m) (Fin k) ℝ), k ≤ rank ∧ (randomSvd la rng ⟨m, n, X⟩ rank nPower os).1 = ⟨m, k, U⟩ ∧
      U.transpose * U = 1 ∧
      ∀ (q : ℕ) (G : Matrix (Fin m) (Fin q) ℝ), G.transpose * G = 1 → q ≤ rank →
        sqSum (G.transpose * X) ≤ sqSum (U.transpose * X) := by
  obtain ⟨k, U, s, V, hk, hkk, he, hU, hs, hV⟩ := C47_components la rng X rank nPower os
  obtain ⟨B, hB⟩ := hc
  have hx := C47_exact la rng X rank nPower os h B hB
  obtain ⟨_, _, h1, h2, h3, h4⟩ := C47_projection la rng X rank nPower os h
  dsimp only at hx h1 h2 h3 h4
  refine ⟨k, U, by omega, by rw [he], castLE_cols_orth _ h1 (Fin.castLE hk) (Fin.castLE_injective _) U hU,
    fun q G hG hq => ?_⟩
  have hr : k = min rank (rsvdRank m n rank os) := by
    show k = min rank (min (min m (rank + os)) n)
    omega
  rw [kept_first X _ _ _ hx h1 h2 hr hk U hU]
  exact kept_le X _ _ _ hx h1 h2 h3 h4 G hG hq

end DynCF
