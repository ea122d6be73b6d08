/-
The leading part of a singular value decomposition is determined by the matrix when the next singular value is smaller.
-/
import Verif.Lemmas.BestApprox

namespace DynCF
open Matrix

/-- The `r` leading singular values of `A` are larger than the others. -/
def SpectralGap {m n : ℕ} (r : ℕ) (A : Matrix (Fin m) (Fin n) ℝ) : Prop :=
  ∃ (U : Matrix (Fin m) (Fin (min m n)) ℝ) (s : Fin (min m n) → ℝ) (V : Matrix (Fin (min m n)) (Fin n) ℝ),
    U * diagonal s * V = A ∧ U.transpose * U = 1 ∧ V * V.transpose = 1 ∧ (∀ i, 0 ≤ s i) ∧
    (∀ i j, i ≤ j → s j ≤ s i) ∧ ∀ i j : Fin (min m n), (i : ℕ) < r → r ≤ (j : ℕ) → s j < s i

theorem sqSum_eq_zero {m n : ℕ} {A : Matrix (Fin m) (Fin n) ℝ} (h : sqSum A = 0) : A = 0 := by
  unfold sqSum at h
  ext i j
  have h1 := (Finset.sum_eq_zero_iff_of_nonneg fun i _ => Finset.sum_nonneg fun j _ => sq_nonneg (A i j)).1 h i
    (Finset.mem_univ _)
  have h2 := (Finset.sum_eq_zero_iff_of_nonneg fun j _ => sq_nonneg (A i j)).1 h1 j (Finset.mem_univ _)
  simpa using h2

/-- weights in `[0, 1]` of total at most `r` that reach the sum of the `r` largest values -/
theorem weights_one {p r : ℕ} (a t : Fin p → ℝ) (ha : ∀ i, 0 ≤ a i) (hd : ∀ i j, i ≤ j → a j ≤ a i)
    (h0 : ∀ i, 0 ≤ t i) (h1 : ∀ i, t i ≤ 1) (hs : ∑ i, t i ≤ r) (hr : r < p)
    (hgap : ∀ i : Fin p, (i : ℕ) < r → a ⟨r, hr⟩ < a i)
    (he : ∑ i : Fin p, (if (i : ℕ) < r then 1 else 0) * a i ≤ ∑ i, t i * a i) (i : Fin p) (hi : (i : ℕ) < r) : t i = 1 := by
  have hcard : ∑ i : Fin p, (if (i : ℕ) < r then (1 : ℝ) else 0) = r := by
    rw [Finset.sum_ite, Finset.sum_const_zero, add_zero, Finset.sum_const, nsmul_eq_mul, mul_one]
    have : (Finset.univ.filter fun i : Fin p => (i : ℕ) < r) = Finset.Iio ⟨r, hr⟩ := by
      ext i
      simp [Fin.lt_def]
    rw [this, Fin.card_Iio]
  have key : ∀ i : Fin p, 0 ≤ ((if (i : ℕ) < r then 1 else 0) - t i) * (a i - a ⟨r, hr⟩) := by
    intro i
    split
    · rename_i h
      exact mul_nonneg (by linarith [h1 i]) (by linarith [hgap i h])
    · rename_i h
      have := hd ⟨r, hr⟩ i (by rw [Fin.le_def]; exact Nat.le_of_not_lt h)
      have := h0 i
      nlinarith
  have hsum : ∑ i : Fin p, ((if (i : ℕ) < r then 1 else 0) - t i) * (a i - a ⟨r, hr⟩) ≤ 0 := by
    have e : ∑ i : Fin p, ((if (i : ℕ) < r then 1 else 0) - t i) * (a i - a ⟨r, hr⟩) =
        (∑ i : Fin p, (if (i : ℕ) < r then 1 else 0) * a i - ∑ i, t i * a i) -
          (∑ i : Fin p, (if (i : ℕ) < r then (1 : ℝ) else 0) - ∑ i, t i) * a ⟨r, hr⟩ := by
      rw [sub_mul, Finset.sum_mul, Finset.sum_mul, ← Finset.sum_sub_distrib, ← Finset.sum_sub_distrib,
        ← Finset.sum_sub_distrib]
      exact Finset.sum_congr rfl fun i _ => by ring
    rw [e, hcard]
    have : 0 ≤ ((r : ℝ) - ∑ i, t i) * a ⟨r, hr⟩ := mul_nonneg (by linarith) (ha _)
    linarith
  have hz := (Finset.sum_eq_zero_iff_of_nonneg fun i _ => key i).1
    (le_antisymm hsum (Finset.sum_nonneg fun i _ => key i)) i (Finset.mem_univ _)
  rw [if_pos hi] at hz
  rcases mul_eq_zero.1 hz with h | h
  · linarith
  · linarith [hgap i hi]

theorem truncated_orth {m n r : ℕ} {A : Matrix (Fin m) (Fin n) ℝ} {U : Matrix (Fin m) (Fin r) ℝ} {s : Fin r → ℝ}
    {V : Matrix (Fin r) (Fin n) ℝ} (h : TruncatedSvd A U s V) :
    U.transpose * U = 1 ∧ V * V.transpose = 1 ∧ U * diagonal s * V = U * (U.transpose * A) := by
  obtain ⟨U', s', V', hr, hA, hUU, hVV, h0, hd, hU, hs, hV⟩ := h
  have e1 : U.transpose * U' = Matrix.of fun (k : Fin r) (l : Fin (min m n)) => if Fin.castLE hr k = l then (1 : ℝ) else 0 := by
    ext k l
    have := congrFun (congrFun hUU (Fin.castLE hr k)) l
    rw [Matrix.mul_apply, Matrix.one_apply] at this
    rw [Matrix.mul_apply, Matrix.of_apply, ← this]
    exact Finset.sum_congr rfl fun i _ => by rw [Matrix.transpose_apply, Matrix.transpose_apply, hU]
  refine ⟨?_, ?_, ?_⟩
  · ext k l
    have := congrFun (congrFun hUU (Fin.castLE hr k)) (Fin.castLE hr l)
    rw [Matrix.mul_apply, Matrix.one_apply] at this
    rw [Matrix.mul_apply, Matrix.one_apply]
    simp only [Fin.castLE_inj] at this
    rw [← this]
    exact Finset.sum_congr rfl fun i _ => by rw [Matrix.transpose_apply, Matrix.transpose_apply, hU, hU]
  · ext k l
    have := congrFun (congrFun hVV (Fin.castLE hr k)) (Fin.castLE hr l)
    rw [Matrix.mul_apply, Matrix.one_apply] at this
    rw [Matrix.mul_apply, Matrix.one_apply]
    simp only [Fin.castLE_inj] at this
    rw [← this]
    exact Finset.sum_congr rfl fun i _ => by rw [Matrix.transpose_apply, Matrix.transpose_apply, hV, hV]
  · rw [← hA, Matrix.mul_assoc U]
    congr 1
    rw [← Matrix.mul_assoc, ← Matrix.mul_assoc, e1]
    ext k j
    rw [Matrix.diagonal_mul, Matrix.mul_apply]
    simp only [Matrix.mul_diagonal, Matrix.of_apply, ite_mul, one_mul, zero_mul]
    rw [Finset.sum_ite_eq Finset.univ (Fin.castLE hr k), if_pos (Finset.mem_univ _), hs, hV]

/-- Two truncated decompositions of the same matrix leave the same error. -/
theorem truncated_energy {m n r : ℕ} {A : Matrix (Fin m) (Fin n) ℝ} {U U₂ : Matrix (Fin m) (Fin r) ℝ}
    {s s₂ : Fin r → ℝ} {V V₂ : Matrix (Fin r) (Fin n) ℝ} (h : TruncatedSvd A U s V) (h₂ : TruncatedSvd A U₂ s₂ V₂) :
    sqSum (U.transpose * A) = sqSum (U₂.transpose * A) := by
  have e : ∀ {U : Matrix (Fin m) (Fin r) ℝ} {s : Fin r → ℝ} {V : Matrix (Fin r) (Fin n) ℝ}, TruncatedSvd A U s V →
      sqSum (A - U * diagonal s * V) = sqSum A - sqSum (U.transpose * A) := by
    intro U s V h
    obtain ⟨hU, -, hY⟩ := truncated_orth h
    have h0 : sqSum (0 : Matrix (Fin r) (Fin n) ℝ) = 0 := by simp [sqSum]
    rw [hY, sqSum_proj hU, sub_self, h0, add_zero]
  have h1 := best_approximation A U s V h U₂ (diagonal s₂ * V₂)
  have h2 := best_approximation A U₂ s₂ V₂ h₂ U (diagonal s * V)
  rw [← Matrix.mul_assoc, e h, e h₂] at h1
  rw [← Matrix.mul_assoc, e h, e h₂] at h2
  linarith

/-- **Uniqueness.** With a gap the product of a truncated decomposition is determined by the matrix. -/
theorem truncated_unique {m n r : ℕ} {A : Matrix (Fin m) (Fin n) ℝ} (hgap : SpectralGap r A)
    {U U₂ : Matrix (Fin m) (Fin r) ℝ} {s s₂ : Fin r → ℝ} {V V₂ : Matrix (Fin r) (Fin n) ℝ}
    (h : TruncatedSvd A U s V) (h₂ : TruncatedSvd A U₂ s₂ V₂) :
    U * diagonal s * V = U₂ * diagonal s₂ * V₂ := by
  have hle : r ≤ min m n := by obtain ⟨-, -, -, h, -⟩ := h; exact h
  obtain ⟨U', s', V', hA, hUU, hVV, h0, hd, hg⟩ := hgap
  have hT : TruncatedSvd A (Matrix.of fun i k => U' i (Fin.castLE hle k)) (fun k => s' (Fin.castLE hle k))
      (Matrix.of fun k j => V' (Fin.castLE hle k) j) :=
    ⟨U', s', V', hle, hA, hUU, hVV, h0, hd, fun _ _ => rfl, fun _ => rfl, fun _ _ => rfl⟩
  suffices H : ∀ (Q : Matrix (Fin m) (Fin r) ℝ) (t : Fin r → ℝ) (W : Matrix (Fin r) (Fin n) ℝ), TruncatedSvd A Q t W →
      Q * diagonal t * W = (Matrix.of fun i k => U' i (Fin.castLE hle k)) *
        diagonal (fun k => s' (Fin.castLE hle k)) * (Matrix.of fun k j => V' (Fin.castLE hle k) j) by
    rw [H _ _ _ h, H _ _ _ h₂]
  clear h h₂
  intro Q t W hQ
  rcases Nat.lt_or_ge r (min m n) with hr | hr
  · have hEn := truncated_energy hT hQ
    obtain ⟨hQQ, -, hY⟩ := truncated_orth hQ
    obtain ⟨hTT, -, hZ⟩ := truncated_orth hT
    rw [hY, hZ]
    generalize hP : (Matrix.of fun i k => U' i (Fin.castLE hle k) : Matrix (Fin m) (Fin r) ℝ) = P at *
    have energy : ∀ X : Matrix (Fin m) (Fin r) ℝ,
        sqSum (X.transpose * A) = ∑ k, (∑ i, (X.transpose * U') i k ^ 2) * s' k ^ 2 := by
      intro X
      rw [← hA, ← Matrix.mul_assoc, sqSum_orth_right hVV, ← Matrix.mul_assoc, sqSum_mul_diagonal]
    have t1 : ∀ k, ∑ i, (Q.transpose * U') i k ^ 2 ≤ 1 ∧
        (∑ i, (Q.transpose * U') i k ^ 2 = 1 → ∀ i, (Q * (Q.transpose * U')) i k = U' i k) := by
      intro k
      have l1 : sqSum (Q.transpose * U'.submatrix id (fun _ : Fin 1 => k)) = ∑ i, (Q.transpose * U') i k ^ 2 := by
        unfold sqSum
        refine Finset.sum_congr rfl fun i _ => ?_
        rw [Fin.sum_univ_one]
        rfl
      have l2 : sqSum (U'.submatrix id (fun _ : Fin 1 => k)) = 1 := by
        have := congrFun (congrFun hUU k) k
        rw [Matrix.mul_apply, Matrix.one_apply_eq] at this
        rw [← this]
        unfold sqSum
        refine Finset.sum_congr rfl fun i _ => ?_
        rw [Fin.sum_univ_one, Matrix.submatrix_apply, Matrix.transpose_apply, sq]
        rfl
      have hc := sqSum_contract hQQ (U'.submatrix id (fun _ : Fin 1 => k))
      rw [l1, l2] at hc
      refine ⟨hc, fun he i => ?_⟩
      have hp := sqSum_proj hQQ (U'.submatrix id (fun _ : Fin 1 => k)) (Q.transpose * U'.submatrix id (fun _ : Fin 1 => k))
      have hz : sqSum (0 : Matrix (Fin r) (Fin 1) ℝ) = 0 := by simp [sqSum]
      rw [l1, l2, he, sub_self, sub_self, hz, add_zero] at hp
      have := congrFun (congrFun (sqSum_eq_zero hp) i) 0
      rw [Matrix.sub_apply, Matrix.zero_apply, sub_eq_zero] at this
      rw [Matrix.submatrix_apply] at this
      exact this.symm
    have t2 : ∑ k, ∑ i, (Q.transpose * U') i k ^ 2 ≤ (r : ℝ) := by
      have hc := sqSum_contract hUU Q
      rw [sqSum_orth_self hQQ, ← sqSum_transpose, Matrix.transpose_mul, Matrix.transpose_transpose] at hc
      have : sqSum (Q.transpose * U') = ∑ k, ∑ i, (Q.transpose * U') i k ^ 2 := by
        unfold sqSum
        rw [Finset.sum_comm]
      rw [← this]
      exact hc
    have hPU : ∀ k : Fin (min m n), ∑ i, (P.transpose * U') i k ^ 2 = if (k : ℕ) < r then 1 else 0 := by
      intro k
      have e1 : ∀ i : Fin r, (P.transpose * U') i k = if Fin.castLE hle i = k then (1 : ℝ) else 0 := by
        intro i
        have := congrFun (congrFun hUU (Fin.castLE hle i)) k
        rw [Matrix.mul_apply, Matrix.one_apply] at this
        rw [Matrix.mul_apply, ← this, ← hP]
        exact Finset.sum_congr rfl fun i _ => by rw [Matrix.transpose_apply, Matrix.transpose_apply, Matrix.of_apply]
      simp only [e1, ite_pow, one_pow, ne_eq, OfNat.ofNat_ne_zero, not_false_eq_true, zero_pow]
      split
      · rename_i hk
        rw [Finset.sum_eq_single (⟨k, hk⟩ : Fin r)]
        · exact if_pos (Fin.ext rfl)
        · intro b _ hb
          rw [if_neg]
          intro hc
          exact hb (Fin.ext (congrArg (fun x : Fin (min m n) => (x : ℕ)) hc))
        · intro hc; exact absurd (Finset.mem_univ _) hc
      · rename_i hk
        refine Finset.sum_eq_zero fun b _ => if_neg fun hc => hk ?_
        rw [← hc]
        exact b.2
    have hw := weights_one (r := r) (fun k => s' k ^ 2) (fun k => ∑ i, (Q.transpose * U') i k ^ 2)
      (fun k => sq_nonneg _) (fun i j hij => pow_le_pow_left₀ (h0 j) (hd i j hij) 2)
      (fun k => Finset.sum_nonneg fun i _ => sq_nonneg _) (fun k => (t1 k).1) t2 hr
      (fun i hi => by
        have := hg i ⟨r, hr⟩ hi (le_refl r)
        have := h0 ⟨r, hr⟩
        show s' ⟨r, hr⟩ ^ 2 < s' i ^ 2
        nlinarith) (by
          rw [energy, energy] at hEn
          simp only [hPU] at hEn
          exact hEn.le)
    have hQP : Q * (Q.transpose * P) = P := by
      ext i k
      have := (t1 (Fin.castLE hle k)).2 (hw _ k.2) i
      rw [← hP, Matrix.of_apply, ← this, Matrix.mul_apply, Matrix.mul_apply]
      refine Finset.sum_congr rfl fun l _ => ?_
      rw [Matrix.mul_apply, Matrix.mul_apply]
      rfl
    have hM : (Q.transpose * P).transpose * (Q.transpose * P) = 1 := by
      rw [Matrix.transpose_mul, Matrix.transpose_transpose, Matrix.mul_assoc, hQP, hTT]
    have hM2 := mul_eq_one_comm.1 hM
    have hproj : Q * Q.transpose = P * P.transpose := by
      generalize Q.transpose * P = M at hQP hM hM2
      have hQ2 : Q = P * M.transpose := by rw [← hQP, Matrix.mul_assoc, hM2, Matrix.mul_one]
      rw [hQ2, Matrix.transpose_mul, Matrix.transpose_transpose, Matrix.mul_assoc, ← Matrix.mul_assoc M.transpose, hM,
        Matrix.one_mul]
    rw [← Matrix.mul_assoc, hproj, Matrix.mul_assoc]
  · have full : ∀ {X : Matrix (Fin m) (Fin r) ℝ} {t : Fin r → ℝ} {W : Matrix (Fin r) (Fin n) ℝ}, TruncatedSvd A X t W →
        X * diagonal t * W = A := by
      intro X t W hX
      obtain ⟨U₁, s₁, V₁, hle', hA', -, -, -, -, hU, hs, hV⟩ := hX
      have := truncated_residual hle' U₁ s₁ V₁ X t W hU hs hV
      have hz : (fun k : Fin (min m n) => if (k : ℕ) < r then 0 else s₁ k) = fun _ => 0 := by
        funext k
        rw [if_pos (lt_of_lt_of_le k.2 hr)]
      rw [hA', hz] at this
      have hd0 : diagonal (fun _ : Fin (min m n) => (0 : ℝ)) = 0 := Matrix.diagonal_zero
      rw [hd0, Matrix.mul_zero, Matrix.zero_mul, sub_eq_zero] at this
      exact this.symm
    rw [full hQ, full hT]

end DynCF
