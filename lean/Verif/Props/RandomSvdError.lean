/-
C165: the expected error of `random_svd` with normal draws.
-/
import Verif.Lemmas.SketchError
import Verif.Props.AlmostSure

namespace DynCF
open MeasureTheory Matrix ProbabilityTheory

variable {Ω : Type} [MeasurableSpace Ω]

/-- `x = U diag(s) V` is a singular value decomposition: orthonormal columns and rows, non-negative and non-increasing
singular values. -/
structure IsSvd {m n R : ℕ} (x : Matrix (Fin m) (Fin n) ℝ) (U : Matrix (Fin m) (Fin R) ℝ) (s : Fin R → ℝ)
    (V : Matrix (Fin R) (Fin n) ℝ) : Prop where
  eq : U * diagonal s * V = x
  left : U.transpose * U = 1
  right : V * V.transpose = 1
  nonneg : ∀ i, 0 ≤ s i
  anti : ∀ i j, i ≤ j → s j ≤ s i

/-- the sum of the squares of all singular values but the first `k` -/
def tailSq {R : ℕ} (k : ℕ) (s : Fin R → ℝ) : ℝ := ∑ i : Fin R, if (i : ℕ) < k then 0 else s i ^ 2

/-- every singular value after the first `k` is at most `ρ` times every one of the first `k` -/
def GapLe {R : ℕ} (k : ℕ) (s : Fin R → ℝ) (ρ : ℝ) : Prop :=
  0 ≤ ρ ∧ ∀ i j : Fin R, (i : ℕ) < k → k ≤ (j : ℕ) → s j ≤ ρ * s i

/-! ### Lemmas -/

theorem det_of_fullRows {k l : ℕ} {G : Matrix (Fin k) (Fin l) ℝ} (h : FullRows G) : (G * G.transpose).det ≠ 0 := by
  obtain ⟨B, hB⟩ := h
  intro h0
  obtain ⟨v, hv, h1⟩ := Matrix.exists_mulVec_eq_zero_iff.2 h0
  have h2 : G.transpose *ᵥ v = 0 := by
    rw [← dotProduct_self_eq_zero]
    have := congrArg (v ⬝ᵥ ·) h1
    simp only [dotProduct_zero] at this
    rw [← Matrix.mulVec_mulVec, Matrix.dotProduct_mulVec, ← Matrix.mulVec_transpose] at this
    exact this
  apply hv
  have h3 : (G * B).transpose *ᵥ v = B.transpose *ᵥ (G.transpose *ᵥ v) := by
    rw [Matrix.transpose_mul, Matrix.mulVec_mulVec]
  rw [hB, h2, Matrix.transpose_one, Matrix.one_mulVec, Matrix.mulVec_zero] at h3
  exact h3

theorem tailSq_nonneg {R : ℕ} (k : ℕ) (s : Fin R → ℝ) : 0 ≤ tailSq k s :=
  Finset.sum_nonneg fun i _ => by
    split
    · exact le_rfl
    · exact sq_nonneg _

/-- more than `k` positive singular values -/
theorem svd_positive {m n R k : ℕ} {x : Matrix (Fin m) (Fin n) ℝ} {U : Matrix (Fin m) (Fin R) ℝ} {s : Fin R → ℝ}
    {V : Matrix (Fin R) (Fin n) ℝ} (h : IsSvd x U s V) (hk : k < x.rank) :
    k < R ∧ ∀ i : Fin R, (i : ℕ) < k → s i ≠ 0 := by
  have h1 : x.rank ≤ (diagonal s).rank := by
    rw [← h.eq]
    exact (Matrix.rank_mul_le_left _ _).trans (Matrix.rank_mul_le_right _ _)
  have h2 := (diagonal s).rank_le_width
  refine ⟨by omega, fun i hi h0 => ?_⟩
  rw [Matrix.rank_diagonal] at h1
  have h3 : Fintype.card {j // s j ≠ 0} ≤ Fintype.card (Fin i) := by
    refine Fintype.card_le_of_injective (fun j => ⟨j.1, ?_⟩) ?_
    · by_contra hj
      have hij : i ≤ j.1 := not_lt.1 hj
      exact j.2 (le_antisymm ((h.anti _ _ hij).trans h0.le) (h.nonneg _))
    · intro a b hab
      exact Subtype.ext (Fin.ext (Fin.mk.inj hab))
  rw [Fintype.card_fin] at h3
  omega

/-- the matrix in a basis that starts with the right singular vectors -/
theorem svd_rotated {m n R : ℕ} {x : Matrix (Fin m) (Fin n) ℝ} {U : Matrix (Fin m) (Fin R) ℝ} {s : Fin R → ℝ}
    {V : Matrix (Fin R) (Fin n) ℝ} (h : IsSvd x U s V) :
    ∃ (hR : R ≤ n) (O : Matrix (Fin n) (Fin n) ℝ) (D : Matrix (Fin m) (Fin n) ℝ) (σ : Fin n → ℝ),
      O * O.transpose = 1 ∧ D * O = x ∧ D.transpose * D = diagonal (fun i => σ i ^ 2) ∧
      (∀ i, σ (Fin.castLE hR i) = s i) ∧ ∀ i : Fin n, R ≤ (i : ℕ) → σ i = 0 := by
  obtain ⟨hR, O, hO, hOV⟩ := complete_rows V h.right
  have hO' : O.transpose * O = 1 := mul_eq_one_comm.1 hO
  let σ : Fin n → ℝ := fun i => if hi : (i : ℕ) < R then s ⟨i, hi⟩ else 0
  have hV : V = (Matrix.of fun (i : Fin R) j => O (Fin.castLE hR i) j) := by
    ext i j
    exact (hOV i j).symm
  have hVO : V * O.transpose = Matrix.of fun (i : Fin R) j => if Fin.castLE hR i = j then (1 : ℝ) else 0 := by
    ext i j
    have := congrFun (congrFun hO (Fin.castLE hR i)) j
    rw [Matrix.mul_apply, Matrix.one_apply] at this
    rw [Matrix.mul_apply, hV]
    exact this
  refine ⟨hR, O, x * O.transpose, σ, hO, ?_, ?_, ?_, ?_⟩
  · rw [Matrix.mul_assoc, hO', Matrix.mul_one]
  · have e : (x * O.transpose).transpose * (x * O.transpose) =
        (V * O.transpose).transpose * diagonal (fun i => s i * s i) * (V * O.transpose) := by
      rw [← h.eq, ← Matrix.diagonal_mul_diagonal]
      simp only [Matrix.transpose_mul, Matrix.mul_assoc, Matrix.diagonal_transpose, Matrix.transpose_transpose]
      rw [← Matrix.mul_assoc U.transpose U, h.left, Matrix.one_mul]
    rw [e, hVO]
    ext i j
    rw [Matrix.mul_apply, Matrix.diagonal_apply]
    simp only [Matrix.mul_diagonal, Matrix.transpose_apply, Matrix.of_apply]
    by_cases hi : (i : ℕ) < R
    · rw [Finset.sum_eq_single ⟨i, hi⟩]
      · have e1 : Fin.castLE hR ⟨i, hi⟩ = i := rfl
        rw [e1]
        simp [σ, hi, pow_two]
      · intro a _ ha
        have : Fin.castLE hR a ≠ i := fun e => ha (by subst e; rfl)
        rw [if_neg this, zero_mul, zero_mul]
      · simp
    · rw [Finset.sum_eq_zero]
      · simp [σ, hi]
      · intro a _
        rw [if_neg, zero_mul, zero_mul]
        rintro rfl
        exact hi a.2
  · intro i
    exact dif_pos i.2
  · intro i hi
    exact dif_neg (by omega)

/-- the coefficients of the entries of the rotated draw in the part of the error that depends on it -/
noncomputable def errCoef {m n l k : ℕ} (hk : k ≤ n) (D : Matrix (Fin m) (Fin n) ℝ) (τ : Fin n → ℝ)
    (w : Fin n × Fin l → ℝ) (p : Fin m × Fin k) (q : Fin n × Fin l) : ℝ :=
  if (q.1 : ℕ) < k then 0 else D p.1 q.1 * τ q.1 * rightInv (topRows k hk w) q.2 p.2 * (τ (Fin.castLE hk p.2))⁻¹

theorem measurable_errCoef {m n l k : ℕ} (hk : k ≤ n) (D : Matrix (Fin m) (Fin n) ℝ) (τ : Fin n → ℝ) (p : Fin m × Fin k)
    (q : Fin n × Fin l) : Measurable fun w => errCoef hk D τ w p q := by
  unfold errCoef
  split
  · exact measurable_const
  · have := measurable_rightInv (fun w : Fin n × Fin l → ℝ => topRows k hk w)
      (fun j b => by unfold topRows; simp only [Matrix.of_apply]; fun_prop) q.2 p.2
    fun_prop

/-- the mean of the part of the error that depends on the draw -/
theorem errCoef_mean {m n l k : ℕ} (hk : k ≤ n) (hl : k + 2 ≤ l) (D : Matrix (Fin m) (Fin n) ℝ) (τ : Fin n → ℝ)
    (c : ℝ) (hc : ∀ (i : Fin n) (b : Fin k), k ≤ (i : ℕ) → (τ i * (τ (Fin.castLE hk b))⁻¹) ^ 2 ≤ c) :
    ∫⁻ w, ENNReal.ofReal (∑ p, (∑ q, errCoef hk D τ w p q * w q) ^ 2) ∂stdN (Fin n × Fin l) ≤
      ENNReal.ofReal (c * (k / ((l : ℝ) - k - 1)) * ∑ a, ∑ i : Fin n, if (i : ℕ) < k then 0 else D a i ^ 2) := by
  rw [cond_second_moment (fun q : Fin n × Fin l => (q.1 : ℕ) < k) (errCoef hk D τ) (measurable_errCoef hk D τ)]
  · set t := ∑ a, ∑ i : Fin n, if (i : ℕ) < k then 0 else D a i ^ 2 with ht
    have ht0 : 0 ≤ t := Finset.sum_nonneg fun a _ => Finset.sum_nonneg fun i _ => by
      split
      · exact le_rfl
      · exact sq_nonneg _
    have hb : ∀ w : Fin n × Fin l → ℝ, ∑ p, ∑ q, errCoef hk D τ w p q ^ 2 ≤
        c * t * ∑ a, ∑ i, rightInv (topRows k hk w) a i ^ 2 := by
      intro w
      have e1 : ∀ (p : Fin m × Fin k) (q : Fin n × Fin l), errCoef hk D τ w p q ^ 2 ≤
          c * (if (q.1 : ℕ) < k then 0 else D p.1 q.1 ^ 2) * rightInv (topRows k hk w) q.2 p.2 ^ 2 := by
        intro p q
        unfold errCoef
        by_cases hq : (q.1 : ℕ) < k
        · simp [hq]
        · rw [if_neg hq, if_neg hq]
          have := mul_le_mul_of_nonneg_right (hc q.1 p.2 (not_lt.1 hq))
            (sq_nonneg (D p.1 q.1 * rightInv (topRows k hk w) q.2 p.2))
          calc _ = (τ q.1 * (τ (Fin.castLE hk p.2))⁻¹) ^ 2 * (D p.1 q.1 * rightInv (topRows k hk w) q.2 p.2) ^ 2 := by ring
            _ ≤ _ := this
            _ = _ := by ring
      refine (Finset.sum_le_sum fun p _ => Finset.sum_le_sum fun q _ => e1 p q).trans (le_of_eq ?_)
      rw [Fintype.sum_prod_type]
      simp only [Fintype.sum_prod_type]
      have e2 : ∀ (a : Fin m) (i : Fin n), (∑ b : Fin k, ∑ j : Fin l, c * (if (i : ℕ) < k then 0 else D a i ^ 2) *
          rightInv (topRows k hk w) j b ^ 2) = c * (if (i : ℕ) < k then 0 else D a i ^ 2) *
            ∑ j, ∑ b, rightInv (topRows k hk w) j b ^ 2 := by
        intro a i
        rw [Finset.sum_comm, Finset.mul_sum]
        exact Finset.sum_congr rfl fun j _ => by rw [Finset.mul_sum]
      have e3 : ∀ a : Fin m, (∑ b : Fin k, ∑ i : Fin n, ∑ j : Fin l, c * (if (i : ℕ) < k then 0 else D a i ^ 2) *
          rightInv (topRows k hk w) j b ^ 2) = ∑ i : Fin n, c * (if (i : ℕ) < k then 0 else D a i ^ 2) *
            ∑ j, ∑ b, rightInv (topRows k hk w) j b ^ 2 := by
        intro a
        rw [Finset.sum_comm]
        exact Finset.sum_congr rfl fun i _ => e2 a i
      simp_rw [e3, ← Finset.sum_mul, ← Finset.mul_sum]
      rfl
    rcases Nat.eq_zero_or_pos k with h0 | h0
    · subst h0
      simp
    by_cases hn : ∃ i : Fin n, k ≤ (i : ℕ)
    · have hc0 : 0 ≤ c := by
        obtain ⟨i, hi⟩ := hn
        exact (sq_nonneg _).trans (hc i ⟨0, h0⟩ hi)
      calc ∫⁻ w, ENNReal.ofReal (∑ p, ∑ q, errCoef hk D τ w p q ^ 2) ∂stdN (Fin n × Fin l)
          ≤ ∫⁻ w, ENNReal.ofReal (c * t) * ENNReal.ofReal (∑ a, ∑ i, rightInv (topRows k hk w) a i ^ 2)
              ∂stdN (Fin n × Fin l) := by
            refine lintegral_mono fun w => ?_
            rw [← ENNReal.ofReal_mul (mul_nonneg hc0 ht0)]
            exact ENNReal.ofReal_le_ofReal (hb w)
        _ ≤ ENNReal.ofReal (c * t) * ENNReal.ofReal (k / ((l : ℝ) - k - 1)) := by
            rw [lintegral_const_mul' _ _ ENNReal.ofReal_ne_top]
            gcongr
            exact rightInv_mean hk hl
        _ = _ := by
            rw [← ENNReal.ofReal_mul (mul_nonneg hc0 ht0)]
            congr 1
            ring
    · have ht1 : t = 0 := by
        rw [ht]
        refine Finset.sum_eq_zero fun a _ => Finset.sum_eq_zero fun i _ => if_pos ?_
        by_contra h
        exact hn ⟨i, not_lt.1 h⟩
      have : ∀ w : Fin n × Fin l → ℝ, ∑ p, ∑ q, errCoef hk D τ w p q ^ 2 ≤ 0 := fun w => by
        have := hb w
        rwa [ht1, mul_zero, zero_mul] at this
      simp [ENNReal.ofReal_of_nonpos (this _)]
  · intro w w' hw
    have : topRows k hk w = topRows k hk w' := by
      ext i a
      exact hw (Fin.castLE hk i, a) i.2
    funext p q
    unfold errCoef
    rw [this]
  · intro w p q hq
    exact if_pos hq

theorem conj_pow {n : ℕ} {O : Matrix (Fin n) (Fin n) ℝ} (hO : O * O.transpose = 1) (A : Matrix (Fin n) (Fin n) ℝ) (q : ℕ) :
    (O.transpose * A * O) ^ q = O.transpose * A ^ q * O := by
  induction q with
  | zero => rw [pow_zero, pow_zero, Matrix.mul_one, mul_eq_one_comm.1 hO]
  | succ q ih =>
    rw [pow_succ, ih, pow_succ]
    simp only [Matrix.mul_assoc]
    rw [← Matrix.mul_assoc O, hO, Matrix.one_mul]

theorem tail_rotated {m n R k : ℕ} {s : Fin R → ℝ} {hR : R ≤ n} {D : Matrix (Fin m) (Fin n) ℝ} {σ : Fin n → ℝ}
    (hD : D.transpose * D = diagonal (fun i => σ i ^ 2)) (h1 : ∀ i, σ (Fin.castLE hR i) = s i)
    (h2 : ∀ i : Fin n, R ≤ (i : ℕ) → σ i = 0) :
    (∑ a, ∑ i : Fin n, if (i : ℕ) < k then 0 else D a i ^ 2) = tailSq k s := by
  rw [Finset.sum_comm]
  have e : ∀ i : Fin n, (∑ a, if (i : ℕ) < k then 0 else D a i ^ 2) = if (i : ℕ) < k then 0 else σ i ^ 2 := by
    intro i
    by_cases hi : (i : ℕ) < k
    · simp [hi]
    · simp only [hi, if_false]
      have := congrFun (congrFun hD i) i
      rw [Matrix.mul_apply, Matrix.diagonal_apply_eq] at this
      rw [← this]
      exact Finset.sum_congr rfl fun a _ => by rw [Matrix.transpose_apply, pow_two]
  simp_rw [e]
  rw [sum_split hR, Finset.sum_eq_zero (s := (Finset.univ : Finset (Fin n))), add_zero]
  · unfold tailSq
    exact Finset.sum_congr rfl fun i _ => by rw [h1, Fin.val_castLE]
  · intro i _
    by_cases hi : (i : ℕ) < R
    · rw [if_pos hi]
    · rw [if_neg hi, h2 i (by omega)]
      simp

/-- the sketch in the rotated basis -/
theorem sketch_rotated {m n l : ℕ} {x D : Matrix (Fin m) (Fin n) ℝ} {O : Matrix (Fin n) (Fin n) ℝ} {σ : Fin n → ℝ}
    (hO : O * O.transpose = 1) (hDO : D * O = x) (hDD : D.transpose * D = diagonal (fun i => σ i ^ 2)) (q : ℕ)
    (A : Matrix (Fin n) (Fin l) ℝ) :
    (x * x.transpose) ^ q * (x * A) = D * diagonal (fun i => (σ i ^ 2) ^ q) * (O * A) := by
  have h2 : x.transpose * x = O.transpose * diagonal (fun i => σ i ^ 2) * O := by
    rw [← hDO, Matrix.transpose_mul, Matrix.mul_assoc, ← Matrix.mul_assoc D.transpose, hDD, ← Matrix.mul_assoc]
  have h3 : diagonal (fun i => σ i ^ 2) ^ q = diagonal (fun i => (σ i ^ 2) ^ q) := by
    rw [Matrix.diagonal_pow]
    rfl
  rw [← Matrix.mul_assoc, pow_mul_gram, h2, conj_pow hO, h3, ← hDO]
  simp only [Matrix.mul_assoc]
  rw [← Matrix.mul_assoc O O.transpose, hO, Matrix.one_mul]

/-- the bound as a function of the draw -/
noncomputable def errBound {m n l k : ℕ} (hk : k ≤ n) (D : Matrix (Fin m) (Fin n) ℝ) (τ : Fin n → ℝ)
    (O : Matrix (Fin n) (Fin n) ℝ) (t : ℝ) (w : Fin n × Fin l → ℝ) : ENNReal :=
  ENNReal.ofReal t + ENNReal.ofReal (∑ p : Fin m × Fin k, (∑ q, errCoef hk D τ (fun q => ∑ y, O q.1 y * w (y, q.2)) p q *
    ∑ y, O q.1 y * w (y, q.2)) ^ 2)

theorem measurable_errBound {m n l k : ℕ} (hk : k ≤ n) (D : Matrix (Fin m) (Fin n) ℝ) (τ : Fin n → ℝ)
    (O : Matrix (Fin n) (Fin n) ℝ) (t : ℝ) :
    Measurable fun w : Fin n × Fin l → ℝ => errBound hk D τ O t w := by
  have h1 : Measurable fun (w : Fin n × Fin l → ℝ) (q : Fin n × Fin l) => ∑ y, O q.1 y * w (y, q.2) := by fun_prop
  have h2 : ∀ p q, Measurable fun w : Fin n × Fin l → ℝ => errCoef hk D τ (fun q => ∑ y, O q.1 y * w (y, q.2)) p q :=
    fun p q => (measurable_errCoef hk D τ p q).comp h1
  unfold errBound
  fun_prop

theorem errBound_mean {m n l k : ℕ} (hk : k ≤ n) (hl : k + 2 ≤ l) (D : Matrix (Fin m) (Fin n) ℝ) (τ : Fin n → ℝ)
    (O : Matrix (Fin n) (Fin n) ℝ) (hO : O * O.transpose = 1) (t c : ℝ)
    (hc : ∀ (i : Fin n) (b : Fin k), k ≤ (i : ℕ) → (τ i * (τ (Fin.castLE hk b))⁻¹) ^ 2 ≤ c)
    (ht : (∑ a, ∑ i : Fin n, if (i : ℕ) < k then 0 else D a i ^ 2) = t) :
    ∫⁻ w, errBound hk D τ O t w ∂stdN (Fin n × Fin l) ≤
      ENNReal.ofReal t + ENNReal.ofReal (c * (k / ((l : ℝ) - k - 1)) * t) := by
  have h := errCoef_mean hk hl D τ c hc
  have hm : Measurable fun w : Fin n × Fin l → ℝ =>
      ENNReal.ofReal (∑ p, (∑ q, errCoef hk D τ w p q * w q) ^ 2) := by
    have := measurable_errCoef (l := l) hk D τ
    fun_prop
  rw [ht, ← (mul_preserves (l := l) O hO).lintegral_comp hm] at h
  unfold errBound
  rw [lintegral_add_left measurable_const, lintegral_const, measure_univ, mul_one]
  gcongr

/-- the error is at most the bound if the first rows of the rotated draw are independent -/
theorem error_le_errBound (la : LinAlg ℝ) (rng : Rng ℝ) {m n : ℕ} (x D : Matrix (Fin m) (Fin n) ℝ) (rank nPower os : ℕ)
    (hok : RsvdOk la rng x rank nPower os) (hk : rank ≤ n) {O : Matrix (Fin n) (Fin n) ℝ} {σ : Fin n → ℝ}
    (hO : O * O.transpose = 1) (hDO : D * O = x) (hDD : D.transpose * D = diagonal (fun i => σ i ^ 2))
    (hτ : ∀ b : Fin rank, (σ (Fin.castLE hk b) ^ 2) ^ nPower ≠ 0) {t : ℝ} (ht0 : 0 ≤ t)
    (ht : (∑ a, ∑ i : Fin n, if (i : ℕ) < rank then 0 else D a i ^ 2) = t)
    (hw : FullRows ((Matrix.of fun (i : Fin rank) j => O (Fin.castLE hk i) j) * rng n (rank + os))) :
    ∃ (k : ℕ) (U' : Matrix (Fin m) (Fin k) ℝ) (s' : Fin k → ℝ) (V' : Matrix (Fin k) (Fin n) ℝ),
      randomSvd la rng ⟨m, n, x⟩ rank nPower os = (⟨m, k, U'⟩, ⟨k, s'⟩, ⟨k, n, V'⟩) ∧
      ENNReal.ofReal (sqSum (x - U' * diagonal s' * V')) ≤
        errBound hk D (fun i => (σ i ^ 2) ^ nPower) O t fun q => rng n (rank + os) q.1 q.2 := by
  obtain ⟨k, U', s', V', e, hbest⟩ := C154_sampled la rng x rank nPower os hok
  refine ⟨k, U', s', V', e, ?_⟩
  generalize rng n (rank + os) = A at hbest hw
  have htop : (topRows rank hk (fun q => ∑ y, O q.1 y * A y q.2) : Matrix (Fin rank) (Fin (rank + os)) ℝ) =
      (Matrix.of fun (i : Fin rank) j => O (Fin.castLE hk i) j) * A := by
    ext i a
    rw [Matrix.mul_apply]
    rfl
  have hdet := det_of_fullRows hw
  rw [← htop] at hdet
  have hM := mul_rightInv _ hdet
  have hsplit := sketch_split hk D (fun i => (σ i ^ 2) ^ nPower) hτ (O * A)
    (rightInv (topRows rank hk (fun q => ∑ y, O q.1 y * A y q.2) : Matrix (Fin rank) (Fin (rank + os)) ℝ)) (by
    intro i b
    have := congrFun (congrFun hM i) b
    rw [Matrix.mul_apply, Matrix.one_apply] at this
    exact this)
  have hb := hbest (rightInv (topRows rank hk (fun q => ∑ y, O q.1 y * A y q.2) : Matrix (Fin rank) (Fin (rank + os)) ℝ) *
    diagonal (fun b => ((σ (Fin.castLE hk b) ^ 2) ^ nPower)⁻¹) *
    (Matrix.of fun (b : Fin rank) i => if i = Fin.castLE hk b then (1 : ℝ) else 0) * O) (by
    rw [← Matrix.mul_assoc, ← Matrix.mul_assoc]
    refine (Matrix.rank_mul_le_left _ _).trans ((Matrix.rank_mul_le_left _ _).trans ?_)
    exact Matrix.rank_le_width _)
  rw [sketch_rotated hO hDO hDD, ← Matrix.mul_assoc _ _ O] at hb
  nth_rw 2 [← hDO] at hb
  rw [← Matrix.sub_mul, sqSum_orth_right hO, hsplit, ht] at hb
  refine (ENNReal.ofReal_le_ofReal hb).trans (le_of_eq ?_)
  rw [ENNReal.ofReal_add ht0 (Finset.sum_nonneg fun a _ => Finset.sum_nonneg fun b _ => sq_nonneg _)]
  unfold errBound
  congr 2
  rw [Fintype.sum_prod_type]
  refine Finset.sum_congr rfl fun a _ => Finset.sum_congr rfl fun b _ => ?_
  rw [Fintype.sum_prod_type]
  rfl

/-- all that the bound needs, from a singular value decomposition -/
theorem svd_setting {m n R rank : ℕ} {x : Matrix (Fin m) (Fin n) ℝ} {U : Matrix (Fin m) (Fin R) ℝ} {s : Fin R → ℝ}
    {V : Matrix (Fin R) (Fin n) ℝ} (hx : IsSvd x U s V) (nPower : ℕ) (hr : rank < x.rank) {ρ : ℝ} (hρ : GapLe rank s ρ) :
    ∃ (hk : rank ≤ n) (O : Matrix (Fin n) (Fin n) ℝ) (D : Matrix (Fin m) (Fin n) ℝ) (σ : Fin n → ℝ),
      O * O.transpose = 1 ∧ D * O = x ∧ D.transpose * D = diagonal (fun i => σ i ^ 2) ∧
      (∀ b : Fin rank, (σ (Fin.castLE hk b) ^ 2) ^ nPower ≠ 0) ∧
      (∀ (i : Fin n) (b : Fin rank), rank ≤ (i : ℕ) →
        ((σ i ^ 2) ^ nPower * ((σ (Fin.castLE hk b) ^ 2) ^ nPower)⁻¹) ^ 2 ≤ ρ ^ (4 * nPower)) ∧
      (∑ a, ∑ i : Fin n, if (i : ℕ) < rank then 0 else D a i ^ 2) = tailSq rank s := by
  obtain ⟨hkR, hpos⟩ := svd_positive hx hr
  obtain ⟨hR, O, D, σ, hO, hDO, hDD, hσ, hσ0⟩ := svd_rotated hx
  have hk : rank ≤ n := by omega
  have hlow : ∀ b : Fin rank, σ (Fin.castLE hk b) = s ⟨b, by omega⟩ := fun b => hσ ⟨b, by omega⟩
  have hlpos : ∀ b : Fin rank, 0 < σ (Fin.castLE hk b) := fun b => by
    rw [hlow]
    exact lt_of_le_of_ne (hx.nonneg _) (Ne.symm (hpos _ b.2))
  have hσnn : ∀ i, 0 ≤ σ i := fun i => by
    by_cases hi : (i : ℕ) < R
    · have := hσ ⟨i, hi⟩
      have e : Fin.castLE hR ⟨i, hi⟩ = i := rfl
      rw [e] at this
      rw [this]
      exact hx.nonneg _
    · rw [hσ0 i (by omega)]
  have hgap : ∀ (i : Fin n) (b : Fin rank), rank ≤ (i : ℕ) → σ i ≤ ρ * σ (Fin.castLE hk b) := by
    intro i b hi
    by_cases hiR : (i : ℕ) < R
    · have h1 := hσ ⟨i, hiR⟩
      have e : Fin.castLE hR ⟨i, hiR⟩ = i := rfl
      rw [e] at h1
      rw [h1, hlow]
      exact hρ.2 _ _ b.2 hi
    · rw [hσ0 i (by omega)]
      exact mul_nonneg hρ.1 (hlpos b).le
  refine ⟨hk, O, D, σ, hO, hDO, hDD, fun b => (pow_pos (pow_pos (hlpos b) _) _).ne', ?_, tail_rotated hDD hσ hσ0⟩
  intro i b hi
  have e : ((σ i ^ 2) ^ nPower * ((σ (Fin.castLE hk b) ^ 2) ^ nPower)⁻¹) ^ 2 =
      (σ i / σ (Fin.castLE hk b)) ^ (4 * nPower) := by
    rw [← div_eq_mul_inv, ← div_pow, ← div_pow, ← pow_mul, ← pow_mul]
    congr 1
    ring
  rw [e]
  refine pow_le_pow_left₀ (div_nonneg (hσnn _) (hlpos b).le) ?_ _
  rw [div_le_iff₀ (hlpos b)]
  exact hgap i b hi

theorem aemeasurable_draw {P : Measure Ω} {rng : Ω → Rng ℝ} (h : NormalDraws P rng) {m n : ℕ}
    {F : (Fin m × Fin n → ℝ) → ENNReal} (hF : Measurable F) : AEMeasurable (fun w => F fun q => rng w m n q.1 q.2) P :=
  hF.comp_aemeasurable (h m n).aemeasurable

theorem lintegral_draw {P : Measure Ω} {rng : Ω → Rng ℝ} (h : NormalDraws P rng) {m n : ℕ}
    {F : (Fin m × Fin n → ℝ) → ENNReal} (hF : Measurable F) :
    ∫⁻ w, F (fun q => rng w m n q.1 q.2) ∂P = ∫⁻ w, F w ∂stdN (Fin m × Fin n) :=
  (h m n).lintegral_comp hF.aemeasurable

theorem firstRows_full {n k : ℕ} (hk : k ≤ n) {O : Matrix (Fin n) (Fin n) ℝ} (hO : O * O.transpose = 1) :
    FullRows (Matrix.of fun (i : Fin k) j => O (Fin.castLE hk i) j) := by
  refine ⟨(Matrix.of fun (i : Fin k) j => O (Fin.castLE hk i) j).transpose, ?_⟩
  ext i j
  have := congrFun (congrFun hO (Fin.castLE hk i)) (Fin.castLE hk j)
  rw [Matrix.mul_apply, Matrix.one_apply] at this
  rw [Matrix.mul_apply, Matrix.one_apply]
  refine this.trans ?_
  by_cases hij : i = j
  · rw [if_pos hij, if_pos (by rw [hij])]
  · rw [if_neg hij, if_neg fun e => hij (Fin.castLE_injective hk e)]

theorem bound_nonneg {os : ℕ} (hos : 2 ≤ os) {ρ : ℝ} (hρ : 0 ≤ ρ) (q k : ℕ) {t : ℝ} (ht : 0 ≤ t) :
    0 ≤ ρ ^ q * (k / ((os : ℝ) - 1)) * t := by
  have h2 : (2 : ℝ) ≤ os := by exact_mod_cast hos
  have h3 : 0 ≤ (os : ℝ) - 1 := by linarith
  positivity

theorem isSvd_real {m n : ℕ} (x : Matrix (Fin m) (Fin n) ℝ) :
    IsSvd x (realLA.svd x).1 (realLA.svd x).2.1 (realLA.svd x).2.2 := by
  obtain ⟨h1, h2, h3, h4, h5⟩ := realLA_svd x
  exact ⟨h1, h2, h3, h4, h5⟩

theorem gapLe_one {m n R : ℕ} {x : Matrix (Fin m) (Fin n) ℝ} {U : Matrix (Fin m) (Fin R) ℝ} {s : Fin R → ℝ}
    {V : Matrix (Fin R) (Fin n) ℝ} (h : IsSvd x U s V) (k : ℕ) : GapLe k s 1 :=
  ⟨zero_le_one, fun i j hi hj => by
    rw [one_mul]
    exact h.anti i j (Fin.le_def.2 (by omega))⟩

theorem sqSum_svd {m n R : ℕ} {U : Matrix (Fin m) (Fin R) ℝ} {V : Matrix (Fin R) (Fin n) ℝ}
    (hU : U.transpose * U = 1) (hV : V * V.transpose = 1) (d : Fin R → ℝ) :
    sqSum (U * diagonal d * V) = ∑ i, d i ^ 2 := by
  rw [sqSum_orth_right hV, sqSum_orth hU]
  unfold sqSum
  refine Finset.sum_congr rfl fun i _ => ?_
  rw [Finset.sum_eq_single i]
  · rw [Matrix.diagonal_apply_eq]
  · intro j _ hj
    rw [Matrix.diagonal_apply_ne _ (Ne.symm hj)]
    exact zero_pow two_ne_zero
  · simp

/-- the discarded singular values bound the distance to all matrices of rank at most `k` -/
theorem tailSq_le {m n : ℕ} (x X : Matrix (Fin m) (Fin n) ℝ) (k : ℕ) (hX : X.rank ≤ k) :
    tailSq k (realLA.svd x).2.1 ≤ sqSum (x - X) := by
  have h := isSvd_real x
  generalize (realLA.svd x).1 = U at h
  generalize (realLA.svd x).2.2 = V at h
  generalize (realLA.svd x).2.1 = s at h ⊢
  by_cases hk : k ≤ min m n
  · obtain ⟨Y, Z, rfl⟩ := exists_factor_of_rank X hX
    have hb := best_approximation x (Matrix.of fun i a => U i (Fin.castLE hk a)) (fun a => s (Fin.castLE hk a))
      (Matrix.of fun a j => V (Fin.castLE hk a) j)
      ⟨U, s, V, hk, h.eq, h.left, h.right, h.nonneg, h.anti, fun _ _ => rfl, fun _ => rfl, fun _ _ => rfl⟩ Y Z
    have hr := truncated_residual hk U s V (Matrix.of fun i a => U i (Fin.castLE hk a)) (fun a => s (Fin.castLE hk a))
      (Matrix.of fun a j => V (Fin.castLE hk a) j) (fun _ _ => rfl) (fun _ => rfl) (fun _ _ => rfl)
    rw [h.eq] at hr
    rw [hr, sqSum_svd h.left h.right] at hb
    refine le_trans (le_of_eq ?_) hb
    unfold tailSq
    refine Finset.sum_congr rfl fun i _ => ?_
    split <;> simp
  · have : tailSq k s = 0 := Finset.sum_eq_zero fun i _ => if_pos (by have := i.2; omega)
    rw [this]
    exact sqSum_nonneg _

/-! ### Theorems -/

/-- **C165, expected error.** Let the draws be normal, the number of additional columns `os ≥ 2`, and let every singular
value of the matrix after the first `rank` be at most `ρ` times every one of the first `rank`. Then the squared error of
`random_svd` has an upper bound whose mean is at most `1 + ρ^(4 nPower) rank / (os - 1)` times the least squared error
of rank `rank`, which is the sum of the squares of the discarded singular values. -/
theorem C165_expected (P : Measure Ω) (rng : Ω → Rng ℝ) (h : NormalDraws P rng) (la : LinAlg ℝ) (hla : LaOk la)
    {m n R : ℕ} (x : Matrix (Fin m) (Fin n) ℝ) (U : Matrix (Fin m) (Fin R) ℝ) (s : Fin R → ℝ)
    (V : Matrix (Fin R) (Fin n) ℝ) (hx : IsSvd x U s V) (rank nPower os : ℕ) (hos : 2 ≤ os) (ρ : ℝ)
    (hρ : GapLe rank s ρ) :
    ∃ B : Ω → ENNReal, AEMeasurable B P ∧
      (∀ᵐ w ∂P, ∃ (k : ℕ) (U' : Matrix (Fin m) (Fin k) ℝ) (s' : Fin k → ℝ) (V' : Matrix (Fin k) (Fin n) ℝ),
        randomSvd la (rng w) ⟨m, n, x⟩ rank nPower os = (⟨m, k, U'⟩, ⟨k, s'⟩, ⟨k, n, V'⟩) ∧
        ENNReal.ofReal (sqSum (x - U' * diagonal s' * V')) ≤ B w) ∧
      ∫⁻ w, B w ∂P ≤ ENNReal.ofReal ((1 + ρ ^ (4 * nPower) * (rank / ((os : ℝ) - 1))) * tailSq rank s) := by
  by_cases hr : x.rank ≤ rank
  · refine ⟨fun _ => 0, aemeasurable_const, ?_, by simp⟩
    filter_upwards [C159_exact P rng h la hla x rank nPower os hr] with w ⟨k, U', s', V', e, hU⟩
    refine ⟨k, U', s', V', e, ?_⟩
    rw [hU, sub_self]
    simp [sqSum]
  obtain ⟨hk, O, D, σ, hO, hDO, hDD, hτ, hc, htail⟩ := svd_setting hx nPower (not_le.1 hr) hρ
  have hm := measurable_errBound (l := rank + os) hk D (fun i => (σ i ^ 2) ^ nPower) O (tailSq rank s)
  refine ⟨fun w => errBound hk D (fun i => (σ i ^ 2) ^ nPower) O (tailSq rank s) fun q => rng w n (rank + os) q.1 q.2,
    ?_, ?_, ?_⟩
  · exact aemeasurable_draw h hm
  · have hfull := firstRows_full hk hO
    filter_upwards [h.ae (m := n) (n := rank + os)
      (Q := fun A => FullRows ((Matrix.of fun (i : Fin rank) j => O (Fin.castLE hk i) j) * A))
      (randn_fullRows _ hfull (by omega))] with w hw
    exact error_le_errBound la (rng w) x D rank nPower os ⟨hla.qr _, hla.svd _⟩ hk hO hDO hDD hτ (tailSq_nonneg _ _)
      htail hw
  · rw [lintegral_draw h hm]
    refine (errBound_mean hk (by omega) D _ O hO _ _ hc htail).trans (le_of_eq ?_)
    have h1 : ((rank + os : ℕ) : ℝ) - rank - 1 = (os : ℝ) - 1 := by
      push_cast
      ring
    rw [h1, ← ENNReal.ofReal_add (tailSq_nonneg _ _) (bound_nonneg hos hρ.1 _ _ (tailSq_nonneg _ _))]
    congr 1
    ring

/-- **C165, closeness.** For every matrix `X` of rank at most `rank` the mean squared error of `random_svd` is at most
`1 + rank / (os - 1)` times the squared distance of the matrix to `X`, for any number of power iterations. -/
theorem C165_close (P : Measure Ω) (rng : Ω → Rng ℝ) (h : NormalDraws P rng) (la : LinAlg ℝ) (hla : LaOk la)
    {m n : ℕ} (x : Matrix (Fin m) (Fin n) ℝ) (rank nPower os : ℕ) (hos : 2 ≤ os) :
    ∃ B : Ω → ENNReal, AEMeasurable B P ∧
      (∀ᵐ w ∂P, ∃ (k : ℕ) (U' : Matrix (Fin m) (Fin k) ℝ) (s' : Fin k → ℝ) (V' : Matrix (Fin k) (Fin n) ℝ),
        randomSvd la (rng w) ⟨m, n, x⟩ rank nPower os = (⟨m, k, U'⟩, ⟨k, s'⟩, ⟨k, n, V'⟩) ∧
        ENNReal.ofReal (sqSum (x - U' * diagonal s' * V')) ≤ B w) ∧
      ∀ X : Matrix (Fin m) (Fin n) ℝ, X.rank ≤ rank →
        ∫⁻ w, B w ∂P ≤ ENNReal.ofReal ((1 + rank / ((os : ℝ) - 1)) * sqSum (x - X)) := by
  have hsvd := isSvd_real x
  obtain ⟨B, h1, h2, h3⟩ := C165_expected P rng h la hla x _ _ _ hsvd rank nPower os hos 1 (gapLe_one hsvd rank)
  refine ⟨B, h1, h2, fun X hX => h3.trans (ENNReal.ofReal_le_ofReal ?_)⟩
  rw [one_pow, one_mul]
  have h4 : (2 : ℝ) ≤ os := by exact_mod_cast hos
  have h5 : 0 ≤ (os : ℝ) - 1 := by linarith
  exact mul_le_mul_of_nonneg_left (tailSq_le x X rank hX) (by positivity)

/-- **C165, probability of a large error.** The probability that the squared error of `random_svd` is `t` or more is at
most `(1 + rank / (os - 1)) ‖x - X‖² / t`, for every `X` of rank at most `rank`. -/
theorem C165_markov (P : Measure Ω) (rng : Ω → Rng ℝ) (h : NormalDraws P rng) (la : LinAlg ℝ) (hla : LaOk la)
    {m n : ℕ} (x : Matrix (Fin m) (Fin n) ℝ) (rank nPower os : ℕ) (hos : 2 ≤ os) (t : ℝ) (ht : 0 < t)
    (X : Matrix (Fin m) (Fin n) ℝ) (hX : X.rank ≤ rank) :
    P {w | ∃ (k : ℕ) (U' : Matrix (Fin m) (Fin k) ℝ) (s' : Fin k → ℝ) (V' : Matrix (Fin k) (Fin n) ℝ),
        randomSvd la (rng w) ⟨m, n, x⟩ rank nPower os = (⟨m, k, U'⟩, ⟨k, s'⟩, ⟨k, n, V'⟩) ∧
        t ≤ sqSum (x - U' * diagonal s' * V')} ≤
      ENNReal.ofReal ((1 + rank / ((os : ℝ) - 1)) * sqSum (x - X) / t) := by
  obtain ⟨B, h1, h2, h3⟩ := C165_close P rng h la hla x rank nPower os hos
  have h4 : P {w | ∃ (k : ℕ) (U' : Matrix (Fin m) (Fin k) ℝ) (s' : Fin k → ℝ) (V' : Matrix (Fin k) (Fin n) ℝ),
        randomSvd la (rng w) ⟨m, n, x⟩ rank nPower os = (⟨m, k, U'⟩, ⟨k, s'⟩, ⟨k, n, V'⟩) ∧
        t ≤ sqSum (x - U' * diagonal s' * V')} ≤ P {w | ENNReal.ofReal t ≤ B w} := by
    refine measure_mono_ae ?_
    filter_upwards [h2] with w hw
    rintro ⟨k, U', s', V', e, hle⟩
    obtain ⟨k2, U2, s2, V2, e2, hB⟩ := hw
    rw [e] at e2
    have hk : k = k2 := congrArg (fun z => z.2.1.len) e2
    subst hk
    simp only [Prod.mk.injEq, Mat.mk.injEq, Vec.mk.injEq, heq_eq_eq, true_and] at e2
    obtain ⟨rfl, rfl, rfl⟩ := e2
    exact (ENNReal.ofReal_le_ofReal hle).trans hB
  refine h4.trans ?_
  have h5 := mul_meas_ge_le_lintegral₀ h1 (ENNReal.ofReal t)
  rw [ENNReal.ofReal_div_of_pos ht, ENNReal.le_div_iff_mul_le (Or.inl (by simpa using ht)) (Or.inl ENNReal.ofReal_ne_top),
    mul_comm]
  exact h5.trans (h3 X hX)

/-- **C165, power iterations.** If the singular values after the first `rank` are smaller than the first `rank` by a
factor below one, then enough power iterations bring the mean squared error as close as desired to the least possible
squared error of rank `rank`, whatever the number `os ≥ 2` of additional columns. -/
theorem C165_power {m n R : ℕ} (x : Matrix (Fin m) (Fin n) ℝ) (U : Matrix (Fin m) (Fin R) ℝ) (s : Fin R → ℝ)
    (V : Matrix (Fin R) (Fin n) ℝ) (hx : IsSvd x U s V) (rank os : ℕ) (hos : 2 ≤ os) (ρ : ℝ) (hρ : GapLe rank s ρ)
    (hlt : ρ < 1) (ε : ℝ) (hε : 0 < ε) :
    ∃ N : ℕ, ∀ nPower, N ≤ nPower → ∀ (P : Measure Ω) (rng : Ω → Rng ℝ), NormalDraws P rng →
      ∀ la : LinAlg ℝ, LaOk la → ∃ B : Ω → ENNReal, AEMeasurable B P ∧
      (∀ᵐ w ∂P, ∃ (k : ℕ) (U' : Matrix (Fin m) (Fin k) ℝ) (s' : Fin k → ℝ) (V' : Matrix (Fin k) (Fin n) ℝ),
        randomSvd la (rng w) ⟨m, n, x⟩ rank nPower os = (⟨m, k, U'⟩, ⟨k, s'⟩, ⟨k, n, V'⟩) ∧
        ENNReal.ofReal (sqSum (x - U' * diagonal s' * V')) ≤ B w) ∧
      ∫⁻ w, B w ∂P ≤ ENNReal.ofReal ((1 + ε) * tailSq rank s) := by
  have hos' : (2 : ℝ) ≤ os := by exact_mod_cast hos
  have h0 : 0 ≤ (os : ℝ) - 1 := by linarith
  have hlim : Filter.Tendsto (fun q : ℕ => ρ ^ q * ((rank : ℝ) / ((os : ℝ) - 1))) Filter.atTop (nhds 0) := by
    have := (tendsto_pow_atTop_nhds_zero_of_lt_one hρ.1 hlt).mul_const ((rank : ℝ) / ((os : ℝ) - 1))
    rwa [zero_mul] at this
  obtain ⟨N, hN⟩ := Filter.eventually_atTop.1 (hlim.eventually (gt_mem_nhds hε))
  refine ⟨N, fun nPower hq P rng h la hla => ?_⟩
  obtain ⟨B, h1, h2, h3⟩ := C165_expected P rng h la hla x U s V hx rank nPower os hos ρ hρ
  refine ⟨B, h1, h2, h3.trans (ENNReal.ofReal_le_ofReal ?_)⟩
  have := hN (4 * nPower) (by omega)
  exact mul_le_mul_of_nonneg_right (by linarith) (tailSq_nonneg _ _)

/-! ### Examples -/

/-- the diagonal matrix with the singular values 3, 2, 1 -/
def exDiag : Matrix (Fin 3) (Fin 3) ℝ := diagonal ![3, 2, 1]

theorem exDiag_svd : IsSvd exDiag 1 ![3, 2, 1] 1 where
  eq := by rw [Matrix.one_mul, Matrix.mul_one, exDiag]
  left := by rw [Matrix.transpose_one, Matrix.one_mul]
  right := by rw [Matrix.transpose_one, Matrix.one_mul]
  nonneg i := by fin_cases i <;> norm_num
  anti i j hij := by
    fin_cases i <;> fin_cases j <;> first | (exact absurd hij (by decide)) | norm_num

theorem exDiag_tail : tailSq 1 (![3, 2, 1] : Fin 3 → ℝ) = 5 := by
  simp [tailSq, Fin.sum_univ_succ]
  norm_num

-- rank 1 with two more columns and one power iteration: the mean squared error is at most (1 + 16/81) 5, where 5 is the
-- least possible
example : ∃ B : (ℕ × ℕ → ℝ) → ENNReal, AEMeasurable B normalSource ∧
    (∀ᵐ w ∂normalSource, ∃ (k : ℕ) (U' : Matrix (Fin 3) (Fin k) ℝ) (s' : Fin k → ℝ) (V' : Matrix (Fin k) (Fin 3) ℝ),
      randomSvd realLA (sourceRng w) ⟨3, 3, exDiag⟩ 1 1 2 = (⟨3, k, U'⟩, ⟨k, s'⟩, ⟨k, 3, V'⟩) ∧
      ENNReal.ofReal (sqSum (exDiag - U' * diagonal s' * V')) ≤ B w) ∧
    ∫⁻ w, B w ∂normalSource ≤ ENNReal.ofReal ((1 + 16 / 81) * 5) := by
  obtain ⟨B, h1, h2, h3⟩ := C165_expected normalSource sourceRng source_normal realLA laOk_real exDiag 1 ![3, 2, 1] 1
    exDiag_svd 1 1 2 le_rfl (2 / 3) ⟨by norm_num, fun i j hi hj => by
      fin_cases i <;> fin_cases j <;> first | (exact absurd hi (by decide)) | (exact absurd hj (by decide)) | norm_num⟩
  refine ⟨B, h1, h2, h3.trans (le_of_eq ?_)⟩
  rw [exDiag_tail]
  congr 1
  norm_num

-- the squared error reaches 20 with probability at most one half
example : normalSource {w | ∃ (k : ℕ) (U' : Matrix (Fin 3) (Fin k) ℝ) (s' : Fin k → ℝ) (V' : Matrix (Fin k) (Fin 3) ℝ),
      randomSvd realLA (sourceRng w) ⟨3, 3, exDiag⟩ 1 0 2 = (⟨3, k, U'⟩, ⟨k, s'⟩, ⟨k, 3, V'⟩) ∧
      20 ≤ sqSum (exDiag - U' * diagonal s' * V')} ≤ ENNReal.ofReal (1 / 2) := by
  refine (C165_markov normalSource sourceRng source_normal realLA laOk_real exDiag 1 0 2 le_rfl 20 (by norm_num)
    (Matrix.vecMulVec ![3, 0, 0] ![1, 0, 0]) (Matrix.rank_vecMulVec_le _ _)).trans (le_of_eq ?_)
  congr 1
  simp [sqSum, exDiag, Fin.sum_univ_succ, Matrix.vecMulVec_apply, Matrix.diagonal_apply]
  norm_num

-- with enough power iterations the mean squared error is below 5.001
example : ∃ N : ℕ, ∀ nPower, N ≤ nPower → ∃ B : (ℕ × ℕ → ℝ) → ENNReal,
    (∀ᵐ w ∂normalSource, ∃ (k : ℕ) (U' : Matrix (Fin 3) (Fin k) ℝ) (s' : Fin k → ℝ) (V' : Matrix (Fin k) (Fin 3) ℝ),
      randomSvd realLA (sourceRng w) ⟨3, 3, exDiag⟩ 1 nPower 2 = (⟨3, k, U'⟩, ⟨k, s'⟩, ⟨k, 3, V'⟩) ∧
      ENNReal.ofReal (sqSum (exDiag - U' * diagonal s' * V')) ≤ B w) ∧
    ∫⁻ w, B w ∂normalSource ≤ ENNReal.ofReal 5.001 := by
  obtain ⟨N, hN⟩ := C165_power (Ω := ℕ × ℕ → ℝ) exDiag 1 ![3, 2, 1] 1 exDiag_svd 1 2 le_rfl (2 / 3)
    ⟨by norm_num, fun i j hi hj => by
      fin_cases i <;> fin_cases j <;> first | (exact absurd hi (by decide)) | (exact absurd hj (by decide)) | norm_num⟩
    (by norm_num) (1 / 5000) (by norm_num)
  refine ⟨N, fun q hq => ?_⟩
  obtain ⟨B, h1, h2, h3⟩ := hN q hq normalSource sourceRng source_normal realLA laOk_real
  refine ⟨B, h2, h3.trans (le_of_eq ?_)⟩
  rw [exDiag_tail]
  congr 1
  norm_num

end DynCF
