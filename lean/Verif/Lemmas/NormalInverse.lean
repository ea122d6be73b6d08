import Verif.Lemmas.NormalRotation
import Mathlib.LinearAlgebra.Matrix.Rank
/-!
# The mean squared norm of the pseudoinverse of a matrix of independent normal entries
-/
namespace DynCF
open MeasureTheory ProbabilityTheory ENNReal Matrix

/-- the right inverse of least norm of a matrix with independent rows -/
noncomputable def rightInv {k l : ℕ} (G : Matrix (Fin k) (Fin l) ℝ) : Matrix (Fin l) (Fin k) ℝ :=
  G.transpose * (G * G.transpose)⁻¹

theorem mul_rightInv {k l : ℕ} (G : Matrix (Fin k) (Fin l) ℝ) (h : (G * G.transpose).det ≠ 0) : G * rightInv G = 1 := by
  rw [rightInv, ← Matrix.mul_assoc, Matrix.mul_nonsing_inv _ (isUnit_iff_ne_zero.2 h)]

theorem rightInv_zero {k l : ℕ} (G : Matrix (Fin k) (Fin l) ℝ) (h : (G * G.transpose).det = 0) : rightInv G = 0 := by
  rw [rightInv, Matrix.nonsing_inv_apply_not_isUnit _ (by simp [h]), Matrix.mul_zero]

theorem rightInv_least {k l : ℕ} (G : Matrix (Fin k) (Fin l) ℝ) (h : (G * G.transpose).det ≠ 0) (i : Fin k)
    (v : Fin l → ℝ) (hv : ∀ j, ∑ a, G j a * v a = if j = i then 1 else 0) :
    ∑ a, rightInv G a i ^ 2 ≤ ∑ a, v a ^ 2 := by
  have hG : ∀ j, ∑ a, G j a * rightInv G a i = if j = i then 1 else 0 := by
    intro j
    have := congrFun (congrFun (mul_rightInv G h) j) i
    rw [Matrix.mul_apply, Matrix.one_apply] at this
    exact this
  have key : ∀ u : Fin l → ℝ, (∀ j, ∑ a, G j a * u a = if j = i then 1 else 0) →
      ∑ a, rightInv G a i * u a = (G * G.transpose)⁻¹ i i := by
    intro u hu
    have e : ∀ a, rightInv G a i * u a = ∑ j, (G * G.transpose)⁻¹ j i * (G j a * u a) := by
      intro a
      rw [rightInv, Matrix.mul_apply, Finset.sum_mul]
      refine Finset.sum_congr rfl fun j _ => ?_
      rw [Matrix.transpose_apply]
      ring
    simp_rw [e]
    rw [Finset.sum_comm]
    simp_rw [← Finset.mul_sum, hu]
    simp
  have h1 := key _ hG
  have h2 := key v hv
  have h3 : 0 ≤ ∑ a, (v a - rightInv G a i) ^ 2 := Finset.sum_nonneg fun a _ => sq_nonneg _
  have h4 : ∑ a, (v a - rightInv G a i) ^ 2 =
      ∑ a, v a ^ 2 - 2 * ∑ a, rightInv G a i * v a + ∑ a, rightInv G a i * rightInv G a i := by
    rw [Finset.mul_sum, ← Finset.sum_sub_distrib, ← Finset.sum_add_distrib]
    exact Finset.sum_congr rfl fun a _ => by ring
  have h5 : ∑ a, rightInv G a i ^ 2 = ∑ a, rightInv G a i * rightInv G a i :=
    Finset.sum_congr rfl fun a _ => by ring
  rw [h5, h1]
  rw [h4, h1, h2] at h3
  linarith

theorem rightInv_column {k l : ℕ} {R : Type} [Fintype R] [DecidableEq R] (r : Fin l ≃ R)
    (b : OrthonormalBasis R ℝ (EuclideanSpace ℝ R)) (S : Finset R) (G : Matrix (Fin k) (Fin l) ℝ) (i : Fin k)
    (y : R → ℝ) (hy : ∀ a, G i a = y (r a)) (ho : ∀ c ∈ S, ∀ j, j ≠ i → ∑ x, b c x * G j (r.symm x) = 0) :
    ENNReal.ofReal (∑ a, rightInv G a i ^ 2) ≤ (ENNReal.ofReal (∑ c ∈ S, rotate b y c ^ 2))⁻¹ := by
  by_cases hd : (G * G.transpose).det = 0
  · simp [rightInv_zero G hd]
  have hr0 : 0 ≤ ∑ c ∈ S, rotate b y c ^ 2 := Finset.sum_nonneg fun c _ => sq_nonneg _
  rcases hr0.eq_or_lt with hr | hr
  · rw [← hr]
    simp
  set ρ := ∑ c ∈ S, rotate b y c ^ 2 with hρ
  rw [← ENNReal.ofReal_inv_of_pos hr]
  refine ENNReal.ofReal_le_ofReal ?_
  let v : Fin l → ℝ := fun a => ρ⁻¹ * ∑ c ∈ S, rotate b y c * b c (r a)
  have hdot : ∀ (u : Fin l → ℝ), ∑ a, u a * v a = ρ⁻¹ * ∑ c ∈ S, rotate b y c * ∑ x, b c x * u (r.symm x) := by
    intro u
    rw [← r.symm.sum_comp, Finset.mul_sum]
    simp_rw [Finset.mul_sum]
    rw [Finset.sum_comm]
    refine Finset.sum_congr rfl fun x _ => ?_
    simp only [v, Equiv.apply_symm_apply]
    rw [Finset.mul_sum, Finset.mul_sum]
    exact Finset.sum_congr rfl fun c _ => by ring
  have hv : ∀ j, ∑ a, G j a * v a = if j = i then 1 else 0 := by
    intro j
    rw [hdot]
    by_cases hj : j = i
    · subst hj
      rw [if_pos rfl]
      have e : ∀ c, ∑ x, b c x * G j (r.symm x) = rotate b y c := fun c =>
        Finset.sum_congr rfl fun x _ => by rw [hy, Equiv.apply_symm_apply]
      simp_rw [e, ← pow_two]
      exact inv_mul_cancel₀ hr.ne'
    · rw [if_neg hj, Finset.sum_eq_zero, mul_zero]
      intro c hc
      rw [ho c hc j hj, mul_zero]
  refine (rightInv_least G hd i v hv).trans (le_of_eq ?_)
  simp_rw [pow_two]
  rw [hdot]
  have e : ∀ c ∈ S, ∑ x, b c x * v (r.symm x) = ρ⁻¹ * rotate b y c := by
    intro c hc
    simp only [v, Equiv.apply_symm_apply]
    have e1 : ∀ x, b c x * (ρ⁻¹ * ∑ c' ∈ S, rotate b y c' * b c' x) =
        ∑ c' ∈ S, ρ⁻¹ * rotate b y c' * (b c x * b c' x) := by
      intro x
      rw [Finset.mul_sum, Finset.mul_sum]
      exact Finset.sum_congr rfl fun c' _ => by ring
    simp_rw [e1]
    rw [Finset.sum_comm]
    simp_rw [← Finset.mul_sum, basis_dot]
    simp [hc]
  rw [Finset.sum_congr rfl fun c hc => by rw [e c hc]]
  have e2 : ∑ c ∈ S, rotate b y c * (ρ⁻¹ * rotate b y c) = ρ⁻¹ * ρ := by
    rw [hρ, Finset.mul_sum]
    exact Finset.sum_congr rfl fun c _ => by ring
  rw [e2, inv_mul_cancel₀ hr.ne', mul_one]

theorem measurable_rightInv {Ω : Type} [MeasurableSpace Ω] {k l : ℕ} (G : Ω → Matrix (Fin k) (Fin l) ℝ)
    (hG : ∀ i a, Measurable fun w => G w i a) (a : Fin l) (i : Fin k) : Measurable fun w => rightInv (G w) a i := by
  have hGG : ∀ i j, Measurable fun w => (G w * (G w).transpose) i j := by
    intro i j
    simp only [Matrix.mul_apply, Matrix.transpose_apply]
    fun_prop
  have hdet : ∀ (A : Ω → Matrix (Fin k) (Fin k) ℝ), (∀ i j, Measurable fun w => A w i j) →
      Measurable fun w => (A w).det := by
    intro A hA
    simp only [Matrix.det_apply']
    fun_prop
  have hinv : ∀ i j, Measurable fun w => (G w * (G w).transpose)⁻¹ i j := by
    intro i j
    simp only [Matrix.inv_def, Ring.inverse_eq_inv', Matrix.smul_apply, smul_eq_mul, Matrix.adjugate_apply]
    refine (hdet _ hGG).inv.mul (hdet _ fun a b => ?_)
    simp only [Matrix.updateRow_apply]
    by_cases h : a = j
    · simp only [h, if_true]
      exact measurable_const
    · simp only [h, if_false]
      exact hGG _ _
  have e : ∀ w, rightInv (G w) a i = ∑ j, G w j a * (G w * (G w).transpose)⁻¹ j i := by
    intro w
    unfold rightInv
    generalize (G w * (G w).transpose)⁻¹ = A
    rfl
  simp_rw [e]
  exact Finset.measurable_sum _ fun j _ => (hG j a).mul (hinv j i)

/-- the first `k` rows -/
def topRows {n l : ℕ} (k : ℕ) (hk : k ≤ n) (w : Fin n × Fin l → ℝ) : Matrix (Fin k) (Fin l) ℝ :=
  Matrix.of fun i a => w (Fin.castLE hk i, a)

/-- index of the entries of a row -/
def rowEquiv {n l : ℕ} (i : Fin n) : Fin l ≃ {q : Fin n × Fin l // ¬ q.1 ≠ i} where
  toFun a := ⟨(i, a), by simp⟩
  invFun q := q.1.2
  left_inv a := rfl
  right_inv q := by
    obtain ⟨⟨j, a⟩, h⟩ := q
    have : j = i := not_not.1 h
    subst this
    rfl

theorem column_mean {n l k : ℕ} (hk : k ≤ n) (hl : k + 2 ≤ l) (i : Fin k) :
    ∫⁻ w, ENNReal.ofReal (∑ a, rightInv (topRows k hk w : Matrix (Fin k) (Fin l) ℝ) a i ^ 2) ∂stdN (Fin n × Fin l) ≤
      ENNReal.ofReal (1 / ((l : ℝ) - k - 1)) := by
  have hm : ∀ a, Measurable fun w : Fin n × Fin l → ℝ => rightInv (topRows k hk w : Matrix (Fin k) (Fin l) ℝ) a i :=
    fun a => measurable_rightInv _ (fun j b => by unfold topRows; simp only [Matrix.of_apply]; fun_prop) _ _
  rw [lintegral_split (fun q : Fin n × Fin l => q.1 ≠ Fin.castLE hk i) _ (by fun_prop)]
  have hb : ∀ x : {q : Fin n × Fin l // q.1 ≠ Fin.castLE hk i} → ℝ,
      ∫⁻ y, ENNReal.ofReal (∑ a, rightInv (topRows k hk
        (joinVars (fun q : Fin n × Fin l => q.1 ≠ Fin.castLE hk i) x y) : Matrix (Fin k) (Fin l) ℝ) a i ^ 2)
        ∂stdN {q : Fin n × Fin l // ¬ q.1 ≠ Fin.castLE hk i} ≤ ENNReal.ofReal (1 / ((l : ℝ) - k - 1)) := by
    intro x
    have hcard : Fintype.card {q : Fin n × Fin l // ¬ q.1 ≠ Fin.castLE hk i} = l := by
      rw [← Fintype.card_congr (rowEquiv (l := l) (Fin.castLE hk i)), Fintype.card_fin]
    have hne : ∀ j : {j : Fin k // j ≠ i}, Fin.castLE hk j.1 ≠ Fin.castLE hk i := fun j h =>
      j.2 (Fin.castLE_injective hk h)
    have hJ : Fintype.card {j : Fin k // j ≠ i} = k - 1 := by
      rw [Fintype.card_subtype_compl]
      simp
    have hk0 : 0 < k := i.pos
    obtain ⟨b, S, hS, ho⟩ := exists_orth_basis (ι := {q : Fin n × Fin l // ¬ q.1 ≠ Fin.castLE hk i})
      (J := {j : Fin k // j ≠ i}) (fun j q => x ⟨(Fin.castLE hk j.1, q.1.2), hne j⟩) (l - k + 1)
      (by rw [hcard, hJ]; omega)
    have hc := inverse_chi S (by omega)
    rw [← (rotate_preserves b).lintegral_comp (by fun_prop), hS] at hc
    have hcast : ((l - k + 1 : ℕ) : ℝ) - 2 = (l : ℝ) - k - 1 := by
      rw [Nat.cast_add, Nat.cast_sub (by omega)]
      push_cast
      ring
    rw [hcast] at hc
    rw [← hc]
    refine lintegral_mono fun y => ?_
    refine rightInv_column (rowEquiv (Fin.castLE hk i)) b S _ i y ?_ ?_
    · intro a
      exact dif_neg (not_not.2 rfl)
    · intro c hcS j hj
      rw [← ho c hcS ⟨j, hj⟩]
      refine Finset.sum_congr rfl fun q _ => ?_
      congr 1
      exact dif_pos (hne ⟨j, hj⟩)
  refine (lintegral_mono hb).trans ?_
  rw [lintegral_const, measure_univ, mul_one]

/-- The squared norm of the right inverse of a `k × l` matrix of independent standard normal entries has mean at most
`k / (l - k - 1)`. -/
theorem rightInv_mean {n l k : ℕ} (hk : k ≤ n) (hl : k + 2 ≤ l) :
    ∫⁻ w, ENNReal.ofReal (∑ a, ∑ i, rightInv (topRows k hk w : Matrix (Fin k) (Fin l) ℝ) a i ^ 2) ∂stdN (Fin n × Fin l) ≤
      ENNReal.ofReal (k / ((l : ℝ) - k - 1)) := by
  have hm : ∀ a i, Measurable fun w : Fin n × Fin l → ℝ => rightInv (topRows k hk w : Matrix (Fin k) (Fin l) ℝ) a i :=
    fun a i => measurable_rightInv _ (fun j b => by unfold topRows; simp only [Matrix.of_apply]; fun_prop) _ _
  have e : ∀ w : Fin n × Fin l → ℝ,
      ENNReal.ofReal (∑ a, ∑ i, rightInv (topRows k hk w : Matrix (Fin k) (Fin l) ℝ) a i ^ 2) =
      ∑ i, ENNReal.ofReal (∑ a, rightInv (topRows k hk w : Matrix (Fin k) (Fin l) ℝ) a i ^ 2) := by
    intro w
    rw [Finset.sum_comm]
    exact ENNReal.ofReal_sum_of_nonneg fun i _ => Finset.sum_nonneg fun a _ => sq_nonneg _
  simp_rw [e]
  rw [lintegral_finsetSum _ fun i _ => by fun_prop]
  refine (Finset.sum_le_sum fun i _ => column_mean hk hl i).trans (le_of_eq ?_)
  rw [Finset.sum_const, Finset.card_univ, Fintype.card_fin, nsmul_eq_mul, ← ENNReal.ofReal_natCast,
    ← ENNReal.ofReal_mul (by positivity)]
  congr 1
  ring

end DynCF
