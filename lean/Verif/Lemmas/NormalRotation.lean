import Verif.Lemmas.InverseChi
import Mathlib.MeasureTheory.Constructions.Pi
import Mathlib.Analysis.InnerProductSpace.PiL2
import Mathlib.Probability.Moments.Variance
import Mathlib.LinearAlgebra.Matrix.NonsingularInverse
/-!
# Rotations, splittings and second moments of independent normal variables
-/
namespace DynCF
open MeasureTheory ProbabilityTheory ENNReal

set_option linter.unusedSectionVars false
variable {ι : Type} [Fintype ι] [DecidableEq ι]

/-- the coordinates in an orthonormal basis -/
noncomputable def rotate (b : OrthonormalBasis ι ℝ (EuclideanSpace ℝ ι)) (g : ι → ℝ) : ι → ℝ :=
  fun a => ∑ x, b a x * g x

theorem rotate_eq (b : OrthonormalBasis ι ℝ (EuclideanSpace ℝ ι)) (g : ι → ℝ) :
    rotate b g = (b.repr (WithLp.toLp 2 g)).ofLp := by
  ext a
  rw [b.repr_apply_apply, rotate]
  simp [PiLp.inner_apply, mul_comm]

/-- Independent standard normal variables stay so under rotations. -/
theorem rotate_preserves (b : OrthonormalBasis ι ℝ (EuclideanSpace ℝ ι)) :
    MeasurePreserving (rotate b) (stdN ι) (stdN ι) := by
  have hm : Measurable (rotate b) := by
    unfold rotate
    fun_prop
  refine ⟨hm, ?_⟩
  have h1 : (stdN ι).map (WithLp.toLp 2) = stdGaussian (EuclideanSpace ℝ ι) := map_pi_eq_stdGaussian
  have h2 := stdGaussian_map b.repr
  have h3 : (stdGaussian (EuclideanSpace ℝ ι)).map (WithLp.ofLp (p := 2)) = stdN ι := by
    rw [← h1, Measure.map_map (by fun_prop) (by fun_prop)]
    exact Measure.map_id
  conv_rhs => rw [← h3, ← h2, ← h1]
  rw [Measure.map_map (by fun_prop) (by fun_prop), Measure.map_map (by fun_prop) (by fun_prop)]
  congr 1
  funext g
  exact rotate_eq b g

theorem basis_dot (b : OrthonormalBasis ι ℝ (EuclideanSpace ℝ ι)) (a c : ι) :
    ∑ x, b a x * b c x = if a = c then 1 else 0 := by
  have h := orthonormal_iff_ite.1 b.orthonormal c a
  rw [PiLp.inner_apply] at h
  simp only [RCLike.inner_apply, conj_trivial] at h
  rw [h]
  simp [eq_comm]

/-- An orthonormal basis of which at least `d` vectors are orthogonal to given ones. -/
theorem exists_orth_basis {J : Type} [Fintype J] (h : J → ι → ℝ) (d : ℕ) (hd : d + Fintype.card J ≤ Fintype.card ι) :
    ∃ (b : OrthonormalBasis ι ℝ (EuclideanSpace ℝ ι)) (S : Finset ι), S.card = d ∧
      ∀ a ∈ S, ∀ j, ∑ x, b a x * h j x = 0 := by
  classical
  let W : Submodule ℝ (EuclideanSpace ℝ ι) := Submodule.span ℝ (Set.range fun j => WithLp.toLp 2 (h j))
  have hW : Module.finrank ℝ W ≤ Fintype.card J := finrank_range_le_card _
  have hsum := W.finrank_add_finrank_orthogonal
  rw [finrank_euclideanSpace] at hsum
  have hge : d ≤ Module.finrank ℝ Wᗮ := by omega
  let v := stdOrthonormalBasis ℝ Wᗮ
  obtain ⟨S, -, hS⟩ := Finset.exists_subset_card_eq (s := (Finset.univ : Finset ι)) (n := d)
    (by rw [Finset.card_univ]; omega)
  let e := S.equivFinOfCardEq hS
  let u : ι → EuclideanSpace ℝ ι := fun i =>
    if hi : i ∈ S then (v (Fin.castLE hge (e ⟨i, hi⟩)) : EuclideanSpace ℝ ι) else 0
  have hu : Orthonormal ℝ ((S : Set ι).domRestrict u) := by
    have h1 : Orthonormal ℝ (fun i : (S : Set ι) => (v (Fin.castLE hge (e ⟨i.1, i.2⟩)) : EuclideanSpace ℝ ι)) := by
      have h2 := v.orthonormal.comp (fun i : (S : Set ι) => Fin.castLE hge (e ⟨i.1, i.2⟩)) (by
        intro i j hij
        have := e.injective (Fin.castLE_injective hge hij)
        exact Subtype.ext (congrArg Subtype.val this))
      exact h2.comp_linearIsometry Wᗮ.subtypeₗᵢ
    refine (congrArg (Orthonormal ℝ) ?_).mpr h1
    funext i
    exact dif_pos i.2
  obtain ⟨b, hb⟩ := hu.exists_orthonormalBasis_extension_of_card_eq (by rw [finrank_euclideanSpace])
  refine ⟨b, S, hS, fun a ha j => ?_⟩
  have h1 := hb a ha
  have h2 : b a ∈ Wᗮ := by
    rw [h1]
    simp only [u, ha, dite_true]
    exact (v _).2
  have h3 := (Submodule.mem_orthogonal _ _).1 h2 (WithLp.toLp 2 (h j)) (Submodule.subset_span ⟨j, rfl⟩)
  rw [PiLp.inner_apply] at h3
  simpa using h3

/-- second moment of a linear combination -/
theorem second_moment (c : ι → ℝ) :
    ∫⁻ g, ENNReal.ofReal ((∑ i, c i * g i) ^ 2) ∂stdN ι = ENNReal.ofReal (∑ i, c i ^ 2) := by
  have hlaw : ∀ i : ι, HasLaw (fun g : ι → ℝ => g i) (gaussianReal 0 1) (stdN ι) := fun i =>
    (measurePreserving_eval (fun _ : ι => gaussianReal 0 1) i).hasLaw
  have hL : ∀ i : ι, MemLp (fun g : ι → ℝ => c i * g i) 2 (stdN ι) := fun i =>
    ((memLp_id_gaussianReal 2).comp_measurePreserving
      (measurePreserving_eval (fun _ : ι => gaussianReal 0 1) i)).const_mul _
  have hind : iIndepFun (fun i (g : ι → ℝ) => c i * g i) (stdN ι) :=
    iIndepFun_pi (μ := fun _ : ι => gaussianReal 0 1) (X := fun i x => c i * x) fun i => by fun_prop
  have hv := IndepFun.variance_sum (μ := stdN ι) (s := Finset.univ) (X := fun i (g : ι → ℝ) => c i * g i)
    (fun i _ => hL i) (fun i _ j _ hij => hind.indepFun hij)
  have hs : (∑ i, fun g : ι → ℝ => c i * g i) = fun g => ∑ i, c i * g i := by
    funext g
    simp
  have hm : ∫ g, ∑ i, c i * g i ∂stdN ι = 0 := by
    rw [integral_finsetSum _ fun i _ => (hL i).integrable (by norm_num)]
    refine Finset.sum_eq_zero fun i _ => ?_
    rw [integral_const_mul, (hlaw i).integral_eq, integral_id_gaussianReal, mul_zero]
  have h2 : MemLp (fun g : ι → ℝ => ∑ i, c i * g i) 2 (stdN ι) := memLp_finsetSum _ fun i _ => hL i
  have hev := evariance_eq_lintegral_ofReal (fun g : ι → ℝ => ∑ i, c i * g i) (stdN ι)
  rw [hm] at hev
  simp only [sub_zero] at hev
  rw [← hev, ← ofReal_variance h2, ← hs, hv]
  congr 1
  refine Finset.sum_congr rfl fun i _ => ?_
  rw [variance_const_mul, (hlaw i).variance_eq, variance_id_gaussianReal]
  simp

/-- all variables from those with and those without the property -/
def joinVars (p : ι → Prop) [DecidablePred p] (x : {i // p i} → ℝ) (y : {i // ¬ p i} → ℝ) : ι → ℝ :=
  fun i => if h : p i then x ⟨i, h⟩ else y ⟨i, h⟩

theorem lintegral_split (p : ι → Prop) [DecidablePred p] (F : (ι → ℝ) → ℝ≥0∞) (hF : Measurable F) :
    ∫⁻ w, F w ∂stdN ι = ∫⁻ x, ∫⁻ y, F (joinVars p x y) ∂stdN {i // ¬ p i} ∂stdN {i // p i} := by
  have he := (measurePreserving_piEquivPiSubtypeProd (fun _ : ι => gaussianReal 0 1) p).symm
  change MeasurePreserving _ ((stdN {i // p i}).prod (stdN {i // ¬ p i})) (stdN ι) at he
  rw [← he.lintegral_comp hF]
  exact lintegral_prod (μ := stdN {i // p i}) (ν := stdN {i // ¬ p i}) _ (hF.comp he.measurable).aemeasurable

/-- the second moment of linear combinations whose coefficients depend on the other variables only -/
theorem cond_second_moment (p : ι → Prop) [DecidablePred p] {κ : Type} [Fintype κ] (c : (ι → ℝ) → κ → ι → ℝ)
    (hm : ∀ k i, Measurable fun w => c w k i) (hp : ∀ w w', (∀ i, p i → w i = w' i) → c w = c w')
    (h0 : ∀ w k i, p i → c w k i = 0) :
    ∫⁻ w, ENNReal.ofReal (∑ k, (∑ i, c w k i * w i) ^ 2) ∂stdN ι =
      ∫⁻ w, ENNReal.ofReal (∑ k, ∑ i, c w k i ^ 2) ∂stdN ι := by
  rw [lintegral_split p _ (by fun_prop), lintegral_split p _ (by fun_prop)]
  refine lintegral_congr fun x => ?_
  have hin : ∀ y i (hi : p i), joinVars p x y i = x ⟨i, hi⟩ :=
    fun y i hi => dif_pos hi
  have hout : ∀ y i (hi : ¬ p i), joinVars p x y i = y ⟨i, hi⟩ :=
    fun y i hi => dif_neg hi
  obtain ⟨C, hC⟩ : ∃ C, ∀ y, c (joinVars p x y) = C :=
    ⟨_, fun y => hp _ (joinVars p x 0) fun i hi => by
      rw [hin _ _ hi, hin _ _ hi]⟩
  have hC0 : ∀ k i, p i → C k i = 0 := fun k i hi => by rw [← hC 0]; exact h0 _ _ _ hi
  simp only [hC]
  have e1 : ∀ y k, ∑ i, C k i * joinVars p x y i =
      ∑ i : {i // ¬ p i}, C k i.1 * y i := by
    intro y k
    rw [← Fintype.sum_subtype_add_sum_subtype p, Finset.sum_eq_zero, zero_add]
    · exact Finset.sum_congr rfl fun i _ => by rw [hout _ _ i.2]
    · intro i _
      rw [hC0 _ _ i.2, zero_mul]
  have e2 : ∀ k, ∑ i, C k i ^ 2 = ∑ i : {i // ¬ p i}, C k i.1 ^ 2 := by
    intro k
    rw [← Fintype.sum_subtype_add_sum_subtype p, Finset.sum_eq_zero, zero_add]
    intro i _
    rw [hC0 _ _ i.2]
    simp
  simp only [e1, e2]
  rw [lintegral_const, measure_univ, mul_one]
  have e3 : ∀ y : {i // ¬ p i} → ℝ, ENNReal.ofReal (∑ k, (∑ i : {i // ¬ p i}, C k i.1 * y i) ^ 2) =
      ∑ k, ENNReal.ofReal ((∑ i : {i // ¬ p i}, C k i.1 * y i) ^ 2) := fun y =>
    ENNReal.ofReal_sum_of_nonneg fun k _ => sq_nonneg _
  simp only [e3]
  rw [lintegral_finsetSum _ fun k _ => by fun_prop, ENNReal.ofReal_sum_of_nonneg fun k _ =>
    Finset.sum_nonneg fun i _ => sq_nonneg _]
  exact Finset.sum_congr rfl fun k _ => second_moment _

end DynCF
