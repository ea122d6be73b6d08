import Verif.Lemmas.NormalInverse
import Verif.Props.RandomSvdBest
/-!
# The error of a sketch, in the basis of the right singular vectors
-/
namespace DynCF
open MeasureTheory ProbabilityTheory ENNReal Matrix

/-- the measure is invariant under orthogonal matrices -/
theorem orthogonal_preserves {ι : Type} [Fintype ι] [DecidableEq ι] (B : Matrix ι ι ℝ) (hB : B * B.transpose = 1) :
    MeasurePreserving (fun g a => ∑ x, B a x * g x) (stdN ι) (stdN ι) := by
  have ho : Orthonormal ℝ ((Set.univ : Set ι).domRestrict fun i => WithLp.toLp 2 (B i)) := by
    rw [orthonormal_iff_ite]
    intro i j
    have := congrFun (congrFun hB j.1) i.1
    rw [Matrix.mul_apply, Matrix.one_apply] at this
    rw [Set.domRestrict_apply, Set.domRestrict_apply, PiLp.inner_apply]
    simp only [RCLike.inner_apply, conj_trivial]
    refine this.trans ?_
    by_cases h : i = j
    · rw [if_pos h, if_pos (congrArg Subtype.val h).symm]
    · rw [if_neg h, if_neg fun e => h (Subtype.ext e.symm)]
  obtain ⟨b, hb⟩ := ho.exists_orthonormalBasis_extension_of_card_eq (by rw [finrank_euclideanSpace])
  have e : (fun (g : ι → ℝ) a => ∑ x, B a x * g x) = rotate b := by
    funext g a
    unfold rotate
    rw [hb a (Set.mem_univ _)]
  rw [e]
  exact rotate_preserves b

/-- rotating all columns of a matrix -/
theorem mul_preserves {n l : ℕ} (O : Matrix (Fin n) (Fin n) ℝ) (hO : O * O.transpose = 1) :
    MeasurePreserving (fun (w : Fin n × Fin l → ℝ) (q : Fin n × Fin l) => ∑ x, O q.1 x * w (x, q.2))
      (stdN (Fin n × Fin l)) (stdN (Fin n × Fin l)) := by
  have h := orthogonal_preserves (Matrix.of fun q r : Fin n × Fin l => O q.1 r.1 * if q.2 = r.2 then 1 else 0) (by
    ext q r
    rw [Matrix.mul_apply, Fintype.sum_prod_type]
    simp only [Matrix.of_apply, Matrix.transpose_apply]
    have e : ∀ x, ∑ y, (O q.1 x * if q.2 = y then (1 : ℝ) else 0) * (O r.1 x * if r.2 = y then 1 else 0) =
        O q.1 x * O r.1 x * if q.2 = r.2 then 1 else 0 := by
      intro x
      rw [Finset.sum_eq_single q.2]
      · by_cases h : q.2 = r.2
        · simp [h]
        · simp [h, Ne.symm h]
      · intro y _ hy
        simp [Ne.symm hy]
      · simp
    simp_rw [e]
    rw [← Finset.sum_mul]
    have h1 := congrFun (congrFun hO q.1) r.1
    rw [Matrix.mul_apply] at h1
    simp only [Matrix.transpose_apply] at h1
    rw [h1, Matrix.one_apply, Matrix.one_apply]
    by_cases h2 : q = r
    · simp [h2]
    · rw [if_neg h2]
      by_cases h3 : q.1 = r.1
      · rw [if_neg fun h4 => h2 (Prod.ext h3 h4), mul_zero]
      · rw [if_neg h3, zero_mul])
  convert h using 1
  funext w q
  rw [Fintype.sum_prod_type]
  refine Finset.sum_congr rfl fun x _ => ?_
  rw [Finset.sum_eq_single q.2]
  · simp
  · intro y _ hy
    simp [Ne.symm hy]
  · simp

/-- completing orthonormal rows -/
theorem complete_rows {R n : ℕ} (V : Matrix (Fin R) (Fin n) ℝ) (hV : V * V.transpose = 1) :
    ∃ (h : R ≤ n) (O : Matrix (Fin n) (Fin n) ℝ), O * O.transpose = 1 ∧ ∀ i j, O (Fin.castLE h i) j = V i j := by
  have h : R ≤ n := by
    have h1 := Matrix.rank_mul_le_left V V.transpose
    rw [hV, Matrix.rank_one, Fintype.card_fin] at h1
    exact h1.trans (Matrix.rank_le_width _)
  let u : Fin n → EuclideanSpace ℝ (Fin n) := fun i => if hi : (i : ℕ) < R then WithLp.toLp 2 (V ⟨i, hi⟩) else 0
  have ho : Orthonormal ℝ ({i : Fin n | (i : ℕ) < R}.domRestrict u) := by
    rw [orthonormal_iff_ite]
    intro i j
    have e : ∀ k : {i : Fin n | (i : ℕ) < R}, u k.1 = WithLp.toLp 2 (V ⟨k.1, k.2⟩) := fun k => dif_pos k.2
    rw [Set.domRestrict_apply, Set.domRestrict_apply, e, e, PiLp.inner_apply]
    have := congrFun (congrFun hV ⟨j.1, j.2⟩) ⟨i.1, i.2⟩
    rw [Matrix.mul_apply, Matrix.one_apply] at this
    simp only [RCLike.inner_apply, conj_trivial]
    refine this.trans ?_
    by_cases hij : i = j
    · rw [if_pos hij, if_pos (by rw [hij])]
    · rw [if_neg hij, if_neg fun e => hij (Subtype.ext (Fin.ext (Fin.mk.inj e).symm))]
  obtain ⟨b, hb⟩ := ho.exists_orthonormalBasis_extension_of_card_eq (by rw [finrank_euclideanSpace])
  refine ⟨h, Matrix.of fun i j => b i j, ?_, ?_⟩
  · ext i j
    rw [Matrix.mul_apply, Matrix.one_apply]
    exact basis_dot b i j
  · intro i j
    have h1 : b (Fin.castLE h i) = WithLp.toLp 2 (V i) := (hb _ i.2).trans (dif_pos i.2)
    exact congrArg (fun v : EuclideanSpace ℝ (Fin n) => v j) h1

/-- the sum over the first `k` indices and the rest -/
theorem sum_split {n k : ℕ} (hk : k ≤ n) (f : Fin n → ℝ) :
    ∑ i, f i = ∑ b : Fin k, f (Fin.castLE hk b) + ∑ i : Fin n, if (i : ℕ) < k then 0 else f i := by
  obtain ⟨d, rfl⟩ := Nat.exists_eq_add_of_le hk
  rw [Fin.sum_univ_add, Fin.sum_univ_add (fun i : Fin (k + d) => if (i : ℕ) < k then 0 else f i)]
  congr 1
  rw [Finset.sum_eq_zero (s := Finset.univ) (f := fun i : Fin k => if ((Fin.castAdd d i : Fin (k + d)) : ℕ) < k then 0 else
    f (Fin.castAdd d i)) fun i _ => if_pos i.2, zero_add]
  exact Finset.sum_congr rfl fun i _ => (if_neg (by simp)).symm

/-- The difference of a matrix and a suitable combination of the columns of its sketch. `D` is the matrix in a rotated
basis, whose columns have norms `σ`, and `G` the rotated draw, of which the first `k` rows have the right inverse `M`. -/
theorem sketch_split {m n l k : ℕ} (hk : k ≤ n) (D : Matrix (Fin m) (Fin n) ℝ) (τ : Fin n → ℝ)
    (hτ : ∀ b : Fin k, τ (Fin.castLE hk b) ≠ 0)
    (G : Matrix (Fin n) (Fin l) ℝ) (M : Matrix (Fin l) (Fin k) ℝ)
    (hM : ∀ i b : Fin k, ∑ j, G (Fin.castLE hk i) j * M j b = if i = b then 1 else 0) :
    sqSum (D - D * diagonal τ * G * (M * diagonal (fun b => (τ (Fin.castLE hk b))⁻¹) *
        Matrix.of fun (b : Fin k) i => if i = Fin.castLE hk b then (1 : ℝ) else 0)) =
      (∑ a, ∑ i : Fin n, if (i : ℕ) < k then 0 else D a i ^ 2) +
      ∑ a, ∑ b, (∑ i : Fin n, ∑ j, (if (i : ℕ) < k then 0 else D a i * τ i * M j b * (τ (Fin.castLE hk b))⁻¹) * G i j) ^ 2 := by
  let T : Fin m → Fin k → ℝ := fun a b => ∑ i, D a i * τ i * (∑ j, G i j * M j b) * (τ (Fin.castLE hk b))⁻¹
  have hE : ∀ a i, (D * diagonal τ * G * (M * diagonal (fun b => (τ (Fin.castLE hk b))⁻¹) *
        Matrix.of fun (b : Fin k) i => if i = Fin.castLE hk b then (1 : ℝ) else 0)) a i =
      ∑ b, T a b * if i = Fin.castLE hk b then 1 else 0 := by
    intro a i
    rw [← Matrix.mul_assoc, Matrix.mul_apply]
    refine Finset.sum_congr rfl fun b _ => ?_
    congr 1
    rw [← Matrix.mul_assoc, Matrix.mul_diagonal, Matrix.mul_assoc, Matrix.mul_apply, Finset.sum_mul]
    refine Finset.sum_congr rfl fun i' _ => ?_
    rw [Matrix.mul_diagonal, Matrix.mul_apply]
  have hT : ∀ a b, T a b = D a (Fin.castLE hk b) +
      ∑ i : Fin n, ∑ j, (if (i : ℕ) < k then 0 else D a i * τ i * M j b * (τ (Fin.castLE hk b))⁻¹) * G i j := by
    intro a b
    simp only [T]
    rw [sum_split hk]
    congr 1
    · rw [Finset.sum_eq_single b]
      · rw [hM, if_pos rfl, mul_one, mul_assoc, mul_inv_cancel₀ (hτ b), mul_one]
      · intro b' _ hb
        rw [hM, if_neg hb, mul_zero, zero_mul]
      · simp
    · refine Finset.sum_congr rfl fun i _ => ?_
      by_cases h : (i : ℕ) < k
      · simp [h]
      · simp only [h, if_false]
        rw [Finset.mul_sum, Finset.sum_mul]
        exact Finset.sum_congr rfl fun j _ => by ring
  have hlow : ∀ a (b : Fin k), (∑ b', T a b' * if Fin.castLE hk b = Fin.castLE hk b' then (1 : ℝ) else 0) = T a b := by
    intro a b
    rw [Finset.sum_eq_single b]
    · simp
    · intro b' _ hb
      rw [if_neg fun e => hb (Fin.castLE_injective hk e).symm, mul_zero]
    · simp
  have hhigh : ∀ a (i : Fin n), ¬ (i : ℕ) < k → (∑ b', T a b' * if i = Fin.castLE hk b' then (1 : ℝ) else 0) = 0 := by
    intro a i hi
    refine Finset.sum_eq_zero fun b _ => ?_
    rw [if_neg, mul_zero]
    rintro rfl
    exact hi b.2
  unfold sqSum
  rw [← Finset.sum_add_distrib]
  refine Finset.sum_congr rfl fun a _ => ?_
  rw [sum_split hk, add_comm]
  congr 1
  · refine Finset.sum_congr rfl fun i _ => ?_
    by_cases h : (i : ℕ) < k
    · simp [h]
    · rw [if_neg h, if_neg h, Matrix.sub_apply, hE, hhigh a i h, sub_zero]
  · refine Finset.sum_congr rfl fun b _ => ?_
    rw [Matrix.sub_apply, hE, hlow, hT]
    ring

end DynCF
