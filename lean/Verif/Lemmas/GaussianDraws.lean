import Verif.Lemmas.PolyNull
import Verif.Props.HooiMonotone
/-!
# Products with a matrix of independent normal entries
-/
namespace DynCF
open MeasureTheory Matrix ProbabilityTheory

/-- A linear map onto `ℝ^a` has a right inverse. -/
theorem fullRows_of_rank {a b : ℕ} (M : Matrix (Fin a) (Fin b) ℝ) (h : a ≤ M.rank) : FullRows M := by
  have hs : Function.Surjective M.mulVecLin := by
    rw [← LinearMap.range_eq_top]
    refine Submodule.eq_top_of_finrank_eq ?_
    have h1 : Module.finrank ℝ (LinearMap.range M.mulVecLin) = M.rank := rfl
    have h2 := M.rank_le_height
    rw [h1, Module.finrank_fin_fun]
    omega
  obtain ⟨g, hg⟩ := LinearMap.exists_rightInverse_of_surjective M.mulVecLin (LinearMap.range_eq_top.2 hs)
  refine ⟨LinearMap.toMatrix' g, ?_⟩
  have := congrArg LinearMap.toMatrix' hg
  rw [LinearMap.toMatrix'_comp, LinearMap.toMatrix'_id, ← Matrix.toLin'_apply', LinearMap.toMatrix'_toLin'] at this
  exact this

/-- rank factorisation -/
theorem rank_factor {m n : ℕ} (M : Matrix (Fin m) (Fin n) ℝ) :
    ∃ (L : Matrix (Fin m) (Fin M.rank) ℝ) (R : Matrix (Fin M.rank) (Fin n) ℝ), L * R = M ∧ FullRows R := by
  let b : Module.Basis (Fin M.rank) ℝ (LinearMap.range M.mulVecLin) := Module.finBasisOfFinrankEq ℝ _ rfl
  have hc : ∀ j, M.col j ∈ LinearMap.range M.mulVecLin := fun j => ⟨Pi.single j 1, by simp⟩
  have e : (Matrix.of fun i a => (b a).1 i : Matrix (Fin m) (Fin M.rank) ℝ) *
      (Matrix.of fun a j => b.repr ⟨M.col j, hc j⟩ a : Matrix (Fin M.rank) (Fin n) ℝ) = M := by
    ext i j
    have := congrArg (fun v : LinearMap.range M.mulVecLin => v.1 i) (b.sum_repr ⟨M.col j, hc j⟩)
    rw [Matrix.mul_apply]
    simp only [Submodule.coe_sum, Submodule.coe_smul, Finset.sum_apply, Pi.smul_apply, smul_eq_mul] at this
    simp only [Matrix.of_apply]
    rw [Finset.sum_congr rfl fun a _ => mul_comm _ _]
    exact this
  refine ⟨_, _, e, fullRows_of_rank _ ?_⟩
  conv_lhs => rw [← e]
  exact Matrix.rank_mul_le_right _ _

/-- `randn(m, n)`: independent standard normal entries. -/
noncomputable def randn (m n : ℕ) : Measure (Fin m × Fin n → ℝ) := Measure.pi fun _ => gaussianReal 0 1

/-- the entries as a matrix -/
def entries {m n : ℕ} (w : Fin m × Fin n → ℝ) : Matrix (Fin m) (Fin n) ℝ := Matrix.of fun i j => w (i, j)

/-- a matrix of full row rank times a matrix of independent entries without atoms that is wide enough has full row
rank almost surely -/
theorem iid_fullRows (ν : Measure ℝ) [SigmaFinite ν] [NullSingletonClass ν] {a m n : ℕ} (R : Matrix (Fin a) (Fin m) ℝ)
    (hR : FullRows R) (ha : a ≤ n) :
    ∀ᵐ w ∂Measure.pi (fun _ : Fin m × Fin n => ν), FullRows (R * entries w) := by
  obtain ⟨B, hB⟩ := hR
  let X : Matrix (Fin m) (Fin a) (MvPolynomial (Fin m × Fin n) ℝ) :=
    Matrix.of fun i j => MvPolynomial.X (i, Fin.castLE ha j)
  let p : MvPolynomial (Fin m × Fin n) ℝ := (R.map MvPolynomial.C * X).det
  have he : ∀ w, MvPolynomial.eval w p = (R * (entries w).submatrix id (Fin.castLE ha)).det := by
    intro w
    rw [RingHom.map_det]
    congr 1
    ext i j
    simp [X, Matrix.mul_apply, entries]
  have hp : p ≠ 0 := by
    intro h0
    let w0 : Fin m × Fin n → ℝ := fun q => if h : q.2.1 < a then B q.1 ⟨q.2.1, h⟩ else 0
    have h1 := he w0
    have h2 : (entries w0).submatrix id (Fin.castLE ha) = B := by
      ext i j
      simp [entries, w0]
    rw [h0, map_zero, h2, hB, Matrix.det_one] at h1
    exact one_ne_zero h1.symm
  have := poly_ae (fun _ : Fin m × Fin n => ν) p hp
  filter_upwards [this] with w hw
  rw [he] at hw
  set D := R * (entries w).submatrix id (Fin.castLE ha) with hD
  refine ⟨(1 : Matrix (Fin n) (Fin n) ℝ).submatrix id (Fin.castLE ha) * D⁻¹, ?_⟩
  rw [← Matrix.mul_assoc, Matrix.mul_assoc R]
  have h3 : entries w * (1 : Matrix (Fin n) (Fin n) ℝ).submatrix id (Fin.castLE ha) =
      (entries w).submatrix id (Fin.castLE ha) := by
    ext i j
    simp [Matrix.mul_apply, Matrix.one_apply]
  rw [h3, ← hD, Matrix.mul_nonsing_inv _ (isUnit_iff_ne_zero.2 hw)]

/-- a matrix whose rank is at most the width of the random matrix is almost surely a multiple of the product -/
theorem iid_range (ν : Measure ℝ) [SigmaFinite ν] [NullSingletonClass ν] {p m n : ℕ} (M : Matrix (Fin p) (Fin m) ℝ)
    (hM : M.rank ≤ n) : ∀ᵐ w ∂Measure.pi (fun _ : Fin m × Fin n => ν), ∃ B, M * entries w * B = M := by
  obtain ⟨L, R, hLR, hR⟩ := rank_factor M
  filter_upwards [iid_fullRows ν R hR hM] with w ⟨B, hB⟩
  refine ⟨B * R, ?_⟩
  have e : M * entries w = L * (R * entries w) := by rw [← Matrix.mul_assoc, hLR]
  rw [e, Matrix.mul_assoc L, ← Matrix.mul_assoc _ B, hB, Matrix.one_mul, hLR]

/-- the same for normal entries -/
theorem randn_fullRows {a m n : ℕ} (R : Matrix (Fin a) (Fin m) ℝ) (hR : FullRows R) (ha : a ≤ n) :
    ∀ᵐ w ∂randn m n, FullRows (R * entries w) := by
  haveI : NullSingletonClass (gaussianReal 0 1) := nullSingletonClass_gaussianReal one_ne_zero
  exact iid_fullRows _ R hR ha

theorem randn_range {p m n : ℕ} (M : Matrix (Fin p) (Fin m) ℝ) (hM : M.rank ≤ n) :
    ∀ᵐ w ∂randn m n, ∃ B, M * entries w * B = M := by
  haveI : NullSingletonClass (gaussianReal 0 1) := nullSingletonClass_gaussianReal one_ne_zero
  exact iid_range _ M hM

end DynCF
