import Verif.Py.LinAlg
import Mathlib.Algebra.MvPolynomial.Equiv
import Mathlib.Algebra.MvPolynomial.Funext
import Mathlib.MeasureTheory.Constructions.Pi
import Mathlib.Probability.Distributions.Gaussian.Real
import Mathlib.Topology.Algebra.MvPolynomial
/-!
# A non-zero polynomial in independent draws without point masses is non-zero almost surely
-/
namespace DynCF
open MeasureTheory

/-- polynomials in finitely many numbered variables -/
theorem poly_ae_fin : ∀ (n : ℕ) (μ : Fin n → Measure ℝ) [∀ i, SigmaFinite (μ i)]
    [∀ i, NullSingletonClass (μ i)] (p : MvPolynomial (Fin n) ℝ), p ≠ 0 →
    ∀ᵐ x ∂Measure.pi μ, MvPolynomial.eval x p ≠ 0
  | 0, μ, _, _, p, hp => by
    refine Filter.Eventually.of_forall fun x h => hp ?_
    refine MvPolynomial.funext fun y => ?_
    rw [Subsingleton.elim y x, h, map_zero]
  | n + 1, μ, _, _, p, hp => by
    have hf : MvPolynomial.finSuccEquiv ℝ n p ≠ 0 := by
      simpa using hp
    have hq := poly_ae_fin n (fun j => μ (Fin.succAbove 0 j)) _ (Polynomial.leadingCoeff_ne_zero.2 hf)
    have hcont : Continuous fun z : ℝ × (Fin n → ℝ) => MvPolynomial.eval (Fin.cons z.1 z.2 : Fin (n + 1) → ℝ) p := by
      refine (MvPolynomial.continuous_eval p).comp (continuous_pi fun i => ?_)
      refine Fin.cases ?_ (fun j => ?_) i
      · exact continuous_fst
      · exact (continuous_apply j).comp continuous_snd
    have hm : MeasurableSet {z : ℝ × (Fin n → ℝ) | MvPolynomial.eval (Fin.cons z.1 z.2 : Fin (n + 1) → ℝ) p ≠ 0} :=
      (isOpen_ne_fun hcont continuous_const).measurableSet
    have key : ∀ᵐ z ∂(μ 0).prod (Measure.pi fun j => μ (Fin.succAbove 0 j)),
        MvPolynomial.eval (Fin.cons z.1 z.2 : Fin (n + 1) → ℝ) p ≠ 0 := by
      rw [Measure.ae_prod_iff_ae_ae hm, Measure.ae_ae_comm hm]
      filter_upwards [hq] with s hs
      have hne : Polynomial.map (MvPolynomial.eval s) (MvPolynomial.finSuccEquiv ℝ n p) ≠ 0 := by
        intro h
        apply hs
        have := congrArg (fun q => Polynomial.coeff q (MvPolynomial.finSuccEquiv ℝ n p).natDegree) h
        simpa using this
      have hfin : {y : ℝ | Polynomial.eval y
          (Polynomial.map (MvPolynomial.eval s) (MvPolynomial.finSuccEquiv ℝ n p)) = 0}.Finite := by
        refine (Polynomial.finite_setOf_isRoot hne).subset fun y hy => hy
      have := hfin.measure_zero (μ 0)
      rw [ae_iff]
      refine measure_mono_null (fun y hy => ?_) this
      have hy : ¬ (MvPolynomial.eval (Fin.cons y s : Fin (n + 1) → ℝ) p ≠ 0) := hy
      rw [not_not, MvPolynomial.eval_eq_eval_mv_eval'] at hy
      exact hy
    have := (measurePreserving_piFinSuccAbove μ 0).quasiMeasurePreserving.ae key
    filter_upwards [this] with x hx
    convert hx using 3
    funext i
    refine Fin.cases ?_ (fun j => ?_) i <;> rfl

/-- polynomials in any finite family of variables -/
theorem poly_ae {ι : Type} [Fintype ι] (μ : ι → Measure ℝ) [∀ i, SigmaFinite (μ i)]
    [∀ i, NullSingletonClass (μ i)] (p : MvPolynomial ι ℝ) (hp : p ≠ 0) :
    ∀ᵐ x ∂Measure.pi μ, MvPolynomial.eval x p ≠ 0 := by
  obtain ⟨e⟩ : Nonempty (Fin (Fintype.card ι) ≃ ι) := ⟨(Fintype.equivFin ι).symm⟩
  have h := poly_ae_fin _ (fun i => μ (e i)) (MvPolynomial.rename e.symm p)
    (fun h => hp (by
      have := congrArg (MvPolynomial.rename e) h
      rw [MvPolynomial.rename_rename, Equiv.self_comp_symm, MvPolynomial.rename_id_apply, map_zero] at this
      exact this))
  rw [← Measure.pi_map_piCongrLeft e μ]
  rw [(MeasurableEquiv.piCongrLeft _ e).measurableEmbedding.ae_map_iff]
  filter_upwards [h] with x hx
  rw [MvPolynomial.eval_rename] at hx
  convert hx using 3
  funext i
  obtain ⟨j, rfl⟩ := e.surjective i
  rw [MeasurableEquiv.coe_piCongrLeft, Equiv.piCongrLeft_apply_apply]
  simp

end DynCF
