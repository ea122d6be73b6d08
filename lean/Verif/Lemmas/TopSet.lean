/-
The set of the `k` largest of independent identically distributed atomless draws is uniform over all sets of `k`.
-/
import Verif.Lemmas.PolyNull
import Mathlib.Logic.Equiv.Fintype
import Mathlib.Data.Finset.Powerset
import Mathlib.MeasureTheory.Constructions.BorelSpace.Order

namespace DynCF
open MeasureTheory

variable {ι : Type} [Fintype ι] [DecidableEq ι]

/-- The draws for which every member of `S` is larger than every other member of `A`. -/
def topEvent (A S : Finset ι) : Set (ι → ℝ) := {x | ∀ j ∈ S, ∀ b ∈ A, b ∉ S → x b < x j}

theorem topEvent_measurable (A S : Finset ι) : MeasurableSet (topEvent A S) := by
  have : topEvent A S = ⋂ j ∈ S, ⋂ b ∈ A, ⋂ (_ : b ∉ S), {x : ι → ℝ | x b < x j} := by
    ext x
    simp [topEvent]
  rw [this]
  refine Finset.measurableSet_biInter _ fun j _ => Finset.measurableSet_biInter _ fun b _ => ?_
  refine MeasurableSet.iInter fun _ => ?_
  exact measurableSet_lt (measurable_pi_apply b) (measurable_pi_apply j)

theorem topEvent_unique {A S S' : Finset ι} {x : ι → ℝ} (hS : S ⊆ A) (hS' : S' ⊆ A) (hc : S.card = S'.card)
    (h : x ∈ topEvent A S) (h' : x ∈ topEvent A S') : S = S' := by
  by_contra hne
  have h1 : ¬ S ⊆ S' := fun hs => hne (Finset.eq_of_subset_of_card_le hs hc.ge)
  have h2 : ¬ S' ⊆ S := fun hs => hne (Finset.eq_of_subset_of_card_le hs hc.le).symm
  obtain ⟨j, hj, hj'⟩ := Finset.not_subset.1 h1
  obtain ⟨b, hb, hb'⟩ := Finset.not_subset.1 h2
  exact lt_asymm (h j hj b (hS' hb) hb') (h' b hb j (hS hj) hj')

theorem topEvent_exists (A : Finset ι) {x : ι → ℝ} (hx : Function.Injective x) :
    ∀ k ≤ A.card, ∃ S ∈ A.powersetCard k, x ∈ topEvent A S
  | 0, _ => ⟨∅, by simp, by simp [topEvent]⟩
  | k + 1, hk => by
    obtain ⟨S, hS, h⟩ := topEvent_exists A hx k (by omega)
    obtain ⟨hsub, hcard⟩ := Finset.mem_powersetCard.1 hS
    have hne : (A \ S).Nonempty := by
      rw [← Finset.card_pos, Finset.card_sdiff_of_subset hsub]
      omega
    obtain ⟨j, hj, hmax⟩ := Finset.exists_max_image (A \ S) x hne
    obtain ⟨hjA, hjS⟩ := Finset.mem_sdiff.1 hj
    refine ⟨insert j S, Finset.mem_powersetCard.2 ⟨Finset.insert_subset hjA hsub, ?_⟩, ?_⟩
    · rw [Finset.card_insert_of_notMem hjS, hcard]
    · intro a ha b hb hbS
      rw [Finset.mem_insert, not_or] at hbS
      rcases Finset.mem_insert.1 ha with rfl | ha
      · exact lt_of_le_of_ne (hmax b (Finset.mem_sdiff.2 ⟨hb, hbS.2⟩)) fun h => hbS.1 (hx h)
      · exact h a ha b hb hbS.2

variable (ν : Measure ℝ) [IsProbabilityMeasure ν]

theorem topEvent_perm (A S S' : Finset ι) (hS : S ⊆ A) (hS' : S' ⊆ A) (hc : S.card = S'.card) :
    Measure.pi (fun _ : ι => ν) (topEvent A S') = Measure.pi (fun _ : ι => ν) (topEvent A S) := by
  obtain ⟨τ, hτ⟩ := Equiv.Perm.exists_map_finset_eq (S.subtype (· ∈ A)) (S'.subtype (· ∈ A)) (by
    rw [Finset.card_subtype, Finset.card_subtype, Finset.filter_true_of_mem fun a ha => hS ha,
      Finset.filter_true_of_mem fun a ha => hS' ha, hc])
  obtain ⟨σ, hσ⟩ : ∃ σ, σ = Equiv.Perm.ofSubtype τ := ⟨_, rfl⟩
  have hA : ∀ a, σ a ∈ A ↔ a ∈ A := by
    intro a
    rw [hσ]
    exact Equiv.Perm.ofSubtype_apply_mem_iff_mem τ a
  have hSS : ∀ a, σ a ∈ S' ↔ a ∈ S := by
    intro a
    by_cases ha : a ∈ A
    · have h1 : σ a = τ ⟨a, ha⟩ := by rw [hσ]; exact Equiv.Perm.ofSubtype_apply_of_mem τ ha
      have h2 : τ ⟨a, ha⟩ ∈ S'.subtype (· ∈ A) ↔ (⟨a, ha⟩ : {x // x ∈ A}) ∈ S.subtype (· ∈ A) := by
        rw [← hτ]
        exact Finset.mem_map' _
      rw [Finset.mem_subtype, Finset.mem_subtype] at h2
      rw [h1]
      exact h2
    · have h1 : σ a ∉ A := fun h => ha ((hA a).1 h)
      exact ⟨fun h => absurd (hS' h) h1, fun h => absurd (hS h) ha⟩
  have hp := measurePreserving_piCongrLeft (fun _ : ι => ν) σ
  rw [← hp.measure_preimage (topEvent_measurable A S').nullMeasurableSet]
  congr 1
  ext x
  have hv : ∀ a, MeasurableEquiv.piCongrLeft (fun _ : ι => ℝ) σ x (σ a) = x a := fun a =>
    MeasurableEquiv.piCongrLeft_apply_apply (β := fun _ : ι => ℝ) σ x a
  constructor
  · intro h j hj b hb hbS
    have := h (σ j) ((hSS j).2 hj) (σ b) ((hA b).2 hb) fun h' => hbS ((hSS b).1 h')
    rwa [hv, hv] at this
  · intro h j hj b hb hbS
    obtain ⟨j, rfl⟩ := σ.surjective j
    obtain ⟨b, rfl⟩ := σ.surjective b
    show MeasurableEquiv.piCongrLeft (fun _ : ι => ℝ) σ x (σ b) < MeasurableEquiv.piCongrLeft (fun _ : ι => ℝ) σ x (σ j)
    rw [hv, hv]
    exact h j ((hSS j).1 hj) b ((hA b).1 hb) fun h' => hbS ((hSS b).2 h')

theorem draws_injective [NullSingletonClass ν] : ∀ᵐ x ∂Measure.pi (fun _ : ι => ν), Function.Injective x := by
  have h : ∀ i j : ι, i ≠ j → ∀ᵐ x ∂Measure.pi (fun _ : ι => ν), x i ≠ x j := by
    intro i j hij
    have hne : (MvPolynomial.X i - MvPolynomial.X j : MvPolynomial ι ℝ) ≠ 0 := by
      intro h0
      exact hij (MvPolynomial.X_injective (sub_eq_zero.1 h0))
    filter_upwards [poly_ae (fun _ : ι => ν) _ hne] with x hx h'
    apply hx
    simp [h']
  have h2 : ∀ᵐ x ∂Measure.pi (fun _ : ι => ν), ∀ i j : ι, i ≠ j → x i ≠ x j := by
    rw [ae_all_iff]; intro i
    rw [ae_all_iff]; intro j
    rw [Filter.eventually_imp_distrib_left]
    exact h i j
  filter_upwards [h2] with x hx i j hij
  by_contra hne
  exact hx i j hne hij

theorem topEvent_sum (A : Finset ι) (k : ℕ) (T : Finset (Finset ι)) (hT : T ⊆ A.powersetCard k) :
    Measure.pi (fun _ : ι => ν) (⋃ S ∈ T, topEvent A S) = ∑ S ∈ T, Measure.pi (fun _ : ι => ν) (topEvent A S) := by
  refine measure_biUnion_finset ?_ fun S _ => topEvent_measurable A S
  intro S hS S' hS' hne
  refine Set.disjoint_left.2 fun x hx hx' => hne ?_
  obtain ⟨h1, h2⟩ := Finset.mem_powersetCard.1 (hT hS)
  obtain ⟨h1', h2'⟩ := Finset.mem_powersetCard.1 (hT hS')
  exact topEvent_unique h1 h1' (h2.trans h2'.symm) hx hx'

/-- every set of `k` members of `A` is the set of the largest ones with the same probability -/
theorem topEvent_prob [NullSingletonClass ν] (A S : Finset ι) (hS : S ⊆ A) :
    Measure.pi (fun _ : ι => ν) (topEvent A S) = ((A.card.choose S.card : ℕ) : ENNReal)⁻¹ := by
  have hle := Finset.card_le_card hS
  have h1 : Measure.pi (fun _ : ι => ν) (⋃ S' ∈ A.powersetCard S.card, topEvent A S') = 1 := by
    rw [← measure_univ (μ := Measure.pi (fun _ : ι => ν))]
    refine measure_congr (Filter.eventuallyEq_set.2 ?_)
    filter_upwards [draws_injective (ι := ι) ν] with x hx
    obtain ⟨S', hS', h⟩ := topEvent_exists A hx S.card hle
    exact ⟨fun _ => trivial, fun _ => Set.mem_biUnion hS' h⟩
  rw [topEvent_sum ν A S.card _ (Finset.Subset.refl _), Finset.sum_congr rfl fun S' hS' =>
    topEvent_perm ν A S S' hS (Finset.mem_powersetCard.1 hS').1 (Finset.mem_powersetCard.1 hS').2.symm,
    Finset.sum_const, Finset.card_powersetCard, nsmul_eq_mul] at h1
  exact ENNReal.eq_inv_of_mul_eq_one_left ((mul_comm _ _).trans h1)

/-- how many sets of `k + 1` members contain a given one -/
theorem card_containing (A : Finset ι) (j : ι) (hj : j ∈ A) (k : ℕ) :
    ((A.powersetCard (k + 1)).filter fun S => j ∈ S).card = (A.card - 1).choose k := by
  have h : ((A.powersetCard (k + 1)).filter fun S => j ∈ S) = ((A.erase j).powersetCard k).image (insert j) := by
    ext S
    rw [Finset.mem_filter, Finset.mem_powersetCard, Finset.mem_image]
    constructor
    · rintro ⟨⟨h1, h2⟩, h3⟩
      refine ⟨S.erase j, Finset.mem_powersetCard.2 ⟨Finset.erase_subset_erase j h1, ?_⟩, Finset.insert_erase h3⟩
      rw [Finset.card_erase_of_mem h3, h2]
      rfl
    · rintro ⟨S', h1, rfl⟩
      obtain ⟨h1, h2⟩ := Finset.mem_powersetCard.1 h1
      refine ⟨⟨Finset.insert_subset hj (h1.trans (Finset.erase_subset j A)), ?_⟩, Finset.mem_insert_self j S'⟩
      rw [Finset.card_insert_of_notMem fun h => absurd (h1 h) (Finset.notMem_erase j A), h2]
  rw [h, Finset.card_image_of_injOn, Finset.card_powersetCard, Finset.card_erase_of_mem hj]
  intro S hS S' hS' he
  have h1 : j ∉ S := fun h => absurd ((Finset.mem_powersetCard.1 hS).1 h) (Finset.notMem_erase j A)
  have h2 : j ∉ S' := fun h => absurd ((Finset.mem_powersetCard.1 hS').1 h) (Finset.notMem_erase j A)
  rw [← Finset.erase_insert h1, ← Finset.erase_insert h2]
  exact congrArg (fun s => Finset.erase s j) he

theorem containing_prob [NullSingletonClass ν] (A : Finset ι) (j : ι) (hj : j ∈ A) (k : ℕ) (hk : k ≤ A.card) :
    Measure.pi (fun _ : ι => ν) (⋃ S ∈ (A.powersetCard k).filter (fun S => j ∈ S), topEvent A S) =
      (k : ENNReal) / (A.card : ENNReal) := by
  rw [topEvent_sum ν A k _ (Finset.filter_subset _ _)]
  have h1 : ∀ S ∈ (A.powersetCard k).filter (fun S => j ∈ S), Measure.pi (fun _ : ι => ν) (topEvent A S) =
      ((A.card.choose k : ℕ) : ENNReal)⁻¹ := by
    intro S hS
    obtain ⟨h2, h3⟩ := Finset.mem_powersetCard.1 (Finset.mem_filter.1 hS).1
    rw [topEvent_prob ν A S h2, h3]
  rw [Finset.sum_congr rfl h1, Finset.sum_const, nsmul_eq_mul]
  cases k with
  | zero =>
    have : (A.powersetCard 0).filter (fun S => j ∈ S) = ∅ := by simp
    rw [this]
    simp
  | succ k =>
    rw [card_containing A j hj k]
    have hpos : 0 < A.card := Finset.card_pos.2 ⟨j, hj⟩
    obtain ⟨n, hn⟩ : ∃ n, A.card = n + 1 := ⟨A.card - 1, by omega⟩
    rw [hn, Nat.add_sub_cancel]
    have hc : 0 < (n + 1).choose (k + 1) := Nat.choose_pos (by omega)
    have key : (n + 1) * n.choose k = (n + 1).choose (k + 1) * (k + 1) := Nat.add_one_mul_choose_eq n k
    rw [← div_eq_mul_inv, ENNReal.div_eq_div_iff (by simp) (by simp) (by exact_mod_cast hc.ne') (by simp)]
    exact_mod_cast by rw [mul_comm] at key ⊢; linarith [key]

end DynCF
