/-
C162: expectation and variance of the hit rate of the random recommender.
-/
import Verif.Props.RandomUniform
import Verif.Props.Evaluation
import Mathlib.Probability.Moments.Variance

namespace DynCF
open MeasureTheory ProbabilityTheory

variable {Ω : Type} [MeasurableSpace Ω]

/-! ### Specification -/

/-- The chance of user `u` to get item `x`. -/
noncomputable def chance {K : Type} (data : List (Row K)) (filt : Bool) (k : ℕ) (u x : ℤ) : ℝ :=
  if x ∈ choosable data filt u then (listSize data k : ℝ) / ((choosable data filt u).card : ℝ) else 0

/-! ### Lemmas -/

/-- almost surely, whether an item is recommended depends on the array drawn for the user, in a measurable way -/
theorem item_event (data : List (Row ℝ)) (v : RecView) (hv : randomTrain data = .ok v) (filt : Bool)
    (h2 : filt = true → 2 ≤ v.nItems) (argp : ArgPart ℝ) (hargp : ArgPartOk argp) (users : List ℤ)
    (hus : ∀ u ∈ users, ∃ t ∈ data, t.user = u) (k : ℕ) (hk : 1 ≤ k)
    (hen : ∀ u ∈ users, listSize data k ≤ (choosable data filt u).card) :
    ∃ B : ℤ → ℤ → Set (Fin v.nItems → ℝ), (∀ u x, MeasurableSet (B u x)) ∧
      ∀ draw : ℕ → Fin v.nItems → ℝ, ∃ res, randomRecommend argp v draw users k filt false = .ok res ∧
        res.length = users.length ∧
        ∀ i u row, users[i]? = some u → res[i]? = some row → Function.Injective (draw i) →
          ∀ x, x ∈ row ↔ draw i ∈ B u x := by
  obtain ⟨e, A, hA, hrow⟩ := random_rows data v hv filt h2 argp hargp users hus k hk hen
  obtain ⟨T, hT⟩ : ∃ T : ℤ → ℤ → Finset (Finset (Fin v.nItems)), ∀ u x S, S ∈ T u x ↔
      (S ⊆ A u ∧ S.card = listSize data k) ∧ x ∈ S.map e := by
    refine ⟨fun u x => ((A u).powersetCard (listSize data k)).filter fun S => x ∈ S.map e, fun u x S => ?_⟩
    rw [Finset.mem_filter, Finset.mem_powersetCard]
  refine ⟨fun u x => ⋃ S ∈ T u x, topEvent (A u) S,
    fun u x => Finset.measurableSet_biUnion _ fun S _ => topEvent_measurable _ _, fun draw => ?_⟩
  obtain ⟨res, hres, hr⟩ := hrow draw
  have hlen : res.length = users.length := by
    unfold randomRecommend at hres
    obtain ⟨m, hm⟩ := recommend_ok_pref true argp v _ users k filt false res hres
    exact (recommend_rows true argp v _ users k filt false m hm res hres).1
  refine ⟨res, hres, hlen, fun i u row hu hrowi hw x => ?_⟩
  obtain ⟨row', hrow', C, hCA, hCc, hCe, hCt⟩ := hr i u hu
  rw [hrowi] at hrow'
  obtain rfl := Option.some.inj hrow'
  rw [Set.mem_iUnion₂]
  constructor
  · intro hm
    exact ⟨C, (hT u x C).2 ⟨⟨hCA, hCc⟩, (hCe x).1 hm⟩, hCt hw⟩
  · rintro ⟨S, hS, hm⟩
    obtain ⟨⟨hS1, hS2⟩, hjS⟩ := (hT u x S).1 hS
    have := topEvent_unique hCA hS1 (hCc.trans hS2.symm) (hCt hw) hm
    rw [hCe, this]
    exact hjS

theorem mean_zip_fin {α β : Type} (a : List α) (b : List β) (h : b.length = a.length) (f : α × β → ℝ) :
    mean ((a.zip b).map f) = (∑ i : Fin a.length, f (a[i], b[i.val]'(by omega))) / (a.length : ℝ) := by
  unfold mean
  rw [← List.sum_ofFn]
  congr 2
  · apply List.ext_getElem
    · simp [h]
    · intro i h1 h2
      simp
  · simp [h]

/-! ### Theorems -/

section
variable (P : Measure Ω) (data : List (Row ℝ)) (v : RecView) (hv : randomTrain data = .ok v) (filt : Bool)
  (h2 : filt = true → 2 ≤ v.nItems) (argp : ArgPart ℝ) (hargp : ArgPartOk argp) (draw : Ω → ℕ → Fin v.nItems → ℝ)
  (users tests : List ℤ) (hus : ∀ u ∈ users, ∃ t ∈ data, t.user = u) (k : ℕ) (hk : 1 ≤ k)
  (hen : ∀ u ∈ users, listSize data k ≤ (choosable data filt u).card) (hne : tests ≠ [])
  (hlen : tests.length = users.length)
  (hlaw : ∀ i < users.length,
    HasLaw (fun w => draw w i) (Measure.pi fun _ : Fin v.nItems => gaussianReal 0 1) P)

include hv h2 hargp hus hk hen hne hlen hlaw

/-- the hit rate is almost surely a mean of indicators with known means -/
theorem hit_rate_form : ∃ (X : Ω → ℝ) (B : Fin tests.length → Set (Fin v.nItems → ℝ)),
    (∀ i, MeasurableSet (B i)) ∧
    (∀ w, ∃ res, randomRecommend argp v (draw w) users k filt false = .ok res ∧ hr res tests = .ok (X w)) ∧
    (∀ i : Fin tests.length, ∫ w, (B i).indicator 1 (draw w i) ∂P =
      chance data filt k (users[i.val]'(by omega)) tests[i]) ∧
    X =ᵐ[P] fun w => (∑ i : Fin tests.length, (B i).indicator 1 (draw w i)) / (tests.length : ℝ) := by
  obtain ⟨B, hB, hrow⟩ := item_event data v hv filt h2 argp hargp users hus k hk hen
  choose res hres hl hr using fun w => hrow (draw w)
  refine ⟨fun w => mean ((tests.zip (res w)).map fun p => hit p.2 p.1),
    fun i => B (users[i.val]'(by omega)) tests[i], fun i => hB _ _,
    fun w => ⟨res w, hres w, (C12_hit_rate (res w) tests hne (by rw [hl w, hlen])).1⟩, fun i => ?_, ?_⟩
  · have hi : i.val < users.length := by omega
    have hu : users[i.val]? = some users[i.val] := List.getElem?_eq_getElem hi
    have hL := hlaw i hi
    have h3 := C161_item P data v hv filt h2 argp hargp draw users hus k hk hen i users[i.val] hu hL tests[i]
    have h4 : P {w | ∃ res row, randomRecommend argp v (draw w) users k filt false = .ok res ∧ res[i.val]? = some row ∧
        tests[i] ∈ row} = P ((fun w => draw w i) ⁻¹' B users[i.val] tests[i]) := by
      refine measure_congr (Filter.eventuallyEq_set.2 ?_)
      filter_upwards [normal_injective hL] with w hw
      have hri : i.val < (res w).length := by rw [hl w]; exact hi
      have h5 := hr w i users[i.val] (res w)[i.val] hu (List.getElem?_eq_getElem hri) hw tests[i]
      rw [Set.mem_preimage, ← h5]
      constructor
      · rintro ⟨res', row', hres', hrow', hm⟩
        rw [hres w] at hres'
        cases hres'
        rw [List.getElem?_eq_getElem hri] at hrow'
        cases hrow'
        exact hm
      · intro hm
        exact ⟨res w, _, hres w, List.getElem?_eq_getElem hri, hm⟩
    rw [h4, ← Measure.map_apply_of_aemeasurable hL.aemeasurable (hB _ _)] at h3
    have h6 : ∫ w, (B users[i.val] tests[i]).indicator 1 (draw w i) ∂P =
        ∫ x, (B users[i.val] tests[i]).indicator (1 : (Fin v.nItems → ℝ) → ℝ) x ∂(P.map fun w => draw w i) := by
      rw [integral_map hL.aemeasurable]
      exact ((measurable_one.indicator (hB _ _)).aestronglyMeasurable)
    rw [h6, integral_indicator_one (hB _ _), Measure.real, h3]
    unfold chance
    split
    · rw [ENNReal.toReal_div, ENNReal.toReal_natCast, ENNReal.toReal_natCast]
    · rfl
  · have hinj : ∀ᵐ w ∂P, ∀ i : Fin tests.length, Function.Injective (draw w i) :=
      ae_all_iff.2 fun i => normal_injective (hlaw i (by omega))
    filter_upwards [hinj] with w hw
    have hlr : (res w).length = tests.length := by rw [hl w, hlen]
    rw [mean_zip_fin _ _ hlr]
    congr 1
    refine Finset.sum_congr rfl fun i _ => ?_
    have h5 := hr w i (users[i.val]'(by omega)) ((res w)[i.val]'(by omega)) (List.getElem?_eq_getElem _)
      (List.getElem?_eq_getElem _) (hw i) tests[i]
    unfold hit
    by_cases hm : tests[i] ∈ (res w)[i.val]'(by omega)
    · rw [if_pos hm, Set.indicator_of_mem (h5.1 hm)]
      rfl
    · rw [if_neg hm, Set.indicator_of_notMem fun h => hm (h5.2 h)]

/-- **C162, expectation.** The expected hit rate of the random recommender is the mean, over the requested users, of the
chance of the user to get the test item. -/
theorem C162_expected [IsProbabilityMeasure P] : ∃ X : Ω → ℝ,
    (∀ w, ∃ res, randomRecommend argp v (draw w) users k filt false = .ok res ∧ hr res tests = .ok (X w)) ∧
    Integrable X P ∧
    ∫ w, X w ∂P = mean ((tests.zip users).map fun p => chance data filt k p.2 p.1) := by
  obtain ⟨X, B, hB, hX, hint, hae⟩ := hit_rate_form P data v hv filt h2 argp hargp draw users tests hus k hk hen hne hlen
    hlaw
  have hI : ∀ i : Fin tests.length, Integrable (fun w => (B i).indicator (1 : (Fin v.nItems → ℝ) → ℝ) (draw w i)) P := by
    intro i
    have hm : AEMeasurable (fun w => (B i).indicator (1 : (Fin v.nItems → ℝ) → ℝ) (draw w i)) P :=
      (measurable_one.indicator (hB i)).comp_aemeasurable (hlaw i (by omega)).aemeasurable
    refine Integrable.of_bound hm.aestronglyMeasurable 1 (Filter.Eventually.of_forall fun w => ?_)
    by_cases h : draw w i ∈ B i
    · rw [Set.indicator_of_mem h]; simp
    · rw [Set.indicator_of_notMem h]; simp
  refine ⟨X, hX, ((integrable_finset_sum _ fun i _ => hI i).div_const _).congr hae.symm, ?_⟩
  rw [integral_congr_ae hae, integral_div, integral_finset_sum _ fun i _ => hI i]
  rw [mean_zip_fin _ _ hlen.symm]
  congr 1
  exact Finset.sum_congr rfl fun i _ => hint i

/-- **C162, variance.** If the arrays drawn for the requested users are independent, the variance of the hit rate is
the sum of `p (1 - p)` over the users, with the chances `p` of the test items, divided by the square of the number of
users. -/
theorem C162_variance [IsProbabilityMeasure P] (hind : iIndepFun (fun (i : Fin users.length) w => draw w i) P) :
    ∃ X : Ω → ℝ,
      (∀ w, ∃ res, randomRecommend argp v (draw w) users k filt false = .ok res ∧ hr res tests = .ok (X w)) ∧
      Var[X; P] = mean ((tests.zip users).map fun p =>
        chance data filt k p.2 p.1 * (1 - chance data filt k p.2 p.1)) / (tests.length : ℝ) := by
  obtain ⟨X, B, hB, hX, hint, hae⟩ := hit_rate_form P data v hv filt h2 argp hargp draw users tests hus k hk hen hne hlen
    hlaw
  obtain ⟨Z, hZ⟩ : ∃ Z : Fin tests.length → Ω → ℝ, Z = fun i w =>
    (B i).indicator (1 : (Fin v.nItems → ℝ) → ℝ) (draw w i) := ⟨_, rfl⟩
  have hZm : ∀ i, AEMeasurable (Z i) P := fun i => by
    rw [hZ]
    exact (measurable_one.indicator (hB i)).comp_aemeasurable (hlaw i (by omega)).aemeasurable
  have h01 : ∀ i w, Z i w = 0 ∨ Z i w = 1 := by
    intro i w
    rw [hZ]
    dsimp only
    by_cases h : draw w i ∈ B i
    · rw [Set.indicator_of_mem h]; exact Or.inr rfl
    · rw [Set.indicator_of_notMem h]; exact Or.inl rfl
  have hL2 : ∀ i, MemLp (Z i) 2 P := fun i =>
    MemLp.of_bound (hZm i).aestronglyMeasurable 1 (Filter.Eventually.of_forall fun w => by
      rcases h01 i w with h | h <;> simp [h])
  have hvar : ∀ i : Fin tests.length, Var[Z i; P] = chance data filt k (users[i.val]'(by omega)) tests[i] *
      (1 - chance data filt k (users[i.val]'(by omega)) tests[i]) := by
    intro i
    have hsq : Z i ^ 2 = Z i := by
      funext w
      rcases h01 i w with h | h <;> simp [h]
    have hE : ∫ w, Z i w ∂P = chance data filt k (users[i.val]'(by omega)) tests[i] := by
      rw [hZ]
      exact hint i
    rw [variance_eq_sub (hL2 i), hsq, hE]
    ring
  refine ⟨X, hX, ?_⟩
  have hae' : X =ᵐ[P] fun w => (tests.length : ℝ)⁻¹ * (∑ i, Z i) w := by
    filter_upwards [hae] with w hw
    rw [hw, hZ, Finset.sum_apply, div_eq_inv_mul]
  have hpair : Set.Pairwise ((Finset.univ : Finset (Fin tests.length)) : Set (Fin tests.length))
      fun i j => Z i ⟂ᵢ[P] Z j := by
    intro i _ j _ hij
    have h1 := hind.indepFun (i := Fin.cast hlen i) (j := Fin.cast hlen j) (fun h => hij (Fin.cast_injective hlen h))
    rw [hZ]
    exact h1.comp (measurable_one.indicator (hB i)) (measurable_one.indicator (hB j))
  rw [variance_congr hae', variance_const_mul, IndepFun.variance_sum (fun i _ => hL2 i) hpair,
    mean_zip_fin _ _ hlen.symm, Finset.sum_congr rfl fun i _ => hvar i]
  have : (tests.length : ℝ) ≠ 0 := by
    have := List.length_pos_of_ne_nil hne
    positivity
  field_simp

end

/-- Two of the items 2, 3, 4 for user 7 and two of 1, 2, 3 for user 9: with the test items 4 (chance 2/3) and 4 (which
user 9 has already) the expected hit rate is 1/3 and its variance 1/18. -/
example (argp : ArgPart ℝ) (hargp : ArgPartOk argp) : ∃ v, randomTrain exRandomData = .ok v ∧
    ∃ X : (ℕ → Fin v.nItems → ℝ) → ℝ,
      (∀ w, ∃ res, randomRecommend argp v w [7, 9] 2 true false = .ok res ∧ hr res [4, 4] = .ok (X w)) ∧
      ∫ w, X w ∂rowSource v.nItems = 1 / 3 ∧ Var[X; rowSource v.nItems] = 1 / 18 := by
  obtain ⟨v, hv, hn⟩ : ∃ v, randomTrain exRandomData = .ok v ∧ v.nItems = 4 := ⟨_, rfl, rfl⟩
  have hls : listSize exRandomData 2 = 2 := by
    simp [listSize, exRandomData]
  have hus : ∀ u ∈ ([7, 9] : List ℤ), ∃ t ∈ exRandomData, t.user = u := by
    simp [exRandomData]
  have c7 : choosable exRandomData true 7 = {2, 3, 4} := by
    simp [choosable, exRandomData, List.filter]
    decide
  have c9 : choosable exRandomData true 9 = {1, 2, 3} := by
    simp [choosable, exRandomData, List.filter]
    decide
  have hen : ∀ u ∈ ([7, 9] : List ℤ), listSize exRandomData 2 ≤ (choosable exRandomData true u).card := by
    intro u hu
    rw [hls]
    rcases List.mem_cons.1 hu with rfl | hu
    · rw [c7]; decide
    · rw [List.mem_singleton.1 hu, c9]; decide
  have p7 : chance exRandomData true 2 7 4 = 2 / 3 := by
    unfold chance
    rw [hls, c7, if_pos (by decide)]
    norm_num
  have p9 : chance exRandomData true 2 9 4 = 0 := by
    unfold chance
    rw [hls, c9, if_neg (by decide)]
  haveI : IsProbabilityMeasure (rowSource v.nItems) := by unfold rowSource; infer_instance
  obtain ⟨X, hX, -, hE⟩ := C162_expected (rowSource v.nItems) exRandomData v hv true (fun _ => by omega) argp hargp
    (fun w => w) [7, 9] [4, 4] hus 2 (by norm_num) hen (by simp) rfl (fun i _ => rowSource_law _ i)
  obtain ⟨Y, hY, hV⟩ := C162_variance (rowSource v.nItems) exRandomData v hv true (fun _ => by omega) argp hargp
    (fun w => w) [7, 9] [4, 4] hus 2 (by norm_num) hen (by simp) rfl (fun i _ => rowSource_law _ i) (rowSource_indep _ _)
  have hXY : Y = X := by
    funext w
    obtain ⟨r, h1, h2⟩ := hX w
    obtain ⟨r', h1', h2'⟩ := hY w
    rw [h1] at h1'
    obtain rfl := Except.ok.inj h1'
    rw [h2] at h2'
    exact (Except.ok.inj h2').symm
  rw [hXY] at hV
  refine ⟨v, hv, X, hX, ?_, ?_⟩
  · rw [hE]
    simp [mean, p7, p9]
    norm_num
  · rw [hV]
    simp [mean, p7, p9]
    norm_num

end DynCF
