/-
C161: with normal draws the random recommender chooses uniformly.
-/
import Verif.Props.RandomRec
import Verif.Lemmas.TopSet
import Mathlib.Probability.Distributions.Gaussian.Real
import Mathlib.Probability.HasLaw
import Mathlib.Probability.Independence.Basic
import Mathlib.Probability.Independence.InfinitePi

namespace DynCF
open MeasureTheory ProbabilityTheory

variable {Ω : Type} [MeasurableSpace Ω]

/-! ### Specification -/

/-- The items of the training table that may be recommended to user `u`: all of them, or those that `u` does not have
in the table. -/
def choosable {K : Type} (data : List (Row K)) (filt : Bool) (u : ℤ) : Finset ℤ :=
  (data.map Row.item).toFinset \ ((data.filter fun t => filt && decide (t.user = u)).map Row.item).toFinset

/-- How many items are recommended if there are enough: `k`, at most the size of the catalogue. -/
def listSize {K : Type} (data : List (Row K)) (k : ℕ) : ℕ := min k (data.map Row.item).toFinset.card

/-- The items recommended to the `i`-th requested user are exactly those in `S`. -/
def Chosen {K : Type} [LinearOrder K] [Inhabited K] (argp : ArgPart K) (v : RecView) (draw : ℕ → Fin v.nItems → K)
    (users : List ℤ) (k : ℕ) (filt : Bool) (i : ℕ) (S : Finset ℤ) : Prop :=
  ∃ res row, randomRecommend argp v draw users k filt false = .ok res ∧ res[i]? = some row ∧ ∀ x, x ∈ row ↔ x ∈ S

/-! ### Lemmas -/

theorem mem_choosable {K : Type} (data : List (Row K)) (filt : Bool) (u x : ℤ) :
    x ∈ choosable data filt u ↔ (∃ t ∈ data, t.item = x) ∧ (filt = true → ∀ t ∈ data, t.user = u → t.item ≠ x) := by
  unfold choosable
  simp only [Finset.mem_sdiff, List.mem_toFinset, List.mem_map, List.mem_filter, Bool.and_eq_true, decide_eq_true_eq]
  refine and_congr_right fun _ => ?_
  constructor
  · intro h hf t ht hu hx
    exact h ⟨t, ⟨ht, hf, hu⟩, hx⟩
  · rintro h ⟨t, ⟨ht, hf, hu⟩, hx⟩
    exact h hf t ht hu hx

theorem firstAppearance_card {l ids : List ℤ} (h : FirstAppearance l ids) : l.toFinset.card = ids.length := by
  rw [← List.toFinset_card_of_nodup h.nodup]
  congr 1
  ext x
  rw [List.mem_toFinset, List.mem_toFinset, h.mem]

/-- the requested rows, for every draw -/
theorem random_rows (data : List (Row ℝ)) (v : RecView) (hv : randomTrain data = .ok v) (filt : Bool)
    (h2 : filt = true → 2 ≤ v.nItems) (argp : ArgPart ℝ) (hargp : ArgPartOk argp) (users : List ℤ)
    (hus : ∀ u ∈ users, ∃ t ∈ data, t.user = u) (k : ℕ) (hk : 1 ≤ k)
    (hen : ∀ u ∈ users, listSize data k ≤ (choosable data filt u).card) :
    ∃ (e : Fin v.nItems ↪ ℤ) (A : ℤ → Finset (Fin v.nItems)),
      (∀ u ∈ users, (A u).map e = choosable data filt u) ∧
      ∀ draw : ℕ → Fin v.nItems → ℝ, ∃ res, randomRecommend argp v draw users k filt false = .ok res ∧
        ∀ i u, users[i]? = some u → ∃ row, res[i]? = some row ∧ ∃ C ⊆ A u, C.card = listSize data k ∧
          (∀ x, x ∈ row ↔ x ∈ C.map e) ∧ (Function.Injective (draw i) → draw i ∈ topEvent (A u) C) := by
  have hne : data ≠ [] := by
    rintro rfl
    obtain ⟨df', m, us, is, he, -, -, -, -, hrel⟩ := C01_training_mapping ([] : List (Row ℝ))
    cases hrel
    unfold randomTrain at hv
    rw [he] at hv
    cases hv
  obtain ⟨v', us, is, hv', hfu, hfi, hview, hhist⟩ := C84_train data hne
  rw [hv] at hv'
  cases hv'
  have hlen : v.nItems = is.length := hview.nItems
  have hls : listSize data k = min k v.nItems := by
    unfold listSize
    rw [firstAppearance_card hfi, hlen]
  have hipos : 1 ≤ is.length := by
    obtain ⟨t, ht⟩ := List.exists_mem_of_ne_nil data hne
    exact List.length_pos_of_mem ((hfi.mem t.item).2 (List.mem_map_of_mem ht))
  obtain ⟨e, he⟩ : ∃ e : Fin v.nItems ↪ ℤ, ∀ j : Fin v.nItems, is[j.val]? = some (e j) :=
    ⟨⟨fun j => is[j.val]'(by omega), fun a b hab => Fin.ext ((List.Nodup.getElem_inj_iff hfi.nodup).1 hab)⟩,
      fun j => List.getElem?_eq_getElem _⟩
  have hmemu : ∀ u ∈ users, u ∈ us := fun u hu => (hfu.mem u).2 (by
    obtain ⟨t, ht, h⟩ := hus u hu
    exact List.mem_map.2 ⟨t, ht, h⟩)
  have hidx : ∀ u ∈ users, us[us.idxOf u]? = some u := fun u hu => by
    rw [List.getElem?_eq_getElem (List.idxOf_lt_length_of_mem (hmemu u hu)), List.getElem_idxOf]
  obtain ⟨A, hA⟩ : ∃ A : ℤ → Finset (Fin v.nItems), ∀ u (j : Fin v.nItems),
      j ∈ A u ↔ j.val ∈ allowedIdx v filt ((us.idxOf u : ℕ) : ℤ) :=
    ⟨fun u => Finset.univ.filter fun j => j.val ∈ allowedIdx v filt ((us.idxOf u : ℕ) : ℤ), fun u j => by simp⟩
  have hAm : ∀ u ∈ users, (A u).map e = choosable data filt u := by
    intro u hu
    have hh : ∀ j : Fin v.nItems, (((us.idxOf u : ℕ) : ℤ), ((j.val : ℕ) : ℤ)) ∈ v.history ↔
        ∃ t ∈ data, t.user = u ∧ t.item = e j := by
      intro j
      constructor
      · intro hm
        obtain ⟨t, ht, a, b, hab, ha, hb⟩ := forall₂_mem_right hhist hm
        obtain ⟨h3, h4⟩ := Prod.mk.inj hab
        have h3 : us.idxOf u = a := by exact_mod_cast h3
        have h4 : j.val = b := by exact_mod_cast h4
        rw [← h3, hidx u hu] at ha
        rw [← h4, he] at hb
        exact ⟨t, ht, (Option.some.inj ha).symm, (Option.some.inj hb).symm⟩
      · rintro ⟨t, ht, h3, h4⟩
        obtain ⟨p, hp, a, b, rfl, ha, hb⟩ := forall₂_mem_left hhist ht
        have ha' : a = us.idxOf u := by
          rw [h3, ← hidx u hu] at ha
          exact ((List.getElem?_inj (List.idxOf_lt_length_of_mem (hmemu u hu)) hfu.nodup).1 ha.symm).symm
        have hb' : b = j.val := by
          rw [h4, ← he j] at hb
          exact ((List.getElem?_inj (by omega : j.val < is.length) hfi.nodup).1 hb.symm).symm
        rw [ha', hb'] at hp
        exact hp
    ext x
    rw [Finset.mem_map, mem_choosable]
    constructor
    · rintro ⟨j, hj, rfl⟩
      rw [hA, mem_allowedIdx] at hj
      refine ⟨?_, fun hf t ht htu htx => hj.2 hf ((hh j).2 ⟨t, ht, htu, htx⟩)⟩
      obtain ⟨t, ht, h⟩ := List.mem_map.1 ((hfi.mem (e j)).1 (List.mem_of_getElem? (he j)))
      exact ⟨t, ht, h⟩
    · rintro ⟨⟨t, ht, rfl⟩, h⟩
      obtain ⟨j, hj, hje⟩ := List.getElem_of_mem ((hfi.mem t.item).2 (List.mem_map_of_mem ht))
      have hej : e ⟨j, by omega⟩ = t.item := by
        have := he ⟨j, by omega⟩
        rw [List.getElem?_eq_getElem hj, hje] at this
        exact (Option.some.inj this).symm
      refine ⟨⟨j, by omega⟩, ?_, hej⟩
      rw [hA, mem_allowedIdx]
      refine ⟨by dsimp only; omega, fun hf hm => ?_⟩
      obtain ⟨t', ht', h3, h4⟩ := (hh ⟨j, by omega⟩).1 hm
      exact h hf t' ht' h3 (h4.trans hej)
  have hAc : ∀ u ∈ users, (choosable data filt u).card = (allowedIdx v filt ((us.idxOf u : ℕ) : ℤ)).length := by
    intro u hu
    have hnd : (allowedIdx v filt ((us.idxOf u : ℕ) : ℤ)).Nodup := List.Nodup.filter _ List.nodup_range
    rw [← hAm u hu, Finset.card_map, ← List.toFinset_card_of_nodup hnd,
      ← Finset.card_map (Fin.valEmbedding (n := v.nItems))]
    congr 1
    ext j
    rw [Finset.mem_map, List.mem_toFinset]
    constructor
    · rintro ⟨j, hj, rfl⟩
      exact (hA u j).1 hj
    · intro hj
      exact ⟨⟨j, ((mem_allowedIdx v filt _ j).1 hj).1⟩, (hA u _).2 hj, rfl⟩
  refine ⟨e, A, hAm, fun draw => ?_⟩
  have hset : RecSetting argp v us is (fun i _ => .ok (List.ofFn (draw i))) (fun i _ => List.ofFn (draw i)) k filt :=
    ⟨hargp, hview, fun i a _ => ⟨rfl, by simp⟩, hk, hipos, fun hf => by have := h2 hf; omega⟩
  obtain ⟨res, hres⟩ := (C21_exact_failure hset true false users).2.2 hmemu (by
    intro hf u hu
    have h3 := hen u hu
    rw [hAc u hu, hls, hlen, hf, (allowed_length hview (hidx u hu)).1] at h3
    exact h3)
  refine ⟨res, hres, fun i u hu => ?_⟩
  obtain ⟨hl, hr⟩ := hset.result true false users res hres
  have hi : i < res.length := by rw [hl]; exact (List.getElem?_eq_some_iff.1 hu).1
  obtain ⟨a, c, ha, -, hcs, hrow⟩ := hr i u res[i] hu (List.getElem?_eq_getElem hi)
  have hmu := List.mem_of_getElem? hu
  have ha' : a = us.idxOf u := by
    rw [← hidx u hmu] at ha
    exact ((List.getElem?_inj (List.idxOf_lt_length_of_mem (hmemu u hmu)) hfu.nodup).1 ha.symm).symm
  subst ha'
  have hcl : ∀ j ∈ c, j < v.nItems := fun j hj => ((mem_allowedIdx v filt _ j).1 (hcs.allowed j hj)).1
  obtain ⟨C, hC⟩ : ∃ C : Finset (Fin v.nItems), ∀ j : Fin v.nItems, j ∈ C ↔ j.val ∈ c :=
    ⟨Finset.univ.filter fun j => j.val ∈ c, fun j => by simp⟩
  refine ⟨res[i], List.getElem?_eq_getElem hi, C, fun j hj => (hA u j).2 (hcs.allowed _ ((hC j).1 hj)), ?_, ?_, ?_⟩
  · rw [hls, ← hcs.length, ← List.toFinset_card_of_nodup hcs.nodup, ← Finset.card_map (Fin.valEmbedding (n := v.nItems))]
    congr 1
    ext j
    rw [Finset.mem_map, List.mem_toFinset]
    constructor
    · rintro ⟨j, hj, rfl⟩
      exact (hC j).1 hj
    · intro hj
      exact ⟨⟨j, hcl j hj⟩, (hC _).2 hj, rfl⟩
  · intro x
    rw [hrow, shown_iff (fun j hj => by rw [← hlen]; exact hcl j hj), Finset.mem_map]
    constructor
    · rintro ⟨j, hj, -, hs⟩
      rw [if_neg (by decide)] at hs
      have := he ⟨j, hcl j hj⟩
      rw [hs] at this
      exact ⟨⟨j, hcl j hj⟩, (hC _).2 hj, (Option.some.inj this).symm⟩
    · rintro ⟨j, hj, rfl⟩
      exact ⟨j, (hC j).1 hj, by omega, by rw [if_neg (by decide)]; exact he j⟩
  · intro hinj j hj b hb hbC
    have h3 := hcs.optimal j ((hC j).1 hj) b ((hA u b).1 hb) (fun h => hbC ((hC b).2 h)) (draw i b) (draw i j)
      (by simp) (by simp)
    refine lt_of_le_of_ne h3 fun h => hbC ?_
    rw [hinj h]
    exact hj

/-- The draws of the rows are standard normal. -/
theorem normal_injective {P : Measure Ω} {n : ℕ} {x : Ω → Fin n → ℝ}
    (h : HasLaw x (Measure.pi fun _ : Fin n => gaussianReal 0 1) P) : ∀ᵐ w ∂P, Function.Injective (x w) := by
  haveI : NullSingletonClass (gaussianReal 0 1) := nullSingletonClass_gaussianReal one_ne_zero
  have h1 := draws_injective (ι := Fin n) (gaussianReal 0 1)
  rw [← h.map_eq] at h1
  exact ae_of_ae_map h.aemeasurable h1

/-- almost surely, the recommended set is `S` exactly when the scores of `S` are the largest ones -/
theorem chosen_iff (data : List (Row ℝ)) (v : RecView) (hv : randomTrain data = .ok v) (filt : Bool)
    (h2 : filt = true → 2 ≤ v.nItems) (argp : ArgPart ℝ) (hargp : ArgPartOk argp) (users : List ℤ)
    (hus : ∀ u ∈ users, ∃ t ∈ data, t.user = u) (k : ℕ) (hk : 1 ≤ k)
    (hen : ∀ u ∈ users, listSize data k ≤ (choosable data filt u).card) :
    ∃ (A : ℤ → Finset (Fin v.nItems)) (f : Finset ℤ → Finset (Fin v.nItems)),
      (∀ u ∈ users, (A u).card = (choosable data filt u).card) ∧
      (∀ u ∈ users, ∀ S ⊆ choosable data filt u, f S ⊆ A u ∧ (f S).card = S.card) ∧
      ∀ draw : ℕ → Fin v.nItems → ℝ, ∀ i u, users[i]? = some u → Function.Injective (draw i) →
        ∀ S ⊆ choosable data filt u, S.card = listSize data k →
          (Chosen argp v draw users k filt i S ↔ draw i ∈ topEvent (A u) (f S)) := by
  obtain ⟨e, A, hA, hrow⟩ := random_rows data v hv filt h2 argp hargp users hus k hk hen
  have hf : ∀ u ∈ users, ∀ S ⊆ choosable data filt u, (Finset.univ.filter fun j => e j ∈ S).map e = S ∧
      (Finset.univ.filter fun j => e j ∈ S) ⊆ A u := by
    intro u hu S hS
    constructor
    · ext x
      rw [Finset.mem_map]
      constructor
      · rintro ⟨j, hj, rfl⟩
        exact (Finset.mem_filter.1 hj).2
      · intro hx
        have hx' := hS hx
        rw [← hA u hu, Finset.mem_map] at hx'
        obtain ⟨j, -, rfl⟩ := hx'
        exact ⟨j, Finset.mem_filter.2 ⟨Finset.mem_univ j, hx⟩, rfl⟩
    · intro j hj
      have hx := hS (Finset.mem_filter.1 hj).2
      rw [← hA u hu] at hx
      exact (Finset.mem_map' e).1 hx
  refine ⟨A, fun S => Finset.univ.filter fun j => e j ∈ S, fun u hu => by rw [← hA u hu, Finset.card_map],
    fun u hu S hS => ⟨(hf u hu S hS).2, by conv_rhs => rw [← (hf u hu S hS).1, Finset.card_map]⟩, ?_⟩
  intro draw i u hu hinj S hS hc
  have hmu := List.mem_of_getElem? hu
  obtain ⟨h3, h4⟩ := hf u hmu S hS
  obtain ⟨res, hres, hr⟩ := hrow draw
  obtain ⟨row, hrowi, C, hCA, hCc, hCe, hCt⟩ := hr i u hu
  have hfc : (Finset.univ.filter fun j => e j ∈ S).card = S.card := by
    conv_rhs => rw [← h3, Finset.card_map]
  constructor
  · rintro ⟨res', row', hres', hrow', hS'⟩
    rw [hres] at hres'
    cases hres'
    rw [hrowi] at hrow'
    cases hrow'
    have : C = Finset.univ.filter fun j => e j ∈ S := by
      apply Finset.map_injective e
      rw [h3]
      ext x
      rw [← hCe, hS']
    dsimp only
    rw [← this]
    exact hCt hinj
  · intro hx
    have := topEvent_unique hCA h4 (by rw [hCc, hfc, hc]) (hCt hinj) hx
    refine ⟨res, row, hres, hrowi, fun x => ?_⟩
    rw [hCe, this, h3]

/-! ### Theorems -/

section
variable (P : Measure Ω) (data : List (Row ℝ)) (v : RecView) (hv : randomTrain data = .ok v) (filt : Bool)
  (h2 : filt = true → 2 ≤ v.nItems) (argp : ArgPart ℝ) (hargp : ArgPartOk argp) (draw : Ω → ℕ → Fin v.nItems → ℝ)
  (users : List ℤ) (hus : ∀ u ∈ users, ∃ t ∈ data, t.user = u) (k : ℕ) (hk : 1 ≤ k)
  (hen : ∀ u ∈ users, listSize data k ≤ (choosable data filt u).card)

include hv h2 hargp hus hk hen

/-- **C161, sets.** If the array drawn for the `i`-th requested user consists of independent standard normal numbers,
every set of as many items as are recommended, taken from those that may be recommended to this user, is the recommended
set with the same probability. -/
theorem C161_uniform (i : ℕ) (u : ℤ) (hu : users[i]? = some u)
    (hlaw : HasLaw (fun w => draw w i) (Measure.pi fun _ : Fin v.nItems => gaussianReal 0 1) P)
    (S : Finset ℤ) (hS : S ⊆ choosable data filt u) (hc : S.card = listSize data k) :
    P {w | Chosen argp v (draw w) users k filt i S} =
      (((choosable data filt u).card.choose (listSize data k) : ℕ) : ENNReal)⁻¹ := by
  haveI : NullSingletonClass (gaussianReal 0 1) := nullSingletonClass_gaussianReal one_ne_zero
  obtain ⟨A, f, hA, hf, hiff⟩ := chosen_iff data v hv filt h2 argp hargp users hus k hk hen
  have hmu := List.mem_of_getElem? hu
  have h1 : P {w | Chosen argp v (draw w) users k filt i S} = P ((fun w => draw w i) ⁻¹' topEvent (A u) (f S)) := by
    refine measure_congr (Filter.eventuallyEq_set.2 ?_)
    filter_upwards [normal_injective hlaw] with w hw
    exact hiff (draw w) i u hu hw S hS hc
  rw [h1, ← Measure.map_apply_of_aemeasurable hlaw.aemeasurable (topEvent_measurable _ _), hlaw.map_eq,
    topEvent_prob _ _ _ (hf u hmu S hS).1, hA u hmu, (hf u hmu S hS).2, hc]

/-- **C161, items.** Each item that may be recommended to the user is recommended with the same probability, the number
of recommended items divided by the number of items to choose from; every other id with probability zero. -/
theorem C161_item (i : ℕ) (u : ℤ) (hu : users[i]? = some u)
    (hlaw : HasLaw (fun w => draw w i) (Measure.pi fun _ : Fin v.nItems => gaussianReal 0 1) P) (x : ℤ) :
    P {w | ∃ res row, randomRecommend argp v (draw w) users k filt false = .ok res ∧ res[i]? = some row ∧ x ∈ row} =
      if x ∈ choosable data filt u then (listSize data k : ENNReal) / ((choosable data filt u).card : ENNReal) else 0 := by
  haveI : NullSingletonClass (gaussianReal 0 1) := nullSingletonClass_gaussianReal one_ne_zero
  obtain ⟨e, A, hA, hrow⟩ := random_rows data v hv filt h2 argp hargp users hus k hk hen
  have hmu := List.mem_of_getElem? hu
  have hAu := hA u hmu
  by_cases hx : x ∈ choosable data filt u
  · rw [if_pos hx]
    have hx' := hx
    rw [← hAu, Finset.mem_map] at hx'
    obtain ⟨j, hj, rfl⟩ := hx'
    have h1 : P {w | ∃ res row, randomRecommend argp v (draw w) users k filt false = .ok res ∧ res[i]? = some row ∧
        e j ∈ row} = P ((fun w => draw w i) ⁻¹'
          ⋃ S ∈ ((A u).powersetCard (listSize data k)).filter (fun S => j ∈ S), topEvent (A u) S) := by
      refine measure_congr (Filter.eventuallyEq_set.2 ?_)
      filter_upwards [normal_injective hlaw] with w hw
      obtain ⟨res, hres, hr⟩ := hrow (draw w)
      obtain ⟨row, hrowi, C, hCA, hCc, hCe, hCt⟩ := hr i u hu
      rw [Set.mem_preimage, Set.mem_iUnion₂]
      constructor
      · rintro ⟨res', row', hres', hrow', hm⟩
        rw [hres] at hres'
        cases hres'
        rw [hrowi] at hrow'
        cases hrow'
        rw [hCe, Finset.mem_map'] at hm
        exact ⟨C, Finset.mem_filter.2 ⟨Finset.mem_powersetCard.2 ⟨hCA, hCc⟩, hm⟩, hCt hw⟩
      · rintro ⟨S, hS, hm⟩
        obtain ⟨hS, hjS⟩ := Finset.mem_filter.1 hS
        obtain ⟨hS1, hS2⟩ := Finset.mem_powersetCard.1 hS
        have := topEvent_unique hCA hS1 (hCc.trans hS2.symm) (hCt hw) hm
        refine ⟨res, row, hres, hrowi, ?_⟩
        rw [hCe, Finset.mem_map', this]
        exact hjS
    have hm : MeasurableSet
        (⋃ S ∈ ((A u).powersetCard (listSize data k)).filter (fun S => j ∈ S), topEvent (A u) S) :=
      Finset.measurableSet_biUnion _ fun S _ => topEvent_measurable _ _
    have hcard : (A u).card = (choosable data filt u).card := by rw [← hAu, Finset.card_map]
    rw [h1, ← Measure.map_apply_of_aemeasurable hlaw.aemeasurable hm, hlaw.map_eq,
      containing_prob _ _ _ hj _ (by rw [hcard]; exact hen u hmu), hcard]
  · rw [if_neg hx]
    have : {w | ∃ res row, randomRecommend argp v (draw w) users k filt false = .ok res ∧ res[i]? = some row ∧
        x ∈ row} = ∅ := by
      ext w
      simp only [Set.mem_setOf_eq, Set.mem_empty_iff_false, iff_false]
      rintro ⟨res', row', hres', hrow', hm⟩
      obtain ⟨res, hres, hr⟩ := hrow (draw w)
      obtain ⟨row, hrowi, C, hCA, hCc, hCe, hCt⟩ := hr i u hu
      rw [hres] at hres'
      cases hres'
      rw [hrowi] at hrow'
      cases hrow'
      rw [hCe] at hm
      exact hx (hAu ▸ Finset.map_subset_map.2 hCA hm)
    rw [this, measure_empty]

/-- **C161, several users.** If the arrays drawn for the requested users are independent, the recommended sets are
independent too: the probability of any choice of one set for each user is the product. -/
theorem C161_joint (hlaw : ∀ i < users.length,
      HasLaw (fun w => draw w i) (Measure.pi fun _ : Fin v.nItems => gaussianReal 0 1) P)
    (hind : iIndepFun (fun (i : Fin users.length) w => draw w i) P)
    (S : Fin users.length → Finset ℤ) (hS : ∀ i, S i ⊆ choosable data filt users[i])
    (hc : ∀ i, (S i).card = listSize data k) :
    P {w | ∀ i : Fin users.length, Chosen argp v (draw w) users k filt i (S i)} =
      ∏ i : Fin users.length, (((choosable data filt users[i]).card.choose (listSize data k) : ℕ) : ENNReal)⁻¹ := by
  obtain ⟨A, f, hA, hf, hiff⟩ := chosen_iff data v hv filt h2 argp hargp users hus k hk hen
  have hu : ∀ i : Fin users.length, users[i.val]? = some users[i] := fun i => List.getElem?_eq_getElem i.2
  have h1 : ∀ i : Fin users.length, ∀ᵐ w ∂P, (Chosen argp v (draw w) users k filt i (S i) ↔
      draw w i ∈ topEvent (A users[i]) (f (S i))) := by
    intro i
    filter_upwards [normal_injective (hlaw i i.2)] with w hw
    exact hiff (draw w) i users[i] (hu i) hw (S i) (hS i) (hc i)
  have h3 : P {w | ∀ i : Fin users.length, Chosen argp v (draw w) users k filt i (S i)} =
      P (⋂ i ∈ (Finset.univ : Finset (Fin users.length)), (fun w => draw w i) ⁻¹' topEvent (A users[i]) (f (S i))) := by
    refine measure_congr (Filter.eventuallyEq_set.2 ?_)
    filter_upwards [ae_all_iff.2 h1] with w hw
    simp only [Set.mem_setOf_eq, Set.mem_iInter, Finset.mem_univ, forall_true_left, Set.mem_preimage]
    exact forall_congr' hw
  rw [h3, hind.measure_inter_preimage_eq_mul Finset.univ fun i _ => topEvent_measurable _ _]
  refine Finset.prod_congr rfl fun i _ => ?_
  rw [← C161_uniform P data v hv filt h2 argp hargp draw users hus k hk hen i users[i] (hu i) (hlaw i i.2) (S i) (hS i)
    (hc i)]
  refine measure_congr (Filter.eventuallyEq_set.2 ?_)
  filter_upwards [h1 i] with w hw
  exact hw.symm

end

/-! ### Examples -/

/-- independent arrays of `n` independent standard normal numbers, one for each requested user -/
noncomputable def rowSource (n : ℕ) : Measure (ℕ → Fin n → ℝ) :=
  Measure.infinitePi fun _ : ℕ => Measure.pi fun _ : Fin n => gaussianReal 0 1

theorem rowSource_law (n i : ℕ) :
    HasLaw (fun w : ℕ → Fin n → ℝ => w i) (Measure.pi fun _ : Fin n => gaussianReal 0 1) (rowSource n) :=
  ⟨(measurable_pi_apply i).aemeasurable,
    (measurePreserving_eval_infinitePi (fun _ : ℕ => Measure.pi fun _ : Fin n => gaussianReal 0 1) i).map_eq⟩

theorem rowSource_indep (n m : ℕ) : iIndepFun (fun (i : Fin m) (w : ℕ → Fin n → ℝ) => w i) (rowSource n) :=
  (iIndepFun_infinitePi (P := fun _ : ℕ => Measure.pi fun _ : Fin n => gaussianReal 0 1) (X := fun _ x => x)
    fun _ => measurable_id).precomp (g := fun i : Fin m => (i : ℕ)) Fin.val_injective

/-- user 7 has item 1, user 8 the items 2, 3, user 9 item 4 -/
def exRandomData : List (Row ℝ) := [⟨7, 1, 1, 0, 0⟩, ⟨8, 2, 1, 0, 0⟩, ⟨8, 3, 1, 0, 0⟩, ⟨9, 4, 1, 0, 0⟩]

/-- Two of the items 2, 3, 4 for user 7: the pair 2, 4 is chosen with probability 1/3, item 4 with probability 2/3 and
item 1 never. The pairs 2, 4 for user 7 and 1, 2 for user 9 together have probability 1/9. -/
example (argp : ArgPart ℝ) (hargp : ArgPartOk argp) : ∃ v, randomTrain exRandomData = .ok v ∧
    rowSource v.nItems {w | Chosen argp v w [7, 9] 2 true 0 {2, 4}} = 3⁻¹ ∧
    rowSource v.nItems {w | ∃ res row, randomRecommend argp v w [7, 9] 2 true false = .ok res ∧ res[0]? = some row ∧
      4 ∈ row} = 2 / 3 ∧
    rowSource v.nItems {w | ∃ res row, randomRecommend argp v w [7, 9] 2 true false = .ok res ∧ res[0]? = some row ∧
      1 ∈ row} = 0 ∧
    rowSource v.nItems {w | ∀ i : Fin 2, Chosen argp v w [7, 9] 2 true i (if i = 0 then {2, 4} else {1, 2})} =
      3⁻¹ * 3⁻¹ := by
  obtain ⟨v, hv, hn⟩ : ∃ v, randomTrain exRandomData = .ok v ∧ v.nItems = 4 := ⟨_, rfl, rfl⟩
  have hls : listSize exRandomData 2 = 2 := by
    simp [listSize, exRandomData]
  have hus : ∀ u ∈ ([7, 9] : List ℤ), ∃ t ∈ exRandomData, t.user = u := by
    simp [exRandomData]
  have c7 : choosable exRandomData true 7 = {2, 3, 4} := by
    simp [choosable, exRandomData, List.filter]
    decide
  have c9 : choosable exRandomData true 9 = {1, 2, 3} := by
    simp [choosable, exRandomData, List.filter]
    decide
  have hen : ∀ u ∈ ([7, 9] : List ℤ), listSize exRandomData 2 ≤ (choosable exRandomData true u).card := by
    intro u hu
    rw [hls]
    rcases List.mem_cons.1 hu with rfl | hu
    · rw [c7]; decide
    · rw [List.mem_singleton.1 hu, c9]; decide
  have h7 : (choosable exRandomData true 7).card = 3 := by rw [c7]; rfl
  have h9 : (choosable exRandomData true 9).card = 3 := by rw [c9]; rfl
  refine ⟨v, hv, ?_, ?_, ?_, ?_⟩
  · rw [C161_uniform (rowSource v.nItems) exRandomData v hv true (fun _ => by omega) argp hargp (fun w => w) [7, 9] hus 2
      (by norm_num) hen 0 7 rfl (rowSource_law _ 0) {2, 4} (by rw [c7]; decide) (by rw [hls]; rfl), h7, hls]
    norm_num [Nat.choose]
  · rw [C161_item (rowSource v.nItems) exRandomData v hv true (fun _ => by omega) argp hargp (fun w => w) [7, 9] hus 2
      (by norm_num) hen 0 7 rfl (rowSource_law _ 0) 4, h7, hls, if_pos (by rw [c7]; decide)]
    norm_num
  · rw [C161_item (rowSource v.nItems) exRandomData v hv true (fun _ => by omega) argp hargp (fun w => w) [7, 9] hus 2
      (by norm_num) hen 0 7 rfl (rowSource_law _ 0) 1, if_neg (by rw [c7]; decide)]
  · have := C161_joint (rowSource v.nItems) exRandomData v hv true (fun _ => by omega) argp hargp (fun w => w) [7, 9] hus 2
      (by norm_num) hen (fun i _ => rowSource_law _ i) (rowSource_indep _ _)
      (fun i : Fin 2 => if i = 0 then {2, 4} else {1, 2})
      (by
        intro i
        fin_cases i
        · exact (show ({2, 4} : Finset ℤ) ⊆ {2, 3, 4} by decide).trans c7.symm.subset
        · exact (show ({1, 2} : Finset ℤ) ⊆ {1, 2, 3} by decide).trans c9.symm.subset)
      (by
        intro i
        rw [hls]
        fin_cases i <;> rfl)
    refine this.trans ?_
    rw [hls]
    refine (Fin.prod_univ_two _).trans ?_
    show (((choosable exRandomData true 7).card.choose 2 : ℕ) : ENNReal)⁻¹ *
      (((choosable exRandomData true 9).card.choose 2 : ℕ) : ENNReal)⁻¹ = _
    rw [h7, h9]
    norm_num [Nat.choose]

end DynCF
