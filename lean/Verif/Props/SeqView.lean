/- What a recommender that has seen some rows shows to the experiment (used for C130). -/
import Verif.Props.SeqTrain
import Verif.Props.Completion

set_option linter.unusedSectionVars false

namespace DynCF
variable {K : Type} {σ F : Type}

/-- The number of items of the rows `reg` that `u` has no row with among `hist`. -/
def unseenIn (reg hist : List (Row K)) (u : ℤ) : ℕ :=
  ((reg.map Row.item).toFinset \ ((hist.filter fun t => decide (t.user = u)).map Row.item).toFinset).card

/-- `StepRuns` for a recommender that knows the ids of the rows `reg` and remembers the rows `hist` as seen: some row of
the chunk has both ids known; every user of such a row and every user of the stability test has at least `k` known items
without an interaction that is remembered. -/
def StepRunsOn (k : ℕ) (tests : List ℤ) (reg hist c : List (Row K)) : Prop :=
  (∃ r ∈ c, KnownFrom reg r) ∧ (∀ r ∈ c, KnownFrom reg r → k ≤ unseenIn reg hist r.user) ∧
    ∀ u ∈ tests, k ≤ unseenIn reg hist u

theorem stepRunsOn_self (k : ℕ) (tests : List ℤ) (seen c : List (Row K)) :
    StepRunsOn k tests seen seen c ↔ StepRuns k tests seen c := Iff.rfl

/-- The recommender knows exactly the ids of the rows `reg`, its history consists of the rows `seen`, and it has a
history for every user it knows. -/
structure Knows (v : RecView) (us is : List ℤ) (reg seen : List (Row K)) : Prop where
  view : ViewOk v us is
  hist : List.Forall₂ (fun (x : Row K) (p : ℤ × ℤ) => ∃ a b : ℕ, p = ((a : ℤ), (b : ℤ)) ∧
    us[a]? = some x.user ∧ is[b]? = some x.item) seen v.history
  users : ∀ x, x ∈ us ↔ ∃ t ∈ reg, t.user = x
  items : ∀ x, x ∈ is ↔ ∃ t ∈ reg, t.item = x
  full : ∀ x ∈ us, ∃ t ∈ seen, t.user = x

/-- The recommender knows exactly the ids of the rows `seen`, and its history consists of these rows. -/
abbrev Sees (v : RecView) (us is : List ℤ) (seen : List (Row K)) : Prop := Knows v us is seen seen

section
variable [Field K] [LinearOrder K]

theorem Knows.unseen {v : RecView} {us is : List ℤ} {reg hist : List (Row K)} (h : Knows v us is reg hist)
    {u : ℤ} (hu : u ∈ us) : unseenCount v us u = unseenIn reg hist u := by
  unfold unseenCount unseenIn
  rw [h.view.nItems]
  set U := ((hist.filter fun t => decide (t.user = u)).map Row.item).toFinset with hU
  have hdup := h.view.item.nodup
  have e1 : (reg.map Row.item).toFinset \ U = (is.filter fun x => decide (x ∉ U)).toFinset := by
    ext x
    simp only [Finset.mem_sdiff, List.mem_toFinset, List.mem_filter, decide_eq_true_eq, h.items, List.mem_map]
  rw [e1, List.toFinset_card_of_nodup (hdup.filter _), ← List.countP_eq_length_filter]
  have e2 : is = (List.range is.length).map fun j => is.getD j 0 := by
    apply List.ext_getElem
    · simp
    · intro n h1 h2
      simp [List.getElem?_eq_getElem h1]
  conv_rhs => rw [e2]
  rw [List.countP_map]
  refine List.countP_congr fun j hj => ?_
  rw [List.mem_range] at hj
  simp only [Function.comp_apply, decide_eq_true_eq, List.getD_eq_getElem?_getD, List.getElem?_eq_getElem hj,
    Option.getD_some]
  rw [not_iff_not, hU, List.mem_toFinset, List.mem_map]
  constructor
  · intro hh
    obtain ⟨x, hx, a, b, hab, ha, hb⟩ := forall₂_mem_right h.hist hh
    obtain ⟨e3, e4⟩ := Prod.mk.inj hab
    have e3 : us.idxOf u = a := by exact_mod_cast e3
    have e4 : j = b := by exact_mod_cast e4
    subst e3 e4
    refine ⟨x, List.mem_filter.2 ⟨hx, ?_⟩, ?_⟩
    · rw [List.getElem?_idxOf hu] at ha
      simpa using (Option.some.inj ha).symm
    · rw [List.getElem?_eq_getElem hj] at hb
      exact (Option.some.inj hb).symm
  · rintro ⟨x, hx, hxe⟩
    obtain ⟨hx, hxu⟩ := List.mem_filter.1 hx
    have hxu : x.user = u := by simpa using hxu
    obtain ⟨p, hp, a, b, rfl, ha, hb⟩ := forall₂_mem_left h.hist hx
    have e3 : a = us.idxOf u := by
      refine getElem?_inj_nodup h.view.user.nodup ha ?_
      rw [hxu, List.getElem?_idxOf hu]
    have e4 : b = j := getElem?_inj_nodup hdup hb (by rw [List.getElem?_eq_getElem hj, hxe])
    rw [← e3, ← e4]
    exact hp

theorem Knows.nItems {v : RecView} {us is : List ℤ} {reg hist : List (Row K)} (h : Knows v us is reg hist) :
    is.length = numItems reg := by
  unfold numItems
  rw [← List.toFinset_card_of_nodup h.view.item.nodup]
  congr 1
  ext x
  simp only [List.mem_toFinset, h.items, List.mem_map]

theorem Knows.nUsers {v : RecView} {us is : List ℤ} {reg hist : List (Row K)} (h : Knows v us is reg hist) :
    us.length = numUsers reg := by
  unfold numUsers
  rw [← List.toFinset_card_of_nodup h.view.user.nodup]
  congr 1
  ext x
  simp only [List.mem_toFinset, h.users, List.mem_map]

theorem Knows.unseen_lt {v : RecView} {us is : List ℤ} {reg hist : List (Row K)} (h : Knows v us is reg hist) {u : ℤ}
    (hu : u ∈ us) : unseenIn reg hist u < is.length := by
  rw [h.nItems]
  unfold unseenIn numItems
  obtain ⟨x, hx, hxu⟩ := h.full u hu
  obtain ⟨p, -, a, b, -, -, hb⟩ := forall₂_mem_left h.hist hx
  obtain ⟨t, ht, hte⟩ := (h.items _).1 (List.mem_of_getElem? hb)
  refine Finset.card_lt_card (Finset.ssubset_iff_subset_ne.2 ⟨Finset.sdiff_subset, fun he => ?_⟩)
  have hm : x.item ∈ (reg.map Row.item).toFinset := List.mem_toFinset.2 (hte ▸ List.mem_map_of_mem ht)
  rw [← he, Finset.mem_sdiff] at hm
  exact hm.2 (List.mem_toFinset.2 (List.mem_map_of_mem (List.mem_filter.2 ⟨hx, by simpa using hxu⟩)))

variable {b0 : Bool} {argp : ArgPart K} {v : RecView} {us is : List ℤ} {score : ℕ → ℤ → PyM (List K)}
  {g : ℕ → ℕ → List K} {k : ℕ} {reg hist : List (Row K)}

theorem Knows.recommend_iff (h : Knows v us is reg hist) (hset : RecSetting argp v us is score g k true)
    (internal : Bool) {users : List ℤ} (hus : ∀ u ∈ users, ∃ t ∈ reg, t.user = u) :
    (∃ res, recommend b0 argp v score users k true internal = .ok res) ↔ ∀ u ∈ users, k ≤ unseenIn reg hist u := by
  have : Inhabited K := ⟨0⟩
  have hC := C21_exact_failure hset b0 internal users
  have hin : ∀ u ∈ users, u ∈ us := fun u hu => (h.users u).2 (hus u hu)
  have hmin : ∀ u ∈ users, (min k is.length ≤ unseenCount v us u ↔ k ≤ unseenIn reg hist u) := by
    intro u hu
    rw [h.unseen (hin u hu)]
    have := h.unseen_lt (hin u hu)
    omega
  constructor
  · rintro ⟨res, hres⟩ u hu
    by_contra hn
    have := hC.2.1 hin ⟨rfl, u, hu, not_le.1 fun hh => hn ((hmin u hu).1 hh)⟩
    rw [this] at hres
    cases hres
  · intro hh
    exact hC.2.2 hin fun _ u hu => (hmin u hu).2 (hh u hu)

/-- The face `f` shows the recommender with view `v`. -/
structure FaceOf (f : Face K) (b0 : Bool) (argp : ArgPart K) (v : RecView) (score : ℕ → ℤ → PyM (List K)) : Prop where
  recommend : ∀ us k internal, f.recommend us k internal = recommend b0 argp v score us k true internal
  maps : f.maps = v.maps
  nItems : f.nItems = v.nItems

/-- The recommender can be looked at exactly if `StepRunsOn` holds. -/
theorem Knows.snapshot_iff [IsStrictOrderedRing K] {f : Face K} (h : Knows v us is reg hist)
    (hset : RecSetting argp v us is score g k true) (hf : FaceOf f b0 argp v score)
    {tests : List ℤ} (ht : ∀ u ∈ tests, ∃ t ∈ reg, t.user = u) (c : List (Row K)) :
    (∃ snap, Snapshot f tests k c snap) ↔ StepRunsOn k tests reg hist c := by
  obtain ⟨hsc, hlen⟩ := scored_intro (chunk := c) h.view.user h.view.item h.users h.items
  rw [← hf.maps] at hsc hlen
  have hmem : ∀ u, u ∈ (getUsersToRecommendTestItems c f.maps).1 ↔ ∃ r ∈ c, KnownFrom reg r ∧ r.user = u := by
    intro u
    have := hsc.users.mem u
    rw [List.map_fst_zip (by omega)] at this
    rw [this]
    simp only [List.mem_map, List.mem_filter, decide_eq_true_eq]
    constructor
    · rintro ⟨r, ⟨h1, h2⟩, h3⟩; exact ⟨r, h1, h2, h3⟩
    · rintro ⟨r, h1, h2, h3⟩; exact ⟨r, ⟨h1, h2⟩, h3⟩
  have hknown : ∀ u ∈ (getUsersToRecommendTestItems c f.maps).1, ∃ t ∈ reg, t.user = u := by
    intro u hu
    obtain ⟨r, -, h1, rfl⟩ := (hmem u).1 hu
    exact h1.1
  have hA := h.recommend_iff (b0 := b0) hset false hknown
  have hB := h.recommend_iff (b0 := b0) hset true ht
  constructor
  · rintro ⟨snap, res, g1, g2, -, g4, -⟩
    rw [hf.recommend] at g1 g4
    refine ⟨?_, ?_, hB.1 ⟨_, g4⟩⟩
    · by_contra hn
      have e1 : (getUsersToRecommendTestItems c f.maps).1 = [] := by
        rw [List.eq_nil_iff_forall_not_mem]
        intro u hu
        obtain ⟨r, h1, h2, -⟩ := (hmem u).1 hu
        exact hn ⟨r, h1, h2⟩
      have e2 : (getUsersToRecommendTestItems c f.maps).2 = [] := by
        rw [← List.length_eq_zero_iff, ← hlen, e1]
        rfl
      rw [e2, (C12_no_test_users res).1] at g2
      cases g2
    · intro r hr hkn
      exact hA.1 ⟨_, g1⟩ _ ((hmem _).2 ⟨r, hr, hkn, rfl⟩)
  · rintro ⟨⟨r0, hr0, hk0⟩, h2, h3⟩
    obtain ⟨res, hres⟩ := hA.2 fun u hu => by
      obtain ⟨r, k1, k2, rfl⟩ := (hmem u).1 hu
      exact h2 r k1 k2
    obtain ⟨res2, hres2⟩ := hB.2 h3
    have : Inhabited K := ⟨0⟩
    have hl := (C18_k_distinct_items hset b0 false _ res hres).1
    have hne : (getUsersToRecommendTestItems c f.maps).2 ≠ [] := by
      intro e
      rw [e, List.length_nil, List.length_eq_zero_iff] at hlen
      have := (hmem r0.user).2 ⟨r0, hr0, hk0, rfl⟩
      rw [hlen] at this
      cases this
    have hl' : res.length = (getUsersToRecommendTestItems c f.maps).2.length := by rw [hl, hlen]
    rw [← hf.recommend] at hres hres2
    exact ⟨⟨_, _, res2, f.u, f.v, f.nItems⟩, res, hres, (C12_hit_rate res _ hne hl').1, C13_mrr res _ hne hl',
      hres2, rfl, rfl, rfl⟩

theorem Knows.recs_array (h : Knows v us is reg hist) (hset : RecSetting argp v us is score g k true)
    {tests : List ℤ} (ht : ∀ u ∈ tests, ∃ t ∈ reg, t.user = u) {res : List (List ℤ)}
    (hres : recommend b0 argp v score tests k true true = .ok res) :
    res.length = tests.length ∧ ∀ N, is.length ≤ N → IsRecArray N k res := by
  have : Inhabited K := ⟨0⟩
  obtain ⟨h1, h2⟩ := C18_k_distinct_items hset b0 true tests res hres
  refine ⟨h1, fun N hN => ⟨hset.k, fun row hrow => ?_⟩⟩
  obtain ⟨h3, h4, h5⟩ := h2 row hrow
  have hle := (h.recommend_iff (b0 := b0) hset true ht).1 ⟨_, hres⟩
  have hkn : k ≤ is.length := by
    cases tests with
    | nil => rw [List.length_eq_zero_iff.1 h1] at hrow; cases hrow
    | cons u _ =>
      have e1 := hle u (by simp)
      have e2 := h.unseen_lt ((h.users u).2 (ht u (by simp)))
      omega
  refine ⟨by rw [h3]; omega, h4, fun x hx => ?_⟩
  obtain ⟨j, hj, hxj⟩ := h5 x hx
  rw [if_pos rfl] at hxj
  subst hxj
  omega

theorem Knows.snapshot_length {f : Face K} (h : Knows v us is reg hist)
    (hset : RecSetting argp v us is score g k true) (hf : FaceOf f b0 argp v score)
    {tests : List ℤ} (ht : ∀ u ∈ tests, ∃ t ∈ reg, t.user = u) {c : List (Row K)} {snap : Snap K}
    (hs : Snapshot f tests k c snap) : snap.recs.length = tests.length := by
  obtain ⟨-, -, -, -, h1, -⟩ := hs
  rw [hf.recommend] at h1
  exact (h.recs_array hset ht h1).1

/-- Two steps can be compared if the item ids did not become fewer and the embeddings have equal widths. -/
theorem Knows.comparable [IsStrictOrderedRing K] {b0' : Bool} {v' : RecView} {us' is' : List ℤ}
    {score' : ℕ → ℤ → PyM (List K)} {g' : ℕ → ℕ → List K} {reg' hist' : List (Row K)} {f f' : Face K}
    (h : Knows v us is reg hist) (hset : RecSetting argp v us is score g k true) (hf : FaceOf f b0 argp v score)
    (h' : Knows v' us' is' reg' hist') (hset' : RecSetting argp v' us' is' score' g' k true)
    (hf' : FaceOf f' b0' argp v' score') (hI : numItems reg ≤ numItems reg')
    (hucols : f.u.cols = f'.u.cols) (hvcols : f.v.cols = f'.v.cols) (hurows : f.u.rows ≤ f'.u.rows)
    (hvrows : f.v.rows ≤ f'.v.rows) {tests : List ℤ} (hne : tests ≠ [])
    (ht : ∀ u ∈ tests, ∃ t ∈ reg, t.user = u) (ht' : ∀ u ∈ tests, ∃ t ∈ reg', t.user = u)
    {c d : List (Row K)} {snap snap' : Snap K} (hs : Snapshot f tests k c snap) (hs' : Snapshot f' tests k d snap') :
    StepComparable f f' snap.recs snap'.recs := by
  obtain ⟨-, -, -, -, h1, -⟩ := hs
  obtain ⟨-, -, -, -, h1', -⟩ := hs'
  rw [hf.recommend] at h1
  rw [hf'.recommend] at h1'
  obtain ⟨e1, e2⟩ := h.recs_array hset ht h1
  obtain ⟨e3, e4⟩ := h'.recs_array hset' ht' h1'
  have hn : f'.nItems = is'.length := hf'.nItems.trans h'.view.nItems
  have hnil : snap.recs ≠ [] := by
    intro e
    rw [e, List.length_nil] at e1
    exact hne (List.length_eq_zero_iff.1 e1.symm)
  have hle : is.length ≤ is'.length := by
    rw [h.nItems, h'.nItems]
    exact hI
  refine ⟨⟨_, by rw [hn]; exact wjiSim_eq is'.length k _ _ hnil (by omega) (e2 _ hle) (e4 _ le_rfl)⟩, hucols,
    hvcols, hurows, hvrows⟩

end
end DynCF
