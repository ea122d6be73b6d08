/- Property C128: exactly when the search for the rank of the SVD models completes. -/
import Verif.Props.Completion
import Verif.Props.Search

set_option linter.unusedSectionVars false

namespace DynCF
variable {K : Type} [Field K] [LinearOrder K] [IsStrictOrderedRing K]

/-- One trial of the search. -/
theorem svdSearchScore_iff (env : RunEnv K) (hargp : ArgPartOk env.argp) (fs : FixedSvd) (train valid : List (Row K))
    (k : ℕ) (hk : 1 ≤ k) (r : ℕ) :
    (∃ x, svdSearchScore env fs train valid k [r] = .ok x) ↔
      (1 ≤ r ∧ r < (train.map Row.user).toFinset.card ∧ r < (train.map Row.item).toFinset.card) ∧
      (∃ t ∈ valid, KnownFrom train t) ∧ ∀ t ∈ valid, KnownFrom train t → k ≤ unseenOf train t.user := by
  rw [← svdTrain_iff env.psi ⟨r, fs.nPower, fs.os, none, false⟩ train]
  by_cases hst : ∃ st, svdTrain env.psi ⟨r, fs.nPower, fs.os, none, false⟩ train = .ok st
  · obtain ⟨st, hst⟩ := hst
    obtain ⟨us, is, h⟩ := svdTrain_inv hst
    have hrun : svdSearchScore env fs train valid k [r] =
        (psiRecommend env.argp st (getUsersToRecommendTestItems valid st.maps).1 k true false >>= fun recs =>
          hr recs (getUsersToRecommendTestItems valid st.maps).2) := by
      unfold svdSearchScore
      simp only [hst, except_bind_ok]
    obtain ⟨hsc, hlen⟩ := scored_intro (chunk := valid) h.shape.user h.shape.item h.users h.items
    have hmem : ∀ u, u ∈ (getUsersToRecommendTestItems valid st.maps).1 ↔ ∃ r ∈ valid, KnownFrom train r ∧ r.user = u := by
      intro u
      have := hsc.users.mem u
      rw [List.map_fst_zip (by omega)] at this
      rw [this]
      simp only [List.mem_map, List.mem_filter, decide_eq_true_eq]
      constructor
      · rintro ⟨r, ⟨h1, h2⟩, h3⟩; exact ⟨r, h1, h2, h3⟩
      · rintro ⟨r, h1, h2, h3⟩; exact ⟨r, ⟨h1, h2⟩, h3⟩
    have hknown : ∀ u ∈ (getUsersToRecommendTestItems valid st.maps).1, ∃ t ∈ train, t.user = u := by
      intro u hu
      obtain ⟨r, -, h1, rfl⟩ := (hmem u).1 hu
      exact h1.1
    have hA := psiRecommend_runs h hargp hk false hknown
    rw [hrun]
    constructor
    · rintro ⟨x, hx⟩
      obtain ⟨res, g1, g2⟩ := (bind_ok_iff _ _ _).1 hx
      refine ⟨⟨st, hst⟩, ?_, fun t ht hkn => hA.1 ⟨_, g1⟩ _ ((hmem _).2 ⟨t, ht, hkn, rfl⟩)⟩
      by_contra hn
      have e1 : (getUsersToRecommendTestItems valid st.maps).1 = [] := by
        rw [List.eq_nil_iff_forall_not_mem]
        intro u hu
        obtain ⟨r, h1, h2, -⟩ := (hmem u).1 hu
        exact hn ⟨r, h1, h2⟩
      have e2 : (getUsersToRecommendTestItems valid st.maps).2 = [] := by
        rw [← List.length_eq_zero_iff, ← hlen, e1]
        rfl
      rw [e2, (C12_no_test_users res).1] at g2
      cases g2
    · rintro ⟨-, ⟨r0, hr0, hk0⟩, h2⟩
      obtain ⟨res, hres⟩ := hA.2 fun u hu => by
        obtain ⟨r, k1, k2, rfl⟩ := (hmem u).1 hu
        exact h2 r k1 k2
      obtain ⟨f, hset⟩ := psiSetting h hargp hk
      have : Inhabited K := ⟨0⟩
      have hl := (C18_k_distinct_items hset true false _ res hres).1
      have hne : (getUsersToRecommendTestItems valid st.maps).2 ≠ [] := by
        intro e
        rw [e, List.length_nil, List.length_eq_zero_iff] at hlen
        have := (hmem r0.user).2 ⟨r0, hr0, hk0, rfl⟩
        rw [hlen] at this
        cases this
      have hl' : res.length = (getUsersToRecommendTestItems valid st.maps).2.length := by rw [hl, hlen]
      rw [hres, except_bind_ok]
      exact ⟨_, (C12_hit_rate res _ hne hl').1⟩
  · constructor
    · rintro ⟨x, hx⟩
      unfold svdSearchScore at hx
      obtain ⟨s, hs, -⟩ := (bind_ok_iff _ _ _).1 hx
      exact absurd ⟨s, hs⟩ hst
    · rintro ⟨h, -⟩
      exact absurd h hst

/-- **C128.** The search of the rank completes exactly if the initial rows can be split, every listed rank is at
least one and below the numbers of users and of items of the earlier rows, and (if any rank is listed) some later row
has both ids known and every user of such a row has at least `topk` known items left without an interaction. It does
not depend on what the decompositions return. -/
theorem C128_search [FloorRing K] (env : RunEnv K) (hargp : ArgPartOk env.argp) (se : SearchEnv K) (hse : se.Ok)
    (cfg : RunCfg K) (hk : 1 ≤ cfg.topk) (sc : SearchCfg K) (fs : FixedSvd) (data : List (IRow K)) :
    (∃ rows, hyperparametersSearchSvd env se cfg sc fs data = .ok rows) ↔
    ∃ initial stream left train valid,
      prepareDataForExperiment env.sortDay data cfg.initRatio none = .ok (initial, stream, left) ∧
      trainTestSplit se.stamp initial sc.quantile = .ok (train, valid) ∧
      ∀ r ∈ sc.svdRanks,
        (1 ≤ r ∧ r < (train.map Row.user).toFinset.card ∧ r < (train.map Row.item).toFinset.card) ∧
        (∃ t ∈ valid, KnownFrom train t) ∧ ∀ t ∈ valid, KnownFrom train t → cfg.topk ≤ unseenOf train t.user := by
  have hc : ∀ c : List ℕ, IsConfig ([("rank", sc.svdRanks)].map Prod.snd) c ↔ ∃ r ∈ sc.svdRanks, c = [r] := by
    intro c
    unfold IsConfig
    constructor
    · intro h
      cases h with
      | cons h1 h2 => cases h2; exact ⟨_, h1, rfl⟩
    · rintro ⟨r, hr, rfl⟩
      exact .cons hr .nil
  have hgrid : ∀ train valid, ((∃ table, hparamsGridSvd se.orderSvd [("rank", sc.svdRanks)]
      (svdSearchScore env fs train valid cfg.topk) = .ok table) ↔ ∀ r ∈ sc.svdRanks,
        (1 ≤ r ∧ r < (train.map Row.user).toFinset.card ∧ r < (train.map Row.item).toFinset.card) ∧
        (∃ t ∈ valid, KnownFrom train t) ∧ ∀ t ∈ valid, KnownFrom train t → cfg.topk ≤ unseenOf train t.user) := by
    intro train valid
    rw [(C91_svd se.orderSvd hse.2.1 [("rank", sc.svdRanks)] (by simp) _).2]
    simp only [← svdSearchScore_iff env hargp fs train valid cfg.topk hk]
    constructor
    · intro h r hr
      exact h [r] ((hc _).2 ⟨r, hr, rfl⟩)
    · intro h c h'
      obtain ⟨r, hr, rfl⟩ := (hc _).1 h'
      exact h r hr
  constructor
  · rintro ⟨rows, h⟩
    unfold hyperparametersSearchSvd at h
    obtain ⟨⟨initial, stream, left⟩, hd, h⟩ := (bind_ok_iff _ _ _).1 h
    obtain ⟨⟨train, valid⟩, hs, h⟩ := (bind_ok_iff _ _ _).1 h
    obtain ⟨table, ht, -⟩ := (bind_ok_iff _ _ _).1 h
    exact ⟨initial, stream, left, train, valid, hd, hs, (hgrid _ _).1 ⟨table, ht⟩⟩
  · rintro ⟨initial, stream, left, train, valid, hd, hs, h⟩
    obtain ⟨table, ht⟩ := (hgrid _ _).2 h
    unfold hyperparametersSearchSvd
    rw [hd, except_bind_ok]
    simp only
    rw [hs, except_bind_ok]
    simp only
    rw [ht, except_bind_ok]
    exact ⟨_, rfl⟩

/-- **C128, consequence.** If the search completes, so does the training of the experiment: the selected rank is in
range for the initial rows as well. With a result for every listed rank, and some rank listed, the rank is selected. -/
theorem C128_trains [FloorRing K] (env : RunEnv K) (se : SearchEnv K) (hse : se.Ok) (cfg : RunCfg K) (sc : SearchCfg K)
    (fs : FixedSvd) (data : List (IRow K)) (rows : List (SvdRow K))
    (h : hyperparametersSearchSvd env se cfg sc fs data = .ok rows) (hds : cfg.dataset ≠ .other) (hne : sc.svdRanks ≠ [])
    (initial left : List (Row K)) (stream : List (ℤ × List (Row K)))
    (hd : prepareDataForExperiment env.sortDay data cfg.initRatio cfg.hmMin = .ok (initial, stream, left)) :
    ∃ r : ℕ, getOptimalSvdRank cfg.dataset rows = .ok (r : ℤ) ∧ r ∈ sc.svdRanks ∧
      ∃ st, svdTrain env.psi ⟨r, fs.nPower, fs.os, none, false⟩ initial = .ok st := by
  obtain ⟨initial', stream', left', train, valid, h1, ⟨⟨p, h2, -⟩, -⟩, h3⟩ := C122_svd_ranks env se hse cfg sc fs data rows h
  have h5 : initial' = initial := initial_same h1 hd
  subst h5
  obtain ⟨_, _, _, _, _, -, -, g1, g2⟩ := searchSvd_rows hse h
  obtain ⟨r0, hr0⟩ := List.exists_mem_of_ne_nil _ hne
  obtain ⟨x, -, hx⟩ := g1 r0 hr0
  obtain ⟨ri, e1, ⟨row, m1, m2, -⟩, -⟩ := (C75_svd cfg.dataset rows).2.2 hds (List.ne_nil_of_mem hx)
  obtain ⟨r, n1, n2, -⟩ := g2 row m1
  obtain ⟨q1, q2, q3⟩ := h3 r n2
  have hsub : ∀ f : Row K → ℤ, (train.map f).toFinset.card ≤ (initial'.map f).toFinset.card := by
    intro f
    refine Finset.card_le_card ?_
    intro x hx
    rw [List.mem_toFinset, List.mem_map] at hx ⊢
    obtain ⟨r, hr, rfl⟩ := hx
    rw [h2, List.mem_filter] at hr
    exact ⟨r, hr.1, rfl⟩
  refine ⟨r, by rw [e1, ← m2, n1], n2, (svdTrain_iff env.psi _ _).2 ⟨q1, ?_, ?_⟩⟩
  · exact lt_of_lt_of_le q2 (hsub Row.user)
  · exact lt_of_lt_of_le q3 (hsub Row.item)

/-! ### Examples -/

/-- The search on `exSearchData` completes, so its conditions hold; the split is the one of the code. -/
example : ∃ initial stream left train valid,
    prepareDataForExperiment exRunEnv.sortDay exSearchData (7/8) none = .ok (initial, stream, left) ∧
    trainTestSplit exSearchEnv.stamp initial exGridCfg.quantile = .ok (train, valid) ∧
    (∃ t ∈ valid, KnownFrom train t) ∧ 2 < (train.map Row.user).toFinset.card := by
  obtain ⟨initial, stream, left, train, valid, h1, h2, h3⟩ := (C128_search exRunEnv exRunArgp_ok exSearchEnv exSearchEnv_ok
    exSearchRun (by decide) exGridCfg exFixSvd exSearchData).1 ⟨_, exSearch_svd⟩
  obtain ⟨h4, h5, -⟩ := h3 2 (by decide)
  exact ⟨initial, stream, left, train, valid, h1, h2, h5, h4.2.1⟩

/-- Whatever the decompositions return, the search also completes with the one rank 2; with `topk = 4` it does not. -/
example (psi : PSIEnv ℚ) :
    (∃ rows, hyperparametersSearchSvd { exRunEnv with psi := psi } exSearchEnv exSearchRun ⟨4/5, [2], [], []⟩ exFixSvd
      exSearchData = .ok rows) ∧
    ¬ ∃ rows, hyperparametersSearchSvd { exRunEnv with psi := psi } exSearchEnv { exSearchRun with topk := 4 }
      ⟨4/5, [2], [], []⟩ exFixSvd exSearchData = .ok rows := by
  have hd : prepareDataForExperiment exRunEnv.sortDay exSearchData (7/8) none =
      .ok ((exSearchData.take 7).map IRow.row, [(2, [⟨9, 41, 1, 86404, 2⟩])], [⟨9, 41, 1, 86404, 2⟩]) := by decide +kernel
  have hs : trainTestSplit exSearchEnv.stamp ((exSearchData.take 7).map IRow.row) (4/5) =
      .ok ((exSearchData.take 5).map IRow.row, ((exSearchData.take 7).drop 5).map IRow.row) := by decide +kernel
  constructor
  · refine (C128_search { exRunEnv with psi := psi } exRunArgp_ok exSearchEnv exSearchEnv_ok exSearchRun (by decide) _
      exFixSvd exSearchData).2 ⟨_, _, _, _, _, hd, hs, ?_⟩
    decide +kernel
  · intro h
    obtain ⟨initial, stream, left, train, valid, h1, h2, h3⟩ := (C128_search { exRunEnv with psi := psi } exRunArgp_ok
      exSearchEnv exSearchEnv_ok { exSearchRun with topk := 4 } (by decide) _ exFixSvd exSearchData).1 h
    have e := Except.ok.inj (h1.symm.trans hd)
    injection e with e1 e2
    subst e1
    have e := Except.ok.inj (h2.symm.trans hs)
    injection e with e1 e2
    subst e1 e2
    have := (h3 2 (by decide)).2.2
    revert this
    decide +kernel

end DynCF
