/- Property C133: exactly when the search for the parameters of the sequence models completes. -/
import Verif.Props.ReinitCompletion
import Verif.Props.Search2
import Verif.Props.SearchCompletion

set_option linter.unusedSectionVars false

namespace DynCF
variable {K : Type}

/-! ### Specification -/

/-- What a trial of the rank `r` needs: the positions in the earlier table reach exactly to the last of the `n` places,
the rank fits this table, some later row has both ids known, and every user of such a row has at least `k` known items
without an interaction. -/
def TrialRuns (n k : ℕ) (r : ℕ × ℕ × ℕ) (train valid : List (PRow K)) : Prop :=
  ((∀ p ∈ train, p.pos < n) ∧ ∃ p ∈ train, p.pos + 1 = n) ∧
  RankFits r (numUsers (train.map PRow.row)) (numItems (train.map PRow.row)) n ∧
  (∃ p ∈ valid, KnownFrom (train.map PRow.row) p.row) ∧
  ∀ p ∈ valid, KnownFrom (train.map PRow.row) p.row → k ≤ unseenOf (train.map PRow.row) p.row.user

section
variable [Field K] [LinearOrder K] [IsStrictOrderedRing K]

/-! ### One trial -/

/-- The hit rate of a recommender can be computed. -/
theorem Knows.metric_iff {b0 : Bool} {argp : ArgPart K} {v : RecView} {us is : List ℤ} {score : ℕ → ℤ → PyM (List K)}
    {g : ℕ → ℕ → List K} {k : ℕ} {reg hist : List (Row K)} (h : Knows v us is reg hist)
    (hset : RecSetting argp v us is score g k true) (c : List (Row K)) :
    (∃ x, (recommend b0 argp v score (getUsersToRecommendTestItems c v.maps).1 k true false >>= fun recs =>
      hr recs (getUsersToRecommendTestItems c v.maps).2) = .ok (x : K)) ↔
      (∃ r ∈ c, KnownFrom reg r) ∧ ∀ r ∈ c, KnownFrom reg r → k ≤ unseenIn reg hist r.user := by
  obtain ⟨hsc, hlen⟩ := scored_intro (chunk := c) h.view.user h.view.item h.users h.items
  have hmem : ∀ u, u ∈ (getUsersToRecommendTestItems c v.maps).1 ↔ ∃ r ∈ c, KnownFrom reg r ∧ r.user = u := by
    intro u
    have := hsc.users.mem u
    rw [List.map_fst_zip (by omega)] at this
    rw [this]
    simp only [List.mem_map, List.mem_filter, decide_eq_true_eq]
    constructor
    · rintro ⟨r, ⟨h1, h2⟩, h3⟩; exact ⟨r, h1, h2, h3⟩
    · rintro ⟨r, h1, h2, h3⟩; exact ⟨r, ⟨h1, h2⟩, h3⟩
  have hknown : ∀ u ∈ (getUsersToRecommendTestItems c v.maps).1, ∃ t ∈ reg, t.user = u := by
    intro u hu
    obtain ⟨r, -, h1, rfl⟩ := (hmem u).1 hu
    exact h1.1
  have hA := h.recommend_iff (b0 := b0) hset false hknown
  constructor
  · rintro ⟨x, hx⟩
    obtain ⟨res, g1, g2⟩ := (bind_ok_iff _ _ _).1 hx
    refine ⟨?_, fun t ht hkn => hA.1 ⟨_, g1⟩ _ ((hmem _).2 ⟨t, ht, hkn, rfl⟩)⟩
    by_contra hn
    have e1 : (getUsersToRecommendTestItems c v.maps).1 = [] := by
      rw [List.eq_nil_iff_forall_not_mem]
      intro u hu
      obtain ⟨r, h1, h2, -⟩ := (hmem u).1 hu
      exact hn ⟨r, h1, h2⟩
    have e2 : (getUsersToRecommendTestItems c v.maps).2 = [] := by
      rw [← List.length_eq_zero_iff, ← hlen, e1]
      rfl
    rw [e2, (C12_no_test_users res).1] at g2
    cases g2
  · rintro ⟨⟨r0, hr0, hk0⟩, h2⟩
    obtain ⟨res, hres⟩ := hA.2 fun u hu => by
      obtain ⟨r, k1, k2, rfl⟩ := (hmem u).1 hu
      exact h2 r k1 k2
    have : Inhabited K := ⟨0⟩
    have hl := (C18_k_distinct_items hset b0 false _ res hres).1
    have hne : (getUsersToRecommendTestItems c v.maps).2 ≠ [] := by
      intro e
      rw [e, List.length_nil, List.length_eq_zero_iff] at hlen
      have := (hmem r0.user).2 ⟨r0, hr0, hk0, rfl⟩
      rw [hlen] at this
      cases this
    have hl' : res.length = (getUsersToRecommendTestItems c v.maps).2.length := by rw [hl, hlen]
    rw [hres, except_bind_ok]
    exact ⟨_, (C12_hit_rate res _ hne hl').1⟩

theorem row_last {L r : ℕ} (M : Matrix (Fin L) (Fin r) K) (hL : 1 ≤ L) : ∃ v, (Mat.mk L r M).row (-1) = .ok v := by
  obtain ⟨n, rfl⟩ : ∃ n, L = n + 1 := ⟨L - 1, by omega⟩
  exact ⟨_, row_neg_one M⟩

/-- The object to which the callback gives the factors of a sweep. -/
theorem withFactors_state {c : TDCfg K} {m : TDAtt K} (hL : 1 ≤ c.seqLen) (hm : tdInit c = .ok m) {train d : List (PRow K)}
    {mp : Mappings} {us is : List ℤ} (hu : FirstAppearance (train.map fun p => p.row.user) us)
    (hU : Represents mp.user us) (hi : FirstAppearance (train.map fun p => p.row.item) is) (hI : Represents mp.item is)
    (hd : MappedTo us is train d) {f : Fac K} (hf : f.HasShape (us.length, is.length, c.seqLen) c.hooi.rank)
    (hr : RankFits c.hooi.rank us.length is.length c.seqLen) (core : Option (Ten K)) :
    ∃ s, tdWithFactors m mp (d.map fun p => (p.row.user, p.row.item)) (updateUserSeqHistory (sortedInds d) [] c.seqLen) f
        core = .ok s ∧ ReAt c m s (train.map PRow.row) train := by
  obtain ⟨⟨s1, s2⟩, ⟨s3, s4⟩, s5, s6⟩ := hf
  dsimp only at s1 s2 s3 s4 s5 s6
  obtain ⟨q1, q2, q3, q4⟩ := tdInit_cols hL hm
  obtain ⟨A, hA⟩ := Mat.eq_mk m.att q1 q2
  obtain ⟨B, hB⟩ := Mat.eq_mk m.attInv q3 q4
  obtain ⟨W, hW⟩ := Mat.eq_mk f.f2 s5 s6
  obtain ⟨v, hv⟩ := row_last (B.transpose * W) hL
  have haw : m.att.dot f.f2 = .ok ⟨_, _, A * W⟩ := by rw [hA, hW, Mat.dot_mk]
  have hlw : m.attInv.T.dot f.f2 = .ok ⟨_, _, B.transpose * W⟩ := by rw [hB, hW, Mat.T_mk, Mat.dot_mk]
  have hfull : ∀ x ∈ us, ∃ p ∈ train, p.row.user = x := by
    intro x hx
    obtain ⟨p, hp, hpe⟩ := List.mem_map.1 ((hu.mem x).1 hx)
    exact ⟨p, hp, hpe⟩
  obtain ⟨g1, g2⟩ := mapped_inters hu.nodup hd hfull
  refine ⟨⟨mp, _, updateUserSeqHistory (sortedInds d) [] c.seqLen, f.f0, f.f1, f.f2, core, ⟨_, _, A * W⟩, ⟨_, v⟩⟩, ?_, us, is, d, sortedInds d, hU, hI, ?_, ?_, hd, rfl,
    ⟨⟨s1, s2⟩, ⟨s3, s4⟩, s5, s6⟩, hr, haw, ⟨_, v, hlw, hv, rfl⟩, ?_, g1, g2, hfull⟩
  · unfold tdWithFactors
    rw [haw, except_bind_ok, hlw, except_bind_ok, hv, except_bind_ok]
    rfl
  · rw [List.map_map]; exact hu
  · rw [List.map_map]; exact hi
  · simpa using histInv_update c.seqLen [] [] (sortedInds d) (histInv_nil _)

/-- Its hit rate. -/
theorem ReAt.metric_iff {c : TDCfg K} {m : TDAtt K} {s : TDState K} {reg : List (Row K)} {t : List (PRow K)}
    (h : ReAt c m s reg t) (hL : 2 ≤ c.seqLen) (hm : tdInit c = .ok m) {argp : ArgPart K} (hargp : ArgPartOk argp) {k : ℕ}
    (hk : 1 ≤ k) (h2 : 2 ≤ numItems reg) (valid : List (Row K)) :
    (∃ x, tdMetric argp hr valid k s = .ok x) ↔
      (∃ r ∈ valid, KnownFrom reg r) ∧ ∀ r ∈ valid, KnownFrom reg r → k ≤ unseenIn reg (t.map PRow.row) r.user := by
  obtain ⟨us, is, g, h3, h4⟩ := (h.look hL hm hargp hk h2).look
  exact h3.metric_iff (b0 := false) h4 valid

/-- **C133, one trial.** With early stopping and at least one sweep, the training of a trial with its scores after every
sweep succeeds exactly under the conditions of `TrialRuns`. -/
theorem C133_trial {argp : ArgPart K} (hargp : ArgPartOk argp) {k : ℕ} (hk : 1 ≤ k) (relax : ℤ) {c : TDCfg K}
    (hL : 2 ≤ c.seqLen) (hn : 1 ≤ c.nIter) (hforce : c.force = false) (hitem : 2 ≤ c.hooi.rank.2.1)
    {train : List (PRow K)} (hpos : ∀ r ∈ train, 0 ≤ r.pos) (valid : List (PRow K)) :
    (∃ r, tdSearchTrain argp hr (valid.map PRow.row) k relax c train = .ok r) ↔
      TrialRuns c.seqLen k c.hooi.rank train valid := by
  obtain ⟨m, hm⟩ : ∃ m, tdInit c = .ok m := ⟨_, tdInit_eq _ (by omega)⟩
  obtain ⟨rows, mp, us, is, h1, h2, h3, h4, h5, h6⟩ := train_mapped train
  have n1 : us.length = numUsers (train.map PRow.row) := by
    unfold numUsers
    rw [List.map_map]
    exact first_card h2
  have n2 : is.length = numItems (train.map PRow.row) := by
    unfold numItems
    rw [List.map_map]
    exact first_card h4
  have hvalid : ∀ s, ReAt c m s (train.map PRow.row) train → 2 ≤ numItems (train.map PRow.row) →
      ((∃ x, tdMetric argp hr (valid.map PRow.row) k s = .ok x) ↔
      (∃ p ∈ valid, KnownFrom (train.map PRow.row) p.row) ∧
      ∀ p ∈ valid, KnownFrom (train.map PRow.row) p.row → k ≤ unseenOf (train.map PRow.row) p.row.user) := by
    intro s hs h2
    rw [hs.metric_iff hL hm hargp hk h2]
    simp only [List.mem_map, exists_exists_and_eq_and, forall_exists_index, and_imp, forall_apply_eq_imp_iff₂]
    rfl
  constructor
  · rintro ⟨res, h⟩
    unfold tdSearchTrain at h
    simp only [bind_ok_iff] at h
    obtain ⟨m', hm', r, hr', t, ht, ⟨⟨f, g⟩, cbEnd⟩, hg, -⟩ := h
    have hmm : m' = m := Except.ok.inj (hm'.symm.trans hm)
    subst hmm
    have hrr : r = (rows, mp) := Except.ok.inj (hr'.symm.trans h1)
    subst hrr
    have hchk := gaSatf_checked hg
    obtain ⟨kk, F, G, hkk, g0, hsweep, -, -, -, -, hcb⟩ := C61_ga_satf_run _ _ _ _ _ _ _ _ _ _ _ _ _ _ _ hg
    obtain ⟨y, b, hy0, hyk, hcall, hbf, hstop⟩ := hcb _ hforce rfl
    have hk1 : 1 ≤ kk := by
      rcases Nat.lt_or_ge kk c.nIter with hlt | hge
      · exact (hstop hlt).1
      · omega
    have hc0 := hcall 0 (by omega)
    unfold exitCallback at hc0
    obtain ⟨x, hx, -⟩ := (bind_ok_iff _ _ _).1 hc0
    unfold tdScore at hx
    obtain ⟨s1, hs1, hmet⟩ := (bind_ok_iff _ _ _).1 hx
    have htr : tdTrain { c with nIter := 1, force := true } m' (none : Option (ExitCallback K Unit)) () [] train = .ok s1 := by
      unfold tdTrain
      rw [h1, except_bind_ok]
      unfold tdFit
      dsimp only at ht ⊢
      rw [ht, except_bind_ok]
      have hf := gaSatf_forced c.hooi c.normOf (t.inds.map Inter.ind) t.vals t.shape m'.att c.growthTol none kk 1 hk1 F G
        hchk g0 hsweep
      rw [if_neg (by omega)] at hf
      rw [hf, except_bind_ok]
      exact hs1
    obtain ⟨k1, k2⟩ := (tdTrain_iff { c with nIter := 1, force := true } m' (by show 1 ≤ c.seqLen; omega) hm (le_refl _)
      (none : Option (ExitCallback K Unit)) () [] train (fun f hf => by cases hf) hpos).1 ⟨_, htr⟩
    have h2i : 2 ≤ numItems (train.map PRow.row) := le_trans hitem k2.2.2.1
    have hst : ReAt c m' s1 (train.map PRow.row) train := by
      have k2' := k2
      rw [← n1, ← n2] at k2'
      obtain ⟨⟨a1, a2, a3⟩, a4, a5, a6⟩ := k2'
      obtain ⟨s, rows', mp', -, l2, l3⟩ := tdTrain_inv
        (cfg := ⟨{ c with nIter := 1, force := true }, false, false, fun _ => fun _ _ => 0, fun _ _ => fun _ _ => 0, fun _ _ => 0,
          .zero, false⟩) (by show 1 ≤ c.seqLen; omega) hm (none : Option (ExitCallback K Unit)) () train
        (fun f hf => by cases hf) (fun r hr => ⟨hpos r hr, k1.1 r hr⟩) k1.2 (le_refl _) us is h2 h4
        ⟨by rw [Nat.mul_comm]; exact a1, by rw [Nat.mul_comm]; exact a2, by rw [Nat.mul_comm]; exact a3, a4, a5, a6⟩
      obtain rfl := Except.ok.inj (htr.symm.trans l2)
      obtain ⟨U, V, W, G₀, hS⟩ := l3.shape
      have e := hs1
      unfold tdWithFactors at e
      obtain ⟨aw, -, e⟩ := (bind_ok_iff _ _ _).1 e
      obtain ⟨lw, -, e⟩ := (bind_ok_iff _ _ _).1 e
      obtain ⟨v, -, e⟩ := (bind_ok_iff _ _ _).1 e
      have e := Except.ok.inj e
      have f0 := hS.u
      have f1 := hS.v
      have f2 := hS.w
      rw [← e] at f0 f1 f2
      dsimp only at f0 f1 f2
      have hsh : (F 1).HasShape (us.length, is.length, c.seqLen) c.hooi.rank := by
        unfold Fac.HasShape
        rw [f0, f1, f2]
        exact ⟨⟨rfl, rfl⟩, ⟨rfl, rfl⟩, rfl, rfl⟩
      obtain ⟨s2, q1, q2⟩ := withFactors_state (by omega) hm h2 h3 h4 h5 h6 hsh ⟨⟨a1, a2, a3⟩, a4, a5, a6⟩ (some (G 1))
      rw [← (trainTensor_ok ht).1] at q1
      have : s2 = s1 := Except.ok.inj (q1.symm.trans hs1)
      rw [← this]
      exact q2
    exact ⟨k1, k2, (hvalid s1 hst h2i).1 ⟨x, hmet⟩⟩
  · rintro ⟨k1, k2, k3⟩
    have h2i : 2 ≤ numItems (train.map PRow.row) := le_trans hitem k2.2.2.1
    rw [← n1, ← n2] at k2
    obtain ⟨s, hs⟩ := C28_success c m (by omega) hm (some (exitCallback (tdScore argp hr (valid.map PRow.row) k m mp
        ((withPos rows train).map fun p => (p.row.user, p.row.item))
        (updateUserSeqHistory (sortedInds (withPos rows train)) [] c.seqLen)) relax)) cbStart [] train
      (fun r hr => ⟨hpos r hr, k1.1 r hr⟩) k1.2 k2.1 us is h2 h4 k2.2 (by
        intro f hf t x g hx
        have hf := Option.some.inj hf
        subst hf
        obtain ⟨s, q1, q2⟩ := withFactors_state (by omega) hm h2 h3 h4 h5 h6 hx k2 (some g)
        obtain ⟨y, hy⟩ := (hvalid s q2 h2i).2 k3
        unfold exitCallback tdScore
        rw [q1, except_bind_ok, hy, except_bind_ok]
        exact ⟨_, rfl⟩)
    unfold tdTrain at hs
    rw [h1, except_bind_ok] at hs
    unfold tdFit at hs
    obtain ⟨t, ht, hs⟩ := (bind_ok_iff _ _ _).1 hs
    obtain ⟨g, hg, hs⟩ := (bind_ok_iff _ _ _).1 hs
    unfold tdSearchTrain
    rw [hm, except_bind_ok, h1, except_bind_ok]
    dsimp only at ht ⊢
    rw [ht, except_bind_ok, (trainTensor_ok ht).1]
    rw [(trainTensor_ok ht).1] at hg
    rw [hg, except_bind_ok]
    have hw : tdWithFactors m mp ((withPos rows train).map fun p => (p.row.user, p.row.item))
        (updateUserSeqHistory (sortedInds (withPos rows train)) [] c.seqLen) g.1.1 g.1.2 = .ok s := by
      rw [← (trainTensor_ok ht).1]
      exact hs
    rw [hw, except_bind_ok]
    exact ⟨_, rfl⟩

/-! ### The search -/

variable [FloorRing K]

/-- The table of the trials exists exactly if every trial has scores. -/
theorem gridTdrec_iff {α : Type} [DecidableEq α] (order : Finset (List α) → List (List α))
    (horder : ∀ s, (order s).Nodup ∧ ∀ c, c ∈ order s ↔ c ∈ s) (params : List (String × List α)) (hp : params ≠ [])
    (scores : List α → PyM (List K)) :
    (∃ table, hparamsGridTdrec order params scores = .ok table) ↔
      ∀ c, IsConfig (params.map Prod.snd) c → ∃ l, scores c = .ok l := by
  constructor
  · rintro ⟨table, h⟩
    exact (C91_tdrec order horder params hp scores table h).2.2
  · intro h
    obtain ⟨grid, hgrid, hmem⟩ := (C73_full_grid params).1 hp
    unfold hparamsGridTdrec
    rw [hgrid, except_bind_ok]
    have : ∀ l : List (List α), (∀ c ∈ l, IsConfig (params.map Prod.snd) c) → ∃ r, (l.mapM fun c => (do
        let s ← scores c
        pure (s.mapIdx fun j x => (c, j + 1, x)) : PyM (List (List α × ℕ × K)))) = .ok r := by
      intro l hl
      induction l with
      | nil => exact ⟨[], rfl⟩
      | cons c l ih =>
        obtain ⟨r, hr⟩ := ih fun c hc => hl c (List.mem_cons_of_mem _ hc)
        obtain ⟨x, hx⟩ := h c (hl c List.mem_cons_self)
        rw [List.mapM_cons, hx, except_bind_ok, hr]
        exact ⟨_, rfl⟩
    obtain ⟨r, hr⟩ := this (order grid) fun c hc => (hmem c).1 (((horder grid).2 c).1 hc)
    dsimp only
    rw [hr, except_bind_ok]
    exact ⟨_, rfl⟩

theorem td_config (ranks : List (ℕ × ℕ × ℕ)) (atts : List K) (c : List (TdParam K)) :
    IsConfig ([("rank", ranks.map TdParam.rank), ("att_f", atts.map TdParam.att)].map Prod.snd) c ↔
      ∃ r ∈ ranks, ∃ a ∈ atts, c = [.rank r, .att a] := by
  unfold IsConfig
  constructor
  · intro h
    cases h with
    | cons h1 h2 =>
      cases h2 with
      | cons h2 h3 =>
        cases h3
        obtain ⟨r, hr, rfl⟩ := List.mem_map.1 h1
        obtain ⟨a, ha, rfl⟩ := List.mem_map.1 h2
        exact ⟨r, hr, a, ha, rfl⟩
  · rintro ⟨r, hr, a, ha, rfl⟩
    exact .cons (List.mem_map_of_mem hr) (.cons (List.mem_map_of_mem ha) .nil)

/-- Positions of a table that has been cropped are not negative. -/
theorem cropped_split {initial : List (Row K)} {L : ℕ} {t train valid : List (PRow K)} {stamp : ℤ → K}
    (hstamp : ∀ a b, a < b → stamp a < stamp b) {q : K} (h1 : getDfWithCroppedPos initial L true = .ok t)
    (h2 : trainTestSplitP stamp t q = .ok (train, valid)) :
    IsCropped L initial t ∧ (∀ p ∈ train, p ∈ t) ∧ ∀ p ∈ train, 0 ≤ p.pos := by
  have hc := crop_ok_isCropped _ _ _ h1
  obtain ⟨D, -, rfl, -⟩ := splitP_day hstamp h2
  exact ⟨hc, fun p hp => (List.mem_filter.1 hp).1, fun p hp => ((cropped_pos hc).1 p (List.mem_filter.1 hp).1).1⟩

/-- **C133.** With sequences of at least two places, early stopping, and item ranks of at least two, the search for the
parameters of the sequence models completes if and only if the table can be prepared, cropped and split, and every rank
(if there is any value of the attention parameter) satisfies `TrialRuns`. -/
theorem C133_search (env : RunEnv K) (hargp : ArgPartOk env.argp) (se : SearchEnv K) (hse : se.Ok) (cfg : RunCfg K)
    (hk : 1 ≤ cfg.topk) (sc : SearchCfg K) (hrank : ∀ r ∈ sc.tdRanks, 2 ≤ r.2.1) (ft : FixedTd) (hL : 2 ≤ ft.seqLen)
    (hforce : ft.force = false) (data : List (IRow K)) :
    (∃ rows, hyperparametersSearchTdrec env se cfg sc ft data = .ok rows) ↔
    ∃ initial stream left t train valid,
      prepareDataForExperiment env.sortDay data cfg.initRatio none = .ok (initial, stream, left) ∧
      getDfWithCroppedPos initial cfg.maxLen true = .ok t ∧
      trainTestSplitP se.stamp t sc.quantile = .ok (train, valid) ∧
      ∀ r ∈ sc.tdRanks, sc.attFs ≠ [] → TrialRuns ft.seqLen cfg.topk r train valid := by
  have hgrid : ∀ train valid, (∀ p ∈ train, 0 ≤ p.pos) → ((∃ table, hparamsGridTdrec se.orderTd
      [("rank", sc.tdRanks.map TdParam.rank), ("att_f", sc.attFs.map TdParam.att)]
      (tdSearchScores env ft train valid cfg.topk) = .ok table) ↔
      ∀ r ∈ sc.tdRanks, sc.attFs ≠ [] → TrialRuns ft.seqLen cfg.topk r train valid) := by
    intro train valid hpos
    rw [gridTdrec_iff se.orderTd hse.2.2 _ (by simp)]
    have hone : ∀ r ∈ sc.tdRanks, ∀ a, (∃ l, tdSearchScores env ft train valid cfg.topk [.rank r, .att a] = .ok l) ↔
        TrialRuns ft.seqLen cfg.topk r train valid := by
      intro r hr a
      refine Iff.trans ?_ (C133_trial hargp hk 3 (c := tdSearchCfg env ft r a) hL (by show 1 ≤ 25; omega) hforce
        (hrank r hr) hpos valid)
      unfold tdSearchScores
      constructor
      · rintro ⟨l, h⟩
        obtain ⟨x, hx, -⟩ := (bind_ok_iff _ _ _).1 h
        exact ⟨x, hx⟩
      · rintro ⟨x, hx⟩
        dsimp only
        rw [hx, except_bind_ok]
        exact ⟨_, rfl⟩
    constructor
    · intro h r hr hne
      obtain ⟨a, ha⟩ := List.exists_mem_of_ne_nil _ hne
      exact (hone r hr a).1 (h _ ((td_config _ _ _).2 ⟨r, hr, a, ha, rfl⟩))
    · intro h c hc
      obtain ⟨r, hr, a, ha, rfl⟩ := (td_config _ _ _).1 hc
      exact (hone r hr a).2 (h r hr (List.ne_nil_of_mem ha))
  constructor
  · rintro ⟨rows, h⟩
    unfold hyperparametersSearchTdrec at h
    obtain ⟨⟨initial, stream, left⟩, hd, h⟩ := (bind_ok_iff _ _ _).1 h
    obtain ⟨t, htc, h⟩ := (bind_ok_iff _ _ _).1 h
    obtain ⟨⟨train, valid⟩, hs, h⟩ := (bind_ok_iff _ _ _).1 h
    obtain ⟨table, ht, -⟩ := (bind_ok_iff _ _ _).1 h
    exact ⟨initial, stream, left, t, train, valid, hd, htc, hs,
      (hgrid _ _ (cropped_split hse.1 htc hs).2.2).1 ⟨table, ht⟩⟩
  · rintro ⟨initial, stream, left, t, train, valid, hd, htc, hs, h⟩
    obtain ⟨table, ht⟩ := (hgrid _ _ (cropped_split hse.1 htc hs).2.2).2 h
    unfold hyperparametersSearchTdrec
    rw [hd, except_bind_ok]
    dsimp only
    rw [htc, except_bind_ok, hs, except_bind_ok]
    dsimp only
    rw [ht, except_bind_ok]
    exact ⟨_, rfl⟩

/-- **C133, without early stopping.** If the configuration asks for a fixed number of sweeps (`force_n_iter`), the callback
is never called: a search that completes has recorded nothing. -/
theorem C133_forced (env : RunEnv K) (se : SearchEnv K) (hse : se.Ok) (cfg : RunCfg K) (sc : SearchCfg K) (ft : FixedTd)
    (hforce : ft.force = true) (data : List (IRow K)) (rows : List (TdRow K))
    (h : hyperparametersSearchTdrec env se cfg sc ft data = .ok rows) : rows = [] := by
  obtain ⟨initial, stream, left, t, train, valid, -, -, -, -, g2⟩ := searchTd_rows hse h
  rw [List.eq_nil_iff_forall_not_mem]
  intro row hrow
  obtain ⟨r, -, a, -, n, x, l, -, -, h1, h2⟩ := (g2 row).1 hrow
  unfold tdSearchScores at h1
  obtain ⟨⟨s, l'⟩, h3, h4⟩ := (bind_ok_iff _ _ _).1 h1
  have h4 := Except.ok.inj h4
  unfold tdSearchTrain at h3
  simp only [bind_ok_iff] at h3
  obtain ⟨m, -, r', -, t', -, ⟨⟨f, g⟩, cbEnd⟩, hg, s', -, e⟩ := h3
  obtain ⟨kk, F, G, -, -, -, -, -, hf, -⟩ := C61_ga_satf_run _ _ _ _ _ _ _ _ _ _ _ _ _ _ _ hg
  have e := Except.ok.inj e
  injection e with e1 e2
  rw [← h4, ← e2, (hf hforce).2] at h2
  simp [cbStart] at h2

/-- **C133, the positions.** If days grow with time and the sequences of the models are as long as those of the table, as
in all shipped configurations, the condition on the positions says that some user has at least `L` rows in the initial
part and none of them on the first day of the later table or after it. -/
theorem C133_positions (L : ℕ) (D : ℤ) (hL : 1 ≤ L) (initial : List (Row K)) (train valid : List (PRow K))
    (h : CroppedThenSplit L D initial train valid) :
    ((∀ p ∈ train, p.pos < L) ∧ ∃ p ∈ train, p.pos + 1 = L) ↔
      ∃ u, L ≤ (rowsOf u initial).length ∧ ∀ r ∈ initial, r.user = u → r.day < D := by
  have hu : ∀ u, ∃ n m : ℕ, (train.filter fun p => decide (p.row.user = u)).map PRow.pos =
      (List.range (min (L - m) n)).map (fun i : ℕ => (i : ℤ)) ∧
      m = ((rowsOf u initial).filter fun r => decide (D ≤ r.day)).length ∧ n + m = (rowsOf u initial).length := by
    intro u
    obtain ⟨s, hs, g1, g2, -⟩ := h u
    have hperm : s.Perm (rowsOf u initial) := by
      rw [isStableTimeSort_unique hs (tsSort_stable _)]
      exact stableSort_perm _ _
    refine ⟨(s.filter fun r => decide (r.day < D)).length, (s.filter fun r => decide (D ≤ r.day)).length, ?_,
      (hperm.filter _).length_eq, ?_⟩
    · rw [g2]
      have := congrArg List.length g1
      rw [List.length_map, lastN_length] at this
      rw [this]
    · rw [← hperm.length_eq]
      have hnot : (fun r : Row K => decide (D ≤ r.day)) = fun r => !decide (r.day < D) := by
        funext r
        rw [← decide_not, decide_eq_decide, not_lt]
      rw [hnot]
      exact (List.length_eq_length_filter_add _).symm
  constructor
  · rintro ⟨-, p, hp, hpos⟩
    refine ⟨p.row.user, ?_⟩
    obtain ⟨n, m, g1, g2, g3⟩ := hu p.row.user
    have : p.pos ∈ (train.filter fun x => decide (x.row.user = p.row.user)).map PRow.pos :=
      List.mem_map_of_mem (List.mem_filter.2 ⟨hp, by simp⟩)
    rw [g1] at this
    obtain ⟨i, hi, e⟩ := List.mem_map.1 this
    rw [List.mem_range] at hi
    have hm : m = 0 := by omega
    refine ⟨by omega, ?_⟩
    intro r hr hru
    rw [hm] at g2
    have := List.length_eq_zero_iff.1 g2.symm
    rw [List.filter_eq_nil_iff] at this
    have := this r (List.mem_filter.2 ⟨hr, by simp [hru]⟩)
    simpa using this
  · rintro ⟨u, h1, h2⟩
    constructor
    · intro p hp
      obtain ⟨n, m, g1, -, -⟩ := hu p.row.user
      have : p.pos ∈ (train.filter fun x => decide (x.row.user = p.row.user)).map PRow.pos :=
        List.mem_map_of_mem (List.mem_filter.2 ⟨hp, by simp⟩)
      rw [g1] at this
      obtain ⟨i, hi, e⟩ := List.mem_map.1 this
      rw [List.mem_range] at hi
      omega
    · obtain ⟨n, m, g1, g2, g3⟩ := hu u
      have hm : m = 0 := by
        rw [g2, List.length_eq_zero_iff, List.filter_eq_nil_iff]
        intro r hr
        have hr := List.mem_filter.1 hr
        have := h2 r hr.1 (by simpa using hr.2)
        simpa using this
      have : ((L - 1 : ℕ) : ℤ) ∈ (train.filter fun x => decide (x.row.user = u)).map PRow.pos := by
        rw [g1]
        exact List.mem_map_of_mem (List.mem_range.2 (by omega))
      obtain ⟨p, hp, e⟩ := List.mem_map.1 this
      exact ⟨p, (List.mem_filter.1 hp).1, by omega⟩

/-- **C133, consequence.** If the search completes, the first training of the sequence models on the table of the initial
part succeeds for every rank of the grid. -/
theorem C133_trains (env : RunEnv K) (hargp : ArgPartOk env.argp) (se : SearchEnv K) (hse : se.Ok) (cfg : RunCfg K)
    (hk : 1 ≤ cfg.topk) (sc : SearchCfg K) (hrank : ∀ r ∈ sc.tdRanks, 2 ≤ r.2.1) (ft : FixedTd) (hL : 2 ≤ ft.seqLen)
    (hlen : cfg.maxLen = ft.seqLen) (hforce : ft.force = false) (data : List (IRow K)) (rows : List (TdRow K))
    (h : hyperparametersSearchTdrec env se cfg sc ft data = .ok rows) (hatt : sc.attFs ≠ [])
    (initial left : List (Row K)) (stream : List (ℤ × List (Row K))) (t : List (PRow K))
    (hd : prepareDataForExperiment env.sortDay data cfg.initRatio cfg.hmMin = .ok (initial, stream, left))
    (ht : getDfWithCroppedPos initial cfg.maxLen true = .ok t) (c : TDCfg K) (hr : c.hooi.rank ∈ sc.tdRanks)
    (hc : c.seqLen = ft.seqLen) (hn : 1 ≤ c.nIter) :
    ∃ m s, tdInit c = .ok m ∧ tdTrain c m (none : Option (ExitCallback K Unit)) () [] t = .ok s := by
  obtain ⟨initial', stream', left', t', train, valid, h1, h2, h3, h4⟩ :=
    (C133_search env hargp se hse cfg hk sc hrank ft hL hforce data).1 ⟨_, h⟩
  have h5 : initial' = initial := initial_same h1 hd
  subst h5
  obtain rfl := Except.ok.inj (h2.symm.trans ht)
  obtain ⟨hcr, hsub, -⟩ := cropped_split hse.1 h2 h3
  obtain ⟨⟨-, p, hp, hpp⟩, ⟨q1, q2, q3, q4⟩, -⟩ := h4 _ hr hatt
  have hcard : ∀ f : Row K → ℤ, ((train.map PRow.row).map f).toFinset.card ≤ ((t'.map PRow.row).map f).toFinset.card := by
    intro f
    refine Finset.card_le_card ?_
    intro x hx
    rw [List.mem_toFinset, List.map_map, List.mem_map] at hx ⊢
    obtain ⟨r, hr, rfl⟩ := hx
    exact ⟨r, hsub r hr, rfl⟩
  have hm := tdInit_eq c (by omega)
  have hp1 := (cropped_pos hcr).1
  obtain ⟨s, hs⟩ := (tdTrain_iff c _ (by omega) hm hn (none : Option (ExitCallback K Unit)) () [] t'
    (fun f hf => by cases hf) fun r hr => (hp1 r hr).1).2 ⟨⟨fun r hr => by have := (hp1 r hr).2; omega, p, hsub p hp, by omega⟩,
      q1, le_trans q2 (hcard Row.user), le_trans q3 (hcard Row.item), by rw [hc]; exact q4⟩
  exact ⟨_, s, hm, hs⟩

end

/-! ### Examples -/

/-- Sequences of two places: user 8 has two rows, both before the day 1; user 7 has one on each day. -/
example : ∃ u, 2 ≤ (rowsOf u [(⟨7, 40, 1, 0, 0⟩ : Row ℚ), ⟨8, 41, 1, 1, 0⟩, ⟨8, 40, 1, 2, 0⟩, ⟨7, 42, 1, 86401, 1⟩]).length ∧
    ∀ r ∈ [(⟨7, 40, 1, 0, 0⟩ : Row ℚ), ⟨8, 41, 1, 1, 0⟩, ⟨8, 40, 1, 2, 0⟩, ⟨7, 42, 1, 86401, 1⟩], r.user = u → r.day < 1 := by
  have h1 : getDfWithCroppedPos [(⟨7, 40, 1, 0, 0⟩ : Row ℚ), ⟨8, 41, 1, 1, 0⟩, ⟨8, 40, 1, 2, 0⟩, ⟨7, 42, 1, 86401, 1⟩] 2
      true = .ok [⟨⟨7, 40, 1, 0, 0⟩, 0⟩, ⟨⟨7, 42, 1, 86401, 1⟩, 1⟩, ⟨⟨8, 41, 1, 1, 0⟩, 0⟩, ⟨⟨8, 40, 1, 2, 0⟩, 1⟩] := by
    decide +kernel
  have h2 : trainTestSplitP exSearchEnv.stamp [(⟨⟨7, 40, 1, 0, 0⟩, 0⟩ : PRow ℚ), ⟨⟨7, 42, 1, 86401, 1⟩, 1⟩,
      ⟨⟨8, 41, 1, 1, 0⟩, 0⟩, ⟨⟨8, 40, 1, 2, 0⟩, 1⟩] 1 = .ok ([⟨⟨7, 40, 1, 0, 0⟩, 0⟩, ⟨⟨8, 41, 1, 1, 0⟩, 0⟩,
      ⟨⟨8, 40, 1, 2, 0⟩, 1⟩], [⟨⟨7, 42, 1, 86401, 1⟩, 1⟩]) := by decide +kernel
  obtain ⟨D, g1, g2, -, -, g3⟩ := C123_tables_partial exSearchEnv.stamp exSearchEnv_ok.1 _ (by decide +kernel) 2 (by decide)
    _ _ _ 1 h1 h2
  obtain ⟨u, k1, k2⟩ := (C133_positions 2 D (by decide) _ _ _ g3).1 (by decide +kernel)
  have hD : D ≤ 1 := g2 ⟨⟨7, 42, 1, 86401, 1⟩, 1⟩ (by decide)
  exact ⟨u, k1, fun r hr hu => lt_of_lt_of_le (k2 r hr hu) hD⟩

/-- Whatever the decompositions return, a search over the rank (2, 2, 1) completes with sequences of three places: user 8
has three rows, all on the first day. -/
theorem exTdSearch_runs (la : LinAlg ℚ) : ∃ rows, hyperparametersSearchTdrec { exRunEnv with la := la } exSearchEnv exSearchRun
    ⟨4/5, [], [(2, 2, 1)], [0, 1]⟩ exFixTd exSearchData = .ok rows := by
  have hd : prepareDataForExperiment exRunEnv.sortDay exSearchData (7/8) none =
      .ok ((exSearchData.take 7).map IRow.row, [(2, [⟨9, 41, 1, 86404, 2⟩])], [⟨9, 41, 1, 86404, 2⟩]) := by decide +kernel
  obtain ⟨t, ht⟩ : ∃ t, t = [(⟨⟨7, 40, 1, 0, 0⟩, 0⟩ : PRow ℚ), ⟨⟨7, 41, 1, 86401, 1⟩, 1⟩, ⟨⟨8, 41, 1, 1, 0⟩, 0⟩,
    ⟨⟨8, 42, 1, 3, 0⟩, 1⟩, ⟨⟨8, 43, 1, 4, 0⟩, 2⟩, ⟨⟨9, 42, 1, 2, 0⟩, 0⟩, ⟨⟨9, 43, 1, 86402, 1⟩, 1⟩] := ⟨_, rfl⟩
  refine (C133_search { exRunEnv with la := la } exRunArgp_ok exSearchEnv exSearchEnv_ok exSearchRun (by decide) _
    (by decide) exFixTd (by decide) rfl exSearchData).2 ⟨_, _, _, t,
      t.filter (fun p => decide (p.row.day < 1)), t.filter (fun p => decide (1 ≤ p.row.day)), hd, ?_, ?_, ?_⟩
  · subst ht; decide +kernel
  · subst ht; decide +kernel
  · subst ht
    intro r hr _
    obtain rfl := List.mem_singleton.1 hr
    unfold TrialRuns RankFits KnownFrom
    decide +kernel

/-- So does the training of such a model on the table of the initial part. -/
example (c : TDCfg ℚ) (h1 : c.hooi.rank = (2, 2, 1)) (h2 : c.seqLen = 3) (h3 : 1 ≤ c.nIter) : ∃ t m s,
    getDfWithCroppedPos ((exSearchData.take 7).map IRow.row) 3 true = .ok t ∧ tdInit c = .ok m ∧
    tdTrain c m (none : Option (ExitCallback ℚ Unit)) () [] t = .ok s := by
  obtain ⟨rows, h⟩ := exTdSearch_runs exRunEnv.la
  obtain ⟨t, ht⟩ : ∃ t, getDfWithCroppedPos ((exSearchData.take 7).map IRow.row) 3 true = .ok t :=
    ⟨[⟨⟨7, 40, 1, 0, 0⟩, 0⟩, ⟨⟨7, 41, 1, 86401, 1⟩, 1⟩, ⟨⟨8, 41, 1, 1, 0⟩, 0⟩, ⟨⟨8, 42, 1, 3, 0⟩, 1⟩, ⟨⟨8, 43, 1, 4, 0⟩, 2⟩,
      ⟨⟨9, 42, 1, 2, 0⟩, 0⟩, ⟨⟨9, 43, 1, 86402, 1⟩, 1⟩], by decide +kernel⟩
  obtain ⟨m, s, k1, k2⟩ := C133_trains { exRunEnv with la := exRunEnv.la } exRunArgp_ok exSearchEnv exSearchEnv_ok exSearchRun
    (by decide) _ (by decide) exFixTd (by decide) rfl rfl exSearchData rows h (by decide)
    ((exSearchData.take 7).map IRow.row) [⟨9, 41, 1, 86404, 2⟩] [(2, [⟨9, 41, 1, 86404, 2⟩])] t (by decide +kernel) ht c
    (by rw [h1]; decide) h2 h3
  exact ⟨t, m, s, ht, k1, k2⟩

/-- A search with a fixed number of sweeps completes without a recorded row. -/
example : hyperparametersSearchTdrec exRunEnv exSearchEnv exSearchRun exGridCfg { exFixTd with force := true } exSearchData =
    .ok [] := by decide +kernel

/-- If user 8 has one more row on the day of the validation, no user has a full sequence before that day, and the search
fails. -/
example (la : LinAlg ℚ) : ¬ ∃ rows, hyperparametersSearchTdrec { exRunEnv with la := la } exSearchEnv exSearchRun
    ⟨4/5, [], [(2, 2, 1)], [0, 1]⟩ exFixTd (exSearchData.set 6 ⟨6, ⟨8, 40, 1, 86402, 1⟩⟩) = .ok rows := by
  have hd : prepareDataForExperiment exRunEnv.sortDay (exSearchData.set 6 ⟨6, ⟨8, 40, 1, 86402, 1⟩⟩) (7/8) none =
      .ok (((exSearchData.set 6 ⟨6, ⟨8, 40, 1, 86402, 1⟩⟩).take 7).map IRow.row, [(2, [⟨9, 41, 1, 86404, 2⟩])],
        [⟨9, 41, 1, 86404, 2⟩]) := by decide +kernel
  intro h
  obtain ⟨initial, stream, left, t, train, valid, h1, h2, h3, h4⟩ := (C133_search { exRunEnv with la := la } exRunArgp_ok
    exSearchEnv exSearchEnv_ok exSearchRun (by decide) _ (by decide) exFixTd (by decide) rfl _).1 h
  have e := Except.ok.inj (h1.symm.trans hd)
  injection e with e1 e2
  subst e1
  obtain ⟨t', ht⟩ : ∃ t, t = [(⟨⟨7, 40, 1, 0, 0⟩, 0⟩ : PRow ℚ), ⟨⟨7, 41, 1, 86401, 1⟩, 1⟩,
    ⟨⟨8, 42, 1, 3, 0⟩, 0⟩, ⟨⟨8, 43, 1, 4, 0⟩, 1⟩, ⟨⟨8, 40, 1, 86402, 1⟩, 2⟩, ⟨⟨9, 42, 1, 2, 0⟩, 0⟩] := ⟨_, rfl⟩
  have h2' : getDfWithCroppedPos (((exSearchData.set 6 ⟨6, ⟨8, 40, 1, 86402, 1⟩⟩).take 7).map IRow.row) 3 true =
    .ok t' := by subst ht; decide +kernel
  have h3' : trainTestSplitP exSearchEnv.stamp t' (4/5) = .ok (t'.filter (fun p => decide (p.row.day < 1)),
    t'.filter (fun p => decide (1 ≤ p.row.day))) := by subst ht; decide +kernel
  obtain rfl := Except.ok.inj (h2'.symm.trans h2)
  have e := Except.ok.inj (h3'.symm.trans h3)
  injection e with e1 e2
  subst e1 ht
  have := (h4 _ (List.mem_singleton.2 rfl) (by decide)).1
  revert this
  decide +kernel

end DynCF
