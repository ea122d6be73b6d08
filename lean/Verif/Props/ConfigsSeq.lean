/- Property C134: what the four configuration files need from the data for the models of sequences. -/
import Verif.Props.Configs
import Verif.Props.TdSearchCompletion

set_option linter.unusedSectionVars false

namespace DynCF
variable {K : Type}

/-! ### Specification -/

/-- The length of sequences and the largest item rank in the grid of a data set. The largest user rank is 256 for all. -/
def Shipped.len (s : Shipped) : ℕ := if s.name = "steam" then 8 else 20
def Shipped.itemRank (s : Shipped) : ℕ := if s.name = "steam" then 100 else 256

/-- The rows of `tdrec.csv` from which a choice can be made: some row has at most five sweeps; for ML-20M the best metric
of such rows is reached by one with an attention parameter other than 0; for AMZ-G two of them have different metrics. -/
def Selectable [LinearOrder K] [Zero K] (name : String) (rows : List (TdRow K)) : Prop :=
  if name = "ml_20m" then ∃ r ∈ rows, r.nIter ≤ 5 ∧ r.attF ≠ 0 ∧ ∀ x ∈ rows, x.nIter ≤ 5 → x.metric ≤ r.metric
  else if name = "amz_g" then ∃ a ∈ rows, ∃ b ∈ rows, a.nIter ≤ 5 ∧ b.nIter ≤ 5 ∧ a.metric ≠ b.metric
  else ∃ r ∈ rows, r.nIter ≤ 5

section
variable [Field K] [LinearOrder K] [IsStrictOrderedRing K]

/-! ### What the files say -/

/-- What the proofs read off the files. -/
structure AgreesSeq (s : Shipped) (c : ConfFile K) : Prop where
  maxLen : c.run.maxLen = s.len
  fixedTd : c.fixedTd = ⟨s.len, 1, 2, true, false⟩
  fixedSvd : c.fixedSvd = ⟨1, 2⟩
  quantile : c.search.quantile = 99 / 100
  tdRanks : c.search.tdRanks = c.tdRanks
  attFs : c.search.attFs ≠ []
  select : ∀ rows : List (TdRow K), (∃ p, getOptimalTdrecParams c.run.dataset rows = .ok p) ↔ Selectable s.name rows
  topRank : ∃ r ∈ c.tdRanks, r.1 = 256
  topItem : ∃ r ∈ c.tdRanks, r.2.1 = s.itemRank
  bounds : ∀ r ∈ c.tdRanks, (r.1 ≤ r.2.1 * r.2.2 ∧ r.2.1 ≤ r.1 * r.2.2 ∧ r.2.2 ≤ r.1 * r.2.1) ∧ 1 ≤ r.1 ∧ r.1 ≤ 256 ∧
    2 ≤ r.2.1 ∧ r.2.1 ≤ s.itemRank ∧ r.2.2 ≤ s.len

theorem select_best (ds : Dataset) (hds : ds = .amzB ∨ ds = .steam) (rows : List (TdRow K)) :
    (∃ p, getOptimalTdrecParams ds rows = .ok p) ↔ ∃ r ∈ rows, r.nIter ≤ 5 := by
  have hal : ∀ r : TdRow K, Allowed ds r ↔ r.nIter ≤ 5 := by
    intro r
    rcases hds with rfl | rfl <;> exact Iff.rfl
  obtain ⟨h1, h2⟩ := C75_tdrec_partial (K := K) ds hds
  constructor
  · rintro ⟨p, hp⟩
    by_contra hn
    rw [h2 rows (by simpa only [hal] using hn)] at hp
    cases hp
  · rintro ⟨r, hr, hr5⟩
    obtain ⟨x, hx, -⟩ := h1 rows ⟨r, hr, (hal r).2 hr5⟩
    exact ⟨_, hx⟩

theorem select_ml20m (rows : List (TdRow K)) :
    (∃ p, getOptimalTdrecParams .ml20m rows = .ok p) ↔
      ∃ r ∈ rows, r.nIter ≤ 5 ∧ r.attF ≠ 0 ∧ ∀ x ∈ rows, x.nIter ≤ 5 → x.metric ≤ r.metric := by
  obtain ⟨h1, h2⟩ := C75_ml20m_partial rows
  have e : (∃ r ∈ rows, Allowed .ml20m r ∧ ∀ x ∈ rows, x.nIter ≤ 5 → x.metric ≤ r.metric) ↔
      ∃ r ∈ rows, r.nIter ≤ 5 ∧ r.attF ≠ 0 ∧ ∀ x ∈ rows, x.nIter ≤ 5 → x.metric ≤ r.metric := by
    unfold Allowed
    simp only [and_assoc]
  rw [← e]
  constructor
  · rintro ⟨p, hp⟩
    by_contra hn
    rw [h2 hn] at hp
    cases hp
  · intro h
    obtain ⟨x, hx, -⟩ := h1 h
    exact ⟨_, hx⟩

theorem select_amzG (rows : List (TdRow K)) :
    (∃ p, getOptimalTdrecParams .amzG rows = .ok p) ↔
      ∃ a ∈ rows, ∃ b ∈ rows, a.nIter ≤ 5 ∧ b.nIter ≤ 5 ∧ a.metric ≠ b.metric := by
  obtain ⟨h1, h2⟩ := C75_amzG_partial rows
  constructor
  · rintro ⟨p, hp⟩
    by_contra hn
    rw [h2 (fun a ha b hb ha5 hb5 => by
      by_contra hne
      exact hn ⟨a, ha, b, hb, ha5, hb5, hne⟩)] at hp
    cases hp
  · intro h
    obtain ⟨x, hx, -⟩ := h1 h
    exact ⟨_, hx⟩

theorem grid_bounds {name : String} {c : ConfFile K} (h : importConfig name.toList = .ok c) (r : ℕ × ℕ × ℕ)
    (hr : r ∈ c.tdRanks) : (r.1 ≤ r.2.1 * r.2.2 ∧ r.2.1 ≤ r.1 * r.2.2 ∧ r.2.2 ≤ r.1 * r.2.1) ∧ 1 ≤ r.1 ∧ r.1 ≤ 256 ∧
    2 ≤ r.2.1 ∧ (r.2.1 ≤ if name = "steam" then 100 else 256) ∧ (r.2.2 ≤ if name = "steam" then 8 else 20) := by
  obtain ⟨-, -, -, h4⟩ := C127_grid name c h
  obtain ⟨h5, h6⟩ := (h4 r).1 hr
  refine ⟨h5, ?_⟩
  obtain ⟨a, b, d⟩ := r
  split at h6 <;> simp only [List.mem_cons, List.not_mem_nil, or_false] at h6 <;> simp only [*, if_true, if_false] <;> omega

theorem shipped_seq (s : Shipped) (hs : s ∈ shippedSets) (c : ConfFile K) (h : importConfig s.name.toList = .ok c) :
    AgreesSeq s c := by
  have hb := grid_bounds h
  obtain ⟨-, -, -, hg⟩ := C127_grid s.name c h
  simp only [shippedSets, List.mem_cons, List.not_mem_nil, or_false] at hs
  rcases hs with rfl | rfl | rfl | rfl
  · have h : Except.ok confMl20m = Except.ok c := h
    have h := Except.ok.inj h
    subst h
    refine ⟨rfl, rfl, rfl, rfl, rfl, by simp [ConfFile.search, confMl20m], fun rows => ?_, ⟨(256, 256, 5), (hg _).2 (by decide), rfl⟩,
      ⟨(256, 256, 5), (hg _).2 (by decide), rfl⟩, hb⟩
    exact select_ml20m rows
  · have h : Except.ok confAmzB = Except.ok c := h
    have h := Except.ok.inj h
    subst h
    refine ⟨rfl, rfl, rfl, rfl, rfl, by simp [ConfFile.search, confAmzB], fun rows => ?_, ⟨(256, 256, 5), (hg _).2 (by decide), rfl⟩,
      ⟨(256, 256, 5), (hg _).2 (by decide), rfl⟩, hb⟩
    exact select_best .amzB (Or.inl rfl) rows
  · have h : Except.ok confAmzG = Except.ok c := h
    have h := Except.ok.inj h
    subst h
    refine ⟨rfl, rfl, rfl, rfl, rfl, by simp [ConfFile.search, confAmzG], fun rows => ?_, ⟨(256, 256, 5), (hg _).2 (by decide), rfl⟩,
      ⟨(256, 256, 5), (hg _).2 (by decide), rfl⟩, hb⟩
    exact select_amzG rows
  · have h : Except.ok confSteam = Except.ok c := h
    have h := Except.ok.inj h
    subst h
    refine ⟨rfl, rfl, rfl, rfl, rfl, by simp [ConfFile.search, confSteam], fun rows => ?_, ⟨(256, 64, 4), (hg _).2 (by decide), rfl⟩,
      ⟨(64, 100, 2), (hg _).2 (by decide), rfl⟩, hb⟩
    exact select_best .steam (Or.inr rfl) rows

/-! ### The search -/

/-- A trial with early stopping records at least one score. -/
theorem search_records {argp : ArgPart K} {metric : List (List ℤ) → List ℤ → PyM K} {valid : List (Row K)} {k : ℕ}
    {relax : ℤ} (hrel : 1 ≤ relax) {c : TDCfg K} (hn : 1 ≤ c.nIter) (hforce : c.force = false) {train : List (PRow K)}
    {s : TDState K} {scores : List K} (h : tdSearchTrain argp metric valid k relax c train = .ok (s, scores)) :
    scores ≠ [] := by
  unfold tdSearchTrain at h
  simp only [bind_ok_iff] at h
  obtain ⟨m, -, r', -, t', -, ⟨⟨f, g⟩, cbEnd⟩, hg, s', -, e⟩ := h
  obtain ⟨kk, F, G, hkk, -, -, -, -, -, -, hcb⟩ := C61_ga_satf_run _ _ _ _ _ _ _ _ _ _ _ _ _ _ _ hg
  obtain ⟨y, b, hy0, hyk, hcall, hbf, hstop⟩ := hcb _ hforce rfl
  have hk1 : 1 ≤ kk := by
    rcases Nat.lt_or_ge kk c.nIter with hlt | hge
    · exact (hstop hlt).1
    · omega
  obtain ⟨-, hlen⟩ := callback_scores _ relax kk F G y b hy0 hcall hbf
  have e := Except.ok.inj e
  injection e with e1 e2
  rw [← e2]
  intro hnil
  dsimp only at hnil
  rw [← hyk] at hnil
  rw [hnil, List.length_nil] at hlen
  split at hlen
  · rename_i hb
    have hkk1 : kk = 1 := by omega
    subst hkk1
    have hc0 := hcall 0 (by omega)
    unfold exitCallback at hc0
    obtain ⟨x, -, hx⟩ := (bind_ok_iff _ _ _).1 hc0
    have hx := Except.ok.inj hx
    rw [hy0] at hx
    unfold cbStep cbStart at hx
    rw [if_neg (by dsimp only; omega)] at hx
    have hb1 : b 1 = false := by
      have := congrArg Prod.fst hx
      split at this <;> exact this.symm
    rw [hb1] at hb
    exact absurd hb.2 (by simp)
  · omega

variable [FloorRing K]

/-- **C134, the search.** For the shipped configurations, with days that grow with time, the search for the parameters of
the sequence models completes if and only if some user has 20 (for Steam 8) rows in the initial part, none of them on a
validation day, the earlier part of the cropped table has at least 256 users and 256 (for Steam 100) items, some row of the
later part has ids known from the earlier one, and every user of such a row has 5 known items without an interaction. -/
theorem C134_search (s : Shipped) (hs : s ∈ shippedSets) (c : ConfFile K) (h : importConfig s.name.toList = .ok c)
    (env : RunEnv K) (hargp : ArgPartOk env.argp) (se : SearchEnv K) (hse : se.Ok) (data : List (IRow K))
    (hidx : Indexed data)
    (hday : ∀ a ∈ (data.take (s.cut data.length)).map IRow.row, ∀ b ∈ (data.take (s.cut data.length)).map IRow.row,
      a.ts ≤ b.ts → a.day ≤ b.day) :
    (∃ rows, hyperparametersSearchTdrec env se c.run c.search c.fixedTd data = .ok rows) ↔
    ∃ t train valid, let initial := (data.take (s.cut data.length)).map IRow.row
      initial ≠ [] ∧ IsCropped s.len initial t ∧ trainTestSplitP se.stamp t (99 / 100) = .ok (train, valid) ∧
      (∃ u, s.len ≤ (rowsOf u initial).length ∧ ∀ r ∈ initial, r.user = u → ∀ p ∈ valid, r.day < p.row.day) ∧
      256 ≤ numUsers (train.map PRow.row) ∧ s.itemRank ≤ numItems (train.map PRow.row) ∧
      (∃ p ∈ valid, KnownFrom (train.map PRow.row) p.row) ∧
      ∀ p ∈ valid, KnownFrom (train.map PRow.row) p.row → 5 ≤ unseenOf (train.map PRow.row) p.row.user := by
  obtain ⟨c', ha⟩ := shipped_agrees (K := K) s hs
  have hcc : c' = c := Except.ok.inj (ha.imports.symm.trans h)
  subst hcc
  have hq := shipped_seq s hs c' h
  obtain ⟨stream, hd, -⟩ := shipped_data ha env.sortDay data hidx
  have hL : 8 ≤ s.len := by unfold Shipped.len; split <;> omega
  have ek : c'.run.topk = 5 := ha.topk
  have hcrop : ∀ t, getDfWithCroppedPos ((data.take (s.cut data.length)).map IRow.row) s.len true = .ok t ↔
      (data.take (s.cut data.length)).map IRow.row ≠ [] ∧ IsCropped s.len ((data.take (s.cut data.length)).map IRow.row) t := by
    intro t
    constructor
    · intro ht
      exact ⟨(crop_ok_inv _ _ _ ht).1, crop_ok_isCropped _ _ _ ht⟩
    · rintro ⟨hne, ht⟩
      obtain ⟨t', h1, h2⟩ := C08_crop ((data.take (s.cut data.length)).map IRow.row) s.len (by omega) hne
      rw [h1, C08_crop_unique s.len _ _ _ h2 ht]
  have hpos : ∀ t train valid, getDfWithCroppedPos ((data.take (s.cut data.length)).map IRow.row) s.len true = .ok t →
      trainTestSplitP se.stamp t (99 / 100 : K) = .ok (train, valid) →
      (((∀ p ∈ train, p.pos < s.len) ∧ ∃ p ∈ train, p.pos + 1 = s.len) ↔
      ∃ u, s.len ≤ (rowsOf u ((data.take (s.cut data.length)).map IRow.row)).length ∧
        ∀ r ∈ (data.take (s.cut data.length)).map IRow.row, r.user = u → ∀ p ∈ valid, r.day < p.row.day) := by
    intro t train valid h1 h2
    obtain ⟨D, g1, g2, g3, -, g4⟩ := C123_tables_partial se.stamp hse.1 _ hday s.len (by omega) t train valid _ h1 h2
    rw [C133_positions s.len D (by omega) _ train valid g4]
    obtain ⟨p0, hp0, hp0D⟩ := g3
    refine exists_congr fun u => and_congr_right fun _ => forall_congr' fun r => forall_congr' fun _ =>
      forall_congr' fun _ => ⟨fun hr p hp => lt_of_lt_of_le hr (g2 p hp), fun hr => by rw [← hp0D]; exact hr p0 hp0⟩
  rw [C133_search env hargp se hse c'.run (by rw [ek]; decide) c'.search
    (fun r hr => (hq.bounds r (by rw [hq.tdRanks] at hr; exact hr)).2.2.2.1) c'.fixedTd
    (by rw [hq.fixedTd]; show 2 ≤ s.len; omega) (by rw [hq.fixedTd])]
  rw [hq.fixedTd, hq.quantile, hq.maxLen, hq.tdRanks, ek]
  have er : c'.run.initRatio = c'.initRatio := rfl
  rw [er]
  constructor
  · rintro ⟨initial, stream', left, t, train, valid, h1, h2, h3, h4⟩
    have e := Except.ok.inj (h1.symm.trans hd)
    injection e with e1 e2
    subst e1
    obtain ⟨r0, m1, m2⟩ := hq.topRank
    obtain ⟨r1, m3, m4⟩ := hq.topItem
    obtain ⟨k1, k2, k3⟩ := h4 r0 m1 hq.attFs
    obtain ⟨-, k4, -⟩ := h4 r1 m3 hq.attFs
    obtain ⟨g1, g2⟩ := (hcrop t).1 h2
    exact ⟨t, train, valid, g1, g2, h3, (hpos t train valid h2 h3).1 k1, by rw [← m2]; exact k2.2.1, by rw [← m4]; exact k4.2.2.1,
      k3⟩
  · rintro ⟨t, train, valid, g1, g2, h3, k1, k2, k3, k4⟩
    have h2 := (hcrop t).2 ⟨g1, g2⟩
    refine ⟨_, stream, _, t, train, valid, hd, h2, h3, fun r hr _ => ?_⟩
    obtain ⟨b1, b2, b3, b4, b5, b6⟩ := hq.bounds r hr
    exact ⟨(hpos t train valid h2 h3).2 k1, ⟨b1, by omega, by omega, b6⟩, k4⟩

/-- What a completed search says about the initial table of the experiment. -/
theorem searched_table (s : Shipped) (hs : s ∈ shippedSets) (c : ConfFile K) (h : importConfig s.name.toList = .ok c)
    (env : RunEnv K) (hargp : ArgPartOk env.argp) (se : SearchEnv K) (hse : se.Ok) (data : List (IRow K))
    (hidx : Indexed data) (rows : List (TdRow K))
    (hr : hyperparametersSearchTdrec env se c.run c.search c.fixedTd data = .ok rows) :
    LongestIs s.len s.len ((data.take (s.cut data.length)).map IRow.row) ∧
    ∀ t, IsCropped s.len ((data.take (s.cut data.length)).map IRow.row) t → ∀ r ∈ c.tdRanks,
      RankFits r (numUsers (t.map PRow.row)) (numItems (t.map PRow.row)) s.len := by
  obtain ⟨c', ha⟩ := shipped_agrees (K := K) s hs
  have hcc : c' = c := Except.ok.inj (ha.imports.symm.trans h)
  subst hcc
  have hq := shipped_seq s hs c' h
  obtain ⟨stream, hd, -⟩ := shipped_data ha env.sortDay data hidx
  have hL : 8 ≤ s.len := by unfold Shipped.len; split <;> omega
  obtain ⟨initial, stream', left, t, train, valid, h1, h2, h3, h4⟩ := (C133_search env hargp se hse c'.run
    (by show 1 ≤ c'.topk; rw [ha.topk]; decide) c'.search
    (fun r hr => (hq.bounds r (by rw [hq.tdRanks] at hr; exact hr)).2.2.2.1) c'.fixedTd
    (by rw [hq.fixedTd]; show 2 ≤ s.len; omega) (by rw [hq.fixedTd]) data).1 ⟨rows, hr⟩
  have e := Except.ok.inj (h1.symm.trans hd)
  injection e with e1 e2
  subst e1
  rw [hq.maxLen] at h2
  rw [hq.fixedTd, hq.tdRanks] at h4
  obtain ⟨hcr, hsub, -⟩ := cropped_split hse.1 h2 h3
  have hcard : ∀ f : Row K → ℤ, ((train.map PRow.row).map f).toFinset.card ≤ ((t.map PRow.row).map f).toFinset.card := by
    intro f
    refine Finset.card_le_card ?_
    intro x hx
    rw [List.mem_toFinset, List.map_map, List.mem_map] at hx ⊢
    obtain ⟨r, hr, rfl⟩ := hx
    exact ⟨r, hsub r hr, rfl⟩
  constructor
  · obtain ⟨r, m1, -⟩ := hq.topRank
    obtain ⟨⟨-, p, hp, hpp⟩, -⟩ := h4 r m1 hq.attFs
    refine (cropped_full (by omega) hcr).1 ⟨fun x hx => ?_, p, hsub p hp, hpp⟩
    have := ((cropped_pos hcr).1 x hx).2
    omega
  · intro t' ht' r hr
    obtain rfl := C08_crop_unique s.len _ _ _ ht' hcr
    obtain ⟨-, ⟨q1, q2, q3, q4⟩, -⟩ := h4 r hr hq.attFs
    exact ⟨q1, le_trans q2 (hcard Row.user), le_trans q3 (hcard Row.item), q4⟩

/-- **C134, the choice.** From the rows of a completed search parameters can be chosen for AMZ-B and Steam; for ML-20M
exactly if the best metric of the rows with at most five sweeps is reached by one with an attention parameter other than
0, and for AMZ-G exactly if two of these rows have different metrics. The rank chosen is one of the grid. -/
theorem C134_selected (s : Shipped) (hs : s ∈ shippedSets) (c : ConfFile K) (h : importConfig s.name.toList = .ok c)
    (env : RunEnv K) (se : SearchEnv K) (hse : se.Ok) (data : List (IRow K)) (rows : List (TdRow K))
    (hr : hyperparametersSearchTdrec env se c.run c.search c.fixedTd data = .ok rows) :
    (s.name ∈ ["amz_b", "steam"] → ∃ p, getOptimalTdrecParams c.run.dataset rows = .ok p) ∧
    ((∃ p, getOptimalTdrecParams c.run.dataset rows = .ok p) ↔ Selectable s.name rows) ∧
    ∀ rank f n, getOptimalTdrecParams c.run.dataset rows = .ok (rank, f, n) →
      ∃ r ∈ c.tdRanks, rank = [(r.1 : ℤ), (r.2.1 : ℤ), (r.2.2 : ℤ)] := by
  have hq := shipped_seq s hs c h
  obtain ⟨initial, stream, left, t, train, valid, -, -, -, g1, g2⟩ := searchTd_rows hse hr
  rw [hq.tdRanks] at g1 g2
  refine ⟨fun hn => (hq.select rows).2 ?_, hq.select rows, ?_⟩
  · have e1 : s.name ≠ "ml_20m" := by
      rintro e
      rw [e] at hn
      exact absurd hn (by decide)
    have e2 : s.name ≠ "amz_g" := by
      rintro e
      rw [e] at hn
      exact absurd hn (by decide)
    unfold Selectable
    rw [if_neg e1, if_neg e2]
    obtain ⟨r, m1, -⟩ := hq.topRank
    obtain ⟨a, ma⟩ := List.exists_mem_of_ne_nil _ hq.attFs
    obtain ⟨l, hl⟩ := g1 r m1 a ma
    have hne : l ≠ [] := by
      unfold tdSearchScores at hl
      obtain ⟨⟨s', l'⟩, h3, h4⟩ := (bind_ok_iff _ _ _).1 hl
      have h4 := Except.ok.inj h4
      rw [← h4]
      exact search_records (by omega) (by show 1 ≤ 25; omega) (by show c.fixedTd.force = false; rw [hq.fixedTd]) h3
    obtain ⟨x, l', rfl⟩ := List.exists_cons_of_ne_nil hne
    exact ⟨_, (g2 ⟨_, a, (1 : ℕ), x⟩).2 ⟨r, m1, a, ma, 1, x, _, le_refl _, rfl, hl, rfl⟩, by show ((1 : ℕ) : ℤ) ≤ 5; omega⟩
  · intro rank f n hsel
    obtain ⟨row, hrow, rfl, -⟩ := selected_sweeps hsel
    obtain ⟨r, m1, a, -, n', x, l, -, rfl, -⟩ := (g2 row).1 hrow
    exact ⟨r, m1, rfl⟩

/-! ### The experiment -/

theorem rowsOf_append_le (u : ℤ) (a b : List (Row K)) : (rowsOf u a).length ≤ (rowsOf u (a ++ b)).length := by
  unfold rowsOf
  rw [List.filter_append, List.length_append]
  omega

theorem longestIs_append {L : ℕ} {a : List (Row K)} (b : List (Row K)) (h : LongestIs L L a) : LongestIs L L (a ++ b) := by
  obtain ⟨-, u, hu⟩ := h
  refine ⟨fun u => by omega, u, ?_⟩
  have := rowsOf_append_le u a b
  omega

/-- **C134, TDRecReinit.** After a completed search from which `r` has been chosen, lengths and ranks are no reason to
fail: the experiment completes exactly if every table after the first keeps an item as in `KeepsItem` and every step can
be done. -/
theorem C134_tdrec_reinit (s : Shipped) (hs : s ∈ shippedSets) (c : ConfFile K)
    (h : importConfig s.name.toList = .ok c) (env : RunEnv K) (hargp : ArgPartOk env.argp)
    (hperm : ∀ l, (env.sortCnt l).Perm l) (se : SearchEnv K) (hse : se.Ok) (data : List (IRow K)) (hidx : Indexed data)
    (rows : List (TdRow K)) (hr : hyperparametersSearchTdrec env se c.run c.search c.fixedTd data = .ok rows)
    (r : ℕ × ℕ × ℕ) (f : K) (n : ℤ)
    (hsel : getOptimalTdrecParams c.run.dataset rows = .ok ([(r.1 : ℤ), (r.2.1 : ℤ), (r.2.2 : ℤ)], f, n)) :
    (∃ d, runScript { env with tdCsv := rows } c.run c.fixedSvd c.fixedTd "TDRecReinit" data = .ok d) ↔
      ∃ stream chunks tab, let initial := (data.take (s.cut data.length)).map IRow.row
        let tests := getUsersStability env.sortCnt initial ((data.drop (s.cut data.length)).map IRow.row) s.steps
        prepareDataForExperiment env.sortDay data c.initRatio none =
          .ok (initial, stream, (data.drop (s.cut data.length)).map IRow.row) ∧
        chunks = (stream.map Prod.snd).take (expSteps s.steps stream.length) ∧
        (∀ i ≤ chunks.length, IsCropped s.len (initial ++ (chunks.take i).flatten) (tab i)) ∧
        (∀ i < chunks.length, KeepsItem (rowsUpTo tab i) (tab (i + 1))) ∧
        (∀ (i : ℕ) (ch : List (Row K)), chunks[i]? = some ch →
          StepRunsOn 5 tests (rowsUpTo tab i) ((tab i).map PRow.row) ch) ∧
        (2 ≤ chunks.length → tests ≠ []) := by
  obtain ⟨c', ha⟩ := shipped_agrees (K := K) s hs
  have hcc : c' = c := Except.ok.inj (ha.imports.symm.trans h)
  subst hcc
  have hq := shipped_seq s hs c' h
  obtain ⟨stream, hd, -⟩ := shipped_data ha env.sortDay data hidx
  obtain ⟨hlong, hfit⟩ := searched_table s hs c' h env hargp se hse data hidx rows hr
  obtain ⟨r', hr', er⟩ := (C134_selected s hs c' h env se hse data rows hr).2.2 _ _ _ hsel
  have hrr : r = r' := by
    simp only [List.cons.injEq, Nat.cast_inj, and_true] at er
    exact Prod.ext er.1 (Prod.ext er.2.1 er.2.2)
  subst hrr
  have hL : 8 ≤ s.len := by unfold Shipped.len; split <;> omega
  have eh : c'.run.howMany = (s.steps : ℤ) := congrArg (Nat.cast : ℕ → ℤ) ha.steps
  have ek : c'.run.topk = 5 := ha.topk
  have em : c'.run.hmMin = none := ha.hmMin
  have ei : c'.run.initRatio = c'.initRatio := rfl
  have el := hq.maxLen
  have ef : c'.fixedTd.seqLen = s.len := by rw [hq.fixedTd]
  rw [C132_tdrec_reinit { env with tdCsv := rows } c'.run c'.fixedSvd c'.fixedTd data ⟨hargp, hperm, by rw [ek]; decide,
    by omega, ?_⟩]
  · unfold ReinitNeeds
    simp only [eh, ek, em, ei, el, ef]
    constructor
    · rintro ⟨initial, stream, left, chunks, r', f', n', tab, h1, h2, -, h3, -, h4, h5, h6⟩
      have e := Except.ok.inj (h1.symm.trans hd)
      injection e with e1 e2
      injection e2 with e2 e3
      subst e1 e3
      exact ⟨stream, chunks, tab, h1, h2, fun i hi => (h3 i hi).1, h4, h5, h6⟩
    · rintro ⟨stream, chunks, tab, h1, h2, h3, h4, h5, h6⟩
      refine ⟨_, stream, _, chunks, r, f, n, tab, h1, h2, hsel, fun i hi => ⟨h3 i hi, longestIs_append _ hlong⟩, ?_, h4, h5, h6⟩
      have := h3 0 (by omega)
      rw [List.take_zero, List.flatten_nil, List.append_nil] at this
      exact hfit _ this r hr'
  · intro initial stream' left t h1 ht
    rw [em, ei] at h1
    rw [el] at ht
    have e := Except.ok.inj (h1.symm.trans hd)
    injection e with e1 e2
    subst e1
    have := (hfit t ht r hr').2.2.1
    have := (hq.bounds r hr').2.2.2.1
    omega

/-- **C134, TDRec.** If the cropped tables never lose items, the experiment with `TDRec` completes exactly if every step
can be done and the last table still has as many items as the chosen rank asks for. -/
theorem C134_tdrec (s : Shipped) (hs : s ∈ shippedSets) (c : ConfFile K)
    (h : importConfig s.name.toList = .ok c) (env : RunEnv K) (hargp : ArgPartOk env.argp)
    (hperm : ∀ l, (env.sortCnt l).Perm l) (se : SearchEnv K) (hse : se.Ok) (data : List (IRow K)) (hidx : Indexed data)
    (rows : List (TdRow K)) (hr : hyperparametersSearchTdrec env se c.run c.search c.fixedTd data = .ok rows)
    (r : ℕ × ℕ × ℕ) (f : K) (n : ℤ)
    (hsel : getOptimalTdrecParams c.run.dataset rows = .ok ([(r.1 : ℤ), (r.2.1 : ℤ), (r.2.2 : ℤ)], f, n))
    (hstay : ∀ initial stream left, prepareDataForExperiment env.sortDay data c.initRatio none = .ok (initial, stream, left) →
      ItemsStay s.len (expSteps s.steps stream.length) initial (stream.map Prod.snd)) :
    (∃ d, runScript { env with tdCsv := rows } c.run c.fixedSvd c.fixedTd "TDRec" data = .ok d) ↔
      ∃ stream chunks, let initial := (data.take (s.cut data.length)).map IRow.row
        let tests := getUsersStability env.sortCnt initial ((data.drop (s.cut data.length)).map IRow.row) s.steps
        prepareDataForExperiment env.sortDay data c.initRatio none =
          .ok (initial, stream, (data.drop (s.cut data.length)).map IRow.row) ∧
        chunks = (stream.map Prod.snd).take (expSteps s.steps stream.length) ∧
        (∀ i ≤ chunks.length, ∃ t : List (PRow K), IsCropped s.len (initial ++ (chunks.take i).flatten) t ∧
          (i = chunks.length → r.2.1 ≤ numItems (t.map PRow.row)) ∧
          ∀ ch, chunks[i]? = some ch → StepRuns 5 tests (t.map PRow.row) ch) ∧
        (2 ≤ chunks.length → tests ≠ []) := by
  obtain ⟨c', ha⟩ := shipped_agrees (K := K) s hs
  have hcc : c' = c := Except.ok.inj (ha.imports.symm.trans h)
  subst hcc
  have hq := shipped_seq s hs c' h
  obtain ⟨stream, hd, -⟩ := shipped_data ha env.sortDay data hidx
  obtain ⟨hlong, hfit⟩ := searched_table s hs c' h env hargp se hse data hidx rows hr
  obtain ⟨r', hr', er⟩ := (C134_selected s hs c' h env se hse data rows hr).2.2 _ _ _ hsel
  have hrr : r = r' := by
    simp only [List.cons.injEq, Nat.cast_inj, and_true] at er
    exact Prod.ext er.1 (Prod.ext er.2.1 er.2.2)
  subst hrr
  have hL : 8 ≤ s.len := by unfold Shipped.len; split <;> omega
  have eh : c'.run.howMany = (s.steps : ℤ) := congrArg (Nat.cast : ℕ → ℤ) ha.steps
  have ek : c'.run.topk = 5 := ha.topk
  have em : c'.run.hmMin = none := ha.hmMin
  have ei : c'.run.initRatio = c'.initRatio := rfl
  have el := hq.maxLen
  have ef : c'.fixedTd.seqLen = s.len := by rw [hq.fixedTd]
  have hne : (data.take (s.cut data.length)).map IRow.row ≠ [] := by
    intro e
    obtain ⟨-, u, hu⟩ := hlong
    rw [e] at hu
    simp [rowsOf] at hu
    omega
  rw [C131_tdrec { env with tdCsv := rows } c'.run c'.fixedSvd c'.fixedTd data ⟨hargp, hperm, by rw [ek]; decide,
    by omega, ?_, ?_⟩]
  · unfold RetrainNeeds
    simp only [eh, ek, em, ei, el, ef]
    constructor
    · rintro ⟨initial, stream, left, chunks, r', f', n', h1, h2, h3, h4, h6⟩
      have e := Except.ok.inj (h1.symm.trans hd)
      injection e with e1 e2
      injection e2 with e2 e3
      subst e1 e3
      have e4 := Except.ok.inj (h3.symm.trans hsel)
      simp only [Prod.mk.injEq, List.cons.injEq, Nat.cast_inj, and_true] at e4
      refine ⟨stream, chunks, h1, h2, fun i hi => ?_, h6⟩
      obtain ⟨t, k1, -, k2, k3⟩ := h4 i hi
      exact ⟨t, k1, fun _ => by rw [← e4.1.2.1]; exact k2.2.2.1, k3⟩
    · rintro ⟨stream, chunks, h1, h2, h3, h6⟩
      refine ⟨_, stream, _, chunks, r, f, n, h1, h2, hsel, fun i hi => ?_, h6⟩
      obtain ⟨t, k1, k2, k3⟩ := h3 i hi
      obtain ⟨t0, -, g0⟩ := cropped_exists (L := s.len) (by omega) hne
      have q := hfit t0 g0 r hr'
      refine ⟨t, k1, longestIs_append _ hlong, ⟨q.1, le_trans q.2.1 (cropped_users_le (by omega) g0 k1), ?_, q.2.2.2⟩, k3⟩
      rcases Nat.lt_or_ge i chunks.length with hlt | hge
      · refine le_trans q.2.2.1 ?_
        have hst := itemsStay_congr (hstay _ _ _ h1) (by rw [List.length_map]; exact expSteps_le _ _)
        rw [← h2] at hst
        clear * - hst hlt hne k1 g0 hL
        have key : ∀ (j : ℕ) (t : List (PRow K)), j < chunks.length →
            IsCropped s.len ((data.take (s.cut data.length)).map IRow.row ++ (chunks.take j).flatten) t →
            numItems (t0.map PRow.row) ≤ numItems (t.map PRow.row) := by
          intro j
          induction j with
          | zero =>
            intro t _ ht
            rw [List.take_zero, List.flatten_nil, List.append_nil] at ht
            rw [C08_crop_unique s.len _ _ _ ht g0]
          | succ j ih =>
            intro t hj ht
            obtain ⟨t1, -, g1⟩ := cropped_exists (L := s.len)
              (a := (data.take (s.cut data.length)).map IRow.row ++ (chunks.take j).flatten) (by omega) (List.append_ne_nil_of_left_ne_nil hne _)
            exact le_trans (ih t1 (by omega) g1) (hst j t1 t hj g1 ht)
        exact key i t hlt k1
      · exact k2 (by omega)
  · intro initial stream' left t h1 ht
    rw [em, ei] at h1
    rw [el] at ht
    have e := Except.ok.inj (h1.symm.trans hd)
    injection e with e1 e2
    subst e1
    have := (hfit t ht r hr').2.2.1
    have := (hq.bounds r hr').2.2.2.1
    omega
  · intro initial stream' left h1
    rw [em, ei] at h1
    rw [el, eh]
    exact hstay _ _ _ h1

/-- **C134, TIRec and TIRecA.** The experiment completes exactly if every step can be done, every chunk changes the last
items of some user and, for `TIRec`, no chunk brings too many new users or items. -/
theorem C134_tirec (s : Shipped) (hs : s ∈ shippedSets) (c : ConfFile K)
    (h : importConfig s.name.toList = .ok c) (env : RunEnv K) (hargp : ArgPartOk env.argp) (hqr : QrAlways env.la)
    (hperm : ∀ l, (env.sortCnt l).Perm l) (se : SearchEnv K) (hse : se.Ok) (data : List (IRow K)) (hidx : Indexed data)
    (rows : List (TdRow K)) (hr : hyperparametersSearchTdrec env se c.run c.search c.fixedTd data = .ok rows)
    (hsel : ∃ p, getOptimalTdrecParams c.run.dataset rows = .ok p) (name : String) (hn : name = "TIRec" ∨ name = "TIRecA") :
    (∃ d, runScript { env with tdCsv := rows } c.run c.fixedSvd c.fixedTd name data = .ok d) ↔
      ∃ stream chunks, ∃ (t : List (PRow K)) (crops : List (List (PRow K))),
        let initial := (data.take (s.cut data.length)).map IRow.row
        let tests := getUsersStability env.sortCnt initial ((data.drop (s.cut data.length)).map IRow.row) s.steps
        prepareDataForExperiment env.sortDay data c.initRatio none =
          .ok (initial, stream, (data.drop (s.cut data.length)).map IRow.row) ∧
        chunks = (stream.map Prod.snd).take (expSteps s.steps stream.length) ∧
        IsCropped s.len initial t ∧ List.Forall₂ (IsCropped s.len) chunks crops ∧
        (∀ (i : ℕ) (ch : List (Row K)) (cr : List (PRow K)), chunks[i]? = some ch → crops[i]? = some cr →
          StepRuns 5 tests ((t ++ (crops.take i).flatten).map PRow.row) ch ∧
          WindowMoves s.len ((t ++ (crops.take i).flatten).map PRow.row) (cr.map PRow.row) ∧
          (name = "TIRec" → TIRecFits s.len ((t ++ (crops.take i).flatten).map PRow.row) (cr.map PRow.row))) ∧
        (2 ≤ chunks.length → tests ≠ []) := by
  obtain ⟨c', ha⟩ := shipped_agrees (K := K) s hs
  have hcc : c' = c := Except.ok.inj (ha.imports.symm.trans h)
  subst hcc
  have hq := shipped_seq s hs c' h
  obtain ⟨stream, hd, -⟩ := shipped_data ha env.sortDay data hidx
  obtain ⟨hlong, hfit⟩ := searched_table s hs c' h env hargp se hse data hidx rows hr
  have hgrid := (C134_selected s hs c' h env se hse data rows hr).2.2
  obtain ⟨⟨rank, f, n⟩, hsel⟩ := hsel
  obtain ⟨r, hr', rfl⟩ := hgrid _ _ _ hsel
  have hL : 8 ≤ s.len := by unfold Shipped.len; split <;> omega
  have eh : c'.run.howMany = (s.steps : ℤ) := congrArg (Nat.cast : ℕ → ℤ) ha.steps
  have ek : c'.run.topk = 5 := ha.topk
  have em : c'.run.hmMin = none := ha.hmMin
  have ei : c'.run.initRatio = c'.initRatio := rfl
  have el := hq.maxLen
  have ef : c'.fixedTd.seqLen = s.len := by rw [hq.fixedTd]
  have hass : SeqAssumed { env with tdCsv := rows } c'.run c'.fixedTd data := by
    refine ⟨hargp, hperm, by rw [ek]; decide, by omega, hqr, ?_, ?_⟩
    · intro r1 r2 r3 f' n' e
      have e := Except.ok.inj (e.symm.trans hsel)
      simp only [Prod.mk.injEq, List.cons.injEq, Nat.cast_inj, and_true] at e
      have b := hq.bounds r hr'
      omega
    · intro initial stream' left t h1 ht
      change prepareDataForExperiment env.sortDay data c'.run.initRatio c'.run.hmMin = _ at h1
      rw [em, ei] at h1
      rw [el] at ht
      have e := Except.ok.inj (h1.symm.trans hd)
      injection e with e1 e2
      subst e1
      have := (hfit t ht r hr').2.2.1
      have := (hq.bounds r hr').2.2.2.1
      omega
  have hmain : ∀ A : List (Row K) → List (Row K) → Prop,
      SeqScriptNeeds { env with tdCsv := rows } c'.run c'.fixedTd data A ↔
      ∃ stream chunks, ∃ (t : List (PRow K)) (crops : List (List (PRow K))),
        let initial := (data.take (s.cut data.length)).map IRow.row
        let tests := getUsersStability env.sortCnt initial ((data.drop (s.cut data.length)).map IRow.row) s.steps
        prepareDataForExperiment env.sortDay data c'.initRatio none =
          .ok (initial, stream, (data.drop (s.cut data.length)).map IRow.row) ∧
        chunks = (stream.map Prod.snd).take (expSteps s.steps stream.length) ∧
        IsCropped s.len initial t ∧ List.Forall₂ (IsCropped s.len) chunks crops ∧
        (∀ (i : ℕ) (ch : List (Row K)) (cr : List (PRow K)), chunks[i]? = some ch → crops[i]? = some cr →
          StepRuns 5 tests ((t ++ (crops.take i).flatten).map PRow.row) ch ∧
          A ((t ++ (crops.take i).flatten).map PRow.row) (cr.map PRow.row)) ∧
        (2 ≤ chunks.length → tests ≠ []) := by
    intro A
    unfold SeqScriptNeeds
    simp only [eh, ek, em, ei, el, ef]
    constructor
    · rintro ⟨initial, stream, left, chunks, t, crops, r', f', n', h1, h2, -, h3, h4, -, -, h5, h6⟩
      have e := Except.ok.inj (h1.symm.trans hd)
      injection e with e1 e2
      injection e2 with e2 e3
      subst e1 e3
      exact ⟨stream, chunks, t, crops, h1, h2, h3, h4, h5, h6⟩
    · rintro ⟨stream, chunks, t, crops, h1, h2, h3, h4, h5, h6⟩
      exact ⟨_, stream, _, chunks, t, crops, r, f, n, h1, h2, hsel, h3, h4, hlong, hfit t h3 r hr', h5, h6⟩
  rcases hn with rfl | rfl
  · rw [C130_tirec _ _ _ _ _ hass, hmain]
    simp only [ef, true_implies]
  · rw [C130_tireca _ _ _ _ _ hass, hmain]
    simp [ef]

/-! ### The objects -/

/-- **C134, the objects.** With the settings of a file, `PSIRec` and `SVD` are built with the selected rank, one power
iteration, two extra dimensions, no start values for new entities and no integrator; the models of sequences with the
length of the data set, one power iteration, two extra dimensions, in parallel, for 25 sweeps and with early stopping. -/
theorem C134_objects (s : Shipped) (hs : s ∈ shippedSets) (c : ConfFile K) (h : importConfig s.name.toList = .ok c)
    (P : PipeEnv K) (arg : Str) (name : String) (p : Prepared K) :
    let Q := P.withConf c arg
    (name ∈ ["SVD", "PSIRec"] → prepareModel Q.env { Q.cfg with fixedSvd := some Q.fs } name = .ok p →
      ∃ r, p.obj = (if name = "SVD" then .svd ⟨r, 1, 2, none, false⟩ else .psi ⟨r, 1, 2, none, false⟩) ∧
        getOptimalSvdRank Q.cfg.dataset Q.env.svdCsv = .ok (r : ℤ)) ∧
    (name ∈ ["TDRec", "TDRecReinit", "TIRec", "TIRecA"] →
      prepareModel Q.env { Q.cfg with fixedTd := some Q.ft } name = .ok p →
      p.maxLen = some s.len ∧ ∃ (x : TDCfg K) (m : TDAtt K),
        (p.obj = .td x m ∨ p.obj = .tdRe x m ∨ ∃ y : TICfg K, y.td = x ∧ (p.obj = .ti y m ∨ p.obj = .tiA y m)) ∧
        x.seqLen = s.len ∧ x.hooi.nPower = 1 ∧ x.hooi.os = 2 ∧ x.hooi.parallel = true ∧ x.nIter = 25 ∧ x.force = false) := by
  intro Q
  have hq := shipped_seq s hs c h
  constructor
  · intro hn hp
    have key : ∀ x, prepSvdCfg Q.env { Q.cfg with fixedSvd := some Q.fs } = .ok x →
        ∃ r : ℕ, x = ⟨r, 1, 2, none, false⟩ ∧ getOptimalSvdRank Q.cfg.dataset Q.env.svdCsv = .ok (r : ℤ) := by
      intro x hx
      unfold prepSvdCfg at hx
      obtain ⟨r, h1, hx⟩ := (bind_ok_iff _ _ _).1 hx
      obtain ⟨fs, h2, hx⟩ := (bind_ok_iff _ _ _).1 hx
      obtain ⟨r', h3, hx⟩ := (bind_ok_iff _ _ _).1 hx
      have h2 : Except.ok c.fixedSvd = Except.ok fs := h2
      have h2 := Except.ok.inj h2
      rw [hq.fixedSvd] at h2
      subst h2
      have hx := Except.ok.inj hx
      unfold natRank at h3
      split at h3
      · have h3 := Except.ok.inj h3
        refine ⟨r', hx.symm, ?_⟩
        have : r = (r' : ℤ) := by omega
        rw [← this]
        exact h1
      · cases h3
    simp only [List.mem_cons, List.not_mem_nil, or_false] at hn
    rcases hn with rfl | rfl
    · obtain ⟨x, hx, e⟩ := (bind_ok_iff _ _ _).1 (show prepareSvd Q.env _ = .ok p from hp)
      have e := Except.ok.inj e
      subst e
      obtain ⟨r, rfl, hr⟩ := key x hx
      exact ⟨r, rfl, hr⟩
    · obtain ⟨x, hx, e⟩ := (bind_ok_iff _ _ _).1 (show preparePsi Q.env _ = .ok p from hp)
      have e := Except.ok.inj e
      subst e
      obtain ⟨r, rfl, hr⟩ := key x hx
      exact ⟨r, rfl, hr⟩
  · intro hn hp
    have key : ∀ x, prepTdCfg Q.env { Q.cfg with fixedTd := some Q.ft } = .ok x →
        x.seqLen = s.len ∧ x.hooi.nPower = 1 ∧ x.hooi.os = 2 ∧ x.hooi.parallel = true ∧ x.nIter = 25 ∧ x.force = false := by
      intro x hx
      unfold prepTdCfg at hx
      obtain ⟨r, h1, hx⟩ := (bind_ok_iff _ _ _).1 hx
      obtain ⟨ft, h2, hx⟩ := (bind_ok_iff _ _ _).1 hx
      obtain ⟨r', h3, hx⟩ := (bind_ok_iff _ _ _).1 hx
      have h2 : Except.ok c.fixedTd = Except.ok ft := h2
      have h2 := Except.ok.inj h2
      rw [hq.fixedTd] at h2
      subst h2
      have hx := Except.ok.inj hx
      subst hx
      exact ⟨rfl, rfl, rfl, rfl, rfl, rfl⟩
    have hml : Q.cfg.maxLen = s.len := hq.maxLen
    simp only [List.mem_cons, List.not_mem_nil, or_false] at hn
    rcases hn with rfl | rfl | rfl | rfl
    · obtain ⟨x, hx, e⟩ := (bind_ok_iff _ _ _).1 (show prepareTd Q.env _ = .ok p from hp)
      obtain ⟨m, hm, e⟩ := (bind_ok_iff _ _ _).1 e
      have e := Except.ok.inj e
      subst e
      exact ⟨congrArg some hml, x, m, Or.inl rfl, key x hx⟩
    · obtain ⟨x, hx, e⟩ := (bind_ok_iff _ _ _).1 (show prepareTdRe Q.env _ = .ok p from hp)
      obtain ⟨m, hm, e⟩ := (bind_ok_iff _ _ _).1 e
      have e := Except.ok.inj e
      subst e
      exact ⟨congrArg some hml, x, m, Or.inr (Or.inl rfl), key x hx⟩
    · obtain ⟨x, hx, e⟩ := (bind_ok_iff _ _ _).1 (show prepareTi Q.env _ = .ok p from hp)
      obtain ⟨m, hm, e⟩ := (bind_ok_iff _ _ _).1 e
      have e := Except.ok.inj e
      subst e
      exact ⟨congrArg some hml, x, m, Or.inr (Or.inr ⟨prepTiCfg Q.env x, rfl, Or.inl rfl⟩), key x hx⟩
    · obtain ⟨x, hx, e⟩ := (bind_ok_iff _ _ _).1 (show prepareTiA Q.env _ = .ok p from hp)
      obtain ⟨m, hm, e⟩ := (bind_ok_iff _ _ _).1 e
      have e := Except.ok.inj e
      subst e
      exact ⟨congrArg some hml, x, m, Or.inr (Or.inr ⟨prepTiCfg Q.env x, rfl, Or.inr rfl⟩), key x hx⟩

end

/-! ### Examples -/

/-- 375 rows: 260 on day 0, each of another user, with 128 items in turn; 36 more on day 0 of the users 0 to 3; four on day
1 of user 10; and 75 on day 2 of the users 1 and 2, the last with a new item. -/
@[irreducible] def exSteam : List (IRow ℚ) := (List.range 375).map fun i : ℕ =>
  ⟨(i : ℤ), if i < 260 then ⟨i, i % 128, 1, i, 0⟩ else if i < 296 then ⟨i % 4, i % 128, 1, i, 0⟩
    else if i < 300 then ⟨10, i % 128, 1, 86400 + i, 1⟩ else if i = 374 then ⟨1, 500, 1, 172800 + i, 2⟩
    else ⟨1 + (i : ℤ) % 2, 20, 1, 172800 + i, 2⟩⟩

def exSteamSet : Shipped := ⟨"steam", 8, 50, 390⟩

theorem exSteam_length : exSteam.length = 375 := by rw [exSteam, List.length_map, List.length_range]

theorem exSteam_cut : exSteamSet.cut exSteam.length = 300 := by rw [exSteam_length]; rfl

theorem exSteam_indexed : Indexed exSteam := indexed_of_map (by decide +kernel)

/-- The table of the initial part: the last eight rows of the users 0 to 3, the only rows of the users 4 to 259 and the
later ones of user 10. -/
@[irreducible] def exSteamTab : List (PRow ℚ) :=
  ((List.range 32).map fun j : ℕ => ⟨⟨(j / 8 : ℕ), ((264 + j / 8 + 4 * (j % 8)) % 128 : ℕ), 1, (264 + j / 8 + 4 * (j % 8) : ℕ), 0⟩, (j % 8 : ℕ)⟩) ++
  ((List.range 7).map fun j : ℕ => ⟨⟨(4 + j : ℕ), (4 + j : ℕ), 1, (4 + j : ℕ), 0⟩, 0⟩) ++
  ((List.range 4).map fun j : ℕ => ⟨⟨10, (40 + j : ℕ), 1, (86696 + j : ℕ), 1⟩, (1 + j : ℕ)⟩) ++
  (List.range 249).map fun j : ℕ => ⟨⟨(11 + j : ℕ), ((11 + j) % 128 : ℕ), 1, (11 + j : ℕ), 0⟩, 0⟩

theorem exSteamTab_eq : getDfWithCroppedPos ((exSteam.take 300).map IRow.row) 8 true = .ok exSteamTab := by decide +kernel

theorem exSteamTab_cropped : IsCropped 8 ((exSteam.take 300).map IRow.row) exSteamTab :=
  crop_ok_isCropped _ _ _ exSteamTab_eq

theorem exSteam_days : ∀ a ∈ (exSteam.take 300).map IRow.row, ∀ b ∈ (exSteam.take 300).map IRow.row,
    a.ts ≤ b.ts → a.day ≤ b.day := by
  have h : ∀ a ∈ (exSteam.take 300).map IRow.row, a.day = if 86400 ≤ a.ts then 1 else 0 := by decide +kernel
  intro a ha b hb hab
  rw [h a ha, h b hb]
  split <;> split <;> omega

@[irreducible] def exSteamTrain : List (PRow ℚ) := exSteamTab.filter fun p => decide (p.row.day < 1)
@[irreducible] def exSteamValid : List (PRow ℚ) := exSteamTab.filter fun p => decide (1 ≤ p.row.day)

theorem exSteam_split : trainTestSplitP exSearchEnv.stamp exSteamTab (99 / 100) = .ok (exSteamTrain, exSteamValid) := by
  decide +kernel

theorem exSteam_user : 8 ≤ (rowsOf 0 ((exSteam.take 300).map IRow.row)).length := by decide +kernel
theorem exSteam_user_day : ∀ r ∈ (exSteam.take 300).map IRow.row, r.user = 0 → r.day = 0 := by decide +kernel
theorem exSteam_valid : ∀ p ∈ exSteamValid, p.row.user = 10 ∧ p.row.day = 1 := by decide +kernel
theorem exSteam_unseen : 5 ≤ unseenOf (exSteamTrain.map PRow.row) 10 := by decide +kernel
theorem exSteam_users : 256 ≤ numUsers (exSteamTrain.map PRow.row) := by decide +kernel
theorem exSteam_items : 100 ≤ numItems (exSteamTrain.map PRow.row) := by decide +kernel
theorem exSteam_known : ∃ p ∈ exSteamValid, KnownFrom (exSteamTrain.map PRow.row) p.row := by
  unfold KnownFrom
  decide +kernel
theorem exSteam_ne : (exSteam.take 300).map IRow.row ≠ [] := by decide +kernel

/-- On these rows the search of Steam completes. -/
theorem exSteam_search (la : LinAlg ℚ) : ∃ rows, hyperparametersSearchTdrec { exRunEnv with la := la } exSearchEnv
    confSteam.run confSteam.search (confSteam (K := ℚ)).fixedTd exSteam = .ok rows := by
  have h : ∃ t train valid, let initial := (exSteam.take 300).map IRow.row
      initial ≠ [] ∧ IsCropped 8 initial t ∧ trainTestSplitP exSearchEnv.stamp t (99 / 100) = .ok (train, valid) ∧
      (∃ u, 8 ≤ (rowsOf u initial).length ∧ ∀ r ∈ initial, r.user = u → ∀ p ∈ valid, r.day < p.row.day) ∧
      256 ≤ numUsers (train.map PRow.row) ∧ 100 ≤ numItems (train.map PRow.row) ∧
      (∃ p ∈ valid, KnownFrom (train.map PRow.row) p.row) ∧
      ∀ p ∈ valid, KnownFrom (train.map PRow.row) p.row → 5 ≤ unseenOf (train.map PRow.row) p.row.user :=
    ⟨exSteamTab, exSteamTrain, exSteamValid, exSteam_ne, exSteamTab_cropped, exSteam_split,
      ⟨0, exSteam_user, fun r hr hu p hp => by rw [exSteam_user_day r hr hu, (exSteam_valid p hp).2]; decide⟩,
      exSteam_users, exSteam_items, exSteam_known, fun p hp _ => by rw [(exSteam_valid p hp).1]; exact exSteam_unseen⟩
  refine (C134_search exSteamSet (by decide) confSteam rfl { exRunEnv with la := la } exRunArgp_ok exSearchEnv exSearchEnv_ok
    exSteam exSteam_indexed (by rw [exSteam_cut]; exact exSteam_days)).2 ?_
  rw [exSteam_cut]
  exact h

/-- The table after the chunk. -/
@[irreducible] def exSteamTab1 : List (PRow ℚ) := cropSpec 8 (exSteam.map IRow.row) true

theorem exSteam_step : StepRunsOn 5 (getUsersStability exRunEnv.sortCnt ((exSteam.take 300).map IRow.row)
    ((exSteam.drop 300).map IRow.row) ((50 : ℕ) : ℤ)) (exSteamTab.map PRow.row) (exSteamTab.map PRow.row)
    ((exSteam.drop 300).map IRow.row) := by
  have h : ∀ u ∈ ([1, 2] : List ℤ), 5 ≤ unseenIn (exSteamTab.map PRow.row) (exSteamTab.map PRow.row) u := by decide +kernel
  have h1 : ∀ r ∈ (exSteam.drop 300).map IRow.row, r.user ∈ ([1, 2] : List ℤ) := by decide +kernel
  have h2 : ∀ u ∈ getUsersStability exRunEnv.sortCnt ((exSteam.take 300).map IRow.row)
    ((exSteam.drop 300).map IRow.row) ((50 : ℕ) : ℤ), u ∈ ([1, 2] : List ℤ) := by decide +kernel
  have h3 : ∃ r ∈ (exSteam.drop 300).map IRow.row, KnownFrom (exSteamTab.map PRow.row) r := by
    unfold KnownFrom
    decide +kernel
  exact ⟨h3, fun r hr _ => h _ (h1 r hr), fun u hu => h u (h2 u hu)⟩

/-- So does the experiment of Steam with `TDRecReinit`, with what the search has found. -/
example (la : LinAlg ℚ) : ∃ rows, hyperparametersSearchTdrec { exRunEnv with la := la } exSearchEnv
      confSteam.run confSteam.search (confSteam (K := ℚ)).fixedTd exSteam = .ok rows ∧
    ∃ d, runScript { exRunEnv with la := la, tdCsv := rows } confSteam.run (confSteam (K := ℚ)).fixedSvd
      (confSteam (K := ℚ)).fixedTd "TDRecReinit" exSteam = .ok d := by
  obtain ⟨rows, hr⟩ := exSteam_search la
  refine ⟨rows, hr, ?_⟩
  obtain ⟨k1, -, k2⟩ := C134_selected exSteamSet (by decide) confSteam rfl { exRunEnv with la := la } exSearchEnv exSearchEnv_ok
    exSteam rows hr
  obtain ⟨⟨rank, f, n⟩, hsel⟩ := k1 (by decide)
  obtain ⟨r, -, rfl⟩ := k2 _ _ _ hsel
  have hd : prepareDataForExperiment exRunEnv.sortDay exSteam (8 / 10) none = .ok ((exSteam.take 300).map IRow.row,
      [(2, (exSteam.drop 300).map IRow.row)], (exSteam.drop 300).map IRow.row) := by decide +kernel
  refine (C134_tdrec_reinit exSteamSet (by decide) confSteam rfl { exRunEnv with la := la } exRunArgp_ok
    (fun _ => List.Perm.refl _) exSearchEnv exSearchEnv_ok exSteam exSteam_indexed rows hr r f n hsel).2
    ⟨[(2, (exSteam.drop 300).map IRow.row)], [(exSteam.drop 300).map IRow.row],
      fun i => if i = 0 then exSteamTab else exSteamTab1, ?_⟩
  rw [exSteam_cut]
  have hup : rowsUpTo (fun i => if i = 0 then exSteamTab else exSteamTab1) 0 = exSteamTab.map PRow.row := by
    unfold rowsUpTo
    simp
  refine ⟨hd, rfl, fun i hi => ?_, fun i hi => ?_, fun i ch hch => ?_, fun h => absurd h (by decide)⟩
  · have : i = 0 ∨ i = 1 := by
      rw [List.length_singleton] at hi
      omega
    rcases this with rfl | rfl
    · rw [List.take_zero, List.flatten_nil, List.append_nil]
      exact exSteamTab_cropped
    · have e : (exSteam.take 300).map IRow.row ++ (List.take 1 [(exSteam.drop 300).map IRow.row]).flatten =
          exSteam.map IRow.row := by
        rw [show ∀ X : List (Row ℚ), (List.take 1 [X]).flatten = X from fun X => by simp, ← List.map_append, List.take_append_drop]
      rw [e]
      show IsCropped 8 _ exSteamTab1
      rw [exSteamTab1]
      exact crop_ok_isCropped _ _ _ (getDfWithCroppedPos_eq (exSteam.map IRow.row) 8 true (by decide)
        fun e => exSteam_ne (by rw [List.map_take, e, List.take_nil]))
  · have : i = 0 := by
      rw [List.length_singleton] at hi
      omega
    subst this
    rw [hup]
    obtain ⟨-, -, -, is, -, -, -, h4, -⟩ := train_mapped exSteamTab
    refine ⟨is, by rw [List.map_map]; exact h4, ?_⟩
    obtain ⟨p, hp, hi⟩ : ∃ p ∈ exSteamTab1, p.row.item = 500 := by decide +kernel
    refine ⟨p, hp, Or.inl ?_⟩
    rw [hi, h4.mem]
    decide +kernel
  · cases i with
    | succ i =>
      rw [List.getElem?_cons_succ, List.getElem?_nil] at hch
      cases hch
    | zero =>
      rw [List.getElem?_cons_zero] at hch
      rw [← Option.some.inj hch, hup]
      exact exSteam_step

/-- Three users are too few for any of the four. -/
example (s : Shipped) (hs : s ∈ shippedSets) (c : ConfFile ℚ) (h : importConfig s.name.toList = .ok c) (rows : List (TdRow ℚ)) :
    hyperparametersSearchTdrec exRunEnv exSearchEnv c.run c.search c.fixedTd exSearchData ≠ .ok rows := by
  intro hr
  obtain ⟨h1, h2⟩ := searched_table s hs c h exRunEnv exRunArgp_ok exSearchEnv exSearchEnv_ok exSearchData
    (indexed_of_map (by decide +kernel)) rows hr
  have hL : 8 ≤ s.len := by unfold Shipped.len; split <;> omega
  have hne : (exSearchData.take (s.cut exSearchData.length)).map IRow.row ≠ [] := by
    intro e
    obtain ⟨-, u, hu⟩ := h1
    rw [e] at hu
    simp [rowsOf] at hu
    omega
  obtain ⟨t, -, ht⟩ := cropped_exists (L := s.len) (by omega) hne
  obtain ⟨r, m1, m2⟩ := (shipped_seq s hs c h).topRank
  have h3 := (h2 t ht r m1).2.1
  have h4 : numUsers (t.map PRow.row) ≤ ((exSearchData.map IRow.row).map Row.user).toFinset.card := by
    unfold numUsers
    refine Finset.card_le_card fun x hx => ?_
    rw [List.mem_toFinset] at hx ⊢
    rw [crop_mem_user (by omega) ht, List.map_map] at hx
    rw [List.map_map]
    exact ((List.take_sublist _ _).map _).subset hx
  have h5 : ((exSearchData.map IRow.row).map Row.user).toFinset.card = 3 := by decide +kernel
  omega

/-- From rows that all have the same metric nothing can be chosen for AMZ-G. -/
example : ¬ Selectable "amz_g" [(⟨[32, 32, 5], 0, 1, 1⟩ : TdRow ℚ), ⟨[32, 32, 5], 2, 1, 1⟩] ∧
    Selectable "steam" [(⟨[32, 32, 5], 0, 1, 1⟩ : TdRow ℚ), ⟨[32, 32, 5], 2, 1, 1⟩] := by
  unfold Selectable
  decide

end DynCF
