/- Property C122: the hyper-parameter search from the prepared table to the model of the experiment. -/
import Mathlib.Data.List.Sort
import Mathlib.Data.List.Lex
import Verif.Model.Search
import Verif.Props.FullExperiment4
import Verif.Props.HyperSearch2
import Verif.Props.ExperimentData

set_option linter.unusedSectionVars false

namespace DynCF
variable {K : Type} [Field K] [LinearOrder K] [IsStrictOrderedRing K]

/-! ### Specification -/

/-- The rows are split between two days; the later part is not empty and the earlier part holds at most the
share `q` of the rows. -/
def DaySplit (q : K) (rows train valid : List (Row K)) : Prop :=
  (∃ P : Row K → Bool, train = rows.filter (fun r => !P r) ∧ valid = rows.filter P) ∧
  (∀ r ∈ train, ∀ r' ∈ valid, r.day < r'.day) ∧ valid ≠ [] ∧
  (train.length : K) ≤ q * (rows.length - 1) + 1 / 2

/-- `x` is the share of hits: every user of the later table whose first interaction with known user and item
exists is asked once, and it is a hit if the recommended items contain that item. -/
def ValScore (rec : List ℤ → PyM (List (List ℤ))) (train valid : List (Row K)) (x : K) : Prop :=
  ∃ S recs, Scored train valid S ∧ S ≠ [] ∧ rec (S.map Prod.fst) = .ok recs ∧ recs.length = S.length ∧
    x = ((S.zip recs).countP fun p => decide (p.1.2 ∈ p.2) : ℕ) / (S.length : K)

/-- `x` is the share of hits of an SVD model of rank `r`. -/
def SvdVal (env : RunEnv K) (fs : FixedSvd) (topk : ℕ) (train valid : List (Row K)) (r : ℕ) (x : K) : Prop :=
  ∃ s, svdTrain env.psi ⟨r, fs.nPower, fs.os, none, false⟩ train = .ok s ∧
    ValScore (fun us => psiRecommend env.argp s us topk true false) train valid x

/-- `x` is the share of hits of a TDRec model of rank `r` and attention exponent `a` after `n` sweeps. -/
def TdVal (env : RunEnv K) (ft : FixedTd) (topk : ℕ) (train valid : List (PRow K)) (r : ℕ × ℕ × ℕ) (a : K) (n : ℕ)
    (x : K) : Prop :=
  ∃ m s, tdInit { tdSearchCfg env ft r a with nIter := n, force := true } = .ok m ∧
    tdTrain { tdSearchCfg env ft r a with nIter := n, force := true } m (none : Option (ExitCallback K Unit)) () []
      train = .ok s ∧
    ValScore (fun us => tdRecommend env.argp s us topk true false) (train.map PRow.row) (valid.map PRow.row) x

/-! ### Proof -/

theorem valScore_intro {rec : List ℤ → PyM (List (List ℤ))} {train valid : List (Row K)} {m : Mappings}
    {us is : List ℤ} (hU : Represents m.user us) (hI : Represents m.item is)
    (hu : ∀ x, x ∈ us ↔ ∃ t ∈ train, t.user = x) (hi : ∀ x, x ∈ is ↔ ∃ t ∈ train, t.item = x)
    {recs : List (List ℤ)} {x : K} (h1 : rec (getUsersToRecommendTestItems valid m).1 = .ok recs)
    (hl : recs.length = (getUsersToRecommendTestItems valid m).1.length)
    (h2 : hr recs (getUsersToRecommendTestItems valid m).2 = .ok x) : ValScore rec train valid x := by
  obtain ⟨hs1, hs2⟩ := scored_intro (chunk := valid) hU hI hu hi
  revert h1 hl h2 hs1 hs2
  generalize (getUsersToRecommendTestItems valid m).1 = U
  generalize (getUsersToRecommendTestItems valid m).2 = T
  intro h1 hl h2 hs1 hs2
  have hne : T ≠ [] := by
    rintro rfl
    rw [(C12_no_test_users recs).1] at h2
    cases h2
  have hpos := List.length_pos_of_ne_nil hne
  have hlen : (U.zip T).length = T.length := by rw [List.length_zip]; omega
  have e1 : (U.zip T).map Prod.fst = U := List.map_fst_zip (by omega)
  have e2 : (U.zip T).map Prod.snd = T := List.map_snd_zip (by omega)
  refine ⟨U.zip T, recs, hs1, ?_, ?_, by omega, ?_⟩
  · intro e
    rw [e] at hlen
    simp at hlen
    omega
  · rw [e1]
    exact h1
  · rw [(C12_hit_rate recs T hne (by omega)).2] at h2
    rw [← Except.ok.inj h2, hlen]
    congr 2
    conv_lhs => rw [← e2]
    rw [List.zip_map_left, List.countP_map]
    rfl

theorem svdVal_intro {env : RunEnv K} {fs : FixedSvd} {topk : ℕ} {train valid : List (Row K)} {r : ℕ} {x : K}
    (h : svdSearchScore env fs train valid topk [r] = .ok x) : SvdVal env fs topk train valid r x := by
  unfold svdSearchScore at h
  obtain ⟨s, hs, h⟩ := (bind_ok_iff _ _ _).1 h
  obtain ⟨recs, hrec, h⟩ := (bind_ok_iff _ _ _).1 h
  refine ⟨s, hs, ?_⟩
  obtain ⟨us, is, -, -, ⟨s', g1, g2, -⟩ | ⟨g1, -⟩⟩ := C31_train env.psi ⟨r, fs.nPower, fs.os, none, false⟩ train
  · rw [hs] at g1
    have g1 := Except.ok.inj g1
    subst g1
    refine valScore_intro (m := s.maps) (psiView_ok g2).user (psiView_ok g2).item g2.users g2.items hrec ?_ h
    exact (filtered_rows (psiView_ok g2).user (psiView_ok g2).item hrec).1
  · rw [hs] at g1
    cases g1

theorem tdVal_intro {env : RunEnv K} {ft : FixedTd} (hf : ft.force = false) {topk : ℕ}
    {train valid : List (PRow K)} {r : ℕ × ℕ × ℕ} {a : K} {l : List K}
    (h : tdSearchScores env ft train valid topk [.rank r, .att a] = .ok l) :
    l.length ≤ 25 ∧ ∀ (n : ℕ) (x : K), 1 ≤ n → l[n - 1]? = some x → TdVal env ft topk train valid r a n x := by
  unfold tdSearchScores at h
  obtain ⟨⟨s0, l'⟩, hs, h⟩ := (bind_ok_iff _ _ _).1 h
  have h := Except.ok.inj h
  subst h
  obtain ⟨hl, hsc⟩ := C90_scores env.argp hr (valid.map PRow.row) topk 3 (tdSearchCfg env ft r a) hf train s0 l' hs
  refine ⟨hl, ?_⟩
  intro n x hn hx
  obtain ⟨m, s, h1, h2, h3⟩ := hsc (n - 1) x hx
  rw [Nat.sub_add_cancel hn] at h1 h2
  refine ⟨m, s, h1, h2, ?_⟩
  unfold tdMetric at h3
  obtain ⟨recs, hrec, h3⟩ := (bind_ok_iff _ _ _).1 h3
  obtain ⟨us, is, hU, hI, hu, hi, -⟩ := tdTrain_remembers h2
  exact valScore_intro hU hI hu hi hrec (filtered_rows (v := s.view) hU hI hrec).1 h3

theorem daySplit_intro [FloorRing K] {stamp : ℤ → K} (hstamp : ∀ a b, a < b → stamp a < stamp b)
    {rows : List (Row K)} {q : K} {tv : List (Row K) × List (Row K)} (h : trainTestSplit stamp rows q = .ok tv) :
    DaySplit q rows tv.1 tv.2 := by
  have hq : 0 ≤ q ∧ q ≤ 1 := by
    by_contra hc
    have : q < 0 ∨ 1 < q := by
      by_contra hd
      rw [not_or, not_lt, not_lt] at hd
      exact hc hd
    rw [C68_errors stamp rows q this] at h
    cases h
  have hne : rows ≠ [] := by
    rintro rfl
    unfold trainTestSplit at h
    rw [if_neg (by rw [not_or, not_lt, not_lt]; exact hq)] at h
    cases h
  obtain ⟨train, valid, g1, g2, g3, g4, g5, -⟩ := C68_split stamp hstamp rows hne q hq.1 hq.2
  rw [g1] at h
  have h := Except.ok.inj h
  subst h
  exact ⟨g2, g3, g4, g5⟩

/-- The initial part does not depend on the grouping of the stream. -/
theorem initial_same [FloorRing K] {sortDay : List (Row K) → List (Row K)} {data : List (IRow K)} {ratio : K}
    {hm hm' : Option ℤ} {d d' : List (Row K) × List (ℤ × List (Row K)) × List (Row K)}
    (h : prepareDataForExperiment sortDay data ratio hm = .ok d)
    (h' : prepareDataForExperiment sortDay data ratio hm' = .ok d') : d.1 = d'.1 := by
  have key : ∀ (hm : Option ℤ) (d : List (Row K) × List (ℤ × List (Row K)) × List (Row K)),
      prepareDataForExperiment sortDay data ratio hm = .ok d →
      d.1 = (data.filter fun r => decide (r.idx < pyInt ((data.length : K) * ratio))).map IRow.row := by
    intro hm d h
    unfold prepareDataForExperiment at h
    cases hm with
    | none =>
      have h := Except.ok.inj h
      subst h
      rfl
    | some m =>
      obtain ⟨l, -, h⟩ := (bind_ok_iff _ _ _).1 h
      have h := Except.ok.inj h
      subst h
      rfl
  rw [key hm d h, key hm' d' h']

/-- The orders in which Python iterates over the two sets: every element once. -/
def SearchEnv.Ok (se : SearchEnv K) : Prop :=
  (∀ a b, a < b → se.stamp a < se.stamp b) ∧
  (∀ s, (se.orderSvd s).Nodup ∧ ∀ c, c ∈ se.orderSvd s ↔ c ∈ s) ∧
  (∀ s, (se.orderTd s).Nodup ∧ ∀ c, c ∈ se.orderTd s ↔ c ∈ s)

/-- The rows of `svd.csv`. -/
theorem searchSvd_rows [FloorRing K] {env : RunEnv K} {se : SearchEnv K} (hse : se.Ok) {cfg : RunCfg K}
    {sc : SearchCfg K} {fs : FixedSvd} {data : List (IRow K)} {rows : List (SvdRow K)}
    (h : hyperparametersSearchSvd env se cfg sc fs data = .ok rows) :
    ∃ initial stream left train valid,
      prepareDataForExperiment env.sortDay data cfg.initRatio none = .ok (initial, stream, left) ∧
      DaySplit sc.quantile initial train valid ∧
      (∀ r ∈ sc.svdRanks, ∃ x, svdSearchScore env fs train valid cfg.topk [r] = .ok x ∧ ⟨(r : ℤ), x⟩ ∈ rows) ∧
      ∀ row ∈ rows, ∃ r : ℕ, row.rank = r ∧ r ∈ sc.svdRanks ∧
        svdSearchScore env fs train valid cfg.topk [r] = .ok row.metric := by
  unfold hyperparametersSearchSvd at h
  obtain ⟨⟨initial, stream, left⟩, hd, h⟩ := (bind_ok_iff _ _ _).1 h
  obtain ⟨⟨train, valid⟩, hs, h⟩ := (bind_ok_iff _ _ _).1 h
  obtain ⟨table, ht, h⟩ := (bind_ok_iff _ _ _).1 h
  have h := Except.ok.inj h
  subst h
  obtain ⟨-, g2, g3⟩ := (C91_svd se.orderSvd hse.2.1 [("rank", sc.svdRanks)] (by simp)
    (svdSearchScore env fs train valid cfg.topk)).1 table ht
  have hc : ∀ c : List ℕ, IsConfig ([("rank", sc.svdRanks)].map Prod.snd) c ↔ ∃ r ∈ sc.svdRanks, c = [r] := by
    intro c
    unfold IsConfig
    constructor
    · intro h
      cases h with
      | cons h1 h2 => cases h2; exact ⟨_, h1, rfl⟩
    · rintro ⟨r, hr, rfl⟩
      exact .cons hr .nil
  refine ⟨initial, stream, left, train, valid, hd, daySplit_intro hse.1 hs, ?_, ?_⟩
  · intro r hr
    obtain ⟨x, hx⟩ := g3 [r] ((hc _).2 ⟨r, hr, rfl⟩)
    exact ⟨x, ((g2 _ _).1 hx).2, List.mem_map.2 ⟨_, hx, rfl⟩⟩
  · intro row hrow
    obtain ⟨⟨c, x⟩, hx, rfl⟩ := List.mem_map.1 hrow
    obtain ⟨h1, h2⟩ := (g2 _ _).1 hx
    obtain ⟨r, hr, rfl⟩ := (hc _).1 h1
    exact ⟨r, rfl, hr, h2⟩

/-- **C122, SVD and PSIRec.** The model of the experiment, prepared from the file the search has written, has
the smallest of the listed ranks with the highest share of hits, the share of a rank being that of an SVD model
of this rank trained on the earlier days of the initial part and asked for the later ones. -/
theorem C122_svd [FloorRing K] (env : RunEnv K) (se : SearchEnv K) (hse : se.Ok) (cfg : RunCfg K)
    (sc : SearchCfg K) (fs : FixedSvd) (data : List (IRow K)) (rows : List (SvdRow K))
    (h : hyperparametersSearchSvd env se cfg sc fs data = .ok rows) (name : String)
    (hn : name = "SVD" ∨ name = "PSIRec") (p : Prepared K)
    (hp : prepareModel { env with svdCsv := rows } { cfg with fixedSvd := some fs } name = .ok p) :
    ∃ initial stream left train valid r x,
      prepareDataForExperiment env.sortDay data cfg.initRatio none = .ok (initial, stream, left) ∧
      DaySplit sc.quantile initial train valid ∧
      (name = "SVD" → p.obj = .svd ⟨r, fs.nPower, fs.os, none, false⟩) ∧
      (name = "PSIRec" → p.obj = .psi ⟨r, fs.nPower, fs.os, none, false⟩) ∧
      r ∈ sc.svdRanks ∧ SvdVal env fs cfg.topk train valid r x ∧
      ∀ r' ∈ sc.svdRanks, ∃ x', SvdVal env fs cfg.topk train valid r' x' ∧ (x' < x ∨ x' = x ∧ r ≤ r') := by
  obtain ⟨initial, stream, left, train, valid, hd, hds, g1, g2⟩ := searchSvd_rows hse h
  have key : ∃ c, prepSvdCfg { env with svdCsv := rows } { cfg with fixedSvd := some fs } = .ok c ∧
      (name = "SVD" → p.obj = .svd c) ∧ (name = "PSIRec" → p.obj = .psi c) := by
    rcases hn with rfl | rfl
    · have hp : prepareSvd { env with svdCsv := rows } { cfg with fixedSvd := some fs } = .ok p := hp
      obtain ⟨c, hc, hp⟩ := (bind_ok_iff _ _ _).1 hp
      have hp := Except.ok.inj hp
      subst hp
      exact ⟨c, hc, fun _ => rfl, fun h => absurd h (by decide)⟩
    · have hp : preparePsi { env with svdCsv := rows } { cfg with fixedSvd := some fs } = .ok p := hp
      obtain ⟨c, hc, hp⟩ := (bind_ok_iff _ _ _).1 hp
      have hp := Except.ok.inj hp
      subst hp
      exact ⟨c, hc, fun h => absurd h (by decide), fun _ => rfl⟩
  obtain ⟨c, hc, k1, k2⟩ := key
  unfold prepSvdCfg at hc
  obtain ⟨ri, hri, hc⟩ := (bind_ok_iff _ _ _).1 hc
  obtain ⟨f, hf, hc⟩ := (bind_ok_iff _ _ _).1 hc
  obtain ⟨r, hr, hc⟩ := (bind_ok_iff _ _ _).1 hc
  have hc := Except.ok.inj hc
  subst hc
  have hf : f = fs := (Except.ok.inj hf).symm
  subst hf
  simp only at hri
  obtain ⟨c1, c2, c3⟩ := C75_svd cfg.dataset rows
  have hds' : cfg.dataset ≠ .other := by
    intro e
    rw [c1 e] at hri
    cases hri
  have hne : rows ≠ [] := by
    intro e
    rw [c2 hds' e] at hri
    cases hri
  obtain ⟨ri', e1, ⟨row, m1, m2, m3⟩, m4⟩ := c3 hds' hne
  rw [hri] at e1
  have e1 := Except.ok.inj e1
  subst e1
  obtain ⟨r0, n1, n2, n3⟩ := g2 row m1
  have hrr : r = r0 := by
    rw [← m2, n1] at hr
    unfold natRank at hr
    rw [if_pos (by positivity)] at hr
    have := Except.ok.inj hr
    omega
  subst hrr
  refine ⟨initial, stream, left, train, valid, r, row.metric, hd, hds, k1, k2, n2, svdVal_intro n3, ?_⟩
  intro r' hr'
  obtain ⟨x', hx', hmem⟩ := g1 r' hr'
  refine ⟨x', svdVal_intro hx', ?_⟩
  rcases lt_or_eq_of_le (m3 _ hmem) with hlt | heq
  · exact .inl hlt
  · refine .inr ⟨heq, ?_⟩
    have := m4 _ hmem fun x hx => by
      simp only at heq ⊢
      rw [heq]
      exact m3 x hx
    simp only at this
    rw [← m2, n1] at this
    exact_mod_cast this

/-- **C122, SVD, completeness.** With a known data set and at least one listed rank the model can be prepared
once the search has completed. -/
theorem C122_svd_ready [FloorRing K] (env : RunEnv K) (se : SearchEnv K) (hse : se.Ok) (cfg : RunCfg K)
    (sc : SearchCfg K) (fs : FixedSvd) (data : List (IRow K)) (rows : List (SvdRow K))
    (h : hyperparametersSearchSvd env se cfg sc fs data = .ok rows) (hds : cfg.dataset ≠ .other)
    (hne : sc.svdRanks ≠ []) (name : String) (hn : name = "SVD" ∨ name = "PSIRec") :
    ∃ p, prepareModel { env with svdCsv := rows } { cfg with fixedSvd := some fs } name = .ok p := by
  obtain ⟨-, -, -, train, valid, -, -, g1, g2⟩ := searchSvd_rows hse h
  obtain ⟨r0, hr0⟩ := List.exists_mem_of_ne_nil _ hne
  obtain ⟨x0, -, hm⟩ := g1 r0 hr0
  obtain ⟨ri, e1, ⟨row, m1, m2, -⟩, -⟩ := (C75_svd cfg.dataset rows).2.2 hds (List.ne_nil_of_mem hm)
  obtain ⟨r, n1, -, -⟩ := g2 row m1
  have hc : prepSvdCfg { env with svdCsv := rows } { cfg with fixedSvd := some fs } =
      .ok ⟨r, fs.nPower, fs.os, none, false⟩ := by
    unfold prepSvdCfg
    simp only
    rw [e1, except_bind_ok]
    unfold cfgGet natRank
    rw [← m2, n1, if_pos (by positivity)]
    rfl
  rcases hn with rfl | rfl
  · exact ⟨_, show prepareSvd _ _ = _ by unfold prepareSvd; rw [hc]; rfl⟩
  · exact ⟨_, show preparePsi _ _ = _ by unfold preparePsi; rw [hc]; rfl⟩

/-- The rows of `tdrec.csv`. -/
theorem searchTd_rows [FloorRing K] {env : RunEnv K} {se : SearchEnv K} (hse : se.Ok) {cfg : RunCfg K}
    {sc : SearchCfg K} {ft : FixedTd} {data : List (IRow K)} {rows : List (TdRow K)}
    (h : hyperparametersSearchTdrec env se cfg sc ft data = .ok rows) :
    ∃ initial stream left t train valid,
      prepareDataForExperiment env.sortDay data cfg.initRatio none = .ok (initial, stream, left) ∧
      getDfWithCroppedPos initial cfg.maxLen true = .ok t ∧
      trainTestSplitP se.stamp t sc.quantile = .ok (train, valid) ∧
      (∀ r ∈ sc.tdRanks, ∀ a ∈ sc.attFs, ∃ l, tdSearchScores env ft train valid cfg.topk [.rank r, .att a] = .ok l) ∧
      ∀ row, row ∈ rows ↔ ∃ r ∈ sc.tdRanks, ∃ a ∈ sc.attFs, ∃ (n : ℕ) (x : K) (l : List K), 1 ≤ n ∧
        row = ⟨[(r.1 : ℤ), (r.2.1 : ℤ), (r.2.2 : ℤ)], a, n, x⟩ ∧
        tdSearchScores env ft train valid cfg.topk [.rank r, .att a] = .ok l ∧ l[n - 1]? = some x := by
  unfold hyperparametersSearchTdrec at h
  obtain ⟨⟨initial, stream, left⟩, hd, h⟩ := (bind_ok_iff _ _ _).1 h
  obtain ⟨t, htc, h⟩ := (bind_ok_iff _ _ _).1 h
  obtain ⟨⟨train, valid⟩, hs, h⟩ := (bind_ok_iff _ _ _).1 h
  obtain ⟨table, ht, h⟩ := (bind_ok_iff _ _ _).1 h
  have h := Except.ok.inj h
  subst h
  obtain ⟨-, g2, g3⟩ := C91_tdrec se.orderTd hse.2.2
    [("rank", sc.tdRanks.map TdParam.rank), ("att_f", sc.attFs.map TdParam.att)] (by simp)
    (tdSearchScores env ft train valid cfg.topk) table ht
  have hc : ∀ c : List (TdParam K),
      IsConfig ([("rank", sc.tdRanks.map TdParam.rank), ("att_f", sc.attFs.map TdParam.att)].map Prod.snd) c ↔
      ∃ r ∈ sc.tdRanks, ∃ a ∈ sc.attFs, c = [.rank r, .att a] := by
    intro c
    unfold IsConfig
    constructor
    · intro h
      cases h with
      | cons h1 h2 =>
        cases h2 with
        | cons h2 h3 =>
          cases h3
          obtain ⟨r, hr, rfl⟩ := List.mem_map.1 h1
          obtain ⟨a, ha, rfl⟩ := List.mem_map.1 h2
          exact ⟨r, hr, a, ha, rfl⟩
    · rintro ⟨r, hr, a, ha, rfl⟩
      exact .cons (List.mem_map_of_mem hr) (.cons (List.mem_map_of_mem ha) .nil)
  refine ⟨initial, stream, left, t, train, valid, hd, htc, hs, ?_, ?_⟩
  · intro r hr a ha
    exact g3 _ ((hc _).2 ⟨r, hr, a, ha, rfl⟩)
  · intro row
    rw [List.mem_map]
    constructor
    · rintro ⟨⟨c, n, x⟩, hx, rfl⟩
      obtain ⟨h1, h2, l, h3, h4⟩ := (g2 _ _ _).1 hx
      obtain ⟨r, hr, a, ha, rfl⟩ := (hc _).1 h1
      exact ⟨r, hr, a, ha, n, x, l, h2, rfl, h3, h4⟩
    · rintro ⟨r, hr, a, ha, n, x, l, hn, rfl, h1, h2⟩
      exact ⟨([.rank r, .att a], n, x), (g2 _ _ _).2 ⟨(hc _).2 ⟨r, hr, a, ha, rfl⟩, hn, l, h1, h2⟩, rfl⟩

/-- **C122, sequence models (partial).** The model of the experiment, prepared from the file the search has
written, has a listed rank and attention exponent, which got some share of hits after at most five sweeps on the
later days of the (cropped) initial part; for `amz_b` and `steam` no listed combination got a higher share after
at most five sweeps. Missing: the same for the other two data sets (`C75_violated`); the number of sweeps
(`C97_violated`); the training table (`C123_violated`). -/
theorem C122_tdrec_partial [FloorRing K] (env : RunEnv K) (se : SearchEnv K) (hse : se.Ok) (cfg : RunCfg K)
    (sc : SearchCfg K) (ft : FixedTd) (hforce : ft.force = false) (data : List (IRow K)) (rows : List (TdRow K))
    (h : hyperparametersSearchTdrec env se cfg sc ft data = .ok rows) (name : String)
    (hn : name ∈ ["TDRec", "TDRecReinit", "TIRec", "TIRecA"]) (p : Prepared K)
    (hp : prepareModel { env with tdCsv := rows } { cfg with fixedTd := some ft } name = .ok p) :
    ∃ initial stream left t train valid c m r a n x,
      prepareDataForExperiment env.sortDay data cfg.initRatio none = .ok (initial, stream, left) ∧
      getDfWithCroppedPos initial cfg.maxLen true = .ok t ∧
      trainTestSplitP se.stamp t sc.quantile = .ok (train, valid) ∧
      (p.obj = .td c m ∨ p.obj = .tdRe c m ∨
        ∃ c' : TICfg K, c'.td = c ∧ (p.obj = .ti c' m ∨ p.obj = .tiA c' m)) ∧
      c.hooi.rank = r ∧ c.attF = some (env.pow a) ∧ r ∈ sc.tdRanks ∧ a ∈ sc.attFs ∧ 1 ≤ n ∧ n ≤ 5 ∧
      TdVal env ft cfg.topk train valid r a n x ∧
      ((cfg.dataset = .amzB ∨ cfg.dataset = .steam) → ∀ r' ∈ sc.tdRanks, ∀ a' ∈ sc.attFs, ∃ l : List K,
        tdSearchScores env ft train valid cfg.topk [.rank r', .att a'] = .ok l ∧
        ∀ n' x', 1 ≤ n' → l[n' - 1]? = some x' → TdVal env ft cfg.topk train valid r' a' n' x' ∧
          (n' ≤ 5 → x' ≤ x)) := by
  obtain ⟨initial, stream, left, t, train, valid, hd, htc, hs, g1, g2⟩ := searchTd_rows hse h
  obtain ⟨c, m, row, r1, r2, r3, k1, k2, k3, k4, k5, k6⟩ := C97_selected_partial _ _ name hn p hp
  simp only at k2 k3 k6
  have best : ∃ row0 ∈ rows, row0.rank = row.rank ∧ row0.attF = row.attF ∧ row0.nIter ≤ 5 ∧
      ((cfg.dataset = .amzB ∨ cfg.dataset = .steam) → ∀ y ∈ rows, y.nIter ≤ 5 → y.metric ≤ row0.metric) := by
    obtain ⟨row', q1, q2, q3, q4, q5⟩ := selected_sweeps k3
    by_cases hds : cfg.dataset = .amzB ∨ cfg.dataset = .steam
    · have hal : ∀ r : TdRow K, Allowed cfg.dataset r ↔ r.nIter ≤ 5 := by
        intro r
        rcases hds with e | e <;> rw [e] <;> exact Iff.rfl
      obtain ⟨b, b1, pre, post, b2, b3, -, -⟩ := (C75_tdrec_partial (K := K) cfg.dataset hds).1 rows
        ⟨row', q1, (hal _).2 (by omega)⟩
      rw [k3] at b1
      have b1 := Except.ok.inj b1
      simp only [Prod.mk.injEq] at b1
      refine ⟨b, by rw [b2]; simp, b1.1.symm, b1.2.1.symm, (hal _).1 b3.1, fun _ y hy h5 => ?_⟩
      exact b3.2 y hy ((hal _).2 h5)
    · exact ⟨row', q1, q2, q3, by omega, fun e => absurd e hds⟩
  obtain ⟨row0, b1, b2, b3, b4, b5⟩ := best
  obtain ⟨r, hr, a, ha, n, x, l, hn1, rfl, hl, hx⟩ := (g2 _).1 b1
  simp only at b2 b3 b4 b5
  have hrank : c.hooi.rank = r := by
    rw [k5]
    rw [k4] at b2
    simp only [List.cons.injEq, and_true] at b2
    obtain ⟨e1, e2, e3⟩ := b2
    ext
    · exact_mod_cast e1.symm
    · exact_mod_cast e2.symm
    · exact_mod_cast e3.symm
  rw [← b3] at k6
  refine ⟨initial, stream, left, t, train, valid, c, m, r, a, n, x, hd, htc, hs, k1, hrank, k6, hr, ha, hn1,
    by exact_mod_cast b4, (tdVal_intro hforce hl).2 n x hn1 hx, ?_⟩
  intro hds r' hr' a' ha'
  obtain ⟨l', hl'⟩ := g1 r' hr' a' ha'
  refine ⟨l', hl', ?_⟩
  intro n' x' hn' hx'
  refine ⟨(tdVal_intro hforce hl').2 n' x' hn' hx', fun h5 => ?_⟩
  exact b5 hds _ ((g2 _).2 ⟨r', hr', a', ha', n', x', l', hn', rfl, hl', hx'⟩)
    (show (n' : ℤ) ≤ 5 by exact_mod_cast h5)

/-- **C122, no look-ahead.** The searches read only the initial part: two files of the same length that agree on
the rows of the initial part give the same tables. -/
theorem C122_no_lookahead [FloorRing K] (env : RunEnv K) (se : SearchEnv K) (cfg : RunCfg K) (sc : SearchCfg K)
    (fs : FixedSvd) (ft : FixedTd) (pre post post' : List (IRow K)) (hlen : post.length = post'.length)
    (h1 : Indexed (pre ++ post)) (h2 : Indexed (pre ++ post'))
    (hpre : ((pre ++ post).length : K) * cfg.initRatio < pre.length + 1) (h0 : 0 ≤ cfg.initRatio) :
    hyperparametersSearchSvd env se cfg sc fs (pre ++ post) =
      hyperparametersSearchSvd env se cfg sc fs (pre ++ post') ∧
    hyperparametersSearchTdrec env se cfg sc ft (pre ++ post) =
      hyperparametersSearchTdrec env se cfg sc ft (pre ++ post') := by
  obtain ⟨m, a1, a2, st, a3, -⟩ := C65_days env.sortDay (pre ++ post) cfg.initRatio h1 h0
  obtain ⟨m', b1, b2, st', b3, -⟩ := C65_days env.sortDay (pre ++ post') cfg.initRatio h2 h0
  have hl : ((pre ++ post').length : K) = ((pre ++ post).length : K) := by
    rw [List.length_append, List.length_append, hlen]
  rw [hl] at b1 b2
  have hm : m = m' := by
    have e1 : (m : K) < m' + 1 := lt_of_le_of_lt a1 b2
    have e2 : (m' : K) < m + 1 := lt_of_le_of_lt b1 a2
    have e1 : m < m' + 1 := by exact_mod_cast e1
    have e2 : m' < m + 1 := by exact_mod_cast e2
    omega
  subst hm
  have hmp : m ≤ pre.length := by
    have : (m : K) < pre.length + 1 := lt_of_le_of_lt a1 hpre
    have : m < pre.length + 1 := by exact_mod_cast this
    omega
  have ht : (pre ++ post).take m = (pre ++ post').take m := by
    rw [List.take_append_of_le_length hmp, List.take_append_of_le_length hmp]
  constructor
  · unfold hyperparametersSearchSvd
    rw [a3, b3, except_bind_ok, except_bind_ok]
    simp only
    rw [ht]
  · unfold hyperparametersSearchTdrec
    rw [a3, b3, except_bind_ok, except_bind_ok]
    simp only
    rw [ht]

/-- **C122, failures.** The SVD search completes only if every listed rank is at least one and less than the
numbers of users and of items of the earlier days; one larger rank makes the whole search fail. -/
theorem C122_svd_ranks [FloorRing K] (env : RunEnv K) (se : SearchEnv K) (hse : se.Ok) (cfg : RunCfg K)
    (sc : SearchCfg K) (fs : FixedSvd) (data : List (IRow K)) (rows : List (SvdRow K))
    (h : hyperparametersSearchSvd env se cfg sc fs data = .ok rows) :
    ∃ initial stream left train valid,
      prepareDataForExperiment env.sortDay data cfg.initRatio none = .ok (initial, stream, left) ∧
      DaySplit sc.quantile initial train valid ∧
      ∀ r ∈ sc.svdRanks, 1 ≤ r ∧ r < (train.map Row.user).toFinset.card ∧ r < (train.map Row.item).toFinset.card := by
  obtain ⟨initial, stream, left, train, valid, hd, hds, g1, -⟩ := searchSvd_rows hse h
  refine ⟨initial, stream, left, train, valid, hd, hds, ?_⟩
  intro r hr
  obtain ⟨x, hx, -⟩ := g1 r hr
  obtain ⟨s, hs, -⟩ := svdVal_intro hx
  obtain ⟨us, is, hu, hi, ⟨-, -, -, q1, q2⟩ | ⟨q1, -⟩⟩ := C31_train env.psi ⟨r, fs.nPower, fs.os, none, false⟩ train
  · have hcard : ∀ (l ids : List ℤ), FirstAppearance l ids → l.toFinset.card = ids.length := by
      intro l ids h
      have : l.toFinset = ids.toFinset := by
        ext x
        rw [List.mem_toFinset, List.mem_toFinset, h.mem]
      rw [this, List.toFinset_card_of_nodup h.nodup]
    rw [hcard _ _ hu, hcard _ _ hi]
    simp only at q1 q2
    omega
  · rw [hs] at q1
    cases q1

/-! ### A search over two ranks and one combination -/

/-- a list of numbers for every value of the grid -/
def exTdKey : TdParam ℚ → List ℚ
  | .rank r => [0, r.1, r.2.1, r.2.2]
  | .att f => [1, f]

theorem exTdKey_inj : Function.Injective (List.map exTdKey) := by
  apply List.map_injective_iff.2
  intro a b h
  cases a <;> cases b <;> simp [exTdKey] at h ⊢
  · exact Prod.ext h.1 (Prod.ext h.2.1 h.2.2)
  · exact h

def exTdLe (a b : List (TdParam ℚ)) : Prop := a.map exTdKey ≤ b.map exTdKey

instance : DecidableRel exTdLe := fun _ _ => inferInstanceAs (Decidable (_ ≤ _))
instance : Std.Total exTdLe := ⟨fun _ _ => le_total _ _⟩
instance : IsTrans _ exTdLe := ⟨fun _ _ _ => le_trans⟩
instance : Std.Antisymm exTdLe := ⟨fun _ _ h h' => exTdKey_inj (le_antisymm h h')⟩

/-- insertion sort of a finite set -/
def exSort {α : Type} (r : α → α → Prop) [DecidableRel r] [Std.Total r] [IsTrans α r] [Std.Antisymm r]
    (s : Finset α) : List α :=
  Quot.lift (fun l : List α => l.insertionSort r) (fun a b (h : a.Perm b) =>
    (((List.perm_insertionSort r a).trans h).trans (List.perm_insertionSort r b).symm).eq_of_pairwise
      (fun _ _ _ _ => antisymm) (List.pairwise_insertionSort r a) (List.pairwise_insertionSort r b)) s.1

theorem exSort_spec {α : Type} (r : α → α → Prop) [DecidableRel r] [Std.Total r] [IsTrans α r] [Std.Antisymm r]
    (s : Finset α) : (exSort r s).Nodup ∧ ∀ c, c ∈ exSort r s ↔ c ∈ s := by
  obtain ⟨s, hs⟩ := s
  induction s using Quot.inductionOn with
  | h l => exact ⟨(List.perm_insertionSort r l).nodup_iff.2 hs, fun c => (List.perm_insertionSort r l).mem_iff⟩

/-- days of 86400 seconds; both sets in lexicographic order -/
def exSearchEnv : SearchEnv ℚ := ⟨fun d => 86400 * d, exSort (· ≤ ·), exSort exTdLe⟩

theorem exSearchEnv_ok : exSearchEnv.Ok := by
  refine ⟨?_, exSort_spec _, exSort_spec _⟩
  intro a b h
  show (86400 * a : ℚ) < 86400 * b
  have : (a : ℚ) < b := by exact_mod_cast h
  linarith

/-- users 7, 8, 9 with three items in two days, then the rows of `exRunData` -/
def exSearchData : List (IRow ℚ) :=
  [⟨0, ⟨7, 40, 1, 0, 0⟩⟩, ⟨1, ⟨8, 41, 1, 1, 0⟩⟩, ⟨2, ⟨9, 42, 1, 2, 0⟩⟩, ⟨3, ⟨8, 42, 1, 3, 0⟩⟩,
   ⟨4, ⟨8, 43, 1, 4, 0⟩⟩, ⟨5, ⟨7, 41, 1, 86401, 1⟩⟩, ⟨6, ⟨9, 43, 1, 86402, 1⟩⟩, ⟨7, ⟨9, 41, 1, 86404, 2⟩⟩]
def exGridCfg : SearchCfg ℚ := ⟨4/5, [2, 1], [(1, 1, 1)], [1]⟩
def exSearchRun : RunCfg ℚ := ⟨.steam, 1, 7/8, none, 5, 3, some exFixSvd, some exFixTd⟩


theorem exSearch_svd : hyperparametersSearchSvd exRunEnv exSearchEnv exSearchRun exGridCfg exFixSvd exSearchData =
    .ok [⟨1, 1/2⟩, ⟨2, 1/2⟩] := by decide +kernel

theorem exSearch_td : hyperparametersSearchTdrec exRunEnv exSearchEnv exSearchRun exGridCfg exFixTd exSearchData =
    .ok [⟨[1, 1, 1], 1, 1, 0⟩, ⟨[1, 1, 1], 1, 2, 0⟩, ⟨[1, 1, 1], 1, 3, 0⟩] := by decide +kernel

/-- The experiment takes rank 1, the smaller of the two with the share 1/2. -/
example : ∃ p initial stream left train valid r x,
    prepareModel { exRunEnv with svdCsv := [⟨1, 1/2⟩, ⟨2, 1/2⟩] } exSearchRun "SVD" = .ok p ∧
      prepareDataForExperiment exRunEnv.sortDay exSearchData (7/8) none = .ok (initial, stream, left) ∧
      DaySplit (4/5) initial train valid ∧ p.obj = .svd ⟨r, 0, 1, none, false⟩ ∧ r ∈ [2, 1] ∧
      SvdVal exRunEnv exFixSvd 1 train valid r x := by
  obtain ⟨p, hp⟩ := C122_svd_ready exRunEnv exSearchEnv exSearchEnv_ok exSearchRun exGridCfg exFixSvd exSearchData _
    exSearch_svd (by decide) (by decide) "SVD" (.inl rfl)
  obtain ⟨initial, stream, left, train, valid, r, x, h1, h2, h3, -, h4, h5, -⟩ := C122_svd exRunEnv exSearchEnv
    exSearchEnv_ok exSearchRun exGridCfg exFixSvd exSearchData _ exSearch_svd "SVD" (.inl rfl) p hp
  exact ⟨p, initial, stream, left, train, valid, r, x, hp, h1, h2, h3 rfl, h4, h5⟩

example : ∃ train valid n x, TdVal exRunEnv exFixTd 1 train valid (1, 1, 1) 1 n x := by
  have hp : ∃ p, prepareModel { exRunEnv with tdCsv := [⟨[1, 1, 1], 1, 1, 0⟩, ⟨[1, 1, 1], 1, 2, 0⟩, ⟨[1, 1, 1], 1, 3, 0⟩] }
      exSearchRun "TDRec" = .ok p := by
    cases h : prepareModel { exRunEnv with tdCsv := [⟨[1, 1, 1], 1, 1, 0⟩, ⟨[1, 1, 1], 1, 2, 0⟩, ⟨[1, 1, 1], 1, 3, 0⟩] }
      exSearchRun "TDRec" with
    | ok p => exact ⟨p, rfl⟩
    | error e => 
      have : Except.isOk (.error e : PyM (Prepared ℚ)) = true := by rw [← h]; decide +kernel
      cases this
  obtain ⟨p, hp⟩ := hp
  obtain ⟨-, -, -, -, train, valid, -, -, r, a, n, x, -, -, -, -, -, -, hr, ha, -, -, h, -⟩ := C122_tdrec_partial exRunEnv
    exSearchEnv exSearchEnv_ok exSearchRun exGridCfg exFixTd rfl exSearchData _ exSearch_td "TDRec" (by decide) p hp
  simp only [exGridCfg, List.mem_singleton] at hr ha
  subst hr ha
  exact ⟨train, valid, n, x, h⟩

end DynCF
