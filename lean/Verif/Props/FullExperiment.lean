/- Property C93: which recommender the experiment script scores at every step. -/
import Verif.Props.ExperimentSeries
import Verif.Model.PrepareModel
import Mathlib.Algebra.Order.Field.Rat
import Mathlib.Data.Rat.Floor

set_option linter.unusedSectionVars false

namespace DynCF
variable {K : Type} {σ F : Type}

/-! ### Specification -/

/-- What a trained recommender shows to the experiment. -/
structure Face (K : Type) where
  recommend : List ℤ → ℕ → Bool → PyM (List (List ℤ))
  maps : Mappings
  u : Mat K
  v : Mat K
  nItems : ℕ

/-- A trained `SVD` or `PSI` object. -/
def svdFace [Field K] (argp : ArgPart K) (st : PSIState K) : Face K :=
  ⟨fun us k internal => psiRecommend argp st us k true internal, st.maps, st.u, st.vt.T, st.vt.cols⟩

/-- A trained object of the `TDRec` family. -/
def tdFace [Field K] (argp : ArgPart K) (st : TDState K) : Face K :=
  ⟨fun us k internal => tdRecommend argp st us k true internal, st.maps, st.u, st.v, st.v.rows⟩

/-- `snap` is what is recorded of the recommender `f` when the chunk `c` arrives. -/
def Snapshot [Field K] [LinearOrder K] (f : Face K) (users : List ℤ) (k : ℕ) (c : List (Row K)) (snap : Snap K) : Prop :=
  ∃ r, f.recommend (getUsersToRecommendTestItems c f.maps).1 k false = .ok r ∧
    hr r (getUsersToRecommendTestItems c f.maps).2 = .ok snap.hit ∧
    mrr r (getUsersToRecommendTestItems c f.maps).2 = .ok snap.rr ∧
    f.recommend users k true = .ok snap.recs ∧
    snap.u = f.u ∧ snap.v = f.v ∧ snap.nItems = f.nItems

/-- `d` is what the script records for the rows `data` when the recommender that meets a chunk is
related by `At` to the initial rows and the chunks before. -/
def ScriptRun [Field K] [LinearOrder K] [FloorRing K] (env : RunEnv K) (cfg : RunCfg K)
    (data : List (IRow K)) (At : List (Row K) → List (List (Row K)) → Face K → Prop)
    (d : Dynamics K) : Prop :=
  ∃ initial stream left chunks e snaps,
    prepareDataForExperiment env.sortDay data cfg.initRatio cfg.hmMin = .ok (initial, stream, left) ∧
    chunks = (stream.map Prod.snd).take (expSteps cfg.howMany stream.length) ∧
    e.testUsers = getUsersStability env.sortCnt initial left cfg.howMany ∧ e.kRecs = cfg.topk ∧
    e.normOf = env.normM ∧ e.clock = env.clock ∧
    snaps.length = chunks.length ∧ Records e snaps d ∧
    ∀ (i : ℕ) (c : List (Row K)) (snap : Snap K), chunks[i]? = some c → snaps[i]? = some snap →
      ∃ f, At initial (chunks.take i) f ∧ Snapshot f e.testUsers e.kRecs c snap

/-- Training on the cropped initial rows and then, after every chunk, one more training of the same
object on the cropped table of all rows so far; `again s t` is this later training. -/
inductive Retrained {σ : Type} [LinearOrder K] (L : ℕ) (first : List (PRow K) → PyM σ)
    (again : σ → List (PRow K) → PyM σ) (initial : List (Row K)) : List (List (Row K)) → σ → Prop
  | first {t : List (PRow K)} {s : σ} : IsCropped L initial t → first t = .ok s →
      Retrained L first again initial [] s
  | again {past : List (List (Row K))} {c : List (Row K)} {t : List (PRow K)} {s s' : σ} :
      Retrained L first again initial past s → IsCropped L (initial ++ past.flatten ++ c) t →
      again s t = .ok s' → Retrained L first again initial (past ++ [c]) s'

/-- The configuration of an object of the `TDRec` family with the given rank and attention exponent:
everything else comes from the fixed configuration, and the sweeps from the default. -/
def tdSetup (env : RunEnv K) (ft : FixedTd) (rank : ℕ × ℕ × ℕ) (attF : K) : TDCfg K where
  hooi := { la := env.la, initRng := env.initRng, rsvdRng := env.rsvdRng, rank := rank
            nPower := ft.nPower, os := ft.os, parallel := ft.parallel }
  normOf := env.normT
  seqLen := ft.seqLen
  attF := some (env.pow attF)
  nIter := 25
  growthTol := env.growthTol
  force := ft.force

/-- The rank and the attention exponent are the selected ones, and the object can be constructed. -/
def TdSelected [LinearOrder K] [Field K] (env : RunEnv K) (cfg : RunCfg K) (ft : FixedTd) (c : TDCfg K)
    (m : TDAtt K) : Prop :=
  ∃ (r1 r2 r3 : ℕ) (f : K) (n : ℤ),
    getOptimalTdrecParams cfg.dataset env.tdCsv = .ok ([(r1 : ℤ), (r2 : ℤ), (r3 : ℤ)], f, n) ∧
    c = tdSetup env ft (r1, r2, r3) f ∧ tdInit c = .ok m

/-! ### Proof -/

variable [Field K] [LinearOrder K]

theorem watched_at {M : RecModel K σ F} {cfg : ExpCfg K} {s0 : σ} {initial : Tab K}
    {past : List (List (Row K))} {snaps : List (Snap K)} {s : σ}
    (h : Watched M cfg s0 initial past snaps s) (i : ℕ) (c : List (Row K)) (snap : Snap K)
    (hc : past[i]? = some c) (hs : snaps[i]? = some snap) :
    ∃ si s', Watched M cfg s0 initial (past.take i) (snaps.take i) si ∧ Shows M cfg si c snap s' := by
  induction h with
  | train _ => simp at hc
  | @step past snaps s s1 s2 c' snap' d hw hsh _ _ ih =>
    have hl := watched_length M cfg hw
    rcases Nat.lt_or_ge i past.length with hi | hi
    · rw [List.getElem?_append_left hi] at hc
      rw [List.getElem?_append_left (by omega)] at hs
      obtain ⟨si, s', h1, h2⟩ := ih hc hs
      refine ⟨si, s', ?_, h2⟩
      rw [List.take_append_of_le_length (by omega), List.take_append_of_le_length (by omega)]
      exact h1
    · have hlt : i < (past ++ [c']).length := (List.getElem?_eq_some_iff.1 hc).1
      have hi' : i = past.length := by simp at hlt; omega
      subst hi'
      rw [List.getElem?_append_right (by omega), Nat.sub_self] at hc
      rw [List.getElem?_append_right (by omega), hl, Nat.sub_self] at hs
      simp only [List.getElem?_cons_zero, Option.some.injEq] at hc hs
      subst hc
      subst hs
      refine ⟨s, s1, ?_, hsh⟩
      rw [List.take_left, ← hl, List.take_left]
      exact hw

theorem runWith_ok {M : RecModel K σ F} {e : ExpCfg K} {s0 : σ} {initial : Tab K}
    {stream : List (List (Row K))} {d : Dynamics K} (h : runWith M e s0 initial stream = .ok d) :
    ∃ snaps s, Watched M e s0 initial (stream.take (expSteps e.howMany stream.length)) snaps s ∧
      Records e snaps d := by
  unfold runWith at h
  obtain ⟨st, h1, h2⟩ := (bind_ok_iff _ _ _).1 h
  have h2 := Except.ok.inj h2
  subst h2
  obtain ⟨snaps, h3, h4⟩ := C92_records M e s0 initial stream st h1
  exact ⟨snaps, st.model, h3, h4⟩

theorem crop_mem_user {L : ℕ} {df : List (Row K)} {t : List (PRow K)} (hL : 1 ≤ L)
    (h : IsCropped L df t) (u : ℤ) :
    u ∈ (t.map PRow.row).map Row.user ↔ u ∈ df.map Row.user := by
  obtain ⟨s, hs, h1, h2⟩ := h.2 u
  have hl : (t.filter fun r => decide (r.row.user = u)).length = min L (rowsOf u df).length := by
    have := congrArg List.length h1
    rw [List.length_map, lastN_length, isStableTimeSort_unique hs (tsSort_stable _)] at this
    unfold tsSort at this
    rw [stableSort_length] at this
    exact this
  constructor
  · intro hu
    by_contra hn
    have : rowsOf u df = [] := by
      unfold rowsOf
      rw [List.filter_eq_nil_iff]
      intro r hr
      simp only [decide_eq_true_eq]
      rintro rfl
      exact hn (List.mem_map_of_mem (f := Row.user) hr)
    rw [this, List.length_nil, Nat.min_zero, List.length_eq_zero_iff, List.filter_eq_nil_iff] at hl
    obtain ⟨r, hr, rfl⟩ := List.mem_map.1 hu
    obtain ⟨p, hp, rfl⟩ := List.mem_map.1 hr
    exact hl p hp (by simp)
  · intro hu
    obtain ⟨r, hr, rfl⟩ := List.mem_map.1 hu
    have hpos : 0 < (rowsOf r.user df).length :=
      List.length_pos_of_mem (a := r) (by unfold rowsOf; simp [hr])
    have : 0 < (t.filter fun p => decide (p.row.user = r.user)).length := by rw [hl]; omega
    obtain ⟨p, hp⟩ := List.exists_mem_of_length_pos this
    rw [List.mem_filter] at hp
    have : p.row.user = r.user := by simpa using hp.2
    rw [← this]
    exact List.mem_map_of_mem (f := Row.user) (List.mem_map_of_mem (f := PRow.row) hp.1)

theorem stability_congr (sortCnt : List (ℤ × ℕ) → List (ℤ × ℕ)) (a b left : List (Row K)) (hm : ℤ)
    (h : ∀ u, u ∈ a.map Row.user ↔ u ∈ b.map Row.user) :
    getUsersStability sortCnt a left hm = getUsersStability sortCnt b left hm := by
  unfold getUsersStability
  have : ∀ u, u ∈ pdUnique (a.map Row.user) ↔ u ∈ pdUnique (b.map Row.user) := by
    intro u
    rw [mem_pdUnique, mem_pdUnique, h]
  simp only [this]

theorem svd_shows {M : RecModel K (Option (PSIState K)) (FacArg K)} {env : PSIEnv K} {argp : ArgPart K}
    {c0 : PSICfg} (h1 : M.recommend = (svdClass env argp c0).recommend)
    (h2 : M.maps = (svdClass env argp c0).maps) (h3 : M.getU = (svdClass env argp c0).getU)
    (h4 : M.getV = (svdClass env argp c0).getV) (h5 : M.nItems = (svdClass env argp c0).nItems)
    {e : ExpCfg K} {st : PSIState K} {c : List (Row K)} {snap : Snap K} {s' : Option (PSIState K)}
    (h : Shows M e (some st) c snap s') :
    s' = some st ∧ Snapshot (svdFace argp st) e.testUsers e.kRecs c snap := by
  unfold Shows at h
  rw [h1, h2, h3, h4, h5] at h
  obtain ⟨r, s1, g1, g2, g3, g4, g5, g6, g7⟩ := h
  obtain ⟨x, k1, k2⟩ := (bind_ok_iff _ _ _).1 g1
  have k2 := Except.ok.inj k2
  obtain ⟨rfl, rfl⟩ := Prod.mk.inj k2
  obtain ⟨y, k3, k4⟩ := (bind_ok_iff _ _ _).1 g4
  have k4 := Except.ok.inj k4
  obtain ⟨k5, rfl⟩ := Prod.mk.inj k4
  subst k5
  exact ⟨rfl, x, k1, g2, g3, k3, (Except.ok.inj g5).symm, (Except.ok.inj g6).symm, g7⟩

theorem td_shows {M : RecModel K (Option (TDState K)) (FacArg K)} {argp : ArgPart K}
    {c0 : TDCfg K} {m : TDAtt K} (h1 : M.recommend = (tdClass argp c0 m).recommend)
    (h2 : M.maps = (tdClass argp c0 m).maps) (h3 : M.getU = (tdClass argp c0 m).getU)
    (h4 : M.getV = (tdClass argp c0 m).getV) (h5 : M.nItems = (tdClass argp c0 m).nItems)
    {e : ExpCfg K} {st : TDState K} {c : List (Row K)} {snap : Snap K} {s' : Option (TDState K)}
    (h : Shows M e (some st) c snap s') :
    s' = some st ∧ Snapshot (tdFace argp st) e.testUsers e.kRecs c snap := by
  unfold Shows at h
  rw [h1, h2, h3, h4, h5] at h
  obtain ⟨r, s1, g1, g2, g3, g4, g5, g6, g7⟩ := h
  obtain ⟨x, k1, k2⟩ := (bind_ok_iff _ _ _).1 g1
  have k2 := Except.ok.inj k2
  obtain ⟨rfl, rfl⟩ := Prod.mk.inj k2
  obtain ⟨y, k3, k4⟩ := (bind_ok_iff _ _ _).1 g4
  have k4 := Except.ok.inj k4
  obtain ⟨k5, rfl⟩ := Prod.mk.inj k4
  subst k5
  exact ⟨rfl, x, k1, g2, g3, k3, (Except.ok.inj g5).symm, (Except.ok.inj g6).symm, g7⟩

theorem svd_watched {env : PSIEnv K} {argp : ArgPart K} {c0 : PSICfg} {e : ExpCfg K}
    (hm : e.chunkMode = false) (hr : e.reinit = false) (h3 : e.threeD = false)
    {initial : List (Row K)} {past : List (List (Row K))} {snaps : List (Snap K)}
    {s : Option (PSIState K)}
    (h : Watched (useTrain (svdClass env argp c0)) e none (.plain initial) past snaps s) :
    ∃ st, s = some st ∧ svdTrain env c0 (initial ++ past.flatten) = .ok st := by
  cases h with
  | train h =>
    obtain ⟨st, h1, h2⟩ := (bind_ok_iff _ _ _).1 h
    exact ⟨st, (Except.ok.inj h2).symm, by simpa [Tab.rows] using h1⟩
  | step hw hsh hd hu =>
    rw [hr, if_neg (by simp)] at hu
    unfold RetrainData at hd
    rw [hm, h3, if_neg (by simp), if_neg (by simp)] at hd
    obtain ⟨rows, e1, rfl⟩ := hd
    injection e1 with e1
    subst e1
    obtain ⟨st, h1, h2⟩ := (bind_ok_iff _ _ _).1 hu
    exact ⟨st, (Except.ok.inj h2).symm, by simpa [Tab.rows] using h1⟩

theorem psi_watched {env : PSIEnv K} {argp : ArgPart K} {c0 : PSICfg} {e : ExpCfg K}
    (hm : e.chunkMode = true) (hr : e.reinit = false)
    {initial : List (Row K)} {past : List (List (Row K))} {snaps : List (Snap K)}
    {s : Option (PSIState K)}
    (h : Watched (psiClass env argp c0) e none (.plain initial) past snaps s) :
    ∃ st, s = some st ∧ psiRun env c0 initial past = .ok st := by
  induction h with
  | train h =>
    obtain ⟨st, h1, h2⟩ := (bind_ok_iff _ _ _).1 h
    refine ⟨st, (Except.ok.inj h2).symm, ?_⟩
    unfold psiRun
    rw [show svdTrain env c0 initial = .ok st from h1, except_bind_ok]
    rfl
  | @step past snaps s s1 s2 c snap d hw hsh hd hu ih =>
    obtain ⟨st, rfl, ih⟩ := ih
    obtain ⟨rfl, -⟩ := svd_shows (c0 := c0) (env := env) rfl rfl rfl rfl rfl hsh
    rw [hr, if_neg (by simp)] at hu
    unfold RetrainData at hd
    rw [hm, if_pos rfl] at hd
    subst hd
    obtain ⟨st', h1, h2⟩ := (bind_ok_iff _ _ _).1 hu
    refine ⟨st', (Except.ok.inj h2).symm, ?_⟩
    unfold psiRun at ih ⊢
    obtain ⟨st0, h4, h5⟩ := (bind_ok_iff _ _ _).1 ih
    rw [h4, except_bind_ok, List.foldlM_append, h5, except_bind_ok, List.foldlM_cons]
    rw [show psiUpdate env c0 st c = .ok st' from h1, except_bind_ok]
    rfl

theorem ti_watched {rounds : TIRounds K} {argp : ArgPart K} {c0 : TICfg K} {m : TDAtt K}
    {e : ExpCfg K} (hm : e.chunkMode = true) (hr : e.reinit = false)
    {t : List (PRow K)} {past : List (List (Row K))} {snaps : List (Snap K)}
    {s : Option (TDState K)}
    (h : Watched (tiClass rounds argp c0 m) e none (.posed t) past snaps s) :
    ∃ st0 st, s = some st ∧ tdTrain c0.td m (none : Option (ExitCallback K Unit)) () [] t = .ok st0 ∧
      tiUpdates rounds c0 m st0 past true = .ok st := by
  induction h with
  | train h =>
    obtain ⟨st, h1, h2⟩ := (bind_ok_iff _ _ _).1 h
    exact ⟨st, st, (Except.ok.inj h2).symm, h1, rfl⟩
  | @step past snaps s s1 s2 c snap d hw hsh hd hu ih =>
    obtain ⟨st0, st, rfl, h0, ih⟩ := ih
    obtain ⟨rfl, -⟩ := td_shows (c0 := c0.td) (m := m) rfl rfl rfl rfl rfl hsh
    rw [hr, if_neg (by simp)] at hu
    unfold RetrainData at hd
    rw [hm, if_pos rfl] at hd
    subst hd
    obtain ⟨st', h1, h2⟩ := (bind_ok_iff _ _ _).1 hu
    refine ⟨st0, st', (Except.ok.inj h2).symm, h0, ?_⟩
    unfold tiUpdates at ih ⊢
    rw [List.foldlM_append, ih, except_bind_ok, List.foldlM_cons]
    rw [show tiUpdate rounds c0 m st c true = .ok st' from h1, except_bind_ok]
    rfl

theorem td_watched {argp : ArgPart K} {c0 : TDCfg K} {m : TDAtt K}
    {e : ExpCfg K} (hm : e.chunkMode = false) (hr : e.reinit = false) (h3 : e.threeD = true)
    {initial : List (Row K)} {t : List (PRow K)} (ht : getDfWithCroppedPos initial e.maxLen true = .ok t)
    {past : List (List (Row K))} {snaps : List (Snap K)} {s : Option (TDState K)}
    (h : Watched (useTrain (tdClass argp c0 m)) e none (.posed t) past snaps s) :
    ∃ st, s = some st ∧ Retrained e.maxLen (tdTrain c0 m (none : Option (ExitCallback K Unit)) () [])
      (fun s => tdTrain c0 m (none : Option (ExitCallback K Unit)) () s.seqHist) initial past st := by
  have hL := (crop_ok_inv _ _ _ ht).2.1
  induction h with
  | train h =>
    obtain ⟨st, h1, h2⟩ := (bind_ok_iff _ _ _).1 h
    exact ⟨st, (Except.ok.inj h2).symm, .first (crop_ok_isCropped _ _ _ ht) h1⟩
  | @step past snaps s s1 s2 c snap d hw hsh hd hu ih =>
    obtain ⟨st, rfl, ih⟩ := ih
    obtain ⟨rfl, -⟩ := td_shows (c0 := c0) (m := m) rfl rfl rfl rfl rfl hsh
    rw [hr, if_neg (by simp)] at hu
    unfold RetrainData at hd
    rw [hm, h3, if_neg (by simp), if_pos rfl] at hd
    obtain ⟨t', h5, rfl⟩ := hd
    obtain ⟨st', h1, h2⟩ := (bind_ok_iff _ _ _).1 hu
    refine ⟨st', (Except.ok.inj h2).symm, .again ih ?_ h1⟩
    rw [List.append_assoc]
    apply C64_crop_of_all _ hL _ _ t _ ht
    rw [← List.append_assoc]
    exact h5

theorem tdRe_watched {argp : ArgPart K} {c0 : TDCfg K} {m : TDAtt K}
    {e : ExpCfg K} (hm : e.chunkMode = false) (hr : e.reinit = true) (h3 : e.threeD = true)
    {initial : List (Row K)} {t : List (PRow K)} (ht : getDfWithCroppedPos initial e.maxLen true = .ok t)
    {past : List (List (Row K))} {snaps : List (Snap K)} {s : Option (TDState K)}
    (h : Watched (useTrain (tdReClass argp c0 m)) e none (.posed t) past snaps s) :
    ∃ st, s = some st ∧ Retrained e.maxLen (fun t => tdReTrain c0 m [] t none none)
      (fun s t => tdReTrain c0 m s.seqHist t (some ⟨s.u, s.v, s.w⟩) (some s.maps)) initial past st := by
  have hL := (crop_ok_inv _ _ _ ht).2.1
  induction h with
  | train h =>
    obtain ⟨st, h1, h2⟩ := (bind_ok_iff _ _ _).1 h
    exact ⟨st, (Except.ok.inj h2).symm, .first (crop_ok_isCropped _ _ _ ht) h1⟩
  | @step past snaps s s1 s2 c snap d hw hsh hd hu ih =>
    obtain ⟨st, rfl, ih⟩ := ih
    obtain ⟨rfl, -⟩ := td_shows (c0 := c0) (m := m) rfl rfl rfl rfl rfl hsh
    rw [hr, if_pos rfl] at hu
    unfold RetrainData at hd
    rw [hm, h3, if_neg (by simp), if_pos rfl] at hd
    obtain ⟨t', h5, rfl⟩ := hd
    obtain ⟨st', h1, h2⟩ := (bind_ok_iff _ _ _).1 hu
    refine ⟨st', (Except.ok.inj h2).symm, .again ih ?_ h1⟩
    rw [List.append_assoc]
    apply C64_crop_of_all _ hL _ _ t _ ht
    rw [← List.append_assoc]
    exact h5

theorem natRank_ok {r : ℤ} {n : ℕ} (h : natRank r = .ok n) : r = (n : ℤ) := by
  unfold natRank at h
  split at h
  · have h := Except.ok.inj h
    omega
  · cases h

theorem prepTdCfg_ok {env : RunEnv K} {cfg : RunCfg K} {ft : FixedTd} (hf : cfg.fixedTd = some ft)
    {c : TDCfg K} {m : TDAtt K} (h : prepTdCfg env cfg = .ok c) (hm : tdInit c = .ok m) :
    TdSelected env cfg ft c m := by
  unfold prepTdCfg at h
  rw [hf] at h
  obtain ⟨⟨rk, f, n⟩, h1, h⟩ := (bind_ok_iff _ _ _).1 h
  obtain ⟨ft', h2, h⟩ := (bind_ok_iff _ _ _).1 h
  have h2 := Except.ok.inj h2
  subst h2
  obtain ⟨r, h3, h⟩ := (bind_ok_iff _ _ _).1 h
  dsimp only at h3
  unfold natRank3 at h3
  split at h3
  · rename_i a b c'
    obtain ⟨a', g1, h3⟩ := (bind_ok_iff _ _ _).1 h3
    obtain ⟨b', g2, h3⟩ := (bind_ok_iff _ _ _).1 h3
    obtain ⟨c'', g3, h3⟩ := (bind_ok_iff _ _ _).1 h3
    have h3 := Except.ok.inj h3
    subst h3
    have g1 := natRank_ok g1
    have g2 := natRank_ok g2
    have g3 := natRank_ok g3
    subst g1 g2 g3
    exact ⟨a', b', c'', f, n, h1, (Except.ok.inj h).symm, hm⟩
  · cases h3

theorem prepSvdCfg_ok {env : RunEnv K} {cfg : RunCfg K} {fs : FixedSvd} (hf : cfg.fixedSvd = some fs)
    {c : PSICfg} (h : prepSvdCfg env cfg = .ok c) :
    ∃ r : ℕ, getOptimalSvdRank cfg.dataset env.svdCsv = .ok (r : ℤ) ∧
      c = ⟨r, fs.nPower, fs.os, none, false⟩ := by
  unfold prepSvdCfg at h
  rw [hf] at h
  obtain ⟨r, h1, h⟩ := (bind_ok_iff _ _ _).1 h
  obtain ⟨f, h2, h⟩ := (bind_ok_iff _ _ _).1 h
  have h2 := Except.ok.inj h2
  subst h2
  obtain ⟨n, h3, h⟩ := (bind_ok_iff _ _ _).1 h
  have h3 := natRank_ok h3
  subst h3
  exact ⟨n, h1, (Except.ok.inj h).symm⟩

variable [FloorRing K]

theorem script_plain {env : RunEnv K} {cfg : RunCfg K} {fs : FixedSvd} {ft : FixedTd} {name : String}
    (hn : name = "SVD" ∨ name = "PSIRec") {data : List (IRow K)} {d : Dynamics K}
    (h : runScript env cfg fs ft name data = .ok d) :
    ∃ initial stream left p, prepareDataForExperiment env.sortDay data cfg.initRatio cfg.hmMin =
        .ok (initial, stream, left) ∧
      prepareModel env { cfg with fixedSvd := some fs, fixedTd := none } name = .ok p ∧
      runPrepared env (expCfgOf env cfg p (getUsersStability env.sortCnt initial left cfg.howMany)) p
        (.plain initial) (stream.map Prod.snd) = .ok d := by
  unfold runScript at h
  have e : scriptChoice fs ft name = .ok ("2d", some fs, none) := by
    rcases hn with rfl | rfl <;> rfl
  rw [e, except_bind_ok] at h
  unfold fullDynamicalExperiment at h
  obtain ⟨⟨initial, stream, left⟩, h1, h⟩ := (bind_ok_iff _ _ _).1 h
  obtain ⟨t, h2, h⟩ := (bind_ok_iff _ _ _).1 h
  have h2 : t = .plain initial := by
    unfold initialTable at h2
    rw [if_neg (show ¬ "2d" = "3d" by decide), if_pos rfl] at h2
    exact (Except.ok.inj h2).symm
  subst h2
  obtain ⟨p, h3, h⟩ := (bind_ok_iff _ _ _).1 h
  exact ⟨initial, stream, left, p, h1, h3, h⟩

theorem script_posed {env : RunEnv K} {cfg : RunCfg K} {fs : FixedSvd} {ft : FixedTd} {name : String}
    (hn : name ∈ ["TDRec", "TDRecReinit", "TIRec", "TIRecA", "Random"]) {data : List (IRow K)}
    {d : Dynamics K} (h : runScript env cfg fs ft name data = .ok d) :
    ∃ initial stream left t p, prepareDataForExperiment env.sortDay data cfg.initRatio cfg.hmMin =
        .ok (initial, stream, left) ∧ getDfWithCroppedPos initial cfg.maxLen true = .ok t ∧
      prepareModel env { cfg with fixedSvd := none, fixedTd := some ft } name = .ok p ∧
      runPrepared env (expCfgOf env cfg p (getUsersStability env.sortCnt initial left cfg.howMany)) p
        (.posed t) (stream.map Prod.snd) = .ok d := by
  unfold runScript at h
  have e : scriptChoice fs ft name = .ok ("3d", none, some ft) := by
    simp only [List.mem_cons, List.not_mem_nil, or_false] at hn
    rcases hn with rfl | rfl | rfl | rfl | rfl <;> rfl
  rw [e, except_bind_ok] at h
  unfold fullDynamicalExperiment at h
  obtain ⟨⟨initial, stream, left⟩, h1, h⟩ := (bind_ok_iff _ _ _).1 h
  obtain ⟨t, h2, h⟩ := (bind_ok_iff _ _ _).1 h
  unfold initialTable at h2
  rw [if_pos rfl] at h2
  obtain ⟨t', h4, h2⟩ := (bind_ok_iff _ _ _).1 h2
  have h2 := Except.ok.inj h2
  subst h2
  obtain ⟨p, h3, h⟩ := (bind_ok_iff _ _ _).1 h
  refine ⟨initial, stream, left, t', p, h1, h4, h3, ?_⟩
  have hu := stability_congr env.sortCnt (Tab.posed t').rows initial left cfg.howMany
    (crop_mem_user (crop_ok_inv _ _ _ h4).2.1 (crop_ok_isCropped _ _ _ h4))
  dsimp only at h
  rw [hu] at h
  exact h

theorem scriptRun_intro {env : RunEnv K} {cfg : RunCfg K} {data : List (IRow K)}
    {At : List (Row K) → List (List (Row K)) → Face K → Prop} {d : Dynamics K}
    {initial left : List (Row K)} {stream : List (ℤ × List (Row K))} {p : Prepared K}
    {M : RecModel K σ F} {s0 : σ} {t : Tab K}
    (h1 : prepareDataForExperiment env.sortDay data cfg.initRatio cfg.hmMin = .ok (initial, stream, left))
    (h2 : runWith M (expCfgOf env cfg p (getUsersStability env.sortCnt initial left cfg.howMany)) s0 t
      (stream.map Prod.snd) = .ok d)
    (h3 : ∀ (past : List (List (Row K))) (snaps : List (Snap K)) (s s' : σ) (c : List (Row K))
      (snap : Snap K),
      Watched M (expCfgOf env cfg p (getUsersStability env.sortCnt initial left cfg.howMany)) s0 t
        past snaps s →
      Shows M (expCfgOf env cfg p (getUsersStability env.sortCnt initial left cfg.howMany)) s c snap s' →
      ∃ f, At initial past f ∧
        Snapshot f (getUsersStability env.sortCnt initial left cfg.howMany) cfg.topk c snap) :
    ScriptRun env cfg data At d := by
  obtain ⟨snaps, s, hw, hr⟩ := runWith_ok h2
  rw [List.length_map] at hw
  refine ⟨initial, stream, left, _, _, snaps, h1, rfl, rfl, rfl, rfl, rfl, watched_length _ _ hw, hr, ?_⟩
  intro i c snap hc hs
  obtain ⟨si, s', g1, g2⟩ := watched_at hw i c snap hc hs
  exact h3 _ _ _ _ _ _ g1 g2

/-- **C93, SVD.** The recommender that meets a chunk is one freshly trained, with the selected rank, on
the initial rows and all chunks before it. -/
theorem C93_svd (env : RunEnv K) (cfg : RunCfg K) (fs : FixedSvd) (ft : FixedTd) (data : List (IRow K))
    (d : Dynamics K) (h : runScript env cfg fs ft "SVD" data = .ok d) :
    ∃ r : ℕ, getOptimalSvdRank cfg.dataset env.svdCsv = .ok (r : ℤ) ∧
      ScriptRun env cfg data (fun initial past f =>
        ∃ st, svdTrain env.psi ⟨r, fs.nPower, fs.os, none, false⟩ (initial ++ past.flatten) = .ok st ∧
          f = svdFace env.argp st) d := by
  obtain ⟨initial, stream, left, p, h1, h2, h3⟩ := script_plain (Or.inl rfl) h
  unfold prepareModel at h2
  rw [if_pos rfl] at h2
  obtain ⟨c, h4, h2⟩ := (bind_ok_iff _ _ _).1 h2
  have h2 := Except.ok.inj h2
  subst h2
  obtain ⟨r, h5, rfl⟩ := prepSvdCfg_ok rfl h4
  refine ⟨r, h5, scriptRun_intro h1 h3 ?_⟩
  intro past snaps s s' c snap hw hs
  obtain ⟨st, rfl, hst⟩ := svd_watched rfl rfl rfl hw
  exact ⟨_, ⟨st, hst, rfl⟩, (svd_shows (env := env.psi) (c0 := ⟨r, fs.nPower, fs.os, none, false⟩) rfl rfl rfl rfl rfl hs).2⟩

/-- **C93, PSIRec.** The recommender that meets a chunk has been trained, with the selected rank, on the
initial rows and then updated with every chunk before it, in order. -/
theorem C93_psirec (env : RunEnv K) (cfg : RunCfg K) (fs : FixedSvd) (ft : FixedTd) (data : List (IRow K))
    (d : Dynamics K) (h : runScript env cfg fs ft "PSIRec" data = .ok d) :
    ∃ r : ℕ, getOptimalSvdRank cfg.dataset env.svdCsv = .ok (r : ℤ) ∧
      ScriptRun env cfg data (fun initial past f =>
        ∃ st, psiRun env.psi ⟨r, fs.nPower, fs.os, none, false⟩ initial past = .ok st ∧
          f = svdFace env.argp st) d := by
  obtain ⟨initial, stream, left, p, h1, h2, h3⟩ := script_plain (Or.inr rfl) h
  unfold prepareModel at h2
  rw [if_neg (by decide), if_pos rfl] at h2
  obtain ⟨c, h4, h2⟩ := (bind_ok_iff _ _ _).1 h2
  have h2 := Except.ok.inj h2
  subst h2
  obtain ⟨r, h5, rfl⟩ := prepSvdCfg_ok rfl h4
  refine ⟨r, h5, scriptRun_intro h1 h3 ?_⟩
  intro past snaps s s' c snap hw hs
  obtain ⟨st, rfl, hst⟩ := psi_watched rfl rfl hw
  exact ⟨_, ⟨st, hst, rfl⟩, (svd_shows (env := env.psi) (c0 := ⟨r, fs.nPower, fs.os, none, false⟩) rfl rfl rfl rfl rfl hs).2⟩

/-- **C93, TDRec.** The recommender that meets a chunk is one object, trained on the cropped initial rows
and trained again after every chunk on the cropped table of all rows so far; what the object keeps
between two trainings is its sequential history. -/
theorem C93_tdrec (env : RunEnv K) (cfg : RunCfg K) (fs : FixedSvd) (ft : FixedTd) (data : List (IRow K))
    (d : Dynamics K) (h : runScript env cfg fs ft "TDRec" data = .ok d) :
    ∃ c m, TdSelected env cfg ft c m ∧
      ScriptRun env cfg data (fun initial past f =>
        ∃ st, Retrained cfg.maxLen (tdTrain c m (none : Option (ExitCallback K Unit)) () [])
            (fun s => tdTrain c m (none : Option (ExitCallback K Unit)) () s.seqHist) initial past st ∧
          f = tdFace env.argp st) d := by
  obtain ⟨initial, stream, left, t, p, h1, ht, h2, h3⟩ := script_posed (by simp) h
  unfold prepareModel at h2
  rw [if_neg (by decide), if_neg (by decide), if_pos rfl] at h2
  obtain ⟨c, h4, h2⟩ := (bind_ok_iff _ _ _).1 h2
  obtain ⟨m, h5, h2⟩ := (bind_ok_iff _ _ _).1 h2
  have h2 := Except.ok.inj h2
  subst h2
  have h6 := prepTdCfg_ok (ft := ft) rfl h4 h5
  refine ⟨c, m, h6, scriptRun_intro h1 h3 ?_⟩
  intro past snaps s s' c' snap hw hs
  obtain ⟨st, rfl, hst⟩ := td_watched rfl rfl rfl ht hw
  exact ⟨_, ⟨st, hst, rfl⟩, (td_shows (c0 := c) (m := m) rfl rfl rfl rfl rfl hs).2⟩

/-- **C93, TDRecReinit.** As for TDRec, but every later training starts from the factors and the id
mappings of the object before it. -/
theorem C93_tdrecreinit (env : RunEnv K) (cfg : RunCfg K) (fs : FixedSvd) (ft : FixedTd)
    (data : List (IRow K)) (d : Dynamics K) (h : runScript env cfg fs ft "TDRecReinit" data = .ok d) :
    ∃ c m, TdSelected env cfg ft c m ∧
      ScriptRun env cfg data (fun initial past f =>
        ∃ st, Retrained cfg.maxLen (fun t => tdReTrain c m [] t none none)
            (fun s t => tdReTrain c m s.seqHist t (some ⟨s.u, s.v, s.w⟩) (some s.maps)) initial past st ∧
          f = tdFace env.argp st) d := by
  obtain ⟨initial, stream, left, t, p, h1, ht, h2, h3⟩ := script_posed (by simp) h
  unfold prepareModel at h2
  rw [if_neg (by decide), if_neg (by decide), if_neg (by decide), if_pos rfl] at h2
  obtain ⟨c, h4, h2⟩ := (bind_ok_iff _ _ _).1 h2
  obtain ⟨m, h5, h2⟩ := (bind_ok_iff _ _ _).1 h2
  have h2 := Except.ok.inj h2
  subst h2
  have h6 := prepTdCfg_ok (ft := ft) rfl h4 h5
  refine ⟨c, m, h6, scriptRun_intro h1 h3 ?_⟩
  intro past snaps s s' c' snap hw hs
  obtain ⟨st, rfl, hst⟩ := tdRe_watched rfl rfl rfl ht hw
  exact ⟨_, ⟨st, hst, rfl⟩, (td_shows (c0 := c) (m := m) rfl rfl rfl rfl rfl hs).2⟩

/-- **C93, TIRec.** The recommender that meets a chunk has been trained on the cropped initial rows and
then updated with every chunk before it, in order, with attention, explicit matrices and sorting. -/
theorem C93_tirec (env : RunEnv K) (cfg : RunCfg K) (fs : FixedSvd) (ft : FixedTd) (data : List (IRow K))
    (d : Dynamics K) (h : runScript env cfg fs ft "TIRec" data = .ok d) :
    ∃ c m, TdSelected env cfg ft c.td m ∧ c.light = false ∧ c.explicitCalc = true ∧
      ScriptRun env cfg data (fun initial past f =>
        ∃ t st0 st, IsCropped cfg.maxLen initial t ∧
          tdTrain c.td m (none : Option (ExitCallback K Unit)) () [] t = .ok st0 ∧
          tiUpdates tirecRounds c m st0 past true = .ok st ∧ f = tdFace env.argp st) d := by
  obtain ⟨initial, stream, left, t, p, h1, ht, h2, h3⟩ := script_posed (by simp) h
  unfold prepareModel at h2
  rw [if_neg (by decide), if_neg (by decide), if_neg (by decide), if_neg (by decide), if_pos rfl] at h2
  obtain ⟨c, h4, h2⟩ := (bind_ok_iff _ _ _).1 h2
  obtain ⟨m, h5, h2⟩ := (bind_ok_iff _ _ _).1 h2
  have h2 := Except.ok.inj h2
  subst h2
  have h6 := prepTdCfg_ok (ft := ft) rfl h4 h5
  refine ⟨prepTiCfg env c, m, h6, rfl, rfl, scriptRun_intro h1 h3 ?_⟩
  intro past snaps s s' c' snap hw hs
  obtain ⟨st0, st, rfl, hst0, hst⟩ := ti_watched rfl rfl hw
  exact ⟨_, ⟨t, st0, st, crop_ok_isCropped _ _ _ ht, hst0, hst, rfl⟩,
    (td_shows (c0 := c) (m := m) rfl rfl rfl rfl rfl hs).2⟩

/-- **C93, TIRecA.** As for TIRec with the accelerated update, zero embeddings for new ids and without the
integrator for them. -/
theorem C93_tireca (env : RunEnv K) (cfg : RunCfg K) (fs : FixedSvd) (ft : FixedTd) (data : List (IRow K))
    (d : Dynamics K) (h : runScript env cfg fs ft "TIRecA" data = .ok d) :
    ∃ c m, TdSelected env cfg ft c.td m ∧ c.light = false ∧ c.explicitCalc = true ∧ c.init = .zero ∧
      c.integrator = false ∧
      ScriptRun env cfg data (fun initial past f =>
        ∃ t st0 st, IsCropped cfg.maxLen initial t ∧
          tdTrain c.td m (none : Option (ExitCallback K Unit)) () [] t = .ok st0 ∧
          tiUpdates tirecaMiddle c m st0 past true = .ok st ∧ f = tdFace env.argp st) d := by
  obtain ⟨initial, stream, left, t, p, h1, ht, h2, h3⟩ := script_posed (by simp) h
  unfold prepareModel at h2
  rw [if_neg (by decide), if_neg (by decide), if_neg (by decide), if_neg (by decide), if_neg (by decide),
    if_pos rfl] at h2
  obtain ⟨c, h4, h2⟩ := (bind_ok_iff _ _ _).1 h2
  obtain ⟨m, h5, h2⟩ := (bind_ok_iff _ _ _).1 h2
  have h2 := Except.ok.inj h2
  subst h2
  have h6 := prepTdCfg_ok (ft := ft) rfl h4 h5
  refine ⟨prepTiCfg env c, m, h6, rfl, rfl, rfl, rfl, scriptRun_intro h1 h3 ?_⟩
  intro past snaps s s' c' snap hw hs
  obtain ⟨st0, st, rfl, hst0, hst⟩ := ti_watched rfl rfl hw
  exact ⟨_, ⟨t, st0, st, crop_ok_isCropped _ _ _ ht, hst0, hst, rfl⟩,
    (td_shows (c0 := c) (m := m) rfl rfl rfl rfl rfl hs).2⟩

/-- **C93, other names.** -/
theorem C93_unknown (env : RunEnv K) (cfg : RunCfg K) (fs : FixedSvd) (ft : FixedTd) (name : String)
    (data : List (IRow K))
    (hn : name ∉ ["SVD", "PSIRec", "TDRec", "TDRecReinit", "TIRec", "TIRecA", "Random"]) :
    runScript env cfg fs ft name data = .error .runtimeError ∧
    prepareModel env cfg name = .error .runtimeError := by
  simp only [List.mem_cons, List.not_mem_nil, or_false, not_or] at hn
  obtain ⟨n1, n2, n3, n4, n5, n6, n7⟩ := hn
  constructor
  · unfold runScript scriptChoice
    rw [if_neg (by simp [n1, n2]), if_neg (by simp [n3, n4, n5, n6, n7])]
    rfl
  · unfold prepareModel
    rw [if_neg n1, if_neg n2, if_neg n3, if_neg n4, if_neg n5, if_neg n6, if_neg n7]

/-- **C93, tables.** The script gives a sequence model a table with positions and the other models one
without. -/
theorem C93_dimension (env : RunEnv K) (cfg : RunCfg K) (fs : FixedSvd) (ft : FixedTd) (name dim : String)
    (a : Option FixedSvd) (b : Option FixedTd) (p : Prepared K)
    (h1 : scriptChoice fs ft name = .ok (dim, a, b))
    (h2 : prepareModel env { cfg with fixedSvd := a, fixedTd := b } name = .ok p) :
    (dim = "3d" ∧ p.threeD = true ∧ p.maxLen = some cfg.maxLen) ∨
      (dim = "2d" ∧ p.threeD = false ∧ p.maxLen = none) := by
  unfold scriptChoice at h1
  split at h1
  · rename_i hn
    have h1 := Except.ok.inj h1
    obtain ⟨rfl, -⟩ := Prod.mk.inj h1
    right
    simp only [List.mem_cons, List.not_mem_nil, or_false] at hn
    rcases hn with rfl | rfl
    · obtain ⟨c, -, h2⟩ := (bind_ok_iff _ _ _).1 h2
      have h2 := Except.ok.inj h2
      subst h2
      exact ⟨rfl, rfl, rfl⟩
    · obtain ⟨c, -, h2⟩ := (bind_ok_iff _ _ _).1 h2
      have h2 := Except.ok.inj h2
      subst h2
      exact ⟨rfl, rfl, rfl⟩
  · split at h1
    · rename_i hn
      have h1 := Except.ok.inj h1
      obtain ⟨rfl, -⟩ := Prod.mk.inj h1
      left
      simp only [List.mem_cons, List.not_mem_nil, or_false] at hn
      rcases hn with rfl | rfl | rfl | rfl | rfl
      on_goal 5 =>
        have h2 := Except.ok.inj h2
        subst h2
        exact ⟨rfl, rfl, rfl⟩
      all_goals
        obtain ⟨c, -, h2⟩ := (bind_ok_iff _ _ _).1 h2
        obtain ⟨m, -, h2⟩ := (bind_ok_iff _ _ _).1 h2
        have h2 := Except.ok.inj h2
        subst h2
        exact ⟨rfl, rfl, rfl⟩
    · cases h1

/-! ### Completed runs -/

/-- unit vectors of lengths 2, 3 and 4 -/
def exUnit (m i : ℕ) : ℚ :=
  if m = 3 then [-2/3, 2/3, 1/3].getD i 0
  else if m = 4 then [1/2, 1/2, 1/2, -1/2].getD i 0 else [3/5, 4/5].getD i 0

/-- Oracles for the runs: the first column of `Q` is a fixed unit vector; `inv` inverts unit
lower-triangular 3 × 3 matrices. -/
def exRunLA : LinAlg ℚ where
  qr {m n} A := (fun i j => if (j : ℕ) = 0 then exUnit m i else 0,
    fun i j => A (Fin.castLE (Nat.min_le_left m n) i) j)
  svd {m n} A := (fun i j => if (i : ℕ) = j then 1 else 0, fun i =>
      A (Fin.castLE (Nat.min_le_left m n) i) (Fin.castLE (Nat.min_le_right m n) i),
    fun i j => if (i : ℕ) = j then 1 else 0)
  svdFull _ := (1, fun _ => 0, 1)
  svds _ _ := (fun i j => if (i : ℕ) = j then 1 else 0, fun _ => 1, fun i j => if (i : ℕ) = j then 1 else 0)
  inv A := 1 - (A - 1) + (A - 1) * (A - 1)

/-- sums of squares stand in for norms -/
def exRunEnv : RunEnv ℚ where
  psi := ⟨exRunLA, fun _ _ _ _ => 1, fun v => List.range v.length, fun _ _ _ _ => 1⟩
  argp a _ := stableSort (fun i j => decide (a.getD i 0 ≤ a.getD j 0)) (List.range a.length)
  la := exRunLA
  initRng _ _ _ _ _ := 1
  rsvdRng _ _ _ _ _ _ := 1
  vecRng _ _ _ _ _ := 1
  matRng _ _ _ _ _ _ := 1
  normal _ _ _ _ := 1
  normals n := n
  normT a := ∑ i, ∑ j, ∑ k, a.val i j k ^ 2
  normM a := ∑ i, ∑ j, a.val i j ^ 2
  clock n := n
  pow _ n := n
  growthTol := 1 / 100
  sortDay := id
  sortCnt := id
  svdCsv := [⟨1, 1⟩]
  tdCsv := [⟨[1, 1, 1], 1, 2, 1⟩]

def exRunCfg : RunCfg ℚ := ⟨.steam, 1, 4/7, none, 5, 3, none, none⟩
def exFixSvd : FixedSvd := ⟨0, 1⟩
def exFixTd : FixedTd := ⟨3, 0, 1, false, false⟩

/-- four initial rows of users 7 and 8; one day with a row of user 8 and one of the new user 9; one day
with a row of user 7 -/
def exRunData : List (IRow ℚ) :=
  [⟨0, ⟨7, 40, 1, 0, 0⟩⟩, ⟨1, ⟨8, 41, 1, 1, 0⟩⟩, ⟨2, ⟨8, 42, 1, 2, 0⟩⟩, ⟨3, ⟨8, 43, 1, 3, 0⟩⟩,
   ⟨4, ⟨8, 43, 1, 4, 1⟩⟩, ⟨5, ⟨9, 41, 1, 5, 1⟩⟩, ⟨6, ⟨7, 43, 1, 6, 2⟩⟩]

/-- the recorded hit rates -/
def exRunHr (name : String) : Option (List ℚ) :=
  match runScript exRunEnv exRunCfg exFixSvd exFixTd name exRunData with
  | .ok d => some d.hr
  | .error _ => none

example : exRunHr "SVD" = some [0, 1] := by decide +kernel
example : exRunHr "PSIRec" = some [0, 1] := by decide +kernel
example : exRunHr "TDRec" = some [0, 0] := by decide +kernel
example : exRunHr "TDRecReinit" = some [0, 1] := by decide +kernel
example : exRunHr "TIRec" = some [0, 0] := by decide +kernel
example : exRunHr "TIRecA" = some [0, 0] := by decide +kernel
example : runScript exRunEnv exRunCfg exFixSvd exFixTd "PureSVD" exRunData = .error .runtimeError :=
  (C93_unknown _ _ _ _ _ _ (by decide)).1

end DynCF
