/- Property C126: exactly when the experiment with SVD or PSIRec completes. -/
import Verif.Props.FullExperiment4
import Verif.Props.ExperimentData
import Verif.Props.Ablation

set_option linter.unusedSectionVars false

namespace DynCF
variable {K : Type} {σ F : Type}

/-! ### Specification -/

/-- The number of items of the rows `before` that `u` has no row with. -/
def unseenOf (before : List (Row K)) (u : ℤ) : ℕ :=
  ((before.map Row.item).toFinset \ ((before.filter fun t => decide (t.user = u)).map Row.item).toFinset).card

/-- What a step needs: some row of the chunk has both ids known; every user of such a row and every user of
the stability test has at least `k` known items without an interaction. -/
def StepRuns (k : ℕ) (tests : List ℤ) (before c : List (Row K)) : Prop :=
  (∃ r ∈ c, KnownFrom before r) ∧ (∀ r ∈ c, KnownFrom before r → k ≤ unseenOf before r.user) ∧
    ∀ u ∈ tests, k ≤ unseenOf before u

/-- What the whole script needs: the data can be prepared; the selected rank is positive and below the
numbers of users and items of the initial rows; every step can be done and the chunk afterwards be
accepted; and there are users for the stability test if two steps are to be compared. -/
def ScriptNeeds [Field K] [LinearOrder K] [FloorRing K] (env : RunEnv K) (cfg : RunCfg K) (data : List (IRow K))
    (Accepts : List (Row K) → List (Row K) → Prop) : Prop :=
  ∃ initial stream left chunks, ∃ r : ℕ,
    prepareDataForExperiment env.sortDay data cfg.initRatio cfg.hmMin = .ok (initial, stream, left) ∧
    chunks = (stream.map Prod.snd).take (expSteps cfg.howMany stream.length) ∧
    getOptimalSvdRank cfg.dataset env.svdCsv = .ok (r : ℤ) ∧
    1 ≤ r ∧ r < (initial.map Row.user).toFinset.card ∧ r < (initial.map Row.item).toFinset.card ∧
    (∀ (i : ℕ) (c : List (Row K)), chunks[i]? = some c →
      StepRuns cfg.topk (getUsersStability env.sortCnt initial left cfg.howMany)
        (initial ++ (chunks.take i).flatten) c ∧
      Accepts (initial ++ (chunks.take i).flatten) c) ∧
    (2 ≤ chunks.length → getUsersStability env.sortCnt initial left cfg.howMany ≠ [])

/-! ### One step of the loop -/

section steps
variable [Field K] [LinearOrder K]

theorem sub_runs {a b : Mat K} (hr : a.rows = b.rows) (hc : a.cols = b.cols) :
    ∃ c, a.sub b = .ok c ∧ c.rows = a.rows ∧ c.cols = a.cols := by
  unfold Mat.sub Mat.zipWith
  rw [dif_pos ⟨hr, hc⟩]
  exact ⟨_, rfl, rfl, rfl⟩

theorem padTo_runs {a b : Mat K} (hc : a.cols = b.cols) :
    ∃ a', padTo a b = .ok a' ∧ a'.cols = b.cols ∧ a'.rows = max a.rows b.rows := by
  unfold padTo
  split
  · exact ⟨_, rfl, rfl, by dsimp only; omega⟩
  · exact ⟨_, rfl, hc, by omega⟩

theorem driftOf_runs (normOf : Mat K → K) {a b : Mat K} (hr : a.rows = b.rows) (hc : a.cols = b.cols) :
    ∃ x, driftOf normOf a b = .ok x := by
  unfold driftOf relNormM
  obtain ⟨d, h1, h2, h3⟩ := sub_runs hr.symm hc.symm
  obtain ⟨e, h4, -, -⟩ := sub_runs (a := d) (b := b) h2 h3
  rw [h1, except_bind_ok, h4, except_bind_ok]
  exact ⟨_, rfl⟩

/-- What the next step compares with: the recommendations and embeddings `x` of the step before. -/
def Holds {α : Type} (i : ℕ) (t1 t2 : Option α) (x : α) : Prop := if i = 2 then t1 = some x else t2 = some x

theorem expStep_runs {M : RecModel K σ F} {cfg : ExpCfg K} {i : ℕ} (hi : 1 ≤ i) {c : List (Row K)}
    {st : ExpState K σ} {f : Face K}
    (hrec : ∀ us k b, M.recommend st.model us k b = (f.recommend us k b >>= fun r => pure (r, st.model)))
    (hmaps : M.maps st.model = f.maps) (hu : M.getU st.model = .ok f.u) (hv : M.getV st.model = .ok f.v)
    (hn : M.nItems st.model = f.nItems) {snap : Snap K}
    (hs : Snapshot f cfg.testUsers cfg.kRecs c snap)
    (hprev : 2 ≤ i → ∃ recs u v w, Holds i st.recT1 st.recT2 recs ∧ Holds i st.u1 st.u2 u ∧
      Holds i st.v1 st.v2 v ∧ (wjiSim recs snap.recs f.nItems : PyM K) = .ok w ∧ u.cols = f.u.cols ∧
      v.cols = f.v.cols ∧ u.rows ≤ f.u.rows ∧ (i = 2 → v.rows ≤ f.v.rows))
    {conc : Tab K} (hconc : concatStep cfg st.conc c = .ok conc) {s' : σ}
    (hup : updateStep M cfg st.model conc c = .ok s') :
    ∃ st', expStep M cfg i c st = .ok st' ∧ st'.model = s' ∧ st'.conc = conc ∧
      Holds (i + 1) st'.recT1 st'.recT2 snap.recs ∧ Holds (i + 1) st'.u1 st'.u2 f.u ∧
      Holds (i + 1) st'.v1 st'.v2 f.v := by
  obtain ⟨r, h1, h2, h3, h4, h5, h6, h7⟩ := hs
  unfold expStep scoreStep
  dsimp only
  rw [hmaps, hrec, h1]
  simp only [except_bind_ok]
  rw [show (pure (r, st.model) : PyM (List (List ℤ) × σ)) = .ok (r, st.model) from rfl]
  simp only [except_bind_ok]
  rw [h2, except_bind_ok, h3, except_bind_ok]
  simp only [pure, Except.pure, except_bind_ok]
  have hrec' : ∀ us k b, M.recommend st.model us k b = (f.recommend us k b >>= fun r => .ok (r, st.model)) := hrec
  rcases Nat.lt_or_ge i 2 with hlt | hge
  · have : i = 1 := by omega
    subst this
    unfold stabilityStep driftStep normStep
    simp only [if_true, hrec', h4, except_bind_ok, hu, hv, hconc, hup, pure, Except.pure]
    refine ⟨_, rfl, rfl, rfl, ?_, ?_, ?_⟩ <;> simp [Holds]
  · obtain ⟨recs, u, v, w, p1, p2, p3, p4, p5, p6, p7, p8⟩ := hprev hge
    obtain ⟨u', q1, q2, q3⟩ := padTo_runs (a := u) (b := f.u) p5
    obtain ⟨v', q4, q5, q6⟩ := padTo_runs (a := v) (b := f.v) p6
    obtain ⟨du, q7⟩ := driftOf_runs cfg.normOf (a := u') (b := f.u) (by rw [q3, max_eq_right p7]) q2
    rcases Nat.lt_or_ge i 3 with hlt | hge3
    · have : i = 2 := by omega
      subst this
      obtain ⟨dv, q8⟩ := driftOf_runs cfg.normOf (a := v') (b := f.v) (by rw [q6, max_eq_right (p8 rfl)]) q5
      unfold Holds at p1 p2 p3
      rw [if_pos rfl] at p1 p2 p3
      unfold stabilityStep driftStep normStep
      simp only [show ¬ (2 : ℕ) = 1 by decide, if_false, if_true, hrec', h4, except_bind_ok, hu, hv, hn, hconc, hup,
        pure, Except.pure, p1, p2, p3, bound, p4, q1, q4, q7, q8]
      refine ⟨_, rfl, rfl, rfl, ?_, ?_, ?_⟩ <;> simp [Holds]
    · have e1 : ¬ i = 1 := by omega
      have e2 : ¬ i = 2 := by omega
      unfold Holds at p1 p2 p3
      rw [if_neg e2] at p1 p2 p3
      have q8 : ∃ dv, itemDriftLater cfg.normOf v' f.v = .ok dv := by
        unfold itemDriftLater
        split
        · exact ⟨_, rfl⟩
        · rename_i hlt
          refine driftOf_runs cfg.normOf ?_ q5
          have := le_max_right v.rows f.v.rows
          rw [← q6] at this
          exact le_antisymm (not_lt.1 hlt) this
      obtain ⟨dv, q8⟩ := q8
      unfold stabilityStep driftStep normStep
      simp only [e1, e2, if_false, hrec', h4, except_bind_ok, hu, hv, hn, hconc, hup,
        pure, Except.pure, p1, p2, p3, bound, p4, q1, q4, q7, q8]
      refine ⟨_, rfl, rfl, rfl, ?_, ?_, ?_⟩ <;> simp [Holds, e1]

/-! ### The loop -/

/-- The recommender in state `s` shows `f` to the experiment, without changing. -/
structure Offers (M : RecModel K σ F) (s : σ) (f : Face K) : Prop where
  recommend : ∀ us k b, M.recommend s us k b = (f.recommend us k b >>= fun r => pure (r, s))
  maps : M.maps s = f.maps
  u : M.getU s = .ok f.u
  v : M.getV s = .ok f.v
  n : M.nItems s = f.nItems

/-- The step with recommendations `b` of `g` can be compared with the one before, with `a` of `f`. -/
structure StepComparable (f g : Face K) (a b : List (List ℤ)) : Prop where
  wji : ∃ w, (wjiSim a b g.nItems : PyM K) = .ok w
  ucols : f.u.cols = g.u.cols
  vcols : f.v.cols = g.v.cols
  urows : f.u.rows ≤ g.u.rows
  vrows : f.v.rows ≤ g.v.rows

/-- `c` is one of the chunks the loop takes, and `past` are the chunks before it. -/
def Taken (howMany : ℤ) (stream past : List (List (Row K))) (c : List (Row K)) : Prop :=
  (∃ rest, stream = past ++ c :: rest) ∧ past.length < expSteps howMany stream.length

theorem expLoop_runs {M : RecModel K σ F} {cfg : ExpCfg K} {stream : List (List (Row K))}
    (At : List (List (Row K)) → σ → Tab K → Face K → Prop)
    (hstep : ∀ past c, Taken cfg.howMany stream past c → ∀ s conc f, At past s conc f →
      Offers M s f ∧ (∃ snap, Snapshot f cfg.testUsers cfg.kRecs c snap) ∧
      ∃ conc' s' f', concatStep cfg conc c = .ok conc' ∧ updateStep M cfg s conc' c = .ok s' ∧
        At (past ++ [c]) s' conc' f')
    (hlink : ∀ past c d, Taken cfg.howMany stream (past ++ [c]) d → ∀ s conc f s' conc' f' snap snap',
      At past s conc f → At (past ++ [c]) s' conc' f' → Snapshot f cfg.testUsers cfg.kRecs c snap →
      Snapshot f' cfg.testUsers cfg.kRecs d snap' → StepComparable f f' snap.recs snap'.recs)
    (rest past : List (List (Row K))) (i : ℕ) (hi : i = past.length + 1) (hst : stream = past ++ rest)
    (hm : 1 ≤ cfg.howMany → (i : ℤ) ≤ cfg.howMany) (st : ExpState K σ) (f : Face K)
    (hat : At past st.model st.conc f)
    (hprev : 2 ≤ i → ∃ p c s conc f0 snap, past = p ++ [c] ∧ At p s conc f0 ∧
      Snapshot f0 cfg.testUsers cfg.kRecs c snap ∧ Holds i st.recT1 st.recT2 snap.recs ∧
      Holds i st.u1 st.u2 f0.u ∧ Holds i st.v1 st.v2 f0.v) :
    ∃ st', expLoop M cfg i rest st = .ok st' := by
  induction rest generalizing past i st f with
  | nil => exact ⟨st, rfl⟩
  | cons c rest ih =>
    have htk : Taken cfg.howMany stream past c := by
      refine ⟨⟨rest, hst⟩, ?_⟩
      have hl : past.length < stream.length := by rw [hst]; simp
      unfold expSteps
      split
      · have := hm ‹_›
        omega
      · exact hl
    obtain ⟨ho, ⟨snap, hs⟩, conc', s', f', h1, h2, h3⟩ := hstep past c htk _ _ _ hat
    obtain ⟨st', g1, g2, g3, g4, g5, g6⟩ := expStep_runs (M := M) (cfg := cfg) (i := i) (by omega) (c := c)
      ho.recommend ho.maps ho.u ho.v ho.n hs (fun h => by
        obtain ⟨p, c0, s, conc, f0, snap0, rfl, k1, k2, k3, k4, k5⟩ := hprev h
        have hc := hlink p c0 c htk _ _ _ _ _ _ _ _ k1 hat k2 hs
        obtain ⟨w, hw⟩ := hc.wji
        exact ⟨_, _, _, w, k3, k4, k5, hw, hc.ucols, hc.vcols, hc.urows, fun _ => hc.vrows⟩) h1 h2
    rw [expLoop, g1, except_bind_ok]
    split
    · exact ⟨_, rfl⟩
    · rename_i hne
      refine ih (past ++ [c]) (i + 1) (by simp [hi]) (by rw [hst]; simp) ?_ st' f' (by rw [g2, g3]; exact h3)
        fun _ => ⟨past, c, _, _, f, snap, rfl, hat, hs, g4, g5, g6⟩
      intro h
      have := hm h
      push_cast
      omega

theorem experiment_runs {M : RecModel K σ F} {cfg : ExpCfg K} {stream : List (List (Row K))} {s0 s1 : σ}
    {initial : Tab K} {f : Face K} (At : List (List (Row K)) → σ → Tab K → Face K → Prop)
    (htrain : M.train s0 initial = .ok s1) (hat : At [] s1 initial f)
    (hstep : ∀ past c, Taken cfg.howMany stream past c → ∀ s conc f, At past s conc f →
      Offers M s f ∧ (∃ snap, Snapshot f cfg.testUsers cfg.kRecs c snap) ∧
      ∃ conc' s' f', concatStep cfg conc c = .ok conc' ∧ updateStep M cfg s conc' c = .ok s' ∧
        At (past ++ [c]) s' conc' f')
    (hlink : ∀ past c d, Taken cfg.howMany stream (past ++ [c]) d → ∀ s conc f s' conc' f' snap snap',
      At past s conc f → At (past ++ [c]) s' conc' f' → Snapshot f cfg.testUsers cfg.kRecs c snap →
      Snapshot f' cfg.testUsers cfg.kRecs d snap' → StepComparable f f' snap.recs snap'.recs) :
    ∃ d, runWith M cfg s0 initial stream = .ok d := by
  unfold runWith dynamicalExperiment expInit
  rw [htrain, except_bind_ok]
  simp only [pure, Except.pure, except_bind_ok]
  obtain ⟨st, h⟩ := expLoop_runs (M := M) (cfg := cfg) At hstep hlink stream [] 1 rfl rfl (fun h => by exact_mod_cast h)
    { model := s1, conc := initial, ticks := 2, dyn := { times := [cfg.clock 1 - cfg.clock 0] } } f hat (fun h => by omega)
  rw [h, except_bind_ok]
  exact ⟨_, rfl⟩

/-! ### What the recommender shows -/

theorem psiUnseen {st : PSIState K} {us is : List ℤ} {r : ℕ} {seen : List (Row K)} (h : PsiInv st us is r seen)
    {u : ℤ} (hu : u ∈ us) : unseenCount st.view us u = unseenOf seen u := by
  unfold unseenCount unseenOf
  rw [show st.view.nItems = is.length from h.shape.vCols]
  set U := ((seen.filter fun t => decide (t.user = u)).map Row.item).toFinset with hU
  have hdup := h.shape.item.nodup
  have e1 : (seen.map Row.item).toFinset \ U = (is.filter fun x => decide (x ∉ U)).toFinset := by
    ext x
    simp only [Finset.mem_sdiff, List.mem_toFinset, List.mem_filter, decide_eq_true_eq, h.items, List.mem_map]
  rw [e1, List.toFinset_card_of_nodup (hdup.filter _), ← List.countP_eq_length_filter]
  have e2 : is = (List.range is.length).map fun j => is.getD j 0 := by
    apply List.ext_getElem
    · simp
    · intro n h1 h2
      simp [List.getElem?_eq_getElem h1]
  conv_rhs => rw [e2]
  rw [List.countP_map]
  refine List.countP_congr fun j hj => ?_
  rw [List.mem_range] at hj
  simp only [Function.comp_apply, decide_eq_true_eq, List.getD_eq_getElem?_getD, List.getElem?_eq_getElem hj,
    Option.getD_some]
  rw [not_iff_not, hU, List.mem_toFinset, List.mem_map]
  constructor
  · intro hh
    obtain ⟨x, hx, a, b, hab, ha, hb⟩ := forall₂_mem_right h.hist hh
    obtain ⟨e3, e4⟩ := Prod.mk.inj hab
    have e3 : us.idxOf u = a := by exact_mod_cast e3
    have e4 : j = b := by exact_mod_cast e4
    subst e3 e4
    refine ⟨x, List.mem_filter.2 ⟨hx, ?_⟩, ?_⟩
    · rw [List.getElem?_idxOf hu] at ha
      simpa using (Option.some.inj ha).symm
    · rw [List.getElem?_eq_getElem hj] at hb
      exact (Option.some.inj hb).symm
  · rintro ⟨x, hx, hxe⟩
    obtain ⟨hx, hxu⟩ := List.mem_filter.1 hx
    have hxu : x.user = u := by simpa using hxu
    obtain ⟨p, hp, a, b, rfl, ha, hb⟩ := forall₂_mem_left h.hist hx
    have e3 : a = us.idxOf u := by
      refine getElem?_inj_nodup h.shape.user.nodup ha ?_
      rw [hxu, List.getElem?_idxOf hu]
    have e4 : b = j := getElem?_inj_nodup hdup hb (by rw [List.getElem?_eq_getElem hj, hxe])
    rw [← e3, ← e4]
    exact hp

theorem unseenOf_lt {seen : List (Row K)} {u : ℤ} (hu : ∃ t ∈ seen, t.user = u) :
    unseenOf seen u < (seen.map Row.item).toFinset.card := by
  unfold unseenOf
  obtain ⟨t, ht, rfl⟩ := hu
  refine Finset.card_lt_card (Finset.sdiff_ssubset ?_ ⟨t.item, ?_⟩)
  · intro x
    simp only [List.mem_toFinset, List.mem_map, List.mem_filter]
    rintro ⟨y, hy, rfl⟩
    exact ⟨y, hy.1, rfl⟩
  · simp only [List.mem_toFinset, List.mem_map, List.mem_filter]
    exact ⟨t, ⟨ht, by simp⟩, rfl⟩

theorem PsiInv.nItems {st : PSIState K} {us is : List ℤ} {r : ℕ} {seen : List (Row K)} (h : PsiInv st us is r seen) :
    is.length = (seen.map Row.item).toFinset.card := by
  rw [← List.toFinset_card_of_nodup h.shape.item.nodup]
  congr 1
  ext x
  simp only [List.mem_toFinset, h.items, List.mem_map]

theorem PsiInv.nUsers {st : PSIState K} {us is : List ℤ} {r : ℕ} {seen : List (Row K)} (h : PsiInv st us is r seen) :
    us.length = (seen.map Row.user).toFinset.card := by
  rw [← List.toFinset_card_of_nodup h.shape.user.nodup]
  congr 1
  ext x
  simp only [List.mem_toFinset, h.users, List.mem_map]

theorem psiSetting {st : PSIState K} {us is : List ℤ} {r : ℕ} {seen : List (Row K)} (h : PsiInv st us is r seen)
    {argp : ArgPart K} (hargp : ArgPartOk argp) {k : ℕ} (hk : 1 ≤ k) :
    ∃ f, RecSetting argp st.view us is (fun _ u => psiScore st u) f k true := by
  obtain ⟨f, hf⟩ := psiScores_ok h
  exact ⟨f, hargp, psiView_ok h, hf, hk, by have := h.big; have := h.pos; omega,
    fun _ => by have := h.big; have := h.pos; omega⟩

theorem psiRecommend_runs {st : PSIState K} {us is : List ℤ} {r : ℕ} {seen : List (Row K)}
    (h : PsiInv st us is r seen) {argp : ArgPart K} (hargp : ArgPartOk argp) {k : ℕ} (hk : 1 ≤ k)
    (internal : Bool) {users : List ℤ} (hus : ∀ u ∈ users, ∃ t ∈ seen, t.user = u) :
    (∃ res, psiRecommend argp st users k true internal = .ok res) ↔ ∀ u ∈ users, k ≤ unseenOf seen u := by
  obtain ⟨f, hset⟩ := psiSetting h hargp hk
  have : Inhabited K := ⟨0⟩
  have hC := C21_exact_failure hset true internal users
  have hin : ∀ u ∈ users, u ∈ us := fun u hu => (h.users u).2 (hus u hu)
  have hmin : ∀ u ∈ users, (min k is.length ≤ unseenCount st.view us u ↔ k ≤ unseenOf seen u) := by
    intro u hu
    rw [psiUnseen h (hin u hu)]
    have := unseenOf_lt (hus u hu)
    rw [← h.nItems] at this
    omega
  constructor
  · rintro ⟨res, hres⟩ u hu
    by_contra hn
    have := hC.2.1 hin ⟨rfl, u, hu, not_le.1 fun hh => hn ((hmin u hu).1 hh)⟩
    unfold psiRecommend at hres
    rw [this] at hres
    cases hres
  · intro hh
    obtain ⟨res, hres⟩ := hC.2.2 hin fun _ u hu => (hmin u hu).2 (hh u hu)
    exact ⟨res, hres⟩

/-- The recommender can be looked at exactly if `StepRuns` holds. -/
theorem psiSnapshot_iff [IsStrictOrderedRing K] {st : PSIState K} {us is : List ℤ} {r : ℕ} {seen : List (Row K)}
    (h : PsiInv st us is r seen) {argp : ArgPart K} (hargp : ArgPartOk argp) {k : ℕ} (hk : 1 ≤ k)
    {tests : List ℤ} (ht : ∀ u ∈ tests, ∃ t ∈ seen, t.user = u) (c : List (Row K)) :
    (∃ snap, Snapshot (svdFace argp st) tests k c snap) ↔ StepRuns k tests seen c := by
  obtain ⟨hsc, hlen⟩ := scored_intro (chunk := c) h.shape.user h.shape.item h.users h.items
  have hmem : ∀ u, u ∈ (getUsersToRecommendTestItems c st.maps).1 ↔ ∃ r ∈ c, KnownFrom seen r ∧ r.user = u := by
    intro u
    have := hsc.users.mem u
    rw [List.map_fst_zip (by omega)] at this
    rw [this]
    simp only [List.mem_map, List.mem_filter, decide_eq_true_eq]
    constructor
    · rintro ⟨r, ⟨h1, h2⟩, h3⟩; exact ⟨r, h1, h2, h3⟩
    · rintro ⟨r, h1, h2, h3⟩; exact ⟨r, ⟨h1, h2⟩, h3⟩
  have hknown : ∀ u ∈ (getUsersToRecommendTestItems c st.maps).1, ∃ t ∈ seen, t.user = u := by
    intro u hu
    obtain ⟨r, -, h1, rfl⟩ := (hmem u).1 hu
    exact h1.1
  have hA := psiRecommend_runs h hargp hk false hknown
  have hB := psiRecommend_runs h hargp hk true ht
  constructor
  · rintro ⟨snap, res, g1, g2, -, g4, -⟩
    refine ⟨?_, ?_, hB.1 ⟨_, g4⟩⟩
    · by_contra hn
      have e1 : (getUsersToRecommendTestItems c st.maps).1 = [] := by
        rw [List.eq_nil_iff_forall_not_mem]
        intro u hu
        obtain ⟨r, h1, h2, -⟩ := (hmem u).1 hu
        exact hn ⟨r, h1, h2⟩
      have e2 : (getUsersToRecommendTestItems c st.maps).2 = [] := by
        rw [← List.length_eq_zero_iff, ← hlen, e1]
        rfl
      have g2' : hr res (getUsersToRecommendTestItems c st.maps).2 = .ok snap.hit := g2
      rw [e2, (C12_no_test_users res).1] at g2'
      cases g2'
    · intro r hr hkn
      exact hA.1 ⟨_, g1⟩ _ ((hmem _).2 ⟨r, hr, hkn, rfl⟩)
  · rintro ⟨⟨r0, hr0, hk0⟩, h2, h3⟩
    obtain ⟨res, hres⟩ := hA.2 fun u hu => by
      obtain ⟨r, k1, k2, rfl⟩ := (hmem u).1 hu
      exact h2 r k1 k2
    obtain ⟨res2, hres2⟩ := hB.2 h3
    obtain ⟨f, hset⟩ := psiSetting h hargp hk
    have : Inhabited K := ⟨0⟩
    have hl := (C18_k_distinct_items hset true false _ res hres).1
    have hne : (getUsersToRecommendTestItems c st.maps).2 ≠ [] := by
      intro e
      rw [e, List.length_nil, List.length_eq_zero_iff] at hlen
      have := (hmem r0.user).2 ⟨r0, hr0, hk0, rfl⟩
      rw [hlen] at this
      cases this
    have hl' : res.length = (getUsersToRecommendTestItems c st.maps).2.length := by rw [hl, hlen]
    exact ⟨⟨_, _, res2, st.u, st.vt.T, st.vt.cols⟩, res, hres, (C12_hit_rate res _ hne hl').1, C13_mrr res _ hne hl',
      hres2, rfl, rfl, rfl⟩

theorem psiRecs_array {st : PSIState K} {us is : List ℤ} {r : ℕ} {seen : List (Row K)}
    (h : PsiInv st us is r seen) {argp : ArgPart K} (hargp : ArgPartOk argp) {k : ℕ} (hk : 1 ≤ k)
    {tests : List ℤ} (ht : ∀ u ∈ tests, ∃ t ∈ seen, t.user = u) {res : List (List ℤ)}
    (hres : psiRecommend argp st tests k true true = .ok res) :
    res.length = tests.length ∧ ∀ N, is.length ≤ N → IsRecArray N k res := by
  obtain ⟨f, hset⟩ := psiSetting h hargp hk
  have : Inhabited K := ⟨0⟩
  obtain ⟨h1, h2⟩ := C18_k_distinct_items hset true true tests res hres
  refine ⟨h1, fun N hN => ⟨hk, fun row hrow => ?_⟩⟩
  obtain ⟨h3, h4, h5⟩ := h2 row hrow
  have hle := (psiRecommend_runs h hargp hk true ht).1 ⟨_, hres⟩
  have hkn : k ≤ is.length := by
    cases tests with
    | nil => rw [List.length_eq_zero_iff.1 h1] at hrow; cases hrow
    | cons u _ =>
      have e1 := hle u (by simp)
      have e2 := unseenOf_lt (ht u (by simp))
      rw [← h.nItems] at e2
      omega
  refine ⟨by rw [h3]; omega, h4, fun x hx => ?_⟩
  obtain ⟨j, hj, hxj⟩ := h5 x hx
  rw [if_pos rfl] at hxj
  subst hxj
  omega

theorem psi_comparable [IsStrictOrderedRing K] {st st' : PSIState K} {us is us' is' : List ℤ} {r : ℕ}
    {seen more : List (Row K)} (h : PsiInv st us is r seen) (h' : PsiInv st' us' is' r (seen ++ more)) {argp : ArgPart K}
    (hargp : ArgPartOk argp) {k : ℕ} (hk : 1 ≤ k) {tests : List ℤ} (hne : tests ≠ [])
    (ht : ∀ u ∈ tests, ∃ t ∈ seen, t.user = u) {c d : List (Row K)} {snap snap' : Snap K}
    (hs : Snapshot (svdFace argp st) tests k c snap) (hs' : Snapshot (svdFace argp st') tests k d snap') :
    StepComparable (svdFace argp st) (svdFace argp st') snap.recs snap'.recs := by
  obtain ⟨-, -, -, -, h1, -⟩ := hs
  obtain ⟨-, -, -, -, h1', -⟩ := hs'
  have hI : is.length ≤ is'.length := by
    rw [h.nItems, h'.nItems]
    refine Finset.card_le_card fun x => ?_
    simp only [List.mem_toFinset, List.map_append, List.mem_append]
    exact Or.inl
  have hU : us.length ≤ us'.length := by
    rw [h.nUsers, h'.nUsers]
    refine Finset.card_le_card fun x => ?_
    simp only [List.mem_toFinset, List.map_append, List.mem_append]
    exact Or.inl
  obtain ⟨e1, e2⟩ := psiRecs_array h hargp hk ht h1
  obtain ⟨e3, e4⟩ := psiRecs_array h' hargp hk (fun u hu => by
    obtain ⟨t, h1, h2⟩ := ht u hu
    exact ⟨t, List.mem_append_left _ h1, h2⟩) h1'
  have hn : (svdFace argp st').nItems = is'.length := h'.shape.vCols
  have hnil : snap.recs ≠ [] := by
    intro e
    rw [e, List.length_nil] at e1
    exact hne (List.length_eq_zero_iff.1 e1.symm)
  refine ⟨⟨_, by rw [hn]; exact wjiSim_eq is'.length k _ _ hnil (by omega) (e2 _ hI) (e4 _ le_rfl)⟩, ?_, ?_, ?_, ?_⟩
  · exact h.shape.uCols.trans h'.shape.uCols.symm
  · exact h.shape.vRows.trans h'.shape.vRows.symm
  · exact (h.shape.uRows.trans_le hU).trans h'.shape.uRows.symm.le
  · exact (h.shape.vCols.trans_le hI).trans h'.shape.vCols.symm.le

theorem crowded_congr {us is us' is' : List ℤ} (hu : ∀ x, x ∈ us ↔ x ∈ us') (hi : ∀ x, x ∈ is ↔ x ∈ is')
    (data : List (Row K)) : Crowded us is data ↔ Crowded us' is' data := by
  unfold Crowded newCount
  have e : (fun x : Row K => decide (x.user ∉ us ∧ x.item ∉ is)) =
      fun x : Row K => decide (x.user ∉ us' ∧ x.item ∉ is') := by
    funext x
    exact decide_eq_decide.2 (by rw [hu, hi])
  have e1 : ∀ l, (us ++ l).toFinset = (us' ++ l).toFinset := fun l => by
    ext x; simp [hu]
  have e2 : ∀ l, (is ++ l).toFinset = (is' ++ l).toFinset := fun l => by
    ext x; simp [hi]
  simp only [e, e1, e2]

/-! ### The two experiments -/

theorem taken_chunk {howMany : ℤ} {stream past : List (List (Row K))} {c : List (Row K)}
    (h : Taken howMany stream past c) :
    (stream.take (expSteps howMany stream.length))[past.length]? = some c ∧
      (stream.take (expSteps howMany stream.length)).take past.length = past := by
  obtain ⟨⟨rest, rfl⟩, hlt⟩ := h
  constructor
  · rw [List.getElem?_take_of_lt hlt]
    simp
  · rw [List.take_take, min_eq_left hlt.le]
    simp

theorem stability_known {sortCnt : List (ℤ × ℕ) → List (ℤ × ℕ)} (hperm : ∀ l, (sortCnt l).Perm l)
    (initial left : List (Row K)) (hm : ℤ) :
    ∀ u ∈ getUsersStability sortCnt initial left hm, ∃ t ∈ initial, t.user = u := by
  intro u hu
  unfold getUsersStability at hu
  obtain ⟨p, hp, rfl⟩ := List.mem_map.1 hu
  have hp := (hperm _).mem_iff.1 (List.mem_of_mem_drop hp)
  obtain ⟨v, hv, rfl⟩ := List.mem_map.1 hp
  rw [mem_stableSort, mem_pdUnique] at hv
  obtain ⟨r, hr, rfl⟩ := List.mem_map.1 hv
  obtain ⟨-, hr⟩ := List.mem_filter.1 hr
  rw [Bool.and_eq_true, decide_eq_true_eq, decide_eq_true_eq, mem_pdUnique] at hr
  exact List.mem_map.1 hr.2

theorem svdOffers {env : PSIEnv K} {argp : ArgPart K} {c0 : PSICfg} {M : RecModel K (Option (PSIState K)) (FacArg K)}
    (h1 : M.recommend = (svdClass env argp c0).recommend) (h2 : M.maps = (svdClass env argp c0).maps)
    (h3 : M.getU = (svdClass env argp c0).getU) (h4 : M.getV = (svdClass env argp c0).getV)
    (h5 : M.nItems = (svdClass env argp c0).nItems) (st : PSIState K) : Offers M (some st) (svdFace argp st) := by
  constructor
  · intro us k b; rw [h1]; rfl
  · rw [h2]; rfl
  · rw [h3]; rfl
  · rw [h4]; rfl
  · rw [h5]; rfl

theorem card_mono (f : Row K → ℤ) (a b : List (Row K)) :
    (a.map f).toFinset.card ≤ ((a ++ b).map f).toFinset.card := by
  refine Finset.card_le_card fun x => ?_
  simp only [List.mem_toFinset, List.map_append, List.mem_append]
  exact Or.inl

/-- `SVD.train` succeeds exactly for a rank below the numbers of users and items. -/
theorem svdTrain_iff (env : PSIEnv K) (c0 : PSICfg) (data : List (Row K)) :
    (∃ st, svdTrain env c0 data = .ok st) ↔
      1 ≤ c0.rank ∧ c0.rank < (data.map Row.user).toFinset.card ∧ c0.rank < (data.map Row.item).toFinset.card := by
  obtain ⟨us, is, hu, hi, h⟩ := C31_train env c0 data
  have e1 : us.length = (data.map Row.user).toFinset.card := by
    rw [← List.toFinset_card_of_nodup hu.nodup]
    congr 1; ext x; simp only [List.mem_toFinset, hu.mem]
  have e2 : is.length = (data.map Row.item).toFinset.card := by
    rw [← List.toFinset_card_of_nodup hi.nodup]
    congr 1; ext x; simp only [List.mem_toFinset, hi.mem]
  rw [lt_min_iff, e1, e2] at h
  rcases h with ⟨st, h1, -, h2⟩ | ⟨h1, h2⟩
  · exact ⟨fun _ => h2, fun _ => ⟨st, h1⟩⟩
  · constructor
    · rintro ⟨st, h⟩; rw [h1] at h; cases h
    · intro h; exact absurd h h2

theorem svdTrain_inv {env : PSIEnv K} {c0 : PSICfg} {data : List (Row K)} {st : PSIState K}
    (h : svdTrain env c0 data = .ok st) : ∃ us is, PsiInv st us is c0.rank data := by
  obtain ⟨us, is, hu, hi, ⟨st', h1, h2, -⟩ | ⟨h1, -⟩⟩ := C31_train env c0 data
  · rw [h1] at h
    exact Except.ok.inj h ▸ ⟨us, is, h2⟩
  · rw [h1] at h; cases h

/-- The chunks can be scored, one after the other, and accepted. -/
def AllStepsRun (k : ℕ) (tests : List ℤ) (initial : List (Row K)) (chunks : List (List (Row K)))
    (Accepts : List (Row K) → List (Row K) → Prop) : Prop :=
  (∀ (i : ℕ) (c : List (Row K)), chunks[i]? = some c →
      StepRuns k tests (initial ++ (chunks.take i).flatten) c ∧ Accepts (initial ++ (chunks.take i).flatten) c) ∧
    (2 ≤ chunks.length → tests ≠ [])

theorem tests_nonempty [IsStrictOrderedRing K] {cfg : ExpCfg K} {snaps : List (Snap K)} {d : Dynamics K} (h : Records cfg snaps d)
    (h2 : 2 ≤ snaps.length) (hne : ∀ s ∈ snaps, s.recs.length = cfg.testUsers.length) : cfg.testUsers ≠ [] := by
  intro e
  obtain ⟨w, -, hw⟩ := h.wji.2 0 snaps[0] snaps[1] (List.getElem?_eq_getElem (by omega)) (List.getElem?_eq_getElem (by omega))
  have h0 := hne snaps[0] (List.getElem_mem _)
  rw [e, List.length_nil] at h0
  rw [List.length_eq_zero_iff.1 h0, C14_no_users] at hw
  cases hw

theorem snapshot_length {st : PSIState K} {us is : List ℤ} {r : ℕ} {seen : List (Row K)}
    (h : PsiInv st us is r seen) {argp : ArgPart K} (hargp : ArgPartOk argp) {k : ℕ} (hk : 1 ≤ k)
    {tests : List ℤ} (ht : ∀ u ∈ tests, ∃ t ∈ seen, t.user = u) {c : List (Row K)} {snap : Snap K}
    (hs : Snapshot (svdFace argp st) tests k c snap) : snap.recs.length = tests.length := by
  obtain ⟨-, -, -, -, h1, -⟩ := hs
  exact (psiRecs_array h hargp hk ht h1).1

theorem known_append {tests : List ℤ} {initial : List (Row K)} (ht : ∀ u ∈ tests, ∃ t ∈ initial, t.user = u)
    (more : List (Row K)) : ∀ u ∈ tests, ∃ t ∈ initial ++ more, t.user = u := fun u hu => by
  obtain ⟨t, h1, h2⟩ := ht u hu
  exact ⟨t, List.mem_append_left _ h1, h2⟩

theorem runWith_train {M : RecModel K σ F} {e : ExpCfg K} {s0 : σ} {initial : Tab K}
    {stream : List (List (Row K))} {d : Dynamics K} (h : runWith M e s0 initial stream = .ok d) :
    ∃ s, M.train s0 initial = .ok s := by
  unfold runWith dynamicalExperiment expInit at h
  obtain ⟨st, h1, -⟩ := (bind_ok_iff _ _ _).1 h
  obtain ⟨st1, h2, -⟩ := (bind_ok_iff _ _ _).1 h1
  obtain ⟨s, h3, -⟩ := (bind_ok_iff _ _ _).1 h2
  exact ⟨s, h3⟩

variable [IsStrictOrderedRing K]

theorem svdRun_iff {env : PSIEnv K} {argp : ArgPart K} (hargp : ArgPartOk argp) {c0 : PSICfg} {e : ExpCfg K}
    (hm : e.chunkMode = false) (hr : e.reinit = false) (h3 : e.threeD = false) (hk : 1 ≤ e.kRecs)
    {initial : List (Row K)} (ht : ∀ u ∈ e.testUsers, ∃ t ∈ initial, t.user = u) (stream : List (List (Row K))) :
    (∃ d, runWith (useTrain (svdClass env argp c0)) e none (.plain initial) stream = .ok d) ↔
      (1 ≤ c0.rank ∧ c0.rank < (initial.map Row.user).toFinset.card ∧
        c0.rank < (initial.map Row.item).toFinset.card) ∧
      AllStepsRun e.kRecs e.testUsers initial (stream.take (expSteps e.howMany stream.length)) (fun _ _ => True) := by
  constructor
  · rintro ⟨d, h⟩
    obtain ⟨s, hs⟩ := runWith_train h
    obtain ⟨st0, h0, -⟩ := (bind_ok_iff _ _ _).1 hs
    obtain ⟨snaps, s', hw, hrec⟩ := runWith_ok h
    have hl := watched_length _ _ hw
    have key : ∀ (i : ℕ) c snap, (stream.take (expSteps e.howMany stream.length))[i]? = some c → snaps[i]? = some snap →
        ∃ st us is, PsiInv st us is c0.rank
            (initial ++ ((stream.take (expSteps e.howMany stream.length)).take i).flatten) ∧
          Snapshot (svdFace argp st) e.testUsers e.kRecs c snap := by
      intro i c snap hc hsn
      obtain ⟨si, s1, g1, g2⟩ := watched_at hw i c snap hc hsn
      obtain ⟨st, rfl, hst⟩ := svd_watched hm hr h3 g1
      obtain ⟨us, is, hinv⟩ := svdTrain_inv hst
      exact ⟨st, us, is, hinv, (svd_shows (env := env) (c0 := c0) rfl rfl rfl rfl rfl g2).2⟩
    refine ⟨(svdTrain_iff env c0 initial).1 ⟨st0, h0⟩, ?_, ?_⟩
    · intro i c hc
      have hi : i < snaps.length := by rw [hl]; exact (List.getElem?_eq_some_iff.1 hc).1
      obtain ⟨st, us, is, hinv, hsn⟩ := key i c _ hc (List.getElem?_eq_getElem hi)
      exact ⟨(psiSnapshot_iff hinv hargp hk (known_append ht _) c).1 ⟨_, hsn⟩, trivial⟩
    · intro h2
      refine tests_nonempty hrec (by omega) fun sn hsn => ?_
      obtain ⟨i, hi⟩ := List.mem_iff_getElem?.1 hsn
      have hi' := (List.getElem?_eq_some_iff.1 hi).1
      obtain ⟨st, us, is, hinv, hh⟩ := key i _ _ (List.getElem?_eq_getElem (by omega)) hi
      exact snapshot_length hinv hargp hk (known_append ht _) hh
  · rintro ⟨hrank, hsteps, hne⟩
    obtain ⟨st0, h0⟩ := (svdTrain_iff env c0 initial).2 hrank
    refine experiment_runs (f := svdFace argp st0) (s1 := some st0)
      (fun past s conc f => conc = .plain (initial ++ past.flatten) ∧ ∃ st, s = some st ∧
        svdTrain env c0 (initial ++ past.flatten) = .ok st ∧ f = svdFace argp st) ?_ ?_ ?_ ?_
    · show (svdTrain env c0 initial >>= fun s => pure (some s)) = _
      rw [h0]; rfl
    · refine ⟨by simp, st0, rfl, by simpa using h0, rfl⟩
    · rintro past c htk s conc f ⟨rfl, st, rfl, hst, rfl⟩
      obtain ⟨t1, t2⟩ := taken_chunk htk
      obtain ⟨us, is, hinv⟩ := svdTrain_inv hst
      have hsr := (hsteps _ _ t1).1
      rw [t2] at hsr
      refine ⟨svdOffers (M := useTrain (svdClass env argp c0)) (env := env) (argp := argp) (c0 := c0) rfl rfl rfl rfl rfl st,
        (psiSnapshot_iff hinv hargp hk (known_append ht _) c).2 hsr, ?_⟩
      obtain ⟨st', h'⟩ := (svdTrain_iff env c0 (initial ++ (past ++ [c]).flatten)).2
        ⟨hrank.1, hrank.2.1.trans_le (card_mono _ _ _), hrank.2.2.trans_le (card_mono _ _ _)⟩
      refine ⟨.plain (initial ++ (past ++ [c]).flatten), some st', svdFace argp st', ?_, ?_, rfl, st', rfl, h', rfl⟩
      · unfold concatStep
        rw [hm, h3, if_neg (by simp), if_neg (by simp)]
        simp
      · unfold updateStep
        rw [hr, if_neg (by simp), hm, if_neg (by simp)]
        show (svdTrain env c0 (initial ++ (past ++ [c]).flatten) >>= fun s => pure (some s)) = _
        rw [h']; rfl
    · rintro past c d htk s conc f s' conc' f' snap snap' ⟨-, st, -, hst, rfl⟩ ⟨-, st', -, hst', rfl⟩ hs hs'
      obtain ⟨us, is, hinv⟩ := svdTrain_inv hst
      obtain ⟨us', is', hinv'⟩ := svdTrain_inv hst'
      rw [List.flatten_append, ← List.append_assoc] at hinv'
      have t1 := (List.getElem?_eq_some_iff.1 (taken_chunk htk).1).1
      refine psi_comparable hinv hinv' hargp hk (hne ?_) (known_append ht _) hs hs'
      simp only [List.length_append, List.length_singleton] at t1
      omega

theorem psiRun_snoc {env : PSIEnv K} {c0 : PSICfg} {initial : List (Row K)} {past : List (List (Row K))}
    {st : PSIState K} (h : psiRun env c0 initial past = .ok st) (c : List (Row K)) :
    psiRun env c0 initial (past ++ [c]) = psiUpdate env c0 st c := by
  unfold psiRun at h ⊢
  obtain ⟨st0, h1, h2⟩ := (bind_ok_iff _ _ _).1 h
  rw [h1, except_bind_ok, List.foldlM_append, h2, except_bind_ok, List.foldlM_cons]
  cases psiUpdate env c0 st c <;> rfl

theorem psiRun_prefix {env : PSIEnv K} {c0 : PSICfg} {initial : List (Row K)} {past more : List (List (Row K))}
    {st : PSIState K} (h : psiRun env c0 initial (past ++ more) = .ok st) :
    ∃ st', psiRun env c0 initial past = .ok st' := by
  unfold psiRun at h ⊢
  obtain ⟨st0, h1, h2⟩ := (bind_ok_iff _ _ _).1 h
  rw [h1, except_bind_ok]
  rw [List.foldlM_append] at h2
  obtain ⟨st1, h3, -⟩ := (bind_ok_iff _ _ _).1 h2
  exact ⟨st1, h3⟩

/-- What the configuration accepts as the next chunk. -/
def PsiAccepts (c0 : PSICfg) (before c : List (Row K)) : Prop :=
  c0.init = none → c0.integrator = false ∧ ¬ Crowded (before.map Row.user) (before.map Row.item) c

theorem psiUpdate_iff {env : PSIEnv K} (hsort : ArgSortOk env.argsort) {c0 : PSICfg} {st : PSIState K}
    {us is : List ℤ} {r : ℕ} {seen : List (Row K)} (h : PsiInv st us is r seen) (c : List (Row K))
    (hro : c0.init = none → c0.integrator = false) :
    (∃ st', psiUpdate env c0 st c = .ok st') ↔ PsiAccepts c0 seen c := by
  have hc : Crowded us is c ↔ Crowded (seen.map Row.user) (seen.map Row.item) c :=
    crowded_congr (fun x => by rw [h.users, List.mem_map]) (fun x => by rw [h.items, List.mem_map]) c
  unfold PsiAccepts
  rw [← hc]
  rcases C31_update env hsort c0 h c with ⟨st', -, -, e, -, hn⟩ | ⟨e, h1, -, h2⟩ | ⟨e, h1, h2⟩
  · exact ⟨fun _ hi => ⟨hro hi, hn hi⟩, fun _ => ⟨st', e⟩⟩
  · constructor
    · rintro ⟨st', e'⟩; rw [e] at e'; cases e'
    · intro hh; exact absurd h2 (hh h1).2
  · rw [hro h1] at h2; cases h2

theorem psiRun_iff {env : PSIEnv K} (hsort : ArgSortOk env.argsort) {argp : ArgPart K} (hargp : ArgPartOk argp)
    {c0 : PSICfg} (hro : c0.init = none → c0.integrator = false) {e : ExpCfg K} (hm : e.chunkMode = true)
    (hr : e.reinit = false) (hk : 1 ≤ e.kRecs)
    {initial : List (Row K)} (ht : ∀ u ∈ e.testUsers, ∃ t ∈ initial, t.user = u) (stream : List (List (Row K))) :
    (∃ d, runWith (psiClass env argp c0) e none (.plain initial) stream = .ok d) ↔
      (1 ≤ c0.rank ∧ c0.rank < (initial.map Row.user).toFinset.card ∧
        c0.rank < (initial.map Row.item).toFinset.card) ∧
      AllStepsRun e.kRecs e.testUsers initial (stream.take (expSteps e.howMany stream.length)) (PsiAccepts c0) := by
  constructor
  · rintro ⟨d, h⟩
    obtain ⟨s, hs⟩ := runWith_train h
    obtain ⟨st0, h0, -⟩ := (bind_ok_iff _ _ _).1 hs
    obtain ⟨snaps, s', hw, hrec⟩ := runWith_ok h
    have hl := watched_length _ _ hw
    obtain ⟨stF, rfl, hF⟩ := psi_watched hm hr hw
    generalize stream.take (expSteps e.howMany stream.length) = chunks at *
    have key : ∀ (i : ℕ) c snap, chunks[i]? = some c → snaps[i]? = some snap →
        ∃ st us is, psiRun env c0 initial (chunks.take i) = .ok st ∧
          PsiInv st us is c0.rank (initial ++ (chunks.take i).flatten) ∧
          Snapshot (svdFace argp st) e.testUsers e.kRecs c snap := by
      intro i c snap hc hsn
      obtain ⟨si, s1, g1, g2⟩ := watched_at hw i c snap hc hsn
      obtain ⟨st, rfl, hst⟩ := psi_watched hm hr g1
      obtain ⟨us, is, hinv, -⟩ := C31_run env hsort c0 _ _ st hst
      exact ⟨st, us, is, hst, hinv, (svd_shows (env := env) (c0 := c0) rfl rfl rfl rfl rfl g2).2⟩
    refine ⟨(svdTrain_iff env c0 initial).1 ⟨st0, h0⟩, ?_, ?_⟩
    · intro i c hc
      have hi : i < snaps.length := by rw [hl]; exact (List.getElem?_eq_some_iff.1 hc).1
      obtain ⟨st, us, is, hst, hinv, hsn⟩ := key i c _ hc (List.getElem?_eq_getElem hi)
      refine ⟨(psiSnapshot_iff hinv hargp hk (known_append ht _) c).1 ⟨_, hsn⟩, ?_⟩
      refine (psiUpdate_iff hsort hinv c hro).1 ?_
      rw [← psiRun_snoc hst]
      obtain ⟨hi2, rfl⟩ := List.getElem?_eq_some_iff.1 hc
      rw [List.take_append_getElem]
      exact psiRun_prefix (more := chunks.drop (i + 1)) (by rw [List.take_append_drop]; exact hF)
    · intro h2
      refine tests_nonempty hrec (by omega) fun sn hsn => ?_
      obtain ⟨i, hi⟩ := List.mem_iff_getElem?.1 hsn
      have hi' := (List.getElem?_eq_some_iff.1 hi).1
      obtain ⟨st, us, is, -, hinv, hh⟩ := key i _ _ (List.getElem?_eq_getElem (by omega)) hi
      exact snapshot_length hinv hargp hk (known_append ht _) hh
  · rintro ⟨hrank, hsteps, hne⟩
    obtain ⟨st0, h0⟩ := (svdTrain_iff env c0 initial).2 hrank
    refine experiment_runs (f := svdFace argp st0) (s1 := some st0)
      (fun past s conc f => ∃ st, s = some st ∧ psiRun env c0 initial past = .ok st ∧ f = svdFace argp st) ?_ ?_ ?_ ?_
    · show (svdTrain env c0 initial >>= fun s => pure (some s)) = _
      rw [h0]; rfl
    · refine ⟨st0, rfl, ?_, rfl⟩
      unfold psiRun
      rw [h0]; rfl
    · rintro past c htk s conc f ⟨st, rfl, hst, rfl⟩
      obtain ⟨t1, t2⟩ := taken_chunk htk
      obtain ⟨us, is, hinv, -⟩ := C31_run env hsort c0 _ _ st hst
      have hsr := hsteps _ _ t1
      rw [t2] at hsr
      refine ⟨svdOffers (M := psiClass env argp c0) (env := env) (argp := argp) (c0 := c0) rfl rfl rfl rfl rfl st,
        (psiSnapshot_iff hinv hargp hk (known_append ht _) c).2 hsr.1, ?_⟩
      obtain ⟨st', h'⟩ := (psiUpdate_iff (env := env) hsort hinv c hro).2 hsr.2
      refine ⟨conc, some st', svdFace argp st', ?_, ?_, st', rfl, by rw [psiRun_snoc hst, h'], rfl⟩
      · unfold concatStep
        rw [hm, if_pos rfl]
      · unfold updateStep
        rw [hr, if_neg (by simp), hm, if_pos rfl]
        show (psiUpdate env c0 st c >>= fun s => pure (some s)) = _
        rw [h']; rfl
    · rintro past c d htk s conc f s' conc' f' snap snap' ⟨st, -, hst, rfl⟩ ⟨st', -, hst', rfl⟩ hs hs'
      obtain ⟨us, is, hinv, -⟩ := C31_run env hsort c0 _ _ st hst
      obtain ⟨us', is', hinv', -⟩ := C31_run env hsort c0 _ _ st' hst'
      rw [List.flatten_append, ← List.append_assoc] at hinv'
      have t1 := (List.getElem?_eq_some_iff.1 (taken_chunk htk).1).1
      refine psi_comparable hinv hinv' hargp hk (hne ?_) (known_append ht _) hs hs'
      simp only [List.length_append, List.length_singleton] at t1
      omega

/-! ### The script -/

variable [FloorRing K]

theorem prepSvdCfg_mk {env : RunEnv K} {cfg : RunCfg K} {fs : FixedSvd} {r : ℕ}
    (h : getOptimalSvdRank cfg.dataset env.svdCsv = .ok (r : ℤ)) :
    prepSvdCfg env { cfg with fixedSvd := some fs, fixedTd := none } = .ok ⟨r, fs.nPower, fs.os, none, false⟩ := by
  unfold prepSvdCfg natRank
  dsimp only
  rw [h, except_bind_ok, cfgGet, except_bind_ok, if_pos (by omega), except_bind_ok]
  rfl

theorem script_plain_eq {env : RunEnv K} {cfg : RunCfg K} {fs : FixedSvd} {ft : FixedTd} {name : String}
    (hn : name = "SVD" ∨ name = "PSIRec") {data : List (IRow K)} {initial left : List (Row K)}
    {stream : List (ℤ × List (Row K))} {p : Prepared K}
    (h1 : prepareDataForExperiment env.sortDay data cfg.initRatio cfg.hmMin = .ok (initial, stream, left))
    (h2 : prepareModel env { cfg with fixedSvd := some fs, fixedTd := none } name = .ok p) :
    runScript env cfg fs ft name data =
      runPrepared env (expCfgOf env cfg p (getUsersStability env.sortCnt initial left cfg.howMany)) p
        (.plain initial) (stream.map Prod.snd) := by
  unfold runScript
  have e : scriptChoice fs ft name = .ok ("2d", some fs, none) := by
    rcases hn with rfl | rfl <;> rfl
  rw [e, except_bind_ok]
  unfold fullDynamicalExperiment
  rw [h1, except_bind_ok]
  unfold initialTable
  rw [if_neg (show ¬ "2d" = "3d" by decide), if_pos rfl, except_bind_ok]
  dsimp only
  rw [h2, except_bind_ok]
  rfl

/-- **C126, SVD.** The script completes with `SVD` exactly if the data can be prepared, the selected rank is
positive and below the numbers of users and of items of the initial rows, every chunk taken has a row with
known ids, all users to be scored or tested have at least `topk` known items left without an interaction,
and there are users for the stability test if more than one chunk is taken. -/
theorem C126_svd (env : RunEnv K) (hargp : ArgPartOk env.argp) (hperm : ∀ l, (env.sortCnt l).Perm l)
    (cfg : RunCfg K) (hk : 1 ≤ cfg.topk) (fs : FixedSvd) (ft : FixedTd) (data : List (IRow K)) :
    (∃ d, runScript env cfg fs ft "SVD" data = .ok d) ↔ ScriptNeeds env cfg data (fun _ _ => True) := by
  constructor
  · rintro ⟨d, h⟩
    obtain ⟨initial, stream, left, p, h1, h2, h3⟩ := script_plain (Or.inl rfl) h
    unfold prepareModel at h2
    rw [if_pos rfl] at h2
    obtain ⟨c, h4, h2⟩ := (bind_ok_iff _ _ _).1 h2
    have h2 := Except.ok.inj h2
    subst h2
    obtain ⟨r, h5, rfl⟩ := prepSvdCfg_ok rfl h4
    obtain ⟨g1, g2, g3⟩ := (svdRun_iff hargp rfl rfl rfl hk (stability_known hperm _ _ _) _).1 ⟨d, h3⟩
    refine ⟨initial, stream, left, _, r, h1, rfl, h5, g1.1, g1.2.1, g1.2.2, ?_, ?_⟩
    · simpa [expCfgOf] using g2
    · simpa [expCfgOf] using g3
  · rintro ⟨initial, stream, left, chunks, r, h1, rfl, h5, g1, g2, g3, g4, g5⟩
    have h2 : prepareModel env { cfg with fixedSvd := some fs, fixedTd := none } "SVD" =
        .ok ⟨.svd ⟨r, fs.nPower, fs.os, none, false⟩, true, false, false, false, none⟩ := by
      unfold prepareModel prepareSvd
      rw [if_pos rfl, prepSvdCfg_mk h5, except_bind_ok]
      rfl
    rw [script_plain_eq (Or.inl rfl) h1 h2]
    refine (svdRun_iff hargp rfl rfl rfl hk (stability_known hperm _ _ _) _).2 ⟨⟨g1, g2, g3⟩, ?_, ?_⟩
    · simpa [expCfgOf] using g4
    · simpa [expCfgOf] using g5

/-- **C126, PSIRec.** The script completes with `PSIRec` exactly if in addition no chunk brings too many new
users or items at once (`Crowded`). -/
theorem C126_psirec (env : RunEnv K) (hsort : ArgSortOk env.psi.argsort) (hargp : ArgPartOk env.argp)
    (hperm : ∀ l, (env.sortCnt l).Perm l) (cfg : RunCfg K) (hk : 1 ≤ cfg.topk) (fs : FixedSvd) (ft : FixedTd)
    (data : List (IRow K)) :
    (∃ d, runScript env cfg fs ft "PSIRec" data = .ok d) ↔
      ScriptNeeds env cfg data (fun before c => ¬ Crowded (before.map Row.user) (before.map Row.item) c) := by
  constructor
  · rintro ⟨d, h⟩
    obtain ⟨initial, stream, left, p, h1, h2, h3⟩ := script_plain (Or.inr rfl) h
    unfold prepareModel at h2
    rw [if_neg (by decide), if_pos rfl] at h2
    obtain ⟨c, h4, h2⟩ := (bind_ok_iff _ _ _).1 h2
    have h2 := Except.ok.inj h2
    subst h2
    obtain ⟨r, h5, rfl⟩ := prepSvdCfg_ok rfl h4
    obtain ⟨g1, g2, g3⟩ := (psiRun_iff hsort hargp (fun _ => rfl) rfl rfl hk (stability_known hperm _ _ _) _).1 ⟨d, h3⟩
    refine ⟨initial, stream, left, _, r, h1, rfl, h5, g1.1, g1.2.1, g1.2.2, ?_, ?_⟩
    · simpa [expCfgOf, PsiAccepts] using g2
    · simpa [expCfgOf] using g3
  · rintro ⟨initial, stream, left, chunks, r, h1, rfl, h5, g1, g2, g3, g4, g5⟩
    have h2 : prepareModel env { cfg with fixedSvd := some fs, fixedTd := none } "PSIRec" =
        .ok ⟨.psi ⟨r, fs.nPower, fs.os, none, false⟩, false, true, false, false, none⟩ := by
      unfold prepareModel preparePsi
      rw [if_neg (by decide), if_pos rfl, prepSvdCfg_mk h5, except_bind_ok]
      rfl
    rw [script_plain_eq (Or.inr rfl) h1 h2]
    refine (psiRun_iff hsort hargp (fun _ => rfl) rfl rfl hk (stability_known hperm _ _ _) _).2 ⟨⟨g1, g2, g3⟩, ?_, ?_⟩
    · simpa [expCfgOf, PsiAccepts] using g4
    · simpa [expCfgOf] using g5

/-- Consequence: wherever `PSIRec` completes, `SVD` does. -/
theorem C126_psirec_svd (env : RunEnv K) (hsort : ArgSortOk env.psi.argsort) (hargp : ArgPartOk env.argp)
    (hperm : ∀ l, (env.sortCnt l).Perm l) (cfg : RunCfg K) (hk : 1 ≤ cfg.topk) (fs : FixedSvd) (ft : FixedTd)
    (data : List (IRow K)) (d : Dynamics K) (h : runScript env cfg fs ft "PSIRec" data = .ok d) :
    ∃ d', runScript env cfg fs ft "SVD" data = .ok d' := by
  obtain ⟨initial, stream, left, chunks, r, h1, h2, h3, h4, h5, h6, h7, h8⟩ :=
    (C126_psirec env hsort hargp hperm cfg hk fs ft data).1 ⟨d, h⟩
  exact (C126_svd env hargp hperm cfg hk fs ft data).2
    ⟨initial, stream, left, chunks, r, h1, h2, h3, h4, h5, h6, fun i c hc => ⟨(h7 i c hc).1, trivial⟩, h8⟩

theorem ablationRun_iff (env : RunEnv K) (hsort : ArgSortOk env.psi.argsort) (hargp : ArgPartOk env.argp)
    (hperm : ∀ l, (env.sortCnt l).Perm l) (cfg : RunCfg K) (hk : 1 ≤ cfg.topk) (fs : FixedSvd)
    (data : List (IRow K)) (o : K × Bool) :
    (∃ d, ablationRun env { cfg with fixedSvd := some fs, fixedTd := none } "PSIRec" "2d" data o = .ok d) ↔
      ScriptNeeds env cfg data (fun _ _ => True) := by
  constructor
  · rintro ⟨d, h⟩
    obtain ⟨initial, stream, left, p, h1, h2, h3⟩ := ablationRun_plain h
    unfold prepareModel at h2
    rw [if_neg (by decide), if_pos rfl] at h2
    obtain ⟨c, h4, h2⟩ := (bind_ok_iff _ _ _).1 h2
    have h2 := Except.ok.inj h2
    subst h2
    obtain ⟨r, h5, rfl⟩ := prepSvdCfg_ok rfl h4
    obtain ⟨g1, g2, g3⟩ := (psiRun_iff (env := (scaleNormal o.1 env).psi)
      (c0 := ⟨r, fs.nPower, fs.os, some (embOf o.1), o.2⟩) hsort hargp (fun h => by cases h) rfl rfl hk
      (stability_known hperm _ _ _) _).1 ⟨d, h3⟩
    refine ⟨initial, stream, left, _, r, h1, rfl, h5, g1.1, g1.2.1, g1.2.2, ?_, ?_⟩
    · simpa [expCfgOf, PsiAccepts] using g2
    · simpa [expCfgOf] using g3
  · rintro ⟨initial, stream, left, chunks, r, h1, rfl, h5, g1, g2, g3, g4, g5⟩
    have h2 : prepareModel (scaleNormal o.1 env) { cfg with fixedSvd := some fs, fixedTd := none } "PSIRec" =
        .ok ⟨.psi ⟨r, fs.nPower, fs.os, none, false⟩, false, true, false, false, none⟩ := by
      unfold prepareModel preparePsi
      rw [if_neg (by decide), if_pos rfl, prepSvdCfg_mk (env := scaleNormal o.1 env) h5, except_bind_ok]
      rfl
    unfold ablationRun
    dsimp only
    rw [show prepareDataForExperiment (scaleNormal o.1 env).sortDay data cfg.initRatio cfg.hmMin = _ from h1,
      except_bind_ok]
    unfold initialTable
    rw [if_neg (show ¬ "2d" = "3d" by decide), if_pos rfl, except_bind_ok]
    dsimp only
    rw [h2, except_bind_ok]
    refine (psiRun_iff (env := (scaleNormal o.1 env).psi)
      (c0 := ⟨r, fs.nPower, fs.os, some (embOf o.1), o.2⟩) hsort hargp (fun h => by cases h) rfl rfl hk
      (stability_known hperm _ _ _) _).2 ⟨⟨g1, g2, g3⟩, ?_, ?_⟩
    · simpa [expCfgOf, PsiAccepts, Tab.rows, scaleNormal] using g4
    · simpa [expCfgOf, Tab.rows, scaleNormal] using g5

/-- **C126, ablation study of PSIRec.** All or nothing: it writes the files of all seven options exactly under
the conditions under which the experiment with `SVD` completes, and no file at all otherwise. -/
theorem C126_ablation (env : RunEnv K) (hsort : ArgSortOk env.psi.argsort) (hargp : ArgPartOk env.argp)
    (hperm : ∀ l, (env.sortCnt l).Perm l) (cfg : RunCfg K) (hk : 1 ≤ cfg.topk) (fs : FixedSvd) (ft : FixedTd)
    (data : List (IRow K)) :
    (ScriptNeeds env cfg data (fun _ _ => True) →
      (ablationScript env cfg fs ft "PSIRec" data).1.length = 7 ∧
      (ablationScript env cfg fs ft "PSIRec" data).2 = none) ∧
    (¬ ScriptNeeds env cfg data (fun _ _ => True) →
      ∃ err, ablationScript env cfg fs ft "PSIRec" data = ([], some err)) := by
  have hiff := ablationRun_iff env hsort hargp hperm cfg hk fs data
  unfold ablationScript
  rw [if_pos (by simp)]
  constructor
  · intro h
    obtain ⟨rest, h1, -, h3⟩ := ablationLoop_spec
      (ablationRun env { cfg with fixedSvd := some fs, fixedTd := none } "PSIRec" "2d" data) ablationOptions
    rcases h3 with ⟨rfl, h4⟩ | ⟨o, tl, e, -, h4, -⟩
    · refine ⟨?_, h4⟩
      have := congrArg List.length h1
      simpa [ablationOptions] using this.symm
    · obtain ⟨d, hd⟩ := (hiff o).2 h
      rw [h4] at hd
      cases hd
  · intro h
    unfold ablationOptions ablationLoop
    cases hr : ablationRun env { cfg with fixedSvd := some fs, fixedTd := none } "PSIRec" "2d" data (0, true) with
    | error e => exact ⟨e, rfl⟩
    | ok d => exact absurd ((hiff _).1 ⟨d, hr⟩) h

end steps

/-! ### Examples -/

theorem exRunArgp_ok : ArgPartOk exRunEnv.argp := by
  intro a k _ _
  refine ⟨stableSort_perm _ _, ?_⟩
  intro i j pi pj x y hi hj hx hy hik hkj
  have hs : (stableSort (fun i j => decide (a.getD i 0 ≤ a.getD j 0)) (List.range a.length)).Pairwise
      (fun i j => decide (a.getD i 0 ≤ a.getD j 0) = true) := by
    apply stableSort_sorted
    · intro a b c; simp only [decide_eq_true_eq]; exact le_trans
    · intro a b; simp only [decide_eq_true_eq]; exact le_total _ _
  change (stableSort (fun i j => decide (a.getD i 0 ≤ a.getD j 0)) (List.range a.length))[i]? = _ at hi
  change (stableSort (fun i j => decide (a.getD i 0 ≤ a.getD j 0)) (List.range a.length))[j]? = _ at hj
  have ex : a.getD pi 0 = x := by simp [List.getD_eq_getElem?_getD, hx]
  have ey : a.getD pj 0 = y := by simp [List.getD_eq_getElem?_getD, hy]
  rcases Nat.lt_or_ge i j with hlt | hge
  · obtain ⟨hi1, hi2⟩ := List.getElem?_eq_some_iff.1 hi
    obtain ⟨hj1, hj2⟩ := List.getElem?_eq_some_iff.1 hj
    have := List.pairwise_iff_getElem.1 hs i j hi1 hj1 hlt
    rw [hi2, hj2, ex, ey] at this
    simpa using this
  · have : i = j := by omega
    subst this
    rw [hi, Option.some.injEq] at hj
    subst hj
    rw [hx, Option.some.injEq] at hy
    exact le_of_eq hy

/-- The run of `exRunData` meets the conditions (it completes). -/
example : ScriptNeeds exRunEnv exRunCfg exRunData (fun _ _ => True) := by
  refine (C126_svd exRunEnv exRunArgp_ok (fun _ => List.Perm.refl _) exRunCfg (by decide) exFixSvd exFixTd exRunData).1 ?_
  cases h : runScript exRunEnv exRunCfg exFixSvd exFixTd "SVD" exRunData with
  | ok d => exact ⟨d, rfl⟩
  | error e =>
    have : exRunHr "SVD" = some [0, 1] := by decide +kernel
    unfold exRunHr at this
    rw [h] at this
    cases this

/-- With `topk = 2` the first chunk cannot be scored: user 8 has only one known item left. -/
example : unseenOf (exRunData.map IRow.row |>.take 4) 8 = 1 := by decide +kernel

/-- So it does not complete with `topk = 2`, whatever the numerical routines return. -/
example (psi : PSIEnv ℚ) :
    ¬ ∃ d, runScript { exRunEnv with psi := psi } { exRunCfg with topk := 2 } exFixSvd exFixTd "SVD" exRunData = .ok d := by
  intro hd
  obtain ⟨initial, stream, left, chunks, r, h1, rfl, -, -, -, -, h, -⟩ :=
    (C126_svd { exRunEnv with psi := psi } exRunArgp_ok (fun _ => List.Perm.refl _) { exRunCfg with topk := 2 }
      (by decide) exFixSvd exFixTd exRunData).1 hd
  have e : prepareDataForExperiment exRunEnv.sortDay exRunData exRunCfg.initRatio exRunCfg.hmMin =
      .ok ((exRunData.map IRow.row).take 4, [(1, [⟨8, 43, 1, 4, 1⟩, ⟨9, 41, 1, 5, 1⟩]), (2, [⟨7, 43, 1, 6, 2⟩])],
        (exRunData.map IRow.row).drop 4) := by decide +kernel
  have h2 := Except.ok.inj (h1.symm.trans e)
  injection h2 with h2 h3
  injection h3 with h3 h4
  clear h1
  subst h2 h3 h4
  have := ((h 0 [⟨8, 43, 1, 4, 1⟩, ⟨9, 41, 1, 5, 1⟩] (by decide +kernel)).1.2.1 ⟨8, 43, 1, 4, 1⟩ (by simp)
    (by decide +kernel))
  revert this
  decide +kernel

end DynCF
