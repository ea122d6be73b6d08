/- C149: the length of the lists. C150: the number of steps. -/
import Verif.Lemmas.RunLength
import Verif.Props.FullExperiment3
import Verif.Props.LongerLists
import Verif.Props.Completion

namespace DynCF
variable {K σ F : Type} [Field K] [LinearOrder K]

/-! ### The classes of the library -/

omit [Field K] [LinearOrder K] in
theorem quiet_withUpdate {M : RecModel K σ F} (h : Quiet M) (b : Bool) : Quiet (withUpdate b M) := by
  cases b
  · exact h
  · exact h

theorem svdClass_quiet (env : PSIEnv K) (argp : ArgPart K) (c : PSICfg) : Quiet (svdClass env argp c) := by
  intro s us k b r s' h
  cases s with
  | none => cases h
  | some st =>
    obtain ⟨x, -, h⟩ := (bind_ok_iff (psiRecommend argp st us k true b) _ _).1 h
    exact (congrArg Prod.snd (Except.ok.inj h)).symm

theorem psiClass_quiet (env : PSIEnv K) (argp : ArgPart K) (c : PSICfg) : Quiet (psiClass env argp c) :=
  svdClass_quiet env argp c

theorem tdClass_quiet (argp : ArgPart K) (c : TDCfg K) (m : TDAtt K) : Quiet (tdClass argp c m) := by
  intro s us k b r s' h
  cases s with
  | none => cases h
  | some st =>
    obtain ⟨x, -, h⟩ := (bind_ok_iff (tdRecommend argp st us k true b) _ _).1 h
    exact (congrArg Prod.snd (Except.ok.inj h)).symm

theorem tdReClass_quiet (argp : ArgPart K) (c : TDCfg K) (m : TDAtt K) : Quiet (tdReClass argp c m) :=
  tdClass_quiet argp c m

theorem tiClass_quiet (rounds : TIRounds K) (argp : ArgPart K) (c : TICfg K) (m : TDAtt K) :
    Quiet (tiClass rounds argp c m) := tdClass_quiet argp c.td m

/-- the random recommender has no embeddings: its experiment completes only without chunks -/
theorem random_complete {argp : ArgPart K} {normals : ℕ → K} {b : Bool} {e : ExpCfg K} {s0 : Option RecView × ℕ}
    {initial : Tab K} {stream : List (List (Row K))} {d : Dynamics K}
    (h : runWith (withUpdate b (randomClass argp normals)) e s0 initial stream = .ok d) : stream = [] := by
  cases stream with
  | nil => rfl
  | cons c cs =>
    exfalso
    have hu : ∀ s, (withUpdate b (randomClass argp normals)).getU s = .error .attributeError := by
      cases b <;> exact fun _ => rfl
    unfold runWith dynamicalExperiment at h
    obtain ⟨t, h1, -⟩ := (bind_ok_iff _ _ _).1 h
    obtain ⟨x, -, h1⟩ := (bind_ok_iff _ _ _).1 h1
    unfold expLoop at h1
    obtain ⟨s1, h1, -⟩ := (bind_ok_iff _ _ _).1 h1
    unfold expStep at h1
    obtain ⟨s2, -, h1⟩ := (bind_ok_iff _ _ _).1 h1
    obtain ⟨s3, -, h1⟩ := (bind_ok_iff _ _ _).1 h1
    obtain ⟨s4, h1, -⟩ := (bind_ok_iff _ _ _).1 h1
    unfold driftStep at h1
    rw [if_pos rfl] at h1
    obtain ⟨u, h1, -⟩ := (bind_ok_iff _ _ _).1 h1
    rw [hu] at h1
    cases h1

/-- The series that have nothing to do with recommendations are the same. -/
def SameEmbeddings (d d' : Dynamics K) : Prop :=
  d'.times = d.times ∧ d'.rndUsers = d.rndUsers ∧ d'.rndItems = d.rndItems ∧ d'.ndUsers = d.ndUsers ∧
    d'.ndItems = d.ndItems

theorem runWith_ask_same {M : RecModel K σ F} (hq : Quiet M) (e : ExpCfg K) (k : ℕ) (users : List ℤ) (s0 : σ)
    (initial : Tab K) (stream : List (List (Row K))) (d d' : Dynamics K) (h : runWith M e s0 initial stream = .ok d)
    (h' : runWith M (e.ask k users) s0 initial stream = .ok d') :
    SameEmbeddings d d' ∧ (k = e.kRecs → d'.hr = d.hr ∧ d'.mrr = d.mrr) := by
  constructor
  · exact (runWith_ask (P := fun _ _ => True) (Q := fun _ _ => True) hq e k users
      (fun _ _ _ _ _ _ _ _ _ => ⟨fun _ _ _ _ => trivial, fun _ _ _ _ => trivial⟩) stream d d' h h').1
  · rintro rfl
    have := (runWith_ask (P := Eq) (Q := Eq) hq e e.kRecs users (fun past snaps s c _ r r' hr hr' => by
      have e1 : r' = r := congrArg Prod.fst (Except.ok.inj (hr'.symm.trans hr))
      subst e1
      exact ⟨fun x y hx hy => Except.ok.inj (hx.symm.trans hy), fun x y hx hy => Except.ok.inj (hx.symm.trans hy)⟩)
      stream d d' h h').2
    rw [List.forall₂_eq_eq_eq] at this
    exact ⟨this.1.symm, this.2.symm⟩

theorem runPrepared_ask (env : RunEnv K) (e : ExpCfg K) (p : Prepared K) (k : ℕ) (users : List ℤ)
    (initial : Tab K) (stream : List (List (Row K))) (d d' : Dynamics K)
    (h : runPrepared env e p initial stream = .ok d) (h' : runPrepared env (e.ask k users) p initial stream = .ok d') :
    SameEmbeddings d d' ∧ (k = e.kRecs → d'.hr = d.hr ∧ d'.mrr = d.mrr) := by
  obtain ⟨o, bt, cm, re, td, ml⟩ := p
  cases o with
  | svd c => exact runWith_ask_same (quiet_withUpdate (svdClass_quiet _ _ _) bt) e k users none initial stream d d' h h'
  | psi c => exact runWith_ask_same (quiet_withUpdate (psiClass_quiet _ _ _) bt) e k users none initial stream d d' h h'
  | td c m => exact runWith_ask_same (quiet_withUpdate (tdClass_quiet _ _ _) bt) e k users none initial stream d d' h h'
  | tdRe c m => exact runWith_ask_same (quiet_withUpdate (tdReClass_quiet _ _ _) bt) e k users none initial stream d d' h h'
  | ti c m => exact runWith_ask_same (quiet_withUpdate (tiClass_quiet _ _ _ _) bt) e k users none initial stream d d' h h'
  | tiA c m => exact runWith_ask_same (quiet_withUpdate (tiClass_quiet _ _ _ _) bt) e k users none initial stream d d' h h'
  | random =>
    have hs := random_complete (b := bt) h
    subst hs
    have e1 : d' = d := Except.ok.inj (h'.symm.trans h)
    subst e1
    exact ⟨⟨rfl, rfl, rfl, rfl, rfl⟩, fun _ => ⟨rfl, rfl⟩⟩

theorem runPrepared_fewer (env : RunEnv K) (e : ExpCfg K) (p : Prepared K) (n n' : ℤ) (hn1 : 1 ≤ n)
    (hn : n ≤ n' ∨ n' < 1) (initial : Tab K) (stream : List (List (Row K))) (d' : Dynamics K)
    (h' : runPrepared env (e.steps n') p initial stream = .ok d') :
    ∃ d, runPrepared env (e.steps n) p initial stream = .ok d ∧ d.Begins d' := by
  obtain ⟨o, bt, cm, re, td, ml⟩ := p
  cases o <;> exact runWith_fewer e n n' hn1 hn _ initial stream d' h'

omit [Field K] [LinearOrder K] in
theorem testItems_length (c : List (Row K)) (m : Mappings) :
    (getUsersToRecommendTestItems c m).2.length = (getUsersToRecommendTestItems c m).1.length := by
  unfold getUsersToRecommendTestItems
  simp

/-- **C148 (partial), in an experiment.** Two completed runs with any recommender that is not changed by being asked, the
first asking for `e.kRecs` items and the second for `k' ≥ e.kRecs` (and perhaps testing other users). If every model of
the run scores and filters as the classes of the library do (`RecSetting`) and no two items open to a scored user have the
same score, no recorded hit rate of the second run is lower. Missing: equal scores and the reciprocal ranks
(`C148_violated`). -/
theorem C148_run_partial [IsStrictOrderedRing K] {M : RecModel K σ F} (hq : Quiet M) (e : ExpCfg K) (k' : ℕ)
    (hk : e.kRecs ≤ k') (tests : List ℤ) (s0 : σ) (initial : Tab K)
    (H : ∀ past snaps s (c : List (Row K)), Watched M e s0 initial past snaps s →
      ∃ (argp : ArgPart K) (b : Bool) (v : RecView) (us is : List ℤ) (score : ℕ → ℤ → PyM (List K)) (f : ℕ → ℕ → List K),
        RecSetting argp v us is score f e.kRecs true ∧ RecSetting argp v us is score f k' true ∧
        (∀ (req : List ℤ) (k : ℕ) (r : List (List ℤ)), M.recommend s req k false = .ok (r, s) →
          recommend b argp v score req k true false = .ok r) ∧
        ∀ (i : ℕ) (u : ℤ) (a : ℕ), (getUsersToRecommendTestItems c (M.maps s)).1[i]? = some u → us[a]? = some u →
          DistinctScores v us true u (f i a))
    (stream : List (List (Row K))) (d d' : Dynamics K) (h : runWith M e s0 initial stream = .ok d)
    (h' : runWith M (e.ask k' tests) s0 initial stream = .ok d') : List.Forall₂ (· ≤ ·) d.hr d'.hr := by
  refine (runWith_ask (P := (· ≤ ·)) (Q := fun _ _ => True) hq e k' tests ?_ stream d d' h h').2.1
  intro past snaps s c hw r r' hr hr'
  obtain ⟨argp, b, v, us, is, score, f, g1, g2, g3, g4⟩ := H past snaps s c hw
  refine ⟨fun x y hx hy => ?_, fun _ _ _ _ => trivial⟩
  exact C148_hit_rate_partial g1 g2 hk b b false _ r r' (g3 _ _ _ hr) (g3 _ _ _ hr') g4 _
    (testItems_length c (M.maps s)) x y hx hy

variable [FloorRing K]

/-! ### C149 -/

/-- **C149** (experiment script). Two completed runs that differ only in `topk`: the recorded times, the drift and the
norms of the embeddings are the same. -/
theorem C149_topk (env : RunEnv K) (cfg : RunCfg K) (fs : FixedSvd) (ft : FixedTd) (name : String) (data : List (IRow K))
    (k' : ℕ) (d d' : Dynamics K) (h : runScript env cfg fs ft name data = .ok d)
    (h' : runScript env { cfg with topk := k' } fs ft name data = .ok d') : SameEmbeddings d d' := by
  unfold runScript fullDynamicalExperiment at h h'
  obtain ⟨c, h1, h⟩ := (bind_ok_iff _ _ _).1 h
  obtain ⟨c', h1', h'⟩ := (bind_ok_iff _ _ _).1 h'
  obtain rfl : c' = c := Except.ok.inj (h1'.symm.trans h1)
  obtain ⟨x, h2, h⟩ := (bind_ok_iff _ _ _).1 h
  obtain ⟨x', h2', h'⟩ := (bind_ok_iff _ _ _).1 h'
  obtain rfl : x' = x := Except.ok.inj (h2'.symm.trans h2)
  obtain ⟨t, h3, h⟩ := (bind_ok_iff _ _ _).1 h
  obtain ⟨t', h3', h'⟩ := (bind_ok_iff _ _ _).1 h'
  obtain rfl : t' = t := Except.ok.inj (h3'.symm.trans h3)
  obtain ⟨p, h4, h⟩ := (bind_ok_iff _ _ _).1 h
  obtain ⟨p', h4', h'⟩ := (bind_ok_iff _ _ _).1 h'
  have h4'' : prepareModel env { cfg with fixedSvd := c'.2.1, fixedTd := c'.2.2 } name = .ok p' := h4'
  obtain rfl : p' = p := Except.ok.inj (h4''.symm.trans h4)
  exact (runPrepared_ask env _ p' k' _ t' _ d d' h h').1

/-! ### C150 -/

/-- The test users of the stability score in a run of the script with `n` steps. -/
def TestUsersOf (env : RunEnv K) (cfg : RunCfg K) (dim : String) (data : List (IRow K)) (n : ℤ) (us : List ℤ) : Prop :=
  ∃ x t, prepareDataForExperiment env.sortDay data cfg.initRatio cfg.hmMin = .ok x ∧
    initialTable dim cfg.maxLen x.1 = .ok t ∧ us = getUsersStability env.sortCnt t.rows x.2.2 n

/-- **C150 (partial)** (experiment script). Two completed runs of which the first stops earlier: all its series except
the stability are the beginnings of those of the longer run; the stability too if the test users are the same.
Missing: the stability for other test users (`C150_violated`). -/
theorem C150_fewer_steps_partial (env : RunEnv K) (cfg : RunCfg K) (fs : FixedSvd) (ft : FixedTd) (name : String)
    (data : List (IRow K)) (n n' : ℤ) (hn1 : 1 ≤ n) (hn : n ≤ n' ∨ n' < 1) (d d' : Dynamics K)
    (h : runScript env { cfg with howMany := n } fs ft name data = .ok d)
    (h' : runScript env { cfg with howMany := n' } fs ft name data = .ok d') :
    (d.times <+: d'.times ∧ d.hr <+: d'.hr ∧ d.mrr <+: d'.mrr ∧ d.rndUsers <+: d'.rndUsers ∧
      d.rndItems <+: d'.rndItems ∧ d.ndUsers <+: d'.ndUsers ∧ d.ndItems <+: d'.ndItems) ∧
    ((∀ c us us', scriptChoice fs ft name = .ok c → TestUsersOf env cfg c.1 data n us →
      TestUsersOf env cfg c.1 data n' us' → us = us') → d.wji <+: d'.wji) := by
  unfold runScript fullDynamicalExperiment at h h'
  obtain ⟨c, h1, h⟩ := (bind_ok_iff _ _ _).1 h
  obtain ⟨c', h1', h'⟩ := (bind_ok_iff _ _ _).1 h'
  obtain rfl : c' = c := Except.ok.inj (h1'.symm.trans h1)
  obtain ⟨x, h2, h⟩ := (bind_ok_iff _ _ _).1 h
  obtain ⟨x', h2', h'⟩ := (bind_ok_iff _ _ _).1 h'
  obtain rfl : x' = x := Except.ok.inj (h2'.symm.trans h2)
  obtain ⟨t, h3, h⟩ := (bind_ok_iff _ _ _).1 h
  obtain ⟨t', h3', h'⟩ := (bind_ok_iff _ _ _).1 h'
  obtain rfl : t' = t := Except.ok.inj (h3'.symm.trans h3)
  obtain ⟨p, h4, h⟩ := (bind_ok_iff _ _ _).1 h
  obtain ⟨p', h4', h'⟩ := (bind_ok_iff _ _ _).1 h'
  have h4'' : prepareModel env { cfg with howMany := n, fixedSvd := c'.2.1, fixedTd := c'.2.2 } name = .ok p' := h4'
  obtain rfl : p' = p := Except.ok.inj (h4''.symm.trans h4)
  -- the run with the users of the longer one that stops earlier
  obtain ⟨m, hm, hb⟩ := runPrepared_fewer env (expCfgOf env { cfg with howMany := n', fixedSvd := c'.2.1, fixedTd := c'.2.2 } p'
    (getUsersStability env.sortCnt t'.rows x'.2.2 n')) p' n n' hn1 hn t' (x'.2.1.map Prod.snd) d' h'
  obtain ⟨⟨e1, e2, e3, e4, e5⟩, e6⟩ := runPrepared_ask env (expCfgOf env { cfg with howMany := n, fixedSvd := c'.2.1, fixedTd := c'.2.2 } p'
    (getUsersStability env.sortCnt t'.rows x'.2.2 n)) p' cfg.topk (getUsersStability env.sortCnt t'.rows x'.2.2 n') t'
    (x'.2.1.map Prod.snd) d m h hm
  obtain ⟨e6, e7⟩ := e6 rfl
  refine ⟨⟨e1 ▸ hb.times, e6 ▸ hb.hr, e7 ▸ hb.mrr, e2 ▸ hb.rndUsers, e3 ▸ hb.rndItems, e4 ▸ hb.ndUsers,
    e5 ▸ hb.ndItems⟩, ?_⟩
  intro hus
  have hu := hus c' _ _ h1 ⟨x', t', h2, h3, rfl⟩ ⟨x', t', h2, h3, rfl⟩
  have hm' : runPrepared env (expCfgOf env { cfg with howMany := n, fixedSvd := c'.2.1, fixedTd := c'.2.2 } p'
      (getUsersStability env.sortCnt t'.rows x'.2.2 n')) p' t' (x'.2.1.map Prod.snd) = .ok m := hm
  rw [← hu] at hm'
  obtain rfl : m = d := Except.ok.inj (hm'.symm.trans h)
  exact hb.wji

/-- four initial rows of users 7 and 8, a day of users 8 and 9, a day of user 8 and a day of user 7 -/
def exStopData : List (IRow ℚ) :=
  exRunData.dropLast ++ [⟨6, ⟨8, 40, 1, 6, 2⟩⟩, ⟨7, ⟨7, 43, 1, 7, 3⟩⟩]

/-- the recorded hit rates and stabilities of TDRecReinit with `n` steps -/
def exStopRun (n : ℤ) : Option (List ℚ × List ℚ) :=
  match runScript exRunEnv2 { exRunCfg with initRatio := 1 / 2, howMany := n } exFixSvd exFixTd "TDRecReinit" exStopData with
  | .ok d => some (d.hr, d.wji)
  | .error _ => none

/-- **C150 is violated**: the stability of the first two models is recorded as 0 when the run stops after two steps and
as 1/2 when it stops after three, because user 7 is tested only in the second case. With `how_many_iterations = -1` the
run also takes all three steps but tests the users of the first two days. -/
theorem C150_violated : exStopRun 2 = some ([0, 0], [0]) ∧ exStopRun 3 = some ([0, 0, 0], [1 / 2, 1 / 2]) ∧
    exStopRun (-1) = some ([0, 0, 0], [0, 0]) := by
  refine ⟨?_, ?_, ?_⟩ <;> decide +kernel

/-! ### Examples -/

/-- six initial rows of users 7 and 8, two further days -/
def exWideData : List (IRow ℚ) :=
  [⟨0, ⟨7, 40, 1, 0, 0⟩⟩, ⟨1, ⟨8, 41, 1, 1, 0⟩⟩, ⟨2, ⟨8, 42, 1, 2, 0⟩⟩, ⟨3, ⟨7, 43, 1, 3, 0⟩⟩, ⟨4, ⟨7, 44, 1, 3, 0⟩⟩,
   ⟨5, ⟨8, 45, 1, 3, 0⟩⟩, ⟨6, ⟨8, 43, 1, 4, 1⟩⟩, ⟨7, ⟨9, 41, 1, 5, 1⟩⟩, ⟨8, ⟨7, 42, 1, 6, 2⟩⟩, ⟨9, ⟨8, 40, 1, 6, 2⟩⟩]

/-- the recorded hit rates and drifts of TDRec with lists of length `k` -/
def exWideRun (k : ℕ) : Option (List ℚ × List (Num ℚ)) :=
  match runScript exRunEnv2 { exRunCfg with initRatio := 6 / 10, topk := k } exFixSvd exFixTd "TDRec" exWideData with
  | .ok d => some (d.hr, d.rndItems)
  | .error _ => none

/-- lists of one and of three items: other hit rates, the same drift -/
example : exWideRun 1 = some ([0, 1 / 2], [.inf]) ∧ exWideRun 3 = some ([1, 1], [.inf]) := by
  constructor <;> decide +kernel

/-- a recommender with the scores 1, 3, 2 for the items 10, 11, 12 -/
def exAskM : RecModel ℚ Unit Unit where
  train _ _ := .ok ()
  update _ _ := .ok ()
  updateRe _ _ _ _ := .ok ()
  recommend _ us k internal := do
    let r ← recommend true exRunEnv.argp threeView (fun _ _ => .ok [1, 3, 2]) us k true internal
    pure (r, ())
  maps _ := threeView.maps
  factors _ := ()
  nItems _ := 3
  getU _ := .ok ⟨1, 1, fun _ _ => 1⟩
  getV _ := .ok ⟨3, 1, fun _ _ => 1⟩

def exAskCfg : ExpCfg ℚ := ⟨[70], 1, 3, 5, true, false, false, fun _ => 1, fun n => n⟩

def exAskStream : List (List (Row ℚ)) := [[⟨70, 12, 1, 1, 1⟩], [⟨70, 11, 1, 2, 2⟩]]

def exAskHr (k : ℕ) : Option (List ℚ) :=
  match runWith exAskM (exAskCfg.ask k [70]) () (.plain []) exAskStream with
  | .ok d => some d.hr
  | .error _ => none

example : exAskHr 1 = some [0, 1] ∧ exAskHr 2 = some [1, 1] := by constructor <;> decide +kernel

/-- the hypotheses of `C148_run_partial` hold for it -/
example (d d' : Dynamics ℚ) (h : runWith exAskM exAskCfg () (.plain []) exAskStream = .ok d)
    (h' : runWith exAskM (exAskCfg.ask 2 [70]) () (.plain []) exAskStream = .ok d') : List.Forall₂ (· ≤ ·) d.hr d'.hr := by
  refine C148_run_partial (M := exAskM) (fun _ _ _ _ _ _ _ => rfl) exAskCfg 2 (by decide) [70] () (.plain []) ?_
    exAskStream d d' h h'
  intro past snaps s c _
  have hset : ∀ k, 1 ≤ k → RecSetting exRunEnv.argp threeView [70] [10, 11, 12]
      (fun _ _ => .ok [1, 3, 2]) (fun _ _ => [1, 3, 2]) k true := fun k hk =>
    { argp := exRunArgp_ok
      view := ⟨represents_start_zero _ (by decide), represents_start_zero _ (by decide), rfl, rfl, by decide⟩
      scores := fun _ _ _ => ⟨rfl, rfl⟩
      k := hk
      nonempty := by decide
      nonempty2 := by intro _; decide }
  refine ⟨exRunEnv.argp, true, threeView, [70], [10, 11, 12], fun _ _ => .ok [1, 3, 2], fun _ _ => [1, 3, 2],
    hset _ (by decide), hset _ (by decide), ?_, ?_⟩
  · intro req k r hr
    obtain ⟨x, hx, hr⟩ := (bind_ok_iff (recommend true exRunEnv.argp threeView
      (fun _ _ => .ok [1, 3, 2]) req k true false) _ _).1 hr
    have hxr : x = r := congrArg Prod.fst (Except.ok.inj hr)
    rw [← hxr]
    exact hx
  · intro i u a _ _ j j' x _ _ hx hx'
    rcases j with _ | _ | _ | j <;> rcases j' with _ | _ | _ | j' <;> simp at hx hx' <;> first | rfl | (subst hx; norm_num at hx')

/-- the norms recorded for the example -/
def exStopNorms (name : String) (k : ℕ) (n : ℤ) : Option (List ℚ) :=
  match runScript exRunEnv2 { exRunCfg with initRatio := 1 / 2, topk := k, howMany := n } exFixSvd exFixTd name exStopData with
  | .ok d => some d.ndItems
  | .error _ => none

example : exStopNorms "TDRec" 1 3 = some [1, 1, 1] := by decide +kernel
example : exStopNorms "TDRec" 1 2 = some [1, 1] := by decide +kernel

end DynCF
