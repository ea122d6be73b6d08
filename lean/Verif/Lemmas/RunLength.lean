/- Two runs of the experiment that differ in what is asked for, or in the number of steps. -/
import Verif.Lemmas.Blind
import Verif.Model.PrepareModel

namespace DynCF
variable {K σ F : Type} [Field K] [LinearOrder K]

/-- Another number of items and other test users. -/
def ExpCfg.ask (e : ExpCfg K) (k : ℕ) (users : List ℤ) : ExpCfg K := { e with kRecs := k, testUsers := users }

theorem expLoop_ask {M : RecModel K σ F} (hq : Quiet M) (e : ExpCfg K) (k : ℕ) (users : List ℤ) {s0 : σ}
    {initial : Tab K} {P Q : K → K → Prop}
    (H : ∀ past snaps s (c : List (Row K)), Watched M e s0 initial past snaps s → ∀ r r',
      M.recommend s (getUsersToRecommendTestItems c (M.maps s)).1 e.kRecs false = .ok (r, s) →
      M.recommend s (getUsersToRecommendTestItems c (M.maps s)).1 k false = .ok (r', s) →
      (∀ x y, hr r (getUsersToRecommendTestItems c (M.maps s)).2 = .ok x →
        hr r' (getUsersToRecommendTestItems c (M.maps s)).2 = .ok y → P x y) ∧
      ∀ x y, mrr r (getUsersToRecommendTestItems c (M.maps s)).2 = .ok x →
        mrr r' (getUsersToRecommendTestItems c (M.maps s)).2 = .ok y → Q x y)
    (stream : List (List (Row K))) (past : List (List (Row K))) (snaps : List (Snap K)) (st st' t t' : ExpState K σ)
    (inv : ExpInv M e s0 initial past snaps st) (hb : st.blind = st'.blind)
    (hP : List.Forall₂ P st.dyn.hr st'.dyn.hr) (hQ : List.Forall₂ Q st.dyn.mrr st'.dyn.mrr)
    (h : expLoop M e (snaps.length + 1) stream st = .ok t)
    (h' : expLoop M (e.ask k users) (snaps.length + 1) stream st' = .ok t') :
    t.blind = t'.blind ∧ List.Forall₂ P t.dyn.hr t'.dyn.hr ∧ List.Forall₂ Q t.dyn.mrr t'.dyn.mrr := by
  induction stream generalizing past snaps st st' with
  | nil =>
    have h := Except.ok.inj h
    have h' := Except.ok.inj h'
    subst h
    subst h'
    exact ⟨hb, hP, hQ⟩
  | cons c cs ih =>
    unfold expLoop at h h'
    obtain ⟨s1, h1, h⟩ := (bind_ok_iff _ _ _).1 h
    obtain ⟨s1', h1', h'⟩ := (bind_ok_iff _ _ _).1 h'
    obtain ⟨snap, inv'⟩ := expStep_inv M e inv h1
    obtain ⟨b1, r, x, m, k1, k2, k3, k4, k5⟩ := expStep_blind hq h1
    obtain ⟨b1', r', x', m', k1', k2', k3', k4', k5'⟩ := expStep_blind hq h1'
    have hm : st'.model = st.model := by
      have := congrArg ExpState.model hb
      exact this.symm
    rw [hm] at k1' k2' k3'
    obtain ⟨p1, p2⟩ := H past snaps st.model c inv.watched r r' k1 k1'
    have hb1 : s1.blind = s1'.blind := by
      have e1 : blindStep M (e.ask k users) (snaps.length + 1) c st'.blind = blindStep M e (snaps.length + 1) c st.blind := by
        rw [hb]; rfl
      exact Except.ok.inj (b1.symm.trans (e1.symm.trans b1'))
    have hP1 : List.Forall₂ P s1.dyn.hr s1'.dyn.hr := by
      rw [k4, k4']
      exact List.rel_append hP (List.Forall₂.cons (p1 _ _ k2 k2') List.Forall₂.nil)
    have hQ1 : List.Forall₂ Q s1.dyn.mrr s1'.dyn.mrr := by
      rw [k5, k5']
      exact List.rel_append hQ (List.Forall₂.cons (p2 _ _ k3 k3') List.Forall₂.nil)
    by_cases hs : ((snaps.length + 1 : ℕ) : ℤ) = e.howMany
    · rw [if_pos hs] at h
      rw [if_pos (show ((snaps.length + 1 : ℕ) : ℤ) = (e.ask k users).howMany from hs)] at h'
      have h := Except.ok.inj h
      have h' := Except.ok.inj h'
      subst h
      subst h'
      exact ⟨hb1, hP1, hQ1⟩
    · rw [if_neg hs] at h
      rw [if_neg (show ¬ ((snaps.length + 1 : ℕ) : ℤ) = (e.ask k users).howMany from hs)] at h'
      have hl : (snaps ++ [snap]).length + 1 = snaps.length + 1 + 1 := by simp
      exact ih (past ++ [c]) (snaps ++ [snap]) s1 s1' inv' hb1 hP1 hQ1 (by rw [hl]; exact h) (by rw [hl]; exact h')

theorem runWith_ask {M : RecModel K σ F} (hq : Quiet M) (e : ExpCfg K) (k : ℕ) (users : List ℤ) {s0 : σ}
    {initial : Tab K} {P Q : K → K → Prop}
    (H : ∀ past snaps s (c : List (Row K)), Watched M e s0 initial past snaps s → ∀ r r',
      M.recommend s (getUsersToRecommendTestItems c (M.maps s)).1 e.kRecs false = .ok (r, s) →
      M.recommend s (getUsersToRecommendTestItems c (M.maps s)).1 k false = .ok (r', s) →
      (∀ x y, hr r (getUsersToRecommendTestItems c (M.maps s)).2 = .ok x →
        hr r' (getUsersToRecommendTestItems c (M.maps s)).2 = .ok y → P x y) ∧
      ∀ x y, mrr r (getUsersToRecommendTestItems c (M.maps s)).2 = .ok x →
        mrr r' (getUsersToRecommendTestItems c (M.maps s)).2 = .ok y → Q x y)
    (stream : List (List (Row K))) (d d' : Dynamics K) (h : runWith M e s0 initial stream = .ok d)
    (h' : runWith M (e.ask k users) s0 initial stream = .ok d') :
    (d'.times = d.times ∧ d'.rndUsers = d.rndUsers ∧ d'.rndItems = d.rndItems ∧ d'.ndUsers = d.ndUsers ∧
      d'.ndItems = d.ndItems) ∧ List.Forall₂ P d.hr d'.hr ∧ List.Forall₂ Q d.mrr d'.mrr := by
  unfold runWith dynamicalExperiment expInit at h h'
  obtain ⟨t, h1, h⟩ := (bind_ok_iff _ _ _).1 h
  obtain ⟨t', h1', h'⟩ := (bind_ok_iff _ _ _).1 h'
  have h := Except.ok.inj h
  have h' := Except.ok.inj h'
  subst h
  subst h'
  obtain ⟨x, h2, h1⟩ := (bind_ok_iff _ _ _).1 h1
  obtain ⟨x', h2', h1'⟩ := (bind_ok_iff _ _ _).1 h1'
  obtain ⟨s, h3, h2⟩ := (bind_ok_iff _ _ _).1 h2
  obtain ⟨s', h3', h2'⟩ := (bind_ok_iff _ _ _).1 h2'
  have e3 : s' = s := Except.ok.inj (h3'.symm.trans h3)
  have h2 := Except.ok.inj h2
  have h2' := Except.ok.inj h2'
  subst h2
  subst h2'
  subst e3
  have inv0 : ExpInv M e s0 initial [] [] (⟨s', initial, 2,
      { times := [e.clock 1 - e.clock 0] }, none, none, none, none, none, none⟩ : ExpState K σ) := by
    refine ⟨Watched.train h3, ?_, ?_, rfl, ?_, ?_⟩
    · unfold ConcIs
      split
      · trivial
      · split <;> exact Or.inl ⟨rfl, rfl⟩
    · exact ⟨rfl, rfl, rfl, rfl, Neighbours.nil _, Neighbours.nil _, Neighbours.nil _, rfl⟩
    · intro a ha
      cases ha
    · intro n a ha
      simp at ha
  obtain ⟨hb, hP, hQ⟩ := expLoop_ask hq e k users H stream [] [] _ _ t t' inv0 rfl List.Forall₂.nil List.Forall₂.nil h1 h1'
  have hd := congrArg ExpState.dyn hb
  exact ⟨⟨(congrArg Dynamics.times hd).symm, (congrArg Dynamics.rndUsers hd).symm, (congrArg Dynamics.rndItems hd).symm,
    (congrArg Dynamics.ndUsers hd).symm, (congrArg Dynamics.ndItems hd).symm⟩, hP, hQ⟩

/-! ### Fewer steps -/

/-- Every series of `a` is the beginning of the series of `b`. -/
structure Dynamics.Begins (a b : Dynamics K) : Prop where
  times : a.times <+: b.times
  hr : a.hr <+: b.hr
  mrr : a.mrr <+: b.mrr
  wji : a.wji <+: b.wji
  rndUsers : a.rndUsers <+: b.rndUsers
  rndItems : a.rndItems <+: b.rndItems
  ndUsers : a.ndUsers <+: b.ndUsers
  ndItems : a.ndItems <+: b.ndItems

omit [Field K] [LinearOrder K] in
theorem Dynamics.Begins.refl (a : Dynamics K) : a.Begins a := by constructor <;> exact List.prefix_rfl

omit [Field K] [LinearOrder K] in
theorem Dynamics.Begins.trans {a b c : Dynamics K} (h : a.Begins b) (h' : b.Begins c) : a.Begins c :=
  ⟨h.times.trans h'.times, h.hr.trans h'.hr, h.mrr.trans h'.mrr, h.wji.trans h'.wji, h.rndUsers.trans h'.rndUsers,
    h.rndItems.trans h'.rndItems, h.ndUsers.trans h'.ndUsers, h.ndItems.trans h'.ndItems⟩

theorem expStep_begins {M : RecModel K σ F} {e : ExpCfg K} {i : ℕ} {c : List (Row K)} {st t : ExpState K σ}
    (h : expStep M e i c st = .ok t) : st.dyn.Begins t.dyn := by
  unfold expStep at h
  obtain ⟨s1, h1, h⟩ := (bind_ok_iff _ _ _).1 h
  obtain ⟨s2, h2, h⟩ := (bind_ok_iff _ _ _).1 h
  obtain ⟨s3, h3, h⟩ := (bind_ok_iff _ _ _).1 h
  obtain ⟨s4, h4, h⟩ := (bind_ok_iff _ _ _).1 h
  obtain ⟨conc, h5, h⟩ := (bind_ok_iff _ _ _).1 h
  obtain ⟨s, h6, h⟩ := (bind_ok_iff _ _ _).1 h
  have h := Except.ok.inj h
  subst h
  have b1 : st.dyn.Begins s1.dyn := by
    unfold scoreStep at h1
    obtain ⟨r, -, h1⟩ := (bind_ok_iff _ _ _).1 h1
    obtain ⟨x, -, h1⟩ := (bind_ok_iff _ _ _).1 h1
    obtain ⟨y, -, h1⟩ := (bind_ok_iff _ _ _).1 h1
    have h1 := Except.ok.inj h1
    subst h1
    constructor <;> first | exact List.prefix_rfl | exact List.prefix_append _ _
  have b2 : s1.dyn.Begins s2.dyn := by
    unfold stabilityStep at h2
    split at h2
    · obtain ⟨r, -, h2⟩ := (bind_ok_iff _ _ _).1 h2
      have h2 := Except.ok.inj h2
      subst h2
      exact Dynamics.Begins.refl _
    · split at h2
      all_goals
        obtain ⟨r, -, h2⟩ := (bind_ok_iff _ _ _).1 h2
        obtain ⟨x, -, h2⟩ := (bind_ok_iff _ _ _).1 h2
        obtain ⟨y, -, h2⟩ := (bind_ok_iff _ _ _).1 h2
        have h2 := Except.ok.inj h2
        subst h2
        constructor <;> first | exact List.prefix_rfl | exact List.prefix_append _ _
  have b3 : s2.dyn.Begins s3.dyn := by
    unfold driftStep at h3
    split at h3
    · obtain ⟨u, -, h3⟩ := (bind_ok_iff _ _ _).1 h3
      obtain ⟨v, -, h3⟩ := (bind_ok_iff _ _ _).1 h3
      have h3 := Except.ok.inj h3
      subst h3
      exact Dynamics.Begins.refl _
    · split at h3
      all_goals
        obtain ⟨_, -, h3⟩ := (bind_ok_iff _ _ _).1 h3
        obtain ⟨_, -, h3⟩ := (bind_ok_iff _ _ _).1 h3
        obtain ⟨_, -, h3⟩ := (bind_ok_iff _ _ _).1 h3
        obtain ⟨_, -, h3⟩ := (bind_ok_iff _ _ _).1 h3
        obtain ⟨_, -, h3⟩ := (bind_ok_iff _ _ _).1 h3
        obtain ⟨_, -, h3⟩ := (bind_ok_iff _ _ _).1 h3
        obtain ⟨_, -, h3⟩ := (bind_ok_iff _ _ _).1 h3
        obtain ⟨_, -, h3⟩ := (bind_ok_iff _ _ _).1 h3
        have h3 := Except.ok.inj h3
        subst h3
        constructor <;> first | exact List.prefix_rfl | exact List.prefix_append _ _
  have b4 : s3.dyn.Begins s4.dyn := by
    unfold normStep at h4
    obtain ⟨u, -, h4⟩ := (bind_ok_iff _ _ _).1 h4
    obtain ⟨v, -, h4⟩ := (bind_ok_iff _ _ _).1 h4
    have h4 := Except.ok.inj h4
    subst h4
    constructor <;> first | exact List.prefix_rfl | exact List.prefix_append _ _
  refine b1.trans (b2.trans (b3.trans (b4.trans ?_)))
  constructor <;> first | exact List.prefix_rfl | exact List.prefix_append _ _

theorem expLoop_begins {M : RecModel K σ F} {e : ExpCfg K} (stream : List (List (Row K))) (i : ℕ) (st t : ExpState K σ)
    (h : expLoop M e i stream st = .ok t) : st.dyn.Begins t.dyn := by
  induction stream generalizing i st with
  | nil =>
    have h := Except.ok.inj h
    subst h
    exact Dynamics.Begins.refl _
  | cons c cs ih =>
    unfold expLoop at h
    obtain ⟨s1, h1, h⟩ := (bind_ok_iff _ _ _).1 h
    refine (expStep_begins h1).trans ?_
    split at h
    · have h := Except.ok.inj h
      subst h
      exact Dynamics.Begins.refl _
    · exact ih _ _ h

/-- Another number of steps. -/
def ExpCfg.steps (e : ExpCfg K) (n : ℤ) : ExpCfg K := { e with howMany := n }

/-- A run with `n'` steps (all if `n' < 1`) completes; so does the run with fewer, and every series is a beginning. -/
theorem expLoop_fewer {M : RecModel K σ F} (e : ExpCfg K) (n n' : ℤ) (stream : List (List (Row K))) (i : ℕ)
    (hi : (i : ℤ) ≤ n) (hn : n ≤ n' ∨ n' < i) (st t' : ExpState K σ)
    (h : expLoop M (e.steps n') i stream st = .ok t') :
    ∃ t, expLoop M (e.steps n) i stream st = .ok t ∧ t.dyn.Begins t'.dyn := by
  induction stream generalizing i st with
  | nil =>
    have h := Except.ok.inj h
    subst h
    exact ⟨_, rfl, Dynamics.Begins.refl _⟩
  | cons c cs ih =>
    unfold expLoop at h
    obtain ⟨s1, h1, h⟩ := (bind_ok_iff _ _ _).1 h
    have h1' : expStep M (e.steps n) i c st = .ok s1 := h1
    have hb : s1.dyn.Begins t'.dyn := by
      split at h
      · have h := Except.ok.inj h
        subst h
        exact Dynamics.Begins.refl _
      · exact expLoop_begins _ _ _ _ h
    by_cases hs : (i : ℤ) = n
    · refine ⟨s1, ?_, hb⟩
      unfold expLoop
      rw [h1']
      exact if_pos hs
    · have hs' : ¬ (i : ℤ) = (e.steps n').howMany := by
        show ¬ (i : ℤ) = n'
        omega
      rw [if_neg hs'] at h
      obtain ⟨t, k1, k2⟩ := ih (i + 1) (by push_cast; omega) (by push_cast; omega) s1 h
      refine ⟨t, ?_, k2⟩
      unfold expLoop
      rw [h1']
      show (if (i : ℤ) = (e.steps n).howMany then pure s1 else expLoop M (e.steps n) (i + 1) cs s1) = _
      rw [if_neg (show ¬ (i : ℤ) = (e.steps n).howMany from hs)]
      exact k1

theorem runWith_fewer {M : RecModel K σ F} (e : ExpCfg K) (n n' : ℤ) (hn1 : 1 ≤ n) (hn : n ≤ n' ∨ n' < 1) (s0 : σ)
    (initial : Tab K) (stream : List (List (Row K))) (d' : Dynamics K)
    (h : runWith M (e.steps n') s0 initial stream = .ok d') :
    ∃ d, runWith M (e.steps n) s0 initial stream = .ok d ∧ d.Begins d' := by
  unfold runWith dynamicalExperiment at h ⊢
  obtain ⟨t', h1, h⟩ := (bind_ok_iff _ _ _).1 h
  have h := Except.ok.inj h
  subst h
  obtain ⟨x, h2, h1⟩ := (bind_ok_iff _ _ _).1 h1
  obtain ⟨t, k1, k2⟩ := expLoop_fewer e n n' stream 1 (by push_cast; omega) (by push_cast; omega) x t' h1
  refine ⟨t.dyn, ?_, k2⟩
  have h2' : expInit M (e.steps n) s0 initial = .ok x := h2
  rw [h2']
  show (expLoop M (e.steps n) 1 stream x >>= fun st => pure st.dyn) = _
  rw [k1]
  rfl

end DynCF
