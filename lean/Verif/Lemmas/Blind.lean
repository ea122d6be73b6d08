/- The part of an experiment that does not depend on what is recommended. -/
import Verif.Props.ExperimentSeries

namespace DynCF
variable {K σ F : Type}

/-- Asking for recommendations leaves the model as it is. -/
def Quiet (M : RecModel K σ F) : Prop :=
  ∀ s us k b r s', M.recommend s us k b = .ok (r, s') → s' = s

/-- The state without what was recommended: the three metrics and the two kept lists. -/
def ExpState.blind (st : ExpState K σ) : ExpState K σ :=
  { st with recT1 := none, recT2 := none, dyn := { st.dyn with hr := [], mrr := [], wji := [] } }

variable [Field K] [LinearOrder K]

/-- One iteration without the recommendations. -/
def blindStep (M : RecModel K σ F) (cfg : ExpCfg K) (i : ℕ) (chunk : List (Row K))
    (st : ExpState K σ) : PyM (ExpState K σ) := do
  let st ← driftStep M cfg i st
  let st ← normStep M cfg st
  let conc ← concatStep cfg st.conc chunk
  let s ← updateStep M cfg st.model conc chunk
  pure { st with model := s, conc := conc, ticks := st.ticks + 2,
                 dyn := { st.dyn with times :=
                   st.dyn.times ++ [cfg.clock (st.ticks + 1) - cfg.clock st.ticks] } }

theorem blindStep_blind (M : RecModel K σ F) (cfg : ExpCfg K) (i : ℕ) (chunk : List (Row K)) (st : ExpState K σ) :
    blindStep M cfg i chunk st.blind = ExpState.blind <$> blindStep M cfg i chunk st := by
  have hd : driftStep M cfg i st.blind = ExpState.blind <$> driftStep M cfg i st := by
    unfold driftStep
    split
    · simp only [map_bind]; rfl
    · split
      · simp only [map_bind]; rfl
      · simp only [map_bind]; rfl
  unfold blindStep
  rw [hd]
  simp only [map_bind, bind_map_left]
  congr 1
  funext s1
  have hn : normStep M cfg s1.blind = ExpState.blind <$> normStep M cfg s1 := by
    unfold normStep
    simp only [map_bind]; rfl
  rw [hn]
  simp only [bind_map_left]
  rfl

theorem scoreStep_quiet {M : RecModel K σ F} (hq : Quiet M) {cfg : ExpCfg K} {c : List (Row K)} {st t : ExpState K σ}
    (h : scoreStep M cfg c st = .ok t) :
    ∃ r h' m, M.recommend st.model (getUsersToRecommendTestItems c (M.maps st.model)).1 cfg.kRecs false =
        .ok (r, st.model) ∧ hr r (getUsersToRecommendTestItems c (M.maps st.model)).2 = .ok h' ∧
      mrr r (getUsersToRecommendTestItems c (M.maps st.model)).2 = .ok m ∧
      t = { st with dyn := { st.dyn with hr := st.dyn.hr ++ [h'], mrr := st.dyn.mrr ++ [m] } } := by
  unfold scoreStep at h
  obtain ⟨⟨r, s'⟩, h1, h⟩ := (bind_ok_iff _ _ _).1 h
  obtain ⟨x, h2, h⟩ := (bind_ok_iff _ _ _).1 h
  obtain ⟨y, h3, h⟩ := (bind_ok_iff _ _ _).1 h
  have h := Except.ok.inj h
  have e := hq _ _ _ _ _ _ h1
  subst e
  exact ⟨r, x, y, h1, h2, h3, h.symm⟩

theorem stabilityStep_quiet {M : RecModel K σ F} (hq : Quiet M) {cfg : ExpCfg K} {i : ℕ} {st t : ExpState K σ}
    (h : stabilityStep M cfg i st = .ok t) :
    ∃ r1 r2 w, t = { st with recT1 := r1, recT2 := r2, dyn := { st.dyn with wji := w } } := by
  unfold stabilityStep at h
  split at h
  · obtain ⟨⟨r, s'⟩, h1, h⟩ := (bind_ok_iff _ _ _).1 h
    have h := Except.ok.inj h
    have e := hq _ _ _ _ _ _ h1
    subst e
    exact ⟨_, _, st.dyn.wji, h.symm⟩
  · split at h
    · obtain ⟨⟨r, s'⟩, h1, h⟩ := (bind_ok_iff _ _ _).1 h
      obtain ⟨x, h2, h⟩ := (bind_ok_iff _ _ _).1 h
      obtain ⟨y, h3, h⟩ := (bind_ok_iff _ _ _).1 h
      have h := Except.ok.inj h
      have e := hq _ _ _ _ _ _ h1
      subst e
      exact ⟨_, _, _, h.symm⟩
    · obtain ⟨x, h2, h⟩ := (bind_ok_iff _ _ _).1 h
      obtain ⟨⟨r, s'⟩, h1, h⟩ := (bind_ok_iff _ _ _).1 h
      obtain ⟨y, h3, h⟩ := (bind_ok_iff _ _ _).1 h
      have h := Except.ok.inj h
      have e := hq _ _ _ _ _ _ h1
      subst e
      exact ⟨_, _, _, h.symm⟩

/-- What the rest of the iteration does to the recorded hit rates and ranks: nothing. -/
theorem blindStep_hr {M : RecModel K σ F} {cfg : ExpCfg K} {i : ℕ} {c : List (Row K)} {st t : ExpState K σ}
    (h : blindStep M cfg i c st = .ok t) : t.dyn.hr = st.dyn.hr ∧ t.dyn.mrr = st.dyn.mrr := by
  unfold blindStep at h
  obtain ⟨s1, h1, h⟩ := (bind_ok_iff _ _ _).1 h
  obtain ⟨s2, h2, h⟩ := (bind_ok_iff _ _ _).1 h
  obtain ⟨conc, h3, h⟩ := (bind_ok_iff _ _ _).1 h
  obtain ⟨s, h4, h⟩ := (bind_ok_iff _ _ _).1 h
  have h := Except.ok.inj h
  subst h
  unfold normStep at h2
  obtain ⟨u, -, h2⟩ := (bind_ok_iff _ _ _).1 h2
  obtain ⟨v, -, h2⟩ := (bind_ok_iff _ _ _).1 h2
  have h2 := Except.ok.inj h2
  subst h2
  show s1.dyn.hr = _ ∧ s1.dyn.mrr = _
  unfold driftStep at h1
  split at h1
  · obtain ⟨u, -, h1⟩ := (bind_ok_iff _ _ _).1 h1
    obtain ⟨v, -, h1⟩ := (bind_ok_iff _ _ _).1 h1
    have h1 := Except.ok.inj h1
    subst h1
    exact ⟨rfl, rfl⟩
  · split at h1
    all_goals
      obtain ⟨_, -, h1⟩ := (bind_ok_iff _ _ _).1 h1
      obtain ⟨_, -, h1⟩ := (bind_ok_iff _ _ _).1 h1
      obtain ⟨_, -, h1⟩ := (bind_ok_iff _ _ _).1 h1
      obtain ⟨_, -, h1⟩ := (bind_ok_iff _ _ _).1 h1
      obtain ⟨_, -, h1⟩ := (bind_ok_iff _ _ _).1 h1
      obtain ⟨_, -, h1⟩ := (bind_ok_iff _ _ _).1 h1
      obtain ⟨_, -, h1⟩ := (bind_ok_iff _ _ _).1 h1
      obtain ⟨_, -, h1⟩ := (bind_ok_iff _ _ _).1 h1
      have h1 := Except.ok.inj h1
      subst h1
      exact ⟨rfl, rfl⟩

/-- An iteration of the loop: the scores of the model that meets the chunk, and the rest. -/
theorem expStep_blind {M : RecModel K σ F} (hq : Quiet M) {cfg : ExpCfg K} {i : ℕ} {c : List (Row K)}
    {st t : ExpState K σ} (h : expStep M cfg i c st = .ok t) :
    blindStep M cfg i c st.blind = .ok t.blind ∧
    ∃ r h' m, M.recommend st.model (getUsersToRecommendTestItems c (M.maps st.model)).1 cfg.kRecs false =
        .ok (r, st.model) ∧ hr r (getUsersToRecommendTestItems c (M.maps st.model)).2 = .ok h' ∧
      mrr r (getUsersToRecommendTestItems c (M.maps st.model)).2 = .ok m ∧
      t.dyn.hr = st.dyn.hr ++ [h'] ∧ t.dyn.mrr = st.dyn.mrr ++ [m] := by
  unfold expStep at h
  obtain ⟨s1, h1, h⟩ := (bind_ok_iff _ _ _).1 h
  obtain ⟨s2, h2, h⟩ := (bind_ok_iff _ _ _).1 h
  obtain ⟨r, x, y, k1, k2, k3, rfl⟩ := scoreStep_quiet hq h1
  obtain ⟨r1, r2, w, rfl⟩ := stabilityStep_quiet hq h2
  have hb : blindStep M cfg i c { st with recT1 := r1, recT2 := r2, dyn := { st.dyn with hr := st.dyn.hr ++ [x], mrr := st.dyn.mrr ++ [y], wji := w } } = .ok t := h
  refine ⟨?_, r, x, y, k1, k2, k3, (blindStep_hr hb).1, (blindStep_hr hb).2⟩
  have := blindStep_blind M cfg i c { st with recT1 := r1, recT2 := r2, dyn := { st.dyn with hr := st.dyn.hr ++ [x], mrr := st.dyn.mrr ++ [y], wji := w } }
  rw [hb] at this
  exact this

end DynCF
