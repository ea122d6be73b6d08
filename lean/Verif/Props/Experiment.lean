/- Properties C62, C63, C64: the dynamical experiment. -/
import Verif.Model.Experiment
import Verif.Lemmas.Hooi
import Verif.Props.Crop
import Mathlib.Algebra.Order.Field.Rat

set_option linter.unusedSectionVars false

namespace DynCF
variable {K : Type} {σ F : Type}

/-! ### Specification -/

/-- The data with which the model is retrained after chunk `c` when the chunks `past` came before:
the chunk alone; or all initial rows and chunks so far; or, for sequence models, the table of the
last `maxLen` rows of every user of all these rows. -/
def RetrainData (cfg : ExpCfg K) (initial : Tab K) (past : List (List (Row K)))
    (c : List (Row K)) (d : Tab K) : Prop :=
  if cfg.chunkMode = true then d = .plain c
  else if cfg.threeD = true then
    ∃ t, IsCropped cfg.maxLen (initial.rows ++ past.flatten ++ c) t ∧ d = .posed t
  else ∃ rows, initial = .plain rows ∧ d = .plain (rows ++ past.flatten ++ c)

/-- `s` is a state of the model trained on the initial data and updated after each of the chunks
`past`, in order, with the data prescribed by `RetrainData`, and with nothing else: in between it
has only been asked for recommendations. -/
inductive Reached (M : RecModel K σ F) (cfg : ExpCfg K) (s0 : σ) (initial : Tab K) :
    List (List (Row K)) → σ → Prop
  | train {s : σ} : M.train s0 initial = .ok s → Reached M cfg s0 initial [] s
  | ask {past : List (List (Row K))} {s s' : σ} {us : List ℤ} {k : ℕ} {b : Bool}
      {r : List (List ℤ)} :
      Reached M cfg s0 initial past s → M.recommend s us k b = .ok (r, s') →
      Reached M cfg s0 initial past s'
  | update {past : List (List (Row K))} {s s' : σ} {c : List (Row K)} {d : Tab K} :
      Reached M cfg s0 initial past s → RetrainData cfg initial past c d →
      (if cfg.reinit = true then M.updateRe s d (M.factors s) (M.maps s) else M.update s d) = .ok s' →
      Reached M cfg s0 initial (past ++ [c]) s'

/-- The number of steps performed on a stream of `n` chunks. -/
def expSteps (howMany : ℤ) (n : ℕ) : ℕ := if 1 ≤ howMany then min howMany.toNat n else n

/-! ### The model step by step -/

/-- every list of `d'` continues the one of `d`, by the given numbers of elements:
times, hr, mrr and norms / stability and drift -/
structure Grows (d d' : Dynamics K) (t n w : ℕ) : Prop where
  times : ∃ x, d'.times = d.times ++ x ∧ x.length = t
  hr : ∃ x, d'.hr = d.hr ++ x ∧ x.length = n
  mrr : ∃ x, d'.mrr = d.mrr ++ x ∧ x.length = n
  ndUsers : ∃ x, d'.ndUsers = d.ndUsers ++ x ∧ x.length = n
  ndItems : ∃ x, d'.ndItems = d.ndItems ++ x ∧ x.length = n
  wji : ∃ x, d'.wji = d.wji ++ x ∧ x.length = w
  rndUsers : ∃ x, d'.rndUsers = d.rndUsers ++ x ∧ x.length = w
  rndItems : ∃ x, d'.rndItems = d.rndItems ++ x ∧ x.length = w

theorem grow_trans {α : Type} {a b c : List α} {m n : ℕ} (h1 : ∃ x, b = a ++ x ∧ x.length = m)
    (h2 : ∃ x, c = b ++ x ∧ x.length = n) : ∃ x, c = a ++ x ∧ x.length = m + n := by
  obtain ⟨x, rfl, rfl⟩ := h1
  obtain ⟨y, rfl, rfl⟩ := h2
  exact ⟨x ++ y, by simp, by simp⟩

theorem Grows.trans {d1 d2 d3 : Dynamics K} {t n w t' n' w' : ℕ} (h1 : Grows d1 d2 t n w)
    (h2 : Grows d2 d3 t' n' w') : Grows d1 d3 (t + t') (n + n') (w + w') :=
  ⟨grow_trans h1.times h2.times, grow_trans h1.hr h2.hr, grow_trans h1.mrr h2.mrr,
    grow_trans h1.ndUsers h2.ndUsers, grow_trans h1.ndItems h2.ndItems, grow_trans h1.wji h2.wji,
    grow_trans h1.rndUsers h2.rndUsers, grow_trans h1.rndItems h2.rndItems⟩

theorem Grows.refl (d : Dynamics K) : Grows d d 0 0 0 := by
  refine ⟨?_, ?_, ?_, ?_, ?_, ?_, ?_, ?_⟩ <;> exact ⟨[], by simp, rfl⟩

theorem take_grow {α : Type} {a b : List α} {n m : ℕ} (h : ∃ x, b = a ++ x ∧ x.length = n)
    (ha : a.length = m) : b.take m = a := by
  obtain ⟨x, rfl, _⟩ := h
  rw [← ha]; simp

variable [Field K] [LinearOrder K] (M : RecModel K σ F) (cfg : ExpCfg K)

theorem scoreStep_ok {chunk : List (Row K)} {st st' : ExpState K σ}
    (h : scoreStep M cfg chunk st = .ok st') :
    ∃ r h m, M.recommend st.model (getUsersToRecommendTestItems chunk (M.maps st.model)).1
        cfg.kRecs false = .ok r ∧
      hr r.1 (getUsersToRecommendTestItems chunk (M.maps st.model)).2 = .ok h ∧
      mrr r.1 (getUsersToRecommendTestItems chunk (M.maps st.model)).2 = .ok m ∧
      st' = { st with model := r.2, dyn := { st.dyn with hr := st.dyn.hr ++ [h],
                                                         mrr := st.dyn.mrr ++ [m] } } := by
  unfold scoreStep at h
  obtain ⟨r, h1, h⟩ := (bind_ok_iff _ _ _).1 h
  obtain ⟨x, h2, h⟩ := (bind_ok_iff _ _ _).1 h
  obtain ⟨m, h3, h⟩ := (bind_ok_iff _ _ _).1 h
  exact ⟨r, x, m, h1, h2, h3, (Except.ok.inj h).symm⟩

theorem stabilityStep_ok {i : ℕ} {st st' : ExpState K σ} (h : stabilityStep M cfg i st = .ok st') :
    ∃ r w, M.recommend st.model cfg.testUsers cfg.kRecs true = .ok r ∧ st'.model = r.2 ∧
      st'.conc = st.conc ∧ st'.ticks = st.ticks ∧
      st'.dyn = { st.dyn with wji := st.dyn.wji ++ w } ∧ w.length = (if i = 1 then 0 else 1) := by
  unfold stabilityStep at h
  split at h
  · rename_i hi
    obtain ⟨r, h1, h⟩ := (bind_ok_iff _ _ _).1 h
    have h := Except.ok.inj h
    subst h
    exact ⟨r, [], h1, rfl, rfl, rfl, by simp, by simp [hi]⟩
  · split at h
    · rename_i hi hi2
      obtain ⟨r, h1, h⟩ := (bind_ok_iff _ _ _).1 h
      obtain ⟨r1, h2, h⟩ := (bind_ok_iff _ _ _).1 h
      obtain ⟨w, h3, h⟩ := (bind_ok_iff _ _ _).1 h
      have h := Except.ok.inj h
      subst h
      exact ⟨r, [w], h1, rfl, rfl, rfl, rfl, by simp [hi]⟩
    · rename_i hi hi2
      obtain ⟨r1, h2, h⟩ := (bind_ok_iff _ _ _).1 h
      obtain ⟨r, h1, h⟩ := (bind_ok_iff _ _ _).1 h
      obtain ⟨w, h3, h⟩ := (bind_ok_iff _ _ _).1 h
      have h := Except.ok.inj h
      subst h
      exact ⟨r, [w], h1, rfl, rfl, rfl, rfl, by simp [hi]⟩

theorem driftStep_ok {i : ℕ} {st st' : ExpState K σ} (h : driftStep M cfg i st = .ok st') :
    ∃ du dv, st'.model = st.model ∧ st'.conc = st.conc ∧ st'.ticks = st.ticks ∧
      st'.dyn = { st.dyn with rndUsers := st.dyn.rndUsers ++ du,
                              rndItems := st.dyn.rndItems ++ dv } ∧
      du.length = (if i = 1 then 0 else 1) ∧ dv.length = (if i = 1 then 0 else 1) := by
  unfold driftStep at h
  split at h
  · rename_i hi
    obtain ⟨u, k1, h⟩ := (bind_ok_iff _ _ _).1 h
    obtain ⟨v, k2, h⟩ := (bind_ok_iff _ _ _).1 h
    have h := Except.ok.inj h
    subst h
    exact ⟨[], [], rfl, rfl, rfl, by simp, by simp [hi], by simp [hi]⟩
  · split at h
    · rename_i hi hi2
      obtain ⟨u, k1, h⟩ := (bind_ok_iff _ _ _).1 h
      obtain ⟨v, k2, h⟩ := (bind_ok_iff _ _ _).1 h
      obtain ⟨u1, h1, h⟩ := (bind_ok_iff _ _ _).1 h
      obtain ⟨u1', h2, h⟩ := (bind_ok_iff _ _ _).1 h
      obtain ⟨v1, h3, h⟩ := (bind_ok_iff _ _ _).1 h
      obtain ⟨v1', h4, h⟩ := (bind_ok_iff _ _ _).1 h
      obtain ⟨du, h5, h⟩ := (bind_ok_iff _ _ _).1 h
      obtain ⟨dv, h6, h⟩ := (bind_ok_iff _ _ _).1 h
      have h := Except.ok.inj h
      subst h
      exact ⟨[du], [dv], rfl, rfl, rfl, rfl, by simp [hi], by simp [hi]⟩
    · rename_i hi hi2
      obtain ⟨u1, h1, h⟩ := (bind_ok_iff _ _ _).1 h
      obtain ⟨v1, h2, h⟩ := (bind_ok_iff _ _ _).1 h
      obtain ⟨u, k1, h⟩ := (bind_ok_iff _ _ _).1 h
      obtain ⟨v, k2, h⟩ := (bind_ok_iff _ _ _).1 h
      obtain ⟨u1', h3, h⟩ := (bind_ok_iff _ _ _).1 h
      obtain ⟨du, h4, h⟩ := (bind_ok_iff _ _ _).1 h
      obtain ⟨v1', h5, h⟩ := (bind_ok_iff _ _ _).1 h
      obtain ⟨dv, h6, h⟩ := (bind_ok_iff _ _ _).1 h
      have h := Except.ok.inj h
      subst h
      exact ⟨[du], [dv], rfl, rfl, rfl, rfl, by simp [hi], by simp [hi]⟩

theorem normStep_ok {st st' : ExpState K σ} (h : normStep M cfg st = .ok st') :
    ∃ u v, M.getU st.model = .ok u ∧ M.getV st.model = .ok v ∧
      st' = { st with dyn := { st.dyn with ndUsers := st.dyn.ndUsers ++ [cfg.normOf u],
                                           ndItems := st.dyn.ndItems ++ [cfg.normOf v] } } := by
  unfold normStep at h
  obtain ⟨u, k1, h⟩ := (bind_ok_iff _ _ _).1 h
  obtain ⟨v, k2, h⟩ := (bind_ok_iff _ _ _).1 h
  exact ⟨u, v, k1, k2, (Except.ok.inj h).symm⟩

/-- what one iteration does: scores the chunk with the current model, asks for the stability
recommendations, concatenates and updates -/
theorem expStep_ok {i : ℕ} {chunk : List (Row K)} {st st' : ExpState K σ}
    (h : expStep M cfg i chunk st = .ok st') :
    ∃ r h m r2, M.recommend st.model (getUsersToRecommendTestItems chunk (M.maps st.model)).1
        cfg.kRecs false = .ok r ∧
      hr r.1 (getUsersToRecommendTestItems chunk (M.maps st.model)).2 = .ok h ∧
      mrr r.1 (getUsersToRecommendTestItems chunk (M.maps st.model)).2 = .ok m ∧
      M.recommend r.2 cfg.testUsers cfg.kRecs true = .ok r2 ∧
      concatStep cfg st.conc chunk = .ok st'.conc ∧
      updateStep M cfg r2.2 st'.conc chunk = .ok st'.model ∧
      st'.dyn.hr = st.dyn.hr ++ [h] ∧ st'.dyn.mrr = st.dyn.mrr ++ [m] ∧
      Grows st.dyn st'.dyn 1 1 (if i = 1 then 0 else 1) := by
  unfold expStep at h
  obtain ⟨s1, h1, h⟩ := (bind_ok_iff _ _ _).1 h
  obtain ⟨s2, h2, h⟩ := (bind_ok_iff _ _ _).1 h
  obtain ⟨s3, h3, h⟩ := (bind_ok_iff _ _ _).1 h
  obtain ⟨s3', hn, h⟩ := (bind_ok_iff _ _ _).1 h
  obtain ⟨conc, h4, h⟩ := (bind_ok_iff _ _ _).1 h
  obtain ⟨s, h5, hlast⟩ := (bind_ok_iff _ _ _).1 h
  obtain ⟨un, vn, n1, n2, rfl⟩ := normStep_ok M cfg hn
  obtain ⟨r, x, m, e1, e2, e3, rfl⟩ := scoreStep_ok M cfg h1
  obtain ⟨r2, w, f1, f2, f3, f4, f5, f6⟩ := stabilityStep_ok M cfg h2
  obtain ⟨du, dv, g1, g2, g3, g4, g5, g6⟩ := driftStep_ok M cfg h3
  have hlast := Except.ok.inj hlast
  subst hlast
  refine ⟨r, x, m, r2, e1, e2, e3, f1, ?_, ?_, ?_, ?_, ?_⟩
  · show concatStep cfg st.conc chunk = .ok conc
    rw [← h4]
    show _ = concatStep cfg s3.conc chunk
    rw [g2, f3]
  · show updateStep M cfg r2.2 conc chunk = .ok s
    rw [← h5]
    show _ = updateStep M cfg s3.model conc chunk
    rw [g1, f2]
  · show s3.dyn.hr = _
    rw [g4, f5]
  · show s3.dyn.mrr = _
    rw [g4, f5]
  · refine ⟨⟨[cfg.clock (s3.ticks + 1) - cfg.clock s3.ticks], ?_, rfl⟩, ⟨[x], ?_, rfl⟩, ⟨[m], ?_, rfl⟩,
      ⟨[cfg.normOf un], ?_, rfl⟩, ⟨[cfg.normOf vn], ?_, rfl⟩,
      ⟨w, ?_, f6⟩, ⟨du, ?_, g5⟩, ⟨dv, ?_, g6⟩⟩
    · show s3.dyn.times ++ [cfg.clock (s3.ticks + 1) - cfg.clock s3.ticks] = _
      rw [g4, f5]
    · show s3.dyn.hr = _
      rw [g4, f5]
    · show s3.dyn.mrr = _
      rw [g4, f5]
    · show s3.dyn.ndUsers ++ _ = _
      rw [g4, f5]
    · show s3.dyn.ndItems ++ _ = _
      rw [g4, f5]
    · show s3.dyn.wji = _
      rw [g4, f5]
    · show s3.dyn.rndUsers = _
      rw [g4, f5]
    · show s3.dyn.rndItems = _
      rw [g4, f5]

/-! ### Lengths (C63) -/

theorem expLoop_grows (stream : List (List (Row K))) (i : ℕ) (hi : 1 ≤ i) (st st' : ExpState K σ)
    (h : expLoop M cfg i stream st = .ok st') :
    ∃ T, (T = if (i : ℤ) ≤ cfg.howMany then min (cfg.howMany - i + 1).toNat stream.length
        else stream.length) ∧
      Grows st.dyn st'.dyn T T (if i = 1 then T - 1 else T) := by
  induction stream generalizing i st with
  | nil =>
    have h := Except.ok.inj h
    subst h
    refine ⟨0, by simp, ?_⟩
    simpa using Grows.refl st.dyn
  | cons c cs ih =>
    unfold expLoop at h
    obtain ⟨s1, h1, h⟩ := (bind_ok_iff _ _ _).1 h
    obtain ⟨_, _, _, _, -, -, -, -, -, -, -, -, hg⟩ := expStep_ok M cfg h1
    split at h
    · rename_i hb
      have h := Except.ok.inj h
      subst h
      refine ⟨1, ?_, ?_⟩
      · rw [if_pos (by omega)]
        simp only [List.length_cons]
        omega
      · by_cases h1 : i = 1 <;> simpa [h1] using hg
    · rename_i hb
      obtain ⟨T, hT, hg'⟩ := ih (i + 1) (by omega) s1 h
      refine ⟨1 + T, ?_, ?_⟩
      · rw [hT]
        simp only [List.length_cons]
        split
        · rw [if_pos (by push_cast at *; omega)]
          push_cast at *
          omega
        · rw [if_neg (by push_cast at *; omega)]
          omega
      · have e1 : (if i + 1 = 1 then T - 1 else T) = T := if_neg (by omega)
        rw [e1] at hg'
        have := hg.trans hg'
        convert this using 1
        split <;> omega

/-- **C63** A completed experiment performs `T` steps, `T` being the number of chunks, or
`how_many_iterations` if that is positive and smaller; it records `T` hit rates, MRRs and norms,
`T + 1` computation times and `T - 1` (0 if `T = 0`) stability and drift values. -/
theorem C63_lengths (s0 : σ) (initial : Tab K) (stream : List (List (Row K)))
    (st : ExpState K σ) (h : dynamicalExperiment M cfg s0 initial stream = .ok st) :
    st.dyn.hr.length = expSteps cfg.howMany stream.length ∧
    st.dyn.mrr.length = expSteps cfg.howMany stream.length ∧
    st.dyn.ndUsers.length = expSteps cfg.howMany stream.length ∧
    st.dyn.ndItems.length = expSteps cfg.howMany stream.length ∧
    st.dyn.times.length = expSteps cfg.howMany stream.length + 1 ∧
    st.dyn.wji.length = expSteps cfg.howMany stream.length - 1 ∧
    st.dyn.rndUsers.length = expSteps cfg.howMany stream.length - 1 ∧
    st.dyn.rndItems.length = expSteps cfg.howMany stream.length - 1 := by
  unfold dynamicalExperiment expInit at h
  obtain ⟨s1, h1, h⟩ := (bind_ok_iff _ _ _).1 h
  obtain ⟨s, h2, h1⟩ := (bind_ok_iff _ _ _).1 h1
  have h1 := Except.ok.inj h1
  subst h1
  obtain ⟨T, hT, hg⟩ := expLoop_grows M cfg stream 1 le_rfl _ st h
  have hT' : expSteps cfg.howMany stream.length = T := by
    unfold expSteps
    rw [hT]
    simp only [Nat.cast_one]
    congr 2
    omega
  rw [hT']
  rw [if_pos rfl] at hg
  refine ⟨?_, ?_, ?_, ?_, ?_, ?_, ?_, ?_⟩
  · obtain ⟨x, e, hx⟩ := hg.hr; rw [e, List.length_append, hx]; simp
  · obtain ⟨x, e, hx⟩ := hg.mrr; rw [e, List.length_append, hx]; simp
  · obtain ⟨x, e, hx⟩ := hg.ndUsers; rw [e, List.length_append, hx]; simp
  · obtain ⟨x, e, hx⟩ := hg.ndItems; rw [e, List.length_append, hx]; simp
  · obtain ⟨x, e, hx⟩ := hg.times; rw [e, List.length_append, hx]; simp; omega
  · obtain ⟨x, e, hx⟩ := hg.wji; rw [e, List.length_append, hx]; simp
  · obtain ⟨x, e, hx⟩ := hg.rndUsers; rw [e, List.length_append, hx]; simp
  · obtain ⟨x, e, hx⟩ := hg.rndItems; rw [e, List.length_append, hx]; simp

/-! ### No look-ahead (C62) -/

theorem expLoop_append (p q : List (List (Row K))) (i : ℕ) (st : ExpState K σ) :
    expLoop M cfg i (p ++ q) st = (expLoop M cfg i p st >>= fun st' =>
      if (i : ℤ) ≤ cfg.howMany ∧ cfg.howMany < i + p.length then .ok st'
      else expLoop M cfg (i + p.length) q st') := by
  induction p generalizing i st with
  | nil =>
    simp only [List.nil_append, List.length_nil, Nat.cast_zero, add_zero]
    rw [show expLoop M cfg i [] st = .ok st from rfl, except_bind_ok, if_neg (by omega)]
  | cons c cs ih =>
    rw [List.cons_append, expLoop, expLoop, bind_assoc]
    congr 1
    funext s1
    by_cases hb : (i : ℤ) = cfg.howMany
    · rw [if_pos hb, if_pos hb]
      show _ = (Except.ok s1 >>= _)
      rw [except_bind_ok, if_pos (by simp only [List.length_cons]; push_cast; omega)]
      rfl
    · rw [if_neg hb, if_neg hb, ih]
      congr 1
      funext s2
      simp only [List.length_cons]
      have e : ((i + 1 : ℕ) : ℤ) ≤ cfg.howMany ∧ cfg.howMany < ((i + 1 : ℕ) : ℤ) + (cs.length : ℤ) ↔
          (i : ℤ) ≤ cfg.howMany ∧ cfg.howMany < (i : ℤ) + ((cs.length + 1 : ℕ) : ℤ) := by
        push_cast; omega
      simp only [e, show i + 1 + cs.length = i + (cs.length + 1) by omega]

/-- **C62** The metrics of the first steps do not depend on later chunks: two completed runs whose
streams begin with the same chunks `p` record the same values in the first `p.length` steps (all
lists but the clock readings, whose values the data do not determine). -/
theorem C62_earlier_steps (s0 : σ) (initial : Tab K) (p q q' : List (List (Row K)))
    (st st' : ExpState K σ) (h : dynamicalExperiment M cfg s0 initial (p ++ q) = .ok st)
    (h' : dynamicalExperiment M cfg s0 initial (p ++ q') = .ok st') :
    st.dyn.hr.take p.length = st'.dyn.hr.take p.length ∧
    st.dyn.mrr.take p.length = st'.dyn.mrr.take p.length ∧
    st.dyn.ndUsers.take p.length = st'.dyn.ndUsers.take p.length ∧
    st.dyn.ndItems.take p.length = st'.dyn.ndItems.take p.length ∧
    st.dyn.wji.take (p.length - 1) = st'.dyn.wji.take (p.length - 1) ∧
    st.dyn.rndUsers.take (p.length - 1) = st'.dyn.rndUsers.take (p.length - 1) ∧
    st.dyn.rndItems.take (p.length - 1) = st'.dyn.rndItems.take (p.length - 1) := by
  unfold dynamicalExperiment at h h'
  obtain ⟨s1, h1, h⟩ := (bind_ok_iff _ _ _).1 h
  obtain ⟨s1', h1', h'⟩ := (bind_ok_iff _ _ _).1 h'
  rw [h1] at h1'
  have e := Except.ok.inj h1'
  subst e
  rw [expLoop_append] at h h'
  obtain ⟨mid, h2, h⟩ := (bind_ok_iff _ _ _).1 h
  obtain ⟨mid', h2', h'⟩ := (bind_ok_iff _ _ _).1 h'
  rw [h2] at h2'
  have e := Except.ok.inj h2'
  subst e
  split at h
  · rename_i hb
    rw [if_pos hb] at h'
    have e1 := Except.ok.inj h
    have e2 := Except.ok.inj h'
    subst e1
    subst e2
    exact ⟨rfl, rfl, rfl, rfl, rfl, rfl, rfl⟩
  · rename_i hb
    rw [if_neg hb] at h'
    have hl := C63_lengths M cfg s0 initial p mid (by
      unfold dynamicalExperiment; rw [h1, except_bind_ok, h2])
    have hT : expSteps cfg.howMany p.length = p.length := by
      unfold expSteps
      split <;> push_cast at hb <;> omega
    rw [hT] at hl
    obtain ⟨l1, l2, l3, l4, -, l6, l7, l8⟩ := hl
    obtain ⟨T, -, g⟩ := expLoop_grows M cfg q _ (by omega) mid st h
    obtain ⟨T', -, g'⟩ := expLoop_grows M cfg q' _ (by omega) mid st' h'
    refine ⟨?_, ?_, ?_, ?_, ?_, ?_, ?_⟩
    · rw [take_grow g.hr l1, take_grow g'.hr l1]
    · rw [take_grow g.mrr l2, take_grow g'.mrr l2]
    · rw [take_grow g.ndUsers l3, take_grow g'.ndUsers l3]
    · rw [take_grow g.ndItems l4, take_grow g'.ndItems l4]
    · rw [take_grow g.wji l6, take_grow g'.wji l6]
    · rw [take_grow g.rndUsers l7, take_grow g'.rndUsers l7]
    · rw [take_grow g.rndItems l8, take_grow g'.rndItems l8]

/-- **C62**, failing runs: an error raised within the first chunks is raised whatever follows. -/
theorem C62_errors (s0 : σ) (initial : Tab K) (p q : List (List (Row K))) (e : PyErr)
    (h : dynamicalExperiment M cfg s0 initial p = .error e) :
    dynamicalExperiment M cfg s0 initial (p ++ q) = .error e := by
  unfold dynamicalExperiment at h ⊢
  rcases (bind_error_iff _ _ _).1 h with h | ⟨s1, h1, h⟩
  · rw [h, except_bind_error]
  · rw [h1, except_bind_ok, expLoop_append, h, except_bind_error]

/-! ### What the model has been trained on (C62, C64) -/

theorem crop_ok_inv (df : List (Row K)) (L : ℕ) (t : List (PRow K))
    (h : getDfWithCroppedPos df L true = .ok t) :
    df ≠ [] ∧ 1 ≤ L ∧ t = cropSpec L df true := by
  have hne : df ≠ [] := by
    rintro rfl
    rw [(C08_crop_errors (K := K) [] true).2 L] at h
    cases h
  have hL : 1 ≤ L := by
    rcases Nat.eq_zero_or_pos L with rfl | h'
    · rw [(C08_crop_errors df true).1 hne] at h
      cases h
    · exact h'
  rw [getDfWithCroppedPos_eq df L true hL hne] at h
  exact ⟨hne, hL, (Except.ok.inj h).symm⟩

theorem crop_ok_isCropped (df : List (Row K)) (L : ℕ) (t : List (PRow K))
    (h : getDfWithCroppedPos df L true = .ok t) : IsCropped L df t := by
  obtain ⟨hne, hL, -⟩ := crop_ok_inv df L t h
  obtain ⟨res, h', hc⟩ := C08_crop df L hL hne
  rw [h] at h'
  rw [Except.ok.inj h']
  exact hc

/-- the variable `concatenated` after the chunks `past` (in the modes that maintain it) -/
def ConcIs (cfg : ExpCfg K) (initial : Tab K) (past : List (List (Row K))) (conc : Tab K) : Prop :=
  if cfg.chunkMode = true then True
  else if cfg.threeD = true then
    (past = [] ∧ conc = initial) ∨
      ∃ t, 1 ≤ cfg.maxLen ∧ initial.rows ++ past.flatten ≠ [] ∧
        t = cropSpec cfg.maxLen (initial.rows ++ past.flatten) true ∧ conc = .posed t
  else (past = [] ∧ conc = initial) ∨
    ∃ rows, initial = .plain rows ∧ conc = .plain (rows ++ past.flatten)

theorem concIs_step {initial : Tab K} {past : List (List (Row K))} {conc conc' : Tab K}
    {c : List (Row K)} (h : ConcIs cfg initial past conc)
    (hs : concatStep cfg conc c = .ok conc') :
    ConcIs cfg initial (past ++ [c]) conc' ∧
      RetrainData cfg initial past c (if cfg.chunkMode = true then .plain c else conc') := by
  unfold concatStep at hs
  unfold ConcIs at h ⊢
  unfold RetrainData
  by_cases hm : cfg.chunkMode = true
  · simp only [hm, if_true]
    exact ⟨trivial, trivial⟩
  · rw [if_neg hm] at hs h ⊢
    simp only [hm]
    by_cases h3 : cfg.threeD = true
    · rw [if_pos h3] at hs h ⊢
      obtain ⟨t, ht, hs⟩ := (bind_ok_iff _ _ _).1 hs
      have hs := Except.ok.inj hs
      subst hs
      have key : t = cropSpec cfg.maxLen (initial.rows ++ past.flatten ++ c) true ∧
          1 ≤ cfg.maxLen ∧ initial.rows ++ past.flatten ++ c ≠ [] := by
        obtain ⟨h1, h2, h3⟩ := crop_ok_inv _ _ _ ht
        rcases h with ⟨rfl, rfl⟩ | ⟨t0, hL, hne, rfl, rfl⟩
        · rw [List.flatten_nil, List.append_nil]
          exact ⟨h3, h2, h1⟩
        · refine ⟨?_, h2, fun e => hne (List.append_eq_nil_iff.1 e).1⟩
          rw [h3]
          exact cropSpec_incremental _ hL _ _
      have hfl : initial.rows ++ (past ++ [c]).flatten = initial.rows ++ past.flatten ++ c := by
        rw [List.flatten_append, List.flatten_singleton, List.append_assoc]
      refine ⟨Or.inr ⟨t, key.2.1, ?_, ?_, rfl⟩, ?_⟩
      · rw [hfl]; exact key.2.2
      · rw [hfl]; exact key.1
      · simp only [Bool.false_eq_true, if_false]
        rw [if_pos h3]
        refine ⟨t, ?_, rfl⟩
        apply crop_ok_isCropped
        rw [getDfWithCroppedPos_eq _ _ true key.2.1 key.2.2, key.1]
    · rw [if_neg h3] at hs h ⊢
      simp only [Bool.false_eq_true, if_false]
      rw [if_neg h3]
      have key : ∃ rows, initial = .plain rows ∧ conc = .plain (rows ++ past.flatten) := by
        rcases h with ⟨rfl, rfl⟩ | h
        · cases conc with
          | plain rows => exact ⟨rows, rfl, by simp⟩
          | posed rows => cases hs
        · exact h
      obtain ⟨rows, rfl, rfl⟩ := key
      have hs := Except.ok.inj hs
      subst hs
      exact ⟨Or.inr ⟨rows, rfl, by simp⟩, rows, rfl, by simp⟩

theorem expLoop_reached (s0 : σ) (initial : Tab K) (stream : List (List (Row K))) (i : ℕ)
    (past : List (List (Row K))) (st st' : ExpState K σ)
    (hr : Reached M cfg s0 initial past st.model) (hc : ConcIs cfg initial past st.conc)
    (h : expLoop M cfg i stream st = .ok st') :
    Reached M cfg s0 initial (past ++ stream.take
        (if (i : ℤ) ≤ cfg.howMany then min (cfg.howMany - i + 1).toNat stream.length
          else stream.length)) st'.model := by
  induction stream generalizing i past st with
  | nil =>
    have h := Except.ok.inj h
    subst h
    simpa using hr
  | cons c cs ih =>
    unfold expLoop at h
    obtain ⟨s1, h1, h⟩ := (bind_ok_iff _ _ _).1 h
    obtain ⟨r, _, _, r2, e1, -, -, e2, e3, e4, -, -, -⟩ := expStep_ok M cfg h1
    obtain ⟨hc', hd⟩ := concIs_step cfg hc e3
    have hr' : Reached M cfg s0 initial (past ++ [c]) s1.model := by
      refine Reached.update (Reached.ask (Reached.ask hr e1) e2) hd ?_
      unfold updateStep at e4
      exact e4
    split at h
    · rename_i hb
      have h := Except.ok.inj h
      subst h
      rw [if_pos (by omega)]
      have : min (cfg.howMany - i + 1).toNat (c :: cs).length = 1 := by
        simp only [List.length_cons]; omega
      rw [this]
      simpa using hr'
    · rename_i hb
      have := ih (i + 1) (past ++ [c]) s1 hr' hc' h
      convert this using 1
      rw [List.append_assoc]
      congr 1
      simp only [List.length_cons, List.singleton_append]
      split
      · rw [if_pos (by push_cast at *; omega)]
        have e : min (cfg.howMany - i + 1).toNat (cs.length + 1) =
            min (cfg.howMany - ((i + 1 : ℕ) : ℤ) + 1).toNat cs.length + 1 := by
          push_cast at *; omega
        rw [e, List.take_succ_cons]
      · rw [if_neg (by push_cast at *; omega)]
        rw [List.take_succ_cons]

/-- **C64** After a completed experiment of `T` steps the model has been trained on the initial
data, then updated after each of the first `T` chunks, in order, with the data prescribed by
`RetrainData`: the chunk alone in chunk mode, otherwise the initial rows and all chunks so far
(cropped to the last `maxLen` rows of each user for sequence models). -/
theorem C64_retraining (s0 : σ) (initial : Tab K) (stream : List (List (Row K)))
    (st : ExpState K σ) (h : dynamicalExperiment M cfg s0 initial stream = .ok st) :
    Reached M cfg s0 initial (stream.take (expSteps cfg.howMany stream.length)) st.model := by
  unfold dynamicalExperiment expInit at h
  obtain ⟨s1, h1, h⟩ := (bind_ok_iff _ _ _).1 h
  obtain ⟨s, h2, h1⟩ := (bind_ok_iff _ _ _).1 h1
  have h1 := Except.ok.inj h1
  subst h1
  have := expLoop_reached M cfg s0 initial stream 1 [] _ st (Reached.train h2) (by
    unfold ConcIs
    split
    · trivial
    · split <;> exact Or.inl ⟨rfl, rfl⟩) h
  simp only [List.nil_append, Nat.cast_one, sub_add_cancel] at this
  exact this

/-- **C62** The recommendations scored against a chunk `c` come from a model trained on the initial
data and updated with the chunks before `c` only, and from nothing else. -/
theorem C62_scored_model (s0 : σ) (initial : Tab K) (p q : List (List (Row K)))
    (c : List (Row K)) (st : ExpState K σ)
    (h : dynamicalExperiment M cfg s0 initial (p ++ c :: q) = .ok st)
    (hsteps : cfg.howMany ≤ 0 ∨ (p.length : ℤ) < cfg.howMany) :
    ∃ s r s' hc mc, Reached M cfg s0 initial p s ∧
      M.recommend s (getUsersToRecommendTestItems c (M.maps s)).1 cfg.kRecs false = .ok (r, s') ∧
      hr r (getUsersToRecommendTestItems c (M.maps s)).2 = .ok hc ∧
      mrr r (getUsersToRecommendTestItems c (M.maps s)).2 = .ok mc ∧
      st.dyn.hr[p.length]? = some hc ∧ st.dyn.mrr[p.length]? = some mc := by
  have h0 := h
  unfold dynamicalExperiment at h
  obtain ⟨s1, h1, h⟩ := (bind_ok_iff _ _ _).1 h
  rw [expLoop_append] at h
  obtain ⟨mid, h2, h⟩ := (bind_ok_iff _ _ _).1 h
  rw [if_neg (by push_cast; omega)] at h
  have hmid : dynamicalExperiment M cfg s0 initial p = .ok mid := by
    unfold dynamicalExperiment; rw [h1, except_bind_ok, h2]
  have hT : expSteps cfg.howMany p.length = p.length := by
    unfold expSteps
    split <;> omega
  have hR := C64_retraining M cfg s0 initial p mid hmid
  rw [hT, List.take_length] at hR
  have hl := C63_lengths M cfg s0 initial p mid hmid
  rw [hT] at hl
  unfold expLoop at h
  obtain ⟨s2, h3, h⟩ := (bind_ok_iff _ _ _).1 h
  obtain ⟨r, x, m, r2, e1, e2, e3, -, -, -, e4, e5, -⟩ := expStep_ok M cfg h3
  refine ⟨mid.model, r.1, r.2, x, m, hR, e1, e2, e3, ?_, ?_⟩
  · have : ∃ y, st.dyn.hr = s2.dyn.hr ++ y := by
      split at h
      · have h := Except.ok.inj h; subst h; exact ⟨[], by simp⟩
      · obtain ⟨T, -, g⟩ := expLoop_grows M cfg q _ (by omega) s2 st h
        obtain ⟨y, hy, -⟩ := g.hr
        exact ⟨y, hy⟩
    obtain ⟨y, hy⟩ := this
    rw [hy, e4, List.append_assoc, List.getElem?_append_right (by omega), hl.1]
    simp
  · have : ∃ y, st.dyn.mrr = s2.dyn.mrr ++ y := by
      split at h
      · have h := Except.ok.inj h; subst h; exact ⟨[], by simp⟩
      · obtain ⟨T, -, g⟩ := expLoop_grows M cfg q _ (by omega) s2 st h
        obtain ⟨y, hy, -⟩ := g.mrr
        exact ⟨y, hy⟩
    obtain ⟨y, hy⟩ := this
    rw [hy, e5, List.append_assoc, List.getElem?_append_right (by omega), hl.2.1]
    simp

/-- **C64**, sequence models: when the initial table is itself the crop of the raw initial rows
(as `full_dynamical_experiment` prepares it), the retraining table is the crop of all raw rows. -/
theorem C64_crop_of_all (L : ℕ) (hL : 1 ≤ L) (raw b : List (Row K)) (t0 t : List (PRow K))
    (h0 : getDfWithCroppedPos raw L true = .ok t0) (h : IsCropped L (t0.map PRow.row ++ b) t) :
    IsCropped L (raw ++ b) t := by
  obtain ⟨hne, -, rfl⟩ := crop_ok_inv _ _ _ h0
  have h2 := C09_incremental_crop L hL raw b hne _ (getDfWithCroppedPos_eq raw L true hL hne)
  obtain ⟨res, h3, h4⟩ := C08_crop (raw ++ b) L hL (by simp [hne])
  rw [h3] at h2
  rw [C08_crop_unique L _ t res h (crop_ok_isCropped _ _ _ h2)]
  exact h4

/-! ### The data handed to the update function, observed (C64) -/

/-- The same recommender keeping a list of the tables it was trained or updated with. -/
def logged (M : RecModel K σ F) : RecModel K (σ × List (Tab K)) F where
  train s d := (M.train s.1 d).map fun s' => (s', s.2 ++ [d])
  update s d := (M.update s.1 d).map fun s' => (s', s.2 ++ [d])
  updateRe s d f m := (M.updateRe s.1 d f m).map fun s' => (s', s.2 ++ [d])
  recommend s us k b := (M.recommend s.1 us k b).map fun r => (r.1, (r.2, s.2))
  maps s := M.maps s.1
  factors s := M.factors s.1
  nItems s := M.nItems s.1
  getU s := M.getU s.1
  getV s := M.getV s.1

theorem except_map_ok {α β : Type} {x : PyM α} {f : α → β} {b : β} (h : x.map f = .ok b) :
    ∃ a, x = .ok a ∧ f a = b := by
  cases x with
  | error e => cases h
  | ok a => exact ⟨a, rfl, Except.ok.inj h⟩

/-- **C64** The list of tables handed to the model by a completed experiment of `T` steps: first
the initial data, then for `i < T` the table prescribed for chunk `i`, and nothing else. -/
theorem C64_log (s0 : σ) (initial : Tab K) (stream : List (List (Row K)))
    (st : ExpState K (σ × List (Tab K)))
    (h : dynamicalExperiment (logged M) cfg (s0, []) initial stream = .ok st) :
    ∃ ds, st.model.2 = initial :: ds ∧ ds.length = expSteps cfg.howMany stream.length ∧
      ∀ i (hi : i < ds.length) c, stream[i]? = some c →
        RetrainData cfg initial (stream.take i) c ds[i] := by
  have hR := C64_retraining (logged M) cfg (s0, []) initial stream st h
  have hlen : expSteps cfg.howMany stream.length ≤ stream.length := by
    unfold expSteps; split <;> omega
  generalize hp : stream.take (expSteps cfg.howMany stream.length) = p at hR
  obtain ⟨ds, h1, h2, h3⟩ : ∃ ds, st.model.2 = initial :: ds ∧ ds.length = p.length ∧
      ∀ i (hi : i < ds.length) c, p[i]? = some c →
        RetrainData cfg initial (p.take i) c ds[i] := by
    generalize st.model = s at hR
    clear hp
    induction hR with
    | train h =>
      obtain ⟨a, -, rfl⟩ := except_map_ok h
      exact ⟨[], rfl, rfl, by simp⟩
    | ask _ h ih =>
      obtain ⟨a, -, e⟩ := except_map_ok h
      obtain ⟨ds, h1, h2, h3⟩ := ih
      refine ⟨ds, ?_, h2, h3⟩
      rw [← h1, ← (Prod.mk.inj e).2]
    | @update past s s' c d _ hd h ih =>
      obtain ⟨ds, h1, h2, h3⟩ := ih
      have e : s'.2 = s.2 ++ [d] := by
        split at h
        · obtain ⟨a, -, rfl⟩ := except_map_ok h; rfl
        · obtain ⟨a, -, rfl⟩ := except_map_ok h; rfl
      refine ⟨ds ++ [d], by rw [e, h1]; rfl, by simp [h2], ?_⟩
      intro i hi c' hc'
      rw [List.length_append, List.length_singleton] at hi
      rcases Nat.lt_or_ge i past.length with hlt | hge
      · rw [List.getElem?_append_left hlt] at hc'
        rw [List.take_append_of_le_length (by omega), List.getElem_append_left (by omega)]
        exact h3 i (by omega) c' hc'
      · have : i = past.length := by omega
        subst this
        rw [List.getElem?_append_right le_rfl] at hc'
        simp only [Nat.sub_self, List.getElem?_cons_zero, Option.some.injEq] at hc'
        subst hc'
        rw [List.take_append_of_le_length le_rfl, List.take_length]
        rw [List.getElem_append_right (by omega)]
        simpa using hd
  have hpl : p.length = expSteps cfg.howMany stream.length := by
    rw [← hp, List.length_take]; omega
  refine ⟨ds, h1, by omega, ?_⟩
  intro i hi c hc
  have := h3 i hi c (by rw [← hp, List.getElem?_take_of_lt (by omega)]; exact hc)
  rw [← hp, List.take_take, Nat.min_eq_left (by omega)] at this
  exact this

/-! ### A concrete run -/

/-- A small recommender: remembers the rows it was given and proposes the first items known. -/
def exRec : RecModel ℚ (List (Row ℚ)) Unit where
  train _ d := .ok d.rows
  update s d := .ok (s ++ d.rows)
  updateRe _ d _ _ := .ok d.rows
  recommend s us k b := .ok (us.map fun _ =>
    let items := pdUnique (s.map Row.item)
    let ks := List.range (min k items.length)
    if b then ks.map (fun i : ℕ => (i : ℤ)) else items.take k, s)
  maps s := ⟨getContMappingStruct (pdUnique (s.map Row.user)) 0,
    getContMappingStruct (pdUnique (s.map Row.item)) 0⟩
  factors _ := ()
  nItems s := (pdUnique (s.map Row.item)).length
  getU s := .ok ⟨(pdUnique (s.map Row.user)).length, 1, fun _ _ => 1⟩
  getV s := .ok ⟨(pdUnique (s.map Row.item)).length, 1, fun _ _ => 1⟩

/-- sum of squares instead of the Frobenius norm, which is irrational here -/
def exExpNorm (a : Mat ℚ) : ℚ := ∑ i, ∑ j, a.val i j * a.val i j

def exExpCfg (howMany : ℤ) (chunk threeD : Bool) : ExpCfg ℚ :=
  ⟨[1], 2, 2, howMany, chunk, false, threeD, exExpNorm, fun n => (n : ℚ) * n⟩

def exInitRows : List (Row ℚ) := [⟨1, 10, 1, 0, 0⟩, ⟨2, 11, 1, 1, 0⟩]
def exStream : List (List (Row ℚ)) :=
  [[⟨1, 11, 1, 2, 1⟩, ⟨3, 12, 1, 3, 1⟩], [⟨2, 12, 1, 4, 2⟩, ⟨1, 11, 1, 5, 2⟩],
    [⟨1, 10, 1, 6, 3⟩, ⟨3, 10, 1, 6, 3⟩]]

/-- the recorded lists of a run -/
def exDyn (r : PyM (ExpState ℚ (List (Row ℚ)))) :
    PyM (List (List ℚ) × List (List (Num ℚ))) :=
  r.map fun st => ([st.dyn.times, st.dyn.hr, st.dyn.mrr, st.dyn.wji, st.dyn.ndUsers,
    st.dyn.ndItems], [st.dyn.rndUsers, st.dyn.rndItems])

/-- `C62`, `C63`: three chunks, updated with each chunk; 3 scores, 4 times, 2 drifts. -/
example : exDyn (dynamicalExperiment exRec (exExpCfg 0 true false) [] (.plain exInitRows) exStream) =
    .ok ([[1, 5, 9, 13], [1, 1 / 2, 1], [1 / 2, 1 / 4, 1], [1, 1], [2, 3, 3], [2, 3, 3]],
      [[.fin 2, .inf], [.fin 2, .inf]]) := by decide +kernel

/-- `how_many_iterations = 2` stops after two chunks. -/
example : exDyn (dynamicalExperiment exRec (exExpCfg 2 true false) [] (.plain exInitRows) exStream) =
    .ok ([[1, 5, 9], [1, 1 / 2], [1 / 2, 1 / 4], [1], [2, 3], [2, 3]], [[.fin 2], [.fin 2]]) := by
  decide +kernel

/-- A chunk without any known user makes the metrics divide by zero. -/
example : exDyn (dynamicalExperiment exRec (exExpCfg 0 true false) [] (.plain exInitRows)
    [[⟨7, 10, 1, 2, 1⟩]]) = .error .zeroDivisionError := by decide +kernel

/-- `C64`: the tables handed over in the three modes. -/
example : (dynamicalExperiment (logged exRec) (exExpCfg 2 true false) ([], [])
    (.plain exInitRows) exStream).toOption.map (fun st => st.model.2.map Tab.rows) =
    some (exInitRows :: exStream.take 2) := by decide +kernel
example : (dynamicalExperiment (logged exRec) (exExpCfg 0 false false) ([], [])
    (.plain exInitRows) exStream).toOption.map (fun st => st.model.2.map Tab.rows) =
    some [exInitRows, exInitRows ++ (exStream.take 1).flatten,
      exInitRows ++ (exStream.take 2).flatten, exInitRows ++ exStream.flatten] := by decide +kernel
example : (dynamicalExperiment (logged exRec) (exExpCfg 1 false true) ([], [])
    (.posed [⟨⟨1, 11, 1, -1, 0⟩, 0⟩, ⟨⟨1, 10, 1, 0, 0⟩, 1⟩]) exStream).toOption.map
      (fun st => st.model.2.map Tab.rows) =
    some [[⟨1, 11, 1, -1, 0⟩, ⟨1, 10, 1, 0, 0⟩],
      [⟨1, 10, 1, 0, 0⟩, ⟨1, 11, 1, 2, 1⟩, ⟨3, 12, 1, 3, 1⟩]] := by decide +kernel

end DynCF
