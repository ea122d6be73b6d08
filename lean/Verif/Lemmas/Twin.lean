/-
Two recommenders that answer alike: an experiment cannot tell them apart, apart from their embeddings.
-/
import Verif.Model.PrepareModel
import Verif.Props.ExperimentSeries

namespace DynCF
variable {K σ σ' F : Type}

/-- Both computations fail with the same exception, or both succeed with related results. -/
inductive Both {α β : Type} (R : α → β → Prop) : PyM α → PyM β → Prop
  | ok {a : α} {b : β} (h : R a b) : Both R (.ok a) (.ok b)
  | error (e : PyErr) : Both R (.error e) (.error e)

theorem Both.bind {α β γ δ : Type} {R : α → β → Prop} {S : γ → δ → Prop} {x : PyM α} {y : PyM β} {f : α → PyM γ}
    {g : β → PyM δ} (h : Both R x y) (hf : ∀ a b, x = .ok a → y = .ok b → R a b → Both S (f a) (g b)) :
    Both S (x >>= f) (y >>= g) := by
  cases h with
  | ok h => exact hf _ _ rfl rfl h
  | error e => exact .error e

theorem Both.refl {α : Type} {R : α → α → Prop} (h : ∀ a, R a a) (x : PyM α) : Both R x x := by
  cases x with
  | ok a => exact .ok (h a)
  | error e => exact .error e

theorem Both.mono {α β : Type} {R S : α → β → Prop} (h : ∀ a b, R a b → S a b) {x : PyM α} {y : PyM β}
    (hb : Both R x y) : Both S x y := by
  cases hb with
  | ok hr => exact .ok (h _ _ hr)
  | error e => exact .error e

/-- Arrays of the same shape. -/
def SameShape (A B : Mat K) : Prop := A.rows = B.rows ∧ A.cols = B.cols

/-- Variables that are both unbound or hold arrays of the same shape. -/
inductive OptShape : Option (Mat K) → Option (Mat K) → Prop
  | none : OptShape none none
  | some {A B : Mat K} (h : SameShape A B) : OptShape (some A) (some B)

theorem bound_shape {a b : Option (Mat K)} (h : OptShape a b) : Both SameShape (bound a) (bound b) := by
  cases h with
  | none => exact .error _
  | some h => exact .ok h

section
variable [Field K] [LinearOrder K]

theorem sub_shape {A A' B B' : Mat K} (h1 : SameShape A A') (h2 : SameShape B B') :
    Both SameShape (A.sub B) (A'.sub B') := by
  obtain ⟨m, n, A⟩ := A
  obtain ⟨m', n', A'⟩ := A'
  obtain ⟨p, q, B⟩ := B
  obtain ⟨p', q', B'⟩ := B'
  obtain ⟨rfl, rfl⟩ := h1
  obtain ⟨rfl, rfl⟩ := h2
  unfold Mat.sub Mat.zipWith
  dsimp only
  split
  · exact .ok ⟨rfl, rfl⟩
  · have hb : Mat.broadcastable (⟨m, n, A'⟩ : Mat K) ⟨p, q, B'⟩ = Mat.broadcastable (⟨m, n, A⟩ : Mat K) ⟨p, q, B⟩ := rfl
    rw [hb]
    split <;> exact .error _

theorem padTo_shape {A A' B B' : Mat K} (h1 : SameShape A A') (h2 : SameShape B B') :
    Both SameShape (padTo A B) (padTo A' B') := by
  obtain ⟨m, n, A⟩ := A
  obtain ⟨m', n', A'⟩ := A'
  obtain ⟨p, q, B⟩ := B
  obtain ⟨p', q', B'⟩ := B'
  obtain ⟨rfl, rfl⟩ := h1
  obtain ⟨rfl, rfl⟩ := h2
  unfold padTo
  dsimp only
  split
  · split
    · exact .ok ⟨rfl, rfl⟩
    · split <;> exact .error _
  · exact .ok ⟨rfl, rfl⟩

theorem driftOf_shape {A A' B B' : Mat K} (f : Mat K → K) (h1 : SameShape A A') (h2 : SameShape B B') :
    Both (fun _ _ => True) (driftOf f A B) (driftOf f A' B') := by
  unfold driftOf relNormM
  refine (sub_shape h2 h1).bind fun d d' _ _ hd => ?_
  exact (sub_shape hd h2).bind fun _ _ _ _ _ => .ok trivial

theorem itemDriftLater_shape {A A' B B' : Mat K} (f : Mat K → K) (h1 : SameShape A A') (h2 : SameShape B B') :
    Both (fun _ _ => True) (itemDriftLater f A B) (itemDriftLater f A' B') := by
  unfold itemDriftLater
  rw [h1.1, h2.1]
  split
  · exact .ok trivial
  · exact driftOf_shape f h1 h2

/-- `M` and `M'` cannot be told apart on states related by `R` and tables that satisfy `P`, except by the entries of
their embeddings; the norms of these agree. -/
structure Twin (normOf : Mat K → K) (M : RecModel K σ F) (M' : RecModel K σ' F) (R : σ → σ' → Prop) (P : Tab K → Prop) :
    Prop where
  train : ∀ s s' t, P t → Both R (M.train s t) (M'.train s' t)
  update : ∀ s s' t, R s s' → P t → Both R (M.update s t) (M'.update s' t)
  recommend : ∀ s s' us k b, R s s' →
    Both (fun a a' => a.1 = a'.1 ∧ R a.2 a'.2) (M.recommend s us k b) (M'.recommend s' us k b)
  maps : ∀ s s', R s s' → M.maps s = M'.maps s'
  nItems : ∀ s s', R s s' → M.nItems s = M'.nItems s'
  getU : ∀ s s', R s s' → Both (fun A B => SameShape A B ∧ normOf A = normOf B) (M.getU s) (M'.getU s')
  getV : ∀ s s', R s s' → Both (fun A B => SameShape A B ∧ normOf A = normOf B) (M.getV s) (M'.getV s')

/-- The two dictionaries agree in everything but the values of the drifts. -/
def SameButDrift (d d' : Dynamics K) : Prop :=
  d.times = d'.times ∧ d.hr = d'.hr ∧ d.mrr = d'.mrr ∧ d.wji = d'.wji ∧ d.ndUsers = d'.ndUsers ∧ d.ndItems = d'.ndItems ∧
    d.rndUsers.length = d'.rndUsers.length ∧ d.rndItems.length = d'.rndItems.length

/-- related states of the loop -/
structure TwinState (R : σ → σ' → Prop) (st : ExpState K σ) (st' : ExpState K σ') : Prop where
  model : R st.model st'.model
  conc : st.conc = st'.conc
  ticks : st.ticks = st'.ticks
  dyn : SameButDrift st.dyn st'.dyn
  recT1 : st.recT1 = st'.recT1
  recT2 : st.recT2 = st'.recT2
  u1 : OptShape st.u1 st'.u1
  v1 : OptShape st.v1 st'.v1
  u2 : OptShape st.u2 st'.u2
  v2 : OptShape st.v2 st'.v2

variable {M : RecModel K σ F} {M' : RecModel K σ' F} {R : σ → σ' → Prop} {P : Tab K → Prop}

theorem twin_score {cfg : ExpCfg K} (T : Twin cfg.normOf M M' R P) (chunk : List (Row K)) {st : ExpState K σ}
    {st' : ExpState K σ'} (h : TwinState R st st') :
    Both (TwinState R) (scoreStep M cfg chunk st) (scoreStep M' cfg chunk st') := by
  unfold scoreStep
  rw [T.maps _ _ h.model]
  dsimp only
  refine (T.recommend _ _ _ _ _ h.model).bind fun a a' _ _ ha => ?_
  rw [ha.1]
  refine (Both.refl (R := Eq) (fun _ => rfl) _).bind fun x x' _ _ hx => ?_
  refine (Both.refl (R := Eq) (fun _ => rfl) _).bind fun y y' _ _ hy => ?_
  subst hx hy
  obtain ⟨d1, d2, d3, d4, d5, d6, d7, d8⟩ := h.dyn
  refine .ok ⟨ha.2, h.conc, h.ticks, ⟨d1, ?_, ?_, d4, d5, d6, d7, d8⟩, h.recT1, h.recT2, h.u1, h.v1, h.u2, h.v2⟩
  · show _ ++ _ = _ ++ _
    rw [d2]
  · show _ ++ _ = _ ++ _
    rw [d3]

theorem twin_stability {cfg : ExpCfg K} (T : Twin cfg.normOf M M' R P) (i : ℕ) {st : ExpState K σ}
    {st' : ExpState K σ'} (h : TwinState R st st') :
    Both (TwinState R) (stabilityStep M cfg i st) (stabilityStep M' cfg i st') := by
  obtain ⟨d1, d2, d3, d4, d5, d6, d7, d8⟩ := h.dyn
  unfold stabilityStep
  split
  · refine (T.recommend _ _ _ _ _ h.model).bind fun a a' _ _ ha => ?_
    exact .ok ⟨ha.2, h.conc, h.ticks, h.dyn, congrArg some ha.1, h.recT2, h.u1, h.v1, h.u2, h.v2⟩
  · split
    · refine (T.recommend _ _ _ _ _ h.model).bind fun a a' _ _ ha => ?_
      rw [h.recT1]
      refine (Both.refl (R := Eq) (fun _ => rfl) _).bind fun x x' _ _ hx => ?_
      rw [ha.1, T.nItems _ _ ha.2]
      subst hx
      refine (Both.refl (R := Eq) (fun _ => rfl) _).bind fun y y' _ _ hy => ?_
      subst hy
      refine .ok ⟨ha.2, h.conc, h.ticks, ⟨d1, d2, d3, ?_, d5, d6, d7, d8⟩, rfl, ?_, h.u1, h.v1, h.u2, h.v2⟩
      · show _ ++ _ = _ ++ _
        rw [d4]
      · rfl
    · rw [h.recT2]
      refine (Both.refl (R := Eq) (fun _ => rfl) _).bind fun x x' _ _ hx => ?_
      subst hx
      refine (T.recommend _ _ _ _ _ h.model).bind fun a a' _ _ ha => ?_
      rw [ha.1, T.nItems _ _ ha.2]
      refine (Both.refl (R := Eq) (fun _ => rfl) _).bind fun y y' _ _ hy => ?_
      subst hy
      refine .ok ⟨ha.2, h.conc, h.ticks, ⟨d1, d2, d3, ?_, d5, d6, d7, d8⟩, ?_, ?_, h.u1, h.v1, h.u2, h.v2⟩
      · show _ ++ _ = _ ++ _
        rw [d4]
      · rfl
      · rfl

theorem twin_drift {cfg : ExpCfg K} (T : Twin cfg.normOf M M' R P) (i : ℕ) {st : ExpState K σ}
    {st' : ExpState K σ'} (h : TwinState R st st') :
    Both (TwinState R) (driftStep M cfg i st) (driftStep M' cfg i st') := by
  obtain ⟨d1, d2, d3, d4, d5, d6, d7, d8⟩ := h.dyn
  have hU := T.getU _ _ h.model
  have hV := T.getV _ _ h.model
  unfold driftStep
  split
  · refine hU.bind fun A A' _ _ hA => hV.bind fun B B' _ _ hB => ?_
    exact .ok ⟨h.model, h.conc, h.ticks, h.dyn, h.recT1, h.recT2, .some hA.1, .some hB.1, h.u2, h.v2⟩
  · split
    · refine hU.bind fun A A' _ _ hA => hV.bind fun B B' _ _ hB => ?_
      refine (bound_shape h.u1).bind fun C C' _ _ hC => ?_
      refine (padTo_shape hC hA.1).bind fun C C' _ _ hC => ?_
      refine (bound_shape h.v1).bind fun D D' _ _ hD => ?_
      refine (padTo_shape hD hB.1).bind fun D D' _ _ hD => ?_
      refine (driftOf_shape _ hC hA.1).bind fun x x' _ _ _ => ?_
      refine (driftOf_shape _ hD hB.1).bind fun y y' _ _ _ => ?_
      refine .ok ⟨h.model, h.conc, h.ticks, ⟨d1, d2, d3, d4, d5, d6, ?_, ?_⟩, h.recT1, h.recT2, .some hC, .some hD,
        .some hA.1, .some hB.1⟩ <;> simp [d7, d8]
    · refine (bound_shape h.u2).bind fun C C' _ _ hC => ?_
      refine (bound_shape h.v2).bind fun D D' _ _ hD => ?_
      refine hU.bind fun A A' _ _ hA => hV.bind fun B B' _ _ hB => ?_
      refine (padTo_shape hC hA.1).bind fun C C' _ _ hC => ?_
      refine (driftOf_shape _ hC hA.1).bind fun x x' _ _ _ => ?_
      refine (padTo_shape hD hB.1).bind fun D D' _ _ hD => ?_
      refine (itemDriftLater_shape _ hD hB.1).bind fun y y' _ _ _ => ?_
      refine .ok ⟨h.model, h.conc, h.ticks, ⟨d1, d2, d3, d4, d5, d6, ?_, ?_⟩, h.recT1, h.recT2, .some hC, .some hD,
        .some hA.1, .some hB.1⟩ <;> simp [d7, d8]

theorem twin_norm {cfg : ExpCfg K} (T : Twin cfg.normOf M M' R P) {st : ExpState K σ}
    {st' : ExpState K σ'} (h : TwinState R st st') :
    Both (TwinState R) (normStep M cfg st) (normStep M' cfg st') := by
  obtain ⟨d1, d2, d3, d4, d5, d6, d7, d8⟩ := h.dyn
  unfold normStep
  refine (T.getU _ _ h.model).bind fun A A' _ _ hA => (T.getV _ _ h.model).bind fun B B' _ _ hB => ?_
  refine .ok ⟨h.model, h.conc, h.ticks, ⟨d1, d2, d3, d4, ?_, ?_, d7, d8⟩, h.recT1, h.recT2, h.u1, h.v1, h.u2, h.v2⟩
  · show _ ++ _ = _ ++ _
    rw [d5, hA.2]
  · show _ ++ _ = _ ++ _
    rw [d6, hB.2]

/-- The tables handed to the model while `chunks` are processed, starting from `conc`, satisfy `P`. -/
def TablesOk (P : Tab K → Prop) (cfg : ExpCfg K) : Tab K → List (List (Row K)) → Prop
  | _, [] => True
  | conc, c :: rest => ∀ conc', concatStep cfg conc c = .ok conc' →
      P (if cfg.chunkMode then Tab.plain c else conc') ∧ TablesOk P cfg conc' rest

theorem twin_loop {cfg : ExpCfg K} (T : Twin cfg.normOf M M' R P) (hre : cfg.reinit = false) :
    ∀ (stream : List (List (Row K))) (i : ℕ) (st : ExpState K σ) (st' : ExpState K σ'), TwinState R st st' →
      TablesOk P cfg st.conc stream → Both (TwinState R) (expLoop M cfg i stream st) (expLoop M' cfg i stream st')
  | [], _, _, _, h, _ => .ok h
  | c :: rest, i, st, st', h, hP => by
    unfold expLoop
    have hstep : Both (fun a b => TwinState R a b ∧ ∃ conc, concatStep cfg st.conc c = .ok conc ∧ a.conc = conc)
        (expStep M cfg i c st) (expStep M' cfg i c st') := by
      unfold expStep
      refine (twin_score T c h).bind fun s1 s1' e1 _ h1 => (twin_stability T i h1).bind fun s2 s2' e2 _ h2 =>
        (twin_drift T i h2).bind fun s3 s3' e3 _ h3 => (twin_norm T h3).bind fun s4 s4' e4 _ h4 => ?_
      have hc : s4.conc = st.conc := by
        obtain ⟨_, _, _, _, rfl⟩ := normStep_ok M cfg e4
        obtain ⟨_, _, _, _, _, _, rfl⟩ := scoreStep_ok M cfg e1
        obtain ⟨_, _, _, _, f3, _, _, _⟩ := stabilityStep_ok M cfg e2
        obtain ⟨_, _, _, g2, _, _, _, _⟩ := driftStep_ok M cfg e3
        show s3.conc = _
        rw [g2, f3]
      rw [← h4.conc, hc]
      refine (Both.refl (R := Eq) (fun _ => rfl) _).bind fun conc conc' hconc _ he => ?_
      subst he
      have hup : Both R (updateStep M cfg s4.model conc c) (updateStep M' cfg s4'.model conc c) := by
        unfold updateStep
        simp only [hre, Bool.false_eq_true, if_false]
        exact T.update _ _ _ h4.model (hP conc hconc).1
      refine hup.bind fun m m' _ _ hm => ?_
      obtain ⟨d1, d2, d3, d4, d5, d6, d7, d8⟩ := h4.dyn
      refine .ok ⟨⟨hm, rfl, ?_, ⟨?_, d2, d3, d4, d5, d6, d7, d8⟩, h4.recT1, h4.recT2, h4.u1, h4.v1, h4.u2, h4.v2⟩,
        conc, hconc, rfl⟩
      · show _ + 2 = _ + 2
        rw [h4.ticks]
      · show _ ++ [_] = _ ++ [_]
        rw [d1, h4.ticks]
    refine hstep.bind fun a b _ _ hab => ?_
    obtain ⟨hab, conc, hconc, hac⟩ := hab
    split
    · exact .ok hab
    · refine twin_loop T hre rest (i + 1) a b hab ?_
      rw [hac]
      exact (hP conc hconc).2

/-- Experiments with two such recommenders end alike. -/
theorem twin_run {cfg : ExpCfg K} (T : Twin cfg.normOf M M' R P) (hre : cfg.reinit = false) (s0 : σ) (s0' : σ')
    (initial : Tab K) (stream : List (List (Row K))) (hi : P initial) (hP : TablesOk P cfg initial stream) :
    Both SameButDrift (runWith M cfg s0 initial stream) (runWith M' cfg s0' initial stream) := by
  unfold runWith dynamicalExperiment expInit
  simp only [bind_assoc]
  refine (T.train s0 s0' initial hi).bind fun s s' _ _ hs => ?_
  simp only [pure_bind]
  refine (twin_loop T hre stream 1 _ _ ⟨hs, rfl, rfl, ⟨rfl, rfl, rfl, rfl, rfl, rfl, rfl, rfl⟩, rfl, rfl, .none, .none,
    .none, .none⟩ hP).bind fun a b _ _ hab => .ok hab.dyn

end

end DynCF
