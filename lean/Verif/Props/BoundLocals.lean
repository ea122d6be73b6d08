/-
C191: `dynamical_experiment` never reads a local variable before it is assigned.
-/
import Verif.Props.ExperimentSeries

namespace DynCF
variable {K : Type}

/-- A call does not raise `UnboundLocalError`, and a result it returns satisfies `P`. -/
def Assigned {α : Type} (P : α → Prop) (x : PyM α) : Prop :=
  x ≠ .error .unboundLocalError ∧ ∀ a, x = .ok a → P a

/-- No method of the recommender raises `UnboundLocalError`. -/
structure ModelAssigned {σ F : Type} (M : RecModel K σ F) : Prop where
  train : ∀ s t, M.train s t ≠ .error .unboundLocalError
  update : ∀ s t, M.update s t ≠ .error .unboundLocalError
  updateRe : ∀ s t f m, M.updateRe s t f m ≠ .error .unboundLocalError
  recommend : ∀ s u k b, M.recommend s u k b ≠ .error .unboundLocalError
  getU : ∀ s, M.getU s ≠ .error .unboundLocalError
  getV : ∀ s, M.getV s ≠ .error .unboundLocalError

/-! ### Lemmas -/

theorem Assigned.of_ne {α : Type} {x : PyM α} (h : x ≠ .error .unboundLocalError) : Assigned (fun _ => True) x :=
  ⟨h, fun _ _ => trivial⟩

theorem Assigned.pure {α : Type} {P : α → Prop} {a : α} (h : P a) : Assigned P (Pure.pure a : PyM α) :=
  ⟨nofun, fun b hb => by cases hb; exact h⟩

theorem Assigned.bind {α β : Type} {P : α → Prop} {Q : β → Prop} {x : PyM α} {f : α → PyM β} (hx : Assigned P x)
    (hf : ∀ a, P a → Assigned Q (f a)) : Assigned Q (x >>= f) := by
  cases x with
  | error e => exact ⟨fun h => hx.1 (by cases h; rfl), nofun⟩
  | ok a => exact hf a (hx.2 a rfl)

theorem assigned_fold {α β : Type} (f : β → α → PyM β) (hf : ∀ b a, f b a ≠ .error .unboundLocalError) (l : List α) :
    ∀ b, Assigned (fun _ => True) (l.foldlM f b) := by
  induction l with
  | nil => exact fun b => Assigned.pure trivial
  | cons a l ih =>
    intro b
    rw [List.foldlM_cons]
    exact (Assigned.of_ne (hf b a)).bind fun c _ => ih c

theorem assigned_mapM {α β : Type} (f : α → PyM β) (hf : ∀ a, f a ≠ .error .unboundLocalError) (l : List α) :
    Assigned (fun _ => True) (l.mapM f) := by
  induction l with
  | nil => exact Assigned.pure trivial
  | cons a l ih =>
    rw [List.mapM_cons]
    exact (Assigned.of_ne (hf a)).bind fun b _ => ih.bind fun c _ => Assigned.pure trivial

theorem assigned_forIdx2 {α β γ : Type} (a : List α) (b : List β) (f : γ → α → β → PyM γ) (init : γ)
    (hf : ∀ c x y, f c x y ≠ .error .unboundLocalError) : Assigned (fun _ => True) (forIdx2 a b f init) := by
  refine assigned_fold _ (fun c i => ?_) _ _
  split
  · exact hf _ _ _
  · nofun

variable [Field K] [LinearOrder K]

theorem assigned_pyDiv (a b : K) : Assigned (fun _ => True) (pyDiv a b) := by
  unfold pyDiv
  split <;> exact Assigned.of_ne nofun

theorem assigned_fancySet (a : List K) (idx : List ℤ) (vals : List K) : Assigned (fun _ => True) (fancySet a idx vals) := by
  unfold fancySet
  split
  · exact Assigned.of_ne nofun
  · split <;> exact Assigned.of_ne nofun

theorem assigned_wji (u v : List K) : Assigned (fun _ => True) (wji u v) := by
  unfold wji
  refine (assigned_forIdx2 _ _ _ _ ?_).bind fun _ _ => assigned_pyDiv _ _
  intro c x y h
  cases h

theorem assigned_hr (a : List (List ℤ)) (b : List ℤ) : Assigned (fun _ => True) (hr (K := K) a b) := by
  unfold hr
  refine (assigned_forIdx2 _ _ _ _ ?_).bind fun _ _ => assigned_pyDiv _ _
  intro c x y h
  cases h

theorem assigned_mrr (a : List (List ℤ)) (b : List ℤ) : Assigned (fun _ => True) (mrr (K := K) a b) := by
  unfold mrr
  refine (assigned_forIdx2 _ _ _ _ ?_).bind fun _ _ => assigned_pyDiv _ _
  intro c x y h
  cases h

theorem assigned_wjiSim (a b : List (List ℤ)) (n : ℕ) : Assigned (fun _ => True) (wjiSim (K := K) a b n) := by
  unfold wjiSim
  refine (assigned_forIdx2 _ _ _ _ ?_).bind fun _ _ => assigned_pyDiv _ _
  intro c x y
  exact ((assigned_fancySet _ _ _).bind fun _ _ => (assigned_fancySet _ _ _).bind fun _ _ => (assigned_wji _ _).bind
    fun _ _ => Assigned.pure (P := fun _ => True) trivial).1

theorem assigned_sub (a b : Mat K) : Assigned (fun _ => True) (a.sub b) := by
  unfold Mat.sub Mat.zipWith
  split
  · exact Assigned.of_ne nofun
  · split <;> exact Assigned.of_ne nofun

theorem assigned_padTo (a b : Mat K) : Assigned (fun _ => True) (padTo a b) := by
  unfold padTo
  split
  · split
    · exact Assigned.of_ne nofun
    · split <;> exact Assigned.of_ne nofun
  · exact Assigned.of_ne nofun

theorem assigned_driftOf (f : Mat K → K) (a b : Mat K) : Assigned (fun _ => True) (driftOf f a b) :=
  (assigned_sub _ _).bind fun _ _ => (assigned_sub _ _).bind fun _ _ => Assigned.pure trivial

theorem assigned_itemDrift (f : Mat K → K) (a b : Mat K) : Assigned (fun _ => True) (itemDriftLater f a b) := by
  unfold itemDriftLater
  split
  · exact Assigned.of_ne nofun
  · exact assigned_driftOf _ _ _

theorem assigned_cropped (df : List (Row K)) (L : ℕ) (b : Bool) : Assigned (fun _ => True) (getDfWithCroppedPos df L b) := by
  have h : ∀ x : List (Row K), addOrderCropped x L ≠ .error .unboundLocalError := by
    intro x
    unfold addOrderCropped
    split
    · nofun
    · dsimp only
      generalize (if L = 0 then 0 else x.length - L) = start
      split <;> nofun
  have h' := fun df' : List (Row K) => (assigned_mapM (fun u => addOrderCropped (df'.filter fun r => decide (r.user = u)) L)
    (fun u => h _) (groupUsers df')).bind fun groups _ =>
    Assigned.pure (P := fun _ => True) (a := groups.flatten.filter fun r => decide (r.pos ≠ PAD)) trivial
  unfold getDfWithCroppedPos
  by_cases hd : df.isEmpty = true
  · rw [if_pos hd]
    exact Assigned.of_ne nofun
  · rw [if_neg hd]
    exact h' _

theorem assigned_concat (cfg : ExpCfg K) (conc : Tab K) (chunk : List (Row K)) :
    Assigned (fun _ => True) (concatStep cfg conc chunk) := by
  unfold concatStep
  split
  · exact Assigned.of_ne nofun
  · split
    · exact (assigned_cropped _ _ _).bind fun _ _ => Assigned.pure trivial
    · split <;> exact Assigned.of_ne nofun

/-- the variables of the stability part that are assigned when iteration `i` begins -/
def RecsReady {σ : Type} (i : ℕ) (st : ExpState K σ) : Prop :=
  (i = 2 → st.recT1.isSome) ∧ (3 ≤ i → st.recT2.isSome)

/-- the variables of the drift part that are assigned when iteration `i` begins -/
def EmbsReady {σ : Type} (i : ℕ) (st : ExpState K σ) : Prop :=
  (i = 2 → st.u1.isSome ∧ st.v1.isSome) ∧ (3 ≤ i → st.u2.isSome ∧ st.v2.isSome)

theorem assigned_bound {α : Type} {x : Option α} (h : x.isSome) : Assigned (fun _ => True) (bound x) := by
  cases x with
  | none => cases h
  | some a => exact Assigned.of_ne nofun

theorem assigned_score {σ F : Type} {M : RecModel K σ F} (hM : ModelAssigned M) (cfg : ExpCfg K) (chunk : List (Row K)) (i : ℕ)
    {st : ExpState K σ} (h : RecsReady i st ∧ EmbsReady i st) :
    Assigned (fun st' => RecsReady i st' ∧ EmbsReady i st') (scoreStep M cfg chunk st) :=
  (Assigned.of_ne (hM.recommend _ _ _ _)).bind fun _ _ => (assigned_hr _ _).bind fun _ _ => (assigned_mrr _ _).bind
    fun _ _ => Assigned.pure h

theorem assigned_stability {σ F : Type} {M : RecModel K σ F} (hM : ModelAssigned M) (cfg : ExpCfg K) {i : ℕ} (hi : 1 ≤ i)
    {st : ExpState K σ} (h : RecsReady i st ∧ EmbsReady i st) :
    Assigned (fun st' => RecsReady (i + 1) st' ∧ EmbsReady i st') (stabilityStep M cfg i st) := by
  unfold stabilityStep
  split
  · exact (Assigned.of_ne (hM.recommend _ _ _ _)).bind fun _ _ => Assigned.pure
      ⟨⟨fun _ => rfl, fun h' => absurd h' (by omega)⟩, h.2⟩
  · split
    · exact (Assigned.of_ne (hM.recommend _ _ _ _)).bind fun _ _ => (assigned_bound (h.1.1 ‹_›)).bind fun _ _ =>
        (assigned_wjiSim _ _ _).bind fun _ _ => Assigned.pure ⟨⟨fun h' => absurd h' (by omega), fun _ => rfl⟩, h.2⟩
    · exact (assigned_bound (h.1.2 (by omega))).bind fun _ _ => (Assigned.of_ne (hM.recommend _ _ _ _)).bind fun _ _ =>
        (assigned_wjiSim _ _ _).bind fun _ _ => Assigned.pure ⟨⟨fun h' => absurd h' (by omega), fun _ => rfl⟩, h.2⟩

theorem assigned_drift {σ F : Type} {M : RecModel K σ F} (hM : ModelAssigned M) (cfg : ExpCfg K) {i : ℕ} (hi : 1 ≤ i)
    {st : ExpState K σ} (h : RecsReady (i + 1) st ∧ EmbsReady i st) :
    Assigned (fun st' => RecsReady (i + 1) st' ∧ EmbsReady (i + 1) st') (driftStep M cfg i st) := by
  unfold driftStep
  split
  · exact (Assigned.of_ne (hM.getU _)).bind fun _ _ => (Assigned.of_ne (hM.getV _)).bind fun _ _ => Assigned.pure
      ⟨h.1, ⟨fun _ => ⟨rfl, rfl⟩, fun h' => absurd h' (by omega)⟩⟩
  · split
    · exact (Assigned.of_ne (hM.getU _)).bind fun _ _ => (Assigned.of_ne (hM.getV _)).bind fun _ _ =>
        (assigned_bound (h.2.1 ‹_›).1).bind fun _ _ => (assigned_padTo _ _).bind fun _ _ =>
        (assigned_bound (h.2.1 ‹_›).2).bind fun _ _ => (assigned_padTo _ _).bind fun _ _ =>
        (assigned_driftOf _ _ _).bind fun _ _ => (assigned_driftOf _ _ _).bind fun _ _ => Assigned.pure
        ⟨h.1, ⟨fun h' => absurd h' (by omega), fun _ => ⟨rfl, rfl⟩⟩⟩
    · exact (assigned_bound (h.2.2 (by omega)).1).bind fun _ _ => (assigned_bound (h.2.2 (by omega)).2).bind fun _ _ =>
        (Assigned.of_ne (hM.getU _)).bind fun _ _ => (Assigned.of_ne (hM.getV _)).bind fun _ _ =>
        (assigned_padTo _ _).bind fun _ _ => (assigned_driftOf _ _ _).bind fun _ _ => (assigned_padTo _ _).bind fun _ _ =>
        (assigned_itemDrift _ _ _).bind fun _ _ => Assigned.pure
        ⟨h.1, ⟨fun h' => absurd h' (by omega), fun _ => ⟨rfl, rfl⟩⟩⟩

theorem assigned_step {σ F : Type} {M : RecModel K σ F} (hM : ModelAssigned M) (cfg : ExpCfg K) {i : ℕ} (hi : 1 ≤ i)
    (chunk : List (Row K)) {st : ExpState K σ} (h : RecsReady i st ∧ EmbsReady i st) :
    Assigned (fun st' => RecsReady (i + 1) st' ∧ EmbsReady (i + 1) st') (expStep M cfg i chunk st) :=
  (assigned_score hM cfg chunk i h).bind fun _ h1 => (assigned_stability hM cfg hi h1).bind fun _ h2 =>
    (assigned_drift hM cfg hi h2).bind fun st' h3 =>
    Assigned.bind (P := fun st' => RecsReady (i + 1) st' ∧ EmbsReady (i + 1) st')
      ((Assigned.of_ne (hM.getU _)).bind fun _ _ => (Assigned.of_ne (hM.getV _)).bind fun _ _ => Assigned.pure h3)
    fun _ h4 => (assigned_concat _ _ _).bind fun _ _ => Assigned.bind (P := fun _ => True) (by
      unfold updateStep
      dsimp only
      split
      · exact Assigned.of_ne (hM.updateRe _ _ _ _)
      · exact Assigned.of_ne (hM.update _ _)) fun _ _ => Assigned.pure h4

theorem assigned_loop {σ F : Type} {M : RecModel K σ F} (hM : ModelAssigned M) (cfg : ExpCfg K)
    (stream : List (List (Row K))) : ∀ {i : ℕ}, 1 ≤ i → ∀ {st : ExpState K σ}, RecsReady i st ∧ EmbsReady i st →
      Assigned (fun _ => True) (expLoop M cfg i stream st) := by
  induction stream with
  | nil => exact fun _ _ _ => Assigned.of_ne nofun
  | cons chunk rest ih =>
    intro i hi st h
    unfold expLoop
    refine (assigned_step hM cfg hi chunk h).bind fun st' h' => ?_
    split
    · exact Assigned.pure trivial
    · exact ih (by omega) h'

/-! ### Theorems -/

/-- **C191.** If no method of the recommender raises `UnboundLocalError`, then neither does `dynamical_experiment`: the
recommendations and embeddings of the previous iterations are assigned before they are read, for every stream, every
configuration and every number of iterations. -/
theorem C191 {σ F : Type} (M : RecModel K σ F) (hM : ModelAssigned M) (cfg : ExpCfg K) (s0 : σ) (initial : Tab K)
    (stream : List (List (Row K))) : dynamicalExperiment M cfg s0 initial stream ≠ .error .unboundLocalError :=
  Assigned.bind (P := fun st => RecsReady 1 st ∧ EmbsReady 1 st) (Q := fun _ => True)
    ((Assigned.of_ne (hM.train _ _)).bind fun _ _ => Assigned.pure
      ⟨⟨fun h => absurd h (by decide), fun h => absurd h (by decide)⟩, ⟨fun h => absurd h (by decide),
        fun h => absurd h (by decide)⟩⟩) (fun _ h => assigned_loop hM cfg stream le_rfl h) |>.1

/-- **C191, the start matters.** A loop that began with iteration 2 would read the recommendations of the first model before
they are assigned, so the loop's start state alone does not exclude the error. -/
theorem C191_start {σ F : Type} (M : RecModel K σ F) (cfg : ExpCfg K) (st : ExpState K σ) (h : st.recT1 = none)
    {r : List (List ℤ) × σ} (hr : M.recommend st.model cfg.testUsers cfg.kRecs true = .ok r) :
    stabilityStep M cfg 2 st = .error .unboundLocalError := by
  unfold stabilityStep
  rw [if_neg (by decide), if_pos rfl, hr, h]
  rfl

/-! ### Examples -/

-- a recommender whose embeddings grow and shrink: no stream and no configuration leads to an unassigned variable
theorem exRecV_assigned : ModelAssigned exRecV := ⟨nofun, nofun, nofun, nofun, nofun, nofun⟩

example (cfg : ExpCfg ℚ) (stream : List (List (Row ℚ))) :
    dynamicalExperiment exRecV cfg [] (.plain exInitRows) stream ≠ .error .unboundLocalError :=
  C191 exRecV exRecV_assigned cfg [] _ stream

-- an experiment may still fail in another way: nobody in this chunk is known, and the hit rate divides by zero
example : exDyn (dynamicalExperiment exRecV (exExpCfg 0 true false) [] (.plain exInitRows) [[⟨9, 99, 1, 2, 1⟩]]) =
    .error .zeroDivisionError := by decide +kernel

-- iteration 2 without iteration 1
example : exDyn (stabilityStep exRecV (exExpCfg 0 true false) 2
    { model := exInitRows, conc := .plain exInitRows, ticks := 2, dyn := {} }) = .error .unboundLocalError := by
  rw [C191_start exRecV _ _ rfl rfl]
  rfl

end DynCF
