/-
Property theorems C60, C61, C78, C79: the alternating Tucker factorisations of `rp_hooi.py`.
-/
import Verif.Lemmas.Hooi
import Verif.Lemmas.ExampleOracle
import Verif.Props.Tensor

set_option linter.unusedSectionVars false

namespace DynCF
variable {K : Type}

/-! ### C60 -/

/-- Each of the three ranks is at most the product of the other two. -/
def RankValid (r0 r1 r2 : ℤ) : Prop := r0 ≤ r1 * r2 ∧ r1 ≤ r0 * r2 ∧ r2 ≤ r0 * r1

/-- **C60.** For a triple of ranks: accepted iff the tensor is at most 3-way and the triple is valid;
a tensor with more modes raises `NotImplementedError`, an invalid triple `RuntimeError`. -/
theorem C60_check_params (shape : List ℕ) (r0 r1 r2 : ℤ) :
    (checkParams shape [r0, r1, r2] = .ok () ↔ shape.length ≤ 3 ∧ RankValid r0 r1 r2) ∧
    (checkParams shape [r0, r1, r2] = .error .notImplementedError ↔ 3 < shape.length) ∧
    (checkParams shape [r0, r1, r2] = .error .runtimeError ↔
      shape.length ≤ 3 ∧ ¬ RankValid r0 r1 r2) := by
  unfold RankValid
  by_cases hs : shape.length > 3
  · have h : checkParams shape [r0, r1, r2] = .error .notImplementedError := by
      unfold checkParams
      rw [if_pos hs]
    rw [h]
    refine ⟨⟨fun h => (by cases h), fun h => absurd hs (by omega)⟩, ⟨fun _ => hs, fun _ => rfl⟩,
      ⟨fun h => (by cases h), fun h => absurd hs (by omega)⟩⟩
  · have hle : shape.length ≤ 3 := by omega
    by_cases hv : r0 ≤ r1 * r2 ∧ r1 ≤ r0 * r2 ∧ r2 ≤ r0 * r1
    · have h : checkParams shape [r0, r1, r2] = .ok () := by
        unfold checkParams tuckerRankIsValid
        rw [if_neg hs]
        dsimp only
        rw [if_neg (by omega), if_neg (by omega), if_neg (by omega), except_bind_ok]
        rfl
      rw [h]
      refine ⟨⟨fun _ => ⟨hle, hv⟩, fun _ => rfl⟩, ⟨fun h => (by cases h), fun h => absurd h hs⟩,
        ⟨fun h => (by cases h), fun h => absurd hv h.2⟩⟩
    · have h : checkParams shape [r0, r1, r2] = .error .runtimeError := by
        unfold checkParams tuckerRankIsValid
        rw [if_neg hs]
        dsimp only
        by_cases h1 : r0 > r1 * r2
        · rw [if_pos h1, except_bind_ok]; rfl
        · rw [if_neg h1]
          by_cases h2 : r1 > r0 * r2
          · rw [if_pos h2, except_bind_ok]; rfl
          · rw [if_neg h2]
            by_cases h3 : r2 > r0 * r1
            · rw [if_pos h3, except_bind_ok]; rfl
            · exact absurd ⟨by omega, by omega, by omega⟩ hv
      rw [h]
      refine ⟨⟨fun h => (by cases h), fun h => absurd h.2 hv⟩, ⟨fun h => (by cases h),
        fun h => absurd h hs⟩, ⟨fun _ => ⟨hle, hv⟩, fun _ => rfl⟩⟩

/-- C60, rank tuples of another length (except the empty one, which is accepted) raise
`ValueError`. -/
theorem C60_wrong_length (shape : List ℕ) (rank : List ℤ) (h : rank.length ≠ 3) (h0 : rank ≠ [])
    (hs : shape.length ≤ 3) : checkParams shape rank = .error .valueError := by
  unfold checkParams
  rw [if_neg (by omega)]
  match rank, h, h0 with
  | [], _, h0 => exact absurd rfl h0
  | [_], _, _ => rfl
  | [_, _], _, _ => rfl
  | [_, _, _], h, _ => exact absurd rfl h
  | _ :: _ :: _ :: _ :: _, _, _ => rfl

/-- C60, "before any work": with an invalid rank all three factorisations raise `RuntimeError`
whatever the data, the initial factors and the numerical routines are. -/
theorem C60_before_any_work [Field K] [LinearOrder K] {τ : Type} (p : HooiPar K)
    (normOf : Ten K → K) (inds : List Ind3) (vals : List K) (shape : ℕ × ℕ × ℕ) (att : Mat K)
    (nIter : ℕ) (tol : K) (cb : Option (ExitCallback K τ)) (cb0 : τ) (init : Option (Fac K))
    (force : Bool) (im : ℕ) (him : im ≤ 2)
    (h : ¬ RankValid p.rank.1 p.rank.2.1 p.rank.2.2) :
    gaSatf p normOf inds vals shape att nIter tol cb cb0 init force = .error .runtimeError ∧
    rpHooi p normOf inds vals shape nIter tol = .error .runtimeError ∧
    tucker2 p normOf inds vals shape im nIter tol = .error .runtimeError := by
  have hc : checkParams (tri shape) (triZ p.rank) = .error .runtimeError :=
    ((C60_check_params (tri shape) p.rank.1 p.rank.2.1 p.rank.2.2).2.2).2 ⟨by simp [tri], h⟩
  unfold gaSatf rpHooi tucker2
  rw [hc, if_neg (by omega)]
  exact ⟨rfl, rfl, rfl⟩

example : checkParams [5, 6, 7] [2, 3, 4] = .ok () ∧
    checkParams [5, 6, 7] [2, 3, 7] = .error .runtimeError ∧
    checkParams [5, 6, 7, 8] [2, 3, 4] = .error .notImplementedError ∧
    checkParams [5, 6, 7] [2, 3] = .error .valueError := by
  refine ⟨?_, ?_, ?_, ?_⟩ <;> rfl

/-! ### C61 -/

/-- Description of every completed run of the loop: `k ≤ n` iterations with states `x`, stopping
states `y` and decisions `b`; it ends early only because of a positive decision, and no earlier
decision was positive. -/
theorem hooiLoop_run {σ τ : Type} (sweep : ℕ → σ → PyM σ) (stop : σ → τ → PyM (Bool × τ))
    (n i : ℕ) (s : σ) (t : τ) (s' : σ) (t' : τ)
    (h : hooiLoop sweep stop n i s t = .ok (s', t')) :
    ∃ (k : ℕ) (x : ℕ → σ) (y : ℕ → τ) (b : ℕ → Bool), k ≤ n ∧ x 0 = s ∧ y 0 = t ∧ x k = s' ∧
      y k = t' ∧
      (∀ j < k, sweep (i + j) (x j) = .ok (x (j + 1)) ∧
        stop (x (j + 1)) (y j) = .ok (b j, y (j + 1))) ∧
      (∀ j, j + 1 < k → b j = false) ∧ (k < n → 1 ≤ k ∧ b (k - 1) = true) := by
  induction n generalizing i s t with
  | zero =>
    have h' := Except.ok.inj h
    obtain ⟨rfl, rfl⟩ := Prod.mk.inj h'
    exact ⟨0, fun _ => s, fun _ => t, fun _ => false, le_refl _, rfl, rfl, rfl, rfl,
      by intro j hj; omega, by intro j hj; omega, by omega⟩
  | succ n ih =>
    unfold hooiLoop at h
    rw [bind_ok_iff] at h
    obtain ⟨s1, h1, h⟩ := h
    rw [bind_ok_iff] at h
    obtain ⟨⟨b0, t1⟩, h2, h⟩ := h
    dsimp only at h
    split at h
    · rename_i hb
      cases h
      refine ⟨1, fun j => if j = 0 then s else s', fun j => if j = 0 then t else t',
        fun _ => b0, by omega, rfl, rfl, rfl, rfl, ?_, by intro j hj; omega,
        fun _ => ⟨le_refl _, hb⟩⟩
      intro j hj
      obtain rfl : j = 0 := by omega
      exact ⟨h1, h2⟩
    · rename_i hb
      obtain ⟨k, x, y, b, hk, hx0, hy0, hxk, hyk, hstep, hfalse, hend⟩ := ih (i + 1) s1 t1 h
      refine ⟨k + 1, fun j => if j = 0 then s else x (j - 1), fun j => if j = 0 then t else y (j - 1),
        fun j => if j = 0 then b0 else b (j - 1), by omega, rfl, rfl, ?_, ?_, ?_, ?_, ?_⟩
      · simpa using hxk
      · simpa using hyk
      · intro j hj
        cases j with
        | zero => simp [hx0, hy0, h1, h2]
        | succ j =>
          have := hstep j (by omega)
          rw [show i + (j + 1) = i + 1 + j by ring]
          simpa using this
      · intro j hj
        cases j with
        | zero => simpa using hb
        | succ j => simpa using hfalse j (by omega)
      · intro hlt
        obtain ⟨hk1, hbk⟩ := hend (by omega)
        refine ⟨by omega, ?_⟩
        show (if k + 1 - 1 = 0 then b0 else b (k + 1 - 1 - 1)) = true
        rw [Nat.add_sub_cancel, if_neg (by omega)]
        exact hbk

/-- what a completed call of `ga_satf` did before the loop -/
theorem gaSatf_ok [Field K] [LinearOrder K] {τ : Type} {p : HooiPar K}
    {normOf : Ten K → K} {inds : List Ind3} {vals : List K} {shape : ℕ × ℕ × ℕ} {att : Mat K}
    {nIter : ℕ} {tol : K} {cb : Option (ExitCallback K τ)} {cb0 : τ} {init : Option (Fac K)}
    {force : Bool} {res : HooiState K} {cbEnd : τ}
    (h : gaSatf p normOf inds vals shape att nIter tol cb cb0 init force = .ok (res, cbEnd)) :
    ∃ f nrm, checkParams (tri shape) (triZ p.rank) = .ok () ∧
      placeInit (initFactors p.la p.initRng shape p.rank true) init = .ok f ∧
      hooiLoop (onState (gaSatfSweep p inds vals shape att))
        (stopOn (gaSatfStop normOf tol force cb)) nIter 0 (f, none) (0, cb0) =
          .ok (res, (nrm, cbEnd)) := by
  unfold gaSatf at h
  rw [bind_ok_iff] at h
  obtain ⟨_, h1, h⟩ := h
  rw [bind_ok_iff] at h
  obtain ⟨f, h2, h⟩ := h
  rw [bind_ok_iff] at h
  obtain ⟨⟨r1, nrm, c⟩, h3, h⟩ := h
  cases h
  exact ⟨f, nrm, h1, h2, h3⟩

theorem onState_ok {κ : Type} {sweep : ℕ → Fac K → PyM (Fac K × κ)} {i : ℕ}
    {s s' : Fac K × Option κ} (h : onState sweep i s = .ok s') :
    ∃ g, sweep i s.1 = .ok (s'.1, g) ∧ s'.2 = some g := by
  unfold onState at h
  rw [bind_ok_iff] at h
  obtain ⟨r, hr, h⟩ := h
  cases h
  exact ⟨r.2, hr, rfl⟩

/-- The run of the sweeps: `F j` are the factors and `G j` the core after `j` sweeps. -/
def SweepRun {κ : Type} (sweep : ℕ → Fac K → PyM (Fac K × κ)) (k : ℕ) (F : ℕ → Fac K) (G : ℕ → κ) :
    Prop :=
  ∀ j < k, sweep j (F j) = .ok (F (j + 1), G (j + 1))

/-- **C61.** Every completed call of `ga_satf` performs `k ≤ n_iter` sweeps, starting from the initial
factors, and returns the factors and the core of the last sweep (no core if `k = 0`). -/
theorem C61_ga_satf_run [Field K] [LinearOrder K] {τ : Type} (p : HooiPar K)
    (normOf : Ten K → K) (inds : List Ind3) (vals : List K) (shape : ℕ × ℕ × ℕ) (att : Mat K)
    (nIter : ℕ) (tol : K) (cb : Option (ExitCallback K τ)) (cb0 : τ) (init : Option (Fac K))
    (force : Bool) (f : Fac K) (g : Option (Ten K)) (cbEnd : τ)
    (h : gaSatf p normOf inds vals shape att nIter tol cb cb0 init force = .ok ((f, g), cbEnd)) :
    ∃ (k : ℕ) (F : ℕ → Fac K) (G : ℕ → Ten K),
      k ≤ nIter ∧
      placeInit (initFactors p.la p.initRng shape p.rank true) init = .ok (F 0) ∧
      SweepRun (gaSatfSweep p inds vals shape att) k F G ∧
      f = F k ∧ (g = if k = 0 then none else some (G k)) ∧
      -- forced: all sweeps, the callback is not consulted
      (force = true → k = nIter ∧ cbEnd = cb0) ∧
      -- no callback: stops after the first sweep whose relative growth is below the tolerance
      (force = false → cb = none →
        (∀ j, 1 ≤ j → j < k → ¬ (normOf (G j) - (if j = 1 then 0 else normOf (G (j - 1)))) /
          (normOf (G j) + 1 / 10 ^ 8) < tol) ∧
        (k < nIter → 1 ≤ k ∧ (normOf (G k) - (if k = 1 then 0 else normOf (G (k - 1)))) /
          (normOf (G k) + 1 / 10 ^ 8) < tol) ∧ cbEnd = cb0) ∧
      -- callback: called once after every sweep with that sweep's factors and core, in order;
      -- stops after the first sweep on which it answers `True`
      (∀ c, force = false → cb = some c → ∃ (y : ℕ → τ) (b : ℕ → Bool), y 0 = cb0 ∧ y k = cbEnd ∧
        (∀ j < k, c (y j) (F (j + 1)) (G (j + 1)) = .ok (b (j + 1), y (j + 1))) ∧
        (∀ j, 1 ≤ j → j < k → b j = false) ∧ (k < nIter → 1 ≤ k ∧ b k = true)) := by
  obtain ⟨f0, nrm, _, hinit, hloop⟩ := gaSatf_ok h
  obtain ⟨k, x, y, b, hk, hx0, hy0, hxk, hyk, hstep, hfalse, hend⟩ := hooiLoop_run _ _ _ _ _ _ _ _ hloop
  -- the core after each sweep
  have hcore : ∀ j < k, ∃ gj, gaSatfSweep p inds vals shape att j (x j).1 = .ok ((x (j + 1)).1, gj) ∧
      (x (j + 1)).2 = some gj := by
    intro j hj
    have := onState_ok (hstep j hj).1
    rwa [Nat.zero_add] at this
  let g0 : Ten K := ⟨0, 0, 0, fun i => i.elim0⟩
  let G : ℕ → Ten K := fun j => ((x j).2).getD g0
  have hG : ∀ j < k, (x (j + 1)).2 = some (G (j + 1)) := by
    intro j hj
    obtain ⟨gj, _, h2⟩ := hcore j hj
    show (x (j + 1)).2 = some (((x (j + 1)).2).getD g0)
    rw [h2]
    rfl
  have hsw : SweepRun (gaSatfSweep p inds vals shape att) k (fun j => (x j).1) G := by
    intro j hj
    obtain ⟨gj, h1, h2⟩ := hcore j hj
    have : G (j + 1) = gj := by
      have := hG j hj
      rw [h2] at this
      exact (Option.some.inj this).symm
    rw [this]
    exact h1
  have hstop : ∀ j < k, gaSatfStop normOf tol force cb ((x (j + 1)).1, G (j + 1)) (y j) =
      .ok (b j, y (j + 1)) := by
    intro j hj
    have := (hstep j hj).2
    unfold stopOn at this
    rw [hG j hj] at this
    exact this
  refine ⟨k, fun j => (x j).1, G, hk, ?_, hsw, ?_, ?_, ?_, ?_, ?_⟩
  · show _ = Except.ok (x 0).1
    rw [hx0]
    exact hinit
  · show f = (x k).1
    rw [hxk]
  · have hg : (x k).2 = g := by rw [hxk]
    rw [← hg]
    by_cases hk0 : k = 0
    · rw [if_pos hk0, hk0, hx0]
    · rw [if_neg hk0]
      have := hG (k - 1) (by omega)
      rwa [Nat.sub_add_cancel (by omega)] at this
  · intro hf
    have hst : ∀ j < k, b j = false ∧ y (j + 1) = y j := by
      intro j hj
      have := hstop j hj
      unfold gaSatfStop at this
      rw [if_pos hf] at this
      have := Except.ok.inj this
      exact ⟨(congrArg Prod.fst this).symm, (congrArg Prod.snd this).symm⟩
    have hy : ∀ j ≤ k, y j = (0, cb0) := by
      intro j
      induction j with
      | zero => intro _; exact hy0
      | succ j ih => intro hj; rw [(hst j (by omega)).2, ih (by omega)]
    constructor
    · by_contra hne
      obtain ⟨h1, h2⟩ := hend (by omega)
      rw [(hst (k - 1) (by omega)).1] at h2
      cases h2
    · have := hy k (le_refl _)
      rw [hyk] at this
      exact congrArg Prod.snd this
  · intro hf hcb
    have hst : ∀ j < k, b j = !(coreGrewBool ((normOf (G (j + 1)) - (y j).1) /
        (normOf (G (j + 1)) + hooiEps)) tol) ∧ y (j + 1) = (normOf (G (j + 1)), (y j).2) := by
      intro j hj
      have := hstop j hj
      unfold gaSatfStop at this
      rw [if_neg (by rw [hf]; simp), hcb] at this
      have := Except.ok.inj this
      exact ⟨(congrArg Prod.fst this).symm, (congrArg Prod.snd this).symm⟩
    have hold : ∀ j < k, (y j).1 = if j + 1 = 1 then 0 else normOf (G (j + 1 - 1)) := by
      intro j hj
      cases j with
      | zero => rw [hy0]; rfl
      | succ j =>
        rw [(hst j (by omega)).2, if_neg (by omega)]
        rfl
    have hbiff : ∀ j < k, (b j = true ↔ (normOf (G (j + 1)) -
        (if j + 1 = 1 then 0 else normOf (G (j + 1 - 1)))) / (normOf (G (j + 1)) + 1 / 10 ^ 8) < tol) := by
      intro j hj
      rw [(hst j hj).1, hold j hj]
      generalize (if j + 1 = 1 then (0 : K) else normOf (G (j + 1 - 1))) = o
      unfold coreGrewBool hooiEps
      by_cases hlt : (normOf (G (j + 1)) - o) / (normOf (G (j + 1)) + 1 / 10 ^ 8) < tol
      · rw [if_pos hlt]
        exact ⟨fun _ => hlt, fun _ => rfl⟩
      · rw [if_neg hlt]
        exact ⟨fun h => absurd h (by decide), fun h => absurd h hlt⟩
    refine ⟨?_, ?_, ?_⟩
    · intro j h1 h2 hlt
      have := (hbiff (j - 1) (by omega)).2
      rw [Nat.sub_add_cancel h1] at this
      have hb := this hlt
      rw [hfalse (j - 1) (by omega)] at hb
      cases hb
    · intro hlt
      obtain ⟨h1, h2⟩ := hend hlt
      refine ⟨h1, ?_⟩
      have := (hbiff (k - 1) (by omega)).1 h2
      rwa [Nat.sub_add_cancel h1] at this
    · have hy : ∀ j ≤ k, (y j).2 = cb0 := by
        intro j
        induction j with
        | zero => intro _; rw [hy0]
        | succ j ih => intro hj; rw [(hst j (by omega)).2]; exact ih (by omega)
      have := hy k (le_refl _)
      rwa [hyk] at this
  · intro c hf hcb
    have hst : ∀ j < k, c (y j).2 (x (j + 1)).1 (G (j + 1)) = .ok (b j, (y (j + 1)).2) := by
      intro j hj
      have := hstop j hj
      unfold gaSatfStop at this
      rw [if_neg (by rw [hf]; simp), hcb] at this
      dsimp only at this
      rw [bind_ok_iff] at this
      obtain ⟨r, hr, h'⟩ := this
      have h' := Except.ok.inj h'
      have e1 : r.1 = b j := congrArg Prod.fst h'
      have e2 : r.2 = (y (j + 1)).2 := congrArg (fun q => q.2.2) h'
      rw [hr, ← e1, ← e2]
    refine ⟨fun j => (y j).2, fun j => b (j - 1), congrArg Prod.snd hy0, congrArg Prod.snd hyk,
      ?_, ?_, ?_⟩
    · intro j hj
      exact hst j hj
    · intro j h1 h2
      exact hfalse (j - 1) (by omega)
    · intro hlt
      exact hend hlt

/-- Runs with the growth test only (`rp_hooi`, `tucker2`). -/
theorem growth_run [Field K] [LinearOrder K] (normOf : Ten K → K) (tol : K)
    (sweep : ℕ → Fac K → PyM (Fac K × Ten K)) (nIter : ℕ) (f0 f : Fac K) (g : Option (Ten K)) (nrm : K)
    (h : hooiLoop (onState sweep) (stopOn fun s old => .ok (growthStop normOf tol s old)) nIter 0
      (f0, none) 0 = .ok ((f, g), nrm)) :
    ∃ (k : ℕ) (F : ℕ → Fac K) (G : ℕ → Ten K), k ≤ nIter ∧ F 0 = f0 ∧ SweepRun sweep k F G ∧
      f = F k ∧ (g = if k = 0 then none else some (G k)) ∧
      (∀ j, 1 ≤ j → j < k → ¬ (normOf (G j) - (if j = 1 then 0 else normOf (G (j - 1)))) /
        (normOf (G j) + 1 / 10 ^ 8) < tol) ∧
      (k < nIter → 1 ≤ k ∧ (normOf (G k) - (if k = 1 then 0 else normOf (G (k - 1)))) /
        (normOf (G k) + 1 / 10 ^ 8) < tol) := by
  obtain ⟨k, x, y, b, hk, hx0, hy0, hxk, hyk, hstep, hfalse, hend⟩ := hooiLoop_run _ _ _ _ _ _ _ _ h
  have hcore : ∀ j < k, ∃ gj, sweep j (x j).1 = .ok ((x (j + 1)).1, gj) ∧
      (x (j + 1)).2 = some gj := by
    intro j hj
    have := onState_ok (hstep j hj).1
    rwa [Nat.zero_add] at this
  let g0 : Ten K := ⟨0, 0, 0, fun i => i.elim0⟩
  let G : ℕ → Ten K := fun j => ((x j).2).getD g0
  have hG : ∀ j < k, (x (j + 1)).2 = some (G (j + 1)) := by
    intro j hj
    obtain ⟨gj, _, h2⟩ := hcore j hj
    show (x (j + 1)).2 = some (((x (j + 1)).2).getD g0)
    rw [h2]
    rfl
  have hsw : SweepRun sweep k (fun j => (x j).1) G := by
    intro j hj
    obtain ⟨gj, h1, h2⟩ := hcore j hj
    have : G (j + 1) = gj := by
      have := hG j hj
      rw [h2] at this
      exact (Option.some.inj this).symm
    rw [this]
    exact h1
  have hst : ∀ j < k, b j = !(coreGrewBool ((normOf (G (j + 1)) - (y j)) /
      (normOf (G (j + 1)) + hooiEps)) tol) ∧ y (j + 1) = normOf (G (j + 1)) := by
    intro j hj
    have := (hstep j hj).2
    unfold stopOn at this
    rw [hG j hj] at this
    have := Except.ok.inj this
    exact ⟨(congrArg Prod.fst this).symm, (congrArg Prod.snd this).symm⟩
  have hold : ∀ j < k, y j = if j + 1 = 1 then 0 else normOf (G (j + 1 - 1)) := by
    intro j hj
    cases j with
    | zero => rw [hy0]; rfl
    | succ j =>
      rw [(hst j (by omega)).2, if_neg (by omega)]
      rfl
  have hbiff : ∀ j < k, (b j = true ↔ (normOf (G (j + 1)) -
      (if j + 1 = 1 then 0 else normOf (G (j + 1 - 1)))) / (normOf (G (j + 1)) + 1 / 10 ^ 8) < tol) := by
    intro j hj
    rw [(hst j hj).1, hold j hj]
    generalize (if j + 1 = 1 then (0 : K) else normOf (G (j + 1 - 1))) = o
    unfold coreGrewBool hooiEps
    by_cases hlt : (normOf (G (j + 1)) - o) / (normOf (G (j + 1)) + 1 / 10 ^ 8) < tol
    · rw [if_pos hlt]
      exact ⟨fun _ => hlt, fun _ => rfl⟩
    · rw [if_neg hlt]
      exact ⟨fun h => absurd h (by decide), fun h => absurd h hlt⟩
  refine ⟨k, fun j => (x j).1, G, hk, congrArg Prod.fst hx0, hsw, (congrArg Prod.fst hxk).symm, ?_, ?_, ?_⟩
  · have hg : (x k).2 = g := by rw [hxk]
    rw [← hg]
    by_cases hk0 : k = 0
    · rw [if_pos hk0, hk0, hx0]
    · rw [if_neg hk0]
      have := hG (k - 1) (by omega)
      rwa [Nat.sub_add_cancel (by omega)] at this
  · intro j h1 h2 hlt
    have := (hbiff (j - 1) (by omega)).2
    rw [Nat.sub_add_cancel h1] at this
    have hb := this hlt
    rw [hfalse (j - 1) (by omega)] at hb
    cases hb
  · intro hlt
    obtain ⟨h1, h2⟩ := hend hlt
    refine ⟨h1, ?_⟩
    have := (hbiff (k - 1) (by omega)).1 h2
    rwa [Nat.sub_add_cancel h1] at this

/-- **C61** for `rp_hooi`. -/
theorem C61_rp_hooi_run [Field K] [LinearOrder K] (p : HooiPar K)
    (normOf : Ten K → K) (inds : List Ind3) (vals : List K) (shape : ℕ × ℕ × ℕ)
    (nIter : ℕ) (tol : K) (f : Fac K) (g : Option (Ten K))
    (h : rpHooi p normOf inds vals shape nIter tol = .ok (f, g)) :
    ∃ (k : ℕ) (F : ℕ → Fac K) (G : ℕ → Ten K), k ≤ nIter ∧
      F 0 = initFactors p.la p.initRng shape p.rank true ∧
      SweepRun (rpHooiSweep p inds vals shape) k F G ∧
      f = F k ∧ (g = if k = 0 then none else some (G k)) ∧
      (∀ j, 1 ≤ j → j < k → ¬ (normOf (G j) - (if j = 1 then 0 else normOf (G (j - 1)))) /
        (normOf (G j) + 1 / 10 ^ 8) < tol) ∧
      (k < nIter → 1 ≤ k ∧ (normOf (G k) - (if k = 1 then 0 else normOf (G (k - 1)))) /
        (normOf (G k) + 1 / 10 ^ 8) < tol) := by
  unfold rpHooi at h
  simp only [bind_ok_iff] at h
  obtain ⟨_, _, ⟨r, nrm⟩, h3, h⟩ := h
  cases h
  exact growth_run normOf tol _ nIter _ _ _ nrm h3

/-- **C61** for `tucker2`. -/
theorem C61_tucker2_run [Field K] [LinearOrder K] (p : HooiPar K)
    (normOf : Ten K → K) (inds : List Ind3) (vals : List K) (shape : ℕ × ℕ × ℕ) (im : ℕ)
    (nIter : ℕ) (tol : K) (a b : Mat K) (g : Option (Ten K))
    (h : tucker2 p normOf inds vals shape im nIter tol = .ok (a, b, g)) :
    ∃ (k : ℕ) (F : ℕ → Fac K) (G : ℕ → Ten K), k ≤ nIter ∧
      F 0 = setIdentity (initFactors p.la p.initRng shape p.rank true) p.rank im ∧
      SweepRun (tucker2Sweep p inds vals shape im) k F G ∧
      (a, b) = otherFactors (F k) im ∧ (g = if k = 0 then none else some (G k)) ∧
      (∀ j, 1 ≤ j → j < k → ¬ (normOf (G j) - (if j = 1 then 0 else normOf (G (j - 1)))) /
        (normOf (G j) + 1 / 10 ^ 8) < tol) ∧
      (k < nIter → 1 ≤ k ∧ (normOf (G k) - (if k = 1 then 0 else normOf (G (k - 1)))) /
        (normOf (G k) + 1 / 10 ^ 8) < tol) := by
  unfold tucker2 at h
  split at h
  · cases h
  simp only [bind_ok_iff] at h
  obtain ⟨_, _, ⟨r, nrm⟩, h3, h⟩ := h
  obtain ⟨k, F, G, h1, h2, h4, h5, h6, h7⟩ := growth_run normOf tol _ nIter _ _ _ nrm h3
  cases h
  exact ⟨k, F, G, h1, h2, h4, by rw [← h5], h6, h7⟩

/-! ### C78 the returned core -/

section
variable [CommRing K]

theorem Mat.exists_val (A : Mat K) {n : ℕ} (h : A.rows = n) :
    ∃ (m : ℕ) (V : Matrix (Fin n) (Fin m) K), A = ⟨n, m, V⟩ := by
  subst h
  exact ⟨A.cols, A.val, rfl⟩

theorem coreFunction_typed (par : Bool) {n0 n1 n2 r0 r1 r2 : ℕ} (es : List (Ent n0 n1 n2 K))
    (U : Matrix (Fin n0) (Fin r0) K) (V : Matrix (Fin n1) (Fin r1) K)
    (W : Matrix (Fin n2) (Fin r2) K) :
    coreFunction par (indsOf es) (valsOf es) ⟨_, _, U⟩ ⟨_, _, V⟩ ⟨_, _, W⟩ =
      .ok ⟨r0, r1, r2, coreTensor (cooTensor es) U V W⟩ := by
  unfold coreFunction
  cases par
  · exact (C54_construct_core es U V W).1
  · exact (C54_construct_core es U V W).2.1

/-- the factors and core produced by one sweep of `ga_satf` -/
theorem gaSatfSweep_core (p : HooiPar K) {n0 n1 n2 : ℕ} (es : List (Ent n0 n1 n2 K))
    (A : Matrix (Fin n2) (Fin n2) K) (i : ℕ) (f : Fac K) (r : Fac K × Ten K)
    (h : gaSatfSweep p (indsOf es) (valsOf es) (n0, n1, n2) ⟨n2, n2, A⟩ i f = .ok r) :
    ∃ (r0 r1 r2 : ℕ) (U : Matrix (Fin n0) (Fin r0) K) (V : Matrix (Fin n1) (Fin r1) K)
      (W : Matrix (Fin n2) (Fin r2) K), r.1 = ⟨⟨_, _, U⟩, ⟨_, _, V⟩, ⟨_, _, W⟩⟩ ∧
      r.2 = ⟨r0, r1, r2, coreTensor (cooTensor es) U V (A * W)⟩ := by
  obtain ⟨_, hr0, hr1, hr2⟩ := gaSatfSweep_rows h
  unfold gaSatfSweep at h
  simp only [bind_ok_iff] at h
  obtain ⟨aw, haw, f0, h0, f1, h1, ⟨a, b, c⟩, h2, aw', haw', core, hcore, h⟩ := h
  cases h
  obtain ⟨_, U, rfl⟩ := Mat.exists_val a hr0
  obtain ⟨_, V, rfl⟩ := Mat.exists_val b hr1
  obtain ⟨_, W, rfl⟩ := Mat.exists_val c hr2
  dsimp only at haw' hcore
  rw [Mat.dot_mk] at haw'
  cases haw'
  rw [coreFunction_typed] at hcore
  cases hcore
  exact ⟨_, _, _, U, V, W, rfl, rfl⟩

end

/-- **C78.** Whenever at least one sweep was performed, the core returned by `ga_satf` is the data
tensor multiplied by the returned user and item factors and by `attention · (position factor)`;
the factors have as many rows as the tensor has slices. -/
theorem C78_ga_satf_core [Field K] [LinearOrder K] {τ : Type} (p : HooiPar K)
    (normOf : Ten K → K) {n0 n1 n2 : ℕ} (es : List (Ent n0 n1 n2 K))
    (A : Matrix (Fin n2) (Fin n2) K) (nIter : ℕ) (hn : 1 ≤ nIter) (tol : K)
    (cb : Option (ExitCallback K τ)) (cb0 : τ) (init : Option (Fac K)) (force : Bool) (f : Fac K)
    (g : Option (Ten K)) (cbEnd : τ)
    (h : gaSatf p normOf (indsOf es) (valsOf es) (n0, n1, n2) ⟨n2, n2, A⟩ nIter tol cb cb0 init force =
      .ok ((f, g), cbEnd)) :
    ∃ (r0 r1 r2 : ℕ) (U : Matrix (Fin n0) (Fin r0) K) (V : Matrix (Fin n1) (Fin r1) K)
      (W : Matrix (Fin n2) (Fin r2) K), f = ⟨⟨_, _, U⟩, ⟨_, _, V⟩, ⟨_, _, W⟩⟩ ∧
      g = some ⟨r0, r1, r2, coreTensor (cooTensor es) U V (A * W)⟩ := by
  obtain ⟨f0, nrm, _, _, hloop⟩ := gaSatf_ok h
  obtain ⟨k, x, y, b, hk, hx0, hy0, hxk, hyk, hstep, hfalse, hend⟩ := hooiLoop_run _ _ _ _ _ _ _ _ hloop
  have hk1 : 1 ≤ k := by
    by_contra h0
    have := (hend (by omega)).1
    omega
  obtain ⟨gk, h1, h2⟩ := onState_ok (hstep (k - 1) (by omega)).1
  rw [Nat.sub_add_cancel hk1, hxk] at h1 h2
  obtain ⟨r0, r1, r2, U, V, W, e1, e2⟩ := gaSatfSweep_core p es A _ _ _ h1
  refine ⟨r0, r1, r2, U, V, W, e1, ?_⟩
  rw [← e2]
  exact h2

/-! ### C79 identity attention -/

section
variable [CommRing K]

theorem Mat.eye_dot {n : ℕ} {B : Mat K} (h : B.rows = n) : (Mat.eye n : Mat K).dot B = .ok B := by
  obtain ⟨_, V, rfl⟩ := Mat.exists_val B h
  unfold Mat.eye
  rw [Mat.dot_mk, Matrix.one_mul]

theorem Mat.eye_T (n : ℕ) : (Mat.eye n : Mat K).T = Mat.eye n := by
  unfold Mat.eye Mat.T
  rw [Matrix.transpose_one]

theorem modeStep_att_irrel (p : HooiPar K) (att att' : Option (Mat K)) (inds : List Ind3)
    (vals : List K) (shape : ℕ × ℕ × ℕ) (i mode : ℕ) (h : mode < 2) (f : Fac K) :
    modeStep p att inds vals shape i mode f = modeStep p att' inds vals shape i mode f := by
  match mode, h with
  | 0, _ => rfl
  | 1, _ => rfl

theorem modeStep_eye (p : HooiPar K) (inds : List Ind3) (vals : List K) (shape : ℕ × ℕ × ℕ)
    (i : ℕ) (f : Fac K) :
    modeStep p (some (Mat.eye shape.2.2)) inds vals shape i 2 f =
      modeStep p none inds vals shape i 2 f := by
  unfold modeStep
  cases hx : projected inds vals shape f.f0 f.f1 0 1 p.rank.1 p.rank.2.1 with
  | error e => rfl
  | ok x =>
    have hr : x.rows = shape.2.2 := (Option.some.inj (projected_rows hx)).symm
    simp only [except_bind_ok, attMul, Mat.eye_T, Mat.eye_dot hr]

theorem gaSatfSweep_eye (p : HooiPar K) (inds : List Ind3) (vals : List K) (shape : ℕ × ℕ × ℕ)
    (i : ℕ) (f : Fac K) (hf : f.f2.rows = shape.2.2) :
    gaSatfSweep p inds vals shape (Mat.eye shape.2.2) i f = rpHooiSweep p inds vals shape i f := by
  unfold gaSatfSweep rpHooiSweep
  rw [Mat.eye_dot hf, except_bind_ok]
  rw [modeStep_att_irrel p (some (Mat.eye shape.2.2)) none inds vals shape i 0 (by omega)]
  cases modeStep p none inds vals shape i 0 f with
  | error e => rfl
  | ok f1 =>
    simp only [except_bind_ok]
    rw [modeStep_att_irrel p (some (Mat.eye shape.2.2)) none inds vals shape i 1 (by omega)]
    cases modeStep p none inds vals shape i 1 f1 with
    | error e => rfl
    | ok f2 =>
      simp only [except_bind_ok, modeStep_eye]
      cases h3 : modeStep p none inds vals shape i 2 f2 with
      | error e => rfl
      | ok f3 =>
        have hr : f3.f2.rows = shape.2.2 := ((modeStep_rows h3).2.2 rfl).1
        simp only [except_bind_ok, Mat.eye_dot hr]

theorem rpHooiSweep_rows {p : HooiPar K} {inds : List Ind3} {vals : List K} {shape : ℕ × ℕ × ℕ}
    {i : ℕ} {f : Fac K} {r : Fac K × Ten K} (h : rpHooiSweep p inds vals shape i f = .ok r) :
    r.1.f0.rows = shape.1 ∧ r.1.f1.rows = shape.2.1 ∧ r.1.f2.rows = shape.2.2 := by
  unfold rpHooiSweep at h
  simp only [bind_ok_iff] at h
  obtain ⟨f0, h0, f1, h1, f2, h2, core, _, h⟩ := h
  cases h
  have m0 := (modeStep_rows h0).1 rfl
  have m1 := (modeStep_rows h1).2.1 rfl
  have m2 := (modeStep_rows h2).2.2 rfl
  refine ⟨?_, ?_, m2.1⟩
  · rw [m2.2.1, m1.2.1]; exact m0.1
  · rw [m2.2.2]; exact m1.1

end

theorem loop_eye [Field K] [LinearOrder K] {τ : Type} (p : HooiPar K) (normOf : Ten K → K)
    (inds : List Ind3) (vals : List K) (shape : ℕ × ℕ × ℕ) (tol : K) (cb0 : τ) (n i : ℕ)
    (f : Fac K) (g : Option (Ten K)) (hf : f.f2.rows = shape.2.2) (old : K) :
    hooiLoop (onState (gaSatfSweep p inds vals shape (Mat.eye shape.2.2)))
        (stopOn (gaSatfStop normOf tol false none)) n i (f, g) (old, cb0) =
      (hooiLoop (onState (rpHooiSweep p inds vals shape))
        (stopOn fun s old => .ok (growthStop normOf tol s old)) n i (f, g) old).map
          fun r => (r.1, (r.2, cb0)) := by
  induction n generalizing i f g old with
  | zero => rfl
  | succ n ih =>
    unfold hooiLoop onState
    dsimp only
    rw [gaSatfSweep_eye p inds vals shape i f hf]
    cases h : rpHooiSweep p inds vals shape i f with
    | error e => rfl
    | ok r =>
      have hr := (rpHooiSweep_rows h).2.2
      simp only [except_bind_ok, stopOn, gaSatfStop, pure, Except.pure]
      cases (growthStop normOf tol (r.1, r.2) old).1 with
      | true => rfl
      | false => exact ih (i + 1) r.1 (some r.2) hr _

/-- **C79.** With the identity as attention, without initial factors and callback, `ga_satf` behaves
exactly as `rp_hooi` (results and exceptions). -/
theorem C79_identity_attention [Field K] [LinearOrder K] {τ : Type} (p : HooiPar K)
    (normOf : Ten K → K) (inds : List Ind3) (vals : List K) (shape : ℕ × ℕ × ℕ) (nIter : ℕ) (tol : K)
    (cb0 : τ) :
    gaSatf p normOf inds vals shape (Mat.eye shape.2.2) nIter tol none cb0 none false =
      (rpHooi p normOf inds vals shape nIter tol).map fun r => (r, cb0) := by
  unfold gaSatf rpHooi
  cases checkParams (tri shape) (triZ p.rank) with
  | error e => rfl
  | ok _ =>
    simp only [except_bind_ok, placeInit]
    rw [loop_eye p normOf inds vals shape tol cb0 nIter 0 _ none
      (initFactor_rows p.la (p.initRng 2) shape.2.2 p.rank.2.2 true) 0]
    cases hooiLoop (onState (rpHooiSweep p inds vals shape))
      (stopOn fun s old => .ok (growthStop normOf tol s old)) nIter 0
      (initFactors p.la p.initRng shape p.rank true, none) 0 with
    | error e => rfl
    | ok r => rfl

end DynCF
