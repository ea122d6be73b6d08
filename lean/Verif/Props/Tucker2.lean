/-
Property theorem C145: what `tucker2` returns.
-/
import Verif.Props.TuckerError

set_option linter.unusedSectionVars false

namespace DynCF
open Matrix
variable {K : Type}

section
variable [Field K] [LinearOrder K]
variable {n0 n1 n2 : ℕ}

/-- One step of a mode without attention: it replaces the factor of this mode by one with orthonormal columns and
leaves the others. -/
theorem modeStep_plain (p : HooiPar K) (hqr : ∀ (m n : ℕ) (A : Matrix (Fin m) (Fin n) K), QrOk p.la A)
    (hsvd : ∀ (m n : ℕ) (A : Matrix (Fin m) (Fin n) K), SvdOk p.la A) (es : List (Ent n0 n1 n2 K)) (i : ℕ)
    (hv : p.rank.1 ≤ p.rank.2.1 * p.rank.2.2 ∧ p.rank.2.1 ≤ p.rank.1 * p.rank.2.2 ∧
      p.rank.2.2 ≤ p.rank.1 * p.rank.2.1)
    (hr : p.rank.1 ≤ n0 ∧ p.rank.2.1 ≤ n1 ∧ p.rank.2.2 ≤ n2)
    (U : Matrix (Fin n0) (Fin p.rank.1) K) (V : Matrix (Fin n1) (Fin p.rank.2.1) K)
    (W : Matrix (Fin n2) (Fin p.rank.2.2) K) :
    (∃ U', modeStep p none (indsOf es) (valsOf es) (n0, n1, n2) i 0 ⟨⟨_, _, U⟩, ⟨_, _, V⟩, ⟨_, _, W⟩⟩ =
      .ok ⟨⟨n0, p.rank.1, U'⟩, ⟨_, _, V⟩, ⟨_, _, W⟩⟩ ∧ U'.transpose * U' = 1) ∧
    (∃ V', modeStep p none (indsOf es) (valsOf es) (n0, n1, n2) i 1 ⟨⟨_, _, U⟩, ⟨_, _, V⟩, ⟨_, _, W⟩⟩ =
      .ok ⟨⟨_, _, U⟩, ⟨n1, p.rank.2.1, V'⟩, ⟨_, _, W⟩⟩ ∧ V'.transpose * V' = 1) ∧
    (∃ W', modeStep p none (indsOf es) (valsOf es) (n0, n1, n2) i 2 ⟨⟨_, _, U⟩, ⟨_, _, V⟩, ⟨_, _, W⟩⟩ =
      .ok ⟨⟨_, _, U⟩, ⟨_, _, V⟩, ⟨n2, p.rank.2.2, W'⟩⟩ ∧ W'.transpose * W' = 1) := by
  have key : ∀ (mode r : ℕ) (n c : ℕ) (M : Matrix (Fin n) (Fin c) K), r ≤ n → r ≤ c →
      ∃ X : Matrix (Fin n) (Fin r) K, leadingCols p i mode r ⟨n, c, M⟩ = ⟨n, r, X⟩ ∧ X.transpose * X = 1 := by
    intro mode r n c M h1 h2
    have ho := leadingCols_orth p hqr hsvd i mode r ⟨n, c, M⟩
    obtain ⟨X, hX⟩ := Mat.eq_mk (leadingCols p i mode r ⟨n, c, M⟩) (leadingCols_shape p i mode r ⟨n, c, M⟩).1
      (m := r) (by rw [(leadingCols_shape p i mode r ⟨n, c, M⟩).2]; dsimp only; omega)
    rw [hX] at ho
    exact ⟨X, hX, ho⟩
  refine ⟨?_, ?_, ?_⟩
  · unfold modeStep projected
    dsimp only [tri]
    have := ((C55_tensordot2 es).1 V W).1
    erw [this]
    rw [except_bind_ok]
    obtain ⟨M, hM⟩ := reshapeTo_mk (fun x a b => ∑ j, ∑ k, cooTensor es x j k * (V j a * W k b))
      (p.rank.2.1 * p.rank.2.2) rfl
    rw [hM, except_bind_ok]
    obtain ⟨X, hX, ho⟩ := key 0 p.rank.1 _ _ M hr.1 hv.1
    rw [hX]
    exact ⟨X, rfl, ho⟩
  · unfold modeStep projected
    dsimp only [tri]
    have := ((C55_tensordot2 es).2.1 U W).1
    erw [this]
    rw [except_bind_ok]
    obtain ⟨M, hM⟩ := reshapeTo_mk (fun x a b => ∑ i, ∑ k, cooTensor es i x k * (U i a * W k b))
      (p.rank.1 * p.rank.2.2) rfl
    rw [hM, except_bind_ok]
    obtain ⟨X, hX, ho⟩ := key 1 p.rank.2.1 _ _ M hr.2.1 hv.2.1
    rw [hX]
    exact ⟨X, rfl, ho⟩
  · unfold modeStep projected
    dsimp only [tri]
    have := ((C55_tensordot2 es).2.2 U V).1
    erw [this]
    rw [except_bind_ok]
    obtain ⟨M, hM⟩ := reshapeTo_mk (fun x a b => ∑ i, ∑ j, cooTensor es i j x * (U i a * V j b))
      (p.rank.1 * p.rank.2.1) rfl
    rw [hM, except_bind_ok]
    unfold attMul
    dsimp only
    rw [except_bind_ok]
    obtain ⟨X, hX, ho⟩ := key 2 p.rank.2.2 _ _ M hr.2.2 hv.2.2
    rw [hX]
    exact ⟨X, rfl, ho⟩

/-- The factors of a run of `tucker2`: typed, orthonormal, the identity in the identity mode. -/
def T2Fac (p : HooiPar K) (n0 n1 n2 im : ℕ) (f : Fac K) (U : Matrix (Fin n0) (Fin p.rank.1) K)
    (V : Matrix (Fin n1) (Fin p.rank.2.1) K) (W : Matrix (Fin n2) (Fin p.rank.2.2) K) : Prop :=
  f = ⟨⟨_, _, U⟩, ⟨_, _, V⟩, ⟨_, _, W⟩⟩ ∧ U.transpose * U = 1 ∧ V.transpose * V = 1 ∧ W.transpose * W = 1 ∧
    (im = 0 → f.f0 = Mat.eye n0) ∧ (im = 1 → f.f1 = Mat.eye n1) ∧ (im = 2 → f.f2 = Mat.eye n2)

theorem tucker2Sweep_run (p : HooiPar K) (hqr : ∀ (m n : ℕ) (A : Matrix (Fin m) (Fin n) K), QrOk p.la A)
    (hsvd : ∀ (m n : ℕ) (A : Matrix (Fin m) (Fin n) K), SvdOk p.la A) (es : List (Ent n0 n1 n2 K)) (i im : ℕ)
    (him : im ≤ 2)
    (hv : p.rank.1 ≤ p.rank.2.1 * p.rank.2.2 ∧ p.rank.2.1 ≤ p.rank.1 * p.rank.2.2 ∧
      p.rank.2.2 ≤ p.rank.1 * p.rank.2.1)
    (hr : p.rank.1 ≤ n0 ∧ p.rank.2.1 ≤ n1 ∧ p.rank.2.2 ≤ n2) (f : Fac K)
    (hf : ∃ U V W, T2Fac p n0 n1 n2 im f U V W) :
    ∃ f' U V W, T2Fac p n0 n1 n2 im f' U V W ∧
      tucker2Sweep p (indsOf es) (valsOf es) (n0, n1, n2) im i f =
        .ok (f', ⟨_, _, _, coreTensor (cooTensor es) U V W⟩) := by
  obtain ⟨U, V, W, rfl, hU, hV, hW, h0, h1, h2⟩ := hf
  unfold tucker2Sweep
  obtain rfl | rfl | rfl : im = 0 ∨ im = 1 ∨ im = 2 := by omega
  · rw [show ([0, 1, 2].filter fun m => decide (m ≠ 0)) = [1, 2] from rfl, List.foldlM_cons]
    obtain ⟨V', e1, o1⟩ := (modeStep_plain p hqr hsvd es i hv hr U V W).2.1
    obtain ⟨W', e2, o2⟩ := (modeStep_plain p hqr hsvd es i hv hr U V' W).2.2
    rw [e1, except_bind_ok, List.foldlM_cons, e2, except_bind_ok, List.foldlM_nil, pure_bind]
    refine ⟨_, U, V', W', ⟨rfl, hU, o1, o2, h0, by omega, by omega⟩, ?_⟩
    show (coreFunction p.parallel (indsOf es) (valsOf es) ⟨_, _, U⟩ ⟨_, _, V'⟩ ⟨_, _, W'⟩ >>= _) = _
    rw [coreFunction_typed]
    rfl
  · rw [show ([0, 1, 2].filter fun m => decide (m ≠ 1)) = [0, 2] from rfl, List.foldlM_cons]
    obtain ⟨U', e1, o1⟩ := (modeStep_plain p hqr hsvd es i hv hr U V W).1
    obtain ⟨W', e2, o2⟩ := (modeStep_plain p hqr hsvd es i hv hr U' V W).2.2
    rw [e1, except_bind_ok, List.foldlM_cons, e2, except_bind_ok, List.foldlM_nil, pure_bind]
    refine ⟨_, U', V, W', ⟨rfl, o1, hV, o2, by omega, h1, by omega⟩, ?_⟩
    show (coreFunction p.parallel (indsOf es) (valsOf es) ⟨_, _, U'⟩ ⟨_, _, V⟩ ⟨_, _, W'⟩ >>= _) = _
    rw [coreFunction_typed]
    rfl
  · rw [show ([0, 1, 2].filter fun m => decide (m ≠ 2)) = [0, 1] from rfl, List.foldlM_cons]
    obtain ⟨U', e1, o1⟩ := (modeStep_plain p hqr hsvd es i hv hr U V W).1
    obtain ⟨V', e2, o2⟩ := (modeStep_plain p hqr hsvd es i hv hr U' V W).2.1
    rw [e1, except_bind_ok, List.foldlM_cons, e2, except_bind_ok, List.foldlM_nil, pure_bind]
    refine ⟨_, U', V', W, ⟨rfl, o1, o2, hW, by omega, by omega, h2⟩, ?_⟩
    show (coreFunction p.parallel (indsOf es) (valsOf es) ⟨_, _, U'⟩ ⟨_, _, V'⟩ ⟨_, _, W⟩ >>= _) = _
    rw [coreFunction_typed]
    rfl

/-- a loop that makes at least one step ends in a state reached by a step -/
theorem hooiLoop_last {σ τ : Type} (sweep : ℕ → σ → PyM σ) (stop : σ → τ → PyM (Bool × τ))
    (P Q : σ → Prop) (hP : ∀ i s, P s → ∃ s', sweep i s = .ok s' ∧ P s' ∧ Q s')
    (hQ : ∀ s t, Q s → ∃ r, stop s t = .ok r) (n i : ℕ) (hn : 1 ≤ n) (s : σ) (t : τ) (hs : P s) :
    ∃ s' t', hooiLoop sweep stop n i s t = .ok (s', t') ∧ Q s' := by
  induction n generalizing i s t with
  | zero => omega
  | succ n ih =>
    obtain ⟨s1, h1, h2, h3⟩ := hP i s hs
    obtain ⟨r, hr⟩ := hQ s1 t h3
    unfold hooiLoop
    rw [h1, except_bind_ok, hr, except_bind_ok]
    split
    · exact ⟨s1, r.2, rfl, h3⟩
    · rcases Nat.eq_zero_or_pos n with rfl | hn'
      · exact ⟨s1, r.2, rfl, h3⟩
      · exact ih (i + 1) hn' s1 r.2 h2

theorem eye_of_rank {n r : ℕ} (h : r = n) :
    ∃ X : Matrix (Fin n) (Fin r) K, (Mat.eye r : Mat K) = ⟨n, r, X⟩ ∧ X.transpose * X = 1 ∧ (Mat.eye r : Mat K) = Mat.eye n := by
  subst h
  exact ⟨1, rfl, by simp, rfl⟩

theorem tucker2_typed (p : HooiPar K) (hqr : ∀ (m n : ℕ) (A : Matrix (Fin m) (Fin n) K), QrOk p.la A)
    (hsvd : ∀ (m n : ℕ) (A : Matrix (Fin m) (Fin n) K), SvdOk p.la A) (normOf : Ten K → K)
    (es : List (Ent n0 n1 n2 K)) (im : ℕ) (him : im ≤ 2)
    (hv : p.rank.1 ≤ p.rank.2.1 * p.rank.2.2 ∧ p.rank.2.1 ≤ p.rank.1 * p.rank.2.2 ∧
      p.rank.2.2 ≤ p.rank.1 * p.rank.2.1)
    (hr : p.rank.1 ≤ n0 ∧ p.rank.2.1 ≤ n1 ∧ p.rank.2.2 ≤ n2)
    (hid : (im = 0 → p.rank.1 = n0) ∧ (im = 1 → p.rank.2.1 = n1) ∧ (im = 2 → p.rank.2.2 = n2))
    (nIter : ℕ) (hn : 1 ≤ nIter) (tol : K) :
    ∃ f U V W, T2Fac p n0 n1 n2 im f U V W ∧
      tucker2 p normOf (indsOf es) (valsOf es) (n0, n1, n2) im nIter tol =
        .ok ((otherFactors f im).1, (otherFactors f im).2, some ⟨_, _, _, coreTensor (cooTensor es) U V W⟩) := by
  unfold tucker2
  rw [if_neg (by omega), (checkParams_ok_iff (n0, n1, n2) p.rank).2 hv, except_bind_ok]
  dsimp only
  obtain ⟨U0, hU0⟩ := Mat.eq_mk (initFactor p.la (p.initRng 0) n0 p.rank.1 true) (n := n0) (m := p.rank.1) rfl
    (show min n0 p.rank.1 = p.rank.1 by omega)
  obtain ⟨V0, hV0⟩ := Mat.eq_mk (initFactor p.la (p.initRng 1) n1 p.rank.2.1 true) (n := n1) (m := p.rank.2.1) rfl
    (show min n1 p.rank.2.1 = p.rank.2.1 by omega)
  obtain ⟨W0, hW0⟩ := Mat.eq_mk (initFactor p.la (p.initRng 2) n2 p.rank.2.2 true) (n := n2) (m := p.rank.2.2) rfl
    (show min n2 p.rank.2.2 = p.rank.2.2 by omega)
  have hi : initFactors p.la p.initRng (n0, n1, n2) p.rank true = ⟨⟨_, _, U0⟩, ⟨_, _, V0⟩, ⟨_, _, W0⟩⟩ := by
    unfold initFactors
    dsimp only
    rw [hU0, hV0, hW0]
  have ho := initFactors_orth p.la hqr p.initRng (n0, n1, n2) p.rank
  rw [hi] at ho ⊢
  obtain ⟨o0, o1, o2⟩ := ho
  have hstart : ∃ U V W, T2Fac p n0 n1 n2 im
      (setIdentity ⟨⟨_, _, U0⟩, ⟨_, _, V0⟩, ⟨_, _, W0⟩⟩ p.rank im) U V W := by
    obtain rfl | rfl | rfl : im = 0 ∨ im = 1 ∨ im = 2 := by omega
    · obtain ⟨X, e1, e2, e3⟩ := eye_of_rank (K := K) (hid.1 rfl)
      exact ⟨X, V0, W0, congrArg (fun m => (⟨m, _, _⟩ : Fac K)) e1, e2, o1, o2, fun _ => e3, by omega, by omega⟩
    · obtain ⟨X, e1, e2, e3⟩ := eye_of_rank (K := K) (hid.2.1 rfl)
      exact ⟨U0, X, W0, congrArg (fun m => (⟨_, m, _⟩ : Fac K)) e1, o0, e2, o2, by omega, fun _ => e3, by omega⟩
    · obtain ⟨X, e1, e2, e3⟩ := eye_of_rank (K := K) (hid.2.2 rfl)
      exact ⟨U0, V0, X, congrArg (fun m => (⟨_, _, m⟩ : Fac K)) e1, o0, o1, e2, by omega, by omega, fun _ => e3⟩
  obtain ⟨⟨f, g⟩, t, e, ⟨U, V, W, h1, h2⟩⟩ := hooiLoop_last
    (onState (tucker2Sweep p (indsOf es) (valsOf es) (n0, n1, n2) im))
    (stopOn fun s old => .ok (growthStop normOf tol s old))
    (fun s => ∃ U V W, T2Fac p n0 n1 n2 im s.1 U V W)
    (fun s => ∃ U V W, T2Fac p n0 n1 n2 im s.1 U V W ∧ s.2 = some ⟨_, _, _, coreTensor (cooTensor es) U V W⟩)
    (by
      intro i s hs
      obtain ⟨f', U, V, W, h1, h2⟩ := tucker2Sweep_run p hqr hsvd es i im him hv hr s.1 hs
      refine ⟨(f', some _), ?_, ⟨U, V, W, h1⟩, U, V, W, h1, rfl⟩
      unfold onState
      rw [h2, except_bind_ok]
      rfl)
    (by
      rintro ⟨f, g⟩ t ⟨U, V, W, _, h⟩
      dsimp only at h
      subst h
      exact ⟨_, rfl⟩)
    nIter 0 hn (setIdentity ⟨⟨_, _, U0⟩, ⟨_, _, V0⟩, ⟨_, _, W0⟩⟩ p.rank im, none) 0 hstart
  rw [e, except_bind_ok]
  dsimp only at h1 h2 ⊢
  subst h2
  exact ⟨f, U, V, W, h1, rfl⟩

/-- **C145** (what `tucker2` returns). With correct QR and SVD routines, a rank that passes `check_params` and
does not exceed the shape, the full rank in the identity mode and at least one step: `tucker2` succeeds and returns
the factors of the two other modes, each with orthonormal columns, and a core that is the data tensor multiplied by
these two factors in their own modes and left alone in the identity mode. -/
theorem C145_tucker2 (p : HooiPar K) (hqr : ∀ (m n : ℕ) (A : Matrix (Fin m) (Fin n) K), QrOk p.la A)
    (hsvd : ∀ (m n : ℕ) (A : Matrix (Fin m) (Fin n) K), SvdOk p.la A) (normOf : Ten K → K)
    (es : List (Ent n0 n1 n2 K)) (r0 r1 r2 : ℕ) (hp : p.rank = (r0, r1, r2))
    (hv : r0 ≤ r1 * r2 ∧ r1 ≤ r0 * r2 ∧ r2 ≤ r0 * r1) (hr : r0 ≤ n0 ∧ r1 ≤ n1 ∧ r2 ≤ n2)
    (nIter : ℕ) (hn : 1 ≤ nIter) (tol : K) :
    (r0 = n0 → ∃ (V : Matrix (Fin n1) (Fin r1) K) (W : Matrix (Fin n2) (Fin r2) K) (c : T3 n0 r1 r2 K),
      tucker2 p normOf (indsOf es) (valsOf es) (n0, n1, n2) 0 nIter tol =
        .ok (⟨n1, r1, V⟩, ⟨n2, r2, W⟩, some ⟨n0, r1, r2, c⟩) ∧
      V.transpose * V = 1 ∧ W.transpose * W = 1 ∧
      ∀ i b d, c i b d = ∑ j, ∑ k, cooTensor es i j k * V j b * W k d) ∧
    (r1 = n1 → ∃ (U : Matrix (Fin n0) (Fin r0) K) (W : Matrix (Fin n2) (Fin r2) K) (c : T3 r0 n1 r2 K),
      tucker2 p normOf (indsOf es) (valsOf es) (n0, n1, n2) 1 nIter tol =
        .ok (⟨n0, r0, U⟩, ⟨n2, r2, W⟩, some ⟨r0, n1, r2, c⟩) ∧
      U.transpose * U = 1 ∧ W.transpose * W = 1 ∧
      ∀ a j d, c a j d = ∑ i, ∑ k, cooTensor es i j k * U i a * W k d) ∧
    (r2 = n2 → ∃ (U : Matrix (Fin n0) (Fin r0) K) (V : Matrix (Fin n1) (Fin r1) K) (c : T3 r0 r1 n2 K),
      tucker2 p normOf (indsOf es) (valsOf es) (n0, n1, n2) 2 nIter tol =
        .ok (⟨n0, r0, U⟩, ⟨n1, r1, V⟩, some ⟨r0, r1, n2, c⟩) ∧
      U.transpose * U = 1 ∧ V.transpose * V = 1 ∧
      ∀ a b k, c a b k = ∑ i, ∑ j, cooTensor es i j k * U i a * V j b) := by
  obtain ⟨la, g1, g2, rk, npw, os, par⟩ := p
  dsimp only at hp hqr hsvd
  subst hp
  refine ⟨?_, ?_, ?_⟩
  · rintro rfl
    obtain ⟨f, U, V, W, ⟨rfl, oU, oV, oW, hU, -, -⟩, e⟩ := tucker2_typed ⟨la, g1, g2, (r0, r1, r2), npw, os, par⟩ hqr hsvd normOf es 0 (by omega) hv hr
      ⟨fun _ => rfl, by omega, by omega⟩ nIter hn tol
    have hU1 : U = 1 := by
      have := hU rfl
      unfold Mat.eye at this
      dsimp only at this U
      injection this with _ _ this
    subst hU1
    refine ⟨V, W, _, e, oV, oW, fun i b d => ?_⟩
    simp only [coreTensor, Matrix.one_apply, mul_ite, ite_mul, mul_one, mul_zero, zero_mul]
    rw [Finset.sum_eq_single i]
    · simp
    · intro x _ hx
      simp [hx]
    · simp
  · rintro rfl
    obtain ⟨f, U, V, W, ⟨rfl, oU, oV, oW, -, hV, -⟩, e⟩ := tucker2_typed ⟨la, g1, g2, (r0, r1, r2), npw, os, par⟩ hqr hsvd normOf es 1 (by omega) hv hr
      ⟨by omega, fun _ => rfl, by omega⟩ nIter hn tol
    have hV1 : V = 1 := by
      have := hV rfl
      unfold Mat.eye at this
      dsimp only at this V
      injection this with _ _ this
    subst hV1
    refine ⟨U, W, _, e, oU, oW, fun a j d => ?_⟩
    refine Finset.sum_congr rfl fun i _ => ?_
    simp only [Matrix.one_apply, mul_ite, ite_mul, mul_one, mul_zero, zero_mul]
    rw [Finset.sum_eq_single j]
    · simp
    · intro x _ hx
      simp [hx]
    · simp
  · rintro rfl
    obtain ⟨f, U, V, W, ⟨rfl, oU, oV, oW, -, -, hW⟩, e⟩ := tucker2_typed ⟨la, g1, g2, (r0, r1, r2), npw, os, par⟩ hqr hsvd normOf es 2 (by omega) hv hr
      ⟨by omega, by omega, fun _ => rfl⟩ nIter hn tol
    have hW1 : W = 1 := by
      have := hW rfl
      unfold Mat.eye at this
      dsimp only at this W
      injection this with _ _ this
    subst hW1
    refine ⟨U, V, _, e, oU, oV, fun a b k => ?_⟩
    refine Finset.sum_congr rfl fun i _ => Finset.sum_congr rfl fun j _ => ?_
    simp only [Matrix.one_apply, mul_ite, mul_one, mul_zero]
    simp

end

section
variable {n0 n1 n2 r0 r1 r2 : ℕ}

/-- **C145** (error of the approximation, first mode as the identity mode; the other modes are the same after a
renaming of the axes). For orthonormal factors and the core of `C145_tucker2`, the squared distance between the
data and its reconstruction is the squared norm of the data minus the squared norm of the core. -/
theorem C145_error0 (t : T3 n0 n1 n2 ℝ) (V : Matrix (Fin n1) (Fin r1) ℝ) (W : Matrix (Fin n2) (Fin r2) ℝ)
    (c : T3 n0 r1 r2 ℝ) (hV : V.transpose * V = 1) (hW : W.transpose * W = 1)
    (hc : ∀ i b d, c i b d = ∑ j, ∑ k, t i j k * V j b * W k d) :
    ∑ i, ∑ j, ∑ k, (t i j k - ∑ b, ∑ d, c i b d * V j b * W k d) ^ 2 =
      ∑ i, ∑ j, ∑ k, t i j k ^ 2 - ∑ i, ∑ b, ∑ d, c i b d ^ 2 := by
  have e := tenSq_tucker_core t (U := (1 : Matrix (Fin n0) (Fin n0) ℝ)) (by simp) hV hW
  have hcore : coreTensor t 1 V W = c := by
    funext i b d
    rw [hc]
    simp only [coreTensor, Matrix.one_apply, mul_ite, ite_mul, mul_one, mul_zero, zero_mul]
    rw [Finset.sum_eq_single i]
    · simp
    · intro x _ hx
      simp [hx]
    · simp
  rw [hcore] at e
  rw [show (∑ i, ∑ j, ∑ k, t i j k ^ 2 - ∑ i, ∑ b, ∑ d, c i b d ^ 2) = tenSq t - tenSq c from rfl, ← e]
  refine Finset.sum_congr rfl fun i _ => Finset.sum_congr rfl fun j _ => Finset.sum_congr rfl fun k _ => ?_
  congr 1
  show _ = t i j k - tuckerTensor 1 V W c i j k
  congr 1
  simp only [tuckerTensor, Matrix.one_apply, mul_ite, ite_mul, mul_one, mul_zero, zero_mul]
  rw [Finset.sum_eq_single i]
  · simp
  · intro x _ hx
    simp [Ne.symm hx]
  · simp

theorem C145_error1 (t : T3 n0 n1 n2 ℝ) (U : Matrix (Fin n0) (Fin r0) ℝ) (W : Matrix (Fin n2) (Fin r2) ℝ)
    (c : T3 r0 n1 r2 ℝ) (hU : U.transpose * U = 1) (hW : W.transpose * W = 1)
    (hc : ∀ a j d, c a j d = ∑ i, ∑ k, t i j k * U i a * W k d) :
    ∑ i, ∑ j, ∑ k, (t i j k - ∑ a, ∑ d, c a j d * U i a * W k d) ^ 2 =
      ∑ i, ∑ j, ∑ k, t i j k ^ 2 - ∑ a, ∑ j, ∑ d, c a j d ^ 2 := by
  have := C145_error0 (fun j i k => t i j k) U W (fun j a d => c a j d) hU hW (fun j a d => hc a j d)
  rw [Finset.sum_comm, Finset.sum_comm (f := fun i j => ∑ k, t i j k ^ 2),
    Finset.sum_comm (f := fun a j => ∑ d, c a j d ^ 2)]
  exact this

theorem C145_error2 (t : T3 n0 n1 n2 ℝ) (U : Matrix (Fin n0) (Fin r0) ℝ) (V : Matrix (Fin n1) (Fin r1) ℝ)
    (c : T3 r0 r1 n2 ℝ) (hU : U.transpose * U = 1) (hV : V.transpose * V = 1)
    (hc : ∀ a b k, c a b k = ∑ i, ∑ j, t i j k * U i a * V j b) :
    ∑ i, ∑ j, ∑ k, (t i j k - ∑ a, ∑ b, c a b k * U i a * V j b) ^ 2 =
      ∑ i, ∑ j, ∑ k, t i j k ^ 2 - ∑ a, ∑ b, ∑ k, c a b k ^ 2 := by
  have := C145_error0 (fun k i j => t i j k) U V (fun k a b => c a b k) hU hV (fun k a b => hc a b k)
  have sw : ∀ {x y z : ℕ} (f : Fin x → Fin y → Fin z → ℝ), ∑ i, ∑ j, ∑ k, f i j k = ∑ k, ∑ i, ∑ j, f i j k := by
    intro x y z f
    rw [Finset.sum_comm (s := (Finset.univ : Finset (Fin z)))]
    exact Finset.sum_congr rfl fun i _ => Finset.sum_comm
  rw [sw (f := fun i j k => (t i j k - ∑ a, ∑ b, c a b k * U i a * V j b) ^ 2), sw (f := fun i j k => t i j k ^ 2), sw (f := fun a b k => c a b k ^ 2)]
  exact this

/-- a 3 × 2 × 2 tensor with the items mode left alone, over the reals with exact routines: the call succeeds and
the core is no larger than the data -/
example : ∃ (U : Matrix (Fin 3) (Fin 2) ℝ) (W : Matrix (Fin 2) (Fin 1) ℝ) (c : T3 2 2 1 ℝ),
    tucker2 exParR (fun _ => 1) (indsOf exEsR) (valsOf exEsR) (3, 2, 2) 1 4 (1 / 10) =
      .ok (⟨3, 2, U⟩, ⟨2, 1, W⟩, some ⟨2, 2, 1, c⟩) ∧ U.transpose * U = 1 ∧ ∑ a, ∑ j, ∑ d, c a j d ^ 2 ≤ 26 := by
  obtain ⟨U, W, c, h, hU, hW, hc⟩ := (C145_tucker2 exParR (fun _ _ => realLA_qr) (fun _ _ => realLA_svd)
    (fun _ => 1) exEsR 2 2 1 rfl (by decide) (by decide) 4 (by omega) (1 / 10)).2.1 rfl
  refine ⟨U, W, c, h, hU, ?_⟩
  have e := C145_error1 (cooTensor exEsR) U W c hU hW hc
  have e2 : (∑ i : Fin 3, ∑ j : Fin 2, ∑ k : Fin 2, cooTensor exEsR i j k ^ 2) = 26 := by
    simp [Fin.sum_univ_succ, cooTensor, exEsR]
    norm_num
  have e3 : 0 ≤ ∑ i, ∑ j, ∑ k, (cooTensor exEsR i j k - ∑ a, ∑ d, c a j d * U i a * W k d) ^ 2 := by positivity
  linarith

end

end DynCF
