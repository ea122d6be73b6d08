/-
Property theorems C80 (orthonormal factors) and C81 (shapes, success and failure) of the alternating
factorisations.
-/
import Verif.Props.Hooi
import Verif.Props.RandomSvd

set_option linter.unusedSectionVars false

namespace DynCF
open Matrix
variable {K : Type}

/-! ### C80 -/

/-- The columns are orthonormal. -/
def OrthCols [CommRing K] (A : Mat K) : Prop := A.val.transpose * A.val = 1

theorem orthCols_rev [CommRing K] {A : Mat K} (h : OrthCols A) : OrthCols A.revCols :=
  castLE_cols_orth A.val h Fin.rev Fin.rev_injective _ fun _ _ => rfl

theorem leadingCols_orth [CommRing K] [LE K] (p : HooiPar K)
    (hqr : ∀ (m n : ℕ) (A : Matrix (Fin m) (Fin n) K), QrOk p.la A)
    (hsvd : ∀ (m n : ℕ) (A : Matrix (Fin m) (Fin n) K), SvdOk p.la A) (i mode rank : ℕ) (x : Mat K) :
    OrthCols (leadingCols p i mode rank x) :=
  orthCols_rev (C47_orthonormal p.la (p.rsvdRng i mode) x.val rank p.nPower p.os
    ⟨hqr _ _ _, hsvd _ _ _⟩).1

/-- All three factors have orthonormal columns. -/
def Fac.Orth [CommRing K] (f : Fac K) : Prop := OrthCols f.f0 ∧ OrthCols f.f1 ∧ OrthCols f.f2

theorem modeStep_orth [CommRing K] [LE K] {p : HooiPar K}
    (hqr : ∀ (m n : ℕ) (A : Matrix (Fin m) (Fin n) K), QrOk p.la A)
    (hsvd : ∀ (m n : ℕ) (A : Matrix (Fin m) (Fin n) K), SvdOk p.la A) {att : Option (Mat K)}
    {inds : List Ind3} {vals : List K}
    {shape : ℕ × ℕ × ℕ} {i mode : ℕ} {f f' : Fac K}
    (h : modeStep p att inds vals shape i mode f = .ok f') :
    (mode = 0 → OrthCols f'.f0 ∧ f'.f1 = f.f1 ∧ f'.f2 = f.f2) ∧
    (mode = 1 → OrthCols f'.f1 ∧ f'.f0 = f.f0 ∧ f'.f2 = f.f2) ∧
    (mode = 2 → OrthCols f'.f2 ∧ f'.f0 = f.f0 ∧ f'.f1 = f.f1) := by
  unfold modeStep at h
  split at h
  · simp only [bind_ok_iff] at h
    obtain ⟨x, _, h⟩ := h
    cases h
    exact ⟨fun _ => ⟨leadingCols_orth p hqr hsvd _ _ _ _, rfl, rfl⟩, by omega, by omega⟩
  · simp only [bind_ok_iff] at h
    obtain ⟨x, _, h⟩ := h
    cases h
    exact ⟨by omega, fun _ => ⟨leadingCols_orth p hqr hsvd _ _ _ _, rfl, rfl⟩, by omega⟩
  · rename_i h0 h1
    simp only [bind_ok_iff] at h
    obtain ⟨x, _, y, _, h⟩ := h
    cases h
    exact ⟨fun h => absurd h h0, fun h => absurd h h1,
      fun _ => ⟨leadingCols_orth p hqr hsvd _ _ _ _, rfl, rfl⟩⟩

theorem gaSatfSweep_orth [CommRing K] [LE K] {p : HooiPar K}
    (hqr : ∀ (m n : ℕ) (A : Matrix (Fin m) (Fin n) K), QrOk p.la A)
    (hsvd : ∀ (m n : ℕ) (A : Matrix (Fin m) (Fin n) K), SvdOk p.la A) {inds : List Ind3}
    {vals : List K} {shape : ℕ × ℕ × ℕ}
    {att : Mat K} {i : ℕ} {f : Fac K} {r : Fac K × Ten K}
    (h : gaSatfSweep p inds vals shape att i f = .ok r) : r.1.Orth := by
  unfold gaSatfSweep at h
  simp only [bind_ok_iff] at h
  obtain ⟨aw, haw, f0, h0, f1, h1, f2, h2, aw', haw', core, _, h⟩ := h
  cases h
  have m0 := (modeStep_orth hqr hsvd h0).1 rfl
  have m1 := (modeStep_orth hqr hsvd h1).2.1 rfl
  have m2 := (modeStep_orth hqr hsvd h2).2.2 rfl
  refine ⟨?_, ?_, m2.1⟩
  · rw [m2.2.1, m1.2.1]; exact m0.1
  · rw [m2.2.2]; exact m1.1

theorem initFactors_orth [CommRing K] (la : LinAlg K)
    (hqr : ∀ (m n : ℕ) (A : Matrix (Fin m) (Fin n) K), QrOk la A) (rng : ℕ → Rng K)
    (shape rank : ℕ × ℕ × ℕ) : (initFactors la rng shape rank true).Orth :=
  ⟨(hqr _ _ _).2, (hqr _ _ _).2, (hqr _ _ _).2⟩

/-- **C80.** If the linear algebra routines meet their contracts, the factors returned by `ga_satf`
have orthonormal columns — unless initial factors were given and no sweep was made. -/
theorem C80_ga_satf_orthonormal [Field K] [LinearOrder K] {τ : Type} (p : HooiPar K)
    (hqr : ∀ (m n : ℕ) (A : Matrix (Fin m) (Fin n) K), QrOk p.la A)
    (hsvd : ∀ (m n : ℕ) (A : Matrix (Fin m) (Fin n) K), SvdOk p.la A)
    (normOf : Ten K → K) (inds : List Ind3) (vals : List K) (shape : ℕ × ℕ × ℕ) (att : Mat K)
    (nIter : ℕ) (tol : K) (cb : Option (ExitCallback K τ)) (cb0 : τ) (init : Option (Fac K))
    (hn : init = none ∨ 1 ≤ nIter)
    (force : Bool) (f : Fac K) (g : Option (Ten K)) (cbEnd : τ)
    (h : gaSatf p normOf inds vals shape att nIter tol cb cb0 init force = .ok ((f, g), cbEnd)) :
    f.f0.val.transpose * f.f0.val = 1 ∧ f.f1.val.transpose * f.f1.val = 1 ∧
      f.f2.val.transpose * f.f2.val = 1 := by
  obtain ⟨f0, nrm, _, hinit, hloop⟩ := gaSatf_ok h
  obtain ⟨k, x, y, b, hk, hx0, hy0, hxk, hyk, hstep, hfalse, hend⟩ := hooiLoop_run _ _ _ _ _ _ _ _ hloop
  by_cases hk0 : k = 0
  · have hnn : init = none := by
      rcases hn with h' | h'
      · exact h'
      · exact absurd (hend (by omega)).1 (by omega)
    subst hnn
    cases hinit
    subst hk0
    rw [hxk] at hx0
    cases hx0
    exact initFactors_orth p.la hqr p.initRng shape p.rank
  · obtain ⟨gk, h1, _⟩ := onState_ok (hstep (k - 1) (by omega)).1
    rw [Nat.sub_add_cancel (by omega), hxk] at h1
    exact gaSatfSweep_orth hqr hsvd h1

/-! ### C81 -/

/-- Shapes of the three factors. -/
def Fac.HasShape (f : Fac K) (n r : ℕ × ℕ × ℕ) : Prop :=
  (f.f0.rows = n.1 ∧ f.f0.cols = r.1) ∧ (f.f1.rows = n.2.1 ∧ f.f1.cols = r.2.1) ∧
    (f.f2.rows = n.2.2 ∧ f.f2.cols = r.2.2)

theorem Mat.eq_mk (A : Mat K) {n m : ℕ} (h : A.rows = n) (h' : A.cols = m) :
    ∃ V : Matrix (Fin n) (Fin m) K, A = ⟨n, m, V⟩ := by
  subst h h'
  exact ⟨A.val, rfl⟩

theorem reshapeTo_mk [CommRing K] {d0 d1 d2 : ℕ} (v : Fin d0 → Fin d1 → Fin d2 → K) (c : ℕ)
    (hc : c = d1 * d2) : ∃ M : Matrix (Fin d0) (Fin c) K,
      (⟨d0, d1, d2, v⟩ : Ten K).reshapeTo c = .ok ⟨d0, c, M⟩ := by
  unfold Ten.reshapeTo
  refine ⟨_, dif_pos hc⟩

theorem leadingCols_shape [CommRing K] (p : HooiPar K) (i mode rank : ℕ) (x : Mat K) :
    (leadingCols p i mode rank x).rows = x.rows ∧
    (leadingCols p i mode rank x).cols = min rank (min x.rows x.cols) := by
  refine ⟨rfl, ?_⟩
  show min rank (min (min x.rows (rank + p.os)) x.cols) = min rank (min x.rows x.cols)
  omega

theorem gaSatfSweep_success [CommRing K] (p : HooiPar K) {n0 n1 n2 : ℕ} (es : List (Ent n0 n1 n2 K))
    (A : Matrix (Fin n2) (Fin n2) K) (i : ℕ) (f : Fac K)
    (hv : p.rank.1 ≤ p.rank.2.1 * p.rank.2.2 ∧ p.rank.2.1 ≤ p.rank.1 * p.rank.2.2 ∧
      p.rank.2.2 ≤ p.rank.1 * p.rank.2.1)
    (hr : p.rank.1 ≤ n0 ∧ p.rank.2.1 ≤ n1 ∧ p.rank.2.2 ≤ n2)
    (hf : f.HasShape (n0, n1, n2) p.rank) :
    ∃ f' g, gaSatfSweep p (indsOf es) (valsOf es) (n0, n1, n2) ⟨n2, n2, A⟩ i f = .ok (f', g) ∧
      f'.HasShape (n0, n1, n2) p.rank := by
  obtain ⟨U, V, W⟩ := f
  obtain ⟨⟨h1, h2⟩, ⟨h3, h4⟩, h5, h6⟩ := hf
  obtain ⟨U, rfl⟩ := Mat.eq_mk U h1 h2
  obtain ⟨V, rfl⟩ := Mat.eq_mk V h3 h4
  obtain ⟨W, rfl⟩ := Mat.eq_mk W h5 h6
  unfold gaSatfSweep
  dsimp only
  rw [Mat.dot_mk, except_bind_ok]
  -- mode 0
  have e0 : ∃ f0, modeStep p (some ⟨n2, n2, A⟩) (indsOf es) (valsOf es) (n0, n1, n2) i 0
      ⟨⟨n0, p.rank.1, U⟩, ⟨n1, p.rank.2.1, V⟩, ⟨n2, p.rank.2.2, A * W⟩⟩ = .ok f0 ∧
      f0.HasShape (n0, n1, n2) p.rank := by
    unfold modeStep projected
    dsimp only [tri]
    have := ((C55_tensordot2 es).1 V (A * W)).1
    erw [this]
    rw [except_bind_ok]
    obtain ⟨M, hM⟩ := reshapeTo_mk (fun x a b => ∑ j, ∑ k, cooTensor es x j k * (V j a * (A * W) k b))
      (p.rank.2.1 * p.rank.2.2) rfl
    rw [hM, except_bind_ok]
    refine ⟨_, rfl, ⟨rfl, ?_⟩, ⟨rfl, rfl⟩, rfl, rfl⟩
    dsimp only
    rw [(leadingCols_shape _ _ _ _ _).2]
    dsimp only
    omega
  obtain ⟨⟨U0, V0, W0⟩, e0, ⟨⟨h1, h2⟩, ⟨h3, h4⟩, h5, h6⟩⟩ := e0
  obtain ⟨U0, rfl⟩ := Mat.eq_mk U0 h1 h2
  obtain ⟨V0, rfl⟩ := Mat.eq_mk V0 h3 h4
  obtain ⟨W0, rfl⟩ := Mat.eq_mk W0 h5 h6
  rw [e0, except_bind_ok]
  -- mode 1
  have e1 : ∃ f0, modeStep p (some ⟨n2, n2, A⟩) (indsOf es) (valsOf es) (n0, n1, n2) i 1
      ⟨⟨n0, p.rank.1, U0⟩, ⟨n1, p.rank.2.1, V0⟩, ⟨n2, p.rank.2.2, W0⟩⟩ = .ok f0 ∧
      f0.HasShape (n0, n1, n2) p.rank := by
    unfold modeStep projected
    dsimp only [tri]
    have := ((C55_tensordot2 es).2.1 U0 W0).1
    erw [this]
    rw [except_bind_ok]
    obtain ⟨M, hM⟩ := reshapeTo_mk (fun x a b => ∑ i, ∑ k, cooTensor es i x k * (U0 i a * W0 k b))
      (p.rank.1 * p.rank.2.2) rfl
    rw [hM, except_bind_ok]
    refine ⟨_, rfl, ⟨rfl, rfl⟩, ⟨rfl, ?_⟩, rfl, rfl⟩
    dsimp only
    rw [(leadingCols_shape _ _ _ _ _).2]
    dsimp only
    omega
  obtain ⟨⟨U1, V1, W1⟩, e1, ⟨⟨h1, h2⟩, ⟨h3, h4⟩, h5, h6⟩⟩ := e1
  obtain ⟨U1, rfl⟩ := Mat.eq_mk U1 h1 h2
  obtain ⟨V1, rfl⟩ := Mat.eq_mk V1 h3 h4
  obtain ⟨W1, rfl⟩ := Mat.eq_mk W1 h5 h6
  erw [e1]
  rw [except_bind_ok]
  -- mode 2
  have e2 : ∃ f0, modeStep p (some ⟨n2, n2, A⟩) (indsOf es) (valsOf es) (n0, n1, n2) i 2
      ⟨⟨n0, p.rank.1, U1⟩, ⟨n1, p.rank.2.1, V1⟩, ⟨n2, p.rank.2.2, W1⟩⟩ = .ok f0 ∧
      f0.HasShape (n0, n1, n2) p.rank := by
    unfold modeStep projected
    dsimp only [tri]
    have := ((C55_tensordot2 es).2.2 U1 V1).1
    erw [this]
    rw [except_bind_ok]
    obtain ⟨M, hM⟩ := reshapeTo_mk (fun x a b => ∑ i, ∑ j, cooTensor es i j x * (U1 i a * V1 j b))
      (p.rank.1 * p.rank.2.1) rfl
    rw [hM, except_bind_ok]
    unfold attMul Mat.T
    dsimp only
    rw [Mat.dot_mk, except_bind_ok]
    refine ⟨_, rfl, ⟨rfl, rfl⟩, ⟨rfl, rfl⟩, rfl, ?_⟩
    dsimp only
    rw [(leadingCols_shape _ _ _ _ _).2]
    dsimp only
    omega
  obtain ⟨⟨U2, V2, W2⟩, e2, ⟨⟨h1, h2⟩, ⟨h3, h4⟩, h5, h6⟩⟩ := e2
  obtain ⟨U2, rfl⟩ := Mat.eq_mk U2 h1 h2
  obtain ⟨V2, rfl⟩ := Mat.eq_mk V2 h3 h4
  obtain ⟨W2, rfl⟩ := Mat.eq_mk W2 h5 h6
  erw [e2]
  rw [except_bind_ok]
  dsimp only
  erw [Mat.dot_mk]
  rw [except_bind_ok, coreFunction_typed, except_bind_ok]
  exact ⟨_, _, rfl, ⟨rfl, rfl⟩, ⟨rfl, rfl⟩, rfl, rfl⟩

/-- a loop whose steps never fail never fails -/
theorem hooiLoop_success {σ τ : Type} (sweep : ℕ → σ → PyM σ) (stop : σ → τ → PyM (Bool × τ))
    (P Q : σ → Prop) (hP : ∀ i s, P s → ∃ s', sweep i s = .ok s' ∧ P s' ∧ Q s')
    (hQ : ∀ s t, Q s → ∃ r, stop s t = .ok r) (n i : ℕ) (s : σ) (t : τ) (hs : P s) :
    ∃ s' t', hooiLoop sweep stop n i s t = .ok (s', t') ∧ P s' := by
  induction n generalizing i s t with
  | zero => exact ⟨s, t, rfl, hs⟩
  | succ n ih =>
    obtain ⟨s1, h1, h2, h3⟩ := hP i s hs
    obtain ⟨r, hr⟩ := hQ s1 t h3
    unfold hooiLoop
    rw [h1, except_bind_ok, hr, except_bind_ok]
    split
    · exact ⟨s1, r.2, rfl, h2⟩
    · exact ih (i + 1) s1 r.2 h2

/-- **C81, success.** With a valid rank not exceeding the tensor's dimensions, entries inside the
tensor, a square attention matrix of matching size, no initial factors and a callback that does not
raise on factors of these shapes, `ga_satf` never raises and its factors have exactly the requested shapes. -/
theorem C81_success [Field K] [LinearOrder K] {τ : Type} (p : HooiPar K)
    (normOf : Ten K → K) {n0 n1 n2 : ℕ} (es : List (Ent n0 n1 n2 K))
    (A : Matrix (Fin n2) (Fin n2) K) (nIter : ℕ) (tol : K)
    (cb : Option (ExitCallback K τ)) (cb0 : τ) (force : Bool)
    (hcb : ∀ c, cb = some c → ∀ t f g, f.HasShape (n0, n1, n2) p.rank → ∃ r, c t f g = .ok r)
    (hv : p.rank.1 ≤ p.rank.2.1 * p.rank.2.2 ∧ p.rank.2.1 ≤ p.rank.1 * p.rank.2.2 ∧
      p.rank.2.2 ≤ p.rank.1 * p.rank.2.1)
    (hr : p.rank.1 ≤ n0 ∧ p.rank.2.1 ≤ n1 ∧ p.rank.2.2 ≤ n2) :
    ∃ f g t, gaSatf p normOf (indsOf es) (valsOf es) (n0, n1, n2) ⟨n2, n2, A⟩ nIter tol cb cb0 none
        force = .ok ((f, g), t) ∧
      (f.f0.rows = n0 ∧ f.f0.cols = p.rank.1) ∧ (f.f1.rows = n1 ∧ f.f1.cols = p.rank.2.1) ∧
      (f.f2.rows = n2 ∧ f.f2.cols = p.rank.2.2) := by
  unfold gaSatf
  rw [(checkParams_ok_iff (n0, n1, n2) p.rank).2 hv, except_bind_ok]
  simp only [placeInit, except_bind_ok]
  obtain ⟨⟨f, g⟩, ⟨x, t⟩, h, hf⟩ := hooiLoop_success
    (onState (gaSatfSweep p (indsOf es) (valsOf es) (n0, n1, n2) ⟨n2, n2, A⟩))
    (stopOn (gaSatfStop normOf tol force cb))
    (fun s => s.1.HasShape (n0, n1, n2) p.rank)
    (fun s => s.1.HasShape (n0, n1, n2) p.rank ∧ ∃ g, s.2 = some g)
    (by
      intro i s hs
      obtain ⟨f', g, h1, h2⟩ := gaSatfSweep_success p es A i s.1 hv hr hs
      refine ⟨(f', some g), ?_, h2, h2, g, rfl⟩
      unfold onState
      rw [h1, except_bind_ok]
      rfl)
    (by
      rintro ⟨f, g⟩ t ⟨hf, g', rfl⟩
      show ∃ r, gaSatfStop normOf tol force cb (f, g') t = _
      unfold gaSatfStop
      split
      · exact ⟨_, rfl⟩
      · cases cb with
        | none => exact ⟨_, rfl⟩
        | some c =>
          obtain ⟨r, hr⟩ := hcb c rfl t.2 f g' hf
          dsimp only
          rw [hr, except_bind_ok]
          exact ⟨_, rfl⟩)
    nIter 0 (initFactors p.la p.initRng (n0, n1, n2) p.rank true, none) (0, cb0)
    (by
      refine ⟨⟨rfl, ?_⟩, ⟨rfl, ?_⟩, rfl, ?_⟩
      · show min n0 p.rank.1 = p.rank.1; omega
      · show min n1 p.rank.2.1 = p.rank.2.1; omega
      · show min n2 p.rank.2.2 = p.rank.2.2; omega)
  rw [h, except_bind_ok]
  exact ⟨f, g, t, rfl, hf⟩

theorem reshapeTo_error [CommRing K] {t : Ten K} {c : ℕ} (h : c ≠ t.d1 * t.d2) (h0 : 0 < t.d0) :
    t.reshapeTo c = .error .valueError := by
  unfold Ten.reshapeTo
  rw [dif_neg h, if_neg (by omega)]

theorem mul_min_ne {a b x y : ℕ} (ha : 0 < a) (hb : 0 < b) (h : x < a ∨ y < b) :
    a * b ≠ min x a * min y b := by
  have h1 : min x a ≤ a := Nat.min_le_right _ _
  have h2 : min y b ≤ b := Nat.min_le_right _ _
  rcases h with h | h
  · have h3 : min x a < a := by omega
    have : min x a * min y b < a * b :=
      lt_of_le_of_lt (Nat.mul_le_mul_left _ h2) (Nat.mul_lt_mul_of_pos_right h3 hb)
    omega
  · have h3 : min y b < b := by omega
    have : min x a * min y b < a * b :=
      lt_of_le_of_lt (Nat.mul_le_mul_right _ h1) (Nat.mul_lt_mul_of_pos_left h3 ha)
    omega

/-- **C81, failure.** If some rank exceeds the corresponding dimension and at least one sweep is
requested, `ga_satf` raises `ValueError`. -/
theorem C81_rank_too_large [Field K] [LinearOrder K] {τ : Type} (p : HooiPar K)
    (normOf : Ten K → K) {n0 n1 n2 : ℕ} (es : List (Ent n0 n1 n2 K))
    (A : Matrix (Fin n2) (Fin n2) K) (nIter : ℕ) (hn : 1 ≤ nIter) (tol : K)
    (cb : Option (ExitCallback K τ)) (cb0 : τ) (force : Bool)
    (hv : p.rank.1 ≤ p.rank.2.1 * p.rank.2.2 ∧ p.rank.2.1 ≤ p.rank.1 * p.rank.2.2 ∧
      p.rank.2.2 ≤ p.rank.1 * p.rank.2.1)
    (hpos : 0 < p.rank.1 ∧ 0 < p.rank.2.1 ∧ 0 < p.rank.2.2) (hn0 : 0 < n0) (hn1 : 0 < n1)
    (hr : n0 < p.rank.1 ∨ n1 < p.rank.2.1 ∨ n2 < p.rank.2.2) :
    gaSatf p normOf (indsOf es) (valsOf es) (n0, n1, n2) ⟨n2, n2, A⟩ nIter tol cb cb0 none force =
      .error .valueError := by
  have hsweep : gaSatfSweep p (indsOf es) (valsOf es) (n0, n1, n2) ⟨n2, n2, A⟩ 0
      (initFactors p.la p.initRng (n0, n1, n2) p.rank true) = .error .valueError := by
    obtain ⟨U, hU⟩ : ∃ U : Matrix (Fin n0) (Fin (min n0 p.rank.1)) K,
        initFactor p.la (p.initRng 0) n0 p.rank.1 true = ⟨_, _, U⟩ := ⟨_, rfl⟩
    obtain ⟨V, hV⟩ : ∃ V : Matrix (Fin n1) (Fin (min n1 p.rank.2.1)) K,
        initFactor p.la (p.initRng 1) n1 p.rank.2.1 true = ⟨_, _, V⟩ := ⟨_, rfl⟩
    obtain ⟨W, hW⟩ : ∃ W : Matrix (Fin n2) (Fin (min n2 p.rank.2.2)) K,
        initFactor p.la (p.initRng 2) n2 p.rank.2.2 true = ⟨_, _, W⟩ := ⟨_, rfl⟩
    unfold initFactors
    dsimp only
    rw [hU, hV, hW]
    unfold gaSatfSweep
    dsimp only
    rw [Mat.dot_mk, except_bind_ok]
    have ht := ((C55_tensordot2 es).1 V (A * W)).1
    by_cases h12 : n1 < p.rank.2.1 ∨ n2 < p.rank.2.2
    · have : modeStep p (some ⟨n2, n2, A⟩) (indsOf es) (valsOf es) (n0, n1, n2) 0 0
          ⟨⟨n0, _, U⟩, ⟨n1, _, V⟩, ⟨n2, _, A * W⟩⟩ = .error .valueError := by
        unfold modeStep projected
        dsimp only [tri]
        erw [ht]
        rw [except_bind_ok, reshapeTo_error (by
          show p.rank.2.1 * p.rank.2.2 ≠ min n1 p.rank.2.1 * min n2 p.rank.2.2
          exact mul_min_ne hpos.2.1 hpos.2.2 h12) hn0]
        rfl
      rw [this]
      rfl
    · have h1 : p.rank.2.1 ≤ n1 := by omega
      have h2 : p.rank.2.2 ≤ n2 := by omega
      have h0 : n0 < p.rank.1 := by omega
      have e0 : ∃ f0, modeStep p (some ⟨n2, n2, A⟩) (indsOf es) (valsOf es) (n0, n1, n2) 0 0
          ⟨⟨n0, _, U⟩, ⟨n1, _, V⟩, ⟨n2, _, A * W⟩⟩ = .ok f0 ∧
          f0.HasShape (n0, n1, n2) (min n0 p.rank.1, min n1 p.rank.2.1, min n2 p.rank.2.2) := by
        unfold modeStep projected
        dsimp only [tri]
        erw [ht]
        rw [except_bind_ok]
        obtain ⟨M, hM⟩ := reshapeTo_mk
          (fun x a b => ∑ j, ∑ k, cooTensor es x j k * (V j a * (A * W) k b))
          (p.rank.2.1 * p.rank.2.2) (by rw [Nat.min_eq_right h1, Nat.min_eq_right h2])
        rw [hM, except_bind_ok]
        refine ⟨_, rfl, ⟨rfl, ?_⟩, ⟨rfl, rfl⟩, rfl, rfl⟩
        dsimp only
        rw [(leadingCols_shape _ _ _ _ _).2]
        dsimp only
        omega
      obtain ⟨⟨U0, V0, W0⟩, e0, ⟨⟨g1, g2⟩, ⟨g3, g4⟩, g5, g6⟩⟩ := e0
      obtain ⟨U0, rfl⟩ := Mat.eq_mk U0 g1 g2
      obtain ⟨V0, rfl⟩ := Mat.eq_mk V0 g3 g4
      obtain ⟨W0, rfl⟩ := Mat.eq_mk W0 g5 g6
      rw [e0, except_bind_ok]
      have : modeStep p (some ⟨n2, n2, A⟩) (indsOf es) (valsOf es) (n0, n1, n2) 0 1
          ⟨⟨n0, min n0 p.rank.1, U0⟩, ⟨n1, _, V0⟩, ⟨n2, _, W0⟩⟩ = .error .valueError := by
        unfold modeStep projected
        dsimp only [tri]
        have := ((C55_tensordot2 es).2.1 U0 W0).1
        erw [this]
        rw [except_bind_ok, reshapeTo_error (by
          show p.rank.1 * p.rank.2.2 ≠ min n0 p.rank.1 * min n2 p.rank.2.2
          exact mul_min_ne hpos.1 hpos.2.2 (Or.inl h0)) hn1]
        rfl
      erw [this]
      rfl
  unfold gaSatf
  rw [(checkParams_ok_iff (n0, n1, n2) p.rank).2 hv, except_bind_ok]
  simp only [placeInit, except_bind_ok]
  obtain ⟨m, rfl⟩ : ∃ m, nIter = m + 1 := ⟨nIter - 1, by omega⟩
  unfold hooiLoop onState
  dsimp only
  rw [hsweep]
  rfl

/-! ### a concrete run -/

/-- Oracles for the examples: `Q` and `U` are the first columns of the identity. -/
def exLA2 : LinAlg ℚ where
  qr {m n} A := (fun i j => if (i : ℕ) = j then 1 else 0, fun i j => A (Fin.castLE (Nat.min_le_left m n) i) j)
  svd {m n} A := (fun i j => if (i : ℕ) = j then 1 else 0, fun i =>
      A (Fin.castLE (Nat.min_le_left m n) i) (Fin.castLE (Nat.min_le_right m n) i),
    fun i j => if (i : ℕ) = j then 1 else 0)
  svdFull _ := (1, fun _ => 0, 1)
  svds _ _ := (fun _ _ => 0, fun _ => 0, fun _ _ => 0)
  inv A := A

def exPar : HooiPar ℚ := ⟨exLA2, fun _ _ _ _ _ => 1, fun _ _ _ _ _ _ => 1, (1, 1, 1), 0, 1, false⟩
/-- the 2 × 2 × 2 tensor with entries (0,0,0) ↦ 3 and (1,1,1) ↦ 2 -/
def exEs : List (Ent 2 2 2 ℚ) := [((0, 0, 0), 3), ((1, 1, 1), 2)]
/-- entries of the core -/
def coreEntries (g : Option (Ten ℚ)) : Option (List ℚ) :=
  g.map fun t => (List.finRange t.d0).flatMap fun i => (List.finRange t.d1).flatMap fun j =>
    (List.finRange t.d2).map fun k => t.val i j k
/-- the sum of the entries, standing in for the norm -/
def exNorm (t : Ten ℚ) : ℚ := ((coreEntries (some t)).getD []).sum
/-- entries of the core and number of callback calls -/
def exOut (r : PyM (HooiState ℚ × ℕ)) : Option (Option (List ℚ) × ℕ) :=
  match r with
  | .ok r => some (coreEntries r.1.2, r.2)
  | .error _ => none
/-- a callback that counts its calls and stops at the third -/
def exCb : ExitCallback ℚ ℕ := fun t _ _ => .ok (decide (2 ≤ t), t + 1)

-- the callback is called three times (of at most 5); forced: never; n_iter = 0: no core
example : exOut (gaSatf exPar exNorm (indsOf exEs) (valsOf exEs) (2, 2, 2) (Mat.eye 2) 5 (1/100)
    (some exCb) 0 none false) = some (some [3], 3) := by decide +kernel
example : exOut (gaSatf exPar exNorm (indsOf exEs) (valsOf exEs) (2, 2, 2) (Mat.eye 2) 5 (1/100)
    (some exCb) 0 none true) = some (some [3], 0) := by decide +kernel
example : exOut (gaSatf exPar exNorm (indsOf exEs) (valsOf exEs) (2, 2, 2) (Mat.eye 2) 0 (1/100)
    (some exCb) 0 none false) = some (none, 0) := by decide +kernel

/-- exact routines, rank (2, 2, 1) -/
noncomputable def exParR : HooiPar ℝ :=
  ⟨realLA, fun _ _ _ _ _ => 1, fun _ _ _ _ _ _ => 1, (2, 2, 1), 1, 2, true⟩
noncomputable def exEsR : List (Ent 3 2 2 ℝ) := [((2, 1, 0), 5), ((0, 0, 1), 1)]

/-- Over the reals with exact routines: the call succeeds, and its factors are orthonormal. -/
example : ∃ f g t, gaSatf (τ := Unit) exParR (fun _ => 1) (indsOf exEsR) (valsOf exEsR) (3, 2, 2)
    ⟨2, 2, Matrix.of ![![1, 0], ![3, 1]]⟩ 4 (1 / 10) none () none false = .ok ((f, g), t) ∧
    f.f0.rows = 3 ∧ f.f0.cols = 2 ∧ f.f0.val.transpose * f.f0.val = 1 := by
  obtain ⟨f, g, t, h, h0, _⟩ := C81_success (τ := Unit) exParR (fun _ => 1) exEsR
    (Matrix.of ![![1, 0], ![3, 1]]) 4 (1 / 10) none () false (fun c hc => by cases hc)
    (by decide) (by decide)
  refine ⟨f, g, t, h, h0.1, h0.2, ?_⟩
  exact (C80_ga_satf_orthonormal exParR (fun _ _ => realLA_qr)
    (fun _ _ => realLA_svd) _ _ _ _ _ _ _ none () none (Or.inl rfl) _ f g t h).1

end DynCF
