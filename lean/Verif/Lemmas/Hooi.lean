/-
Lemmas about the model of `rp_hooi.py`: shapes of the factors, loop invariants.
-/
import Verif.Lemmas.Mapping
import Verif.Lemmas.TensorOps2
import Verif.Model.Hooi

set_option linter.unusedSectionVars false

namespace DynCF
variable {K : Type}

theorem bind_ok_iff {α β : Type} (x : PyM α) (f : α → PyM β) (b : β) :
    (x >>= f) = .ok b ↔ ∃ a, x = .ok a ∧ f a = .ok b := by
  cases x with
  | error e =>
    rw [except_bind_error]
    constructor
    · intro h; cases h
    · rintro ⟨a, h, _⟩; cases h
  | ok a =>
    rw [except_bind_ok]
    constructor
    · intro h; exact ⟨a, rfl, h⟩
    · rintro ⟨a', h, h'⟩; cases h; exact h'

theorem bind_error_iff {α β : Type} (x : PyM α) (f : α → PyM β) (e : PyErr) :
    (x >>= f) = .error e ↔ x = .error e ∨ ∃ a, x = .ok a ∧ f a = .error e := by
  cases x with
  | error e' =>
    rw [except_bind_error]
    constructor
    · intro h; left; cases h; rfl
    · rintro (h | ⟨a, h, _⟩)
      · cases h; rfl
      · cases h
  | ok a =>
    rw [except_bind_ok]
    constructor
    · intro h; right; exact ⟨a, rfl, h⟩
    · rintro (h | ⟨a', h, h'⟩)
      · cases h
      · cases h; exact h'

theorem Mat.dot_ok [NonUnitalNonAssocSemiring K] {A B C : Mat K} (h : A.dot B = .ok C) :
    A.cols = B.rows ∧ C.rows = A.rows ∧ C.cols = B.cols := by
  unfold Mat.dot at h
  split at h
  · rename_i hc
    cases h
    exact ⟨hc, rfl, rfl⟩
  · cases h

theorem checkParams_ok_iff (shape rank : ℕ × ℕ × ℕ) :
    checkParams (tri shape) (triZ rank) = .ok () ↔
      rank.1 ≤ rank.2.1 * rank.2.2 ∧ rank.2.1 ≤ rank.1 * rank.2.2 ∧ rank.2.2 ≤ rank.1 * rank.2.1 := by
  unfold checkParams tri triZ tuckerRankIsValid
  simp only [List.length_cons, List.length_nil]
  rw [if_neg (by omega)]
  have e : ∀ a b c : ℕ, ((a : ℤ) > (b : ℤ) * (c : ℤ)) ↔ ¬ a ≤ b * c := by
    intro a b c
    rw [not_le]
    constructor
    · intro h; exact_mod_cast h
    · intro h; exact_mod_cast h
  simp only [e]
  by_cases h1 : rank.1 ≤ rank.2.1 * rank.2.2
  · by_cases h2 : rank.2.1 ≤ rank.1 * rank.2.2
    · by_cases h3 : rank.2.2 ≤ rank.1 * rank.2.1
      · simp [h1, h2, h3, except_bind_ok]
      · simp [h1, h2, h3, except_bind_ok]
    · simp [h1, h2, except_bind_ok]
  · simp [h1, except_bind_ok]

theorem checkParams_invalid (shape rank : ℕ × ℕ × ℕ)
    (h : ¬ (rank.1 ≤ rank.2.1 * rank.2.2 ∧ rank.2.1 ≤ rank.1 * rank.2.2 ∧
      rank.2.2 ≤ rank.1 * rank.2.1)) :
    checkParams (tri shape) (triZ rank) = .error .runtimeError := by
  rw [← checkParams_ok_iff shape rank] at h
  unfold checkParams tri triZ tuckerRankIsValid at h ⊢
  simp only [List.length_cons, List.length_nil] at h ⊢
  rw [if_neg (by omega)] at h ⊢
  split at h <;> split <;> first | rfl | skip
  split at h
  · rename_i h1 h2 h3
    rw [if_pos h3]; rfl
  · rename_i h1 h2 h3
    rw [if_neg h3]
    split at h
    · rename_i h4
      rw [if_pos h4]; rfl
    · exact absurd rfl h

/-! ### shapes -/

section
variable [CommRing K]

theorem reshapeTo_ok {t : Ten K} {c : ℕ} {M : Mat K} (h : t.reshapeTo c = .ok M) :
    M.rows = t.d0 ∧ M.cols = c := by
  unfold Ten.reshapeTo at h
  split at h
  · cases h; exact ⟨rfl, rfl⟩
  · split at h <;> cases h

theorem tensordot2_rows {inds : List Ind3} {vals : List K} {shape : List ℕ} {u v : Mat K}
    {modes : ℤ × ℤ} {t : Ten K} (h : tensordot2 inds vals shape u v modes = .ok t) :
    shape[(3 - (modes.1 + modes.2)).toNat]? = some t.d0 := by
  unfold tensordot2 at h
  split at h
  · cases h
  split at h
  · cases h
  split at h
  · cases h
  split at h
  · cases h
  dsimp only at h
  split at h
  · cases h
  · rename_i n0 hn
    rw [bind_ok_iff] at h
    obtain ⟨es, _, h⟩ := h
    rw [bind_ok_iff] at h
    obtain ⟨res, _, h⟩ := h
    cases h
    exact hn

theorem projected_rows {inds : List Ind3} {vals : List K} {shape : ℕ × ℕ × ℕ} {u v : Mat K}
    {mu mv ru rv : ℕ} {M : Mat K} (h : projected inds vals shape u v mu mv ru rv = .ok M) :
    (tri shape)[(3 - ((mu : ℤ) + (mv : ℤ))).toNat]? = some M.rows := by
  unfold projected at h
  rw [bind_ok_iff] at h
  obtain ⟨t, ht, h⟩ := h
  rw [(reshapeTo_ok h).1]
  exact tensordot2_rows ht

theorem leadingCols_rows (p : HooiPar K) (i mode rank : ℕ) (x : Mat K) :
    (leadingCols p i mode rank x).rows = x.rows := rfl

theorem modeStep_rows {p : HooiPar K} {att : Option (Mat K)} {inds : List Ind3} {vals : List K}
    {shape : ℕ × ℕ × ℕ} {i mode : ℕ} {f f' : Fac K}
    (h : modeStep p att inds vals shape i mode f = .ok f') :
    (mode = 0 → f'.f0.rows = shape.1 ∧ f'.f1 = f.f1 ∧ f'.f2 = f.f2) ∧
    (mode = 1 → f'.f1.rows = shape.2.1 ∧ f'.f0 = f.f0 ∧ f'.f2 = f.f2) ∧
    (mode = 2 → f'.f2.rows = (match att with | none => shape.2.2 | some a => a.cols) ∧
      f'.f0 = f.f0 ∧ f'.f1 = f.f1) := by
  unfold modeStep at h
  split at h
  · rw [bind_ok_iff] at h
    obtain ⟨x, hx, h⟩ := h
    cases h
    refine ⟨fun _ => ⟨?_, rfl, rfl⟩, by omega, by omega⟩
    have := projected_rows hx
    rw [leadingCols_rows]
    exact (Option.some.inj this).symm
  · rw [bind_ok_iff] at h
    obtain ⟨x, hx, h⟩ := h
    cases h
    refine ⟨by omega, fun _ => ⟨?_, rfl, rfl⟩, by omega⟩
    have := projected_rows hx
    rw [leadingCols_rows]
    exact (Option.some.inj this).symm
  · rename_i h0 h1
    rw [bind_ok_iff] at h
    obtain ⟨x, hx, h⟩ := h
    rw [bind_ok_iff] at h
    obtain ⟨y, hy, h⟩ := h
    cases h
    refine ⟨fun h => absurd h h0, fun h => absurd h h1, fun _ => ⟨?_, rfl, rfl⟩⟩
    rw [leadingCols_rows]
    unfold attMul at hy
    cases att with
    | none =>
      cases hy
      have := projected_rows hx
      exact (Option.some.inj this).symm
    | some a => exact (Mat.dot_ok hy).2.1

theorem gaSatfSweep_rows {p : HooiPar K} {inds : List Ind3} {vals : List K} {shape : ℕ × ℕ × ℕ}
    {att : Mat K} {i : ℕ} {f : Fac K} {r : Fac K × Ten K}
    (h : gaSatfSweep p inds vals shape att i f = .ok r) :
    att.cols = f.f2.rows ∧ r.1.f0.rows = shape.1 ∧ r.1.f1.rows = shape.2.1 ∧ r.1.f2.rows = att.cols := by
  unfold gaSatfSweep at h
  simp only [bind_ok_iff] at h
  obtain ⟨aw, haw, f0, h0, f1, h1, f2, h2, aw', haw', core, _, h⟩ := h
  cases h
  have m0 := (modeStep_rows h0).1 rfl
  have m1 := (modeStep_rows h1).2.1 rfl
  have m2 := (modeStep_rows h2).2.2 rfl
  refine ⟨(Mat.dot_ok haw).1, ?_, ?_, m2.1⟩
  · rw [m2.2.1, m1.2.1]; exact m0.1
  · rw [m2.2.2]; exact m1.1

theorem initFactor_rows (la : LinAlg K) (rng : Rng K) (n r : ℕ) (b : Bool) :
    (initFactor la rng n r b).rows = n := by
  unfold initFactor LinAlg.qrM
  cases b <;> rfl

theorem placeRows_rows {F I M : Mat K} (h : placeRows F I = .ok M) :
    M.rows = F.rows ∧ I.rows ≤ F.rows ∧ I.cols = F.cols ∧ M.cols = F.cols := by
  unfold placeRows at h
  split at h
  · split at h
    · cases h
      exact ⟨rfl, by assumption, by assumption, rfl⟩
    · split at h <;> cases h
  · split at h <;> cases h

theorem placeInit_rows {f g : Fac K} {init : Option (Fac K)} (h : placeInit f init = .ok g) :
    g.f0.rows = f.f0.rows ∧ g.f1.rows = f.f1.rows ∧ g.f2.rows = f.f2.rows := by
  unfold placeInit at h
  cases init with
  | none => cases h; exact ⟨rfl, rfl, rfl⟩
  | some I =>
    simp only [bind_ok_iff] at h
    obtain ⟨a, ha, b, hb, c, hc, h⟩ := h
    cases h
    exact ⟨(placeRows_rows ha).1, (placeRows_rows hb).1, (placeRows_rows hc).1⟩

end

/-! ### the loop -/

theorem hooiLoop_inv {σ τ : Type} (sweep : ℕ → σ → PyM σ) (stop : σ → τ → PyM (Bool × τ))
    (P : σ → Prop) (hP : ∀ i s s', P s → sweep i s = .ok s' → P s') (n i : ℕ) (s : σ) (t : τ)
    (r : σ × τ) (hs : P s) (h : hooiLoop sweep stop n i s t = .ok r) : P r.1 := by
  induction n generalizing i s t with
  | zero => cases h; exact hs
  | succ n ih =>
    unfold hooiLoop at h
    rw [bind_ok_iff] at h
    obtain ⟨s', h1, h⟩ := h
    rw [bind_ok_iff] at h
    obtain ⟨q, _, h⟩ := h
    split at h
    · cases h; exact hP i s s' hs h1
    · exact ih (i + 1) s' q.2 (hP i s s' hs h1) h

end DynCF
