/-
Property theorem C112: with capturing sketches the sweeps of GA-SATF and RP-HOOI never decrease the norm of the
core and never increase the distance to the data.
-/
import Verif.Lemmas.BestProj
import Verif.Props.TuckerError

set_option linter.unusedSectionVars false

namespace DynCF
open Matrix
variable {n0 n1 n2 : ℕ}

/-- The matrix decomposed in the step for one mode (rp_hooi.py:112 and 248-250). -/
noncomputable def stepMatrix (rank : ℕ × ℕ × ℕ) (att : Option (Mat ℝ)) (inds : List Ind3) (vals : List ℝ)
    (shape : ℕ × ℕ × ℕ) (mode : ℕ) (f : Fac ℝ) : PyM (Mat ℝ) :=
  match mode with
  | 0 => projected inds vals shape f.f1 f.f2 1 2 rank.2.1 rank.2.2
  | 1 => projected inds vals shape f.f0 f.f2 0 2 rank.1 rank.2.2
  | _ => (projected inds vals shape f.f0 f.f1 0 1 rank.1 rank.2.1).bind (attMul att)

/-- The sketch drawn in sweep `i` for `mode` captures the matrix to be decomposed there. -/
def StepCaptures (p : HooiPar ℝ) (att : Option (Mat ℝ)) (inds : List Ind3) (vals : List ℝ) (shape : ℕ × ℕ × ℕ)
    (i mode : ℕ) (f : Fac ℝ) : Prop :=
  ∀ x, stepMatrix p.rank att inds vals shape mode f = .ok x →
    Captures (p.rsvdRng i mode) x.val (shapeAt p.rank mode) p.nPower p.os

/-- All three sketches of the sweep number `i` of `ga_satf` from the factors `f` capture. -/
def SweepCaptures (p : HooiPar ℝ) (inds : List Ind3) (vals : List ℝ) (shape : ℕ × ℕ × ℕ) (att : Mat ℝ) (i : ℕ)
    (f : Fac ℝ) : Prop :=
  ∀ aw, att.dot f.f2 = .ok aw →
    StepCaptures p (some att) inds vals shape i 0 { f with f2 := aw } ∧
    ∀ f0, modeStep p (some att) inds vals shape i 0 { f with f2 := aw } = .ok f0 →
      StepCaptures p (some att) inds vals shape i 1 f0 ∧
      ∀ f1, modeStep p (some att) inds vals shape i 1 f0 = .ok f1 →
        StepCaptures p (some att) inds vals shape i 2 f1

/-- flattening the last two modes keeps the sum of squares -/
theorem sqSum_flat {d0 d1 d2 c : ℕ} (v : T3 d0 d1 d2 ℝ) (X : Mat ℝ)
    (h : (⟨d0, d1, d2, v⟩ : Ten ℝ).reshapeTo c = .ok X) :
    ∃ M : Matrix (Fin d0) (Fin c) ℝ, X = ⟨d0, c, M⟩ ∧
      ∀ (q : ℕ) (G : Matrix (Fin d0) (Fin q) ℝ), sqSum (G.transpose * M) = tenSq (mul0 G.transpose v) := by
  unfold Ten.reshapeTo at h
  split at h
  · rename_i hc
    subst hc
    have h := Except.ok.inj h
    subst h
    refine ⟨_, rfl, fun q G => ?_⟩
    unfold sqSum tenSq
    refine Finset.sum_congr rfl fun i _ => ?_
    rw [sum_finProd]
    refine Finset.sum_congr rfl fun a _ => Finset.sum_congr rfl fun b _ => ?_
    simp only [Matrix.mul_apply, mul0, Ten.reshape2, Matrix.submatrix_apply, Matrix.of_apply, id_eq, Fin.cast_eq_self,
      Equiv.symm_apply_apply]
  · split at h <;> cases h

theorem core_flat0 (x : T3 n0 n1 n2 ℝ) {q a b : ℕ} (G : Matrix (Fin n0) (Fin q) ℝ) (V : Matrix (Fin n1) (Fin a) ℝ)
    (W : Matrix (Fin n2) (Fin b) ℝ) :
    mul0 G.transpose (fun i j' k' => ∑ j, ∑ k, x i j k * (V j j' * W k k')) = coreTensor x G V W := by
  rw [coreTensor_eq]
  congr 1
  funext i j' k'
  simp only [mul1, mul2, Finset.mul_sum, Matrix.transpose_apply]
  exact Finset.sum_congr rfl fun _ _ => Finset.sum_congr rfl fun _ _ => by ring

theorem core_flat1 (x : T3 n0 n1 n2 ℝ) {q a b : ℕ} (G : Matrix (Fin n1) (Fin q) ℝ) (U : Matrix (Fin n0) (Fin a) ℝ)
    (W : Matrix (Fin n2) (Fin b) ℝ) :
    mul0 G.transpose (fun j i' k' => ∑ i, ∑ k, x i j k * (U i i' * W k k')) = front1 (coreTensor x U G W) := by
  rw [coreTensor_eq, mul01_comm, front1_mul1]
  congr 1
  funext j i' k'
  simp only [front1, mul0, mul2, Finset.mul_sum, Matrix.transpose_apply]
  exact Finset.sum_congr rfl fun _ _ => Finset.sum_congr rfl fun _ _ => by ring

theorem core_flat2 (x : T3 n0 n1 n2 ℝ) {q a b : ℕ} (G : Matrix (Fin n2) (Fin q) ℝ) (U : Matrix (Fin n0) (Fin a) ℝ)
    (V : Matrix (Fin n1) (Fin b) ℝ) :
    mul0 G.transpose (fun k i' j' => ∑ i, ∑ j, x i j k * (U i i' * V j j')) = front2 (coreTensor x U V G) := by
  rw [coreTensor_eq, mul12_comm, mul02_comm, front2_mul2]
  congr 1
  funext k i' j'
  simp only [front2, mul0, mul1, Finset.mul_sum, Matrix.transpose_apply]
  exact Finset.sum_congr rfl fun _ _ => Finset.sum_congr rfl fun _ _ => by ring

/-- reversing the columns does not change what they keep -/
theorem sqSum_rev {m n k : ℕ} (U : Matrix (Fin m) (Fin k) ℝ) (X : Matrix (Fin m) (Fin n) ℝ) :
    sqSum ((Matrix.of fun i j => U i (Fin.rev j) : Matrix (Fin m) (Fin k) ℝ).transpose * X) =
      sqSum (U.transpose * X) := by
  unfold sqSum
  refine Fintype.sum_equiv Fin.revPerm _ _ fun i => ?_
  refine Finset.sum_congr rfl fun j _ => ?_
  simp only [Matrix.mul_apply, Matrix.transpose_apply, Matrix.of_apply, Fin.revPerm_apply]

/-- the new factor of one mode keeps most -/
theorem leadingCols_best (p : HooiPar ℝ)
    (hqr : ∀ (m n : ℕ) (A : Matrix (Fin m) (Fin n) ℝ), QrOk p.la A)
    (hsvd : ∀ (m n : ℕ) (A : Matrix (Fin m) (Fin n) ℝ), SvdOk p.la A) (i mode rank : ℕ) {m n : ℕ}
    (X : Matrix (Fin m) (Fin n) ℝ) (hc : Captures (p.rsvdRng i mode) X rank p.nPower p.os) :
    ∃ (k : ℕ) (U : Matrix (Fin m) (Fin k) ℝ), k ≤ rank ∧ leadingCols p i mode rank ⟨m, n, X⟩ = ⟨m, k, U⟩ ∧
      ∀ (q : ℕ) (G : Matrix (Fin m) (Fin q) ℝ), G.transpose * G = 1 → q ≤ rank →
        sqSum (G.transpose * X) ≤ sqSum (U.transpose * X) := by
  obtain ⟨k, U, hk, he, _, hb⟩ := rsvd_best p.la (p.rsvdRng i mode) X rank p.nPower p.os
    ⟨hqr _ _ _, hsvd _ _ _⟩ hc
  refine ⟨k, Matrix.of fun i j => U i (Fin.rev j), hk, ?_, fun q G hG hq => ?_⟩
  · unfold leadingCols
    rw [he]
    rfl
  · rw [sqSum_rev]
    exact hb q G hG hq

section
variable (p : HooiPar ℝ) (hqr : ∀ (m n : ℕ) (A : Matrix (Fin m) (Fin n) ℝ), QrOk p.la A)
  (hsvd : ∀ (m n : ℕ) (A : Matrix (Fin m) (Fin n) ℝ), SvdOk p.la A) (es : List (Ent n0 n1 n2 ℝ))
  (att : Option (Mat ℝ)) (i : ℕ)
include hqr hsvd

theorem step0_best {r0 r1 r2 : ℕ} (U : Matrix (Fin n0) (Fin r0) ℝ) (V : Matrix (Fin n1) (Fin r1) ℝ)
    (W : Matrix (Fin n2) (Fin r2) ℝ) (f' : Fac ℝ)
    (h : modeStep p att (indsOf es) (valsOf es) (n0, n1, n2) i 0 ⟨⟨_, _, U⟩, ⟨_, _, V⟩, ⟨_, _, W⟩⟩ = .ok f')
    (hc : StepCaptures p att (indsOf es) (valsOf es) (n0, n1, n2) i 0 ⟨⟨_, _, U⟩, ⟨_, _, V⟩, ⟨_, _, W⟩⟩)
    (hU : U.transpose * U = 1) (hr : r0 ≤ p.rank.1) :
    ∃ (k : ℕ) (U' : Matrix (Fin n0) (Fin k) ℝ), k ≤ p.rank.1 ∧ f' = ⟨⟨_, _, U'⟩, ⟨_, _, V⟩, ⟨_, _, W⟩⟩ ∧
      tenSq (coreTensor (cooTensor es) U V W) ≤ tenSq (coreTensor (cooTensor es) U' V W) := by
  unfold modeStep at h
  obtain ⟨X, hX, h⟩ := (bind_ok_iff _ _ _).1 h
  have hcap := hc X hX
  have hX' := hX
  unfold projected at hX'
  dsimp only [tri] at hX'
  have h55 := ((C55_tensordot2 es).1 V W).1
  erw [h55] at hX'
  rw [except_bind_ok] at hX'
  obtain ⟨M, rfl, hM⟩ := sqSum_flat _ _ hX'
  obtain ⟨k, U', hk, he, hb⟩ := leadingCols_best p hqr hsvd i 0 p.rank.1 M hcap
  have h := Except.ok.inj h
  subst h
  refine ⟨k, U', hk, by rw [he], ?_⟩
  have := hb r0 U hU hr
  rw [hM, hM, core_flat0, core_flat0] at this
  exact this

theorem step1_best {r0 r1 r2 : ℕ} (U : Matrix (Fin n0) (Fin r0) ℝ) (V : Matrix (Fin n1) (Fin r1) ℝ)
    (W : Matrix (Fin n2) (Fin r2) ℝ) (f' : Fac ℝ)
    (h : modeStep p att (indsOf es) (valsOf es) (n0, n1, n2) i 1 ⟨⟨_, _, U⟩, ⟨_, _, V⟩, ⟨_, _, W⟩⟩ = .ok f')
    (hc : StepCaptures p att (indsOf es) (valsOf es) (n0, n1, n2) i 1 ⟨⟨_, _, U⟩, ⟨_, _, V⟩, ⟨_, _, W⟩⟩)
    (hV : V.transpose * V = 1) (hr : r1 ≤ p.rank.2.1) :
    ∃ (k : ℕ) (V' : Matrix (Fin n1) (Fin k) ℝ), k ≤ p.rank.2.1 ∧ f' = ⟨⟨_, _, U⟩, ⟨_, _, V'⟩, ⟨_, _, W⟩⟩ ∧
      tenSq (coreTensor (cooTensor es) U V W) ≤ tenSq (coreTensor (cooTensor es) U V' W) := by
  unfold modeStep at h
  obtain ⟨X, hX, h⟩ := (bind_ok_iff _ _ _).1 h
  have hcap := hc X hX
  have hX' := hX
  unfold projected at hX'
  dsimp only [tri] at hX'
  have h55 := ((C55_tensordot2 es).2.1 U W).1
  erw [h55] at hX'
  rw [except_bind_ok] at hX'
  obtain ⟨M, rfl, hM⟩ := sqSum_flat _ _ hX'
  obtain ⟨k, V', hk, he, hb⟩ := leadingCols_best p hqr hsvd i 1 p.rank.2.1 M hcap
  have h := Except.ok.inj h
  subst h
  refine ⟨k, V', hk, by rw [he], ?_⟩
  have := hb r1 V hV hr
  rw [hM, hM, core_flat1, core_flat1, tenSq_front1, tenSq_front1] at this
  exact this

theorem step2_best {r0 r1 r2 r3 : ℕ} (A : Matrix (Fin n2) (Fin n2) ℝ) (U : Matrix (Fin n0) (Fin r0) ℝ)
    (V : Matrix (Fin n1) (Fin r1) ℝ)
    (Z : Matrix (Fin n2) (Fin r3) ℝ) (W : Matrix (Fin n2) (Fin r2) ℝ) (f' : Fac ℝ)
    (h : modeStep p (some ⟨n2, n2, A⟩) (indsOf es) (valsOf es) (n0, n1, n2) i 2
      ⟨⟨_, _, U⟩, ⟨_, _, V⟩, ⟨_, _, Z⟩⟩ = .ok f')
    (hc : StepCaptures p (some ⟨n2, n2, A⟩) (indsOf es) (valsOf es) (n0, n1, n2) i 2
      ⟨⟨_, _, U⟩, ⟨_, _, V⟩, ⟨_, _, Z⟩⟩)
    (hW : W.transpose * W = 1) (hr : r2 ≤ p.rank.2.2) :
    ∃ (k : ℕ) (W' : Matrix (Fin n2) (Fin k) ℝ), k ≤ p.rank.2.2 ∧ f' = ⟨⟨_, _, U⟩, ⟨_, _, V⟩, ⟨_, _, W'⟩⟩ ∧
      tenSq (coreTensor (cooTensor es) U V (A * W)) ≤ tenSq (coreTensor (cooTensor es) U V (A * W')) := by
  unfold modeStep at h
  obtain ⟨X, hX, h⟩ := (bind_ok_iff _ _ _).1 h
  have hX' := hX
  unfold projected at hX'
  dsimp only [tri] at hX'
  have h55 := ((C55_tensordot2 es).2.2 U V).1
  erw [h55] at hX'
  rw [except_bind_ok] at hX'
  obtain ⟨M, rfl, hM⟩ := sqSum_flat _ _ hX'
  have hatt : attMul (some ⟨n2, n2, A⟩) ⟨n2, _, M⟩ = .ok ⟨n2, _, A.transpose * M⟩ := by
    unfold attMul Mat.T
    dsimp only
    rw [Mat.dot_mk]
  have hcap := hc ⟨n2, _, A.transpose * M⟩ (by
    unfold stepMatrix
    dsimp only
    rw [hX]
    exact hatt)
  rw [hatt, except_bind_ok] at h
  obtain ⟨k, W', hk, he, hb⟩ := leadingCols_best p hqr hsvd i 2 p.rank.2.2 (A.transpose * M) hcap
  have h := Except.ok.inj h
  subst h
  refine ⟨k, W', hk, by rw [he], ?_⟩
  have := hb r2 W hW hr
  rw [← Matrix.mul_assoc, ← Matrix.mul_assoc, ← Matrix.transpose_mul, ← Matrix.transpose_mul, hM, hM, core_flat2,
    core_flat2, tenSq_front2, tenSq_front2] at this
  exact this

/-- one sweep: starting from orthonormal factors of at most the requested widths -/
theorem sweep_grows (A : Matrix (Fin n2) (Fin n2) ℝ) {r0 r1 r2 : ℕ} (U : Matrix (Fin n0) (Fin r0) ℝ)
    (V : Matrix (Fin n1) (Fin r1) ℝ) (W : Matrix (Fin n2) (Fin r2) ℝ) (r : Fac ℝ × Ten ℝ)
    (hU : U.transpose * U = 1) (hV : V.transpose * V = 1) (hW : W.transpose * W = 1)
    (h0 : r0 ≤ p.rank.1) (h1 : r1 ≤ p.rank.2.1) (h2 : r2 ≤ p.rank.2.2)
    (hc : SweepCaptures p (indsOf es) (valsOf es) (n0, n1, n2) ⟨n2, n2, A⟩ i ⟨⟨_, _, U⟩, ⟨_, _, V⟩, ⟨_, _, W⟩⟩)
    (h : gaSatfSweep p (indsOf es) (valsOf es) (n0, n1, n2) ⟨n2, n2, A⟩ i ⟨⟨_, _, U⟩, ⟨_, _, V⟩, ⟨_, _, W⟩⟩ = .ok r) :
    ∃ (k0 k1 k2 : ℕ) (U' : Matrix (Fin n0) (Fin k0) ℝ) (V' : Matrix (Fin n1) (Fin k1) ℝ)
      (W' : Matrix (Fin n2) (Fin k2) ℝ), k0 ≤ p.rank.1 ∧ k1 ≤ p.rank.2.1 ∧ k2 ≤ p.rank.2.2 ∧
      r = (⟨⟨_, _, U'⟩, ⟨_, _, V'⟩, ⟨_, _, W'⟩⟩, ⟨k0, k1, k2, coreTensor (cooTensor es) U' V' (A * W')⟩) ∧
      tenSq (coreTensor (cooTensor es) U V (A * W)) ≤ tenSq (coreTensor (cooTensor es) U' V' (A * W')) := by
  unfold gaSatfSweep at h
  obtain ⟨aw, haw, h⟩ := (bind_ok_iff _ _ _).1 h
  obtain ⟨c0, hc⟩ := hc aw haw
  dsimp only at haw
  rw [Mat.dot_mk] at haw
  have haw := Except.ok.inj haw
  subst haw
  obtain ⟨f0, e0, h⟩ := (bind_ok_iff _ _ _).1 h
  obtain ⟨c1, hc⟩ := hc f0 e0
  obtain ⟨k0, U', hk0, rfl, g0⟩ := step0_best p hqr hsvd es _ i U V (A * W) f0 e0 c0 hU h0
  obtain ⟨f1, e1, h⟩ := (bind_ok_iff _ _ _).1 h
  have c2 := hc f1 e1
  obtain ⟨k1, V', hk1, rfl, g1⟩ := step1_best p hqr hsvd es _ i U' V (A * W) f1 e1 c1 hV h1
  obtain ⟨f2, e2, h⟩ := (bind_ok_iff _ _ _).1 h
  obtain ⟨k2, W', hk2, rfl, g2⟩ := step2_best p hqr hsvd es i A U' V' (A * W) W f2 e2 c2 hW h2
  dsimp only at h
  rw [Mat.dot_mk, except_bind_ok, coreFunction_typed, except_bind_ok] at h
  have h := Except.ok.inj h
  subst h
  exact ⟨k0, k1, k2, U', V', W', hk0, hk1, hk2, rfl, g0.trans (g1.trans g2)⟩

omit hqr hsvd in
/-- the widths of the factors after a sweep -/
theorem sweep_widths (A : Mat ℝ) (inds : List Ind3) (vals : List ℝ) (shape : ℕ × ℕ × ℕ) (f : Fac ℝ)
    (r : Fac ℝ × Ten ℝ) (h : gaSatfSweep p inds vals shape A i f = .ok r) :
    r.1.f0.cols ≤ p.rank.1 ∧ r.1.f1.cols ≤ p.rank.2.1 ∧ r.1.f2.cols ≤ p.rank.2.2 := by
  unfold gaSatfSweep at h
  simp only [modeStep, bind_ok_iff] at h
  obtain ⟨aw, haw, f0, ⟨x0, -, e0⟩, f1, ⟨x1, -, e1⟩, f2, ⟨x2, -, y2, -, e2⟩, aw', -, core, -, h⟩ := h
  cases e0
  cases e1
  cases e2
  cases h
  exact ⟨(leadingCols_shape _ _ _ _ _).2.le.trans (Nat.min_le_left _ _),
    (leadingCols_shape _ _ _ _ _).2.le.trans (Nat.min_le_left _ _),
    (leadingCols_shape _ _ _ _ _).2.le.trans (Nat.min_le_left _ _)⟩
end

/-- **C112** (GA-SATF). In a sequence of sweeps of `ga_satf` whose sketches capture the matrices they are drawn for,
from the first sweep on the core never gets smaller and the reconstruction never moves away from the attended
data. -/
theorem C112_monotone (p : HooiPar ℝ)
    (hqr : ∀ (m n : ℕ) (A : Matrix (Fin m) (Fin n) ℝ), QrOk p.la A)
    (hsvd : ∀ (m n : ℕ) (A : Matrix (Fin m) (Fin n) ℝ), SvdOk p.la A) (es : List (Ent n0 n1 n2 ℝ))
    (A : Matrix (Fin n2) (Fin n2) ℝ) (k : ℕ) (F : ℕ → Fac ℝ) (G : ℕ → Ten ℝ)
    (hrun : SweepRun (gaSatfSweep p (indsOf es) (valsOf es) (n0, n1, n2) ⟨n2, n2, A⟩) k F G)
    (hcap : ∀ j, 1 ≤ j → j < k → SweepCaptures p (indsOf es) (valsOf es) (n0, n1, n2) ⟨n2, n2, A⟩ j (F j))
    (j : ℕ) (hj : 1 ≤ j) (hjk : j < k) :
    ∃ (r0 r1 r2 k0 k1 k2 : ℕ) (U : Matrix (Fin n0) (Fin r0) ℝ) (V : Matrix (Fin n1) (Fin r1) ℝ)
      (W : Matrix (Fin n2) (Fin r2) ℝ) (c : T3 r0 r1 r2 ℝ) (U' : Matrix (Fin n0) (Fin k0) ℝ)
      (V' : Matrix (Fin n1) (Fin k1) ℝ) (W' : Matrix (Fin n2) (Fin k2) ℝ) (c' : T3 k0 k1 k2 ℝ),
      F j = ⟨⟨_, _, U⟩, ⟨_, _, V⟩, ⟨_, _, W⟩⟩ ∧ G j = ⟨_, _, _, c⟩ ∧
      F (j + 1) = ⟨⟨_, _, U'⟩, ⟨_, _, V'⟩, ⟨_, _, W'⟩⟩ ∧ G (j + 1) = ⟨_, _, _, c'⟩ ∧
      (∑ a, ∑ b, ∑ d, c a b d ^ 2) ≤ ∑ a, ∑ b, ∑ d, c' a b d ^ 2 ∧
      (∑ x, ∑ y, ∑ z, ((∑ l, A l z * cooTensor es x y l) - tuckerTensor U' V' W' c' x y z) ^ 2) ≤
        ∑ x, ∑ y, ∑ z, ((∑ l, A l z * cooTensor es x y l) - tuckerTensor U V W c x y z) ^ 2 := by
  have hprev := hrun (j - 1) (by omega)
  rw [Nat.sub_add_cancel hj] at hprev
  have hnext := hrun j hjk
  obtain ⟨r0, r1, r2, U, V, W, e1, e2⟩ := gaSatfSweep_core p es A _ _ _ hprev
  obtain ⟨oU, oV, oW⟩ := gaSatfSweep_orth hqr hsvd hprev
  obtain ⟨w0, w1, w2⟩ := sweep_widths p _ _ _ _ _ _ _ hprev
  obtain ⟨oU', oV', oW'⟩ := gaSatfSweep_orth hqr hsvd hnext
  have hc := hcap j hj hjk
  dsimp only at e1 e2 oU oV oW oU' oV' oW' w0 w1 w2
  rw [e1] at oU oV oW w0 w1 w2 hnext hc
  obtain ⟨k0, k1, k2, U', V', W', -, -, -, he, hle⟩ := sweep_grows p hqr hsvd es j A U V W _ oU oV oW w0 w1 w2 hc hnext
  have he1 := congrArg Prod.fst he
  have he2 := congrArg Prod.snd he
  dsimp only at he1 he2
  rw [he1] at oU' oV' oW'
  refine ⟨r0, r1, r2, k0, k1, k2, U, V, W, _, U', V', W', _, e1, e2, he1, he2, hle, ?_⟩
  rw [coreTensor_attended, coreTensor_attended] at hle ⊢
  have d1 := tenSq_tucker_core (attended A (cooTensor es)) (U := U) (V := V) (W := W) oU oV oW
  have d2 := tenSq_tucker_core (attended A (cooTensor es)) (U := U') (V := V') (W := W') oU' oV' oW'
  have : tenSq (attended A (cooTensor es) - tuckerTensor U' V' W' (coreTensor (attended A (cooTensor es)) U' V' W')) ≤
      tenSq (attended A (cooTensor es) - tuckerTensor U V W (coreTensor (attended A (cooTensor es)) U V W)) := by
    linarith
  exact this

/-- full row rank: there is a right inverse -/
def FullRows {a b : ℕ} (M : Matrix (Fin a) (Fin b) ℝ) : Prop := ∃ B : Matrix (Fin b) (Fin a) ℝ, M * B = 1

/-- a sketch with a random matrix of full row rank captures every matrix -/
theorem full_captures (rng : Rng ℝ) {m n : ℕ} (X : Matrix (Fin m) (Fin n) ℝ) (r nPower os : ℕ)
    (h : FullRows (rng n (r + os))) : Captures rng X r nPower os := by
  obtain ⟨B, hB⟩ := h
  -- the identity captures `X` after the power iterations
  obtain ⟨C, hC⟩ := eyeRng_captures_power X n nPower 0 le_rfl
  have he : eyeRng n (n + 0) = 1 := by
    ext i j
    simp [eyeRng, Matrix.one_apply, Fin.ext_iff]
  rw [sketch_gram, he, Matrix.mul_one] at hC
  refine ⟨B * C, ?_⟩
  rw [sketch_gram, Matrix.mul_assoc, Matrix.mul_assoc, ← Matrix.mul_assoc (rng n (r + os)), hB, Matrix.one_mul]
  rw [Matrix.mul_assoc] at hC
  exact hC

/-- The random matrices drawn in every sweep have full row rank (for Gaussian draws: with probability one as soon
as each rank plus the oversampling is at least the product of the two other ranks). -/
def FullDraws (p : HooiPar ℝ) : Prop :=
  ∀ i, FullRows (p.rsvdRng i 0 (p.rank.2.1 * p.rank.2.2) (p.rank.1 + p.os)) ∧
    FullRows (p.rsvdRng i 1 (p.rank.1 * p.rank.2.2) (p.rank.2.1 + p.os)) ∧
    FullRows (p.rsvdRng i 2 (p.rank.1 * p.rank.2.1) (p.rank.2.2 + p.os))

theorem projected_cols {inds : List Ind3} {vals : List ℝ} {shape : ℕ × ℕ × ℕ} {u v : Mat ℝ}
    {mu mv ru rv : ℕ} {M : Mat ℝ} (h : projected inds vals shape u v mu mv ru rv = .ok M) : M.cols = ru * rv := by
  unfold projected at h
  obtain ⟨t, -, h⟩ := (bind_ok_iff _ _ _).1 h
  unfold Ten.reshapeTo at h
  split at h
  · have h := Except.ok.inj h
    subst h
    rfl
  · split at h <;> cases h

theorem full_sweep (p : HooiPar ℝ) (hf : FullDraws p) (inds : List Ind3) (vals : List ℝ) (shape : ℕ × ℕ × ℕ)
    (att : Mat ℝ) (i : ℕ) (f : Fac ℝ) : SweepCaptures p inds vals shape att i f := by
  have key : ∀ mode f, mode < 3 → StepCaptures p (some att) inds vals shape i mode f := by
    intro mode f hm x hx
    match mode, hm with
    | 0, _ =>
      refine full_captures _ _ _ _ _ ?_
      rw [projected_cols hx]
      exact (hf i).1
    | 1, _ =>
      refine full_captures _ _ _ _ _ ?_
      rw [projected_cols hx]
      exact (hf i).2.1
    | 2, _ =>
      obtain ⟨y, hy, hx⟩ := (bind_ok_iff _ _ _).1 hx
      have : x.cols = y.cols := by
        unfold attMul Mat.dot at hx
        dsimp only at hx
        split at hx
        · have hx := Except.ok.inj hx
          subst hx
          rfl
        · cases hx
      refine full_captures _ _ _ _ _ ?_
      rw [this, projected_cols hy]
      exact (hf i).2.2
  exact fun aw _ => ⟨key 0 _ (by omega), fun f0 _ => ⟨key 1 _ (by omega), fun f1 _ => key 2 _ (by omega)⟩⟩

/-- the Frobenius norm, as computed by `np.linalg.norm` of a three-way array -/
noncomputable def tenFrob (g : Ten ℝ) : ℝ := Real.sqrt (∑ a, ∑ b, ∑ d, g.val a b d ^ 2)

/-- **C112** (whole calls of GA-SATF). With correct QR and SVD routines and random draws of full row rank, the
norms of the cores of a completed call of `ga_satf` never decrease from sweep to sweep: the relative growth
tested by the stopping rule is never negative. -/
theorem C112_ga_satf {τ : Type} (p : HooiPar ℝ)
    (hqr : ∀ (m n : ℕ) (A : Matrix (Fin m) (Fin n) ℝ), QrOk p.la A)
    (hsvd : ∀ (m n : ℕ) (A : Matrix (Fin m) (Fin n) ℝ), SvdOk p.la A) (hf : FullDraws p)
    (es : List (Ent n0 n1 n2 ℝ)) (A : Matrix (Fin n2) (Fin n2) ℝ) (nIter : ℕ) (tol : ℝ)
    (cb : Option (ExitCallback ℝ τ)) (cb0 : τ) (init : Option (Fac ℝ)) (force : Bool) (f : Fac ℝ)
    (g : Option (Ten ℝ)) (cbEnd : τ)
    (h : gaSatf p tenFrob (indsOf es) (valsOf es) (n0, n1, n2) ⟨n2, n2, A⟩ nIter tol cb cb0 init force =
      .ok ((f, g), cbEnd)) :
    ∃ (k : ℕ) (F : ℕ → Fac ℝ) (G : ℕ → Ten ℝ), k ≤ nIter ∧
      SweepRun (gaSatfSweep p (indsOf es) (valsOf es) (n0, n1, n2) ⟨n2, n2, A⟩) k F G ∧
      f = F k ∧ (g = if k = 0 then none else some (G k)) ∧ (force = true → k = nIter) ∧
      (∀ i j, 1 ≤ i → i ≤ j → j ≤ k → tenFrob (G i) ≤ tenFrob (G j)) ∧
      ∀ j, 1 ≤ j → j < k → 0 ≤ (tenFrob (G (j + 1)) - tenFrob (G j)) / (tenFrob (G (j + 1)) + 1 / 10 ^ 8) := by
  obtain ⟨k, F, G, hk, -, hrun, e1, e2, e3, -⟩ := C61_ga_satf_run p tenFrob _ _ _ _ nIter tol cb cb0 init force f g cbEnd h
  have step : ∀ j, 1 ≤ j → j < k → tenFrob (G j) ≤ tenFrob (G (j + 1)) := by
    intro j hj hjk
    obtain ⟨_, _, _, _, _, _, _, _, _, _, _, _, _, _, -, hg, -, hg', hle, -⟩ := C112_monotone p hqr hsvd es A k F G hrun
      (fun j _ _ => full_sweep p hf _ _ _ _ j (F j)) j hj hjk
    rw [hg, hg']
    exact Real.sqrt_le_sqrt hle
  refine ⟨k, F, G, hk, hrun, e1, e2, fun hF => (e3 hF).1, fun i j hi hij hjk => ?_, fun j hj hjk => ?_⟩
  · induction j, hij using Nat.le_induction with
    | base => exact le_rfl
    | succ j hij ih => exact (ih (by omega)).trans (step j (by omega) (by omega))
  · refine div_nonneg (sub_nonneg.2 (step j hj hjk)) ?_
    have : 0 ≤ tenFrob (G (j + 1)) := Real.sqrt_nonneg _
    positivity

/-- exact routines, rank (1, 1, 1), and the identity as random matrix -/
noncomputable def exParM : HooiPar ℝ := ⟨realLA, fun _ => eyeRng, fun _ _ => eyeRng, (1, 1, 1), 1, 2, true⟩

theorem exParM_full : FullDraws exParM := by
  intro i
  have : ∃ B : Matrix (Fin 3) (Fin 1) ℝ, eyeRng 1 3 * B = 1 := by
    refine ⟨!![1; 0; 0], ?_⟩
    ext a b
    fin_cases a; fin_cases b
    simp [Matrix.mul_apply, Fin.sum_univ_succ, eyeRng]
  exact ⟨this, this, this⟩

/-- Five forced sweeps on a tensor that has no exact rank-one decomposition: the norm of the last core is at
least that of the first one. -/
example : ∃ (f : Fac ℝ) (g : Ten ℝ) (F : ℕ → Fac ℝ) (G : ℕ → Ten ℝ) (t : Unit),
    gaSatf (τ := Unit) exParM tenFrob (indsOf exEsR) (valsOf exEsR) (3, 2, 2)
      ⟨2, 2, Matrix.of ![![1, 0], ![3, 1]]⟩ 5 0 none () none true = .ok ((f, some g), t) ∧
    SweepRun (gaSatfSweep exParM (indsOf exEsR) (valsOf exEsR) (3, 2, 2) ⟨2, 2, Matrix.of ![![1, 0], ![3, 1]]⟩) 5 F G ∧
    G 5 = g ∧ tenFrob (G 1) ≤ tenFrob (G 5) := by
  obtain ⟨f, g, t, h, -⟩ := C81_success (τ := Unit) exParM tenFrob exEsR
    (Matrix.of ![![1, 0], ![3, 1]]) 5 0 none () true (fun c hc => by cases hc) (by decide) (by decide)
  obtain ⟨k, F, G, hk, hrun, e1, e2, e3, hmono, -⟩ := C112_ga_satf exParM (fun _ _ => realLA_qr)
    (fun _ _ => realLA_svd) exParM_full exEsR _ 5 0 none () none true f g t h
  have e3 := e3 rfl
  subst e3
  rw [if_neg (by omega)] at e2
  subst e2
  exact ⟨f, _, F, G, t, h, hrun, rfl, hmono 1 5 le_rfl (by omega) le_rfl⟩

end DynCF
