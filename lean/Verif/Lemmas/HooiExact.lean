/-
Steps of the alternating factorisations that lose nothing.
-/
import Verif.Lemmas.GaussianDraws
import Verif.Props.Hosvd

set_option linter.unusedSectionVars false

namespace DynCF
open Matrix
variable {n0 n1 n2 : ℕ}

/-- the tensor as the matrix `t.reshape(d0, d1 * d2)` -/
def flat {a b c : ℕ} (t : T3 a b c ℝ) : Matrix (Fin a) (Fin (b * c)) ℝ := (⟨a, b, c, t⟩ : Ten ℝ).reshape2.val

theorem flat_apply {a b c : ℕ} (t : T3 a b c ℝ) (i : Fin a) (j : Fin b) (k : Fin c) :
    flat t i (finProdFinEquiv (j, k)) = t i j k := by
  simp only [flat, Ten.reshape2, Matrix.of_apply, Equiv.symm_apply_apply]

theorem flat_ext {a b c : ℕ} {M N : Matrix (Fin a) (Fin (b * c)) ℝ}
    (h : ∀ i j k, M i (finProdFinEquiv (j, k)) = N i (finProdFinEquiv (j, k))) : M = N := by
  ext i q
  obtain ⟨⟨j, k⟩, rfl⟩ := finProdFinEquiv.surjective q
  exact h i j k

theorem flat_mul0 {a b c d : ℕ} (P : Matrix (Fin d) (Fin a) ℝ) (t : T3 a b c ℝ) : flat (mul0 P t) = P * flat t := by
  refine flat_ext fun i j k => ?_
  rw [flat_apply, Matrix.mul_apply]
  simp only [mul0, flat_apply]

theorem flat_inj {a b c : ℕ} {s t : T3 a b c ℝ} (h : flat s = flat t) : s = t := by
  funext i j k
  rw [← flat_apply s, h, flat_apply]

theorem reshapeTo_flat {a b c : ℕ} (t : T3 a b c ℝ) :
    (⟨a, b, c, t⟩ : Ten ℝ).reshapeTo (b * c) = .ok ⟨a, b * c, flat t⟩ := by
  unfold Ten.reshapeTo
  rw [dif_pos rfl]
  rfl

/-- a tensor of small rank in the first mode -/
theorem factor_mode0 {a b c : ℕ} (y : T3 a b c ℝ) :
    ∃ (L : Matrix (Fin a) (Fin (unf y).rank) ℝ) (s : T3 (unf y).rank b c ℝ), y = mul0 L s := by
  obtain ⟨L, R, h, -⟩ := rank_factor (unf y)
  refine ⟨L, fun i j k => R i (finProdFinEquiv (k, j)), unf_inj ?_⟩
  rw [unf_mul0]
  refine h.symm.trans (congrArg (L * ·) ?_)
  ext i q
  exact congrArg (R i) (finProdFinEquiv.apply_symm_apply q).symm

/-- Contracting the other two modes loses nothing. -/
theorem rank_contracted {a b c q s : ℕ} (y : T3 a b c ℝ) (V : Matrix (Fin b) (Fin q) ℝ) (W : Matrix (Fin c) (Fin s) ℝ) :
    (flat (mul1 V.transpose (mul2 W.transpose y))).rank ≤ (unf y).rank := by
  obtain ⟨L, t, h⟩ := factor_mode0 y
  conv_lhs => rw [h]
  rw [← mul02_comm, ← mul01_comm, flat_mul0]
  exact (Matrix.rank_mul_le_left _ _).trans (Matrix.rank_le_width _)

/-- The factor keeps everything in the mode it belongs to: a product with some matrix gives the tensor back. -/
def Keeps0 {a b c q : ℕ} (y : T3 a b c ℝ) (U : Matrix (Fin a) (Fin q) ℝ) : Prop :=
  ∃ B : Matrix (Fin a) (Fin q) ℝ, mul0 (B * U.transpose) y = y
def Keeps1 {a b c q : ℕ} (y : T3 a b c ℝ) (U : Matrix (Fin b) (Fin q) ℝ) : Prop :=
  ∃ B : Matrix (Fin b) (Fin q) ℝ, mul1 (B * U.transpose) y = y
def Keeps2 {a b c q : ℕ} (y : T3 a b c ℝ) (U : Matrix (Fin c) (Fin q) ℝ) : Prop :=
  ∃ B : Matrix (Fin c) (Fin q) ℝ, mul2 (B * U.transpose) y = y

/-- a captured matrix of rank at most the requested one is kept by its leading columns -/
theorem leading_keeps (p : HooiPar ℝ) (hla : LaOk p.la) (i mode r : ℕ) {m n : ℕ} (X : Matrix (Fin m) (Fin n) ℝ)
    (hr : X.rank ≤ r) (hc : Captures (p.rsvdRng i mode) X r p.nPower p.os) :
    ∃ (k : ℕ) (U : Matrix (Fin m) (Fin k) ℝ), leadingCols p i mode r ⟨m, n, X⟩ = ⟨m, k, U⟩ ∧
      U * U.transpose * X = X := by
  obtain ⟨B, hB⟩ := hc
  have hrs : RsvdOk p.la (p.rsvdRng i mode) X r p.nPower p.os := ⟨hla.qr _, hla.svd _⟩
  obtain ⟨k, U, s, V, he, hex⟩ := C47_recovery p.la (p.rsvdRng i mode) X r p.nPower p.os hrs B hB hr
  have ho := (C47_orthonormal p.la (p.rsvdRng i mode) X r p.nPower p.os hrs).1
  rw [he] at ho
  dsimp only at ho
  refine ⟨k, Matrix.of fun i j => U i (Fin.rev j), ?_, ?_⟩
  · unfold leadingCols
    rw [he]
    rfl
  · have := revCols_proj U.transpose
    simp only [Matrix.transpose_apply, Matrix.transpose_transpose] at this
    rw [this]
    conv_lhs => rw [← hex]
    rw [Matrix.mul_assoc, Matrix.mul_assoc U, ← Matrix.mul_assoc U.transpose, ho,
      Matrix.one_mul, ← Matrix.mul_assoc, hex]

/-- One step: the new factor of the first mode keeps everything if the other two factors do. -/
theorem step_keeps (p : HooiPar ℝ) (hla : LaOk p.la) (i mode r : ℕ) {a b c q s : ℕ} (y : T3 a b c ℝ)
    (V : Matrix (Fin b) (Fin q) ℝ) (W : Matrix (Fin c) (Fin s) ℝ) (hV : Keeps1 y V) (hW : Keeps2 y W)
    (hr : (unf y).rank ≤ r)
    (hc : Captures (p.rsvdRng i mode) (flat (mul1 V.transpose (mul2 W.transpose y))) r p.nPower p.os) :
    ∃ (k : ℕ) (U : Matrix (Fin a) (Fin k) ℝ),
      leadingCols p i mode r ⟨a, q * s, flat (mul1 V.transpose (mul2 W.transpose y))⟩ = ⟨a, k, U⟩ ∧
      mul0 (U * U.transpose) y = y := by
  obtain ⟨k, U, he, hk⟩ := leading_keeps p hla i mode r _ ((rank_contracted y V W).trans hr) hc
  refine ⟨k, U, he, ?_⟩
  rw [← flat_mul0] at hk
  have hk := flat_inj hk
  obtain ⟨B, hB⟩ := hV
  obtain ⟨C, hC⟩ := hW
  have hy : mul1 B (mul2 C (mul1 V.transpose (mul2 W.transpose y))) = y := by
    rw [← mul12_comm, mul1_mul1, mul2_mul2, hC, hB]
  conv_lhs => rw [← hy]
  rw [mul01_comm, mul02_comm, hk, hy]

section
variable (p : HooiPar ℝ) (hla : LaOk p.la) (es : List (Ent n0 n1 n2 ℝ)) (A : Matrix (Fin n2) (Fin n2) ℝ) (i : ℕ)
  {r0 r1 r2 : ℕ} (U : Matrix (Fin n0) (Fin r0) ℝ) (V : Matrix (Fin n1) (Fin r1) ℝ) (W : Matrix (Fin n2) (Fin r2) ℝ)

/-- the matrix of the step for mode 0 -/
theorem projected0 : projected (indsOf es) (valsOf es) (n0, n1, n2) ⟨_, _, V⟩ ⟨_, _, A * W⟩ 1 2 r1 r2 =
    .ok ⟨n0, r1 * r2, flat (mul1 V.transpose (mul2 W.transpose (attended A (cooTensor es))))⟩ := by
  unfold projected
  dsimp only [tri]
  have h55 := ((C55_tensordot2 es).1 V (A * W)).1
  erw [h55]
  rw [except_bind_ok, reshapeTo_flat]
  congr 3
  have e : mul2 W.transpose (attended A (cooTensor es)) = mul2 (A * W).transpose (cooTensor es) := by
    rw [Matrix.transpose_mul, ← mul2_mul2]
    rfl
  rw [e]
  funext x j k
  simp only [mul1, mul2, Finset.mul_sum, Matrix.transpose_apply]
  exact Finset.sum_congr rfl fun _ _ => Finset.sum_congr rfl fun _ _ => by ring

theorem projected1 : projected (indsOf es) (valsOf es) (n0, n1, n2) ⟨_, _, U⟩ ⟨_, _, A * W⟩ 0 2 r0 r2 =
    .ok ⟨n1, r0 * r2, flat (mul1 U.transpose (mul2 W.transpose (front1 (attended A (cooTensor es)))))⟩ := by
  unfold projected
  dsimp only [tri]
  have h55 := ((C55_tensordot2 es).2.1 U (A * W)).1
  erw [h55]
  rw [except_bind_ok, reshapeTo_flat]
  congr 3
  have e : mul2 W.transpose (front1 (attended A (cooTensor es))) = mul2 (A * W).transpose (front1 (cooTensor es)) := by
    rw [Matrix.transpose_mul, ← mul2_mul2]
    rfl
  rw [e]
  funext x j k
  simp only [front1, mul1, mul2, Finset.mul_sum, Matrix.transpose_apply]
  exact Finset.sum_congr rfl fun _ _ => Finset.sum_congr rfl fun _ _ => by ring

theorem projected2 : (projected (indsOf es) (valsOf es) (n0, n1, n2) ⟨_, _, U⟩ ⟨_, _, V⟩ 0 1 r0 r1).bind
    (attMul (some ⟨n2, n2, A⟩)) =
    .ok ⟨n2, r0 * r1, flat (mul1 U.transpose (mul2 V.transpose (front2 (attended A (cooTensor es)))))⟩ := by
  unfold projected
  dsimp only [tri]
  have h55 := ((C55_tensordot2 es).2.2 U V).1
  erw [h55]
  rw [except_bind_ok, reshapeTo_flat]
  dsimp only [Except.bind, attMul, Mat.T]
  rw [Mat.dot_mk, ← flat_mul0]
  congr 3
  have e : front2 (attended A (cooTensor es)) = mul0 A.transpose (front2 (cooTensor es)) := rfl
  rw [e, ← mul02_comm, ← mul01_comm]
  congr 1
  funext x j k
  simp only [front2, mul1, mul2, Finset.mul_sum, Matrix.transpose_apply]
  exact Finset.sum_congr rfl fun _ _ => Finset.sum_congr rfl fun _ _ => by ring
end

end DynCF
