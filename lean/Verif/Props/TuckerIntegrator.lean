/-
Property theorems C48, C49, C85, C86 (Tucker integrator).
-/
import Verif.Model.TuckerIntegrator
import Verif.Lemmas.Unfold
import Verif.Props.Hooi
import Verif.Props.Psi

set_option linter.unusedSectionVars false

namespace DynCF
open Matrix
variable {K : Type}

section
variable [CommRing K]

/-- the attention matrix as an argument: `None` or a square array -/
def attArg {n : ℕ} (att : Option (Matrix (Fin n) (Fin n) K)) : Option (Mat K) :=
  att.map fun a => ⟨n, n, a⟩

/-- `None` acts as the identity -/
def attVal {n : ℕ} (att : Option (Matrix (Fin n) (Fin n) K)) : Matrix (Fin n) (Fin n) K := att.getD 1

theorem tiAttRight_lt {n r : ℕ} (att : Option (Matrix (Fin n) (Fin n) K)) (i : ℕ) (hi : i < 2)
    (U : Matrix (Fin n) (Fin r) K) :
    tiAttRight (attArg att) i ⟨n, r, U⟩ = .ok ⟨n, r, attVal att * U⟩ := by
  cases att with
  | none => simp [tiAttRight, attArg, attVal]
  | some a => simp [tiAttRight, attArg, attVal, hi]

theorem tiAttRight_two (att : Option (Mat K)) (U : Mat K) : tiAttRight att 2 U = .ok U := by
  cases att <;> rfl

theorem tiAttLeft_lt (att : Option (Mat K)) (i : ℕ) (hi : i < 2) (U : Mat K) :
    tiAttLeft att i U = .ok U := by
  cases att with
  | none => rfl
  | some a => simp [tiAttLeft, show i ≠ 2 by omega]

theorem tiAttLeft_two {n r : ℕ} (att : Option (Matrix (Fin n) (Fin n) K)) (U : Matrix (Fin n) (Fin r) K) :
    tiAttLeft (attArg att) 2 ⟨n, r, U⟩ = .ok ⟨n, r, (attVal att).transpose * U⟩ := by
  cases att <;> simp [tiAttLeft, attArg, attVal]

theorem tiCoreFactor_typed {n r : ℕ} (att : Option (Matrix (Fin n) (Fin n) K))
    (U : Matrix (Fin n) (Fin r) K) :
    tiCoreFactor (attArg att) ⟨n, r, U⟩ = .ok ⟨n, r, attVal att * U⟩ := by
  cases att <;> simp [tiCoreFactor, attArg, attVal]

/-- Steps 3 to 8 for one mode. -/
theorem tiSplit_typed (la : LinAlg K) (hqr : QrAlways la) {n r N : ℕ} (hn : r ≤ n)
    (F : Matrix (Fin n) (Fin r) K) (C : Matrix (Fin r) (Fin N) K) (Q : Matrix (Fin N) (Fin r) K)
    (R : Matrix (Fin r) (Fin r) K) (hQR : Q * R = C.transpose) (da : Matrix (Fin n) (Fin r) K) :
    ∃ (U1 : Matrix (Fin n) (Fin r) K) (S : Matrix (Fin r) (Fin r) K),
      tiSplit la ⟨n, r, F⟩ (⟨N, r, Q⟩, ⟨r, r, R⟩) ⟨n, r, da⟩ =
        .ok (⟨n, r, U1⟩, ⟨r, N, U1.transpose * F * C⟩) ∧
      U1 * S = F * R.transpose + da ∧ U1.transpose * U1 = 1 := by
  obtain ⟨U1, S, hq, hc⟩ := qrM_tall la hn (F * R.transpose + da)
  obtain ⟨hS, hU⟩ := hc (hqr _)
  refine ⟨U1, S, ?_, hS, hU⟩
  have hs : (S - U1.transpose * da) * Q.transpose = U1.transpose * F * C := by
    have h1 : S = U1.transpose * (F * R.transpose + da) := by
      rw [← hS, ← Matrix.mul_assoc, hU, Matrix.one_mul]
    have h2 : C = R.transpose * Q.transpose := by
      rw [← Matrix.transpose_mul, hQR, Matrix.transpose_transpose]
    rw [h1, Matrix.mul_add, add_sub_cancel_right, h2, Matrix.mul_assoc, Matrix.mul_assoc,
      Matrix.mul_assoc]
  unfold tiSplit
  simp only [Mat.T_mk, Mat.dot_mk, except_bind_ok, Mat.add_mk, hq, Mat.sub_mk, hs]
  rfl

/-- what is known about iteration results: the new factor `U1` has orthonormal columns and spans
`F s0 + da` -/
structure ModeOk {n r N : ℕ} (F : Matrix (Fin n) (Fin r) K) (C : Matrix (Fin r) (Fin N) K)
    (da : Matrix (Fin N) (Fin r) K → Matrix (Fin n) (Fin r) K) (U1 : Matrix (Fin n) (Fin r) K) : Prop where
  orth : U1.transpose * U1 = 1
  span : ∃ (Q : Matrix (Fin N) (Fin r) K) (R S : Matrix (Fin r) (Fin r) K),
    Q * R = C.transpose ∧ Q.transpose * Q = 1 ∧ U1 * S = F * R.transpose + da Q

variable {n0 n1 n2 r0 r1 r2 : ℕ} [DecidableEq K]

/-- the entries used by the blocked product -/
def usedEntries (es : List (Ent n0 n1 n2 K)) : List (Ent n0 n1 n2 K) :=
  es.take (es.length / min 10000 es.length * min 10000 es.length)

theorem tiMode_0 (la : LinAlg K) (hqr : QrAlways la) (es : List (Ent n0 n1 n2 K)) (hes : es ≠ [])
    (att : Option (Matrix (Fin n2) (Fin n2) K)) (hr : r0 ≤ r2 * r1) (hn : r0 ≤ n0)
    (U : Matrix (Fin n0) (Fin r0) K) (F1 F2 : Mat K) (c : T3 r0 r1 r2 K)
    (V : Matrix (Fin n1) (Fin r1) K) (W : Matrix (Fin n2) (Fin r2) K) :
    ∃ U1 : Matrix (Fin n0) (Fin r0) K,
      tiMode la ⟨⟨n0, r0, U⟩, F1, F2⟩ (indsOf es) (valsOf es) (n0, n1, n2) (attArg att) 0
        ⟨⟨r0, r1, r2, c⟩, ⟨n1, r1, V⟩, ⟨n2, r2, W⟩⟩ =
        .ok (⟨n0, r0, U1⟩, ⟨⟨r0, r1, r2, mul0 (U1.transpose * U) c⟩, ⟨n0, r0, U1⟩,
          ⟨n2, r2, attVal att * W⟩⟩) ∧
      ModeOk U (unf c) (projUnfold (cooTensor (usedEntries es)) V (attVal att * W)) U1 := by
  obtain ⟨Q, R, hq, hc⟩ := qrM_tall la hr (unf c).transpose
  obtain ⟨hQR, hQQ⟩ := hc (hqr _)
  obtain ⟨U1, S, h1, h2, h3⟩ := tiSplit_typed la hqr hn U (unf c) Q R hQR
    (projUnfold (cooTensor (usedEntries es)) V (attVal att * W) Q)
  refine ⟨U1, ?_, h3, Q, R, S, hQR, hQQ, h2⟩
  have hx := (C56_exact es hes (usedEntries es) rfl Q).1 V (attVal att * W)
  unfold tiMode tiIncrement
  simp only [Nat.cast_zero, unfoldDense_0, except_bind_ok, Mat.T_mk, hq, tiAttRight_lt _ 0 (by decide),
    hx, tiAttLeft_lt _ 0 (by decide), pure, Except.pure, Fac.at, h1]
  rw [← unf_mul0, show Ten.shape (⟨r0, r1, r2, c⟩ : Ten K) = (r0, r1, r2) from rfl, foldDense_0]
  rfl

theorem tiMode_1 (la : LinAlg K) (hqr : QrAlways la) (es : List (Ent n0 n1 n2 K)) (hes : es ≠ [])
    (att : Option (Matrix (Fin n2) (Fin n2) K)) (hr : r1 ≤ r2 * r0) (hn : r1 ≤ n1)
    (V : Matrix (Fin n1) (Fin r1) K) (F0 F2 : Mat K) (c : T3 r0 r1 r2 K)
    (U : Matrix (Fin n0) (Fin r0) K) (W : Matrix (Fin n2) (Fin r2) K) :
    ∃ V1 : Matrix (Fin n1) (Fin r1) K,
      tiMode la ⟨F0, ⟨n1, r1, V⟩, F2⟩ (indsOf es) (valsOf es) (n0, n1, n2) (attArg att) 1
        ⟨⟨r0, r1, r2, c⟩, ⟨n0, r0, U⟩, ⟨n2, r2, W⟩⟩ =
        .ok (⟨n1, r1, V1⟩, ⟨⟨r0, r1, r2, mul1 (V1.transpose * V) c⟩, ⟨n0, r0, U⟩, ⟨n1, r1, V1⟩⟩) ∧
      ModeOk V (unf (front1 c)) (projUnfold (front1 (cooTensor (usedEntries es))) U (attVal att * W)) V1 := by
  obtain ⟨Q, R, hq, hc⟩ := qrM_tall la hr (unf (front1 c)).transpose
  obtain ⟨hQR, hQQ⟩ := hc (hqr _)
  obtain ⟨V1, S, h1, h2, h3⟩ := tiSplit_typed la hqr hn V (unf (front1 c)) Q R hQR
    (projUnfold (front1 (cooTensor (usedEntries es))) U (attVal att * W) Q)
  refine ⟨V1, ?_, h3, Q, R, S, hQR, hQQ, h2⟩
  have hx := (C56_exact es hes (usedEntries es) rfl Q).2.1 U (attVal att * W)
  unfold tiMode tiIncrement
  simp only [Nat.cast_one, unfoldDense_1, except_bind_ok, Mat.T_mk, hq, tiAttRight_lt _ 1 (by decide),
    hx, tiAttLeft_lt _ 1 (by decide), pure, Except.pure, Fac.at, h1]
  rw [← unf_mul0, ← front1_mul1, show Ten.shape (⟨r0, r1, r2, c⟩ : Ten K) = (r0, r1, r2) from rfl,
    foldDense_1]
  rfl

theorem tiMode_2 (la : LinAlg K) (hqr : QrAlways la) (es : List (Ent n0 n1 n2 K)) (hes : es ≠ [])
    (att : Option (Matrix (Fin n2) (Fin n2) K)) (hr : r2 ≤ r1 * r0) (hn : r2 ≤ n2)
    (W : Matrix (Fin n2) (Fin r2) K) (F0 F1 : Mat K) (c : T3 r0 r1 r2 K)
    (U : Matrix (Fin n0) (Fin r0) K) (V : Matrix (Fin n1) (Fin r1) K) :
    ∃ W1 : Matrix (Fin n2) (Fin r2) K,
      tiMode la ⟨F0, F1, ⟨n2, r2, W⟩⟩ (indsOf es) (valsOf es) (n0, n1, n2) (attArg att) 2
        ⟨⟨r0, r1, r2, c⟩, ⟨n0, r0, U⟩, ⟨n1, r1, V⟩⟩ =
        .ok (⟨n2, r2, W1⟩, ⟨⟨r0, r1, r2, mul2 (W1.transpose * W) c⟩, ⟨n0, r0, U⟩, ⟨n2, r2, W1⟩⟩) ∧
      ModeOk W (unf (front2 c)) (fun Q => (attVal att).transpose *
        projUnfold (front2 (cooTensor (usedEntries es))) U V Q) W1 := by
  obtain ⟨Q, R, hq, hc⟩ := qrM_tall la hr (unf (front2 c)).transpose
  obtain ⟨hQR, hQQ⟩ := hc (hqr _)
  obtain ⟨W1, S, h1, h2, h3⟩ := tiSplit_typed la hqr hn W (unf (front2 c)) Q R hQR
    ((attVal att).transpose * projUnfold (front2 (cooTensor (usedEntries es))) U V Q)
  refine ⟨W1, ?_, h3, Q, R, S, hQR, hQQ, h2⟩
  have hx := (C56_exact es hes (usedEntries es) rfl Q).2.2 U V
  unfold tiMode tiIncrement
  simp only [Nat.cast_ofNat, unfoldDense_2, except_bind_ok, Mat.T_mk, hq, tiAttRight_two,
    hx, tiAttLeft_two, pure, Except.pure, Fac.at, h1]
  rw [← unf_mul0, ← front2_mul2, show Ten.shape (⟨r0, r1, r2, c⟩ : Ten K) = (r0, r1, r2) from rfl,
    foldDense_2]
  rfl

theorem Ten.add_mk (a b : T3 n0 n1 n2 K) :
    Ten.add ⟨n0, n1, n2, a⟩ ⟨n0, n1, n2, b⟩ = .ok ⟨n0, n1, n2, a + b⟩ := by
  unfold Ten.add
  rw [dif_pos ⟨rfl, rfl, rfl⟩]
  rfl

/-- the dimensions for which the integrator works: the core is not larger than the factors allow -/
structure TIDims (n0 n1 n2 r0 r1 r2 : ℕ) : Prop where
  h0 : r0 ≤ r2 * r1
  h1 : r1 ≤ r2 * r0
  h2 : r2 ≤ r1 * r0
  n0 : r0 ≤ n0
  n1 : r1 ≤ n1
  n2 : r2 ≤ n2

/-- The whole run of the integrator. -/
theorem tuckerIntegrator_run (la : LinAlg K) (hqr : QrAlways la) (es : List (Ent n0 n1 n2 K))
    (hes : es ≠ []) (att : Option (Matrix (Fin n2) (Fin n2) K)) (hd : TIDims n0 n1 n2 r0 r1 r2)
    (U : Matrix (Fin n0) (Fin r0) K) (V : Matrix (Fin n1) (Fin r1) K) (W : Matrix (Fin n2) (Fin r2) K)
    (c : T3 r0 r1 r2 K) (par : Bool) :
    ∃ (U1 : Matrix (Fin n0) (Fin r0) K) (V1 : Matrix (Fin n1) (Fin r1) K) (W1 : Matrix (Fin n2) (Fin r2) K),
      tuckerIntegrator la ⟨⟨_, _, U⟩, ⟨_, _, V⟩, ⟨_, _, W⟩⟩ ⟨_, _, _, c⟩ (indsOf es) (valsOf es)
        (n0, n1, n2) par (attArg att) =
        .ok (⟨⟨_, _, U1⟩, ⟨_, _, V1⟩, ⟨_, _, W1⟩⟩, ⟨r0, r1, r2,
          mul2 (W1.transpose * W) (mul1 (V1.transpose * V) (mul0 (U1.transpose * U) c)) +
            coreTensor (cooTensor es) U1 V1 (attVal att * W1)⟩) ∧
      ModeOk U (unf c) (projUnfold (cooTensor (usedEntries es)) V (attVal att * W)) U1 ∧
      ModeOk V (unf (front1 (mul0 (U1.transpose * U) c)))
        (projUnfold (front1 (cooTensor (usedEntries es))) U1 (attVal att * (attVal att * W))) V1 ∧
      ModeOk W (unf (front2 (mul1 (V1.transpose * V) (mul0 (U1.transpose * U) c))))
        (fun Q => (attVal att).transpose * projUnfold (front2 (cooTensor (usedEntries es))) U1 V1 Q) W1 := by
  obtain ⟨U1, e0, m0⟩ := tiMode_0 la hqr es hes att hd.h0 hd.n0 U ⟨_, _, V⟩ ⟨_, _, W⟩ c V W
  obtain ⟨V1, e1, m1⟩ := tiMode_1 la hqr es hes att hd.h1 hd.n1 V ⟨_, _, U⟩ ⟨_, _, W⟩
    (mul0 (U1.transpose * U) c) U1 (attVal att * W)
  obtain ⟨W1, e2, m2⟩ := tiMode_2 la hqr es hes att hd.h2 hd.n2 W ⟨_, _, U⟩ ⟨_, _, V⟩
    (mul1 (V1.transpose * V) (mul0 (U1.transpose * U) c)) U1 V1
  refine ⟨U1, V1, W1, ?_, m0, m1, m2⟩
  unfold tuckerIntegrator
  simp only [e0, e1, e2, except_bind_ok, tiCoreFactor_typed, coreFunction_typed, Ten.add_mk]
  rfl

/-- **C85.** The integrator (with or without attention, sequential or parallel core) returns factors
with orthonormal columns, and the returned core is the projection on them of the old tensor plus the
increment, whose position mode is multiplied by the transposed attention matrix. -/
theorem C85_projection (la : LinAlg K) (hqr : QrAlways la) (es : List (Ent n0 n1 n2 K))
    (hes : es ≠ []) (att : Option (Matrix (Fin n2) (Fin n2) K)) (hd : TIDims n0 n1 n2 r0 r1 r2)
    (U : Matrix (Fin n0) (Fin r0) K) (V : Matrix (Fin n1) (Fin r1) K) (W : Matrix (Fin n2) (Fin r2) K)
    (c : T3 r0 r1 r2 K) (par : Bool) :
    ∃ (U1 : Matrix (Fin n0) (Fin r0) K) (V1 : Matrix (Fin n1) (Fin r1) K) (W1 : Matrix (Fin n2) (Fin r2) K),
      tuckerIntegrator la ⟨⟨_, _, U⟩, ⟨_, _, V⟩, ⟨_, _, W⟩⟩ ⟨_, _, _, c⟩ (indsOf es) (valsOf es)
        (n0, n1, n2) par (attArg att) =
        .ok (⟨⟨_, _, U1⟩, ⟨_, _, V1⟩, ⟨_, _, W1⟩⟩, ⟨r0, r1, r2,
          coreTensor (fun i j k => tuckerTensor U V W c i j k +
            ∑ l, attVal att l k * cooTensor es i j l) U1 V1 W1⟩) ∧
      U1.transpose * U1 = 1 ∧ V1.transpose * V1 = 1 ∧ W1.transpose * W1 = 1 := by
  obtain ⟨U1, V1, W1, h, m0, m1, m2⟩ := tuckerIntegrator_run la hqr es hes att hd U V W c par
  refine ⟨U1, V1, W1, ?_, m0.orth, m1.orth, m2.orth⟩
  rw [h]
  have hx : (fun i j k => tuckerTensor U V W c i j k + ∑ l, attVal att l k * cooTensor es i j l) =
      mul0 U (mul1 V (mul2 W c)) + mul2 (attVal att).transpose (cooTensor es) := by
    rw [← tuckerTensor_eq]; rfl
  rw [hx, coreTensor_eq, coreTensor_eq, mul2_add, mul1_add, mul0_add, mul2_mul2,
    Matrix.transpose_mul]
  congr 4
  rw [← mul02_comm U, ← mul12_comm V, mul2_mul2, ← mul01_comm U, mul1_mul1, mul0_mul0,
    mul12_comm, mul02_comm, mul01_comm]

/-- without an increment the old columns are kept -/
theorem ModeOk.keep {n r N : ℕ} {F : Matrix (Fin n) (Fin r) K} {C : Matrix (Fin r) (Fin N) K}
    {da : Matrix (Fin N) (Fin r) K → Matrix (Fin n) (Fin r) K} {U1 : Matrix (Fin n) (Fin r) K}
    (h : ModeOk F C da U1) (hz : ∀ Q, da Q = 0) : U1 * (U1.transpose * F * C) = F * C := by
  obtain ⟨Q, R, S, hQR, -, hS⟩ := h.span
  have hC : C = R.transpose * Q.transpose := by
    rw [← Matrix.transpose_mul, hQR, Matrix.transpose_transpose]
  have hF : F * C = U1 * (S * Q.transpose) := by
    rw [hC, ← Matrix.mul_assoc, ← Matrix.mul_assoc, hS, hz, add_zero]
  rw [Matrix.mul_assoc, hF, ← Matrix.mul_assoc U1.transpose, h.orth, Matrix.one_mul]

theorem mul0_keep {U U1 : Matrix (Fin n0) (Fin r0) K} {c : T3 r0 n1 n2 K}
    (h : U1 * (U1.transpose * U * unf c) = U * unf c) :
    mul0 U1 (mul0 (U1.transpose * U) c) = mul0 U c :=
  unf_inj (by rw [unf_mul0, unf_mul0, unf_mul0, h])
theorem mul1_keep {U U1 : Matrix (Fin n1) (Fin r1) K} {c : T3 n0 r1 n2 K}
    (h : U1 * (U1.transpose * U * unf (front1 c)) = U * unf (front1 c)) :
    mul1 U1 (mul1 (U1.transpose * U) c) = mul1 U c :=
  front1_inj (by rw [front1_mul1, front1_mul1, front1_mul1, mul0_keep h])
theorem mul2_keep {U U1 : Matrix (Fin n2) (Fin r2) K} {c : T3 n0 n1 r2 K}
    (h : U1 * (U1.transpose * U * unf (front2 c)) = U * unf (front2 c)) :
    mul2 U1 (mul2 (U1.transpose * U) c) = mul2 U c :=
  front2_inj (by rw [front2_mul2, front2_mul2, front2_mul2, mul0_keep h])

theorem mul0_zero (A : Matrix (Fin r0) (Fin n0) K) : mul0 A (0 : T3 n0 n1 n2 K) = 0 :=
  unf_inj (by rw [unf_mul0, unf_zero, unf_zero, Matrix.mul_zero])
theorem mul1_zero (A : Matrix (Fin r1) (Fin n1) K) : mul1 A (0 : T3 n0 n1 n2 K) = 0 :=
  front1_inj (mul0_zero A)
theorem mul2_zero (A : Matrix (Fin r2) (Fin n2) K) : mul2 A (0 : T3 n0 n1 n2 K) = 0 :=
  front2_inj (mul0_zero A)

theorem projUnfold_zero {s : ℕ} (V : Matrix (Fin n1) (Fin r1) K) (W : Matrix (Fin n2) (Fin r2) K)
    (Q : Matrix (Fin (r2 * r1)) (Fin s) K) : projUnfold (0 : T3 n0 n1 n2 K) V W Q = 0 := by
  rw [projUnfold_eq, mul2_zero, mul1_zero, unf_zero, Matrix.zero_mul]

/-- The common part of C48: both the whole increment and the part used by the blocked product vanish. -/
theorem ti_unchanged (la : LinAlg K) (hqr : QrAlways la) (es : List (Ent n0 n1 n2 K))
    (hes : es ≠ []) (hz : cooTensor es = 0) (hu : cooTensor (usedEntries es) = 0)
    (att : Option (Matrix (Fin n2) (Fin n2) K)) (hd : TIDims n0 n1 n2 r0 r1 r2)
    (U : Matrix (Fin n0) (Fin r0) K) (V : Matrix (Fin n1) (Fin r1) K) (W : Matrix (Fin n2) (Fin r2) K)
    (c : T3 r0 r1 r2 K) (par : Bool) :
    ∃ (U1 : Matrix (Fin n0) (Fin r0) K) (V1 : Matrix (Fin n1) (Fin r1) K) (W1 : Matrix (Fin n2) (Fin r2) K)
      (c1 : T3 r0 r1 r2 K),
      tuckerIntegrator la ⟨⟨_, _, U⟩, ⟨_, _, V⟩, ⟨_, _, W⟩⟩ ⟨_, _, _, c⟩ (indsOf es) (valsOf es)
        (n0, n1, n2) par (attArg att) =
        .ok (⟨⟨_, _, U1⟩, ⟨_, _, V1⟩, ⟨_, _, W1⟩⟩, ⟨_, _, _, c1⟩) ∧
      tuckerTensor U1 V1 W1 c1 = tuckerTensor U V W c := by
  obtain ⟨U1, V1, W1, h, m0, m1, m2⟩ := tuckerIntegrator_run la hqr es hes att hd U V W c par
  refine ⟨U1, V1, W1, _, h, ?_⟩
  have k0 := mul0_keep (m0.keep fun Q => by rw [hu, projUnfold_zero])
  have k1 := mul1_keep (m1.keep fun Q => by
    rw [hu, show front1 (0 : T3 n0 n1 n2 K) = 0 from rfl, projUnfold_zero])
  have k2 := mul2_keep (m2.keep fun Q => by
    rw [hu, show front2 (0 : T3 n0 n1 n2 K) = 0 from rfl, projUnfold_zero, Matrix.mul_zero])
  rw [hz, coreTensor_eq, mul2_zero, mul1_zero, mul0_zero, add_zero, tuckerTensor_eq, tuckerTensor_eq,
    k2, mul12_comm V1, k1, ← mul12_comm V, mul01_comm U1, mul02_comm U1, k0, ← mul02_comm U,
    ← mul01_comm U]

/-- **C48 (partial).** If the increment tensor is zero the integrator returns factors and a core of the
same tensor. Missing: the empty list of entries (`C48_violated_empty`) and lists of more than 10000
entries whose number is not a multiple of 10000 and whose values cancel (the code ignores the last
entries, C56; see `C48_violated_long`). -/
theorem C48_zero_increment_partial (la : LinAlg K) (hqr : QrAlways la) (es : List (Ent n0 n1 n2 K))
    (hes : es ≠ []) (hlen : es.length ≤ 10000 ∨ 10000 ∣ es.length) (hz : ∀ i j k, cooTensor es i j k = 0)
    (att : Option (Matrix (Fin n2) (Fin n2) K)) (hd : TIDims n0 n1 n2 r0 r1 r2)
    (U : Matrix (Fin n0) (Fin r0) K) (V : Matrix (Fin n1) (Fin r1) K) (W : Matrix (Fin n2) (Fin r2) K)
    (c : T3 r0 r1 r2 K) (par : Bool) :
    ∃ (U1 : Matrix (Fin n0) (Fin r0) K) (V1 : Matrix (Fin n1) (Fin r1) K) (W1 : Matrix (Fin n2) (Fin r2) K)
      (c1 : T3 r0 r1 r2 K),
      tuckerIntegrator la ⟨⟨_, _, U⟩, ⟨_, _, V⟩, ⟨_, _, W⟩⟩ ⟨_, _, _, c⟩ (indsOf es) (valsOf es)
        (n0, n1, n2) par (attArg att) =
        .ok (⟨⟨_, _, U1⟩, ⟨_, _, V1⟩, ⟨_, _, W1⟩⟩, ⟨_, _, _, c1⟩) ∧
      tuckerTensor U1 V1 W1 c1 = tuckerTensor U V W c := by
  have hz' : cooTensor es = 0 := by funext i j k; exact hz i j k
  refine ti_unchanged la hqr es hes hz' ?_ att hd U V W c par
  rw [usedEntries, used_all es hlen, hz']

theorem cooTensor_of_zero (es : List (Ent n0 n1 n2 K)) (h : ∀ e ∈ es, e.2 = 0) : cooTensor es = 0 := by
  funext i j k
  unfold cooTensor
  refine List.sum_eq_zero fun x hx => ?_
  obtain ⟨e, he, rfl⟩ := List.mem_map.1 hx
  exact h e (List.mem_filter.1 he).1

/-- **C48** when every entry has the value 0: any number of entries. -/
theorem C48_zero_values (la : LinAlg K) (hqr : QrAlways la) (es : List (Ent n0 n1 n2 K))
    (hes : es ≠ []) (hz : ∀ e ∈ es, e.2 = 0)
    (att : Option (Matrix (Fin n2) (Fin n2) K)) (hd : TIDims n0 n1 n2 r0 r1 r2)
    (U : Matrix (Fin n0) (Fin r0) K) (V : Matrix (Fin n1) (Fin r1) K) (W : Matrix (Fin n2) (Fin r2) K)
    (c : T3 r0 r1 r2 K) (par : Bool) :
    ∃ (U1 : Matrix (Fin n0) (Fin r0) K) (V1 : Matrix (Fin n1) (Fin r1) K) (W1 : Matrix (Fin n2) (Fin r2) K)
      (c1 : T3 r0 r1 r2 K),
      tuckerIntegrator la ⟨⟨_, _, U⟩, ⟨_, _, V⟩, ⟨_, _, W⟩⟩ ⟨_, _, _, c⟩ (indsOf es) (valsOf es)
        (n0, n1, n2) par (attArg att) =
        .ok (⟨⟨_, _, U1⟩, ⟨_, _, V1⟩, ⟨_, _, W1⟩⟩, ⟨_, _, _, c1⟩) ∧
      tuckerTensor U1 V1 W1 c1 = tuckerTensor U V W c :=
  ti_unchanged la hqr es hes (cooTensor_of_zero es hz)
    (cooTensor_of_zero _ fun e he => hz e (List.mem_of_mem_take he)) att hd U V W c par

/-- A mode whose increment is exact: if `X` is in the column space of the matrix `G` whose product with
`unf c` the step captures, then `U1` captures `X`. -/
theorem ModeOk.capture {n r N M : ℕ} {F : Matrix (Fin n) (Fin r) K} {C : Matrix (Fin r) (Fin N) K}
    {da : Matrix (Fin N) (Fin r) K → Matrix (Fin n) (Fin r) K} {U1 : Matrix (Fin n) (Fin r) K}
    (h : ModeOk F C da U1) (B : Matrix (Fin n) (Fin N) K) (D : Matrix (Fin n) (Fin N) K)
    (hda : ∀ Q, da Q = D * Q) (hB : B = F * C + D)
    (X : Matrix (Fin n) (Fin M) K) (Z : Matrix (Fin r) (Fin M) K)
    (hX : X = B * C.transpose * Z) : U1 * U1.transpose * X = X := by
  obtain ⟨Q, R, S, hQR, hQQ, hS⟩ := h.span
  have hC : C = R.transpose * Q.transpose := by
    rw [← Matrix.transpose_mul, hQR, Matrix.transpose_transpose]
  have hBQ : B * Q = U1 * S := by
    rw [hS, hB, hda, Matrix.add_mul, hC, Matrix.mul_assoc, Matrix.mul_assoc, hQQ, Matrix.mul_one]
  have hXU : X = U1 * (S * R * Z) := by
    rw [hX, ← hQR, ← Matrix.mul_assoc B, hBQ, Matrix.mul_assoc, Matrix.mul_assoc, Matrix.mul_assoc]
  rw [hXU, Matrix.mul_assoc, ← Matrix.mul_assoc U1.transpose, h.orth, Matrix.one_mul]

/-- **C86 (partial).** Exactness: let `A1` be the old tensor plus the increment (weighted by the attention). If
the row space of every unfolding of `A1` is reached through the old factors of the other modes (the
matrices `M0`, `M1`, `M2`; in particular `A1` has Tucker rank at most the model's), the integrator
returns exactly `A1`. Missing: more than 10000 entries whose number is no multiple of 10000 (`C86_violated_long`) and
an attention matrix with `A A W ≠ A W` (`C86_violated_attention`). -/
theorem C86_exact_partial (la : LinAlg K) (hqr : QrAlways la) (es : List (Ent n0 n1 n2 K))
    (hes : es ≠ []) (hlen : es.length ≤ 10000 ∨ 10000 ∣ es.length)
    (att : Option (Matrix (Fin n2) (Fin n2) K)) (hd : TIDims n0 n1 n2 r0 r1 r2)
    (U : Matrix (Fin n0) (Fin r0) K) (V : Matrix (Fin n1) (Fin r1) K) (W : Matrix (Fin n2) (Fin r2) K)
    (hV : V.transpose * V = 1) (hW : W.transpose * W = 1)
    (hA : attVal att * (attVal att * W) = attVal att * W)
    (c : T3 r0 r1 r2 K) (par : Bool) (A1 : T3 n0 n1 n2 K)
    (hA1 : ∀ i j k, A1 i j k = tuckerTensor U V W c i j k + ∑ l, attVal att l k * cooTensor es i j l)
    (M0 : Matrix (Fin r0) (Fin (n2 * n1)) K)
    (hM0 : unf A1 = unf A1 * (unf (tuckerTensor 1 V W c)).transpose * M0)
    (M1 : Matrix (Fin r1) (Fin (n2 * n0)) K)
    (hM1 : unf (front1 A1) = unf (front1 A1) * (unf (front1 (tuckerTensor U 1 W c))).transpose * M1)
    (M2 : Matrix (Fin r2) (Fin (n1 * n0)) K)
    (hM2 : unf (front2 A1) = unf (front2 A1) * (unf (front2 (tuckerTensor U V 1 c))).transpose * M2) :
    ∃ (U1 : Matrix (Fin n0) (Fin r0) K) (V1 : Matrix (Fin n1) (Fin r1) K) (W1 : Matrix (Fin n2) (Fin r2) K)
      (c1 : T3 r0 r1 r2 K),
      tuckerIntegrator la ⟨⟨_, _, U⟩, ⟨_, _, V⟩, ⟨_, _, W⟩⟩ ⟨_, _, _, c⟩ (indsOf es) (valsOf es)
        (n0, n1, n2) par (attArg att) =
        .ok (⟨⟨_, _, U1⟩, ⟨_, _, V1⟩, ⟨_, _, W1⟩⟩, ⟨_, _, _, c1⟩) ∧
      tuckerTensor U1 V1 W1 c1 = A1 := by
  obtain ⟨U1, V1, W1, h, m0, m1, m2⟩ := tuckerIntegrator_run la hqr es hes att hd U V W c par
  obtain ⟨U1', V1', W1', h', -⟩ := C85_projection la hqr es hes att hd U V W c par
  have hA1' : A1 = mul0 U (mul1 V (mul2 W c)) + mul2 (attVal att).transpose (cooTensor es) := by
    rw [← tuckerTensor_eq]; funext i j k; exact hA1 i j k
  have hA1'' : (fun i j k => tuckerTensor U V W c i j k + ∑ l, attVal att l k * cooTensor es i j l) = A1 := by
    funext i j k; rw [hA1]
  have hu : usedEntries es = es := used_all es hlen
  rw [hu] at m0 m1 m2
  rw [hA1''] at h'
  rw [tuckerTensor_eq, mul0_one] at hM0
  rw [tuckerTensor_eq, mul1_one] at hM1
  rw [tuckerTensor_eq, mul2_one] at hM2
  generalize attVal att = a at *
  generalize cooTensor es = x at *
  -- user step
  have p0 : mul0 (U1 * U1.transpose) A1 = A1 := by
    apply unf_inj
    rw [unf_mul0]
    refine m0.capture (unf (mul1 V.transpose (mul2 W.transpose A1)))
      (unf (mul1 V.transpose (mul2 (a * W).transpose x))) (fun Q => projUnfold_eq _ _ _ _) ?_ _ M0 ?_
    · rw [← unf_mul0, ← unf_add, hA1', mul2_add, mul1_add, ← mul02_comm U, ← mul12_comm V, mul2_mul2,
        hW, mul2_one, ← mul01_comm U, mul1_mul1, hV, mul1_one, mul2_mul2, Matrix.transpose_mul]
    · rw [unf_mul1_adj, unf_mul2_adj, ← mul12_comm V]
      exact hM0
  -- item step
  have p1 : mul1 (V1 * V1.transpose) A1 = A1 := by
    apply front1_inj
    rw [front1_mul1]
    apply unf_inj
    rw [unf_mul0]
    refine m1.capture (unf (mul1 U1.transpose (mul2 W.transpose (front1 A1))))
      (unf (mul1 U1.transpose (mul2 (a * W).transpose (front1 x))))
      (fun Q => by rw [hA]; exact projUnfold_eq _ _ _ _) ?_ _ M1 ?_
    · rw [← unf_mul0, ← unf_add, hA1', ← front1_mul2, ← front1_mul0, ← front1_mul2, ← front1_mul0,
        ← front1_mul1, ← front1_add, mul2_add, mul0_add, ← mul02_comm U, ← mul12_comm V, mul2_mul2,
        hW, mul2_one, mul0_mul0, mul2_mul2, Matrix.transpose_mul, mul01_comm]
    · rw [unf_mul1_adj, unf_mul2_adj, ← front1_mul0, ← front1_mul2, mul0_mul0]
      rw [show unf (front1 A1) * (unf (front1 (mul2 W (mul0 (U1 * (U1.transpose * U)) c)))).transpose =
        unf (front1 A1) * (unf (front1 (mul0 U (mul2 W c)))).transpose from ?_]
      · exact hM1
      · rw [← Matrix.mul_assoc, ← mul02_comm, ← mul0_mul0, front1_mul0, ← unf_mul1_adj,
          Matrix.transpose_mul, Matrix.transpose_transpose, ← front1_mul0, p0]
  -- position step
  have p2 : mul2 (W1 * W1.transpose) A1 = A1 := by
    apply front2_inj
    rw [front2_mul2]
    apply unf_inj
    rw [unf_mul0]
    refine m2.capture (unf (mul1 U1.transpose (mul2 V1.transpose (front2 A1))))
      (unf (mul0 a.transpose (mul1 U1.transpose (mul2 V1.transpose (front2 x)))))
      (fun Q => by rw [unf_mul0, Matrix.mul_assoc, ← projUnfold_eq]) ?_ _ M2 ?_
    · rw [← unf_mul0, ← unf_add, hA1', ← front2_mul1, ← front2_mul0, ← front2_mul1, ← front2_mul0,
        ← front2_mul2, ← front2_mul2, ← front2_add, mul1_add, mul0_add, ← mul01_comm U, mul1_mul1,
        mul0_mul0, mul12_comm V1.transpose, mul02_comm U1.transpose, mul12_comm (V1.transpose * V),
        mul02_comm (U1.transpose * U), mul01_comm]
    · rw [unf_mul1_adj, unf_mul2_adj, ← front2_mul0, ← front2_mul1]
      rw [show unf (front2 A1) * (unf (front2 (mul1 V1 (mul0 U1 (mul1 (V1.transpose * V)
          (mul0 (U1.transpose * U) c)))))).transpose =
        unf (front2 A1) * (unf (front2 (mul0 U (mul1 V c)))).transpose from ?_]
      · exact hM2
      · rw [mul01_comm U1, mul0_mul0, mul1_mul1, ← Matrix.mul_assoc, ← Matrix.mul_assoc, ← mul1_mul1,
          front2_mul1, ← unf_mul2_adj, Matrix.transpose_mul, Matrix.transpose_transpose, ← front2_mul1, p1,
          ← mul0_mul0, ← mul01_comm, ← mul01_comm, front2_mul0, ← unf_mul1_adj, Matrix.transpose_mul,
          Matrix.transpose_transpose, ← front2_mul0, p0]
  refine ⟨U1', V1', W1', _, h', ?_⟩
  have he := h.symm.trans h'
  injection he with he
  injection he with he1 he2
  injection he1 with e0 e1 e2
  injection e0 with _ _ e0
  injection e1 with _ _ e1
  injection e2 with _ _ e2
  subst e0 e1 e2
  rw [tuckerTensor_eq, coreTensor_eq, ← mul02_comm, ← mul12_comm, mul2_mul2, p2, ← mul01_comm,
    mul1_mul1, p1, mul0_mul0, p0]

/-- **C48 is violated for an empty increment**: with no entries (any factors and core of matching
dimensions) the integrator raises `ZeroDivisionError`. -/
theorem C48_violated_empty (la : LinAlg K) (att : Option (Matrix (Fin n2) (Fin n2) K))
    (U V : Mat K) (W : Matrix (Fin n2) (Fin r2) K) (c : T3 r0 r1 r2 K) (par : Bool)
    (vals : List K) (shape : ℕ × ℕ × ℕ) :
    tuckerIntegrator la ⟨U, V, ⟨_, _, W⟩⟩ ⟨_, _, _, c⟩ [] vals shape par (attArg att) =
      .error .zeroDivisionError := by
  unfold tuckerIntegrator tiMode tiIncrement
  simp only [Nat.cast_zero, unfoldDense_0, except_bind_ok, tiAttRight_lt _ 0 (by decide),
    C56_violated_empty _ _ _ _ _ 0 (Or.inl rfl), except_bind_error]

/-- what the user step gives when all but the first dimension are 1 -/
theorem ModeOk.one {n : ℕ} {F : Matrix (Fin n) (Fin 1) K} {c : T3 1 1 1 K} {x : T3 n 1 1 K}
    {V W : Matrix (Fin 1) (Fin 1) K} {U1 : Matrix (Fin n) (Fin 1) K}
    (h : ModeOk F (unf c) (projUnfold x V W) U1) :
    ∃ q r s : K, q * r = c 0 0 0 ∧ q * q = 1 ∧
      ∀ i, U1 i 0 * s = F i 0 * r + x i 0 0 * (V 0 0 * W 0 0 * q) := by
  obtain ⟨Q, R, S, hQR, hQQ, hS⟩ := h.span
  refine ⟨Q (finProdFinEquiv (0, 0)) 0, R 0 0, S 0 0, ?_, ?_, fun i => ?_⟩
  · have := congrFun (congrFun hQR (finProdFinEquiv (0, 0))) 0
    simpa only [Matrix.mul_apply, Fin.sum_univ_one, Matrix.transpose_apply, unf, Matrix.of_apply,
      Equiv.symm_apply_apply] using this
  · have := congrFun (congrFun hQQ 0) 0
    simpa only [Matrix.mul_apply, sum_finProd, Fin.sum_univ_one, Matrix.transpose_apply,
      Matrix.one_apply_eq] using this
  · have := congrFun (congrFun hS i) 0
    simpa only [Matrix.mul_apply, Fin.sum_univ_one, Matrix.transpose_apply, Matrix.add_apply,
      projUnfold] using this

end

section
variable [Field K] [LinearOrder K] [IsStrictOrderedRing K]

/-- 10001 entries whose sum is the zero tensor: 9999 zeros, then 1 and -1 at user 1 -/
def cancelEntries : List (Ent 2 1 1 K) :=
  List.replicate 9999 ((0, 0, 0), 0) ++ [((1, 0, 0), 1)] ++ [((1, 0, 0), -1)]

theorem cancelEntries_sum (i : Fin 2) (j k : Fin 1) : cooTensor (cancelEntries (K := K)) i j k = 0 := by
  unfold cancelEntries
  rw [List.append_assoc, cooTensor_append, cooTensor_of_zero (List.replicate _ _)
    (fun e he => by rw [List.eq_of_mem_replicate he])]
  fin_cases i <;> fin_cases j <;> fin_cases k <;> simp [cooTensor]

theorem cancelEntries_used : cooTensor (usedEntries (cancelEntries (K := K))) 1 0 0 = 1 := by
  have h1 : (List.replicate 9999 (((0, 0, 0), 0) : Ent 2 1 1 K) ++ [((1, 0, 0), 1)]).length = 10000 := by
    rw [List.length_append, List.length_replicate]; rfl
  have hl : (cancelEntries (K := K)).length = 10001 := by
    unfold cancelEntries
    rw [List.length_append, h1]; rfl
  rw [usedEntries, hl, show 10001 / min 10000 10001 * min 10000 10001 = 10000 by decide]
  unfold cancelEntries
  rw [List.take_append_of_le_length h1.ge, List.take_of_length_le h1.le, cooTensor_append,
    cooTensor_of_zero (List.replicate _ _) (fun e he => by rw [List.eq_of_mem_replicate he])]
  simp [cooTensor]

/-- **C48 is violated for long increments** whose last entries are ignored: the increment tensor
of `cancelEntries` is 0, but the represented tensor changes (for every QR). -/
theorem C48_violated_long (la : LinAlg K) (hqr : QrAlways la) (par : Bool) :
    ∃ (U1 : Matrix (Fin 2) (Fin 1) K) (V1 W1 : Matrix (Fin 1) (Fin 1) K) (c1 : T3 1 1 1 K),
      tuckerIntegrator la ⟨⟨2, 1, !![1; 0]⟩, ⟨1, 1, 1⟩, ⟨1, 1, 1⟩⟩ ⟨1, 1, 1, fun _ _ _ => 1⟩
        (indsOf (cancelEntries (K := K))) (valsOf (cancelEntries (K := K))) (2, 1, 1) par none =
        .ok (⟨⟨_, _, U1⟩, ⟨_, _, V1⟩, ⟨_, _, W1⟩⟩, ⟨_, _, _, c1⟩) ∧
      (∀ i j k, cooTensor (cancelEntries (K := K)) i j k = 0) ∧
      tuckerTensor U1 V1 W1 c1 ≠ tuckerTensor (!![1; 0] : Matrix (Fin 2) (Fin 1) K)
        (1 : Matrix (Fin 1) (Fin 1) K) (1 : Matrix (Fin 1) (Fin 1) K) fun _ _ _ => 1 := by
  obtain ⟨U1, V1, W1, h, m0, m1, m2⟩ := tuckerIntegrator_run la hqr cancelEntries
    (by unfold cancelEntries; exact List.append_ne_nil_of_right_ne_nil _ (List.cons_ne_nil _ _)) none ⟨by decide, by decide, by decide, by decide, by decide, by decide⟩
    (!![1; 0] : Matrix (Fin 2) (Fin 1) K) (1 : Matrix (Fin 1) (Fin 1) K) (1 : Matrix (Fin 1) (Fin 1) K)
    (fun _ _ _ => (1 : K)) par
  refine ⟨U1, V1, W1, _, h, cancelEntries_sum, fun he => ?_⟩
  obtain ⟨q, r, s, hqr, hqq, hs⟩ := m0.one
  have h1 := hs 1
  rw [cancelEntries_used] at h1
  have hq : q ≠ 0 := by rintro rfl; simp at hqq
  have hu : U1 1 0 ≠ 0 := by
    intro hu
    rw [hu] at h1
    simp [attVal] at h1
    exact hq h1.symm
  have e0 := congrFun (congrFun (congrFun he 0) 0) 0
  have e1 := congrFun (congrFun (congrFun he 1) 0) 0
  simp only [tuckerTensor, Fin.sum_univ_one] at e0 e1
  simp at e0 e1
  rcases e1 with ((e1 | e1) | e1) | e1
  · rw [e1] at e0; simp at e0
  · exact hu e1
  · rw [e1] at e0; simp at e0
  · rw [e1] at e0; simp at e0

/-- The row space of every unfolding of `A1` is reached through the factors of the other modes. -/
def TensorReached {n0 n1 n2 r0 r1 r2 : ℕ} (U : Matrix (Fin n0) (Fin r0) K) (V : Matrix (Fin n1) (Fin r1) K)
    (W : Matrix (Fin n2) (Fin r2) K) (c : T3 r0 r1 r2 K) (A1 : T3 n0 n1 n2 K) : Prop :=
  (∃ M : Matrix (Fin r0) (Fin (n2 * n1)) K, unf A1 = unf A1 * (unf (tuckerTensor 1 V W c)).transpose * M) ∧
  (∃ M : Matrix (Fin r1) (Fin (n2 * n0)) K, unf (front1 A1) = unf (front1 A1) *
    (unf (front1 (tuckerTensor U 1 W c))).transpose * M) ∧
  ∃ M : Matrix (Fin r2) (Fin (n1 * n0)) K, unf (front2 A1) = unf (front2 A1) *
    (unf (front2 (tuckerTensor U V 1 c))).transpose * M

/-- **C86 is violated for long increments**: the increment tensor of `cancelEntries` is 0, so that the new tensor is the
old one and is reached, but the integrator returns another one (for every QR). -/
theorem C86_violated_long (la : LinAlg K) (hqr : QrAlways la) (par : Bool) :
    let U : Matrix (Fin 2) (Fin 1) K := !![1; 0]
    let I : Matrix (Fin 1) (Fin 1) K := 1
    let A1 : T3 2 1 1 K := fun i j k => tuckerTensor U I I (fun _ _ _ => 1) i j k + cooTensor cancelEntries i j k
    TensorReached U I I (fun _ _ _ => 1) A1 ∧
    ∃ (U1 : Matrix (Fin 2) (Fin 1) K) (V1 W1 : Matrix (Fin 1) (Fin 1) K) (c1 : T3 1 1 1 K),
      tuckerIntegrator la ⟨⟨2, 1, U⟩, ⟨1, 1, 1⟩, ⟨1, 1, 1⟩⟩ ⟨1, 1, 1, fun _ _ _ => 1⟩
        (indsOf (cancelEntries (K := K))) (valsOf (cancelEntries (K := K))) (2, 1, 1) par none =
        .ok (⟨⟨_, _, U1⟩, ⟨_, _, V1⟩, ⟨_, _, W1⟩⟩, ⟨_, _, _, c1⟩) ∧
      tuckerTensor U1 V1 W1 c1 ≠ A1 := by
  intro U I A1
  have hA : A1 = tuckerTensor U I I fun _ _ _ => 1 := by
    funext i j k
    show _ + cooTensor cancelEntries i j k = _
    rw [cancelEntries_sum, add_zero]
  constructor
  · rw [hA]
    have h1 : ∀ p q : Fin 1, (1 : Matrix (Fin 1) (Fin 1) K) p q = 1 := fun p q => by
      rw [Subsingleton.elim p q, Matrix.one_apply_eq]
    have h2 : ∀ p q : Fin 1, I p q = 1 := h1
    refine ⟨⟨Matrix.of fun _ _ => 1, ?_⟩, ⟨Matrix.of fun _ p => ![1, 0] (finProdFinEquiv.symm p).2, ?_⟩,
      ⟨Matrix.of fun _ p => ![1, 0] (finProdFinEquiv.symm p).2, ?_⟩⟩
    · ext i p
      obtain ⟨⟨k, j⟩, rfl⟩ := finProdFinEquiv.surjective p
      simp only [Matrix.mul_apply, sum_finProd, Fin.sum_univ_one, unf, Matrix.of_apply,
        Matrix.transpose_apply, Equiv.symm_apply_apply, tuckerTensor, h1, h2]
      fin_cases i <;> simp [U]
    · ext i p
      obtain ⟨⟨k, j⟩, rfl⟩ := finProdFinEquiv.surjective p
      simp only [Matrix.mul_apply, sum_finProd, Fin.sum_univ_one, Fin.sum_univ_two, unf, Matrix.of_apply,
        Matrix.transpose_apply, Equiv.symm_apply_apply, tuckerTensor, h1, h2, front1]
      fin_cases j <;> simp [U]
    · ext i p
      obtain ⟨⟨k, j⟩, rfl⟩ := finProdFinEquiv.surjective p
      simp only [Matrix.mul_apply, sum_finProd, Fin.sum_univ_one, Fin.sum_univ_two, unf, Matrix.of_apply,
        Matrix.transpose_apply, Equiv.symm_apply_apply, tuckerTensor, h1, h2, front2]
      fin_cases j <;> simp [U]
  · obtain ⟨U1, V1, W1, c1, h, _, hne⟩ := C48_violated_long la hqr par
    exact ⟨U1, V1, W1, c1, h, by rw [hA]; exact hne⟩

/-- **C86 is violated with attention**: one user, two items, one position, `A = 2`. The new tensor (3, 2) has rank one
and is reached, but the item step looks for (3, 4), and the integrator returns another tensor (for every QR). -/
theorem C86_violated_attention (la : LinAlg K) (hqr : QrAlways la) (par : Bool) :
    let V : Matrix (Fin 2) (Fin 1) K := !![1; 0]
    let es : List (Ent 1 2 1 K) := [((0, 1, 0), 1)]
    let A : Matrix (Fin 1) (Fin 1) K := !![2]
    let I : Matrix (Fin 1) (Fin 1) K := 1
    let A1 : T3 1 2 1 K := fun i j k => tuckerTensor I V I (fun _ _ _ => 3) i j k + ∑ l, A l k * cooTensor es i j l
    TensorReached I V I (fun _ _ _ => 3) A1 ∧
    ∃ (U1 W1 : Matrix (Fin 1) (Fin 1) K) (V1 : Matrix (Fin 2) (Fin 1) K) (c1 : T3 1 1 1 K),
      tuckerIntegrator la ⟨⟨1, 1, 1⟩, ⟨2, 1, V⟩, ⟨1, 1, 1⟩⟩ ⟨1, 1, 1, fun _ _ _ => 3⟩ (indsOf es) (valsOf es)
        (1, 2, 1) par (some ⟨1, 1, A⟩) = .ok (⟨⟨_, _, U1⟩, ⟨_, _, V1⟩, ⟨_, _, W1⟩⟩, ⟨_, _, _, c1⟩) ∧
      tuckerTensor U1 V1 W1 c1 ≠ A1 := by
  intro V es A I A1
  have hA : A1 = fun _ j _ => ![3, 2] j := by
    funext i j k
    obtain rfl : i = 0 := Subsingleton.elim _ _
    obtain rfl : k = 0 := Subsingleton.elim _ _
    show tuckerTensor I V I (fun _ _ _ => 3) 0 j 0 + ∑ l, A l 0 * cooTensor es 0 j l = _
    fin_cases j <;> simp [tuckerTensor, cooTensor, V, A, es, I]
  rw [hA]
  constructor
  · have h1 : ∀ p q : Fin 1, (1 : Matrix (Fin 1) (Fin 1) K) p q = 1 := fun p q => by
      rw [Subsingleton.elim p q, Matrix.one_apply_eq]
    have h2 : ∀ p q : Fin 1, I p q = 1 := h1
    refine ⟨⟨Matrix.of fun _ p => ![1 / 3, 2 / 9] (finProdFinEquiv.symm p).2, ?_⟩, ⟨Matrix.of fun _ _ => 1 / 3, ?_⟩,
      ⟨Matrix.of fun _ p => ![1 / 3, 2 / 9] (finProdFinEquiv.symm p).1, ?_⟩⟩
    · ext i p
      obtain ⟨⟨k, j⟩, rfl⟩ := finProdFinEquiv.surjective p
      simp only [Matrix.mul_apply, sum_finProd, Fin.sum_univ_one, Fin.sum_univ_two, unf, Matrix.of_apply,
        Matrix.transpose_apply, Equiv.symm_apply_apply, tuckerTensor, h1, h2]
      fin_cases j <;> norm_num [V]
    · ext i p
      obtain ⟨⟨k, j⟩, rfl⟩ := finProdFinEquiv.surjective p
      simp only [Matrix.mul_apply, sum_finProd, Fin.sum_univ_one, unf, Matrix.of_apply,
        Matrix.transpose_apply, Equiv.symm_apply_apply, tuckerTensor, h1, h2, front1]
      fin_cases i <;> norm_num
    · ext i p
      obtain ⟨⟨k, j⟩, rfl⟩ := finProdFinEquiv.surjective p
      simp only [Matrix.mul_apply, sum_finProd, Fin.sum_univ_one, Fin.sum_univ_two, unf, Matrix.of_apply,
        Matrix.transpose_apply, Equiv.symm_apply_apply, tuckerTensor, h1, h2, front2]
      fin_cases k <;> norm_num [V]
  · obtain ⟨U1, V1, W1, h, m0, m1, m2⟩ := tuckerIntegrator_run la hqr es (by simp [es]) (some A)
      ⟨by decide, by decide, by decide, by decide, by decide, by decide⟩
      (1 : Matrix (Fin 1) (Fin 1) K) V (1 : Matrix (Fin 1) (Fin 1) K) (fun _ _ _ => (3 : K)) par
    have hu : usedEntries es = es := used_all _ (Or.inl (by simp [es]))
    rw [hu] at m1
    refine ⟨U1, W1, V1, _, h, fun he => ?_⟩
    obtain ⟨q, r, s, hqr, hqq, hs⟩ := m1.one
    have hUU : U1 0 0 * U1 0 0 = 1 := by
      have := congrFun (congrFun m0.orth 0) 0
      simpa [Matrix.mul_apply] using this
    have a0 := hs 0
    have a1 := hs 1
    simp [front1, cooTensor, attVal, mul0, Matrix.mul_apply, A, V, es] at hqr a0 a1
    have e0 := congrFun (congrFun (congrFun he 0) 0) 0
    have e1 := congrFun (congrFun (congrFun he 0) 1) 0
    simp only [tuckerTensor, Fin.sum_univ_one] at e0 e1
    simp only [Matrix.cons_val_zero, Matrix.cons_val_one] at e0 e1
    have k1 : 3 * V1 1 0 = 2 * V1 0 0 := by linear_combination V1 0 0 * e1 - V1 1 0 * e0
    have k2 : 3 * (U1 0 0 * (2 * 2) * q) = 2 * r := by linear_combination s * k1 - 3 * a1 + 2 * a0
    have k3 : 6 * U1 0 0 = 0 := by linear_combination q * k2 - 12 * U1 0 0 * hqq + 2 * hqr
    have k4 : U1 0 0 = 0 := by linarith
    rw [k4] at hUU
    simp at hUU

/-- **C49 (partial).** In the user step the increment is projected on the items' factor and on
`A W`; in the item step on the new users' factor and on `A W` *provided* `A A W = A W` (in particular
without attention); in the position step the increment is multiplied by the transposed attention.
Missing: the item step for a general `A` (`C49_violated`). -/
theorem C49_attention_steps_partial {n0 n1 n2 r0 r1 r2 : ℕ} (la : LinAlg K) (hqr : QrAlways la)
    (es : List (Ent n0 n1 n2 K)) (hes : es ≠ []) (hlen : es.length ≤ 10000 ∨ 10000 ∣ es.length)
    (A : Matrix (Fin n2) (Fin n2) K)
    (hd : TIDims n0 n1 n2 r0 r1 r2) (U : Matrix (Fin n0) (Fin r0) K) (V : Matrix (Fin n1) (Fin r1) K)
    (W : Matrix (Fin n2) (Fin r2) K) (c : T3 r0 r1 r2 K) (par : Bool) :
    ∃ (U1 : Matrix (Fin n0) (Fin r0) K) (V1 : Matrix (Fin n1) (Fin r1) K) (W1 : Matrix (Fin n2) (Fin r2) K)
      (c1 : T3 r0 r1 r2 K),
      tuckerIntegrator la ⟨⟨_, _, U⟩, ⟨_, _, V⟩, ⟨_, _, W⟩⟩ ⟨_, _, _, c⟩ (indsOf es) (valsOf es)
        (n0, n1, n2) par (some ⟨_, _, A⟩) =
        .ok (⟨⟨_, _, U1⟩, ⟨_, _, V1⟩, ⟨_, _, W1⟩⟩, ⟨_, _, _, c1⟩) ∧
      ModeOk U (unf c) (projUnfold (cooTensor es) V (A * W)) U1 ∧
      (A * (A * W) = A * W → ModeOk V (unf (front1 (mul0 (U1.transpose * U) c)))
        (projUnfold (front1 (cooTensor es)) U1 (A * W)) V1) ∧
      ModeOk W (unf (front2 (mul1 (V1.transpose * V) (mul0 (U1.transpose * U) c))))
        (projUnfold (front2 (fun i j k => ∑ l, A l k * cooTensor es i j l)) U1 V1) W1 := by
  obtain ⟨U1, V1, W1, h, m0, m1, m2⟩ := tuckerIntegrator_run la hqr es hes (some A) hd U V W c par
  have hu : usedEntries es = es := used_all es hlen
  rw [hu] at m0 m1 m2
  refine ⟨U1, V1, W1, _, h, m0, fun hA => ?_, ?_⟩
  · have : attVal (some A) * (attVal (some A) * W) = A * W := hA
    rw [this] at m1
    exact m1
  · convert m2 using 1
    funext Q
    rw [projUnfold_eq, projUnfold_eq, ← Matrix.mul_assoc, ← unf_mul0,
      show (fun i j k => ∑ l, A l k * cooTensor es i j l) = mul2 A.transpose (cooTensor es) from rfl,
      ← front2_mul1, ← front2_mul0, ← front2_mul1, ← front2_mul0, ← front2_mul2,
      mul12_comm, mul02_comm]
    rfl

/-- **C49 is violated**: `u2` is multiplied by the attention matrix again in the second pass of the
loop, so the item step uses `A A W`. Witness: one user, two items, one position, `A = 2`; the new
items' factor is not a basis of the matrix the step with `A W` prescribes (whatever the QR). -/
theorem C49_violated (la : LinAlg K) (hqr : QrAlways la) (par : Bool) :
    ∃ (U1 W1 : Matrix (Fin 1) (Fin 1) K) (V1 : Matrix (Fin 2) (Fin 1) K) (c1 : T3 1 1 1 K),
      tuckerIntegrator la ⟨⟨1, 1, 1⟩, ⟨2, 1, !![1; 0]⟩, ⟨1, 1, 1⟩⟩ ⟨1, 1, 1, fun _ _ _ => 3⟩
        (indsOf [(((0, 1, 0), 1) : Ent 1 2 1 K)]) (valsOf [(((0, 1, 0), 1) : Ent 1 2 1 K)]) (1, 2, 1) par
        (some ⟨1, 1, !![2]⟩) =
        .ok (⟨⟨_, _, U1⟩, ⟨_, _, V1⟩, ⟨_, _, W1⟩⟩, ⟨_, _, _, c1⟩) ∧
      ¬ ModeOk (!![1; 0] : Matrix (Fin 2) (Fin 1) K)
        (unf (front1 (mul0 (U1.transpose * (1 : Matrix (Fin 1) (Fin 1) K)) fun _ _ _ => (3 : K))))
        (projUnfold (front1 (cooTensor [(((0, 1, 0), 1) : Ent 1 2 1 K)])) U1
          ((!![2] : Matrix (Fin 1) (Fin 1) K) * (1 : Matrix (Fin 1) (Fin 1) K))) V1 := by
  obtain ⟨U1, V1, W1, h, m0, m1, m2⟩ := tuckerIntegrator_run la hqr
    [(((0, 1, 0), 1) : Ent 1 2 1 K)] (by simp) (some !![2])
    ⟨by decide, by decide, by decide, by decide, by decide, by decide⟩
    (1 : Matrix (Fin 1) (Fin 1) K) (!![1; 0] : Matrix (Fin 2) (Fin 1) K) (1 : Matrix (Fin 1) (Fin 1) K)
    (fun _ _ _ => (3 : K)) par
  have hu : usedEntries [(((0, 1, 0), 1) : Ent 1 2 1 K)] = [((0, 1, 0), 1)] := used_all _ (Or.inl (by simp))
  rw [hu] at m1
  refine ⟨U1, W1, V1, _, h, fun hc => ?_⟩
  obtain ⟨q, r, s, hqr, hqq, hs⟩ := m1.one
  obtain ⟨q', r', s', hqr', hqq', hs'⟩ := hc.one
  have hUU : U1 0 0 * U1 0 0 = 1 := by
    have := congrFun (congrFun m0.orth 0) 0
    simpa [Matrix.mul_apply] using this
  have a0 := hs 0
  have a1 := hs 1
  have b0 := hs' 0
  have b1 := hs' 1
  simp [front1, cooTensor, attVal, mul0, Matrix.mul_apply] at hqr hqr' a0 a1 b0 b1
  have key : r * (U1 0 0 * 2 * q') = U1 0 0 * (2 * 2) * q * r' := by
    linear_combination (-(U1 0 0 * 2 * q')) * a0 - V1 0 0 * s * b1 + V1 0 0 * s' * a1 +
      U1 0 0 * (2 * 2) * q * b0
  have e : q * r * (U1 0 0 * 2) * (q' * q') = U1 0 0 * (2 * 2) * (q * q) * (q' * r') := by
    linear_combination q * q' * key
  rw [hqr, hqq', hqr', hqq] at e
  have : (6 : K) = 12 := by linear_combination e + 6 * hUU
  norm_num at this

end

section examples

/-- a new user's rating: `(3, 0)` plus `4` at user 1; the rank-one model follows it exactly -/
example : ∃ (U1 : Matrix (Fin 2) (Fin 1) ℝ) (V1 W1 : Matrix (Fin 1) (Fin 1) ℝ) (c1 : T3 1 1 1 ℝ),
    tuckerIntegrator realLA ⟨⟨2, 1, !![1; 0]⟩, ⟨1, 1, 1⟩, ⟨1, 1, 1⟩⟩ ⟨1, 1, 1, fun _ _ _ => 3⟩
      [(1, 0, 0)] [4] (2, 1, 1) false none =
      .ok (⟨⟨_, _, U1⟩, ⟨_, _, V1⟩, ⟨_, _, W1⟩⟩, ⟨_, _, _, c1⟩) ∧
    tuckerTensor U1 V1 W1 c1 = fun i _ _ => ![3, 4] i := by
  have h1 : ∀ p q : Fin 1, (1 : Matrix (Fin 1) (Fin 1) ℝ) p q = 1 := fun p q => by
    rw [Subsingleton.elim p q, Matrix.one_apply_eq]
  refine C86_exact_partial realLA qrAlways_real [(((1, 0, 0), 4) : Ent 2 1 1 ℝ)] (by simp) (Or.inl (by simp)) none
    ⟨by decide, by decide, by decide, by decide, by decide, by decide⟩
    (!![1; 0] : Matrix (Fin 2) (Fin 1) ℝ) (1 : Matrix (Fin 1) (Fin 1) ℝ) (1 : Matrix (Fin 1) (Fin 1) ℝ)
    (by simp) (by simp) (by simp [attVal]) (fun _ _ _ => (3 : ℝ)) false (fun i _ _ => ![3, 4] i)
    (fun i j k => ?_) (Matrix.of fun _ _ => 1 / 3) ?_
    (Matrix.of fun _ p => ![1 / 3, 4 / 9] (finProdFinEquiv.symm p).2) ?_
    (Matrix.of fun _ p => ![1 / 3, 4 / 9] (finProdFinEquiv.symm p).2) ?_
  · obtain rfl : j = 0 := Subsingleton.elim _ _
    obtain rfl : k = 0 := Subsingleton.elim _ _
    fin_cases i <;> simp [tuckerTensor, cooTensor, attVal]
  · ext i p
    obtain ⟨⟨k, j⟩, rfl⟩ := finProdFinEquiv.surjective p
    simp only [Matrix.mul_apply, sum_finProd, Fin.sum_univ_one, unf, Matrix.of_apply,
      Matrix.transpose_apply, Equiv.symm_apply_apply, tuckerTensor, h1]
    fin_cases i <;> norm_num
  · ext i p
    obtain ⟨⟨k, j⟩, rfl⟩ := finProdFinEquiv.surjective p
    obtain rfl : i = 0 := Subsingleton.elim _ _
    simp only [Matrix.mul_apply, sum_finProd, Fin.sum_univ_one, Fin.sum_univ_two, unf, Matrix.of_apply,
      Matrix.transpose_apply, Equiv.symm_apply_apply, tuckerTensor, h1, front1]
    fin_cases j <;> norm_num
  · ext i p
    obtain ⟨⟨k, j⟩, rfl⟩ := finProdFinEquiv.surjective p
    obtain rfl : i = 0 := Subsingleton.elim _ _
    simp only [Matrix.mul_apply, sum_finProd, Fin.sum_univ_one, Fin.sum_univ_two, unf, Matrix.of_apply,
      Matrix.transpose_apply, Equiv.symm_apply_apply, tuckerTensor, h1, front2]
    fin_cases j <;> norm_num

/-- an update whose two entries cancel: the hypotheses of `C48_zero_increment_partial` hold -/
example : ∃ (U1 : Matrix (Fin 2) (Fin 1) ℝ) (V1 : Matrix (Fin 3) (Fin 2) ℝ)
    (W1 : Matrix (Fin 2) (Fin 2) ℝ) (c1 : T3 1 2 2 ℝ),
    tuckerIntegrator realLA ⟨⟨2, 1, !![1; 2]⟩, ⟨3, 2, !![1, 0; 0, 1; 5, 7]⟩, ⟨2, 2, !![1, 0; 0, 1]⟩⟩
      ⟨1, 2, 2, fun _ j k => ![![1, 2], ![3, 4]] j k⟩
      [(1, 0, 0), (1, 0, 0)] [4, -4] (2, 3, 2) true (some ⟨2, 2, !![1, 0; 1 / 2, 1]⟩) =
      .ok (⟨⟨_, _, U1⟩, ⟨_, _, V1⟩, ⟨_, _, W1⟩⟩, ⟨_, _, _, c1⟩) ∧
    tuckerTensor U1 V1 W1 c1 = tuckerTensor !![1; 2] !![1, 0; 0, 1; 5, 7] !![1, 0; 0, 1]
      fun _ j k => ![![1, 2], ![3, 4]] j k :=
  C48_zero_increment_partial realLA qrAlways_real
    [(((1, 0, 0), 4) : Ent 2 3 2 ℝ), ((1, 0, 0), -4)] (by simp) (Or.inl (by simp))
    (fun i j k => by
      simp only [cooTensor, List.filter_cons, List.filter_nil]
      split_ifs <;> simp)
    (some !![1, 0; 1 / 2, 1])
    ⟨by decide, by decide, by decide, by decide, by decide, by decide⟩ _ _ _ _ true

/-- the same with the entries of `C85_projection` not cancelling -/
example : ∃ (U1 : Matrix (Fin 2) (Fin 1) ℝ) (V1 : Matrix (Fin 3) (Fin 2) ℝ) (W1 : Matrix (Fin 2) (Fin 2) ℝ),
    tuckerIntegrator realLA ⟨⟨2, 1, !![1; 2]⟩, ⟨3, 2, !![1, 0; 0, 1; 5, 7]⟩, ⟨2, 2, !![1, 0; 0, 1]⟩⟩
      ⟨1, 2, 2, fun _ j k => ![![1, 2], ![3, 4]] j k⟩
      [(1, 0, 0), (0, 2, 1)] [4, 1] (2, 3, 2) true (some ⟨2, 2, !![1, 0; 1 / 2, 1]⟩) =
      .ok (⟨⟨_, _, U1⟩, ⟨_, _, V1⟩, ⟨_, _, W1⟩⟩, ⟨1, 2, 2, coreTensor (fun i j k =>
        tuckerTensor !![1; 2] !![1, 0; 0, 1; 5, 7] !![1, 0; 0, 1]
          (fun _ j k => ![![1, 2], ![3, 4]] j k : T3 1 2 2 ℝ) i j k +
        ∑ l, (!![1, 0; 1 / 2, 1] : Matrix (Fin 2) (Fin 2) ℝ) l k *
          cooTensor [(((1, 0, 0), 4) : Ent 2 3 2 ℝ), ((0, 2, 1), 1)] i j l) U1 V1 W1⟩) := by
  obtain ⟨U1, V1, W1, h, -⟩ := C85_projection realLA qrAlways_real
    [(((1, 0, 0), 4) : Ent 2 3 2 ℝ), ((0, 2, 1), 1)] (by simp) (some !![1, 0; 1 / 2, 1])
    ⟨by decide, by decide, by decide, by decide, by decide, by decide⟩ !![1; 2]
    !![1, 0; 0, 1; 5, 7] !![1, 0; 0, 1] (fun _ j k => ![![1, 2], ![3, 4]] j k) true
  exact ⟨U1, V1, W1, h⟩

/-- `C49_violated` applies to the real QR -/
example : ¬ ∀ par : Bool, ∀ U1 W1 : Matrix (Fin 1) (Fin 1) ℝ, ∀ (V1 : Matrix (Fin 2) (Fin 1) ℝ)
    (c1 : T3 1 1 1 ℝ),
    tuckerIntegrator realLA ⟨⟨1, 1, 1⟩, ⟨2, 1, !![1; 0]⟩, ⟨1, 1, 1⟩⟩ ⟨1, 1, 1, fun _ _ _ => 3⟩
      [(0, 1, 0)] [1] (1, 2, 1) par (some ⟨1, 1, !![2]⟩) =
        .ok (⟨⟨_, _, U1⟩, ⟨_, _, V1⟩, ⟨_, _, W1⟩⟩, ⟨_, _, _, c1⟩) →
      ModeOk (!![1; 0] : Matrix (Fin 2) (Fin 1) ℝ)
        (unf (front1 (mul0 (U1.transpose * (1 : Matrix (Fin 1) (Fin 1) ℝ)) fun _ _ _ => (3 : ℝ))))
        (projUnfold (front1 (cooTensor [(((0, 1, 0), 1) : Ent 1 2 1 ℝ)])) U1
          ((!![2] : Matrix (Fin 1) (Fin 1) ℝ) * (1 : Matrix (Fin 1) (Fin 1) ℝ))) V1 := by
  intro h
  obtain ⟨U1, W1, V1, c1, h1, h2⟩ := C49_violated realLA qrAlways_real false
  exact h2 (h false U1 W1 V1 c1 h1)

end examples

end DynCF
