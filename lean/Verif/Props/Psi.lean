/-
Property theorems C40, C41, C82 (projector-splitting step).
-/
import Verif.Lemmas.SvdExists
import Verif.Lemmas.Mapping
import Verif.Model.Psi

set_option linter.unusedSectionVars false

namespace DynCF
open Matrix
variable {K : Type}

/-- The QR contract at every call. -/
def QrAlways [CommRing K] (la : LinAlg K) : Prop :=
  ∀ {m n : ℕ} (A : Matrix (Fin m) (Fin n) K), QrOk la A

theorem qrAlways_real : QrAlways realLA := fun A => realLA_qr A

theorem qrM_mk (la : LinAlg K) {m n : ℕ} (A : Matrix (Fin m) (Fin n) K) :
    la.qrM ⟨m, n, A⟩ = (⟨m, min m n, (la.qr A).1⟩, ⟨min m n, n, (la.qr A).2⟩) := rfl

/-- The step on matching shapes, with the two QR factorisations it makes. -/
theorem psiStep_run [CommRing K] (la : LinAlg K) {m n r1 r2 : ℕ} (U : Matrix (Fin m) (Fin r1) K)
    (s : SArg K) (S : Matrix (Fin r1) (Fin r2) K) (hs : s.toMat = ⟨r1, r2, S⟩)
    (V : Matrix (Fin r2) (Fin n) K) (dA : Matrix (Fin m) (Fin n) K) :
    let K1 := U * S + dA * V.transpose
    let U1 := (la.qr K1).1
    let L1 := V.transpose * ((la.qr K1).2 - U1.transpose * (dA * V.transpose)).transpose +
      dA.transpose * U1
    psiStep la ⟨m, r1, U⟩ s ⟨r2, n, V⟩ ⟨m, n, dA⟩ =
      .ok (⟨m, min m r2, U1⟩, ⟨min m r2, min n (min m r2), (la.qr L1).2.transpose⟩,
        ⟨min n (min m r2), n, (la.qr L1).1.transpose⟩) := by
  dsimp only
  unfold psiStep
  rw [hs]
  simp only [Mat.T_mk, Mat.dot_mk, Mat.add_mk, Mat.sub_mk, except_bind_ok, qrM_mk]
  rfl

/-- **C40.** One step, for any factors and any increment of matching shape: the result reconstructs
`U S V + dA` up to the part of `dA` outside both the new column space and the old row space.
`U1` spans the columns of `U S + dA Vᵀ`. (No orthonormality of the old factors is needed.) -/
theorem C40_identity [CommRing K] (la : LinAlg K) (hqr : QrAlways la) {m n r1 r2 : ℕ}
    (U : Matrix (Fin m) (Fin r1) K) (s : SArg K) (S : Matrix (Fin r1) (Fin r2) K)
    (hs : s.toMat = ⟨r1, r2, S⟩) (V : Matrix (Fin r2) (Fin n) K) (dA : Matrix (Fin m) (Fin n) K) :
    ∃ (k l : ℕ) (U1 : Matrix (Fin m) (Fin k) K) (S1 : Matrix (Fin k) (Fin l) K)
      (V1 : Matrix (Fin l) (Fin n) K) (R : Matrix (Fin k) (Fin r2) K),
      psiStep la ⟨m, r1, U⟩ s ⟨r2, n, V⟩ ⟨m, n, dA⟩ = .ok (⟨m, k, U1⟩, ⟨k, l, S1⟩, ⟨l, n, V1⟩) ∧
      U1 * S1 * V1 = U * S * V + dA -
        (1 - U1 * U1.transpose) * dA * (1 - V.transpose * V) ∧
      U1 * R = U * S + dA * V.transpose := by
  have hrun := psiStep_run la U s S hs V dA
  dsimp only at hrun
  refine ⟨_, _, _, _, _, (la.qr (U * S + dA * V.transpose)).2, hrun, ?_, (hqr _).1⟩
  obtain ⟨h1, h2⟩ := hqr (U * S + dA * V.transpose)
  generalize hU1 : (la.qr (U * S + dA * V.transpose)).1 = U1 at *
  generalize hR : (la.qr (U * S + dA * V.transpose)).2 = R at *
  obtain ⟨h3, -⟩ := hqr (V.transpose * (R - U1.transpose * (dA * V.transpose)).transpose +
    dA.transpose * U1)
  rw [Matrix.mul_assoc, ← Matrix.transpose_mul, h3, Matrix.transpose_add, Matrix.transpose_mul,
    Matrix.transpose_mul, Matrix.transpose_transpose, Matrix.transpose_transpose,
    Matrix.transpose_transpose, Matrix.mul_add, Matrix.sub_mul, Matrix.mul_sub,
    ← Matrix.mul_assoc, h1]
  simp only [Matrix.sub_mul, Matrix.mul_sub, Matrix.add_mul, Matrix.mul_assoc, Matrix.one_mul,
    Matrix.mul_one]
  abel

/-- **C41.** The new factors have orthonormal columns (rows), as many rows (columns) as before and
at most as many components as before. -/
theorem C41_orthonormal [CommRing K] (la : LinAlg K) (hqr : QrAlways la) {m n r1 r2 : ℕ}
    (U : Matrix (Fin m) (Fin r1) K) (s : SArg K) (S : Matrix (Fin r1) (Fin r2) K)
    (hs : s.toMat = ⟨r1, r2, S⟩) (V : Matrix (Fin r2) (Fin n) K) (dA : Matrix (Fin m) (Fin n) K) :
    ∃ (k l : ℕ) (U1 : Matrix (Fin m) (Fin k) K) (S1 : Matrix (Fin k) (Fin l) K)
      (V1 : Matrix (Fin l) (Fin n) K),
      psiStep la ⟨m, r1, U⟩ s ⟨r2, n, V⟩ ⟨m, n, dA⟩ = .ok (⟨m, k, U1⟩, ⟨k, l, S1⟩, ⟨l, n, V1⟩) ∧
      U1.transpose * U1 = 1 ∧ V1 * V1.transpose = 1 ∧ k = min m r2 ∧ l = min n k ∧ l ≤ r2 := by
  have hrun := psiStep_run la U s S hs V dA
  dsimp only at hrun
  refine ⟨_, _, _, _, _, hrun, (hqr _).2, ?_, rfl, rfl, by omega⟩
  rw [Matrix.transpose_transpose]
  exact (hqr _).2

/-- With a square core of size at most both dimensions, all shapes are unchanged, so the step can be
repeated. -/
theorem C41_shapes [CommRing K] (la : LinAlg K) {m n r : ℕ}
    (U : Matrix (Fin m) (Fin r) K) (s : SArg K) (S : Matrix (Fin r) (Fin r) K)
    (hs : s.toMat = ⟨r, r, S⟩) (V : Matrix (Fin r) (Fin n) K) (dA : Matrix (Fin m) (Fin n) K)
    (hm : r ≤ m) (hn : r ≤ n) :
    ∃ a b c, psiStep la ⟨m, r, U⟩ s ⟨r, n, V⟩ ⟨m, n, dA⟩ = .ok (a, b, c) ∧
      (a.rows = m ∧ a.cols = r) ∧ (b.rows = r ∧ b.cols = r) ∧ c.rows = r ∧ c.cols = n := by
  have hrun := psiStep_run la U s S hs V dA
  dsimp only at hrun
  refine ⟨_, _, _, hrun, ⟨rfl, ?_⟩, ⟨?_, ?_⟩, ?_, rfl⟩ <;> dsimp only <;> omega

/-- An increment with a different number of columns than the right factor raises `ValueError`. -/
theorem C41_shape_error [CommRing K] (la : LinAlg K) (u vt da : Mat K) (s : SArg K)
    (h : da.cols ≠ vt.cols) : psiStep la u s vt da = .error .valueError := by
  unfold psiStep
  rw [Mat.dot_error (show da.cols ≠ vt.T.rows from h)]
  rfl

/-- **C40, exactness.** If the rows of the increment lie in the old row space the step adds it
exactly. -/
theorem C40_exact_rows [CommRing K] (la : LinAlg K) (hqr : QrAlways la) {m n r1 r2 : ℕ}
    (U : Matrix (Fin m) (Fin r1) K) (s : SArg K) (S : Matrix (Fin r1) (Fin r2) K)
    (hs : s.toMat = ⟨r1, r2, S⟩) (V : Matrix (Fin r2) (Fin n) K) (dA : Matrix (Fin m) (Fin n) K)
    (hd : dA * (V.transpose * V) = dA) :
    ∃ (k l : ℕ) (U1 : Matrix (Fin m) (Fin k) K) (S1 : Matrix (Fin k) (Fin l) K)
      (V1 : Matrix (Fin l) (Fin n) K),
      psiStep la ⟨m, r1, U⟩ s ⟨r2, n, V⟩ ⟨m, n, dA⟩ = .ok (⟨m, k, U1⟩, ⟨k, l, S1⟩, ⟨l, n, V1⟩) ∧
      U1 * S1 * V1 = U * S * V + dA := by
  obtain ⟨k, l, U1, S1, V1, _, h, he, _⟩ := C40_identity la hqr U s S hs V dA
  refine ⟨k, l, U1, S1, V1, h, ?_⟩
  rw [he, Matrix.mul_assoc _ dA, Matrix.mul_sub dA, Matrix.mul_one, hd, sub_self, Matrix.mul_zero,
    sub_zero]

/-- In particular nothing changes without an increment. -/
theorem C40_no_increment [CommRing K] (la : LinAlg K) (hqr : QrAlways la) {m n r1 r2 : ℕ}
    (U : Matrix (Fin m) (Fin r1) K) (s : SArg K) (S : Matrix (Fin r1) (Fin r2) K)
    (hs : s.toMat = ⟨r1, r2, S⟩) (V : Matrix (Fin r2) (Fin n) K) :
    ∃ (k l : ℕ) (U1 : Matrix (Fin m) (Fin k) K) (S1 : Matrix (Fin k) (Fin l) K)
      (V1 : Matrix (Fin l) (Fin n) K),
      psiStep la ⟨m, r1, U⟩ s ⟨r2, n, V⟩ ⟨m, n, 0⟩ = .ok (⟨m, k, U1⟩, ⟨k, l, S1⟩, ⟨l, n, V1⟩) ∧
      U1 * S1 * V1 = U * S * V := by
  obtain ⟨k, l, U1, S1, V1, h, he⟩ := C40_exact_rows la hqr U s S hs V 0 (Matrix.zero_mul _)
  exact ⟨k, l, U1, S1, V1, h, by rw [he, add_zero]⟩

/-- **C40, exactness.** If the columns of the increment lie in the new column space, the step is
exact as well. -/
theorem C40_exact_cols [CommRing K] (la : LinAlg K) (hqr : QrAlways la) {m n r1 r2 : ℕ}
    (U : Matrix (Fin m) (Fin r1) K) (s : SArg K) (S : Matrix (Fin r1) (Fin r2) K)
    (hs : s.toMat = ⟨r1, r2, S⟩) (V : Matrix (Fin r2) (Fin n) K) (dA : Matrix (Fin m) (Fin n) K)
    (B : Matrix (Fin r2) (Fin n) K) (hd : (U * S + dA * V.transpose) * B = dA) :
    ∃ (k l : ℕ) (U1 : Matrix (Fin m) (Fin k) K) (S1 : Matrix (Fin k) (Fin l) K)
      (V1 : Matrix (Fin l) (Fin n) K),
      psiStep la ⟨m, r1, U⟩ s ⟨r2, n, V⟩ ⟨m, n, dA⟩ = .ok (⟨m, k, U1⟩, ⟨k, l, S1⟩, ⟨l, n, V1⟩) ∧
      U1 * S1 * V1 = U * S * V + dA := by
  obtain ⟨k, l, U1, S1, V1, R, h, he, hR⟩ := C40_identity la hqr U s S hs V dA
  obtain ⟨k', l', U1', S1', V1', h', ho, _⟩ := C41_orthonormal la hqr U s S hs V dA
  rw [h] at h'
  cases h'
  refine ⟨k, l, U1, S1, V1, h, ?_⟩
  have hz : (1 - U1 * U1.transpose) * dA = 0 := by
    rw [← hd, ← hR, Matrix.sub_mul, Matrix.one_mul, Matrix.mul_assoc U1 U1.transpose,
      Matrix.mul_assoc U1 R, ← Matrix.mul_assoc U1.transpose U1, ho, Matrix.one_mul, sub_self]
  rw [he, hz, Matrix.zero_mul, sub_zero]

/-- **C82.** Exact recovery: if the old right factor has orthonormal rows and the new matrix
`A1 = U S V + dA` has its columns in the span of `A1 Vᵀ` (true for a matrix of rank at most `r`
whose row space is not orthogonal to any direction of the old one), the step returns `A1` exactly. -/
theorem C82_exact_recovery [CommRing K] (la : LinAlg K) (hqr : QrAlways la) {m n r1 r2 : ℕ}
    (U : Matrix (Fin m) (Fin r1) K) (s : SArg K) (S : Matrix (Fin r1) (Fin r2) K)
    (hs : s.toMat = ⟨r1, r2, S⟩) (V : Matrix (Fin r2) (Fin n) K) (hV : V * V.transpose = 1)
    (dA : Matrix (Fin m) (Fin n) K) (B : Matrix (Fin r2) (Fin n) K)
    (hB : (U * S * V + dA) * V.transpose * B = U * S * V + dA) :
    ∃ (k l : ℕ) (U1 : Matrix (Fin m) (Fin k) K) (S1 : Matrix (Fin k) (Fin l) K)
      (V1 : Matrix (Fin l) (Fin n) K),
      psiStep la ⟨m, r1, U⟩ s ⟨r2, n, V⟩ ⟨m, n, dA⟩ = .ok (⟨m, k, U1⟩, ⟨k, l, S1⟩, ⟨l, n, V1⟩) ∧
      U1 * S1 * V1 = U * S * V + dA := by
  obtain ⟨k, l, U1, S1, V1, R, h, he, hR⟩ := C40_identity la hqr U s S hs V dA
  obtain ⟨k', l', U1', S1', V1', h', ho, _⟩ := C41_orthonormal la hqr U s S hs V dA
  rw [h] at h'
  cases h'
  refine ⟨k, l, U1, S1, V1, h, ?_⟩
  have hK : (U * S * V + dA) * V.transpose = U1 * R := by
    rw [hR, Matrix.add_mul, Matrix.mul_assoc _ V, hV, Matrix.mul_one]
  have hz : (1 - U1 * U1.transpose) * (U * S * V + dA) = 0 := by
    rw [← hB, hK, Matrix.sub_mul, Matrix.one_mul, Matrix.mul_assoc U1 U1.transpose,
      Matrix.mul_assoc U1 R, ← Matrix.mul_assoc U1.transpose U1, ho, Matrix.one_mul, sub_self]
  have h0 : U * S * V * (1 - V.transpose * V) = 0 := by
    rw [Matrix.mul_sub, Matrix.mul_one, Matrix.mul_assoc (U * S) V, ← Matrix.mul_assoc V, hV,
      Matrix.one_mul, sub_self]
  have hd : (1 - U1 * U1.transpose) * dA * (1 - V.transpose * V) = 0 := by
    have e2 : (1 - U1 * U1.transpose) * dA = -((1 - U1 * U1.transpose) * (U * S * V)) := by
      rw [Matrix.mul_add] at hz
      exact (neg_eq_of_add_eq_zero_right hz).symm
    rw [e2, Matrix.neg_mul, Matrix.mul_assoc, h0, Matrix.mul_zero, neg_zero]
  rw [he, hd, sub_zero]

/-- A 2 × 2 example over `ℝ`: rank-one factors of the matrix with a single 1 at (0, 0), and the
increment that makes the whole first row 1. The hypotheses of `C82_exact_recovery` hold. -/
example : ∃ (k l : ℕ) (U1 : Matrix (Fin 2) (Fin k) ℝ) (S1 : Matrix (Fin k) (Fin l) ℝ)
    (V1 : Matrix (Fin l) (Fin 2) ℝ),
    psiStep realLA ⟨2, 1, !![1; 0]⟩ (.vec 1 fun _ => 1) ⟨1, 2, !![1, 0]⟩ ⟨2, 2, !![0, 1; 0, 0]⟩ =
      .ok (⟨2, k, U1⟩, ⟨k, l, S1⟩, ⟨l, 2, V1⟩) ∧ U1 * S1 * V1 = !![1, 1; 0, 0] := by
  have hs : (SArg.vec 1 fun _ => (1 : ℝ)).toMat = ⟨1, 1, 1⟩ := by
    show Mat.mk 1 1 (Matrix.diagonal fun _ => (1 : ℝ)) = _
    rw [Matrix.diagonal_one]
  have e : ((!![1; 0] : Matrix (Fin 2) (Fin 1) ℝ) * (1 : Matrix (Fin 1) (Fin 1) ℝ) *
      (!![1, 0] : Matrix (Fin 1) (Fin 2) ℝ) + !![0, 1; 0, 0]) = !![1, 1; 0, 0] := by
    rw [Matrix.mul_one]
    ext i j
    fin_cases i <;> fin_cases j <;> simp
  obtain ⟨k, l, U1, S1, V1, h, hp⟩ := C82_exact_recovery realLA qrAlways_real !![1; 0] _ 1 hs !![1, 0]
    (by ext i j; fin_cases i; fin_cases j; simp [Matrix.vecMul, dotProduct])
    !![0, 1; 0, 0] !![1, 1] (by
      rw [e]
      ext i j
      fin_cases i <;> fin_cases j <;> simp [Matrix.mul_apply, Matrix.vecMul, dotProduct])
  exact ⟨k, l, U1, S1, V1, h, hp.trans e⟩

end DynCF
