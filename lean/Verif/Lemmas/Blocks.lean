/-
Block matrices over `Fin (a + b)` and run lemmas for `Model/Psi`.
-/
import Verif.Lemmas.Mapping
import Verif.Model.Psi
import Mathlib.Algebra.BigOperators.Fin

set_option linter.unusedSectionVars false

namespace DynCF
open Matrix
variable {K : Type}

/-- `[A | B]` -/
def hblock {m a b : ℕ} (A : Matrix (Fin m) (Fin a) K) (B : Matrix (Fin m) (Fin b) K) :
    Matrix (Fin m) (Fin (a + b)) K :=
  Matrix.of fun i j => Fin.addCases (fun j => A i j) (fun j => B i j) j

/-- `[A B; C D]` -/
def blk {a b c d : ℕ} (A : Matrix (Fin a) (Fin c) K) (B : Matrix (Fin a) (Fin d) K)
    (C : Matrix (Fin b) (Fin c) K) (D : Matrix (Fin b) (Fin d) K) :
    Matrix (Fin (a + b)) (Fin (c + d)) K :=
  Matrix.of fun i j => Fin.addCases (fun i => Fin.addCases (fun j => A i j) (fun j => B i j) j)
    (fun i => Fin.addCases (fun j => C i j) (fun j => D i j) j) i

section
variable {m n a b c d e f : ℕ}

@[simp] theorem hblock_left (A : Matrix (Fin m) (Fin a) K) (B : Matrix (Fin m) (Fin b) K) (i : Fin m)
    (j : Fin a) : hblock A B i (Fin.castAdd b j) = A i j := by
  simp [hblock]

@[simp] theorem hblock_right (A : Matrix (Fin m) (Fin a) K) (B : Matrix (Fin m) (Fin b) K) (i : Fin m)
    (j : Fin b) : hblock A B i (Fin.natAdd a j) = B i j := by
  simp [hblock]

@[simp] theorem blk_11 (A : Matrix (Fin a) (Fin c) K) (B : Matrix (Fin a) (Fin d) K)
    (C : Matrix (Fin b) (Fin c) K) (D : Matrix (Fin b) (Fin d) K) (i : Fin a) (j : Fin c) :
    blk A B C D (Fin.castAdd b i) (Fin.castAdd d j) = A i j := by simp [blk]
@[simp] theorem blk_12 (A : Matrix (Fin a) (Fin c) K) (B : Matrix (Fin a) (Fin d) K)
    (C : Matrix (Fin b) (Fin c) K) (D : Matrix (Fin b) (Fin d) K) (i : Fin a) (j : Fin d) :
    blk A B C D (Fin.castAdd b i) (Fin.natAdd c j) = B i j := by simp [blk]
@[simp] theorem blk_21 (A : Matrix (Fin a) (Fin c) K) (B : Matrix (Fin a) (Fin d) K)
    (C : Matrix (Fin b) (Fin c) K) (D : Matrix (Fin b) (Fin d) K) (i : Fin b) (j : Fin c) :
    blk A B C D (Fin.natAdd a i) (Fin.castAdd d j) = C i j := by simp [blk]
@[simp] theorem blk_22 (A : Matrix (Fin a) (Fin c) K) (B : Matrix (Fin a) (Fin d) K)
    (C : Matrix (Fin b) (Fin c) K) (D : Matrix (Fin b) (Fin d) K) (i : Fin b) (j : Fin d) :
    blk A B C D (Fin.natAdd a i) (Fin.natAdd c j) = D i j := by simp [blk]

theorem ext_cols {M N : Matrix (Fin m) (Fin (a + b)) K}
    (h1 : ∀ i j, M i (Fin.castAdd b j) = N i (Fin.castAdd b j))
    (h2 : ∀ i j, M i (Fin.natAdd a j) = N i (Fin.natAdd a j)) : M = N := by
  ext i j
  exact Fin.addCases (motive := fun j => M i j = N i j) (h1 i) (h2 i) j

theorem ext_blk {M N : Matrix (Fin (a + b)) (Fin (c + d)) K}
    (h11 : ∀ i j, M (Fin.castAdd b i) (Fin.castAdd d j) = N (Fin.castAdd b i) (Fin.castAdd d j))
    (h12 : ∀ i j, M (Fin.castAdd b i) (Fin.natAdd c j) = N (Fin.castAdd b i) (Fin.natAdd c j))
    (h21 : ∀ i j, M (Fin.natAdd a i) (Fin.castAdd d j) = N (Fin.natAdd a i) (Fin.castAdd d j))
    (h22 : ∀ i j, M (Fin.natAdd a i) (Fin.natAdd c j) = N (Fin.natAdd a i) (Fin.natAdd c j)) :
    M = N := by
  apply ext_cols
  · intro i j
    exact Fin.addCases (motive := fun i => M i (Fin.castAdd d j) = N i (Fin.castAdd d j))
      (fun i => h11 i j) (fun i => h21 i j) i
  · intro i j
    exact Fin.addCases (motive := fun i => M i (Fin.natAdd c j) = N i (Fin.natAdd c j))
      (fun i => h12 i j) (fun i => h22 i j) i

variable [CommRing K]

theorem hblock_mul_blk (A : Matrix (Fin m) (Fin a) K) (B : Matrix (Fin m) (Fin b) K)
    (P : Matrix (Fin a) (Fin c) K) (Q : Matrix (Fin a) (Fin d) K) (R : Matrix (Fin b) (Fin c) K)
    (T : Matrix (Fin b) (Fin d) K) :
    hblock A B * blk P Q R T = hblock (A * P + B * R) (A * Q + B * T) := by
  apply ext_cols <;> intro i j <;>
    simp [Matrix.mul_apply, Fin.sum_univ_add, Matrix.add_apply]

theorem mul_hblock (A : Matrix (Fin n) (Fin m) K) (P : Matrix (Fin m) (Fin a) K)
    (Q : Matrix (Fin m) (Fin b) K) : A * hblock P Q = hblock (A * P) (A * Q) := by
  apply ext_cols <;> intro i j <;> simp [Matrix.mul_apply]

theorem blk_mul_blk (A : Matrix (Fin a) (Fin c) K) (B : Matrix (Fin a) (Fin d) K)
    (C : Matrix (Fin b) (Fin c) K) (D : Matrix (Fin b) (Fin d) K)
    (P : Matrix (Fin c) (Fin e) K) (Q : Matrix (Fin c) (Fin f) K) (R : Matrix (Fin d) (Fin e) K)
    (T : Matrix (Fin d) (Fin f) K) :
    blk A B C D * blk P Q R T =
      blk (A * P + B * R) (A * Q + B * T) (C * P + D * R) (C * Q + D * T) := by
  apply ext_blk <;> intro i j <;> simp [Matrix.mul_apply, Fin.sum_univ_add, Matrix.add_apply]

theorem blk_transpose (A : Matrix (Fin a) (Fin c) K) (B : Matrix (Fin a) (Fin d) K)
    (C : Matrix (Fin b) (Fin c) K) (D : Matrix (Fin b) (Fin d) K) :
    (blk A B C D).transpose = blk A.transpose C.transpose B.transpose D.transpose := by
  apply ext_blk <;> intro i j <;> simp

theorem blk_one : blk (1 : Matrix (Fin a) (Fin a) K) 0 0 (1 : Matrix (Fin b) (Fin b) K) = 1 := by
  apply ext_blk <;> intro i j
  · simp [Matrix.one_apply]
  · simp [Matrix.one_apply, Fin.ext_iff]; omega
  · simp [Matrix.one_apply, Fin.ext_iff]; omega
  · simp [Matrix.one_apply, Fin.ext_iff]

theorem blk_zero : blk (0 : Matrix (Fin a) (Fin c) K) (0 : Matrix (Fin a) (Fin d) K)
    (0 : Matrix (Fin b) (Fin c) K) (0 : Matrix (Fin b) (Fin d) K) = 0 := by
  apply ext_blk <;> intro i j <;> simp

theorem hblock_gram (A : Matrix (Fin m) (Fin a) K) (B : Matrix (Fin m) (Fin b) K) :
    (hblock A B).transpose * hblock A B =
      blk (A.transpose * A) (A.transpose * B) (B.transpose * A) (B.transpose * B) := by
  apply ext_blk <;> intro i j <;> simp [Matrix.mul_apply]

end

theorem blockDiag_mk [CommRing K] {a b c d : ℕ} (A : Matrix (Fin a) (Fin c) K) (D : Matrix (Fin b) (Fin d) K) :
    Mat.blockDiag ⟨a, c, A⟩ ⟨b, d, D⟩ = ⟨a + b, c + d, blk A 0 0 D⟩ := rfl

theorem hcat_mk {m a b : ℕ} (A : Matrix (Fin m) (Fin a) K) (B : Matrix (Fin m) (Fin b) K) :
    Mat.hcat ⟨m, a, A⟩ ⟨m, b, B⟩ = .ok ⟨m, a + b, hblock A B⟩ := by
  unfold Mat.hcat
  rw [dif_pos rfl]
  rfl

theorem broadcastTo_self {h w : ℕ} (M : Matrix (Fin h) (Fin w) K) :
    Mat.broadcastTo ⟨h, w, M⟩ h w = .ok M := by
  unfold Mat.broadcastTo
  rw [dif_pos ⟨Or.inl rfl, Or.inl rfl⟩]
  congr 1
  ext i j
  rw [Matrix.of_apply]
  congr 1
  · apply Fin.ext
    dsimp only
    split <;> omega
  · apply Fin.ext
    dsimp only
    split <;> omega

/-- QR of a matrix with at least as many rows as columns has a square `R`. -/
theorem qrM_tall [CommRing K] (la : LinAlg K) {m n : ℕ} (hn : n ≤ m) (A : Matrix (Fin m) (Fin n) K) :
    ∃ (J : Matrix (Fin m) (Fin n) K) (k : Matrix (Fin n) (Fin n) K),
      la.qrM ⟨m, n, A⟩ = (⟨m, n, J⟩, ⟨n, n, k⟩) ∧
      (QrOk la A → J * k = A ∧ J.transpose * J = 1) := by
  unfold LinAlg.qrM QrOk
  dsimp only
  generalize la.qr A = p
  have hmin : min m n = n := by omega
  generalize min m n = t at *
  subst hmin
  exact ⟨p.1, p.2, rfl, id⟩

end DynCF
