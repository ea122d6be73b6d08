/-
Property theorems C42, C43, C44 (incremental SVD updates).
-/
import Verif.Lemmas.Blocks
import Verif.Props.Psi
import Verif.Props.RandomSvd
import Mathlib.Algebra.Order.Field.Rat
import Mathlib.Data.Fin.VecNotation

set_option linter.unusedSectionVars false

namespace DynCF
open Matrix
variable {K : Type}

section
variable [Field K] [LinearOrder K]

theorem viBlock_mk {r q nc : ℕ} (V : Matrix (Fin r) (Fin q) K) :
    viBlock ⟨r, q, V⟩ r nc = .ok ⟨q + nc, r + nc, blk V.transpose 0 0 1⟩ := by
  unfold viBlock
  rw [Mat.T_mk, broadcastTo_self]
  rfl

theorem dqBlock_mk {r nc : ℕ} (S : Matrix (Fin r) (Fin r) K) (p : Matrix (Fin r) (Fin nc) K)
    (k : Matrix (Fin nc) (Fin nc) K) :
    dqBlock ⟨r, r, S⟩ ⟨r, nc, p⟩ ⟨nc, nc, k⟩ r nc = .ok ⟨r + nc, r + nc, blk S p 0 k⟩ := by
  unfold dqBlock
  rw [broadcastTo_self, broadcastTo_self, broadcastTo_self]
  rfl

/-- **C43** (when the extended basis is made orthonormal again). `update_svd_new_vectors` replaces the extended basis by
its QR decomposition exactly if the signed inner product of its first and last column is above `1e-10`. -/
theorem C43_threshold (la : LinAlg K) {m n c : ℕ} (A : Matrix (Fin m) (Fin n) K) (D : Matrix (Fin n) (Fin c) K)
    (hpos : 0 < n) :
    reorth la ⟨m, n, A⟩ ⟨n, c, D⟩ =
      if (∑ i, A i ⟨0, hpos⟩ * A i ⟨n - 1, by omega⟩) > 1 / 10 ^ 10 then
        .ok (⟨m, min m n, (la.qr A).1⟩, ⟨min m n, c, (la.qr A).2 * D⟩)
      else .ok (⟨m, n, A⟩, ⟨n, c, D⟩) := by
  unfold reorth orthErr
  dsimp only
  rw [show pyIdx n 0 = .ok ⟨0, hpos⟩ by simpa using pyIdx_coe (n := n) ⟨0, hpos⟩]
  have hz : pyIdx n (-1) = .ok ⟨n - 1, by omega⟩ := by
    unfold pyIdx
    split
    · omega
    · rw [dif_pos (by omega)]
      congr 2
      omega
  rw [hz]
  simp only [except_bind_ok]
  dsimp only [pure, Except.pure]
  simp only [except_bind_ok]
  rw [qrM_mk]
  dsimp only
  rw [Mat.dot_mk]
  rfl

/-- Columns `(1, 0)` and `(1/10^9, 1)` are replaced, `(1, 0)` and `(1/10^11, 1)` are kept, and so are `(1, 0)` and
`(-1, 0)`. -/
example (la : LinAlg ℚ) :
    (∃ A', reorth la ⟨2, 2, !![1, 1 / 10 ^ 9; 0, 1]⟩ ⟨2, 2, 1⟩ =
      .ok (⟨2, 2, (la.qr !![1, 1 / 10 ^ 9; 0, 1]).1⟩, A')) ∧
    reorth la ⟨2, 2, !![1, 1 / 10 ^ 11; 0, 1]⟩ ⟨2, 2, 1⟩ = .ok (⟨2, 2, !![1, 1 / 10 ^ 11; 0, 1]⟩, ⟨2, 2, 1⟩) ∧
    reorth la ⟨2, 2, !![1, -1; 0, 0]⟩ ⟨2, 2, 1⟩ = .ok (⟨2, 2, !![1, -1; 0, 0]⟩, ⟨2, 2, 1⟩) := by
  refine ⟨⟨⟨2, 2, (la.qr !![1, 1 / 10 ^ 9; 0, 1]).2 * (1 : Matrix (Fin 2) (Fin 2) ℚ)⟩, ?_⟩, ?_, ?_⟩
  · rw [C43_threshold _ _ _ (by omega), if_pos]
    · rfl
    · simp [Fin.sum_univ_two]
      norm_num
  · rw [C43_threshold _ _ _ (by omega), if_neg]
    simp [Fin.sum_univ_two]
    norm_num
  · rw [C43_threshold _ _ _ (by omega), if_neg]
    simp [Fin.sum_univ_two]
    norm_num

/-- The run of `update_svd_new_vectors` up to the re-orthogonalisation. -/
theorem newVectors_eq (la : LinAlg K) (rng : Rng K) {m r q nc : ℕ}
    (U : Matrix (Fin m) (Fin r) K) (s : SArg K) (S : Matrix (Fin r) (Fin r) K)
    (hs : s.toMat = ⟨r, r, S⟩) (V : Matrix (Fin r) (Fin q) K) (N : Matrix (Fin m) (Fin nc) K)
    (J : Matrix (Fin m) (Fin nc) K) (k : Matrix (Fin nc) (Fin nc) K)
    (hJ : la.qrM ⟨m, nc, N - U * (U.transpose * N)⟩ = (⟨m, nc, J⟩, ⟨nc, nc, k⟩)) (nPower os : ℕ) :
    updateSvdNewVectors la rng ⟨m, r, U⟩ s ⟨r, q, V⟩ ⟨m, nc, N⟩ nPower os =
      (reorth la ⟨m, r + nc, hblock U J⟩ ⟨r + nc, r + nc, blk S (U.transpose * N) 0 k⟩).bind
        fun x => (x.1.dot (randomSvd la rng x.2 r nPower os).1).bind fun u2 =>
          (Mat.dot ⟨q + nc, r + nc, blk V.transpose 0 0 1⟩
            (randomSvd la rng x.2 r nPower os).2.2.T).bind fun v2 =>
          .ok (u2, (randomSvd la rng x.2 r nPower os).2.1, v2.T) := by
  unfold updateSvdNewVectors
  rw [hs]
  simp only [Mat.T_mk, Mat.dot_mk, Mat.sub_mk, except_bind_ok, hJ, hcat_mk, viBlock_mk, dqBlock_mk]
  rfl

/-- Before the small SVD: the extended factors `P`, `D`, `W` built by the code, and what the code
returns in terms of the random SVD of the core `D`. -/
theorem newVectors_run (la : LinAlg K) (rng : Rng K) (hqr : QrAlways la) {m r q nc : ℕ}
    (U : Matrix (Fin m) (Fin r) K) (s : SArg K) (S : Matrix (Fin r) (Fin r) K)
    (hs : s.toMat = ⟨r, r, S⟩) (V : Matrix (Fin r) (Fin q) K) (N : Matrix (Fin m) (Fin nc) K)
    (hnc : nc ≤ m) (hpos : 0 < r + nc) (nPower os : ℕ) :
    ∃ (p : ℕ) (P : Matrix (Fin m) (Fin p) K) (D : Matrix (Fin p) (Fin (r + nc)) K)
      (k : ℕ) (d1 : Matrix (Fin p) (Fin k) K) (d2 : Fin k → K) (d3 : Matrix (Fin k) (Fin (r + nc)) K),
      randomSvd la rng ⟨p, r + nc, D⟩ r nPower os = (⟨p, k, d1⟩, ⟨k, d2⟩, ⟨k, r + nc, d3⟩) ∧
      k = min r p ∧
      updateSvdNewVectors la rng ⟨m, r, U⟩ s ⟨r, q, V⟩ ⟨m, nc, N⟩ nPower os =
        .ok (⟨m, k, P * d1⟩, ⟨k, d2⟩,
          ⟨k, q + nc, (blk V.transpose 0 0 (1 : Matrix (Fin nc) (Fin nc) K) * d3.transpose).transpose⟩) ∧
      P * D = hblock (U * S) N ∧
      ((P.transpose * P = 1 ∧ p = min m (r + nc)) ∨ p = r + nc ∧
        (U.transpose * U = 1 → (P * D).transpose * (P * D) = D.transpose * D)) := by
  obtain ⟨J, k, hJ, hJk⟩ := qrM_tall la hnc (N - U * (U.transpose * N))
  obtain ⟨hJk, hJJ⟩ := hJk (hqr _)
  have hprod : hblock U J * blk S (U.transpose * N) 0 k = hblock (U * S) N := by
    rw [hblock_mul_blk, Matrix.mul_zero, add_zero, hJk, add_sub_cancel]
  have hrun := newVectors_eq la rng U s S hs V N J k hJ nPower os
  have hre : reorth la ⟨m, r + nc, hblock U J⟩ ⟨r + nc, r + nc, blk S (U.transpose * N) 0 k⟩ =
        .ok (⟨m, min m (r + nc), (la.qr (hblock U J)).1⟩,
          ⟨min m (r + nc), r + nc, (la.qr (hblock U J)).2 * blk S (U.transpose * N) 0 k⟩) ∨
      reorth la ⟨m, r + nc, hblock U J⟩ ⟨r + nc, r + nc, blk S (U.transpose * N) 0 k⟩ =
        .ok (⟨m, r + nc, hblock U J⟩, ⟨r + nc, r + nc, blk S (U.transpose * N) 0 k⟩) := by
    rw [C43_threshold _ _ _ hpos]
    split
    · exact Or.inl rfl
    · exact Or.inr rfl
  rcases hre with hre | hre
  · rw [hre] at hrun
    obtain ⟨kk, d1, d2, d3, -, hkk, he, -⟩ := C47_components la rng
      ((la.qr (hblock U J)).2 * blk S (U.transpose * N) 0 k) r nPower os
    refine ⟨_, (la.qr (hblock U J)).1, _, kk, d1, d2, d3, he, by omega, ?_, ?_, Or.inl ⟨(hqr _).2, rfl⟩⟩
    · rw [hrun]
      simp only [Except.bind]
      rw [he]
      simp only [Mat.dot_mk, Mat.T_mk]
    · rw [← Matrix.mul_assoc, (hqr (hblock U J)).1, hprod]
  · rw [hre] at hrun
    obtain ⟨kk, d1, d2, d3, -, hkk, he, -⟩ := C47_components la rng
      (blk S (U.transpose * N) 0 k) r nPower os
    refine ⟨_, hblock U J, _, kk, d1, d2, d3, he, by omega, ?_, hprod, Or.inr ⟨rfl, ?_⟩⟩
    · rw [hrun]
      simp only [Except.bind]
      rw [he]
      simp only [Mat.dot_mk, Mat.T_mk]
    · intro hU
      rw [hprod, hblock_gram, blk_transpose, blk_mul_blk]
      have hN : N = U * (U.transpose * N) + J * k := by rw [hJk, add_sub_cancel]
      have hUJ : U.transpose * (J * k) = 0 := by
        rw [hJk, Matrix.mul_sub, ← Matrix.mul_assoc U.transpose U, hU, Matrix.one_mul, sub_self]
      have hJU : k.transpose * J.transpose * U = 0 := by
        have := congrArg Matrix.transpose hUJ
        simpa [Matrix.transpose_mul] using this
      congr 1
      · rw [Matrix.transpose_mul, Matrix.mul_assoc, ← Matrix.mul_assoc U.transpose, hU, Matrix.one_mul]
        simp
      · rw [Matrix.transpose_mul, Matrix.mul_assoc]
        simp
      · rw [← Matrix.mul_assoc, Matrix.transpose_mul, Matrix.transpose_transpose]
        simp
      · have : N.transpose * N = (U * (U.transpose * N) + J * k).transpose *
            (U * (U.transpose * N) + J * k) := by rw [← hN]
        rw [this]
        generalize U.transpose * N = pr at *
        rw [Matrix.transpose_add, Matrix.transpose_mul, Matrix.transpose_mul, Matrix.add_mul,
          Matrix.mul_add, Matrix.mul_add, Matrix.mul_assoc pr.transpose U.transpose (J * k), hUJ,
          ← Matrix.mul_assoc (k.transpose * J.transpose) U pr, hJU, ← Matrix.mul_assoc (pr.transpose * U.transpose) U pr,
          Matrix.mul_assoc pr.transpose U.transpose U, hU, ← Matrix.mul_assoc _ J k,
          Matrix.mul_assoc k.transpose J.transpose J, hJJ]
        simp

/-- **C42.** Appending the columns `N` (for any `U`, orthonormal or not): the code builds `P`, `D` and
`W` with `P D Wᵀ = [U S V | N]` exactly, and returns `P d1`, `d2`, `(W d3ᵀ)ᵀ` where `d1, d2, d3` is the
truncated SVD of the small core `D`. So the returned factors multiply to `P (d1 d2 d3) Wᵀ`, which is
`[U S V | N]` whenever the truncated SVD of the core is exact. -/
theorem C42_append (la : LinAlg K) (rng : Rng K) (hqr : QrAlways la) {m r q nc : ℕ}
    (U : Matrix (Fin m) (Fin r) K) (s : SArg K) (S : Matrix (Fin r) (Fin r) K)
    (hs : s.toMat = ⟨r, r, S⟩) (V : Matrix (Fin r) (Fin q) K) (N : Matrix (Fin m) (Fin nc) K)
    (hnc : nc ≤ m) (hpos : 0 < r + nc) (nPower os : ℕ) :
    ∃ (p k : ℕ) (P : Matrix (Fin m) (Fin p) K) (D : Matrix (Fin p) (Fin (r + nc)) K)
      (W : Matrix (Fin (q + nc)) (Fin (r + nc)) K)
      (d1 : Matrix (Fin p) (Fin k) K) (d2 : Fin k → K) (d3 : Matrix (Fin k) (Fin (r + nc)) K)
      (U2 : Matrix (Fin m) (Fin k) K) (V2 : Matrix (Fin k) (Fin (q + nc)) K),
      randomSvd la rng ⟨p, r + nc, D⟩ r nPower os = (⟨p, k, d1⟩, ⟨k, d2⟩, ⟨k, r + nc, d3⟩) ∧
      updateSvdNewVectors la rng ⟨m, r, U⟩ s ⟨r, q, V⟩ ⟨m, nc, N⟩ nPower os =
        .ok (⟨m, k, U2⟩, ⟨k, d2⟩, ⟨k, q + nc, V2⟩) ∧
      P * D * W.transpose = hblock (U * S * V) N ∧
      U2 * Matrix.diagonal d2 * V2 = P * (d1 * Matrix.diagonal d2 * d3) * W.transpose ∧
      (d1 * Matrix.diagonal d2 * d3 = D → U2 * Matrix.diagonal d2 * V2 = hblock (U * S * V) N) ∧
      k ≤ r ∧ (r ≤ m → k = r) := by
  obtain ⟨p, P, D, k, d1, d2, d3, he, hk, hrun, hPD, hp⟩ :=
    newVectors_run la rng hqr U s S hs V N hnc hpos nPower os
  have hW : P * D * (blk V.transpose 0 0 (1 : Matrix (Fin nc) (Fin nc) K)).transpose =
      hblock (U * S * V) N := by
    rw [hPD, blk_transpose, hblock_mul_blk]
    simp
  refine ⟨p, k, P, D, blk V.transpose 0 0 1, d1, d2, d3, _, _, he, hrun, hW, ?_, ?_, by omega, ?_⟩
  · rw [Matrix.transpose_mul, Matrix.transpose_transpose]
    simp only [Matrix.mul_assoc]
  · intro hd
    rw [Matrix.transpose_mul, Matrix.transpose_transpose, ← hW, ← hd]
    simp only [Matrix.mul_assoc]
  · intro hrm
    rcases hp with ⟨_, hp⟩ | ⟨hp, _⟩ <;> omega

/-- **C42, right vectors.** The right factor keeps orthonormal rows. -/
theorem C42_right_orthonormal (la : LinAlg K) (rng : Rng K) (hqr : QrAlways la) {m r q nc : ℕ}
    (hsvd : ∀ {a b : ℕ} (A : Matrix (Fin a) (Fin b) K), SvdOk la A)
    (U : Matrix (Fin m) (Fin r) K) (s : SArg K) (S : Matrix (Fin r) (Fin r) K)
    (hs : s.toMat = ⟨r, r, S⟩) (V : Matrix (Fin r) (Fin q) K) (N : Matrix (Fin m) (Fin nc) K)
    (hnc : nc ≤ m) (hpos : 0 < r + nc) (nPower os : ℕ) (hV : V * V.transpose = 1) :
    ∃ (k : ℕ) (U2 : Matrix (Fin m) (Fin k) K) (s2 : Fin k → K) (V2 : Matrix (Fin k) (Fin (q + nc)) K),
      updateSvdNewVectors la rng ⟨m, r, U⟩ s ⟨r, q, V⟩ ⟨m, nc, N⟩ nPower os =
        .ok (⟨m, k, U2⟩, ⟨k, s2⟩, ⟨k, q + nc, V2⟩) ∧ V2 * V2.transpose = 1 := by
  obtain ⟨p, P, D, k, d1, d2, d3, he, hk, hrun, hPD, hp⟩ :=
    newVectors_run la rng hqr U s S hs V N hnc hpos nPower os
  refine ⟨k, _, d2, _, hrun, ?_⟩
  have h3 := (C47_orthonormal la rng D r nPower os ⟨hqr _, hsvd _⟩).2
  rw [he] at h3
  dsimp only at h3
  rw [Matrix.transpose_transpose, Matrix.transpose_mul, Matrix.transpose_transpose, Matrix.mul_assoc,
    ← Matrix.mul_assoc _ (blk V.transpose 0 0 1), blk_transpose, blk_mul_blk]
  simp only [Matrix.transpose_transpose, hV, Matrix.transpose_zero, Matrix.mul_zero, Matrix.zero_mul,
    add_zero, zero_add, Matrix.transpose_one, Matrix.mul_one, blk_one, Matrix.one_mul, h3]

/-- **C42, error branch.** More new vectors than their length cannot be appended: `ValueError`. -/
theorem C42_too_many (la : LinAlg K) (rng : Rng K) {m r q nc : ℕ}
    (U : Matrix (Fin m) (Fin r) K) (s : SArg K) (S : Matrix (Fin r) (Fin r) K)
    (hs : s.toMat = ⟨r, r, S⟩) (V : Matrix (Fin r) (Fin q) K) (N : Matrix (Fin m) (Fin nc) K)
    (hnc : m < nc) (nPower os : ℕ) :
    updateSvdNewVectors la rng ⟨m, r, U⟩ s ⟨r, q, V⟩ ⟨m, nc, N⟩ nPower os = .error .valueError := by
  obtain ⟨J, k, hJ⟩ : ∃ (J : Matrix (Fin m) (Fin m) K) (k : Matrix (Fin m) (Fin nc) K),
      la.qrM ⟨m, nc, N - U * (U.transpose * N)⟩ = (⟨m, m, J⟩, ⟨m, nc, k⟩) := by
    rw [qrM_mk]
    generalize la.qr (N - U * (U.transpose * N)) = x
    have hmin : min m nc = m := by omega
    generalize min m nc = t at *
    subst hmin
    exact ⟨x.1, x.2, rfl⟩
  unfold updateSvdNewVectors
  rw [hs]
  simp only [Mat.T_mk, Mat.dot_mk, Mat.sub_mk, except_bind_ok, hJ, hcat_mk, viBlock_mk]
  by_cases h1 : m = 1
  · obtain ⟨dq, hdq, hdr⟩ : ∃ dq, dqBlock ⟨r, r, S⟩ ⟨r, nc, U.transpose * N⟩ ⟨m, nc, k⟩ r nc = .ok dq ∧
        dq.rows = r + nc := by
      unfold dqBlock
      rw [broadcastTo_self, broadcastTo_self]
      have : ∃ k', Mat.broadcastTo ⟨m, nc, k⟩ nc nc = .ok k' := by
        unfold Mat.broadcastTo
        rw [dif_pos ⟨Or.inr h1, Or.inl rfl⟩]
        exact ⟨_, rfl⟩
      obtain ⟨k', hk'⟩ := this
      rw [hk']
      exact ⟨_, rfl, rfl⟩
    rw [hdq]
    simp only [except_bind_ok]
    unfold reorth orthErr
    dsimp only
    rw [show pyIdx (r + m) 0 = .ok ⟨0, by omega⟩ by
      simpa using pyIdx_coe (n := r + m) ⟨0, by omega⟩]
    obtain ⟨z, hz⟩ : ∃ z, pyIdx (r + m) (-1) = .ok z := by
      unfold pyIdx
      split
      · omega
      · rw [dif_pos (by omega)]
        exact ⟨_, rfl⟩
    rw [hz]
    simp only [except_bind_ok]
    dsimp only [pure, Except.pure]
    simp only [except_bind_ok]
    split
    · rw [Mat.dot_error (by
        show r + m ≠ dq.rows
        omega)]
      rfl
    · simp only [except_bind_ok]
      rw [Mat.dot_error (by
        show r + m ≠ dq.rows
        omega)]
      rfl
  · have : dqBlock ⟨r, r, S⟩ ⟨r, nc, U.transpose * N⟩ ⟨m, nc, k⟩ r nc = .error .valueError := by
      unfold dqBlock
      rw [broadcastTo_self, broadcastTo_self]
      have : Mat.broadcastTo ⟨m, nc, k⟩ nc nc = .error .valueError := by
        unfold Mat.broadcastTo
        rw [dif_neg]
        rintro ⟨h | h, _⟩
        · exact absurd h (by dsimp only; omega)
        · exact h1 h
      rw [this]
      rfl
    rw [this]
    rfl

/-- **C43 (partial).** With an orthonormal `U`: the returned left factor is orthonormal if the code
re-orthogonalises (`P` orthonormal), and otherwise if the truncated SVD `d1, d2, d3` of the small core
`D` is exact with non-zero singular values. What is missing is the case of zero singular values without
re-orthogonalisation: see `C43_violated`. -/
theorem C43_orthonormal_partial (la : LinAlg K) (rng : Rng K) (hqr : QrAlways la) {m r q nc : ℕ}
    (hsvd : ∀ {a b : ℕ} (A : Matrix (Fin a) (Fin b) K), SvdOk la A)
    (U : Matrix (Fin m) (Fin r) K) (s : SArg K) (S : Matrix (Fin r) (Fin r) K)
    (hs : s.toMat = ⟨r, r, S⟩) (V : Matrix (Fin r) (Fin q) K) (N : Matrix (Fin m) (Fin nc) K)
    (hnc : nc ≤ m) (hpos : 0 < r + nc) (nPower os : ℕ) (hU : U.transpose * U = 1) :
    ∃ (p k : ℕ) (P : Matrix (Fin m) (Fin p) K) (D : Matrix (Fin p) (Fin (r + nc)) K)
      (d1 : Matrix (Fin p) (Fin k) K) (d2 : Fin k → K) (d3 : Matrix (Fin k) (Fin (r + nc)) K)
      (U2 : Matrix (Fin m) (Fin k) K) (V2 : Matrix (Fin k) (Fin (q + nc)) K),
      P * D = hblock (U * S) N ∧
      randomSvd la rng ⟨p, r + nc, D⟩ r nPower os = (⟨p, k, d1⟩, ⟨k, d2⟩, ⟨k, r + nc, d3⟩) ∧
      updateSvdNewVectors la rng ⟨m, r, U⟩ s ⟨r, q, V⟩ ⟨m, nc, N⟩ nPower os =
        .ok (⟨m, k, U2⟩, ⟨k, d2⟩, ⟨k, q + nc, V2⟩) ∧
      (P.transpose * P = 1 ∨ (d1 * Matrix.diagonal d2 * d3 = D ∧ ∀ i, d2 i ≠ 0) →
        U2.transpose * U2 = 1) := by
  obtain ⟨p, P, D, k, d1, d2, d3, he, hk, hrun, hPD, hp⟩ :=
    newVectors_run la rng hqr U s S hs V N hnc hpos nPower os
  obtain ⟨h1, h3⟩ := C47_orthonormal la rng D r nPower os ⟨hqr _, hsvd _⟩
  rw [he] at h1 h3
  dsimp only at h1 h3
  have horth : P.transpose * P = 1 → (P * d1).transpose * (P * d1) = 1 := by
    intro hP
    rw [Matrix.transpose_mul, Matrix.mul_assoc, ← Matrix.mul_assoc _ P, hP, Matrix.one_mul, h1]
  refine ⟨p, k, P, D, d1, d2, d3, _, _, hPD, he, hrun, ?_⟩
  rintro (hP | ⟨hD, hne⟩)
  · exact horth hP
  · rcases hp with ⟨hP, _⟩ | ⟨_, hiso⟩
    · exact horth hP
    · have hiso := hiso hU
      have hY : d1 = D * (d3.transpose * Matrix.diagonal fun i => (d2 i)⁻¹) := by
        rw [← hD, ← Matrix.mul_assoc, Matrix.mul_assoc _ d3, h3, Matrix.mul_one, Matrix.mul_assoc,
          Matrix.diagonal_mul_diagonal]
        have : (fun i => d2 i * (d2 i)⁻¹) = fun _ => 1 := funext fun i => mul_inv_cancel₀ (hne i)
        rw [this, Matrix.diagonal_one, Matrix.mul_one]
      generalize d3.transpose * Matrix.diagonal (fun i => (d2 i)⁻¹) = Y at hY
      have h1' : Y.transpose * (D.transpose * D) * Y = 1 := by
        rw [hY, Matrix.transpose_mul] at h1
        simpa only [Matrix.mul_assoc] using h1
      rw [hY, ← Matrix.mul_assoc P D Y, Matrix.transpose_mul (P * D) Y, Matrix.mul_assoc,
        ← Matrix.mul_assoc _ (P * D) Y, hiso, ← Matrix.mul_assoc, h1']

end

/-- `U = e₁`, `S = 2`, `N = 3 e₂`. -/
def exU : Matrix (Fin 2) (Fin 1) ℝ := !![1; 0]
def exN : Matrix (Fin 2) (Fin 1) ℝ := !![0; 3]

/-- Non-vacuity of the hypotheses of C42 and C43 (real matrices). -/
example : ∃ (p k : ℕ) (P : Matrix (Fin 2) (Fin p) ℝ) (D : Matrix (Fin p) (Fin (1 + 1)) ℝ)
      (d1 : Matrix (Fin p) (Fin k) ℝ) (d2 : Fin k → ℝ) (d3 : Matrix (Fin k) (Fin (1 + 1)) ℝ)
      (U2 : Matrix (Fin 2) (Fin k) ℝ) (V2 : Matrix (Fin k) (Fin (1 + 1)) ℝ),
      P * D = hblock (exU * Matrix.diagonal fun _ : Fin 1 => (2 : ℝ)) exN ∧
      randomSvd realLA (fun _ _ => 0) ⟨p, 1 + 1, D⟩ 1 0 1 = (⟨p, k, d1⟩, ⟨k, d2⟩, ⟨k, 1 + 1, d3⟩) ∧
      updateSvdNewVectors realLA (fun _ _ => 0) ⟨2, 1, exU⟩ (.vec 1 fun _ => 2)
        ⟨1, 1, Matrix.of fun _ _ => 1⟩ ⟨2, 1, exN⟩ 0 1 = .ok (⟨2, k, U2⟩, ⟨k, d2⟩, ⟨k, 1 + 1, V2⟩) ∧
      (P.transpose * P = 1 ∨ (d1 * Matrix.diagonal d2 * d3 = D ∧ ∀ i, d2 i ≠ 0) →
        U2.transpose * U2 = 1) :=
  C43_orthonormal_partial realLA _ qrAlways_real (fun A => realLA_svd A) exU _ _ rfl _ exN
    (by omega) (by omega) 0 1 (by
      ext i j; fin_cases i; fin_cases j; simp [exU, Matrix.mul_apply])

/-- A concrete instance: the new column is not in the span of `U`; the extended factors reproduce
`[2 · 1 | 0; 0 | 3]`. -/
example : ∃ (p k : ℕ) (P : Matrix (Fin 2) (Fin p) ℝ) (D : Matrix (Fin p) (Fin (1 + 1)) ℝ)
      (W : Matrix (Fin (1 + 1)) (Fin (1 + 1)) ℝ)
      (d2 : Fin k → ℝ) (U2 : Matrix (Fin 2) (Fin k) ℝ) (V2 : Matrix (Fin k) (Fin (1 + 1)) ℝ),
      updateSvdNewVectors realLA (fun _ _ => 0) ⟨2, 1, exU⟩ (.vec 1 fun _ => 2)
        ⟨1, 1, Matrix.of fun _ _ => 1⟩ ⟨2, 1, exN⟩ 0 1 = .ok (⟨2, k, U2⟩, ⟨k, d2⟩, ⟨k, 1 + 1, V2⟩) ∧
      P * D * W.transpose = !![2, 0; 0, 3] ∧ k = 1 := by
  obtain ⟨p, k, P, D, W, d1, d2, d3, U2, V2, -, h, hp, -, -, -, hk⟩ :=
    C42_append realLA (fun _ _ => 0) qrAlways_real exU (.vec 1 fun _ => 2) _ rfl
      (Matrix.of fun _ _ => 1) exN (by omega) (by omega) 0 1
  refine ⟨p, k, P, D, W, d2, U2, V2, h, ?_, hk (by omega)⟩
  rw [hp]
  ext i j
  fin_cases i <;> fin_cases j <;>
    simp [hblock, exU, exN, Matrix.mul_apply, Fin.addCases]

/-! ### C43: the violation -/

/-- `[3/5 -4/5; 4/5 3/5]` -/
noncomputable def rot : Matrix (Fin 2) (Fin 2) ℝ := !![3 / 5, -4 / 5; 4 / 5, 3 / 5]

theorem rot_orth : rot.transpose * rot = 1 := by
  ext i j
  fin_cases i <;> fin_cases j <;> simp [rot, Matrix.mul_apply] <;> norm_num

noncomputable def zeroQ : Matrix (Fin 2) (Fin 2) ℝ := (realLA.qr (0 : Matrix (Fin 2) (Fin 2) ℝ)).1

theorem zeroQ_orth : zeroQ.transpose * zeroQ = 1 := (realLA_qr (0 : Matrix (Fin 2) (Fin 2) ℝ)).2

noncomputable def zeroW : Matrix (Fin 2) (Fin 2) ℝ := zeroQ.transpose * rot

theorem zeroW_orth : zeroW.transpose * zeroW = 1 := by
  have h : zeroQ * zeroQ.transpose = 1 := mul_eq_one_comm.1 zeroQ_orth
  rw [zeroW, Matrix.transpose_mul, Matrix.transpose_transpose, Matrix.mul_assoc,
    ← Matrix.mul_assoc zeroQ, h, Matrix.one_mul, rot_orth]

open Classical in
/-- The real routines, except that the (arbitrary) singular vectors of the 2 × 2 zero matrix are chosen
as `zeroW` and the identity. -/
noncomputable def badLA : LinAlg ℝ where
  qr := realLA.qr
  svd := fun {m n} A =>
    if h : m = 2 ∧ n = 2 ∧ A = 0 then
      (Matrix.of fun i j => zeroW (Fin.cast h.1 i) (Fin.cast (by omega) j), fun _ => 0,
        Matrix.of fun i j => if (i : ℕ) = (j : ℕ) then 1 else 0)
    else realLA.svd A
  svdFull := realLA.svdFull
  svds := realLA.svds
  inv := realLA.inv

theorem badLA_zero : @Eq (Matrix (Fin 2) (Fin 2) ℝ × (Fin 2 → ℝ) × Matrix (Fin 2) (Fin 2) ℝ)
    (badLA.svd (0 : Matrix (Fin 2) (Fin 2) ℝ)) (zeroW, fun _ => 0, 1) := by
  unfold badLA
  dsimp only
  rw [dif_pos ⟨rfl, rfl, rfl⟩]
  have h3 : (Matrix.of fun i j : Fin 2 => if (i : ℕ) = (j : ℕ) then (1 : ℝ) else 0) = 1 := by
    ext i j
    have : ((i : ℕ) = (j : ℕ)) ↔ i = j := Fin.ext_iff.symm
    simp only [Matrix.of_apply, this, Matrix.one_apply]
  exact Prod.ext rfl (Prod.ext rfl h3)

theorem badLA_qr : QrAlways badLA := fun A => realLA_qr A

theorem badLA_svd {m n : ℕ} (A : Matrix (Fin m) (Fin n) ℝ) : SvdOk badLA A := by
  by_cases h : m = 2 ∧ n = 2 ∧ A = 0
  · obtain ⟨rfl, rfl, rfl⟩ := h
    have h := badLA_zero
    have e1 : (badLA.svd (0 : Matrix (Fin 2) (Fin 2) ℝ)).1 = zeroW := congrArg Prod.fst h
    have e2 : (badLA.svd (0 : Matrix (Fin 2) (Fin 2) ℝ)).2.1 = fun _ => 0 :=
      congrArg (fun x => x.2.1) h
    have e3 : (badLA.svd (0 : Matrix (Fin 2) (Fin 2) ℝ)).2.2 = (1 : Matrix (Fin 2) (Fin 2) ℝ) :=
      congrArg (fun x => x.2.2) h
    unfold SvdOk
    rw [e1, e2, e3]
    refine ⟨?_, zeroW_orth, ?_, fun _ => le_refl _, fun _ _ _ => le_refl _⟩
    · show zeroW * Matrix.diagonal (fun _ : Fin 2 => (0 : ℝ)) * (1 : Matrix (Fin 2) (Fin 2) ℝ) = 0
      rw [show (Matrix.diagonal fun _ : Fin 2 => (0 : ℝ)) = 0 from Matrix.diagonal_zero, Matrix.mul_zero,
        Matrix.zero_mul]
    · show (1 : Matrix (Fin 2) (Fin 2) ℝ) * (1 : Matrix (Fin 2) (Fin 2) ℝ).transpose = 1
      simp
  · have : badLA.svd A = realLA.svd A := by
      unfold badLA
      dsimp only
      rw [dif_neg h]
    unfold SvdOk
    rw [this]
    exact realLA_svd A

/-- **C43 is violated.** All QR and SVD calls meet their contracts, the input `U` is orthonormal, but the
returned left factor is not: the orthogonality test compares the signed inner product of the first and
the last column with the threshold, so an inner product of -1 passes. -/
theorem C43_violated : ∃ (la : LinAlg ℝ), QrAlways la ∧
    (∀ {a b : ℕ} (A : Matrix (Fin a) (Fin b) ℝ), SvdOk la A) ∧
    ∃ (U : Matrix (Fin 2) (Fin 1) ℝ), U.transpose * U = 1 ∧
      ∃ (U2 : Matrix (Fin 2) (Fin 1) ℝ) (s2 : Vec ℝ) (V2 : Mat ℝ),
        updateSvdNewVectors la (fun _ _ => 0) ⟨2, 1, U⟩ (.vec 1 fun _ => 0) ⟨1, 1, 1⟩ ⟨2, 1, 0⟩ 0 1 =
          .ok (⟨2, 1, U2⟩, s2, V2) ∧ U2.transpose * U2 ≠ 1 := by
  refine ⟨badLA, badLA_qr, fun A => badLA_svd A, ?_⟩
  obtain ⟨J, k, hJ, hJk⟩ := qrM_tall badLA (show 1 ≤ 2 by omega) (0 : Matrix (Fin 2) (Fin 1) ℝ)
  obtain ⟨hJk, hJJ⟩ := hJk (badLA_qr _)
  have hk : k = 0 := by
    rw [← Matrix.one_mul k, ← hJJ, Matrix.mul_assoc, hJk, Matrix.mul_zero]
  subst hk
  have hJ2 : J 0 0 * J 0 0 + J 1 0 * J 1 0 = 1 := by
    have := congrFun (congrFun hJJ 0) 0
    simpa [Matrix.mul_apply, Fin.sum_univ_two] using this
  refine ⟨-J, by rw [Matrix.transpose_neg, Matrix.neg_mul, Matrix.mul_neg, neg_neg, hJJ], ?_⟩
  have hJ' : badLA.qrM ⟨2, 1, (0 : Matrix (Fin 2) (Fin 1) ℝ) - -J * ((-J).transpose * (0 : Matrix (Fin 2) (Fin 1) ℝ))⟩ =
      (⟨2, 1, J⟩, ⟨1, 1, 0⟩) := by
    rw [Matrix.mul_zero, Matrix.mul_zero, sub_zero, hJ]
  have hrun := newVectors_eq badLA (fun _ _ => 0) (-J) (.vec 1 fun _ => 0)
    (Matrix.diagonal fun _ => 0) rfl (1 : Matrix (Fin 1) (Fin 1) ℝ) 0 J 0 hJ' 0 1
  rw [C43_threshold _ _ _ (by omega), if_neg] at hrun
  swap
  · have h0 : ∀ i, hblock (-J) J i ⟨0, by omega⟩ = - J i 0 := fun i => hblock_left (-J) J i 0
    have h1 : ∀ i, hblock (-J) J i ⟨1 + 1 - 1, by omega⟩ = J i 0 := fun i => hblock_right (-J) J i 0
    simp only [h0, h1]
    rw [Fin.sum_univ_two, not_lt]
    have : (0 : ℝ) ≤ 1 / 10 ^ 10 := by positivity
    linarith
  simp only [Except.bind] at hrun
  have hD : blk (Matrix.diagonal fun _ => 0) ((-J).transpose * (0 : Matrix (Fin 2) (Fin 1) ℝ)) 0 0 =
      (0 : Matrix (Fin (1 + 1)) (Fin (1 + 1)) ℝ) := by
    rw [Matrix.mul_zero, show (Matrix.diagonal fun _ : Fin 1 => (0 : ℝ)) = 0 from Matrix.diagonal_zero,
      blk_zero]
  rw [hD] at hrun
  have hsk : sketch (fun _ _ => 0) (0 : Matrix (Fin (1 + 1)) (Fin (1 + 1)) ℝ) 1 0 1 = 0 := by
    simp [sketch]
  have hfull : ((randomSvdFull badLA (fun _ _ => 0) (0 : Matrix (Fin (1 + 1)) (Fin (1 + 1)) ℝ) 1 0 1).1 :
      Matrix (Fin 2) (Fin 2) ℝ) = rot := by
    have hq : sketchQ badLA (fun _ _ => 0) (0 : Matrix (Fin (1 + 1)) (Fin (1 + 1)) ℝ) 1 0 1 = zeroQ := by
      unfold sketchQ
      rw [hsk]
      rfl
    rw [randomSvdFull_eq, hq]
    dsimp only
    rw [Matrix.mul_zero]
    have h : zeroQ * zeroW = rot := by
      have h : zeroQ * zeroQ.transpose = 1 := mul_eq_one_comm.1 zeroQ_orth
      rw [zeroW, ← Matrix.mul_assoc, h, Matrix.one_mul]
    have e1 : (badLA.svd (0 : Matrix (Fin 2) (Fin 2) ℝ)).1 = zeroW := congrArg Prod.fst badLA_zero
    rw [← h, ← e1]
  obtain ⟨kk, d1, d2, d3, hle, hkk, he, hd1, -⟩ := C47_components badLA (fun _ _ => 0)
    (0 : Matrix (Fin (1 + 1)) (Fin (1 + 1)) ℝ) 1 0 1
  have hkk : kk = 1 := by omega
  subst hkk
  rw [he] at hrun
  simp only [Mat.dot_mk, Mat.T_mk] at hrun
  refine ⟨_, _, _, hrun, ?_⟩
  have h0 : d1 0 0 = 3 / 5 := by
    rw [hd1]
    have := congrFun (congrFun hfull 0) (0 : Fin 2)
    rw [show rot 0 0 = 3 / 5 by simp [rot]] at this
    exact this
  have h1 : d1 1 0 = 4 / 5 := by
    rw [hd1]
    have := congrFun (congrFun hfull 1) (0 : Fin 2)
    rw [show rot 1 0 = 4 / 5 by simp [rot]] at this
    exact this
  have hU2 : ∀ i, (hblock (-J) J * d1) i 0 = J i 0 * (1 / 5) := by
    intro i
    rw [Matrix.mul_apply, Fin.sum_univ_two]
    rw [show hblock (-J) J i 0 = - J i 0 from hblock_left (-J) J i 0,
      show hblock (-J) J i 1 = J i 0 from hblock_right (-J) J i 0, h0, h1]
    ring
  intro hc
  have := congrFun (congrFun hc 0) 0
  rw [Matrix.mul_apply, Fin.sum_univ_two] at this
  simp only [Matrix.transpose_apply, hU2, Matrix.one_apply_eq] at this
  nlinarith
end DynCF
