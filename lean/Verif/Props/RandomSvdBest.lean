/-
C154: what `random_svd` and `update_svd_new_vectors` approximate best.
-/
import Verif.Lemmas.SvdUnique
import Verif.Props.PsiTracks
import Verif.Props.PsiEmbed

namespace DynCF
open Matrix

/-! ### Lemmas -/

theorem truncated_right {m n r : ℕ} {A : Matrix (Fin m) (Fin n) ℝ} {U : Matrix (Fin m) (Fin r) ℝ} {s : Fin r → ℝ}
    {V : Matrix (Fin r) (Fin n) ℝ} (h : TruncatedSvd A U s V) :
    U * diagonal s * V = A * (V.transpose * V) := by
  obtain ⟨U', s', V', hr, hA, hUU, hVV, h0, hd, hU, hs, hV⟩ := h
  have e1 : V' * V.transpose =
      Matrix.of fun (l : Fin (min m n)) (k : Fin r) => if l = Fin.castLE hr k then (1 : ℝ) else 0 := by
    ext l k
    have := congrFun (congrFun hVV l) (Fin.castLE hr k)
    rw [Matrix.mul_apply, Matrix.one_apply] at this
    rw [Matrix.mul_apply, Matrix.of_apply, ← this]
    exact Finset.sum_congr rfl fun j _ => by rw [Matrix.transpose_apply, Matrix.transpose_apply, hV]
  have e2 : A * V.transpose = U * diagonal s := by
    rw [← hA, Matrix.mul_assoc, e1]
    ext i k
    rw [Matrix.mul_apply, Finset.sum_eq_single (Fin.castLE hr k)]
    · rw [Matrix.mul_diagonal, Matrix.mul_diagonal, Matrix.of_apply, if_pos rfl, mul_one, hU, hs]
    · intro l _ hl
      rw [Matrix.of_apply, if_neg hl, mul_zero]
    · simp
  rw [← Matrix.mul_assoc, e2]

theorem sqSum_gram {m p n q : ℕ} {A : Matrix (Fin m) (Fin n) ℝ} {C : Matrix (Fin p) (Fin n) ℝ}
    (h : C.transpose * C = A.transpose * A) (M : Matrix (Fin n) (Fin q) ℝ) : sqSum (A * M) = sqSum (C * M) := by
  rw [sqSum_eq_trace, sqSum_eq_trace, Matrix.transpose_mul, Matrix.transpose_mul, Matrix.mul_assoc,
    Matrix.mul_assoc M.transpose, ← Matrix.mul_assoc _ A, ← Matrix.mul_assoc _ C, h]

/-- The truncated decomposition of a matrix with the same inner products gives the best approximation. -/
theorem best_of_gram {m p n k r : ℕ} {A : Matrix (Fin m) (Fin n) ℝ} {C : Matrix (Fin p) (Fin n) ℝ}
    (h : C.transpose * C = A.transpose * A) {L : Matrix (Fin m) (Fin p) ℝ} (hL : L * C = A)
    {U : Matrix (Fin p) (Fin k) ℝ} {s : Fin k → ℝ} {V : Matrix (Fin k) (Fin n) ℝ} (ht : TruncatedSvd C U s V)
    (hk : min r (min p n) ≤ k) (X : Matrix (Fin m) (Fin n) ℝ) (hX : X.rank ≤ r) :
    sqSum (A - L * U * diagonal s * V) ≤ sqSum (A - X) := by
  have key : ∀ (B : Matrix (Fin n) (Fin n) ℝ), sqSum (A - A * B) = sqSum (C - C * B) := fun B => by
    have := sqSum_gram h (1 - B)
    rwa [Matrix.mul_sub, Matrix.mul_one, Matrix.mul_sub, Matrix.mul_one] at this
  have e1 : L * U * diagonal s * V = A * (V.transpose * V) := by
    rw [← hL, Matrix.mul_assoc L C, ← truncated_right ht]
    simp only [Matrix.mul_assoc]
  rw [e1, key, ← truncated_right ht]
  obtain ⟨G, H, hGH⟩ := exists_factor_of_rank X hX
  obtain ⟨hQR, hQ⟩ := realLA_qr H.transpose
  generalize (realLA.qr H.transpose).1 = Q at hQR hQ
  generalize (realLA.qr H.transpose).2 = R at hQR
  have hH : H = R.transpose * Q.transpose := by
    rw [← Matrix.transpose_mul, hQR, Matrix.transpose_transpose]
  have e2 : sqSum (A - A * (Q * Q.transpose)) ≤ sqSum (A - X) := by
    rw [← sqSum_transpose (A - X), ← sqSum_transpose (A - A * (Q * Q.transpose)), Matrix.transpose_sub,
      Matrix.transpose_sub, ← hGH, hH, Matrix.transpose_mul, Matrix.transpose_mul, Matrix.transpose_mul,
      Matrix.transpose_mul, Matrix.transpose_transpose, Matrix.transpose_transpose, Matrix.mul_assoc Q,
      Matrix.mul_assoc Q, sqSum_proj hQ, sqSum_proj hQ, sub_self]
    have h0 : sqSum (0 : Matrix (Fin (min n r)) (Fin m) ℝ) = 0 := by simp [sqSum]
    have := sqSum_nonneg (Q.transpose * A.transpose - R * G.transpose)
    linarith
  refine le_trans ?_ e2
  rw [key]
  obtain ⟨Y, Z, hYZ⟩ := exists_factor_of_rank (r := k) (C * (Q * Q.transpose)) (by
    refine le_trans (le_min ?_ (le_min ?_ ?_)) hk
    · refine (Matrix.rank_mul_le_right _ _).trans ((Matrix.rank_mul_le_left _ _).trans ?_)
      exact (Matrix.rank_le_width Q).trans (Nat.min_le_right _ _)
    · exact Matrix.rank_le_height _
    · exact Matrix.rank_le_width _)
  rw [← hYZ]
  exact best_approximation _ U s V ht Y Z

/-! ### C154 -/

/-- The small matrix that `random_svd` decomposes, and its truncated decomposition. -/
theorem randomSvd_small (la : LinAlg ℝ) (rng : Rng ℝ) {m n : ℕ} (x : Matrix (Fin m) (Fin n) ℝ) (rank nPower os : ℕ)
    (h : RsvdOk la rng x rank nPower os) :
    ∃ (k : ℕ) (U : Matrix (Fin m) (Fin k) ℝ) (s : Fin k → ℝ) (V : Matrix (Fin k) (Fin n) ℝ)
      (W : Matrix (Fin (min m (rank + os))) (Fin k) ℝ),
      randomSvd la rng ⟨m, n, x⟩ rank nPower os = (⟨m, k, U⟩, ⟨k, s⟩, ⟨k, n, V⟩) ∧ k = min rank (min m n) ∧
      U = sketchQ la rng x rank nPower os * W ∧
      TruncatedSvd ((sketchQ la rng x rank nPower os).transpose * x) W s V := by
  obtain ⟨k, U, s, V, hk, hkk, he, hU, hs, hV⟩ := C47_components la rng x rank nPower os
  obtain ⟨h1, h2, h3, h4, h5⟩ := h.2
  refine ⟨k, U, s, V, Matrix.of fun i j =>
    (la.svd ((sketchQ la rng x rank nPower os).transpose * x)).1 i (Fin.castLE hk j), he, hkk, ?_,
    _, _, _, hk, h1, h2, h3, h4, h5, fun _ _ => rfl, ?_, ?_⟩
  · ext i j
    rw [hU, randomSvdFull_eq]
    rfl
  · intro j
    rw [hs, randomSvdFull_eq]
  · intro j i
    rw [hV, randomSvdFull_eq]

/-- **C154, sampled range.** Among the matrices of rank at most `rank` whose columns are combinations of the columns of
the sketch `(X Xᵀ)ᵗ X P`, the product of the returned factors is closest to `X`. -/
theorem C154_sampled (la : LinAlg ℝ) (rng : Rng ℝ) {m n : ℕ} (x : Matrix (Fin m) (Fin n) ℝ) (rank nPower os : ℕ)
    (h : RsvdOk la rng x rank nPower os) :
    ∃ (k : ℕ) (U : Matrix (Fin m) (Fin k) ℝ) (s : Fin k → ℝ) (V : Matrix (Fin k) (Fin n) ℝ),
      randomSvd la rng ⟨m, n, x⟩ rank nPower os = (⟨m, k, U⟩, ⟨k, s⟩, ⟨k, n, V⟩) ∧
      ∀ Y : Matrix (Fin (rank + os)) (Fin n) ℝ,
        ((x * x.transpose) ^ nPower * (x * rng n (rank + os)) * Y).rank ≤ rank →
        sqSum (x - U * diagonal s * V) ≤ sqSum (x - (x * x.transpose) ^ nPower * (x * rng n (rank + os)) * Y) := by
  obtain ⟨k, U, s, V, W, he, hkk, hU, ht⟩ := randomSvd_small la rng x rank nPower os h
  refine ⟨k, U, s, V, he, fun Y hY => ?_⟩
  obtain ⟨hQR, hQ⟩ := h.1
  change sketchQ la rng x rank nPower os * (la.qr (sketch rng x rank nPower os)).2 = _ at hQR
  change (sketchQ la rng x rank nPower os).transpose * sketchQ la rng x rank nPower os = 1 at hQ
  have hs : (x * x.transpose) ^ nPower * (x * rng n (rank + os)) = sketch rng x rank nPower os := rfl
  rw [hs] at hY ⊢
  have hY2 : sketch rng x rank nPower os * Y =
      sketchQ la rng x rank nPower os * ((la.qr (sketch rng x rank nPower os)).2 * Y) := by
    rw [← Matrix.mul_assoc, hQR]
  rw [hU, hY2, Matrix.mul_assoc _ W, Matrix.mul_assoc _ (W * diagonal s), sqSum_proj hQ, sqSum_proj hQ]
  obtain ⟨A, B, hAB⟩ := exists_factor_of_rank (r := k) ((la.qr (sketch rng x rank nPower os)).2 * Y) (by
    rw [hkk]
    have e : (la.qr (sketch rng x rank nPower os)).2 * Y =
        (sketchQ la rng x rank nPower os).transpose * (sketch rng x rank nPower os * Y) := by
      have e' := congrArg (fun M => (sketchQ la rng x rank nPower os).transpose * (M * Y)) hQR
      rwa [Matrix.mul_assoc _ _ Y, ← Matrix.mul_assoc _ (sketchQ la rng x rank nPower os), hQ, Matrix.one_mul] at e'
    refine le_min ?_ (le_min ?_ ?_)
    · rw [e]
      exact (Matrix.rank_mul_le_right _ _).trans hY
    · exact (Matrix.rank_le_height _).trans (Nat.min_le_left _ _)
    · exact Matrix.rank_le_width _)
  rw [← hAB]
  have := best_approximation _ W s V ht A B
  linarith

/-- **C154, error.** The squared error is the squared norm of the matrix minus the squares of the returned singular
values. -/
theorem C154_error (la : LinAlg ℝ) (rng : Rng ℝ) {m n : ℕ} (x : Matrix (Fin m) (Fin n) ℝ) (rank nPower os : ℕ)
    (h : RsvdOk la rng x rank nPower os) :
    ∃ (k : ℕ) (U : Matrix (Fin m) (Fin k) ℝ) (s : Fin k → ℝ) (V : Matrix (Fin k) (Fin n) ℝ),
      randomSvd la rng ⟨m, n, x⟩ rank nPower os = (⟨m, k, U⟩, ⟨k, s⟩, ⟨k, n, V⟩) ∧
      sqSum (x - U * diagonal s * V) = sqSum x - ∑ i, s i ^ 2 := by
  obtain ⟨k, U, s, V, W, he, hkk, hU, ht⟩ := randomSvd_small la rng x rank nPower os h
  refine ⟨k, U, s, V, he, ?_⟩
  obtain ⟨-, hQ⟩ := h.1
  change (sketchQ la rng x rank nPower os).transpose * sketchQ la rng x rank nPower os = 1 at hQ
  obtain ⟨o1, o2, e⟩ := truncated_orth ht
  have hUU : U.transpose * U = 1 := by
    rw [hU, Matrix.transpose_mul, Matrix.mul_assoc, ← Matrix.mul_assoc _ (sketchQ la rng x rank nPower os), hQ,
      Matrix.one_mul, o1]
  have e2 : U * diagonal s * V = U * (U.transpose * x) := by
    rw [hU, Matrix.mul_assoc _ W, Matrix.mul_assoc _ (W * diagonal s), e, Matrix.transpose_mul]
    simp only [Matrix.mul_assoc]
  have e3 : U.transpose * x = diagonal s * V := by
    have := congrArg (U.transpose * ·) e2
    rw [Matrix.mul_assoc U, ← Matrix.mul_assoc _ U, ← Matrix.mul_assoc _ U, hUU, Matrix.one_mul, Matrix.one_mul] at this
    exact this.symm
  rw [e2, sqSum_proj hUU, sub_self, e3, sqSum_orth_right o2]
  have h0 : sqSum (0 : Matrix (Fin k) (Fin n) ℝ) = 0 := by simp [sqSum]
  have h1 : sqSum (diagonal s) = ∑ i, s i ^ 2 := by
    unfold sqSum
    refine Finset.sum_congr rfl fun i _ => ?_
    rw [Finset.sum_eq_single i]
    · rw [Matrix.diagonal_apply_eq]
    · intro j _ hj
      rw [Matrix.diagonal_apply_ne _ (Ne.symm hj)]
      exact zero_pow two_ne_zero
    · simp
  rw [h0, h1, add_zero]

theorem sketchQ_capture (la : LinAlg ℝ) (rng : Rng ℝ) {m n : ℕ} (x : Matrix (Fin m) (Fin n) ℝ) (rank nPower os : ℕ)
    (h : RsvdOk la rng x rank nPower os) (hc : Captures rng x rank nPower os) :
    sketchQ la rng x rank nPower os * ((sketchQ la rng x rank nPower os).transpose * x) = x := by
  obtain ⟨B, hB⟩ := hc
  obtain ⟨hQR, hQ⟩ := h.1
  change sketchQ la rng x rank nPower os * (la.qr (sketch rng x rank nPower os)).2 = _ at hQR
  change (sketchQ la rng x rank nPower os).transpose * sketchQ la rng x rank nPower os = 1 at hQ
  have e : x = sketchQ la rng x rank nPower os * ((la.qr (sketch rng x rank nPower os)).2 * B) := by
    rw [← Matrix.mul_assoc, hQR, hB]
  generalize sketchQ la rng x rank nPower os = Q at hQ e ⊢
  generalize (la.qr (sketch rng x rank nPower os)).2 * B = C at e
  rw [e, ← Matrix.mul_assoc _ Q, hQ, Matrix.one_mul]

/-- a factorisation `A = P x` with the same inner products is approximated best through `random_svd x` -/
theorem randomSvd_gram (la : LinAlg ℝ) (rng : Rng ℝ) {q m n : ℕ} (x : Matrix (Fin m) (Fin n) ℝ)
    (A : Matrix (Fin q) (Fin n) ℝ) (P : Matrix (Fin q) (Fin m) ℝ) (hP : P * x = A)
    (hg : x.transpose * x = A.transpose * A) (rank nPower os : ℕ) (h : RsvdOk la rng x rank nPower os)
    (hc : Captures rng x rank nPower os) :
    ∃ (k : ℕ) (U : Matrix (Fin m) (Fin k) ℝ) (s : Fin k → ℝ) (V : Matrix (Fin k) (Fin n) ℝ),
      randomSvd la rng ⟨m, n, x⟩ rank nPower os = (⟨m, k, U⟩, ⟨k, s⟩, ⟨k, n, V⟩) ∧
      ∀ X : Matrix (Fin q) (Fin n) ℝ, X.rank ≤ rank → sqSum (A - P * U * diagonal s * V) ≤ sqSum (A - X) := by
  obtain ⟨k, U, s, V, W, he, hkk, hU, ht⟩ := randomSvd_small la rng x rank nPower os h
  have hcap := sketchQ_capture la rng x rank nPower os h hc
  refine ⟨k, U, s, V, he, fun X hX => ?_⟩
  have hb := best_of_gram (A := A) (L := P * sketchQ la rng x rank nPower os) (r := rank) ?_ ?_ ht ?_ X hX
  · rwa [Matrix.mul_assoc P, ← hU] at hb
  · rw [← hg, Matrix.transpose_mul, Matrix.transpose_transpose, Matrix.mul_assoc, hcap]
  · rw [Matrix.mul_assoc, hcap, hP]
  · rw [hkk]
    omega

/-- **C154, best approximation.** If the sketch captures the range of the matrix, no matrix of rank at most `rank` is
closer to it than the product of the returned factors. -/
theorem C154_best (la : LinAlg ℝ) (rng : Rng ℝ) {m n : ℕ} (x : Matrix (Fin m) (Fin n) ℝ) (rank nPower os : ℕ)
    (h : RsvdOk la rng x rank nPower os) (hc : Captures rng x rank nPower os) :
    ∃ (k : ℕ) (U : Matrix (Fin m) (Fin k) ℝ) (s : Fin k → ℝ) (V : Matrix (Fin k) (Fin n) ℝ),
      randomSvd la rng ⟨m, n, x⟩ rank nPower os = (⟨m, k, U⟩, ⟨k, s⟩, ⟨k, n, V⟩) ∧
      ∀ X : Matrix (Fin m) (Fin n) ℝ, X.rank ≤ rank → sqSum (x - U * diagonal s * V) ≤ sqSum (x - X) := by
  obtain ⟨k, U, s, V, he, hb⟩ := randomSvd_gram la rng x x 1 (Matrix.one_mul _) rfl rank nPower os h hc
  refine ⟨k, U, s, V, he, fun X hX => ?_⟩
  have := hb X hX
  rwa [Matrix.one_mul] at this

/-- **C154, new vectors.** With orthonormal old factors and any core, `update_svd_new_vectors` returns the best
approximation of rank at most `r` of `[U S V | N]`, if the sketch captures the range. -/
theorem C154_append (la : LinAlg ℝ) (rng : Rng ℝ) (hqr : QrAlways la)
    (hsvd : ∀ {a b : ℕ} (A : Matrix (Fin a) (Fin b) ℝ), SvdOk la A) {m r q nc : ℕ}
    (U : Matrix (Fin m) (Fin r) ℝ) (s : SArg ℝ) (S : Matrix (Fin r) (Fin r) ℝ)
    (hs : s.toMat = ⟨r, r, S⟩) (V : Matrix (Fin r) (Fin q) ℝ) (N : Matrix (Fin m) (Fin nc) ℝ)
    (hnc : nc ≤ m) (hpos : 0 < r + nc) (nPower os : ℕ) (hU : U.transpose * U = 1) (hV : V * V.transpose = 1)
    (hcap : Captures rng (hblock (U * S) N) r nPower os) :
    ∃ (k : ℕ) (U2 : Matrix (Fin m) (Fin k) ℝ) (s2 : Fin k → ℝ) (V2 : Matrix (Fin k) (Fin (q + nc)) ℝ),
      updateSvdNewVectors la rng ⟨m, r, U⟩ s ⟨r, q, V⟩ ⟨m, nc, N⟩ nPower os =
        .ok (⟨m, k, U2⟩, ⟨k, s2⟩, ⟨k, q + nc, V2⟩) ∧
      ∀ X : Matrix (Fin m) (Fin (q + nc)) ℝ, X.rank ≤ r →
        sqSum (hblock (U * S * V) N - U2 * diagonal s2 * V2) ≤ sqSum (hblock (U * S * V) N - X) := by
  obtain ⟨p, P, D, k, d1, d2, d3, he, hk, hrun, hPD, hp⟩ :=
    newVectors_run la rng hqr U s S hs V N hnc hpos nPower os
  have hgram : D.transpose * D = (P * D).transpose * (P * D) := by
    rcases hp with ⟨hP, -⟩ | ⟨-, hiso⟩
    · rw [Matrix.transpose_mul, Matrix.mul_assoc, ← Matrix.mul_assoc _ P, hP, Matrix.one_mul]
    · exact (hiso hU).symm
  rw [← hPD] at hcap
  obtain ⟨k', d1', d2', d3', he', hb⟩ := randomSvd_gram la rng D (P * D) P rfl hgram r nPower os ⟨hqr _, hsvd _⟩
    (captures_of_gram rng D (P * D) hgram r nPower os hcap)
  rw [he] at he'
  have hk' : k = k' := congrArg (fun x => x.2.1.len) he'
  subst hk'
  simp only [Prod.mk.injEq, Mat.mk.injEq, Vec.mk.injEq, heq_eq_eq, true_and] at he'
  obtain ⟨rfl, rfl, rfl⟩ := he'
  refine ⟨k, _, _, _, hrun, fun X hX => ?_⟩
  generalize hWd : blk V.transpose 0 0 (1 : Matrix (Fin nc) (Fin nc) ℝ) = W
  have hW : P * D * W.transpose = hblock (U * S * V) N := by
    rw [← hWd, hPD, blk_transpose, hblock_mul_blk]
    simp
  have hWW : W.transpose * W = 1 := by
    rw [← hWd, blk_transpose, blk_mul_blk]
    simp [hV, blk_one]
  have hWW' : W.transpose * W.transpose.transpose = 1 := by rw [Matrix.transpose_transpose, hWW]
  have e : P * d1 * diagonal d2 * (W * d3.transpose).transpose = P * d1 * diagonal d2 * d3 * W.transpose := by
    rw [Matrix.transpose_mul, Matrix.transpose_transpose]
    simp only [Matrix.mul_assoc]
  rw [e, ← hW, ← Matrix.sub_mul, sqSum_orth_right hWW']
  refine (hb (X * W) ((Matrix.rank_mul_le_left _ _).trans hX)).trans ?_
  have e2 : P * D - X * W = (P * D * W.transpose - X) * W := by
    rw [Matrix.sub_mul, Matrix.mul_assoc _ W.transpose, hWW, Matrix.mul_one]
  rw [e2, ← sqSum_transpose ((P * D * W.transpose - X) * W), Matrix.transpose_mul,
    ← sqSum_transpose (P * D * W.transpose - X)]
  exact sqSum_contract hWW _

/-- **C154, new items.** The same for the object: after appending new items the predictions are the best
approximation of rank at most `r` of the old predictions with the new columns, for any core. -/
theorem C154_items (env : PSIEnv ℝ) (hqr : QrAlways env.la)
    (hsvd : ∀ {a b : ℕ} (A : Matrix (Fin a) (Fin b) ℝ), SvdOk env.la A) (cfg : PSICfg)
    (hc : cfg.init = none) (st : PSIState ℝ) {m n r nc : ℕ} (U : Matrix (Fin m) (Fin r) ℝ)
    (S : Matrix (Fin r) (Fin r) ℝ) (V : Matrix (Fin r) (Fin n) ℝ) (h : Stores st U S V)
    (N : Matrix (Fin m) (Fin nc) ℝ) (hnc : nc ≤ m) (hpos : 0 < nc) (hU : U.transpose * U = 1)
    (hV : V * V.transpose = 1) (hcap : Captures env.rng (hblock (U * S) N) r cfg.nPower cfg.os) :
    ∃ (k : ℕ) (U' : Matrix (Fin m) (Fin k) ℝ) (S' : Matrix (Fin k) (Fin k) ℝ)
      (V' : Matrix (Fin k) (Fin (n + nc)) ℝ) (st' : PSIState ℝ),
      psiUpdater env cfg st ⟨m, nc, N⟩ .newItems = .ok st' ∧ Stores st' U' S' V' ∧
      ∀ X : Matrix (Fin m) (Fin (n + nc)) ℝ, X.rank ≤ r →
        sqSum (hblock (U * S * V) N - U' * S' * V') ≤ sqSum (hblock (U * S * V) N - X) := by
  obtain ⟨hu, hs, hv⟩ := h
  obtain ⟨k, U2, s2, V2, he, hp⟩ := C154_append env.la env.rng hqr hsvd U st.s S hs V N hnc (by omega)
    cfg.nPower cfg.os hU hV hcap
  refine ⟨k, U2, Matrix.diagonal s2, V2, { st with u := ⟨m, k, U2⟩, s := .vec k s2, vt := ⟨k, n + nc, V2⟩ },
    ?_, ⟨rfl, rfl, rfl⟩, hp⟩
  unfold psiUpdater
  rw [hc]
  dsimp only
  rw [hu, hv, he]
  rfl

/-- **C154, new users.** After appending new users the predictions are the best approximation of rank at most `r` of
`U Sᵀ V` with the new rows below: the code passes `s` where `sᵀ` belongs. For a symmetric core `U Sᵀ V` are the old
predictions. -/
theorem C154_users (env : PSIEnv ℝ) (hqr : QrAlways env.la)
    (hsvd : ∀ {a b : ℕ} (A : Matrix (Fin a) (Fin b) ℝ), SvdOk env.la A) (cfg : PSICfg)
    (hc : cfg.init = none) (st : PSIState ℝ) {m n r nc : ℕ} (U : Matrix (Fin m) (Fin r) ℝ)
    (S : Matrix (Fin r) (Fin r) ℝ) (V : Matrix (Fin r) (Fin n) ℝ) (h : Stores st U S V)
    (N : Matrix (Fin n) (Fin nc) ℝ) (hnc : nc ≤ n) (hpos : 0 < nc) (hU : U.transpose * U = 1)
    (hV : V * V.transpose = 1) (hcap : Captures env.rng (hblock (V.transpose * S) N) r cfg.nPower cfg.os) :
    ∃ (k : ℕ) (U' : Matrix (Fin (m + nc)) (Fin k) ℝ) (S' : Matrix (Fin k) (Fin k) ℝ)
      (V' : Matrix (Fin k) (Fin n) ℝ) (st' : PSIState ℝ),
      psiUpdater env cfg st ⟨n, nc, N⟩ .newUsers = .ok st' ∧ Stores st' U' S' V' ∧
      ∀ X : Matrix (Fin (m + nc)) (Fin n) ℝ, X.rank ≤ r →
        sqSum ((hblock (U * S.transpose * V).transpose N).transpose - U' * S' * V') ≤
          sqSum ((hblock (U * S.transpose * V).transpose N).transpose - X) := by
  obtain ⟨hu, hs, hv⟩ := h
  obtain ⟨k, U2, s2, V2, he, hp⟩ := C154_append env.la env.rng hqr hsvd V.transpose st.s S hs U.transpose N hnc
    (by omega) cfg.nPower cfg.os (by rw [Matrix.transpose_transpose, hV]) (by rw [Matrix.transpose_transpose, hU]) hcap
  have hT : (hblock (U * S.transpose * V).transpose N).transpose = (hblock (V.transpose * S * U.transpose) N).transpose := by
    rw [Matrix.transpose_mul, Matrix.transpose_mul, Matrix.transpose_transpose, Matrix.mul_assoc]
  have hp' : V2.transpose * Matrix.diagonal s2 * U2.transpose = (U2 * Matrix.diagonal s2 * V2).transpose := by
    rw [Matrix.transpose_mul, Matrix.transpose_mul, Matrix.diagonal_transpose, Matrix.mul_assoc]
  refine ⟨k, V2.transpose, Matrix.diagonal s2, U2.transpose,
    { st with u := ⟨m + nc, k, V2.transpose⟩, s := .vec k s2, vt := ⟨k, n, U2.transpose⟩ },
    ?_, ⟨rfl, rfl, rfl⟩, fun X hX => ?_⟩
  · unfold psiUpdater
    rw [hc]
    dsimp only
    rw [hu, hv]
    simp only [Mat.T_mk]
    rw [he]
    rfl
  · rw [hT, hp', ← Matrix.transpose_sub, sqSum_transpose, ← sqSum_transpose (_ - X), Matrix.transpose_sub,
      Matrix.transpose_transpose]
    exact hp _ (by rw [Matrix.rank_transpose]; exact hX)

/-- **C154, when the sketch captures.** If the random matrix has a right inverse (so it is at least as wide as the
matrix; true for almost all draws with `n ≤ rank + os`), the sketch captures the range for every number of power
iterations. For new vectors `n = r + nc`, so an oversampling of at least the number of new vectors suffices. -/
theorem C154_captures (rng : Rng ℝ) {m n : ℕ} (x : Matrix (Fin m) (Fin n) ℝ) (rank nPower os : ℕ)
    (R : Matrix (Fin (rank + os)) (Fin n) ℝ) (hR : rng n (rank + os) * R = 1) : Captures rng x rank nPower os := by
  obtain ⟨G, hG⟩ := exists_mul_eq_of_rank x (x.transpose * x) (by
    have h1 : (x.transpose * x).rank = x.rank := Matrix.rank_transpose_mul_self x
    have h2 : ((x.transpose * x).transpose * (x.transpose * x)).rank = (x.transpose * x).rank :=
      Matrix.rank_transpose_mul_self _
    have h3 : (x.transpose * x).transpose * (x.transpose * x) = x.transpose * (x * (x.transpose * x)) := by
      rw [Matrix.transpose_mul, Matrix.transpose_transpose, Matrix.mul_assoc]
    rw [← h1, ← h2, h3]
    exact Matrix.rank_mul_le_right _ _)
  have key : ∀ t : ℕ, x * (x.transpose * x) ^ t * G ^ t = x := fun t => by
    induction t with
    | zero => simp
    | succ t ih =>
      have : (x * x.transpose) ^ t * (x * (x.transpose * x) * G) * G ^ t = x := by rw [hG, pow_mul_gram, ih]
      rw [← pow_mul_gram, pow_succ, pow_succ']
      simpa only [Matrix.mul_assoc] using this
  refine ⟨R * G ^ nPower, ?_⟩
  rw [sketch_gram, ← Matrix.mul_assoc, Matrix.mul_assoc x, Matrix.mul_assoc _ _ R, hR, Matrix.mul_one, key]

/-- A draw that only sees the second column. -/
def missRng : Rng ℝ := fun _ _ => Matrix.of fun i _ => if (i : ℕ) = 1 then 1 else 0

/-- **C154, without capture.** If the draw misses the large column of `diag(3, 1)`, the result of rank 1 has squared
error at least 9, although an error of 1 is possible. -/
theorem C154_miss (la : LinAlg ℝ) (h : RsvdOk la missRng !![(3 : ℝ), 0; 0, 1] 1 0 0) :
    ∃ (k : ℕ) (U : Matrix (Fin 2) (Fin k) ℝ) (s : Fin k → ℝ) (V : Matrix (Fin k) (Fin 2) ℝ)
      (X : Matrix (Fin 2) (Fin 2) ℝ),
      randomSvd la missRng ⟨2, 2, !![(3 : ℝ), 0; 0, 1]⟩ 1 0 0 = (⟨2, k, U⟩, ⟨k, s⟩, ⟨k, 2, V⟩) ∧
      9 ≤ sqSum (!![(3 : ℝ), 0; 0, 1] - U * diagonal s * V) ∧
      X.rank ≤ 1 ∧ sqSum (!![(3 : ℝ), 0; 0, 1] - X) = 1 := by
  obtain ⟨k, U, s, V, W, he, hkk, hU, ht⟩ := randomSvd_small la missRng !![(3 : ℝ), 0; 0, 1] 1 0 0 h
  obtain ⟨hQR, hQ⟩ := h.1
  change sketchQ la missRng _ 1 0 0 * (la.qr (sketch missRng _ 1 0 0)).2 = _ at hQR
  have hQ0 : ∀ j, sketchQ la missRng !![(3 : ℝ), 0; 0, 1] 1 0 0 0 j = 0 := by
    have e0 := congrFun (congrFun hQR 0) 0
    have e1 := congrFun (congrFun hQR 1) 0
    generalize sketchQ la missRng !![(3 : ℝ), 0; 0, 1] 1 0 0 = Q at e0 e1 ⊢
    generalize (la.qr (sketch missRng !![(3 : ℝ), 0; 0, 1] 1 0 0)).2 = R at e0 e1
    change Matrix (Fin 2) (Fin 1) ℝ at Q
    change Matrix (Fin 1) (Fin 1) ℝ at R
    intro j
    change Fin 1 at j
    have hj : j = 0 := Subsingleton.elim _ _
    subst hj
    have f0 : Q 0 0 * R 0 0 = 0 := by
      have : (Q * R) 0 0 = 0 := by
        rw [show (Q * R) 0 0 = _ from e0]
        simp [sketch, missRng, Matrix.mul_apply, Matrix.vecHead, Matrix.vecTail]
      simpa [Matrix.mul_apply] using this
    have f1 : Q 1 0 * R 0 0 = 1 := by
      have : (Q * R) 1 0 = 1 := by
        rw [show (Q * R) 1 0 = _ from e1]
        simp [sketch, missRng, Matrix.mul_apply, Matrix.vecHead, Matrix.vecTail]
      simpa [Matrix.mul_apply] using this
    have hR : R 0 0 ≠ 0 := fun hz => by rw [hz, mul_zero] at f1; exact zero_ne_one f1
    exact (mul_eq_zero.1 f0).resolve_right hR
  have hU0 : ∀ j, U 0 j = 0 := fun j => by
    rw [hU, Matrix.mul_apply]
    exact Finset.sum_eq_zero fun l _ => by rw [hQ0, zero_mul]
  refine ⟨k, U, s, V, !![(3 : ℝ), 0; 0, 0], he, ?_, ?_, ?_⟩
  · have hz : ∀ j, (U * diagonal s * V) 0 j = 0 := fun j => by
      rw [Matrix.mul_apply]
      exact Finset.sum_eq_zero fun l _ => by rw [Matrix.mul_diagonal, hU0, zero_mul, zero_mul]
    unfold sqSum
    rw [Fin.sum_univ_two, Fin.sum_univ_two, Fin.sum_univ_two]
    simp only [Matrix.sub_apply, hz]
    have a1 := sq_nonneg ((!![(3 : ℝ), 0; 0, 1] : Matrix (Fin 2) (Fin 2) ℝ) 1 0 - (U * diagonal s * V) 1 0)
    have a2 := sq_nonneg ((!![(3 : ℝ), 0; 0, 1] : Matrix (Fin 2) (Fin 2) ℝ) 1 1 - (U * diagonal s * V) 1 1)
    have a3 : ((!![(3 : ℝ), 0; 0, 1] : Matrix (Fin 2) (Fin 2) ℝ) 0 0 - 0) ^ 2 +
      ((!![(3 : ℝ), 0; 0, 1] : Matrix (Fin 2) (Fin 2) ℝ) 0 1 - 0) ^ 2 = 9 := by norm_num
    linarith
  · have : (!![(3 : ℝ), 0; 0, 0] : Matrix (Fin 2) (Fin 2) ℝ) =
        (!![(1 : ℝ); 0] : Matrix (Fin 2) (Fin 1) ℝ) * (!![(3 : ℝ), 0] : Matrix (Fin 1) (Fin 2) ℝ) := by
      ext i j
      fin_cases i <;> fin_cases j <;> simp [Matrix.mul_apply]
    rw [this]
    exact (Matrix.rank_mul_le_left _ _).trans (Matrix.rank_le_width _)
  · unfold sqSum
    rw [Fin.sum_univ_two, Fin.sum_univ_two, Fin.sum_univ_two]
    norm_num

/-- The hypothesis of `C154_miss` holds for the exact routines. -/
example := C154_miss realLA (rsvdOk_real _ _ _ _ _)

/-- With a capturing draw the result of rank 1 for `diag(3, 1)` has squared error at most 1. -/
example : ∃ (k : ℕ) (U : Matrix (Fin 2) (Fin k) ℝ) (s : Fin k → ℝ) (V : Matrix (Fin k) (Fin 2) ℝ),
    randomSvd realLA eyeRng ⟨2, 2, !![(3 : ℝ), 0; 0, 1]⟩ 1 0 1 = (⟨2, k, U⟩, ⟨k, s⟩, ⟨k, 2, V⟩) ∧
    sqSum (!![(3 : ℝ), 0; 0, 1] - U * diagonal s * V) ≤ 1 := by
  obtain ⟨k, U, s, V, he, hb⟩ := C154_best realLA eyeRng !![(3 : ℝ), 0; 0, 1] 1 0 1 (rsvdOk_real _ _ _ _ _)
    (eyeRng_captures 1 1 _)
  obtain ⟨-, -, -, -, X, -, -, h1, h2⟩ := C154_miss realLA (rsvdOk_real _ _ _ _ _)
  exact ⟨k, U, s, V, he, (hb X h1).trans h2.le⟩

/-- Two users, one item, rank 1, and a new item used by both: the predictions are within squared distance 1 of
`[[2, 1], [0, 1]]`. -/
example (argsort : ArgSort ℝ) (maps : Mappings) :
    ∃ (k : ℕ) (U' : Matrix (Fin 2) (Fin k) ℝ) (S' : Matrix (Fin k) (Fin k) ℝ) (V' : Matrix (Fin k) (Fin (1 + 1)) ℝ)
      (st' : PSIState ℝ),
      psiUpdater (eyeEnv argsort) ⟨1, 0, 1, none, false⟩
        ⟨maps, ⟨2, 1, !![(1 : ℝ); 0]⟩, .mat ⟨1, 1, !![(2 : ℝ)]⟩, ⟨1, 1, 1⟩, [], ⟨2, 1, 0⟩, ⟨2, 1, 0⟩⟩
        ⟨2, 1, !![(1 : ℝ); 1]⟩ .newItems = .ok st' ∧ Stores st' U' S' V' ∧
      sqSum ((!![(2 : ℝ), 1; 0, 1] : Matrix (Fin 2) (Fin (1 + 1)) ℝ) - U' * S' * V') ≤ 1 := by
  obtain ⟨k, U', S', V', st', h1, h2, h3⟩ := C154_items (eyeEnv argsort) qrAlways_real (fun A => realLA_svd A)
    ⟨1, 0, 1, none, false⟩ rfl
    ⟨maps, ⟨2, 1, !![(1 : ℝ); 0]⟩, .mat ⟨1, 1, !![(2 : ℝ)]⟩, ⟨1, 1, 1⟩, [], ⟨2, 1, 0⟩, ⟨2, 1, 0⟩⟩
    (!![(1 : ℝ); 0] : Matrix (Fin 2) (Fin 1) ℝ) (!![(2 : ℝ)] : Matrix (Fin 1) (Fin 1) ℝ) (1 : Matrix (Fin 1) (Fin 1) ℝ)
    ⟨rfl, rfl, rfl⟩ (!![(1 : ℝ); 1] : Matrix (Fin 2) (Fin 1) ℝ) (by omega) (by omega)
    (by ext i j; fin_cases i; fin_cases j; simp [Matrix.mul_apply]) (by simp) (eyeRng_captures 1 1 _)
  have e : hblock ((!![(1 : ℝ); 0] : Matrix (Fin 2) (Fin 1) ℝ) * (!![(2 : ℝ)] : Matrix (Fin 1) (Fin 1) ℝ) *
      (1 : Matrix (Fin 1) (Fin 1) ℝ)) (!![(1 : ℝ); 1] : Matrix (Fin 2) (Fin 1) ℝ) =
      (!![(2 : ℝ), 1; 0, 1] : Matrix (Fin 2) (Fin (1 + 1)) ℝ) := by
    apply ext_cols
    · intro i j
      rw [hblock_left]
      fin_cases i <;> fin_cases j <;> simp [Matrix.mul_apply]
    · intro i j
      rw [hblock_right]
      fin_cases i <;> fin_cases j <;> simp [Fin.natAdd]
  rw [e] at h3
  refine ⟨k, U', S', V', st', h1, h2, (h3 (!![(2 : ℝ), 1; 0, 0] : Matrix (Fin 2) (Fin (1 + 1)) ℝ) ?_).trans ?_⟩
  · have : (!![(2 : ℝ), 1; 0, 0] : Matrix (Fin 2) (Fin (1 + 1)) ℝ) =
        (!![(1 : ℝ); 0] : Matrix (Fin 2) (Fin 1) ℝ) * (!![(2 : ℝ), 1] : Matrix (Fin 1) (Fin (1 + 1)) ℝ) := by
      ext i j
      change Fin 2 at j
      fin_cases i <;> fin_cases j <;> simp [Matrix.mul_apply]
    rw [this]
    exact (Matrix.rank_mul_le_left _ _).trans (Matrix.rank_le_width _)
  · unfold sqSum
    rw [Fin.sum_univ_two]
    simp only [Fin.sum_univ_two, Nat.reduceAdd]
    norm_num

end DynCF
