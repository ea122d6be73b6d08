/-
C167: the expected error of the updates that append vectors or a block to a decomposition, with normal draws.
-/
import Verif.Props.RandomSvdError
import Verif.Props.SvdBlock

namespace DynCF
open MeasureTheory Matrix ProbabilityTheory

variable {Ω : Type} [MeasurableSpace Ω]

/-! ### Lemmas -/

/-- a matrix of rank at least `l` times a normal matrix with `l` columns has independent columns almost surely -/
theorem randn_leftInv {p n l : ℕ} (M : Matrix (Fin p) (Fin n) ℝ) (hM : l ≤ M.rank) :
    ∀ᵐ w ∂randn n l, ∃ L : Matrix (Fin l) (Fin p) ℝ, L * (M * entries w) = 1 := by
  obtain ⟨L0, R0, hLR, hR0⟩ := rank_factor M
  obtain ⟨A, hA⟩ : ∃ A : Matrix (Fin M.rank) (Fin p) ℝ, A * L0 = 1 := by
    have h1 : M.rank ≤ L0.transpose.rank := by
      rw [Matrix.rank_transpose]
      calc M.rank = (L0 * R0).rank := by rw [hLR]
        _ ≤ L0.rank := Matrix.rank_mul_le_left _ _
    obtain ⟨B, hB⟩ := fullRows_of_rank L0.transpose h1
    refine ⟨B.transpose, ?_⟩
    have := congrArg Matrix.transpose hB
    rwa [Matrix.transpose_mul, Matrix.transpose_transpose, Matrix.transpose_one] at this
  let E : Matrix (Fin l) (Fin M.rank) ℝ := Matrix.of fun i j => if j = Fin.castLE hM i then 1 else 0
  have hE : E * E.transpose = 1 := by
    ext i j
    simp [E, Matrix.mul_apply, Matrix.one_apply, eq_comm]
  have hR1 : FullRows (E * R0) := by
    obtain ⟨B, hB⟩ := hR0
    refine ⟨B * E.transpose, ?_⟩
    rw [Matrix.mul_assoc, ← Matrix.mul_assoc R0, hB, Matrix.one_mul, hE]
  filter_upwards [randn_fullRows (E * R0) hR1 le_rfl] with w ⟨B, hB⟩
  refine ⟨B * E * A, ?_⟩
  have h2 : B * (E * R0 * entries w) = 1 := mul_eq_one_comm.1 hB
  calc B * E * A * (M * entries w) = B * E * A * (L0 * R0 * entries w) := by rw [hLR]
    _ = B * E * (A * L0) * R0 * entries w := by simp only [Matrix.mul_assoc]
    _ = B * (E * R0 * entries w) := by rw [hA]; simp only [Matrix.mul_assoc, Matrix.one_mul]
    _ = 1 := h2

/-- if the sketch has independent columns, the columns of its orthonormal factor are combinations of the columns of
the matrix -/
theorem sketchQ_of_leftInv (la : LinAlg ℝ) (hla : LaOk la) (rng : Rng ℝ) {p n : ℕ} (x : Matrix (Fin p) (Fin n) ℝ)
    (rank nPower os : ℕ) (L : Matrix (Fin (rank + os)) (Fin p) ℝ) (hL : L * sketch rng x rank nPower os = 1) :
    ∃ W, sketchQ la rng x rank nPower os = x * W := by
  obtain ⟨hQR, hQ⟩ := hla.qr (sketch rng x rank nPower os)
  change sketchQ la rng x rank nPower os * (la.qr (sketch rng x rank nPower os)).2 = _ at hQR
  obtain ⟨C, hC⟩ := fullRows_of_rank (la.qr (sketch rng x rank nPower os)).2 (by
    refine (Nat.min_le_right _ _).trans ?_
    calc rank + os = (1 : Matrix (Fin (rank + os)) (Fin (rank + os)) ℝ).rank := by
          rw [Matrix.rank_one, Fintype.card_fin]
      _ = (L * sketchQ la rng x rank nPower os * (la.qr (sketch rng x rank nPower os)).2).rank := by
          rw [Matrix.mul_assoc, hQR, hL]
      _ ≤ _ := Matrix.rank_mul_le_right _ _)
  refine ⟨(x.transpose * x) ^ nPower * rng n (rank + os) * C, ?_⟩
  rw [← Matrix.mul_assoc, ← sketch_gram, ← hQR, Matrix.mul_assoc, hC, Matrix.mul_one]

/-- almost surely the result of `random_svd` is the matrix times another matrix -/
theorem randomSvd_range (P : Measure Ω) (rng : Ω → Rng ℝ) (h : NormalDraws P rng) (la : LinAlg ℝ) (hla : LaOk la)
    {p n : ℕ} (x : Matrix (Fin p) (Fin n) ℝ) (rank nPower os : ℕ) :
    ∀ᵐ w ∂P, ∃ (k : ℕ) (U : Matrix (Fin p) (Fin k) ℝ) (s : Fin k → ℝ) (V : Matrix (Fin k) (Fin n) ℝ)
      (T : Matrix (Fin n) (Fin n) ℝ),
      randomSvd la (rng w) ⟨p, n, x⟩ rank nPower os = (⟨p, k, U⟩, ⟨k, s⟩, ⟨k, n, V⟩) ∧ U * diagonal s * V = x * T := by
  by_cases hr : x.rank ≤ rank + os
  · filter_upwards [C159_captures P rng h x rank nPower os hr] with w hw
    have hok : RsvdOk la (rng w) x rank nPower os := ⟨hla.qr _, hla.svd _⟩
    obtain ⟨k, U, s, V, W, he, -, hU, ht⟩ := randomSvd_small la (rng w) x rank nPower os hok
    refine ⟨k, U, s, V, V.transpose * V, he, ?_⟩
    have hcap := sketchQ_capture la (rng w) x rank nPower os hok hw
    have e := truncated_right ht
    rw [hU, Matrix.mul_assoc _ W, Matrix.mul_assoc _ (W * diagonal s), e, ← Matrix.mul_assoc, hcap]
  · have hM : rank + os ≤ (x * (x.transpose * x) ^ nPower).rank := by
      obtain ⟨C, hC⟩ := C154_captures eyeRng x n nPower 0 1 (by
        ext i j
        simp [eyeRng, Matrix.one_apply, Fin.ext_iff])
      have he : eyeRng n (n + 0) = 1 := by
        ext i j
        simp [eyeRng, Matrix.one_apply, Fin.ext_iff]
      rw [sketch_gram, he, Matrix.mul_one] at hC
      have : x.rank ≤ (x * (x.transpose * x) ^ nPower).rank := by
        calc x.rank = (x * (x.transpose * x) ^ nPower * C).rank := by rw [hC]
          _ ≤ _ := Matrix.rank_mul_le_left _ _
      omega
    filter_upwards [h.ae (m := n) (n := rank + os)
      (Q := fun R => ∃ L : Matrix (Fin (rank + os)) (Fin p) ℝ, L * (x * (x.transpose * x) ^ nPower * R) = 1)
      (randn_leftInv _ hM)] with w ⟨L, hL⟩
    obtain ⟨W', hW'⟩ := sketchQ_of_leftInv la hla (rng w) x rank nPower os L (by
      rw [sketch_gram, ← Matrix.mul_assoc x]
      exact hL)
    obtain ⟨k, U, s, V, W, he, -, hU, -⟩ := randomSvd_small la (rng w) x rank nPower os ⟨hla.qr _, hla.svd _⟩
    refine ⟨k, U, s, V, W' * W * diagonal s * V, he, ?_⟩
    rw [hU, hW']
    simp only [Matrix.mul_assoc]

/-- the projection on the rows of `X` brings a matrix at least as close as `X` -/
theorem exists_row_projection {m n r : ℕ} (A X : Matrix (Fin m) (Fin n) ℝ) (hX : X.rank ≤ r) :
    ∃ W : Matrix (Fin n) (Fin n) ℝ, W.rank ≤ r ∧ sqSum (A - A * W) ≤ sqSum (A - X) := by
  obtain ⟨G, H, hGH⟩ := exists_factor_of_rank X hX
  obtain ⟨hQR, hQ⟩ := realLA_qr H.transpose
  generalize (realLA.qr H.transpose).1 = Q at hQR hQ
  generalize (realLA.qr H.transpose).2 = R at hQR
  have hH : H = R.transpose * Q.transpose := by
    rw [← Matrix.transpose_mul, hQR, Matrix.transpose_transpose]
  refine ⟨Q * Q.transpose, ?_, ?_⟩
  · exact (Matrix.rank_mul_le_left _ _).trans ((Matrix.rank_le_width Q).trans (Nat.min_le_right _ _))
  · rw [← sqSum_transpose (A - X), ← sqSum_transpose (A - A * (Q * Q.transpose)), Matrix.transpose_sub,
      Matrix.transpose_sub, ← hGH, hH, Matrix.transpose_mul, Matrix.transpose_mul, Matrix.transpose_mul,
      Matrix.transpose_mul, Matrix.transpose_transpose, Matrix.transpose_transpose, Matrix.mul_assoc Q,
      Matrix.mul_assoc Q, sqSum_proj hQ, sqSum_proj hQ, sub_self]
    have h0 : sqSum (0 : Matrix (Fin (min n r)) (Fin m) ℝ) = 0 := by simp [sqSum]
    have := sqSum_nonneg (Q.transpose * A.transpose - R * G.transpose)
    linarith

/-- the mean squared error of `random_svd` of a core `D`, measured after multiplying with a matrix `L` that keeps the
inner products of the columns of `D` -/
theorem randomSvd_gram_expected (P : Measure Ω) (rng : Ω → Rng ℝ) (h : NormalDraws P rng) (la : LinAlg ℝ)
    (hla : LaOk la) {m p n : ℕ} (L : Matrix (Fin m) (Fin p) ℝ) (D : Matrix (Fin p) (Fin n) ℝ)
    (hg : D.transpose * D = (L * D).transpose * (L * D)) (rank nPower os : ℕ) (hos : 2 ≤ os) :
    ∃ B : Ω → ENNReal, AEMeasurable B P ∧
      (∀ᵐ w ∂P, ∃ (k : ℕ) (U' : Matrix (Fin p) (Fin k) ℝ) (s' : Fin k → ℝ) (V' : Matrix (Fin k) (Fin n) ℝ),
        randomSvd la (rng w) ⟨p, n, D⟩ rank nPower os = (⟨p, k, U'⟩, ⟨k, s'⟩, ⟨k, n, V'⟩) ∧
        ENNReal.ofReal (sqSum (L * D - L * U' * diagonal s' * V')) ≤ B w) ∧
      ∀ X : Matrix (Fin m) (Fin n) ℝ, X.rank ≤ rank →
        ∫⁻ w, B w ∂P ≤ ENNReal.ofReal ((1 + rank / ((os : ℝ) - 1)) * sqSum (L * D - X)) := by
  obtain ⟨B, h1, h2, h3⟩ := C165_close P rng h la hla D rank nPower os hos
  have key : ∀ T : Matrix (Fin n) (Fin n) ℝ, sqSum (L * D - L * D * T) = sqSum (D - D * T) := fun T => by
    have := sqSum_gram hg (1 - T)
    rwa [Matrix.mul_sub, Matrix.mul_one, Matrix.mul_sub, Matrix.mul_one] at this
  refine ⟨B, h1, ?_, fun X hX => ?_⟩
  · filter_upwards [h2, randomSvd_range P rng h la hla D rank nPower os] with w hw hT
    obtain ⟨k, U, s, V, he, hB⟩ := hw
    obtain ⟨k', U', s', V', T, he', hT⟩ := hT
    rw [he] at he'
    have hk' : k = k' := congrArg (fun x => x.2.1.len) he'
    subst hk'
    simp only [Prod.mk.injEq, Mat.mk.injEq, Vec.mk.injEq, heq_eq_eq, true_and] at he'
    obtain ⟨rfl, rfl, rfl⟩ := he'
    refine ⟨k, U, s, V, he, ?_⟩
    have e : L * U * diagonal s * V = L * D * T := by
      rw [Matrix.mul_assoc L D, ← hT]
      simp only [Matrix.mul_assoc]
    rwa [e, key, ← hT]
  · obtain ⟨W, hW, hle⟩ := exists_row_projection (L * D) X hX
    refine (h3 (D * W) ((Matrix.rank_mul_le_right _ _).trans hW)).trans (ENNReal.ofReal_le_ofReal ?_)
    have h4 : (2 : ℝ) ≤ os := by exact_mod_cast hos
    have h5 : 0 ≤ (os : ℝ) - 1 := by linarith
    rw [← key]
    exact mul_le_mul_of_nonneg_left hle (by positivity)

/-- the same after multiplying with the transpose of a matrix with orthonormal columns on the right -/
theorem randomSvd_block_expected (P : Measure Ω) (rng : Ω → Rng ℝ) (h : NormalDraws P rng) (la : LinAlg ℝ)
    (hla : LaOk la) {m p n q : ℕ} (L : Matrix (Fin m) (Fin p) ℝ) (D : Matrix (Fin p) (Fin n) ℝ)
    (W : Matrix (Fin q) (Fin n) ℝ) (hg : D.transpose * D = (L * D).transpose * (L * D)) (hW : W.transpose * W = 1)
    (A : Matrix (Fin m) (Fin q) ℝ) (hA : L * D * W.transpose = A) (rank nPower os : ℕ) (hos : 2 ≤ os) :
    ∃ B : Ω → ENNReal, AEMeasurable B P ∧
      (∀ᵐ w ∂P, ∃ (k : ℕ) (U' : Matrix (Fin p) (Fin k) ℝ) (s' : Fin k → ℝ) (V' : Matrix (Fin k) (Fin n) ℝ),
        randomSvd la (rng w) ⟨p, n, D⟩ rank nPower os = (⟨p, k, U'⟩, ⟨k, s'⟩, ⟨k, n, V'⟩) ∧
        ENNReal.ofReal (sqSum (A - L * U' * diagonal s' * (W * V'.transpose).transpose)) ≤ B w) ∧
      ∀ X : Matrix (Fin m) (Fin q) ℝ, X.rank ≤ rank →
        ∫⁻ w, B w ∂P ≤ ENNReal.ofReal ((1 + rank / ((os : ℝ) - 1)) * sqSum (A - X)) := by
  obtain ⟨B, h1, h2, h3⟩ := randomSvd_gram_expected P rng h la hla L D hg rank nPower os hos
  have hWW' : W.transpose * W.transpose.transpose = 1 := by rw [Matrix.transpose_transpose, hW]
  refine ⟨B, h1, ?_, fun X hX => ?_⟩
  · filter_upwards [h2] with w hw
    obtain ⟨k, U, s, V, he, hB⟩ := hw
    refine ⟨k, U, s, V, he, ?_⟩
    have e : L * U * diagonal s * (W * V.transpose).transpose = L * U * diagonal s * V * W.transpose := by
      rw [Matrix.transpose_mul, Matrix.transpose_transpose]
      simp only [Matrix.mul_assoc]
    rwa [e, ← hA, ← Matrix.sub_mul, sqSum_orth_right hWW']
  · refine (h3 (X * W) ((Matrix.rank_mul_le_left _ _).trans hX)).trans (ENNReal.ofReal_le_ofReal ?_)
    have h4 : (2 : ℝ) ≤ os := by exact_mod_cast hos
    have h5 : 0 ≤ (os : ℝ) - 1 := by linarith
    refine mul_le_mul_of_nonneg_left ?_ (by positivity)
    have e2 : L * D - X * W = (A - X) * W := by
      rw [← hA, Matrix.sub_mul, Matrix.mul_assoc _ W.transpose, hW, Matrix.mul_one]
    rw [e2, ← sqSum_transpose ((A - X) * W), Matrix.transpose_mul, ← sqSum_transpose (A - X)]
    exact sqSum_contract hW _

/-- `newVectors_run` with the extended factors chosen before the draws -/
theorem newVectors_setup (la : LinAlg ℝ) (hqr : QrAlways la) {m r q nc : ℕ}
    (U : Matrix (Fin m) (Fin r) ℝ) (s : SArg ℝ) (S : Matrix (Fin r) (Fin r) ℝ)
    (hs : s.toMat = ⟨r, r, S⟩) (V : Matrix (Fin r) (Fin q) ℝ) (N : Matrix (Fin m) (Fin nc) ℝ)
    (hnc : nc ≤ m) (hpos : 0 < r + nc) (nPower os : ℕ) (hU : U.transpose * U = 1) :
    ∃ (p : ℕ) (P : Matrix (Fin m) (Fin p) ℝ) (D : Matrix (Fin p) (Fin (r + nc)) ℝ),
      P * D = hblock (U * S) N ∧ D.transpose * D = (P * D).transpose * (P * D) ∧
      ∀ (rng : Rng ℝ) (k : ℕ) (d1 : Matrix (Fin p) (Fin k) ℝ) (d2 : Fin k → ℝ)
        (d3 : Matrix (Fin k) (Fin (r + nc)) ℝ),
        randomSvd la rng ⟨p, r + nc, D⟩ r nPower os = (⟨p, k, d1⟩, ⟨k, d2⟩, ⟨k, r + nc, d3⟩) →
        updateSvdNewVectors la rng ⟨m, r, U⟩ s ⟨r, q, V⟩ ⟨m, nc, N⟩ nPower os =
          .ok (⟨m, k, P * d1⟩, ⟨k, d2⟩,
            ⟨k, q + nc, (blk V.transpose 0 0 (1 : Matrix (Fin nc) (Fin nc) ℝ) * d3.transpose).transpose⟩) := by
  obtain ⟨J, k, hJ, hJk⟩ := qrM_tall la hnc (N - U * (U.transpose * N))
  obtain ⟨hJk, hJJ⟩ := hJk (hqr _)
  have hprod : hblock U J * blk S (U.transpose * N) 0 k = hblock (U * S) N := by
    rw [hblock_mul_blk, Matrix.mul_zero, add_zero, hJk, add_sub_cancel]
  have hrun := fun rng => newVectors_eq la rng U s S hs V N J k hJ nPower os
  have hre : reorth la ⟨m, r + nc, hblock U J⟩ ⟨r + nc, r + nc, blk S (U.transpose * N) 0 k⟩ =
        .ok (⟨m, min m (r + nc), (la.qr (hblock U J)).1⟩,
          ⟨min m (r + nc), r + nc, (la.qr (hblock U J)).2 * blk S (U.transpose * N) 0 k⟩) ∨
      reorth la ⟨m, r + nc, hblock U J⟩ ⟨r + nc, r + nc, blk S (U.transpose * N) 0 k⟩ =
        .ok (⟨m, r + nc, hblock U J⟩, ⟨r + nc, r + nc, blk S (U.transpose * N) 0 k⟩) := by
    rw [C43_threshold _ _ _ hpos]
    split
    · exact Or.inl rfl
    · exact Or.inr rfl
  rcases hre with hre | hre
  · refine ⟨_, (la.qr (hblock U J)).1, (la.qr (hblock U J)).2 * blk S (U.transpose * N) 0 k, ?_, ?_,
      fun rng kk d1 d2 d3 he => ?_⟩
    · rw [← Matrix.mul_assoc, (hqr (hblock U J)).1, hprod]
    · generalize (la.qr (hblock U J)).2 * blk S (U.transpose * N) 0 k = D
      rw [Matrix.transpose_mul, Matrix.mul_assoc, ← Matrix.mul_assoc _ (la.qr (hblock U J)).1, (hqr (hblock U J)).2,
        Matrix.one_mul]
    · rw [hrun rng, hre]
      simp only [Except.bind]
      rw [he]
      simp only [Mat.dot_mk, Mat.T_mk]
  · refine ⟨_, hblock U J, blk S (U.transpose * N) 0 k, hprod, ?_, fun rng kk d1 d2 d3 he => ?_⟩
    · rw [hprod, hblock_gram, blk_transpose, blk_mul_blk]
      have hN : N = U * (U.transpose * N) + J * k := by rw [hJk, add_sub_cancel]
      have hUJ : U.transpose * (J * k) = 0 := by
        rw [hJk, Matrix.mul_sub, ← Matrix.mul_assoc U.transpose U, hU, Matrix.one_mul, sub_self]
      have hJU : k.transpose * J.transpose * U = 0 := by
        have := congrArg Matrix.transpose hUJ
        simpa [Matrix.transpose_mul] using this
      symm
      congr 1
      · rw [Matrix.transpose_mul, Matrix.mul_assoc, ← Matrix.mul_assoc U.transpose, hU, Matrix.one_mul]
        simp
      · rw [Matrix.transpose_mul, Matrix.mul_assoc]
        simp
      · rw [← Matrix.mul_assoc, Matrix.transpose_mul, Matrix.transpose_transpose]
        simp
      · have : N.transpose * N = (U * (U.transpose * N) + J * k).transpose *
            (U * (U.transpose * N) + J * k) := by rw [← hN]
        rw [this]
        generalize U.transpose * N = pr at *
        rw [Matrix.transpose_add, Matrix.transpose_mul, Matrix.transpose_mul, Matrix.add_mul,
          Matrix.mul_add, Matrix.mul_add, Matrix.mul_assoc pr.transpose U.transpose (J * k), hUJ,
          ← Matrix.mul_assoc (k.transpose * J.transpose) U pr, hJU, ← Matrix.mul_assoc (pr.transpose * U.transpose) U pr,
          Matrix.mul_assoc pr.transpose U.transpose U, hU, ← Matrix.mul_assoc _ J k,
          Matrix.mul_assoc k.transpose J.transpose J, hJJ]
        simp
    · rw [hrun rng, hre]
      simp only [Except.bind]
      rw [he]
      simp only [Mat.dot_mk, Mat.T_mk]

/-! ### Theorems -/

/-- **C167, new vectors.** With orthonormal old factors, any core, at most as many new columns as rows, normal draws and
`os ≥ 2`, the squared distance of the product of the factors returned by `update_svd_new_vectors` to `[U S V | N]` has
an upper bound whose mean is at most `1 + r / (os - 1)` times the squared distance of `[U S V | N]` to every matrix of
rank at most `r`. -/
theorem C167_append (P : Measure Ω) (rng : Ω → Rng ℝ) (h : NormalDraws P rng) (la : LinAlg ℝ) (hla : LaOk la)
    {m r q nc : ℕ} (U : Matrix (Fin m) (Fin r) ℝ) (s : SArg ℝ) (S : Matrix (Fin r) (Fin r) ℝ)
    (hs : s.toMat = ⟨r, r, S⟩) (V : Matrix (Fin r) (Fin q) ℝ) (N : Matrix (Fin m) (Fin nc) ℝ)
    (hnc : nc ≤ m) (hpos : 0 < r + nc) (nPower os : ℕ) (hos : 2 ≤ os) (hU : U.transpose * U = 1)
    (hV : V * V.transpose = 1) :
    ∃ B : Ω → ENNReal, AEMeasurable B P ∧
      (∀ᵐ w ∂P, ∃ (k : ℕ) (U2 : Matrix (Fin m) (Fin k) ℝ) (s2 : Fin k → ℝ) (V2 : Matrix (Fin k) (Fin (q + nc)) ℝ),
        updateSvdNewVectors la (rng w) ⟨m, r, U⟩ s ⟨r, q, V⟩ ⟨m, nc, N⟩ nPower os =
          .ok (⟨m, k, U2⟩, ⟨k, s2⟩, ⟨k, q + nc, V2⟩) ∧
        ENNReal.ofReal (sqSum (hblock (U * S * V) N - U2 * diagonal s2 * V2)) ≤ B w) ∧
      ∀ X : Matrix (Fin m) (Fin (q + nc)) ℝ, X.rank ≤ r →
        ∫⁻ w, B w ∂P ≤ ENNReal.ofReal ((1 + r / ((os : ℝ) - 1)) * sqSum (hblock (U * S * V) N - X)) := by
  obtain ⟨p, L, D, hLD, hg, hrun⟩ := newVectors_setup la (fun A => hla.qr A) U s S hs V N hnc hpos nPower os hU
  obtain ⟨B, h1, h2, h3⟩ := randomSvd_block_expected P rng h la hla L D
    (blk V.transpose 0 0 (1 : Matrix (Fin nc) (Fin nc) ℝ)) hg
    (by
      rw [blk_transpose, blk_mul_blk]
      simp [hV, blk_one])
    (hblock (U * S * V) N)
    (by
      rw [hLD, blk_transpose, hblock_mul_blk]
      simp)
    r nPower os hos
  refine ⟨B, h1, ?_, h3⟩
  filter_upwards [h2] with w ⟨k, d1, d2, d3, he, hB⟩
  exact ⟨k, _, _, _, hrun (rng w) k d1 d2 d3 he, hB⟩

/-- **C167, new items.** The same for the object: appending new items when no initialisation is configured. -/
theorem C167_items (P : Measure Ω) (rng : Ω → Rng ℝ) (h : NormalDraws P rng) (env : PSIEnv ℝ) (hla : LaOk env.la)
    (cfg : PSICfg) (hc : cfg.init = none) (hos : 2 ≤ cfg.os) (st : PSIState ℝ) {m n r nc : ℕ}
    (U : Matrix (Fin m) (Fin r) ℝ) (S : Matrix (Fin r) (Fin r) ℝ) (V : Matrix (Fin r) (Fin n) ℝ) (hst : Stores st U S V)
    (N : Matrix (Fin m) (Fin nc) ℝ) (hnc : nc ≤ m) (hpos : 0 < nc) (hU : U.transpose * U = 1)
    (hV : V * V.transpose = 1) :
    ∃ B : Ω → ENNReal, AEMeasurable B P ∧
      (∀ᵐ w ∂P, ∃ (k : ℕ) (U' : Matrix (Fin m) (Fin k) ℝ) (S' : Matrix (Fin k) (Fin k) ℝ)
        (V' : Matrix (Fin k) (Fin (n + nc)) ℝ) (st' : PSIState ℝ),
        psiUpdater { env with rng := rng w } cfg st ⟨m, nc, N⟩ .newItems = .ok st' ∧ Stores st' U' S' V' ∧
        ENNReal.ofReal (sqSum (hblock (U * S * V) N - U' * S' * V')) ≤ B w) ∧
      ∀ X : Matrix (Fin m) (Fin (n + nc)) ℝ, X.rank ≤ r →
        ∫⁻ w, B w ∂P ≤ ENNReal.ofReal ((1 + r / ((cfg.os : ℝ) - 1)) * sqSum (hblock (U * S * V) N - X)) := by
  obtain ⟨hu, hs, hv⟩ := hst
  obtain ⟨B, h1, h2, h3⟩ := C167_append P rng h env.la hla U st.s S hs V N hnc (by omega) cfg.nPower cfg.os hos hU hV
  refine ⟨B, h1, ?_, h3⟩
  filter_upwards [h2] with w ⟨k, U2, s2, V2, he, hB⟩
  refine ⟨k, U2, diagonal s2, V2, { st with u := ⟨m, k, U2⟩, s := .vec k s2, vt := ⟨k, n + nc, V2⟩ },
    ?_, ⟨rfl, rfl, rfl⟩, hB⟩
  unfold psiUpdater
  rw [hc]
  dsimp only
  rw [hu, hv, he]
  rfl

/-- **C167, new users.** Appending new users: the same for `U Sᵀ V` with the new rows below (the code passes `s` where
`sᵀ` belongs; for a symmetric core `U Sᵀ V` are the old predictions). -/
theorem C167_users (P : Measure Ω) (rng : Ω → Rng ℝ) (h : NormalDraws P rng) (env : PSIEnv ℝ) (hla : LaOk env.la)
    (cfg : PSICfg) (hc : cfg.init = none) (hos : 2 ≤ cfg.os) (st : PSIState ℝ) {m n r nc : ℕ}
    (U : Matrix (Fin m) (Fin r) ℝ) (S : Matrix (Fin r) (Fin r) ℝ) (V : Matrix (Fin r) (Fin n) ℝ) (hst : Stores st U S V)
    (N : Matrix (Fin n) (Fin nc) ℝ) (hnc : nc ≤ n) (hpos : 0 < nc) (hU : U.transpose * U = 1)
    (hV : V * V.transpose = 1) :
    ∃ B : Ω → ENNReal, AEMeasurable B P ∧
      (∀ᵐ w ∂P, ∃ (k : ℕ) (U' : Matrix (Fin (m + nc)) (Fin k) ℝ) (S' : Matrix (Fin k) (Fin k) ℝ)
        (V' : Matrix (Fin k) (Fin n) ℝ) (st' : PSIState ℝ),
        psiUpdater { env with rng := rng w } cfg st ⟨n, nc, N⟩ .newUsers = .ok st' ∧ Stores st' U' S' V' ∧
        ENNReal.ofReal (sqSum ((hblock (U * S.transpose * V).transpose N).transpose - U' * S' * V')) ≤ B w) ∧
      ∀ X : Matrix (Fin (m + nc)) (Fin n) ℝ, X.rank ≤ r →
        ∫⁻ w, B w ∂P ≤ ENNReal.ofReal ((1 + r / ((cfg.os : ℝ) - 1)) *
          sqSum ((hblock (U * S.transpose * V).transpose N).transpose - X)) := by
  obtain ⟨hu, hs, hv⟩ := hst
  obtain ⟨B, h1, h2, h3⟩ := C167_append P rng h env.la hla V.transpose st.s S hs U.transpose N hnc (by omega)
    cfg.nPower cfg.os hos (by rw [Matrix.transpose_transpose, hV]) (by rw [Matrix.transpose_transpose, hU])
  have hT : V.transpose * S * U.transpose = (U * S.transpose * V).transpose := by
    rw [Matrix.transpose_mul, Matrix.transpose_mul, Matrix.transpose_transpose]
    simp only [Matrix.mul_assoc]
  rw [hT] at h2 h3
  refine ⟨B, h1, ?_, fun X hX => ?_⟩
  · filter_upwards [h2] with w ⟨k, U2, s2, V2, he, hB⟩
    refine ⟨k, V2.transpose, diagonal s2, U2.transpose,
      { st with u := ⟨m + nc, k, V2.transpose⟩, s := .vec k s2, vt := ⟨k, n, U2.transpose⟩ }, ?_, ⟨rfl, rfl, rfl⟩, ?_⟩
    · unfold psiUpdater
      rw [hc]
      dsimp only
      rw [hu, hv]
      simp only [Mat.T_mk]
      rw [he]
      rfl
    · have e : V2.transpose * diagonal s2 * U2.transpose = (U2 * diagonal s2 * V2).transpose := by
        rw [Matrix.transpose_mul, Matrix.transpose_mul, Matrix.diagonal_transpose]
        simp only [Matrix.mul_assoc]
      rw [e, ← Matrix.transpose_sub, sqSum_transpose]
      exact hB
  · have := h3 X.transpose (by rw [Matrix.rank_transpose]; exact hX)
    rwa [← sqSum_transpose (_ - X), Matrix.transpose_sub, Matrix.transpose_transpose]

/-- **C167, new block.** Appending an independent block to a decomposition with a matrix core (`s` a matrix, as after an
update of known entries): the same for the block-diagonal matrix. -/
theorem C167_block (P : Measure Ω) (rng : Ω → Rng ℝ) (h : NormalDraws P rng) (la : LinAlg ℝ) (hla : LaOk la)
    (argsort : ArgSort ℝ) {m r q a b : ℕ} (U : Matrix (Fin m) (Fin r) ℝ) (S : Matrix (Fin r) (Fin r) ℝ)
    (V : Matrix (Fin r) (Fin q) ℝ) (N : Matrix (Fin a) (Fin b) ℝ) (nPower os : ℕ) (hos : 2 ≤ os)
    (hU : U.transpose * U = 1) (hV : V * V.transpose = 1) :
    ∃ B : Ω → ENNReal, AEMeasurable B P ∧
      (∀ᵐ w ∂P, ∃ (U2 : Matrix (Fin (m + a)) (Fin r) ℝ) (s2 : Fin r → ℝ) (V2 : Matrix (Fin r) (Fin (q + b)) ℝ),
        updateSvdNewSubmatrix la (rng w) argsort ⟨m, r, U⟩ (.mat ⟨r, r, S⟩) ⟨r, q, V⟩ ⟨a, b, N⟩ nPower os =
          .ok (⟨m + a, r, U2⟩, .vec r s2, ⟨r, q + b, V2⟩) ∧
        ENNReal.ofReal (sqSum (blk (U * S * V) 0 0 N - U2 * diagonal s2 * V2)) ≤ B w) ∧
      ∀ X : Matrix (Fin (m + a)) (Fin (q + b)) ℝ, X.rank ≤ r →
        ∫⁻ w, B w ∂P ≤ ENNReal.ofReal ((1 + r / ((os : ℝ) - 1)) * sqSum (blk (U * S * V) 0 0 N - X)) := by
  obtain ⟨e1, e2, e3, -, -⟩ := hla.svd N
  have hL : (blk U 0 0 (la.svd N).1).transpose * blk U 0 0 (la.svd N).1 = 1 := by
    rw [blk_transpose, blk_mul_blk]
    simp [hU, e2, blk_one]
  obtain ⟨B, h1, h2, h3⟩ := randomSvd_block_expected P rng h la hla (blk U 0 0 (la.svd N).1)
    (blk S 0 0 (diagonal (la.svd N).2.1)) (blk V.transpose 0 0 (la.svd N).2.2.transpose)
    (by
      generalize blk S 0 0 (diagonal (la.svd N).2.1) = D
      rw [Matrix.transpose_mul, Matrix.mul_assoc, ← Matrix.mul_assoc _ (blk U 0 0 (la.svd N).1), hL, Matrix.one_mul])
    (by
      rw [blk_transpose, blk_mul_blk]
      simp [hV, e3, blk_one])
    (blk (U * S * V) 0 0 N)
    (by
      rw [blk_transpose, blk_mul_blk, blk_mul_blk]
      simp [e1])
    r nPower os hos
  refine ⟨B, h1, ?_, h3⟩
  filter_upwards [h2] with w ⟨k, d1, d2, d3, he, hB⟩
  obtain ⟨k', d1', d2', d3', -, hk, he', -⟩ := C47_components la (rng w)
    (blk S 0 0 (diagonal (la.svd N).2.1)) r nPower os
  obtain rfl : k = k' := congrArg (fun x => x.2.1.len) (he.symm.trans he')
  obtain rfl : k = r := by omega
  refine ⟨_, _, _, ?_, hB⟩
  unfold updateSvdNewSubmatrix
  simp only [Mat.T_mk, blockDiag_mk, Mat.diag, he, Mat.dot_mk, except_bind_ok]
  rw [he]
  rfl

/-- **C167, new users and items.** The same for the object with a matrix core. -/
theorem C167_new (P : Measure Ω) (rng : Ω → Rng ℝ) (h : NormalDraws P rng) (env : PSIEnv ℝ) (hla : LaOk env.la)
    (cfg : PSICfg) (hc : cfg.integrator = false) (hos : 2 ≤ cfg.os) (st : PSIState ℝ) {m n r a b : ℕ}
    (U : Matrix (Fin m) (Fin r) ℝ) (S : Matrix (Fin r) (Fin r) ℝ) (V : Matrix (Fin r) (Fin n) ℝ)
    (hu : st.u = ⟨m, r, U⟩) (hs : st.s = .mat ⟨r, r, S⟩) (hv : st.vt = ⟨r, n, V⟩)
    (N : Matrix (Fin a) (Fin b) ℝ) (hU : U.transpose * U = 1) (hV : V * V.transpose = 1) :
    ∃ B : Ω → ENNReal, AEMeasurable B P ∧
      (∀ᵐ w ∂P, ∃ (U' : Matrix (Fin (m + a)) (Fin r) ℝ) (S' : Matrix (Fin r) (Fin r) ℝ)
        (V' : Matrix (Fin r) (Fin (n + b)) ℝ) (st' : PSIState ℝ),
        psiUpdater { env with rng := rng w } cfg st ⟨a, b, N⟩ .new = .ok st' ∧ Stores st' U' S' V' ∧
        ENNReal.ofReal (sqSum (blk (U * S * V) 0 0 N - U' * S' * V')) ≤ B w) ∧
      ∀ X : Matrix (Fin (m + a)) (Fin (n + b)) ℝ, X.rank ≤ r →
        ∫⁻ w, B w ∂P ≤ ENNReal.ofReal ((1 + r / ((cfg.os : ℝ) - 1)) * sqSum (blk (U * S * V) 0 0 N - X)) := by
  obtain ⟨B, h1, h2, h3⟩ := C167_block P rng h env.la hla env.argsort U S V N cfg.nPower cfg.os hos hU hV
  refine ⟨B, h1, ?_, h3⟩
  filter_upwards [h2] with w ⟨U2, s2, V2, he, hB⟩
  refine ⟨U2, diagonal s2, V2, { st with u := ⟨m + a, r, U2⟩, s := .vec r s2, vt := ⟨r, n + b, V2⟩ },
    ?_, ⟨rfl, rfl, rfl⟩, hB⟩
  unfold psiUpdater
  rw [hc]
  dsimp only
  rw [hu, hs, hv, he]
  rfl

/-! ### Examples -/

-- appending the item (3, 4) to the predictions (2, 0), (0, 0) of rank one with oversampling 2 and any number of power
-- iterations: the mean squared error is at most 8, twice the squared distance to the matrix with the new column only
example (env : PSIEnv ℝ) (hla : LaOk env.la) (cfg : PSICfg) (hc : cfg.init = none) (hos : cfg.os = 2) (st : PSIState ℝ)
    (hst : Stores st !![(1 : ℝ); 0] !![2] !![1, 0]) :
    ∃ B : (ℕ × ℕ → ℝ) → ENNReal,
      (∀ᵐ w ∂normalSource, ∃ (k : ℕ) (U' : Matrix (Fin 2) (Fin k) ℝ) (S' : Matrix (Fin k) (Fin k) ℝ)
        (V' : Matrix (Fin k) (Fin (2 + 1)) ℝ) (st' : PSIState ℝ),
        psiUpdater { env with rng := sourceRng w } cfg st ⟨2, 1, !![3; 4]⟩ .newItems = .ok st' ∧ Stores st' U' S' V' ∧
        ENNReal.ofReal (sqSum (!![(2 : ℝ), 0, 3; 0, 0, 4] - U' * S' * V')) ≤ B w) ∧
      ∫⁻ w, B w ∂normalSource ≤ ENNReal.ofReal 8 := by
  have hA : hblock (!![(1 : ℝ); 0] * !![(2 : ℝ)] * !![(1 : ℝ), 0]) !![3; 4] = !![(2 : ℝ), 0, 3; 0, 0, 4] := by
    ext i j
    fin_cases i <;> fin_cases j <;> simp [hblock, Fin.addCases, Matrix.mul_apply]
  obtain ⟨B, h1, h2, h3⟩ := C167_items normalSource sourceRng source_normal env hla cfg hc (by omega) st _ _ _ hst
    !![(3 : ℝ); 4] (by decide) (by decide)
    (by ext i j; fin_cases i; fin_cases j; simp [Matrix.mul_apply])
    (by ext i j; fin_cases i; fin_cases j; simp [Matrix.mul_apply])
  rw [hA] at h2 h3
  refine ⟨B, h2, (h3 (Matrix.vecMulVec ![3, 4] ![0, 0, 1]) (Matrix.rank_vecMulVec_le _ _)).trans (le_of_eq ?_)⟩
  rw [hos]
  congr 1
  simp [sqSum, Fin.sum_univ_succ, Matrix.vecMulVec_apply]
  norm_num

-- appending the block (5) to the same predictions with a matrix core
example (argsort : ArgSort ℝ) :
    ∃ B : (ℕ × ℕ → ℝ) → ENNReal,
      (∀ᵐ w ∂normalSource, ∃ (U2 : Matrix (Fin (2 + 1)) (Fin 1) ℝ) (s2 : Fin 1 → ℝ) (V2 : Matrix (Fin 1) (Fin (2 + 1)) ℝ),
        updateSvdNewSubmatrix realLA (sourceRng w) argsort ⟨2, 1, !![1; 0]⟩ (.mat ⟨1, 1, !![2]⟩) ⟨1, 2, !![1, 0]⟩
          ⟨1, 1, !![5]⟩ 1 2 = .ok (⟨2 + 1, 1, U2⟩, .vec 1 s2, ⟨1, 2 + 1, V2⟩) ∧
        ENNReal.ofReal (sqSum (!![(2 : ℝ), 0, 0; 0, 0, 0; 0, 0, 5] - U2 * diagonal s2 * V2)) ≤ B w) ∧
      ∫⁻ w, B w ∂normalSource ≤ ENNReal.ofReal 8 := by
  have hA : blk (!![(1 : ℝ); 0] * !![(2 : ℝ)] * !![(1 : ℝ), 0]) 0 0 !![5] =
      !![(2 : ℝ), 0, 0; 0, 0, 0; 0, 0, 5] := by
    ext i j
    fin_cases i <;> fin_cases j <;> simp [blk, Fin.addCases, Matrix.mul_apply]
  obtain ⟨B, h1, h2, h3⟩ := C167_block normalSource sourceRng source_normal realLA laOk_real argsort
    !![(1 : ℝ); 0] !![(2 : ℝ)] !![(1 : ℝ), 0] !![(5 : ℝ)] 1 2 le_rfl
    (by ext i j; fin_cases i; fin_cases j; simp [Matrix.mul_apply])
    (by ext i j; fin_cases i; fin_cases j; simp [Matrix.mul_apply])
  rw [hA] at h2 h3
  refine ⟨B, h2, (h3 (Matrix.vecMulVec ![0, 0, 5] ![0, 0, 1]) (Matrix.rank_vecMulVec_le _ _)).trans (le_of_eq ?_)⟩
  congr 1
  simp [sqSum, Fin.sum_univ_succ, Matrix.vecMulVec_apply]
  norm_num

end DynCF
