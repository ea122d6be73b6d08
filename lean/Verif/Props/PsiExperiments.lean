/- C100 (synthetic dynamics) and C101 (the PSI experiment). -/
import Verif.Model.PsiExperiments
import Verif.Props.Generators
import Verif.Props.Tensor2
import Verif.Props.Psi
import Verif.Lemmas.Hooi

namespace DynCF

open Matrix

/-! ### C100 -/

/-- **C100, mixing matrices.** `_get_skew_symmetric` of a square shape is skew-symmetric: half the
difference of the drawn matrix and its transpose, times the scale. -/
theorem C100_skew (draw : SeededRng) (n : ℕ) (scale : ℝ) (seed : ℤ) :
    ∃ T : Matrix (Fin n) (Fin n) ℝ, getSkewSymmetric draw (n, n) scale seed = .ok ⟨n, n, T⟩ ∧
      T.transpose = -T ∧
      ∀ i j, T i j = scale * (draw seed 0 n n i j - draw seed 0 n n j i) / 2 := by
  unfold getSkewSymmetric
  dsimp only
  rw [Mat.T_mk, Mat.sub_mk, except_bind_ok]
  refine ⟨_, rfl, ?_, ?_⟩
  · ext i j
    simp
    ring
  · intro i j
    simp
    ring

/-- **C100, constant matrices.** `_get_const_mtx`: noise `eps * draw` everywhere, plus in the upper left
block `eps_block * draw`, plus one on the diagonal of the block. A block that is larger than the matrix
raises `ValueError`. -/
theorem C100_const (draw : SeededRng) (n b : ℕ) (eps epsBlock : ℝ) (seed : ℤ) :
    (b ≤ n → ∃ A : Matrix (Fin n) (Fin n) ℝ,
      getConstMtx draw (n, n) (b, b) eps epsBlock seed = .ok ⟨n, n, A⟩ ∧
      (∀ i j : Fin n, b ≤ (i : ℕ) ∨ b ≤ (j : ℕ) → A i j = eps * draw seed 1 n n i j) ∧
      (∀ (i j : Fin n) (hi : (i : ℕ) < b) (hj : (j : ℕ) < b), i ≠ j →
        A i j = eps * draw seed 1 n n i j + epsBlock * draw seed 0 b b ⟨i, hi⟩ ⟨j, hj⟩) ∧
      ∀ (i : Fin n) (hi : (i : ℕ) < b),
        A i i = eps * draw seed 1 n n i i + epsBlock * draw seed 0 b b ⟨i, hi⟩ ⟨i, hi⟩ + 1) ∧
    (0 < n → n < b → getConstMtx draw (n, n) (b, b) eps epsBlock seed = .error .valueError) := by
  unfold getConstMtx
  simp only [ne_eq, not_true_eq_false, if_false]
  constructor
  · intro h
    rw [if_pos ⟨h, h⟩]
    refine ⟨_, rfl, ?_, ?_, ?_⟩
    · intro i j hij
      simp only [Matrix.of_apply]
      rw [dif_neg (by omega), add_zero]
    · intro i j hi hj hne
      simp only [Matrix.of_apply]
      rw [dif_pos ⟨hi, hj⟩, if_neg (fun h => hne (Fin.ext h)), add_zero]
    · intro i hi
      simp only [Matrix.of_apply]
      rw [dif_pos ⟨hi, hi⟩, if_pos trivial, add_assoc]
  · intro h0 h
    rw [if_neg (by omega), if_neg (by omega)]

theorem solveIvp_mk {n m : ℕ} (Q : Matrix (Fin n) (Fin m) ℝ) (h : ℝ) (T : Matrix (Fin n) (Fin n) ℝ) :
    solveIvp ⟨n, m, Q⟩ h ⟨n, n, T⟩ = .ok ⟨n, m, (1 + h • T) * Q⟩ := by
  unfold solveIvp
  rw [if_neg (by simp)]
  rw [Mat.dot_mk]
  congr 3
  ext i j
  simp [Matrix.one_apply, Fin.ext_iff, add_comm]

theorem numExpStep_mk (x : NumExp) {n : ℕ} (A1 A2 Q1 Q2 : Matrix (Fin n) (Fin n) ℝ)
    (h1 : x.a1 = ⟨n, n, A1⟩) (h2 : x.a2 = ⟨n, n, A2⟩) (t : ℝ) :
    numExpStep x t ⟨n, n, Q1⟩ ⟨n, n, Q2⟩ =
      .ok ⟨n, n, Q1 * (A1 + Real.exp t • A2) * Q2.transpose⟩ := by
  unfold numExpStep
  rw [h1, h2]
  dsimp only
  rw [Mat.add_mk, except_bind_ok, Mat.dot_mk, except_bind_ok, Mat.T_mk, Mat.dot_mk]
  rfl

/-- **C100, dynamics.** The list returned by `get_dynamics_list` has `n_steps` matrices; the matrix number
`k` is `(I + h T1)^k (A1 + e^(t0 + k h) A2) ((I + h T2)^k)ᵀ` (the explicit Euler steps of `Q' = T Q`). -/
theorem C100_dynamics (x : NumExp) {n : ℕ} (hn : x.size = n) (A1 A2 T1 T2 : Matrix (Fin n) (Fin n) ℝ)
    (ha1 : x.a1 = ⟨_, _, A1⟩) (ha2 : x.a2 = ⟨_, _, A2⟩) (ht1 : x.t1 = ⟨_, _, T1⟩)
    (ht2 : x.t2 = ⟨_, _, T2⟩) (nSteps : ℕ) :
    getDynamicsList x nSteps = .ok ((List.range nSteps).map fun (k : ℕ) =>
      ⟨n, n, (1 + x.ss • T1) ^ k * (A1 + Real.exp (x.t0 + k * x.ss) • A2) *
        ((1 + x.ss • T2) ^ k).transpose⟩) := by
  subst hn
  have key : ∀ (n i : ℕ), numExpLoop x n (x.t0 + i * x.ss) ⟨_, _, (1 + x.ss • T1) ^ i⟩
      ⟨_, _, (1 + x.ss • T2) ^ i⟩ = .ok ((List.range n).map fun (k : ℕ) =>
      ⟨x.size, x.size, (1 + x.ss • T1) ^ (i + k) *
        (A1 + Real.exp (x.t0 + ((i + k : ℕ) : ℝ) * x.ss) • A2) * ((1 + x.ss • T2) ^ (i + k)).transpose⟩) := by
    intro n
    induction n with
    | zero => intro i; rfl
    | succ n ih =>
      intro i
      have e : x.t0 + i * x.ss + x.ss = x.t0 + ((i + 1 : ℕ) : ℝ) * x.ss := by push_cast; ring
      unfold numExpLoop
      rw [numExpStep_mk x A1 A2 _ _ ha1 ha2, except_bind_ok, ht1, solveIvp_mk, except_bind_ok, ht2,
        solveIvp_mk, except_bind_ok, ← pow_succ', ← pow_succ', e, ih (i + 1), except_bind_ok,
        List.range_succ_eq_map, List.map_cons, List.map_map]
      show Except.ok _ = Except.ok _
      congr 2
      refine List.map_congr_left fun k _ => ?_
      show _ = Mat.mk x.size x.size ((1 + x.ss • T1) ^ (i + (k + 1)) *
        (A1 + Real.exp (x.t0 + ((i + (k + 1) : ℕ) : ℝ) * x.ss) • A2) *
          ((1 + x.ss • T2) ^ (i + (k + 1))).transpose)
      rw [show i + 1 + k = i + (k + 1) by omega]
  have := key nSteps 0
  unfold getDynamicsList
  simp only [Nat.cast_zero, zero_mul, add_zero, pow_zero, Nat.zero_add] at this
  exact this

/-- **C100, the mixing is not a rotation.** One Euler step with a skew-symmetric `T` stretches every
vector: `|(I + h T) v|² = |v|² + h² |T v|²`. -/
theorem C100_stretch {n : ℕ} (T : Matrix (Fin n) (Fin n) ℝ) (hT : T.transpose = -T) (h : ℝ)
    (v : Fin n → ℝ) :
    ((1 + h • T) *ᵥ v) ⬝ᵥ ((1 + h • T) *ᵥ v) = v ⬝ᵥ v + h ^ 2 * ((T *ᵥ v) ⬝ᵥ (T *ᵥ v)) := by
  have h0 : v ⬝ᵥ (T *ᵥ v) = 0 := by
    have h1 : v ⬝ᵥ (T *ᵥ v) = -(v ⬝ᵥ (T *ᵥ v)) := by
      conv_lhs => rw [Matrix.dotProduct_mulVec, ← Matrix.mulVec_transpose, hT, Matrix.neg_mulVec,
        neg_dotProduct, dotProduct_comm]
    linarith
  rw [Matrix.add_mulVec, Matrix.one_mulVec, Matrix.smul_mulVec, add_dotProduct, dotProduct_add,
    dotProduct_add, dotProduct_smul, smul_dotProduct, smul_dotProduct, dotProduct_smul,
    dotProduct_comm (T *ᵥ v) v, h0]
  simp only [smul_eq_mul]
  ring

/-- **C100, the constructor.** `A1`, `T1` are built with the seed `seed + 1`, `A2`, `T2` with `seed + 2`;
a block larger than the matrix raises `ValueError`. -/
theorem C100_init (draw : SeededRng) (t0 h : ℝ) (n b : ℕ) (eps epsBlock : ℝ) (seed : ℤ) :
    (b ≤ n → ∃ (x : NumExp) (A1 A2 T1 T2 : Matrix (Fin n) (Fin n) ℝ),
      numExpInit draw t0 h n b eps epsBlock seed = .ok x ∧ x.size = n ∧ x.t0 = t0 ∧ x.ss = h ∧
      x.a1 = ⟨n, n, A1⟩ ∧ x.a2 = ⟨n, n, A2⟩ ∧ x.t1 = ⟨n, n, T1⟩ ∧ x.t2 = ⟨n, n, T2⟩ ∧
      getConstMtx draw (n, n) (b, b) eps epsBlock (seed + 1) = .ok x.a1 ∧
      getConstMtx draw (n, n) (b, b) eps epsBlock (seed + 2) = .ok x.a2 ∧
      T1.transpose = -T1 ∧ T2.transpose = -T2 ∧
      (∀ i j, T1 i j = (draw (seed + 1) 0 n n i j - draw (seed + 1) 0 n n j i) / 2) ∧
      ∀ i j, T2 i j = (draw (seed + 2) 0 n n i j - draw (seed + 2) 0 n n j i) / 2) ∧
    (0 < n → n < b → numExpInit draw t0 h n b eps epsBlock seed = .error .valueError) := by
  constructor
  · intro hb
    obtain ⟨A1, h1, -⟩ := (C100_const draw n b eps epsBlock (seed + 1)).1 hb
    obtain ⟨A2, h2, -⟩ := (C100_const draw n b eps epsBlock (seed + 2)).1 hb
    obtain ⟨T1, h3, s3, e3⟩ := C100_skew draw n 1 (seed + 1)
    obtain ⟨T2, h4, s4, e4⟩ := C100_skew draw n 1 (seed + 2)
    refine ⟨⟨t0, h, n, ⟨n, n, A1⟩, ⟨n, n, A2⟩, ⟨n, n, T1⟩, ⟨n, n, T2⟩⟩, A1, A2, T1, T2, ?_, rfl, rfl, rfl,
      rfl, rfl, rfl, rfl, h1, h2, s3, s4, fun i j => by rw [e3, one_mul], fun i j => by rw [e4, one_mul]⟩
    unfold numExpInit
    rw [h1, h2, h3, h4]
    rfl
  · intro h0 hb
    unfold numExpInit
    rw [(C100_const draw n b eps epsBlock (seed + 1)).2 h0 hb]
    rfl

/-- draws of all ones above the diagonal -/
def exSeeded : SeededRng := fun _ _ _ _ i j => if (i : ℕ) < j then 1 else 0

-- three matrices of size 3 with a block of size 2; one step stretches the first basis vector
example : ∃ x, numExpInit exSeeded 0 (1/5) 3 2 (1/1000) (1/2) 1 = .ok x ∧
    (∃ l, getDynamicsList x 3 = .ok l ∧ l.length = 3) ∧
    numExpInit exSeeded 0 (1/5) 3 4 (1/1000) (1/2) 1 = .error .valueError := by
  obtain ⟨x, A1, A2, T1, T2, h, hs, -, -, h1, h2, h3, h4, -⟩ :=
    (C100_init exSeeded 0 (1/5) 3 2 (1/1000) (1/2) 1).1 (by norm_num)
  exact ⟨x, h, ⟨_, C100_dynamics x hs A1 A2 T1 T2 h1 h2 h3 h4 3, by simp⟩,
    (C100_init exSeeded 0 (1/5) 3 4 (1/1000) (1/2) 1).2 (by norm_num) (by norm_num)⟩

/-! ### C101 -/

/-- what is known about the error recorded for the matrix `A` by a method of rank `rank` -/
def ErrorOk {m n : ℕ} (rank : ℕ) (A : Matrix (Fin m) (Fin n) ℝ) (e : ℝ) : Prop :=
  0 ≤ e ∧ (rank < A.rank → 0 < e)

theorem error_of_product {m n l : ℕ} (hm : 0 < m) (hn : 0 < n) (rank : ℕ) (hl : l ≤ rank)
    (A : Matrix (Fin m) (Fin n) ℝ) (P : Matrix (Fin m) (Fin n) ℝ) (X : Matrix (Fin m) (Fin l) ℝ)
    (Y : Matrix (Fin l) (Fin n) ℝ) (hP : P = X * Y) :
    ∃ e, sqrtErrRelativeMtx ⟨m, n, P⟩ ⟨m, n, A⟩ = .ok e ∧ ErrorOk rank A e ∧ (P = A → e = 0) := by
  obtain ⟨e, h1, h2, h3⟩ := C59_dense hm hn P A
  refine ⟨e, h1, ⟨h2, fun hr => lt_of_le_of_ne h2 fun h0 => ?_⟩, fun h => h3.2 h⟩
  have h4 := h3.1 h0.symm
  have h5 : A.rank ≤ l := by
    rw [← h4, hP]
    refine (Matrix.rank_mul_le_left X Y).trans ((Matrix.rank_le_card_width X).trans ?_)
    rw [Fintype.card_fin]
  omega

/-- the loop of `get_psi_dynamics` -/
theorem psiDynLoop_run (la : LinAlg ℝ) (hqr : QrAlways la) {m n : ℕ} (hm : 0 < m) (hn : 0 < n) (rank : ℕ)
    (As : List (Matrix (Fin m) (Fin n) ℝ)) : ∀ {k l : ℕ} (U : Matrix (Fin m) (Fin k) ℝ)
    (S : Matrix (Fin k) (Fin l) ℝ) (V : Matrix (Fin l) (Fin n) ℝ) (A : Matrix (Fin m) (Fin n) ℝ), l ≤ rank →
    ∃ es, psiDynLoop la (⟨m, k, U⟩, ⟨k, l, S⟩, ⟨l, n, V⟩) ⟨m, n, A⟩ (As.map fun A => ⟨m, n, A⟩) = .ok es ∧
      List.Forall₂ (ErrorOk rank) As es ∧
      (V * V.transpose = 1 → U * S * V = A →
        List.IsChain (fun A A' => ∃ C, A' * A.transpose * C = A') (A :: As) → ∀ e ∈ es, e = 0) := by
  induction As with
  | nil =>
    intro k l U S V A hl
    exact ⟨[], rfl, List.Forall₂.nil, by simp⟩
  | cons B As ih =>
    intro k l U S V A hl
    obtain ⟨k1, l1, U1, S1, V1, hst, -, hV1, -, -, hl1⟩ :=
      C41_orthonormal la hqr U (.mat ⟨k, l, S⟩) S rfl V (B - A)
    obtain ⟨e, he, hok, hz⟩ := error_of_product hm hn rank (hl1.trans hl) B (U1 * (S1 * V1)) (U1 * S1) V1
      (Matrix.mul_assoc _ _ _).symm
    obtain ⟨es, hes, hall, hzero⟩ := ih U1 S1 V1 B (hl1.trans hl)
    refine ⟨e :: es, ?_, List.Forall₂.cons hok hall, ?_⟩
    · unfold psiDynLoop
      rw [List.map_cons]
      dsimp only
      rw [Mat.sub_mk, except_bind_ok, hst, except_bind_ok]
      dsimp only
      rw [Mat.dot_mk, except_bind_ok, Mat.dot_mk, except_bind_ok, he, except_bind_ok, hes, except_bind_ok]
      rfl
    · intro hV hA hch
      rw [List.isChain_cons_cons] at hch
      obtain ⟨⟨C, hC⟩, hch⟩ := hch
      have hsum : U * S * V + (B - A) = B := by rw [hA, add_sub_cancel]
      have hrec : U1 * S1 * V1 = B := by
        obtain ⟨k2, l2, U2, S2, V2, hst2, h2⟩ := C82_exact_recovery la hqr U (.mat ⟨k, l, S⟩) S rfl V hV (B - A)
          (S.transpose * U.transpose * C) (by
            rw [hsum]
            conv_rhs => rw [← hC]
            rw [← hA, Matrix.transpose_mul, Matrix.transpose_mul]
            simp only [Matrix.mul_assoc])
        rw [hst] at hst2
        cases hst2
        rw [h2, hsum]
      intro x hx
      rcases List.mem_cons.1 hx with rfl | hx
      · exact hz (by rw [← Matrix.mul_assoc, hrec])
      · exact hzero hV1 hrec hch x hx

/-- **C101, the records.** On a non-empty list of non-empty matrices of one shape the experiment completes
with one record per matrix, time stamps `0, 1, …` and the number of rows; every recorded error is
non-negative, and positive where the matrix has a larger rank than the factors. An empty list raises
`UnboundLocalError`. -/
theorem C101_records (la : LinAlg ℝ) (hqr : QrAlways la) (rng : Rng ℝ) (clock : ℕ → ℝ) {m n : ℕ} (hm : 0 < m)
    (hn : 0 < n) (A : Matrix (Fin m) (Fin n) ℝ) (As : List (Matrix (Fin m) (Fin n) ℝ)) (rank : ℕ) :
    (∃ res, getPsiDynamics la rng clock ((A :: As).map fun A => ⟨m, n, A⟩) rank = .ok res ∧
      res.size = m ∧ res.rank = rank ∧ res.steps = List.range (As.length + 1) ∧
      res.times = (List.range (As.length + 1)).map clock ∧ List.Forall₂ (ErrorOk rank) (A :: As) res.errs ∧
      (RsvdOk la rng A rank 1 2 → (∃ B, sketch rng A rank 1 2 * B = A) → A.rank ≤ rank →
        List.IsChain (fun A A' => ∃ C, A' * A.transpose * C = A') (A :: As) → ∀ e ∈ res.errs, e = 0)) ∧
    getPsiDynamics la rng clock [] rank = .error .unboundLocalError := by
  refine ⟨?_, rfl⟩
  obtain ⟨k, U, s, V, -, hk, he, -⟩ := C47_components la rng A rank 1 2
  have hkr : k ≤ rank := by omega
  obtain ⟨e, h1, h2, h3⟩ := error_of_product hm hn rank hkr A (U * diagonal s * V) (U * diagonal s) V rfl
  obtain ⟨es, h4, h5, h6⟩ := psiDynLoop_run la hqr hm hn rank As U (diagonal s) V A hkr
  have hlen : es.length = As.length := h5.length_eq.symm
  have hlast : ∀ (l : List (Matrix (Fin m) (Fin n) ℝ)) (h : (l.map fun A => (⟨m, n, A⟩ : Mat ℝ)) ≠ []),
      ((l.map fun A => (⟨m, n, A⟩ : Mat ℝ)).getLast h).rows = m := by
    intro l h
    obtain ⟨B, -, hB⟩ := List.mem_map.1 (List.getLast_mem h)
    rw [← hB]
  refine ⟨⟨(List.range (es.length + 1)).map clock, e :: es, _, rank, List.range (es.length + 1)⟩, ?_,
    hlast (A :: As) (by simp), rfl, by rw [hlen], by rw [hlen], List.Forall₂.cons h2 h5, ?_⟩
  · unfold getPsiDynamics svdStepExp
    dsimp only [List.map]
    rw [he, except_bind_ok]
    dsimp only
    rw [svd2mtx_mk, except_bind_ok, h1, except_bind_ok]
    unfold Mat.diag
    rw [h4, except_bind_ok]
    rfl
  · intro hok ⟨B, hB⟩ hrank hch x hx
    obtain ⟨k', U', s', V', he', hrec⟩ := C47_recovery la rng A rank 1 2 hok B hB hrank
    have horth := (C47_orthonormal la rng A rank 1 2 hok).2
    rw [he] at he' horth
    cases he'
    rcases List.mem_cons.1 hx with rfl | hx
    · exact h3 hrec
    · exact h6 horth hrec hch x hx

/-- **C101, the baseline.** `get_svd_dynamics` decomposes every matrix afresh: one record per matrix with
the same bounds; the error is zero for a matrix of rank at most `rank` whose range the sample captures.
The first recorded error is the one recorded by `get_psi_dynamics`. -/
theorem C101_baseline (la : LinAlg ℝ) (hqr : QrAlways la) (rng : Rng ℝ) (clock clock' : ℕ → ℝ) {m n : ℕ}
    (hm : 0 < m) (hn : 0 < n) (A : Matrix (Fin m) (Fin n) ℝ) (As : List (Matrix (Fin m) (Fin n) ℝ)) (rank : ℕ) :
    (∃ res res', getSvdDynamics la rng clock ((A :: As).map fun A => ⟨m, n, A⟩) rank = .ok res ∧
      getPsiDynamics la rng clock' ((A :: As).map fun A => ⟨m, n, A⟩) rank = .ok res' ∧
      res.size = m ∧ res.rank = rank ∧ res.steps = List.range (As.length + 1) ∧
      res.times = (List.range (As.length + 1)).map clock ∧
      List.Forall₂ (fun A e => ErrorOk rank A e ∧
        (RsvdOk la rng A rank 1 2 → (∃ B, sketch rng A rank 1 2 * B = A) → A.rank ≤ rank → e = 0))
        (A :: As) res.errs ∧
      res.errs.head? = res'.errs.head?) ∧
    getSvdDynamics la rng clock [] rank = .error .unboundLocalError := by
  refine ⟨?_, rfl⟩
  have hone : ∀ A : Matrix (Fin m) (Fin n) ℝ, ∃ e, (do
      let t ← svdStepExp la rng (.dense ⟨m, n, A⟩) rank 1 2
      let p ← svd2mtx t.1 t.2.1 t.2.2
      sqrtErrRelativeMtx p ⟨m, n, A⟩) = Except.ok e ∧ ErrorOk rank A e ∧
      (RsvdOk la rng A rank 1 2 → (∃ B, sketch rng A rank 1 2 * B = A) → A.rank ≤ rank → e = 0) := by
    intro A
    obtain ⟨k, U, s, V, -, hk, he, -⟩ := C47_components la rng A rank 1 2
    obtain ⟨e, h1, h2, h3⟩ := error_of_product hm hn rank (by omega : k ≤ rank) A (U * diagonal s * V)
      (U * diagonal s) V rfl
    refine ⟨e, ?_, h2, fun hok ⟨B, hB⟩ hrank => ?_⟩
    · unfold svdStepExp
      dsimp only
      rw [he, except_bind_ok]
      dsimp only
      rw [svd2mtx_mk, except_bind_ok, h1]
    · obtain ⟨k', U', s', V', he', hrec⟩ := C47_recovery la rng A rank 1 2 hok B hB hrank
      rw [he] at he'
      cases he'
      exact h3 hrec
  have hall : ∀ l : List (Matrix (Fin m) (Fin n) ℝ), ∃ es, (l.map fun A => (⟨m, n, A⟩ : Mat ℝ)).mapM (fun a => do
      let t ← svdStepExp la rng (.dense a) rank 1 2
      let p ← svd2mtx t.1 t.2.1 t.2.2
      sqrtErrRelativeMtx p a) = Except.ok es ∧ List.Forall₂ (fun A e => ErrorOk rank A e ∧
        (RsvdOk la rng A rank 1 2 → (∃ B, sketch rng A rank 1 2 * B = A) → A.rank ≤ rank → e = 0)) l es := by
    intro l
    induction l with
    | nil => exact ⟨[], rfl, List.Forall₂.nil⟩
    | cons A l ih =>
      obtain ⟨e, h1, h2⟩ := hone A
      obtain ⟨es, h3, h4⟩ := ih
      refine ⟨e :: es, ?_, List.Forall₂.cons h2 h4⟩
      rw [List.map_cons, List.mapM_cons, h1, except_bind_ok, h3, except_bind_ok]
      rfl
  obtain ⟨res', hres', -⟩ := (C101_records la hqr rng clock' hm hn A As rank).1
  obtain ⟨es, h1, h2⟩ := hall (A :: As)
  have hlen : es.length = As.length + 1 := h2.length_eq.symm
  obtain ⟨B, hB, hBm⟩ : ∃ B, ((A :: As).map fun A => (⟨m, n, A⟩ : Mat ℝ)).getLast? = some B ∧ B.rows = m := by
    refine ⟨_, List.getLast?_eq_getLast (by simp), ?_⟩
    obtain ⟨B, -, hB⟩ := List.mem_map.1 (List.getLast_mem
      (show ((A :: As).map fun A => (⟨m, n, A⟩ : Mat ℝ)) ≠ [] by simp))
    rw [← hB]
  refine ⟨⟨(List.range es.length).map clock, es, B.rows, rank, List.range es.length⟩, res', ?_, hres', hBm, rfl,
    by rw [hlen], by rw [hlen], h2, ?_⟩
  · unfold getSvdDynamics
    rw [h1, except_bind_ok, hB]
    rfl
  · -- both start with the same decomposition of the first matrix
    rw [List.map_cons, List.mapM_cons] at h1
    obtain ⟨e, he, h1⟩ := (bind_ok_iff _ _ _).1 h1
    obtain ⟨es', -, h1⟩ := (bind_ok_iff _ _ _).1 h1
    have h1 := Except.ok.inj h1
    subst h1
    unfold getPsiDynamics at hres'
    dsimp only [List.map] at hres'
    obtain ⟨t, ht, hres'⟩ := (bind_ok_iff _ _ _).1 hres'
    obtain ⟨p, hp, hres'⟩ := (bind_ok_iff _ _ _).1 hres'
    obtain ⟨e', he', hres'⟩ := (bind_ok_iff _ _ _).1 hres'
    obtain ⟨es2, -, hres'⟩ := (bind_ok_iff _ _ _).1 hres'
    have hres' := Except.ok.inj hres'
    subst hres'
    obtain ⟨t2, ht2, he⟩ := (bind_ok_iff _ _ _).1 he
    rw [ht] at ht2
    cases ht2
    obtain ⟨p2, hp2, he⟩ := (bind_ok_iff _ _ _).1 he
    rw [hp] at hp2
    cases hp2
    rw [he'] at he
    cases he
    rfl

/-- **C101, the whole comparison.** `compare_approximations` on the synthetic dynamics completes for every
number of steps `≥ 1` (and raises `UnboundLocalError` for none); both methods have one record per step and
start with the same error. -/
theorem C101_compare (la : LinAlg ℝ) (hqr : QrAlways la) (rng : Rng ℝ) (clock1 clock2 : ℕ → ℝ) (x : NumExp)
    {n : ℕ} (hn : x.size = n) (h0 : 0 < n) (A1 A2 T1 T2 : Matrix (Fin n) (Fin n) ℝ)
    (ha1 : x.a1 = ⟨_, _, A1⟩) (ha2 : x.a2 = ⟨_, _, A2⟩) (ht1 : x.t1 = ⟨_, _, T1⟩)
    (ht2 : x.t2 = ⟨_, _, T2⟩) (nSteps rank : ℕ) :
    (0 < nSteps → ∃ s p, compareApproximations la rng clock1 clock2 x nSteps rank = .ok (s, p) ∧
      s.errs.length = nSteps ∧ p.errs.length = nSteps ∧ s.errs.head? = p.errs.head? ∧
      s.steps = List.range nSteps ∧ p.steps = List.range nSteps) ∧
    compareApproximations la rng clock1 clock2 x 0 rank = .error .unboundLocalError := by
  constructor
  · intro hpos
    obtain ⟨k, rfl⟩ : ∃ k, nSteps = k + 1 := ⟨nSteps - 1, by omega⟩
    have hl := C100_dynamics x hn A1 A2 T1 T2 ha1 ha2 ht1 ht2 (k + 1)
    obtain ⟨l, hl', hlen⟩ : ∃ l : List (Matrix (Fin n) (Fin n) ℝ), getDynamicsList x (k + 1) =
        .ok (l.map fun A => ⟨n, n, A⟩) ∧ l.length = k + 1 := by
      refine ⟨(List.range (k + 1)).map fun (k : ℕ) => (1 + x.ss • T1) ^ k *
        (A1 + Real.exp (x.t0 + k * x.ss) • A2) * ((1 + x.ss • T2) ^ k).transpose, ?_, by simp⟩
      rw [hl, List.map_map]
      rfl
    cases l with
    | nil => simp at hlen
    | cons A As =>
      have hlen : As.length = k := by simpa using hlen
      obtain ⟨s, p, h1, h2, -, -, h3, -, h4, h5⟩ :=
        (C101_baseline la hqr rng clock1 clock2 h0 h0 A As rank).1
      obtain ⟨p', h6, -, -, h7, -, h8, -⟩ := (C101_records la hqr rng clock2 h0 h0 A As rank).1
      rw [h2] at h6
      cases h6
      refine ⟨s, p, ?_, ?_, ?_, h5, by rw [h3, hlen], by rw [h7, hlen]⟩
      · unfold compareApproximations
        rw [hl', except_bind_ok, h1, except_bind_ok, h2, except_bind_ok]
        rfl
      · rw [← h4.length_eq, List.length_cons, hlen]
      · rw [← h8.length_eq, List.length_cons, hlen]
  · rfl

-- an upper row of ones appears in a matrix with a single one: rank 1 is tracked without error
example : ∃ res, getPsiDynamics realLA (fun _ _ => Matrix.of fun _ _ => 1) (fun _ => 0)
      [⟨2, 2, !![1, 0; 0, 0]⟩, ⟨2, 2, !![1, 1; 0, 0]⟩] 1 = .ok res ∧ res.errs.length = 2 ∧
      ∀ e ∈ res.errs, e = 0 := by
  obtain ⟨res, h, -, -, -, -, h1, h2⟩ := (C101_records realLA qrAlways_real (fun _ _ => Matrix.of fun _ _ => 1) (fun _ => 0)
    (m := 2) (n := 2) (by norm_num) (by norm_num) !![1, 0; 0, 0] [!![1, 1; 0, 0]] 1).1
  refine ⟨res, h, by rw [← h1.length_eq]; rfl, h2 (rsvdOk_real _ _ _ _ _) ⟨!![1, 0; 0, 0; 0, 0], ?_⟩ ?_ ?_⟩
  · unfold sketch
    ext i j
    fin_cases i <;> fin_cases j <;>
      norm_num [Matrix.mul_apply, Fin.sum_univ_succ, pow_one, Matrix.vecMul, dotProduct]
  · have : (!![1, 0; 0, 0] : Matrix (Fin 2) (Fin 2) ℝ) =
        (!![1; 0] : Matrix (Fin 2) (Fin 1) ℝ) * (!![1, 0] : Matrix (Fin 1) (Fin 2) ℝ) := by
      ext i j
      fin_cases i <;> fin_cases j <;> norm_num [Matrix.mul_apply, Fin.sum_univ_succ]
    rw [this]
    refine (Matrix.rank_mul_le_left _ _).trans ((Matrix.rank_le_card_width _).trans ?_)
    simp
  · simp only [List.isChain_cons_cons, List.isChain_singleton, and_true]
    refine ⟨!![1, 1; 0, 0], ?_⟩
    ext i j
    fin_cases i <;> fin_cases j <;> norm_num [Matrix.mul_apply, Fin.sum_univ_succ, Matrix.vecMul, dotProduct]

end DynCF
