/-
Property theorem C50, C87 (appending slices to a Tucker model).
-/
import Verif.Lemmas.Kron
import Verif.Props.TuckerIntegrator
import Verif.Props.PsiEmbed

set_option linter.unusedSectionVars false

namespace DynCF
open Matrix
variable {K : Type}

section
variable [CommRing K]

theorem unf_surj {n0 n1 n2 : ℕ} (C : Matrix (Fin n0) (Fin (n2 * n1)) K) : ∃ c : T3 n0 n1 n2 K, unf c = C := by
  refine ⟨fun i j k => C i (finProdFinEquiv (k, j)), ?_⟩
  ext i p
  obtain ⟨⟨k, j⟩, rfl⟩ := finProdFinEquiv.surjective p
  simp only [unf, Matrix.of_apply, Equiv.symm_apply_apply]

theorem scaleRows_mk {r n : ℕ} (s : Fin r → K) (A : Matrix (Fin r) (Fin n) K) :
    Mat.scaleRows ⟨r, s⟩ ⟨r, n, A⟩ = .ok ⟨r, n, Matrix.diagonal s * A⟩ := by
  unfold Mat.scaleRows
  rw [dif_pos rfl]
  congr 2
  ext i j
  rw [Matrix.diagonal_mul]
  rfl

/-- **C87.** The matrix-free calculation (`explicit_calc=False`) is about the same matrix as the explicit one:
`kron_mv` multiplies by the transpose of `core_unf (lfᵀ ⊗ rfᵀ)` and `kron_rmv` by the matrix itself (so it is
the adjoint the solver needs). -/
theorem C87_linear_operator {r p q n m : ℕ} (core : Matrix (Fin r) (Fin (q * p)) K)
    (rf : Matrix (Fin n) (Fin p) K) (lf : Matrix (Fin m) (Fin q) K) (v : Fin r → K) (w : Fin (m * n) → K) :
    (∀ x, Mat.dot ⟨r, q * p, core⟩ (Mat.kron ⟨q, m, lf.transpose⟩ ⟨p, n, rf.transpose⟩) = .ok x →
      ∃ X : Matrix (Fin r) (Fin (m * n)) K, x = ⟨_, _, X⟩ ∧ kronMv core rf lf v = X.transpose.mulVec v ∧
        kronRmv core rf lf w = X.mulVec w) ∧
    kronMv core rf lf v ⬝ᵥ w = v ⬝ᵥ kronRmv core rf lf w := by
  refine ⟨fun x hx => ?_, ?_⟩
  · rw [Mat.kron_mk, Mat.dot_mk] at hx
    injection hx with hx
    exact ⟨_, hx.symm, kronMv_eq _ _ _ _, kronRmv_eq _ _ _ _⟩
  · rw [kronMv_eq, kronRmv_eq, Matrix.mulVec_transpose, Matrix.dotProduct_mulVec]

end

section
variable [Field K] [LinearOrder K] [IsStrictOrderedRing K]

/-- what the first SVD must deliver: the transpose of `x`, with orthonormal factors -/
structure TnvSvd {r N : ℕ} (x : Matrix (Fin r) (Fin N) K) (v : Matrix (Fin N) (Fin r) K) (s : Fin r → K)
    (u : Matrix (Fin r) (Fin r) K) : Prop where
  vv : v.transpose * v = 1
  uu : u.transpose * u = 1
  prod : v * Matrix.diagonal s * u.transpose = x.transpose

theorem tnvExplicit_run (la : LinAlg K) (rng : Rng K) {r M N : ℕ} (hr : r ≤ N) (C : Matrix (Fin r) (Fin M) K)
    (Z : Matrix (Fin M) (Fin N) K) (nPower os : ℕ) :
    ∃ (v : Matrix (Fin N) (Fin r) K) (s : Fin r → K) (u : Matrix (Fin r) (Fin r) K),
      tnvExplicit la rng ⟨r, M, C⟩ ⟨M, N, Z⟩ r nPower os = .ok (⟨N, r, v⟩, ⟨r, s⟩, ⟨r, r, u⟩) ∧
      ((∀ {a b : ℕ} (A : Matrix (Fin a) (Fin b) K), QrOk la A ∧ SvdOk la A) → Captures rng (C * Z).transpose r nPower os →
        TnvSvd (C * Z) v s u) := by
  obtain ⟨k, v, s, V, hk, hkk, he, -⟩ := C47_components la rng (C * Z).transpose r nPower os
  obtain rfl : k = r := by omega
  refine ⟨v, s, V.transpose, ?_, fun hla hcap => ?_⟩
  · unfold tnvExplicit
    rw [Mat.dot_mk]
    simp only [except_bind_ok, Mat.T_mk, he]
    rfl
  · obtain ⟨h1, h2⟩ := C47_orthonormal la rng (C * Z).transpose k nPower os ⟨(hla _).1, (hla _).2⟩
    rw [he] at h1 h2
    dsimp only at h1 h2
    obtain ⟨B, hB⟩ := hcap
    obtain ⟨k', v', s', V', he', hp⟩ := C47_recovery la rng (C * Z).transpose k nPower os
      ⟨(hla _).1, (hla _).2⟩ B hB ((Matrix.rank_le_width _).trans le_rfl)
    rw [he] at he'
    have hk' : k = k' := congrArg (fun x => x.2.1.len) he'
    subst hk'
    simp only [Prod.mk.injEq, Mat.mk.injEq, Vec.mk.injEq, heq_eq_eq, true_and] at he'
    obtain ⟨rfl, rfl, rfl⟩ := he'
    exact ⟨h1, by rwa [Matrix.transpose_transpose], by rwa [Matrix.transpose_transpose]⟩

theorem tnvImplicit_run (la : LinAlg K) {r p q n m : ℕ} (hpos : 0 < r) (hr : r ≤ m * n)
    (C : Matrix (Fin r) (Fin (q * p)) K) (rf : Matrix (Fin n) (Fin p) K) (lf : Matrix (Fin m) (Fin q) K) :
    ∃ (v : Matrix (Fin (m * n)) (Fin r) K) (s : Fin r → K) (u : Matrix (Fin r) (Fin r) K),
      tnvImplicit la ⟨r, q * p, C⟩ ⟨m, q, lf⟩ ⟨n, p, rf⟩ r = .ok (⟨m * n, r, v⟩, ⟨r, s⟩, ⟨r, r, u⟩) ∧
      (SvdsOk la r (kronOp C rf lf) → TnvSvd (C * kronM lf.transpose rf.transpose) v s u) := by
  refine ⟨Matrix.of fun i j => (la.svds r (kronOp C rf lf)).1 i (Fin.rev j),
    fun j => (la.svds r (kronOp C rf lf)).2.1 (Fin.rev j),
    Matrix.of fun i j => (la.svds r (kronOp C rf lf)).2.2 (Fin.rev j) i, ?_, ?_⟩
  · unfold tnvImplicit
    dsimp only
    rw [dif_pos rfl, if_pos (by omega)]
    rfl
  · rintro ⟨U, s, V, h, hA, hU, hV, hs0, hs1, h1, h2, h3⟩
    have hk : r = min (m * n) r := by omega
    have e1 : (Matrix.of fun i j => (la.svds r (kronOp C rf lf)).1 i (Fin.rev j)) =
        U.submatrix id (Fin.castLE h) := by
      ext i j; simp only [Matrix.of_apply, h1, Fin.rev_rev, Matrix.submatrix_apply, id]
    have e2 : (fun j => (la.svds r (kronOp C rf lf)).2.1 (Fin.rev j)) = fun j => s (Fin.castLE h j) := by
      funext j; simp only [h2, Fin.rev_rev]
    have e3 : (Matrix.of fun i j => (la.svds r (kronOp C rf lf)).2.2 (Fin.rev j) i) =
        (V.submatrix (Fin.castLE h) id).transpose := by
      ext i j; simp only [Matrix.of_apply, h3, Fin.rev_rev, Matrix.transpose_apply, Matrix.submatrix_apply, id]
    rw [e1, e2, e3, kronOp_eq] at *
    refine ⟨castLE_cols_orth U hU _ (Fin.castLE_injective h) _ fun _ _ => rfl, ?_, ?_⟩
    · exact castLE_cols_orth V.transpose (by rwa [Matrix.transpose_transpose]) _ (Fin.castLE_injective h) _
        fun _ _ => rfl
    · rw [Matrix.transpose_transpose, ← hA]
      ext i j
      rw [truncated_sum U s V h (fun i hi => absurd i.2 (by omega)) i j, Matrix.mul_apply]
      refine Finset.sum_congr rfl fun a _ => ?_
      rw [Matrix.mul_diagonal]
      rfl

/-- Appending: shapes. -/
theorem tnvAppend_shape (la : LinAlg K) (rng : Rng K) (hqr : QrAlways la) {n r M N nc : ℕ} (hr : r ≤ N)
    (hnc : nc ≤ N) (hpos : 0 < r + nc) (F : Matrix (Fin n) (Fin r) K) (v : Matrix (Fin N) (Fin r) K)
    (s : Fin r → K) (u : Matrix (Fin r) (Fin r) K) (New : Matrix (Fin nc) (Fin N) K)
    (Z : Matrix (Fin N) (Fin M) K) :
    ∃ (F' : Matrix (Fin (n + nc)) (Fin r) K) (C' : Matrix (Fin r) (Fin M) K),
      tnvAppend la rng ⟨n, r, F⟩ (⟨N, r, v⟩, ⟨r, s⟩, ⟨r, r, u⟩) ⟨nc, N, New⟩ ⟨M, N, Z.transpose⟩ =
        .ok (⟨n + nc, r, F'⟩, ⟨r, M, C'⟩) ∧
      ((∀ {a b : ℕ} (A : Matrix (Fin a) (Fin b) K), SvdOk la A) →
        ∀ x : Matrix (Fin r) (Fin N) K, TnvSvd x v s u →
        Captures rng (hblock (x.transpose * u) New.transpose) r 1 2 →
        (hblock x.transpose New.transpose).rank ≤ r →
        (∀ i, (F' * C') (Fin.castAdd nc i) = (F * x * Z) i) ∧
        ∀ i, (F' * C') (Fin.natAdd n i) = (New * Z) i) := by
  obtain ⟨p, k, P, D, W, d1, d2, d3, U2, V2, he, hrun, -, -, -, -, hk⟩ := C42_append la rng hqr v
    (.vec r s) (Matrix.diagonal s) rfl (F * u).transpose New.transpose hnc hpos 1 2
  obtain rfl := hk hr
  refine ⟨V2.transpose, Matrix.diagonal d2 * U2.transpose * Z, ?_, ?_⟩
  · unfold tnvAppend
    simp only [Mat.dot_mk, except_bind_ok, Mat.T_mk, hrun, scaleRows_mk, Matrix.transpose_transpose]
    rfl
  · intro hsvd x hx hcap hrank
    have hvs : v * Matrix.diagonal s = x.transpose * u := by
      rw [← hx.prod, Matrix.mul_assoc, hx.uu, Matrix.mul_one]
    obtain ⟨k', U2', s2', V2', hrun', hp⟩ := C42_recovery la rng hqr hsvd v (.vec k s) (Matrix.diagonal s) rfl
      (F * u).transpose New.transpose hnc hpos 1 2 hx.vv (by
        rw [hvs]
        have : hblock (x.transpose * u) New.transpose = hblock x.transpose New.transpose * blk u 0 0 1 := by
          rw [hblock_mul_blk]; simp
        rw [this]
        exact (Matrix.rank_mul_le_left _ _).trans hrank) (by rwa [hvs])
    rw [hrun] at hrun'
    injection hrun' with hrun'
    have hk' : k = k' := congrArg (fun x => x.2.1.len) hrun'
    subst hk'
    simp only [Prod.mk.injEq, Mat.mk.injEq, Vec.mk.injEq, heq_eq_eq, true_and] at hrun'
    obtain ⟨rfl, rfl, rfl⟩ := hrun'
    have hp' : V2.transpose * (Matrix.diagonal d2 * U2.transpose * Z) =
        (hblock (x.transpose * F.transpose) New.transpose).transpose * Z := by
      have e : v * Matrix.diagonal s * (F * u).transpose = x.transpose * F.transpose := by
        rw [Matrix.transpose_mul, ← Matrix.mul_assoc, hx.prod]
      rw [← e, ← hp, Matrix.transpose_mul, Matrix.transpose_mul, Matrix.diagonal_transpose]
      simp only [Matrix.mul_assoc]
    constructor
    · intro i
      rw [hp']
      funext j
      simp only [Matrix.mul_apply (M := (hblock (x.transpose * F.transpose) New.transpose).transpose),
        Matrix.transpose_apply, hblock_left]
      rw [Matrix.mul_apply]
      refine Finset.sum_congr rfl fun a _ => ?_
      rw [← Matrix.transpose_apply (x.transpose * F.transpose), Matrix.transpose_mul,
        Matrix.transpose_transpose, Matrix.transpose_transpose]
    · intro i
      rw [hp']
      funext j
      simp only [Matrix.mul_apply, Matrix.transpose_apply, hblock_right]

/-- all calls of the numerical routines meet their contracts -/
structure LaOk (la : LinAlg K) : Prop where
  qr : QrAlways la
  svd : ∀ {a b : ℕ} (A : Matrix (Fin a) (Fin b) K), SvdOk la A
  svds : ∀ {a b k : ℕ} (A : Matrix (Fin a) (Fin b) K), k ≤ min a b → SvdsOk la k A
  svdFull : ∀ {a b : ℕ} (A : Matrix (Fin a) (Fin b) K), SvdFullOk la A

/-- the sketches drawn during `update_tucker_new_vectors` capture what they sketch: the unfolded core times
the other factors, and the matrix to which the new vectors are appended -/
def TnvCaptures (la : LinAlg K) (rng : ℕ → Rng K) {r p q n m nc : ℕ} (C : Matrix (Fin r) (Fin (q * p)) K)
    (rf : Matrix (Fin n) (Fin p) K) (lf : Matrix (Fin m) (Fin q) K) (New : Matrix (Fin nc) (Fin (m * n)) K)
    (nPower os : ℕ) (ex : Bool) : Prop :=
  (ex = true → Captures (rng 0) (C * kronM lf.transpose rf.transpose).transpose r nPower os) ∧
  ∀ v s (u : Matrix (Fin r) (Fin r) K),
    tnvSvd la (rng 0) ⟨r, q * p, C⟩ ⟨m, q, lf⟩ ⟨n, p, rf⟩ r nPower os ex = .ok (v, s, ⟨r, r, u⟩) →
    Captures (rng 1) (hblock ((C * kronM lf.transpose rf.transpose).transpose * u) New.transpose) r 1 2

theorem tnvSvd_run (la : LinAlg K) (rng : Rng K) {r p q n m : ℕ} (hpos : 0 < r) (hr : r ≤ m * n) (c : T3 r p q K)
    (rf : Matrix (Fin n) (Fin p) K) (lf : Matrix (Fin m) (Fin q) K) (nPower os : ℕ) (ex : Bool) :
    ∃ (v : Matrix (Fin (m * n)) (Fin r) K) (s : Fin r → K) (u : Matrix (Fin r) (Fin r) K),
      tnvSvd la rng ⟨r, q * p, unf c⟩ ⟨m, q, lf⟩ ⟨n, p, rf⟩ r nPower os ex =
        .ok (⟨m * n, r, v⟩, ⟨r, s⟩, ⟨r, r, u⟩) ∧
      (LaOk la → (ex = true → Captures rng (unf c * kronM lf.transpose rf.transpose).transpose r nPower os) →
        TnvSvd (unf c * kronM lf.transpose rf.transpose) v s u) := by
  cases ex with
  | true =>
    obtain ⟨v, s, u, h, hx⟩ := tnvExplicit_run la rng hr (unf c) (kronM lf.transpose rf.transpose) nPower os
    exact ⟨v, s, u, h, fun hla hc => hx (fun A => ⟨hla.qr A, hla.svd A⟩) (hc rfl)⟩
  | false =>
    obtain ⟨v, s, u, h, hx⟩ := tnvImplicit_run la hpos hr (unf c) rf lf
    exact ⟨v, s, u, h, fun hla _ => hx (hla.svds _ (by omega))⟩

/-- One mode of `update_tucker_new_vectors`, on the unfolded core. -/
theorem tnv_mode (la : LinAlg K) (rng : ℕ → Rng K) (hqr : QrAlways la) {N r p q n m nc : ℕ} (hpos : 0 < r)
    (hr : r ≤ m * n) (hnc : nc ≤ m * n) (F : Matrix (Fin N) (Fin r) K) (c : T3 r p q K)
    (rf : Matrix (Fin n) (Fin p) K) (lf : Matrix (Fin m) (Fin q) K) (t : T3 nc n m K) (nPower os : ℕ) (ex : Bool) :
    ∃ (d : Mat K × Vec K × Mat K) (F' : Matrix (Fin (N + nc)) (Fin r) K) (c' : T3 r p q K),
      tnvSvd la (rng 0) ⟨r, q * p, unf c⟩ ⟨m, q, lf⟩ ⟨n, p, rf⟩ r nPower os ex = .ok d ∧
      tnvAppend la (rng 1) ⟨N, r, F⟩ d ⟨nc, m * n, unf t⟩ (Mat.kron (Mat.T ⟨m, q, lf⟩) (Mat.T ⟨n, p, rf⟩)) =
        .ok (⟨N + nc, r, F'⟩, ⟨r, q * p, unf c'⟩) ∧
      (LaOk la → TnvCaptures la rng (unf c) rf lf (unf t) nPower os ex →
        (hblock (unf c * kronM lf.transpose rf.transpose).transpose (unf t).transpose).rank ≤ r →
        rf.transpose * rf = 1 → lf.transpose * lf = 1 →
        (∀ i, mul0 F' c' (Fin.castAdd nc i) = mul0 F c i) ∧
        ∀ i, mul0 F' c' (Fin.natAdd N i) = mul1 rf.transpose (mul2 lf.transpose t) i) := by
  obtain ⟨v, s, u, h1, h2⟩ := tnvSvd_run la (rng 0) hpos hr c rf lf nPower os ex
  obtain ⟨F', C', h3, h4⟩ := tnvAppend_shape la (rng 1) hqr hr hnc (by omega) F v s u (unf t) (kronM lf rf)
  obtain ⟨c', rfl⟩ := unf_surj C'
  refine ⟨_, F', c', h1, h3, fun hla hcap hrank hrf hlf => ?_⟩
  have hx := h2 hla hcap.1
  obtain ⟨e1, e2⟩ := h4 hla.svd _ hx (hcap.2 _ _ _ h1) hrank
  have hZ : kronM lf.transpose rf.transpose * kronM lf rf = 1 := by rw [kronM_mul, hlf, hrf, kronM_one]
  have hrow : ∀ {a b : ℕ} (x : T3 a p q K) (y : T3 b p q K) (i : Fin a) (j : Fin b), unf x i = unf y j → x i = y j := by
    intro a b x y i j h
    funext j' k'
    have := congrFun h (finProdFinEquiv (k', j'))
    simpa only [unf, Matrix.of_apply, Equiv.symm_apply_apply] using this
  refine ⟨fun i => hrow _ _ _ _ ?_, fun i => hrow _ _ _ _ ?_⟩
  · rw [unf_mul0, e1, unf_mul0, Matrix.mul_assoc, Matrix.mul_assoc, hZ, Matrix.mul_one]
  · rw [unf_mul0, e2, unf_mul12, kronM_transpose, Matrix.transpose_transpose, Matrix.transpose_transpose]

theorem slice_congr {a b n1 n2 m1 m2 : ℕ} (V : Matrix (Fin m1) (Fin n1) K) (W : Matrix (Fin m2) (Fin n2) K)
    (x : T3 a n1 n2 K) (y : T3 b n1 n2 K) (i : Fin a) (j : Fin b) (h : x i = y j) :
    mul1 V (mul2 W x) i = mul1 V (mul2 W y) j := by
  funext p q
  simp only [mul1, mul2, h]

variable {n0 n1 n2 r0 r1 r2 nc : ℕ}

/-- **C50, mode 0.** Appending `nc` slices (the tensor `t`) along the user mode: the other factors and the
core's shape are unchanged and the user factor gains `nc` rows (for every numerical outcome). If moreover
the extended unfolding still has rank at most `r0` (nothing is truncated) and the sketches capture it, the old
part of the tensor is kept exactly and the new part is `t` projected on the columns of the other factors. -/
theorem C50_mode0 (la : LinAlg K) (rng : ℕ → Rng K) (hqr : QrAlways la) (hpos : 0 < r0)
    (hr : r0 ≤ n2 * n1) (hnc : nc ≤ n2 * n1) (U : Matrix (Fin n0) (Fin r0) K) (V : Matrix (Fin n1) (Fin r1) K)
    (W : Matrix (Fin n2) (Fin r2) K) (c : T3 r0 r1 r2 K) (t : T3 nc n1 n2 K) (nPower os : ℕ) (ex : Bool) :
    ∃ (U' : Matrix (Fin (n0 + nc)) (Fin r0) K) (c' : T3 r0 r1 r2 K),
      updateTuckerNewVectors la rng ⟨⟨_, _, U⟩, ⟨_, _, V⟩, ⟨_, _, W⟩⟩ ⟨_, _, _, c⟩ ⟨nc, n2 * n1, unf t⟩ 0
        nPower os ex = .ok (⟨⟨_, _, U'⟩, ⟨_, _, V⟩, ⟨_, _, W⟩⟩, ⟨_, _, _, c'⟩) ∧
      (LaOk la → TnvCaptures la rng (unf c) V W (unf t) nPower os ex →
        (hblock (unf (tuckerTensor (1 : Matrix (Fin r0) (Fin r0) K) V W c)).transpose (unf t).transpose).rank ≤ r0 →
        V.transpose * V = 1 → W.transpose * W = 1 →
        (∀ i j k, tuckerTensor U' V W c' (Fin.castAdd nc i) j k = tuckerTensor U V W c i j k) ∧
        ∀ i j k, tuckerTensor U' V W c' (Fin.natAdd n0 i) j k =
          tuckerTensor (1 : Matrix (Fin nc) (Fin nc) K) (V * V.transpose) (W * W.transpose) t i j k) := by
  obtain ⟨d, U', c', h1, h2, h3⟩ := tnv_mode la rng hqr hpos hr hnc U c V W t nPower os ex
  refine ⟨U', c', ?_, fun hla hcap hrank hV hW => ?_⟩
  · unfold updateTuckerNewVectors
    rw [show otherModes 0 = .ok (1, 2) from rfl, unfoldDense_0]
    simp only [except_bind_ok, Fac.at, Int.toNat_zero, Ten.shape,
      show shapeAt (r0, r1, r2) 0 = r0 from rfl, h1, h2, foldDense_0]
    rfl
  · rw [tuckerTensor_eq, mul0_one, unf_mul12, kronM_transpose] at hrank
    obtain ⟨h4, h5⟩ := h3 hla hcap hrank hV hW
    simp only [tuckerTensor_eq, mul0_one]
    simp only [mul02_comm, mul01_comm]
    refine ⟨fun i j k => ?_, fun i j k => ?_⟩
    · rw [slice_congr V W _ _ _ _ (h4 i)]
    · rw [slice_congr V W _ _ _ _ (h5 i), ← mul12_comm V.transpose, mul2_mul2, mul1_mul1]

/-- **C50, mode 1.** As `C50_mode0`, along the item mode (`t` has `nc` new items). -/
theorem C50_mode1 (la : LinAlg K) (rng : ℕ → Rng K) (hqr : QrAlways la) (hpos : 0 < r1)
    (hr : r1 ≤ n2 * n0) (hnc : nc ≤ n2 * n0) (U : Matrix (Fin n0) (Fin r0) K) (V : Matrix (Fin n1) (Fin r1) K)
    (W : Matrix (Fin n2) (Fin r2) K) (c : T3 r0 r1 r2 K) (t : T3 n0 nc n2 K) (nPower os : ℕ) (ex : Bool) :
    ∃ (V' : Matrix (Fin (n1 + nc)) (Fin r1) K) (c' : T3 r0 r1 r2 K),
      updateTuckerNewVectors la rng ⟨⟨_, _, U⟩, ⟨_, _, V⟩, ⟨_, _, W⟩⟩ ⟨_, _, _, c⟩ ⟨nc, n2 * n0, unf (front1 t)⟩ 1
        nPower os ex = .ok (⟨⟨_, _, U⟩, ⟨_, _, V'⟩, ⟨_, _, W⟩⟩, ⟨_, _, _, c'⟩) ∧
      (LaOk la → TnvCaptures la rng (unf (front1 c)) U W (unf (front1 t)) nPower os ex →
        (hblock (unf (front1 (tuckerTensor U (1 : Matrix (Fin r1) (Fin r1) K) W c))).transpose
          (unf (front1 t)).transpose).rank ≤ r1 →
        U.transpose * U = 1 → W.transpose * W = 1 →
        (∀ i j k, tuckerTensor U V' W c' i (Fin.castAdd nc j) k = tuckerTensor U V W c i j k) ∧
        ∀ i j k, tuckerTensor U V' W c' i (Fin.natAdd n1 j) k =
          tuckerTensor (U * U.transpose) (1 : Matrix (Fin nc) (Fin nc) K) (W * W.transpose) t i j k) := by
  obtain ⟨d, V', c', h1, h2, h3⟩ := tnv_mode la rng hqr hpos hr hnc V (front1 c) U W (front1 t) nPower os ex
  refine ⟨V', front1 c', ?_, fun hla hcap hrank hU hW => ?_⟩
  · have hf := foldDense_1 (front1 c')
    rw [show front1 (front1 c') = c' from rfl] at hf
    unfold updateTuckerNewVectors
    rw [show otherModes 1 = .ok (0, 2) from rfl, unfoldDense_1]
    simp only [except_bind_ok, Fac.at, Int.toNat_one, Ten.shape,
      show shapeAt (r0, r1, r2) 1 = r1 from rfl, h1, h2, hf]
    rfl
  · have e : ∀ {x : ℕ} (Y : Matrix (Fin x) (Fin r1) K) (c : T3 r0 r1 r2 K),
        front1 (tuckerTensor U Y W c) = mul1 U (mul2 W (mul0 Y (front1 c))) := by
      intro x Y c
      rw [tuckerTensor_eq, front1_mul0, front1_mul1, front1_mul2, mul02_comm]
    rw [e, mul0_one, unf_mul12, kronM_transpose] at hrank
    obtain ⟨h4, h5⟩ := h3 hla hcap hrank hU hW
    refine ⟨fun i j k => ?_, fun i j k => ?_⟩
    · have := congrFun (congrFun (slice_congr U W _ _ _ _ (h4 j)) i) k
      rw [← e] at this
      rw [show mul0 V' c' = mul0 V' (front1 (front1 c')) from rfl, ← e] at this
      exact this
    · have := congrFun (congrFun (slice_congr U W _ _ _ _ (h5 j)) i) k
      rw [show mul0 V' c' = mul0 V' (front1 (front1 c')) from rfl, ← e, ← mul12_comm U.transpose, mul2_mul2,
        mul1_mul1] at this
      rw [tuckerTensor_eq (U * U.transpose), mul1_one]
      exact this

/-- **C50, mode 2.** As `C50_mode0`, along the position mode. -/
theorem C50_mode2 (la : LinAlg K) (rng : ℕ → Rng K) (hqr : QrAlways la) (hpos : 0 < r2)
    (hr : r2 ≤ n1 * n0) (hnc : nc ≤ n1 * n0) (U : Matrix (Fin n0) (Fin r0) K) (V : Matrix (Fin n1) (Fin r1) K)
    (W : Matrix (Fin n2) (Fin r2) K) (c : T3 r0 r1 r2 K) (t : T3 n0 n1 nc K) (nPower os : ℕ) (ex : Bool) :
    ∃ (W' : Matrix (Fin (n2 + nc)) (Fin r2) K) (c' : T3 r0 r1 r2 K),
      updateTuckerNewVectors la rng ⟨⟨_, _, U⟩, ⟨_, _, V⟩, ⟨_, _, W⟩⟩ ⟨_, _, _, c⟩ ⟨nc, n1 * n0, unf (front2 t)⟩ 2
        nPower os ex = .ok (⟨⟨_, _, U⟩, ⟨_, _, V⟩, ⟨_, _, W'⟩⟩, ⟨_, _, _, c'⟩) ∧
      (LaOk la → TnvCaptures la rng (unf (front2 c)) U V (unf (front2 t)) nPower os ex →
        (hblock (unf (front2 (tuckerTensor U V (1 : Matrix (Fin r2) (Fin r2) K) c))).transpose
          (unf (front2 t)).transpose).rank ≤ r2 →
        U.transpose * U = 1 → V.transpose * V = 1 →
        (∀ i j k, tuckerTensor U V W' c' i j (Fin.castAdd nc k) = tuckerTensor U V W c i j k) ∧
        ∀ i j k, tuckerTensor U V W' c' i j (Fin.natAdd n2 k) =
          tuckerTensor (U * U.transpose) (V * V.transpose) (1 : Matrix (Fin nc) (Fin nc) K) t i j k) := by
  obtain ⟨d, W', c', h1, h2, h3⟩ := tnv_mode la rng hqr hpos hr hnc W (front2 c) U V (front2 t) nPower os ex
  refine ⟨W', fun i j k => c' k i j, ?_, fun hla hcap hrank hU hV => ?_⟩
  · have hf := foldDense_2 (fun i j k => c' k i j)
    rw [show front2 (fun i j k => c' k i j) = c' from rfl] at hf
    unfold updateTuckerNewVectors
    rw [show otherModes 2 = .ok (0, 1) from rfl, unfoldDense_2]
    simp only [except_bind_ok, Fac.at, Ten.shape, show (2 : ℤ).toNat = 2 from rfl,
      show shapeAt (r0, r1, r2) 2 = r2 from rfl, h1, h2, hf]
    rfl
  · have e : ∀ {x : ℕ} (Y : Matrix (Fin x) (Fin r2) K) (c : T3 r0 r1 r2 K),
        front2 (tuckerTensor U V Y c) = mul1 U (mul2 V (mul0 Y (front2 c))) := by
      intro x Y c
      rw [tuckerTensor_eq, front2_mul0, front2_mul1, front2_mul2]
    rw [e, mul0_one, unf_mul12, kronM_transpose] at hrank
    obtain ⟨h4, h5⟩ := h3 hla hcap hrank hU hV
    refine ⟨fun i j k => ?_, fun i j k => ?_⟩
    · have := congrFun (congrFun (slice_congr U V _ _ _ _ (h4 k)) i) j
      rw [← e] at this
      rw [show mul0 W' c' = mul0 W' (front2 (fun i j k => c' k i j)) from rfl, ← e] at this
      exact this
    · have := congrFun (congrFun (slice_congr U V _ _ _ _ (h5 k)) i) j
      rw [show mul0 W' c' = mul0 W' (front2 (fun i j k => c' k i j)) from rfl, ← e, ← mul12_comm U.transpose, mul2_mul2,
        mul1_mul1] at this
      rw [tuckerTensor_eq (U * U.transpose), mul2_one]
      exact this

/-- **C50, error branch.** More new users than entries in a slice cannot be appended: `ValueError`
(whenever the first SVD succeeds). -/
theorem C50_too_many (la : LinAlg K) (rng : ℕ → Rng K) (hpos : 0 < r0)
    (hr : r0 ≤ n2 * n1) (hnc : n2 * n1 < nc) (U : Matrix (Fin n0) (Fin r0) K) (V : Matrix (Fin n1) (Fin r1) K)
    (W : Matrix (Fin n2) (Fin r2) K) (c : T3 r0 r1 r2 K) (t : T3 nc n1 n2 K) (nPower os : ℕ) (ex : Bool) :
    updateTuckerNewVectors la rng ⟨⟨_, _, U⟩, ⟨_, _, V⟩, ⟨_, _, W⟩⟩ ⟨_, _, _, c⟩ ⟨nc, n2 * n1, unf t⟩ 0
      nPower os ex = .error .valueError := by
  obtain ⟨v, s, u, h1⟩ := tnvSvd_run la (rng 0) hpos hr c V W nPower os ex
  unfold updateTuckerNewVectors
  rw [show otherModes 0 = .ok (1, 2) from rfl, unfoldDense_0]
  simp only [except_bind_ok, Fac.at, Int.toNat_zero, Ten.shape,
    show shapeAt (r0, r1, r2) 0 = r0 from rfl, h1.1]
  unfold tnvAppend
  simp only [Mat.dot_mk, except_bind_ok, Mat.T_mk]
  rw [C42_too_many la (rng 1) v (.vec r0 s) (Matrix.diagonal s) rfl _ _ hnc]
  rfl

/-- C50, error branch for items. -/
theorem C50_too_many_items (la : LinAlg K) (rng : ℕ → Rng K) (hpos : 0 < r1)
    (hr : r1 ≤ n2 * n0) (hnc : n2 * n0 < nc) (U : Matrix (Fin n0) (Fin r0) K) (V : Matrix (Fin n1) (Fin r1) K)
    (W : Matrix (Fin n2) (Fin r2) K) (c : T3 r0 r1 r2 K) (t : T3 n0 nc n2 K) (nPower os : ℕ) (ex : Bool) :
    updateTuckerNewVectors la rng ⟨⟨_, _, U⟩, ⟨_, _, V⟩, ⟨_, _, W⟩⟩ ⟨_, _, _, c⟩ ⟨nc, n2 * n0, unf (front1 t)⟩ 1
      nPower os ex = .error .valueError := by
  obtain ⟨v, s, u, h1⟩ := tnvSvd_run la (rng 0) hpos hr (front1 c) U W nPower os ex
  unfold updateTuckerNewVectors
  rw [show otherModes 1 = .ok (0, 2) from rfl, unfoldDense_1]
  simp only [except_bind_ok, Fac.at, Int.toNat_one, Ten.shape,
    show shapeAt (r0, r1, r2) 1 = r1 from rfl, h1.1]
  unfold tnvAppend
  simp only [Mat.dot_mk, except_bind_ok, Mat.T_mk]
  rw [C42_too_many la (rng 1) v (.vec r1 s) (Matrix.diagonal s) rfl _ _ hnc]
  rfl

/-- C50, error branch for positions. -/
theorem C50_too_many_positions (la : LinAlg K) (rng : ℕ → Rng K) (hpos : 0 < r2)
    (hr : r2 ≤ n1 * n0) (hnc : n1 * n0 < nc) (U : Matrix (Fin n0) (Fin r0) K) (V : Matrix (Fin n1) (Fin r1) K)
    (W : Matrix (Fin n2) (Fin r2) K) (c : T3 r0 r1 r2 K) (t : T3 n0 n1 nc K) (nPower os : ℕ) (ex : Bool) :
    updateTuckerNewVectors la rng ⟨⟨_, _, U⟩, ⟨_, _, V⟩, ⟨_, _, W⟩⟩ ⟨_, _, _, c⟩ ⟨nc, n1 * n0, unf (front2 t)⟩ 2
      nPower os ex = .error .valueError := by
  obtain ⟨v, s, u, h1⟩ := tnvSvd_run la (rng 0) hpos hr (front2 c) U V nPower os ex
  unfold updateTuckerNewVectors
  rw [show otherModes 2 = .ok (0, 1) from rfl, unfoldDense_2]
  simp only [except_bind_ok, Fac.at, Int.reduceToNat, Ten.shape,
    show shapeAt (r0, r1, r2) 2 = r2 from rfl, h1.1]
  unfold tnvAppend
  simp only [Mat.dot_mk, except_bind_ok, Mat.T_mk]
  rw [C42_too_many la (rng 1) v (.vec r2 s) (Matrix.diagonal s) rfl _ _ hnc]
  rfl

end

/-- the routines that exist meet all contracts -/
theorem laOk_real : LaOk realLA :=
  ⟨qrAlways_real, fun A => realLA_svd A, fun A h => realLA_svds h A, fun A => realLA_svdFull A⟩

/-- the identity as random matrix captures every matrix with at most `rank + os` columns -/
theorem eyeRng_captures_power {p n : ℕ} (X : Matrix (Fin p) (Fin n) ℝ) (r nPower os : ℕ) (hn : n ≤ r + os) :
    Captures eyeRng X r nPower os := by
  obtain ⟨h1, h2, h3, -, -⟩ := realLA_svd X
  generalize (realLA.svd X).1 = U at *
  generalize (realLA.svd X).2.1 = s at *
  generalize (realLA.svd X).2.2 = V at *
  have hg : X.transpose * X = V.transpose * Matrix.diagonal (fun i => s i * s i) * V := by
    rw [← h1, Matrix.transpose_mul, Matrix.transpose_mul, Matrix.diagonal_transpose, Matrix.mul_assoc,
      Matrix.mul_assoc, ← Matrix.mul_assoc U.transpose, ← Matrix.mul_assoc U.transpose, h2, Matrix.one_mul,
      ← Matrix.mul_assoc (Matrix.diagonal s), Matrix.diagonal_mul_diagonal, Matrix.mul_assoc]
  have hpow : ∀ k, X * (X.transpose * X) ^ k = U * Matrix.diagonal (fun i => s i * (s i * s i) ^ k) * V := by
    intro k
    induction k with
    | zero => simp [h1]
    | succ k ih =>
      rw [pow_succ, ← Matrix.mul_assoc, ih, hg, Matrix.mul_assoc _ V, ← Matrix.mul_assoc V, ← Matrix.mul_assoc V, h3,
        Matrix.one_mul, Matrix.mul_assoc U, ← Matrix.mul_assoc _ _ V, Matrix.diagonal_mul_diagonal,
        ← Matrix.mul_assoc]
      simp only [pow_succ, mul_assoc]
  have he : eyeRng n (r + os) * (eyeRng n (r + os)).transpose = 1 := by
    ext i j
    rw [Matrix.mul_apply, Finset.sum_eq_single ⟨(i : ℕ), by omega⟩]
    · simp [eyeRng, Matrix.one_apply, Fin.ext_iff, eq_comm]
    · intro b _ hb
      have : ¬ ((i : ℕ) = (b : ℕ)) := fun h => hb (Fin.ext h.symm)
      simp [eyeRng, this]
    · simp
  refine ⟨(eyeRng n (r + os)).transpose *
    (V.transpose * Matrix.diagonal (fun i => ((s i * s i) ^ nPower)⁻¹) * V), ?_⟩
  rw [sketch_gram, ← Matrix.mul_assoc X, hpow, Matrix.mul_assoc, ← Matrix.mul_assoc (eyeRng _ _), he, Matrix.one_mul,
    Matrix.mul_assoc _ V, ← Matrix.mul_assoc V, ← Matrix.mul_assoc V, h3, Matrix.one_mul, Matrix.mul_assoc U,
    ← Matrix.mul_assoc _ _ V, Matrix.diagonal_mul_diagonal, ← Matrix.mul_assoc, ← h1]
  congr 3
  funext i
  rcases eq_or_ne (s i) 0 with h | h
  · simp [h]
  · have : (s i * s i) ^ nPower ≠ 0 := pow_ne_zero _ (mul_ne_zero h h)
    rw [mul_assoc, mul_inv_cancel₀ this, mul_one]

/-- One user with the slice `(2, 0)` (two items, one position); a second user with the slice `(3, 0)` is appended,
with both ways of calculating. -/
example (ex : Bool) : ∃ (U' : Matrix (Fin (1 + 1)) (Fin 1) ℝ) (c' : T3 1 1 1 ℝ),
    updateTuckerNewVectors realLA (fun _ => eyeRng) ⟨⟨1, 1, !![1]⟩, ⟨2, 1, !![1; 0]⟩, ⟨1, 1, !![1]⟩⟩
      ⟨1, 1, 1, fun _ _ _ => 2⟩ ⟨1, 1 * 2, unf fun (_ : Fin 1) (j : Fin 2) (_ : Fin 1) => if j = 0 then 3 else 0⟩ 0 1 2 ex =
      .ok (⟨⟨_, _, U'⟩, ⟨2, 1, !![1; 0]⟩, ⟨1, 1, !![1]⟩⟩, ⟨_, _, _, c'⟩) ∧
    tuckerTensor U' (!![1; 0] : Matrix (Fin 2) (Fin 1) ℝ) (!![1] : Matrix (Fin 1) (Fin 1) ℝ) c' 0 0 0 = 2 ∧
    tuckerTensor U' (!![1; 0] : Matrix (Fin 2) (Fin 1) ℝ) (!![1] : Matrix (Fin 1) (Fin 1) ℝ) c' 1 0 0 = 3 ∧
    tuckerTensor U' (!![1; 0] : Matrix (Fin 2) (Fin 1) ℝ) (!![1] : Matrix (Fin 1) (Fin 1) ℝ) c' 1 1 0 = 0 := by
  obtain ⟨U', c', h1, h2⟩ := C50_mode0 realLA (fun _ => eyeRng) qrAlways_real (n0 := 1) (n1 := 2) (n2 := 1) (r0 := 1)
    (r1 := 1) (r2 := 1) (nc := 1) (by omega) (by omega) (by omega) (!![1] : Matrix (Fin 1) (Fin 1) ℝ)
    (!![1; 0] : Matrix (Fin 2) (Fin 1) ℝ) (!![1] : Matrix (Fin 1) (Fin 1) ℝ)
    (fun _ _ _ => 2) (fun (_ : Fin 1) (j : Fin 2) (_ : Fin 1) => if j = 0 then 3 else 0) 1 2 ex
  obtain ⟨h3, h4⟩ := h2 laOk_real ⟨fun _ => eyeRng_captures_power _ 1 1 2 (by omega), fun _ _ _ _ =>
    eyeRng_captures_power _ 1 1 2 (by omega)⟩ (by
      have : (hblock (unf (tuckerTensor (1 : Matrix (Fin 1) (Fin 1) ℝ) (!![1; 0] : Matrix (Fin 2) (Fin 1) ℝ)
          (!![1] : Matrix (Fin 1) (Fin 1) ℝ) (fun _ _ _ => 2))).transpose
          (unf (fun (_ : Fin 1) (j : Fin 2) (_ : Fin 1) => if j = 0 then (3 : ℝ) else 0)).transpose) =
          (!![1; 0] : Matrix (Fin 2) (Fin 1) ℝ) * (!![2, 3] : Matrix (Fin 1) (Fin 2) ℝ) := by
        ext i j
        fin_cases i <;> fin_cases j <;>
          simp [hblock, unf, tuckerTensor, Matrix.mul_apply, finProdFinEquiv, Fin.divNat, Fin.modNat, Fin.addCases]
        rfl
      rw [this]
      exact (Matrix.rank_mul_le_left _ _).trans (Matrix.rank_le_width _))
    (by ext i j; fin_cases i; fin_cases j; simp [Matrix.mul_apply])
    (by ext i j; fin_cases i; fin_cases j; simp [Matrix.mul_apply])
  refine ⟨U', c', h1, ?_, ?_, ?_⟩
  · rw [show (0 : Fin (1 + 1)) = Fin.castAdd 1 (0 : Fin 1) from rfl, h3]
    simp [tuckerTensor]
  · rw [show (1 : Fin (1 + 1)) = Fin.natAdd 1 (0 : Fin 1) from rfl, h4]
    simp [tuckerTensor, Matrix.mul_apply]
  · rw [show (1 : Fin (1 + 1)) = Fin.natAdd 1 (0 : Fin 1) from rfl, h4]
    simp [tuckerTensor, Matrix.mul_apply]

end DynCF
