/-
Property theorems C110 (the sparse HOSVD is within a factor 3 of the best Tucker approximation) and C111 (the
norm of the core measures the error of GA-SATF and of the projector-splitting integrator).
-/
import Verif.Lemmas.TensorNorm
import Verif.Props.Hosvd
import Verif.Props.Hooi2
import Verif.Props.TuckerIntegrator

set_option linter.unusedSectionVars false

namespace DynCF
open Matrix
variable {n0 n1 n2 r0 r1 r2 : ℕ}

/-- one factor of the sparse HOSVD: no product of an `n × r` and an `r × N` matrix is closer to the unfolding
than its projection on the columns of the factor -/
theorem svdsLeft_best (la : LinAlg ℝ) {n N r : ℕ} (hr : 1 ≤ r) (hn : r < n) (hN : r < N)
    (X : Matrix (Fin n) (Fin N) ℝ) :
    ∃ F : Matrix (Fin n) (Fin r) ℝ, svdsLeft la ⟨n, N, X⟩ r = .ok ⟨n, r, F⟩ ∧
      (LaOk la → F.transpose * F = 1 ∧ ∀ (A : Matrix (Fin n) (Fin r) ℝ) (B : Matrix (Fin r) (Fin N) ℝ),
        sqSum (X - F * (F.transpose * X)) ≤ sqSum (X - A * B)) := by
  refine ⟨Matrix.of fun i j => (la.svds r X).1 i (Fin.rev j), ?_, fun hla => ?_⟩
  · unfold svdsLeft
    rw [if_pos ⟨hr, by dsimp only; omega⟩]
    rfl
  · obtain ⟨U, s, V, hk, hA, hU, hV, hs, hanti, hu, -, -⟩ := hla.svds (k := r) X (by omega)
    have hF : ∀ i j, (Matrix.of fun i j => (la.svds r X).1 i (Fin.rev j) : Matrix (Fin n) (Fin r) ℝ) i j =
        U i (Fin.castLE hk j) := by
      intro i j
      rw [Matrix.of_apply, hu, Fin.rev_rev]
    generalize (Matrix.of fun i j => (la.svds r X).1 i (Fin.rev j) : Matrix (Fin n) (Fin r) ℝ) = F at hF ⊢
    have hFF := castLE_cols_orth U hU (Fin.castLE hk) (Fin.castLE_injective _) F hF
    refine ⟨hFF, fun A B => ?_⟩
    refine le_trans ?_ (best_approximation X F (fun k => s (Fin.castLE hk k))
      (Matrix.of fun k j => V (Fin.castLE hk k) j)
      ⟨U, s, V, hk, hA, hU, hV, hs, hanti, hF, fun _ => rfl, fun _ _ => rfl⟩ A B)
    rw [Matrix.mul_assoc, sqSum_proj hFF, sqSum_proj hFF, sub_self]
    have h0 : sqSum (0 : Matrix (Fin r) (Fin N) ℝ) = 0 := by simp [sqSum]
    have := sqSum_nonneg (F.transpose * X - diagonal (fun k => s (Fin.castLE hk k)) *
      Matrix.of fun k j => V (Fin.castLE hk k) j)
    linarith

/-- **C110** (sparse HOSVD, quasi-optimality). With a correct truncated SVD the Tucker approximation returned by
`hosvd` has a squared error of at most three times the squared error of *every* Tucker tensor of the same
ranks, whatever its factors and core. -/
theorem C110_hosvd_quasi_optimal (la : LinAlg ℝ) (hla : LaOk la) (es : List (Ent n0 n1 n2 ℝ))
    (hv : r0 ≤ r1 * r2 ∧ r1 ≤ r0 * r2 ∧ r2 ≤ r0 * r1) (hp : 1 ≤ r0 ∧ 1 ≤ r1 ∧ 1 ≤ r2)
    (h0 : r0 < n0 ∧ r0 < n2 * n1) (h1 : r1 < n1 ∧ r1 < n2 * n0) (h2 : r2 < n2 ∧ r2 < n1 * n0) (par : Bool) :
    ∃ (F0 : Matrix (Fin n0) (Fin r0) ℝ) (F1 : Matrix (Fin n1) (Fin r1) ℝ) (F2 : Matrix (Fin n2) (Fin r2) ℝ)
      (c : T3 r0 r1 r2 ℝ),
      hosvd la (indsOf es) (valsOf es) (n0, n1, n2) (r0, r1, r2) par =
        .ok (⟨⟨_, _, F0⟩, ⟨_, _, F1⟩, ⟨_, _, F2⟩⟩, ⟨_, _, _, c⟩) ∧
      ∀ (A0 : Matrix (Fin n0) (Fin r0) ℝ) (A1 : Matrix (Fin n1) (Fin r1) ℝ) (A2 : Matrix (Fin n2) (Fin r2) ℝ)
        (g : T3 r0 r1 r2 ℝ),
        (∑ i, ∑ j, ∑ k, (cooTensor es i j k - tuckerTensor F0 F1 F2 c i j k) ^ 2) ≤
          3 * ∑ i, ∑ j, ∑ k, (cooTensor es i j k - tuckerTensor A0 A1 A2 g i j k) ^ 2 := by
  obtain ⟨F0, e0, p0⟩ := svdsLeft_best la hp.1 h0.1 h0.2 (unf (cooTensor es))
  obtain ⟨F1, e1, p1⟩ := svdsLeft_best la hp.2.1 h1.1 h1.2 (unf (front1 (cooTensor es)))
  obtain ⟨F2, e2, p2⟩ := svdsLeft_best la hp.2.2 h2.1 h2.2 (unf (front2 (cooTensor es)))
  obtain ⟨o0, b0⟩ := p0 hla
  obtain ⟨o1, b1⟩ := p1 hla
  obtain ⟨o2, b2⟩ := p2 hla
  refine ⟨F0, F1, F2, coreTensor (cooTensor es) F0 F1 F2, ?_, fun A0 A1 A2 g => ?_⟩
  · unfold hosvd hosvdMode
    rw [(checkParams_ok_iff _ (r0, r1, r2)).2 hv, ind3_vec]
    simp only [except_bind_ok, Nat.cast_zero, Nat.cast_one, Nat.cast_ofNat,
      C53_sparse_unfold es 0 (Or.inl rfl), C53_sparse_unfold es 1 (Or.inr (Or.inl rfl)),
      C53_sparse_unfold es 2 (Or.inr (Or.inr rfl)), unfoldDense_0, unfoldDense_1, unfoldDense_2,
      show shapeAt (r0, r1, r2) 0 = r0 from rfl, show shapeAt (r0, r1, r2) 1 = r1 from rfl,
      show shapeAt (r0, r1, r2) 2 = r2 from rfl, e0, e1, e2, coreFunction_typed]
    rfl
  · generalize cooTensor es = x at *
    have k0 : tenSq (x - mul0 F0 (mul0 F0.transpose x)) ≤ tenSq (x - tuckerTensor A0 A1 A2 g) := by
      have := b0 A0 (unf (mul1 A1 (mul2 A2 g)))
      rw [tenSq_unf, tenSq_unf, tuckerTensor_eq]
      rw [← unf_mul0, ← unf_mul0, ← unf_mul0] at this
      exact this
    have k1 : tenSq (x - mul1 F1 (mul1 F1.transpose x)) ≤ tenSq (x - tuckerTensor A0 A1 A2 g) := by
      have := b1 A1 (unf (front1 (mul0 A0 (mul2 A2 g))))
      rw [← tenSq_front1, ← tenSq_front1 (x - tuckerTensor _ _ _ _), tenSq_unf, tenSq_unf, tuckerTensor_eq,
        mul01_comm]
      rw [← unf_mul0, ← unf_mul0, ← unf_mul0] at this
      exact this
    have k2 : tenSq (x - mul2 F2 (mul2 F2.transpose x)) ≤ tenSq (x - tuckerTensor A0 A1 A2 g) := by
      have := b2 A2 (unf (front2 (mul0 A0 (mul1 A1 g))))
      rw [← tenSq_front2, ← tenSq_front2 (x - tuckerTensor _ _ _ _), tenSq_unf, tenSq_unf, tuckerTensor_eq,
        mul12_comm, mul02_comm]
      rw [← unf_mul0, ← unf_mul0, ← unf_mul0] at this
      exact this
    have := tenSq_three x o0 o1 o2
    have e : tenSq (x - tuckerTensor F0 F1 F2 (coreTensor x F0 F1 F2)) ≤ 3 * tenSq (x - tuckerTensor A0 A1 A2 g) := by
      linarith
    exact e

/-- The tensor with two entries 3 and 1 on the diagonal has no exact approximation of rank (1, 1, 1); the one
found by the HOSVD has a squared error of at most 3 (keeping the larger entry alone would leave 1). -/
example : ∃ (F0 F1 F2 : Matrix (Fin 3) (Fin 1) ℝ) (c : T3 1 1 1 ℝ),
    hosvd realLA [(0, 0, 0), (1, 1, 1)] [3, 1] (3, 3, 3) (1, 1, 1) true =
      .ok (⟨⟨_, _, F0⟩, ⟨_, _, F1⟩, ⟨_, _, F2⟩⟩, ⟨_, _, _, c⟩) ∧
    (∑ i, ∑ j, ∑ k, (cooTensor [((0, 0, 0), 3), ((1, 1, 1), 1)] i j k - tuckerTensor F0 F1 F2 c i j k) ^ 2) ≤ 3 := by
  obtain ⟨F0, F1, F2, c, h1, h2⟩ := C110_hosvd_quasi_optimal realLA laOk_real
    ([((0, 0, 0), 3), ((1, 1, 1), 1)] : List (Ent 3 3 3 ℝ)) (r0 := 1) (r1 := 1) (r2 := 1)
    ⟨by omega, by omega, by omega⟩
    ⟨le_rfl, le_rfl, le_rfl⟩ ⟨by omega, by omega⟩ ⟨by omega, by omega⟩ ⟨by omega, by omega⟩ true
  refine ⟨F0, F1, F2, c, h1, ?_⟩
  refine (h2 !![1; 0; 0] !![1; 0; 0] !![1; 0; 0] fun _ _ _ => 3).trans (le_of_eq ?_)
  simp [Fin.sum_univ_succ, cooTensor, tuckerTensor]

/-- the tensor that GA-SATF approximates: the data with the attention matrix applied to its last mode -/
def attended (A : Matrix (Fin n2) (Fin n2) ℝ) (x : T3 n0 n1 n2 ℝ) : T3 n0 n1 n2 ℝ :=
  fun i j k => ∑ l, A l k * x i j l

theorem coreTensor_attended (A : Matrix (Fin n2) (Fin n2) ℝ) (x : T3 n0 n1 n2 ℝ)
    (U : Matrix (Fin n0) (Fin r0) ℝ) (V : Matrix (Fin n1) (Fin r1) ℝ) (W : Matrix (Fin n2) (Fin r2) ℝ) :
    coreTensor x U V (A * W) = coreTensor (attended A x) U V W := by
  rw [coreTensor_eq, coreTensor_eq, Matrix.transpose_mul, ← mul2_mul2]
  rfl

/-- **C111** (GA-SATF). With correct QR and SVD routines, the core returned by `ga_satf` (at least one sweep)
measures the error of the returned decomposition: the squared distance of the attended data to the
reconstruction is the squared norm of the attended data minus the squared norm of the core; so the core is never
larger than the data, and among two returned decompositions the one with the larger core is the closer one. No
other core would be closer. -/
theorem C111_ga_satf {τ : Type} (p : HooiPar ℝ)
    (hqr : ∀ (m n : ℕ) (A : Matrix (Fin m) (Fin n) ℝ), QrOk p.la A)
    (hsvd : ∀ (m n : ℕ) (A : Matrix (Fin m) (Fin n) ℝ), SvdOk p.la A)
    (normOf : Ten ℝ → ℝ) (es : List (Ent n0 n1 n2 ℝ)) (A : Matrix (Fin n2) (Fin n2) ℝ) (nIter : ℕ)
    (hn : 1 ≤ nIter) (tol : ℝ) (cb : Option (ExitCallback ℝ τ)) (cb0 : τ) (init : Option (Fac ℝ)) (force : Bool)
    (f : Fac ℝ) (g : Option (Ten ℝ)) (cbEnd : τ)
    (h : gaSatf p normOf (indsOf es) (valsOf es) (n0, n1, n2) ⟨n2, n2, A⟩ nIter tol cb cb0 init force =
      .ok ((f, g), cbEnd)) :
    ∃ (r0 r1 r2 : ℕ) (U : Matrix (Fin n0) (Fin r0) ℝ) (V : Matrix (Fin n1) (Fin r1) ℝ)
      (W : Matrix (Fin n2) (Fin r2) ℝ) (c : T3 r0 r1 r2 ℝ),
      f = ⟨⟨_, _, U⟩, ⟨_, _, V⟩, ⟨_, _, W⟩⟩ ∧ g = some ⟨r0, r1, r2, c⟩ ∧
      (∑ i, ∑ j, ∑ k, ((∑ l, A l k * cooTensor es i j l) - tuckerTensor U V W c i j k) ^ 2) =
        (∑ i, ∑ j, ∑ k, (∑ l, A l k * cooTensor es i j l) ^ 2) - ∑ a, ∑ b, ∑ d, c a b d ^ 2 ∧
      ∀ c' : T3 r0 r1 r2 ℝ,
        (∑ i, ∑ j, ∑ k, ((∑ l, A l k * cooTensor es i j l) - tuckerTensor U V W c i j k) ^ 2) ≤
          ∑ i, ∑ j, ∑ k, ((∑ l, A l k * cooTensor es i j l) - tuckerTensor U V W c' i j k) ^ 2 := by
  obtain ⟨r0, r1, r2, U, V, W, hf, hg⟩ := C78_ga_satf_core p normOf es A nIter hn tol cb cb0 init force f g cbEnd h
  obtain ⟨oU, oV, oW⟩ := C80_ga_satf_orthonormal p hqr hsvd normOf _ _ _ _ nIter tol cb cb0 init (Or.inr hn) force f
    g cbEnd h
  subst hf
  rw [coreTensor_attended] at hg
  have e := tenSq_tucker_core (attended A (cooTensor es)) (U := U) (V := V) (W := W) oU oV oW
  refine ⟨r0, r1, r2, U, V, W, _, rfl, hg, e, fun c' => ?_⟩
  have e' := tenSq_tucker (attended A (cooTensor es)) (U := U) (V := V) (W := W) oU oV oW c'
  have := tenSq_nonneg (coreTensor (attended A (cooTensor es)) U V W - c')
  have : tenSq (attended A (cooTensor es) - tuckerTensor U V W (coreTensor (attended A (cooTensor es)) U V W)) ≤
      tenSq (attended A (cooTensor es) - tuckerTensor U V W c') := by linarith
  exact this

/-- A run of GA-SATF on a 3 × 2 × 2 tensor with entries 5 and 1 and a non-trivial attention matrix: it succeeds,
and its core is at most as large as the attended data. -/
example : ∃ (f : Fac ℝ) (r0 r1 r2 : ℕ) (c : T3 r0 r1 r2 ℝ) (t : Unit),
    gaSatf (τ := Unit) exParR (fun _ => 1) (indsOf exEsR) (valsOf exEsR) (3, 2, 2)
      ⟨2, 2, Matrix.of ![![1, 0], ![3, 1]]⟩ 4 (1 / 10) none () none false = .ok ((f, some ⟨r0, r1, r2, c⟩), t) ∧
    ∑ a, ∑ b, ∑ d, c a b d ^ 2 ≤ 35 := by
  obtain ⟨f, g, t, h, -⟩ := C81_success (τ := Unit) exParR (fun _ => 1) exEsR
    (Matrix.of ![![1, 0], ![3, 1]]) 4 (1 / 10) none () false (fun c hc => by cases hc)
    (by decide) (by decide)
  obtain ⟨r0, r1, r2, U, V, W, c, -, hg, h1, -⟩ := C111_ga_satf exParR (fun _ _ => realLA_qr)
    (fun _ _ => realLA_svd) (fun _ => 1) exEsR (Matrix.of ![![1, 0], ![3, 1]]) 4 (by omega) (1 / 10) none () none
    false f g t h
  subst hg
  refine ⟨f, r0, r1, r2, c, t, h, ?_⟩
  have h2 := tenSq_nonneg (attended (Matrix.of ![![1, 0], ![3, 1]]) (cooTensor exEsR) - tuckerTensor U V W c)
  have h3 : (∑ i : Fin 3, ∑ j : Fin 2, ∑ k : Fin 2,
      (∑ l, (Matrix.of ![![1, 0], ![3, 1]] : Matrix (Fin 2) (Fin 2) ℝ) l k * cooTensor exEsR i j l) ^ 2) = 35 := by
    simp [Fin.sum_univ_succ, cooTensor, exEsR]
    norm_num
  unfold tenSq at h2
  rw [show (∑ i, ∑ j, ∑ k, (attended (Matrix.of ![![1, 0], ![3, 1]]) (cooTensor exEsR) - tuckerTensor U V W c) i j k ^ 2)
    = _ from h1, h3] at h2
  linarith

/-- **C111** (projector-splitting integrator). With a correct QR routine, the squared distance between the updated
model and (previous model + attended increment) is the squared norm of that sum minus the squared norm of
the new core. -/
theorem C111_integrator (la : LinAlg ℝ) (hqr : QrAlways la) (es : List (Ent n0 n1 n2 ℝ))
    (hes : es ≠ []) (att : Option (Matrix (Fin n2) (Fin n2) ℝ)) (hd : TIDims n0 n1 n2 r0 r1 r2)
    (U : Matrix (Fin n0) (Fin r0) ℝ) (V : Matrix (Fin n1) (Fin r1) ℝ) (W : Matrix (Fin n2) (Fin r2) ℝ)
    (c : T3 r0 r1 r2 ℝ) (par : Bool) :
    ∃ (U1 : Matrix (Fin n0) (Fin r0) ℝ) (V1 : Matrix (Fin n1) (Fin r1) ℝ) (W1 : Matrix (Fin n2) (Fin r2) ℝ)
      (c1 : T3 r0 r1 r2 ℝ),
      tuckerIntegrator la ⟨⟨_, _, U⟩, ⟨_, _, V⟩, ⟨_, _, W⟩⟩ ⟨_, _, _, c⟩ (indsOf es) (valsOf es)
        (n0, n1, n2) par (attArg att) = .ok (⟨⟨_, _, U1⟩, ⟨_, _, V1⟩, ⟨_, _, W1⟩⟩, ⟨r0, r1, r2, c1⟩) ∧
      (∑ i, ∑ j, ∑ k, (tuckerTensor U V W c i j k + (∑ l, attVal att l k * cooTensor es i j l) -
          tuckerTensor U1 V1 W1 c1 i j k) ^ 2) =
        (∑ i, ∑ j, ∑ k, (tuckerTensor U V W c i j k + ∑ l, attVal att l k * cooTensor es i j l) ^ 2) -
          ∑ a, ∑ b, ∑ d, c1 a b d ^ 2 := by
  obtain ⟨U1, V1, W1, h, o0, o1, o2⟩ := C85_projection la hqr es hes att hd U V W c par
  exact ⟨U1, V1, W1, _, h, tenSq_tucker_core _ o0 o1 o2⟩

/-- One step of the integrator on a 2 × 3 × 2 model of rank (1, 2, 2) with a damped increment. -/
example : ∃ (U1 : Matrix (Fin 2) (Fin 1) ℝ) (V1 : Matrix (Fin 3) (Fin 2) ℝ) (W1 : Matrix (Fin 2) (Fin 2) ℝ)
    (c1 : T3 1 2 2 ℝ),
    tuckerIntegrator realLA ⟨⟨2, 1, !![1; 0]⟩, ⟨3, 2, !![1, 0; 0, 1; 0, 0]⟩, ⟨2, 2, !![1, 0; 0, 1]⟩⟩
      ⟨1, 2, 2, fun _ _ _ => 1⟩ [(1, 0, 0)] [4] (2, 3, 2) true (some ⟨2, 2, !![1 / 2, 0; 0, 1]⟩) =
      .ok (⟨⟨_, _, U1⟩, ⟨_, _, V1⟩, ⟨_, _, W1⟩⟩, ⟨1, 2, 2, c1⟩) ∧
    ∑ a, ∑ b, ∑ d, c1 a b d ^ 2 ≤ 8 := by
  obtain ⟨U1, V1, W1, c1, h, e⟩ := C111_integrator realLA qrAlways_real
    [(((1, 0, 0), 4) : Ent 2 3 2 ℝ)] (by simp) (some !![1 / 2, 0; 0, 1])
    ⟨by decide, by decide, by decide, by decide, by decide, by decide⟩ !![1; 0]
    !![1, 0; 0, 1; 0, 0] !![1, 0; 0, 1] (fun _ _ _ => 1) true
  refine ⟨U1, V1, W1, c1, h, ?_⟩
  have h3 : (∑ i : Fin 2, ∑ j : Fin 3, ∑ k : Fin 2,
      (tuckerTensor (!![1; 0] : Matrix (Fin 2) (Fin 1) ℝ) (!![1, 0; 0, 1; 0, 0] : Matrix (Fin 3) (Fin 2) ℝ)
        (!![1, 0; 0, 1] : Matrix (Fin 2) (Fin 2) ℝ) (fun _ _ _ => 1) i j k +
        ∑ l, attVal (some !![1 / 2, 0; 0, 1]) l k * cooTensor [(((1, 0, 0), 4) : Ent 2 3 2 ℝ)] i j l) ^ 2) = 8 := by
    simp [Fin.sum_univ_succ, cooTensor, tuckerTensor, attVal]
    norm_num
  rw [h3] at e
  have : 0 ≤ 8 - ∑ a, ∑ b, ∑ d, c1 a b d ^ 2 := by
    rw [← e]
    exact Finset.sum_nonneg fun _ _ => Finset.sum_nonneg fun _ _ => Finset.sum_nonneg fun _ _ => sq_nonneg _
  linarith

end DynCF
