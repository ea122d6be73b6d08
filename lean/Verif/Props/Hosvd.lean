/-
Property theorems C51 (appending a block to a Tucker model) and C88 (HOSVD).
-/
import Verif.Model.Hosvd
import Verif.Props.TuckerAppend

set_option linter.unusedSectionVars false

namespace DynCF
open Matrix
variable {K : Type}

section
variable [CommRing K]

/-- reversing the columns keeps the projector on the column space -/
theorem revCols_proj {n r : ℕ} (V : Matrix (Fin r) (Fin n) K) :
    (Matrix.of fun i j => V (Fin.rev j) i : Matrix (Fin n) (Fin r) K) *
      (Matrix.of fun i j => V (Fin.rev j) i : Matrix (Fin n) (Fin r) K).transpose = V.transpose * V := by
  ext i j
  simp only [Matrix.mul_apply, Matrix.of_apply, Matrix.transpose_apply]
  exact Fintype.sum_equiv Fin.revPerm _ _ fun _ => rfl

theorem mul_one_keep0 {n0 n1 n2 : ℕ} (P : Matrix (Fin n0) (Fin n0) K) (x : T3 n0 n1 n2 K) (h : P * unf x = unf x) :
    mul0 P x = x := unf_inj (by rw [unf_mul0, h])
theorem mul_one_keep1 {n0 n1 n2 : ℕ} (P : Matrix (Fin n1) (Fin n1) K) (x : T3 n0 n1 n2 K)
    (h : P * unf (front1 x) = unf (front1 x)) : mul1 P x = x :=
  front1_inj (by rw [front1_mul1, mul_one_keep0 P _ h])
theorem mul_one_keep2 {n0 n1 n2 : ℕ} (P : Matrix (Fin n2) (Fin n2) K) (x : T3 n0 n1 n2 K)
    (h : P * unf (front2 x) = unf (front2 x)) : mul2 P x = x :=
  front2_inj (by rw [front2_mul2, mul_one_keep0 P _ h])

/-- factors that reproduce every unfolding reproduce the tensor from its core -/
theorem tucker_core_exact {n0 n1 n2 r0 r1 r2 : ℕ} (x : T3 n0 n1 n2 K) (F0 : Matrix (Fin n0) (Fin r0) K)
    (F1 : Matrix (Fin n1) (Fin r1) K) (F2 : Matrix (Fin n2) (Fin r2) K)
    (h0 : F0 * F0.transpose * unf x = unf x) (h1 : F1 * F1.transpose * unf (front1 x) = unf (front1 x))
    (h2 : F2 * F2.transpose * unf (front2 x) = unf (front2 x)) :
    tuckerTensor F0 F1 F2 (coreTensor x F0 F1 F2) = x := by
  rw [tuckerTensor_eq, coreTensor_eq, ← mul02_comm, ← mul12_comm, mul2_mul2, mul_one_keep2 _ _ h2, ← mul01_comm,
    mul1_mul1, mul_one_keep1 _ _ h1, mul0_mul0, mul_one_keep0 _ _ h0]

end

section
variable [Field K] [LinearOrder K] [IsStrictOrderedRing K]

/-- the factor of one mode of `hosvd_dense` and `tucker2_dense` -/
theorem rsvd_factor (la : LinAlg K) (rng : Rng K) {n N r : ℕ} (hn : r ≤ n) (hN : r ≤ N)
    (X : Matrix (Fin n) (Fin N) K) (nPower os : ℕ) :
    ∃ F : Matrix (Fin n) (Fin r) K,
      (randomSvd la rng ⟨N, n, X.transpose⟩ r nPower os).2.2.T.revCols = ⟨n, r, F⟩ ∧
      (LaOk la → F.transpose * F = 1 ∧
        (X.rank ≤ r → Captures rng X.transpose r nPower os → F * F.transpose * X = X)) := by
  obtain ⟨k, U, s, V, hk, hkk, he, -⟩ := C47_components la rng X.transpose r nPower os
  obtain rfl : k = r := by omega
  rw [he]
  refine ⟨_, rfl, fun hla => ?_⟩
  have hrs : RsvdOk la rng X.transpose k nPower os := ⟨hla.qr _, hla.svd _⟩
  have h2 := (C47_orthonormal la rng X.transpose k nPower os hrs).2
  rw [he] at h2
  dsimp only at h2
  constructor
  · exact castLE_cols_orth V.transpose (by rw [Matrix.transpose_transpose, h2]) Fin.rev Fin.rev_injective _
      fun _ _ => rfl
  · rintro hX ⟨B, hB⟩
    obtain ⟨k', U', s', V', he', hex⟩ := C47_recovery la rng X.transpose k nPower os hrs B hB
      (by rw [Matrix.rank_transpose]; exact hX)
    rw [he] at he'
    have hk' : k = k' := congrArg (fun x => x.2.1.len) he'
    subst hk'
    simp only [Prod.mk.injEq, Mat.mk.injEq, Vec.mk.injEq, heq_eq_eq, true_and] at he'
    obtain ⟨rfl, rfl, rfl⟩ := he'
    have hX' : X = V.transpose * (Matrix.diagonal s * U.transpose) := by
      rw [← Matrix.transpose_transpose X, ← hex, Matrix.transpose_mul, Matrix.transpose_mul,
        Matrix.diagonal_transpose]
    have hp := revCols_proj V
    have : (Matrix.of fun i j => V (Fin.rev j) i : Matrix (Fin n) (Fin k) K) *
      (Matrix.of fun i j => V (Fin.rev j) i : Matrix (Fin n) (Fin k) K).transpose * X = X := by
      rw [hp]
      conv_lhs => rw [hX']
      rw [Matrix.mul_assoc, ← Matrix.mul_assoc V, h2, Matrix.one_mul, ← hX']
    exact this

variable {n0 n1 n2 r0 r1 r2 : ℕ}

/-- the sketches of `hosvd_dense` capture the unfoldings -/
structure HosvdCaptures (rng : ℕ → Rng K) (x : T3 n0 n1 n2 K) (r0 r1 r2 nPower os : ℕ) : Prop where
  c0 : Captures (rng 0) (unf x).transpose r0 nPower os
  c1 : Captures (rng 1) (unf (front1 x)).transpose r1 nPower os
  c2 : Captures (rng 2) (unf (front2 x)).transpose r2 nPower os

/-- the multilinear rank of a tensor is at most `(r0, r1, r2)` -/
structure MultiRankLe (x : T3 n0 n1 n2 K) (r0 r1 r2 : ℕ) : Prop where
  k0 : (unf x).rank ≤ r0
  k1 : (unf (front1 x)).rank ≤ r1
  k2 : (unf (front2 x)).rank ≤ r2

/-- **C88, dense.** For a valid rank not larger than the shape, `hosvd_dense` returns factors with orthonormal
columns of the requested shapes and the projection of the tensor on them as core; a tensor whose multilinear rank
is at most the requested rank is reproduced exactly. -/
theorem C88_hosvd_dense (la : LinAlg K) (rng : ℕ → Rng K) (x : T3 n0 n1 n2 K) (hv : r0 ≤ r1 * r2 ∧ r1 ≤ r0 * r2 ∧ r2 ≤ r0 * r1)
    (h0 : r0 ≤ n0) (h1 : r1 ≤ n1) (h2 : r2 ≤ n2) (nPower os : ℕ) :
    ∃ (F0 : Matrix (Fin n0) (Fin r0) K) (F1 : Matrix (Fin n1) (Fin r1) K) (F2 : Matrix (Fin n2) (Fin r2) K),
      hosvdDense la rng ⟨_, _, _, x⟩ (r0, r1, r2) nPower os =
        .ok (⟨⟨_, _, F0⟩, ⟨_, _, F1⟩, ⟨_, _, F2⟩⟩, ⟨_, _, _, coreTensor x F0 F1 F2⟩) ∧
      (LaOk la → F0.transpose * F0 = 1 ∧ F1.transpose * F1 = 1 ∧ F2.transpose * F2 = 1 ∧
        (MultiRankLe x r0 r1 r2 → HosvdCaptures rng x r0 r1 r2 nPower os →
          tuckerTensor F0 F1 F2 (coreTensor x F0 F1 F2) = x)) := by
  obtain ⟨v0, v1, v2⟩ := hv
  have g0 : r0 ≤ n2 * n1 := v0.trans (by rw [mul_comm]; exact Nat.mul_le_mul h2 h1)
  have g1 : r1 ≤ n2 * n0 := v1.trans (by rw [mul_comm]; exact Nat.mul_le_mul h2 h0)
  have g2 : r2 ≤ n1 * n0 := v2.trans (by rw [mul_comm]; exact Nat.mul_le_mul h1 h0)
  obtain ⟨F0, e0, p0⟩ := rsvd_factor la (rng 0) h0 g0 (unf x) nPower os
  obtain ⟨F1, e1, p1⟩ := rsvd_factor la (rng 1) h1 g1 (unf (front1 x)) nPower os
  obtain ⟨F2, e2, p2⟩ := rsvd_factor la (rng 2) h2 g2 (unf (front2 x)) nPower os
  refine ⟨F0, F1, F2, ?_, fun hla => ⟨(p0 hla).1, (p1 hla).1, (p2 hla).1, fun hr hc =>
    tucker_core_exact x F0 F1 F2 ((p0 hla).2 hr.k0 hc.c0) ((p1 hla).2 hr.k1 hc.c1) ((p2 hla).2 hr.k2 hc.c2)⟩⟩
  unfold hosvdDense hosvdDenseMode
  rw [(checkParams_ok_iff _ (r0, r1, r2)).2 ⟨v0, v1, v2⟩]
  simp only [except_bind_ok, Nat.cast_zero, Nat.cast_one, Nat.cast_ofNat, unfoldDense_0, unfoldDense_1, unfoldDense_2,
    Mat.T_mk, show shapeAt (r0, r1, r2) 0 = r0 from rfl, show shapeAt (r0, r1, r2) 1 = r1 from rfl,
    show shapeAt (r0, r1, r2) 2 = r2 from rfl, e0, e1, e2]
  simp only [pure, Except.pure, except_bind_ok, e0, e1, e2, constructCoreDense_typed]

/-- an invalid rank is refused by `hosvd_dense` and `hosvd` -/
theorem C88_invalid_rank (la : LinAlg K) (rng : ℕ → Rng K) (x : Ten K) (inds : List Ind3) (vals : List K)
    (shape : ℕ × ℕ × ℕ) (par : Bool) (nPower os : ℕ) (hv : ¬ (r0 ≤ r1 * r2 ∧ r1 ≤ r0 * r2 ∧ r2 ≤ r0 * r1)) :
    hosvdDense la rng x (r0, r1, r2) nPower os = .error .runtimeError ∧
    hosvd la inds vals shape (r0, r1, r2) par = .error .runtimeError := by
  constructor
  · unfold hosvdDense
    rw [checkParams_invalid _ (r0, r1, r2) hv]
    rfl
  · unfold hosvd
    rw [checkParams_invalid _ (r0, r1, r2) hv]
    rfl

/-- one factor of the sparse HOSVD -/
theorem svdsLeft_factor (la : LinAlg K) {n N r : ℕ} (hr : 1 ≤ r) (hn : r < n) (hN : r < N)
    (X : Matrix (Fin n) (Fin N) K) :
    ∃ F : Matrix (Fin n) (Fin r) K, svdsLeft la ⟨n, N, X⟩ r = .ok ⟨n, r, F⟩ ∧
      (LaOk la → F.transpose * F = 1 ∧ (X.rank ≤ r → F * F.transpose * X = X)) := by
  refine ⟨Matrix.of fun i j => (la.svds r X).1 i (Fin.rev j), ?_, fun hla => ?_⟩
  · unfold svdsLeft
    rw [if_pos ⟨hr, by dsimp only; omega⟩]
    rfl
  · obtain ⟨U, s, V, hk, hA, hU, hV, hs, hanti, hu, -, -⟩ := hla.svds (k := r) X (by omega)
    have hF : ∀ i j, (Matrix.of fun i j => (la.svds r X).1 i (Fin.rev j) : Matrix (Fin n) (Fin r) K) i j =
        U i (Fin.castLE hk j) := by
      intro i j
      rw [Matrix.of_apply, hu, Fin.rev_rev]
    generalize (Matrix.of fun i j => (la.svds r X).1 i (Fin.rev j) : Matrix (Fin n) (Fin r) K) = F at hF ⊢
    have hFF := castLE_cols_orth U hU (Fin.castLE hk) (Fin.castLE_injective _) F hF
    refine ⟨hFF, fun hrank => ?_⟩
    have hz : ∀ i : Fin (min n N), r ≤ (i : ℕ) → s i = 0 :=
      fun i hi => svd_values_zero U s V X hA hU hV hs hanti r hrank i hi
    have hX : X = F * Matrix.of (fun (a : Fin r) j => s (Fin.castLE hk a) * V (Fin.castLE hk a) j) := by
      ext i j
      rw [Matrix.mul_apply]
      have := truncated_sum U s V hk hz i j
      rw [hA] at this
      rw [this]
      exact Finset.sum_congr rfl fun a _ => by rw [hF, Matrix.of_apply, mul_assoc]
    conv_lhs => rw [hX]
    rw [Matrix.mul_assoc, ← Matrix.mul_assoc F.transpose, hFF, Matrix.one_mul, ← hX]

theorem ind3_vec (es : List (Ent n0 n1 n2 K)) : (indsOf es).map Ind3.vec = es.map Ent.vec := by
  unfold indsOf
  rw [List.map_map]
  rfl

/-- **C88, sparse.** The same for `hosvd` of COO data (repeated coordinates add up), for ranks smaller than the
shape and than the number of columns of the unfoldings (a requirement of `svds`). -/
theorem C88_hosvd (la : LinAlg K) (es : List (Ent n0 n1 n2 K))
    (hv : r0 ≤ r1 * r2 ∧ r1 ≤ r0 * r2 ∧ r2 ≤ r0 * r1) (hp : 1 ≤ r0 ∧ 1 ≤ r1 ∧ 1 ≤ r2)
    (h0 : r0 < n0 ∧ r0 < n2 * n1) (h1 : r1 < n1 ∧ r1 < n2 * n0) (h2 : r2 < n2 ∧ r2 < n1 * n0) (par : Bool) :
    ∃ (F0 : Matrix (Fin n0) (Fin r0) K) (F1 : Matrix (Fin n1) (Fin r1) K) (F2 : Matrix (Fin n2) (Fin r2) K),
      hosvd la (indsOf es) (valsOf es) (n0, n1, n2) (r0, r1, r2) par =
        .ok (⟨⟨_, _, F0⟩, ⟨_, _, F1⟩, ⟨_, _, F2⟩⟩, ⟨_, _, _, coreTensor (cooTensor es) F0 F1 F2⟩) ∧
      (LaOk la → F0.transpose * F0 = 1 ∧ F1.transpose * F1 = 1 ∧ F2.transpose * F2 = 1 ∧
        (MultiRankLe (cooTensor es) r0 r1 r2 →
          tuckerTensor F0 F1 F2 (coreTensor (cooTensor es) F0 F1 F2) = cooTensor es)) := by
  obtain ⟨F0, e0, p0⟩ := svdsLeft_factor la hp.1 h0.1 h0.2 (unf (cooTensor es))
  obtain ⟨F1, e1, p1⟩ := svdsLeft_factor la hp.2.1 h1.1 h1.2 (unf (front1 (cooTensor es)))
  obtain ⟨F2, e2, p2⟩ := svdsLeft_factor la hp.2.2 h2.1 h2.2 (unf (front2 (cooTensor es)))
  refine ⟨F0, F1, F2, ?_, fun hla => ⟨(p0 hla).1, (p1 hla).1, (p2 hla).1, fun hr =>
    tucker_core_exact _ F0 F1 F2 ((p0 hla).2 hr.k0) ((p1 hla).2 hr.k1) ((p2 hla).2 hr.k2)⟩⟩
  unfold hosvd hosvdMode
  rw [(checkParams_ok_iff _ (r0, r1, r2)).2 hv, ind3_vec]
  simp only [except_bind_ok, Nat.cast_zero, Nat.cast_one, Nat.cast_ofNat,
    C53_sparse_unfold es 0 (Or.inl rfl), C53_sparse_unfold es 1 (Or.inr (Or.inl rfl)),
    C53_sparse_unfold es 2 (Or.inr (Or.inr rfl)), unfoldDense_0, unfoldDense_1, unfoldDense_2,
    show shapeAt (r0, r1, r2) 0 = r0 from rfl, show shapeAt (r0, r1, r2) 1 = r1 from rfl,
    show shapeAt (r0, r1, r2) 2 = r2 from rfl, e0, e1, e2, coreFunction_typed]
  rfl

/-- **C88, sparse, refused ranks.** A valid rank with a component that is zero or not smaller than the shape and than
the number of columns of its unfolding raises `ValueError` (from `svds`), for COO data within the shape. -/
theorem C88_hosvd_refused (la : LinAlg K) (es : List (Ent n0 n1 n2 K))
    (hv : r0 ≤ r1 * r2 ∧ r1 ≤ r0 * r2 ∧ r2 ≤ r0 * r1)
    (h : ¬ ((1 ≤ r0 ∧ r0 < min n0 (n2 * n1)) ∧ (1 ≤ r1 ∧ r1 < min n1 (n2 * n0)) ∧ 1 ≤ r2 ∧ r2 < min n2 (n1 * n0)))
    (par : Bool) :
    hosvd la (indsOf es) (valsOf es) (n0, n1, n2) (r0, r1, r2) par = .error .valueError := by
  unfold hosvd hosvdMode
  rw [(checkParams_ok_iff _ (r0, r1, r2)).2 hv, ind3_vec]
  simp only [except_bind_ok, Nat.cast_zero, Nat.cast_one, Nat.cast_ofNat,
    C53_sparse_unfold es 0 (Or.inl rfl), C53_sparse_unfold es 1 (Or.inr (Or.inl rfl)),
    C53_sparse_unfold es 2 (Or.inr (Or.inr rfl)), unfoldDense_0, unfoldDense_1, unfoldDense_2,
    show shapeAt (r0, r1, r2) 0 = r0 from rfl, show shapeAt (r0, r1, r2) 1 = r1 from rfl,
    show shapeAt (r0, r1, r2) 2 = r2 from rfl]
  unfold svdsLeft
  dsimp only
  by_cases h0 : 1 ≤ r0 ∧ r0 < min n0 (n2 * n1)
  · rw [if_pos h0, except_bind_ok]
    by_cases h1 : 1 ≤ r1 ∧ r1 < min n1 (n2 * n0)
    · rw [if_pos h1, except_bind_ok, if_neg fun h2 => h ⟨h0, h1, h2⟩]
      rfl
    · rw [if_neg h1]
      rfl
  · rw [if_neg h0]
    rfl

/-- rank (1, 1, 1) of a tensor with a single position is refused by the sparse HOSVD -/
example (la : LinAlg ℝ) (par : Bool) :
    hosvd la (indsOf [(((0, 1, 0), 5) : Ent 2 3 1 ℝ)]) (valsOf [(((0, 1, 0), 5) : Ent 2 3 1 ℝ)]) (2, 3, 1) (1, 1, 1)
      par = .error .valueError :=
  C88_hosvd_refused la _ (by omega) (by omega) par

/-- one factor of `tucker2_dense` with the full rank: a square orthogonal matrix, whether or not the shape is a
valid Tucker rank -/
theorem tucker2_factor (la : LinAlg K) (rng : Rng K) {n N : ℕ} (X : Matrix (Fin n) (Fin N) K) (ok : Bool)
    (hN : ok = true → n ≤ N) (nPower os : ℕ) :
    ∃ F : Matrix (Fin n) (Fin n) K,
      (if ok = true then (randomSvd la rng ⟨N, n, X.transpose⟩ n nPower os).2.2.T.revCols
        else Mat.revCols ⟨n, n, (la.svdFull X.transpose).2.2.transpose⟩) = ⟨n, n, F⟩ ∧
      (LaOk la → F.transpose * F = 1) := by
  cases ok with
  | true =>
    obtain ⟨F, h1, h2⟩ := rsvd_factor la rng le_rfl (hN rfl) X nPower os
    exact ⟨F, h1, fun hla => (h2 hla).1⟩
  | false =>
    refine ⟨_, rfl, fun hla => ?_⟩
    exact castLE_cols_orth (la.svdFull X.transpose).2.2.transpose
      (by rw [Matrix.transpose_transpose]; exact (hla.svdFull X.transpose).2.1) Fin.rev Fin.rev_injective _ fun _ _ => rfl

theorem rankValid_cases (r0 r1 r2 : ℕ) :
    ∃ ok : Bool, tuckerRankIsValid (triZ (r0, r1, r2)) = .ok ok ∧
      (ok = true → r0 ≤ r1 * r2 ∧ r1 ≤ r0 * r2 ∧ r2 ≤ r0 * r1) := by
  by_cases h : r0 ≤ r1 * r2 ∧ r1 ≤ r0 * r2 ∧ r2 ≤ r0 * r1
  · refine ⟨true, ?_, fun _ => h⟩
    have := (checkParams_ok_iff (0, 0, 0) (r0, r1, r2)).2 h
    unfold checkParams tri at this
    simp only [List.length_cons, List.length_nil] at this
    rw [if_neg (by omega)] at this
    revert this
    unfold tuckerRankIsValid triZ
    dsimp only
    split_ifs <;> simp [except_bind_ok]
  · refine ⟨false, ?_, by simp⟩
    have := checkParams_invalid (0, 0, 0) (r0, r1, r2) h
    unfold checkParams tri at this
    simp only [List.length_cons, List.length_nil] at this
    rw [if_neg (by omega)] at this
    revert this
    unfold tuckerRankIsValid triZ
    dsimp only
    split_ifs <;> simp [except_bind_ok]

/-- **C88, `tucker2_dense`** (identity in mode 2, full rank, as it is called): two square orthogonal factors and a core
of the same shape that represent the tensor exactly, for every shape. -/
theorem C88_tucker2_dense (la : LinAlg K) (rng : ℕ → Rng K) (x : T3 n0 n1 n2 K) (nPower os : ℕ) :
    ∃ (F0 : Matrix (Fin n0) (Fin n0) K) (F1 : Matrix (Fin n1) (Fin n1) K) (c : T3 n0 n1 n2 K),
      tucker2Dense la rng ⟨_, _, _, x⟩ (n0, n1, n2) 2 nPower os = .ok (⟨_, _, F0⟩, ⟨_, _, F1⟩, ⟨_, _, _, c⟩) ∧
      (LaOk la → F0.transpose * F0 = 1 ∧ F1.transpose * F1 = 1 ∧
        tuckerTensor F0 F1 (1 : Matrix (Fin n2) (Fin n2) K) c = x) := by
  obtain ⟨ok, hok, hle⟩ := rankValid_cases n0 n1 n2
  obtain ⟨F0, e0, p0⟩ := tucker2_factor la (rng 0) (unf x) ok (fun h => by rw [mul_comm]; exact (hle h).1) nPower os
  obtain ⟨F1, e1, p1⟩ := tucker2_factor la (rng 1) (unf (front1 x)) ok
    (fun h => by rw [mul_comm]; exact (hle h).2.1) nPower os
  refine ⟨F0, F1, coreTensor x F0 F1 1, ?_, fun hla => ⟨p0 hla, p1 hla, ?_⟩⟩
  · unfold tucker2Dense tucker2DenseFactor tucker2DenseMode
    simp only [hok, except_bind_ok, Nat.cast_zero, Nat.cast_one, unfoldDense_0, unfoldDense_1, Mat.T_mk,
      show shapeAt (n0, n1, n2) 0 = n0 from rfl, show shapeAt (n0, n1, n2) 1 = n1 from rfl,
      show shapeAt (n0, n1, n2) 2 = n2 from rfl, e0, e1]
    simp only [pure, Except.pure, except_bind_ok, e0, e1, show ¬ (2 > 2) by omega, if_false,
      show ¬ (0 = 2) by omega, show ¬ (1 = 2) by omega, if_true, Mat.eye, constructCoreDense_typed]
    rfl
  · refine tucker_core_exact x F0 F1 1 ?_ ?_ ?_
    · rw [mul_eq_one_comm.1 (p0 hla), Matrix.one_mul]
    · rw [mul_eq_one_comm.1 (p1 hla), Matrix.one_mul]
    · rw [Matrix.transpose_one, Matrix.one_mul, Matrix.one_mul]

/-! ### C51 -/

variable {m0 m1 : ℕ}

/-- the old tensor on the old users and items, the new one on the new users and items, 0 elsewhere -/
def blockTensor (old : T3 n0 n1 n2 K) (new : T3 m0 m1 n2 K) : T3 (n0 + m0) (n1 + m1) n2 K := fun i j k =>
  Fin.addCases (fun i => Fin.addCases (fun j => old i j k) (fun _ => 0) j)
    (fun i => Fin.addCases (fun _ => 0) (fun j => new i j k) j) i

theorem blockTensor_cases {s t : T3 (n0 + m0) (n1 + m1) n2 K}
    (h1 : ∀ i j k, s (Fin.castAdd m0 i) (Fin.castAdd m1 j) k = t (Fin.castAdd m0 i) (Fin.castAdd m1 j) k)
    (h2 : ∀ i j k, s (Fin.castAdd m0 i) (Fin.natAdd n1 j) k = t (Fin.castAdd m0 i) (Fin.natAdd n1 j) k)
    (h3 : ∀ i j k, s (Fin.natAdd n0 i) (Fin.castAdd m1 j) k = t (Fin.natAdd n0 i) (Fin.castAdd m1 j) k)
    (h4 : ∀ i j k, s (Fin.natAdd n0 i) (Fin.natAdd n1 j) k = t (Fin.natAdd n0 i) (Fin.natAdd n1 j) k) : s = t := by
  funext i j k
  refine Fin.addCases (fun i => ?_) (fun i => ?_) i <;> refine Fin.addCases (fun j => ?_) (fun j => ?_) j
  · exact h1 i j k
  · exact h2 i j k
  · exact h3 i j k
  · exact h4 i j k

/-- **C51, extended core.** The block core with block-diagonal factors represents the old tensor on the old
indices, the new one on the new indices and 0 on mixed indices. -/
theorem C51_extended (U : Matrix (Fin n0) (Fin r0) K) (V : Matrix (Fin n1) (Fin r1) K) (W : Matrix (Fin n2) (Fin r2) K)
    (F0 : Matrix (Fin m0) (Fin m0) K) (F1 : Matrix (Fin m1) (Fin m1) K) (c : T3 r0 r1 r2 K) (d : T3 m0 m1 r2 K) :
    tuckerTensor (blk U 0 0 F0) (blk V 0 0 F1) W (blockTensor c d) =
      blockTensor (tuckerTensor U V W c) (tuckerTensor F0 F1 W d) := by
  apply blockTensor_cases <;> intro i j k <;>
    simp [tuckerTensor, blockTensor, blk, Fin.sum_univ_add]

theorem core_tucker {a0 a1 a2 : ℕ} (U : Matrix (Fin n0) (Fin a0) K) (V : Matrix (Fin n1) (Fin a1) K)
    (W : Matrix (Fin n2) (Fin a2) K) (c : T3 a0 a1 a2 K) (hU : U.transpose * U = 1) (hV : V.transpose * V = 1)
    (hW : W.transpose * W = 1) : coreTensor (tuckerTensor U V W c) U V W = c := by
  rw [tuckerTensor_eq, coreTensor_eq, ← mul02_comm, ← mul12_comm, mul2_mul2, hW, mul2_one, ← mul01_comm, mul1_mul1, hV,
    mul1_one, mul0_mul0, hU, mul0_one]

theorem core_core {a0 a1 a2 : ℕ} (U : Matrix (Fin n0) (Fin a0) K) (V : Matrix (Fin n1) (Fin a1) K)
    (W : Matrix (Fin n2) (Fin a2) K) (x : T3 n0 n1 n2 K) (F0 : Matrix (Fin a0) (Fin r0) K)
    (F1 : Matrix (Fin a1) (Fin r1) K) (F2 : Matrix (Fin a2) (Fin r2) K) :
    coreTensor (coreTensor x U V W) F0 F1 F2 = coreTensor x (U * F0) (V * F1) (W * F2) := by
  simp only [coreTensor_eq, Matrix.transpose_mul]
  rw [← mul02_comm, ← mul12_comm, mul2_mul2, ← mul01_comm, mul1_mul1, mul0_mul0]

theorem tucker_tucker {a0 a1 a2 : ℕ} (U : Matrix (Fin n0) (Fin a0) K) (V : Matrix (Fin n1) (Fin a1) K)
    (W : Matrix (Fin n2) (Fin a2) K) (c : T3 r0 r1 r2 K) (F0 : Matrix (Fin a0) (Fin r0) K)
    (F1 : Matrix (Fin a1) (Fin r1) K) (F2 : Matrix (Fin a2) (Fin r2) K) :
    tuckerTensor U V W (tuckerTensor F0 F1 F2 c) = tuckerTensor (U * F0) (V * F1) (W * F2) c := by
  simp only [tuckerTensor_eq]
  rw [← mul02_comm, ← mul12_comm, mul2_mul2, ← mul01_comm, mul1_mul1, mul0_mul0]

theorem orth_mul {n a r : ℕ} (U : Matrix (Fin n) (Fin a) K) (F : Matrix (Fin a) (Fin r) K) (hU : U.transpose * U = 1)
    (hF : F.transpose * F = 1) : (U * F).transpose * (U * F) = 1 := by
  rw [Matrix.transpose_mul, Matrix.mul_assoc, ← Matrix.mul_assoc U.transpose, hU, Matrix.one_mul, hF]

theorem orth_blk {a b c d : ℕ} (U : Matrix (Fin a) (Fin b) K) (F : Matrix (Fin c) (Fin d) K) (hU : U.transpose * U = 1)
    (hF : F.transpose * F = 1) : (blk U 0 0 F).transpose * blk U 0 0 F = 1 := by
  rw [blk_transpose, blk_mul_blk]
  simp [hU, hF, blk_one]

theorem rank_sandwich {a b c d : ℕ} (A : Matrix (Fin a) (Fin b) K) (B : Matrix (Fin b) (Fin c) K)
    (C : Matrix (Fin c) (Fin d) K) : (A * (B * C)).rank ≤ B.rank :=
  (Matrix.rank_mul_le_right _ _).trans (Matrix.rank_mul_le_left _ _)

/-- projecting does not increase the multilinear rank -/
theorem multiRank_core {a0 a1 a2 : ℕ} {x : T3 n0 n1 n2 K} (h : MultiRankLe x r0 r1 r2) (U : Matrix (Fin n0) (Fin a0) K)
    (V : Matrix (Fin n1) (Fin a1) K) (W : Matrix (Fin n2) (Fin a2) K) : MultiRankLe (coreTensor x U V W) r0 r1 r2 := by
  refine ⟨?_, ?_, ?_⟩
  · rw [coreTensor_eq, unf_mul0, unf_mul12]
    exact (rank_sandwich _ _ _).trans h.k0
  · rw [coreTensor_eq, front1_mul0, front1_mul1, front1_mul2, ← mul01_comm, unf_mul0, unf_mul12]
    exact (rank_sandwich _ _ _).trans h.k1
  · rw [coreTensor_eq, front2_mul0, front2_mul1, front2_mul2, ← mul02_comm, ← mul01_comm, unf_mul0, unf_mul12]
    exact (rank_sandwich _ _ _).trans h.k2

/-- a Tucker tensor has at most the rank of its core's shape -/
theorem multiRank_tucker (U : Matrix (Fin n0) (Fin r0) K) (V : Matrix (Fin n1) (Fin r1) K)
    (W : Matrix (Fin n2) (Fin r2) K) (c : T3 r0 r1 r2 K) : MultiRankLe (tuckerTensor U V W c) r0 r1 r2 := by
  refine ⟨?_, ?_, ?_⟩
  · rw [tuckerTensor_eq, unf_mul0]
    exact (Matrix.rank_mul_le_left _ _).trans (Matrix.rank_le_width _)
  · rw [tuckerTensor_eq, front1_mul0, front1_mul1, ← mul01_comm, unf_mul0]
    exact (Matrix.rank_mul_le_left _ _).trans (Matrix.rank_le_width _)
  · rw [tuckerTensor_eq, front2_mul0, front2_mul1, front2_mul2, ← mul02_comm, ← mul01_comm, unf_mul0]
    exact (Matrix.rank_mul_le_left _ _).trans (Matrix.rank_le_width _)

/-- the sketches of the `hosvd_dense` call capture the extended core -/
def TnmCaptures (la : LinAlg K) (rng : ℕ → ℕ → Rng K) (c : T3 r0 r1 r2 K) (x : T3 m0 m1 r2 K) (nPower os : ℕ) : Prop :=
  ∀ (F0 F1 : Mat K) (d : T3 m0 m1 r2 K),
    tucker2Dense la (rng 0) ⟨_, _, _, x⟩ (m0, m1, r2) 2 nPower os = .ok (F0, F1, ⟨_, _, _, d⟩) →
    HosvdCaptures (rng 1) (blockTensor c d) r0 r1 r2 1 2

/-- **C51.** `update_tucker_new_matrix` on `m0` new users and `m1` new items (for a model whose rank is valid):
the user and item factors gain exactly one row per new user and item, the shapes of the core and of the position
factor stay. With orthonormal old factors the new ones are orthonormal, and the core is the projection on them of the
tensor `B` with the old tensor on the old indices, the new block (projected with `A W` and represented with `W` in
the position mode) on the new ones and 0 on mixed indices. If `B` has at most the model's rank, it is represented
exactly. -/
theorem C51_new_matrix (la : LinAlg K) (rng : ℕ → ℕ → Rng K) (U : Matrix (Fin n0) (Fin r0) K)
    (V : Matrix (Fin n1) (Fin r1) K) (W : Matrix (Fin n2) (Fin r2) K) (c : T3 r0 r1 r2 K)
    (hv : r0 ≤ r1 * r2 ∧ r1 ≤ r0 * r2 ∧ r2 ≤ r0 * r1) (es : List (Ent m0 m1 n2 K))
    (att : Option (Matrix (Fin n2) (Fin n2) K)) (nPower os : ℕ) (B : T3 (n0 + m0) (n1 + m1) n2 K)
    (hB1 : ∀ i j k, B (Fin.castAdd m0 i) (Fin.castAdd m1 j) k = tuckerTensor U V W c i j k)
    (hB2 : ∀ i j k, B (Fin.castAdd m0 i) (Fin.natAdd n1 j) k = 0)
    (hB3 : ∀ i j k, B (Fin.natAdd n0 i) (Fin.castAdd m1 j) k = 0)
    (hB4 : ∀ i j k, B (Fin.natAdd n0 i) (Fin.natAdd n1 j) k =
      ∑ l, (W * (attVal att * W).transpose) k l * cooTensor es i j l) :
    ∃ (U' : Matrix (Fin (n0 + m0)) (Fin r0) K) (V' : Matrix (Fin (n1 + m1)) (Fin r1) K)
      (W' : Matrix (Fin n2) (Fin r2) K) (c' : T3 r0 r1 r2 K),
      updateTuckerNewMatrix la rng ⟨⟨_, _, U⟩, ⟨_, _, V⟩, ⟨_, _, W⟩⟩ ⟨_, _, _, c⟩ (indsOf es) (valsOf es) (m0, m1, n2)
        nPower os (attArg att) = .ok (⟨⟨_, _, U'⟩, ⟨_, _, V'⟩, ⟨_, _, W'⟩⟩, ⟨_, _, _, c'⟩) ∧
      (LaOk la → U.transpose * U = 1 → V.transpose * V = 1 → W.transpose * W = 1 →
        U'.transpose * U' = 1 ∧ V'.transpose * V' = 1 ∧ W'.transpose * W' = 1 ∧ c' = coreTensor B U' V' W' ∧
        (MultiRankLe B r0 r1 r2 →
          TnmCaptures la rng c (fun i j a => ∑ k, cooTensor es i j k * (attVal att * W) k a) nPower os →
          tuckerTensor U' V' W' c' = B)) := by
  set x : T3 m0 m1 r2 K := fun i j a => ∑ k, cooTensor es i j k * (attVal att * W) k a with hx
  obtain ⟨F0, F1, d, e1, p1⟩ := C88_tucker2_dense la (rng 0) x nPower os
  obtain ⟨G0, G1, G2, e2, p2⟩ := C88_hosvd_dense la (rng 1) (blockTensor c d) hv (Nat.le_add_right _ m0)
    (Nat.le_add_right _ m1) le_rfl 1 2
  refine ⟨blk U 0 0 F0 * G0, blk V 0 0 F1 * G1, W * G2, coreTensor (blockTensor c d) G0 G1 G2, ?_, ?_⟩
  · have ht := (C55_tensordot es).2.2 (attVal att * W).transpose
    simp only [Matrix.transpose_apply] at ht
    have hc : extendedCore (⟨r0, r1, r2, c⟩ : Ten K) ⟨m0, m1, r2, d⟩ = .ok ⟨_, _, _, blockTensor c d⟩ := by
      unfold extendedCore
      rw [dif_pos rfl]
      rfl
    unfold updateTuckerNewMatrix
    rw [tiCoreFactor_typed]
    simp only [except_bind_ok, Mat.T_mk, ht, Ten.shape]
    rw [← hx, e1]
    simp only [except_bind_ok, hc, e2, blockDiag_mk, Mat.dot_mk]
    rfl
  · intro hla hU hV hW
    obtain ⟨q0, q1, q2⟩ := p1 hla
    obtain ⟨o0, o1, o2, hex⟩ := p2 hla
    have bU := orth_blk U F0 hU q0
    have bV := orth_blk V F1 hV q1
    have hB : B = tuckerTensor (blk U 0 0 F0) (blk V 0 0 F1) W (blockTensor c d) := by
      rw [C51_extended]
      apply blockTensor_cases <;> intro i j k
      · simp [hB1, blockTensor]
      · simp [hB2, blockTensor]
      · simp [hB3, blockTensor]
      · rw [hB4]
        have : tuckerTensor F0 F1 W d = mul2 W x := by
          rw [← q2, tuckerTensor_eq, tuckerTensor_eq, mul2_one, ← mul02_comm, ← mul12_comm]
        simp only [blockTensor, Fin.addCases_right, this, mul2, hx, Finset.mul_sum, Matrix.mul_apply (M := W),
          Matrix.transpose_apply, Finset.sum_mul]
        rw [Finset.sum_comm]
        exact Finset.sum_congr rfl fun _ _ => Finset.sum_congr rfl fun _ _ => by ring
    have hcore : coreTensor B (blk U 0 0 F0) (blk V 0 0 F1) W = blockTensor c d := by
      rw [hB, core_tucker _ _ _ _ bU bV hW]
    refine ⟨orth_mul _ _ bU o0, orth_mul _ _ bV o1, orth_mul _ _ hW o2, ?_, fun hr hcap => ?_⟩
    · rw [← core_core, hcore]
    · have hr' : MultiRankLe (blockTensor c d) r0 r1 r2 := by
        rw [← hcore]
        exact multiRank_core hr _ _ _
      rw [← tucker_tucker, hex hr' (hcap _ _ _ e1), hB]

end

/-- A 2 × 2 × 1 model with the only entry 2 (at user 0, item 0) and rank `(2, 2, 1)` gets a third user and a third item
with the value 3: the result represents exactly the 3 × 3 × 1 tensor with the two entries. -/
example : ∃ (U' V' : Matrix (Fin (2 + 1)) (Fin 2) ℝ) (W' : Matrix (Fin 1) (Fin 1) ℝ) (c' : T3 2 2 1 ℝ),
    updateTuckerNewMatrix realLA (fun _ _ => eyeRng) ⟨⟨2, 2, 1⟩, ⟨2, 2, 1⟩, ⟨1, 1, 1⟩⟩
      ⟨2, 2, 1, fun i j _ => if i = 0 ∧ j = 0 then 2 else 0⟩ [(0, 0, 0)] [3] (1, 1, 1) 1 2 none =
      .ok (⟨⟨_, _, U'⟩, ⟨_, _, V'⟩, ⟨_, _, W'⟩⟩, ⟨_, _, _, c'⟩) ∧
    tuckerTensor U' V' W' c' 0 0 0 = 2 ∧ tuckerTensor U' V' W' c' 2 2 0 = 3 ∧
    tuckerTensor U' V' W' c' 0 2 0 = 0 ∧ tuckerTensor U' V' W' c' 1 1 0 = 0 := by
  set c : T3 2 2 1 ℝ := fun i j _ => if i = 0 ∧ j = 0 then 2 else 0 with hc
  set es : List (Ent 1 1 1 ℝ) := [((0, 0, 0), 3)] with hes
  set P : Matrix (Fin (2 + 1)) (Fin 2) ℝ := !![1, 0; 0, 0; 0, 1] with hP
  set B : T3 (2 + 1) (2 + 1) 1 ℝ := tuckerTensor P P (1 : Matrix (Fin 1) (Fin 1) ℝ)
    (fun i j _ => if i = 0 ∧ j = 0 then 2 else if i = 1 ∧ j = 1 then 3 else 0) with hB
  have hB' : B = fun i j _ => if i = 0 ∧ j = 0 then 2 else if i = 2 ∧ j = 2 then 3 else 0 := by
    funext i j k
    fin_cases i <;> fin_cases j <;> fin_cases k <;> simp [hB, hP, tuckerTensor, Fin.sum_univ_two]
  obtain ⟨U', V', W', c', h1, h2⟩ := C51_new_matrix realLA (fun _ _ => eyeRng) (1 : Matrix (Fin 2) (Fin 2) ℝ)
    (1 : Matrix (Fin 2) (Fin 2) ℝ) (1 : Matrix (Fin 1) (Fin 1) ℝ) c ⟨by omega, by omega, by omega⟩ es none 1 2 B
    (by
      intro i j k
      rw [hB', tuckerTensor_eq, mul2_one, mul1_one, mul0_one]
      fin_cases i <;> fin_cases j <;> fin_cases k <;> simp [hc])
    (by
      intro i j k
      rw [hB']
      fin_cases i <;> fin_cases j <;> fin_cases k <;> simp)
    (by
      intro i j k
      rw [hB']
      fin_cases i <;> fin_cases j <;> fin_cases k <;> simp)
    (by
      intro i j k
      rw [hB']
      fin_cases i; fin_cases j; fin_cases k
      simp [attVal, hes, cooTensor])
  obtain ⟨-, -, -, -, hex⟩ := h2 laOk_real (by simp) (by simp) (by simp)
  have := hex (multiRank_tucker _ _ _ _) fun _ _ _ _ => ⟨eyeRng_captures_power _ 2 1 2 (by omega),
    eyeRng_captures_power _ 2 1 2 (by omega), eyeRng_captures_power _ 1 1 2 (by omega)⟩
  refine ⟨U', V', W', c', h1, ?_, ?_, ?_, ?_⟩ <;> rw [this, hB'] <;> simp

/-- A rank-one 3 × 3 × 3 tensor with two stored entries that add up is reproduced by the sparse HOSVD. -/
example : ∃ (F0 F1 F2 : Matrix (Fin 3) (Fin 1) ℝ) (c : T3 1 1 1 ℝ),
    hosvd realLA [(0, 1, 2), (0, 1, 2)] [2, 3] (3, 3, 3) (1, 1, 1) true =
      .ok (⟨⟨_, _, F0⟩, ⟨_, _, F1⟩, ⟨_, _, F2⟩⟩, ⟨_, _, _, c⟩) ∧ tuckerTensor F0 F1 F2 c 0 1 2 = 5 := by
  set es : List (Ent 3 3 3 ℝ) := [((0, 1, 2), 2), ((0, 1, 2), 3)] with hes
  obtain ⟨F0, F1, F2, h1, h2⟩ := C88_hosvd realLA es (r0 := 1) (r1 := 1) (r2 := 1) ⟨by omega, by omega, by omega⟩
    ⟨le_rfl, le_rfl, le_rfl⟩ ⟨by omega, by omega⟩ ⟨by omega, by omega⟩ ⟨by omega, by omega⟩ true
  have hB : cooTensor es = tuckerTensor (!![1; 0; 0] : Matrix (Fin 3) (Fin 1) ℝ)
      (!![0; 1; 0] : Matrix (Fin 3) (Fin 1) ℝ) (!![0; 0; 1] : Matrix (Fin 3) (Fin 1) ℝ) fun _ _ _ => 5 := by
    funext i j k
    fin_cases i <;> fin_cases j <;> fin_cases k <;> simp [hes, cooTensor, tuckerTensor]; norm_num
  refine ⟨F0, F1, F2, _, h1, ?_⟩
  rw [(h2 laOk_real).2.2.2 (by rw [hB]; exact multiRank_tucker _ _ _ _)]
  simp [hes, cooTensor]
  norm_num

end DynCF
