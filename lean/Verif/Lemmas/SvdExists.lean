/-
The contracts assumed of the numerical routines can be met: every real matrix has a singular value
decomposition and a QR factorisation in the sense of `SvdOk`, `QrOk`.
-/
import Verif.Py.LinAlg
import Mathlib.Analysis.Matrix.Spectrum
import Mathlib.Analysis.InnerProductSpace.PiL2
import Mathlib.LinearAlgebra.Matrix.Rank
import Mathlib.Data.Fin.Tuple.Sort

namespace DynCF
open Matrix

/-- A real symmetric matrix has an orthonormal basis of eigenvectors, eigenvalues descending. -/
theorem exists_eigen {n : ℕ} (S : Matrix (Fin n) (Fin n) ℝ) (hS : S.transpose = S) :
    ∃ (V : Matrix (Fin n) (Fin n) ℝ) (l : Fin n → ℝ), V.transpose * V = 1 ∧
      S * V = V * Matrix.diagonal l ∧ Antitone l := by
  have hH : S.IsHermitian := by
    unfold Matrix.IsHermitian
    rw [Matrix.conjTranspose_eq_transpose_of_trivial]
    exact hS
  let b := hH.eigenvectorBasis
  let σ := Tuple.sort (fun i => - hH.eigenvalues i)
  refine ⟨Matrix.of fun i j => b (σ j) i, fun j => hH.eigenvalues (σ j), ?_, ?_, ?_⟩
  · ext i j
    rw [Matrix.mul_apply]
    simp only [Matrix.transpose_apply, Matrix.of_apply]
    have := b.inner_eq_ite (σ i) (σ j)
    rw [EuclideanSpace.inner_eq_star_dotProduct] at this
    simp only [dotProduct, star_trivial] at this
    rw [Matrix.one_apply]
    simp only [σ.injective.eq_iff] at this
    rw [← this]
    exact Finset.sum_congr rfl fun a _ => mul_comm _ _
  · ext i j
    have := congrFun (hH.mulVec_eigenvectorBasis (σ j)) i
    rw [Matrix.mul_diagonal]
    simp only [Matrix.mulVec, dotProduct, Pi.smul_apply, smul_eq_mul] at this
    rw [Matrix.mul_apply, Matrix.of_apply, mul_comm]
    exact this
  · intro i j hij
    have := Tuple.monotone_sort (fun i => - hH.eigenvalues i) hij
    simp only [Function.comp_apply] at this
    exact neg_le_neg_iff.1 this

/-- Orthonormal vectors at some positions extend to an orthogonal matrix. -/
theorem exists_orth_extension {m : ℕ} (v : Fin m → Fin m → ℝ) (s : Set (Fin m))
    (hv : ∀ i ∈ s, ∀ j ∈ s, ∑ a, v i a * v j a = if i = j then 1 else 0) :
    ∃ U : Matrix (Fin m) (Fin m) ℝ, U.transpose * U = 1 ∧ ∀ i ∈ s, ∀ a, U a i = v i a := by
  let w : Fin m → EuclideanSpace ℝ (Fin m) := fun i => WithLp.toLp 2 (v i)
  have hinner : ∀ i j, inner ℝ (w i) (w j) = ∑ a, v i a * v j a := by
    intro i j
    rw [EuclideanSpace.inner_eq_star_dotProduct]
    simp only [dotProduct, star_trivial]
    exact Finset.sum_congr rfl fun a _ => mul_comm _ _
  have hw : Orthonormal ℝ (s.domRestrict w) := by
    rw [orthonormal_iff_ite]
    intro i j
    show inner ℝ (w i) (w j) = _
    rw [hinner, hv i i.2 j j.2]
    simp only [Subtype.ext_iff]
  obtain ⟨b, hb⟩ := hw.exists_orthonormalBasis_extension_of_card_eq (by simp)
  refine ⟨Matrix.of fun a i => b i a, ?_, ?_⟩
  · ext i j
    rw [Matrix.mul_apply]
    simp only [Matrix.transpose_apply, Matrix.of_apply]
    have := b.inner_eq_ite i j
    rw [EuclideanSpace.inner_eq_star_dotProduct] at this
    simp only [dotProduct, star_trivial] at this
    rw [Matrix.one_apply, ← this]
    exact Finset.sum_congr rfl fun a _ => mul_comm _ _
  · intro i hi a
    rw [Matrix.of_apply, hb i hi]

theorem orth_cols_le {m p : ℕ} (B : Matrix (Fin m) (Fin p) ℝ) (h : B.transpose * B = 1) : p ≤ m := by
  have h1 := Matrix.rank_mul_le_right B.transpose B
  rw [h, Matrix.rank_one, Fintype.card_fin] at h1
  exact h1.trans (Matrix.rank_le_height B)

/-- Singular value decomposition with square orthogonal factors. -/
theorem exists_svd {m n : ℕ} (A : Matrix (Fin m) (Fin n) ℝ) :
    ∃ (U : Matrix (Fin m) (Fin m) ℝ) (s : Fin (min m n) → ℝ) (V : Matrix (Fin n) (Fin n) ℝ),
      U.transpose * U = 1 ∧ V.transpose * V = 1 ∧ (∀ i, 0 ≤ s i) ∧ Antitone s ∧
      ∀ i j, A i j = ∑ k : Fin (min m n), U i (Fin.castLE (Nat.min_le_left _ _) k) * s k *
        V j (Fin.castLE (Nat.min_le_right _ _) k) := by
  obtain ⟨V, l, hV, hl, hanti⟩ := exists_eigen (A.transpose * A)
    (by rw [Matrix.transpose_mul, Matrix.transpose_transpose])
  -- the images of the eigenvectors
  let W := A * V
  have hW : W.transpose * W = Matrix.diagonal l := by
    show (A * V).transpose * (A * V) = _
    rw [Matrix.transpose_mul, Matrix.mul_assoc, ← Matrix.mul_assoc A.transpose, hl, ← Matrix.mul_assoc,
      hV, Matrix.one_mul]
  have hWs : ∀ i j, ∑ a, W a i * W a j = if i = j then l i else 0 := by
    intro i j
    have := congrFun (congrFun hW i) j
    rw [Matrix.mul_apply, Matrix.diagonal_apply] at this
    exact this
  have hpos : ∀ i, 0 ≤ l i := by
    intro i
    have := hWs i i
    rw [if_pos rfl] at this
    rw [← this]
    exact Finset.sum_nonneg fun a _ => mul_self_nonneg _
  have hzero : ∀ i, l i = 0 → ∀ a, W a i = 0 := by
    intro i hi a
    have := hWs i i
    rw [if_pos rfl, hi] at this
    have := (Finset.sum_eq_zero_iff_of_nonneg (fun a _ => mul_self_nonneg (W a i))).1 this a
      (Finset.mem_univ a)
    exact mul_self_eq_zero.1 this
  -- normalised images
  have hnorm : ∀ i j, 0 < l i → 0 < l j →
      ∑ a, (W a i / Real.sqrt (l i)) * (W a j / Real.sqrt (l j)) = if i = j then 1 else 0 := by
    intro i j hi hj
    have e : ∀ a, (W a i / Real.sqrt (l i)) * (W a j / Real.sqrt (l j)) =
        (W a i * W a j) / (Real.sqrt (l i) * Real.sqrt (l j)) := fun a => by
      rw [div_mul_div_comm]
    rw [Finset.sum_congr rfl fun a _ => e a, ← Finset.sum_div, hWs i j]
    by_cases hij : i = j
    · subst hij
      rw [if_pos rfl, if_pos rfl, Real.mul_self_sqrt (hpos i), div_self (ne_of_gt hi)]
    · rw [if_neg hij, if_neg hij, zero_div]
  -- no positive eigenvalue beyond the number of rows
  have hrank : ∀ k : Fin n, m ≤ (k : ℕ) → l k = 0 := by
    intro k hk
    by_contra hne
    have hk0 : 0 < l k := lt_of_le_of_ne (hpos k) (Ne.symm hne)
    have hle : (k : ℕ) + 1 ≤ n := k.2
    let B : Matrix (Fin m) (Fin (k + 1)) ℝ := Matrix.of fun a i =>
      W a (Fin.castLE hle i) / Real.sqrt (l (Fin.castLE hle i))
    have hposi : ∀ i : Fin (k + 1), 0 < l (Fin.castLE hle i) := by
      intro i
      refine lt_of_lt_of_le hk0 (hanti ?_)
      show (i : ℕ) ≤ (k : ℕ)
      omega
    have hB : B.transpose * B = 1 := by
      ext i j
      rw [Matrix.mul_apply, Matrix.one_apply]
      simp only [B, Matrix.transpose_apply, Matrix.of_apply]
      rw [hnorm _ _ (hposi i) (hposi j)]
      simp [Fin.ext_iff]
    have := orth_cols_le B hB
    omega
  -- left singular vectors
  let v : Fin m → Fin m → ℝ := fun i a => if h : (i : ℕ) < n then
    W a ⟨i, h⟩ / Real.sqrt (l ⟨i, h⟩) else 0
  let S : Set (Fin m) := {i | ∃ h : (i : ℕ) < n, 0 < l ⟨i, h⟩}
  obtain ⟨U, hU, hUv⟩ := exists_orth_extension v S (by
    rintro i ⟨hi, hi'⟩ j ⟨hj, hj'⟩
    simp only [v, dif_pos hi, dif_pos hj]
    rw [hnorm _ _ hi' hj']
    simp [Fin.ext_iff])
  have hVV : V * V.transpose = 1 := mul_eq_one_comm.1 hV
  refine ⟨U, fun k => Real.sqrt (l (Fin.castLE (Nat.min_le_right _ _) k)), V, hU, hV,
    fun _ => Real.sqrt_nonneg _, ?_, ?_⟩
  · intro i j hij
    exact Real.sqrt_le_sqrt (hanti hij)
  · intro i j
    -- A = W Vᵀ
    have hA : A = W * V.transpose := by
      show A = A * V * V.transpose
      rw [Matrix.mul_assoc, hVV, Matrix.mul_one]
    have hcol : ∀ (k : Fin (min m n)), W i (Fin.castLE (Nat.min_le_right _ _) k) =
        U i (Fin.castLE (Nat.min_le_left _ _) k) *
          Real.sqrt (l (Fin.castLE (Nat.min_le_right _ _) k)) := by
      intro k
      by_cases h0 : l (Fin.castLE (Nat.min_le_right _ _) k) = 0
      · rw [h0, Real.sqrt_zero, mul_zero]
        exact hzero _ h0 i
      · have hp : 0 < l (Fin.castLE (Nat.min_le_right _ _) k) := lt_of_le_of_ne (hpos _) (Ne.symm h0)
        have hkn : ((Fin.castLE (Nat.min_le_left _ _) k : Fin m) : ℕ) < n :=
          lt_of_lt_of_le k.2 (Nat.min_le_right m n)
        have hk := hUv (Fin.castLE (Nat.min_le_left _ _) k) ⟨hkn, hp⟩ i
        rw [hk]
        simp only [v, dif_pos hkn]
        have hs : Real.sqrt (l (Fin.castLE (Nat.min_le_right m n) k)) ≠ 0 :=
          ne_of_gt (Real.sqrt_pos.2 hp)
        have : (⟨((Fin.castLE (Nat.min_le_left _ _) k : Fin m) : ℕ), hkn⟩ : Fin n) =
          Fin.castLE (Nat.min_le_right _ _) k := rfl
        rw [this, div_mul_cancel₀ _ hs]
    rw [show A i j = (W * V.transpose) i j from congrFun (congrFun hA i) j, Matrix.mul_apply]
    have hsum : ∑ k : Fin n, W i k * V.transpose k j =
        ∑ k : Fin (min m n), W i (Fin.castLE (Nat.min_le_right _ _) k) *
          V.transpose (Fin.castLE (Nat.min_le_right _ _) k) j := by
      symm
      refine Finset.sum_of_injOn (fun k => Fin.castLE (Nat.min_le_right m n) k) ?_ ?_ ?_ ?_
      · intro a _ b _ h
        exact Fin.castLE_injective _ h
      · intro a _
        exact Finset.mem_coe.2 (Finset.mem_univ _)
      · intro k _ hk
        have hkm : m ≤ (k : ℕ) := by
          by_contra hlt
          refine hk ⟨⟨k, by have := k.2; omega⟩, Finset.mem_coe.2 (Finset.mem_univ _), ?_⟩
          rfl
        rw [hzero k (hrank k hkm) i, zero_mul]
      · intro a _
        rfl
    rw [hsum]
    refine Finset.sum_congr rfl fun k _ => ?_
    rw [hcol k, Matrix.transpose_apply]

/-- Exact versions of the routines over the reals. -/
noncomputable def realLA : LinAlg ℝ where
  qr {m n} A :=
    let U := Classical.choose (exists_svd A)
    let Q : Matrix (Fin m) (Fin (min m n)) ℝ := U.submatrix id (Fin.castLE (Nat.min_le_left m n))
    (Q, Q.transpose * A)
  svd {m n} A :=
    let U := Classical.choose (exists_svd A)
    let s := Classical.choose (Classical.choose_spec (exists_svd A))
    let V := Classical.choose (Classical.choose_spec (Classical.choose_spec (exists_svd A)))
    (U.submatrix id (Fin.castLE (Nat.min_le_left m n)), s,
      (V.submatrix id (Fin.castLE (Nat.min_le_right m n))).transpose)
  svdFull A :=
    let U := Classical.choose (exists_svd A)
    let s := Classical.choose (Classical.choose_spec (exists_svd A))
    let V := Classical.choose (Classical.choose_spec (Classical.choose_spec (exists_svd A)))
    (U, s, V.transpose)
  svds {m n} k A :=
    let U := Classical.choose (exists_svd A)
    let s := Classical.choose (Classical.choose_spec (exists_svd A))
    let V := Classical.choose (Classical.choose_spec (Classical.choose_spec (exists_svd A)))
    if h : k ≤ min m n then
      (Matrix.of fun i j => U i (Fin.castLE (h.trans (Nat.min_le_left m n)) (Fin.rev j)),
        fun j => s (Fin.castLE h (Fin.rev j)),
        Matrix.of fun j i => V i (Fin.castLE (h.trans (Nat.min_le_right m n)) (Fin.rev j)))
    else (0, 0, 0)
  inv A := A⁻¹

theorem cols_orth {m k : ℕ} (U : Matrix (Fin m) (Fin m) ℝ) (h : U.transpose * U = 1)
    (f : Fin k → Fin m) (hf : Function.Injective f) :
    (U.submatrix id f).transpose * U.submatrix id f = 1 := by
  ext i j
  have := congrFun (congrFun h (f i)) (f j)
  rw [Matrix.mul_apply] at this ⊢
  simp only [Matrix.transpose_apply, Matrix.submatrix_apply, id] at this ⊢
  rw [this, Matrix.one_apply, Matrix.one_apply]
  simp only [hf.eq_iff]

theorem realLA_svd {m n : ℕ} (A : Matrix (Fin m) (Fin n) ℝ) : SvdOk realLA A := by
  obtain ⟨hU, hV, hs, hanti, hA⟩ :=
    Classical.choose_spec (Classical.choose_spec (Classical.choose_spec (exists_svd A)))
  refine ⟨?_, ?_, ?_, ?_, ?_⟩
  · ext i j
    rw [Matrix.mul_apply, hA i j]
    refine Finset.sum_congr rfl fun k _ => ?_
    rw [Matrix.mul_diagonal]
    rfl
  · exact cols_orth _ hU _ (Fin.castLE_injective _)
  · show (Matrix.transpose _) * (Matrix.transpose _).transpose = 1
    rw [Matrix.transpose_transpose]
    exact cols_orth _ hV _ (Fin.castLE_injective _)
  · exact hs
  · exact fun i j hij => hanti hij

theorem realLA_qr {m n : ℕ} (A : Matrix (Fin m) (Fin n) ℝ) : QrOk realLA A := by
  obtain ⟨h1, h2, _⟩ := realLA_svd A
  have hq : (realLA.qr A).1 = (realLA.svd A).1 := rfl
  have hr : (realLA.qr A).2 = (realLA.svd A).1.transpose * A := rfl
  unfold QrOk
  rw [hq, hr]
  refine ⟨?_, h2⟩
  generalize (realLA.svd A).1 = U at h1 h2 ⊢
  rw [← h1]
  rw [← Matrix.mul_assoc, ← Matrix.mul_assoc, ← Matrix.mul_assoc, Matrix.mul_assoc U _ U,
    h2, Matrix.mul_one]

theorem realLA_inv {n : ℕ} (A : Matrix (Fin n) (Fin n) ℝ) (h : IsUnit A.det) : InvOk realLA A :=
  Matrix.nonsing_inv_mul A h

end DynCF
