/- C103: the experiment that appends diagonal blocks (`split_mtx_block_diag`, `get_dynamics_mtx`). -/
import Verif.Props.PsiExperiments2
import Verif.Props.SvdBlock

namespace DynCF
variable {K : Type}

open Matrix

/-- **C44, exactness.** With orthonormal factors and non-negative singular values, appending a diagonal block
is exact whenever the block matrix has rank at most the number of kept components. -/
theorem C44_exact [Field K] [LinearOrder K] (la : LinAlg K) (rng : Rng K)
    (argsort : ArgSort K) (ha : ArgSortOk argsort) {m r q a b : ℕ} (U : Matrix (Fin m) (Fin r) K) (s : Fin r → K)
    (V : Matrix (Fin r) (Fin q) K) (N : Matrix (Fin a) (Fin b) K) (hN : SvdOk la N) (nPower os : ℕ)
    (hU : U.transpose * U = 1) (hV : V * V.transpose = 1) (hs : ∀ i, 0 ≤ s i)
    (hrank : (blk (U * diagonal s * V) 0 0 N).rank ≤ r) :
    ∃ (U2 : Matrix (Fin (m + a)) (Fin r) K) (s2 : Fin r → K) (V2 : Matrix (Fin r) (Fin (q + b)) K),
      updateSvdNewSubmatrix la rng argsort ⟨m, r, U⟩ (.vec r s) ⟨r, q, V⟩ ⟨a, b, N⟩ nPower os =
        .ok (⟨m + a, r, U2⟩, .vec r s2, ⟨r, q + b, V2⟩) ∧
      U2 * diagonal s2 * V2 = blk (U * diagonal s * V) 0 0 N ∧
      U2.transpose * U2 = 1 ∧ V2 * V2.transpose = 1 ∧ ∀ i, 0 ≤ s2 i := by
  obtain ⟨p, k, u2, s2, v2, f, hprod, ho1, ho2, hrun, hk, hf, -, htop, hex, hnn⟩ :=
    C44_diagonal la rng argsort ha U s V N hN nPower os
  subst hk
  have o1 := ho1 hU
  have o2 := ho2 hV
  have hcard : nonzeros s2 ≤ k := by
    rw [← rank_orthonormal_diag u2 s2 v2.transpose o1 (by rw [Matrix.transpose_transpose, o2]), hprod]
    exact hrank
  have hzero : ∀ x, x ∉ Set.range f → s2 x = 0 := by
    intro x hx
    by_contra hne
    have hpos : 0 < s2 x := lt_of_le_of_ne (hnn hs x) (Ne.symm hne)
    have hall : ∀ j, s2 (f j) ≠ 0 := fun j => (hpos.trans_le (htop x hx j)).ne'
    have hsub : insert x (Finset.univ.image f) ⊆ Finset.univ.filter fun i => s2 i ≠ 0 := by
      intro y hy
      rw [Finset.mem_filter]
      refine ⟨Finset.mem_univ _, ?_⟩
      rcases Finset.mem_insert.1 hy with rfl | hy
      · exact hne
      · obtain ⟨j, -, rfl⟩ := Finset.mem_image.1 hy
        exact hall j
    have h1 := Finset.card_le_card hsub
    rw [Finset.card_insert_of_notMem (by
      intro h
      obtain ⟨j, -, hj⟩ := Finset.mem_image.1 h
      exact hx ⟨j, hj⟩), Finset.card_image_of_injective _ hf, Finset.card_univ, Fintype.card_fin] at h1
    unfold nonzeros at hcard
    omega
  refine ⟨_, _, _, hrun, hex hzero, castLE_cols_orth u2 o1 f hf _ fun _ _ => rfl, ?_, fun i => hnn hs _⟩
  have := castLE_cols_orth v2 o2 f hf (Matrix.of fun j i => v2 i (f j)).transpose fun _ _ => rfl
  rwa [Matrix.transpose_transpose] at this

/-! ### the blocks -/

/-- `B` is the square block of `M` on the diagonal positions `off, …, off + len - 1`. -/
def IsDiagBlock {n : ℕ} (M : Matrix (Fin n) (Fin n) K) (off len : ℕ) (B : Mat K) : Prop :=
  ∃ h : off + len ≤ n, B = ⟨len, len, Matrix.of fun i j => M ⟨off + i, by omega⟩ ⟨off + j, by omega⟩⟩

theorem mat_ext_entries {A B : Mat K} (hr : A.rows = B.rows) (hc : A.cols = B.cols)
    (h : ∀ (i j : ℕ) (h1 : i < A.rows) (h2 : j < A.cols),
      A.val ⟨i, h1⟩ ⟨j, h2⟩ = B.val ⟨i, hr ▸ h1⟩ ⟨j, hc ▸ h2⟩) : A = B := by
  obtain ⟨m, n, A⟩ := A
  obtain ⟨m', n', B⟩ := B
  dsimp only at hr hc
  subst hr hc
  congr 1
  ext i j
  exact h i j i.2 j.2

theorem slice2_block {n : ℕ} (M : Matrix (Fin n) (Fin n) K) (off len : ℕ) (h : off + len ≤ n) (a b : ℤ)
    (ha : a = off) (hb : b = ((off + len : ℕ) : ℤ)) :
    IsDiagBlock M off len ((⟨n, n, M⟩ : Mat K).slice2 a b a b) := by
  subst ha hb
  have c1 : clipBound n (off : ℤ) = off := by rw [clip_nonneg _ _ (by omega)]; simp; omega
  have c2 : clipBound n ((off + len : ℕ) : ℤ) = off + len := by
    rw [clip_nonneg _ _ (by omega), Int.toNat_natCast, Nat.min_eq_left h]
  refine ⟨h, mat_ext_entries ?_ ?_ ?_⟩
  · show clipBound n ((off + len : ℕ) : ℤ) - clipBound n (off : ℤ) = len
    omega
  · show clipBound n ((off + len : ℕ) : ℤ) - clipBound n (off : ℤ) = len
    omega
  · intro i j h1 h2
    show M ⟨clipBound n (off : ℤ) + i, _⟩ ⟨clipBound n (off : ℤ) + j, _⟩ = _
    congr 2 <;> simp [c1]

section
variable [Field K] [LinearOrder K] [IsStrictOrderedRing K] [FloorRing K]

/-- **C103, the blocks.** For a square matrix, a non-negative first ratio and a positive step, the first
block is the leading `first × first` block, and block `k + 1` is the `step × step` block on the diagonal
positions from `first + k * step`, for `k < (n - first) / step`. -/
theorem C103_blocks {n : ℕ} (M : Matrix (Fin n) (Fin n) K) (rf rn : K) (first step : ℕ)
    (hfirst : firstBlock n rf = first) (hle : first ≤ n) (hstep : blockStep n rf rn = step) (hpos : 0 < step) :
    ∃ B0 l, splitMtxBlockDiag ⟨n, n, M⟩ rf rn = .ok (B0 :: l) ∧ IsDiagBlock M 0 first B0 ∧
      l.length = (n - first) / step ∧
      ∀ k B, l[k]? = some B → IsDiagBlock M (first + k * step) step B := by
  unfold splitMtxBlockDiag
  dsimp only
  change ∃ B0 l, (if blockStep n rf rn = 0 then _ else Except.ok
    (Mat.slice2 ⟨n, n, M⟩ 0 (firstBlock n rf) 0 (firstBlock n rf) ::
      (List.range (Int.fdiv ((n : ℤ) - firstBlock n rf) (blockStep n rf rn)).toNat).map fun (k : ℕ) =>
        Mat.slice2 ⟨n, n, M⟩ (firstBlock n rf + k * blockStep n rf rn)
          (firstBlock n rf + k * blockStep n rf rn + blockStep n rf rn)
          (firstBlock n rf + k * blockStep n rf rn)
          (firstBlock n rf + k * blockStep n rf rn + blockStep n rf rn))) = _ ∧ _
  rw [hfirst, hstep, if_neg (by omega)]
  have hn : (Int.fdiv ((n : ℤ) - first) step).toNat = (n - first) / step := by
    rw [Int.fdiv_eq_ediv_of_nonneg _ (by omega), ← Nat.cast_sub hle, ← Int.natCast_ediv, Int.toNat_natCast]
  refine ⟨_, _, rfl, slice2_block M 0 first (by omega) _ _ (by simp) (by simp), by simp [hn], ?_⟩
  intro k B hB
  rw [List.getElem?_map, hn] at hB
  by_cases hk : k < (n - first) / step
  · rw [List.getElem?_range hk] at hB
    have hB := Option.some.inj hB
    subst hB
    have h1 : (k + 1) * step ≤ n - first := by
      calc (k + 1) * step ≤ (n - first) / step * step := Nat.mul_le_mul_right _ hk
        _ ≤ n - first := Nat.div_mul_le_self _ _
    rw [Nat.add_mul, Nat.one_mul] at h1
    exact slice2_block M (first + k * step) step (by omega) _ _ (by push_cast; ring) (by push_cast; ring)
  · rw [List.getElem?_eq_none (by simp; omega)] at hB
    cases hB

omit [IsStrictOrderedRing K] in
/-- **C103, no step.** A step of zero raises `ZeroDivisionError`. -/
theorem C103_zero_step (A : Mat K) (rf rn : K) (h : blockStep A.cols rf rn = 0) :
    splitMtxBlockDiag A rf rn = .error .zeroDivisionError := by
  unfold splitMtxBlockDiag
  dsimp only
  change (if blockStep A.cols rf rn = 0 then _ else _) = _
  rw [if_pos h]

end

/-- The claim one would expect, as for `split_matrix`: the blocks of a square matrix cover its diagonal. -/
def BlocksCover : Prop := ∀ (n : ℕ) (M : Matrix (Fin n) (Fin n) ℚ) (rf rn : ℚ), 0 ≤ rf → rf ≤ 1 →
  0 < blockStep n rf rn → ∃ l, splitMtxBlockDiag ⟨n, n, M⟩ rf rn = .ok l ∧ (l.map Mat.rows).sum = n

/-- The rows and columns that no block covers: `n - first` modulo the step. -/
theorem C103_cover_partial {n : ℕ} (M : Matrix (Fin n) (Fin n) K) [Field K] [LinearOrder K]
    [IsStrictOrderedRing K] [FloorRing K] (rf rn : K) (first step : ℕ) (hfirst : firstBlock n rf = first)
    (hle : first ≤ n) (hstep : blockStep n rf rn = step) (hpos : 0 < step) :
    ∃ l, splitMtxBlockDiag ⟨n, n, M⟩ rf rn = .ok l ∧
      (l.map Mat.rows).sum + (n - first) % step = n := by
  obtain ⟨B0, l, h1, ⟨_, h2⟩, h3, h4⟩ := C103_blocks M rf rn first step hfirst hle hstep hpos
  refine ⟨_, h1, ?_⟩
  have hrep : l.map Mat.rows = List.replicate ((n - first) / step) step := by
    rw [List.eq_replicate_iff]
    refine ⟨by simp [h3], fun x hx => ?_⟩
    obtain ⟨B, hB, rfl⟩ := List.mem_map.1 hx
    obtain ⟨k, hk⟩ := List.mem_iff_getElem?.1 hB
    obtain ⟨_, h5⟩ := h4 k B hk
    rw [h5]
  rw [List.map_cons, List.sum_cons, hrep, List.sum_replicate, h2]
  dsimp only
  have := Nat.div_add_mod (n - first) step
  rw [smul_eq_mul, Nat.mul_comm]
  omega

/-- **C103 is violated**: five rows, first block 2, step 2 – the last row and column are in no block. -/
theorem C103_violated : ¬ BlocksCover := by
  intro h
  have hf : firstBlock 5 (2/5 : ℚ) = (2 : ℕ) := by decide +kernel
  have hs : blockStep 5 (2/5 : ℚ) (2/3) = (2 : ℕ) := by decide +kernel
  obtain ⟨l, h1, h2⟩ := h 5 0 (2/5) (2/3) (by norm_num) (by norm_num) (by rw [hs]; norm_num)
  obtain ⟨l', h3, h4⟩ := C103_cover_partial (0 : Matrix (Fin 5) (Fin 5) ℚ) (2/5) (2/3) 2 2 hf (by norm_num) hs
    (by norm_num)
  rw [h1] at h3
  cases h3
  omega

end DynCF
