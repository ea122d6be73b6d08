/-
Property theorem C44 (appending an independent block to an SVD).
-/
import Verif.Props.SvdUpdate

set_option linter.unusedSectionVars false

namespace DynCF
open Matrix
variable {K : Type}

/-- The contract of `np.argsort`: a permutation of the positions that puts the values in
non-decreasing order. -/
def ArgSortOk [LE K] (argsort : ArgSort K) : Prop :=
  ∀ a : List K, (argsort a).Perm (List.range a.length) ∧
    (argsort a).Pairwise fun i j => ∀ x y, a[i]? = some x → a[j]? = some y → x ≤ y

theorem mapM_pyIdx_fin {n : ℕ} (rs : List (Fin n)) :
    ((rs.map Fin.val).map fun i : ℕ => (i : ℤ)).mapM (fun i => pyIdx n i) = .ok rs := by
  induction rs with
  | nil => rfl
  | cons x rs ih =>
    rw [List.map_cons, List.map_cons, List.mapM_cons, pyIdx_coe, except_bind_ok, ih]
    rfl

theorem selectCols_fin {m n : ℕ} (A : Matrix (Fin m) (Fin n) K) (rs : List (Fin n)) :
    Mat.selectCols ⟨m, n, A⟩ (rs.map Fin.val) =
      .ok ⟨m, rs.length, Matrix.of fun i j => A i (rs.get j)⟩ := by
  unfold Mat.selectCols Mat.takeIdx
  rw [Mat.T_mk]
  dsimp only
  rw [mapM_pyIdx_fin]
  rfl

theorem vecTakeIdx_fin {n : ℕ} (v : Fin n → K) (rs : List (Fin n)) :
    Vec.takeIdx ⟨n, v⟩ ((rs.map Fin.val).map fun i : ℕ => (i : ℤ)) =
      .ok ⟨rs.length, fun j => v (rs.get j)⟩ := by
  unfold Vec.takeIdx
  dsimp only
  rw [mapM_pyIdx_fin]
  rfl

theorem exists_fin_list {n : ℕ} (l : List ℕ) (h : ∀ x ∈ l, x < n) :
    ∃ rs : List (Fin n), rs.map Fin.val = l := by
  induction l with
  | nil => exact ⟨[], rfl⟩
  | cons x l ih =>
    obtain ⟨rs, hrs⟩ := ih fun y hy => h y (List.mem_cons_of_mem _ hy)
    exact ⟨⟨x, h x List.mem_cons_self⟩ :: rs, by rw [List.map_cons, hrs]⟩

/-- The `k` positions kept by `argsort(v)[::-1][:k]`. -/
theorem topMask [LinearOrder K] (argsort : ArgSort K) (ha : ArgSortOk argsort) {n : ℕ} (v : Fin n → K)
    (k : ℕ) :
    ∃ rs : List (Fin n), ((argsort (List.ofFn v)).reverse).take k = rs.map Fin.val ∧
      rs.length = min k n ∧ rs.Nodup ∧
      (∀ i j : Fin rs.length, i ≤ j → v (rs.get j) ≤ v (rs.get i)) ∧
      ∀ x, x ∉ rs → ∀ y ∈ rs, v x ≤ v y := by
  obtain ⟨hp, hs⟩ := ha (List.ofFn v)
  rw [List.length_ofFn] at hp
  obtain ⟨l, hl⟩ := exists_fin_list (n := n) (argsort (List.ofFn v)).reverse (by
    intro x hx
    have := hp.mem_iff.1 (List.mem_reverse.1 hx)
    exact List.mem_range.1 this)
  have hlen : l.length = n := by
    rw [← List.length_map (f := Fin.val), hl, List.length_reverse, hp.length_eq, List.length_range]
  have hnd : l.Nodup := by
    refine List.Nodup.of_map Fin.val ?_
    rw [hl, List.nodup_reverse, hp.nodup_iff]
    exact List.nodup_range
  have hsort : l.Pairwise fun x y => v y ≤ v x := by
    have h2 : (l.map Fin.val).Pairwise fun i j => ∀ x y, (List.ofFn v)[j]? = some x →
        (List.ofFn v)[i]? = some y → x ≤ y := by
      rw [hl, List.pairwise_reverse]
      exact hs
    rw [List.pairwise_map] at h2
    refine h2.imp ?_
    intro a b hab
    exact hab _ _ (by simp) (by simp)
  have hall : ∀ x : Fin n, x ∈ l := by
    intro x
    have : x.val ∈ l.map Fin.val := by
      rw [hl, List.mem_reverse, hp.mem_iff]
      exact List.mem_range.2 x.2
    obtain ⟨y, hy, he⟩ := List.mem_map.1 this
    rwa [← Fin.ext he]
  refine ⟨l.take k, ?_, ?_, ?_, ?_, ?_⟩
  · rw [← hl, List.map_take]
  · rw [List.length_take, hlen]
  · exact hnd.sublist (List.take_sublist _ _)
  · intro i j hij
    rcases eq_or_lt_of_le hij with h | h
    · subst h
      exact le_refl _
    · have := List.pairwise_iff_getElem.1 (hsort.sublist (List.take_sublist k l)) i j i.2 j.2 h
      exact this
  · intro x hx y hy
    have hx' : x ∈ l.drop k := by
      have := hall x
      rw [← List.take_append_drop k l, List.mem_append] at this
      exact this.resolve_left hx
    have := (List.pairwise_append.1 (show (l.take k ++ l.drop k).Pairwise _ by
      rw [List.take_append_drop]; exact hsort)).2.2
    exact this y hy x hx'

theorem selected_sum [Field K] {m n p k : ℕ} (U : Matrix (Fin m) (Fin p) K) (s : Fin p → K)
    (V : Matrix (Fin n) (Fin p) K) (f : Fin k → Fin p) (hf : Function.Injective f)
    (h0 : ∀ x, x ∉ Set.range f → s x = 0) :
    (Matrix.of fun i j => U i (f j)) * Matrix.diagonal (fun j => s (f j)) *
      (Matrix.of fun j i => V i (f j)) = U * Matrix.diagonal s * V.transpose := by
  ext i j
  rw [Matrix.mul_apply, Matrix.mul_apply]
  simp only [Matrix.mul_diagonal, Matrix.of_apply, Matrix.transpose_apply]
  refine Finset.sum_of_injOn f ?_ ?_ ?_ ?_
  · intro a _ b _ h
    exact hf h
  · intro a _
    exact Finset.mem_coe.2 (Finset.mem_univ _)
  · intro a _ ha
    rw [h0 a (by
      rintro ⟨b, rfl⟩
      exact ha ⟨b, Finset.mem_coe.2 (Finset.mem_univ _), rfl⟩), mul_zero, zero_mul]
  · intro a _
    rfl

theorem diagonal_append [CommRing K] {r p : ℕ} (s : Fin r → K) (t : Fin p → K) :
    Matrix.diagonal (fun i => Fin.addCases s t i : Fin (r + p) → K) =
      blk (Matrix.diagonal s) 0 0 (Matrix.diagonal t) := by
  apply ext_blk <;> intro i j
  · simp [Matrix.diagonal_apply]
  · simp [Matrix.diagonal_apply, Fin.ext_iff]; omega
  · simp [Matrix.diagonal_apply, Fin.ext_iff]; omega
  · simp [Matrix.diagonal_apply, Fin.ext_iff]

/-- **C44, diagonal `S`.** The code forms `u2`, `s2`, `v2` with
`u2 diag(s2) v2ᵀ = blockdiag(U S V, N)` exactly (orthonormal if `U`, `V` are) and returns `r` of its
components, chosen by `f`: the returned singular values are non-increasing, and no dropped one is larger
than a kept one. If the dropped ones are zero, the returned factors multiply to the block matrix.
Non-negative `s` stay non-negative. -/
theorem C44_diagonal [Field K] [LinearOrder K] (la : LinAlg K) (rng : Rng K) (argsort : ArgSort K)
    (ha : ArgSortOk argsort) {m r q a b : ℕ} (U : Matrix (Fin m) (Fin r) K) (s : Fin r → K)
    (V : Matrix (Fin r) (Fin q) K) (N : Matrix (Fin a) (Fin b) K) (hN : SvdOk la N) (nPower os : ℕ) :
    ∃ (p k : ℕ) (u2 : Matrix (Fin (m + a)) (Fin p) K) (s2 : Fin p → K)
      (v2 : Matrix (Fin (q + b)) (Fin p) K) (f : Fin k → Fin p),
      u2 * Matrix.diagonal s2 * v2.transpose = blk (U * Matrix.diagonal s * V) 0 0 N ∧
      (U.transpose * U = 1 → u2.transpose * u2 = 1) ∧ (V * V.transpose = 1 → v2.transpose * v2 = 1) ∧
      updateSvdNewSubmatrix la rng argsort ⟨m, r, U⟩ (.vec r s) ⟨r, q, V⟩ ⟨a, b, N⟩ nPower os =
        .ok (⟨m + a, k, Matrix.of fun i j => u2 i (f j)⟩, .vec k (fun j => s2 (f j)),
          ⟨k, q + b, Matrix.of fun j i => v2 i (f j)⟩) ∧
      k = r ∧ Function.Injective f ∧ (∀ i j, i ≤ j → s2 (f j) ≤ s2 (f i)) ∧
      (∀ x, x ∉ Set.range f → ∀ j, s2 x ≤ s2 (f j)) ∧
      ((∀ x, x ∉ Set.range f → s2 x = 0) →
        (Matrix.of fun i j => u2 i (f j)) * Matrix.diagonal (fun j => s2 (f j)) *
          (Matrix.of fun j i => v2 i (f j)) = blk (U * Matrix.diagonal s * V) 0 0 N) ∧
      ((∀ i, 0 ≤ s i) → ∀ x, 0 ≤ s2 x) := by
  obtain ⟨h1, h2, h3, h4, -⟩ := hN
  obtain ⟨s2, hs2⟩ : ∃ s2 : Fin (r + min a b) → K,
      Vec.append ⟨r, s⟩ ⟨min a b, (la.svd N).2.1⟩ = ⟨r + min a b, s2⟩ := ⟨_, rfl⟩
  have hdiag : Matrix.diagonal s2 = blk (Matrix.diagonal s) 0 0 (Matrix.diagonal (la.svd N).2.1) := by
    rw [← diagonal_append]
    cases hs2
    rfl
  obtain ⟨rs, hrs, hlen, hnd, hmono, hdrop⟩ := topMask argsort ha s2 r
  have hmem : ∀ x, x ∉ Set.range rs.get → x ∉ rs := by
    intro x hx hx'
    exact hx (List.mem_iff_get.1 hx')
  have hinj : Function.Injective rs.get := List.nodup_iff_injective_get.1 hnd
  have hprod : blk U 0 0 (la.svd N).1 * Matrix.diagonal s2 *
      (blk V.transpose 0 0 (la.svd N).2.2.transpose).transpose =
      blk (U * Matrix.diagonal s * V) 0 0 N := by
    rw [hdiag, blk_transpose, blk_mul_blk, blk_mul_blk]
    simp [h1]
  have hk : rs.length = r := by rw [hlen, Nat.min_eq_left (Nat.le_add_right _ _)]
  refine ⟨r + min a b, rs.length, blk U 0 0 (la.svd N).1, s2,
    blk V.transpose 0 0 (la.svd N).2.2.transpose, rs.get,
    hprod, ?_, ?_, ?_, hk, hinj, hmono, ?_, ?_, ?_⟩
  · intro hU
    rw [blk_transpose, blk_mul_blk]
    simp [hU, h2, blk_one]
  · intro hV
    rw [blk_transpose, blk_mul_blk]
    simp [hV, h3, blk_one]
  · have hofn : List.ofFn (Vec.append ⟨r, s⟩ ⟨min a b, (la.svd N).2.1⟩).val = List.ofFn s2 := by
      rw [hs2]
    unfold updateSvdNewSubmatrix
    dsimp only
    rw [hofn, hs2]
    simp only [Mat.T_mk, blockDiag_mk, hrs, selectCols_fin, vecTakeIdx_fin, except_bind_ok]
    rfl
  · intro x hx j
    exact hdrop x (hmem x hx) _ (List.get_mem _ _)
  · intro h0
    rw [selected_sum _ _ _ rs.get hinj h0]
    exact hprod
  · intro hs x
    cases hs2
    refine Fin.addCases (fun i => ?_) (fun i => ?_) x
    · dsimp only
      rw [Fin.addCases_left]
      exact hs i
    · dsimp only
      rw [Fin.addCases_right]
      exact h4 i

/-- **C44, general `S`.** With a square (not necessarily diagonal) core `S` the code forms `u2`, `S2`,
`v2` with `u2 S2 v2ᵀ = blockdiag(U S V, N)` exactly and returns `u2 d1`, `d2`, `(v2 d3ᵀ)ᵀ` where
`d1, d2, d3` is the truncated SVD of the core `S2`; the result is exact if that SVD is. -/
theorem C44_general [Field K] [LinearOrder K] (la : LinAlg K) (rng : Rng K) (argsort : ArgSort K)
    {m r q a b : ℕ} (U : Matrix (Fin m) (Fin r) K) (S : Matrix (Fin r) (Fin r) K)
    (V : Matrix (Fin r) (Fin q) K) (N : Matrix (Fin a) (Fin b) K) (hN : SvdOk la N) (nPower os : ℕ) :
    ∃ (p k : ℕ) (u2 : Matrix (Fin (m + a)) (Fin p) K) (S2 : Matrix (Fin p) (Fin p) K)
      (v2 : Matrix (Fin (q + b)) (Fin p) K) (d1 : Matrix (Fin p) (Fin k) K) (d2 : Fin k → K)
      (d3 : Matrix (Fin k) (Fin p) K) (U2 : Matrix (Fin (m + a)) (Fin k) K)
      (V2 : Matrix (Fin k) (Fin (q + b)) K),
      u2 * S2 * v2.transpose = blk (U * S * V) 0 0 N ∧
      (U.transpose * U = 1 → u2.transpose * u2 = 1) ∧ (V * V.transpose = 1 → v2.transpose * v2 = 1) ∧
      randomSvd la rng ⟨p, p, S2⟩ r nPower os = (⟨p, k, d1⟩, ⟨k, d2⟩, ⟨k, p, d3⟩) ∧
      updateSvdNewSubmatrix la rng argsort ⟨m, r, U⟩ (.mat ⟨r, r, S⟩) ⟨r, q, V⟩ ⟨a, b, N⟩ nPower os =
        .ok (⟨m + a, k, U2⟩, .vec k d2, ⟨k, q + b, V2⟩) ∧ k = r ∧
      U2 * Matrix.diagonal d2 * V2 = u2 * (d1 * Matrix.diagonal d2 * d3) * v2.transpose ∧
      (d1 * Matrix.diagonal d2 * d3 = S2 →
        U2 * Matrix.diagonal d2 * V2 = blk (U * S * V) 0 0 N) := by
  obtain ⟨h1, h2, h3, -, -⟩ := hN
  obtain ⟨k, d1, d2, d3, -, hk, he, -⟩ := C47_components la rng
    (blk S 0 0 (Matrix.diagonal (la.svd N).2.1)) r nPower os
  have hprod : blk U 0 0 (la.svd N).1 * blk S 0 0 (Matrix.diagonal (la.svd N).2.1) *
      (blk V.transpose 0 0 (la.svd N).2.2.transpose).transpose = blk (U * S * V) 0 0 N := by
    rw [blk_transpose, blk_mul_blk, blk_mul_blk]
    simp [h1]
  have hform : blk U 0 0 (la.svd N).1 * d1 * Matrix.diagonal d2 *
      (blk V.transpose 0 0 (la.svd N).2.2.transpose * d3.transpose).transpose =
      blk U 0 0 (la.svd N).1 * (d1 * Matrix.diagonal d2 * d3) *
        (blk V.transpose 0 0 (la.svd N).2.2.transpose).transpose := by
    rw [Matrix.transpose_mul, Matrix.transpose_transpose]
    simp only [Matrix.mul_assoc]
  refine ⟨r + min a b, k, blk U 0 0 (la.svd N).1, _, blk V.transpose 0 0 (la.svd N).2.2.transpose,
    d1, d2, d3, blk U 0 0 (la.svd N).1 * d1,
    (blk V.transpose 0 0 (la.svd N).2.2.transpose * d3.transpose).transpose,
    hprod, ?_, ?_, he, ?_, by omega, hform, ?_⟩
  · intro hU
    rw [blk_transpose, blk_mul_blk]
    simp [hU, h2, blk_one]
  · intro hV
    rw [blk_transpose, blk_mul_blk]
    simp [hV, h3, blk_one]
  · unfold updateSvdNewSubmatrix
    simp only [Mat.T_mk, blockDiag_mk, Mat.diag, he, Mat.dot_mk, except_bind_ok]
    rw [he]
    rfl
  · intro hd
    rw [hform, hd, hprod]

def sortKey (a : List K) (i : ℕ) : WithBot K :=
  match a[i]? with
  | some x => (x : WithBot K)
  | none => ⊥

/-- `argsort` can meet its contract for every list (over a linear order). -/
theorem argSortOk_exists [LinearOrder K] : ∃ argsort : ArgSort K, ArgSortOk argsort := by
  refine ⟨fun a => (List.range a.length).mergeSort fun i j =>
    decide (sortKey a i ≤ sortKey a j), fun a => ⟨List.mergeSort_perm _ _, ?_⟩⟩
  have := List.pairwise_mergeSort (l := List.range a.length)
    (le := fun i j => decide (sortKey a i ≤ sortKey a j))
    (fun i j k h1 h2 => by
      simp only [decide_eq_true_eq] at *
      exact le_trans h1 h2)
    (fun i j => by
      simp only [Bool.or_eq_true, decide_eq_true_eq]
      exact le_total _ _)
  refine this.imp ?_
  intro i j h x y hx hy
  simp only [decide_eq_true_eq, sortKey, hx, hy] at h
  exact WithBot.coe_le_coe.1 h

/-- Non-vacuity (real matrices): appending `[[5]]` to the rank-1 model with `s = 2`. -/
example (argsort : ArgSort ℝ) (ha : ArgSortOk argsort) :
    ∃ U2 s2 V2, updateSvdNewSubmatrix realLA (fun _ _ => 0) argsort ⟨2, 1, exU⟩ (.vec 1 fun _ => 2)
      ⟨1, 1, 1⟩ ⟨1, 1, Matrix.of fun _ _ => 5⟩ 0 1 =
      .ok (⟨2 + 1, 1, U2⟩, .vec 1 s2, ⟨1, 1 + 1, V2⟩) ∧ U2.transpose * U2 = 1 := by
  obtain ⟨p, k, u2, s2, v2, f, -, hU, -, hrun, hk, hf, -⟩ := C44_diagonal realLA (fun _ _ => 0) argsort
    ha exU (fun _ => 2) (1 : Matrix (Fin 1) (Fin 1) ℝ) (Matrix.of fun _ _ : Fin 1 => 5) (realLA_svd _) 0 1
  subst hk
  refine ⟨_, _, _, hrun, ?_⟩
  refine castLE_cols_orth u2 (hU ?_) f hf _ fun _ _ => rfl
  ext i j; fin_cases i; fin_cases j; simp [exU, Matrix.mul_apply]

end DynCF
