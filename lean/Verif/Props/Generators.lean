/- C99: the generators of test data (`generate_matrix`, `gen_hilbert_tensor`). -/
import Verif.Model.PsiExperiments
import Verif.Lemmas.TensorOps
import Verif.Props.RandomSvd
import Verif.Props.Psi
import Mathlib.LinearAlgebra.Matrix.Rank

namespace DynCF
variable {K : Type}

open Matrix

theorem svd2mtx_mk [CommRing K] {m k n : ℕ} (U : Matrix (Fin m) (Fin k) K) (s : Fin k → K)
    (V : Matrix (Fin k) (Fin n) K) :
    svd2mtx ⟨m, k, U⟩ ⟨k, s⟩ ⟨k, n, V⟩ = .ok ⟨m, n, U * diagonal s * V⟩ := by
  have hd : (Matrix.of fun i j => U i j * s j) = U * diagonal s := by
    ext i j
    rw [Matrix.mul_diagonal]
    rfl
  unfold svd2mtx
  rw [dif_pos rfl]
  show Mat.dot ⟨m, k, Matrix.of fun i j => U i j * s j⟩ ⟨k, n, V⟩ = _
  rw [hd, Mat.dot_mk]

/-- the number of non-zero entries of `s` -/
def nonzeros [Zero K] [DecidableEq K] {r : ℕ} (s : Fin r → K) : ℕ :=
  (Finset.univ.filter fun i => s i ≠ 0).card

/-- a product with orthonormal columns on the left and orthonormal rows on the right has the rank of the
diagonal matrix in the middle -/
theorem rank_orthonormal_diag [Field K] [DecidableEq K] {m n r : ℕ} (U : Matrix (Fin m) (Fin r) K)
    (s : Fin r → K) (V : Matrix (Fin r) (Fin n) K) (hU : U.transpose * U = 1)
    (hV : V * V.transpose = 1) : (U * diagonal s * V).rank = nonzeros s := by
  have hd : (diagonal s).rank = nonzeros s := by
    rw [Matrix.rank_diagonal, Fintype.card_subtype]
    rfl
  rw [← hd]
  refine le_antisymm ?_ ?_
  · exact (Matrix.rank_mul_le_left _ _).trans (Matrix.rank_mul_le_right _ _)
  · have e : diagonal s = U.transpose * ((U * diagonal s * V) * V.transpose) := by
      rw [Matrix.mul_assoc (U * diagonal s), hV, Matrix.mul_one, ← Matrix.mul_assoc, hU, Matrix.one_mul]
    have h1 := (Matrix.rank_mul_le_right U.transpose ((U * diagonal s * V) * V.transpose)).trans
      (Matrix.rank_mul_le_left (U * diagonal s * V) V.transpose)
    rw [← e] at h1
    exact h1

theorem qr_tall_factor [CommRing K] (la : LinAlg K) {m r : ℕ} (h : r ≤ m) (A : Matrix (Fin m) (Fin r) K)
    (hA : QrOk la A) : ∃ Q : Matrix (Fin m) (Fin r) K,
      (la.qrM ⟨m, r, A⟩).1 = ⟨m, r, Q⟩ ∧ Q.transpose * Q = 1 := by
  obtain ⟨-, h2⟩ := hA
  have hr : min m r = r := Nat.min_eq_right h
  rw [qrM_mk]
  dsimp only
  revert h2
  generalize (la.qr A).1 = Q
  revert Q
  rw [hr]
  intro Q hQ
  exact ⟨Q, rfl, hQ⟩

/-- **C99, random matrices.** For a rank that fits the shape, `generate_matrix` returns a matrix of the
requested shape of the form `Q1 diag(s) Q2ᵀ` with orthonormal `Q1`, `Q2` and the drawn numbers `s`; its
rank is the number of non-zero draws, so it is `rank` exactly when no draw is zero. -/
theorem C99_matrix [Field K] [DecidableEq K] (la : LinAlg K) (d : GenDraws K) (nRows nCols rank : ℕ)
    (ha : QrOk la (d.a nRows rank)) (hb : QrOk la (d.b nCols rank))
    (h1 : rank ≤ nRows) (h2 : rank ≤ nCols) :
    ∃ (M : Matrix (Fin nRows) (Fin nCols) K) (Q1 : Matrix (Fin nRows) (Fin rank) K)
      (Q2 : Matrix (Fin nCols) (Fin rank) K),
      generateMatrix la d nRows nCols rank = .ok ⟨nRows, nCols, M⟩ ∧
      Q1.transpose * Q1 = 1 ∧ Q2.transpose * Q2 = 1 ∧ M = Q1 * diagonal (d.s rank) * Q2.transpose ∧
      M.rank = nonzeros (d.s rank) ∧ M.rank ≤ rank ∧ (M.rank = rank ↔ ∀ i, d.s rank i ≠ 0) := by
  obtain ⟨Q1, e1, o1⟩ := qr_tall_factor la h1 _ ha
  obtain ⟨Q2, e2, o2⟩ := qr_tall_factor la h2 _ hb
  have hr := rank_orthonormal_diag Q1 (d.s rank) Q2.transpose o1 (by rw [Matrix.transpose_transpose, o2])
  have hcard : nonzeros (d.s rank) ≤ rank := by
    have := Finset.card_filter_le (Finset.univ : Finset (Fin rank)) (fun i => d.s rank i ≠ 0)
    rwa [Finset.card_univ, Fintype.card_fin] at this
  refine ⟨_, Q1, Q2, ?_, o1, o2, rfl, hr, hr ▸ hcard, ?_⟩
  · unfold generateMatrix
    dsimp only
    rw [e1, e2, Mat.T_mk, svd2mtx_mk]
  · rw [hr]
    unfold nonzeros
    constructor
    · intro h i
      have := (Finset.card_filter_eq_iff (s := (Finset.univ : Finset (Fin rank)))
        (p := fun i => d.s rank i ≠ 0)).1 (by rw [Finset.card_univ, Fintype.card_fin, h])
      exact this i (Finset.mem_univ _)
    · intro h
      rw [Finset.filter_true_of_mem (fun i _ => h i), Finset.card_univ, Fintype.card_fin]

/-- **C99, a rank larger than the number of rows or columns** (partial): it is rejected with `ValueError`, except for a
single row and at least `rank` columns (`C99_one_row`), and for an empty matrix without rows and columns. -/
theorem C99_rank_too_large_partial [CommRing K] (la : LinAlg K) (d : GenDraws K) (nRows nCols rank : ℕ)
    (h : nRows < rank ∨ nCols < rank) :
    generateMatrix la d nRows nCols rank = .error .valueError ↔
      ¬ (nRows = 1 ∧ rank ≤ nCols) ∧ ¬ (rank = 1 ∧ nRows = 0 ∧ nCols = 0) := by
  have dotOk : ∀ (u v : Mat K), u.cols = v.rows → Mat.dot u v ≠ .error .valueError := by
    intro u v e
    unfold Mat.dot
    rw [dif_pos e]
    simp
  unfold generateMatrix LinAlg.qrM svd2mtx
  dsimp only
  split
  · next h2 =>
    exact iff_of_true (Mat.dot_error (by show min nRows rank ≠ min nCols rank; omega)) (by omega)
  · split
    · next h1 h2 =>
      by_cases h3 : rank ≤ nCols
      · exact iff_of_false (dotOk _ _ (by show rank = min nCols rank; omega)) (by omega)
      · exact iff_of_true (Mat.dot_error (by show rank ≠ min nCols rank; omega)) (by omega)
    · split
      · next h1 h2 h3 =>
        by_cases h4 : nCols = 0
        · exact iff_of_false (dotOk _ _ (by show min nRows rank = min nCols rank; omega)) (by omega)
        · exact iff_of_true (Mat.dot_error (by show min nRows rank ≠ min nCols rank; omega)) (by omega)
      · exact iff_of_true rfl (by omega)

/-- **C99, one row** (the claim is violated): `generate_matrix` accepts every rank up to the number of columns, stretches
the only column of `q1` and returns a row, whose rank is at most one. -/
theorem C99_one_row [Field K] (la : LinAlg K) (d : GenDraws K) (nCols rank : ℕ)
    (h1 : 1 < rank) (h2 : rank ≤ nCols) :
    ∃ M : Matrix (Fin 1) (Fin nCols) K, generateMatrix la d 1 nCols rank = .ok ⟨1, nCols, M⟩ ∧ M.rank < rank := by
  unfold generateMatrix LinAlg.qrM svd2mtx
  dsimp only
  rw [dif_neg (by omega), dif_pos (by omega)]
  unfold Mat.dot
  rw [dif_pos (by show rank = min nCols rank; omega)]
  exact ⟨_, rfl, (Matrix.rank_le_height _).trans_lt h1⟩

/-- the cells of a three-dimensional array in lexicographic order -/
theorem lexCells (n0 n1 n2 : ℕ) :
    let l := (List.range n0).flatMap fun i => (List.range n1).flatMap fun j =>
      (List.range n2).map fun k => (i, j, k)
    l.length = n0 * n1 * n2 ∧ (∀ c : ℕ × ℕ × ℕ, c ∈ l ↔ c.1 < n0 ∧ c.2.1 < n1 ∧ c.2.2 < n2) ∧
      l.Pairwise fun x y => x.1 < y.1 ∨ x.1 = y.1 ∧ (x.2.1 < y.2.1 ∨ x.2.1 = y.2.1 ∧ x.2.2 < y.2.2) := by
  dsimp only
  refine ⟨?_, ?_, ?_⟩
  · simp [List.length_flatMap, Nat.mul_assoc]
  · rintro ⟨i, j, k⟩
    simp
  · rw [List.pairwise_flatMap]
    refine ⟨fun i _ => ?_, ?_⟩
    · rw [List.pairwise_flatMap]
      refine ⟨fun j _ => ?_, ?_⟩
      · rw [List.pairwise_map]
        exact List.pairwise_lt_range.imp fun h => Or.inr ⟨rfl, Or.inr ⟨rfl, h⟩⟩
      · refine List.pairwise_lt_range.imp fun {a b} h x hx y hy => ?_
        obtain ⟨k, -, rfl⟩ := List.mem_map.1 hx
        obtain ⟨k', -, rfl⟩ := List.mem_map.1 hy
        exact Or.inr ⟨rfl, Or.inl h⟩
    · refine List.pairwise_lt_range.imp fun {a b} h x hx y hy => ?_
      obtain ⟨j, -, hx⟩ := List.mem_flatMap.1 hx
      obtain ⟨j', -, hy⟩ := List.mem_flatMap.1 hy
      obtain ⟨k, -, rfl⟩ := List.mem_map.1 hx
      obtain ⟨k', -, rfl⟩ := List.mem_map.1 hy
      exact Or.inl h

/-- **C99, Hilbert tensor.** `gen_hilbert_tensor` lists every cell of the tensor exactly once, in
lexicographic order, the two lists have the same length, and the value at the cell `(i, j, k)` is
`1 / (i + j + k + 1)`. -/
theorem C99_hilbert [Field K] (n0 n1 n2 : ℕ) :
    let r := genHilbertTensor (K := K) (n0, n1, n2)
    r.1.length = r.2.length ∧ r.1.length = n0 * n1 * n2 ∧ r.1.Nodup ∧
      (∀ c : Ind3, c ∈ r.1 ↔ (0 ≤ c.1 ∧ c.1 < n0) ∧ (0 ≤ c.2.1 ∧ c.2.1 < n1) ∧ 0 ≤ c.2.2 ∧ c.2.2 < n2) ∧
      (r.1.Pairwise fun x y =>
        x.1 < y.1 ∨ x.1 = y.1 ∧ (x.2.1 < y.2.1 ∨ x.2.1 = y.2.1 ∧ x.2.2 < y.2.2)) ∧
      ∀ (a : ℕ) (c : Ind3) (v : K), r.1[a]? = some c → r.2[a]? = some v →
        v = 1 / ((c.1 : K) + (c.2.1 : K) + (c.2.2 : K) + 1) := by
  dsimp only [genHilbertTensor]
  obtain ⟨h1, h2, h3⟩ := lexCells n0 n1 n2
  generalize ((List.range n0).flatMap fun i => (List.range n1).flatMap fun j =>
      (List.range n2).map fun k => (i, j, k)) = l at h1 h2 h3
  have hp : (l.map fun c => ((c.1 : ℤ), (c.2.1 : ℤ), (c.2.2 : ℤ))).Pairwise fun x y =>
      x.1 < y.1 ∨ x.1 = y.1 ∧ (x.2.1 < y.2.1 ∨ x.2.1 = y.2.1 ∧ x.2.2 < y.2.2) := by
    rw [List.pairwise_map]
    refine h3.imp fun {a b} h => ?_
    dsimp only
    omega
  refine ⟨by simp, by rw [List.length_map, h1], ?_, ?_, hp, ?_⟩
  · refine hp.imp fun {a b} h => ?_
    rintro rfl
    omega
  · rintro ⟨x, y, z⟩
    rw [List.mem_map]
    constructor
    · rintro ⟨⟨a, b, c⟩, hm, h⟩
      have := (h2 _).1 hm
      simp only [Prod.mk.injEq] at h this
      dsimp only
      omega
    · rintro ⟨ha, hb, hc⟩
      dsimp only at ha hb hc
      refine ⟨(x.toNat, y.toNat, z.toNat), (h2 _).2 ?_, ?_⟩
      · dsimp only
        omega
      · simp only [Prod.mk.injEq]
        omega
  · intro a c v hc hv
    rw [List.getElem?_map] at hc hv
    cases hx : l[a]? with
    | none => rw [hx] at hc; cases hc
    | some x =>
      rw [hx] at hc hv
      cases hc
      cases hv
      push_cast
      rfl

-- the 2 x 1 x 2 Hilbert tensor
example : genHilbertTensor (K := ℚ) (2, 1, 2) =
    ([(0, 0, 0), (0, 0, 1), (1, 0, 0), (1, 0, 1)], [1, 1/2, 1/2, 1/3]) := by decide +kernel

/-- draws: the all-ones matrices and the numbers 3, 4, 5, ... -/
def exDraws : GenDraws ℝ := ⟨fun _ _ _ _ => 1, fun _ _ _ _ => 1, fun _ i => (i : ℕ) + 3⟩

-- a 3 x 4 matrix of rank 2; rank 4 does not fit
example : (∃ M : Matrix (Fin 3) (Fin 4) ℝ, generateMatrix realLA exDraws 3 4 2 = .ok ⟨3, 4, M⟩ ∧ M.rank = 2) ∧
    generateMatrix realLA exDraws 3 4 4 = .error .valueError := by
  classical
  constructor
  · obtain ⟨M, -, -, h, -, -, -, -, -, h2⟩ := C99_matrix realLA exDraws 3 4 2 (realLA_qr _) (realLA_qr _)
      (by norm_num) (by norm_num)
    refine ⟨M, h, h2.2 fun i => ?_⟩
    show ((i : ℕ) : ℝ) + 3 ≠ 0
    positivity
  · exact (C99_rank_too_large_partial realLA exDraws 3 4 4 (by norm_num)).2 (by norm_num)

end DynCF
