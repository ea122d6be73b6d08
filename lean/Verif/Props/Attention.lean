/-
Property theorems C11, C23, C24, C25: attention matrix and sequential scoring.
-/
import Verif.Lemmas.Recommend
import Verif.Lemmas.History
import Verif.Lemmas.TensorOps
import Verif.Model.TDRec
import Verif.Lemmas.ExampleOracle
import Verif.Spec.History
import Mathlib.Analysis.SpecialFunctions.Pow.Real
import Mathlib.LinearAlgebra.Matrix.Block
import Mathlib.Algebra.Order.Field.Rat

set_option linter.unusedSectionVars false

namespace DynCF
variable {K : Type}

/-! ### C11 -/

theorem posItemsLoop_spec (seq : List ℤ) (maxLen n i : ℕ) (hn : n + i = seq.length) :
    (posItemsLoop seq maxLen n i).1.length = min n (maxLen - 1 - i) ∧
    (posItemsLoop seq maxLen n i).2.length = min n (maxLen - 1 - i) ∧
    ∀ j < min n (maxLen - 1 - i),
      (posItemsLoop seq maxLen n i).1[j]? = some ((maxLen : ℤ) - 2 - (i + j : ℕ)) ∧
      (posItemsLoop seq maxLen n i).2[j]? = seq[seq.length - 1 - (i + j)]? := by
  induction n generalizing i with
  | zero => simp [posItemsLoop]
  | succ n ih =>
    unfold posItemsLoop
    by_cases h : (maxLen : ℤ) - i - 2 < 0
    · have h0 : min (n + 1) (maxLen - 1 - i) = 0 := by omega
      simp only [h, if_true, h0]
      simp
    · obtain ⟨h1, h2, h3⟩ := ih (i + 1) (by omega)
      have h0 : min (n + 1) (maxLen - 1 - i) = min n (maxLen - 1 - (i + 1)) + 1 := by omega
      simp only [h, if_false, h0]
      refine ⟨by simp [h1], by simp [h2], ?_⟩
      intro j hj
      cases j with
      | zero =>
        constructor
        · simp; omega
        · have hlt : seq.length - i - 1 < seq.length := by omega
          have : seq.length - 1 - (i + 0) = seq.length - i - 1 := by omega
          rw [this]
          simp [List.getD_eq_getElem?_getD, hlt]
      | succ j =>
        have := h3 j (by omega)
        constructor
        · rw [List.getElem?_cons_succ, this.1]
          congr 1
          push_cast
          ring
        · rw [List.getElem?_cons_succ, this.2]
          congr 1
          omega

/-- **C11.** For a sequence `seq` (most recent last) and `maxLen` positions, the arrays have
`min |seq| (maxLen - 1)` entries; entry `j` is the `j`-th most recent item at position
`maxLen - 2 - j`; so all positions are valid row numbers and strictly decrease. -/
theorem C11_shifted_positions (seq : List ℤ) (maxLen : ℕ) :
    (getPosItemsArrays seq maxLen).1.length = min seq.length (maxLen - 1) ∧
    (getPosItemsArrays seq maxLen).2.length = min seq.length (maxLen - 1) ∧
    (∀ j < min seq.length (maxLen - 1),
      (getPosItemsArrays seq maxLen).1[j]? = some ((maxLen : ℤ) - 2 - j) ∧
      (getPosItemsArrays seq maxLen).2[j]? = seq[seq.length - 1 - j]?) ∧
    (∀ p ∈ (getPosItemsArrays seq maxLen).1, 0 ≤ p ∧ p < (maxLen : ℤ)) ∧
    (getPosItemsArrays seq maxLen).1.Pairwise (· > ·) := by
  obtain ⟨h1, h2, h3⟩ := posItemsLoop_spec seq maxLen seq.length 0 rfl
  simp only [Nat.sub_zero] at h1 h2 h3
  have h3' : ∀ j < min seq.length (maxLen - 1),
      (getPosItemsArrays seq maxLen).1[j]? = some ((maxLen : ℤ) - 2 - j) ∧
      (getPosItemsArrays seq maxLen).2[j]? = seq[seq.length - 1 - j]? := by
    intro j hj
    have := h3 j hj
    simpa [getPosItemsArrays] using this
  have hget : ∀ j (hj : j < (getPosItemsArrays seq maxLen).1.length),
      (getPosItemsArrays seq maxLen).1[j] = (maxLen : ℤ) - 2 - j := by
    intro j hj
    have := (h3' j (by rw [← h1]; exact hj)).1
    rw [List.getElem?_eq_getElem hj] at this
    exact Option.some.inj this
  refine ⟨h1, h2, h3', ?_, ?_⟩
  · intro p hp
    obtain ⟨j, hj, rfl⟩ := List.getElem_of_mem hp
    have hj' : j < min seq.length (maxLen - 1) := by rw [← h1]; exact hj
    rw [hget j hj]
    omega
  · rw [List.pairwise_iff_getElem]
    intro i j hi hj hij
    rw [hget i hi, hget j hj]
    omega

/-- The example of the docstring (tdrec.py:52-55) and a short history. -/
example : getPosItemsArrays [10, 11, 12, 13, 14] 4 = ([2, 1, 0], [14, 13, 12]) ∧
    getPosItemsArrays [10, 11] 5 = ([3, 2], [11, 10]) ∧ getPosItemsArrays [10] 1 = ([], []) := by
  decide

/-! ### C23 -/

/-- Lower-triangular Toeplitz matrix with `1 / ipow k` on diagonal number `k = 1, 2, …`. -/
def attMatrix [Field K] (ipow : ℕ → K) (n : ℕ) : Matrix (Fin n) (Fin n) K :=
  Matrix.of fun i j => if j ≤ i then 1 / ipow ((i : ℕ) - (j : ℕ) + 1) else 0

theorem sum_map_range_ite [AddCommMonoid K] (n t : ℕ) (f : ℕ → K) (ht : t < n) :
    ((List.range n).map fun s => if s = t then f s else 0).sum = f t := by
  induction n with
  | zero => omega
  | succ n ih =>
    rw [List.range_succ, List.map_append, List.sum_append]
    by_cases h : t = n
    · subst h
      have : ((List.range t).map fun s => if s = t then f s else 0).sum = 0 := by
        apply List.sum_eq_zero
        intro x hx
        obtain ⟨s, hs, rfl⟩ := List.mem_map.1 hx
        rw [if_neg (by have := List.mem_range.1 hs; omega)]
      rw [this]
      simp
    · rw [ih (by omega)]
      have : ¬ n = t := fun h' => h h'.symm
      simp [this]

/-- The model of `get_global_attention` computes the Toeplitz matrix. -/
theorem getGlobalAttention_eq [Field K] (size : ℕ) (ipow : ℕ → K) (hs : 1 ≤ size) :
    getGlobalAttention size ipow = .ok ⟨size, size, attMatrix ipow size⟩ := by
  obtain ⟨s, rfl⟩ : ∃ s, size = s + 1 := ⟨size - 1, by omega⟩
  have hz : (attDiagList (s + 1) ipow).zip (attOffsets (s + 1)) =
      (List.range (s + 1)).map fun t : ℕ =>
        (List.replicate (s + 1 - (t + 1) + 1) (1 / ipow (t + 1)), -(t : ℤ)) := by
    unfold attDiagList attOffsets
    rw [List.zip_map']
  unfold getGlobalAttention diagsDense
  rw [hz]
  have hz' : ((List.range (s + 1)).map fun t : ℕ =>
        (List.replicate (s + 1 - (t + 1) + 1) (1 / ipow (t + 1)), -(t : ℤ))) =
      (List.replicate (s + 1 - (0 + 1) + 1) (1 / ipow (0 + 1)), -((0 : ℕ) : ℤ)) ::
        ((List.range s).map fun t : ℕ =>
          (List.replicate (s + 1 - (t + 1 + 1) + 1) (1 / ipow (t + 1 + 1)), -((t + 1 : ℕ) : ℤ))) := by
    rw [List.range_succ_eq_map, List.map_cons, List.map_map]
    rfl
  rw [hz']
  dsimp only
  rw [← hz']
  have hn : (List.replicate (s + 1 - (0 + 1) + 1) (1 / ipow (0 + 1))).length +
      (-((0 : ℕ) : ℤ)).natAbs = s + 1 := by
    rw [List.length_replicate]
    simp
  refine (congrArg (fun n => (Except.ok (Mat.mk n n (Matrix.of fun i j =>
      ((((List.range (s + 1)).map fun t : ℕ =>
        (List.replicate (s + 1 - (t + 1) + 1) (1 / ipow (t + 1)), -(t : ℤ)))).map fun p =>
        if ((j : ℕ) : ℤ) - ((i : ℕ) : ℤ) = p.2 then p.1.getD (min (i : ℕ) (j : ℕ)) 0
        else 0).sum)) : PyM (Mat K))) hn).trans ?_
  refine congrArg (fun M => (Except.ok (Mat.mk (s + 1) (s + 1) M) : PyM (Mat K))) ?_
  ext i j
  rw [Matrix.of_apply, List.map_map]
  unfold attMatrix
  rw [Matrix.of_apply]
  by_cases hij : j ≤ i
  · rw [if_pos hij]
    have hij' : (j : ℕ) ≤ (i : ℕ) := hij
    have hfun : ∀ t ∈ List.range (s + 1),
        ((fun p : List K × ℤ => if ((j : ℕ) : ℤ) - ((i : ℕ) : ℤ) = p.2 then
          p.1.getD (min (i : ℕ) (j : ℕ)) 0 else 0) ∘ fun t : ℕ =>
        (List.replicate (s + 1 - (t + 1) + 1) (1 / ipow (t + 1)), -(t : ℤ))) t =
        if t = (i : ℕ) - (j : ℕ) then 1 / ipow (t + 1) else 0 := by
      intro t ht
      have ht' := List.mem_range.1 ht
      simp only [Function.comp_apply]
      by_cases h : t = (i : ℕ) - (j : ℕ)
      · rw [if_pos h, if_pos (by omega), List.getD_eq_getElem?_getD,
          List.getElem?_replicate, if_pos (by have := i.2; omega)]
        rfl
      · rw [if_neg h, if_neg (by omega)]
    rw [List.map_congr_left hfun, sum_map_range_ite (s + 1) _ (fun t => 1 / ipow (t + 1))
      (by have := i.2; omega)]
  · rw [if_neg hij]
    have hij' : (i : ℕ) < (j : ℕ) := not_le.1 hij
    apply List.sum_eq_zero
    intro x hx
    obtain ⟨t, _, rfl⟩ := List.mem_map.1 hx
    simp only [Function.comp_apply]
    rw [if_neg (by omega)]

theorem attMatrix_det [Field K] (ipow : ℕ → K) (h1 : ipow 1 = 1) (n : ℕ) :
    (attMatrix ipow n).det = 1 := by
  rw [Matrix.det_of_isLowerTriangular]
  · apply Finset.prod_eq_one
    intro i _
    simp [attMatrix, h1]
  · intro i j hij
    have : ¬ j ≤ i := not_le.2 hij
    simp [attMatrix, this]

/-- **C23.** For every size `n ≥ 1` and every real power `f`, the attention matrix is `n × n` with
entry `(i - j + 1)^(-f)` for `j ≤ i` and `0` above the diagonal; the diagonal is `1`, the
determinant `1`, so the matrix has an inverse. -/
theorem C23_attention_matrix (n : ℕ) (hn : 1 ≤ n) (f : ℝ) :
    ∃ A : Matrix (Fin n) (Fin n) ℝ,
      getGlobalAttention n (fun k => (k : ℝ) ^ f) = .ok ⟨n, n, A⟩ ∧
      (∀ i j, A i j = if j ≤ i then (((i : ℕ) : ℝ) - ((j : ℕ) : ℝ) + 1) ^ (-f) else 0) ∧
      (∀ i, A i i = 1) ∧ A.det = 1 ∧ ∃ B, A * B = 1 ∧ B * A = 1 := by
  refine ⟨_, getGlobalAttention_eq n _ hn, ?_, ?_, ?_⟩
  · intro i j
    unfold attMatrix
    rw [Matrix.of_apply]
    by_cases h : j ≤ i
    · rw [if_pos h, if_pos h]
      have h' : (j : ℕ) ≤ (i : ℕ) := h
      have hp : (0 : ℝ) ≤ ((i : ℕ) : ℝ) - ((j : ℕ) : ℝ) + 1 := by
        have : ((j : ℕ) : ℝ) ≤ ((i : ℕ) : ℝ) := by exact_mod_cast h'
        linarith
      rw [Real.rpow_neg hp, one_div]
      push_cast [h']
      rfl
    · rw [if_neg h, if_neg h]
  · intro i
    simp [attMatrix]
  · have hd := attMatrix_det (fun k : ℕ => (k : ℝ) ^ f) (by simp) n
    refine ⟨hd, (attMatrix (fun k : ℕ => (k : ℝ) ^ f) n)⁻¹, ?_, ?_⟩
    · exact Matrix.mul_nonsing_inv _ (by rw [hd]; exact isUnit_one)
    · exact Matrix.nonsing_inv_mul _ (by rw [hd]; exact isUnit_one)

/-- Size 0 raises `IndexError`. -/
theorem C23_attention_size_zero [Field K] (ipow : ℕ → K) :
    getGlobalAttention 0 ipow = .error .indexError := rfl

/-- The 3 × 3 matrix for power 1. -/
example : ∃ A : Matrix (Fin 3) (Fin 3) ℚ, getGlobalAttention 3 (fun k => (k : ℚ)) = .ok ⟨3, 3, A⟩ ∧
    A = !![1, 0, 0; 1/2, 1, 0; 1/3, 1/2, 1] := by
  refine ⟨_, getGlobalAttention_eq 3 _ (by norm_num), ?_⟩
  ext i j
  fin_cases i <;> fin_cases j <;> decide +kernel

/-! ### C24 -/

/-- last row number -/
theorem row_neg_one {n m : ℕ} (A : Matrix (Fin (n + 1)) (Fin m) K) :
    (Mat.mk (n + 1) m A).row (-1) = .ok (A (Fin.last n)) := by
  unfold Mat.row pyIdx
  have h1 : ¬ (0 ≤ (-1 : ℤ) ∧ (-1 : ℤ) < ((n + 1 : ℕ) : ℤ)) := by omega
  have h2 : -(((n + 1 : ℕ)) : ℤ) ≤ (-1 : ℤ) ∧ (-1 : ℤ) < 0 := by omega
  simp only
  rw [dif_neg h1, dif_pos h2]
  rw [except_bind_ok]
  refine congrArg (fun i => (Except.ok (A i) : PyM _)) ?_
  apply Fin.ext
  simp only [Fin.val_last]
  push_cast
  omega

/-- the attention matrices of a configuration (identity, or Toeplitz with its inverse) -/
theorem tdInit_eq [Field K] (c : TDCfg K) (hL : 1 ≤ c.seqLen) :
    tdInit c = .ok (match c.attF with
      | none => ⟨⟨c.seqLen, c.seqLen, 1⟩, ⟨c.seqLen, c.seqLen, 1⟩⟩
      | some ipow => ⟨⟨c.seqLen, c.seqLen, attMatrix ipow c.seqLen⟩,
          ⟨c.seqLen, c.seqLen, c.hooi.la.inv (attMatrix ipow c.seqLen)⟩⟩) := by
  unfold tdInit
  cases c.attF with
  | none => rfl
  | some ipow =>
    simp only
    rw [getGlobalAttention_eq _ _ hL, except_bind_ok]
    exact dif_pos rfl

/-- the last column of the inverse of a unit lower-triangular matrix is the last unit vector -/
theorem inv_last_col [Field K] (ipow : ℕ → K) (h1 : ipow 1 = 1) (n : ℕ)
    (B : Matrix (Fin (n + 1)) (Fin (n + 1)) K) (hB : B * attMatrix ipow (n + 1) = 1)
    (k : Fin (n + 1)) : B k (Fin.last n) = if k = Fin.last n then 1 else 0 := by
  have h := congrFun (congrFun hB k) (Fin.last n)
  rw [Matrix.mul_apply, Matrix.one_apply] at h
  rw [← h, Finset.sum_eq_single (Fin.last n)]
  · simp [attMatrix, h1]
  · intro l _ hl
    have : ¬ Fin.last n ≤ l := fun hle => hl (le_antisymm (Fin.le_last l) hle)
    simp [attMatrix, this]
  · intro h'
    exact absurd (Finset.mem_univ _) h'

/-- **C24.** With or without attention, the embedding of the last position computed through the
inverse attention matrix, `(A⁻ᵀ W)[-1]`, is the last row of `W`. -/
theorem C24_last_position [Field K] (c : TDCfg K) (hL : 1 ≤ c.seqLen)
    (h1 : ∀ ipow, c.attF = some ipow → ipow 1 = 1 ∧
      InvOk c.hooi.la (attMatrix ipow c.seqLen))
    (r : ℕ) (W : Matrix (Fin c.seqLen) (Fin r) K) :
    ∃ m LW, tdInit c = .ok m ∧ m.attInv.T.dot ⟨c.seqLen, r, W⟩ = .ok ⟨c.seqLen, r, LW⟩ ∧
      (Mat.mk c.seqLen r LW).row (-1) = (Mat.mk c.seqLen r W).row (-1) := by
  cases hf : c.attF with
  | none =>
    refine ⟨_, (1 : Matrix (Fin c.seqLen) (Fin c.seqLen) K).transpose * W, tdInit_eq c hL, ?_, ?_⟩
    · rw [hf]
      exact Mat.dot_mk _ _
    · rw [Matrix.transpose_one, Matrix.one_mul]
  | some ipow =>
    obtain ⟨hi, hinv⟩ := h1 ipow hf
    refine ⟨_, (c.hooi.la.inv (attMatrix ipow c.seqLen)).transpose * W, tdInit_eq c hL, ?_, ?_⟩
    · rw [hf]
      exact Mat.dot_mk _ _
    · unfold InvOk at hinv
      revert W hinv
      generalize c.hooi.la.inv (attMatrix ipow c.seqLen) = B
      revert B
      generalize c.seqLen = L at hL
      obtain ⟨n, rfl⟩ : ∃ n, L = n + 1 := ⟨L - 1, by omega⟩
      intro B W hinv
      rw [row_neg_one, row_neg_one]
      refine congrArg (fun x => (Except.ok x : PyM (Fin r → K))) ?_
      funext j
      rw [Matrix.mul_apply]
      rw [Finset.sum_eq_single (Fin.last n)]
      · rw [Matrix.transpose_apply, inv_last_col ipow hi n B hinv, if_pos rfl, one_mul]
      · intro k _ hk
        rw [Matrix.transpose_apply, inv_last_col ipow hi n B hinv, if_neg hk, zero_mul]
      · intro h'
        exact absurd (Finset.mem_univ _) h'

/-- A configuration with sequence length 2 and power 1. -/
def exTDCfg : TDCfg ℚ where
  hooi := ⟨exLA, fun _ _ _ => 0, fun _ _ _ _ => 0, (1, 1, 1), 1, 2, false⟩
  normOf := fun _ => 0
  seqLen := 2
  attF := some fun k => (k : ℚ)
  nIter := 0
  growthTol := 1 / 100
  force := false

/-- The hypothesis on `inv` holds for this configuration, and the computation for
`W = (3, 5)ᵀ` gives the last row `5`. -/
example : (∀ ipow, exTDCfg.attF = some ipow → ipow 1 = 1 ∧
      InvOk exTDCfg.hooi.la (attMatrix ipow exTDCfg.seqLen)) ∧
    ∃ m LW, tdInit exTDCfg = .ok m ∧ m.attInv.T.dot ⟨2, 1, !![3; 5]⟩ = .ok ⟨2, 1, LW⟩ ∧
      LW = !![1/2; 5] := by
  constructor
  · intro ipow h
    have h' : (fun k : ℕ => (k : ℚ)) = ipow := Option.some.inj h
    subst h'
    refine ⟨by norm_num, ?_⟩
    unfold InvOk
    ext i j
    change Fin 2 at i j
    fin_cases i <;> fin_cases j <;> decide +kernel
  · refine ⟨_, _, tdInit_eq exTDCfg (by decide), Mat.dot_mk _ _, ?_⟩
    ext i j
    fin_cases i <;> fin_cases j <;> decide +kernel

/-! ### C25 -/

/-- dropping the padding from a window leaves the last `L` items -/
theorem filter_window (L : ℕ) (items : List ℤ) (h : ∀ x ∈ items, x ≠ PAD) :
    (window L items).filter (fun x => decide (x ≠ PAD)) = lastN L items := by
  unfold window lastN
  rw [List.drop_append, List.filter_append]
  have h1 : ((List.replicate L PAD).drop ((List.replicate L PAD ++ items).length - L)).filter
      (fun x => decide (x ≠ PAD)) = [] := by
    rw [List.drop_replicate]
    simp
  have h2 : (items.drop ((List.replicate L PAD ++ items).length - L - (List.replicate L PAD).length)
      ).filter (fun x => decide (x ≠ PAD)) = items.drop (items.length - L) := by
    rw [List.filter_eq_self.2]
    · congr 1
      simp
    · intro x hx
      simpa using h x (List.mem_of_mem_drop hx)
  rw [h1, h2, List.nil_append]

theorem mapM_pyIdx_ofFn {n t : ℕ} (g : Fin t → ℤ) (f : Fin t → Fin n)
    (h : ∀ j, g j = ((f j : ℕ) : ℤ)) :
    (List.ofFn g).mapM (fun i => pyIdx n i) = (.ok (List.ofFn f) : PyM (List (Fin n))) := by
  rw [mapM_ok_iff, List.forall₂_iff_get]
  refine ⟨by simp, ?_⟩
  intro i h1 h2
  simp only [List.get_eq_getElem, List.getElem_ofFn]
  rw [h]
  exact pyIdx_coe _

theorem sum_get_ofFn [AddCommMonoid K] {n L t s : ℕ} (r : Fin t → Fin n) (p : Fin s → Fin L)
    (hts : t = s) (f : Fin n → Fin L → K) (h : (List.ofFn r).length = (List.ofFn p).length) :
    ∑ j : Fin (List.ofFn r).length, f ((List.ofFn r).get j) ((List.ofFn p).get (Fin.cast h j)) =
      ∑ j : Fin t, f (r j) (p (Fin.cast hts j)) := by
  subst hts
  refine Fintype.sum_equiv (finCongr (List.length_ofFn)) _ _ ?_
  intro j
  simp only [List.get_ofFn]
  rfl

/-- the score vector for given in-range positions and items -/
theorem seqScores_eq [Field K] {n r L r2 t : ℕ} (V : Matrix (Fin n) (Fin r) K)
    (AW : Matrix (Fin L) (Fin r2) K) (wl : Fin r2 → K) (x : Fin t → Fin n) (p : Fin t → Fin L)
    (ht : 0 < t) (gx gp : Fin t → ℤ) (hx : ∀ j, gx j = ((x j : ℕ) : ℤ))
    (hp : ∀ j, gp j = ((p j : ℕ) : ℤ)) :
    seqScores ⟨n, r, V⟩ ⟨L, r2, AW⟩ ⟨r2, wl⟩ (List.ofFn gp) (List.ofFn gx) =
      .ok ⟨n, fun i => ∑ j, (∑ a, V i a * V (x j) a) * (∑ b, AW (p j) b * wl b)⟩ := by
  have hne : (List.ofFn gx).isEmpty = false := by
    cases h : List.ofFn gx with
    | nil => have := congrArg List.length h; simp at this; omega
    | cons _ _ => rfl
  have h1 : (Mat.mk L r2 AW).dotVec ⟨r2, wl⟩ = .ok ⟨L, fun i => ∑ b, AW i b * wl b⟩ := by
    unfold Mat.dotVec
    exact dif_pos rfl
  have h2 : (Mat.mk n r V).takeIdx (List.ofFn gx) =
      .ok ⟨(List.ofFn x).length, r, Matrix.of fun i j => V ((List.ofFn x).get i) j⟩ := by
    unfold Mat.takeIdx
    dsimp only
    rw [mapM_pyIdx_ofFn gx x hx, except_bind_ok]
    rfl
  have h3 : (Vec.mk L fun i => ∑ b, AW i b * wl b).takeIdx (List.ofFn gp) =
      .ok ⟨(List.ofFn p).length, fun i => ∑ b, AW ((List.ofFn p).get i) b * wl b⟩ := by
    unfold Vec.takeIdx
    dsimp only
    rw [mapM_pyIdx_ofFn gp p hp, except_bind_ok]
    rfl
  unfold seqScores
  rw [h1, except_bind_ok, hne]
  rw [if_neg (by simp), h2, except_bind_ok, h3, except_bind_ok]
  have hlen : (List.ofFn x).length = (List.ofFn p).length := by simp
  have h4 : (Mat.mk (List.ofFn x).length r
      (Matrix.of fun i j => V ((List.ofFn x).get i) j)).T.dotVec
      ⟨(List.ofFn p).length, fun i => ∑ b, AW ((List.ofFn p).get i) b * wl b⟩ =
      .ok ⟨r, fun a => ∑ j, V (x j) a * (∑ b, AW (p j) b * wl b)⟩ := by
    unfold Mat.dotVec
    refine (dif_pos hlen).trans ?_
    refine congrArg (fun f => (Except.ok (Vec.mk r f) : PyM (Vec K))) ?_
    funext a
    exact sum_get_ofFn x p rfl (fun i q => V i a * (∑ b, AW q b * wl b)) hlen
  rw [h4, except_bind_ok]
  unfold Mat.dotVec
  refine (dif_pos rfl).trans ?_
  refine congrArg (fun f => (Except.ok (Vec.mk n f) : PyM (Vec K))) ?_
  funext i
  simp only [Fin.cast_refl, id, Finset.mul_sum, Finset.sum_mul]
  rw [Finset.sum_comm]
  refine Finset.sum_congr rfl fun j _ => ?_
  rw [Finset.sum_comm]
  refine Finset.sum_congr rfl fun a _ => Finset.sum_congr rfl fun b _ => ?_
  ring

theorem list_eq_ofFn {α : Type} (l : List α) (t : ℕ) (f : Fin t → α) (hl : l.length = t)
    (h : ∀ j (hj : j < t), l[j]? = some (f ⟨j, hj⟩)) : l = List.ofFn f := by
  apply List.ext_getElem?
  intro j
  by_cases hj : j < t
  · rw [h j hj]
    simp [hj]
  · rw [List.getElem?_eq_none (by omega), List.getElem?_eq_none (by simp; omega)]

/-- **C25.** Let the stored window of user `u` be that of the items `items` (oldest first, catalogue
numbers), `m = min |items| (L - 1) ≥ 1`. The score of item `i` is the sum over the `m` most recent
items `x_j = items[|items|-1-j]`, placed at position `p_j = L - 2 - j`, of
`⟨V_i, V_{x_j}⟩ * ⟨(A W)_{p_j}, w_last⟩`. -/
theorem C25_scores [Field K] (s : TDState K) (u : ℤ) {n r L r2 : ℕ}
    (V : Matrix (Fin n) (Fin r) K) (AW : Matrix (Fin L) (Fin r2) K) (wl : Fin r2 → K)
    (hv : s.v = ⟨n, r, V⟩) (haw : s.aw = ⟨L, r2, AW⟩) (hlast : s.lastPos = ⟨r2, wl⟩)
    (hw : s.w.rows = L) (items : List (Fin n))
    (hu : s.seqHist.get? u = some ⟨L, window L (items.map fun x : Fin n => ((x : ℕ) : ℤ))⟩)
    (hm : 0 < min items.length (L - 1)) :
    tdRecommendUser s u = .ok ⟨n, fun i => ∑ j : Fin (min items.length (L - 1)),
      (∑ a, V i a * V (items[items.length - 1 - j]'(by omega)) a) *
      (∑ b, AW ⟨L - 2 - j, by omega⟩ b * wl b)⟩ := by
  unfold tdRecommendUser
  rw [(getItem_ok_iff _ _ _).2 hu, except_bind_ok]
  dsimp only
  rw [filter_window _ _ (by
    intro x hx
    obtain ⟨y, _, rfl⟩ := List.mem_map.1 hx
    unfold PAD
    omega)]
  rw [hv, haw, hlast, hw]
  generalize hseq : lastN L (items.map fun x : Fin n => ((x : ℕ) : ℤ)) = seq
  have hlen : seq.length = min L items.length := by
    rw [← hseq, lastN_length, List.length_map]
  have hget : ∀ j < min items.length (L - 1), seq[seq.length - 1 - j]? =
      (items[items.length - 1 - j]?).map (fun x : Fin n => ((x : ℕ) : ℤ)) := by
    intro j hj
    rw [hlen, ← hseq, lastN, List.getElem?_drop, List.getElem?_map, List.length_map]
    congr 2
    omega
  obtain ⟨c1, c2, c3, _, _⟩ := C11_shifted_positions seq L
  have hmm : min seq.length (L - 1) = min items.length (L - 1) := by omega
  rw [hmm] at c1 c2 c3
  have hp := list_eq_ofFn _ _ (fun j : Fin (min items.length (L - 1)) => (L : ℤ) - 2 - (j : ℕ)) c1
    (fun j hj => (c3 j hj).1)
  have hx := list_eq_ofFn _ _ (fun j : Fin (min items.length (L - 1)) =>
    (((items[items.length - 1 - j]'(by omega) : Fin n) : ℕ) : ℤ)) c2 (fun j hj => by
      rw [(c3 j hj).2, hget j hj, List.getElem?_eq_getElem (by omega)]
      rfl)
  rw [hp, hx]
  refine seqScores_eq V AW wl _ (fun j => ⟨L - 2 - j, by omega⟩) hm _ _ (fun j => rfl) ?_
  intro j
  dsimp only
  omega

/-- C25, error branches: an unknown user raises `KeyError`; if there is no usable position
(`L ≤ 1`, or a window of padding only) indexing with the empty array raises `IndexError`. -/
theorem C25_errors [Field K] (s : TDState K) (u : ℤ) :
    (s.seqHist.get? u = none → tdRecommendUser s u = .error .keyError) ∧
    (∀ d, s.seqHist.get? u = some d → s.aw.cols = s.lastPos.len →
      (s.w.rows ≤ 1 ∨ ∀ x ∈ d.items, x = PAD) → tdRecommendUser s u = .error .indexError) := by
  constructor
  · intro h
    unfold tdRecommendUser
    rw [(getItem_error _ _ _).2 ⟨rfl, h⟩]
    rfl
  · intro d h haw hor
    unfold tdRecommendUser
    rw [(getItem_ok_iff _ _ _).2 h, except_bind_ok]
    dsimp only
    obtain ⟨c1, c2, _⟩ := C11_shifted_positions (d.items.filter fun x => decide (x ≠ PAD)) s.w.rows
    have h0 : min (d.items.filter fun x => decide (x ≠ PAD)).length (s.w.rows - 1) = 0 := by
      rcases hor with h | h
      · omega
      · have : d.items.filter (fun x => decide (x ≠ PAD)) = [] := by
          rw [List.filter_eq_nil_iff]
          intro x hx
          simp [h x hx]
        rw [this]
        simp
    rw [h0] at c2
    rw [List.length_eq_zero_iff.1 c2]
    unfold seqScores Mat.dotVec
    rw [dif_pos haw, except_bind_ok]
    rfl

/-- A trained state with three items, `L = 3`, rank 1: the scores of a user who saw items 0 then 2. -/
def exState : TDState ℚ where
  maps := ⟨getContMappingStruct [7] 0, getContMappingStruct [4, 5, 6] 0⟩
  history := [(0, 0), (0, 2)]
  seqHist := [(0, ⟨3, [-1, 0, 2]⟩)]
  u := ⟨1, 1, !![1]⟩
  v := ⟨3, 1, !![1; 2; 3]⟩
  w := ⟨3, 1, !![1; 1; 1]⟩
  core := none
  aw := ⟨3, 1, !![1; 10; 100]⟩
  lastPos := ⟨1, ![1]⟩

example : (tdRecommendUser exState 0).toOption.map (fun r => List.ofFn r.val) =
    some [3 * 10 + 1 * 1, 2 * (3 * 10 + 1), 3 * (3 * 10 + 1)] ∧
    (match tdRecommendUser exState 1 with | .error .keyError => true | _ => false) = true := by
  decide +kernel

end DynCF
