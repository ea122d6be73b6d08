/- Property C77: splitting a matrix into blocks. -/
import Verif.Model.SplitMatrix
import Verif.Lemmas.Hooi
import Mathlib.Algebra.Order.Field.Rat
import Mathlib.Data.Rat.Floor
import Mathlib.Algebra.Order.Floor.Semiring

set_option linter.unusedSectionVars false

namespace DynCF
variable {K : Type}

/-- The rows of a matrix as lists. -/
def rowLists (A : Mat K) : List (List K) := List.ofFn fun i => List.ofFn (A.val i)
/-- The columns of a matrix as lists. -/
def colLists (A : Mat K) : List (List K) := List.ofFn fun j => List.ofFn fun i => A.val i j

theorem rowLists_length (A : Mat K) : (rowLists A).length = A.rows := by simp [rowLists]

theorem rowLists_slice (A : Mat K) (st en : ℤ) : rowLists (A.rowSlice st en) =
    ((rowLists A).take (clipBound A.rows en)).drop (clipBound A.rows st) := by
  refine List.ext_getElem? fun i => ?_
  rw [List.getElem?_drop, List.getElem?_take]
  have hle := clipBound_le A.rows en
  unfold rowLists Mat.rowSlice
  rw [List.getElem?_ofFn, List.getElem?_ofFn]
  dsimp only
  by_cases h : i < clipBound A.rows en - clipBound A.rows st
  · rw [dif_pos h, if_pos (by omega), dif_pos (by omega)]
    rfl
  · rw [dif_neg h, if_neg (by omega)]

/-- consecutive slices with increasing clipped points cover the list -/
theorem slices_cover (A : Mat K) (x : ℤ) (idx : List ℤ)
    (hch : (x :: (idx ++ [(A.rows : ℤ)])).Pairwise fun a b => clipBound A.rows a ≤ clipBound A.rows b) :
    (List.zipWith A.rowSlice (x :: idx) (idx ++ [(A.rows : ℤ)])).flatMap rowLists =
      (rowLists A).drop (clipBound A.rows x) := by
  induction idx generalizing x with
  | nil =>
    simp only [List.nil_append, List.zipWith_cons_cons, List.zipWith_nil_left, List.flatMap_cons,
      List.flatMap_nil, List.append_nil]
    rw [rowLists_slice, List.take_of_length_le]
    rw [rowLists_length]
    unfold clipBound
    rw [if_neg (by omega)]
    simp
  | cons y idx ih =>
    rw [List.cons_append, List.zipWith_cons_cons, List.flatMap_cons]
    rw [List.cons_append, List.pairwise_cons] at hch
    rw [ih y hch.2, rowLists_slice]
    have hxy := hch.1 y (by simp)
    have hsplit : (rowLists A).drop (clipBound A.rows x) =
        ((rowLists A).take (clipBound A.rows y)).drop (clipBound A.rows x) ++
          (rowLists A).drop (clipBound A.rows y) := by
      conv_lhs => rw [← List.take_append_drop (clipBound A.rows y) (rowLists A)]
      rw [List.drop_append_of_le_length]
      rw [List.length_take, rowLists_length]
      have := clipBound_le A.rows y
      omega
    exact hsplit.symm

/-- membership in `np.arange` -/
theorem npArange_mem {a n s : ℤ} {l : List ℤ} (h : npArange a n s = .ok l) :
    s ≠ 0 ∧ l = (List.range l.length).map (fun (k : ℕ) => a + k * s) ∧
      (0 < s → ∀ k : ℕ, k < l.length ↔ a + k * s < n) ∧
      (s < 0 → ∀ k : ℕ, k < l.length ↔ n < a + k * s) := by
  unfold npArange at h
  split at h
  · cases h
  rename_i hs
  simp only [Except.ok.injEq] at h
  subst h
  refine ⟨hs, by simp, ?_, ?_⟩
  · intro hpos k
    rw [List.length_map, List.length_range]
    have h1 : Int.fdiv (a - n) s = (a - n) / s := Int.fdiv_eq_ediv_of_nonneg _ (le_of_lt hpos)
    rw [h1, Int.lt_toNat]
    have h3 : ((k : ℤ) < -((a - n) / s)) ↔ (a - n) / s < -(k : ℤ) := by omega
    rw [h3, Int.ediv_lt_iff_lt_mul hpos]
    constructor <;> intro h <;> linarith
  · intro hneg k
    rw [List.length_map, List.length_range]
    have h1 : Int.fdiv (a - n) s = (n - a) / (-s) := by
      have h0 : Int.fdiv (n - a) (-s) = (n - a) / (-s) := Int.fdiv_eq_ediv_of_nonneg _ (by omega)
      rw [← h0, show n - a = -(a - n) by ring, Int.neg_fdiv_neg]
    rw [h1, Int.lt_toNat]
    have h3 : ((k : ℤ) < -((n - a) / (-s))) ↔ (n - a) / (-s) < -(k : ℤ) := by omega
    rw [h3, Int.ediv_lt_iff_lt_mul (by omega)]
    constructor <;> intro h <;> linarith

theorem clip_nonneg (n : ℕ) (i : ℤ) (h : 0 ≤ i) : clipBound n i = min i.toNat n := by
  unfold clipBound
  rw [if_neg (by omega)]

/-- the points of `np.arange` from a non-negative start are increasing after clipping -/
theorem points_sorted (A : Mat K) (a s : ℤ) (l : List ℤ) (ha : 0 ≤ a)
    (h : npArange a A.rows s = .ok l) :
    (0 :: (l ++ [(A.rows : ℤ)])).Pairwise fun a b => clipBound A.rows a ≤ clipBound A.rows b := by
  obtain ⟨hs, hl, hpos, hneg⟩ := npArange_mem h
  rw [List.pairwise_cons, List.pairwise_append]
  have hn : clipBound A.rows (A.rows : ℤ) = A.rows := by rw [clip_nonneg _ _ (by omega)]; simp
  refine ⟨fun x _ => by rw [clip_nonneg _ 0 (le_refl _)]; simp, ?_, by simp, ?_⟩
  · rw [hl, List.pairwise_map]
    refine List.Pairwise.imp_of_mem ?_ List.pairwise_lt_range
    intro i j hi hj hij
    rw [List.mem_range] at hi hj
    rcases lt_or_gt_of_ne hs with hs' | hs'
    · have h1 := (hneg hs' i).1 hi
      have h2 := (hneg hs' j).1 hj
      rw [clip_nonneg _ _ (by omega), clip_nonneg _ _ (by omega)]
      omega
    · have h1 : (i : ℤ) * s ≤ (j : ℤ) * s := by
        apply mul_le_mul_of_nonneg_right _ (le_of_lt hs')
        exact_mod_cast le_of_lt hij
      have h2 : 0 ≤ (i : ℤ) * s := by positivity
      rw [clip_nonneg _ _ (by omega), clip_nonneg _ _ (by omega)]
      omega
  · intro x _ y hy
    rw [List.mem_singleton.1 hy, hn]
    exact clipBound_le _ _

section
variable [Field K] [LinearOrder K] [IsStrictOrderedRing K] [FloorRing K]

theorem pyInt_nonneg (x : K) (h : 0 ≤ x) : 0 ≤ pyInt x := by
  unfold pyInt
  rw [if_pos h]
  exact Int.floor_nonneg.2 h

/-- the number of rows of the first block and the step -/
def firstBlock (n : ℕ) (rf : K) : ℤ := pyInt ((n : K) * rf)
def blockStep (n : ℕ) (rf rn : K) : ℤ := pyInt ((((n : ℤ) - firstBlock n rf : ℤ) : K) * rn)

theorem splitRows_spec (A : Mat K) (rf rn : K) :
    (blockStep A.rows rf rn = 0 → splitRows A rf rn = .error .zeroDivisionError) ∧
    (blockStep A.rows rf rn ≠ 0 → ∃ idx, npArange (firstBlock A.rows rf) A.rows (blockStep A.rows rf rn) =
      .ok idx ∧ splitRows A rf rn = .ok (arraySplitRows A idx)) := by
  constructor
  · intro h
    show (npArange (firstBlock A.rows rf) A.rows (blockStep A.rows rf rn) >>= _) = _
    unfold npArange
    rw [if_pos h]
    rfl
  · intro h
    refine ⟨_, if_neg h, ?_⟩
    show (npArange (firstBlock A.rows rf) A.rows (blockStep A.rows rf rn) >>= _) = _
    unfold npArange
    rw [if_neg h]
    rfl

/-- **C77, partial**: for a non-negative first ratio. A zero step is refused (`ZeroDivisionError`),
any other axis too (`IndexError`). Otherwise the blocks have all the columns (rows) of the matrix and
their rows (columns) in order are the rows (columns) of the matrix. Missing: a negative first ratio,
see `C77_violated`. -/
theorem C77_split_partial (A : Mat K) (rf rn : K) (hrf : 0 ≤ rf) (axis : ℤ) :
    (axis = 0 ∨ axis = -2 →
      (blockStep A.rows rf rn = 0 → splitMatrix A rf rn axis = .error .zeroDivisionError) ∧
      (blockStep A.rows rf rn ≠ 0 → ∃ l, splitMatrix A rf rn axis = .ok l ∧
        l.flatMap rowLists = rowLists A ∧ ∀ B ∈ l, B.cols = A.cols)) ∧
    (axis = 1 ∨ axis = -1 →
      (blockStep A.cols rf rn = 0 → splitMatrix A rf rn axis = .error .zeroDivisionError) ∧
      (blockStep A.cols rf rn ≠ 0 → ∃ l, splitMatrix A rf rn axis = .ok l ∧
        l.flatMap colLists = colLists A ∧ ∀ B ∈ l, B.rows = A.rows)) ∧
    ((axis < -2 ∨ 1 < axis) → splitMatrix A rf rn axis = .error .indexError) := by
  have hmain : ∀ (A : Mat K), blockStep A.rows rf rn ≠ 0 → ∃ l, splitRows A rf rn = .ok l ∧
        l.flatMap rowLists = rowLists A ∧ ∀ B ∈ l, B.cols = A.cols := by
    intro A h
    obtain ⟨idx, h1, h2⟩ := (splitRows_spec A rf rn).2 h
    refine ⟨_, h2, ?_, ?_⟩
    · have := slices_cover A 0 idx (points_sorted A _ _ _ (pyInt_nonneg _ (by positivity)) h1)
      unfold arraySplitRows
      rw [this, clip_nonneg _ _ (le_refl _)]
      simp
    · intro B hB
      unfold arraySplitRows at hB
      obtain ⟨i, hi, rfl⟩ := List.mem_iff_getElem.1 hB
      rw [List.getElem_zipWith]
      rfl
  refine ⟨?_, ?_, ?_⟩
  · intro hax
    unfold splitMatrix
    rw [if_pos hax]
    exact ⟨(splitRows_spec A rf rn).1, hmain A⟩
  · intro hax
    unfold splitMatrix
    rw [if_neg (by omega), if_pos hax]
    constructor
    · intro h
      rw [(splitRows_spec A.T rf rn).1 h]
      rfl
    · intro h
      obtain ⟨l, h1, h2, h3⟩ := hmain A.T h
      refine ⟨l.map Mat.T, by rw [h1]; rfl, ?_, ?_⟩
      · rw [List.flatMap_map]
        exact h2
      · intro B hB
        obtain ⟨B', hB', rfl⟩ := List.mem_map.1 hB
        exact h3 B' hB'
  · intro hax
    unfold splitMatrix
    rw [if_neg (by omega), if_neg (by omega)]

/-- **C77, sizes**: with `first` rows and `step > 0` from the ratios and `first ≤ n`, the first block
has `first` rows, block `k ≥ 1` has `step` rows or what is left, and no such block is empty. -/
theorem C77_sizes (A : Mat K) (rf rn : K) (hrf : 0 ≤ rf) (first step : ℕ)
    (hfirst : firstBlock A.rows rf = first) (hle : first ≤ A.rows)
    (hstep : blockStep A.rows rf rn = step) (hpos : 0 < step) :
    ∃ l, splitMatrix A rf rn 0 = .ok l ∧ (∃ B, l[0]? = some B ∧ B.rows = first) ∧
      ∀ k : ℕ, 1 ≤ k →
        (first + (k - 1) * step < A.rows → ∃ B, l[k]? = some B ∧ 0 < B.rows ∧
          B.rows = min step (A.rows - (first + (k - 1) * step))) ∧
        (A.rows ≤ first + (k - 1) * step → l[k]? = none) := by
  obtain ⟨idx, h1, h2⟩ := (splitRows_spec A rf rn).2 (by omega)
  rw [hfirst, hstep] at h1
  obtain ⟨-, hl, hlen, -⟩ := npArange_mem h1
  have hlen' : ∀ k : ℕ, k < idx.length ↔ first + k * step < A.rows := by
    intro k
    rw [hlen (by exact_mod_cast hpos) k]
    exact_mod_cast Iff.rfl
  have hidx : ∀ k : ℕ, k < idx.length → idx[k]? = some ((first : ℤ) + k * step) := by
    intro k hk
    rw [hl, List.getElem?_map, List.getElem?_range hk]
    rfl
  have hclip : ∀ k : ℕ, clipBound A.rows ((first : ℤ) + k * step) = min (first + k * step) A.rows := by
    intro k
    rw [clip_nonneg _ _ (by positivity)]
    congr 1
  have hn : clipBound A.rows (A.rows : ℤ) = A.rows := by rw [clip_nonneg _ _ (by omega)]; simp
  have hget : ∀ k : ℕ, (arraySplitRows A idx)[k]? =
      if k ≤ idx.length then some (A.rowSlice ((0 :: idx).getD k 0) ((idx ++ [(A.rows : ℤ)]).getD k 0))
      else none := by
    intro k
    unfold arraySplitRows
    rw [List.getElem?_zipWith]
    by_cases hk : k ≤ idx.length
    · rw [if_pos hk, List.getD_eq_getElem?_getD, List.getD_eq_getElem?_getD,
        List.getElem?_eq_getElem (by simp; omega), List.getElem?_eq_getElem (by simp; omega)]
      rfl
    · rw [if_neg hk, List.getElem?_eq_none (by simp; omega)]
  have hend : ∀ k : ℕ, k ≤ idx.length → clipBound A.rows ((idx ++ [(A.rows : ℤ)]).getD k 0) =
      min (first + k * step) A.rows := by
    intro k hk
    rw [List.getD_eq_getElem?_getD, List.getElem?_append]
    split
    · rename_i hlt
      rw [hidx k hlt, Option.getD_some, hclip]
    · have hke : k = idx.length := by omega
      subst hke
      have : ¬ first + idx.length * step < A.rows := fun h => absurd ((hlen' _).2 h) (by omega)
      rw [Nat.sub_self, List.getElem?_cons_zero, Option.getD_some, hn]
      omega
  refine ⟨_, by rw [splitMatrix, if_pos (Or.inl rfl)]; exact h2, ?_, ?_⟩
  · refine ⟨_, by rw [hget 0, if_pos (by omega)], ?_⟩
    show clipBound A.rows _ - clipBound A.rows _ = _
    rw [hend 0 (by omega), List.getD_cons_zero, clip_nonneg _ _ (le_refl _)]
    simp only [Nat.zero_mul, Nat.add_zero, Int.toNat_zero, Nat.zero_min, Nat.sub_zero]
    omega
  · intro k hk
    obtain ⟨m, rfl⟩ : ∃ m, k = m + 1 := ⟨k - 1, by omega⟩
    rw [Nat.add_sub_cancel]
    constructor
    · intro hlt
      have hm := (hlen' m).2 hlt
      refine ⟨_, by rw [hget (m + 1), if_pos (by omega)], ?_⟩
      have hrows : (A.rowSlice ((0 :: idx).getD (m + 1) 0)
          ((idx ++ [(A.rows : ℤ)]).getD (m + 1) 0)).rows = min step (A.rows - (first + m * step)) := by
        show clipBound A.rows _ - clipBound A.rows _ = _
        rw [hend (m + 1) (by omega), List.getD_cons_succ, List.getD_eq_getElem?_getD, hidx m hm,
          Option.getD_some, hclip, Nat.add_mul]
        omega
      exact ⟨by rw [hrows]; omega, hrows⟩
    · intro hge
      have hm : ¬ m < idx.length := fun h => absurd ((hlen' m).1 h) (by omega)
      rw [hget (m + 1), if_neg (by omega)]

end

/-- a 5 × 2 matrix -/
def exSplitMtx : Mat ℚ := ⟨5, 2, !![1, 2; 3, 4; 5, 6; 7, 8; 9, 10]⟩

/-- the rows of the blocks -/
def blockRows (r : PyM (List (Mat ℚ))) : PyM (List (List (List ℚ))) := r.map fun l => l.map rowLists

example : blockRows (splitMatrix exSplitMtx (2/5) (2/3) 0) =
    .ok [[[1, 2], [3, 4]], [[5, 6], [7, 8]], [[9, 10]]] := by decide +kernel
example : blockRows (splitMatrix exSplitMtx (1/2) 1 (-1)) =
    .ok [[[1], [3], [5], [7], [9]], [[2], [4], [6], [8], [10]]] := by decide +kernel
example : blockRows (splitMatrix exSplitMtx (2/5) (1/10) 0) = .error .zeroDivisionError := by
  decide +kernel

/-- The full claim C77: any step that is not positive is refused, and for a positive step the blocks
make up the matrix. -/
def SplitClaim : Prop := ∀ (A : Mat ℚ) (rf rn : ℚ),
  (blockStep A.rows rf rn ≤ 0 → ∃ e, splitMatrix A rf rn 0 = .error e) ∧
  (0 < blockStep A.rows rf rn → ∃ l, splitMatrix A rf rn 0 = .ok l ∧ l.flatMap rowLists = rowLists A)

/-- **C77 is violated** outside the intended ratios: a negative step is not refused (the matrix comes
back in one block), and with a negative first ratio the blocks repeat rows. -/
theorem C77_violated :
    (blockStep 5 (2/5 : ℚ) (-1) = -3 ∧ blockRows (splitMatrix exSplitMtx (2/5) (-1) 0) =
      .ok [[[1, 2], [3, 4], [5, 6], [7, 8], [9, 10]]]) ∧
    (blockStep 5 (-1/5 : ℚ) (1/2) = 3 ∧ blockRows (splitMatrix exSplitMtx (-1/5) (1/2) 0) =
      .ok [[[1, 2], [3, 4], [5, 6], [7, 8]], [], [[5, 6], [7, 8], [9, 10]]]) ∧
    ¬ SplitClaim := by
  have h1 : blockStep 5 (2/5 : ℚ) (-1) = -3 := by decide +kernel
  have h2 : blockRows (splitMatrix exSplitMtx (2/5) (-1) 0) =
      .ok [[[1, 2], [3, 4], [5, 6], [7, 8], [9, 10]]] := by decide +kernel
  refine ⟨⟨h1, h2⟩, ⟨by decide +kernel, by decide +kernel⟩, fun h => ?_⟩
  obtain ⟨e, he⟩ := (h exSplitMtx (2/5) (-1)).1 (by show blockStep 5 _ _ ≤ _; rw [h1]; norm_num)
  rw [he] at h2
  cases h2

end DynCF
