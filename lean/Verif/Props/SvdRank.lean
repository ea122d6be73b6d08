/-
C189: a larger rank of `SVD` never fits the training table worse, and the table is reproduced exactly from its rank on.
-/
import Verif.Props.RelScale

namespace DynCF
open Matrix

/-! ### Specification -/

/-- The sum of the squared differences between the total relevances of a table and the scores of a model, over all known users
and items, is `e`. -/
def FitError (st : PSIState ℝ) (us is : List ℤ) (rows : List (Row ℝ)) (e : ℝ) : Prop :=
  ∃ P : Matrix (Fin us.length) (Fin is.length) ℝ,
    (∀ a : Fin us.length, psiScore st ((a : ℕ) : ℤ) = .ok (List.ofFn fun j => P a j)) ∧
    e = ∑ a, ∑ j, (((rows.filter fun x => decide (x.user = us[a] ∧ x.item = is[j])).map Row.rel).sum - P a j) ^ 2

/-! ### Lemmas -/

theorem truncated_rank {m n r : ℕ} {U : Matrix (Fin m) (Fin r) ℝ} {s : Fin r → ℝ} {V : Matrix (Fin r) (Fin n) ℝ} :
    (U * diagonal s * V).rank ≤ r :=
  (Matrix.rank_mul_le_right _ _).trans (Matrix.rank_le_height V)

/-! ### Theorems -/

/-- **C189.** Train `SVD` on one table with two admissible ranks, with any correct routines. Both trainings succeed, and the
model of the larger rank has at most the error of the other. -/
theorem C189_rank (env env' : PSIEnv ℝ) (cfg cfg' : PSICfg) (train : List (Row ℝ)) (us is : List ℤ)
    (hu : FirstAppearance (train.map Row.user) us) (hi : FirstAppearance (train.map Row.item) is)
    (hle : cfg.rank ≤ cfg'.rank) (hr : 1 ≤ cfg.rank) (hr' : cfg'.rank < us.length ∧ cfg'.rank < is.length)
    (hsvd : SvdsOk env.la cfg.rank (interactionMatrix us is train))
    (hsvd' : SvdsOk env'.la cfg'.rank (interactionMatrix us is train)) :
    ∃ st st' e e', svdTrain env cfg train = .ok st ∧ svdTrain env' cfg' train = .ok st' ∧
      FitError st us is train e ∧ FitError st' us is train e' ∧ e' ≤ e := by
  obtain ⟨st, h1, -, U, s, V, -, q⟩ := svdTrain_best env cfg train us is hu hi
    ⟨hr, by omega, by omega⟩ hsvd
  obtain ⟨st', h1', -, U', s', V', ht', q'⟩ := svdTrain_best env' cfg' train us is hu hi ⟨by omega, hr'⟩ hsvd'
  refine ⟨st, st', _, _, h1, h1', ⟨_, q, rfl⟩, ⟨_, q', rfl⟩, ?_⟩
  obtain ⟨X, Y, hXY⟩ := exists_factor_of_rank (r := cfg'.rank) (U * diagonal s * V) (truncated_rank.trans hle)
  have := best_approximation _ U' s' V' ht' X Y
  rw [hXY] at this
  exact this

/-- **C189, exact reproduction.** The error of the trained model is zero exactly if the interaction matrix has at most the
chosen rank. -/
theorem C189_exact (env : PSIEnv ℝ) (cfg : PSICfg) (train : List (Row ℝ)) (us is : List ℤ)
    (hu : FirstAppearance (train.map Row.user) us) (hi : FirstAppearance (train.map Row.item) is)
    (hr : 1 ≤ cfg.rank ∧ cfg.rank < us.length ∧ cfg.rank < is.length)
    (hsvd : SvdsOk env.la cfg.rank (interactionMatrix us is train)) :
    ∃ st e, svdTrain env cfg train = .ok st ∧ FitError st us is train e ∧
      (e = 0 ↔ (interactionMatrix us is train).rank ≤ cfg.rank) := by
  obtain ⟨st, h1, -, U, s, V, ht, q⟩ := svdTrain_best env cfg train us is hu hi hr hsvd
  refine ⟨st, _, h1, ⟨_, q, rfl⟩, ?_⟩
  have e0 : (∑ a : Fin us.length, ∑ j : Fin is.length,
      (((train.filter fun x => decide (x.user = us[a] ∧ x.item = is[j])).map Row.rel).sum - (U * diagonal s * V) a j) ^ 2) =
      sqSum (interactionMatrix us is train - U * diagonal s * V) := rfl
  rw [e0]
  constructor
  · intro h
    rw [sub_eq_zero.1 (sqSum_eq_zero h)]
    exact truncated_rank
  · intro h
    obtain ⟨X, Y, hXY⟩ := exists_factor_of_rank _ h
    have hb := best_approximation _ U s V ht X Y
    rw [hXY, sub_self] at hb
    have hz : sqSum (0 : Matrix (Fin us.length) (Fin is.length) ℝ) = 0 := by simp [sqSum]
    rw [hz] at hb
    exact le_antisymm hb (sqSum_nonneg _)

theorem rank_sum_le {m n : ℕ} (A B : Matrix (Fin m) (Fin n) ℝ) : (A + B).rank ≤ A.rank + B.rank := by
  unfold Matrix.rank
  rw [Matrix.mulVecLin_add]
  refine (Submodule.finrank_mono ?_).trans (Submodule.finrank_add_le_finrank_add_finrank _ _)
  rintro x ⟨y, rfl⟩
  exact Submodule.add_mem_sup ⟨y, rfl⟩ ⟨y, rfl⟩

/-- a rank-one correction at one entry removes this entry from the error -/
theorem sqSum_fix {m n : ℕ} (A P : Matrix (Fin m) (Fin n) ℝ) (a : Fin m) (j : Fin n) :
    sqSum (A - (P + Matrix.single a j (A a j - P a j))) = sqSum (A - P) - (A a j - P a j) ^ 2 := by
  have h : ∀ i k, (A - (P + Matrix.single a j (A a j - P a j))) i k ^ 2 =
      (A - P) i k ^ 2 - (if i = a then if k = j then (A a j - P a j) ^ 2 else 0 else 0) := by
    intro i k
    by_cases hi : i = a
    · subst hi
      by_cases hk : k = j
      · subst hk
        simp
      · have hk' : j ≠ k := fun h => hk h.symm
        simp [hk, hk', Matrix.single_apply_of_ne]
    · have hi' : a ≠ i := fun h => hi h.symm
      simp [hi, hi', Matrix.single_apply_of_ne]
  unfold sqSum
  simp only [h, Finset.sum_sub_distrib]
  simp

/-- **C189, strictly better.** If the table has more than the smaller rank, the larger rank has a strictly smaller error. -/
theorem C189_strict (env env' : PSIEnv ℝ) (cfg cfg' : PSICfg) (train : List (Row ℝ)) (us is : List ℤ)
    (hu : FirstAppearance (train.map Row.user) us) (hi : FirstAppearance (train.map Row.item) is)
    (hlt : cfg.rank < cfg'.rank) (hr : 1 ≤ cfg.rank) (hr' : cfg'.rank < us.length ∧ cfg'.rank < is.length)
    (hsvd : SvdsOk env.la cfg.rank (interactionMatrix us is train))
    (hsvd' : SvdsOk env'.la cfg'.rank (interactionMatrix us is train))
    (hrank : cfg.rank < (interactionMatrix us is train).rank) :
    ∃ st st' e e', svdTrain env cfg train = .ok st ∧ svdTrain env' cfg' train = .ok st' ∧
      FitError st us is train e ∧ FitError st' us is train e' ∧ e' < e := by
  obtain ⟨st, h1, -, U, s, V, -, q⟩ := svdTrain_best env cfg train us is hu hi
    ⟨hr, by omega, by omega⟩ hsvd
  obtain ⟨st', h1', -, U', s', V', ht', q'⟩ := svdTrain_best env' cfg' train us is hu hi ⟨by omega, hr'⟩ hsvd'
  refine ⟨st, st', _, _, h1, h1', ⟨_, q, rfl⟩, ⟨_, q', rfl⟩, ?_⟩
  have hne : ∃ a j, interactionMatrix us is train a j - (U * diagonal s * V) a j ≠ 0 := by
    by_contra hall
    push Not at hall
    have he : interactionMatrix us is train = U * diagonal s * V := by
      ext a j
      exact sub_eq_zero.1 (hall a j)
    rw [he] at hrank
    exact absurd hrank (not_lt.2 truncated_rank)
  obtain ⟨a, j, hne⟩ := hne
  have hone : (Matrix.single a j (interactionMatrix us is train a j - (U * diagonal s * V) a j)).rank ≤ 1 := by
    have : Matrix.single a j (interactionMatrix us is train a j - (U * diagonal s * V) a j) =
        vecMulVec (Pi.single a (interactionMatrix us is train a j - (U * diagonal s * V) a j)) (Pi.single j 1) := by
      ext i k
      by_cases hi : a = i <;> by_cases hk : j = k <;> simp [Matrix.single, vecMulVec, Pi.single_apply, hi, hk, eq_comm]
    rw [this]
    exact Matrix.rank_vecMulVec_le _ _
  obtain ⟨X, Y, hXY⟩ := exists_factor_of_rank (r := cfg'.rank) (U * diagonal s * V +
    Matrix.single a j (interactionMatrix us is train a j - (U * diagonal s * V) a j))
    ((rank_sum_le _ _).trans ((add_le_add truncated_rank hone).trans hlt))
  have hb := best_approximation _ U' s' V' ht' X Y
  rw [hXY, sqSum_fix] at hb
  have hpos : 0 < (interactionMatrix us is train a j - (U * diagonal s * V) a j) ^ 2 := by positivity
  exact lt_of_le_of_lt hb (sub_lt_self _ hpos)

/-! ### Examples -/

-- three users and three items, ranks 1 and 2
example (e0 : PSIEnv ℝ) : ∃ st st' e e',
    svdTrain { e0 with la := realLA } ⟨1, 0, 1, none, true⟩ [⟨7, 40, 2, 0, 0⟩, ⟨8, 41, 1, 1, 0⟩, ⟨9, 42, 1, 2, 0⟩] = .ok st ∧
    svdTrain { e0 with la := realLA } ⟨2, 0, 1, none, true⟩ [⟨7, 40, 2, 0, 0⟩, ⟨8, 41, 1, 1, 0⟩, ⟨9, 42, 1, 2, 0⟩] = .ok st' ∧
    FitError st [7, 8, 9] [40, 41, 42] [⟨7, 40, 2, 0, 0⟩, ⟨8, 41, 1, 1, 0⟩, ⟨9, 42, 1, 2, 0⟩] e ∧
    FitError st' [7, 8, 9] [40, 41, 42] [⟨7, 40, 2, 0, 0⟩, ⟨8, 41, 1, 1, 0⟩, ⟨9, 42, 1, 2, 0⟩] e' ∧ e' ≤ e :=
  C189_rank { e0 with la := realLA } { e0 with la := realLA } ⟨1, 0, 1, none, true⟩ ⟨2, 0, 1, none, true⟩ _ [7, 8, 9]
    [40, 41, 42] (firstAppearance_pdUnique [7, 8, 9]) (firstAppearance_pdUnique [40, 41, 42]) (by decide) (by decide)
    (by decide) (realLA_svds (by decide) _) (realLA_svds (by decide) _)

-- the same table has rank 3: the error of rank 2 is strictly smaller
example (e0 : PSIEnv ℝ) : ∃ st st' e e',
    svdTrain { e0 with la := realLA } ⟨1, 0, 1, none, true⟩ [⟨7, 40, 2, 0, 0⟩, ⟨8, 41, 1, 1, 0⟩, ⟨9, 42, 1, 2, 0⟩] = .ok st ∧
    svdTrain { e0 with la := realLA } ⟨2, 0, 1, none, true⟩ [⟨7, 40, 2, 0, 0⟩, ⟨8, 41, 1, 1, 0⟩, ⟨9, 42, 1, 2, 0⟩] = .ok st' ∧
    FitError st [7, 8, 9] [40, 41, 42] [⟨7, 40, 2, 0, 0⟩, ⟨8, 41, 1, 1, 0⟩, ⟨9, 42, 1, 2, 0⟩] e ∧
    FitError st' [7, 8, 9] [40, 41, 42] [⟨7, 40, 2, 0, 0⟩, ⟨8, 41, 1, 1, 0⟩, ⟨9, 42, 1, 2, 0⟩] e' ∧ e' < e := by
  refine C189_strict { e0 with la := realLA } { e0 with la := realLA } ⟨1, 0, 1, none, true⟩ ⟨2, 0, 1, none, true⟩ _ [7, 8, 9]
    [40, 41, 42] (firstAppearance_pdUnique [7, 8, 9]) (firstAppearance_pdUnique [40, 41, 42]) (by decide) (by decide)
    (by decide) (realLA_svds (by decide) _) (realLA_svds (by decide) _) ?_
  have hm : interactionMatrix [7, 8, 9] [40, 41, 42]
      [(⟨7, 40, 2, 0, 0⟩ : Row ℝ), ⟨8, 41, 1, 1, 0⟩, ⟨9, 42, 1, 2, 0⟩] = (diagonal ![2, 1, 1] : Matrix (Fin 3) (Fin 3) ℝ) := by
    ext i j
    fin_cases i <;> fin_cases j <;> simp [interactionMatrix, Matrix.diagonal_apply]
  have hk : (diagonal ![2, 1, 1] : Matrix (Fin 3) (Fin 3) ℝ).rank = 3 :=
    (Matrix.rank_of_det_ne_zero (by simp [Matrix.det_diagonal, Fin.prod_univ_three])).trans (Fintype.card_fin 3)
  rw [hm]
  exact lt_of_lt_of_eq (by decide : 1 < 3) hk.symm

-- two users who differ only in the strength of their interest: rank 1 reproduces the table
example (e0 : PSIEnv ℝ) : ∃ st, svdTrain { e0 with la := realLA } ⟨1, 0, 1, none, true⟩
      [⟨7, 40, 1, 0, 0⟩, ⟨7, 41, 1, 1, 0⟩, ⟨8, 40, 2, 2, 0⟩, ⟨8, 41, 2, 3, 0⟩] = .ok st ∧
    FitError st [7, 8] [40, 41] [⟨7, 40, 1, 0, 0⟩, ⟨7, 41, 1, 1, 0⟩, ⟨8, 40, 2, 2, 0⟩, ⟨8, 41, 2, 3, 0⟩] 0 := by
  obtain ⟨st, e, h1, h2, h3⟩ := C189_exact { e0 with la := realLA } ⟨1, 0, 1, none, true⟩
    [⟨7, 40, 1, 0, 0⟩, ⟨7, 41, 1, 1, 0⟩, ⟨8, 40, 2, 2, 0⟩, ⟨8, 41, 2, 3, 0⟩] [7, 8] [40, 41]
    (firstAppearance_pdUnique [7, 7, 8, 8]) (firstAppearance_pdUnique [40, 41, 40, 41]) (by decide)
    (realLA_svds (by decide) _)
  have hm : interactionMatrix [7, 8] [40, 41]
      [(⟨7, 40, 1, 0, 0⟩ : Row ℝ), ⟨7, 41, 1, 1, 0⟩, ⟨8, 40, 2, 2, 0⟩, ⟨8, 41, 2, 3, 0⟩] =
      (!![1; 2] : Matrix (Fin 2) (Fin 1) ℝ) * (!![1, 1] : Matrix (Fin 1) (Fin 2) ℝ) := by
    ext i j
    fin_cases i <;> fin_cases j <;> simp [interactionMatrix, Matrix.mul_apply]
  have h0 : e = 0 := h3.2 (by
    rw [hm]
    exact (Matrix.rank_mul_le_left (!![1; 2] : Matrix (Fin 2) (Fin 1) ℝ) (!![1, 1] : Matrix (Fin 1) (Fin 2) ℝ)).trans
      (Matrix.rank_le_width (!![1; 2] : Matrix (Fin 2) (Fin 1) ℝ)))
  exact ⟨st, h1, h0 ▸ h2⟩

end DynCF
