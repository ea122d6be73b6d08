/-
C187: training `SVD` treats users and items alike: on the table with the two columns exchanged it gives the same scores, with
the roles of user and item exchanged.
-/
import Verif.Props.RelScale

namespace DynCF
open Matrix

/-! ### Specification -/

/-- The same interaction with its user and its item exchanged. -/
def swapSides (x : Row ℝ) : Row ℝ := { x with user := x.item, item := x.user }

/-! ### Lemmas -/

theorem swapSides_users (rows : List (Row ℝ)) : (rows.map swapSides).map Row.user = rows.map Row.item := by
  rw [List.map_map]
  rfl

theorem swapSides_items (rows : List (Row ℝ)) : (rows.map swapSides).map Row.item = rows.map Row.user := by
  rw [List.map_map]
  rfl

theorem interactionMatrix_swap (us is : List ℤ) (rows : List (Row ℝ)) :
    interactionMatrix is us (rows.map swapSides) = (interactionMatrix us is rows).transpose := by
  ext i j
  simp only [interactionMatrix, Matrix.of_apply, Matrix.transpose_apply, List.filter_map, List.map_map]
  congr 2
  refine List.filter_congr fun x _ => ?_
  exact decide_eq_decide.2 and_comm

theorem truncated_swap {m n r : ℕ} {A : Matrix (Fin m) (Fin n) ℝ} {U : Matrix (Fin m) (Fin r) ℝ}
    {s : Fin r → ℝ} {V : Matrix (Fin r) (Fin n) ℝ} (h : TruncatedSvd A U s V) :
    TruncatedSvd A.transpose V.transpose s U.transpose := by
  unfold TruncatedSvd at h ⊢
  rw [Nat.min_comm n m]
  obtain ⟨U', s', V', hr, h1, h2, h3, h4, h5, h6, h7, h8⟩ := h
  refine ⟨V'.transpose, s', U'.transpose, hr, ?_, ?_, ?_, h4, h5, fun i k => h8 k i, h7, fun k j => h6 j k⟩
  · rw [← h1, Matrix.transpose_mul, Matrix.transpose_mul, Matrix.diagonal_transpose, Matrix.mul_assoc]
  · rw [Matrix.transpose_transpose, h3]
  · rw [Matrix.transpose_transpose, h2]

theorem gap_swap {m n r : ℕ} {A : Matrix (Fin m) (Fin n) ℝ} (h : SpectralGap r A) : SpectralGap r A.transpose := by
  unfold SpectralGap at h ⊢
  rw [Nat.min_comm n m]
  obtain ⟨U', s', V', h1, h2, h3, h4, h5, h6⟩ := h
  refine ⟨V'.transpose, s', U'.transpose, ?_, ?_, ?_, h4, h5, h6⟩
  · rw [← h1, Matrix.transpose_mul, Matrix.transpose_mul, Matrix.diagonal_transpose, Matrix.mul_assoc]
  · rw [Matrix.transpose_transpose, h3]
  · rw [Matrix.transpose_transpose, h2]

/-! ### Theorem -/

/-- **C187.** If the table has a gap after the chosen rank, then training on it and on the table with the two columns
exchanged both succeed, and what the first model gives to user `u` and item `i` the second one gives to user `i` and item
`u`. -/
theorem C187 (env env' : PSIEnv ℝ) (cfg : PSICfg) (train : List (Row ℝ)) (us is : List ℤ)
    (hu : FirstAppearance (train.map Row.user) us) (hi : FirstAppearance (train.map Row.item) is)
    (hr : 1 ≤ cfg.rank ∧ cfg.rank < us.length ∧ cfg.rank < is.length)
    (hsvd : SvdsOk env.la cfg.rank (interactionMatrix us is train))
    (hsvd' : SvdsOk env'.la cfg.rank (interactionMatrix is us (train.map swapSides)))
    (hgap : SpectralGap cfg.rank (interactionMatrix us is train)) :
    ∃ st st', svdTrain env cfg train = .ok st ∧ svdTrain env' cfg (train.map swapSides) = .ok st' ∧
      (∀ u ∈ us, ∀ i ∈ is, ∃ x, NamedScore st u i x) ∧
      ∀ u i x, NamedScore st u i x ↔ NamedScore st' i u x := by
  have hu' : FirstAppearance ((train.map swapSides).map Row.user) is := by rw [swapSides_users]; exact hi
  have hi' : FirstAppearance ((train.map swapSides).map Row.item) us := by rw [swapSides_items]; exact hu
  obtain ⟨st, e, i1, U, s, V, ht, q⟩ := svdTrain_best env cfg train us is hu hi hr hsvd
  obtain ⟨st', e', i2, U', s', V', ht', q'⟩ := svdTrain_best env' cfg (train.map swapSides) is us hu' hi'
    ⟨hr.1, hr.2.2, hr.2.1⟩ hsvd'
  rw [interactionMatrix_swap] at ht'
  have key : U' * diagonal s' * V' = (U * diagonal s * V).transpose := by
    rw [truncated_unique (gap_swap hgap) ht' (truncated_swap ht), Matrix.transpose_mul, Matrix.transpose_mul,
      Matrix.diagonal_transpose, Matrix.mul_assoc]
  have named : ∀ {st : PSIState ℝ} {us is : List ℤ} {rows : List (Row ℝ)}, PsiInv st us is cfg.rank rows →
      ∀ {P : Matrix (Fin us.length) (Fin is.length) ℝ},
      (∀ a : Fin us.length, psiScore st ((a : ℕ) : ℤ) = .ok (List.ofFn fun j => P a j)) → ∀ u i x,
      NamedScore st u i x ↔ ∃ (a : Fin us.length) (b : Fin is.length), us[a] = u ∧ is[b] = i ∧ P a b = x := by
    intro st us is rows inv P q u i x
    constructor
    · rintro ⟨a, b, l, ha, hb, hl, hx⟩
      rw [inv.shape.user.old2new] at ha
      rw [inv.shape.item.old2new] at hb
      obtain ⟨a, rfl, ha⟩ := ha
      obtain ⟨b', hb', hb⟩ := hb
      obtain rfl : b = b' := by exact_mod_cast hb'
      obtain ⟨la, ea⟩ := List.getElem?_eq_some_iff.1 ha
      obtain ⟨lb, eb⟩ := List.getElem?_eq_some_iff.1 hb
      have hl := Except.ok.inj (hl.symm.trans (q ⟨a, la⟩))
      rw [hl, List.getElem?_ofFn, dif_pos lb] at hx
      exact ⟨⟨a, la⟩, ⟨b, lb⟩, ea, eb, Option.some.inj hx⟩
    · rintro ⟨a, b, rfl, rfl, rfl⟩
      refine ⟨((a : ℕ) : ℤ), b, _, ?_, ?_, q a, by rw [List.getElem?_ofFn, dif_pos b.2]⟩
      · rw [inv.shape.user.old2new]
        exact ⟨_, rfl, List.getElem?_eq_getElem a.2⟩
      · rw [inv.shape.item.old2new]
        exact ⟨_, rfl, List.getElem?_eq_getElem b.2⟩
  refine ⟨st, st', e, e', fun u hu i hi => ?_, fun u i x => ?_⟩
  · obtain ⟨a, ha, rfl⟩ := List.getElem_of_mem hu
    obtain ⟨b, hb, rfl⟩ := List.getElem_of_mem hi
    exact ⟨_, (named i1 q _ _ _).2 ⟨⟨a, ha⟩, ⟨b, hb⟩, rfl, rfl, rfl⟩⟩
  · rw [named i1 q, named i2 q', key]
    constructor
    · rintro ⟨a, b, h1, h2, h3⟩
      exact ⟨b, a, h2, h1, h3⟩
    · rintro ⟨a, b, h1, h2, h3⟩
      exact ⟨b, a, h2, h1, h3⟩

/-! ### Updates -/

theorem exTie_best : ∃ (U : Matrix (Fin 2) (Fin 1) ℝ) (s : Fin 1 → ℝ) (V : Matrix (Fin 1) (Fin 2) ℝ),
    TruncatedSvd (diagonal ![(2 : ℝ), 1]) U s V ∧ (!![2, 0; 0, 0] : Matrix (Fin 2) (Fin 2) ℝ) = U * diagonal s * V := by
  refine ⟨!![1; 0], fun _ => 2, !![1, 0], ?_, ?_⟩
  · refine ⟨(1 : Matrix (Fin 2) (Fin 2) ℝ), ![2, 1], (1 : Matrix (Fin 2) (Fin 2) ℝ), (by decide), ?_, ?_, ?_, ?_, ?_,
      ?_, ?_, ?_⟩
    · exact (congrArg (· * (1 : Matrix (Fin 2) (Fin 2) ℝ)) (Matrix.one_mul (diagonal ![(2 : ℝ), 1]))).trans (Matrix.mul_one _)
    · rw [Matrix.transpose_one]; exact Matrix.mul_one _
    · rw [Matrix.transpose_one]; exact Matrix.mul_one _
    · intro i
      change Fin 2 at i
      fin_cases i <;> norm_num
    · intro i j hij
      change Fin 2 at i j
      fin_cases i <;> fin_cases j <;> first | (exact absurd hij (by decide)) | norm_num
    · intro i k
      change Fin 2 at i
      fin_cases k
      fin_cases i <;> rfl
    · intro k
      fin_cases k
      rfl
    · intro k j
      change Fin 2 at j
      fin_cases k
      fin_cases j <;> rfl
  · ext i j
    fin_cases i <;> fin_cases j <;> simp [Matrix.mul_apply]

theorem rank_one_of {M : Matrix (Fin 2) (Fin 2) ℝ} (x : Matrix (Fin 2) (Fin 1) ℝ) (y : Matrix (Fin 1) (Fin 2) ℝ)
    (h : M = x * y) (hne : M ≠ 0) : M.rank = 1 := by
  have h1 : M.rank ≤ 1 := by
    rw [h]
    exact (Matrix.rank_mul_le_left x y).trans (Matrix.rank_le_width x)
  have h2 : M.rank ≠ 0 := by
    intro e
    have h3 : M.mulVecLin = 0 := LinearMap.range_eq_bot.1 (Submodule.finrank_eq_zero.1 e)
    refine hne (Matrix.ext fun i j => ?_)
    have h4 := congrFun (LinearMap.congr_fun h3 (Pi.single j 1)) i
    rw [Matrix.mulVecLin_apply, Matrix.mulVec_single_one] at h4
    exact h4
  omega

/-- **C187 does not extend to updates.** Train on two users with one item each, then let the second user take both items. The
updated model gives user 7 the score 1 for item 41, and the model of the exchanged tables gives user 41 the score 0 for
item 7, with every correct pair of routines. -/
theorem C187_update (env env' : PSIEnv ℝ) (hqr : QrAlways env.la) (hqr' : QrAlways env'.la)
    (hsvd : SvdsOk env.la 1 (interactionMatrix [7, 8] [40, 41] (exTieRows 2)))
    (hsvd' : SvdsOk env'.la 1 (interactionMatrix [40, 41] [7, 8] ((exTieRows 2).map swapSides))) :
    ∃ st st', psiRun env ⟨1, 0, 1, none, false⟩ (exTieRows 2) [[⟨8, 40, 2, 2, 1⟩, ⟨8, 41, 2, 2, 1⟩]] = .ok st ∧
      psiRun env' ⟨1, 0, 1, none, false⟩ ((exTieRows 2).map swapSides)
        [[⟨8, 40, 2, 2, 1⟩, ⟨8, 41, 2, 2, 1⟩].map swapSides] = .ok st' ∧
      psiScore st 0 = .ok [2, 1] ∧ psiScore st 1 = .ok [2, 1] ∧
      psiScore st' 0 = .ok [2, 2] ∧ psiScore st' 1 = .ok [0, 0] := by
  have hu : FirstAppearance ((exTieRows 2).map Row.user) [7, 8] := firstAppearance_pdUnique [7, 8]
  have hi : FirstAppearance ((exTieRows 2).map Row.item) [40, 41] := firstAppearance_pdUnique [40, 41]
  have hu' : FirstAppearance (((exTieRows 2).map swapSides).map Row.user) [40, 41] := firstAppearance_pdUnique [40, 41]
  have hi' : FirstAppearance (((exTieRows 2).map swapSides).map Row.item) [7, 8] := firstAppearance_pdUnique [7, 8]
  have hT : interactionMatrix [40, 41] [7, 8] ((exTieRows 2).map swapSides) = diagonal ![(2 : ℝ), 1] := by
    rw [interactionMatrix_swap, exTie_matrix]
    exact Matrix.diagonal_transpose _
  have hD : interactionMatrix [7, 8] [40, 41] [(⟨8, 40, 2, 2, 1⟩ : Row ℝ), ⟨8, 41, 2, 2, 1⟩] =
      (!![0, 0; 2, 2] : Matrix (Fin 2) (Fin 2) ℝ) := by
    ext i j
    fin_cases i <;> fin_cases j <;> simp [interactionMatrix]
  have hD' : interactionMatrix [40, 41] [7, 8] ([(⟨8, 40, 2, 2, 1⟩ : Row ℝ), ⟨8, 41, 2, 2, 1⟩].map swapSides) =
      (!![0, 2; 0, 2] : Matrix (Fin 2) (Fin 2) ℝ) := by
    rw [interactionMatrix_swap, hD]
    ext i j
    fin_cases i <;> fin_cases j <;> rfl
  have rA : (!![2, 0; 0, 0] : Matrix (Fin 2) (Fin 2) ℝ).rank = 1 :=
    rank_one_of !![2; 0] !![1, 0] (by ext i j; fin_cases i <;> fin_cases j <;> simp [Matrix.mul_apply])
      (fun h => by simpa using congrFun (congrFun h 0) 0)
  have hQ : OrthProj (!![1, 0; 0, 0] : Matrix (Fin 2) (Fin 2) ℝ)
      (!![2, 0; 0, 0] : Matrix (Fin 2) (Fin 2) ℝ).transpose := by
    refine ⟨?_, ?_, !![1 / 2, 0; 0, 0], ?_⟩ <;> ext i j <;> fin_cases i <;> fin_cases j <;>
      simp [Matrix.mul_apply, Fin.sum_univ_two]
  have e : ((!![2, 0; 0, 0] + !![0, 0; 2, 2]) * (!![2, 0; 0, 0] : Matrix (Fin 2) (Fin 2) ℝ).transpose) =
      !![4, 0; 4, 0] := by
    ext i j
    fin_cases i <;> fin_cases j <;> simp [Matrix.mul_apply, Fin.sum_univ_two] <;> norm_num
  have e' : ((!![2, 0; 0, 0] + !![0, 2; 0, 2]) * (!![2, 0; 0, 0] : Matrix (Fin 2) (Fin 2) ℝ).transpose) =
      !![4, 0; 0, 0] := by
    ext i j
    fin_cases i <;> fin_cases j <;> simp [Matrix.mul_apply, Fin.sum_univ_two] <;> norm_num
  have hP : OrthProj (!![1 / 2, 1 / 2; 1 / 2, 1 / 2] : Matrix (Fin 2) (Fin 2) ℝ) !![4, 0; 4, 0] := by
    refine ⟨?_, ?_, !![1 / 8, 1 / 8; 0, 0], ?_⟩ <;> ext i j <;> fin_cases i <;> fin_cases j <;>
      simp [Matrix.mul_apply, Fin.sum_univ_two] <;> norm_num
  have hP' : OrthProj (!![1, 0; 0, 0] : Matrix (Fin 2) (Fin 2) ℝ) !![4, 0; 0, 0] := by
    refine ⟨?_, ?_, !![1 / 4, 0; 0, 0], ?_⟩ <;> ext i j <;> fin_cases i <;> fin_cases j <;>
      simp [Matrix.mul_apply, Fin.sum_univ_two]
  obtain ⟨st, h1, -, h2, -⟩ := C153_scores env hqr ⟨1, 0, 1, none, false⟩ (fun _ => rfl) (exTieRows 2) [7, 8] [40, 41]
    hu hi (by decide) hsvd exGap [[⟨8, 40, 2, 2, 1⟩, ⟨8, 41, 2, 2, 1⟩]] (by simp)
    (fun t => if t = 0 then (!![2, 0; 0, 0] : Matrix (Fin 2) (Fin 2) ℝ) else !![2, 1; 2, 1])
    (by
      rw [exTie_matrix]
      exact exTie_best)
    (by
      intro t ht
      obtain rfl : t = 0 := by simpa using ht
      refine ⟨rA, ?_, ?_⟩
      · show ((!![2, 0; 0, 0] + interactionMatrix [7, 8] [40, 41] [(⟨8, 40, 2, 2, 1⟩ : Row ℝ), ⟨8, 41, 2, 2, 1⟩]) *
          (!![2, 0; 0, 0] : Matrix (Fin 2) (Fin 2) ℝ).transpose).rank = 1
        rw [hD]
        exact (congrArg Matrix.rank e).trans (rank_one_of !![4; 4] !![1, 0]
          (by ext i j; fin_cases i <;> fin_cases j <;> simp [Matrix.mul_apply])
          (fun h => by simpa using congrFun (congrFun h 0) 0))
      · show PsiNext (!![2, 0; 0, 0] : Matrix (Fin 2) (Fin 2) ℝ)
          (interactionMatrix [7, 8] [40, 41] [(⟨8, 40, 2, 2, 1⟩ : Row ℝ), ⟨8, 41, 2, 2, 1⟩]) !![2, 1; 2, 1]
        rw [hD]
        refine ⟨_, _, e ▸ hP, hQ, ?_⟩
        ext i j
        fin_cases i <;> fin_cases j <;> simp [Matrix.mul_apply, Fin.sum_univ_two] <;> norm_num)
  obtain ⟨st', h1', -, h2', -⟩ := C153_scores env' hqr' ⟨1, 0, 1, none, false⟩ (fun _ => rfl)
    ((exTieRows 2).map swapSides) [40, 41] [7, 8] hu' hi' (by decide) hsvd'
    (by rw [interactionMatrix_swap]; exact gap_swap exGap)
    [[⟨8, 40, 2, 2, 1⟩, ⟨8, 41, 2, 2, 1⟩].map swapSides] (by simp [swapSides])
    (fun t => if t = 0 then (!![2, 0; 0, 0] : Matrix (Fin 2) (Fin 2) ℝ) else !![2, 2; 0, 0])
    (by
      rw [hT]
      exact exTie_best)
    (by
      intro t ht
      obtain rfl : t = 0 := by simpa using ht
      refine ⟨rA, ?_, ?_⟩
      · show ((!![2, 0; 0, 0] + interactionMatrix [40, 41] [7, 8]
          ([(⟨8, 40, 2, 2, 1⟩ : Row ℝ), ⟨8, 41, 2, 2, 1⟩].map swapSides)) *
          (!![2, 0; 0, 0] : Matrix (Fin 2) (Fin 2) ℝ).transpose).rank = 1
        rw [hD']
        exact (congrArg Matrix.rank e').trans (rank_one_of !![4; 0] !![1, 0]
          (by ext i j; fin_cases i <;> fin_cases j <;> simp [Matrix.mul_apply])
          (fun h => by simpa using congrFun (congrFun h 0) 0))
      · show PsiNext (!![2, 0; 0, 0] : Matrix (Fin 2) (Fin 2) ℝ)
          (interactionMatrix [40, 41] [7, 8] ([(⟨8, 40, 2, 2, 1⟩ : Row ℝ), ⟨8, 41, 2, 2, 1⟩].map swapSides))
          !![2, 2; 0, 0]
        rw [hD']
        refine ⟨_, _, e' ▸ hP', hQ, ?_⟩
        ext i j
        fin_cases i <;> fin_cases j <;> simp [Matrix.mul_apply, Fin.sum_univ_two])
  exact ⟨st, st', h1, h1', (h2 0).trans rfl, (h2 1).trans rfl, (h2' 0).trans rfl, (h2' 1).trans rfl⟩

/-! ### Example -/

-- two users and two items with rank 1: what user 7 gets for item 41 in the one model, user 41 gets for item 7 in the other
example (e0 : PSIEnv ℝ) : ∃ st st', svdTrain { e0 with la := realLA } ⟨1, 0, 1, none, true⟩ (exTieRows 2) = .ok st ∧
    svdTrain { e0 with la := realLA } ⟨1, 0, 1, none, true⟩ [⟨40, 7, 2, 0, 0⟩, ⟨41, 8, 1, 1, 0⟩] = .ok st' ∧
    ∃ x, NamedScore st 7 41 x ∧ NamedScore st' 41 7 x := by
  obtain ⟨st, st', h1, h2, h3, h4⟩ := C187 { e0 with la := realLA } { e0 with la := realLA } ⟨1, 0, 1, none, true⟩
    (exTieRows 2) [7, 8] [40, 41] (firstAppearance_pdUnique [7, 8]) (firstAppearance_pdUnique [40, 41]) (by decide)
    (realLA_svds (by decide) _) (realLA_svds (by decide) _) exGap
  obtain ⟨x, hx⟩ := h3 7 (by decide) 41 (by decide)
  exact ⟨st, st', h1, h2, x, hx, (h4 7 41 x).1 hx⟩

-- the routines of the real backend satisfy the conditions of `C187_update`
example (e0 : PSIEnv ℝ) : ∃ st, psiRun { e0 with la := realLA } ⟨1, 0, 1, none, false⟩ (exTieRows 2)
    [[⟨8, 40, 2, 2, 1⟩, ⟨8, 41, 2, 2, 1⟩]] = .ok st ∧ psiScore st 0 = .ok [2, 1] := by
  obtain ⟨st, -, h, -, h', -⟩ := C187_update { e0 with la := realLA } { e0 with la := realLA } qrAlways_real qrAlways_real
    (realLA_svds (by decide) _) (realLA_svds (by decide) _)
  exact ⟨st, h, h'⟩

end DynCF
