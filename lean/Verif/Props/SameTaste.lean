/-
C190: users with the same interactions get the same scores, and items with the same interactions get the same scores from
everybody, after training `SVD` and after updates of `PSI`.
-/
import Verif.Props.SwapSides

namespace DynCF
open Matrix

/-! ### Lemmas -/

/-- the best approximation is the matrix times a matrix on the right -/
theorem truncated_right {m n r : ℕ} {A : Matrix (Fin m) (Fin n) ℝ} {U : Matrix (Fin m) (Fin r) ℝ} {s : Fin r → ℝ}
    {V : Matrix (Fin r) (Fin n) ℝ} (h : TruncatedSvd A U s V) : U * diagonal s * V = A * (V.transpose * V) := by
  obtain ⟨U', s', V', hr, h1, h2, h3, h4, h5, h6, h7, h8⟩ := h
  have e : A * V'.transpose = U' * diagonal s' := by rw [← h1, Matrix.mul_assoc, h3, Matrix.mul_one]
  have e' : A * V.transpose = U * diagonal s := by
    ext i k
    have := congrFun (congrFun e i) (Fin.castLE hr k)
    rw [Matrix.mul_diagonal] at this ⊢
    rw [h6, h7, ← this, Matrix.mul_apply, Matrix.mul_apply]
    exact Finset.sum_congr rfl fun j _ => by rw [Matrix.transpose_apply, Matrix.transpose_apply, h8]
  rw [← e', Matrix.mul_assoc]

theorem truncated_left {m n r : ℕ} {A : Matrix (Fin m) (Fin n) ℝ} {U : Matrix (Fin m) (Fin r) ℝ} {s : Fin r → ℝ}
    {V : Matrix (Fin r) (Fin n) ℝ} (h : TruncatedSvd A U s V) : U * diagonal s * V = U * U.transpose * A := by
  have := congrArg Matrix.transpose (truncated_right (truncated_swap h))
  rw [Matrix.transpose_mul, Matrix.transpose_mul, Matrix.transpose_mul, Matrix.transpose_mul, Matrix.diagonal_transpose] at this
  simp only [Matrix.transpose_transpose] at this
  rw [← Matrix.mul_assoc] at this
  exact this

theorem mul_row_eq {m n k : ℕ} {A : Matrix (Fin m) (Fin n) ℝ} {a b : Fin m} (h : A a = A b) (B : Matrix (Fin n) (Fin k) ℝ) :
    (A * B) a = (A * B) b := by
  ext j
  rw [Matrix.mul_apply, Matrix.mul_apply, h]

theorem mul_col_eq {m n k : ℕ} {B : Matrix (Fin n) (Fin k) ℝ} {a b : Fin k} (h : ∀ i, B i a = B i b)
    (A : Matrix (Fin m) (Fin n) ℝ) (i : Fin m) : (A * B) i a = (A * B) i b := by
  rw [Matrix.mul_apply, Matrix.mul_apply]
  exact Finset.sum_congr rfl fun j _ => by rw [h]

theorem psiNext_expand {m n : ℕ} (A D : Matrix (Fin m) (Fin n) ℝ) (P : Matrix (Fin m) (Fin m) ℝ)
    (Q : Matrix (Fin n) (Fin n) ℝ) : A + D - (1 - P) * D * (1 - Q) = A + D * Q + P * (D * (1 - Q)) := by
  rw [Matrix.sub_mul, Matrix.one_mul, Matrix.sub_mul, Matrix.mul_assoc P, Matrix.mul_sub D, Matrix.mul_one]
  abel

theorem psiNext_rows {m n : ℕ} {A D B : Matrix (Fin m) (Fin n) ℝ} (h : PsiNext A D B) {a b : Fin m} (hA : A a = A b)
    (hD : D a = D b) : B a = B b := by
  obtain ⟨P, Q, hP, hQ, rfl⟩ := h
  obtain ⟨X, hX⟩ := hP.range
  have hP' : P a = P b := by
    rw [hX]
    exact mul_row_eq (mul_row_eq (by
      ext j
      rw [Matrix.add_apply, Matrix.add_apply, hA, hD]) _) _
  rw [psiNext_expand]
  ext j
  simp only [Matrix.add_apply]
  rw [hA, mul_row_eq hD, mul_row_eq hP']

theorem psiNext_cols {m n : ℕ} {A D B : Matrix (Fin m) (Fin n) ℝ} (h : PsiNext A D B) {j k : Fin n}
    (hA : ∀ i, A i j = A i k) (hD : ∀ i, D i j = D i k) (i : Fin m) : B i j = B i k := by
  obtain ⟨P, Q, hP, hQ, rfl⟩ := h
  obtain ⟨X, hX⟩ := hQ.range
  have hQ' : ∀ i, Q i j = Q i k := by
    intro i
    have e : Q j = Q k := by
      rw [hX]
      exact mul_row_eq (by
        ext i
        exact hA i) _
    have h1 := congrFun (congrFun hQ.symm i) j
    have h2 := congrFun (congrFun hQ.symm i) k
    rw [Matrix.transpose_apply] at h1 h2
    rw [← h1, ← h2, e]
  have hDQ := mul_col_eq hQ' D
  have hE : ∀ i, (D - D * Q) i j = (D - D * Q) i k := fun i => by rw [Matrix.sub_apply, Matrix.sub_apply, hD, hDQ]
  rw [psiNext_expand, Matrix.mul_sub D, Matrix.mul_one]
  simp only [Matrix.add_apply]
  rw [hA, hDQ, mul_col_eq hE P]

/-! ### Theorems -/

/-- **C190, users.** Two users with the same total relevances get the same scores from a trained `SVD`; no gap between
singular values is needed. -/
theorem C190_svd (env : PSIEnv ℝ) (cfg : PSICfg) (train : List (Row ℝ)) (us is : List ℤ)
    (hu : FirstAppearance (train.map Row.user) us) (hi : FirstAppearance (train.map Row.item) is)
    (hr : 1 ≤ cfg.rank ∧ cfg.rank < us.length ∧ cfg.rank < is.length)
    (hsvd : SvdsOk env.la cfg.rank (interactionMatrix us is train)) :
    ∃ st, svdTrain env cfg train = .ok st ∧
      (∀ a b : Fin us.length, (∀ i ∈ is, totalRel train us[a] i = totalRel train us[b] i) →
        psiScore st ((a : ℕ) : ℤ) = psiScore st ((b : ℕ) : ℤ)) ∧
      ∀ j k : Fin is.length, (∀ u ∈ us, totalRel train u is[j] = totalRel train u is[k]) →
        ∀ (a : Fin us.length) (l : List ℝ), psiScore st ((a : ℕ) : ℤ) = .ok l → l[(j : ℕ)]? = l[(k : ℕ)]? := by
  obtain ⟨st, h1, -, U, s, V, ht, q⟩ := svdTrain_best env cfg train us is hu hi hr hsvd
  refine ⟨st, h1, fun a b h => ?_, fun j k h a l hl => ?_⟩
  · rw [q a, q b, truncated_right ht, mul_row_eq (a := a) (b := b)]
    ext j
    exact h _ (List.getElem_mem j.2)
  · have hl := Except.ok.inj (hl.symm.trans (q a))
    rw [hl, List.getElem?_ofFn, List.getElem?_ofFn, dif_pos j.2, dif_pos k.2, truncated_left ht]
    exact congrArg some (mul_col_eq (fun u => h _ (List.getElem_mem u.2)) _ _)

/-- **C190, updates.** The same holds after updates of `PSI` under the conditions of C153, for users (items) with the same
total relevances in the training table and in every chunk. -/
theorem C190_psi (env : PSIEnv ℝ) (hqr : QrAlways env.la) (cfg : PSICfg)
    (hcfg : cfg.init = none → cfg.integrator = false) (train : List (Row ℝ)) (us is : List ℤ)
    (hu : FirstAppearance (train.map Row.user) us) (hi : FirstAppearance (train.map Row.item) is)
    (hr : 1 ≤ cfg.rank ∧ cfg.rank < us.length ∧ cfg.rank < is.length)
    (hsvd : SvdsOk env.la cfg.rank (interactionMatrix us is train))
    (hgap : SpectralGap cfg.rank (interactionMatrix us is train)) (chunks : List (List (Row ℝ)))
    (hknown : ∀ c ∈ chunks, ∀ x ∈ c, x.user ∈ us ∧ x.item ∈ is)
    (A : ℕ → Matrix (Fin us.length) (Fin is.length) ℝ)
    (h0 : ∃ U s V, TruncatedSvd (r := cfg.rank) (interactionMatrix us is train) U s V ∧ A 0 = U * diagonal s * V)
    (hpath : PsiPath cfg.rank chunks A) :
    ∃ st, psiRun env cfg train chunks = .ok st ∧
      (∀ a b : Fin us.length, (∀ c ∈ train :: chunks, ∀ i ∈ is, totalRel c us[a] i = totalRel c us[b] i) →
        psiScore st ((a : ℕ) : ℤ) = psiScore st ((b : ℕ) : ℤ)) ∧
      ∀ j k : Fin is.length, (∀ c ∈ train :: chunks, ∀ u ∈ us, totalRel c u is[j] = totalRel c u is[k]) →
        ∀ (a : Fin us.length) (l : List ℝ), psiScore st ((a : ℕ) : ℤ) = .ok l → l[(j : ℕ)]? = l[(k : ℕ)]? := by
  obtain ⟨st, e, -, q, -⟩ := C153_scores env hqr cfg hcfg train us is hu hi hr hsvd hgap chunks hknown A h0 hpath
  obtain ⟨U, s, V, ht, hA⟩ := h0
  refine ⟨st, e, fun a b h => ?_, fun j k h a l hl => ?_⟩
  · have key : ∀ t ≤ chunks.length, A t a = A t b := by
      intro t
      induction t with
      | zero =>
        intro _
        rw [hA, truncated_right ht]
        exact mul_row_eq (by
          ext j
          exact h train (by simp) _ (List.getElem_mem j.2)) _
      | succ t ih =>
        intro hle
        have hc : t < chunks.length := hle
        exact psiNext_rows (hpath t hc).2.2 (ih (by omega)) (by
          ext j
          exact h _ (List.mem_cons_of_mem _ (List.getElem_mem hc)) _ (List.getElem_mem j.2))
    rw [q a, q b, key _ le_rfl]
  · have key : ∀ t ≤ chunks.length, ∀ i, A t i j = A t i k := by
      intro t
      induction t with
      | zero =>
        intro _ i
        rw [hA, truncated_left ht]
        exact mul_col_eq (fun u => h train (by simp) _ (List.getElem_mem u.2)) _ _
      | succ t ih =>
        intro hle
        have hc : t < chunks.length := hle
        exact psiNext_cols (hpath t hc).2.2 (ih (by omega)) fun u =>
          h _ (List.mem_cons_of_mem _ (List.getElem_mem hc)) _ (List.getElem_mem u.2)
    have hl := Except.ok.inj (hl.symm.trans (q a))
    rw [hl, List.getElem?_ofFn, List.getElem?_ofFn, dif_pos j.2, dif_pos k.2, key _ le_rfl]

/-! ### Examples -/

-- users 7 and 8 have the same interactions, and so have items 40 and 41
example (e0 : PSIEnv ℝ) : ∃ st, svdTrain { e0 with la := realLA } ⟨2, 0, 1, none, true⟩
      [⟨7, 40, 1, 0, 0⟩, ⟨7, 41, 1, 1, 0⟩, ⟨8, 40, 1, 2, 0⟩, ⟨8, 41, 1, 3, 0⟩, ⟨9, 42, 1, 4, 0⟩] = .ok st ∧
    psiScore st 0 = psiScore st 1 ∧ ∀ l, psiScore st 2 = .ok l → l[0]? = l[1]? := by
  obtain ⟨st, h, hu, hi⟩ := C190_svd { e0 with la := realLA } ⟨2, 0, 1, none, true⟩
    [⟨7, 40, 1, 0, 0⟩, ⟨7, 41, 1, 1, 0⟩, ⟨8, 40, 1, 2, 0⟩, ⟨8, 41, 1, 3, 0⟩, ⟨9, 42, 1, 4, 0⟩] [7, 8, 9] [40, 41, 42]
    (firstAppearance_pdUnique [7, 7, 8, 8, 9]) (firstAppearance_pdUnique [40, 41, 40, 41, 42]) (by decide)
    (realLA_svds (by decide) _)
  refine ⟨st, h, hu (0 : Fin 3) (1 : Fin 3) ?_, hi (0 : Fin 3) (1 : Fin 3) ?_ (2 : Fin 3)⟩
  · intro i hi
    simp only [List.mem_cons, List.not_mem_nil, or_false] at hi
    rcases hi with rfl | rfl | rfl <;> simp [totalRel]
  · intro u hu
    simp only [List.mem_cons, List.not_mem_nil, or_false] at hu
    rcases hu with rfl | rfl | rfl <;> simp [totalRel]

/-- four users who all like item 40 with 3 and item 41 with 4 -/
def exFour : List (Row ℝ) :=
  [⟨6, 40, 3, 0, 0⟩, ⟨6, 41, 4, 1, 0⟩, ⟨7, 40, 3, 2, 0⟩, ⟨7, 41, 4, 3, 0⟩, ⟨8, 40, 3, 4, 0⟩, ⟨8, 41, 4, 5, 0⟩,
    ⟨9, 40, 3, 6, 0⟩, ⟨9, 41, 4, 7, 0⟩]

/-- each of them takes item 40 once more -/
def exFourChunk : List (Row ℝ) := [⟨6, 40, 1, 8, 1⟩, ⟨7, 40, 1, 8, 1⟩, ⟨8, 40, 1, 8, 1⟩, ⟨9, 40, 1, 8, 1⟩]

theorem exFour_matrix : interactionMatrix [6, 7, 8, 9] [40, 41] exFour =
    (!![3, 4; 3, 4; 3, 4; 3, 4] : Matrix (Fin 4) (Fin 2) ℝ) := by
  ext i j
  fin_cases i <;> fin_cases j <;> simp [interactionMatrix, exFour]

/-- the table of this chunk -/
def exFourD : Matrix (Fin 4) (Fin 2) ℝ := !![1, 0; 1, 0; 1, 0; 1, 0]

theorem exFourChunk_matrix : interactionMatrix [6, 7, 8, 9] [40, 41] exFourChunk =
    (!![1, 0; 1, 0; 1, 0; 1, 0] : Matrix (Fin 4) (Fin 2) ℝ) := by
  ext i j
  fin_cases i <;> fin_cases j <;> simp [interactionMatrix, exFourChunk]

/-- the left factor of the table -/
noncomputable def exFourU : Matrix (Fin 4) (Fin 2) ℝ := !![1 / 2, 1 / 2; 1 / 2, 1 / 2; 1 / 2, -1 / 2; 1 / 2, -1 / 2]

/-- the right factor of the table -/
noncomputable def exFourV : Matrix (Fin 2) (Fin 2) ℝ := !![3 / 5, 4 / 5; -4 / 5, 3 / 5]

theorem exFour_svd : exFourU * diagonal ![(10 : ℝ), 0] * exFourV = !![3, 4; 3, 4; 3, 4; 3, 4] ∧
    exFourU.transpose * exFourU = 1 ∧ exFourV * exFourV.transpose = 1 := by
  refine ⟨?_, ?_, ?_⟩ <;> ext i j <;> rw [Matrix.mul_apply] <;> try simp only [Matrix.mul_diagonal]
  all_goals fin_cases i <;>
    fin_cases j <;> simp [exFourU, exFourV, Matrix.mul_apply, Fin.sum_univ_succ] <;> norm_num

theorem exFour_gap : SpectralGap 1 (interactionMatrix [6, 7, 8, 9] [40, 41] exFour) := by
  rw [exFour_matrix]
  refine ⟨exFourU, ![10, 0], exFourV, exFour_svd.1, exFour_svd.2.1, exFour_svd.2.2, ?_, ?_, ?_⟩
  · intro i
    change Fin 2 at i
    fin_cases i <;> norm_num
  · intro i j hij
    change Fin 2 at i j
    fin_cases i <;> fin_cases j <;> first | (exact absurd hij (by decide)) | norm_num
  · intro i j h1 h2
    change Fin 2 at i j
    fin_cases i <;> fin_cases j <;> first | (exact absurd h1 (by decide)) | (exact absurd h2 (by decide)) | norm_num

theorem rank_one_gen {m n : ℕ} {M : Matrix (Fin m) (Fin n) ℝ} (x : Matrix (Fin m) (Fin 1) ℝ) (y : Matrix (Fin 1) (Fin n) ℝ)
    (h : M = x * y) (i : Fin m) (j : Fin n) (hne : M i j ≠ 0) : M.rank = 1 := by
  have h1 : M.rank ≤ 1 := by
    rw [h]
    exact (Matrix.rank_mul_le_left x y).trans (Matrix.rank_le_width x)
  have h2 : M.rank ≠ 0 := by
    intro e
    have h3 : M.mulVecLin = 0 := LinearMap.range_eq_bot.1 (Submodule.finrank_eq_zero.1 e)
    refine hne ?_
    have h4 := congrFun (LinearMap.congr_fun h3 (Pi.single j 1)) i
    rw [Matrix.mulVecLin_apply, Matrix.mulVec_single_one] at h4
    exact h4
  omega

-- after the update the four users still have the same scores
example (e0 : PSIEnv ℝ) : ∃ st, psiRun { e0 with la := realLA } ⟨1, 0, 1, none, false⟩ exFour [exFourChunk] = .ok st ∧
    psiScore st 0 = psiScore st 3 := by
  have e1 : ((!![3, 4; 3, 4; 3, 4; 3, 4] + !![1, 0; 1, 0; 1, 0; 1, 0] : Matrix (Fin 4) (Fin 2) ℝ) *
      (!![3, 4; 3, 4; 3, 4; 3, 4] : Matrix (Fin 4) (Fin 2) ℝ).transpose) = Matrix.of fun _ _ => (28 : ℝ) := by
    ext i j
    fin_cases i <;> fin_cases j <;> simp [Matrix.mul_apply, Fin.sum_univ_succ] <;> norm_num
  obtain ⟨st, h, hu, -⟩ := C190_psi { e0 with la := realLA } qrAlways_real ⟨1, 0, 1, none, false⟩ (fun _ => rfl) exFour
    [6, 7, 8, 9] [40, 41] (firstAppearance_pdUnique [6, 6, 7, 7, 8, 8, 9, 9])
    (firstAppearance_pdUnique [40, 41, 40, 41, 40, 41, 40, 41]) (by decide) (realLA_svds (by decide) _) exFour_gap
    [exFourChunk] (by simp [exFourChunk])
    (fun t => if t = 0 then (!![3, 4; 3, 4; 3, 4; 3, 4] : Matrix (Fin 4) (Fin 2) ℝ) else
      (!![4, 4; 4, 4; 4, 4; 4, 4] : Matrix (Fin 4) (Fin 2) ℝ))
    (by
      refine ⟨!![1 / 2; 1 / 2; 1 / 2; 1 / 2], fun _ => 10, !![3 / 5, 4 / 5], ?_, ?_⟩
      · rw [exFour_matrix]
        refine ⟨exFourU, ![10, 0], exFourV, (by decide), exFour_svd.1, exFour_svd.2.1, exFour_svd.2.2, ?_, ?_, ?_, ?_, ?_⟩
        · intro i
          change Fin 2 at i
          fin_cases i <;> norm_num
        · intro i j hij
          change Fin 2 at i j
          fin_cases i <;> fin_cases j <;> first | (exact absurd hij (by decide)) | norm_num
        · intro i k
          change Fin 4 at i
          change Fin 1 at k
          fin_cases k
          fin_cases i <;> rfl
        · intro k
          change Fin 1 at k
          fin_cases k
          rfl
        · intro k j
          change Fin 1 at k
          change Fin 2 at j
          fin_cases k
          fin_cases j <;> rfl
      · ext i j
        change Fin 4 at i
        change Fin 2 at j
        fin_cases i <;> fin_cases j <;> simp [Matrix.mul_apply] <;> norm_num)
    (by
      intro t ht
      obtain rfl : t = 0 := by simpa using ht
      simp only [List.getElem_cons_zero, exFourChunk_matrix, if_pos, zero_add, one_ne_zero, if_false]
      refine ⟨rank_one_gen (!![1; 1; 1; 1] : Matrix (Fin 4) (Fin 1) ℝ) (!![3, 4] : Matrix (Fin 1) (Fin 2) ℝ) ?_ (0 : Fin 4)
        (0 : Fin 2) ?_, ?_, (Matrix.of fun _ _ => (1 / 4 : ℝ) : Matrix (Fin 4) (Fin 4) ℝ),
        (!![9 / 25, 12 / 25; 12 / 25, 16 / 25] : Matrix (Fin 2) (Fin 2) ℝ), ?_, ?_, ?_⟩
      · ext i j
        fin_cases i <;> fin_cases j <;> simp [Matrix.mul_apply]
      · simp
      · refine (congrArg Matrix.rank e1).trans (rank_one_gen (Matrix.of fun _ _ => (28 : ℝ)) (Matrix.of fun _ _ => (1 : ℝ)) ?_
          (0 : Fin 4) (0 : Fin 4) (by simp))
        ext i j
        simp [Matrix.mul_apply]
      · refine Eq.mpr (congrArg (OrthProj _) e1) ⟨?_, ?_, Matrix.of fun _ _ => (1 / 448 : ℝ), ?_⟩ <;> ext i j <;>
          simp [Matrix.mul_apply] <;> norm_num
      · refine ⟨?_, ?_, (Matrix.of fun _ j => (![3 / 100, 4 / 100] : Fin 2 → ℝ) j : Matrix (Fin 4) (Fin 2) ℝ), ?_⟩ <;>
          ext i j <;> fin_cases i <;> fin_cases j <;> simp [Matrix.mul_apply, Fin.sum_univ_succ] <;> norm_num
      · have e2 : (Matrix.of fun _ _ => (1 / 4 : ℝ) : Matrix (Fin 4) (Fin 4) ℝ) * exFourD =
            exFourD := by
          ext i j
          fin_cases i <;> fin_cases j <;> simp [exFourD, Matrix.mul_apply, Fin.sum_univ_succ] <;> norm_num
        have e3 : (1 - (Matrix.of fun _ _ => (1 / 4 : ℝ) : Matrix (Fin 4) (Fin 4) ℝ)) * exFourD = 0 := by
          rw [Matrix.sub_mul, e2, Matrix.one_mul, sub_self]
        refine Eq.trans ?_ (congrArg (fun Z : Matrix (Fin 4) (Fin 2) ℝ => (!![3, 4; 3, 4; 3, 4; 3, 4] : Matrix (Fin 4) (Fin 2) ℝ) + exFourD -
          Z * (1 - (!![9 / 25, 12 / 25; 12 / 25, 16 / 25] : Matrix (Fin 2) (Fin 2) ℝ))) e3.symm)
        rw [Matrix.zero_mul, sub_zero]
        ext i j
        fin_cases i <;> fin_cases j <;> simp [exFourD] <;> norm_num)
  refine ⟨st, h, hu (0 : Fin 4) (3 : Fin 4) ?_⟩
  intro c hc i hi
  simp only [List.mem_cons, List.not_mem_nil, or_false] at hc hi
  rcases hc with rfl | rfl <;> rcases hi with rfl | rfl <;> simp [totalRel, exFour, exFourChunk]

end DynCF
