/-
C168: appending a block to a decomposition with a diagonal core gives the best approximation.
-/
import Verif.Props.SvdBlock
import Verif.Props.RandomSvdError

namespace DynCF
open Matrix

/-! ### Lemmas -/

/-- a weighted sum with weights in `[0, 1]` of total at most `r` is at most the sum over `r` chosen positions, if no
other value is larger than a chosen one -/
theorem weighted_selected_le {p r : ℕ} (a t : Fin p → ℝ) (f : Fin r → Fin p) (hf : Function.Injective f)
    (ha : ∀ i, 0 ≤ a i) (hd : ∀ x, x ∉ Set.range f → ∀ j, a x ≤ a (f j)) (h0 : ∀ i, 0 ≤ t i) (h1 : ∀ i, t i ≤ 1)
    (hs : ∑ i, t i ≤ r) : ∑ i, t i * a i ≤ ∑ j, a (f j) := by
  classical
  have hsum : ∀ g : Fin p → ℝ, ∑ j, g (f j) = ∑ i, (if i ∈ Set.range f then 1 else 0) * g i := fun g => by
    refine Finset.sum_of_injOn f hf.injOn (fun _ _ => Finset.mem_coe.2 (Finset.mem_univ _)) ?_ ?_
    · intro i _ hi
      rw [if_neg, zero_mul]
      rintro ⟨j, rfl⟩
      exact hi ⟨j, Finset.mem_coe.2 (Finset.mem_univ _), rfl⟩
    · intro j _
      rw [if_pos ⟨j, rfl⟩, one_mul]
  obtain ⟨c, hc0, hc1, hc2⟩ : ∃ c : ℝ, 0 ≤ c ∧ (∀ j, c ≤ a (f j)) ∧ ∀ x, x ∉ Set.range f → t x * a x ≤ t x * c := by
    rcases Nat.eq_zero_or_pos r with rfl | hr
    · refine ⟨0, le_rfl, fun j => j.elim0, fun x _ => ?_⟩
      have : t x ≤ ∑ i, t i := Finset.single_le_sum (fun i _ => h0 i) (Finset.mem_univ x)
      have h2 : t x = 0 := le_antisymm (by simpa using this.trans hs) (h0 x)
      rw [h2, zero_mul, zero_mul]
    · haveI : Nonempty (Fin r) := ⟨⟨0, hr⟩⟩
      obtain ⟨j0, hj0⟩ := Finite.exists_min fun j => a (f j)
      exact ⟨a (f j0), ha _, hj0, fun x hx => mul_le_mul_of_nonneg_left (hd x hx j0) (h0 x)⟩
  have key : ∀ i, (t i - (if i ∈ Set.range f then 1 else 0)) * a i ≤ (t i - (if i ∈ Set.range f then 1 else 0)) * c := by
    intro i
    split
    · rename_i h
      obtain ⟨j, rfl⟩ := h
      have := hc1 j
      have := h1 (f j)
      nlinarith
    · rename_i h
      rw [sub_zero]
      exact hc2 i h
  have hsumle := Finset.sum_le_sum fun i (_ : i ∈ Finset.univ) => key i
  rw [← Finset.sum_mul, Finset.sum_sub_distrib] at hsumle
  simp only [sub_mul, Finset.sum_sub_distrib] at hsumle
  have hcard : ∑ i : Fin p, (if i ∈ Set.range f then (1 : ℝ) else 0) = r := by
    have := hsum fun _ => 1
    simpa using this.symm
  rw [hcard, ← hsum a] at hsumle
  have : (∑ i, t i) * c - r * c ≤ 0 := by nlinarith
  linarith

/-- different columns of a matrix with orthonormal columns are orthonormal -/
theorem selected_orth {m p r : ℕ} {U : Matrix (Fin m) (Fin p) ℝ} (hU : U.transpose * U = 1) {f : Fin r → Fin p}
    (hf : Function.Injective f) :
    (Matrix.of fun i j => U i (f j)).transpose * (Matrix.of fun i j => U i (f j)) = 1 := by
  ext i j
  have := congrFun (congrFun hU (f i)) (f j)
  rw [Matrix.mul_apply] at this
  rw [Matrix.mul_apply]
  refine this.trans ?_
  simp [Matrix.one_apply, hf.eq_iff]

/-- the squared error of the chosen components -/
theorem selected_error {m n p r : ℕ} (U : Matrix (Fin m) (Fin p) ℝ) (s : Fin p → ℝ) (V : Matrix (Fin n) (Fin p) ℝ)
    (hU : U.transpose * U = 1) (hV : V.transpose * V = 1) (f : Fin r → Fin p) (hf : Function.Injective f) :
    sqSum (U * diagonal s * V.transpose - (Matrix.of fun i j => U i (f j)) * diagonal (fun j => s (f j)) *
      (Matrix.of fun j i => V i (f j))) = ∑ i, s i ^ 2 - ∑ j, s (f j) ^ 2 := by
  classical
  have h1 := selected_sum U (fun x => if x ∈ Set.range f then s x else 0) V f hf (fun x hx => if_neg hx)
  have h2 : (fun j => if f j ∈ Set.range f then s (f j) else 0) = fun j => s (f j) :=
    funext fun j => if_pos ⟨j, rfl⟩
  rw [h2] at h1
  rw [h1, ← Matrix.sub_mul, ← Matrix.mul_sub, Matrix.diagonal_sub,
    sqSum_svd hU (by rw [Matrix.transpose_transpose, hV])]
  have h3 : ∑ j, s (f j) ^ 2 = ∑ i, if i ∈ Set.range f then s i ^ 2 else 0 := by
    refine Finset.sum_of_injOn f hf.injOn (fun _ _ => Finset.mem_coe.2 (Finset.mem_univ _)) ?_ ?_
    · intro i _ hi
      rw [if_neg]
      rintro ⟨j, rfl⟩
      exact hi ⟨j, Finset.mem_coe.2 (Finset.mem_univ _), rfl⟩
    · intro j _
      rw [if_pos ⟨j, rfl⟩]
  rw [h3, ← Finset.sum_sub_distrib]
  refine Finset.sum_congr rfl fun i _ => ?_
  split <;> simp

/-- the distance of a decomposition to a matrix of rank at most `r` is at least that of `r` largest components -/
theorem selected_le {m n p r : ℕ} (U : Matrix (Fin m) (Fin p) ℝ) (s : Fin p → ℝ) (V : Matrix (Fin n) (Fin p) ℝ)
    (hU : U.transpose * U = 1) (hV : V.transpose * V = 1) (h0 : ∀ i, 0 ≤ s i) (f : Fin r → Fin p)
    (hf : Function.Injective f) (hd : ∀ x, x ∉ Set.range f → ∀ j, s x ≤ s (f j))
    (X : Matrix (Fin m) (Fin n) ℝ) (hX : X.rank ≤ r) :
    ∑ i, s i ^ 2 - ∑ j, s (f j) ^ 2 ≤ sqSum (U * diagonal s * V.transpose - X) := by
  obtain ⟨Y, Z, rfl⟩ := exists_factor_of_rank X hX
  have hVV : V.transpose * V.transpose.transpose = 1 := by rw [Matrix.transpose_transpose, hV]
  obtain ⟨hY, hQ⟩ := realLA_qr Y
  generalize (realLA.qr Y).1 = Q at hY hQ
  generalize (realLA.qr Y).2 = R at hY
  rw [← hY, Matrix.mul_assoc Q R Z, sqSum_proj hQ, sqSum_svd hU hVV, ← Matrix.mul_assoc, sqSum_orth_right hVV,
    ← Matrix.mul_assoc, sqSum_mul_diagonal]
  have t1 : ∀ k, ∑ i, (Q.transpose * U) i k ^ 2 ≤ 1 := by
    intro k
    have hc := sqSum_contract hQ (U.submatrix id (fun _ : Fin 1 => k))
    have l1 : sqSum (Q.transpose * U.submatrix id (fun _ : Fin 1 => k)) = ∑ i, (Q.transpose * U) i k ^ 2 := by
      unfold sqSum
      refine Finset.sum_congr rfl fun i _ => ?_
      rw [Fin.sum_univ_one]
      rfl
    have l2 : sqSum (U.submatrix id (fun _ : Fin 1 => k)) = 1 := by
      have := congrFun (congrFun hU k) k
      rw [Matrix.mul_apply, Matrix.one_apply_eq] at this
      rw [← this]
      unfold sqSum
      refine Finset.sum_congr rfl fun i _ => ?_
      rw [Fin.sum_univ_one, Matrix.submatrix_apply, Matrix.transpose_apply, sq]
      rfl
    rw [l1, l2] at hc
    exact hc
  have t2 : ∑ k, ∑ i, (Q.transpose * U) i k ^ 2 ≤ (r : ℝ) := by
    have hc := sqSum_contract hU Q
    rw [sqSum_orth_self hQ, ← sqSum_transpose, Matrix.transpose_mul, Matrix.transpose_transpose] at hc
    have : sqSum (Q.transpose * U) = ∑ k, ∑ i, (Q.transpose * U) i k ^ 2 := by
      unfold sqSum
      rw [Finset.sum_comm]
    rw [← this]
    refine hc.trans ?_
    exact_mod_cast Nat.min_le_right m r
  have hw := weighted_selected_le (fun k => s k ^ 2) _ f hf (fun k => sq_nonneg _)
    (fun x hx j => pow_le_pow_left₀ (h0 x) (hd x hx j) 2)
    (fun k => Finset.sum_nonneg fun i _ => sq_nonneg ((Q.transpose * U) i k)) t1 t2
  have := sqSum_nonneg (Q.transpose * U * diagonal s * V.transpose - R * Z)
  linarith

/-! ### Theorems -/

/-- **C168.** With orthonormal old factors and a diagonal core with non-negative entries (in any order),
`update_svd_new_submatrix` returns `r` components, and no matrix of rank at most `r` is closer to the block-diagonal
matrix of `U S V` and the new block than their product. The returned factors are orthonormal and the returned core is
non-negative again, and the squared error is what the core loses. Nothing is drawn at random in this case. -/
theorem C168_block (la : LinAlg ℝ) (rng : Rng ℝ) (argsort : ArgSort ℝ) (ha : ArgSortOk argsort) {m r q a b : ℕ}
    (U : Matrix (Fin m) (Fin r) ℝ) (s : Fin r → ℝ) (V : Matrix (Fin r) (Fin q) ℝ) (N : Matrix (Fin a) (Fin b) ℝ)
    (hN : SvdOk la N) (nPower os : ℕ) (hU : U.transpose * U = 1) (hV : V * V.transpose = 1) (h0 : ∀ i, 0 ≤ s i) :
    ∃ (U2 : Matrix (Fin (m + a)) (Fin r) ℝ) (s2 : Fin r → ℝ) (V2 : Matrix (Fin r) (Fin (q + b)) ℝ),
      updateSvdNewSubmatrix la rng argsort ⟨m, r, U⟩ (.vec r s) ⟨r, q, V⟩ ⟨a, b, N⟩ nPower os =
        .ok (⟨m + a, r, U2⟩, .vec r s2, ⟨r, q + b, V2⟩) ∧
      U2.transpose * U2 = 1 ∧ V2 * V2.transpose = 1 ∧ (∀ i, 0 ≤ s2 i) ∧
      sqSum (blk (U * diagonal s * V) 0 0 N - U2 * diagonal s2 * V2) =
        ∑ i, s i ^ 2 + sqSum N - ∑ i, s2 i ^ 2 ∧
      ∀ X : Matrix (Fin (m + a)) (Fin (q + b)) ℝ, X.rank ≤ r →
        sqSum (blk (U * diagonal s * V) 0 0 N - U2 * diagonal s2 * V2) ≤
          sqSum (blk (U * diagonal s * V) 0 0 N - X) := by
  obtain ⟨p, k, u2, s2, v2, f, hA, hu, hv, hrun, rfl, hf, -, hd, -, hs2⟩ :=
    C44_diagonal la rng argsort ha U s V N hN nPower os
  have hE := selected_error u2 s2 v2 (hu hU) (hv hV) f hf
  rw [hA] at hE
  refine ⟨_, _, _, hrun, selected_orth (hu hU) hf, ?_, fun i => hs2 h0 _, ?_, fun X hX => ?_⟩
  · exact selected_orth (hv hV) hf
  · rw [hE]
    congr 1
    have e1 : sqSum (u2 * diagonal s2 * v2.transpose) = ∑ i, s2 i ^ 2 :=
      sqSum_svd (hu hU) (by rw [Matrix.transpose_transpose, hv hV]) s2
    have e2 : sqSum (U * diagonal s * V) = ∑ i, s i ^ 2 := sqSum_svd hU hV s
    rw [← e1, hA, ← e2]
    unfold sqSum
    simp [Fin.sum_univ_add, blk]
  · rw [hE, ← hA]
    exact selected_le u2 s2 v2 (hu hU) (hv hV) (hs2 h0) f hf hd X hX

/-- **C168, new users and items.** The same for the object whose core is stored as a vector. -/
theorem C168_new (env : PSIEnv ℝ) (hsvd : ∀ {a b : ℕ} (A : Matrix (Fin a) (Fin b) ℝ), SvdOk env.la A)
    (ha : ArgSortOk env.argsort) (cfg : PSICfg) (hc : cfg.integrator = false) (st : PSIState ℝ) {m n r a b : ℕ}
    (U : Matrix (Fin m) (Fin r) ℝ) (s : Fin r → ℝ) (V : Matrix (Fin r) (Fin n) ℝ)
    (hu : st.u = ⟨m, r, U⟩) (hs : st.s = .vec r s) (hv : st.vt = ⟨r, n, V⟩) (N : Matrix (Fin a) (Fin b) ℝ)
    (hU : U.transpose * U = 1) (hV : V * V.transpose = 1) (h0 : ∀ i, 0 ≤ s i) :
    ∃ (U' : Matrix (Fin (m + a)) (Fin r) ℝ) (s' : Fin r → ℝ) (V' : Matrix (Fin r) (Fin (n + b)) ℝ) (st' : PSIState ℝ),
      psiUpdater env cfg st ⟨a, b, N⟩ .new = .ok st' ∧ st'.u = ⟨m + a, r, U'⟩ ∧ st'.s = .vec r s' ∧
      st'.vt = ⟨r, n + b, V'⟩ ∧ U'.transpose * U' = 1 ∧ V' * V'.transpose = 1 ∧ (∀ i, 0 ≤ s' i) ∧
      ∀ X : Matrix (Fin (m + a)) (Fin (n + b)) ℝ, X.rank ≤ r →
        sqSum (blk (U * diagonal s * V) 0 0 N - U' * diagonal s' * V') ≤
          sqSum (blk (U * diagonal s * V) 0 0 N - X) := by
  obtain ⟨U2, s2, V2, he, hU2, hV2, hs2, -, hb⟩ := C168_block env.la env.rng env.argsort ha U s V N (hsvd N) cfg.nPower cfg.os hU hV h0
  refine ⟨U2, s2, V2, { st with u := ⟨m + a, r, U2⟩, s := .vec r s2, vt := ⟨r, n + b, V2⟩ }, ?_, rfl, rfl,
    rfl, hU2, hV2, hs2, hb⟩
  unfold psiUpdater
  rw [hc]
  dsimp only
  rw [hu, hs, hv, he]
  rfl

/-! ### Examples -/

-- the components 1 and 4 of the old model (in this order) and the block (2): 4 and 2 are kept
example (argsort : ArgSort ℝ) (ha : ArgSortOk argsort) :
    ∃ (U2 : Matrix (Fin (2 + 1)) (Fin 2) ℝ) (s2 : Fin 2 → ℝ) (V2 : Matrix (Fin 2) (Fin (2 + 1)) ℝ),
      updateSvdNewSubmatrix realLA (fun _ _ => 0) argsort ⟨2, 2, 1⟩ (.vec 2 ![1, 4]) ⟨2, 2, 1⟩ ⟨1, 1, !![2]⟩ 0 0 =
        .ok (⟨2 + 1, 2, U2⟩, .vec 2 s2, ⟨2, 2 + 1, V2⟩) ∧
      sqSum (!![(1 : ℝ), 0, 0; 0, 4, 0; 0, 0, 2] - U2 * diagonal s2 * V2) ≤ 1 := by
  obtain ⟨U2, s2, V2, he, hU2, hV2, hs2, -, hb⟩ := C168_block realLA (fun _ _ => 0) argsort ha (1 : Matrix (Fin 2) (Fin 2) ℝ) ![1, 4]
    (1 : Matrix (Fin 2) (Fin 2) ℝ) !![(2 : ℝ)] (realLA_svd _) 0 0 (by simp) (by simp)
    (fun i => by fin_cases i <;> norm_num)
  refine ⟨U2, s2, V2, he, ?_⟩
  have hA : blk ((1 : Matrix (Fin 2) (Fin 2) ℝ) * diagonal ![(1 : ℝ), 4] * (1 : Matrix (Fin 2) (Fin 2) ℝ)) 0 0 !![2] =
      !![(1 : ℝ), 0, 0; 0, 4, 0; 0, 0, 2] := by
    ext i j
    fin_cases i <;> fin_cases j <;> simp [blk, Fin.addCases, Matrix.diagonal_apply]
  rw [hA] at hb
  refine (hb (!![(0 : ℝ), 0; 1, 0; 0, 1] * !![0, 4, 0; 0, 0, 2])
    ((Matrix.rank_mul_le_left _ _).trans (Matrix.rank_le_width _))).trans (le_of_eq ?_)
  simp [sqSum, Fin.sum_univ_succ, Matrix.mul_apply]

end DynCF
