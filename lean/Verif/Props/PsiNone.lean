/-
C184: the error of an update of `PSI` in its default configuration (`_init_new_embeddings=None`).
-/
import Verif.Props.PsiBlocks

namespace DynCF
open Matrix

/-! ### Rank of a best approximation -/

theorem rank_add_le' {m n : ℕ} (A B : Matrix (Fin m) (Fin n) ℝ) : (A + B).rank ≤ A.rank + B.rank := by
  unfold Matrix.rank
  refine le_trans (Submodule.finrank_mono ?_) (Submodule.finrank_add_le_finrank_add_finrank _ _)
  rintro _ ⟨x, rfl⟩
  rw [Matrix.mulVecLin_apply, Matrix.add_mulVec]
  exact Submodule.add_mem_sup ⟨x, rfl⟩ ⟨x, rfl⟩

/-- a best approximation of rank at most `r` of a matrix of rank at least `r` has rank `r` -/
theorem best_rank {m n r : ℕ} (T B : Matrix (Fin m) (Fin n) ℝ)
    (hb : ∀ X : Matrix (Fin m) (Fin n) ℝ, X.rank ≤ r → sqSum (T - B) ≤ sqSum (T - X)) (h : r ≤ T.rank) : r ≤ B.rank := by
  by_contra hlt
  have hne : ∃ i j, (T - B) i j ≠ 0 := by
    by_contra hn
    have : T - B = 0 := by
      ext i j
      by_contra g
      exact hn ⟨i, j, g⟩
    rw [sub_eq_zero.1 this] at h
    exact hlt h
  obtain ⟨i, j, hij⟩ := hne
  have hE : (vecMulVec (Pi.single i ((T - B) i j)) (Pi.single j 1) : Matrix (Fin m) (Fin n) ℝ).rank ≤ 1 :=
    Matrix.rank_vecMulVec_le _ _
  have hEe : ∀ a b, (vecMulVec (Pi.single i ((T - B) i j)) (Pi.single j 1) : Matrix (Fin m) (Fin n) ℝ) a b =
      if a = i ∧ b = j then (T - B) i j else 0 := fun a b => by
    rw [vecMulVec_apply, Pi.single_apply, Pi.single_apply]
    by_cases h1 : a = i <;> by_cases h2 : b = j <;> simp [h1, h2]
  generalize (vecMulVec (Pi.single i ((T - B) i j)) (Pi.single j 1) : Matrix (Fin m) (Fin n) ℝ) = E at hE hEe
  have h1 := hb (B + E) ((rank_add_le' _ _).trans (by omega))
  have h2 := sqSum_disjoint (T - (B + E)) E fun a b => by
    by_cases g : a = i ∧ b = j
    · obtain ⟨rfl, rfl⟩ := g
      left
      rw [Matrix.sub_apply, Matrix.add_apply, hEe, if_pos ⟨rfl, rfl⟩, Matrix.sub_apply]
      ring
    · right
      rw [hEe, if_neg g]
  have e : T - (B + E) + E = T - B := by abel
  rw [e] at h2
  have h3 : (E i j) ^ 2 ≤ sqSum E := by
    unfold sqSum
    exact (Finset.single_le_sum (f := fun b => E i b ^ 2) (fun _ _ => sq_nonneg _) (Finset.mem_univ j)).trans
      (Finset.single_le_sum (f := fun a => ∑ b, E a b ^ 2) (fun _ _ => Finset.sum_nonneg fun _ _ => sq_nonneg _)
        (Finset.mem_univ i))
  rw [hEe, if_pos ⟨rfl, rfl⟩] at h3
  have h4 := pow_pos (abs_pos.2 hij) 2
  rw [sq_abs] at h4
  linarith

/-- with orthonormal factors the product has at least the rank of the core -/
theorem rank_core {m r q : ℕ} (U : Matrix (Fin m) (Fin r) ℝ) (S : Matrix (Fin r) (Fin r) ℝ) (V : Matrix (Fin r) (Fin q) ℝ)
    (hU : U.transpose * U = 1) (hV : V * V.transpose = 1) : S.rank ≤ (U * S * V).rank := by
  have h : S = U.transpose * (U * S * V) * V.transpose := by
    rw [Matrix.mul_assoc, Matrix.mul_assoc, Matrix.mul_assoc, hV, Matrix.mul_one, ← Matrix.mul_assoc, hU, Matrix.one_mul]
  conv_lhs => rw [h]
  exact (Matrix.rank_mul_le_left _ _).trans (Matrix.rank_mul_le_right _ _)

theorem core_rank {m r q : ℕ} (U : Matrix (Fin m) (Fin r) ℝ) (S : Matrix (Fin r) (Fin r) ℝ) (V : Matrix (Fin r) (Fin q) ℝ) :
    (U * S * V).rank ≤ S.rank :=
  (Matrix.rank_mul_le_left _ _).trans (Matrix.rank_mul_le_right _ _)

/-! ### Appending vectors -/

/-- If the core has full rank, `update_svd_new_vectors` returns orthonormal factors of a best approximation, and its core has
full rank again. -/
theorem newVectors_solid (la : LinAlg ℝ) (rng : Rng ℝ) (hqr : QrAlways la)
    (hsvd : ∀ {a b : ℕ} (A : Matrix (Fin a) (Fin b) ℝ), SvdOk la A) {m r q nc : ℕ}
    (U : Matrix (Fin m) (Fin r) ℝ) (s : SArg ℝ) (S : Matrix (Fin r) (Fin r) ℝ)
    (hs : s.toMat = ⟨r, r, S⟩) (V : Matrix (Fin r) (Fin q) ℝ) (N : Matrix (Fin m) (Fin nc) ℝ)
    (hnc : nc ≤ m) (hpos : 0 < r + nc) (nPower os : ℕ) (hU : U.transpose * U = 1) (hV : V * V.transpose = 1)
    (hS : r ≤ S.rank) (hR : FullRows (rng (r + nc) (r + os))) :
    ∃ (U2 : Matrix (Fin m) (Fin r) ℝ) (s2 : Fin r → ℝ) (V2 : Matrix (Fin r) (Fin (q + nc)) ℝ),
      updateSvdNewVectors la rng ⟨m, r, U⟩ s ⟨r, q, V⟩ ⟨m, nc, N⟩ nPower os =
        .ok (⟨m, r, U2⟩, ⟨r, s2⟩, ⟨r, q + nc, V2⟩) ∧
      U2.transpose * U2 = 1 ∧ V2 * V2.transpose = 1 ∧ r ≤ (diagonal s2).rank ∧
      ∀ X : Matrix (Fin m) (Fin (q + nc)) ℝ, X.rank ≤ r →
        sqSum (hblock (U * S * V) N - U2 * diagonal s2 * V2) ≤ sqSum (hblock (U * S * V) N - X) := by
  obtain ⟨R, hR⟩ := hR
  have hcap : Captures rng (hblock (U * S) N) r nPower os := C154_captures rng _ r nPower os R hR
  have hrm := orth_le U hU
  obtain ⟨k, U2, s2, V2, hrun, hb⟩ := C154_append la rng hqr hsvd U s S hs V N hnc hpos nPower os hU hV hcap
  obtain ⟨p, k1, P1, D1, W1, a1, a2, a3, U1, V1, -, hrun1, -, -, -, -, hk1⟩ :=
    C42_append la rng hqr U s S hs V N hnc hpos nPower os
  have hkr : k = r := by
    rw [hrun] at hrun1
    have := congrArg (fun x => x.2.1.len) (Except.ok.inj hrun1)
    exact this.trans (hk1 hrm)
  subst hkr
  obtain ⟨k3, A3, B3, V3, hrun3, hV3⟩ := C42_right_orthonormal la rng hqr hsvd U s S hs V N hnc hpos nPower os hV
  rw [hrun] at hrun3
  cases hrun3
  have hge : k ≤ (U2 * diagonal s2 * V2).rank :=
    best_rank _ _ hb ((hS.trans (rank_core U S V hU hV)).trans (rank_hblock_ge _ _))
  have hne := values_ne_zero U2 s2 V2 hge
  refine ⟨U2, s2, V2, hrun, ?_, hV3, hge.trans (core_rank _ _ _), hb⟩
  obtain ⟨p, P, D, k4, d1, d2, d3, he, hk, hrun4, hPD, hp⟩ := newVectors_run la rng hqr U s S hs V N hnc hpos nPower os
  have hgram : D.transpose * D = (P * D).transpose * (P * D) := by
    rcases hp with ⟨hP, -⟩ | ⟨-, hiso⟩
    · rw [Matrix.transpose_mul, Matrix.mul_assoc, ← Matrix.mul_assoc _ P, hP, Matrix.one_mul]
    · exact (hiso hU).symm
  rw [← hPD] at hcap
  obtain ⟨k', d1', d2', d3', W, he', hkk, hU', ht⟩ := randomSvd_small la rng D k nPower os ⟨hqr _, hsvd _⟩
  have hcapt := sketchQ_capture la rng D k nPower os ⟨hqr _, hsvd _⟩
    (captures_of_gram rng D (P * D) hgram k nPower os hcap)
  rw [he] at he'
  cases he'
  rw [hrun] at hrun4
  cases hrun4
  obtain ⟨h1, h3⟩ := C47_orthonormal la rng D k nPower os ⟨hqr _, hsvd _⟩
  rw [he] at h1 h3
  dsimp only at h1 h3
  have hDV : d1 * diagonal s2 = D * d3.transpose := by
    have h4 := congrArg (fun M => M * d3.transpose) (truncated_right ht)
    rw [Matrix.mul_assoc, h3, Matrix.mul_one, Matrix.mul_assoc, Matrix.mul_assoc d3.transpose, h3, Matrix.mul_one] at h4
    rw [hU', Matrix.mul_assoc, h4, ← Matrix.mul_assoc, hcapt]
  have hY : d1 = D * (d3.transpose * Matrix.diagonal fun i => (s2 i)⁻¹) := by
    rw [← Matrix.mul_assoc, ← hDV, Matrix.mul_assoc, Matrix.diagonal_mul_diagonal]
    have : (fun i => s2 i * (s2 i)⁻¹) = fun _ => 1 := funext fun i => mul_inv_cancel₀ (hne i)
    rw [this, Matrix.diagonal_one, Matrix.mul_one]
  generalize d3.transpose * Matrix.diagonal (fun i => (s2 i)⁻¹) = Y at hY
  have h1' : Y.transpose * (D.transpose * D) * Y = 1 := by
    rw [hY, Matrix.transpose_mul] at h1
    simpa only [Matrix.mul_assoc] using h1
  rw [hY, ← Matrix.mul_assoc P D Y, Matrix.transpose_mul (P * D) Y, Matrix.mul_assoc,
    ← Matrix.mul_assoc _ (P * D) Y, ← hgram, ← Matrix.mul_assoc, h1']

/-! ### One round -/

/-- the state holds orthonormal factors with a core of full rank -/
structure Solid (st : PSIState ℝ) (us is : List ℤ) (r : ℕ) (U : Matrix (Fin us.length) (Fin r) ℝ)
    (S : Matrix (Fin r) (Fin r) ℝ) (V : Matrix (Fin r) (Fin is.length) ℝ) : Prop where
  u : st.u = ⟨_, _, U⟩
  s : st.s.toMat = ⟨_, _, S⟩
  vt : st.vt = ⟨_, _, V⟩
  orthU : U.transpose * U = 1
  orthV : V * V.transpose = 1
  full : r ≤ S.rank

/-- the rows of the data are added to the predictions, and the result is cut off to the rank in the best way -/
def RoundBest {us is us' is' : List ℤ} (r : ℕ) (A : Matrix (Fin us.length) (Fin is.length) ℝ) (D : List (Row ℝ))
    (B : Matrix (Fin us'.length) (Fin is'.length) ℝ) : Prop :=
  ∀ A' : Matrix (Fin us'.length) (Fin is'.length) ℝ, ZeroExt A A' →
    ∀ X : Matrix (Fin us'.length) (Fin is'.length) ℝ, X.rank ≤ r →
      sqSum (A' + interactionMatrix us' is' D - B) ≤ sqSum (A' + interactionMatrix us' is' D - X)

theorem items_table {us is ei : List ℤ} {A : Matrix (Fin us.length) (Fin is.length) ℝ} (D : List (Row ℝ))
    (hD : ∀ x ∈ D, x.item ∉ is) {A' : Matrix (Fin us.length) (Fin (is ++ ei).length) ℝ}
    (hA : ZeroExt A A') (i : Fin us.length) (j : Fin (is ++ ei).length) :
    (A' + interactionMatrix us (is ++ ei) D) i j =
      (⟨us.length, is.length + ei.length, hblock A (sumAt D Row.user Row.item us ei)⟩ : Mat ℝ).ent i j := by
  obtain ⟨j, hj⟩ := j
  have hj' : j < is.length + ei.length := by simpa using hj
  rw [Matrix.add_apply, hA.2.2]
  by_cases h2 : j < is.length
  · rw [dif_pos ⟨i.2, h2⟩, table_zero D, add_zero]
    · refine Eq.trans ?_ (Mat.ent_mk (hblock A (sumAt D Row.user Row.item us ei)) i (Fin.castAdd ei.length ⟨j, h2⟩)).symm
      simp only [hblock, Matrix.of_apply, Fin.addCases_left]
    · intro x hx hc
      refine hD x hx ?_
      rw [hc.2]
      have : (is ++ ei)[(⟨j, hj⟩ : Fin (is ++ ei).length)] = is[j] := List.getElem_append_left h2
      rw [this]
      exact List.getElem_mem _
  · rw [dif_neg fun h => h2 h.2, zero_add]
    obtain ⟨k, rfl⟩ := Nat.exists_eq_add_of_le (not_lt.1 h2)
    refine Eq.trans ?_ (Mat.ent_mk (hblock A (sumAt D Row.user Row.item us ei)) i (Fin.natAdd is.length ⟨k, by omega⟩)).symm
    simp only [hblock, Matrix.of_apply, Fin.addCases_right]
    unfold interactionMatrix sumAt
    rw [Matrix.of_apply, Matrix.of_apply]
    have e2 : (is ++ ei)[(⟨is.length + k, hj⟩ : Fin (is ++ ei).length)] = ei[(⟨k, by omega⟩ : Fin ei.length)] := by
      simp
    rw [e2]
    rfl

theorem users_table {us eu is : List ℤ} {A : Matrix (Fin us.length) (Fin is.length) ℝ} (D : List (Row ℝ))
    (hD : ∀ x ∈ D, x.user ∉ us) {A' : Matrix (Fin (us ++ eu).length) (Fin is.length) ℝ}
    (hA : ZeroExt A A') (i : Fin (us ++ eu).length) (j : Fin is.length) :
    (A' + interactionMatrix (us ++ eu) is D) i j =
      (⟨us.length + eu.length, is.length, (hblock A.transpose (sumAt D Row.item Row.user is eu)).transpose⟩ : Mat ℝ).ent i j := by
  obtain ⟨i, hi⟩ := i
  have hi' : i < us.length + eu.length := by simpa using hi
  rw [Matrix.add_apply, hA.2.2]
  by_cases h2 : i < us.length
  · rw [dif_pos ⟨h2, j.2⟩, table_zero D, add_zero]
    · refine Eq.trans ?_ (Mat.ent_mk (hblock A.transpose (sumAt D Row.item Row.user is eu)).transpose
        (Fin.castAdd eu.length ⟨i, h2⟩) j).symm
      simp only [hblock, Matrix.of_apply, Matrix.transpose_apply, Fin.addCases_left]
    · intro x hx hc
      refine hD x hx ?_
      rw [hc.1]
      have : (us ++ eu)[(⟨i, hi⟩ : Fin (us ++ eu).length)] = us[i] := List.getElem_append_left h2
      rw [this]
      exact List.getElem_mem _
  · rw [dif_neg fun h => h2 h.1, zero_add]
    obtain ⟨k, rfl⟩ := Nat.exists_eq_add_of_le (not_lt.1 h2)
    refine Eq.trans ?_ (Mat.ent_mk (hblock A.transpose (sumAt D Row.item Row.user is eu)).transpose
      (Fin.natAdd us.length ⟨k, by omega⟩) j).symm
    simp only [hblock, Matrix.of_apply, Matrix.transpose_apply, Fin.addCases_right]
    unfold interactionMatrix sumAt
    rw [Matrix.of_apply, Matrix.of_apply]
    have e2 : (us ++ eu)[(⟨us.length + k, hi⟩ : Fin (us ++ eu).length)] = eu[(⟨k, by omega⟩ : Fin eu.length)] := by
      simp
    rw [e2]
    congr 2
    refine List.filter_congr fun x _ => decide_eq_decide.2 and_comm

theorem round_nil {us is : List ℤ} {r : ℕ} {A : Matrix (Fin us.length) (Fin is.length) ℝ} : RoundBest r A [] A := by
  intro A' hA' X _
  have h0 : interactionMatrix us is ([] : List (Row ℝ)) = 0 := by ext i j; simp [interactionMatrix]
  rw [h0, add_zero, hA'.unique (ZeroExt.refl _), sub_self, sqSum_zero']
  exact sqSum_nonneg _

/-- the round for new items of known users -/
theorem itemsRound_best (env : PSIEnv ℝ) (hqr : QrAlways env.la)
    (hsvd : ∀ {a b : ℕ} (A : Matrix (Fin a) (Fin b) ℝ), SvdOk env.la A) (cfg : PSICfg)
    (hc : cfg.init = none) {st : PSIState ℝ} {us is : List ℤ} {r : ℕ} (h : PsiShape st us is r)
    {U : Matrix (Fin us.length) (Fin r) ℝ} {S : Matrix (Fin r) (Fin r) ℝ} {V : Matrix (Fin r) (Fin is.length) ℝ}
    (hs : Solid st us is r U S V) (D : List (Row ℝ)) (hD : ∀ x ∈ D, stepClass us is .newItems x = true)
    (hR : FullRows (env.rng (r + (pdUnique (D.map Row.item)).length) (r + cfg.os)))
    (hnc : (pdUnique (D.map Row.item)).length ≤ us.length)
    {is' : List ℤ} (his : is' = is ++ pdUnique (D.map Row.item))
    {st1 : PSIState ℝ} (e : updateFactorsByMode env cfg st D .newItems = .ok st1) :
    ∃ (U1 : Matrix (Fin us.length) (Fin r) ℝ) (S1 : Matrix (Fin r) (Fin r) ℝ) (V1 : Matrix (Fin r) (Fin is'.length) ℝ),
      Solid st1 us is' r U1 S1 V1 ∧ RoundBest (us' := us) (is' := is') r (U * S * V) D (U1 * S1 * V1) := by
  unfold updateFactorsByMode at e
  split at e
  · obtain ⟨maps, da, e1, -, -, hda⟩ := processData_eq h D .newItems hD
    rw [e1, except_bind_ok] at e
    dsimp only at hda
    subst hda
    dsimp only at e
    have hlen : 0 < (pdUnique (D.map Row.item)).length := pdUnique_pos (by simpa using ‹D.length > 0›)
    obtain ⟨U2, s2, V2, g1, g2, g3, g4, g5⟩ := newVectors_solid env.la env.rng hqr hsvd U st.s S hs.s V
      (sumAt D Row.user Row.item us (pdUnique (D.map Row.item))) hnc (by omega) cfg.nPower cfg.os hs.orthU hs.orthV hs.full hR
    unfold psiUpdater at e
    rw [hc] at e
    dsimp only at e
    rw [hs.u, hs.vt, g1, except_bind_ok] at e
    cases e
    have li : is'.length = is.length + (pdUnique (D.map Row.item)).length := by rw [his, List.length_append]
    obtain ⟨U1, V1, k1, k2, k3, k4, k5⟩ := block_cast (a := 0) rfl li U2 (diagonal s2) V2 _ g2 g3 g5
    refine ⟨U1, diagonal s2, V1, ⟨k1, rfl, k2, k3, k4, g4⟩, fun A' hA' => ?_⟩
    refine k5 _ ?_
    subst his
    intro i j
    exact items_table D (fun x hx => by
      have := hD x hx
      simp only [stepClass, decide_eq_true_eq] at this
      exact this.2) hA' i j
  · have hD0 : D = [] := by simpa using ‹¬ D.length > 0›
    subst hD0
    cases e
    have his : is' = is := by rw [his]; exact List.append_nil _
    subst his
    exact ⟨U, S, V, hs, round_nil⟩

/-- the round for new users with known items; the code needs a symmetric core here -/
theorem usersRound_best (env : PSIEnv ℝ) (hqr : QrAlways env.la)
    (hsvd : ∀ {a b : ℕ} (A : Matrix (Fin a) (Fin b) ℝ), SvdOk env.la A) (cfg : PSICfg)
    (hc : cfg.init = none) {st : PSIState ℝ} {us is : List ℤ} {r : ℕ} (h : PsiShape st us is r)
    {U : Matrix (Fin us.length) (Fin r) ℝ} {S : Matrix (Fin r) (Fin r) ℝ} {V : Matrix (Fin r) (Fin is.length) ℝ}
    (hs : Solid st us is r U S V) (D : List (Row ℝ)) (hD : ∀ x ∈ D, stepClass us is .newUsers x = true)
    (hsym : D ≠ [] → S.transpose = S)
    (hR : FullRows (env.rng (r + (pdUnique (D.map Row.user)).length) (r + cfg.os)))
    (hnc : (pdUnique (D.map Row.user)).length ≤ is.length)
    {us' : List ℤ} (hus : us' = us ++ pdUnique (D.map Row.user))
    {st1 : PSIState ℝ} (e : updateFactorsByMode env cfg st D .newUsers = .ok st1) :
    ∃ (U1 : Matrix (Fin us'.length) (Fin r) ℝ) (S1 : Matrix (Fin r) (Fin r) ℝ) (V1 : Matrix (Fin r) (Fin is.length) ℝ),
      Solid st1 us' is r U1 S1 V1 ∧ RoundBest (us' := us') (is' := is) r (U * S * V) D (U1 * S1 * V1) := by
  unfold updateFactorsByMode at e
  split at e
  · obtain ⟨maps, da, e1, -, -, hda⟩ := processData_eq h D .newUsers hD
    rw [e1, except_bind_ok] at e
    dsimp only at hda
    subst hda
    dsimp only at e
    have hlen : 0 < (pdUnique (D.map Row.user)).length := pdUnique_pos (by simpa using ‹D.length > 0›)
    have hsy : S.transpose = S := hsym (by
      rintro rfl
      exact absurd hlen (by decide))
    obtain ⟨U2, s2, V2, g1, g2, g3, g4, g5⟩ := newVectors_solid env.la env.rng hqr hsvd V.transpose st.s S hs.s U.transpose
      (sumAt D Row.item Row.user is (pdUnique (D.map Row.user))) hnc (by omega) cfg.nPower cfg.os
      (by rw [Matrix.transpose_transpose, hs.orthV]) (by rw [Matrix.transpose_transpose, hs.orthU]) hs.full hR
    unfold psiUpdater at e
    rw [hc] at e
    dsimp only at e
    rw [hs.u, hs.vt] at e
    simp only [Mat.T_mk] at e
    rw [g1, except_bind_ok] at e
    cases e
    have lu : us'.length = us.length + (pdUnique (D.map Row.user)).length := by rw [hus, List.length_append]
    have hT : V.transpose * S * U.transpose = (U * S * V).transpose := by
      rw [Matrix.transpose_mul, Matrix.transpose_mul, hsy, Matrix.mul_assoc]
    have g6 : ∀ X : Matrix (Fin (us.length + (pdUnique (D.map Row.user)).length)) (Fin is.length) ℝ, X.rank ≤ r →
        sqSum ((hblock (U * S * V).transpose (sumAt D Row.item Row.user is (pdUnique (D.map Row.user)))).transpose -
          V2.transpose * diagonal s2 * U2.transpose) ≤
        sqSum ((hblock (U * S * V).transpose (sumAt D Row.item Row.user is (pdUnique (D.map Row.user)))).transpose - X) := by
      intro X hX
      have hp' : V2.transpose * Matrix.diagonal s2 * U2.transpose = (U2 * Matrix.diagonal s2 * V2).transpose := by
        rw [Matrix.transpose_mul, Matrix.transpose_mul, Matrix.diagonal_transpose, Matrix.mul_assoc]
      rw [hp', ← Matrix.transpose_sub, sqSum_transpose, ← sqSum_transpose (_ - X), Matrix.transpose_sub,
        Matrix.transpose_transpose, ← hT]
      exact g5 _ (by rw [Matrix.rank_transpose]; exact hX)
    obtain ⟨U1, V1, k1, k2, k3, k4, k5⟩ := block_cast (b := 0) lu rfl V2.transpose (diagonal s2) U2.transpose _
      (by rw [Matrix.transpose_transpose, g3]) (by rw [Matrix.transpose_transpose, g2]) g6
    refine ⟨U1, diagonal s2, V1, ⟨k1, rfl, k2, k3, k4, g4⟩, fun A' hA' => ?_⟩
    refine k5 _ ?_
    subst hus
    intro i j
    exact users_table D (fun x hx => by
      have := hD x hx
      simp only [stepClass, decide_eq_true_eq] at this
      exact this.1) hA' i j
  · have hD0 : D = [] := by simpa using ‹¬ D.length > 0›
    subst hD0
    cases e
    have hus : us' = us := by rw [hus]; exact List.append_nil _
    subst hus
    exact ⟨U, S, V, hs, round_nil⟩

/-- `update_svd_new_submatrix` returns a vector of singular values -/
theorem newSubmatrix_vec (la : LinAlg ℝ) (rng : Rng ℝ) (argsort : ArgSort ℝ) (u : Mat ℝ) (s : SArg ℝ) (vt new : Mat ℝ)
    (nPower os : ℕ) {x : Mat ℝ × SArg ℝ × Mat ℝ} (h : updateSvdNewSubmatrix la rng argsort u s vt new nPower os = .ok x) :
    ∃ k d, x.2.1 = .vec k d := by
  unfold updateSvdNewSubmatrix at h
  dsimp only at h
  split at h
  · obtain ⟨a, -, h⟩ := (bind_ok_iff ..).1 h
    obtain ⟨b, -, h⟩ := (bind_ok_iff ..).1 h
    obtain ⟨c, -, h⟩ := (bind_ok_iff ..).1 h
    cases h
    exact ⟨_, _, rfl⟩
  · obtain ⟨a, -, h⟩ := (bind_ok_iff ..).1 h
    obtain ⟨c, -, h⟩ := (bind_ok_iff ..).1 h
    cases h
    exact ⟨_, _, rfl⟩

/-- after the round for new pairs the core is diagonal, if there was a new pair -/
theorem newRound_sym (env : PSIEnv ℝ) (cfg : PSICfg) (hint : cfg.integrator = false) {st : PSIState ℝ} {r : ℕ}
    {D : List (Row ℝ)} (hD : D ≠ []) {st1 : PSIState ℝ} (e : updateFactorsByMode env cfg st D .new = .ok st1)
    {S1 : Matrix (Fin r) (Fin r) ℝ} (hS : st1.s.toMat = ⟨_, _, S1⟩) : S1.transpose = S1 := by
  unfold updateFactorsByMode at e
  rw [if_pos (List.length_pos_of_ne_nil hD)] at e
  obtain ⟨x, -, e⟩ := (bind_ok_iff ..).1 e
  unfold psiUpdater at e
  rw [hint] at e
  dsimp only at e
  obtain ⟨y, h1, e⟩ := (bind_ok_iff ..).1 e
  cases e
  obtain ⟨k, d, h2⟩ := newSubmatrix_vec _ _ _ _ _ _ _ _ _ h1
  dsimp only at hS
  rw [h2] at hS
  have hk : k = r := congrArg Mat.rows hS
  subst hk
  have := eq_of_heq (Mat.mk.inj hS).2.2
  rw [← this]
  exact Matrix.diagonal_transpose _

/-- the round for new pairs keeps a core of full rank -/
theorem newRound_solid (env : PSIEnv ℝ) (hqr : QrAlways env.la)
    (hsvd : ∀ {a b : ℕ} (A : Matrix (Fin a) (Fin b) ℝ), SvdOk env.la A) (hsort : ArgSortOk env.argsort) (cfg : PSICfg)
    (hint : cfg.integrator = false) {st : PSIState ℝ} {us is : List ℤ} {r : ℕ} (h : PsiShape st us is r)
    (hs : CoreOk st.s r) {U : Matrix (Fin us.length) (Fin r) ℝ} {S : Matrix (Fin r) (Fin r) ℝ}
    {V : Matrix (Fin r) (Fin is.length) ℝ} (hsol : Solid st us is r U S V) (D : List (Row ℝ))
    (hD : ∀ x ∈ D, stepClass us is .new x = true)
    (hR : FullRows (env.rng (r + min (pdUnique (D.map Row.user)).length (pdUnique (D.map Row.item)).length) (r + cfg.os)))
    {us' is' : List ℤ} (hus : us' = us ++ pdUnique (D.map Row.user)) (his : is' = is ++ pdUnique (D.map Row.item))
    {st1 : PSIState ℝ} (e : updateFactorsByMode env cfg st D .new = .ok st1) :
    ∃ (U1 : Matrix (Fin us'.length) (Fin r) ℝ) (S1 : Matrix (Fin r) (Fin r) ℝ) (V1 : Matrix (Fin r) (Fin is'.length) ℝ),
      Solid st1 us' is' r U1 S1 V1 ∧ RoundBest (us' := us') (is' := is') r (U * S * V) D (U1 * S1 * V1) := by
  obtain ⟨U1, S1, V1, f1, f2, f3, o1, o2, hb⟩ := newRound_best env hqr hsvd hsort cfg hint h hs hsol.u hsol.s hsol.vt hsol.orthU
    hsol.orthV D hD hR hus his e
  obtain ⟨A', hA'⟩ := zeroExt_exists (U * S * V) (m' := us'.length) (n' := is'.length) (by rw [hus]; simp) (by rw [his]; simp)
  have hge : r ≤ (U1 * S1 * V1).rank := by
    refine best_rank _ _ (hb A' hA') ?_
    have hx : U * S * V = (A' + interactionMatrix us' is' D).submatrix (Fin.castLE hA'.1) (Fin.castLE hA'.2.1) := by
      ext a b
      rw [Matrix.submatrix_apply, Matrix.add_apply, hA'.2.2, dif_pos ⟨a.2, b.2⟩, table_zero D, add_zero]
      · rfl
      · intro x hx hc
        have hn := hD x hx
        simp only [stepClass, decide_eq_true_eq] at hn
        refine hn.1 ?_
        rw [hc.1]
        subst hus
        have : (us ++ pdUnique (D.map Row.user))[Fin.castLE hA'.1 a] = us[(a : ℕ)] := List.getElem_append_left a.2
        rw [this]
        exact List.getElem_mem _
    refine (hsol.full.trans (rank_core U S V hsol.orthU hsol.orthV)).trans ?_
    rw [hx]
    exact Matrix.rank_submatrix_le _ _ _
  exact ⟨U1, S1, V1, ⟨f1, f2, f3, o1, o2, hge.trans (core_rank _ _ _)⟩, hb⟩

/-- a round that succeeds -/
theorem psiRound_run (env : PSIEnv ℝ) (hsort : ArgSortOk env.argsort) (cfg : PSICfg) {l l' : PsiLoop ℝ} {us is : List ℤ} {r : ℕ}
    (h : PsiShape l.st us is r) {mode : PsiMode} (e : psiRound env cfg l mode = .ok l') :
    updateFactorsByMode env cfg l.st (l.left.filter (stepClass us is mode)) mode = .ok l'.st ∧
      l'.left = l.left.filter (fun x => !stepClass us is mode x) ∧
      PsiShape l'.st (growUsers us mode (l.left.filter (stepClass us is mode)))
        (growItems is mode (l.left.filter (stepClass us is mode))) r ∧
      ¬ TooMany cfg us is mode (l.left.filter (stepClass us is mode)) := by
  rcases psiRound_eq env hsort cfg h mode with ⟨st', e', hs, -, hn⟩ | ⟨e', -⟩
  · rw [e] at e'
    cases e'
    refine ⟨?_, rfl, hs, hn⟩
    have hm : getDivideDfMask l.left l.st.maps mode = l.left.map (stepClass us is mode) := by
      unfold getDivideDfMask
      exact List.map_congr_left fun x _ => divideRow_eq h.user h.item mode x
    have h1 : maskSelect l.left (l.left.map (stepClass us is mode)) = l.left.filter (stepClass us is mode) :=
      maskSelect_map _ _
    unfold psiRound at e
    dsimp only at e
    rw [hm, h1] at e
    obtain ⟨st2, e2, e⟩ := (bind_ok_iff ..).1 e
    have e := Except.ok.inj e
    simp only [PsiLoop.mk.injEq] at e
    rw [e2, e.1]
  · rw [e] at e'; cases e'

/-- a best approximation stays one when zeros are added on both sides -/
theorem RoundBest.ext {us is us1 is1 us' is' : List ℤ} {r : ℕ} {A : Matrix (Fin us.length) (Fin is.length) ℝ}
    {D : List (Row ℝ)} {B : Matrix (Fin us1.length) (Fin is1.length) ℝ} (hb : RoundBest r A D B)
    (pu0 : us <+: us1) (pi0 : is <+: is1) (pu : us1 <+: us') (pi : is1 <+: is') (nu : us'.Nodup) (ni : is'.Nodup)
    (hD : ∀ x ∈ D, x.user ∈ us1 ∧ x.item ∈ is1)
    {A' B' : Matrix (Fin us'.length) (Fin is'.length) ℝ} (hA : ZeroExt A A') (hB : ZeroExt B B')
    (X : Matrix (Fin us'.length) (Fin is'.length) ℝ) (hX : X.rank ≤ r) :
    sqSum (A' + interactionMatrix us' is' D - B') ≤ sqSum (A' + interactionMatrix us' is' D - X) := by
  obtain ⟨A1, hA1⟩ := zeroExt_exists A pu0.length_le pi0.length_le
  obtain ⟨A2, hA2⟩ := zeroExt_exists A1 pu.length_le pi.length_le
  obtain rfl := hA.unique (hA1.trans hA2)
  have hx := hA2.add (zeroExt_table pu pi nu ni D hD)
  rw [(hx.sub hB).sqSum]
  exact (hb A1 hA1 (X.submatrix (Fin.castLE hx.1) (Fin.castLE hx.2.1))
    ((Matrix.rank_submatrix_le _ _ _).trans hX)).trans (restrict_le hx X)

/-! ### One update -/

/-- The core before the chunk has full rank; and it is symmetric, or the chunk has a row with new user and new item (the step
for these makes the core diagonal), or the chunk has no new users. -/
def CoreGood (st : PSIState ℝ) (us is : List ℤ) (r : ℕ) (data : List (Row ℝ)) : Prop :=
  ∀ S : Matrix (Fin r) (Fin r) ℝ, st.s.toMat = ⟨_, _, S⟩ → r ≤ S.rank ∧
    (S.transpose = S ∨ (∃ x ∈ data, x.user ∉ us ∧ x.item ∉ is) ∨ ∀ x ∈ data, x.user ∈ us)

/-- at most `os` new users and at most `os` new items -/
def FewNew (os : ℕ) (us is : List ℤ) (data : List (Row ℝ)) : Prop :=
  (∃ l : List ℤ, l.length ≤ os ∧ ∀ x ∈ data, x.user ∉ us → x.user ∈ l) ∧
    ∃ l : List ℤ, l.length ≤ os ∧ ∀ x ∈ data, x.item ∉ is → x.item ∈ l

/-- **C184, one update.** The default configuration. If the core has full rank (see `CoreGood` for the symmetry that the step
for new users needs), the chunk has at most `os` new users and at most `os` new items, the matrices drawn have right inverses
and the update does not fail, then it works in four steps. Let `d1` be the rows with new user and new item, `d2` those
whose user is not known after that, `d3` those whose item is not known after that, `d4` the others. The first three steps
each add their table to the predictions (zeros for new ids) and take a best approximation of rank at most `r`. The last step
projects the sum of `B3` and the table of `d4` to a space of dimension at most `r` that contains the columns of
`(B3 + O) B3ᵀ`. -/
theorem C184_update (env : PSIEnv ℝ) (hqr : QrAlways env.la)
    (hsvd : ∀ {a b : ℕ} (A : Matrix (Fin a) (Fin b) ℝ), SvdOk env.la A) (hsort : ArgSortOk env.argsort) (cfg : PSICfg)
    (hz : cfg.init = none) (hint : cfg.integrator = false) {st : PSIState ℝ} {us is : List ℤ} {r : ℕ}
    {A : Matrix (Fin us.length) (Fin is.length) ℝ} (h : PsiKept st us is r A) (data : List (Row ℝ))
    (hw : WideDraws env.rng r cfg.os) (hfew : FewNew cfg.os us is data) (hgood : CoreGood st us is r data)
    {st' : PSIState ℝ} (hok : psiUpdate env cfg st data = .ok st') :
    ∃ (us' is' : List ℤ) (A' B1 B2 B3 B N1 N2 N3 O : Matrix (Fin us'.length) (Fin is'.length) ℝ) (d1 d2 d3 d4 : List (Row ℝ)),
      PsiKept st' us' is' r B ∧ us <+: us' ∧ is <+: is' ∧ us'.Nodup ∧ is'.Nodup ∧
      (∀ u, u ∈ us' ↔ u ∈ us ∨ ∃ x ∈ data, x.user = u) ∧ (∀ i, i ∈ is' ↔ i ∈ is ∨ ∃ x ∈ data, x.item = i) ∧
      ZeroExt A A' ∧
      d1 = data.filter (fun x => decide (x.user ∉ us ∧ x.item ∉ is)) ∧
      d2 = data.filter (fun x => decide (x.user ∉ us ++ d1.map Row.user)) ∧
      d3 = data.filter (fun x => decide (x.item ∉ is ++ d1.map Row.item)) ∧
      d4 = data.filter (fun x => decide ((x.user ∈ us ∨ x.item ∈ is) ∧ x.user ∈ us ++ d1.map Row.user ∧
        x.item ∈ is ++ d1.map Row.item)) ∧
      N1 = interactionMatrix us' is' d1 ∧ N2 = interactionMatrix us' is' d2 ∧ N3 = interactionMatrix us' is' d3 ∧
      O = interactionMatrix us' is' d4 ∧
      interactionMatrix us' is' data = N1 + N2 + N3 + O ∧
      sqSum (interactionMatrix us' is' data) = sqSum N1 + sqSum N2 + sqSum N3 + sqSum O ∧
      (∀ X : Matrix (Fin us'.length) (Fin is'.length) ℝ, X.rank ≤ r → sqSum (A' + N1 - B1) ≤ sqSum (A' + N1 - X)) ∧
      (∀ X : Matrix (Fin us'.length) (Fin is'.length) ℝ, X.rank ≤ r → sqSum (B1 + N2 - B2) ≤ sqSum (B1 + N2 - X)) ∧
      (∀ X : Matrix (Fin us'.length) (Fin is'.length) ℝ, X.rank ≤ r → sqSum (B2 + N3 - B3) ≤ sqSum (B2 + N3 - X)) ∧
      A'.rank ≤ r ∧ B1.rank ≤ r ∧ B2.rank ≤ r ∧
      ProjectsTo r B3 (B3 + O) B ∧
      ∀ Y : Matrix (Fin us'.length) (Fin us'.length) ℝ, sqSum (B3 + O - B) ≤ sqSum (O - Y * B3) := by
  obtain ⟨U, S, V, eu, es, ev, hV, hA, -, -⟩ := h.holds.fac
  have hU := h.orth U eu
  obtain ⟨hfull, hsym⟩ := hgood S es
  have hsol : Solid st us is r U S V := ⟨eu, es, ev, hU, hV, hfull⟩
  -- the rounds
  unfold psiUpdate psiRounds at hok
  rw [hz, hint] at hok
  dsimp only at hok
  obtain ⟨l4, hl, hok⟩ := (bind_ok_iff ..).1 hok
  rw [List.foldlM_cons] at hl
  obtain ⟨l1, r1, hl⟩ := (bind_ok_iff ..).1 hl
  rw [List.foldlM_cons] at hl
  obtain ⟨l2, r2, hl⟩ := (bind_ok_iff ..).1 hl
  rw [List.foldlM_cons] at hl
  obtain ⟨l3, r3, hl⟩ := (bind_ok_iff ..).1 hl
  rw [List.foldlM_cons] at hl
  obtain ⟨l4', r4, hl⟩ := (bind_ok_iff ..).1 hl
  cases hl
  obtain ⟨q1, x1, s1, -⟩ := psiRound_run env hsort cfg (l := ⟨st, data, []⟩) h.holds.shape r1
  change updateFactorsByMode env cfg st (psiD1 us is data) .new = .ok l1.st at q1
  change l1.left = psiL1 us is data at x1
  change PsiShape l1.st (psiU1 us is data) (psiI1 us is data) r at s1
  obtain ⟨q2, x2, s2, t2⟩ := psiRound_run env hsort cfg s1 r2
  rw [x1] at q2 x2 s2 t2
  change updateFactorsByMode env cfg l1.st (psiD2 us is data) .newUsers = .ok l2.st at q2
  change l2.left = psiL2 us is data at x2
  change PsiShape l2.st (psiU2 us is data) (psiI1 us is data) r at s2
  change ¬ TooMany cfg (psiU1 us is data) (psiI1 us is data) .newUsers (psiD2 us is data) at t2
  obtain ⟨q3, x3, s3, t3⟩ := psiRound_run env hsort cfg s2 r3
  rw [x2] at q3 x3 s3 t3
  change updateFactorsByMode env cfg l2.st (psiD3 us is data) .newItems = .ok l3.st at q3
  change l3.left = psiL3 us is data at x3
  change PsiShape l3.st (psiU2 us is data) (psiI3 us is data) r at s3
  change ¬ TooMany cfg (psiU2 us is data) (psiI1 us is data) .newItems (psiD3 us is data) at t3
  obtain ⟨q4, -, -, -⟩ := psiRound_run env hsort cfg s3 r4
  rw [x3] at q4
  have hL3 : ∀ x ∈ psiL3 us is data, x ∈ data := fun x hx => by
    simp only [mem_psiL3, mem_psiL2, mem_psiL1] at hx
    exact hx.1.1.1
  have hold : (psiL3 us is data).filter (stepClass (psiU2 us is data) (psiI3 us is data) .old) = psiL3 us is data :=
    List.filter_eq_self.2 fun x hx => by
      simp only [stepClass, decide_eq_true_eq]
      exact psi_all_known us is data x (hL3 x hx)
  rw [hold] at q4
  have m1 : ∀ x ∈ psiD1 us is data, x ∈ data ∧ x.user ∉ us ∧ x.item ∉ is := fun x hx => (mem_psiD1 ..).1 hx
  have m2 : ∀ x ∈ psiD2 us is data, x ∈ data ∧ x.user ∉ us ∧ x.item ∈ psiI1 us is data := fun x hx => by
    obtain ⟨g1, g2, g3⟩ := (mem_psiD2 ..).1 hx
    exact ⟨((mem_psiL1 ..).1 g1).1, fun hc => g2 ((mem_psiU1 ..).2 (Or.inl hc)), g3⟩
  have m3 : ∀ x ∈ psiD3 us is data, x ∈ data ∧ x.item ∉ is ∧ x.user ∈ psiU2 us is data := fun x hx => by
    obtain ⟨g1, g2, g3⟩ := (mem_psiD3 ..).1 hx
    exact ⟨((mem_psiL1 ..).1 ((mem_psiL2 ..).1 g1).1).1, fun hc => g3 ((mem_psiI1 ..).2 (Or.inl hc)), g2⟩
  obtain ⟨⟨lu, hlu, cu⟩, li, hli, ci⟩ := hfew
  obtain ⟨U1, S1, V1, sol1, b1⟩ := newRound_solid env hqr hsvd hsort cfg hint h.holds.shape h.core hsol (psiD1 us is data)
    (fun x hx => (List.mem_filter.1 hx).2)
    (hw _ ((min_le_left _ _).trans ((pdUnique_le fun x hx => by
      obtain ⟨y, hy, rfl⟩ := List.mem_map.1 hx
      exact cu y (m1 y hy).1 (m1 y hy).2.1).trans hlu)))
    (us' := psiU1 us is data) (is' := psiI1 us is data) rfl rfl q1
  have hsym1 : psiD2 us is data ≠ [] → S1.transpose = S1 := fun hne => by
    by_cases hD : psiD1 us is data = []
    · rw [hD] at q1
      have e0 : st = l1.st := Except.ok.inj q1
      have : S = S1 := by
        have := sol1.s
        rw [← e0, es] at this
        exact eq_of_heq (Mat.mk.inj this).2.2
      subst this
      rcases hsym with hs | ⟨x, hx, hn⟩ | hn
      · exact hs
      · exact absurd ((mem_psiD1 ..).2 ⟨hx, hn⟩) (by rw [hD]; exact List.not_mem_nil)
      · obtain ⟨x, hx⟩ := List.exists_mem_of_ne_nil _ hne
        exact absurd (hn x (m2 x hx).1) (m2 x hx).2.1
    · exact newRound_sym env cfg hint hD q1 sol1.s
  obtain ⟨U2, S2, V2, sol2, b2⟩ := usersRound_best env hqr hsvd cfg hz s1 sol1 (psiD2 us is data)
    (fun x hx => (List.mem_filter.1 hx).2) hsym1
    (hw _ ((pdUnique_le fun x hx => by
      obtain ⟨y, hy, rfl⟩ := List.mem_map.1 hx
      exact cu y (m2 y hy).1 (m2 y hy).2.1).trans hlu))
    (not_lt.1 fun hc => t2 ⟨hz, Or.inl ⟨rfl, hc⟩⟩) (us' := psiU2 us is data) rfl q2
  obtain ⟨U3, S3, V3, sol3, b3⟩ := itemsRound_best env hqr hsvd cfg hz s2 sol2 (psiD3 us is data)
    (fun x hx => (List.mem_filter.1 hx).2)
    (hw _ ((pdUnique_le fun x hx => by
      obtain ⟨y, hy, rfl⟩ := List.mem_map.1 hx
      exact ci y (m3 y hy).1 (m3 y hy).2.1).trans hli))
    (not_lt.1 fun hc => t3 ⟨hz, Or.inr ⟨rfl, hc⟩⟩) (is' := psiI3 us is data) rfl q3
  -- the step for known pairs
  have hk : ∀ x ∈ psiL3 us is data, x.user ∈ psiU2 us is data ∧ x.item ∈ psiI3 us is data := fun x hx =>
    psi_all_known us is data x (hL3 x hx)
  obtain ⟨st4, k1, km, U4, S4, V4, f4, f5, f6, f7, -, -, l3', l4'⟩ :=
    psiOld_loss env hqr cfg s3 sol3.u sol3.s sol3.vt sol3.orthV (psiL3 us is data) hk
  have o4 := psiOld_orth env hqr cfg s3 sol3.u sol3.s sol3.vt sol3.orthU (psiL3 us is data) hk k1 f4
  rw [q4] at k1
  obtain rfl := Except.ok.inj k1
  have mu : Represents l4.st.maps.user (psiU2 us is data) := km ▸ s3.user
  have mi : Represents l4.st.maps.item (psiI3 us is data) := km ▸ s3.item
  rw [psiUpdateHistory_eq mu mi data (fun x hx => (psi_all_known us is data x hx).1)
      (fun x hx => (psi_all_known us is data x hx).2), except_bind_ok] at hok
  dsimp only at hok
  rw [f5, f6, Mat.dot_mk, except_bind_ok] at hok
  cases hok
  have pu1 : us <+: psiU1 us is data := ⟨_, rfl⟩
  have pi1 : is <+: psiI1 us is data := ⟨_, rfl⟩
  have pu2 : psiU1 us is data <+: psiU2 us is data := ⟨_, rfl⟩
  have pi2 : psiI1 us is data <+: psiI3 us is data := ⟨_, rfl⟩
  have nu := s3.user.nodup
  have ni := s3.item.nodup
  obtain ⟨A', hA'⟩ := zeroExt_exists A (pu1.trans pu2).length_le (pi1.trans pi2).length_le
  obtain ⟨B1, hB1⟩ := zeroExt_exists (U1 * S1 * V1) pu2.length_le pi2.length_le
  obtain ⟨B2, hB2⟩ := zeroExt_exists (U2 * S2 * V2) (le_refl (psiU2 us is data).length) pi2.length_le
  have hDk1 : ∀ x ∈ psiD1 us is data, x.user ∈ psiU1 us is data ∧ x.item ∈ psiI1 us is data := fun x hx =>
    ⟨(mem_psiU1 ..).2 (Or.inr ⟨x, hx, rfl⟩), (mem_psiI1 ..).2 (Or.inr ⟨x, hx, rfl⟩)⟩
  have hDk2 : ∀ x ∈ psiD2 us is data, x.user ∈ psiU2 us is data ∧ x.item ∈ psiI1 us is data := fun x hx =>
    ⟨(mem_psiU2 ..).2 (Or.inr ⟨x, hx, rfl⟩), (m2 x hx).2.2⟩
  have hDk3 : ∀ x ∈ psiD3 us is data, x.user ∈ psiU2 us is data ∧ x.item ∈ psiI3 us is data := fun x hx =>
    ⟨(m3 x hx).2.2, (mem_psiI3 ..).2 (Or.inr ⟨x, hx, rfl⟩)⟩
  have hrk : ∀ {m n : ℕ} (P : Matrix (Fin m) (Fin r) ℝ) (Q : Matrix (Fin r) (Fin r) ℝ) (R : Matrix (Fin r) (Fin n) ℝ),
      (P * Q * R).rank ≤ r := fun P Q R => (Matrix.rank_mul_le_right _ _).trans (Matrix.rank_le_height _)
  obtain ⟨sp1, dj1⟩ := table_split (psiU2 us is data) (psiI3 us is data) data
    fun u i => stepClass us is .new (⟨u, i, 0, 0, 0⟩ : Row ℝ)
  obtain ⟨sp2, dj2⟩ := table_split (psiU2 us is data) (psiI3 us is data) (psiL1 us is data)
    fun u i => stepClass (psiU1 us is data) (psiI1 us is data) .newUsers (⟨u, i, 0, 0, 0⟩ : Row ℝ)
  obtain ⟨sp3, dj3⟩ := table_split (psiU2 us is data) (psiI3 us is data) (psiL2 us is data)
    fun u i => stepClass (psiU2 us is data) (psiI1 us is data) .newItems (⟨u, i, 0, 0, 0⟩ : Row ℝ)
  change interactionMatrix (psiU2 us is data) (psiI3 us is data) data =
    interactionMatrix _ _ (psiD1 us is data) + interactionMatrix _ _ (psiL1 us is data) at sp1
  change interactionMatrix (psiU2 us is data) (psiI3 us is data) (psiL1 us is data) =
    interactionMatrix _ _ (psiD2 us is data) + interactionMatrix _ _ (psiL2 us is data) at sp2
  change interactionMatrix (psiU2 us is data) (psiI3 us is data) (psiL2 us is data) =
    interactionMatrix _ _ (psiD3 us is data) + interactionMatrix _ _ (psiL3 us is data) at sp3
  have sq1 := sqSum_disjoint _ _ dj1
  have sq2 := sqSum_disjoint _ _ dj2
  have sq3 := sqSum_disjoint _ _ dj3
  change sqSum (interactionMatrix _ _ (psiD1 us is data) + interactionMatrix _ _ (psiL1 us is data)) =
    sqSum (interactionMatrix _ _ (psiD1 us is data)) + sqSum (interactionMatrix _ _ (psiL1 us is data)) at sq1
  change sqSum (interactionMatrix _ _ (psiD2 us is data) + interactionMatrix _ _ (psiL2 us is data)) =
    sqSum (interactionMatrix _ _ (psiD2 us is data)) + sqSum (interactionMatrix _ _ (psiL2 us is data)) at sq2
  change sqSum (interactionMatrix _ _ (psiD3 us is data) + interactionMatrix _ _ (psiL3 us is data)) =
    sqSum (interactionMatrix _ _ (psiD3 us is data)) + sqSum (interactionMatrix _ _ (psiL3 us is data)) at sq3
  rw [← sp1] at sq1
  rw [← sp2] at sq2
  rw [← sp3] at sq3
  refine ⟨psiU2 us is data, psiI3 us is data, A', B1, B2, U3 * S3 * V3, U4 * S4 * V4, _, _, _, _, psiD1 us is data,
    psiD2 us is data, psiD3 us is data, psiL3 us is data,
    ⟨⟨⟨mu, mi, congrArg Mat.rows f4, congrArg Mat.cols f4, rfl, rfl, ⟨rfl, rfl⟩, s3.ru,
      s3.ri⟩, U4, S4, V4, f4, rfl, rfl, f7, rfl, f4, rfl⟩, fun U' hU' => ?_, Or.inr ⟨S4, rfl⟩⟩, pu1.trans pu2, pi1.trans pi2,
      nu, ni, psiU2_mem us is data, psiI3_mem us is data, hA', rfl, psiD2_eq us is data, psiD3_eq us is data,
      psiL3_eq us is data, rfl, rfl, rfl, rfl, ?_, ?_, ?_, ?_, ?_, ?_, ?_, ?_, l4', fun Y => ?_⟩
  · have := eq_of_heq (Mat.mk.inj (f4.symm.trans hU')).2.2
    subst this
    exact o4
  · rw [sp1, sp2, sp3]
    abel
  · rw [sq1, sq2, sq3]
    ring
  · exact b1.ext pu1 pi1 pu2 pi2 nu ni hDk1 (by rw [hA]; exact hA') hB1
  · exact b2.ext pu2 List.prefix_rfl List.prefix_rfl pi2 nu ni hDk2 hB1 hB2
  · exact b3.ext List.prefix_rfl pi2 List.prefix_rfl List.prefix_rfl nu ni hDk3 hB2 (ZeroExt.refl _)
  · exact hA'.rank_le.trans (hA ▸ hrk U S V)
  · exact hB1.rank_le.trans (hrk _ _ _)
  · exact hB2.rank_le.trans (hrk _ _ _)
  · have e : Y * (U3 * S3 * V3) = Y * (U3 * S3) * V3 := by
      simp only [Matrix.mul_assoc]
    rw [e]
    exact l3' _

/-! ### A run -/

theorem fro_four {m n : ℕ} (T A B C D : Matrix (Fin m) (Fin n) ℝ) (h : sqSum T = sqSum A + sqSum B + sqSum C + sqSum D) :
    fro A + fro B + fro C + fro D ≤ 2 * fro T := by
  have e : ∀ M : Matrix (Fin m) (Fin n) ℝ, fro M ^ 2 = sqSum M := fun M => Real.sq_sqrt (sqSum_nonneg M)
  rw [← e, ← e, ← e, ← e, ← e] at h
  have h0 : 0 ≤ fro T := Real.sqrt_nonneg _
  refine abs_le_of_sq_le_sq' ?_ (by linarith) |>.2
  have h1 := sq_nonneg (fro A - fro B)
  have h2 := sq_nonneg (fro A - fro C)
  have h3 := sq_nonneg (fro A - fro D)
  have h4 := sq_nonneg (fro B - fro C)
  have h5 := sq_nonneg (fro B - fro D)
  have h6 := sq_nonneg (fro C - fro D)
  nlinarith

/-- the loss of one update is at most twice the norm of the chunk -/
theorem psiNone_loss {m n r : ℕ} {T A' B1 B2 B3 B N1 N2 N3 O : Matrix (Fin m) (Fin n) ℝ} (hT : T = N1 + N2 + N3 + O)
    (hsq : sqSum T = sqSum N1 + sqSum N2 + sqSum N3 + sqSum O)
    (b1 : ∀ X : Matrix (Fin m) (Fin n) ℝ, X.rank ≤ r → sqSum (A' + N1 - B1) ≤ sqSum (A' + N1 - X))
    (b2 : ∀ X : Matrix (Fin m) (Fin n) ℝ, X.rank ≤ r → sqSum (B1 + N2 - B2) ≤ sqSum (B1 + N2 - X))
    (b3 : ∀ X : Matrix (Fin m) (Fin n) ℝ, X.rank ≤ r → sqSum (B2 + N3 - B3) ≤ sqSum (B2 + N3 - X))
    (hA : A'.rank ≤ r) (h1 : B1.rank ≤ r) (h2 : B2.rank ≤ r)
    (h4 : ∀ Y : Matrix (Fin m) (Fin m) ℝ, sqSum (B3 + O - B) ≤ sqSum (O - Y * B3)) :
    fro (A' + T - B) ≤ 2 * fro T := by
  have k1 : fro (A' + N1 - B1) ≤ fro N1 := by
    have := fro_le (b1 A' hA)
    rwa [add_sub_cancel_left] at this
  have k2 : fro (B1 + N2 - B2) ≤ fro N2 := by
    have := fro_le (b2 B1 h1)
    rwa [add_sub_cancel_left] at this
  have k3 : fro (B2 + N3 - B3) ≤ fro N3 := by
    have := fro_le (b3 B2 h2)
    rwa [add_sub_cancel_left] at this
  have k4 : fro (B3 + O - B) ≤ fro O := by
    refine fro_le ?_
    have := h4 0
    rwa [Matrix.zero_mul, sub_zero] at this
  have e : A' + T - B = (A' + N1 - B1) + ((B1 + N2 - B2) + ((B2 + N3 - B3) + (B3 + O - B))) := by
    rw [hT]
    abel
  have q1 := fro_add_le (A' + N1 - B1) ((B1 + N2 - B2) + ((B2 + N3 - B3) + (B3 + O - B)))
  have q2 := fro_add_le (B1 + N2 - B2) ((B2 + N3 - B3) + (B3 + O - B))
  have q3 := fro_add_le (B2 + N3 - B3) (B3 + O - B)
  have q4 := fro_four T N1 N2 N3 O hsq
  rw [e]
  linarith

/-- before every chunk of the run at most `os` of its users and at most `os` of its items are new -/
def FewNewIds (os : ℕ) : List (Row ℝ) → List (List (Row ℝ)) → Prop
  | _, [] => True
  | seen, c :: cs => FewNew os (seen.map Row.user) (seen.map Row.item) c ∧ FewNewIds os (seen ++ c) cs

/-- before every chunk of the run the core is good for it -/
def GoodCores (env : PSIEnv ℝ) (cfg : PSICfg) : List (Row ℝ) → PSIState ℝ → List (List (Row ℝ)) → Prop
  | _, _, [] => True
  | seen, st, c :: cs => CoreGood st (seen.map Row.user) (seen.map Row.item) cfg.rank c ∧
      ∀ st', psiUpdate env cfg st c = .ok st' → GoodCores env cfg (seen ++ c) st' cs

theorem psiNone_run (env : PSIEnv ℝ) (hqr : QrAlways env.la)
    (hsvd : ∀ {a b : ℕ} (A : Matrix (Fin a) (Fin b) ℝ), SvdOk env.la A) (hsort : ArgSortOk env.argsort) (cfg : PSICfg)
    (hz : cfg.init = none) (hint : cfg.integrator = false) (hw : WideDraws env.rng cfg.rank cfg.os)
    (chunks : List (List (Row ℝ))) :
    ∀ (seen : List (Row ℝ)) (st st' : PSIState ℝ) (us is : List ℤ) (A : Matrix (Fin us.length) (Fin is.length) ℝ),
      PsiKept st us is cfg.rank A → (∀ u, u ∈ us ↔ ∃ x ∈ seen, x.user = u) → (∀ i, i ∈ is ↔ ∃ x ∈ seen, x.item = i) →
      FewNewIds cfg.os seen chunks → GoodCores env cfg seen st chunks →
      chunks.foldlM (psiUpdate env cfg) st = .ok st' →
      ∃ (us' is' : List ℤ) (B : Matrix (Fin us'.length) (Fin is'.length) ℝ),
        PsiKept st' us' is' cfg.rank B ∧ us <+: us' ∧ is <+: is' ∧ us'.Nodup ∧ is'.Nodup ∧
        (∀ u, u ∈ us' ↔ ∃ x ∈ seen ++ chunks.flatten, x.user = u) ∧
        (∀ i, i ∈ is' ↔ ∃ x ∈ seen ++ chunks.flatten, x.item = i) ∧
        fro (interactionMatrix us' is' (seen ++ chunks.flatten) - B) ≤
          fro (interactionMatrix us is seen - A) + 2 * (chunks.map fun c => fro (interactionMatrix us' is' c)).sum := by
  induction chunks with
  | nil =>
    intro seen st st' us is A h hu hi _ _ e
    cases e
    exact ⟨us, is, A, h, List.prefix_rfl, List.prefix_rfl, h.holds.shape.user.nodup, h.holds.shape.item.nodup,
      by simpa using hu, by simpa using hi, by simp⟩
  | cons c chunks ih =>
    intro seen st st' us is A h hu hi hfew hgood e
    obtain ⟨hf, hfew⟩ := hfew
    obtain ⟨hg, hgood⟩ := hgood
    rw [List.foldlM_cons] at e
    obtain ⟨st1, e1, e⟩ := (bind_ok_iff ..).1 e
    have hmu : ∀ u, u ∈ seen.map Row.user ↔ u ∈ us := fun u => by rw [hu, List.mem_map]
    have hmi : ∀ u, u ∈ seen.map Row.item ↔ u ∈ is := fun u => by rw [hi, List.mem_map]
    have hf' : FewNew cfg.os us is c := by
      unfold FewNew at hf ⊢
      simpa only [hmu, hmi] using hf
    have hg' : CoreGood st us is cfg.rank c := by
      unfold CoreGood at hg ⊢
      simpa only [hmu, hmi] using hg
    obtain ⟨us1, is1, A', B1, B2, B3, B, N1, N2, N3, O, d1, d2, d3, d4, h1, pu, pi, nu1, ni1, mu, mi, hext, -, -, -, -, -, -,
      -, -, hsum, hsq, b1, b2, b3, ra, rb1, rb2, -, b4⟩ := C184_update env hqr hsvd hsort cfg hz hint h c hw hf' hg' e1
    have hu1 : ∀ u, u ∈ us1 ↔ ∃ x ∈ seen ++ c, x.user = u := fun u => by
      rw [mu, hu]
      simp only [List.mem_append, or_and_right, exists_or]
    have hi1 : ∀ u, u ∈ is1 ↔ ∃ x ∈ seen ++ c, x.item = u := fun u => by
      rw [mi, hi]
      simp only [List.mem_append, or_and_right, exists_or]
    obtain ⟨us', is', B', h', pu', pi', nu', ni', mu', mi', g1⟩ :=
      ih (seen ++ c) st1 st' us1 is1 B h1 hu1 hi1 hfew (hgood st1 e1) e
    have hc : fro (interactionMatrix us' is' c) = fro (interactionMatrix us1 is1 c) :=
      (zeroExt_table pu' pi' nu' ni' c fun x hx =>
        ⟨(hu1 _).2 ⟨x, List.mem_append_right _ hx, rfl⟩, (hi1 _).2 ⟨x, List.mem_append_right _ hx, rfl⟩⟩).fro
    have hold : fro (interactionMatrix us1 is1 seen - A') = fro (interactionMatrix us is seen - A) :=
      ((zeroExt_table pu pi nu1 ni1 seen fun x hx => ⟨(hu _).2 ⟨x, hx, rfl⟩, (hi _).2 ⟨x, hx, rfl⟩⟩).sub hext).fro
    have hloss := psiNone_loss hsum hsq b1 b2 b3 ra rb1 rb2 b4
    refine ⟨us', is', B', h', pu.trans pu', pi.trans pi', nu', ni', fun u => ?_, fun i => ?_, ?_⟩
    · rw [mu', List.flatten_cons, List.append_assoc]
    · rw [mi', List.flatten_cons, List.append_assoc]
    · rw [List.flatten_cons, ← List.append_assoc, List.map_cons, List.sum_cons, hc]
      refine g1.trans ?_
      have e2 : interactionMatrix us1 is1 (seen ++ c) - B =
          (interactionMatrix us1 is1 seen - A') + (A' + interactionMatrix us1 is1 c - B) := by
        rw [interactionMatrix_append]
        abel
      have q1 := fro_add_le (interactionMatrix us1 is1 seen - A') (A' + interactionMatrix us1 is1 c - B)
      rw [← e2, hold] at q1
      linarith

/-- after training: both factors are orthonormal, the core is diagonal, and it has full rank if the table has -/
theorem psiNone_train (env : PSIEnv ℝ) (cfg : PSICfg) (train : List (Row ℝ)) (us is : List ℤ)
    (hu : FirstAppearance (train.map Row.user) us) (hi : FirstAppearance (train.map Row.item) is)
    (hsvds : SvdsOk env.la cfg.rank (interactionMatrix us is train)) {st : PSIState ℝ} (e : svdTrain env cfg train = .ok st) :
    ∃ A : Matrix (Fin us.length) (Fin is.length) ℝ, PsiKept st us is cfg.rank A ∧
      (∀ X : Matrix (Fin us.length) (Fin is.length) ℝ, X.rank ≤ cfg.rank →
        sqSum (interactionMatrix us is train - A) ≤ sqSum (interactionMatrix us is train - X)) ∧
      (cfg.rank ≤ (interactionMatrix us is train).rank → ∀ (l m : List ℤ) (c : List (Row ℝ)), CoreGood st l m cfg.rank c) := by
  obtain ⟨us0, is0, hu', hi', ⟨st0, e0, hinv, -⟩ | ⟨e0, -⟩⟩ := C31_train env cfg train
  · obtain rfl := hu.unique hu'
    obtain rfl := hi.unique hi'
    rw [e] at e0
    cases e0
    obtain ⟨U, s, V, ht, e1, e2, e3, e4, e5⟩ := C98_train env cfg train st us is hu hi hsvds e
    obtain ⟨hUU, hV, hUA⟩ := truncated_orth ht
    have hs : ∀ i, 0 ≤ s i := by
      obtain ⟨U', s', V', h, -, -, -, g1, -, -, g2, -⟩ := ht
      exact fun i => (g2 i) ▸ g1 _
    have hb : ∀ X : Matrix (Fin us.length) (Fin is.length) ℝ, X.rank ≤ cfg.rank →
        sqSum (interactionMatrix us is train - U * diagonal s * V) ≤ sqSum (interactionMatrix us is train - X) := fun X hX => by
      obtain ⟨Y, Z, rfl⟩ := exists_factor_of_rank X hX
      exact best_approximation _ U s V ht Y Z
    refine ⟨U * diagonal s * V, ⟨⟨hinv.shape, U, diagonal s, V, e1, by rw [e2]; rfl, e3, hV, rfl, e4, e5⟩, fun U' hU' => ?_,
        Or.inl ⟨s, e2, hs⟩⟩, hb, fun hr l m c S hS => ?_⟩
    · have := eq_of_heq (Mat.mk.inj (e1.symm.trans hU')).2.2
      subst this
      exact hUU
    · rw [e2] at hS
      have : diagonal s = S := eq_of_heq (Mat.mk.inj hS).2.2
      subst this
      exact ⟨(best_rank _ _ hb hr).trans (core_rank _ _ _), Or.inl (Matrix.diagonal_transpose _)⟩
  · rw [e] at e0; cases e0

/-- **C184, a run.** The default configuration. If the run does not fail, every chunk has at most `os` new users and at most
`os` new items, the matrices drawn have right inverses, and before every chunk the core is good for it (`CoreGood`), then the
known users and items are exactly those of the rows seen, and the distance of the scores to the table of all rows is at most
the distance of the training table to any matrix of the rank plus twice the norms of the chunks. -/
theorem C184_run (env : PSIEnv ℝ) (hqr : QrAlways env.la)
    (hsvd : ∀ {a b : ℕ} (A : Matrix (Fin a) (Fin b) ℝ), SvdOk env.la A) (hsort : ArgSortOk env.argsort) (cfg : PSICfg)
    (hz : cfg.init = none) (hint : cfg.integrator = false) (train : List (Row ℝ)) (us is : List ℤ)
    (hu : FirstAppearance (train.map Row.user) us) (hi : FirstAppearance (train.map Row.item) is)
    (hsvds : SvdsOk env.la cfg.rank (interactionMatrix us is train)) (chunks : List (List (Row ℝ)))
    (hfew : FewNewIds cfg.os train chunks) (hw : WideDraws env.rng cfg.rank cfg.os)
    (hgood : ∀ st0, svdTrain env cfg train = .ok st0 → GoodCores env cfg train st0 chunks)
    {st : PSIState ℝ} (e : psiRun env cfg train chunks = .ok st) :
    ∃ (us' is' : List ℤ) (B : Matrix (Fin us'.length) (Fin is'.length) ℝ),
      us <+: us' ∧ is <+: is' ∧ us'.Nodup ∧ is'.Nodup ∧
      (∀ u, u ∈ us' ↔ ∃ x ∈ train ++ chunks.flatten, x.user = u) ∧
      (∀ i, i ∈ is' ↔ ∃ x ∈ train ++ chunks.flatten, x.item = i) ∧
      Represents st.maps.user us' ∧ Represents st.maps.item is' ∧
      (∀ a : Fin us'.length, psiScore st ((a : ℕ) : ℤ) = .ok (List.ofFn fun j => B a j)) ∧
      ∀ X : Matrix (Fin us.length) (Fin is.length) ℝ, X.rank ≤ cfg.rank →
        fro (interactionMatrix us' is' (train ++ chunks.flatten) - B) ≤
          fro (interactionMatrix us is train - X) + 2 * (chunks.map fun c => fro (interactionMatrix us' is' c)).sum := by
  unfold psiRun at e
  obtain ⟨st0, e0, e⟩ := (bind_ok_iff ..).1 e
  obtain ⟨A, hA, hb, -⟩ := psiNone_train env cfg train us is hu hi hsvds e0
  have hmu : ∀ u, u ∈ us ↔ ∃ x ∈ train, x.user = u := fun u => by rw [hu.mem, List.mem_map]
  have hmi : ∀ u, u ∈ is ↔ ∃ x ∈ train, x.item = u := fun u => by rw [hi.mem, List.mem_map]
  obtain ⟨us', is', B, h', pu, pi, nu, ni, mu, mi, g1⟩ := psiNone_run env hqr hsvd hsort cfg hz hint hw chunks train st0 st us is A
    hA hmu hmi hfew (hgood st0 e0) e
  refine ⟨us', is', B, pu, pi, nu, ni, mu, mi, h'.holds.shape.user, h'.holds.shape.item, h'.holds.scores, fun X hX => ?_⟩
  have := fro_le (hb X hX)
  linarith

/-- **C184, first chunk.** The default configuration. If the training table has at least the rank of the model, and a chunk
has at most `os` new users and `os` new items, where `os` is at most the number of training users and items, then training and
update succeed; the error is at most that of the training plus twice the norm of the chunk. -/
theorem C184_first (env : PSIEnv ℝ) (hqr : QrAlways env.la)
    (hsvd : ∀ {a b : ℕ} (A : Matrix (Fin a) (Fin b) ℝ), SvdOk env.la A) (hsort : ArgSortOk env.argsort) (cfg : PSICfg)
    (hz : cfg.init = none) (hint : cfg.integrator = false) (train : List (Row ℝ)) (us is : List ℤ)
    (hu : FirstAppearance (train.map Row.user) us) (hi : FirstAppearance (train.map Row.item) is)
    (hr : 1 ≤ cfg.rank ∧ cfg.rank < us.length ∧ cfg.rank < is.length) (hos : cfg.os ≤ us.length ∧ cfg.os ≤ is.length)
    (hsvds : SvdsOk env.la cfg.rank (interactionMatrix us is train))
    (hrank : cfg.rank ≤ (interactionMatrix us is train).rank) (c : List (Row ℝ))
    (hfew : FewNew cfg.os us is c) (hw : WideDraws env.rng cfg.rank cfg.os) :
    ∃ (st : PSIState ℝ) (us' is' : List ℤ) (B : Matrix (Fin us'.length) (Fin is'.length) ℝ),
      psiRun env cfg train [c] = .ok st ∧ us <+: us' ∧ is <+: is' ∧ us'.Nodup ∧ is'.Nodup ∧
      (∀ u, u ∈ us' ↔ ∃ x ∈ train ++ c, x.user = u) ∧ (∀ i, i ∈ is' ↔ ∃ x ∈ train ++ c, x.item = i) ∧
      Represents st.maps.user us' ∧ Represents st.maps.item is' ∧
      (∀ a : Fin us'.length, psiScore st ((a : ℕ) : ℤ) = .ok (List.ofFn fun j => B a j)) ∧
      ∀ X : Matrix (Fin us.length) (Fin is.length) ℝ, X.rank ≤ cfg.rank →
        fro (interactionMatrix us' is' (train ++ c) - B) ≤
          fro (interactionMatrix us is train - X) + 2 * fro (interactionMatrix us' is' c) := by
  obtain ⟨us0, is0, hu', hi', ⟨st0, e0, hinv, -⟩ | ⟨-, hbad⟩⟩ := C31_train env cfg train
  · obtain rfl := hu.unique hu'
    obtain rfl := hi.unique hi'
    have hnc : ¬ Crowded us is c := by
      rw [crowded_iff hinv.shape.user.nodup hinv.shape.item.nodup]
      obtain ⟨⟨lu, hlu, cu⟩, li, hli, ci⟩ := hfew
      have h1 : (pdUnique ((psiD2 us is c).map Row.user)).length ≤ cfg.os := (pdUnique_le fun x hx => by
        obtain ⟨y, hy, rfl⟩ := List.mem_map.1 hx
        obtain ⟨g1, g2, g3⟩ := (mem_psiD2 ..).1 hy
        exact cu y ((mem_psiL1 ..).1 g1).1 fun hc => g2 ((mem_psiU1 ..).2 (Or.inl hc))).trans hlu
      have h2 : (pdUnique ((psiD3 us is c).map Row.item)).length ≤ cfg.os := (pdUnique_le fun x hx => by
        obtain ⟨y, hy, rfl⟩ := List.mem_map.1 hx
        obtain ⟨g1, g2, g3⟩ := (mem_psiD3 ..).1 hy
        exact ci y ((mem_psiL1 ..).1 ((mem_psiL2 ..).1 g1).1).1 fun hc => g3 ((mem_psiI1 ..).2 (Or.inl hc))).trans hli
      have h3 : is.length ≤ (psiI1 us is c).length := by simp [psiI1]
      have h4 : us.length ≤ (psiU2 us is c).length := by
        unfold psiU2 psiU1
        rw [List.length_append, List.length_append]
        omega
      omega
    obtain ⟨A, hA, hb, hg⟩ := psiNone_train env cfg train us is hu hi hsvds e0
    obtain ⟨st1, e1⟩ : ∃ st1, psiUpdate env cfg st0 c = .ok st1 := by
      rcases C31_update env hsort cfg hinv c with ⟨st1, _, _, e1, -⟩ | ⟨-, -, -, hc⟩ | ⟨-, -, hc⟩
      · exact ⟨st1, e1⟩
      · exact absurd hc hnc
      · rw [hint] at hc; cases hc
    have e : psiRun env cfg train [c] = .ok st1 := by
      unfold psiRun
      rw [e0, except_bind_ok, List.foldlM_cons, e1, except_bind_ok]
      rfl
    have hmu : ∀ u, u ∈ train.map Row.user ↔ u ∈ us := fun u => (hu.mem u).symm
    have hmi : ∀ u, u ∈ train.map Row.item ↔ u ∈ is := fun u => (hi.mem u).symm
    have hf' : FewNew cfg.os (train.map Row.user) (train.map Row.item) c := by
      unfold FewNew at hfew ⊢
      simpa only [hmu, hmi] using hfew
    obtain ⟨us', is', B, h1, h2, h3, h4, h5, h6, h7, h8, h9, h10⟩ := C184_run env hqr hsvd hsort cfg hz hint train us is hu hi hsvds
      [c] ⟨hf', trivial⟩ hw (fun st' e' => by
        rw [e0] at e'
        cases e'
        exact ⟨hg hrank _ _ _, fun _ _ => trivial⟩) e
    refine ⟨st1, us', is', B, e, h1, h2, h3, h4, by simpa using h5, by simpa using h6, h7, h8, h9, fun X hX => ?_⟩
    have := h10 X hX
    simpa using this
  · obtain rfl := hu.unique hu'
    obtain rfl := hi.unique hi'
    exact absurd ⟨hr.1, by omega⟩ hbad

open MeasureTheory in
/-- **C184, almost surely.** The same for standard normal draws, almost surely, whatever the training data and the chunk are. -/
theorem C184_almost_surely {Ω : Type} [MeasurableSpace Ω] (P : Measure Ω) (rng : Ω → Rng ℝ) (h : NormalDraws P rng)
    (env : PSIEnv ℝ) (hqr : QrAlways env.la)
    (hsvd : ∀ {a b : ℕ} (A : Matrix (Fin a) (Fin b) ℝ), SvdOk env.la A)
    (hsvds : ∀ {a b : ℕ} (k : ℕ) (A : Matrix (Fin a) (Fin b) ℝ), k ≤ min a b → SvdsOk env.la k A)
    (hsort : ArgSortOk env.argsort) (cfg : PSICfg) (hz : cfg.init = none) (hint : cfg.integrator = false) :
    ∀ᵐ w ∂P, ∀ (train : List (Row ℝ)) (us is : List ℤ),
      FirstAppearance (train.map Row.user) us → FirstAppearance (train.map Row.item) is →
      1 ≤ cfg.rank ∧ cfg.rank < us.length ∧ cfg.rank < is.length → cfg.os ≤ us.length ∧ cfg.os ≤ is.length →
      cfg.rank ≤ (interactionMatrix us is train).rank →
      ∀ c : List (Row ℝ), FewNew cfg.os us is c →
      ∃ (st : PSIState ℝ) (us' is' : List ℤ) (B : Matrix (Fin us'.length) (Fin is'.length) ℝ),
        psiRun { env with rng := rng w } cfg train [c] = .ok st ∧
        Represents st.maps.user us' ∧ Represents st.maps.item is' ∧
        (∀ a : Fin us'.length, psiScore st ((a : ℕ) : ℤ) = .ok (List.ofFn fun j => B a j)) ∧
        ∀ X : Matrix (Fin us.length) (Fin is.length) ℝ, X.rank ≤ cfg.rank →
          fro (interactionMatrix us' is' (train ++ c) - B) ≤
            fro (interactionMatrix us is train - X) + 2 * fro (interactionMatrix us' is' c) := by
  filter_upwards [wideDraws_ae P rng h cfg.rank cfg.os] with w hw train us is hu hi hr hos hrank c hfew
  obtain ⟨st, us', is', B, h1, -, -, -, -, -, -, h2, h3, h4, h5⟩ := C184_first { env with rng := rng w } hqr hsvd hsort cfg hz
    hint train us is hu hi hr hos (hsvds _ _ (by omega)) hrank c hfew hw
  exact ⟨st, us', is', B, h1, h2, h3, h4, h5⟩

/-! ### Examples -/

-- the new user 9 takes the known item 40, the known user 7 the new item 42, the known user 8 the known item 40; user and item
-- become known by the steps for new vectors, and the error is at most that of the training, 1, plus twice the norm of the chunk
example : ∃ (env : PSIEnv ℝ) (st : PSIState ℝ) (us' is' : List ℤ) (B : Matrix (Fin us'.length) (Fin is'.length) ℝ),
      psiRun env ⟨1, 0, 1, none, false⟩ (exTieRows 2) [[⟨9, 40, 3, 2, 1⟩, ⟨7, 42, 1, 2, 1⟩, ⟨8, 40, 1, 2, 1⟩]] = .ok st ∧
      9 ∈ us' ∧ 42 ∈ is' ∧
      (∀ a : Fin us'.length, psiScore st ((a : ℕ) : ℤ) = .ok (List.ofFn fun j => B a j)) ∧
      fro (interactionMatrix us' is' (exTieRows 2 ++ [⟨9, 40, 3, 2, 1⟩, ⟨7, 42, 1, 2, 1⟩, ⟨8, 40, 1, 2, 1⟩]) - B) ≤
        1 + 2 * fro (interactionMatrix us' is' [(⟨9, 40, 3, 2, 1⟩ : Row ℝ), ⟨7, 42, 1, 2, 1⟩, ⟨8, 40, 1, 2, 1⟩]) := by
  obtain ⟨sort, hsort⟩ := argSortOk_exists (K := ℝ)
  have hu : FirstAppearance ((exTieRows 2).map Row.user) [7, 8] := firstAppearance_pdUnique [7, 8]
  have hi : FirstAppearance ((exTieRows 2).map Row.item) [40, 41] := firstAppearance_pdUnique [40, 41]
  have hT : interactionMatrix [7, 8] [40, 41] (exTieRows 2) = (!![2, 0; 0, 1] : Matrix (Fin 2) (Fin 2) ℝ) := by
    ext i j
    fin_cases i <;> fin_cases j <;> simp [interactionMatrix, exTieRows]
  have hrk : 1 ≤ (interactionMatrix [7, 8] [40, 41] (exTieRows 2)).rank := by
    have h2 := rank_triple (1 : Matrix (Fin 2) (Fin 2) ℝ) ![2, 1] (1 : Matrix (Fin 2) (Fin 2) ℝ)
      (by rw [Matrix.transpose_one, Matrix.mul_one]) (by rw [Matrix.transpose_one, Matrix.mul_one]) (by
      intro i
      fin_cases i <;> simp)
    have e : (1 : Matrix (Fin 2) (Fin 2) ℝ) * diagonal ![2, 1] * 1 = !![2, 0; 0, 1] := by
      ext i j
      fin_cases i <;> fin_cases j <;> simp
    rw [e, ← hT] at h2
    exact le_trans (by decide) h2
  obtain ⟨st, us', is', B, h1, -, -, -, -, mu, mi, -, -, hs, h3⟩ := C184_first ⟨realLA, eyeRng, sort, eyeRng⟩ qrAlways_real
    (fun A => realLA_svd A) hsort ⟨1, 0, 1, none, false⟩ rfl rfl (exTieRows 2) [7, 8] [40, 41] hu hi (by decide) (by decide)
    (realLA_svds (by decide) _) hrk [⟨9, 40, 3, 2, 1⟩, ⟨7, 42, 1, 2, 1⟩, ⟨8, 40, 1, 2, 1⟩]
    ⟨⟨[9], le_rfl, by simp⟩, [42], le_rfl, by simp⟩
    (fun k hk => eyeRng_fullRows _ _ (by dsimp only at hk ⊢; omega))
  refine ⟨_, st, us', is', B, h1, (mu 9).2 ⟨⟨9, 40, 3, 2, 1⟩, by simp, rfl⟩,
    (mi 42).2 ⟨⟨7, 42, 1, 2, 1⟩, by simp, rfl⟩, hs, ?_⟩
  have h4 := h3 (!![2, 0; 0, 0] : Matrix (Fin 2) (Fin 2) ℝ) (by
    have e : (!![2, 0; 0, 0] : Matrix (Fin 2) (Fin 2) ℝ) =
        (!![2; 0] : Matrix (Fin 2) (Fin 1) ℝ) * (!![1, 0] : Matrix (Fin 1) (Fin 2) ℝ) := by
      ext i j
      fin_cases i <;> fin_cases j <;> simp [Matrix.mul_apply]
    rw [e]
    exact (Matrix.rank_mul_le_right _ _).trans (Matrix.rank_le_height _))
  rw [hT] at h4
  have e2 : fro ((!![2, 0; 0, 1] : Matrix (Fin 2) (Fin 2) ℝ) - !![2, 0; 0, 0]) = 1 := by
    simp [fro, Fin.sum_univ_two]
  have e4 : ∀ x : ℝ, fro ((!![2, 0; 0, 1] : Matrix (Fin 2) (Fin 2) ℝ) - !![2, 0; 0, 0]) + 2 * x = 1 + 2 * x := by
    intro x
    rw [e2]
  exact h4.trans_eq (e4 _)

-- with an oversampling of one, two new users are too many
example : ¬ FewNew 1 [7, 8] [40, 41] [⟨9, 40, 3, 2, 1⟩, ⟨10, 40, 1, 2, 1⟩] := by
  rintro ⟨⟨l, hl, h⟩, -⟩
  have h1 := h ⟨9, 40, 3, 2, 1⟩ (by simp) (by decide)
  have h2 := h ⟨10, 40, 1, 2, 1⟩ (by simp) (by decide)
  match l, hl, h1, h2 with
  | [c], _, ha, hb => exact absurd ((List.mem_singleton.1 ha).trans (List.mem_singleton.1 hb).symm) (by decide)

end DynCF
