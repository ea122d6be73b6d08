/-
C183: the default scheme of `PSI` with zero embeddings accepts chunks with any users and items, and its error over a run.
-/
import Verif.Props.PsiDefault
import Verif.Props.BlockBest
import Verif.Props.RandomSvdBest
import Verif.Props.AlmostSure
import Verif.Props.PsiExperiments5

namespace DynCF
open Matrix

/-! ### One block -/

/-- with a matrix core `update_svd_new_submatrix` finds the best approximation of rank `r`, if the drawn matrix has a right
inverse -/
theorem block_best_mat (la : LinAlg ℝ) (hqr : QrAlways la) (hsvd : ∀ {a b : ℕ} (A : Matrix (Fin a) (Fin b) ℝ), SvdOk la A)
    (rng : Rng ℝ) (argsort : ArgSort ℝ) {m r q a b : ℕ} (U : Matrix (Fin m) (Fin r) ℝ) (S : Matrix (Fin r) (Fin r) ℝ)
    (V : Matrix (Fin r) (Fin q) ℝ) (N : Matrix (Fin a) (Fin b) ℝ) (nPower os : ℕ) (hU : U.transpose * U = 1)
    (hV : V * V.transpose = 1) (R : Matrix (Fin (r + os)) (Fin (r + min a b)) ℝ)
    (hR : rng (r + min a b) (r + os) * R = 1) :
    ∃ (U2 : Matrix (Fin (m + a)) (Fin r) ℝ) (s2 : Fin r → ℝ) (V2 : Matrix (Fin r) (Fin (q + b)) ℝ),
      updateSvdNewSubmatrix la rng argsort ⟨m, r, U⟩ (.mat ⟨r, r, S⟩) ⟨r, q, V⟩ ⟨a, b, N⟩ nPower os =
        .ok (⟨m + a, r, U2⟩, .vec r s2, ⟨r, q + b, V2⟩) ∧
      U2.transpose * U2 = 1 ∧ V2 * V2.transpose = 1 ∧
      ∀ X : Matrix (Fin (m + a)) (Fin (q + b)) ℝ, X.rank ≤ r →
        sqSum (blk (U * S * V) 0 0 N - U2 * diagonal s2 * V2) ≤ sqSum (blk (U * S * V) 0 0 N - X) := by
  obtain ⟨e1, e2, e3, -, -⟩ := hsvd N
  have hok : RsvdOk la rng (blk S 0 0 (diagonal (la.svd N).2.1)) r nPower os := ⟨hqr _, hsvd _⟩
  obtain ⟨k, d1, d2, d3, he, hb⟩ := C154_best la rng (blk S 0 0 (diagonal (la.svd N).2.1)) r nPower os hok
    (C154_captures rng _ r nPower os R hR)
  obtain ⟨o1, o2⟩ := C47_orthonormal la rng (blk S 0 0 (diagonal (la.svd N).2.1)) r nPower os hok
  rw [he] at o1 o2
  dsimp only at o1 o2
  obtain ⟨k', d1', d2', d3', -, hk, he', -⟩ := C47_components la rng (blk S 0 0 (diagonal (la.svd N).2.1)) r nPower os
  obtain rfl : k = k' := congrArg (fun x => x.2.1.len) (he.symm.trans he')
  obtain rfl : k = r := by omega
  have hL : (blk U 0 0 (la.svd N).1).transpose * blk U 0 0 (la.svd N).1 = 1 := by
    rw [blk_transpose, blk_mul_blk]
    simp [hU, e2, blk_one]
  have hW : (blk V.transpose 0 0 (la.svd N).2.2.transpose).transpose * blk V.transpose 0 0 (la.svd N).2.2.transpose = 1 := by
    rw [blk_transpose, blk_mul_blk]
    simp [hV, e3, blk_one]
  have hprod : blk U 0 0 (la.svd N).1 * blk S 0 0 (diagonal (la.svd N).2.1) *
      (blk V.transpose 0 0 (la.svd N).2.2.transpose).transpose = blk (U * S * V) 0 0 N := by
    rw [blk_transpose, blk_mul_blk, blk_mul_blk]
    simp [e1]
  refine ⟨blk U 0 0 (la.svd N).1 * d1, d2, (blk V.transpose 0 0 (la.svd N).2.2.transpose * d3.transpose).transpose, ?_, ?_, ?_,
    fun X hX => ?_⟩
  · unfold updateSvdNewSubmatrix
    simp only [Mat.T_mk, blockDiag_mk, Mat.diag, he, Mat.dot_mk, except_bind_ok]
    rw [he]
    rfl
  · rw [Matrix.transpose_mul, Matrix.mul_assoc, ← Matrix.mul_assoc _ (blk U 0 0 (la.svd N).1), hL, Matrix.one_mul, o1]
  · rw [Matrix.transpose_transpose, Matrix.transpose_mul, Matrix.transpose_transpose, Matrix.mul_assoc,
      ← Matrix.mul_assoc _ (blk V.transpose 0 0 (la.svd N).2.2.transpose), hW, Matrix.one_mul, o2]
  · generalize blk U 0 0 (la.svd N).1 = L at *
    generalize blk V.transpose 0 0 (la.svd N).2.2.transpose = W at *
    generalize blk S 0 0 (diagonal (la.svd N).2.1) = D at *
    have hWW : W.transpose * W.transpose.transpose = 1 := by rw [Matrix.transpose_transpose, hW]
    have e : L * d1 * diagonal d2 * (W * d3.transpose).transpose = L * (d1 * diagonal d2 * d3) * W.transpose := by
      rw [Matrix.transpose_mul, Matrix.transpose_transpose]
      simp only [Matrix.mul_assoc]
    rw [e, ← hprod, ← Matrix.sub_mul, sqSum_orth_right hWW, ← Matrix.mul_sub, sqSum_orth hL]
    refine (hb (L.transpose * X * W)
      ((Matrix.rank_mul_le_left _ _).trans ((Matrix.rank_mul_le_right _ _).trans hX))).trans ?_
    have e2 : D - L.transpose * X * W = L.transpose * ((L * D * W.transpose - X) * W) := by
      rw [Matrix.sub_mul, Matrix.mul_sub, Matrix.mul_assoc _ W.transpose, hW, Matrix.mul_one, ← Matrix.mul_assoc L.transpose L,
        hL, Matrix.one_mul, Matrix.mul_assoc]
    rw [e2]
    refine (sqSum_contract hL _).trans ?_
    rw [← sqSum_transpose, Matrix.transpose_mul, ← sqSum_transpose (L * D * W.transpose - X)]
    exact sqSum_contract hW _

/-- the core of a model: non-negative singular values after training, a matrix after an update -/
def CoreOk (s : SArg ℝ) (r : ℕ) : Prop :=
  (∃ d : Fin r → ℝ, s = .vec r d ∧ ∀ i, 0 ≤ d i) ∨ ∃ S : Matrix (Fin r) (Fin r) ℝ, s = .mat ⟨r, r, S⟩

/-- both kinds of cores -/
theorem block_best (env : PSIEnv ℝ) (hqr : QrAlways env.la)
    (hsvd : ∀ {a b : ℕ} (A : Matrix (Fin a) (Fin b) ℝ), SvdOk env.la A) (hsort : ArgSortOk env.argsort) (cfg : PSICfg)
    (hint : cfg.integrator = false) {m q r a b : ℕ} (st : PSIState ℝ) (hs : CoreOk st.s r)
    (U : Matrix (Fin m) (Fin r) ℝ) (S : Matrix (Fin r) (Fin r) ℝ) (V : Matrix (Fin r) (Fin q) ℝ)
    (eu : st.u = ⟨_, _, U⟩) (es : st.s.toMat = ⟨_, _, S⟩) (ev : st.vt = ⟨_, _, V⟩)
    (N : Matrix (Fin a) (Fin b) ℝ) (hU : U.transpose * U = 1) (hV : V * V.transpose = 1)
    (hR : ∃ R : Matrix (Fin (r + cfg.os)) (Fin (r + min a b)) ℝ, env.rng (r + min a b) (r + cfg.os) * R = 1) :
    ∃ (st' : PSIState ℝ) (U2 : Matrix (Fin (m + a)) (Fin r) ℝ) (S2 : Matrix (Fin r) (Fin r) ℝ)
      (V2 : Matrix (Fin r) (Fin (q + b)) ℝ),
      psiUpdater env cfg st ⟨a, b, N⟩ .new = .ok st' ∧ st'.u = ⟨_, _, U2⟩ ∧ st'.s.toMat = ⟨_, _, S2⟩ ∧ st'.vt = ⟨_, _, V2⟩ ∧
      U2.transpose * U2 = 1 ∧ V2 * V2.transpose = 1 ∧
      ∀ X : Matrix (Fin (m + a)) (Fin (q + b)) ℝ, X.rank ≤ r →
        sqSum (blk (U * S * V) 0 0 N - U2 * S2 * V2) ≤ sqSum (blk (U * S * V) 0 0 N - X) := by
  rcases hs with ⟨d, hd, h0⟩ | ⟨S', hS'⟩
  · obtain ⟨U2, s2, V2, st', h1, h2, h3, h4, h5, h6, -, h7⟩ :=
      C168_new env hsvd hsort cfg hint st U d V eu hd ev N hU hV h0
    have : S = diagonal d := by
      rw [hd] at es
      have := (Mat.mk.inj es).2.2
      exact (eq_of_heq this).symm
    subst this
    exact ⟨st', U2, diagonal s2, V2, h1, h2, by rw [h3]; rfl, h4, h5, h6, h7⟩
  · have : S' = S := by
      rw [hS'] at es
      exact eq_of_heq (Mat.mk.inj es).2.2
    subst this
    obtain ⟨R, hR⟩ := hR
    obtain ⟨U2, s2, V2, h1, h2, h3, h4⟩ :=
      block_best_mat env.la hqr hsvd env.rng env.argsort U S' V N cfg.nPower cfg.os hU hV R hR
    refine ⟨{ st with u := ⟨_, _, U2⟩, s := .vec r s2, vt := ⟨_, _, V2⟩ }, U2, diagonal s2, V2, ?_, rfl, rfl, rfl, h2, h3, h4⟩
    unfold psiUpdater
    rw [hint]
    dsimp only
    rw [eu, hS', ev, h1]
    rfl

/-! ### The block in the table -/

/-- no row of the data is at a position with this user -/
theorem table_zero {us is : List ℤ} (D : List (Row ℝ)) (i : Fin us.length) (j : Fin is.length)
    (h : ∀ x ∈ D, ¬ (x.user = us[i] ∧ x.item = is[j])) : interactionMatrix us is D i j = 0 := by
  unfold interactionMatrix
  rw [Matrix.of_apply, List.filter_eq_nil_iff.2]
  · rfl
  · intro x hx hc
    exact h x hx (of_decide_eq_true hc)

theorem block_table {us eu is ei : List ℤ} {A : Matrix (Fin us.length) (Fin is.length) ℝ} (D : List (Row ℝ))
    (hD : ∀ x ∈ D, x.user ∉ us ∧ x.item ∉ is) {A' : Matrix (Fin (us ++ eu).length) (Fin (is ++ ei).length) ℝ}
    (hA : ZeroExt A A') (i : Fin (us ++ eu).length) (j : Fin (is ++ ei).length) :
    (A' + interactionMatrix (us ++ eu) (is ++ ei) D) i j =
      (⟨us.length + eu.length, is.length + ei.length, blk A 0 0 (interactionMatrix eu ei D)⟩ : Mat ℝ).ent i j := by
  obtain ⟨i, hi⟩ := i
  obtain ⟨j, hj⟩ := j
  have hi' : i < us.length + eu.length := by simpa using hi
  have hj' : j < is.length + ei.length := by simpa using hj
  rw [Matrix.add_apply, hA.2.2]
  by_cases h1 : i < us.length
  · have e0 : interactionMatrix (us ++ eu) (is ++ ei) D ⟨i, hi⟩ ⟨j, hj⟩ = 0 := by
      refine table_zero D _ _ fun x hx hc => (hD x hx).1 ?_
      rw [hc.1]
      have : (us ++ eu)[(⟨i, hi⟩ : Fin (us ++ eu).length)] = us[i] := List.getElem_append_left h1
      rw [this]
      exact List.getElem_mem _
    rw [e0, add_zero]
    by_cases h2 : j < is.length
    · rw [dif_pos ⟨h1, h2⟩]
      refine Eq.trans ?_ (Mat.ent_mk (blk A 0 0 (interactionMatrix eu ei D)) (Fin.castAdd eu.length ⟨i, h1⟩)
        (Fin.castAdd ei.length ⟨j, h2⟩)).symm
      simp only [blk, Matrix.of_apply, Fin.addCases_left]
    · rw [dif_neg fun h => h2 h.2]
      obtain ⟨k, rfl⟩ := Nat.exists_eq_add_of_le (not_lt.1 h2)
      refine Eq.trans ?_ (Mat.ent_mk (blk A 0 0 (interactionMatrix eu ei D)) (Fin.castAdd eu.length ⟨i, h1⟩)
        (Fin.natAdd is.length ⟨k, by omega⟩)).symm
      simp only [blk, Matrix.of_apply, Fin.addCases_left, Fin.addCases_right, Matrix.zero_apply]
  · rw [dif_neg fun h => h1 h.1, zero_add]
    obtain ⟨l, rfl⟩ := Nat.exists_eq_add_of_le (not_lt.1 h1)
    by_cases h2 : j < is.length
    · refine Eq.trans ?_ (Mat.ent_mk (blk A 0 0 (interactionMatrix eu ei D)) (Fin.natAdd us.length ⟨l, by omega⟩)
        (Fin.castAdd ei.length ⟨j, h2⟩)).symm
      rw [table_zero D _ _ fun x hx hc => (hD x hx).2 ?_]
      · simp only [blk, Matrix.of_apply, Fin.addCases_left, Fin.addCases_right, Matrix.zero_apply]
      · rw [hc.2]
        have : (is ++ ei)[(⟨j, hj⟩ : Fin (is ++ ei).length)] = is[j] := List.getElem_append_left h2
        rw [this]
        exact List.getElem_mem _
    · obtain ⟨k, rfl⟩ := Nat.exists_eq_add_of_le (not_lt.1 h2)
      refine Eq.trans ?_ (Mat.ent_mk (blk A 0 0 (interactionMatrix eu ei D)) (Fin.natAdd us.length ⟨l, by omega⟩)
        (Fin.natAdd is.length ⟨k, by omega⟩)).symm
      simp only [blk, Matrix.of_apply, Fin.addCases_right]
      unfold interactionMatrix
      rw [Matrix.of_apply, Matrix.of_apply]
      have e1 : (us ++ eu)[(⟨us.length + l, hi⟩ : Fin (us ++ eu).length)] = eu[(⟨l, by omega⟩ : Fin eu.length)] := by
        simp
      have e2 : (is ++ ei)[(⟨is.length + k, hj⟩ : Fin (is ++ ei).length)] = ei[(⟨k, by omega⟩ : Fin ei.length)] := by
        simp
      rw [e1, e2]

theorem block_cast {m a n b r m' n' : ℕ} (hm : m' = m + a) (hn : n' = n + b) (U2 : Matrix (Fin (m + a)) (Fin r) ℝ)
    (S2 : Matrix (Fin r) (Fin r) ℝ) (V2 : Matrix (Fin r) (Fin (n + b)) ℝ) (M : Matrix (Fin (m + a)) (Fin (n + b)) ℝ)
    (hU : U2.transpose * U2 = 1) (hV : V2 * V2.transpose = 1)
    (hb : ∀ X : Matrix (Fin (m + a)) (Fin (n + b)) ℝ, X.rank ≤ r → sqSum (M - U2 * S2 * V2) ≤ sqSum (M - X)) :
    ∃ (U1 : Matrix (Fin m') (Fin r) ℝ) (V1 : Matrix (Fin r) (Fin n') ℝ),
      (⟨m + a, r, U2⟩ : Mat ℝ) = ⟨m', r, U1⟩ ∧ (⟨r, n + b, V2⟩ : Mat ℝ) = ⟨r, n', V1⟩ ∧ U1.transpose * U1 = 1 ∧
      V1 * V1.transpose = 1 ∧ ∀ T : Matrix (Fin m') (Fin n') ℝ, (∀ i j, T i j = (⟨_, _, M⟩ : Mat ℝ).ent i j) →
        ∀ X : Matrix (Fin m') (Fin n') ℝ, X.rank ≤ r → sqSum (T - U1 * S2 * V1) ≤ sqSum (T - X) := by
  subst hm hn
  refine ⟨U2, V2, rfl, rfl, hU, hV, fun T hT => ?_⟩
  have : T = M := by
    ext i j
    rw [hT, Mat.ent_mk]
  subst this
  exact hb

theorem sqSum_zero' {m n : ℕ} : sqSum (0 : Matrix (Fin m) (Fin n) ℝ) = 0 := by simp [sqSum]

/-- the round for new pairs finds the best approximation -/
theorem newRound_best (env : PSIEnv ℝ) (hqr : QrAlways env.la)
    (hsvd : ∀ {a b : ℕ} (A : Matrix (Fin a) (Fin b) ℝ), SvdOk env.la A) (hsort : ArgSortOk env.argsort) (cfg : PSICfg)
    (hint : cfg.integrator = false) {st : PSIState ℝ} {us is : List ℤ} {r : ℕ} (h : PsiShape st us is r)
    (hs : CoreOk st.s r) {U : Matrix (Fin us.length) (Fin r) ℝ} {S : Matrix (Fin r) (Fin r) ℝ}
    {V : Matrix (Fin r) (Fin is.length) ℝ} (eu : st.u = ⟨_, _, U⟩) (es : st.s.toMat = ⟨_, _, S⟩) (ev : st.vt = ⟨_, _, V⟩)
    (hU : U.transpose * U = 1) (hV : V * V.transpose = 1) (D : List (Row ℝ))
    (hD : ∀ x ∈ D, stepClass us is .new x = true)
    (hR : FullRows (env.rng (r + min (pdUnique (D.map Row.user)).length (pdUnique (D.map Row.item)).length) (r + cfg.os)))
    {us' is' : List ℤ} (hus : us' = us ++ pdUnique (D.map Row.user)) (his : is' = is ++ pdUnique (D.map Row.item))
    {st1 : PSIState ℝ} (e : updateFactorsByMode env cfg st D .new = .ok st1) :
    ∃ (U1 : Matrix (Fin us'.length) (Fin r) ℝ) (S1 : Matrix (Fin r) (Fin r) ℝ) (V1 : Matrix (Fin r) (Fin is'.length) ℝ),
      st1.u = ⟨_, _, U1⟩ ∧ st1.s.toMat = ⟨_, _, S1⟩ ∧ st1.vt = ⟨_, _, V1⟩ ∧ U1.transpose * U1 = 1 ∧ V1 * V1.transpose = 1 ∧
      ∀ A' : Matrix (Fin us'.length) (Fin is'.length) ℝ, ZeroExt (U * S * V) A' →
        ∀ X : Matrix (Fin us'.length) (Fin is'.length) ℝ, X.rank ≤ r →
          sqSum (A' + interactionMatrix us' is' D - U1 * S1 * V1) ≤ sqSum (A' + interactionMatrix us' is' D - X) := by
  unfold updateFactorsByMode at e
  split at e
  · obtain ⟨maps, da, e1, -, -, hda⟩ := processData_eq h D .new hD
    rw [e1, except_bind_ok] at e
    dsimp only at hda
    subst hda
    dsimp only at e
    obtain ⟨st', U2, S2, V2, g1, g2, g3, g4, g5, g6, g7⟩ := block_best env hqr hsvd hsort cfg hint { st with maps := maps } hs
      U S V eu es ev (sumAt D Row.user Row.item (pdUnique (D.map Row.user)) (pdUnique (D.map Row.item))) hU hV hR
    rw [g1] at e
    cases e
    have lu : us'.length = us.length + (pdUnique (D.map Row.user)).length := by rw [hus, List.length_append]
    have li : is'.length = is.length + (pdUnique (D.map Row.item)).length := by rw [his, List.length_append]
    obtain ⟨U1, V1, k1, k2, k3, k4, k5⟩ := block_cast lu li U2 S2 V2 _ g5 g6 g7
    refine ⟨U1, S2, V1, g2.trans k1, g3, g4.trans k2, k3, k4, fun A' hA' => ?_⟩
    refine k5 _ ?_
    subst hus his
    intro i j
    exact block_table D (fun x hx => by simpa [stepClass] using hD x hx) hA' i j
  · have hD0 : D = [] := by simpa using ‹¬ D.length > 0›
    subst hD0
    cases e
    have hus : us' = us := by rw [hus]; exact List.append_nil _
    have his : is' = is := by rw [his]; exact List.append_nil _
    subst hus his
    refine ⟨U, S, V, eu, es, ev, hU, hV, fun A' hA' X _ => ?_⟩
    have h0 : interactionMatrix us' is' ([] : List (Row ℝ)) = 0 := by ext i j; simp [interactionMatrix]
    rw [h0, add_zero, hA'.unique (ZeroExt.refl _), sub_self, sqSum_zero']
    exact sqSum_nonneg _

/-! ### One update -/

/-- what the default scheme keeps: both factors orthonormal, the core diagonal and non-negative or a matrix -/
structure PsiKept (st : PSIState ℝ) (us is : List ℤ) (r : ℕ) (A : Matrix (Fin us.length) (Fin is.length) ℝ) : Prop where
  holds : PsiHolds st us is r A
  orth : ∀ U : Matrix (Fin us.length) (Fin r) ℝ, st.u = ⟨_, _, U⟩ → U.transpose * U = 1
  core : CoreOk st.s r

theorem ent_orth {m m' r : ℕ} (hm : m ≤ m') {U : Matrix (Fin m) (Fin r) ℝ} (hU : U.transpose * U = 1)
    {U' : Matrix (Fin m') (Fin r) ℝ} (h : ∀ i j, U' i j = (⟨m, r, U⟩ : Mat ℝ).ent i j) : U'.transpose * U' = 1 := by
  obtain ⟨k, rfl⟩ := Nat.exists_eq_add_of_le hm
  ext a b
  rw [← hU, Matrix.mul_apply, Matrix.mul_apply, Fin.sum_univ_add]
  have e0 : ∀ (i : Fin k) (j : Fin r), U' (Fin.natAdd m i) j = 0 := fun i j => by
    rw [h]
    exact Mat.ent_out _ fun g => by
      have := g.1
      simp at this
  have e1 : ∀ (i : Fin m) (j : Fin r), U' (Fin.castAdd k i) j = U i j := fun i j => by
    rw [h]
    exact Mat.ent_mk U i j
  simp only [Matrix.transpose_apply, e0, e1, mul_zero, Finset.sum_const_zero, add_zero]

/-- after the round for known pairs the user factors are orthonormal -/
theorem psiOld_orth (env : PSIEnv ℝ) (hqr : QrAlways env.la) (cfg : PSICfg) {st st1 : PSIState ℝ} {us is : List ℤ} {r : ℕ}
    (h : PsiShape st us is r) {U : Matrix (Fin us.length) (Fin r) ℝ} {S : Matrix (Fin r) (Fin r) ℝ}
    {V : Matrix (Fin r) (Fin is.length) ℝ} (eu : st.u = ⟨_, _, U⟩) (es : st.s.toMat = ⟨_, _, S⟩)
    (ev : st.vt = ⟨_, _, V⟩) (hU : U.transpose * U = 1) (data : List (Row ℝ))
    (hd : ∀ x ∈ data, x.user ∈ us ∧ x.item ∈ is) (e : updateFactorsByMode env cfg st data .old = .ok st1)
    {U1 : Matrix (Fin us.length) (Fin r) ℝ} (e1 : st1.u = ⟨_, _, U1⟩) : U1.transpose * U1 = 1 := by
  unfold updateFactorsByMode at e
  split at e
  · have hp : processData st data .old = .ok (⟨_, _, interactionMatrix us is data⟩, st) := by
      unfold processData
      dsimp only
      rw [h.uRows, h.vCols, mappedEntries_eq data Row.user Row.item h.user.idxMap
        h.item.idxMap (fun x hx => (hd x hx).1) (fun x hx => (hd x hx).2)]
      rfl
    obtain ⟨k, l, U1', S1', V1', e3, o1, -⟩ := C41_orthonormal env.la hqr U st.s S es V (interactionMatrix us is data)
    rw [hp, except_bind_ok] at e
    dsimp only at e
    unfold psiUpdater at e
    dsimp only at e
    rw [eu, ev, e3, except_bind_ok] at e
    cases e
    have hk : k = r := congrArg Mat.cols e1
    subst hk
    have := eq_of_heq (Mat.mk.inj e1).2.2
    subst this
    exact o1
  · cases e
    have := eq_of_heq (Mat.mk.inj (eu.symm.trans e1)).2.2
    subst this
    exact hU

theorem zeroExt_exists {m n m' n' : ℕ} (M : Matrix (Fin m) (Fin n) ℝ) (hm : m ≤ m') (hn : n ≤ n') :
    ∃ M' : Matrix (Fin m') (Fin n') ℝ, ZeroExt M M' :=
  ⟨Matrix.of fun a j => if h : (a : ℕ) < m ∧ (j : ℕ) < n then M ⟨a, h.1⟩ ⟨j, h.2⟩ else 0, hm, hn, fun _ _ => rfl⟩

theorem ZeroExt.trans {m n m' n' m'' n'' : ℕ} {M : Matrix (Fin m) (Fin n) ℝ} {M' : Matrix (Fin m') (Fin n') ℝ}
    {M'' : Matrix (Fin m'') (Fin n'') ℝ} (h : ZeroExt M M') (h' : ZeroExt M' M'') : ZeroExt M M'' := by
  refine ⟨h.1.trans h'.1, h.2.1.trans h'.2.1, fun a j => ?_⟩
  rw [h'.2.2]
  by_cases g : (a : ℕ) < m' ∧ (j : ℕ) < n'
  · rw [dif_pos g, h.2.2]
  · rw [dif_neg g, dif_neg fun q => g ⟨q.1.trans_le h.1, q.2.trans_le h.2.1⟩]

theorem ZeroExt.add {m n m' n' : ℕ} {M N : Matrix (Fin m) (Fin n) ℝ} {M' N' : Matrix (Fin m') (Fin n') ℝ}
    (h1 : ZeroExt M M') (h2 : ZeroExt N N') : ZeroExt (M + N) (M' + N') := by
  refine ⟨h1.1, h1.2.1, fun a j => ?_⟩
  rw [Matrix.add_apply, h1.2.2, h2.2.2]
  split
  · rfl
  · exact add_zero _

/-- **C183, one update.** In the default scheme with zero embeddings a chunk with any users and items is accepted, if the
matrix drawn for its new pairs (rows whose user and item are both new) has a right inverse. The known ids stay in front,
those of the chunk that are new follow. Let `A'` be the former predictions with zeros for new users and items, `N` and `O`
the tables of the new pairs and of the other rows, and `B` the predictions after the update. There is a `B1` such that no
matrix of rank at most `r` is closer to `A' + N` than `B1`, and `B` is the projection of `B1 + O` to a space of dimension at
most `r` that contains the columns of `(B1 + O) B1ᵀ`; the second step loses at most the distance of `O` to any matrix with
rows in the span of the rows of `B1`. -/
theorem C183_update (env : PSIEnv ℝ) (hqr : QrAlways env.la)
    (hsvd : ∀ {a b : ℕ} (A : Matrix (Fin a) (Fin b) ℝ), SvdOk env.la A) (hsort : ArgSortOk env.argsort) (cfg : PSICfg)
    (hz : cfg.init = some .zero) (hint : cfg.integrator = false) {st : PSIState ℝ} {us is : List ℤ} {r : ℕ}
    {A : Matrix (Fin us.length) (Fin is.length) ℝ} (h : PsiKept st us is r A) (data : List (Row ℝ))
    (hR : ∀ N : List (Row ℝ), N = data.filter (fun x => decide (x.user ∉ us ∧ x.item ∉ is)) →
      FullRows (env.rng (r + min (pdUnique (N.map Row.user)).length (pdUnique (N.map Row.item)).length) (r + cfg.os))) :
    ∃ (st' : PSIState ℝ) (us' is' : List ℤ) (A' B1 B N O : Matrix (Fin us'.length) (Fin is'.length) ℝ),
      psiUpdate env cfg st data = .ok st' ∧ PsiKept st' us' is' r B ∧ us <+: us' ∧ is <+: is' ∧
      us'.Nodup ∧ is'.Nodup ∧
      (∀ u, u ∈ us' ↔ u ∈ us ∨ ∃ x ∈ data, x.user = u) ∧ (∀ i, i ∈ is' ↔ i ∈ is ∨ ∃ x ∈ data, x.item = i) ∧
      ZeroExt A A' ∧
      N = interactionMatrix us' is' (data.filter fun x => decide (x.user ∉ us ∧ x.item ∉ is)) ∧
      O = interactionMatrix us' is' (data.filter fun x => !decide (x.user ∉ us ∧ x.item ∉ is)) ∧
      (∀ X : Matrix (Fin us'.length) (Fin is'.length) ℝ, X.rank ≤ r → sqSum (A' + N - B1) ≤ sqSum (A' + N - X)) ∧
      ProjectsTo r B1 (B1 + O) B ∧
      ∀ Y : Matrix (Fin us'.length) (Fin us'.length) ℝ, sqSum (B1 + O - B) ≤ sqSum (O - Y * B1) := by
  rcases psiRounds3 env hsort cfg h.holds.shape data with ⟨st1, st3, e1, e3, s3, -, -⟩ | ⟨-, -, -, hc, -⟩
  swap
  · rw [hz] at hc; cases hc
  obtain ⟨U, S, V, eu, es, ev, hV, hA, -, -⟩ := h.holds.fac
  have hU := h.orth U eu
  -- the block of the new pairs
  have hD1 : psiD1 us is data = data.filter (fun x => decide (x.user ∉ us ∧ x.item ∉ is)) := rfl
  have hL1 : psiL1 us is data = data.filter (fun x => !decide (x.user ∉ us ∧ x.item ∉ is)) := rfl
  have q1 : updateFactorsByMode env cfg st (psiD1 us is data) .new = .ok st1 := by
    unfold psiRound at e1
    obtain ⟨st', hs, e1⟩ := (bind_ok_iff ..).1 e1
    have e1 := Except.ok.inj e1
    simp only [PsiLoop.mk.injEq, List.nil_append, List.cons.injEq, Prod.mk.injEq, true_and, and_true] at e1
    obtain ⟨rfl, -, e1⟩ := e1
    rw [← e1]
    exact hs
  obtain ⟨U1, S1, V1, f1, f2, f3, o1, o2, hbest⟩ := newRound_best env hqr hsvd hsort cfg hint h.holds.shape h.core eu es ev hU hV
    (psiD1 us is data) (fun x hx => (List.mem_filter.1 hx).2) (hR _ rfl) (us' := psiU1 us is data) (is' := psiI1 us is data)
    rfl rfl q1
  -- zeros for the other new users and items
  have g : ZeroGrown st1 st3 := by
    obtain ⟨rank, nPower, os, init, b⟩ := cfg
    have fl := fun l mode hm => psiRound_flag env ⟨rank, nPower, os, init, b⟩ true l mode hm
    dsimp only at fl hz
    rw [List.foldlM_cons] at e3
    obtain ⟨l2, e2, e3⟩ := (bind_ok_iff ..).1 e3
    rw [List.foldlM_cons] at e3
    obtain ⟨l3, e4, e3⟩ := (bind_ok_iff ..).1 e3
    cases e3
    rw [← fl _ _ (by decide)] at e2 e4
    exact (zeroRound_grown env _ hz rfl (by decide) e2).trans (zeroRound_grown env _ hz rfl (by decide) e4)
  have pu1 : us <+: psiU1 us is data := ⟨_, rfl⟩
  have pi1 : is <+: psiI1 us is data := ⟨_, rfl⟩
  have pu2 : psiU1 us is data <+: psiU2 us is data := ⟨_, rfl⟩
  have pi2 : psiI1 us is data <+: psiI3 us is data := ⟨_, rfl⟩
  obtain ⟨s1, -⟩ : PsiShape st1 (psiU1 us is data) (psiI1 us is data) r ∧ True := by
    rcases psiRound_eq env hsort cfg (l := ⟨st, data, []⟩) h.holds.shape .new with ⟨st1', e1', s1, -, -⟩ | ⟨e1', -⟩
    · rw [e1] at e1'
      cases e1'
      exact ⟨s1, trivial⟩
    · rw [e1] at e1'; cases e1'
  have hh1 : PsiHolds { st1 with userFactors := ⟨_, _, U1⟩, itemFactors := ⟨_, _, S1 * V1⟩ } (psiU1 us is data)
      (psiI1 us is data) r (U1 * S1 * V1) :=
    ⟨⟨s1.user, s1.item, s1.uRows, s1.uCols, s1.vRows, s1.vCols, s1.sDim, s1.ru, s1.ri⟩, U1, S1, V1, f1, f2, f3, o2, rfl, rfl, rfl⟩
  obtain ⟨U3, S3, V3, fu, fs, fv, hV3, hext⟩ := zeroGrown_fac hh1 (st' := st3) ⟨g.u, g.vt, g.s⟩ s3 pu2.length_le pi2.length_le
  have o3 : U3.transpose * U3 = 1 := by
    refine ent_orth pu2.length_le o1 fun i j => ?_
    rw [← f1, ← g.u, fu, Mat.ent_mk]
  -- the step for known pairs
  have hk : ∀ x ∈ psiL1 us is data, x.user ∈ psiU2 us is data ∧ x.item ∈ psiI3 us is data := fun x hx =>
    psi_all_known us is data x ((mem_psiL1 us is data x).1 hx).1
  obtain ⟨st4, k1, km, U4, S4, V4, f4, f5, f6, f7, -, -, l3, l4⟩ :=
    psiOld_loss env hqr cfg s3 fu fs fv hV3 (psiL1 us is data) hk
  have o4 := psiOld_orth env hqr cfg s3 fu fs fv o3 (psiL1 us is data) hk k1 f4
  have mu : Represents st4.maps.user (psiU2 us is data) := km ▸ s3.user
  have mi : Represents st4.maps.item (psiI3 us is data) := km ▸ s3.item
  have e5 : psiUpdate env cfg st data = .ok { st4 with
      history := st4.history ++ data.map fun x =>
        ((((psiU2 us is data).idxOf x.user : ℕ) : ℤ), (((psiI3 us is data).idxOf x.item : ℕ) : ℤ))
      s := .mat ⟨_, _, S4⟩, userFactors := st4.u, itemFactors := ⟨_, _, S4 * V4⟩ } := by
    unfold psiUpdate psiRounds
    rw [hz, hint]
    dsimp only
    unfold psiRoundsInit
    rw [e1, except_bind_ok, e3, except_bind_ok]
    dsimp only
    rw [k1, except_bind_ok]
    rw [show ∀ (p : PsiLoop ℝ) (f : PsiLoop ℝ → PyM (PSIState ℝ)), ((pure p : PyM (PsiLoop ℝ)) >>= f) = f p from
      fun _ _ => rfl]
    dsimp only
    rw [psiUpdateHistory_eq mu mi data (fun x hx => (psi_all_known us is data x hx).1)
      (fun x hx => (psi_all_known us is data x hx).2), except_bind_ok]
    dsimp only
    rw [f5, f6, Mat.dot_mk, except_bind_ok]
    rfl
  obtain ⟨A1, hA1⟩ := zeroExt_exists A pu1.length_le pi1.length_le
  obtain ⟨A2, hA2⟩ := zeroExt_exists A1 pu2.length_le pi2.length_le
  have hDk : ∀ x ∈ psiD1 us is data, x.user ∈ psiU1 us is data ∧ x.item ∈ psiI1 us is data := fun x hx =>
    ⟨(mem_psiU1 ..).2 (Or.inr ⟨x, hx, rfl⟩), (mem_psiI1 ..).2 (Or.inr ⟨x, hx, rfl⟩)⟩
  have htab := zeroExt_table pu2 pi2 s3.user.nodup s3.item.nodup (psiD1 us is data) hDk
  refine ⟨_, psiU2 us is data, psiI3 us is data, A2, U3 * S3 * V3, U4 * S4 * V4, _, _, e5,
    ⟨⟨⟨mu, mi, congrArg Mat.rows f4, congrArg Mat.cols f4, congrArg Mat.rows f6, congrArg Mat.cols f6, ⟨rfl, rfl⟩, s3.ru,
      s3.ri⟩, U4, S4, V4, f4, rfl, f6, f7, rfl, f4, rfl⟩, fun U' hU' => ?_, Or.inr ⟨S4, rfl⟩⟩, pu1.trans pu2, pi1.trans pi2,
      s3.user.nodup, s3.item.nodup, psiU2_mem us is data, psiI3_mem us is data, hA1.trans hA2, rfl, rfl, fun X hX => ?_, l4,
      fun Y => ?_⟩
  · have := eq_of_heq (Mat.mk.inj (f4.symm.trans hU')).2.2
    subst this
    exact o4
  · have hx := (hA2.add htab)
    have h1 := (hx.sub hext).sqSum
    rw [← hD1, h1]
    refine (hbest A1 (by rw [hA]; exact hA1) (X.submatrix (Fin.castLE hx.1) (Fin.castLE hx.2.1)) ?_).trans (restrict_le hx X)
    exact (Matrix.rank_submatrix_le _ _ _).trans hX
  · have e : Y * (U3 * S3 * V3) = Y * (U3 * S3) * V3 := by
      simp only [Matrix.mul_assoc]
    rw [e]
    exact l3 _

/-! ### A run -/

/-- the matrices drawn for the new pairs have right inverses -/
def WideDraws (rng : Rng ℝ) (r os : ℕ) : Prop := ∀ k ≤ os, FullRows (rng (r + k) (r + os))

/-- in every chunk at most `os` different users, or at most `os` different items, occur in rows whose user and item are
both new -/
def FewNewPairs (os : ℕ) : List (Row ℝ) → List (List (Row ℝ)) → Prop
  | _, [] => True
  | seen, c :: cs =>
    (∃ l : List ℤ, l.length ≤ os ∧
      ((∀ x ∈ c, (∀ y ∈ seen, y.user ≠ x.user ∧ y.item ≠ x.item) → x.user ∈ l) ∨
        ∀ x ∈ c, (∀ y ∈ seen, y.user ≠ x.user ∧ y.item ≠ x.item) → x.item ∈ l)) ∧
      FewNewPairs os (seen ++ c) cs

theorem pdUnique_le {xs l : List ℤ} (h : ∀ x ∈ xs, x ∈ l) : (pdUnique xs).length ≤ l.length :=
  ((nodup_pdUnique xs).subperm fun x hx => h x ((mem_pdUnique ..).1 hx)).length_le

theorem sqSum_disjoint {m n : ℕ} (N O : Matrix (Fin m) (Fin n) ℝ) (h : ∀ a j, N a j = 0 ∨ O a j = 0) :
    sqSum (N + O) = sqSum N + sqSum O := by
  unfold sqSum
  rw [← Finset.sum_add_distrib]
  refine Finset.sum_congr rfl fun a _ => ?_
  rw [← Finset.sum_add_distrib]
  refine Finset.sum_congr rfl fun j _ => ?_
  rw [Matrix.add_apply]
  rcases h a j with g | g <;> rw [g] <;> ring

theorem fro_disjoint {m n : ℕ} (N O : Matrix (Fin m) (Fin n) ℝ) (h : ∀ a j, N a j = 0 ∨ O a j = 0) :
    fro N + fro O ≤ Real.sqrt 2 * fro (N + O) := by
  rw [fro_sqSum (N + O), sqSum_disjoint N O h, ← Real.sqrt_mul (by norm_num : (0 : ℝ) ≤ 2)]
  refine Real.le_sqrt_of_sq_le ?_
  have e1 : fro N ^ 2 = sqSum N := Real.sq_sqrt (sqSum_nonneg N)
  have e2 : fro O ^ 2 = sqSum O := Real.sq_sqrt (sqSum_nonneg O)
  have := sq_nonneg (fro N - fro O)
  nlinarith

theorem table_split (us is : List ℤ) (data : List (Row ℝ)) (p : ℤ → ℤ → Bool) :
    interactionMatrix us is data = interactionMatrix us is (data.filter fun x => p x.user x.item) +
      interactionMatrix us is (data.filter fun x => !p x.user x.item) ∧
    ∀ a j, interactionMatrix us is (data.filter fun x => p x.user x.item) a j = 0 ∨
      interactionMatrix us is (data.filter fun x => !p x.user x.item) a j = 0 := by
  constructor
  · ext a j
    simp only [interactionMatrix, Matrix.of_apply, Matrix.add_apply]
    induction data with
    | nil => simp
    | cons x data ih =>
      have f1 : decide (x.user = us[a] ∧ x.item = is[j]) = true ∨ decide (x.user = us[a] ∧ x.item = is[j]) = false := by
        cases decide (x.user = us[a] ∧ x.item = is[j]) <;> simp
      rcases f1 with h1 | h1 <;> cases h2 : p x.user x.item <;>
        simp only [List.filter_cons, h1, h2, if_true, if_false, Bool.not_true, Bool.not_false, Bool.false_eq_true,
          List.map_cons, List.sum_cons, ih] <;> ring
  · intro a j
    simp only [interactionMatrix, Matrix.of_apply, List.filter_filter]
    cases h : p us[a] is[j]
    · left
      rw [List.filter_eq_nil_iff.2, List.map_nil, List.sum_nil]
      intro x _ hx
      simp only [Bool.and_eq_true, decide_eq_true_eq] at hx
      rw [hx.1.1, hx.1.2, h] at hx
      exact absurd hx.2 (by decide)
    · right
      rw [List.filter_eq_nil_iff.2, List.map_nil, List.sum_nil]
      intro x _ hx
      simp only [Bool.and_eq_true, decide_eq_true_eq] at hx
      rw [hx.1.1, hx.1.2, h] at hx
      exact absurd hx.2 (by decide)

theorem ZeroExt.rank_le {m n m' n' : ℕ} {M : Matrix (Fin m) (Fin n) ℝ} {M' : Matrix (Fin m') (Fin n') ℝ}
    (h : ZeroExt M M') : M'.rank ≤ M.rank := by
  obtain ⟨Y, Z, hYZ⟩ := exists_factor_of_rank M le_rfl
  have e : M' = (Matrix.of fun (a : Fin m') k => if g : (a : ℕ) < m then Y ⟨a, g⟩ k else 0) *
      (Matrix.of fun k (j : Fin n') => if g : (j : ℕ) < n then Z k ⟨j, g⟩ else 0) := by
    ext a j
    rw [h.2.2, Matrix.mul_apply]
    simp only [Matrix.of_apply]
    by_cases g1 : (a : ℕ) < m
    · by_cases g2 : (j : ℕ) < n
      · rw [dif_pos ⟨g1, g2⟩]
        simp only [dif_pos g1, dif_pos g2]
        rw [← Matrix.mul_apply, hYZ]
      · rw [dif_neg fun q => g2 q.2]
        simp only [dif_neg g2, mul_zero, Finset.sum_const_zero]
    · rw [dif_neg fun q => g1 q.1]
      simp only [dif_neg g1, zero_mul, Finset.sum_const_zero]
  rw [e]
  exact (Matrix.rank_mul_le_right _ _).trans (Matrix.rank_le_height _)

theorem psiBlocks_run (env : PSIEnv ℝ) (hqr : QrAlways env.la)
    (hsvd : ∀ {a b : ℕ} (A : Matrix (Fin a) (Fin b) ℝ), SvdOk env.la A) (hsort : ArgSortOk env.argsort) (cfg : PSICfg)
    (hz : cfg.init = some .zero) (hint : cfg.integrator = false) {r : ℕ} (hw : WideDraws env.rng r cfg.os)
    (chunks : List (List (Row ℝ))) :
    ∀ (seen : List (Row ℝ)) (st : PSIState ℝ) (us is : List ℤ) (A : Matrix (Fin us.length) (Fin is.length) ℝ),
      PsiKept st us is r A → (∀ u, u ∈ us ↔ ∃ x ∈ seen, x.user = u) → (∀ i, i ∈ is ↔ ∃ x ∈ seen, x.item = i) →
      FewNewPairs cfg.os seen chunks →
      ∃ (st' : PSIState ℝ) (us' is' : List ℤ) (B : Matrix (Fin us'.length) (Fin is'.length) ℝ),
        chunks.foldlM (psiUpdate env cfg) st = .ok st' ∧ PsiKept st' us' is' r B ∧ us <+: us' ∧ is <+: is' ∧
        us'.Nodup ∧ is'.Nodup ∧
        (∀ u, u ∈ us' ↔ ∃ x ∈ seen ++ chunks.flatten, x.user = u) ∧
        (∀ i, i ∈ is' ↔ ∃ x ∈ seen ++ chunks.flatten, x.item = i) ∧
        fro (interactionMatrix us' is' (seen ++ chunks.flatten) - B) ≤
          fro (interactionMatrix us is seen - A) +
            Real.sqrt 2 * (chunks.map fun c => fro (interactionMatrix us' is' c)).sum := by
  induction chunks with
  | nil => exact fun seen st us is A h hu hi _ => ⟨st, us, is, A, rfl, h, List.prefix_rfl, List.prefix_rfl,
      h.holds.shape.user.nodup, h.holds.shape.item.nodup, by simpa using hu, by simpa using hi, by simp⟩
  | cons c chunks ih =>
    intro seen st us is A h hu hi hfew
    obtain ⟨⟨l, hl, hcov⟩, hfew⟩ := hfew
    have hnew : ∀ x ∈ c.filter (fun x => decide (x.user ∉ us ∧ x.item ∉ is)),
        x ∈ c ∧ ∀ y ∈ seen, y.user ≠ x.user ∧ y.item ≠ x.item := fun x hx => by
      obtain ⟨h1, h2⟩ := List.mem_filter.1 hx
      obtain ⟨h2, h3⟩ := of_decide_eq_true h2
      exact ⟨h1, fun y hy => ⟨fun e => h2 ((hu _).2 ⟨y, hy, e⟩), fun e => h3 ((hi _).2 ⟨y, hy, e⟩)⟩⟩
    obtain ⟨st1, us1, is1, A', C, B1, N, O, e1, h1, pu, pi, nu1, ni1, mu, mi, hext, hN, hO, l1, -, l3⟩ :=
      C183_update env hqr hsvd hsort cfg hz hint h c fun N hN => by
        subst hN
        refine hw _ ((min_le_iff.2 ?_).trans hl)
        rcases hcov with g | g
        · exact Or.inl (pdUnique_le fun x hx => by
            obtain ⟨y, hy, rfl⟩ := List.mem_map.1 hx
            exact g y (hnew y hy).1 (hnew y hy).2)
        · exact Or.inr (pdUnique_le fun x hx => by
            obtain ⟨y, hy, rfl⟩ := List.mem_map.1 hx
            exact g y (hnew y hy).1 (hnew y hy).2)
    have hu1 : ∀ u, u ∈ us1 ↔ ∃ x ∈ seen ++ c, x.user = u := fun u => by
      rw [mu, hu]
      simp only [List.mem_append, or_and_right, exists_or]
    have hi1 : ∀ u, u ∈ is1 ↔ ∃ x ∈ seen ++ c, x.item = u := fun u => by
      rw [mi, hi]
      simp only [List.mem_append, or_and_right, exists_or]
    obtain ⟨st', us', is', B, e', h', pu', pi', nu', ni', mu', mi', g1⟩ := ih (seen ++ c) st1 us1 is1 B1 h1 hu1 hi1 hfew
    have hc : fro (interactionMatrix us' is' c) = fro (interactionMatrix us1 is1 c) :=
      (zeroExt_table pu' pi' nu' ni' c fun x hx =>
        ⟨(hu1 _).2 ⟨x, List.mem_append_right _ hx, rfl⟩, (hi1 _).2 ⟨x, List.mem_append_right _ hx, rfl⟩⟩).fro
    have hold : fro (interactionMatrix us1 is1 seen - A') = fro (interactionMatrix us is seen - A) :=
      ((zeroExt_table pu pi nu1 ni1 seen fun x hx => ⟨(hu _).2 ⟨x, hx, rfl⟩, (hi _).2 ⟨x, hx, rfl⟩⟩).sub hext).fro
    obtain ⟨hsplit, hdis⟩ := table_split us1 is1 c fun u i => decide (u ∉ us ∧ i ∉ is)
    rw [← hN, ← hO] at hsplit hdis
    have k1 : fro (A' + N - C) ≤ fro N := by
      obtain ⟨U, S, V, -, -, -, -, hA, -⟩ := h.holds.fac
      have hr : A'.rank ≤ r := hext.rank_le.trans (by
        rw [← hA]
        exact (Matrix.rank_mul_le_right _ _).trans (Matrix.rank_le_height _))
      have := fro_le (l1 A' hr)
      rwa [add_sub_cancel_left] at this
    have k2 : fro (C + O - B1) ≤ fro O := by
      refine fro_le ?_
      have := l3 0
      rwa [Matrix.zero_mul, sub_zero] at this
    have k3 := fro_disjoint N O hdis
    rw [← hsplit] at k3
    refine ⟨st', us', is', B, ?_, h', pu.trans pu', pi.trans pi', nu', ni', fun u => ?_, fun i => ?_, ?_⟩
    · rw [List.foldlM_cons, e1, except_bind_ok, e']
    · rw [mu', List.flatten_cons, List.append_assoc]
    · rw [mi', List.flatten_cons, List.append_assoc]
    · rw [List.flatten_cons, ← List.append_assoc, List.map_cons, List.sum_cons, hc]
      refine g1.trans ?_
      have e2 : interactionMatrix us1 is1 (seen ++ c) - B1 =
          (interactionMatrix us1 is1 seen - A') + ((A' + N - C) + (C + O - B1)) := by
        rw [interactionMatrix_append, hsplit]
        abel
      have q1 := fro_add_le (interactionMatrix us1 is1 seen - A') ((A' + N - C) + (C + O - B1))
      have q2 := fro_add_le (A' + N - C) (C + O - B1)
      rw [← e2, hold] at q1
      linarith

/-- **C183, a run.** The default scheme with zero embeddings: if no chunk has more than `os` different users, or more than
`os` different items, in rows whose user and item are both new, and the matrices drawn have right inverses, then training
and updates succeed. The known users and items are exactly those of the rows seen. The distance of the scores to the table of
all rows is at most the distance of the training table to any matrix of the rank plus `√2` times the norms of the chunks. -/
theorem C183_run (env : PSIEnv ℝ) (hqr : QrAlways env.la)
    (hsvd : ∀ {a b : ℕ} (A : Matrix (Fin a) (Fin b) ℝ), SvdOk env.la A) (hsort : ArgSortOk env.argsort) (cfg : PSICfg)
    (hz : cfg.init = some .zero) (hint : cfg.integrator = false) (train : List (Row ℝ)) (us is : List ℤ)
    (hu : FirstAppearance (train.map Row.user) us) (hi : FirstAppearance (train.map Row.item) is)
    (hr : 1 ≤ cfg.rank ∧ cfg.rank < us.length ∧ cfg.rank < is.length)
    (hsvds : SvdsOk env.la cfg.rank (interactionMatrix us is train)) (chunks : List (List (Row ℝ)))
    (hfew : FewNewPairs cfg.os train chunks) (hw : WideDraws env.rng cfg.rank cfg.os) :
    ∃ (st : PSIState ℝ) (us' is' : List ℤ) (B : Matrix (Fin us'.length) (Fin is'.length) ℝ),
      psiRun env cfg train chunks = .ok st ∧ us <+: us' ∧ is <+: is' ∧ us'.Nodup ∧ is'.Nodup ∧
      (∀ u, u ∈ us' ↔ ∃ x ∈ train ++ chunks.flatten, x.user = u) ∧
      (∀ i, i ∈ is' ↔ ∃ x ∈ train ++ chunks.flatten, x.item = i) ∧
      Represents st.maps.user us' ∧ Represents st.maps.item is' ∧
      (∀ a : Fin us'.length, psiScore st ((a : ℕ) : ℤ) = .ok (List.ofFn fun j => B a j)) ∧
      ∀ X : Matrix (Fin us.length) (Fin is.length) ℝ, X.rank ≤ cfg.rank →
        fro (interactionMatrix us' is' (train ++ chunks.flatten) - B) ≤
          fro (interactionMatrix us is train - X) +
            Real.sqrt 2 * (chunks.map fun c => fro (interactionMatrix us' is' c)).sum := by
  obtain ⟨us0, is0, hu', hi', ⟨st, e, hinv, -⟩ | ⟨-, hbad⟩⟩ := C31_train env cfg train
  · obtain rfl := hu.unique hu'
    obtain rfl := hi.unique hi'
    obtain ⟨U, s, V, ht, e1, e2, e3, e4, e5⟩ := C98_train env cfg train st us is hu hi hsvds e
    obtain ⟨hUU, hV, hUA⟩ := truncated_orth ht
    have hs : ∀ i, 0 ≤ s i := by
      obtain ⟨U', s', V', h, -, -, -, g1, -, -, g2, -⟩ := ht
      exact fun i => (g2 i) ▸ g1 _
    have h0 : PsiKept st us is cfg.rank (U * diagonal s * V) := by
      refine ⟨⟨hinv.shape, U, diagonal s, V, e1, by rw [e2]; rfl, e3, hV, rfl, e4, e5⟩, fun U' hU' => ?_,
        Or.inl ⟨s, e2, hs⟩⟩
      have := eq_of_heq (Mat.mk.inj (e1.symm.trans hU')).2.2
      subst this
      exact hUU
    have hmu : ∀ u, u ∈ us ↔ ∃ x ∈ train, x.user = u := fun u => by rw [hu.mem, List.mem_map]
    have hmi : ∀ u, u ∈ is ↔ ∃ x ∈ train, x.item = u := fun u => by rw [hi.mem, List.mem_map]
    obtain ⟨st', us', is', B, e', h', pu, pi, nu, ni, mu, mi, g1⟩ :=
      psiBlocks_run env hqr hsvd hsort cfg hz hint hw chunks train st us is _ h0 hmu hmi hfew
    refine ⟨st', us', is', B, ?_, pu, pi, nu, ni, mu, mi, h'.holds.shape.user, h'.holds.shape.item, h'.holds.scores,
      fun X hX => ?_⟩
    · unfold psiRun
      rw [e, except_bind_ok, e']
    · obtain ⟨Y, Z, rfl⟩ := exists_factor_of_rank X hX
      have := fro_le (best_approximation _ U s V ht Y Z)
      linarith
  · obtain rfl := hu.unique hu'
    obtain rfl := hi.unique hi'
    exact absurd ⟨hr.1, by omega⟩ hbad

open MeasureTheory in
/-- with standard normal entries the matrices have right inverses almost surely -/
theorem wideDraws_ae {Ω : Type} [MeasurableSpace Ω] (P : Measure Ω) (rng : Ω → Rng ℝ) (h : NormalDraws P rng) (r os : ℕ) :
    ∀ᵐ w ∂P, WideDraws (rng w) r os := by
  unfold WideDraws
  rw [ae_all_iff]
  intro k
  rw [ae_all_iff]
  intro hk
  refine h.ae ?_
  filter_upwards [randn_fullRows (1 : Matrix (Fin (r + k)) (Fin (r + k)) ℝ) ⟨1, Matrix.one_mul _⟩
    (Nat.add_le_add_left hk r)] with w hw
  rwa [Matrix.one_mul] at hw

open MeasureTheory in
/-- **C183, almost surely.** With standard normal draws the run succeeds and the bound holds almost surely, whatever the
training data and the chunks with few new pairs are. -/
theorem C183_almost_surely {Ω : Type} [MeasurableSpace Ω] (P : Measure Ω) (rng : Ω → Rng ℝ) (h : NormalDraws P rng)
    (env : PSIEnv ℝ) (hqr : QrAlways env.la)
    (hsvd : ∀ {a b : ℕ} (A : Matrix (Fin a) (Fin b) ℝ), SvdOk env.la A)
    (hsvds : ∀ {a b : ℕ} (k : ℕ) (A : Matrix (Fin a) (Fin b) ℝ), k ≤ min a b → SvdsOk env.la k A)
    (hsort : ArgSortOk env.argsort) (cfg : PSICfg) (hz : cfg.init = some .zero) (hint : cfg.integrator = false) :
    ∀ᵐ w ∂P, ∀ (train : List (Row ℝ)) (us is : List ℤ),
      FirstAppearance (train.map Row.user) us → FirstAppearance (train.map Row.item) is →
      1 ≤ cfg.rank ∧ cfg.rank < us.length ∧ cfg.rank < is.length →
      ∀ chunks : List (List (Row ℝ)), FewNewPairs cfg.os train chunks →
      ∃ (st : PSIState ℝ) (us' is' : List ℤ) (B : Matrix (Fin us'.length) (Fin is'.length) ℝ),
        psiRun { env with rng := rng w } cfg train chunks = .ok st ∧
        Represents st.maps.user us' ∧ Represents st.maps.item is' ∧
        (∀ a : Fin us'.length, psiScore st ((a : ℕ) : ℤ) = .ok (List.ofFn fun j => B a j)) ∧
        ∀ X : Matrix (Fin us.length) (Fin is.length) ℝ, X.rank ≤ cfg.rank →
          fro (interactionMatrix us' is' (train ++ chunks.flatten) - B) ≤
            fro (interactionMatrix us is train - X) +
              Real.sqrt 2 * (chunks.map fun c => fro (interactionMatrix us' is' c)).sum := by
  filter_upwards [wideDraws_ae P rng h cfg.rank cfg.os] with w hw train us is hu hi hr chunks hfew
  obtain ⟨st, us', is', B, h1, -, -, -, -, -, -, h2, h3, h4, h5⟩ := C183_run { env with rng := rng w } hqr hsvd hsort cfg hz
    hint train us is hu hi hr (hsvds _ _ (by omega)) chunks hfew hw
  exact ⟨st, us', is', B, h1, h2, h3, h4, h5⟩

/-! ### Examples -/

-- one new user takes one new item, another row is for a known user; then a third new user comes with a known item
example : FewNewPairs 1 (exTieRows 2)
    [[⟨9, 42, 3, 2, 1⟩, ⟨7, 41, 1, 2, 1⟩], [⟨10, 42, 1, 3, 1⟩]] := by
  refine ⟨⟨[9], le_rfl, Or.inl fun x hx hn => ?_⟩, ⟨[], by simp, Or.inl fun x hx hn => ?_⟩, trivial⟩
  · rcases List.mem_cons.1 hx with rfl | hx
    · simp
    · obtain rfl := List.mem_singleton.1 hx
      exact absurd rfl (hn ⟨7, 40, 2, 0, 0⟩ (by simp [exTieRows])).1
  · obtain rfl := List.mem_singleton.1 hx
    exact absurd rfl (hn ⟨9, 42, 3, 2, 1⟩ (by simp)).2

-- two new users with two new items exceed an oversampling of one
example : ¬ FewNewPairs 1 (exTieRows 2) [[⟨9, 42, 3, 2, 1⟩, ⟨10, 43, 1, 2, 1⟩]] := by
  rintro ⟨⟨l, hl, h⟩, -⟩
  have two : ∀ a b : ℤ, a ≠ b → a ∈ l → b ∈ l → False := fun a b hab ha hb => by
    match l, hl, ha, hb with
    | [c], _, ha, hb => exact hab ((List.mem_singleton.1 ha).trans (List.mem_singleton.1 hb).symm)
  have h1 : ∀ y ∈ exTieRows 2, y.user ≠ 9 ∧ y.item ≠ 42 := by simp [exTieRows]
  have h2 : ∀ y ∈ exTieRows 2, y.user ≠ 10 ∧ y.item ≠ 43 := by simp [exTieRows]
  rcases h with h | h
  · exact two 9 10 (by decide) (h ⟨9, 42, 3, 2, 1⟩ (by simp) h1) (h ⟨10, 43, 1, 2, 1⟩ (by simp) h2)
  · exact two 42 43 (by decide) (h ⟨9, 42, 3, 2, 1⟩ (by simp) h1) (h ⟨10, 43, 1, 2, 1⟩ (by simp) h2)

-- identity matrices in place of the draws
example : WideDraws eyeRng 1 1 := fun k hk => eyeRng_fullRows _ _ (by omega)

-- the new user 9 takes the new item 42: both become known, and the error is at most that of the training, 1, plus `√2`
-- times the norm of the chunk
example : ∃ (env : PSIEnv ℝ) (st : PSIState ℝ) (us' is' : List ℤ) (B : Matrix (Fin us'.length) (Fin is'.length) ℝ),
      psiRun env ⟨1, 0, 1, some .zero, false⟩ (exTieRows 2) [[⟨9, 42, 3, 2, 1⟩]] = .ok st ∧
      9 ∈ us' ∧ 42 ∈ is' ∧
      (∀ a : Fin us'.length, psiScore st ((a : ℕ) : ℤ) = .ok (List.ofFn fun j => B a j)) ∧
      fro (interactionMatrix us' is' (exTieRows 2 ++ [⟨9, 42, 3, 2, 1⟩]) - B) ≤
        1 + Real.sqrt 2 * fro (interactionMatrix us' is' [(⟨9, 42, 3, 2, 1⟩ : Row ℝ)]) := by
  obtain ⟨sort, hsort⟩ := argSortOk_exists (K := ℝ)
  have hu : FirstAppearance ((exTieRows 2).map Row.user) [7, 8] := firstAppearance_pdUnique [7, 8]
  have hi : FirstAppearance ((exTieRows 2).map Row.item) [40, 41] := firstAppearance_pdUnique [40, 41]
  have hT : interactionMatrix [7, 8] [40, 41] (exTieRows 2) = (!![2, 0; 0, 1] : Matrix (Fin 2) (Fin 2) ℝ) := by
    ext i j
    fin_cases i <;> fin_cases j <;> simp [interactionMatrix, exTieRows]
  obtain ⟨st, us', is', B, h1, -, -, -, -, mu, mi, -, -, hs, h3⟩ := C183_run ⟨realLA, eyeRng, sort, eyeRng⟩ qrAlways_real
    (fun A => realLA_svd A) hsort ⟨1, 0, 1, some .zero, false⟩ rfl rfl (exTieRows 2) [7, 8] [40, 41] hu hi (by decide)
    (realLA_svds (by decide) _) [[⟨9, 42, 3, 2, 1⟩]]
    ⟨⟨[9], le_rfl, Or.inl fun x hx _ => by rw [List.mem_singleton.1 hx]; simp⟩, trivial⟩
    (fun k hk => eyeRng_fullRows _ _ (by dsimp only at hk ⊢; omega))
  refine ⟨_, st, us', is', B, h1, (mu 9).2 ⟨⟨9, 42, 3, 2, 1⟩, by simp, rfl⟩,
    (mi 42).2 ⟨⟨9, 42, 3, 2, 1⟩, by simp, rfl⟩, hs, ?_⟩
  have h4 := h3 (!![2, 0; 0, 0] : Matrix (Fin 2) (Fin 2) ℝ) (by
    have e : (!![2, 0; 0, 0] : Matrix (Fin 2) (Fin 2) ℝ) =
        (!![2; 0] : Matrix (Fin 2) (Fin 1) ℝ) * (!![1, 0] : Matrix (Fin 1) (Fin 2) ℝ) := by
      ext i j
      fin_cases i <;> fin_cases j <;> simp [Matrix.mul_apply]
    rw [e]
    exact (Matrix.rank_mul_le_right _ _).trans (Matrix.rank_le_height _))
  rw [hT] at h4
  have e2 : fro ((!![2, 0; 0, 1] : Matrix (Fin 2) (Fin 2) ℝ) - !![2, 0; 0, 0]) = 1 := by
    simp [fro, Fin.sum_univ_two]
  have e4 : ∀ x : ℝ, fro ((!![2, 0; 0, 1] : Matrix (Fin 2) (Fin 2) ℝ) - !![2, 0; 0, 0]) + Real.sqrt 2 * (x + 0) =
      1 + Real.sqrt 2 * x := by
    intro x
    rw [e2, add_zero]
  exact h4.trans_eq (e4 _)

end DynCF
