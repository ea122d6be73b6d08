/-
C169: how far the predictions of `PSI` are from the table after any number of updates.
-/
import Verif.Props.PsiBackend
import Verif.Props.RandomSvdBest
import Mathlib.Analysis.InnerProductSpace.PiL2

namespace DynCF
open Matrix

/-! ### Specification -/

/-- the Frobenius norm -/
noncomputable def fro {m n : ℕ} (A : Matrix (Fin m) (Fin n) ℝ) : ℝ := Real.sqrt (∑ i, ∑ j, A i j ^ 2)

/-- `B` is the orthogonal projection of the columns of `T` to a space of dimension at most `r` that contains the columns of
`T Aᵀ` -/
def ProjectsTo {m n : ℕ} (r : ℕ) (A T B : Matrix (Fin m) (Fin n) ℝ) : Prop :=
  ∃ P : Matrix (Fin m) (Fin m) ℝ, P.transpose = P ∧ P * P = P ∧ P.rank ≤ r ∧
    P * (T * A.transpose) = T * A.transpose ∧ B = P * T

/-! ### Lemmas -/

theorem fro_sqSum {m n : ℕ} (A : Matrix (Fin m) (Fin n) ℝ) : fro A = Real.sqrt (sqSum A) := rfl

theorem fro_nonneg {m n : ℕ} (A : Matrix (Fin m) (Fin n) ℝ) : 0 ≤ fro A := Real.sqrt_nonneg _

theorem fro_le {m n m' n' : ℕ} {A : Matrix (Fin m) (Fin n) ℝ} {B : Matrix (Fin m') (Fin n') ℝ}
    (h : sqSum A ≤ sqSum B) : fro A ≤ fro B := Real.sqrt_le_sqrt h

theorem fro_eq_norm {m n : ℕ} (A : Matrix (Fin m) (Fin n) ℝ) :
    fro A = ‖(WithLp.toLp 2 fun p : Fin m × Fin n => A p.1 p.2 : EuclideanSpace ℝ (Fin m × Fin n))‖ := by
  rw [EuclideanSpace.norm_eq, fro]
  congr 1
  rw [Fintype.sum_prod_type]
  simp

/-- the triangle inequality -/
theorem fro_add_le {m n : ℕ} (A B : Matrix (Fin m) (Fin n) ℝ) : fro (A + B) ≤ fro A + fro B := by
  rw [fro_eq_norm, fro_eq_norm, fro_eq_norm]
  exact norm_add_le (WithLp.toLp 2 fun p : Fin m × Fin n => A p.1 p.2 : EuclideanSpace ℝ (Fin m × Fin n))
    (WithLp.toLp 2 fun p : Fin m × Fin n => B p.1 p.2)

theorem fro_neg {m n : ℕ} (A : Matrix (Fin m) (Fin n) ℝ) : fro (-A) = fro A := by
  unfold fro
  simp

theorem fro_sub_comm {m n : ℕ} (A B : Matrix (Fin m) (Fin n) ℝ) : fro (A - B) = fro (B - A) := by
  rw [← fro_neg, neg_sub]

theorem fro_flatten (us is : List ℤ) (l : List (List (Row ℝ))) :
    fro (interactionMatrix us is l.flatten) ≤ (l.map fun c => fro (interactionMatrix us is c)).sum := by
  induction l with
  | nil =>
    have h0 : interactionMatrix us is ([] : List (Row ℝ)) = 0 := by ext i j; simp [interactionMatrix]
    simp [h0, fro]
  | cons c l ih =>
    rw [List.flatten_cons, interactionMatrix_append, List.map_cons, List.sum_cons]
    have := fro_add_le (interactionMatrix us is c) (interactionMatrix us is l.flatten)
    linarith

/-- what one step of `psi_step` loses -/
theorem psiStep_loss (la : LinAlg ℝ) (hqr : QrAlways la) {m n r : ℕ} (U : Matrix (Fin m) (Fin r) ℝ) (s : SArg ℝ)
    (S : Matrix (Fin r) (Fin r) ℝ) (hs : s.toMat = ⟨r, r, S⟩) (V : Matrix (Fin r) (Fin n) ℝ)
    (hV : V * V.transpose = 1) (D : Matrix (Fin m) (Fin n) ℝ) (hm : r ≤ m) (hn : r ≤ n) :
    ∃ (U1 : Matrix (Fin m) (Fin r) ℝ) (S1 : Matrix (Fin r) (Fin r) ℝ) (V1 : Matrix (Fin r) (Fin n) ℝ),
      psiStep la ⟨m, r, U⟩ s ⟨r, n, V⟩ ⟨m, n, D⟩ = .ok (⟨m, r, U1⟩, ⟨r, r, S1⟩, ⟨r, n, V1⟩) ∧
      V1 * V1.transpose = 1 ∧
      sqSum (U * S * V + D - U1 * S1 * V1) = sqSum (U * S * V + D) - sqSum (U1 * S1 * V1) ∧
      (∀ W : Matrix (Fin r) (Fin n) ℝ,
        sqSum (U * S * V + D - U1 * S1 * V1) ≤ sqSum (U * S * V + D - (U * S * V + D) * V.transpose * W)) ∧
      (∀ Z : Matrix (Fin m) (Fin r) ℝ, sqSum (U * S * V + D - U1 * S1 * V1) ≤ sqSum (D - Z * V)) ∧
      ProjectsTo r (U * S * V) (U * S * V + D) (U1 * S1 * V1) := by
  obtain ⟨k, l, U1, S1, V1, R, e1, e2, eR⟩ := C40_identity la hqr U s S hs V D
  obtain ⟨k', l', U1', S1', V1', e3, o1, o2, hk, hl, -⟩ := C41_orthonormal la hqr U s S hs V D
  have hk : k' = r := by omega
  have hl : l' = r := by omega
  subst hk
  subst hl
  rw [e3] at e1
  have e1 := Except.ok.inj e1
  simp only [Prod.mk.injEq] at e1
  obtain ⟨g1, g2, g3⟩ := e1
  have gk : l' = k := congrArg Mat.cols g1
  have gl : l' = l := congrArg Mat.rows g3
  subst gk
  subst gl
  have g1 := (Mat.mk.inj g1).2.2
  have g2 := (Mat.mk.inj g2).2.2
  have g3 := (Mat.mk.inj g3).2.2
  rw [heq_eq_eq] at g1 g2 g3
  subst g1 g2 g3
  refine ⟨_, _, _, e3, o2, ?_⟩
  generalize hA : U * S * V = A at *
  have hAV : (A + D) * V.transpose = U1' * R := by
    rw [eR, Matrix.add_mul, ← hA, Matrix.mul_assoc _ V, hV, Matrix.mul_one]
  have hAp : A * (V.transpose * V) = A := by
    rw [← hA, Matrix.mul_assoc (U * S), ← Matrix.mul_assoc V, hV, Matrix.one_mul]
  have hP : (1 - U1' * U1'.transpose) * U1' = 0 := by
    rw [Matrix.sub_mul, Matrix.one_mul, Matrix.mul_assoc, o1, Matrix.mul_one, sub_self]
  have hloss : (1 - U1' * U1'.transpose) * D * (1 - V.transpose * V) = (1 - U1' * U1'.transpose) * (A + D) := by
    have h1 : (1 - U1' * U1'.transpose) * (A + D) * (V.transpose * V) = 0 := by
      rw [Matrix.mul_assoc, ← Matrix.mul_assoc (A + D), hAV, ← Matrix.mul_assoc, ← Matrix.mul_assoc, hP,
        Matrix.zero_mul, Matrix.zero_mul]
    have h2 : (1 - U1' * U1'.transpose) * A * (1 - V.transpose * V) = 0 := by
      rw [Matrix.mul_assoc, Matrix.mul_sub, hAp, Matrix.mul_one, sub_self, Matrix.mul_zero]
    calc (1 - U1' * U1'.transpose) * D * (1 - V.transpose * V)
        = (1 - U1' * U1'.transpose) * A * (1 - V.transpose * V) +
            (1 - U1' * U1'.transpose) * D * (1 - V.transpose * V) := by rw [h2, zero_add]
      _ = (1 - U1' * U1'.transpose) * (A + D) * (1 - V.transpose * V) := by
          rw [Matrix.mul_add, Matrix.add_mul]
      _ = _ := by rw [Matrix.mul_sub, h1, sub_zero, Matrix.mul_one]
  have hB : U1' * S1' * V1' = U1' * (U1'.transpose * (A + D)) := by
    rw [e2, hloss, Matrix.sub_mul, Matrix.one_mul, Matrix.mul_assoc]
    abel
  have h0 : sqSum (0 : Matrix (Fin l') (Fin n) ℝ) = 0 := by simp [sqSum]
  have hpr : ∀ C : Matrix (Fin l') (Fin n) ℝ,
      sqSum (A + D - U1' * S1' * V1') ≤ sqSum (A + D - U1' * C) := fun C => by
    rw [hB, sqSum_proj o1, sqSum_proj o1, sub_self, h0]
    have := sqSum_nonneg (U1'.transpose * (A + D) - C)
    linarith
  refine ⟨?_, fun W => ?_, fun Z => ?_, U1' * U1'.transpose, ?_, ?_, ?_, ?_, ?_⟩
  · rw [hB, sqSum_proj o1, sub_self, h0, sqSum_orth o1, add_zero]
  · rw [hAV, Matrix.mul_assoc U1' R W]
    exact hpr (R * W)
  · have e4 : A + D - U1' * S1' * V1' = (1 - U1' * U1'.transpose) * ((D - Z * V) * (1 - V.transpose * V)) := by
      have h1 : (D - Z * V) * (1 - V.transpose * V) = D * (1 - V.transpose * V) := by
        rw [Matrix.sub_mul, Matrix.mul_assoc Z, Matrix.mul_sub V, ← Matrix.mul_assoc V, hV, Matrix.mul_one,
          Matrix.one_mul, sub_self, Matrix.mul_zero, sub_zero]
      rw [h1, e2, ← Matrix.mul_assoc]
      abel
    have e5 : ∀ {a b : ℕ} (Q : Matrix (Fin a) (Fin l') ℝ) (hQ : Q.transpose * Q = 1) (M : Matrix (Fin a) (Fin b) ℝ),
        sqSum ((1 - Q * Q.transpose) * M) ≤ sqSum M := fun {a b} Q hQ M => by
      have h2 : (1 - Q * Q.transpose) * M = M - Q * (Q.transpose * M) := by
        rw [Matrix.sub_mul, Matrix.one_mul, Matrix.mul_assoc]
      have h0 : sqSum (0 : Matrix (Fin l') (Fin b) ℝ) = 0 := by simp [sqSum]
      rw [h2, sqSum_proj hQ, sub_self, h0]
      have := sqSum_nonneg (Q.transpose * M)
      linarith
    rw [e4]
    refine (e5 U1' o1 _).trans ?_
    rw [← sqSum_transpose, Matrix.transpose_mul, Matrix.transpose_sub, Matrix.transpose_mul, Matrix.transpose_transpose,
      Matrix.transpose_one, ← sqSum_transpose (D - Z * V)]
    have h6 := e5 V.transpose (by rw [Matrix.transpose_transpose, hV]) (D - Z * V).transpose
    rwa [Matrix.transpose_transpose] at h6
  · rw [Matrix.transpose_mul, Matrix.transpose_transpose]
  · rw [Matrix.mul_assoc, ← Matrix.mul_assoc U1'.transpose, o1, Matrix.one_mul]
  · exact (Matrix.rank_mul_le_right _ _).trans (Matrix.rank_le_height _)
  · have e7 : (A + D) * A.transpose = U1' * (R * (U * S).transpose) := by
      rw [← Matrix.mul_assoc, ← hAV, Matrix.mul_assoc, ← Matrix.transpose_mul, hA]
    rw [e7, Matrix.mul_assoc, ← Matrix.mul_assoc U1'.transpose, o1, Matrix.one_mul]
  · rw [hB, Matrix.mul_assoc]

/-- the last round of `update` when all users and items of the data are known -/
theorem psiOld_loss (env : PSIEnv ℝ) (hqr : QrAlways env.la) (cfg : PSICfg) {st : PSIState ℝ} {us is : List ℤ} {r : ℕ}
    (h : PsiShape st us is r) {U : Matrix (Fin us.length) (Fin r) ℝ} {S : Matrix (Fin r) (Fin r) ℝ}
    {V : Matrix (Fin r) (Fin is.length) ℝ} (eu : st.u = ⟨_, _, U⟩) (es : st.s.toMat = ⟨_, _, S⟩)
    (ev : st.vt = ⟨_, _, V⟩) (hV : V * V.transpose = 1) (data : List (Row ℝ))
    (hd : ∀ x ∈ data, x.user ∈ us ∧ x.item ∈ is) :
    ∃ st1, updateFactorsByMode env cfg st data .old = .ok st1 ∧ st1.maps = st.maps ∧
      ∃ (U1 : Matrix (Fin us.length) (Fin r) ℝ) (S1 : Matrix (Fin r) (Fin r) ℝ)
        (V1 : Matrix (Fin r) (Fin is.length) ℝ), st1.u = ⟨_, _, U1⟩ ∧ st1.s.toMat = ⟨_, _, S1⟩ ∧
        st1.vt = ⟨_, _, V1⟩ ∧ V1 * V1.transpose = 1 ∧
      sqSum (U * S * V + interactionMatrix us is data - U1 * S1 * V1) =
        sqSum (U * S * V + interactionMatrix us is data) - sqSum (U1 * S1 * V1) ∧
      (∀ W : Matrix (Fin r) (Fin is.length) ℝ, sqSum (U * S * V + interactionMatrix us is data - U1 * S1 * V1) ≤
        sqSum (U * S * V + interactionMatrix us is data -
          (U * S * V + interactionMatrix us is data) * V.transpose * W)) ∧
      (∀ Z : Matrix (Fin us.length) (Fin r) ℝ,
        sqSum (U * S * V + interactionMatrix us is data - U1 * S1 * V1) ≤ sqSum (interactionMatrix us is data - Z * V)) ∧
      ProjectsTo r (U * S * V) (U * S * V + interactionMatrix us is data) (U1 * S1 * V1) := by
  unfold updateFactorsByMode
  split
  · have hp : processData st data .old = .ok (⟨_, _, interactionMatrix us is data⟩, st) := by
      unfold processData
      dsimp only
      rw [h.uRows, h.vCols, mappedEntries_eq data Row.user Row.item h.user.idxMap
        h.item.idxMap (fun x hx => (hd x hx).1) (fun x hx => (hd x hx).2)]
      rfl
    obtain ⟨U1, S1, V1, e, hV1, h1, h2, h3, h4⟩ := psiStep_loss env.la hqr U st.s S es V hV (interactionMatrix us is data)
      h.ru h.ri
    rw [hp, except_bind_ok]
    dsimp only
    unfold psiUpdater
    dsimp only
    rw [eu, ev, e, except_bind_ok]
    exact ⟨_, rfl, rfl, U1, S1, V1, rfl, rfl, rfl, hV1, h1, h2, h3, h4⟩
  · have : data = [] := by simpa using ‹¬ data.length > 0›
    subst this
    have h0 : interactionMatrix us is ([] : List (Row ℝ)) = 0 := by ext i j; simp [interactionMatrix]
    have h1 : sqSum (0 : Matrix (Fin us.length) (Fin is.length) ℝ) = 0 := by simp [sqSum]
    refine ⟨st, rfl, rfl, U, S, V, eu, es, ev, hV, ?_, fun W => ?_, fun Z => ?_, ?_⟩
    · rw [h0, add_zero, sub_self, sub_self, h1]
    · rw [h0, add_zero, sub_self, h1]
      exact sqSum_nonneg _
    · rw [h0, add_zero, sub_self, h1]
      exact sqSum_nonneg _
    · obtain ⟨q1, q2⟩ := hqr (U * S)
      rw [h0, add_zero]
      generalize (env.la.qr (U * S)).1 = Q at *
      generalize (env.la.qr (U * S)).2 = R at *
      have e : ∀ {k : ℕ} (M : Matrix (Fin r) (Fin k) ℝ), Q * Q.transpose *
          (U * S * M) = U * S * M := fun M => by
        rw [← q1]
        simp only [Matrix.mul_assoc]
        rw [← Matrix.mul_assoc Q.transpose, q2, Matrix.one_mul]
      refine ⟨Q * Q.transpose, ?_, ?_, ?_, ?_, ?_⟩
      · rw [Matrix.transpose_mul, Matrix.transpose_transpose]
      · rw [Matrix.mul_assoc, ← Matrix.mul_assoc Q.transpose, q2, Matrix.one_mul]
      · exact (Matrix.rank_mul_le_right _ _).trans ((Matrix.rank_le_height _).trans (min_le_right _ _))
      · rw [Matrix.mul_assoc (U * S), e]
      · rw [e]

/-! ### Known users and items -/

/-- **C169, one update.** A model that predicts `A` is updated with a chunk of known users and items, with interaction
matrix `D`. The update succeeds without any condition, and for the predictions `B` after it: the part of `A + D` that is
lost is orthogonal to `B`; no matrix with columns in the span of `(A + D) Aᵀ` is closer to `A + D`; and the loss is at
most the distance of `D` to any matrix with rows in the span of the rows of `A`, so at most `D` itself. `B` is the
projection of `A + D` to a space of dimension at most the rank that contains the columns of `(A + D) Aᵀ`. -/
theorem C169_update (env : PSIEnv ℝ) (hqr : QrAlways env.la) (cfg : PSICfg)
    (hcfg : cfg.init = none → cfg.integrator = false) {st : PSIState ℝ} {us is : List ℤ} {r : ℕ}
    {A : Matrix (Fin us.length) (Fin is.length) ℝ} (h : PsiHolds st us is r A) (data : List (Row ℝ))
    (hd : ∀ x ∈ data, x.user ∈ us ∧ x.item ∈ is) :
    ∃ st' B, psiUpdate env cfg st data = .ok st' ∧ PsiHolds st' us is r B ∧
      sqSum (A + interactionMatrix us is data - B) = sqSum (A + interactionMatrix us is data) - sqSum B ∧
      (∀ W : Matrix (Fin us.length) (Fin is.length) ℝ, sqSum (A + interactionMatrix us is data - B) ≤
        sqSum (A + interactionMatrix us is data - (A + interactionMatrix us is data) * A.transpose * W)) ∧
      (∀ Y : Matrix (Fin us.length) (Fin us.length) ℝ, sqSum (A + interactionMatrix us is data - B) ≤
        sqSum (interactionMatrix us is data - Y * A)) ∧
      ProjectsTo r A (A + interactionMatrix us is data) B := by
  obtain ⟨U, S, V, eu, es, ev, hV, hA, -, -⟩ := h.fac
  obtain ⟨st1, k1, km, U1, S1, V1, f1, f2, f3, f4, l1, l2, l3, l4⟩ := psiOld_loss env hqr cfg h.shape eu es ev hV data hd
  rw [hA] at l1 l2 l3 l4
  have hr := psiRounds_known env cfg hcfg h.shape data hd
  rw [k1] at hr
  unfold psiUpdate
  cases hl : psiRounds env cfg st data with
  | error e => rw [hl] at hr; cases hr
  | ok l =>
    rw [hl] at hr
    have hr : l.st = st1 := Except.ok.inj hr
    rw [except_bind_ok, hr, psiUpdateHistory_eq (us := us) (is := is) (km ▸ h.shape.user) (km ▸ h.shape.item) data
      (fun x hx => (hd x hx).1) (fun x hx => (hd x hx).2), except_bind_ok]
    dsimp only
    rw [f2, f3, Mat.dot_mk, except_bind_ok]
    refine ⟨_, U1 * S1 * V1, rfl, ⟨⟨km ▸ h.shape.user, km ▸ h.shape.item, ?_, ?_, ?_, ?_, ⟨rfl, rfl⟩, h.shape.ru,
      h.shape.ri⟩, U1, S1, V1, f1, rfl, rfl, f4, rfl, f1, rfl⟩, l1, fun W => ?_, fun Y => ?_, l4⟩
    · exact congrArg Mat.rows f1
    · exact congrArg Mat.cols f1
    · rfl
    · rfl
    · have e : (A + interactionMatrix us is data) * A.transpose * W =
          (A + interactionMatrix us is data) * V.transpose * ((U * S).transpose * W) := by
        rw [← hA, Matrix.transpose_mul]
        simp only [Matrix.mul_assoc]
      rw [e]
      exact l2 _
    · have e : Y * A = Y * (U * S) * V := by
        rw [← hA]
        simp only [Matrix.mul_assoc]
      rw [e]
      exact l3 _

theorem psiError_run (env : PSIEnv ℝ) (hqr : QrAlways env.la) (cfg : PSICfg)
    (hcfg : cfg.init = none → cfg.integrator = false) {us is : List ℤ} {r : ℕ} (chunks : List (List (Row ℝ))) :
    ∀ (seen : List (Row ℝ)) (st : PSIState ℝ) (A : Matrix (Fin us.length) (Fin is.length) ℝ), PsiHolds st us is r A →
      (∀ c ∈ chunks, ∀ x ∈ c, x.user ∈ us ∧ x.item ∈ is) →
      ∃ st' B, chunks.foldlM (psiUpdate env cfg) st = .ok st' ∧ PsiHolds st' us is r B ∧
        fro (interactionMatrix us is (seen ++ chunks.flatten) - B) ≤
          fro (interactionMatrix us is seen - A) + (chunks.map fun c => fro (interactionMatrix us is c)).sum ∧
        fro B ≤ fro A + (chunks.map fun c => fro (interactionMatrix us is c)).sum := by
  induction chunks with
  | nil => exact fun seen st A h _ => ⟨st, A, rfl, h, by simp, by simp⟩
  | cons c chunks ih =>
    intro seen st A h hd
    obtain ⟨st1, B1, e1, h1, l1, -, l3, -⟩ := C169_update env hqr cfg hcfg h c (hd c (by simp))
    obtain ⟨st', B, e', h', g1, g2⟩ := ih (seen ++ c) st1 B1 h1 (fun c' hc' => hd c' (List.mem_cons_of_mem _ hc'))
    have hloss : fro (A + interactionMatrix us is c - B1) ≤ fro (interactionMatrix us is c) := by
      refine fro_le ?_
      have := l3 0
      rwa [Matrix.zero_mul, sub_zero] at this
    refine ⟨st', B, ?_, h', ?_, ?_⟩
    · rw [List.foldlM_cons, e1, except_bind_ok, e']
    · rw [List.flatten_cons, ← List.append_assoc, List.map_cons, List.sum_cons]
      refine g1.trans ?_
      have e2 : interactionMatrix us is (seen ++ c) - B1 =
          (interactionMatrix us is seen - A) + (A + interactionMatrix us is c - B1) := by
        rw [interactionMatrix_append]
        abel
      have := fro_add_le (interactionMatrix us is seen - A) (A + interactionMatrix us is c - B1)
      rw [← e2] at this
      linarith
    · rw [List.map_cons, List.sum_cons]
      have h2 : fro B1 ≤ fro (A + interactionMatrix us is c) := fro_le (by
        have := sqSum_nonneg (A + interactionMatrix us is c - B1)
        linarith)
      have := fro_add_le A (interactionMatrix us is c)
      linarith

/-- **C169, a run.** Training and any number of updates with known users and items succeed. The distance of the scores to
the current table is at most the distance of the training table to any matrix of the rank plus the norms of the chunks,
hence at most the distance of the current table to any matrix of the rank plus twice the norms of the chunks. The norm of
the scores is at most the sum of the norms of the training table and of the chunks. No condition on ranks or singular
values is needed. -/
theorem C169_run (env : PSIEnv ℝ) (hqr : QrAlways env.la) (cfg : PSICfg)
    (hcfg : cfg.init = none → cfg.integrator = false) (train : List (Row ℝ)) (us is : List ℤ)
    (hu : FirstAppearance (train.map Row.user) us) (hi : FirstAppearance (train.map Row.item) is)
    (hr : 1 ≤ cfg.rank ∧ cfg.rank < us.length ∧ cfg.rank < is.length)
    (hsvd : SvdsOk env.la cfg.rank (interactionMatrix us is train)) (chunks : List (List (Row ℝ)))
    (hknown : ∀ c ∈ chunks, ∀ x ∈ c, x.user ∈ us ∧ x.item ∈ is) :
    ∃ (st : PSIState ℝ) (B : Matrix (Fin us.length) (Fin is.length) ℝ), psiRun env cfg train chunks = .ok st ∧
      (∀ a : Fin us.length, psiScore st ((a : ℕ) : ℤ) = .ok (List.ofFn fun j => B a j)) ∧
      (∀ X : Matrix (Fin us.length) (Fin is.length) ℝ, X.rank ≤ cfg.rank →
        fro (interactionMatrix us is (train ++ chunks.flatten) - B) ≤
          fro (interactionMatrix us is train - X) + (chunks.map fun c => fro (interactionMatrix us is c)).sum) ∧
      (∀ X : Matrix (Fin us.length) (Fin is.length) ℝ, X.rank ≤ cfg.rank →
        fro (interactionMatrix us is (train ++ chunks.flatten) - B) ≤
          fro (interactionMatrix us is (train ++ chunks.flatten) - X) +
            2 * (chunks.map fun c => fro (interactionMatrix us is c)).sum) ∧
      fro B ≤ fro (interactionMatrix us is train) + (chunks.map fun c => fro (interactionMatrix us is c)).sum := by
  obtain ⟨us', is', hu', hi', ⟨st, e, hinv, -⟩ | ⟨-, hbad⟩⟩ := C31_train env cfg train
  · obtain rfl := hu.unique hu'
    obtain rfl := hi.unique hi'
    obtain ⟨U, s, V, ht, e1, e2, e3, e4, e5⟩ := C98_train env cfg train st us is hu hi hsvd e
    obtain ⟨hUU, hV, hUA⟩ := truncated_orth ht
    have h0 : PsiHolds st us is cfg.rank (U * diagonal s * V) :=
      ⟨hinv.shape, U, diagonal s, V, e1, by rw [e2]; rfl, e3, hV, rfl, e4, e5⟩
    obtain ⟨st', B, e', h', g1, g2⟩ := psiError_run env hqr cfg hcfg chunks train st _ h0 hknown
    have hbest : ∀ X : Matrix (Fin us.length) (Fin is.length) ℝ, X.rank ≤ cfg.rank →
        fro (interactionMatrix us is (train ++ chunks.flatten) - B) ≤
          fro (interactionMatrix us is train - X) + (chunks.map fun c => fro (interactionMatrix us is c)).sum :=
      fun X hX => by
        obtain ⟨Y, Z, rfl⟩ := exists_factor_of_rank X hX
        have := fro_le (best_approximation _ U s V ht Y Z)
        linarith
    refine ⟨st', B, ?_, h'.scores, hbest, fun X hX => ?_, ?_⟩
    · unfold psiRun
      rw [e, except_bind_ok, e']
    · have h1 := hbest X hX
      have e6 : interactionMatrix us is train - X =
          (interactionMatrix us is (train ++ chunks.flatten) - X) + -(interactionMatrix us is chunks.flatten) := by
        rw [interactionMatrix_append]
        abel
      have h2 := fro_add_le (interactionMatrix us is (train ++ chunks.flatten) - X)
        (-(interactionMatrix us is chunks.flatten))
      rw [← e6, fro_neg] at h2
      have := fro_flatten us is chunks
      linarith
    · have h3 : fro (U * diagonal s * V) ≤ fro (interactionMatrix us is train) := by
        refine fro_le ?_
        rw [hUA, sqSum_orth hUU]
        exact sqSum_contract hUU _
      linarith
  · obtain rfl := hu.unique hu'
    obtain rfl := hi.unique hi'
    exact absurd ⟨hr.1, by omega⟩ hbad

/-! ### Examples -/

-- rank 1 keeps `[[2, 0], [0, 0]]` of the training table `[[2, 0], [0, 1]]`; one more row of user 8 and item 41 makes the
-- table `[[2, 0], [0, 2]]`. The bound is `1 + 1`, and it is attained
example (env : PSIEnv ℝ) (hqr : QrAlways env.la)
    (hsvd : SvdsOk env.la 1 (interactionMatrix [7, 8] [40, 41] (exTieRows 2))) :
    ∃ st B, psiRun env ⟨1, 0, 1, none, false⟩ (exTieRows 2) [[⟨8, 41, 1, 2, 1⟩]] = .ok st ∧
      (∀ a : Fin 2, psiScore st ((a : ℕ) : ℤ) = .ok (List.ofFn fun j => B a j)) ∧
      fro ((!![2, 0; 0, 2] : Matrix (Fin 2) (Fin 2) ℝ) - B) ≤ 2 ∧
      fro ((!![2, 0; 0, 2] : Matrix (Fin 2) (Fin 2) ℝ) - !![2, 0; 0, 0]) = 2 := by
  have hu : FirstAppearance ((exTieRows 2).map Row.user) [7, 8] := firstAppearance_pdUnique [7, 8]
  have hi : FirstAppearance ((exTieRows 2).map Row.item) [40, 41] := firstAppearance_pdUnique [40, 41]
  have hT : interactionMatrix [7, 8] [40, 41] (exTieRows 2) = (!![2, 0; 0, 1] : Matrix (Fin 2) (Fin 2) ℝ) := by
    ext i j
    fin_cases i <;> fin_cases j <;> simp [interactionMatrix, exTieRows]
  have hD : interactionMatrix [7, 8] [40, 41] [(⟨8, 41, 1, 2, 1⟩ : Row ℝ)] =
      (!![0, 0; 0, 1] : Matrix (Fin 2) (Fin 2) ℝ) := by
    ext i j
    fin_cases i <;> fin_cases j <;> simp [interactionMatrix]
  obtain ⟨st, B, h1, h2, h3, -⟩ := C169_run env hqr ⟨1, 0, 1, none, false⟩ (fun _ => rfl) (exTieRows 2) [7, 8] [40, 41]
    hu hi (by decide) hsvd [[⟨8, 41, 1, 2, 1⟩]] (by simp)
  have h4 := h3 (!![2, 0; 0, 0] : Matrix (Fin 2) (Fin 2) ℝ) (by
    have e : (!![2, 0; 0, 0] : Matrix (Fin 2) (Fin 2) ℝ) = (!![2; 0] : Matrix (Fin 2) (Fin 1) ℝ) * (!![1, 0] : Matrix (Fin 1) (Fin 2) ℝ) := by
      ext i j
      fin_cases i <;> fin_cases j <;> simp [Matrix.mul_apply]
    rw [e]
    exact (Matrix.rank_mul_le_right _ _).trans (Matrix.rank_le_height _))
  rw [interactionMatrix_append, hT] at h4
  simp only [List.flatten_cons, List.flatten_nil, List.append_nil, List.map_cons, List.map_nil, List.sum_cons, List.sum_nil,
    hD] at h4
  refine ⟨st, B, h1, h2, ?_, ?_⟩
  · have e1 : (!![2, 0; 0, 1] : Matrix (Fin 2) (Fin 2) ℝ) + !![0, 0; 0, 1] = !![2, 0; 0, 2] := by
      ext i j
      fin_cases i <;> fin_cases j <;> norm_num
    have e2 : fro ((!![2, 0; 0, 1] : Matrix (Fin 2) (Fin 2) ℝ) - !![2, 0; 0, 0]) = 1 := by
      simp [fro, Fin.sum_univ_two]
    have e3 : fro (!![0, 0; 0, 1] : Matrix (Fin 2) (Fin 2) ℝ) = 1 := by simp [fro, Fin.sum_univ_two]
    have h5 : fro ((!![2, 0; 0, 1] : Matrix (Fin 2) (Fin 2) ℝ) + !![0, 0; 0, 1] - B) ≤
      fro ((!![2, 0; 0, 1] : Matrix (Fin 2) (Fin 2) ℝ) - !![2, 0; 0, 0]) +
        (fro (!![0, 0; 0, 1] : Matrix (Fin 2) (Fin 2) ℝ) + 0) := h4
    rw [e1, e2, e3] at h5
    linarith
  · have : Real.sqrt 4 = 2 := by
      rw [show (4 : ℝ) = 2 ^ 2 by norm_num, Real.sqrt_sq (by norm_num)]
    simp only [fro, Fin.sum_univ_two]
    rw [← this]
    congr 1
    norm_num

end DynCF
