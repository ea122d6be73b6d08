/-
C142: what the model predicts after updates that bring no new users or items: a low-rank interaction matrix is
followed exactly.
-/
import Verif.Props.SvdTrain
import Mathlib.LinearAlgebra.Matrix.Rank

namespace DynCF
open Matrix
variable {K : Type}

/-! ### Lemmas on matrices -/

/-- the columns of `A` are combinations of those of `A * C` if `A * C` has the rank of `A` -/
theorem exists_mul_eq_of_rank [Field K] {m n k : ℕ} (A : Matrix (Fin m) (Fin n) K) (C : Matrix (Fin n) (Fin k) K)
    (h : A.rank ≤ (A * C).rank) : ∃ B : Matrix (Fin k) (Fin n) K, A * C * B = A := by
  have hle : LinearMap.range (A * C).mulVecLin ≤ LinearMap.range A.mulVecLin := by
    rw [Matrix.mulVecLin_mul]
    exact LinearMap.range_comp_le_range _ _
  have heq : LinearMap.range (A * C).mulVecLin = LinearMap.range A.mulVecLin :=
    Submodule.eq_of_le_of_finrank_le hle h
  have hc : ∀ j : Fin n, ∃ x : Fin k → K, (A * C) *ᵥ x = fun i => A i j := fun j => by
    have : (fun i => A i j) ∈ LinearMap.range (A * C).mulVecLin := by
      rw [heq]
      exact ⟨Pi.single j 1, by ext i; simp⟩
    obtain ⟨x, hx⟩ := this
    exact ⟨x, hx⟩
  choose x hx using hc
  refine ⟨Matrix.of fun a j => x j a, ?_⟩
  ext i j
  rw [Matrix.mul_apply]
  exact congrFun (hx j) i

/-- a matrix of rank at most `r` is a product with inner dimension `r` -/
theorem exists_factor_of_rank [Field K] {m n r : ℕ} (A : Matrix (Fin m) (Fin n) K) (h : A.rank ≤ r) :
    ∃ (X : Matrix (Fin m) (Fin r) K) (Y : Matrix (Fin r) (Fin n) K), X * Y = A := by
  let p := LinearMap.range A.mulVecLin
  let b := Module.finBasis K p
  have hr : Module.finrank K p ≤ r := h
  have hm : ∀ j : Fin n, (fun i => A i j) ∈ p := fun j => ⟨Pi.single j 1, by ext i; simp⟩
  refine ⟨Matrix.of fun i k => if hk : (k : ℕ) < Module.finrank K p then (b ⟨k, hk⟩ : Fin m → K) i else 0,
    Matrix.of fun k j => if hk : (k : ℕ) < Module.finrank K p then b.repr ⟨_, hm j⟩ ⟨k, hk⟩ else 0, ?_⟩
  ext i j
  have h1 := congrArg (fun x : p => (x : Fin m → K) i) (b.sum_repr ⟨_, hm j⟩)
  simp only [Submodule.coe_sum, Submodule.coe_smul, Finset.sum_apply, Pi.smul_apply, smul_eq_mul] at h1
  rw [← h1, Matrix.mul_apply]
  rw [← Finset.sum_subset (Finset.subset_univ (Finset.univ.map (Fin.castLEEmb hr)))]
  · rw [Finset.sum_map]
    refine Finset.sum_congr rfl fun k _ => ?_
    simp [mul_comm]
  · intro k _ hk
    have : ¬ (k : ℕ) < Module.finrank K p := fun hlt => hk (Finset.mem_map.2 ⟨⟨k, hlt⟩, Finset.mem_univ _, by ext; simp⟩)
    simp [this]

/-- the interactions add up -/
theorem interactionMatrix_append [AddCommMonoid K] (us is : List ℤ) (a b : List (Row K)) :
    interactionMatrix us is (a ++ b) = interactionMatrix us is a + interactionMatrix us is b := by
  ext i j
  simp [interactionMatrix, List.filter_append, List.sum_append]

/-! ### One update -/

/-- The model holds a factorisation of `A` with an orthonormal right factor, and predicts with it. -/
structure PsiHolds [Field K] (st : PSIState K) (us is : List ℤ) (r : ℕ)
    (A : Matrix (Fin us.length) (Fin is.length) K) : Prop where
  shape : PsiShape st us is r
  fac : ∃ (U : Matrix (Fin us.length) (Fin r) K) (S : Matrix (Fin r) (Fin r) K)
      (V : Matrix (Fin r) (Fin is.length) K), st.u = ⟨_, _, U⟩ ∧ st.s.toMat = ⟨_, _, S⟩ ∧ st.vt = ⟨_, _, V⟩ ∧
    V * V.transpose = 1 ∧ U * S * V = A ∧ st.userFactors = ⟨_, _, U⟩ ∧ st.itemFactors = ⟨_, _, S * V⟩

variable [Field K] [LinearOrder K]

theorem PsiHolds.scores {st : PSIState K} {us is : List ℤ} {r : ℕ} {A : Matrix (Fin us.length) (Fin is.length) K}
    (h : PsiHolds st us is r A) (a : Fin us.length) :
    psiScore st ((a : ℕ) : ℤ) = .ok (List.ofFn fun j => A a j) := by
  obtain ⟨U, S, V, -, -, -, -, h1, h2, h3⟩ := h.fac
  rw [psiScore_factors U (S * V) h2 h3 a, ← Matrix.mul_assoc, h1]

/-- with known users and items only the last step has data -/
theorem psiRounds_known (env : PSIEnv K) (cfg : PSICfg) (hcfg : cfg.init = none → cfg.integrator = false)
    {st : PSIState K} {us is : List ℤ} {r : ℕ} (h : PsiShape st us is r) (data : List (Row K))
    (hd : ∀ x ∈ data, x.user ∈ us ∧ x.item ∈ is) :
    (psiRounds env cfg st data).map PsiLoop.st = updateFactorsByMode env cfg st data .old := by
  have hm : ∀ mode, mode ≠ .old → ∀ x ∈ data, stepClass us is mode x = false := fun mode hne x hx => by
    have := hd x hx
    cases mode <;> simp_all [stepClass]
  have hround : ∀ mode, mode ≠ .old → ∀ log, psiRound env cfg ⟨st, data, log⟩ mode =
      .ok ⟨st, data, log ++ [(mode, [])]⟩ := fun mode hne log => by
    have e1 : getDivideDfMask data st.maps mode = data.map (stepClass us is mode) := by
      unfold getDivideDfMask
      exact List.map_congr_left fun x _ => divideRow_eq h.user h.item mode x
    have e2 : maskSelect data (data.map (stepClass us is mode)) = [] := by
      rw [maskSelect_map]
      exact List.filter_eq_nil_iff.2 fun x hx => by simp [hm mode hne x hx]
    have e3 : maskSelect data ((data.map (stepClass us is mode)).map fun b => !b) = data := by
      rw [List.map_map]
      refine (maskSelect_map _ _).trans (List.filter_eq_self.2 fun x hx => ?_)
      simp [hm mode hne x hx]
    unfold psiRound
    dsimp only
    rw [e1, e2, e3]
    rfl
  have hold : ∀ log, (psiRound env cfg ⟨st, data, log⟩ .old).map PsiLoop.st =
      updateFactorsByMode env cfg st data .old := fun log => by
    have e1 : getDivideDfMask data st.maps .old = data.map (stepClass us is .old) := by
      unfold getDivideDfMask
      exact List.map_congr_left fun x _ => divideRow_eq h.user h.item .old x
    have e2 : maskSelect data (data.map (stepClass us is .old)) = data := by
      rw [maskSelect_map]
      exact List.filter_eq_self.2 fun x hx => by have := hd x hx; simp [stepClass, this]
    unfold psiRound
    dsimp only
    rw [e1, e2]
    cases updateFactorsByMode env cfg st data .old <;> rfl
  obtain ⟨rank, np, os, ini, integ⟩ := cfg
  cases ini with
  | none =>
    have : integ = false := hcfg rfl
    subst this
    unfold psiRounds
    dsimp only
    rw [List.foldlM_cons, hround _ (by simp), except_bind_ok, List.foldlM_cons, hround _ (by simp), except_bind_ok,
      List.foldlM_cons, hround _ (by simp), except_bind_ok, List.foldlM_cons]
    rw [show ∀ x : PyM (PsiLoop K), (x >>= fun s' => List.foldlM (psiRound env ⟨rank, np, os, none, false⟩) s' []) = x
      from fun x => by cases x <;> rfl]
    exact hold _
  | some e =>
    cases integ with
    | false =>
      unfold psiRounds psiRoundsInit
      dsimp only
      rw [hround _ (by simp), except_bind_ok, List.foldlM_cons, hround _ (by simp), except_bind_ok,
        List.foldlM_cons, hround _ (by simp), except_bind_ok, List.foldlM_nil, pure_bind]
      cases updateFactorsByMode env ⟨rank, np, os, some e, false⟩ st data .old <;> rfl
    | true =>
      unfold psiRounds psiRoundsIntegrator
      dsimp only
      rw [List.foldlM_cons, hround _ (by simp), except_bind_ok, List.foldlM_cons, hround _ (by simp), except_bind_ok,
        List.foldlM_cons, hround _ (by simp), except_bind_ok, List.foldlM_nil, pure_bind]
      cases updateFactorsByMode env ⟨rank, np, os, some e, true⟩ st data .old <;> rfl

/-- One update: if the new matrix is as rich as its product with the old one, it is held exactly. -/
theorem psiUpdate_holds (env : PSIEnv K) (hqr : QrAlways env.la) (cfg : PSICfg)
    (hcfg : cfg.init = none → cfg.integrator = false) {st : PSIState K} {us is : List ℤ} {r : ℕ}
    {A : Matrix (Fin us.length) (Fin is.length) K} (h : PsiHolds st us is r A) (data : List (Row K))
    (hd : ∀ x ∈ data, x.user ∈ us ∧ x.item ∈ is)
    (hrank : (A + interactionMatrix us is data).rank ≤ ((A + interactionMatrix us is data) * A.transpose).rank) :
    ∃ st', psiUpdate env cfg st data = .ok st' ∧ PsiHolds st' us is r (A + interactionMatrix us is data) := by
  obtain ⟨U, S, V, eu, es, ev, hV, hA, -, -⟩ := h.fac
  -- the factors after the rounds
  have key : ∃ st1, updateFactorsByMode env cfg st data .old = .ok st1 ∧ st1.maps = st.maps ∧
      ∃ (U1 : Matrix (Fin us.length) (Fin r) K) (S1 : Matrix (Fin r) (Fin r) K)
        (V1 : Matrix (Fin r) (Fin is.length) K), st1.u = ⟨_, _, U1⟩ ∧ st1.s.toMat = ⟨_, _, S1⟩ ∧
        st1.vt = ⟨_, _, V1⟩ ∧ V1 * V1.transpose = 1 ∧ U1 * S1 * V1 = A + interactionMatrix us is data := by
    unfold updateFactorsByMode
    split
    · have hp : processData st data .old = .ok (⟨_, _, interactionMatrix us is data⟩, st) := by
        unfold processData
        dsimp only
        rw [h.shape.uRows, h.shape.vCols, mappedEntries_eq data Row.user Row.item h.shape.user.idxMap
          h.shape.item.idxMap (fun x hx => (hd x hx).1) (fun x hx => (hd x hx).2)]
        rfl
      rw [hp, except_bind_ok]
      dsimp only
      unfold psiUpdater
      dsimp only
      obtain ⟨B, hB⟩ := exists_mul_eq_of_rank (A + interactionMatrix us is data) V.transpose (by
        refine hrank.trans ?_
        rw [← hA, Matrix.transpose_mul, ← Matrix.mul_assoc]
        exact Matrix.rank_mul_le_left _ _)
      obtain ⟨k, l, U1, S1, V1, e1, e2⟩ := C82_exact_recovery env.la hqr U st.s S es V hV
        (interactionMatrix us is data) B (by rw [hA]; exact hB)
      obtain ⟨k', l', U1', S1', V1', e3, -, o2, hk, hl, -⟩ := C41_orthonormal env.la hqr U st.s S es V
        (interactionMatrix us is data)
      have hk : k' = r := by have := h.shape.ru; omega
      have hl : l' = r := by have := h.shape.ri; omega
      subst hk
      subst hl
      rw [e3] at e1
      have e1 := Except.ok.inj e1
      simp only [Prod.mk.injEq] at e1
      obtain ⟨g1, g2, g3⟩ := e1
      have gk : l' = k := congrArg Mat.cols g1
      have gl : l' = l := congrArg Mat.rows g3
      subst gk
      subst gl
      have g1 := (Mat.mk.inj g1).2.2
      have g2 := (Mat.mk.inj g2).2.2
      have g3 := (Mat.mk.inj g3).2.2
      rw [heq_eq_eq] at g1 g2 g3
      subst g1 g2 g3
      rw [eu, ev, e3, except_bind_ok]
      exact ⟨_, rfl, rfl, _, _, _, rfl, rfl, rfl, o2, by rw [e2, hA]⟩
    · have : data = [] := by simpa using ‹¬ data.length > 0›
      subst this
      have h0 : interactionMatrix us is ([] : List (Row K)) = 0 := by ext i j; simp [interactionMatrix]
      rw [h0, add_zero]
      exact ⟨st, rfl, rfl, U, S, V, eu, es, ev, hV, hA⟩
  obtain ⟨st1, k1, km, U1, S1, V1, f1, f2, f3, f4, f5⟩ := key
  have hr := psiRounds_known env cfg hcfg h.shape data hd
  rw [k1] at hr
  unfold psiUpdate
  cases hl : psiRounds env cfg st data with
  | error e => rw [hl] at hr; cases hr
  | ok l =>
    rw [hl] at hr
    have hr : l.st = st1 := Except.ok.inj hr
    rw [except_bind_ok, hr, psiUpdateHistory_eq (us := us) (is := is) (km ▸ h.shape.user) (km ▸ h.shape.item) data
      (fun x hx => (hd x hx).1) (fun x hx => (hd x hx).2), except_bind_ok]
    dsimp only
    rw [f2, f3, Mat.dot_mk, except_bind_ok]
    refine ⟨_, rfl, ⟨⟨km ▸ h.shape.user, km ▸ h.shape.item, ?_, ?_, ?_, ?_, ⟨rfl, rfl⟩, h.shape.ru, h.shape.ri⟩,
      U1, S1, V1, f1, rfl, rfl, f4, f5, f1, rfl⟩⟩
    · exact congrArg Mat.rows f1
    · exact congrArg Mat.cols f1
    · rfl
    · rfl

theorem psiUpdates_hold (env : PSIEnv K) (hqr : QrAlways env.la) (cfg : PSICfg)
    (hcfg : cfg.init = none → cfg.integrator = false) {us is : List ℤ} {r : ℕ} (chunks : List (List (Row K))) :
    ∀ (seen : List (Row K)) (st : PSIState K), PsiHolds st us is r (interactionMatrix us is seen) →
      (∀ c ∈ chunks, ∀ x ∈ c, x.user ∈ us ∧ x.item ∈ is) →
      (∀ t < chunks.length,
        (interactionMatrix us is (seen ++ (chunks.take (t + 1)).flatten)).rank ≤
          (interactionMatrix us is (seen ++ (chunks.take (t + 1)).flatten) *
            (interactionMatrix us is (seen ++ (chunks.take t).flatten)).transpose).rank) →
      ∃ st', chunks.foldlM (psiUpdate env cfg) st = .ok st' ∧
        PsiHolds st' us is r (interactionMatrix us is (seen ++ chunks.flatten)) := by
  induction chunks with
  | nil => exact fun seen st h _ _ => ⟨st, rfl, by simpa using h⟩
  | cons c chunks ih =>
    intro seen st h hd hr
    have h0 := hr 0 (by simp)
    simp only [zero_add, List.take_succ_cons, List.take_zero, List.flatten_cons, List.flatten_nil, List.append_nil,
      interactionMatrix_append] at h0
    obtain ⟨st1, e1, h1⟩ := psiUpdate_holds env hqr cfg hcfg h c (hd c (by simp)) h0
    rw [← interactionMatrix_append] at h1
    obtain ⟨st', e', h'⟩ := ih (seen ++ c) st1 h1 (fun c' hc' => hd c' (List.mem_cons_of_mem _ hc')) (fun t ht => by
      have := hr (t + 1) (by simpa using ht)
      simpa only [List.take_succ_cons, List.flatten_cons, ← List.append_assoc] using this)
    refine ⟨st', ?_, ?_⟩
    · rw [List.foldlM_cons, e1, except_bind_ok, e']
    · simpa only [List.flatten_cons, ← List.append_assoc] using h'

/-! ### C142 -/

/-- **C142.** Let the table have an interaction matrix of rank at most `rank`, let the chunks contain only users and
items of the table, and let the interaction matrix after every chunk have the same rank as its product with the
transposed matrix before the chunk (its row space is not orthogonal to any direction of the old one). Then
training and all updates succeed and the scores of the updated model are exactly the current interaction matrix,
in every supported configuration and for every QR routine meeting its contract. -/
theorem C142_follows (env : PSIEnv ℝ) (hqr : QrAlways env.la) (cfg : PSICfg)
    (hcfg : cfg.init = none → cfg.integrator = false) (train : List (Row ℝ)) (us is : List ℤ)
    (hu : FirstAppearance (train.map Row.user) us) (hi : FirstAppearance (train.map Row.item) is)
    (hr : 1 ≤ cfg.rank ∧ cfg.rank < us.length ∧ cfg.rank < is.length)
    (hsvd : SvdsOk env.la cfg.rank (interactionMatrix us is train))
    (hlow : (interactionMatrix us is train).rank ≤ cfg.rank) (chunks : List (List (Row ℝ)))
    (hknown : ∀ c ∈ chunks, ∀ x ∈ c, x.user ∈ us ∧ x.item ∈ is)
    (hrank : ∀ t < chunks.length,
      (interactionMatrix us is (train ++ (chunks.take (t + 1)).flatten)).rank =
        (interactionMatrix us is (train ++ (chunks.take (t + 1)).flatten) *
          (interactionMatrix us is (train ++ (chunks.take t).flatten)).transpose).rank) :
    ∃ st, psiRun env cfg train chunks = .ok st ∧
      ∀ a : Fin us.length, psiScore st ((a : ℕ) : ℤ) =
        .ok (List.ofFn fun j => interactionMatrix us is (train ++ chunks.flatten) a j) := by
  obtain ⟨us', is', hu', hi', ⟨st, e, hinv, -⟩ | ⟨-, hbad⟩⟩ := C31_train env cfg train
  · obtain rfl := hu.unique hu'
    obtain rfl := hi.unique hi'
    obtain ⟨U, s, V, ht, e1, e2, e3, e4, e5⟩ := C98_train env cfg train st us is hu hi hsvd e
    obtain ⟨X, Y, hXY⟩ := exists_factor_of_rank _ hlow
    have hbest := best_approximation _ U s V ht X Y
    have hzero : U * diagonal s * V = interactionMatrix us is train := by
      rw [hXY] at hbest
      simp only [sub_self] at hbest
      have h0 : ∑ a, ∑ j, (interactionMatrix us is train a j - (U * diagonal s * V) a j) ^ 2 ≤ 0 := by
        simpa [sqSum] using hbest
      ext a j
      have h1 : ∀ a, 0 ≤ ∑ j, (interactionMatrix us is train a j - (U * diagonal s * V) a j) ^ 2 :=
        fun a => Finset.sum_nonneg fun j _ => sq_nonneg _
      have h2 := (Finset.sum_eq_zero_iff_of_nonneg fun a _ => h1 a).1
        (le_antisymm h0 (Finset.sum_nonneg fun a _ => h1 a)) a (Finset.mem_univ _)
      have h3 := (Finset.sum_eq_zero_iff_of_nonneg fun j _ => sq_nonneg _).1 h2 j (Finset.mem_univ _)
      have h4 := pow_eq_zero_iff (two_ne_zero) |>.1 h3
      linarith
    have hV : V * V.transpose = 1 := by
      obtain ⟨U', s', V', hle, -, -, hV', -, -, -, -, hVV⟩ := ht
      ext i j
      have := congrFun (congrFun hV' (Fin.castLE hle i)) (Fin.castLE hle j)
      rw [Matrix.mul_apply] at this ⊢
      simp only [Matrix.transpose_apply] at this ⊢
      simp only [hVV, this, Matrix.one_apply, Fin.castLE_inj]
    have h0 : PsiHolds st us is cfg.rank (interactionMatrix us is train) :=
      ⟨hinv.shape, U, diagonal s, V, e1, by rw [e2]; rfl, e3, hV, hzero, e4, e5⟩
    obtain ⟨st', e', h'⟩ := psiUpdates_hold env hqr cfg hcfg chunks train st h0 hknown fun t ht => (hrank t ht).le
    refine ⟨st', ?_, h'.scores⟩
    unfold psiRun
    rw [e, except_bind_ok, e']
  · obtain rfl := hu.unique hu'
    obtain rfl := hi.unique hi'
    exact absurd ⟨hr.1, by omega⟩ hbad

/-- two users who took both items once -/
def exFullRows : List (Row ℝ) :=
  [⟨7, 40, 1, 0, 0⟩, ⟨7, 41, 1, 1, 0⟩, ⟨8, 40, 1, 2, 0⟩, ⟨8, 41, 1, 3, 0⟩]

/-- user 7 takes both items again -/
def exAgainRows : List (Row ℝ) := [⟨7, 41, 1, 4, 1⟩, ⟨7, 40, 1, 5, 1⟩]

-- the matrix of ones becomes `[[2, 2], [1, 1]]`; the updated model of rank 1 predicts exactly that
example : ∃ st, psiRun ⟨realLA, fun _ _ _ _ => 0, fun v => List.range v.length, fun _ _ _ _ => 0⟩
      ⟨1, 0, 1, none, false⟩ exFullRows [exAgainRows] = .ok st ∧
    psiScore st 0 = .ok [2, 2] ∧ psiScore st 1 = .ok [1, 1] := by
  have hu : FirstAppearance (exFullRows.map Row.user) [7, 8] := firstAppearance_pdUnique [7, 7, 8, 8]
  have hi : FirstAppearance (exFullRows.map Row.item) [40, 41] := firstAppearance_pdUnique [40, 41, 40, 41]
  have h0 : interactionMatrix [7, 8] [40, 41] exFullRows = (!![1, 1; 1, 1] : Matrix (Fin 2) (Fin 2) ℝ) := by
    ext a j
    fin_cases a <;> fin_cases j <;> simp [interactionMatrix, exFullRows]
  have h1 : interactionMatrix [7, 8] [40, 41] (exFullRows ++ exAgainRows) =
      (!![2, 2; 1, 1] : Matrix (Fin 2) (Fin 2) ℝ) := by
    ext a j
    fin_cases a <;> fin_cases j <;> simp [interactionMatrix, exFullRows, exAgainRows] <;> norm_num
  obtain ⟨st, e, hs⟩ := C142_follows
    (⟨realLA, fun _ _ _ _ => 0, fun v => List.range v.length, fun _ _ _ _ => 0⟩ : PSIEnv ℝ) qrAlways_real
    ⟨1, 0, 1, none, false⟩ (fun _ => rfl) exFullRows [7, 8] [40, 41] hu hi (by simp)
    (realLA_svds (by simp) _) (by
      rw [h0, show (!![1, 1; 1, 1] : Matrix (Fin 2) (Fin 2) ℝ) = (!![1; 1] : Matrix (Fin 2) (Fin 1) ℝ) *
        (!![1, 1] : Matrix (Fin 1) (Fin 2) ℝ) from by ext a j; fin_cases a <;> fin_cases j <;> simp]
      exact (Matrix.rank_mul_le_left _ _).trans (by simpa using Matrix.rank_le_width (!![1; 1] : Matrix (Fin 2) (Fin 1) ℝ)))
    [exAgainRows] (by simp [exAgainRows]) (fun t ht => by
      have : t = 0 := by simpa using ht
      subst this
      simp only [zero_add, List.take_succ_cons, List.take_zero, List.flatten_cons, List.flatten_nil, List.append_nil]
      rw [h0, h1]
      refine le_antisymm ?_ (Matrix.rank_mul_le_left _ _)
      have : (!![2, 2; 1, 1] : Matrix (Fin 2) (Fin 2) ℝ) =
          !![2, 2; 1, 1] * (!![1, 1; 1, 1] : Matrix (Fin 2) (Fin 2) ℝ).transpose * !![1 / 2, 1 / 2; 0, 0] := by
        ext a j
        fin_cases a <;> fin_cases j <;>
          simp [Matrix.mul_apply, Matrix.vecMul, dotProduct, Fin.sum_univ_two] <;> norm_num
      conv_lhs => rw [this]
      exact Matrix.rank_mul_le_left _ _)
  refine ⟨st, e, ?_, ?_⟩
  · have := hs (0 : Fin 2)
    simp only [List.flatten_cons, List.flatten_nil, List.append_nil] at this
    rw [h1] at this
    exact this.trans (by simp)
  · have := hs (1 : Fin 2)
    simp only [List.flatten_cons, List.flatten_nil, List.append_nil] at this
    rw [h1] at this
    exact this.trans (by simp)

end DynCF
