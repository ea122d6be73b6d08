/-
C153: what `PSI` predicts after updates that bring no new users or items is determined by the data, whichever QR and SVD
routines are used, as long as the ranks do not drop.
-/
import Verif.Props.PsiTracks
import Verif.Props.SvdBackend

namespace DynCF
open Matrix
variable {K : Type}

/-! ### Specification -/

/-- `P` is the orthogonal projector onto the span of the columns of `M`. -/
structure OrthProj [CommRing K] {m n : ℕ} (P : Matrix (Fin m) (Fin m) K) (M : Matrix (Fin m) (Fin n) K) : Prop where
  symm : P.transpose = P
  keeps : P * M = M
  range : ∃ X : Matrix (Fin n) (Fin m) K, P = M * X

/-- The prediction matrix after an increment `D`: all of `A + D`, except the part of `D` outside both the columns of
`(A + D) Aᵀ` and the rows of `A`. -/
def PsiNext [CommRing K] {m n : ℕ} (A D B : Matrix (Fin m) (Fin n) K) : Prop :=
  ∃ (P : Matrix (Fin m) (Fin m) K) (Q : Matrix (Fin n) (Fin n) K),
    OrthProj P ((A + D) * A.transpose) ∧ OrthProj Q A.transpose ∧ B = A + D - (1 - P) * D * (1 - Q)

/-! ### Lemmas on projectors -/

theorem OrthProj.unique [CommRing K] {m n : ℕ} {P P' : Matrix (Fin m) (Fin m) K} {M : Matrix (Fin m) (Fin n) K}
    (h : OrthProj P M) (h' : OrthProj P' M) : P = P' := by
  obtain ⟨X, hX⟩ := h.range
  obtain ⟨X', hX'⟩ := h'.range
  have e1 : P' * P = P := by rw [hX, ← Matrix.mul_assoc, h'.keeps]
  have e2 : P * P' = P' := by rw [hX', ← Matrix.mul_assoc, h.keeps]
  have e3 : P * P' = P := by
    have := congrArg Matrix.transpose e1
    rwa [Matrix.transpose_mul, h.symm, h'.symm] at this
  rw [← e3, e2]

theorem PsiNext.unique [CommRing K] {m n : ℕ} {A D B B' : Matrix (Fin m) (Fin n) K} (h : PsiNext A D B)
    (h' : PsiNext A D B') : B = B' := by
  obtain ⟨P, Q, h1, h2, h3⟩ := h
  obtain ⟨P', Q', h1', h2', h3'⟩ := h'
  rw [h3, h3', h1.unique h1', h2.unique h2']

/-- the projector depends on the span only -/
theorem OrthProj.change [CommRing K] {m n k : ℕ} {P : Matrix (Fin m) (Fin m) K} {M : Matrix (Fin m) (Fin n) K}
    {M' : Matrix (Fin m) (Fin k) K} (h : OrthProj P M) (Y : Matrix (Fin n) (Fin k) K) (Z : Matrix (Fin k) (Fin n) K)
    (h1 : M' = M * Y) (h2 : M = M' * Z) : OrthProj P M' := by
  obtain ⟨X, hX⟩ := h.range
  refine ⟨h.symm, ?_, Z * X, ?_⟩
  · rw [h1, ← Matrix.mul_assoc, h.keeps]
  · rw [← Matrix.mul_assoc, ← h2, hX]

theorem exists_left_inverse [Field K] {m r : ℕ} (M : Matrix (Fin m) (Fin r) K) (h : r ≤ M.rank) :
    ∃ L : Matrix (Fin r) (Fin m) K, L * M = 1 := by
  obtain ⟨B, hB⟩ := exists_mul_eq_of_rank (1 : Matrix (Fin r) (Fin r) K) M.transpose (by
    rw [Matrix.one_mul, Matrix.rank_transpose, Matrix.rank_one, Fintype.card_fin]
    exact h)
  refine ⟨B.transpose, ?_⟩
  have := congrArg Matrix.transpose hB
  rwa [Matrix.one_mul, Matrix.transpose_mul, Matrix.transpose_transpose, Matrix.transpose_one] at this

/-- the projector of a QR factorisation of a matrix of full rank -/
theorem orthProj_of_factor [Field K] {m k r : ℕ} {Q : Matrix (Fin m) (Fin k) K} {R : Matrix (Fin k) (Fin r) K}
    {M : Matrix (Fin m) (Fin r) K} (h : Q * R = M) (ho : Q.transpose * Q = 1) (hr : k ≤ M.rank) :
    OrthProj (Q * Q.transpose) M := by
  obtain ⟨X, hX⟩ := exists_mul_eq_of_rank (1 : Matrix (Fin k) (Fin k) K) R (by
    rw [Matrix.one_mul, Matrix.rank_one, Fintype.card_fin]
    rw [← h] at hr
    exact hr.trans (Matrix.rank_mul_le_right _ _))
  rw [Matrix.one_mul] at hX
  refine ⟨?_, ?_, X * Q.transpose, ?_⟩
  · rw [Matrix.transpose_mul, Matrix.transpose_transpose]
  · rw [← h, ← Matrix.mul_assoc, Matrix.mul_assoc Q, ho, Matrix.mul_one]
  · rw [← h, Matrix.mul_assoc Q, ← Matrix.mul_assoc R, hX, Matrix.one_mul]

/-- The two projectors, read off any factorisation with an orthonormal right factor. -/
theorem psiNext_of [Field K] {m n r k : ℕ} {A D : Matrix (Fin m) (Fin n) K} {W : Matrix (Fin m) (Fin r) K}
    {V : Matrix (Fin r) (Fin n) K} (hA : W * V = A) (hV : V * V.transpose = 1) (hr : r ≤ A.rank)
    (hr' : r ≤ ((A + D) * A.transpose).rank) {Q : Matrix (Fin m) (Fin k) K} {R : Matrix (Fin k) (Fin r) K}
    (hQ : Q * R = W + D * V.transpose) (ho : Q.transpose * Q = 1) (hk : k ≤ r) :
    PsiNext A D (A + D - (1 - Q * Q.transpose) * D * (1 - V.transpose * V)) := by
  obtain ⟨L, hL⟩ := exists_left_inverse W (by
    rw [← hA] at hr
    exact hr.trans (Matrix.rank_mul_le_left _ _))
  have hLT : W.transpose * L.transpose = 1 := by
    rw [← Matrix.transpose_mul, hL, Matrix.transpose_one]
  have hAT : A.transpose = V.transpose * W.transpose := by rw [← hA, Matrix.transpose_mul]
  have hK : W + D * V.transpose = (A + D) * V.transpose := by
    rw [Matrix.add_mul, ← hA, Matrix.mul_assoc W, hV, Matrix.mul_one]
  have e1 : (A + D) * A.transpose = (W + D * V.transpose) * W.transpose := by
    rw [hK, hAT, ← Matrix.mul_assoc]
  have e2 : W + D * V.transpose = (A + D) * A.transpose * L.transpose := by
    rw [e1, Matrix.mul_assoc, hLT, Matrix.mul_one]
  refine ⟨_, _, (orthProj_of_factor hQ ho (hk.trans ?_)).change _ _ e1 e2, ⟨?_, ?_, L.transpose * V, ?_⟩, rfl⟩
  · rw [e1] at hr'
    exact hr'.trans (Matrix.rank_mul_le_left _ _)
  · rw [Matrix.transpose_mul, Matrix.transpose_transpose]
  · rw [hAT, Matrix.mul_assoc V.transpose V, ← Matrix.mul_assoc V, hV, Matrix.one_mul]
  · rw [hAT, Matrix.mul_assoc V.transpose, ← Matrix.mul_assoc W.transpose, hLT, Matrix.one_mul]

/-! ### One update -/

variable [Field K] [LinearOrder K]

/-- **C153, one update.** A model that predicts the matrix `A` of rank `r` is updated with a chunk of known users and
items. If `(A + D) Aᵀ` still has rank `r`, the update succeeds, and what the model predicts then is the matrix given by
`PsiNext`, whichever QR routine is used. -/
theorem C153_update (env : PSIEnv K) (hqr : QrAlways env.la) (cfg : PSICfg)
    (hcfg : cfg.init = none → cfg.integrator = false) {st : PSIState K} {us is : List ℤ} {r : ℕ}
    {A : Matrix (Fin us.length) (Fin is.length) K} (h : PsiHolds st us is r A) (data : List (Row K))
    (hd : ∀ x ∈ data, x.user ∈ us ∧ x.item ∈ is) (hr : A.rank = r)
    (hr' : ((A + interactionMatrix us is data) * A.transpose).rank = r) :
    ∃ st' B, psiUpdate env cfg st data = .ok st' ∧ PsiHolds st' us is r B ∧
      PsiNext A (interactionMatrix us is data) B ∧ st'.maps = st.maps ∧
      st'.history = st.history ++ data.map fun x => (((us.idxOf x.user : ℕ) : ℤ), ((is.idxOf x.item : ℕ) : ℤ)) := by
  obtain ⟨U, S, V, eu, es, ev, hV, hA, -, -⟩ := h.fac
  -- the factors after the rounds
  have key : ∃ st1 B, updateFactorsByMode env cfg st data .old = .ok st1 ∧ st1.maps = st.maps ∧
      st1.history = st.history ∧ PsiNext A (interactionMatrix us is data) B ∧
      ∃ (U1 : Matrix (Fin us.length) (Fin r) K) (S1 : Matrix (Fin r) (Fin r) K)
        (V1 : Matrix (Fin r) (Fin is.length) K), st1.u = ⟨_, _, U1⟩ ∧ st1.s.toMat = ⟨_, _, S1⟩ ∧
        st1.vt = ⟨_, _, V1⟩ ∧ V1 * V1.transpose = 1 ∧ U1 * S1 * V1 = B := by
    obtain ⟨k, l, U1, S1, V1, R, e1, e2, eR⟩ := C40_identity env.la hqr U st.s S es V (interactionMatrix us is data)
    obtain ⟨k', l', U1', S1', V1', e3, o1, o2, hk, hl, -⟩ := C41_orthonormal env.la hqr U st.s S es V
      (interactionMatrix us is data)
    have hk : k' = r := by have := h.shape.ru; omega
    have hl : l' = r := by have := h.shape.ri; omega
    subst hk
    subst hl
    rw [e3] at e1
    have e1 := Except.ok.inj e1
    simp only [Prod.mk.injEq] at e1
    obtain ⟨g1, g2, g3⟩ := e1
    have gk : l' = k := congrArg Mat.cols g1
    have gl : l' = l := congrArg Mat.rows g3
    subst gk
    subst gl
    have g1 := (Mat.mk.inj g1).2.2
    have g2 := (Mat.mk.inj g2).2.2
    have g3 := (Mat.mk.inj g3).2.2
    rw [heq_eq_eq] at g1 g2 g3
    subst g1 g2 g3
    have hn := psiNext_of (A := A) (D := interactionMatrix us is data) hA hV hr.ge hr'.ge eR o1 le_rfl
    unfold updateFactorsByMode
    split
    · have hp : processData st data .old = .ok (⟨_, _, interactionMatrix us is data⟩, st) := by
        unfold processData
        dsimp only
        rw [h.shape.uRows, h.shape.vCols, mappedEntries_eq data Row.user Row.item h.shape.user.idxMap
          h.shape.item.idxMap (fun x hx => (hd x hx).1) (fun x hx => (hd x hx).2)]
        rfl
      rw [hp, except_bind_ok]
      dsimp only
      unfold psiUpdater
      dsimp only
      rw [eu, ev, e3, except_bind_ok]
      exact ⟨_, _, rfl, rfl, rfl, hn, _, _, _, rfl, rfl, rfl, o2, by rw [e2, hA]⟩
    · have : data = [] := by simpa using ‹¬ data.length > 0›
      subst this
      have h0 : interactionMatrix us is ([] : List (Row K)) = 0 := by ext i j; simp [interactionMatrix]
      refine ⟨st, A, rfl, rfl, rfl, ?_, U, S, V, eu, es, ev, hV, hA⟩
      rw [h0] at hn ⊢
      simpa using hn
  obtain ⟨st1, B, k1, km, kh, hn, U1, S1, V1, f1, f2, f3, f4, f5⟩ := key
  have hr := psiRounds_known env cfg hcfg h.shape data hd
  rw [k1] at hr
  unfold psiUpdate
  cases hl : psiRounds env cfg st data with
  | error e => rw [hl] at hr; cases hr
  | ok l =>
    rw [hl] at hr
    have hr : l.st = st1 := Except.ok.inj hr
    rw [except_bind_ok, hr, psiUpdateHistory_eq (us := us) (is := is) (km ▸ h.shape.user) (km ▸ h.shape.item) data
      (fun x hx => (hd x hx).1) (fun x hx => (hd x hx).2), except_bind_ok]
    dsimp only
    rw [f2, f3, Mat.dot_mk, except_bind_ok]
    refine ⟨_, B, rfl, ⟨⟨km ▸ h.shape.user, km ▸ h.shape.item, ?_, ?_, ?_, ?_, ⟨rfl, rfl⟩, h.shape.ru, h.shape.ri⟩,
      U1, S1, V1, f1, rfl, rfl, f4, f5, f1, rfl⟩, hn, km, by rw [kh]⟩
    · exact congrArg Mat.rows f1
    · exact congrArg Mat.cols f1
    · rfl
    · rfl

/-! ### A run -/

/-- The prediction matrices of a model of rank `r` that starts with `A 0` and receives the chunks: each one has rank `r`,
determines the next one, and the columns that the next one is projected on have rank `r` as well. -/
def PsiPath {us is : List ℤ} (r : ℕ) (chunks : List (List (Row K))) (A : ℕ → Matrix (Fin us.length) (Fin is.length) K) :
    Prop :=
  ∀ (t : ℕ) (ht : t < chunks.length), (A t).rank = r ∧
    ((A t + interactionMatrix us is chunks[t]) * (A t).transpose).rank = r ∧
    PsiNext (A t) (interactionMatrix us is chunks[t]) (A (t + 1))

theorem psiPath_run (env : PSIEnv K) (hqr : QrAlways env.la) (cfg : PSICfg)
    (hcfg : cfg.init = none → cfg.integrator = false) {us is : List ℤ} {r : ℕ} (chunks : List (List (Row K))) :
    ∀ (A : ℕ → Matrix (Fin us.length) (Fin is.length) K) (st : PSIState K), PsiHolds st us is r (A 0) →
      (∀ c ∈ chunks, ∀ x ∈ c, x.user ∈ us ∧ x.item ∈ is) → PsiPath r chunks A →
      ∃ st', chunks.foldlM (psiUpdate env cfg) st = .ok st' ∧ PsiHolds st' us is r (A chunks.length) ∧
        st'.maps = st.maps ∧ st'.history = st.history ++
          chunks.flatten.map fun x => (((us.idxOf x.user : ℕ) : ℤ), ((is.idxOf x.item : ℕ) : ℤ)) := by
  induction chunks with
  | nil => exact fun A st h _ _ => ⟨st, rfl, h, rfl, by simp⟩
  | cons c chunks ih =>
    intro A st h hd hp
    obtain ⟨h1, h2, h3⟩ := hp 0 (by simp)
    obtain ⟨st1, B, e1, hB, hn, km, kh⟩ := C153_update env hqr cfg hcfg h c (hd c (by simp)) h1 h2
    obtain rfl : B = A 1 := hn.unique h3
    obtain ⟨st', e', h', km', kh'⟩ := ih (fun t => A (t + 1)) st1 hB
      (fun c' hc' => hd c' (List.mem_cons_of_mem _ hc')) (fun t ht => hp (t + 1) (by simpa using ht))
    refine ⟨st', ?_, h', km'.trans km, ?_⟩
    · rw [List.foldlM_cons, e1, except_bind_ok, e']
    · rw [kh', kh, List.flatten_cons, List.map_append, List.append_assoc]

/-! ### C153 -/

theorem PsiHolds.view {st : PSIState ℝ} {us is : List ℤ} {r : ℕ} {A : Matrix (Fin us.length) (Fin is.length) ℝ}
    (h : PsiHolds st us is r A) {st' : PSIState ℝ} (h' : PsiHolds st' us is r A) (hm : st.maps = st'.maps)
    (hh : st.history = st'.history) : st.view = st'.view ∧ ∀ u, psiScore st u = psiScore st' u := by
  obtain ⟨U, S, V, -, -, -, -, h1, h2, h3⟩ := h.fac
  obtain ⟨U', S', V', -, -, -, -, h1', h2', h3'⟩ := h'.fac
  refine ⟨?_, psiScore_all h2 h3 h2' h3' (by rw [← Matrix.mul_assoc, ← Matrix.mul_assoc, h1, h1'])⟩
  unfold PSIState.view
  rw [h.shape.uRows, h.shape.vCols, h'.shape.uRows, h'.shape.vCols, hm, hh]

/-- **C153.** Let `A 0` be the best approximation of rank `rank` of the table, with a gap between the singular values
`rank` and `rank + 1`, and let the prediction matrices continue from there (`PsiPath`). Then training and all updates
succeed with every correct SVD and QR routine, and the scores are the rows of the last matrix. -/
theorem C153_scores (env : PSIEnv ℝ) (hqr : QrAlways env.la) (cfg : PSICfg)
    (hcfg : cfg.init = none → cfg.integrator = false) (train : List (Row ℝ)) (us is : List ℤ)
    (hu : FirstAppearance (train.map Row.user) us) (hi : FirstAppearance (train.map Row.item) is)
    (hr : 1 ≤ cfg.rank ∧ cfg.rank < us.length ∧ cfg.rank < is.length)
    (hsvd : SvdsOk env.la cfg.rank (interactionMatrix us is train))
    (hgap : SpectralGap cfg.rank (interactionMatrix us is train)) (chunks : List (List (Row ℝ)))
    (hknown : ∀ c ∈ chunks, ∀ x ∈ c, x.user ∈ us ∧ x.item ∈ is)
    (A : ℕ → Matrix (Fin us.length) (Fin is.length) ℝ)
    (h0 : ∃ U s V, TruncatedSvd (r := cfg.rank) (interactionMatrix us is train) U s V ∧ A 0 = U * diagonal s * V)
    (hpath : PsiPath cfg.rank chunks A) :
    ∃ st, psiRun env cfg train chunks = .ok st ∧ PsiHolds st us is cfg.rank (A chunks.length) ∧
      (∀ a : Fin us.length, psiScore st ((a : ℕ) : ℤ) = .ok (List.ofFn fun j => A chunks.length a j)) ∧
      ∃ st0, svdTrain env cfg train = .ok st0 ∧ st.maps = st0.maps ∧ st.history = st0.history ++
          chunks.flatten.map fun x => (((us.idxOf x.user : ℕ) : ℤ), ((is.idxOf x.item : ℕ) : ℤ)) := by
  obtain ⟨us', is', hu', hi', ⟨st, e, hinv, -⟩ | ⟨-, hbad⟩⟩ := C31_train env cfg train
  · obtain rfl := hu.unique hu'
    obtain rfl := hi.unique hi'
    obtain ⟨U, s, V, ht, e1, e2, e3, e4, e5⟩ := C98_train env cfg train st us is hu hi hsvd e
    obtain ⟨U', s', V', ht', hA⟩ := h0
    have hs : PsiHolds st us is cfg.rank (A 0) :=
      ⟨hinv.shape, U, diagonal s, V, e1, by rw [e2]; rfl, e3, (truncated_orth ht).2.1,
        by rw [hA]; exact truncated_unique hgap ht ht', e4, e5⟩
    obtain ⟨st', e', h', km, kh⟩ := psiPath_run env hqr cfg hcfg chunks A st hs hknown hpath
    refine ⟨st', ?_, h', h'.scores, st, e, km, kh⟩
    unfold psiRun
    rw [e, except_bind_ok, e']
  · obtain rfl := hu.unique hu'
    obtain rfl := hi.unique hi'
    exact absurd ⟨hr.1, by omega⟩ hbad

/-- **C153, two runs.** Under the same conditions two runs with different routines end with models that give the same
scores and recommendations to everybody. -/
theorem C153_same (env env' : PSIEnv ℝ) (hqr : QrAlways env.la) (hqr' : QrAlways env'.la) (cfg : PSICfg)
    (hcfg : cfg.init = none → cfg.integrator = false) (train : List (Row ℝ)) (us is : List ℤ)
    (hu : FirstAppearance (train.map Row.user) us) (hi : FirstAppearance (train.map Row.item) is)
    (hr : 1 ≤ cfg.rank ∧ cfg.rank < us.length ∧ cfg.rank < is.length)
    (hset : Settled env.la env'.la cfg.rank train) (chunks : List (List (Row ℝ)))
    (hknown : ∀ c ∈ chunks, ∀ x ∈ c, x.user ∈ us ∧ x.item ∈ is)
    (A : ℕ → Matrix (Fin us.length) (Fin is.length) ℝ)
    (h0 : ∃ U s V, TruncatedSvd (r := cfg.rank) (interactionMatrix us is train) U s V ∧ A 0 = U * diagonal s * V)
    (hpath : PsiPath cfg.rank chunks A) :
    ∃ st st', psiRun env cfg train chunks = .ok st ∧ psiRun env' cfg train chunks = .ok st' ∧
      (∀ u, psiScore st u = psiScore st' u) ∧
      ∀ argp users k filter internal, psiRecommend argp st users k filter internal =
        psiRecommend argp st' users k filter internal := by
  obtain ⟨g1, g2, g3⟩ := hset us is hu hi
  obtain ⟨st, e, hs, -, s0, t0, km, kh⟩ := C153_scores env hqr cfg hcfg train us is hu hi hr g1 g3 chunks hknown A h0 hpath
  obtain ⟨st', e', hs', -, s0', t0', km', kh'⟩ :=
    C153_scores env' hqr' cfg hcfg train us is hu hi hr g2 g3 chunks hknown A h0 hpath
  have hal := svdTrain_alike env env' cfg train hset
  rw [t0, t0'] at hal
  have hv : s0.view = s0'.view := by
    cases hal with
    | ok h => exact h.1
  obtain ⟨v1, v2⟩ := hs.view hs' (by rw [km, km']; exact congrArg RecView.maps hv)
    (by rw [kh, kh', show s0.history = s0'.history from congrArg RecView.history hv])
  refine ⟨st, st', e, e', v2, fun argp users k f i => ?_⟩
  unfold psiRecommend
  rw [v1]
  simp only [v2]

/-! ### The rank condition is needed -/

/-- a QR routine that completes the zero matrix with the unit vectors from number `t` on, if there are enough -/
noncomputable def completeLA (t : ℕ) : LinAlg ℝ :=
  { realLA with qr := fun {m n} A =>
      haveI := Classical.dec (A = 0)
      if A = 0 ∧ min m n + t ≤ m then (Matrix.of fun i j => if (i : ℕ) = (j : ℕ) + t then 1 else 0, 0) else realLA.qr A }

theorem complete_ok (t : ℕ) : QrAlways (completeLA t) := by
  classical
  intro m n A
  unfold QrOk completeLA
  dsimp only
  split
  · rename_i h
    refine ⟨by rw [Matrix.mul_zero, h.1], ?_⟩
    ext i j
    rw [Matrix.mul_apply, Finset.sum_eq_single ⟨i + t, by omega⟩]
    · simp [Matrix.one_apply, Fin.ext_iff]
    · intro b _ hb
      have e0 : (if (b : ℕ) = (i : ℕ) + t then (1 : ℝ) else 0) = 0 := if_neg fun e => hb (Fin.ext e)
      exact (congrArg (· * (if (b : ℕ) = (j : ℕ) + t then (1 : ℝ) else 0)) e0).trans (zero_mul _)
    · simp
  · exact realLA_qr A

/-- **C153, ranks.** Without the rank condition the result depends on the routine: from the matrix with a single 1 at
`(0, 0)` to the one with a single 1 at `(1, 1)`, one correct QR routine leads to the zero matrix, another to the new
matrix. -/
theorem C153_rank : ∃ (la la' : LinAlg ℝ) (U : Matrix (Fin 2) (Fin 1) ℝ) (V : Matrix (Fin 1) (Fin 2) ℝ)
    (D : Matrix (Fin 2) (Fin 2) ℝ), QrAlways la ∧ QrAlways la' ∧ U.transpose * U = 1 ∧ V * V.transpose = 1 ∧
    U * V = !![1, 0; 0, 0] ∧ U * V + D = !![0, 0; 0, 1] ∧
    ∃ (U1 : Matrix (Fin 2) (Fin 1) ℝ) (S1 : Matrix (Fin 1) (Fin 1) ℝ) (V1 : Matrix (Fin 1) (Fin 2) ℝ)
      (U1' : Matrix (Fin 2) (Fin 1) ℝ) (S1' : Matrix (Fin 1) (Fin 1) ℝ) (V1' : Matrix (Fin 1) (Fin 2) ℝ),
      psiStep la ⟨2, 1, U⟩ (.mat ⟨1, 1, 1⟩) ⟨1, 2, V⟩ ⟨2, 2, D⟩ = .ok (⟨2, 1, U1⟩, ⟨1, 1, S1⟩, ⟨1, 2, V1⟩) ∧
      psiStep la' ⟨2, 1, U⟩ (.mat ⟨1, 1, 1⟩) ⟨1, 2, V⟩ ⟨2, 2, D⟩ = .ok (⟨2, 1, U1'⟩, ⟨1, 1, S1'⟩, ⟨1, 2, V1'⟩) ∧
      U1 * S1 * V1 = 0 ∧ U1' * S1' * V1' = !![0, 0; 0, 1] := by
  classical
  have hK : (!![1; 0] : Matrix (Fin 2) (Fin 1) ℝ) * (1 : Matrix (Fin 1) (Fin 1) ℝ) +
      (!![-1, 0; 0, 1] : Matrix (Fin 2) (Fin 2) ℝ) * (!![1, 0] : Matrix (Fin 1) (Fin 2) ℝ).transpose = 0 := by
    ext i j
    fin_cases j
    fin_cases i <;> simp [Matrix.mul_apply, Fin.sum_univ_two, Matrix.vecMul, dotProduct]
  have key : ∀ t : ℕ, t ≤ 1 → ∃ (U1 : Matrix (Fin 2) (Fin 1) ℝ) (S1 : Matrix (Fin 1) (Fin 1) ℝ)
      (V1 : Matrix (Fin 1) (Fin 2) ℝ),
      psiStep (completeLA t) ⟨2, 1, !![1; 0]⟩ (.mat ⟨1, 1, 1⟩) ⟨1, 2, !![1, 0]⟩ ⟨2, 2, !![-1, 0; 0, 1]⟩ =
        .ok (⟨2, 1, U1⟩, ⟨1, 1, S1⟩, ⟨1, 2, V1⟩) ∧
      U1 * S1 * V1 = if t = 0 then 0 else !![0, 0; 0, 1] := by
    intro t ht
    have hrun := psiStep_run (completeLA t) (!![1; 0] : Matrix (Fin 2) (Fin 1) ℝ) (.mat ⟨1, 1, 1⟩)
      (1 : Matrix (Fin 1) (Fin 1) ℝ) rfl (!![1, 0] : Matrix (Fin 1) (Fin 2) ℝ) !![-1, 0; 0, 1]
    obtain ⟨k, l, U1, S1, V1, R, e1, e2, eR⟩ := C40_identity (completeLA t) (complete_ok t)
      (!![1; 0] : Matrix (Fin 2) (Fin 1) ℝ) (.mat ⟨1, 1, 1⟩) (1 : Matrix (Fin 1) (Fin 1) ℝ) rfl
      (!![1, 0] : Matrix (Fin 1) (Fin 2) ℝ) !![-1, 0; 0, 1]
    dsimp only at hrun
    rw [hrun] at e1
    have e1 := Except.ok.inj e1
    simp only [Prod.mk.injEq] at e1
    obtain ⟨g1, g2, g3⟩ := e1
    have gk : 1 = k := congrArg Mat.cols g1
    have gl : 1 = l := congrArg Mat.rows g3
    subst gk
    subst gl
    have hU : U1 = Matrix.of fun (i : Fin 2) (j : Fin 1) => if (i : ℕ) = (j : ℕ) + t then 1 else 0 := by
      have g1 := (Mat.mk.inj g1).2.2
      rw [heq_eq_eq] at g1
      rw [← g1, hK]
      unfold completeLA
      dsimp only
      rw [if_pos ⟨rfl, by omega⟩]
      rfl
    refine ⟨U1, S1, V1, ?_, ?_⟩
    · rw [hrun, g1, g2, g3]
    · rw [e2, hU]
      obtain rfl | rfl : t = 0 ∨ t = 1 := by omega
      · ext i j
        fin_cases i <;> fin_cases j <;> simp [Matrix.mul_apply, Fin.sum_univ_two]
      · ext i j
        fin_cases i <;> fin_cases j <;> simp [Matrix.mul_apply, Fin.sum_univ_two]
  obtain ⟨U1, S1, V1, h1, h2⟩ := key 0 (by omega)
  obtain ⟨U1', S1', V1', h1', h2'⟩ := key 1 (by omega)
  refine ⟨_, _, _, _, _, complete_ok 0, complete_ok 1, ?_, ?_, ?_, ?_, U1, S1, V1, U1', S1', V1', h1, h1', h2, h2'⟩
  · ext i j
    fin_cases i; fin_cases j
    simp [Matrix.mul_apply, Fin.sum_univ_two]
  · ext i j
    fin_cases i; fin_cases j
    simp [Matrix.mul_apply, Fin.sum_univ_two]
  · ext i j
    fin_cases i <;> fin_cases j <;> simp [Matrix.mul_apply]
  · ext i j
    fin_cases i <;> fin_cases j <;> simp [Matrix.mul_apply]

/-! ### Examples -/

-- user 8 takes item 41 once more: with rank 1 every correct pair of routines still predicts `[[2, 0], [0, 0]]`
example (env : PSIEnv ℝ) (hqr : QrAlways env.la)
    (hsvd : SvdsOk env.la 1 (interactionMatrix [7, 8] [40, 41] (exTieRows 2))) :
    ∃ st, psiRun env ⟨1, 0, 1, none, false⟩ (exTieRows 2) [[⟨8, 41, 1, 2, 1⟩]] = .ok st ∧
      psiScore st 0 = .ok [2, 0] ∧ psiScore st 1 = .ok [0, 0] := by
  have hu : FirstAppearance ((exTieRows 2).map Row.user) [7, 8] := firstAppearance_pdUnique [7, 8]
  have hi : FirstAppearance ((exTieRows 2).map Row.item) [40, 41] := firstAppearance_pdUnique [40, 41]
  have hD : interactionMatrix [7, 8] [40, 41] [(⟨8, 41, 1, 2, 1⟩ : Row ℝ)] =
      (!![0, 0; 0, 1] : Matrix (Fin 2) (Fin 2) ℝ) := by
    ext i j
    fin_cases i <;> fin_cases j <;> simp [interactionMatrix]
  have e : ((!![2, 0; 0, 0] + !![0, 0; 0, 1]) * (!![2, 0; 0, 0] : Matrix (Fin 2) (Fin 2) ℝ).transpose) =
      !![4, 0; 0, 0] := by
    ext i j
    fin_cases i <;> fin_cases j <;> simp [Matrix.mul_apply, Fin.sum_univ_two, Matrix.vecMul, dotProduct] <;> norm_num
  have hP : OrthProj (!![1, 0; 0, 0] : Matrix (Fin 2) (Fin 2) ℝ)
      ((!![2, 0; 0, 0] + !![0, 0; 0, 1]) * (!![2, 0; 0, 0] : Matrix (Fin 2) (Fin 2) ℝ).transpose) := by
    rw [e]
    refine ⟨?_, ?_, !![1 / 4, 0; 0, 0], ?_⟩ <;> ext i j <;> fin_cases i <;> fin_cases j <;>
      simp [Matrix.mul_apply, Fin.sum_univ_two] <;> norm_num
  have hQ : OrthProj (!![1, 0; 0, 0] : Matrix (Fin 2) (Fin 2) ℝ)
      (!![2, 0; 0, 0] : Matrix (Fin 2) (Fin 2) ℝ).transpose := by
    refine ⟨?_, ?_, !![1 / 2, 0; 0, 0], ?_⟩ <;> ext i j <;> fin_cases i <;> fin_cases j <;>
      simp [Matrix.mul_apply, Fin.sum_univ_two]
  have rk : ∀ x : ℝ, x ≠ 0 → (!![x, 0; 0, 0] : Matrix (Fin 2) (Fin 2) ℝ).rank = 1 := by
    intro x hx
    have e : (!![x, 0; 0, 0] : Matrix (Fin 2) (Fin 2) ℝ) = diagonal ![x, 0] := by
      ext i j
      fin_cases i <;> fin_cases j <;> simp
    rw [e, Matrix.rank_diagonal]
    have : {i : Fin 2 // (![x, 0] : Fin 2 → ℝ) i ≠ 0} ≃ Unit :=
      ⟨fun _ => (), fun _ => ⟨0, hx⟩, fun ⟨i, h⟩ => Subtype.ext (by
        fin_cases i
        · rfl
        · exact absurd rfl h), fun _ => rfl⟩
    exact (Fintype.card_congr this).trans rfl
  obtain ⟨st, h1, -, h2, -⟩ := C153_scores env hqr ⟨1, 0, 1, none, false⟩ (fun _ => rfl) (exTieRows 2) [7, 8] [40, 41]
    hu hi (by decide) hsvd exGap [[⟨8, 41, 1, 2, 1⟩]] (by simp) (fun _ => (!![2, 0; 0, 0] : Matrix (Fin 2) (Fin 2) ℝ))
    (by
      refine ⟨!![1; 0], fun _ => 2, !![1, 0], ?_, ?_⟩
      · rw [exTie_matrix]
        refine ⟨(1 : Matrix (Fin 2) (Fin 2) ℝ), ![2, 1], (1 : Matrix (Fin 2) (Fin 2) ℝ), (by decide), ?_, ?_, ?_, ?_, ?_,
          ?_, ?_, ?_⟩
        · exact (congrArg (· * (1 : Matrix (Fin 2) (Fin 2) ℝ)) (Matrix.one_mul (diagonal ![(2 : ℝ), 1]))).trans (Matrix.mul_one _)
        · rw [Matrix.transpose_one]; exact Matrix.mul_one _
        · rw [Matrix.transpose_one]; exact Matrix.mul_one _
        · intro i
          change Fin 2 at i
          fin_cases i <;> norm_num
        · intro i j hij
          change Fin 2 at i j
          fin_cases i <;> fin_cases j <;> first | (exact absurd hij (by decide)) | norm_num
        · intro i k
          change Fin 2 at i
          change Fin 1 at k
          fin_cases k
          fin_cases i <;> rfl
        · intro k
          change Fin 1 at k
          fin_cases k
          rfl
        · intro k j
          change Fin 2 at j
          change Fin 1 at k
          fin_cases k
          fin_cases j <;> rfl
      · ext i j
        change Fin 2 at i j
        fin_cases i <;> fin_cases j <;> simp [Matrix.mul_apply])
    (by
      intro t ht
      obtain rfl : t = 0 := by simpa using ht
      refine ⟨rk 2 (by norm_num), ?_, ?_⟩
      · show ((!![2, 0; 0, 0] + interactionMatrix [7, 8] [40, 41] [(⟨8, 41, 1, 2, 1⟩ : Row ℝ)]) *
          (!![2, 0; 0, 0] : Matrix (Fin 2) (Fin 2) ℝ).transpose).rank = 1
        rw [hD]
        exact (congrArg Matrix.rank e).trans (rk 4 (by norm_num))
      · show PsiNext (!![2, 0; 0, 0] : Matrix (Fin 2) (Fin 2) ℝ)
          (interactionMatrix [7, 8] [40, 41] [(⟨8, 41, 1, 2, 1⟩ : Row ℝ)]) !![2, 0; 0, 0]
        rw [hD]
        refine ⟨_, _, hP, hQ, ?_⟩
        ext i j
        fin_cases i <;> fin_cases j <;> simp [Matrix.mul_apply, Fin.sum_univ_two])
  exact ⟨st, h1, (h2 0).trans rfl, (h2 1).trans rfl⟩

end DynCF
