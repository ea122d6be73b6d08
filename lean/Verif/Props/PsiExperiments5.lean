/- C113: the experiment that appends rows or columns with incremental updates
(`get_dynamics_vec` with `get_incremental_svd_triple`). -/
import Verif.Props.PsiExperiments4
import Verif.Props.HooiMonotone

namespace DynCF

open Matrix

theorem hblock_castAdd {m r nc : ℕ} (A : Matrix (Fin m) (Fin r) ℝ) (N : Matrix (Fin m) (Fin nc) ℝ) :
    (hblock A N).submatrix id (Fin.castAdd nc) = A := by
  ext i j
  simp [hblock]

theorem rank_hblock_ge {m r nc : ℕ} (A : Matrix (Fin m) (Fin r) ℝ) (N : Matrix (Fin m) (Fin nc) ℝ) :
    A.rank ≤ (hblock A N).rank := by
  have h : A = hblock A N * (1 : Matrix (Fin (r + nc)) (Fin (r + nc)) ℝ).submatrix id (Fin.castAdd nc) := by
    ext i j
    rw [Matrix.mul_apply]
    simp [Matrix.one_apply, hblock]
  conv_lhs => rw [h]
  exact Matrix.rank_mul_le_left _ _

/-- an orthonormal `U`, non-zero `s` and orthonormal rows of `V`: the product has rank `r` -/
theorem rank_triple {m r q : ℕ} (U : Matrix (Fin m) (Fin r) ℝ) (s : Fin r → ℝ) (V : Matrix (Fin r) (Fin q) ℝ)
    (hU : U.transpose * U = 1) (hV : V * V.transpose = 1) (hs : ∀ i, s i ≠ 0) :
    r ≤ (U * diagonal s * V).rank := by
  classical
  have h : diagonal s = U.transpose * (U * diagonal s * V) * V.transpose := by
    rw [Matrix.mul_assoc, Matrix.mul_assoc, Matrix.mul_assoc, hV, Matrix.mul_one, ← Matrix.mul_assoc, hU,
      Matrix.one_mul]
  have h1 : (diagonal s).rank = r := by
    rw [Matrix.rank_diagonal, Fintype.card_congr (Equiv.subtypeUnivEquiv hs), Fintype.card_fin]
  refine h1.symm.le.trans ?_
  conv_lhs => rw [h]
  exact (Matrix.rank_mul_le_left _ _).trans (Matrix.rank_mul_le_right _ _)

/-- if a product with `k` diagonal values has rank at least `k`, no value is zero -/
theorem values_ne_zero {m k q : ℕ} (U : Matrix (Fin m) (Fin k) ℝ) (s : Fin k → ℝ) (V : Matrix (Fin k) (Fin q) ℝ)
    (h : k ≤ (U * diagonal s * V).rank) (i : Fin k) : s i ≠ 0 := by
  classical
  intro hi
  have h1 : k ≤ (diagonal s).rank :=
    h.trans ((Matrix.rank_mul_le_left _ _).trans (Matrix.rank_mul_le_right _ _))
  rw [Matrix.rank_diagonal] at h1
  have h2 : Fintype.card {i // s i ≠ 0} < Fintype.card (Fin k) :=
    Fintype.card_subtype_lt (x := i) (by simpa using hi)
  rw [Fintype.card_fin] at h2
  omega

theorem orth_le {m r : ℕ} (U : Matrix (Fin m) (Fin r) ℝ) (hU : U.transpose * U = 1) : r ≤ m := by
  have h1 : (U.transpose * U).rank ≤ U.rank := Matrix.rank_mul_le_right _ _
  rw [hU, Matrix.rank_one, Fintype.card_fin] at h1
  exact h1.trans (Matrix.rank_le_height U)

/-- one exact step: the factors of a matrix of rank `r` stay orthonormal factors with non-zero values when
columns that do not raise the rank are appended -/
theorem newVectors_exact (la : LinAlg ℝ) (rng : Rng ℝ) (hqr : QrAlways la)
    (hsvd : ∀ {a b : ℕ} (A : Matrix (Fin a) (Fin b) ℝ), SvdOk la A) {m r q nc : ℕ} (hr0 : 0 < r)
    (U : Matrix (Fin m) (Fin r) ℝ) (s : Fin r → ℝ) (V : Matrix (Fin r) (Fin q) ℝ) (N : Matrix (Fin m) (Fin nc) ℝ)
    (hnc : nc ≤ m) (nPower os : ℕ) (hU : U.transpose * U = 1) (hV : V * V.transpose = 1) (hs : ∀ i, s i ≠ 0)
    (hrank : (hblock (U * diagonal s * V) N).rank ≤ r) (hcap : Captures rng (hblock (U * diagonal s) N) r nPower os) :
    ∃ (U2 : Matrix (Fin m) (Fin r) ℝ) (s2 : Fin r → ℝ) (V2 : Matrix (Fin r) (Fin (q + nc)) ℝ),
      updateSvdNewVectors la rng ⟨m, r, U⟩ (.vec r s) ⟨r, q, V⟩ ⟨m, nc, N⟩ nPower os =
        .ok (⟨m, r, U2⟩, ⟨r, s2⟩, ⟨r, q + nc, V2⟩) ∧
      U2 * diagonal s2 * V2 = hblock (U * diagonal s * V) N ∧
      U2.transpose * U2 = 1 ∧ V2 * V2.transpose = 1 ∧ ∀ i, s2 i ≠ 0 := by
  classical
  have hpos : 0 < r + nc := by omega
  have hrm := orth_le U hU
  have hmul : hblock (U * diagonal s) N = hblock (U * diagonal s * V) N * blk V.transpose 0 0 1 := by
    rw [hblock_mul_blk]
    simp [Matrix.mul_assoc, hV]
  have hrank' : (hblock (U * diagonal s) N).rank ≤ r := by
    rw [hmul]
    exact (Matrix.rank_mul_le_left _ _).trans hrank
  obtain ⟨k, U2, s2, V2, hrun, hex⟩ := C42_recovery la rng hqr hsvd U (.vec r s) (diagonal s) rfl V N hnc hpos
    nPower os hU hrank' hcap
  obtain ⟨p, k1, P1, D1, W1, a1, a2, a3, U1, V1, -, hrun1, -, -, -, -, hk1⟩ :=
    C42_append la rng hqr U (.vec r s) (diagonal s) rfl V N hnc hpos nPower os
  have hkr : k = r := by
    rw [hrun] at hrun1
    have := congrArg (fun x => x.2.1.len) (Except.ok.inj hrun1)
    exact this.trans (hk1 hrm)
  subst hkr
  obtain ⟨k3, A3, B3, V3, hrun3, hV3⟩ :=
    C42_right_orthonormal la rng hqr hsvd U (.vec k s) (diagonal s) rfl V N hnc hpos nPower os hV
  rw [hrun] at hrun3
  cases hrun3
  have hge : k ≤ (U2 * diagonal s2 * V2).rank := by
    rw [hex]
    exact (rank_triple U s V hU hV hs).trans (rank_hblock_ge _ _)
  have hne := values_ne_zero U2 s2 V2 hge
  refine ⟨U2, s2, V2, hrun, hex, ?_, hV3, hne⟩
  obtain ⟨p, P, D, k4, d1, d2, d3, he, hk, hrun4, hPD, hp⟩ :=
    newVectors_run la rng hqr U (.vec k s) (diagonal s) rfl V N hnc hpos nPower os
  have hgram : D.transpose * D = (P * D).transpose * (P * D) := by
    rcases hp with ⟨hP, -⟩ | ⟨-, hiso⟩
    · rw [Matrix.transpose_mul, Matrix.mul_assoc, ← Matrix.mul_assoc _ P, hP, Matrix.one_mul]
    · exact (hiso hU).symm
  have hD : D.rank ≤ k := by
    rw [← Matrix.rank_transpose_mul_self, hgram, Matrix.rank_transpose_mul_self, hPD]
    exact hrank'
  rw [← hPD] at hcap
  obtain ⟨B, hB⟩ := captures_of_gram rng D (P * D) hgram k nPower os hcap
  obtain ⟨k', d1', d2', d3', he', hexd⟩ := C47_recovery la rng D k nPower os ⟨hqr _, hsvd _⟩ B hB hD
  rw [he] at he'
  cases he'
  rw [hrun] at hrun4
  cases hrun4
  obtain ⟨h1, h3⟩ := C47_orthonormal la rng D k nPower os ⟨hqr _, hsvd _⟩
  rw [he] at h1 h3
  dsimp only at h1 h3
  have hiso : (P * D).transpose * (P * D) = D.transpose * D := hgram.symm
  have hY : d1 = D * (d3.transpose * Matrix.diagonal fun i => (s2 i)⁻¹) := by
    rw [← hexd, ← Matrix.mul_assoc, Matrix.mul_assoc _ d3, h3, Matrix.mul_one, Matrix.mul_assoc,
      Matrix.diagonal_mul_diagonal]
    have : (fun i => s2 i * (s2 i)⁻¹) = fun _ => 1 := funext fun i => mul_inv_cancel₀ (hne i)
    rw [this, Matrix.diagonal_one, Matrix.mul_one]
  generalize d3.transpose * Matrix.diagonal (fun i => (s2 i)⁻¹) = Y at hY
  have h1' : Y.transpose * (D.transpose * D) * Y = 1 := by
    rw [hY, Matrix.transpose_mul] at h1
    simpa only [Matrix.mul_assoc] using h1
  rw [hY, ← Matrix.mul_assoc P D Y, Matrix.transpose_mul (P * D) Y, Matrix.mul_assoc,
    ← Matrix.mul_assoc _ (P * D) Y, hiso, ← Matrix.mul_assoc, h1']

/-- the matrix in the form in which columns are appended: transposed when rows are appended -/
def colForm (axis : ℤ) (A : Mat ℝ) : Mat ℝ := if axis = 0 then A.T else A

/-- the factors of the matrix in that form -/
def colTriple (axis : ℤ) (t : Triple) : Triple := if axis = 0 then flipTriple t else t

theorem colForm_colForm (axis : ℤ) (A : Mat ℝ) : colForm axis (colForm axis A) = A := by
  unfold colForm
  split <;> rfl

theorem colTriple_colTriple (axis : ℤ) (t : Triple) : colTriple axis (colTriple axis t) = t := by
  unfold colTriple flipTriple
  split <;> rfl

theorem colForm_along {axis : ℤ} (hax : axis = 0 ∨ axis = 1 ∨ axis = -1) (A : Mat ℝ) :
    colForm axis A = (alongAxis axis A).T := by
  unfold colForm alongAxis
  rcases hax with rfl | rfl | rfl <;> rfl

/-- later steps of `get_incremental_svd_triple` are `update_svd_new_vectors` in column form -/
theorem incremental_step (la : LinAlg ℝ) (rng : Rng ℝ) (nPower os i : ℕ) (axis : ℤ) (t : Triple) (T c : Mat ℝ)
    (rank : ℕ) : getIncrementalSvdTriple la rng nPower os (i + 1) (some axis) (some t) T c rank =
      (updateSvdNewVectors la rng (colTriple axis t).1 (.vec (colTriple axis t).2.1.len (colTriple axis t).2.1.val)
        (colTriple axis t).2.2 (colForm axis c) nPower os).map (colTriple axis) := by
  unfold getIncrementalSvdTriple
  rw [if_neg (by omega)]
  dsimp only
  by_cases h : axis = 0
  · subst h
    rw [show colTriple 0 t = flipTriple t from rfl, show colForm 0 c = c.T from rfl,
      show colTriple 0 = flipTriple from rfl, if_pos rfl]
    cases updateSvdNewVectors la rng (flipTriple t).1 (.vec (flipTriple t).2.1.len (flipTriple t).2.1.val)
      (flipTriple t).2.2 c.T nPower os <;> rfl
  · have e : colTriple axis = id := by funext t; exact if_neg h
    rw [e, show colForm axis c = c from if_neg h, if_neg (by simpa using h), id]
    cases updateSvdNewVectors la rng t.1 (.vec t.2.1.len t.2.1.val) t.2.2 c nPower os <;> rfl

theorem concat_col {axis : ℤ} (hax : axis = 0 ∨ axis = 1 ∨ axis = -1) {T c : Mat ℝ} {m q nc : ℕ}
    {A : Matrix (Fin m) (Fin q) ℝ} {N : Matrix (Fin m) (Fin nc) ℝ} (hT : colForm axis T = ⟨m, q, A⟩)
    (hc : colForm axis c = ⟨m, nc, N⟩) : ∃ T', T.concat c axis = .ok T' ∧ colForm axis T' = ⟨m, q + nc, hblock A N⟩ := by
  unfold colForm at hT hc ⊢
  unfold Mat.concat
  by_cases h : axis = 0
  · subst h
    rw [if_pos rfl] at hT hc
    rw [if_pos (Or.inl rfl)]
    unfold Mat.vcat
    rw [hT, hc, hcat_mk, except_bind_ok]
    exact ⟨_, rfl, rfl⟩
  · rw [if_neg h] at hT hc
    rw [if_neg (by omega), if_pos (by omega), hT, hc, hcat_mk]
    refine ⟨_, rfl, ?_⟩
    rw [if_neg h]

/-- the product and the error in column form -/
theorem record_col {axis : ℤ} {t : Triple} {T : Mat ℝ} {m r n : ℕ} {U : Matrix (Fin m) (Fin r) ℝ} {s : Fin r → ℝ}
    {V : Matrix (Fin r) (Fin n) ℝ} (ht : colTriple axis t = (⟨m, r, U⟩, ⟨r, s⟩, ⟨r, n, V⟩))
    (hT : colForm axis T = ⟨m, n, U * diagonal s * V⟩) (hm : 0 < m) (hn : 0 < n) :
    ∃ P, svd2mtx t.1 t.2.1 t.2.2 = .ok P ∧ sqrtErrRelativeMtx P T = .ok 0 := by
  by_cases h : axis = 0
  · subst h
    have ht' : t = colTriple 0 (⟨m, r, U⟩, ⟨r, s⟩, ⟨r, n, V⟩) := by rw [← ht, colTriple_colTriple]
    have hT' : T = colForm 0 ⟨m, n, U * diagonal s * V⟩ := by rw [← hT, colForm_colForm]
    subst ht' hT'
    obtain ⟨e, he, -, hee⟩ := C59_dense hn hm (V.transpose * diagonal s * U.transpose) (U * diagonal s * V).transpose
    have he0 := hee.2 (by
      rw [Matrix.transpose_mul, Matrix.transpose_mul, Matrix.diagonal_transpose, Matrix.mul_assoc])
    subst he0
    exact ⟨⟨n, m, V.transpose * diagonal s * U.transpose⟩, svd2mtx_mk _ _ _, he⟩
  · unfold colTriple at ht
    unfold colForm at hT
    rw [if_neg h] at ht hT
    subst ht hT
    obtain ⟨e, he, -, hee⟩ := C59_dense hm hn (U * diagonal s * V) (U * diagonal s * V)
    have he0 := hee.2 rfl
    subst he0
    exact ⟨_, svd2mtx_mk _ _ _, he⟩

/-- The sample drawn by `random_svd` inside every update captures the extended matrix `[u s | new]` (in column
form); `t` are the factors before the blocks `cs` are appended one by one. -/
def IncCaptures (la : LinAlg ℝ) (rng : Rng ℝ) (nPower os : ℕ) (axis : ℤ) : Triple → List (Mat ℝ) → Prop
  | _, [] => True
  | t, c :: cs =>
    (∀ (m r q nc : ℕ) (U : Matrix (Fin m) (Fin r) ℝ) (s : Fin r → ℝ) (V : Matrix (Fin r) (Fin q) ℝ)
      (N : Matrix (Fin m) (Fin nc) ℝ), colTriple axis t = (⟨m, r, U⟩, ⟨r, s⟩, ⟨r, q, V⟩) →
      colForm axis c = ⟨m, nc, N⟩ → Captures rng (hblock (U * diagonal s) N) r nPower os) ∧
    ∀ t', (updateSvdNewVectors la rng (colTriple axis t).1 (.vec (colTriple axis t).2.1.len (colTriple axis t).2.1.val)
        (colTriple axis t).2.2 (colForm axis c) nPower os).map (colTriple axis) = .ok t' →
      IncCaptures la rng nPower os axis t' cs

theorem hblock_mul {m r q nc : ℕ} (X : Matrix (Fin m) (Fin r) ℝ) (Y : Matrix (Fin r) (Fin q) ℝ)
    (Z : Matrix (Fin r) (Fin nc) ℝ) : hblock (X * Y) (X * Z) = X * hblock Y Z := by
  ext i j
  refine Fin.addCases (fun j => ?_) (fun j => ?_) j <;> simp [hblock, Matrix.mul_apply]

theorem inc_loop (la : LinAlg ℝ) (rng : Rng ℝ) (hqr : QrAlways la)
    (hsvd : ∀ {a b : ℕ} (A : Matrix (Fin a) (Fin b) ℝ), SvdOk la A) (nPower os : ℕ) (axis : ℤ)
    (hax : axis = 0 ∨ axis = 1 ∨ axis = -1) {m r : ℕ} (rank : ℕ) (hr0 : 0 < r) (X : Matrix (Fin m) (Fin r) ℝ)
    (cs : List (Mat ℝ)) :
    ∀ (i : ℕ) {q : ℕ} (t : Triple) (T : Mat ℝ) (U : Matrix (Fin m) (Fin r) ℝ) (s : Fin r → ℝ)
      (V : Matrix (Fin r) (Fin q) ℝ) (Y : Matrix (Fin r) (Fin q) ℝ),
      colTriple axis t = (⟨m, r, U⟩, ⟨r, s⟩, ⟨r, q, V⟩) → colForm axis T = ⟨m, q, U * diagonal s * V⟩ →
      0 < q → U.transpose * U = 1 → V * V.transpose = 1 → (∀ i, s i ≠ 0) → U * diagonal s * V = X * Y →
      (∀ c ∈ cs, ∃ (nc : ℕ) (Z : Matrix (Fin r) (Fin nc) ℝ), nc ≤ m ∧ colForm axis c = ⟨m, nc, X * Z⟩) →
      IncCaptures la rng nPower os axis t cs →
      ∃ rs, dynVecLoop (getIncrementalSvdTriple la rng nPower os) axis rank (i + 1) (some t) (some T) cs = .ok rs ∧
        ∀ x ∈ rs, x.1 = 0 := by
  induction cs with
  | nil => intro i q t T U s V Y _ _ _ _ _ _ _ _ _; exact ⟨[], rfl, by simp⟩
  | cons c cs ih =>
    intro i q t T U s V Y ht hT hq hU hV hs hXY hcs hcap
    obtain ⟨nc, Z, hnc, hc⟩ := hcs c (by simp)
    obtain ⟨hcap1, hcap2⟩ := hcap
    have hm : 0 < m := lt_of_lt_of_le hr0 (orth_le U hU)
    have hrk : (hblock (U * diagonal s * V) (X * Z)).rank ≤ r := by
      rw [hXY, hblock_mul]
      exact (Matrix.rank_mul_le_left _ _).trans (Matrix.rank_le_width _)
    obtain ⟨U2, s2, V2, hrun, hex, o1, o2, o3⟩ := newVectors_exact la rng hqr hsvd hr0 U s V (X * Z) hnc nPower os
      hU hV hs hrk (hcap1 m r q nc U s V (X * Z) ht hc)
    obtain ⟨T', hT', hTc⟩ := concat_col hax hT hc
    obtain ⟨t', ht'⟩ : ∃ t', colTriple axis (⟨m, r, U2⟩, ⟨r, s2⟩, ⟨r, q + nc, V2⟩) = t' := ⟨_, rfl⟩
    have ht2 : colTriple axis t' = (⟨m, r, U2⟩, ⟨r, s2⟩, ⟨r, q + nc, V2⟩) := by rw [← ht', colTriple_colTriple]
    have hf : getIncrementalSvdTriple la rng nPower os (i + 1) (some axis) (some t) T' c rank = .ok t' := by
      rw [incremental_step, ht, hc]
      dsimp only
      rw [hrun, ← ht']
      rfl
    rw [← hex] at hTc
    obtain ⟨P, hP, he⟩ := record_col ht2 hTc hm (by omega)
    obtain ⟨rs, hrs, hz⟩ := ih (i + 1) t' T' U2 s2 V2 (hblock Y Z) ht2 hTc (by omega) o1 o2 o3
      (by rw [hex, hXY, hblock_mul]) (fun c hc => hcs c (List.mem_cons_of_mem _ hc)) (hcap2 t' (by
        rw [← hf, incremental_step]))
    refine ⟨(0, (T'.rows, T'.cols)) :: rs, ?_, ?_⟩
    · unfold dynVecLoop dynRecord nextTarget
      dsimp only
      rw [hT', except_bind_ok, hf, except_bind_ok, hP, except_bind_ok, he, except_bind_ok]
      dsimp only [pure, Except.pure]
      rw [except_bind_ok, hrs, except_bind_ok]
    · intro x hx
      rcases List.mem_cons.1 hx with rfl | hx
      · rfl
      · exact hz x hx

/-- a block of a matrix that factors through `X` factors through `X` -/
theorem block_factor {axis : ℤ} (hax : axis = 0 ∨ axis = 1 ∨ axis = -1) {C : Mat ℝ} {size r : ℕ}
    (X : Matrix (Fin size) (Fin r) ℝ) (Y : Matrix (Fin r) (Fin size) ℝ) (hC : colForm axis C = ⟨size, size, X * Y⟩)
    (l : List (Mat ℝ)) (hcover : (l.map (alongAxis axis)).flatMap rowLists = rowLists (alongAxis axis C))
    (hcols : ∀ B ∈ l, (alongAxis axis B).cols = (alongAxis axis C).cols) (c : Mat ℝ) (hc : c ∈ l) :
    ∃ Z : Matrix (Fin r) (Fin (alongAxis axis c).rows) ℝ, (alongAxis axis c).rows ≤ size ∧
      colForm axis c = ⟨size, (alongAxis axis c).rows, X * Z⟩ := by
  have hA : alongAxis axis C = ⟨size, size, (X * Y).transpose⟩ := by
    rw [colForm_along hax] at hC
    exact congrArg Mat.T hC
  have h1 := hcols c hc
  rw [colForm_along hax]
  have hmem : ∀ x ∈ rowLists (alongAxis axis c), x ∈ rowLists (alongAxis axis C) := by
    intro x hx
    rw [← hcover]
    exact List.mem_flatMap.2 ⟨_, List.mem_map.2 ⟨c, hc, rfl⟩, hx⟩
  have hlen : (alongAxis axis c).rows ≤ size := by
    have h2 : (rowLists (alongAxis axis C)).length = size := by rw [rowLists_length, hA]
    rw [← h2, ← hcover, List.length_flatMap, ← rowLists_length (alongAxis axis c)]
    exact List.single_le_sum (by simp) _ (List.mem_map.2 ⟨_, List.mem_map.2 ⟨c, hc, rfl⟩, rfl⟩)
  rw [hA] at hmem h1
  generalize alongAxis axis c = B at h1 hmem hlen ⊢
  obtain ⟨n, w, B⟩ := B
  dsimp only at h1 hlen ⊢
  subst h1
  have hrow : ∀ i : Fin n, ∃ j : Fin w, B i = (X * Y).transpose j := by
    intro i
    have h2 := hmem (List.ofFn (B i)) (by
      unfold rowLists
      exact List.mem_ofFn.2 ⟨i, rfl⟩)
    unfold rowLists at h2
    obtain ⟨j, hj⟩ := List.mem_ofFn.1 h2
    exact ⟨j, (List.ofFn_injective hj).symm⟩
  choose f hf using hrow
  refine ⟨Y.submatrix id f, hlen, ?_⟩
  rw [Mat.T_mk]
  congr 1
  ext i j
  rw [Matrix.transpose_apply, hf]
  rfl

/-- **C113, exact.** `get_dynamics_vec` with `get_incremental_svd_triple`, axis 0, 1 or -1, correct QR and SVD
routines. If the first block already has the rank of the experiment, and the samples of `random_svd` capture the
first block and the extended matrices, the experiment completes and every recorded error is zero. -/
theorem C113_exact (la : LinAlg ℝ) (hqr : QrAlways la)
    (hsvd : ∀ {a b : ℕ} (A : Matrix (Fin a) (Fin b) ℝ), SvdOk la A) (rng : Rng ℝ) (d : GenDraws ℝ) (clock : ℕ → ℝ)
    (size rank nPower os : ℕ) (rf rn : ℝ) (hrf : 0 ≤ rf) (axis : ℤ) (hax : axis = 0 ∨ axis = 1 ∨ axis = -1)
    (hr0 : 0 < rank) (hrank : rank ≤ size) (first step : ℕ) (hfirst : firstBlock size rf = first) (hle : first ≤ size)
    (hstep : blockStep size rf rn = step) (hpos : 0 < step) :
    ∃ (C : Mat ℝ) (l : List (Mat ℝ)), generateMatrix la d size size rank = .ok C ∧
      splitMatrix C rf rn axis = .ok (leading axis C first :: l) ∧
      ((leading axis C first).val.rank = rank → Captures rng (leading axis C first).val rank nPower os →
        IncCaptures la rng nPower os axis (randomSvd la rng (leading axis C first) rank nPower os) l →
        ∃ res, getDynamicsVec la d clock size rank rf rn axis (getIncrementalSvdTriple la rng nPower os) = .ok res ∧
          res.errs.length = l.length + 1 ∧ ∀ e ∈ res.errs, e = 0) := by
  classical
  obtain ⟨M, Q1, Q2, hM, -, -, hMe, -⟩ := C99_matrix la d size size rank (hqr _) (hqr _) hrank hrank
  have hdim : (alongAxis axis ⟨size, size, M⟩ : Mat ℝ).rows = size ∧
      (alongAxis axis ⟨size, size, M⟩ : Mat ℝ).cols = size := by
    unfold alongAxis
    split <;> exact ⟨rfl, rfl⟩
  have hax' : axis = 0 ∨ axis = -2 ∨ axis = 1 ∨ axis = -1 := by omega
  obtain ⟨l0, B, hl, hB, hBr⟩ := split_first ⟨size, size, M⟩ axis hax' rf rn hrf first step
    (by rw [hdim.1, hfirst]) (by rw [hdim.1]; exact hle) (by rw [hdim.1, hstep]) hpos
  obtain ⟨-, hcover, hcols⟩ := splitMatrix_along ⟨size, size, M⟩ rf rn hrf axis l0 hl
  obtain ⟨l, rfl⟩ : ∃ l, l0 = B :: l := by
    cases l0 with
    | nil => simp at hB
    | cons b l => rw [List.head?_cons] at hB; cases hB; exact ⟨l, rfl⟩
  have hBl : B = leading axis ⟨size, size, M⟩ first := by
    refine alongAxis_inj (axis := axis) (mat_eq_of_rowLists ?_ ?_)
    · rw [alongAxis_leading]
      exact hcols B (by simp)
    · rw [alongAxis_leading, takeRows_rowLists, ← hcover, List.map_cons, List.flatMap_cons, List.take_left']
      rw [rowLists_length, hBr]
  obtain ⟨X, Y, hXY⟩ : ∃ (X : Matrix (Fin size) (Fin rank) ℝ) (Y : Matrix (Fin rank) (Fin size) ℝ),
      colForm axis ⟨size, size, M⟩ = ⟨size, size, X * Y⟩ := by
    unfold colForm
    split
    · refine ⟨Q2, (Q1 * diagonal (d.s rank)).transpose, ?_⟩
      rw [Mat.T_mk, hMe, Matrix.transpose_mul, Matrix.transpose_transpose]
    · exact ⟨Q1 * diagonal (d.s rank), Q2.transpose, by rw [hMe]⟩
  refine ⟨_, l, hM, by rw [hl, hBl], ?_⟩
  rw [← hBl]
  intro hrk hcap hinc
  obtain ⟨Z, -, hZ⟩ := block_factor hax X Y hXY _ hcover hcols B (by simp)
  obtain ⟨t, ht⟩ : ∃ t, randomSvd la rng B rank nPower os = t := ⟨_, rfl⟩
  rw [ht] at hinc
  obtain ⟨U, s, V, h1, h2, o1, o2, o3⟩ : ∃ (U : Matrix (Fin size) (Fin rank) ℝ) (s : Fin rank → ℝ)
      (V : Matrix (Fin rank) (Fin (alongAxis axis B).rows) ℝ),
      colTriple axis t = (⟨size, rank, U⟩, ⟨rank, s⟩, ⟨rank, (alongAxis axis B).rows, V⟩) ∧
      colForm axis B = ⟨size, (alongAxis axis B).rows, U * diagonal s * V⟩ ∧
      U.transpose * U = 1 ∧ V * V.transpose = 1 ∧ ∀ i, s i ≠ 0 := by
    clear hinc hBl hl hcover hcols hB
    obtain ⟨m, n, B⟩ := B
    dsimp only at hrk hcap
    obtain ⟨W, hW⟩ := hcap
    obtain ⟨k, U, s, V, -, hk, he, -⟩ := C47_components la rng B rank nPower os
    obtain ⟨k', U', s', V', he', hex⟩ := C47_recovery la rng B rank nPower os ⟨hqr _, hsvd _⟩ W hW hrk.le
    have ho := C47_orthonormal la rng B rank nPower os ⟨hqr _, hsvd _⟩
    rw [he] at he' ho
    cases he'
    have hkr : k = rank := by
      have h3 := Matrix.rank_le_height B
      have h4 := Matrix.rank_le_width B
      omega
    subst hkr
    rw [he] at ht
    subst ht
    have hne := values_ne_zero U s V (by rw [hex]; exact hrk.ge)
    by_cases h0 : axis = 0
    · subst h0
      have h5 : n = size := congrArg Mat.rows hZ
      subst h5
      refine ⟨V.transpose, s, U.transpose, rfl, ?_, ?_, ?_, hne⟩
      · show (⟨n, m, B.transpose⟩ : Mat ℝ) = ⟨n, m, V.transpose * diagonal s * U.transpose⟩
        rw [← hex, Matrix.transpose_mul, Matrix.transpose_mul, Matrix.diagonal_transpose, Matrix.mul_assoc]
      · rw [Matrix.transpose_transpose]
        exact ho.2
      · show U.transpose * U.transpose.transpose = 1
        rw [Matrix.transpose_transpose]
        exact ho.1
    · have e1 : colForm axis ⟨m, n, B⟩ = ⟨m, n, B⟩ := if_neg h0
      have e2 : alongAxis axis (⟨m, n, B⟩ : Mat ℝ) = ⟨n, m, B.transpose⟩ := by
        unfold alongAxis
        rw [if_neg (by omega)]
        rfl
      rw [e1] at hZ ⊢
      have h5 : m = size := congrArg Mat.rows hZ
      subst h5
      rw [e2]
      exact ⟨U, s, V, if_neg h0, by rw [hex], ho.1, ho.2, hne⟩
  have hBpos : 0 < (alongAxis axis B).rows := by
    have h3 := orth_le V.transpose (by rw [Matrix.transpose_transpose]; exact o2)
    omega
  have hXZ : U * diagonal s * V = X * Z := by
    rw [h2] at hZ
    simpa using hZ
  obtain ⟨rs, hrs, hz⟩ := inc_loop la rng hqr hsvd nPower os axis hax rank hr0 X l 0 t B U s V Z h1 h2 hBpos o1 o2 o3 hXZ
    (fun c hc => by
      obtain ⟨Z', h6, h7⟩ := block_factor hax X Y hXY _ hcover hcols c (List.mem_cons_of_mem _ hc)
      exact ⟨_, Z', h6, h7⟩) hinc
  obtain ⟨P, hP, he⟩ := record_col h1 h2 (by omega) hBpos
  have hrun : dynVecLoop (getIncrementalSvdTriple la rng nPower os) axis rank 0 none none (B :: l) =
      .ok ((0, (B.rows, B.cols)) :: rs) := by
    unfold dynVecLoop dynRecord nextTarget
    have hf : getIncrementalSvdTriple la rng nPower os 0 (some axis) none B B rank = .ok t := by
      unfold getIncrementalSvdTriple
      rw [if_pos rfl, ht]
    dsimp only
    rw [except_bind_ok, hf, except_bind_ok, hP, except_bind_ok, he, except_bind_ok]
    dsimp only [pure, Except.pure]
    rw [except_bind_ok, hrs, except_bind_ok]
  have hres : getDynamicsVec la d clock size rank rf rn axis (getIncrementalSvdTriple la rng nPower os) =
      .ok ⟨(List.range (rs.length + 1)).map clock, 0 :: rs.map Prod.fst, size, rank,
        (B.rows, B.cols) :: rs.map Prod.snd⟩ := by
    unfold getDynamicsVec
    rw [hM, except_bind_ok, hl, except_bind_ok, hrun, except_bind_ok]
    rfl
  refine ⟨_, hres, ?_, ?_⟩
  · obtain ⟨C', l', Ts, ts, hC, hl', -, -, -, -, -, -, h3, -⟩ := C102_run la d clock size rank rf rn hrf axis _ _ hres
    rw [hM] at hC
    cases hC
    rw [hl] at hl'
    cases hl'
    exact h3
  · intro e he
    rcases List.mem_cons.1 he with rfl | he
    · rfl
    · obtain ⟨x, hx, rfl⟩ := List.mem_map.1 he
      exact hz x hx

/-- random draws of full row rank capture everything, provided every appended block has at most `os` columns (in
column form) -/
theorem incCaptures_full (la : LinAlg ℝ) (rng : Rng ℝ) (nPower os : ℕ) (axis : ℤ)
    (hf : ∀ r nc, nc ≤ os → FullRows (rng (r + nc) (r + os))) (cs : List (Mat ℝ))
    (hcs : ∀ c ∈ cs, (colForm axis c).cols ≤ os) : ∀ t, IncCaptures la rng nPower os axis t cs := by
  induction cs with
  | nil => intro t; trivial
  | cons c cs ih =>
    intro t
    refine ⟨fun m r q nc U s V N _ hc => full_captures _ _ _ _ _ (hf r nc ?_), fun t' _ =>
      ih (fun c hc => hcs c (List.mem_cons_of_mem _ hc)) t'⟩
    have := hcs c (by simp)
    rw [hc] at this
    exact this

/-! ### the number of components never grows -/

theorem err_zero_eq {P T : Mat ℝ} {e : ℝ} (h : sqrtErrRelativeMtx P T = .ok e) : 0 ≤ e ∧ (e = 0 → P = T) := by
  obtain ⟨m, n, P⟩ := P
  obtain ⟨m', n', T⟩ := T
  by_cases hs : m = m' ∧ n = n'
  · obtain ⟨rfl, rfl⟩ := hs
    by_cases hmn : m * n = 0
    · unfold sqrtErrRelativeMtx at h
      rw [Mat.sub_mk, except_bind_ok] at h
      unfold meanSquare at h
      rw [if_pos hmn, except_bind_error] at h
      cases h
    · obtain ⟨x, h7, h6, h8⟩ := C59_dense (Nat.pos_of_ne_zero fun h => hmn (by rw [h, Nat.zero_mul]))
        (Nat.pos_of_ne_zero fun h => hmn (by rw [h, Nat.mul_zero])) P T
      rw [h] at h7
      cases h7
      exact ⟨h6, fun h0 => by rw [h8.1 h0]⟩
  · unfold sqrtErrRelativeMtx Mat.sub Mat.zipWith at h
    rw [dif_neg hs] at h
    split at h <;> rw [except_bind_error] at h <;> cases h

theorem dot_rank_left {u v P : Mat ℝ} (h : Mat.dot u v = .ok P) : P.val.rank ≤ u.val.rank := by
  obtain ⟨m, k, u⟩ := u
  obtain ⟨k', n, v⟩ := v
  unfold Mat.dot at h
  dsimp only at h
  split at h
  · next hk =>
    subst hk
    have h := Except.ok.inj h
    subst h
    exact Matrix.rank_mul_le_left _ _
  · cases h

theorem svd2mtx_rank {u v P : Mat ℝ} {s : Vec ℝ} (h : svd2mtx u s v = .ok P) : P.val.rank ≤ u.cols := by
  unfold svd2mtx at h
  split at h
  · exact (dot_rank_left h).trans (Matrix.rank_le_width _)
  · split at h
    · next h1 =>
      refine ((dot_rank_left h).trans ?_).trans_eq h1.symm
      exact Matrix.rank_vecMulVec_le (fun i => u.val i (Fin.cast h1.symm 0)) s.val
    · split at h
      · exact (dot_rank_left h).trans (Matrix.rank_le_width _)
      · cases h

/-- `update_svd_new_vectors` returns at most as many components as it is given -/
theorem newVectors_cols {la : LinAlg ℝ} {rng : Rng ℝ} {u vt new : Mat ℝ} {s : SArg ℝ} {nPower os : ℕ}
    {r : Triple} (h : updateSvdNewVectors la rng u s vt new nPower os = .ok r) :
    r.1.cols ≤ u.cols ∧ r.2.2.rows ≤ u.cols := by
  unfold updateSvdNewVectors at h
  obtain ⟨p, -, h⟩ := (bind_ok_iff _ _ _).1 h
  obtain ⟨up, -, h⟩ := (bind_ok_iff _ _ _).1 h
  obtain ⟨co, -, h⟩ := (bind_ok_iff _ _ _).1 h
  obtain ⟨uj, -, h⟩ := (bind_ok_iff _ _ _).1 h
  obtain ⟨vi, -, h⟩ := (bind_ok_iff _ _ _).1 h
  obtain ⟨dq, -, h⟩ := (bind_ok_iff _ _ _).1 h
  obtain ⟨x, -, h⟩ := (bind_ok_iff _ _ _).1 h
  obtain ⟨u2, h1, h⟩ := (bind_ok_iff _ _ _).1 h
  obtain ⟨v2, h2, h⟩ := (bind_ok_iff _ _ _).1 h
  have h := Except.ok.inj h
  subst h
  obtain ⟨x1, a, b, X⟩ := x
  obtain ⟨k, U, s', V, -, hk, he, -⟩ := C47_components la rng X u.cols nPower os
  rw [he] at h1 h2
  have hd : ∀ {A B C : Mat ℝ}, A.dot B = .ok C → C.cols = B.cols := by
    intro A B C h
    unfold Mat.dot at h
    split at h
    · have h := Except.ok.inj h
      subst h
      rfl
    · cases h
  have e1 := hd h1
  have e2 := hd h2
  dsimp only at e1 e2 ⊢
  refine ⟨by omega, ?_⟩
  show v2.cols ≤ u.cols
  rw [e2]
  show k ≤ u.cols
  omega

/-- **C113, rank.** In a completed run with `get_incremental_svd_triple` the number of components never exceeds
`min(rank, first block)`: in every step whose target has a larger rank the recorded error is positive. -/
theorem C113_rank (la : LinAlg ℝ) (rng : Rng ℝ) (d : GenDraws ℝ) (clock : ℕ → ℝ) (size rank nPower os : ℕ) (rf rn : ℝ)
    (hrf : 0 ≤ rf) (axis : ℤ) (res : DynResult (ℕ × ℕ))
    (h : getDynamicsVec la d clock size rank rf rn axis (getIncrementalSvdTriple la rng nPower os) = .ok res) :
    ∃ (C : Mat ℝ) (l : List (Mat ℝ)), generateMatrix la d size size rank = .ok C ∧ splitMatrix C rf rn axis = .ok l ∧
      res.errs.length = l.length ∧
      ∀ (j : ℕ) (e : ℝ) (c0 : Mat ℝ), res.errs[j]? = some e → l[0]? = some c0 →
        min rank (alongAxis axis c0).rows <
          (leading axis C (((l.take (j + 1)).map fun B => (alongAxis axis B).rows).sum)).val.rank → 0 < e := by
  obtain ⟨C, l, Ts, ts, hC, hl, -, -, -, -, -, -, h3, -, -, h5, -, h4⟩ := C102_run la d clock size rank rf rn hrf axis _ _ h
  refine ⟨C, l, hC, hl, h3, ?_⟩
  intro j e c0 he hc0 hlt
  have hinv : ∀ (j : ℕ) (t : Triple), ts[j]? = some t → t.1.cols ≤ min rank (alongAxis axis c0).rows ∧
      t.2.2.rows ≤ min rank (alongAxis axis c0).rows := by
    intro j
    induction j with
    | zero =>
      intro t ht
      have h0 : 0 < l.length := (List.getElem?_eq_some_iff.1 hc0).1
      obtain ⟨c, T, t', e', h6, -, h7, -, -, -, -, h8⟩ := h4 0 h0
      rw [hc0] at h6
      cases h6
      rw [ht] at h7
      cases h7
      unfold getIncrementalSvdTriple at h8
      rw [if_pos rfl] at h8
      have h8 := Except.ok.inj h8
      subst h8
      obtain ⟨a, b, X⟩ := c0
      obtain ⟨k, U, s', V, -, hk, he, -⟩ := C47_components la rng X rank nPower os
      rw [he]
      have hr : min a b ≤ (alongAxis axis (⟨a, b, X⟩ : Mat ℝ)).rows := by
        unfold alongAxis
        split
        · exact Nat.min_le_left _ _
        · exact Nat.min_le_right _ _
      dsimp only
      omega
    | succ j ih =>
      intro t ht
      have hj : j + 1 < l.length := by
        rw [← h5]
        exact (List.getElem?_eq_some_iff.1 ht).1
      obtain ⟨c, T, t', e', h6, -, h7, -, -, -, -, h8⟩ := h4 (j + 1) hj
      rw [ht] at h7
      cases h7
      rw [if_neg (by omega), Nat.add_sub_cancel, List.getElem?_eq_getElem (by omega), incremental_step] at h8
      obtain ⟨i1, i2⟩ := ih ts[j] (List.getElem?_eq_getElem (by omega))
      generalize ts[j] = t0 at h8 i1 i2
      obtain ⟨r, hr⟩ : ∃ r, updateSvdNewVectors la rng (colTriple axis t0).1
          (.vec (colTriple axis t0).2.1.len (colTriple axis t0).2.1.val) (colTriple axis t0).2.2 (colForm axis c) nPower os =
          .ok r := by
        cases hu : updateSvdNewVectors la rng (colTriple axis t0).1
          (.vec (colTriple axis t0).2.1.len (colTriple axis t0).2.1.val) (colTriple axis t0).2.2 (colForm axis c) nPower os with
        | error x => rw [hu] at h8; cases h8
        | ok r => exact ⟨r, rfl⟩
      rw [hr] at h8
      have h8 : colTriple axis r = t := Except.ok.inj h8
      obtain ⟨k1, k2⟩ := newVectors_cols hr
      rw [← h8]
      have key : ∀ x : Triple, ((colTriple axis x).1.cols = x.1.cols ∧ (colTriple axis x).2.2.rows = x.2.2.rows) ∨
          ((colTriple axis x).1.cols = x.2.2.rows ∧ (colTriple axis x).2.2.rows = x.1.cols) := by
        intro x
        unfold colTriple
        split
        · exact Or.inr ⟨rfl, rfl⟩
        · exact Or.inl ⟨rfl, rfl⟩
      have a1 := key r
      have a2 := key t0
      omega
  have hj : j < l.length := by
    rw [← h3]
    exact (List.getElem?_eq_some_iff.1 he).1
  obtain ⟨c, T, t, e', -, -, ht, he', hT, -, ⟨P, hP, hPe⟩, -⟩ := h4 j hj
  rw [he] at he'
  cases he'
  rw [← hT] at hlt
  obtain ⟨h6, h7⟩ := err_zero_eq hPe
  refine lt_of_le_of_ne h6 fun h0 => ?_
  have h8 := h7 h0.symm
  subst h8
  have h9 := svd2mtx_rank hP
  have h10 := (hinv j t ht).1
  omega

/-! ### the experiment completes -/

theorem record_total {axis : ℤ} {t : Triple} {T : Mat ℝ} {m r n : ℕ} {U : Matrix (Fin m) (Fin r) ℝ} {s : Fin r → ℝ}
    {V : Matrix (Fin r) (Fin n) ℝ} {A : Matrix (Fin m) (Fin n) ℝ} (ht : colTriple axis t = (⟨m, r, U⟩, ⟨r, s⟩, ⟨r, n, V⟩))
    (hT : colForm axis T = ⟨m, n, A⟩) (hm : 0 < m) (hn : 0 < n) :
    ∃ P e, svd2mtx t.1 t.2.1 t.2.2 = .ok P ∧ sqrtErrRelativeMtx P T = .ok e := by
  by_cases h : axis = 0
  · subst h
    have ht' : t = colTriple 0 (⟨m, r, U⟩, ⟨r, s⟩, ⟨r, n, V⟩) := by rw [← ht, colTriple_colTriple]
    have hT' : T = colForm 0 ⟨m, n, A⟩ := by rw [← hT, colForm_colForm]
    subst ht' hT'
    obtain ⟨e, he, -⟩ := C59_dense hn hm (V.transpose * diagonal s * U.transpose) A.transpose
    exact ⟨⟨n, m, V.transpose * diagonal s * U.transpose⟩, e, svd2mtx_mk _ _ _, he⟩
  · unfold colTriple at ht
    unfold colForm at hT
    rw [if_neg h] at ht hT
    subst ht hT
    obtain ⟨e, he, -⟩ := C59_dense hm hn (U * diagonal s * V) A
    exact ⟨_, e, svd2mtx_mk _ _ _, he⟩

theorem inc_total (la : LinAlg ℝ) (rng : Rng ℝ) (hqr : QrAlways la) (nPower os : ℕ) (axis : ℤ)
    (hax : axis = 0 ∨ axis = 1 ∨ axis = -1) {m : ℕ} (hm : 0 < m) (rank : ℕ) (cs : List (Mat ℝ)) :
    ∀ (i : ℕ) {q r : ℕ} (t : Triple) (T : Mat ℝ) (U : Matrix (Fin m) (Fin r) ℝ) (s : Fin r → ℝ)
      (V : Matrix (Fin r) (Fin q) ℝ) (A : Matrix (Fin m) (Fin q) ℝ),
      colTriple axis t = (⟨m, r, U⟩, ⟨r, s⟩, ⟨r, q, V⟩) → colForm axis T = ⟨m, q, A⟩ → 0 < q → 0 < r → r ≤ m →
      (∀ c ∈ cs, ∃ (nc : ℕ) (N : Matrix (Fin m) (Fin nc) ℝ), nc ≤ m ∧ colForm axis c = ⟨m, nc, N⟩) →
      ∃ rs, dynVecLoop (getIncrementalSvdTriple la rng nPower os) axis rank (i + 1) (some t) (some T) cs = .ok rs := by
  induction cs with
  | nil => intro i q r t T U s V A _ _ _ _ _ _; exact ⟨[], rfl⟩
  | cons c cs ih =>
    intro i q r t T U s V A ht hT hq hr hrm hcs
    obtain ⟨nc, N, hnc, hc⟩ := hcs c (by simp)
    obtain ⟨p, k, P, D, W, d1, d2, d3, U2, V2, -, hrun, -, -, -, -, hk⟩ :=
      C42_append la rng hqr U (.vec r s) (diagonal s) rfl V N hnc (by omega) nPower os
    have hkr := hk hrm
    subst hkr
    obtain ⟨T', hT', hTc⟩ := concat_col hax hT hc
    obtain ⟨t', ht'⟩ : ∃ t', colTriple axis (⟨m, k, U2⟩, ⟨k, d2⟩, ⟨k, q + nc, V2⟩) = t' := ⟨_, rfl⟩
    have ht2 : colTriple axis t' = (⟨m, k, U2⟩, ⟨k, d2⟩, ⟨k, q + nc, V2⟩) := by rw [← ht', colTriple_colTriple]
    have hf : getIncrementalSvdTriple la rng nPower os (i + 1) (some axis) (some t) T' c rank = .ok t' := by
      rw [incremental_step, ht, hc]
      dsimp only
      rw [hrun, ← ht']
      rfl
    obtain ⟨P', e, hP, he⟩ := record_total ht2 hTc hm (by omega)
    obtain ⟨rs, hrs⟩ := ih (i + 1) t' T' U2 d2 V2 _ ht2 hTc (by omega) hr hrm
      (fun c hc => hcs c (List.mem_cons_of_mem _ hc))
    refine ⟨(e, (T'.rows, T'.cols)) :: rs, ?_⟩
    unfold dynVecLoop dynRecord nextTarget
    dsimp only
    rw [hT', except_bind_ok, hf, except_bind_ok, hP, except_bind_ok, he, except_bind_ok]
    dsimp only [pure, Except.pure]
    rw [except_bind_ok, hrs, except_bind_ok]

/-- **C113, completion.** With axis 0, 1 or -1, a positive rank that fits the size, a non-empty first block and a
positive step the experiment with `get_incremental_svd_triple` completes (whatever the random draws are). -/
theorem C113_completes (la : LinAlg ℝ) (hqr : QrAlways la) (rng : Rng ℝ) (d : GenDraws ℝ) (clock : ℕ → ℝ)
    (size rank nPower os : ℕ) (rf rn : ℝ) (hrf : 0 ≤ rf) (axis : ℤ) (hax : axis = 0 ∨ axis = 1 ∨ axis = -1)
    (hr0 : 0 < rank) (hrank : rank ≤ size) (first step : ℕ) (hfirst : firstBlock size rf = first) (h0 : 0 < first)
    (hle : first ≤ size) (hstep : blockStep size rf rn = step) (hpos : 0 < step) :
    ∃ res, getDynamicsVec la d clock size rank rf rn axis (getIncrementalSvdTriple la rng nPower os) = .ok res := by
  classical
  obtain ⟨M, Q1, Q2, hM, -, -, hMe, -⟩ := C99_matrix la d size size rank (hqr _) (hqr _) hrank hrank
  have hdim : (alongAxis axis ⟨size, size, M⟩ : Mat ℝ).rows = size ∧
      (alongAxis axis ⟨size, size, M⟩ : Mat ℝ).cols = size := by
    unfold alongAxis
    split <;> exact ⟨rfl, rfl⟩
  have hax' : axis = 0 ∨ axis = -2 ∨ axis = 1 ∨ axis = -1 := by omega
  obtain ⟨l0, B, hl, hB, hBr⟩ := split_first ⟨size, size, M⟩ axis hax' rf rn hrf first step
    (by rw [hdim.1, hfirst]) (by rw [hdim.1]; exact hle) (by rw [hdim.1, hstep]) hpos
  obtain ⟨-, hcover, hcols⟩ := splitMatrix_along ⟨size, size, M⟩ rf rn hrf axis l0 hl
  obtain ⟨l, rfl⟩ : ∃ l, l0 = B :: l := by
    cases l0 with
    | nil => simp at hB
    | cons b l => rw [List.head?_cons] at hB; cases hB; exact ⟨l, rfl⟩
  obtain ⟨X, hX⟩ : ∃ X : Matrix (Fin size) (Fin size) ℝ, colForm axis ⟨size, size, M⟩ = ⟨size, size, X * 1⟩ := by
    unfold colForm
    split
    · exact ⟨M.transpose, by rw [Matrix.mul_one]; rfl⟩
    · exact ⟨M, by rw [Matrix.mul_one]⟩
  obtain ⟨N, hZ⟩ : ∃ N : Matrix (Fin size) (Fin first) ℝ, colForm axis B = ⟨size, first, N⟩ := by
    obtain ⟨Z, -, hZ⟩ := block_factor hax X 1 hX _ hcover hcols B (by simp)
    revert Z
    rw [hBr]
    exact fun Z hZ => ⟨_, hZ⟩
  obtain ⟨t, ht⟩ : ∃ t, randomSvd la rng B rank nPower os = t := ⟨_, rfl⟩
  obtain ⟨k, U, s, V, h1, hk0, hk1⟩ : ∃ (k : ℕ) (U : Matrix (Fin size) (Fin k) ℝ) (s : Fin k → ℝ)
      (V : Matrix (Fin k) (Fin first) ℝ), colTriple axis t = (⟨size, k, U⟩, ⟨k, s⟩, ⟨k, first, V⟩) ∧ 0 < k ∧ k ≤ size := by
    have hBe : B = colForm axis (colForm axis B) := (colForm_colForm _ _).symm
    rw [hZ] at hBe
    subst hBe
    by_cases hx : axis = 0
    · subst hx
      obtain ⟨k, U, s, V, -, hk, he, -⟩ := C47_components la rng N.transpose rank nPower os
      have he' : randomSvd la rng (colForm 0 ⟨size, _, N⟩) rank nPower os = (⟨_, k, U⟩, ⟨k, s⟩, ⟨k, _, V⟩) := he
      rw [he'] at ht
      subst ht
      exact ⟨k, V.transpose, s, U.transpose, rfl, by omega, by omega⟩
    · obtain ⟨k, U, s, V, -, hk, he, -⟩ := C47_components la rng N rank nPower os
      rw [show colForm axis ⟨size, _, N⟩ = ⟨size, _, N⟩ from if_neg hx, he] at ht
      subst ht
      exact ⟨k, U, s, V, if_neg hx, by omega, by omega⟩
  obtain ⟨rs, hrs⟩ := inc_total la rng hqr nPower os axis hax (by omega) rank l 0 t B U s V _ h1 hZ h0 hk0 hk1
    (fun c hc => by
      obtain ⟨Z', h6, h7⟩ := block_factor hax X 1 hX _ hcover hcols c (List.mem_cons_of_mem _ hc)
      exact ⟨_, _, h6, h7⟩)
  obtain ⟨P, e, hP, he⟩ := record_total h1 hZ (by omega) h0
  have hrun : dynVecLoop (getIncrementalSvdTriple la rng nPower os) axis rank 0 none none (B :: l) =
      .ok ((e, (B.rows, B.cols)) :: rs) := by
    unfold dynVecLoop dynRecord nextTarget
    have hf : getIncrementalSvdTriple la rng nPower os 0 (some axis) none B B rank = .ok t := by
      unfold getIncrementalSvdTriple
      rw [if_pos rfl, ht]
    dsimp only
    rw [except_bind_ok, hf, except_bind_ok, hP, except_bind_ok, he, except_bind_ok]
    dsimp only [pure, Except.pure]
    rw [except_bind_ok, hrs, except_bind_ok]
  unfold getDynamicsVec
  rw [hM, except_bind_ok, hl, except_bind_ok, hrun, except_bind_ok]
  exact ⟨_, rfl⟩

/-! ### examples -/

theorem eyeRng_fullRows (a b : ℕ) (h : a ≤ b) : FullRows (eyeRng a b) := by
  refine ⟨eyeRng b a, ?_⟩
  ext i j
  rw [Matrix.mul_apply, Finset.sum_eq_single (Fin.castLE h i)]
  · simp [eyeRng, Matrix.one_apply, Fin.ext_iff]
  · intro x _ hx
    have : (i : ℕ) ≠ x := fun e => hx (Fin.ext e.symm)
    simp [eyeRng, this]
  · simp

-- size 3, rank 1, blocks of one row each: the first row of the generated matrix is not zero, so the first block
-- has rank 1 and every recorded error is zero
example : ∃ res : DynResult (ℕ × ℕ), getDynamicsVec realLA exDraws (fun _ => 0) 3 1 (1/3) (1/2) 0
    (getIncrementalSvdTriple realLA eyeRng 0 3) = .ok res ∧ 0 < res.errs.length ∧ ∀ e ∈ res.errs, e = 0 := by
  have hf : firstBlock 3 (1/3 : ℝ) = (1 : ℕ) := by
    unfold firstBlock pyInt
    norm_num
  have hs : blockStep 3 (1/3 : ℝ) (1/2) = (1 : ℕ) := by
    unfold blockStep
    rw [hf]
    unfold pyInt
    norm_num
  obtain ⟨C, l, hC, hl, hrun⟩ := C113_exact realLA qrAlways_real (fun A => realLA_svd A) eyeRng exDraws (fun _ => 0) 3 1 0 3
    (1/3) (1/2) (by norm_num) 0 (Or.inl rfl) (by norm_num) (by norm_num) 1 1 hf (by norm_num) hs (by norm_num)
  obtain ⟨Q1, e1, n1⟩ := qr_ones_entry (n := 3) (by norm_num) (fun _ _ => 1) (fun _ => rfl)
  have hM : generateMatrix realLA exDraws 3 3 1 =
      .ok ⟨3, 3, Q1 * diagonal (fun i : Fin 1 => ((i : ℕ) : ℝ) + 3) * Q1.transpose⟩ := by
    unfold generateMatrix
    dsimp only [exDraws]
    rw [e1, Mat.T_mk, svd2mtx_mk]
  obtain ⟨M, hMe⟩ : ∃ M, Q1 * diagonal (fun i : Fin 1 => ((i : ℕ) : ℝ) + 3) * Q1.transpose = M := ⟨_, rfl⟩
  rw [hMe] at hM
  rw [hM] at hC
  have hC := Except.ok.inj hC
  subst hC
  have h00 : M 0 0 ≠ 0 := by
    rw [← hMe]
    simp [Matrix.mul_apply, n1 0]
  have hrk : (leading 0 (⟨3, 3, M⟩ : Mat ℝ) 1).val.rank = 1 := by
    have hlead : leading 0 (⟨3, 3, M⟩ : Mat ℝ) 1 = ⟨1, 3, M.submatrix (Fin.castLE (by norm_num)) id⟩ := rfl
    rw [hlead]
    refine le_antisymm (Matrix.rank_le_height _) ?_
    have h1 : (M.submatrix (Fin.castLE (by norm_num) : Fin 1 → Fin 3) id) * (Matrix.of fun (j : Fin 3) (_ : Fin 1) => if j = 0 then (1 : ℝ) else 0) =
        diagonal fun _ => M 0 0 := by
      ext i j
      fin_cases i
      fin_cases j
      simp [Matrix.mul_apply, Fin.castLE]
    have h2 := Matrix.rank_mul_le_left (M.submatrix (Fin.castLE (by norm_num) : Fin 1 → Fin 3) id)
      (Matrix.of fun (j : Fin 3) (_ : Fin 1) => if j = 0 then (1 : ℝ) else 0)
    classical
    rw [h1, Matrix.rank_diagonal, Fintype.card_congr (Equiv.subtypeUnivEquiv fun _ => h00), Fintype.card_fin] at h2
    exact h2
  obtain ⟨-, hcover, hcols⟩ := splitMatrix_along ⟨3, 3, M⟩ (1/3) (1/2) (by norm_num) 0 _ hl
  obtain ⟨res, h1, h2, h3⟩ := hrun hrk (full_captures _ _ _ _ _ (eyeRng_fullRows 3 (1 + 3) (by norm_num)))
    (incCaptures_full _ _ _ _ _ (fun r nc h => eyeRng_fullRows _ _ (by omega)) _ (fun c hc => by
      obtain ⟨Z, h4, h5⟩ := block_factor (Or.inl rfl) (M.transpose) 1 (by rw [Matrix.mul_one]; rfl) _ hcover hcols c
        (List.mem_cons_of_mem _ hc)
      rw [h5]
      exact h4) _)
  exact ⟨res, h1, by omega, h3⟩

/-- draws of `generate_matrix` that make the generated 2 × 2 matrix of rank 2 invertible -/
noncomputable def eyeDraws : GenDraws ℝ := ⟨eyeRng, eyeRng, fun _ _ => 3⟩

-- size 2, rank 2, two blocks of one row: the second target is invertible, one component is kept, the second
-- error is positive
example : ∃ (res : DynResult (ℕ × ℕ)) (e : ℝ), getDynamicsVec realLA eyeDraws (fun _ => 0) 2 2 (1/2) 1 0
    (getIncrementalSvdTriple realLA eyeRng 0 2) = .ok res ∧ res.errs[1]? = some e ∧ 0 < e := by
  classical
  have hf : firstBlock 2 (1/2 : ℝ) = (1 : ℕ) := by
    unfold firstBlock pyInt
    norm_num
  have hs : blockStep 2 (1/2 : ℝ) 1 = (1 : ℕ) := by
    unfold blockStep
    rw [hf]
    unfold pyInt
    norm_num
  obtain ⟨res, hres⟩ := C113_completes realLA qrAlways_real eyeRng eyeDraws (fun _ => 0) 2 2 0 2 (1/2) 1 (by norm_num) 0
    (Or.inl rfl) (by norm_num) (by norm_num) 1 1 hf (by norm_num) (by norm_num) hs (by norm_num)
  obtain ⟨C, l, hC, hl, hlen, hpos⟩ := C113_rank realLA eyeRng eyeDraws (fun _ => 0) 2 2 0 2 (1/2) 1 (by norm_num) 0 res hres
  obtain ⟨M, Q1, Q2, hM, o1, o2, hMe, -⟩ := C99_matrix realLA eyeDraws 2 2 2 (realLA_qr _) (realLA_qr _) le_rfl le_rfl
  rw [hM] at hC
  have hC := Except.ok.inj hC
  subst hC
  obtain ⟨l', hl', ⟨B0, hB0, hB0r⟩, hnext⟩ := C77_sizes (⟨2, 2, M⟩ : Mat ℝ) (1/2) 1 (by norm_num) 1 1 hf (by norm_num) hs
    (by norm_num)
  rw [hl] at hl'
  cases hl'
  obtain ⟨⟨B1, hB1, -, hB1r⟩, -⟩ : (∃ B, l[1]? = some B ∧ 0 < B.rows ∧ B.rows = 1) ∧ True := by
    obtain ⟨B, h1, h2, h3⟩ := (hnext 1 le_rfl).1 (by norm_num)
    exact ⟨⟨B, h1, h2, h3⟩, trivial⟩
  have h1 : 1 < res.errs.length := by
    rw [hlen]
    exact (List.getElem?_eq_some_iff.1 hB1).1
  refine ⟨res, res.errs[1], hres, List.getElem?_eq_getElem h1, hpos 1 _ B0 (List.getElem?_eq_getElem h1) hB0 ?_⟩
  have hB0r' : (alongAxis 0 B0).rows = 1 := hB0r
  have hsum : ((l.take (1 + 1)).map fun B => (alongAxis 0 B).rows).sum = 2 := by
    match l, hB0, hB1 with
    | b0 :: b1 :: l, h3, h4 =>
      cases h3
      cases h4
      show (alongAxis 0 B0).rows + ((alongAxis 0 B1).rows + 0) = 2
      rw [hB0r', show (alongAxis 0 B1).rows = B1.rows from rfl, hB1r]
  rw [hsum, hB0r']
  have hM2 : M.rank = 2 := by
    refine le_antisymm (Matrix.rank_le_height M) ?_
    have h5 : (diagonal fun _ : Fin 2 => (3 : ℝ)) = Q1.transpose * M * Q2 := by
      rw [hMe, Matrix.mul_assoc, Matrix.mul_assoc, o2, Matrix.mul_one, ← Matrix.mul_assoc, o1, Matrix.one_mul]
      rfl
    have h6 : (diagonal fun _ : Fin 2 => (3 : ℝ)).rank = 2 := by
      rw [Matrix.rank_diagonal, Fintype.card_congr (Equiv.subtypeUnivEquiv fun _ => by norm_num), Fintype.card_fin]
    refine h6.symm.le.trans ?_
    rw [h5]
    exact (Matrix.rank_mul_le_left _ _).trans (Matrix.rank_mul_le_right _ _)
  have hlead : (leading 0 (⟨2, 2, M⟩ : Mat ℝ) 2) = ⟨2, 2, M⟩ := rfl
  rw [hlead]
  show min 2 1 < M.rank
  rw [hM2]
  norm_num

end DynCF
