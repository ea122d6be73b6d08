/-
C186: the unit in which relevances are measured has no influence on the recommendations of `SVD` and `PSI`: multiplying all
relevances by a positive constant multiplies all scores by it.
-/
import Verif.Props.PsiBackend
import Verif.Props.RowOrder

namespace DynCF
open Matrix

/-! ### Specification -/

/-- The same interaction with its relevance in another unit. -/
def inUnit (c : ℝ) (x : Row ℝ) : Row ℝ := { x with rel := c * x.rel }

/-! ### Lemmas -/

theorem inUnit_users (c : ℝ) (rows : List (Row ℝ)) : (rows.map (inUnit c)).map Row.user = rows.map Row.user := by
  rw [List.map_map]
  rfl

theorem inUnit_items (c : ℝ) (rows : List (Row ℝ)) : (rows.map (inUnit c)).map Row.item = rows.map Row.item := by
  rw [List.map_map]
  rfl

theorem interactionMatrix_inUnit (c : ℝ) (us is : List ℤ) (rows : List (Row ℝ)) :
    interactionMatrix us is (rows.map (inUnit c)) = c • interactionMatrix us is rows := by
  ext i j
  simp only [interactionMatrix, Matrix.of_apply, Matrix.smul_apply, smul_eq_mul, List.filter_map, List.map_map]
  exact List.sum_map_mul_left (l := rows.filter fun r => decide (r.user = us[i] ∧ r.item = is[j]))
    (f := Row.rel) (r := c)

theorem diagonal_unit {r : ℕ} (c : ℝ) (s : Fin r → ℝ) : diagonal (fun i => c * s i) = c • diagonal s :=
  (Matrix.diagonal_smul c s).symm ▸ rfl

theorem truncated_unit {m n r : ℕ} {c : ℝ} (hc : 0 < c) {A : Matrix (Fin m) (Fin n) ℝ} {U : Matrix (Fin m) (Fin r) ℝ}
    {s : Fin r → ℝ} {V : Matrix (Fin r) (Fin n) ℝ} (h : TruncatedSvd A U s V) :
    TruncatedSvd (c • A) U (fun i => c * s i) V := by
  obtain ⟨U', s', V', hr, h1, h2, h3, h4, h5, h6, h7, h8⟩ := h
  refine ⟨U', fun i => c * s' i, V', hr, ?_, h2, h3, fun i => mul_nonneg hc.le (h4 i),
    fun i j hij => mul_le_mul_of_nonneg_left (h5 i j hij) hc.le, h6, fun k => congrArg (c * ·) (h7 k), h8⟩
  rw [diagonal_unit, Matrix.mul_smul, Matrix.smul_mul, h1]

theorem gap_unit {m n r : ℕ} {c : ℝ} (hc : 0 < c) {A : Matrix (Fin m) (Fin n) ℝ} (h : SpectralGap r A) :
    SpectralGap r (c • A) := by
  obtain ⟨U', s', V', h1, h2, h3, h4, h5, h6⟩ := h
  refine ⟨U', fun i => c * s' i, V', ?_, h2, h3, fun i => mul_nonneg hc.le (h4 i),
    fun i j hij => mul_le_mul_of_nonneg_left (h5 i j hij) hc.le, fun i j hi hj => mul_lt_mul_of_pos_left (h6 i j hi hj) hc⟩
  rw [diagonal_unit, Matrix.mul_smul, Matrix.smul_mul, h1]

theorem orthProj_unit {m n : ℕ} {c : ℝ} (hc : c ≠ 0) {P : Matrix (Fin m) (Fin m) ℝ} {M : Matrix (Fin m) (Fin n) ℝ}
    (h : OrthProj P M) : OrthProj P (c • M) := by
  obtain ⟨X, hX⟩ := h.range
  refine ⟨h.symm, by rw [Matrix.mul_smul, h.keeps], c⁻¹ • X, ?_⟩
  rw [Matrix.smul_mul, Matrix.mul_smul, smul_smul, mul_inv_cancel₀ hc, one_smul, hX]

theorem unit_gram {m n : ℕ} (c : ℝ) (A D : Matrix (Fin m) (Fin n) ℝ) :
    (c • A + c • D) * (c • A).transpose = (c * c) • ((A + D) * A.transpose) := by
  rw [← smul_add, Matrix.transpose_smul, Matrix.smul_mul, Matrix.mul_smul, smul_smul]

theorem psiNext_unit {m n : ℕ} {c : ℝ} (hc : c ≠ 0) {A D B : Matrix (Fin m) (Fin n) ℝ} (h : PsiNext A D B) :
    PsiNext (c • A) (c • D) (c • B) := by
  obtain ⟨P, Q, hP, hQ, rfl⟩ := h
  refine ⟨P, Q, ?_, ?_, ?_⟩
  · rw [unit_gram]
    exact orthProj_unit (mul_ne_zero hc hc) hP
  · rw [Matrix.transpose_smul]
    exact orthProj_unit hc hQ
  · rw [Matrix.mul_smul, Matrix.smul_mul, smul_sub, smul_add]

theorem rank_unit {m n : ℕ} {c : ℝ} (hc : c ≠ 0) (A : Matrix (Fin m) (Fin n) ℝ) : (c • A).rank = A.rank :=
  Matrix.rank_smul_of_mem_nonZeroDivisors A (mem_nonZeroDivisors_of_ne_zero hc)

theorem psiPath_unit {us is : List ℤ} {r : ℕ} {c : ℝ} (hc : c ≠ 0) {chunks : List (List (Row ℝ))}
    {A : ℕ → Matrix (Fin us.length) (Fin is.length) ℝ} (h : PsiPath r chunks A) :
    PsiPath r (chunks.map (List.map (inUnit c))) fun t => c • A t := by
  intro t ht
  have ht' : t < chunks.length := by simpa using ht
  obtain ⟨h1, h2, h3⟩ := h t ht'
  rw [List.getElem_map, interactionMatrix_inUnit]
  refine ⟨by rw [rank_unit hc]; exact h1, ?_, psiNext_unit hc h3⟩
  rw [unit_gram, rank_unit (mul_ne_zero hc hc)]
  exact h2

/-- a run over known users and items satisfies the invariant with the users and items of training -/
theorem psiInv_known (env : PSIEnv ℝ) (cfg : PSICfg) {train : List (Row ℝ)} {chunks : List (List (Row ℝ))}
    {us is : List ℤ} (hu : FirstAppearance (train.map Row.user) us) (hi : FirstAppearance (train.map Row.item) is)
    (hknown : ∀ c ∈ chunks, ∀ x ∈ c, x.user ∈ us ∧ x.item ∈ is) {st st0 : PSIState ℝ}
    {A : Matrix (Fin us.length) (Fin is.length) ℝ} (h : PsiHolds st us is cfg.rank A)
    (e0 : svdTrain env cfg train = .ok st0) (hh : st.history = st0.history ++
      chunks.flatten.map fun x => (((us.idxOf x.user : ℕ) : ℤ), ((is.idxOf x.item : ℕ) : ℤ))) :
    PsiInv st us is cfg.rank (train ++ chunks.flatten) := by
  obtain ⟨us', is', hu', hi', ⟨st1, e, hinv, -⟩ | ⟨e, -⟩⟩ := C31_train env cfg train
  · obtain rfl := hu.unique hu'
    obtain rfl := hi.unique hi'
    obtain rfl := Except.ok.inj (e.symm.trans e0)
    have hk : ∀ x ∈ chunks.flatten, x.user ∈ us ∧ x.item ∈ is := by
      intro x hx
      obtain ⟨d, hd, hxd⟩ := List.mem_flatten.1 hx
      exact hknown d hd x hxd
    obtain ⟨U, S, V, -, -, -, -, -, f1, f2⟩ := h.fac
    refine ⟨h.shape, hinv.pos, hinv.big, ?_, ?_, ?_, by rw [f1]; exact ⟨rfl, rfl⟩, by rw [f2]; exact ⟨rfl, rfl⟩⟩
    · rw [hh]
      refine List.rel_append hinv.hist ?_
      rw [List.forall₂_map_right_iff, List.forall₂_same]
      intro x hx
      exact ⟨_, _, rfl, by rw [List.getElem?_eq_getElem (List.idxOf_lt_length_of_mem (hk x hx).1), List.getElem_idxOf],
        by rw [List.getElem?_eq_getElem (List.idxOf_lt_length_of_mem (hk x hx).2), List.getElem_idxOf]⟩
    · intro x
      rw [hinv.users]
      constructor
      · rintro ⟨t, ht, rfl⟩
        exact ⟨t, List.mem_append_left _ ht, rfl⟩
      · rintro ⟨t, ht, rfl⟩
        rcases List.mem_append.1 ht with ht | ht
        · exact ⟨t, ht, rfl⟩
        · exact (hinv.users _).1 (hk t ht).1
    · intro x
      rw [hinv.items]
      constructor
      · rintro ⟨t, ht, rfl⟩
        exact ⟨t, List.mem_append_left _ ht, rfl⟩
      · rintro ⟨t, ht, rfl⟩
        rcases List.mem_append.1 ht with ht | ht
        · exact ⟨t, ht, rfl⟩
        · exact (hinv.items _).1 (hk t ht).2
  · rw [e] at e0
    cases e0

/-- training succeeds for admissible ranks, and the scores are the rows of a best approximation -/
theorem svdTrain_best (env : PSIEnv ℝ) (cfg : PSICfg) (rows : List (Row ℝ)) (us is : List ℤ)
    (h1 : FirstAppearance (rows.map Row.user) us) (h2 : FirstAppearance (rows.map Row.item) is)
    (hr : 1 ≤ cfg.rank ∧ cfg.rank < us.length ∧ cfg.rank < is.length)
    (hs : SvdsOk env.la cfg.rank (interactionMatrix us is rows)) :
    ∃ st, svdTrain env cfg rows = .ok st ∧ PsiInv st us is cfg.rank rows ∧
      ∃ (U : Matrix (Fin us.length) (Fin cfg.rank) ℝ) (s : Fin cfg.rank → ℝ) (V : Matrix (Fin cfg.rank) (Fin is.length) ℝ),
        TruncatedSvd (interactionMatrix us is rows) U s V ∧ ∀ a : Fin us.length,
          psiScore st ((a : ℕ) : ℤ) = .ok (List.ofFn fun j => (U * diagonal s * V) a j) := by
  obtain ⟨us', is', h1', h2', ⟨st, e, hinv, -⟩ | ⟨-, hbad⟩⟩ := C31_train env cfg rows
  · obtain rfl := h1.unique h1'
    obtain rfl := h2.unique h2'
    obtain ⟨U, s, V, ht, -, -, -, e4, e5⟩ := C98_train env cfg rows st us is h1 h2 hs e
    exact ⟨st, e, hinv, U, s, V, ht, fun a => by
      rw [psiScore_factors U (diagonal s * V) e4 e5 a, ← Matrix.mul_assoc]⟩
  · obtain rfl := h1.unique h1'
    obtain rfl := h2.unique h2'
    exact absurd ⟨hr.1, by omega⟩ hbad

/-! ### Theorems -/

/-- **C186.** Let training and updates be as in C153. If all relevances are multiplied by `c > 0`, then training and updates
still succeed, with any correct routines, and every score is multiplied by `c`. -/
theorem C186_scores (env env' : PSIEnv ℝ) (hqr : QrAlways env.la) (hqr' : QrAlways env'.la) (cfg : PSICfg)
    (hcfg : cfg.init = none → cfg.integrator = false) (train : List (Row ℝ)) (us is : List ℤ)
    (hu : FirstAppearance (train.map Row.user) us) (hi : FirstAppearance (train.map Row.item) is)
    (hr : 1 ≤ cfg.rank ∧ cfg.rank < us.length ∧ cfg.rank < is.length) (c : ℝ) (hc : 0 < c)
    (hsvd : SvdsOk env.la cfg.rank (interactionMatrix us is train))
    (hsvd' : SvdsOk env'.la cfg.rank (interactionMatrix us is (train.map (inUnit c))))
    (hgap : SpectralGap cfg.rank (interactionMatrix us is train)) (chunks : List (List (Row ℝ)))
    (hknown : ∀ d ∈ chunks, ∀ x ∈ d, x.user ∈ us ∧ x.item ∈ is)
    (A : ℕ → Matrix (Fin us.length) (Fin is.length) ℝ)
    (h0 : ∃ U s V, TruncatedSvd (r := cfg.rank) (interactionMatrix us is train) U s V ∧ A 0 = U * diagonal s * V)
    (hpath : PsiPath cfg.rank chunks A) :
    ∃ st st', psiRun env cfg train chunks = .ok st ∧
      psiRun env' cfg (train.map (inUnit c)) (chunks.map (List.map (inUnit c))) = .ok st' ∧
      PsiInv st us is cfg.rank (train ++ chunks.flatten) ∧
      PsiInv st' us is cfg.rank ((train ++ chunks.flatten).map (inUnit c)) ∧
      ∀ a : Fin us.length, ∃ l, psiScore st ((a : ℕ) : ℤ) = .ok l ∧
        psiScore st' ((a : ℕ) : ℤ) = .ok (l.map fun x => c * x) := by
  obtain ⟨st, e, g, q, st0, e0, -, hh⟩ := C153_scores env hqr cfg hcfg train us is hu hi hr hsvd hgap chunks hknown A h0 hpath
  have hu' : FirstAppearance ((train.map (inUnit c)).map Row.user) us := by rw [inUnit_users]; exact hu
  have hi' : FirstAppearance ((train.map (inUnit c)).map Row.item) is := by rw [inUnit_items]; exact hi
  have hknown' : ∀ d ∈ chunks.map (List.map (inUnit c)), ∀ x ∈ d, x.user ∈ us ∧ x.item ∈ is := by
    intro d hd x hx
    obtain ⟨d, hd', rfl⟩ := List.mem_map.1 hd
    obtain ⟨x, hx', rfl⟩ := List.mem_map.1 hx
    exact hknown d hd' x hx'
  obtain ⟨st', e', g', q', st0', e0', -, hh'⟩ := C153_scores env' hqr' cfg hcfg (train.map (inUnit c)) us is hu' hi' hr
    hsvd' (by rw [interactionMatrix_inUnit]; exact gap_unit hc hgap) (chunks.map (List.map (inUnit c))) hknown'
    (fun t => c • A t) (by
      obtain ⟨U, s, V, ht, hA⟩ := h0
      refine ⟨U, fun i => c * s i, V, by rw [interactionMatrix_inUnit]; exact truncated_unit hc ht, ?_⟩
      rw [diagonal_unit, Matrix.mul_smul, Matrix.smul_mul, hA]) (psiPath_unit hc.ne' hpath)
  refine ⟨st, st', e, e', psiInv_known env cfg hu hi hknown g e0 hh, ?_, fun a => ⟨_, q a, ?_⟩⟩
  · have := psiInv_known env' cfg hu' hi' hknown' g' e0' hh'
    rw [← List.map_flatten, ← List.map_append] at this
    exact this
  · rw [q' a, List.map_ofFn, List.length_map]
    rfl

/-- **C186 for SVD.** Training alone needs no condition on QR routines or on the configuration beyond the rank: if the table
has a gap after the chosen rank, training in both units succeeds and every score is multiplied by `c`. -/
theorem C186_svd (env env' : PSIEnv ℝ) (cfg : PSICfg) (train : List (Row ℝ)) (us is : List ℤ)
    (hu : FirstAppearance (train.map Row.user) us) (hi : FirstAppearance (train.map Row.item) is)
    (hr : 1 ≤ cfg.rank ∧ cfg.rank < us.length ∧ cfg.rank < is.length) (c : ℝ) (hc : 0 < c)
    (hsvd : SvdsOk env.la cfg.rank (interactionMatrix us is train))
    (hsvd' : SvdsOk env'.la cfg.rank (interactionMatrix us is (train.map (inUnit c))))
    (hgap : SpectralGap cfg.rank (interactionMatrix us is train)) :
    ∃ st st', svdTrain env cfg train = .ok st ∧ svdTrain env' cfg (train.map (inUnit c)) = .ok st' ∧
      PsiInv st us is cfg.rank train ∧ PsiInv st' us is cfg.rank (train.map (inUnit c)) ∧
      ∀ a : Fin us.length, ∃ l, psiScore st ((a : ℕ) : ℤ) = .ok l ∧
        psiScore st' ((a : ℕ) : ℤ) = .ok (l.map fun x => c * x) := by
  have hu' : FirstAppearance ((train.map (inUnit c)).map Row.user) us := by rw [inUnit_users]; exact hu
  have hi' : FirstAppearance ((train.map (inUnit c)).map Row.item) is := by rw [inUnit_items]; exact hi
  obtain ⟨st, e, i1, U, s, V, ht, q⟩ := svdTrain_best env cfg train us is hu hi hr hsvd
  obtain ⟨st', e', i2, U', s', V', ht', q'⟩ := svdTrain_best env' cfg (train.map (inUnit c)) us is hu' hi' hr
    hsvd'
  refine ⟨st, st', e, e', i1, i2, fun a => ⟨_, q a, ?_⟩⟩
  rw [interactionMatrix_inUnit] at ht'
  rw [q' a, List.map_ofFn, truncated_unique (gap_unit hc hgap) ht' (truncated_unit hc ht), diagonal_unit, Matrix.mul_smul,
    Matrix.smul_mul]
  rfl

theorem candSpec_unit {v v' : RecView} {s : List ℝ} {filt : Bool} {a : ℤ} {k : ℕ} {d : List ℕ} {c : ℝ} (hc : 0 < c)
    (ha : ∀ j, j ∈ allowedIdx v' filt a ↔ j ∈ allowedIdx v filt a)
    (h : CandSpec v' (s.map fun x => c * x) filt a k d) : CandSpec v s filt a k d := by
  refine ⟨h.length, h.nodup, fun j hj => (ha j).1 (h.allowed j hj), fun j hj j' hj' hn x y hx hy => ?_,
    fun j hj l hl x y hx hy => ?_⟩
  · exact le_of_mul_le_mul_left (h.optimal j hj j' ((ha j').2 hj') hn (c * x) (c * y) (by rw [List.getElem?_map, hx]; rfl)
      (by rw [List.getElem?_map, hy]; rfl)) hc
  · exact le_of_mul_le_mul_left (h.last j hj l hl (c * x) (c * y) (by rw [List.getElem?_map, hx]; rfl)
      (by rw [List.getElem?_map, hy]; rfl)) hc

/-- **C186, recommendations.** Two models that know the same users and items and have received the same interactions in two
units, with scores as in `C186_scores`, recommend the same items to every user whose open items have pairwise different
scores (in possibly another order: `argpartition` does not sort). -/
theorem C186_recommend (us is : List ℤ) (r : ℕ) (rows : List (Row ℝ)) (c : ℝ) (hc : 0 < c) (st st' : PSIState ℝ)
    (i1 : PsiInv st us is r rows) (i2 : PsiInv st' us is r (rows.map (inUnit c)))
    (hs : ∀ a : Fin us.length, ∃ l, psiScore st ((a : ℕ) : ℤ) = .ok l ∧
      psiScore st' ((a : ℕ) : ℤ) = .ok (l.map fun x => c * x))
    (argp argp' : ArgPart ℝ) (ha : ArgPartOk argp) (ha' : ArgPartOk argp') (users : List ℤ) (k : ℕ) (hk : 1 ≤ k)
    (filt : Bool) (res res' : List (List ℤ)) (hres : psiRecommend argp st users k filt false = .ok res)
    (hres' : psiRecommend argp' st' users k filt false = .ok res') (n : ℕ) (u : ℤ) (row row' : List ℤ)
    (hu : users[n]? = some u) (hrow : res[n]? = some row) (hrow' : res'[n]? = some row')
    (hd : ∀ i i' x, (filt = true → ¬ ∃ t ∈ rows, t.user = u ∧ t.item = i) →
      (filt = true → ¬ ∃ t ∈ rows, t.user = u ∧ t.item = i') →
      NamedScore st u i x → NamedScore st u i' x → i = i') : row.Perm row' := by
  have : Inhabited ℝ := ⟨0⟩
  obtain ⟨f, hf⟩ := psiScores_ok i1
  obtain ⟨f', hf'⟩ := psiScores_ok i2
  have hset : RecSetting argp st.view us is (fun _ u => psiScore st u) f k filt :=
    ⟨ha, psiView_ok i1, hf, hk, by have := i1.big; have := i1.pos; omega,
      fun _ => by have := i1.big; have := i1.pos; omega⟩
  have hset' : RecSetting argp' st'.view us is (fun _ u => psiScore st' u) f' k filt :=
    ⟨ha', psiView_ok i2, hf', hk, by have := i2.big; have := i2.pos; omega,
      fun _ => by have := i2.big; have := i2.pos; omega⟩
  obtain ⟨a, d, hua, hlt, hcs, rfl⟩ := (hset.result true false users res hres).2 n u row hu hrow
  obtain ⟨a', d', hua', hlt', hcs', rfl⟩ := (hset'.result true false users res' hres').2 n u row' hu hrow'
  have la : a < us.length := (List.getElem?_eq_some_iff.1 hua).1
  obtain rfl : a' = a := by
    have e2 := (List.getElem?_eq_some_iff.1 hua').2
    have e3 := (List.getElem?_eq_some_iff.1 hua).2
    exact (List.Nodup.getElem_inj_iff i1.shape.user.nodup).1 (e2.trans e3.symm)
  obtain ⟨l, q, q'⟩ := hs ⟨a', la⟩
  have ef : f n a' = l := Except.ok.inj ((hf n a' hlt).1.symm.trans q)
  have ef' : f' n a' = l.map fun x => c * x := Except.ok.inj ((hf' n a' hlt').1.symm.trans q')
  have hn : st.view.nItems = is.length := (psiView_ok i1).nItems
  have hn' : st'.view.nItems = is.length := (psiView_ok i2).nItems
  have hal : ∀ j, j ∈ allowedIdx st'.view filt a' ↔ j ∈ allowedIdx st.view filt a' := by
    intro j
    rw [mem_allowedIdx, mem_allowedIdx, hn, hn']
    refine and_congr_right fun hj => ?_
    have r1 : ((a' : ℤ), (j : ℤ)) ∈ st.view.history ↔ _ := psiInv_recorded i1 hua (List.getElem?_eq_getElem hj)
    have r2 : ((a' : ℤ), (j : ℤ)) ∈ st'.view.history ↔ _ := psiInv_recorded i2 hua' (List.getElem?_eq_getElem hj)
    rw [r1, r2]
    have : (∃ t ∈ rows.map (inUnit c), t.user = u ∧ t.item = is[j]) ↔ ∃ t ∈ rows, t.user = u ∧ t.item = is[j] := by
      constructor
      · rintro ⟨t, ht, h⟩
        obtain ⟨t, ht', rfl⟩ := List.mem_map.1 ht
        exact ⟨t, ht', h⟩
      · rintro ⟨t, ht, h⟩
        exact ⟨_, List.mem_map.2 ⟨t, ht, rfl⟩, h⟩
    rw [this]
  rw [ef'] at hcs'
  have hcs' := candSpec_unit hc hal hcs'
  rw [hn', ← hn] at hcs'
  rw [ef] at hcs
  have hlen : l.length = st.view.nItems := by rw [← ef]; exact (hf n a' hlt).2
  have hdist : ∀ j ∈ allowedIdx st.view filt a', ∀ j' ∈ allowedIdx st.view filt a', ∀ x,
      l[j]? = some x → l[j']? = some x → j = j' := by
    have named : ∀ j ∈ allowedIdx st.view filt a', ∀ x, l[j]? = some x →
        ∃ (hj : j < is.length), NamedScore st u is[j] x ∧
          (filt = true → ¬ ∃ t ∈ rows, t.user = u ∧ t.item = is[j]) := by
      intro j hj x hx
      rw [mem_allowedIdx, hn] at hj
      refine ⟨hj.1, ⟨(a' : ℤ), j, l, ?_, ?_, q, hx⟩, fun hft hex => ?_⟩
      · rw [i1.shape.user.old2new]
        exact ⟨_, rfl, hua⟩
      · rw [i1.shape.item.old2new]
        exact ⟨_, rfl, List.getElem?_eq_getElem hj.1⟩
      · exact hj.2 hft ((psiInv_recorded i1 hua (List.getElem?_eq_getElem hj.1)).2 hex)
    intro j hj j' hj' x hx hx'
    obtain ⟨l1, n1, o1⟩ := named j hj x hx
    obtain ⟨l2, n2, o2⟩ := named j' hj' x hx'
    exact (List.Nodup.getElem_inj_iff i1.shape.item.nodup).1 (hd _ _ x o1 o2 n1 n2)
  have hmem : ∀ j, j ∈ d ↔ j ∈ d' := fun j =>
    ⟨candSpec_subset hlen hcs hcs' le_rfl hdist j, candSpec_subset hlen hcs' hcs le_rfl hdist j⟩
  exact ((List.perm_ext_iff_of_nodup hcs.nodup hcs'.nodup).2 hmem).map _

/-! ### Examples -/

-- one table in two units: training succeeds in both, and the scores of user 8 are halved
example (e0 : PSIEnv ℝ) : ∃ st st', svdTrain { e0 with la := realLA } ⟨1, 0, 1, none, true⟩ (exTieRows 2) = .ok st ∧
    svdTrain { e0 with la := realLA } ⟨1, 0, 1, none, true⟩ [⟨7, 40, 1 / 2 * 2, 0, 0⟩, ⟨8, 41, 1 / 2 * 1, 1, 0⟩] = .ok st' ∧
    ∃ l, psiScore st 1 = .ok l ∧ psiScore st' 1 = .ok (l.map fun x => 1 / 2 * x) := by
  obtain ⟨st, st', h1, h2, -, -, h3⟩ := C186_svd { e0 with la := realLA } { e0 with la := realLA } ⟨1, 0, 1, none, true⟩
    (exTieRows 2) [7, 8] [40, 41] (firstAppearance_pdUnique [7, 8]) (firstAppearance_pdUnique [40, 41]) (by decide) (1 / 2)
    (by norm_num) (realLA_svds (by decide) _) (realLA_svds (by decide) _) exGap
  exact ⟨st, st', h1, h2, h3 1⟩

-- user 7 has seen item 40 and is left with item 41: whatever the two models return for the request is the same list
example (e0 : PSIEnv ℝ) (argp : ArgPart ℝ) (ha : ArgPartOk argp) : ∃ st st',
    svdTrain { e0 with la := realLA } ⟨1, 0, 1, none, true⟩ (exTieRows 2) = .ok st ∧
    svdTrain { e0 with la := realLA } ⟨1, 0, 1, none, true⟩ ((exTieRows 2).map (inUnit 5)) = .ok st' ∧
    ∀ res res', psiRecommend argp st [7] 1 true false = .ok res → psiRecommend argp st' [7] 1 true false = .ok res' →
      ∀ row row', res[0]? = some row → res'[0]? = some row' → row.Perm row' := by
  obtain ⟨st, st', h1, h2, i1, i2, h3⟩ := C186_svd { e0 with la := realLA } { e0 with la := realLA } ⟨1, 0, 1, none, true⟩
    (exTieRows 2) [7, 8] [40, 41] (firstAppearance_pdUnique [7, 8]) (firstAppearance_pdUnique [40, 41]) (by decide) 5
    (by norm_num) (realLA_svds (by decide) _) (realLA_svds (by decide) _) exGap
  refine ⟨st, st', h1, h2, fun res res' hr hr' row row' hw hw' => C186_recommend [7, 8] [40, 41] 1 (exTieRows 2) 5
    (by norm_num) st st' i1 i2 h3 argp argp ha ha [7] 1 le_rfl true res res' hr hr' 0 7 row row' rfl hw hw' ?_⟩
  have only : ∀ i x, ¬ (∃ t ∈ exTieRows 2, t.user = 7 ∧ t.item = i) → NamedScore st 7 i x → i = 41 := by
    rintro i x ho ⟨a, b, l, -, hb, -⟩
    rw [i1.shape.item.old2new] at hb
    obtain ⟨k, -, hk⟩ := hb
    have hm := List.mem_of_getElem? hk
    simp only [List.mem_cons, List.not_mem_nil, or_false] at hm
    rcases hm with rfl | rfl
    · exact absurd ⟨⟨7, 40, 2, 0, 0⟩, by simp [exTieRows], rfl, rfl⟩ ho
    · rfl
  exact fun i i' x o o' n n' => (only i x (o rfl) n).trans (only i' x (o' rfl) n').symm

-- the table and the update of the example of C153 with all relevances multiplied by 3: the scores of user 7 are tripled
example (e0 : PSIEnv ℝ) : ∃ st st',
    psiRun { e0 with la := realLA } ⟨1, 0, 1, none, false⟩ (exTieRows 2) [[⟨8, 41, 1, 2, 1⟩]] = .ok st ∧
      psiRun { e0 with la := realLA } ⟨1, 0, 1, none, false⟩ [⟨7, 40, 3 * 2, 0, 0⟩, ⟨8, 41, 3 * 1, 1, 0⟩]
        [[⟨8, 41, 3 * 1, 2, 1⟩]] = .ok st' ∧ ∃ l, psiScore st 0 = .ok l ∧ psiScore st' 0 = .ok (l.map fun x => 3 * x) := by
  have hu : FirstAppearance ((exTieRows 2).map Row.user) [7, 8] := firstAppearance_pdUnique [7, 8]
  have hi : FirstAppearance ((exTieRows 2).map Row.item) [40, 41] := firstAppearance_pdUnique [40, 41]
  have hD : interactionMatrix [7, 8] [40, 41] [(⟨8, 41, 1, 2, 1⟩ : Row ℝ)] =
      (!![0, 0; 0, 1] : Matrix (Fin 2) (Fin 2) ℝ) := by
    ext i j
    fin_cases i <;> fin_cases j <;> simp [interactionMatrix]
  have e : ((!![2, 0; 0, 0] + !![0, 0; 0, 1]) * (!![2, 0; 0, 0] : Matrix (Fin 2) (Fin 2) ℝ).transpose) =
      !![4, 0; 0, 0] := by
    ext i j
    fin_cases i <;> fin_cases j <;> simp [Matrix.mul_apply, Fin.sum_univ_two, Matrix.vecMul, dotProduct] <;> norm_num
  have hP : OrthProj (!![1, 0; 0, 0] : Matrix (Fin 2) (Fin 2) ℝ)
      ((!![2, 0; 0, 0] + !![0, 0; 0, 1]) * (!![2, 0; 0, 0] : Matrix (Fin 2) (Fin 2) ℝ).transpose) := by
    rw [e]
    refine ⟨?_, ?_, !![1 / 4, 0; 0, 0], ?_⟩ <;> ext i j <;> fin_cases i <;> fin_cases j <;>
      simp [Matrix.mul_apply, Fin.sum_univ_two] <;> norm_num
  have hQ : OrthProj (!![1, 0; 0, 0] : Matrix (Fin 2) (Fin 2) ℝ)
      (!![2, 0; 0, 0] : Matrix (Fin 2) (Fin 2) ℝ).transpose := by
    refine ⟨?_, ?_, !![1 / 2, 0; 0, 0], ?_⟩ <;> ext i j <;> fin_cases i <;> fin_cases j <;>
      simp [Matrix.mul_apply, Fin.sum_univ_two]
  have rk : ∀ x : ℝ, x ≠ 0 → (!![x, 0; 0, 0] : Matrix (Fin 2) (Fin 2) ℝ).rank = 1 := by
    intro x hx
    have e : (!![x, 0; 0, 0] : Matrix (Fin 2) (Fin 2) ℝ) = diagonal ![x, 0] := by
      ext i j
      fin_cases i <;> fin_cases j <;> simp
    rw [e, Matrix.rank_diagonal]
    have : {i : Fin 2 // (![x, 0] : Fin 2 → ℝ) i ≠ 0} ≃ Unit :=
      ⟨fun _ => (), fun _ => ⟨0, hx⟩, fun ⟨i, h⟩ => Subtype.ext (by
        fin_cases i
        · rfl
        · exact absurd rfl h), fun _ => rfl⟩
    exact (Fintype.card_congr this).trans rfl
  obtain ⟨st, st', h1, h2, -, -, h3⟩ := C186_scores { e0 with la := realLA } { e0 with la := realLA } qrAlways_real
    qrAlways_real ⟨1, 0, 1, none, false⟩ (fun _ => rfl) (exTieRows 2) [7, 8] [40, 41] hu hi (by decide) 3 (by norm_num)
    (realLA_svds (by decide) _) (realLA_svds (by decide) _) exGap [[⟨8, 41, 1, 2, 1⟩]] (by simp) (fun _ => (!![2, 0; 0, 0] : Matrix (Fin 2) (Fin 2) ℝ))
    (by
      refine ⟨!![1; 0], fun _ => 2, !![1, 0], ?_, ?_⟩
      · rw [exTie_matrix]
        refine ⟨(1 : Matrix (Fin 2) (Fin 2) ℝ), ![2, 1], (1 : Matrix (Fin 2) (Fin 2) ℝ), (by decide), ?_, ?_, ?_, ?_, ?_,
          ?_, ?_, ?_⟩
        · exact (congrArg (· * (1 : Matrix (Fin 2) (Fin 2) ℝ)) (Matrix.one_mul (diagonal ![(2 : ℝ), 1]))).trans (Matrix.mul_one _)
        · rw [Matrix.transpose_one]; exact Matrix.mul_one _
        · rw [Matrix.transpose_one]; exact Matrix.mul_one _
        · intro i
          change Fin 2 at i
          fin_cases i <;> norm_num
        · intro i j hij
          change Fin 2 at i j
          fin_cases i <;> fin_cases j <;> first | (exact absurd hij (by decide)) | norm_num
        · intro i k
          change Fin 2 at i
          change Fin 1 at k
          fin_cases k
          fin_cases i <;> rfl
        · intro k
          change Fin 1 at k
          fin_cases k
          rfl
        · intro k j
          change Fin 2 at j
          change Fin 1 at k
          fin_cases k
          fin_cases j <;> rfl
      · ext i j
        change Fin 2 at i j
        fin_cases i <;> fin_cases j <;> simp [Matrix.mul_apply])
    (by
      intro t ht
      obtain rfl : t = 0 := by simpa using ht
      refine ⟨rk 2 (by norm_num), ?_, ?_⟩
      · show ((!![2, 0; 0, 0] + interactionMatrix [7, 8] [40, 41] [(⟨8, 41, 1, 2, 1⟩ : Row ℝ)]) *
          (!![2, 0; 0, 0] : Matrix (Fin 2) (Fin 2) ℝ).transpose).rank = 1
        rw [hD]
        exact (congrArg Matrix.rank e).trans (rk 4 (by norm_num))
      · show PsiNext (!![2, 0; 0, 0] : Matrix (Fin 2) (Fin 2) ℝ)
          (interactionMatrix [7, 8] [40, 41] [(⟨8, 41, 1, 2, 1⟩ : Row ℝ)]) !![2, 0; 0, 0]
        rw [hD]
        refine ⟨_, _, hP, hQ, ?_⟩
        ext i j
        fin_cases i <;> fin_cases j <;> simp [Matrix.mul_apply, Fin.sum_univ_two])
  exact ⟨st, st', h1, h2, h3 0⟩

end DynCF
