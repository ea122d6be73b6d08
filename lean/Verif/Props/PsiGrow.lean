/-
C170: the error of `PSI` with zero embeddings and the integrator scheme, for chunks with any users and items.
-/
import Verif.Props.PsiError

namespace DynCF
open Matrix

/-! ### Specification -/

/-- `M'` is `M` with rows and columns of zeros appended -/
def ZeroExt {m n m' n' : ℕ} (M : Matrix (Fin m) (Fin n) ℝ) (M' : Matrix (Fin m') (Fin n') ℝ) : Prop :=
  m ≤ m' ∧ n ≤ n' ∧ ∀ a j, M' a j = if h : (a : ℕ) < m ∧ (j : ℕ) < n then M ⟨a, h.1⟩ ⟨j, h.2⟩ else 0

/-! ### Entries by position -/

/-- the entry of a matrix at a position, zero outside -/
def Mat.ent {K : Type} [Zero K] (a : Mat K) (i j : ℕ) : K :=
  if h : i < a.rows ∧ j < a.cols then a.val ⟨i, h.1⟩ ⟨j, h.2⟩ else 0

theorem Mat.ent_mk {K : Type} [Zero K] {m n : ℕ} (A : Matrix (Fin m) (Fin n) K) (i : Fin m) (j : Fin n) :
    (⟨m, n, A⟩ : Mat K).ent i j = A i j := by
  unfold Mat.ent
  rw [dif_pos ⟨i.2, j.2⟩]

theorem Mat.ent_out {K : Type} [Zero K] (a : Mat K) {i j : ℕ} (h : ¬ (i < a.rows ∧ j < a.cols)) : a.ent i j = 0 :=
  dif_neg h

theorem Mat.of_ent {K : Type} [Zero K] (a : Mat K) {m n : ℕ} (h1 : a.rows = m) (h2 : a.cols = n) :
    a = ⟨m, n, Matrix.of fun i j => a.ent i j⟩ := by
  obtain ⟨m', n', A⟩ := a
  dsimp only at h1 h2
  subst h1 h2
  congr 1
  ext i j
  exact (Mat.ent_mk A i j).symm

theorem Mat.ent_T {K : Type} [Zero K] (a : Mat K) (i j : ℕ) : a.T.ent i j = a.ent j i := by
  by_cases h : j < a.rows ∧ i < a.cols
  · unfold Mat.ent
    rw [dif_pos h, dif_pos (show i < a.T.rows ∧ j < a.T.cols from ⟨h.2, h.1⟩)]
    rfl
  · rw [Mat.ent_out _ h, Mat.ent_out _ (show ¬ (i < a.T.rows ∧ j < a.T.cols) from fun g => h ⟨g.2, g.1⟩)]

theorem zeroPadRows_ent (a : Mat ℝ) (n : ℕ) (i j : ℕ) : (zeroPadRows a n).ent i j = a.ent i j := by
  obtain ⟨m, k, A⟩ := a
  by_cases h : i < m ∧ j < k
  · rw [show (zeroPadRows ⟨m, k, A⟩ n).ent i j = _ from
      Mat.ent_mk (m := m + n) (n := k) _ (Fin.castAdd n ⟨i, h.1⟩) ⟨j, h.2⟩, Matrix.of_apply, Fin.addCases_left]
    exact (Mat.ent_mk A ⟨i, h.1⟩ ⟨j, h.2⟩).symm
  · rw [Mat.ent_out (⟨m, k, A⟩ : Mat ℝ) h]
    by_cases h' : i < m + n ∧ j < k
    · obtain ⟨t, rfl⟩ : ∃ t, i = m + t := ⟨i - m, by omega⟩
      rw [show (zeroPadRows ⟨m, k, A⟩ n).ent (m + t) j = _ from
        Mat.ent_mk (m := m + n) (n := k) _ (Fin.natAdd m ⟨t, by omega⟩) ⟨j, h'.2⟩, Matrix.of_apply, Fin.addCases_right]
    · exact Mat.ent_out _ h'

/-- the rounds with zero embeddings change no entry -/
structure ZeroGrown (st st' : PSIState ℝ) : Prop where
  u : ∀ i j, st'.u.ent i j = st.u.ent i j
  vt : ∀ i j, st'.vt.ent i j = st.vt.ent i j
  s : st'.s = st.s

theorem ZeroGrown.trans {a b c : PSIState ℝ} (h : ZeroGrown a b) (h' : ZeroGrown b c) : ZeroGrown a c :=
  ⟨fun i j => (h'.u i j).trans (h.u i j), fun i j => (h'.vt i j).trans (h.vt i j), h'.s.trans h.s⟩

theorem zeroUsers_grown (n : ℕ) (st : PSIState ℝ) : ZeroGrown st (addZeroUsers n st) :=
  ⟨fun i j => zeroPadRows_ent st.u n i j, fun _ _ => rfl, rfl⟩

theorem zeroItems_grown (n : ℕ) (st : PSIState ℝ) : ZeroGrown st (addZeroItems n st) := by
  refine ⟨fun _ _ => rfl, fun i j => ?_, rfl⟩
  show (zeroPadRows st.vt.T n).T.ent i j = _
  rw [Mat.ent_T, zeroPadRows_ent, Mat.ent_T]

theorem processData_keeps {st : PSIState ℝ} {data : List (Row ℝ)} {mode : PsiMode} {p : Mat ℝ × PSIState ℝ}
    (h : processData st data mode = .ok p) : p.2.u = st.u ∧ p.2.vt = st.vt ∧ p.2.s = st.s := by
  unfold processData at h
  cases mode <;> dsimp only at h <;> obtain ⟨da, -, h⟩ := (bind_ok_iff ..).1 h <;> cases h <;> exact ⟨rfl, rfl, rfl⟩

theorem zeroMode_grown (env : PSIEnv ℝ) (cfg : PSICfg) (hz : cfg.init = some .zero) (hint : cfg.integrator = true)
    {st st' : PSIState ℝ} {data : List (Row ℝ)} {mode : PsiMode} (hm : mode ≠ .old)
    (h : updateFactorsByMode env cfg st data mode = .ok st') : ZeroGrown st st' := by
  unfold updateFactorsByMode at h
  split at h
  · obtain ⟨p, hp, h⟩ := (bind_ok_iff ..).1 h
    obtain ⟨k1, k2, k3⟩ := processData_keeps hp
    have h0 : ZeroGrown st p.2 := ⟨fun i j => by rw [k1], fun i j => by rw [k2], k3⟩
    refine h0.trans ?_
    unfold psiUpdater at h
    rw [hz, hint] at h
    cases mode with
    | newUsers => cases h; exact zeroUsers_grown _ _
    | newItems => cases h; exact zeroItems_grown _ _
    | old => exact absurd rfl hm
    | new => cases h; exact (zeroUsers_grown _ _).trans (zeroItems_grown _ _)
  · cases h
    exact ⟨fun _ _ => rfl, fun _ _ => rfl, rfl⟩

theorem zeroRound_grown (env : PSIEnv ℝ) (cfg : PSICfg) (hz : cfg.init = some .zero) (hint : cfg.integrator = true)
    {l l' : PsiLoop ℝ} {mode : PsiMode} (hm : mode ≠ .old) (h : psiRound env cfg l mode = .ok l') :
    ZeroGrown l.st l'.st := by
  unfold psiRound at h
  obtain ⟨st, hs, h⟩ := (bind_ok_iff ..).1 h
  cases h
  exact zeroMode_grown env cfg hz hint hm hs

/-! ### Appended zeros -/

theorem ZeroExt.refl {m n : ℕ} (M : Matrix (Fin m) (Fin n) ℝ) : ZeroExt M M :=
  ⟨le_rfl, le_rfl, fun a j => by rw [dif_pos ⟨a.2, j.2⟩]⟩

theorem ZeroExt.unique {m n m' n' : ℕ} {M : Matrix (Fin m) (Fin n) ℝ} {M1 M2 : Matrix (Fin m') (Fin n') ℝ}
    (h1 : ZeroExt M M1) (h2 : ZeroExt M M2) : M1 = M2 := by
  ext a j
  rw [h1.2.2, h2.2.2]

theorem ZeroExt.sub {m n m' n' : ℕ} {M N : Matrix (Fin m) (Fin n) ℝ} {M' N' : Matrix (Fin m') (Fin n') ℝ}
    (h1 : ZeroExt M M') (h2 : ZeroExt N N') : ZeroExt (M - N) (M' - N') := by
  refine ⟨h1.1, h1.2.1, fun a j => ?_⟩
  rw [Matrix.sub_apply, h1.2.2, h2.2.2]
  split
  · rfl
  · exact sub_self _

theorem ZeroExt.sqSum {m n m' n' : ℕ} {M : Matrix (Fin m) (Fin n) ℝ} {M' : Matrix (Fin m') (Fin n') ℝ}
    (h : ZeroExt M M') : sqSum M' = sqSum M := by
  obtain ⟨h1, h2, h3⟩ := h
  obtain ⟨k, rfl⟩ := Nat.exists_eq_add_of_le h1
  obtain ⟨l, rfl⟩ := Nat.exists_eq_add_of_le h2
  have e1 : ∀ (a : Fin m) (j : Fin n), M' (Fin.castAdd k a) (Fin.castAdd l j) = M a j := fun a j => by
    rw [h3, dif_pos ⟨a.2, j.2⟩]
    rfl
  have e2 : ∀ (a : Fin k) (j : Fin (n + l)), M' (Fin.natAdd m a) j = 0 := fun a j => by
    rw [h3, dif_neg]
    rintro ⟨g, -⟩
    simp at g
  have e3 : ∀ (a : Fin (m + k)) (j : Fin l), M' a (Fin.natAdd n j) = 0 := fun a j => by
    rw [h3, dif_neg]
    rintro ⟨-, g⟩
    simp at g
  unfold DynCF.sqSum
  rw [Fin.sum_univ_add]
  simp [Fin.sum_univ_add, e1, e2, e3]

theorem ZeroExt.fro {m n m' n' : ℕ} {M : Matrix (Fin m) (Fin n) ℝ} {M' : Matrix (Fin m') (Fin n') ℝ}
    (h : ZeroExt M M') : fro M' = fro M := by
  rw [fro_sqSum, fro_sqSum, h.sqSum]

/-- a part of a matrix is at most the matrix -/
theorem restrict_le {m n m' n' : ℕ} {M : Matrix (Fin m) (Fin n) ℝ} {M' : Matrix (Fin m') (Fin n') ℝ}
    (h : ZeroExt M M') (X : Matrix (Fin m') (Fin n') ℝ) :
    DynCF.sqSum (M - X.submatrix (Fin.castLE h.1) (Fin.castLE h.2.1)) ≤ DynCF.sqSum (M' - X) := by
  obtain ⟨h1, h2, h3⟩ := h
  obtain ⟨k, rfl⟩ := Nat.exists_eq_add_of_le h1
  obtain ⟨l, rfl⟩ := Nat.exists_eq_add_of_le h2
  have e : M - X.submatrix (Fin.castLE h1) (Fin.castLE h2) = (M' - X).submatrix (Fin.castAdd k) (Fin.castAdd l) := by
    ext a j
    rw [Matrix.submatrix_apply, Matrix.sub_apply, Matrix.sub_apply, h3, dif_pos ⟨a.2, j.2⟩]
    rfl
  refine (congrArg DynCF.sqSum e).trans_le ?_
  unfold DynCF.sqSum
  rw [Fin.sum_univ_add]
  refine le_add_of_le_of_nonneg (Finset.sum_le_sum fun a _ => ?_)
    (Finset.sum_nonneg fun a _ => Finset.sum_nonneg fun j _ => sq_nonneg _)
  rw [Fin.sum_univ_add]
  exact le_add_of_le_of_nonneg le_rfl (Finset.sum_nonneg fun j _ => sq_nonneg _)

/-- the table over longer lists of ids -/
theorem zeroExt_table {us us' is is' : List ℤ} (hu : us <+: us') (hi : is <+: is') (nu : us'.Nodup) (ni : is'.Nodup)
    (data : List (Row ℝ)) (hd : ∀ x ∈ data, x.user ∈ us ∧ x.item ∈ is) :
    ZeroExt (interactionMatrix us is data) (interactionMatrix us' is' data) := by
  obtain ⟨eu, rfl⟩ := hu
  obtain ⟨ei, rfl⟩ := hi
  refine ⟨by simp, by simp, fun a j => ?_⟩
  by_cases h : (a : ℕ) < us.length ∧ (j : ℕ) < is.length
  · rw [dif_pos h]
    unfold interactionMatrix
    rw [Matrix.of_apply, Matrix.of_apply]
    have e1 : (us ++ eu)[a] = us[(⟨a, h.1⟩ : Fin us.length)] := List.getElem_append_left h.1
    have e2 : (is ++ ei)[j] = is[(⟨j, h.2⟩ : Fin is.length)] := List.getElem_append_left h.2
    rw [e1, e2]
  · rw [dif_neg h]
    unfold interactionMatrix
    rw [Matrix.of_apply]
    have : (data.filter fun r => decide (r.user = (us ++ eu)[a] ∧ r.item = (is ++ ei)[j])) = [] := by
      rw [List.filter_eq_nil_iff]
      intro x hx hc
      obtain ⟨c1, c2⟩ := of_decide_eq_true hc
      obtain ⟨d1, d2⟩ := hd x hx
      apply h
      constructor
      · by_contra hn
        have e1 : (us ++ eu)[a] = eu[(a : ℕ) - us.length]'(by have := a.2.trans_eq List.length_append; omega) :=
          List.getElem_append_right (not_lt.1 hn)
        exact (List.nodup_append.1 nu).2.2 _ d1 _ (List.getElem_mem _) (c1.trans e1)
      · by_contra hn
        have e1 : (is ++ ei)[j] = ei[(j : ℕ) - is.length]'(by have := j.2.trans_eq List.length_append; omega) :=
          List.getElem_append_right (not_lt.1 hn)
        exact (List.nodup_append.1 ni).2.2 _ d2 _ (List.getElem_mem _) (c2.trans e1)
    rw [this]
    rfl

/-- factors of a model with zero embeddings -/
theorem zeroGrown_fac {st st' : PSIState ℝ} {us is us' is' : List ℤ} {r : ℕ}
    {A : Matrix (Fin us.length) (Fin is.length) ℝ} (h : PsiHolds st us is r A) (hg : ZeroGrown st st')
    (h' : PsiShape st' us' is' r) (hu : us.length ≤ us'.length) (hi : is.length ≤ is'.length) :
    ∃ (U : Matrix (Fin us'.length) (Fin r) ℝ) (S : Matrix (Fin r) (Fin r) ℝ) (V : Matrix (Fin r) (Fin is'.length) ℝ),
      st'.u = ⟨_, _, U⟩ ∧ st'.s.toMat = ⟨_, _, S⟩ ∧ st'.vt = ⟨_, _, V⟩ ∧ V * V.transpose = 1 ∧ ZeroExt A (U * S * V) := by
  obtain ⟨U, S, V, eu, es, ev, hV, hA, -, -⟩ := h.fac
  have fu : st'.u = ⟨us'.length, r, Matrix.of fun a k => st.u.ent a k⟩ := by
    refine (Mat.of_ent st'.u h'.uRows h'.uCols).trans ?_
    simp only [hg.u]
  have fv : st'.vt = ⟨r, is'.length, Matrix.of fun a k => st.vt.ent a k⟩ := by
    refine (Mat.of_ent st'.vt h'.vRows h'.vCols).trans ?_
    simp only [hg.vt]
  refine ⟨_, S, _, fu, by rw [hg.s, es], fv, ?_, ?_⟩
  · generalize hW : (Matrix.of fun (a : Fin r) (k : Fin is'.length) => st.vt.ent a k) = W
    obtain ⟨k, hk⟩ := Nat.exists_eq_add_of_le hi
    generalize is'.length = n' at *
    subst hk
    subst hW
    ext a b
    rw [← hV, Matrix.mul_apply, Matrix.mul_apply, Fin.sum_univ_add]
    have e0 : ∀ (x : Fin r) (j : Fin k), st.vt.ent x (Fin.natAdd is.length j : ℕ) = 0 := fun x j => by
      refine Mat.ent_out _ fun g => ?_
      have := h.shape.vCols
      have := g.2
      simp at this
      omega
    have e1 : ∀ (x : Fin r) (j : Fin is.length), st.vt.ent x (Fin.castAdd k j : ℕ) = V x j := fun x j => by
      rw [ev]
      exact Mat.ent_mk V x j
    simp only [Matrix.of_apply, Matrix.transpose_apply, e0, e1, mul_zero, Finset.sum_const_zero, add_zero]
  · refine ⟨hu, hi, fun a j => ?_⟩
    rw [← hA]
    split
    · rename_i g
      rw [Matrix.mul_apply, Matrix.mul_apply]
      refine Finset.sum_congr rfl fun l _ => ?_
      rw [Matrix.mul_apply, Matrix.mul_apply, Matrix.of_apply, ev]
      congr 1
      · refine Finset.sum_congr rfl fun k _ => ?_
        rw [Matrix.of_apply, eu]
        exact congrArg (· * S k l) (Mat.ent_mk U ⟨a, g.1⟩ k)
      · exact Mat.ent_mk V l ⟨j, g.2⟩
    · rename_i g
      by_cases ga : (a : ℕ) < us.length
      · rw [Matrix.mul_apply]
        refine Finset.sum_eq_zero fun l _ => ?_
        rw [Matrix.of_apply, Mat.ent_out st.vt, mul_zero]
        rw [h.shape.vCols]
        exact fun q => g ⟨ga, q.2⟩
      · rw [Matrix.mul_apply]
        refine Finset.sum_eq_zero fun l _ => ?_
        rw [Matrix.mul_apply, Finset.sum_eq_zero, zero_mul]
        intro k _
        rw [Matrix.of_apply, Mat.ent_out st.u, zero_mul]
        rw [h.shape.uRows]
        exact fun q => ga q.1

/-! ### Any users and items -/

/-- **C170, one update.** With zero embeddings and the integrator scheme a chunk with any users and items is accepted. The
known ids stay in front, those of the chunk that are new follow. Let `A'` be the former predictions with zeros for new users
and items, `D` the interaction matrix of the chunk over all ids known now and `B` the predictions after the update. The
part of `A' + D` that is lost is orthogonal to `B`; no matrix with columns in the span of `(A' + D) A'ᵀ` is closer to
`A' + D`; and the loss is at most the distance of `D` to any matrix with rows in the span of the rows of `A'`. `B` is the
projection of `A' + D` to a space of dimension at most the rank that contains the columns of `(A' + D) A'ᵀ`. -/
theorem C170_update (env : PSIEnv ℝ) (hqr : QrAlways env.la) (hsort : ArgSortOk env.argsort) (cfg : PSICfg)
    (hz : cfg.init = some .zero) (hint : cfg.integrator = true) {st : PSIState ℝ} {us is : List ℤ} {r : ℕ}
    {A : Matrix (Fin us.length) (Fin is.length) ℝ} (h : PsiHolds st us is r A) (data : List (Row ℝ)) :
    ∃ (st' : PSIState ℝ) (us' is' : List ℤ) (A' B : Matrix (Fin us'.length) (Fin is'.length) ℝ),
      psiUpdate env cfg st data = .ok st' ∧ PsiHolds st' us' is' r B ∧ us <+: us' ∧ is <+: is' ∧
      us'.Nodup ∧ is'.Nodup ∧
      (∀ u, u ∈ us' ↔ u ∈ us ∨ ∃ x ∈ data, x.user = u) ∧ (∀ i, i ∈ is' ↔ i ∈ is ∨ ∃ x ∈ data, x.item = i) ∧
      ZeroExt A A' ∧
      sqSum (A' + interactionMatrix us' is' data - B) = sqSum (A' + interactionMatrix us' is' data) - sqSum B ∧
      (∀ W : Matrix (Fin us'.length) (Fin is'.length) ℝ, sqSum (A' + interactionMatrix us' is' data - B) ≤
        sqSum (A' + interactionMatrix us' is' data - (A' + interactionMatrix us' is' data) * A'.transpose * W)) ∧
      (∀ Y : Matrix (Fin us'.length) (Fin us'.length) ℝ, sqSum (A' + interactionMatrix us' is' data - B) ≤
        sqSum (interactionMatrix us' is' data - Y * A')) ∧
      ProjectsTo r A' (A' + interactionMatrix us' is' data) B := by
  rcases psiRounds3 env hsort cfg h.shape data with ⟨st1, st3, e1, e3, s3, -, -⟩ | ⟨-, -, -, hc, -⟩
  swap
  · rw [hz] at hc; cases hc
  have g : ZeroGrown st st3 := by
    have g1 := zeroRound_grown env cfg hz hint (by decide) e1
    refine g1.trans ?_
    rw [List.foldlM_cons] at e3
    obtain ⟨l2, e2, e3⟩ := (bind_ok_iff ..).1 e3
    rw [List.foldlM_cons] at e3
    obtain ⟨l3, e4, e3⟩ := (bind_ok_iff ..).1 e3
    cases e3
    exact (zeroRound_grown env cfg hz hint (by decide) e2).trans (zeroRound_grown env cfg hz hint (by decide) e4)
  have pu : us <+: psiU2 us is data := ⟨_, (List.append_assoc _ _ _).symm⟩
  have pi : is <+: psiI3 us is data := ⟨_, (List.append_assoc _ _ _).symm⟩
  obtain ⟨U, S, V, fu, fs, fv, hV, hext⟩ := zeroGrown_fac h g s3 pu.length_le pi.length_le
  obtain ⟨st4, k1, km, U1, S1, V1, f1, f2, f3, f4, l1, l2, l3, l4⟩ :=
    psiOld_loss env hqr cfg s3 fu fs fv hV data (psi_all_known us is data)
  have mu : Represents st4.maps.user (psiU2 us is data) := km ▸ s3.user
  have mi : Represents st4.maps.item (psiI3 us is data) := km ▸ s3.item
  have e5 : psiUpdate env cfg st data = .ok { st4 with
      history := st4.history ++ data.map fun x =>
        ((((psiU2 us is data).idxOf x.user : ℕ) : ℤ), (((psiI3 us is data).idxOf x.item : ℕ) : ℤ))
      s := .mat ⟨_, _, S1⟩, userFactors := st4.u, itemFactors := ⟨_, _, S1 * V1⟩ } := by
    unfold psiUpdate psiRounds
    rw [hz, hint]
    dsimp only
    unfold psiRoundsIntegrator
    rw [List.foldlM_cons, e1, except_bind_ok, e3, except_bind_ok, k1, except_bind_ok]
    rw [show ∀ (p : PsiLoop ℝ) (f : PsiLoop ℝ → PyM (PSIState ℝ)), ((pure p : PyM (PsiLoop ℝ)) >>= f) = f p from
      fun _ _ => rfl]
    dsimp only
    rw [psiUpdateHistory_eq mu mi data (fun x hx => (psi_all_known us is data x hx).1)
      (fun x hx => (psi_all_known us is data x hx).2), except_bind_ok]
    dsimp only
    rw [f2, f3, Mat.dot_mk, except_bind_ok]
    rfl
  refine ⟨_, psiU2 us is data, psiI3 us is data, U * S * V, U1 * S1 * V1, e5, ⟨⟨mu, mi, ?_, ?_, ?_, ?_, ?_, s3.ru,
      s3.ri⟩, U1, S1, V1, f1, rfl, f3, f4, rfl, f1, rfl⟩, pu, pi, s3.user.nodup, s3.item.nodup, psiU2_mem us is data,
      psiI3_mem us is data, hext, l1, fun W => ?_, fun Y => ?_, l4⟩
  · exact congrArg Mat.rows f1
  · exact congrArg Mat.cols f1
  · exact congrArg Mat.rows f3
  · exact congrArg Mat.cols f3
  · exact ⟨rfl, rfl⟩
  · have e : (U * S * V + interactionMatrix (psiU2 us is data) (psiI3 us is data) data) * (U * S * V).transpose * W =
        (U * S * V + interactionMatrix (psiU2 us is data) (psiI3 us is data) data) * V.transpose *
          ((U * S).transpose * W) := by
      rw [Matrix.transpose_mul]
      simp only [Matrix.mul_assoc]
    rw [e]
    exact l2 _
  · have e : Y * (U * S * V) = Y * (U * S) * V := by
      simp only [Matrix.mul_assoc]
    rw [e]
    exact l3 _

theorem psiGrow_run (env : PSIEnv ℝ) (hqr : QrAlways env.la) (hsort : ArgSortOk env.argsort) (cfg : PSICfg)
    (hz : cfg.init = some .zero) (hint : cfg.integrator = true) {r : ℕ} (chunks : List (List (Row ℝ))) :
    ∀ (seen : List (Row ℝ)) (st : PSIState ℝ) (us is : List ℤ) (A : Matrix (Fin us.length) (Fin is.length) ℝ),
      PsiHolds st us is r A → (∀ x ∈ seen, x.user ∈ us ∧ x.item ∈ is) →
      ∃ (st' : PSIState ℝ) (us' is' : List ℤ) (B : Matrix (Fin us'.length) (Fin is'.length) ℝ),
        chunks.foldlM (psiUpdate env cfg) st = .ok st' ∧ PsiHolds st' us' is' r B ∧ us <+: us' ∧ is <+: is' ∧
        us'.Nodup ∧ is'.Nodup ∧
        (∀ u, u ∈ us' ↔ u ∈ us ∨ ∃ x ∈ chunks.flatten, x.user = u) ∧
        (∀ i, i ∈ is' ↔ i ∈ is ∨ ∃ x ∈ chunks.flatten, x.item = i) ∧
        fro (interactionMatrix us' is' (seen ++ chunks.flatten) - B) ≤
          fro (interactionMatrix us is seen - A) + (chunks.map fun c => fro (interactionMatrix us' is' c)).sum ∧
        fro B ≤ fro A + (chunks.map fun c => fro (interactionMatrix us' is' c)).sum := by
  induction chunks with
  | nil => exact fun seen st us is A h _ => ⟨st, us, is, A, rfl, h, List.prefix_rfl, List.prefix_rfl,
      h.shape.user.nodup, h.shape.item.nodup, by simp, by simp, by simp, by simp⟩
  | cons c chunks ih =>
    intro seen st us is A h hseen
    obtain ⟨st1, us1, is1, A', B1, e1, h1, pu, pi, nu1, ni1, mu, mi, hext, l1, -, l3, -⟩ :=
      C170_update env hqr hsort cfg hz hint h c
    have hseen1 : ∀ x ∈ seen ++ c, x.user ∈ us1 ∧ x.item ∈ is1 := by
      intro x hx
      rcases List.mem_append.1 hx with hx | hx
      · exact ⟨(mu _).2 (Or.inl (hseen x hx).1), (mi _).2 (Or.inl (hseen x hx).2)⟩
      · exact ⟨(mu _).2 (Or.inr ⟨x, hx, rfl⟩), (mi _).2 (Or.inr ⟨x, hx, rfl⟩)⟩
    obtain ⟨st', us', is', B, e', h', pu', pi', nu', ni', mu', mi', g1, g2⟩ := ih (seen ++ c) st1 us1 is1 B1 h1 hseen1
    have hc : fro (interactionMatrix us' is' c) = fro (interactionMatrix us1 is1 c) :=
      (zeroExt_table pu' pi' nu' ni' c fun x hx => hseen1 x (List.mem_append_right _ hx)).fro
    have hold : fro (interactionMatrix us1 is1 seen - A') = fro (interactionMatrix us is seen - A) :=
      ((zeroExt_table pu pi nu1 ni1 seen hseen).sub hext).fro
    have hloss : fro (A' + interactionMatrix us1 is1 c - B1) ≤ fro (interactionMatrix us1 is1 c) := by
      refine fro_le ?_
      have := l3 0
      rwa [Matrix.zero_mul, sub_zero] at this
    refine ⟨st', us', is', B, ?_, h', pu.trans pu', pi.trans pi', nu', ni', fun u => ?_, fun i => ?_, ?_, ?_⟩
    · rw [List.foldlM_cons, e1, except_bind_ok, e']
    · rw [mu', mu, List.flatten_cons]
      simp only [List.mem_append, or_and_right, exists_or, or_assoc]
    · rw [mi', mi, List.flatten_cons]
      simp only [List.mem_append, or_and_right, exists_or, or_assoc]
    · rw [List.flatten_cons, ← List.append_assoc, List.map_cons, List.sum_cons, hc]
      refine g1.trans ?_
      have e2 : interactionMatrix us1 is1 (seen ++ c) - B1 =
          (interactionMatrix us1 is1 seen - A') + (A' + interactionMatrix us1 is1 c - B1) := by
        rw [interactionMatrix_append]
        abel
      have := fro_add_le (interactionMatrix us1 is1 seen - A') (A' + interactionMatrix us1 is1 c - B1)
      rw [← e2, hold] at this
      linarith
    · rw [List.map_cons, List.sum_cons, hc]
      have h2 : fro B1 ≤ fro (A' + interactionMatrix us1 is1 c) := fro_le (by
        have := sqSum_nonneg (A' + interactionMatrix us1 is1 c - B1)
        linarith)
      have := fro_add_le A' (interactionMatrix us1 is1 c)
      rw [hext.fro] at this
      linarith

/-- **C170, a run.** With zero embeddings and the integrator scheme training and updates with any users and items succeed.
The known users and items are exactly those of the rows seen. The distance of the scores to the table of all rows is at
most the distance of the training table to any matrix of the rank plus the norms of the chunks, hence at most the distance
of the table of all rows to any matrix of the rank plus twice the norms of the chunks. The norm of the scores is at most
the sum of the norms of the training table and of the chunks. -/
theorem C170_run (env : PSIEnv ℝ) (hqr : QrAlways env.la) (hsort : ArgSortOk env.argsort) (cfg : PSICfg)
    (hz : cfg.init = some .zero) (hint : cfg.integrator = true) (train : List (Row ℝ)) (us is : List ℤ)
    (hu : FirstAppearance (train.map Row.user) us) (hi : FirstAppearance (train.map Row.item) is)
    (hr : 1 ≤ cfg.rank ∧ cfg.rank < us.length ∧ cfg.rank < is.length)
    (hsvd : SvdsOk env.la cfg.rank (interactionMatrix us is train)) (chunks : List (List (Row ℝ))) :
    ∃ (st : PSIState ℝ) (us' is' : List ℤ) (B : Matrix (Fin us'.length) (Fin is'.length) ℝ),
      psiRun env cfg train chunks = .ok st ∧ us <+: us' ∧ is <+: is' ∧ us'.Nodup ∧ is'.Nodup ∧
      (∀ u, u ∈ us' ↔ ∃ x ∈ train ++ chunks.flatten, x.user = u) ∧
      (∀ i, i ∈ is' ↔ ∃ x ∈ train ++ chunks.flatten, x.item = i) ∧
      Represents st.maps.user us' ∧ Represents st.maps.item is' ∧
      (∀ a : Fin us'.length, psiScore st ((a : ℕ) : ℤ) = .ok (List.ofFn fun j => B a j)) ∧
      (∀ X : Matrix (Fin us.length) (Fin is.length) ℝ, X.rank ≤ cfg.rank →
        fro (interactionMatrix us' is' (train ++ chunks.flatten) - B) ≤
          fro (interactionMatrix us is train - X) + (chunks.map fun c => fro (interactionMatrix us' is' c)).sum) ∧
      (∀ X : Matrix (Fin us'.length) (Fin is'.length) ℝ, X.rank ≤ cfg.rank →
        fro (interactionMatrix us' is' (train ++ chunks.flatten) - B) ≤
          fro (interactionMatrix us' is' (train ++ chunks.flatten) - X) +
            2 * (chunks.map fun c => fro (interactionMatrix us' is' c)).sum) ∧
      fro B ≤ fro (interactionMatrix us is train) + (chunks.map fun c => fro (interactionMatrix us' is' c)).sum := by
  obtain ⟨us0, is0, hu', hi', ⟨st, e, hinv, -⟩ | ⟨-, hbad⟩⟩ := C31_train env cfg train
  · obtain rfl := hu.unique hu'
    obtain rfl := hi.unique hi'
    obtain ⟨U, s, V, ht, e1, e2, e3, e4, e5⟩ := C98_train env cfg train st us is hu hi hsvd e
    obtain ⟨hUU, hV, hUA⟩ := truncated_orth ht
    have h0 : PsiHolds st us is cfg.rank (U * diagonal s * V) :=
      ⟨hinv.shape, U, diagonal s, V, e1, by rw [e2]; rfl, e3, hV, rfl, e4, e5⟩
    have hm : ∀ x ∈ train, x.user ∈ us ∧ x.item ∈ is := fun x hx =>
      ⟨(hu.mem _).2 (List.mem_map_of_mem hx), (hi.mem _).2 (List.mem_map_of_mem hx)⟩
    obtain ⟨st', us', is', B, e', h', pu, pi, nu, ni, mu, mi, g1, g2⟩ :=
      psiGrow_run env hqr hsort cfg hz hint chunks train st us is _ h0 hm
    have htab := zeroExt_table pu pi nu ni train hm
    have hbest : ∀ X : Matrix (Fin us.length) (Fin is.length) ℝ, X.rank ≤ cfg.rank →
        fro (interactionMatrix us' is' (train ++ chunks.flatten) - B) ≤
          fro (interactionMatrix us is train - X) + (chunks.map fun c => fro (interactionMatrix us' is' c)).sum :=
      fun X hX => by
        obtain ⟨Y, Z, rfl⟩ := exists_factor_of_rank X hX
        have := fro_le (best_approximation _ U s V ht Y Z)
        linarith
    refine ⟨st', us', is', B, ?_, pu, pi, nu, ni, fun u => ?_, fun i => ?_, h'.shape.user, h'.shape.item, h'.scores,
      hbest, fun X hX => ?_, ?_⟩
    · unfold psiRun
      rw [e, except_bind_ok, e']
    · rw [mu, hu.mem, List.mem_map]
      simp only [List.mem_append, or_and_right, exists_or]
    · rw [mi, hi.mem, List.mem_map]
      simp only [List.mem_append, or_and_right, exists_or]
    · obtain ⟨Y, Z, rfl⟩ := exists_factor_of_rank X hX
      have h1 := hbest (Y.submatrix (Fin.castLE pu.length_le) id * Z.submatrix id (Fin.castLE pi.length_le))
        ((Matrix.rank_mul_le_right _ _).trans (Matrix.rank_le_height _))
      have h2 : fro (interactionMatrix us is train -
          Y.submatrix (Fin.castLE pu.length_le) id * Z.submatrix id (Fin.castLE pi.length_le)) ≤
          fro (interactionMatrix us' is' train - Y * Z) := by
        refine fro_le ?_
        exact restrict_le htab (Y * Z)
      have e6 : interactionMatrix us' is' train - Y * Z =
          (interactionMatrix us' is' (train ++ chunks.flatten) - Y * Z) +
            -(interactionMatrix us' is' chunks.flatten) := by
        rw [interactionMatrix_append]
        abel
      have h3 := fro_add_le (interactionMatrix us' is' (train ++ chunks.flatten) - Y * Z)
        (-(interactionMatrix us' is' chunks.flatten))
      rw [← e6, fro_neg] at h3
      have := fro_flatten us' is' chunks
      linarith
    · have h3 : fro (U * diagonal s * V) ≤ fro (interactionMatrix us is train) := by
        refine fro_le ?_
        rw [hUA, sqSum_orth hUU]
        exact sqSum_contract hUU _
      linarith
  · obtain rfl := hu.unique hu'
    obtain rfl := hi.unique hi'
    exact absurd ⟨hr.1, by omega⟩ hbad

/-! ### New users who take only new items -/

/-- a projection to a space of dimension at most the rank of `A` that contains the columns of `A` maps into their span -/
theorem proj_factor {m n : ℕ} {P : Matrix (Fin m) (Fin m) ℝ} {A : Matrix (Fin m) (Fin n) ℝ} (hr : P.rank ≤ A.rank)
    (h : P * A = A) : ∃ Z : Matrix (Fin n) (Fin m) ℝ, P = A * Z := by
  have hle : LinearMap.range A.mulVecLin ≤ LinearMap.range P.mulVecLin := by
    rintro _ ⟨v, rfl⟩
    refine ⟨A.mulVecLin v, ?_⟩
    simp only [Matrix.mulVecLin_apply, Matrix.mulVec_mulVec, h]
  have heq := Submodule.eq_of_le_of_finrank_le hle hr
  have hc : ∀ j, ∃ z : Fin n → ℝ, A.mulVec z = P.col j := fun j => by
    have : P.col j ∈ LinearMap.range A.mulVecLin := by
      rw [heq]
      exact ⟨Pi.single j 1, by rw [Matrix.mulVecLin_apply, Matrix.mulVec_single_one]⟩
    obtain ⟨z, hz⟩ := this
    exact ⟨z, hz⟩
  choose z hz using hc
  refine ⟨Matrix.of fun i j => z j i, ?_⟩
  ext i j
  have := congrFun (hz j) i
  rw [Matrix.mul_apply]
  exact this.symm

theorem proj_keeps {m n r : ℕ} {A D B : Matrix (Fin m) (Fin n) ℝ} (h : ProjectsTo r A (A + D) B) (hr : r ≤ A.rank)
    (h1 : D * A.transpose = 0) (h2 : A.transpose * D = 0) : B = A := by
  obtain ⟨P, hs, hP, hk, hc, rfl⟩ := h
  rw [Matrix.add_mul, h1, add_zero] at hc
  have hA : P * A = A := by
    have h3 : (P * A - A) * A.transpose = 0 := by rw [Matrix.sub_mul, Matrix.mul_assoc, hc, sub_self]
    have h4 : (P * A - A) * (P * A - A).transpose = 0 := by
      rw [Matrix.transpose_sub, Matrix.transpose_mul, Matrix.mul_sub, h3, ← Matrix.mul_assoc, h3, Matrix.zero_mul, sub_zero]
    have h5 : P * A - A = 0 := by
      refine sqSum_eq_zero ?_
      rw [← sqSum_transpose, sqSum_eq_trace, Matrix.transpose_transpose, h4, Matrix.trace_zero]
    exact sub_eq_zero.1 h5
  obtain ⟨Z, rfl⟩ := proj_factor (hk.trans hr) hA
  rw [Matrix.mul_add, hA]
  have : A * Z * D = 0 := by
    rw [← hs, Matrix.transpose_mul, Matrix.mul_assoc, h2, Matrix.mul_zero]
  rw [this, add_zero]

theorem ZeroExt.rank {m n m' n' : ℕ} {M : Matrix (Fin m) (Fin n) ℝ} {M' : Matrix (Fin m') (Fin n') ℝ}
    (h : ZeroExt M M') : M.rank ≤ M'.rank := by
  have e : M = M'.submatrix (Fin.castLE h.1) (Fin.castLE h.2.1) := by
    ext a j
    rw [Matrix.submatrix_apply, h.2.2, dif_pos ⟨a.2, j.2⟩]
    rfl
  obtain ⟨Y, Z, hYZ⟩ := exists_factor_of_rank M' le_rfl
  have e2 : M = Y.submatrix (Fin.castLE h.1) id * Z.submatrix id (Fin.castLE h.2.1) := by
    exact e.trans (congrArg (fun X : Matrix (Fin m') (Fin n') ℝ => X.submatrix (Fin.castLE h.1) (Fin.castLE h.2.1)) hYZ).symm
  have e3 : (Y.submatrix (Fin.castLE h.1) id * Z.submatrix id (Fin.castLE h.2.1)).rank ≤ M'.rank :=
    (Matrix.rank_mul_le_right _ _).trans (Matrix.rank_le_height _)
  exact (congrArg Matrix.rank e2).trans_le e3

/-- **C171, lost rows.** With zero embeddings and the integrator scheme, rows of new users with new items leave no trace: if
the predictions have full rank, an update with such rows only appends zeros. The new users are known but all their scores
are zero. -/
theorem C171_lost (env : PSIEnv ℝ) (hqr : QrAlways env.la) (hsort : ArgSortOk env.argsort) (cfg : PSICfg)
    (hz : cfg.init = some .zero) (hint : cfg.integrator = true) {st : PSIState ℝ} {us is : List ℤ} {r : ℕ}
    {A : Matrix (Fin us.length) (Fin is.length) ℝ} (h : PsiHolds st us is r A) (hA : A.rank = r) (data : List (Row ℝ))
    (hd : ∀ x ∈ data, x.user ∉ us ∧ x.item ∉ is) :
    ∃ (st' : PSIState ℝ) (us' is' : List ℤ), psiUpdate env cfg st data = .ok st' ∧ us <+: us' ∧ is <+: is' ∧
      Represents st'.maps.user us' ∧ Represents st'.maps.item is' ∧
      (∀ x ∈ data, x.user ∈ us' ∧ x.item ∈ is') ∧
      ∀ a : Fin us'.length, psiScore st' ((a : ℕ) : ℤ) = .ok (List.ofFn fun j : Fin is'.length =>
        if h : (a : ℕ) < us.length ∧ (j : ℕ) < is.length then A ⟨a, h.1⟩ ⟨j, h.2⟩ else 0) := by
  obtain ⟨st', us', is', A', B, e, h', pu, pi, nu, ni, mu, mi, hext, -, -, -, hproj⟩ :=
    C170_update env hqr hsort cfg hz hint h data
  have hD : ∀ (a : Fin us'.length) (j : Fin is'.length), (a : ℕ) < us.length ∨ (j : ℕ) < is.length →
      interactionMatrix us' is' data a j = 0 := by
    intro a j hlt
    unfold interactionMatrix
    rw [Matrix.of_apply]
    have : (data.filter fun r => decide (r.user = us'[a] ∧ r.item = is'[j])) = [] := by
      rw [List.filter_eq_nil_iff]
      intro x hx hc
      obtain ⟨c1, c2⟩ := of_decide_eq_true hc
      obtain ⟨d1, d2⟩ := hd x hx
      rcases hlt with hlt | hlt
      · exact d1 (c1 ▸ (show us[(a : ℕ)] = us'[a] from pu.getElem hlt) ▸ List.getElem_mem _)
      · exact d2 (c2 ▸ (show is[(j : ℕ)] = is'[j] from pi.getElem hlt) ▸ List.getElem_mem _)
    rw [this]
    rfl
  have hB : B = A' := by
    refine proj_keeps hproj (hA.symm.le.trans hext.rank) ?_ ?_
    · ext a b
      rw [Matrix.mul_apply]
      refine Finset.sum_eq_zero fun j _ => ?_
      by_cases hj : (j : ℕ) < is.length
      · rw [hD a j (Or.inr hj), zero_mul]
      · rw [Matrix.transpose_apply, hext.2.2, dif_neg fun q => hj q.2, mul_zero]
    · ext j b
      rw [Matrix.mul_apply]
      refine Finset.sum_eq_zero fun a _ => ?_
      by_cases ha : (a : ℕ) < us.length
      · rw [hD a b (Or.inl ha), mul_zero]
      · rw [Matrix.transpose_apply, hext.2.2, dif_neg fun q => ha q.1, zero_mul]
  refine ⟨st', us', is', e, pu, pi, h'.shape.user, h'.shape.item, fun x hx =>
    ⟨(mu _).2 (Or.inr ⟨x, hx, rfl⟩), (mi _).2 (Or.inr ⟨x, hx, rfl⟩)⟩, fun a => ?_⟩
  rw [h'.scores a, hB]
  congr 2
  funext j
  exact hext.2.2 a j

/-- **C171, a run that loses a row.** The claim that every new user with a row gets a score that is not zero is false: user 9
takes item 42, both new, and is scored zero for all items afterwards. -/
theorem C171_negative (env : PSIEnv ℝ) (hqr : QrAlways env.la) (hsort : ArgSortOk env.argsort)
    (hsvd : SvdsOk env.la 1 (interactionMatrix [7, 8] [40, 41] (exTieRows 2))) :
    ∃ (st : PSIState ℝ) (a : ℤ) (n : ℕ),
      psiRun env ⟨1, 0, 1, some .zero, true⟩ (exTieRows 2) [[⟨9, 42, 3, 2, 1⟩]] = .ok st ∧
      st.maps.user.old2new.get? 9 = some a ∧ psiScore st a = .ok (List.ofFn fun _ : Fin n => 0) := by
  have hu : FirstAppearance ((exTieRows 2).map Row.user) [7, 8] := firstAppearance_pdUnique [7, 8]
  have hi : FirstAppearance ((exTieRows 2).map Row.item) [40, 41] := firstAppearance_pdUnique [40, 41]
  have hT : interactionMatrix [7, 8] [40, 41] (exTieRows 2) = (!![2, 0; 0, 1] : Matrix (Fin 2) (Fin 2) ℝ) := by
    ext i j
    fin_cases i <;> fin_cases j <;> simp [interactionMatrix, exTieRows]
  obtain ⟨us0, is0, hu', hi', ⟨st, e, hinv, -⟩ | ⟨-, hbad⟩⟩ := C31_train env ⟨1, 0, 1, some .zero, true⟩ (exTieRows 2)
  swap
  · obtain rfl := hu.unique hu'
    obtain rfl := hi.unique hi'
    exact absurd (by decide) hbad
  obtain rfl := hu.unique hu'
  obtain rfl := hi.unique hi'
  obtain ⟨U, s, V, ht, e1, e2, e3, e4, e5⟩ :=
    C98_train env ⟨1, 0, 1, some .zero, true⟩ (exTieRows 2) st [7, 8] [40, 41] hu hi hsvd e
  obtain ⟨hUU, hV, hUA⟩ := truncated_orth ht
  have h0 : PsiHolds st [7, 8] [40, 41] 1 (U * diagonal s * V) :=
    ⟨hinv.shape, U, diagonal s, V, e1, by rw [e2]; rfl, e3, hV, rfl, e4, e5⟩
  have hne : U * diagonal s * V ≠ 0 := by
    intro h
    have h1 := best_approximation _ U s V ht (!![2; 0] : Matrix (Fin 2) (Fin 1) ℝ) (!![1, 0] : Matrix (Fin 1) (Fin 2) ℝ)
    rw [h, sub_zero, hT] at h1
    have e6 : sqSum (!![2, 0; 0, 1] : Matrix (Fin 2) (Fin 2) ℝ) = 5 := by
      simp [sqSum, Fin.sum_univ_two]
      norm_num
    have e7 : sqSum ((!![2, 0; 0, 1] : Matrix (Fin 2) (Fin 2) ℝ) -
        (!![2; 0] : Matrix (Fin 2) (Fin 1) ℝ) * (!![1, 0] : Matrix (Fin 1) (Fin 2) ℝ)) = 1 := by
      simp [sqSum, Fin.sum_univ_two, Matrix.mul_apply]
    have h2 : sqSum (!![2, 0; 0, 1] : Matrix (Fin 2) (Fin 2) ℝ) ≤ sqSum ((!![2, 0; 0, 1] : Matrix (Fin 2) (Fin 2) ℝ) -
        (!![2; 0] : Matrix (Fin 2) (Fin 1) ℝ) * (!![1, 0] : Matrix (Fin 1) (Fin 2) ℝ)) := h1
    rw [e6, e7] at h2
    norm_num at h2
  have hrank : (U * diagonal s * V).rank = 1 := by
    refine le_antisymm ((Matrix.rank_mul_le_right _ _).trans (Matrix.rank_le_height _)) ?_
    by_contra hlt
    obtain ⟨Y, Z, hYZ⟩ := exists_factor_of_rank (r := 0) (U * diagonal s * V) (by omega)
    refine hne (hYZ.symm.trans ?_)
    ext i j
    rw [Matrix.mul_apply]
    exact Finset.sum_of_isEmpty _
  obtain ⟨st', us', is', k1, pu, pi, ru, ri, hm, hs⟩ := C171_lost env hqr hsort ⟨1, 0, 1, some .zero, true⟩ rfl rfl h0 hrank
    [⟨9, 42, 3, 2, 1⟩] (by simp)
  obtain ⟨h9, -⟩ := hm ⟨9, 42, 3, 2, 1⟩ (by simp)
  obtain ⟨k, hk, hk9⟩ := List.getElem_of_mem h9
  have hk2 : 2 ≤ k := by
    by_contra hlt
    have h3 : ([7, 8] : List ℤ)[k]'(by simp; omega) = us'[k] := pu.getElem _
    rw [hk9] at h3
    interval_cases k <;> simp at h3
  refine ⟨st', ((k : ℕ) : ℤ), is'.length, ?_, (ru.old2new 9 _).2 ⟨k, rfl, by rw [List.getElem?_eq_getElem hk, hk9]⟩, ?_⟩
  · unfold psiRun
    rw [e, except_bind_ok, List.foldlM_cons, k1, except_bind_ok]
    rfl
  · rw [hs ⟨k, hk⟩]
    congr 2
    funext j
    rw [dif_neg]
    rintro ⟨g, -⟩
    have g : k < 2 := g
    omega

/-- **C171, what holds.** The products of the new predictions of a user with the former predictions of any user are those of
the data: so a user whose rows have a non-zero product with the former predictions of somebody gets a score that is not
zero. No condition on ranks is needed. -/
theorem C171_products_partial (env : PSIEnv ℝ) (hqr : QrAlways env.la) (hsort : ArgSortOk env.argsort) (cfg : PSICfg)
    (hz : cfg.init = some .zero) (hint : cfg.integrator = true) {st : PSIState ℝ} {us is : List ℤ} {r : ℕ}
    {A : Matrix (Fin us.length) (Fin is.length) ℝ} (h : PsiHolds st us is r A) (data : List (Row ℝ)) :
    ∃ (st' : PSIState ℝ) (us' is' : List ℤ) (A' B : Matrix (Fin us'.length) (Fin is'.length) ℝ),
      psiUpdate env cfg st data = .ok st' ∧ us <+: us' ∧ is <+: is' ∧ (∀ x ∈ data, x.user ∈ us' ∧ x.item ∈ is') ∧
      ZeroExt A A' ∧ (∀ a : Fin us'.length, psiScore st' ((a : ℕ) : ℤ) = .ok (List.ofFn fun j => B a j)) ∧
      (∀ a b, ∑ j, B a j * A' b j = ∑ j, (A' a j + interactionMatrix us' is' data a j) * A' b j) ∧
      ∀ (a : Fin us'.length) (b : Fin us'.length), us.length ≤ (a : ℕ) →
        (∑ j, interactionMatrix us' is' data a j * A' b j) ≠ 0 → ∃ j, B a j ≠ 0 := by
  obtain ⟨st', us', is', A', B, e, h', pu, pi, nu, ni, mu, mi, hext, -, -, -, P, hs, hP, -, hc, hB⟩ :=
    C170_update env hqr hsort cfg hz hint h data
  have key : ∀ a b, ∑ j, B a j * A' b j = ∑ j, (A' a j + interactionMatrix us' is' data a j) * A' b j := by
    intro a b
    have e1 : B * A'.transpose = (A' + interactionMatrix us' is' data) * A'.transpose := by
      rw [hB, Matrix.mul_assoc, hc]
    have := congrFun (congrFun e1 a) b
    rw [Matrix.mul_apply, Matrix.mul_apply] at this
    exact this
  refine ⟨st', us', is', A', B, e, pu, pi, fun x hx =>
    ⟨(mu _).2 (Or.inr ⟨x, hx, rfl⟩), (mi _).2 (Or.inr ⟨x, hx, rfl⟩)⟩, hext, h'.scores, key, fun a b ha hne => ?_⟩
  by_contra hall
  push Not at hall
  apply hne
  have := key a b
  simp only [hall, zero_mul, Finset.sum_const_zero] at this
  rw [this]
  refine Finset.sum_congr rfl fun j _ => ?_
  rw [hext.2.2 a j, dif_neg fun q => absurd q.1 (not_lt.2 ha), zero_add]

/-! ### Examples -/

-- zeros appended to a matrix
example : ZeroExt (!![1, 2] : Matrix (Fin 1) (Fin 2) ℝ) (!![1, 2, 0; 0, 0, 0] : Matrix (Fin 2) (Fin 3) ℝ) := by
  refine ⟨by decide, by decide, fun a j => ?_⟩
  fin_cases a <;> fin_cases j <;> simp

-- but not a matrix with another entry
example : ¬ ZeroExt (!![1, 2] : Matrix (Fin 1) (Fin 2) ℝ) (!![1, 2, 0; 0, 0, 3] : Matrix (Fin 2) (Fin 3) ℝ) := by
  rintro ⟨-, -, h⟩
  have := h 1 2
  simp at this

-- the new user 9 takes the new item 42: both become known, and the error is at most that of the training, 1, plus the
-- norm of the chunk
example (env : PSIEnv ℝ) (hqr : QrAlways env.la) (hsort : ArgSortOk env.argsort)
    (hsvd : SvdsOk env.la 1 (interactionMatrix [7, 8] [40, 41] (exTieRows 2))) :
    ∃ (st : PSIState ℝ) (us' is' : List ℤ) (B : Matrix (Fin us'.length) (Fin is'.length) ℝ),
      psiRun env ⟨1, 0, 1, some .zero, true⟩ (exTieRows 2) [[⟨9, 42, 3, 2, 1⟩]] = .ok st ∧
      [7, 8] <+: us' ∧ [40, 41] <+: is' ∧ 9 ∈ us' ∧ 42 ∈ is' ∧
      (∀ a : Fin us'.length, psiScore st ((a : ℕ) : ℤ) = .ok (List.ofFn fun j => B a j)) ∧
      fro (interactionMatrix us' is' (exTieRows 2 ++ [⟨9, 42, 3, 2, 1⟩]) - B) ≤
        1 + fro (interactionMatrix us' is' [(⟨9, 42, 3, 2, 1⟩ : Row ℝ)]) := by
  have hu : FirstAppearance ((exTieRows 2).map Row.user) [7, 8] := firstAppearance_pdUnique [7, 8]
  have hi : FirstAppearance ((exTieRows 2).map Row.item) [40, 41] := firstAppearance_pdUnique [40, 41]
  have hT : interactionMatrix [7, 8] [40, 41] (exTieRows 2) = (!![2, 0; 0, 1] : Matrix (Fin 2) (Fin 2) ℝ) := by
    ext i j
    fin_cases i <;> fin_cases j <;> simp [interactionMatrix, exTieRows]
  obtain ⟨st, us', is', B, h1, pu, pi, -, -, mu, mi, -, -, hs, h3, -⟩ := C170_run env hqr hsort
    ⟨1, 0, 1, some .zero, true⟩ rfl rfl (exTieRows 2) [7, 8] [40, 41] hu hi (by decide) hsvd [[⟨9, 42, 3, 2, 1⟩]]
  refine ⟨st, us', is', B, h1, pu, pi, (mu 9).2 ⟨⟨9, 42, 3, 2, 1⟩, by simp, rfl⟩,
    (mi 42).2 ⟨⟨9, 42, 3, 2, 1⟩, by simp, rfl⟩, hs, ?_⟩
  have h4 := h3 (!![2, 0; 0, 0] : Matrix (Fin 2) (Fin 2) ℝ) (by
    have e : (!![2, 0; 0, 0] : Matrix (Fin 2) (Fin 2) ℝ) =
        (!![2; 0] : Matrix (Fin 2) (Fin 1) ℝ) * (!![1, 0] : Matrix (Fin 1) (Fin 2) ℝ) := by
      ext i j
      fin_cases i <;> fin_cases j <;> simp [Matrix.mul_apply]
    rw [e]
    exact (Matrix.rank_mul_le_right _ _).trans (Matrix.rank_le_height _))
  rw [hT] at h4
  have e2 : fro ((!![2, 0; 0, 1] : Matrix (Fin 2) (Fin 2) ℝ) - !![2, 0; 0, 0]) = 1 := by
    simp [fro, Fin.sum_univ_two]
  have e4 : ∀ x : ℝ, fro ((!![2, 0; 0, 1] : Matrix (Fin 2) (Fin 2) ℝ) - !![2, 0; 0, 0]) + (x + 0) = 1 + x := by
    intro x
    rw [e2, add_zero]
  exact h4.trans_eq (e4 _)

end DynCF
