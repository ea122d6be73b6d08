/- C152: what an experiment with `SVD` records does not depend on the singular vectors chosen by the SVD routine. -/
import Verif.Lemmas.SvdUnique
import Verif.Lemmas.Twin
import Verif.Props.SvdTrain
import Verif.Props.Completion
import Verif.Props.Settings

namespace DynCF
open Matrix

/-! ### Specification -/

/-- On this table both routines return a singular value decomposition, and the `rank` leading singular values of its
interaction matrix are larger than the others. -/
def Settled (la la' : LinAlg ℝ) (rank : ℕ) (rows : List (Row ℝ)) : Prop :=
  ∀ us is, FirstAppearance (rows.map Row.user) us → FirstAppearance (rows.map Row.item) is →
    SvdsOk la rank (interactionMatrix us is rows) ∧ SvdsOk la' rank (interactionMatrix us is rows) ∧
    SpectralGap rank (interactionMatrix us is rows)

/-- Frobenius norm -/
noncomputable def frobM (A : Mat ℝ) : ℝ := Real.sqrt (∑ i, ∑ j, A.val i j ^ 2)

/-! ### Trained models -/

/-- The two models answer alike and their factors have the same shapes and norms. -/
def Alike : Option (PSIState ℝ) → Option (PSIState ℝ) → Prop
  | none, none => True
  | some s, some s' => s.view = s'.view ∧ (∀ u, psiScore s u = psiScore s' u) ∧
      SameShape s.u s'.u ∧ SameShape s.vt s'.vt ∧ frobM s.u = frobM s'.u ∧ frobM s.vt.T = frobM s'.vt.T
  | _, _ => False

theorem psiScore_all {m r r' n : ℕ} {st st' : PSIState ℝ} {U : Matrix (Fin m) (Fin r) ℝ} {W : Matrix (Fin r) (Fin n) ℝ}
    {U' : Matrix (Fin m) (Fin r') ℝ} {W' : Matrix (Fin r') (Fin n) ℝ} (h1 : st.userFactors = ⟨m, r, U⟩)
    (h2 : st.itemFactors = ⟨r, n, W⟩) (h1' : st'.userFactors = ⟨m, r', U'⟩) (h2' : st'.itemFactors = ⟨r', n, W'⟩)
    (he : U * W = U' * W') (u : ℤ) : psiScore st u = psiScore st' u := by
  unfold psiScore
  rw [h1, h2, h1', h2']
  unfold Mat.row
  dsimp only
  cases hp : pyIdx m u with
  | error e => rfl
  | ok a =>
    have hp : ∀ {q : ℕ} (x : Fin q → ℝ), (pure x : PyM (Fin q → ℝ)) = .ok x := fun _ => rfl
    simp only [except_bind_ok, Mat.T_mk, hp, dotVec_mk']
    refine congrArg (fun l : List ℝ => (Except.ok l : PyM _)) (congrArg List.ofFn ?_)
    funext j
    have e := congrFun (congrFun he a) j
    rw [Matrix.mul_apply, Matrix.mul_apply] at e
    have c : ∀ {q : ℕ} (X : Fin q → ℝ) (Y : Matrix (Fin q) (Fin n) ℝ),
        ∑ k, Y.transpose j k * X k = ∑ k, X k * Y k j := fun X Y =>
      Finset.sum_congr rfl fun k _ => by rw [Matrix.transpose_apply, mul_comm]
    rw [c, c]
    exact e

theorem frob_orth {m r : ℕ} {U : Matrix (Fin m) (Fin r) ℝ} (h : U.transpose * U = 1) :
    frobM ⟨m, r, U⟩ = Real.sqrt r := by
  unfold frobM
  congr 1
  exact sqSum_orth_self h

theorem svd_items {r n : ℕ} (s : Fin r → ℝ) (V : Matrix (Fin r) (Fin n) ℝ) :
    ∃ B, Mat.dot (Mat.diag s) (Mat.revRows ⟨r, n, V⟩) = .ok B := ⟨_, Mat.dot_mk _ _⟩

theorem svdTrain_alike (e e' : PSIEnv ℝ) (c : PSICfg) (rows : List (Row ℝ)) (h : Settled e.la e'.la c.rank rows) :
    Both (fun s s' => Alike (some s) (some s')) (svdTrain e c rows) (svdTrain e' c rows) := by
  have hcase : ∀ st, svdTrain e c rows = .ok st → ∃ st', svdTrain e' c rows = .ok st' ∧
      st'.maps = st.maps ∧ st'.history = st.history := by
    intro st hst
    unfold svdTrain at hst ⊢
    obtain ⟨dm, h1, hst⟩ := (bind_ok_iff _ _ _).1 hst
    obtain ⟨a0, h2, hst⟩ := (bind_ok_iff _ _ _).1 hst
    obtain ⟨f, h3, hst⟩ := (bind_ok_iff _ _ _).1 hst
    obtain ⟨itf, h4, hst⟩ := (bind_ok_iff _ _ _).1 hst
    have hst := Except.ok.inj hst
    subst hst
    rw [h1, except_bind_ok, h2, except_bind_ok]
    unfold svdStep at h3 ⊢
    dsimp only at h3 ⊢
    split at h3
    · rename_i hc
      rw [if_pos hc, except_bind_ok]
      obtain ⟨B, hB⟩ := svd_items (fun i => (e'.la.svds c.rank a0.val).2.1 (Fin.rev i)) (e'.la.svds c.rank a0.val).2.2
      rw [hB, except_bind_ok]
      exact ⟨_, rfl, rfl, rfl⟩
    · cases h3
  have herr : ∀ x, svdTrain e c rows = .error x → svdTrain e' c rows = .error x := by
    intro x hx
    unfold svdTrain at hx ⊢
    cases h1 : getDfWithUpdatedIndices rows with
    | error y => rw [h1] at hx; exact hx
    | ok dm =>
      rw [h1, except_bind_ok] at hx
      rw [except_bind_ok]
      cases h2 : cooInfer (dm.1.map fun r => ((r.user, r.item), r.rel)) with
      | error y => rw [h2] at hx; exact hx
      | ok a0 =>
        rw [h2, except_bind_ok] at hx
        rw [except_bind_ok]
        unfold svdStep at hx ⊢
        dsimp only at hx ⊢
        split at hx
        · exfalso
          obtain ⟨B, hB⟩ := svd_items (fun i => (e.la.svds c.rank a0.val).2.1 (Fin.rev i)) (e.la.svds c.rank a0.val).2.2
          rw [except_bind_ok, hB, except_bind_ok] at hx
          cases hx
        · rename_i hc
          rw [if_neg hc]
          exact hx
  cases hs : svdTrain e c rows with
  | error x => rw [herr x hs]; exact .error x
  | ok st =>
    obtain ⟨st', hs', hm, hh⟩ := hcase st hs
    rw [hs']
    refine .ok ?_
    obtain ⟨us, is, hu, hi, -⟩ := C31_train e c rows
    obtain ⟨g1, g2, g3⟩ := h us is hu hi
    obtain ⟨U, s, V, ht, k1, k2, k3, k4, k5⟩ := C98_train e c rows st us is hu hi g1 hs
    obtain ⟨U', s', V', ht', k1', k2', k3', k4', k5'⟩ := C98_train e' c rows st' us is hu hi g2 hs'
    have hY := truncated_unique g3 ht ht'
    obtain ⟨o1, o2, -⟩ := truncated_orth ht
    obtain ⟨o1', o2', -⟩ := truncated_orth ht'
    refine ⟨?_, psiScore_all k4 k5 k4' k5' (by rw [← Matrix.mul_assoc, ← Matrix.mul_assoc]; exact hY), ?_, ?_, ?_, ?_⟩
    · unfold PSIState.view
      rw [k1, k1', k3, k3', hm, hh]
    · rw [k1, k1']; exact ⟨rfl, rfl⟩
    · rw [k3, k3']; exact ⟨rfl, rfl⟩
    · rw [k1, k1', frob_orth o1, frob_orth o1']
    · rw [k3, k3', Mat.T_mk, Mat.T_mk, frob_orth (by rw [Matrix.transpose_transpose]; exact o2),
        frob_orth (by rw [Matrix.transpose_transpose]; exact o2')]

/-- **C152, recommendations.** Two models trained with different SVD routines give the same scores and recommendations
to everybody. -/
theorem C152_recommend (e e' : PSIEnv ℝ) (c : PSICfg) (rows : List (Row ℝ)) (h : Settled e.la e'.la c.rank rows) :
    Both (fun s s' => (∀ u, psiScore s u = psiScore s' u) ∧
      ∀ argp users k filter internal, psiRecommend argp s users k filter internal =
        psiRecommend argp s' users k filter internal) (svdTrain e c rows) (svdTrain e' c rows) := by
  refine (svdTrain_alike e e' c rows h).mono fun s s' hs => ⟨hs.2.1, fun argp users k f i => ?_⟩
  unfold psiRecommend
  rw [hs.1]
  simp only [hs.2.1]

theorem svd_twin (e e' : PSIEnv ℝ) (argp : ArgPart ℝ) (c : PSICfg) :
    Twin frobM (useTrain (svdClass e argp c)) (useTrain (svdClass e' argp c)) Alike
      (fun t => Settled e.la e'.la c.rank t.rows) where
  train _ _ t ht := by
    show Both Alike (svdTrain e c t.rows >>= fun s => pure (some s)) (svdTrain e' c t.rows >>= fun s => pure (some s))
    exact (svdTrain_alike e e' c t.rows ht).bind fun a b _ _ hab => .ok hab
  update _ _ t _ ht := by
    show Both Alike (svdTrain e c t.rows >>= fun s => pure (some s)) (svdTrain e' c t.rows >>= fun s => pure (some s))
    exact (svdTrain_alike e e' c t.rows ht).bind fun a b _ _ hab => .ok hab
  recommend s s' us k b hR := by
    cases s with
    | none => cases s' with
      | none => exact .error _
      | some _ => exact hR.elim
    | some s => cases s' with
      | none => exact hR.elim
      | some s' =>
        have hq : psiRecommend argp s us k true b = psiRecommend argp s' us k true b := by
          unfold psiRecommend
          rw [hR.1]
          simp only [hR.2.1]
        show Both _ (psiRecommend argp s us k true b >>= fun r => pure (r, some s))
          (psiRecommend argp s' us k true b >>= fun r => pure (r, some s'))
        rw [hq]
        exact (Both.refl (R := Eq) (fun _ => rfl) _).bind fun x y _ _ hxy => .ok ⟨hxy, hR⟩
  maps s s' hR := by
    cases s with
    | none => cases s' with
      | none => rfl
      | some _ => exact hR.elim
    | some s => cases s' with
      | none => exact hR.elim
      | some s' => exact congrArg RecView.maps hR.1
  nItems s s' hR := by
    cases s with
    | none => cases s' with
      | none => rfl
      | some _ => exact hR.elim
    | some s => cases s' with
      | none => exact hR.elim
      | some s' => exact congrArg RecView.nItems hR.1
  getU s s' hR := by
    cases s with
    | none => cases s' with
      | none => exact .error _
      | some _ => exact hR.elim
    | some s => cases s' with
      | none => exact hR.elim
      | some s' => exact .ok ⟨hR.2.2.1, hR.2.2.2.2.1⟩
  getV s s' hR := by
    cases s with
    | none => cases s' with
      | none => exact .error _
      | some _ => exact hR.elim
    | some s => cases s' with
      | none => exact hR.elim
      | some s' => exact .ok ⟨⟨hR.2.2.2.1.2, hR.2.2.2.1.1⟩, hR.2.2.2.2.2⟩

theorem tables_plain {P : Tab ℝ → Prop} {cfg : ExpCfg ℝ} (h1 : cfg.chunkMode = false) (h2 : cfg.threeD = false) :
    ∀ (stream : List (List (Row ℝ))) (rows : List (Row ℝ)),
      (∀ j ≤ stream.length, P (.plain (rows ++ (stream.take j).flatten))) → TablesOk P cfg (.plain rows) stream
  | [], _, _ => trivial
  | c :: rest, rows, h => by
    intro conc' hc
    have he : conc' = .plain (rows ++ c) := by
      unfold concatStep at hc
      rw [if_neg (by rw [h1]; decide), if_neg (by rw [h2]; decide)] at hc
      exact (Except.ok.inj hc).symm
    subst he
    rw [if_neg (by rw [h1]; decide)]
    refine ⟨by simpa using h 1 (by simp), tables_plain h1 h2 rest (rows ++ c) fun j hj => ?_⟩
    have := h (j + 1) (by simpa using hj)
    rw [List.take_succ_cons, List.flatten_cons, ← List.append_assoc] at this
    exact this

/-- The routines agree with the specification on every table on which the script trains `SVD`. -/
def SettledRun (env : RunEnv ℝ) (la' : LinAlg ℝ) (cfg : RunCfg ℝ) (data : List (IRow ℝ)) : Prop :=
  ∀ initial stream left rank,
    prepareDataForExperiment env.sortDay data cfg.initRatio cfg.hmMin = .ok (initial, stream, left) →
    getOptimalSvdRank cfg.dataset env.svdCsv = .ok rank →
    ∀ j ≤ stream.length, Settled env.psi.la la' rank.toNat (initial ++ ((stream.map Prod.snd).take j).flatten)

/-- **C152, the experiment.** Two runs of the script with `SVD` that differ in the SVD routine end alike: both raise the
same exception, or both complete with the same times, hit rates, reciprocal ranks, stabilities and norms. -/
theorem C152_experiment (env : RunEnv ℝ) (la' : LinAlg ℝ) (hnorm : env.normM = frobM) (cfg : RunCfg ℝ) (fs : FixedSvd)
    (ft : FixedTd) (data : List (IRow ℝ)) (h : SettledRun env la' cfg data) :
    Both SameButDrift (runScript env cfg fs ft "SVD" data)
      (runScript { env with psi := { env.psi with la := la' } } cfg fs ft "SVD" data) := by
  rw [runScript_unfold, runScript_unfold, if_pos (by decide), if_pos (by decide)]
  unfold fullDynamicalExperiment
  refine (Both.refl (R := Eq) (fun _ => rfl) _).bind fun d d' hd _ he => ?_
  subst he
  obtain ⟨initial, stream, left⟩ := d
  have hm : prepareModel { env with psi := { env.psi with la := la' } } { cfg with fixedSvd := some fs, fixedTd := none }
      "SVD" = prepareModel env { cfg with fixedSvd := some fs, fixedTd := none } "SVD" := by
    unfold prepareModel
    rw [if_pos rfl, if_pos rfl]
    rfl
  rw [hm]
  have ht : initialTable "2d" cfg.maxLen initial = .ok (.plain initial) := rfl
  dsimp only
  rw [ht, except_bind_ok, except_bind_ok]
  refine (Both.refl (R := Eq) (fun _ => rfl) _).bind fun p p' hp _ he => ?_
  subst he
  unfold prepareModel at hp
  rw [if_pos rfl] at hp
  unfold prepareSvd at hp
  obtain ⟨c, hc, hp⟩ := (bind_ok_iff _ _ _).1 hp
  have hp := Except.ok.inj hp
  subst hp
  obtain ⟨r, hr, rfl⟩ := prepSvdCfg_ok rfl hc
  have hS : ∀ j ≤ stream.length, Settled env.psi.la la' r (initial ++ ((stream.map Prod.snd).take j).flatten) := by
    have := h initial stream left _ hd hr
    simpa using this
  have hT := svd_twin env.psi { env.psi with la := la' } env.argp ⟨r, fs.nPower, fs.os, none, false⟩
  rw [← hnorm] at hT
  exact twin_run (cfg := expCfgOf env { cfg with fixedSvd := some fs, fixedTd := none }
    ⟨.svd ⟨r, fs.nPower, fs.os, none, false⟩, true, false, false, false, none⟩
    (getUsersStability env.sortCnt (Tab.plain initial).rows left cfg.howMany)) hT rfl none none (.plain initial)
    (stream.map Prod.snd) (by simpa [Tab.rows] using hS 0 (by simp))
    (tables_plain rfl rfl _ _ fun j hj => hS j (by simpa using hj))

/-! ### The exceptions -/

/-- A routine that returns the negated vectors for the matrix `A`. -/
noncomputable def flipAt (la : LinAlg ℝ) (A : Mat ℝ) : LinAlg ℝ :=
  { la with svds := fun {m n} k B =>
      haveI := Classical.propDecidable ((⟨m, n, B⟩ : Mat ℝ) = A)
      if (⟨m, n, B⟩ : Mat ℝ) = A then (-(la.svds k B).1, (la.svds k B).2.1, -(la.svds k B).2.2) else la.svds k B }

theorem flipAt_ok {la : LinAlg ℝ} {A : Mat ℝ} {m n k : ℕ} {B : Matrix (Fin m) (Fin n) ℝ} (h : SvdsOk la k B) :
    SvdsOk (flipAt la A) k B := by
  obtain ⟨U, s, V, hk, h1, h2, h3, h4, h5, h6, h7, h8⟩ := h
  by_cases hA : (⟨m, n, B⟩ : Mat ℝ) = A
  · have he : (flipAt la A).svds k B = (-(la.svds k B).1, (la.svds k B).2.1, -(la.svds k B).2.2) := if_pos hA
    refine ⟨-U, s, -V, hk, ?_, ?_, ?_, h4, h5, ?_, ?_, ?_⟩
    · rw [Matrix.neg_mul, Matrix.neg_mul, Matrix.mul_neg, neg_neg, h1]
    · rw [Matrix.transpose_neg, Matrix.neg_mul, Matrix.mul_neg, neg_neg, h2]
    · rw [Matrix.transpose_neg, Matrix.neg_mul, Matrix.mul_neg, neg_neg, h3]
    · intro i j
      rw [he]
      show -((la.svds k B).1 i j) = -(U _ _)
      rw [h6]
    · intro j
      rw [he, h7]
    · intro i j
      rw [he]
      show -((la.svds k B).2.2 i j) = -(V _ _)
      rw [h8]
  · have he : (flipAt la A).svds k B = la.svds k B := if_neg hA
    refine ⟨U, s, V, hk, h1, h2, h3, h4, h5, ?_, ?_, ?_⟩
    · rw [he]; exact h6
    · rw [he]; exact h7
    · rw [he]; exact h8

theorem frob_eq {m n : ℕ} (A : Matrix (Fin m) (Fin n) ℝ) : frobM ⟨m, n, A⟩ = Real.sqrt (sqSum A) := rfl

theorem drift_value {m n : ℕ} (A B : Matrix (Fin m) (Fin n) ℝ) :
    driftOf frobM ⟨m, n, A⟩ ⟨m, n, B⟩ = .ok (npDiv (Real.sqrt (sqSum A)) (Real.sqrt (sqSum (B - A)))) := by
  unfold driftOf relNormM
  rw [Mat.sub_mk, except_bind_ok, Mat.sub_mk, except_bind_ok, frob_eq, frob_eq]
  have : B - A - B = -A := by abel
  rw [this]
  have hn : sqSum (-A) = sqSum A := by
    unfold sqSum
    simp
  rw [hn]
  rfl

/-- the drift from `A` to `B` and to `-B` -/
theorem drift_flip {m n : ℕ} (A B : Matrix (Fin m) (Fin n) ℝ) (h : ∑ i, ∑ j, A i j * B i j ≠ 0) :
    driftOf frobM ⟨m, n, A⟩ ⟨m, n, B⟩ ≠ driftOf frobM ⟨m, n, A⟩ ⟨m, n, -B⟩ := by
  rw [drift_value, drift_value]
  have hA : 0 < Real.sqrt (sqSum A) := by
    apply Real.sqrt_pos.2
    rcases lt_or_eq_of_le (sqSum_nonneg A) with h' | h'
    · exact h'
    · exfalso
      apply h
      rw [sqSum_eq_zero h'.symm]
      simp
  have e1 : sqSum (B - A) = sqSum B + sqSum A - 2 * ∑ i, ∑ j, A i j * B i j := by
    unfold sqSum
    rw [Finset.mul_sum, ← Finset.sum_add_distrib, ← Finset.sum_sub_distrib]
    refine Finset.sum_congr rfl fun i _ => ?_
    rw [Finset.mul_sum, ← Finset.sum_add_distrib, ← Finset.sum_sub_distrib]
    refine Finset.sum_congr rfl fun j _ => ?_
    rw [Matrix.sub_apply]
    ring
  have e2 : sqSum (-B - A) = sqSum B + sqSum A + 2 * ∑ i, ∑ j, A i j * B i j := by
    unfold sqSum
    rw [Finset.mul_sum, ← Finset.sum_add_distrib, ← Finset.sum_add_distrib]
    refine Finset.sum_congr rfl fun i _ => ?_
    rw [Finset.mul_sum, ← Finset.sum_add_distrib, ← Finset.sum_add_distrib]
    refine Finset.sum_congr rfl fun j _ => ?_
    rw [Matrix.sub_apply, Matrix.neg_apply]
    ring
  have hne : Real.sqrt (sqSum (B - A)) ≠ Real.sqrt (sqSum (-B - A)) := by
    intro he
    have := (Real.sqrt_inj (sqSum_nonneg _) (sqSum_nonneg _)).1 he
    apply h
    linarith
  intro he
  have he := Except.ok.inj he
  unfold npDiv at he
  generalize Real.sqrt (sqSum (B - A)) = x at *
  generalize Real.sqrt (sqSum (-B - A)) = y at *
  rw [if_neg hA.ne'] at he
  by_cases hx : x = 0
  · by_cases hy : y = 0
    · exact hne (hx.trans hy.symm)
    · rw [if_pos hx, if_neg hy] at he
      cases he
  · by_cases hy : y = 0
    · rw [if_neg hx, if_pos hy] at he
      cases he
    · rw [if_neg hx, if_neg hy] at he
      have he : Real.sqrt (sqSum A) / x = Real.sqrt (sqSum A) / y := by injection he
      rw [div_eq_div_iff hx hy] at he
      exact hne ((mul_left_cancel₀ hA.ne' he).symm)

/-- The factors of a trained model, for any routine. -/
theorem svdTrain_factors (e : PSIEnv ℝ) (c : PSICfg) (rows : List (Row ℝ)) (us is : List ℤ)
    (hu : FirstAppearance (rows.map Row.user) us) (hi : FirstAppearance (rows.map Row.item) is)
    (h1 : 1 ≤ c.rank) (h2 : c.rank < min us.length is.length) :
    ∃ st, svdTrain e c rows = .ok st ∧
      st.u = ⟨us.length, c.rank, Matrix.of fun i k => (e.la.svds c.rank (interactionMatrix us is rows)).1 i (Fin.rev k)⟩ ∧
      st.userFactors = st.u ∧
      st.itemFactors = ⟨c.rank, is.length, diagonal (fun k => (e.la.svds c.rank (interactionMatrix us is rows)).2.1 (Fin.rev k)) *
        Matrix.of fun k j => (e.la.svds c.rank (interactionMatrix us is rows)).2.2 (Fin.rev k) j⟩ := by
  obtain ⟨df', m, us', is', he, hfu, -, hfi, -, hrel⟩ := C01_training_mapping rows
  obtain rfl := hu.unique hfu
  obtain rfl := hi.unique hfi
  obtain ⟨us', is', hu', hi', hc⟩ := C31_train e c rows
  obtain rfl := hu.unique hu'
  obtain rfl := hi.unique hi'
  rcases hc with ⟨st, hst, hinv, -⟩ | ⟨-, hbad⟩
  swap
  · exact absurd ⟨h1, h2⟩ hbad
  · refine ⟨st, hst, ?_⟩
    unfold svdTrain at hst
    rw [he, except_bind_ok] at hst
    obtain ⟨a0, k1, hst⟩ := (bind_ok_iff _ _ _).1 hst
    obtain ⟨f, k2, hst⟩ := (bind_ok_iff _ _ _).1 hst
    obtain ⟨itf, k3, hst⟩ := (bind_ok_iff _ _ _).1 hst
    have hst := Except.ok.inj hst
    subst hst
    unfold svdStep at k2
    dsimp only at k2
    split at k2
    · have k2 := Except.ok.inj k2
      subst k2
      have ha0 : a0 = ⟨us.length, is.length, interactionMatrix us is rows⟩ := by
        have hr : a0.rows = us.length := hinv.shape.uRows
        have hcl : a0.cols = is.length := hinv.shape.vCols
        unfold cooInfer at k1
        split at k1
        · cases k1
        · have k1 := getMappedMatrix_ok k1
          subst k1
          dsimp only at hr hcl
          rw [hr, hcl]
          congr 1
          ext i j
          exact mapped_sum hu.nodup hi.nodup hrel i j
      subst ha0
      refine ⟨rfl, rfl, ?_⟩
      have := Mat.dot_mk (diagonal fun k : Fin c.rank => (e.la.svds c.rank (interactionMatrix us is rows)).2.1 (Fin.rev k))
        (Matrix.of fun (k : Fin c.rank) (j : Fin is.length) => (e.la.svds c.rank (interactionMatrix us is rows)).2.2 (Fin.rev k) j)
      exact Except.ok.inj (k3.symm.trans this)
    · cases k2

/-- **C152, drifts.** The recorded drift does depend on the routine: returning the negated singular vectors for one
table is just as correct, and changes the drift from any earlier user embedding that is not orthogonal to the new one. -/
theorem C152_drift (e : PSIEnv ℝ) (c : PSICfg) (rows : List (Row ℝ)) (st : PSIState ℝ) (us is : List ℤ)
    (hu : FirstAppearance (rows.map Row.user) us) (hi : FirstAppearance (rows.map Row.item) is)
    (hsvd : SvdsOk e.la c.rank (interactionMatrix us is rows)) (h : svdTrain e c rows = .ok st) :
    ∃ la' : LinAlg ℝ, (∀ {m n : ℕ} (k : ℕ) (B : Matrix (Fin m) (Fin n) ℝ), SvdsOk e.la k B → SvdsOk la' k B) ∧
      (∀ {m n : ℕ} (k : ℕ) (B : Matrix (Fin m) (Fin n) ℝ), (⟨m, n, B⟩ : Mat ℝ) ≠ ⟨_, _, interactionMatrix us is rows⟩ →
        la'.svds k B = e.la.svds k B) ∧
      ∃ st', svdTrain { e with la := la' } c rows = .ok st' ∧
        ∃ U : Matrix (Fin us.length) (Fin c.rank) ℝ, st.u = ⟨_, _, U⟩ ∧ st'.u = ⟨_, _, -U⟩ ∧
          ∀ A : Matrix (Fin us.length) (Fin c.rank) ℝ, ∑ i, ∑ j, A i j * U i j ≠ 0 →
            driftOf frobM ⟨_, _, A⟩ st.u ≠ driftOf frobM ⟨_, _, A⟩ st'.u := by
  refine ⟨flipAt e.la ⟨_, _, interactionMatrix us is rows⟩, fun k B hB => flipAt_ok hB, fun k B hB => if_neg hB, ?_⟩
  obtain ⟨hr1, hr2⟩ : 1 ≤ c.rank ∧ c.rank < min us.length is.length := by
    obtain ⟨us', is', hu', hi', ⟨_, _, _, hr⟩ | ⟨hbad, -⟩⟩ := C31_train e c rows
    · rw [hu.unique hu', hi.unique hi']
      exact hr
    · rw [h] at hbad
      cases hbad
  obtain ⟨st0, k1, k2, -⟩ := svdTrain_factors e c rows us is hu hi hr1 hr2
  have k1 := Except.ok.inj (h.symm.trans k1)
  subst k1
  obtain ⟨st', k3, k4, -⟩ := svdTrain_factors { e with la := flipAt e.la ⟨_, _, interactionMatrix us is rows⟩ } c rows us is
    hu hi hr1 hr2
  have he : (flipAt e.la ⟨_, _, interactionMatrix us is rows⟩).svds c.rank (interactionMatrix us is rows) =
    (-(e.la.svds c.rank (interactionMatrix us is rows)).1, (e.la.svds c.rank (interactionMatrix us is rows)).2.1,
      -(e.la.svds c.rank (interactionMatrix us is rows)).2.2) := if_pos rfl
  have k5 : st'.u = ⟨_, _, -Matrix.of fun i k => (e.la.svds c.rank (interactionMatrix us is rows)).1 i (Fin.rev k)⟩ := by
    rw [k4]
    congr 1
    ext i k
    rw [Matrix.of_apply, he]
    rfl
  refine ⟨st', k3, _, k2, k5, fun A hA => ?_⟩
  rw [k2, k5]
  exact drift_flip A _ hA

/-- two users with one item each -/
def exTieRows (x : ℝ) : List (Row ℝ) := [⟨7, 40, x, 0, 0⟩, ⟨8, 41, 1, 1, 0⟩]

theorem exTie_matrix (x : ℝ) : interactionMatrix [7, 8] [40, 41] (exTieRows x) = diagonal ![x, 1] := by
  ext i j
  fin_cases i <;> fin_cases j <;> simp [interactionMatrix, exTieRows, Matrix.diagonal_apply]

/-- a routine that returns the `i`-th unit vectors -/
noncomputable def pickLA (t : ℕ) : LinAlg ℝ :=
  { realLA with svds := fun _ _ =>
      (Matrix.of fun i _ => if (i : ℕ) = t then 1 else 0, fun _ => 1, Matrix.of fun _ j => if (j : ℕ) = t then 1 else 0) }

theorem pick_ok (t : ℕ) (ht : t < 2) : SvdsOk (pickLA t) 1 (interactionMatrix [7, 8] [40, 41] (exTieRows 1)) := by
  rw [exTie_matrix]
  have hd : diagonal ![(1 : ℝ), 1] = (1 : Matrix (Fin 2) (Fin 2) ℝ) := by
    ext i j
    fin_cases i <;> fin_cases j <;> simp
  show SvdsOk (pickLA t) 1 (diagonal ![(1 : ℝ), 1] : Matrix (Fin 2) (Fin 2) ℝ)
  rw [hd]
  let P : Matrix (Fin 2) (Fin 2) ℝ := Matrix.of fun i j => if ((i : ℕ) + (j : ℕ)) % 2 = t then 1 else 0
  have hP : P.transpose * P = 1 ∧ P * P.transpose = 1 := by
    obtain rfl | rfl : t = 0 ∨ t = 1 := by omega
    all_goals constructor <;> ext i j <;> fin_cases i <;> fin_cases j <;>
      simp [P, Matrix.mul_apply, Fin.sum_univ_two]
  refine ⟨P, fun _ => 1, P.transpose, (by decide), ?_, hP.1, ?_, fun _ => zero_le_one, fun _ _ _ => le_refl _, ?_, ?_, ?_⟩
  · rw [show diagonal (fun _ : Fin (min 2 2) => (1 : ℝ)) = 1 from Matrix.diagonal_one, Matrix.mul_one]
    exact hP.2
  · rw [Matrix.transpose_transpose]
    exact hP.1
  · intro i j
    fin_cases j
    fin_cases i <;> simp [pickLA, P]
  · intro j
    rfl
  · intro j i
    fin_cases j
    fin_cases i <;> simp [pickLA, P]

/-- **C152, ties.** Without the gap the scores depend on the routine: for two users with one item each and rank 1, one
correct routine gives the first user the score 1 for the own item, another one gives 0. -/
theorem C152_tie : ∃ (e e' : PSIEnv ℝ) (s s' : PSIState ℝ),
    SvdsOk e.la 1 (interactionMatrix [7, 8] [40, 41] (exTieRows 1)) ∧
    SvdsOk e'.la 1 (interactionMatrix [7, 8] [40, 41] (exTieRows 1)) ∧
    svdTrain e ⟨1, 0, 1, none, false⟩ (exTieRows 1) = .ok s ∧ svdTrain e' ⟨1, 0, 1, none, false⟩ (exTieRows 1) = .ok s' ∧
    psiScore s 0 = .ok [1, 0] ∧ psiScore s' 0 = .ok [0, 0] := by
  have hu : FirstAppearance ((exTieRows 1).map Row.user) [7, 8] := firstAppearance_pdUnique [7, 8]
  have hi : FirstAppearance ((exTieRows 1).map Row.item) [40, 41] := firstAppearance_pdUnique [40, 41]
  have key : ∀ t : ℕ, ∃ st, svdTrain ⟨pickLA t, fun _ _ _ _ => 0, fun v => List.range v.length, fun _ _ _ _ => 0⟩
      ⟨1, 0, 1, none, false⟩ (exTieRows 1) = .ok st ∧ psiScore st 0 = .ok (if t = 0 then [1, 0] else [0, 0]) := by
    intro t
    obtain ⟨st, h1, h2, h3, h4⟩ := svdTrain_factors
      ⟨pickLA t, fun _ _ _ _ => 0, fun v => List.range v.length, fun _ _ _ _ => 0⟩
      ⟨1, 0, 1, none, false⟩ (exTieRows 1) [7, 8] [40, 41] hu hi (by decide) (by decide)
    refine ⟨st, h1, ?_⟩
    have := psiScore_factors _ _ (h3.trans h2) h4 (0 : Fin 2)
    refine this.trans (congrArg Except.ok ?_)
    rcases Nat.eq_zero_or_pos t with rfl | ht
    · simp [pickLA, Matrix.mul_apply, List.ofFn_succ]
    · simp [pickLA, Matrix.mul_apply, List.ofFn_succ, ht.ne', ht.ne]
  obtain ⟨s, h1, h2⟩ := key 0
  obtain ⟨s', h1', h2'⟩ := key 1
  exact ⟨_, _, s, s', pick_ok 0 (by decide), pick_ok 1 (by decide), h1, h1', h2, h2'⟩

/-! ### Examples -/

/-- the table with relevance 2 has a gap -/
theorem exGap : SpectralGap 1 (interactionMatrix [7, 8] [40, 41] (exTieRows 2)) := by
  rw [exTie_matrix]
  refine ⟨(1 : Matrix (Fin 2) (Fin 2) ℝ), ![2, 1], (1 : Matrix (Fin 2) (Fin 2) ℝ), ?_, ?_, ?_, ?_, ?_, ?_⟩
  · exact (congrArg (· * (1 : Matrix (Fin 2) (Fin 2) ℝ)) (Matrix.one_mul (diagonal ![(2 : ℝ), 1]))).trans (Matrix.mul_one _)
  · rw [Matrix.transpose_one]; exact Matrix.mul_one _
  · rw [Matrix.transpose_one]; exact Matrix.mul_one _
  · intro i
    change Fin 2 at i
    fin_cases i <;> norm_num
  · intro i j hij
    change Fin 2 at i j
    fin_cases i <;> fin_cases j <;> first | (exact absurd hij (by decide)) | norm_num
  · intro i j h1 h2
    change Fin 2 at i j
    fin_cases i <;> fin_cases j <;> first | (exact absurd h1 (by decide)) | (exact absurd h2 (by decide)) | norm_num

-- a correct routine and its negation on a table with a gap
example : Settled realLA (flipAt realLA ⟨2, 2, diagonal ![2, 1]⟩) 1 (exTieRows 2) := by
  intro us is hu hi
  have hu' : FirstAppearance ((exTieRows 2).map Row.user) [7, 8] := firstAppearance_pdUnique [7, 8]
  have hi' : FirstAppearance ((exTieRows 2).map Row.item) [40, 41] := firstAppearance_pdUnique [40, 41]
  obtain rfl := hu.unique hu'
  obtain rfl := hi.unique hi'
  exact ⟨realLA_svds (by decide) _, flipAt_ok (realLA_svds (by decide) _), exGap⟩

end DynCF
