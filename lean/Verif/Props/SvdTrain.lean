/-
Property C98: what a trained `SVD` (or `PSI`) object predicts.
-/
import Verif.Lemmas.BestApprox
import Verif.Props.PsiClass
import Verif.Props.TDRec
import Verif.Lemmas.TIUpdate

namespace DynCF
open Matrix
variable {K : Type}

/-! ### Specification -/

/-- The interaction matrix: relevance summed over the rows of the table with this user and item. -/
def interactionMatrix [AddCommMonoid K] (us is : List ℤ) (data : List (Row K)) :
    Matrix (Fin us.length) (Fin is.length) K :=
  Matrix.of fun i j => ((data.filter fun r => decide (r.user = us[i] ∧ r.item = is[j])).map Row.rel).sum

/-! ### Proof -/

variable [Field K] [LinearOrder K]

theorem mat_ext_val {m n : ℕ} {A : Mat K} (h1 : A.rows = m) (h2 : A.cols = n) :
    ∃ B : Matrix (Fin m) (Fin n) K, A = ⟨m, n, B⟩ := by
  obtain ⟨a, b, A⟩ := A
  dsimp only at h1 h2
  subst h1 h2
  exact ⟨A, rfl⟩

theorem getMappedMatrix_ok {e : List ((ℤ × ℤ) × K)} {n0 n1 : ℕ} {A : Mat K}
    (h : getMappedMatrix e n0 n1 = .ok A) :
    A = ⟨n0, n1, Matrix.of fun (i : Fin n0) (j : Fin n1) =>
      ((e.filter fun x => decide (x.1 = (((i : ℕ) : ℤ), ((j : ℕ) : ℤ)))).map Prod.snd).sum⟩ := by
  unfold getMappedMatrix at h
  split at h
  · exact (Except.ok.inj h).symm
  · cases h

theorem mapped_sum {us is : List ℤ} (hu : us.Nodup) (hi : is.Nodup) {data df' : List (Row K)}
    (hrel : List.Forall₂ (fun r r' : Row K => SameRest r r' ∧
        (∃ k : ℕ, r'.user = k ∧ us[k]? = some r.user) ∧
        (∃ k : ℕ, r'.item = k ∧ is[k]? = some r.item)) data df') (i : Fin us.length) (j : Fin is.length) :
    (((df'.map fun r => ((r.user, r.item), r.rel)).filter fun x =>
      decide (x.1 = (((i : ℕ) : ℤ), ((j : ℕ) : ℤ)))).map Prod.snd).sum = interactionMatrix us is data i j := by
  unfold interactionMatrix
  rw [Matrix.of_apply]
  congr 1
  induction hrel with
  | nil => rfl
  | @cons a b l l' h _ ih =>
    obtain ⟨⟨hr, -, -⟩, ⟨k, h1, h2⟩, ⟨k', h3, h4⟩⟩ := h
    have e1 : us[k]? = some us[i] ↔ k = i := by
      constructor
      · intro h
        exact getElem?_inj_nodup hu h (List.getElem?_eq_getElem i.2)
      · rintro rfl
        exact List.getElem?_eq_getElem i.2
    have e2 : is[k']? = some is[j] ↔ k' = j := by
      constructor
      · intro h
        exact getElem?_inj_nodup hi h (List.getElem?_eq_getElem j.2)
      · rintro rfl
        exact List.getElem?_eq_getElem j.2
    rw [h2, Option.some.injEq] at e1
    rw [h4, Option.some.injEq] at e2
    rw [List.map_cons, List.filter_cons, List.filter_cons]
    have hd : decide (((b.user, b.item), b.rel).1 = (((i : ℕ) : ℤ), ((j : ℕ) : ℤ))) =
        decide (a.user = us[i] ∧ a.item = is[j]) := by
      rw [decide_eq_decide, h1, h3, Prod.mk.injEq, e1, e2]
      constructor
      · rintro ⟨g1, g2⟩; exact ⟨by exact_mod_cast g1, by exact_mod_cast g2⟩
      · rintro ⟨g1, g2⟩; exact ⟨by exact_mod_cast g1, by exact_mod_cast g2⟩
    rw [hd]
    split
    · rw [List.map_cons, List.map_cons, ih, hr]
    · exact ih

/-- **C98, training.** A trained model holds the leading `rank` terms of a singular value decomposition of
the interaction matrix (users and items in order of first appearance), singular values in non-increasing
order; the prediction factors are these. -/
theorem C98_train (env : PSIEnv K) (cfg : PSICfg) (data : List (Row K)) (st : PSIState K)
    (us is : List ℤ) (hu : FirstAppearance (data.map Row.user) us)
    (hi : FirstAppearance (data.map Row.item) is)
    (hsvd : SvdsOk env.la cfg.rank (interactionMatrix us is data))
    (h : svdTrain env cfg data = .ok st) :
    ∃ (U : Matrix (Fin us.length) (Fin cfg.rank) K) (s : Fin cfg.rank → K)
      (V : Matrix (Fin cfg.rank) (Fin is.length) K),
      TruncatedSvd (interactionMatrix us is data) U s V ∧ st.u = ⟨_, _, U⟩ ∧ st.s = .vec _ s ∧
      st.vt = ⟨_, _, V⟩ ∧ st.userFactors = ⟨_, _, U⟩ ∧ st.itemFactors = ⟨_, _, diagonal s * V⟩ := by
  obtain ⟨us', is', hu', hi', hc⟩ := C31_train env cfg data
  obtain rfl := hu.unique hu'
  obtain rfl := hi.unique hi'
  obtain ⟨hinv, -⟩ : PsiInv st us is cfg.rank data ∧ True := by
    rcases hc with ⟨st', h1, h2, -⟩ | ⟨h1, -⟩
    · rw [h] at h1
      have h1 := Except.ok.inj h1
      subst h1
      exact ⟨h2, trivial⟩
    · rw [h] at h1; cases h1
  obtain ⟨df', m, us', is', he, hfu, -, hfi, -, hrel⟩ := C01_training_mapping data
  obtain rfl := hu.unique hfu
  obtain rfl := hi.unique hfi
  unfold svdTrain at h
  rw [he, except_bind_ok] at h
  obtain ⟨a0, h1, h⟩ := (bind_ok_iff _ _ _).1 h
  obtain ⟨f, h2, h⟩ := (bind_ok_iff _ _ _).1 h
  obtain ⟨itf, h3, h⟩ := (bind_ok_iff _ _ _).1 h
  have h := Except.ok.inj h
  subst h
  unfold svdStep at h2
  dsimp only at h2
  split at h2
  · have h2 := Except.ok.inj h2
    subst h2
    have ha0 : a0 = ⟨us.length, is.length, interactionMatrix us is data⟩ := by
      have hr : a0.rows = us.length := hinv.shape.uRows
      have hcl : a0.cols = is.length := hinv.shape.vCols
      unfold cooInfer at h1
      split at h1
      · cases h1
      · have h1 := getMappedMatrix_ok h1
        subst h1
        dsimp only at hr hcl
        rw [hr, hcl]
        congr 1
        ext i j
        exact mapped_sum hu.nodup hi.nodup hrel i j
    subst ha0
    obtain ⟨U', s', V', hle, g1, g2, g3, g4, g5, g6, g7, g8⟩ := hsvd
    refine ⟨Matrix.of fun i k => U' i (Fin.castLE hle k), fun k => s' (Fin.castLE hle k),
      Matrix.of fun k j => V' (Fin.castLE hle k) j,
      ⟨U', s', V', hle, g1, g2, g3, g4, g5, fun _ _ => rfl, fun _ => rfl, fun _ _ => rfl⟩, ?_⟩
    have eU : Mat.revCols ⟨us.length, cfg.rank, (env.la.svds cfg.rank (interactionMatrix us is data)).1⟩ =
        ⟨us.length, cfg.rank, Matrix.of fun i k => U' i (Fin.castLE hle k)⟩ := by
      unfold Mat.revCols
      congr 1
      ext i k
      simp [g6]
    have es : (fun k : Fin cfg.rank => (env.la.svds cfg.rank (interactionMatrix us is data)).2.1 (Fin.rev k)) =
        fun k => s' (Fin.castLE hle k) := by
      funext k
      simp [g7]
    have eV : Mat.revRows ⟨cfg.rank, is.length, (env.la.svds cfg.rank (interactionMatrix us is data)).2.2⟩ =
        ⟨cfg.rank, is.length, Matrix.of fun k j => V' (Fin.castLE hle k) j⟩ := by
      unfold Mat.revRows
      congr 1
      ext k j
      simp [g8]
    dsimp only at h3 ⊢
    rw [eV, es] at h3
    rw [eU, es, eV]
    refine ⟨rfl, rfl, rfl, rfl, ?_⟩
    unfold Mat.diag at h3
    rw [Mat.dot_mk] at h3
    exact (Except.ok.inj h3).symm
  · cases h2

/-- the stored prediction factors -/
theorem psiScore_factors {m r n : ℕ} {st : PSIState K} (U : Matrix (Fin m) (Fin r) K)
    (W : Matrix (Fin r) (Fin n) K) (h1 : st.userFactors = ⟨m, r, U⟩) (h2 : st.itemFactors = ⟨r, n, W⟩)
    (a : Fin m) : psiScore st ((a : ℕ) : ℤ) = .ok (List.ofFn fun j => (U * W) a j) := by
  unfold psiScore
  rw [h1, h2]
  unfold Mat.row
  rw [pyIdx_coe]
  have hp : (pure (U a) : PyM (Fin r → K)) = .ok (U a) := rfl
  simp only [except_bind_ok, Mat.T_mk, hp, dotVec_mk']
  refine congrArg (fun l : List K => (Except.ok l : PyM _)) (congrArg List.ofFn ?_)
  funext j
  rw [Matrix.mul_apply]
  exact Finset.sum_congr rfl fun k _ => by rw [Matrix.transpose_apply, mul_comm]

/-- The scores of a state are those of its factors: entry `(a, j)` of `u · s · vt`. -/
def ScoresOfFactors (st : PSIState K) : Prop :=
  ∃ (m r n : ℕ) (U : Matrix (Fin m) (Fin r) K) (S : Matrix (Fin r) (Fin r) K) (V : Matrix (Fin r) (Fin n) K),
    st.u = ⟨m, r, U⟩ ∧ st.s.toMat = ⟨r, r, S⟩ ∧ st.vt = ⟨r, n, V⟩ ∧
    ∀ a : Fin m, psiScore st ((a : ℕ) : ℤ) = .ok (List.ofFn fun j => (U * S * V) a j)

/-- **C98, scores.** After training and any number of updates, in any configuration, the scores of a user
are the row of the product of the current factors. -/
theorem C98_scores (env : PSIEnv K) (hsort : ArgSortOk env.argsort) (cfg : PSICfg) (train : List (Row K))
    (chunks : List (List (Row K))) (st : PSIState K) (hrun : psiRun env cfg train chunks = .ok st) :
    ScoresOfFactors st := by
  obtain ⟨us, is, hinv, -, -⟩ := C31_run env hsort cfg train chunks st hrun
  obtain ⟨U, hU⟩ := mat_ext_val hinv.shape.uRows hinv.shape.uCols
  obtain ⟨V, hV⟩ := mat_ext_val hinv.shape.vRows hinv.shape.vCols
  obtain ⟨S, hS⟩ := mat_ext_val hinv.shape.sDim.1 hinv.shape.sDim.2
  have key : st.userFactors = st.u ∧ Mat.dot st.s.toMat st.vt = .ok st.itemFactors := by
    unfold psiRun at hrun
    obtain ⟨s0, h0, hrun⟩ := (bind_ok_iff _ _ _).1 hrun
    rcases List.eq_nil_or_concat chunks with rfl | ⟨cs, c, rfl⟩
    · have hrun := Except.ok.inj hrun
      subst hrun
      unfold svdTrain at h0
      obtain ⟨dm, -, h0⟩ := (bind_ok_iff _ _ _).1 h0
      obtain ⟨a0, -, h0⟩ := (bind_ok_iff _ _ _).1 h0
      obtain ⟨f, -, h0⟩ := (bind_ok_iff _ _ _).1 h0
      obtain ⟨itf, h1, h0⟩ := (bind_ok_iff _ _ _).1 h0
      have h0 := Except.ok.inj h0
      subst h0
      exact ⟨rfl, h1⟩
    · rw [List.concat_eq_append, List.foldlM_append] at hrun
      obtain ⟨s1, -, h1⟩ := (bind_ok_iff _ _ _).1 hrun
      rw [List.foldlM_cons] at h1
      obtain ⟨s2, h2, h3⟩ := (bind_ok_iff _ _ _).1 h1
      have h3 := Except.ok.inj h3
      subst h3
      unfold psiUpdate at h2
      obtain ⟨l, -, h2⟩ := (bind_ok_iff _ _ _).1 h2
      obtain ⟨s3, -, h2⟩ := (bind_ok_iff _ _ _).1 h2
      obtain ⟨itf, h4, h2⟩ := (bind_ok_iff _ _ _).1 h2
      have h2 := Except.ok.inj h2
      subst h2
      exact ⟨rfl, h4⟩
  obtain ⟨k1, k2⟩ := key
  rw [hS, hV, Mat.dot_mk] at k2
  refine ⟨_, _, _, U, S, V, hU, hS, hV, fun a => ?_⟩
  rw [psiScore_factors U (S * V) (k1.trans hU) (Except.ok.inj k2).symm a, Matrix.mul_assoc]

/-- **C98, best approximation.** Over the reals the scores of a trained model are a best approximation, in
the sum of squared errors, of the interaction matrix among all products of an `n_users × rank` and a
`rank × n_items` matrix. -/
theorem C98_best (env : PSIEnv ℝ) (cfg : PSICfg) (data : List (Row ℝ)) (st : PSIState ℝ)
    (us is : List ℤ) (hu : FirstAppearance (data.map Row.user) us)
    (hi : FirstAppearance (data.map Row.item) is)
    (hsvd : SvdsOk env.la cfg.rank (interactionMatrix us is data)) (h : svdTrain env cfg data = .ok st) :
    ∃ P : Matrix (Fin us.length) (Fin is.length) ℝ,
      (∀ a : Fin us.length, psiScore st ((a : ℕ) : ℤ) = .ok (List.ofFn fun j => P a j)) ∧
      ∀ (X : Matrix (Fin us.length) (Fin cfg.rank) ℝ) (Y : Matrix (Fin cfg.rank) (Fin is.length) ℝ),
        ∑ a, ∑ j, (interactionMatrix us is data a j - P a j) ^ 2 ≤
          ∑ a, ∑ j, (interactionMatrix us is data a j - (X * Y) a j) ^ 2 := by
  obtain ⟨U, s, V, ht, -, -, -, h1, h2⟩ := C98_train env cfg data st us is hu hi hsvd h
  refine ⟨U * (diagonal s * V), psiScore_factors U _ h1 h2, fun X Y => ?_⟩
  have := best_approximation _ U s V ht X Y
  rw [Matrix.mul_assoc] at this
  exact this

/-- three users, three items; user 7 has two rows for item 40 -/
def exTrainRows : List (Row ℝ) :=
  [⟨7, 40, 1, 0, 0⟩, ⟨8, 41, 3, 1, 0⟩, ⟨7, 40, 1, 2, 0⟩, ⟨9, 42, 1, 3, 0⟩]

-- with an SVD that meets its contract the rank 1 model of these rows is trained and is a best approximation
example : ∃ st, svdTrain ⟨realLA, fun _ _ _ _ => 0, fun v => List.range v.length, fun _ _ _ _ => 0⟩
      ⟨1, 0, 1, none, false⟩ exTrainRows = .ok st ∧
    interactionMatrix [7, 8, 9] [40, 41, 42] exTrainRows 0 0 = 2 ∧
    ∃ P : Matrix (Fin 3) (Fin 3) ℝ, ∀ (X : Matrix (Fin 3) (Fin 1) ℝ) (Y : Matrix (Fin 1) (Fin 3) ℝ),
      ∑ a, ∑ j, (interactionMatrix [7, 8, 9] [40, 41, 42] exTrainRows a j - P a j) ^ 2 ≤
        ∑ a, ∑ j, (interactionMatrix [7, 8, 9] [40, 41, 42] exTrainRows a j - (X * Y) a j) ^ 2 := by
  have hu : FirstAppearance (exTrainRows.map Row.user) [7, 8, 9] := firstAppearance_pdUnique [7, 8, 7, 9]
  have hi : FirstAppearance (exTrainRows.map Row.item) [40, 41, 42] := firstAppearance_pdUnique [40, 41, 40, 42]
  obtain ⟨us, is, hu', hi', ⟨st, h, -⟩ | ⟨-, h⟩⟩ := C31_train
    (⟨realLA, fun _ _ _ _ => 0, fun v => List.range v.length, fun _ _ _ _ => 0⟩ : PSIEnv ℝ)
    ⟨1, 0, 1, none, false⟩ exTrainRows
  · refine ⟨st, h, ?_, ?_⟩
    · unfold interactionMatrix exTrainRows
      norm_num
    · obtain ⟨P, -, hP⟩ := C98_best _ _ _ st _ _ hu hi (realLA_svds (by simp) _) h
      exact ⟨P, hP⟩
  · obtain rfl := hu.unique hu'
    obtain rfl := hi.unique hi'
    exact absurd (by simp) h

end DynCF
