/-
C188: `PSI` follows changes inside the profiles it predicts exactly, without a condition on ranks; of other changes it may
lose a part for good, so the order of the chunks matters.
-/
import Verif.Props.SwapSides
import Verif.Props.PsiError

namespace DynCF
open Matrix

/-! ### Specification -/

/-- Every user's row of `D` is a combination of rows of `A`. -/
def InsideProfiles {m n : ℕ} (A D : Matrix (Fin m) (Fin n) ℝ) : Prop :=
  ∀ u, ∃ w : Fin m → ℝ, ∀ j, D u j = ∑ v, w v * A v j

/-! ### Updates inside the profiles -/

theorem inside_rank {m n : ℕ} {A D : Matrix (Fin m) (Fin n) ℝ} (h : InsideProfiles A D) :
    (A + D).rank ≤ ((A + D) * A.transpose).rank := by
  choose X hX using h
  have hD : D = Matrix.of X * A := by
    ext u j
    rw [hX, Matrix.mul_apply]
    rfl
  obtain ⟨B, hB⟩ := exists_mul_eq_of_rank A A.transpose (Matrix.rank_self_mul_transpose A).ge
  have e : A + D = (A + D) * A.transpose * B := by
    have e1 : A + D = (1 + Matrix.of X) * A := by rw [Matrix.add_mul, Matrix.one_mul, ← hD]
    rw [e1, Matrix.mul_assoc, Matrix.mul_assoc, ← Matrix.mul_assoc A, hB]
  calc (A + D).rank = ((A + D) * A.transpose * B).rank := congrArg _ e
    _ ≤ _ := Matrix.rank_mul_le_left _ _

/-- **C188.** A model that predicts `A` receives chunks of known users and items. If the rows of every chunk are combinations
of the rows predicted before it, all updates succeed and nothing is lost: the scores are `A` plus all interactions, in every
supported configuration and with every correct QR routine. -/
theorem C188_inside (env : PSIEnv ℝ) (hqr : QrAlways env.la) (cfg : PSICfg)
    (hcfg : cfg.init = none → cfg.integrator = false) {us is : List ℤ} {r : ℕ} (chunks : List (List (Row ℝ))) :
    ∀ (A : Matrix (Fin us.length) (Fin is.length) ℝ) (st : PSIState ℝ), PsiHolds st us is r A →
      (∀ c ∈ chunks, ∀ x ∈ c, x.user ∈ us ∧ x.item ∈ is) →
      (∀ (t : ℕ) (ht : t < chunks.length),
        InsideProfiles (A + interactionMatrix us is (chunks.take t).flatten) (interactionMatrix us is chunks[t])) →
      ∃ st', chunks.foldlM (psiUpdate env cfg) st = .ok st' ∧
        PsiHolds st' us is r (A + interactionMatrix us is chunks.flatten) ∧
        ∀ a : Fin us.length, psiScore st' ((a : ℕ) : ℤ) =
          .ok (List.ofFn fun j => A a j + interactionMatrix us is chunks.flatten a j) := by
  induction chunks with
  | nil =>
    intro A st h _ _
    have h0 : interactionMatrix us is ([] : List (List (Row ℝ))).flatten = 0 := by ext i j; simp [interactionMatrix]
    rw [h0, add_zero]
    exact ⟨st, rfl, h, fun a => by rw [h.scores]; simp⟩
  | cons c chunks ih =>
    intro A st h hd hin
    have h0 : interactionMatrix us is ([] : List (Row ℝ)) = 0 := by ext i j; simp [interactionMatrix]
    have hc := hin 0 (by simp)
    simp only [List.take_zero, List.flatten_nil, h0, add_zero, List.getElem_cons_zero] at hc
    obtain ⟨st1, e1, h1⟩ := psiUpdate_holds env hqr cfg hcfg h c (hd c (by simp)) (inside_rank hc)
    obtain ⟨st', e', h', q'⟩ := ih (A + interactionMatrix us is c) st1 h1
      (fun c' hc' => hd c' (List.mem_cons_of_mem _ hc')) (fun t ht => by
        have := hin (t + 1) (by simpa using ht)
        simpa only [List.take_succ_cons, List.flatten_cons, interactionMatrix_append, ← add_assoc,
          List.getElem_cons_succ] using this)
    refine ⟨st', ?_, ?_, fun a => ?_⟩
    · rw [List.foldlM_cons, e1, except_bind_ok, e']
    · rw [List.flatten_cons, interactionMatrix_append, ← add_assoc]
      exact h'
    · rw [q' a, List.flatten_cons, interactionMatrix_append]
      simp only [Matrix.add_apply, add_assoc]

/-- **C188, interactions without weight.** Chunks of known users and items in which all total relevances are zero change no
score. -/
theorem C188_zero (env : PSIEnv ℝ) (hqr : QrAlways env.la) (cfg : PSICfg)
    (hcfg : cfg.init = none → cfg.integrator = false) {us is : List ℤ} {r : ℕ} (chunks : List (List (Row ℝ)))
    (A : Matrix (Fin us.length) (Fin is.length) ℝ) (st : PSIState ℝ) (h : PsiHolds st us is r A)
    (hd : ∀ c ∈ chunks, ∀ x ∈ c, x.user ∈ us ∧ x.item ∈ is)
    (hz : ∀ c ∈ chunks, ∀ u i, ((c.filter fun x => decide (x.user = u ∧ x.item = i)).map Row.rel).sum = 0) :
    ∃ st', chunks.foldlM (psiUpdate env cfg) st = .ok st' ∧
      ∀ a : Fin us.length, psiScore st' ((a : ℕ) : ℤ) = psiScore st ((a : ℕ) : ℤ) := by
  have hm : ∀ c ∈ chunks, interactionMatrix us is c = 0 := by
    intro c hc
    ext a j
    exact hz c hc _ _
  obtain ⟨st', e, -, q⟩ := C188_inside env hqr cfg hcfg chunks A st h hd (fun t ht u => ⟨fun _ => 0, fun j => by
    rw [hm _ (List.getElem_mem ht)]
    simp⟩)
  have h0 : ∀ l : List (List (Row ℝ)), (∀ c ∈ l, interactionMatrix us is c = 0) → interactionMatrix us is l.flatten = 0 := by
    intro l
    induction l with
    | nil => intro _; ext i j; simp [interactionMatrix]
    | cons c l ih =>
      intro hl
      rw [List.flatten_cons, interactionMatrix_append, hl c (by simp), ih fun d hd => hl d (List.mem_cons_of_mem _ hd),
        add_zero]
  refine ⟨st', e, fun a => ?_⟩
  rw [q a, h.scores a, h0 chunks hm]
  simp

/-! ### Merging chunks -/

theorem inside_iff {m n : ℕ} {A D : Matrix (Fin m) (Fin n) ℝ} :
    InsideProfiles A D ↔ ∃ X : Matrix (Fin m) (Fin m) ℝ, D = X * A := by
  constructor
  · intro h
    choose X hX using h
    refine ⟨Matrix.of X, ?_⟩
    ext u j
    rw [hX, Matrix.mul_apply]
    rfl
  · rintro ⟨X, rfl⟩ u
    exact ⟨X u, fun j => Matrix.mul_apply⟩

theorem inside_flatten {us is : List ℤ} (chunks : List (List (Row ℝ))) :
    ∀ A : Matrix (Fin us.length) (Fin is.length) ℝ, (∀ (t : ℕ) (ht : t < chunks.length),
        InsideProfiles (A + interactionMatrix us is (chunks.take t).flatten) (interactionMatrix us is chunks[t])) →
      InsideProfiles A (interactionMatrix us is chunks.flatten) := by
  have h0 : interactionMatrix us is ([] : List (Row ℝ)) = 0 := by ext i j; simp [interactionMatrix]
  induction chunks with
  | nil =>
    intro A _
    rw [List.flatten_nil, h0]
    exact inside_iff.2 ⟨0, by rw [Matrix.zero_mul]⟩
  | cons c chunks ih =>
    intro A hin
    have hc := hin 0 (by simp)
    simp only [List.take_zero, List.flatten_nil, h0, add_zero, List.getElem_cons_zero] at hc
    have hr := ih (A + interactionMatrix us is c) (fun t ht => by
      have := hin (t + 1) (by simpa using ht)
      simpa only [List.take_succ_cons, List.flatten_cons, interactionMatrix_append, ← add_assoc,
        List.getElem_cons_succ] using this)
    obtain ⟨X, hX⟩ := inside_iff.1 hc
    obtain ⟨Y, hY⟩ := inside_iff.1 hr
    refine inside_iff.2 ⟨X + Y * (1 + X), ?_⟩
    rw [List.flatten_cons, interactionMatrix_append, hY, hX, Matrix.add_mul, Matrix.mul_assoc Y, Matrix.add_mul,
      Matrix.one_mul]

/-- what an update with known users and items does to mappings and history -/
theorem psiUpdate_books (env : PSIEnv ℝ) (cfg : PSICfg) (hcfg : cfg.init = none → cfg.integrator = false)
    {st st' : PSIState ℝ} {us is : List ℤ} {r : ℕ} (h : PsiShape st us is r) (data : List (Row ℝ))
    (hd : ∀ x ∈ data, x.user ∈ us ∧ x.item ∈ is) (e : psiUpdate env cfg st data = .ok st') :
    st'.maps = st.maps ∧ st'.history = st.history ++
      data.map fun x => (((us.idxOf x.user : ℕ) : ℤ), ((is.idxOf x.item : ℕ) : ℤ)) := by
  have hr := psiRounds_known env cfg hcfg h data hd
  have old : ∀ st1, updateFactorsByMode env cfg st data .old = .ok st1 → st1.maps = st.maps ∧ st1.history = st.history := by
    intro st1 e1
    unfold updateFactorsByMode at e1
    split at e1
    · rw [bind_ok_iff] at e1
      obtain ⟨p, hp, e1⟩ := e1
      have : p.2 = st := by
        unfold processData at hp
        dsimp only at hp
        rw [h.uRows, h.vCols, mappedEntries_eq data Row.user Row.item h.user.idxMap h.item.idxMap
          (fun x hx => (hd x hx).1) (fun x hx => (hd x hx).2)] at hp
        rw [← Except.ok.inj hp]
      unfold psiUpdater at e1
      dsimp only at e1
      rw [bind_ok_iff] at e1
      obtain ⟨f, -, e1⟩ := e1
      rw [← Except.ok.inj e1, this]
      exact ⟨rfl, rfl⟩
    · rw [← Except.ok.inj e1]
      exact ⟨rfl, rfl⟩
  unfold psiUpdate at e
  rw [bind_ok_iff] at e
  obtain ⟨l, hl, e⟩ := e
  rw [hl] at hr
  obtain ⟨km, kh⟩ := old l.st hr.symm
  rw [psiUpdateHistory_eq (us := us) (is := is) (km ▸ h.user) (km ▸ h.item) data (fun x hx => (hd x hx).1)
    (fun x hx => (hd x hx).2), except_bind_ok, bind_ok_iff] at e
  obtain ⟨f, -, e⟩ := e
  rw [← Except.ok.inj e]
  exact ⟨km, by rw [← kh]⟩

theorem psiUpdates_books (env : PSIEnv ℝ) (hqr : QrAlways env.la) (cfg : PSICfg)
    (hcfg : cfg.init = none → cfg.integrator = false) {us is : List ℤ} {r : ℕ} (chunks : List (List (Row ℝ))) :
    ∀ (A : Matrix (Fin us.length) (Fin is.length) ℝ) (st st' : PSIState ℝ), PsiHolds st us is r A →
      (∀ c ∈ chunks, ∀ x ∈ c, x.user ∈ us ∧ x.item ∈ is) → chunks.foldlM (psiUpdate env cfg) st = .ok st' →
      st'.maps = st.maps ∧ st'.history = st.history ++
        chunks.flatten.map fun x => (((us.idxOf x.user : ℕ) : ℤ), ((is.idxOf x.item : ℕ) : ℤ)) := by
  induction chunks with
  | nil =>
    intro A st st' _ _ e
    rw [← Except.ok.inj e]
    simp
  | cons c chunks ih =>
    intro A st st' h hd e
    obtain ⟨st1, B, e1, h1, -⟩ := C169_update env hqr cfg hcfg h c (hd c (by simp))
    rw [List.foldlM_cons, e1, except_bind_ok] at e
    obtain ⟨k1, k2⟩ := psiUpdate_books env cfg hcfg h.shape c (hd c (by simp)) e1
    obtain ⟨k3, k4⟩ := ih B st1 st' h1 (fun c' hc' => hd c' (List.mem_cons_of_mem _ hc')) e
    refine ⟨k3.trans k1, ?_⟩
    rw [k4, k2, List.flatten_cons, List.map_append, List.append_assoc]

/-- **C188, merged chunks.** For such a stream it makes no difference whether the chunks are sent one after the other or as
one: all scores and all recommendations are the same. -/
theorem C188_merge (env env' : PSIEnv ℝ) (hqr : QrAlways env.la) (hqr' : QrAlways env'.la) (cfg : PSICfg)
    (hcfg : cfg.init = none → cfg.integrator = false) {us is : List ℤ} {r : ℕ} (chunks : List (List (Row ℝ)))
    (A : Matrix (Fin us.length) (Fin is.length) ℝ) (st : PSIState ℝ) (h : PsiHolds st us is r A)
    (hd : ∀ c ∈ chunks, ∀ x ∈ c, x.user ∈ us ∧ x.item ∈ is)
    (hin : ∀ (t : ℕ) (ht : t < chunks.length),
      InsideProfiles (A + interactionMatrix us is (chunks.take t).flatten) (interactionMatrix us is chunks[t])) :
    ∃ st1 st2, chunks.foldlM (psiUpdate env cfg) st = .ok st1 ∧ psiUpdate env' cfg st chunks.flatten = .ok st2 ∧
      (∀ u, psiScore st1 u = psiScore st2 u) ∧
      ∀ argp users k filter internal, psiRecommend argp st1 users k filter internal =
        psiRecommend argp st2 users k filter internal := by
  obtain ⟨st1, e1, h1, -⟩ := C188_inside env hqr cfg hcfg chunks A st h hd hin
  have hdf : ∀ x ∈ chunks.flatten, x.user ∈ us ∧ x.item ∈ is := fun x hx => by
    obtain ⟨c, hc, hx⟩ := List.mem_flatten.1 hx
    exact hd c hc x hx
  obtain ⟨st2, e2, h2⟩ := psiUpdate_holds env' hqr' cfg hcfg h chunks.flatten hdf
    (inside_rank (inside_flatten chunks A hin))
  obtain ⟨k1, k2⟩ := psiUpdates_books env hqr cfg hcfg chunks A st st1 h hd e1
  obtain ⟨k3, k4⟩ := psiUpdate_books env' cfg hcfg h.shape chunks.flatten hdf e2
  obtain ⟨v1, v2⟩ := h1.view h2 (k1.trans k3.symm) (k2.trans k4.symm)
  refine ⟨st1, st2, e1, e2, v2, fun argp users k f i => ?_⟩
  unfold psiRecommend
  rw [v1]
  simp only [v2]

/-! ### The order of chunks -/

/-- **C188, order of chunks.** After training on two users with one item each, the second user takes the first item and, in
another chunk, the second item once more. In this order the model predicts `[2, 1]` for both users; in the other order the
interaction with the second item is lost and it predicts `[2, 0]` for both, with every correct pair of routines. -/
theorem C188_order (env : PSIEnv ℝ) (hqr : QrAlways env.la)
    (hsvd : SvdsOk env.la 1 (interactionMatrix [7, 8] [40, 41] (exTieRows 2))) :
    ∃ st st', psiRun env ⟨1, 0, 1, none, false⟩ (exTieRows 2) [[⟨8, 40, 2, 2, 1⟩], [⟨8, 41, 2, 2, 1⟩]] = .ok st ∧
      psiRun env ⟨1, 0, 1, none, false⟩ (exTieRows 2) [[⟨8, 41, 2, 2, 1⟩], [⟨8, 40, 2, 2, 1⟩]] = .ok st' ∧
      psiScore st 0 = .ok [2, 1] ∧ psiScore st 1 = .ok [2, 1] ∧
      psiScore st' 0 = .ok [2, 0] ∧ psiScore st' 1 = .ok [2, 0] := by
  have hu : FirstAppearance ((exTieRows 2).map Row.user) [7, 8] := firstAppearance_pdUnique [7, 8]
  have hi : FirstAppearance ((exTieRows 2).map Row.item) [40, 41] := firstAppearance_pdUnique [40, 41]
  have hD : interactionMatrix [7, 8] [40, 41] [(⟨8, 40, 2, 2, 1⟩ : Row ℝ)] =
      (!![0, 0; 2, 0] : Matrix (Fin 2) (Fin 2) ℝ) := by
    ext i j
    fin_cases i <;> fin_cases j <;> simp [interactionMatrix]
  have hE : interactionMatrix [7, 8] [40, 41] [(⟨8, 41, 2, 2, 1⟩ : Row ℝ)] =
      (!![0, 0; 0, 2] : Matrix (Fin 2) (Fin 2) ℝ) := by
    ext i j
    fin_cases i <;> fin_cases j <;> simp [interactionMatrix]
  have rA : (!![2, 0; 0, 0] : Matrix (Fin 2) (Fin 2) ℝ).rank = 1 :=
    rank_one_of !![2; 0] !![1, 0] (by ext i j; fin_cases i <;> fin_cases j <;> simp [Matrix.mul_apply])
      (fun h => by simpa using congrFun (congrFun h 0) 0)
  have rB : (!![2, 0; 2, 0] : Matrix (Fin 2) (Fin 2) ℝ).rank = 1 :=
    rank_one_of !![2; 2] !![1, 0] (by ext i j; fin_cases i <;> fin_cases j <;> simp [Matrix.mul_apply])
      (fun h => by simpa using congrFun (congrFun h 0) 0)
  -- one step with its two projectors
  have step : ∀ (A D B P M X Q Y : Matrix (Fin 2) (Fin 2) ℝ), (A + D) * A.transpose = M → P.transpose = P → P * M = M →
      P = M * X → Q.transpose = Q → Q * A.transpose = A.transpose → Q = A.transpose * Y →
      B = A + D - (1 - P) * D * (1 - Q) → PsiNext A D B := fun A D B P M X Q Y h1 h2 h3 h4 h5 h6 h7 h8 =>
    ⟨P, Q, ⟨h2, by rw [h1]; exact h3, X, by rw [h1]; exact h4⟩, ⟨h5, h6, Y, h7⟩, h8⟩
  have e1 : (!![2, 0; 0, 0] + !![0, 0; 2, 0]) * (!![2, 0; 0, 0] : Matrix (Fin 2) (Fin 2) ℝ).transpose = !![4, 0; 4, 0] := by
    ext i j; fin_cases i <;> fin_cases j <;> simp [Matrix.mul_apply, Fin.sum_univ_two] <;> norm_num
  have e2 : (!![2, 0; 2, 0] + !![0, 0; 0, 2]) * (!![2, 0; 2, 0] : Matrix (Fin 2) (Fin 2) ℝ).transpose = !![4, 4; 4, 4] := by
    ext i j; fin_cases i <;> fin_cases j <;> simp [Matrix.mul_apply, Fin.sum_univ_two] <;> norm_num
  have e3 : (!![2, 0; 0, 0] + !![0, 0; 0, 2]) * (!![2, 0; 0, 0] : Matrix (Fin 2) (Fin 2) ℝ).transpose = !![4, 0; 0, 0] := by
    ext i j; fin_cases i <;> fin_cases j <;> simp [Matrix.mul_apply, Fin.sum_univ_two] <;> norm_num
  have n1 : PsiNext (!![2, 0; 0, 0] : Matrix (Fin 2) (Fin 2) ℝ) !![0, 0; 2, 0] !![2, 0; 2, 0] := by
    refine step _ _ _ !![1 / 2, 1 / 2; 1 / 2, 1 / 2] _ !![1 / 8, 1 / 8; 0, 0] !![1, 0; 0, 0] !![1 / 2, 0; 0, 0] e1
      ?_ ?_ ?_ ?_ ?_ ?_ ?_ <;> ext i j <;> fin_cases i <;> fin_cases j <;>
      simp [Matrix.mul_apply, Fin.sum_univ_two] <;> norm_num
  have n2 : PsiNext (!![2, 0; 2, 0] : Matrix (Fin 2) (Fin 2) ℝ) !![0, 0; 0, 2] !![2, 1; 2, 1] := by
    refine step _ _ _ !![1 / 2, 1 / 2; 1 / 2, 1 / 2] _ !![1 / 8, 1 / 8; 0, 0] !![1, 0; 0, 0] !![1 / 2, 0; 0, 0] e2
      ?_ ?_ ?_ ?_ ?_ ?_ ?_ <;> ext i j <;> fin_cases i <;> fin_cases j <;>
      simp [Matrix.mul_apply, Fin.sum_univ_two] <;> norm_num
  have n3 : PsiNext (!![2, 0; 0, 0] : Matrix (Fin 2) (Fin 2) ℝ) !![0, 0; 0, 2] !![2, 0; 0, 0] := by
    refine step _ _ _ !![1, 0; 0, 0] _ !![1 / 4, 0; 0, 0] !![1, 0; 0, 0] !![1 / 2, 0; 0, 0] e3
      ?_ ?_ ?_ ?_ ?_ ?_ ?_ <;> ext i j <;> fin_cases i <;> fin_cases j <;>
      simp [Matrix.mul_apply, Fin.sum_univ_two]
  have r1 : ((!![2, 0; 0, 0] + !![0, 0; 2, 0]) * (!![2, 0; 0, 0] : Matrix (Fin 2) (Fin 2) ℝ).transpose).rank = 1 := by
    rw [e1]
    exact rank_one_of !![4; 4] !![1, 0] (by ext i j; fin_cases i <;> fin_cases j <;> simp [Matrix.mul_apply])
      (fun h => by simpa using congrFun (congrFun h 0) 0)
  have r2 : ((!![2, 0; 2, 0] + !![0, 0; 0, 2]) * (!![2, 0; 2, 0] : Matrix (Fin 2) (Fin 2) ℝ).transpose).rank = 1 := by
    rw [e2]
    exact rank_one_of !![4; 4] !![1, 1] (by ext i j; fin_cases i <;> fin_cases j <;> simp [Matrix.mul_apply])
      (fun h => by simpa using congrFun (congrFun h 0) 0)
  have r3 : ((!![2, 0; 0, 0] + !![0, 0; 0, 2]) * (!![2, 0; 0, 0] : Matrix (Fin 2) (Fin 2) ℝ).transpose).rank = 1 := by
    rw [e3]
    exact rank_one_of !![4; 0] !![1, 0] (by ext i j; fin_cases i <;> fin_cases j <;> simp [Matrix.mul_apply])
      (fun h => by simpa using congrFun (congrFun h 0) 0)
  have h0 : ∃ U s V, TruncatedSvd (r := 1) (interactionMatrix [7, 8] [40, 41] (exTieRows 2)) U s V ∧
      (!![2, 0; 0, 0] : Matrix (Fin 2) (Fin 2) ℝ) = U * diagonal s * V := by
    rw [exTie_matrix]
    exact exTie_best
  obtain ⟨st, h1, -, h2, -⟩ := C153_scores env hqr ⟨1, 0, 1, none, false⟩ (fun _ => rfl) (exTieRows 2) [7, 8] [40, 41]
    hu hi (by decide) hsvd exGap [[⟨8, 40, 2, 2, 1⟩], [⟨8, 41, 2, 2, 1⟩]] (by simp)
    (fun t => if t = 0 then (!![2, 0; 0, 0] : Matrix (Fin 2) (Fin 2) ℝ) else if t = 1 then !![2, 0; 2, 0] else !![2, 1; 2, 1])
    h0 (by
      intro t ht
      have ht : t < 2 := ht
      obtain rfl | rfl : t = 0 ∨ t = 1 := by omega
      · refine ⟨rA, ?_, ?_⟩
        · exact (congrArg (fun D : Matrix (Fin 2) (Fin 2) ℝ => ((!![2, 0; 0, 0] + D) *
            (!![2, 0; 0, 0] : Matrix (Fin 2) (Fin 2) ℝ).transpose).rank) hD).trans r1
        · exact hD.symm ▸ n1
      · refine ⟨rB, ?_, ?_⟩
        · exact (congrArg (fun D : Matrix (Fin 2) (Fin 2) ℝ => ((!![2, 0; 2, 0] + D) *
            (!![2, 0; 2, 0] : Matrix (Fin 2) (Fin 2) ℝ).transpose).rank) hE).trans r2
        · exact hE.symm ▸ n2)
  obtain ⟨st', h1', -, h2', -⟩ := C153_scores env hqr ⟨1, 0, 1, none, false⟩ (fun _ => rfl) (exTieRows 2) [7, 8] [40, 41]
    hu hi (by decide) hsvd exGap [[⟨8, 41, 2, 2, 1⟩], [⟨8, 40, 2, 2, 1⟩]] (by simp)
    (fun t => if t = 0 then (!![2, 0; 0, 0] : Matrix (Fin 2) (Fin 2) ℝ) else if t = 1 then !![2, 0; 0, 0] else !![2, 0; 2, 0])
    h0 (by
      intro t ht
      have ht : t < 2 := ht
      obtain rfl | rfl : t = 0 ∨ t = 1 := by omega
      · refine ⟨rA, ?_, ?_⟩
        · exact (congrArg (fun D : Matrix (Fin 2) (Fin 2) ℝ => ((!![2, 0; 0, 0] + D) *
            (!![2, 0; 0, 0] : Matrix (Fin 2) (Fin 2) ℝ).transpose).rank) hE).trans r3
        · exact hE.symm ▸ n3
      · refine ⟨rA, ?_, ?_⟩
        · exact (congrArg (fun D : Matrix (Fin 2) (Fin 2) ℝ => ((!![2, 0; 0, 0] + D) *
            (!![2, 0; 0, 0] : Matrix (Fin 2) (Fin 2) ℝ).transpose).rank) hD).trans r1
        · exact hD.symm ▸ n1)
  exact ⟨st, st', h1, h1', (h2 0).trans rfl, (h2 1).trans rfl, (h2' 0).trans rfl, (h2' 1).trans rfl⟩

/-! ### Examples -/

-- the model of the training table predicts `[[2, 0], [0, 0]]`; user 8 takes item 40 three times, in two chunks or in one
example (e0 : PSIEnv ℝ) : ∃ st st', svdTrain { e0 with la := realLA } ⟨1, 0, 1, none, false⟩ (exTieRows 2) = .ok st ∧
    [[⟨8, 40, 1, 2, 1⟩, ⟨8, 40, 1, 2, 1⟩], [⟨8, 40, 1, 3, 1⟩]].foldlM
      (psiUpdate { e0 with la := realLA } ⟨1, 0, 1, none, false⟩) st = .ok st' ∧
    psiScore st' 0 = .ok [2, 0] ∧ psiScore st' 1 = .ok [3, 0] ∧
    ∃ st2, psiUpdate { e0 with la := realLA } ⟨1, 0, 1, none, false⟩ st
      [⟨8, 40, 1, 2, 1⟩, ⟨8, 40, 1, 2, 1⟩, ⟨8, 40, 1, 3, 1⟩] = .ok st2 ∧ psiScore st2 1 = .ok [3, 0] := by
  have hu : FirstAppearance ((exTieRows 2).map Row.user) [7, 8] := firstAppearance_pdUnique [7, 8]
  have hi : FirstAppearance ((exTieRows 2).map Row.item) [40, 41] := firstAppearance_pdUnique [40, 41]
  obtain ⟨st, h1, hh, -⟩ := C153_scores { e0 with la := realLA } qrAlways_real ⟨1, 0, 1, none, false⟩ (fun _ => rfl)
    (exTieRows 2) [7, 8] [40, 41] hu hi (by decide) (realLA_svds (by decide) _) exGap [] (by simp)
    (fun _ => (!![2, 0; 0, 0] : Matrix (Fin 2) (Fin 2) ℝ)) (by rw [exTie_matrix]; exact exTie_best)
    (fun t ht => absurd ht (by simp))
  have ein : ∀ (x : ℝ) (l : List (Row ℝ)), interactionMatrix [7, 8] [40, 41] l = (!![0, 0; x, 0] : Matrix (Fin 2) (Fin 2) ℝ) →
      ∀ B : Matrix (Fin 2) (Fin 2) ℝ, B 0 0 = 2 → B 0 1 = 0 →
      InsideProfiles (m := 2) (n := 2) B (interactionMatrix [7, 8] [40, 41] l) := by
    intro x l hl B b1 b2 u
    rw [hl]
    refine ⟨fun v => if u = 1 ∧ v = 0 then x / 2 else 0, fun j => ?_⟩
    fin_cases u <;> fin_cases j <;> simp [Fin.sum_univ_two, b1, b2]
  have d1 : interactionMatrix [7, 8] [40, 41] [(⟨8, 40, 1, 2, 1⟩ : Row ℝ), ⟨8, 40, 1, 2, 1⟩] =
      (!![0, 0; 2, 0] : Matrix (Fin 2) (Fin 2) ℝ) := by
    ext i j
    fin_cases i <;> fin_cases j <;> simp [interactionMatrix]; norm_num
  have d2 : interactionMatrix [7, 8] [40, 41] [(⟨8, 40, 1, 3, 1⟩ : Row ℝ)] =
      (!![0, 0; 1, 0] : Matrix (Fin 2) (Fin 2) ℝ) := by
    ext i j
    fin_cases i <;> fin_cases j <;> simp [interactionMatrix]
  have d3 : interactionMatrix [7, 8] [40, 41] [(⟨8, 40, 1, 2, 1⟩ : Row ℝ), ⟨8, 40, 1, 2, 1⟩, ⟨8, 40, 1, 3, 1⟩] =
      (!![0, 0; 3, 0] : Matrix (Fin 2) (Fin 2) ℝ) := by
    ext i j
    fin_cases i <;> fin_cases j <;> simp [interactionMatrix]; norm_num
  have hin : ∀ (t : ℕ) (ht : t < [[(⟨8, 40, 1, 2, 1⟩ : Row ℝ), ⟨8, 40, 1, 2, 1⟩], [⟨8, 40, 1, 3, 1⟩]].length),
      InsideProfiles ((!![2, 0; 0, 0] : Matrix (Fin 2) (Fin 2) ℝ) + interactionMatrix [7, 8] [40, 41]
        ([[(⟨8, 40, 1, 2, 1⟩ : Row ℝ), ⟨8, 40, 1, 2, 1⟩], [⟨8, 40, 1, 3, 1⟩]].take t).flatten)
        (interactionMatrix [7, 8] [40, 41] [[(⟨8, 40, 1, 2, 1⟩ : Row ℝ), ⟨8, 40, 1, 2, 1⟩], [⟨8, 40, 1, 3, 1⟩]][t]) := by
    intro t ht
    have ht : t < 2 := ht
    obtain rfl | rfl : t = 0 ∨ t = 1 := by omega
    · refine ein 2 _ d1 _ ?_ ?_ <;> simp [interactionMatrix]
    · refine ein 1 _ d2 _ ?_ ?_ <;> simp [interactionMatrix]
  obtain ⟨st', e', -, q⟩ := C188_inside { e0 with la := realLA } qrAlways_real ⟨1, 0, 1, none, false⟩ (fun _ => rfl)
    [[⟨8, 40, 1, 2, 1⟩, ⟨8, 40, 1, 2, 1⟩], [⟨8, 40, 1, 3, 1⟩]] _ st hh (by simp) hin
  obtain ⟨st1, st2, m1, m2, m3, -⟩ := C188_merge { e0 with la := realLA } { e0 with la := realLA } qrAlways_real qrAlways_real
    ⟨1, 0, 1, none, false⟩ (fun _ => rfl) [[⟨8, 40, 1, 2, 1⟩, ⟨8, 40, 1, 2, 1⟩], [⟨8, 40, 1, 3, 1⟩]] _ st hh (by simp) hin
  obtain rfl : st1 = st' := Except.ok.inj (m1.symm.trans e')
  have q3 : ∀ a : Fin 2, psiScore st1 ((a : ℕ) : ℤ) = .ok (List.ofFn fun j : Fin 2 =>
      (!![2, 0; 0, 0] : Matrix (Fin 2) (Fin 2) ℝ) a j + (!![0, 0; 3, 0] : Matrix (Fin 2) (Fin 2) ℝ) a j) := by
    intro a
    rw [← d3]
    exact q a
  refine ⟨st, st1, h1, e', (q3 0).trans ?_, (q3 1).trans ?_, st2, m2, ((m3 1).symm.trans (q3 1)).trans ?_⟩ <;>
    simp [List.ofFn_succ]

end DynCF
