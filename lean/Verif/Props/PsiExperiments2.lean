/- C102: the experiment that appends rows or columns (`get_dynamics_vec`). -/
import Verif.Props.PsiExperiments
import Verif.Props.SplitMatrix

namespace DynCF
variable {K : Type}

open Matrix

theorem mat_eq_of_rowLists {A B : Mat K} (hc : A.cols = B.cols) (h : rowLists A = rowLists B) : A = B := by
  have hr : A.rows = B.rows := by rw [← rowLists_length A, h, rowLists_length]
  obtain ⟨m, n, A⟩ := A
  obtain ⟨m', n', B⟩ := B
  dsimp only at hc hr
  subst hc hr
  congr 1
  unfold rowLists at h
  have h1 := List.ofFn_injective h
  funext i
  exact List.ofFn_injective (congrFun h1 i)

theorem takeRows_rowLists (A : Mat K) (k : ℕ) : rowLists (A.takeRows k) = (rowLists A).take k := by
  refine List.ext_getElem? fun i => ?_
  rw [List.getElem?_take]
  unfold rowLists Mat.takeRows
  rw [List.getElem?_ofFn, List.getElem?_ofFn]
  dsimp only
  by_cases h : i < k
  · rw [if_pos h]
    by_cases h2 : i < A.rows
    · rw [dif_pos (by omega), dif_pos h2]
      rfl
    · rw [dif_neg (by omega), dif_neg h2]
  · rw [if_neg h, dif_neg (by omega)]

theorem vcat_rowLists {A B T : Mat K} (h : A.vcat B = .ok T) :
    rowLists T = rowLists A ++ rowLists B ∧ T.cols = A.cols ∧ B.cols = A.cols := by
  obtain ⟨m, n, A⟩ := A
  obtain ⟨m', n', B⟩ := B
  unfold Mat.vcat Mat.hcat at h
  rw [Mat.T_mk, Mat.T_mk] at h
  dsimp only at h
  split at h
  · next hn =>
    subst hn
    rw [except_bind_ok] at h
    have h := Except.ok.inj h
    subst h
    refine ⟨?_, rfl, rfl⟩
    unfold rowLists
    rw [Mat.T_mk]
    dsimp only
    rw [← List.ofFn_fin_append]
    congr 1
    funext i
    refine Fin.addCases (fun i => ?_) (fun i => ?_) i
    · rw [Fin.append_left]
      congr 1
      funext j
      simp [Matrix.transpose_apply]
    · rw [Fin.append_right]
      congr 1
      funext j
      simp [Matrix.transpose_apply]
  · rw [except_bind_error] at h
    cases h

/-- the matrix seen along the axis that grows: rows for axis 0, columns for axis 1 -/
def alongAxis (axis : ℤ) (A : Mat K) : Mat K := if axis = 0 ∨ axis = -2 then A else A.T

/-- the first `k` rows (axis 0 or -2) or columns (axis 1 or -1) -/
def leading (axis : ℤ) (A : Mat K) (k : ℕ) : Mat K :=
  if axis = 0 ∨ axis = -2 then A.takeRows k else A.takeCols k

theorem alongAxis_leading (axis : ℤ) (A : Mat K) (k : ℕ) :
    alongAxis axis (leading axis A k) = (alongAxis axis A).takeRows k := by
  unfold alongAxis leading
  split <;> rfl

theorem alongAxis_inj {axis : ℤ} {A B : Mat K} (h : alongAxis axis A = alongAxis axis B) : A = B := by
  unfold alongAxis at h
  split at h
  · exact h
  · exact congrArg Mat.T h

theorem concat_along {axis : ℤ} {A B T : Mat K} (h : A.concat B axis = .ok T) :
    rowLists (alongAxis axis T) = rowLists (alongAxis axis A) ++ rowLists (alongAxis axis B) ∧
      (alongAxis axis T).cols = (alongAxis axis A).cols := by
  unfold Mat.concat at h
  unfold alongAxis
  split at h
  · next h1 =>
    simp only [if_pos h1]
    exact ⟨(vcat_rowLists h).1, (vcat_rowLists h).2.1⟩
  · next h1 =>
    simp only [if_neg h1]
    split at h
    · have : A.T.vcat B.T = .ok T.T := by
        unfold Mat.vcat
        show (A.hcat B >>= fun r => pure r.T) = _
        rw [h]
        rfl
      exact ⟨(vcat_rowLists this).1, (vcat_rowLists this).2.1⟩
    · cases h

/-- One step of the experiment: `T` is the target matrix, `t` the factors, `r` the record. -/
structure StepOk (f : TripleFn) (axis : ℤ) (rank i : ℕ) (prev : Option Triple) (target : Option (Mat ℝ))
    (chunk T : Mat ℝ) (t : Triple) (r : ℝ × (ℕ × ℕ)) : Prop where
  grows : (target = none → T = chunk) ∧ ∀ T', target = some T' → T'.concat chunk axis = .ok T
  factors : f i (some axis) prev T chunk rank = .ok t
  error : ∃ P, svd2mtx t.1 t.2.1 t.2.2 = .ok P ∧ sqrtErrRelativeMtx P T = .ok r.1
  shape : r.2 = (T.rows, T.cols)

theorem dynVecLoop_spec (f : TripleFn) (axis : ℤ) (rank : ℕ) (l : List (Mat ℝ)) :
    ∀ (i : ℕ) (prev : Option Triple) (target : Option (Mat ℝ)) (rs : List (ℝ × (ℕ × ℕ))),
      dynVecLoop f axis rank i prev target l = .ok rs →
      ∃ (Ts : List (Mat ℝ)) (ts : List Triple), rs.length = l.length ∧ Ts.length = l.length ∧
        ts.length = l.length ∧ ∀ (j : ℕ) (c T : Mat ℝ) (t : Triple) (r : ℝ × (ℕ × ℕ)) (p : Option Triple)
          (q : Option (Mat ℝ)), l[j]? = some c → Ts[j]? = some T → ts[j]? = some t → rs[j]? = some r →
          (prev :: ts.map some)[j]? = some p → (target :: Ts.map some)[j]? = some q →
          StepOk f axis rank (i + j) p q c T t r := by
  induction l with
  | nil =>
    intro i prev target rs h
    have h := Except.ok.inj h
    subst h
    exact ⟨[], [], rfl, rfl, rfl, by simp⟩
  | cons c l ih =>
    intro i prev target rs h
    unfold dynVecLoop at h
    obtain ⟨T, hT, h⟩ := (bind_ok_iff _ _ _).1 h
    obtain ⟨r, hr, h⟩ := (bind_ok_iff _ _ _).1 h
    obtain ⟨rest, hrest, h⟩ := (bind_ok_iff _ _ _).1 h
    have h := Except.ok.inj h
    subst h
    obtain ⟨Ts, ts, l1, l2, l3, hall⟩ := ih _ _ _ _ hrest
    unfold dynRecord at hr
    obtain ⟨t, ht, hr⟩ := (bind_ok_iff _ _ _).1 hr
    obtain ⟨P, hP, hr⟩ := (bind_ok_iff _ _ _).1 hr
    obtain ⟨e, he, hr⟩ := (bind_ok_iff _ _ _).1 hr
    have hr := Except.ok.inj hr
    subst hr
    refine ⟨T :: Ts, t :: ts, by simp [l1], by simp [l2], by simp [l3], ?_⟩
    intro j c' T' t' r' p q h1 h2 h3 h4 h5 h6
    cases j with
    | zero =>
      simp only [List.getElem?_cons_zero, Option.some.injEq] at h1 h2 h3 h4 h5 h6
      subst h1 h2 h3 h4 h5 h6
      refine ⟨⟨?_, ?_⟩, ht, ⟨P, hP, he⟩, rfl⟩
      · intro h0
        subst h0
        exact (Except.ok.inj hT).symm
      · intro T' h0
        subst h0
        exact hT
    | succ j =>
      rw [List.getElem?_cons_succ] at h1 h2 h3 h4 h5 h6
      have := hall j c' T' t' r' p q h1 h2 h3 h4 h5 h6
      rwa [show i + (j + 1) = i + 1 + j by omega]

/-- the target matrices are the leading rows (columns) of the matrix that was split -/
theorem targets_leading (axis : ℤ) (C : Mat ℝ) (l Ts : List (Mat ℝ)) (hlen : Ts.length = l.length)
    (hcover : (l.map (alongAxis axis)).flatMap rowLists = rowLists (alongAxis axis C))
    (hcols : ∀ B ∈ l, (alongAxis axis B).cols = (alongAxis axis C).cols)
    (hgrow : ∀ (j : ℕ) (c T : Mat ℝ) (q : Option (Mat ℝ)), l[j]? = some c → Ts[j]? = some T →
      (none :: Ts.map some)[j]? = some q →
      (q = none → T = c) ∧ ∀ T', q = some T' → T'.concat c axis = .ok T) :
    ∀ (j : ℕ) (T : Mat ℝ), Ts[j]? = some T →
      T = leading axis C (((l.take (j + 1)).map fun B => (alongAxis axis B).rows).sum) := by
  have key : ∀ (j : ℕ) (T : Mat ℝ), Ts[j]? = some T →
      rowLists (alongAxis axis T) = ((l.take (j + 1)).map (alongAxis axis)).flatMap rowLists ∧
        (alongAxis axis T).cols = (alongAxis axis C).cols := by
    intro j
    induction j with
    | zero =>
      intro T hT
      have h0 : 0 < l.length := by rw [← hlen]; exact (List.getElem?_eq_some_iff.1 hT).1
      have hc : l[0]? = some l[0] := List.getElem?_eq_getElem h0
      have h1 := (hgrow 0 _ T none hc hT rfl).1 rfl
      subst h1
      refine ⟨?_, hcols _ (List.getElem_mem h0)⟩
      cases l with
      | nil => simp at h0
      | cons c l => simp
    | succ j ih =>
      intro T hT
      have h0 : j + 1 < l.length := by rw [← hlen]; exact (List.getElem?_eq_some_iff.1 hT).1
      have hc : l[j + 1]? = some l[j + 1] := List.getElem?_eq_getElem h0
      have h2 : Ts[j]? = some Ts[j] := List.getElem?_eq_getElem (by omega)
      obtain ⟨h3, h4⟩ := ih _ h2
      have h1 := (hgrow (j + 1) _ T (some Ts[j]) hc hT (by
        rw [List.getElem?_cons_succ, List.getElem?_map, h2]; rfl)).2 _ rfl
      obtain ⟨h5, h6⟩ := concat_along h1
      refine ⟨?_, by rw [h6, h4]⟩
      rw [h5, h3, List.take_succ_eq_append_getElem h0 (i := j + 1), List.map_append, List.flatMap_append]
      simp
  intro j T hT
  obtain ⟨h1, h2⟩ := key j T hT
  refine alongAxis_inj (axis := axis) (mat_eq_of_rowLists ?_ ?_)
  · rw [alongAxis_leading, h2]
    rfl
  · rw [alongAxis_leading, takeRows_rowLists, h1, ← hcover]
    have hsplit : (l.map (alongAxis axis)).flatMap rowLists =
        ((l.take (j + 1)).map (alongAxis axis)).flatMap rowLists ++
          ((l.drop (j + 1)).map (alongAxis axis)).flatMap rowLists := by
      rw [← List.flatMap_append, ← List.map_append, List.take_append_drop]
    have hlen2 : (((l.take (j + 1)).map fun B => (alongAxis axis B).rows).sum) =
        (((l.take (j + 1)).map (alongAxis axis)).flatMap rowLists).length := by
      rw [List.length_flatMap, List.map_map]
      congr 1
      refine List.map_congr_left fun B _ => ?_
      simp [rowLists_length]
    rw [hsplit, hlen2, List.take_left]

theorem dot_shape {u v P : Mat ℝ} (h : Mat.dot u v = .ok P) : P.rows = u.rows ∧ P.cols = v.cols := by
  unfold Mat.dot at h
  split at h
  · have h := Except.ok.inj h
    rw [← h]
    exact ⟨rfl, rfl⟩
  · cases h

theorem generateMatrix_shape (la : LinAlg ℝ) (d : GenDraws ℝ) (n m rank : ℕ) (C : Mat ℝ)
    (h : generateMatrix la d n m rank = .ok C) : C.rows = n ∧ C.cols = m := by
  unfold generateMatrix LinAlg.qrM svd2mtx at h
  dsimp only at h
  split at h
  · exact dot_shape h
  · split at h
    · exact dot_shape h
    · split at h
      · exact dot_shape h
      · cases h

theorem splitMatrix_along (A : Mat ℝ) (rf rn : ℝ) (hrf : 0 ≤ rf) (axis : ℤ) (l : List (Mat ℝ))
    (h : splitMatrix A rf rn axis = .ok l) :
    (axis = 0 ∨ axis = -2 ∨ axis = 1 ∨ axis = -1) ∧
    (l.map (alongAxis axis)).flatMap rowLists = rowLists (alongAxis axis A) ∧
      ∀ B ∈ l, (alongAxis axis B).cols = (alongAxis axis A).cols := by
  obtain ⟨h0, h1, h2⟩ := C77_split_partial A rf rn hrf axis
  by_cases ha : axis = 0 ∨ axis = -2
  · refine ⟨by omega, ?_⟩
    obtain ⟨h3, h4⟩ := h0 ha
    by_cases hs : blockStep A.rows rf rn = 0
    · rw [h3 hs] at h; cases h
    · obtain ⟨l', h5, h6, h7⟩ := h4 hs
      rw [h] at h5
      cases h5
      have e : (alongAxis axis : Mat ℝ → Mat ℝ) = id := by funext B; unfold alongAxis; rw [if_pos ha]; rfl
      rw [e, List.map_id]
      exact ⟨h6, h7⟩
  · by_cases hb : axis = 1 ∨ axis = -1
    · refine ⟨by omega, ?_⟩
      obtain ⟨h3, h4⟩ := h1 hb
      by_cases hs : blockStep A.cols rf rn = 0
      · rw [h3 hs] at h; cases h
      · obtain ⟨l', h5, h6, h7⟩ := h4 hs
        rw [h] at h5
        cases h5
        have e : (alongAxis axis : Mat ℝ → Mat ℝ) = Mat.T := by
          funext B; unfold alongAxis; rw [if_neg ha]
        rw [e, List.flatMap_map]
        exact ⟨h6, h7⟩
    · rw [h2 (by omega)] at h
      cases h

/-- **C102.** A completed run of `get_dynamics_vec` with any decomposition function `f` (axis 0 or 1,
non-negative first ratio): with `C` the generated matrix and `l` its blocks there is one record per block;
the target matrix of step `j` is the part of `C` covered by the blocks `0..j` (so the last target is `C`),
the recorded shape is its shape, the factors are those returned by `f` for this target, this block and the
factors of the step before, and the recorded error is the relative error of their product. -/
theorem C102_run (la : LinAlg ℝ) (d : GenDraws ℝ) (clock : ℕ → ℝ) (size rank : ℕ) (rf rn : ℝ) (hrf : 0 ≤ rf)
    (axis : ℤ) (f : TripleFn) (res : DynResult (ℕ × ℕ))
    (h : getDynamicsVec la d clock size rank rf rn axis f = .ok res) :
    ∃ (C : Mat ℝ) (l Ts : List (Mat ℝ)) (ts : List Triple),
      generateMatrix la d size size rank = .ok C ∧ splitMatrix C rf rn axis = .ok l ∧
      (axis = 0 ∨ axis = -2 ∨ axis = 1 ∨ axis = -1) ∧ C.rows = size ∧ C.cols = size ∧
      res.size = size ∧ res.rank = rank ∧ res.times = (List.range l.length).map clock ∧
      res.errs.length = l.length ∧ res.steps.length = l.length ∧ Ts.length = l.length ∧
      ts.length = l.length ∧ (∀ T, Ts.getLast? = some T → T = C) ∧
      ∀ j < l.length, ∃ c T t e, l[j]? = some c ∧ Ts[j]? = some T ∧ ts[j]? = some t ∧ res.errs[j]? = some e ∧
        T = leading axis C (((l.take (j + 1)).map fun B => (alongAxis axis B).rows).sum) ∧
        res.steps[j]? = some (T.rows, T.cols) ∧
        (∃ P, svd2mtx t.1 t.2.1 t.2.2 = .ok P ∧ sqrtErrRelativeMtx P T = .ok e) ∧
        f j (some axis) (if j = 0 then none else ts[j - 1]?) T c rank = .ok t := by
  unfold getDynamicsVec at h
  obtain ⟨C, hC, h⟩ := (bind_ok_iff _ _ _).1 h
  obtain ⟨l, hl, h⟩ := (bind_ok_iff _ _ _).1 h
  obtain ⟨rs, hrs, h⟩ := (bind_ok_iff _ _ _).1 h
  have h := Except.ok.inj h
  subst h
  obtain ⟨Ts, ts, l1, l2, l3, hall⟩ := dynVecLoop_spec f axis rank l 0 none none rs hrs
  obtain ⟨hax, hcover, hcols⟩ := splitMatrix_along C rf rn hrf axis l hl
  obtain ⟨hr1, hr2⟩ := generateMatrix_shape la d size size rank C hC
  have hgrow : ∀ (j : ℕ) (c T : Mat ℝ) (q : Option (Mat ℝ)), l[j]? = some c → Ts[j]? = some T →
      (none :: Ts.map some)[j]? = some q →
      (q = none → T = c) ∧ ∀ T', q = some T' → T'.concat c axis = .ok T := by
    intro j c T q h1 h2 h3
    have hj : j < l.length := (List.getElem?_eq_some_iff.1 h1).1
    exact (hall j c T ts[j] rs[j] ((none :: ts.map some)[j]'(by simp; omega)) q h1 h2
      (List.getElem?_eq_getElem (by omega)) (List.getElem?_eq_getElem (by omega))
      (List.getElem?_eq_getElem _) h3).grows
  have hlead := targets_leading axis C l Ts l2 hcover hcols hgrow
  refine ⟨C, l, Ts, ts, hC, hl, hax, hr1, hr2, rfl, rfl, by rw [l1], by simp [l1], by simp [l1], l2, l3, ?_, ?_⟩
  · intro T hT
    have hne : 0 < l.length := by
      rw [← l2]
      exact List.length_pos_of_mem (List.mem_of_getLast? hT)
    rw [List.getLast?_eq_getElem?, l2] at hT
    rw [hlead _ _ hT]
    refine alongAxis_inj (axis := axis) (mat_eq_of_rowLists ?_ ?_)
    · rw [alongAxis_leading]
      rfl
    · rw [alongAxis_leading, takeRows_rowLists, ← hcover, List.take_of_length_le]
      rw [List.take_of_length_le (by omega), List.length_flatMap, List.map_map]
      apply le_of_eq
      congr 1
      refine List.map_congr_left fun B _ => ?_
      simp [rowLists_length]
  · intro j hj
    have e1 : l[j]? = some l[j] := List.getElem?_eq_getElem hj
    have e2 : Ts[j]? = some Ts[j] := List.getElem?_eq_getElem (by omega)
    have e3 : ts[j]? = some ts[j] := List.getElem?_eq_getElem (by omega)
    have e4 : rs[j]? = some rs[j] := List.getElem?_eq_getElem (by omega)
    obtain ⟨p, hp⟩ : ∃ p, (none :: ts.map some)[j]? = some p :=
      ⟨_, List.getElem?_eq_getElem (by simp; omega)⟩
    obtain ⟨q, hq⟩ : ∃ p, (none :: Ts.map some)[j]? = some p :=
      ⟨_, List.getElem?_eq_getElem (by simp; omega)⟩
    obtain ⟨-, h1, h2, h3⟩ := hall j _ _ _ _ p q e1 e2 e3 e4 hp hq
    refine ⟨_, _, _, rs[j].1, e1, e2, e3, by rw [List.getElem?_map, e4]; rfl, hlead _ _ e2,
      by rw [List.getElem?_map, e4, ← h3]; rfl, h2, ?_⟩
    rw [Nat.zero_add] at h1
    rw [← h1]
    congr 1
    cases j with
    | zero =>
      rw [if_pos rfl]
      exact Option.some.inj hp
    | succ j =>
      rw [if_neg (by omega), Nat.add_sub_cancel]
      rw [List.getElem?_cons_succ, List.getElem?_map, List.getElem?_eq_getElem (by omega)] at hp
      rw [List.getElem?_eq_getElem (by omega)]
      exact Option.some.inj hp

theorem concat_ok {axis : ℤ} (hax : axis = 0 ∨ axis = -2 ∨ axis = 1 ∨ axis = -1) {A B : Mat K}
    (h : (alongAxis axis A).cols = (alongAxis axis B).cols) : ∃ T, A.concat B axis = .ok T ∧
      (alongAxis axis T).cols = (alongAxis axis A).cols ∧
      (alongAxis axis T).rows = (alongAxis axis A).rows + (alongAxis axis B).rows := by
  unfold alongAxis at h ⊢
  unfold Mat.concat
  by_cases h1 : axis = 0 ∨ axis = -2
  · simp only [if_pos h1] at h ⊢
    unfold Mat.vcat Mat.hcat
    rw [dif_pos (show A.T.rows = B.T.rows from h)]
    exact ⟨_, rfl, rfl, rfl⟩
  · simp only [if_neg h1] at h ⊢
    rw [if_pos (by omega)]
    unfold Mat.hcat
    rw [dif_pos (show A.rows = B.rows from h)]
    exact ⟨_, rfl, rfl, rfl⟩

/-- recomputing the decomposition never fails on non-empty targets -/
theorem recompute_loop (la : LinAlg ℝ) (rng : Rng ℝ) (nPower os : ℕ) (axis : ℤ)
    (hax : axis = 0 ∨ axis = -2 ∨ axis = 1 ∨ axis = -1) (rank w : ℕ) (hw : 0 < w) (l : List (Mat ℝ)) :
    ∀ (i : ℕ) (prev : Option Triple) (target : Option (Mat ℝ)),
      (∀ B ∈ l, (alongAxis axis B).cols = w) →
      (target = none → ∀ B, l.head? = some B → 0 < (alongAxis axis B).rows) →
      (∀ T, target = some T → (alongAxis axis T).cols = w ∧ 0 < (alongAxis axis T).rows) →
      ∃ rs, dynVecLoop (getSvdTriple la rng nPower os) axis rank i prev target l = .ok rs := by
  induction l with
  | nil => intro i prev target _ _ _; exact ⟨[], rfl⟩
  | cons c l ih =>
    intro i prev target h1 h2 h3
    have hc := h1 c (by simp)
    obtain ⟨T, hT, hTc, hTr⟩ : ∃ T, nextTarget axis target c = .ok T ∧ (alongAxis axis T).cols = w ∧
        0 < (alongAxis axis T).rows := by
      cases target with
      | none => exact ⟨c, rfl, hc, h2 rfl c rfl⟩
      | some T0 =>
        obtain ⟨h4, h5⟩ := h3 T0 rfl
        obtain ⟨T, h6, h7, h8⟩ := concat_ok hax (h4.trans hc.symm)
        exact ⟨T, h6, h7.trans h4, by omega⟩
    obtain ⟨m, n, A⟩ := T
    have hmn : 0 < m ∧ 0 < n := by
      unfold alongAxis at hTc hTr
      split at hTc
      · next h4 =>
        rw [if_pos h4] at hTr
        exact ⟨hTr, lt_of_lt_of_eq hw hTc.symm⟩
      · next h4 =>
        rw [if_neg h4] at hTr
        exact ⟨lt_of_lt_of_eq hw hTc.symm, hTr⟩
    obtain ⟨k, U, s, V, -, hk, he, -⟩ := C47_components la rng A rank nPower os
    obtain ⟨e, h5, -⟩ := C59_dense hmn.1 hmn.2 (U * diagonal s * V) A
    obtain ⟨rest, h6⟩ := ih (i + 1) (some (⟨m, k, U⟩, ⟨k, s⟩, ⟨k, n, V⟩)) (some ⟨m, n, A⟩)
      (fun B hB => h1 B (List.mem_cons_of_mem _ hB)) (by simp) (by rintro T ⟨⟩; exact ⟨hTc, hTr⟩)
    refine ⟨(e, (m, n)) :: rest, ?_⟩
    unfold dynVecLoop dynRecord getSvdTriple
    rw [hT, except_bind_ok]
    dsimp only
    rw [he, except_bind_ok]
    dsimp only
    rw [svd2mtx_mk, except_bind_ok, h5, except_bind_ok]
    dsimp only [pure, Except.pure]
    rw [except_bind_ok]
    dsimp only
    have h6' : dynVecLoop (fun _ _ _ target _ rank => .ok (randomSvd la rng target rank nPower os)) axis rank (i + 1)
        (some (⟨m, k, U⟩, ⟨k, s⟩, ⟨k, n, V⟩)) (some ⟨m, n, A⟩) l = .ok rest := h6
    rw [h6', except_bind_ok]

/-- the first block is not empty when the first ratio leaves at least one row (column) -/
theorem split_first (A : Mat ℝ) (axis : ℤ) (hax : axis = 0 ∨ axis = -2 ∨ axis = 1 ∨ axis = -1) (rf rn : ℝ)
    (hrf : 0 ≤ rf) (first step : ℕ) (hfirst : firstBlock (alongAxis axis A).rows rf = first)
    (hle : first ≤ (alongAxis axis A).rows) (hstep : blockStep (alongAxis axis A).rows rf rn = step)
    (hpos : 0 < step) :
    ∃ l B, splitMatrix A rf rn axis = .ok l ∧ l.head? = some B ∧ (alongAxis axis B).rows = first := by
  by_cases h1 : axis = 0 ∨ axis = -2
  · have e : (alongAxis axis : Mat ℝ → Mat ℝ) = id := by funext B; unfold alongAxis; rw [if_pos h1]; rfl
    rw [e] at hfirst hle hstep ⊢
    obtain ⟨l, h2, ⟨B, h3, h4⟩, -⟩ := C77_sizes A rf rn hrf first step hfirst hle hstep hpos
    refine ⟨l, B, ?_, by rw [List.head?_eq_getElem?, h3], h4⟩
    unfold splitMatrix at h2 ⊢
    rw [if_pos h1]
    rwa [if_pos (Or.inl rfl)] at h2
  · have e : (alongAxis axis : Mat ℝ → Mat ℝ) = Mat.T := by funext B; unfold alongAxis; rw [if_neg h1]
    rw [e] at hfirst hle hstep ⊢
    obtain ⟨l, h2, ⟨B, h3, h4⟩, -⟩ := C77_sizes A.T rf rn hrf first step hfirst hle hstep hpos
    refine ⟨l.map Mat.T, B.T, ?_, by rw [List.head?_eq_getElem?, List.getElem?_map, h3]; rfl, h4⟩
    unfold splitMatrix at h2 ⊢
    rw [if_pos (Or.inl rfl)] at h2
    rw [if_neg h1, if_pos (by omega), h2]
    rfl

/-- the leading part of a product with inner dimension `r` has rank at most `r` -/
theorem leading_rank (axis : ℤ) {m n r : ℕ} (X : Matrix (Fin m) (Fin r) ℝ) (Y : Matrix (Fin r) (Fin n) ℝ) (k : ℕ) :
    (leading axis ⟨m, n, X * Y⟩ k).val.rank ≤ r := by
  by_cases hx : axis = 0 ∨ axis = -2
  · have hle : leading axis ⟨m, n, X * Y⟩ k = (⟨m, n, X * Y⟩ : Mat ℝ).takeRows k := if_pos hx
    rw [hle]
    have : ((⟨m, n, X * Y⟩ : Mat ℝ).takeRows k).val = 
        (X.submatrix (Fin.castLE (Nat.min_le_right k m)) id) * Y := by
      ext i j
      rfl
    rw [this]
    refine (Matrix.rank_mul_le_left _ _).trans ((Matrix.rank_le_card_width _).trans ?_)
    rw [Fintype.card_fin]
  · have hle : leading axis ⟨m, n, X * Y⟩ k = (⟨m, n, X * Y⟩ : Mat ℝ).takeCols k := if_neg hx
    rw [hle]
    have : ((⟨m, n, X * Y⟩ : Mat ℝ).takeCols k).val = 
        X * (Y.submatrix id (Fin.castLE (Nat.min_le_right k n))) := by
      ext i j
      rfl
    rw [this]
    refine (Matrix.rank_mul_le_left _ _).trans ((Matrix.rank_le_card_width _).trans ?_)
    rw [Fintype.card_fin]

/-- **C102, recomputed decomposition.** With `get_svd_triple`, a rank that fits the size, a non-empty first
block and a positive step the experiment completes, and every recorded error is zero as soon as the sample of
`random_svd` captures the range of the leading parts of the generated matrix. -/
theorem C102_recompute (la : LinAlg ℝ) (rng : Rng ℝ) (d : GenDraws ℝ) (clock : ℕ → ℝ) (size rank nPower os : ℕ)
    (rf rn : ℝ) (hrf : 0 ≤ rf) (axis : ℤ) (hax : axis = 0 ∨ axis = -2 ∨ axis = 1 ∨ axis = -1)
    (ha : QrOk la (d.a size rank)) (hb : QrOk la (d.b size rank)) (hrank : rank ≤ size)
    (first step : ℕ) (hfirst : firstBlock size rf = first) (h0 : 0 < first) (hle : first ≤ size)
    (hstep : blockStep size rf rn = step) (hpos : 0 < step) :
    ∃ C res, generateMatrix la d size size rank = .ok C ∧
      getDynamicsVec la d clock size rank rf rn axis (getSvdTriple la rng nPower os) = .ok res ∧
      ((∀ k, RsvdOk la rng (leading axis C k).val rank nPower os ∧
        ∃ B : Matrix (Fin (rank + os)) (Fin (leading axis C k).cols) ℝ,
          sketch rng (leading axis C k).val rank nPower os * B = (leading axis C k).val) →
        ∀ e ∈ res.errs, e = 0) := by
  classical
  obtain ⟨M, Q1, Q2, hM, -, -, hMe, -⟩ := C99_matrix la d size size rank ha hb hrank hrank
  have hdim : (alongAxis axis ⟨size, size, M⟩ : Mat ℝ).rows = size ∧
      (alongAxis axis ⟨size, size, M⟩ : Mat ℝ).cols = size := by
    unfold alongAxis
    split <;> exact ⟨rfl, rfl⟩
  obtain ⟨l, B, hl, hB, hBr⟩ := split_first ⟨size, size, M⟩ axis hax rf rn hrf first step
    (by rw [hdim.1, hfirst]) (by rw [hdim.1]; exact hle) (by rw [hdim.1, hstep]) hpos
  obtain ⟨-, hcover, hcols⟩ := splitMatrix_along ⟨size, size, M⟩ rf rn hrf axis l hl
  obtain ⟨rs, hrs⟩ := recompute_loop la rng nPower os axis hax rank size (by omega) l 0 none none
    (fun B hB => (hcols B hB).trans hdim.2)
    (by intro _ B' hB'; rw [hB] at hB'; cases hB'; omega) (by simp)
  have hrun : getDynamicsVec la d clock size rank rf rn axis (getSvdTriple la rng nPower os) =
      .ok ⟨(List.range rs.length).map clock, rs.map Prod.fst, size, rank, rs.map Prod.snd⟩ := by
    unfold getDynamicsVec
    rw [hM, except_bind_ok, hl, except_bind_ok, hrs, except_bind_ok]
    rfl
  refine ⟨_, _, hM, hrun, ?_⟩
  intro hcap e he
  obtain ⟨C, l', Ts, ts, hC, hl', -, -, -, -, -, -, h3, -, -, -, -, h4⟩ := C102_run la d clock size rank rf rn hrf axis _ _ hrun
  rw [hM] at hC
  cases hC
  obtain ⟨j, hj, hje⟩ := List.getElem_of_mem he
  obtain ⟨c, T, t, e', -, -, -, he', hT, -, ⟨P, hP, herr⟩, hf⟩ := h4 j (by rw [← h3]; exact hj)
  rw [List.getElem?_eq_getElem hj, hje] at he'
  cases he'
  have hcj := hcap (((l'.take (j + 1)).map fun B => (alongAxis axis B).rows).sum)
  have hr := leading_rank axis (Q1 * diagonal (d.s rank)) Q2.transpose
    (((l'.take (j + 1)).map fun B => (alongAxis axis B).rows).sum)
  rw [← hMe] at hr
  rw [← hT] at hcj hr
  obtain ⟨hok, X, hX⟩ := hcj
  obtain ⟨m, n, A⟩ := T
  obtain ⟨k, U, s, V, h5, h6⟩ := C47_recovery la rng A rank nPower os hok X hX hr
  have hf := Except.ok.inj hf
  rw [h5] at hf
  subst hf
  rw [svd2mtx_mk, h6] at hP
  cases hP
  by_cases hmn : m * n = 0
  · unfold sqrtErrRelativeMtx at herr
    rw [Mat.sub_mk, except_bind_ok] at herr
    unfold meanSquare at herr
    rw [if_pos hmn, except_bind_error] at herr
    cases herr
  · obtain ⟨x, h7, -, h8⟩ := C59_dense (Nat.pos_of_ne_zero fun h => hmn (by rw [h, Nat.zero_mul]))
      (Nat.pos_of_ne_zero fun h => hmn (by rw [h, Nat.mul_zero])) A A
    rw [herr] at h7
    cases h7
    exact h8.2 rfl

/-- a source of random matrices that draws the orthonormal factor `Q` of size 3 × 1 -/
noncomputable def rngOf (Q : Matrix (Fin 3) (Fin 1) ℝ) : Rng ℝ := fun _ _ => Matrix.of fun i j =>
  if h : (i : ℕ) < 3 ∧ (j : ℕ) < 1 then Q ⟨i, h.1⟩ ⟨j, h.2⟩ else 0

-- size 3, rank 1, blocks of one row each: all hypotheses can be met, the errors are zero
example : ∃ (rng : Rng ℝ) (res : DynResult (ℕ × ℕ)),
    getDynamicsVec realLA exDraws (fun _ => 0) 3 1 (1/3) (1/2) 0 (getSvdTriple realLA rng 0 0) = .ok res ∧
      ∀ e ∈ res.errs, e = 0 := by
  classical
  obtain ⟨M, Q1, Q2, hM, -, o2, hMe, -⟩ := C99_matrix realLA exDraws 3 3 1 (realLA_qr _) (realLA_qr _)
    (by norm_num) (by norm_num)
  have hf : firstBlock 3 (1/3 : ℝ) = (1 : ℕ) := by
    unfold firstBlock pyInt
    norm_num
  have hs : blockStep 3 (1/3 : ℝ) (1/2) = (1 : ℕ) := by
    unfold blockStep
    rw [hf]
    unfold pyInt
    norm_num
  obtain ⟨C, res, hC, hrun, hz⟩ := C102_recompute realLA (rngOf Q2) exDraws (fun _ => 0) 3 1 0 0 (1/3) (1/2)
    (by norm_num) 0 (Or.inl rfl) (realLA_qr _) (realLA_qr _) (by norm_num) 1 1 hf (by norm_num) (by norm_num) hs
    (by norm_num)
  rw [hM] at hC
  cases hC
  refine ⟨rngOf Q2, res, hrun, hz fun k => ⟨rsvdOk_real _ _ _ _ _, ?_⟩⟩
  rw [show leading 0 (⟨3, 3, M⟩ : Mat ℝ) k = (⟨3, 3, M⟩ : Mat ℝ).takeRows k from if_pos (Or.inl rfl)]
  refine ⟨Q2.transpose, ?_⟩
  obtain ⟨W, hW⟩ : ∃ W : Matrix (Fin (min k 3)) (Fin 3) ℝ, ((⟨3, 3, M⟩ : Mat ℝ).takeRows k).val = W := ⟨_, rfl⟩
  have e1 : W =
      (Q1.submatrix (Fin.castLE (Nat.min_le_right k 3)) id) * diagonal (exDraws.s 1) * Q2.transpose := by
    rw [← hW]
    ext i j
    show M _ j = _
    rw [hMe]
    rfl
  have e2 : rngOf Q2 3 (1 + 0) = Q2 := by
    ext i j
    show (if h : (i : ℕ) < 3 ∧ (j : ℕ) < 1 then Q2 ⟨i, h.1⟩ ⟨j, h.2⟩ else 0) = _
    rw [dif_pos ⟨i.2, j.2⟩]
  unfold sketch
  rw [pow_zero, Matrix.one_mul]
  rw [hW]
  show W * rngOf Q2 3 (1 + 0) * Q2.transpose = W
  rw [e2, e1, Matrix.mul_assoc _ Q2.transpose Q2, o2, Matrix.mul_one]

end DynCF
