/- Property C92: which values the dynamical experiment records. -/
import Verif.Props.Experiment

set_option linter.unusedSectionVars false

namespace DynCF
variable {K : Type} {σ F : Type}

/-! ### Specification -/

/-- What the model shows at one step: its scores on the chunk, its recommendations for the test
users (internal item numbers), its embeddings and its number of items. -/
structure Snap (K : Type) where
  hit : K
  rr : K
  recs : List (List ℤ)
  u : Mat K
  v : Mat K
  nItems : ℕ

/-- `snap` is what the model in state `s` shows when the chunk `c` arrives; the state is `s'`
afterwards (asking for recommendations may change it). -/
def Shows [Field K] [LinearOrder K] (M : RecModel K σ F) (cfg : ExpCfg K) (s : σ) (c : List (Row K))
    (snap : Snap K) (s' : σ) : Prop :=
  ∃ r s1, M.recommend s (getUsersToRecommendTestItems c (M.maps s)).1 cfg.kRecs false = .ok (r, s1) ∧
    hr r (getUsersToRecommendTestItems c (M.maps s)).2 = .ok snap.hit ∧
    mrr r (getUsersToRecommendTestItems c (M.maps s)).2 = .ok snap.rr ∧
    M.recommend s1 cfg.testUsers cfg.kRecs true = .ok (snap.recs, s') ∧
    M.getU s' = .ok snap.u ∧ M.getV s' = .ok snap.v ∧ snap.nItems = M.nItems s'

/-- Train on the initial data; then for every chunk: look at the model, then update it. -/
inductive Watched [Field K] [LinearOrder K] (M : RecModel K σ F) (cfg : ExpCfg K) (s0 : σ)
    (initial : Tab K) : List (List (Row K)) → List (Snap K) → σ → Prop
  | train {s : σ} : M.train s0 initial = .ok s → Watched M cfg s0 initial [] [] s
  | step {past : List (List (Row K))} {snaps : List (Snap K)} {s s1 s2 : σ} {c : List (Row K)}
      {snap : Snap K} {d : Tab K} :
      Watched M cfg s0 initial past snaps s → Shows M cfg s c snap s1 →
      RetrainData cfg initial past c d →
      (if cfg.reinit = true then M.updateRe s1 d (M.factors s1) (M.maps s1)
        else M.update s1 d) = .ok s2 →
      Watched M cfg s0 initial (past ++ [c]) (snaps ++ [snap]) s2

/-- `ws` has one value per pair of neighbours of `snaps`, the `i`-th value `w` satisfying
`P i snaps[i] snaps[i+1] w`. -/
def Neighbours {S W : Type} (P : ℕ → S → S → W → Prop) (snaps : List S) (ws : List W) : Prop :=
  ws.length = snaps.length - 1 ∧
  ∀ i a b, snaps[i]? = some a → snaps[i + 1]? = some b → ∃ w, ws[i]? = some w ∧ P i a b w

/-- The recorded drift from `a` to `b`: with `D = b - a` (`a` filled up with zero rows) the
quotient of the norms of `D - b` and `D`, as numpy divides (`inf`, `nan` for a zero divisor). -/
def DriftRecorded [Field K] [DecidableEq K] (normOf : Mat K → K) (a b : Mat K) (x : Num K) : Prop :=
  ∃ (ha : a.cols = b.cols) (_ : a.rows ≤ b.rows),
    let D : Matrix (Fin b.rows) (Fin b.cols) K := fun i j =>
      b.val i j - if hi : (i : ℕ) < a.rows then a.val ⟨i, hi⟩ (Fin.cast ha.symm j) else 0
    let n := normOf ⟨b.rows, b.cols, D - b.val⟩
    let m := normOf ⟨b.rows, b.cols, D⟩
    x = if m = 0 then (if n = 0 then .nan else .inf) else .fin (n / m)

/-- The recorded lists belong to the snapshots. -/
structure Records [Field K] [LinearOrder K] (cfg : ExpCfg K) (snaps : List (Snap K))
    (d : Dynamics K) : Prop where
  hr : d.hr = snaps.map Snap.hit
  mrr : d.mrr = snaps.map Snap.rr
  ndUsers : d.ndUsers = snaps.map fun s => cfg.normOf s.u
  ndItems : d.ndItems = snaps.map fun s => cfg.normOf s.v
  wji : Neighbours (fun _ a b w => wjiSim a.recs b.recs b.nItems = .ok w) snaps d.wji
  rndUsers : Neighbours (fun _ a b x => DriftRecorded cfg.normOf a.u b.u x) snaps d.rndUsers
  rndItems : Neighbours (fun i a b x =>
    if 1 ≤ i ∧ b.v.rows < a.v.rows then x = .fin (-1)
    else DriftRecorded cfg.normOf a.v b.v x) snaps d.rndItems
  times : d.times = (List.range (snaps.length + 1)).map fun i =>
    cfg.clock (2 * i + 1) - cfg.clock (2 * i)

/-! ### Proof -/

theorem Neighbours.nil {S W : Type} (P : ℕ → S → S → W → Prop) : Neighbours P [] [] := by
  refine ⟨rfl, ?_⟩
  intro i a b h
  simp at h

theorem Neighbours.single {S W : Type} (P : ℕ → S → S → W → Prop) (a : S) :
    Neighbours P [a] [] := by
  refine ⟨rfl, ?_⟩
  intro i x b _ h
  simp at h

theorem Neighbours.snoc {S W : Type} {P : ℕ → S → S → W → Prop} {snaps : List S} {ws : List W}
    (h : Neighbours P snaps ws) {a b : S} {w : W} {n : ℕ} (hn : snaps.length = n + 1)
    (ha : snaps[n]? = some a) (hw : P n a b w) : Neighbours P (snaps ++ [b]) (ws ++ [w]) := by
  obtain ⟨hl, hp⟩ := h
  refine ⟨by simp; omega, ?_⟩
  intro i x y hx hy
  rcases Nat.lt_or_ge (i + 1) snaps.length with hi | hi
  · rw [List.getElem?_append_left (by omega)] at hx
    rw [List.getElem?_append_left hi] at hy
    obtain ⟨v, hv, hP⟩ := hp i x y hx hy
    refine ⟨v, ?_, hP⟩
    rw [List.getElem?_append_left (by omega)]
    exact hv
  · have hlt : i + 1 < (snaps ++ [b]).length := (List.getElem?_eq_some_iff.1 hy).1
    have hi' : i = n := by simp at hlt; omega
    subst hi'
    rw [List.getElem?_append_left (by omega), ha] at hx
    rw [List.getElem?_append_right (by omega), hn, Nat.sub_self] at hy
    simp only [List.getElem?_cons_zero, Option.some.injEq] at hx hy
    subst hx
    subst hy
    refine ⟨w, ?_, hw⟩
    rw [List.getElem?_append_right (by omega), show i - ws.length = 0 by omega]
    rfl

variable [Field K] [LinearOrder K] (M : RecModel K σ F) (cfg : ExpCfg K)

theorem sub_ok {a b c : Mat K} (h : a.sub b = .ok c) :
    ∃ (hr : a.rows = b.rows) (hc : a.cols = b.cols),
      c = ⟨a.rows, a.cols, fun i j => a.val i j - b.val (Fin.cast hr i) (Fin.cast hc j)⟩ := by
  unfold Mat.sub Mat.zipWith at h
  split at h
  · rename_i hh
    exact ⟨hh.1, hh.2, (Except.ok.inj h).symm⟩
  · split at h <;> cases h

theorem driftOf_recorded {normOf : Mat K → K} {a a' b : Mat K} {x : Num K}
    (h1 : padTo a b = .ok a') (h2 : driftOf normOf a' b = .ok x) :
    DriftRecorded normOf a b x := by
  unfold driftOf relNormM at h2
  obtain ⟨d, h3, h2⟩ := (bind_ok_iff _ _ _).1 h2
  obtain ⟨e, h4, h2⟩ := (bind_ok_iff _ _ _).1 h2
  have h2 := Except.ok.inj h2
  obtain ⟨hr, hc, rfl⟩ := sub_ok h3
  obtain ⟨hr', hc', rfl⟩ := sub_ok h4
  unfold padTo at h1
  by_cases hp : b.rows > a.rows
  · rw [if_pos hp] at h1
    by_cases hq : a.cols = b.cols
    · rw [dif_pos hq] at h1
      have h1 := Except.ok.inj h1
      subst h1
      refine ⟨hq, hp.le, ?_⟩
      rw [← h2]
      rfl
    · rw [dif_neg hq] at h1
      split at h1 <;> cases h1
  · rw [if_neg hp] at h1
    have h1 := Except.ok.inj h1
    subst h1
    refine ⟨hc.symm, hr.symm.le, ?_⟩
    rw [← h2]
    have e : (fun (i : Fin b.rows) (j : Fin b.cols) =>
        b.val i j - if hi : (i : ℕ) < a.rows then a.val ⟨i, hi⟩ (Fin.cast hc.symm.symm j) else 0) =
        fun i j => b.val i j - a.val (Fin.cast hr i) (Fin.cast hc j) := by
      funext i j
      rw [dif_pos (by rw [← hr]; exact i.isLt)]
      rfl
    simp only [e]
    rfl

/-- The local variables of the loop between two steps. -/
structure ExpInv (s0 : σ) (initial : Tab K) (past : List (List (Row K))) (snaps : List (Snap K))
    (st : ExpState K σ) : Prop where
  watched : Watched M cfg s0 initial past snaps st.model
  conc : ConcIs cfg initial past st.conc
  records : Records cfg snaps st.dyn
  ticks : st.ticks = 2 * snaps.length + 2
  one : ∀ a, snaps = [a] → st.recT1 = some a.recs ∧ st.u1 = some a.u ∧ st.v1 = some a.v
  more : ∀ n a, snaps.length = n + 2 → snaps[n + 1]? = some a →
    st.recT2 = some a.recs ∧ st.u2 = some a.u ∧ st.v2 = some a.v

theorem bound_some {α : Type} {x : Option α} {a b : α} (h : x = some a) (h' : bound x = .ok b) :
    b = a := by
  subst h
  exact (Except.ok.inj h').symm

theorem expStep_inv {s0 : σ} {initial : Tab K} {past : List (List (Row K))} {snaps : List (Snap K)}
    {st st' : ExpState K σ} {c : List (Row K)} (inv : ExpInv M cfg s0 initial past snaps st)
    (h : expStep M cfg (snaps.length + 1) c st = .ok st') :
    ∃ snap, ExpInv M cfg s0 initial (past ++ [c]) (snaps ++ [snap]) st' := by
  unfold expStep at h
  obtain ⟨s1, h1, h⟩ := (bind_ok_iff _ _ _).1 h
  obtain ⟨s2, h2, h⟩ := (bind_ok_iff _ _ _).1 h
  obtain ⟨s3, h3, h⟩ := (bind_ok_iff _ _ _).1 h
  obtain ⟨s3', hn, h⟩ := (bind_ok_iff _ _ _).1 h
  obtain ⟨conc, h4, h⟩ := (bind_ok_iff _ _ _).1 h
  obtain ⟨s, h5, hlast⟩ := (bind_ok_iff _ _ _).1 h
  have hlast := Except.ok.inj hlast
  obtain ⟨un, vn, n1, n2, rfl⟩ := normStep_ok M cfg hn
  obtain ⟨r, x, m, e1, e2, e3, rfl⟩ := scoreStep_ok M cfg h1
  have hcc : s3.conc = st.conc := by
    obtain ⟨_, _, _, _, f3, _, _, _⟩ := stabilityStep_ok M cfg h2
    obtain ⟨_, _, _, g2, _, _, _, _⟩ := driftStep_ok M cfg h3
    rw [g2, f3]
  have h4 : concatStep cfg st.conc c = .ok conc := by rw [← hcc]; exact h4
  obtain ⟨hconc, hret⟩ := concIs_step cfg inv.conc h4
  have hnil : ∀ {S : Type} (l : List S), l.length + 1 = 1 → l = [] := fun l h =>
    List.length_eq_zero_iff.1 (by omega)
  unfold stabilityStep at h2
  unfold driftStep at h3
  by_cases hi1 : snaps.length + 1 = 1
  · -- first step
    have hs : snaps = [] := hnil _ hi1
    subst hs
    rw [if_pos hi1] at h2 h3
    obtain ⟨r2, h6, h2⟩ := (bind_ok_iff _ _ _).1 h2
    have h2 := Except.ok.inj h2
    subst h2
    obtain ⟨u, y1, h3⟩ := (bind_ok_iff _ _ _).1 h3
    obtain ⟨v, y2, h3⟩ := (bind_ok_iff _ _ _).1 h3
    have h3 := Except.ok.inj h3
    subst h3
    subst hlast
    have eu : un = u := Except.ok.inj (n1.symm.trans y1)
    have ev : vn = v := Except.ok.inj (n2.symm.trans y2)
    subst eu
    subst ev
    refine ⟨⟨x, m, r2.1, un, vn, M.nItems r2.2⟩, ?_⟩
    refine ⟨Watched.step inv.watched ⟨r.1, r.2, e1, e2, e3, h6, y1, y2, rfl⟩ hret h5, hconc, ?_, ?_, ?_, ?_⟩
    · obtain ⟨a1, a2, a3, a4, a5, a6, a7, a8⟩ := inv.records
      have z5 : st.dyn.wji = [] := List.length_eq_zero_iff.1 a5.1
      have z6 : st.dyn.rndUsers = [] := List.length_eq_zero_iff.1 a6.1
      have z7 : st.dyn.rndItems = [] := List.length_eq_zero_iff.1 a7.1
      refine ⟨?_, ?_, ?_, ?_, ?_, ?_, ?_, ?_⟩
      · show st.dyn.hr ++ [x] = _
        rw [a1]; rfl
      · show st.dyn.mrr ++ [m] = _
        rw [a2]; rfl
      · show st.dyn.ndUsers ++ _ = _
        rw [a3]; rfl
      · show st.dyn.ndItems ++ _ = _
        rw [a4]; rfl
      · show Neighbours _ _ st.dyn.wji
        rw [z5]; exact Neighbours.single _ _
      · show Neighbours _ _ st.dyn.rndUsers
        rw [z6]; exact Neighbours.single _ _
      · show Neighbours _ _ st.dyn.rndItems
        rw [z7]; exact Neighbours.single _ _
      · show st.dyn.times ++ [cfg.clock (st.ticks + 1) - cfg.clock st.ticks] = _
        rw [a8, inv.ticks]
        rfl
    · show st.ticks + 2 = _
      rw [inv.ticks]; rfl
    · intro a ha
      have ha : _ = a := (List.cons.inj ha).1
      subst ha
      exact ⟨rfl, rfl, rfl⟩
    · intro n a hn
      simp at hn
  · rw [if_neg hi1] at h2 h3
    obtain ⟨n, hn⟩ : ∃ n, snaps.length = n + 1 := ⟨snaps.length - 1, by omega⟩
    obtain ⟨a, ha⟩ : ∃ a, snaps[n]? = some a := ⟨snaps[n], List.getElem?_eq_getElem (by omega)⟩
    -- what the later steps have in common
    suffices H : ∃ r2 w du dv, M.recommend r.2 cfg.testUsers cfg.kRecs true = .ok r2 ∧
        wjiSim a.recs r2.1 (M.nItems r2.2) = .ok w ∧
        DriftRecorded cfg.normOf a.u un du ∧
        (if 1 ≤ n ∧ vn.rows < a.v.rows then dv = .fin (-1)
          else DriftRecorded cfg.normOf a.v vn dv) ∧
        s3.model = r2.2 ∧ s3.ticks = st.ticks ∧
        s3.recT2 = some r2.1 ∧ s3.u2 = some un ∧ s3.v2 = some vn ∧
        s3.dyn = { st.dyn with
          hr := st.dyn.hr ++ [x], mrr := st.dyn.mrr ++ [m],
          wji := st.dyn.wji ++ [w], rndUsers := st.dyn.rndUsers ++ [du],
          rndItems := st.dyn.rndItems ++ [dv] } by
      obtain ⟨r2, w, du, dv, q1, q2, q3, q4, q5, q6, q7, q8, q9, q10⟩ := H
      subst hlast
      rw [q5] at n1 n2
      refine ⟨⟨x, m, r2.1, un, vn, M.nItems r2.2⟩, ?_⟩
      refine ⟨Watched.step inv.watched ⟨r.1, r.2, e1, e2, e3, q1, n1, n2, rfl⟩ hret ?_, hconc, ?_, ?_, ?_, ?_⟩
      · show updateStep M cfg r2.2 conc c = .ok s
        rw [← h5]
        show _ = updateStep M cfg s3.model conc c
        rw [q5]
      · obtain ⟨a1, a2, a3, a4, a5, a6, a7, a8⟩ := inv.records
        refine ⟨?_, ?_, ?_, ?_, ?_, ?_, ?_, ?_⟩
        · show s3.dyn.hr = _
          rw [q10, List.map_append, ← a1]; rfl
        · show s3.dyn.mrr = _
          rw [q10, List.map_append, ← a2]; rfl
        · show s3.dyn.ndUsers ++ [cfg.normOf un] = _
          rw [q10, List.map_append, ← a3]; rfl
        · show s3.dyn.ndItems ++ [cfg.normOf vn] = _
          rw [q10, List.map_append, ← a4]; rfl
        · show Neighbours _ _ s3.dyn.wji
          rw [q10]; exact a5.snoc hn ha q2
        · show Neighbours _ _ s3.dyn.rndUsers
          rw [q10]; exact a6.snoc hn ha q3
        · show Neighbours _ _ s3.dyn.rndItems
          rw [q10]; exact a7.snoc hn ha q4
        · show s3.dyn.times ++ [cfg.clock (s3.ticks + 1) - cfg.clock s3.ticks] = _
          rw [q10, q6]
          show st.dyn.times ++ _ = _
          rw [a8, inv.ticks, List.length_append, List.length_singleton,
            List.range_succ (n := snaps.length + 1), List.map_append]
          rfl
      · show s3.ticks + 2 = _
        rw [q6, inv.ticks, List.length_append, List.length_singleton]; omega
      · intro b hb
        have := congrArg List.length hb
        rw [List.length_append, List.length_singleton, List.length_singleton] at this
        omega
      · intro k b hk hb
        rw [List.length_append, List.length_singleton] at hk
        rw [List.getElem?_append_right (by omega), show k + 1 - snaps.length = 0 by omega] at hb
        simp only [List.getElem?_cons_zero, Option.some.injEq] at hb
        subst hb
        exact ⟨q7, q8, q9⟩
    by_cases hi2 : snaps.length + 1 = 2
    · rw [if_pos hi2] at h2 h3
      have hn0 : n = 0 := by omega
      subst hn0
      have hs : snaps = [a] := by
        obtain ⟨b, rfl⟩ := List.length_eq_one_iff.1 hn
        simp only [List.getElem?_cons_zero, Option.some.injEq] at ha
        rw [ha]
      obtain ⟨o1, o2, o3⟩ := inv.one a hs
      obtain ⟨r2, k1, h2⟩ := (bind_ok_iff _ _ _).1 h2
      obtain ⟨r1, k2, h2⟩ := (bind_ok_iff _ _ _).1 h2
      obtain ⟨w, k3, h2⟩ := (bind_ok_iff _ _ _).1 h2
      have h2 := Except.ok.inj h2
      subst h2
      obtain ⟨u, y1, h3⟩ := (bind_ok_iff _ _ _).1 h3
      obtain ⟨v, y2, h3⟩ := (bind_ok_iff _ _ _).1 h3
      obtain ⟨u1, l1, h3⟩ := (bind_ok_iff _ _ _).1 h3
      obtain ⟨u1', l2, h3⟩ := (bind_ok_iff _ _ _).1 h3
      obtain ⟨v1, l3, h3⟩ := (bind_ok_iff _ _ _).1 h3
      obtain ⟨v1', l4, h3⟩ := (bind_ok_iff _ _ _).1 h3
      obtain ⟨du, l5, h3⟩ := (bind_ok_iff _ _ _).1 h3
      obtain ⟨dv, l6, h3⟩ := (bind_ok_iff _ _ _).1 h3
      have h3 := Except.ok.inj h3
      subst h3
      have eu : un = u := Except.ok.inj (n1.symm.trans y1)
      have ev : vn = v := Except.ok.inj (n2.symm.trans y2)
      subst eu
      subst ev
      have t1 := bound_some o1 k2
      subst t1
      have t2 := bound_some o2 l1
      subst t2
      have t3 := bound_some o3 l3
      subst t3
      refine ⟨r2, w, du, dv, k1, k3, driftOf_recorded l2 l5, ?_, rfl, rfl, rfl, rfl, rfl, rfl⟩
      rw [if_neg (by omega)]
      exact driftOf_recorded l4 l6
    · rw [if_neg hi2] at h2 h3
      obtain ⟨n, rfl⟩ : ∃ k, n = k + 1 := ⟨n - 1, by omega⟩
      obtain ⟨o1, o2, o3⟩ := inv.more n a (by omega) ha
      obtain ⟨r1, k2, h2⟩ := (bind_ok_iff _ _ _).1 h2
      obtain ⟨r2, k1, h2⟩ := (bind_ok_iff _ _ _).1 h2
      obtain ⟨w, k3, h2⟩ := (bind_ok_iff _ _ _).1 h2
      have h2 := Except.ok.inj h2
      subst h2
      obtain ⟨u1, l1, h3⟩ := (bind_ok_iff _ _ _).1 h3
      obtain ⟨v1, l3, h3⟩ := (bind_ok_iff _ _ _).1 h3
      obtain ⟨u, y1, h3⟩ := (bind_ok_iff _ _ _).1 h3
      obtain ⟨v, y2, h3⟩ := (bind_ok_iff _ _ _).1 h3
      obtain ⟨u1', l2, h3⟩ := (bind_ok_iff _ _ _).1 h3
      obtain ⟨du, l5, h3⟩ := (bind_ok_iff _ _ _).1 h3
      obtain ⟨v1', l4, h3⟩ := (bind_ok_iff _ _ _).1 h3
      obtain ⟨dv, l6, h3⟩ := (bind_ok_iff _ _ _).1 h3
      have h3 := Except.ok.inj h3
      subst h3
      have eu : un = u := Except.ok.inj (n1.symm.trans y1)
      have ev : vn = v := Except.ok.inj (n2.symm.trans y2)
      subst eu
      subst ev
      have t1 := bound_some o1 k2
      subst t1
      have t2 := bound_some o2 l1
      subst t2
      have t3 := bound_some o3 l3
      subst t3
      refine ⟨r2, w, du, dv, k1, k3, driftOf_recorded l2 l5, ?_, rfl, rfl, rfl, rfl, rfl, rfl⟩
      unfold itemDriftLater at l6
      have l4' := l4
      unfold padTo at l4
      by_cases hsm : vn.rows < a.v.rows
      · rw [if_pos ⟨by omega, hsm⟩]
        rw [if_neg (by show ¬ vn.rows > a.v.rows; omega)] at l4
        have l4 := Except.ok.inj l4
        subst l4
        rw [if_pos hsm] at l6
        exact (Except.ok.inj l6).symm
      · rw [if_neg (by tauto)]
        have hnot : ¬ vn.rows < v1'.rows := by
          by_cases hp : vn.rows > a.v.rows
          · rw [if_pos hp] at l4
            split at l4
            · have l4 := Except.ok.inj l4
              subst l4
              show ¬ vn.rows < vn.rows
              omega
            · split at l4 <;> cases l4
          · rw [if_neg hp] at l4
            have l4 := Except.ok.inj l4
            subst l4
            exact hsm
        rw [if_neg hnot] at l6
        exact driftOf_recorded l4' l6

theorem expLoop_inv {s0 : σ} {initial : Tab K} (stream : List (List (Row K)))
    (past : List (List (Row K))) (snaps : List (Snap K)) (st st' : ExpState K σ)
    (inv : ExpInv M cfg s0 initial past snaps st)
    (h : expLoop M cfg (snaps.length + 1) stream st = .ok st') :
    ∃ snaps', ExpInv M cfg s0 initial (past ++ stream.take
        (if ((snaps.length + 1 : ℕ) : ℤ) ≤ cfg.howMany
          then min (cfg.howMany - (snaps.length + 1 : ℕ) + 1).toNat stream.length
          else stream.length)) snaps' st' := by
  induction stream generalizing past snaps st with
  | nil =>
    have h := Except.ok.inj h
    subst h
    exact ⟨snaps, by simpa using inv⟩
  | cons c cs ih =>
    unfold expLoop at h
    obtain ⟨s1, h1, h⟩ := (bind_ok_iff _ _ _).1 h
    obtain ⟨snap, inv'⟩ := expStep_inv M cfg inv h1
    split at h
    · rename_i hb
      have h := Except.ok.inj h
      subst h
      refine ⟨snaps ++ [snap], ?_⟩
      rw [if_pos (by omega)]
      have : min (cfg.howMany - (snaps.length + 1 : ℕ) + 1).toNat (c :: cs).length = 1 := by
        simp only [List.length_cons]; omega
      rw [this]
      simpa using inv'
    · rename_i hb
      obtain ⟨snaps', inv''⟩ := ih (past ++ [c]) (snaps ++ [snap]) s1 inv' (by
        rw [List.length_append, List.length_singleton]
        exact h)
      refine ⟨snaps', ?_⟩
      convert inv'' using 1
      rw [List.append_assoc]
      congr 1
      simp only [List.length_cons, List.singleton_append, List.length_append, List.length_nil]
      split
      · rw [if_pos (by push_cast at *; omega)]
        have e : min (cfg.howMany - (snaps.length + 1 : ℕ) + 1).toNat (cs.length + 1) =
            min (cfg.howMany - ((snaps.length + (0 + 1) + 1 : ℕ) : ℤ) + 1).toNat cs.length + 1 := by
          push_cast at *; omega
        rw [e, List.take_succ_cons]
      · rw [if_neg (by push_cast at *; omega)]
        rw [List.take_succ_cons]

/-- **C92** The lists recorded by a completed experiment are exactly: the scores and norms of the
models that meet the chunks, in order; the similarity of the recommendations of *consecutive*
models with the item count of the newer one; the drift between consecutive models (-1 for a
shrinking item matrix from the third step on); and the durations of the trainings. -/
theorem C92_records (s0 : σ) (initial : Tab K) (stream : List (List (Row K)))
    (st : ExpState K σ) (h : dynamicalExperiment M cfg s0 initial stream = .ok st) :
    ∃ snaps, Watched M cfg s0 initial (stream.take (expSteps cfg.howMany stream.length)) snaps
        st.model ∧ Records cfg snaps st.dyn := by
  unfold dynamicalExperiment expInit at h
  obtain ⟨s1, h1, h⟩ := (bind_ok_iff _ _ _).1 h
  obtain ⟨s, h2, h1⟩ := (bind_ok_iff _ _ _).1 h1
  have h1 := Except.ok.inj h1
  subst h1
  have inv0 : ExpInv M cfg s0 initial [] [] (⟨s, initial, 2,
      { times := [cfg.clock 1 - cfg.clock 0] }, none, none, none, none, none, none⟩ :
        ExpState K σ) := by
    refine ⟨Watched.train h2, ?_, ?_, rfl, ?_, ?_⟩
    · unfold ConcIs
      split
      · trivial
      · split <;> exact Or.inl ⟨rfl, rfl⟩
    · exact ⟨rfl, rfl, rfl, rfl, Neighbours.nil _, Neighbours.nil _, Neighbours.nil _, rfl⟩
    · intro a ha
      cases ha
    · intro n a ha
      simp at ha
  obtain ⟨snaps, inv⟩ := expLoop_inv M cfg stream [] [] _ st inv0 h
  refine ⟨snaps, ?_, inv.records⟩
  have := inv.watched
  simp only [List.nil_append, List.length_nil, Nat.zero_add, Nat.cast_one, sub_add_cancel] at this
  exact this

theorem watched_length {s0 : σ} {initial : Tab K} {past : List (List (Row K))}
    {snaps : List (Snap K)} {s : σ} (h : Watched M cfg s0 initial past snaps s) :
    snaps.length = past.length := by
  induction h with
  | train _ => rfl
  | step _ _ _ _ ih => simp [ih]

/-! ### A concrete run -/

/-- `exRec` with embeddings and internal recommendations that depend on the state. -/
def exRecV : RecModel ℚ (List (Row ℚ)) Unit :=
  { exRec with
    getU := fun s => .ok ⟨(pdUnique (s.map Row.user)).length, 1, fun i _ => (i : ℚ) + s.length⟩
    getV := fun s => .ok ⟨(pdUnique (s.map Row.item)).length, 1, fun i _ => (i : ℚ) + 2 * s.length⟩
    recommend := fun s us k b => .ok (us.map fun _ =>
      let items := pdUnique (s.map Row.item)
      let ks := List.range (min k items.length)
      if b then ks.map (fun i : ℕ => ((i + s.length : ℕ) % 3 : ℤ)) else items.take k, s) }

def exShrink : List (List (Row ℚ)) :=
  [[⟨1, 11, 1, 2, 1⟩, ⟨3, 12, 1, 3, 1⟩, ⟨3, 13, 1, 3, 1⟩],
    [⟨1, 12, 1, 4, 2⟩, ⟨1, 11, 1, 5, 2⟩, ⟨4, 11, 1, 5, 2⟩],
    [⟨1, 10, 1, 6, 3⟩, ⟨1, 12, 1, 6, 3⟩]]

/-- Retraining on every chunk alone: the item matrix grows from 2 to 3 rows, then shrinks to 2,
which is recorded as -1. -/
example : exDyn (dynamicalExperiment exRecV
      ⟨[1], 2, 2, 0, true, true, false, exExpNorm, fun n => (n : ℚ) * n⟩ []
      (.plain exInitRows) exShrink) =
    .ok ([[1, 5, 9, 13], [1, 1, 1], [1 / 2, 1 / 2, 1], [1 / 5, 1], [13, 25, 25], [41, 149, 85]],
      [[.fin (13 / 2), .inf], [.fin (41 / 72), .fin (-1)]]) := by decide +kernel

/-- The drift recorded between a 1-row and a 2-row matrix. -/
example : DriftRecorded exExpNorm ⟨1, 1, fun _ _ => 3⟩ ⟨2, 1, fun i _ => (i : ℚ) + 4⟩
    (.fin (9 / 26)) := by
  refine ⟨rfl, by decide, ?_⟩
  decide +kernel

end DynCF
