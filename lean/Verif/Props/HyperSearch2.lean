/- Properties C90, C91: what the scores of the hyper-parameter search stand for. -/
import Verif.Props.HyperSearch
import Verif.Props.Hooi
import Verif.Props.Hooi2
import Verif.Props.RandomGrid
import Verif.Lemmas.Selection

namespace DynCF
variable {K : Type}

/-! ### C90 -/

/-- a loop that is never stopped performs all its sweeps -/
theorem hooiLoop_forced {σ τ : Type} (sweep : ℕ → σ → PyM σ) (stop : σ → τ → PyM (Bool × τ))
    (S : ℕ → σ) (t : τ) (n i : ℕ) (hsw : ∀ j, i ≤ j → j < i + n → sweep j (S j) = .ok (S (j + 1)))
    (hst : ∀ j, i ≤ j → j < i + n → stop (S (j + 1)) t = .ok (false, t)) :
    hooiLoop sweep stop n i (S i) t = .ok (S (i + n), t) := by
  induction n generalizing i with
  | zero => rfl
  | succ n ih =>
    unfold hooiLoop
    rw [hsw i (le_refl _) (by omega), except_bind_ok, hst i (le_refl _) (by omega), except_bind_ok]
    simp only [Bool.false_eq_true, if_false]
    rw [ih (i + 1) (fun j h1 h2 => hsw j (by omega) (by omega))
      (fun j h1 h2 => hst j (by omega) (by omega)), show i + 1 + n = i + (n + 1) by omega]

/-- `ga_satf` forced to `j` sweeps follows the same sweeps as any other run -/
theorem gaSatf_forced [Field K] [LinearOrder K] (p : HooiPar K)
    (normOf : Ten K → K) (inds : List Ind3) (vals : List K) (shape : ℕ × ℕ × ℕ) (att : Mat K)
    (tol : K) (init : Option (Fac K)) (k j : ℕ) (hj : j ≤ k) (F : ℕ → Fac K) (G : ℕ → Ten K)
    (hc : checkParams (tri shape) (triZ p.rank) = .ok ())
    (h0 : placeInit (initFactors p.la p.initRng shape p.rank true) init = .ok (F 0))
    (hrun : SweepRun (gaSatfSweep p inds vals shape att) k F G) :
    gaSatf p normOf inds vals shape att j tol (none : Option (ExitCallback K Unit)) () init true =
      .ok ((F j, if j = 0 then none else some (G j)), ()) := by
  unfold gaSatf
  rw [hc, except_bind_ok, h0, except_bind_ok]
  have := hooiLoop_forced (onState (gaSatfSweep p inds vals shape att))
    (stopOn (gaSatfStop normOf tol true (none : Option (ExitCallback K Unit))))
    (fun j => (F j, if j = 0 then none else some (G j))) ((0 : K), ()) j 0
    (by
      intro i _ hi
      unfold onState
      dsimp only
      rw [hrun i (by omega), except_bind_ok, if_neg (by omega)]
      rfl)
    (by
      intro i _ hi
      unfold stopOn gaSatfStop
      dsimp only
      rw [if_neg (by omega)]
      rfl)
  simp only [if_true, Nat.zero_add] at this
  rw [this]
  rfl

theorem gaSatf_checked [Field K] [LinearOrder K] {τ : Type} {p : HooiPar K}
    {normOf : Ten K → K} {inds : List Ind3} {vals : List K} {shape : ℕ × ℕ × ℕ} {att : Mat K}
    {nIter : ℕ} {tol : K} {cb : Option (ExitCallback K τ)} {cb0 : τ} {init : Option (Fac K)}
    {force : Bool} {r : HooiState K × τ}
    (h : gaSatf p normOf inds vals shape att nIter tol cb cb0 init force = .ok r) :
    checkParams (tri shape) (triZ p.rank) = .ok () := by
  unfold gaSatf at h
  rw [bind_ok_iff] at h
  obtain ⟨_, h, -⟩ := h
  exact h

/-- the recorded scores of a run of the callback -/
theorem callback_scores [LinearOrder K] [Zero K] (score : Fac K → Ten K → PyM K) (relax : ℤ)
    (k : ℕ) (F : ℕ → Fac K) (G : ℕ → Ten K) (y : ℕ → CbState K) (b : ℕ → Bool)
    (h0 : y 0 = cbStart)
    (hc : ∀ j < k, exitCallback score relax (y j) (F (j + 1)) (G (j + 1)) = .ok (b (j + 1), y (j + 1)))
    (hb : ∀ j, 1 ≤ j → j < k → b j = false) :
    (∀ j (x : K), (y k).metricList[j]? = some x → j < k ∧ score (F (j + 1)) (G (j + 1)) = .ok x) ∧
    (y k).metricList.length = (if 1 ≤ k ∧ b k = true then k - 1 else k) := by
  have hstep : ∀ j < k, ∃ x, score (F (j + 1)) (G (j + 1)) = .ok x ∧
      cbStep relax (y j) x = (b (j + 1), y (j + 1)) := by
    intro j hj
    have := hc j hj
    unfold exitCallback at this
    rw [bind_ok_iff] at this
    obtain ⟨x, hx, hy⟩ := this
    exact ⟨x, hx, by simpa [pure, Except.pure] using hy⟩
  have hall : ∀ m, m ≤ k → (∀ j, 1 ≤ j → j ≤ m → b j = false) →
      (y m).metricList.length = m ∧
        ∀ j (x : K), (y m).metricList[j]? = some x → score (F (j + 1)) (G (j + 1)) = .ok x := by
    intro m
    induction m with
    | zero => intro _ _; rw [h0]; simp [cbStart]
    | succ m ih =>
      intro hm hbm
      obtain ⟨h1, h2⟩ := ih (by omega) (fun j ha hb => hbm j ha (by omega))
      obtain ⟨x, hx, hy⟩ := hstep m (by omega)
      have hml : (y (m + 1)).metricList = (y m).metricList ++ [x] := by
        have hf := hbm (m + 1) (by omega) (le_refl _)
        rw [hf] at hy
        by_cases hlt : (y m).maxMetric < x
        · rw [cbStep_up _ _ _ hlt] at hy
          rw [← (Prod.mk.inj hy).2]
        · by_cases hn : (y m).nIter > relax
          · rw [cbStep_stop _ _ _ hlt hn] at hy
            simp at hy
          · rw [cbStep_wait _ _ _ hlt hn] at hy
            rw [← (Prod.mk.inj hy).2]
      rw [hml]
      refine ⟨by simp [h1], ?_⟩
      intro j z hz
      rw [List.getElem?_append] at hz
      split at hz
      · exact h2 j z hz
      · rename_i hge
        rw [h1] at hz hge
        have hj : j = m := by
          by_contra hne
          rw [List.getElem?_eq_none (by simp; omega)] at hz
          cases hz
        subst hj
        simp only [Nat.sub_self, List.getElem?_cons_zero, Option.some.injEq] at hz
        rw [← hz]; exact hx
  by_cases hs : 1 ≤ k ∧ b k = true
  · rw [if_pos hs]
    obtain ⟨m, rfl⟩ : ∃ m, k = m + 1 := ⟨k - 1, by omega⟩
    obtain ⟨h1, h2⟩ := hall m (by omega) (fun j ha hb' => hb j ha (by omega))
    obtain ⟨x, hx, hy⟩ := hstep m (by omega)
    rw [hs.2] at hy
    have hml : y (m + 1) = y m := by
      by_cases hlt : (y m).maxMetric < x
      · rw [cbStep_up _ _ _ hlt] at hy
        simp at hy
      · by_cases hn : (y m).nIter > relax
        · rw [cbStep_stop _ _ _ hlt hn] at hy
          exact (Prod.mk.inj hy).2.symm
        · rw [cbStep_wait _ _ _ hlt hn] at hy
          simp at hy
    rw [hml]
    refine ⟨?_, by rw [h1]; omega⟩
    intro j z hz
    have hlen : j < (y m).metricList.length := by
      by_contra hge
      rw [List.getElem?_eq_none (by omega)] at hz
      cases hz
    exact ⟨by omega, h2 j z hz⟩
  · rw [if_neg hs]
    obtain ⟨h1, h2⟩ := hall k (le_refl _) (fun j ha hb' => by
      rcases Nat.lt_or_ge j k with h | h
      · exact hb j ha h
      · have : j = k := by omega
        subst this
        cases hbj : b j with
        | false => rfl
        | true => exact absurd ⟨ha, hbj⟩ hs)
    refine ⟨?_, h1⟩
    intro j z hz
    have hlen : j < (y k).metricList.length := by
      by_contra hge
      rw [List.getElem?_eq_none (by omega)] at hz
      cases hz
    exact ⟨by omega, h2 j z hz⟩

/-- **C90**: a score recorded by the search at position `j` (reported as `n_iter = j + 1`) is the
validation metric of a fresh model of the same configuration that is trained on the same table with
exactly `j + 1` sweeps, without callback. The search records at most `n_iter` scores. -/
theorem C90_scores [Field K] [LinearOrder K] (argp : ArgPart K)
    (metric : List (List ℤ) → List ℤ → PyM K) (valid : List (Row K)) (topk : ℕ) (relax : ℤ)
    (c : TDCfg K) (hforce : c.force = false) (train : List (PRow K)) (s : TDState K)
    (scores : List K)
    (h : tdSearchTrain argp metric valid topk relax c train = .ok (s, scores)) :
    scores.length ≤ c.nIter ∧
    ∀ j (x : K), scores[j]? = some x → ∃ (m : TDAtt K) (s' : TDState K),
      tdInit { c with nIter := j + 1, force := true } = .ok m ∧
      tdTrain { c with nIter := j + 1, force := true } m (none : Option (ExitCallback K Unit)) () []
        train = .ok s' ∧
      tdMetric argp metric valid topk s' = .ok x := by
  unfold tdSearchTrain at h
  rw [bind_ok_iff] at h
  obtain ⟨m, hm, h⟩ := h
  rw [bind_ok_iff] at h
  obtain ⟨r, hr, h⟩ := h
  rw [bind_ok_iff] at h
  obtain ⟨t, ht, h⟩ := h
  rw [bind_ok_iff] at h
  obtain ⟨⟨⟨f, g⟩, cbEnd⟩, hg, h⟩ := h
  rw [bind_ok_iff] at h
  obtain ⟨s0, -, h⟩ := h
  simp only [pure, Except.pure, Except.ok.injEq, Prod.mk.injEq] at h
  obtain ⟨-, rfl⟩ := h
  have hchk := gaSatf_checked hg
  obtain ⟨k, F, G, hk, h0, hsweep, -, -, -, -, hcb⟩ := C61_ga_satf_run _ _ _ _ _ _ _ _ _ _ _ _ _ _ _ hg
  obtain ⟨y, b, hy0, hyk, hcall, hbf, -⟩ := hcb _ hforce rfl
  obtain ⟨hsc, hlen⟩ := callback_scores _ relax k F G y b hy0 hcall hbf
  rw [hyk] at hsc hlen
  constructor
  · rw [hlen]
    split <;> omega
  intro j x hx
  obtain ⟨hjk, hscore⟩ := hsc j x hx
  unfold tdScore at hscore
  rw [bind_ok_iff] at hscore
  obtain ⟨s1, hs1, hmet⟩ := hscore
  refine ⟨m, s1, hm, ?_, hmet⟩
  unfold tdTrain
  rw [hr, except_bind_ok]
  unfold tdFit
  rw [ht, except_bind_ok]
  have hf := gaSatf_forced c.hooi c.normOf (t.inds.map Inter.ind) t.vals t.shape m.att c.growthTol
    none k (j + 1) (by omega) F G hchk h0 hsweep
  rw [if_neg (by omega)] at hf
  dsimp only
  rw [hf, except_bind_ok]
  exact hs1

/-! ### C91 -/

section tables
variable {α : Type} [DecidableEq α]

/-- **C91, SVD**: if the search returns a table, it has exactly one row for each combination of the
listed parameter values, and the row holds the score of that combination; if the training or the
metric of a combination raises, the search raises. -/
theorem C91_svd (order : Finset (List α) → List (List α))
    (horder : ∀ s, (order s).Nodup ∧ ∀ c, c ∈ order s ↔ c ∈ s)
    (params : List (String × List α)) (hp : params ≠ []) (score : List α → PyM K) :
    (∀ table, hparamsGridSvd order params score = .ok table →
      (table.map Prod.fst).Nodup ∧
      (∀ c x, (c, x) ∈ table ↔ IsConfig (params.map Prod.snd) c ∧ score c = .ok x) ∧
      ∀ c, IsConfig (params.map Prod.snd) c → ∃ x, (c, x) ∈ table) ∧
    ((∃ table, hparamsGridSvd order params score = .ok table) ↔
      ∀ c, IsConfig (params.map Prod.snd) c → ∃ x, score c = .ok x) := by
  obtain ⟨grid, hgrid, hmem⟩ := (C73_full_grid params).1 hp
  have hrun : hparamsGridSvd order params score = (order grid).mapM
      (fun c => (do let s ← score c; pure (c, s) : PyM (List α × K))) := by
    unfold hparamsGridSvd
    rw [hgrid]; rfl
  rw [hrun]
  have hconf : ∀ c, c ∈ order grid ↔ IsConfig (params.map Prod.snd) c := fun c =>
    ((horder grid).2 c).trans (hmem c)
  have hone : ∀ (c : List α) (r : List α × K), (do let s ← score c; pure (c, s) : PyM (List α × K)) = .ok r ↔
      r.1 = c ∧ score c = .ok r.2 := by
    intro c r
    rw [bind_ok_iff]
    constructor
    · rintro ⟨s, hs, h⟩
      simp only [pure, Except.pure, Except.ok.injEq] at h
      subst h
      exact ⟨rfl, hs⟩
    · rintro ⟨h1, h2⟩
      exact ⟨r.2, h2, by rw [← h1]; rfl⟩
  constructor
  · intro table ht
    rw [mapM_ok_iff] at ht
    have hkeys : table.map Prod.fst = order grid := by
      clear hrun hconf
      revert ht
      generalize order grid = l
      intro ht
      induction ht with
      | nil => rfl
      | cons h _ ih => rw [List.map_cons, ih, ((hone _ _).1 h).1]
    refine ⟨by rw [hkeys]; exact (horder grid).1, ?_, ?_⟩
    · intro c x
      constructor
      · intro h
        obtain ⟨c', hc', h'⟩ := forall₂_mem_right ht h
        obtain ⟨h1, h2⟩ := (hone _ _).1 h'
        dsimp only at h1 h2
        subst h1
        exact ⟨(hconf _).1 hc', h2⟩
      · rintro ⟨hc, hx⟩
        obtain ⟨r, hr, h'⟩ := forall₂_mem_left ht ((hconf c).2 hc)
        obtain ⟨h1, h2⟩ := (hone _ _).1 h'
        rw [hx] at h2
        rw [← h1, Except.ok.inj h2]
        exact hr
    · intro c hc
      obtain ⟨r, hr, h'⟩ := forall₂_mem_left ht ((hconf c).2 hc)
      exact ⟨r.2, by rw [← ((hone _ _).1 h').1]; exact hr⟩
  · constructor
    · rintro ⟨table, ht⟩ c hc
      rw [mapM_ok_iff] at ht
      obtain ⟨r, hr, h'⟩ := forall₂_mem_left ht ((hconf c).2 hc)
      exact ⟨r.2, ((hone _ _).1 h').2⟩
    · intro hall
      have : ∀ l : List (List α), (∀ c ∈ l, ∃ x, score c = .ok x) →
          ∃ table, l.mapM (fun c => (do let s ← score c; pure (c, s) : PyM (List α × K))) = .ok table := by
        intro l
        induction l with
        | nil => intro _; exact ⟨[], rfl⟩
        | cons c l ih =>
          intro hl
          obtain ⟨x, hx⟩ := hl c (by simp)
          obtain ⟨t, ht⟩ := ih fun c hc => hl c (by simp [hc])
          exact ⟨(c, x) :: t, by rw [List.mapM_cons, hx, ht]; rfl⟩
      exact this _ fun c hc => hall c ((hconf c).1 hc)

/-- **C91, tensor**: the table has, for each combination, one row for every recorded score, numbered
from 1 in the order of recording. -/
theorem C91_tdrec (order : Finset (List α) → List (List α))
    (horder : ∀ s, (order s).Nodup ∧ ∀ c, c ∈ order s ↔ c ∈ s)
    (params : List (String × List α)) (hp : params ≠ []) (scores : List α → PyM (List K))
    (table : List (List α × ℕ × K)) (h : hparamsGridTdrec order params scores = .ok table) :
    (table.map fun r => (r.1, r.2.1)).Nodup ∧
    (∀ c (n : ℕ) (x : K), (c, n, x) ∈ table ↔ IsConfig (params.map Prod.snd) c ∧ 1 ≤ n ∧
      ∃ l, scores c = .ok l ∧ l[n - 1]? = some x) ∧
    ∀ c, IsConfig (params.map Prod.snd) c → ∃ l, scores c = .ok l := by
  obtain ⟨grid, hgrid, hmem⟩ := (C73_full_grid params).1 hp
  unfold hparamsGridTdrec at h
  rw [hgrid, except_bind_ok, bind_ok_iff] at h
  obtain ⟨ls, hls, h⟩ := h
  simp only [pure, Except.pure, Except.ok.injEq] at h
  subst h
  rw [mapM_ok_iff] at hls
  have hconf : ∀ c, c ∈ order grid ↔ IsConfig (params.map Prod.snd) c := fun c =>
    ((horder grid).2 c).trans (hmem c)
  have hone : ∀ (c : List α) (r : List (List α × ℕ × K)),
      (do let s ← scores c; pure (s.mapIdx fun j x => (c, j + 1, x)) : PyM _) = .ok r ↔
      ∃ l, scores c = .ok l ∧ r = l.mapIdx fun j x => (c, j + 1, x) := by
    intro c r
    rw [bind_ok_iff]
    constructor
    · rintro ⟨s, hs, h⟩
      exact ⟨s, hs, (Except.ok.inj h).symm⟩
    · rintro ⟨s, hs, rfl⟩
      exact ⟨s, hs, rfl⟩
  have hmemIdx : ∀ (c c' : List α) (l : List K) (n : ℕ) (x : K),
      (c', n, x) ∈ l.mapIdx (fun j x => (c, j + 1, x)) ↔ c' = c ∧ 1 ≤ n ∧ l[n - 1]? = some x := by
    intro c c' l n x
    rw [List.mem_mapIdx]
    constructor
    · rintro ⟨i, hi, heq⟩
      simp only [Prod.mk.injEq] at heq
      obtain ⟨h1, h2, h3⟩ := heq
      refine ⟨h1.symm, by omega, ?_⟩
      rw [← h2, Nat.add_sub_cancel, List.getElem?_eq_getElem hi, h3]
    · rintro ⟨rfl, hn, hx⟩
      obtain ⟨hi, hx'⟩ := List.getElem?_eq_some_iff.1 hx
      exact ⟨n - 1, hi, by rw [hx', Nat.sub_add_cancel hn]⟩
  refine ⟨?_, ?_, ?_⟩
  · have hnd := (horder grid).1
    clear hconf
    revert hls hnd
    generalize order grid = l
    intro hls
    induction hls with
    | nil => intro _; exact List.nodup_nil
    | @cons c r cs rs hc hrest ih =>
      intro hnd
      rw [List.nodup_cons] at hnd
      obtain ⟨lc, -, rfl⟩ := (hone _ _).1 hc
      rw [List.flatten_cons, List.map_append, List.nodup_append']
      refine ⟨?_, ih hnd.2, ?_⟩
      · rw [List.nodup_iff_injective_getElem]
        rintro ⟨a, ha⟩ ⟨b, hb⟩ hab
        simp only [List.getElem_map, List.getElem_mapIdx, Prod.mk.injEq, true_and] at hab
        ext
        show a = b
        omega
      · intro z hz1 hz2
        obtain ⟨⟨c1, n1, x1⟩, hm1, rfl⟩ := List.mem_map.1 hz1
        obtain ⟨⟨c2, n2, x2⟩, hm2, heq⟩ := List.mem_map.1 hz2
        obtain ⟨rr, hrr, hin⟩ := List.mem_flatten.1 hm2
        obtain ⟨c', hc', hcc⟩ := forall₂_mem_right hrest hrr
        obtain ⟨l', -, rfl⟩ := (hone _ _).1 hcc
        have e1 := ((hmemIdx _ _ _ _ _).1 hm1).1
        have e2 := ((hmemIdx _ _ _ _ _).1 hin).1
        simp only [Prod.mk.injEq] at heq
        exact hnd.1 (by rw [← e1, ← heq.1, e2]; exact hc')
  · intro c n x
    rw [List.mem_flatten]
    constructor
    · rintro ⟨r, hr, hx⟩
      obtain ⟨c', hc', h'⟩ := forall₂_mem_right hls hr
      obtain ⟨l, hl, rfl⟩ := (hone _ _).1 h'
      obtain ⟨rfl, h1, h2⟩ := (hmemIdx _ _ _ _ _).1 hx
      exact ⟨(hconf _).1 hc', h1, l, hl, h2⟩
    · rintro ⟨hc, h1, l, hl, h2⟩
      obtain ⟨r, hr, h'⟩ := forall₂_mem_left hls ((hconf c).2 hc)
      obtain ⟨l', hl', rfl⟩ := (hone _ _).1 h'
      rw [hl] at hl'
      cases hl'
      exact ⟨_, hr, (hmemIdx _ _ _ _ _).2 ⟨rfl, h1, h2⟩⟩
  · intro c hc
    obtain ⟨r, -, h'⟩ := forall₂_mem_left hls ((hconf c).2 hc)
    obtain ⟨l, hl, -⟩ := (hone _ _).1 h'
    exact ⟨l, hl⟩

end tables

/-! ### examples -/

/-- identity attention, at most three sweeps -/
def exSearchCfg : TDCfg ℚ := ⟨exPar, exNorm, 2, none, 3, 1/100, false⟩
/-- `argpartition` of the example: the places in increasing order of value -/
def exSearchArgp : ArgPart ℚ := fun a _ =>
  stableSort (fun i j => decide (a.getD i 0 ≤ a.getD j 0)) (List.range a.length)
/-- users 7 and 8 and items 40, 30, 50 -/
def exSearchTrain : List (PRow ℚ) :=
  [⟨⟨7, 40, 1, 1, 0⟩, 0⟩, ⟨⟨7, 30, 1, 2, 0⟩, 1⟩, ⟨⟨8, 30, 1, 1, 0⟩, 0⟩, ⟨⟨8, 50, 1, 2, 0⟩, 1⟩]
/-- the share of hits in one recommendation -/
def exHits (recs : List (List ℤ)) (items : List ℤ) : PyM ℚ :=
  .ok (((recs.zip items).filter fun p => p.2 ∈ p.1).length / items.length)

-- without patience the second sweep (no improvement) stops the training; with patience all three
-- sweeps are recorded
example : (tdSearchTrain exSearchArgp exHits [⟨7, 50, 1, 3, 1⟩, ⟨8, 40, 1, 3, 1⟩] 1 0 exSearchCfg
    exSearchTrain).map Prod.snd = .ok [1] := by decide +kernel
example : (tdSearchTrain exSearchArgp exHits [⟨7, 50, 1, 3, 1⟩, ⟨8, 40, 1, 3, 1⟩] 1 3 exSearchCfg
    exSearchTrain).map Prod.snd = .ok [1, 1, 1] := by decide +kernel
example : hparamsGridSvd (fun s => if s = {[1], [2]} then [[2], [1]] else []) [("rank", [1, 2])]
    (fun c => .ok (c.sum : ℤ)) = .ok [([2], 2), ([1], 1)] := by decide
example : hparamsGridTdrec (fun s => if s = {[1], [2]} then [[2], [1]] else []) [("rank", [1, 2])]
    (fun c => .ok (c ++ [0] : List ℤ)) = .ok [([2], 1, 2), ([2], 2, 0), ([1], 1, 1), ([1], 2, 0)] := by
  decide
example : hparamsGridSvd (fun s => if s = {[1], [2]} then [[2], [1]] else []) [("rank", [1, 2])]
    (fun c => if c = [1] then .error .valueError else .ok (c.sum : ℤ)) = .error .valueError := by decide

end DynCF
