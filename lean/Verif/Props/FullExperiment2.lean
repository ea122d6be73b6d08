/-
Properties C94, C96 and C97: whether the retrained recommenders of the experiment are freshly trained
ones, whether every offered recommender completes it, and whether the selected parameters are used.
-/
import Verif.Props.FullExperiment
import Verif.Props.TDRec
import Verif.Props.HyperSearch

set_option linter.unusedSectionVars false

namespace DynCF
variable {K : Type} [Field K] [LinearOrder K]

/-! ### C94 -/

/-- The recommender is one freshly trained on the cropped table of all rows so far. -/
def FreshTd (argp : ArgPart K) (L : ℕ) (c : TDCfg K) (m : TDAtt K) (initial : List (Row K))
    (past : List (List (Row K))) (f : Face K) : Prop :=
  ∃ t st, IsCropped L (initial ++ past.flatten) t ∧
    tdTrain c m (none : Option (ExitCallback K Unit)) () [] t = .ok st ∧ f = tdFace argp st

theorem itemsOf_length {users items : List ℤ} {t t' : List (PRow K)} (hn : users.Nodup)
    (h : MappedTo users items t t') {a : ℕ} {x : ℤ} (ha : users[a]? = some x) :
    (itemsOf (a : ℤ) (sortedInds t')).length = (t.filter fun r => decide (r.row.user = x)).length := by
  rw [itemsOf_sortedInds, List.length_map, stableSort_length]
  have : List.Forall₂ (fun p p' : PRow K => p'.pos = p.pos ∧ p'.row.rel = p.row.rel ∧
      (∃ k : ℕ, p'.row.user = (k : ℤ) ∧ users[k]? = some p.row.user) ∧
      (∃ k : ℕ, p'.row.item = (k : ℤ) ∧ items[k]? = some p.row.item))
      (t.filter fun r => decide (r.row.user = x)) (t'.filter fun r => decide (r.row.user = (a : ℤ))) := by
    refine forall₂_filter ?_ h
    rintro p p' ⟨_, _, ⟨k, hk, hku⟩, _⟩
    rw [decide_eq_decide, hk]
    constructor
    · intro h
      rw [h] at hku
      rw [getElem?_inj_nodup hn hku ha]
    · intro h
      have : k = a := by omega
      subst this
      rw [hku] at ha
      exact Option.some.inj ha
  exact this.length_eq.symm

theorem itemsOf_nonneg {users items : List ℤ} {t t' : List (PRow K)} (h : MappedTo users items t t')
    (a y : ℤ) (hy : y ∈ itemsOf a (sortedInds t')) : 0 ≤ y := by
  rw [itemsOf_sortedInds] at hy
  obtain ⟨r, hr, rfl⟩ := List.mem_map.1 hy
  have hr := (mem_stableSort (fun x y : PRow K => decide (x.pos ≤ y.pos)) _ r).1 hr
  obtain ⟨-, -, -, -, -, k, hk, -⟩ := forall₂_mem_right h (List.mem_filter.1 hr).1
  omega

/-- What a training leaves, whatever the object had seen before. -/
theorem tdTrain_table {τ : Type} {c : TDCfg K} {m : TDAtt K} {cb : Option (ExitCallback K τ)} {cb0 : τ}
    {h0 : SeqHist} {t : List (PRow K)} {st : TDState K} (h : tdTrain c m cb cb0 h0 t = .ok st) :
    ∃ users items t', Represents st.maps.user users ∧
      FirstAppearance (t.map fun p => p.row.user) users ∧ MappedTo users items t t' ∧
      st.seqHist = updateUserSeqHistory (sortedInds t') h0 c.seqLen ∧
      ∀ h1, tdTrain c m cb cb0 h1 t =
        .ok { st with seqHist := updateUserSeqHistory (sortedInds t') h1 c.seqLen } := by
  obtain ⟨rows, mp, users, items, h1, h2, h3, -, -, h6⟩ := train_mapped t
  unfold tdTrain at h
  rw [h1, except_bind_ok] at h
  unfold tdFit at h
  simp only [bind_ok_iff] at h
  obtain ⟨tt, ht, ⟨⟨f, g⟩, cbEnd⟩, hr, aw, haw, lw, hlw, last, hlast, h⟩ := h
  have h := Except.ok.inj h
  subst h
  refine ⟨users, items, withPos rows t, h3, h2, h6, by rw [← (trainTensor_ok ht).1], ?_⟩
  intro h0'
  unfold tdTrain
  rw [h1, except_bind_ok]
  unfold tdFit
  rw [ht, except_bind_ok, hr, except_bind_ok]
  dsimp only at haw hlw hlast ⊢
  rw [haw, except_bind_ok, hlw, except_bind_ok, hlast, except_bind_ok, (trainTensor_ok ht).1]
  rfl

/-- The interactions of all trainings so far and what is known about the first `n` users. -/
theorem retrained_hist {L : ℕ} {c : TDCfg K} {m : TDAtt K} {initial : List (Row K)}
    {past : List (List (Row K))} {st : TDState K} (hL : 1 ≤ L)
    (h : Retrained L (tdTrain c m (none : Option (ExitCallback K Unit)) () [])
      (fun s => tdTrain c m (none : Option (ExitCallback K Unit)) () s.seqHist) initial past st) :
    ∃ ins, HistInv c.seqLen st.seqHist ins ∧ (∀ a, ∀ y ∈ itemsOf a ins, 0 ≤ y) ∧
      ∀ a : ℕ, a < (pdUnique (initial.map Row.user)).length → itemsOf (a : ℤ) ins ≠ [] := by
  induction h with
  | @first t s hc ht =>
    obtain ⟨users, items, t', -, h2, h3, h4, -⟩ := tdTrain_table ht
    refine ⟨sortedInds t', ?_, fun a => itemsOf_nonneg h3 a, ?_⟩
    · rw [h4]
      simpa using histInv_update c.seqLen [] [] (sortedInds t') (histInv_nil _)
    · intro a ha hnil
      have hlen : (pdUnique (initial.map Row.user)).length = users.length := by
        have e : (pdUnique (initial.map Row.user)).toFinset = users.toFinset := by
          ext x
          rw [List.mem_toFinset, List.mem_toFinset, mem_pdUnique, h2.mem, ← crop_mem_user hL hc x,
            List.map_map]
          rfl
        rw [← List.toFinset_card_of_nodup (nodup_pdUnique _), e, List.toFinset_card_of_nodup h2.nodup]
      obtain ⟨x, hx⟩ : ∃ x, users[a]? = some x := ⟨users[a]'(by omega), List.getElem?_eq_getElem _⟩
      have := itemsOf_length h2.nodup h3 hx
      rw [hnil, List.length_nil, eq_comm, List.length_eq_zero_iff, List.filter_eq_nil_iff] at this
      obtain ⟨r, hr, hr'⟩ := List.mem_map.1 ((h2.mem x).1 (List.mem_of_getElem? hx))
      exact this r hr (by simpa using hr')
  | @again past c' t s s' _ _ ht ih =>
    obtain ⟨ins, g1, g2, g3⟩ := ih
    obtain ⟨users, items, t', -, h2, h3, h4, -⟩ := tdTrain_table ht
    refine ⟨ins ++ sortedInds t', ?_, ?_, ?_⟩
    · rw [h4]
      exact histInv_update _ _ _ _ g1
    · intro a y hy
      rw [itemsOf_append, List.mem_append] at hy
      rcases hy with hy | hy
      · exact g2 a y hy
      · exact itemsOf_nonneg h3 a y hy
    · intro a ha hnil
      rw [itemsOf_append] at hnil
      exact g3 a ha (List.append_eq_nil_iff.1 hnil).1

theorem crop_rows_length {L : ℕ} {df : List (Row K)} {t : List (PRow K)} (h : IsCropped L df t) (x : ℤ) :
    (t.filter fun r => decide (r.row.user = x)).length = min L (rowsOf x df).length := by
  obtain ⟨s, hs, h1, -⟩ := h.2 x
  have := congrArg List.length h1
  rw [List.length_map, lastN_length, isStableTimeSort_unique hs (tsSort_stable _)] at this
  unfold tsSort at this
  rw [stableSort_length] at this
  exact this

/-- The last training of the object and a training of a new object on the same table. -/
theorem retrained_last {L : ℕ} {c : TDCfg K} {m : TDAtt K} {initial : List (Row K)}
    {past : List (List (Row K))} {st : TDState K} (hL : 1 ≤ L)
    (h : Retrained L (tdTrain c m (none : Option (ExitCallback K Unit)) () [])
      (fun s => tdTrain c m (none : Option (ExitCallback K Unit)) () s.seqHist) initial past st) :
    ∃ t fresh users xs ys, IsCropped L (initial ++ past.flatten) t ∧
      tdTrain c m (none : Option (ExitCallback K Unit)) () [] t = .ok fresh ∧
      st = { fresh with seqHist := st.seqHist } ∧ (past = [] → st = fresh) ∧
      Represents st.maps.user users ∧ FirstAppearance (t.map fun p => p.row.user) users ∧
      HistInv c.seqLen fresh.seqHist xs ∧ HistInv c.seqLen st.seqHist (ys ++ xs) ∧
      (∀ (a : ℕ) x, users[a]? = some x →
        (itemsOf (a : ℤ) xs).length = min L (rowsOf x (initial ++ past.flatten)).length) ∧
      (∀ a, ∀ y ∈ itemsOf a ys, 0 ≤ y) ∧
      (past ≠ [] → ∀ a : ℕ, a < (pdUnique (initial.map Row.user)).length → itemsOf (a : ℤ) ys ≠ []) := by
  cases h with
  | @first t s hc ht =>
    obtain ⟨users, items, t', h1, h2, h3, h4, -⟩ := tdTrain_table ht
    have hI := histInv_update c.seqLen [] [] (sortedInds t') (histInv_nil _)
    rw [← h4] at hI
    refine ⟨t, st, users, sortedInds t', [], by simpa using hc, ht, rfl, fun _ => rfl, h1, h2, hI, hI, ?_,
      by simp [itemsOf], fun h => absurd rfl h⟩
    intro a x hx
    rw [itemsOf_length h2.nodup h3 hx, crop_rows_length hc, List.flatten_nil, List.append_nil]
  | @again past c' t s s' hp hc ht =>
    obtain ⟨ins, g1, g2, g3⟩ := retrained_hist hL hp
    obtain ⟨users, items, t', h1, h2, h3, h4, h5⟩ := tdTrain_table ht
    have hI := histInv_update c.seqLen [] [] (sortedInds t') (histInv_nil _)
    have hJ := histInv_update c.seqLen _ _ (sortedInds t') g1
    rw [← h4] at hJ
    refine ⟨t, _, users, sortedInds t', ins, by simpa using hc, h5 [], rfl, fun h => by simp at h, h1, h2,
      hI, hJ, ?_, g2, fun _ => g3⟩
    intro a x hx
    rw [itemsOf_length h2.nodup h3 hx, crop_rows_length hc]
    simp

theorem window_append_long (L : ℕ) (ys xs : List ℤ) (h : L ≤ xs.length) :
    window L (ys ++ xs) = window L xs := by
  unfold window
  rw [← List.append_assoc, lastN_append_of_le _ _ _ h, lastN_append_of_le _ _ _ h]

theorem window_append_short (L : ℕ) (ys xs : List ℤ) (h : xs.length < L) (hy : ys ≠ [])
    (h0 : ∀ y ∈ ys, 0 ≤ y) : window L (ys ++ xs) ≠ window L xs := by
  intro he
  have h1 : (window L (ys ++ xs))[L - xs.length - 1]? = (window L xs)[L - xs.length - 1]? := by rw [he]
  have hl : 0 < ys.length := List.length_pos_of_ne_nil hy
  rw [window_getElem?, window_getElem?, List.length_append, if_neg (by omega), if_pos (by omega),
    List.getElem?_append_left (by omega)] at h1
  have := h0 PAD (List.mem_of_getElem? h1)
  unfold PAD at this
  omega

/-- **C94 (partial).** The retrained TDRec object agrees with a freshly trained one in everything but the
sequential history, and also in the sequences of the users who fill them; before the first retraining it
agrees completely. Missing: the sequences of the other users (`C94_violated`, `C94_short_sequences`). -/
theorem C94_tdrec_partial (L : ℕ) (hL : 1 ≤ L) (c : TDCfg K) (hc : c.seqLen ≤ L) (m : TDAtt K)
    (initial : List (Row K)) (past : List (List (Row K))) (st : TDState K)
    (h : Retrained L (tdTrain c m (none : Option (ExitCallback K Unit)) () [])
      (fun s => tdTrain c m (none : Option (ExitCallback K Unit)) () s.seqHist) initial past st) :
    ∃ t fresh, IsCropped L (initial ++ past.flatten) t ∧
      tdTrain c m (none : Option (ExitCallback K Unit)) () [] t = .ok fresh ∧
      st = { fresh with seqHist := st.seqHist } ∧ (past = [] → st = fresh) ∧
      ∀ (x i : ℤ), st.maps.user.old2new.get? x = some i →
        c.seqLen ≤ (rowsOf x (initial ++ past.flatten)).length →
        st.seqHist.get? i = fresh.seqHist.get? i := by
  obtain ⟨t, fresh, users, xs, ys, h1, h2, h3, h4, h5, h6, h7, h8, h9, h10, h11⟩ := retrained_last hL h
  refine ⟨t, fresh, h1, h2, h3, h4, ?_⟩
  intro x i hx hlen
  obtain ⟨a, rfl, ha⟩ := (h5.old2new x i).1 hx
  have hl := h9 a x ha
  have hle : c.seqLen ≤ (itemsOf (a : ℤ) xs).length := by omega
  rw [h7.entry, h8.entry]
  unfold histEntry
  rw [itemsOf_append]
  rcases Nat.eq_zero_or_pos (itemsOf (a : ℤ) xs).length with h0 | h0
  · exfalso
    have hu : x ∈ initial.map Row.user ++ past.flatten.map Row.user := by
      have := (h6.mem x).1 (List.mem_of_getElem? ha)
      have := (crop_mem_user hL h1 x).1 (by rw [List.map_map]; exact this)
      rwa [List.map_append] at this
    rw [← List.map_append] at hu
    obtain ⟨r, hr, rfl⟩ := List.mem_map.1 hu
    have : 0 < (rowsOf r.user (initial ++ past.flatten)).length :=
      List.length_pos_of_mem (a := r) (by unfold rowsOf; rw [List.mem_filter]; exact ⟨hr, by simp⟩)
    omega
  · have hne := List.ne_nil_of_length_pos h0
    rw [if_neg (by simp [hne]), if_neg hne, window_append_long _ _ _ hle]

/-- **C94, violated for every short sequence.** After a retraining, every user with fewer rows than the
sequence length (and an internal number that was taken before) has another sequence than in a freshly
trained object: rows of earlier trainings fill the padding. -/
theorem C94_short_sequences (L : ℕ) (hL : 1 ≤ L) (c : TDCfg K) (m : TDAtt K)
    (initial : List (Row K)) (past : List (List (Row K))) (hp : past ≠ []) (st : TDState K)
    (h : Retrained L (tdTrain c m (none : Option (ExitCallback K Unit)) () [])
      (fun s => tdTrain c m (none : Option (ExitCallback K Unit)) () s.seqHist) initial past st)
    (t : List (PRow K)) (ht : IsCropped L (initial ++ past.flatten) t) (fresh : TDState K)
    (hf : tdTrain c m (none : Option (ExitCallback K Unit)) () [] t = .ok fresh)
    (x : ℤ) (a : ℕ) (hx : st.maps.user.old2new.get? x = some (a : ℤ))
    (ha : a < (pdUnique (initial.map Row.user)).length)
    (hshort : (rowsOf x (initial ++ past.flatten)).length < c.seqLen) :
    st.seqHist.get? a ≠ fresh.seqHist.get? a := by
  obtain ⟨t', fresh', users, xs, ys, h1, h2, h3, -, h5, h6, h7, h8, h9, h10, h11⟩ := retrained_last hL h
  have := C08_crop_unique L _ t t' ht h1
  subst this
  rw [hf] at h2
  have h2 := Except.ok.inj h2
  subst h2
  obtain ⟨a', e, hu⟩ := (h5.old2new x a).1 hx
  have : a' = a := by omega
  subst this
  have hl := h9 a' x hu
  have hxs : itemsOf (a' : ℤ) xs ≠ [] := by
    intro h0
    rw [h0, List.length_nil] at hl
    have hm := (crop_mem_user hL ht x).1 (by
      rw [List.map_map]; exact (h6.mem x).1 (List.mem_of_getElem? hu))
    obtain ⟨r, hr, rfl⟩ := List.mem_map.1 hm
    have : 0 < (rowsOf r.user (initial ++ past.flatten)).length :=
      List.length_pos_of_mem (a := r) (by unfold rowsOf; rw [List.mem_filter]; exact ⟨hr, by simp⟩)
    omega
  rw [h7.entry, h8.entry]
  unfold histEntry
  rw [itemsOf_append, if_neg (by simp [hxs]), if_neg hxs]
  intro he
  injection he with he
  injection he with _ he
  exact window_append_short _ _ _ (by omega) (h11 hp a' ha) (h10 _) he

/-- the hit rate of a freshly trained object at a chunk -/
def freshHit (argp : ArgPart K) (c : TDCfg K) (m : TDAtt K) (k : ℕ) (t : List (PRow K))
    (chunk : List (Row K)) : PyM K := do
  let st ← tdTrain c m (none : Option (ExitCallback K Unit)) () [] t
  let r ← tdRecommend argp st (getUsersToRecommendTestItems chunk st.maps).1 k true false
  hr r (getUsersToRecommendTestItems chunk st.maps).2

/-- the configuration of the run of TDRec -/
def exRunTd : TDCfg ℚ := tdSetup exRunEnv exFixTd (1, 1, 1) 1

/-- the second hit rate a freshly trained object would give -/
def exFreshHit : PyM ℚ := do
  let m ← tdInit exRunTd
  let t ← getDfWithCroppedPos ((exRunData.take 6).map IRow.row) 3 true
  freshHit exRunEnv.argp exRunTd m 1 t ((exRunData.drop 6).map IRow.row)

/-- the sequences of the internal users 0 and 1 after two trainings and in a freshly trained object -/
def exTwoTrainings : PyM (List (Option (List ℤ)) × List (Option (List ℤ))) := do
  let m ← tdInit exRunTd
  let t0 ← getDfWithCroppedPos ((exRunData.take 4).map IRow.row) 3 true
  let t1 ← getDfWithCroppedPos ((exRunData.take 6).map IRow.row) 3 true
  let st ← tdTrain exRunTd m (none : Option (ExitCallback ℚ Unit)) () [] t0
  let st' ← tdTrain exRunTd m (none : Option (ExitCallback ℚ Unit)) () st.seqHist t1
  let fresh ← tdTrain exRunTd m (none : Option (ExitCallback ℚ Unit)) () [] t1
  pure ([0, 1].map fun u => (st'.seqHist.get? u).map Deque.items,
    [0, 1].map fun u => (fresh.seqHist.get? u).map Deque.items)

-- user 0 has one row (sequences differ), user 1 has four rows (sequences agree)
example : exTwoTrainings = .ok ([some [-1, 0, 0], some [1, 2, 2]], [some [-1, -1, 0], some [1, 2, 2]]) := by
  decide +kernel

/-- **C94 is violated** in a completed run: the scores recorded for TDRec are not those of recommenders
freshly trained on all rows so far. User 7 has the single item 40; the second training fills the padding of
the sequence with it once more, and the recommendation changes. -/
theorem C94_violated :
    ∃ d, runScript exRunEnv exRunCfg exFixSvd exFixTd "TDRec" exRunData = .ok d ∧
      ¬ ∃ c m, TdSelected exRunEnv exRunCfg exFixTd c m ∧
        ScriptRun exRunEnv exRunCfg exRunData (FreshTd exRunEnv.argp exRunCfg.maxLen c m) d := by
  have hrun : exRunHr "TDRec" = some [0, 0] := by decide +kernel
  unfold exRunHr at hrun
  cases hd : runScript exRunEnv exRunCfg exFixSvd exFixTd "TDRec" exRunData with
  | error e => rw [hd] at hrun; cases hrun
  | ok d =>
    rw [hd] at hrun
    have hrun : d.hr = [0, 0] := Option.some.inj hrun
    refine ⟨d, rfl, ?_⟩
    rintro ⟨c, m, ⟨r1, r2, r3, f, n, h1, rfl, hm⟩, initial, stream, left, chunks, e, snaps, h2, rfl, -, hk, -,
      -, hlen, hrec, hstep⟩
    have hsel : getOptimalTdrecParams exRunCfg.dataset exRunEnv.tdCsv = .ok ([1, 1, 1], 1, 2) := by
      decide +kernel
    rw [hsel] at h1
    have h1 := Except.ok.inj h1
    obtain ⟨hr, hf⟩ := Prod.mk.inj h1
    obtain ⟨rfl, rfl⟩ := Prod.mk.inj hf
    simp only [List.cons.injEq, and_true] at hr
    obtain ⟨e1, e2, e3⟩ := hr
    have e1 : r1 = 1 := by exact_mod_cast e1.symm
    have e2 : r2 = 1 := by exact_mod_cast e2.symm
    have e3 : r3 = 1 := by exact_mod_cast e3.symm
    subst e1 e2 e3
    have hprep : prepareDataForExperiment exRunEnv.sortDay exRunData exRunCfg.initRatio exRunCfg.hmMin =
        .ok ((exRunData.take 4).map IRow.row,
          [(1, ((exRunData.drop 4).take 2).map IRow.row), (2, (exRunData.drop 6).map IRow.row)],
          (exRunData.drop 4).map IRow.row) := by decide +kernel
    rw [hprep] at h2
    have h2 := Except.ok.inj h2
    simp only [Prod.mk.injEq] at h2
    obtain ⟨rfl, rfl, rfl⟩ := h2
    have hl : snaps.length = 2 := by rw [hlen]; decide +kernel
    have hs : snaps[1]? = some (snaps[1]'(by omega)) := List.getElem?_eq_getElem _
    obtain ⟨face, ⟨t, st, ht, hst, rfl⟩, r, g1, g2, -⟩ := hstep 1 _ _ (by rfl) hs
    have hhit : (snaps[1]'(by omega)).hit = 0 := by
      have := congrArg (fun l : List ℚ => l[1]?) (hrec.hr.symm.trans hrun)
      simp only [List.getElem?_map, hs, Option.map_some] at this
      simpa using this
    rw [hhit] at g2
    rw [hk] at g1
    have key : exFreshHit = .ok 1 := by decide +kernel
    unfold exFreshHit at key
    rw [show tdInit exRunTd = .ok m from hm, except_bind_ok] at key
    obtain ⟨t', ht', key⟩ := (bind_ok_iff _ _ _).1 key
    have : t = t' := C08_crop_unique 3 _ t t' ht (crop_ok_isCropped _ _ _ ht')
    subst this
    unfold freshHit at key
    rw [show tdTrain exRunTd m (none : Option (ExitCallback ℚ Unit)) () [] t = .ok st from hst, except_bind_ok,
      show tdRecommend exRunEnv.argp st (getUsersToRecommendTestItems ((exRunData.drop 6).map IRow.row)
        st.maps).1 1 true false = .ok r from g1, except_bind_ok] at key
    rw [show hr r (getUsersToRecommendTestItems ((exRunData.drop 6).map IRow.row) st.maps).2 = .ok (0 : ℚ) from g2]
      at key
    exact absurd (Except.ok.inj key) (by decide)

/-! ### C96 -/

/-- **C96, Random never completes.** With at least one chunk and at least one step the experiment with the
random recommender always raises: the class lacks `get_u`. -/
theorem C96_random_violated [FloorRing K] (env : RunEnv K) (cfg : RunCfg K) (fs : FixedSvd) (ft : FixedTd)
    (data : List (IRow K)) (initial left : List (Row K)) (stream : List (ℤ × List (Row K)))
    (hp : prepareDataForExperiment env.sortDay data cfg.initRatio cfg.hmMin = .ok (initial, stream, left))
    (hs : stream ≠ []) (d : Dynamics K) : runScript env cfg fs ft "Random" data ≠ .ok d := by
  intro h
  obtain ⟨initial', stream', left', t, p, h1, ht, h2, h3⟩ := script_posed (by simp) h
  rw [hp] at h1
  have h1 := Except.ok.inj h1
  simp only [Prod.mk.injEq] at h1
  obtain ⟨rfl, rfl, rfl⟩ := h1
  unfold prepareModel at h2
  rw [if_neg (by decide), if_neg (by decide), if_neg (by decide), if_neg (by decide), if_neg (by decide),
    if_neg (by decide), if_pos rfl] at h2
  have h2 := Except.ok.inj h2
  subst h2
  obtain ⟨x, rest, rfl⟩ := List.exists_cons_of_ne_nil hs
  have h3 : runWith (withUpdate true (randomClass env.argp env.normals)) _ (none, 0) (.posed t)
    (x.2 :: rest.map Prod.snd) = .ok d := h3
  unfold runWith dynamicalExperiment at h3
  obtain ⟨st, h4, -⟩ := (bind_ok_iff _ _ _).1 h3
  obtain ⟨st0, -, h4⟩ := (bind_ok_iff _ _ _).1 h4
  unfold expLoop at h4
  obtain ⟨st1, h4, -⟩ := (bind_ok_iff _ _ _).1 h4
  unfold expStep at h4
  obtain ⟨s1, -, h4⟩ := (bind_ok_iff _ _ _).1 h4
  obtain ⟨s2, -, h4⟩ := (bind_ok_iff _ _ _).1 h4
  obtain ⟨s3, h4, -⟩ := (bind_ok_iff _ _ _).1 h4
  unfold driftStep at h4
  rw [if_pos rfl] at h4
  obtain ⟨u, h5, -⟩ := (bind_ok_iff _ _ _).1 h4
  cases h5

/-- the exception of a run -/
def exRunErr (name : String) : Option PyErr :=
  match runScript exRunEnv exRunCfg exFixSvd exFixTd name exRunData with
  | .ok _ => none
  | .error e => some e

-- on the same rows the other six names complete (`Props/FullExperiment`)
example : exRunErr "Random" = some .attributeError := by decide +kernel

/-- **C96 (partial).** Each of the other six names completes an experiment with two chunks. Missing: Random
(`C96_random_violated`). -/
theorem C96_others_partial (name : String)
    (h : name ∈ ["SVD", "PSIRec", "TDRec", "TDRecReinit", "TIRec", "TIRecA"]) :
    ∃ d, runScript exRunEnv exRunCfg exFixSvd exFixTd name exRunData = .ok d ∧ d.hr.length = 2 := by
  have key : ∀ name, (exRunHr name).map List.length = some 2 →
      ∃ d, runScript exRunEnv exRunCfg exFixSvd exFixTd name exRunData = .ok d ∧ d.hr.length = 2 := by
    intro name h
    unfold exRunHr at h
    cases hd : runScript exRunEnv exRunCfg exFixSvd exFixTd name exRunData with
    | error e => rw [hd] at h; cases h
    | ok d =>
      rw [hd] at h
      exact ⟨d, rfl, Option.some.inj h⟩
  simp only [List.mem_cons, List.not_mem_nil, or_false] at h
  rcases h with rfl | rfl | rfl | rfl | rfl | rfl
  all_goals exact key _ (by decide +kernel)

/-! ### C97 -/

theorem selected_sweeps {ds : Dataset} {rows : List (TdRow K)} {r : List ℤ} {f : K} {n : ℤ}
    (h : getOptimalTdrecParams ds rows = .ok (r, f, n)) :
    ∃ row ∈ rows, row.rank = r ∧ row.attF = f ∧ row.nIter = n ∧ n ≤ 5 := by
  have key : ∀ (l : List (TdRow K)), (∀ x ∈ l, x ∈ rows ∧ x.nIter ≤ 5) →
      (do let x ← firstMin (fun r => r.rank.prod) l
          pure (x.rank, x.attF, x.nIter) : PyM _) = .ok (r, f, n) →
      ∃ row ∈ rows, row.rank = r ∧ row.attF = f ∧ row.nIter = n ∧ n ≤ 5 := by
    intro l hl h
    obtain ⟨x, h1, h2⟩ := (bind_ok_iff _ _ _).1 h
    have h2 := Except.ok.inj h2
    simp only [Prod.mk.injEq] at h2
    obtain ⟨rfl, rfl, rfl⟩ := h2
    rcases firstMin_spec (fun r : TdRow K => r.rank.prod) l with ⟨-, h3⟩ | ⟨pre, y, post, h3, h4, -⟩
    · rw [h3] at h1; cases h1
    · rw [h4] at h1
      have h1 := Except.ok.inj h1
      subst h1
      obtain ⟨g1, g2⟩ := hl y (by rw [h3]; simp)
      exact ⟨y, g1, rfl, rfl, rfl, g2⟩
  have hmask : ∀ (b : Option K) (l : List (TdRow K)), ∀ x ∈ geMask TdRow.metric b l, x ∈ l := by
    intro b l x hx
    unfold geMask at hx
    split at hx
    · cases hx
    · exact (List.mem_filter.1 hx).1
  have h5 : ∀ (b : Option K), ∀ x ∈ geMask TdRow.metric b (rows.filter fun r => decide (r.nIter ≤ 5)),
      x ∈ rows ∧ x.nIter ≤ 5 := by
    intro b x hx
    have := List.mem_filter.1 (hmask _ _ x hx)
    exact ⟨this.1, by simpa using this.2⟩
  unfold getOptimalTdrecParams at h
  cases ds with
  | other => cases h
  | ml20m => exact key _ (fun x hx => h5 _ x (List.mem_filter.1 hx).1) h
  | amzG =>
    obtain ⟨b, -, h⟩ := (bind_ok_iff _ _ _).1 h
    exact key _ (fun x hx => h5 _ x hx) h
  | amzB => exact key _ (fun x hx => h5 _ x hx) h
  | steam => exact key _ (fun x hx => h5 _ x hx) h

/-- **C97 (partial).** A recommender of the TDRec family prepared for the experiment has the rank and the
attention exponent of one selected row of the search results. Missing: its number of sweeps
(`C97_violated`). -/
theorem C97_selected_partial (env : RunEnv K) (cfg : RunCfg K) (name : String)
    (hn : name ∈ ["TDRec", "TDRecReinit", "TIRec", "TIRecA"]) (p : Prepared K)
    (h : prepareModel env cfg name = .ok p) :
    ∃ (c : TDCfg K) (m : TDAtt K) (row : TdRow K) (r1 r2 r3 : ℕ),
      (p.obj = .td c m ∨ p.obj = .tdRe c m ∨
        ∃ c' : TICfg K, c'.td = c ∧ (p.obj = .ti c' m ∨ p.obj = .tiA c' m)) ∧
      row ∈ env.tdCsv ∧
      getOptimalTdrecParams cfg.dataset env.tdCsv = .ok (row.rank, row.attF, row.nIter) ∧
      row.rank = [(r1 : ℤ), (r2 : ℤ), (r3 : ℤ)] ∧ c.hooi.rank = (r1, r2, r3) ∧
      c.attF = some (env.pow row.attF) := by
  have key : ∀ c m, prepTdCfg env cfg = .ok c → tdInit c = .ok m →
      ∃ (row : TdRow K) (r1 r2 r3 : ℕ), row ∈ env.tdCsv ∧
      getOptimalTdrecParams cfg.dataset env.tdCsv = .ok (row.rank, row.attF, row.nIter) ∧
      row.rank = [(r1 : ℤ), (r2 : ℤ), (r3 : ℤ)] ∧ c.hooi.rank = (r1, r2, r3) ∧
      c.attF = some (env.pow row.attF) := by
    intro c m h1 h2
    cases hf : cfg.fixedTd with
    | none =>
      unfold prepTdCfg at h1
      obtain ⟨p, -, h1⟩ := (bind_ok_iff _ _ _).1 h1
      rw [hf] at h1
      cases h1
    | some ft =>
      obtain ⟨r1, r2, r3, f, n, h3, rfl, -⟩ := prepTdCfg_ok hf h1 h2
      obtain ⟨row, g1, g2, g3, g4, -⟩ := selected_sweeps h3
      exact ⟨row, r1, r2, r3, g1, by rw [g2, g3, g4]; exact h3, g2, rfl, by rw [g3]; rfl⟩
  simp only [List.mem_cons, List.not_mem_nil, or_false] at hn
  rcases hn with rfl | rfl | rfl | rfl
  all_goals
    obtain ⟨c, h1, h⟩ := (bind_ok_iff _ _ _).1 h
    obtain ⟨m, h2, h⟩ := (bind_ok_iff _ _ _).1 h
    have h := Except.ok.inj h
    subst h
    obtain ⟨row, r1, r2, r3, g⟩ := key c m h1 h2
    refine ⟨c, m, row, r1, r2, r3, ?_, g⟩
  · exact Or.inl rfl
  · exact Or.inr (Or.inl rfl)
  · exact Or.inr (Or.inr ⟨_, rfl, Or.inl rfl⟩)
  · exact Or.inr (Or.inr ⟨_, rfl, Or.inr rfl⟩)

/-- **C97 is violated**, always: the selected number of sweeps is at most 5, the prepared recommender makes
up to 25. -/
theorem C97_violated (env : RunEnv K) (cfg : RunCfg K) (c : TDCfg K) (h : prepTdCfg env cfg = .ok c) :
    ∃ r f n, getOptimalTdrecParams cfg.dataset env.tdCsv = .ok (r, f, n) ∧ n ≤ 5 ∧ (c.nIter : ℤ) = 25 := by
  unfold prepTdCfg at h
  obtain ⟨⟨r, f, n⟩, h1, h⟩ := (bind_ok_iff _ _ _).1 h
  obtain ⟨ft, -, h⟩ := (bind_ok_iff _ _ _).1 h
  obtain ⟨r', -, h⟩ := (bind_ok_iff _ _ _).1 h
  have h := Except.ok.inj h
  subst h
  obtain ⟨-, -, -, -, -, h5⟩ := selected_sweeps h1
  exact ⟨r, f, n, h1, h5, rfl⟩

-- the run of the example: two sweeps selected, 25 used
example : getOptimalTdrecParams exRunCfg.dataset exRunEnv.tdCsv = .ok ([1, 1, 1], 1, 2) ∧ exRunTd.nIter = 25 ∧
    ∃ c, prepTdCfg exRunEnv { exRunCfg with fixedTd := some exFixTd } = .ok c ∧ c.nIter = 25 :=
  ⟨by decide +kernel, rfl, _, rfl, rfl⟩

end DynCF
