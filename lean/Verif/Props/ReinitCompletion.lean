/- Property C132: exactly when the experiment with TDRecReinit completes. -/
import Verif.Props.RetrainCompletion

set_option linter.unusedSectionVars false

namespace DynCF
variable {K : Type} {σ F : Type}

/-! ### Specification -/

/-- The rows of all tables up to number `i`. -/
def rowsUpTo (tab : ℕ → List (PRow K)) (i : ℕ) : List (Row K) := ((List.range (i + 1)).flatMap tab).map PRow.row

/-- The table `t` has an item that the rows `reg` do not have, or the one that was the last to appear in them. -/
def KeepsItem (reg : List (Row K)) (t : List (PRow K)) : Prop :=
  ∃ items, FirstAppearance (reg.map Row.item) items ∧
    ∃ p ∈ t, p.row.item ∉ items ∨ items.getLast? = some p.row.item

/-- What the script needs with a recommender that is trained again after every chunk, starting from its last factors: the
data can be prepared; the longest sequence of the cropped table of the initial rows, and of that of all rows after each of
the chunks taken, has exactly the configured length; the selected rank fits the first of these tables; each later table
has an item that no table before it had, or the one that was the last to come up in them; every step can be done by a
recommender that knows the ids of all tables so far and remembers the rows of the last one; and there are users for the
stability test if two steps are to be compared. -/
def ReinitNeeds [Field K] [LinearOrder K] [FloorRing K] (env : RunEnv K) (cfg : RunCfg K) (ft : FixedTd)
    (data : List (IRow K)) : Prop :=
  ∃ initial stream left chunks, ∃ (r : ℕ × ℕ × ℕ) (f : K) (n : ℤ) (tab : ℕ → List (PRow K)),
    prepareDataForExperiment env.sortDay data cfg.initRatio cfg.hmMin = .ok (initial, stream, left) ∧
    chunks = (stream.map Prod.snd).take (expSteps cfg.howMany stream.length) ∧
    getOptimalTdrecParams cfg.dataset env.tdCsv = .ok ([(r.1 : ℤ), (r.2.1 : ℤ), (r.2.2 : ℤ)], f, n) ∧
    (∀ i ≤ chunks.length, IsCropped cfg.maxLen (initial ++ (chunks.take i).flatten) (tab i) ∧
      LongestIs cfg.maxLen ft.seqLen (initial ++ (chunks.take i).flatten)) ∧
    RankFits r (numUsers ((tab 0).map PRow.row)) (numItems ((tab 0).map PRow.row)) ft.seqLen ∧
    (∀ i < chunks.length, KeepsItem (rowsUpTo tab i) (tab (i + 1))) ∧
    (∀ (i : ℕ) (c : List (Row K)), chunks[i]? = some c →
      StepRunsOn cfg.topk (getUsersStability env.sortCnt initial left cfg.howMany) (rowsUpTo tab i)
        ((tab i).map PRow.row) c) ∧
    (2 ≤ chunks.length → getUsersStability env.sortCnt initial left cfg.howMany ≠ [])

/-! ### Ids -/

theorem firstAppearance_extend {l r ids new : List ℤ} (h : FirstAppearance l ids)
    (h' : FirstAppearance (r.filter fun x => decide (x ∉ ids)) new) : FirstAppearance (l ++ r) (ids ++ new) := by
  obtain ⟨b, hb⟩ := firstAppearance_append_prefix (r := r) h
  have hnew : FirstAppearance (r.filter fun x => decide (x ∉ ids)) b := by
    refine ⟨(List.nodup_append.1 hb.nodup).2.1, fun x => ?_, ?_⟩
    · have e := hb.mem x
      rw [List.mem_append, List.mem_append, ← h.mem x] at e
      have hd : x ∈ b → x ∉ ids := fun h1 h2 => (List.nodup_append.1 hb.nodup).2.2 x h2 x h1 rfl
      rw [List.mem_filter, decide_eq_true_eq]
      tauto
    · refine List.Pairwise.imp_of_mem ?_ (List.pairwise_append.1 hb.order).2.1
      intro x y hx hy hxy
      have hd : ∀ x ∈ b, x ∉ ids := fun x h1 h2 => (List.nodup_append.1 hb.nodup).2.2 x h2 x h1 rfl
      have hx' := hd x hx
      have hy' := hd y hy
      rw [List.idxOf_append_of_notMem (fun h2 => hx' ((h.mem x).2 h2)),
        List.idxOf_append_of_notMem (fun h2 => hy' ((h.mem y).2 h2))] at hxy
      replace hxy : r.idxOf x < r.idxOf y := by omega
      clear hb hx hy hd h'
      induction r with
      | nil => simp at hxy
      | cons z r ih =>
        by_cases hzx : z = x
        · subst hzx
          have hne : z ≠ y := by
            rintro rfl
            omega
          rw [List.filter_cons_of_pos (by simpa using hx'), List.idxOf_cons_self, List.idxOf_cons_ne _ hne]
          omega
        · by_cases hzy : z = y
          · subst hzy
            rw [List.idxOf_cons_self] at hxy
            omega
          · rw [List.idxOf_cons_ne _ hzx, List.idxOf_cons_ne _ hzy] at hxy
            have := ih (by omega)
            rw [List.filter_cons]
            split
            · rw [List.idxOf_cons_ne _ hzx, List.idxOf_cons_ne _ hzy]
              omega
            · exact this
  rw [h'.unique hnew]
  exact hb

theorem rowsUpTo_zero (tab : ℕ → List (PRow K)) : rowsUpTo tab 0 = (tab 0).map PRow.row := by
  simp [rowsUpTo]

theorem rowsUpTo_succ (tab : ℕ → List (PRow K)) (i : ℕ) :
    rowsUpTo tab (i + 1) = rowsUpTo tab i ++ (tab (i + 1)).map PRow.row := by
  unfold rowsUpTo
  rw [List.range_succ (n := i + 1), List.flatMap_append, List.map_append]
  simp

theorem rowsUpTo_mem {tab : ℕ → List (PRow K)} {i j : ℕ} (h : i ≤ j) {r : Row K} (hr : r ∈ (tab i).map PRow.row) :
    r ∈ rowsUpTo tab j := by
  unfold rowsUpTo
  obtain ⟨p, hp, rfl⟩ := List.mem_map.1 hr
  exact List.mem_map_of_mem (List.mem_flatMap.2 ⟨i, List.mem_range.2 (by omega), hp⟩)

section
variable [Field K] [LinearOrder K] [IsStrictOrderedRing K]
variable {c : TDCfg K} {m : TDAtt K} {st : TDState K}

/-! ### One training -/

theorem placeRows_fits {A B M : Mat K} (h : placeRows A B = .ok M) : B.rows ≤ A.rows ∧ M.rows = A.rows := by
  unfold placeRows at h
  split at h
  · split at h
    · have h := Except.ok.inj h
      subst h
      exact ⟨by assumption, rfl⟩
    · split at h <;> cases h
  · split at h <;> cases h

theorem maxPlusOne_ok {l : List ℤ} {n : ℕ} (h : maxPlusOne l = .ok n) (h0 : ∀ x ∈ l, 0 ≤ x) :
    ((n : ℤ) - 1) ∈ l ∧ ∀ y ∈ l, y < n := by
  cases l with
  | nil => cases h
  | cons x l =>
    have h := Except.ok.inj h
    obtain ⟨h3, h4⟩ := foldl_max_spec l x
    have hx := h0 _ h3
    have e : (n : ℤ) - 1 = l.foldl max x := by omega
    refine ⟨e ▸ h3, fun y hy => ?_⟩
    have := h4 y hy
    omega

/-- The state after a training: the factors belong to the ids of the rows `reg`, the history to the table `t`, and the
sequences to interactions with known items. -/
structure ReState (c : TDCfg K) (m : TDAtt K) (st : TDState K) (reg : List (Row K)) (t : List (PRow K))
    (us is : List ℤ) (d : List (PRow K)) (ins : List Inter) : Prop where
  user : Represents st.maps.user us
  item : Represents st.maps.item is
  firstUsers : FirstAppearance (reg.map Row.user) us
  firstItems : FirstAppearance (reg.map Row.item) is
  mapped : MappedTo us is t d
  history : st.history = d.map fun p => (p.row.user, p.row.item)
  shape : (⟨st.u, st.v, st.w⟩ : Fac K).HasShape (us.length, is.length, c.seqLen) c.hooi.rank
  rank : RankFits c.hooi.rank us.length is.length c.seqLen
  aw : m.att.dot st.w = .ok st.aw
  last : ∃ lw v, m.attInv.T.dot st.w = .ok lw ∧ lw.row (-1) = .ok v ∧ st.lastPos = ⟨_, v⟩
  seq : HistInv c.seqLen st.seqHist ins
  range : ∀ a, ∀ y ∈ itemsOf a ins, 0 ≤ y ∧ y < is.length
  nonempty : ∀ a : ℕ, a < us.length → itemsOf (a : ℤ) ins ≠ []
  full : ∀ x ∈ us, ∃ p ∈ t, p.row.user = x

def ReAt (c : TDCfg K) (m : TDAtt K) (st : TDState K) (reg : List (Row K)) (t : List (PRow K)) : Prop :=
  ∃ us is d ins, ReState c m st reg t us is d ins

/-- The interactions of a table that is mapped by ids of which it has all users. -/
theorem mapped_inters {users items : List ℤ} {t t' : List (PRow K)} (hn : users.Nodup) (h : MappedTo users items t t')
    (hf : ∀ x ∈ users, ∃ p ∈ t, p.row.user = x) :
    (∀ a, ∀ y ∈ itemsOf a (sortedInds t'), 0 ≤ y ∧ y < items.length) ∧
    ∀ a : ℕ, a < users.length → itemsOf (a : ℤ) (sortedInds t') ≠ [] := by
  constructor
  · intro a y hy
    rw [itemsOf_sortedInds] at hy
    obtain ⟨r, hr, rfl⟩ := List.mem_map.1 hy
    have hr := (mem_stableSort (fun x y : PRow K => decide (x.pos ≤ y.pos)) _ r).1 hr
    obtain ⟨x, -, -, -, -, k, hk, hk'⟩ := forall₂_mem_right h (List.mem_filter.1 hr).1
    have := (List.getElem?_eq_some_iff.1 hk').1
    omega
  · intro a ha hnil
    have := itemsOf_length hn h (List.getElem?_eq_getElem ha)
    rw [hnil, List.length_nil, eq_comm, List.length_eq_zero_iff, List.filter_eq_nil_iff] at this
    obtain ⟨r, hr, hr'⟩ := hf _ (List.getElem_mem ha)
    exact this r hr (by simpa using hr')

/-- What a successful retraining tells about its table. -/
theorem reTrain_needs {cfg : TDCfg K} (hlen : 1 ≤ cfg.seqLen) (hatt : tdInit cfg = .ok m) (hn : 1 ≤ cfg.nIter)
    {reg : List (Row K)} {t t' : List (PRow K)} {us is : List ℤ} {d : List (PRow K)} {ins : List Inter}
    (h : ReState cfg m st reg t us is d ins) (hpos : ∀ r ∈ t', 0 ≤ r.pos) {h0 : SeqHist} {st' : TDState K}
    (hs : tdReTrain cfg m h0 t' (some ⟨st.u, st.v, st.w⟩) (some st.maps) = .ok st') :
    (∃ r ∈ t', r.row.item ∉ is ∨ is.getLast? = some r.row.item) ∧ (∀ r ∈ t', r.pos < cfg.seqLen) ∧
      ∃ r ∈ t', r.pos + 1 = cfg.seqLen := by
  obtain ⟨nu, ni, hnu, hni, gu, gi, rows, hrows⟩ := C29_ids_stable st.maps us is h.user h.item (t'.map PRow.row)
  have hmap := retrain_mapped t' _ (us ++ nu) (is ++ ni) gu gi rows hrows
  unfold tdReTrain at hs
  simp only at hs
  rw [hrows, except_bind_ok] at hs
  obtain ⟨tt, f, g, cbE, aw, lw, h1, h2, -⟩ := tdFit_ok hs
  obtain ⟨-, -, h1⟩ := trainTensor_ok h1
  have hmem : ∀ x, x ∈ sortedInds (withPos rows t') ↔ ∃ r ∈ withPos rows t', r.inter = x := by
    intro x
    rw [sortedInds_eq, mem_stableSort, List.mem_map]
  unfold indsShape at h1
  obtain ⟨n0, -, h1⟩ := (bind_ok_iff _ _ _).1 h1
  obtain ⟨n1, hI, h1⟩ := (bind_ok_iff _ _ _).1 h1
  obtain ⟨n2, hP, h1⟩ := (bind_ok_iff _ _ _).1 h1
  have h1 := (Except.ok.inj h1).symm
  rw [h1] at h2
  obtain ⟨i1, -⟩ := maxPlusOne_ok hI (by
    intro x hx
    obtain ⟨y, hy, rfl⟩ := List.mem_map.1 hx
    obtain ⟨r, hr, rfl⟩ := (hmem y).1 hy
    obtain ⟨p, -, -, -, -, k, hk, -⟩ := forall₂_mem_right hmap hr
    show 0 ≤ r.row.item
    omega)
  obtain ⟨j1, j2⟩ := maxPlusOne_ok hP (by
    intro x hx
    obtain ⟨y, hy, rfl⟩ := List.mem_map.1 hx
    obtain ⟨r, hr, rfl⟩ := (hmem y).1 hy
    obtain ⟨p, hp, hpp, -⟩ := forall₂_mem_right hmap hr
    have := hpos p hp
    show 0 ≤ r.pos
    omega)
  unfold gaSatf at h2
  obtain ⟨-, -, h2⟩ := (bind_ok_iff _ _ _).1 h2
  obtain ⟨f0, hf0, h2⟩ := (bind_ok_iff _ _ _).1 h2
  obtain ⟨lp, hlp, -⟩ := (bind_ok_iff _ _ _).1 h2
  unfold placeInit at hf0
  obtain ⟨a0, -, hf0⟩ := (bind_ok_iff _ _ _).1 hf0
  obtain ⟨a1, ha1, hf0⟩ := (bind_ok_iff _ _ _).1 hf0
  obtain ⟨a2, ha2, hf0⟩ := (bind_ok_iff _ _ _).1 hf0
  have hf0 := Except.ok.inj hf0
  subst hf0
  obtain ⟨b1, -⟩ := placeRows_fits ha1
  obtain ⟨-, b2⟩ := placeRows_fits ha2
  have b1 : is.length ≤ n1 := by
    have e := h.shape.2.1.1
    dsimp only at e b1
    rw [e] at b1
    exact b1
  have b2 : a2.rows = n2 := b2
  have hcol : cfg.seqLen = n2 := by
    obtain ⟨n, hn'⟩ : ∃ n, cfg.nIter = n + 1 := ⟨cfg.nIter - 1, by omega⟩
    rw [hn'] at hlp
    unfold hooiLoop at hlp
    obtain ⟨s1, hs1, -⟩ := (bind_ok_iff _ _ _).1 hlp
    unfold onState gaSatfSweep at hs1
    obtain ⟨s2, hs2, -⟩ := (bind_ok_iff _ _ _).1 hs1
    obtain ⟨s3, hs3, -⟩ := (bind_ok_iff _ _ _).1 hs2
    by_contra hc
    rw [Mat.dot_error (by
      show m.att.cols ≠ a2.rows
      rw [(tdInit_cols hlen hatt).2.1, b2]
      exact hc)] at hs3
    cases hs3
  refine ⟨?_, ?_, ?_⟩
  · obtain ⟨y, hy, hye⟩ := List.mem_map.1 i1
    obtain ⟨r, hr, rfl⟩ := (hmem y).1 hy
    have hye : r.row.item = (n1 : ℤ) - 1 := hye
    obtain ⟨p, hp, -, -, -, k, hk, hk'⟩ := forall₂_mem_right hmap hr
    refine ⟨p, hp, ?_⟩
    rcases Nat.lt_or_ge k is.length with hlt | hge
    · right
      rw [List.getElem?_append_left hlt] at hk'
      rw [List.getLast?_eq_getElem?, ← hk']
      congr 1
      omega
    · left
      intro hin
      obtain ⟨l, hl⟩ := List.mem_iff_getElem?.1 hin
      have hll := (List.getElem?_eq_some_iff.1 hl).1
      have := getElem?_inj_nodup gi.nodup hk' (by rw [List.getElem?_append_left hll]; exact hl)
      omega
  · intro r hr
    obtain ⟨p, hp, hpp, -⟩ := forall₂_mem_left hmap hr
    have := j2 p.pos (List.mem_map.2 ⟨p.inter, (hmem _).2 ⟨p, hp, rfl⟩, rfl⟩)
    omega
  · obtain ⟨y, hy, hye⟩ := List.mem_map.1 j1
    obtain ⟨r, hr, rfl⟩ := (hmem y).1 hy
    have hye : r.pos = (n2 : ℤ) - 1 := hye
    obtain ⟨p, hp, hpp, -⟩ := forall₂_mem_right hmap hr
    exact ⟨p, hp, by omega⟩

/-- Retraining on a table that has all users known so far: when it succeeds and what it leaves. -/
theorem reTrain_iff {cfg : TDCfg K} (hlen : 1 ≤ cfg.seqLen) (hatt : tdInit cfg = .ok m) (hn : 1 ≤ cfg.nIter)
    {reg : List (Row K)} {t t' : List (PRow K)} (h : ReAt cfg m st reg t) (hpos : ∀ r ∈ t', 0 ≤ r.pos)
    (hall : ∀ r ∈ reg, ∃ p ∈ t', p.row.user = r.user) (hreg : reg ≠ []) :
    ((∃ st', tdReTrain cfg m st.seqHist t' (some ⟨st.u, st.v, st.w⟩) (some st.maps) = .ok st') ↔
      KeepsItem reg t' ∧ (∀ r ∈ t', r.pos < cfg.seqLen) ∧ ∃ r ∈ t', r.pos + 1 = cfg.seqLen) ∧
    ∀ st', tdReTrain cfg m st.seqHist t' (some ⟨st.u, st.v, st.w⟩) (some st.maps) = .ok st' →
      ReAt cfg m st' (reg ++ t'.map PRow.row) t' := by
  obtain ⟨us, is, d, ins, h⟩ := h
  have hus : ∀ x ∈ us, ∃ p ∈ t', p.row.user = x := by
    intro x hx
    obtain ⟨r, hr, rfl⟩ := List.mem_map.1 ((h.firstUsers.mem x).1 hx)
    exact hall r hr
  have hlu : ∃ r ∈ t', r.row.user ∉ us ∨ us.getLast? = some r.row.user := by
    obtain ⟨r, hr⟩ := List.exists_mem_of_ne_nil _ hreg
    have hne : us ≠ [] := List.ne_nil_of_mem ((h.firstUsers.mem _).2 (List.mem_map_of_mem hr))
    obtain ⟨p, hp, hpe⟩ := hus _ (List.getLast_mem hne)
    exact ⟨p, hp, Or.inr (by rw [List.getLast?_eq_some_getLast hne, hpe])⟩
  have hsucc : (∃ r ∈ t', r.row.item ∉ is ∨ is.getLast? = some r.row.item) → (∀ r ∈ t', r.pos < cfg.seqLen) →
      (∃ r ∈ t', r.pos + 1 = cfg.seqLen) →
      ∃ st', tdReTrain cfg m st.seqHist t' (some ⟨st.u, st.v, st.w⟩) (some st.maps) = .ok st' ∧
        ReAt cfg m st' (reg ++ t'.map PRow.row) t' := by
    intro k1 k2 k3
    obtain ⟨st', nu, ni, g1, g2, g3, g4, g5, g6⟩ := retrain_success cfg m hlen hatt st.seqHist t' ⟨st.u, st.v, st.w⟩
      st.maps us is h.user h.item h.shape hlu k1 (fun r hr => ⟨hpos r hr, k2 r hr⟩) k3 h.rank.1 h.rank.2
    refine ⟨st', g1, us ++ nu, is ++ ni, ?_⟩
    have hrows : ∃ rows, mapDfColumns (t'.map PRow.row) (registerNew st.maps (t'.map PRow.row)) = .ok rows := by
      obtain ⟨-, -, -, -, -, -, hrows⟩ := C29_ids_stable st.maps us is h.user h.item (t'.map PRow.row)
      exact hrows
    obtain ⟨rows, hrows⟩ := hrows
    have g1' := g1
    unfold tdReTrain at g1'
    simp only at g1'
    rw [hrows, except_bind_ok] at g1'
    obtain ⟨tt, f, g, cbE, aw, lw, e1, e2, e3, e4, e5, e6, e7, e8, e9, e10, e11, e12⟩ := tdFit_ok g1'
    have hlast : ∃ lw v, m.attInv.T.dot st'.w = .ok lw ∧ lw.row (-1) = .ok v ∧ st'.lastPos = ⟨_, v⟩ := by
      unfold tdFit at g1'
      simp only [bind_ok_iff] at g1'
      obtain ⟨_, _, ⟨⟨f, g⟩, cbEnd⟩, _, _, _, lw, hlw, last, hlast, hh⟩ := g1'
      have hh := Except.ok.inj hh
      subst hh
      exact ⟨lw, last, hlw, hlast, rfl⟩
    rw [e5] at g4 g5
    have hmap := retrain_mapped t' _ (us ++ nu) (is ++ ni) g4 g5 rows hrows
    have hful : ∀ x ∈ us ++ nu, ∃ p ∈ t', p.row.user = x := by
      intro x hx
      rcases List.mem_append.1 hx with hx | hx
      · exact hus x hx
      · obtain ⟨p, hp, hpe⟩ := List.mem_map.1 (List.mem_filter.1 ((g2.mem x).1 hx)).1
        exact ⟨p, hp, hpe⟩
    obtain ⟨q1, q2⟩ := mapped_inters g4.nodup hmap hful
    refine ⟨withPos rows t', ins ++ sortedInds (withPos rows t'), ?_⟩
    refine ⟨by rw [e5]; exact g4, by rw [e5]; exact g5, ?_, ?_, hmap, e6, g6, ?_, ?_, hlast, ?_, ?_, ?_, hful⟩
    · rw [List.map_append, List.map_map]
      exact firstAppearance_extend h.firstUsers g2
    · rw [List.map_append, List.map_map]
      exact firstAppearance_extend h.firstItems g3
    · obtain ⟨v1, v2, v3, v4⟩ := h.rank
      exact ⟨v1, by rw [List.length_append]; omega, by rw [List.length_append]; omega, v4⟩
    · rw [e10, e12]; exact e3
    · rw [e7]; exact histInv_update _ _ _ _ h.seq
    · intro a y hy
      rw [itemsOf_append, List.mem_append] at hy
      rcases hy with hy | hy
      · have := h.range a y hy
        rw [List.length_append]
        omega
      · exact q1 a y hy
    · intro a ha hnil
      rw [itemsOf_append] at hnil
      exact q2 a ha (List.append_eq_nil_iff.1 hnil).2
  refine ⟨⟨?_, ?_⟩, ?_⟩
  · rintro ⟨st', hs⟩
    obtain ⟨k1, k2, k3⟩ := reTrain_needs hlen hatt hn h hpos hs
    exact ⟨⟨is, h.firstItems, k1⟩, k2, k3⟩
  · rintro ⟨⟨items, k0, k1⟩, k2, k3⟩
    obtain rfl := k0.unique h.firstItems
    obtain ⟨st', hs, -⟩ := hsucc k1 k2 k3
    exact ⟨st', hs⟩
  · intro st' hs
    obtain ⟨k1, k2, k3⟩ := reTrain_needs hlen hatt hn h hpos hs
    obtain ⟨st'', hs', hat⟩ := hsucc k1 k2 k3
    obtain rfl := Except.ok.inj (hs.symm.trans hs')
    exact hat

/-! ### Looking at the recommender -/

theorem ReAt.look {reg : List (Row K)} {t : List (PRow K)} (h : ReAt c m st reg t) (hL : 2 ≤ c.seqLen)
    (hatt : tdInit c = .ok m) {argp : ArgPart K} (hargp : ArgPartOk argp) {k : ℕ} (hk : 1 ≤ k) (h2 : 2 ≤ numItems reg) :
    SeqLook argp st k reg (t.map PRow.row) c.hooi.rank.1 c.hooi.rank.2.1 := by
  obtain ⟨us, is, d, ins, h⟩ := h
  obtain ⟨⟨s1, s2⟩, ⟨s3, s4⟩, s5, s6⟩ := h.shape
  dsimp only at s1 s2 s3 s4 s5 s6
  have hist : List.Forall₂ (fun (x : Row K) (p : ℤ × ℤ) => ∃ a b : ℕ, p = ((a : ℤ), (b : ℤ)) ∧
      us[a]? = some x.user ∧ is[b]? = some x.item) (t.map PRow.row) st.view.history := by
    rw [show st.view.history = _ from h.history, List.forall₂_map_left_iff, List.forall₂_map_right_iff]
    refine h.mapped.imp ?_
    rintro p p' ⟨-, -, ⟨k, h3, h4⟩, ⟨l, h5, h6⟩⟩
    exact ⟨k, l, by rw [h3, h5], h4, h6⟩
  have hview : ViewOk st.view us is := by
    refine ⟨h.user, h.item, s1, s3, ?_⟩
    intro p hp
    obtain ⟨x, -, a, b, rfl, ha, hb⟩ := forall₂_mem_right hist hp
    have e1 := (List.getElem?_eq_some_iff.1 ha).1
    have e2 := (List.getElem?_eq_some_iff.1 hb).1
    have e3 : st.view.nUsers = us.length := s1
    have e4 : st.view.nItems = is.length := s3
    rw [e3, e4]
    dsimp only
    omega
  have hkn : Knows st.view us is reg (t.map PRow.row) := by
    refine ⟨hview, hist, fun x => ?_, fun x => ?_, fun x hx => ?_⟩
    · rw [h.firstUsers.mem, List.mem_map]
    · rw [h.firstItems.mem, List.mem_map]
    · obtain ⟨p, hp, hpe⟩ := h.full x hx
      exact ⟨p.row, List.mem_map_of_mem hp, hpe⟩
  obtain ⟨g, hg⟩ := seq_setting hL hatt hview s5 h.aw h.last h.seq h.range h.nonempty hargp hk (by rw [hkn.nItems]; exact h2)
  exact ⟨⟨us, is, g, hkn, hg⟩, by rw [s1, hkn.nUsers], by rw [s3, hkn.nItems], s2, s4⟩

/-! ### The states of a run -/

variable [FloorRing K]

/-- The object has been trained on the cropped table of the initial rows and again, from its last factors, after every
chunk. -/
abbrev TdReRetrained (L : ℕ) (c : TDCfg K) (m : TDAtt K) (initial : List (Row K)) (past : List (List (Row K)))
    (st : TDState K) : Prop :=
  Retrained L (fun t => tdReTrain c m [] t none none)
    (fun s t => tdReTrain c m s.seqHist t (some ⟨s.u, s.v, s.w⟩) (some s.maps)) initial past st

/-- The state after the first training. -/
theorem first_at {cfg : TICfg K} {L : ℕ} (hlen : 1 ≤ cfg.td.seqLen) (hatt : tdInit cfg.td = .ok m) (hn : 1 ≤ cfg.td.nIter)
    {initial : List (Row K)} {t : List (PRow K)} (ht : IsCropped L initial t)
    (h : tdReTrain cfg.td m [] t none none = .ok st) : ReAt cfg.td m st (t.map PRow.row) t := by
  have h : tdTrain cfg.td m (none : Option (ExitCallback K Unit)) () [] t = .ok st := h
  obtain ⟨g1, g2⟩ := (C129_train cfg.td m hlen hatt hn (none : Option (ExitCallback K Unit)) () []
    (fun f hf => by cases hf) L _ _ ht).1 ⟨_, h⟩
  obtain ⟨p1, p2⟩ := cropped_pos ht
  have fu : FirstAppearance (t.map fun p => p.row.user) (pdUnique (t.map fun p => p.row.user)) := firstAppearance_pdUnique _
  have fi : FirstAppearance (t.map fun p => p.row.item) (pdUnique (t.map fun p => p.row.item)) := firstAppearance_pdUnique _
  generalize pdUnique (t.map fun p => p.row.user) = users at fu
  generalize pdUnique (t.map fun p => p.row.item) = items at fi
  have n1 : users.length = numUsers (t.map PRow.row) := by
    unfold numUsers
    rw [List.map_map]
    exact first_card fu
  have n2 : items.length = numItems (t.map PRow.row) := by
    unfold numItems
    rw [List.map_map]
    exact first_card fi
  rw [← n1, ← n2] at g2
  have hfit : cfg.Fits users items := by
    obtain ⟨⟨a1, a2, a3⟩, a4, a5, a6⟩ := g2
    exact ⟨by rw [Nat.mul_comm]; exact a1, by rw [Nat.mul_comm]; exact a2, by rw [Nat.mul_comm]; exact a3, a4, a5, a6⟩
  obtain ⟨s, rows, mp, l1, l2, l3⟩ := tdTrain_inv hlen hatt (none : Option (ExitCallback K Unit)) () t
    (fun f hf => by cases hf) (fun r hr => ⟨(p1 r hr).1, by have := (p1 r hr).2; have := g1.1 r.row.user; omega⟩) (by
      obtain ⟨u, hu⟩ := g1.2
      obtain ⟨r, hr, -, hp⟩ := p2 u (cfg.td.seqLen - 1) (by omega)
      exact ⟨r, hr, by omega⟩) hn users items fu fi hfit
  obtain rfl := Except.ok.inj (h.symm.trans l2)
  obtain ⟨rows', mp', users', items', k1, k2, k3, k4, k5, k6⟩ := train_mapped t
  obtain rfl := fu.unique k2
  obtain rfl := fi.unique k4
  obtain ⟨rfl, rfl⟩ := Prod.mk.inj (Except.ok.inj (k1.symm.trans l1))
  have hful : ∀ x ∈ users, ∃ p ∈ t, p.row.user = x := fun x hx => List.mem_map.1 ((fu.mem x).1 hx)
  obtain ⟨q1, q2⟩ := mapped_inters fu.nodup k6 hful
  obtain ⟨chunk, c1, -, c3⟩ := l3.seen
  obtain ⟨U, V, W, G, hS⟩ := l3.shape
  refine ⟨users, items, chunk, sortedInds (withPos rows' t), l3.user, l3.item, by rw [List.map_map]; exact fu,
    by rw [List.map_map]; exact fi, c1, c3, ?_, g2, l3.aw, l3.last, l3.hist, q1, q2, hful⟩
  rw [hS.u, hS.v, hS.w]
  exact ⟨⟨rfl, rfl⟩, ⟨rfl, rfl⟩, rfl, rfl⟩

theorem reInit_reg {L : ℕ} (hL : 1 ≤ L) {initial : List (Row K)} {chunks : List (List (Row K))} {tab : ℕ → List (PRow K)}
    {n : ℕ} (htab : ∀ i ≤ n, IsCropped L (initial ++ (chunks.take i).flatten) (tab i)) {i : ℕ} (hi : i + 1 ≤ n) :
    ∀ r ∈ rowsUpTo tab i, ∃ p ∈ tab (i + 1), p.row.user = r.user := by
  intro r hr
  unfold rowsUpTo at hr
  obtain ⟨p, hp, rfl⟩ := List.mem_map.1 hr
  obtain ⟨j, hj, hp⟩ := List.mem_flatMap.1 hp
  rw [List.mem_range] at hj
  have h1 := (crop_mem_user hL (htab j (by omega)) p.row.user).1 (List.mem_map_of_mem (List.mem_map_of_mem hp))
  obtain ⟨x, hx, hxe⟩ := List.mem_map.1 h1
  have h2 := (crop_mem_user hL (htab (i + 1) hi) p.row.user).2 (List.mem_map.2 ⟨x, ?_, hxe⟩)
  · obtain ⟨y, hy, hye⟩ := List.mem_map.1 h2
    obtain ⟨q, hq, rfl⟩ := List.mem_map.1 hy
    exact ⟨q, hq, hye⟩
  · rcases List.mem_append.1 hx with hx | hx
    · exact List.mem_append_left _ hx
    · refine List.mem_append_right _ ?_
      obtain ⟨l, hl, hxl⟩ := List.mem_flatten.1 hx
      exact List.mem_flatten.2 ⟨l, (List.take_sublist_take_left (by omega : j ≤ i + 1)).subset hl, hxl⟩

/-- The condition on positions for a cropped table. -/
theorem cropped_full {L n : ℕ} (hn : 1 ≤ n) {rows : List (Row K)} {t : List (PRow K)} (ht : IsCropped L rows t) :
    ((∀ r ∈ t, r.pos < n) ∧ ∃ r ∈ t, r.pos + 1 = n) ↔ LongestIs L n rows := by
  obtain ⟨p1, p2⟩ := cropped_pos ht
  constructor
  · rintro ⟨h1, r, hr, h2⟩
    have hle : ∀ u, min L (rowsOf u rows).length ≤ n := by
      intro u
      by_contra hh
      obtain ⟨r', g1, -, g3⟩ := p2 u n (not_le.1 hh)
      have := h1 r' g1
      omega
    refine ⟨hle, r.row.user, le_antisymm (hle _) ?_⟩
    have := (p1 r hr).2
    omega
  · rintro ⟨h1, u, h2⟩
    constructor
    · intro r hr
      have g1 := (p1 r hr).2
      have g2 := h1 r.row.user
      omega
    · obtain ⟨r, g1, -, g3⟩ := p2 u (n - 1) (by omega)
      exact ⟨r, g1, by omega⟩

/-- What is known after any number of trainings. -/
theorem reRetrained_state {cfg : TICfg K} {L : ℕ} (hL : 1 ≤ L) (hlen : 1 ≤ cfg.td.seqLen) (hatt : tdInit cfg.td = .ok m)
    (hn : 1 ≤ cfg.td.nIter) {initial : List (Row K)} {past : List (List (Row K))}
    (h : TdReRetrained L cfg.td m initial past st) {tab : ℕ → List (PRow K)}
    (htab : ∀ i ≤ past.length, IsCropped L (initial ++ (past.take i).flatten) (tab i)) :
    ReAt cfg.td m st (rowsUpTo tab past.length) (tab past.length) ∧
      (∀ i ≤ past.length, LongestIs L cfg.td.seqLen (initial ++ (past.take i).flatten)) ∧
      RankFits cfg.td.hooi.rank (numUsers ((tab 0).map PRow.row)) (numItems ((tab 0).map PRow.row)) cfg.td.seqLen ∧
      ∀ i < past.length, KeepsItem (rowsUpTo tab i) (tab (i + 1)) := by
  induction h with
  | @first t s hc ht =>
    have h0 := htab 0 (le_refl _)
    rw [List.take_zero, List.flatten_nil, List.append_nil] at h0
    obtain rfl := C08_crop_unique _ _ _ _ hc h0
    obtain ⟨g1, g2⟩ := (C129_train cfg.td m hlen hatt hn (none : Option (ExitCallback K Unit)) () []
      (fun f hf => by cases hf) L _ _ hc).1 ⟨_, ht⟩
    refine ⟨?_, ?_, g2, fun i hi => absurd hi (by simp)⟩
    · rw [List.length_nil, rowsUpTo_zero]
      exact first_at hlen hatt hn hc ht
    · intro i _
      simpa using g1
  | @again past c t s s' hp hc ht ih =>
    have htk : ∀ i ≤ past.length, (past ++ [c]).take i = past.take i := fun i hi => List.take_append_of_le_length hi
    have hfin : (past ++ [c]).take (past.length + 1) = past ++ [c] := List.take_of_length_le (by simp)
    obtain ⟨k1, k2, k3, k4⟩ := ih fun i hi => by
      rw [← htk i hi]
      exact htab i (by simp; omega)
    have hnew := htab (past.length + 1) (by simp)
    rw [hfin] at hnew
    have hc' : IsCropped L (initial ++ (past ++ [c]).flatten) t := by simpa [List.append_assoc] using hc
    obtain rfl := C08_crop_unique _ _ _ _ hc' hnew
    have hreg : rowsUpTo tab past.length ≠ [] := by
      have h0 := htab 0 (by omega)
      rw [htk 0 (by omega)] at h0
      obtain ⟨-, r, hr, -⟩ := (cropped_full hlen h0).2 (k2 0 (by omega))
      exact List.ne_nil_of_mem (rowsUpTo_mem (by omega : 0 ≤ past.length) (List.mem_map_of_mem hr))
    obtain ⟨g1, g2⟩ := reTrain_iff hlen hatt hn k1 (fun r hr => ((cropped_pos hc').1 r hr).1)
      (reInit_reg hL htab (by simp)) hreg
    obtain ⟨j1, j2⟩ := g1.1 ⟨_, ht⟩
    refine ⟨?_, ?_, k3, ?_⟩
    · rw [List.length_append, List.length_singleton, rowsUpTo_succ]
      exact g2 _ ht
    · intro i hi
      rw [List.length_append, List.length_singleton] at hi
      rcases Nat.lt_or_ge past.length i with h | h
      · obtain rfl : i = past.length + 1 := by omega
        rw [hfin]
        exact (cropped_full hlen hc').1 j2
      · rw [htk i h]
        exact k2 i h
    · intro i hi
      rw [List.length_append, List.length_singleton] at hi
      rcases Nat.lt_or_ge i past.length with h | h
      · exact k4 i h
      · obtain rfl : i = past.length := by omega
        exact j1

/-! ### The experiment -/

/-- What the run needs (`ReinitNeeds` for one run). -/
def ReinitSteps (L n k : ℕ) (r : ℕ × ℕ × ℕ) (tests : List ℤ) (initial : List (Row K)) (chunks : List (List (Row K)))
    (tab : ℕ → List (PRow K)) : Prop :=
  (∀ i ≤ chunks.length, IsCropped L (initial ++ (chunks.take i).flatten) (tab i) ∧
      LongestIs L n (initial ++ (chunks.take i).flatten)) ∧
    RankFits r (numUsers ((tab 0).map PRow.row)) (numItems ((tab 0).map PRow.row)) n ∧
    (∀ i < chunks.length, KeepsItem (rowsUpTo tab i) (tab (i + 1))) ∧
    (∀ (i : ℕ) (c : List (Row K)), chunks[i]? = some c →
      StepRunsOn k tests (rowsUpTo tab i) ((tab i).map PRow.row) c) ∧
    (2 ≤ chunks.length → tests ≠ [])

theorem rowsUpTo_items {tab : ℕ → List (PRow K)} {i j : ℕ} (h : i ≤ j) :
    numItems (rowsUpTo tab i) ≤ numItems (rowsUpTo tab j) ∧ numUsers (rowsUpTo tab i) ≤ numUsers (rowsUpTo tab j) := by
  have hsub : rowsUpTo tab i ⊆ rowsUpTo tab j := by
    intro r hr
    unfold rowsUpTo at hr
    obtain ⟨p, hp, rfl⟩ := List.mem_map.1 hr
    obtain ⟨l, hl, hp⟩ := List.mem_flatMap.1 hp
    rw [List.mem_range] at hl
    exact rowsUpTo_mem (by omega) (List.mem_map_of_mem hp)
  constructor
  · unfold numItems
    refine Finset.card_le_card fun x hx => ?_
    rw [List.mem_toFinset] at hx ⊢
    exact List.map_subset _ hsub hx
  · unfold numUsers
    refine Finset.card_le_card fun x hx => ?_
    rw [List.mem_toFinset] at hx ⊢
    exact List.map_subset _ hsub hx

theorem tdReRun_iff {cfg : TICfg K} (hL : 2 ≤ cfg.td.seqLen) (hatt : tdInit cfg.td = .ok m) (hn : 1 ≤ cfg.td.nIter)
    {argp : ArgPart K} (hargp : ArgPartOk argp) {e : ExpCfg K} (hm : e.chunkMode = false) (hre : e.reinit = true)
    (h3 : e.threeD = true) (hk : 1 ≤ e.kRecs) {initial : List (Row K)} {t : List (PRow K)}
    (ht : getDfWithCroppedPos initial e.maxLen true = .ok t)
    (htest : ∀ u ∈ e.testUsers, ∃ r ∈ initial, r.user = u) (h2 : 2 ≤ numItems (t.map PRow.row))
    (stream : List (List (Row K))) :
    (∃ d, runWith (useTrain (tdReClass argp cfg.td m)) e none (.posed t) stream = .ok d) ↔
      ∃ tab, ReinitSteps e.maxLen cfg.td.seqLen e.kRecs cfg.td.hooi.rank e.testUsers initial
        (stream.take (expSteps e.howMany stream.length)) tab := by
  have hcr := crop_ok_isCropped _ _ _ ht
  obtain ⟨hne0, hM, -⟩ := crop_ok_inv _ _ _ ht
  have hlen : 1 ≤ cfg.td.seqLen := by omega
  generalize hch : stream.take (expSteps e.howMany stream.length) = chunks at *
  have hzero : ∀ {tab : ℕ → List (PRow K)}, (∀ i ≤ chunks.length,
      IsCropped e.maxLen (initial ++ (chunks.take i).flatten) (tab i)) → tab 0 = t := by
    intro tab htab
    have h0 := htab 0 (by omega)
    rw [List.take_zero, List.flatten_nil, List.append_nil] at h0
    exact C08_crop_unique _ _ _ _ h0 hcr
  have hknown : ∀ {tab : ℕ → List (PRow K)}, (∀ i ≤ chunks.length,
      IsCropped e.maxLen (initial ++ (chunks.take i).flatten) (tab i)) → ∀ i, ∀ u ∈ e.testUsers,
      ∃ r ∈ rowsUpTo tab i, r.user = u := by
    intro tab htab i u hu
    obtain ⟨r, hr, hru⟩ := htest u hu
    have := (crop_mem_user hM hcr u).2 (List.mem_map.2 ⟨r, hr, hru⟩)
    obtain ⟨x, hx, hxe⟩ := List.mem_map.1 this
    rw [← hzero htab] at hx
    exact ⟨x, rowsUpTo_mem (by omega) hx, hxe⟩
  have hstate : ∀ {tab : ℕ → List (PRow K)}, (∀ i ≤ chunks.length,
      IsCropped e.maxLen (initial ++ (chunks.take i).flatten) (tab i)) → ∀ {i : ℕ} {st : TDState K}, i ≤ chunks.length →
      TdReRetrained e.maxLen cfg.td m initial (chunks.take i) st → ReAt cfg.td m st (rowsUpTo tab i) (tab i) := by
    intro tab htab i st hi h
    have hl : (chunks.take i).length = i := by rw [List.length_take]; omega
    have := (reRetrained_state hM hlen hatt hn h (tab := tab) fun j hj => by
      rw [hl] at hj
      rw [List.take_take, min_eq_left hj]
      exact htab j (by omega)).1
    rwa [hl] at this
  have hlook : ∀ {tab : ℕ → List (PRow K)}, (∀ i ≤ chunks.length,
      IsCropped e.maxLen (initial ++ (chunks.take i).flatten) (tab i)) → ∀ {i : ℕ} {st : TDState K}, i ≤ chunks.length →
      TdReRetrained e.maxLen cfg.td m initial (chunks.take i) st →
      SeqLook argp st e.kRecs (rowsUpTo tab i) ((tab i).map PRow.row) cfg.td.hooi.rank.1 cfg.td.hooi.rank.2.1 := by
    intro tab htab i st hi h
    refine (hstate htab hi h).look hL hatt hargp hk ?_
    have h0 : 2 ≤ numItems (rowsUpTo tab 0) := by rw [rowsUpTo_zero, hzero htab]; exact h2
    exact h0.trans (rowsUpTo_items (by omega)).1
  constructor
  · rintro ⟨d, h⟩
    obtain ⟨snaps, s', hw, hrec⟩ := runWith_ok h
    rw [hch] at hw
    have hl := watched_length _ _ hw
    have hex : ∀ i, ∃ t', IsCropped e.maxLen (initial ++ (chunks.take i).flatten) t' := fun i => by
      obtain ⟨x, -, h⟩ := cropped_exists hM (a := initial ++ (chunks.take i).flatten) (by simp [hne0])
      exact ⟨x, h⟩
    choose tab htab' using hex
    have htab : ∀ i ≤ chunks.length, IsCropped e.maxLen (initial ++ (chunks.take i).flatten) (tab i) :=
      fun i _ => htab' i
    have key : ∀ (i : ℕ) c snap, chunks[i]? = some c → snaps[i]? = some snap →
        ∃ st, TdReRetrained e.maxLen cfg.td m initial (chunks.take i) st ∧
          Snapshot (tdFace argp st) e.testUsers e.kRecs c snap := by
      intro i c snap hc hsn
      obtain ⟨si, s1, k1, k2⟩ := watched_at hw i c snap hc hsn
      obtain ⟨st, rfl, hst⟩ := tdRe_watched hm hre h3 ht k1
      exact ⟨st, hst, (td_shows (c0 := cfg.td) (m := m) rfl rfl rfl rfl rfl k2).2⟩
    obtain ⟨st, -, hst⟩ := tdRe_watched hm hre h3 ht hw
    obtain ⟨-, g1, g2, g3⟩ := reRetrained_state hM hlen hatt hn hst htab
    refine ⟨tab, fun i hi => ⟨htab i hi, g1 i hi⟩, g2, g3, ?_, ?_⟩
    · intro i c hc
      have hi' := (List.getElem?_eq_some_iff.1 hc).1
      obtain ⟨st', k1, k2⟩ := key i c _ hc (List.getElem?_eq_getElem (by omega))
      exact ((hlook htab hi'.le k1).snapshot_iff (hknown htab i) c).1 ⟨_, k2⟩
    · intro h2'
      refine tests_nonempty hrec (by omega) fun sn hsn => ?_
      obtain ⟨i, hi⟩ := List.mem_iff_getElem?.1 hsn
      have hi' := (List.getElem?_eq_some_iff.1 hi).1
      obtain ⟨st, hst, hh⟩ := key i _ _ (List.getElem?_eq_getElem (by omega)) hi
      exact (hlook htab (by omega) hst).snapshot_length (hknown htab i) hh
  · rintro ⟨tab, htl, hrank, hkeep, hsteps, hnet⟩
    have htab : ∀ i ≤ chunks.length, IsCropped e.maxLen (initial ++ (chunks.take i).flatten) (tab i) :=
      fun i hi => (htl i hi).1
    have ht0 := hzero htab
    have hlong0 := (htl 0 (by omega)).2
    rw [List.take_zero, List.flatten_nil, List.append_nil] at hlong0
    obtain ⟨st0, h0⟩ := (C129_train cfg.td m hlen hatt hn (none : Option (ExitCallback K Unit)) () []
      (fun f hf => by cases hf) e.maxLen _ _ hcr).2 ⟨hlong0, by rw [← ht0]; exact hrank⟩
    have h0 : tdReTrain cfg.td m [] t none none = .ok st0 := h0
    refine experiment_runs (f := tdFace argp st0) (s1 := some st0)
      (fun past s conc f => ∃ st t', s = some st ∧ TdReRetrained e.maxLen cfg.td m initial past st ∧
        getDfWithCroppedPos (initial ++ past.flatten) e.maxLen true = .ok t' ∧ conc = .posed t' ∧ f = tdFace argp st)
      ?_ ?_ ?_ ?_
    · show (tdReTrain cfg.td m [] t none none >>= fun s => pure (some s)) = _
      rw [h0]; rfl
    · exact ⟨st0, t, rfl, .first hcr h0, by simpa using ht, rfl, rfl⟩
    · rintro past c htk s conc f ⟨st, tp, rfl, hst, htp, rfl, rfl⟩
      obtain ⟨q1, q2⟩ := taken_chunk htk
      rw [hch] at q1 q2
      have hlt := (List.getElem?_eq_some_iff.1 q1).1
      have c1 := htab past.length hlt.le
      rw [q2] at c1
      have htp' := crop_ok_isCropped _ _ _ htp
      have hst' : TdReRetrained e.maxLen cfg.td m initial (chunks.take past.length) st := by rw [q2]; exact hst
      obtain rfl := C08_crop_unique _ _ _ _ htp' c1
      refine ⟨tdOffers (M := useTrain (tdReClass argp cfg.td m)) (argp := argp) (c0 := cfg.td) (m := m) rfl rfl rfl rfl rfl st,
        ((hlook htab hlt.le hst').snapshot_iff (hknown htab _) c).2 (hsteps _ c q1), ?_⟩
      obtain ⟨n1, n2⟩ := htl (past.length + 1) hlt
      have hpc : chunks.take (past.length + 1) = past ++ [c] := by
        rw [List.take_add_one, q1, q2]; rfl
      rw [hpc] at n1 n2
      have hnew : getDfWithCroppedPos (initial ++ (past ++ [c]).flatten) e.maxLen true = .ok (tab (past.length + 1)) := by
        obtain ⟨x, x1, x2⟩ := cropped_exists hM (a := initial ++ (past ++ [c]).flatten) (by simp [hne0])
        rw [x1, C08_crop_unique _ _ _ _ x2 n1]
      have hconc : getDfWithCroppedPos ((tab past.length).map PRow.row ++ c) e.maxLen true =
          .ok (tab (past.length + 1)) := by
        obtain ⟨x, x1, x2⟩ := cropped_exists hM (a := (tab past.length).map PRow.row ++ c) (by
          intro hnil
          have := (crop_mem_user hM c1 (initial.head hne0).user).2
            (List.mem_map_of_mem (List.mem_append_left _ (List.head_mem hne0)))
          rw [(List.append_eq_nil_iff.1 hnil).1] at this
          cases this)
        have := C64_crop_of_all e.maxLen hM (initial ++ past.flatten) c _ x htp x2
        have hx : x = tab (past.length + 1) := C08_crop_unique _ _ _ _ (by simpa [List.append_assoc] using this) n1
        rw [x1, hx]
      have hreg : rowsUpTo tab past.length ≠ [] := by
        obtain ⟨-, r, hr, -⟩ := (cropped_full hlen hcr).2 hlong0
        rw [← ht0] at hr
        exact List.ne_nil_of_mem (rowsUpTo_mem (by omega) (List.mem_map_of_mem hr))
      obtain ⟨st', hst''⟩ := (reTrain_iff hlen hatt hn (hstate htab hlt.le hst')
        (fun r hr => ((cropped_pos n1).1 r hr).1) (reInit_reg hM htab hlt) hreg).1.2
        ⟨hkeep _ hlt, (cropped_full hlen n1).2 n2⟩
      refine ⟨.posed (tab (past.length + 1)), some st', tdFace argp st', ?_, ?_, st', _, rfl, ?_, hnew, rfl, rfl⟩
      · unfold concatStep
        rw [hm, if_neg (by simp), h3, if_pos rfl]
        show (getDfWithCroppedPos ((tab past.length).map PRow.row ++ c) e.maxLen true >>= fun t => pure (Tab.posed t)) = _
        rw [hconc]; rfl
      · unfold updateStep
        rw [hre, if_pos rfl, hm, if_neg (by simp)]
        show (tdReTrain cfg.td m st.seqHist (tab (past.length + 1)) (some ⟨st.u, st.v, st.w⟩) (some st.maps) >>=
          fun s => pure (some s)) = _
        rw [hst'']; rfl
      · exact .again hst (by simpa [List.append_assoc] using n1) hst''
    · rintro past c d htk s conc f s' conc' f' snap snap' ⟨st, tp, -, hst, htp, -, rfl⟩ ⟨st', tp', -, hst', htp', -, rfl⟩ hs hs'
      obtain ⟨q1, q2⟩ := taken_chunk htk
      rw [hch] at q1 q2
      have hlt := (List.getElem?_eq_some_iff.1 q1).1
      rw [List.length_append, List.length_singleton] at hlt q2
      have q3 : chunks.take past.length = past := by
        have := congrArg (List.take past.length) q2
        rwa [List.take_take, min_eq_left (by omega), List.take_append_of_le_length (by omega), List.take_length] at this
      have l1 := hlook htab (i := past.length) (by omega) (by rw [q3]; exact hst)
      have l2 := hlook htab (i := past.length + 1) (by omega) (by rw [q2]; exact hst')
      have hle := rowsUpTo_items (tab := tab) (by omega : past.length ≤ past.length + 1)
      exact l1.comparable l2 hle.2 hle.1 (hnet (by omega)) (hknown htab _) (hknown htab _) hs hs'

/-! ### The script -/

/-- What is assumed about a run: a sequence length of at least 2 and at least two items in the cropped initial table. -/
structure ReinitAssumed (env : RunEnv K) (cfg : RunCfg K) (ft : FixedTd) (data : List (IRow K)) : Prop where
  argp : ArgPartOk env.argp
  sort : ∀ l, (env.sortCnt l).Perm l
  topk : 1 ≤ cfg.topk
  len : 2 ≤ ft.seqLen
  items : ∀ initial stream left t,
    prepareDataForExperiment env.sortDay data cfg.initRatio cfg.hmMin = .ok (initial, stream, left) →
    IsCropped cfg.maxLen initial t → 2 ≤ numItems (t.map PRow.row)

/-- **C132.** The script completes with `TDRecReinit` exactly if the data can be prepared, the longest sequence of each
cropped table has exactly the configured length, the selected rank fits the first of them, each later table has an item
that is new or the last one registered so far, every chunk taken has a row with ids registered so far, all users to be
scored or tested have at least `topk` registered items that are not theirs in the last table, and there are users for the
stability test if more than one chunk is taken. -/
theorem C132_tdrec_reinit (env : RunEnv K) (cfg : RunCfg K) (fs : FixedSvd) (ft : FixedTd) (data : List (IRow K))
    (h : ReinitAssumed env cfg ft data) :
    (∃ d, runScript env cfg fs ft "TDRecReinit" data = .ok d) ↔ ReinitNeeds env cfg ft data := by
  have hmem : "TDRecReinit" ∈ ["TDRec", "TDRecReinit", "TIRec", "TIRecA", "Random"] := by simp
  have hrun : ∀ {r : ℕ × ℕ × ℕ} {f : K} {m : TDAtt K} {initial left : List (Row K)}
      {stream : List (ℤ × List (Row K))} {t : List (PRow K)} (e : ExpCfg K),
      tdInit (tdSetup env ft r f) = .ok m →
      prepareDataForExperiment env.sortDay data cfg.initRatio cfg.hmMin = .ok (initial, stream, left) →
      getDfWithCroppedPos initial cfg.maxLen true = .ok t → e.chunkMode = false → e.reinit = true → e.threeD = true →
      e.kRecs = cfg.topk → e.testUsers = getUsersStability env.sortCnt initial left cfg.howMany →
      e.howMany = cfg.howMany → e.maxLen = cfg.maxLen →
      ((∃ d, runWith (useTrain (tdReClass env.argp (tdSetup env ft r f) m)) e none (.posed t)
          (stream.map Prod.snd) = .ok d) ↔
        ∃ tab, ReinitSteps cfg.maxLen ft.seqLen cfg.topk r (getUsersStability env.sortCnt initial left cfg.howMany) initial
          ((stream.map Prod.snd).take (expSteps cfg.howMany stream.length)) tab) := by
    intro r f m initial left stream t e h2 h3 h4 e1 e2 e3 e4 e5 e6 e7
    have := tdReRun_iff (cfg := prepTiCfg env (tdSetup env ft r f)) h.len h2 (by show 1 ≤ 25; omega) h.argp e1 e2 e3
      (by rw [e4]; exact h.topk) (by rw [e7]; exact h4) (by rw [e5]; exact stability_known h.sort _ _ _)
      (h.items _ _ _ _ h3 (crop_ok_isCropped _ _ _ h4)) (stream.map Prod.snd)
    rw [e4, e5, e6, e7, List.length_map] at this
    exact this
  constructor
  · rintro ⟨d, hd⟩
    obtain ⟨initial, stream, left, t, p, h1, h2, h3, h4⟩ := script_posed hmem hd
    unfold prepareModel at h3
    rw [if_neg (by decide), if_neg (by decide), if_neg (by decide), if_pos rfl] at h3
    obtain ⟨c, k1, h3⟩ := (bind_ok_iff _ _ _).1 h3
    obtain ⟨m, k2, h3⟩ := (bind_ok_iff _ _ _).1 h3
    have h3 := Except.ok.inj h3
    subst h3
    obtain ⟨r1, r2, r3, f, n, l1, rfl, l3⟩ := prepTdCfg_ok rfl k1 k2
    obtain ⟨tab, g1, g2, g3, g4, g5⟩ := (hrun (r := (r1, r2, r3)) _ l3 h1 h2 rfl rfl rfl rfl rfl rfl rfl).1 ⟨d, h4⟩
    exact ⟨initial, stream, left, _, (r1, r2, r3), f, n, tab, h1, rfl, l1, g1, g2, g3, g4, g5⟩
  · rintro ⟨initial, stream, left, chunks, r, f, n, tab, h1, rfl, l1, g1, g2, g3, g4, g5⟩
    have hlen := h.len
    obtain ⟨a1, a2⟩ := g1 0 (by omega)
    simp only [List.take_zero, List.flatten_nil, List.append_nil] at a1 a2
    have h4 := longest_crop (by omega) a2 a1
    obtain ⟨m, hm⟩ : ∃ m, tdInit (tdSetup env ft r f) = .ok m := ⟨_, tdInit_eq _ (by show 1 ≤ ft.seqLen; omega)⟩
    have hpc := prepTdCfg_mk (env := env) (cfg := cfg) (ft := ft) l1
    have h2 : prepareModel env { cfg with fixedSvd := none, fixedTd := some ft } "TDRecReinit" =
        .ok ⟨.tdRe (tdSetup env ft r f) m, true, false, true, true, some cfg.maxLen⟩ := by
      unfold prepareModel prepareTdRe
      rw [if_neg (by decide), if_neg (by decide), if_neg (by decide), if_pos rfl, hpc, except_bind_ok, hm]
      rfl
    rw [script_posed_eq hmem h1 h4 h2]
    exact (hrun _ hm h1 h4 rfl rfl rfl rfl rfl rfl rfl).2 ⟨tab, g1, g2, g3, g4, g5⟩

end

/-! ### Example: the data on which `TDRec` stops because item 41 falls out of the table -/

def exLoseTab : ℕ → List (PRow ℝ)
  | 0 => exSeqInitialC
  | 1 => [⟨⟨7, 40, 1, 0, 0⟩, 0⟩, ⟨⟨8, 42, 1, 2, 0⟩, 0⟩, ⟨⟨8, 43, 1, 3, 0⟩, 1⟩, ⟨⟨8, 43, 1, 4, 1⟩, 2⟩]
  | _ => [⟨⟨7, 40, 1, 0, 0⟩, 0⟩, ⟨⟨7, 43, 1, 6, 2⟩, 1⟩, ⟨⟨8, 42, 1, 2, 0⟩, 0⟩, ⟨⟨8, 43, 1, 3, 0⟩, 1⟩,
      ⟨⟨8, 43, 1, 4, 1⟩, 2⟩]

theorem exLose_reinit_assumed : ReinitAssumed exSeqEnv exLoseCfg exFixTd exLoseData where
  argp := exSeq_argp
  sort _ := List.Perm.refl _
  topk := le_refl _
  len := by decide
  items := by
    intro initial stream left t h1 h2
    have h1 := Except.ok.inj (exLose_split.symm.trans h1)
    injection h1 with e1 h1
    subst e1
    rw [C08_crop_unique _ _ _ _ h2 (crop_ok_isCropped _ _ exSeqInitialC rfl)]
    decide

/-- The ids registered by the tables are always 40, 41, 42 and 43. -/
theorem exLose_items (i : ℕ) (hi : i < 2) : FirstAppearance ((rowsUpTo exLoseTab i).map Row.item) [40, 41, 42, 43] := by
  have : [40, 41, 42, 43] = pdUnique ((rowsUpTo exLoseTab i).map Row.item) := by
    match i, hi with
    | 0, _ => rfl
    | 1, _ => rfl
  rw [this]
  exact firstAppearance_pdUnique _

theorem exLose_reinit_needs : ReinitNeeds exSeqEnv exLoseCfg exFixTd exLoseData := by
  refine ⟨exSeqInitial, _, _, [[⟨8, 43, 1, 4, 1⟩], [⟨7, 43, 1, 6, 2⟩]], (1, 1, 1), 1, 2, exLoseTab, exLose_split, rfl,
    exSeq_td, ?_, ⟨by decide, by decide, by decide, by decide⟩, ?_, ?_, fun _ => by decide⟩
  · have hlong : ∀ rows : List (Row ℝ), min 3 (rowsOf 8 rows).length = 3 → LongestIs exLoseCfg.maxLen exFixTd.seqLen rows :=
      fun rows h => ⟨fun u => min_le_left _ _, 8, h⟩
    intro i hi
    match i, hi with
    | 0, _ => exact ⟨crop_ok_isCropped _ _ _ rfl, hlong _ rfl⟩
    | 1, _ => exact ⟨crop_ok_isCropped _ _ _ rfl, hlong _ rfl⟩
    | 2, _ => exact ⟨crop_ok_isCropped _ _ _ rfl, hlong _ rfl⟩
    | i + 3, hi =>
      have hi : i + 3 ≤ 2 := hi
      omega
  · intro i hi
    refine ⟨_, exLose_items i hi, ⟨⟨8, 43, 1, 3, 0⟩, 1⟩, ?_, Or.inr rfl⟩
    match i, hi with
    | 0, _ => simp [exLoseTab]
    | 1, _ => simp [exLoseTab]
  · intro i c hc
    match i, hc with
    | 0, hc =>
      have hc := Option.some.inj hc
      subst hc
      refine ⟨⟨⟨8, 43, 1, 4, 1⟩, by simp, by decide⟩, ?_, by decide⟩
      intro r hr _
      rw [List.mem_singleton.1 hr]
      decide
    | 1, hc =>
      have hc := Option.some.inj hc
      subst hc
      refine ⟨⟨⟨7, 43, 1, 6, 2⟩, by simp, by decide⟩, ?_, by decide⟩
      intro r hr _
      rw [List.mem_singleton.1 hr]
      decide

/-- Unlike with `TDRec`, the script completes. -/
example : ∃ d, runScript exSeqEnv exLoseCfg exFixSvd exFixTd "TDRecReinit" exLoseData = .ok d :=
  (C132_tdrec_reinit _ _ _ _ _ exLose_reinit_assumed).2 exLose_reinit_needs

/-! The last item registered, 41, falls out of the table at the first chunk: the script stops. -/

def exDropData : List (IRow ℝ) :=
  [⟨0, ⟨7, 42, 1, 0, 0⟩⟩, ⟨1, ⟨8, 41, 1, 1, 0⟩⟩, ⟨2, ⟨8, 42, 1, 2, 0⟩⟩, ⟨3, ⟨8, 42, 1, 3, 0⟩⟩, ⟨4, ⟨8, 42, 1, 4, 1⟩⟩]
noncomputable def exDropCfg : RunCfg ℝ := { exSeqCfg with initRatio := 4 / 5 }
def exDropInitial : List (Row ℝ) := [⟨7, 42, 1, 0, 0⟩, ⟨8, 41, 1, 1, 0⟩, ⟨8, 42, 1, 2, 0⟩, ⟨8, 42, 1, 3, 0⟩]

theorem exDrop_split : prepareDataForExperiment exSeqEnv.sortDay exDropData exDropCfg.initRatio exDropCfg.hmMin =
    .ok (exDropInitial, [(1, [⟨8, 42, 1, 4, 1⟩])], [⟨8, 42, 1, 4, 1⟩]) := by
  have h : pyInt ((exDropData.length : ℝ) * exDropCfg.initRatio) = 4 := by
    show pyInt ((5 : ℕ) * (4 / 5) : ℝ) = 4
    have : ((5 : ℕ) * (4 / 5) : ℝ) = 4 := by norm_num
    rw [this]
    unfold pyInt
    rw [if_pos (by norm_num)]
    norm_num
  unfold prepareDataForExperiment
  rw [h]
  rfl

def exDropTable0 : List (PRow ℝ) := [⟨⟨7, 42, 1, 0, 0⟩, 0⟩, ⟨⟨8, 41, 1, 1, 0⟩, 0⟩, ⟨⟨8, 42, 1, 2, 0⟩, 1⟩, ⟨⟨8, 42, 1, 3, 0⟩, 2⟩]
def exDropTable1 : List (PRow ℝ) := [⟨⟨7, 42, 1, 0, 0⟩, 0⟩, ⟨⟨8, 42, 1, 2, 0⟩, 0⟩, ⟨⟨8, 42, 1, 3, 0⟩, 1⟩, ⟨⟨8, 42, 1, 4, 1⟩, 2⟩]

theorem exDrop_assumed : ReinitAssumed exSeqEnv exDropCfg exFixTd exDropData where
  argp := exSeq_argp
  sort _ := List.Perm.refl _
  topk := le_refl _
  len := by decide
  items := by
    intro initial stream left t h1 h2
    have h1 := Except.ok.inj (exDrop_split.symm.trans h1)
    injection h1 with e1 h1
    subst e1
    rw [C08_crop_unique _ _ _ _ h2 (crop_ok_isCropped _ _ exDropTable0 rfl)]
    decide

example : ¬ ∃ d, runScript exSeqEnv exDropCfg exFixSvd exFixTd "TDRecReinit" exDropData = .ok d := by
  intro hd
  obtain ⟨initial, stream, left, chunks, r, f, n, tab, h1, rfl, -, h4, -, h5, -⟩ :=
    (C132_tdrec_reinit _ _ _ _ _ exDrop_assumed).1 hd
  have h1 := Except.ok.inj (exDrop_split.symm.trans h1)
  injection h1 with e1 h1
  injection h1 with e2 e3
  subst e1 e2 e3
  have t0 : tab 0 = exDropTable0 := C08_crop_unique _ _ _ _ (h4 0 (by decide)).1 (crop_ok_isCropped _ _ _ rfl)
  have t1 : tab 1 = exDropTable1 := C08_crop_unique _ _ _ _ (h4 1 (by decide)).1 (crop_ok_isCropped _ _ _ rfl)
  obtain ⟨items, k1, p, hp, hpe⟩ := h5 0 (by decide)
  rw [rowsUpTo_zero, t0] at k1
  have hf : FirstAppearance ((exDropTable0.map PRow.row).map Row.item) [42, 41] :=
    firstAppearance_pdUnique ((exDropTable0.map PRow.row).map Row.item)
  obtain rfl := k1.unique hf
  rw [t1] at hp
  have hit : ∀ q ∈ exDropTable1, q.row.item = 42 := by
    intro q hq
    simp only [exDropTable1, List.mem_cons, List.not_mem_nil, or_false] at hq
    rcases hq with rfl | rfl | rfl | rfl <;> rfl
  rw [hit p hp] at hpe
  simp at hpe

end DynCF
