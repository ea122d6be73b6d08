/- Property C131: exactly when the experiment with TDRec completes. -/
import Verif.Props.SeqCompletion

set_option linter.unusedSectionVars false

namespace DynCF
variable {K : Type} {σ F : Type}

/-! ### Specification -/

/-- What the script needs with a recommender that is trained again after every chunk: the data can be prepared; the
cropped table of the initial rows, and that of all rows after each of the chunks taken, can be trained on (its longest
sequence has exactly the configured length and the selected rank fits it); every step can be done by a recommender that
knows the rows of the cropped table before it; and there are users for the stability test if two steps are to be
compared. -/
def RetrainNeeds [Field K] [LinearOrder K] [FloorRing K] (env : RunEnv K) (cfg : RunCfg K) (ft : FixedTd)
    (data : List (IRow K)) : Prop :=
  ∃ initial stream left chunks, ∃ (r : ℕ × ℕ × ℕ) (f : K) (n : ℤ),
    prepareDataForExperiment env.sortDay data cfg.initRatio cfg.hmMin = .ok (initial, stream, left) ∧
    chunks = (stream.map Prod.snd).take (expSteps cfg.howMany stream.length) ∧
    getOptimalTdrecParams cfg.dataset env.tdCsv = .ok ([(r.1 : ℤ), (r.2.1 : ℤ), (r.2.2 : ℤ)], f, n) ∧
    (∀ i ≤ chunks.length, ∃ t : List (PRow K), IsCropped cfg.maxLen (initial ++ (chunks.take i).flatten) t ∧
      LongestIs cfg.maxLen ft.seqLen (initial ++ (chunks.take i).flatten) ∧
      RankFits r (numUsers (t.map PRow.row)) (numItems (t.map PRow.row)) ft.seqLen ∧
      ∀ c, chunks[i]? = some c →
        StepRuns cfg.topk (getUsersStability env.sortCnt initial left cfg.howMany) (t.map PRow.row) c) ∧
    (2 ≤ chunks.length → getUsersStability env.sortCnt initial left cfg.howMany ≠ [])

/-- The cropped tables with which the first `n` chunks are met: their numbers of items never go down. -/
def ItemsStay (L n : ℕ) (initial : List (Row K)) (chunks : List (List (Row K))) [LinearOrder K] : Prop :=
  ∀ (i : ℕ) (t t' : List (PRow K)), i + 1 < n → IsCropped L (initial ++ (chunks.take i).flatten) t →
    IsCropped L (initial ++ (chunks.take (i + 1)).flatten) t' → numItems (t.map PRow.row) ≤ numItems (t'.map PRow.row)

section
variable [Field K] [LinearOrder K] [IsStrictOrderedRing K]
variable {cfg : TICfg K} {m : TDAtt K} {st : TDState K}

/-! ### One training -/

/-- What a training leaves, whatever the object had seen before. -/
theorem tdTrain_again {τ : Type} {c : TDCfg K} {m : TDAtt K} {cb : Option (ExitCallback K τ)} {cb0 : τ}
    {h0 : SeqHist} {t : List (PRow K)} (h : tdTrain c m cb cb0 h0 t = .ok st) :
    ∃ users items t' fresh, FirstAppearance (t.map fun p => p.row.user) users ∧
      FirstAppearance (t.map fun p => p.row.item) items ∧ MappedTo users items t t' ∧
      tdTrain c m cb cb0 [] t = .ok fresh ∧
      st = { fresh with seqHist := updateUserSeqHistory (sortedInds t') h0 c.seqLen } := by
  obtain ⟨rows, mp, users, items, h1, h2, h3, k4, k5, h6⟩ := train_mapped t
  unfold tdTrain at h
  rw [h1, except_bind_ok] at h
  unfold tdFit at h
  simp only [bind_ok_iff] at h
  obtain ⟨tt, ht, ⟨⟨f, g⟩, cbEnd⟩, hr, aw, haw, lw, hlw, last, hlast, h⟩ := h
  have h := Except.ok.inj h
  subst h
  refine ⟨users, items, withPos rows t, ⟨mp, (withPos rows t).map fun p => (p.row.user, p.row.item),
    updateUserSeqHistory tt.inds [] c.seqLen, f.f0, f.f1, f.f2, g, aw, ⟨_, last⟩⟩, h2, k4, h6, ?_,
    by rw [← (trainTensor_ok ht).1]⟩
  unfold tdTrain
  rw [h1, except_bind_ok]
  unfold tdFit
  rw [ht, except_bind_ok, hr, except_bind_ok]
  dsimp only at haw hlw hlast ⊢
  rw [haw, except_bind_ok, hlw, except_bind_ok, hlast, except_bind_ok]
  rfl

/-- The interactions of a training table: internal items are in range and every internal user occurs. -/
theorem table_inters {users items : List ℤ} {t t' : List (PRow K)}
    (hu : FirstAppearance (t.map fun p => p.row.user) users) (hi : FirstAppearance (t.map fun p => p.row.item) items)
    (h : MappedTo users items t t') :
    (∀ a, ∀ y ∈ itemsOf a (sortedInds t'), 0 ≤ y ∧ y < numItems (t.map PRow.row)) ∧
    ∀ a : ℕ, a < numUsers (t.map PRow.row) → itemsOf (a : ℤ) (sortedInds t') ≠ [] := by
  have n1 : users.length = numUsers (t.map PRow.row) := by
    unfold numUsers
    rw [List.map_map]
    exact first_card hu
  have n2 : items.length = numItems (t.map PRow.row) := by
    unfold numItems
    rw [List.map_map]
    exact first_card hi
  constructor
  · intro a y hy
    rw [itemsOf_sortedInds] at hy
    obtain ⟨r, hr, rfl⟩ := List.mem_map.1 hy
    have hr := (mem_stableSort (fun x y : PRow K => decide (x.pos ≤ y.pos)) _ r).1 hr
    obtain ⟨x, -, -, -, -, k, hk, hk'⟩ := forall₂_mem_right h (List.mem_filter.1 hr).1
    have := (List.getElem?_eq_some_iff.1 hk').1
    omega
  · intro a ha hnil
    obtain ⟨x, hx⟩ : ∃ x, users[a]? = some x := ⟨users[a]'(by omega), List.getElem?_eq_getElem _⟩
    have := itemsOf_length hu.nodup h hx
    rw [hnil, List.length_nil, eq_comm, List.length_eq_zero_iff, List.filter_eq_nil_iff] at this
    obtain ⟨r, hr, hr'⟩ := List.mem_map.1 ((hu.mem x).1 (List.mem_of_getElem? hx))
    exact this r hr (by simpa using hr')

/-! ### Looking at a recommender whose sequences contain items of earlier tables -/

/-- A recommender whose factors, summaries and sequences are in order scores every known user. -/
theorem seq_scores {c : TDCfg K} {st : TDState K} {n : ℕ} (hL : 2 ≤ c.seqLen) (hatt : tdInit c = .ok m)
    (hv : st.v.rows = n) (hw : st.w.rows = c.seqLen) (haw : m.att.dot st.w = .ok st.aw)
    (hlast : ∃ lw v, m.attInv.T.dot st.w = .ok lw ∧ lw.row (-1) = .ok v ∧ st.lastPos = ⟨_, v⟩) {ins : List Inter}
    (hh : HistInv c.seqLen st.seqHist ins) (hr : ∀ a, ∀ y ∈ itemsOf a ins, 0 ≤ y ∧ y < n) {a : ℕ}
    (hne : itemsOf (a : ℤ) ins ≠ []) : ∃ g : Fin n → K, tdRecommendUser st a = .ok ⟨n, g⟩ := by
  obtain ⟨q1, q2, q3, q4⟩ := tdInit_cols (by omega) hatt
  obtain ⟨lw, v, hlw, -, hlast⟩ := hlast
  obtain ⟨A, hA⟩ := Mat.eq_mk m.att q1 q2
  obtain ⟨B, hB⟩ := Mat.eq_mk m.attInv q3 q4
  obtain ⟨V, hV⟩ := Mat.eq_mk st.v hv rfl
  obtain ⟨W, hW⟩ := Mat.eq_mk st.w hw rfl
  generalize st.w.cols = r2 at W hW
  rw [hW, hA, Mat.dot_mk] at haw
  rw [hW, hB, Mat.T_mk, Mat.dot_mk] at hlw
  obtain rfl := Except.ok.inj hlw
  have he := hh.entry (a : ℤ)
  unfold histEntry at he
  rw [if_neg hne] at he
  have hall := hr (a : ℤ)
  obtain ⟨its, hits⟩ : ∃ its : List (Fin n), itemsOf (a : ℤ) ins = its.map fun x : Fin n => ((x : ℕ) : ℤ) := by
    generalize itemsOf (a : ℤ) ins = l at hall
    induction l with
    | nil => exact ⟨[], rfl⟩
    | cons x l ih =>
      obtain ⟨its, h⟩ := ih fun y hy => hall y (List.mem_cons_of_mem _ hy)
      have hx := hall x List.mem_cons_self
      refine ⟨⟨x.toNat, by omega⟩ :: its, ?_⟩
      rw [List.map_cons, ← h]
      congr 1
      show x = (x.toNat : ℤ)
      omega
  rw [hits] at he
  have hlen : 0 < its.length := by
    rcases its with _ | ⟨x, its⟩
    · exact absurd hits hne
    · simp
  exact ⟨_, C25_scores st (a : ℤ) V (A * W) v hV (Except.ok.inj haw).symm hlast hw its he (by omega)⟩

/-- The setting of `recommend` follows. -/
theorem seq_setting {c : TDCfg K} {st : TDState K} {us is : List ℤ} (hL : 2 ≤ c.seqLen) (hatt : tdInit c = .ok m)
    (hview : ViewOk st.view us is) (hw : st.w.rows = c.seqLen) (haw : m.att.dot st.w = .ok st.aw)
    (hlast : ∃ lw v, m.attInv.T.dot st.w = .ok lw ∧ lw.row (-1) = .ok v ∧ st.lastPos = ⟨_, v⟩) {ins : List Inter}
    (hh : HistInv c.seqLen st.seqHist ins) (hr : ∀ a, ∀ y ∈ itemsOf a ins, 0 ≤ y ∧ y < is.length)
    (hne : ∀ a : ℕ, a < us.length → itemsOf (a : ℤ) ins ≠ []) {argp : ArgPart K} (hargp : ArgPartOk argp) {k : ℕ}
    (hk : 1 ≤ k) (h2 : 2 ≤ is.length) :
    ∃ g, RecSetting argp st.view us is (fun _ u => do
      let r ← tdRecommendUser st u
      pure (List.ofFn r.val)) g k true := by
  have hscore : ∀ a : ℕ, a < us.length → ∃ g : Fin is.length → K, tdRecommendUser st a = .ok ⟨is.length, g⟩ :=
    fun a ha => seq_scores hL hatt hview.nItems hw haw hlast hh hr (hne a ha)
  choose g hg using hscore
  refine ⟨fun _ a => if h : a < us.length then List.ofFn (g a h) else [], hargp, hview, ?_, hk, by omega, fun _ => h2⟩
  intro i a haa
  have haa : a < us.length := by rw [← hview.nUsers]; exact haa
  dsimp only
  rw [hg a haa, except_bind_ok, dif_pos haa]
  refine ⟨rfl, ?_⟩
  rw [List.length_ofFn]
  exact hview.nItems.symm

theorem stale_look {fresh : TDState K} {t : List (PRow K)} (hlen : 1 ≤ cfg.td.seqLen) (hatt : tdInit cfg.td = .ok m)
    (hL : 2 ≤ cfg.td.seqLen) (h : TIAt cfg m fresh t) {argp : ArgPart K} (hargp : ArgPartOk argp) {k : ℕ} (hk : 1 ≤ k)
    (h2 : 2 ≤ numItems (t.map PRow.row)) {sh : SeqHist} {ins : List Inter} (hh : HistInv cfg.td.seqLen sh ins)
    (hr : ∀ a, ∀ y ∈ itemsOf a ins, 0 ≤ y ∧ y < numItems (t.map PRow.row))
    (hne : ∀ a : ℕ, a < numUsers (t.map PRow.row) → itemsOf (a : ℤ) ins ≠ []) :
    TILook argp { fresh with seqHist := sh } k (t.map PRow.row) cfg.td.hooi.rank.1 cfg.td.hooi.rank.2.1 := by
  obtain ⟨us, is, past, hi, ho, hf⟩ := h
  have hsee := hi.sees ho
  obtain ⟨e1, e2, -, e4, e5, -, -, hview, -⟩ := C35_sizes hi
  rw [← hsee.nItems] at hr h2
  rw [← hsee.nUsers] at hne
  obtain ⟨U, V, W, c, hS⟩ := hi.shape
  have hview' : ViewOk { fresh with seqHist := sh }.view us is := hview
  obtain ⟨g, hg⟩ := seq_setting (st := { fresh with seqHist := sh }) hL hatt hview' (by rw [hS.w]) hi.aw hi.last hh hr hne
    hargp hk h2
  exact ⟨⟨us, is, g, hsee, hg⟩, by rw [← hsee.nUsers]; exact e1, by rw [← hsee.nItems]; exact e2, e4, e5⟩

/-! ### The states of a run -/

variable [FloorRing K]

/-- The object has been trained on the cropped table of the initial rows and again after every chunk. -/
abbrev TdRetrained (L : ℕ) (c : TDCfg K) (m : TDAtt K) (initial : List (Row K)) (past : List (List (Row K)))
    (st : TDState K) : Prop :=
  Retrained L (tdTrain c m (none : Option (ExitCallback K Unit)) () [])
    (fun s => tdTrain c m (none : Option (ExitCallback K Unit)) () s.seqHist) initial past st

theorem retrained_trained {L : ℕ} {c : TDCfg K} {initial : List (Row K)} {past : List (List (Row K))}
    (h : TdRetrained L c m initial past st) :
    ∃ t h0, IsCropped L (initial ++ past.flatten) t ∧
      tdTrain c m (none : Option (ExitCallback K Unit)) () h0 t = .ok st := by
  cases h with
  | first h1 h2 => exact ⟨_, _, by simpa using h1, h2⟩
  | again _ h1 h2 => exact ⟨_, _, by simpa [List.append_assoc] using h1, h2⟩

/-- What is known after any number of trainings, if the numbers of items never went down. -/
theorem retrained_state {L : ℕ} (hlen : 1 ≤ cfg.td.seqLen) (hatt : tdInit cfg.td = .ok m) (hn : 1 ≤ cfg.td.nIter)
    {initial : List (Row K)} {past : List (List (Row K))} (h : TdRetrained L cfg.td m initial past st)
    (hstay : ItemsStay L (past.length + 1) initial past) :
    ∃ t fresh ins, IsCropped L (initial ++ past.flatten) t ∧ TIAt cfg m fresh t ∧
      st = { fresh with seqHist := st.seqHist } ∧ HistInv cfg.td.seqLen st.seqHist ins ∧
      (∀ a, ∀ y ∈ itemsOf a ins, 0 ≤ y ∧ y < numItems (t.map PRow.row)) ∧
      ∀ a : ℕ, a < numUsers (t.map PRow.row) → itemsOf (a : ℤ) ins ≠ [] := by
  have hat : ∀ {rows : List (Row K)} {t : List (PRow K)} {fresh : TDState K}, IsCropped L rows t →
      tdTrain cfg.td m (none : Option (ExitCallback K Unit)) () [] t = .ok fresh → TIAt cfg m fresh t := by
    intro rows t fresh h1 h2
    have := (C129_train cfg.td m hlen hatt hn (none : Option (ExitCallback K Unit)) () [] (fun f hf => by cases hf)
      L rows t h1).1 ⟨_, h2⟩
    exact tiTrain_at hlen hatt hn (longest_crop hlen this.1 h1) h2
  induction h with
  | @first t s hc ht =>
    obtain ⟨users, items, t', fresh, h1, h2, h3, h4, rfl⟩ := tdTrain_again ht
    obtain ⟨g1, g2⟩ := table_inters h1 h2 h3
    refine ⟨t, fresh, sortedInds t', by simpa using hc, hat hc h4, rfl, ?_, g1, g2⟩
    simpa using histInv_update cfg.td.seqLen [] [] (sortedInds t') (histInv_nil _)
  | @again past c t s s' hp hc ht ih =>
    obtain ⟨t0, -, ins, k1, -, -, k2, k3, -⟩ := ih fun i a b hi ha hb => by
      refine hstay i a b (by simp; omega) ?_ ?_
      · rwa [List.take_append_of_le_length (by omega)]
      · rwa [List.take_append_of_le_length (by omega)]
    obtain ⟨users, items, t', fresh, h1, h2, h3, h4, rfl⟩ := tdTrain_again ht
    obtain ⟨g1, g2⟩ := table_inters h1 h2 h3
    have hc' : IsCropped L (initial ++ (past ++ [c]).flatten) t := by simpa [List.append_assoc] using hc
    have hle := hstay past.length t0 t (by simp) (by simpa using k1) (by
      rw [List.take_of_length_le (by simp)]; exact hc')
    refine ⟨t, fresh, ins ++ sortedInds t', hc', hat hc' h4, rfl, histInv_update _ _ _ _ k2, ?_, ?_⟩
    · intro a y hy
      rw [itemsOf_append, List.mem_append] at hy
      rcases hy with hy | hy
      · have := k3 a y hy
        omega
      · exact g1 a y hy
    · intro a ha hnil
      rw [itemsOf_append] at hnil
      exact g2 a ha (List.append_eq_nil_iff.1 hnil).2

theorem retrained_look {L : ℕ} (hL : 2 ≤ cfg.td.seqLen) (hatt : tdInit cfg.td = .ok m) (hn : 1 ≤ cfg.td.nIter)
    {initial : List (Row K)} {past : List (List (Row K))} (h : TdRetrained L cfg.td m initial past st)
    (hstay : ItemsStay L (past.length + 1) initial past) {argp : ArgPart K} (hargp : ArgPartOk argp) {k : ℕ} (hk : 1 ≤ k)
    {t : List (PRow K)} (ht : IsCropped L (initial ++ past.flatten) t) (h2 : 2 ≤ numItems (t.map PRow.row)) :
    TILook argp st k (t.map PRow.row) cfg.td.hooi.rank.1 cfg.td.hooi.rank.2.1 := by
  obtain ⟨t', fresh, ins, h1, h3, h4, h5, h6, h7⟩ := retrained_state (by omega) hatt hn h hstay
  obtain rfl := C08_crop_unique L _ _ _ ht h1
  rw [h4]
  exact stale_look (by omega) hatt hL h3 hargp hk h2 h5 h6 h7

theorem cropped_users_le {L : ℕ} (hL : 1 ≤ L) {a b : List (Row K)} {t t' : List (PRow K)} (h : IsCropped L a t)
    (h' : IsCropped L (a ++ b) t') : numUsers (t.map PRow.row) ≤ numUsers (t'.map PRow.row) := by
  unfold numUsers
  apply Finset.card_le_card
  intro x
  rw [List.mem_toFinset, List.mem_toFinset, crop_mem_user hL h, crop_mem_user hL h', List.map_append, List.mem_append]
  exact Or.inl

theorem cropped_exists {L : ℕ} (hL : 1 ≤ L) {a : List (Row K)} (hne : a ≠ []) :
    ∃ t, getDfWithCroppedPos a L true = .ok t ∧ IsCropped L a t := by
  have := getDfWithCroppedPos_eq a L true hL hne
  exact ⟨_, this, crop_ok_isCropped _ _ _ this⟩

theorem itemsStay_take {L n : ℕ} {initial : List (Row K)} {chunks : List (List (Row K))} (h : ItemsStay L n initial chunks)
    {i : ℕ} (hi : i < n) (hc : i ≤ chunks.length) : ItemsStay L ((chunks.take i).length + 1) initial (chunks.take i) := by
  intro j t t' hj h1 h2
  rw [List.length_take, min_eq_left hc] at hj
  rw [List.take_take, min_eq_left (by omega)] at h1 h2
  exact h j t t' (by omega) h1 h2

/-! ### The experiment -/

/-- What the run needs (`RetrainNeeds` for one run). -/
def RetrainSteps (L n k : ℕ) (r : ℕ × ℕ × ℕ) (tests : List ℤ) (initial : List (Row K)) (chunks : List (List (Row K))) :
    Prop :=
  (∀ i ≤ chunks.length, ∃ t : List (PRow K), IsCropped L (initial ++ (chunks.take i).flatten) t ∧
      LongestIs L n (initial ++ (chunks.take i).flatten) ∧
      RankFits r (numUsers (t.map PRow.row)) (numItems (t.map PRow.row)) n ∧
      ∀ c, chunks[i]? = some c → StepRuns k tests (t.map PRow.row) c) ∧
    (2 ≤ chunks.length → tests ≠ [])

theorem tdRun_iff (hL : 2 ≤ cfg.td.seqLen) (hatt : tdInit cfg.td = .ok m) (hn : 1 ≤ cfg.td.nIter)
    {argp : ArgPart K} (hargp : ArgPartOk argp) {e : ExpCfg K} (hm : e.chunkMode = false) (hre : e.reinit = false)
    (h3 : e.threeD = true) (hk : 1 ≤ e.kRecs) {initial : List (Row K)} {t : List (PRow K)}
    (ht : getDfWithCroppedPos initial e.maxLen true = .ok t)
    (htest : ∀ u ∈ e.testUsers, ∃ r ∈ initial, r.user = u) (h2 : 2 ≤ numItems (t.map PRow.row))
    (stream : List (List (Row K)))
    (hstay : ItemsStay e.maxLen (stream.take (expSteps e.howMany stream.length)).length initial
      (stream.take (expSteps e.howMany stream.length))) :
    (∃ d, runWith (useTrain (tdClass argp cfg.td m)) e none (.posed t) stream = .ok d) ↔
      RetrainSteps e.maxLen cfg.td.seqLen e.kRecs cfg.td.hooi.rank e.testUsers initial
        (stream.take (expSteps e.howMany stream.length)) := by
  have hcr := crop_ok_isCropped _ _ _ ht
  obtain ⟨hne0, hM, -⟩ := crop_ok_inv _ _ _ ht
  have htr := fun (h0 : SeqHist) (rows : List (Row K)) (t : List (PRow K)) => C129_train cfg.td m (by omega) hatt hn
    (none : Option (ExitCallback K Unit)) () h0 (fun f hf => by cases hf) e.maxLen rows t
  have hknown : ∀ {past : List (List (Row K))} {t' : List (PRow K)}, IsCropped e.maxLen (initial ++ past.flatten) t' →
      ∀ u ∈ e.testUsers, ∃ r ∈ t'.map PRow.row, r.user = u := by
    intro past t' h u hu
    obtain ⟨r, hr, hru⟩ := htest u hu
    have := (crop_mem_user hM h u).2 (List.mem_map.2 ⟨r, List.mem_append_left _ hr, hru⟩)
    exact List.mem_map.1 this
  generalize hch : stream.take (expSteps e.howMany stream.length) = chunks at *
  have htwo : ∀ {i : ℕ} {t' : List (PRow K)}, i < chunks.length →
      IsCropped e.maxLen (initial ++ (chunks.take i).flatten) t' → 2 ≤ numItems (t'.map PRow.row) := by
    intro i
    induction i with
    | zero =>
      intro t' _ h
      rw [List.take_zero, List.flatten_nil, List.append_nil] at h
      rwa [C08_crop_unique _ _ _ _ h hcr]
    | succ i ih =>
      intro t' hi h
      obtain ⟨t0, -, h0⟩ := cropped_exists hM (a := initial ++ (chunks.take i).flatten) (by simp [hne0])
      exact (ih (by omega) h0).trans (hstay i _ _ hi h0 h)
  have hlook : ∀ {i : ℕ} {st : TDState K} {t' : List (PRow K)}, i < chunks.length →
      TdRetrained e.maxLen cfg.td m initial (chunks.take i) st →
      IsCropped e.maxLen (initial ++ (chunks.take i).flatten) t' →
      TILook argp st e.kRecs (t'.map PRow.row) cfg.td.hooi.rank.1 cfg.td.hooi.rank.2.1 := fun hi h h' =>
    retrained_look hL hatt hn h (itemsStay_take hstay hi hi.le) hargp hk h' (htwo hi h')
  constructor
  · rintro ⟨d, h⟩
    obtain ⟨snaps, s', hw, hrec⟩ := runWith_ok h
    rw [hch] at hw
    have hl := watched_length _ _ hw
    have key : ∀ (i : ℕ) c snap, chunks[i]? = some c → snaps[i]? = some snap →
        ∃ st, TdRetrained e.maxLen cfg.td m initial (chunks.take i) st ∧
          Snapshot (tdFace argp st) e.testUsers e.kRecs c snap := by
      intro i c snap hc hsn
      obtain ⟨si, s1, k1, k2⟩ := watched_at hw i c snap hc hsn
      obtain ⟨st, rfl, hst⟩ := td_watched hm hre h3 ht k1
      exact ⟨st, hst, (td_shows (c0 := cfg.td) (m := m) rfl rfl rfl rfl rfl k2).2⟩
    refine ⟨?_, ?_⟩
    · intro i hi
      have hst : ∃ st, TdRetrained e.maxLen cfg.td m initial (chunks.take i) st := by
        rcases Nat.lt_or_ge i chunks.length with hlt | hge
        · obtain ⟨st, h1, -⟩ := key i _ _ (List.getElem?_eq_getElem hlt) (List.getElem?_eq_getElem (by omega))
          exact ⟨st, h1⟩
        · rw [List.take_of_length_le hge]
          obtain ⟨st, -, hst⟩ := td_watched hm hre h3 ht hw
          exact ⟨st, hst⟩
      obtain ⟨st, hst⟩ := hst
      obtain ⟨t', h0, g1, g2⟩ := retrained_trained hst
      obtain ⟨g3, g4⟩ := (htr h0 _ _ g1).1 ⟨_, g2⟩
      refine ⟨t', g1, g3, g4, ?_⟩
      intro c hc
      have hi' := (List.getElem?_eq_some_iff.1 hc).1
      obtain ⟨st', k1, k2⟩ := key i c _ hc (List.getElem?_eq_getElem (by omega))
      exact ((hlook hi' k1 g1).snapshot_iff (hknown g1) c).1 ⟨_, k2⟩
    · intro h2'
      refine tests_nonempty hrec (by omega) fun sn hsn => ?_
      obtain ⟨i, hi⟩ := List.mem_iff_getElem?.1 hsn
      have hi' := (List.getElem?_eq_some_iff.1 hi).1
      obtain ⟨st, hst, hh⟩ := key i _ _ (List.getElem?_eq_getElem (by omega)) hi
      obtain ⟨t', h0, g1, g2⟩ := retrained_trained hst
      exact (hlook (by omega) hst g1).snapshot_length (hknown g1) hh
  · rintro ⟨hsteps, hnet⟩
    have hfirst := hsteps 0 (by omega)
    simp only [List.take_zero, List.flatten_nil, List.append_nil] at hfirst
    obtain ⟨t', g1, g2, g3, -⟩ := hfirst
    obtain rfl := C08_crop_unique _ _ _ _ g1 hcr
    obtain ⟨st0, h0⟩ := (htr [] _ _ g1).2 ⟨g2, g3⟩
    refine experiment_runs (f := tdFace argp st0) (s1 := some st0)
      (fun past s conc f => ∃ st t', s = some st ∧ TdRetrained e.maxLen cfg.td m initial past st ∧
        getDfWithCroppedPos (initial ++ past.flatten) e.maxLen true = .ok t' ∧ conc = .posed t' ∧ f = tdFace argp st)
      ?_ ?_ ?_ ?_
    · show (tdTrain cfg.td m (none : Option (ExitCallback K Unit)) () [] t' >>= fun s => pure (some s)) = _
      rw [h0]; rfl
    · exact ⟨st0, t', rfl, .first g1 h0, by simpa using ht, rfl, rfl⟩
    · rintro past c htk s conc f ⟨st, tp, rfl, hst, htp, rfl, rfl⟩
      obtain ⟨q1, q2⟩ := taken_chunk htk
      rw [hch] at q1 q2
      have hlt := (List.getElem?_eq_some_iff.1 q1).1
      obtain ⟨tc, c1, -, -, c4⟩ := hsteps _ hlt.le
      rw [q2] at c1
      obtain rfl := C08_crop_unique _ _ _ _ c1 (crop_ok_isCropped _ _ _ htp)
      refine ⟨tdOffers (M := useTrain (tdClass argp cfg.td m)) (argp := argp) (c0 := cfg.td) (m := m) rfl rfl rfl rfl rfl st,
        ((hlook hlt (by rw [q2]; exact hst) (by rw [q2]; exact c1)).snapshot_iff (hknown c1) c).2 (c4 c q1), ?_⟩
      obtain ⟨tn, n1, n2, n3, -⟩ := hsteps (past.length + 1) hlt
      have hpc : chunks.take (past.length + 1) = past ++ [c] := by
        rw [List.take_add_one, q1, q2]; rfl
      rw [hpc] at n1 n2
      have hnew : getDfWithCroppedPos (initial ++ (past ++ [c]).flatten) e.maxLen true = .ok tn := by
        obtain ⟨x, x1, x2⟩ := cropped_exists hM (a := initial ++ (past ++ [c]).flatten) (by simp [hne0])
        rw [x1, C08_crop_unique _ _ _ _ x2 n1]
      have hconc : getDfWithCroppedPos (tc.map PRow.row ++ c) e.maxLen true = .ok tn := by
        obtain ⟨x, x1, x2⟩ := cropped_exists hM (a := tc.map PRow.row ++ c) (by
          intro hnil
          have := (crop_mem_user hM c1 (initial.head hne0).user).2
            (List.mem_map_of_mem (List.mem_append_left _ (List.head_mem hne0)))
          rw [(List.append_eq_nil_iff.1 hnil).1] at this
          cases this)
        have := C64_crop_of_all e.maxLen hM (initial ++ past.flatten) c tc x htp x2
        have hx : x = tn := C08_crop_unique _ _ _ _ (by simpa [List.append_assoc] using this) n1
        rw [x1, hx]
      obtain ⟨st', hst'⟩ := (htr st.seqHist _ _ n1).2 ⟨n2, n3⟩
      refine ⟨.posed tn, some st', tdFace argp st', ?_, ?_, st', tn, rfl, ?_, hnew, rfl, rfl⟩
      · unfold concatStep
        rw [hm, if_neg (by simp), h3, if_pos rfl]
        show (getDfWithCroppedPos (tc.map PRow.row ++ c) e.maxLen true >>= fun t => pure (Tab.posed t)) = _
        rw [hconc]; rfl
      · unfold updateStep
        rw [hre, if_neg (by simp), hm, if_neg (by simp)]
        show (tdTrain cfg.td m (none : Option (ExitCallback K Unit)) () st.seqHist tn >>= fun s => pure (some s)) = _
        rw [hst']; rfl
      · exact .again hst (by simpa [List.append_assoc] using n1) hst'
    · rintro past c d htk s conc f s' conc' f' snap snap' ⟨st, tp, -, hst, htp, -, rfl⟩ ⟨st', tp', -, hst', htp', -, rfl⟩ hs hs'
      obtain ⟨q1, q2⟩ := taken_chunk htk
      rw [hch] at q1 q2
      have hlt := (List.getElem?_eq_some_iff.1 q1).1
      rw [List.length_append, List.length_singleton] at hlt q2
      have q3 : chunks.take past.length = past := by
        have := congrArg (List.take past.length) q2
        rwa [List.take_take, min_eq_left (by omega), List.take_append_of_le_length (by omega), List.take_length] at this
      have hc := crop_ok_isCropped _ _ _ htp
      have hc' := crop_ok_isCropped _ _ _ htp'
      have l1 := hlook (i := past.length) (by omega) (by rw [q3]; exact hst) (by rw [q3]; exact hc)
      have l2 := hlook (i := past.length + 1) (by omega) (by rw [q2]; exact hst') (by rw [q2]; exact hc')
      refine l1.comparable l2 ?_ ?_ (hnet (by omega)) (hknown hc) (hknown hc') hs hs'
      · refine cropped_users_le hM hc (b := c) ?_
        simpa [List.append_assoc] using hc'
      · exact hstay past.length _ _ (by omega) (by rw [q3]; exact hc) (by rw [q2]; exact hc')

/-! ### The script -/

/-- What is assumed about a run: a sequence length of at least 2, at least two items in the cropped initial table, and that
the cropped tables with which the chunks are met never lose items (`C131_shrunk`: without this the second chunk is
fatal). -/
structure RetrainAssumed (env : RunEnv K) (cfg : RunCfg K) (ft : FixedTd) (data : List (IRow K)) : Prop where
  argp : ArgPartOk env.argp
  sort : ∀ l, (env.sortCnt l).Perm l
  topk : 1 ≤ cfg.topk
  len : 2 ≤ ft.seqLen
  items : ∀ initial stream left t,
    prepareDataForExperiment env.sortDay data cfg.initRatio cfg.hmMin = .ok (initial, stream, left) →
    IsCropped cfg.maxLen initial t → 2 ≤ numItems (t.map PRow.row)
  stay : ∀ initial stream left,
    prepareDataForExperiment env.sortDay data cfg.initRatio cfg.hmMin = .ok (initial, stream, left) →
    ItemsStay cfg.maxLen (expSteps cfg.howMany stream.length) initial (stream.map Prod.snd)

theorem itemsStay_congr {L n : ℕ} {initial : List (Row K)} {chunks : List (List (Row K))}
    (h : ItemsStay L n initial chunks) (hn : n ≤ chunks.length) :
    ItemsStay L (chunks.take n).length initial (chunks.take n) := by
  intro j t t' hj h1 h2
  rw [List.length_take, min_eq_left hn] at hj
  rw [List.take_take, min_eq_left (by omega)] at h1 h2
  exact h j t t' hj h1 h2

theorem expSteps_le (h : ℤ) (n : ℕ) : expSteps h n ≤ n := by
  unfold expSteps
  split <;> omega

/-- **C131.** If the cropped tables never lose items, the script completes with `TDRec` exactly if the data can be
prepared, the longest sequence of each cropped table has exactly the configured length and the selected rank fits each of
them, every chunk taken has a row with ids known from the cropped table before it, all users to be scored or tested have at
least `topk` items of that table left, and there are users for the stability test if more than one chunk is taken. -/
theorem C131_tdrec (env : RunEnv K) (cfg : RunCfg K) (fs : FixedSvd) (ft : FixedTd) (data : List (IRow K))
    (h : RetrainAssumed env cfg ft data) :
    (∃ d, runScript env cfg fs ft "TDRec" data = .ok d) ↔ RetrainNeeds env cfg ft data := by
  have hmem : "TDRec" ∈ ["TDRec", "TDRecReinit", "TIRec", "TIRecA", "Random"] := by simp
  have hrun : ∀ {r : ℕ × ℕ × ℕ} {f : K} {m : TDAtt K} {initial left : List (Row K)}
      {stream : List (ℤ × List (Row K))} {t : List (PRow K)} (e : ExpCfg K),
      tdInit (tdSetup env ft r f) = .ok m →
      prepareDataForExperiment env.sortDay data cfg.initRatio cfg.hmMin = .ok (initial, stream, left) →
      getDfWithCroppedPos initial cfg.maxLen true = .ok t → e.chunkMode = false → e.reinit = false → e.threeD = true →
      e.kRecs = cfg.topk → e.testUsers = getUsersStability env.sortCnt initial left cfg.howMany →
      e.howMany = cfg.howMany → e.maxLen = cfg.maxLen →
      ((∃ d, runWith (useTrain (tdClass env.argp (tdSetup env ft r f) m)) e none (.posed t)
          (stream.map Prod.snd) = .ok d) ↔
        RetrainSteps cfg.maxLen ft.seqLen cfg.topk r (getUsersStability env.sortCnt initial left cfg.howMany) initial
          ((stream.map Prod.snd).take (expSteps cfg.howMany stream.length))) := by
    intro r f m initial left stream t e h2 h3 h4 e1 e2 e3 e4 e5 e6 e7
    have := tdRun_iff (cfg := prepTiCfg env (tdSetup env ft r f)) h.len h2 (by show 1 ≤ 25; omega) h.argp e1 e2 e3
      (by rw [e4]; exact h.topk) (by rw [e7]; exact h4) (by rw [e5]; exact stability_known h.sort _ _ _)
      (h.items _ _ _ _ h3 (crop_ok_isCropped _ _ _ h4)) (stream.map Prod.snd) (by
        rw [e6, e7, List.length_map]
        exact itemsStay_congr (h.stay _ _ _ h3) (by rw [List.length_map]; exact expSteps_le _ _))
    rw [e4, e5, e6, e7, List.length_map] at this
    exact this
  constructor
  · rintro ⟨d, hd⟩
    obtain ⟨initial, stream, left, t, p, h1, h2, h3, h4⟩ := script_posed hmem hd
    unfold prepareModel at h3
    rw [if_neg (by decide), if_neg (by decide), if_pos rfl] at h3
    obtain ⟨c, k1, h3⟩ := (bind_ok_iff _ _ _).1 h3
    obtain ⟨m, k2, h3⟩ := (bind_ok_iff _ _ _).1 h3
    have h3 := Except.ok.inj h3
    subst h3
    obtain ⟨r1, r2, r3, f, n, l1, rfl, l3⟩ := prepTdCfg_ok rfl k1 k2
    obtain ⟨g1, g2⟩ := (hrun (r := (r1, r2, r3)) _ l3 h1 h2 rfl rfl rfl rfl rfl rfl rfl).1 ⟨d, h4⟩
    exact ⟨initial, stream, left, _, (r1, r2, r3), f, n, h1, rfl, l1, g1, g2⟩
  · rintro ⟨initial, stream, left, chunks, r, f, n, h1, rfl, l1, g1, g2⟩
    have hlen := h.len
    obtain ⟨t, a1, a2, -⟩ := g1 0 (by omega)
    simp only [List.take_zero, List.flatten_nil, List.append_nil] at a1 a2
    have h4 := longest_crop (by omega) a2 a1
    obtain ⟨m, hm⟩ : ∃ m, tdInit (tdSetup env ft r f) = .ok m := ⟨_, tdInit_eq _ (by show 1 ≤ ft.seqLen; omega)⟩
    have hpc := prepTdCfg_mk (env := env) (cfg := cfg) (ft := ft) l1
    have h2 : prepareModel env { cfg with fixedSvd := none, fixedTd := some ft } "TDRec" =
        .ok ⟨.td (tdSetup env ft r f) m, true, false, false, true, some cfg.maxLen⟩ := by
      unfold prepareModel prepareTd
      rw [if_neg (by decide), if_neg (by decide), if_pos rfl, hpc, except_bind_ok, hm]
      rfl
    rw [script_posed_eq hmem h1 h4 h2]
    exact (hrun _ hm h1 h4 rfl rfl rfl rfl rfl rfl rfl).2 ⟨g1, g2⟩

/-- The item matrix has one row per item of the last cropped table. -/
theorem retrained_rows {L : ℕ} (hlen : 1 ≤ cfg.td.seqLen) (hatt : tdInit cfg.td = .ok m) (hn : 1 ≤ cfg.td.nIter)
    {initial : List (Row K)} {past : List (List (Row K))} (h : TdRetrained L cfg.td m initial past st)
    {t : List (PRow K)} (ht : IsCropped L (initial ++ past.flatten) t) : st.v.rows = numItems (t.map PRow.row) := by
  obtain ⟨t', h0, h1, h2⟩ := retrained_trained h
  obtain rfl := C08_crop_unique _ _ _ _ ht h1
  obtain ⟨-, -, -, fresh, -, -, -, h3, rfl⟩ := tdTrain_again h2
  have := (C129_train cfg.td m hlen hatt hn (none : Option (ExitCallback K Unit)) () [] (fun f hf => by cases hf)
    L _ _ h1).1 ⟨_, h3⟩
  obtain ⟨us, is, past, hi, ho, hf⟩ := tiTrain_at hlen hatt hn (longest_crop hlen this.1 h1) h3
  obtain ⟨e1, e2, -⟩ := C35_sizes hi
  rw [e2, (hi.sees ho).nItems]

/-- **C131, shrinking.** If two chunks are taken and the cropped table with which the second is met has fewer items than
the cropped initial table (two at least, so that numpy cannot broadcast), the script does not complete: the drift of the
item embeddings cannot be computed at the second step. -/
theorem C131_shrunk (env : RunEnv K) (cfg : RunCfg K) (fs : FixedSvd) (ft : FixedTd) (data : List (IRow K))
    (hlen : 1 ≤ ft.seqLen) {initial left : List (Row K)} {stream : List (ℤ × List (Row K))} {t0 t1 : List (PRow K)}
    {c : List (Row K)}
    (h : prepareDataForExperiment env.sortDay data cfg.initRatio cfg.hmMin = .ok (initial, stream, left))
    (htwo : 2 ≤ expSteps cfg.howMany stream.length) (hc : (stream.map Prod.snd)[0]? = some c)
    (h0 : IsCropped cfg.maxLen initial t0) (h1 : IsCropped cfg.maxLen (initial ++ c) t1)
    (_h2 : 2 ≤ numItems (t1.map PRow.row)) (hlt : numItems (t1.map PRow.row) < numItems (t0.map PRow.row)) :
    ¬ ∃ d, runScript env cfg fs ft "TDRec" data = .ok d := by
  rintro ⟨d, hd⟩
  obtain ⟨initial', stream', left', t, p, k1, k2, k3, k4⟩ :=
    script_posed (by simp : "TDRec" ∈ ["TDRec", "TDRecReinit", "TIRec", "TIRecA", "Random"]) hd
  have k1 := Except.ok.inj (h.symm.trans k1)
  injection k1 with e1 k1
  injection k1 with e2 e3
  subst e1 e2 e3
  unfold prepareModel at k3
  rw [if_neg (by decide), if_neg (by decide), if_pos rfl] at k3
  obtain ⟨c', q1, k3⟩ := (bind_ok_iff _ _ _).1 k3
  obtain ⟨m, q2, k3⟩ := (bind_ok_iff _ _ _).1 k3
  have k3 := Except.ok.inj k3
  subst k3
  obtain ⟨r1, r2, r3, f, n, l1, rfl, l3⟩ := prepTdCfg_ok rfl q1 q2
  obtain ⟨snaps, s', hw, hrec⟩ := runWith_ok k4
  have hl := watched_length _ _ hw
  generalize hch : (stream.map Prod.snd).take _ = chunks at hw hl
  have htake : ∀ i < 2, chunks[i]? = (stream.map Prod.snd)[i]? := by
    intro i hi
    rw [← hch, List.getElem?_take_of_lt]
    show i < expSteps cfg.howMany (stream.map Prod.snd).length
    rw [List.length_map]
    omega
  have hcl : 2 ≤ chunks.length := by
    rw [← hch, List.length_take]
    show 2 ≤ min (expSteps cfg.howMany (stream.map Prod.snd).length) _
    have := expSteps_le cfg.howMany stream.length
    rw [List.length_map]
    omega
  have key : ∀ i < 2, ∃ st snap, snaps[i]? = some snap ∧
      TdRetrained cfg.maxLen (tdSetup env ft (r1, r2, r3) f) m initial (chunks.take i) st ∧ snap.v = st.v := by
    intro i hi
    obtain ⟨si, s1, g1, g2⟩ := watched_at hw i _ _ (List.getElem?_eq_getElem (by omega))
      (List.getElem?_eq_getElem (show i < snaps.length by omega))
    obtain ⟨st, rfl, hst⟩ := td_watched rfl rfl rfl k2 g1
    obtain ⟨r, -, -, -, -, -, hv, -⟩ := (td_shows (c0 := tdSetup env ft (r1, r2, r3) f) (m := m) rfl rfl rfl rfl rfl g2).2
    exact ⟨st, _, List.getElem?_eq_getElem (by omega), hst, hv⟩
  obtain ⟨st0, sn0, a1, a2, a3⟩ := key 0 (by omega)
  obtain ⟨st1, sn1, b1, b2, b3⟩ := key 1 (by omega)
  obtain ⟨w, -, hw⟩ := hrec.rndItems.2 0 _ _ a1 b1
  rw [if_neg (by omega)] at hw
  obtain ⟨-, hle, -⟩ := hw
  rw [a3, b3, retrained_rows (cfg := prepTiCfg env (tdSetup env ft (r1, r2, r3) f)) hlen l3 (by show 1 ≤ 25; omega) a2
      (t := t0) (by simpa using h0),
    retrained_rows (cfg := prepTiCfg env (tdSetup env ft (r1, r2, r3) f)) hlen l3 (by show 1 ≤ 25; omega) b2
      (t := t1) (by
        have hc0 : chunks[0]? = some c := by rw [htake 0 (by omega), hc]
        rw [List.take_add_one, List.take_zero, hc0]
        simpa using h1)] at hle
  omega

end

/-! ### Example: the data of C130's example, on which `TDRec` completes too -/

def exSeqTable1 : List (PRow ℝ) :=
  [⟨⟨7, 40, 1, 0, 0⟩, 0⟩, ⟨⟨8, 42, 1, 2, 0⟩, 0⟩, ⟨⟨8, 43, 1, 3, 0⟩, 1⟩, ⟨⟨8, 43, 1, 4, 1⟩, 2⟩, ⟨⟨9, 41, 1, 5, 1⟩, 0⟩]
def exSeqTable2 : List (PRow ℝ) :=
  [⟨⟨7, 40, 1, 0, 0⟩, 0⟩, ⟨⟨7, 43, 1, 6, 2⟩, 1⟩, ⟨⟨8, 42, 1, 2, 0⟩, 0⟩, ⟨⟨8, 43, 1, 3, 0⟩, 1⟩, ⟨⟨8, 43, 1, 4, 1⟩, 2⟩,
   ⟨⟨9, 41, 1, 5, 1⟩, 0⟩]
def exSeqChunks : List (List (Row ℝ)) := [[⟨8, 43, 1, 4, 1⟩, ⟨9, 41, 1, 5, 1⟩], [⟨7, 43, 1, 6, 2⟩]]
theorem exSeq_table1 : IsCropped exSeqCfg.maxLen (exSeqInitial ++ (exSeqChunks.take 1).flatten) exSeqTable1 :=
  crop_ok_isCropped _ _ _ rfl
theorem exSeq_table2 : IsCropped exSeqCfg.maxLen (exSeqInitial ++ (exSeqChunks.take 2).flatten) exSeqTable2 :=
  crop_ok_isCropped _ _ _ rfl

theorem exSeq_retrain_assumed : RetrainAssumed exSeqEnv exSeqCfg exFixTd exSeqData where
  argp := exSeq_argp
  sort _ := List.Perm.refl _
  topk := le_refl _
  len := by decide
  items := exSeq_assumed.items
  stay := by
    intro initial stream left h i t t' hi h1 h2
    have h := Except.ok.inj (exSeq_split.symm.trans h)
    injection h with e1 h
    injection h with e2 e3
    subst e1 e2 e3
    have hi : i + 1 < 2 := hi
    obtain rfl : i = 0 := by omega
    rw [C08_crop_unique _ _ _ _ h1 (crop_ok_isCropped _ _ exSeqInitialC rfl), C08_crop_unique _ _ _ _ h2 exSeq_table1]
    decide

/-- The conditions of C131 hold: the tables have 2, 3 and 3 users and always 4 items. -/
theorem exSeq_retrain_needs : RetrainNeeds exSeqEnv exSeqCfg exFixTd exSeqData := by
  refine ⟨exSeqInitial, _, exSeqLeft, exSeqChunks, (1, 1, 1), 1, 2, exSeq_split, rfl, exSeq_td, ?_, fun _ => by decide⟩
  intro i hi
  have hlong : ∀ rows : List (Row ℝ), min 3 (rowsOf 8 rows).length = 3 → LongestIs exSeqCfg.maxLen exFixTd.seqLen rows :=
    fun rows h => ⟨fun u => min_le_left _ _, 8, h⟩
  match i, hi with
  | 0, _ =>
    refine ⟨exSeqInitialC, crop_ok_isCropped _ _ _ rfl, hlong _ rfl, ⟨by decide, by decide, by decide, by decide⟩, ?_⟩
    intro c hc
    have hc := Option.some.inj hc
    subst hc
    refine ⟨⟨⟨8, 43, 1, 4, 1⟩, by simp, by decide⟩, ?_, by decide⟩
    intro r hr _
    rcases List.mem_cons.1 hr with rfl | hr
    · decide
    · rw [List.mem_singleton.1 hr]
      decide
  | 1, _ =>
    refine ⟨exSeqTable1, exSeq_table1, hlong _ rfl, ⟨by decide, by decide, by decide, by decide⟩, ?_⟩
    intro c hc
    have hc := Option.some.inj hc
    subst hc
    refine ⟨⟨⟨7, 43, 1, 6, 2⟩, by simp, by decide⟩, ?_, by decide⟩
    intro r hr _
    rw [List.mem_singleton.1 hr]
    decide
  | 2, _ =>
    refine ⟨exSeqTable2, exSeq_table2, hlong _ rfl, ⟨by decide, by decide, by decide, by decide⟩, ?_⟩
    intro c hc
    cases hc
  | i + 3, hi =>
    have hi : i + 3 ≤ 2 := hi
    omega

example : ∃ d, runScript exSeqEnv exSeqCfg exFixSvd exFixTd "TDRec" exSeqData = .ok d :=
  (C131_tdrec _ _ _ _ _ exSeq_retrain_assumed).2 exSeq_retrain_needs

/-! Without the row of user 9, item 41 falls out of the table at the first chunk: the script stops at the second. -/

def exLoseData : List (IRow ℝ) :=
  [⟨0, ⟨7, 40, 1, 0, 0⟩⟩, ⟨1, ⟨8, 41, 1, 1, 0⟩⟩, ⟨2, ⟨8, 42, 1, 2, 0⟩⟩, ⟨3, ⟨8, 43, 1, 3, 0⟩⟩,
   ⟨4, ⟨8, 43, 1, 4, 1⟩⟩, ⟨5, ⟨7, 43, 1, 6, 2⟩⟩]
noncomputable def exLoseCfg : RunCfg ℝ := { exSeqCfg with initRatio := 4 / 6 }

theorem exLose_split : prepareDataForExperiment exSeqEnv.sortDay exLoseData exLoseCfg.initRatio exLoseCfg.hmMin =
    .ok (exSeqInitial, [(1, [⟨8, 43, 1, 4, 1⟩]), (2, [⟨7, 43, 1, 6, 2⟩])], [⟨8, 43, 1, 4, 1⟩, ⟨7, 43, 1, 6, 2⟩]) := by
  have h : pyInt ((exLoseData.length : ℝ) * exLoseCfg.initRatio) = 4 := by
    show pyInt ((6 : ℕ) * (4 / 6) : ℝ) = 4
    have : ((6 : ℕ) * (4 / 6) : ℝ) = 4 := by norm_num
    rw [this]
    unfold pyInt
    rw [if_pos (by norm_num)]
    norm_num
  unfold prepareDataForExperiment
  rw [h]
  rfl

example : ¬ ∃ d, runScript exSeqEnv exLoseCfg exFixSvd exFixTd "TDRec" exLoseData = .ok d :=
  C131_shrunk _ _ _ _ _ (by decide) exLose_split (by decide) rfl
    (crop_ok_isCropped _ _ exSeqInitialC rfl)
    (crop_ok_isCropped _ _ [⟨⟨7, 40, 1, 0, 0⟩, 0⟩, ⟨⟨8, 42, 1, 2, 0⟩, 0⟩, ⟨⟨8, 43, 1, 3, 0⟩, 1⟩, ⟨⟨8, 43, 1, 4, 1⟩, 2⟩] rfl)
    (by decide) (by decide)

end DynCF
