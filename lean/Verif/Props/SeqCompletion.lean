/- Property C130: exactly when the experiment with TIRec or TIRecA completes. -/
import Verif.Props.SeqWindow
import Verif.Lemmas.SvdExists

set_option linter.unusedSectionVars false

namespace DynCF
variable {K : Type} {σ F : Type}

/-! ### Specification -/

/-- What the script needs with a recommender of sequences: the data can be prepared; the longest sequence of the cropped
initial table has exactly the configured length and the selected rank fits the table; every step can be done and the
cropped chunk afterwards be accepted; and there are users for the stability test if two steps are to be compared. What
the recommender has seen before a chunk are the rows of the cropped initial table and of the cropped earlier chunks. -/
def SeqScriptNeeds [Field K] [LinearOrder K] [FloorRing K] (env : RunEnv K) (cfg : RunCfg K) (ft : FixedTd)
    (data : List (IRow K)) (Accepts : List (Row K) → List (Row K) → Prop) : Prop :=
  ∃ initial stream left chunks, ∃ (t : List (PRow K)) (crops : List (List (PRow K))) (r : ℕ × ℕ × ℕ) (f : K) (n : ℤ),
    prepareDataForExperiment env.sortDay data cfg.initRatio cfg.hmMin = .ok (initial, stream, left) ∧
    chunks = (stream.map Prod.snd).take (expSteps cfg.howMany stream.length) ∧
    getOptimalTdrecParams cfg.dataset env.tdCsv = .ok ([(r.1 : ℤ), (r.2.1 : ℤ), (r.2.2 : ℤ)], f, n) ∧
    IsCropped cfg.maxLen initial t ∧ List.Forall₂ (IsCropped ft.seqLen) chunks crops ∧
    LongestIs cfg.maxLen ft.seqLen initial ∧
    RankFits r (numUsers (t.map PRow.row)) (numItems (t.map PRow.row)) ft.seqLen ∧
    (∀ (i : ℕ) (c : List (Row K)) (cr : List (PRow K)), chunks[i]? = some c → crops[i]? = some cr →
      StepRuns cfg.topk (getUsersStability env.sortCnt initial left cfg.howMany)
        ((t ++ (crops.take i).flatten).map PRow.row) c ∧
      Accepts ((t ++ (crops.take i).flatten).map PRow.row) (cr.map PRow.row)) ∧
    (2 ≤ chunks.length → getUsersStability env.sortCnt initial left cfg.howMany ≠ [])

/-! ### States -/

section
variable [Field K] [LinearOrder K] [IsStrictOrderedRing K]
variable {cfg : TICfg K} {m : TDAtt K} {st : TDState K} {ext : List (PRow K)}

/-- The state of an object that has been given the rows `ext`, in this order. -/
def TIAt (cfg : TICfg K) (m : TDAtt K) (st : TDState K) (ext : List (PRow K)) : Prop :=
  ∃ users items past, TIInv cfg m st users items ext past ∧ Ordered users items ext past ∧ cfg.Fits users items

theorem ordered_of_mapped {users items : List ℤ} {d d' : List (PRow K)} (h : MappedTo users items d d') :
    Ordered users items d (d'.map PRow.inter) := by
  unfold Ordered
  rw [List.forall₂_map_right_iff]
  exact h.imp fun r t h => ⟨h.1, h.2.2⟩

theorem TIInv.sees {us is : List ℤ} {past : List Inter} (hi : TIInv cfg m st us is ext past)
    (ho : Ordered us is ext past) : Sees st.view us is (ext.map PRow.row) := by
  obtain ⟨-, -, -, -, -, -, -, hv, -⟩ := C35_sizes hi
  refine ⟨hv, ?_, ?_, ?_, fun x hx => ?_⟩
  · obtain ⟨chunk, h1, -, h2⟩ := hi.seen
    rw [show st.view.history = _ from h2, List.forall₂_map_left_iff, List.forall₂_map_right_iff]
    refine h1.imp ?_
    rintro p p' ⟨-, -, ⟨k, h3, h4⟩, ⟨l, h5, h6⟩⟩
    exact ⟨k, l, by rw [h3, h5], h4, h6⟩
  · intro x
    constructor
    · intro hx
      obtain ⟨r, hr, hre⟩ := hi.usersOccur x hx
      exact ⟨r.row, List.mem_map_of_mem hr, hre⟩
    · rintro ⟨r, hr, rfl⟩
      obtain ⟨p, hp, rfl⟩ := List.mem_map.1 hr
      exact (ho.row hp).1
  · intro x
    constructor
    · intro hx
      obtain ⟨r, hr, hre⟩ := hi.itemsOccur x hx
      exact ⟨r.row, List.mem_map_of_mem hr, hre⟩
    · rintro ⟨r, hr, rfl⟩
      obtain ⟨p, hp, rfl⟩ := List.mem_map.1 hr
      exact (ho.row hp).2
  · obtain ⟨r, hr, hre⟩ := hi.usersOccur x hx
    exact ⟨r.row, List.mem_map_of_mem hr, hre⟩

/-- What a recommender with this state shows. -/
theorem tdFace_of (argp : ArgPart K) (st : TDState K) :
    FaceOf (tdFace argp st) false argp st.view (fun _ u => do
      let r ← tdRecommendUser st u
      pure (List.ofFn r.val)) := ⟨fun _ _ _ => rfl, rfl, rfl⟩

/-- All that is needed to look at the recommender: it knows the ids of the rows `reg` and remembers the rows `hist`. -/
structure SeqLook (argp : ArgPart K) (st : TDState K) (k : ℕ) (reg hist : List (Row K)) (r0 r1 : ℕ) : Prop where
  look : ∃ us is g, Knows st.view us is reg hist ∧ RecSetting argp st.view us is (fun _ u => do
      let r ← tdRecommendUser st u
      pure (List.ofFn r.val)) g k true
  uRows : st.u.rows = numUsers reg
  vRows : st.v.rows = numItems reg
  uCols : st.u.cols = r0
  vCols : st.v.cols = r1

/-- All that is needed to look at a recommender that knows and remembers the rows `seen`. -/
abbrev TILook (argp : ArgPart K) (st : TDState K) (k : ℕ) (seen : List (Row K)) (r0 r1 : ℕ) : Prop :=
  SeqLook argp st k seen seen r0 r1

theorem TIAt.look (hs : TISetting cfg m) (hL : 2 ≤ cfg.td.seqLen) (h : TIAt cfg m st ext) {argp : ArgPart K}
    (hargp : ArgPartOk argp) {k : ℕ} (hk : 1 ≤ k) (h2 : 2 ≤ numItems (ext.map PRow.row)) :
    TILook argp st k (ext.map PRow.row) cfg.td.hooi.rank.1 cfg.td.hooi.rank.2.1 := by
  obtain ⟨us, is, past, hi, ho, hf⟩ := h
  have hsee := hi.sees ho
  obtain ⟨e1, e2, -, e4, e5, -⟩ := C35_sizes hi
  obtain ⟨g, hg⟩ := C89_recommend_setting hs hi hf hL argp hargp k hk true (fun _ => by rw [hsee.nItems]; exact h2)
  exact ⟨⟨us, is, g, hsee, hg⟩, by rw [e1, hsee.nUsers], by rw [e2, hsee.nItems], e4, e5⟩

theorem SeqLook.snapshot_iff {argp : ArgPart K} {k r0 r1 : ℕ} {reg hist : List (Row K)} (h : SeqLook argp st k reg hist r0 r1)
    {tests : List ℤ} (ht : ∀ u ∈ tests, ∃ t ∈ reg, t.user = u) (c : List (Row K)) :
    (∃ snap, Snapshot (tdFace argp st) tests k c snap) ↔ StepRunsOn k tests reg hist c := by
  obtain ⟨us, is, g, h1, h2⟩ := h.look
  exact h1.snapshot_iff h2 (tdFace_of argp st) ht c

theorem SeqLook.snapshot_length {argp : ArgPart K} {k r0 r1 : ℕ} {reg hist : List (Row K)} (h : SeqLook argp st k reg hist r0 r1)
    {tests : List ℤ} (ht : ∀ u ∈ tests, ∃ t ∈ reg, t.user = u) {c : List (Row K)} {snap : Snap K}
    (hs : Snapshot (tdFace argp st) tests k c snap) : snap.recs.length = tests.length := by
  obtain ⟨us, is, g, h1, h2⟩ := h.look
  exact h1.snapshot_length h2 (tdFace_of argp st) ht hs

theorem SeqLook.comparable {argp : ArgPart K} {k r0 r1 : ℕ} {reg hist reg' hist' : List (Row K)} {st' : TDState K}
    (h : SeqLook argp st k reg hist r0 r1) (h' : SeqLook argp st' k reg' hist' r0 r1)
    (hU : numUsers reg ≤ numUsers reg') (hI : numItems reg ≤ numItems reg') {tests : List ℤ} (hne : tests ≠ [])
    (ht : ∀ u ∈ tests, ∃ t ∈ reg, t.user = u) (ht' : ∀ u ∈ tests, ∃ t ∈ reg', t.user = u)
    {c d : List (Row K)} {snap snap' : Snap K} (hs : Snapshot (tdFace argp st) tests k c snap)
    (hs' : Snapshot (tdFace argp st') tests k d snap') :
    StepComparable (tdFace argp st) (tdFace argp st') snap.recs snap'.recs := by
  obtain ⟨us, is, g, h1, h2⟩ := h.look
  obtain ⟨us', is', g', h1', h2'⟩ := h'.look
  exact h1.comparable h2 (tdFace_of argp st) h1' h2' (tdFace_of argp st') hI (h.uCols.trans h'.uCols.symm)
    (h.vCols.trans h'.vCols.symm) (by show st.u.rows ≤ st'.u.rows; rw [h.uRows, h'.uRows]; exact hU)
    (by show st.v.rows ≤ st'.v.rows; rw [h.vRows, h'.vRows]; exact hI) hne ht ht' hs hs'

theorem tdOffers {M : RecModel K (Option (TDState K)) (FacArg K)} {argp : ArgPart K} {c0 : TDCfg K} {m : TDAtt K}
    (h1 : M.recommend = (tdClass argp c0 m).recommend) (h2 : M.maps = (tdClass argp c0 m).maps)
    (h3 : M.getU = (tdClass argp c0 m).getU) (h4 : M.getV = (tdClass argp c0 m).getV)
    (h5 : M.nItems = (tdClass argp c0 m).nItems) (st : TDState K) : Offers M (some st) (tdFace argp st) := by
  refine ⟨fun us k b => ?_, ?_, ?_, ?_, ?_⟩
  · rw [h1]; rfl
  · rw [h2]; rfl
  · rw [h3]; rfl
  · rw [h4]; rfl
  · rw [h5]; rfl

/-! ### Training -/

/-- Training on a cropped table succeeds exactly if the longest sequence has the configured length and the rank fits, and
gives a state of the rows of the table. -/
theorem tiTrain_at (hlen : 1 ≤ cfg.td.seqLen) (hatt : tdInit cfg.td = .ok m) (hn : 1 ≤ cfg.td.nIter) {L : ℕ}
    {initial : List (Row K)} {t : List (PRow K)}
    (ht : getDfWithCroppedPos initial L true = .ok t)
    (h : tdTrain cfg.td m (none : Option (ExitCallback K Unit)) () [] t = .ok st) : TIAt cfg m st t := by
  have hcr := crop_ok_isCropped _ _ _ ht
  obtain ⟨g1, g2⟩ := (C129_train cfg.td m hlen hatt hn none () [] (fun f hf => by cases hf) L initial t hcr).1 ⟨st, h⟩
  obtain ⟨p1, p2⟩ := cropped_pos hcr
  obtain ⟨rows, mp, users, items, k1, k2, k3, k4, k5, k6⟩ := train_mapped t
  have n1 : users.length = numUsers (t.map PRow.row) := by
    unfold numUsers
    rw [List.map_map]
    exact first_card k2
  have n2 : items.length = numItems (t.map PRow.row) := by
    unfold numItems
    rw [List.map_map]
    exact first_card k4
  rw [← n1, ← n2] at g2
  have hfit : cfg.Fits users items := by
    obtain ⟨⟨a1, a2, a3⟩, a4, a5, a6⟩ := g2
    exact ⟨by rw [Nat.mul_comm]; exact a1, by rw [Nat.mul_comm]; exact a2, by rw [Nat.mul_comm]; exact a3, a4, a5, a6⟩
  obtain ⟨s, rows', mp', l1, l2, l3⟩ := tdTrain_inv hlen hatt (none : Option (ExitCallback K Unit)) () t
    (fun f hf => by cases hf) (fun r hr => ⟨(p1 r hr).1, by have := (p1 r hr).2; have := g1.1 r.row.user; omega⟩) (by
      obtain ⟨u, hu⟩ := g1.2
      have := hlen
      obtain ⟨r, hr, -, hp⟩ := p2 u (cfg.td.seqLen - 1) (by omega)
      exact ⟨r, hr, by omega⟩) hn users items k2 k4 hfit
  obtain rfl := Except.ok.inj (h.symm.trans l2)
  obtain ⟨rfl, rfl⟩ := Prod.mk.inj (Except.ok.inj (k1.symm.trans l1))
  refine ⟨users, items, _, l3, ?_, hfit⟩
  have hsort : t.Pairwise fun a b => a.row.user < b.row.user ∨ (a.row.user = b.row.user ∧ a.pos ≤ b.pos) := by
    rw [(crop_ok_inv _ _ _ ht).2.2]
    exact cropSpec_sorted L initial true
  rw [sortedInds_of_sorted k6 k2 hsort]
  exact ordered_of_mapped k6

/-! ### Updates -/

/-- The condition of the vector steps in terms of rows. -/
def FitsMeans (L : ℕ) (fits : ℕ → ℕ → Prop) (Acc : List (Row K) → List (Row K) → Prop) : Prop :=
  ∀ {users items nus nis : List ℤ} {ext cr : List (PRow K)} {past new : List Inter} {δ : List DRow},
    (users ++ nus).Nodup → (items ++ nis).Nodup → Ordered users items ext past →
    Ordered (users ++ nus) (items ++ nis) cr new → IsDelta L past new δ →
    FirstAppearance ((cr.map fun r => r.row.user).filter fun x => decide (x ∉ users)) nus →
    FirstAppearance ((cr.map fun r => r.row.item).filter fun x => decide (x ∉ items)) nis →
    (∀ x ∈ users, ∃ r ∈ ext, r.row.user = x) → (∀ x ∈ items, ∃ r ∈ ext, r.row.item = x) →
    (∀ u, (itemsOf u new).length ≤ L) →
    (TIFits fits users.length nus.length items.length L (idRange users.length nus.length)
      (idRange items.length nis.length) δ ↔ Acc (ext.map PRow.row) (cr.map PRow.row))

theorem nodup_new {ids nids S : List ℤ} (h : ids.Nodup)
    (hf : FirstAppearance (S.filter fun x => decide (x ∉ ids)) nids) : (ids ++ nids).Nodup :=
  List.nodup_append.2 ⟨h, hf.nodup, fun a ha b hb hab => by
    have := List.mem_filter.1 ((hf.mem b).1 hb)
    rw [decide_eq_true_eq] at this
    exact this.2 (hab ▸ ha)⟩

/-- One update with a non-empty chunk. -/
theorem tiUpdate_at {rounds : TIRounds K} {fits : ℕ → ℕ → Prop}
    {Log : List ℤ → List ℤ → List DRow → TIRound K → Prop} {Acc : List (Row K) → List (Row K) → Prop}
    (hs : TISetting cfg m) (hr : TIRoundsOk rounds cfg m fits Log) (hA : FitsMeans cfg.td.seqLen fits Acc)
    (h : TIAt cfg m st ext) {c : List (Row K)} (hne : c ≠ []) {cr : List (PRow K)}
    (hcr : getDfWithCroppedPos c cfg.td.seqLen true = .ok cr) :
    ((∃ st', tiUpdate rounds cfg m st c true = .ok st') ↔
      WindowMoves cfg.td.seqLen (ext.map PRow.row) (cr.map PRow.row) ∧ Acc (ext.map PRow.row) (cr.map PRow.row)) ∧
    ∀ st', tiUpdate rounds cfg m st c true = .ok st' → TIAt cfg m st' (ext ++ cr) := by
  obtain ⟨users, items, past, hi, ho, hf⟩ := h
  obtain ⟨cr', nus, nis, new, δ, h1, h2, h3, h4, h5⟩ := update_outcome hs hr hi hf hne true
  obtain rfl := Except.ok.inj (hcr.symm.trans h1.crop)
  have nu := nodup_new hi.user.nodup h1.firstUsers
  have ni := nodup_new hi.item.nodup h1.firstItems
  have hn : Ordered (users ++ nus) (items ++ nis) cr new := h1.mapped
  have hb : ∀ u, (itemsOf u new).length ≤ cfg.td.seqLen := by
    intro u
    by_cases hu : 0 ≤ u ∧ u < (users ++ nus).length
    · have hk : u.toNat < (users ++ nus).length := by omega
      have hku : ((u.toNat : ℕ) : ℤ) = u := by omega
      have := (hn.itemsOf nu (List.getElem?_eq_getElem hk)).length_eq
      rw [hku, List.length_map] at this
      rw [this]
      unfold rowsOf
      rw [List.filter_map, List.length_map]
      exact crop_bound hs.len hne hcr _
    · have : itemsOf u new = [] := by
        rw [List.eq_nil_iff_forall_not_mem]
        intro x hx
        obtain ⟨t, ht, e1, -⟩ := mem_itemsOf hx
        have := (hn.range ht).1
        omega
      rw [this]
      simp
  have hmv := delta_moves nu ni (ho.mono (us := nus) (is' := nis)) hn h2
  have hft := hA nu ni ho hn h2 h1.firstUsers h1.firstItems hi.usersOccur hi.itemsOccur hb
  have hok : ∀ st', tiUpdate rounds cfg m st c true = .ok st' →
      (δ ≠ [] ∧ TIFits fits users.length nus.length items.length cfg.td.seqLen (idRange users.length nus.length)
          (idRange items.length nis.length) δ) ∧ TIAt cfg m st' (ext ++ cr) := by
    intro st' h
    unfold tiUpdate at h
    rw [bind_ok_iff] at h
    obtain ⟨⟨s2, l⟩, h, h'⟩ := h
    cases h'
    have hfit := not_not.1 fun hn => absurd h (by rw [h5 hn]; exact nofun)
    obtain ⟨st2, l2, e, _, hinv⟩ := h4 hfit
    obtain ⟨rfl, rfl⟩ := Prod.mk.inj (Except.ok.inj (h.symm.trans e))
    exact ⟨hfit, _, _, _, hinv, (ho.mono).append hn, hf.mono _ _⟩
  rw [← hmv, ← hft]
  refine ⟨⟨fun ⟨st', h⟩ => (hok st' h).1, fun hfit => ?_⟩, fun st' h => (hok st' h).2⟩
  obtain ⟨st', l, e, -⟩ := h4 hfit
  exact ⟨st', by unfold tiUpdate; rw [e]; rfl⟩

theorem fitsMeans_le (L : ℕ) : FitsMeans (K := K) L (fun n N => n ≤ N) (TIRecFits L) :=
  fun hu hi hp hn h hfu hfi hou hoi hb => fits_rows hu hi hp hn h hfu hfi hou hoi hb

theorem fitsMeans_true (L : ℕ) : FitsMeans (K := K) L (fun _ _ => True) (fun _ _ => True) :=
  fun _ _ _ _ _ _ _ _ _ _ => ⟨fun _ => trivial, fun _ => ⟨trivial, trivial⟩⟩

/-! ### The experiment -/

variable {rounds : TIRounds K} {fits : ℕ → ℕ → Prop} {Log : List ℤ → List ℤ → List DRow → TIRound K → Prop}
  {Acc : List (Row K) → List (Row K) → Prop}

theorem tiUpdate_nil (rounds : TIRounds K) (cfg : TICfg K) (m : TDAtt K) (st : TDState K) (b : Bool) :
    tiUpdate rounds cfg m st [] b = .error .keyError := rfl

theorem tiUpdates_at (hs : TISetting cfg m) (hr : TIRoundsOk rounds cfg m fits Log)
    (hA : FitsMeans cfg.td.seqLen fits Acc) (h : TIAt cfg m st ext) {past : List (List (Row K))} {st' : TDState K}
    (hp : tiUpdates rounds cfg m st past true = .ok st') :
    TIAt cfg m st' (ext ++ (past.map fun c => cropSpec cfg.td.seqLen c true).flatten) := by
  induction past generalizing st ext with
  | nil =>
    cases hp
    simpa using h
  | cons c past ih =>
    unfold tiUpdates at hp
    rw [List.foldlM_cons, bind_ok_iff] at hp
    obtain ⟨st1, h1, h2⟩ := hp
    have hne : c ≠ [] := by
      rintro rfl
      rw [tiUpdate_nil] at h1
      cases h1
    have := ih ((tiUpdate_at hs hr hA h hne (getDfWithCroppedPos_eq c _ true hs.len hne)).2 _ h1) h2
    simpa [List.append_assoc] using this

theorem tiUpdates_snoc {past : List (List (Row K))} {st' : TDState K}
    (h : tiUpdates rounds cfg m st past true = .ok st') (c : List (Row K)) :
    tiUpdates rounds cfg m st (past ++ [c]) true = tiUpdate rounds cfg m st' c true := by
  unfold tiUpdates at h ⊢
  rw [List.foldlM_append, h, except_bind_ok, List.foldlM_cons]
  cases tiUpdate rounds cfg m st' c true <;> rfl

theorem tiUpdates_prefix {past more : List (List (Row K))} {st' : TDState K}
    (h : tiUpdates rounds cfg m st (past ++ more) true = .ok st') :
    ∃ s, tiUpdates rounds cfg m st past true = .ok s := by
  unfold tiUpdates at h ⊢
  rw [List.foldlM_append] at h
  obtain ⟨s, h1, -⟩ := (bind_ok_iff _ _ _).1 h
  exact ⟨s, h1⟩

theorem numUsers_append (a b : List (Row K)) : numUsers a ≤ numUsers (a ++ b) := by
  unfold numUsers
  apply Finset.card_le_card
  intro x
  simp only [List.mem_toFinset, List.map_append, List.mem_append]
  exact Or.inl

theorem numItems_append (a b : List (Row K)) : numItems a ≤ numItems (a ++ b) := by
  unfold numItems
  apply Finset.card_le_card
  intro x
  simp only [List.mem_toFinset, List.map_append, List.mem_append]
  exact Or.inl

/-- What the run needs (`SeqScriptNeeds` for one run). -/
def SeqSteps (L k : ℕ) (tests : List ℤ) (t : List (PRow K)) (chunks : List (List (Row K)))
    (crops : List (List (PRow K))) (Accepts : List (Row K) → List (Row K) → Prop) : Prop :=
  List.Forall₂ (IsCropped L) chunks crops ∧
    (∀ (i : ℕ) (c : List (Row K)) (cr : List (PRow K)), chunks[i]? = some c → crops[i]? = some cr →
      StepRuns k tests ((t ++ (crops.take i).flatten).map PRow.row) c ∧
      Accepts ((t ++ (crops.take i).flatten).map PRow.row) (cr.map PRow.row)) ∧
    (2 ≤ chunks.length → tests ≠ [])

/-- The crops are determined by the chunks. -/
theorem SeqSteps.crops_eq {L k : ℕ} (hL : 1 ≤ L) {tests : List ℤ} {t : List (PRow K)} {chunks : List (List (Row K))}
    {crops : List (List (PRow K))} {Accepts : List (Row K) → List (Row K) → Prop}
    (h : SeqSteps L k tests t chunks crops Accepts) :
    (∀ c ∈ chunks, c ≠ []) ∧ crops = chunks.map fun c => cropSpec L c true := by
  obtain ⟨h1, h2, -⟩ := h
  have hne : ∀ c ∈ chunks, c ≠ [] := by
    intro c hc
    obtain ⟨i, hi, rfl⟩ := List.mem_iff_getElem.1 hc
    have hi' : i < crops.length := by rw [← h1.length_eq]; exact hi
    obtain ⟨r, hr, -⟩ := (h2 i _ _ (List.getElem?_eq_getElem hi) (List.getElem?_eq_getElem hi')).1.1
    exact List.ne_nil_of_mem hr
  refine ⟨hne, ?_⟩
  clear h2
  induction h1 with
  | nil => rfl
  | @cons c cr _ _ hc _ ih =>
    have hn := hne c (by simp)
    rw [List.map_cons, ← ih fun c' hc' => hne c' (by simp [hc'])]
    congr 1
    exact C08_crop_unique L _ _ _ hc (crop_ok_isCropped _ _ _ (getDfWithCroppedPos_eq c L true hL hn))

theorem tiRun_iff (hs : TISetting cfg m) (hL : 2 ≤ cfg.td.seqLen) (hn : 1 ≤ cfg.td.nIter)
    (hr : TIRoundsOk rounds cfg m fits Log) (hA : FitsMeans cfg.td.seqLen fits Acc) {argp : ArgPart K}
    (hargp : ArgPartOk argp) {e : ExpCfg K} (hm : e.chunkMode = true) (hre : e.reinit = false) (hk : 1 ≤ e.kRecs)
    {L : ℕ} {initial : List (Row K)} {t : List (PRow K)} (ht : getDfWithCroppedPos initial L true = .ok t)
    (htest : ∀ u ∈ e.testUsers, ∃ r ∈ initial, r.user = u) (h2 : 2 ≤ numItems (t.map PRow.row))
    (stream : List (List (Row K))) :
    (∃ d, runWith (tiClass rounds argp cfg m) e none (.posed t) stream = .ok d) ↔
      LongestIs L cfg.td.seqLen initial ∧
      RankFits cfg.td.hooi.rank (numUsers (t.map PRow.row)) (numItems (t.map PRow.row)) cfg.td.seqLen ∧
      ∃ crops, SeqSteps cfg.td.seqLen e.kRecs e.testUsers t (stream.take (expSteps e.howMany stream.length)) crops
        (fun seen new => WindowMoves cfg.td.seqLen seen new ∧ Acc seen new) := by
  have hcr := crop_ok_isCropped _ _ _ ht
  have htest' : ∀ u ∈ e.testUsers, ∃ r ∈ t.map PRow.row, r.user = u := by
    intro u hu
    obtain ⟨r, hr, hru⟩ := htest u hu
    have := (crop_mem_user (crop_ok_inv _ _ _ ht).2.1 hcr u).2 (List.mem_map.2 ⟨r, hr, hru⟩)
    exact List.mem_map.1 this
  have htr := C129_train cfg.td m hs.len hs.att hn (none : Option (ExitCallback K Unit)) () [] (fun f hf => by cases hf)
    L initial t hcr
  have hlook : ∀ {st : TDState K} {more : List (PRow K)}, TIAt cfg m st (t ++ more) →
      TILook argp st e.kRecs ((t ++ more).map PRow.row) cfg.td.hooi.rank.1 cfg.td.hooi.rank.2.1 := by
    intro st more h
    refine h.look hs hL hargp hk (h2.trans ?_)
    rw [List.map_append]
    exact numItems_append _ _
  have hknown : ∀ more : List (PRow K), ∀ u ∈ e.testUsers, ∃ r ∈ (t ++ more).map PRow.row, r.user = u := by
    intro more
    rw [List.map_append]
    exact known_append htest' _
  constructor
  · rintro ⟨d, h⟩
    obtain ⟨s, hs0⟩ := runWith_train h
    obtain ⟨st0, h0, -⟩ := (bind_ok_iff _ _ _).1 hs0
    have h0 : tdTrain cfg.td m (none : Option (ExitCallback K Unit)) () [] t = .ok st0 := h0
    obtain ⟨g1, g2⟩ := htr.1 ⟨st0, h0⟩
    have hat0 := tiTrain_at hs.len hs.att hn ht h0
    obtain ⟨snaps, s', hw, hrec⟩ := runWith_ok h
    have hl := watched_length _ _ hw
    obtain ⟨st0', stF, rfl, h0', hF⟩ := ti_watched hm hre hw
    obtain rfl := Except.ok.inj (h0.symm.trans h0')
    generalize stream.take (expSteps e.howMany stream.length) = chunks at *
    have key : ∀ (i : ℕ) c snap, chunks[i]? = some c → snaps[i]? = some snap →
        ∃ st, tiUpdates rounds cfg m st0 (chunks.take i) true = .ok st ∧
          Snapshot (tdFace argp st) e.testUsers e.kRecs c snap := by
      intro i c snap hc hsn
      obtain ⟨si, s1, k1, k2⟩ := watched_at hw i c snap hc hsn
      obtain ⟨st0'', st, rfl, h0'', hst⟩ := ti_watched hm hre k1
      obtain rfl := Except.ok.inj (h0.symm.trans h0'')
      exact ⟨st, hst, (td_shows (c0 := cfg.td) (m := m) rfl rfl rfl rfl rfl k2).2⟩
    have hnext : ∀ (i : ℕ) c st, chunks[i]? = some c → tiUpdates rounds cfg m st0 (chunks.take i) true = .ok st →
        ∃ st', tiUpdate rounds cfg m st c true = .ok st' := by
      intro i c st hc hst
      rw [← tiUpdates_snoc hst]
      obtain ⟨hi2, rfl⟩ := List.getElem?_eq_some_iff.1 hc
      rw [List.take_append_getElem]
      exact tiUpdates_prefix (more := chunks.drop (i + 1)) (by rw [List.take_append_drop]; exact hF)
    have hne : ∀ c ∈ chunks, c ≠ [] := by
      rintro c hc rfl
      obtain ⟨i, hi, hie⟩ := List.mem_iff_getElem.1 hc
      have hc' : chunks[i]? = some [] := by rw [List.getElem?_eq_getElem hi, hie]
      obtain ⟨st, hst, -⟩ := key i [] _ hc' (List.getElem?_eq_getElem (by omega))
      obtain ⟨st', hst'⟩ := hnext i [] st hc' hst
      rw [tiUpdate_nil] at hst'
      cases hst'
    refine ⟨g1, g2, chunks.map fun c => cropSpec cfg.td.seqLen c true, ?_, ?_, ?_⟩
    · rw [List.forall₂_map_right_iff, List.forall₂_same]
      exact fun c hc => crop_ok_isCropped _ _ _ (getDfWithCroppedPos_eq c _ true hs.len (hne c hc))
    · intro i c cr hc hcri
      rw [List.getElem?_map, hc] at hcri
      obtain rfl := Option.some.inj hcri
      have hi : i < snaps.length := by rw [hl]; exact (List.getElem?_eq_some_iff.1 hc).1
      obtain ⟨st, hst, hsn⟩ := key i c _ hc (List.getElem?_eq_getElem hi)
      have hat := tiUpdates_at hs hr hA hat0 hst
      rw [List.map_take] at hat
      have hcne := hne c (List.mem_of_getElem? hc)
      exact ⟨((hlook hat).snapshot_iff (hknown _) c).1 ⟨_, hsn⟩,
        (tiUpdate_at hs hr hA hat hcne (getDfWithCroppedPos_eq c _ true hs.len hcne)).1.1 (hnext i c st hc hst)⟩
    · intro h2'
      refine tests_nonempty hrec (by omega) fun sn hsn => ?_
      obtain ⟨i, hi⟩ := List.mem_iff_getElem?.1 hsn
      have hi' := (List.getElem?_eq_some_iff.1 hi).1
      obtain ⟨st, hst, hh⟩ := key i _ _ (List.getElem?_eq_getElem (by omega)) hi
      exact (hlook (tiUpdates_at hs hr hA hat0 hst)).snapshot_length (hknown _) hh
  · rintro ⟨g1, g2, crops, hst⟩
    obtain ⟨hne, rfl⟩ := hst.crops_eq hs.len
    obtain ⟨-, hsteps, hnet⟩ := hst
    obtain ⟨st0, h0⟩ := htr.2 ⟨g1, g2⟩
    refine experiment_runs (f := tdFace argp st0) (s1 := some st0)
      (fun past s conc f => ∃ st, s = some st ∧
        TIAt cfg m st (t ++ (past.map fun c => cropSpec cfg.td.seqLen c true).flatten) ∧ f = tdFace argp st) ?_ ?_ ?_ ?_
    · show (tdTrain cfg.td m (none : Option (ExitCallback K Unit)) () [] t >>= fun s => pure (some s)) = _
      rw [h0]; rfl
    · exact ⟨st0, rfl, by simpa using tiTrain_at hs.len hs.att hn ht h0, rfl⟩
    · rintro past c htk s conc f ⟨st, rfl, hat, rfl⟩
      obtain ⟨t1, t2⟩ := taken_chunk htk
      have hsr := hsteps _ _ _ t1 (by rw [List.getElem?_map, t1]; rfl)
      rw [← List.map_take, t2] at hsr
      have hcne := hne c (List.mem_of_getElem? t1)
      obtain ⟨u1, u2⟩ := tiUpdate_at hs hr hA hat hcne (getDfWithCroppedPos_eq c _ true hs.len hcne)
      refine ⟨tdOffers (M := tiClass rounds argp cfg m) (argp := argp) (c0 := cfg.td) (m := m) rfl rfl rfl rfl rfl st,
        ((hlook hat).snapshot_iff (hknown _) c).2 hsr.1, ?_⟩
      obtain ⟨st', h'⟩ := u1.2 hsr.2
      refine ⟨conc, some st', tdFace argp st', ?_, ?_, st', rfl, ?_, rfl⟩
      · unfold concatStep
        rw [hm, if_pos rfl]
      · unfold updateStep
        rw [hre, if_neg (by simp), hm, if_pos rfl]
        show (tiUpdate rounds cfg m st c true >>= fun s => pure (some s)) = _
        rw [h']; rfl
      · simpa [List.append_assoc] using u2 _ h'
    · rintro past c d htk s conc f s' conc' f' snap snap' ⟨st, -, hat, rfl⟩ ⟨st', -, hat', rfl⟩ hs hs'
      have t1 := (List.getElem?_eq_some_iff.1 (taken_chunk htk).1).1
      refine (hlook hat).comparable (hlook hat') ?_ ?_ (hnet ?_) (hknown _) (hknown _) hs hs'
      · simp only [List.map_append, List.flatten_append, ← List.append_assoc]
        exact numUsers_append _ _
      · simp only [List.map_append, List.flatten_append, ← List.append_assoc]
        exact numItems_append _ _
      · simp only [List.length_append, List.length_singleton] at t1
        omega

/-! ### The script -/

variable [FloorRing K]

theorem prepTdCfg_mk {env : RunEnv K} {cfg : RunCfg K} {ft : FixedTd} {r1 r2 r3 : ℕ} {f : K} {n : ℤ}
    (h : getOptimalTdrecParams cfg.dataset env.tdCsv = .ok ([(r1 : ℤ), (r2 : ℤ), (r3 : ℤ)], f, n)) :
    prepTdCfg env { cfg with fixedSvd := none, fixedTd := some ft } = .ok (tdSetup env ft (r1, r2, r3) f) := by
  unfold prepTdCfg natRank3 natRank
  dsimp only
  rw [h, except_bind_ok, cfgGet, except_bind_ok]
  dsimp only
  rw [if_pos (by omega), if_pos (by omega), if_pos (by omega)]
  rfl

theorem script_posed_eq {env : RunEnv K} {cfg : RunCfg K} {fs : FixedSvd} {ft : FixedTd} {name : String}
    (hn : name ∈ ["TDRec", "TDRecReinit", "TIRec", "TIRecA", "Random"]) {data : List (IRow K)}
    {initial left : List (Row K)} {stream : List (ℤ × List (Row K))} {t : List (PRow K)} {p : Prepared K}
    (h1 : prepareDataForExperiment env.sortDay data cfg.initRatio cfg.hmMin = .ok (initial, stream, left))
    (h4 : getDfWithCroppedPos initial cfg.maxLen true = .ok t)
    (h2 : prepareModel env { cfg with fixedSvd := none, fixedTd := some ft } name = .ok p) :
    runScript env cfg fs ft name data =
      runPrepared env (expCfgOf env cfg p (getUsersStability env.sortCnt initial left cfg.howMany)) p
        (.posed t) (stream.map Prod.snd) := by
  unfold runScript
  have e : scriptChoice fs ft name = .ok ("3d", none, some ft) := by
    simp only [List.mem_cons, List.not_mem_nil, or_false] at hn
    rcases hn with rfl | rfl | rfl | rfl | rfl <;> rfl
  rw [e, except_bind_ok]
  unfold fullDynamicalExperiment
  rw [h1, except_bind_ok]
  unfold initialTable
  rw [if_pos rfl]
  dsimp only
  rw [h4, except_bind_ok]
  simp only [pure, Except.pure, except_bind_ok]
  rw [h2, except_bind_ok, stability_congr env.sortCnt (Tab.posed t).rows initial left cfg.howMany
    (crop_mem_user (crop_ok_inv _ _ _ h4).2.1 (crop_ok_isCropped _ _ _ h4))]
  rfl

theorem longest_crop {L n : ℕ} (hn : 1 ≤ n) {initial : List (Row K)} {t : List (PRow K)} (h : LongestIs L n initial)
    (ht : IsCropped L initial t) : getDfWithCroppedPos initial L true = .ok t := by
  obtain ⟨-, u, hu⟩ := h
  have hL : 1 ≤ L := by omega
  have hne : initial ≠ [] := by
    rintro rfl
    simp [rowsOf] at hu
    omega
  have := getDfWithCroppedPos_eq initial L true hL hne
  rw [this]
  congr 1
  exact C08_crop_unique L _ _ _ (crop_ok_isCropped _ _ _ this) ht

/-- What is assumed about a run: a sequence length of at least 2, a QR routine that works, a positive selected rank, and
at least two items in the cropped initial table (with a single item, `recommend` is not modelled). -/
structure SeqAssumed (env : RunEnv K) (cfg : RunCfg K) (ft : FixedTd) (data : List (IRow K)) : Prop where
  argp : ArgPartOk env.argp
  sort : ∀ l, (env.sortCnt l).Perm l
  topk : 1 ≤ cfg.topk
  len : 2 ≤ ft.seqLen
  qr : QrAlways env.la
  rank : ∀ (r1 r2 r3 : ℕ) (f : K) (n : ℤ),
    getOptimalTdrecParams cfg.dataset env.tdCsv = .ok ([(r1 : ℤ), (r2 : ℤ), (r3 : ℤ)], f, n) → 1 ≤ r1 ∧ 1 ≤ r2
  items : ∀ initial stream left t,
    prepareDataForExperiment env.sortDay data cfg.initRatio cfg.hmMin = .ok (initial, stream, left) →
    IsCropped cfg.maxLen initial t → 2 ≤ numItems (t.map PRow.row)

theorem tiScript_iff {env : RunEnv K} {cfg : RunCfg K} {ft : FixedTd} {data : List (IRow K)}
    (h : SeqAssumed env cfg ft data) (fs : FixedSvd) {name : String} {rounds : TIRounds K}
    (hname : (name = "TIRec" ∧ rounds = tirecRounds) ∨ (name = "TIRecA" ∧ rounds = tirecaMiddle))
    {fits : ℕ → ℕ → Prop} {Acc : List (Row K) → List (Row K) → Prop}
    (hr : ∀ (c : TICfg K) (m : TDAtt K), TISetting c m → ∃ Log, TIRoundsOk rounds c m fits Log)
    (hA : FitsMeans ft.seqLen fits Acc) :
    (∃ d, runScript env cfg fs ft name data = .ok d) ↔
      SeqScriptNeeds env cfg ft data (fun seen new => WindowMoves ft.seqLen seen new ∧ Acc seen new) := by
  have hmem : name ∈ ["TDRec", "TDRecReinit", "TIRec", "TIRecA", "Random"] := by
    rcases hname with ⟨rfl, -⟩ | ⟨rfl, -⟩ <;> simp
  have hset : ∀ {r : ℕ × ℕ × ℕ} {f : K} {n : ℤ} {m : TDAtt K},
      getOptimalTdrecParams cfg.dataset env.tdCsv = .ok ([(r.1 : ℤ), (r.2.1 : ℤ), (r.2.2 : ℤ)], f, n) →
      tdInit (tdSetup env ft r f) = .ok m → TISetting (prepTiCfg env (tdSetup env ft r f)) m := by
    intro r f n m h1 h2
    obtain ⟨a, b⟩ := h.rank _ _ _ _ _ h1
    exact ⟨by have := h.len; show 1 ≤ ft.seqLen; omega, h2, h.qr, a, b⟩
  have hrun : ∀ {r : ℕ × ℕ × ℕ} {f : K} {n : ℤ} {m : TDAtt K} {initial left : List (Row K)}
      {stream : List (ℤ × List (Row K))} {t : List (PRow K)} (e : ExpCfg K),
      getOptimalTdrecParams cfg.dataset env.tdCsv = .ok ([(r.1 : ℤ), (r.2.1 : ℤ), (r.2.2 : ℤ)], f, n) →
      tdInit (tdSetup env ft r f) = .ok m →
      prepareDataForExperiment env.sortDay data cfg.initRatio cfg.hmMin = .ok (initial, stream, left) →
      getDfWithCroppedPos initial cfg.maxLen true = .ok t → e.chunkMode = true → e.reinit = false →
      e.kRecs = cfg.topk → e.testUsers = getUsersStability env.sortCnt initial left cfg.howMany →
      e.howMany = cfg.howMany →
      ((∃ d, runWith (tiClass rounds env.argp (prepTiCfg env (tdSetup env ft r f)) m) e none (.posed t)
          (stream.map Prod.snd) = .ok d) ↔
        LongestIs cfg.maxLen ft.seqLen initial ∧
        RankFits r (numUsers (t.map PRow.row)) (numItems (t.map PRow.row)) ft.seqLen ∧
        ∃ crops, SeqSteps ft.seqLen cfg.topk (getUsersStability env.sortCnt initial left cfg.howMany) t
          ((stream.map Prod.snd).take (expSteps cfg.howMany stream.length)) crops
          (fun seen new => WindowMoves ft.seqLen seen new ∧ Acc seen new)) := by
    intro r f n m initial left stream t e h1 h2 h3 h4 e1 e2 e3 e4 e5
    obtain ⟨Log, hr'⟩ := hr _ _ (hset h1 h2)
    have := tiRun_iff (hset h1 h2) h.len (by show 1 ≤ 25; omega) hr' hA h.argp e1 e2 (by rw [e3]; exact h.topk) h4
      (by rw [e4]; exact stability_known h.sort _ _ _) (h.items _ _ _ _ h3 (crop_ok_isCropped _ _ _ h4))
      (stream.map Prod.snd)
    rw [e3, e4, e5, List.length_map] at this
    exact this
  constructor
  · rintro ⟨d, hd⟩
    obtain ⟨initial, stream, left, t, p, h1, h2, h3, h4⟩ := script_posed hmem hd
    have hp : ∃ c m, prepTdCfg env { cfg with fixedSvd := none, fixedTd := some ft } = .ok c ∧ tdInit c = .ok m ∧
        p.maxLen = some cfg.maxLen ∧ runPrepared env (expCfgOf env cfg p (getUsersStability env.sortCnt initial left cfg.howMany)) p
          (.posed t) (stream.map Prod.snd) = runWith (tiClass rounds env.argp (prepTiCfg env c) m)
          (expCfgOf env cfg p (getUsersStability env.sortCnt initial left cfg.howMany)) none (.posed t) (stream.map Prod.snd) ∧
        p.chunkMode = true ∧ p.reinit = false := by
      rcases hname with ⟨rfl, rfl⟩ | ⟨rfl, rfl⟩
      · unfold prepareModel at h3
        rw [if_neg (by decide), if_neg (by decide), if_neg (by decide), if_neg (by decide), if_pos rfl] at h3
        obtain ⟨c, k1, h3⟩ := (bind_ok_iff _ _ _).1 h3
        obtain ⟨m, k2, h3⟩ := (bind_ok_iff _ _ _).1 h3
        have h3 := Except.ok.inj h3
        subst h3
        exact ⟨c, m, k1, k2, rfl, rfl, rfl, rfl⟩
      · unfold prepareModel at h3
        rw [if_neg (by decide), if_neg (by decide), if_neg (by decide), if_neg (by decide), if_neg (by decide),
          if_pos rfl] at h3
        obtain ⟨c, k1, h3⟩ := (bind_ok_iff _ _ _).1 h3
        obtain ⟨m, k2, h3⟩ := (bind_ok_iff _ _ _).1 h3
        have h3 := Except.ok.inj h3
        subst h3
        exact ⟨c, m, k1, k2, rfl, rfl, rfl, rfl⟩
    obtain ⟨c, m, k1, k2, -, k4, k5, k6⟩ := hp
    rw [k4] at h4
    obtain ⟨r1, r2, r3, f, n, l1, rfl, l3⟩ := prepTdCfg_ok rfl k1 k2
    obtain ⟨g1, g2, crops, g3, g4, g5⟩ := (hrun (r := (r1, r2, r3)) _ l1 l3 h1 h2 k5 k6 rfl rfl rfl).1 ⟨d, h4⟩
    exact ⟨initial, stream, left, _, t, crops, (r1, r2, r3), f, n, h1, rfl, l1, crop_ok_isCropped _ _ _ h2, g3, g1, g2,
      g4, g5⟩
  · rintro ⟨initial, stream, left, chunks, t, crops, r, f, n, h1, rfl, l1, ht, g3, g1, g2, g4, g5⟩
    have hlen := h.len
    have h4 := longest_crop (by omega) g1 ht
    have hi : ∃ m, tdInit (tdSetup env ft r f) = .ok m := ⟨_, tdInit_eq _ (by show 1 ≤ ft.seqLen; omega)⟩
    obtain ⟨m, hm⟩ := hi
    have hpc := prepTdCfg_mk (env := env) (cfg := cfg) (ft := ft) l1
    rcases hname with ⟨rfl, rfl⟩ | ⟨rfl, rfl⟩
    · have h2 : prepareModel env { cfg with fixedSvd := none, fixedTd := some ft } "TIRec" =
          .ok ⟨.ti (prepTiCfg env (tdSetup env ft r f)) m, false, true, false, true, some cfg.maxLen⟩ := by
        unfold prepareModel prepareTi
        rw [if_neg (by decide), if_neg (by decide), if_neg (by decide), if_neg (by decide), if_pos rfl, hpc,
          except_bind_ok, hm]
        rfl
      rw [script_posed_eq hmem h1 h4 h2]
      exact (hrun _ l1 hm h1 h4 rfl rfl rfl rfl rfl).2 ⟨g1, g2, crops, g3, g4, g5⟩
    · have h2 : prepareModel env { cfg with fixedSvd := none, fixedTd := some ft } "TIRecA" =
          .ok ⟨.tiA (prepTiCfg env (tdSetup env ft r f)) m, false, true, false, true, some cfg.maxLen⟩ := by
        unfold prepareModel prepareTiA
        rw [if_neg (by decide), if_neg (by decide), if_neg (by decide), if_neg (by decide), if_neg (by decide), if_pos rfl,
          hpc, except_bind_ok, hm]
        rfl
      rw [script_posed_eq hmem h1 h4 h2]
      exact (hrun _ l1 hm h1 h4 rfl rfl rfl rfl rfl).2 ⟨g1, g2, crops, g3, g4, g5⟩

/-- **C130, TIRec.** The script completes with `TIRec` exactly if the data can be prepared, the longest sequence of the
cropped initial table has exactly the configured length, the selected rank fits this table, every chunk taken has a row
with known ids, all users to be scored or tested have at least `topk` known items left, every chunk changes the last items
of some user, no chunk brings too many users (items) that are new on their own, and there are users for the stability
test if more than one chunk is taken. -/
theorem C130_tirec (env : RunEnv K) (cfg : RunCfg K) (fs : FixedSvd) (ft : FixedTd) (data : List (IRow K))
    (h : SeqAssumed env cfg ft data) :
    (∃ d, runScript env cfg fs ft "TIRec" data = .ok d) ↔
      SeqScriptNeeds env cfg ft data (fun seen new => WindowMoves ft.seqLen seen new ∧ TIRecFits ft.seqLen seen new) :=
  tiScript_iff h fs (Or.inl ⟨rfl, rfl⟩) (fun _ _ hs => ⟨_, tirec_roundsOk hs⟩) (fitsMeans_le _)

/-- **C130, TIRecA.** With `TIRecA` the number of new users and items does not matter. -/
theorem C130_tireca (env : RunEnv K) (cfg : RunCfg K) (fs : FixedSvd) (ft : FixedTd) (data : List (IRow K))
    (h : SeqAssumed env cfg ft data) :
    (∃ d, runScript env cfg fs ft "TIRecA" data = .ok d) ↔
      SeqScriptNeeds env cfg ft data (WindowMoves ft.seqLen) := by
  have := tiScript_iff h fs (Or.inr ⟨rfl, rfl⟩) (fun _ _ hs => tireca_fits hs) (Acc := fun _ _ => True)
    (fitsMeans_true ft.seqLen)
  simpa only [and_true] using this

/-- Consequence: wherever `TIRec` completes, `TIRecA` does. -/
theorem C130_tirec_tireca (env : RunEnv K) (cfg : RunCfg K) (fs : FixedSvd) (ft : FixedTd) (data : List (IRow K))
    (h : SeqAssumed env cfg ft data) (d : Dynamics K) (hd : runScript env cfg fs ft "TIRec" data = .ok d) :
    ∃ d', runScript env cfg fs ft "TIRecA" data = .ok d' := by
  obtain ⟨initial, stream, left, chunks, t, crops, r, f, n, h1, h2, h3, h4, h5, h6, h7, h8, h9⟩ :=
    (C130_tirec env cfg fs ft data h).1 ⟨d, hd⟩
  exact (C130_tireca env cfg fs ft data h).2 ⟨initial, stream, left, chunks, t, crops, r, f, n, h1, h2, h3, h4, h5, h6, h7,
    fun i c cr hc hcr => ⟨(h8 i c cr hc hcr).1, (h8 i c cr hc hcr).2.1⟩, h9⟩

end
/-! ### Example

The data of `exRunData`, but over the reals, where a QR decomposition always exists. -/

noncomputable def exSeqEnv : RunEnv ℝ where
  psi := ⟨realLA, fun _ _ _ _ => 1, fun v => List.range v.length, fun _ _ _ _ => 1⟩
  argp a _ := stableSort (fun i j => decide (a.getD i 0 ≤ a.getD j 0)) (List.range a.length)
  la := realLA
  initRng _ _ _ _ _ := 1
  rsvdRng _ _ _ _ _ _ := 1
  vecRng _ _ _ _ _ := 1
  matRng _ _ _ _ _ _ := 1
  normal _ _ _ _ := 1
  normals n := n
  normT a := ∑ i, ∑ j, ∑ k, a.val i j k ^ 2
  normM a := ∑ i, ∑ j, a.val i j ^ 2
  clock n := n
  pow _ n := n
  growthTol := 1 / 100
  sortDay := id
  sortCnt := id
  svdCsv := [⟨1, 1⟩]
  tdCsv := [⟨[1, 1, 1], 1, 2, 1⟩]
noncomputable def exSeqCfg : RunCfg ℝ := ⟨.steam, 1, 4/7, none, 5, 3, none, none⟩
def exSeqInitial : List (Row ℝ) :=
  [⟨7, 40, 1, 0, 0⟩, ⟨8, 41, 1, 1, 0⟩, ⟨8, 42, 1, 2, 0⟩, ⟨8, 43, 1, 3, 0⟩]
def exSeqLeft : List (Row ℝ) := [⟨8, 43, 1, 4, 1⟩, ⟨9, 41, 1, 5, 1⟩, ⟨7, 43, 1, 6, 2⟩]
def exSeqData : List (IRow ℝ) :=
  [⟨0, ⟨7, 40, 1, 0, 0⟩⟩, ⟨1, ⟨8, 41, 1, 1, 0⟩⟩, ⟨2, ⟨8, 42, 1, 2, 0⟩⟩, ⟨3, ⟨8, 43, 1, 3, 0⟩⟩,
   ⟨4, ⟨8, 43, 1, 4, 1⟩⟩, ⟨5, ⟨9, 41, 1, 5, 1⟩⟩, ⟨6, ⟨7, 43, 1, 6, 2⟩⟩]
theorem exSeq_split : prepareDataForExperiment exSeqEnv.sortDay exSeqData exSeqCfg.initRatio exSeqCfg.hmMin =
    .ok (exSeqInitial, [(1, [⟨8, 43, 1, 4, 1⟩, ⟨9, 41, 1, 5, 1⟩]), (2, [⟨7, 43, 1, 6, 2⟩])], exSeqLeft) := by
  have h : pyInt ((exSeqData.length : ℝ) * exSeqCfg.initRatio) = 4 := by
    show pyInt ((7 : ℕ) * (4 / 7) : ℝ) = 4
    have : ((7 : ℕ) * (4 / 7) : ℝ) = 4 := by norm_num
    rw [this]
    unfold pyInt
    rw [if_pos (by norm_num)]
    norm_num
  unfold prepareDataForExperiment
  rw [h]
  rfl
def exSeqInitialC : List (PRow ℝ) := [⟨⟨7, 40, 1, 0, 0⟩, 0⟩, ⟨⟨8, 41, 1, 1, 0⟩, 0⟩, ⟨⟨8, 42, 1, 2, 0⟩, 1⟩, ⟨⟨8, 43, 1, 3, 0⟩, 2⟩]
theorem exSeq_crop : getDfWithCroppedPos exSeqInitial exSeqCfg.maxLen true = .ok exSeqInitialC := rfl
theorem exSeq_crop1 : getDfWithCroppedPos [(⟨8, 43, 1, 4, 1⟩ : Row ℝ), ⟨9, 41, 1, 5, 1⟩] exFixTd.seqLen true =
    .ok [⟨⟨8, 43, 1, 4, 1⟩, 0⟩, ⟨⟨9, 41, 1, 5, 1⟩, 0⟩] := rfl
theorem exSeq_crop2 : getDfWithCroppedPos [(⟨7, 43, 1, 6, 2⟩ : Row ℝ)] exFixTd.seqLen true =
    .ok [⟨⟨7, 43, 1, 6, 2⟩, 0⟩] := rfl
theorem exSeq_td : getOptimalTdrecParams exSeqCfg.dataset exSeqEnv.tdCsv = .ok ([1,1,1], 1, 2) := by
  simp [getOptimalTdrecParams, exSeqCfg, exSeqEnv, geMask, maxOf?, firstMin, pure, Except.pure, bind, Except.bind]

theorem exSeq_argp : ArgPartOk exSeqEnv.argp := by
  intro a k _ _
  refine ⟨stableSort_perm _ _, ?_⟩
  intro i j pi pj x y hi hj hx hy hik hkj
  have hs : (stableSort (fun i j => decide (a.getD i 0 ≤ a.getD j 0)) (List.range a.length)).Pairwise
      (fun i j => decide (a.getD i 0 ≤ a.getD j 0) = true) := by
    apply stableSort_sorted
    · intro a b c; simp only [decide_eq_true_eq]; exact le_trans
    · intro a b; simp only [decide_eq_true_eq]; exact le_total _ _
  change (stableSort (fun i j => decide (a.getD i 0 ≤ a.getD j 0)) (List.range a.length))[i]? = _ at hi
  change (stableSort (fun i j => decide (a.getD i 0 ≤ a.getD j 0)) (List.range a.length))[j]? = _ at hj
  have ex : a.getD pi 0 = x := by simp [List.getD_eq_getElem?_getD, hx]
  have ey : a.getD pj 0 = y := by simp [List.getD_eq_getElem?_getD, hy]
  rcases Nat.lt_or_ge i j with hlt | hge
  · obtain ⟨hi1, hi2⟩ := List.getElem?_eq_some_iff.1 hi
    obtain ⟨hj1, hj2⟩ := List.getElem?_eq_some_iff.1 hj
    have := List.pairwise_iff_getElem.1 hs i j hi1 hj1 hlt
    rw [hi2, hj2, ex, ey] at this
    simpa using this
  · have : i = j := by omega
    subst this
    rw [hi, Option.some.injEq] at hj
    subst hj
    rw [hx, Option.some.injEq] at hy
    exact le_of_eq hy

theorem exSeq_assumed : SeqAssumed exSeqEnv exSeqCfg exFixTd exSeqData where
  argp := exSeq_argp
  sort _ := List.Perm.refl _
  topk := le_refl _
  len := by decide
  qr := qrAlways_real
  rank := by
    intro r1 r2 r3 f n h
    have h := Except.ok.inj (exSeq_td.symm.trans h)
    simp only [Prod.mk.injEq, List.cons.injEq] at h
    omega
  items := by
    intro initial stream left t h1 h2
    have h1 := Except.ok.inj (exSeq_split.symm.trans h1)
    injection h1 with h1 _
    subst h1
    rw [C08_crop_unique _ _ _ _ h2 (crop_ok_isCropped _ _ _ exSeq_crop)]
    decide

/-- The conditions of C130 hold for these data (hence both scripts complete). -/
theorem exSeq_needs : SeqScriptNeeds exSeqEnv exSeqCfg exFixTd exSeqData
    (fun seen new => WindowMoves exFixTd.seqLen seen new ∧ TIRecFits exFixTd.seqLen seen new) := by
  refine ⟨exSeqInitial, _, exSeqLeft, _, exSeqInitialC, [[⟨⟨8, 43, 1, 4, 1⟩, 0⟩, ⟨⟨9, 41, 1, 5, 1⟩, 0⟩], [⟨⟨7, 43, 1, 6, 2⟩, 0⟩]],
    (1, 1, 1), 1, 2, exSeq_split, rfl, exSeq_td, crop_ok_isCropped _ _ _ exSeq_crop,
    .cons (crop_ok_isCropped _ _ _ exSeq_crop1) (.cons (crop_ok_isCropped _ _ _ exSeq_crop2) .nil), ⟨?_, 8, rfl⟩, ?_, ?_, ?_⟩
  · intro u
    exact min_le_left _ _
  · refine ⟨by decide, ?_, ?_, ?_⟩ <;> decide
  · intro i c cr h1 h2
    match i, h1, h2 with
    | 0, h1, h2 =>
      have h1 := Option.some.inj h1
      have h2 := Option.some.inj h2
      subst h1 h2
      refine ⟨⟨⟨⟨8, 43, 1, 4, 1⟩, by simp, by decide⟩, ?_, by decide⟩, ⟨8, by decide⟩, by decide, by decide⟩
      intro r hr _
      rcases List.mem_cons.1 hr with rfl | hr
      · decide
      · rw [List.mem_singleton.1 hr]
        decide
    | 1, h1, h2 =>
      have h1 := Option.some.inj h1
      have h2 := Option.some.inj h2
      subst h1 h2
      refine ⟨⟨⟨⟨7, 43, 1, 6, 2⟩, by simp, by decide⟩, ?_, by decide⟩, ⟨7, by decide⟩, by decide, by decide⟩
      intro r hr _
      rw [List.mem_singleton.1 hr]
      decide
    | i + 2, h1, h2 => cases h1
  · intro _
    decide

example : ∃ d, runScript exSeqEnv exSeqCfg exFixSvd exFixTd "TIRec" exSeqData = .ok d :=
  (C130_tirec _ _ _ _ _ exSeq_assumed).2 exSeq_needs

example : ∃ d, runScript exSeqEnv exSeqCfg exFixSvd exFixTd "TIRecA" exSeqData = .ok d :=
  ((C130_tirec _ _ exFixSvd _ _ exSeq_assumed).2 exSeq_needs).elim fun d h => C130_tirec_tireca _ _ _ _ _ exSeq_assumed d h

/-- C129: the initial table of the example can be trained on with 3 places … -/
example : ∃ m s, tdInit (tdSetup exSeqEnv exFixTd (1, 1, 1) 1) = .ok m ∧
    tdTrain (τ := Unit) (tdSetup exSeqEnv exFixTd (1, 1, 1) 1) m none () [] exSeqInitialC = .ok s := by
  have hm := tdInit_eq (tdSetup exSeqEnv exFixTd (1, 1, 1) 1) (by decide)
  obtain ⟨s, hs⟩ := (C129_train (τ := Unit) _ _ (by decide) hm (by decide) none () [] (fun f h => by cases h) _ _ _
    (crop_ok_isCropped _ _ _ exSeq_crop)).2 ⟨⟨fun u => min_le_left _ _, 8, rfl⟩, by decide, by decide, by decide, by decide⟩
  exact ⟨_, s, hm, hs⟩

/-- … and cannot with 4, which no sequence fills. -/
example (m : TDAtt ℝ) (hm : tdInit (tdSetup exSeqEnv { exFixTd with seqLen := 4 } (1, 1, 1) 1) = .ok m) :
    ¬ ∃ s, tdTrain (τ := Unit) (tdSetup exSeqEnv { exFixTd with seqLen := 4 } (1, 1, 1) 1) m none () [] exSeqInitialC = .ok s := by
  intro h
  obtain ⟨⟨-, u, hu⟩, -⟩ := (C129_train (τ := Unit) _ _ (by decide) hm (by decide) none () [] (fun f h => by cases h) _ _ _
    (crop_ok_isCropped _ _ _ exSeq_crop)).1 h
  have : min 3 (rowsOf u exSeqInitial).length = 4 := hu
  omega

/-- Four initial rows, in which user 8 views item 43 three times; then the user views it once more. -/
def exStillInitial : List (Row ℝ) := [⟨7, 40, 1, 0, 0⟩, ⟨8, 43, 1, 1, 0⟩, ⟨8, 43, 1, 2, 0⟩, ⟨8, 43, 1, 3, 0⟩]
def exStillData : List (IRow ℝ) :=
  [⟨0, ⟨7, 40, 1, 0, 0⟩⟩, ⟨1, ⟨8, 43, 1, 1, 0⟩⟩, ⟨2, ⟨8, 43, 1, 2, 0⟩⟩, ⟨3, ⟨8, 43, 1, 3, 0⟩⟩, ⟨4, ⟨8, 43, 1, 4, 1⟩⟩]
noncomputable def exStillCfg : RunCfg ℝ := { exSeqCfg with initRatio := 4 / 5 }

theorem exStill_split : prepareDataForExperiment exSeqEnv.sortDay exStillData exStillCfg.initRatio exStillCfg.hmMin =
    .ok (exStillInitial, [(1, [⟨8, 43, 1, 4, 1⟩])], [⟨8, 43, 1, 4, 1⟩]) := by
  have h : pyInt ((exStillData.length : ℝ) * exStillCfg.initRatio) = 4 := by
    show pyInt ((5 : ℕ) * (4 / 5) : ℝ) = 4
    have : ((5 : ℕ) * (4 / 5) : ℝ) = 4 := by norm_num
    rw [this]
    unfold pyInt
    rw [if_pos (by norm_num)]
    norm_num
  unfold prepareDataForExperiment
  rw [h]
  rfl

theorem exStill_crop : getDfWithCroppedPos exStillInitial exStillCfg.maxLen true =
    .ok [⟨⟨7, 40, 1, 0, 0⟩, 0⟩, ⟨⟨8, 43, 1, 1, 0⟩, 0⟩, ⟨⟨8, 43, 1, 2, 0⟩, 1⟩, ⟨⟨8, 43, 1, 3, 0⟩, 2⟩] := rfl

theorem exStill_crop1 : getDfWithCroppedPos [(⟨8, 43, 1, 4, 1⟩ : Row ℝ)] exFixTd.seqLen true =
    .ok [⟨⟨8, 43, 1, 4, 1⟩, 0⟩] := rfl

theorem exStill_assumed : SeqAssumed exSeqEnv exStillCfg exFixTd exStillData where
  argp := exSeq_argp
  sort _ := List.Perm.refl _
  topk := le_refl _
  len := by decide
  qr := qrAlways_real
  rank := exSeq_assumed.rank
  items := by
    intro initial stream left t h1 h2
    have h1 := Except.ok.inj (exStill_split.symm.trans h1)
    injection h1 with h1 _
    subst h1
    rw [C08_crop_unique _ _ _ _ h2 (crop_ok_isCropped _ _ _ exStill_crop)]
    decide

/-- The chunk leaves every user's last three items as they are, so neither script completes. -/
example : ¬ ∃ d, runScript exSeqEnv exStillCfg exFixSvd exFixTd "TIRecA" exStillData = .ok d := by
  intro hd
  obtain ⟨initial, stream, left, chunks, t, crops, r, f, n, h1, rfl, -, h2, h3, -, -, h4, -⟩ :=
    (C130_tireca _ _ _ _ _ exStill_assumed).1 hd
  have h1 := Except.ok.inj (exStill_split.symm.trans h1)
  injection h1 with h1 h5
  injection h5 with h5 h6
  subst h1 h5 h6
  rw [C08_crop_unique _ _ _ _ h2 (crop_ok_isCropped _ _ _ exStill_crop)] at h4
  cases h3 with
  | cons h3 h6 =>
    obtain ⟨u, hu⟩ := (h4 0 _ _ rfl rfl).2
    rw [C08_crop_unique _ _ _ _ h3 (crop_ok_isCropped _ _ _ exStill_crop1)] at hu
    apply hu
    by_cases h : (8 : ℤ) = u
    · subst h; rfl
    · simp [lastItems, rowsOf, List.filter_cons, h]

end DynCF
