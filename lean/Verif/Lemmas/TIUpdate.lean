/-
One call of `update` of `TIRec` and `TIRecA` on a consistent state.
-/
import Verif.Lemmas.TIRounds
import Verif.Props.TDRec2
import Verif.Props.Hooi2
import Verif.Spec.Recommend

set_option linter.unusedSectionVars false

namespace DynCF
open Matrix
variable {K : Type}

/-! ### Mapped tables -/

theorem MappedTo.mono {users items us is' : List ℤ} {d d' : List (PRow K)} (h : MappedTo users items d d') :
    MappedTo (users ++ us) (items ++ is') d d' := by
  refine List.Forall₂.imp ?_ h
  rintro p p' ⟨h1, h2, ⟨k, h3, h4⟩, ⟨l, h5, h6⟩⟩
  have a1 := (List.getElem?_eq_some_iff.1 h4).1
  have a2 := (List.getElem?_eq_some_iff.1 h6).1
  exact ⟨h1, h2, ⟨k, h3, by rw [List.getElem?_append_left a1]; exact h4⟩,
    ⟨l, h5, by rw [List.getElem?_append_left a2]; exact h6⟩⟩

theorem MappedTo.append {users items : List ℤ} {d d' e e' : List (PRow K)} (h : MappedTo users items d d')
    (h' : MappedTo users items e e') : MappedTo users items (d ++ e) (d' ++ e') := List.rel_append h h'

theorem MappedTo.range {users items : List ℤ} {d d' : List (PRow K)} (h : MappedTo users items d d') {p' : PRow K}
    (hp : p' ∈ d') : (0 ≤ p'.row.user ∧ p'.row.user < users.length) ∧ 0 ≤ p'.row.item ∧ p'.row.item < items.length := by
  obtain ⟨p, _, h1, h2, ⟨k, h3, h4⟩, ⟨l, h5, h6⟩⟩ := forall₂_mem_right h hp
  have a1 := (List.getElem?_eq_some_iff.1 h4).1
  have a2 := (List.getElem?_eq_some_iff.1 h6).1
  omega

theorem MappedTo.user_count {users items : List ℤ} {d d' : List (PRow K)} (h : MappedTo users items d d') (u : ℤ) :
    ((chunkInters d').filter fun t => decide (t.user = u)).length ≤
      (d.filter fun p => decide (p.row.user = users.getD u.toNat 0)).length := by
  induction h with
  | nil => simp [chunkInters]
  | @cons p p' _ _ hp _ ih =>
    obtain ⟨_, _, ⟨k, h3, h4⟩, _⟩ := hp
    unfold chunkInters at ih ⊢
    rw [List.map_cons, List.filter_cons, List.filter_cons]
    by_cases hu : p'.row.user = u
    · have : p.row.user = users.getD u.toNat 0 := by
        rw [← hu, h3, Int.toNat_natCast, List.getD_eq_getElem?_getD, h4]; rfl
      rw [if_pos (by simpa using hu), if_pos (by simpa using this)]
      simp only [List.length_cons]
      omega
    · rw [if_neg (by simpa using hu)]
      split
      · simp only [List.length_cons]; omega
      · exact ih

/-! ### The state -/

/-- The attributes of a model that was trained and updated: `ext` are the rows given to it (after cropping) and
`past` the same interactions with internal indices in the order in which they were added to the sequential
history. -/
structure TIInv [Field K] (cfg : TICfg K) (m : TDAtt K) (st : TDState K) (users items : List ℤ) (ext : List (PRow K))
    (past : List Inter) : Prop where
  user : Represents st.maps.user users
  item : Represents st.maps.item items
  hist : HistInv cfg.td.seqLen st.seqHist past
  shape : TIShape st users.length items.length cfg.td.seqLen cfg.td.hooi.rank.1 cfg.td.hooi.rank.2.1 cfg.td.hooi.rank.2.2
  seen : ∃ chunk, MappedTo users items ext chunk ∧ past.Perm (chunkInters chunk) ∧
    st.history = chunk.map fun p => (p.row.user, p.row.item)
  aw : m.att.dot st.w = .ok st.aw
  last : ∃ lw v, m.attInv.T.dot st.w = .ok lw ∧ lw.row (-1) = .ok v ∧ st.lastPos = ⟨_, v⟩
  usersOccur : ∀ x ∈ users, ∃ r ∈ ext, r.row.user = x
  itemsOccur : ∀ x ∈ items, ∃ r ∈ ext, r.row.item = x

theorem TIInv.pastRange [Field K] {cfg : TICfg K} {m : TDAtt K} {st : TDState K} {users items : List ℤ}
    {ext : List (PRow K)} {past : List Inter} (h : TIInv cfg m st users items ext past) {t : Inter} (ht : t ∈ past) :
    (0 ≤ t.user ∧ t.user < users.length) ∧ 0 ≤ t.item ∧ t.item < items.length := by
  obtain ⟨chunk, h1, h2, _⟩ := h.seen
  have := h2.mem_iff.1 ht
  unfold chunkInters at this
  obtain ⟨p, hp, rfl⟩ := List.mem_map.1 this
  exact h1.range hp

/-- The delta of an update: every index is in range and every new user and item occurs. -/
theorem prep_delta {maps : Mappings} {h : SeqHist} {users items : List ℤ} {past : List Inter} {L : ℕ} (hL : 1 ≤ L)
    (hh : HistInv L h past)
    (hpast : ∀ t ∈ past, (0 ≤ t.user ∧ t.user < users.length) ∧ 0 ≤ t.item ∧ t.item < items.length)
    {data : List (Row K)} (hne : data ≠ []) {b : Bool} {p : TIPrep K} {cr : List (PRow K)} {nus nis : List ℤ}
    (hp : PrepOk maps L data b users items p cr nus nis) :
    DeltaOk users.length nus.length items.length nis.length L p.newUsers p.newItems (tiTrainTensor h L p.chunk).1 := by
  have hpos : ∀ r ∈ (tiTrainTensor h L p.chunk).1, ((0 ≤ r.user ∧ r.user < (users.length + nus.length : ℕ)) ∧
      0 ≤ r.item ∧ r.item < (items.length + nis.length : ℕ)) ∧ 0 ≤ r.pos ∧ r.pos < L := by
    intro r hr
    obtain ⟨_, h1, h2, _, t, ht, h3, h4⟩ := delta_entry hh hr
    refine ⟨?_, h1, h2⟩
    rw [← h3, ← h4]
    rcases List.mem_append.1 ht with ht | ht
    · have := hpast t ht
      push_cast
      omega
    · unfold chunkInters at ht
      obtain ⟨q, hq, rfl⟩ := List.mem_map.1 ht
      have := hp.mapped.range hq
      rw [List.length_append, List.length_append] at this
      exact this
  have hb : ∀ u, ((chunkInters p.chunk).filter fun t => decide (t.user = u)).length ≤ L := fun u =>
    (hp.mapped.user_count u).trans (crop_bound hL hne hp.crop _)
  refine ⟨hp.newUsers, hp.newItems, fun r hr => (hpos r hr).1.1, fun r hr => (hpos r hr).1.2,
    fun r hr => (hpos r hr).2, ?_, ?_⟩
  · intro x hx
    rw [hp.newUsers, mem_idRange] at hx
    have hi : x.toNat - users.length < nus.length := by omega
    have hmem : nus[x.toNat - users.length] ∈ nus := List.getElem_mem _
    rw [hp.firstUsers.mem, List.mem_filter, List.mem_map] at hmem
    obtain ⟨⟨r, hr, hre⟩, _⟩ := hmem
    obtain ⟨q, hq, _, _, ⟨k, h3, h4⟩, ⟨l, h5, h6⟩⟩ := forall₂_mem_left hp.mapped hr
    have hk : k = x.toNat := by
      obtain ⟨hk, h4⟩ := List.getElem?_eq_some_iff.1 h4
      refine (hp.user.nodup.getElem_inj_iff (hi := hk) (hj := by rw [List.length_append]; omega)).1 ?_
      rw [h4, hre, List.getElem_append_right (by omega)]
    obtain ⟨pp, hpp⟩ := delta_new hh hb (t := ⟨q.row.user, q.row.item, q.pos⟩)
      (by unfold chunkInters; exact List.mem_map.2 ⟨q, hq, rfl⟩) (by dsimp only; unfold PAD; omega)
      (Or.inl fun y hy => by have := hpast y hy; dsimp only; omega)
    exact ⟨_, hpp, by dsimp only; omega⟩
  · intro x hx
    rw [hp.newItems, mem_idRange] at hx
    have hi : x.toNat - items.length < nis.length := by omega
    have hmem : nis[x.toNat - items.length] ∈ nis := List.getElem_mem _
    rw [hp.firstItems.mem, List.mem_filter, List.mem_map] at hmem
    obtain ⟨⟨r, hr, hre⟩, _⟩ := hmem
    obtain ⟨q, hq, _, _, ⟨k, h3, h4⟩, ⟨l, h5, h6⟩⟩ := forall₂_mem_left hp.mapped hr
    have hk : l = x.toNat := by
      obtain ⟨hk, h6⟩ := List.getElem?_eq_some_iff.1 h6
      refine (hp.item.nodup.getElem_inj_iff (hi := hk) (hj := by rw [List.length_append]; omega)).1 ?_
      rw [h6, hre, List.getElem_append_right (by omega)]
    obtain ⟨pp, hpp⟩ := delta_new hh hb (t := ⟨q.row.user, q.row.item, q.pos⟩)
      (by unfold chunkInters; exact List.mem_map.2 ⟨q, hq, rfl⟩) (by dsimp only; unfold PAD; omega)
      (Or.inr fun y hy => by have := hpast y hy; dsimp only; omega)
    exact ⟨_, hpp, by dsimp only; omega⟩

section
variable [Field K] [LinearOrder K] [IsStrictOrderedRing K]

/-- the attention argument of the steps -/
theorem tiAttArg_typed {cfg : TICfg K} {m : TDAtt K} (hL : 1 ≤ cfg.td.seqLen) (hm : tdInit cfg.td = .ok m) :
    ∃ att : Option (Matrix (Fin cfg.td.seqLen) (Fin cfg.td.seqLen) K), tiAttArg cfg m = attArg att := by
  rw [tdInit_eq cfg.td hL] at hm
  obtain rfl := Except.ok.inj hm
  unfold tiAttArg
  cases hf : cfg.td.attF with
  | none => exact ⟨none, by simp [attArg]⟩
  | some ipow =>
    cases hl : cfg.light with
    | true => exact ⟨none, by simp [attArg]⟩
    | false => exact ⟨some (attMatrix ipow cfg.td.seqLen), by simp [attArg]⟩

/-- the last lines of `update` -/
theorem tiFinish {L r2 : ℕ} (hL : 1 ≤ L) {m : TDAtt K} (hm : m.att.rows = L ∧ m.att.cols = L ∧
    m.attInv.rows = L ∧ m.attInv.cols = L) (w : Mat K) (W : Matrix (Fin L) (Fin r2) K) (hw : w = ⟨L, r2, W⟩) :
    ∃ aw lw v, m.att.dot w = .ok aw ∧ m.attInv.T.dot w = .ok lw ∧ lw.row (-1) = .ok v := by
  obtain ⟨⟨a1, a2, A⟩, ⟨b1, b2, B⟩⟩ := m
  obtain ⟨h1, h2, h3, h4⟩ := hm
  dsimp only at h1 h2 h3 h4
  subst h1 h2 h3 h4 hw
  obtain ⟨L, rfl⟩ := Nat.exists_eq_add_of_le' hL
  exact ⟨_, _, _, Mat.dot_mk _ _, Mat.dot_mk _ _, row_neg_one _⟩

/-- One update. The delta has all its indices in range and contains every new user and item; if the steps succeed
and leave factors with one row per user and item, then so does `update` and the new state is consistent. -/
theorem tiUpdate_step (rounds : TIRounds K) {cfg : TICfg K} {m : TDAtt K} (hL : 1 ≤ cfg.td.seqLen)
    (hm : tdInit cfg.td = .ok m) {st : TDState K} {users items : List ℤ} {ext : List (PRow K)} {past : List Inter}
    (hi : TIInv cfg m st users items ext past) {data : List (Row K)} (hne : data ≠ []) (b : Bool) {p : TIPrep K}
    {cr : List (PRow K)} {nus nis : List ℤ}
    (hp : PrepOk st.maps cfg.td.seqLen data b users items p cr nus nis) :
    let δ := (tiTrainTensor st.seqHist cfg.td.seqLen p.chunk).1
    let st1 : TDState K := { st with maps := p.maps, seqHist := (tiTrainTensor st.seqHist cfg.td.seqLen p.chunk).2 }
    TIShape st1 users.length items.length cfg.td.seqLen cfg.td.hooi.rank.1 cfg.td.hooi.rank.2.1 cfg.td.hooi.rank.2.2 ∧
    (∀ e, rounds cfg m st1 p.newUsers p.newItems δ = .error e → tiUpdateLog rounds cfg m st data b = .error e) ∧
    ∀ l, rounds cfg m st1 p.newUsers p.newItems δ = .ok l →
      TIShape l.st (users.length + nus.length) (items.length + nis.length) cfg.td.seqLen cfg.td.hooi.rank.1
        cfg.td.hooi.rank.2.1 cfg.td.hooi.rank.2.2 → TISame st1 l.st →
      ∃ st', tiUpdateLog rounds cfg m st data b = .ok (st', l) ∧ l.st.fac = st'.fac ∧ l.st.core = st'.core ∧
        TIInv cfg m st' (users ++ nus) (items ++ nis) (ext ++ cr) (past ++ chunkInters p.chunk) := by
  intro δ st1
  obtain ⟨U, V, W, c, hs⟩ := hi.shape
  refine ⟨⟨U, V, W, c, hs.u, hs.v, hs.w, hs.core⟩, ?_, ?_⟩
  · intro e he
    unfold tiUpdateLog
    rw [hp.prep, except_bind_ok]
    exact (bind_error_iff _ _ _).2 (Or.inl he)
  · intro l hl hsh hsame
    obtain ⟨U', V', W', c', hs'⟩ := hsh
    obtain ⟨aw, lw, v, e1, e2, e3⟩ := tiFinish hL (tdInit_cols hL hm) l.st.w W' hs'.w
    refine ⟨{ l.st with history := tiUpdateHistory l.st.history p.chunk, aw := aw, lastPos := ⟨_, v⟩ }, ?_, rfl, rfl, ?_⟩
    · unfold tiUpdateLog
      rw [hp.prep, except_bind_ok]
      dsimp only
      rw [show rounds cfg m { st with maps := p.maps, seqHist := (tiTrainTensor st.seqHist cfg.td.seqLen p.chunk).2 }
        p.newUsers p.newItems (tiTrainTensor st.seqHist cfg.td.seqLen p.chunk).1 = .ok l from hl]
      rw [except_bind_ok, e1, except_bind_ok, e2, except_bind_ok, e3, except_bind_ok]
      rfl
    · obtain ⟨chunk, h1, h2, h3⟩ := hi.seen
      refine ⟨?_, ?_, ?_, ?_, ⟨chunk ++ p.chunk, h1.mono.append hp.mapped, ?_, ?_⟩, e1, ⟨lw, v, e2, e3, rfl⟩, ?_, ?_⟩
      · show Represents l.st.maps.user _; rw [hsame.maps]; exact hp.user
      · show Represents l.st.maps.item _; rw [hsame.maps]; exact hp.item
      · show HistInv _ l.st.seqHist _; rw [hsame.seqHist]; exact histInv_update _ _ _ _ hi.hist
      · rw [List.length_append, List.length_append]; exact ⟨U', V', W', c', hs'.u, hs'.v, hs'.w, hs'.core⟩
      · unfold chunkInters at h2 ⊢; rw [List.map_append]; exact h2.append_right _
      · show tiUpdateHistory l.st.history p.chunk = _
        unfold tiUpdateHistory
        rw [hsame.history, List.map_append]
        exact congrArg (· ++ _) h3
      · intro x hx
        rcases List.mem_append.1 hx with hx | hx
        · obtain ⟨r, hr, e⟩ := hi.usersOccur x hx
          exact ⟨r, List.mem_append_left _ hr, e⟩
        · obtain ⟨r, hr, e⟩ := List.mem_map.1 (List.mem_filter.1 ((hp.firstUsers.mem x).1 hx)).1
          exact ⟨r, List.mem_append_right _ hr, e⟩
      · intro x hx
        rcases List.mem_append.1 hx with hx | hx
        · obtain ⟨r, hr, e⟩ := hi.itemsOccur x hx
          exact ⟨r, List.mem_append_left _ hr, e⟩
        · obtain ⟨r, hr, e⟩ := List.mem_map.1 (List.mem_filter.1 ((hp.firstItems.mem x).1 hx)).1
          exact ⟨r, List.mem_append_right _ hr, e⟩

/-! ### The trained state -/

theorem FirstAppearance.unique {l a b : List ℤ} (ha : FirstAppearance l a) (hb : FirstAppearance l b) : a = b := by
  refine List.Perm.eq_of_pairwise (le := fun x y => l.idxOf x < l.idxOf y) ?_ ha.order hb.order ?_
  · intro x y _ _ h1 h2
    omega
  · rw [List.perm_ext_iff_of_nodup ha.nodup hb.nodup]
    intro x
    rw [ha.mem, hb.mem]

/-- Training of a fresh object gives a consistent state. -/
theorem tdTrain_inv {τ : Type} {cfg : TICfg K} {m : TDAtt K} (hL : 1 ≤ cfg.td.seqLen) (hm : tdInit cfg.td = .ok m)
    (cb : Option (ExitCallback K τ)) (cb0 : τ) (data : List (PRow K))
    (hcb : ∀ f, cb = some f → ∀ t x g, ∃ r, f t x g = .ok r)
    (hpos : ∀ r ∈ data, 0 ≤ r.pos ∧ r.pos < cfg.td.seqLen) (hfull : ∃ r ∈ data, r.pos + 1 = cfg.td.seqLen)
    (hn : 1 ≤ cfg.td.nIter) (users items : List ℤ) (hu : FirstAppearance (data.map fun p => p.row.user) users)
    (hi : FirstAppearance (data.map fun p => p.row.item) items)
    (hd : TIDims users.length items.length cfg.td.seqLen cfg.td.hooi.rank.1 cfg.td.hooi.rank.2.1 cfg.td.hooi.rank.2.2) :
    ∃ s rows mp, getDfWithUpdatedIndices (data.map PRow.row) = .ok (rows, mp) ∧
      tdTrain cfg.td m cb cb0 [] data = .ok s ∧
      TIInv cfg m s users items data (sortedInds (withPos rows data)) := by
  have hv : cfg.td.hooi.rank.1 ≤ cfg.td.hooi.rank.2.1 * cfg.td.hooi.rank.2.2 ∧
      cfg.td.hooi.rank.2.1 ≤ cfg.td.hooi.rank.1 * cfg.td.hooi.rank.2.2 ∧
      cfg.td.hooi.rank.2.2 ≤ cfg.td.hooi.rank.1 * cfg.td.hooi.rank.2.1 :=
    ⟨by rw [Nat.mul_comm]; exact hd.h0, by rw [Nat.mul_comm]; exact hd.h1, by rw [Nat.mul_comm]; exact hd.h2⟩
  obtain ⟨s, hs⟩ := C28_success cfg.td m hL hm cb cb0 [] data hpos hfull hv users items hu hi ⟨hd.n0, hd.n1, hd.n2⟩
    fun f hf t x g _ => hcb f hf t x g
  have hne : data ≠ [] := by
    rintro rfl
    obtain ⟨r, hr, _⟩ := hfull
    cases hr
  obtain ⟨rows, mp, users', items', g1, g2, g3, g4, g5, g6⟩ := train_mapped data
  obtain ⟨rows', mp', us, is', t, P, h1, h2, h3, h4, h5, ht, hsh, hp1, hp2, hlen, hrange⟩ :=
    C28_shape data hne fun r hr => (hpos r hr).1
  obtain rfl := hu.unique g2
  obtain rfl := hi.unique g4
  obtain rfl := hu.unique h2
  obtain rfl := hi.unique h4
  obtain ⟨rfl, rfl⟩ := Prod.mk.inj (Except.ok.inj (g1.symm.trans h1))
  have hPL : P = cfg.td.seqLen := by
    obtain ⟨r, hr, hrp⟩ := hp1
    have a1 := (hpos r hr).2
    obtain ⟨r', hr', hrp'⟩ := hfull
    have a2 := hp2 r' hr'
    omega
  subst hPL
  have hs' := hs
  unfold tdTrain at hs'
  rw [h1, except_bind_ok] at hs'
  have hfit := tdFit_ok hs'
  obtain ⟨t', f, g, cbEnd, aw, lw, ht', hga, haw, hlw, e1, e2, e3, e4, e5, e6, e7, e8⟩ := hfit
  obtain rfl := Except.ok.inj (ht.symm.trans ht')
  obtain ⟨es, he1, he2⟩ := coo_data_typed (n0 := users.length) (n1 := items.length) (n2 := cfg.td.seqLen)
    (t.inds.map Inter.ind) t.vals (by rw [List.length_map, hlen]) (by
      intro x hx
      obtain ⟨y, hy, rfl⟩ := List.mem_map.1 hx
      exact hrange y hy)
  obtain ⟨q1, q2, q3, q4⟩ := tdInit_cols hL hm
  obtain ⟨A, hA⟩ := Mat.eq_mk m.att q1 q2
  rw [he1, he2, hsh, hA] at hga
  obtain ⟨f', g', cb', hga', ⟨_, k0⟩, ⟨_, k1⟩, _, k2⟩ := C81_success cfg.td.hooi cfg.td.normOf es A cfg.td.nIter
    cfg.td.growthTol cb cb0 cfg.td.force (fun f hf t x g _ => hcb f hf t x g) hv ⟨hd.n0, hd.n1, hd.n2⟩
  obtain ⟨r0, r1, r2, U, V, W, j1, j2⟩ := C78_ga_satf_core cfg.td.hooi cfg.td.normOf es A cfg.td.nIter hn
    cfg.td.growthTol cb cb0 none cfg.td.force f g cbEnd hga
  obtain ⟨rfl, rfl⟩ : f = f' ∧ g = g' := by
    have := Except.ok.inj (hga.symm.trans hga')
    exact ⟨congrArg (fun x => x.1.1) this, congrArg (fun x => x.1.2) this⟩
  rw [j1] at k0 k1 k2
  dsimp only at k0 k1 k2
  subst k0 k1 k2
  refine ⟨s, rows, mp, g1, hs, ?_, ?_, ?_, ⟨U, V, W, coreTensor (cooTensor es) U V (A * W), ?_, ?_, ?_, ?_⟩,
    ⟨_, g6, ?_, e2⟩, ?_, ?_, fun x hx => List.mem_map.1 ((hu.mem x).1 hx), fun x hx => List.mem_map.1 ((hi.mem x).1 hx)⟩
  · rw [e1]; exact g3
  · rw [e1]; exact g5
  · rw [e3]
    have := histInv_update cfg.td.seqLen [] [] (sortedInds (withPos rows data)) (histInv_nil _)
    rw [List.nil_append] at this
    exact this
  · rw [e4, j1]
  · rw [e5, j1]
  · rw [e6, j1]
  · rw [e7, j2]
  · rw [sortedInds_eq]
    exact stableSort_perm _ _
  · rw [e6, e8]; exact haw
  · rw [e6]
    refine ⟨lw, ?_⟩
    unfold tdFit at hs'
    simp only [bind_ok_iff] at hs'
    obtain ⟨t2, b1, ⟨⟨f2, g2'⟩, c2⟩, b2, aw2, b3, lw2, b4, last, b5, b6⟩ := hs'
    obtain rfl := Except.ok.inj (ht.symm.trans b1)
    rw [he1, he2, hsh, hA] at b2
    have := Except.ok.inj (hga.symm.trans b2)
    obtain rfl : f = f2 := congrArg (fun x => x.1.1) this
    obtain rfl := Except.ok.inj (hlw.symm.trans b4)
    cases b6
    exact ⟨last, hlw, b5, rfl⟩

end
end DynCF
