/-
Property theorems C34, C35, C38, C39 and C89: updating TIRec and TIRecA models.
-/
import Verif.Lemmas.TIUpdate
import Verif.Props.Recommend
import Verif.Props.Attention
import Verif.Props.TuckerIntegrator

set_option linter.unusedSectionVars false

namespace DynCF
open Matrix
variable {K : Type}

/-! ### Specification -/

/-- A chunk as the model sees it: `cr` are the rows kept by the cropping, `nus` and `nis` the users and items among
them that were not known, in order of first appearance, and `new` the rows with internal indices, where a known or
new id is represented by its place in the list of ids. -/
structure TIChunk (L : ℕ) (users items : List ℤ) (data : List (Row K)) (b : Bool) (cr : List (PRow K)) (nus nis : List ℤ)
    (new : List Inter) : Prop where
  crop : getDfWithCroppedPos data L b = .ok cr
  firstUsers : FirstAppearance ((cr.map fun r => r.row.user).filter fun x => decide (x ∉ users)) nus
  firstItems : FirstAppearance ((cr.map fun r => r.row.item).filter fun x => decide (x ∉ items)) nis
  mapped : List.Forall₂ (fun (r : PRow K) (t : Inter) => t.pos = r.pos ∧
    (∃ k : ℕ, t.user = k ∧ (users ++ nus)[k]? = some r.row.user) ∧
    ∃ k : ℕ, t.item = k ∧ (items ++ nis)[k]? = some r.row.item) cr new

/-- `δ` lists the changes between the windows of the last `L` items of `past` and those of `past` followed by
`new`: each place at most once, with the difference of the two indicator tensors. -/
structure IsDelta (L : ℕ) (past new : List Inter) (δ : List DRow) : Prop where
  nodup : (δ.map fun r => (r.user, r.item, r.pos)).Nodup
  mem : ∀ u i p v, ⟨u, i, p, v⟩ ∈ δ ↔ v = histCell L (past ++ new) u i p - histCell L past u i p ∧ v ≠ 0

/-- What is assumed about the object: a positive sequence length, its attention matrices, a QR routine that works, and
a positive rank. -/
structure TISetting [Field K] (cfg : TICfg K) (m : TDAtt K) : Prop where
  len : 1 ≤ cfg.td.seqLen
  att : tdInit cfg.td = .ok m
  qr : QrAlways cfg.td.hooi.la
  rank0 : 0 < cfg.td.hooi.rank.1
  rank1 : 0 < cfg.td.hooi.rank.2.1

/-- The rank is admissible for this number of users and items. -/
def TICfg.Fits (cfg : TICfg K) (users items : List ℤ) : Prop :=
  TIDims users.length items.length cfg.td.seqLen cfg.td.hooi.rank.1 cfg.td.hooi.rank.2.1 cfg.td.hooi.rank.2.2

theorem TICfg.Fits.mono {cfg : TICfg K} {users items : List ℤ} (h : cfg.Fits users items) (a b : List ℤ) :
    cfg.Fits (users ++ a) (items ++ b) := by
  unfold TICfg.Fits
  rw [List.length_append, List.length_append]
  exact TIDims.mono h _ _

section
variable [Field K] [LinearOrder K] [IsStrictOrderedRing K]
variable {cfg : TICfg K} {m : TDAtt K}

/-! ### The three variants of the middle part of `update` -/

/-- The middle part of `update` fails on an empty delta and if there are too many new vectors at once (`fits`), and
otherwise gives factors with one row per user and item. -/
structure TIRoundsOk (rounds : TIRounds K) (cfg : TICfg K) (m : TDAtt K) (fits : ℕ → ℕ → Prop)
    (Log : List ℤ → List ℤ → List DRow → TIRound K → Prop) : Prop where
  empty : ∀ st nu ni, rounds cfg m st nu ni [] = .error .valueError
  run : ∀ {st : TDState K} {U0 a I0 b : ℕ} {nu ni : List ℤ} {δ : List DRow},
    DeltaOk U0 a I0 b cfg.td.seqLen nu ni δ → δ ≠ [] →
    TIShape st U0 I0 cfg.td.seqLen cfg.td.hooi.rank.1 cfg.td.hooi.rank.2.1 cfg.td.hooi.rank.2.2 →
    TIDims U0 I0 cfg.td.seqLen cfg.td.hooi.rank.1 cfg.td.hooi.rank.2.1 cfg.td.hooi.rank.2.2 →
    (TIFits fits U0 a I0 cfg.td.seqLen nu ni δ → ∃ l, rounds cfg m st nu ni δ = .ok l ∧ Log nu ni δ l ∧
      TIShape l.st (U0 + a) (I0 + b) cfg.td.seqLen cfg.td.hooi.rank.1 cfg.td.hooi.rank.2.1 cfg.td.hooi.rank.2.2 ∧
      TISame st l.st) ∧
    (¬ TIFits fits U0 a I0 cfg.td.seqLen nu ni δ → rounds cfg m st nu ni δ = .error .valueError)

/-- the log of `TIRec.update` -/
def LogTIRec (nu ni : List ℤ) (δ : List DRow) (l : TIRound K) : Prop :=
  l.left = [] ∧ l.log = [(.new, tiPart nu ni δ .new), (.newUsers, tiPart nu ni δ .newUsers),
    (.newItems, tiPart nu ni δ .newItems), (.old, tiPart nu ni δ .old)]

/-- the log of `TIRecA.update` -/
def LogTIRecA (nu ni : List ℤ) (δ : List DRow) (l : TIRound K) : Prop :=
  l.log = [(.new, tiPart nu ni δ .new), (.newUsers, tiPart nu ni δ .newUsers),
    (.newItems, tiPart nu ni δ .newItems), (.old, δ)]

/-- the log of `TIRecA.update` with `_nu_ni_process_integrator` -/
def LogIntegrator (_ _ : List ℤ) (δ : List DRow) (l : TIRound K) : Prop := l.log = [(.old, δ)]

theorem tirec_roundsOk (hs : TISetting cfg m) : TIRoundsOk tirecRounds cfg m (fun n N => n ≤ N) LogTIRec := by
  obtain ⟨att, hatt⟩ := tiAttArg_typed hs.len hs.att
  refine ⟨fun _ _ _ => rfl, ?_⟩
  intro st U0 a I0 b nu ni δ hδ hne hsh hd
  obtain ⟨h1, h2⟩ := tirecRounds_shape att hatt hδ hs.qr hne hsh hd hs.rank0 hs.rank1
  refine ⟨fun hf => ?_, h2⟩
  obtain ⟨st', e, h3, h4⟩ := h1 hf
  exact ⟨_, e, ⟨rfl, rfl⟩, h3, h4⟩

theorem tireca_roundsOk (hs : TISetting cfg m) : TIRoundsOk tirecaRounds cfg m (fun _ _ => True) LogTIRecA := by
  obtain ⟨att, hatt⟩ := tiAttArg_typed hs.len hs.att
  refine ⟨fun _ _ _ => rfl, ?_⟩
  intro st U0 a I0 b nu ni δ hδ hne hsh hd
  obtain ⟨st', e, h3, h4⟩ := tirecaRounds_shape att hatt hδ hs.qr hne hsh hd hs.rank0 hs.rank1
  exact ⟨fun _ => ⟨_, e, rfl, h3, h4⟩, fun hf => absurd ⟨trivial, trivial⟩ hf⟩

theorem integrator_roundsOk (hs : TISetting cfg m) :
    TIRoundsOk tirecaIntegrator cfg m (fun _ _ => True) LogIntegrator := by
  obtain ⟨att, hatt⟩ := tiAttArg_typed hs.len hs.att
  refine ⟨fun _ _ _ => rfl, ?_⟩
  intro st U0 a I0 b nu ni δ hδ hne hsh hd
  obtain ⟨st', e, h3, h4⟩ := tirecaIntegrator_shape att hatt hδ hs.qr hne hsh hd
  exact ⟨fun _ => ⟨_, e, rfl, h3, h4⟩, fun hf => absurd ⟨trivial, trivial⟩ hf⟩

/-! ### One update -/

variable {st : TDState K} {users items : List ℤ} {ext : List (PRow K)} {past : List Inter}

/-- One call of `update` on a consistent state and a non-empty chunk: it raises `ValueError` if the delta is empty or
too many vectors are new, and otherwise returns a consistent state. -/
theorem update_outcome {rounds : TIRounds K} {fits : ℕ → ℕ → Prop}
    {Log : List ℤ → List ℤ → List DRow → TIRound K → Prop} (hs : TISetting cfg m)
    (hr : TIRoundsOk rounds cfg m fits Log) (hi : TIInv cfg m st users items ext past) (hf : cfg.Fits users items)
    {data : List (Row K)} (hne : data ≠ []) (b : Bool) :
    ∃ cr nus nis new δ, TIChunk cfg.td.seqLen users items data b cr nus nis new ∧ IsDelta cfg.td.seqLen past new δ ∧
      DeltaOk users.length nus.length items.length nis.length cfg.td.seqLen (idRange users.length nus.length)
        (idRange items.length nis.length) δ ∧
      (δ ≠ [] ∧ TIFits fits users.length nus.length items.length cfg.td.seqLen (idRange users.length nus.length)
          (idRange items.length nis.length) δ →
        ∃ st' l, tiUpdateLog rounds cfg m st data b = .ok (st', l) ∧
          Log (idRange users.length nus.length) (idRange items.length nis.length) δ l ∧
          TIInv cfg m st' (users ++ nus) (items ++ nis) (ext ++ cr) (past ++ new)) ∧
      (¬ (δ ≠ [] ∧ TIFits fits users.length nus.length items.length cfg.td.seqLen (idRange users.length nus.length)
          (idRange items.length nis.length) δ) → tiUpdateLog rounds cfg m st data b = .error .valueError) := by
  obtain ⟨p, cr, nus, nis, hp⟩ := tiPreprocess_ok hi.user hi.item cfg.td.seqLen hs.len data hne b
  have hδ := prep_delta hs.len hi.hist (fun t ht => hi.pastRange ht) hne hp
  obtain ⟨hsh, herr, hok⟩ := tiUpdate_step rounds hs.len hs.att hi hne b hp
  refine ⟨cr, nus, nis, chunkInters p.chunk, (tiTrainTensor st.seqHist cfg.td.seqLen p.chunk).1,
    ⟨hp.crop, hp.firstUsers, hp.firstItems, ?_⟩, ⟨?_, fun u i q v => mem_delta_iff hi.hist u i q v⟩, ?_, ?_, ?_⟩
  · unfold chunkInters
    rw [List.forall₂_map_right_iff]
    exact hp.mapped.imp fun r t h => ⟨h.1, h.2.2⟩
  · exact (C07_delta_wellformed _ _ (histInv_update _ _ _ _ hi.hist).nodup).1
  · rw [← hp.newUsers, ← hp.newItems]; exact hδ
  · rintro ⟨h0, h1⟩
    rw [← hp.newUsers, ← hp.newItems] at h1 ⊢
    obtain ⟨l, e, hl, h3, h4⟩ := (hr.run hδ h0 hsh hf).1 h1
    obtain ⟨st', h5, _, _, h6⟩ := hok l e h3 h4
    exact ⟨st', l, h5, hl, h6⟩
  · intro hn
    rw [← hp.newUsers, ← hp.newItems] at hn
    by_cases h0 : (tiTrainTensor st.seqHist cfg.td.seqLen p.chunk).1 = []
    · refine herr _ ?_
      rw [h0]
      exact hr.empty _ _ _
    · exact herr _ ((hr.run hδ h0 hsh hf).2 fun h1 => hn ⟨h0, h1⟩)

/-- An empty table raises in the preprocessing. -/
theorem C35_empty_table (rounds : TIRounds K) (cfg : TICfg K) (m : TDAtt K) (st : TDState K) (b : Bool) :
    tiUpdateLog rounds cfg m st [] b = .error .keyError := rfl

/-- **C34.** Whenever `TIRec.update` succeeds, the data passed to its four steps are together a rearrangement of the
delta (in which no place occurs twice), so every entry is processed exactly once; nothing is left over; each entry goes
to the step of its class; every new user and every new item has an entry. -/
theorem C34_routing (hs : TISetting cfg m) (hi : TIInv cfg m st users items ext past) (hf : cfg.Fits users items)
    (data : List (Row K)) (b : Bool) (st' : TDState K) (l : TIRound K)
    (h : tiUpdateLog tirecRounds cfg m st data b = .ok (st', l)) :
    ∃ cr nus nis new δ, TIChunk cfg.td.seqLen users items data b cr nus nis new ∧ IsDelta cfg.td.seqLen past new δ ∧
      l.left = [] ∧ (l.log.map Prod.snd).flatten.Perm δ ∧ l.log.map Prod.fst = [.new, .newUsers, .newItems, .old] ∧
      (∀ s ∈ l.log, ∀ r ∈ s.2,
        TIClass (idRange users.length nus.length) (idRange items.length nis.length) δ r s.1) ∧
      (∀ x : ℤ, users.length ≤ x → x < (users.length + nus.length : ℕ) → ∃ r ∈ δ, r.user = x) ∧
      (∀ x : ℤ, items.length ≤ x → x < (items.length + nis.length : ℕ) → ∃ r ∈ δ, r.item = x) := by
  have hne : data ≠ [] := by
    rintro rfl
    cases h
  obtain ⟨cr, nus, nis, new, δ, h1, h2, h3, h4, h5⟩ := update_outcome hs (tirec_roundsOk hs) hi hf hne b
  refine ⟨cr, nus, nis, new, δ, h1, h2, ?_⟩
  have hfit := not_not.1 fun hn => absurd h (by rw [h5 hn]; exact nofun)
  obtain ⟨st2, l2, e, ⟨g1, g2⟩, -⟩ := h4 hfit
  obtain ⟨rfl, rfl⟩ := Prod.mk.inj (Except.ok.inj (h.symm.trans e))
  refine ⟨g1, ?_, by rw [g2]; rfl, ?_, ?_, ?_⟩
  · rw [g2]
    have := tiPart_perm (idRange users.length nus.length) (idRange items.length nis.length) δ
    simpa [List.append_assoc] using this
  · intro s hs' r hr
    rw [g2] at hs'
    simp only [List.mem_cons, List.not_mem_nil, or_false] at hs'
    rcases hs' with rfl | rfl | rfl | rfl <;> exact (mem_tiPart.1 hr).2
  · intro x hx hx'
    exact h3.usersOccur x (mem_idRange.2 ⟨hx, hx'⟩)
  · intro x hx hx'
    exact h3.itemsOccur x (mem_idRange.2 ⟨hx, hx'⟩)

/-! ### Consistent states -/

/-- What a consistent state offers to `recommend`: one row per known user, item and place, the mappings, a history
within the range, and the derived position weights. -/
theorem C35_sizes (hi : TIInv cfg m st users items ext past) :
    st.u.rows = users.length ∧ st.v.rows = items.length ∧ st.w.rows = cfg.td.seqLen ∧
    st.u.cols = cfg.td.hooi.rank.1 ∧ st.v.cols = cfg.td.hooi.rank.2.1 ∧ st.w.cols = cfg.td.hooi.rank.2.2 ∧
    (∃ g, st.core = some g ∧ g.shape = cfg.td.hooi.rank) ∧ ViewOk st.view users items ∧
    m.att.dot st.w = .ok st.aw ∧ ∃ lw v, m.attInv.T.dot st.w = .ok lw ∧ lw.row (-1) = .ok v ∧ st.lastPos = ⟨_, v⟩ := by
  obtain ⟨U, V, W, c, hS⟩ := hi.shape
  refine ⟨by rw [hS.u], by rw [hS.v], by rw [hS.w], by rw [hS.u], by rw [hS.v], by rw [hS.w], ⟨_, hS.core, rfl⟩,
    ⟨hi.user, hi.item, by show st.u.rows = _; rw [hS.u], by show st.v.rows = _; rw [hS.v], ?_⟩, hi.aw, hi.last⟩
  intro q hq
  have hq : q ∈ st.history := hq
  obtain ⟨chunk, h1, _, h2⟩ := hi.seen
  rw [h2] at hq
  obtain ⟨p, hp, rfl⟩ := List.mem_map.1 hq
  have := h1.range hp
  show 0 ≤ p.row.user ∧ p.row.user < (st.u.rows : ℕ) ∧ 0 ≤ p.row.item ∧ p.row.item < (st.v.rows : ℕ)
  rw [hS.u, hS.v]
  exact ⟨this.1.1, this.1.2, this.2⟩

/-- one update of either class -/
theorem update_inv {rounds : TIRounds K} {fits : ℕ → ℕ → Prop} {Log : List ℤ → List ℤ → List DRow → TIRound K → Prop}
    (hs : TISetting cfg m) (hr : TIRoundsOk rounds cfg m fits Log) (hi : TIInv cfg m st users items ext past)
    (hf : cfg.Fits users items) {data : List (Row K)} {b : Bool} {st' : TDState K}
    (h : tiUpdate rounds cfg m st data b = .ok st') :
    ∃ cr nus nis new, TIChunk cfg.td.seqLen users items data b cr nus nis new ∧
      TIInv cfg m st' (users ++ nus) (items ++ nis) (ext ++ cr) (past ++ new) := by
  unfold tiUpdate at h
  rw [bind_ok_iff] at h
  obtain ⟨⟨s2, l⟩, h, h'⟩ := h
  cases h'
  have hne : data ≠ [] := by
    rintro rfl
    cases h
  obtain ⟨cr, nus, nis, new, δ, h1, h2, h3, h4, h5⟩ := update_outcome hs hr hi hf hne b
  have hfit := not_not.1 fun hn => absurd h (by rw [h5 hn]; exact nofun)
  obtain ⟨st2, l2, e, _, hinv⟩ := h4 hfit
  obtain ⟨rfl, rfl⟩ := Prod.mk.inj (Except.ok.inj (h.symm.trans e))
  exact ⟨cr, nus, nis, new, h1, hinv⟩

/-- The middle part of one of the two classes, in either mode. -/
def IsTIClass (rounds : TIRounds K) : Prop := rounds = tirecRounds ∨ rounds = tirecaMiddle

theorem IsTIClass.ok {rounds : TIRounds K} (h : IsTIClass rounds) (hs : TISetting cfg m) :
    ∃ fits Log, TIRoundsOk rounds cfg m fits Log := by
  rcases h with rfl | rfl
  · exact ⟨_, _, tirec_roundsOk hs⟩
  · cases hc : cfg.integrator with
    | false =>
      have e : tirecaMiddle cfg = tirecaRounds cfg (K := K) := by unfold tirecaMiddle; rw [hc]; rfl
      have h := tireca_roundsOk hs
      exact ⟨_, _, ⟨by rw [e]; exact h.empty, by rw [e]; exact h.run⟩⟩
    | true =>
      have e : tirecaMiddle cfg = tirecaIntegrator cfg (K := K) := by unfold tirecaMiddle; rw [hc]; rfl
      have h := integrator_roundsOk hs
      exact ⟨_, _, ⟨by rw [e]; exact h.empty, by rw [e]; exact h.run⟩⟩

/-- A chunk is understood in one way only. -/
theorem TIChunk.unique {L : ℕ} {users items : List ℤ} {data : List (Row K)} {b : Bool} {cr cr' : List (PRow K)}
    {nus nis nus' nis' : List ℤ} {new new' : List Inter} (hu : users.Nodup) (hi : items.Nodup)
    (h : TIChunk L users items data b cr nus nis new) (h' : TIChunk L users items data b cr' nus' nis' new') :
    cr = cr' ∧ nus = nus' ∧ nis = nis' ∧ new = new' := by
  obtain rfl := Except.ok.inj (h.crop.symm.trans h'.crop)
  obtain rfl := h.firstUsers.unique h'.firstUsers
  obtain rfl := h.firstItems.unique h'.firstItems
  refine ⟨rfl, rfl, rfl, ?_⟩
  have n1 : (users ++ nus).Nodup := List.nodup_append.2 ⟨hu, h.firstUsers.nodup, fun a ha b hb hab => by
    have := List.mem_filter.1 ((h.firstUsers.mem b).1 hb)
    rw [decide_eq_true_eq] at this
    exact this.2 (hab ▸ ha)⟩
  have n2 : (items ++ nis).Nodup := List.nodup_append.2 ⟨hi, h.firstItems.nodup, fun a ha b hb hab => by
    have := List.mem_filter.1 ((h.firstItems.mem b).1 hb)
    rw [decide_eq_true_eq] at this
    exact this.2 (hab ▸ ha)⟩
  refine List.right_unique_forall₂' ?_ h.mapped h'.mapped
  rintro r ⟨u, i, p⟩ ⟨u', i', p'⟩ ⟨a1, ⟨k, a2, a3⟩, l, a4, a5⟩ ⟨b1, ⟨k', b2, b3⟩, l', b4, b5⟩
  have e1 := (List.getElem?_inj (List.getElem?_eq_some_iff.1 a3).1 n1).1 (a3.trans b3.symm)
  have e2 := (List.getElem?_inj (List.getElem?_eq_some_iff.1 a5).1 n2).1 (a5.trans b5.symm)
  dsimp only at a1 a2 a4 b1 b2 b4
  rw [a1, a2, a4, b1, b2, b4, e1, e2]

/-- **C35, one update of `TIRec`.** On a consistent state and a non-empty table, `update` either returns a
consistent state with the new users and items appended, or raises `ValueError` (there is no index error): it succeeds
exactly if some window changes and the users (items) that are new without being part of the block are not more than the
entries of one slice. -/
theorem C35_tirec_update (hs : TISetting cfg m) (hi : TIInv cfg m st users items ext past) (hf : cfg.Fits users items)
    (data : List (Row K)) (hne : data ≠ []) (b : Bool) :
    ∃ cr nus nis new δ, TIChunk cfg.td.seqLen users items data b cr nus nis new ∧ IsDelta cfg.td.seqLen past new δ ∧
      (δ ≠ [] ∧ TIFits (fun n N => n ≤ N) users.length nus.length items.length cfg.td.seqLen
          (idRange users.length nus.length) (idRange items.length nis.length) δ →
        ∃ st', tiUpdate tirecRounds cfg m st data b = .ok st' ∧
          TIInv cfg m st' (users ++ nus) (items ++ nis) (ext ++ cr) (past ++ new)) ∧
      (¬ (δ ≠ [] ∧ TIFits (fun n N => n ≤ N) users.length nus.length items.length cfg.td.seqLen
          (idRange users.length nus.length) (idRange items.length nis.length) δ) →
        tiUpdate tirecRounds cfg m st data b = .error .valueError) := by
  obtain ⟨cr, nus, nis, new, δ, h1, h2, _, h4, h5⟩ := update_outcome hs (tirec_roundsOk hs) hi hf hne b
  refine ⟨cr, nus, nis, new, δ, h1, h2, fun hfit => ?_, fun hn => ?_⟩
  · obtain ⟨st', l, e, _, h6⟩ := h4 hfit
    exact ⟨st', by unfold tiUpdate; rw [e]; rfl, h6⟩
  · unfold tiUpdate
    rw [h5 hn]
    rfl

theorem tireca_fits (hs : TISetting cfg m) : ∃ Log, TIRoundsOk tirecaMiddle cfg m (fun _ _ => True) Log := by
  cases hc : cfg.integrator with
  | false =>
    have e : tirecaMiddle cfg = tirecaRounds cfg (K := K) := by unfold tirecaMiddle; rw [hc]; rfl
    have h := tireca_roundsOk hs
    exact ⟨_, ⟨by rw [e]; exact h.empty, by rw [e]; exact h.run⟩⟩
  | true =>
    have e : tirecaMiddle cfg = tirecaIntegrator cfg (K := K) := by unfold tirecaMiddle; rw [hc]; rfl
    have h := integrator_roundsOk hs
    exact ⟨_, ⟨by rw [e]; exact h.empty, by rw [e]; exact h.run⟩⟩

/-- **C35, one update of `TIRecA`**, in both modes: it succeeds exactly if some window changes. -/
theorem C35_tireca_update (hs : TISetting cfg m) (hi : TIInv cfg m st users items ext past) (hf : cfg.Fits users items)
    (data : List (Row K)) (hne : data ≠ []) (b : Bool) :
    ∃ cr nus nis new δ, TIChunk cfg.td.seqLen users items data b cr nus nis new ∧ IsDelta cfg.td.seqLen past new δ ∧
      (δ ≠ [] → ∃ st', tiUpdate tirecaMiddle cfg m st data b = .ok st' ∧
          TIInv cfg m st' (users ++ nus) (items ++ nis) (ext ++ cr) (past ++ new)) ∧
      (δ = [] → tiUpdate tirecaMiddle cfg m st data b = .error .valueError) := by
  obtain ⟨Log, hr⟩ := tireca_fits hs
  obtain ⟨cr, nus, nis, new, δ, h1, h2, _, h4, h5⟩ := update_outcome hs hr hi hf hne b
  refine ⟨cr, nus, nis, new, δ, h1, h2, fun h0 => ?_, fun hn => ?_⟩
  · obtain ⟨st', l, e, _, h6⟩ := h4 ⟨h0, trivial, trivial⟩
    exact ⟨st', by unfold tiUpdate; rw [e]; rfl, h6⟩
  · unfold tiUpdate
    rw [h5 fun h => h.1 hn]
    rfl

/-- **C35.** After any sequence of successful updates of a consistent model of either class (in either mode) the state
is consistent (`C35_sizes`): the ids known before keep their places, and the rows it has seen are those of the
cropped tables. -/
theorem C35_updates {rounds : TIRounds K} (hc : IsTIClass rounds) (hs : TISetting cfg m)
    (hi : TIInv cfg m st users items ext past) (hf : cfg.Fits users items) (chunks : List (List (Row K))) (b : Bool)
    (st' : TDState K) (h : tiUpdates rounds cfg m st chunks b = .ok st') :
    ∃ nus nis new crs, List.Forall₂ (fun d cr => getDfWithCroppedPos d cfg.td.seqLen b = .ok cr) chunks crs ∧
      TIInv cfg m st' (users ++ nus) (items ++ nis) (ext ++ crs.flatten) (past ++ new) := by
  obtain ⟨fits, Log, hr⟩ := hc.ok hs
  induction chunks generalizing st users items ext past with
  | nil =>
    cases h
    exact ⟨[], [], [], [], .nil, by simpa using hi⟩
  | cons d chunks ih =>
    unfold tiUpdates at h
    rw [List.foldlM_cons, bind_ok_iff] at h
    obtain ⟨st1, h1, h2⟩ := h
    obtain ⟨cr, nus, nis, new, hch, hi1⟩ := update_inv hs hr hi hf h1
    obtain ⟨nus', nis', new', crs, hcr, hi2⟩ := ih hi1 (hf.mono _ _) h2
    exact ⟨nus ++ nus', nis ++ nis', new ++ new', cr :: crs, .cons hch.crop hcr, by
      simpa [List.append_assoc] using hi2⟩

/-- **C35, from training.** Training of a fresh object with a valid rank on a table some user of which fills the
sequence, followed by any successful updates, gives a consistent state. -/
theorem C35_trained_updates {τ : Type} {rounds : TIRounds K} (hc : IsTIClass rounds) (hs : TISetting cfg m)
    (cb : Option (ExitCallback K τ)) (cb0 : τ) (data : List (PRow K))
    (hcb : ∀ f, cb = some f → ∀ t x g, ∃ r, f t x g = .ok r)
    (hpos : ∀ r ∈ data, 0 ≤ r.pos ∧ r.pos < cfg.td.seqLen) (hfull : ∃ r ∈ data, r.pos + 1 = cfg.td.seqLen)
    (hn : 1 ≤ cfg.td.nIter) (users items : List ℤ) (hu : FirstAppearance (data.map fun p => p.row.user) users)
    (hi : FirstAppearance (data.map fun p => p.row.item) items) (hf : cfg.Fits users items) :
    ∃ s past, tdTrain cfg.td m cb cb0 [] data = .ok s ∧ TIInv cfg m s users items data past ∧
      ∀ (chunks : List (List (Row K))) (b : Bool) (st' : TDState K), tiUpdates rounds cfg m s chunks b = .ok st' →
        ∃ nus nis new crs, List.Forall₂ (fun d cr => getDfWithCroppedPos d cfg.td.seqLen b = .ok cr) chunks crs ∧
          TIInv cfg m st' (users ++ nus) (items ++ nis) (data ++ crs.flatten) (past ++ new) := by
  obtain ⟨s, rows, mp, _, h1, h2⟩ := tdTrain_inv hs.len hs.att cb cb0 data hcb hpos hfull hn users items hu hi hf
  exact ⟨s, _, h1, h2, fun chunks b st' h => C35_updates hc hs h2 hf chunks b st' h⟩

/-! ### C89 recommendations of an updated model -/

/-- **C89.** A consistent model can recommend to every known user: the scores needed by `recommend` exist, so that
C17–C22 apply to trained and updated models of both classes. -/
theorem C89_recommend_setting (hs : TISetting cfg m) (hi : TIInv cfg m st users items ext past) (hf : cfg.Fits users items)
    (hL : 2 ≤ cfg.td.seqLen) (argp : ArgPart K) (ha : ArgPartOk argp) (k : ℕ) (hk : 1 ≤ k) (filt : Bool)
    (h2 : filt = true → 2 ≤ items.length) :
    ∃ f, RecSetting argp st.view users items (fun _ u => do
      let r ← tdRecommendUser st u
      pure (List.ofFn r.val)) f k filt := by
  obtain ⟨_, _, _, _, _, _, _, hview, _, _⟩ := C35_sizes hi
  obtain ⟨U, V, W, c, hS⟩ := hi.shape
  obtain ⟨q1, q2, q3, q4⟩ := tdInit_cols hs.len hs.att
  have haw := hi.aw
  obtain ⟨lw, v, hlw, hv, hlast⟩ := hi.last
  obtain ⟨A, hA⟩ := Mat.eq_mk m.att q1 q2
  obtain ⟨B, hB⟩ := Mat.eq_mk m.attInv q3 q4
  rw [hS.w, hA, Mat.dot_mk] at haw
  rw [hS.w, hB, Mat.T_mk, Mat.dot_mk] at hlw
  obtain rfl := Except.ok.inj hlw
  have hscore : ∀ a : ℕ, a < users.length → ∃ g : Fin items.length → K,
      tdRecommendUser st a = .ok ⟨items.length, g⟩ := by
    intro a hua
    have hw := hi.hist.entry (a : ℤ)
    obtain ⟨r, hr, hru⟩ := hi.usersOccur users[a] (List.getElem_mem hua)
    obtain ⟨chunk, g1, g2, g3⟩ := hi.seen
    obtain ⟨p, hp, _, _, ⟨k, e1, e2⟩, _⟩ := forall₂_mem_left g1 hr
    have hk : k = a := by
      refine (List.getElem?_inj (List.getElem?_eq_some_iff.1 e2).1 hi.user.nodup).1 ?_
      rw [e2, hru, List.getElem?_eq_getElem hua]
    subst hk
    have hmem : (⟨p.row.user, p.row.item, p.pos⟩ : Inter) ∈ past :=
      g2.mem_iff.2 (List.mem_map.2 ⟨p, hp, rfl⟩)
    have hne : itemsOf (k : ℤ) past ≠ [] := by
      intro h0
      have := itemsOf_mem hmem
      rw [show (⟨p.row.user, p.row.item, p.pos⟩ : Inter).user = (k : ℤ) from e1, h0] at this
      cases this
    unfold histEntry at hw
    rw [if_neg hne] at hw
    have hall : ∀ x ∈ itemsOf (k : ℤ) past, 0 ≤ x ∧ x < items.length := by
      intro x hx
      obtain ⟨t, ht, _, rfl⟩ := mem_itemsOf hx
      exact (hi.pastRange ht).2
    obtain ⟨its, hits⟩ : ∃ its : List (Fin items.length), itemsOf (k : ℤ) past = its.map fun x : Fin items.length => ((x : ℕ) : ℤ) := by
      generalize itemsOf (k : ℤ) past = l at hall
      induction l with
      | nil => exact ⟨[], rfl⟩
      | cons x l ih =>
        obtain ⟨its, h⟩ := ih fun y hy => hall y (List.mem_cons_of_mem _ hy)
        have hx := hall x List.mem_cons_self
        refine ⟨⟨x.toNat, by omega⟩ :: its, ?_⟩
        rw [List.map_cons, ← h]
        congr 1
        show x = (x.toNat : ℤ)
        omega
    rw [hits] at hw
    have hlen : 0 < its.length := by
      rcases its with _ | ⟨x, its⟩
      · exact absurd hits hne
      · simp
    exact ⟨_, C25_scores st (k : ℤ) V (A * W) v hS.v (Except.ok.inj haw).symm hlast (by rw [hS.w]) its hw (by omega)⟩
  choose g hg using hscore
  refine ⟨fun _ a => if h : a < users.length then List.ofFn (g a h) else [], ha, hview, ?_, hk,
    by have := hf.n1; have := hs.rank1; omega, h2⟩
  intro i a haa
  have haa : a < users.length := by rw [← hview.nUsers]; exact haa
  dsimp only
  rw [hg a haa, except_bind_ok, dif_pos haa]
  refine ⟨rfl, ?_⟩
  rw [List.length_ofFn, hview.nItems]

/-- **C89.** In particular a request for known users succeeds, unless viewed items are filtered and a user has too few
items left. -/
theorem C89_recommend (hs : TISetting cfg m) (hi : TIInv cfg m st users items ext past) (hf : cfg.Fits users items)
    (hL : 2 ≤ cfg.td.seqLen) (argp : ArgPart K) (ha : ArgPartOk argp) (k : ℕ) (hk : 1 ≤ k) (filt internal : Bool)
    (h2 : filt = true → 2 ≤ items.length) (us : List ℤ) (hus : ∀ u ∈ us, u ∈ users)
    (hleft : filt = true → ∀ u ∈ us, min k items.length ≤ unseenCount st.view users u) :
    ∃ res, tdRecommend argp st us k filt internal = .ok res ∧ res.length = us.length ∧
      ∀ row ∈ res, row.length = min k items.length ∧ row.Nodup ∧ ∀ x ∈ row, ∃ j, Shown items internal j x := by
  obtain ⟨f, hR⟩ := C89_recommend_setting hs hi hf hL argp ha k hk filt h2
  haveI : Inhabited K := ⟨0⟩
  obtain ⟨res, hres⟩ := (C21_exact_failure hR false internal us).2.2 hus hleft
  exact ⟨res, hres, C18_k_distinct_items hR false internal us res hres⟩

/-! ### C38 -/

/-- The history of a consistent state records exactly the interactions of the rows it was given. -/
theorem ti_recorded_iff (hi : TIInv cfg m st users items ext past) (u : ℤ) (j : ℕ) :
    Recorded st.view users u j ↔ ∃ r ∈ ext, r.row.user = u ∧ items[j]? = some r.row.item := by
  obtain ⟨chunk, h1, _, h2⟩ := hi.seen
  unfold Recorded
  rw [show st.view.history = _ from h2]
  constructor
  · rintro ⟨a, ha, hm'⟩
    obtain ⟨p, hp, e⟩ := List.mem_map.1 hm'
    obtain ⟨e1, e2⟩ := Prod.mk.inj e
    obtain ⟨r, hr, _, _, ⟨k, e3, e4⟩, l, e5, e6⟩ := forall₂_mem_right h1 hp
    have hk : k = a := by omega
    have hl : l = j := by omega
    subst hk hl
    exact ⟨r, hr, Option.some.inj (e4.symm.trans ha), e6⟩
  · rintro ⟨r, hr, rfl, hj⟩
    obtain ⟨p, hp, _, _, ⟨k, e3, e4⟩, l, e5, e6⟩ := forall₂_mem_left h1 hr
    have hl : l = j := (List.getElem?_inj (List.getElem?_eq_some_iff.1 e6).1 hi.item.nodup).1 (e6.trans hj.symm)
    subst hl
    exact ⟨k, e4, List.mem_map.2 ⟨p, hp, by rw [e3, e5]⟩⟩

/-- **C38 (partial).** After training on `table` and any sequence of updates of either class, filtered recommendations
for a user never contain an item of a row of this user in the training table or in one of the *cropped* tables.
Missing: the rows removed by the cropping, i.e. all but the last `L` rows of a user in a chunk (`C38_violated`). -/
theorem C38_filtered_partial {rounds : TIRounds K} (hc : IsTIClass rounds) (hs : TISetting cfg m)
    (hi : TIInv cfg m st users items ext past) (hf : cfg.Fits users items) (hL : 2 ≤ cfg.td.seqLen)
    (h2 : 2 ≤ items.length) (chunks : List (List (Row K)))
    (b : Bool) (st' : TDState K) (h : tiUpdates rounds cfg m st chunks b = .ok st')
    (argp : ArgPart K) (ha : ArgPartOk argp) (k : ℕ) (hk : 1 ≤ k) (us : List ℤ) (res : List (List ℤ))
    (hres : tdRecommend argp st' us k true false = .ok res)
    (i : ℕ) (u : ℤ) (row : List ℤ) (hu : us[i]? = some u) (hrow : res[i]? = some row) :
    ∃ crs, List.Forall₂ (fun d cr => getDfWithCroppedPos d cfg.td.seqLen b = .ok cr) chunks crs ∧
      ∀ r ∈ ext ++ crs.flatten, r.row.user = u → r.row.item ∉ row := by
  obtain ⟨nus, nis, new, crs, hcr, hi'⟩ := C35_updates hc hs hi hf chunks b st' h
  refine ⟨crs, hcr, ?_⟩
  intro r hr hru hmem
  obtain ⟨f, hR⟩ := C89_recommend_setting hs hi' (hf.mono nus nis) hL argp ha k hk true fun _ => by
    rw [List.length_append]; omega
  have hrec : ∃ j : ℕ, (items ++ nis)[j]? = some r.row.item := by
    obtain ⟨chunk, h1, _, _⟩ := hi'.seen
    obtain ⟨p, _, _, _, _, l, _, e6⟩ := forall₂_mem_left h1 hr
    exact ⟨l, e6⟩
  obtain ⟨j, hj⟩ := hrec
  have hlt := (List.getElem?_eq_some_iff.1 hj).1
  haveI : Inhabited K := ⟨0⟩
  refine C17_filtered hR false false us res hres i u row hu hrow r.row.item hmem j ⟨hlt, hj⟩ ?_
  exact (ti_recorded_iff hi' u j).2 ⟨r, hr, hru, hj⟩

/-! ### C39 -/

/-- **C39 is violated by every such chunk**: if no window changes, `update` of either class raises `ValueError`. -/
theorem C39_unchanged_raises {rounds : TIRounds K} (hc : IsTIClass rounds) (hs : TISetting cfg m)
    (hi : TIInv cfg m st users items ext past) (hf : cfg.Fits users items) (data : List (Row K)) (hne : data ≠ []) (b : Bool)
    (cr : List (PRow K)) (nus nis : List ℤ) (new : List Inter)
    (hch : TIChunk cfg.td.seqLen users items data b cr nus nis new)
    (hsame : ∀ u i p, histCell cfg.td.seqLen (past ++ new) u i p = histCell cfg.td.seqLen past u i p) :
    tiUpdate rounds cfg m st data b = .error .valueError := by
  obtain ⟨fits, Log, hr⟩ := hc.ok hs
  obtain ⟨cr', nus', nis', new', δ, h1, h2, _, _, h5⟩ := update_outcome hs hr hi hf hne b
  obtain ⟨rfl, rfl, rfl, rfl⟩ := hch.unique hi.user.nodup hi.item.nodup h1
  have h0 : δ = [] := by
    rw [List.eq_nil_iff_forall_not_mem]
    rintro ⟨u, i, p, v⟩ hr
    obtain ⟨a1, a2⟩ := (h2.mem u i p v).1 hr
    rw [hsame u i p] at a1
    exact a2 (by omega)
  unfold tiUpdate
  rw [h5 fun h => h.1 h0]
  rfl

/-- **C39 (partial).** A chunk that changes some window does not raise in `TIRecA` (in `TIRec`: if the new vectors fit),
and the state stays usable. Missing: chunks that leave all windows unchanged, for which `update` raises
(`C39_unchanged_raises`). -/
theorem C39_changed_partial (hs : TISetting cfg m) (hi : TIInv cfg m st users items ext past) (hf : cfg.Fits users items)
    (data : List (Row K)) (hne : data ≠ []) (b : Bool) (cr : List (PRow K)) (nus nis : List ℤ) (new : List Inter)
    (hch : TIChunk cfg.td.seqLen users items data b cr nus nis new)
    (hdiff : ∃ u i p, histCell cfg.td.seqLen (past ++ new) u i p ≠ histCell cfg.td.seqLen past u i p) :
    ∃ st', tiUpdate tirecaMiddle cfg m st data b = .ok st' ∧
      TIInv cfg m st' (users ++ nus) (items ++ nis) (ext ++ cr) (past ++ new) := by
  obtain ⟨cr', nus', nis', new', δ, h1, h2, h3, _⟩ := C35_tireca_update hs hi hf data hne b
  obtain ⟨rfl, rfl, rfl, rfl⟩ := hch.unique hi.user.nodup hi.item.nodup h1
  refine h3 ?_
  rintro rfl
  obtain ⟨u, i, p, hne'⟩ := hdiff
  have := (h2.mem u i p _).2 ⟨rfl, by omega⟩
  cases this

end
/-! ### Concrete runs -/

section examples

/-- sequence length 2, rank (1, 1, 1), no attention, one sweep -/
noncomputable def exTICfg (integ : Bool) : TICfg ℝ where
  td := ⟨⟨realLA, fun _ => eyeRng, fun _ _ => eyeRng, (1, 1, 1), 0, 2, false⟩, fun _ => 0, 2, none, 1, 0, true⟩
  light := false
  explicitCalc := true
  vecRng := fun _ => eyeRng
  matRng := fun _ _ => eyeRng
  normal := eyeRng
  init := .zero
  integrator := integ

noncomputable def exTIAtt : TDAtt ℝ := ⟨Mat.eye 2, Mat.eye 2⟩

/-- training table: user 8 has items 40, 50 and user 7 has 50, 60 -/
noncomputable def exTITable : List (PRow ℝ) :=
  [⟨⟨8, 40, 1, 1, 0⟩, 0⟩, ⟨⟨8, 50, 1, 2, 0⟩, 1⟩, ⟨⟨7, 50, 1, 1, 0⟩, 0⟩, ⟨⟨7, 60, 1, 2, 0⟩, 1⟩]

theorem exTI_setting (integ : Bool) : TISetting (exTICfg integ) exTIAtt :=
  ⟨Nat.le_succ 1, rfl, qrAlways_real, Nat.one_pos, Nat.one_pos⟩

theorem exTI_fits (integ : Bool) : (exTICfg integ).Fits [8, 7] [40, 50, 60] :=
  show TIDims 2 3 2 1 1 1 from ⟨by decide, by decide, by decide, by decide, by decide, by decide⟩

/-- the interactions of the table with internal indices -/
def exTIPast : List Inter := [⟨0, 0, 0⟩, ⟨0, 1, 1⟩, ⟨1, 1, 0⟩, ⟨1, 2, 1⟩]

theorem exTI_trained (integ : Bool) :
    ∃ s, tdTrain (exTICfg integ).td exTIAtt (none : Option (ExitCallback ℝ Unit)) () [] exTITable = .ok s ∧
      TIInv (exTICfg integ) exTIAtt s [8, 7] [40, 50, 60] exTITable exTIPast := by
  obtain ⟨s, rows, mp, h1, h2, h3⟩ := tdTrain_inv (cfg := exTICfg integ) (m := exTIAtt) (Nat.le_succ 1) rfl
    (none : Option (ExitCallback ℝ Unit)) () exTITable (by simp)
    (by
      intro r hr
      simp only [exTITable, List.mem_cons, List.not_mem_nil, or_false] at hr
      rcases hr with rfl | rfl | rfl | rfl <;> exact ⟨by decide, by show _ < (2 : ℤ); decide⟩)
    ⟨⟨⟨8, 50, 1, 2, 0⟩, 1⟩, by simp [exTITable], rfl⟩ (le_refl 1) [8, 7] [40, 50, 60]
    (firstAppearance_pdUnique _) (firstAppearance_pdUnique _) (exTI_fits integ)
  refine ⟨s, h2, ?_⟩
  obtain ⟨mp', e⟩ : ∃ mp', getDfWithUpdatedIndices (exTITable.map PRow.row) = .ok
      ([⟨0, 0, 1, 1, 0⟩, ⟨0, 1, 1, 2, 0⟩, ⟨1, 1, 1, 1, 0⟩, ⟨1, 2, 1, 2, 0⟩], mp') := ⟨_, rfl⟩
  obtain ⟨rfl, rfl⟩ := Prod.mk.inj (Except.ok.inj (h1.symm.trans e))
  exact h3

/-- user 7 sends its two items again -/
noncomputable def exTIAgain : List (Row ℝ) := [⟨7, 50, 1, 3, 0⟩, ⟨7, 60, 1, 4, 0⟩]

theorem exTI_again : TIChunk 2 [8, 7] [40, 50, 60] exTIAgain true
    [⟨⟨7, 50, 1, 3, 0⟩, 0⟩, ⟨⟨7, 60, 1, 4, 0⟩, 1⟩] [] [] [⟨1, 1, 0⟩, ⟨1, 2, 1⟩] where
  crop := rfl
  firstUsers := firstAppearance_pdUnique _
  firstItems := firstAppearance_pdUnique _
  mapped := .cons ⟨rfl, ⟨1, rfl, rfl⟩, 1, rfl, rfl⟩ (.cons ⟨rfl, ⟨1, rfl, rfl⟩, 2, rfl, rfl⟩ .nil)

/-- **C39 is violated**: a user whose last two items are sent again makes `update` raise, in both classes. -/
theorem C39_violated {rounds : TIRounds ℝ} (hc : IsTIClass rounds) (integ : Bool) :
    ∃ s, tdTrain (exTICfg integ).td exTIAtt (none : Option (ExitCallback ℝ Unit)) () [] exTITable = .ok s ∧
      (∀ u i p, histCell 2 (exTIPast ++ [⟨1, 1, 0⟩, ⟨1, 2, 1⟩]) u i p = histCell 2 exTIPast u i p) ∧
      tiUpdate rounds (exTICfg integ) exTIAtt s exTIAgain true = .error .valueError := by
  obtain ⟨s, h1, h2⟩ := exTI_trained integ
  have hsame : ∀ u i p, histCell 2 (exTIPast ++ [⟨1, 1, 0⟩, ⟨1, 2, 1⟩]) u i p = histCell 2 exTIPast u i p := by
    intro u i p
    unfold histCell
    by_cases hu : u = 1
    · subst hu; rfl
    · have : itemsOf u (exTIPast ++ [⟨1, 1, 0⟩, ⟨1, 2, 1⟩]) = itemsOf u exTIPast := by
        rw [itemsOf_append]
        simp [itemsOf, Ne.symm hu]
      unfold histEntry
      rw [this]
  exact ⟨s, h1, hsame, C39_unchanged_raises hc (exTI_setting integ) h2 (exTI_fits integ) exTIAgain (by simp [exTIAgain])
    true _ _ _ _ exTI_again hsame⟩

/-- user 7 views 40, 60, 50 -/
noncomputable def exTILong : List (Row ℝ) := [⟨7, 40, 1, 3, 0⟩, ⟨7, 60, 1, 4, 0⟩, ⟨7, 50, 1, 5, 0⟩]

theorem exTI_long : TIChunk 2 [8, 7] [40, 50, 60] exTILong true
    [⟨⟨7, 60, 1, 4, 0⟩, 0⟩, ⟨⟨7, 50, 1, 5, 0⟩, 1⟩] [] [] [⟨1, 2, 0⟩, ⟨1, 1, 1⟩] where
  crop := rfl
  firstUsers := firstAppearance_pdUnique _
  firstItems := firstAppearance_pdUnique _
  mapped := .cons ⟨rfl, ⟨1, rfl, rfl⟩, 2, rfl, rfl⟩ (.cons ⟨rfl, ⟨1, rfl, rfl⟩, 1, rfl, rfl⟩ .nil)

theorem fits_old (U0 I0 L : ℕ) (δ : List DRow) : TIFits (fun n N => n ≤ N) U0 0 I0 L (idRange U0 0) (idRange I0 0) δ := by
  have h : ∀ md, md ≠ .old → tiPart (idRange U0 0) (idRange I0 0) δ md = [] := by
    intro md hmd
    rw [List.eq_nil_iff_forall_not_mem]
    intro r hr
    have := (mem_tiPart.1 hr).2
    cases md with
    | new => exact absurd this.1 (by simp [idRange])
    | newUsers => exact absurd this.1 (by simp [idRange])
    | newItems => exact absurd this.1 (by simp [idRange])
    | old => exact hmd rfl
  constructor
  · show (npUnique ((tiPart _ _ δ .newUsers).map DRow.user)).length ≤ _
    rw [h _ (by decide)]
    exact Nat.zero_le _
  · show (npUnique ((tiPart _ _ δ .newItems).map DRow.item)).length ≤ _
    rw [h _ (by decide)]
    exact Nat.zero_le _

theorem exTI_long_update {rounds : TIRounds ℝ} (hc : IsTIClass rounds) (integ : Bool) {s : TDState ℝ}
    (h : TIInv (exTICfg integ) exTIAtt s [8, 7] [40, 50, 60] exTITable exTIPast) :
    ∃ st', tiUpdate rounds (exTICfg integ) exTIAtt s exTILong true = .ok st' ∧
      TIInv (exTICfg integ) exTIAtt st' [8, 7] [40, 50, 60]
        (exTITable ++ [⟨⟨7, 60, 1, 4, 0⟩, 0⟩, ⟨⟨7, 50, 1, 5, 0⟩, 1⟩]) (exTIPast ++ [⟨1, 2, 0⟩, ⟨1, 1, 1⟩]) := by
  have hdiff : histCell 2 (exTIPast ++ [⟨1, 2, 0⟩, ⟨1, 1, 1⟩]) 1 2 0 ≠ histCell 2 exTIPast 1 2 0 := by decide
  rcases hc with rfl | rfl
  · obtain ⟨cr', nus', nis', new', δ, h1, h2, h3, _⟩ := C35_tirec_update (exTI_setting integ) h (exTI_fits integ) exTILong
      (by simp [exTILong]) true
    obtain ⟨rfl, rfl, rfl, rfl⟩ := exTI_long.unique h.user.nodup h.item.nodup h1
    refine h3 ⟨?_, fits_old _ _ _ _⟩
    rintro rfl
    exact absurd ((h2.mem 1 2 0 _).2 ⟨rfl, sub_ne_zero.2 hdiff⟩) List.not_mem_nil
  · exact C39_changed_partial (exTI_setting integ) h (exTI_fits integ) exTILong (by simp [exTILong]) true _ _ _ _ exTI_long
      ⟨1, 2, 0, hdiff⟩

/-- **C38 is violated**: user 7 views the items 40, 60 and 50 in one chunk, and with sequence length 2 the first row is
cropped away. With the items viewed before filtered out, the model (of either class) then recommends item 40 to
user 7. -/
theorem C38_violated {rounds : TIRounds ℝ} (hc : IsTIClass rounds) (integ : Bool) :
    ∃ s st', tdTrain (exTICfg integ).td exTIAtt (none : Option (ExitCallback ℝ Unit)) () [] exTITable = .ok s ∧
      tiUpdate rounds (exTICfg integ) exTIAtt s exTILong true = .ok st' ∧
      (∃ r ∈ exTILong, r.user = 7 ∧ r.item = 40) ∧
      ∀ argp, ArgPartOk argp → tdRecommend argp st' [7] 1 true false = .ok [[40]] := by
  obtain ⟨s, h1, h2⟩ := exTI_trained integ
  obtain ⟨st', h3, h4⟩ := exTI_long_update hc integ h2
  refine ⟨s, st', h1, h3, ⟨_, List.mem_cons_self, rfl, rfl⟩, ?_⟩
  intro argp ha
  have hrec : ∀ j : ℕ, Recorded st'.view [8, 7] 7 j ↔ j = 1 ∨ j = 2 := by
    intro j
    rw [ti_recorded_iff h4]
    constructor
    · rintro ⟨r, hr, hu, hj⟩
      have hj' := (List.getElem?_eq_some_iff.1 hj).1
      simp only [exTITable, List.mem_append, List.mem_cons, List.not_mem_nil, or_false] at hr
      have hlt : j < 3 := hj'
      interval_cases j
      · rcases hr with (rfl | rfl | rfl | rfl) | rfl | rfl <;> simp_all
      · exact Or.inl rfl
      · exact Or.inr rfl
    · rintro (rfl | rfl)
      · exact ⟨⟨⟨7, 50, 1, 5, 0⟩, 1⟩, by simp, rfl, rfl⟩
      · exact ⟨⟨⟨7, 60, 1, 4, 0⟩, 0⟩, by simp, rfl, rfl⟩
  have hleft : min 1 3 ≤ unseenCount st'.view [8, 7] 7 := by
    obtain ⟨_, hv, _⟩ := C35_sizes h4
    unfold unseenCount
    rw [show st'.view.nItems = 3 from hv, show min 1 3 = 1 from rfl, Nat.one_le_iff_ne_zero, ne_eq, List.countP_eq_zero]
    intro hall
    have := hall 0 (by decide)
    rw [decide_eq_true_eq, not_not] at this
    exact absurd ((hrec 0).1 ⟨1, rfl, this⟩) (by decide)
  obtain ⟨f, hR⟩ := C89_recommend_setting (exTI_setting integ) h4 (exTI_fits integ) (le_refl 2) argp ha 1 (le_refl 1) true
    fun _ => by decide
  obtain ⟨res, hres, hl, hrows⟩ := C89_recommend (exTI_setting integ) h4 (exTI_fits integ) (le_refl 2) argp ha 1 (le_refl 1)
    true false (fun _ => by decide) [7] (by simp) (by simpa using hleft)
  rw [hres]
  obtain ⟨row, rfl⟩ := List.length_eq_one_iff.1 hl
  obtain ⟨hl1, _, hsh⟩ := hrows row List.mem_cons_self
  obtain ⟨x, rfl⟩ := List.length_eq_one_iff.1 hl1
  obtain ⟨j, hj⟩ := hsh x List.mem_cons_self
  have hn := C17_filtered hR false false [7] _ hres 0 7 [x] rfl rfl x List.mem_cons_self j hj
  rw [hrec] at hn
  obtain ⟨hlt, hx⟩ := hj
  have hlt : j < 3 := hlt
  have : j = 0 := by omega
  subst this
  have hx : (40 : ℤ) = x := Option.some.inj hx
  rw [hx]

/-- a delta is determined up to order -/
theorem IsDelta.perm {L : ℕ} {h : SeqHist} {past new : List Inter} {δ : List DRow} (hh : HistInv L h past)
    (hδ : IsDelta L past new δ) : δ.Perm (calculateDelta (updateUserSeqHistory new h L) (snapshot h)) := by
  have h2 := (C07_delta_wellformed _ (snapshot h) (histInv_update _ _ _ new hh).nodup).1
  rw [List.perm_ext_iff_of_nodup (List.Nodup.of_map _ hδ.nodup) (List.Nodup.of_map _ h2)]
  rintro ⟨u, i, p, v⟩
  rw [hδ.mem, mem_delta_iff hh]

/-- a chunk that brings a new user with a known item and a new user with a new item -/
noncomputable def exTINew : List (Row ℝ) := [⟨9, 70, 1, 3, 0⟩, ⟨5, 40, 1, 4, 0⟩]

theorem exTI_new : TIChunk 2 [8, 7] [40, 50, 60] exTINew true
    [⟨⟨5, 40, 1, 4, 0⟩, 0⟩, ⟨⟨9, 70, 1, 3, 0⟩, 0⟩] [5, 9] [70] [⟨2, 0, 0⟩, ⟨3, 3, 0⟩] where
  crop := rfl
  firstUsers := firstAppearance_pdUnique _
  firstItems := firstAppearance_pdUnique _
  mapped := .cons ⟨rfl, ⟨2, rfl, rfl⟩, 0, rfl, rfl⟩ (.cons ⟨rfl, ⟨3, rfl, rfl⟩, 3, rfl, rfl⟩ .nil)

theorem exTI_new_delta {δ : List DRow} (h : IsDelta 2 exTIPast [⟨2, 0, 0⟩, ⟨3, 3, 0⟩] δ) :
    δ = [⟨2, 0, 1, 1⟩, ⟨3, 3, 1, 1⟩] ∨ δ = [⟨3, 3, 1, 1⟩, ⟨2, 0, 1, 1⟩] := by
  have hp := h.perm (by
    have := histInv_update 2 [] [] exTIPast (histInv_nil 2)
    rwa [List.nil_append] at this)
  rw [show calculateDelta (updateUserSeqHistory [⟨2, 0, 0⟩, ⟨3, 3, 0⟩] (updateUserSeqHistory exTIPast [] 2) 2)
    (snapshot (updateUserSeqHistory exTIPast [] 2)) = [⟨2, 0, 1, 1⟩, ⟨3, 3, 1, 1⟩] by decide +kernel] at hp
  have hm := List.mem_permutations'.2 hp
  rw [show List.permutations' [(⟨2, 0, 1, 1⟩ : DRow), ⟨3, 3, 1, 1⟩] = [[⟨2, 0, 1, 1⟩, ⟨3, 3, 1, 1⟩],
    [⟨3, 3, 1, 1⟩, ⟨2, 0, 1, 1⟩]] by decide +kernel] at hm
  simpa using hm

/-- C34, C35: the both-new entry goes to the block step and the other one to the step for new users; afterwards there
are 4 users and 4 items -/
example : ∃ s st' l, tdTrain (exTICfg false).td exTIAtt (none : Option (ExitCallback ℝ Unit)) () [] exTITable = .ok s ∧
    tiUpdateLog tirecRounds (exTICfg false) exTIAtt s exTINew true = .ok (st', l) ∧
    l.log = [(.new, [⟨3, 3, 1, 1⟩]), (.newUsers, [⟨2, 0, 1, 1⟩]), (.newItems, []), (.old, [])] ∧
    st'.u.rows = 4 ∧ st'.v.rows = 4 ∧ ViewOk st'.view [8, 7, 5, 9] [40, 50, 60, 70] := by
  obtain ⟨s, h1, h2⟩ := exTI_trained false
  obtain ⟨cr', nus', nis', new', δ, g1, g2, g3, g4, _⟩ := update_outcome (exTI_setting false)
    (tirec_roundsOk (exTI_setting false)) h2 (exTI_fits false) (data := exTINew) (by simp [exTINew]) true
  obtain ⟨rfl, rfl, rfl, rfl⟩ := exTI_new.unique h2.user.nodup h2.item.nodup g1
  have hd := exTI_new_delta g2
  obtain ⟨st', l, e, ⟨_, hl⟩, hinv⟩ := g4 (by
    rcases hd with rfl | rfl
    · exact ⟨by decide, show TIFits _ 2 2 3 2 [2, 3] [3] _ by unfold TIFits; decide +kernel⟩
    · exact ⟨by decide, show TIFits _ 2 2 3 2 [2, 3] [3] _ by unfold TIFits; decide +kernel⟩)
  obtain ⟨k1, k2, _, _, _, _, _, k3, _⟩ := C35_sizes hinv
  refine ⟨s, st', l, h1, e, ?_, k1, k2, k3⟩
  rw [hl]
  rcases hd with rfl | rfl <;> decide +kernel

/-- C89: after the update user 7 gets one unseen item -/
example : ∃ s st', tdTrain (exTICfg false).td exTIAtt (none : Option (ExitCallback ℝ Unit)) () [] exTITable = .ok s ∧
    tiUpdate tirecaMiddle (exTICfg false) exTIAtt s exTILong true = .ok st' ∧
    ∀ argp, ArgPartOk argp → ∃ res, tdRecommend argp st' [7, 8] 2 false false = .ok res ∧ res.length = 2 := by
  obtain ⟨s, h1, h2⟩ := exTI_trained false
  obtain ⟨st', h3, h4⟩ := exTI_long_update (Or.inr rfl) false h2
  refine ⟨s, st', h1, h3, fun argp ha => ?_⟩
  obtain ⟨res, hres, hl, _⟩ := C89_recommend (exTI_setting false) h4 (exTI_fits false) (le_refl 2) argp ha 2 (by decide) false
    false (by simp) [7, 8] (by simp) (by simp)
  exact ⟨res, hres, hl⟩

end examples
end DynCF
