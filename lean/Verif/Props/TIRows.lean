/-
Property theorems C36 and C37 (which row of a factor belongs to which user or item, and how often an entry of the
delta is applied) and C45, C46 for TIRecA.
-/
import Verif.Props.TIRec
import Verif.Props.Hosvd

set_option linter.unusedSectionVars false

namespace DynCF
open Matrix
variable {K : Type}

/-- `ids` are the distinct numbers of `a` in increasing order. -/
structure IncIds (a ids : List ℤ) : Prop where
  inc : ids.Pairwise (· < ·)
  mem : ∀ x, x ∈ ids ↔ x ∈ a

theorem IncIds.eq {a ids : List ℤ} (h : IncIds a ids) : ids = npUnique a := by
  have h2 := npUnique_sorted a
  refine List.Perm.eq_of_pairwise (fun x y _ _ h1 h2 => (lt_asymm h1 h2).elim) h.inc h2 ?_
  rw [List.perm_ext_iff_of_nodup (h.inc.imp fun h => ne_of_lt h) (npUnique_nodup a)]
  intro x
  rw [h.mem, mem_npUnique]

theorem incIds_npUnique (a : List ℤ) : IncIds a (npUnique a) := ⟨npUnique_sorted a, mem_npUnique a⟩

theorem idRange_sorted (U0 a : ℕ) : (idRange U0 a).Pairwise (· < ·) := by
  unfold idRange
  rw [List.pairwise_map]
  refine List.Pairwise.imp ?_ List.pairwise_lt_range
  intro x y h
  omega

theorem append_sorted_iff {a b c : List ℤ} (ha : a.Pairwise (· < ·)) (hb : b.Pairwise (· < ·)) (hc : c.Pairwise (· < ·))
    (hp : (a ++ b).Perm c) : a ++ b = c ↔ ∀ x ∈ a, ∀ y ∈ b, x < y := by
  constructor
  · rintro rfl
    exact fun x hx y hy => (List.pairwise_append.1 hc).2.2 x hx y hy
  · intro h
    exact List.Perm.eq_of_pairwise (fun x y _ _ h1 h2 => (lt_asymm h1 h2).elim)
      (List.pairwise_append.2 ⟨ha, hb, h⟩) hc hp

section
variable [Field K] [LinearOrder K] [IsStrictOrderedRing K]
variable {cfg : TICfg K} {m : TDAtt K} {st : TDState K} {users items : List ℤ} {ext : List (PRow K)} {past : List Inter}

/-! ### C36: the rows and the ids -/

theorem log_aligned {U0 a I0 b L : ℕ} {δ : List DRow} (h : DeltaOk U0 a I0 b L (idRange U0 a) (idRange I0 b) δ)
    {u1 u2 i1 i3 : List ℤ} (hu1 : IncIds ((tiPart (idRange U0 a) (idRange I0 b) δ .new).map DRow.user) u1)
    (hu2 : IncIds ((tiPart (idRange U0 a) (idRange I0 b) δ .newUsers).map DRow.user) u2)
    (hi1 : IncIds ((tiPart (idRange U0 a) (idRange I0 b) δ .new).map DRow.item) i1)
    (hi3 : IncIds ((tiPart (idRange U0 a) (idRange I0 b) δ .newItems).map DRow.item) i3) :
    (u1 ++ u2 = idRange U0 a ↔ ∀ x ∈ u1, ∀ y ∈ u2, x < y) ∧ (i1 ++ i3 = idRange I0 b ↔ ∀ x ∈ i1, ∀ y ∈ i3, x < y) := by
  constructor
  · refine append_sorted_iff hu1.inc hu2.inc (idRange_sorted _ _) ?_
    rw [hu1.eq, hu2.eq]
    exact newUsers_split (idRange_nodup _ _) h.usersOccur
  · refine append_sorted_iff hi1.inc hi3.inc (idRange_sorted _ _) ?_
    rw [hi1.eq, hi3.eq]
    exact newItems_split (idRange_nodup _ _) h.itemsOccur

/-- **C36, partial.** In an update of either class the first step (the block) appends one user row for each user of
its data, in increasing order of the ids (`C36_block_rows`), and the second step one row for each user of its data, in
the same way (`C36_user_rows`). So the rows added belong, in order, to the users `u1 ++ u2`, while the mapping numbers
the new users from `users.length` on. Proved: the two agree exactly if every new user of the block has a smaller id than
every new user of the second step, and likewise for items. Missing: that condition does not always hold
(`C36_violated`). -/
theorem C36_aligned_partial {rounds : TIRounds K} (hc : rounds = tirecRounds ∨ rounds = tirecaRounds) (hs : TISetting cfg m)
    (hi : TIInv cfg m st users items ext past) (hf : cfg.Fits users items) (data : List (Row K)) (hne : data ≠ []) (b : Bool)
    (st' : TDState K) (l : TIRound K) (h : tiUpdateLog rounds cfg m st data b = .ok (st', l)) :
    ∃ cr nus nis new d1 d2 d3 d4, TIChunk cfg.td.seqLen users items data b cr nus nis new ∧
      l.log = [(.new, d1), (.newUsers, d2), (.newItems, d3), (.old, d4)] ∧
      ∀ u1 u2 i1 i3, IncIds (d1.map DRow.user) u1 → IncIds (d2.map DRow.user) u2 →
        IncIds (d1.map DRow.item) i1 → IncIds (d3.map DRow.item) i3 →
        (u1 ++ u2).Perm ((List.range nus.length).map fun k => ((users.length + k : ℕ) : ℤ)) ∧
        (i1 ++ i3).Perm ((List.range nis.length).map fun k => ((items.length + k : ℕ) : ℤ)) ∧
        (u1 ++ u2 = (List.range nus.length).map (fun k => ((users.length + k : ℕ) : ℤ)) ↔ ∀ x ∈ u1, ∀ y ∈ u2, x < y) ∧
        (i1 ++ i3 = (List.range nis.length).map (fun k => ((items.length + k : ℕ) : ℤ)) ↔ ∀ x ∈ i1, ∀ y ∈ i3, x < y) := by
  obtain ⟨fits, Log, hr, hlog⟩ : ∃ (fits : ℕ → ℕ → Prop) (Log : List ℤ → List ℤ → List DRow → TIRound K → Prop),
      TIRoundsOk rounds cfg m fits Log ∧ (∀ nu ni δ l, Log nu ni δ l → ∃ d4, l.log = [(.new, tiPart nu ni δ .new),
        (.newUsers, tiPart nu ni δ .newUsers), (.newItems, tiPart nu ni δ .newItems), (.old, d4)]) := by
    rcases hc with rfl | rfl
    · exact ⟨_, _, tirec_roundsOk hs, fun _ _ _ _ h => ⟨_, h.2⟩⟩
    · exact ⟨_, _, tireca_roundsOk hs, fun _ _ _ _ h => ⟨_, h⟩⟩
  obtain ⟨cr, nus, nis, new, δ, h1, h2, h3, h4, h5⟩ := update_outcome hs hr hi hf hne b
  have hfit := not_not.1 fun hn => absurd h (by rw [h5 hn]; exact nofun)
  obtain ⟨st'', l', e, hl, _⟩ := h4 hfit
  obtain ⟨rfl, rfl⟩ := Prod.mk.inj (Except.ok.inj (h.symm.trans e))
  obtain ⟨d4, hd⟩ := hlog _ _ _ _ hl
  refine ⟨cr, nus, nis, new, _, _, _, d4, h1, hd, ?_⟩
  intro u1 u2 i1 i3 hu1 hu2 hi1 hi3
  have e1 : (List.range nus.length).map (fun k => ((users.length + k : ℕ) : ℤ)) = idRange users.length nus.length := by
    rfl
  have e2 : (List.range nis.length).map (fun k => ((items.length + k : ℕ) : ℤ)) = idRange items.length nis.length := by
    rfl
  rw [e1, e2]
  obtain ⟨k1, k2⟩ := log_aligned h3 hu1 hu2 hi1 hi3
  refine ⟨?_, ?_, k1, k2⟩
  · rw [hu1.eq, hu2.eq]
    exact newUsers_split (idRange_nodup _ _) h3.usersOccur
  · rw [hi1.eq, hi3.eq]
    exact newItems_split (idRange_nodup _ _) h3.itemsOccur

section
variable (att : Option (Matrix (Fin cfg.td.seqLen) (Fin cfg.td.seqLen) K)) (hatt : tiAttArg cfg m = attArg att)
  {n0 n1 r0 r1 r2 : ℕ} {U : Matrix (Fin n0) (Fin r0) K} {V : Matrix (Fin n1) (Fin r1) K}
  {W : Matrix (Fin cfg.td.seqLen) (Fin r2) K} {c : T3 r0 r1 r2 K}
include hatt

/-- **C36, the rows of the second step of TIRec.** The `k`-th user row appended gets the changes of the user with the
`k`-th smallest id of the data (projected, as `C50_mode0` says). -/
theorem C36_user_rows (hqr : QrAlways cfg.td.hooi.la) (h : TIStores st U V W c) (hd : TIDims n0 n1 cfg.td.seqLen r0 r1 r2)
    (hpos : 0 < r0) (data : List DRow) (hi : ∀ r ∈ data, 0 ≤ r.item ∧ r.item < n1)
    (hp : ∀ r ∈ data, 0 ≤ r.pos ∧ r.pos < cfg.td.seqLen) (ids : List ℤ) (hids : IncIds (data.map DRow.user) ids)
    (hf : ids.length ≤ cfg.td.seqLen * n1) (t : T3 ids.length n1 cfg.td.seqLen K)
    (ht : ∀ k j p, t k j p = ∑ l : Fin cfg.td.seqLen,
      deltaVal data ids[k] (j : ℕ) (l : ℕ) * attVal att l p) :
    ∃ st' U' c', tiStep tirecVectors cfg m st data .newUsers = .ok st' ∧
      TIStores (n0 := n0 + ids.length) (r0 := r0) st' U' V W c' ∧ TISame st st' ∧
      (LaOk cfg.td.hooi.la → TnvCaptures cfg.td.hooi.la cfg.vecRng (unf c) V W (unf t) cfg.td.hooi.nPower cfg.td.hooi.os
          cfg.explicitCalc →
        (hblock (unf (tuckerTensor (1 : Matrix (Fin r0) (Fin r0) K) V W c)).transpose (unf t).transpose).rank ≤ r0 →
        V.transpose * V = 1 → W.transpose * W = 1 →
        (∀ i j k, tuckerTensor U' V W c' (Fin.castAdd _ i) j k = tuckerTensor U V W c i j k) ∧
        ∀ i j k, tuckerTensor U' V W c' (Fin.natAdd n0 i) j k =
          tuckerTensor (1 : Matrix (Fin ids.length) (Fin ids.length) K) (V * V.transpose) (W * W.transpose) t i j k) := by
  obtain rfl := hids.eq
  have hv : st.v.rows = n1 := by rw [h.v]
  have hts : t = userSlices data att n1 := by
    funext k j p
    rw [ht]
    rfl
  obtain ⟨U', c', e, hex⟩ := C50_mode0 cfg.td.hooi.la cfg.vecRng hqr hpos hd.le0 hf U V W c t cfg.td.hooi.nPower
    cfg.td.hooi.os cfg.explicitCalc
  refine ⟨_, U', c', ?_, setFac_shape st U' V W c', setFac_same _ _, hex⟩
  simp only [tiStep]
  rw [tiDataUsers_eq cfg m st att hatt hv data hi hp, except_bind_ok, ← hts]
  unfold tirecVectors
  rw [(tiCore_stores h).1, except_bind_ok, (tiCore_stores h).2, e]
  rfl

/-- **C36, the rows of the block step.** The `a`-th user row and the `b`-th item row appended get the changes between the
user with the `a`-th smallest id and the item with the `b`-th smallest id of the data (projected, as `C51_new_matrix`
says). -/
theorem C36_block_rows {vec : TIVectors K} (h : TIStores st U V W c) (hd : TIDims n0 n1 cfg.td.seqLen r0 r1 r2)
    (data : List DRow) (hp : ∀ r ∈ data, 0 ≤ r.pos ∧ r.pos < cfg.td.seqLen) (us is : List ℤ)
    (hus : IncIds (data.map DRow.user) us) (his : IncIds (data.map DRow.item) is)
    (B : T3 (n0 + us.length) (n1 + is.length) cfg.td.seqLen K)
    (hB1 : ∀ i j k, B (Fin.castAdd _ i) (Fin.castAdd _ j) k = tuckerTensor U V W c i j k)
    (hB2 : ∀ i j k, B (Fin.castAdd _ i) (Fin.natAdd n1 j) k = 0)
    (hB3 : ∀ i j k, B (Fin.natAdd n0 i) (Fin.castAdd _ j) k = 0)
    (hB4 : ∀ i j k, B (Fin.natAdd n0 i) (Fin.natAdd n1 j) k = ∑ l, (W * (attVal att * W).transpose) k l *
      deltaVal data us[i] is[j] (l : ℕ))
    (hcap : ∀ x : T3 us.length is.length r2 K, TnmCaptures cfg.td.hooi.la cfg.matRng c x cfg.td.hooi.nPower cfg.td.hooi.os)
    (hla : LaOk cfg.td.hooi.la) (hU : U.transpose * U = 1) (hV : V.transpose * V = 1) (hW : W.transpose * W = 1)
    (hrank : MultiRankLe B r0 r1 r2) :
    ∃ st' U' V' W' c', tiStep vec cfg m st data .new = .ok st' ∧
      TIStores (n0 := n0 + us.length) (n1 := n1 + is.length) (n2 := cfg.td.seqLen) (r0 := r0) (r1 := r1) (r2 := r2)
        st' U' V' W' c' ∧ TISame st st' ∧ U'.transpose * U' = 1 ∧ V'.transpose * V' = 1 ∧ W'.transpose * W' = 1 ∧
      tuckerTensor U' V' W' c' = B := by
  obtain rfl := hus.eq
  obtain rfl := his.eq
  obtain ⟨es, hes⟩ := tiBlock_typed (K := K) data cfg.td.seqLen hp
  obtain ⟨U', V', W', c', e, hex⟩ := C51_new_matrix cfg.td.hooi.la cfg.matRng U V W c
    ⟨by rw [mul_comm]; exact hd.h0, by rw [mul_comm]; exact hd.h1, by rw [mul_comm]; exact hd.h2⟩ es att
    cfg.td.hooi.nPower cfg.td.hooi.os B hB1 hB2 hB3 (by
      intro i j k
      rw [hB4]
      refine Finset.sum_congr rfl fun l _ => ?_
      rw [hes.coo, deltaVal_block])
  obtain ⟨k1, k2, k3, _, k4⟩ := hex hla hU hV hW
  refine ⟨_, U', V', W', c', ?_, setFac_shape st U' V' W' c', setFac_same _ _, k1, k2, k3, k4 hrank (hcap _)⟩
  simp only [tiStep, tiNew]
  rw [tiDataNew_eq, except_bind_ok, (tiCore_stores h).1, except_bind_ok, (tiCore_stores h).2, hes.inds, hes.vals,
    tiBlock_users, tiBlock_items, hatt, e]
  rfl

/-- **C36, the rows of the third step of TIRec.** The `k`-th item row appended gets the changes of the item with the
`k`-th smallest id of the data. -/
theorem C36_item_rows (hqr : QrAlways cfg.td.hooi.la) (h : TIStores st U V W c) (hd : TIDims n0 n1 cfg.td.seqLen r0 r1 r2)
    (hpos : 0 < r1) (data : List DRow) (hu : ∀ r ∈ data, 0 ≤ r.user ∧ r.user < n0)
    (hp : ∀ r ∈ data, 0 ≤ r.pos ∧ r.pos < cfg.td.seqLen) (ids : List ℤ) (hids : IncIds (data.map DRow.item) ids)
    (hf : ids.length ≤ cfg.td.seqLen * n0) (t : T3 n0 ids.length cfg.td.seqLen K)
    (ht : ∀ i k p, t i k p = ∑ l : Fin cfg.td.seqLen,
      deltaVal data (i : ℕ) ids[k] (l : ℕ) * attVal att l p) :
    ∃ st' V' c', tiStep tirecVectors cfg m st data .newItems = .ok st' ∧
      TIStores (n1 := n1 + ids.length) (r1 := r1) st' U V' W c' ∧ TISame st st' ∧
      (LaOk cfg.td.hooi.la → TnvCaptures cfg.td.hooi.la cfg.vecRng (unf (front1 c)) U W (unf (front1 t)) cfg.td.hooi.nPower
          cfg.td.hooi.os cfg.explicitCalc →
        (hblock (unf (front1 (tuckerTensor U (1 : Matrix (Fin r1) (Fin r1) K) W c))).transpose
          (unf (front1 t)).transpose).rank ≤ r1 →
        U.transpose * U = 1 → W.transpose * W = 1 →
        (∀ i j k, tuckerTensor U V' W c' i (Fin.castAdd _ j) k = tuckerTensor U V W c i j k) ∧
        ∀ i j k, tuckerTensor U V' W c' i (Fin.natAdd n1 j) k =
          tuckerTensor (U * U.transpose) (1 : Matrix (Fin ids.length) (Fin ids.length) K) (W * W.transpose) t i j k) := by
  obtain rfl := hids.eq
  have hv : st.u.rows = n0 := by rw [h.u]
  have hts : t = itemSlices data att n0 := by
    funext k j p
    rw [ht]
    rfl
  obtain ⟨V', c', e, hex⟩ := C50_mode1 cfg.td.hooi.la cfg.vecRng hqr hpos hd.le1 hf U V W c t cfg.td.hooi.nPower
    cfg.td.hooi.os cfg.explicitCalc
  refine ⟨_, V', c', ?_, setFac_shape st U V' W c', setFac_same _ _, hex⟩
  simp only [tiStep]
  rw [tiDataItems_eq cfg m st att hatt hv data hu hp, except_bind_ok, ← hts]
  unfold tirecVectors
  rw [(tiCore_stores h).1, except_bind_ok, (tiCore_stores h).2, e]
  rfl

end

/-! ### C37: how often an entry is applied -/

/-- The new vectors added by TIRecA do not depend on the entries of the data, only on their number. -/
theorem C37_vectors_ignore_values (c : TICfg K) (st : TDState K) (da da' : Mat K) (mode : ℤ) (h : da.rows = da'.rows) :
    tirecaVectors c st da mode = tirecaVectors c st da' mode := by
  unfold tirecaVectors
  rw [h]

/-- **C37, partial.** In the default configuration of TIRecA the integrator gets the whole delta, and before that the
block step gets the entries with a new user and a new item; the two other steps look at no value
(`C37_vectors_ignore_values`). So an entry with a known user or a known item is applied exactly once. Missing: the
other entries are applied twice (`C37_violated`). -/
theorem C37_once_partial (hs : TISetting cfg m) (hi : TIInv cfg m st users items ext past) (hf : cfg.Fits users items)
    (hg : cfg.integrator = false) (data : List (Row K)) (hne : data ≠ []) (b : Bool) (st' : TDState K) (l : TIRound K)
    (h : tiUpdateLog tirecaMiddle cfg m st data b = .ok (st', l)) :
    ∃ cr nus nis new d1 d2 d3 d4, TIChunk cfg.td.seqLen users items data b cr nus nis new ∧
      IsDelta cfg.td.seqLen past new d4 ∧ l.log = [(.new, d1), (.newUsers, d2), (.newItems, d3), (.old, d4)] ∧
      ∀ r ∈ d4, d4.count r = 1 ∧ (d1.count r = 1 ↔ users.length ≤ r.user ∧ items.length ≤ r.item) ∧
        (d1.count r = 0 ↔ r.user < users.length ∨ r.item < items.length) := by
  have hm : (tirecaMiddle : TIRounds K) cfg = tirecaRounds cfg := by unfold tirecaMiddle; rw [hg]; rfl
  have hup : tiUpdateLog tirecaRounds cfg m st data b = .ok (st', l) := by
    rw [← h]
    unfold tiUpdateLog
    rw [hm]
  obtain ⟨cr, nus, nis, new, δ, h1, h2, h3, h4, h5⟩ := update_outcome hs (tireca_roundsOk hs) hi hf hne b
  have hfit := not_not.1 fun hn => absurd hup (by rw [h5 hn]; exact nofun)
  obtain ⟨st'', l', e, hl, _⟩ := h4 hfit
  obtain ⟨rfl, rfl⟩ := Prod.mk.inj (Except.ok.inj (hup.symm.trans e))
  refine ⟨cr, nus, nis, new, _, _, _, δ, h1, h2, hl, ?_⟩
  intro r hr
  have hnd : δ.Nodup := List.Nodup.of_map _ h2.nodup
  have hnd1 : (tiPart (idRange users.length nus.length) (idRange items.length nis.length) δ .new).Nodup :=
    hnd.filter _
  have hmem : r ∈ tiPart (idRange users.length nus.length) (idRange items.length nis.length) δ .new ↔
      users.length ≤ r.user ∧ items.length ≤ r.item := by
    rw [mem_tiPart]
    have hu := h3.user r hr
    have hi' := h3.item r hr
    constructor
    · rintro ⟨_, k1, k2⟩
      rw [mem_idRange] at k1 k2
      exact ⟨k1.1, k2.1⟩
    · rintro ⟨k1, k2⟩
      exact ⟨hr, mem_idRange.2 ⟨k1, hu.2⟩, mem_idRange.2 ⟨k2, hi'.2⟩⟩
  refine ⟨List.count_eq_one_of_mem hnd hr, ?_, ?_⟩
  · rw [← hmem]
    constructor
    · intro hc
      exact List.count_pos_iff.1 (by omega)
    · exact fun hc => List.count_eq_one_of_mem hnd1 hc
  · rw [List.count_eq_zero, hmem]
    omega

/-- **C37 with `_nu_ni_process_integrator`**: every entry of the delta is applied once, by the integrator. -/
theorem C37_integrator_mode (hs : TISetting cfg m) (hi : TIInv cfg m st users items ext past) (hf : cfg.Fits users items)
    (hg : cfg.integrator = true) (data : List (Row K)) (hne : data ≠ []) (b : Bool) (st' : TDState K) (l : TIRound K)
    (h : tiUpdateLog tirecaMiddle cfg m st data b = .ok (st', l)) :
    ∃ cr nus nis new δ, TIChunk cfg.td.seqLen users items data b cr nus nis new ∧
      IsDelta cfg.td.seqLen past new δ ∧ l.log = [(.old, δ)] := by
  have hm : (tirecaMiddle : TIRounds K) cfg = tirecaIntegrator cfg := by unfold tirecaMiddle; rw [hg]; rfl
  have hup : tiUpdateLog tirecaIntegrator cfg m st data b = .ok (st', l) := by
    rw [← h]
    unfold tiUpdateLog
    rw [hm]
  obtain ⟨cr, nus, nis, new, δ, h1, h2, h3, h4, h5⟩ := update_outcome hs (integrator_roundsOk hs) hi hf hne b
  have hfit := not_not.1 fun hn => absurd hup (by rw [h5 hn]; exact nofun)
  obtain ⟨st'', l', e, hl, _⟩ := h4 hfit
  obtain ⟨rfl, rfl⟩ := Prod.mk.inj (Except.ok.inj (hup.symm.trans e))
  exact ⟨cr, nus, nis, new, δ, h1, h2, hl⟩

end

/-! ### C45, C46 for TIRecA -/

section
variable [CommRing K] {n0 n1 n2 r0 r1 r2 : ℕ} {st : TDState K} {U : Matrix (Fin n0) (Fin r0) K}
    {V : Matrix (Fin n1) (Fin r1) K} {W : Matrix (Fin n2) (Fin r2) K} {c : T3 r0 r1 r2 K}

/-- **C45 for TIRecA, users.** -/
theorem C45_tireca_users (h : TIStores st U V W c) (k : ℕ) :
    ∃ U' : Matrix (Fin (n0 + k)) (Fin r0) K, TIStores (tiZeroUsers k st) U' V W c ∧
      (∀ i j p, tuckerTensor U' V W c (Fin.castAdd k i) j p = tuckerTensor U V W c i j p) ∧
      ∀ i j p, tuckerTensor U' V W c (Fin.natAdd n0 i) j p = 0 := by
  refine ⟨_, (tiZeroUsers_stores h k).1, ?_, ?_⟩ <;> intro i j p <;> simp [tuckerTensor, zeroRows]

/-- **C45 for TIRecA, items.** -/
theorem C45_tireca_items (h : TIStores st U V W c) (k : ℕ) :
    ∃ V' : Matrix (Fin (n1 + k)) (Fin r1) K, TIStores (tiZeroItems k st) U V' W c ∧
      (∀ i j p, tuckerTensor U V' W c i (Fin.castAdd k j) p = tuckerTensor U V W c i j p) ∧
      ∀ i j p, tuckerTensor U V' W c i (Fin.natAdd n1 j) p = 0 := by
  refine ⟨_, (tiZeroItems_stores h k).1, ?_, ?_⟩ <;> intro i j p <;> simp [tuckerTensor, zeroRows]

/-- **C46 for TIRecA, users.** The predictions of the known users stay, and those of the new users are those of their
random rows. -/
theorem C46_tireca_users (cfg : TICfg K) (hqr : QrAlways cfg.td.hooi.la) (h : TIStores st U V W c) (k : ℕ)
    (hr : r0 ≤ n0 + k) :
    ∃ (U' : Matrix (Fin (n0 + k)) (Fin r0) K) (c' : T3 r0 r1 r2 K) (st' : TDState K),
      tiRandomUsers cfg k st = .ok st' ∧ TIStores st' U' V W c' ∧ U'.transpose * U' = 1 ∧
      (∀ i j p, tuckerTensor U' V W c' (Fin.castAdd k i) j p = tuckerTensor U V W c i j p) ∧
      ∀ i j p, tuckerTensor U' V W c' (Fin.natAdd n0 i) j p =
        tuckerTensor ((cfg.normal (n0 + k) r0).submatrix (Fin.natAdd n0) id) V W c i j p := by
  obtain ⟨Q, R, st', e, h1, _, h2, h3⟩ := tiRandomUsers_stores cfg hqr h k hr
  have key : tuckerTensor Q V W (mul0 R c) = tuckerTensor (padRand cfg.normal U k) V W c := by
    rw [tuckerTensor_eq, tuckerTensor_eq, ← mul02_comm, ← mul01_comm, mul0_mul0, h2]
  refine ⟨Q, _, st', e, h1, h3, ?_, ?_⟩ <;> intro i j p <;> rw [key] <;> simp [tuckerTensor, padRand]

/-- **C46 for TIRecA, items.** -/
theorem C46_tireca_items (cfg : TICfg K) (hqr : QrAlways cfg.td.hooi.la) (h : TIStores st U V W c) (k : ℕ)
    (hr : r1 ≤ n1 + k) :
    ∃ (V' : Matrix (Fin (n1 + k)) (Fin r1) K) (c' : T3 r0 r1 r2 K) (st' : TDState K),
      tiRandomItems cfg k st = .ok st' ∧ TIStores st' U V' W c' ∧ V'.transpose * V' = 1 ∧
      (∀ i j p, tuckerTensor U V' W c' i (Fin.castAdd k j) p = tuckerTensor U V W c i j p) ∧
      ∀ i j p, tuckerTensor U V' W c' i (Fin.natAdd n1 j) p =
        tuckerTensor U ((cfg.normal (n1 + k) r1).submatrix (Fin.natAdd n1) id) W c i j p := by
  obtain ⟨Q, R, st', e, h1, _, h2, h3⟩ := tiRandomItems_stores cfg hqr h k hr
  have key : tuckerTensor U Q W (mul1 R c) = tuckerTensor U (padRand cfg.normal V k) W c := by
    rw [tuckerTensor_eq, tuckerTensor_eq, ← mul12_comm, mul1_mul1, h2]
  refine ⟨Q, _, st', e, h1, h3, ?_, ?_⟩ <;> intro i j p <;> rw [key] <;> simp [tuckerTensor, padRand]

end

/-! ### C36 and C37 are violated; concrete runs -/

section examples

/-- **C36 is violated** (both classes): after training with the users 8, 7, the chunk `exTINew` brings the new users 5
and 9, which get the ids 2 and 3. The block step appends the row of the user with id 3 first, as row 2, and the second
step the row of the user with id 2 as row 3. -/
theorem C36_violated {rounds : TIRounds ℝ} (hc : rounds = tirecRounds ∨ rounds = tirecaRounds) :
    ∃ s st' l d1 d2 d3 d4, tdTrain (exTICfg false).td exTIAtt (none : Option (ExitCallback ℝ Unit)) () [] exTITable = .ok s ∧
      tiUpdateLog rounds (exTICfg false) exTIAtt s exTINew true = .ok (st', l) ∧
      l.log = [(.new, d1), (.newUsers, d2), (.newItems, d3), (.old, d4)] ∧
      IncIds (d1.map DRow.user) [3] ∧ IncIds (d2.map DRow.user) [2] ∧ Represents st'.maps.user [8, 7, 5, 9] := by
  obtain ⟨s, h1, h2⟩ := exTI_trained false
  obtain ⟨fits, Log, hr, hfit, hlog⟩ : ∃ (fits : ℕ → ℕ → Prop) (Log : List ℤ → List ℤ → List DRow → TIRound ℝ → Prop),
      TIRoundsOk rounds (exTICfg false) exTIAtt fits Log ∧ (∀ n N, n ≤ N → fits n N) ∧
      (∀ nu ni δ l, Log nu ni δ l → ∃ d4, l.log = [(.new, tiPart nu ni δ .new),
        (.newUsers, tiPart nu ni δ .newUsers), (.newItems, tiPart nu ni δ .newItems), (.old, d4)]) := by
    rcases hc with rfl | rfl
    · exact ⟨_, _, tirec_roundsOk (exTI_setting false), fun _ _ h => h, fun _ _ _ _ h => ⟨_, h.2⟩⟩
    · exact ⟨_, _, tireca_roundsOk (exTI_setting false), fun _ _ _ => trivial, fun _ _ _ _ h => ⟨_, h⟩⟩
  obtain ⟨cr', nus', nis', new', δ, g1, g2, g3, g4, _⟩ := update_outcome (exTI_setting false) hr h2 (exTI_fits false)
    (data := exTINew) (by simp [exTINew]) true
  obtain ⟨rfl, rfl, rfl, rfl⟩ := exTI_new.unique h2.user.nodup h2.item.nodup g1
  have hd := exTI_new_delta g2
  have hf2 : TIFits (fun n N => n ≤ N) 2 2 3 2 [2, 3] [3] δ := by
    rcases hd with rfl | rfl <;> unfold TIFits <;> decide +kernel
  obtain ⟨st', l, e, hl, hinv⟩ := g4 ⟨by rcases hd with rfl | rfl <;> decide, hfit _ _ hf2.1, hfit _ _ hf2.2⟩
  obtain ⟨d4, hl'⟩ := hlog _ _ _ _ hl
  refine ⟨s, st', l, _, _, _, d4, h1, e, hl', ?_, ?_, hinv.user⟩
  · have : (tiPart [2, 3] [3] δ .new).map DRow.user = [3] := by
      rcases hd with rfl | rfl <;> decide +kernel
    show IncIds ((tiPart [2, 3] [3] δ .new).map DRow.user) _
    rw [this]
    exact ⟨by simp, fun _ => Iff.rfl⟩
  · have : (tiPart [2, 3] [3] δ .newUsers).map DRow.user = [2] := by
      rcases hd with rfl | rfl <;> decide +kernel
    show IncIds ((tiPart [2, 3] [3] δ .newUsers).map DRow.user) _
    rw [this]
    exact ⟨by simp, fun _ => Iff.rfl⟩

/-- sequence length 1, rank (2, 2, 1), no attention -/
noncomputable def exRowCfg : TICfg ℝ where
  td := ⟨⟨realLA, fun _ => eyeRng, fun _ _ => eyeRng, (2, 2, 1), 1, 2, false⟩, fun _ => 0, 1, none, 1, 0, true⟩
  light := false
  explicitCalc := true
  vecRng := fun _ => eyeRng
  matRng := fun _ _ => eyeRng
  normal := eyeRng
  init := .zero
  integrator := false

noncomputable def exRowAtt : TDAtt ℝ := ⟨Mat.eye 1, Mat.eye 1⟩

/-- user 7 viewed 40; user 8 viewed 50 and then 40 -/
noncomputable def exRowTable : List (PRow ℝ) :=
  [⟨⟨7, 40, 1, 1, 0⟩, 0⟩, ⟨⟨8, 50, 1, 1, 0⟩, 0⟩, ⟨⟨8, 40, 1, 2, 0⟩, 0⟩]

def exRowPast : List Inter := [⟨0, 0, 0⟩, ⟨1, 1, 0⟩, ⟨1, 0, 0⟩]

/-- the tensor of the windows -/
noncomputable def exRowTensor : T3 2 2 1 ℝ := fun _ j _ => if j = 0 then 1 else 0

/-- a consistent state whose factors reproduce the windows exactly -/
noncomputable def exRowState : TDState ℝ where
  maps := ⟨getContMappingStruct [7, 8] 0, getContMappingStruct [40, 50] 0⟩
  history := [(0, 0), (1, 1), (1, 0)]
  seqHist := updateUserSeqHistory exRowPast [] 1
  u := ⟨2, 2, 1⟩
  v := ⟨2, 2, 1⟩
  w := ⟨1, 1, 1⟩
  core := some ⟨2, 2, 1, exRowTensor⟩
  aw := ⟨1, 1, 1⟩
  lastPos := ⟨1, fun _ => 1⟩

theorem exRow_setting : TISetting exRowCfg exRowAtt := ⟨le_refl 1, rfl, qrAlways_real, Nat.two_pos, Nat.two_pos⟩

theorem exRow_dims : TIDims 2 2 1 2 2 1 := ⟨by decide, by decide, by decide, by decide, by decide, by decide⟩

theorem exRow_inv : TIInv exRowCfg exRowAtt exRowState [7, 8] [40, 50] exRowTable exRowPast where
  user := represents_start_zero _ (by decide)
  item := represents_start_zero _ (by decide)
  hist := by
    have := histInv_update 1 [] [] exRowPast (histInv_nil 1)
    rwa [List.nil_append] at this
  shape := show TIShape exRowState 2 2 1 2 2 1 from ⟨1, 1, 1, exRowTensor, rfl, rfl, rfl, rfl⟩
  seen := ⟨[⟨⟨0, 0, 1, 1, 0⟩, 0⟩, ⟨⟨1, 1, 1, 1, 0⟩, 0⟩, ⟨⟨1, 0, 1, 2, 0⟩, 0⟩],
    .cons ⟨rfl, rfl, ⟨0, rfl, rfl⟩, 0, rfl, rfl⟩ (.cons ⟨rfl, rfl, ⟨1, rfl, rfl⟩, 1, rfl, rfl⟩
      (.cons ⟨rfl, rfl, ⟨1, rfl, rfl⟩, 0, rfl, rfl⟩ .nil)), List.Perm.refl _, rfl⟩
  aw := by
    show (Mat.eye 1 : Mat ℝ).dot ⟨1, 1, 1⟩ = _
    unfold Mat.eye
    rw [Mat.dot_mk, Matrix.one_mul]
    rfl
  last := by
    refine ⟨⟨1, 1, 1⟩, fun _ => 1, ?_, ?_, rfl⟩
    · show (Mat.eye 1 : Mat ℝ).T.dot ⟨1, 1, 1⟩ = _
      unfold Mat.eye
      rw [Mat.T_mk, Mat.dot_mk, Matrix.transpose_one, Matrix.one_mul]
    · refine (row_neg_one (n := 0) (1 : Matrix (Fin 1) (Fin 1) ℝ)).trans (congrArg _ ?_)
      funext i
      fin_cases i
      rfl
  usersOccur := by decide
  itemsOccur := by decide

/-- the chunk of C36: user 9 views the new item 70, user 5 the item 40 -/
noncomputable def exRowNew : List (Row ℝ) := [⟨9, 70, 1, 3, 0⟩, ⟨5, 40, 1, 4, 0⟩]

/-- the chunk of C37 -/
noncomputable def exRowBoth : List (Row ℝ) := [⟨9, 70, 1, 3, 0⟩]

/-- the windows with the block appended -/
noncomputable def exRowB : T3 (2 + 1) (2 + 1) 1 ℝ :=
  fun i j _ => if i = 2 then if j = 2 then 1 else 0 else if j = 0 then 1 else 0

theorem exRowB_tucker : exRowB = tuckerTensor (!![1, 0; 1, 0; 0, 1] : Matrix (Fin 3) (Fin 2) ℝ)
    (!![1, 0; 0, 0; 0, 1] : Matrix (Fin 3) (Fin 2) ℝ) (1 : Matrix (Fin 1) (Fin 1) ℝ)
    (fun i j _ => if i = j then 1 else 0) := by
  funext i j k
  fin_cases i <;> fin_cases j <;> fin_cases k <;> simp [exRowB, tuckerTensor, Fin.sum_univ_two] <;> rfl

theorem exRow_block (vec : TIVectors ℝ) (st : TDState ℝ)
    (h : TIStores st (1 : Matrix (Fin 2) (Fin 2) ℝ) (1 : Matrix (Fin 2) (Fin 2) ℝ) (1 : Matrix (Fin 1) (Fin 1) ℝ) exRowTensor)
    (x : ℤ) :
    ∃ st' U' V' W' c', tiStep vec exRowCfg exRowAtt st [⟨x, 2, 0, 1⟩] .new = .ok st' ∧
      TIStores (n0 := 2 + 1) (n1 := 2 + 1) (n2 := 1) (r0 := 2) (r1 := 2) (r2 := 1)
        st' U' V' W' c' ∧ TISame st st' ∧ U'.transpose * U' = 1 ∧ V'.transpose * V' = 1 ∧ W'.transpose * W' = 1 ∧
      tuckerTensor U' V' W' c' = exRowB := by
  have hB1 : ∀ (i j : Fin 2) (k : Fin 1), exRowB (Fin.castAdd 1 i) (Fin.castAdd 1 j) k =
      tuckerTensor (1 : Matrix (Fin 2) (Fin 2) ℝ) (1 : Matrix (Fin 2) (Fin 2) ℝ) (1 : Matrix (Fin 1) (Fin 1) ℝ)
        exRowTensor i j k := by
    intro i j k
    rw [tuckerTensor_eq, mul2_one, mul1_one, mul0_one]
    fin_cases i <;> fin_cases j <;> fin_cases k <;> simp [exRowB, exRowTensor]
  have hB2 : ∀ (i : Fin 2) (j : Fin 1) (k : Fin 1), exRowB (Fin.castAdd 1 i) (Fin.natAdd 2 j) k = 0 := by
    intro i j k
    fin_cases i <;> fin_cases j <;> fin_cases k <;> simp [exRowB]
  have hB3 : ∀ (i : Fin 1) (j : Fin 2) (k : Fin 1), exRowB (Fin.natAdd 2 i) (Fin.castAdd 1 j) k = 0 := by
    intro i j k
    fin_cases i <;> fin_cases j <;> fin_cases k <;> simp [exRowB]
  have hB4 : ∀ (i j : Fin 1) (k : Fin 1), exRowB (Fin.natAdd 2 i) (Fin.natAdd 2 j) k =
      ∑ l : Fin 1, ((1 : Matrix (Fin 1) (Fin 1) ℝ) * (attVal (none : Option (Matrix (Fin 1) (Fin 1) ℝ)) * 1).transpose) k l *
        deltaVal [⟨x, 2, 0, 1⟩] ([x][i]) ([(2 : ℤ)][j]) ((l : ℕ) : ℤ) := by
    intro i j k
    fin_cases i; fin_cases j; fin_cases k
    simp [attVal, deltaVal, exRowB]
  have h1 : ∀ n : ℕ, (1 : Matrix (Fin n) (Fin n) ℝ).transpose * 1 = 1 := by simp
  exact C36_block_rows (cfg := exRowCfg) (m := exRowAtt) none rfl h exRow_dims [⟨x, 2, 0, 1⟩]
    (fun r hr => by
      rw [List.mem_singleton] at hr
      subst hr
      exact ⟨le_refl 0, Int.one_pos⟩) [x] [2]
    ⟨by simp, by simp⟩ ⟨by simp, by simp⟩ exRowB hB1 hB2 hB3 hB4
    (fun y F0 F1 d _ => ⟨eyeRng_captures_power _ 2 1 2 (Nat.le_succ 3),
      eyeRng_captures_power _ 2 1 2 (by decide), eyeRng_captures_power _ 1 1 2 (by decide)⟩)
    laOk_real (h1 2) (h1 2) (h1 1)
    (by rw [exRowB_tucker]; exact multiRank_tucker _ _ _ _)

/-- exact factors with orthonormal columns: the row space in mode 1 and mode 2 -/
theorem mul1_proj {n0 n1 n2 r0 r1 r2 : ℕ} {U : Matrix (Fin n0) (Fin r0) ℝ} {V : Matrix (Fin n1) (Fin r1) ℝ}
    {W : Matrix (Fin n2) (Fin r2) ℝ} {c : T3 r0 r1 r2 ℝ} (hV : V.transpose * V = 1) (hW : W.transpose * W = 1) :
    mul1 (V * V.transpose) (mul2 (W * W.transpose) (tuckerTensor U V W c)) = tuckerTensor U V W c := by
  rw [tuckerTensor_eq, ← mul02_comm, ← mul01_comm, ← mul12_comm, mul1_mul1, mul2_mul2, Matrix.mul_assoc, hV,
    Matrix.mul_assoc, hW, Matrix.mul_one, Matrix.mul_one]

theorem unf_one_left {n0 n1 n2 r0 r1 r2 : ℕ} {U : Matrix (Fin n0) (Fin r0) ℝ} {V : Matrix (Fin n1) (Fin r1) ℝ}
    {W : Matrix (Fin n2) (Fin r2) ℝ} {c : T3 r0 r1 r2 ℝ} (hU : U.transpose * U = 1) :
    unf (tuckerTensor (1 : Matrix (Fin r0) (Fin r0) ℝ) V W c) = U.transpose * unf (tuckerTensor U V W c) := by
  rw [tuckerTensor_eq, tuckerTensor_eq, mul0_one, unf_mul0, ← Matrix.mul_assoc, hU, Matrix.one_mul]

/-- the second step after `exRow_block` -/
theorem exRow_users (st : TDState ℝ) {U V : Matrix (Fin (2 + 1)) (Fin 2) ℝ} {W : Matrix (Fin 1) (Fin 1) ℝ} {c : T3 2 2 1 ℝ}
    (h : TIStores st U V W c) (hU : U.transpose * U = 1) (hV : V.transpose * V = 1) (hW : W.transpose * W = 1)
    (hB : tuckerTensor U V W c = exRowB) :
    ∃ st' U' c', tiStep tirecVectors exRowCfg exRowAtt st [⟨2, 0, 0, 1⟩] .newUsers = .ok st' ∧
      TIStores (n0 := 2 + 1 + 1) (r0 := 2) st' U' V W c' ∧ TISame st st' ∧
      (∀ i j k, tuckerTensor U' V W c' (Fin.castAdd 1 i) j k = exRowB i j k) ∧
      ∀ i j k, tuckerTensor U' V W c' (Fin.natAdd 3 i) j k = exRowB 0 j k := by
  have ht : ∀ (k : Fin 1) (j : Fin (2 + 1)) (p : Fin 1), (fun (_ : Fin 1) (j : Fin (2 + 1)) (p : Fin 1) => exRowB 0 j p) k j p =
      ∑ l : Fin 1, deltaVal [⟨2, 0, 0, 1⟩] ([(2 : ℤ)][k]) ((j : ℕ) : ℤ) ((l : ℕ) : ℤ) *
        attVal (none : Option (Matrix (Fin 1) (Fin 1) ℝ)) l p := by
    intro k j p
    fin_cases k; fin_cases p
    fin_cases j <;> simp [attVal, deltaVal, exRowB]
  have hrank : (hblock (unf (tuckerTensor (1 : Matrix (Fin 2) (Fin 2) ℝ) V W c)).transpose
      (unf fun (_ : Fin 1) (j : Fin (2 + 1)) (p : Fin 1) => exRowB 0 j p).transpose).rank ≤ 2 := by
    have e1 : (unf exRowB).transpose = (!![1, 0; 0, 0; 0, 1] : Matrix (Fin (1 * (2 + 1))) (Fin 2) ℝ) *
        (!![1, 1, 0; 0, 0, 1] : Matrix (Fin 2) (Fin (2 + 1)) ℝ) := by
      ext i j
      fin_cases i <;> fin_cases j <;>
        simp [unf, exRowB, finProdFinEquiv, Fin.divNat, Fin.modNat, Matrix.mul_apply, Fin.sum_univ_two]
    have e2 : (unf fun (_ : Fin 1) (j : Fin (2 + 1)) (p : Fin 1) => exRowB 0 j p).transpose =
        (!![1, 0; 0, 0; 0, 1] : Matrix (Fin (1 * (2 + 1))) (Fin 2) ℝ) * (!![1; 0] : Matrix (Fin 2) (Fin 1) ℝ) := by
      ext i j
      fin_cases i <;> fin_cases j <;>
        simp [unf, exRowB, finProdFinEquiv, Fin.divNat, Fin.modNat, Matrix.mul_apply, Fin.sum_univ_two]
    rw [unf_one_left hU, hB, Matrix.transpose_mul, Matrix.transpose_transpose, e1, e2, Matrix.mul_assoc, ← mul_hblock]
    exact (Matrix.rank_mul_le_left _ _).trans (Matrix.rank_le_width _)
  obtain ⟨st', U', c', e, h1, h2, hex⟩ := C36_user_rows (cfg := exRowCfg) (m := exRowAtt) none rfl qrAlways_real h
    (exRow_dims.mono 1 1) Nat.two_pos [⟨2, 0, 0, 1⟩]
    (fun r hr => by
      rw [List.mem_singleton] at hr
      subst hr
      exact ⟨le_refl 0, by decide⟩)
    (fun r hr => by
      rw [List.mem_singleton] at hr
      subst hr
      exact ⟨le_refl 0, Int.one_pos⟩) [2] ⟨by simp, by simp⟩ (by decide) _ ht
  obtain ⟨h3, h4⟩ := hex laOk_real ⟨fun _ => eyeRng_captures_power _ 2 1 2 (by decide), fun _ _ _ _ =>
    eyeRng_captures_power _ 2 1 2 (by decide)⟩ hrank hV hW
  refine ⟨st', U', c', e, h1, h2, fun i j k => ?_, fun i j k => ?_⟩
  · exact (h3 i j k).trans (congrFun (congrFun (congrFun hB i) j) k)
  · refine (h4 i j k).trans ?_
    have k1 := tuckerTensor_eq (1 : Matrix (Fin 1) (Fin 1) ℝ) (V * V.transpose) (W * W.transpose)
      (fun (_ : Fin 1) (j : Fin (2 + 1)) (p : Fin 1) => exRowB 0 j p)
    rw [mul0_one] at k1
    have k2 := mul1_proj (U := U) (c := c) hV hW
    rw [hB] at k2
    exact (congrFun (congrFun (congrFun k1 i) j) k).trans (congrFun (congrFun (congrFun k2 0) j) k)

/-- the object after the preprocessing of the chunk -/
noncomputable def exRowState1 (maps : Mappings) (h : SeqHist) : TDState ℝ := { exRowState with maps := maps, seqHist := h }

theorem exRow_finish {rounds : TIRounds ℝ} {data : List (Row ℝ)} {p : TIPrep ℝ}
    (hp : tiPreprocess exRowState.maps 1 data true = .ok p) {δ : List DRow}
    (hδ : (tiTrainTensor exRowState.seqHist 1 p.chunk).1 = δ) {l : TIRound ℝ}
    (hl : rounds exRowCfg exRowAtt (exRowState1 p.maps (tiTrainTensor exRowState.seqHist 1 p.chunk).2) p.newUsers p.newItems δ =
      .ok l) {n0 n1 r0 r1 r2 : ℕ} {U : Matrix (Fin n0) (Fin r0) ℝ} {V : Matrix (Fin n1) (Fin r1) ℝ}
    {W : Matrix (Fin 1) (Fin r2) ℝ} {c : T3 r0 r1 r2 ℝ} (h : TIStores l.st U V W c) (hm : l.st.maps = p.maps) :
    ∃ st', tiUpdate rounds exRowCfg exRowAtt exRowState data true = .ok st' ∧ TIStores st' U V W c ∧ st'.maps = p.maps := by
  obtain ⟨aw, lw, v, k1, k2, k3⟩ := tiFinish (L := 1) (le_refl 1) (m := exRowAtt) ⟨rfl, rfl, rfl, rfl⟩ l.st.w W h.w
  refine ⟨{ l.st with history := tiUpdateHistory l.st.history p.chunk, aw := aw, lastPos := ⟨_, v⟩ }, ?_, ⟨h.u, h.v, h.w, h.core⟩, hm⟩
  unfold tiUpdate tiUpdateLog
  rw [show exRowCfg.td.seqLen = 1 from rfl, hp, except_bind_ok]
  dsimp only
  rw [hδ]
  unfold exRowState1 at hl
  rw [hl, except_bind_ok, k1, except_bind_ok, k2, except_bind_ok, k3]
  rfl

theorem exRow_maps {data : List (Row ℝ)} (hne : data ≠ []) {p : TIPrep ℝ}
    (hp : tiPreprocess exRowState.maps 1 data true = .ok p) {cr : List (PRow ℝ)}
    (hcr : getDfWithCroppedPos data 1 true = .ok cr) :
    Represents p.maps.user ([7, 8] ++ pdUnique ((cr.map fun r => r.row.user).filter fun x => decide (x ∉ [7, 8]))) ∧
      Represents p.maps.item ([40, 50] ++ pdUnique ((cr.map fun r => r.row.item).filter fun x => decide (x ∉ [40, 50]))) := by
  obtain ⟨p', cr', nus, nis, h⟩ := tiPreprocess_ok exRow_inv.user exRow_inv.item 1 (le_refl 1) data hne true
  obtain rfl := Except.ok.inj (h.prep.symm.trans hp)
  obtain rfl := Except.ok.inj (h.crop.symm.trans hcr)
  rw [(firstAppearance_pdUnique _).unique h.firstUsers, (firstAppearance_pdUnique _).unique h.firstItems]
  exact ⟨h.user, h.item⟩

/-- **C36 is violated in the predictions** (TIRec). The factors of the state reproduce the windows exactly. The chunk
brings user 5 (id 2), who viewed item 40 (id 0), and user 9 (id 3), who viewed the new item 70 (id 2). After the update
the model predicts item 70 for user 5 and item 40 for user 9. -/
theorem C36_predictions_swapped :
    ∃ st' U V W c, tiUpdate tirecRounds exRowCfg exRowAtt exRowState exRowNew true = .ok st' ∧
      Represents st'.maps.user [7, 8, 5, 9] ∧ Represents st'.maps.item [40, 50, 70] ∧
      TIStores (n0 := 4) (n1 := 3) (n2 := 1) (r0 := 2) (r1 := 2) (r2 := 1) st' U V W c ∧
      tuckerTensor U V W c 2 0 0 = 0 ∧ tuckerTensor U V W c 2 2 0 = 1 ∧
      tuckerTensor U V W c 3 0 0 = 1 ∧ tuckerTensor U V W c 3 2 0 = 0 := by
  obtain ⟨mp, hp⟩ : ∃ mp, tiPreprocess exRowState.maps 1 exRowNew true = .ok
      ⟨[⟨⟨2, 0, 1, 4, 0⟩, 0⟩, ⟨⟨3, 2, 1, 3, 0⟩, 0⟩], [2, 3], [2], mp⟩ := ⟨_, rfl⟩
  have hδ : (tiTrainTensor (K := ℝ) exRowState.seqHist 1 [⟨⟨2, 0, 1, 4, 0⟩, 0⟩, ⟨⟨3, 2, 1, 3, 0⟩, 0⟩]).1 =
      [⟨2, 0, 0, 1⟩, ⟨3, 2, 0, 1⟩] := by
    show calculateDelta (updateUserSeqHistory [⟨2, 0, 0⟩, ⟨3, 2, 0⟩] (updateUserSeqHistory exRowPast [] 1) 1)
      (snapshot (updateUserSeqHistory exRowPast [] 1)) = _
    decide +kernel
  set st1 := exRowState1 mp (tiTrainTensor (K := ℝ) exRowState.seqHist 1 [⟨⟨2, 0, 1, 4, 0⟩, 0⟩, ⟨⟨3, 2, 1, 3, 0⟩, 0⟩]).2
  obtain ⟨s1, U1, V1, W1, c1, e1, g1, q1, o1, o2, o3, hB⟩ := exRow_block tirecVectors st1 ⟨rfl, rfl, rfl, rfl⟩ 3
  obtain ⟨s2, U2, c2, e2, g2, q2, k1, k2⟩ := exRow_users s1 g1 o1 o2 o3 hB
  have hrun : tirecRounds exRowCfg exRowAtt st1 [2, 3] [2] [⟨2, 0, 0, 1⟩, ⟨3, 2, 0, 1⟩] =
      .ok ⟨s2, [], [], [], [(.new, [⟨3, 2, 0, 1⟩]), (.newUsers, [⟨2, 0, 0, 1⟩]), (.newItems, []), (.old, [])]⟩ := by
    rw [tirecRounds_eq _ _ _ _ _ _ (by simp) (by decide) (by decide)]
    rw [show tiPart [2, 3] [2] [⟨2, 0, 0, 1⟩, ⟨3, 2, 0, 1⟩] .new = [⟨3, 2, 0, 1⟩] by decide +kernel,
      show tiPart [2, 3] [2] [⟨2, 0, 0, 1⟩, ⟨3, 2, 0, 1⟩] .newUsers = [⟨2, 0, 0, 1⟩] by decide +kernel,
      show tiPart [2, 3] [2] [⟨2, 0, 0, 1⟩, ⟨3, 2, 0, 1⟩] .newItems = [] by decide +kernel,
      show tiPart [2, 3] [2] [⟨2, 0, 0, 1⟩, ⟨3, 2, 0, 1⟩] .old = [] by decide +kernel]
    unfold tiUpdateFactors
    rw [if_pos (by decide), e1, except_bind_ok, if_pos (by decide), e2, except_bind_ok, if_neg (by decide), except_bind_ok,
      if_neg (by decide), except_bind_ok]
    rfl
  obtain ⟨st', e, g, hm⟩ := exRow_finish hp hδ hrun g2 ((q2.maps).trans q1.maps)
  refine ⟨st', U2, V1, W1, c2, e, ?_, ?_, g, ?_, ?_, ?_, ?_⟩
  · rw [hm]
    exact (exRow_maps (data := exRowNew) (by simp [exRowNew]) hp rfl).1
  · rw [hm]
    exact (exRow_maps (data := exRowNew) (by simp [exRowNew]) hp rfl).2
  · exact (k1 2 0 0).trans (by simp [exRowB])
  · exact (k1 2 2 0).trans (by simp [exRowB])
  · exact (k2 0 0 0).trans (by simp [exRowB])
  · exact (k2 0 2 0).trans (by simp [exRowB])

/-- the block entry a second time -/
noncomputable def exRowA1 : T3 (2 + 1) (2 + 1) 1 ℝ :=
  fun i j _ => if i = 2 then if j = 2 then 2 else 0 else if j = 0 then 1 else 0

theorem exRowA1_unf : unf exRowA1 = (!![1, 0, 0; 1, 0, 0; 0, 0, 2] : Matrix (Fin (2 + 1)) (Fin (1 * (2 + 1))) ℝ) := by
  ext i j
  fin_cases i <;> fin_cases j <;> simp [unf, exRowA1, finProdFinEquiv, Fin.divNat, Fin.modNat]

theorem exRowB_unf : unf exRowB = (!![1, 0, 0; 1, 0, 0; 0, 0, 1] : Matrix (Fin (2 + 1)) (Fin (1 * (2 + 1))) ℝ) := by
  ext i j
  fin_cases i <;> fin_cases j <;> simp [unf, exRowB, finProdFinEquiv, Fin.divNat, Fin.modNat]

theorem exRowA1_unf1 :
    unf (front1 exRowA1) = (!![1, 1, 0; 0, 0, 0; 0, 0, 2] : Matrix (Fin (2 + 1)) (Fin (1 * (2 + 1))) ℝ) := by
  ext i j
  fin_cases i <;> fin_cases j <;> simp [unf, front1, exRowA1, finProdFinEquiv, Fin.divNat, Fin.modNat]

theorem exRowB_unf1 :
    unf (front1 exRowB) = (!![1, 1, 0; 0, 0, 0; 0, 0, 1] : Matrix (Fin (2 + 1)) (Fin (1 * (2 + 1))) ℝ) := by
  ext i j
  fin_cases i <;> fin_cases j <;> simp [unf, front1, exRowB, finProdFinEquiv, Fin.divNat, Fin.modNat]

theorem exRowAB_unf2 : unf (front2 exRowA1) * (unf (front2 exRowB)).transpose = (4 : ℝ) • (1 : Matrix (Fin 1) (Fin 1) ℝ) := by
  ext i j
  fin_cases i; fin_cases j
  simp only [Matrix.mul_apply, sum_finProd]
  simp [Fin.sum_univ_succ, unf, front2, exRowB, exRowA1]
  norm_num

theorem exRow_mode0 : (!![1, 0, 0; 1, 0, 0; 0, 0, 2] : Matrix (Fin 3) (Fin 3) ℝ) =
    !![1, 0, 0; 1, 0, 0; 0, 0, 2] * (!![1, 0, 0; 1, 0, 0; 0, 0, 1] : Matrix (Fin 3) (Fin 3) ℝ).transpose *
      !![1, 0, 0; 0, 0, 0; 0, 0, 1] := by
  ext i j
  simp only [Matrix.mul_apply, Fin.sum_univ_three]
  fin_cases i <;> fin_cases j <;> simp

theorem exRow_mode1 : (!![1, 1, 0; 0, 0, 0; 0, 0, 2] : Matrix (Fin 3) (Fin 3) ℝ) =
    !![1, 1, 0; 0, 0, 0; 0, 0, 2] * (!![1, 1, 0; 0, 0, 0; 0, 0, 1] : Matrix (Fin 3) (Fin 3) ℝ).transpose *
      !![1/2, 1/2, 0; 0, 0, 0; 0, 0, 1] := by
  ext i j
  simp only [Matrix.mul_apply, Fin.sum_univ_three]
  fin_cases i <;> fin_cases j <;> simp <;> norm_num

theorem exRow_old (st : TDState ℝ) {U V : Matrix (Fin (2 + 1)) (Fin 2) ℝ} {W : Matrix (Fin 1) (Fin 1) ℝ} {c : T3 2 2 1 ℝ}
    (h : TIStores st U V W c) (hU : U.transpose * U = 1) (hV : V.transpose * V = 1) (hW : W.transpose * W = 1)
    (hB : tuckerTensor U V W c = exRowB) :
    ∃ st' U' V' W' c', tiStep tirecaVectors exRowCfg exRowAtt st [⟨2, 2, 0, 1⟩] .old = .ok st' ∧
      TIStores (n0 := 2 + 1) (n1 := 2 + 1) (n2 := 1) (r0 := 2) (r1 := 2) (r2 := 1) st' U' V' W' c' ∧ TISame st st' ∧
      tuckerTensor U' V' W' c' = exRowA1 := by
  have hrow : ∀ r ∈ [(⟨2, 2, 0, 1⟩ : DRow)], r = ⟨2, 2, 0, 1⟩ := fun r hr => List.mem_singleton.1 hr
  obtain ⟨es, hes⟩ := delta_typed (K := ℝ) [⟨2, 2, 0, 1⟩] (2 + 1) (2 + 1) 1
    (fun r hr => by rw [hrow r hr]; decide) (fun r hr => by rw [hrow r hr]; decide) (fun r hr => by rw [hrow r hr]; decide)
  have hlen : es.length = 1 := by
    have := congrArg List.length hes.inds
    simpa [dInds, indsOf] using this.symm
  have hA1 : ∀ i j k, exRowA1 i j k = tuckerTensor U V W c i j k +
      ∑ l, attVal (none : Option (Matrix (Fin 1) (Fin 1) ℝ)) l k * cooTensor es i j l := by
    intro i j k
    rw [hB]
    simp only [hes.coo]
    fin_cases i <;> fin_cases j <;> fin_cases k <;> simp [exRowA1, exRowB, attVal, deltaVal]
    norm_num
  have p0 : unf exRowB = U * U.transpose * unf exRowB := by
    rw [← hB, tuckerTensor_eq, unf_mul0, ← Matrix.mul_assoc, Matrix.mul_assoc U, hU, Matrix.mul_one]
  have b1 : front1 (tuckerTensor U V W c) = mul0 V (front1 (tuckerTensor U (1 : Matrix (Fin 2) (Fin 2) ℝ) W c)) := by
    rw [tuckerTensor_eq, tuckerTensor_eq, mul1_one, mul01_comm]
    rfl
  have b2 : front2 (tuckerTensor U V W c) = mul0 W (front2 (tuckerTensor U V (1 : Matrix (Fin 1) (Fin 1) ℝ) c)) := by
    rw [tuckerTensor_eq, tuckerTensor_eq, mul2_one, mul12_comm, mul02_comm]
    rfl
  have x0 : unf (tuckerTensor (1 : Matrix (Fin 2) (Fin 2) ℝ) V W c) = U.transpose * unf exRowB := by
    rw [← hB]; exact unf_one_left hU
  have x1 : unf (front1 (tuckerTensor U (1 : Matrix (Fin 2) (Fin 2) ℝ) W c)) = V.transpose * unf (front1 exRowB) := by
    rw [← hB, b1, unf_mul0, ← Matrix.mul_assoc, hV, Matrix.one_mul]
  have x2 : unf (front2 (tuckerTensor U V (1 : Matrix (Fin 1) (Fin 1) ℝ) c)) = W.transpose * unf (front2 exRowB) := by
    rw [← hB, b2, unf_mul0, ← Matrix.mul_assoc, hW, Matrix.one_mul]
  have p1 : unf (front1 exRowB) = V * V.transpose * unf (front1 exRowB) := by
    rw [← hB, b1, unf_mul0, ← Matrix.mul_assoc, Matrix.mul_assoc V, hV, Matrix.mul_one]
  have p2 : unf (front2 exRowB) = W * W.transpose * unf (front2 exRowB) := by
    rw [← hB, b2, unf_mul0, ← Matrix.mul_assoc, Matrix.mul_assoc W, hW, Matrix.mul_one]
  have gen : ∀ {a b r d : ℕ} {A : Matrix (Fin a) (Fin b) ℝ} {B : Matrix (Fin d) (Fin b) ℝ} {Q : Matrix (Fin d) (Fin r) ℝ}
      {X : Matrix (Fin d) (Fin b) ℝ}, B = Q * Q.transpose * B → A = A * B.transpose * X →
      A = A * (Q.transpose * B).transpose * (Q.transpose * X) := by
    intro a b r d A B Q X hQ hX
    have hQ' : B.transpose = B.transpose * Q * Q.transpose := by
      conv_lhs => rw [hQ]
      rw [Matrix.transpose_mul, Matrix.transpose_mul, Matrix.transpose_transpose, Matrix.mul_assoc]
    conv_lhs => rw [hX, hQ']
    rw [Matrix.transpose_mul, Matrix.transpose_transpose]
    simp only [Matrix.mul_assoc]
  obtain ⟨U', V', W', c', e, hex⟩ := C86_exact_partial realLA qrAlways_real es (hes.ne (by simp)) (Or.inl (by omega))
    (none : Option (Matrix (Fin 1) (Fin 1) ℝ)) (exRow_dims.mono 1 1) U V W hV hW (by simp [attVal]) c false exRowA1 hA1
    (U.transpose * (!![1, 0, 0; 0, 0, 0; 0, 0, 1] : Matrix (Fin (2 + 1)) (Fin (1 * (2 + 1))) ℝ))
    (by
      rw [x0]
      refine gen p0 ?_
      rw [exRowA1_unf, exRowB_unf]
      exact exRow_mode0)
    (V.transpose * (!![1/2, 1/2, 0; 0, 0, 0; 0, 0, 1] : Matrix (Fin (2 + 1)) (Fin (1 * (2 + 1))) ℝ))
    (by
      rw [x1]
      refine gen p1 ?_
      rw [exRowA1_unf1, exRowB_unf1]
      exact exRow_mode1)
    (W.transpose * ((1 / 4 : ℝ) • unf (front2 exRowA1)))
    (by
      rw [x2]
      refine gen p2 ?_
      rw [exRowAB_unf2, Matrix.smul_mul, Matrix.one_mul, smul_smul, show (4 : ℝ) * (1 / 4) = 1 by norm_num, one_smul])
  refine ⟨_, U', V', W', c', ?_, setFac_shape st U' V' W' c', setFac_same _ _, hex⟩
  simp only [tiStep, tiOld]
  rw [(tiCore_stores h).1, except_bind_ok, (tiCore_stores h).2, hes.inds, hes.vals, h.u, h.v]
  exact congrArg (fun x => x >>= fun r => pure (st.setFac r)) e

/-- **C37 is violated in the predictions** (TIRecA, default configuration). The factors of the state reproduce the
windows exactly; user 9 (id 2) views the new item 70 (id 2). The entry is applied by the block step and again by the
integrator: the model predicts 2 where the window has a 1, and all other predictions are right. -/
theorem C37_violated :
    ∃ st' U V W c, tiUpdate tirecaMiddle exRowCfg exRowAtt exRowState exRowBoth true = .ok st' ∧
      Represents st'.maps.user [7, 8, 9] ∧ Represents st'.maps.item [40, 50, 70] ∧
      TIStores (n0 := 3) (n1 := 3) (n2 := 1) (r0 := 2) (r1 := 2) (r2 := 1) st' U V W c ∧
      histCell 1 (exRowPast ++ [⟨2, 2, 0⟩]) 2 2 0 = 1 ∧ tuckerTensor U V W c 2 2 0 = 2 ∧
      ∀ i j : Fin 3, ¬ (i = 2 ∧ j = 2) →
        tuckerTensor U V W c i j 0 = histCell 1 (exRowPast ++ [⟨2, 2, 0⟩]) (i : ℕ) (j : ℕ) 0 := by
  obtain ⟨mp, hp⟩ : ∃ mp, tiPreprocess exRowState.maps 1 exRowBoth true = .ok
      ⟨[⟨⟨2, 2, 1, 3, 0⟩, 0⟩], [2], [2], mp⟩ := ⟨_, rfl⟩
  have hδ : (tiTrainTensor (K := ℝ) exRowState.seqHist 1 [⟨⟨2, 2, 1, 3, 0⟩, 0⟩]).1 = [⟨2, 2, 0, 1⟩] := by
    show calculateDelta (updateUserSeqHistory [⟨2, 2, 0⟩] (updateUserSeqHistory exRowPast [] 1) 1)
      (snapshot (updateUserSeqHistory exRowPast [] 1)) = _
    decide +kernel
  set st1 := exRowState1 mp (tiTrainTensor (K := ℝ) exRowState.seqHist 1 [⟨⟨2, 2, 1, 3, 0⟩, 0⟩]).2
  obtain ⟨s1, U1, V1, W1, c1, e1, g1, q1, o1, o2, o3, hB⟩ := exRow_block tirecaVectors st1 ⟨rfl, rfl, rfl, rfl⟩ 2
  obtain ⟨s2, U2, V2, W2, c2, e2, g2, q2, hA⟩ := exRow_old s1 g1 o1 o2 o3 hB
  have hrun : tirecaRounds exRowCfg exRowAtt st1 [2] [2] [⟨2, 2, 0, 1⟩] =
      .ok ⟨s2, [], [], [], [(.new, [⟨2, 2, 0, 1⟩]), (.newUsers, []), (.newItems, []), (.old, [⟨2, 2, 0, 1⟩])]⟩ := by
    rw [tirecaRounds_eq _ _ _ _ _ _ (by simp) (by decide) (by decide)]
    rw [show tiPart [2] [2] [⟨2, 2, 0, 1⟩] .new = [⟨2, 2, 0, 1⟩] by decide +kernel,
      show tiPart [2] [2] [⟨2, 2, 0, 1⟩] .newUsers = [] by decide +kernel,
      show tiPart [2] [2] [⟨2, 2, 0, 1⟩] .newItems = [] by decide +kernel]
    unfold tiUpdateFactors
    rw [if_pos (by decide), e1, except_bind_ok, if_neg (by decide), except_bind_ok, if_neg (by decide), except_bind_ok,
      if_pos (by decide), e2, except_bind_ok]
    rfl
  obtain ⟨st', e, g, hm⟩ := exRow_finish (rounds := tirecaMiddle) hp hδ hrun g2 ((q2.maps).trans q1.maps)
  refine ⟨st', U2, V2, W2, c2, e, ?_, ?_, g, by decide, ?_, ?_⟩
  · rw [hm]
    exact (exRow_maps (data := exRowBoth) (by simp [exRowBoth]) hp rfl).1
  · rw [hm]
    exact (exRow_maps (data := exRowBoth) (by simp [exRowBoth]) hp rfl).2
  · exact (congrFun (congrFun (congrFun hA 2) 2) 0).trans (by simp [exRowA1])
  · intro i j hij
    refine (congrFun (congrFun (congrFun hA i) j) 0).trans ?_
    have hc : ∀ i j : Fin 3, ¬ (i = 2 ∧ j = 2) → histCell 1 (exRowPast ++ [⟨2, 2, 0⟩]) (i : ℕ) (j : ℕ) 0 =
        if i = 2 then 0 else if j = 0 then 1 else 0 := by decide
    rw [hc i j hij]
    fin_cases i <;> fin_cases j <;> simp_all [exRowA1]

/-- C45 and C46 for TIRecA: one user more, with a zero or a random row; the prediction of item 0 for user 1 stays 1 -/
example : (∃ U' : Matrix (Fin (2 + 1)) (Fin 2) ℝ, TIStores (tiZeroUsers 1 exRowState) U' (1 : Matrix (Fin 2) (Fin 2) ℝ)
      (1 : Matrix (Fin 1) (Fin 1) ℝ) exRowTensor ∧
      tuckerTensor U' (1 : Matrix (Fin 2) (Fin 2) ℝ) (1 : Matrix (Fin 1) (Fin 1) ℝ) exRowTensor 1 0 0 = 1 ∧
      tuckerTensor U' (1 : Matrix (Fin 2) (Fin 2) ℝ) (1 : Matrix (Fin 1) (Fin 1) ℝ) exRowTensor 2 0 0 = 0) ∧
    ∃ (U' : Matrix (Fin (2 + 1)) (Fin 2) ℝ) (c' : T3 2 2 1 ℝ) (st' : TDState ℝ), tiRandomUsers exRowCfg 1 exRowState = .ok st' ∧
      TIStores st' U' (1 : Matrix (Fin 2) (Fin 2) ℝ) (1 : Matrix (Fin 1) (Fin 1) ℝ) c' ∧
      tuckerTensor U' (1 : Matrix (Fin 2) (Fin 2) ℝ) (1 : Matrix (Fin 1) (Fin 1) ℝ) c' 1 0 0 = 1 := by
  have h : TIStores exRowState (1 : Matrix (Fin 2) (Fin 2) ℝ) (1 : Matrix (Fin 2) (Fin 2) ℝ)
    (1 : Matrix (Fin 1) (Fin 1) ℝ) exRowTensor := ⟨rfl, rfl, rfl, rfl⟩
  have ht : tuckerTensor (1 : Matrix (Fin 2) (Fin 2) ℝ) (1 : Matrix (Fin 2) (Fin 2) ℝ) (1 : Matrix (Fin 1) (Fin 1) ℝ)
      exRowTensor 1 0 0 = 1 := by
    rw [tuckerTensor_eq, mul2_one, mul1_one, mul0_one]
    simp [exRowTensor]
  constructor
  · obtain ⟨U', h1, h2, h3⟩ := C45_tireca_users h 1
    exact ⟨U', h1, (h2 1 0 0).trans ht, h3 0 0 0⟩
  · obtain ⟨U', c', st', h1, h2, _, h3, _⟩ := C46_tireca_users exRowCfg qrAlways_real h 1 (by omega)
    exact ⟨U', c', st', h1, h2, (h3 1 0 0).trans ht⟩

end examples
end DynCF
