/-
C178: the two schemes of `TIRecA` with zero embeddings do the same on chunks in which no new user views a new item, and the
error of the default scheme over such chunks.
-/
import Verif.Props.TuckerGrow

set_option linter.unusedSectionVars false

namespace DynCF
open Matrix

/-! ### Specification -/

/-- Every new user (none of the rows seen) views, among the last `L` items of every chunk, only items that are in `items` or
among the last `L` items of some user at that time. -/
def NewUsersOldItems {K : Type} [LinearOrder K] (L : ℕ) (items : List ℤ) (rows : List (Row K)) (chunks : List (List (Row K)))
    (b : Bool) : Prop :=
  ∀ (t : ℕ) (c : List (Row K)), chunks[t]? = some c → ∀ u,
    (∀ r ∈ rows ++ ((chunks.take t).map (inTime b)).flatten, r.user ≠ u) → ∀ x ∈ lastItems L (inTime b c) u,
      x ∈ items ∨ ∃ v, x ∈ lastItems L (rows ++ ((chunks.take t).map (inTime b)).flatten) v

section
variable {K : Type} [Field K] [LinearOrder K] [IsStrictOrderedRing K]
variable {c : TICfg K} {m : TDAtt K} {st : TDState K}

/-! ### The two schemes -/

theorem zeroPadRows_zero (a : Mat K) : zeroPadRows a 0 = a := by
  obtain ⟨n, k, M⟩ := a
  unfold zeroPadRows
  congr 1
  funext i j
  exact Fin.addCases_left (m := n) (n := 0) (motive := fun _ => K) (left := fun i => M i j) (right := fun _ => 0) i

theorem integrator_zero (hz : c.init = .zero) {δ : List DRow} (hne : δ ≠ []) (nu ni : List ℤ) :
    tirecaIntegrator c m st nu ni δ = (do
      let s ← tiOld c m (tiZeroItems ni.length (tiZeroUsers nu.length st)) δ
      pure ⟨s, [], nu, ni, [(.old, δ)]⟩) := by
  have hlen : δ.length > 0 := List.length_pos_iff.2 hne
  unfold tirecaIntegrator tiConcat tiEmbUsers tiEmbItems tiUpdateFactors
  rw [if_neg (by simpa using hne), except_bind_ok, hz]
  dsimp only
  rw [except_bind_ok, except_bind_ok, if_pos hlen]
  rfl

theorem rounds_zero (hL : 1 ≤ c.td.seqLen) (hm : tdInit c.td = .ok m) (hz : c.init = .zero)
    {U0 a I0 b r0 r1 r2 : ℕ} {nu ni : List ℤ} {δ : List DRow} (hδ : DeltaOk U0 a I0 b c.td.seqLen nu ni δ) (hne : δ ≠ [])
    (hp : tiPart nu ni δ .new = []) (hsh : TIShape st U0 I0 c.td.seqLen r0 r1 r2) :
    tirecaRounds c m st nu ni δ = (do
      let s ← tiOld c m (tiZeroItems ni.length (tiZeroUsers nu.length st)) δ
      pure ⟨s, [], [], [], [(.new, []), (.newUsers, tiPart nu ni δ .newUsers), (.newItems, tiPart nu ni δ .newItems),
        (.old, δ)]⟩) := by
  obtain ⟨att, hatt⟩ := tiAttArg_typed hL hm
  obtain ⟨U, V, W, g, hst⟩ := hsh
  have hlen : δ.length > 0 := List.length_pos_iff.2 hne
  have cu : partUsers nu ni δ .newUsers = nu.length := by
    have := hδ.countUsers
    rw [show partUsers nu ni δ .new = 0 by unfold partUsers; rw [hp]; rfl, Nat.zero_add] at this
    rw [this, hδ.newUsers, idRange_length]
  have ci : partItems nu ni δ .newItems = ni.length := by
    have := hδ.countItems
    rw [show partItems nu ni δ .new = 0 by unfold partItems; rw [hp]; rfl, Nat.zero_add] at this
    rw [this, hδ.newItems, idRange_length]
  have e1 : tiUpdateFactors tirecaVectors c m st (tiPart nu ni δ .newUsers) .newUsers =
      .ok (tiZeroUsers nu.length st) := by
    unfold tiUpdateFactors
    split
    · unfold tiStep
      dsimp only
      rw [tiDataUsers_eq c m st att hatt (n1 := I0) (by rw [hst.v]) _ (fun r hr => by
        obtain ⟨h1, h2⟩ := mem_tiPart.1 hr
        exact hδ.oldItem h1 (h2.2 r h1 rfl)) (fun r hr => hδ.pos r (mem_tiPart.1 hr).1), except_bind_ok]
      unfold tirecaVectors tiEmbUsers
      rw [if_pos rfl, hz, ← cu]
      rfl
    · rename_i h0
      have h0 : tiPart nu ni δ .newUsers = [] := List.length_eq_zero_iff.1 (by omega)
      rw [← cu, show partUsers nu ni δ .newUsers = 0 by unfold partUsers; rw [h0]; rfl]
      unfold tiZeroUsers
      rw [zeroPadRows_zero]
  have e2 : tiUpdateFactors tirecaVectors c m (tiZeroUsers nu.length st) (tiPart nu ni δ .newItems) .newItems =
      .ok (tiZeroItems ni.length (tiZeroUsers nu.length st)) := by
    unfold tiUpdateFactors
    split
    · unfold tiStep
      dsimp only
      rw [tiDataItems_eq c m _ att hatt (n0 := U0 + nu.length) (by
        show st.u.rows + nu.length = _
        rw [hst.u]) _ (fun r hr => by
        obtain ⟨h1, h2⟩ := mem_tiPart.1 hr
        have := hδ.oldUser h1 (h2.2 r h1 rfl)
        push_cast
        omega) (fun r hr => hδ.pos r (mem_tiPart.1 hr).1), except_bind_ok]
      unfold tirecaVectors tiEmbItems
      rw [if_neg (by decide), hz, ← ci]
      rfl
    · rename_i h0
      have h0 : tiPart nu ni δ .newItems = [] := List.length_eq_zero_iff.1 (by omega)
      rw [← ci, show partItems nu ni δ .newItems = 0 by unfold partItems; rw [h0]; rfl]
      unfold tiZeroItems
      rw [zeroPadRows_zero]
  rw [tirecaRounds_eq c m st nu ni δ hne hδ.usersOccur hδ.itemsOccur, hp,
    show tiUpdateFactors tirecaVectors c m st [] .new = .ok st from rfl, except_bind_ok, e1, except_bind_ok, e2,
    except_bind_ok]
  unfold tiUpdateFactors
  rw [if_pos hlen]
  rfl

/-! ### Chunks without new users of new items -/

theorem rowsOf_crop {L : ℕ} (hL : 1 ≤ L) {data : List (Row K)} {b : Bool} {cr : List (PRow K)}
    (hne : data ≠ []) (hcr : getDfWithCroppedPos data L b = .ok cr) (u : ℤ) :
    rowsOf u (cr.map PRow.row) = lastN L (rowsOf u (inTime b data)) := by
  rw [getDfWithCroppedPos_eq data L b hL hne] at hcr
  obtain rfl := Except.ok.inj hcr
  have h1 := cropSpec_user L data b u
  have h2 : rowsOf u ((cropSpec L data b).map PRow.row) =
      ((cropSpec L data b).filter fun r => decide (r.row.user = u)).map PRow.row := by
    unfold rowsOf
    rw [List.filter_map]
    rfl
  rw [h2, h1, posed_rows]
  congr 1
  unfold inTime
  cases b with
  | false => rfl
  | true =>
    simp only [if_true]
    unfold rowsOf tsSort
    exact (filter_stableSort ts_trans ts_total _ _).symm

/-- a row that is kept is among the last items of its user -/
theorem crop_item {L : ℕ} (hL : 1 ≤ L) {data : List (Row K)} {b : Bool} {cr : List (PRow K)}
    (hne : data ≠ []) (hcr : getDfWithCroppedPos data L b = .ok cr) {q : PRow K} (hq : q ∈ cr) :
    q.row.item ∈ lastItems L (inTime b data) q.row.user := by
  have h1 : q.row ∈ rowsOf q.row.user (cr.map PRow.row) :=
    List.mem_filter.2 ⟨List.mem_map_of_mem hq, by simp⟩
  rw [rowsOf_crop hL hne hcr] at h1
  unfold lastItems
  have h2 := List.mem_map_of_mem (f := Row.item) h1
  unfold lastN at h2 ⊢
  rw [List.map_drop] at h2
  rw [List.length_map]
  exact h2

variable {users items : List ℤ} {rows : List (Row K)}

/-- No entry of the delta belongs to a new user and a new item. -/
theorem no_new_part (hL : 1 ≤ c.td.seqLen) {ext : List (PRow K)} {past : List Inter}
    (hi : TIInv c m st users items ext past) {data : List (Row K)} (hne : data ≠ []) {b : Bool}
    {p : TIPrep K} {cr : List (PRow K)} {nus nis : List ℤ}
    (hp : PrepOk st.maps c.td.seqLen data b users items p cr nus nis)
    (hold : ∀ u, u ∉ users → ∀ x ∈ lastItems c.td.seqLen (inTime b data) u, x ∈ items) :
    tiPart p.newUsers p.newItems (tiTrainTensor st.seqHist c.td.seqLen p.chunk).1 .new = [] := by
  rw [List.eq_nil_iff_forall_not_mem]
  intro r hr
  obtain ⟨h1, h2, h3⟩ := mem_tiPart.1 hr
  rw [hp.newUsers, mem_idRange] at h2
  rw [hp.newItems, mem_idRange] at h3
  obtain ⟨-, -, -, -, t, ht, k1, k2⟩ := delta_entry hi.hist h1
  rcases List.mem_append.1 ht with ht | ht
  · have := (hi.pastRange ht).1
    omega
  · obtain ⟨q', hq', rfl⟩ := List.mem_map.1 ht
    obtain ⟨q, hq, -, -, ⟨k, e1, e2⟩, l, e3, e4⟩ := forall₂_mem_right hp.mapped hq'
    have hk : users.length ≤ k := by
      have : q'.row.user = r.user := k1
      omega
    have hl : items.length ≤ l := by
      have : q'.row.item = r.item := k2
      omega
    have hun := hp.user.nodup
    have hin := hp.item.nodup
    have d1 : q.row.user ∉ users := by
      rw [List.getElem?_append_right hk] at e2
      exact fun h => (List.nodup_append.1 hun).2.2 _ h _ (List.mem_of_getElem? e2) rfl
    have d2 : q.row.item ∉ items := by
      rw [List.getElem?_append_right hl] at e4
      exact fun h => (List.nodup_append.1 hin).2.2 _ h _ (List.mem_of_getElem? e4) rfl
    exact d2 (hold _ d1 _ (crop_item hL hne hp.crop hq))

/-- **C178, the two schemes.** `TIRecA` with zero embeddings (any attention): on every chunk in which the new users have only
known items among their last `seq_len` items, the default scheme (separate steps for new users, new items and the rest) and the
integrator scheme end in the same object or in the same error. -/
theorem C178_schemes (hL : 1 ≤ c.td.seqLen) (hm : tdInit c.td = .ok m) (hz : c.init = .zero)
    (hseen : TISeen c m st users items rows) (data : List (Row K)) (b : Bool)
    (hold : ∀ u, u ∉ users → ∀ x ∈ lastItems c.td.seqLen (inTime b data) u, x ∈ items) :
    tiUpdate tirecaMiddle { c with integrator := false } m st data b =
      tiUpdate tirecaMiddle { c with integrator := true } m st data b := by
  by_cases hne : data = []
  · subst hne
    unfold tiUpdate tiUpdateLog
    rw [show tiPreprocess st.maps ({ c with integrator := false } : TICfg K).td.seqLen ([] : List (Row K)) b =
      .error .keyError from rfl]
    rfl
  · obtain ⟨ext, past, hi, ho, hl⟩ := hseen
    obtain ⟨p, cr, nus, nis, hp⟩ := tiPreprocess_ok hi.user hi.item c.td.seqLen hL data hne b
    have hδ := prep_delta hL hi.hist (fun t ht => hi.pastRange ht) hne hp
    have hpart := no_new_part hL hi hne hp hold
    unfold tiUpdate tiUpdateLog
    dsimp only
    rw [hp.prep, except_bind_ok, except_bind_ok]
    by_cases hd : (tiTrainTensor st.seqHist c.td.seqLen p.chunk).1 = []
    · have k1 : ∀ s nu ni, tirecaMiddle { c with integrator := false } m s nu ni [] = .error .valueError := fun s nu ni => rfl
      have k2 : ∀ s nu ni, tirecaMiddle { c with integrator := true } m s nu ni [] = .error .valueError := fun s nu ni => rfl
      rw [hd, k1, k2]
    · have hsh : TIShape
          ({ st with maps := p.maps, seqHist := (tiTrainTensor st.seqHist c.td.seqLen p.chunk).2 } : TDState K)
          users.length items.length c.td.seqLen c.td.hooi.rank.1 c.td.hooi.rank.2.1 c.td.hooi.rank.2.2 := by
        obtain ⟨U, V, W, g, hs⟩ := hi.shape
        exact ⟨U, V, W, g, hs.u, hs.v, hs.w, hs.core⟩
      have k1 := rounds_zero (c := { c with integrator := false }) hL hm hz hδ hd hpart hsh
      have k2 := integrator_zero (c := { c with integrator := true }) (m := m)
        (st := { st with maps := p.maps, seqHist := (tiTrainTensor st.seqHist c.td.seqLen p.chunk).2 })
        hz hd p.newUsers p.newItems
      rw [show tirecaMiddle { c with integrator := false } = tirecaRounds { c with integrator := false } from rfl,
        show tirecaMiddle { c with integrator := true } = tirecaIntegrator { c with integrator := true } from rfl, k1, k2,
        show tiOld { c with integrator := true } = tiOld { c with integrator := false } from rfl]
      simp only [bind_assoc, pure_bind]

end

section
variable {cfg : TICfg ℝ} {m : TDAtt ℝ} {st : TDState ℝ} {users items : List ℤ} {rows : List (Row ℝ)}

theorem TISeen.setIntegrator (h : TISeen cfg m st users items rows) (x : Bool) :
    TISeen { cfg with integrator := x } m st users items rows := by
  obtain ⟨ext, past, hi, ho, hl⟩ := h
  exact ⟨ext, past, ⟨hi.user, hi.item, hi.hist, hi.shape, hi.seen, hi.aw, hi.last, hi.usersOccur, hi.itemsOccur⟩, ho, hl⟩

/-- Over updates the two schemes do the same. -/
theorem C178_same (hs : TISetting cfg m) (hatt : cfg.td.attF = none ∨ cfg.light = true) (hz : cfg.init = .zero)
    (hf : cfg.Fits users items) (hseen : TISeen cfg m st users items rows)
    {S : T3 users.length items.length cfg.td.seqLen ℝ}
    (hS : HoldsTensor st cfg.td.hooi.rank.1 cfg.td.hooi.rank.2.1 cfg.td.hooi.rank.2.2 S)
    (chunks : List (List (Row ℝ))) (b : Bool) (hd : MovingChunks cfg.td.seqLen rows chunks b)
    (few : ∀ c ∈ chunks, 2 * cfg.td.seqLen * userCount c ≤ 10000)
    (hnew : NewUsersOldItems cfg.td.seqLen items rows chunks b) :
    tiUpdates tirecaMiddle { cfg with integrator := false } m st chunks b =
      tiUpdates tirecaMiddle { cfg with integrator := true } m st chunks b := by
  have ha : tiAttArg { cfg with integrator := true } m = none := by
    unfold tiAttArg
    rcases hatt with h | h <;> simp [h]
  have hs' : TISetting { cfg with integrator := true } m := ⟨hs.len, hs.att, hs.qr, hs.rank0, hs.rank1⟩
  induction chunks generalizing st rows users items S with
  | nil => rfl
  | cons c cs ih =>
    have h0 := hd 0 c rfl
    have n0 := hnew 0 c rfl
    rw [List.take_zero, List.map_nil, List.flatten_nil, List.append_nil] at h0 n0
    have e := C178_schemes hs.len hs.att hz hseen c b fun u hu x hx => by
      rcases n0 u (fun r hr h => hu ((hseen.users_iff hs.len u).2 ⟨r, hr, h⟩)) x hx with h | ⟨v, h⟩
      · exact h
      · exact hseen.items_mem h
    obtain ⟨s1, nus, nis, S', T1, a1, a2, a3, -, -⟩ := tiGrow_update hs' ha hz rfl hf (hseen.setIntegrator true) hS c b h0.1
      h0.2 (few c (List.mem_cons_self ..))
    have := ih (hf.mono nus nis) (a2.setIntegrator cfg.integrator) a3 (fun t d ht => by
      have := hd (t + 1) d ht
      rw [List.take_succ_cons, List.map_cons, List.flatten_cons, ← List.append_assoc] at this
      exact this) (fun d hd' => few d (List.mem_cons_of_mem _ hd')) (fun t d ht u hu x hx => by
      have := hnew (t + 1) d ht u
      rw [List.take_succ_cons, List.map_cons, List.flatten_cons, ← List.append_assoc] at this
      rcases this hu x hx with h | h
      · exact Or.inl (List.mem_append_left _ h)
      · exact Or.inr h)
    unfold tiUpdates at this ⊢
    rw [List.foldlM_cons, List.foldlM_cons, e, a1, except_bind_ok, except_bind_ok]
    exact this

/-- **C178.** `TIRecA` in its default scheme, with zero embeddings for new users and items and no attention in the integrator:
chunks are accepted if each moves some window, has so few users that at most 10000 entries change, and the new users of a
chunk have only known items among their last `seq_len` items (new items may be viewed by known users). The known users are
exactly those of the rows seen, all items of windows are known, and the distance between the model and the tensor of the last
`seq_len` items of every user grows by at most the square root of six times `seq_len` times the number of users of the chunk. -/
theorem C178_run (hs : TISetting cfg m) (hatt : cfg.td.attF = none ∨ cfg.light = true) (hz : cfg.init = .zero)
    (hint : cfg.integrator = false) (hf : cfg.Fits users items) (hseen : TISeen cfg m st users items rows)
    {S : T3 users.length items.length cfg.td.seqLen ℝ}
    (hS : HoldsTensor st cfg.td.hooi.rank.1 cfg.td.hooi.rank.2.1 cfg.td.hooi.rank.2.2 S)
    (chunks : List (List (Row ℝ))) (b : Bool) (hd : MovingChunks cfg.td.seqLen rows chunks b)
    (few : ∀ c ∈ chunks, 2 * cfg.td.seqLen * userCount c ≤ 10000)
    (hnew : NewUsersOldItems cfg.td.seqLen items rows chunks b) :
    ∃ st' users' items', ∃ T : T3 users'.length items'.length cfg.td.seqLen ℝ,
      tiUpdates tirecaMiddle cfg m st chunks b = .ok st' ∧ users <+: users' ∧ items <+: items' ∧
      TISeen cfg m st' users' items' (rows ++ (chunks.map (inTime b)).flatten) ∧
      (∀ x, x ∈ users' ↔ ∃ r ∈ rows ++ (chunks.map (inTime b)).flatten, r.user = x) ∧
      (∀ u, ∀ x ∈ lastItems cfg.td.seqLen (rows ++ (chunks.map (inTime b)).flatten) u, x ∈ items') ∧
      HoldsTensor st' cfg.td.hooi.rank.1 cfg.td.hooi.rank.2.1 cfg.td.hooi.rank.2.2 T ∧
      tfro (windowTensor cfg.td.seqLen users' items' (rows ++ (chunks.map (inTime b)).flatten) - T) ≤
        tfro (windowTensor cfg.td.seqLen users items rows - S) +
          (chunks.map fun c => Real.sqrt (6 * cfg.td.seqLen * userCount c)).sum := by
  have e := C178_same hs hatt hz hf hseen hS chunks b hd few hnew
  have hc : ({ cfg with integrator := false } : TICfg ℝ) = cfg := by
    cases cfg
    dsimp only at hint
    subst hint
    rfl
  rw [hc] at e
  obtain ⟨st', users', items', T, h1, h2, h3, h4, h5⟩ := C173_run (cfg := { cfg with integrator := true })
    ⟨hs.len, hs.att, hs.qr, hs.rank0, hs.rank1⟩ hatt hz rfl hf (hseen.setIntegrator true) hS chunks b hd few
  refine ⟨st', users', items', T, e.trans h1, h2, h3, ?_, h5⟩
  have := h4.setIntegrator cfg.integrator
  exact this

/-! ### An example -/

noncomputable def exDefaultCfg : TICfg ℝ := { exRowCfg with init := .zero, integrator := false }

/-- user 9, who is new, views item 40, which is known, and user 8 views item 60, which is new -/
noncomputable def exDefaultChunk : List (Row ℝ) := [⟨9, 40, 1, 2, 0⟩, ⟨8, 60, 1, 2, 0⟩]

/-- then user 9 views the new item 70 -/
noncomputable def exDefaultNext : List (Row ℝ) := [⟨9, 70, 1, 3, 0⟩]

/-- The model that holds the identity matrix, after two chunks in the default scheme: user 9 is known, the items 60 and 70 are
known, and the distance is at most √12 + √6. -/
example : ∃ st' users' items', ∃ T : T3 users'.length items'.length 1 ℝ,
    tiUpdates tirecaMiddle exDefaultCfg exRowAtt exTrackState [exDefaultChunk, exDefaultNext] true = .ok st' ∧
      9 ∈ users' ∧ 60 ∈ items' ∧ 70 ∈ items' ∧ HoldsTensor st' 2 2 1 T ∧
      tfro (windowTensor 1 users' items' (exTrackRows ++ (exDefaultChunk ++ exDefaultNext)) - T) ≤
        Real.sqrt 12 + Real.sqrt 6 := by
  have hin : inTime true exDefaultChunk = exDefaultChunk := by
    unfold inTime tsSort stableSort exDefaultChunk
    simp
  have hin' : inTime true exDefaultNext = exDefaultNext := rfl
  have hfl : ([exDefaultChunk, exDefaultNext].map (inTime true)).flatten = exDefaultChunk ++ exDefaultNext := by
    rw [List.map_cons, List.map_cons, List.map_nil, hin, hin', List.flatten_cons, List.flatten_cons, List.flatten_nil,
      List.append_nil]
  obtain ⟨st', users', items', T, h1, -, -, -, h4, h5, h6, h7⟩ := C178_run (cfg := exDefaultCfg) (m := exRowAtt)
    (st := exTrackState) (users := [7, 8]) (items := [40, 50]) (rows := exTrackRows)
    ⟨exRow_setting.len, exRow_setting.att, exRow_setting.qr, exRow_setting.rank0, exRow_setting.rank1⟩ (Or.inl rfl) rfl rfl
    exRow_dims
    ⟨exTrackTable, exTrackPast, ⟨exTrack_inv.user, exTrack_inv.item, exTrack_inv.hist, exTrack_inv.shape, exTrack_inv.seen,
      exTrack_inv.aw, exTrack_inv.last, exTrack_inv.usersOccur, exTrack_inv.itemsOccur⟩,
      .cons ⟨rfl, ⟨0, rfl, rfl⟩, 0, rfl, rfl⟩ (.cons ⟨rfl, ⟨1, rfl, rfl⟩, 1, rfl, rfl⟩ .nil), fun u => rfl⟩
      exTrack_holds
    [exDefaultChunk, exDefaultNext] true (fun t c ht => by
      match t with
      | 0 =>
        obtain rfl := Option.some.inj ht
        refine ⟨List.cons_ne_nil _ _, 9, ?_⟩
        rw [hin]
        show ([40] : List ℤ) ≠ []
        decide
      | 1 =>
        obtain rfl := Option.some.inj ht
        refine ⟨List.cons_ne_nil _ _, 9, ?_⟩
        rw [hin', List.take_succ_cons, List.take_zero, List.map_cons, List.map_nil, hin, List.flatten_cons,
          List.flatten_nil, List.append_nil]
        show ([70] : List ℤ) ≠ [40]
        decide
      | t + 2 => simp at ht) (fun c hc => by
        rcases List.mem_cons.1 hc with rfl | hc
        · show 2 * 1 * 2 ≤ 10000
          decide
        · rw [List.mem_singleton.1 hc]
          show 2 * 1 * 1 ≤ 10000
          decide) (fun t c ht u hu x hx => by
      match t with
      | 0 =>
        obtain rfl := Option.some.inj ht
        rw [hin] at hx
        obtain ⟨r, hr, rfl⟩ := List.mem_map.1 (mem_lastN hx)
        have hr := List.mem_filter.1 hr
        have hru : r.user = u := of_decide_eq_true hr.2
        rcases List.mem_cons.1 hr.1 with rfl | h
        · exact Or.inl (by simp)
        · rw [List.mem_singleton.1 h] at hru
          exact absurd hru (hu ⟨8, 50, 1, 1, 0⟩ (by simp [exTrackRows]))
      | 1 =>
        obtain rfl := Option.some.inj ht
        rw [hin'] at hx
        obtain ⟨r, hr, rfl⟩ := List.mem_map.1 (mem_lastN hx)
        have hr := List.mem_filter.1 hr
        have hru : r.user = u := of_decide_eq_true hr.2
        rw [List.mem_singleton.1 hr.1] at hru
        exact absurd hru (hu ⟨9, 40, 1, 2, 0⟩ (by
          rw [List.take_succ_cons, List.take_zero, List.map_cons, List.map_nil, hin]
          simp [exDefaultChunk]))
      | t + 2 => simp at ht)
  rw [hfl] at h4 h5 h7
  refine ⟨st', users', items', T, h1, ?_, ?_, ?_, h6, ?_⟩
  · exact (h4 9).2 ⟨⟨9, 40, 1, 2, 0⟩, by simp [exDefaultChunk], rfl⟩
  · refine h5 8 60 ?_
    show (60 : ℤ) ∈ [60]
    decide
  · refine h5 9 70 ?_
    show (70 : ℤ) ∈ [70]
    decide
  · have e1 : tfro (windowTensor (K := ℝ) exRowCfg.td.seqLen [7, 8] [40, 50] exTrackRows -
        windowTensor exRowCfg.td.seqLen [7, 8] [40, 50] exTrackRows) = 0 := by
      rw [sub_self]
      simp [tfro]
    have e2 : (List.map (fun c => Real.sqrt (6 * (exDefaultCfg.td.seqLen : ℝ) * (userCount c : ℝ)))
        [exDefaultChunk, exDefaultNext]).sum = Real.sqrt 12 + Real.sqrt 6 := by
      rw [List.map_cons, List.map_cons, List.map_nil, List.sum_cons, List.sum_cons, List.sum_nil, add_zero,
        show exDefaultCfg.td.seqLen = 1 from rfl, show userCount exDefaultChunk = 2 from rfl,
        show userCount exDefaultNext = 1 from rfl]
      norm_num
    exact (h7.trans_eq (congrArg₂ (· + ·) e1 e2)).trans_eq (zero_add _)

end

end DynCF
