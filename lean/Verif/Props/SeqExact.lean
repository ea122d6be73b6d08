/-
C164: a sequence model trained from a random start on a table whose tensor has the rank of the model is determined by
the table, almost surely: its scores and recommendations do not depend on the draws or on the linear algebra routines.
-/
import Verif.Props.HooiExact
import Verif.Props.TuckerNext

set_option linter.unusedSectionVars false

namespace DynCF
open MeasureTheory ProbabilityTheory Matrix
variable {K : Type}

/-! ### Specification -/

/-- The tensor of a table with positions: the relevance given to each user, item and position. -/
def tableTensor [AddCommMonoid K] (L : ℕ) (users items : List ℤ) (data : List (PRow K)) :
    T3 users.length items.length L K :=
  fun i j p => tableAt data users[i] items[j] ((p : ℕ) : ℤ)

/-- The configuration with these draws of the initial factors and of the sketches. -/
def TICfg.drawn (c : TICfg K) (ini : ℕ → Rng K) (sk : ℕ → ℕ → Rng K) : TICfg K :=
  { c with td := { c.td with hooi := { c.td.hooi with initRng := ini, rsvdRng := sk } } }

theorem drawn_len (c : TICfg K) (ini : ℕ → Rng K) (sk : ℕ → ℕ → Rng K) : (c.drawn ini sk).td.seqLen = c.td.seqLen := rfl

theorem drawn_rank (c : TICfg K) (ini : ℕ → Rng K) (sk : ℕ → ℕ → Rng K) :
    (c.drawn ini sk).td.hooi.rank = c.td.hooi.rank := rfl

theorem drawn_att (c : TICfg K) (ini : ℕ → Rng K) (sk : ℕ → ℕ → Rng K) (m : TDAtt K) :
    tiAttArg (c.drawn ini sk) m = tiAttArg c m := rfl

/-- A table cropped to the last `seq_len` rows of every user (at least one user has so many), a model whose rank fits the
`users` and `items` of the table, and correct linear algebra; `A` is the attention matrix. The tensor of the table, weighted
by the attention, has at most the rank of the model in each mode. -/
structure LowRankSetting (c : TICfg ℝ) (m : TDAtt ℝ) (A : Matrix (Fin c.td.seqLen) (Fin c.td.seqLen) ℝ)
    (df : List (Row ℝ)) (data : List (PRow ℝ)) (users items : List ℤ) : Prop where
  setting : TISetting c m
  la : LaOk c.td.hooi.la
  att : m.att = ⟨_, _, A⟩
  sweeps : 1 ≤ c.td.nIter
  crop : getDfWithCroppedPos df c.td.seqLen true = .ok data
  long : ∃ u, c.td.seqLen ≤ (rowsOf u df).length
  firstU : FirstAppearance (data.map fun p => p.row.user) users
  firstI : FirstAppearance (data.map fun p => p.row.item) items
  fits : c.Fits users items
  low : MultiRankLe (weighted A (tableTensor c.td.seqLen users items data)) c.td.hooi.rank.1 c.td.hooi.rank.2.1
    c.td.hooi.rank.2.2

/-! ### The entries handed to `ga_satf` -/

section
variable [Field K] [LinearOrder K] [IsStrictOrderedRing K]

/-- What `train` factorises: entries whose tensor is the one of the table. -/
theorem table_entries {L : ℕ} (hL : 1 ≤ L) {df : List (Row K)} {data : List (PRow K)}
    (hcrop : getDfWithCroppedPos df L true = .ok data) (hfull : ∃ u, L ≤ (rowsOf u df).length) {users items : List ℤ}
    (hu : FirstAppearance (data.map fun p => p.row.user) users) (hi : FirstAppearance (data.map fun p => p.row.item) items) :
    ∃ rows mp t, ∃ es : List (Ent users.length items.length L K),
      getDfWithUpdatedIndices (data.map PRow.row) = .ok (rows, mp) ∧ trainTensor (withPos rows data) = .ok t ∧
      t.inds.map Inter.ind = indsOf es ∧ t.vals = valsOf es ∧ t.shape = (users.length, items.length, L) ∧
      cooTensor es = tableTensor L users items data ∧
      sortedInds (withPos rows data) = (withPos rows data).map PRow.inter ∧ MappedTo users items data (withPos rows data) := by
  obtain ⟨c1, c2⟩ := C28_cropped df L true hL data hcrop
  have hsort : data.Pairwise fun a b => a.row.user < b.row.user ∨ (a.row.user = b.row.user ∧ a.pos ≤ b.pos) := by
    rw [(crop_ok_inv _ _ _ hcrop).2.2]
    exact cropSpec_sorted _ df true
  obtain ⟨rows, mp, users1, items1, k1, k2, k3, k4, k5, k6⟩ := train_mapped data
  obtain rfl := hu.unique k2
  obtain rfl := hi.unique k4
  have hinds := sortedInds_of_sorted k6 k2 hsort
  have hdne : data ≠ [] := by
    obtain ⟨r, hr, -⟩ := c2.2 hfull
    exact List.ne_nil_of_mem hr
  obtain ⟨rows', mp', us, is', t, P, h1, h2, h3, h4, h5, ht, hsh, hp1, hp2, hlen, hrange⟩ :=
    C28_shape data hdne fun r hr => (c1 r hr).1
  obtain rfl := hu.unique h2
  obtain rfl := hi.unique h4
  obtain ⟨rfl, rfl⟩ := Prod.mk.inj (Except.ok.inj (k1.symm.trans h1))
  have hPL : P = L := by
    obtain ⟨r, hr, hrp⟩ := hp1
    have a1 := (c1 r hr).2
    obtain ⟨r', hr', hrp'⟩ := c2.2 hfull
    have a2 := hp2 r' hr'
    omega
  subst hPL
  obtain ⟨es, he1, he2⟩ := coo_data_typed (n0 := users.length) (n1 := items.length) (n2 := P)
    (t.inds.map Inter.ind) t.vals (by rw [List.length_map, hlen]) (by
      intro x hx
      obtain ⟨y, hy, rfl⟩ := List.mem_map.1 hx
      exact hrange y hy)
  refine ⟨rows, mp, t, es, k1, ht, he1, he2, hsh, ?_, hinds, k6⟩
  funext i j p
  have z1 := tensorAt_of_unsorted ht hinds ((i : ℕ) : ℤ) ((j : ℕ) : ℤ) ((p : ℕ) : ℤ)
  have z2 := tableAt_mapped hu.nodup hi.nodup k6 i j users[i] items[j] ((p : ℕ) : ℤ)
    (List.getElem?_eq_getElem i.2) (List.getElem?_eq_getElem j.2)
  exact ((coo_at he1 he2 i j p).trans z1).trans z2

/-- From the run of `ga_satf` to the trained model. -/
theorem trained_of_run {τ : Type} {cfg : TICfg K} {m : TDAtt K} (hL : 1 ≤ cfg.td.seqLen) (hm : tdInit cfg.td = .ok m)
    (hqr : ∀ (m n : ℕ) (A : Matrix (Fin m) (Fin n) K), QrOk cfg.td.hooi.la A)
    (hsvd : ∀ (m n : ℕ) (A : Matrix (Fin m) (Fin n) K), SvdOk cfg.td.hooi.la A)
    {A : Matrix (Fin cfg.td.seqLen) (Fin cfg.td.seqLen) K} (hA : m.att = ⟨_, _, A⟩)
    (cb : Option (ExitCallback K τ)) (cb0 : τ) (hcb : ∀ f, cb = some f → ∀ t x g, ∃ r, f t x g = .ok r)
    (hn : 1 ≤ cfg.td.nIter) {df : List (Row K)} {data : List (PRow K)}
    (hcrop : getDfWithCroppedPos df cfg.td.seqLen true = .ok data) (hfull : ∃ u, cfg.td.seqLen ≤ (rowsOf u df).length)
    {users items : List ℤ} (hu : FirstAppearance (data.map fun p => p.row.user) users)
    (hi : FirstAppearance (data.map fun p => p.row.item) items) (hd : cfg.Fits users items)
    {rows : List (Row K)} {mp : Mappings} {t : TrainTensor K} {es : List (Ent users.length items.length cfg.td.seqLen K)}
    (hrows : getDfWithUpdatedIndices (data.map PRow.row) = .ok (rows, mp)) (ht : trainTensor (withPos rows data) = .ok t)
    (he1 : t.inds.map Inter.ind = indsOf es) (he2 : t.vals = valsOf es)
    (hsh : t.shape = (users.length, items.length, cfg.td.seqLen))
    (hinds : sortedInds (withPos rows data) = (withPos rows data).map PRow.inter)
    (hmap : MappedTo users items data (withPos rows data))
    {U : Matrix (Fin users.length) (Fin cfg.td.hooi.rank.1) K} {V : Matrix (Fin items.length) (Fin cfg.td.hooi.rank.2.1) K}
    {W : Matrix (Fin cfg.td.seqLen) (Fin cfg.td.hooi.rank.2.2) K}
    {c : T3 cfg.td.hooi.rank.1 cfg.td.hooi.rank.2.1 cfg.td.hooi.rank.2.2 K} {tt : τ}
    (hrun : gaSatf cfg.td.hooi cfg.td.normOf (indsOf es) (valsOf es) (users.length, items.length, cfg.td.seqLen) ⟨_, _, A⟩
      cfg.td.nIter cfg.td.growthTol cb cb0 none cfg.td.force =
        .ok ((⟨⟨_, _, U⟩, ⟨_, _, V⟩, ⟨_, _, W⟩⟩, some ⟨_, _, _, c⟩), tt)) :
    ∃ s, tdTrain cfg.td m cb cb0 [] data = .ok s ∧ TISeen cfg m s users items (tsSort df) ∧
      HoldsTensor s cfg.td.hooi.rank.1 cfg.td.hooi.rank.2.1 cfg.td.hooi.rank.2.2 (tuckerTensor U V W c) := by
  obtain ⟨c1, c2⟩ := C28_cropped df cfg.td.seqLen true hL data hcrop
  have hne : df ≠ [] := (crop_ok_inv _ _ _ hcrop).1
  obtain ⟨s, rows', mp', g1, hs, hinv⟩ := tdTrain_inv hL hm cb cb0 data hcb c1 (c2.2 hfull) hn users items hu hi hd
  obtain ⟨rfl, rfl⟩ := Prod.mk.inj (Except.ok.inj (hrows.symm.trans g1))
  refine ⟨s, hs, ⟨data, _, hinv, by rw [hinds]; exact ordered_of_mapped hmap, fun u => ?_⟩, ?_⟩
  · have := lastItems_crop hL (ext := []) (rows := []) hne hcrop (fun _ => rfl) u
    simpa [inTime] using this
  · unfold tdTrain at hs
    rw [hrows, except_bind_ok] at hs
    obtain ⟨t', f, g, cbEnd, aw, lw, ht', hga, haw, hlw, -, -, -, b4, b5, b6, b7, -⟩ := tdFit_ok hs
    obtain rfl := Except.ok.inj (ht.symm.trans ht')
    rw [he1, he2, hsh, hA, hrun] at hga
    cases hga
    obtain ⟨o0, o1, o2⟩ := C80_ga_satf_orthonormal cfg.td.hooi hqr hsvd cfg.td.normOf _ _ _ _ cfg.td.nIter
      cfg.td.growthTol cb cb0 none (Or.inl rfl) cfg.td.force _ _ _ hrun
    exact ⟨U, V, W, c, ⟨b4, b5, b6, b7⟩, o1, o2, rfl⟩

/-- The dictionaries, the stored sequences and the viewed pairs after training do not depend on draws or routines. -/
theorem tdTrain_log {τ τ' : Type} {c c' : TDCfg K} {m m' : TDAtt K} (hL : c.seqLen = c'.seqLen)
    {cb : Option (ExitCallback K τ)} {cb0 : τ} {cb' : Option (ExitCallback K τ')} {cb0' : τ'} {h0 : SeqHist}
    {data : List (PRow K)} {s s' : TDState K} (h : tdTrain c m cb cb0 h0 data = .ok s)
    (h' : tdTrain c' m' cb' cb0' h0 data = .ok s') : s.log = s'.log := by
  unfold tdTrain at h h'
  obtain ⟨r, hr, h⟩ := (bind_ok_iff _ _ _).1 h
  rw [hr, except_bind_ok] at h'
  obtain ⟨_, _, _, _, _, _, -, -, -, -, b1, b2, b3, -⟩ := tdFit_ok h
  obtain ⟨_, _, _, _, _, _, -, -, -, -, b1', b2', b3', -⟩ := tdFit_ok h'
  unfold TDState.log
  rw [b1, b2, b3, b1', b2', b3', hL]

end

/-! ### Scores of a model that holds a tensor of full multilinear rank -/

section
variable [Field K] [LinearOrder K] [IsStrictOrderedRing K] {cfg : TICfg K} {m : TDAtt K} {st : TDState K}
  {users items : List ℤ} {rows : List (Row K)}

/-- what scoring needs of a consistent model whose tensor has exactly the rank of the model in the modes of items and
positions -/
theorem seen_ready (hseen : TISeen cfg m st users items rows) {L r0 r1 r2 : ℕ} {X : T3 users.length items.length L K}
    (hX : HoldsTensor st r0 r1 r2 X) (h1 : (unf (front1 X)).rank = r1) (h2 : (unf (front2 X)).rank = r2) :
    ∃ P1 P2, OrthProj P1 (unf (front1 X)) ∧ OrthProj P2 (unf (front2 X)) ∧ ScoreReady m st P1 P2 := by
  obtain ⟨ext, past, a2, -, -⟩ := hseen
  obtain ⟨U, V, W, c, q, hV, hW, hT⟩ := hX
  refine ⟨V * V.transpose, W * W.transpose, ?_, ?_, ⟨_, V, q.v, rfl⟩, ⟨_, W, q.w, rfl⟩, a2.aw, a2.last⟩
  · refine orthProj_of_factor (R := unf (front1 (mul0 U (mul2 W c)))) ?_ hV h1.ge
    rw [← hT, tuckerTensor_eq, ← unf_mul0, ← front1_mul1, ← mul01_comm]
  · refine orthProj_of_factor (R := unf (front2 (mul0 U (mul1 V c)))) ?_ hW h2.ge
    rw [← hT, tuckerTensor_eq, ← unf_mul0, ← front2_mul2, ← mul02_comm, ← mul12_comm]

/-- the stored sequence of a user -/
theorem seen_window (hL : 1 ≤ cfg.td.seqLen) (hseen : TISeen cfg m st users items rows) (a : Fin users.length)
    (xs : List (Fin items.length)) (hx : lastItems cfg.td.seqLen rows users[a] = xs.map fun x => items[x]) (hne : xs ≠ []) :
    st.seqHist.get? ((a : ℕ) : ℤ) =
      some ⟨cfg.td.seqLen, window cfg.td.seqLen (xs.map fun x : Fin items.length => ((x : ℕ) : ℤ))⟩ := by
  obtain ⟨ext, past, hinv, hord, hlast⟩ := hseen
  have hu : users.Nodup := hinv.user.nodup
  have hi : items.Nodup := hinv.item.nodup
  have key := forall₂_lastN cfg.td.seqLen (hord.itemsOf hu (List.getElem?_eq_getElem a.2))
  have hl : lastN cfg.td.seqLen ((rowsOf users[a] (ext.map PRow.row)).map Row.item) = xs.map fun x => items[x] :=
    (hlast users[a]).trans hx
  have hl' : lastN cfg.td.seqLen ((rowsOf users[(a : ℕ)] (ext.map PRow.row)).map Row.item) = xs.map fun x => items[x] := hl
  rw [hl', List.forall₂_map_right_iff] at key
  have hitems : lastN cfg.td.seqLen (itemsOf ((a : ℕ) : ℤ) past) = xs.map fun x : Fin items.length => ((x : ℕ) : ℤ) := by
    generalize lastN cfg.td.seqLen (itemsOf ((a : ℕ) : ℤ) past) = ys at key
    clear hl hl' hx hne
    induction key with
    | nil => rfl
    | @cons y x ys xs h _ ih =>
      obtain ⟨n, rfl, hn⟩ := h
      have : n = (x : ℕ) := getElem?_inj_nodup hi hn (List.getElem?_eq_getElem x.2)
      rw [List.map_cons, ih, this]
  rw [hinv.hist.entry, histEntry, if_neg]
  · congr 2
    rw [← hitems]
    unfold window
    rw [lastN_append_right]
  · intro h0
    rw [h0] at hitems
    have : lastN cfg.td.seqLen ([] : List ℤ) = [] := by simp [lastN]
    rw [this] at hitems
    exact hne (List.map_eq_nil_iff.1 hitems.symm)

/-- the scores of a model from the projectors -/
theorem ready_scores {L n : ℕ} (hL2 : 2 ≤ L) {A B : Matrix (Fin L) (Fin L) K} {P1 : Matrix (Fin n) (Fin n) K}
    {P2 : Matrix (Fin L) (Fin L) K} (hr : ScoreReady ⟨⟨L, L, A⟩, ⟨L, L, B⟩⟩ st P1 P2) (u : ℤ) (xs : List (Fin n))
    (hwin : st.seqHist.get? u = some ⟨L, window L (xs.map fun x : Fin n => ((x : ℕ) : ℤ))⟩) (hne : xs ≠ []) :
    tdRecommendUser st u = .ok ⟨n, fun i => ∑ j : Fin (min xs.length (L - 1)),
      P1 i (xs[xs.length - 1 - j]'(by have := j.2; omega)) *
        (A * P2 * B) ⟨L - 2 - j, by omega⟩ ⟨L - 1, by omega⟩⟩ := by
  obtain ⟨r, V, hv, p1⟩ := hr.item
  obtain ⟨q, W, hw, p2⟩ := hr.pos
  obtain ⟨lw, x, e1, e2, e3⟩ := hr.last
  have haw := hr.aw
  have hpos : 0 < xs.length := List.length_pos_iff.2 hne
  obtain ⟨L, rfl⟩ : ∃ k, L = k + 1 := ⟨L - 1, by omega⟩
  rw [hw, Mat.dot_mk] at haw
  rw [hw, Mat.T_mk, Mat.dot_mk] at e1
  cases e1
  rw [row_neg_one] at e2
  cases e2
  have key := C25_scores st u V (A * W) _ hv (Except.ok.inj haw).symm e3 (by rw [hw]) xs hwin (by omega)
  rw [key]
  refine congrArg (fun f => (Except.ok (Vec.mk n f) : PyM (Vec K))) (funext fun i => ?_)
  refine Finset.sum_congr rfl fun j _ => ?_
  congr 1
  · rw [← p1]
    rfl
  · rw [← p2, ← Matrix.mul_assoc, Matrix.mul_assoc (A * W), Matrix.mul_apply]
    refine Finset.sum_congr rfl fun b _ => ?_
    congr 1
    simp only [Matrix.mul_apply, Matrix.transpose_apply]
    exact Finset.sum_congr rfl fun _ _ => mul_comm _ _

/-- **C164, the scores.** A consistent model whose tensor has exactly the rank of the model in the modes of items and
positions: with `P1`, `P2` the orthogonal projectors on the item space and the position space of the tensor, `A` the
attention matrix and `B` the stored inverse, the score of item `i` for a user with the last items `xs` is the sum, over the
at most `L - 1` most recent items `x_j`, of `P1[i, x_j] * (A P2 B)[L - 2 - j, L - 1]`. -/
theorem C164_scores (hs : TISetting cfg m) (hL2 : 2 ≤ cfg.td.seqLen) (hseen : TISeen cfg m st users items rows)
    {r0 r1 r2 : ℕ} {X : T3 users.length items.length cfg.td.seqLen K} (hX : HoldsTensor st r0 r1 r2 X)
    (h1 : (unf (front1 X)).rank = r1) (h2 : (unf (front2 X)).rank = r2)
    {A B : Matrix (Fin cfg.td.seqLen) (Fin cfg.td.seqLen) K} (hm : m = ⟨⟨_, _, A⟩, ⟨_, _, B⟩⟩)
    {P1 : Matrix (Fin items.length) (Fin items.length) K} {P2 : Matrix (Fin cfg.td.seqLen) (Fin cfg.td.seqLen) K}
    (hP1 : OrthProj P1 (unf (front1 X))) (hP2 : OrthProj P2 (unf (front2 X))) (a : Fin users.length)
    (xs : List (Fin items.length)) (hx : lastItems cfg.td.seqLen rows users[a] = xs.map fun x => items[x]) (hne : xs ≠ []) :
    tdRecommendUser st ((a : ℕ) : ℤ) = .ok ⟨items.length, fun i => ∑ j : Fin (min xs.length (cfg.td.seqLen - 1)),
      P1 i (xs[xs.length - 1 - j]'(by have := j.2; omega)) *
        (A * P2 * B) ⟨cfg.td.seqLen - 2 - j, by omega⟩ ⟨cfg.td.seqLen - 1, by omega⟩⟩ := by
  obtain ⟨Q1, Q2, q1, q2, hr⟩ := seen_ready hseen hX h1 h2
  obtain rfl := q1.unique hP1
  obtain rfl := q2.unique hP2
  subst hm
  exact ready_scores hL2 hr ((a : ℕ) : ℤ) xs (seen_window hs.len hseen a xs hx hne) hne

/-- Two consistent models with the same sequences that hold the same tensor, of exactly their rank in the modes of items and
positions, give the same scores and the same recommendations. -/
theorem held_same {cfg' : TICfg K} {st' : TDState K} {rows' : List (Row K)} {L : ℕ} (hL : 1 ≤ L)
    (hm : ∃ A B : Matrix (Fin L) (Fin L) K, m = ⟨⟨_, _, A⟩, ⟨_, _, B⟩⟩)
    (hseen : TISeen cfg m st users items rows) (hseen' : TISeen cfg' m st' users items rows') (hlog : st.log = st'.log)
    {r0 r1 r2 : ℕ} {X : T3 users.length items.length L K} (hX : HoldsTensor st r0 r1 r2 X)
    (hX' : HoldsTensor st' r0 r1 r2 X) (h1 : (unf (front1 X)).rank = r1) (h2 : (unf (front2 X)).rank = r2) :
    (∀ u, tdRecommendUser st u = tdRecommendUser st' u) ∧
      ∀ (argp : ArgPart K) (us : List ℤ) (k : ℕ) (filt internal : Bool),
        tdRecommend argp st us k filt internal = tdRecommend argp st' us k filt internal := by
  obtain ⟨P1, P2, p1, p2, a2⟩ := seen_ready hseen hX h1 h2
  obtain ⟨P1', P2', p1', p2', b2⟩ := seen_ready hseen' hX' h1 h2
  obtain rfl := p1.unique p1'
  obtain rfl := p2.unique p2'
  have hmaps : st.maps = st'.maps := congrArg Prod.fst hlog
  have hseq : st.seqHist = st'.seqHist := congrArg (fun x => x.2.1) hlog
  have hhist : st.history = st'.history := congrArg (fun x => x.2.2) hlog
  have key := C158_scores hL hm a2 b2 hseq
  refine ⟨key, fun argp us k filt internal => ?_⟩
  have hview : st.view = st'.view := by
    obtain ⟨U, V, W, c, q, -⟩ := hX
    obtain ⟨U', V', W', c', q', -⟩ := hX'
    unfold TDState.view
    rw [hmaps, hhist, q.u, q.v, q'.u, q'.v]
  unfold tdRecommend
  rw [hview]
  simp only [key]

end

/-! ### Training with random draws -/

section
variable {τ Ω₀ Ω : Type} [MeasurableSpace Ω₀] [MeasurableSpace Ω] {c : TICfg ℝ} {m : TDAtt ℝ}
  {A : Matrix (Fin c.td.seqLen) (Fin c.td.seqLen) ℝ} {df : List (Row ℝ)} {data : List (PRow ℝ)} {users items : List ℤ}

/-- What training reaches: a consistent model that has seen the table and holds its tensor, weighted by the attention. -/
def TrainedExactly (τ : Type) (c : TICfg ℝ) (m : TDAtt ℝ) (A : Matrix (Fin c.td.seqLen) (Fin c.td.seqLen) ℝ)
    (df : List (Row ℝ)) (data : List (PRow ℝ)) (users items : List ℤ) (ini : ℕ → Rng ℝ) (sk : ℕ → ℕ → Rng ℝ) : Prop :=
  ∀ (cb : Option (ExitCallback ℝ τ)) (cb0 : τ), (∀ f, cb = some f → ∀ t x g, ∃ r, f t x g = .ok r) →
    ∃ s, tdTrain (c.drawn ini sk).td m cb cb0 [] data = .ok s ∧
      TISeen (c.drawn ini sk) m s users items (tsSort df) ∧
      HoldsTensor s c.td.hooi.rank.1 c.td.hooi.rank.2.1 c.td.hooi.rank.2.2
        (weighted A (tableTensor c.td.seqLen users items data))

theorem LowRankSetting.rank_ok (h : LowRankSetting c m A df data users items) :
    (c.td.hooi.rank.1 ≤ c.td.hooi.rank.2.1 * c.td.hooi.rank.2.2 ∧ c.td.hooi.rank.2.1 ≤ c.td.hooi.rank.1 * c.td.hooi.rank.2.2 ∧
      c.td.hooi.rank.2.2 ≤ c.td.hooi.rank.1 * c.td.hooi.rank.2.1) ∧
    c.td.hooi.rank.1 ≤ users.length ∧ c.td.hooi.rank.2.1 ≤ items.length ∧ c.td.hooi.rank.2.2 ≤ c.td.seqLen :=
  ⟨⟨by rw [Nat.mul_comm]; exact h.fits.h0, by rw [Nat.mul_comm]; exact h.fits.h1, by rw [Nat.mul_comm]; exact h.fits.h2⟩,
    h.fits.n0, h.fits.n1, h.fits.n2⟩

/-- **C164, training.** In the setting above, for almost all initial draws (uniform entries), and then for almost all
sketches (normal entries) drawn one after the other, `train` succeeds and the model holds the tensor of the table, weighted
by the attention, exactly. -/
theorem C164_training (h : LowRankSetting c m A df data users items) (P₀ : Measure Ω₀) (ini : Ω₀ → ℕ → Rng ℝ)
    (hini : ∀ mode, UniformDraws P₀ fun v => ini v mode) (P : Measure Ω) (rng : Ω → Rng ℝ) (hrng : NormalDraws P rng)
    (d : Ω) :
    ∀ᵐ v ∂P₀, Successively P (3 * c.td.nIter) fun l =>
      TrainedExactly τ c m A df data users items (ini v) (listRng rng d l) := by
  obtain ⟨rows, mp, t, es, k1, k2, k3, k4, k5, k6, k7, k8⟩ := table_entries h.setting.len h.crop h.long h.firstU h.firstI
  have hlow := h.low
  rw [← k6] at hlow
  filter_upwards [C163_ga_satf (τ := τ) P₀ ini hini P rng hrng d c.td.hooi h.la c.td.normOf es A hlow h.rank_ok.1 h.rank_ok.2
    c.td.nIter h.sweeps] with v hv
  refine hv.mono fun l _ hl cb cb0 hcb => ?_
  obtain ⟨U, V, W, g, tt, hrun, hT⟩ := hl c.td.growthTol cb cb0 c.td.force hcb
  have hT' : tuckerTensor U V W g = weighted A (tableTensor c.td.seqLen users items data) := by
    rw [← k6]
    exact funext fun i => funext fun j => funext fun k => hT i j k
  rw [← hT']
  exact trained_of_run (cfg := c.drawn (ini v) (listRng rng d l)) h.setting.len h.setting.att (fun _ _ B => h.la.qr B)
    (fun _ _ B => h.la.svd B) h.att cb cb0 hcb h.sweeps h.crop h.long h.firstU h.firstI h.fits k1 k2 k3 k4 k5 k7 k8 hrun

/-- **C164, one seed.** If the oversampling covers the unfoldings the sketches meet, one source for all draws is enough. -/
theorem C164_wide (h : LowRankSetting c m A df data users items) (P : Measure Ω) (ini : Ω → ℕ → Rng ℝ)
    (hini : ∀ mode, UniformDraws P fun w => ini w mode) (rng : Ω → ℕ → ℕ → Rng ℝ)
    (hrng : ∀ i mode, NormalDraws P fun w => rng w i mode)
    (h0 : c.td.hooi.rank.2.1 * c.td.hooi.rank.2.2 ≤ c.td.hooi.rank.1 + c.td.hooi.os)
    (h1 : c.td.hooi.rank.1 * c.td.hooi.rank.2.2 ≤ c.td.hooi.rank.2.1 + c.td.hooi.os)
    (h2 : c.td.hooi.rank.1 * c.td.hooi.rank.2.1 ≤ c.td.hooi.rank.2.2 + c.td.hooi.os) :
    ∀ᵐ w ∂P, TrainedExactly τ c m A df data users items (ini w) (rng w) := by
  obtain ⟨rows, mp, t, es, k1, k2, k3, k4, k5, k6, k7, k8⟩ := table_entries h.setting.len h.crop h.long h.firstU h.firstI
  have hlow := h.low
  rw [← k6] at hlow
  filter_upwards [C163_wide (τ := τ) P ini hini rng hrng c.td.hooi h.la c.td.normOf h0 h1 h2 es A hlow h.rank_ok.1
    h.rank_ok.2] with w hw cb cb0 hcb
  obtain ⟨U, V, W, g, tt, hrun, hT⟩ := hw c.td.nIter h.sweeps c.td.growthTol cb cb0 c.td.force hcb
  have hT' : tuckerTensor U V W g = weighted A (tableTensor c.td.seqLen users items data) := by
    rw [← k6]
    exact funext fun i => funext fun j => funext fun k => hT i j k
  rw [← hT']
  exact trained_of_run (cfg := c.drawn (ini w) (rng w)) h.setting.len h.setting.att (fun _ _ B => h.la.qr B)
    (fun _ _ B => h.la.svd B) h.att cb cb0 hcb h.sweeps h.crop h.long h.firstU h.firstI h.fits k1 k2 k3 k4 k5 k7 k8 hrun

theorem holds_cast {L L' : ℕ} (hL : L' = L) {r r' : ℕ × ℕ × ℕ} (hr : r' = r) {M : Mat ℝ} {A : Matrix (Fin L) (Fin L) ℝ}
    {A' : Matrix (Fin L') (Fin L') ℝ} (hA : M = ⟨_, _, A⟩) (hA' : M = ⟨_, _, A'⟩) {st : TDState ℝ}
    (h : HoldsTensor st r'.1 r'.2.1 r'.2.2 (weighted A' (tableTensor L' users items data))) :
    HoldsTensor st r.1 r.2.1 r.2.2 (weighted A (tableTensor L users items data)) := by
  subst hL hr
  rw [hA] at hA'
  cases hA'
  exact h

theorem LowRankSetting.shape (h : LowRankSetting c m A df data users items) :
    ∃ A B : Matrix (Fin c.td.seqLen) (Fin c.td.seqLen) ℝ, m = ⟨⟨_, _, A⟩, ⟨_, _, B⟩⟩ := by
  have h := h.setting
  have h' := h.att
  rw [tdInit_eq _ h.len] at h'
  have h' := Except.ok.inj h'
  subst h'
  cases c.td.attF
  · exact ⟨1, 1, rfl⟩
  · exact ⟨_, _, rfl⟩

/-- **C164, the same predictions.** Two trainings with exact results (by `C164_training` or `C164_wide`: almost all of them),
with draws, sweeps, tolerances, callbacks and routines of their own but the same length, rank and attention. If the tensor has
exactly the rank of the model in the modes of items and positions, the two models give every user the same scores and the same
recommendations. -/
theorem C164_same {τ' : Type} (h : LowRankSetting c m A df data users items) {c' : TICfg ℝ} (hL : c'.td.seqLen = c.td.seqLen)
    (hr : c'.td.hooi.rank = c.td.hooi.rank) {A' : Matrix (Fin c'.td.seqLen) (Fin c'.td.seqLen) ℝ}
    (h' : LowRankSetting c' m A' df data users items)
    (h1 : (unf (front1 (weighted A (tableTensor c.td.seqLen users items data)))).rank = c.td.hooi.rank.2.1)
    (h2 : (unf (front2 (weighted A (tableTensor c.td.seqLen users items data)))).rank = c.td.hooi.rank.2.2)
    {ini ini' : ℕ → Rng ℝ} {sk sk' : ℕ → ℕ → Rng ℝ} (ht : TrainedExactly τ c m A df data users items ini sk)
    (ht' : TrainedExactly τ' c' m A' df data users items ini' sk')
    (cb : Option (ExitCallback ℝ τ)) (cb0 : τ) (hcb : ∀ f, cb = some f → ∀ t x g, ∃ r, f t x g = .ok r)
    (cb' : Option (ExitCallback ℝ τ')) (cb0' : τ') (hcb' : ∀ f, cb' = some f → ∀ t x g, ∃ r, f t x g = .ok r) :
    ∃ s s', tdTrain (c.drawn ini sk).td m cb cb0 [] data = .ok s ∧ tdTrain (c'.drawn ini' sk').td m cb' cb0' [] data = .ok s' ∧
      (∀ u, tdRecommendUser s u = tdRecommendUser s' u) ∧
      ∀ (argp : ArgPart ℝ) (us : List ℤ) (k : ℕ) (filt internal : Bool),
        tdRecommend argp s us k filt internal = tdRecommend argp s' us k filt internal := by
  obtain ⟨s, a1, a2, a3⟩ := ht cb cb0 hcb
  obtain ⟨s', b1, b2, b3⟩ := ht' cb' cb0' hcb'
  refine ⟨s, s', a1, b1, ?_⟩
  have hlog : s.log = s'.log := tdTrain_log ((drawn_len c ini sk).trans (hL.symm.trans (drawn_len c' ini' sk').symm)) a1 b1
  have e := holds_cast hL hr h.att h'.att b3
  exact held_same h.setting.len h.shape a2 b2 hlog a3 e h1 h2

/-- **C164, the predictions.** In particular the scores after an exact training are those of `C164_scores`, a function of the
table and the attention only. -/
theorem C164_predictions (h : LowRankSetting c m A df data users items) (hL2 : 2 ≤ c.td.seqLen)
    (h1 : (unf (front1 (weighted A (tableTensor c.td.seqLen users items data)))).rank = c.td.hooi.rank.2.1)
    (h2 : (unf (front2 (weighted A (tableTensor c.td.seqLen users items data)))).rank = c.td.hooi.rank.2.2)
    {B : Matrix (Fin c.td.seqLen) (Fin c.td.seqLen) ℝ} (hB : m.attInv = ⟨_, _, B⟩)
    {P1 : Matrix (Fin items.length) (Fin items.length) ℝ} {P2 : Matrix (Fin c.td.seqLen) (Fin c.td.seqLen) ℝ}
    (hP1 : OrthProj P1 (unf (front1 (weighted A (tableTensor c.td.seqLen users items data)))))
    (hP2 : OrthProj P2 (unf (front2 (weighted A (tableTensor c.td.seqLen users items data)))))
    {ini : ℕ → Rng ℝ} {sk : ℕ → ℕ → Rng ℝ} (ht : TrainedExactly τ c m A df data users items ini sk)
    (cb : Option (ExitCallback ℝ τ)) (cb0 : τ) (hcb : ∀ f, cb = some f → ∀ t x g, ∃ r, f t x g = .ok r) :
    ∃ s, tdTrain (c.drawn ini sk).td m cb cb0 [] data = .ok s ∧
      ∀ (a : Fin users.length) (xs : List (Fin items.length)),
        lastItems c.td.seqLen (tsSort df) users[a] = (xs.map fun x => items[x]) → xs ≠ [] →
        tdRecommendUser s ((a : ℕ) : ℤ) = .ok ⟨items.length, fun i => ∑ j : Fin (min xs.length (c.td.seqLen - 1)),
          P1 i (xs[xs.length - 1 - j]'(by have := j.2; omega)) *
            (A * P2 * B) ⟨c.td.seqLen - 2 - j, by omega⟩ ⟨c.td.seqLen - 1, by omega⟩⟩ := by
  obtain ⟨s, a1, a2, a3⟩ := ht cb cb0 hcb
  refine ⟨s, a1, fun a xs hx hne => ?_⟩
  obtain ⟨Q1, Q2, q1, q2, hr⟩ := seen_ready a2 a3 h1 h2
  obtain rfl := q1.unique hP1
  obtain rfl := q2.unique hP2
  have hm : m = ⟨⟨_, _, A⟩, ⟨_, _, B⟩⟩ := by
    rw [← h.att, ← hB]
  subst hm
  exact ready_scores hL2 hr ((a : ℕ) : ℤ) xs (seen_window (cfg := c.drawn ini sk) h.setting.len a2 a xs hx hne) hne

/-- **C164, updates.** The same after any updates of `TIRec` or `TIRecA` along a path `S` of tensors that starts at the one of
the table: two models trained exactly, each updated by a class and with routines of its own, still give the same scores and
recommendations. -/
theorem C164_updates {τ' : Type} {rounds rounds' : TIRounds ℝ} (hc : IsTIClass rounds) (hc' : IsTIClass rounds')
    (h : LowRankSetting c m A df data users items) {c' : TICfg ℝ} (hL : c'.td.seqLen = c.td.seqLen)
    (hr : c'.td.hooi.rank = c.td.hooi.rank) {A' : Matrix (Fin c'.td.seqLen) (Fin c'.td.seqLen) ℝ}
    (h' : LowRankSetting c' m A' df data users items)
    {att : Option (Matrix (Fin c.td.seqLen) (Fin c.td.seqLen) ℝ)} (hatt : tiAttArg c m = attArg att)
    (hatt' : tiAttArg c' m = attArg att) (chunks : List (List (Row ℝ))) (b : Bool)
    {S : ℕ → T3 users.length items.length c.td.seqLen ℝ}
    (hS : S 0 = weighted A (tableTensor c.td.seqLen users items data))
    (hp : TIPath c.td.seqLen (attVal att) c.td.hooi.rank.1 c.td.hooi.rank.2.1 c.td.hooi.rank.2.2 users items (tsSort df) b
      chunks S)
    (h1 : (unf (front1 (S chunks.length))).rank = c.td.hooi.rank.2.1)
    (h2 : (unf (front2 (S chunks.length))).rank = c.td.hooi.rank.2.2)
    {ini ini' : ℕ → Rng ℝ} {sk sk' : ℕ → ℕ → Rng ℝ} (ht : TrainedExactly τ c m A df data users items ini sk)
    (ht' : TrainedExactly τ' c' m A' df data users items ini' sk')
    (cb : Option (ExitCallback ℝ τ)) (cb0 : τ) (hcb : ∀ f, cb = some f → ∀ t x g, ∃ r, f t x g = .ok r)
    (cb' : Option (ExitCallback ℝ τ')) (cb0' : τ') (hcb' : ∀ f, cb' = some f → ∀ t x g, ∃ r, f t x g = .ok r) :
    ∃ s s' q q', tdTrain (c.drawn ini sk).td m cb cb0 [] data = .ok s ∧
      tdTrain (c'.drawn ini' sk').td m cb' cb0' [] data = .ok s' ∧
      tiUpdates rounds (c.drawn ini sk) m s chunks b = .ok q ∧ tiUpdates rounds' (c'.drawn ini' sk') m s' chunks b = .ok q' ∧
      (∀ u, tdRecommendUser q u = tdRecommendUser q' u) ∧
      ∀ (argp : ArgPart ℝ) (us : List ℤ) (k : ℕ) (filt internal : Bool),
        tdRecommend argp q us k filt internal = tdRecommend argp q' us k filt internal := by
  obtain ⟨s, a1, a2, a3⟩ := ht cb cb0 hcb
  obtain ⟨s', b1, b2, b3⟩ := ht' cb' cb0' hcb'
  have hlog : s.log = s'.log :=
    tdTrain_log ((drawn_len c ini sk).trans (hL.symm.trans (drawn_len c' ini' sk').symm)) a1 b1
  have e := holds_cast hL hr h.att h'.att b3
  rw [← hS] at a3 e
  have w : TISetting (c.drawn ini sk) m :=
    ⟨h.setting.len, h.setting.att, h.setting.qr, h.setting.rank0, h.setting.rank1⟩
  have w' : TISetting (c'.drawn ini' sk') m :=
    ⟨h'.setting.len, h'.setting.att, h'.setting.qr, h'.setting.rank0, h'.setting.rank1⟩
  obtain ⟨q, q', g1, g2, -, -, -, g3, g4⟩ := C158_same hc hc' w w' (drawn_len c ini sk) ((drawn_len c' ini' sk').trans hL)
    (drawn_rank c ini sk) ((drawn_rank c' ini' sk').trans hr) h.fits ((drawn_att c ini sk m).trans hatt)
    ((drawn_att c' ini' sk' m).trans hatt') chunks b a2 b2 hlog a3 e hp h1 h2
  exact ⟨s, s', q, q', a1, b1, g1, g2, g3, g4⟩

end
/-! ### The claim at work -/

section

/-- sequences of length 2, rank (2, 2, 1), no attention, two sweeps -/
noncomputable def exLowCfg (la : LinAlg ℝ) (os : ℕ) : TICfg ℝ where
  td := ⟨⟨la, fun _ => eyeRng, fun _ _ => eyeRng, (2, 2, 1), 1, os, false⟩, fun _ => 0, 2, none, 2, 0, true⟩
  light := false
  explicitCalc := true
  vecRng := fun _ => eyeRng
  matRng := fun _ _ => eyeRng
  normal := eyeRng
  init := .zero
  integrator := false

/-- user 7 viewed 40 twice, user 8 viewed 50 twice -/
noncomputable def exLowDf : List (Row ℝ) := [⟨7, 40, 1, 1, 0⟩, ⟨8, 50, 1, 2, 0⟩, ⟨7, 40, 1, 3, 0⟩, ⟨8, 50, 1, 4, 0⟩]

noncomputable def exLowData : List (PRow ℝ) :=
  [⟨⟨7, 40, 1, 1, 0⟩, 0⟩, ⟨⟨7, 40, 1, 3, 0⟩, 1⟩, ⟨⟨8, 50, 1, 2, 0⟩, 0⟩, ⟨⟨8, 50, 1, 4, 0⟩, 1⟩]

theorem exLow_tensor : (weighted 1 (tableTensor 2 [7, 8] [40, 50] exLowData) : T3 2 2 2 ℝ) =
    fun i j _ => if i = j then 1 else 0 := by
  rw [weighted_one]
  funext i j p
  fin_cases i <;> fin_cases j <;> fin_cases p <;>
    simp [tableTensor, tableAt, exLowData]

def exLowX : Matrix (Fin (2 * 2)) (Fin 2) ℝ := Matrix.of fun p j =>
  if (finProdFinEquiv.symm p).1 = (0 : Fin 2) ∧ (finProdFinEquiv.symm p).2 = j then 1 else 0

theorem exLow_rank1 : (unf (front1 fun i j _ => if i = j then 1 else 0 : T3 2 2 2 ℝ)).rank = 2 ∧
    OrthProj (1 : Matrix (Fin 2) (Fin 2) ℝ) (unf (front1 fun i j _ => if i = j then 1 else 0 : T3 2 2 2 ℝ)) := by
  have key : (1 : Matrix (Fin 2) (Fin 2) ℝ) = unf (front1 fun i j _ => if i = j then 1 else 0 : T3 2 2 2 ℝ) *
      exLowX := by
    ext i j
    simp only [Matrix.mul_apply, sum_finProd, unf, exLowX, Matrix.of_apply, Equiv.symm_apply_apply, front1]
    fin_cases i <;> fin_cases j <;> simp [Fin.sum_univ_two]
  refine ⟨le_antisymm ((Matrix.rank_le_card_height _).trans (by simp)) ?_, ⟨by simp, by simp, _, key⟩⟩
  have h := Matrix.rank_mul_le_left (unf (front1 fun i j _ => if i = j then 1 else 0 : T3 2 2 2 ℝ))
    exLowX
  rw [← key, Matrix.rank_one] at h
  simpa using h

theorem exLow_rank2 : (unf (front2 fun i j _ => if i = j then 1 else 0 : T3 2 2 2 ℝ)).rank = 1 ∧
    OrthProj (Matrix.of fun _ _ => 1 / 2 : Matrix (Fin 2) (Fin 2) ℝ)
      (unf (front2 fun i j _ => if i = j then 1 else 0 : T3 2 2 2 ℝ)) := by
  have h := rank_one_proj (fun _ : Fin 2 => (1 : ℝ)) (M := unf (front2 fun i j _ => if i = j then 1 else 0 : T3 2 2 2 ℝ))
    (fun p => if (finProdFinEquiv.symm p).2 = (finProdFinEquiv.symm p).1 then 1 else 0) (by
      intro i j
      obtain ⟨⟨a, b⟩, rfl⟩ := finProdFinEquiv.surjective j
      simp [unf, front2]) 0 (finProdFinEquiv (0, 0)) (by simp) (by rw [Equiv.symm_apply_apply]; simp)
  convert h using 3
  simp

theorem exLow_setting {la : LinAlg ℝ} (hla : LaOk la) (hqr : QrAlways la) (os : ℕ) :
    LowRankSetting (exLowCfg la os) exFullAtt 1 exLowDf exLowData [7, 8] [40, 50] where
  setting := ⟨show 1 ≤ 2 by decide, rfl, hqr, Nat.two_pos, Nat.two_pos⟩
  la := hla
  att := rfl
  sweeps := show 1 ≤ 2 by decide
  crop := rfl
  long := ⟨7, show 2 ≤ 2 from le_refl 2⟩
  firstU := show FirstAppearance [7, 7, 8, 8] [7, 8] from ⟨by decide, by simp, by decide⟩
  firstI := show FirstAppearance [40, 40, 50, 50] [40, 50] from ⟨by decide, by simp, by decide⟩
  fits := show TIDims 2 2 2 2 2 1 from ⟨by decide, by decide, by decide, by decide, by decide, by decide⟩
  low := by
    show MultiRankLe (weighted 1 (tableTensor 2 [7, 8] [40, 50] exLowData) : T3 2 2 2 ℝ) 2 2 1
    rw [exLow_tensor]
    exact ⟨(Matrix.rank_le_card_height _).trans (by simp), exLow_rank1.1.le, exLow_rank2.1.le⟩

/-- Whatever correct routines are used, almost surely: user 7 (index 0) gets the score 1 / 2 for item 40 and 0 for item 50. -/
example (la : LinAlg ℝ) (hla : LaOk la) (hqr : QrAlways la) :
    ∀ᵐ v ∂uniformSource, Successively normalSource 6 fun l =>
      ∃ s, tdTrain ((exLowCfg la 0).drawn (fun _ => sourceRng v) (listRng sourceRng 0 l)).td exFullAtt
          (none : Option (ExitCallback ℝ Unit)) () [] exLowData = .ok s ∧
        ∃ f : Fin 2 → ℝ, tdRecommendUser s 0 = .ok ⟨2, f⟩ ∧ f 0 = 1 / 2 ∧ f 1 = 0 := by
  filter_upwards [C164_training (τ := Unit) (exLow_setting hla hqr 0) uniformSource (fun v _ => sourceRng v)
    (fun _ => source_uniform) normalSource sourceRng source_normal 0] with v hv
  refine Successively.mono hv fun l _ ht => ?_
  have r1 := exLow_rank1
  have r2 := exLow_rank2
  rw [← exLow_tensor] at r1 r2
  obtain ⟨s, a1, a2⟩ := C164_predictions (exLow_setting hla hqr 0) (show 2 ≤ 2 from le_refl 2) r1.1 r2.1
    (B := (1 : Matrix (Fin 2) (Fin 2) ℝ)) rfl r1.2 r2.2 ht none () (fun f hf => by cases hf)
  refine ⟨s, a1, _, a2 (0 : Fin 2) [(0 : Fin 2), (0 : Fin 2)] rfl (List.cons_ne_nil _ _), ?_, ?_⟩
  · refine (Fin.sum_univ_one _).trans ?_
    show (1 : Matrix (Fin 2) (Fin 2) ℝ) 0 0 * ((1 : Matrix (Fin 2) (Fin 2) ℝ) * (Matrix.of fun _ _ => 1 / 2 : Matrix (Fin 2) (Fin 2) ℝ) *
      (1 : Matrix (Fin 2) (Fin 2) ℝ)) 0 1 = 1 / 2
    simp
  · refine (Fin.sum_univ_one _).trans ?_
    show (1 : Matrix (Fin 2) (Fin 2) ℝ) 1 0 * ((1 : Matrix (Fin 2) (Fin 2) ℝ) * (Matrix.of fun _ _ => 1 / 2 : Matrix (Fin 2) (Fin 2) ℝ) *
      (1 : Matrix (Fin 2) (Fin 2) ℝ)) 0 1 = 0
    simp

/-- Two trainings with different routines and draws, both exact, recommend the same. -/
example (la : LinAlg ℝ) (hla : LaOk la) (hqr : QrAlways la) (argp : ArgPart ℝ) :
    ∀ᵐ v ∂uniformSource, Successively normalSource 6 fun l =>
      ∀ᵐ v' ∂uniformSource, Successively normalSource 6 fun l' =>
        ∃ s s', tdTrain ((exLowCfg la 0).drawn (fun _ => sourceRng v) (listRng sourceRng 0 l)).td exFullAtt
            (none : Option (ExitCallback ℝ Unit)) () [] exLowData = .ok s ∧
          tdTrain ((exLowCfg realLA 0).drawn (fun _ => sourceRng v') (listRng sourceRng 0 l')).td exFullAtt
            (none : Option (ExitCallback ℝ Unit)) () [] exLowData = .ok s' ∧
          tdRecommend argp s [7, 8] 1 true false = tdRecommend argp s' [7, 8] 1 true false := by
  filter_upwards [C164_training (τ := Unit) (exLow_setting hla hqr 0) uniformSource (fun v _ => sourceRng v)
    (fun _ => source_uniform) normalSource sourceRng source_normal 0] with v hv
  refine Successively.mono hv fun l _ ht => ?_
  filter_upwards [C164_training (τ := Unit) (exLow_setting laOk_real qrAlways_real 0) uniformSource (fun v _ => sourceRng v)
    (fun _ => source_uniform) normalSource sourceRng source_normal 0] with v' hv'
  refine Successively.mono hv' fun l' _ ht' => ?_
  have r1 := exLow_rank1
  have r2 := exLow_rank2
  rw [← exLow_tensor] at r1 r2
  obtain ⟨s, s', a1, a2, -, a3⟩ := C164_same (exLow_setting hla hqr 0) (c' := exLowCfg realLA 0) rfl rfl
    (exLow_setting laOk_real qrAlways_real 0) r1.1 r2.1 ht ht' none () (fun f hf => by cases hf) none ()
    (fun f hf => by cases hf)
  exact ⟨s, s', a1, a2, a3 argp [7, 8] 1 true false⟩

/-- user 7 views 50 -/
noncomputable def exLowChunk : List (Row ℝ) := [⟨7, 50, 1, 5, 0⟩]

/-- the tensor of the table, the change, and the tensor after it -/
def exLowT : T3 2 2 2 ℝ := fun i j _ => if i = j then 1 else 0
def exLowD : T3 2 2 2 ℝ := ![![![0, -1], ![0, 1]], ![![0, 0], ![0, 0]]]
noncomputable def exLowT' : T3 2 2 2 ℝ := fun i j p => ![![2, 1], ![0, 3]] i j * ![2, 1] p / 5
noncomputable def exLowP2 : Matrix (Fin 2) (Fin 2) ℝ := !![4 / 5, 2 / 5; 2 / 5, 1 / 5]

theorem exLowP2_eq : exLowP2 = Matrix.of fun i j => ![2, 1] i * ![2, 1] j / ∑ k, ![2, 1] k * ![2, 1] k := by
  ext i j
  fin_cases i <;> fin_cases j <;> simp [exLowP2, Fin.sum_univ_two] <;> norm_num

/-- an invertible matrix -/
theorem full_proj {n k : ℕ} {M : Matrix (Fin n) (Fin k) ℝ} (N : Matrix (Fin k) (Fin n) ℝ) (h : M * N = 1) :
    M.rank = n ∧ OrthProj (1 : Matrix (Fin n) (Fin n) ℝ) M := by
  refine ⟨le_antisymm ((Matrix.rank_le_card_height _).trans (by simp)) ?_, ⟨by simp, by simp, N, h.symm⟩⟩
  have := Matrix.rank_mul_le_left M N
  rw [h, Matrix.rank_one] at this
  simpa using this

theorem exLow_next : TuckerNext 1 2 2 1 exLowT exLowD exLowD exLowT' 1 1 exLowP2 := by
  have h0 := full_proj (M := unf (exLowT + exLowD) * (unf exLowT).transpose) !![1, -1 / 2; 0, 1 / 2] (by
    have e : unf (exLowT + exLowD) * (unf exLowT).transpose = !![1, 1; 0, 2] := by
      ext i j
      simp only [Matrix.mul_apply, sum_finProd, unf, Matrix.of_apply, Matrix.transpose_apply, Equiv.symm_apply_apply]
      fin_cases i <;> fin_cases j <;> simp [exLowT, exLowD, Fin.sum_univ_two] <;> norm_num
    rw [e]
    ext i j
    fin_cases i <;> fin_cases j <;> simp [Matrix.mul_apply, Fin.sum_univ_two] <;> norm_num)
  have h1 := full_proj (M := unf (front1 (exLowT + exLowD)) * (unf (front1 exLowT)).transpose) !![1, 0; -1 / 2, 1 / 2] (by
    have e : unf (front1 (exLowT + exLowD)) * (unf (front1 exLowT)).transpose = !![1, 0; 1, 2] := by
      ext i j
      simp only [Matrix.mul_apply, sum_finProd, unf, Matrix.of_apply, Matrix.transpose_apply, Equiv.symm_apply_apply, front1]
      fin_cases i <;> fin_cases j <;> simp [exLowT, exLowD, Fin.sum_univ_two] <;> norm_num
    rw [e]
    ext i j
    fin_cases i <;> fin_cases j <;> simp [Matrix.mul_apply, Fin.sum_univ_two] <;> norm_num)
  have h2 := rank_one_proj ![2, 1] ![1, 1] (M := unf (front2 (exLowT + exLowD)) * (unf (front2 exLowT)).transpose) (by
    intro i j
    simp only [Matrix.mul_apply, sum_finProd, unf, Matrix.of_apply, Matrix.transpose_apply, Equiv.symm_apply_apply, front2]
    fin_cases i <;> fin_cases j <;> simp [exLowT, exLowD, Fin.sum_univ_two] <;> norm_num) 0 0 (by simp) (by simp)
  rw [← exLowP2_eq] at h2
  refine ⟨?_, ?_, ?_, ?_, ?_, ?_, ?_⟩
  all_goals simp only [Matrix.transpose_one, Matrix.mul_one, mul2_one, mul0_one, mul1_one]
  · exact h0.1
  · exact h0.2
  · exact h1.1
  · exact h1.2
  · exact h2.1
  · exact h2.2
  · funext i j k
    fin_cases i <;> fin_cases j <;> fin_cases k <;>
      simp [mul2, exLowP2, exLowT, exLowD, exLowT', Fin.sum_univ_two] <;> norm_num

theorem exLow_path : TIPath 2 (1 : Matrix (Fin 2) (Fin 2) ℝ) 2 2 1 [7, 8] [40, 50] (tsSort exLowDf) true [exLowChunk]
    fun t => if t = 0 then exLowT else exLowT' := by
  intro t c ht
  match t with
  | 0 =>
    obtain rfl := Option.some.inj ht
    refine ⟨⟨List.cons_ne_nil _ _, fun r hr => by rw [List.mem_singleton.1 hr]; decide,
      7, show ([40, 50] : List ℤ) ≠ [40, 40] by decide⟩, Or.inl ((Finset.card_le_univ _).trans (by decide)),
      1, 1, exLowP2, ?_⟩
    have hD : (windowTensor 2 [7, 8] [40, 50] (tsSort exLowDf ++ exLowChunk) -
        windowTensor 2 [7, 8] [40, 50] (tsSort exLowDf) : T3 2 2 2 ℝ) = exLowD := by
      have e1 : windowTensor 2 [7, 8] [40, 50] (tsSort exLowDf) =
          (![![![1, 1], ![0, 0]], ![![0, 0], ![1, 1]]] : T3 2 2 2 ℝ) := by
        funext i j p
        fin_cases i <;> fin_cases j <;> fin_cases p <;> rfl
      have e2 : windowTensor 2 [7, 8] [40, 50] (tsSort exLowDf ++ exLowChunk) =
          (![![![1, 0], ![0, 1]], ![![0, 0], ![1, 1]]] : T3 2 2 2 ℝ) := by
        funext i j p
        fin_cases i <;> fin_cases j <;> fin_cases p <;> rfl
      rw [e1, e2]
      funext i j k
      fin_cases i <;> fin_cases j <;> fin_cases k <;> simp [exLowD]
    have := exLow_next
    rw [← hD] at this
    exact this
  | t + 1 => simp at ht

theorem exLow_rank1' : (unf (front1 exLowT')).rank = 2 := by
  have := full_proj (M := unf (front1 exLowT')) (Matrix.of fun p j =>
      if (finProdFinEquiv.symm p).1 = (0 : Fin 2) then ![![5 / 4, 0], ![-5 / 12, 5 / 6]] (finProdFinEquiv.symm p).2 j else 0) (by
    ext i j
    simp only [Matrix.mul_apply, sum_finProd, unf, Matrix.of_apply, Equiv.symm_apply_apply, front1]
    fin_cases i <;> fin_cases j <;> simp [exLowT', Fin.sum_univ_two] <;> norm_num)
  exact this.1

theorem exLow_rank2' : (unf (front2 exLowT')).rank = 1 :=
  (rank_one_proj ![2, 1] (M := unf (front2 exLowT'))
    (fun p => ![![2, 1], ![0, 3]] (finProdFinEquiv.symm p).2 (finProdFinEquiv.symm p).1 / 5) (by
      intro i j
      obtain ⟨⟨a, b⟩, rfl⟩ := finProdFinEquiv.surjective j
      simp only [unf, Matrix.of_apply, Equiv.symm_apply_apply, front2, exLowT']
      ring) 0 (finProdFinEquiv (0, 0)) (by simp) (by rw [Equiv.symm_apply_apply]; simp)).1

/-- `TIRec` with one set of routines and `TIRecA` with another, trained with different draws and updated with the view of 50 by
user 7: almost surely the same recommendations. -/
example (la : LinAlg ℝ) (hla : LaOk la) (hqr : QrAlways la) (argp : ArgPart ℝ) :
    ∀ᵐ v ∂uniformSource, Successively normalSource 6 fun l =>
      ∀ᵐ v' ∂uniformSource, Successively normalSource 6 fun l' =>
        ∃ s s' q q', tdTrain ((exLowCfg la 0).drawn (fun _ => sourceRng v) (listRng sourceRng 0 l)).td exFullAtt
            (none : Option (ExitCallback ℝ Unit)) () [] exLowData = .ok s ∧
          tdTrain ((exLowCfg realLA 0).drawn (fun _ => sourceRng v') (listRng sourceRng 0 l')).td exFullAtt
            (none : Option (ExitCallback ℝ Unit)) () [] exLowData = .ok s' ∧
          tiUpdates tirecRounds ((exLowCfg la 0).drawn (fun _ => sourceRng v) (listRng sourceRng 0 l)) exFullAtt s [exLowChunk]
            true = .ok q ∧
          tiUpdates tirecaMiddle ((exLowCfg realLA 0).drawn (fun _ => sourceRng v') (listRng sourceRng 0 l')) exFullAtt s'
            [exLowChunk] true = .ok q' ∧
          tdRecommend argp q [7, 8] 1 false false = tdRecommend argp q' [7, 8] 1 false false := by
  filter_upwards [C164_training (τ := Unit) (exLow_setting hla hqr 0) uniformSource (fun v _ => sourceRng v)
    (fun _ => source_uniform) normalSource sourceRng source_normal 0] with v hv
  refine Successively.mono hv fun l _ ht => ?_
  filter_upwards [C164_training (τ := Unit) (exLow_setting laOk_real qrAlways_real 0) uniformSource (fun v _ => sourceRng v)
    (fun _ => source_uniform) normalSource sourceRng source_normal 0] with v' hv'
  refine Successively.mono hv' fun l' _ ht' => ?_
  obtain ⟨s, s', q, q', a1, a2, a3, a4, -, a5⟩ := C164_updates (Or.inl rfl) (Or.inr rfl) (exLow_setting hla hqr 0)
    (c' := exLowCfg realLA 0) rfl rfl (exLow_setting laOk_real qrAlways_real 0) (att := none) rfl rfl [exLowChunk] true
    (S := fun t => if t = 0 then exLowT else exLowT') exLow_tensor.symm exLow_path exLow_rank1' exLow_rank2' ht ht' none ()
    (fun f hf => by cases hf) none () (fun f hf => by cases hf)
  exact ⟨s, s', q, q', a1, a2, a3, a4, a5 argp [7, 8] 1 false false⟩

/-- With oversampling 3 one seed is enough for all sketches. -/
example : ∀ᵐ w ∂uniformSource.prod normalSource,
    ∃ s, tdTrain ((exLowCfg realLA 3).drawn (fun _ => sourceRng w.1) fun _ _ => sourceRng w.2).td exFullAtt
        (none : Option (ExitCallback ℝ Unit)) () [] exLowData = .ok s ∧ HoldsTensor s 2 2 1 exLowT := by
  haveI : IsProbabilityMeasure uniformSource := by unfold uniformSource; infer_instance
  haveI : IsProbabilityMeasure normalSource := by unfold normalSource; infer_instance
  have hf : HasLaw Prod.fst uniformSource (uniformSource.prod normalSource) :=
    ⟨measurable_fst.aemeasurable, measurePreserving_fst.map_eq⟩
  have hs : HasLaw Prod.snd normalSource (uniformSource.prod normalSource) :=
    ⟨measurable_snd.aemeasurable, measurePreserving_snd.map_eq⟩
  filter_upwards [C164_wide (τ := Unit) (exLow_setting laOk_real qrAlways_real 3) (uniformSource.prod normalSource)
    (fun w _ => sourceRng w.1) (fun _ m n => (source_uniform m n).comp hf) (fun w _ _ => sourceRng w.2)
    (fun _ _ m n => (source_normal m n).comp hs) (show 2 * 1 ≤ 2 + 3 by decide) (show 2 * 1 ≤ 2 + 3 by decide)
    (show 2 * 2 ≤ 1 + 3 by decide)] with w hw
  obtain ⟨s, a1, -, a2⟩ := hw none () (fun f hf => by cases hf)
  have e : (weighted 1 (tableTensor 2 [7, 8] [40, 50] exLowData) : T3 2 2 2 ℝ) = exLowT := exLow_tensor
  refine ⟨s, a1, ?_⟩
  rw [← e]
  exact a2

end

end DynCF
