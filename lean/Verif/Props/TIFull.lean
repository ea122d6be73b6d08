/-
Property theorems C144: with full rank, TIRec and TIRecA hold their data without any loss from training through all
updates, so the only errors are those of the data: users who were trained with short sequences stand at other places.
-/
import Verif.Props.TITracks
import Verif.Props.Alignment
import Verif.Props.SeqCompletion
import Mathlib.LinearAlgebra.Matrix.NonsingularInverse

set_option linter.unusedSectionVars false

namespace DynCF
open Matrix
variable {K : Type}

/-! ### Specification -/

/-- The sequences of the users written from the left: the oldest of the last `L` items stands at place 0. -/
def leftTensor [Zero K] [One K] (L : ℕ) (users items : List ℤ) (rows : List (Row K)) :
    T3 users.length items.length L K :=
  fun i j p => if (lastItems L rows users[i])[(p : ℕ)]? = some items[j] then 1 else 0

/-- The tensor whose places are mixed by a matrix: `∑ A[l, k] x[i, j, l]`. -/
def weighted [CommRing K] {n0 n1 n2 : ℕ} (A : Matrix (Fin n2) (Fin n2) K) (x : T3 n0 n1 n2 K) : T3 n0 n1 n2 K :=
  fun i j k => ∑ l, A l k * x i j l

theorem weighted_one [CommRing K] {n0 n1 n2 : ℕ} (x : T3 n0 n1 n2 K) : weighted 1 x = x := by
  funext i j k
  simp [weighted, Matrix.one_apply]

theorem weighted_add [CommRing K] {n0 n1 n2 : ℕ} (A : Matrix (Fin n2) (Fin n2) K) (x y : T3 n0 n1 n2 K) :
    weighted A (x + y) = weighted A x + weighted A y := by
  funext i j k
  show ∑ l, A l k * (x i j l + y i j l) = ∑ l, A l k * x i j l + ∑ l, A l k * y i j l
  rw [← Finset.sum_add_distrib]
  exact Finset.sum_congr rfl fun _ _ => mul_add _ _ _

theorem weighted_sub [CommRing K] {n0 n1 n2 : ℕ} (A : Matrix (Fin n2) (Fin n2) K) (x y : T3 n0 n1 n2 K) :
    weighted A (x - y) = weighted A x - weighted A y := by
  funext i j k
  show ∑ l, A l k * (x i j l - y i j l) = ∑ l, A l k * x i j l - ∑ l, A l k * y i j l
  rw [← Finset.sum_sub_distrib]
  exact Finset.sum_congr rfl fun _ _ => mul_sub _ _ _

theorem lastItems_length (L : ℕ) (rows : List (Row K)) (u : ℤ) :
    (lastItems L rows u).length = min L (rowsOf u rows).length := by
  unfold lastItems
  rw [lastN_length, List.length_map]

/-- The two ways of writing sequences agree exactly if every user has at least `L` interactions. -/
theorem left_eq_window [Field K] {L : ℕ} {users items : List ℤ} {rows : List (Row K)}
    (hu : ∀ u ∈ users, ∃ r ∈ rows, r.user = u) (hi : ∀ u ∈ users, ∀ x ∈ lastItems L rows u, x ∈ items) (hL : 1 ≤ L) :
    (leftTensor L users items rows : T3 _ _ _ K) = windowTensor L users items rows ↔
      ∀ u ∈ users, L ≤ (rowsOf u rows).length := by
  constructor
  · intro h u hu'
    by_contra hlt
    obtain ⟨i, hi', rfl⟩ := List.mem_iff_getElem.1 hu'
    have hne : rowsOf users[i] rows ≠ [] := by
      obtain ⟨r, hr, he⟩ := hu _ hu'
      intro h0
      have : r ∈ rowsOf users[i] rows := List.mem_filter.2 ⟨hr, by simp [he]⟩
      rw [h0] at this
      cases this
    have hlen := lastItems_length L rows users[i]
    have h1 : 1 ≤ (rowsOf users[i] rows).length := List.length_pos_iff.2 hne
    have h0 : 0 < (lastItems L rows users[i]).length := by omega
    obtain ⟨j, hj, hx⟩ := List.mem_iff_getElem.1 (hi _ hu' _ (List.getElem_mem h0))
    have e := congrFun (congrFun (congrFun h ⟨i, hi'⟩) ⟨j, hj⟩) ⟨0, hL⟩
    unfold leftTensor windowTensor places at e
    dsimp only [Fin.getElem_fin] at e
    rw [if_pos (by rw [List.getElem?_eq_getElem h0, hx]), if_neg] at e
    · exact one_ne_zero e
    · rw [List.getElem?_append_left (by rw [List.length_replicate]; omega), List.getElem?_replicate, if_pos (by omega)]
      intro h
      cases h
  · intro h
    funext i j p
    have := h users[i] (List.getElem_mem _)
    have hlen := lastItems_length L rows users[i]
    unfold leftTensor windowTensor places
    rw [show L - (lastItems L rows users[i]).length = 0 by omega, List.replicate_zero, List.nil_append,
      List.getElem?_map]
    cases (lastItems L rows users[i])[(p : ℕ)]? with
    | none => simp
    | some x => simp

/-! ### Full rank -/

section
variable [Field K] [LinearOrder K] [IsStrictOrderedRing K]
variable {n0 n1 n2 : ℕ}

/-- A decomposition with square orthonormal factors loses nothing. -/
theorem tucker_full {U : Matrix (Fin n0) (Fin n0) K} {V : Matrix (Fin n1) (Fin n1) K} {W : Matrix (Fin n2) (Fin n2) K}
    (hU : U.transpose * U = 1) (hV : V.transpose * V = 1) (hW : W.transpose * W = 1) (x : T3 n0 n1 n2 K) :
    tuckerTensor U V W (coreTensor x U V W) = x := by
  rw [tuckerTensor_eq, coreTensor_eq, ← mul02_comm, ← mul01_comm, mul0_mul0, mul_eq_one_comm.1 hU, mul0_one,
    ← mul12_comm, mul1_mul1, mul_eq_one_comm.1 hV, mul1_one, mul2_mul2, mul_eq_one_comm.1 hW, mul2_one]

variable {cfg : TICfg K} {m : TDAtt K} {st : TDState K}

/-- The integrator with full rank adds the delta, weighted by the attention. -/
theorem tiOld_full (hqr : QrAlways cfg.td.hooi.la) {att : Option (Matrix (Fin cfg.td.seqLen) (Fin cfg.td.seqLen) K)}
    (hatt : tiAttArg cfg m = attArg att) {r0 r1 r2 : ℕ} (hd : TIDims n0 n1 cfg.td.seqLen r0 r1 r2)
    (e0 : r0 = n0) (e1 : r1 = n1) (e2 : r2 = cfg.td.seqLen) {S D : T3 n0 n1 cfg.td.seqLen K}
    (h : HoldsTensor st r0 r1 r2 S) (δ : List DRow) (hne : δ ≠ [])
    (hu : ∀ r ∈ δ, 0 ≤ r.user ∧ r.user < n0) (hi : ∀ r ∈ δ, 0 ≤ r.item ∧ r.item < n1)
    (hp : ∀ r ∈ δ, 0 ≤ r.pos ∧ r.pos < cfg.td.seqLen)
    (hδ : ∀ (i : Fin n0) (j : Fin n1) (p : Fin cfg.td.seqLen),
      (deltaVal δ ((i : ℕ) : ℤ) ((j : ℕ) : ℤ) ((p : ℕ) : ℤ) : K) = D i j p) :
    ∃ st', tiOld cfg m st δ = .ok st' ∧ HoldsTensor st' r0 r1 r2 (S + weighted (attVal att) D) ∧ TISame st st' := by
  subst e0 e1 e2
  obtain ⟨U, V, W, c, h, hV, hW, hS⟩ := h
  obtain ⟨es, hes⟩ := delta_typed (K := K) δ r0 r1 cfg.td.seqLen hu hi hp
  obtain ⟨U1, V1, W1, e, o0, o1, o2⟩ := C85_projection cfg.td.hooi.la hqr es (hes.ne hne) att hd U V W c
    cfg.td.hooi.parallel
  refine ⟨_, ?_, ⟨U1, V1, W1, _, setFac_shape st U1 V1 W1 _, o1, o2, tucker_full o0 o1 o2 _⟩, setFac_same _ _⟩
  have hD : cooTensor es = D := by
    funext i j k
    rw [hes.coo, hδ]
  have hx : (fun i j k => tuckerTensor U V W c i j k + ∑ l, attVal att l k * cooTensor es i j l) =
      S + weighted (attVal att) D := by
    rw [hD, hS]
    rfl
  rw [hx] at e
  unfold tiOld
  rw [(tiCore_stores h).1, except_bind_ok, (tiCore_stores h).2, hes.inds, hes.vals, hatt, h.u, h.v]
  dsimp only
  rw [e]
  rfl

/-! ### Training -/

theorem coo_at {es : List (Ent n0 n1 n2 K)} {inds : List Inter} {vals : List K} (h1 : inds.map Inter.ind = indsOf es)
    (h2 : vals = valsOf es) (i : Fin n0) (j : Fin n1) (k : Fin n2) :
    cooTensor es i j k = (((inds.zip vals).filter fun e => decide (e.1.user = ((i : ℕ) : ℤ) ∧ e.1.item = ((j : ℕ) : ℤ) ∧
      e.1.pos = ((k : ℕ) : ℤ))).map Prod.snd).sum := by
  subst h2
  induction es generalizing inds with
  | nil =>
    obtain rfl : inds = [] := List.map_eq_nil_iff.1 h1
    rfl
  | cons e es ih =>
    match inds, h1 with
    | x :: inds, h1 =>
      obtain ⟨hx, ht⟩ := List.cons.inj h1
      have := ih ht
      unfold cooTensor at this ⊢
      rw [show valsOf (e :: es) = e.2 :: valsOf es from rfl, List.zip_cons_cons, List.filter_cons, List.filter_cons]
      obtain ⟨⟨a, b, c⟩, v⟩ := e
      have hx1 : x.user = ((a : ℕ) : ℤ) := congrArg Prod.fst hx
      have hx2 : x.item = ((b : ℕ) : ℤ) := congrArg (fun y => y.2.1) hx
      have hx3 : x.pos = ((c : ℕ) : ℤ) := congrArg (fun y => y.2.2) hx
      have hc : decide ((a, b, c) = (i, j, k)) = decide (x.user = ((i : ℕ) : ℤ) ∧ x.item = ((j : ℕ) : ℤ) ∧
          x.pos = ((k : ℕ) : ℤ)) := by
        rw [decide_eq_decide, hx1, hx2, hx3, Prod.mk.injEq, Prod.mk.injEq, Fin.ext_iff, Fin.ext_iff, Fin.ext_iff]
        omega
      dsimp only at hc ⊢
      rw [hc]
      split
      · rw [List.map_cons, List.map_cons, List.sum_cons, List.sum_cons, this]
      · exact this

/-- What a cropped table with relevance one gives to a user, an item and a place. -/
theorem tableAt_cropped {L : ℕ} {df : List (Row K)} (hrel : ∀ r ∈ df, r.rel = 1) (u x : ℤ) (p : ℕ) :
    tableAt (cropSpec L df true) u x (p : ℤ) = if (lastItems L (tsSort df) u)[p]? = some x then 1 else 0 := by
  rw [tableAt_user, cropSpec_user, if_pos rfl]
  have hr : rowsOf u (tsSort df) = tsSort (rowsOf u df) := filter_stableSort ts_trans ts_total _ _
  have h1 : ∀ r ∈ lastN L (tsSort (rowsOf u df)), r.rel = 1 := fun r hr => by
    have := (mem_tsSort _ _).1 (mem_lastN hr)
    exact hrel r (List.mem_filter.1 this).1
  rw [sum_numbered _ 0 (fun k r hk => ?_) fun r hr => h1 _ (by
    have := List.mem_map_of_mem (f := PRow.row) hr
    rwa [posed_rows] at this)]
  · have e : ((posed (lastN L (tsSort (rowsOf u df)))).map fun r => r.row.item) = lastItems L (tsSort df) u := by
      unfold lastItems
      rw [hr, show (fun r : PRow K => r.row.item) = Row.item ∘ PRow.row from rfl, ← List.map_map, posed_rows]
      unfold lastN
      rw [List.map_drop, List.length_map]
    rw [e]
    simp
  · have := congrArg (fun l : List ℤ => l[k]?) (posed_pos (lastN L (tsSort (rowsOf u df))))
    simp only [List.getElem?_map, hk, Option.map_some] at this
    rcases hq : (List.range (lastN L (tsSort (rowsOf u df))).length)[k]? with _ | y
    · rw [hq] at this; cases this
    · rw [hq] at this
      obtain ⟨q1, q2⟩ := List.getElem?_eq_some_iff.1 hq
      rw [List.getElem_range] at q2
      have := Option.some.inj this
      dsimp only at this
      omega

/-- Training with full rank. -/
theorem tdTrain_full {τ : Type} (hL : 1 ≤ cfg.td.seqLen) (hm : tdInit cfg.td = .ok m)
    (hqr : ∀ (m n : ℕ) (A : Matrix (Fin m) (Fin n) K), QrOk cfg.td.hooi.la A)
    (hsvd : ∀ (m n : ℕ) (A : Matrix (Fin m) (Fin n) K), SvdOk cfg.td.hooi.la A)
    {A : Matrix (Fin cfg.td.seqLen) (Fin cfg.td.seqLen) K} (hA : m.att = ⟨_, _, A⟩)
    (cb : Option (ExitCallback K τ)) (cb0 : τ) (hcb : ∀ f, cb = some f → ∀ t x g, ∃ r, f t x g = .ok r)
    (hn : 1 ≤ cfg.td.nIter) (df : List (Row K)) (data : List (PRow K)) (hrel : ∀ r ∈ df, r.rel = 1)
    (hcrop : getDfWithCroppedPos df cfg.td.seqLen true = .ok data) (hfull : ∃ u, cfg.td.seqLen ≤ (rowsOf u df).length)
    (users items : List ℤ) (hu : FirstAppearance (data.map fun p => p.row.user) users)
    (hi : FirstAppearance (data.map fun p => p.row.item) items) (hd : cfg.Fits users items)
    (e0 : cfg.td.hooi.rank.1 = users.length) (e1 : cfg.td.hooi.rank.2.1 = items.length)
    (e2 : cfg.td.hooi.rank.2.2 = cfg.td.seqLen) :
    ∃ s, tdTrain cfg.td m cb cb0 [] data = .ok s ∧ TISeen cfg m s users items (tsSort df) ∧
      HoldsTensor s cfg.td.hooi.rank.1 cfg.td.hooi.rank.2.1 cfg.td.hooi.rank.2.2
        (weighted A (leftTensor cfg.td.seqLen users items (tsSort df))) := by
  obtain ⟨c1, c2⟩ := C28_cropped df cfg.td.seqLen true hL data hcrop
  have hne : df ≠ [] := (crop_ok_inv _ _ _ hcrop).1
  obtain ⟨s, rows, mp, g1, hs, hinv⟩ := tdTrain_inv hL hm cb cb0 data hcb c1 (c2.2 hfull) hn users items hu hi hd
  have hsort : data.Pairwise fun a b => a.row.user < b.row.user ∨ (a.row.user = b.row.user ∧ a.pos ≤ b.pos) := by
    rw [(crop_ok_inv _ _ _ hcrop).2.2]
    exact cropSpec_sorted _ df true
  obtain ⟨rows1, mp1, users1, items1, k1, k2, k3, k4, k5, k6⟩ := train_mapped data
  obtain ⟨rfl, rfl⟩ := Prod.mk.inj (Except.ok.inj (g1.symm.trans k1))
  obtain rfl := hu.unique k2
  obtain rfl := hi.unique k4
  have hinds := sortedInds_of_sorted k6 k2 hsort
  refine ⟨s, hs, ⟨data, _, hinv, by rw [hinds]; exact ordered_of_mapped k6, fun u => ?_⟩, ?_⟩
  · have := lastItems_crop hL (ext := []) (rows := []) hne hcrop (fun _ => rfl) u
    simpa [inTime] using this
  · have hdne : data ≠ [] := by
      obtain ⟨r, hr, -⟩ := c2.2 hfull
      exact List.ne_nil_of_mem hr
    obtain ⟨rows', mp', us, is', t, P, h1, h2, h3, h4, h5, ht, hsh, hp1, hp2, hlen, hrange⟩ :=
      C28_shape data hdne fun r hr => (c1 r hr).1
    obtain rfl := hu.unique h2
    obtain rfl := hi.unique h4
    obtain ⟨rfl, rfl⟩ := Prod.mk.inj (Except.ok.inj (g1.symm.trans h1))
    have hPL : P = cfg.td.seqLen := by
      obtain ⟨r, hr, hrp⟩ := hp1
      have a1 := (c1 r hr).2
      obtain ⟨r', hr', hrp'⟩ := c2.2 hfull
      have a2 := hp2 r' hr'
      omega
    subst hPL
    have hs' := hs
    unfold tdTrain at hs'
    rw [h1, except_bind_ok] at hs'
    obtain ⟨t', f, g, cbEnd, aw, lw, ht', hga, haw, hlw, -, -, -, b4, b5, b6, b7, -⟩ := tdFit_ok hs'
    obtain rfl := Except.ok.inj (ht.symm.trans ht')
    obtain ⟨es, he1, he2⟩ := coo_data_typed (n0 := users.length) (n1 := items.length) (n2 := cfg.td.seqLen)
      (t.inds.map Inter.ind) t.vals (by rw [List.length_map, hlen]) (by
        intro x hx
        obtain ⟨y, hy, rfl⟩ := List.mem_map.1 hx
        exact hrange y hy)
    rw [he1, he2, hsh, hA] at hga
    obtain ⟨r0, r1, r2, U, V, W, j1, j2⟩ := C78_ga_satf_core cfg.td.hooi cfg.td.normOf es A cfg.td.nIter hn
      cfg.td.growthTol cb cb0 none cfg.td.force f g cbEnd hga
    obtain ⟨o0, o1, o2⟩ := C80_ga_satf_orthonormal cfg.td.hooi hqr hsvd cfg.td.normOf _ _ _ _ cfg.td.nIter
      cfg.td.growthTol cb cb0 none (Or.inl rfl) cfg.td.force f g cbEnd hga
    obtain ⟨U', V', W', c', q⟩ := hinv.shape
    subst j1
    dsimp only at o0 o1 o2 b4 b5 b6
    have d0 : r0 = users.length := by
      have := congrArg Mat.cols (b4.symm.trans q.u)
      exact this.trans e0
    have d1 : r1 = items.length := by
      have := congrArg Mat.cols (b5.symm.trans q.v)
      exact this.trans e1
    have d2 : r2 = cfg.td.seqLen := by
      have := congrArg Mat.cols (b6.symm.trans q.w)
      exact this.trans e2
    subst d0 d1 d2
    rw [e0, e1, e2]
    refine ⟨U, V, W, _, ⟨b4, b5, b6, b7.trans j2⟩, o1, o2, ?_⟩
    have hx : cooTensor es = leftTensor cfg.td.seqLen users items (tsSort df) := by
      funext i j p
      have z1 := tensorAt_of_unsorted ht hinds ((i : ℕ) : ℤ) ((j : ℕ) : ℤ) ((p : ℕ) : ℤ)
      have z2 := tableAt_mapped hu.nodup hi.nodup k6 i j users[i] items[j] ((p : ℕ) : ℤ)
        (List.getElem?_eq_getElem i.2) (List.getElem?_eq_getElem j.2)
      have z3 := tableAt_cropped (L := cfg.td.seqLen) hrel users[i] items[j] p
      rw [← (crop_ok_inv _ _ _ hcrop).2.2] at z3
      exact ((coo_at he1 he2 i j p).trans z1).trans (z2.trans z3)
    have hw : coreTensor (cooTensor es) U V (A * W) = coreTensor (weighted A (cooTensor es)) U V W := by
      rw [coreTensor_eq, coreTensor_eq, Matrix.transpose_mul, ← mul2_mul2]
      rfl
    rw [hw, tucker_full o0 o1 o2, hx]

/-! ### From training through the updates -/

/-- A training table with relevance one, cropped to the last `seq_len` rows of every user (at least one user has so many),
and a model whose rank is the full one for the `users` and `items` of the table; `A` is the attention matrix. -/
structure FullSetting (cfg : TICfg K) (m : TDAtt K) (A : Matrix (Fin cfg.td.seqLen) (Fin cfg.td.seqLen) K)
    (df : List (Row K)) (data : List (PRow K)) (users items : List ℤ) : Prop where
  setting : TISetting cfg m
  svd : ∀ (m n : ℕ) (B : Matrix (Fin m) (Fin n) K), SvdOk cfg.td.hooi.la B
  att : m.att = ⟨_, _, A⟩
  sweeps : 1 ≤ cfg.td.nIter
  ones : ∀ r ∈ df, r.rel = 1
  crop : getDfWithCroppedPos df cfg.td.seqLen true = .ok data
  long : ∃ u, cfg.td.seqLen ≤ (rowsOf u df).length
  firstU : FirstAppearance (data.map fun p => p.row.user) users
  firstI : FirstAppearance (data.map fun p => p.row.item) items
  fits : cfg.Fits users items
  rank : cfg.td.hooi.rank = (users.length, items.length, cfg.td.seqLen)

/-- Every chunk is not empty, has known users and items, and moves some window. -/
def KnownChunks (L : ℕ) (users items : List ℤ) (rows : List (Row K)) (chunks : List (List (Row K))) (b : Bool) : Prop :=
  ∀ (t : ℕ) (c : List (Row K)), chunks[t]? = some c →
    TIKnown L users items (rows ++ ((chunks.take t).map (inTime b)).flatten) (inTime b c) c

variable {rows : List (Row K)} {users items : List ℤ}

/-- Updates with full rank add the difference of the windows, weighted by the attention of the updates. -/
theorem tiUpdates_full {rounds : TIRounds K} (hc : IsTIClass rounds) (hs : TISetting cfg m)
    {att : Option (Matrix (Fin cfg.td.seqLen) (Fin cfg.td.seqLen) K)} (hatt : tiAttArg cfg m = attArg att)
    (hf : cfg.Fits users items) (hrank : cfg.td.hooi.rank = (users.length, items.length, cfg.td.seqLen))
    (hseen : TISeen cfg m st users items rows) {S : T3 users.length items.length cfg.td.seqLen K}
    (hS : HoldsTensor st cfg.td.hooi.rank.1 cfg.td.hooi.rank.2.1 cfg.td.hooi.rank.2.2 S)
    (chunks : List (List (Row K))) (b : Bool) (hd : KnownChunks cfg.td.seqLen users items rows chunks b) :
    ∃ st', tiUpdates rounds cfg m st chunks b = .ok st' ∧
      HoldsTensor st' cfg.td.hooi.rank.1 cfg.td.hooi.rank.2.1 cfg.td.hooi.rank.2.2
        (S + weighted (attVal att)
          (windowTensor cfg.td.seqLen users items (rows ++ (chunks.map (inTime b)).flatten) -
            windowTensor cfg.td.seqLen users items rows)) := by
  induction chunks generalizing st rows S with
  | nil =>
    refine ⟨st, rfl, ?_⟩
    rw [List.map_nil, List.flatten_nil, List.append_nil, weighted_sub, sub_self, add_zero]
    exact hS
  | cons c cs ih =>
    have h0 := hd 0 c rfl
    rw [List.take_zero, List.map_nil, List.flatten_nil, List.append_nil] at h0
    obtain ⟨s1, a1, a2, a3, -⟩ := tiUpdate_known hc hs hf hseen hS c b h0
      fun δ s hne _ hu hi hp hδ hs' => tiOld_full hs.qr hatt hf (congrArg Prod.fst hrank)
        (congrArg (fun x => x.2.1) hrank) (congrArg (fun x => x.2.2) hrank)
        (D := windowTensor cfg.td.seqLen users items (rows ++ inTime b c) - windowTensor cfg.td.seqLen users items rows)
        hs' δ hne hu hi hp hδ
    obtain ⟨s2, b1, b2⟩ := ih a2 a3 fun t d ht => by
      have := hd (t + 1) d ht
      rw [List.take_succ_cons, List.map_cons, List.flatten_cons, ← List.append_assoc] at this
      exact this
    refine ⟨s2, ?_, ?_⟩
    · unfold tiUpdates at b1 ⊢
      rw [List.foldlM_cons, a1, except_bind_ok]
      exact b1
    · rw [List.map_cons, List.flatten_cons, ← List.append_assoc]
      convert b2 using 1
      rw [add_assoc, ← weighted_add]
      congr 2
      abel

/-- The matrix by which updates weight the places: the attention matrix, or the identity without attention and in the
light mode. -/
def updWeights (cfg : TICfg K) (A : Matrix (Fin cfg.td.seqLen) (Fin cfg.td.seqLen) K) :
    Matrix (Fin cfg.td.seqLen) (Fin cfg.td.seqLen) K :=
  if cfg.td.attF.isSome ∧ cfg.light = false then A else 1

/-- **C144, what the model holds.** Train `TIRec` or `TIRecA` (in both modes) with full rank on a cropped table with
relevance one, and update with any number of non-empty chunks of known users and items each of which moves some window.
Then everything succeeds, and the factors reproduce exactly: the sequences of the training table written from the left and
weighted by the attention, plus the difference between the windows of now and of the training table, weighted by the
attention of the updates. -/
theorem C144_holds {τ : Type} {rounds : TIRounds K} (hc : IsTIClass rounds)
    {A : Matrix (Fin cfg.td.seqLen) (Fin cfg.td.seqLen) K} {df : List (Row K)} {data : List (PRow K)}
    (h : FullSetting cfg m A df data users items) (cb : Option (ExitCallback K τ)) (cb0 : τ)
    (hcb : ∀ f, cb = some f → ∀ t x g, ∃ r, f t x g = .ok r) (chunks : List (List (Row K))) (b : Bool)
    (hd : KnownChunks cfg.td.seqLen users items (tsSort df) chunks b) :
    ∃ s st', tdTrain cfg.td m cb cb0 [] data = .ok s ∧ tiUpdates rounds cfg m s chunks b = .ok st' ∧
      HoldsTensor st' users.length items.length cfg.td.seqLen
        (weighted A (leftTensor cfg.td.seqLen users items (tsSort df)) + weighted (updWeights cfg A)
          (windowTensor cfg.td.seqLen users items (tsSort df ++ (chunks.map (inTime b)).flatten) -
            windowTensor cfg.td.seqLen users items (tsSort df))) := by
  obtain ⟨s, a1, a2, a3⟩ := tdTrain_full h.setting.len h.setting.att (fun _ _ B => h.setting.qr B) h.svd h.att cb cb0 hcb
    h.sweeps df data h.ones h.crop h.long users items h.firstU h.firstI h.fits (congrArg Prod.fst h.rank)
    (congrArg (fun x => x.2.1) h.rank) (congrArg (fun x => x.2.2) h.rank)
  obtain ⟨att, hatt, hval⟩ : ∃ att : Option (Matrix (Fin cfg.td.seqLen) (Fin cfg.td.seqLen) K),
      tiAttArg cfg m = attArg att ∧ attVal att = updWeights cfg A := by
    unfold updWeights tiAttArg
    by_cases hx : cfg.td.attF.isSome = true ∧ cfg.light = false
    · exact ⟨some A, by rw [hx.1, hx.2, h.att]; rfl, by rw [if_pos hx]; rfl⟩
    · refine ⟨none, ?_, by rw [if_neg hx]; rfl⟩
      rw [if_neg]
      · rfl
      · intro hy
        rw [Bool.and_eq_true, Bool.not_eq_true'] at hy
        exact hx hy
  obtain ⟨st', b1, b2⟩ := tiUpdates_full hc h.setting hatt h.fits h.rank a2 a3 chunks b hd
  rw [h.rank, hval] at b2
  exact ⟨s, st', a1, b1, b2⟩

theorem tsSort_rows (df : List (Row K)) (u : ℤ) : (rowsOf u (tsSort df)).length = (rowsOf u df).length := by
  rw [show rowsOf u (tsSort df) = tsSort (rowsOf u df) from filter_stableSort ts_trans ts_total _ _]
  exact stableSort_length _ _

/-- The users and the items of a cropped table, from the table itself. -/
theorem FullSetting.left_iff {A : Matrix (Fin cfg.td.seqLen) (Fin cfg.td.seqLen) K} {df : List (Row K)}
    {data : List (PRow K)} (h : FullSetting cfg m A df data users items) :
    (leftTensor cfg.td.seqLen users items (tsSort df) : T3 _ _ _ K) = windowTensor cfg.td.seqLen users items (tsSort df) ↔
      ∀ u ∈ users, cfg.td.seqLen ≤ (rowsOf u df).length := by
  have hcr : ∀ u, lastItems cfg.td.seqLen (data.map PRow.row) u = lastItems cfg.td.seqLen (tsSort df) u := fun u => by
    have := lastItems_crop h.setting.len (ext := []) (rows := []) (crop_ok_inv _ _ _ h.crop).1 h.crop (fun _ => rfl) u
    simpa [inTime] using this
  rw [left_eq_window ?_ ?_ h.setting.len]
  · exact forall₂_congr fun u _ => by rw [tsSort_rows]
  · intro u hu
    obtain ⟨r, hr, rfl⟩ := List.mem_map.1 ((h.firstU.mem u).1 hu)
    have hne : lastItems cfg.td.seqLen (data.map PRow.row) r.row.user ≠ [] := by
      have hlen := lastItems_length cfg.td.seqLen (data.map PRow.row) r.row.user
      have h1 : 1 ≤ (rowsOf r.row.user (data.map PRow.row)).length :=
        List.length_pos_of_mem (List.mem_filter.2 ⟨List.mem_map_of_mem hr, by simp⟩)
      have := h.setting.len
      intro h0
      rw [h0, List.length_nil] at hlen
      omega
    rw [hcr] at hne
    obtain ⟨x, hx⟩ := List.exists_mem_of_ne_nil _ hne
    obtain ⟨r', hr', -⟩ := List.mem_map.1 (mem_lastN hx)
    exact ⟨r', (List.mem_filter.1 hr').1, of_decide_eq_true (List.mem_filter.1 hr').2⟩
  · intro u _ x hx
    rw [← hcr] at hx
    obtain ⟨r', hr', rfl⟩ := List.mem_map.1 (mem_lastN hx)
    obtain ⟨p, hp, rfl⟩ := List.mem_map.1 (List.mem_filter.1 hr').1
    exact (h.firstI.mem _).2 (List.mem_map.2 ⟨p, hp, rfl⟩)

/-- **C144 (partial).** If every user of the training table has at least `seq_len` rows and the attention is not left out
in the updates, the factors reproduce exactly the windows of everything seen so far, weighted by the attention. Missing:
users with fewer rows (`C144_short`, `C144_violated`) and the light mode (`C144_holds` with identity weights in the
updates). -/
theorem C144_exact_partial {τ : Type} {rounds : TIRounds K} (hc : IsTIClass rounds)
    {A : Matrix (Fin cfg.td.seqLen) (Fin cfg.td.seqLen) K} {df : List (Row K)} {data : List (PRow K)}
    (h : FullSetting cfg m A df data users items) (hlong : ∀ u ∈ users, cfg.td.seqLen ≤ (rowsOf u df).length)
    (hlight : cfg.td.attF = none ∨ cfg.light = false) (cb : Option (ExitCallback K τ)) (cb0 : τ)
    (hcb : ∀ f, cb = some f → ∀ t x g, ∃ r, f t x g = .ok r) (chunks : List (List (Row K))) (b : Bool)
    (hd : KnownChunks cfg.td.seqLen users items (tsSort df) chunks b) :
    ∃ s st', tdTrain cfg.td m cb cb0 [] data = .ok s ∧ tiUpdates rounds cfg m s chunks b = .ok st' ∧
      HoldsTensor st' users.length items.length cfg.td.seqLen
        (weighted A (windowTensor cfg.td.seqLen users items (tsSort df ++ (chunks.map (inTime b)).flatten))) := by
  obtain ⟨s, st', a1, a2, a3⟩ := C144_holds hc h cb cb0 hcb chunks b hd
  refine ⟨s, st', a1, a2, ?_⟩
  have hu : updWeights cfg A = A := by
    unfold updWeights
    by_cases hx : cfg.td.attF.isSome = true ∧ cfg.light = false
    · rw [if_pos hx]
    · rw [if_neg hx]
      have hn : cfg.td.attF = none := by
        rcases hlight with h1 | h1
        · exact h1
        · cases hf : cfg.td.attF with
          | none => rfl
          | some f => exact absurd ⟨by rw [hf]; rfl, h1⟩ hx
      have hm := h.setting.att
      unfold tdInit at hm
      rw [hn] at hm
      have := h.att
      rw [← Except.ok.inj hm] at this
      unfold Mat.eye at this
      simpa using this
  rw [h.left_iff.2 hlong, hu, ← weighted_add, add_sub_cancel] at a3
  exact a3

theorem HoldsTensor.unique {r0 r1 r2 : ℕ} {s t : T3 n0 n1 n2 K} (h : HoldsTensor st r0 r1 r2 s)
    (h' : HoldsTensor st r0 r1 r2 t) : s = t := by
  obtain ⟨U, V, W, c, q, -, -, rfl⟩ := h
  obtain ⟨U', V', W', c', q', -, -, rfl⟩ := h'
  have e0 := q.u.symm.trans q'.u
  have e1 := q.v.symm.trans q'.v
  have e2 := q.w.symm.trans q'.w
  have e3 := q.core.symm.trans q'.core
  simp only [Mat.mk.injEq, heq_eq_eq, true_and, Option.some.injEq, Ten.mk.injEq] at e0 e1 e2 e3
  subst e0 e1 e2 e3
  rfl

/-- **C144, the general violation.** Without attention: as soon as one user of the training table has fewer than `seq_len`
rows, the model never holds the tensor of the windows, whatever is seen later (even if by then the user has a long
sequence): the error is always the one of the training table. -/
theorem C144_short {τ : Type} {rounds : TIRounds K} (hc : IsTIClass rounds)
    {df : List (Row K)} {data : List (PRow K)}
    (h : FullSetting cfg m 1 df data users items) (hshort : ∃ u ∈ users, (rowsOf u df).length < cfg.td.seqLen)
    (cb : Option (ExitCallback K τ)) (cb0 : τ)
    (hcb : ∀ f, cb = some f → ∀ t x g, ∃ r, f t x g = .ok r) (chunks : List (List (Row K))) (b : Bool)
    (hd : KnownChunks cfg.td.seqLen users items (tsSort df) chunks b) :
    ∃ s st', tdTrain cfg.td m cb cb0 [] data = .ok s ∧ tiUpdates rounds cfg m s chunks b = .ok st' ∧
      ¬ HoldsTensor st' users.length items.length cfg.td.seqLen
        (windowTensor cfg.td.seqLen users items (tsSort df ++ (chunks.map (inTime b)).flatten)) := by
  obtain ⟨s, st', a1, a2, a3⟩ := C144_holds hc h cb cb0 hcb chunks b hd
  refine ⟨s, st', a1, a2, fun hh => ?_⟩
  have e := a3.unique hh
  have hu : updWeights cfg 1 = 1 := by unfold updWeights; split <;> rfl
  rw [hu, weighted_one, weighted_one] at e
  have e' : leftTensor cfg.td.seqLen users items (tsSort df) =
      (windowTensor cfg.td.seqLen users items (tsSort df) : T3 _ _ _ K) := by
    have := congrArg (fun x => x - windowTensor cfg.td.seqLen users items (tsSort df ++ (chunks.map (inTime b)).flatten) +
      windowTensor cfg.td.seqLen users items (tsSort df)) e
    simp only [sub_self, zero_add] at this
    rw [← this]
    abel
  obtain ⟨u, hu, hl⟩ := hshort
  have := h.left_iff.1 e' u hu
  omega

end

/-! ### Concrete tables -/

section

/-- sequences of length 2, full rank for two users and two items, no attention -/
noncomputable def exFullCfg : TICfg ℝ where
  td := ⟨⟨realLA, fun _ => eyeRng, fun _ _ => eyeRng, (2, 2, 2), 1, 2, false⟩, fun _ => 0, 2, none, 1, 0, true⟩
  light := false
  explicitCalc := true
  vecRng := fun _ => eyeRng
  matRng := fun _ _ => eyeRng
  normal := eyeRng
  init := .zero
  integrator := false

noncomputable def exFullAtt : TDAtt ℝ := ⟨Mat.eye 2, Mat.eye 2⟩

/-- user 7 viewed 40 and then 50, user 8 viewed only 40 -/
noncomputable def exFullDf : List (Row ℝ) := [⟨7, 40, 1, 1, 0⟩, ⟨7, 50, 1, 2, 0⟩, ⟨8, 40, 1, 3, 0⟩]

noncomputable def exFullData : List (PRow ℝ) := [⟨⟨7, 40, 1, 1, 0⟩, 0⟩, ⟨⟨7, 50, 1, 2, 0⟩, 1⟩, ⟨⟨8, 40, 1, 3, 0⟩, 0⟩]

/-- user 8 views 50 -/
noncomputable def exFullChunk : List (Row ℝ) := [⟨8, 50, 1, 4, 0⟩]

theorem exFull_fits : TIDims 2 2 2 2 2 2 := ⟨by decide, by decide, by decide, by decide, by decide, by decide⟩

theorem exFull_setting : FullSetting exFullCfg exFullAtt 1 exFullDf exFullData [7, 8] [40, 50] where
  setting := ⟨show 1 ≤ 2 by decide, rfl, qrAlways_real, Nat.two_pos, Nat.two_pos⟩
  svd := fun _ _ B => realLA_svd B
  att := rfl
  sweeps := le_refl 1
  ones := by
    intro r hr
    simp only [exFullDf, List.mem_cons, List.not_mem_nil, or_false] at hr
    rcases hr with rfl | rfl | rfl <;> rfl
  crop := rfl
  long := ⟨7, show 2 ≤ 2 from le_refl 2⟩
  firstU := show FirstAppearance [7, 7, 8] [7, 8] from ⟨by decide, by simp, by decide⟩
  firstI := show FirstAppearance [40, 50, 40] [40, 50] from ⟨by decide, by simp; tauto, by decide⟩
  fits := exFull_fits
  rank := rfl

theorem exFull_known : KnownChunks 2 [7, 8] [40, 50] exFullDf [exFullChunk] true := by
  intro t c ht
  match t with
  | 0 =>
    obtain rfl := Option.some.inj ht
    exact ⟨List.cons_ne_nil _ _, fun r hr => by rw [List.mem_singleton.1 hr]; decide,
      8, show ([40, 50] : List ℤ) ≠ [40] by decide⟩
  | t + 1 => simp at ht

/-- **C144 is violated.** User 7 viewed 40 and 50, user 8 viewed 40; then user 8 views 50. With sequences of length 2 the
window of user 8 then is `[40, 50]`, so the entry of item 40 (index 0) is 1 at place 0 and 0 at place 1. The model of either
class, although its rank is full, reproduces 2 and -1. -/
theorem C144_violated (rounds : TIRounds ℝ) (hc : IsTIClass rounds) :
    FullSetting exFullCfg exFullAtt 1 exFullDf exFullData [7, 8] [40, 50] ∧
    KnownChunks 2 [7, 8] [40, 50] exFullDf [exFullChunk] true ∧
    places 2 (exFullDf ++ exFullChunk) 8 = [some 40, some 50] ∧
    ∃ s st', tdTrain exFullCfg.td exFullAtt (none : Option (ExitCallback ℝ Unit)) () [] exFullData = .ok s ∧
      tiUpdates rounds exFullCfg exFullAtt s [exFullChunk] true = .ok st' ∧
      ∃ T : T3 2 2 2 ℝ, HoldsTensor st' 2 2 2 T ∧ T 1 0 0 = 2 ∧ T 1 0 1 = -1 := by
  refine ⟨exFull_setting, exFull_known, rfl, ?_⟩
  obtain ⟨s, st', a1, a2, a3⟩ := C144_holds hc exFull_setting (none : Option (ExitCallback ℝ Unit)) ()
    (fun f hf => by cases hf) [exFullChunk] true exFull_known
  have hu : updWeights exFullCfg 1 = 1 := by unfold updWeights; split <;> rfl
  rw [hu, weighted_one, weighted_one] at a3
  refine ⟨s, st', a1, a2, _, a3, ?_, ?_⟩
  · show (1 : ℝ) + (1 - 0) = 2
    norm_num
  · show (0 : ℝ) + (0 - 1) = -1
    norm_num

/-- user 8 has two interactions as well -/
noncomputable def exLongDf : List (Row ℝ) := [⟨7, 40, 1, 1, 0⟩, ⟨7, 50, 1, 2, 0⟩, ⟨8, 40, 1, 3, 0⟩, ⟨8, 40, 1, 3, 0⟩]

noncomputable def exLongData : List (PRow ℝ) :=
  [⟨⟨7, 40, 1, 1, 0⟩, 0⟩, ⟨⟨7, 50, 1, 2, 0⟩, 1⟩, ⟨⟨8, 40, 1, 3, 0⟩, 0⟩, ⟨⟨8, 40, 1, 3, 0⟩, 1⟩]

theorem exLong_setting : FullSetting exFullCfg exFullAtt 1 exLongDf exLongData [7, 8] [40, 50] where
  setting := exFull_setting.setting
  svd := fun _ _ B => realLA_svd B
  att := rfl
  sweeps := le_refl 1
  ones := by
    intro r hr
    simp only [exLongDf, List.mem_cons, List.not_mem_nil, or_false] at hr
    rcases hr with rfl | rfl | rfl | rfl <;> rfl
  crop := rfl
  long := ⟨7, show 2 ≤ 2 from le_refl 2⟩
  firstU := show FirstAppearance [7, 7, 8, 8] [7, 8] from ⟨by decide, by simp, by decide⟩
  firstI := show FirstAppearance [40, 50, 40, 40] [40, 50] from ⟨by decide, by simp; tauto, by decide⟩
  fits := exFull_fits
  rank := rfl

/-- With two training rows of user 8 the same chunk is followed exactly. -/
example (rounds : TIRounds ℝ) (hc : IsTIClass rounds) :
    ∃ s st', tdTrain exFullCfg.td exFullAtt (none : Option (ExitCallback ℝ Unit)) () [] exLongData = .ok s ∧
      tiUpdates rounds exFullCfg exFullAtt s [exFullChunk] true = .ok st' ∧
      ∃ T : T3 2 2 2 ℝ, HoldsTensor st' 2 2 2 T ∧ T 1 0 0 = 1 ∧ T 1 0 1 = 0 ∧ T 1 1 1 = 1 := by
  obtain ⟨s, st', a1, a2, a3⟩ := C144_exact_partial hc exLong_setting
    (by
      intro u hu
      simp only [List.mem_cons, List.not_mem_nil, or_false] at hu
      rcases hu with rfl | rfl <;> exact le_refl 2)
    (Or.inl rfl) (none : Option (ExitCallback ℝ Unit)) () (fun f hf => by cases hf) [exFullChunk] true (by
      intro t c ht
      match t with
      | 0 =>
        obtain rfl := Option.some.inj ht
        exact ⟨List.cons_ne_nil _ _, fun r hr => by rw [List.mem_singleton.1 hr]; decide,
          8, show ([40, 50] : List ℤ) ≠ [40, 40] by decide⟩
      | t + 1 => simp at ht)
  rw [weighted_one] at a3
  exact ⟨s, st', a1, a2, _, a3, rfl, rfl, rfl⟩

/-- With the short sequence of user 8 the model does not hold the windows after training and after the chunk either. -/
example (rounds : TIRounds ℝ) (hc : IsTIClass rounds) :
    ∃ s st', tdTrain exFullCfg.td exFullAtt (none : Option (ExitCallback ℝ Unit)) () [] exFullData = .ok s ∧
      tiUpdates rounds exFullCfg exFullAtt s [exFullChunk] true = .ok st' ∧
      ¬ HoldsTensor st' 2 2 2 (windowTensor 2 [7, 8] [40, 50] (exFullDf ++ exFullChunk) : T3 2 2 2 ℝ) :=
  C144_short hc exFull_setting ⟨8, by decide, show 1 < 2 by decide⟩ (none : Option (ExitCallback ℝ Unit)) ()
    (fun f hf => by cases hf) [exFullChunk] true exFull_known

end

end DynCF
