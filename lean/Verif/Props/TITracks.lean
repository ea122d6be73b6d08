/-
Property theorem C143: models of TIRec and TIRecA that hold the tensor of the windows exactly keep doing so.
-/
import Verif.Props.SeqWindow
import Verif.Props.TIRows
import Verif.Props.PsiTracks

set_option linter.unusedSectionVars false

namespace DynCF
open Matrix
variable {K : Type}

/-! ### Specification -/

/-- What stands at the places `0, …, L - 1` of a user's sequence: the last `L` items of the user, most recent last, with
empty places in front. -/
def places (L : ℕ) (rows : List (Row K)) (u : ℤ) : List (Option ℤ) :=
  List.replicate (L - (lastItems L rows u).length) none ++ (lastItems L rows u).map some

/-- The tensor of the sequences: 1 where the item stands at the place of the user's sequence. -/
def windowTensor [Zero K] [One K] (L : ℕ) (users items : List ℤ) (rows : List (Row K)) :
    T3 users.length items.length L K :=
  fun i j p => if (places L rows users[i])[(p : ℕ)]? = some (some items[j]) then 1 else 0

/-- The rows of a chunk in the order in which they are added: by time (rows of equal time in the given order), or as
given without `sort_bool`. -/
def inTime (b : Bool) (c : List (Row K)) : List (Row K) := if b then tsSort c else c

/-- The number of entries in which two tensors differ. -/
def differing [DecidableEq K] {n0 n1 n2 : ℕ} (s t : T3 n0 n1 n2 K) : ℕ :=
  (Finset.univ.filter fun x : Fin n0 × Fin n1 × Fin n2 => s x.1 x.2.1 x.2.2 ≠ t x.1 x.2.1 x.2.2).card

/-- The three rank conditions: in every mode the unfolding of the new tensor `t` keeps its rank when it is multiplied
by the transposed unfolding of the old tensor `s`. -/
def RankKept [Field K] {n0 n1 n2 : ℕ} (s t : T3 n0 n1 n2 K) : Prop :=
  (unf t).rank ≤ (unf t * (unf s).transpose).rank ∧
  (unf (front1 t)).rank ≤ (unf (front1 t) * (unf (front1 s)).transpose).rank ∧
  (unf (front2 t)).rank ≤ (unf (front2 t) * (unf (front2 s)).transpose).rank

/-! ### The tensor of the windows and the history -/

theorem places_congr (L : ℕ) {a b : List (Row K)} (h : ∀ u, lastItems L a u = lastItems L b u) (u : ℤ) :
    places L a u = places L b u := by
  unfold places
  rw [h]

theorem windowTensor_congr [Zero K] [One K] (L : ℕ) (users items : List ℤ) {a b : List (Row K)}
    (h : ∀ u, lastItems L a u = lastItems L b u) : windowTensor L users items a = windowTensor L users items b := by
  funext i j p
  unfold windowTensor
  rw [places_congr L h]

theorem histCell_places [Ring K] {L : ℕ} {users items : List ℤ} {ext : List (PRow K)} {past : List Inter}
    (hu : users.Nodup) (hi : items.Nodup) (ho : Ordered users items ext past) (i : Fin users.length)
    (j : Fin items.length) (p : Fin L) :
    ((histCell L past ((i : ℕ) : ℤ) ((j : ℕ) : ℤ) ((p : ℕ) : ℤ) : ℤ) : K) =
      windowTensor L users items (ext.map PRow.row) i j p := by
  have h1 := forall₂_lastN L (ho.itemsOf hu (List.getElem?_eq_getElem i.2))
  rw [histCell_window, window_split]
  unfold windowTensor cell places
  have hlen : (lastItems L (ext.map PRow.row) users[i]).length = (lastN L (itemsOf ((i : ℕ) : ℤ) past)).length :=
    h1.length_eq.symm
  have hlen2 : L - (itemsOf ((i : ℕ) : ℤ) past).length = L - (lastItems L (ext.map PRow.row) users[i]).length := by
    rw [hlen, lastN_length]
    omega
  rw [hlen2]
  have hj : ((j : ℕ) : ℤ) ≠ PAD := by unfold PAD; omega
  have key : ((List.replicate (L - (lastItems L (ext.map PRow.row) users[i]).length) PAD ++
      lastN L (itemsOf ((i : ℕ) : ℤ) past))[(p : ℕ)]? = some ((j : ℕ) : ℤ)) ↔
      ((List.replicate (L - (lastItems L (ext.map PRow.row) users[i]).length) none ++
        (lastItems L (ext.map PRow.row) users[i]).map some)[(p : ℕ)]? = some (some items[j])) := by
    generalize L - (lastItems L (ext.map PRow.row) users[i]).length = k
    by_cases hk : (p : ℕ) < k
    · rw [List.getElem?_append_left (by simpa using hk), List.getElem?_append_left (by simpa using hk),
        List.getElem?_replicate, List.getElem?_replicate, if_pos hk, if_pos hk]
      constructor
      · intro h; exact absurd (Option.some.inj h).symm hj
      · intro h; cases Option.some.inj h
    · rw [List.getElem?_append_right (by simpa using hk), List.getElem?_append_right (by simpa using hk),
        List.length_replicate, List.length_replicate, List.getElem?_map]
      generalize (p : ℕ) - k = q
      have h2 : lastItems L (ext.map PRow.row) users[i] =
        lastN L ((rowsOf users[(i : ℕ)] (ext.map PRow.row)).map Row.item) := rfl
      rw [h2]
      generalize lastN L (itemsOf ((i : ℕ) : ℤ) past) = a at h1
      generalize lastN L ((rowsOf users[(i : ℕ)] (ext.map PRow.row)).map Row.item) = b at h1
      clear hlen hlen2 h2 hk
      induction h1 generalizing q with
      | nil => simp
      | @cons x y _ _ hx _ ih =>
        cases q with
        | succ q => simpa using ih q
        | zero =>
          obtain ⟨n, rfl, hn⟩ := hx
          simp only [List.getElem?_cons_zero, Option.map_some, Option.some.injEq]
          constructor
          · intro h
            have : n = j := by exact_mod_cast h
            subst this
            rw [List.getElem?_eq_getElem j.2] at hn
            exact (Option.some.inj hn).symm
          · intro h
            have : n = (j : ℕ) := getElem?_inj_nodup hi hn (by rw [List.getElem?_eq_getElem j.2, h]; rfl)
            rw [this]
  simp only [Int.toNat_natCast, key]
  by_cases hc : ((List.replicate (L - (lastItems L (ext.map PRow.row) users[i]).length) none ++
        (lastItems L (ext.map PRow.row) users[i]).map some)[(p : ℕ)]? = some (some items[j]))
  · rw [if_pos hc, if_pos ⟨hj, by omega, hc⟩, Int.cast_one]
  · rw [if_neg hc, if_neg (fun h => hc h.2.2), Int.cast_zero]

theorem lastN_append_right {α : Type} (L : ℕ) (a b : List α) : lastN L (a ++ lastN L b) = lastN L (a ++ b) := by
  unfold lastN
  rw [List.length_append, List.length_append, List.length_drop, List.drop_append, List.drop_append, List.drop_drop]
  by_cases h : L ≤ b.length
  · rw [List.drop_eq_nil_of_le (as := a) (by omega), List.drop_eq_nil_of_le (as := a) (by omega), List.nil_append,
      List.nil_append]
    congr 1
    omega
  · have : b.length - L = 0 := by omega
    rw [this]
    simp

/-- Cropping a chunk does not change the last `L` items. -/
theorem lastItems_crop {L : ℕ} (hL : 1 ≤ L) {ext rows data : List (Row K)} {b : Bool} {cr : List (PRow K)}
    (hne : data ≠ []) (hcr : getDfWithCroppedPos data L b = .ok cr)
    (h : ∀ u, lastItems L ext u = lastItems L rows u) (u : ℤ) :
    lastItems L (ext ++ cr.map PRow.row) u = lastItems L (rows ++ inTime b data) u := by
  have e : rowsOf u (cr.map PRow.row) = lastN L (rowsOf u (inTime b data)) := by
    rw [getDfWithCroppedPos_eq data L b hL hne] at hcr
    obtain rfl := Except.ok.inj hcr
    have h1 := cropSpec_user L data b u
    have h2 : rowsOf u ((cropSpec L data b).map PRow.row) =
        ((cropSpec L data b).filter fun r => decide (r.row.user = u)).map PRow.row := by
      unfold rowsOf
      rw [List.filter_map]
      rfl
    rw [h2, h1, posed_rows]
    congr 1
    unfold inTime
    cases b with
    | false => rfl
    | true =>
      simp only [if_true]
      unfold rowsOf tsSort
      exact (filter_stableSort ts_trans ts_total _ _).symm
  have e1 : ∀ a c : List (Row K), rowsOf u (a ++ c) = rowsOf u a ++ rowsOf u c := fun a c => List.filter_append _ _
  have e2 : ∀ (a : List (Row K)), lastN L (a.map Row.item) = (lastN L a).map Row.item := fun a => by
    unfold lastN; rw [List.map_drop, List.length_map]
  have := h u
  unfold lastItems at this ⊢
  rw [e1, e1, e, List.map_append, List.map_append, ← e2, lastN_append_right, ← lastN_append_lastN, this, lastN_append_lastN]

/-! ### The entries of the delta -/

section
variable [Field K] [LinearOrder K] [IsStrictOrderedRing K]

/-- The delta as a tensor and the number of its entries. -/
theorem delta_tensor {L : ℕ} {users items : List ℤ} {ext cr : List (PRow K)} {past new : List Inter} {δ : List DRow}
    (hu : users.Nodup) (hi : items.Nodup) (hp : Ordered users items ext past) (hn : Ordered users items cr new)
    (h : IsDelta L past new δ) (hk : DeltaOk users.length 0 items.length 0 L [] [] δ) :
    (∀ (i : Fin users.length) (j : Fin items.length) (p : Fin L),
      (deltaVal δ ((i : ℕ) : ℤ) ((j : ℕ) : ℤ) ((p : ℕ) : ℤ) : K) =
        windowTensor L users items ((ext ++ cr).map PRow.row) i j p -
          windowTensor L users items (ext.map PRow.row) i j p) ∧
    δ.length = differing (windowTensor L users items ((ext ++ cr).map PRow.row))
      (windowTensor L users items (ext.map PRow.row)) := by
  have ha := hp.append hn
  have hval : ∀ (i : Fin users.length) (j : Fin items.length) (p : Fin L),
      ((histCell L (past ++ new) ((i : ℕ) : ℤ) ((j : ℕ) : ℤ) ((p : ℕ) : ℤ) -
        histCell L past ((i : ℕ) : ℤ) ((j : ℕ) : ℤ) ((p : ℕ) : ℤ) : ℤ) : K) =
        windowTensor L users items ((ext ++ cr).map PRow.row) i j p -
          windowTensor L users items (ext.map PRow.row) i j p := fun i j p => by
    rw [Int.cast_sub, histCell_places hu hi ha, histCell_places hu hi hp]
  constructor
  · intro i j p
    rw [← hval]
    generalize ((i : ℕ) : ℤ) = u
    generalize ((j : ℕ) : ℤ) = x
    generalize ((p : ℕ) : ℤ) = q
    unfold deltaVal
    have hnd : (δ.filter fun r => decide (r.user = u ∧ r.item = x ∧ r.pos = q)).length ≤ 1 := by
      have : ((δ.filter fun r => decide (r.user = u ∧ r.item = x ∧ r.pos = q)).map
          fun r => (r.user, r.item, r.pos)).Nodup := (List.Sublist.map _ List.filter_sublist).nodup h.nodup
      have h2 : ∀ y ∈ (δ.filter fun r => decide (r.user = u ∧ r.item = x ∧ r.pos = q)).map
          (fun r => (r.user, r.item, r.pos)), y = (u, x, q) := by
        intro y hy
        obtain ⟨r, hr, rfl⟩ := List.mem_map.1 hy
        have := of_decide_eq_true (List.mem_filter.1 hr).2
        rw [this.1, this.2.1, this.2.2]
      have h3 := List.eq_replicate_of_mem h2
      rw [h3, List.nodup_replicate] at this
      simpa using this
    have hm := h.mem u x q
    generalize histCell L (past ++ new) u x q - histCell L past u x q = v at hm
    by_cases hv : v = 0
    · have : (δ.filter fun r => decide (r.user = u ∧ r.item = x ∧ r.pos = q)) = [] := by
        rw [List.filter_eq_nil_iff]
        rintro ⟨a, b, c, d⟩ hr hd
        obtain ⟨h1, h2, h3⟩ := of_decide_eq_true hd
        dsimp only at h1 h2 h3
        subst h1 h2 h3
        have := (hm d).1 hr
        exact this.2 (this.1.trans hv)
      rw [this, hv]
      simp
    · have hmem : (⟨u, x, q, v⟩ : DRow) ∈ δ.filter fun r => decide (r.user = u ∧ r.item = x ∧ r.pos = q) :=
        List.mem_filter.2 ⟨(hm v).2 ⟨rfl, hv⟩, by simp⟩
      generalize δ.filter (fun r => decide (r.user = u ∧ r.item = x ∧ r.pos = q)) = l at hnd hmem
      match l, hnd, hmem with
      | [a], _, hmem =>
        rw [List.mem_singleton] at hmem
        subst hmem
        simp
  · unfold differing
    have hlt : ∀ r ∈ δ, r.user.toNat < users.length ∧ r.item.toNat < items.length ∧ r.pos.toNat < L := fun r hr => by
      have := hk.user r hr
      have := hk.item r hr
      have := hk.pos r hr
      omega
    have hinj : (δ.map fun r => (r.user, r.item, r.pos)).toFinset.card = δ.length := by
      rw [List.toFinset_card_of_nodup h.nodup, List.length_map]
    rw [← hinj]
    refine (Finset.card_bij (fun x _ => (((x.1 : ℕ) : ℤ), ((x.2.1 : ℕ) : ℤ), ((x.2.2 : ℕ) : ℤ))) ?_ ?_ ?_).symm
    · rintro ⟨i, j, p⟩ hx
      rw [List.mem_toFinset, List.mem_map]
      have hx := (Finset.mem_filter.1 hx).2
      refine ⟨⟨_, _, _, _⟩, (h.mem _ _ _ _).2 ⟨rfl, fun h0 => hx ?_⟩, rfl⟩
      have := hval i j p
      rw [h0, Int.cast_zero] at this
      exact sub_eq_zero.1 this.symm
    · rintro ⟨i, j, p⟩ _ ⟨i', j', p'⟩ _ he
      simp only [Prod.mk.injEq, Nat.cast_inj] at he
      rw [Fin.ext he.1, Fin.ext he.2.1, Fin.ext he.2.2]
    · rintro y hy
      rw [List.mem_toFinset, List.mem_map] at hy
      obtain ⟨r, hr, rfl⟩ := hy
      obtain ⟨l1, l2, l3⟩ := hlt r hr
      have hu' := hk.user r hr
      have hi' := hk.item r hr
      have hp' := hk.pos r hr
      have q1 : ((r.user.toNat : ℕ) : ℤ) = r.user := by omega
      have q2 : ((r.item.toNat : ℕ) : ℤ) = r.item := by omega
      have q3 : ((r.pos.toNat : ℕ) : ℤ) = r.pos := by omega
      refine ⟨(⟨r.user.toNat, l1⟩, ⟨r.item.toNat, l2⟩, ⟨r.pos.toNat, l3⟩), ?_, ?_⟩
      · rw [Finset.mem_filter]
        refine ⟨Finset.mem_univ _, fun he => ?_⟩
        have e1 := hval ⟨r.user.toNat, l1⟩ ⟨r.item.toNat, l2⟩ ⟨r.pos.toNat, l3⟩
        rw [he, sub_self] at e1
        dsimp only at e1
        rw [q1, q2, q3] at e1
        have e2 := (h.mem r.user r.item r.pos r.val).1 hr
        rw [← e2.1, Int.cast_eq_zero] at e1
        exact e2.2 e1
      · dsimp only
        rw [q1, q2, q3]

/-! ### The steps without new users and items -/

variable {cfg : TICfg K} {m : TDAtt K}

theorem tiMask_old (mode : PsiMode) (r : DRow) : tiMaskRow [] [] mode r = decide (mode = .old) := by
  cases mode <;> simp [tiMaskRow]

theorem tiDivide_none (δ : List DRow) (mode : PsiMode) (hmode : mode ≠ .old) :
    tiDivide δ mode [] [] = ⟨[], δ.map fun _ => false, [], []⟩ := by
  unfold tiDivide
  have : δ.map (tiMaskRow [] [] mode) = δ.map fun _ => false :=
    List.map_congr_left fun r _ => by rw [tiMask_old, decide_eq_false hmode]
  have e2 : maskSelect δ (δ.map fun _ => false) = [] := by
    rw [maskSelect_map, List.filter_eq_nil_iff]
    simp
  simp only [this, e2]
  cases mode <;> rfl

theorem tiDivide_all (δ : List DRow) : tiDivide δ .old [] [] = ⟨δ, δ.map fun _ => true, [], []⟩ := by
  unfold tiDivide
  have : δ.map (tiMaskRow [] [] .old) = δ.map fun _ => true :=
    List.map_congr_left fun r _ => by rw [tiMask_old]; rfl
  have e2 : maskSelect δ (δ.map fun _ => true) = δ := by
    rw [maskSelect_map, List.filter_eq_self]
    simp
  simp only [this, e2]
  rfl

theorem maskSelect_keep (δ : List DRow) : maskSelect δ ((δ.map fun _ => false).map fun b => !b) = δ := by
  rw [List.map_map]
  refine (maskSelect_map δ _).trans (List.filter_eq_self.2 fun r _ => rfl)

theorem tiRound_none (vec : TIVectors K) (st : TDState K) (δ : List DRow) (log : List (PsiMode × List DRow))
    (mode : PsiMode) (hmode : mode ≠ .old) :
    tiRound vec cfg m ⟨st, δ, [], [], log⟩ mode = .ok ⟨st, δ, [], [], log ++ [(mode, [])]⟩ := by
  unfold tiRound
  dsimp only
  rw [tiDivide_none δ mode hmode]
  dsimp only
  rw [maskSelect_keep]
  rfl

theorem tirecRounds_known (st : TDState K) {δ : List DRow} (hne : δ ≠ []) {st' : TDState K}
    (h : tiOld cfg m st δ = .ok st') : ∃ l, tirecRounds cfg m st [] [] δ = .ok l ∧ l.st = st' := by
  have hlen : δ.length > 0 := List.length_pos_iff.2 hne
  unfold tirecRounds tiConcat
  rw [if_neg (by simpa using hne), except_bind_ok, List.foldlM_cons, tiRound_none _ _ _ _ _ (by simp), except_bind_ok,
    List.foldlM_cons, tiRound_none _ _ _ _ _ (by simp), except_bind_ok, List.foldlM_cons,
    tiRound_none _ _ _ _ _ (by simp), except_bind_ok, List.foldlM_cons]
  unfold tiRound
  dsimp only
  rw [tiDivide_all]
  unfold tiUpdateFactors
  dsimp only
  rw [if_pos hlen, show tiStep tirecVectors cfg m st δ .old = .ok st' from h, except_bind_ok]
  exact ⟨_, rfl, rfl⟩

theorem tirecaRounds_known (st : TDState K) {δ : List DRow} (hne : δ ≠ []) {st' : TDState K}
    (h : tiOld cfg m st δ = .ok st') : ∃ l, tirecaRounds cfg m st [] [] δ = .ok l ∧ l.st = st' := by
  have hlen : δ.length > 0 := List.length_pos_iff.2 hne
  unfold tirecaRounds tiConcat
  rw [if_neg (by simpa using hne), except_bind_ok, List.foldlM_cons, tiRound_none _ _ _ _ _ (by simp), except_bind_ok,
    List.foldlM_cons, tiRound_none _ _ _ _ _ (by simp), except_bind_ok, List.foldlM_cons,
    tiRound_none _ _ _ _ _ (by simp), except_bind_ok, List.foldlM_nil, pure_bind]
  dsimp only
  rw [tiDivide_none δ .new (by simp)]
  dsimp only
  rw [maskSelect_keep]
  unfold tiUpdateFactors
  rw [if_pos hlen, show tiStep tirecaVectors cfg m st δ .old = .ok st' from h, except_bind_ok]
  exact ⟨_, rfl, rfl⟩

theorem tirecaIntegrator_known (st : TDState K) {δ : List DRow} (hne : δ ≠ []) {s1 s2 st' : TDState K}
    (h1 : tiEmbUsers cfg 0 st = .ok s1) (h2 : tiEmbItems cfg 0 s1 = .ok s2)
    (h : tiOld cfg m s2 δ = .ok st') : ∃ l, tirecaIntegrator cfg m st [] [] δ = .ok l ∧ l.st = st' := by
  have hlen : δ.length > 0 := List.length_pos_iff.2 hne
  unfold tirecaIntegrator tiConcat
  rw [if_neg (by simpa using hne), except_bind_ok, List.length_nil, h1, except_bind_ok, h2, except_bind_ok]
  unfold tiUpdateFactors
  rw [if_pos hlen, show tiStep tirecaVectors cfg m s2 δ .old = .ok st' from h, except_bind_ok]
  exact ⟨_, rfl, rfl⟩

/-! ### One step of the integrator -/

section
variable {n0 n1 r0 r1 r2 : ℕ} {st : TDState K}

/-- The state holds the tensor: factors (the last two with orthonormal columns) and core reproduce it. -/
def HoldsTensor (st : TDState K) {n0 n1 n2 : ℕ} (r0 r1 r2 : ℕ) (t : T3 n0 n1 n2 K) : Prop :=
  ∃ (U : Matrix (Fin n0) (Fin r0) K) (V : Matrix (Fin n1) (Fin r1) K) (W : Matrix (Fin n2) (Fin r2) K)
    (c : T3 r0 r1 r2 K), TIStores st U V W c ∧ V.transpose * V = 1 ∧ W.transpose * W = 1 ∧ tuckerTensor U V W c = t

theorem rank_through {a b c d : ℕ} {A : Matrix (Fin a) (Fin b) K} {S : Matrix (Fin c) (Fin b) K}
    {Q : Matrix (Fin c) (Fin d) K} {B : Matrix (Fin d) (Fin b) K} (hS : S = Q * B)
    (h : A.rank ≤ (A * S.transpose).rank) : ∃ M : Matrix (Fin d) (Fin b) K, A = A * B.transpose * M := by
  have h1 : (A * S.transpose).rank ≤ (A * B.transpose).rank := by
    rw [hS, Matrix.transpose_mul, ← Matrix.mul_assoc]
    exact Matrix.rank_mul_le_left _ _
  obtain ⟨M, hM⟩ := exists_mul_eq_of_rank A B.transpose (h.trans h1)
  exact ⟨M, hM.symm⟩

theorem tiOld_exact (hqr : QrAlways cfg.td.hooi.la) (hatt : tiAttArg cfg m = none)
    (hd : TIDims n0 n1 cfg.td.seqLen r0 r1 r2) {S T : T3 n0 n1 cfg.td.seqLen K} (h : HoldsTensor st r0 r1 r2 S)
    (δ : List DRow) (hne : δ ≠ []) (hlen : δ.length ≤ 10000 ∨ 10000 ∣ δ.length)
    (hu : ∀ r ∈ δ, 0 ≤ r.user ∧ r.user < n0) (hi : ∀ r ∈ δ, 0 ≤ r.item ∧ r.item < n1)
    (hp : ∀ r ∈ δ, 0 ≤ r.pos ∧ r.pos < cfg.td.seqLen)
    (hδ : ∀ (i : Fin n0) (j : Fin n1) (p : Fin cfg.td.seqLen),
      (deltaVal δ ((i : ℕ) : ℤ) ((j : ℕ) : ℤ) ((p : ℕ) : ℤ) : K) = T i j p - S i j p)
    (hr : RankKept S T) :
    ∃ st', tiOld cfg m st δ = .ok st' ∧ HoldsTensor st' r0 r1 r2 T ∧ TISame st st' := by
  obtain ⟨U, V, W, c, h, hV, hW, hS⟩ := h
  obtain ⟨es, hes⟩ := delta_typed (K := K) δ n0 n1 cfg.td.seqLen hu hi hp
  have hl : es.length = δ.length := by
    have := congrArg List.length hes.inds
    simpa [dInds, indsOf] using this.symm
  have f0 : unf S = U * unf (tuckerTensor 1 V W c) := by
    rw [← hS, tuckerTensor_eq, tuckerTensor_eq, mul0_one, unf_mul0]
  have f1 : unf (front1 S) = V * unf (front1 (tuckerTensor U 1 W c)) := by
    rw [← hS, tuckerTensor_eq, tuckerTensor_eq, mul01_comm, front1_mul1, unf_mul0, mul1_one]
  have f2 : unf (front2 S) = W * unf (front2 (tuckerTensor U V 1 c)) := by
    rw [← hS, tuckerTensor_eq, tuckerTensor_eq, mul12_comm, mul02_comm, front2_mul2, unf_mul0, mul2_one]
  obtain ⟨M0, hM0⟩ := rank_through f0 hr.1
  obtain ⟨M1, hM1⟩ := rank_through f1 hr.2.1
  obtain ⟨M2, hM2⟩ := rank_through f2 hr.2.2
  have hA1 : ∀ i j k, T i j k = tuckerTensor U V W c i j k +
      ∑ l, attVal (none : Option (Matrix (Fin cfg.td.seqLen) (Fin cfg.td.seqLen) K)) l k * cooTensor es i j l := by
    intro i j k
    have : ∑ l, attVal (none : Option (Matrix (Fin cfg.td.seqLen) (Fin cfg.td.seqLen) K)) l k * cooTensor es i j l =
        cooTensor es i j k := by
      simp [attVal, Matrix.one_apply]
    rw [this, hes.coo, hδ, hS]
    ring
  obtain ⟨U1, V1, W1, c1, e, hT⟩ := C86_exact_partial cfg.td.hooi.la hqr es (hes.ne hne) (by rw [hl]; exact hlen) none hd U V W
    hV hW (by simp [attVal]) c cfg.td.hooi.parallel T hA1 M0 hM0 M1 hM1 M2 hM2
  obtain ⟨U2, V2, W2, e2, _, o1, o2⟩ := C85_projection cfg.td.hooi.la hqr es (hes.ne hne) none hd U V W c
    cfg.td.hooi.parallel
  have he := Except.ok.inj (e.symm.trans e2)
  simp only [Prod.mk.injEq, Fac.mk.injEq, Mat.mk.injEq, heq_eq_eq, true_and] at he
  obtain ⟨⟨-, hv, hw⟩, -⟩ := he
  refine ⟨_, ?_, ⟨U1, V1, W1, c1, setFac_shape st U1 V1 W1 c1, by rw [hv]; exact o1, by rw [hw]; exact o2, hT⟩,
    setFac_same _ _⟩
  unfold tiOld
  rw [(tiCore_stores h).1, except_bind_ok, (tiCore_stores h).2, hes.inds, hes.vals, hatt, h.u, h.v]
  dsimp only
  rw [show (none : Option (Mat K)) = attArg (none : Option (Matrix (Fin cfg.td.seqLen) (Fin cfg.td.seqLen) K)) from rfl, e]
  rfl

/-- Adding no users and no items keeps the tensor. -/
theorem tiEmb_zero (hqr : QrAlways cfg.td.hooi.la) (hd : TIDims n0 n1 cfg.td.seqLen r0 r1 r2)
    {S : T3 n0 n1 cfg.td.seqLen K} (h : HoldsTensor st r0 r1 r2 S) :
    ∃ s1 s2, tiEmbUsers cfg 0 st = .ok s1 ∧ tiEmbItems cfg 0 s1 = .ok s2 ∧ HoldsTensor s2 r0 r1 r2 S ∧ TISame st s2 := by
  obtain ⟨U, V, W, c, h, hV, hW, hS⟩ := h
  have z0 : zeroRows U 0 = U := by
    ext i j
    exact (Fin.addCases_left (m := n0) (n := 0) (motive := fun _ => K) (left := fun i => U i j) (right := fun _ => 0) i)
  have z1 : zeroRows V 0 = V := by
    ext i j
    exact (Fin.addCases_left (m := n1) (n := 0) (motive := fun _ => K) (left := fun i => V i j) (right := fun _ => 0) i)
  unfold tiEmbUsers tiEmbItems
  cases cfg.init with
  | zero =>
    have h1 := tiZeroUsers_stores h 0
    have h2 := tiZeroItems_stores h1.1 0
    refine ⟨_, _, rfl, rfl, ⟨U, V, W, c, ?_, hV, hW, hS⟩, h1.2.trans h2.2⟩
    have := h2.1
    rw [z0, z1] at this
    exact this
  | random =>
    obtain ⟨U', c', s1, e1, h1, o1, t1, -⟩ := C46_tireca_users cfg hqr h 0 (by have := hd.n0; omega)
    obtain ⟨V', c'', s2, e2, h2, o2, t2, -⟩ := C46_tireca_items cfg hqr h1 0 (by have := hd.n1; omega)
    refine ⟨s1, s2, e1, e2, ⟨U', V', W, c'', h2, o2, hW, ?_⟩, ?_⟩
    · rw [← hS]
      funext i j p
      exact (t2 i j p).trans (t1 i j p)
    · obtain ⟨_, _, s1', e1', _, q1, _⟩ := tiRandomUsers_stores cfg hqr h 0 (by have := hd.n0; omega)
      obtain ⟨_, _, s2', e2', _, q2, _⟩ := tiRandomItems_stores cfg hqr h1 0 (by have := hd.n1; omega)
      obtain rfl := Except.ok.inj (e1.symm.trans e1')
      obtain rfl := Except.ok.inj (e2.symm.trans e2')
      exact q1.trans q2

/-- The middle part of `update` of either class without new users and items only runs the integrator. -/
theorem rounds_known {rounds : TIRounds K} (hc : IsTIClass rounds) (hqr : QrAlways cfg.td.hooi.la)
    (hd : TIDims n0 n1 cfg.td.seqLen r0 r1 r2) {S : T3 n0 n1 cfg.td.seqLen K}
    {good : T3 n0 n1 cfg.td.seqLen K → Prop}
    (h : HoldsTensor st r0 r1 r2 S) (δ : List DRow) (hne : δ ≠ [])
    (hold : ∀ s, HoldsTensor s r0 r1 r2 S → ∃ s', tiOld cfg m s δ = .ok s' ∧
      (∃ T, good T ∧ HoldsTensor s' r0 r1 r2 T) ∧ TISame s s') :
    ∃ l, rounds cfg m st [] [] δ = .ok l ∧ (∃ T, good T ∧ HoldsTensor l.st r0 r1 r2 T) ∧ TISame st l.st := by
  rcases hc with rfl | rfl
  · obtain ⟨st', e, h1, h2⟩ := hold st h
    obtain ⟨l, e', rfl⟩ := tirecRounds_known st hne e
    exact ⟨l, e', h1, h2⟩
  · unfold tirecaMiddle
    by_cases hint : cfg.integrator
    · obtain ⟨s1, s2, a1, a2, a3, a4⟩ := tiEmb_zero hqr hd h
      obtain ⟨st', e, h1, h2⟩ := hold s2 a3
      obtain ⟨l, e', rfl⟩ := tirecaIntegrator_known st hne a1 a2 e
      rw [if_pos hint]
      exact ⟨l, e', h1, a4.trans h2⟩
    · obtain ⟨st', e, h1, h2⟩ := hold st h
      obtain ⟨l, e', rfl⟩ := tirecaRounds_known st hne e
      rw [if_neg hint]
      exact ⟨l, e', h1, h2⟩

end

/-! ### Updates -/

variable {st : TDState K} {users items : List ℤ} {rows : List (Row K)}

/-- A consistent model that has seen rows whose last items are those of `rows`. -/
def TISeen (cfg : TICfg K) (m : TDAtt K) (st : TDState K) (users items : List ℤ) (rows : List (Row K)) : Prop :=
  ∃ ext past, TIInv cfg m st users items ext past ∧ Ordered users items ext past ∧
    ∀ u, lastItems cfg.td.seqLen (ext.map PRow.row) u = lastItems cfg.td.seqLen rows u

/-- A consistent model that has seen the rows and holds the tensor of their windows exactly. -/
structure TITracks (cfg : TICfg K) (m : TDAtt K) (st : TDState K) (users items : List ℤ) (rows : List (Row K)) :
    Prop where
  seen : TISeen cfg m st users items rows
  holds : HoldsTensor st cfg.td.hooi.rank.1 cfg.td.hooi.rank.2.1 cfg.td.hooi.rank.2.2
    (windowTensor cfg.td.seqLen users items rows)

/-- What every chunk has to satisfy: it is not empty, its users and items are known and it changes some window. -/
structure TIKnown (L : ℕ) (users items : List ℤ) (rows new chunk : List (Row K)) : Prop where
  ne : chunk ≠ []
  known : ∀ r ∈ chunk, r.user ∈ users ∧ r.item ∈ items
  moves : WindowMoves L rows new

/-- What a chunk has to satisfy to be followed exactly: moreover it changes at most 10000 entries (or a multiple of
10000), and the ranks are kept. -/
structure TIFollows (L : ℕ) (users items : List ℤ) (rows new chunk : List (Row K)) : Prop
    extends TIKnown L users items rows new chunk where
  few : differing (windowTensor L users items (rows ++ new)) (windowTensor L users items rows) ≤ 10000 ∨
    10000 ∣ differing (windowTensor L users items (rows ++ new)) (windowTensor L users items rows)
  rank : RankKept (windowTensor L users items rows) (windowTensor L users items (rows ++ new))

/-- One update with known users and items, if the integrator takes the tensor `S` to some tensor that is
`good`. -/
theorem tiUpdate_good {rounds : TIRounds K} (hc : IsTIClass rounds) (hs : TISetting cfg m)
    (hf : cfg.Fits users items) (hseen : TISeen cfg m st users items rows)
    {S : T3 users.length items.length cfg.td.seqLen K} {good : T3 users.length items.length cfg.td.seqLen K → Prop}
    (hS0 : HoldsTensor st cfg.td.hooi.rank.1 cfg.td.hooi.rank.2.1 cfg.td.hooi.rank.2.2 S)
    (data : List (Row K)) (b : Bool) (hd : TIKnown cfg.td.seqLen users items rows (inTime b data) data)
    (hold : ∀ (δ : List DRow) (s : TDState K), δ ≠ [] →
      δ.length = differing (windowTensor cfg.td.seqLen users items (rows ++ inTime b data))
        (windowTensor cfg.td.seqLen users items rows) →
      (∀ r ∈ δ, 0 ≤ r.user ∧ r.user < users.length) → (∀ r ∈ δ, 0 ≤ r.item ∧ r.item < items.length) →
      (∀ r ∈ δ, 0 ≤ r.pos ∧ r.pos < cfg.td.seqLen) →
      (∀ (i : Fin users.length) (j : Fin items.length) (p : Fin cfg.td.seqLen),
        (deltaVal δ ((i : ℕ) : ℤ) ((j : ℕ) : ℤ) ((p : ℕ) : ℤ) : K) =
          windowTensor cfg.td.seqLen users items (rows ++ inTime b data) i j p -
            windowTensor cfg.td.seqLen users items rows i j p) →
      HoldsTensor s cfg.td.hooi.rank.1 cfg.td.hooi.rank.2.1 cfg.td.hooi.rank.2.2 S →
      ∃ s', tiOld cfg m s δ = .ok s' ∧
        (∃ T, good T ∧ HoldsTensor s' cfg.td.hooi.rank.1 cfg.td.hooi.rank.2.1 cfg.td.hooi.rank.2.2 T) ∧ TISame s s') :
    ∃ st', tiUpdate rounds cfg m st data b = .ok st' ∧ TISeen cfg m st' users items (rows ++ inTime b data) ∧
      (∃ T, good T ∧ HoldsTensor st' cfg.td.hooi.rank.1 cfg.td.hooi.rank.2.1 cfg.td.hooi.rank.2.2 T) ∧
      ∃ p, tiPreprocess st.maps cfg.td.seqLen data b = .ok p ∧ st'.maps = p.maps ∧
        st'.seqHist = (tiTrainTensor st.seqHist cfg.td.seqLen p.chunk).2 ∧
        st'.history = tiUpdateHistory st.history p.chunk := by
  obtain ⟨ext, past, hi, ho, hl⟩ := hseen
  obtain ⟨p, cr, nus, nis, hp⟩ := tiPreprocess_ok hi.user hi.item cfg.td.seqLen hs.len data hd.ne b
  have hsub : ∀ r ∈ cr, r.row ∈ data := by
    intro r hr
    have := hp.crop
    rw [getDfWithCroppedPos_eq data _ b hs.len hd.ne] at this
    obtain rfl := Except.ok.inj this
    have h1 := cropSpec_user cfg.td.seqLen data b r.row.user
    have h2 : r ∈ (cropSpec cfg.td.seqLen data b).filter fun x => decide (x.row.user = r.row.user) :=
      List.mem_filter.2 ⟨hr, by simp⟩
    rw [h1] at h2
    have h3 : r.row ∈ (posed (lastN cfg.td.seqLen
        (if b then tsSort (rowsOf r.row.user data) else rowsOf r.row.user data))).map PRow.row :=
      List.mem_map_of_mem h2
    rw [posed_rows] at h3
    have h4 := List.mem_of_mem_drop h3
    cases b with
    | false => exact List.mem_of_mem_filter h4
    | true => exact List.mem_of_mem_filter ((mem_tsSort _ _).1 h4)
  have hnus : nus = [] := by
    rw [List.eq_nil_iff_forall_not_mem]
    intro x hx
    obtain ⟨h1, h2⟩ := List.mem_filter.1 ((hp.firstUsers.mem x).1 hx)
    obtain ⟨r, hr, rfl⟩ := List.mem_map.1 h1
    exact of_decide_eq_true h2 (hd.known _ (hsub r hr)).1
  have hnis : nis = [] := by
    rw [List.eq_nil_iff_forall_not_mem]
    intro x hx
    obtain ⟨h1, h2⟩ := List.mem_filter.1 ((hp.firstItems.mem x).1 hx)
    obtain ⟨r, hr, rfl⟩ := List.mem_map.1 h1
    exact of_decide_eq_true h2 (hd.known _ (hsub r hr)).2
  subst hnus hnis
  have hrange : ∀ n, idRange n ([] : List ℤ).length = [] := fun n => rfl
  have hδ := prep_delta hs.len hi.hist (fun t ht => hi.pastRange ht) hd.ne hp
  obtain ⟨hsh, -, hok⟩ := tiUpdate_step rounds hs.len hs.att hi hd.ne b hp
  rw [hp.newUsers, hp.newItems, hrange, hrange] at hδ hok
  have hnew : Ordered users items cr (chunkInters p.chunk) := by
    have := hp.mapped
    rw [List.append_nil, List.append_nil] at this
    unfold Ordered chunkInters
    rw [List.forall₂_map_right_iff]
    exact this.imp fun r t h => ⟨h.1, h.2.2⟩
  have hdelta : IsDelta cfg.td.seqLen past (chunkInters p.chunk) (tiTrainTensor st.seqHist cfg.td.seqLen p.chunk).1 :=
    ⟨(C07_delta_wellformed _ _ (histInv_update _ _ _ _ hi.hist).nodup).1, fun u i q v => mem_delta_iff hi.hist u i q v⟩
  have hlast := lastItems_crop hs.len hd.ne hp.crop hl
  have hT : windowTensor cfg.td.seqLen users items ((ext ++ cr).map PRow.row) =
      windowTensor cfg.td.seqLen users items (rows ++ inTime b data) :=
    windowTensor_congr _ _ _ fun u => by rw [List.map_append]; exact hlast u
  have hS : windowTensor cfg.td.seqLen users items (ext.map PRow.row) = windowTensor cfg.td.seqLen users items rows :=
    windowTensor_congr _ _ _ hl
  obtain ⟨d1, d2⟩ := delta_tensor hi.user.nodup hi.item.nodup ho hnew hdelta hδ
  rw [hT, hS] at d1 d2
  have hmov := (delta_moves hi.user.nodup hi.item.nodup ho hnew hdelta).2 (by
    obtain ⟨u, hu⟩ := hd.moves
    exact ⟨u, by rw [hlast, hl]; exact hu⟩)
  have hholds : HoldsTensor
      ({ st with maps := p.maps, seqHist := (tiTrainTensor st.seqHist cfg.td.seqLen p.chunk).2 } : TDState K)
      cfg.td.hooi.rank.1 cfg.td.hooi.rank.2.1 cfg.td.hooi.rank.2.2 S := by
    obtain ⟨U, V, W, c, q, q1, q2, q3⟩ := hS0
    exact ⟨U, V, W, c, ⟨q.u, q.v, q.w, q.core⟩, q1, q2, q3⟩
  obtain ⟨l, e, g1, g2⟩ := rounds_known hc hs.qr hf hholds _ hmov
    (fun s hs' => hold _ s hmov d2 hδ.user hδ.item hδ.pos d1 hs')
  obtain ⟨T, gT, U, V, W, c, q, q1, q2, q3⟩ := g1
  obtain ⟨st', f1, f2, f3, f4⟩ := hok l e ⟨U, V, W, c, q⟩ g2
  rw [List.append_nil, List.append_nil] at f4
  refine ⟨st', by unfold tiUpdate; rw [f1]; rfl, ⟨_, _, f4, ho.append hnew, fun u => ?_⟩, ⟨T, gT, U, V, W, c, ?_, q1, q2, q3⟩,
    p, hp.prep, ?_⟩
  · rw [List.map_append]; exact hlast u
  · have k1 : l.st.u = st'.u := congrArg Fac.f0 f2
    have k2 : l.st.v = st'.v := congrArg Fac.f1 f2
    have k3 : l.st.w = st'.w := congrArg Fac.f2 f2
    exact ⟨k1 ▸ q.u, k2 ▸ q.v, k3 ▸ q.w, f3 ▸ q.core⟩
  · unfold tiUpdateLog at f1
    rw [hp.prep, except_bind_ok] at f1
    dsimp only at f1
    rw [hp.newUsers, hp.newItems, hrange, hrange, e, except_bind_ok] at f1
    obtain ⟨aw, -, f1⟩ := (bind_ok_iff _ _ _).1 f1
    obtain ⟨lw, -, f1⟩ := (bind_ok_iff _ _ _).1 f1
    obtain ⟨last, -, f1⟩ := (bind_ok_iff _ _ _).1 f1
    cases f1
    refine ⟨g2.maps, g2.seqHist, ?_⟩
    show tiUpdateHistory l.st.history _ = _
    rw [g2.history]

/-- One update with known users and items, if the integrator takes the tensor `S` to the tensor `T`. -/
theorem tiUpdate_known {rounds : TIRounds K} (hc : IsTIClass rounds) (hs : TISetting cfg m)
    (hf : cfg.Fits users items) (hseen : TISeen cfg m st users items rows)
    {S T : T3 users.length items.length cfg.td.seqLen K}
    (hS0 : HoldsTensor st cfg.td.hooi.rank.1 cfg.td.hooi.rank.2.1 cfg.td.hooi.rank.2.2 S)
    (data : List (Row K)) (b : Bool) (hd : TIKnown cfg.td.seqLen users items rows (inTime b data) data)
    (hold : ∀ (δ : List DRow) (s : TDState K), δ ≠ [] →
      δ.length = differing (windowTensor cfg.td.seqLen users items (rows ++ inTime b data))
        (windowTensor cfg.td.seqLen users items rows) →
      (∀ r ∈ δ, 0 ≤ r.user ∧ r.user < users.length) → (∀ r ∈ δ, 0 ≤ r.item ∧ r.item < items.length) →
      (∀ r ∈ δ, 0 ≤ r.pos ∧ r.pos < cfg.td.seqLen) →
      (∀ (i : Fin users.length) (j : Fin items.length) (p : Fin cfg.td.seqLen),
        (deltaVal δ ((i : ℕ) : ℤ) ((j : ℕ) : ℤ) ((p : ℕ) : ℤ) : K) =
          windowTensor cfg.td.seqLen users items (rows ++ inTime b data) i j p -
            windowTensor cfg.td.seqLen users items rows i j p) →
      HoldsTensor s cfg.td.hooi.rank.1 cfg.td.hooi.rank.2.1 cfg.td.hooi.rank.2.2 S →
      ∃ s', tiOld cfg m s δ = .ok s' ∧
        HoldsTensor s' cfg.td.hooi.rank.1 cfg.td.hooi.rank.2.1 cfg.td.hooi.rank.2.2 T ∧ TISame s s') :
    ∃ st', tiUpdate rounds cfg m st data b = .ok st' ∧ TISeen cfg m st' users items (rows ++ inTime b data) ∧
      HoldsTensor st' cfg.td.hooi.rank.1 cfg.td.hooi.rank.2.1 cfg.td.hooi.rank.2.2 T ∧
      ∃ p, tiPreprocess st.maps cfg.td.seqLen data b = .ok p ∧ st'.maps = p.maps ∧
        st'.seqHist = (tiTrainTensor st.seqHist cfg.td.seqLen p.chunk).2 ∧
        st'.history = tiUpdateHistory st.history p.chunk := by
  obtain ⟨st', h1, h2, ⟨_, rfl, h3⟩, h4⟩ := tiUpdate_good (good := fun x => x = T) hc hs hf hseen hS0 data b hd
    fun δ s k1 k2 k3 k4 k5 k6 k7 => by
      obtain ⟨s', e, h, h'⟩ := hold δ s k1 k2 k3 k4 k5 k6 k7
      exact ⟨s', e, ⟨T, rfl, h⟩, h'⟩
  exact ⟨st', h1, h2, h3, h4⟩

/-- One update. -/
theorem tiUpdate_tracks {rounds : TIRounds K} (hc : IsTIClass rounds) (hs : TISetting cfg m)
    (hatt : tiAttArg cfg m = none) (hf : cfg.Fits users items) (h : TITracks cfg m st users items rows)
    (data : List (Row K)) (b : Bool) (hd : TIFollows cfg.td.seqLen users items rows (inTime b data) data) :
    ∃ st', tiUpdate rounds cfg m st data b = .ok st' ∧ TITracks cfg m st' users items (rows ++ inTime b data) := by
  obtain ⟨st', e, h1, h2, -⟩ := tiUpdate_known hc hs hf h.seen h.holds data b hd.toTIKnown
    fun δ s hne hlen hu hi hp hδ hs' => tiOld_exact hs.qr hatt hf hs' δ hne (by rw [hlen]; exact hd.few) hu hi hp hδ hd.rank
  exact ⟨st', e, h1, h2⟩

/-- **C143.** A model of `TIRec` or `TIRecA` (in both modes) without attention in the integrator that holds the tensor of
the last `seq_len` items of every user exactly, updated with chunks of known users and items each of which changes some
window, keeps the three ranks and changes at most 10000 entries (or a multiple of 10000): every update succeeds, and at the
end the model holds exactly the tensor of the last items of every user. -/
theorem C143_follows {rounds : TIRounds K} (hc : IsTIClass rounds) (hs : TISetting cfg m)
    (hatt : cfg.td.attF = none ∨ cfg.light = true) (hf : cfg.Fits users items)
    (h : TITracks cfg m st users items rows) (chunks : List (List (Row K))) (b : Bool)
    (hd : ∀ (t : ℕ) (c : List (Row K)), chunks[t]? = some c →
      TIFollows cfg.td.seqLen users items (rows ++ ((chunks.take t).map (inTime b)).flatten) (inTime b c) c) :
    ∃ st', tiUpdates rounds cfg m st chunks b = .ok st' ∧
      TITracks cfg m st' users items (rows ++ (chunks.map (inTime b)).flatten) := by
  have ha : tiAttArg cfg m = none := by
    unfold tiAttArg
    rcases hatt with h | h <;> simp [h]
  induction chunks generalizing st rows with
  | nil => exact ⟨st, rfl, by simpa using h⟩
  | cons c cs ih =>
    have h0 := hd 0 c rfl
    rw [List.take_zero, List.map_nil, List.flatten_nil, List.append_nil] at h0
    obtain ⟨s1, e1, h1⟩ := tiUpdate_tracks hc hs ha hf h c b h0
    obtain ⟨s2, e2, h2⟩ := ih h1 fun t d ht => by
      have := hd (t + 1) d ht
      rw [List.take_succ_cons, List.map_cons, List.flatten_cons, ← List.append_assoc] at this
      exact this
    refine ⟨s2, ?_, ?_⟩
    · unfold tiUpdates at e2 ⊢
      rw [List.foldlM_cons, e1, except_bind_ok]
      exact e2
    · rw [List.map_cons, List.flatten_cons, ← List.append_assoc]
      exact h2

end

/-! ### An example -/

section
open scoped Matrix

/-- user 7 viewed 40, user 8 viewed 50 -/
noncomputable def exTrackTable : List (PRow ℝ) := [⟨⟨7, 40, 1, 1, 0⟩, 0⟩, ⟨⟨8, 50, 1, 1, 0⟩, 0⟩]

def exTrackPast : List Inter := [⟨0, 0, 0⟩, ⟨1, 1, 0⟩]

/-- a state that holds the tensor of the windows: the identity matrix -/
noncomputable def exTrackState : TDState ℝ where
  maps := ⟨getContMappingStruct [7, 8] 0, getContMappingStruct [40, 50] 0⟩
  history := [(0, 0), (1, 1)]
  seqHist := updateUserSeqHistory exTrackPast [] 1
  u := ⟨2, 2, 1⟩
  v := ⟨2, 2, 1⟩
  w := ⟨1, 1, 1⟩
  core := some ⟨2, 2, 1, fun i j _ => if i = j then 1 else 0⟩
  aw := ⟨1, 1, 1⟩
  lastPos := ⟨1, fun _ => 1⟩

theorem exTrack_inv : TIInv exRowCfg exRowAtt exTrackState [7, 8] [40, 50] exTrackTable exTrackPast where
  user := represents_start_zero _ (by decide)
  item := represents_start_zero _ (by decide)
  hist := by
    have := histInv_update 1 [] [] exTrackPast (histInv_nil 1)
    rwa [List.nil_append] at this
  shape := show TIShape exTrackState 2 2 1 2 2 1 from ⟨1, 1, 1, _, rfl, rfl, rfl, rfl⟩
  seen := ⟨[⟨⟨0, 0, 1, 1, 0⟩, 0⟩, ⟨⟨1, 1, 1, 1, 0⟩, 0⟩],
    .cons ⟨rfl, rfl, ⟨0, rfl, rfl⟩, 0, rfl, rfl⟩ (.cons ⟨rfl, rfl, ⟨1, rfl, rfl⟩, 1, rfl, rfl⟩ .nil),
      List.Perm.refl _, rfl⟩
  aw := exRow_inv.aw
  last := exRow_inv.last
  usersOccur := by decide
  itemsOccur := by decide

/-- user 8 views 40 -/
noncomputable def exTrackChunk : List (Row ℝ) := [⟨8, 40, 1, 2, 0⟩]

noncomputable def exTrackRows : List (Row ℝ) := [⟨7, 40, 1, 1, 0⟩, ⟨8, 50, 1, 1, 0⟩]

theorem exTrack_tensor : windowTensor 1 [7, 8] [40, 50] exTrackRows = fun i j _ => if i = j then 1 else 0 := by
  funext i j p
  fin_cases i <;> fin_cases j <;> fin_cases p <;> rfl

theorem exTrack_tensor' : windowTensor 1 [7, 8] [40, 50] (exTrackRows ++ exTrackChunk) =
    fun _ j _ => if j = 0 then 1 else 0 := by
  funext i j p
  fin_cases i <;> fin_cases j <;> fin_cases p <;> rfl

theorem rank_of_eq {a b c : ℕ} {A : Matrix (Fin a) (Fin b) ℝ} {B : Matrix (Fin b) (Fin c) ℝ} (X : Matrix (Fin c) (Fin b) ℝ)
    (h : A = A * B * X) : A.rank ≤ (A * B).rank := by
  conv_lhs => rw [h]
  exact Matrix.rank_mul_le_left _ _

theorem exTrack_follows : TIFollows 1 [7, 8] [40, 50] exTrackRows exTrackChunk exTrackChunk where
  ne := List.cons_ne_nil _ _
  known := by
    intro r hr
    rw [List.mem_singleton.1 hr]
    decide
  moves := ⟨8, show ([40] : List ℤ) ≠ [50] by decide⟩
  few := Or.inl ((Finset.card_le_univ _).trans (by decide))
  rank := by
    rw [exTrack_tensor', exTrack_tensor]
    refine ⟨rank_of_eq (unf fun i j _ => if i = j then 1 else 0) ?_,
      rank_of_eq (unf (front1 fun i j _ => if i = j then 1 else 0)) ?_,
      rank_of_eq (unf (front2 fun _ j _ => if j = 0 then 1 else 0)) ?_⟩
    all_goals
      ext i p
      obtain ⟨⟨k, j⟩, rfl⟩ := finProdFinEquiv.surjective p
      simp only [Matrix.mul_apply, sum_finProd, unf, Matrix.of_apply, Matrix.transpose_apply, Equiv.symm_apply_apply,
        front1, front2]
      fin_cases i <;> fin_cases k <;> fin_cases j <;> simp

theorem exTrack_holds : HoldsTensor exTrackState 2 2 1 (windowTensor 1 [7, 8] [40, 50] exTrackRows) := by
  rw [exTrack_tensor]
  refine ⟨(1 : Matrix (Fin 2) (Fin 2) ℝ), (1 : Matrix (Fin 2) (Fin 2) ℝ), (1 : Matrix (Fin 1) (Fin 1) ℝ), _,
    ⟨rfl, rfl, rfl, rfl⟩, by simp, by simp, ?_⟩
  rw [tuckerTensor_eq, mul2_one, mul1_one, mul0_one]
  rfl

/-- Both classes follow the chunk: afterwards the factors reproduce the tensor in which both users stand at item 40. -/
example (rounds : TIRounds ℝ) (hc : IsTIClass rounds) :
    ∃ st', tiUpdates rounds exRowCfg exRowAtt exTrackState [exTrackChunk] true = .ok st' ∧
      HoldsTensor st' 2 2 1 (fun (_ : Fin 2) (j : Fin 2) (_ : Fin 1) => if j = 0 then (1 : ℝ) else 0) := by
  obtain ⟨st', h1, h2⟩ := C143_follows (cfg := exRowCfg) (m := exRowAtt) (st := exTrackState) (users := [7, 8])
    (items := [40, 50]) (rows := exTrackRows) hc exRow_setting (Or.inl rfl) exRow_dims
    ⟨⟨exTrackTable, exTrackPast, exTrack_inv, .cons ⟨rfl, ⟨0, rfl, rfl⟩, 0, rfl, rfl⟩
        (.cons ⟨rfl, ⟨1, rfl, rfl⟩, 1, rfl, rfl⟩ .nil), fun u => rfl⟩,
      exTrack_holds⟩
    [exTrackChunk] true (fun t c ht => by
      match t with
      | 0 =>
        obtain rfl := Option.some.inj ht
        exact exTrack_follows
      | t + 1 => simp at ht)
  refine ⟨st', h1, ?_⟩
  have := h2.holds
  rw [show (windowTensor exRowCfg.td.seqLen [7, 8] [40, 50]
    (exTrackRows ++ ([exTrackChunk].map (inTime true)).flatten) : T3 2 2 1 ℝ) = _ from exTrack_tensor'] at this
  exact this

end

end DynCF
