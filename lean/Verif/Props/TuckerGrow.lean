/-
C173: the error of `TIRecA` with zero embeddings and the integrator scheme, for chunks with any users and items.
-/
import Verif.Props.TuckerLoss

set_option linter.unusedSectionVars false

namespace DynCF
open Matrix

/-! ### Specification -/

/-- `t'` is `t` with zeros for further users and items -/
def TZeroExt {n0 n1 n2 n0' n1' : ℕ} (t : T3 n0 n1 n2 ℝ) (t' : T3 n0' n1' n2 ℝ) : Prop :=
  n0 ≤ n0' ∧ n1 ≤ n1' ∧
    ∀ i j p, t' i j p = if h : (i : ℕ) < n0 ∧ (j : ℕ) < n1 then t ⟨i, h.1⟩ ⟨j, h.2⟩ p else 0

/-! ### Appended zeros -/

section
variable {n0 n1 n2 n0' n1' : ℕ}

theorem TZeroExt.unique {t : T3 n0 n1 n2 ℝ} {s s' : T3 n0' n1' n2 ℝ} (h : TZeroExt t s) (h' : TZeroExt t s') : s = s' := by
  funext i j p
  rw [h.2.2, h'.2.2]

theorem TZeroExt.sub {s t : T3 n0 n1 n2 ℝ} {s' t' : T3 n0' n1' n2 ℝ} (h : TZeroExt s s') (h' : TZeroExt t t') :
    TZeroExt (s - t) (s' - t') := by
  refine ⟨h.1, h.2.1, fun i j p => ?_⟩
  rw [Pi.sub_apply, Pi.sub_apply, Pi.sub_apply, h.2.2, h'.2.2]
  split
  · rfl
  · exact sub_self _

theorem TZeroExt.tenSq {t : T3 n0 n1 n2 ℝ} {t' : T3 n0' n1' n2 ℝ} (h : TZeroExt t t') : tenSq t' = tenSq t := by
  obtain ⟨h1, h2, h3⟩ := h
  obtain ⟨k, rfl⟩ := Nat.exists_eq_add_of_le h1
  obtain ⟨l, rfl⟩ := Nat.exists_eq_add_of_le h2
  have e1 : ∀ (i : Fin n0) (j : Fin n1) p, t' (Fin.castAdd k i) (Fin.castAdd l j) p = t i j p := fun i j p => by
    rw [h3, dif_pos ⟨i.2, j.2⟩]
    rfl
  have e2 : ∀ (i : Fin k) (j : Fin (n1 + l)) p, t' (Fin.natAdd n0 i) j p = 0 := fun i j p => by
    rw [h3, dif_neg]
    rintro ⟨g, -⟩
    simp at g
  have e3 : ∀ (i : Fin (n0 + k)) (j : Fin l) p, t' i (Fin.natAdd n1 j) p = 0 := fun i j p => by
    rw [h3, dif_neg]
    rintro ⟨-, g⟩
    simp at g
  unfold DynCF.tenSq
  rw [Fin.sum_univ_add]
  simp only [e2, Fin.sum_univ_add (b := l), e3, e1]
  simp

theorem TZeroExt.tfro {t : T3 n0 n1 n2 ℝ} {t' : T3 n0' n1' n2 ℝ} (h : TZeroExt t t') : tfro t' = tfro t :=
  congrArg Real.sqrt h.tenSq

end

section
variable {cfg : TICfg ℝ} {m : TDAtt ℝ} {st : TDState ℝ} {users items : List ℤ} {rows : List (Row ℝ)}

theorem zeroRows_orth {n r : ℕ} {V : Matrix (Fin n) (Fin r) ℝ} (h : V.transpose * V = 1) (k : ℕ) :
    (zeroRows V k).transpose * zeroRows V k = 1 := by
  rw [← h]
  ext a b
  simp [Matrix.mul_apply, Fin.sum_univ_add, zeroRows]

/-- Zero embeddings append rows of zeros to the factors and zeros to the tensor. -/
theorem tiEmb_zeros (hz : cfg.init = .zero) {n0 n1 n2 r0 r1 r2 : ℕ} {S : T3 n0 n1 n2 ℝ} (h : HoldsTensor st r0 r1 r2 S)
    (k l : ℕ) {N0 N1 : ℕ} (h0 : N0 = n0 + k) (h1 : N1 = n1 + l) :
    ∃ s1 s2, tiEmbUsers cfg k st = .ok s1 ∧ tiEmbItems cfg l s1 = .ok s2 ∧ TISame st s2 ∧
      ∃ (U : Matrix (Fin N0) (Fin r0) ℝ) (V : Matrix (Fin N1) (Fin r1) ℝ) (W : Matrix (Fin n2) (Fin r2) ℝ)
        (c : T3 r0 r1 r2 ℝ), TIStores s2 U V W c ∧ V.transpose * V = 1 ∧ W.transpose * W = 1 ∧
        TZeroExt S (tuckerTensor U V W c) ∧
        (∀ i : Fin N0, n0 ≤ (i : ℕ) → ∀ a, U i a = 0) ∧ ∀ j : Fin N1, n1 ≤ (j : ℕ) → ∀ a, V j a = 0 := by
  subst h0 h1
  obtain ⟨U, V, W, c, h, hV, hW, hS⟩ := h
  have h1 := tiZeroUsers_stores h k
  have h2 := tiZeroItems_stores h1.1 l
  refine ⟨_, _, by unfold tiEmbUsers; rw [hz], by unfold tiEmbItems; rw [hz], h1.2.trans h2.2, _, _, W, c, h2.1,
    zeroRows_orth hV l, hW, ⟨Nat.le_add_right _ _, Nat.le_add_right _ _, fun i j p => ?_⟩, fun i hi a => ?_,
    fun j hj a => ?_⟩
  · rw [← hS]
    unfold tuckerTensor zeroRows
    by_cases hi : (i : ℕ) < n0
    · by_cases hj : (j : ℕ) < n1
      · rw [dif_pos ⟨hi, hj⟩]
        obtain ⟨i, rfl⟩ : ∃ i' : Fin n0, i = Fin.castAdd k i' := ⟨⟨i, hi⟩, rfl⟩
        obtain ⟨j, rfl⟩ : ∃ j' : Fin n1, j = Fin.castAdd l j' := ⟨⟨j, hj⟩, rfl⟩
        simp
      · rw [dif_neg fun g => hj g.2]
        obtain ⟨j, rfl⟩ : ∃ j' : Fin l, j = Fin.natAdd n1 j' := ⟨⟨j - n1, by omega⟩, Fin.ext (by simp; omega)⟩
        simp
    · rw [dif_neg fun g => hi g.1]
      obtain ⟨i, rfl⟩ : ∃ i' : Fin k, i = Fin.natAdd n0 i' := ⟨⟨i - n0, by omega⟩, Fin.ext (by simp; omega)⟩
      simp
  · obtain ⟨i, rfl⟩ : ∃ i' : Fin k, i = Fin.natAdd n0 i' := ⟨⟨i - n0, by omega⟩, Fin.ext (by simp; omega)⟩
    simp [zeroRows]
  · obtain ⟨j, rfl⟩ : ∃ j' : Fin l, j = Fin.natAdd n1 j' := ⟨⟨j - n1, by omega⟩, Fin.ext (by simp; omega)⟩
    simp [zeroRows]

/-! ### The windows of known users -/

theorem lastItems_ne_nil {L : ℕ} (hL : 1 ≤ L) {rows : List (Row ℝ)} {u : ℤ} :
    lastItems L rows u ≠ [] ↔ ∃ r ∈ rows, r.user = u := by
  rw [← List.length_pos_iff, lastItems_length]
  have : 0 < min L (rowsOf u rows).length ↔ 0 < (rowsOf u rows).length := by omega
  rw [this, List.length_pos_iff]
  unfold rowsOf
  rw [ne_eq, List.filter_eq_nil_iff, not_forall]
  constructor
  · rintro ⟨r, hr⟩
    push Not at hr
    exact ⟨r, hr.1, of_decide_eq_true hr.2⟩
  · rintro ⟨r, hr, rfl⟩
    exact ⟨r, fun h => h hr (by simp)⟩

/-- The known users are those of the rows seen. -/
theorem TISeen.users_iff (hL : 1 ≤ cfg.td.seqLen) (h : TISeen cfg m st users items rows) (x : ℤ) :
    x ∈ users ↔ ∃ r ∈ rows, r.user = x := by
  obtain ⟨ext, past, hi, ho, hl⟩ := h
  rw [← lastItems_ne_nil hL, ← hl, lastItems_ne_nil hL]
  constructor
  · intro hx
    obtain ⟨r, hr, rfl⟩ := hi.usersOccur x hx
    exact ⟨r.row, List.mem_map_of_mem hr, rfl⟩
  · rintro ⟨_, hr, rfl⟩
    obtain ⟨q, hq, rfl⟩ := List.mem_map.1 hr
    exact (ho.row hq).1

/-- The items of the windows are known. -/
theorem TISeen.items_mem (h : TISeen cfg m st users items rows) {u x : ℤ} (hx : x ∈ lastItems cfg.td.seqLen rows u) :
    x ∈ items := by
  obtain ⟨ext, past, hi, ho, hl⟩ := h
  rw [← hl] at hx
  obtain ⟨r, hr, rfl⟩ := List.mem_map.1 (mem_lastN hx)
  obtain ⟨q, hq, rfl⟩ := List.mem_map.1 (List.mem_filter.1 hr).1
  exact (ho.row hq).2

/-- Further users and items have zeros in the tensor of the windows. -/
theorem TISeen.window_ext (hL : 1 ≤ cfg.td.seqLen) (h : TISeen cfg m st users items rows) (nus nis : List ℤ)
    (hu : (users ++ nus).Nodup) (hi : (items ++ nis).Nodup) :
    TZeroExt (windowTensor cfg.td.seqLen users items rows)
      (windowTensor cfg.td.seqLen (users ++ nus) (items ++ nis) rows) := by
  refine ⟨by rw [List.length_append]; omega, by rw [List.length_append]; omega, fun i j p => ?_⟩
  by_cases hij : (i : ℕ) < users.length ∧ (j : ℕ) < items.length
  · rw [dif_pos hij]
    unfold windowTensor
    have e1 : (users ++ nus)[i] = users[(i : ℕ)]'hij.1 := List.getElem_append_left hij.1
    have e2 : (items ++ nis)[j] = items[(j : ℕ)]'hij.2 := List.getElem_append_left hij.2
    rw [e1, e2]
    rfl
  · rw [dif_neg hij]
    unfold windowTensor
    rw [if_neg]
    intro hp
    have hp := List.mem_of_getElem? hp
    unfold places at hp
    rw [List.mem_append, List.mem_replicate] at hp
    rcases hp with ⟨-, hp⟩ | hp
    · cases hp
    · obtain ⟨x, hx, he⟩ := List.mem_map.1 hp
      obtain rfl := Option.some.inj he
      have k1 : (items ++ nis)[j] ∈ items := h.items_mem hx
      have k2 : (users ++ nus)[i] ∈ users :=
        (h.users_iff hL _).2 ((lastItems_ne_nil hL).1 (List.ne_nil_of_mem hx))
      apply hij
      obtain ⟨a, ha, e1⟩ := List.mem_iff_getElem.1 k2
      obtain ⟨b, hb, e2⟩ := List.mem_iff_getElem.1 k1
      have e1' : (users ++ nus)[a]'(by rw [List.length_append]; omega) = (users ++ nus)[(i : ℕ)] :=
        (List.getElem_append_left ha).trans e1
      have e2' : (items ++ nis)[b]'(by rw [List.length_append]; omega) = (items ++ nis)[(j : ℕ)] :=
        (List.getElem_append_left hb).trans e2
      have := (List.Nodup.getElem_inj_iff hu).1 e1'
      have := (List.Nodup.getElem_inj_iff hi).1 e2'
      omega

/-! ### Updates -/

/-- The value of an entry of a list without repeated coordinates. -/
theorem deltaVal_mem {δ : List DRow} (h : (δ.map fun r => (r.user, r.item, r.pos)).Nodup) {r : DRow} (hr : r ∈ δ) :
    (deltaVal δ r.user r.item r.pos : ℝ) = r.val := by
  unfold deltaVal
  induction δ with
  | nil => cases hr
  | cons x δ ih =>
    rw [List.map_cons, List.nodup_cons] at h
    rcases List.mem_cons.1 hr with rfl | hr'
    · rw [List.filter_cons_of_pos (by simp), List.filter_eq_nil_iff.2 fun y hy hc => h.1 (List.mem_map.2 ⟨y, hy, by
        obtain ⟨c1, c2, c3⟩ := of_decide_eq_true hc
        rw [c1, c2, c3]⟩)]
      simp
    · rw [List.filter_cons_of_neg]
      · exact ih h.2 hr'
      · intro hc
        obtain ⟨c1, c2, c3⟩ := of_decide_eq_true hc
        exact h.1 (List.mem_map.2 ⟨r, hr', by rw [c1, c2, c3]⟩)

/-- An update in the integrator scheme with zero embeddings: if the integrator step on the extended factors succeeds with
orthonormal factors and some property, then so does the update. -/
theorem tiGrow_good (hs : TISetting cfg m) (hz : cfg.init = .zero)
    (hint : cfg.integrator = true) (hf : cfg.Fits users items) (hseen : TISeen cfg m st users items rows)
    {S : T3 users.length items.length cfg.td.seqLen ℝ} {r0 r1 r2 : ℕ} (hrank : cfg.td.hooi.rank = (r0, r1, r2))
    (hS0 : HoldsTensor st r0 r1 r2 S)
    (data : List (Row ℝ)) (b : Bool) (hne : data ≠ []) (hmov : WindowMoves cfg.td.seqLen rows (inTime b data))
    {good : ∀ {n0 n1 : ℕ}, T3 n0 n1 cfg.td.seqLen ℝ → T3 n0 n1 cfg.td.seqLen ℝ → Matrix (Fin n0) (Fin r0) ℝ →
      Matrix (Fin n1) (Fin r1) ℝ → Matrix (Fin cfg.td.seqLen) (Fin r2) ℝ → T3 r0 r1 r2 ℝ → Prop}
    (step : ∀ (nus nis : List ℤ) (s2 : TDState ℝ) (U : Matrix (Fin (users ++ nus).length) (Fin r0) ℝ)
      (V : Matrix (Fin (items ++ nis).length) (Fin r1) ℝ) (W : Matrix (Fin cfg.td.seqLen) (Fin r2) ℝ) (c : T3 r0 r1 r2 ℝ)
      (δ : List DRow) (D : T3 (users ++ nus).length (items ++ nis).length cfg.td.seqLen ℝ),
      (users ++ nus).Nodup → (items ++ nis).Nodup →
      TIDims (users ++ nus).length (items ++ nis).length cfg.td.seqLen r0 r1 r2 →
      TIStores s2 U V W c → V.transpose * V = 1 → W.transpose * W = 1 → TZeroExt S (tuckerTensor U V W c) →
      (∀ i : Fin (users ++ nus).length, users.length ≤ (i : ℕ) → ∀ a, U i a = 0) →
      (∀ j : Fin (items ++ nis).length, items.length ≤ (j : ℕ) → ∀ a, V j a = 0) →
      D = windowTensor cfg.td.seqLen (users ++ nus) (items ++ nis) (rows ++ inTime b data) -
          windowTensor cfg.td.seqLen (users ++ nus) (items ++ nis) rows →
      δ ≠ [] → δ.length = differing
          (windowTensor cfg.td.seqLen (users ++ nus) (items ++ nis) (rows ++ inTime b data))
          (windowTensor (K := ℝ) cfg.td.seqLen (users ++ nus) (items ++ nis) rows) →
      (∀ r ∈ δ, 0 ≤ r.user ∧ r.user < (users ++ nus).length) → (∀ r ∈ δ, 0 ≤ r.item ∧ r.item < (items ++ nis).length) →
      (∀ r ∈ δ, 0 ≤ r.pos ∧ r.pos < cfg.td.seqLen) →
      (∀ (i : Fin (users ++ nus).length) (j : Fin (items ++ nis).length) (p : Fin cfg.td.seqLen),
        (deltaVal δ ((i : ℕ) : ℤ) ((j : ℕ) : ℤ) ((p : ℕ) : ℤ) : ℝ) = D i j p) →
      (∀ r ∈ δ, (deltaVal δ r.user r.item r.pos : ℝ) ≠ 0) →
      ∃ s3 U1 V1 W1 c1, tiOld cfg m s2 δ = .ok s3 ∧ TIStores s3 U1 V1 W1 c1 ∧ V1.transpose * V1 = 1 ∧
        W1.transpose * W1 = 1 ∧ good (tuckerTensor U V W c) D U1 V1 W1 c1 ∧ TISame s2 s3) :
    ∃ st' nus nis, ∃ (S' : T3 (users ++ nus).length (items ++ nis).length cfg.td.seqLen ℝ)
      (U1 : Matrix (Fin (users ++ nus).length) (Fin r0) ℝ) (V1 : Matrix (Fin (items ++ nis).length) (Fin r1) ℝ)
      (W1 : Matrix (Fin cfg.td.seqLen) (Fin r2) ℝ) (c1 : T3 r0 r1 r2 ℝ),
      tiUpdate tirecaMiddle cfg m st data b = .ok st' ∧
      TISeen cfg m st' (users ++ nus) (items ++ nis) (rows ++ inTime b data) ∧
      TIStores st' U1 V1 W1 c1 ∧ V1.transpose * V1 = 1 ∧ W1.transpose * W1 = 1 ∧ TZeroExt S S' ∧
      good S' (windowTensor cfg.td.seqLen (users ++ nus) (items ++ nis) (rows ++ inTime b data) -
          windowTensor cfg.td.seqLen (users ++ nus) (items ++ nis) rows) U1 V1 W1 c1 := by
  obtain ⟨ext, past, hi, ho, hl⟩ := hseen
  obtain ⟨p, cr, nus, nis, hp⟩ := tiPreprocess_ok hi.user hi.item cfg.td.seqLen hs.len data hne b
  have hδ := prep_delta hs.len hi.hist (fun t ht => hi.pastRange ht) hne hp
  obtain ⟨hsh, -, hok⟩ := tiUpdate_step tirecaMiddle hs.len hs.att hi hne b hp
  have hnew : Ordered (users ++ nus) (items ++ nis) cr (chunkInters p.chunk) := by
    unfold Ordered chunkInters
    rw [List.forall₂_map_right_iff]
    exact hp.mapped.imp fun r t h => ⟨h.1, h.2.2⟩
  have hdelta : IsDelta cfg.td.seqLen past (chunkInters p.chunk) (tiTrainTensor st.seqHist cfg.td.seqLen p.chunk).1 :=
    ⟨(C07_delta_wellformed _ _ (histInv_update _ _ _ _ hi.hist).nodup).1, fun u i q v => mem_delta_iff hi.hist u i q v⟩
  have ho' : Ordered (users ++ nus) (items ++ nis) ext past := ho.mono
  have hlast := lastItems_crop hs.len hne hp.crop hl
  have hT : windowTensor (K := ℝ) cfg.td.seqLen (users ++ nus) (items ++ nis) ((ext ++ cr).map PRow.row) =
      windowTensor cfg.td.seqLen (users ++ nus) (items ++ nis) (rows ++ inTime b data) :=
    windowTensor_congr _ _ _ fun u => by rw [List.map_append]; exact hlast u
  have hS : windowTensor (K := ℝ) cfg.td.seqLen (users ++ nus) (items ++ nis) (ext.map PRow.row) =
      windowTensor cfg.td.seqLen (users ++ nus) (items ++ nis) rows :=
    windowTensor_congr _ _ _ hl
  have hlu : (users ++ nus).length = users.length + nus.length := List.length_append
  have hli : (items ++ nis).length = items.length + nis.length := List.length_append
  have hδ' : DeltaOk (users ++ nus).length 0 (items ++ nis).length 0 cfg.td.seqLen [] []
      (tiTrainTensor st.seqHist cfg.td.seqLen p.chunk).1 :=
    ⟨rfl, rfl, by rw [hlu]; exact hδ.user, by rw [hli]; exact hδ.item, hδ.pos, by simp, by simp⟩
  obtain ⟨d1, d2⟩ := delta_tensor (K := ℝ) hp.user.nodup hp.item.nodup ho' hnew hdelta hδ'
  rw [hT, hS] at d1 d2
  have hmov := (delta_moves hp.user.nodup hp.item.nodup ho' hnew hdelta).2 (by
    obtain ⟨u, hu⟩ := hmov
    exact ⟨u, by rw [hlast, hl]; exact hu⟩)
  have hholds : HoldsTensor
      ({ st with maps := p.maps, seqHist := (tiTrainTensor st.seqHist cfg.td.seqLen p.chunk).2 } : TDState ℝ)
      r0 r1 r2 S := by
    obtain ⟨U, V, W, c, q, q1, q2, q3⟩ := hS0
    exact ⟨U, V, W, c, ⟨q.u, q.v, q.w, q.core⟩, q1, q2, q3⟩
  obtain ⟨s1, s2, z1, z2, z3, U0, V0, W0, c0, z4, z5, z6, z7, z8, z9⟩ :=
    tiEmb_zeros (cfg := cfg) hz hholds nus.length nis.length hlu hli
  obtain ⟨s3, U, V, W, c, y1, q, q1, q2, hgood, y4⟩ := step nus nis s2 U0 V0 W0 c0
    (tiTrainTensor st.seqHist cfg.td.seqLen p.chunk).1 _ hp.user.nodup hp.item.nodup
    (by have := hf.mono nus nis; unfold TICfg.Fits at this; rw [hrank] at this; exact this) z4 z5 z6 z7 z8 z9 rfl hmov
    (d2.trans (by unfold differing; congr)) hδ'.user hδ'.item hδ'.pos d1
    (fun r hr => by
      rw [deltaVal_mem hdelta.nodup hr]
      exact Int.cast_ne_zero.2 ((hdelta.mem r.user r.item r.pos r.val).1 hr).2)
  have hlen : (tiTrainTensor st.seqHist cfg.td.seqLen p.chunk).1.length > 0 := List.length_pos_iff.2 hmov
  have e : tirecaMiddle cfg m
      ({ st with maps := p.maps, seqHist := (tiTrainTensor st.seqHist cfg.td.seqLen p.chunk).2 } : TDState ℝ)
      p.newUsers p.newItems (tiTrainTensor st.seqHist cfg.td.seqLen p.chunk).1 =
      .ok ⟨s3, [], p.newUsers, p.newItems, [(.old, (tiTrainTensor st.seqHist cfg.td.seqLen p.chunk).1)]⟩ := by
    unfold tirecaMiddle
    rw [if_pos hint]
    unfold tirecaIntegrator tiConcat
    rw [if_neg (by simpa using hmov), except_bind_ok, hp.newUsers, hp.newItems, idRange_length, idRange_length, z1,
      except_bind_ok, z2, except_bind_ok]
    unfold tiUpdateFactors
    rw [if_pos hlen, show tiStep tirecaVectors cfg m s2 _ .old = .ok s3 from y1, except_bind_ok]
    rfl
  obtain ⟨st', f1, f2, f3, f4⟩ := hok _ e (by
    have : TIShape s3 (users ++ nus).length (items ++ nis).length cfg.td.seqLen r0 r1 r2 := ⟨U, V, W, c, q⟩
    rw [hlu, hli] at this
    rw [hrank]
    exact this) (z3.trans y4)
  refine ⟨st', nus, nis, _, U, V, W, c, by unfold tiUpdate; rw [f1]; rfl, ⟨_, _, f4, ho'.append hnew, fun u => ?_⟩,
    ?_, q1, q2, z7, hgood⟩
  · rw [List.map_append]; exact hlast u
  · have k1 : s3.u = st'.u := congrArg Fac.f0 f2
    have k2 : s3.v = st'.v := congrArg Fac.f1 f2
    have k3 : s3.w = st'.w := congrArg Fac.f2 f2
    have k4 : s3.core = st'.core := f3
    exact ⟨k1 ▸ q.u, k2 ▸ q.v, k3 ▸ q.w, k4 ▸ q.core⟩

/-- One update with any users and items. -/
theorem tiGrow_update (hs : TISetting cfg m) (hatt : tiAttArg cfg m = none) (hz : cfg.init = .zero)
    (hint : cfg.integrator = true) (hf : cfg.Fits users items) (hseen : TISeen cfg m st users items rows)
    {S : T3 users.length items.length cfg.td.seqLen ℝ}
    (hS0 : HoldsTensor st cfg.td.hooi.rank.1 cfg.td.hooi.rank.2.1 cfg.td.hooi.rank.2.2 S)
    (data : List (Row ℝ)) (b : Bool) (hne : data ≠ []) (hmov : WindowMoves cfg.td.seqLen rows (inTime b data))
    (few : 2 * cfg.td.seqLen * userCount data ≤ 10000) :
    ∃ st' nus nis, ∃ S' T : T3 (users ++ nus).length (items ++ nis).length cfg.td.seqLen ℝ,
      tiUpdate tirecaMiddle cfg m st data b = .ok st' ∧
      TISeen cfg m st' (users ++ nus) (items ++ nis) (rows ++ inTime b data) ∧
      HoldsTensor st' cfg.td.hooi.rank.1 cfg.td.hooi.rank.2.1 cfg.td.hooi.rank.2.2 T ∧ TZeroExt S S' ∧
      tenSq (S' + (windowTensor cfg.td.seqLen (users ++ nus) (items ++ nis) (rows ++ inTime b data) -
          windowTensor cfg.td.seqLen (users ++ nus) (items ++ nis) rows) - T) ≤
        6 * cfg.td.seqLen * userCount data := by
  obtain ⟨st', nus, nis, S', U1, V1, W1, c1, h1, h2, h3, h4, h5, h6, h7⟩ := tiGrow_good hs hz hint hf hseen
    (r0 := cfg.td.hooi.rank.1) (r1 := cfg.td.hooi.rank.2.1) (r2 := cfg.td.hooi.rank.2.2) rfl hS0 data b hne hmov
    (good := fun S' D U V W c => tenSq (S' + D - tuckerTensor U V W c) ≤ 6 * cfg.td.seqLen * userCount data)
    fun nus nis s2 U V W c δ D n1 n2 hd st2 o1 o2 _ _ _ hD hδ hlen hu hi hp hval _ => by
      have hdiff := differing_le (L := cfg.td.seqLen) n1 n2 rows (inTime b data)
      rw [userCount_inTime] at hdiff
      obtain ⟨s3, y1, ⟨T, y2, U1, V1, W1, c1, q, q1, q2, rfl⟩, y4⟩ := tiOld_loss hs.qr hatt hd
        ⟨U, V, W, c, st2, o1, o2, rfl⟩ δ hδ (Or.inl ((hlen.trans_le hdiff).trans few)) hu hi hp hval
      refine ⟨s3, U1, V1, W1, c1, y1, q, q1, q2, y2.trans ?_, y4⟩
      rw [hD, tenSq_differing]
      have h2 : ((differing (windowTensor (K := ℝ) cfg.td.seqLen (users ++ nus) (items ++ nis) (rows ++ inTime b data))
          (windowTensor cfg.td.seqLen (users ++ nus) (items ++ nis) rows) : ℕ) : ℝ) ≤
          ((2 * cfg.td.seqLen * userCount data : ℕ) : ℝ) := Nat.cast_le.2 (le_trans (le_of_eq (by unfold differing; congr)) hdiff)
      push_cast at h2
      linarith
  exact ⟨st', nus, nis, S', _, h1, h2, ⟨U1, V1, W1, c1, h3, h4, h5, rfl⟩, h6, h7⟩

/-- Every chunk is not empty and moves some window. -/
def MovingChunks (L : ℕ) (rows : List (Row ℝ)) (chunks : List (List (Row ℝ))) (b : Bool) : Prop :=
  ∀ (t : ℕ) (c : List (Row ℝ)), chunks[t]? = some c →
    c ≠ [] ∧ WindowMoves L (rows ++ ((chunks.take t).map (inTime b)).flatten) (inTime b c)

/-- **C173.** `TIRecA` with zero embeddings for new users and items, the integrator scheme and no attention in the integrator:
chunks with any users and items are accepted if each moves some window and has so few users that at most 10000 entries
change. The known users and items keep their positions, the known users are exactly those of the rows seen, all items of
windows are known, and the distance between the model and the tensor of the last `seq_len` items of every user (also the new
ones) grows by at most the square root of six times `seq_len` times the number of users of the chunk. -/
theorem C173_run (hs : TISetting cfg m) (hatt : cfg.td.attF = none ∨ cfg.light = true) (hz : cfg.init = .zero)
    (hint : cfg.integrator = true) (hf : cfg.Fits users items) (hseen : TISeen cfg m st users items rows)
    {S : T3 users.length items.length cfg.td.seqLen ℝ}
    (hS : HoldsTensor st cfg.td.hooi.rank.1 cfg.td.hooi.rank.2.1 cfg.td.hooi.rank.2.2 S)
    (chunks : List (List (Row ℝ))) (b : Bool) (hd : MovingChunks cfg.td.seqLen rows chunks b)
    (few : ∀ c ∈ chunks, 2 * cfg.td.seqLen * userCount c ≤ 10000) :
    ∃ st' users' items', ∃ T : T3 users'.length items'.length cfg.td.seqLen ℝ,
      tiUpdates tirecaMiddle cfg m st chunks b = .ok st' ∧ users <+: users' ∧ items <+: items' ∧
      TISeen cfg m st' users' items' (rows ++ (chunks.map (inTime b)).flatten) ∧
      (∀ x, x ∈ users' ↔ ∃ r ∈ rows ++ (chunks.map (inTime b)).flatten, r.user = x) ∧
      (∀ u, ∀ x ∈ lastItems cfg.td.seqLen (rows ++ (chunks.map (inTime b)).flatten) u, x ∈ items') ∧
      HoldsTensor st' cfg.td.hooi.rank.1 cfg.td.hooi.rank.2.1 cfg.td.hooi.rank.2.2 T ∧
      tfro (windowTensor cfg.td.seqLen users' items' (rows ++ (chunks.map (inTime b)).flatten) - T) ≤
        tfro (windowTensor cfg.td.seqLen users items rows - S) +
          (chunks.map fun c => Real.sqrt (6 * cfg.td.seqLen * userCount c)).sum := by
  have ha : tiAttArg cfg m = none := by
    unfold tiAttArg
    rcases hatt with h | h <;> simp [h]
  induction chunks generalizing st rows users items S with
  | nil =>
    refine ⟨st, users, items, S, rfl, List.prefix_refl _, List.prefix_refl _, ?_⟩
    rw [List.map_nil, List.flatten_nil, List.append_nil, List.map_nil, List.sum_nil, add_zero]
    exact ⟨hseen, hseen.users_iff hs.len, fun u x hx => hseen.items_mem hx, hS, le_rfl⟩
  | cons c cs ih =>
    have h0 := hd 0 c rfl
    rw [List.take_zero, List.map_nil, List.flatten_nil, List.append_nil] at h0
    obtain ⟨s1, nus, nis, S', T1, a1, a2, a3, a4, a5⟩ := tiGrow_update hs ha hz hint hf hseen hS c b h0.1 h0.2
      (few c (List.mem_cons_self ..))
    obtain ⟨s2, users', items', T2, e1, p1, p2, e2, e3, e4, e5, e6⟩ := ih (hf.mono nus nis) a2 a3 (fun t d ht => by
      have := hd (t + 1) d ht
      rw [List.take_succ_cons, List.map_cons, List.flatten_cons, ← List.append_assoc] at this
      exact this) fun d hd' => few d (List.mem_cons_of_mem _ hd')
    refine ⟨s2, users', items', T2, ?_, (List.prefix_append _ _).trans p1, (List.prefix_append _ _).trans p2, ?_⟩
    · unfold tiUpdates at e1 ⊢
      rw [List.foldlM_cons, a1, except_bind_ok]
      exact e1
    · rw [List.map_cons, List.flatten_cons, ← List.append_assoc, List.map_cons, List.sum_cons]
      refine ⟨e2, e3, e4, e5, ?_⟩
      have h1 : tfro (windowTensor cfg.td.seqLen (users ++ nus) (items ++ nis) (rows ++ inTime b c) - T1) ≤
          tfro (windowTensor cfg.td.seqLen users items rows - S) + Real.sqrt (6 * cfg.td.seqLen * userCount c) := by
        have hx := hseen.window_ext hs.len nus nis a2.nodup.1 a2.nodup.2
        have e : windowTensor cfg.td.seqLen (users ++ nus) (items ++ nis) (rows ++ inTime b c) - T1 =
            (windowTensor cfg.td.seqLen (users ++ nus) (items ++ nis) rows - S') +
              (S' + (windowTensor cfg.td.seqLen (users ++ nus) (items ++ nis) (rows ++ inTime b c) -
                windowTensor cfg.td.seqLen (users ++ nus) (items ++ nis) rows) - T1) := by abel
        rw [e, ← (hx.sub a4).tfro]
        exact (tfro_add_le _ _).trans (add_le_add le_rfl (Real.sqrt_le_sqrt a5))
      linarith

/-! ### An example -/

noncomputable def exGrowCfg : TICfg ℝ := { exRowCfg with init := .zero, integrator := true }

/-- user 9, who is new, views item 60, which is new, and user 8 views 40 -/
noncomputable def exGrowChunk : List (Row ℝ) := [⟨9, 60, 1, 2, 0⟩, ⟨8, 40, 1, 2, 0⟩]

/-- The model that holds the identity matrix, after a chunk with a new user and a new item: the users 7, 8 keep their
positions, all three users are known, item 60 is known, and the distance is at most √12. -/
example : ∃ st' users' items', ∃ T : T3 users'.length items'.length 1 ℝ,
    tiUpdates tirecaMiddle exGrowCfg exRowAtt exTrackState [exGrowChunk] true = .ok st' ∧ [7, 8] <+: users' ∧
      9 ∈ users' ∧ 60 ∈ items' ∧ HoldsTensor st' 2 2 1 T ∧
      tfro (windowTensor 1 users' items' (exTrackRows ++ inTime true exGrowChunk) - T) ≤ Real.sqrt 12 := by
  have hin : inTime true exGrowChunk = exGrowChunk := by
    unfold inTime tsSort stableSort exGrowChunk
    simp
  have hmem : ∀ r, r ∈ exTrackRows ++ ([exGrowChunk].map (inTime true)).flatten ↔ r ∈ exTrackRows ++ exGrowChunk := by
    intro r
    simp [hin]
  obtain ⟨st', users', items', T, h1, h2, -, h3, h4, h5, h6, h7⟩ := C173_run (cfg := exGrowCfg) (m := exRowAtt)
    (st := exTrackState) (users := [7, 8]) (items := [40, 50]) (rows := exTrackRows)
    ⟨exRow_setting.len, exRow_setting.att, exRow_setting.qr, exRow_setting.rank0, exRow_setting.rank1⟩ (Or.inl rfl) rfl rfl
    exRow_dims
    ⟨exTrackTable, exTrackPast, ⟨exTrack_inv.user, exTrack_inv.item, exTrack_inv.hist, exTrack_inv.shape, exTrack_inv.seen,
      exTrack_inv.aw, exTrack_inv.last, exTrack_inv.usersOccur, exTrack_inv.itemsOccur⟩,
      .cons ⟨rfl, ⟨0, rfl, rfl⟩, 0, rfl, rfl⟩ (.cons ⟨rfl, ⟨1, rfl, rfl⟩, 1, rfl, rfl⟩ .nil), fun u => rfl⟩
      exTrack_holds
    [exGrowChunk] true (fun t c ht => by
      match t with
      | 0 =>
        obtain rfl := Option.some.inj ht
        refine ⟨List.cons_ne_nil _ _, 9, ?_⟩
        rw [hin]
        show ([60] : List ℤ) ≠ []
        decide
      | t + 1 => simp at ht) (fun c hc => by
        rw [List.mem_singleton.1 hc]
        show 2 * 1 * 2 ≤ 10000
        decide)
  refine ⟨st', users', items', T, h1, h2, ?_, ?_, h6, ?_⟩
  · exact (h4 9).2 ⟨⟨9, 60, 1, 2, 0⟩, (hmem _).2 (by simp [exGrowChunk]), rfl⟩
  · refine h5 9 60 ?_
    rw [List.map_cons, List.map_nil, List.flatten_cons, List.flatten_nil, List.append_nil, hin]
    show (60 : ℤ) ∈ [60]
    decide
  · have e1 : tfro (windowTensor (K := ℝ) exRowCfg.td.seqLen [7, 8] [40, 50] exTrackRows -
        windowTensor exRowCfg.td.seqLen [7, 8] [40, 50] exTrackRows) = 0 := by
      rw [sub_self]
      simp [tfro]
    have e2 : (List.map (fun c => Real.sqrt (6 * (exGrowCfg.td.seqLen : ℝ) * (userCount c : ℝ))) [exGrowChunk]).sum =
        Real.sqrt 12 := by
      rw [List.map_cons, List.map_nil, List.sum_cons, List.sum_nil, add_zero,
        show exGrowCfg.td.seqLen = 1 from rfl, show userCount exGrowChunk = 2 from rfl]
      norm_num
    have e3 : (exTrackRows ++ ([exGrowChunk].map (inTime true)).flatten) = exTrackRows ++ inTime true exGrowChunk := by
      simp
    rw [e3] at h7
    exact (h7.trans_eq (congrArg₂ (· + ·) e1 e2)).trans_eq (zero_add _)

end

end DynCF
