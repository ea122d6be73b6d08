/-
C174: in the integrator scheme of `TIRecA` with zero embeddings, new users with new items are lost.
-/
import Verif.Props.TuckerGrow
import Verif.Props.SeqExact

set_option linter.unusedSectionVars false

namespace DynCF
open Matrix

noncomputable section

/-! ### Ranks of unfoldings -/

section
variable {n0 n1 n2 a r0 r1 r2 : ℕ}

theorem unf_exists (M : Matrix (Fin n0) (Fin (n2 * n1)) ℝ) : ∃ x : T3 n0 n1 n2 ℝ, unf x = M :=
  ⟨fun i j k => M i (finProdFinEquiv (k, j)), by
    ext i c
    exact congrArg (M i) (Equiv.apply_symm_apply finProdFinEquiv c)⟩

theorem rank_unf_mul1 (A : Matrix (Fin n1) (Fin a) ℝ) (y : T3 n0 a n2 ℝ) : (unf (mul1 A y)).rank ≤ (unf y).rank := by
  obtain ⟨x, hx⟩ := unf_exists (n0 := n2 * n1) (n1 := n1) (n2 := n2) (1 : Matrix (Fin (n2 * n1)) (Fin (n2 * n1)) ℝ)
  have h := unf_mul1_adj A x y
  rw [hx, Matrix.one_mul] at h
  rw [← Matrix.rank_transpose, ← h, ← Matrix.rank_transpose (unf y)]
  exact Matrix.rank_mul_le_right _ _

theorem rank_unf_mul2 (A : Matrix (Fin n2) (Fin a) ℝ) (y : T3 n0 n1 a ℝ) : (unf (mul2 A y)).rank ≤ (unf y).rank := by
  obtain ⟨x, hx⟩ := unf_exists (n0 := n2 * n1) (n1 := n1) (n2 := n2) (1 : Matrix (Fin (n2 * n1)) (Fin (n2 * n1)) ℝ)
  have h := unf_mul2_adj A x y
  rw [hx, Matrix.one_mul] at h
  rw [← Matrix.rank_transpose, ← h, ← Matrix.rank_transpose (unf y)]
  exact Matrix.rank_mul_le_right _ _

theorem rank_unf_mul0 (A : Matrix (Fin a) (Fin n0) ℝ) (y : T3 n0 n1 n2 ℝ) : (unf (mul0 A y)).rank ≤ (unf y).rank := by
  rw [unf_mul0]
  exact Matrix.rank_mul_le_right _ _

/-- appended zeros keep the ranks -/
theorem TZeroExt.shrink {n0' n1' : ℕ} {t : T3 n0 n1 n2 ℝ} {t' : T3 n0' n1' n2 ℝ} (h : TZeroExt t t') :
    ∃ (P : Matrix (Fin n0) (Fin n0') ℝ) (P' : Matrix (Fin n1) (Fin n1') ℝ), t = mul0 P (mul1 P' t') := by
  refine ⟨Matrix.of fun i l => if l = ⟨i, i.2.trans_le h.1⟩ then 1 else 0,
    Matrix.of fun i l => if l = ⟨i, i.2.trans_le h.2.1⟩ then 1 else 0, ?_⟩
  funext i j p
  unfold mul0 mul1
  simp only [Matrix.of_apply, ite_mul, one_mul, zero_mul, Finset.sum_ite_eq', Finset.mem_univ, if_true,
    Finset.sum_ite_eq]
  rw [h.2.2, dif_pos ⟨i.2, j.2⟩]

theorem TZeroExt.rank0 {n0' n1' : ℕ} {t : T3 n0 n1 n2 ℝ} {t' : T3 n0' n1' n2 ℝ} (h : TZeroExt t t') :
    (unf t).rank ≤ (unf t').rank := by
  obtain ⟨P, P', e⟩ := h.shrink
  rw [e]
  exact (rank_unf_mul0 _ _).trans (rank_unf_mul1 _ _)

theorem TZeroExt.rank1 {n0' n1' : ℕ} {t : T3 n0 n1 n2 ℝ} {t' : T3 n0' n1' n2 ℝ} (h : TZeroExt t t') :
    (unf (front1 t)).rank ≤ (unf (front1 t')).rank := by
  obtain ⟨P, P', e⟩ := h.shrink
  have e2 : front1 t = mul1 P (mul0 P' (front1 t')) := by
    rw [e]
    rfl
  rw [e2]
  exact (rank_unf_mul1 _ _).trans (rank_unf_mul0 _ _)

theorem unf_rank_le0 (U : Matrix (Fin n0) (Fin r0) ℝ) (V : Matrix (Fin n1) (Fin r1) ℝ) (W : Matrix (Fin n2) (Fin r2) ℝ)
    (c : T3 r0 r1 r2 ℝ) : (unf (tuckerTensor U V W c)).rank ≤ r0 := by
  rw [tuckerTensor_eq, unf_mul0]
  exact (Matrix.rank_mul_le_left _ _).trans (Matrix.rank_le_width _)

theorem unf_rank_le1 (U : Matrix (Fin n0) (Fin r0) ℝ) (V : Matrix (Fin n1) (Fin r1) ℝ) (W : Matrix (Fin n2) (Fin r2) ℝ)
    (c : T3 r0 r1 r2 ℝ) : (unf (front1 (tuckerTensor U V W c))).rank ≤ r1 := by
  rw [tuckerTensor_eq, mul01_comm, front1_mul1, unf_mul0]
  exact (Matrix.rank_mul_le_left _ _).trans (Matrix.rank_le_width _)

/-! ### A mode without increment -/

/-- Without an increment, and if the old columns have full rank, the new columns vanish where the old ones do. -/
theorem ModeOk.zero_rows {n r N : ℕ} {F : Matrix (Fin n) (Fin r) ℝ} {C : Matrix (Fin r) (Fin N) ℝ}
    {da : Matrix (Fin N) (Fin r) ℝ → Matrix (Fin n) (Fin r) ℝ} {U1 : Matrix (Fin n) (Fin r) ℝ}
    (h : ModeOk F C da U1) (hz : ∀ Q, da Q = 0) (hr : r ≤ (F * C).rank) (i : Fin n) (hi : ∀ a, F i a = 0) (a : Fin r) :
    U1 i a = 0 := by
  obtain ⟨Q, R, S, hQR, -, hS⟩ := h.span
  have hC : C = R.transpose * Q.transpose := by
    rw [← Matrix.transpose_mul, hQR, Matrix.transpose_transpose]
  rw [hz, add_zero] at hS
  have hF : F * C = U1 * (S * Q.transpose) := by
    rw [hC, ← Matrix.mul_assoc, ← Matrix.mul_assoc, hS]
  have hrank : r ≤ S.rank := hr.trans (by
    rw [hF]
    exact (Matrix.rank_mul_le_right _ _).trans (Matrix.rank_mul_le_left _ _))
  obtain ⟨M, hM⟩ := exists_mul_eq_of_rank (1 : Matrix (Fin r) (Fin r) ℝ) S (by
    rw [Matrix.one_mul, Matrix.rank_one, Fintype.card_fin]
    exact hrank)
  rw [Matrix.one_mul] at hM
  have e : U1 = F * R.transpose * M := by
    rw [← hS, Matrix.mul_assoc, hM, Matrix.mul_one]
  rw [e, Matrix.mul_assoc, Matrix.mul_apply]
  exact Finset.sum_eq_zero fun l _ => by rw [hi, zero_mul]

/-- entries in rows of zeros do not contribute -/
theorem projUnfold_lost {m0 s : ℕ} {x : T3 m0 n1 n2 ℝ} (V : Matrix (Fin n1) (Fin r1) ℝ) (W : Matrix (Fin n2) (Fin r2) ℝ)
    (h : ∀ i j k, x i j k ≠ 0 → ∀ a, V j a = 0) (Q : Matrix (Fin (r2 * r1)) (Fin s) ℝ) : projUnfold x V W Q = 0 := by
  ext i c
  unfold projUnfold
  refine Finset.sum_eq_zero fun j _ => Finset.sum_eq_zero fun k _ => ?_
  by_cases hx : x i j k = 0
  · rw [hx, zero_mul]
  · have : ∑ b, ∑ a, V j a * W k b * Q (finProdFinEquiv (b, a)) c = 0 :=
      Finset.sum_eq_zero fun b _ => Finset.sum_eq_zero fun a _ => by rw [h i j k hx, zero_mul, zero_mul]
    rw [this, mul_zero]

theorem coo_ne_zero {es : List (Ent n0 n1 n2 ℝ)} {i : Fin n0} {j : Fin n1} {k : Fin n2} (h : cooTensor es i j k ≠ 0) :
    ∃ e ∈ es, e.1 = (i, j, k) := by
  by_contra hc
  push Not at hc
  apply h
  unfold cooTensor
  rw [List.filter_eq_nil_iff.2 fun e he => by simpa using hc e he]
  rfl

/-- **C174, the integrator.** If all entries of the increment lie in rows of zeros of the user factor and of the item factor,
and the tensor has the rank of the model in the first mode, then the integrator does not change the tensor; if the tensor
has the rank of the model in the second mode too, the rows of zeros of the item factor stay. -/
theorem C174_step (la : LinAlg ℝ) (hqr : QrAlways la) (es : List (Ent n0 n1 n2 ℝ)) (hes : es ≠ [])
    (att : Option (Matrix (Fin n2) (Fin n2) ℝ)) (hd : TIDims n0 n1 n2 r0 r1 r2) (U : Matrix (Fin n0) (Fin r0) ℝ)
    (V : Matrix (Fin n1) (Fin r1) ℝ) (W : Matrix (Fin n2) (Fin r2) ℝ) (c : T3 r0 r1 r2 ℝ) (par : Bool)
    (hz : ∀ e ∈ es, (∀ a, U e.1.1 a = 0) ∧ ∀ a, V e.1.2.1 a = 0)
    (hr0 : (unf (tuckerTensor U V W c)).rank = r0) :
    ∃ (U1 : Matrix (Fin n0) (Fin r0) ℝ) (V1 : Matrix (Fin n1) (Fin r1) ℝ) (W1 : Matrix (Fin n2) (Fin r2) ℝ)
      (c1 : T3 r0 r1 r2 ℝ),
      tuckerIntegrator la ⟨⟨_, _, U⟩, ⟨_, _, V⟩, ⟨_, _, W⟩⟩ ⟨_, _, _, c⟩ (indsOf es) (valsOf es)
        (n0, n1, n2) par (attArg att) =
        .ok (⟨⟨_, _, U1⟩, ⟨_, _, V1⟩, ⟨_, _, W1⟩⟩, ⟨_, _, _, c1⟩) ∧
      tuckerTensor U1 V1 W1 c1 = tuckerTensor U V W c ∧ V1.transpose * V1 = 1 ∧ W1.transpose * W1 = 1 ∧
      (∀ i, (∀ a, U i a = 0) → ∀ a, U1 i a = 0) ∧
      ((unf (front1 (tuckerTensor U V W c))).rank = r1 → ∀ j, (∀ a, V j a = 0) → ∀ a, V1 j a = 0) := by
  obtain ⟨U1, V1, W1, h, m0, m1, m2⟩ := tuckerIntegrator_run la hqr es hes att hd U V W c par
  have hused : ∀ i j k, cooTensor (usedEntries es) i j k ≠ 0 → (∀ a, U i a = 0) ∧ ∀ a, V j a = 0 := by
    intro i j k hx
    obtain ⟨e, he, hc⟩ := coo_ne_zero hx
    have := hz e (List.mem_of_mem_take he)
    rw [hc] at this
    exact this
  have hall : ∀ i j k, cooTensor es i j k ≠ 0 → (∀ a, U i a = 0) ∧ ∀ a, V j a = 0 := by
    intro i j k hx
    obtain ⟨e, he, hc⟩ := coo_ne_zero hx
    have := hz e he
    rw [hc] at this
    exact this
  have hT : tuckerTensor U V W c = mul1 V (mul2 W (mul0 U c)) := by
    rw [tuckerTensor_eq, mul01_comm, mul02_comm]
  have d0 : ∀ Q : Matrix (Fin (r2 * r1)) (Fin r0) ℝ, projUnfold (cooTensor (usedEntries es)) V (attVal att * W) Q = 0 :=
    projUnfold_lost V _ fun i j k hx => (hused i j k hx).2
  have z0 : ∀ i, (∀ a, U i a = 0) → ∀ a, U1 i a = 0 := fun i hi a => m0.zero_rows d0 (by
    have := (rank_unf_mul1 V (mul2 W (mul0 U c))).trans (rank_unf_mul2 W (mul0 U c))
    rw [← hT, hr0, unf_mul0] at this
    exact this) i hi a
  have d1 : ∀ Q : Matrix (Fin (r2 * r0)) (Fin r1) ℝ, projUnfold (front1 (cooTensor (usedEntries es))) U1 (attVal att * (attVal att * W)) Q = 0 :=
    projUnfold_lost U1 _ fun j i k hx => z0 i (hused i j k hx).1
  have d2 : ∀ Q : Matrix (Fin (r1 * r0)) (Fin r2) ℝ, projUnfold (front2 (cooTensor (usedEntries es))) U1 V1 Q = 0 :=
    projUnfold_lost U1 _ fun k i j hx => z0 i (hused i j k hx).1
  have k0 := mul0_keep (m0.keep d0)
  have k1 := mul1_keep (m1.keep d1)
  have k2 := mul2_keep (m2.keep fun Q => by rw [d2, Matrix.mul_zero])
  have hcore : coreTensor (cooTensor es) U1 V1 (attVal att * W1) = 0 := by
    have : mul0 U1.transpose (cooTensor es) = 0 := by
      funext b j k
      refine Finset.sum_eq_zero fun i _ => ?_
      by_cases hx : cooTensor es i j k = 0
      · rw [hx, mul_zero]
      · rw [Matrix.transpose_apply, z0 i (hall i j k hx).1, zero_mul]
    rw [coreTensor_eq, mul01_comm, mul02_comm, this, mul2_zero, mul1_zero]
  refine ⟨U1, V1, W1, _, h, ?_, m1.orth, m2.orth, z0, fun hr1 j hj a => m1.zero_rows d1 ?_ j hj a⟩
  · rw [hcore, add_zero, tuckerTensor_eq, tuckerTensor_eq,
      k2, mul12_comm V1, k1, ← mul12_comm V, mul01_comm U1, mul02_comm U1, k0, ← mul02_comm U,
      ← mul01_comm U]
  · have e : front1 (tuckerTensor U V W c) =
        mul1 U1 (mul2 W (mul0 V (front1 (mul0 (U1.transpose * U) c)))) := by
      rw [tuckerTensor_eq, mul01_comm, mul02_comm, ← k0, ← mul02_comm U1, ← mul01_comm U1, mul12_comm]
      rfl
    have := (rank_unf_mul1 U1 _).trans (rank_unf_mul2 W (mul0 V (front1 (mul0 (U1.transpose * U) c))))
    rw [← e, hr1, unf_mul0] at this
    exact this

end

/-! ### The update -/

section
variable {cfg : TICfg ℝ} {m : TDAtt ℝ} {st : TDState ℝ} {users items : List ℤ} {rows : List (Row ℝ)}

/-- the integrator step on the stored factors -/
theorem tiOld_lost (hs : TISetting cfg m) {n0 n1 r0 r1 r2 : ℕ}
    (hd : TIDims n0 n1 cfg.td.seqLen r0 r1 r2) {U : Matrix (Fin n0) (Fin r0) ℝ} {V : Matrix (Fin n1) (Fin r1) ℝ}
    {W : Matrix (Fin cfg.td.seqLen) (Fin r2) ℝ} {c : T3 r0 r1 r2 ℝ} (h : TIStores st U V W c)
    (δ : List DRow) (hne : δ ≠ [])
    (hu : ∀ r ∈ δ, 0 ≤ r.user ∧ r.user < n0) (hi : ∀ r ∈ δ, 0 ≤ r.item ∧ r.item < n1)
    (hp : ∀ r ∈ δ, 0 ≤ r.pos ∧ r.pos < cfg.td.seqLen)
    (hz : ∀ (i : Fin n0) (j : Fin n1), (∃ r ∈ δ, r.user = (i : ℕ) ∧ r.item = (j : ℕ)) →
      (∀ a, U i a = 0) ∧ ∀ a, V j a = 0)
    (hr0 : (unf (tuckerTensor U V W c)).rank = r0) (hr1 : (unf (front1 (tuckerTensor U V W c))).rank = r1) :
    ∃ (s3 : TDState ℝ) (U1 : Matrix (Fin n0) (Fin r0) ℝ) (V1 : Matrix (Fin n1) (Fin r1) ℝ)
      (W1 : Matrix (Fin cfg.td.seqLen) (Fin r2) ℝ) (c1 : T3 r0 r1 r2 ℝ), tiOld cfg m st δ = .ok s3 ∧ TIStores s3 U1 V1 W1 c1 ∧ V1.transpose * V1 = 1 ∧
      W1.transpose * W1 = 1 ∧ (tuckerTensor U1 V1 W1 c1 = tuckerTensor U V W c ∧
        (∀ i, (∀ a, U i a = 0) → ∀ a, U1 i a = 0) ∧ ∀ j, (∀ a, V j a = 0) → ∀ a, V1 j a = 0) ∧ TISame st s3 := by
  obtain ⟨es, hes⟩ := delta_typed (K := ℝ) δ n0 n1 cfg.td.seqLen hu hi hp
  obtain ⟨att, hatt⟩ := tiAttArg_typed hs.len hs.att
  obtain ⟨U1, V1, W1, c1, e, t, o1, o2, k0, k1⟩ := C174_step cfg.td.hooi.la hs.qr es (hes.ne hne) att hd U V W c
    cfg.td.hooi.parallel (fun x hx => hz x.1.1 x.1.2.1 (by
      have : (((x.1.1 : ℕ) : ℤ), ((x.1.2.1 : ℕ) : ℤ), ((x.1.2.2 : ℕ) : ℤ)) ∈ indsOf es := List.mem_map.2 ⟨x, hx, rfl⟩
      rw [← hes.inds] at this
      obtain ⟨r, hr, hq⟩ := List.mem_map.1 this
      simp only [Prod.mk.injEq] at hq
      exact ⟨r, hr, hq.1, hq.2.1⟩)) hr0
  refine ⟨_, U1, V1, W1, c1, ?_, setFac_shape st U1 V1 W1 c1, o1, o2, ⟨t, k0, k1 hr1⟩, setFac_same _ _⟩
  unfold tiOld
  rw [(tiCore_stores h).1, except_bind_ok, (tiCore_stores h).2, hes.inds, hes.vals, hatt, h.u, h.v]
  dsimp only
  rw [e]
  rfl

theorem inTime_mem (b : Bool) (data : List (Row ℝ)) (r : Row ℝ) : r ∈ inTime b data ↔ r ∈ data := by
  unfold inTime
  split
  · exact mem_tsSort ..
  · rfl

theorem exists_indices {items l : List ℤ} (h : ∀ x ∈ l, x ∈ items) :
    ∃ xs : List (Fin items.length), l = xs.map fun x => items[x] := by
  induction l with
  | nil => exact ⟨[], rfl⟩
  | cons x l ih =>
    obtain ⟨xs, rfl⟩ := ih fun y hy => h y (List.mem_cons_of_mem _ hy)
    obtain ⟨k, hk, rfl⟩ := List.getElem_of_mem (h x (List.mem_cons_self ..))
    exact ⟨⟨k, hk⟩ :: xs, rfl⟩

/-- The scores of a consistent state, for a known user with the last items `xs`. -/
theorem seen_scores (hs : TISetting cfg m) (hL2 : 2 ≤ cfg.td.seqLen) (hseen : TISeen cfg m st users items rows)
    {r0 r1 r2 : ℕ} {U : Matrix (Fin users.length) (Fin r0) ℝ} {V : Matrix (Fin items.length) (Fin r1) ℝ}
    {W : Matrix (Fin cfg.td.seqLen) (Fin r2) ℝ} {c : T3 r0 r1 r2 ℝ} (h : TIStores st U V W c) (a : Fin users.length)
    (xs : List (Fin items.length)) (hx : lastItems cfg.td.seqLen rows users[a] = xs.map fun x => items[x]) :
    ∃ f : Fin items.length → ℝ, tdRecommendUser st ((a : ℕ) : ℤ) = .ok ⟨items.length, f⟩ ∧
      (∀ i, (∀ b, V i b = 0) → f i = 0) ∧ ((∀ x ∈ xs, ∀ b, V x b = 0) → ∀ i, f i = 0) := by
  have hne : xs ≠ [] := by
    rintro rfl
    refine (lastItems_ne_nil hs.len).2 ?_ hx
    exact (hseen.users_iff hs.len _).1 (List.getElem_mem _)
  have hwin := seen_window hs.len hseen a xs hx hne
  obtain ⟨ext, past, hi, -, -⟩ := hseen
  have hm := hs.att
  rw [tdInit_eq cfg.td hs.len] at hm
  obtain ⟨A, B, rfl⟩ : ∃ A B : Matrix (Fin cfg.td.seqLen) (Fin cfg.td.seqLen) ℝ, m = ⟨⟨_, _, A⟩, ⟨_, _, B⟩⟩ :=
    by
      have hm := (Except.ok.inj hm).symm
      cases hc : cfg.td.attF with
      | none => rw [hc] at hm; exact ⟨_, _, hm⟩
      | some ipow => rw [hc] at hm; exact ⟨_, _, hm⟩
  have haw := hi.aw
  obtain ⟨lw, x, e1, e2, e3⟩ := hi.last
  rw [h.w, Mat.dot_mk] at haw
  rw [h.w, Mat.T_mk, Mat.dot_mk] at e1
  cases e1
  have key := C25_scores st ((a : ℕ) : ℤ) V (A * W) _ h.v (Except.ok.inj haw).symm e3 (by rw [h.w]) xs hwin
    (by have := List.length_pos_iff.2 hne; omega)
  refine ⟨_, key, fun i hi => Finset.sum_eq_zero fun j _ => ?_, fun hall i => Finset.sum_eq_zero fun j _ => ?_⟩
  · rw [Finset.sum_eq_zero fun b _ => by rw [hi, zero_mul], zero_mul]
  · rw [Finset.sum_eq_zero fun b _ => by rw [hall _ (List.getElem_mem _), mul_zero], zero_mul]

/-- **C174, lost rows.** `TIRecA` with zero embeddings and the integrator scheme (any attention), holding a tensor with the
rank of the model in the modes of users and items. A chunk whose rows are all of new users with new items is accepted and
makes the users and items known, but the tensor only gets zeros appended: all scores of the new users are zero, and the
new items have the score zero for everybody. -/
theorem C174_lost (hs : TISetting cfg m) (hL2 : 2 ≤ cfg.td.seqLen) (hz : cfg.init = .zero)
    (hint : cfg.integrator = true) (hf : cfg.Fits users items) (hseen : TISeen cfg m st users items rows)
    {S : T3 users.length items.length cfg.td.seqLen ℝ}
    (hS : HoldsTensor st cfg.td.hooi.rank.1 cfg.td.hooi.rank.2.1 cfg.td.hooi.rank.2.2 S)
    (h0 : (unf S).rank = cfg.td.hooi.rank.1) (h1 : (unf (front1 S)).rank = cfg.td.hooi.rank.2.1)
    (data : List (Row ℝ)) (b : Bool) (hne : data ≠ []) (hnew : ∀ r ∈ data, r.user ∉ users ∧ r.item ∉ items) :
    ∃ st' nus nis, ∃ T : T3 (users ++ nus).length (items ++ nis).length cfg.td.seqLen ℝ,
      tiUpdate tirecaMiddle cfg m st data b = .ok st' ∧
      TISeen cfg m st' (users ++ nus) (items ++ nis) (rows ++ inTime b data) ∧
      (∀ r ∈ data, r.user ∈ nus) ∧
      (∀ u, ∀ x ∈ lastItems cfg.td.seqLen (rows ++ inTime b data) u, x ∈ items ++ nis) ∧
      HoldsTensor st' cfg.td.hooi.rank.1 cfg.td.hooi.rank.2.1 cfg.td.hooi.rank.2.2 T ∧ TZeroExt S T ∧
      ∀ a : Fin (users ++ nus).length, ∃ f : Fin (items ++ nis).length → ℝ,
        tdRecommendUser st' ((a : ℕ) : ℤ) = .ok ⟨(items ++ nis).length, f⟩ ∧
        (∀ j : Fin (items ++ nis).length, items.length ≤ (j : ℕ) → f j = 0) ∧ (users.length ≤ (a : ℕ) → ∀ j, f j = 0) := by
  have hin : ∀ r, r ∈ inTime b data ↔ r ∈ data := fun r => inTime_mem b data r
  have hknown := hseen.users_iff hs.len
  have hold : ∀ u, u ∉ users → rowsOf u rows = [] := fun u hu =>
    List.filter_eq_nil_iff.2 fun r hr hc => hu ((hknown u).2 ⟨r, hr, of_decide_eq_true hc⟩)
  have hnone : ∀ u ∈ users, rowsOf u (inTime b data) = [] := fun u hu =>
    List.filter_eq_nil_iff.2 fun r hr hc => (hnew r ((hin r).1 hr)).1 (of_decide_eq_true hc ▸ hu)
  have hwin : ∀ u, u ∉ users → ∀ x ∈ lastItems cfg.td.seqLen (rows ++ inTime b data) u, x ∉ items := by
    intro u hu x hx
    obtain ⟨r, hr, rfl⟩ := List.mem_map.1 (mem_lastN hx)
    obtain ⟨hr, hru⟩ := List.mem_filter.1 hr
    rcases List.mem_append.1 hr with hr | hr
    · exact absurd ((hknown u).2 ⟨r, hr, of_decide_eq_true hru⟩) hu
    · exact (hnew r ((hin r).1 hr)).2
  have hmov : WindowMoves cfg.td.seqLen rows (inTime b data) := by
    obtain ⟨r, hr⟩ := List.exists_mem_of_ne_nil _ hne
    refine ⟨r.user, ?_⟩
    have e : lastItems cfg.td.seqLen rows r.user = [] := by
      unfold lastItems
      rw [hold _ (hnew r hr).1]
      simp [lastN]
    rw [e]
    exact (lastItems_ne_nil hs.len).2 ⟨r, List.mem_append_right _ ((hin r).2 hr), rfl⟩
  obtain ⟨st', nus, nis, S', U1, V1, W1, c1, e, hseen', hst, o1, o2, hx, ht, -, hzero⟩ := tiGrow_good hs hz hint hf hseen
    (r0 := cfg.td.hooi.rank.1) (r1 := cfg.td.hooi.rank.2.1) (r2 := cfg.td.hooi.rank.2.2) rfl hS data b hne hmov
    (good := fun {n0 n1} S' D U V W c => tuckerTensor U V W c = S' ∧ (∀ i : Fin n0, users.length ≤ (i : ℕ) → ∀ a, U i a = 0) ∧
      ∀ j : Fin n1, items.length ≤ (j : ℕ) → ∀ a, V j a = 0)
    fun nus nis s2 U V W c δ D n1 n2 hd st2 o1 o2 hx hU hV hD hδ _ hu hi hp hval hpos => by
      obtain ⟨s3, U1, V1, W1, c1, e, q, q1, q2, ⟨k1, k2, k3⟩, k4⟩ := tiOld_lost hs hd st2 δ hδ hu hi hp (by
        rintro i j ⟨r, hr, e1, e2⟩
        have h3 := hpos r hr
        have hpr := hp r hr
        obtain ⟨p, hp'⟩ : ∃ p : Fin cfg.td.seqLen, r.pos = ((p : ℕ) : ℤ) := ⟨⟨r.pos.toNat, by omega⟩, by simp; omega⟩
        rw [e1, e2, hp', hval i j p, hD] at h3
        have hD' : windowTensor (K := ℝ) cfg.td.seqLen (users ++ nus) (items ++ nis) (rows ++ inTime b data) i j p ≠
          windowTensor cfg.td.seqLen (users ++ nus) (items ++ nis) rows i j p := fun hc => h3 (sub_eq_zero.2 hc)
        have hui : users.length ≤ (i : ℕ) := by
          by_contra hlt
          push Not at hlt
          apply hD'
          have hmem : (users ++ nus)[i] ∈ users := by
            rw [Fin.getElem_fin, List.getElem_append_left hlt]
            exact List.getElem_mem _
          unfold windowTensor places lastItems
          rw [rowsOf_append, hnone _ hmem, List.append_nil]
        refine ⟨hU i hui, hV j ?_⟩
        have hnot : (users ++ nus)[i] ∉ users := by
          intro hmem
          rw [Fin.getElem_fin, List.getElem_append_right hui] at hmem
          exact (List.nodup_append.1 n1).2.2 _ hmem _ (List.getElem_mem _) rfl
        have hz0 : windowTensor (K := ℝ) cfg.td.seqLen (users ++ nus) (items ++ nis) rows i j p = 0 := by
          rcases window_cases cfg.td.seqLen (users ++ nus) (items ++ nis) rows i j p with h | h
          · exact h
          · have := List.mem_of_getElem? (window_one h)
            unfold places lastItems at this
            rw [hold _ hnot] at this
            simp [lastN] at this
        rw [hz0] at hD'
        have hone := (window_cases cfg.td.seqLen (users ++ nus) (items ++ nis) (rows ++ inTime b data) i j p).resolve_left hD'
        have hmem := List.mem_of_getElem? (window_one hone)
        unfold places at hmem
        rcases List.mem_append.1 hmem with hm | hm
        · simp at hm
        · obtain ⟨y, hy, hye⟩ := List.mem_map.1 hm
          have hy' := hwin _ hnot y hy
          rw [Option.some.inj hye] at hy'
          by_contra hlt
          push Not at hlt
          apply hy'
          rw [Fin.getElem_fin, List.getElem_append_left hlt]
          exact List.getElem_mem _)
        (le_antisymm (unf_rank_le0 _ _ _ _) (h0.ge.trans hx.rank0))
        (le_antisymm (unf_rank_le1 _ _ _ _) (h1.ge.trans hx.rank1))
      exact ⟨s3, U1, V1, W1, c1, e, q, q1, q2, ⟨k1, fun i hi => k2 i (hU i hi), fun j hj => k3 j (hV j hj)⟩, k4⟩
  have hnot : ∀ a : Fin (users ++ nus).length, users.length ≤ (a : ℕ) → (users ++ nus)[a] ∉ users := by
    intro a ha hmem
    rw [Fin.getElem_fin, List.getElem_append_right ha] at hmem
    exact (List.nodup_append.1 hseen'.nodup.1).2.2 _ hmem _ (List.getElem_mem _) rfl
  refine ⟨st', nus, nis, _, e, hseen', fun r hr => ?_, fun u x hx => hseen'.items_mem hx, ⟨U1, V1, W1, c1, hst, o1, o2, ht⟩,
    hx, fun a => ?_⟩
  · have := (hseen'.users_iff hs.len r.user).2 ⟨r, List.mem_append_right _ ((hin r).2 hr), rfl⟩
    exact (List.mem_append.1 this).resolve_left (hnew r hr).1
  · obtain ⟨xs, hxs⟩ := exists_indices (items := items ++ nis)
      (l := lastItems cfg.td.seqLen (rows ++ inTime b data) (users ++ nus)[a]) fun x hx => hseen'.items_mem hx
    obtain ⟨f, k1, k2, k3⟩ := seen_scores hs hL2 hseen' hst a xs hxs
    refine ⟨f, k1, fun j hj => k2 j (hzero j hj), fun ha => k3 fun x hxm => hzero x ?_⟩
    by_contra hlt
    push Not at hlt
    have hx1 : (items ++ nis)[x] ∈ lastItems cfg.td.seqLen (rows ++ inTime b data) (users ++ nus)[a] := by
      rw [hxs]
      exact List.mem_map_of_mem hxm
    refine hwin _ (hnot a ha) _ hx1 ?_
    rw [Fin.getElem_fin, List.getElem_append_left hlt]
    exact List.getElem_mem _

/-- **C174, what holds.** Every chunk that moves some window and changes at most 10000 entries is accepted, its users and the
items of windows become known, and every known user gets one score for every known item. -/
theorem C174_scores_partial (hs : TISetting cfg m) (hL2 : 2 ≤ cfg.td.seqLen) (hatt : cfg.td.attF = none ∨ cfg.light = true)
    (hz : cfg.init = .zero) (hint : cfg.integrator = true) (hf : cfg.Fits users items)
    (hseen : TISeen cfg m st users items rows) {S : T3 users.length items.length cfg.td.seqLen ℝ}
    (hS : HoldsTensor st cfg.td.hooi.rank.1 cfg.td.hooi.rank.2.1 cfg.td.hooi.rank.2.2 S)
    (data : List (Row ℝ)) (b : Bool) (hne : data ≠ []) (hmov : WindowMoves cfg.td.seqLen rows (inTime b data))
    (few : 2 * cfg.td.seqLen * userCount data ≤ 10000) :
    ∃ st' nus nis, tiUpdate tirecaMiddle cfg m st data b = .ok st' ∧
      TISeen cfg m st' (users ++ nus) (items ++ nis) (rows ++ inTime b data) ∧
      (∀ r ∈ data, r.user ∈ users ++ nus) ∧
      (∀ u, ∀ x ∈ lastItems cfg.td.seqLen (rows ++ inTime b data) u, x ∈ items ++ nis) ∧
      ∀ a : Fin (users ++ nus).length, ∃ f : Fin (items ++ nis).length → ℝ,
        tdRecommendUser st' ((a : ℕ) : ℤ) = .ok ⟨(items ++ nis).length, f⟩ := by
  obtain ⟨st', nus, nis, S', T, e, hseen', ⟨U, V, W, c, hst, -⟩, -⟩ := tiGrow_update hs
    (by unfold tiAttArg; rcases hatt with h | h <;> simp [h]) hz hint hf hseen hS data b hne hmov few
  refine ⟨st', nus, nis, e, hseen', fun r hr => (hseen'.users_iff hs.len _).2
    ⟨r, List.mem_append_right _ ((inTime_mem b data r).2 hr), rfl⟩, fun u x hx => hseen'.items_mem hx, fun a => ?_⟩
  obtain ⟨xs, hxs⟩ := exists_indices (items := items ++ nis)
    (l := lastItems cfg.td.seqLen (rows ++ inTime b data) (users ++ nus)[a]) fun x hx => hseen'.items_mem hx
  obtain ⟨f, k1, -⟩ := seen_scores hs hL2 hseen' hst a xs hxs
  exact ⟨f, k1⟩

end

/-! ### A run that loses a row -/

noncomputable def exLostCfg : TICfg ℝ :=
  { exRowCfg with
    td := ⟨⟨realLA, fun _ => eyeRng, fun _ _ => eyeRng, (2, 2, 1), 1, 2, false⟩, fun _ => 0, 2, none, 1, 0, true⟩
    init := .zero, integrator := true }

noncomputable def exLostAtt : TDAtt ℝ := ⟨Mat.eye 2, Mat.eye 2⟩

noncomputable def exLostW : Matrix (Fin 2) (Fin 1) ℝ := !![3 / 5; 4 / 5]

/-- users 7 and 8 viewed 40 and 50 -/
noncomputable def exLostState : TDState ℝ where
  maps := ⟨getContMappingStruct [7, 8] 0, getContMappingStruct [40, 50] 0⟩
  history := [(0, 0), (1, 1)]
  seqHist := updateUserSeqHistory exTrackPast [] 2
  u := ⟨2, 2, 1⟩
  v := ⟨2, 2, 1⟩
  w := ⟨2, 1, exLostW⟩
  core := some ⟨2, 2, 1, fun i j _ => if i = j then 1 else 0⟩
  aw := ⟨2, 1, exLostW⟩
  lastPos := ⟨1, exLostW 1⟩

theorem exLost_inv : TIInv exLostCfg exLostAtt exLostState [7, 8] [40, 50] exTrackTable exTrackPast where
  user := represents_start_zero _ (by decide)
  item := represents_start_zero _ (by decide)
  hist := by
    have := histInv_update 2 [] [] exTrackPast (histInv_nil 2)
    rwa [List.nil_append] at this
  shape := show TIShape exLostState 2 2 2 2 2 1 from ⟨1, 1, exLostW, _, rfl, rfl, rfl, rfl⟩
  seen := exTrack_inv.seen
  aw := by
    show Mat.dot ⟨2, 2, 1⟩ ⟨2, 1, exLostW⟩ = _
    rw [Mat.dot_mk, Matrix.one_mul]
    rfl
  last := by
    refine ⟨⟨2, 1, exLostW⟩, exLostW 1, ?_, ?_, rfl⟩
    · show Mat.dot (Mat.T ⟨2, 2, 1⟩) ⟨2, 1, exLostW⟩ = _
      rw [Mat.T_mk, Mat.dot_mk, Matrix.transpose_one, Matrix.one_mul]
    · exact row_neg_one _
  usersOccur := exTrack_inv.usersOccur
  itemsOccur := exTrack_inv.itemsOccur

theorem exLost_setting : TISetting exLostCfg exLostAtt := ⟨one_le_two, rfl, qrAlways_real, Nat.two_pos, Nat.two_pos⟩

theorem exLost_seen : TISeen exLostCfg exLostAtt exLostState [7, 8] [40, 50] exTrackRows :=
  ⟨exTrackTable, exTrackPast, exLost_inv,
    .cons ⟨rfl, ⟨0, rfl, rfl⟩, 0, rfl, rfl⟩ (.cons ⟨rfl, ⟨1, rfl, rfl⟩, 1, rfl, rfl⟩ .nil), fun _ => rfl⟩

/-- the tensor of the model -/
noncomputable def exLostTensor : T3 2 2 2 ℝ := fun i j k => if i = j then exLostW k 0 else 0

theorem exLost_holds : HoldsTensor exLostState 2 2 1 exLostTensor := by
  refine ⟨(1 : Matrix (Fin 2) (Fin 2) ℝ), (1 : Matrix (Fin 2) (Fin 2) ℝ), exLostW, _, ⟨rfl, rfl, rfl, rfl⟩, by simp, ?_, ?_⟩
  · ext i j
    fin_cases i
    fin_cases j
    simp [exLostW, Matrix.mul_apply, Fin.sum_univ_two]
    norm_num
  · rw [tuckerTensor_eq, mul1_one, mul0_one]
    funext i j k
    simp [mul2, exLostTensor]

theorem rank_of_orth {a b : ℕ} {A : Matrix (Fin a) (Fin b) ℝ} (h : A * A.transpose = 1) : A.rank = a := by
  refine le_antisymm (Matrix.rank_le_height _) ?_
  have h1 : (A * A.transpose).rank = a := by rw [h, Matrix.rank_one, Fintype.card_fin]
  exact h1.ge.trans (Matrix.rank_mul_le_left _ _)

theorem exLost_rank0 : (unf exLostTensor).rank = 2 := by
  refine rank_of_orth ?_
  ext i j
  simp only [Matrix.mul_apply, sum_finProd, unf, Matrix.of_apply, Matrix.transpose_apply, Equiv.symm_apply_apply]
  fin_cases i <;> fin_cases j <;> simp [exLostTensor, exLostW, Fin.sum_univ_two] <;> norm_num

theorem exLost_rank1 : (unf (front1 exLostTensor)).rank = 2 := by
  refine rank_of_orth ?_
  ext i j
  simp only [Matrix.mul_apply, sum_finProd, unf, Matrix.of_apply, Matrix.transpose_apply, Equiv.symm_apply_apply, front1]
  fin_cases i <;> fin_cases j <;> simp [exLostTensor, exLostW, Fin.sum_univ_two] <;> norm_num

/-- **C174, a run that loses a row.** The claim that a new user with rows gets a score that is not zero is false: user 9 views
item 60, both new, is known afterwards and is scored zero for all items. -/
theorem C174_negative :
    ∃ (st' : TDState ℝ) (a : ℤ) (n : ℕ),
      tiUpdate tirecaMiddle exLostCfg exLostAtt exLostState [⟨9, 60, 1, 2, 0⟩] true = .ok st' ∧
      st'.maps.user.old2new.get? 9 = some a ∧ tdRecommendUser st' a = .ok ⟨n, fun _ => 0⟩ := by
  obtain ⟨st', nus, nis, T, h1, h2, h3, -, -, -, h4⟩ := C174_lost (cfg := exLostCfg) (m := exLostAtt)
    (st := exLostState) (users := [7, 8]) (items := [40, 50]) (rows := exTrackRows) exLost_setting (le_refl 2) rfl rfl
    (show TIDims 2 2 2 2 2 1 from ⟨by decide, by decide, by decide, by decide, by decide, by decide⟩)
    exLost_seen exLost_holds exLost_rank0 exLost_rank1 [⟨9, 60, 1, 2, 0⟩] true (List.cons_ne_nil _ _) (fun r hr => by
      rw [List.mem_singleton.1 hr]
      decide)
  have h9 := h3 _ (List.mem_singleton.2 rfl)
  obtain ⟨k, hk, hk9⟩ := List.getElem_of_mem h9
  have hlen : ([7, 8] ++ nus).length = 2 + nus.length := by simp; omega
  obtain ⟨f, k1, -, k2⟩ := h4 ⟨2 + k, by omega⟩
  obtain ⟨ext, past, hi, -, -⟩ := h2
  refine ⟨st', ((2 + k : ℕ) : ℤ), ([40, 50] ++ nis).length, h1, (hi.user.old2new 9 _).2 ⟨2 + k, rfl, ?_⟩, k1.trans ?_⟩
  · rw [List.getElem?_append_right (by simp), show 2 + k - ([7, 8] : List ℤ).length = k from Nat.add_sub_cancel_left 2 k]
    exact List.getElem?_eq_some_iff.2 ⟨hk, hk9⟩
  · congr 2
    funext j
    exact k2 (Nat.le_add_right 2 k) j

-- a chunk with the new user 9 and the known user 8: afterwards both are scored
example : ∃ (st' : TDState ℝ) (nus nis : List ℤ),
    tiUpdate tirecaMiddle exLostCfg exLostAtt exLostState exGrowChunk true = .ok st' ∧
    9 ∈ [7, 8] ++ nus ∧ ∀ a : Fin ([7, 8] ++ nus).length, ∃ f : Fin ([40, 50] ++ nis).length → ℝ,
      tdRecommendUser st' ((a : ℕ) : ℤ) = .ok ⟨_, f⟩ := by
  obtain ⟨st', nus, nis, h1, -, h2, -, h3⟩ := C174_scores_partial (cfg := exLostCfg) (m := exLostAtt)
    (st := exLostState) (users := [7, 8]) (items := [40, 50]) (rows := exTrackRows) exLost_setting (le_refl 2) (Or.inl rfl)
    rfl rfl (show TIDims 2 2 2 2 2 1 from ⟨by decide, by decide, by decide, by decide, by decide, by decide⟩)
    exLost_seen exLost_holds exGrowChunk true (List.cons_ne_nil _ _)
    ⟨9, by
      refine ne_of_ne_of_eq ?_ (show ([] : List ℤ) = _ from rfl)
      exact (lastItems_ne_nil one_le_two).2 ⟨⟨9, 60, 1, 2, 0⟩, List.mem_append_right _
        ((inTime_mem _ _ _).2 (by simp [exGrowChunk])), rfl⟩⟩
    (show 2 * 2 * 2 ≤ 10000 by decide)
  exact ⟨st', nus, nis, h1, h2 ⟨9, 60, 1, 2, 0⟩ (by simp [exGrowChunk]), h3⟩

-- before the update user 7 gets the score 12/25 for item 40
example : ∃ f : Fin 2 → ℝ, tdRecommendUser exLostState 0 = .ok ⟨2, f⟩ ∧ f 0 = 12 / 25 := by
  have key := C25_scores exLostState 0 (1 : Matrix (Fin 2) (Fin 2) ℝ) exLostW (exLostW 1) rfl rfl rfl rfl
    [(0 : Fin 2)] rfl (by decide)
  refine ⟨_, key, ?_⟩
  refine (Finset.sum_congr (s₁ := (Finset.univ : Finset (Fin 1))) (g := fun _ : Fin 1 => (12 / 25 : ℝ)) rfl
    fun j _ => ?_).trans (by simp)
  fin_cases j
  show (∑ a, (1 : Matrix (Fin 2) (Fin 2) ℝ) 0 a * (1 : Matrix (Fin 2) (Fin 2) ℝ) 0 a) *
    (∑ b, exLostW 0 b * exLostW 1 b) = 12 / 25
  simp [exLostW]
  norm_num

end

end DynCF
