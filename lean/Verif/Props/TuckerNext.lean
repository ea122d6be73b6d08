/-
C158: what TIRec and TIRecA predict after updates with known users and items is determined by the data: it does not depend
on the QR routine nor on the bases that the factors happen to have.
-/
import Verif.Props.TIFull
import Verif.Props.PsiBackend

set_option linter.unusedSectionVars false

namespace DynCF
open Matrix
variable {K : Type}

/-! ### Specification -/

/-- The tensor after an increment `D`, whose places are weighted by `A`: the incremented tensor, projected in every mode.
The mode-0 projector belongs to the columns of `(T + A D)₍₀₎ T₍₀₎ᵀ`. The next one is computed from the old tensor projected
in mode 0 and (this is what the code does, C49) from the increment weighted twice; the last one from the old tensor
projected in modes 0 and 1. Each of the three matrices has the rank of the model in its mode. -/
structure TuckerNext [Field K] {n0 n1 n2 : ℕ} (A : Matrix (Fin n2) (Fin n2) K) (r0 r1 r2 : ℕ) (T D D' T' : T3 n0 n1 n2 K)
    (P0 : Matrix (Fin n0) (Fin n0) K) (P1 : Matrix (Fin n1) (Fin n1) K) (P2 : Matrix (Fin n2) (Fin n2) K) : Prop where
  rank0 : (unf (T + mul2 A.transpose D') * (unf T).transpose).rank = r0
  proj0 : OrthProj P0 (unf (T + mul2 A.transpose D') * (unf T).transpose)
  rank1 : (unf (front1 (mul0 P0 T + mul2 (A * A).transpose D')) * (unf (front1 (mul0 P0 T))).transpose).rank = r1
  proj1 : OrthProj P1 (unf (front1 (mul0 P0 T + mul2 (A * A).transpose D')) * (unf (front1 (mul0 P0 T))).transpose)
  rank2 : (unf (front2 (mul1 P1 (mul0 P0 T) + mul2 A.transpose D')) *
    (unf (front2 (mul1 P1 (mul0 P0 T)))).transpose).rank = r2
  proj2 : OrthProj P2 (unf (front2 (mul1 P1 (mul0 P0 T) + mul2 A.transpose D')) *
    (unf (front2 (mul1 P1 (mul0 P0 T)))).transpose)
  next : T' = mul0 P0 (mul1 P1 (mul2 P2 (T + mul2 A.transpose D)))

/-- The specification determines the projectors and the next tensor. -/
theorem TuckerNext.unique [Field K] {n0 n1 n2 r0 r1 r2 : ℕ} {A : Matrix (Fin n2) (Fin n2) K} {T D D' T' T'' : T3 n0 n1 n2 K}
    {P0 Q0 : Matrix (Fin n0) (Fin n0) K} {P1 Q1 : Matrix (Fin n1) (Fin n1) K} {P2 Q2 : Matrix (Fin n2) (Fin n2) K}
    (h : TuckerNext A r0 r1 r2 T D D' T' P0 P1 P2) (h' : TuckerNext A r0 r1 r2 T D D' T'' Q0 Q1 Q2) :
    P0 = Q0 ∧ P1 = Q1 ∧ P2 = Q2 ∧ T' = T'' := by
  obtain rfl := h.proj0.unique h'.proj0
  obtain rfl := h.proj1.unique h'.proj1
  obtain rfl := h.proj2.unique h'.proj2
  exact ⟨rfl, rfl, rfl, h.next.trans h'.next.symm⟩

/-! ### One mode -/

section
variable [Field K] {n0 n1 n2 r0 r1 r2 : ℕ}

/-- The new factor of one mode spans the columns of `(S + D)₍₀₎ S₍₀₎ᵀ`, if these have the rank of the model. -/
theorem ModeOk.proj {F : Matrix (Fin n0) (Fin r0) K} {c : T3 r0 r1 r2 K} {B : Matrix (Fin n1) (Fin r1) K}
    {E : Matrix (Fin n2) (Fin r2) K} (hB : B.transpose * B = 1) (hE : E.transpose * E = 1) {D : T3 n0 n1 n2 K}
    {da : Matrix (Fin (r2 * r1)) (Fin r0) K → Matrix (Fin n0) (Fin r0) K} {U1 : Matrix (Fin n0) (Fin r0) K}
    (hda : ∀ Q, da Q = unf (mul1 B.transpose (mul2 E.transpose D)) * Q) (h : ModeOk F (unf c) da U1)
    {S : T3 n0 n1 n2 K} (hS : S = mul0 F (mul1 B (mul2 E c)))
    (hr : (unf (S + D) * (unf S).transpose).rank = r0) :
    OrthProj (U1 * U1.transpose) (unf (S + D) * (unf S).transpose) := by
  obtain ⟨Q, R, X, hQR, hQQ, hX⟩ := h.span
  rw [hda] at hX
  have hCQ : unf c * Q = R.transpose := by
    have := congrArg Matrix.transpose hQR
    rw [Matrix.transpose_mul, Matrix.transpose_transpose] at this
    rw [← this, Matrix.mul_assoc, hQQ, Matrix.mul_one]
  have h1 : mul1 B.transpose (mul2 E.transpose (S + D)) = mul0 F c + mul1 B.transpose (mul2 E.transpose D) := by
    rw [mul2_add, mul1_add, hS]
    congr 1
    rw [← mul02_comm, ← mul12_comm, mul2_mul2, hE, mul2_one, ← mul01_comm, mul1_mul1, hB, mul1_one]
  have h2 : unf (S + D) * (unf S).transpose = U1 * (X * R * F.transpose) := by
    have e : unf S = F * unf (mul1 B (mul2 E c)) := by rw [hS, unf_mul0]
    rw [e, Matrix.transpose_mul, ← Matrix.mul_assoc, ← unf_mul1_adj, ← unf_mul2_adj, ← mul12_comm, h1, unf_add, unf_mul0,
      ← hQR, ← Matrix.mul_assoc, Matrix.add_mul, Matrix.mul_assoc F, hCQ, ← hX, Matrix.mul_assoc, Matrix.mul_assoc,
      Matrix.mul_assoc]
  rw [h2] at hr ⊢
  exact orthProj_of_factor rfl h.orth hr.ge

/-! ### The integrator -/

variable [DecidableEq K]

/-- **C158, integrator.** For a model whose item and position factors have orthonormal columns, the integrator with any
correct QR routine, sequential or parallel, returns factors with orthonormal columns that span the ranges of the three
projectors, and together they hold the next tensor: neither depends on the factors, only on the tensor they represent. -/
theorem C158_integrator (la : LinAlg K) (hqr : QrAlways la) (es : List (Ent n0 n1 n2 K)) (hes : es ≠ [])
    (att : Option (Matrix (Fin n2) (Fin n2) K)) (hd : TIDims n0 n1 n2 r0 r1 r2)
    (U : Matrix (Fin n0) (Fin r0) K) (V : Matrix (Fin n1) (Fin r1) K) (W : Matrix (Fin n2) (Fin r2) K)
    (hV : V.transpose * V = 1) (hW : W.transpose * W = 1) (c : T3 r0 r1 r2 K) (par : Bool) {T' : T3 n0 n1 n2 K}
    {P0 : Matrix (Fin n0) (Fin n0) K} {P1 : Matrix (Fin n1) (Fin n1) K} {P2 : Matrix (Fin n2) (Fin n2) K}
    (h : TuckerNext (attVal att) r0 r1 r2 (tuckerTensor U V W c) (cooTensor es) (cooTensor (usedEntries es)) T' P0 P1 P2) :
    ∃ (U1 : Matrix (Fin n0) (Fin r0) K) (V1 : Matrix (Fin n1) (Fin r1) K) (W1 : Matrix (Fin n2) (Fin r2) K)
      (c1 : T3 r0 r1 r2 K),
      tuckerIntegrator la ⟨⟨_, _, U⟩, ⟨_, _, V⟩, ⟨_, _, W⟩⟩ ⟨_, _, _, c⟩ (indsOf es) (valsOf es)
        (n0, n1, n2) par (attArg att) = .ok (⟨⟨_, _, U1⟩, ⟨_, _, V1⟩, ⟨_, _, W1⟩⟩, ⟨_, _, _, c1⟩) ∧
      U1.transpose * U1 = 1 ∧ V1.transpose * V1 = 1 ∧ W1.transpose * W1 = 1 ∧
      U1 * U1.transpose = P0 ∧ V1 * V1.transpose = P1 ∧ W1 * W1.transpose = P2 ∧ tuckerTensor U1 V1 W1 c1 = T' := by
  obtain ⟨U1, V1, W1, e, m0, m1, m2⟩ := tuckerIntegrator_run la hqr es hes att hd U V W c par
  generalize hA : attVal att = A at *
  have hT : tuckerTensor U V W c = mul0 U (mul1 V (mul2 W c)) := tuckerTensor_eq _ _ _ _
  -- mode 0
  have p0 : U1 * U1.transpose = P0 := by
    refine OrthProj.unique (ModeOk.proj hV hW (fun Q => ?_) m0 hT h.rank0) h.proj0
    rw [projUnfold_eq, Matrix.transpose_mul, mul2_mul2]
  have hT1 : mul0 P0 (tuckerTensor U V W c) = mul0 U1 (mul1 V (mul2 W (mul0 (U1.transpose * U) c))) := by
    rw [hT, ← p0, mul0_mul0, Matrix.mul_assoc, ← mul0_mul0 U1, mul01_comm, mul02_comm]
  -- mode 1
  have p1 : V1 * V1.transpose = P1 := by
    refine OrthProj.unique (ModeOk.proj (S := front1 (mul0 P0 (tuckerTensor U V W c)))
      (D := front1 (mul2 (A * A).transpose (cooTensor (usedEntries es)))) m0.orth hW (fun Q => ?_) m1 ?_ h.rank1) h.proj1
    · rw [projUnfold_eq, ← Matrix.mul_assoc, Matrix.transpose_mul, ← mul2_mul2]
      rfl
    · rw [hT1, mul01_comm, front1_mul1, front1_mul0, front1_mul2]
  have hT2 : mul1 P1 (mul0 P0 (tuckerTensor U V W c)) =
      mul0 U1 (mul1 V1 (mul2 W (mul1 (V1.transpose * V) (mul0 (U1.transpose * U) c)))) := by
    rw [hT1, ← p1, ← mul01_comm, mul1_mul1, Matrix.mul_assoc, ← mul1_mul1 V1, mul12_comm]
  -- mode 2
  have p2 : W1 * W1.transpose = P2 := by
    refine OrthProj.unique (ModeOk.proj (S := front2 (mul1 P1 (mul0 P0 (tuckerTensor U V W c))))
      (D := front2 (mul2 A.transpose (cooTensor (usedEntries es)))) m0.orth m1.orth (fun Q => ?_) m2 ?_ h.rank2) h.proj2
    · rw [projUnfold_eq, ← Matrix.mul_assoc, ← unf_mul0]
      congr 2
      rw [front2_mul2, mul01_comm, mul02_comm]
    · rw [hT2, mul12_comm, mul02_comm, front2_mul2, front2_mul0, front2_mul1]
  refine ⟨U1, V1, W1, _, e, m0.orth, m1.orth, m2.orth, p0, p1, p2, ?_⟩
  rw [h.next, ← p0, ← p1, ← p2, tuckerTensor_eq, coreTensor_eq, hT]
  rw [mul2_add, mul1_add, mul0_add, mul2_add, mul1_add, mul0_add]
  congr 1
  · rw [mul2_mul2, ← mul12_comm, mul1_mul1, ← mul02_comm, ← mul01_comm, mul0_mul0, ← mul02_comm, ← mul01_comm, mul0_mul0,
      ← mul12_comm, mul1_mul1, mul2_mul2]
    simp only [Matrix.mul_assoc]
  · rw [Matrix.transpose_mul, ← mul2_mul2, ← mul02_comm, mul2_mul2, ← mul01_comm, ← mul12_comm, mul1_mul1, mul0_mul0,
      mul2_mul2, mul2_mul2, Matrix.mul_assoc]
end

/-! ### Scores -/

section
variable [Field K]

/-- Scores depend on the item factor through `V Vᵀ` only. -/
theorem seqScores_same {n r r' L q q' : ℕ} {V : Matrix (Fin n) (Fin r) K} {V' : Matrix (Fin n) (Fin r') K}
    {X : Matrix (Fin L) (Fin q) K} {x : Fin q → K} {X' : Matrix (Fin L) (Fin q') K} {x' : Fin q' → K}
    (hP : V * V.transpose = V' * V'.transpose) (hX : X.mulVec x = X'.mulVec x') (ps is : List ℤ) :
    seqScores ⟨n, r, V⟩ ⟨L, q, X⟩ ⟨q, x⟩ ps is = seqScores ⟨n, r', V'⟩ ⟨L, q', X'⟩ ⟨q', x'⟩ ps is := by
  have dot : ∀ {a b : ℕ} (M : Matrix (Fin a) (Fin b) K) (y : Fin b → K),
      (Mat.mk a b M).dotVec ⟨b, y⟩ = .ok ⟨a, M.mulVec y⟩ := fun M y => by
    unfold Mat.dotVec
    exact dif_pos rfl
  unfold seqScores
  rw [dot, dot, hX, except_bind_ok, except_bind_ok]
  by_cases hi : is.isEmpty
  · rw [if_pos hi, if_pos hi]
  · rw [if_neg hi, if_neg hi]
    unfold Mat.takeIdx
    dsimp only
    cases is.mapM fun i => pyIdx n i with
    | error e => rfl
    | ok rs =>
      rw [except_bind_ok, except_bind_ok, pure_bind, pure_bind]
      cases (Vec.mk L (X'.mulVec x')).takeIdx ps with
      | error e => rfl
      | ok wp =>
        rw [except_bind_ok, except_bind_ok]
        obtain ⟨t, w⟩ := wp
        by_cases ht : rs.length = t
        · subst ht
          rw [Mat.T_mk, Mat.T_mk, dot, dot, except_bind_ok, except_bind_ok, dot, dot, Matrix.mulVec_mulVec,
            Matrix.mulVec_mulVec]
          congr 3
          ext i j
          exact congrFun (congrFun hP i) (rs.get j)
        · have : ∀ {b : ℕ} (M : Matrix (Fin b) (Fin rs.length) K), (Mat.mk b rs.length M).dotVec ⟨t, w⟩ =
              .error .valueError := fun M => by
            unfold Mat.dotVec
            exact dif_neg ht
          rw [Mat.T_mk, Mat.T_mk, this, this]
          rfl

/-- What a state needs for scoring: factors, the weighted position factor and the last position computed from them. -/
structure ScoreReady (m : TDAtt K) (st : TDState K) {n L : ℕ} (P1 : Matrix (Fin n) (Fin n) K) (P2 : Matrix (Fin L) (Fin L) K) :
    Prop where
  item : ∃ (r : ℕ) (V : Matrix (Fin n) (Fin r) K), st.v = ⟨n, r, V⟩ ∧ V * V.transpose = P1
  pos : ∃ (r : ℕ) (W : Matrix (Fin L) (Fin r) K), st.w = ⟨L, r, W⟩ ∧ W * W.transpose = P2
  aw : m.att.dot st.w = .ok st.aw
  last : ∃ lw v, m.attInv.T.dot st.w = .ok lw ∧ lw.row (-1) = .ok v ∧ st.lastPos = ⟨_, v⟩

/-- **C158, scores.** Two states with the same sequences, the same attention, and factors whose columns span the same
spaces (the same `V Vᵀ` and `W Wᵀ`), give the same scores for every user, or the same error. The user factor and the core
do not matter at all. -/
theorem C158_scores {m : TDAtt K} {s s' : TDState K} {n L : ℕ} {P1 : Matrix (Fin n) (Fin n) K}
    {P2 : Matrix (Fin L) (Fin L) K} (hL : 1 ≤ L) (hm : ∃ A B : Matrix (Fin L) (Fin L) K, m = ⟨⟨L, L, A⟩, ⟨L, L, B⟩⟩)
    (h : ScoreReady m s P1 P2) (h' : ScoreReady m s' P1 P2) (hseq : s.seqHist = s'.seqHist) (u : ℤ) :
    tdRecommendUser s u = tdRecommendUser s' u := by
  obtain ⟨A, B, rfl⟩ := hm
  obtain ⟨r, V, hv, p1⟩ := h.item
  obtain ⟨r', V', hv', p1'⟩ := h'.item
  obtain ⟨q, W, hw, p2⟩ := h.pos
  obtain ⟨q', W', hw', p2'⟩ := h'.pos
  obtain ⟨lw, x, e1, e2, e3⟩ := h.last
  obtain ⟨lw', x', e1', e2', e3'⟩ := h'.last
  have haw := h.aw
  have haw' := h'.aw
  obtain ⟨L, rfl⟩ : ∃ k, L = k + 1 := ⟨L - 1, by omega⟩
  rw [hw, Mat.dot_mk] at haw
  rw [hw', Mat.dot_mk] at haw'
  rw [hw, Mat.T_mk, Mat.dot_mk] at e1
  rw [hw', Mat.T_mk, Mat.dot_mk] at e1'
  cases e1
  cases e1'
  rw [row_neg_one] at e2 e2'
  cases e2
  cases e2'
  have key : ∀ {q : ℕ} (W : Matrix (Fin (L + 1)) (Fin q) K), (A * W).mulVec ((B.transpose * W) (Fin.last L)) =
      (A * (W * W.transpose)).mulVec (B.transpose (Fin.last L)) := fun W => by
    have : (B.transpose * W) (Fin.last L) = W.transpose.mulVec (B.transpose (Fin.last L)) := by
      funext j
      simp only [Matrix.mul_apply, Matrix.mulVec, dotProduct, Matrix.transpose_apply]
      exact Finset.sum_congr rfl fun _ _ => mul_comm _ _
    rw [this, Matrix.mulVec_mulVec, Matrix.mul_assoc]
  unfold tdRecommendUser
  rw [hseq, hv, hv', hw, hw', ← Except.ok.inj haw, ← Except.ok.inj haw', e3, e3']
  dsimp only
  congr 1
  funext d
  exact seqScores_same (p1.trans p1'.symm) (by rw [key W, key W', p2, p2']) _ _
end

/-! ### Updates -/

section
variable [Field K] [LinearOrder K] [IsStrictOrderedRing K] {cfg : TICfg K} {m : TDAtt K}

omit [LinearOrder K] [IsStrictOrderedRing K] in
theorem usedEntries_all {n0 n1 n2 : ℕ} (es : List (Ent n0 n1 n2 K)) (h : es.length ≤ 10000 ∨ 10000 ∣ es.length) :
    usedEntries es = es := by
  unfold usedEntries
  refine List.take_of_length_le ?_
  rcases h with h | h
  · rw [min_eq_right h]
    rcases Nat.eq_zero_or_pos es.length with h0 | h0
    · omega
    · rw [Nat.div_self h0, one_mul]
  · rcases Nat.eq_zero_or_pos es.length with h0 | h0
    · omega
    · rw [min_eq_left (Nat.le_of_dvd h0 h), Nat.div_mul_cancel h]

theorem tiOld_next {st : TDState K} {n0 n1 r0 r1 r2 : ℕ} (hqr : QrAlways cfg.td.hooi.la)
    {att : Option (Matrix (Fin cfg.td.seqLen) (Fin cfg.td.seqLen) K)} (hatt : tiAttArg cfg m = attArg att)
    (hd : TIDims n0 n1 cfg.td.seqLen r0 r1 r2) {S D T' : T3 n0 n1 cfg.td.seqLen K} (h : HoldsTensor st r0 r1 r2 S)
    (δ : List DRow) (hne : δ ≠ []) (hlen : δ.length ≤ 10000 ∨ 10000 ∣ δ.length)
    (hu : ∀ r ∈ δ, 0 ≤ r.user ∧ r.user < n0) (hi : ∀ r ∈ δ, 0 ≤ r.item ∧ r.item < n1)
    (hp : ∀ r ∈ δ, 0 ≤ r.pos ∧ r.pos < cfg.td.seqLen)
    (hδ : ∀ (i : Fin n0) (j : Fin n1) (p : Fin cfg.td.seqLen),
      (deltaVal δ ((i : ℕ) : ℤ) ((j : ℕ) : ℤ) ((p : ℕ) : ℤ) : K) = D i j p)
    {P0 : Matrix (Fin n0) (Fin n0) K} {P1 : Matrix (Fin n1) (Fin n1) K}
    {P2 : Matrix (Fin cfg.td.seqLen) (Fin cfg.td.seqLen) K}
    (hn : TuckerNext (attVal att) r0 r1 r2 S D D T' P0 P1 P2) :
    ∃ st', tiOld cfg m st δ = .ok st' ∧ HoldsTensor st' r0 r1 r2 T' ∧ TISame st st' := by
  obtain ⟨U, V, W, c, h, hV, hW, hS⟩ := h
  obtain ⟨es, hes⟩ := delta_typed (K := K) δ n0 n1 cfg.td.seqLen hu hi hp
  have hl : es.length = δ.length := by
    have := congrArg List.length hes.inds
    simpa [dInds, indsOf] using this.symm
  have hD : cooTensor es = D := by
    funext i j k
    rw [hes.coo, hδ]
  obtain ⟨U1, V1, W1, c1, e, -, o1, o2, -, -, -, hT⟩ := C158_integrator cfg.td.hooi.la hqr es (hes.ne hne) att hd U V W hV hW
    c cfg.td.hooi.parallel (T' := T') (P0 := P0) (P1 := P1) (P2 := P2)
    (by rw [usedEntries_all es (by rw [hl]; exact hlen), hD, hS]; exact hn)
  refine ⟨_, ?_, ⟨U1, V1, W1, c1, setFac_shape st U1 V1 W1 c1, o1, o2, hT⟩, setFac_same _ _⟩
  unfold tiOld
  rw [(tiCore_stores h).1, except_bind_ok, (tiCore_stores h).2, hes.inds, hes.vals, hatt, h.u, h.v]
  dsimp only
  rw [e]
  rfl

variable {users items : List ℤ}

/-- The tensors `S 0, S 1, …` follow the chunks: every chunk is not empty, has known users and items, moves some window,
changes at most 10000 entries of the windows (or a multiple of 10000), and the next tensor is the one of `TuckerNext` for
the change of the windows. -/
def TIPath (L : ℕ) (A : Matrix (Fin L) (Fin L) K) (r0 r1 r2 : ℕ) (users items : List ℤ) (rows : List (Row K)) (b : Bool)
    (chunks : List (List (Row K))) (S : ℕ → T3 users.length items.length L K) : Prop :=
  ∀ (t : ℕ) (c : List (Row K)), chunks[t]? = some c →
    let now := rows ++ ((chunks.take t).map (inTime b)).flatten
    let D := windowTensor L users items (now ++ inTime b c) - windowTensor L users items now
    TIKnown L users items now (inTime b c) c ∧
    (differing (windowTensor L users items (now ++ inTime b c)) (windowTensor L users items now) ≤ 10000 ∨
      10000 ∣ differing (windowTensor L users items (now ++ inTime b c)) (windowTensor L users items now)) ∧
    ∃ P0 P1 P2, TuckerNext A r0 r1 r2 (S t) D D (S (t + 1)) P0 P1 P2

theorem TIPath.tail {L : ℕ} {A : Matrix (Fin L) (Fin L) K} {r0 r1 r2 : ℕ} {rows : List (Row K)} {b : Bool}
    {c : List (Row K)} {cs : List (List (Row K))} {S : ℕ → T3 users.length items.length L K}
    (h : TIPath L A r0 r1 r2 users items rows b (c :: cs) S) :
    TIPath L A r0 r1 r2 users items (rows ++ inTime b c) b cs fun t => S (t + 1) := by
  intro t d ht
  have := h (t + 1) d ht
  simp only [List.take_succ_cons, List.map_cons, List.flatten_cons, ← List.append_assoc] at this
  exact this

/-- The part of a state that does not depend on the factors. -/
def TDState.log (s : TDState K) : Mappings × SeqHist × List (ℤ × ℤ) := (s.maps, s.seqHist, s.history)

/-- The same part after an update. -/
def logNext (L : ℕ) (b : Bool) (l : Mappings × SeqHist × List (ℤ × ℤ)) (data : List (Row K)) :
    PyM (Mappings × SeqHist × List (ℤ × ℤ)) := do
  let p ← tiPreprocess l.1 L data b
  pure (p.maps, (tiTrainTensor l.2.1 L p.chunk).2, tiUpdateHistory l.2.2 p.chunk)

/-- **C158, updates.** A consistent model of `TIRec` or `TIRecA` (in both modes, any initialisation, any QR routine) that
holds the first tensor of a path: all updates succeed, and the model holds the last tensor of the path. -/
theorem C158_updates {rounds : TIRounds K} (hc : IsTIClass rounds) (hs : TISetting cfg m) (hf : cfg.Fits users items)
    {att : Option (Matrix (Fin cfg.td.seqLen) (Fin cfg.td.seqLen) K)} (hatt : tiAttArg cfg m = attArg att)
    (chunks : List (List (Row K))) (b : Bool) :
    ∀ {st : TDState K} {rows : List (Row K)}, TISeen cfg m st users items rows →
    ∀ {S : ℕ → T3 users.length items.length cfg.td.seqLen K},
    HoldsTensor st cfg.td.hooi.rank.1 cfg.td.hooi.rank.2.1 cfg.td.hooi.rank.2.2 (S 0) →
    TIPath cfg.td.seqLen (attVal att) cfg.td.hooi.rank.1 cfg.td.hooi.rank.2.1 cfg.td.hooi.rank.2.2 users items rows b
      chunks S →
    ∃ st', tiUpdates rounds cfg m st chunks b = .ok st' ∧
      TISeen cfg m st' users items (rows ++ (chunks.map (inTime b)).flatten) ∧
      HoldsTensor st' cfg.td.hooi.rank.1 cfg.td.hooi.rank.2.1 cfg.td.hooi.rank.2.2 (S chunks.length) ∧
      chunks.foldlM (logNext cfg.td.seqLen b) st.log = .ok st'.log := by
  induction chunks with
  | nil => exact fun {st rows} hseen {S} hS _ => ⟨st, rfl, by simpa using hseen, hS, rfl⟩
  | cons c cs ih =>
    intro st rows hseen S hS hp
    have h0 := hp 0 c rfl
    simp only [List.take_zero, List.map_nil, List.flatten_nil, List.append_nil] at h0
    obtain ⟨k0, few, P0, P1, P2, hn⟩ := h0
    obtain ⟨s1, a1, a2, a3, p, a4, a5, a6, a7⟩ := tiUpdate_known hc hs hf hseen hS c b k0
      fun δ s hne hlen hu hi hpos hδ hs' => tiOld_next hs.qr hatt hf hs' δ hne (by rw [hlen]; exact few) hu hi hpos
        (D := windowTensor cfg.td.seqLen users items (rows ++ inTime b c) - windowTensor cfg.td.seqLen users items rows)
        hδ hn
    obtain ⟨s2, b1, b2, b3, b4⟩ := ih a2 (S := fun t => S (t + 1)) a3 hp.tail
    refine ⟨s2, ?_, ?_, b3, ?_⟩
    · unfold tiUpdates at b1 ⊢
      rw [List.foldlM_cons, a1, except_bind_ok]
      exact b1
    · rw [List.map_cons, List.flatten_cons, ← List.append_assoc]
      exact b2
    · rw [List.foldlM_cons]
      have : logNext cfg.td.seqLen b st.log c = .ok s1.log := by
        unfold logNext TDState.log
        dsimp only
        rw [a4, except_bind_ok, a5, a6, a7]
        rfl
      rw [this, except_bind_ok]
      exact b4

/-- What a run ends with: a state that has seen everything, with the log of the run, and factors of items and places that
span the item space and the place space of the last tensor. -/
theorem C158_run {rounds : TIRounds K} (hc : IsTIClass rounds) (hs : TISetting cfg m) (hf : cfg.Fits users items)
    {L r0 r1 r2 : ℕ} (hL : cfg.td.seqLen = L) (hr : cfg.td.hooi.rank = (r0, r1, r2))
    {att : Option (Matrix (Fin L) (Fin L) K)} (hatt : tiAttArg cfg m = attArg att)
    (chunks : List (List (Row K))) (b : Bool) {st : TDState K} {rows : List (Row K)}
    (hseen : TISeen cfg m st users items rows) {S : ℕ → T3 users.length items.length L K}
    (hS : HoldsTensor st r0 r1 r2 (S 0)) (hp : TIPath L (attVal att) r0 r1 r2 users items rows b chunks S)
    (h1 : (unf (front1 (S chunks.length))).rank = r1) (h2 : (unf (front2 (S chunks.length))).rank = r2) :
    ∃ st', tiUpdates rounds cfg m st chunks b = .ok st' ∧
      (∃ P1 P2, OrthProj P1 (unf (front1 (S chunks.length))) ∧ OrthProj P2 (unf (front2 (S chunks.length))) ∧
        ScoreReady m st' P1 P2) ∧
      chunks.foldlM (logNext L b) st.log = .ok st'.log ∧ HoldsTensor st' r0 r1 r2 (S chunks.length) := by
  subst hL
  have e0 : cfg.td.hooi.rank.1 = r0 := by rw [hr]
  have e1 : cfg.td.hooi.rank.2.1 = r1 := by rw [hr]
  have e2 : cfg.td.hooi.rank.2.2 = r2 := by rw [hr]
  subst e0 e1 e2
  obtain ⟨st', a1, ⟨ext, past, a2, -, -⟩, a3, a4⟩ := C158_updates hc hs hf hatt chunks b hseen hS hp
  obtain ⟨U, V, W, c, q, hV, hW, hT⟩ := a3
  refine ⟨st', a1, ⟨V * V.transpose, W * W.transpose, ?_, ?_, ⟨_, V, q.v, rfl⟩, ⟨_, W, q.w, rfl⟩, a2.aw, a2.last⟩, a4,
    U, V, W, c, q, hV, hW, hT⟩
  · refine orthProj_of_factor (R := unf (front1 (mul0 U (mul2 W c)))) ?_ hV h1.ge
    rw [← hT, tuckerTensor_eq, ← unf_mul0, ← front1_mul1, ← mul01_comm]
  · refine orthProj_of_factor (R := unf (front2 (mul0 U (mul1 V c)))) ?_ hW h2.ge
    rw [← hT, tuckerTensor_eq, ← unf_mul0, ← front2_mul2, ← mul02_comm, ← mul12_comm]

/-- **C158.** Two runs of `TIRec` or `TIRecA` over the same chunks, each with its own class, its own QR, SVD and random
routines, its own mode (parallel or not) and its own factors; both start with the same mappings, histories and tensor. If
the tensors of the updates follow a path of `TuckerNext`, and the last one has the rank of the model in the modes of items
and places, then all updates of both runs succeed, both models hold the same tensor, and they give the same scores for every
user and the same recommendations for every list of users, every `k` and every selection routine. -/
theorem C158_same {rounds rounds' : TIRounds K} (hc : IsTIClass rounds) (hc' : IsTIClass rounds') {cfg' : TICfg K}
    (hs : TISetting cfg m) (hs' : TISetting cfg' m) {L r0 r1 r2 : ℕ} (hL : cfg.td.seqLen = L) (hL' : cfg'.td.seqLen = L)
    (hr : cfg.td.hooi.rank = (r0, r1, r2)) (hr' : cfg'.td.hooi.rank = (r0, r1, r2))
    (hf : TIDims users.length items.length L r0 r1 r2)
    {att : Option (Matrix (Fin L) (Fin L) K)} (hatt : tiAttArg cfg m = attArg att) (hatt' : tiAttArg cfg' m = attArg att)
    (chunks : List (List (Row K))) (b : Bool) {st st' : TDState K} {rows : List (Row K)}
    (hseen : TISeen cfg m st users items rows) (hseen' : TISeen cfg' m st' users items rows)
    (hlog : st.log = st'.log) {S : ℕ → T3 users.length items.length L K}
    (hS : HoldsTensor st r0 r1 r2 (S 0)) (hS' : HoldsTensor st' r0 r1 r2 (S 0))
    (hp : TIPath L (attVal att) r0 r1 r2 users items rows b chunks S)
    (h1 : (unf (front1 (S chunks.length))).rank = r1) (h2 : (unf (front2 (S chunks.length))).rank = r2) :
    ∃ s s', tiUpdates rounds cfg m st chunks b = .ok s ∧ tiUpdates rounds' cfg' m st' chunks b = .ok s' ∧
      HoldsTensor s r0 r1 r2 (S chunks.length) ∧ HoldsTensor s' r0 r1 r2 (S chunks.length) ∧ s.log = s'.log ∧
      (∀ u, tdRecommendUser s u = tdRecommendUser s' u) ∧
      ∀ (argp : ArgPart K) (us : List ℤ) (k : ℕ) (filt internal : Bool),
        tdRecommend argp s us k filt internal = tdRecommend argp s' us k filt internal := by
  have hLpos : 1 ≤ L := hL ▸ hs.len
  have hm : ∃ A B : Matrix (Fin L) (Fin L) K, m = ⟨⟨L, L, A⟩, ⟨L, L, B⟩⟩ := by
    have h := hs.att
    rw [tdInit_eq _ hs.len] at h
    have h := Except.ok.inj h
    subst h hL
    cases cfg.td.attF
    · exact ⟨1, 1, rfl⟩
    · exact ⟨_, _, rfl⟩
  have hfit : cfg.Fits users items := by unfold TICfg.Fits; rw [hL, hr]; exact hf
  have hfit' : cfg'.Fits users items := by unfold TICfg.Fits; rw [hL', hr']; exact hf
  obtain ⟨s, a1, ⟨P1, P2, p1, p2, a2⟩, a3, a4⟩ := C158_run hc hs hfit hL hr hatt chunks b hseen hS hp h1 h2
  obtain ⟨s', b1, ⟨P1', P2', p1', p2', b2⟩, b3, b4⟩ := C158_run hc' hs' hfit' hL' hr' hatt' chunks b hseen' hS' hp h1 h2
  obtain rfl := p1.unique p1'
  obtain rfl := p2.unique p2'
  have hl : s.log = s'.log := by
    rw [hlog, b3] at a3
    exact (Except.ok.inj a3).symm
  have hmaps : s.maps = s'.maps := congrArg Prod.fst hl
  have hseq : s.seqHist = s'.seqHist := congrArg (fun x => x.2.1) hl
  have hhist : s.history = s'.history := congrArg (fun x => x.2.2) hl
  have key := C158_scores hLpos hm a2 b2 hseq
  refine ⟨s, s', a1, b1, a4, b4, hl, key, fun argp us k filt internal => ?_⟩
  have hview : s.view = s'.view := by
    obtain ⟨U, V, W, c, q, -⟩ := a4
    obtain ⟨U', V', W', c', q', -⟩ := b4
    unfold TDState.view
    rw [hmaps, hhist, q.u, q.v, q'.u, q'.v]
  unfold tdRecommend
  rw [hview]
  simp only [key]

end

/-! ### An example with a rank below that of the data -/

section

/-- sequences of length 2, rank 1, no attention, with the given routines -/
noncomputable def exPathCfg (la : LinAlg ℝ) (par : Bool) : TICfg ℝ where
  td := ⟨⟨la, fun _ => eyeRng, fun _ _ => eyeRng, (1, 1, 1), 1, 2, par⟩, fun _ => 0, 2, none, 1, 0, true⟩
  light := false
  explicitCalc := true
  vecRng := fun _ => eyeRng
  matRng := fun _ _ => eyeRng
  normal := eyeRng
  init := .zero
  integrator := false

noncomputable def exPathAtt : TDAtt ℝ := ⟨Mat.eye 2, Mat.eye 2⟩

theorem exPath_setting {la : LinAlg ℝ} (h : QrAlways la) (par : Bool) : TISetting (exPathCfg la par) exPathAtt :=
  ⟨show 1 ≤ 2 by decide, rfl, h, Nat.one_pos, Nat.one_pos⟩

theorem exPath_dims : TIDims 2 2 2 1 1 1 := ⟨by decide, by decide, by decide, by decide, by decide, by decide⟩

/-- user 7 viewed 50, 40 and 40, user 8 viewed 40 twice -/
noncomputable def exPathTable : List (PRow ℝ) :=
  [⟨⟨7, 50, 1, 1, 0⟩, 0⟩, ⟨⟨7, 40, 1, 2, 0⟩, 0⟩, ⟨⟨7, 40, 1, 3, 0⟩, 0⟩, ⟨⟨8, 40, 1, 1, 0⟩, 0⟩, ⟨⟨8, 40, 1, 2, 0⟩, 0⟩]

noncomputable def exPathRows : List (Row ℝ) :=
  [⟨7, 50, 1, 1, 0⟩, ⟨7, 40, 1, 2, 0⟩, ⟨7, 40, 1, 3, 0⟩, ⟨8, 40, 1, 1, 0⟩, ⟨8, 40, 1, 2, 0⟩]

def exPathPast : List Inter := [⟨0, 1, 0⟩, ⟨0, 0, 0⟩, ⟨0, 0, 0⟩, ⟨1, 0, 0⟩, ⟨1, 0, 0⟩]

/-- a state of rank 1 that holds the windows (both are `[40, 40]`); the signs of the factors are up to `e` -/
noncomputable def exPathState (e : ℝ) : TDState ℝ where
  maps := ⟨getContMappingStruct [7, 8] 0, getContMappingStruct [40, 50] 0⟩
  history := [(0, 1), (0, 0), (0, 0), (1, 0), (1, 0)]
  seqHist := updateUserSeqHistory exPathPast [] 2
  u := ⟨2, 1, Matrix.of fun _ _ => 3⟩
  v := ⟨2, 1, Matrix.of fun j _ => if j = 0 then e else 0⟩
  w := ⟨2, 1, Matrix.of fun _ _ => e * (√2)⁻¹⟩
  core := some ⟨1, 1, 1, fun _ _ _ => √2 / 3⟩
  aw := ⟨2, 1, Matrix.of fun _ _ => e * (√2)⁻¹⟩
  lastPos := ⟨1, fun _ => e * (√2)⁻¹⟩

theorem exPath_inv (la : LinAlg ℝ) (par : Bool) (e : ℝ) :
    TIInv (exPathCfg la par) exPathAtt (exPathState e) [7, 8] [40, 50] exPathTable exPathPast where
  user := represents_start_zero _ (by decide)
  item := represents_start_zero _ (by decide)
  hist := by
    have := histInv_update 2 [] [] exPathPast (histInv_nil 2)
    rwa [List.nil_append] at this
  shape := show TIShape (exPathState e) 2 2 2 1 1 1 from ⟨_, _, _, _, rfl, rfl, rfl, rfl⟩
  seen := ⟨[⟨⟨0, 1, 1, 1, 0⟩, 0⟩, ⟨⟨0, 0, 1, 2, 0⟩, 0⟩, ⟨⟨0, 0, 1, 3, 0⟩, 0⟩, ⟨⟨1, 0, 1, 1, 0⟩, 0⟩, ⟨⟨1, 0, 1, 2, 0⟩, 0⟩],
    .cons ⟨rfl, rfl, ⟨0, rfl, rfl⟩, 1, rfl, rfl⟩ (.cons ⟨rfl, rfl, ⟨0, rfl, rfl⟩, 0, rfl, rfl⟩
      (.cons ⟨rfl, rfl, ⟨0, rfl, rfl⟩, 0, rfl, rfl⟩ (.cons ⟨rfl, rfl, ⟨1, rfl, rfl⟩, 0, rfl, rfl⟩
        (.cons ⟨rfl, rfl, ⟨1, rfl, rfl⟩, 0, rfl, rfl⟩ .nil)))), List.Perm.refl _, rfl⟩
  aw := by
    show (Mat.eye 2 : Mat ℝ).dot ⟨2, 1, _⟩ = _
    unfold Mat.eye
    rw [Mat.dot_mk, Matrix.one_mul]
    rfl
  last := by
    refine ⟨⟨2, 1, Matrix.of fun _ _ => e * (√2)⁻¹⟩, fun _ => e * (√2)⁻¹, ?_, row_neg_one _, rfl⟩
    show (Mat.eye 2 : Mat ℝ).T.dot ⟨2, 1, _⟩ = _
    unfold Mat.eye
    rw [Mat.T_mk, Matrix.transpose_one, Mat.dot_mk, Matrix.one_mul]
  usersOccur := by decide
  itemsOccur := by decide

theorem exPath_seen (la : LinAlg ℝ) (par : Bool) (e : ℝ) :
    TISeen (exPathCfg la par) exPathAtt (exPathState e) [7, 8] [40, 50] exPathRows :=
  ⟨exPathTable, exPathPast, exPath_inv la par e,
    .cons ⟨rfl, ⟨0, rfl, rfl⟩, 1, rfl, rfl⟩ (.cons ⟨rfl, ⟨0, rfl, rfl⟩, 0, rfl, rfl⟩
      (.cons ⟨rfl, ⟨0, rfl, rfl⟩, 0, rfl, rfl⟩ (.cons ⟨rfl, ⟨1, rfl, rfl⟩, 0, rfl, rfl⟩
        (.cons ⟨rfl, ⟨1, rfl, rfl⟩, 0, rfl, rfl⟩ .nil)))), fun u => rfl⟩

/-- user 8 views 50 -/
noncomputable def exPathChunk : List (Row ℝ) := [⟨8, 50, 1, 4, 0⟩]

/-- the windows before the chunk -/
def exPathT : T3 2 2 2 ℝ := ![![![1, 1], ![0, 0]], ![![1, 1], ![0, 0]]]
/-- the change -/
def exPathD : T3 2 2 2 ℝ := ![![![0, 0], ![0, 0]], ![![0, -1], ![0, 1]]]

theorem exPath_tensor : windowTensor 2 [7, 8] [40, 50] exPathRows = exPathT := by
  funext i j p
  fin_cases i <;> fin_cases j <;> fin_cases p <;> rfl

theorem exPath_tensor' : windowTensor 2 [7, 8] [40, 50] (exPathRows ++ exPathChunk) =
    (![![![1, 1], ![0, 0]], ![![1, 0], ![0, 1]]] : T3 2 2 2 ℝ) := by
  funext i j p
  fin_cases i <;> fin_cases j <;> fin_cases p <;> rfl

theorem exPath_holds {e : ℝ} (he : e * e = 1) : HoldsTensor (exPathState e) 1 1 1 exPathT := by
  have h2 : √2 * (√2)⁻¹ = 1 := mul_inv_cancel₀ (by positivity)
  have h3 : (√2)⁻¹ * (√2)⁻¹ = 1 / 2 := by rw [← mul_inv, Real.mul_self_sqrt (by norm_num)]; norm_num
  refine ⟨_, _, _, _, ⟨rfl, rfl, rfl, rfl⟩, ?_, ?_, ?_⟩
  · ext i j
    obtain rfl := Subsingleton.elim i j
    simp [Matrix.mul_apply, he]
  · ext i j
    obtain rfl := Subsingleton.elim i j
    simp only [Matrix.mul_apply, Matrix.transpose_apply, Matrix.of_apply, Fin.sum_univ_two, Matrix.one_apply_eq]
    linear_combination 2 * e * e * h3 + he
  · funext i j k
    fin_cases i <;> fin_cases j <;> fin_cases k <;> simp [tuckerTensor, exPathT] <;> linear_combination e * e * h2 + he

/-- the outer product of two vectors -/
theorem rank_one_proj {m n : ℕ} (x : Fin m → ℝ) (y : Fin n → ℝ) {M : Matrix (Fin m) (Fin n) ℝ} (hM : ∀ i j, M i j = x i * y j)
    (i0 : Fin m) (j0 : Fin n) (hx : x i0 ≠ 0) (hy : y j0 ≠ 0) :
    M.rank = 1 ∧ OrthProj (Matrix.of fun i j => x i * x j / ∑ k, x k * x k) M := by
  have hpos : 0 < ∑ k, x k * x k :=
    Finset.sum_pos' (fun k _ => mul_self_nonneg _) ⟨i0, Finset.mem_univ _, mul_self_pos.2 hx⟩
  have hv : M = Matrix.vecMulVec x y := by ext i j; rw [hM, Matrix.vecMulVec_apply]
  refine ⟨le_antisymm ?_ ?_, ?_, ?_, ?_⟩
  · rw [hv]; exact Matrix.rank_vecMulVec_le _ _
  · have h1 : (Matrix.of fun (_ : Fin 1) i => if i = i0 then (x i0)⁻¹ else 0) * (M * Matrix.of fun j (_ : Fin 1) =>
        if j = j0 then (y j0)⁻¹ else 0) = 1 := by
      ext i j
      obtain rfl := Subsingleton.elim i j
      simp only [Matrix.mul_apply, Matrix.of_apply, hM, mul_ite, ite_mul, mul_zero, zero_mul, Finset.sum_ite_eq',
        Finset.mem_univ, if_true, Matrix.one_apply_eq]
      field_simp
    have h2 := Matrix.rank_one (R := ℝ) (n := Fin 1)
    rw [← h1, Fintype.card_fin] at h2
    rw [← h2]
    exact (Matrix.rank_mul_le_right _ _).trans (Matrix.rank_mul_le_left _ _)
  · ext i j
    simp [mul_comm]
  · ext i j
    simp only [Matrix.mul_apply, Matrix.of_apply, hM]
    have : ∀ k, x i * x k / (∑ k, x k * x k) * (x k * y j) = x i * y j / (∑ k, x k * x k) * (x k * x k) := fun k => by ring
    rw [Finset.sum_congr rfl fun k _ => this k, ← Finset.mul_sum, div_mul_cancel₀ _ hpos.ne']
  · refine ⟨Matrix.of fun j i => if j = j0 then x i / (y j0 * ∑ k, x k * x k) else 0, ?_⟩
    ext i j
    simp only [Matrix.mul_apply, Matrix.of_apply, hM, mul_ite, mul_zero, Finset.sum_ite_eq', Finset.mem_univ, if_true]
    field_simp

/-- the projectors and the next tensor -/
noncomputable def exPathP0 : Matrix (Fin 2) (Fin 2) ℝ := !![4 / 5, 2 / 5; 2 / 5, 1 / 5]
noncomputable def exPathP1 : Matrix (Fin 2) (Fin 2) ℝ := !![25 / 26, 5 / 26; 5 / 26, 1 / 26]
noncomputable def exPathP2 : Matrix (Fin 2) (Fin 2) ℝ := !![225 / 346, 165 / 346; 165 / 346, 121 / 346]
noncomputable def exPathT' : T3 2 2 2 ℝ := fun i j p => ![2, 1] i * ![5, 1] j * ![15, 11] p / 130

theorem exPathP0_eq : exPathP0 = Matrix.of fun i j => ![2, 1] i * ![2, 1] j / ∑ k, ![2, 1] k * ![2, 1] k := by
  ext i j
  fin_cases i <;> fin_cases j <;> simp [exPathP0, Fin.sum_univ_two] <;> norm_num

theorem exPathP1_eq : exPathP1 = Matrix.of fun i j => ![5, 1] i * ![5, 1] j / ∑ k, ![5, 1] k * ![5, 1] k := by
  ext i j
  fin_cases i <;> fin_cases j <;> simp [exPathP1, Fin.sum_univ_two] <;> norm_num

theorem exPathP2_eq : exPathP2 = Matrix.of fun i j => ![15, 11] i * ![15, 11] j / ∑ k, ![15, 11] k * ![15, 11] k := by
  ext i j
  fin_cases i <;> fin_cases j <;> simp [exPathP2, Fin.sum_univ_two] <;> norm_num

theorem exPath_PT : mul0 exPathP0 exPathT = ![![![6 / 5, 6 / 5], ![0, 0]], ![![3 / 5, 3 / 5], ![0, 0]]] := by
  funext i j k
  fin_cases i <;> fin_cases j <;> fin_cases k <;> simp [mul0, exPathP0, exPathT, Fin.sum_univ_two] <;> norm_num

theorem exPath_PPT : mul1 exPathP1 (mul0 exPathP0 exPathT) =
    ![![![15 / 13, 15 / 13], ![3 / 13, 3 / 13]], ![![15 / 26, 15 / 26], ![3 / 26, 3 / 26]]] := by
  rw [exPath_PT]
  funext i j k
  fin_cases i <;> fin_cases j <;> fin_cases k <;> simp [mul1, exPathP1, Fin.sum_univ_two] <;> norm_num

theorem exPath_next : TuckerNext 1 1 1 1 exPathT exPathD exPathD exPathT' exPathP0 exPathP1 exPathP2 := by
  have h0 := rank_one_proj ![2, 1] ![1, 1] (M := unf (exPathT + exPathD) * (unf exPathT).transpose) (by
    intro i j
    simp only [Matrix.mul_apply, sum_finProd, unf, Matrix.of_apply, Matrix.transpose_apply, Equiv.symm_apply_apply]
    fin_cases i <;> fin_cases j <;> simp [exPathT, exPathD, Fin.sum_univ_two] <;> norm_num) 0 0 (by simp) (by simp)
  have h1 := rank_one_proj ![5, 1] ![3 / 5, 0] (M := unf (front1 (mul0 exPathP0 exPathT + exPathD)) *
      (unf (front1 (mul0 exPathP0 exPathT))).transpose) (by
    intro i j
    simp only [Matrix.mul_apply, sum_finProd, unf, Matrix.of_apply, Matrix.transpose_apply, Equiv.symm_apply_apply,
      front1, exPath_PT]
    fin_cases i <;> fin_cases j <;> simp [exPathD, Fin.sum_univ_two] <;> norm_num) 0 0 (by simp) (by simp)
  have h2 := rank_one_proj ![15, 11] ![3 / 26, 3 / 26] (M := unf (front2 (mul1 exPathP1 (mul0 exPathP0 exPathT) + exPathD)) *
      (unf (front2 (mul1 exPathP1 (mul0 exPathP0 exPathT)))).transpose) (by
    intro i j
    simp only [Matrix.mul_apply, sum_finProd, unf, Matrix.of_apply, Matrix.transpose_apply, Equiv.symm_apply_apply,
      front2, exPath_PPT]
    fin_cases i <;> fin_cases j <;> simp [exPathD, Fin.sum_univ_two] <;> norm_num) 0 0 (by simp) (by simp)
  rw [← exPathP0_eq] at h0
  rw [← exPathP1_eq] at h1
  rw [← exPathP2_eq] at h2
  refine ⟨?_, ?_, ?_, ?_, ?_, ?_, ?_⟩
  all_goals simp only [Matrix.transpose_one, Matrix.mul_one, mul2_one]
  · exact h0.1
  · exact h0.2
  · exact h1.1
  · exact h1.2
  · exact h2.1
  · exact h2.2
  · funext i j k
    fin_cases i <;> fin_cases j <;> fin_cases k <;>
      simp [mul0, mul1, mul2, exPathP0, exPathP1, exPathP2, exPathT, exPathD, exPathT', Fin.sum_univ_two] <;> norm_num

theorem exPath_path : TIPath 2 (1 : Matrix (Fin 2) (Fin 2) ℝ) 1 1 1 [7, 8] [40, 50] exPathRows true [exPathChunk]
    fun t => if t = 0 then exPathT else exPathT' := by
  intro t c ht
  match t with
  | 0 =>
    obtain rfl := Option.some.inj ht
    refine ⟨⟨List.cons_ne_nil _ _, fun r hr => by rw [List.mem_singleton.1 hr]; decide,
      8, show ([40, 50] : List ℤ) ≠ [40, 40] by decide⟩, Or.inl ((Finset.card_le_univ _).trans (by decide)),
      exPathP0, exPathP1, exPathP2, ?_⟩
    have hD : (windowTensor 2 [7, 8] [40, 50] (exPathRows ++ exPathChunk) - windowTensor 2 [7, 8] [40, 50] exPathRows :
        T3 2 2 2 ℝ) = exPathD := by
      rw [exPath_tensor, exPath_tensor']
      funext i j k
      fin_cases i <;> fin_cases j <;> fin_cases k <;> simp [exPathT, exPathD]
    have := exPath_next
    rw [← hD] at this
    exact this
  | t + 1 => simp at ht

/-- Both classes, with any QR routine, parallel or not, and with either sign of the factors: after the chunk the model holds
the same tensor and gives the same scores, here for user 8 (index 1): 40 before 50. -/
example (rounds : TIRounds ℝ) (hc : IsTIClass rounds) (la : LinAlg ℝ) (hqr : QrAlways la) (par : Bool) (e : ℝ)
    (he : e * e = 1) :
    ∃ s, tiUpdates rounds (exPathCfg la par) exPathAtt (exPathState e) [exPathChunk] true = .ok s ∧
      HoldsTensor s 1 1 1 exPathT' ∧ ∃ f : Fin 2 → ℝ, tdRecommendUser s 1 = .ok ⟨2, f⟩ ∧
        f 0 = 5 / 26 * (165 / 346) ∧ f 1 = 1 / 26 * (165 / 346) := by
  have r1 := rank_one_proj ![5, 1] (M := unf (front1 exPathT'))
    (fun p => ![2, 1] (finProdFinEquiv.symm p).2 * ![15, 11] (finProdFinEquiv.symm p).1 / 130) (by
      intro i j
      obtain ⟨⟨a, b⟩, rfl⟩ := finProdFinEquiv.surjective j
      simp only [unf, Matrix.of_apply, Equiv.symm_apply_apply, front1, exPathT']
      ring) 0 (finProdFinEquiv (0, 0)) (by simp) (by rw [Equiv.symm_apply_apply]; simp)
  have r2 := rank_one_proj ![15, 11] (M := unf (front2 exPathT'))
    (fun p => ![2, 1] (finProdFinEquiv.symm p).2 * ![5, 1] (finProdFinEquiv.symm p).1 / 130) (by
      intro i j
      obtain ⟨⟨a, b⟩, rfl⟩ := finProdFinEquiv.surjective j
      simp only [unf, Matrix.of_apply, Equiv.symm_apply_apply, front2, exPathT']
      ring) 0 (finProdFinEquiv (0, 0)) (by simp) (by rw [Equiv.symm_apply_apply]; simp)
  rw [← exPathP1_eq] at r1
  rw [← exPathP2_eq] at r2
  obtain ⟨s, a1, ⟨P1, P2, p1, p2, a2⟩, a3, a4⟩ := C158_run (users := [7, 8]) (items := [40, 50]) hc (exPath_setting hqr par)
    exPath_dims (L := 2) rfl rfl (att := none) rfl [exPathChunk] true (exPath_seen la par e) (exPath_holds he) exPath_path
    r1.1 r2.1
  obtain rfl := p1.unique r1.2
  obtain rfl := p2.unique r2.2
  refine ⟨s, a1, a4, ?_⟩
  have hseq : s.seqHist.get? 1 = some ⟨2, [0, 1]⟩ := by
    have : [exPathChunk].foldlM (logNext 2 true) (exPathState e).log = .ok (_, _, _) := rfl
    rw [this] at a3
    have h := congrArg (fun x => x.2.1) (Except.ok.inj a3)
    have h' : s.seqHist = _ := h.symm
    rw [h']
    rfl
  obtain ⟨r, V, hv, hV⟩ := a2.item
  obtain ⟨q, W, hw, hW⟩ := a2.pos
  obtain ⟨lw, x, l1, l2, l3⟩ := a2.last
  have haw := a2.aw
  have e1 : exPathAtt.attInv.T = ⟨2, 2, 1⟩ := by
    show (Mat.mk 2 2 (1 : Matrix (Fin 2) (Fin 2) ℝ)).T = _
    rw [Mat.T_mk, Matrix.transpose_one]
  have e2 : exPathAtt.att = ⟨2, 2, 1⟩ := rfl
  rw [e2, hw, Mat.dot_mk, Matrix.one_mul] at haw
  rw [e1, hw, Mat.dot_mk, Matrix.one_mul] at l1
  obtain rfl := Except.ok.inj l1
  rw [row_neg_one] at l2
  obtain rfl := Except.ok.inj l2
  have key := C25_scores s 1 V W (W (Fin.last 1)) hv (Except.ok.inj haw).symm l3 (by rw [hw]) [0, 1] hseq (by decide)
  have hsum : ∀ i : Fin 2, (∑ j : Fin (min [(0 : Fin 2), 1].length (2 - 1)),
      (∑ a, V i a * V ([(0 : Fin 2), 1][[(0 : Fin 2), 1].length - 1 - (j : ℕ)]'(by have := j.2; simp at this ⊢)) a) *
      (∑ b, W ⟨2 - 2 - (j : ℕ), by omega⟩ b * W (Fin.last 1) b)) = exPathP1 i 1 * exPathP2 0 1 := by
    intro i
    rw [← hV, ← hW]
    exact Fin.sum_univ_one _
  refine ⟨_, key, (hsum 0).trans ?_, (hsum 1).trans ?_⟩
  · rfl
  · rfl

end

end DynCF
