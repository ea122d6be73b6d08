/- C103, continued: the target matrices of `get_dynamics_mtx`, their rank, and the runs of the experiment. -/
import Verif.Props.PsiExperiments3

namespace DynCF
variable {K : Type}

open Matrix

/-- positions `a` and `b` lie in the same diagonal block: both among the first `first` positions, or in the
same group of `step` positions after them -/
def sameBlock (first step a b : ℕ) : Prop :=
  (a < first ∧ b < first) ∨ (first ≤ a ∧ first ≤ b ∧ (a - first) / step = (b - first) / step)

instance (first step a b : ℕ) : Decidable (sameBlock first step a b) := by
  unfold sameBlock
  infer_instance

/-- the leading `w × w` part of `M` with the entries outside the diagonal blocks replaced by zero -/
def blockPart [Zero K] {n : ℕ} (M : Matrix (Fin n) (Fin n) K) (first step w : ℕ) (h : w ≤ n) :
    Matrix (Fin w) (Fin w) K :=
  Matrix.of fun a b => if sameBlock first step a b then M (Fin.castLE h a) (Fin.castLE h b) else 0

theorem sameBlock_old {first step j a b : ℕ} (hpos : 0 < step) (ha : a < first + j * step)
    (hb : first + j * step ≤ b) : ¬ sameBlock first step a b ∧ ¬ sameBlock first step b a := by
  have h1 : j ≤ (b - first) / step := by
    rw [Nat.le_div_iff_mul_le hpos]
    omega
  have h2 : first ≤ a → (a - first) / step < j := by
    intro h
    rw [Nat.div_lt_iff_lt_mul hpos]
    omega
  unfold sameBlock
  constructor
  · rintro (h | ⟨h3, h4, h5⟩)
    · omega
    · have := h2 h3
      omega
  · rintro (h | ⟨h3, h4, h5⟩)
    · omega
    · have := h2 h4
      omega

theorem sameBlock_new {first step j a b : ℕ} (hpos : 0 < step) (ha : first + j * step ≤ a)
    (ha' : a < first + (j + 1) * step) (hb : first + j * step ≤ b) (hb' : b < first + (j + 1) * step) :
    sameBlock first step a b := by
  have key : ∀ x, first + j * step ≤ x → x < first + (j + 1) * step → (x - first) / step = j := by
    intro x h1 h2
    refine Nat.le_antisymm ?_ ?_
    · rw [← Nat.lt_succ_iff, Nat.div_lt_iff_lt_mul hpos]
      show x - first < (j + 1) * step
      omega
    · rw [Nat.le_div_iff_mul_le hpos]
      omega
  refine Or.inr ⟨by omega, by omega, ?_⟩
  rw [key a ha ha', key b hb hb']

theorem blk_at11 {a b c d : ℕ} [CommRing K] (A : Matrix (Fin a) (Fin c) K) (B : Matrix (Fin a) (Fin d) K)
    (C : Matrix (Fin b) (Fin c) K) (D : Matrix (Fin b) (Fin d) K) (i j : ℕ) (hi : i < a + b) (hj : j < c + d) :
    (∀ (h1 : i < a) (h2 : j < c), blk A B C D ⟨i, hi⟩ ⟨j, hj⟩ = A ⟨i, h1⟩ ⟨j, h2⟩) ∧
    (∀ (h1 : i < a) (h2 : c ≤ j), blk A B C D ⟨i, hi⟩ ⟨j, hj⟩ = B ⟨i, h1⟩ ⟨j - c, by omega⟩) ∧
    (∀ (h1 : a ≤ i) (h2 : j < c), blk A B C D ⟨i, hi⟩ ⟨j, hj⟩ = C ⟨i - a, by omega⟩ ⟨j, h2⟩) ∧
    ∀ (h1 : a ≤ i) (h2 : c ≤ j), blk A B C D ⟨i, hi⟩ ⟨j, hj⟩ = D ⟨i - a, by omega⟩ ⟨j - c, by omega⟩ := by
  have eL : ∀ {a b i : ℕ} (hi : i < a + b) (h : i < a), (⟨i, hi⟩ : Fin (a + b)) = Fin.castAdd b ⟨i, h⟩ :=
    fun _ _ => rfl
  have eR : ∀ {a b i : ℕ} (hi : i < a + b) (h : a ≤ i),
      (⟨i, hi⟩ : Fin (a + b)) = Fin.natAdd a ⟨i - a, by omega⟩ := by
    intro a b i hi h
    ext
    simp
    omega
  refine ⟨fun h1 h2 => ?_, fun h1 h2 => ?_, fun h1 h2 => ?_, fun h1 h2 => ?_⟩
  · rw [eL hi h1, eL hj h2, blk_11]
  · rw [eL hi h1, eR hj h2, blk_12]
  · rw [eR hi h1, eL hj h2, blk_21]
  · rw [eR hi h1, eR hj h2, blk_22]

theorem blockDiagList_snoc [CommRing K] (l : List (Mat K)) (hl : l ≠ []) (B : Mat K) :
    blockDiagList (l ++ [B]) = (blockDiagList l).blockDiag B := by
  cases l with
  | nil => exact absurd rfl hl
  | cons A l =>
    show (l ++ [B]).foldl Mat.blockDiag A = _
    rw [List.foldl_append]
    rfl

/-- **C103, the target matrices.** `block_diag` of the first `j + 1` blocks is the leading part of the matrix
with everything outside the diagonal blocks replaced by zero. -/
theorem C103_target [CommRing K] {n : ℕ} (M : Matrix (Fin n) (Fin n) K) (first step : ℕ) (hpos : 0 < step)
    (B0 : Mat K) (l : List (Mat K)) (h0 : IsDiagBlock M 0 first B0)
    (hl : ∀ k B, l[k]? = some B → IsDiagBlock M (first + k * step) step B) :
    ∀ j ≤ l.length, ∃ h : first + j * step ≤ n,
      blockDiagList ((B0 :: l).take (j + 1)) = ⟨_, _, blockPart M first step (first + j * step) h⟩ := by
  intro j
  induction j with
  | zero =>
    intro _
    obtain ⟨h, hB⟩ := h0
    refine ⟨by omega, ?_⟩
    rw [List.take_succ_cons, List.take_zero]
    show B0 = _
    rw [hB]
    refine mat_ext_entries (by simp) (by simp) ?_
    intro a b ha hb
    dsimp only at ha hb
    show _ = if sameBlock first step a b then _ else _
    rw [if_pos (show sameBlock first step a b from Or.inl ⟨ha, hb⟩)]
    show M _ _ = M _ _
    congr 1 <;> ext <;> simp
  | succ j ih =>
    intro hj
    obtain ⟨h, ih⟩ := ih (by omega)
    have hx : l[j]? = some l[j] := List.getElem?_eq_getElem (by omega)
    obtain ⟨h1, hB⟩ := hl j _ hx
    have h2 : first + (j + 1) * step ≤ n := by rw [Nat.add_mul, Nat.one_mul]; omega
    refine ⟨h2, ?_⟩
    have ht : (B0 :: l).take (j + 1 + 1) = (B0 :: l).take (j + 1) ++ [l[j]] := by
      rw [List.take_succ_eq_append_getElem (i := j + 1) (by simp; omega)]
      rfl
    rw [ht, blockDiagList_snoc _ (by simp), ih, hB, blockDiag_mk]
    have hw : first + j * step + step = first + (j + 1) * step := by ring
    refine mat_ext_entries hw hw ?_
    intro a b ha hb
    dsimp only at ha hb ⊢
    obtain ⟨e1, e2, e3, e4⟩ := blk_at11 (blockPart M first step (first + j * step) h) 0 0
      (Matrix.of fun i j' : Fin step => M ⟨first + j * step + i, by omega⟩ ⟨first + j * step + j', by omega⟩) a b ha hb
    show _ = if sameBlock first step a b then M ⟨a, _⟩ ⟨b, _⟩ else 0
    by_cases ha1 : a < first + j * step <;> by_cases hb1 : b < first + j * step
    · rw [e1 ha1 hb1]
      rfl
    · rw [e2 ha1 (by omega), if_neg (sameBlock_old hpos ha1 (by omega)).1]
      rfl
    · rw [e3 (by omega) hb1, if_neg (sameBlock_old hpos hb1 (by omega)).2]
      rfl
    · rw [e4 (by omega) (by omega), if_pos (sameBlock_new (j := j) hpos (by omega) (hw ▸ ha) (by omega) (hw ▸ hb))]
      show M _ _ = M _ _
      congr 1 <;> ext <;> dsimp only <;> omega

/-- `B` is a product with inner dimension `r` -/
def FactorsThrough [CommRing K] (r : ℕ) (B : Mat K) : Prop :=
  ∃ (m n : ℕ) (X : Matrix (Fin m) (Fin r) K) (Y : Matrix (Fin r) (Fin n) K), B = ⟨m, n, X * Y⟩

theorem FactorsThrough.blockDiag [CommRing K] {r r' : ℕ} {A B : Mat K} (hA : FactorsThrough r A)
    (hB : FactorsThrough r' B) : FactorsThrough (r + r') (A.blockDiag B) := by
  obtain ⟨m, n, X, Y, rfl⟩ := hA
  obtain ⟨m', n', X', Y', rfl⟩ := hB
  refine ⟨m + m', n + n', blk X 0 0 X', blk Y 0 0 Y', ?_⟩
  rw [blockDiag_mk, blk_mul_blk]
  simp

theorem FactorsThrough.list [CommRing K] {r : ℕ} (l : List (Mat K)) (hne : l ≠ [])
    (h : ∀ B ∈ l, FactorsThrough r B) : FactorsThrough (l.length * r) (blockDiagList l) := by
  induction l using List.reverseRecOn with
  | nil => exact absurd rfl hne
  | append_singleton l B ih =>
    by_cases hl : l = []
    · subst hl
      rw [List.nil_append, List.length_singleton, Nat.one_mul]
      exact h B (by simp)
    · rw [blockDiagList_snoc l hl, List.length_append, List.length_singleton, Nat.add_mul, Nat.one_mul]
      exact (ih hl fun B hB => h B (by simp [hB])).blockDiag (h B (by simp))

theorem FactorsThrough.rank_le [Field K] {r : ℕ} {B : Mat K} (h : FactorsThrough r B) : B.val.rank ≤ r := by
  obtain ⟨m, n, X, Y, rfl⟩ := h
  refine (Matrix.rank_mul_le_left _ _).trans ((Matrix.rank_le_card_width _).trans ?_)
  rw [Fintype.card_fin]

theorem IsDiagBlock.factors [CommRing K] {n r off len : ℕ} {X : Matrix (Fin n) (Fin r) K}
    {Y : Matrix (Fin r) (Fin n) K} {B : Mat K} (h : IsDiagBlock (X * Y) off len B) : FactorsThrough r B := by
  obtain ⟨h, rfl⟩ := h
  exact ⟨len, len, X.submatrix (fun i : Fin len => ⟨off + i, by omega⟩) id,
    Y.submatrix id (fun i : Fin len => ⟨off + i, by omega⟩), rfl⟩

/-- **C103, the reduced rank.** If `(size - first) * ratio_next` is a whole number and the rank is at least
`1 / ratio_next + 1`, then the number of blocks times the rank of the generated matrix is at most `rank`. -/
theorem C103_small_rank_partial {K : Type} [Field K] [LinearOrder K] [IsStrictOrderedRing K] [FloorRing K]
    (size first step rank : ℕ) (rn : K) (hle : first ≤ size) (hpos : 0 < step)
    (hstep : (step : K) = ((size - first : ℕ) : K) * rn) (hrank : 1 / rn + 1 ≤ rank) :
    ∃ small : ℕ, smallRank rank rn = .ok (small : ℤ) ∧ 1 ≤ small ∧
      ((size - first) / step + 1) * small ≤ rank := by
  have hstep0 : (0 : K) < step := by exact_mod_cast hpos
  have hd0 : (0 : K) ≤ ((size - first : ℕ) : K) := Nat.cast_nonneg _
  have hrn : 0 < rn := by
    by_contra h
    have : ((size - first : ℕ) : K) * rn ≤ 0 := mul_nonpos_of_nonneg_of_nonpos hd0 (not_lt.1 h)
    linarith
  have hq : 0 < 1 / rn + 1 := by positivity
  have hone : (1 : ℤ) ≤ ⌊(rank : K) / (1 / rn + 1)⌋ := by
    rw [Int.le_floor, Int.cast_one, le_div_iff₀ hq, one_mul]
    exact hrank
  refine ⟨⌊(rank : K) / (1 / rn + 1)⌋.toNat, ?_, by omega, ?_⟩
  · unfold smallRank
    rw [if_neg hrn.ne', if_neg hq.ne', max_eq_left hone, Int.toNat_of_nonneg (by omega)]
  · have h1 : (((size - first) / step : ℕ) : K) ≤ 1 / rn := by
      refine Nat.cast_div_le.trans ?_
      rw [div_le_div_iff₀ hstep0 hrn, hstep]
      linarith
    have h2 : ((⌊(rank : K) / (1 / rn + 1)⌋.toNat : ℕ) : K) ≤ rank / (1 / rn + 1) := by
      have h3 : ((⌊(rank : K) / (1 / rn + 1)⌋.toNat : ℕ) : K) = ((⌊(rank : K) / (1 / rn + 1)⌋ : ℤ) : K) := by
        rw [← Int.cast_natCast, Int.toNat_of_nonneg (by omega)]
      rw [h3]
      exact Int.floor_le _
    have h4 : ((((size - first) / step + 1) * ⌊(rank : K) / (1 / rn + 1)⌋.toNat : ℕ) : K) ≤ rank := by
      push_cast
      calc _ ≤ (1 / rn + 1) * (rank / (1 / rn + 1)) := by
            refine mul_le_mul (by linarith) h2 (Nat.cast_nonneg _) hq.le
        _ = rank := by field_simp
    exact_mod_cast h4

/-! ### the runs -/

theorem dynMtxLoop_spec (f : TripleFn) (rank : ℕ) (all : List (Mat ℝ)) (l : List (Mat ℝ)) :
    ∀ (i : ℕ) (prev : Option Triple) (rs : List (ℝ × (ℕ × ℕ))), (i = 0 → all = l) →
      dynMtxLoop f rank all i prev l = .ok rs →
      ∃ ts : List Triple, rs.length = l.length ∧ ts.length = l.length ∧
        ∀ (j : ℕ) (c : Mat ℝ) (t : Triple) (r : ℝ × (ℕ × ℕ)) (p : Option Triple),
          l[j]? = some c → ts[j]? = some t → rs[j]? = some r → (prev :: ts.map some)[j]? = some p →
          f (i + j) none p (blockDiagList (all.take (i + j + 1))) c rank = .ok t ∧
          (∃ P, svd2mtx t.1 t.2.1 t.2.2 = .ok P ∧
            sqrtErrRelativeMtx P (blockDiagList (all.take (i + j + 1))) = .ok r.1) ∧
          r.2 = ((blockDiagList (all.take (i + j + 1))).rows, (blockDiagList (all.take (i + j + 1))).cols) := by
  induction l with
  | nil =>
    intro i prev rs _ h
    have h := Except.ok.inj h
    subst h
    exact ⟨[], rfl, rfl, by simp⟩
  | cons c l ih =>
    intro i prev rs hall h
    unfold dynMtxLoop at h
    have htm : (if i = 0 then c else blockDiagList (all.take (i + 1))) = blockDiagList (all.take (i + 1)) := by
      split
      · next h0 =>
        rw [hall h0, h0]
        rfl
      · rfl
    dsimp only at h
    rw [htm] at h
    obtain ⟨r, hr, h⟩ := (bind_ok_iff _ _ _).1 h
    obtain ⟨rest, hrest, h⟩ := (bind_ok_iff _ _ _).1 h
    have h := Except.ok.inj h
    subst h
    obtain ⟨ts, l1, l2, hrec⟩ := ih _ _ _ (by omega) hrest
    unfold dynRecord at hr
    obtain ⟨t, ht, hr⟩ := (bind_ok_iff _ _ _).1 hr
    obtain ⟨P, hP, hr⟩ := (bind_ok_iff _ _ _).1 hr
    obtain ⟨e, he, hr⟩ := (bind_ok_iff _ _ _).1 hr
    have hr := Except.ok.inj hr
    subst hr
    refine ⟨t :: ts, by simp [l1], by simp [l2], ?_⟩
    intro j c' t' r' p h1 h2 h3 h4
    cases j with
    | zero =>
      simp only [List.getElem?_cons_zero, Option.some.injEq] at h1 h2 h3 h4
      subst h1 h2 h3 h4
      exact ⟨ht, ⟨P, hP, he⟩, rfl⟩
    | succ j =>
      rw [List.getElem?_cons_succ] at h1 h2 h3 h4
      have := hrec j c' t' r' p h1 h2 h3 h4
      rwa [show i + (j + 1) = i + 1 + j by omega]

/-- **C103, the run.** A completed run of `get_dynamics_mtx` with any decomposition function `f`: the matrix
`M` is generated with the reduced rank, there is one record per diagonal block, the target of step `j` is the
block-diagonal part of `M` on the first `first + j * step` positions, its shape is recorded, `f` is called with
this target, the `j`-th block, the rank and the factors of the step before, and the recorded error is the
relative error of the product of the factors. -/
theorem C103_run (la : LinAlg ℝ) (d : GenDraws ℝ) (clock : ℕ → ℝ) (size rank : ℕ) (rf rn : ℝ) (f : TripleFn)
    (first step : ℕ) (hfirst : firstBlock size rf = first) (hle : first ≤ size)
    (hstep : blockStep size rf rn = step) (hpos : 0 < step) (res : DynResult (ℕ × ℕ))
    (h : getDynamicsMtx la d clock size rank rf rn f = .ok res) :
    ∃ (small : ℤ) (M : Matrix (Fin size) (Fin size) ℝ) (ts : List Triple),
      smallRank rank rn = .ok small ∧ generateMatrix la d size size small.toNat = .ok ⟨size, size, M⟩ ∧
      res.size = size ∧ res.rank = rank ∧
      res.times = (List.range ((size - first) / step + 1)).map clock ∧
      res.steps = (List.range ((size - first) / step + 1)).map
        (fun j => (first + j * step, first + j * step)) ∧
      res.errs.length = (size - first) / step + 1 ∧ ts.length = (size - first) / step + 1 ∧
      ∀ j < (size - first) / step + 1, ∃ (hj : first + j * step ≤ size) (c : Mat ℝ) (t : Triple) (e : ℝ),
        ts[j]? = some t ∧ res.errs[j]? = some e ∧
        (if j = 0 then IsDiagBlock M 0 first c else IsDiagBlock M (first + (j - 1) * step) step c) ∧
        f j none (if j = 0 then none else ts[j - 1]?) ⟨_, _, blockPart M first step (first + j * step) hj⟩ c rank =
          .ok t ∧
        ∃ P, svd2mtx t.1 t.2.1 t.2.2 = .ok P ∧
          sqrtErrRelativeMtx P ⟨_, _, blockPart M first step (first + j * step) hj⟩ = .ok e := by
  unfold getDynamicsMtx at h
  obtain ⟨small, hsmall, h⟩ := (bind_ok_iff _ _ _).1 h
  obtain ⟨C, hC, h⟩ := (bind_ok_iff _ _ _).1 h
  obtain ⟨l, hl, h⟩ := (bind_ok_iff _ _ _).1 h
  obtain ⟨rs, hrs, h⟩ := (bind_ok_iff _ _ _).1 h
  have h := Except.ok.inj h
  subst h
  obtain ⟨hr1, hr2⟩ := generateMatrix_shape la d size size _ C hC
  obtain ⟨M, rfl⟩ : ∃ M : Matrix (Fin size) (Fin size) ℝ, C = ⟨size, size, M⟩ := by
    obtain ⟨a, b, M⟩ := C
    dsimp only at hr1 hr2
    subst hr1
    subst hr2
    exact ⟨M, rfl⟩
  obtain ⟨B0, l', hl', hB0, hlen, hB⟩ := C103_blocks M rf rn first step hfirst hle hstep hpos
  rw [hl] at hl'
  cases hl'
  obtain ⟨ts, l1, l2, hrec⟩ := dynMtxLoop_spec f rank _ _ 0 none rs (fun _ => rfl) hrs
  have htgt := C103_target M first step hpos B0 l' hB0 hB
  rw [List.length_cons, hlen] at l1 l2
  have hstep' : ∀ j (hj : j < (size - first) / step + 1), ∃ (hj : first + j * step ≤ size) (c : Mat ℝ) (t : Triple) (r : ℝ × (ℕ × ℕ)),
      ts[j]? = some t ∧ rs[j]? = some r ∧ r.2 = (first + j * step, first + j * step) ∧
        (if j = 0 then IsDiagBlock M 0 first c else IsDiagBlock M (first + (j - 1) * step) step c) ∧
        f j none (if j = 0 then none else ts[j - 1]?) ⟨_, _, blockPart M first step (first + j * step) hj⟩ c rank =
          .ok t ∧
        ∃ P, svd2mtx t.1 t.2.1 t.2.2 = .ok P ∧
          sqrtErrRelativeMtx P ⟨_, _, blockPart M first step (first + j * step) hj⟩ = .ok r.1 := by
    intro j hj
    obtain ⟨hj', ht⟩ := htgt j (by omega)
    have e1 : (B0 :: l')[j]? = some ((B0 :: l')[j]'(by simp; omega)) := List.getElem?_eq_getElem _
    have e2 : ts[j]? = some ts[j] := List.getElem?_eq_getElem (by omega)
    have e3 : rs[j]? = some rs[j] := List.getElem?_eq_getElem (by omega)
    obtain ⟨p, hp⟩ : ∃ p, (none :: ts.map some)[j]? = some p :=
      ⟨_, List.getElem?_eq_getElem (by simp; omega)⟩
    obtain ⟨h1, h2, h3⟩ := hrec j _ _ _ p e1 e2 e3 hp
    rw [Nat.zero_add, ht] at h1 h2 h3
    have hpp : (if j = 0 then none else ts[j - 1]?) = p := by
      cases j with
      | zero => exact Option.some.inj hp
      | succ j =>
        rw [if_neg (by omega), Nat.add_sub_cancel]
        rw [List.getElem?_cons_succ, List.getElem?_map, List.getElem?_eq_getElem (by omega)] at hp
        rw [List.getElem?_eq_getElem (by omega)]
        exact Option.some.inj hp
    refine ⟨hj', _, _, _, e2, e3, h3, ?_, hpp ▸ h1, h2⟩
    cases j with
    | zero => exact hB0
    | succ j =>
      rw [if_neg (by omega), Nat.add_sub_cancel]
      refine hB j _ ?_
      rw [← List.getElem?_cons_succ (a := B0), e1]
  refine ⟨small, M, ts, hsmall, hC, rfl, rfl, by rw [l1], ?_, by simp [l1], l2, ?_⟩
  · refine List.ext_getElem? fun j => ?_
    by_cases hj : j < (size - first) / step + 1
    · obtain ⟨-, -, -, r, -, h1, h2, -⟩ := hstep' j hj
      rw [List.getElem?_map, h1, List.getElem?_map, List.getElem?_range hj]
      exact congrArg some h2
    · rw [List.getElem?_eq_none (by simp; omega), List.getElem?_eq_none (by simp; omega)]
  · intro j hj
    obtain ⟨hj', c, t, r, h1, h2, -, h4, h5, h6⟩ := hstep' j hj
    exact ⟨hj', c, t, r.1, h1, by rw [List.getElem?_map, h2]; rfl, h4, h5, h6⟩

/-- the later steps of the experiment with `get_incremental_svd_triple_block` are exact -/
theorem incBlock_loop (la : LinAlg ℝ) (hsvd : ∀ {m n : ℕ} (N : Matrix (Fin m) (Fin n) ℝ), SvdOk la N)
    (rng : Rng ℝ) (argsort : ArgSort ℝ) (ha : ArgSortOk argsort) (nPower os rank r : ℕ) (cs : List (Mat ℝ)) :
    ∀ (pre : List (Mat ℝ)) {m n : ℕ} (U : Matrix (Fin m) (Fin r) ℝ) (s : Fin r → ℝ) (V : Matrix (Fin r) (Fin n) ℝ),
      pre ≠ [] → 0 < m → 0 < n → U.transpose * U = 1 → V * V.transpose = 1 → (∀ i, 0 ≤ s i) →
      blockDiagList pre = ⟨m, n, U * diagonal s * V⟩ →
      (∀ k, 0 < k → (blockDiagList ((pre ++ cs).take k)).val.rank ≤ r) →
      ∃ rs, dynMtxLoop (getIncrementalSvdTripleBlock la rng argsort nPower os) rank (pre ++ cs) pre.length
        (some (⟨m, r, U⟩, ⟨r, s⟩, ⟨r, n, V⟩)) cs = .ok rs ∧ ∀ x ∈ rs, x.1 = 0 := by
  induction cs with
  | nil => intro pre m n U s V _ _ _ _ _ _ _ _; exact ⟨[], rfl, by simp⟩
  | cons c cs ih =>
    intro pre m n U s V hne hm hn hU hV hs hpre hrank
    obtain ⟨a, b, N⟩ := c
    have hsplit : pre ++ ⟨a, b, N⟩ :: cs = (pre ++ [⟨a, b, N⟩]) ++ cs := by simp
    have htake : (pre ++ ⟨a, b, N⟩ :: cs).take (pre.length + 1) = pre ++ [⟨a, b, N⟩] := by
      rw [hsplit, List.take_left' (by simp)]
    have htgt : blockDiagList (pre ++ [⟨a, b, N⟩]) = ⟨m + a, n + b, blk (U * diagonal s * V) 0 0 N⟩ := by
      rw [blockDiagList_snoc _ hne, hpre, blockDiag_mk]
    have hr := hrank (pre.length + 1) (by omega)
    rw [htake, htgt] at hr
    obtain ⟨U2, s2, V2, hrun, hex, o1, o2, hs2⟩ := C44_exact la rng argsort ha U s V N (hsvd N) nPower os hU hV hs hr
    obtain ⟨rs, hrs, hz⟩ := ih (pre ++ [⟨a, b, N⟩]) U2 s2 V2 (by simp) (by omega) (by omega) o1 o2 hs2
      (by rw [htgt, hex]) (by rw [← hsplit]; exact hrank)
    obtain ⟨e, he, -, hee⟩ := C59_dense (by omega : 0 < m + a) (by omega : 0 < n + b) (U2 * diagonal s2 * V2)
      (blk (U * diagonal s * V) 0 0 N)
    have he0 := hee.2 hex
    subst he0
    refine ⟨(0, (m + a, n + b)) :: rs, ?_, ?_⟩
    · have hlen : pre.length ≠ 0 := fun h => hne (List.length_eq_zero_iff.1 h)
      unfold dynMtxLoop dynRecord
      dsimp only
      rw [if_neg hlen, htake, htgt]
      have hf : getIncrementalSvdTripleBlock la rng argsort nPower os pre.length none
          (some (⟨m, r, U⟩, ⟨r, s⟩, ⟨r, n, V⟩)) ⟨m + a, n + b, blk (U * diagonal s * V) 0 0 N⟩ ⟨a, b, N⟩ rank =
          .ok (⟨m + a, r, U2⟩, ⟨r, s2⟩, ⟨r, n + b, V2⟩) := by
        unfold getIncrementalSvdTripleBlock
        rw [if_neg hlen]
        dsimp only
        rw [hrun, except_bind_ok]
        rfl
      rw [hf, except_bind_ok]
      dsimp only
      rw [svd2mtx_mk, except_bind_ok, he, except_bind_ok]
      dsimp only [pure, Except.pure]
      rw [except_bind_ok]
      dsimp only
      rw [List.length_append, List.length_singleton, List.append_assoc] at hrs
      rw [show pre ++ ({ rows := a, cols := b, val := N } :: cs) = pre ++ ([⟨a, b, N⟩] ++ cs) from rfl, hrs,
        except_bind_ok]
    · intro x hx
      rcases List.mem_cons.1 hx with rfl | hx
      · rfl
      · exact hz x hx

/-- **C103, incremental decomposition.** If the number of blocks times the reduced rank is at most the number of
kept components `min rank first`, and the sample of `random_svd` captures the first block, then the
experiment with `get_incremental_svd_triple_block` completes and every recorded error is zero. -/
theorem C103_incremental (la : LinAlg ℝ) (hsvd : ∀ {m n : ℕ} (N : Matrix (Fin m) (Fin n) ℝ), SvdOk la N)
    (rng : Rng ℝ) (argsort : ArgSort ℝ) (ha : ArgSortOk argsort) (d : GenDraws ℝ) (clock : ℕ → ℝ)
    (size rank nPower os small : ℕ) (rf rn : ℝ) (hsmall : smallRank rank rn = .ok (small : ℤ))
    (hda : QrOk la (d.a size small)) (hdb : QrOk la (d.b size small))
    (first step : ℕ) (hfirst : firstBlock size rf = first) (h0 : 0 < first) (hle : first ≤ size)
    (hstep : blockStep size rf rn = step) (hpos : 0 < step)
    (hblocks : ((size - first) / step + 1) * small ≤ min rank first) :
    ∃ M : Matrix (Fin size) (Fin size) ℝ, generateMatrix la d size size small = .ok ⟨size, size, M⟩ ∧
      (RsvdOk la rng (blockPart M first step first hle) rank nPower os →
        (∃ B, sketch rng (blockPart M first step first hle) rank nPower os * B = blockPart M first step first hle) →
        ∃ res, getDynamicsMtx la d clock size rank rf rn (getIncrementalSvdTripleBlock la rng argsort nPower os) =
          .ok res ∧ res.errs.length = (size - first) / step + 1 ∧ ∀ e ∈ res.errs, e = 0) := by
  classical
  have hss : small ≤ size := by
    have h1 : 1 * small ≤ ((size - first) / step + 1) * small := Nat.mul_le_mul_right _ (Nat.le_add_left _ _)
    omega
  obtain ⟨M, Q1, Q2, hM, -, -, hMe, -⟩ := C99_matrix la d size size small hda hdb hss hss
  refine ⟨M, hM, fun hok ⟨B, hB⟩ => ?_⟩
  obtain ⟨B0, l, hl, hB0, hlen, hBs⟩ := C103_blocks M rf rn first step hfirst hle hstep hpos
  have htgt := C103_target M first step hpos B0 l hB0 hBs
  have hfac : ∀ B ∈ B0 :: l, FactorsThrough small B := by
    intro B hB
    rw [hMe] at hB0 hBs
    rcases List.mem_cons.1 hB with rfl | hB
    · exact hB0.factors
    · obtain ⟨k, hk⟩ := List.mem_iff_getElem?.1 hB
      exact (hBs k B hk).factors
  have hrank : ∀ k, 0 < k → (blockDiagList ((B0 :: l).take k)).val.rank ≤ min rank first := by
    intro k hk
    have h1 := (FactorsThrough.list ((B0 :: l).take k) (by
      cases k with
      | zero => omega
      | succ k => simp) fun B hB => hfac B (List.mem_of_mem_take hB)).rank_le
    refine h1.trans (le_trans (Nat.mul_le_mul_right _ ?_) hblocks)
    rw [List.length_take, List.length_cons, hlen]
    exact Nat.min_le_right _ _
  have hB0e : B0 = ⟨first, first, blockPart M first step first hle⟩ := by
    obtain ⟨h1, h2⟩ := htgt 0 (by omega)
    rw [List.take_succ_cons, List.take_zero] at h2
    refine Eq.trans (show B0 = blockDiagList [B0] from rfl) (h2.trans ?_)
    refine mat_ext_entries (by simp) (by simp) fun i j h1 h2 => rfl
  have hrk0 := hrank 1 (by omega)
  rw [List.take_succ_cons, List.take_zero] at hrk0
  change B0.val.rank ≤ _ at hrk0
  subst hB0e
  dsimp only at hrk0
  generalize blockPart M first step first hle = A at hok hB hrk0 hl hB0 htgt hrank hfac B
  obtain ⟨k, U, s, V, hk, hkk, he, hU, hs, hV⟩ := C47_components la rng A rank nPower os
  obtain ⟨k', U', s', V', he', hex⟩ := C47_recovery la rng A rank nPower os hok B hB (hrk0.trans (Nat.min_le_left _ _))
  have ho := C47_orthonormal la rng A rank nPower os hok
  rw [he] at he' ho
  cases he'
  have hkr : k = min rank first := by omega
  rw [← hkr] at hrank
  obtain ⟨-, -, -, -, hnn, -⟩ := C47_projection la rng A rank nPower os hok
  have hs0 : ∀ i, 0 ≤ s i := fun i => by rw [hs]; exact hnn _
  obtain ⟨rs, hrs, hz⟩ := incBlock_loop la hsvd rng argsort ha nPower os rank k l [⟨first, first, A⟩] U s V
    (by simp) h0 h0 ho.1 ho.2 hs0 (by rw [hex]; rfl) hrank
  obtain ⟨e, he1, -, he2⟩ := C59_dense h0 h0 (U * diagonal s * V) A
  have he3 := he2.2 hex
  subst he3
  have hrun : dynMtxLoop (getIncrementalSvdTripleBlock la rng argsort nPower os) rank (⟨first, first, A⟩ :: l) 0 none
      (⟨first, first, A⟩ :: l) = .ok ((0, (first, first)) :: rs) := by
    unfold dynMtxLoop dynRecord
    dsimp only
    rw [if_pos rfl]
    have hf : getIncrementalSvdTripleBlock la rng argsort nPower os 0 none none ⟨first, first, A⟩ ⟨first, first, A⟩ rank =
        .ok (⟨first, k, U⟩, ⟨k, s⟩, ⟨k, first, V⟩) := by
      unfold getIncrementalSvdTripleBlock
      rw [if_pos rfl, he]
    rw [hf, except_bind_ok]
    dsimp only
    rw [svd2mtx_mk, except_bind_ok, he1, except_bind_ok]
    dsimp only [pure, Except.pure]
    rw [except_bind_ok]
    dsimp only
    have hrs' : dynMtxLoop (getIncrementalSvdTripleBlock la rng argsort nPower os) rank (⟨first, first, A⟩ :: l) (0 + 1)
        (some (⟨first, k, U⟩, ⟨k, s⟩, ⟨k, first, V⟩)) l = .ok rs := hrs
    rw [hrs', except_bind_ok]
  have hres : getDynamicsMtx la d clock size rank rf rn (getIncrementalSvdTripleBlock la rng argsort nPower os) =
      .ok ⟨(List.range (rs.length + 1)).map clock, 0 :: rs.map Prod.fst, size, rank, (first, first) :: rs.map Prod.snd⟩ := by
    unfold getDynamicsMtx
    rw [hsmall, except_bind_ok, Int.toNat_natCast, hM, except_bind_ok, hl, except_bind_ok, hrun, except_bind_ok]
    rfl
  refine ⟨_, hres, ?_, ?_⟩
  · obtain ⟨-, -, -, -, -, -, -, -, -, h1, -⟩ := C103_run la d clock size rank rf rn _ first step hfirst hle hstep hpos _ hres
    exact h1
  · intro e he
    rcases List.mem_cons.1 he with rfl | he
    · rfl
    · obtain ⟨x, hx, rfl⟩ := List.mem_map.1 he
      exact hz x hx

/-! ### the rank bound fails -/

/-- What the reduced rank is meant to achieve: the decomposition of rank `rank` can represent every target,
so recomputing the decomposition from scratch with a sample that captures the whole range gives no error. -/
def RanksFit : Prop := ∀ (d : GenDraws ℝ) (size rank small first step : ℕ) (rf rn : ℝ)
  (M : Matrix (Fin size) (Fin size) ℝ), 0 < rn → rn ≤ 1 → small ≤ rank → rank ≤ size →
  smallRank rank rn = .ok (small : ℤ) → generateMatrix realLA d size size small = .ok ⟨size, size, M⟩ →
  firstBlock size rf = first → blockStep size rf rn = step → 0 < step →
  ∀ (j : ℕ) (h : first + j * step ≤ size), (blockPart M first step (first + j * step) h).rank ≤ rank

theorem qr_ones_entry {n : ℕ} (h : 1 ≤ n) (A : Matrix (Fin n) (Fin 1) ℝ) (hA : ∀ i, A i 0 = 1) :
    ∃ Q : Matrix (Fin n) (Fin 1) ℝ, (realLA.qrM ⟨n, 1, A⟩).1 = ⟨n, 1, Q⟩ ∧ ∀ i, Q i 0 ≠ 0 := by
  obtain ⟨h1, -⟩ := realLA_qr A
  have hr : min n 1 = 1 := Nat.min_eq_right h
  rw [qrM_mk]
  dsimp only
  revert h1
  generalize (realLA.qr A).1 = Q
  generalize (realLA.qr A).2 = R
  revert Q R
  rw [hr]
  intro Q R hQ
  refine ⟨Q, rfl, fun i hi => ?_⟩
  have h2 := congrFun (congrFun hQ i) 0
  rw [hA, Matrix.mul_apply] at h2
  simp [hi] at h2

/-- **C103 is violated, ranks**: size 3, rank 2, first block of one row, `ratio_next = 3/5`: the step is 1, so
there are three blocks although `1 / ratio_next + 1 < 3`; the last target is an invertible 3 × 3 matrix. -/
theorem C103_rank_violated : ¬ RanksFit := by
  intro h
  have hs : smallRank 2 (3/5 : ℝ) = .ok ((1 : ℕ) : ℤ) := by
    unfold smallRank
    rw [if_neg (by norm_num), if_neg (by norm_num)]
    have : ⌊((2 : ℕ) : ℝ) / (1 / (3/5) + 1)⌋ = 0 := by rw [Int.floor_eq_iff]; norm_num
    rw [this]
    rfl
  have hf : firstBlock 3 (1/3 : ℝ) = ((1 : ℕ) : ℤ) := by
    unfold firstBlock pyInt
    norm_num
  have hst : blockStep 3 (1/3 : ℝ) (3/5) = ((1 : ℕ) : ℤ) := by
    unfold blockStep
    rw [hf]
    unfold pyInt
    rw [if_pos (by norm_num), Int.floor_eq_iff]
    norm_num
  obtain ⟨Q1, e1, n1⟩ := qr_ones_entry (n := 3) (by norm_num) (fun _ _ => 1) (fun _ => rfl)
  have hM : generateMatrix realLA exDraws 3 3 1 =
      .ok ⟨3, 3, Q1 * diagonal (fun i : Fin 1 => ((i : ℕ) : ℝ) + 3) * Q1.transpose⟩ := by
    unfold generateMatrix
    dsimp only [exDraws]
    rw [e1, Mat.T_mk, svd2mtx_mk]
  have h1 := h exDraws 3 2 1 1 1 (1/3) (3/5) _ (by norm_num) (by norm_num) (by norm_num) (by norm_num) hs hM hf hst
    (by norm_num) 2 (by norm_num)
  have hd : blockPart (Q1 * diagonal (fun i : Fin 1 => ((i : ℕ) : ℝ) + 3) * Q1.transpose) 1 1 (1 + 2 * 1) (by norm_num) =
      diagonal fun i : Fin 3 => Q1 i 0 * 3 * Q1 i 0 := by
    have hsb : ∀ a b : Fin 3, sameBlock 1 1 a b ↔ a = b := by decide
    ext i j
    show (if sameBlock 1 1 i j then _ else _) = _
    by_cases hij : i = j
    · subst hij
      rw [if_pos ((hsb i i).2 rfl), diagonal_apply_eq]
      simp [Matrix.mul_apply, Fin.castLE]
    · rw [if_neg (fun hx => hij ((hsb i j).1 hx)), diagonal_apply_ne _ hij]
  rw [hd, Matrix.rank_diagonal] at h1
  have hall : ∀ i : Fin (1 + 2 * 1), Q1 i 0 * 3 * Q1 i 0 ≠ 0 :=
    fun i => mul_ne_zero (mul_ne_zero (n1 i) (by norm_num)) (n1 i)
  rw [Fintype.card_congr (Equiv.subtypeUnivEquiv hall), Fintype.card_fin] at h1
  omega

-- size 4, first block 2, step 1 (two more blocks), rank 3: reduced rank 1, three blocks, total rank at most 3
example : ∃ small : ℕ, smallRank 3 (1/2 : ℚ) = .ok (small : ℤ) ∧ 1 ≤ small ∧ ((4 - 2) / 1 + 1) * small ≤ 3 :=
  C103_small_rank_partial 4 2 1 3 (1/2) (by norm_num) (by norm_num) (by norm_num) (by norm_num)

-- the blocks of a 5 x 5 matrix (first 2, step 2) and the target matrix with both blocks
example : (splitMtxBlockDiag (⟨5, 5, Matrix.of fun i j => (i : ℚ) * 5 + j⟩ : Mat ℚ) (2/5) (2/3)).map
      (fun l => l.map rowLists) = .ok [[[0, 1], [5, 6]], [[12, 13], [17, 18]]] ∧
    (splitMtxBlockDiag (⟨5, 5, Matrix.of fun i j => (i : ℚ) * 5 + j⟩ : Mat ℚ) (2/5) (2/3)).map
      (fun l => rowLists (blockDiagList l)) = .ok [[0, 1, 0, 0], [5, 6, 0, 0], [0, 0, 12, 13], [0, 0, 17, 18]] := by
  decide +kernel

-- a rank-1 matrix of size 4 cut into two blocks of 2 rows, two components (the sample must capture the first block)
example (rng : Rng ℝ) (argsort : ArgSort ℝ) (ha : ArgSortOk argsort) :
    ∃ M : Matrix (Fin 4) (Fin 4) ℝ, generateMatrix realLA exDraws 4 4 1 = .ok ⟨4, 4, M⟩ ∧
      ((∃ B, sketch rng (blockPart M 2 2 2 (by norm_num)) 2 0 0 * B = blockPart M 2 2 2 (by norm_num)) →
        ∃ res, getDynamicsMtx realLA exDraws (fun _ => 0) 4 2 (1/2) 1
          (getIncrementalSvdTripleBlock realLA rng argsort 0 0) = .ok res ∧ res.errs.length = 2 ∧
          ∀ e ∈ res.errs, e = 0) := by
  have hs : smallRank 2 (1 : ℝ) = .ok ((1 : ℕ) : ℤ) := by
    unfold smallRank
    rw [if_neg (by norm_num), if_neg (by norm_num)]
    norm_num
  have hf : firstBlock 4 (1/2 : ℝ) = ((2 : ℕ) : ℤ) := by
    unfold firstBlock pyInt
    norm_num
  have hst : blockStep 4 (1/2 : ℝ) 1 = ((2 : ℕ) : ℤ) := by
    unfold blockStep
    rw [hf]
    unfold pyInt
    norm_num
  obtain ⟨M, hM, h⟩ := C103_incremental realLA (fun N => realLA_svd N) rng argsort ha exDraws (fun _ => 0) 4 2 0 0 1
    (1/2) 1 hs (realLA_qr _) (realLA_qr _) 2 2 hf (by norm_num) (by norm_num) hst (by norm_num) (by norm_num)
  exact ⟨M, hM, fun hB => h (rsvdOk_real _ _ _ _ _) hB⟩

end DynCF
