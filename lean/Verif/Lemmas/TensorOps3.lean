/- Closed forms: tensordot2, tensordot, projected unfolding product, Tucker elements. -/
import Verif.Lemmas.TensorOps2

set_option linter.unusedSectionVars false
namespace DynCF
variable {K : Type}

section
variable [CommRing K]

/-- general form of the `_double_tensordot` loop -/
theorem doubleTensordot_gen {α : Type} {n0 m1 m2 p q : ℕ} (l : List α) (g : α → Ind3 × K)
    (U : Matrix (Fin m1) (Fin p) K) (V : Matrix (Fin m2) (Fin q) K) (mode0 mode1 mode2 : ℕ)
    (f0 : α → Fin n0) (f1 : α → Fin m1) (f2 : α → Fin m2)
    (h0 : ∀ x ∈ l, (g x).1.at mode0 = ((f0 x : ℕ) : ℤ))
    (h1 : ∀ x ∈ l, (g x).1.at mode1 = ((f1 x : ℕ) : ℤ))
    (h2 : ∀ x ∈ l, (g x).1.at mode2 = ((f2 x : ℕ) : ℤ)) (res : T3 n0 p q K) :
    doubleTensordot (l.map g) ⟨_, _, U⟩ ⟨_, _, V⟩ mode0 mode1 mode2 res =
      .ok (res + (l.map fun x => (fun a b c => if a = f0 x then (g x).2 * U (f1 x) b * V (f2 x) c
        else 0 : T3 n0 p q K)).sum) := by
  unfold doubleTensordot
  rw [foldlM_map_ok _ g (fun x res => (List.finRange p).foldl (fun res j =>
      (List.finRange q).foldl (fun res k =>
        addAt res (f0 x) j k ((g x).2 * U (f1 x) j * V (f2 x) k)) res) res)]
  · congr 1
    refine isInc_foldl (fun x (res : T3 n0 p q K) => (List.finRange p).foldl (fun res j =>
      (List.finRange q).foldl (fun res k =>
        addAt res (f0 x) j k ((g x).2 * U (f1 x) j * V (f2 x) k)) res) res) _ l ?_ res
    intro x _
    have h : IsInc (fun res : T3 n0 p q K => (List.finRange p).foldl (fun res j =>
      (List.finRange q).foldl (fun res k =>
        addAt res (f0 x) j k ((g x).2 * U (f1 x) j * V (f2 x) k)) res) res)
        (∑ j, ∑ k, single (f0 x) j k ((g x).2 * U (f1 x) j * V (f2 x) k)) := by
      apply isInc_finRange; intro j
      apply isInc_finRange; intro k
      exact addAt_eq _ _ _ _
    rwa [sum_single2 (f0 x) (fun j k => (g x).2 * U (f1 x) j * V (f2 x) k)] at h
  · intro x hx t
    rw [h0 x hx, h1 x hx, h2 x hx, row_typed, row_typed, pyIdx_coe]
    rfl

/-- sum over COO entries as a sum over cells, in a form ready for `if` -/
theorem sum_coo' {n0 n1 n2 : ℕ} (es : List (Ent n0 n1 n2 K)) (f : Fin n0 → Fin n1 → Fin n2 → K) :
    (es.map fun e => e.2 * f e.1.1 e.1.2.1 e.1.2.2).sum =
      ∑ i, ∑ j, ∑ k, cooTensor es i j k * f i j k := sum_coo es f

theorem tensordot2_ok {n0 n1 n2 m0 : ℕ} (es : List (Ent n0 n1 n2 K)) (u v : Mat K) (shape : List ℕ)
    (modes : ℤ × ℤ) (hl : shape.length ≤ 3) (h1 : modes.1 = 0 ∨ modes.1 = 1 ∨ modes.1 = 2)
    (h2 : modes.2 = 0 ∨ modes.2 = 1 ∨ modes.2 = 2) (hne : modes.1 ≠ modes.2)
    (hs : shape[(3 - (modes.1 + modes.2)).toNat]? = some m0) (r : T3 m0 u.cols v.cols K)
    (hr : doubleTensordot (es.map fun e => (e.ind, e.2)) u v (3 - (modes.1 + modes.2)).toNat
      modes.1.toNat modes.2.toNat (fun _ _ _ => 0) = .ok r) :
    tensordot2 (indsOf es) (valsOf es) shape u v modes = .ok ⟨_, _, _, r⟩ := by
  unfold tensordot2
  rw [if_neg (by omega), if_neg (by tauto), if_neg (by tauto), if_neg hne]
  simp only [hs]
  rw [cooEntries_typed, except_bind_ok, hr]
  rfl

theorem ite_sum_fst {n0 n1 n2 : ℕ} (t : T3 n0 n1 n2 K) (x : Fin n0) (f : Fin n1 → Fin n2 → K) :
    (∑ i, ∑ j, ∑ k, t i j k * (if x = i then f j k else 0)) = ∑ j, ∑ k, t x j k * f j k := by
  rw [Finset.sum_eq_single x]
  · simp
  · intro i _ hi
    simp [Ne.symm hi]
  · simp

theorem ite_sum_snd {n0 n1 n2 : ℕ} (t : T3 n0 n1 n2 K) (x : Fin n1) (f : Fin n0 → Fin n2 → K) :
    (∑ i, ∑ j, ∑ k, t i j k * (if x = j then f i k else 0)) = ∑ i, ∑ k, t i x k * f i k := by
  apply Finset.sum_congr rfl
  intro i _
  rw [Finset.sum_eq_single x]
  · simp
  · intro j _ hj
    simp [Ne.symm hj]
  · simp

theorem ite_sum_trd {n0 n1 n2 : ℕ} (t : T3 n0 n1 n2 K) (x : Fin n2) (f : Fin n0 → Fin n1 → K) :
    (∑ i, ∑ j, ∑ k, t i j k * (if x = k then f i j else 0)) = ∑ i, ∑ j, t i j x * f i j := by
  apply Finset.sum_congr rfl
  intro i _
  apply Finset.sum_congr rfl
  intro j _
  rw [Finset.sum_eq_single x]
  · simp
  · intro j _ hj
    simp [Ne.symm hj]
  · simp

/-- the sum of the per-entry increments of a `_double_tensordot` pass -/
theorem dt_sum {n0 n1 n2 m0 p q : ℕ} (es : List (Ent n0 n1 n2 K)) (f0 : Fin n0 → Fin n1 → Fin n2 → Fin m0)
    (F : Fin n0 → Fin n1 → Fin n2 → Fin p → K) (G : Fin n0 → Fin n1 → Fin n2 → Fin q → K) :
    ((fun _ _ _ => 0 : T3 m0 p q K) + (es.map fun e => (fun a b c =>
      if a = f0 e.1.1 e.1.2.1 e.1.2.2 then e.2 * F e.1.1 e.1.2.1 e.1.2.2 b * G e.1.1 e.1.2.1 e.1.2.2 c
        else 0 : T3 m0 p q K)).sum) =
    fun a b c => ∑ i, ∑ j, ∑ k, cooTensor es i j k * (if a = f0 i j k then F i j k b * G i j k c else 0) := by
  rw [zero_T3, zero_add]
  funext a b c
  rw [map_apply3, ← sum_coo es (fun i j k => if a = f0 i j k then F i j k b * G i j k c else 0)]
  congr 1
  apply List.map_congr_left
  intro e _
  split
  · rw [mul_assoc]
  · rw [mul_zero]

/-- general form of the `tensordot` loops -/
theorem tensordot_gen {α : Type} {n0 n1 n2 r : ℕ} (l : List α) (step : T3 n0 n1 n2 K → Fin r → α → PyM (T3 n0 n1 n2 K))
    (f : Fin r → α → Fin n0 × Fin n1 × Fin n2) (val : Fin r → α → K)
    (h : ∀ x ∈ l, ∀ j t, step t j x = .ok (addAt t (f j x).1 (f j x).2.1 (f j x).2.2 (val j x))) :
    (List.finRange r).foldlM (fun res j => l.foldlM (fun res x => step res j x) res)
      (fun _ _ _ => 0 : T3 n0 n1 n2 K) =
    .ok (∑ j, (l.map fun x => single (f j x).1 (f j x).2.1 (f j x).2.2 (val j x)).sum) := by
  rw [foldlM_inc_ok _ (fun j res => l.foldl (fun t x =>
    addAt t (f j x).1 (f j x).2.1 (f j x).2.2 (val j x)) res)]
  · congr 1
    have := isInc_finRange (fun j (res : T3 n0 n1 n2 K) => l.foldl (fun t x =>
      addAt t (f j x).1 (f j x).2.1 (f j x).2.2 (val j x)) res)
      (fun j => (l.map fun x => single (f j x).1 (f j x).2.1 (f j x).2.2 (val j x)).sum)
      (fun j => isInc_foldl (fun x t => addAt t (f j x).1 (f j x).2.1 (f j x).2.2 (val j x)) _ l
        (fun x _ => addAt_eq _ _ _ _)) (fun _ _ _ => 0)
    simp only at this
    rw [this, zero_T3, zero_add]
  · intro j _ t
    exact foldlM_inc_ok _ (fun x t => addAt t (f j x).1 (f j x).2.1 (f j x).2.2 (val j x)) l
      (fun x hx t => h x hx j t) t

theorem tensordot_mode0 {n0 n1 n2 r : ℕ} (es : List (Ent n0 n1 n2 K)) (U : Matrix (Fin r) (Fin n0) K) :
    tensordot (indsOf es) (valsOf es) (n0, n1, n2) ⟨_, _, U⟩ 0 =
      .ok ⟨r, n1, n2, fun a j k => ∑ i, cooTensor es i j k * U a i⟩ := by
  unfold tensordot
  rw [cooEntries_typed, except_bind_ok, if_pos rfl]
  simp only [List.foldlM_map]
  have h2 := tensordot_gen es (fun (t : T3 r n1 n2 K) j (x : Ent n0 n1 n2 K) => do
      let c ← pyIdx n0 x.ind.1
      let i1 ← pyIdx n1 x.ind.2.1
      let i2 ← pyIdx n2 x.ind.2.2
      pure (addAt t j i1 i2 (x.2 * U j c))) (fun j x => (j, x.1.2.1, x.1.2.2))
      (fun j x => x.2 * U j x.1.1) (by
        intro x _ j t
        simp only [Ent.ind, pyIdx_coe]
        rfl)
  rw [h2, except_bind_ok]
  show Except.ok _ = _
  congr 2
  funext a j k
  simp only [Finset.sum_apply, map_apply3]
  rw [Finset.sum_eq_single a]
  · have := sum_coo es (fun x y z => if j = y ∧ k = z then U a x else 0)
    rw [show (∑ i, cooTensor es i j k * U a i) = ∑ i, ∑ y, ∑ z, cooTensor es i y z *
      (if j = y ∧ k = z then U a i else 0) from ?_, ← this]
    · congr 1
      apply List.map_congr_left
      intro e _
      simp only [single]
      by_cases h : j = e.1.2.1 ∧ k = e.1.2.2
      · simp [h]
      · simp [h]
    · apply Finset.sum_congr rfl
      intro i _
      rw [Finset.sum_eq_single j, Finset.sum_eq_single k]
      · simp
      · intro z _ hz; simp [Ne.symm hz]
      · simp
      · intro y _ hy; simp [Ne.symm hy]
      · simp
  · intro b _ hb
    have : ∀ e : Ent n0 n1 n2 K, single (K := K) b e.1.2.1 e.1.2.2 (e.2 * U b e.1.1) a j k = 0 := by
      intro e; simp [single, Ne.symm hb]
    simp [this]
  · simp

theorem tensordot_mode1 {n0 n1 n2 r : ℕ} (es : List (Ent n0 n1 n2 K)) (U : Matrix (Fin r) (Fin n1) K) :
    tensordot (indsOf es) (valsOf es) (n0, n1, n2) ⟨_, _, U⟩ 1 =
      .ok ⟨n0, r, n2, fun i a k => ∑ j, cooTensor es i j k * U a j⟩ := by
  unfold tensordot
  rw [cooEntries_typed, except_bind_ok, if_neg (by decide), if_pos rfl]
  simp only [List.foldlM_map]
  have h2 := tensordot_gen es (fun (t : T3 n0 r n2 K) j (x : Ent n0 n1 n2 K) => do
      let c ← pyIdx n1 x.ind.2.1
      let i0 ← pyIdx n0 x.ind.1
      let i2 ← pyIdx n2 x.ind.2.2
      pure (addAt t i0 j i2 (x.2 * U j c))) (fun j x => (x.1.1, j, x.1.2.2))
      (fun j x => x.2 * U j x.1.2.1) (by
        intro x _ j t
        simp only [Ent.ind, pyIdx_coe]
        rfl)
  rw [h2, except_bind_ok]
  show Except.ok _ = _
  congr 2
  funext i a k
  simp only [Finset.sum_apply, map_apply3]
  rw [Finset.sum_eq_single a]
  · have := sum_coo es (fun x y z => if i = x ∧ k = z then U a y else 0)
    rw [show (∑ j, cooTensor es i j k * U a j) = ∑ x, ∑ y, ∑ z, cooTensor es x y z *
      (if i = x ∧ k = z then U a y else 0) from ?_, ← this]
    · congr 1
      apply List.map_congr_left
      intro e _
      simp only [single]
      by_cases h : i = e.1.1 ∧ k = e.1.2.2
      · simp [h]
      · simp [h]
    · rw [Finset.sum_eq_single i]
      · apply Finset.sum_congr rfl
        intro y _
        rw [Finset.sum_eq_single k]
        · simp
        · intro z _ hz; simp [Ne.symm hz]
        · simp
      · intro y _ hy; simp [Ne.symm hy]
      · simp
  · intro b _ hb
    have : ∀ e : Ent n0 n1 n2 K, single (K := K) e.1.1 b e.1.2.2 (e.2 * U b e.1.2.1) i a k = 0 := by
      intro e; simp [single, Ne.symm hb]
    simp [this]
  · simp

theorem tensordot_mode2 {n0 n1 n2 r : ℕ} (es : List (Ent n0 n1 n2 K)) (U : Matrix (Fin r) (Fin n2) K) :
    tensordot (indsOf es) (valsOf es) (n0, n1, n2) ⟨_, _, U⟩ 2 =
      .ok ⟨n0, n1, r, fun i j a => ∑ k, cooTensor es i j k * U a k⟩ := by
  unfold tensordot
  rw [cooEntries_typed, except_bind_ok, if_neg (by decide), if_neg (by decide), if_pos rfl]
  simp only [List.foldlM_map]
  have h2 := tensordot_gen es (fun (t : T3 n0 n1 r K) j (x : Ent n0 n1 n2 K) => do
      let c ← pyIdx n2 x.ind.2.2
      let i0 ← pyIdx n0 x.ind.1
      let i1 ← pyIdx n1 x.ind.2.1
      pure (addAt t i0 i1 j (x.2 * U j c))) (fun j x => (x.1.1, x.1.2.1, j))
      (fun j x => x.2 * U j x.1.2.2) (by
        intro x _ j t
        simp only [Ent.ind, pyIdx_coe]
        rfl)
  rw [h2, except_bind_ok]
  show Except.ok _ = _
  congr 2
  funext i j a
  simp only [Finset.sum_apply, map_apply3]
  rw [Finset.sum_eq_single a]
  · have := sum_coo es (fun x y z => if i = x ∧ j = y then U a z else 0)
    rw [show (∑ k, cooTensor es i j k * U a k) = ∑ x, ∑ y, ∑ z, cooTensor es x y z *
      (if i = x ∧ j = y then U a z else 0) from ?_, ← this]
    · congr 1
      apply List.map_congr_left
      intro e _
      simp only [single]
      by_cases h : i = e.1.1 ∧ j = e.1.2.1
      · simp [h]
      · by_cases h1 : i = e.1.1
        · have h2 : ¬ j = e.1.2.1 := fun h2 => h ⟨h1, h2⟩
          simp [h2]
        · simp [h1]
    · rw [Finset.sum_eq_single i]
      · rw [Finset.sum_eq_single j]
        · simp
        · intro z _ hz; simp [Ne.symm hz]
        · simp
      · intro y _ hy; simp [Ne.symm hy]
      · simp
  · intro b _ hb
    have : ∀ e : Ent n0 n1 n2 K, single (K := K) e.1.1 e.1.2.1 b (e.2 * U b e.1.2.2) i j a = 0 := by
      intro e; simp [single, Ne.symm hb]
    simp [this]
  · simp

/-! ### projected unfolding product -/

theorem addRow_inc {n m : ℕ} (r : Fin n) (x : Fin m → K) :
    IsInc (fun res : Matrix (Fin n) (Fin m) K => addRow res r x)
      (fun i j => if i = r then x j else 0) := by
  intro t
  funext i j
  show (if i = r then t i j + x j else t i j) = t i j + (if i = r then x j else 0)
  split <;> simp

theorem projVec_typed {m1 m2 p1 p2 s : ℕ} (Q : Matrix (Fin (p2 * p1)) (Fin s) K)
    (U1 : Matrix (Fin m1) (Fin p1) K) (U2 : Matrix (Fin m2) (Fin p2) K) (i1 : Fin m1) (i2 : Fin m2) :
    projVec ⟨_, _, Q⟩ ⟨_, _, U1⟩ ⟨_, _, U2⟩ ((i1 : ℕ) : ℤ) ((i2 : ℕ) : ℤ) =
      .ok (fun c => ∑ b, ∑ a, Q (finProdFinEquiv (b, a)) c * (U2 i2 b * U1 i1 a)) := by
  unfold projVec
  rw [row_typed, row_typed, except_bind_ok, except_bind_ok]
  refine (dif_pos rfl).trans ?_
  show Except.ok _ = _
  congr 1
  funext c
  rw [← Fintype.sum_prod_type', ← finProdFinEquiv.sum_comp]
  apply Finset.sum_congr rfl
  intro x _
  simp [kronVec]

/-- chunked loop over the first `k * B` entries -/
theorem chunk_foldlM {M α : Type} (f : M → α → PyM M) (l : List α) (B k : ℕ) (t : M) :
    (List.range k).foldlM (fun t s => ((l.drop (s * B)).take B).foldlM f t) t =
      (l.take (k * B)).foldlM f t := by
  induction k with
  | zero => simp
  | succ k ih =>
    rw [List.range_succ, List.foldlM_append, ih, Nat.succ_mul, List.take_add, List.foldlM_append]
    simp

theorem getTuckerElement_typed {n0 n1 n2 r0 r1 r2 : ℕ} (U1 : Matrix (Fin n0) (Fin r0) K)
    (U2 : Matrix (Fin n1) (Fin r1) K) (U3 : Matrix (Fin n2) (Fin r2) K) (g : T3 r0 r1 r2 K)
    (i : Fin n0) (j : Fin n1) (k : Fin n2) :
    getTuckerElement ((i : ℕ) : ℤ) ((j : ℕ) : ℤ) ((k : ℕ) : ℤ) ⟨_, _, U1⟩ ⟨_, _, U2⟩ ⟨_, _, U3⟩
      ⟨_, _, _, g⟩ = .ok (tuckerTensor U1 U2 U3 g i j k) := by
  unfold getTuckerElement
  rw [row_typed, row_typed, row_typed, except_bind_ok, except_bind_ok, except_bind_ok]
  refine (dif_pos ⟨rfl, rfl, rfl⟩).trans ?_
  show Except.ok _ = _
  congr 1
  have h : IsInc (fun res : K => (List.finRange r0).foldl (fun res i1 =>
      (List.finRange r1).foldl (fun res i2 =>
        (List.finRange r2).foldl (fun res i3 =>
          res + g i1 i2 i3 * (U1 i i1 * U2 j i2) * U3 k i3) res) res) res)
      (∑ i1, ∑ i2, ∑ i3, g i1 i2 i3 * (U1 i i1 * U2 j i2) * U3 k i3) := by
    apply isInc_finRange; intro i1
    apply isInc_finRange; intro i2
    apply isInc_finRange; intro i3 t
    rfl
  have h0 := h 0
  rw [zero_add] at h0
  refine Eq.trans h0 ?_
  unfold tuckerTensor
  apply Finset.sum_congr rfl; intro a _
  apply Finset.sum_congr rfl; intro b _
  apply Finset.sum_congr rfl; intro c _
  ring

end
end DynCF
