/- Properties C52-C59: tensor operations. -/
import Verif.Lemmas.TensorOps3
import Mathlib.Algebra.Order.Field.Rat

set_option linter.unusedSectionVars false
namespace DynCF
variable {K : Type}

/-- All COO data with indices in range is of the form used in the theorems below. -/
theorem coo_data_typed {n0 n1 n2 : ℕ} (inds : List Ind3) (vals : List K)
    (hl : inds.length = vals.length)
    (hr : ∀ c ∈ inds, (0 ≤ c.1 ∧ c.1 < n0) ∧ (0 ≤ c.2.1 ∧ c.2.1 < n1) ∧ (0 ≤ c.2.2 ∧ c.2.2 < n2)) :
    ∃ es : List (Ent n0 n1 n2 K), inds = indsOf es ∧ vals = valsOf es := by
  induction inds generalizing vals with
  | nil =>
    have : vals = [] := List.length_eq_zero_iff.1 hl.symm
    exact ⟨[], rfl, this⟩
  | cons c cs ih =>
    cases vals with
    | nil => simp at hl
    | cons v vs =>
      obtain ⟨es, h1, h2⟩ := ih vs (by simpa using hl) (fun c hc => hr c (List.mem_cons_of_mem _ hc))
      obtain ⟨⟨a1, a2⟩, ⟨b1, b2⟩, ⟨c1, c2⟩⟩ := hr c List.mem_cons_self
      refine ⟨((⟨c.1.toNat, by omega⟩, ⟨c.2.1.toNat, by omega⟩, ⟨c.2.2.toNat, by omega⟩), v) :: es, ?_, ?_⟩
      · have : c = (((c.1.toNat : ℕ) : ℤ), ((c.2.1.toNat : ℕ) : ℤ), ((c.2.2.toNat : ℕ) : ℤ)) := by
          rw [Int.toNat_of_nonneg a1, Int.toNat_of_nonneg b1, Int.toNat_of_nonneg c1]
        show c :: cs = _ :: indsOf es
        rw [← h1]
        congr 1
      · show v :: vs = v :: valsOf es
        rw [← h2]

/-! ### C52 unfolding and folding -/

/-- **C52** Entries of the unfolding: row = index of the mode, column = (index of the lower other
mode) + (its size) * (index of the higher other mode). -/
theorem C52_unfold_entries {n0 n1 n2 : ℕ} (t : T3 n0 n1 n2 K) :
    (∃ M : Matrix (Fin n0) (Fin (n2 * n1)) K, unfoldDense ⟨n0, n1, n2, t⟩ 0 = .ok ⟨n0, n2 * n1, M⟩ ∧
      ∀ (i : Fin n0) (j : Fin n1) (k : Fin n2) (c : Fin (n2 * n1)), (c : ℕ) = j + n1 * k → M i c = t i j k) ∧
    (∃ M : Matrix (Fin n1) (Fin (n2 * n0)) K, unfoldDense ⟨n0, n1, n2, t⟩ 1 = .ok ⟨n1, n2 * n0, M⟩ ∧
      ∀ (i : Fin n0) (j : Fin n1) (k : Fin n2) (c : Fin (n2 * n0)), (c : ℕ) = i + n0 * k → M j c = t i j k) ∧
    (∃ M : Matrix (Fin n2) (Fin (n1 * n0)) K, unfoldDense ⟨n0, n1, n2, t⟩ 2 = .ok ⟨n2, n1 * n0, M⟩ ∧
      ∀ (i : Fin n0) (j : Fin n1) (k : Fin n2) (c : Fin (n1 * n0)), (c : ℕ) = i + n0 * j → M k c = t i j k) := by
  have key : ∀ {a b : ℕ} (x : Fin a) (y : Fin b) (c : Fin (a * b)), (c : ℕ) = y + b * x →
      finProdFinEquiv.symm c = (x, y) := by
    intro a b x y c h
    rw [Equiv.symm_apply_eq]
    apply Fin.ext
    rw [h]
    rfl
  refine ⟨⟨_, rfl, ?_⟩, ⟨_, rfl, ?_⟩, ⟨_, rfl, ?_⟩⟩
  · intro i j k c h
    show t i (finProdFinEquiv.symm c).2 (finProdFinEquiv.symm c).1 = _
    rw [key k j c h]
  · intro i j k c h
    show t (finProdFinEquiv.symm c).2 j (finProdFinEquiv.symm c).1 = _
    rw [key k i c h]
  · intro i j k c h
    show t (finProdFinEquiv.symm c).2 (finProdFinEquiv.symm c).1 k = _
    rw [key j i c h]

theorem reshape3_reshape2 (t : Ten K) : t.reshape2.reshape3 t.d0 t.d1 t.d2 = .ok t := by
  unfold Mat.reshape3
  have h : t.reshape2.rows * t.reshape2.cols = t.d0 * t.d1 * t.d2 := (Nat.mul_assoc _ _ _).symm
  rw [dif_pos h]
  obtain ⟨d0, d1, d2, f⟩ := t
  congr 2
  funext i j k
  have h1 : ∀ h' : d0 * (d1 * d2) = d0 * d1 * d2, (finProdFinEquiv.symm
      (Fin.cast h'.symm (finProdFinEquiv (finProdFinEquiv (i, j), k)))) =
      (i, finProdFinEquiv (j, k)) := by
    intro h'
    apply (Equiv.symm_apply_eq _).2
    apply Fin.ext
    show (k : ℕ) + d2 * (j + d1 * i) = k + d2 * j + (d1 * d2) * i
    ring
  have key : ∀ x : Fin d0 × Fin (d1 * d2), x = (i, finProdFinEquiv (j, k)) →
      f x.1 (finProdFinEquiv.symm x.2).1 (finProdFinEquiv.symm x.2).2 = f i j k := by
    rintro _ rfl
    rw [Equiv.symm_apply_apply]
  exact key _ (h1 h)

theorem reshape2_reshape3 {a b c : ℕ} (M : Matrix (Fin a) (Fin (b * c)) K) :
    ∃ f : T3 a b c K, Mat.reshape3 ⟨a, b * c, M⟩ a b c = .ok ⟨a, b, c, f⟩ ∧
      Ten.reshape2 ⟨a, b, c, f⟩ = ⟨a, b * c, M⟩ := by
  refine ⟨fun i j k => M i (finProdFinEquiv (j, k)), ?_, ?_⟩
  · have := reshape3_reshape2 (⟨a, b, c, fun i j k => M i (finProdFinEquiv (j, k))⟩ : Ten K)
    rw [← this]
    congr 1
    unfold Ten.reshape2
    congr 1
    funext i x
    show M i x = M i (finProdFinEquiv (finProdFinEquiv.symm x))
    rw [Equiv.apply_symm_apply]
  · unfold Ten.reshape2
    congr 1
    funext i x
    show M i (finProdFinEquiv (finProdFinEquiv.symm x)) = M i x
    rw [Equiv.apply_symm_apply]

/-- **C52** Folding an unfolding returns the tensor. -/
theorem C52_fold_unfold {n0 n1 n2 : ℕ} (t : T3 n0 n1 n2 K) (m : ℤ) (hm : m = 0 ∨ m = 1 ∨ m = 2) :
    (unfoldDense ⟨n0, n1, n2, t⟩ m >>= fun M => foldDense M (n0, n1, n2) m) =
      .ok ⟨n0, n1, n2, t⟩ := by
  rcases hm with rfl | rfl | rfl
  · show foldDense _ _ 0 = _
    unfold foldDense
    rw [if_pos rfl]
    have := reshape3_reshape2 (Ten.transpose021 (⟨n0, n1, n2, t⟩ : Ten K))
    simp only [Ten.transpose021] at this ⊢
    rw [this]
    rfl
  · show foldDense _ _ 1 = _
    unfold foldDense
    rw [if_neg (by decide), if_pos rfl]
    have := reshape3_reshape2 (Ten.transpose120 (⟨n0, n1, n2, t⟩ : Ten K))
    simp only [Ten.transpose120] at this ⊢
    rw [this]
    rfl
  · show foldDense _ _ 2 = _
    unfold foldDense
    rw [if_neg (by decide), if_neg (by decide), if_pos rfl]
    have := reshape3_reshape2 (Ten.transpose210 (⟨n0, n1, n2, t⟩ : Ten K))
    simp only [Ten.transpose210] at this ⊢
    rw [this]
    rfl

/-- **C52** Unfolding a folded matrix returns the matrix (matching shapes). -/
theorem C52_unfold_fold (n0 n1 n2 : ℕ) :
    (∀ M : Matrix (Fin n0) (Fin (n2 * n1)) K,
      (foldDense ⟨n0, n2 * n1, M⟩ (n0, n1, n2) 0 >>= fun t => unfoldDense t 0) = .ok ⟨n0, n2 * n1, M⟩) ∧
    (∀ M : Matrix (Fin n1) (Fin (n2 * n0)) K,
      (foldDense ⟨n1, n2 * n0, M⟩ (n0, n1, n2) 1 >>= fun t => unfoldDense t 1) = .ok ⟨n1, n2 * n0, M⟩) ∧
    (∀ M : Matrix (Fin n2) (Fin (n1 * n0)) K,
      (foldDense ⟨n2, n1 * n0, M⟩ (n0, n1, n2) 2 >>= fun t => unfoldDense t 2) = .ok ⟨n2, n1 * n0, M⟩) := by
  refine ⟨?_, ?_, ?_⟩ <;> intro M <;> obtain ⟨f, h1, h2⟩ := reshape2_reshape3 M <;>
    unfold foldDense
  · rw [if_pos rfl]; simp only; rw [h1]
    exact congrArg Except.ok h2
  · rw [if_neg (by decide), if_pos rfl]; simp only; rw [h1]
    exact congrArg Except.ok h2
  · rw [if_neg (by decide), if_neg (by decide), if_pos rfl]; simp only; rw [h1]
    exact congrArg Except.ok h2

/-- **C52** any other mode raises `ValueError`; so does folding a matrix of the wrong size -/
theorem C52_errors (t : Ten K) (M : Mat K) (s : ℕ × ℕ × ℕ) (m : ℤ) :
    (m ≠ 0 ∧ m ≠ 1 ∧ m ≠ 2 → unfoldDense t m = .error .valueError ∧
      foldDense M s m = .error .valueError) ∧
    (M.rows * M.cols ≠ s.1 * s.2.1 * s.2.2 → foldDense M s m = .error .valueError) := by
  constructor
  · rintro ⟨h0, h1, h2⟩
    unfold unfoldDense foldDense
    simp [h0, h1, h2]
  · intro h
    unfold foldDense Mat.reshape3
    have e1 : ¬ (M.rows * M.cols = s.1 * s.2.2 * s.2.1) := by rw [Nat.mul_right_comm]; exact h
    have e2 : ¬ (M.rows * M.cols = s.2.1 * s.2.2 * s.1) := by
      intro e; apply h; rw [e]; ring
    have e3 : ¬ (M.rows * M.cols = s.2.2 * s.2.1 * s.1) := by
      intro e; apply h; rw [e]; ring
    rw [dif_neg e1, dif_neg e2, dif_neg e3]
    split
    · rfl
    · split
      · rfl
      · split <;> rfl

example : (unfoldDense (⟨2, 2, 3, fun i j k => (i : ℤ) * 100 + j * 10 + k⟩ : Ten ℤ) 1).map
    (fun M => (List.finRange M.rows).map fun i => (List.finRange M.cols).map fun j => M.val i j) =
    .ok [[0, 100, 1, 101, 2, 102], [10, 110, 11, 111, 12, 112]] := by decide +kernel

section
variable [CommRing K]

/-! ### C53 sparse unfolding -/

/-- the row of `inds` of an entry, as an array row -/
def Ent.vec {n0 n1 n2 : ℕ} (e : Ent n0 n1 n2 K) : Fin 3 → ℤ :=
  ![((e.1.1 : ℕ) : ℤ), ((e.1.2.1 : ℕ) : ℤ), ((e.1.2.2 : ℕ) : ℤ)]

theorem mapM_pure_ok {α β : Type} (f : α → PyM β) (g : α → β) (l : List α)
    (h : ∀ x ∈ l, f x = .ok (g x)) : l.mapM f = .ok (l.map g) := by
  rw [mapM_ok_iff]
  induction l with
  | nil => exact List.Forall₂.nil
  | cons a l ih =>
    exact List.Forall₂.cons (h a List.mem_cons_self) (ih fun x hx => h x (List.mem_cons_of_mem _ hx))

theorem zip_map_self {α β γ : Type} (f : α → β) (g : α → γ) (l : List α) :
    (l.map f).zip (l.map g) = l.map fun x => (f x, g x) := by
  induction l with
  | nil => rfl
  | cons a l ih => simp [ih]

theorem col_lt {a b : ℕ} (x : Fin a) (y : Fin b) : (x : ℕ) + a * y < a * b := by
  calc (x : ℕ) + a * y < a + a * y := by omega
    _ = a * (y + 1) := by ring
    _ ≤ a * b := Nat.mul_le_mul_left _ y.2

theorem col_inj {a b : ℕ} (x x' : Fin a) (y y' : Fin b)
    (h : (x : ℕ) + a * y = (x' : ℕ) + a * y') : x = x' ∧ y = y' := by
  have hx : ((x : ℕ) + a * y) % a = x := by rw [Nat.add_mul_mod_self_left]; exact Nat.mod_eq_of_lt x.2
  have hx' : ((x' : ℕ) + a * y') % a = x' := by
    rw [Nat.add_mul_mod_self_left]; exact Nat.mod_eq_of_lt x'.2
  have e1 : (x : ℕ) = x' := by rw [← hx, ← hx', h]
  have ha : 0 < a := by have := x.2; omega
  have e2 : (y : ℕ) = y' := by
    have : a * (y : ℕ) = a * y' := by omega
    exact Nat.eq_of_mul_eq_mul_left ha this
  exact ⟨Fin.ext e1, Fin.ext e2⟩

/-- **C53** The columns produced by the sparse unfolding are in range and different for different
cells. -/
theorem C53_columns {a b : ℕ} : (∀ (x : Fin a) (y : Fin b), (x : ℕ) + a * y < a * b) ∧
    ∀ (x x' : Fin a) (y y' : Fin b), (x : ℕ) + a * y = (x' : ℕ) + a * y' → x = x' ∧ y = y' :=
  ⟨col_lt, col_inj⟩

theorem cooMatrix_spec {α : Type} {m p q : ℕ} (l : List α) (r : α → Fin m) (x : α → Fin p)
    (y : α → Fin q) (v : α → K) :
    cooMatrix (l.map fun e => (((r e : ℕ) : ℤ), ((x e : ℕ) : ℤ) + (p : ℤ) * ((y e : ℕ) : ℤ), v e))
      m (p * q) = .ok ⟨m, p * q, Matrix.of fun i c =>
        ((l.filter fun e => decide (r e = i ∧ (x e : ℕ) + p * (y e : ℕ) = (c : ℕ))).map v).sum⟩ := by
  unfold cooMatrix
  rw [if_pos]
  · congr 2
    funext i c
    simp only [Matrix.of_apply]
    rw [List.filter_map, List.map_map]
    congr 1
    have : (fun e : α => decide (((r e : ℕ) : ℤ) = ((i : ℕ) : ℤ) ∧
        ((x e : ℕ) : ℤ) + (p : ℤ) * ((y e : ℕ) : ℤ) = ((c : ℕ) : ℤ))) =
        (fun e => decide (r e = i ∧ (x e : ℕ) + p * (y e : ℕ) = (c : ℕ))) := by
      funext e
      apply decide_eq_decide.2
      constructor
      · rintro ⟨h1, h2⟩
        exact ⟨Fin.ext (by exact_mod_cast h1), by exact_mod_cast h2⟩
      · rintro ⟨h1, h2⟩
        exact ⟨by rw [h1], by exact_mod_cast h2⟩
    show List.map v (List.filter (fun e : α => decide (((r e : ℕ) : ℤ) = ((i : ℕ) : ℤ) ∧
        ((x e : ℕ) : ℤ) + (p : ℤ) * ((y e : ℕ) : ℤ) = ((c : ℕ) : ℤ))) l) = _
    rw [this]
  · rw [List.all_eq_true]
    intro e he
    rw [List.mem_map] at he
    obtain ⟨e', _, rfl⟩ := he
    have h1 := col_lt (x e') (y e')
    have h2 := (r e').2
    simp only [decide_eq_true_eq]
    refine ⟨by omega, by omega, ?_, by exact_mod_cast h1⟩
    positivity

theorem mat_cast_ext {m n n' : ℕ} (h : n = n') (A : Matrix (Fin m) (Fin n) K)
    (B : Matrix (Fin m) (Fin n') K) (hAB : ∀ i c, A i c = B i (Fin.cast h c)) :
    (⟨m, n, A⟩ : Mat K) = ⟨m, n', B⟩ := by
  subst h
  congr 1
  funext i c
  exact hAB i c

theorem indCol_ent {n0 n1 n2 : ℕ} (es : List (Ent n0 n1 n2 K)) (c : ℕ) (h : c < 3) :
    indCol (es.map Ent.vec) c = .ok (es.map fun e => Ent.vec e ⟨c, h⟩) := by
  unfold indCol
  rw [dif_pos h, List.map_map]
  rfl

/-- **C53** The sparse unfolding of COO data (repeated coordinates allowed) is the dense unfolding
of the tensor it represents, for every mode. -/
theorem C53_sparse_unfold {n0 n1 n2 : ℕ} (es : List (Ent n0 n1 n2 K)) (m : ℤ)
    (hm : m = 0 ∨ m = 1 ∨ m = 2) :
    unfoldSparse (es.map Ent.vec) (valsOf es) (n0, n1, n2) m =
      unfoldDense ⟨n0, n1, n2, cooTensor es⟩ m := by
  unfold unfoldSparse
  rw [if_neg (by simp [valsOf]), if_neg (by rcases hm with rfl | rfl | rfl <;> decide),
    if_neg (by decide)]
  unfold valsOf
  rcases hm with rfl | rfl | rfl
  · rw [show otherModes 0 = .ok (1, 2) from rfl, except_bind_ok]
    simp only
    rw [show Int.toNat 0 = 0 from rfl, indCol_ent es 0 (by decide), except_bind_ok, indCol_ent es 1 (by decide),
      except_bind_ok, indCol_ent es 2 (by decide), except_bind_ok, zip_map_self, List.map_map, zip_map_self, zip_map_self]
    refine (cooMatrix_spec es (fun e => e.1.1) (fun e => e.1.2.1) (fun e => e.1.2.2)
      (fun e => e.2)).trans ?_
    refine congrArg Except.ok (mat_cast_ext (Nat.mul_comm _ _) _ _ ?_)
    intro i c
    show _ = cooTensor es i (finProdFinEquiv.symm (Fin.cast (Nat.mul_comm _ _) c)).2
      (finProdFinEquiv.symm (Fin.cast (Nat.mul_comm _ _) c)).1
    obtain ⟨⟨k, j⟩, hkj⟩ := finProdFinEquiv.surjective (Fin.cast (Nat.mul_comm n1 n2) c)
    rw [← hkj]
    have hc : (c : ℕ) = j + n1 * k := by
      have := congrArg Fin.val hkj
      simpa using this.symm
    simp only [Matrix.of_apply, Equiv.symm_apply_apply, cooTensor]
    congr 2
    apply List.filter_congr
    intro e _
    apply decide_eq_decide.2
    rw [hc]
    constructor
    · rintro ⟨h1, h2⟩
      obtain ⟨h3, h4⟩ := col_inj _ _ _ _ h2
      obtain ⟨⟨a, b, c⟩, v⟩ := e
      simp_all
    · intro h; rw [h]; exact ⟨rfl, rfl⟩
  · rw [show otherModes 1 = .ok (0, 2) from rfl, except_bind_ok]
    simp only
    rw [show Int.toNat 1 = 1 from rfl, indCol_ent es 1 (by decide), except_bind_ok, indCol_ent es 0 (by decide),
      except_bind_ok, indCol_ent es 2 (by decide), except_bind_ok, zip_map_self, List.map_map, zip_map_self, zip_map_self]
    refine (cooMatrix_spec es (fun e => e.1.2.1) (fun e => e.1.1) (fun e => e.1.2.2)
      (fun e => e.2)).trans ?_
    refine congrArg Except.ok (mat_cast_ext (Nat.mul_comm _ _) _ _ ?_)
    intro i c
    show _ = cooTensor es (finProdFinEquiv.symm (Fin.cast (Nat.mul_comm _ _) c)).2 i
      (finProdFinEquiv.symm (Fin.cast (Nat.mul_comm _ _) c)).1
    obtain ⟨⟨k, j⟩, hkj⟩ := finProdFinEquiv.surjective (Fin.cast (Nat.mul_comm n0 n2) c)
    rw [← hkj]
    have hc : (c : ℕ) = j + n0 * k := by
      have := congrArg Fin.val hkj
      simpa using this.symm
    simp only [Matrix.of_apply, Equiv.symm_apply_apply, cooTensor]
    congr 2
    apply List.filter_congr
    intro e _
    apply decide_eq_decide.2
    rw [hc]
    constructor
    · rintro ⟨h1, h2⟩
      obtain ⟨h3, h4⟩ := col_inj _ _ _ _ h2
      obtain ⟨⟨a, b, c⟩, v⟩ := e
      simp_all
    · intro h; rw [h]; exact ⟨rfl, rfl⟩
  · rw [show otherModes 2 = .ok (0, 1) from rfl, except_bind_ok]
    simp only
    rw [show Int.toNat 2 = 2 from rfl, indCol_ent es 2 (by decide), except_bind_ok, indCol_ent es 0 (by decide),
      except_bind_ok, indCol_ent es 1 (by decide), except_bind_ok, zip_map_self, List.map_map, zip_map_self, zip_map_self]
    refine (cooMatrix_spec es (fun e => e.1.2.2) (fun e => e.1.1) (fun e => e.1.2.1)
      (fun e => e.2)).trans ?_
    refine congrArg Except.ok (mat_cast_ext (Nat.mul_comm _ _) _ _ ?_)
    intro i c
    show _ = cooTensor es (finProdFinEquiv.symm (Fin.cast (Nat.mul_comm _ _) c)).2
      (finProdFinEquiv.symm (Fin.cast (Nat.mul_comm _ _) c)).1 i
    obtain ⟨⟨k, j⟩, hkj⟩ := finProdFinEquiv.surjective (Fin.cast (Nat.mul_comm n0 n1) c)
    rw [← hkj]
    have hc : (c : ℕ) = j + n0 * k := by
      have := congrArg Fin.val hkj
      simpa using this.symm
    simp only [Matrix.of_apply, Equiv.symm_apply_apply, cooTensor]
    congr 2
    apply List.filter_congr
    intro e _
    apply decide_eq_decide.2
    rw [hc]
    constructor
    · rintro ⟨h1, h2⟩
      obtain ⟨h3, h4⟩ := col_inj _ _ _ _ h2
      obtain ⟨⟨a, b, c⟩, v⟩ := e
      simp_all
    · intro h; rw [h]; exact ⟨rfl, rfl⟩

/-- **C53** The documented errors. -/
theorem C53_errors {nCols : ℕ} (inds : List (Fin nCols → ℤ)) (vals : List K) (shape : ℕ × ℕ × ℕ)
    (mode : ℤ) :
    (inds.length ≠ vals.length → unfoldSparse inds vals shape mode = .error .runtimeError) ∧
    (inds.length = vals.length → (mode < 0 ∨ mode ≥ nCols) →
      unfoldSparse inds vals shape mode = .error .runtimeError) ∧
    (inds.length = vals.length → 0 ≤ mode → mode < nCols → 3 < nCols →
      unfoldSparse inds vals shape mode = .error .notImplementedError) ∧
    (inds.length = vals.length → 0 ≤ mode → mode < nCols → nCols < 3 →
      unfoldSparse inds vals shape mode = .error .indexError) := by
  unfold unfoldSparse
  refine ⟨?_, ?_, ?_, ?_⟩
  · intro h; rw [if_pos h]
  · intro h h'
    rw [if_neg (by simp [h]), if_pos (by omega)]
  · intro h h1 h2 h3
    rw [if_neg (by simp [h]), if_neg (by omega), if_pos h3]
  · intro h h1 h2 h3
    rw [if_neg (by simp [h]), if_neg (by omega), if_neg (by omega)]
    have hcol (c : ℕ) (hc : c < nCols) : indCol inds c = .ok (inds.map fun r => r ⟨c, hc⟩) := dif_pos hc
    have h4 : indCol inds 2 = .error .indexError := dif_neg (by omega)
    obtain rfl | rfl : mode = 0 ∨ mode = 1 := by omega
    · rw [show otherModes 0 = .ok (1, 2) from rfl, except_bind_ok]
      simp only
      rw [show Int.toNat 0 = 0 from rfl, hcol 0 (by omega), except_bind_ok]
      by_cases h5 : 1 < nCols
      · rw [hcol 1 h5, except_bind_ok, h4]
        rfl
      · rw [show indCol inds 1 = .error .indexError from dif_neg h5]
        rfl
    · rw [show otherModes 1 = .ok (0, 2) from rfl, except_bind_ok]
      simp only
      rw [show Int.toNat 1 = 1 from rfl, hcol 1 (by omega), except_bind_ok, hcol 0 (by omega), except_bind_ok, h4]
      rfl

/-! ### C54 core construction -/

/-- **C54** The sequential and the parallel core construction return the multilinear product of the
tensor represented by the COO data with the three factors. -/
theorem C54_construct_core {n0 n1 n2 r0 r1 r2 : ℕ} (es : List (Ent n0 n1 n2 K))
    (U1 : Matrix (Fin n0) (Fin r0) K) (U2 : Matrix (Fin n1) (Fin r1) K)
    (U3 : Matrix (Fin n2) (Fin r2) K) :
    constructCore (indsOf es) (valsOf es) ⟨_, _, U1⟩ ⟨_, _, U2⟩ ⟨_, _, U3⟩ =
      .ok ⟨r0, r1, r2, coreTensor (cooTensor es) U1 U2 U3⟩ ∧
    constructCoreParallel (indsOf es) (valsOf es) ⟨_, _, U1⟩ ⟨_, _, U2⟩ ⟨_, _, U3⟩ =
      .ok ⟨r0, r1, r2, coreTensor (cooTensor es) U1 U2 U3⟩ ∧
    constructCoreDense ⟨_, _, _, cooTensor es⟩ ⟨_, _, U1⟩ ⟨_, _, U2⟩ ⟨_, _, U3⟩ =
      .ok ⟨r0, r1, r2, coreTensor (cooTensor es) U1 U2 U3⟩ :=
  ⟨constructCore_typed es U1 U2 U3, constructCoreParallel_typed es U1 U2 U3,
    constructCoreDense_typed _ U1 U2 U3⟩

/-- **C54** The order of the entries does not matter. -/
theorem C54_order_independent {n0 n1 n2 r0 r1 r2 : ℕ} (es es' : List (Ent n0 n1 n2 K))
    (hp : es.Perm es') (U1 : Matrix (Fin n0) (Fin r0) K) (U2 : Matrix (Fin n1) (Fin r1) K)
    (U3 : Matrix (Fin n2) (Fin r2) K) :
    constructCore (indsOf es) (valsOf es) ⟨_, _, U1⟩ ⟨_, _, U2⟩ ⟨_, _, U3⟩ =
      constructCore (indsOf es') (valsOf es') ⟨_, _, U1⟩ ⟨_, _, U2⟩ ⟨_, _, U3⟩ := by
  rw [constructCore_typed, constructCore_typed, cooTensor_perm hp]

/-- **C54** Every completed interleaved execution of the parallel loop, for any number of threads,
any distribution of the iterations and any schedule of the individual memory reads and writes, ends
with the same core. -/
theorem C54_any_schedule {ι : Type} [DecidableEq ι] {n0 n1 n2 r1 r2 r3 : ℕ}
    (es : List (Ent n0 n1 n2 K)) (U1 : Matrix (Fin n0) (Fin r1) K) (U2 : Matrix (Fin n1) (Fin r2) K)
    (U3 : Matrix (Fin n2) (Fin r3) K) (asg : ι → List (Fin r1)) (hasg : IsAssignment asg)
    (reg0 : ι → K) (sched : List ι)
    (hfin : ∀ t, (((parallelStart es U1 U2 U3 asg reg0).exec sched).th t).todo = []) :
    ∀ i j k, ((parallelStart es U1 U2 U3 asg reg0).exec sched).mem (i, j, k) =
      coreTensor (cooTensor es) U1 U2 U3 i j k :=
  parallel_result es U1 U2 U3 asg hasg reg0 sched hfin

/-! ### C55 tensor-matrix products -/

/-- **C55** `tensordot2` for each ordered pair of modes. -/
theorem C55_tensordot2 {n0 n1 n2 p q : ℕ} (es : List (Ent n0 n1 n2 K)) :
    (∀ (U : Matrix (Fin n1) (Fin p) K) (V : Matrix (Fin n2) (Fin q) K),
      tensordot2 (indsOf es) (valsOf es) [n0, n1, n2] ⟨_, _, U⟩ ⟨_, _, V⟩ (1, 2) =
        .ok ⟨n0, p, q, fun x a b => ∑ j, ∑ k, cooTensor es x j k * (U j a * V k b)⟩ ∧
      tensordot2 (indsOf es) (valsOf es) [n0, n1, n2] ⟨_, _, V⟩ ⟨_, _, U⟩ (2, 1) =
        .ok ⟨n0, q, p, fun x b a => ∑ j, ∑ k, cooTensor es x j k * (V k b * U j a)⟩) ∧
    (∀ (U : Matrix (Fin n0) (Fin p) K) (V : Matrix (Fin n2) (Fin q) K),
      tensordot2 (indsOf es) (valsOf es) [n0, n1, n2] ⟨_, _, U⟩ ⟨_, _, V⟩ (0, 2) =
        .ok ⟨n1, p, q, fun x a b => ∑ i, ∑ k, cooTensor es i x k * (U i a * V k b)⟩ ∧
      tensordot2 (indsOf es) (valsOf es) [n0, n1, n2] ⟨_, _, V⟩ ⟨_, _, U⟩ (2, 0) =
        .ok ⟨n1, q, p, fun x b a => ∑ i, ∑ k, cooTensor es i x k * (V k b * U i a)⟩) ∧
    (∀ (U : Matrix (Fin n0) (Fin p) K) (V : Matrix (Fin n1) (Fin q) K),
      tensordot2 (indsOf es) (valsOf es) [n0, n1, n2] ⟨_, _, U⟩ ⟨_, _, V⟩ (0, 1) =
        .ok ⟨n2, p, q, fun x a b => ∑ i, ∑ j, cooTensor es i j x * (U i a * V j b)⟩ ∧
      tensordot2 (indsOf es) (valsOf es) [n0, n1, n2] ⟨_, _, V⟩ ⟨_, _, U⟩ (1, 0) =
        .ok ⟨n2, q, p, fun x b a => ∑ i, ∑ j, cooTensor es i j x * (V j b * U i a)⟩) := by
  refine ⟨fun U V => ⟨?_, ?_⟩, fun U V => ⟨?_, ?_⟩, fun U V => ⟨?_, ?_⟩⟩
  · refine (tensordot2_ok es _ _ _ _ (le_refl 3) (by decide) (by decide) (by decide) rfl _
      (doubleTensordot_gen es _ U V _ _ _ (fun e => e.1.1) (fun e => e.1.2.1) (fun e => e.1.2.2)
        (fun _ _ => rfl) (fun _ _ => rfl) (fun _ _ => rfl) _)).trans ?_
    congr 2
    refine (dt_sum es (fun i _ _ => i) (fun _ j _ => U j) (fun _ _ k => V k)).trans ?_
    funext x a b
    exact ite_sum_fst _ x (fun j k => U j a * V k b)
  · refine (tensordot2_ok es _ _ _ _ (le_refl 3) (by decide) (by decide) (by decide) rfl _
      (doubleTensordot_gen es _ V U _ _ _ (fun e => e.1.1) (fun e => e.1.2.2) (fun e => e.1.2.1)
        (fun _ _ => rfl) (fun _ _ => rfl) (fun _ _ => rfl) _)).trans ?_
    congr 2
    refine (dt_sum es (fun i _ _ => i) (fun _ _ k => V k) (fun _ j _ => U j)).trans ?_
    funext x b a
    exact ite_sum_fst _ x (fun j k => V k b * U j a)
  · refine (tensordot2_ok es _ _ _ _ (le_refl 3) (by decide) (by decide) (by decide) rfl _
      (doubleTensordot_gen es _ U V _ _ _ (fun e => e.1.2.1) (fun e => e.1.1) (fun e => e.1.2.2)
        (fun _ _ => rfl) (fun _ _ => rfl) (fun _ _ => rfl) _)).trans ?_
    congr 2
    refine (dt_sum es (fun _ j _ => j) (fun i _ _ => U i) (fun _ _ k => V k)).trans ?_
    funext x a b
    exact ite_sum_snd _ x (fun i k => U i a * V k b)
  · refine (tensordot2_ok es _ _ _ _ (le_refl 3) (by decide) (by decide) (by decide) rfl _
      (doubleTensordot_gen es _ V U _ _ _ (fun e => e.1.2.1) (fun e => e.1.2.2) (fun e => e.1.1)
        (fun _ _ => rfl) (fun _ _ => rfl) (fun _ _ => rfl) _)).trans ?_
    congr 2
    refine (dt_sum es (fun _ j _ => j) (fun _ _ k => V k) (fun i _ _ => U i)).trans ?_
    funext x b a
    exact ite_sum_snd _ x (fun i k => V k b * U i a)
  · refine (tensordot2_ok es _ _ _ _ (le_refl 3) (by decide) (by decide) (by decide) rfl _
      (doubleTensordot_gen es _ U V _ _ _ (fun e => e.1.2.2) (fun e => e.1.1) (fun e => e.1.2.1)
        (fun _ _ => rfl) (fun _ _ => rfl) (fun _ _ => rfl) _)).trans ?_
    congr 2
    refine (dt_sum es (fun _ _ k => k) (fun i _ _ => U i) (fun _ j _ => V j)).trans ?_
    funext x a b
    exact ite_sum_trd _ x (fun i j => U i a * V j b)
  · refine (tensordot2_ok es _ _ _ _ (le_refl 3) (by decide) (by decide) (by decide) rfl _
      (doubleTensordot_gen es _ V U _ _ _ (fun e => e.1.2.2) (fun e => e.1.2.1) (fun e => e.1.1)
        (fun _ _ => rfl) (fun _ _ => rfl) (fun _ _ => rfl) _)).trans ?_
    congr 2
    refine (dt_sum es (fun _ _ k => k) (fun _ j _ => V j) (fun i _ _ => U i)).trans ?_
    funext x b a
    exact ite_sum_trd _ x (fun i j => V j b * U i a)

/-- **C55** `tensordot` for each mode. -/
theorem C55_tensordot {n0 n1 n2 r : ℕ} (es : List (Ent n0 n1 n2 K)) :
    (∀ U : Matrix (Fin r) (Fin n0) K, tensordot (indsOf es) (valsOf es) (n0, n1, n2) ⟨_, _, U⟩ 0 =
      .ok ⟨r, n1, n2, fun a j k => ∑ i, cooTensor es i j k * U a i⟩) ∧
    (∀ U : Matrix (Fin r) (Fin n1) K, tensordot (indsOf es) (valsOf es) (n0, n1, n2) ⟨_, _, U⟩ 1 =
      .ok ⟨n0, r, n2, fun i a k => ∑ j, cooTensor es i j k * U a j⟩) ∧
    (∀ U : Matrix (Fin r) (Fin n2) K, tensordot (indsOf es) (valsOf es) (n0, n1, n2) ⟨_, _, U⟩ 2 =
      .ok ⟨n0, n1, r, fun i j a => ∑ k, cooTensor es i j k * U a k⟩) :=
  ⟨tensordot_mode0 es, tensordot_mode1 es, tensordot_mode2 es⟩

/-- **C55** rejected arguments of `tensordot2`, for all data -/
theorem C55_errors (inds : List Ind3) (vals : List K) (shape : List ℕ) (u v : Mat K) (m1 m2 : ℤ) :
    (3 < shape.length → tensordot2 inds vals shape u v (m1, m2) = .error .notImplementedError) ∧
    (shape.length ≤ 3 → (m1 < 0 ∨ 2 < m1 ∨ m2 < 0 ∨ 2 < m2 ∨ m1 = m2) →
      tensordot2 inds vals shape u v (m1, m2) = .error .runtimeError) := by
  unfold tensordot2
  constructor
  · intro h; rw [if_pos h]
  · intro h h'
    rw [if_neg (by omega)]
    by_cases h1 : m1 = 0 ∨ m1 = 1 ∨ m1 = 2
    · rw [if_neg (not_not.2 h1)]
      by_cases h2 : m2 = 0 ∨ m2 = 1 ∨ m2 = 2
      · rw [if_neg (not_not.2 h2), if_pos (by simp only; omega)]
      · rw [if_pos h2]
    · rw [if_pos h1]

end
end DynCF
