/-
C172: what one step of the Tucker integrator loses, and how far the models of `TIRec` and `TIRecA` are from the tensor of the
windows after any number of updates with known users and items.
-/
import Verif.Props.TuckerError
import Verif.Props.TIFull
import Verif.Props.PsiError

set_option linter.unusedSectionVars false

namespace DynCF
open Matrix

/-! ### One mode -/

/-- The projection to a space that contains the columns of `X Gᵀ` is at least as good as every matrix whose rows are
combinations of the rows of `G`. -/
theorem proj_best {n r s M : ℕ} {U1 : Matrix (Fin n) (Fin r) ℝ} (hU : U1.transpose * U1 = 1)
    (X : Matrix (Fin n) (Fin M) ℝ) (G : Matrix (Fin s) (Fin M) ℝ)
    (h : U1 * U1.transpose * (X * G.transpose) = X * G.transpose) (Y : Matrix (Fin n) (Fin s) ℝ) :
    sqSum X - sqSum (U1.transpose * X) ≤ sqSum (X - Y * G) := by
  have h0 : sqSum (0 : Matrix (Fin r) (Fin M) ℝ) = 0 := by simp [sqSum]
  have e1 : sqSum X - sqSum (U1.transpose * X) = sqSum (X - U1 * (U1.transpose * X)) := by
    rw [sqSum_proj hU, sub_self, h0, add_zero]
  -- the residual is orthogonal to the range of `U1` and to the rows of `G`
  have h1 : U1.transpose * (X - U1 * (U1.transpose * X)) = 0 := by
    rw [Matrix.mul_sub, ← Matrix.mul_assoc U1.transpose, hU, Matrix.one_mul, sub_self]
  have h2 : (X - U1 * (U1.transpose * X)) * G.transpose = 0 := by
    rw [Matrix.sub_mul, ← Matrix.mul_assoc U1, Matrix.mul_assoc (U1 * U1.transpose), h, sub_self]
  have e2 : X - Y * G = (X - U1 * (U1.transpose * X)) - (Y * G - U1 * (U1.transpose * X)) := by abel
  have e3 : ((X - U1 * (U1.transpose * X)).transpose * (Y * G - U1 * (U1.transpose * X))).trace = 0 := by
    rw [Matrix.mul_sub, Matrix.trace_sub, ← Matrix.mul_assoc _ Y, Matrix.trace_mul_comm _ G, ← Matrix.mul_assoc G,
      ← Matrix.mul_assoc _ U1]
    have a1 : G * (X - U1 * (U1.transpose * X)).transpose = 0 := by
      rw [← Matrix.transpose_transpose G, ← Matrix.transpose_mul, h2, Matrix.transpose_zero]
    have a2 : (X - U1 * (U1.transpose * X)).transpose * U1 = 0 := by
      rw [← Matrix.transpose_transpose U1, ← Matrix.transpose_mul, Matrix.transpose_transpose, h1, Matrix.transpose_zero]
    rw [a1, a2, Matrix.zero_mul, Matrix.zero_mul, Matrix.trace_zero, Matrix.trace_zero, sub_zero]
  rw [← Matrix.trace_transpose, Matrix.transpose_mul, Matrix.transpose_transpose] at e3
  rw [e1, e2, sqSum_sub (X - U1 * (U1.transpose * X)), e3]
  have := sqSum_nonneg (Y * G - U1 * (U1.transpose * X))
  linarith

section
variable {n0 n1 n2 r0 r1 r2 : ℕ}

theorem tenSq_contract0 {q : ℕ} {Q : Matrix (Fin n0) (Fin q) ℝ} (hQ : Q.transpose * Q = 1) (t : T3 n0 n1 n2 ℝ) :
    tenSq (mul0 Q.transpose t) ≤ tenSq t := by
  have := tenSq_res0 hQ t
  have := tenSq_nonneg (t - mul0 Q (mul0 Q.transpose t))
  linarith

theorem mul0_sub {a : ℕ} (A : Matrix (Fin a) (Fin n0) ℝ) (s t : T3 n0 n1 n2 ℝ) :
    mul0 A (s - t) = mul0 A s - mul0 A t := by
  funext i j k
  simp only [mul0, Pi.sub_apply, mul_sub, Finset.sum_sub_distrib]

theorem unf_sub (s t : T3 n0 n1 n2 ℝ) : unf (s - t) = unf s - unf t := rfl

/-! ### One step -/

/-- **C172** (one step). With a correct QR routine, orthonormal old item and position factors, at most 10000 entries (or a
multiple of 10000) and an attention matrix that leaves `A W` unchanged (in particular without attention): the squared
distance between the updated model and the old model plus the increment is at most the sum of three squared distances, in
each of which only one old factor is replaced, by any matrix. -/
theorem C172_step (la : LinAlg ℝ) (hqr : QrAlways la) (es : List (Ent n0 n1 n2 ℝ))
    (hes : es ≠ []) (hlen : es.length ≤ 10000 ∨ 10000 ∣ es.length)
    (att : Option (Matrix (Fin n2) (Fin n2) ℝ)) (hd : TIDims n0 n1 n2 r0 r1 r2)
    (U : Matrix (Fin n0) (Fin r0) ℝ) (V : Matrix (Fin n1) (Fin r1) ℝ) (W : Matrix (Fin n2) (Fin r2) ℝ)
    (hV : V.transpose * V = 1) (hW : W.transpose * W = 1)
    (hA : attVal att * (attVal att * W) = attVal att * W)
    (c : T3 r0 r1 r2 ℝ) (par : Bool) (A1 : T3 n0 n1 n2 ℝ)
    (hA1 : ∀ i j k, A1 i j k = tuckerTensor U V W c i j k + ∑ l, attVal att l k * cooTensor es i j l) :
    ∃ (U1 : Matrix (Fin n0) (Fin r0) ℝ) (V1 : Matrix (Fin n1) (Fin r1) ℝ) (W1 : Matrix (Fin n2) (Fin r2) ℝ)
      (c1 : T3 r0 r1 r2 ℝ),
      tuckerIntegrator la ⟨⟨_, _, U⟩, ⟨_, _, V⟩, ⟨_, _, W⟩⟩ ⟨_, _, _, c⟩ (indsOf es) (valsOf es)
        (n0, n1, n2) par (attArg att) =
        .ok (⟨⟨_, _, U1⟩, ⟨_, _, V1⟩, ⟨_, _, W1⟩⟩, ⟨_, _, _, c1⟩) ∧
      U1.transpose * U1 = 1 ∧ V1.transpose * V1 = 1 ∧ W1.transpose * W1 = 1 ∧
      ∀ (X : Matrix (Fin n0) (Fin r0) ℝ) (Y : Matrix (Fin n1) (Fin r1) ℝ) (Z : Matrix (Fin n2) (Fin r2) ℝ),
        tenSq (A1 - tuckerTensor U1 V1 W1 c1) ≤ tenSq (A1 - tuckerTensor X V W c) +
          tenSq (A1 - tuckerTensor U Y W c) + tenSq (A1 - tuckerTensor U V Z c) := by
  obtain ⟨U1, V1, W1, h, m0, m1, m2⟩ := tuckerIntegrator_run la hqr es hes att hd U V W c par
  have hA1' : A1 = mul0 U (mul1 V (mul2 W c)) + mul2 (attVal att).transpose (cooTensor es) := by
    rw [← tuckerTensor_eq]; funext i j k; exact hA1 i j k
  have hu : usedEntries es = es := used_all es hlen
  rw [hu] at m0 m1 m2
  have hcore : mul2 (W1.transpose * W) (mul1 (V1.transpose * V) (mul0 (U1.transpose * U) c)) +
      coreTensor (cooTensor es) U1 V1 (attVal att * W1) = coreTensor A1 U1 V1 W1 := by
    rw [hA1', coreTensor_eq, coreTensor_eq, mul2_add, mul1_add, mul0_add, mul2_mul2, Matrix.transpose_mul]
    congr 1
    rw [← mul02_comm U, ← mul12_comm V, mul2_mul2, ← mul01_comm U, mul1_mul1, mul0_mul0, mul12_comm, mul02_comm,
      mul01_comm]
  rw [hcore] at h
  refine ⟨U1, V1, W1, _, h, m0.orth, m1.orth, m2.orth, fun X Y Z => ?_⟩
  rw [tenSq_tucker_core A1 m0.orth m1.orth m2.orth, coreTensor_eq]
  generalize attVal att = a at *
  generalize cooTensor es = x at *
  -- user step
  have p0 : tenSq A1 - tenSq (mul0 U1.transpose A1) ≤ tenSq (A1 - tuckerTensor X V W c) := by
    have key := m0.capture (unf (mul1 V.transpose (mul2 W.transpose A1)))
      (unf (mul1 V.transpose (mul2 (a * W).transpose x))) (fun Q => projUnfold_eq _ _ _ _) (by
        rw [← unf_mul0, ← unf_add, hA1', mul2_add, mul1_add, ← mul02_comm U, ← mul12_comm V, mul2_mul2,
          hW, mul2_one, ← mul01_comm U, mul1_mul1, hV, mul1_one, mul2_mul2, Matrix.transpose_mul])
      _ 1 (Matrix.mul_one _).symm
    rw [unf_mul1_adj, unf_mul2_adj, ← mul12_comm V] at key
    have := proj_best m0.orth (unf A1) _ key X
    rw [← unf_mul0, ← unf_mul0, ← tuckerTensor_eq, ← unf_sub, ← tenSq_unf, ← tenSq_unf, ← tenSq_unf] at this
    exact this
  -- item step
  have p1 : tenSq (mul0 U1.transpose A1) - tenSq (mul1 V1.transpose (mul0 U1.transpose A1)) ≤
      tenSq (A1 - tuckerTensor U Y W c) := by
    have key := m1.capture (unf (mul1 U1.transpose (mul2 W.transpose (front1 A1))))
      (unf (mul1 U1.transpose (mul2 (a * W).transpose (front1 x))))
      (fun Q => by rw [hA]; exact projUnfold_eq _ _ _ _) (by
        rw [← unf_mul0, ← unf_add, hA1', ← front1_mul2, ← front1_mul0, ← front1_mul2, ← front1_mul0,
          ← front1_mul1, ← front1_add, mul2_add, mul0_add, ← mul02_comm U, ← mul12_comm V, mul2_mul2,
          hW, mul2_one, mul0_mul0, mul2_mul2, Matrix.transpose_mul, mul01_comm])
      _ 1 (Matrix.mul_one _).symm
    rw [← front1_mul2, ← front1_mul0, mul02_comm, front1_mul2, unf_mul2_adj, ← front1_mul2] at key
    have := proj_best m1.orth _ _ key Y
    rw [← unf_mul0, ← unf_mul0, ← front1_mul1, ← front1_mul1, ← unf_sub, ← tenSq_unf, ← tenSq_unf, ← tenSq_unf,
      tenSq_front1, tenSq_front1] at this
    refine this.trans ?_
    have e : front1 (mul0 U1.transpose A1) - front1 (mul1 Y (mul2 W (mul0 (U1.transpose * U) c))) =
        front1 (mul0 U1.transpose (A1 - tuckerTensor U Y W c)) := by
      rw [mul0_sub, tuckerTensor_eq, mul0_mul0, mul01_comm, mul02_comm]
      rfl
    rw [e, tenSq_front1]
    exact tenSq_contract0 m0.orth _
  -- position step
  have p2 : tenSq (mul1 V1.transpose (mul0 U1.transpose A1)) -
      tenSq (mul2 W1.transpose (mul1 V1.transpose (mul0 U1.transpose A1))) ≤ tenSq (A1 - tuckerTensor U V Z c) := by
    have key := m2.capture (unf (mul1 U1.transpose (mul2 V1.transpose (front2 A1))))
      (unf (mul0 a.transpose (mul1 U1.transpose (mul2 V1.transpose (front2 x)))))
      (fun Q => by rw [unf_mul0, Matrix.mul_assoc, ← projUnfold_eq]) (by
        rw [← unf_mul0, ← unf_add, hA1', ← front2_mul1, ← front2_mul0, ← front2_mul1, ← front2_mul0,
          ← front2_mul2, ← front2_mul2, ← front2_add, mul1_add, mul0_add, ← mul01_comm U, mul1_mul1,
          mul0_mul0, mul12_comm V1.transpose, mul02_comm U1.transpose, mul12_comm (V1.transpose * V),
          mul02_comm (U1.transpose * U), mul01_comm])
      _ 1 (Matrix.mul_one _).symm
    rw [← front2_mul1, ← front2_mul0, mul01_comm] at key
    have := proj_best m2.orth _ _ key Z
    rw [← unf_mul0, ← unf_mul0, ← front2_mul2, ← front2_mul2, ← unf_sub, ← tenSq_unf, ← tenSq_unf, ← tenSq_unf,
      tenSq_front2, tenSq_front2] at this
    refine this.trans ?_
    have e : front2 (mul1 V1.transpose (mul0 U1.transpose A1)) -
        front2 (mul2 Z (mul1 (V1.transpose * V) (mul0 (U1.transpose * U) c))) =
        front2 (mul1 V1.transpose (mul0 U1.transpose (A1 - tuckerTensor U V Z c))) := by
      rw [mul0_sub, mul1_sub, tuckerTensor_eq, mul0_mul0, mul01_comm (U1.transpose * U) V, mul1_mul1,
        mul02_comm (U1.transpose * U) Z, mul12_comm]
      rfl
    rw [e, tenSq_front2]
    exact (tenSq_contract1 m1.orth _).trans (tenSq_contract0 m0.orth _)
  have e : mul0 U1.transpose (mul1 V1.transpose (mul2 W1.transpose A1)) =
      mul2 W1.transpose (mul1 V1.transpose (mul0 U1.transpose A1)) := by
    rw [mul12_comm, mul02_comm, mul01_comm]
  rw [e]
  linarith

/-- **C172** (one step, simple form). Under the same conditions the squared distance is at most three times the sum of the
squares of the increment. -/
theorem C172_increment (la : LinAlg ℝ) (hqr : QrAlways la) (es : List (Ent n0 n1 n2 ℝ))
    (hes : es ≠ []) (hlen : es.length ≤ 10000 ∨ 10000 ∣ es.length)
    (att : Option (Matrix (Fin n2) (Fin n2) ℝ)) (hd : TIDims n0 n1 n2 r0 r1 r2)
    (U : Matrix (Fin n0) (Fin r0) ℝ) (V : Matrix (Fin n1) (Fin r1) ℝ) (W : Matrix (Fin n2) (Fin r2) ℝ)
    (hV : V.transpose * V = 1) (hW : W.transpose * W = 1)
    (hA : attVal att * (attVal att * W) = attVal att * W)
    (c : T3 r0 r1 r2 ℝ) (par : Bool) (D : T3 n0 n1 n2 ℝ)
    (hD : ∀ i j k, D i j k = ∑ l, attVal att l k * cooTensor es i j l) :
    ∃ (U1 : Matrix (Fin n0) (Fin r0) ℝ) (V1 : Matrix (Fin n1) (Fin r1) ℝ) (W1 : Matrix (Fin n2) (Fin r2) ℝ)
      (c1 : T3 r0 r1 r2 ℝ),
      tuckerIntegrator la ⟨⟨_, _, U⟩, ⟨_, _, V⟩, ⟨_, _, W⟩⟩ ⟨_, _, _, c⟩ (indsOf es) (valsOf es)
        (n0, n1, n2) par (attArg att) =
        .ok (⟨⟨_, _, U1⟩, ⟨_, _, V1⟩, ⟨_, _, W1⟩⟩, ⟨_, _, _, c1⟩) ∧
      V1.transpose * V1 = 1 ∧ W1.transpose * W1 = 1 ∧
      (∑ i, ∑ j, ∑ k, (tuckerTensor U V W c i j k + D i j k - tuckerTensor U1 V1 W1 c1 i j k) ^ 2) ≤
        3 * ∑ i, ∑ j, ∑ k, D i j k ^ 2 := by
  obtain ⟨U1, V1, W1, c1, e, -, o1, o2, h⟩ := C172_step la hqr es hes hlen att hd U V W hV hW hA c par
    (tuckerTensor U V W c + D) fun i j k => by rw [← hD]; rfl
  refine ⟨U1, V1, W1, c1, e, o1, o2, ?_⟩
  have := h U V W
  rw [add_sub_cancel_left] at this
  have e1 : 3 * tenSq D = tenSq D + tenSq D + tenSq D := by ring
  exact this.trans_eq e1.symm

/-- A 2 × 3 × 2 model of rank (1, 2, 2) gets the value 4 for a user it knows nothing about (the old model has a zero row for
that user): the squared loss is at most 44. Replacing the users' factor by (1, 1) leaves 12, and the old items' and positions'
factors leave 16 each. -/
example : ∃ (U1 : Matrix (Fin 2) (Fin 1) ℝ) (V1 : Matrix (Fin 3) (Fin 2) ℝ) (W1 : Matrix (Fin 2) (Fin 2) ℝ)
    (c1 : T3 1 2 2 ℝ),
    tuckerIntegrator realLA ⟨⟨2, 1, !![1; 0]⟩, ⟨3, 2, !![1, 0; 0, 1; 0, 0]⟩, ⟨2, 2, !![1, 0; 0, 1]⟩⟩
      ⟨1, 2, 2, fun _ _ _ => 1⟩ [(1, 0, 0)] [4] (2, 3, 2) true none =
      .ok (⟨⟨_, _, U1⟩, ⟨_, _, V1⟩, ⟨_, _, W1⟩⟩, ⟨1, 2, 2, c1⟩) ∧
    tenSq ((fun i j k => if i = 0 then (if j = 2 then 0 else 1) else if j = 0 ∧ k = 0 then 4 else 0 : T3 2 3 2 ℝ) -
      tuckerTensor U1 V1 W1 c1) ≤ 44 := by
  obtain ⟨U1, V1, W1, c1, h, -, -, -, e⟩ := C172_step realLA qrAlways_real
    [(((1, 0, 0), 4) : Ent 2 3 2 ℝ)] (by simp) (Or.inl (by decide)) none
    ⟨by decide, by decide, by decide, by decide, by decide, by decide⟩ (!![1; 0] : Matrix (Fin 2) (Fin 1) ℝ)
    (!![1, 0; 0, 1; 0, 0] : Matrix (Fin 3) (Fin 2) ℝ) (!![1, 0; 0, 1] : Matrix (Fin 2) (Fin 2) ℝ)
    (by ext i j; fin_cases i <;> fin_cases j <;> simp [Matrix.mul_apply, Fin.sum_univ_succ])
    (by ext i j; fin_cases i <;> fin_cases j <;> simp [Matrix.mul_apply, Fin.sum_univ_succ])
    (by simp [attVal]) (fun _ _ _ => 1) true
    (fun i j k => if i = 0 then (if j = 2 then 0 else 1) else if j = 0 ∧ k = 0 then 4 else 0) (by
      intro i j k
      fin_cases i <;> fin_cases j <;> fin_cases k <;>
        simp [tuckerTensor, cooTensor, attVal, Fin.sum_univ_succ])
  refine ⟨U1, V1, W1, c1, h, (e (!![1; 1] : Matrix (Fin 2) (Fin 1) ℝ) (!![1, 0; 0, 1; 0, 0] : Matrix (Fin 3) (Fin 2) ℝ)
    (!![1, 0; 0, 1] : Matrix (Fin 2) (Fin 2) ℝ)).trans (le_of_eq ?_)⟩
  simp [tenSq, tuckerTensor, Fin.sum_univ_succ]
  norm_num

end

/-! ### The tensors of the windows -/

/-- the norm of a tensor: the square root of the sum of the squares of its entries -/
noncomputable def tfro {n0 n1 n2 : ℕ} (t : T3 n0 n1 n2 ℝ) : ℝ := Real.sqrt (∑ i, ∑ j, ∑ k, t i j k ^ 2)

/-- the number of different users of a chunk -/
def userCount (c : List (Row ℝ)) : ℕ := (c.map Row.user).dedup.length

section
variable {n0 n1 n2 : ℕ}

theorem tfro_unf (t : T3 n0 n1 n2 ℝ) : tfro t = fro (unf t) := by
  rw [fro_sqSum, ← tenSq_unf]
  rfl

theorem tfro_add_le (s t : T3 n0 n1 n2 ℝ) : tfro (s + t) ≤ tfro s + tfro t := by
  rw [tfro_unf, tfro_unf, tfro_unf, unf_add]
  exact fro_add_le _ _

theorem window_cases (L : ℕ) (users items : List ℤ) (rows : List (Row ℝ)) (i : Fin users.length)
    (j : Fin items.length) (p : Fin L) :
    windowTensor (K := ℝ) L users items rows i j p = 0 ∨ windowTensor (K := ℝ) L users items rows i j p = 1 := by
  unfold windowTensor
  split
  · exact Or.inr rfl
  · exact Or.inl rfl

theorem tenSq_differing (L : ℕ) (users items : List ℤ) (rows rows' : List (Row ℝ)) :
    tenSq (windowTensor L users items rows' - windowTensor L users items rows) =
      (differing (windowTensor (K := ℝ) L users items rows') (windowTensor L users items rows) : ℝ) := by
  unfold tenSq differing
  rw [Finset.card_filter, Nat.cast_sum, Fintype.sum_prod_type]
  refine Finset.sum_congr rfl fun i _ => ?_
  rw [Fintype.sum_prod_type]
  refine Finset.sum_congr rfl fun j _ => Finset.sum_congr rfl fun p _ => ?_
  simp only [Pi.sub_apply]
  rcases window_cases L users items rows i j p with h | h <;> rcases window_cases L users items rows' i j p with h' | h' <;>
    simp [h, h']

theorem window_one {L : ℕ} {users items : List ℤ} {rows : List (Row ℝ)} {i : Fin users.length}
    {j : Fin items.length} {p : Fin L} (h : windowTensor (K := ℝ) L users items rows i j p = 1) :
    (places L rows users[i])[(p : ℕ)]? = some (some items[j]) := by
  unfold windowTensor at h
  by_contra hc
  rw [if_neg hc] at h
  exact zero_ne_one h

/-- A chunk changes at most two entries for every place of every user of the chunk. -/
theorem differing_le {L : ℕ} {users items : List ℤ} (hu : users.Nodup) (hi : items.Nodup) (rows new : List (Row ℝ)) :
    differing (windowTensor (K := ℝ) L users items (rows ++ new)) (windowTensor L users items rows) ≤
      2 * L * userCount new := by
  unfold differing
  have hcard : ((new.map Row.user).toFinset ×ˢ ((Finset.univ : Finset (Fin L)) ×ˢ (Finset.univ : Finset Bool))).card =
      2 * L * userCount new := by
    rw [Finset.card_product, Finset.card_product, Finset.card_univ, Finset.card_univ, Fintype.card_fin, Fintype.card_bool,
      List.card_toFinset]
    unfold userCount
    ring
  rw [← hcard]
  refine Finset.card_le_card_of_injOn
    (fun x => (users[x.1], x.2.2, decide (windowTensor (K := ℝ) L users items rows x.1 x.2.1 x.2.2 = 1))) ?_ ?_
  · rintro ⟨i, j, p⟩ hx
    have hx := (Finset.mem_filter.1 hx).2
    simp only [Finset.coe_product, Set.mem_prod, Finset.mem_coe, Finset.mem_univ, and_true, List.mem_toFinset]
    by_contra hn
    apply hx
    have : rowsOf users[i] new = [] := by
      unfold rowsOf
      rw [List.filter_eq_nil_iff]
      intro r hr he
      exact hn (List.mem_map.2 ⟨r, hr, of_decide_eq_true he⟩)
    have h2 : lastItems L (rows ++ new) users[i] = lastItems L rows users[i] := by
      unfold lastItems
      rw [show rowsOf users[i] (rows ++ new) = rowsOf users[i] rows ++ rowsOf users[i] new from List.filter_append _ _,
        this, List.append_nil]
    show windowTensor (K := ℝ) L users items (rows ++ new) i j p = windowTensor L users items rows i j p
    unfold windowTensor places
    rw [h2]
  · rintro ⟨i, j, p⟩ hx ⟨i', j', p'⟩ hx' he
    simp only [Prod.mk.injEq] at he
    obtain ⟨e1, rfl, e3⟩ := he
    have hii : i = i' := Fin.ext ((List.Nodup.getElem_inj_iff hu).1 e1)
    subst hii
    have hx := (Finset.mem_filter.1 hx).2
    have hx' := (Finset.mem_filter.1 hx').2
    dsimp only at hx hx' e3
    have fin : ∀ {rs : List (Row ℝ)}, windowTensor (K := ℝ) L users items rs i j p = 1 →
        windowTensor (K := ℝ) L users items rs i j' p = 1 → j = j' := fun h h' => by
      have := Option.some.inj (Option.some.inj ((window_one h).symm.trans (window_one h')))
      exact Fin.ext ((List.Nodup.getElem_inj_iff hi).1 this)
    have hjj : j = j' := by
      rw [decide_eq_decide] at e3
      rcases window_cases L users items rows i j p with h | h
      · rcases window_cases L users items rows i j' p with h' | h'
        · have k : windowTensor (K := ℝ) L users items (rows ++ new) i j p = 1 :=
            (window_cases L users items (rows ++ new) i j p).resolve_left fun h0 => hx (h0.trans h.symm)
          have k' : windowTensor (K := ℝ) L users items (rows ++ new) i j' p = 1 :=
            (window_cases L users items (rows ++ new) i j' p).resolve_left fun h0 => hx' (h0.trans h'.symm)
          exact fin k k'
        · exact fin (e3.2 h') h'
      · exact fin h (e3.1 h)
    rw [hjj]

theorem userCount_inTime (b : Bool) (c : List (Row ℝ)) : userCount (inTime b c) = userCount c := by
  unfold inTime userCount
  cases b with
  | false => rfl
  | true =>
    have h : ∀ l : List ℤ, l.dedup.length = l.toFinset.card := fun l => (List.card_toFinset l).symm
    simp only [if_true]
    rw [h, h]
    congr 1
    ext x
    simp only [List.mem_toFinset, List.mem_map, mem_tsSort]

end

/-! ### Updates -/

section
variable {cfg : TICfg ℝ} {m : TDAtt ℝ} {st : TDState ℝ} {users items : List ℤ} {rows : List (Row ℝ)}

/-- The integrator without attention loses at most three times the squares of the increment. -/
theorem tiOld_loss (hqr : QrAlways cfg.td.hooi.la) (hatt : tiAttArg cfg m = none) {n0 n1 r0 r1 r2 : ℕ}
    (hd : TIDims n0 n1 cfg.td.seqLen r0 r1 r2) {S D : T3 n0 n1 cfg.td.seqLen ℝ} (h : HoldsTensor st r0 r1 r2 S)
    (δ : List DRow) (hne : δ ≠ []) (hlen : δ.length ≤ 10000 ∨ 10000 ∣ δ.length)
    (hu : ∀ r ∈ δ, 0 ≤ r.user ∧ r.user < n0) (hi : ∀ r ∈ δ, 0 ≤ r.item ∧ r.item < n1)
    (hp : ∀ r ∈ δ, 0 ≤ r.pos ∧ r.pos < cfg.td.seqLen)
    (hδ : ∀ (i : Fin n0) (j : Fin n1) (p : Fin cfg.td.seqLen),
      (deltaVal δ ((i : ℕ) : ℤ) ((j : ℕ) : ℤ) ((p : ℕ) : ℤ) : ℝ) = D i j p) :
    ∃ st', tiOld cfg m st δ = .ok st' ∧ (∃ T, tenSq (S + D - T) ≤ 3 * tenSq D ∧ HoldsTensor st' r0 r1 r2 T) ∧
      TISame st st' := by
  obtain ⟨U, V, W, c, h, hV, hW, rfl⟩ := h
  obtain ⟨es, hes⟩ := delta_typed (K := ℝ) δ n0 n1 cfg.td.seqLen hu hi hp
  have hl : es.length = δ.length := by
    have := congrArg List.length hes.inds
    simpa [dInds, indsOf] using this.symm
  have hD : ∀ i j k, D i j k =
      ∑ l, attVal (none : Option (Matrix (Fin cfg.td.seqLen) (Fin cfg.td.seqLen) ℝ)) l k * cooTensor es i j l := by
    intro i j k
    have : ∑ l, attVal (none : Option (Matrix (Fin cfg.td.seqLen) (Fin cfg.td.seqLen) ℝ)) l k * cooTensor es i j l =
        cooTensor es i j k := by
      simp [attVal, Matrix.one_apply]
    rw [this, hes.coo, hδ]
  obtain ⟨U1, V1, W1, c1, e, o1, o2, hT⟩ := C172_increment cfg.td.hooi.la hqr es (hes.ne hne) (by rw [hl]; exact hlen) none
    hd U V W hV hW (by simp [attVal]) c cfg.td.hooi.parallel D hD
  refine ⟨_, ?_, ⟨_, hT, U1, V1, W1, c1, setFac_shape st U1 V1 W1 c1, o1, o2, rfl⟩, setFac_same _ _⟩
  unfold tiOld
  rw [(tiCore_stores h).1, except_bind_ok, (tiCore_stores h).2, hes.inds, hes.vals, hatt, h.u, h.v]
  dsimp only
  rw [show (none : Option (Mat ℝ)) = attArg (none : Option (Matrix (Fin cfg.td.seqLen) (Fin cfg.td.seqLen) ℝ)) from rfl, e]
  rfl

theorem TISeen.nodup (h : TISeen cfg m st users items rows) : users.Nodup ∧ items.Nodup := by
  obtain ⟨ext, past, hi, -, -⟩ := h
  exact ⟨hi.user.nodup, hi.item.nodup⟩

/-- **C172.** A model of `TIRec` or `TIRecA` (in both modes) without attention in the integrator that has seen rows and holds
any tensor, updated with chunks of known users and items each of which changes some window and has so few users that at most
10000 entries change: every update succeeds, and the distance between the model and the tensor of the last `seq_len` items
of every user grows by at most the square root of six times `seq_len` times the number of users of the chunk. -/
theorem C172_run {rounds : TIRounds ℝ} (hc : IsTIClass rounds) (hs : TISetting cfg m)
    (hatt : cfg.td.attF = none ∨ cfg.light = true) (hf : cfg.Fits users items)
    (hseen : TISeen cfg m st users items rows) {S : T3 users.length items.length cfg.td.seqLen ℝ}
    (hS : HoldsTensor st cfg.td.hooi.rank.1 cfg.td.hooi.rank.2.1 cfg.td.hooi.rank.2.2 S)
    (chunks : List (List (Row ℝ))) (b : Bool) (hd : KnownChunks cfg.td.seqLen users items rows chunks b)
    (few : ∀ c ∈ chunks, 2 * cfg.td.seqLen * userCount c ≤ 10000) :
    ∃ st' T, tiUpdates rounds cfg m st chunks b = .ok st' ∧
      TISeen cfg m st' users items (rows ++ (chunks.map (inTime b)).flatten) ∧
      HoldsTensor st' cfg.td.hooi.rank.1 cfg.td.hooi.rank.2.1 cfg.td.hooi.rank.2.2 T ∧
      tfro (windowTensor cfg.td.seqLen users items (rows ++ (chunks.map (inTime b)).flatten) - T) ≤
        tfro (windowTensor cfg.td.seqLen users items rows - S) +
          (chunks.map fun c => Real.sqrt (6 * cfg.td.seqLen * userCount c)).sum := by
  have ha : tiAttArg cfg m = none := by
    unfold tiAttArg
    rcases hatt with h | h <;> simp [h]
  induction chunks generalizing st rows S with
  | nil =>
    refine ⟨st, S, rfl, ?_, hS, ?_⟩ <;> rw [List.map_nil, List.flatten_nil, List.append_nil]
    · exact hseen
    · rw [List.map_nil, List.sum_nil, add_zero]
  | cons c cs ih =>
    have h0 := hd 0 c rfl
    rw [List.take_zero, List.map_nil, List.flatten_nil, List.append_nil] at h0
    have hdiff := differing_le (L := cfg.td.seqLen) hseen.nodup.1 hseen.nodup.2 rows (inTime b c)
    rw [userCount_inTime] at hdiff
    obtain ⟨s1, a1, a2, ⟨T1, b1, b2⟩, -⟩ := tiUpdate_good
      (good := fun T => tenSq (S + (windowTensor cfg.td.seqLen users items (rows ++ inTime b c) -
        windowTensor cfg.td.seqLen users items rows) - T) ≤
          3 * tenSq (windowTensor cfg.td.seqLen users items (rows ++ inTime b c) -
            windowTensor cfg.td.seqLen users items rows)) hc hs hf hseen hS c b h0
      fun δ s hne hlen hu hi hp hδ hs' => tiOld_loss hs.qr ha hf hs' δ hne
        (Or.inl (by
          have := few c (List.mem_cons_self ..)
          refine (hlen.trans_le ?_).trans (hdiff.trans this)
          exact le_of_eq (by unfold differing; congr))) hu hi hp hδ
    obtain ⟨s2, T2, e1, e2, e3, e4⟩ := ih a2 b2 (fun t d ht => by
      have := hd (t + 1) d ht
      rw [List.take_succ_cons, List.map_cons, List.flatten_cons, ← List.append_assoc] at this
      exact this) fun d hd' => few d (List.mem_cons_of_mem _ hd')
    refine ⟨s2, T2, ?_, ?_, e3, ?_⟩
    · unfold tiUpdates at e1 ⊢
      rw [List.foldlM_cons, a1, except_bind_ok]
      exact e1
    · rw [List.map_cons, List.flatten_cons, ← List.append_assoc]
      exact e2
    · rw [List.map_cons, List.flatten_cons, ← List.append_assoc, List.map_cons, List.sum_cons]
      rw [tenSq_differing] at b1
      have h1 : tfro (windowTensor cfg.td.seqLen users items (rows ++ inTime b c) - T1) ≤
          tfro (windowTensor cfg.td.seqLen users items rows - S) + Real.sqrt (6 * cfg.td.seqLen * userCount c) := by
        have e : windowTensor cfg.td.seqLen users items (rows ++ inTime b c) - T1 =
            (windowTensor cfg.td.seqLen users items rows - S) +
              (S + (windowTensor cfg.td.seqLen users items (rows ++ inTime b c) -
                windowTensor cfg.td.seqLen users items rows) - T1) := by abel
        rw [e]
        refine (tfro_add_le _ _).trans (add_le_add le_rfl (Real.sqrt_le_sqrt (b1.trans ?_)))
        have h2 : ((differing (windowTensor (K := ℝ) cfg.td.seqLen users items (rows ++ inTime b c))
            (windowTensor cfg.td.seqLen users items rows) : ℕ) : ℝ) ≤ ((2 * cfg.td.seqLen * userCount c : ℕ) : ℝ) :=
          Nat.cast_le.2 hdiff
        push_cast at h2
        linarith
      linarith

/-! ### An example -/

/-- The model that holds the identity matrix, after user 8 viewed item 40: the distance is at most √6. -/
example (rounds : TIRounds ℝ) (hc : IsTIClass rounds) :
    ∃ st' T, tiUpdates rounds exRowCfg exRowAtt exTrackState [exTrackChunk] true = .ok st' ∧
      HoldsTensor st' 2 2 1 T ∧
      tfro ((fun (_ : Fin 2) (j : Fin 2) (_ : Fin 1) => if j = 0 then (1 : ℝ) else 0) - T) ≤ Real.sqrt 6 := by
  obtain ⟨st', T, h1, -, h2, h3⟩ := C172_run (cfg := exRowCfg) (m := exRowAtt) (st := exTrackState) (users := [7, 8])
    (items := [40, 50]) (rows := exTrackRows) hc exRow_setting (Or.inl rfl) exRow_dims
    ⟨exTrackTable, exTrackPast, exTrack_inv, .cons ⟨rfl, ⟨0, rfl, rfl⟩, 0, rfl, rfl⟩
        (.cons ⟨rfl, ⟨1, rfl, rfl⟩, 1, rfl, rfl⟩ .nil), fun u => rfl⟩
      exTrack_holds
    [exTrackChunk] true (fun t c ht => by
      match t with
      | 0 =>
        obtain rfl := Option.some.inj ht
        exact exTrack_follows.toTIKnown
      | t + 1 => simp at ht) (fun c hc => by
        rw [List.mem_singleton.1 hc]
        show 2 * 1 * 1 ≤ 10000
        decide)
  refine ⟨st', T, h1, h2, ?_⟩
  rw [show (windowTensor exRowCfg.td.seqLen [7, 8] [40, 50]
    (exTrackRows ++ ([exTrackChunk].map (inTime true)).flatten) : T3 2 2 1 ℝ) = _ from exTrack_tensor'] at h3
  have e1 : tfro (windowTensor (K := ℝ) exRowCfg.td.seqLen [7, 8] [40, 50] exTrackRows -
      windowTensor exRowCfg.td.seqLen [7, 8] [40, 50] exTrackRows) = 0 := by
    rw [sub_self]
    simp [tfro]
  have e2 : (List.map (fun c => Real.sqrt (6 * (exRowCfg.td.seqLen : ℝ) * (userCount c : ℝ))) [exTrackChunk]).sum =
      Real.sqrt 6 := by
    rw [List.map_cons, List.map_nil, List.sum_cons, List.sum_nil, add_zero,
      show exRowCfg.td.seqLen = 1 from rfl, show userCount exTrackChunk = 1 from rfl]
    norm_num
  exact (h3.trans_eq (congrArg₂ (· + ·) e1 e2)).trans_eq (zero_add _)

end

end DynCF
