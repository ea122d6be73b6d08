/- Helper lemmas: loops of in-place additions. -/
import Verif.Spec.Tensor
import Verif.Lemmas.Mapping
import Mathlib.Algebra.BigOperators.Pi
import Mathlib.Algebra.BigOperators.Fin
import Mathlib.Algebra.BigOperators.Ring.Finset

set_option linter.unusedSectionVars false
namespace DynCF
variable {K : Type}

/-- a step that adds the same increment to every state -/
def IsInc {M : Type} [Add M] (S : M → M) (d : M) : Prop := ∀ t, S t = t + d

theorem isInc_foldl {M α : Type} [AddCommMonoid M] (S : α → M → M) (d : α → M) (l : List α)
    (h : ∀ x ∈ l, IsInc (S x) (d x)) :
    IsInc (fun t => l.foldl (fun t x => S x t) t) (l.map d).sum := by
  induction l with
  | nil => intro t; simp
  | cons a l ih =>
    intro t
    simp only [List.foldl_cons, List.map_cons, List.sum_cons]
    rw [h a List.mem_cons_self t]
    have := ih (fun x hx => h x (List.mem_cons_of_mem _ hx)) (t + d a)
    simp only at this
    rw [this, add_assoc]

theorem isInc_finRange {M : Type} [AddCommMonoid M] {n : ℕ} (S : Fin n → M → M) (d : Fin n → M)
    (h : ∀ x, IsInc (S x) (d x)) :
    IsInc (fun t => (List.finRange n).foldl (fun t x => S x t) t) (∑ i, d i) := by
  have := isInc_foldl S d (List.finRange n) (fun x _ => h x)
  rwa [← Fin.sum_univ_def] at this

theorem foldlM_inc_ok {M α : Type} (f : M → α → PyM M) (S : α → M → M) (l : List α)
    (h : ∀ x ∈ l, ∀ t, f t x = .ok (S x t)) (t : M) :
    l.foldlM f t = .ok (l.foldl (fun t x => S x t) t) := by
  induction l generalizing t with
  | nil => rfl
  | cons a l ih =>
    rw [List.foldlM_cons, h a List.mem_cons_self, except_bind_ok,
      ih (fun x hx => h x (List.mem_cons_of_mem _ hx)), List.foldl_cons]

section
variable [CommRing K]

/-- the tensor that is `x` at one cell and 0 elsewhere -/
def single {n0 n1 n2 : ℕ} (i : Fin n0) (j : Fin n1) (k : Fin n2) (x : K) : T3 n0 n1 n2 K :=
  fun a b c => if a = i ∧ b = j ∧ c = k then x else 0

theorem addAt_eq {n0 n1 n2 : ℕ} (i : Fin n0) (j : Fin n1) (k : Fin n2) (x : K) :
    IsInc (fun t => addAt t i j k x) (single i j k x) := by
  intro t
  funext a b c
  unfold addAt single
  simp only [Pi.add_apply]
  split <;> simp

theorem sum_single2 {n0 n1 n2 : ℕ} (i : Fin n0) (f : Fin n1 → Fin n2 → K) :
    ∑ j, ∑ k, single i j k (f j k) = fun a b c => if a = i then f b c else 0 := by
  funext a b c
  simp only [Finset.sum_apply, single]
  by_cases h : a = i
  · simp only [h, true_and, if_true]
    rw [Finset.sum_eq_single b, Finset.sum_eq_single c]
    · simp
    · intro x _ hx; rw [if_neg]; rintro ⟨_, h2⟩; exact hx h2.symm
    · simp
    · intro x _ hx
      apply Finset.sum_eq_zero
      intro y _
      rw [if_neg]; rintro ⟨h1, _⟩; exact hx h1.symm
    · simp
  · simp [h]

theorem sum_single3 {n0 n1 n2 : ℕ} (f : Fin n0 → Fin n1 → Fin n2 → K) :
    ∑ i, ∑ j, ∑ k, single i j k (f i j k) = f := by
  funext a b c
  have : ∀ i, ∑ j, ∑ k, single i j k (f i j k) = fun a b c => if a = i then f i b c else 0 :=
    fun i => sum_single2 i (f i)
  simp only [this, Finset.sum_apply]
  rw [Finset.sum_eq_single a]
  · simp
  · intro x _ hx; rw [if_neg (Ne.symm hx)]
  · simp

theorem sum_coo {n0 n1 n2 : ℕ} (es : List (Ent n0 n1 n2 K)) (f : Fin n0 → Fin n1 → Fin n2 → K) :
    (es.map fun e => e.2 * f e.1.1 e.1.2.1 e.1.2.2).sum =
      ∑ i, ∑ j, ∑ k, cooTensor es i j k * f i j k := by
  induction es with
  | nil => simp [cooTensor]
  | cons e es ih =>
    have : ∀ i j k, cooTensor (e :: es) i j k =
        single e.1.1 e.1.2.1 e.1.2.2 e.2 i j k + cooTensor es i j k := by
      intro i j k
      obtain ⟨⟨x, y, z⟩, v⟩ := e
      unfold cooTensor single
      rw [List.filter_cons]
      by_cases h : (i = x ∧ j = y ∧ k = z)
      · obtain ⟨rfl, rfl, rfl⟩ := h
        simp
      · have h' : ¬ (x = i ∧ y = j ∧ z = k) := by
          rintro ⟨rfl, rfl, rfl⟩; exact h ⟨rfl, rfl, rfl⟩
        simp [h, h']
    simp only [List.map_cons, List.sum_cons, ih, this, add_mul, Finset.sum_add_distrib]
    congr 1
    rw [Finset.sum_eq_single e.1.1, Finset.sum_eq_single e.1.2.1, Finset.sum_eq_single e.1.2.2]
    · simp [single]
    · intro x _ hx; simp [single, hx]
    · simp
    · intro x _ hx; apply Finset.sum_eq_zero; intro y _; simp [single, hx]
    · simp
    · intro x _ hx; apply Finset.sum_eq_zero; intro y _
      apply Finset.sum_eq_zero; intro z _; simp [single, hx]
    · simp

theorem cooTensor_perm {n0 n1 n2 : ℕ} {es es' : List (Ent n0 n1 n2 K)} (h : es.Perm es') :
    cooTensor es = cooTensor es' := by
  funext i j k
  exact ((h.filter _).map _).sum_eq

theorem cooEntries_typed {n0 n1 n2 : ℕ} (es : List (Ent n0 n1 n2 K)) :
    cooEntries (indsOf es) (valsOf es) = .ok (es.map fun e => (e.ind, e.2)) := by
  unfold cooEntries indsOf valsOf
  rw [if_pos (by simp)]
  congr 1
  induction es with
  | nil => rfl
  | cons e es ih => simp [ih]

theorem row_typed {m n : ℕ} (A : Matrix (Fin m) (Fin n) K) (i : Fin m) :
    (⟨m, n, A⟩ : Mat K).row ((i : ℕ) : ℤ) = .ok (A i) := by
  unfold Mat.row
  rw [pyIdx_coe]
  rfl

theorem coreRows_typed {n0 n1 n2 r0 r1 r2 : ℕ} (U1 : Matrix (Fin n0) (Fin r0) K)
    (U2 : Matrix (Fin n1) (Fin r1) K) (U3 : Matrix (Fin n2) (Fin r2) K) (e : Ent n0 n1 n2 K) :
    coreRows ⟨_, _, U1⟩ ⟨_, _, U2⟩ ⟨_, _, U3⟩ (e.ind, e.2) =
      .ok (U1 e.1.1, U2 e.1.2.1, U3 e.1.2.2) := by
  unfold coreRows Ent.ind
  simp only [row_typed]
  rfl

theorem map_apply3 {n0 n1 n2 : ℕ} {α : Type} (l : List α) (d : α → T3 n0 n1 n2 K) (a : Fin n0)
    (b : Fin n1) (c : Fin n2) : (l.map d).sum a b c = (l.map fun x => d x a b c).sum := by
  induction l with
  | nil => rfl
  | cons x l ih => simp only [List.map_cons, List.sum_cons, Pi.add_apply, ih]

theorem coreEntryLoops_inc {r1 r2 r3 : ℕ} (v : K) (a : Fin r1 → K) (b : Fin r2 → K)
    (c : Fin r3 → K) :
    IsInc (coreEntryLoops v a b c) (fun i j k => v * a i * b j * c k) := by
  have h : IsInc (coreEntryLoops v a b c) (∑ i, ∑ j, ∑ k, single i j k (v * a i * b j * c k)) := by
    unfold coreEntryLoops
    apply isInc_finRange
    intro i
    apply isInc_finRange
    intro j
    apply isInc_finRange
    intro k
    exact addAt_eq i j k _
  rwa [sum_single3 (fun i j k => v * a i * b j * c k)] at h

theorem entries_coreTensor {n0 n1 n2 r0 r1 r2 : ℕ} (es : List (Ent n0 n1 n2 K))
    (U1 : Matrix (Fin n0) (Fin r0) K) (U2 : Matrix (Fin n1) (Fin r1) K)
    (U3 : Matrix (Fin n2) (Fin r2) K) :
    (es.map fun e => (fun i j k => e.2 * U1 e.1.1 i * U2 e.1.2.1 j * U3 e.1.2.2 k :
      T3 r0 r1 r2 K)).sum = coreTensor (cooTensor es) U1 U2 U3 := by
  funext a b c
  rw [map_apply3]
  unfold coreTensor
  have := sum_coo es (fun i j k => U1 i a * U2 j b * U3 k c)
  simp only [← mul_assoc] at this
  exact this

theorem constructCore_typed {n0 n1 n2 r0 r1 r2 : ℕ} (es : List (Ent n0 n1 n2 K))
    (U1 : Matrix (Fin n0) (Fin r0) K) (U2 : Matrix (Fin n1) (Fin r1) K)
    (U3 : Matrix (Fin n2) (Fin r2) K) :
    constructCore (indsOf es) (valsOf es) ⟨_, _, U1⟩ ⟨_, _, U2⟩ ⟨_, _, U3⟩ =
      .ok ⟨r0, r1, r2, coreTensor (cooTensor es) U1 U2 U3⟩ := by
  unfold constructCore
  rw [cooEntries_typed, except_bind_ok]
  rw [foldlM_inc_ok _ (fun e core => coreEntryLoops e.2
    (match pyIdx n0 e.1.1 with | .ok i => U1 i | .error _ => 0)
    (match pyIdx n1 e.1.2.1 with | .ok i => U2 i | .error _ => 0)
    (match pyIdx n2 e.1.2.2 with | .ok i => U3 i | .error _ => 0) core)]
  · rw [except_bind_ok, List.foldl_map]
    have := isInc_foldl (fun (e : Ent n0 n1 n2 K) core => coreEntryLoops e.2 (U1 e.1.1) (U2 e.1.2.1)
      (U3 e.1.2.2) core) (fun e => (fun i j k => e.2 * U1 e.1.1 i * U2 e.1.2.1 j * U3 e.1.2.2 k :
      T3 r0 r1 r2 K)) es (fun e _ => coreEntryLoops_inc _ _ _ _) (fun _ _ _ => 0)
    simp only [Ent.ind, pyIdx_coe]
    simp only at this
    rw [this, entries_coreTensor]
    have hz : (fun _ _ _ => 0 : T3 r0 r1 r2 K) = 0 := rfl
    rw [hz, zero_add]
    rfl
  · intro e he t
    rw [List.mem_map] at he
    obtain ⟨e', _, rfl⟩ := he
    rw [coreRows_typed, except_bind_ok]
    simp only [Ent.ind, pyIdx_coe]
    rfl

end
end DynCF
