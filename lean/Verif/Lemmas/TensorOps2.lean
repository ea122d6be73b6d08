/- Closed forms of the remaining loops of `tensor_operations.py`. -/
import Verif.Lemmas.Parallel

set_option linter.unusedSectionVars false
namespace DynCF
variable {K : Type}

theorem foldlM_map_ok {M α β : Type} (f : M → β → PyM M) (g : α → β) (S : α → M → M) (l : List α)
    (h : ∀ x ∈ l, ∀ t, f t (g x) = .ok (S x t)) (t : M) :
    (l.map g).foldlM f t = .ok (l.foldl (fun t x => S x t) t) := by
  rw [List.foldlM_map]
  exact foldlM_inc_ok (fun t x => f t (g x)) S l h t

section
variable [CommRing K]

theorem zero_T3 {n0 n1 n2 : ℕ} : (fun _ _ _ => 0 : T3 n0 n1 n2 K) = 0 := rfl

theorem constructCoreParallel_typed {n0 n1 n2 r0 r1 r2 : ℕ} (es : List (Ent n0 n1 n2 K))
    (U1 : Matrix (Fin n0) (Fin r0) K) (U2 : Matrix (Fin n1) (Fin r1) K)
    (U3 : Matrix (Fin n2) (Fin r2) K) :
    constructCoreParallel (indsOf es) (valsOf es) ⟨_, _, U1⟩ ⟨_, _, U2⟩ ⟨_, _, U3⟩ =
      .ok ⟨r0, r1, r2, coreTensor (cooTensor es) U1 U2 U3⟩ := by
  unfold constructCoreParallel
  rw [cooEntries_typed, except_bind_ok]
  have hbody : ∀ (i : Fin r0) core,
      corePrangeBody (es.map fun e => (e.ind, e.2)) ⟨_, _, U1⟩ ⟨_, _, U2⟩ ⟨_, _, U3⟩ i core =
      .ok (core + (es.map fun e => (fun a b c => if a = i then
        e.2 * U1 e.1.1 i * U2 e.1.2.1 b * U3 e.1.2.2 c else 0 : T3 r0 r1 r2 K)).sum) := by
    intro i core
    unfold corePrangeBody
    rw [foldlM_map_ok _ _ (fun (e : Ent n0 n1 n2 K) core => (List.finRange r1).foldl (fun core j =>
      (List.finRange r2).foldl (fun core k =>
        addAt core i j k (e.2 * U1 e.1.1 i * U2 e.1.2.1 j * U3 e.1.2.2 k)) core) core)]
    · congr 1
      have := isInc_foldl (fun (e : Ent n0 n1 n2 K) core => (List.finRange r1).foldl (fun core j =>
        (List.finRange r2).foldl (fun core k =>
        addAt core i j k (e.2 * U1 e.1.1 i * U2 e.1.2.1 j * U3 e.1.2.2 k)) core) core)
        (fun e => (fun a b c => if a = i then
        e.2 * U1 e.1.1 i * U2 e.1.2.1 b * U3 e.1.2.2 c else 0 : T3 r0 r1 r2 K)) es ?_ core
      · exact this
      · intro e _
        have h : IsInc (fun core : T3 r0 r1 r2 K => (List.finRange r1).foldl (fun core j =>
            (List.finRange r2).foldl (fun core k =>
            addAt core i j k (e.2 * U1 e.1.1 i * U2 e.1.2.1 j * U3 e.1.2.2 k)) core) core)
            (∑ j, ∑ k, single i j k (e.2 * U1 e.1.1 i * U2 e.1.2.1 j * U3 e.1.2.2 k)) := by
          apply isInc_finRange
          intro j
          apply isInc_finRange
          intro k
          exact addAt_eq i j k _
        rwa [sum_single2 i (fun j k => e.2 * U1 e.1.1 i * U2 e.1.2.1 j * U3 e.1.2.2 k)] at h
    · intro e _ t
      rw [coreRows_typed, except_bind_ok]
      rfl
  rw [foldlM_inc_ok _ (fun i core => core + (es.map fun e => (fun a b c => if a = i then
        e.2 * U1 e.1.1 i * U2 e.1.2.1 b * U3 e.1.2.2 c else 0 : T3 r0 r1 r2 K)).sum)
        (List.finRange r0) (fun i _ t => hbody i t)]
  rw [except_bind_ok]
  have := isInc_finRange (fun i core => core + (es.map fun e => (fun a b c => if a = i then
        e.2 * U1 e.1.1 i * U2 e.1.2.1 b * U3 e.1.2.2 c else 0 : T3 r0 r1 r2 K)).sum) _
        (fun i t => rfl) (fun _ _ _ => 0)
  simp only at this
  rw [this, zero_T3, zero_add, ← entries_coreTensor]
  congr 2
  funext a b c
  rw [map_apply3, Finset.sum_apply, Finset.sum_apply, Finset.sum_apply]
  simp only [map_apply3]
  rw [Finset.sum_eq_single a]
  · simp
  · intro i _ hi
    have : ∀ e : Ent n0 n1 n2 K, (if a = i then e.2 * U1 e.1.1 i * U2 e.1.2.1 b * U3 e.1.2.2 c else 0)
      = 0 := fun e => if_neg (Ne.symm hi)
    simp [this]
  · simp

theorem constructCoreDense_typed {n0 n1 n2 r0 r1 r2 : ℕ} (x : T3 n0 n1 n2 K)
    (U1 : Matrix (Fin n0) (Fin r0) K) (U2 : Matrix (Fin n1) (Fin r1) K)
    (U3 : Matrix (Fin n2) (Fin r2) K) :
    constructCoreDense ⟨_, _, _, x⟩ ⟨_, _, U1⟩ ⟨_, _, U2⟩ ⟨_, _, U3⟩ =
      .ok ⟨r0, r1, r2, coreTensor x U1 U2 U3⟩ := by
  unfold constructCoreDense
  rw [dif_pos ⟨le_refl _, le_refl _, le_refl _⟩]
  congr 2
  have h : IsInc (fun core : T3 r0 r1 r2 K => (List.finRange r0).foldl (fun core i =>
      (List.finRange n0).foldl (fun core i1 =>
      (List.finRange n1).foldl (fun core i2 =>
      (List.finRange n2).foldl (fun core i3 =>
      (List.finRange r1).foldl (fun core j =>
      (List.finRange r2).foldl (fun core k =>
        addAt core i j k (x i1 i2 i3 * U1 i1 i * U2 i2 j * U3 i3 k))
        core) core) core) core) core) core)
      (∑ i, ∑ i1, ∑ i2, ∑ i3, ∑ j, ∑ k, single i j k (x i1 i2 i3 * U1 i1 i * U2 i2 j * U3 i3 k)) := by
    apply isInc_finRange; intro i
    apply isInc_finRange; intro i1
    apply isInc_finRange; intro i2
    apply isInc_finRange; intro i3
    apply isInc_finRange; intro j
    apply isInc_finRange; intro k
    exact addAt_eq i j k _
  have h' := h (fun _ _ _ => 0)
  rw [zero_T3, zero_add] at h'
  refine Eq.trans h' ?_
  have hs : ∀ (i : Fin r0) i1 i2 i3,
      ∑ j, ∑ k, single i j k (x i1 i2 i3 * U1 i1 i * U2 i2 j * U3 i3 k) =
      (fun a b c => if a = i then x i1 i2 i3 * U1 i1 i * U2 i2 b * U3 i3 c else 0 : T3 r0 r1 r2 K) :=
    fun i i1 i2 i3 => sum_single2 i (fun j k => x i1 i2 i3 * U1 i1 i * U2 i2 j * U3 i3 k)
  simp only [hs]
  funext a b c
  simp only [Finset.sum_apply, coreTensor]
  rw [Finset.sum_eq_single a]
  · simp
  · intro i _ hi
    apply Finset.sum_eq_zero; intro _ _
    apply Finset.sum_eq_zero; intro _ _
    apply Finset.sum_eq_zero; intro _ _
    rw [if_neg (Ne.symm hi)]
  · simp

theorem iter_sum {n0 n1 n2 r1 r2 r3 : ℕ}
    (es : List (Ent n0 n1 n2 K)) (U1 : Matrix (Fin n0) (Fin r1) K) (U2 : Matrix (Fin n1) (Fin r2) K)
    (U3 : Matrix (Fin n2) (Fin r3) K) (x i : Fin r1) (j : Fin r2) (k : Fin r3) :
    (((es.flatMap fun e => (List.finRange r2).flatMap fun j =>
        (List.finRange r3).map fun k =>
          (((x, j, k) : Fin r1 × Fin r2 × Fin r3),
            e.2 * U1 e.1.1 x * U2 e.1.2.1 j * U3 e.1.2.2 k)).filter
            fun p => decide (p.1 = (i, j, k))).map Prod.snd).sum =
          if x = i then (es.map fun e => e.2 * U1 e.1.1 i * U2 e.1.2.1 j * U3 e.1.2.2 k).sum else 0 := by
  induction es with
  | nil => simp
  | cons e es ih2 =>
    rw [List.flatMap_cons, List.filter_append, List.map_append, List.sum_append, ih2]
    · have hj : ((((List.finRange r2).flatMap fun j' =>
          (List.finRange r3).map fun k' => (((x, j', k') : Fin r1 × Fin r2 × Fin r3),
          e.2 * U1 e.1.1 x * U2 e.1.2.1 j' * U3 e.1.2.2 k')).filter
          fun p => decide (p.1 = (i, j, k))).map Prod.snd).sum =
          ∑ j', ∑ k', if (x, j', k') = (i, j, k) then
            e.2 * U1 e.1.1 x * U2 e.1.2.1 j' * U3 e.1.2.2 k' else 0 := by
        rw [Fin.sum_univ_def]
        generalize List.finRange r2 = l2
        induction l2 with
        | nil => simp
        | cons y l2 ih3 =>
          rw [List.flatMap_cons, List.filter_append, List.map_append, List.sum_append, ih3,
            List.map_cons, List.sum_cons]
          congr 1
          rw [Fin.sum_univ_def]
          generalize List.finRange r3 = l3
          induction l3 with
          | nil => simp
          | cons z l3 ih4 =>
            simp only [List.map_cons, List.filter_cons, List.sum_cons]
            split
            · rename_i hd
              rw [decide_eq_true_eq] at hd
              rw [if_pos hd, List.map_cons, List.sum_cons, ih4]
            · rename_i hd
              rw [decide_eq_true_eq] at hd
              rw [if_neg hd, ih4, zero_add]
      rw [hj]
      by_cases hxi : x = i
      · subst hxi
        simp only [Prod.mk.injEq, true_and, if_true, List.map_cons, List.sum_cons]
        congr 1
        rw [Finset.sum_eq_single j, Finset.sum_eq_single k]
        · simp
        · intro z _ hz; simp [hz]
        · simp
        · intro y _ hy; simp [hy]
        · simp
      · simp [hxi]

/-- interleaved execution, finished -/
theorem parallel_result {ι : Type} [DecidableEq ι] {n0 n1 n2 r1 r2 r3 : ℕ}
    (es : List (Ent n0 n1 n2 K)) (U1 : Matrix (Fin n0) (Fin r1) K) (U2 : Matrix (Fin n1) (Fin r2) K)
    (U3 : Matrix (Fin n2) (Fin r3) K) (asg : ι → List (Fin r1)) (hasg : IsAssignment asg)
    (reg0 : ι → K) (sched : List ι)
    (hfin : ∀ t, (((parallelStart es U1 U2 U3 asg reg0).exec sched).th t).todo = [])
    (i : Fin r1) (j : Fin r2) (k : Fin r3) :
    ((parallelStart es U1 U2 U3 asg reg0).exec sched).mem (i, j, k) =
      coreTensor (cooTensor es) U1 U2 U3 i j k := by
  have key := alone_exec (fun t => {c : Fin r1 × Fin r2 × Fin r3 | c.1 ∈ asg t})
    (fun t t' c h h' => by
      obtain ⟨t0, _, h0⟩ := hasg.2 c.1
      rw [h0 t h, h0 t' h'])
    (fun _ => (0 : K)) reg0 (fun t => (asg t).flatMap (iterActs es U1 U2 U3))
    (by
      intro t a ha
      rw [List.mem_flatMap] at ha
      obtain ⟨i, hi, ha⟩ := ha
      unfold iterActs at ha
      simp only [List.mem_flatMap] at ha
      obtain ⟨e, _, j, _, k, _, ha⟩ := ha
      simp only [List.mem_cons, List.not_mem_nil, or_false] at ha
      rcases ha with rfl | rfl <;> exact hi) sched
  obtain ⟨t, hit, _⟩ := hasg.2 i
  obtain ⟨done, h1, h2, h3⟩ := key t
  have hf := hfin t
  unfold parallelStart at hf ⊢
  rw [hf, List.append_nil] at h1
  rw [h3 (i, j, k) hit, h1]
  have hp : (asg t).flatMap (iterActs es U1 U2 U3) =
      ((asg t).flatMap fun i => es.flatMap fun e => (List.finRange r2).flatMap fun j =>
        (List.finRange r3).map fun k =>
          (((i, j, k) : Fin r1 × Fin r2 × Fin r3),
            e.2 * U1 e.1.1 i * U2 e.1.2.1 j * U3 e.1.2.2 k)).flatMap
      (fun p => [Act.load p.1, Act.store p.1 p.2]) := by
    unfold iterActs
    simp only [List.flatMap_assoc, List.flatMap_map]
  beta_reduce
  rw [hp, runActs_pairs]
  simp only [zero_add]
  have hcalc : ∀ l : List (Fin r1), l.Nodup → 
      (((l.flatMap fun i => es.flatMap fun e => (List.finRange r2).flatMap fun j =>
        (List.finRange r3).map fun k =>
          (((i, j, k) : Fin r1 × Fin r2 × Fin r3),
            e.2 * U1 e.1.1 i * U2 e.1.2.1 j * U3 e.1.2.2 k)).filter
            fun p => decide (p.1 = (i, j, k))).map Prod.snd).sum =
      if i ∈ l then (es.map fun e => e.2 * U1 e.1.1 i * U2 e.1.2.1 j * U3 e.1.2.2 k).sum else 0 := by
    intro l hl
    induction l with
    | nil => simp
    | cons x l ih =>
      rw [List.nodup_cons] at hl
      rw [List.flatMap_cons, List.filter_append, List.map_append, List.sum_append, ih hl.2]
      have hx : (((es.flatMap fun e => (List.finRange r2).flatMap fun j =>
        (List.finRange r3).map fun k =>
          (((x, j, k) : Fin r1 × Fin r2 × Fin r3),
            e.2 * U1 e.1.1 x * U2 e.1.2.1 j * U3 e.1.2.2 k)).filter
            fun p => decide (p.1 = (i, j, k))).map Prod.snd).sum =
          if x = i then (es.map fun e => e.2 * U1 e.1.1 i * U2 e.1.2.1 j * U3 e.1.2.2 k).sum else 0 := by
        exact iter_sum es U1 U2 U3 x i j k
      rw [hx]
      by_cases hxi : x = i
      · subst hxi; simp [hl.1]
      · have : ¬ i = x := fun h => hxi h.symm
        simp [hxi, this]
  rw [hcalc (asg t) (hasg.1 t), if_pos hit]
  have := congrFun (congrFun (congrFun (entries_coreTensor es U1 U2 U3) i) j) k
  rw [← this, map_apply3]

end
end DynCF
