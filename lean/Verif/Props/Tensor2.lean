/- Properties C54 (termination), C56-C59. -/
import Verif.Props.Tensor
import Verif.Lemmas.TensorOps4
import Verif.Lemmas.Hooi

set_option linter.unusedSectionVars false
namespace DynCF
variable {K : Type}

/-! ### C54 complete executions exist -/

theorem exec_todo {ι C : Type} [DecidableEq ι] [DecidableEq C] [Add K] (g : Conf ι C K)
    (sched : List ι) (t : ι) :
    ((g.exec sched).th t).todo = (g.th t).todo.drop (sched.count t) := by
  induction sched generalizing g with
  | nil => rfl
  | cons u sched ih =>
    show (((g.step u).exec sched).th t).todo = _
    rw [ih]
    by_cases h : u = t
    · subst h
      rw [List.count_cons_self]
      unfold Conf.step
      cases hh : (g.th u).todo with
      | nil => simp [hh]
      | cons a rest => simp
    · rw [List.count_cons_of_ne h]
      congr 1
      unfold Conf.step
      cases (g.th u).todo with
      | nil => rfl
      | cons a rest => simp [Ne.symm h]

/-- **C54** An execution is complete exactly when every thread was scheduled often enough; in
particular every fair schedule completes the loop. -/
theorem C54_complete_iff {ι : Type} [DecidableEq ι] [CommRing K] {n0 n1 n2 r1 r2 r3 : ℕ}
    (es : List (Ent n0 n1 n2 K)) (U1 : Matrix (Fin n0) (Fin r1) K) (U2 : Matrix (Fin n1) (Fin r2) K)
    (U3 : Matrix (Fin n2) (Fin r3) K) (asg : ι → List (Fin r1)) (reg0 : ι → K) (sched : List ι) :
    (∀ t, (((parallelStart es U1 U2 U3 asg reg0).exec sched).th t).todo = []) ↔
      ∀ t, (asg t).length * (es.length * (r2 * (r3 * 2))) ≤ sched.count t := by
  apply forall_congr'
  intro t
  rw [exec_todo, List.drop_eq_nil_iff]
  have : ((parallelStart es U1 U2 U3 asg reg0).th t).todo.length =
      (asg t).length * (es.length * (r2 * (r3 * 2))) := by
    simp [parallelStart, iterActs, List.length_flatMap]
  rw [this]

/-- Two threads, one taking the even and one the odd columns, steps alternating. -/
example : let es : List (Ent 2 1 1 ℤ) := [((0, 0, 0), 5), ((1, 0, 0), 7)]
    let U1 : Matrix (Fin 2) (Fin 2) ℤ := !![1, 2; 3, 4]
    let U2 : Matrix (Fin 1) (Fin 1) ℤ := !![1]
    let g := (parallelStart es U1 U2 U2 (fun t : Fin 2 => [t]) (fun _ => 0)).exec
      [0, 1, 1, 0, 0, 1, 0, 1]
    (g.mem (0, 0, 0), g.mem (1, 0, 0), (g.th 0).todo.length, (g.th 1).todo.length) =
      (26, 38, 0, 0) := by decide +kernel

/-- The assignment of the example satisfies the hypothesis of `C54_any_schedule`. -/
example : IsAssignment (fun t : Fin 2 => [t]) := by
  constructor
  · intro t; simp
  · intro i; exact ⟨i, by simp, by intro t' h; simpa using Eq.symm (by simpa using h)⟩

example : let es : List (Ent 2 1 1 ℤ) := [((0, 0, 0), 5), ((1, 0, 0), 7)]
    (constructCore (indsOf es) (valsOf es) ⟨2, 2, !![1, 2; 3, 4]⟩ ⟨1, 1, !![1]⟩ ⟨1, 1, !![1]⟩).map
      (fun t => (List.finRange t.d0).map fun i => (List.finRange t.d1).map fun j =>
        (List.finRange t.d2).map fun k => t.val i j k) = .ok [[[26]], [[38]]] := by decide +kernel

/-- `tensordot2` on modes (0, 1) with a repeated coordinate -/
example : let es : List (Ent 2 2 1 ℤ) := [((0, 1, 0), 5), ((0, 1, 0), 7), ((1, 0, 0), 1)]
    (tensordot2 (indsOf es) (valsOf es) [2, 2, 1] ⟨2, 1, !![1; 2]⟩ ⟨2, 1, !![3; 10]⟩ (0, 1)).map
      (fun t => (List.finRange t.d0).map fun i => (List.finRange t.d1).map fun j =>
        (List.finRange t.d2).map fun k => t.val i j k) = .ok [[[126]]] := by decide +kernel

/-- sparse unfolding with a repeated coordinate -/
example : let es : List (Ent 2 2 2 ℤ) := [((0, 1, 1), 5), ((0, 1, 1), 7), ((1, 0, 1), 1)]
    (unfoldSparse (es.map Ent.vec) (valsOf es) (2, 2, 2) 1).map
      (fun t => (List.finRange t.rows).map fun i => (List.finRange t.cols).map fun j =>
        t.val i j) = .ok [[0, 0, 0, 1], [0, 0, 12, 0]] := by decide +kernel

/-- an index array with two columns has no column for the third mode, even without rows -/
example : unfoldSparse ([![0, 1]] : List (Fin 2 → ℤ)) [(5 : ℤ)] (2, 2, 2) 1 = .error .indexError ∧
    unfoldSparse ([] : List (Fin 2 → ℤ)) ([] : List ℤ) (2, 2, 2) 0 = .error .indexError :=
  ⟨(C53_errors _ _ _ _).2.2.2 rfl (by decide) (by decide) (by decide),
    (C53_errors _ _ _ _).2.2.2 rfl (by decide) (by decide) (by decide)⟩

section
variable [CommRing K]

/-! ### C56 the projected unfolding product -/

/-- **C56** (exact behaviour) The chunked product computes the projected unfolding of the first
`⌊n / p⌋ * p` entries, `p = min(10000, n)`, for each mode; without entries it raises
`ZeroDivisionError`. -/
theorem C56_exact [DecidableEq K] {n0 n1 n2 p1 p2 s : ℕ} (es : List (Ent n0 n1 n2 K)) (hn : es ≠ [])
    (used : List (Ent n0 n1 n2 K))
    (hu : used = es.take (es.length / min 10000 es.length * min 10000 es.length))
    (Q : Matrix (Fin (p2 * p1)) (Fin s) K) :
    (∀ (U1 : Matrix (Fin n1) (Fin p1) K) (U2 : Matrix (Fin n2) (Fin p2) K),
      sparseTensorDoubleTensor (indsOf es) (valsOf es) (n0, n1, n2) ⟨_, _, Q⟩ 0 ⟨_, _, U1⟩ ⟨_, _, U2⟩ =
        .ok ⟨n0, s, projUnfold (cooTensor used) U1 U2 Q⟩) ∧
    (∀ (U1 : Matrix (Fin n0) (Fin p1) K) (U2 : Matrix (Fin n2) (Fin p2) K),
      sparseTensorDoubleTensor (indsOf es) (valsOf es) (n0, n1, n2) ⟨_, _, Q⟩ 1 ⟨_, _, U1⟩ ⟨_, _, U2⟩ =
        .ok ⟨n1, s, projUnfold (front1 (cooTensor used)) U1 U2 Q⟩) ∧
    (∀ (U1 : Matrix (Fin n0) (Fin p1) K) (U2 : Matrix (Fin n1) (Fin p2) K),
      sparseTensorDoubleTensor (indsOf es) (valsOf es) (n0, n1, n2) ⟨_, _, Q⟩ 2 ⟨_, _, U1⟩ ⟨_, _, U2⟩ =
        .ok ⟨n2, s, projUnfold (front2 (cooTensor used)) U1 U2 Q⟩) := by
  subst hu
  unfold sparseTensorDoubleTensor
  refine ⟨fun U1 U2 => ?_, fun U1 U2 => ?_, fun U1 U2 => ?_⟩
  · refine (sttLoop_typed stepSize (by decide) es hn Q U1 U2 0 1 2 rfl rfl (fun x => x.1.1)
      (fun x => x.1.2.1) (fun x => x.1.2.2) (fun _ => rfl) (fun _ => rfl) (fun _ => rfl)).trans ?_
    exact congrArg (fun M => Except.ok (Mat.mk _ _ M)) (stt_sum0 _ U1 U2 Q)
  · refine (sttLoop_typed stepSize (by decide) es hn Q U1 U2 1 0 2 rfl rfl (fun x => x.1.2.1)
      (fun x => x.1.1) (fun x => x.1.2.2) (fun _ => rfl) (fun _ => rfl) (fun _ => rfl)).trans ?_
    exact congrArg (fun M => Except.ok (Mat.mk _ _ M)) (stt_sum1 _ U1 U2 Q)
  · refine (sttLoop_typed stepSize (by decide) es hn Q U1 U2 2 0 1 rfl rfl (fun x => x.1.2.2)
      (fun x => x.1.1) (fun x => x.1.2.1) (fun _ => rfl) (fun _ => rfl) (fun _ => rfl)).trans ?_
    exact congrArg (fun M => Except.ok (Mat.mk _ _ M)) (stt_sum2 _ U1 U2 Q)

/-- all entries are used when there are at most 10000 of them or a multiple of 10000 -/
theorem used_all {α : Type} (es : List α) (h : es.length ≤ 10000 ∨ 10000 ∣ es.length) :
    es.take (es.length / min 10000 es.length * min 10000 es.length) = es := by
  apply List.take_of_length_le
  rcases h with h | h
  · rw [min_eq_right h]
    rcases Nat.eq_zero_or_pos es.length with h0 | h0
    · omega
    · rw [Nat.div_self h0, one_mul]
  · rcases Nat.eq_zero_or_pos es.length with h0 | h0
    · omega
    · rw [min_eq_left (Nat.le_of_dvd h0 h), Nat.div_mul_cancel h]

/-- **C56** (partial: full claim has no hypothesis on the number of entries; it is false beyond, see
`C56_violated` and `C56_violated_empty`) -/
theorem C56_all_entries_partial [DecidableEq K] {n0 n1 n2 p1 p2 s : ℕ} (es : List (Ent n0 n1 n2 K))
    (hn : es ≠ []) (hlen : es.length ≤ 10000 ∨ 10000 ∣ es.length)
    (Q : Matrix (Fin (p2 * p1)) (Fin s) K) :
    (∀ (U1 : Matrix (Fin n1) (Fin p1) K) (U2 : Matrix (Fin n2) (Fin p2) K),
      sparseTensorDoubleTensor (indsOf es) (valsOf es) (n0, n1, n2) ⟨_, _, Q⟩ 0 ⟨_, _, U1⟩ ⟨_, _, U2⟩ =
        .ok ⟨n0, s, projUnfold (cooTensor es) U1 U2 Q⟩) ∧
    (∀ (U1 : Matrix (Fin n0) (Fin p1) K) (U2 : Matrix (Fin n2) (Fin p2) K),
      sparseTensorDoubleTensor (indsOf es) (valsOf es) (n0, n1, n2) ⟨_, _, Q⟩ 1 ⟨_, _, U1⟩ ⟨_, _, U2⟩ =
        .ok ⟨n1, s, projUnfold (front1 (cooTensor es)) U1 U2 Q⟩) ∧
    (∀ (U1 : Matrix (Fin n0) (Fin p1) K) (U2 : Matrix (Fin n1) (Fin p2) K),
      sparseTensorDoubleTensor (indsOf es) (valsOf es) (n0, n1, n2) ⟨_, _, Q⟩ 2 ⟨_, _, U1⟩ ⟨_, _, U2⟩ =
        .ok ⟨n2, s, projUnfold (front2 (cooTensor es)) U1 U2 Q⟩) :=
  C56_exact es hn es (used_all es hlen).symm Q

theorem cooTensor_replicate (n : ℕ) (i j k : Fin 1) :
    cooTensor (List.replicate n (((0, 0, 0), 1) : Ent 1 1 1 ℤ)) i j k = n := by
  have hi : i = 0 := Subsingleton.elim _ _
  have hj : j = 0 := Subsingleton.elim _ _
  have hk : k = 0 := Subsingleton.elim _ _
  subst hi hj hk
  unfold cooTensor
  rw [List.filter_replicate_of_pos (by rfl), List.map_replicate, List.sum_replicate]
  simp

/-- `n` copies of one entry with value 1 in a `1 × 1 × 1` tensor, projected with ones -/
theorem proj_replicate (n : ℕ) :
    projUnfold (p1 := 1) (p2 := 1) (s := 1) (cooTensor (List.replicate n (((0, 0, 0), 1) : Ent 1 1 1 ℤ)))
      (Matrix.of fun _ _ => 1) (Matrix.of fun _ _ => 1) (Matrix.of fun _ _ => 1) 0 0 = n := by
  unfold projUnfold
  simp only [cooTensor_replicate]
  simp

/-- **C56** is violated: with 10001 entries the last one is ignored. -/
theorem C56_violated : ∃ (es : List (Ent 1 1 1 ℤ)) (Q : Matrix (Fin (1 * 1)) (Fin 1) ℤ)
    (U : Matrix (Fin 1) (Fin 1) ℤ), es.length = 10001 ∧
    sparseTensorDoubleTensor (indsOf es) (valsOf es) (1, 1, 1) ⟨_, _, Q⟩ 0 ⟨_, _, U⟩ ⟨_, _, U⟩ ≠
      .ok ⟨1, 1, projUnfold (cooTensor es) U U Q⟩ := by
  obtain ⟨n, hn⟩ : ∃ n : ℕ, n = 10001 := ⟨_, rfl⟩
  obtain ⟨m, hm⟩ : ∃ m : ℕ, m = 10000 := ⟨_, rfl⟩
  refine ⟨List.replicate n ((0, 0, 0), 1), Matrix.of fun _ _ => 1, Matrix.of fun _ _ => 1, ?_, ?_⟩
  · rw [List.length_replicate, hn]
  have hne : List.replicate n (((0, 0, 0), 1) : Ent 1 1 1 ℤ) ≠ [] :=
    List.ne_nil_of_length_pos (by rw [List.length_replicate]; omega)
  have hl : List.replicate m (((0, 0, 0), 1) : Ent 1 1 1 ℤ) =
      (List.replicate n (((0, 0, 0), 1) : Ent 1 1 1 ℤ)).take
        ((List.replicate n (((0, 0, 0), 1) : Ent 1 1 1 ℤ)).length /
          min 10000 (List.replicate n (((0, 0, 0), 1) : Ent 1 1 1 ℤ)).length *
          min 10000 (List.replicate n (((0, 0, 0), 1) : Ent 1 1 1 ℤ)).length) := by
    rw [List.length_replicate, List.take_replicate]
    congr 1
    rw [hm, hn]
    norm_num
  have hex := (C56_exact _ hne _ hl (Matrix.of fun _ _ => (1 : ℤ) : Matrix (Fin (1 * 1)) (Fin 1) ℤ)).1
    (Matrix.of fun _ _ => 1) (Matrix.of fun _ _ => 1)
  intro h
  have h2 := Except.ok.inj (hex.symm.trans h)
  rw [Mat.mk.injEq] at h2
  have h3 := congrFun (congrFun (eq_of_heq h2.2.2) 0) 0
  rw [proj_replicate, proj_replicate] at h3
  omega

/-- **C56** is violated: without entries the function raises instead of returning zeros. -/
theorem C56_violated_empty [DecidableEq K] (shape : ℕ × ℕ × ℕ) (vals : List K) (q u1 u2 : Mat K)
    (m : ℤ) (hm : m = 0 ∨ m = 1 ∨ m = 2) :
    sparseTensorDoubleTensor [] vals shape q m u1 u2 = .error .zeroDivisionError := by
  rcases hm with rfl | rfl | rfl <;> rfl

/-- **C56** What is missing: the result plus the product of the dropped tail is the right answer. -/
theorem C56_missing {r m1 m2 p1 p2 s : ℕ} (x y : T3 r m1 m2 K)
    (U1 : Matrix (Fin m1) (Fin p1) K) (U2 : Matrix (Fin m2) (Fin p2) K)
    (Q : Matrix (Fin (p2 * p1)) (Fin s) K) :
    projUnfold (x + y) U1 U2 Q = projUnfold x U1 U2 Q + projUnfold y U1 U2 Q := by
  funext i c
  simp only [projUnfold, Matrix.add_apply, Pi.add_apply, add_mul, Finset.sum_add_distrib]

/-- **C56** The cached variant uses every entry exactly once, whatever their number. -/
theorem C56_old_variant {n0 n1 n2 p1 p2 s : ℕ} (es : List (Ent n0 n1 n2 K))
    (Q : Matrix (Fin (p2 * p1)) (Fin s) K) :
    (∀ (U1 : Matrix (Fin n1) (Fin p1) K) (U2 : Matrix (Fin n2) (Fin p2) K),
      sparseTensorDoubleTensorOld (indsOf es) (valsOf es) (n0, n1, n2) ⟨_, _, Q⟩ 0 ⟨_, _, U1⟩ ⟨_, _, U2⟩ =
        .ok ⟨n0, s, projUnfold (cooTensor es) U1 U2 Q⟩) ∧
    (∀ (U1 : Matrix (Fin n0) (Fin p1) K) (U2 : Matrix (Fin n2) (Fin p2) K),
      sparseTensorDoubleTensorOld (indsOf es) (valsOf es) (n0, n1, n2) ⟨_, _, Q⟩ 1 ⟨_, _, U1⟩ ⟨_, _, U2⟩ =
        .ok ⟨n1, s, projUnfold (front1 (cooTensor es)) U1 U2 Q⟩) ∧
    (∀ (U1 : Matrix (Fin n0) (Fin p1) K) (U2 : Matrix (Fin n1) (Fin p2) K),
      sparseTensorDoubleTensorOld (indsOf es) (valsOf es) (n0, n1, n2) ⟨_, _, Q⟩ 2 ⟨_, _, U1⟩ ⟨_, _, U2⟩ =
        .ok ⟨n2, s, projUnfold (front2 (cooTensor es)) U1 U2 Q⟩) := by
  have hz : (indsOf es).zip (valsOf es) = es.map fun e => (e.ind, e.2) := zip_map_self _ _ _
  have hl : (indsOf es).length ≤ (valsOf es).length := by simp [indsOf, valsOf]
  unfold sparseTensorDoubleTensorOld
  refine ⟨fun U1 U2 => ?_, fun U1 U2 => ?_, fun U1 U2 => ?_⟩
  · rw [show otherModes 0 = .ok (1, 2) from rfl, except_bind_ok]
    simp only
    rw [if_pos hl, except_bind_ok, hz]
    obtain ⟨c', h⟩ := sttOld_foldl Q U1 U2 0 1 2 es (fun e : Ent n0 n1 n2 K => (e.ind, e.2))
      (fun x => x.1.1) (fun x => x.1.2.1) (fun x => x.1.2.2) (fun _ => rfl) (fun _ => rfl)
      (fun _ => rfl) 0 [] (by intro x y v h; simp at h)
    refine (congrArg (fun y => y >>= _) h).trans ?_
    refine congrArg (fun M => Except.ok (Mat.mk _ _ M)) (Eq.trans ?_ (stt_sum0 es U1 U2 Q))
    funext i c
    exact zero_add _
  · rw [show otherModes 1 = .ok (0, 2) from rfl, except_bind_ok]
    simp only
    rw [if_pos hl, except_bind_ok, hz]
    obtain ⟨c', h⟩ := sttOld_foldl Q U1 U2 1 0 2 es (fun e : Ent n0 n1 n2 K => (e.ind, e.2))
      (fun x => x.1.2.1) (fun x => x.1.1) (fun x => x.1.2.2) (fun _ => rfl) (fun _ => rfl)
      (fun _ => rfl) 0 [] (by intro x y v h; simp at h)
    refine (congrArg (fun y => y >>= _) h).trans ?_
    refine congrArg (fun M => Except.ok (Mat.mk _ _ M)) (Eq.trans ?_ (stt_sum1 es U1 U2 Q))
    funext i c
    exact zero_add _
  · rw [show otherModes 2 = .ok (0, 1) from rfl, except_bind_ok]
    simp only
    rw [if_pos hl, except_bind_ok, hz]
    obtain ⟨c', h⟩ := sttOld_foldl Q U1 U2 2 0 1 es (fun e : Ent n0 n1 n2 K => (e.ind, e.2))
      (fun x => x.1.2.2) (fun x => x.1.1) (fun x => x.1.2.1) (fun _ => rfl) (fun _ => rfl)
      (fun _ => rfl) 0 [] (by intro x y v h; simp at h)
    refine (congrArg (fun y => y >>= _) h).trans ?_
    refine congrArg (fun M => Except.ok (Mat.mk _ _ M)) (Eq.trans ?_ (stt_sum2 es U1 U2 Q))
    funext i c
    exact zero_add _

/-- two entries in one row, `Q` of 2 rows -/
example : let es : List (Ent 2 2 1 ℤ) := [((0, 1, 0), 5), ((0, 0, 0), 1), ((1, 0, 0), 2)]
    let U1 : Mat ℤ := ⟨2, 2, !![1, 2; 3, 4]⟩
    let U2 : Mat ℤ := ⟨1, 1, !![10]⟩
    let Q : Mat ℤ := ⟨2, 1, !![1; 1]⟩
    (sparseTensorDoubleTensor (indsOf es) (valsOf es) (2, 2, 1) Q 0 U1 U2).map
      (fun t => (List.finRange t.rows).map fun i => (List.finRange t.cols).map fun j => t.val i j) =
      .ok [[380], [60]] := by decide +kernel

/-! ### C57 conversions -/

/-- **C57** A dense tensor survives the round trip, and the COO data represents it. -/
theorem C57_round_trip {n0 n1 n2 : ℕ} (t : T3 n0 n1 n2 K) :
    sparseToDense (denseToSparse ⟨n0, n1, n2, t⟩).1 (denseToSparse ⟨n0, n1, n2, t⟩).2 (n0, n1, n2) =
      .ok ⟨n0, n1, n2, t⟩ ∧
    ∃ es : List (Ent n0 n1 n2 K), denseToSparse ⟨n0, n1, n2, t⟩ = (indsOf es, valsOf es) ∧
      cooTensor es = t := by
  constructor
  · rw [denseToSparse_typed]
    simp only
    rw [sparseToDense_typed, lastVal_eq_coo, cooTensor_denseEntries]
    unfold denseEntries
    rw [List.map_map]
    have : (Prod.fst ∘ fun c : Fin n0 × Fin n1 × Fin n2 => (c, t c.1 c.2.1 c.2.2)) = id := rfl
    rw [this, List.map_id]
    exact nodup_allCells _ _ _
  · exact ⟨_, denseToSparse_typed t, cooTensor_denseEntries t⟩

/-- **C57** (exact behaviour) Repeated coordinates keep the last listed value. -/
theorem C57_exact {n0 n1 n2 : ℕ} (es : List (Ent n0 n1 n2 K)) :
    sparseToDense (indsOf es) (valsOf es) (n0, n1, n2) = .ok ⟨n0, n1, n2, lastVal es⟩ :=
  sparseToDense_typed es

/-- **C57** (partial: full claim without the hypothesis, false by `C57_violated`) -/
theorem C57_sum_partial {n0 n1 n2 : ℕ} (es : List (Ent n0 n1 n2 K)) (h : (es.map Prod.fst).Nodup) :
    sparseToDense (indsOf es) (valsOf es) (n0, n1, n2) = .ok ⟨n0, n1, n2, cooTensor es⟩ := by
  rw [sparseToDense_typed, lastVal_eq_coo es h]

/-- **C57** is violated: two values at one coordinate are not added. -/
theorem C57_violated : ∃ es : List (Ent 1 1 1 ℤ),
    sparseToDense (indsOf es) (valsOf es) (1, 1, 1) ≠ .ok ⟨1, 1, 1, cooTensor es⟩ := by
  refine ⟨[((0, 0, 0), 1), ((0, 0, 0), 1)], ?_⟩
  rw [sparseToDense_typed]
  intro h
  simp only [Except.ok.injEq, Ten.mk.injEq, heq_eq_eq, true_and] at h
  have := congrFun (congrFun (congrFun h 0) 0) 0
  revert this
  decide

/-! ### C58 Tucker format -/

/-- **C58** -/
theorem C58_element {n0 n1 n2 r0 r1 r2 : ℕ} (U1 : Matrix (Fin n0) (Fin r0) K)
    (U2 : Matrix (Fin n1) (Fin r1) K) (U3 : Matrix (Fin n2) (Fin r2) K) (g : T3 r0 r1 r2 K)
    (i : Fin n0) (j : Fin n1) (k : Fin n2) :
    getTuckerElement ((i : ℕ) : ℤ) ((j : ℕ) : ℤ) ((k : ℕ) : ℤ) ⟨_, _, U1⟩ ⟨_, _, U2⟩ ⟨_, _, U3⟩
      ⟨_, _, _, g⟩ = .ok (∑ a, ∑ b, ∑ c, g a b c * U1 i a * U2 j b * U3 k c) :=
  getTuckerElement_typed U1 U2 U3 g i j k

theorem getD_map_finRange {α : Type} {n : ℕ} (f : Fin n → α) (i : Fin n) (d : α) :
    ((List.finRange n).map f).getD i d = f i := by
  rw [List.getD_eq_getElem?_getD, List.getElem?_eq_getElem (by simp)]
  simp

/-- **C58** -/
theorem C58_tensor {n0 n1 n2 r0 r1 r2 : ℕ} (U1 : Matrix (Fin n0) (Fin r0) K)
    (U2 : Matrix (Fin n1) (Fin r1) K) (U3 : Matrix (Fin n2) (Fin r2) K) (g : T3 r0 r1 r2 K) :
    constructTensorFromTucker ⟨_, _, U1⟩ ⟨_, _, U2⟩ ⟨_, _, U3⟩ ⟨_, _, _, g⟩ =
      .ok ⟨n0, n1, n2, fun i j k => ∑ a, ∑ b, ∑ c, g a b c * U1 i a * U2 j b * U3 k c⟩ := by
  unfold constructTensorFromTucker
  rw [mapM_pure_ok (g := fun i => (List.finRange n1).map fun j => (List.finRange n2).map fun k =>
    tuckerTensor U1 U2 U3 g i j k) (h := ?_), except_bind_ok]
  · show Except.ok _ = _
    congr 2
    funext i j k
    refine (congrArg (fun l => List.getD (List.getD l _ _) _ _) (getD_map_finRange _ i _)).trans ?_
    refine (congrArg (fun l => List.getD l _ _) (getD_map_finRange _ j _)).trans ?_
    exact getD_map_finRange _ k _
  · intro i _
    rw [mapM_pure_ok (g := fun j => (List.finRange n2).map fun k =>
      tuckerTensor U1 U2 U3 g i j k) (h := ?_)]
    intro j _
    rw [mapM_pure_ok (g := fun k => tuckerTensor U1 U2 U3 g i j k) (h := ?_)]
    intro k _
    exact getTuckerElement_typed U1 U2 U3 g i j k

example : (getTuckerElement 1 0 0 (⟨2, 2, !![1, 2; 3, 4]⟩ : Mat ℤ) ⟨1, 1, !![5]⟩ ⟨1, 2, !![1, 10]⟩
    ⟨2, 1, 2, fun a _ c => (a : ℤ) + c⟩) = .ok (5 * (3 * 10 + 4 * 1 + 4 * 2 * 10)) := by
  decide +kernel

end

/-! ### C59 relative errors -/

theorem foldlM_sq {α β : Type} (l : List α) (g : α → β) (f : β → PyM ℝ) (x : α → ℝ)
    (val : β → ℝ) (h : ∀ a ∈ l, f (g a) = .ok (x a)) :
    (l.map g).foldlM (fun acc e => do
      let y ← f e
      pure (acc + (val e - y) ^ 2)) 0 =
    (.ok (l.map fun a => (val (g a) - x a) ^ 2).sum : PyM ℝ) := by
  rw [foldlM_map_ok _ g (fun a acc => acc + (val (g a) - x a) ^ 2)]
  · congr 1
    have := isInc_foldl (fun a acc => acc + (val (g a) - x a) ^ 2) (fun a => (val (g a) - x a) ^ 2) l
      (fun a _ t => rfl) 0
    rw [zero_add] at this
    exact this
  · intro a ha t
    rw [h a ha]
    rfl

theorem sum_sq_eq_zero {α : Type} (l : List α) (x : α → ℝ) :
    (l.map fun a => x a ^ 2).sum = 0 ↔ ∀ a ∈ l, x a = 0 := by
  induction l with
  | nil => simp
  | cons a l ih =>
    have h1 : 0 ≤ x a ^ 2 := sq_nonneg _
    have h2 : 0 ≤ (l.map fun a => x a ^ 2).sum := by
      apply List.sum_nonneg
      intro y hy
      obtain ⟨b, _, rfl⟩ := List.mem_map.1 hy
      exact sq_nonneg _
    rw [List.map_cons, List.sum_cons, List.forall_mem_cons, ← ih]
    constructor
    · intro h
      have h3 : x a ^ 2 = 0 := by linarith
      exact ⟨by simpa using h3, by linarith⟩
    · rintro ⟨h3, h4⟩
      rw [h3, h4]; ring

theorem sum_sq_nonneg (l : List ℝ) : 0 ≤ (l.map (· ^ 2)).sum := by
  apply List.sum_nonneg
  intro y hy
  obtain ⟨b, _, rfl⟩ := List.mem_map.1 hy
  exact sq_nonneg _

theorem EPS_pos : 0 < EPS := by unfold EPS; positivity

/-- quotient of square roots used by both error functions -/
theorem rel_zero {α : Type} (l : List α) (x : α → ℝ) (vals : List ℝ) :
    0 ≤ Real.sqrt (l.map fun a => x a ^ 2).sum / Real.sqrt ((vals.map (· ^ 2)).sum + EPS) ∧
    (Real.sqrt (l.map fun a => x a ^ 2).sum / Real.sqrt ((vals.map (· ^ 2)).sum + EPS) = 0 ↔
      ∀ a ∈ l, x a = 0) := by
  have hd : 0 < Real.sqrt ((vals.map (· ^ 2)).sum + EPS) :=
    Real.sqrt_pos.2 (by have := sum_sq_nonneg vals; have := EPS_pos; linarith)
  have hs : 0 ≤ (l.map fun a => x a ^ 2).sum := by
    apply List.sum_nonneg
    intro y hy
    obtain ⟨b, _, rfl⟩ := List.mem_map.1 hy
    exact sq_nonneg _
  refine ⟨div_nonneg (Real.sqrt_nonneg _) hd.le, ?_⟩
  rw [div_eq_zero_iff, or_iff_left hd.ne', Real.sqrt_eq_zero hs, sum_sq_eq_zero]

/-- **C59** tensor version -/
theorem C59_tensor {n0 n1 n2 r0 r1 r2 : ℕ} (es : List (Ent n0 n1 n2 ℝ))
    (U1 : Matrix (Fin n0) (Fin r0) ℝ) (U2 : Matrix (Fin n1) (Fin r1) ℝ)
    (U3 : Matrix (Fin n2) (Fin r2) ℝ) (g : T3 r0 r1 r2 ℝ) :
    ∃ x, tuckerSqrtErrRelative (indsOf es) (valsOf es) ⟨_, _, U1⟩ ⟨_, _, U2⟩ ⟨_, _, U3⟩ ⟨_, _, _, g⟩ =
        .ok x ∧ 0 ≤ x ∧
      (x = 0 ↔ ∀ e ∈ es, tuckerTensor U1 U2 U3 g e.1.1 e.1.2.1 e.1.2.2 = e.2) := by
  have hz : (indsOf es).zip (valsOf es) = es.map fun e => (e.ind, e.2) := zip_map_self _ _ _
  have hl : (indsOf es).length ≤ (valsOf es).length := by simp [indsOf, valsOf]
  have h := rel_zero es (fun e => e.2 - tuckerTensor U1 U2 U3 g e.1.1 e.1.2.1 e.1.2.2) (valsOf es)
  refine ⟨_, ?_, h.1, h.2.trans ?_⟩
  · unfold tuckerSqrtErrRelative tuckerSqrtErr
    rw [if_pos hl, except_bind_ok, hz]
    beta_reduce
    rw [foldlM_sq es (fun e : Ent n0 n1 n2 ℝ => (e.ind, e.2))
      (fun e => getTuckerElement e.1.1 e.1.2.1 e.1.2.2 ⟨_, _, U1⟩ ⟨_, _, U2⟩ ⟨_, _, U3⟩ ⟨_, _, _, g⟩)
      (fun e => tuckerTensor U1 U2 U3 g e.1.1 e.1.2.1 e.1.2.2) (fun e => e.2)
      (fun e _ => getTuckerElement_typed U1 U2 U3 g _ _ _)]
    rfl
  · constructor
    · intro h e he; have := h e he; linarith
    · intro h e he; rw [h e he]; ring

/-- entry of a sparse matrix with in-range indices -/
abbrev Ent2 (m n : ℕ) := (Fin m × Fin n) × ℝ
/-- index pairs -/
def inds2 {m n : ℕ} (es : List (Ent2 m n)) : List (ℤ × ℤ) :=
  es.map fun e => (((e.1.1 : ℕ) : ℤ), ((e.1.2 : ℕ) : ℤ))
/-- values -/
def vals2 {m n : ℕ} (es : List (Ent2 m n)) : List ℝ := es.map Prod.snd

theorem getMf_typed {m n r : ℕ} (U : Matrix (Fin m) (Fin r) ℝ) (V : Matrix (Fin r) (Fin n) ℝ)
    (i : Fin m) (j : Fin n) :
    getMfElement ((i : ℕ) : ℤ) ((j : ℕ) : ℤ) ⟨_, _, U⟩ ⟨_, _, V⟩ = .ok ((U * V) i j) := by
  unfold getMfElement
  rw [row_typed, except_bind_ok]
  refine (congrArg (· >>= _) (row_typed V.transpose j)).trans ((dif_pos (le_refl r)).trans ?_)
  show Except.ok _ = _
  congr 1
  have h := isInc_finRange (fun (a : Fin r) (t : ℝ) => t + U i a * V a j) (fun a => U i a * V a j)
    (fun a t => rfl) 0
  rw [zero_add] at h
  exact h

theorem getSvd_typed {m n r : ℕ} (U : Matrix (Fin m) (Fin r) ℝ) (s : Fin r → ℝ)
    (V : Matrix (Fin r) (Fin n) ℝ) (i : Fin m) (j : Fin n) :
    getSvdElement ((i : ℕ) : ℤ) ((j : ℕ) : ℤ) ⟨_, _, U⟩ s ⟨_, _, V⟩ =
      .ok ((U * (Matrix.diagonal s * V)) i j) := by
  unfold getSvdElement
  rw [row_typed, except_bind_ok]
  refine (congrArg (· >>= _) (row_typed V.transpose j)).trans
    ((dif_pos ⟨le_refl r, le_refl r⟩).trans ?_)
  show Except.ok _ = _
  congr 1
  have h := isInc_finRange (fun (a : Fin r) (t : ℝ) => t + U i a * s a * V a j)
    (fun a => U i a * s a * V a j) (fun a t => rfl) 0
  rw [zero_add] at h
  refine Eq.trans h ?_
  rw [Matrix.mul_apply]
  apply Finset.sum_congr rfl
  intro a _
  rw [Matrix.diagonal_mul]
  ring

/-- **C59** matrix version: a 2-D `s`, and a 1-D `s` (singular values) -/
theorem C59_matrix {m n r : ℕ} (es : List (Ent2 m n)) (U : Matrix (Fin m) (Fin r) ℝ)
    (V : Matrix (Fin r) (Fin n) ℝ) :
    (∀ S : Matrix (Fin r) (Fin r) ℝ,
      ∃ x, mtxSqrtErrRelative (inds2 es) (vals2 es) ⟨_, _, U⟩ (.mat ⟨_, _, S⟩) ⟨_, _, V⟩ = .ok x ∧
        0 ≤ x ∧ (x = 0 ↔ ∀ e ∈ es, (U * S * V) e.1.1 e.1.2 = e.2)) ∧
    (∀ s : Fin r → ℝ,
      ∃ x, mtxSqrtErrRelative (inds2 es) (vals2 es) ⟨_, _, U⟩ (.vec r s) ⟨_, _, V⟩ = .ok x ∧
        0 ≤ x ∧ (x = 0 ↔ ∀ e ∈ es, ∑ a, U e.1.1 a * s a * V a e.1.2 = e.2)) ∧
    (∀ s : Fin r → ℝ,
      mtxSqrtErrRelative (inds2 es) (vals2 es) ⟨_, _, U⟩ (.vec r s) ⟨_, _, V⟩ =
      mtxSqrtErrRelative (inds2 es) (vals2 es) ⟨_, _, U⟩ (.mat (Mat.diag s)) ⟨_, _, V⟩) := by
  have hz : (inds2 es).zip (vals2 es) =
      es.map fun e => ((((e.1.1 : ℕ) : ℤ), ((e.1.2 : ℕ) : ℤ)), e.2) := zip_map_self _ _ _
  have hl : (inds2 es).length ≤ (vals2 es).length := by simp [inds2, vals2]
  have hM : ∀ S : Matrix (Fin r) (Fin r) ℝ,
      mtxSqrtErrRelative (inds2 es) (vals2 es) ⟨_, _, U⟩ (.mat ⟨_, _, S⟩) ⟨_, _, V⟩ =
      .ok (Real.sqrt (es.map fun e => (e.2 - (U * (S * V)) e.1.1 e.1.2) ^ 2).sum /
        Real.sqrt (((vals2 es).map (· ^ 2)).sum + EPS)) := by
    intro S
    unfold mtxSqrtErrRelative mtxSqrtErr
    rw [if_pos hl, except_bind_ok]
    simp only
    rw [Mat.dot_mk, except_bind_ok, hz,
      foldlM_sq es (fun e : Ent2 m n => ((((e.1.1 : ℕ) : ℤ), ((e.1.2 : ℕ) : ℤ)), e.2))
      (fun e => getMfElement e.1.1 e.1.2 ⟨_, _, U⟩ ⟨_, _, S * V⟩)
      (fun e => (U * (S * V)) e.1.1 e.1.2) (fun e => e.2) (fun e _ => getMf_typed U _ _ _)]
    rfl
  have hV : ∀ s : Fin r → ℝ,
      mtxSqrtErrRelative (inds2 es) (vals2 es) ⟨_, _, U⟩ (.vec r s) ⟨_, _, V⟩ =
      .ok (Real.sqrt (es.map fun e => (e.2 - (U * (Matrix.diagonal s * V)) e.1.1 e.1.2) ^ 2).sum /
        Real.sqrt (((vals2 es).map (· ^ 2)).sum + EPS)) := by
    intro s
    unfold mtxSqrtErrRelative mtxSqrtErr
    rw [if_pos hl, except_bind_ok]
    simp only
    rw [hz, foldlM_sq es (fun e : Ent2 m n => ((((e.1.1 : ℕ) : ℤ), ((e.1.2 : ℕ) : ℤ)), e.2))
      (fun e => getSvdElement e.1.1 e.1.2 ⟨_, _, U⟩ s ⟨_, _, V⟩)
      (fun e => (U * (Matrix.diagonal s * V)) e.1.1 e.1.2) (fun e => e.2)
      (fun e _ => getSvd_typed U s V _ _)]
    rfl
  refine ⟨?_, ?_, ?_⟩
  · intro S
    have h := rel_zero es (fun e => e.2 - (U * (S * V)) e.1.1 e.1.2) (vals2 es)
    refine ⟨_, hM S, h.1, h.2.trans ?_⟩
    rw [Matrix.mul_assoc]
    constructor
    · intro h e he; have := h e he; linarith
    · intro h e he; rw [h e he]; ring
  · intro s
    have h := rel_zero es (fun e => e.2 - (U * (Matrix.diagonal s * V)) e.1.1 e.1.2) (vals2 es)
    refine ⟨_, hV s, h.1, h.2.trans ?_⟩
    have : ∀ e : Ent2 m n, ∑ a, U e.1.1 a * s a * V a e.1.2 =
        (U * (Matrix.diagonal s * V)) e.1.1 e.1.2 := by
      intro e
      rw [Matrix.mul_apply]
      apply Finset.sum_congr rfl
      intro a _
      rw [Matrix.diagonal_mul]
      ring
    constructor
    · intro h e he; have h2 := h e he; exact (this e).trans (by linarith)
    · intro h e he; have h2 := (this e).symm.trans (h e he); rw [h2]; ring
  · intro s
    rw [hV s]
    exact (hM (Matrix.diagonal s)).symm

/-- **C59, shapes.** The code reads the first `u.shape[1]` entries of a column of `s vt` without a check of the
range; the model answers only if they exist: with a 2-D `s` and at least one entry, `s` has at least as many rows as `u`
has columns. -/
theorem C59_shapes (inds : List (ℤ × ℤ)) (vals : List ℝ) (u s vt : Mat ℝ) (x : ℝ) (hne : inds ≠ [])
    (h : mtxSqrtErrRelative inds vals u (.mat s) vt = .ok x) :
    inds.length ≤ vals.length ∧ s.cols = vt.rows ∧ u.cols ≤ s.rows := by
  unfold mtxSqrtErrRelative mtxSqrtErr at h
  by_cases hl : inds.length ≤ vals.length
  · rw [if_pos hl, except_bind_ok] at h
    obtain ⟨ur, uc, u⟩ := u
    obtain ⟨sr, sc, s⟩ := s
    obtain ⟨vr, vc, vt⟩ := vt
    by_cases hs : sc = vr
    · subst hs
      refine ⟨hl, rfl, ?_⟩
      by_contra hu
      simp only [Mat.dot_mk, except_bind_ok] at h
      cases inds with
      | nil => exact hne rfl
      | cons i is =>
        cases vals with
        | nil => simp at hl
        | cons v vs =>
          rw [List.zip_cons_cons, List.foldlM_cons] at h
          have : ∀ y, getMfElement i.1 i.2 ⟨ur, uc, u⟩ ⟨sr, vc, s * vt⟩ ≠ .ok y := by
            intro y hy
            unfold getMfElement at hy
            obtain ⟨a, _, hy⟩ := (bind_ok_iff _ _ _).1 hy
            obtain ⟨b, _, hy⟩ := (bind_ok_iff _ _ _).1 hy
            rw [dif_neg hu] at hy
            cases hy
          obtain ⟨r, hr, _⟩ := (bind_ok_iff _ _ _).1 h
          obtain ⟨r2, hr2, _⟩ := (bind_ok_iff _ _ _).1 hr
          obtain ⟨r3, hr3, _⟩ := (bind_ok_iff _ _ _).1 hr2
          obtain ⟨r4, hr4, _⟩ := (bind_ok_iff _ _ _).1 hr3
          exact this r4 hr4
    · exfalso
      obtain ⟨r, hr, _⟩ := (bind_ok_iff _ _ _).1 h
      obtain ⟨r2, hr2, _⟩ := (bind_ok_iff _ _ _).1 hr
      unfold Mat.dot at hr2
      rw [dif_neg hs] at hr2
      cases hr2
  · rw [if_neg hl] at h
    cases h

/-- **C59** dense matrix version, for non-empty matrices -/
theorem C59_dense {m n : ℕ} (hm : 0 < m) (hn : 0 < n) (A B : Matrix (Fin m) (Fin n) ℝ) :
    ∃ x, sqrtErrRelativeMtx ⟨_, _, A⟩ ⟨_, _, B⟩ = .ok x ∧ 0 ≤ x ∧ (x = 0 ↔ A = B) := by
  have hmn : ((m * n : ℕ) : ℝ) > 0 := by exact_mod_cast Nat.mul_pos hm hn
  have hne : ¬ (m * n = 0) := (Nat.mul_pos hm hn).ne'
  have hms : ∀ C : Matrix (Fin m) (Fin n) ℝ, meanSquare ⟨_, _, C⟩ =
      .ok ((∑ i, ∑ j, C i j ^ 2) / ((m * n : ℕ) : ℝ)) := by
    intro C; unfold meanSquare; rw [if_neg hne]
  have hnn : ∀ C : Matrix (Fin m) (Fin n) ℝ, 0 ≤ (∑ i, ∑ j, C i j ^ 2) / ((m * n : ℕ) : ℝ) := by
    intro C
    apply div_nonneg _ hmn.le
    exact Finset.sum_nonneg fun i _ => Finset.sum_nonneg fun j _ => sq_nonneg _
  refine ⟨Real.sqrt ((∑ i, ∑ j, (A - B) i j ^ 2) / ((m * n : ℕ) : ℝ) /
    ((∑ i, ∑ j, B i j ^ 2) / ((m * n : ℕ) : ℝ) + EPS)), ?_, Real.sqrt_nonneg _, ?_⟩
  · unfold sqrtErrRelativeMtx
    rw [Mat.sub_mk, except_bind_ok, hms, except_bind_ok, hms, except_bind_ok]
    rfl
  · have hd : 0 < (∑ i, ∑ j, B i j ^ 2) / ((m * n : ℕ) : ℝ) + EPS := by
      have := hnn B; have := EPS_pos; linarith
    rw [Real.sqrt_eq_zero (div_nonneg (hnn _) hd.le), div_eq_zero_iff, or_iff_left hd.ne',
      div_eq_zero_iff, or_iff_left hmn.ne']
    refine (Finset.sum_eq_zero_iff_of_nonneg (f := fun i => ∑ j, (A - B) i j ^ 2)
        (fun i _ => Finset.sum_nonneg fun j _ => sq_nonneg _)).trans ?_
    constructor
    · intro h
      ext i j
      have h2 := h i (Finset.mem_univ _)
      have h3 := (Finset.sum_eq_zero_iff_of_nonneg (f := fun j => (A - B) i j ^ 2)
        (fun j _ => sq_nonneg _)).1 h2 j (Finset.mem_univ _)
      have h4 : (A - B) i j = 0 := by simpa using h3
      rw [Matrix.sub_apply] at h4
      linarith
    · intro h i _
      rw [h]
      simp

/-- a perfect and an imperfect reconstruction: hypotheses of `C59_matrix` and the value 0 / not 0 -/
example : ∃ x, mtxSqrtErrRelative (inds2 (m := 1) (n := 1) [((0, 0), 6)])
    (vals2 (m := 1) (n := 1) [((0, 0), 6)]) ⟨1, 1, !![2]⟩ (.vec 1 ![3]) ⟨1, 1, !![1]⟩ = .ok x ∧ x = 0 := by
  obtain ⟨x, h1, _, h3⟩ := (C59_matrix (m := 1) (n := 1) (r := 1) [((0, 0), 6)] !![2] !![1]).2.1 ![3]
  refine ⟨x, h1, h3.2 ?_⟩
  intro e he
  rw [List.mem_singleton] at he
  subst he
  norm_num [Fin.sum_univ_one]

example : ∃ x, mtxSqrtErrRelative (inds2 (m := 1) (n := 1) [((0, 0), 7)])
    (vals2 (m := 1) (n := 1) [((0, 0), 7)]) ⟨1, 1, !![2]⟩ (.vec 1 ![3]) ⟨1, 1, !![1]⟩ = .ok x ∧ x ≠ 0 := by
  obtain ⟨x, h1, _, h3⟩ := (C59_matrix (m := 1) (n := 1) (r := 1) [((0, 0), 7)] !![2] !![1]).2.1 ![3]
  refine ⟨x, h1, fun h => ?_⟩
  have := h3.1 h _ (List.mem_singleton.2 rfl)
  norm_num [Fin.sum_univ_one] at this

end DynCF
