/- Property C136: the core is built by the same sequence of rounded operations in all variants. -/
import Verif.Model.TensorOps
import Verif.Model.Parallel
import Verif.Lemmas.Parallel
import Verif.Lemmas.Mapping

namespace DynCF
variable {K : Type} [Zero K] [Add K] [Mul K]

/-- The value of one cell: the products of the entries, each taken from left to right, added in the order of the
entries, starting with zero. Nothing is assumed about the three operations. -/
def coreCell {n0 n1 n2 r1 r2 r3 : ℕ} (es : List (Ent n0 n1 n2 K)) (U1 : Matrix (Fin n0) (Fin r1) K)
    (U2 : Matrix (Fin n1) (Fin r2) K) (U3 : Matrix (Fin n2) (Fin r3) K) (i : Fin r1) (j : Fin r2) (k : Fin r3) : K :=
  es.foldl (fun x e => x + e.2 * U1 e.1.1 i * U2 e.1.2.1 j * U3 e.1.2.2 k) 0

/-- the innermost loop -/
theorem loop3 {r1 r2 r3 : ℕ} (i : Fin r1) (j : Fin r2) (d : Fin r1 → Fin r2 → Fin r3 → K) (t : T3 r1 r2 r3 K)
    (a : Fin r1) (b : Fin r2) (c : Fin r3) :
    ((List.finRange r3).foldl (fun core k => addAt core i j k (d i j k)) t) a b c =
      if a = i ∧ b = j then t a b c + d a b c else t a b c := by
  have h : ∀ (l : List (Fin r3)) (t : T3 r1 r2 r3 K), l.Nodup →
      (l.foldl (fun core k => addAt core i j k (d i j k)) t) a b c =
        if a = i ∧ b = j ∧ c ∈ l then t a b c + d a b c else t a b c := by
    intro l
    induction l with
    | nil => intro t _; simp
    | cons k l ih =>
      intro t hl
      rw [List.nodup_cons] at hl
      rw [List.foldl_cons, ih _ hl.2]
      unfold addAt
      by_cases hab : a = i ∧ b = j
      · obtain ⟨rfl, rfl⟩ := hab
        by_cases hc : c = k
        · subst hc
          simp [hl.1]
        · simp [hc]
      · have h1 : ∀ p : Prop, ¬ (a = i ∧ b = j ∧ p) := fun p h => hab ⟨h.1, h.2.1⟩
        rw [if_neg (h1 _), if_neg (h1 _), if_neg (h1 _)]
  rw [h _ _ (List.nodup_finRange r3)]
  simp

/-- the two inner loops -/
theorem loop23 {r1 r2 r3 : ℕ} (i : Fin r1) (d : Fin r1 → Fin r2 → Fin r3 → K) (t : T3 r1 r2 r3 K)
    (a : Fin r1) (b : Fin r2) (c : Fin r3) :
    ((List.finRange r2).foldl (fun core j =>
      (List.finRange r3).foldl (fun core k => addAt core i j k (d i j k)) core) t) a b c =
      if a = i then t a b c + d a b c else t a b c := by
  have h : ∀ (l : List (Fin r2)) (t : T3 r1 r2 r3 K), l.Nodup →
      (l.foldl (fun core j => (List.finRange r3).foldl (fun core k => addAt core i j k (d i j k)) core) t) a b c =
        if a = i ∧ b ∈ l then t a b c + d a b c else t a b c := by
    intro l
    induction l with
    | nil => intro t _; simp
    | cons j l ih =>
      intro t hl
      rw [List.nodup_cons] at hl
      rw [List.foldl_cons, ih _ hl.2, loop3]
      by_cases ha : a = i
      · subst ha
        by_cases hb : b = j
        · subst hb
          simp [hl.1]
        · simp [hb]
      · have h1 : ∀ p : Prop, ¬ (a = i ∧ p) := fun p h => ha h.1
        rw [if_neg (h1 _), if_neg (h1 _), if_neg (h1 _)]
  rw [h _ _ (List.nodup_finRange r2)]
  simp

/-- the three loops of one entry -/
theorem loop123 {r1 r2 r3 : ℕ} (v : K) (x : Fin r1 → K) (y : Fin r2 → K) (z : Fin r3 → K) (t : T3 r1 r2 r3 K)
    (a : Fin r1) (b : Fin r2) (c : Fin r3) :
    coreEntryLoops v x y z t a b c = t a b c + v * x a * y b * z c := by
  unfold coreEntryLoops
  have h : ∀ (l : List (Fin r1)) (t : T3 r1 r2 r3 K), l.Nodup →
      (l.foldl (fun core i => (List.finRange r2).foldl (fun core j =>
        (List.finRange r3).foldl (fun core k => addAt core i j k (v * x i * y j * z k)) core) core) t) a b c =
        if a ∈ l then t a b c + v * x a * y b * z c else t a b c := by
    intro l
    induction l with
    | nil => intro t _; simp
    | cons i l ih =>
      intro t hl
      rw [List.nodup_cons] at hl
      rw [List.foldl_cons, ih _ hl.2, loop23 i (fun i j k => v * x i * y j * z k)]
      by_cases ha : a = i
      · subst ha
        simp [hl.1]
      · simp [ha]
  rw [h _ _ (List.nodup_finRange r1)]
  simp

theorem coreRows_in {n0 n1 n2 r1 r2 r3 : ℕ} (U1 : Matrix (Fin n0) (Fin r1) K) (U2 : Matrix (Fin n1) (Fin r2) K)
    (U3 : Matrix (Fin n2) (Fin r3) K) (e : Ent n0 n1 n2 K) :
    coreRows ⟨_, _, U1⟩ ⟨_, _, U2⟩ ⟨_, _, U3⟩ (Ent.ind e, e.2) = .ok (U1 e.1.1, U2 e.1.2.1, U3 e.1.2.2) := by
  unfold coreRows Mat.row
  simp only [Ent.ind, pyIdx_coe]
  rfl

theorem foldlM_ents {n0 n1 n2 : ℕ} {β : Type} (f : β → Ind3 × K → PyM β) (g : β → Ent n0 n1 n2 K → β)
    (h : ∀ b e, f b (Ent.ind e, e.2) = .ok (g b e)) :
    ∀ (es : List (Ent n0 n1 n2 K)) (b : β), (es.map fun e => (Ent.ind e, e.2)).foldlM f b = .ok (es.foldl g b)
  | [], _ => rfl
  | e :: es, b => by
    rw [List.map_cons, List.foldlM_cons, h, except_bind_ok, foldlM_ents f g h es, List.foldl_cons]

theorem cooEntries_in {n0 n1 n2 : ℕ} (es : List (Ent n0 n1 n2 K)) :
    cooEntries (indsOf es) (valsOf es) = .ok (es.map fun e => (Ent.ind e, e.2)) := by
  unfold cooEntries indsOf valsOf
  rw [if_pos (by simp), List.zip_map']

/-- **C136** (sequential function). Every cell of the core is the left-to-right sum of the products of the entries, in
any arithmetic. -/
theorem C136_sequential {n0 n1 n2 r1 r2 r3 : ℕ} (es : List (Ent n0 n1 n2 K)) (U1 : Matrix (Fin n0) (Fin r1) K)
    (U2 : Matrix (Fin n1) (Fin r2) K) (U3 : Matrix (Fin n2) (Fin r3) K) :
    constructCore (indsOf es) (valsOf es) ⟨_, _, U1⟩ ⟨_, _, U2⟩ ⟨_, _, U3⟩ =
      .ok ⟨r1, r2, r3, fun i j k => coreCell es U1 U2 U3 i j k⟩ := by
  unfold constructCore
  rw [cooEntries_in, except_bind_ok, foldlM_ents _ (fun core e => coreEntryLoops e.2 (U1 e.1.1) (U2 e.1.2.1)
    (U3 e.1.2.2) core), except_bind_ok]
  · congr 2
    funext i j k
    unfold coreCell
    have : ∀ (l : List (Ent n0 n1 n2 K)) (t : T3 r1 r2 r3 K),
        (l.foldl (fun core e => coreEntryLoops e.2 (U1 e.1.1) (U2 e.1.2.1) (U3 e.1.2.2) core) t) i j k =
          l.foldl (fun x e => x + e.2 * U1 e.1.1 i * U2 e.1.2.1 j * U3 e.1.2.2 k) (t i j k) := by
      intro l
      induction l with
      | nil => intro t; rfl
      | cons e l ih =>
        intro t
        rw [List.foldl_cons, ih, List.foldl_cons, loop123]
    exact this es _
  · intro b e
    rw [coreRows_in, except_bind_ok]
    rfl

/-- **C136** (parallel function, iterations one after the other). -/
theorem C136_parallel {n0 n1 n2 r1 r2 r3 : ℕ} (es : List (Ent n0 n1 n2 K)) (U1 : Matrix (Fin n0) (Fin r1) K)
    (U2 : Matrix (Fin n1) (Fin r2) K) (U3 : Matrix (Fin n2) (Fin r3) K) :
    constructCoreParallel (indsOf es) (valsOf es) ⟨_, _, U1⟩ ⟨_, _, U2⟩ ⟨_, _, U3⟩ =
      .ok ⟨r1, r2, r3, fun i j k => coreCell es U1 U2 U3 i j k⟩ := by
  have hbody : ∀ (i : Fin r1) (core : T3 r1 r2 r3 K),
      corePrangeBody (es.map fun e => (Ent.ind e, e.2)) ⟨_, _, U1⟩ ⟨_, _, U2⟩ ⟨_, _, U3⟩ i core =
      .ok (fun a b c => if a = i then
        es.foldl (fun x e => x + e.2 * U1 e.1.1 a * U2 e.1.2.1 b * U3 e.1.2.2 c) (core a b c) else core a b c) := by
    intro i core
    unfold corePrangeBody
    rw [foldlM_ents _ (fun core e => (List.finRange r2).foldl (fun core j => (List.finRange r3).foldl (fun core k =>
        addAt core i j k (e.2 * U1 e.1.1 i * U2 e.1.2.1 j * U3 e.1.2.2 k)) core) core)]
    · congr 1
      funext a b c
      have : ∀ (l : List (Ent n0 n1 n2 K)) (t : T3 r1 r2 r3 K),
          (l.foldl (fun core e => (List.finRange r2).foldl (fun core j => (List.finRange r3).foldl (fun core k =>
            addAt core i j k (e.2 * U1 e.1.1 i * U2 e.1.2.1 j * U3 e.1.2.2 k)) core) core) t) a b c =
          if a = i then l.foldl (fun x e => x + e.2 * U1 e.1.1 a * U2 e.1.2.1 b * U3 e.1.2.2 c) (t a b c)
          else t a b c := by
        intro l
        induction l with
        | nil => intro t; simp
        | cons e l ih =>
          intro t
          rw [List.foldl_cons, ih, loop23 i (fun i j k => e.2 * U1 e.1.1 i * U2 e.1.2.1 j * U3 e.1.2.2 k),
            List.foldl_cons]
          by_cases ha : a = i
          · simp [ha]
          · simp [ha]
      exact this es core
    · intro b e
      rw [coreRows_in, except_bind_ok]
      rfl
  have hfold : ∀ (l : List (Fin r1)) (t : T3 r1 r2 r3 K), l.Nodup →
      l.foldlM (fun core i => corePrangeBody (es.map fun e => (Ent.ind e, e.2)) ⟨_, _, U1⟩ ⟨_, _, U2⟩ ⟨_, _, U3⟩ i core) t =
      .ok (fun a b c => if a ∈ l then
        es.foldl (fun x e => x + e.2 * U1 e.1.1 a * U2 e.1.2.1 b * U3 e.1.2.2 c) (t a b c) else t a b c) := by
    intro l
    induction l with
    | nil => intro t _; simp; rfl
    | cons i l ih =>
      intro t hl
      rw [List.nodup_cons] at hl
      rw [List.foldlM_cons, hbody, except_bind_ok, ih _ hl.2]
      congr 1
      funext a b c
      by_cases ha : a = i
      · subst ha
        simp [hl.1]
      · simp [ha]
  unfold constructCoreParallel
  rw [cooEntries_in, except_bind_ok]
  simp only
  rw [hfold _ _ (List.nodup_finRange r1), except_bind_ok]
  congr 2
  funext i j k
  rw [if_pos (List.mem_finRange i)]
  rfl

/-! ### Interleaved execution -/

/-- a program made of read-add-write pairs adds, to each cell, its increments in program order -/
theorem runActs_order {C : Type} [DecidableEq C] (l : List (C × K)) (s : (C → K) × K) (c : C) :
    (runActs (l.flatMap fun p => [Act.load p.1, Act.store p.1 p.2]) s).1 c =
      ((l.filter fun p => decide (p.1 = c)).map Prod.snd).foldl (fun x y => x + y) (s.1 c) := by
  induction l generalizing s with
  | nil => simp [runActs]
  | cons p l ih =>
    simp only [List.flatMap_cons, runActs, List.foldl_append, List.foldl_cons, List.foldl_nil]
    have := ih ((Act.store p.1 p.2).run ((Act.load p.1).run s))
    simp only [runActs] at this
    rw [this, List.filter_cons]
    by_cases h : p.1 = c
    · subst h
      simp [Act.run]
    · have h' : ¬ c = p.1 := fun e => h e.symm
      simp [h, h', Act.run]

/-- the increments of one cell in one iteration -/
theorem iter_cell {n0 n1 n2 r1 r2 r3 : ℕ}
    (es : List (Ent n0 n1 n2 K)) (U1 : Matrix (Fin n0) (Fin r1) K) (U2 : Matrix (Fin n1) (Fin r2) K)
    (U3 : Matrix (Fin n2) (Fin r3) K) (x i : Fin r1) (j : Fin r2) (k : Fin r3) :
    ((es.flatMap fun e => (List.finRange r2).flatMap fun j =>
        (List.finRange r3).map fun k =>
          (((x, j, k) : Fin r1 × Fin r2 × Fin r3),
            e.2 * U1 e.1.1 x * U2 e.1.2.1 j * U3 e.1.2.2 k)).filter
            fun p => decide (p.1 = (i, j, k))).map Prod.snd =
          if x = i then es.map fun e => e.2 * U1 e.1.1 i * U2 e.1.2.1 j * U3 e.1.2.2 k else [] := by
  induction es with
  | nil => simp
  | cons e es ih =>
    rw [List.flatMap_cons, List.filter_append, List.map_append, ih]
    have h3 : ∀ (l : List (Fin r3)) (y : Fin r2), l.Nodup →
        ((l.map fun k' => (((x, y, k') : Fin r1 × Fin r2 × Fin r3),
          e.2 * U1 e.1.1 x * U2 e.1.2.1 y * U3 e.1.2.2 k')).filter fun p => decide (p.1 = (i, j, k))).map Prod.snd =
        if x = i ∧ y = j ∧ k ∈ l then [e.2 * U1 e.1.1 i * U2 e.1.2.1 j * U3 e.1.2.2 k] else [] := by
      intro l y
      induction l with
      | nil => intro _; simp
      | cons z l ih3 =>
        intro hl
        rw [List.nodup_cons] at hl
        rw [List.map_cons, List.filter_cons]
        by_cases hz : x = i ∧ y = j ∧ z = k
        · obtain ⟨rfl, rfl, rfl⟩ := hz
          rw [if_pos (by simp), List.map_cons, ih3 hl.2]
          simp [hl.1]
        · rw [if_neg (by simpa using hz), ih3 hl.2]
          by_cases hxy : x = i ∧ y = j
          · have : ¬ k = z := fun h => hz ⟨hxy.1, hxy.2, h.symm⟩
            simp [hxy, this]
          · rw [if_neg (fun h => hxy ⟨h.1, h.2.1⟩), if_neg (fun h => hxy ⟨h.1, h.2.1⟩)]
    have h2 : ∀ (l : List (Fin r2)), l.Nodup →
        ((l.flatMap fun y => (List.finRange r3).map fun k' => (((x, y, k') : Fin r1 × Fin r2 × Fin r3),
          e.2 * U1 e.1.1 x * U2 e.1.2.1 y * U3 e.1.2.2 k')).filter fun p => decide (p.1 = (i, j, k))).map Prod.snd =
        if x = i ∧ j ∈ l then [e.2 * U1 e.1.1 i * U2 e.1.2.1 j * U3 e.1.2.2 k] else [] := by
      intro l
      induction l with
      | nil => intro _; simp
      | cons y l ih2 =>
        intro hl
        rw [List.nodup_cons] at hl
        rw [List.flatMap_cons, List.filter_append, List.map_append, ih2 hl.2, h3 _ _ (List.nodup_finRange r3)]
        by_cases hx : x = i
        · by_cases hy : y = j
          · subst hy
            simp [hx, hl.1]
          · have : ¬ j = y := fun h => hy h.symm
            simp [hx, hy, this]
        · simp [hx]
    rw [h2 _ (List.nodup_finRange r2)]
    by_cases hx : x = i
    · simp [hx]
    · simp [hx]

/-- **C136** (any schedule). For any number of threads, any distribution of the iterations and any interleaving of the
individual reads and writes, a completed execution leaves exactly the value of the sequential function in every cell, in
any arithmetic: the additions to a cell are made in the order of the entries. -/
theorem C136_any_schedule {ι : Type} [DecidableEq ι] {n0 n1 n2 r1 r2 r3 : ℕ}
    (es : List (Ent n0 n1 n2 K)) (U1 : Matrix (Fin n0) (Fin r1) K) (U2 : Matrix (Fin n1) (Fin r2) K)
    (U3 : Matrix (Fin n2) (Fin r3) K) (asg : ι → List (Fin r1)) (hasg : IsAssignment asg)
    (reg0 : ι → K) (sched : List ι)
    (hfin : ∀ t, (((parallelStart es U1 U2 U3 asg reg0).exec sched).th t).todo = [])
    (i : Fin r1) (j : Fin r2) (k : Fin r3) :
    ((parallelStart es U1 U2 U3 asg reg0).exec sched).mem (i, j, k) = coreCell es U1 U2 U3 i j k := by
  have key := alone_exec (fun t => {c : Fin r1 × Fin r2 × Fin r3 | c.1 ∈ asg t})
    (fun t t' c h h' => by
      obtain ⟨t0, _, h0⟩ := hasg.2 c.1
      rw [h0 t h, h0 t' h'])
    (fun _ => (0 : K)) reg0 (fun t => (asg t).flatMap (iterActs es U1 U2 U3))
    (by
      intro t a ha
      rw [List.mem_flatMap] at ha
      obtain ⟨i, hi, ha⟩ := ha
      unfold iterActs at ha
      simp only [List.mem_flatMap] at ha
      obtain ⟨e, _, j, _, k, _, ha⟩ := ha
      simp only [List.mem_cons, List.not_mem_nil, or_false] at ha
      rcases ha with rfl | rfl <;> exact hi) sched
  obtain ⟨t, hit, _⟩ := hasg.2 i
  obtain ⟨done, h1, h2, h3⟩ := key t
  have hf := hfin t
  unfold parallelStart at hf ⊢
  rw [hf, List.append_nil] at h1
  rw [h3 (i, j, k) hit, h1]
  have hp : (asg t).flatMap (iterActs es U1 U2 U3) =
      ((asg t).flatMap fun i => es.flatMap fun e => (List.finRange r2).flatMap fun j =>
        (List.finRange r3).map fun k =>
          (((i, j, k) : Fin r1 × Fin r2 × Fin r3),
            e.2 * U1 e.1.1 i * U2 e.1.2.1 j * U3 e.1.2.2 k)).flatMap
      (fun p => [Act.load p.1, Act.store p.1 p.2]) := by
    unfold iterActs
    simp only [List.flatMap_assoc, List.flatMap_map]
  beta_reduce
  rw [hp, runActs_order]
  have hcalc : ∀ l : List (Fin r1), l.Nodup →
      ((l.flatMap fun i => es.flatMap fun e => (List.finRange r2).flatMap fun j =>
        (List.finRange r3).map fun k =>
          (((i, j, k) : Fin r1 × Fin r2 × Fin r3),
            e.2 * U1 e.1.1 i * U2 e.1.2.1 j * U3 e.1.2.2 k)).filter
            fun p => decide (p.1 = (i, j, k))).map Prod.snd =
      if i ∈ l then es.map fun e => e.2 * U1 e.1.1 i * U2 e.1.2.1 j * U3 e.1.2.2 k else [] := by
    intro l hl
    induction l with
    | nil => simp
    | cons x l ih =>
      rw [List.nodup_cons] at hl
      rw [List.flatMap_cons, List.filter_append, List.map_append, ih hl.2, iter_cell]
      by_cases hxi : x = i
      · subst hxi; simp [hl.1]
      · have : ¬ i = x := fun h => hxi h.symm
        simp [hxi, this]
  rw [hcalc (asg t) (hasg.1 t), if_pos hit, List.foldl_map]
  rfl

/-! ### An arithmetic with rounding -/

/-- Numbers with one decimal digit of precision: whole numbers rounded down to multiples of ten once they exceed ten. -/
structure Coarse where
  n : ℕ
  deriving DecidableEq

/-- rounding -/
def Coarse.round (n : ℕ) : Coarse := ⟨if n ≤ 10 then n else n / 10 * 10⟩

instance : Zero Coarse := ⟨⟨0⟩⟩
instance : Add Coarse := ⟨fun a b => Coarse.round (a.n + b.n)⟩
instance : Mul Coarse := ⟨fun a b => Coarse.round (a.n * b.n)⟩

/-- three entries in one cell, the small ones first -/
def exCoarse : List (Ent 1 1 1 Coarse) := [((0, 0, 0), ⟨6⟩), ((0, 0, 0), ⟨4⟩), ((0, 0, 0), ⟨10⟩)]

/-- The order of the entries matters in this arithmetic (20 or 10), so the theorems do not follow from the equality with
the exact sum. -/
example : coreCell exCoarse (fun _ _ => ⟨1⟩ : Matrix (Fin 1) (Fin 1) Coarse) (fun _ _ => ⟨1⟩ : Matrix (Fin 1) (Fin 1) Coarse)
      (fun _ _ => ⟨1⟩ : Matrix (Fin 1) (Fin 1) Coarse) 0 0 0 = ⟨20⟩ ∧
    coreCell exCoarse.reverse (fun _ _ => ⟨1⟩ : Matrix (Fin 1) (Fin 1) Coarse)
      (fun _ _ => ⟨1⟩ : Matrix (Fin 1) (Fin 1) Coarse) (fun _ _ => ⟨1⟩ : Matrix (Fin 1) (Fin 1) Coarse) 0 0 0 = ⟨10⟩ := by
  decide +kernel

/-- Both functions compute the rounded sum in the order of the entries. -/
example : (constructCore (indsOf exCoarse) (valsOf exCoarse) ⟨1, 1, fun _ _ => ⟨1⟩⟩ ⟨1, 1, fun _ _ => ⟨1⟩⟩
      ⟨1, 1, fun _ _ => ⟨1⟩⟩).map (fun t => (List.finRange t.d0).map fun i => (List.finRange t.d1).map fun j =>
        (List.finRange t.d2).map fun k => t.val i j k) = .ok [[[⟨20⟩]]] ∧
    (constructCoreParallel (indsOf exCoarse.reverse) (valsOf exCoarse.reverse) ⟨1, 1, fun _ _ => ⟨1⟩⟩
      ⟨1, 1, fun _ _ => ⟨1⟩⟩ ⟨1, 1, fun _ _ => ⟨1⟩⟩).map (fun t => (List.finRange t.d0).map fun i =>
        (List.finRange t.d1).map fun j => (List.finRange t.d2).map fun k => t.val i j k) = .ok [[[⟨10⟩]]] := by
  decide +kernel

/-- Two threads with one iteration each, interleaved action by action: the memory holds the rounded sums. -/
example (reg0 : Fin 2 → Coarse) (sched : List (Fin 2))
    (hfin : ∀ t, (((parallelStart exCoarse (fun _ _ => ⟨1⟩) (fun _ _ => ⟨1⟩ : Matrix (Fin 1) (Fin 1) Coarse)
      (fun _ _ => ⟨1⟩ : Matrix (Fin 1) (Fin 1) Coarse) (fun t : Fin 2 => [t]) reg0).exec sched).th t).todo = [])
    (i : Fin 2) :
    ((parallelStart exCoarse (fun _ _ => ⟨1⟩) (fun _ _ => ⟨1⟩ : Matrix (Fin 1) (Fin 1) Coarse)
      (fun _ _ => ⟨1⟩ : Matrix (Fin 1) (Fin 1) Coarse) (fun t : Fin 2 => [t]) reg0).exec sched).mem (i, 0, 0) = ⟨20⟩ := by
  rw [C136_any_schedule _ _ _ _ _ ⟨fun t => by simp, fun i => ⟨i, by simp, by
    intro t' h; simpa using Eq.symm (by simpa using h)⟩⟩ _ _ hfin]
  revert i
  decide +kernel

/-- The hypothesis of the example is met by the strict alternation of the two threads. -/
example : ∀ t, (((parallelStart exCoarse (fun _ _ => ⟨1⟩) (fun _ _ => ⟨1⟩ : Matrix (Fin 1) (Fin 1) Coarse)
      (fun _ _ => ⟨1⟩ : Matrix (Fin 1) (Fin 1) Coarse) (fun t : Fin 2 => [t]) (fun _ => 0)).exec
      [0, 1, 0, 1, 0, 1, 0, 1, 0, 1, 0, 1]).th t).todo.length = 0 := by
  decide +kernel

end DynCF
