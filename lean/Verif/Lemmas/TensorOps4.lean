/- Closed forms: chunked projected product, its cached variant, conversions, errors. -/
import Verif.Lemmas.TensorOps3
import Verif.Model.MatrixOps

set_option linter.unusedSectionVars false
namespace DynCF
variable {K : Type}

section
variable [CommRing K]

theorem cooTensor_append {n0 n1 n2 : ℕ} (es es' : List (Ent n0 n1 n2 K)) :
    cooTensor (es ++ es') = cooTensor es + cooTensor es' := by
  funext i j k
  simp [cooTensor]

/-- the vector `(U2[i2] ⊗ U1[i1]) · Q` -/
def kronRow {m1 m2 p1 p2 s : ℕ} (U1 : Matrix (Fin m1) (Fin p1) K) (U2 : Matrix (Fin m2) (Fin p2) K)
    (Q : Matrix (Fin (p2 * p1)) (Fin s) K) (i1 : Fin m1) (i2 : Fin m2) (c : Fin s) : K :=
  ∑ b, ∑ a, U1 i1 a * U2 i2 b * Q (finProdFinEquiv (b, a)) c

theorem projVec_kronRow {m1 m2 p1 p2 s : ℕ} (Q : Matrix (Fin (p2 * p1)) (Fin s) K)
    (U1 : Matrix (Fin m1) (Fin p1) K) (U2 : Matrix (Fin m2) (Fin p2) K) (i1 : Fin m1) (i2 : Fin m2) :
    projVec ⟨_, _, Q⟩ ⟨_, _, U1⟩ ⟨_, _, U2⟩ ((i1 : ℕ) : ℤ) ((i2 : ℕ) : ℤ) =
      .ok (kronRow U1 U2 Q i1 i2) := by
  rw [projVec_typed]
  congr 1
  funext c
  unfold kronRow
  apply Finset.sum_congr rfl; intro b _
  apply Finset.sum_congr rfl; intro a _
  ring

theorem sttEntry_typed [DecidableEq K] {m1 m2 p1 p2 s n : ℕ} (Q : Matrix (Fin (p2 * p1)) (Fin s) K)
    (U1 : Matrix (Fin m1) (Fin p1) K) (U2 : Matrix (Fin m2) (Fin p2) K) (mode a b : ℕ) (e : Ind3 × K)
    (r : Fin n) (i1 : Fin m1) (i2 : Fin m2) (hr : e.1.at mode = ((r : ℕ) : ℤ))
    (h1 : e.1.at a = ((i1 : ℕ) : ℤ)) (h2 : e.1.at b = ((i2 : ℕ) : ℤ)) (res : Matrix (Fin n) (Fin s) K) :
    sttEntry ⟨_, _, Q⟩ mode a b ⟨_, _, U1⟩ ⟨_, _, U2⟩ e res =
      .ok (addRow res r (fun c => e.2 * kronRow U1 U2 Q i1 i2 c)) := by
  unfold sttEntry
  rw [h1, h2, hr, projVec_kronRow, pyIdx_coe, except_bind_ok, except_bind_ok]
  show Except.ok _ = _
  congr 1
  split
  · rfl
  · rename_i h
    have h' : e.2 = 1 := not_not.1 h
    congr 1
    funext c
    rw [h', one_mul]

theorem sum_matrix_apply {α : Type} {n m : ℕ} (l : List α) (d : α → Matrix (Fin n) (Fin m) K)
    (i : Fin n) (j : Fin m) : (l.map d).sum i j = (l.map fun x => d x i j).sum := by
  induction l with
  | nil => rfl
  | cons x l ih => simp only [List.map_cons, List.sum_cons, Matrix.add_apply, ih]

/-- the loop over a list of entries -/
theorem stt_foldl {α : Type} [DecidableEq K] {m1 m2 p1 p2 s n : ℕ} (Q : Matrix (Fin (p2 * p1)) (Fin s) K)
    (U1 : Matrix (Fin m1) (Fin p1) K) (U2 : Matrix (Fin m2) (Fin p2) K) (mode a b : ℕ) (l : List α)
    (g : α → Ind3 × K) (r : α → Fin n) (i1 : α → Fin m1) (i2 : α → Fin m2)
    (hr : ∀ x, (g x).1.at mode = ((r x : ℕ) : ℤ)) (h1 : ∀ x, (g x).1.at a = ((i1 x : ℕ) : ℤ))
    (h2 : ∀ x, (g x).1.at b = ((i2 x : ℕ) : ℤ)) :
    (l.map g).foldlM (fun res e => sttEntry ⟨_, _, Q⟩ mode a b ⟨_, _, U1⟩ ⟨_, _, U2⟩ e res)
      (0 : Matrix (Fin n) (Fin s) K) =
    .ok (fun i c => (l.map fun x => (g x).2 *
      (if i = r x then kronRow U1 U2 Q (i1 x) (i2 x) c else 0)).sum) := by
  rw [foldlM_map_ok _ g (fun x res => addRow res (r x)
    (fun c => (g x).2 * kronRow U1 U2 Q (i1 x) (i2 x) c))]
  · congr 1
    refine (isInc_foldl (fun x (res : Matrix (Fin n) (Fin s) K) => addRow res (r x)
      (fun c => (g x).2 * kronRow U1 U2 Q (i1 x) (i2 x) c)) _ l
      (fun x _ => addRow_inc (r x) _) 0).trans ?_
    funext i c
    rw [zero_add]
    refine (sum_matrix_apply l _ i c).trans ?_
    congr 1
    apply List.map_congr_left
    intro x _
    split <;> simp
  · intro x _ t
    exact sttEntry_typed Q U1 U2 mode a b (g x) (r x) (i1 x) (i2 x) (hr x) (h1 x) (h2 x) t

theorem sttLoop_typed {n0 n1 n2 : ℕ} [DecidableEq K] {m1 m2 p1 p2 s n : ℕ} (B : ℕ) (hB : 1 ≤ B)
    (es : List (Ent n0 n1 n2 K)) (hn : es ≠ []) (Q : Matrix (Fin (p2 * p1)) (Fin s) K)
    (U1 : Matrix (Fin m1) (Fin p1) K) (U2 : Matrix (Fin m2) (Fin p2) K) (mode : ℤ) (a b : ℕ)
    (hm : otherModes mode = .ok (a, b)) (hs : shapeAt (n0, n1, n2) mode.toNat = n)
    (r : Ent n0 n1 n2 K → Fin n) (i1 : Ent n0 n1 n2 K → Fin m1) (i2 : Ent n0 n1 n2 K → Fin m2)
    (hr : ∀ x : Ent n0 n1 n2 K, x.ind.at mode.toNat = ((r x : ℕ) : ℤ))
    (h1 : ∀ x : Ent n0 n1 n2 K, x.ind.at a = ((i1 x : ℕ) : ℤ))
    (h2 : ∀ x : Ent n0 n1 n2 K, x.ind.at b = ((i2 x : ℕ) : ℤ)) :
    sttLoop B (indsOf es) (valsOf es) (n0, n1, n2) ⟨_, _, Q⟩ mode ⟨_, _, U1⟩ ⟨_, _, U2⟩ =
    .ok ⟨n, s, fun i c => ((es.take (es.length / min B es.length * min B es.length)).map fun x => x.2 *
      (if i = r x then kronRow U1 U2 Q (i1 x) (i2 x) c else 0)).sum⟩ := by
  subst hs
  unfold sttLoop
  have hl : (indsOf es).length = es.length := by simp [indsOf]
  have hpos : min B es.length ≠ 0 := by
    have : 0 < es.length := List.length_pos_of_ne_nil hn
    omega
  rw [hm, except_bind_ok]
  simp only
  rw [hl, if_neg hpos, cooEntries_typed, except_bind_ok, chunk_foldlM, ← List.map_take]
  rw [stt_foldl Q U1 U2 mode.toNat a b _ (fun e : Ent n0 n1 n2 K => (e.ind, e.2)) r i1 i2 hr h1 h2]
  rfl

/-- loop of the cached variant -/
theorem sttOld_foldl {α : Type} {m1 m2 p1 p2 s n : ℕ} (Q : Matrix (Fin (p2 * p1)) (Fin s) K)
    (U1 : Matrix (Fin m1) (Fin p1) K) (U2 : Matrix (Fin m2) (Fin p2) K) (mode a b : ℕ) (l : List α)
    (g : α → Ind3 × K) (r : α → Fin n) (i1 : α → Fin m1) (i2 : α → Fin m2)
    (hr : ∀ x, (g x).1.at mode = ((r x : ℕ) : ℤ)) (h1 : ∀ x, (g x).1.at a = ((i1 x : ℕ) : ℤ))
    (h2 : ∀ x, (g x).1.at b = ((i2 x : ℕ) : ℤ)) (res : Matrix (Fin n) (Fin s) K)
    (cache : Dict (ℤ × ℤ) (Fin s → K))
    (hc : ∀ (x : Fin m1) (y : Fin m2) v, cache.get? (((y : ℕ) : ℤ), ((x : ℕ) : ℤ)) = some v →
      v = kronRow U1 U2 Q x y) :
    ∃ cache', (l.map g).foldlM (sttOldEntry ⟨_, _, Q⟩ mode a b ⟨_, _, U1⟩ ⟨_, _, U2⟩) (res, cache) =
    (.ok (fun i c => res i c + (l.map fun x => (g x).2 *
      (if i = r x then kronRow U1 U2 Q (i1 x) (i2 x) c else 0)).sum, cache') : PyM _) := by
  induction l generalizing res cache with
  | nil => exact ⟨cache, by simp; rfl⟩
  | cons x l ih =>
    set cache1 : Dict (ℤ × ℤ) (Fin s → K) :=
      if cache.get? (((i2 x : ℕ) : ℤ), ((i1 x : ℕ) : ℤ)) = none then
        cache.set (((i2 x : ℕ) : ℤ), ((i1 x : ℕ) : ℤ)) (kronRow U1 U2 Q (i1 x) (i2 x)) else cache
      with hcache1
    have hc1 : ∀ (x : Fin m1) (y : Fin m2) v, cache1.get? (((y : ℕ) : ℤ), ((x : ℕ) : ℤ)) = some v →
        v = kronRow U1 U2 Q x y := by
      intro x' y' v hv
      rw [hcache1] at hv
      split at hv
      · rw [Dict.get?_set] at hv
        split at hv
        · rename_i _ heq
          simp only [Prod.mk.injEq, Nat.cast_inj] at heq
          have e1 : i2 x = y' := Fin.ext heq.1
          have e2 : i1 x = x' := Fin.ext heq.2
          rw [← e1, ← e2]
          exact (Option.some.inj hv).symm
        · exact hc x' y' v hv
      · exact hc x' y' v hv
    have hget : cache1.get? (((i2 x : ℕ) : ℤ), ((i1 x : ℕ) : ℤ)) =
        some (kronRow U1 U2 Q (i1 x) (i2 x)) := by
      rw [hcache1]
      split
      · rw [Dict.get?_set_self]
      · rename_i h
        obtain ⟨v, hv⟩ := Option.ne_none_iff_exists'.1 h
        rw [hv, hc _ _ _ hv]
    obtain ⟨cache', h⟩ := ih (addRow res (r x) (fun c => (g x).2 * kronRow U1 U2 Q (i1 x) (i2 x) c))
      cache1 hc1
    refine ⟨cache', ?_⟩
    rw [List.map_cons, List.foldlM_cons]
    have hbranch : sttOldCache ⟨_, _, Q⟩ ⟨_, _, U1⟩ ⟨_, _, U2⟩ ((i1 x : ℕ) : ℤ) ((i2 x : ℕ) : ℤ) cache =
        .ok cache1 := by
      rw [hcache1]
      unfold sttOldCache
      cases hh : cache.get? (((i2 x : ℕ) : ℤ), ((i1 x : ℕ) : ℤ)) with
      | none =>
        simp only [if_true]
        rw [projVec_kronRow]
        rfl
      | some v => simp
    have hstep : sttOldEntry ⟨_, _, Q⟩ mode a b ⟨_, _, U1⟩ ⟨_, _, U2⟩ (res, cache) (g x) =
        .ok (addRow res (r x) (fun c => (g x).2 * kronRow U1 U2 Q (i1 x) (i2 x) c), cache1) := by
      unfold sttOldEntry
      rw [h1 x, h2 x, hr x, hbranch, except_bind_ok, pyIdx_coe, except_bind_ok,
        (getItem_ok_iff _ _ _).2 hget, except_bind_ok]
      rfl
    rw [hstep, except_bind_ok]
    refine Eq.trans h ?_
    congr 2
    funext i c
    simp only [addRow, List.map_cons, List.sum_cons]
    split <;> ring

/-- sums over typed entries for the three modes -/
theorem stt_sum0 {n0 n1 n2 p1 p2 s : ℕ} (es : List (Ent n0 n1 n2 K)) (U1 : Matrix (Fin n1) (Fin p1) K)
    (U2 : Matrix (Fin n2) (Fin p2) K) (Q : Matrix (Fin (p2 * p1)) (Fin s) K) :
    (fun i c => (es.map fun x => x.2 *
      (if i = x.1.1 then kronRow U1 U2 Q x.1.2.1 x.1.2.2 c else 0)).sum) =
      projUnfold (cooTensor es) U1 U2 Q := by
  funext i c
  rw [sum_coo es (fun x y z => if i = x then kronRow U1 U2 Q y z c else 0), ite_sum_fst]
  rfl

theorem stt_sum1 {n0 n1 n2 p1 p2 s : ℕ} (es : List (Ent n0 n1 n2 K)) (U1 : Matrix (Fin n0) (Fin p1) K)
    (U2 : Matrix (Fin n2) (Fin p2) K) (Q : Matrix (Fin (p2 * p1)) (Fin s) K) :
    (fun i c => (es.map fun x => x.2 *
      (if i = x.1.2.1 then kronRow U1 U2 Q x.1.1 x.1.2.2 c else 0)).sum) =
      projUnfold (front1 (cooTensor es)) U1 U2 Q := by
  funext i c
  rw [sum_coo es (fun x y z => if i = y then kronRow U1 U2 Q x z c else 0), ite_sum_snd]
  rfl

theorem stt_sum2 {n0 n1 n2 p1 p2 s : ℕ} (es : List (Ent n0 n1 n2 K)) (U1 : Matrix (Fin n0) (Fin p1) K)
    (U2 : Matrix (Fin n1) (Fin p2) K) (Q : Matrix (Fin (p2 * p1)) (Fin s) K) :
    (fun i c => (es.map fun x => x.2 *
      (if i = x.1.2.2 then kronRow U1 U2 Q x.1.1 x.1.2.1 c else 0)).sum) =
      projUnfold (front2 (cooTensor es)) U1 U2 Q := by
  funext i c
  rw [sum_coo es (fun x y z => if i = z then kronRow U1 U2 Q x y c else 0), ite_sum_trd]
  rfl

/-! ### conversions -/

theorem sparseToDense_typed {n0 n1 n2 : ℕ} (es : List (Ent n0 n1 n2 K)) :
    sparseToDense (indsOf es) (valsOf es) (n0, n1, n2) = .ok ⟨n0, n1, n2, lastVal es⟩ := by
  unfold sparseToDense
  rw [cooEntries_typed, except_bind_ok, foldlM_map_ok _ (fun e : Ent n0 n1 n2 K => (e.ind, e.2))
    (fun x res => fun a b c => if a = x.1.1 ∧ b = x.1.2.1 ∧ c = x.1.2.2 then x.2 else res a b c)]
  · rw [except_bind_ok]
    show Except.ok _ = _
    congr 2
    have : ∀ (l : List (Ent n0 n1 n2 K)) (t : T3 n0 n1 n2 K), l.foldl (fun (res : T3 n0 n1 n2 K) x =>
        (fun a b c => if a = x.1.1 ∧ b = x.1.2.1 ∧ c = x.1.2.2 then x.2 else res a b c)) t =
        fun i j k => ((l.filter fun e => decide (e.1 = (i, j, k))).map Prod.snd).getLastD (t i j k) := by
      intro l
      induction l with
      | nil => intro t; rfl
      | cons e l ih =>
        intro t
        rw [List.foldl_cons, ih]
        funext i j k
        obtain ⟨⟨x, y, z⟩, v⟩ := e
        rw [List.filter_cons]
        by_cases h : i = x ∧ j = y ∧ k = z
        · obtain ⟨rfl, rfl, rfl⟩ := h
          rw [if_pos (decide_eq_true rfl), if_pos ⟨rfl, rfl, rfl⟩, List.map_cons, List.getLastD_cons]
        · have h' : ¬ (x = i ∧ y = j ∧ z = k) := by
            rintro ⟨rfl, rfl, rfl⟩; exact h ⟨rfl, rfl, rfl⟩
          simp [h, h']
    exact this es _
  · intro x _ t
    obtain ⟨⟨a, b, c⟩, v⟩ := x
    simp only [Ent.ind, pyIdx_coe]
    rfl

theorem filter_le_one {n0 n1 n2 : ℕ} (es : List (Ent n0 n1 n2 K)) (h : (es.map Prod.fst).Nodup)
    (x : Fin n0 × Fin n1 × Fin n2) : (es.filter fun e => decide (e.1 = x)).length ≤ 1 := by
  induction es with
  | nil => simp
  | cons e es ih =>
    rw [List.map_cons, List.nodup_cons] at h
    rw [List.filter_cons]
    split
    · rename_i he
      have : es.filter (fun e => decide (e.1 = x)) = [] := by
        rw [List.filter_eq_nil_iff]
        intro e' he' hd
        simp only [decide_eq_true_eq] at he hd
        exact h.1 (List.mem_map.2 ⟨e', he', by rw [hd, he]⟩)
      simp [this]
    · exact ih h.2

theorem lastVal_eq_coo {n0 n1 n2 : ℕ} (es : List (Ent n0 n1 n2 K)) (h : (es.map Prod.fst).Nodup) :
    lastVal es = cooTensor es := by
  funext i j k
  unfold lastVal cooTensor
  have := filter_le_one es h (i, j, k)
  generalize es.filter (fun e => decide (e.1 = (i, j, k))) = l at this
  match l, this with
  | [], _ => simp
  | [e], _ => simp
  | _ :: _ :: _, h => simp at h

/-- all cells of a shape in C order -/
def allCells (n0 n1 n2 : ℕ) : List (Fin n0 × Fin n1 × Fin n2) :=
  (List.finRange n0).flatMap fun i => (List.finRange n1).flatMap fun j =>
    (List.finRange n2).map fun k => (i, j, k)

theorem mem_allCells {n0 n1 n2 : ℕ} (x : Fin n0 × Fin n1 × Fin n2) : x ∈ allCells n0 n1 n2 := by
  obtain ⟨i, j, k⟩ := x
  simp [allCells]

theorem nodup_allCells (n0 n1 n2 : ℕ) : (allCells n0 n1 n2).Nodup := by
  unfold allCells
  rw [List.nodup_flatMap]
  constructor
  · intro i _
    rw [List.nodup_flatMap]
    constructor
    · intro j _
      exact (List.nodup_finRange _).map (by intro a b h; simpa using h)
    · refine (List.nodup_finRange n1).imp ?_
      intro a b hab
      simp only [Function.onFun]
      rw [List.disjoint_left]
      intro x hx hy
      simp only [List.mem_map, List.mem_finRange, true_and] at hx hy
      obtain ⟨k, rfl⟩ := hx
      obtain ⟨k', h⟩ := hy
      simp only [Prod.mk.injEq] at h
      exact hab h.2.1.symm
  · refine (List.nodup_finRange n0).imp ?_
    intro a b hab
    simp only [Function.onFun]
    rw [List.disjoint_left]
    intro x hx hy
    simp only [List.mem_flatMap, List.mem_map, List.mem_finRange, true_and] at hx hy
    obtain ⟨j, k, rfl⟩ := hx
    obtain ⟨j', k', h⟩ := hy
    simp only [Prod.mk.injEq] at h
    exact hab h.1.symm

/-- the typed entries of `dense_to_sparse_tensor` -/
def denseEntries {n0 n1 n2 : ℕ} (t : T3 n0 n1 n2 K) : List (Ent n0 n1 n2 K) :=
  (allCells n0 n1 n2).map fun c => (c, t c.1 c.2.1 c.2.2)

theorem denseToSparse_typed {n0 n1 n2 : ℕ} (t : T3 n0 n1 n2 K) :
    denseToSparse ⟨n0, n1, n2, t⟩ = (indsOf (denseEntries t), valsOf (denseEntries t)) := by
  unfold denseToSparse indsOf valsOf denseEntries
  simp only [List.map_map]
  rfl

theorem cooTensor_denseEntries {n0 n1 n2 : ℕ} (t : T3 n0 n1 n2 K) : cooTensor (denseEntries t) = t := by
  funext i j k
  unfold cooTensor denseEntries
  rw [List.filter_map, List.map_map]
  have : (allCells n0 n1 n2).filter ((fun e : Ent n0 n1 n2 K => decide (e.1 = (i, j, k))) ∘
      fun c => (c, t c.1 c.2.1 c.2.2)) = [(i, j, k)] := by
    have h1 : ∀ l : List (Fin n0 × Fin n1 × Fin n2), l.Nodup → (i, j, k) ∈ l →
        l.filter (fun c => decide (c = (i, j, k))) = [(i, j, k)] := by
      intro l hl hm
      have h2 := List.filter_eq (l := l) (a := (i, j, k))
      rw [h2, List.count_eq_one_of_mem hl hm]
      rfl
    exact h1 _ (nodup_allCells _ _ _) (mem_allCells _)
  rw [this]
  simp

end
end DynCF
