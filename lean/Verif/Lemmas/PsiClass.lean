/-
Lemmas about `Model/PsiClass`: classification of rows, the matrices handed to the factor updates and
the shapes of the factors.
-/
import Verif.Lemmas.Selection
import Verif.Model.PsiClass
import Verif.Props.SvdBlock

set_option linter.unusedSectionVars false

namespace DynCF
open Matrix
variable {K : Type}

theorem mapGetPad_eq {m : Mapping ℤ} {ids : List ℤ} (h : Represents m ids) (x : ℤ) :
    mapGetPad m x = -1 ↔ x ∉ ids := by
  unfold mapGetPad
  cases hg : m.old2new.get? x with
  | none => simp [PAD, (represents_none h x).1 hg]
  | some i =>
    obtain ⟨k, rfl, hk⟩ := (h.old2new x i).1 hg
    have := List.mem_of_getElem? hk
    simp only [Option.getD_some, this, not_true, iff_false]
    omega

/-- The rows a step is meant for, in terms of the ids known at that time. -/
def stepClass (us is : List ℤ) : PsiMode → Row K → Bool
  | .new, r => decide (r.user ∉ us ∧ r.item ∉ is)
  | .newUsers, r => decide (r.user ∉ us ∧ r.item ∈ is)
  | .newItems, r => decide (r.user ∈ us ∧ r.item ∉ is)
  | .old, r => decide (r.user ∈ us ∧ r.item ∈ is)

theorem divideRow_eq {m : Mappings} {us is : List ℤ} (hu : Represents m.user us)
    (hi : Represents m.item is) (mode : PsiMode) (r : Row K) :
    divideRow m mode r = stepClass us is mode r := by
  have h1 := mapGetPad_eq hu r.user
  have h2 := mapGetPad_eq hi r.item
  cases mode <;> simp only [divideRow, stepClass, h1, h2] <;>
    by_cases a : r.user ∈ us <;> by_cases b : r.item ∈ is <;> simp [a, b]

/-- A lookup table from ids to `0..n-1`. -/
def IdxMap (d : Dict ℤ ℤ) (ids : List ℤ) : Prop :=
  ids.Nodup ∧ ∀ x (i : ℤ), d.get? x = some i ↔ ∃ k : ℕ, i = k ∧ ids[k]? = some x

theorem Represents.idxMap {m : Mapping ℤ} {ids : List ℤ} (h : Represents m ids) :
    IdxMap m.old2new ids := ⟨h.nodup, h.old2new⟩

theorem addNewEntities_local (m : Mapping ℤ) (c : List ℤ) :
    IdxMap (addNewEntities m c).2 (pdUnique c) ∧ (addNewEntities m c).2.length = (pdUnique c).length := by
  have hnd := nodup_pdUnique c
  have h : (addNewEntities m c).2 = (getContMappingStruct (pdUnique c) 0).old2new := rfl
  refine ⟨?_, ?_⟩
  · rw [h]
    exact (represents_start_zero _ hnd).idxMap
  · rw [h, getContMappingStruct_old2new _ _ hnd, List.length_map, pyEnumerate_length]

theorem addNewEntities_maps {m : Mapping ℤ} {ids : List ℤ} (h : Represents m ids) (c : List ℤ)
    (hc : ∀ x ∈ c, x ∉ ids) : Represents (addNewEntities m c).1 (ids ++ pdUnique c) := by
  refine represents_update h _ ?_
  rw [List.nodup_append]
  refine ⟨h.nodup, nodup_pdUnique c, ?_⟩
  rintro x hx _ hy rfl
  exact hc x ((mem_pdUnique c x).1 hy) hx

/-- The matrix of sums: cell `(i, j)` is the sum of the relevances of the rows of the `i`-th row id and
the `j`-th column id. -/
def sumAt [AddCommMonoid K] (data : List (Row K)) (rowOf colOf : Row K → ℤ) (rowIds colIds : List ℤ) :
    Matrix (Fin rowIds.length) (Fin colIds.length) K :=
  Matrix.of fun i j =>
    ((data.filter fun r => decide (rowOf r = rowIds.get i ∧ colOf r = colIds.get j)).map Row.rel).sum

theorem idxMap_getItem {d : Dict ℤ ℤ} {ids : List ℤ} (h : IdxMap d ids) {x : ℤ} (hx : x ∈ ids) :
    d.getItem x = .ok (ids.idxOf x : ℤ) := by
  rw [getItem_ok_iff, h.2]
  exact ⟨_, rfl, by rw [List.getElem?_eq_getElem (List.idxOf_lt_length_of_mem hx)]; simp⟩

theorem mapM_getItem {α : Type} {d : Dict ℤ ℤ} {ids : List ℤ} (h : IdxMap d ids) (f : α → ℤ) (l : List α)
    (hl : ∀ r ∈ l, f r ∈ ids) :
    (l.mapM fun r => d.getItem (f r)) = (.ok (l.map fun r => (ids.idxOf (f r) : ℤ)) : PyM _) := by
  induction l with
  | nil => rfl
  | cons a l ih =>
    rw [List.mapM_cons, idxMap_getItem h (hl a List.mem_cons_self), except_bind_ok,
      ih fun r hr => hl r (List.mem_cons_of_mem _ hr)]
    rfl

theorem idxOf_eq_iff {ids : List ℤ} (hnd : ids.Nodup) {x : ℤ} (hx : x ∈ ids) (i : Fin ids.length) :
    ((ids.idxOf x : ℕ) : ℤ) = ((i : ℕ) : ℤ) ↔ x = ids.get i := by
  constructor
  · intro h
    have h' : ids.idxOf x = (i : ℕ) := by exact_mod_cast h
    have := List.getElem_idxOf (List.idxOf_lt_length_of_mem hx)
    rw [List.get_eq_getElem, ← this]
    congr 1
  · rintro rfl
    rw [List.get_eq_getElem]
    rw [List.Nodup.idxOf_getElem hnd]

theorem mappedEntries_eq [AddCommMonoid K] (data : List (Row K)) (rowOf colOf : Row K → ℤ)
    {rowMap colMap : Dict ℤ ℤ} {rowIds colIds : List ℤ} (hr : IdxMap rowMap rowIds)
    (hc : IdxMap colMap colIds) (h1 : ∀ r ∈ data, rowOf r ∈ rowIds) (h2 : ∀ r ∈ data, colOf r ∈ colIds) :
    mappedEntries data rowOf colOf rowMap colMap rowIds.length colIds.length =
      .ok ⟨rowIds.length, colIds.length, sumAt data rowOf colOf rowIds colIds⟩ := by
  unfold mappedEntries
  rw [mapM_getItem hr rowOf data h1, except_bind_ok, mapM_getItem hc colOf data h2, except_bind_ok]
  have hz : ((data.map fun r => (rowIds.idxOf (rowOf r) : ℤ)).zip
      (data.map fun r => (colIds.idxOf (colOf r) : ℤ))).zip (data.map Row.rel) =
      data.map fun r => (((rowIds.idxOf (rowOf r) : ℤ), (colIds.idxOf (colOf r) : ℤ)), r.rel) := by
    rw [List.zip_map', List.zip_map']
  rw [hz]
  unfold getMappedMatrix
  rw [if_pos]
  · congr 2
    ext i j
    rw [sumAt, Matrix.of_apply, Matrix.of_apply, List.filter_map, List.map_map]
    refine congrArg List.sum ?_
    have : data.filter ((fun x : (ℤ × ℤ) × K => decide (x.1 = (((i : ℕ) : ℤ), ((j : ℕ) : ℤ)))) ∘
        fun r => (((rowIds.idxOf (rowOf r) : ℤ), (colIds.idxOf (colOf r) : ℤ)), r.rel)) =
        data.filter fun r => decide (rowOf r = rowIds.get i ∧ colOf r = colIds.get j) := by
      refine List.filter_congr fun r hr' => ?_
      simp only [Function.comp, Prod.mk.injEq]
      exact decide_eq_decide.2 (and_congr (idxOf_eq_iff hr.1 (h1 r hr') i) (idxOf_eq_iff hc.1 (h2 r hr') j))
    rw [this]
    rfl
  · rw [List.all_eq_true]
    intro x hx
    obtain ⟨r, hr', rfl⟩ := List.mem_map.1 hx
    have a1 := List.idxOf_lt_length_of_mem (h1 r hr')
    have a2 := List.idxOf_lt_length_of_mem (h2 r hr')
    simp only [decide_eq_true_eq]
    omega

/-! ### Shapes -/

section
variable [Field K] [LinearOrder K]

theorem newVectors_shape (la : LinAlg K) (rng : Rng K) {m r q nc : ℕ}
    (U : Matrix (Fin m) (Fin r) K) (s : SArg K) (S : Matrix (Fin r) (Fin r) K)
    (hs : s.toMat = ⟨r, r, S⟩) (V : Matrix (Fin r) (Fin q) K) (N : Matrix (Fin m) (Fin nc) K)
    (hpos : 0 < nc) (hrm : r ≤ m) (nPower os : ℕ) :
    (nc ≤ m ∧ ∃ U2 s2 V2, updateSvdNewVectors la rng ⟨m, r, U⟩ s ⟨r, q, V⟩ ⟨m, nc, N⟩ nPower os =
      .ok (⟨m, r, U2⟩, ⟨r, s2⟩, ⟨r, q + nc, V2⟩)) ∨
    (m < nc ∧ updateSvdNewVectors la rng ⟨m, r, U⟩ s ⟨r, q, V⟩ ⟨m, nc, N⟩ nPower os =
      .error .valueError) := by
  rcases Nat.lt_or_ge m nc with h | h
  · exact Or.inr ⟨h, C42_too_many la rng U s S hs V N h nPower os⟩
  · refine Or.inl ⟨h, ?_⟩
    obtain ⟨J, k, hJ, -⟩ := qrM_tall la h (N - U * (U.transpose * N))
    rw [newVectors_eq la rng U s S hs V N J k hJ nPower os, C43_threshold _ _ _ (by omega)]
    split
    · obtain ⟨kk, d1, d2, d3, -, hkk, he, -⟩ := C47_components la rng
        ((la.qr (hblock U J)).2 * blk S (U.transpose * N) 0 k) r nPower os
      have hkk : kk = r := by omega
      subst hkk
      simp only [Except.bind]
      rw [he]
      simp only [Mat.dot_mk, Mat.T_mk]
      exact ⟨_, _, _, rfl⟩
    · obtain ⟨kk, d1, d2, d3, -, hkk, he, -⟩ := C47_components la rng
        (blk S (U.transpose * N) 0 k) r nPower os
      have hkk : kk = r := by omega
      subst hkk
      simp only [Except.bind]
      rw [he]
      simp only [Mat.dot_mk, Mat.T_mk]
      exact ⟨_, _, _, rfl⟩

theorem newSubmatrix_shape (la : LinAlg K) (rng : Rng K) (argsort : ArgSort K) (ha : ArgSortOk argsort)
    {m r q a b : ℕ} (U : Matrix (Fin m) (Fin r) K) (s : SArg K) (S : Matrix (Fin r) (Fin r) K)
    (hs : s.toMat = ⟨r, r, S⟩) (V : Matrix (Fin r) (Fin q) K) (N : Matrix (Fin a) (Fin b) K)
    (nPower os : ℕ) :
    ∃ U2 s2 V2, updateSvdNewSubmatrix la rng argsort ⟨m, r, U⟩ s ⟨r, q, V⟩ ⟨a, b, N⟩ nPower os =
      .ok (⟨m + a, r, U2⟩, .vec r s2, ⟨r, q + b, V2⟩) := by
  cases s with
  | vec n sv =>
    have hn : n = r := congrArg Mat.rows hs
    subst hn
    obtain ⟨s2, hs2⟩ : ∃ s2 : Fin (n + min a b) → K,
        Vec.append ⟨n, sv⟩ ⟨min a b, (la.svd N).2.1⟩ = ⟨n + min a b, s2⟩ := ⟨_, rfl⟩
    obtain ⟨rs, hrs, hlen, -⟩ := topMask argsort ha s2 n
    have hk : rs.length = n := by rw [hlen, Nat.min_eq_left (Nat.le_add_right _ _)]
    have hofn : List.ofFn (Vec.append ⟨n, sv⟩ ⟨min a b, (la.svd N).2.1⟩).val = List.ofFn s2 := by
      rw [hs2]
    have hrun : updateSvdNewSubmatrix la rng argsort ⟨m, n, U⟩ (.vec n sv) ⟨n, q, V⟩ ⟨a, b, N⟩ nPower os =
        .ok (⟨m + a, rs.length, Matrix.of fun i j => blk U 0 0 (la.svd N).1 i (rs.get j)⟩,
          .vec rs.length (fun j => s2 (rs.get j)),
          ⟨rs.length, q + b, Matrix.of fun j i =>
            blk V.transpose 0 0 (la.svd N).2.2.transpose i (rs.get j)⟩) := by
      unfold updateSvdNewSubmatrix
      dsimp only
      rw [hofn, hs2]
      simp only [Mat.T_mk, blockDiag_mk, hrs, selectCols_fin, vecTakeIdx_fin, except_bind_ok]
      rfl
    rw [hrun]
    generalize (fun j => s2 (rs.get j)) = v1
    generalize (Matrix.of fun i j => blk U 0 0 (la.svd N).1 i (rs.get j)) = v2
    generalize (Matrix.of fun j i => blk V.transpose 0 0 (la.svd N).2.2.transpose i (rs.get j)) = v3
    revert v1 v2 v3
    rw [hk]
    intro v1 v2 v3
    exact ⟨v2, v1, v3, rfl⟩
  | mat sm =>
    have hs : sm = ⟨r, r, S⟩ := hs
    subst hs
    obtain ⟨k, d1, d2, d3, -, hk, he, -⟩ := C47_components la rng
      (blk S 0 0 (Matrix.diagonal (la.svd N).2.1)) r nPower os
    have hk : k = r := by omega
    subst hk
    have hrun : updateSvdNewSubmatrix la rng argsort ⟨m, k, U⟩ (.mat ⟨k, k, S⟩) ⟨k, q, V⟩ ⟨a, b, N⟩
        nPower os = .ok (⟨m + a, k, blk U 0 0 (la.svd N).1 * d1⟩, .vec k d2,
          ⟨k, q + b, (blk V.transpose 0 0 (la.svd N).2.2.transpose * d3.transpose).transpose⟩) := by
      unfold updateSvdNewSubmatrix
      simp only [Mat.T_mk, blockDiag_mk, Mat.diag, he, Mat.dot_mk, except_bind_ok]
      rw [he]
      rfl
    exact ⟨_, _, _, hrun⟩

end
end DynCF
