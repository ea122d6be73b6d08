/-
The steps of `TIRec.update` and `TIRecA.update` on states with given dimensions.
-/
import Verif.Lemmas.TIRec
import Verif.Props.Hosvd

set_option linter.unusedSectionVars false

namespace DynCF
open Matrix
variable {K : Type}

/-! ### Local numbering -/

theorem npUnique_nodup (a : List ℤ) : (npUnique a).Nodup :=
  (stableSort_perm _ _).nodup_iff.2 (nodup_pdUnique a)

theorem mem_npUnique (a : List ℤ) (x : ℤ) : x ∈ npUnique a ↔ x ∈ a := by
  unfold npUnique
  rw [mem_stableSort, mem_pdUnique]

theorem npUnique_sorted (a : List ℤ) : (npUnique a).Pairwise (· < ·) := by
  have h1 : (npUnique a).Pairwise (fun x y => decide (x ≤ y) = true) :=
    stableSort_sorted (by simp; omega) (by simp; omega) _
  have h2 := npUnique_nodup a
  refine (h1.and h2).imp ?_
  rintro x y ⟨h, hne⟩
  have : x ≤ y := by simpa using h
  omega

/-- the number of a value among the sorted distinct values -/
def localIdx (a : List ℤ) (x : ℤ) : ℤ := ((npUnique a).idxOf x : ℕ)

theorem localIdx_range {a : List ℤ} {x : ℤ} (h : x ∈ a) : 0 ≤ localIdx a x ∧ localIdx a x < (npUnique a).length := by
  unfold localIdx
  have := List.idxOf_lt_length_iff.2 ((mem_npUnique a x).2 h)
  omega

theorem localIdx_eq {a : List ℤ} {x : ℤ} (h : x ∈ a) (k : Fin (npUnique a).length) :
    localIdx a x = (k : ℕ) ↔ x = (npUnique a)[k] := by
  unfold localIdx
  constructor
  · intro hk
    have h2 : (npUnique a).idxOf x = k := by exact_mod_cast hk
    have := List.getElem_idxOf (List.idxOf_lt_length_iff.2 ((mem_npUnique a x).2 h))
    rw [← this]
    simp [h2]
  · rintro rfl
    congr 1
    exact (npUnique_nodup a).idxOf_getElem _ _

theorem getLocalMap_eq (a : List ℤ) : getLocalMap a = (pyEnumerate (npUnique a) 0).map Prod.swap := by
  unfold getLocalMap
  rw [Dict.update_fresh]
  · simp
  · rw [swap_keys]; exact npUnique_nodup a
  · simp [Dict.keys]

theorem getLocalMap_get {a : List ℤ} {x : ℤ} (h : x ∈ a) : (getLocalMap a).getItem x = .ok (localIdx a x) := by
  rw [getItem_ok_iff, getLocalMap_eq, get?_enum_swap _ _ _ _ (npUnique_nodup a)]
  refine ⟨(npUnique a).idxOf x, by simp [localIdx], ?_⟩
  rw [List.getElem?_eq_getElem (List.idxOf_lt_length_iff.2 ((mem_npUnique a x).2 h)), List.getElem_idxOf]

theorem mapToLocalUser_eq (data : List DRow) : mapToLocalUser data =
    .ok (data.map (fun r => { r with user := localIdx (data.map DRow.user) r.user }),
      (npUnique (data.map DRow.user)).length) := by
  have h : (data.mapM fun r => do
      let x ← (getLocalMap (data.map DRow.user)).getItem r.user
      pure { r with user := x } : PyM (List DRow)) =
      .ok (data.map (fun r => { r with user := localIdx (data.map DRow.user) r.user })) := by
    rw [mapM_ok_iff, List.forall₂_map_right_iff, List.forall₂_same]
    intro r hr
    rw [getLocalMap_get (List.mem_map_of_mem hr)]
    rfl
  unfold mapToLocalUser
  dsimp only
  rw [h, except_bind_ok, getLocalMap_eq, List.length_map, pyEnumerate_length]
  rfl

theorem mapToLocalItem_eq (data : List DRow) : mapToLocalItem data =
    .ok (data.map (fun r => { r with item := localIdx (data.map DRow.item) r.item }),
      (npUnique (data.map DRow.item)).length) := by
  have h : (data.mapM fun r => do
      let x ← (getLocalMap (data.map DRow.item)).getItem r.item
      pure { r with item := x } : PyM (List DRow)) =
      .ok (data.map (fun r => { r with item := localIdx (data.map DRow.item) r.item })) := by
    rw [mapM_ok_iff, List.forall₂_map_right_iff, List.forall₂_same]
    intro r hr
    rw [getLocalMap_get (List.mem_map_of_mem hr)]
    rfl
  unfold mapToLocalItem
  dsimp only
  rw [h, except_bind_ok, getLocalMap_eq, List.length_map, pyEnumerate_length]
  rfl

/-! ### The tensor of a delta -/

/-- the sum of the values of the entries at a place -/
def deltaVal [AddCommGroupWithOne K] (data : List DRow) (u i p : ℤ) : K :=
  ((data.filter fun r => decide (r.user = u ∧ r.item = i ∧ r.pos = p)).map fun r => (r.val : K)).sum

/-- entries in range as typed COO data -/
structure DTyped [AddCommGroupWithOne K] (data : List DRow) {n0 n1 n2 : ℕ} (es : List (Ent n0 n1 n2 K)) : Prop where
  inds : dInds data = indsOf es
  vals : dVals data = valsOf es
  coo : ∀ i j k, cooTensor es i j k = deltaVal data (i : ℕ) (j : ℕ) (k : ℕ)
  ne : data ≠ [] → es ≠ []

theorem delta_typed [AddCommGroupWithOne K] (data : List DRow) (n0 n1 n2 : ℕ)
    (hu : ∀ r ∈ data, 0 ≤ r.user ∧ r.user < n0) (hi : ∀ r ∈ data, 0 ≤ r.item ∧ r.item < n1)
    (hp : ∀ r ∈ data, 0 ≤ r.pos ∧ r.pos < n2) : ∃ es : List (Ent n0 n1 n2 K), DTyped data es := by
  induction data with
  | nil => exact ⟨[], rfl, rfl, fun _ _ _ => rfl, fun h => absurd rfl h⟩
  | cons r data ih =>
    obtain ⟨es, h1, h2, h3, _⟩ := ih (fun x hx => hu x (List.mem_cons_of_mem _ hx))
      (fun x hx => hi x (List.mem_cons_of_mem _ hx)) (fun x hx => hp x (List.mem_cons_of_mem _ hx))
    obtain ⟨a1, a2⟩ := hu r List.mem_cons_self
    obtain ⟨b1, b2⟩ := hi r List.mem_cons_self
    obtain ⟨c1, c2⟩ := hp r List.mem_cons_self
    refine ⟨((⟨r.user.toNat, by omega⟩, ⟨r.item.toNat, by omega⟩, ⟨r.pos.toNat, by omega⟩), (r.val : K)) :: es,
      ?_, ?_, ?_, fun _ => List.cons_ne_nil _ _⟩
    · show (r.user, r.item, r.pos) :: dInds data = _ :: indsOf es
      rw [h1]
      congr 1
      simp only [Ent.ind]
      rw [Int.toNat_of_nonneg a1, Int.toNat_of_nonneg b1, Int.toNat_of_nonneg c1]
    · show (r.val : K) :: dVals data = _ :: valsOf es
      rw [h2]
    · intro i j k
      have h4 := h3 i j k
      unfold cooTensor deltaVal at h4 ⊢
      rw [List.filter_cons, List.filter_cons]
      have : (decide ((((⟨r.user.toNat, by omega⟩ : Fin n0), (⟨r.item.toNat, by omega⟩ : Fin n1),
          (⟨r.pos.toNat, by omega⟩ : Fin n2))) = (i, j, k)) : Bool) =
          decide (r.user = ((i : ℕ) : ℤ) ∧ r.item = ((j : ℕ) : ℤ) ∧ r.pos = ((k : ℕ) : ℤ)) := by
        rw [decide_eq_decide, Prod.mk.injEq, Prod.mk.injEq, Fin.ext_iff, Fin.ext_iff, Fin.ext_iff]
        dsimp only
        omega
      dsimp only at this ⊢
      rw [this]
      split
      · rw [List.map_cons, List.map_cons, List.sum_cons, List.sum_cons, h4]
      · exact h4

theorem deltaVal_localUser [AddCommGroupWithOne K] (data : List DRow) (k : Fin (npUnique (data.map DRow.user)).length)
    (i p : ℤ) :
    deltaVal (K := K) (data.map fun r => { r with user := localIdx (data.map DRow.user) r.user }) (k : ℕ) i p =
      deltaVal data (npUnique (data.map DRow.user))[k] i p := by
  unfold deltaVal
  rw [List.filter_map, List.map_map]
  have : ∀ r ∈ data, ((fun r : DRow => decide (r.user = ((k : ℕ) : ℤ) ∧ r.item = i ∧ r.pos = p)) ∘
      fun r => { r with user := localIdx (data.map DRow.user) r.user }) r =
      (fun r : DRow => decide (r.user = (npUnique (data.map DRow.user))[k] ∧ r.item = i ∧ r.pos = p)) r := by
    intro r hr
    dsimp only [Function.comp]
    rw [decide_eq_decide, localIdx_eq (List.mem_map_of_mem hr)]
  rw [List.filter_congr this]
  rfl

theorem deltaVal_localItem [AddCommGroupWithOne K] (data : List DRow) (k : Fin (npUnique (data.map DRow.item)).length)
    (u p : ℤ) :
    deltaVal (K := K) (data.map fun r => { r with item := localIdx (data.map DRow.item) r.item }) u (k : ℕ) p =
      deltaVal data u (npUnique (data.map DRow.item))[k] p := by
  unfold deltaVal
  rw [List.filter_map, List.map_map]
  have : ∀ r ∈ data, ((fun r : DRow => decide (r.user = u ∧ r.item = ((k : ℕ) : ℤ) ∧ r.pos = p)) ∘
      fun r => { r with item := localIdx (data.map DRow.item) r.item }) r =
      (fun r : DRow => decide (r.user = u ∧ r.item = (npUnique (data.map DRow.item))[k] ∧ r.pos = p)) r := by
    intro r hr
    dsimp only [Function.comp]
    rw [decide_eq_decide, localIdx_eq (List.mem_map_of_mem hr)]
  rw [List.filter_congr this]
  rfl

/-! ### The data of the steps -/

section
variable [CommRing K]

/-- the new slices of users: slice `k` belongs to the `k`-th smallest user of the data -/
def userSlices (data : List DRow) {L : ℕ} (att : Option (Matrix (Fin L) (Fin L) K)) (n1 : ℕ) :
    T3 (npUnique (data.map DRow.user)).length n1 L K :=
  fun k j p => ∑ l : Fin L, deltaVal data (npUnique (data.map DRow.user))[k] (j : ℕ) (l : ℕ) * attVal att l p

/-- the new slices of items: slice `k` belongs to the `k`-th smallest item of the data -/
def itemSlices (data : List DRow) {L : ℕ} (att : Option (Matrix (Fin L) (Fin L) K)) (n0 : ℕ) :
    T3 n0 (npUnique (data.map DRow.item)).length L K :=
  fun i k p => ∑ l : Fin L, deltaVal data (i : ℕ) (npUnique (data.map DRow.item))[k] (l : ℕ) * attVal att l p

theorem tiUnfolded_eq (c : TICfg K) (m : TDAtt K) {L : ℕ} (att : Option (Matrix (Fin L) (Fin L) K))
    (hatt : tiAttArg c m = attArg att) (data : List DRow) {n0 n1 : ℕ} (es : List (Ent n0 n1 L K)) (h : DTyped data es)
    (mode : ℤ) (hm : mode = 0 ∨ mode = 1 ∨ mode = 2) :
    tiUnfolded c m data (n0, n1, L) mode =
      unfoldDense ⟨n0, n1, L, fun i j p => ∑ l, cooTensor es i j l * attVal att l p⟩ mode := by
  unfold tiUnfolded
  rw [hatt, h.inds, h.vals]
  cases att with
  | none =>
    dsimp only [attArg, Option.map_none]
    have he : (indsOf es).map Ind3.vec = es.map Ent.vec := by
      unfold indsOf
      rw [List.map_map]
      rfl
    rw [he, C53_sparse_unfold es mode hm]
    congr 2
    funext i j p
    simp [attVal, Matrix.one_apply]
  | some A =>
    dsimp only [attArg, Option.map_some]
    rw [Mat.T_mk, (C55_tensordot es).2.2 A.transpose, except_bind_ok]
    rfl

theorem tiDataUsers_eq (c : TICfg K) (m : TDAtt K) (st : TDState K)
    (att : Option (Matrix (Fin c.td.seqLen) (Fin c.td.seqLen) K)) (hatt : tiAttArg c m = attArg att) {n1 : ℕ}
    (hv : st.v.rows = n1) (data : List DRow)
    (hi : ∀ r ∈ data, 0 ≤ r.item ∧ r.item < n1) (hp : ∀ r ∈ data, 0 ≤ r.pos ∧ r.pos < c.td.seqLen) :
    tiDataUsers c m st data = .ok ⟨_, _, unf (userSlices data att n1)⟩ := by
  set data' := data.map fun r => { r with user := localIdx (data.map DRow.user) r.user } with hd
  have hmem : ∀ r' ∈ data', ∃ r ∈ data, r' = { r with user := localIdx (data.map DRow.user) r.user } := by
    intro r' hr'
    obtain ⟨r, hr, rfl⟩ := List.mem_map.1 hr'
    exact ⟨r, hr, rfl⟩
  obtain ⟨es, hes⟩ := delta_typed (K := K) data' (npUnique (data.map DRow.user)).length n1 c.td.seqLen
    (by intro r' hr'; obtain ⟨r, hr, rfl⟩ := hmem r' hr'; exact localIdx_range (List.mem_map_of_mem hr))
    (by intro r' hr'; obtain ⟨r, hr, rfl⟩ := hmem r' hr'; exact hi r hr)
    (by intro r' hr'; obtain ⟨r, hr, rfl⟩ := hmem r' hr'; exact hp r hr)
  unfold tiDataUsers
  rw [mapToLocalUser_eq, except_bind_ok, hv, ← hd]
  dsimp only
  rw [tiUnfolded_eq c m att hatt data' es hes 0 (Or.inl rfl), unfoldDense_0]
  congr 3
  funext k j p
  refine Finset.sum_congr rfl fun l _ => ?_
  rw [hes.coo, hd, deltaVal_localUser]

theorem tiDataItems_eq (c : TICfg K) (m : TDAtt K) (st : TDState K)
    (att : Option (Matrix (Fin c.td.seqLen) (Fin c.td.seqLen) K)) (hatt : tiAttArg c m = attArg att) {n0 : ℕ}
    (hv : st.u.rows = n0) (data : List DRow)
    (hu : ∀ r ∈ data, 0 ≤ r.user ∧ r.user < n0) (hp : ∀ r ∈ data, 0 ≤ r.pos ∧ r.pos < c.td.seqLen) :
    tiDataItems c m st data = .ok ⟨_, _, unf (front1 (itemSlices data att n0))⟩ := by
  set data' := data.map fun r => { r with item := localIdx (data.map DRow.item) r.item } with hd
  have hmem : ∀ r' ∈ data', ∃ r ∈ data, r' = { r with item := localIdx (data.map DRow.item) r.item } := by
    intro r' hr'
    obtain ⟨r, hr, rfl⟩ := List.mem_map.1 hr'
    exact ⟨r, hr, rfl⟩
  obtain ⟨es, hes⟩ := delta_typed (K := K) data' n0 (npUnique (data.map DRow.item)).length c.td.seqLen
    (by intro r' hr'; obtain ⟨r, hr, rfl⟩ := hmem r' hr'; exact hu r hr)
    (by intro r' hr'; obtain ⟨r, hr, rfl⟩ := hmem r' hr'; exact localIdx_range (List.mem_map_of_mem hr))
    (by intro r' hr'; obtain ⟨r, hr, rfl⟩ := hmem r' hr'; exact hp r hr)
  unfold tiDataItems
  rw [mapToLocalItem_eq, except_bind_ok, hv, ← hd]
  dsimp only
  rw [tiUnfolded_eq c m att hatt data' es hes 1 (Or.inr (Or.inl rfl)), unfoldDense_1]
  congr 4
  funext j k p
  refine Finset.sum_congr rfl fun l _ => ?_
  rw [hes.coo, hd, deltaVal_localItem]

end

/-- the data of the block step: both columns re-numbered -/
def tiBlock (data : List DRow) : List DRow :=
  data.map fun r => { r with user := localIdx (data.map DRow.user) r.user, item := localIdx (data.map DRow.item) r.item }

theorem tiDataNew_eq (data : List DRow) : tiDataNew data = .ok (tiBlock data) := by
  unfold tiDataNew
  rw [mapToLocalUser_eq, except_bind_ok]
  dsimp only
  rw [mapToLocalItem_eq, except_bind_ok, List.map_map, List.map_map]
  rfl

theorem npUnique_local (a : List ℤ) :
    npUnique (a.map (localIdx a)) = (List.range (npUnique a).length).map fun i : ℕ => (i : ℤ) := by
  apply strictly_sorted_unique
  · exact npUnique_sorted _
  · rw [List.pairwise_map]
    exact List.pairwise_lt_range.imp (by intros; omega)
  · intro x
    rw [mem_npUnique, List.mem_map, List.mem_map]
    constructor
    · rintro ⟨y, hy, rfl⟩
      obtain ⟨h1, h2⟩ := localIdx_range hy
      exact ⟨(localIdx a y).toNat, by rw [List.mem_range]; omega, by omega⟩
    · rintro ⟨k, hk, rfl⟩
      rw [List.mem_range] at hk
      have hm := (mem_npUnique a _).1 (List.getElem_mem hk)
      exact ⟨_, hm, (localIdx_eq hm ⟨k, hk⟩).2 rfl⟩

theorem tiBlock_users (data : List DRow) :
    (npUnique ((tiBlock data).map DRow.user)).length = (npUnique (data.map DRow.user)).length := by
  have : (tiBlock data).map DRow.user = (data.map DRow.user).map (localIdx (data.map DRow.user)) := by
    unfold tiBlock
    rw [List.map_map, List.map_map]
    rfl
  rw [this, npUnique_local, List.length_map, List.length_range]

theorem tiBlock_items (data : List DRow) :
    (npUnique ((tiBlock data).map DRow.item)).length = (npUnique (data.map DRow.item)).length := by
  have : (tiBlock data).map DRow.item = (data.map DRow.item).map (localIdx (data.map DRow.item)) := by
    unfold tiBlock
    rw [List.map_map, List.map_map]
    rfl
  rw [this, npUnique_local, List.length_map, List.length_range]

theorem deltaVal_block [AddCommGroupWithOne K] (data : List DRow) (a : Fin (npUnique (data.map DRow.user)).length)
    (b : Fin (npUnique (data.map DRow.item)).length) (p : ℤ) :
    deltaVal (K := K) (tiBlock data) (a : ℕ) (b : ℕ) p =
      deltaVal data (npUnique (data.map DRow.user))[a] (npUnique (data.map DRow.item))[b] p := by
  unfold deltaVal tiBlock
  rw [List.filter_map, List.map_map]
  have : ∀ r ∈ data, ((fun r : DRow => decide (r.user = ((a : ℕ) : ℤ) ∧ r.item = ((b : ℕ) : ℤ) ∧ r.pos = p)) ∘
      fun r => { r with user := localIdx (data.map DRow.user) r.user, item := localIdx (data.map DRow.item) r.item }) r =
      (fun r : DRow => decide (r.user = (npUnique (data.map DRow.user))[a] ∧
        r.item = (npUnique (data.map DRow.item))[b] ∧ r.pos = p)) r := by
    intro r hr
    dsimp only [Function.comp]
    rw [decide_eq_decide, localIdx_eq (List.mem_map_of_mem hr), localIdx_eq (List.mem_map_of_mem hr)]
  rw [List.filter_congr this]
  rfl

theorem tiBlock_typed [AddCommGroupWithOne K] (data : List DRow) (L : ℕ) (hp : ∀ r ∈ data, 0 ≤ r.pos ∧ r.pos < L) :
    ∃ es : List (Ent (npUnique (data.map DRow.user)).length (npUnique (data.map DRow.item)).length L K),
      DTyped (tiBlock data) es := by
  have hmem : ∀ r' ∈ tiBlock data, ∃ r ∈ data, r' = { r with user := localIdx (data.map DRow.user) r.user, item := localIdx (data.map DRow.item) r.item } := by
    intro r' hr'
    obtain ⟨r, hr, rfl⟩ := List.mem_map.1 hr'
    exact ⟨r, hr, rfl⟩
  refine delta_typed _ _ _ _ ?_ ?_ ?_
  · intro r' hr'; obtain ⟨r, hr, rfl⟩ := hmem r' hr'; exact localIdx_range (List.mem_map_of_mem hr)
  · intro r' hr'; obtain ⟨r, hr, rfl⟩ := hmem r' hr'; exact localIdx_range (List.mem_map_of_mem hr)
  · intro r' hr'; obtain ⟨r, hr, rfl⟩ := hmem r' hr'; exact hp r hr

end DynCF
