/-
Applying the same renaming to the keys of dictionaries and to the tables commutes with the functions of
the library: lists, dictionaries, mappings, tables.
-/
import Verif.Model.Ablation
import Verif.Lemmas.Dict

namespace DynCF

/-! ### Relabelling of tables (the specification used by `Props/Relabel`) -/

/-- New names for the users, items, timestamps and days of a table. -/
structure Relabel where
  user : ℤ → ℤ
  item : ℤ → ℤ
  ts : ℤ → ℤ
  day : ℤ → ℤ

/-- A row under its new names. -/
def Relabel.row {K : Type} (g : Relabel) (r : Row K) : Row K :=
  ⟨g.user r.user, g.item r.item, r.rel, g.ts r.ts, g.day r.day⟩

/-- A row of the prepared file; its index label stays. -/
def Relabel.irow {K : Type} (g : Relabel) (r : IRow K) : IRow K := ⟨r.idx, g.row r.row⟩

/-- A row with a position. -/
def Relabel.prow {K : Type} (g : Relabel) (p : PRow K) : PRow K := ⟨g.row p.row, p.pos⟩

/-- A table given to a model. -/
def Relabel.tab {K : Type} (g : Relabel) : Tab K → Tab K
  | .plain r => .plain (r.map g.row)
  | .posed r => .posed (r.map g.prow)

/-- Times and days only: what is left of the renaming once the ids have been replaced by indices. -/
def Relabel.times (g : Relabel) : Relabel := { g with user := id, item := id }

/-- Items, times and days. -/
def Relabel.noUser (g : Relabel) : Relabel := { g with user := id }

/-- A mapping whose external ids have new names. -/
def renMapping (f : ℤ → ℤ) (m : Mapping ℤ) : Mapping ℤ :=
  ⟨m.old2new.map fun e => (f e.1, e.2), m.new2old.map fun e => (e.1, f e.2), m.n⟩

/-- Both mappings. -/
def Relabel.maps (g : Relabel) (m : Mappings) : Mappings := ⟨renMapping g.user m.user, renMapping g.item m.item⟩

/-! ### Lists -/

theorem pdUnique_map_inj {α β : Type} [DecidableEq α] [DecidableEq β] (f : α → β) (hf : f.Injective)
    (l : List α) : pdUnique (l.map f) = (pdUnique l).map f := by
  induction l with
  | nil => rfl
  | cons x xs ih =>
    simp only [List.map_cons, pdUnique, ih, List.filter_map]
    congr 2
    apply List.filter_congr
    intro y _
    simp [hf.eq_iff]

theorem stableSort_map' {α β : Type} (le : α → α → Bool) (le' : β → β → Bool) (f : α → β)
    (h : ∀ a b, le' (f a) (f b) = le a b) (l : List α) :
    stableSort le' (l.map f) = (stableSort le l).map f := by
  unfold stableSort
  refine (List.map_insertionSort _ _ f l ?_).symm
  intro a _ b _
  rw [h]

theorem maskSelect_map_list {α β : Type} (f : α → β) (l : List α) (m : List Bool) :
    maskSelect (l.map f) m = (maskSelect l m).map f := by
  induction l generalizing m with
  | nil => cases m <;> rfl
  | cons x xs ih =>
    cases m with
    | nil => rfl
    | cons b bs => cases b <;> simp [maskSelect, ih]

theorem mapM_map_list {α β γ : Type} (f : α → β) (g : β → PyM γ) (l : List α) :
    (l.map f).mapM g = l.mapM fun x => g (f x) := by
  induction l with
  | nil => rfl
  | cons x xs ih => simp only [List.map_cons, List.mapM_cons, ih]

theorem mapM_fmap {α β γ : Type} (h : β → γ) (g : α → PyM β) (l : List α) :
    (l.mapM fun x => h <$> g x) = List.map h <$> l.mapM g := by
  induction l with
  | nil => rfl
  | cons x xs ih =>
    simp only [List.mapM_cons, ih, bind_map_left, map_bind, map_pure, List.map_cons]

theorem pyEnumerate_map {α β : Type} (f : α → β) (l : List α) (s : ℤ) :
    pyEnumerate (l.map f) s = (pyEnumerate l s).map fun p => (p.1, f p.2) := by
  induction l generalizing s with
  | nil => rfl
  | cons x xs ih => simp [pyEnumerate, ih]

/-! ### Dictionaries -/

section
variable {α β γ : Type} [DecidableEq α] [DecidableEq γ]

theorem Dict.get?_mapKeys (f : α → γ) (hf : f.Injective) (d : Dict α β) (k : α) :
    Dict.get? (d.map fun e => (f e.1, e.2)) (f k) = d.get? k := by
  induction d with
  | nil => rfl
  | cons e d ih =>
    obtain ⟨a, b⟩ := e
    simp only [List.map_cons, Dict.get?, hf.eq_iff, ih]

theorem Dict.getItem_mapKeys (f : α → γ) (hf : f.Injective) (d : Dict α β) (k : α) :
    Dict.getItem (d.map fun e => (f e.1, e.2)) (f k) = d.getItem k := by
  unfold Dict.getItem
  rw [Dict.get?_mapKeys f hf]

theorem Dict.set_mapKeys (f : α → γ) (hf : f.Injective) (d : Dict α β) (k : α) (v : β) :
    Dict.set (d.map fun e => (f e.1, e.2)) (f k) v = (d.set k v).map fun e => (f e.1, e.2) := by
  induction d with
  | nil => rfl
  | cons e d ih =>
    obtain ⟨a, b⟩ := e
    simp only [List.map_cons, Dict.set, hf.eq_iff, ih]
    split <;> rfl

theorem Dict.update_mapKeys (f : α → γ) (hf : f.Injective) (d e : Dict α β) :
    Dict.update (d.map fun e => (f e.1, e.2)) (e.map fun e => (f e.1, e.2)) =
      (d.update e).map fun e => (f e.1, e.2) := by
  unfold Dict.update
  induction e generalizing d with
  | nil => rfl
  | cons x e ih =>
    simp only [List.map_cons, List.foldl_cons]
    rw [Dict.set_mapKeys f hf, ih]

end

section
variable {α β γ : Type} [DecidableEq α]

theorem Dict.get?_mapVals (f : β → γ) (d : Dict α β) (k : α) :
    Dict.get? (d.map fun e => (e.1, f e.2)) k = (d.get? k).map f := by
  induction d with
  | nil => rfl
  | cons e d ih =>
    obtain ⟨a, b⟩ := e
    simp only [List.map_cons, Dict.get?, ih]
    split <;> rfl

theorem Dict.getItem_mapVals (f : β → γ) (d : Dict α β) (k : α) :
    Dict.getItem (d.map fun e => (e.1, f e.2)) k = f <$> d.getItem k := by
  unfold Dict.getItem
  rw [Dict.get?_mapVals]
  cases d.get? k <;> rfl

theorem Dict.set_mapVals (f : β → γ) (d : Dict α β) (k : α) (v : β) :
    Dict.set (d.map fun e => (e.1, f e.2)) k (f v) = (d.set k v).map fun e => (e.1, f e.2) := by
  induction d with
  | nil => rfl
  | cons e d ih =>
    obtain ⟨a, b⟩ := e
    simp only [List.map_cons, Dict.set, ih]
    split <;> rfl

theorem Dict.update_mapVals (f : β → γ) (d e : Dict α β) :
    Dict.update (d.map fun e => (e.1, f e.2)) (e.map fun e => (e.1, f e.2)) =
      (d.update e).map fun e => (e.1, f e.2) := by
  unfold Dict.update
  induction e generalizing d with
  | nil => rfl
  | cons x e ih =>
    simp only [List.map_cons, List.foldl_cons]
    rw [Dict.set_mapVals, ih]

end

/-! ### Mappings -/

section
variable {f : ℤ → ℤ}

theorem renMapping_getItem (hf : f.Injective) (m : Mapping ℤ) (x : ℤ) :
    (renMapping f m).old2new.getItem (f x) = m.old2new.getItem x := Dict.getItem_mapKeys f hf _ _

theorem renMapping_get? (hf : f.Injective) (m : Mapping ℤ) (x : ℤ) :
    (renMapping f m).old2new.get? (f x) = m.old2new.get? x := Dict.get?_mapKeys f hf _ _

theorem renMapping_getPad (hf : f.Injective) (m : Mapping ℤ) (x : ℤ) :
    mapGetPad (renMapping f m) (f x) = mapGetPad m x := by
  unfold mapGetPad
  rw [renMapping_get? hf]

theorem localDict_ren (hf : f.Injective) (l : List ℤ) (s : ℤ) :
    Dict.update [] ((pyEnumerate (l.map f) s).map Prod.swap) =
      (Dict.update [] ((pyEnumerate l s).map Prod.swap)).map fun e => (f e.1, e.2) := by
  rw [pyEnumerate_map, List.map_map]
  have h := Dict.update_mapKeys f hf ([] : Dict ℤ ℤ) ((pyEnumerate l s).map Prod.swap)
  rw [← h, List.map_map]
  rfl

theorem getContMappingStruct_ren (hf : f.Injective) (l : List ℤ) (s : ℤ) :
    getContMappingStruct (l.map f) s = renMapping f (getContMappingStruct l s) := by
  have h1 : Dict.update [] (pyEnumerate (l.map f) s) =
      (Dict.update [] (pyEnumerate l s)).map fun e => (e.1, f e.2) := by
    rw [pyEnumerate_map]
    exact Dict.update_mapVals f ([] : Dict ℤ ℤ) (pyEnumerate l s)
  unfold getContMappingStruct renMapping
  simp only [localDict_ren hf, h1, Dict.keys, List.length_map]

theorem updateContMappingStruct_ren (hf : f.Injective) (m : Mapping ℤ) (l : List ℤ) :
    updateContMappingStruct (renMapping f m) (l.map f) = renMapping f (updateContMappingStruct m l) := by
  unfold updateContMappingStruct
  have hn : (renMapping f m).n = m.n := rfl
  simp only [hn, getContMappingStruct_ren hf]
  simp only [renMapping, Dict.update_mapKeys f hf, Dict.update_mapVals]

theorem newIds_ren (hf : f.Injective) (m : Mapping ℤ) (l : List ℤ) :
    newIds (renMapping f m) (l.map f) = (newIds m l).map f := by
  unfold newIds
  rw [pdUnique_map_inj f hf, List.filter_map]
  congr 1
  apply List.filter_congr
  intro x _
  simp only [Function.comp, renMapping_get? hf]

theorem addNewEntities_ren (hf : f.Injective) (m : Mapping ℤ) (l : List ℤ) :
    addNewEntities (renMapping f m) (l.map f) =
      (renMapping f (addNewEntities m l).1, (addNewEntities m l).2.map fun e => (f e.1, e.2)) := by
  unfold addNewEntities
  simp only [pdUnique_map_inj f hf, updateContMappingStruct_ren hf, localDict_ren hf]

end

/-! ### Tables -/

variable {K : Type}

/-- Injective on ids. -/
structure Relabel.Inj (g : Relabel) : Prop where
  user : g.user.Injective
  item : g.item.Injective

@[simp] theorem Relabel.row_user (g : Relabel) (r : Row K) : (g.row r).user = g.user r.user := rfl
@[simp] theorem Relabel.row_item (g : Relabel) (r : Row K) : (g.row r).item = g.item r.item := rfl
@[simp] theorem Relabel.row_rel (g : Relabel) (r : Row K) : (g.row r).rel = r.rel := rfl
@[simp] theorem Relabel.row_day (g : Relabel) (r : Row K) : (g.row r).day = g.day r.day := rfl
@[simp] theorem Relabel.row_ts (g : Relabel) (r : Row K) : (g.row r).ts = g.ts r.ts := rfl

theorem map_row_user (g : Relabel) (df : List (Row K)) : (df.map g.row).map Row.user = (df.map Row.user).map g.user := by
  simp [List.map_map, Function.comp_def]

theorem map_row_item (g : Relabel) (df : List (Row K)) : (df.map g.row).map Row.item = (df.map Row.item).map g.item := by
  simp [List.map_map, Function.comp_def]

theorem map_row_rel (g : Relabel) (df : List (Row K)) : (df.map g.row).map Row.rel = df.map Row.rel := by
  simp [List.map_map, Function.comp_def]

theorem applyUserMap_ren (g : Relabel) (hg : g.user.Injective) (m : Mapping ℤ) (df : List (Row K)) :
    applyUserMap (renMapping g.user m) (df.map g.row) = List.map g.noUser.row <$> applyUserMap m df := by
  unfold applyUserMap
  rw [mapM_map_list, ← mapM_fmap]
  congr 1
  funext r
  simp only [Relabel.row_user, renMapping_getItem hg, map_bind, map_pure]
  rfl

theorem applyItemMap_ren (g : Relabel) (hg : g.item.Injective) (m : Mapping ℤ) (df : List (Row K)) :
    applyItemMap (renMapping g.item m) (df.map g.noUser.row) = List.map g.times.row <$> applyItemMap m df := by
  unfold applyItemMap
  rw [mapM_map_list, ← mapM_fmap]
  congr 1
  funext r
  have : (g.noUser.row r).item = g.item r.item := rfl
  simp only [this, renMapping_getItem hg, map_bind, map_pure]
  rfl

theorem mapDfColumns_ren (g : Relabel) (hg : g.Inj) (df : List (Row K)) (m : Mappings) :
    mapDfColumns (df.map g.row) (g.maps m) = List.map g.times.row <$> mapDfColumns df m := by
  unfold mapDfColumns
  simp only [Relabel.maps, applyUserMap_ren g hg.user, bind_map_left, applyItemMap_ren g hg.item, map_bind]

theorem getDfWithUpdatedIndices_ren (g : Relabel) (hg : g.Inj) (df : List (Row K)) :
    getDfWithUpdatedIndices (df.map g.row) =
      (fun p => (p.1.map g.times.row, g.maps p.2)) <$> getDfWithUpdatedIndices df := by
  unfold getDfWithUpdatedIndices
  have h1 : ∀ l : List (Row K), (l.map g.noUser.row).map Row.item = (l.map Row.item).map g.item := fun l => by
    simp [List.map_map, Function.comp_def, Relabel.noUser]
  simp only [map_row_user, pdUnique_map_inj g.user hg.user, getContMappingStruct_ren hg.user,
    applyUserMap_ren g hg.user, bind_map_left, h1, pdUnique_map_inj g.item hg.item,
    getContMappingStruct_ren hg.item, applyItemMap_ren g hg.item, map_bind, map_pure]
  rfl

theorem registerNew_ren (g : Relabel) (hg : g.Inj) (m : Mappings) (df : List (Row K)) :
    registerNew (g.maps m) (df.map g.row) = g.maps (registerNew m df) := by
  unfold registerNew
  simp only [Relabel.maps, map_row_user, map_row_item, newIds_ren hg.user, newIds_ren hg.item,
    updateContMappingStruct_ren hg.user, updateContMappingStruct_ren hg.item]

theorem getKnownUiDfMask_ren (g : Relabel) (hg : g.Inj) (df : List (Row K)) (m : Mappings) :
    getKnownUiDfMask (df.map g.row) (g.maps m) = getKnownUiDfMask df m := by
  unfold getKnownUiDfMask
  rw [List.map_map]
  apply List.map_congr_left
  intro r _
  simp only [Function.comp, Relabel.maps, Relabel.row_user, Relabel.row_item, renMapping_getPad hg.user,
    renMapping_getPad hg.item]

theorem idxOf_map_inj {f : ℤ → ℤ} (hf : f.Injective) (a : List ℤ) (x : ℤ) : (a.map f).idxOf (f x) = a.idxOf x := by
  induction a with
  | nil => rfl
  | cons y a ih =>
    have hb : (f y == f x) = (y == x) := by
      rw [Bool.eq_iff_iff, beq_iff_eq, beq_iff_eq, hf.eq_iff]
    rw [List.map_cons, List.idxOf_cons, List.idxOf_cons, ih, hb]

/-- membership in the index list does not depend on the order of the values -/
theorem mem_npUniqueIndex (a : List ℤ) (i : ℕ) : i ∈ npUniqueIndex a ↔ ∃ x ∈ a, a.idxOf x = i := by
  unfold npUniqueIndex
  rw [List.mem_map]
  simp only [stableSort, List.mem_insertionSort]
  constructor
  · rintro ⟨x, hx, h⟩
    exact ⟨x, (mem_pdUnique _ _).1 hx, h⟩
  · rintro ⟨x, hx, h⟩
    exact ⟨x, (mem_pdUnique _ _).2 hx, h⟩

theorem maskFirstOccurence_map {f : ℤ → ℤ} (hf : f.Injective) (a : List ℤ) :
    maskFirstOccurence (a.map f) = maskFirstOccurence a := by
  unfold maskFirstOccurence
  simp only [List.length_map]
  apply List.map_congr_left
  intro i _
  congr 1
  apply decide_eq_decide.2
  rw [mem_npUniqueIndex, mem_npUniqueIndex]
  constructor
  · rintro ⟨x, hx, h⟩
    obtain ⟨y, hy, rfl⟩ := List.mem_map.1 hx
    exact ⟨y, hy, by rw [← h, idxOf_map_inj hf]⟩
  · rintro ⟨x, hx, h⟩
    exact ⟨f x, List.mem_map_of_mem hx, by rw [idxOf_map_inj hf, h]⟩

theorem getUsersToRecommendTestItems_ren (g : Relabel) (hg : g.Inj) (df : List (Row K)) (m : Mappings) :
    getUsersToRecommendTestItems (df.map g.row) (g.maps m) =
      ((getUsersToRecommendTestItems df m).1.map g.user, (getUsersToRecommendTestItems df m).2.map g.item) := by
  have h1 : ∀ l : List (Row K), (getIndsVals (l.map g.row)).1 =
      (getIndsVals l).1.map fun p => (g.user p.1, g.item p.2) := fun l => by
    simp [getIndsVals, List.map_map, Function.comp_def]
  have h2 : ∀ l : List (ℤ × ℤ), (l.map fun p => (g.user p.1, g.item p.2)).map Prod.fst =
      (l.map Prod.fst).map g.user := fun l => by simp [List.map_map, Function.comp_def]
  unfold getUsersToRecommendTestItems
  simp only [getKnownUiDfMask_ren g hg, maskSelect_map_list, h1, h2, maskFirstOccurence_map hg.user]
  simp [List.map_map, Function.comp_def]

end DynCF
