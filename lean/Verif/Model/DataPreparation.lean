/-
Model of `/repo/source/data_preparation.py`.
-/
import Verif.Py.Basic
import Mathlib.Data.List.Sort

namespace DynCF

/-- One row of an interaction table: the columns `user_id`, `item_id`, `relevance`,
`timestamp`, `day` (data_preparation.py:6-11). The relevance lives in an arbitrary type `K`. -/
structure Row (K : Type) where
  user : ℤ
  item : ℤ
  rel : K
  ts : ℤ
  day : ℤ
  deriving DecidableEq, Repr

/-- `PAD_VALUE = -1` (data_preparation.py:17, ti_data_processing.py:11). -/
def PAD : ℤ := -1

/-- `enumerate(values, start)`. -/
def pyEnumerate {α : Type} : List α → ℤ → List (ℤ × α)
  | [], _ => []
  | v :: vs, i => (i, v) :: pyEnumerate vs (i + 1)

/-- The mapping structure built at data_preparation.py:26-29
(`old2new`, `new2old`, `n_indices`). -/
structure Mapping (α : Type) where
  old2new : Dict α ℤ
  new2old : Dict ℤ α
  n : ℕ

/-- data_preparation.py:19-30 `get_cont_mapping_struct`. -/
def getContMappingStruct {α : Type} [DecidableEq α] (values : List α) (start : ℤ) : Mapping α :=
  let old2new := Dict.update [] ((pyEnumerate values start).map Prod.swap)
  let new2old := Dict.update [] (pyEnumerate values start)
  { old2new := old2new, new2old := new2old, n := (Dict.keys new2old).length }

/-- data_preparation.py:32-39 `update_cont_mapping_struct` (in-place update becomes a new value). -/
def updateContMappingStruct {α : Type} [DecidableEq α] (m : Mapping α) (extra : List α) :
    Mapping α :=
  let e := getContMappingStruct extra (m.n : ℤ)
  { old2new := m.old2new.update e.old2new
    new2old := m.new2old.update e.new2old
    n := m.n + e.n }

/-- The `mappings` dictionary: one structure for `user_id`, one for `item_id`. -/
structure Mappings where
  user : Mapping ℤ
  item : Mapping ℤ

variable {K : Type}

/-- One pass `df_copy.loc[:, 'user_id'] = df_copy['user_id'].apply(lambda x: map[x])`
(data_preparation.py:52-54 / 64 with `col_name = USER_ID`). -/
def applyUserMap (m : Mapping ℤ) (df : List (Row K)) : PyM (List (Row K)) :=
  df.mapM fun r => do
    let u ← m.old2new.getItem r.user
    pure { r with user := u }

/-- The same with `col_name = ITEM_ID`. -/
def applyItemMap (m : Mapping ℤ) (df : List (Row K)) : PyM (List (Row K)) :=
  df.mapM fun r => do
    let i ← m.old2new.getItem r.item
    pure { r with item := i }

/-- data_preparation.py:41-55 `get_df_with_updated_indices`, `col_names = (USER_ID, ITEM_ID)`
(the only way it is called: models/svd.py:37-39, models/tdrec.py:183-185). -/
def getDfWithUpdatedIndices (df : List (Row K)) : PyM (List (Row K) × Mappings) := do
  let mu := getContMappingStruct (pdUnique (df.map Row.user)) 0
  let df1 ← applyUserMap mu df
  let mi := getContMappingStruct (pdUnique (df1.map Row.item)) 0
  let df2 ← applyItemMap mi df1
  pure (df2, ⟨mu, mi⟩)

/-- data_preparation.py:57-65 `map_df_columns`, `col_names = (USER_ID, ITEM_ID)`. -/
def mapDfColumns (df : List (Row K)) (m : Mappings) : PyM (List (Row K)) := do
  let df1 ← applyUserMap m.user df
  applyItemMap m.item df1

/-- `mapping['old2new'].get(x, PAD_VALUE)` (data_preparation.py:115). -/
def mapGetPad (m : Mapping ℤ) (x : ℤ) : ℤ := (m.old2new.get? x).getD PAD

/-- data_preparation.py:67-76 `get_inds_vals` with `mappings=None` (the only way it is
called): the (user, item) pairs and the relevances. -/
def getIndsVals (df : List (Row K)) : List (ℤ × ℤ) × List K :=
  (df.map fun r => (r.user, r.item), df.map Row.rel)

/-- `np.unique(a, return_index=True)[1]`: for each distinct value in ascending order,
the index of its first occurrence. -/
def npUniqueIndex (a : List ℤ) : List ℕ :=
  (stableSort (fun x y => decide (x ≤ y)) (pdUnique a)).map (fun x => a.idxOf x)

/-- data_preparation.py:78-81 `mask_first_occurence`: `True` except at first occurrences. -/
def maskFirstOccurence (a : List ℤ) : List Bool :=
  let idx := npUniqueIndex a
  (List.range a.length).map (fun i => !(decide (i ∈ idx)))

/-- data_preparation.py:114-120 `get_known_ui_df_mask`. -/
def getKnownUiDfMask (df : List (Row K)) (m : Mappings) : List Bool :=
  df.map fun r =>
    let oldUser := !(decide (mapGetPad m.user r.user = PAD))
    let oldItem := !(decide (mapGetPad m.item r.item = PAD))
    oldUser && oldItem

/-- data_preparation.py:122-129 `get_users_to_recommend_test_items`. -/
def getUsersToRecommendTestItems (df : List (Row K)) (m : Mappings) : List ℤ × List ℤ :=
  let inds := (getIndsVals (maskSelect df (getKnownUiDfMask df m))).1
  let mask := (maskFirstOccurence (inds.map Prod.fst)).map (fun b => !b)
  ((maskSelect inds mask).map Prod.fst, (maskSelect inds mask).map Prod.snd)

end DynCF
