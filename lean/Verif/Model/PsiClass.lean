/-
Model of `/repo/source/models/svd.py` (training) and `/repo/source/models/psi.py`.
-/
import Verif.Model.DataPreparation
import Verif.Model.Recommend
import Verif.Model.Psi

namespace DynCF
variable {K : Type}

/-- matrix_operations.py:77-85 `get_mapped_matrix`: `coo_matrix((vals, (rows, cols)), shape)`, entries of
equal coordinates are summed; scipy raises `ValueError` for an index outside the shape.
(The storage format does not matter here.) -/
def getMappedMatrix [AddCommMonoid K] (e : List ((ℤ × ℤ) × K)) (n0 n1 : ℕ) : PyM (Mat K) :=
  if e.all fun x => decide (0 ≤ x.1.1 ∧ x.1.1 < n0 ∧ 0 ≤ x.1.2 ∧ x.1.2 < n1) then
    .ok ⟨n0, n1, Matrix.of fun (i : Fin n0) (j : Fin n1) =>
      ((e.filter fun x => decide (x.1 = (((i : ℕ) : ℤ), ((j : ℕ) : ℤ)))).map Prod.snd).sum⟩
  else .error .valueError

/-- `max(a) + 1`, as `coo_matrix` infers a dimension from indices -/
def inferDim (a : List ℤ) : ℕ := a.foldl (fun m x => max m (x + 1).toNat) 0

/-- `coo_matrix((vals, (rows, cols)))` without a shape (models/svd.py:38-44): `ValueError` for empty
index arrays and for negative indices. -/
def cooInfer [AddCommMonoid K] (e : List ((ℤ × ℤ) × K)) : PyM (Mat K) :=
  if e.isEmpty then .error .valueError
  else getMappedMatrix e (inferDim (e.map fun x => x.1.1)) (inferDim (e.map fun x => x.1.2))

/-- The external routines: LAPACK/ARPACK, the draws of `random_svd`, `np.argsort` and
`random_state.normal` (each call with a fresh generator of the same seed). -/
structure PSIEnv (K : Type) where
  la : LinAlg K
  rng : Rng K
  argsort : ArgSort K
  normal : Rng K

/-- `_init_new_embeddings` when it is not `None`: `0` or a positive float. -/
inductive Emb
  | zero | random
  deriving DecidableEq

/-- Constructor arguments and the two configuration attributes (models/psi.py:20-41). -/
structure PSICfg where
  rank : ℕ
  nPower : ℕ
  os : ℕ
  init : Option Emb
  integrator : Bool

/-- The attributes of a trained `SVD`/`PSI` object; the two history arrays are zipped. -/
structure PSIState (K : Type) where
  maps : Mappings
  u : Mat K
  s : SArg K
  vt : Mat K
  history : List (ℤ × ℤ)
  userFactors : Mat K
  itemFactors : Mat K

/-- models/svd.py:35-47 `SVD.train` (inherited by `PSI`) -/
def svdTrain [CommRing K] (env : PSIEnv K) (cfg : PSICfg) (data : List (Row K)) :
    PyM (PSIState K) := do
  let dm ← getDfWithUpdatedIndices data
  let a0 ← cooInfer (dm.1.map fun r => ((r.user, r.item), r.rel))
  let f ← svdStep env.la env.rng (.csr a0) cfg.rank 1 2
  let itemFactors ← Mat.dot (Mat.diag f.2.1.val) f.2.2
  pure { maps := dm.2, u := f.1, s := .vec f.2.1.len f.2.1.val, vt := f.2.2,
         history := dm.1.map fun r => (r.user, r.item),
         userFactors := f.1, itemFactors := itemFactors }

/-- The `mode` strings. -/
inductive PsiMode
  | new | newUsers | newItems | old
  deriving DecidableEq, Repr

/-- models/psi.py:221-236 `_get_divide_df_mask`, the mask of one row -/
def divideRow (m : Mappings) (by_ : PsiMode) (r : Row K) : Bool :=
  let oldUser := !(decide (mapGetPad m.user r.user = -1))
  let oldItem := !(decide (mapGetPad m.item r.item = -1))
  match by_ with
  | .newUsers => !oldUser && oldItem
  | .newItems => oldUser && !oldItem
  | .old => oldUser && oldItem
  | .new => !oldUser && !oldItem

/-- models/psi.py:221-236 `_get_divide_df_mask` -/
def getDivideDfMask (df : List (Row K)) (m : Mappings) (by_ : PsiMode) : List Bool :=
  df.map (divideRow m by_)

/-- models/psi.py:52-55 `_add_new_entities_and_get_local_map`: the updated mapping and the local map -/
def addNewEntities (m : Mapping ℤ) (column : List ℤ) : Mapping ℤ × Dict ℤ ℤ :=
  let ents := pdUnique column
  (updateContMappingStruct m ents, (Dict.update [] ((pyEnumerate ents 0).map Prod.swap)))

/-- models/psi.py:81-83: look up rows and columns and build the matrix -/
def mappedEntries [AddCommMonoid K] (data : List (Row K)) (rowOf colOf : Row K → ℤ)
    (rowMap colMap : Dict ℤ ℤ) (n0 n1 : ℕ) : PyM (Mat K) := do
  let rows ← data.mapM fun r => rowMap.getItem (rowOf r)
  let cols ← data.mapM fun r => colMap.getItem (colOf r)
  getMappedMatrix ((rows.zip cols).zip (data.map Row.rel)) n0 n1

/-- models/psi.py:43-47, 57-84 `process_data_for_calculations`: the matrix and the updated mappings -/
def processData [AddCommMonoid K] (st : PSIState K) (data : List (Row K)) :
    PsiMode → PyM (Mat K × PSIState K)
  | .newUsers => do
    let a := addNewEntities st.maps.user (data.map Row.user)
    let st := { st with maps := { st.maps with user := a.1 } }
    let da ← mappedEntries data Row.item Row.user st.maps.item.old2new a.2 st.vt.cols a.2.length
    pure (da, st)
  | .newItems => do
    let a := addNewEntities st.maps.item (data.map Row.item)
    let st := { st with maps := { st.maps with item := a.1 } }
    let da ← mappedEntries data Row.user Row.item st.maps.user.old2new a.2 st.u.rows a.2.length
    pure (da, st)
  | .old => do
    let da ← mappedEntries data Row.user Row.item st.maps.user.old2new st.maps.item.old2new
      st.u.rows st.vt.cols
    pure (da, st)
  | .new => do
    let b := addNewEntities st.maps.item (data.map Row.item)
    let a := addNewEntities st.maps.user (data.map Row.user)
    let st := { st with maps := { user := a.1, item := b.1 } }
    let da ← mappedEntries data Row.user Row.item a.2 b.2 a.2.length b.2.length
    pure (da, st)

/-- `np.zeros((n_rows + n, n_cols))` with the first rows overwritten by `a` -/
def zeroPadRows [Zero K] (a : Mat K) (n : ℕ) : Mat K :=
  ⟨a.rows + n, a.cols, Matrix.of fun i j => Fin.addCases (fun i => a.val i j) (fun _ => 0) i⟩

/-- models/psi.py:105-116 `_add_zero_embeddings`, `mode == 'new_users'` -/
def addZeroUsers [Zero K] (n : ℕ) (st : PSIState K) : PSIState K := { st with u := zeroPadRows st.u n }

/-- models/psi.py:105-116 `_add_zero_embeddings`, `mode == 'new_items'` -/
def addZeroItems [Zero K] (n : ℕ) (st : PSIState K) : PSIState K :=
  { st with vt := (zeroPadRows st.vt.T n).T }

/-- models/psi.py:124-128: a random matrix with the first rows overwritten by `a` -/
def padRandom (normal : Rng K) (a : Mat K) (n : ℕ) : Mat K :=
  ⟨a.rows + n, a.cols, Matrix.of fun i j =>
    Fin.addCases (fun i => a.val i j) (fun i' => normal (a.rows + n) a.cols (Fin.natAdd a.rows i') j) i⟩

/-- models/psi.py:118-137 `_add_random_embeddings`, `mode == 'new_users'` -/
def addRandomUsers [CommRing K] (env : PSIEnv K) (n : ℕ) (st : PSIState K) : PyM (PSIState K) := do
  let q := env.la.qrM (padRandom env.normal st.u n)
  let s ← q.2.dot st.s.toMat
  pure { st with u := q.1, s := .mat s }

/-- models/psi.py:118-137 `_add_random_embeddings`, `mode == 'new_items'`: the same formula
`_r.dot(self.s)` as for users -/
def addRandomItems [CommRing K] (env : PSIEnv K) (n : ℕ) (st : PSIState K) : PyM (PSIState K) := do
  let q := env.la.qrM (padRandom env.normal st.vt.T n)
  let s ← q.2.dot st.s.toMat
  pure { st with vt := q.1.T, s := .mat s }

/-- models/psi.py:49-50, 139-171 `_updater` -/
def psiUpdater [Field K] [LinearOrder K] (env : PSIEnv K) (cfg : PSICfg) (st : PSIState K) (da : Mat K) :
    PsiMode → PyM (PSIState K)
  | .newUsers =>
    match cfg.init with
    | none => do
      let f ← updateSvdNewVectors env.la env.rng st.vt.T st.s st.u.T da cfg.nPower cfg.os
      pure { st with u := f.2.2.T, s := .vec f.2.1.len f.2.1.val, vt := f.1.T }
    | some .zero => pure (addZeroUsers da.cols st)
    | some .random => addRandomUsers env da.cols st
  | .newItems =>
    match cfg.init with
    | none => do
      let f ← updateSvdNewVectors env.la env.rng st.u st.s st.vt da cfg.nPower cfg.os
      pure { st with u := f.1, s := .vec f.2.1.len f.2.1.val, vt := f.2.2 }
    | some .zero => pure (addZeroItems da.cols st)
    | some .random => addRandomItems env da.cols st
  | .old => do
    let f ← psiStep env.la st.u st.s st.vt da
    pure { st with u := f.1, s := .mat f.2.1, vt := f.2.2 }
  | .new =>
    if cfg.integrator then pure (addZeroItems da.cols (addZeroUsers da.rows st))
    else do
      let f ← updateSvdNewSubmatrix env.la env.rng env.argsort st.u st.s st.vt da cfg.nPower cfg.os
      pure { st with u := f.1, s := f.2.1, vt := f.2.2 }

/-- models/psi.py:173-176 `update_factors_by_mode` -/
def updateFactorsByMode [Field K] [LinearOrder K] (env : PSIEnv K) (cfg : PSICfg) (st : PSIState K)
    (data : List (Row K)) (mode : PsiMode) : PyM (PSIState K) :=
  if data.length > 0 then do
    let p ← processData st data mode
    psiUpdater env cfg p.2 p.1 mode
  else pure st

/-- The variables of the loops of `update`: the object, `left_data`, and (not in the code) a log of the
data passed to `update_factors_by_mode`. -/
structure PsiLoop (K : Type) where
  st : PSIState K
  left : List (Row K)
  log : List (PsiMode × List (Row K))

/-- models/psi.py:100-103, 188-190 = 199-201 = 206-208: one round of a loop over modes -/
def psiRound [Field K] [LinearOrder K] (env : PSIEnv K) (cfg : PSICfg) (l : PsiLoop K) (mode : PsiMode) :
    PyM (PsiLoop K) := do
  let mask := getDivideDfMask l.left l.st.maps mode
  let prepared := maskSelect l.left mask
  let st ← updateFactorsByMode env cfg l.st prepared mode
  pure { st := st, left := maskSelect l.left (mask.map fun b => !b), log := l.log ++ [(mode, prepared)] }

/-- models/psi.py:193-202 -/
def psiRoundsInit [Field K] [LinearOrder K] (env : PSIEnv K) (cfg : PSICfg) (st : PSIState K)
    (data : List (Row K)) : PyM (PsiLoop K) := do
  let l1 ← psiRound env cfg ⟨st, data, []⟩ .new
  let l3 ← [PsiMode.newUsers, .newItems].foldlM (psiRound env cfg) l1
  let st ← updateFactorsByMode env cfg l3.st l1.left .old
  pure { l3 with st := st, log := l3.log ++ [(.old, l1.left)] }

/-- models/psi.py:204-209 -/
def psiRoundsIntegrator [Field K] [LinearOrder K] (env : PSIEnv K) (cfg : PSICfg) (st : PSIState K)
    (data : List (Row K)) : PyM (PsiLoop K) := do
  let l3 ← [PsiMode.new, .newUsers, .newItems].foldlM (psiRound env cfg) ⟨st, data, []⟩
  let st ← updateFactorsByMode env cfg l3.st data .old
  pure { l3 with st := st, log := l3.log ++ [(.old, data)] }

/-- models/psi.py:178-211: the part of `update` before the history is updated -/
def psiRounds [Field K] [LinearOrder K] (env : PSIEnv K) (cfg : PSICfg) (st : PSIState K)
    (data : List (Row K)) : PyM (PsiLoop K) :=
  match cfg.init, cfg.integrator with
  | none, false =>
    [PsiMode.new, .newUsers, .newItems, .old].foldlM (psiRound env cfg) ⟨st, data, []⟩
  | some _, false => psiRoundsInit env cfg st data
  | some _, true => psiRoundsIntegrator env cfg st data
  | none, true => .error .runtimeError

/-- models/psi.py:86-98 `_update_history` -/
def psiUpdateHistory (st : PSIState K) (data : List (Row K)) : PyM (PSIState K) := do
  let us ← data.mapM fun r => st.maps.user.old2new.getItem r.user
  let is ← data.mapM fun r => st.maps.item.old2new.getItem r.item
  pure { st with history := st.history ++ us.zip is }

/-- models/psi.py:178-218 `update` -/
def psiUpdate [Field K] [LinearOrder K] (env : PSIEnv K) (cfg : PSICfg) (st : PSIState K)
    (data : List (Row K)) : PyM (PSIState K) := do
  let l ← psiRounds env cfg st data
  let st ← psiUpdateHistory l.st data
  let itemFactors ← st.s.toMat.dot st.vt
  pure { st with s := .mat st.s.toMat, userFactors := st.u, itemFactors := itemFactors }

/-- A trained model and any number of updates. -/
def psiRun [Field K] [LinearOrder K] (env : PSIEnv K) (cfg : PSICfg) (train : List (Row K))
    (chunks : List (List (Row K))) : PyM (PSIState K) := do
  let st ← svdTrain env cfg train
  chunks.foldlM (psiUpdate env cfg) st

/-- What `recommend` reads (models/svd.py:64-72, 84). -/
def PSIState.view (st : PSIState K) : RecView :=
  ⟨st.u.rows, st.vt.cols, st.maps, st.history⟩

/-- models/svd.py:74-75 `_recommend_user` -/
def psiScore [CommRing K] (st : PSIState K) (u : ℤ) : PyM (List K) := do
  let row ← st.userFactors.row u
  let x ← st.itemFactors.T.dotVec ⟨_, row⟩
  pure (List.ofFn x.val)

/-- models/svd.py:77-103 `recommend` -/
def psiRecommend [CommRing K] (argp : ArgPart K) (st : PSIState K) (users : List ℤ) (k : ℕ)
    (filterViewed internal : Bool) : PyM (List (List ℤ)) :=
  recommend true argp st.view (fun _ u => psiScore st u) users k filterViewed internal

end DynCF
