/-
Model of `/repo/source/models/tirec.py` (`TIRec`) and `/repo/source/models/tirec_accelerated.py`
(`TIRecA`). The two files repeat the same methods; the line numbers of the second file are marked `A:`.
-/
import Verif.Model.TDRec
import Verif.Model.PsiClass
import Verif.Model.TuckerIntegrator

namespace DynCF
variable {K : Type}

/-- Configuration of a `TIRec` or `TIRecA` object: that of `TDRec`, `att_light_mode` and `explicit_calc`
(tirec.py:113-114), the attributes `_init_new_embeddings` and `_nu_ni_process_integrator`
(A:117-121, `TIRecA` only) and the random draws: `vecRng` those of `update_tucker_new_vectors`, `matRng`
those of `update_tucker_new_matrix`, `normal` those of `_add_random_embeddings`. Every call gets the same
draws, as with a fixed seed. -/
structure TICfg (K : Type) where
  td : TDCfg K
  light : Bool
  explicitCalc : Bool
  vecRng : ℕ → Rng K
  matRng : ℕ → ℕ → Rng K
  normal : Rng K
  init : Emb
  integrator : Bool

/-- The result of `preprocess_raw_input_data` and the updated mappings. -/
structure TIPrep (K : Type) where
  chunk : List (PRow K)
  newUsers : List ℤ
  newItems : List ℤ
  maps : Mappings

/-- tirec.py:130-157 (A:136-163) `preprocess_raw_input_data` -/
def tiPreprocess (maps : Mappings) (L : ℕ) (data : List (Row K)) (sortBool : Bool) : PyM (TIPrep K) := do
  let chunk ← getDfWithCroppedPos data L sortBool
  let rows := chunk.map PRow.row
  let nu := newIds maps.user (rows.map Row.user)
  let ni := newIds maps.item (rows.map Row.item)
  let maps' := registerNew maps rows
  let newUsers ← nu.mapM fun e => maps'.user.old2new.getItem e
  let newItems ← ni.mapM fun e => maps'.item.old2new.getItem e
  let rows' ← mapDfColumns rows maps'
  pure ⟨withPos rows' chunk, newUsers, newItems, maps'⟩

/-- `data[[USER_ID, ITEM_ID, POSITION_ID]].to_numpy()` -/
def chunkInters (chunk : List (PRow K)) : List Inter := chunk.map fun p => ⟨p.row.user, p.row.item, p.pos⟩

/-- tirec.py:159-175 (A:165-181) `get_train_tensor`: the delta and the updated sequential history -/
def tiTrainTensor (h : SeqHist) (L : ℕ) (chunk : List (PRow K)) : List DRow × SeqHist :=
  let prev := snapshot h
  let h' := updateUserSeqHistory (chunkInters chunk) h L
  (calculateDelta h' prev, h')

/-- tirec.py:302 (A:341, 351, 364): `np.concatenate((delta_inds, delta_vals[:, np.newaxis]), axis=1)`. Without
entries `delta_inds` is `np.array([])`, which has one dimension: `ValueError`. -/
def tiConcat (delta : List DRow) : PyM (List DRow) :=
  if delta.isEmpty then .error .valueError else .ok delta

/-- `np.sort(np.unique(values))` -/
def npUnique (a : List ℤ) : List ℤ := stableSort (fun x y => decide (x ≤ y)) (pdUnique a)

/-- tirec.py:177-178 (A:183-184) `_get_local_map` -/
def getLocalMap (values : List ℤ) : Dict ℤ ℤ := Dict.update [] ((pyEnumerate (npUnique values) 0).map Prod.swap)

/-- tirec.py:180-183 (A:186-189) `_map_to_local` for column 0: the array afterwards and the returned number -/
def mapToLocalUser (data : List DRow) : PyM (List DRow × ℕ) := do
  let m := getLocalMap (data.map DRow.user)
  let d ← data.mapM fun r => do
    let x ← m.getItem r.user
    pure { r with user := x }
  pure (d, m.length)

/-- tirec.py:180-183 (A:186-189) `_map_to_local` for column 1 -/
def mapToLocalItem (data : List DRow) : PyM (List DRow × ℕ) := do
  let m := getLocalMap (data.map DRow.item)
  let d ← data.mapM fun r => do
    let x ← m.getItem r.item
    pure { r with item := x }
  pure (d, m.length)

/-- `data[:, :3]` -/
def dInds (data : List DRow) : List Ind3 := data.map fun r => (r.user, r.item, r.pos)

/-- `data[:, 3]` -/
def dVals [IntCast K] (data : List DRow) : List K := data.map fun r => (r.val : K)

/-- tirec.py:236-239, 251-254 (A:274-277, 289-292): `att_mtx` -/
def tiAttArg (c : TICfg K) (m : TDAtt K) : Option (Mat K) :=
  if c.td.attF.isSome && !c.light then some m.att else none

/-- tirec.py:197-211 (A:203-217): the new vectors as rows of a matrix, with or without attention -/
def tiUnfolded [CommRing K] (c : TICfg K) (m : TDAtt K) (data : List DRow) (shape : ℕ × ℕ × ℕ) (mode : ℤ) :
    PyM (Mat K) :=
  match tiAttArg c m with
  | none => unfoldSparse ((dInds data).map Ind3.vec) (dVals data) shape mode
  | some a => do
    let t ← tensordot (dInds data) (dVals data) shape a.T 2
    unfoldDense t mode

/-- tirec.py:189-211 (A:195-217) `process_data_for_calculations`, `mode == 'new_users'` -/
def tiDataUsers [CommRing K] (c : TICfg K) (m : TDAtt K) (st : TDState K) (data : List DRow) : PyM (Mat K) := do
  let l ← mapToLocalUser data
  tiUnfolded c m l.1 (l.2, st.v.rows, c.td.seqLen) 0

/-- tirec.py:189-211 (A:195-217) `process_data_for_calculations`, `mode == 'new_items'` -/
def tiDataItems [CommRing K] (c : TICfg K) (m : TDAtt K) (st : TDState K) (data : List DRow) : PyM (Mat K) := do
  let l ← mapToLocalItem data
  tiUnfolded c m l.1 (st.u.rows, l.2, c.td.seqLen) 1

/-- tirec.py:214-217 (A:220-223) `process_data_for_calculations`, `mode == 'new'` -/
def tiDataNew (data : List DRow) : PyM (List DRow) := do
  let a ← mapToLocalUser data
  let b ← mapToLocalItem a.1
  pure b.1

/-- `self.core`; a model trained without a single sweep has none, and using it raises (an `AttributeError`) -/
def tiCore (st : TDState K) : PyM (Ten K) :=
  match st.core with
  | some g => .ok g
  | none => .error .typeError

/-- `(self.u, self.v, self.w)` -/
def TDState.fac (st : TDState K) : Fac K := ⟨st.u, st.v, st.w⟩

/-- `self.u, self.v, self.w, self.core = ...` -/
def TDState.setFac (st : TDState K) (r : Fac K × Ten K) : TDState K :=
  { st with u := r.1.f0, v := r.1.f1, w := r.1.f2, core := some r.2 }

/-- tirec.py:226-234 `TIRec._updater`, modes `'new_users'` (0) and `'new_items'` (1) -/
def tirecVectors [Field K] [LinearOrder K] (c : TICfg K) (st : TDState K) (da : Mat K) (mode : ℤ) :
    PyM (TDState K) := do
  let g ← tiCore st
  let r ← updateTuckerNewVectors c.td.hooi.la c.vecRng st.fac g da mode c.td.hooi.nPower c.td.hooi.os c.explicitCalc
  pure (st.setFac r)

/-- A:228-239 `TIRecA._add_zero_embeddings`, users -/
def tiZeroUsers [Zero K] (n : ℕ) (st : TDState K) : TDState K := { st with u := zeroPadRows st.u n }

/-- A:228-239 `TIRecA._add_zero_embeddings`, items -/
def tiZeroItems [Zero K] (n : ℕ) (st : TDState K) : TDState K := { st with v := zeroPadRows st.v n }

/-- A:254-262: the core multiplied by the triangular factor in one mode -/
def tiCoreTimes [CommRing K] (g : Ten K) (r : Mat K) (mode : ℤ) : PyM (Ten K) := do
  let c ← unfoldDense g mode
  let c' ← r.dot c
  foldDense c' g.shape mode

/-- A:241-262 `TIRecA._add_random_embeddings`, users -/
def tiRandomUsers [CommRing K] (c : TICfg K) (n : ℕ) (st : TDState K) : PyM (TDState K) := do
  let q := c.td.hooi.la.qrM (padRandom c.normal st.u n)
  let g ← tiCore st
  let g' ← tiCoreTimes g q.2 0
  pure { st with u := q.1, core := some g' }

/-- A:241-262 `TIRecA._add_random_embeddings`, items -/
def tiRandomItems [CommRing K] (c : TICfg K) (n : ℕ) (st : TDState K) : PyM (TDState K) := do
  let q := c.td.hooi.la.qrM (padRandom c.normal st.v n)
  let g ← tiCore st
  let g' ← tiCoreTimes g q.2 1
  pure { st with v := q.1, core := some g' }

/-- A:269-272, 367-370: embeddings for new users -/
def tiEmbUsers [CommRing K] (c : TICfg K) (n : ℕ) (st : TDState K) : PyM (TDState K) :=
  match c.init with
  | .zero => .ok (tiZeroUsers n st)
  | .random => tiRandomUsers c n st

/-- A:269-272, 372-375: embeddings for new items -/
def tiEmbItems [CommRing K] (c : TICfg K) (n : ℕ) (st : TDState K) : PyM (TDState K) :=
  match c.init with
  | .zero => .ok (tiZeroItems n st)
  | .random => tiRandomItems c n st

/-- A:268-272 `TIRecA._updater`, modes `'new_users'` (0) and `'new_items'` (1): only the number of rows of
the data is used -/
def tirecaVectors [Field K] [LinearOrder K] (c : TICfg K) (st : TDState K) (da : Mat K) (mode : ℤ) :
    PyM (TDState K) :=
  if mode = 0 then tiEmbUsers c da.rows st else tiEmbItems c da.rows st

/-- tirec.py:235-246 (A:273-284) `_updater`, `mode == 'old'` -/
def tiOld [Field K] [LinearOrder K] (c : TICfg K) (m : TDAtt K) (st : TDState K) (data : List DRow) :
    PyM (TDState K) := do
  let g ← tiCore st
  let r ← tuckerIntegrator c.td.hooi.la st.fac g (dInds data) (dVals data) (st.u.rows, st.v.rows, c.td.seqLen)
    c.td.hooi.parallel (tiAttArg c m)
  pure (st.setFac r)

/-- tirec.py:247-263 (A:285-301) `_updater`, `mode == 'new'` -/
def tiNew [Field K] [LinearOrder K] (c : TICfg K) (m : TDAtt K) (st : TDState K) (data : List DRow) :
    PyM (TDState K) := do
  let da ← tiDataNew data
  let g ← tiCore st
  let r ← updateTuckerNewMatrix c.td.hooi.la c.matRng st.fac g (dInds da) (dVals da)
    ((npUnique (da.map DRow.user)).length, (npUnique (da.map DRow.item)).length, c.td.seqLen)
    c.td.hooi.nPower c.td.hooi.os (tiAttArg c m)
  pure (st.setFac r)

/-- How a class adds new vectors: `tirecVectors` or `tirecaVectors`. -/
abbrev TIVectors (K : Type) := TICfg K → TDState K → Mat K → ℤ → PyM (TDState K)

/-- tirec.py:185-265 (A:191-226, 264-303): `process_data_for_calculations` and `_updater` -/
def tiStep [Field K] [LinearOrder K] (vec : TIVectors K) (c : TICfg K) (m : TDAtt K) (st : TDState K)
    (data : List DRow) : PsiMode → PyM (TDState K)
  | .newUsers => do
    let da ← tiDataUsers c m st data
    vec c st da 0
  | .newItems => do
    let da ← tiDataItems c m st data
    vec c st da 1
  | .old => tiOld c m st data
  | .new => tiNew c m st data

/-- tirec.py:267-279 (A:305-317) `update_factors_by_mode` -/
def tiUpdateFactors [Field K] [LinearOrder K] (vec : TIVectors K) (c : TICfg K) (m : TDAtt K) (st : TDState K)
    (data : List DRow) (mode : PsiMode) : PyM (TDState K) :=
  if data.length > 0 then tiStep vec c m st data mode else .ok st

/-- tirec.py:326-343 (A:397-414): the mask of one row -/
def tiMaskRow (nu ni : List ℤ) (by_ : PsiMode) (r : DRow) : Bool :=
  let oldUser := !(decide (r.user ∈ nu))
  let oldItem := !(decide (r.item ∈ ni))
  match by_ with
  | .newUsers => !oldUser && oldItem
  | .newItems => oldUser && !oldItem
  | .old => oldUser && oldItem
  | .new => !oldUser && !oldItem

/-- tirec.py:331-349 (A:402-420): the list of users that are still new -/
def tiLeftUsers (nu : List ℤ) (masked : List DRow) : PsiMode → List ℤ
  | .newUsers | .new => nu.filter fun x => !(decide (x ∈ masked.map DRow.user))
  | .newItems | .old => nu

/-- tirec.py:331-349 (A:402-420): the list of items that are still new -/
def tiLeftItems (ni : List ℤ) (masked : List DRow) : PsiMode → List ℤ
  | .newItems | .new => ni.filter fun x => !(decide (x ∈ masked.map DRow.item))
  | .newUsers | .old => ni

/-- The result of `_get_divide_inds_array_mask`. -/
structure TIDivide where
  masked : List DRow
  mask : List Bool
  newUsers : List ℤ
  newItems : List ℤ

/-- tirec.py:316-352 (A:387-423) `_get_divide_inds_array_mask` -/
def tiDivide (inds : List DRow) (by_ : PsiMode) (nu ni : List ℤ) : TIDivide :=
  let mask := inds.map (tiMaskRow nu ni by_)
  let masked := maskSelect inds mask
  ⟨masked, mask, tiLeftUsers nu masked by_, tiLeftItems ni masked by_⟩

/-- The variables of the loop of `update`: the object, `left_data`, `new_users`, `new_items` and (not in the
code) a log of the data passed to `update_factors_by_mode`. -/
structure TIRound (K : Type) where
  st : TDState K
  left : List DRow
  newUsers : List ℤ
  newItems : List ℤ
  log : List (PsiMode × List DRow)

/-- tirec.py:304-309 (A:343-348): one round -/
def tiRound [Field K] [LinearOrder K] (vec : TIVectors K) (c : TICfg K) (m : TDAtt K) (l : TIRound K)
    (mode : PsiMode) : PyM (TIRound K) := do
  let d := tiDivide l.left mode l.newUsers l.newItems
  let st ← tiUpdateFactors vec c m l.st d.masked mode
  pure ⟨st, maskSelect l.left (d.mask.map fun b => !b), d.newUsers, d.newItems, l.log ++ [(mode, d.masked)]⟩

/-- tirec.py:302-309: the rounds of `TIRec.update` -/
def tirecRounds [Field K] [LinearOrder K] (c : TICfg K) (m : TDAtt K) (st : TDState K) (nu ni : List ℤ)
    (delta : List DRow) : PyM (TIRound K) := do
  let left ← tiConcat delta
  [PsiMode.new, .newUsers, .newItems, .old].foldlM (tiRound tirecVectors c m) ⟨st, left, nu, ni, []⟩

/-- A:340-356: the rounds of `TIRecA.update`; the integrator gets what is left of the whole delta after removing
the rows of the (already reduced) lists of new users and items -/
def tirecaRounds [Field K] [LinearOrder K] (c : TICfg K) (m : TDAtt K) (st : TDState K) (nu ni : List ℤ)
    (delta : List DRow) : PyM (TIRound K) := do
  let left ← tiConcat delta
  let l ← [PsiMode.new, .newUsers, .newItems].foldlM (tiRound tirecaVectors c m) ⟨st, left, nu, ni, []⟩
  let d := tiDivide left .new l.newUsers l.newItems
  let rest := maskSelect left (d.mask.map fun b => !b)
  let st ← tiUpdateFactors tirecaVectors c m l.st rest .old
  pure ⟨st, [], d.newUsers, d.newItems, l.log ++ [(.old, rest)]⟩

/-- A:364-378: `_nu_ni_process_integrator` -/
def tirecaIntegrator [Field K] [LinearOrder K] (c : TICfg K) (m : TDAtt K) (st : TDState K) (nu ni : List ℤ)
    (delta : List DRow) : PyM (TIRound K) := do
  let left ← tiConcat delta
  let st ← tiEmbUsers c nu.length st
  let st ← tiEmbItems c ni.length st
  let st ← tiUpdateFactors tirecaVectors c m st left .old
  pure ⟨st, [], nu, ni, [(.old, left)]⟩

/-- The middle part of `update` of the two classes. -/
abbrev TIRounds (K : Type) := TICfg K → TDAtt K → TDState K → List ℤ → List ℤ → List DRow → PyM (TIRound K)

/-- A:335, 357: the two branches of `TIRecA.update` -/
def tirecaMiddle [Field K] [LinearOrder K] : TIRounds K := fun c =>
  if c.integrator then tirecaIntegrator c else tirecaRounds c

/-- tirec.py:116-128 (A:122-134) `_update_history` -/
def tiUpdateHistory (h : List (ℤ × ℤ)) (chunk : List (PRow K)) : List (ℤ × ℤ) :=
  h ++ chunk.map fun p => (p.row.user, p.row.item)

/-- tirec.py:281-314 (A:319-385) `update`; the object and the log of the rounds -/
def tiUpdateLog [Field K] [LinearOrder K] (rounds : TIRounds K) (c : TICfg K) (m : TDAtt K) (st : TDState K)
    (data : List (Row K)) (sortBool : Bool) : PyM (TDState K × TIRound K) := do
  let p ← tiPreprocess st.maps c.td.seqLen data sortBool
  let t := tiTrainTensor st.seqHist c.td.seqLen p.chunk
  let st := { st with maps := p.maps, seqHist := t.2 }
  let l ← rounds c m st p.newUsers p.newItems t.1
  let aw ← m.att.dot l.st.w
  let lw ← m.attInv.T.dot l.st.w
  let last ← lw.row (-1)
  pure ({ l.st with history := tiUpdateHistory l.st.history p.chunk, aw := aw, lastPos := ⟨_, last⟩ }, l)

/-- `update` -/
def tiUpdate [Field K] [LinearOrder K] (rounds : TIRounds K) (c : TICfg K) (m : TDAtt K) (st : TDState K)
    (data : List (Row K)) (sortBool : Bool) : PyM (TDState K) := do
  let r ← tiUpdateLog rounds c m st data sortBool
  pure r.1

/-- Any number of updates of a trained model (with the same `sort_bool`). -/
def tiUpdates [Field K] [LinearOrder K] (rounds : TIRounds K) (c : TICfg K) (m : TDAtt K) (st : TDState K)
    (chunks : List (List (Row K))) (sortBool : Bool) : PyM (TDState K) :=
  chunks.foldlM (fun s d => tiUpdate rounds c m s d sortBool) st

end DynCF
