/-
Model of `/repo/source/models/tdrec.py` and `/repo/source/models/tdrec_reinit.py`
(`recommend` is in `Model/Recommend`).
-/
import Verif.Model.TiData
import Verif.Model.Hooi
import Verif.Model.Recommend

namespace DynCF
variable {K : Type}

/-- tdrec.py:43: `diag_list`, one list per `i in range(1, size + 1)`; `ipow i` is `i**power`. -/
def attDiagList [Field K] (size : ℕ) (ipow : ℕ → K) : List (List K) :=
  (List.range size).map fun t => List.replicate (size - (t + 1) + 1) (1 / ipow (t + 1))

/-- tdrec.py:44: `offsets = [i for i in range(0, -size, -1)]` -/
def attOffsets (size : ℕ) : List ℤ := (List.range size).map fun t : ℕ => -(t : ℤ)

/-- `scipy.sparse.diags(diag_list, offsets).A` for offsets that are not positive: the element number
`j` of the diagonal with offset `-t` is at row `j + t`, column `j`; overlapping diagonals would add
up. The size is that of the first diagonal plus its offset. Without any diagonal `diags` reads
`diagonals[0]` of an empty list: `IndexError`. -/
def diagsDense [Field K] (diagList : List (List K)) (offsets : List ℤ) : PyM (Mat K) :=
  match diagList.zip offsets with
  | [] => .error .indexError
  | (d0, o0) :: _ =>
    let n := d0.length + o0.natAbs
    .ok ⟨n, n, Matrix.of fun i j =>
      ((diagList.zip offsets).map fun p =>
        if ((j : ℕ) : ℤ) - ((i : ℕ) : ℤ) = p.2 then p.1.getD (min (i : ℕ) (j : ℕ)) 0 else 0).sum⟩

/-- tdrec.py:21-45 `get_global_attention`; `ipow i` is `i**power`. -/
def getGlobalAttention [Field K] (size : ℕ) (ipow : ℕ → K) : PyM (Mat K) :=
  diagsDense (attDiagList size ipow) (attOffsets size)

/-- tdrec.py:59-67: the loop of `_get_pos_items_arrays` from iteration `i` on, `n` iterations left;
`seq[-i-1]` counts from the end. -/
def posItemsLoop (seq : List ℤ) (maxLen : ℕ) : ℕ → ℕ → List ℤ × List ℤ
  | 0, _ => ([], [])
  | n + 1, i =>
    let pos : ℤ := (maxLen : ℤ) - i - 2
    if pos < 0 then ([], [])
    else
      let r := posItemsLoop seq maxLen n (i + 1)
      (pos :: r.1, seq.getD (seq.length - i - 1) 0 :: r.2)

/-- tdrec.py:47-67 `_get_pos_items_arrays` -/
def getPosItemsArrays (seq : List ℤ) (maxLen : ℕ) : List ℤ × List ℤ :=
  posItemsLoop seq maxLen seq.length 0

/-- Configuration of a `TDRec` object (tdrec.py:116-164). `attF` is `none` or the function
`i ↦ i**att_f`; `sketch`, `normOf` as in `HooiPar` and `growthStop`. -/
structure TDCfg (K : Type) where
  hooi : HooiPar K
  normOf : Ten K → K
  seqLen : ℕ
  attF : Option (ℕ → K)
  nIter : ℕ
  growthTol : K
  force : Bool

/-- The matrices computed by the constructor. -/
structure TDAtt (K : Type) where
  att : Mat K
  attInv : Mat K

/-- tdrec.py:148-155: `attention_mtx` and `attention_mtx_inv`. The attention matrix is square. -/
def tdInit [Field K] (c : TDCfg K) : PyM (TDAtt K) :=
  match c.attF with
  | none => .ok ⟨Mat.eye c.seqLen, Mat.eye c.seqLen⟩
  | some ipow => do
    let a ← getGlobalAttention c.seqLen ipow
    if h : a.rows = a.cols then
      pure ⟨a, ⟨a.rows, a.rows, c.hooi.la.inv (a.val.submatrix id (Fin.cast h))⟩⟩
    else throw .valueError

/-- The attributes set by `train`. -/
structure TDState (K : Type) where
  maps : Mappings
  history : List (ℤ × ℤ)
  seqHist : SeqHist
  u : Mat K
  v : Mat K
  w : Mat K
  core : Option (Ten K)
  aw : Mat K
  lastPos : Vec K

/-- the mapped table with its position column (`get_df_with_updated_indices` copies the table and
changes the two id columns only) -/
def withPos (rows : List (Row K)) (data : List (PRow K)) : List (PRow K) :=
  List.zipWith (fun r p => ⟨r, p.pos⟩) rows data

/-- `initial_data[[USER_ID, ITEM_ID, POSITION_ID]].sort_values(by=[USER_ID, POSITION_ID])`
(tdrec.py:191-195): stable. -/
def sortedInds (data : List (PRow K)) : List Inter :=
  stableSort (fun a b => decide (a.user < b.user ∨ (a.user = b.user ∧ a.pos ≤ b.pos)))
    (data.map fun p => ⟨p.row.user, p.row.item, p.pos⟩)

/-- `max + 1` of a column; an empty array has no maximum: `ValueError` -/
def maxPlusOne (l : List ℤ) : PyM ℕ :=
  match l with
  | [] => .error .valueError
  | x :: xs => .ok ((xs.foldl max x) + 1).toNat

/-- tdrec.py:197: `shape = tuple(inds.max(axis=0) + 1)` (indices are not negative) -/
def indsShape (inds : List Inter) : PyM (ℕ × ℕ × ℕ) := do
  let a ← maxPlusOne (inds.map Inter.user)
  let b ← maxPlusOne (inds.map Inter.item)
  let c ← maxPlusOne (inds.map Inter.pos)
  pure (a, b, c)

/-- a row of `inds` as an index triple -/
def Inter.ind (t : Inter) : Ind3 := (t.user, t.item, t.pos)

/-- The arguments with which `ga_satf` is called: what is factorised. -/
structure TrainTensor (K : Type) where
  inds : List Inter
  vals : List K
  shape : ℕ × ℕ × ℕ

/-- tdrec.py:191-197 (= tdrec_reinit.py:141-147): indices sorted, values in table order -/
def trainTensor (data : List (PRow K)) : PyM (TrainTensor K) := do
  let inds := sortedInds data
  let vals := data.map fun p => p.row.rel
  let shape ← indsShape inds
  pure ⟨inds, vals, shape⟩

/-- tdrec.py:191-219 (= tdrec_reinit.py:141-169), after the ids have been mapped. `h0` is the
sequential history of the object before the call. -/
def tdFit [Field K] [LinearOrder K] {τ : Type} (c : TDCfg K) (m : TDAtt K)
    (cb : Option (ExitCallback K τ)) (cb0 : τ) (init : Option (Fac K)) (h0 : SeqHist)
    (maps : Mappings) (data : List (PRow K)) : PyM (TDState K) := do
  let t ← trainTensor data
  let history := data.map fun p => (p.row.user, p.row.item)
  let seqHist := updateUserSeqHistory t.inds h0 c.seqLen
  let r ← gaSatf c.hooi c.normOf (t.inds.map Inter.ind) t.vals t.shape m.att c.nIter c.growthTol
    cb cb0 init c.force
  let f := r.1.1
  let aw ← m.att.dot f.f2
  let lw ← m.attInv.T.dot f.f2
  let last ← lw.row (-1)
  pure ⟨maps, history, seqHist, f.f0, f.f1, f.f2, r.1.2, aw, ⟨_, last⟩⟩

/-- tdrec.py:166-219 `TDRec.train` -/
def tdTrain [Field K] [LinearOrder K] {τ : Type} (c : TDCfg K) (m : TDAtt K)
    (cb : Option (ExitCallback K τ)) (cb0 : τ) (h0 : SeqHist) (data : List (PRow K)) :
    PyM (TDState K) := do
  let r ← getDfWithUpdatedIndices (data.map PRow.row)
  tdFit c m cb cb0 none h0 r.2 (withPos r.1 data)

/-- the values of a column that have no index yet, in order of first appearance
(tdrec_reinit.py:120-123, 126-129) -/
def newIds (m : Mapping ℤ) (col : List ℤ) : List ℤ :=
  (pdUnique col).filter fun x => (m.old2new.get? x).isNone

/-- tdrec_reinit.py:119-130: register the new users and items -/
def registerNew (m : Mappings) (data : List (Row K)) : Mappings :=
  ⟨updateContMappingStruct m.user (newIds m.user (data.map Row.user)),
   updateContMappingStruct m.item (newIds m.item (data.map Row.item))⟩

/-- tdrec_reinit.py:100-169 `TDRecRe.train`. `ga_satf` gets no callback; it gets
`factors_init_list` even when the mappings are missing. -/
def tdReTrain [Field K] [LinearOrder K] (c : TDCfg K) (m : TDAtt K) (h0 : SeqHist)
    (data : List (PRow K)) (init : Option (Fac K)) (maps : Option Mappings) : PyM (TDState K) :=
  match init, maps with
  | some f, some mp => do
    let mp' := registerNew mp (data.map PRow.row)
    let rows ← mapDfColumns (data.map PRow.row) mp'
    tdFit c m (none : Option (ExitCallback K Unit)) () (some f) h0 mp' (withPos rows data)
  | init, _ => do
    let r ← getDfWithUpdatedIndices (data.map PRow.row)
    tdFit c m (none : Option (ExitCallback K Unit)) () init h0 r.2 (withPos r.1 data)

/-- tdrec.py:262-263: `_w = aw.dot(last_pos_emb)`; `v.dot(v[items].T.dot(_w[positions]))`. With no
items `np.array([])` has a float dtype and indexing with it raises `IndexError`. -/
def seqScores [Field K] (v aw : Mat K) (last : Vec K) (positions items : List ℤ) : PyM (Vec K) := do
  let w ← aw.dotVec last
  if items.isEmpty then .error .indexError
  else do
    let vi ← v.takeIdx items
    let wp ← w.takeIdx positions
    let x ← vi.T.dotVec wp
    v.dotVec x

/-- tdrec.py:252-264 `TDRec._recommend_user` -/
def tdRecommendUser [Field K] (s : TDState K) (u : ℤ) : PyM (Vec K) := do
  let d ← s.seqHist.getItem u
  let seq := d.items.filter fun x => decide (x ≠ PAD)
  let pi := getPosItemsArrays seq s.w.rows
  seqScores s.v s.aw s.lastPos pi.1 pi.2

/-- what `recommend` reads of a trained model -/
def TDState.view (s : TDState K) : RecView := ⟨s.u.rows, s.v.rows, s.maps, s.history⟩

/-- tdrec.py:266-309 `TDRec.recommend` -/
def tdRecommend [Field K] (argp : ArgPart K) (s : TDState K) (users : List ℤ) (k : ℕ)
    (filterViewed internal : Bool) : PyM (List (List ℤ)) :=
  recommend false argp s.view (fun _ u => do
    let r ← tdRecommendUser s u
    pure (List.ofFn r.val)) users k filterViewed internal

end DynCF
