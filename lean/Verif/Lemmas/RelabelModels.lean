/-
The recommender classes commute with a renaming of users, items and times (`Lemmas/Relabel`): only the
external names in the mappings of a trained object change.
-/
import Verif.Lemmas.Relabel

namespace DynCF
variable {K : Type}

/-- A renaming that keeps the order of users and times apart. -/
structure Relabel.Mono (g : Relabel) : Prop where
  user : StrictMono g.user
  item : g.item.Injective
  ts : StrictMono g.ts
  day : StrictMono g.day

theorem Relabel.Mono.inj {g : Relabel} (h : g.Mono) : g.Inj := ⟨h.user.injective, h.item⟩

/-! ### Cropped histories -/

theorem addOrderCropped_ren (g : Relabel) (x : List (Row K)) (L : ℕ) :
    addOrderCropped (x.map g.row) L = List.map g.prow <$> addOrderCropped x L := by
  have hz : ∀ {α : Type} (l : List α) (h : α → ℤ),
      ((x.map g.row).zip l).map (fun p => (⟨p.1, h p.2⟩ : PRow K)) =
        ((x.zip l).map fun p => (⟨p.1, h p.2⟩ : PRow K)).map g.prow := fun l h => by
    rw [List.zip_map_left, List.map_map, List.map_map]; rfl
  unfold addOrderCropped
  simp only [List.length_map]
  split
  · simp only [hz _ fun n : ℕ => (n : ℤ)]; rfl
  · split
    · split
      · simp only [hz _ fun n : ℤ => n]; rfl
      · rfl
    · split
      · simp only [hz _ fun n : ℤ => n]; rfl
      · rfl

theorem sortUserTs_ren (g : Relabel) (hg : g.Mono) (df : List (Row K)) :
    sortUserTs (df.map g.row) = (sortUserTs df).map g.row := by
  refine stableSort_map' _ _ _ (fun a b => ?_) df
  apply decide_eq_decide.2
  simp only [Relabel.row_user, Relabel.row_ts, hg.user.lt_iff_lt, hg.user.injective.eq_iff, hg.ts.le_iff_le]

theorem groupUsers_ren (g : Relabel) (hg : g.Mono) (df : List (Row K)) :
    groupUsers (df.map g.row) = (groupUsers df).map g.user := by
  unfold groupUsers
  rw [map_row_user, pdUnique_map_inj _ hg.user.injective]
  refine stableSort_map' _ _ _ (fun a b => ?_) _
  apply decide_eq_decide.2
  exact hg.user.le_iff_le

theorem filter_user_ren (g : Relabel) (hg : g.user.Injective) (df : List (Row K)) (u : ℤ) :
    (df.map g.row).filter (fun r => decide (r.user = g.user u)) =
      (df.filter fun r => decide (r.user = u)).map g.row := by
  rw [List.filter_map]
  congr 1
  apply List.filter_congr
  intro r _
  apply decide_eq_decide.2
  exact hg.eq_iff

theorem getDfWithCroppedPos_ren (g : Relabel) (hg : g.Mono) (df : List (Row K)) (L : ℕ) (b : Bool) :
    getDfWithCroppedPos (df.map g.row) L b = List.map g.prow <$> getDfWithCroppedPos df L b := by
  have h1 : (if b then sortUserTs (df.map g.row) else df.map g.row) =
      (if b then sortUserTs df else df).map g.row := by
    cases b
    · rfl
    · exact sortUserTs_ren g hg df
  have h2 : ∀ l : List (PRow K), (l.map g.prow).filter (fun r => decide (r.pos ≠ PAD)) =
      (l.filter fun r => decide (r.pos ≠ PAD)).map g.prow := fun l => by
    rw [List.filter_map]; rfl
  unfold getDfWithCroppedPos
  rw [h1]
  cases he : df.isEmpty with
  | true => simp only [List.isEmpty_map, he]; rfl
  | false =>
    simp only [List.isEmpty_map, he, Bool.false_eq_true, if_false, groupUsers_ren g hg, mapM_map_list,
      filter_user_ren g hg.user.injective, addOrderCropped_ren, mapM_fmap, bind_map_left, ← List.map_flatten, h2,
      map_bind, map_pure]

/-! ### `SVD` and `PSI` -/

/-- A trained object under new names. -/
def Relabel.psi (g : Relabel) (st : PSIState K) : PSIState K := { st with maps := g.maps st.maps }

theorem svdTrain_ren [CommRing K] (g : Relabel) (hg : g.Inj) (env : PSIEnv K) (cfg : PSICfg) (data : List (Row K)) :
    svdTrain env cfg (data.map g.row) = g.psi <$> svdTrain env cfg data := by
  have h1 : ∀ l : List (Row K), ((l.map g.times.row).map fun r => ((r.user, r.item), r.rel)) =
      l.map fun r => ((r.user, r.item), r.rel) := fun l => by rw [List.map_map]; rfl
  have h2 : ∀ l : List (Row K), ((l.map g.times.row).map fun r => (r.user, r.item)) =
      l.map fun r => (r.user, r.item) := fun l => by rw [List.map_map]; rfl
  unfold svdTrain
  simp only [getDfWithUpdatedIndices_ren g hg, bind_map_left, h1, h2, map_bind, map_pure]
  rfl

theorem mappedEntries_ren [AddCommMonoid K] (g : Relabel) (data : List (Row K)) (rowOf colOf : Row K → ℤ)
    (r1 c1 r2 c2 : Dict ℤ ℤ) (n0 n1 : ℕ) (hr : ∀ r, r1.getItem (rowOf (g.row r)) = r2.getItem (rowOf r))
    (hc : ∀ r, c1.getItem (colOf (g.row r)) = c2.getItem (colOf r)) :
    mappedEntries (data.map g.row) rowOf colOf r1 c1 n0 n1 = mappedEntries data rowOf colOf r2 c2 n0 n1 := by
  unfold mappedEntries
  simp only [mapM_map_list, hr, hc, map_row_rel]

theorem processData_ren [AddCommMonoid K] (g : Relabel) (hg : g.Inj) (st : PSIState K) (data : List (Row K))
    (mode : PsiMode) :
    processData (g.psi st) (data.map g.row) mode = (fun p => (p.1, g.psi p.2)) <$> processData st data mode := by
  have hu : ∀ d : Dict ℤ ℤ, ∀ r : Row K, Dict.getItem (d.map fun e => (g.user e.1, e.2)) (g.row r).user =
      d.getItem r.user := fun d r => Dict.getItem_mapKeys g.user hg.user d r.user
  have hi : ∀ d : Dict ℤ ℤ, ∀ r : Row K, Dict.getItem (d.map fun e => (g.item e.1, e.2)) (g.row r).item =
      d.getItem r.item := fun d r => Dict.getItem_mapKeys g.item hg.item d r.item
  cases mode
  · simp only [processData, Relabel.psi, Relabel.maps, map_row_user, map_row_item, addNewEntities_ren hg.user,
      addNewEntities_ren hg.item, List.length_map]
    rw [mappedEntries_ren g data Row.user Row.item _ _ _ _ _ _ (hu _) (hi _)]
    simp only [map_bind, map_pure]
  · simp only [processData, Relabel.psi, Relabel.maps, map_row_user, map_row_item, addNewEntities_ren hg.user,
      addNewEntities_ren hg.item, List.length_map]
    rw [mappedEntries_ren g data Row.item Row.user _ _ st.maps.item.old2new _ _ _
      (fun r => renMapping_getItem hg.item _ _) (hu _)]
    simp only [map_bind, map_pure]
  · simp only [processData, Relabel.psi, Relabel.maps, map_row_user, map_row_item, addNewEntities_ren hg.user,
      addNewEntities_ren hg.item, List.length_map]
    rw [mappedEntries_ren g data Row.user Row.item _ _ st.maps.user.old2new _ _ _
      (fun r => renMapping_getItem hg.user _ _) (hi _)]
    simp only [map_bind, map_pure]
  · simp only [processData, Relabel.psi, Relabel.maps]
    rw [mappedEntries_ren g data Row.user Row.item _ _ st.maps.user.old2new st.maps.item.old2new _ _
      (fun r => renMapping_getItem hg.user _ _) (fun r => renMapping_getItem hg.item _ _)]
    simp only [map_bind, map_pure]

theorem psiUpdater_ren [Field K] [LinearOrder K] (g : Relabel) (env : PSIEnv K) (cfg : PSICfg) (st : PSIState K)
    (da : Mat K) (mode : PsiMode) :
    psiUpdater env cfg (g.psi st) da mode = g.psi <$> psiUpdater env cfg st da mode := by
  cases mode
  · simp only [psiUpdater]
    split
    · rfl
    · simp only [map_bind, map_pure]; rfl
  · simp only [psiUpdater]
    split
    · simp only [map_bind, map_pure]; rfl
    · rfl
    · simp only [addRandomUsers, map_bind, map_pure]; rfl
  · simp only [psiUpdater]
    split
    · simp only [map_bind, map_pure]; rfl
    · rfl
    · simp only [addRandomItems, map_bind, map_pure]; rfl
  · simp only [psiUpdater, map_bind, map_pure]
    rfl

theorem updateFactorsByMode_ren [Field K] [LinearOrder K] (g : Relabel) (hg : g.Inj) (env : PSIEnv K) (cfg : PSICfg)
    (st : PSIState K) (data : List (Row K)) (mode : PsiMode) :
    updateFactorsByMode env cfg (g.psi st) (data.map g.row) mode =
      g.psi <$> updateFactorsByMode env cfg st data mode := by
  unfold updateFactorsByMode
  simp only [List.length_map]
  split
  · simp only [processData_ren g hg, bind_map_left, psiUpdater_ren, map_bind]
  · rfl

/-- The variables of the loops under new names. -/
def Relabel.loop (g : Relabel) (l : PsiLoop K) : PsiLoop K :=
  ⟨g.psi l.st, l.left.map g.row, l.log.map fun e => (e.1, e.2.map g.row)⟩

theorem getDivideDfMask_ren (g : Relabel) (hg : g.Inj) (df : List (Row K)) (m : Mappings) (mode : PsiMode) :
    getDivideDfMask (df.map g.row) (g.maps m) mode = getDivideDfMask df m mode := by
  unfold getDivideDfMask
  rw [List.map_map]
  apply List.map_congr_left
  intro r _
  simp only [Function.comp, divideRow, Relabel.maps, Relabel.row_user, Relabel.row_item, renMapping_getPad hg.user,
    renMapping_getPad hg.item]

theorem psiRound_ren [Field K] [LinearOrder K] (g : Relabel) (hg : g.Inj) (env : PSIEnv K) (cfg : PSICfg)
    (l : PsiLoop K) (mode : PsiMode) :
    psiRound env cfg (g.loop l) mode = g.loop <$> psiRound env cfg l mode := by
  have h : (g.psi l.st).maps = g.maps l.st.maps := rfl
  unfold psiRound
  simp only [Relabel.loop, h, getDivideDfMask_ren g hg, maskSelect_map_list, updateFactorsByMode_ren g hg,
    bind_map_left, map_bind, map_pure, List.map_append]
  rfl

theorem psiFold_ren [Field K] [LinearOrder K] (g : Relabel) (hg : g.Inj) (env : PSIEnv K) (cfg : PSICfg)
    (ms : List PsiMode) (l : PsiLoop K) :
    ms.foldlM (psiRound env cfg) (g.loop l) = g.loop <$> ms.foldlM (psiRound env cfg) l := by
  induction ms generalizing l with
  | nil => rfl
  | cons m ms ih =>
    simp only [List.foldlM_cons, psiRound_ren g hg, bind_map_left, ih, map_bind]

theorem psiRounds_ren [Field K] [LinearOrder K] (g : Relabel) (hg : g.Inj) (env : PSIEnv K) (cfg : PSICfg)
    (st : PSIState K) (data : List (Row K)) :
    psiRounds env cfg (g.psi st) (data.map g.row) = g.loop <$> psiRounds env cfg st data := by
  have h0 : (⟨g.psi st, data.map g.row, []⟩ : PsiLoop K) = g.loop ⟨st, data, []⟩ := rfl
  have h1 : ∀ l : PsiLoop K, (g.loop l).st = g.psi l.st := fun _ => rfl
  have h2 : ∀ l : PsiLoop K, (g.loop l).left = l.left.map g.row := fun _ => rfl
  unfold psiRounds
  split
  · rw [h0, psiFold_ren g hg]
  · unfold psiRoundsInit
    simp only [h0, psiRound_ren g hg, bind_map_left, psiFold_ren g hg, h1, h2, updateFactorsByMode_ren g hg,
      map_bind, map_pure]
    simp only [Relabel.loop, List.map_append, List.map_cons, List.map_nil]
  · unfold psiRoundsIntegrator
    simp only [h0, bind_map_left, psiFold_ren g hg, h1, updateFactorsByMode_ren g hg, map_bind, map_pure]
    simp only [Relabel.loop, List.map_append, List.map_cons, List.map_nil]
  · rfl

theorem psiUpdateHistory_ren (g : Relabel) (hg : g.Inj) (st : PSIState K) (data : List (Row K)) :
    psiUpdateHistory (g.psi st) (data.map g.row) = g.psi <$> psiUpdateHistory st data := by
  unfold psiUpdateHistory
  simp only [Relabel.psi, Relabel.maps, mapM_map_list, Relabel.row_user, Relabel.row_item,
    renMapping_getItem hg.user, renMapping_getItem hg.item, map_bind, map_pure]

theorem psiUpdate_ren [Field K] [LinearOrder K] (g : Relabel) (hg : g.Inj) (env : PSIEnv K) (cfg : PSICfg)
    (st : PSIState K) (data : List (Row K)) :
    psiUpdate env cfg (g.psi st) (data.map g.row) = g.psi <$> psiUpdate env cfg st data := by
  have h1 : ∀ l : PsiLoop K, (g.loop l).st = g.psi l.st := fun _ => rfl
  unfold psiUpdate
  simp only [psiRounds_ren g hg, bind_map_left, h1, psiUpdateHistory_ren g hg, map_bind, map_pure]
  rfl

/-! ### `recommend` -/

/-- What `recommend` reads, under new names. -/
def Relabel.view (g : Relabel) (v : RecView) : RecView := { v with maps := g.maps v.maps }

theorem singleItemRow_ren (g : Relabel) (v : RecView) (pref : ℤ → ℤ → ℕ) (rec : List K) (k : ℕ) (int : Bool) (u : ℤ) :
    singleItemRow (g.view v) pref rec k int u =
      List.map (if int then id else g.item) <$> singleItemRow v pref rec k int u := by
  unfold singleItemRow
  rw [show viewedMask (g.view v) pref u = viewedMask v pref u from rfl]
  split
  · rfl
  · cases viewedMask v pref u with
    | error e => rfl
    | ok mask =>
      show (if _ then _ else _ : PyM (List ℤ)) = _ <$> (if _ then _ else _)
      cases int
      · simp only [Bool.false_eq_true, if_false]
        split
        · rfl
        · split <;> rfl
      · simp only [if_true]
        split
        · show Except.ok _ = Except.ok (List.map id _)
          rw [List.map_id]
        · rfl

theorem showItems_ren (g : Relabel) (v : RecView) (int : Bool) (cand : List ℤ) :
    showItems (g.view v) int cand = List.map (if int then id else g.item) <$> showItems v int cand := by
  have h2 : ∀ j, (g.view v).maps.item.new2old.getItem j = g.item <$> v.maps.item.new2old.getItem j := fun j =>
    Dict.getItem_mapVals g.item _ j
  unfold showItems
  cases int
  · simp only [h2, mapM_fmap, Bool.false_eq_true, if_false]
  · simp only [if_true, map_pure, List.map_id]

theorem zeroRow_ren (g : Relabel) (v : RecView) (pref : ℤ → ℤ → ℕ) (rec : List K) (fv int : Bool) (u : ℤ) :
    zeroRow (g.view v) pref rec fv int u =
      List.map (if int then id else g.item) <$> zeroRow v pref rec fv int u := by
  unfold zeroRow
  rw [show allCandidates (g.view v) pref rec fv u = allCandidates v pref rec fv u from rfl]
  cases allCandidates v pref rec fv u with
  | error e => rfl
  | ok cand =>
    show (showItems (g.view v) int cand >>= _) = _ <$> (showItems v int cand >>= _)
    rw [showItems_ren]
    cases showItems v int cand with
    | error e => rfl
    | ok row =>
      show (if (List.map _ row).length ≤ 1 then _ else _ : PyM (List ℤ)) = _ <$> (if _ then _ else _)
      rw [List.length_map]
      split <;> rfl

theorem recommendRow_ren (g : Relabel) (argp : ArgPart K) (v : RecView) (pref : ℤ → ℤ → ℕ) (rec : List K) (k : ℕ)
    (fv int : Bool) (u : ℤ) :
    recommendRow argp (g.view v) pref rec k fv int u =
      List.map (if int then id else g.item) <$> recommendRow argp v pref rec k fv int u := by
  have h1 : candidateItems argp (g.view v) pref rec k fv u = candidateItems argp v pref rec k fv u := rfl
  have h2 : ∀ j, (g.view v).maps.item.new2old.getItem j = g.item <$> v.maps.item.new2old.getItem j := fun j =>
    Dict.getItem_mapVals g.item _ j
  have h3 : (g.view v).nItems = v.nItems := rfl
  unfold recommendRow
  rw [h3]
  split
  · exact singleItemRow_ren g v pref rec k int u
  split
  · exact zeroRow_ren g v pref rec fv int u
  · rw [h1]
    cases int
    · simp only [h2, mapM_fmap, map_bind]
      rfl
    · simp only [map_bind, map_pure, List.map_id, if_true]

theorem recommend_ren (g : Relabel) (hg : g.user.Injective) (uf : Bool) (argp : ArgPart K) (v : RecView)
    (score : ℕ → ℤ → PyM (List K)) (users : List ℤ) (k : ℕ) (fv int : Bool) :
    recommend uf argp (g.view v) score (users.map g.user) k fv int =
      List.map (List.map (if int then id else g.item)) <$> recommend uf argp v score users k fv int := by
  have h1 : historyCsr (g.view v) = historyCsr v := rfl
  have h2 : (users.map g.user).mapM (fun u => (g.view v).maps.user.old2new.getItem u) =
      users.mapM fun u => v.maps.user.old2new.getItem u := by
    rw [mapM_map_list]
    congr 1
    funext u
    exact renMapping_getItem hg _ _
  have h3 : (g.view v).nItems = v.nItems := rfl
  unfold recommend
  cases uf
  · simp only [h1, h2, h3, recommendRow_ren, map_bind, ← mapM_fmap, Bool.false_eq_true, if_false, bind_assoc, pure_bind]
  · simp only [h1, h2, h3, recommendRow_ren, map_bind, ← mapM_fmap, if_true, bind_assoc, pure_bind]

/-! ### `TDRec` and `TDRecReinit` -/

/-- A trained object under new names. -/
def Relabel.td (g : Relabel) (st : TDState K) : TDState K := { st with maps := g.maps st.maps }

theorem withPos_ren (g g' : Relabel) (rows : List (Row K)) (data : List (PRow K)) :
    withPos (rows.map g.row) (data.map g'.prow) = (withPos rows data).map g.prow := by
  unfold withPos
  rw [List.zipWith_map, List.map_zipWith]
  rfl

theorem map_prow_row (g : Relabel) (data : List (PRow K)) :
    (data.map g.prow).map PRow.row = (data.map PRow.row).map g.row := by
  rw [List.map_map, List.map_map]; rfl

theorem trainTensor_ren (g : Relabel) (data : List (PRow K)) :
    trainTensor (data.map g.times.prow) = trainTensor data := by
  have h1 : sortedInds (data.map g.times.prow) = sortedInds data := by
    unfold sortedInds; rw [List.map_map]; rfl
  have h2 : ((data.map g.times.prow).map fun p => p.row.rel) = data.map fun p => p.row.rel := by
    rw [List.map_map]; rfl
  unfold trainTensor
  rw [h1, h2]

theorem tdFit_ren [Field K] [LinearOrder K] {τ : Type} (g : Relabel) (c : TDCfg K) (m : TDAtt K)
    (cb : Option (ExitCallback K τ)) (cb0 : τ) (init : Option (Fac K)) (h0 : SeqHist) (maps : Mappings)
    (data : List (PRow K)) :
    tdFit c m cb cb0 init h0 (g.maps maps) (data.map g.times.prow) =
      g.td <$> tdFit c m cb cb0 init h0 maps data := by
  have h : ((data.map g.times.prow).map fun p => (p.row.user, p.row.item)) =
      data.map fun p => (p.row.user, p.row.item) := by rw [List.map_map]; rfl
  unfold tdFit
  simp only [trainTensor_ren, h, map_bind, map_pure]
  rfl

theorem tdTrain_ren [Field K] [LinearOrder K] {τ : Type} (g : Relabel) (hg : g.Inj) (c : TDCfg K) (m : TDAtt K)
    (cb : Option (ExitCallback K τ)) (cb0 : τ) (h0 : SeqHist) (data : List (PRow K)) :
    tdTrain c m cb cb0 h0 (data.map g.prow) = g.td <$> tdTrain c m cb cb0 h0 data := by
  unfold tdTrain
  simp only [map_prow_row, getDfWithUpdatedIndices_ren g hg, bind_map_left, withPos_ren, tdFit_ren, map_bind]

theorem tdReTrain_ren [Field K] [LinearOrder K] (g : Relabel) (hg : g.Inj) (c : TDCfg K) (m : TDAtt K)
    (h0 : SeqHist) (data : List (PRow K)) (init : Option (Fac K)) (maps : Option Mappings) :
    tdReTrain c m h0 (data.map g.prow) init (maps.map g.maps) = g.td <$> tdReTrain c m h0 data init maps := by
  cases init <;> cases maps <;>
    simp only [tdReTrain, Option.map, map_prow_row, getDfWithUpdatedIndices_ren g hg, bind_map_left, withPos_ren,
      tdFit_ren, map_bind, registerNew_ren g hg, mapDfColumns_ren g hg]

/-! ### `TIRec` and `TIRecA` -/

/-- The variables of the loop under new names. -/
def Relabel.round (g : Relabel) (l : TIRound K) : TIRound K := { l with st := g.td l.st }

/-- The prepared chunk: its rows carry indices. -/
def Relabel.prep (g : Relabel) (p : TIPrep K) : TIPrep K :=
  ⟨p.chunk.map g.times.prow, p.newUsers, p.newItems, g.maps p.maps⟩

theorem tiPreprocess_ren (g : Relabel) (hg : g.Mono) (maps : Mappings) (L : ℕ) (data : List (Row K)) (b : Bool) :
    tiPreprocess (g.maps maps) L (data.map g.row) b = g.prep <$> tiPreprocess maps L data b := by
  have hi := hg.inj
  have h1 : ∀ m : Mappings, ∀ l : List ℤ, ((l.map g.user).mapM fun e => (g.maps m).user.old2new.getItem e) =
      l.mapM fun e => m.user.old2new.getItem e := fun m l => by
    rw [mapM_map_list]; congr 1; funext u; exact renMapping_getItem hi.user _ _
  have h2 : ∀ m : Mappings, ∀ l : List ℤ, ((l.map g.item).mapM fun e => (g.maps m).item.old2new.getItem e) =
      l.mapM fun e => m.item.old2new.getItem e := fun m l => by
    rw [mapM_map_list]; congr 1; funext u; exact renMapping_getItem hi.item _ _
  have h3 : ∀ l : List ℤ, newIds (g.maps maps).user (l.map g.user) = (newIds maps.user l).map g.user :=
    fun l => newIds_ren hi.user _ _
  have h4 : ∀ l : List ℤ, newIds (g.maps maps).item (l.map g.item) = (newIds maps.item l).map g.item :=
    fun l => newIds_ren hi.item _ _
  unfold tiPreprocess
  simp only [getDfWithCroppedPos_ren g hg, bind_map_left, map_prow_row, map_row_user, map_row_item, h3, h4,
    registerNew_ren g hi, h1, h2, mapDfColumns_ren g hi, withPos_ren, map_bind, map_pure]
  rfl

section
variable [Field K] [LinearOrder K] (g : Relabel) (c : TICfg K) (m : TDAtt K)

/-- A way to add vectors that only changes the factors. -/
def TIVectors.Commutes (vec : TIVectors K) : Prop :=
  ∀ (c : TICfg K) (st : TDState K) (da : Mat K) (mode : ℤ), vec c (g.td st) da mode = g.td <$> vec c st da mode

theorem tirecVectors_commutes : TIVectors.Commutes g (tirecVectors (K := K)) := fun c st da mode => by
  unfold tirecVectors
  simp only [map_bind, map_pure]
  rfl

theorem tiEmbUsers_ren (n : ℕ) (st : TDState K) : tiEmbUsers c n (g.td st) = g.td <$> tiEmbUsers c n st := by
  unfold tiEmbUsers
  split
  · rfl
  · simp only [tiRandomUsers, map_bind, map_pure]; rfl

theorem tiEmbItems_ren (n : ℕ) (st : TDState K) : tiEmbItems c n (g.td st) = g.td <$> tiEmbItems c n st := by
  unfold tiEmbItems
  split
  · rfl
  · simp only [tiRandomItems, map_bind, map_pure]; rfl

theorem tirecaVectors_commutes : TIVectors.Commutes g (tirecaVectors (K := K)) := fun c st da mode => by
  unfold tirecaVectors
  split
  · exact tiEmbUsers_ren g c _ _
  · exact tiEmbItems_ren g c _ _

theorem tiUpdateFactors_ren (vec : TIVectors K) (hv : TIVectors.Commutes g vec) (st : TDState K) (data : List DRow)
    (mode : PsiMode) :
    tiUpdateFactors vec c m (g.td st) data mode = g.td <$> tiUpdateFactors vec c m st data mode := by
  unfold tiUpdateFactors
  split
  · cases mode
    · simp only [tiStep, tiNew, map_bind, map_pure]; rfl
    · simp only [tiStep, hv _ _ _ _, map_bind]; rfl
    · simp only [tiStep, hv _ _ _ _, map_bind]; rfl
    · simp only [tiStep, tiOld, map_bind, map_pure]; rfl
  · rfl

theorem tiRound_ren (vec : TIVectors K) (hv : TIVectors.Commutes g vec) (l : TIRound K) (mode : PsiMode) :
    tiRound vec c m (g.round l) mode = g.round <$> tiRound vec c m l mode := by
  have h : (g.round l).st = g.td l.st := rfl
  unfold tiRound
  simp only [h, tiUpdateFactors_ren g c m vec hv, bind_map_left, map_bind, map_pure]
  rfl

theorem tiFold_ren (vec : TIVectors K) (hv : TIVectors.Commutes g vec) (ms : List PsiMode) (l : TIRound K) :
    ms.foldlM (tiRound vec c m) (g.round l) = g.round <$> ms.foldlM (tiRound vec c m) l := by
  induction ms generalizing l with
  | nil => rfl
  | cons mo ms ih => simp only [List.foldlM_cons, tiRound_ren g c m vec hv, bind_map_left, ih, map_bind]

/-- A middle part that only changes the factors. -/
def TIRounds.Commutes (rounds : TIRounds K) : Prop :=
  ∀ (c : TICfg K) (m : TDAtt K) (st : TDState K) (nu ni : List ℤ) (delta : List DRow),
    rounds c m (g.td st) nu ni delta = g.round <$> rounds c m st nu ni delta

theorem tirecRounds_commutes : TIRounds.Commutes g (tirecRounds (K := K)) := fun c m st nu ni delta => by
  have h0 : ∀ left, (⟨g.td st, left, nu, ni, []⟩ : TIRound K) = g.round ⟨st, left, nu, ni, []⟩ := fun _ => rfl
  unfold tirecRounds
  simp only [h0, tiFold_ren g c m _ (tirecVectors_commutes g), map_bind]

theorem tirecaRounds_commutes : TIRounds.Commutes g (tirecaRounds (K := K)) := fun c m st nu ni delta => by
  have h0 : ∀ left, (⟨g.td st, left, nu, ni, []⟩ : TIRound K) = g.round ⟨st, left, nu, ni, []⟩ := fun _ => rfl
  have h1 : ∀ l : TIRound K, (g.round l).st = g.td l.st := fun _ => rfl
  unfold tirecaRounds
  simp only [h0, tiFold_ren g c m _ (tirecaVectors_commutes g), bind_map_left, h1,
    tiUpdateFactors_ren g c m _ (tirecaVectors_commutes g), map_bind, map_pure]
  rfl

theorem tirecaIntegrator_commutes : TIRounds.Commutes g (tirecaIntegrator (K := K)) := fun c m st nu ni delta => by
  unfold tirecaIntegrator
  simp only [tiEmbUsers_ren g c, tiEmbItems_ren g c, bind_map_left,
    tiUpdateFactors_ren g c m _ (tirecaVectors_commutes g), map_bind, map_pure]
  rfl

theorem tirecaMiddle_commutes : TIRounds.Commutes g (tirecaMiddle (K := K)) := fun c m st nu ni delta => by
  unfold tirecaMiddle
  split
  · exact tirecaIntegrator_commutes g c m st nu ni delta
  · exact tirecaRounds_commutes g c m st nu ni delta

theorem tiUpdate_ren (hg : g.Mono) (rounds : TIRounds K) (hr : TIRounds.Commutes g rounds) (st : TDState K)
    (data : List (Row K)) (b : Bool) :
    tiUpdate rounds c m (g.td st) (data.map g.row) b = g.td <$> tiUpdate rounds c m st data b := by
  have h1 : (g.td st).maps = g.maps st.maps := rfl
  have h2 : (g.td st).seqHist = st.seqHist := rfl
  have h3 : ∀ p : TIPrep K, chunkInters (g.prep p).chunk = chunkInters p.chunk := fun p => by
    unfold chunkInters Relabel.prep; rw [List.map_map]; rfl
  have h4 : ∀ (p : TIPrep K) (h : SeqHist), tiTrainTensor h c.td.seqLen (g.prep p).chunk =
      tiTrainTensor h c.td.seqLen p.chunk := fun p h => by
    unfold tiTrainTensor; rw [h3]
  have h5 : ∀ (p : TIPrep K) (h : SeqHist), (⟨(g.prep p).maps, st.history, h, (g.td st).u, (g.td st).v, st.w,
      (g.td st).core, (g.td st).aw, (g.td st).lastPos⟩ : TDState K) =
      g.td ⟨p.maps, st.history, h, st.u, st.v, st.w, st.core, st.aw, st.lastPos⟩ := fun _ _ => rfl
  have h6 : ∀ (p : TIPrep K) (h : List (ℤ × ℤ)), tiUpdateHistory h (g.prep p).chunk = tiUpdateHistory h p.chunk :=
    fun p h => by unfold tiUpdateHistory Relabel.prep; rw [List.map_map]; rfl
  have h7 : ∀ p : TIPrep K, (g.prep p).newUsers = p.newUsers := fun _ => rfl
  have h8 : ∀ p : TIPrep K, (g.prep p).newItems = p.newItems := fun _ => rfl
  have h9 : ∀ l : TIRound K, (g.round l).st = g.td l.st := fun _ => rfl
  have h10 : ∀ s : TDState K, (g.td s).w = s.w := fun _ => rfl
  have h11 : ∀ s : TDState K, (g.td s).history = s.history := fun _ => rfl
  unfold tiUpdate tiUpdateLog
  simp only [h1, h2, tiPreprocess_ren g hg, bind_map_left, h4, h5, h6, h7, h8, hr c m _ _ _ _, h9, h10, h11,
    map_bind, map_pure, bind_assoc, pure_bind]
  rfl

end

end DynCF
