/-
Splitting the prepared table commutes with a renaming of users, items and times (`Lemmas/Relabel`).
-/
import Verif.Lemmas.RelabelExp

namespace DynCF
variable {K : Type} {g : Relabel}

theorem map_row_day (g : Relabel) (df : List (Row K)) : (df.map g.row).map Row.day = (df.map Row.day).map g.day := by
  simp [List.map_map, Function.comp_def]

theorem sortInt_map {f : ℤ → ℤ} (hf : StrictMono f) (l : List ℤ) :
    stableSort (fun a b => decide (a ≤ b)) (l.map f) = (stableSort (fun a b => decide (a ≤ b)) l).map f :=
  stableSort_map' _ _ _ (fun _ _ => decide_eq_decide.2 hf.le_iff_le) l

theorem groupDays_ren (hg : StrictMono g.day) (df : List (Row K)) : groupDays (df.map g.row) = (groupDays df).map g.day := by
  unfold groupDays
  rw [map_row_day, pdUnique_map_inj _ hg.injective, sortInt_map hg]

theorem groupByDay_ren (hg : StrictMono g.day) (df : List (Row K)) :
    groupByDay (df.map g.row) = (groupByDay df).map fun e => (g.day e.1, e.2.map g.row) := by
  unfold groupByDay
  rw [groupDays_ren hg, List.map_map, List.map_map]
  apply List.map_congr_left
  intro d _
  simp only [Function.comp]
  congr 1
  rw [List.filter_map]
  congr 1
  apply List.filter_congr
  intro r _
  exact decide_eq_decide.2 hg.injective.eq_iff

theorem dayCounts_ren (hg : StrictMono g.day) (df : List (Row K)) :
    dayCounts (df.map g.row) = (dayCounts df).map fun e => (g.day e.1, e.2) := by
  unfold dayCounts
  rw [groupByDay_ren hg, List.map_map, List.map_map]
  apply List.map_congr_left
  intro e _
  simp only [Function.comp, List.length_map]

section
variable {f : ℤ → ℤ}

/-- keys and values are days -/
theorem dict_set_both (hf : f.Injective) (d : Dict ℤ ℤ) (k v : ℤ) :
    Dict.set (d.map fun e => (f e.1, f e.2)) (f k) (f v) = (d.set k v).map fun e => (f e.1, f e.2) := by
  induction d with
  | nil => rfl
  | cons e d ih =>
    obtain ⟨a, b⟩ := e
    simp only [List.map_cons, Dict.set, hf.eq_iff, ih]
    split <;> rfl

theorem dict_getItem_both (hf : f.Injective) (d : Dict ℤ ℤ) (k : ℤ) :
    Dict.getItem (d.map fun e => (f e.1, f e.2)) (f k) = f <$> d.getItem k := by
  have h : Dict.get? (d.map fun e => (f e.1, f e.2)) (f k) = (d.get? k).map f := by
    induction d with
    | nil => rfl
    | cons e d ih =>
      obtain ⟨a, b⟩ := e
      simp only [List.map_cons, Dict.get?, hf.eq_iff, ih]
      split <;> rfl
  unfold Dict.getItem
  rw [h]
  cases d.get? k <;> rfl

/-- The variables of the grouping loop under new names of the days; the group number is not read while a new
group is about to start. -/
structure GroupRen (f : ℤ → ℤ) (a b : GroupSt) : Prop where
  start : b.newStart = a.newStart
  sum : b.localSum = a.localSum
  num : a.newStart = false → b.groupN = f a.groupN
  dict : b.dict = a.dict.map fun e => (f e.1, f e.2)

theorem getLastD_map (l : List ℤ) (d : ℤ) : (l.map f).getLastD (f d) = f (l.getLastD d) := by
  rw [List.getLastD_eq_getLast?, List.getLastD_eq_getLast?, List.getLast?_map]
  cases l.getLast? <;> rfl

theorem groupBody_ren (hf : StrictMono f) (days : List ℤ) (hm : ℤ) (i : ℕ) (d : ℤ) (v : ℕ) (a b : GroupSt)
    (h : GroupRen f a b) : GroupRen f (groupBody days hm i d v a) (groupBody (days.map f) hm i (f d) v b) := by
  have h1 : (if b.newStart then (v : ℤ) else b.localSum + v) = if a.newStart then (v : ℤ) else a.localSum + v := by
    rw [h.start, h.sum]
  have h2 : (if b.newStart then f d else b.groupN) = f (if a.newStart then d else a.groupN) := by
    rw [h.start]
    cases ha : a.newStart
    · simp [h.num ha]
    · simp
  have h3 : (if i = 0 then ((stableSort (fun a b => decide (a ≤ b)) days).map f).getLastD (f d)
      else ((stableSort (fun a b => decide (a ≤ b)) days).map f).getD (i - 1) (f d)) =
      f (if i = 0 then (stableSort (fun a b => decide (a ≤ b)) days).getLastD d
        else (stableSort (fun a b => decide (a ≤ b)) days).getD (i - 1) d) := by
    split
    · exact getLastD_map _ _
    · rw [List.getD_eq_getElem?_getD, List.getD_eq_getElem?_getD, List.getElem?_map]
      cases (stableSort (fun a b => decide (a ≤ b)) days)[i - 1]? <;> rfl
  refine ⟨?_, ?_, ?_, ?_⟩
  · simp only [groupBody, h1]
  · simp only [groupBody, h1]
  · intro _
    simp only [groupBody, h2]
  · simp only [groupBody, h1, h2, sortInt_map hf, h3, List.length_map, h.dict, dict_set_both hf.injective]
    by_cases hc : i + 1 = days.length ∧ (if a.newStart = true then (v : ℤ) else a.localSum + v) ≤ hm
    · rw [if_pos hc, if_pos hc]
    · rw [if_neg hc, if_neg hc]

theorem groupLoop_ren (hf : StrictMono f) (days : List ℤ) (hm : ℤ) (l : List (ℤ × ℕ)) (i : ℕ) (a b : GroupSt)
    (h : GroupRen f a b) :
    GroupRen f (groupLoop days hm i l a) (groupLoop (days.map f) hm i (l.map fun e => (f e.1, e.2)) b) := by
  induction l generalizing i a b with
  | nil => exact h
  | cons e l ih => exact ih _ _ _ (groupBody_ren hf days hm i e.1 e.2 a b h)

theorem getDateToGroupMapping_ren (hf : StrictMono f) (counts : List (ℤ × ℕ)) (hm : ℤ) :
    getDateToGroupMapping (counts.map fun e => (f e.1, e.2)) hm =
      (getDateToGroupMapping counts hm).map fun e => (f e.1, f e.2) := by
  have h : (counts.map fun e => (f e.1, e.2)).map Prod.fst = (counts.map Prod.fst).map f := by
    rw [List.map_map, List.map_map]; rfl
  unfold getDateToGroupMapping
  rw [h]
  exact (groupLoop_ren hf _ hm counts 0 ⟨true, 0, 0, []⟩ ⟨true, 0, 0, []⟩
    ⟨rfl, rfl, (fun h => by cases h), rfl⟩).dict

end

/-- The result of `prepare_data_for_experiment` under new names. -/
def Relabel.split (g : Relabel) (d : List (Row K) × List (ℤ × List (Row K)) × List (Row K)) :
    List (Row K) × List (ℤ × List (Row K)) × List (Row K) :=
  (d.1.map g.row, d.2.1.map (fun e => (g.day e.1, e.2.map g.row)), d.2.2.map g.row)

theorem prepareDataForExperiment_ren [Field K] [LinearOrder K] [FloorRing K] (hg : StrictMono g.day)
    (sortDay : List (Row K) → List (Row K)) (hs : ∀ l, sortDay (l.map g.row) = (sortDay l).map g.row)
    (data : List (IRow K)) (ratio : K) (hm : Option ℤ) :
    prepareDataForExperiment sortDay (data.map g.irow) ratio hm =
      g.split <$> prepareDataForExperiment sortDay data ratio hm := by
  have h1 : ∀ p : ℤ → Bool, ((data.map g.irow).filter fun r => p r.idx).map IRow.row =
      ((data.filter fun r => p r.idx).map IRow.row).map g.row := fun p => by
    rw [List.filter_map, List.map_map, List.map_map]; rfl
  unfold prepareDataForExperiment
  simp only [List.length_map, h1 fun i => decide (i < pyInt ((data.length : K) * ratio)),
    h1 fun i => !decide (i < pyInt ((data.length : K) * ratio))]
  cases hm with
  | none =>
    simp only [groupByDay_ren hg]
    rfl
  | some m =>
    have h2 : ∀ (d : Dict ℤ ℤ) (l : List (Row K)), ((l.map g.row).mapM fun r => do
        let k ← Dict.getItem (d.map fun e => (g.day e.1, g.day e.2)) r.day
        pure ({ r with day := k } : Row K)) = List.map g.row <$> (l.mapM fun r => do
          let k ← d.getItem r.day
          pure ({ r with day := k } : Row K)) := fun d l => by
      rw [mapM_map_list, ← mapM_fmap]
      congr 1
      funext r
      simp only [Relabel.row_day, dict_getItem_both hg.injective, bind_map_left, map_bind, map_pure]
      rfl
    simp only [hs, dayCounts_ren hg, getDateToGroupMapping_ren hg, h2, bind_map_left, groupByDay_ren hg, map_bind,
      map_pure]
    rfl

theorem sliceTo_map {α β : Type} (f : α → β) (l : List α) (k : ℤ) : sliceTo (l.map f) k = (sliceTo l k).map f := by
  unfold sliceTo
  split
  · rw [List.map_take]
  · rw [List.length_map, List.map_take]

theorem getUsersStability_ren (hg : g.Mono) (sortCnt : List (ℤ × ℕ) → List (ℤ × ℕ))
    (hs : ∀ l, sortCnt (l.map fun e => (g.user e.1, e.2)) = (sortCnt l).map fun e => (g.user e.1, e.2))
    (initial left : List (Row K)) (hm : ℤ) :
    getUsersStability sortCnt (initial.map g.row) (left.map g.row) hm =
      (getUsersStability sortCnt initial left hm).map g.user := by
  have h1 : ∀ (days users : List ℤ), (left.map g.row).filter (fun r => decide (r.day ∈ days.map g.day) &&
      decide (r.user ∈ users.map g.user)) =
      (left.filter fun r => decide (r.day ∈ days) && decide (r.user ∈ users)).map g.row := fun days users => by
    rw [List.filter_map]
    congr 1
    apply List.filter_congr
    intro r _
    simp only [Function.comp, Relabel.row_day, Relabel.row_user, List.mem_map_of_injective hg.day.injective,
      List.mem_map_of_injective hg.user.injective]
  have h2 : ∀ (keys : List ℤ) (sel : List (Row K)), ((keys.map g.user).map fun u =>
      (u, (pdUnique (((sel.map g.row).filter fun r => decide (r.user = u)).map Row.day)).length)) =
      (keys.map fun u => (u, (pdUnique ((sel.filter fun r => decide (r.user = u)).map Row.day)).length)).map
        fun e => (g.user e.1, e.2) := fun keys sel => by
    rw [List.map_map, List.map_map]
    apply List.map_congr_left
    intro u _
    simp only [Function.comp, filter_user_ren g hg.user.injective, map_row_day,
      pdUnique_map_inj _ hg.day.injective, List.length_map]
  have h3 : ∀ l : List (ℤ × ℕ), (l.map fun e => (g.user e.1, e.2)).map Prod.fst = (l.map Prod.fst).map g.user :=
    fun l => by rw [List.map_map, List.map_map]; rfl
  unfold getUsersStability
  simp only [groupDays_ren hg.day, sliceTo_map, map_row_user, pdUnique_map_inj _ hg.user.injective, h1,
    sortInt_map hg.user, h2, hs, List.length_map, ← List.map_drop, h3]

theorem initialTable_ren (hg : g.Mono) (dim : String) (L : ℕ) (initial : List (Row K)) :
    initialTable dim L (initial.map g.row) = g.tab <$> initialTable dim L initial := by
  unfold initialTable
  split
  · rw [getDfWithCroppedPos_ren g hg]
    simp only [bind_map_left, map_bind, map_pure]
    rfl
  · split <;> rfl

section
variable [Field K] [LinearOrder K]

/-- The sorts with a single key look at the key column only. -/
structure Relabel.FitsEnv (g : Relabel) (env : RunEnv K) : Prop where
  day : ∀ l, env.sortDay (l.map g.row) = (env.sortDay l).map g.row
  cnt : ∀ l, env.sortCnt (l.map fun e => (g.user e.1, e.2)) = (env.sortCnt l).map fun e => (g.user e.1, e.2)

theorem runPrepared_ren (hg : g.Mono) (env : RunEnv K) (e : ExpCfg K) (p : Prepared K) (initial : Tab K)
    (stream : List (List (Row K))) :
    runPrepared env { e with testUsers := e.testUsers.map g.user } p (g.tab initial) (stream.map (List.map g.row)) =
      runPrepared env e p initial stream := by
  have hf : g.FitsCfg e := Or.inr (Or.inr hg)
  unfold runPrepared
  cases p.obj with
  | svd c => exact runWith_ren hg.inj ((svdClass_ren hg.inj _ _ _).useTrain _) e hf none rfl initial stream
  | psi c => exact runWith_ren hg.inj ((psiClass_ren hg.inj _ _ _).useTrain _) e hf none rfl initial stream
  | td c m => exact runWith_ren hg.inj ((tdClass_ren hg.inj _ _ _).useTrain _) e hf none rfl initial stream
  | tdRe c m => exact runWith_ren hg.inj ((tdReClass_ren hg.inj _ _ _).useTrain _) e hf none rfl initial stream
  | ti c m =>
    exact runWith_ren hg.inj ((tiClass_ren hg _ (tirecRounds_commutes g) _ _ _).useTrain _) e hf none rfl initial stream
  | tiA c m =>
    exact runWith_ren hg.inj ((tiClass_ren hg _ (tirecaMiddle_commutes g) _ _ _).useTrain _) e hf none rfl initial
      stream
  | random =>
    exact runWith_ren hg.inj ((randomClass_ren hg.inj _ _).useTrain _) e hf (none, 0) rfl initial stream

variable [FloorRing K]

theorem fullDynamicalExperiment_ren (hg : g.Mono) (env : RunEnv K) (he : g.FitsEnv env) (cfg : RunCfg K)
    (name dim : String) (data : List (IRow K)) :
    fullDynamicalExperiment env cfg name dim (data.map g.irow) = fullDynamicalExperiment env cfg name dim data := by
  have h1 : ∀ (p : Prepared K) (us : List ℤ), expCfgOf env cfg p (us.map g.user) =
      { expCfgOf env cfg p us with testUsers := (expCfgOf env cfg p us).testUsers.map g.user } := fun _ _ => rfl
  have h2 : ∀ l : List (ℤ × List (Row K)), (l.map fun e => (g.day e.1, e.2.map g.row)).map Prod.snd =
      (l.map Prod.snd).map (List.map g.row) := fun l => by rw [List.map_map, List.map_map]; rfl
  unfold fullDynamicalExperiment
  rw [prepareDataForExperiment_ren hg.day env.sortDay he.day]
  simp only [bind_map_left, Relabel.split, initialTable_ren hg, Relabel.tab_rows,
    getUsersStability_ren hg env.sortCnt he.cnt, h1, h2, runPrepared_ren hg]

theorem ablationRun_ren (hg : g.Mono) (env : RunEnv K) (he : g.FitsEnv env) (cfg : RunCfg K)
    (name dim : String) (data : List (IRow K)) (o : K × Bool) :
    ablationRun env cfg name dim (data.map g.irow) o = ablationRun env cfg name dim data o := by
  have h1 : ∀ (env : RunEnv K) (p : Prepared K) (us : List ℤ), expCfgOf env cfg p (us.map g.user) =
      { expCfgOf env cfg p us with testUsers := (expCfgOf env cfg p us).testUsers.map g.user } := fun _ _ _ => rfl
  have h2 : ∀ l : List (ℤ × List (Row K)), (l.map fun e => (g.day e.1, e.2.map g.row)).map Prod.snd =
      (l.map Prod.snd).map (List.map g.row) := fun l => by rw [List.map_map, List.map_map]; rfl
  unfold ablationRun
  simp only
  rw [prepareDataForExperiment_ren hg.day (scaleNormal o.1 env).sortDay he.day]
  simp only [bind_map_left, Relabel.split, initialTable_ren hg, Relabel.tab_rows,
    getUsersStability_ren hg (scaleNormal o.1 env).sortCnt he.cnt, h1, h2, runPrepared_ren hg]

end

end DynCF
