/-
The two searches and the counting of new entities commute with a renaming of users, items and times
(`Lemmas/Relabel`).
-/
import Verif.Lemmas.RelabelData
import Verif.Model.Pipeline

namespace DynCF
variable {K : Type} {g : Relabel}

/-! ### The split by the quantile -/

section
variable [Field K] [LinearOrder K] [FloorRing K]

theorem stampSort_eq {stamp : ℤ → K} (hs : StrictMono stamp) (l : List ℤ) :
    stableSort (fun a b => decide (a ≤ b)) (l.map stamp) = (stableSort (fun a b => decide (a ≤ b)) l).map stamp :=
  stableSort_map' _ _ _ (fun _ _ => decide_eq_decide.2 hs.le_iff_le) l

/-- the threshold of the split is the stamp of the day at a position that depends on the number of rows -/
theorem trainTestSplit_eq {stamp : ℤ → K} (hs : StrictMono stamp) (data : List (Row K)) (q : K) :
    trainTestSplit stamp data q =
      if q < 0 ∨ 1 < q then .error .valueError
      else if data.isEmpty then .error .outOfModel
      else match (stableSort (fun a b => decide (a ≤ b)) (data.map Row.day))[
          (roundHalfEven (((data.length : K) - 1) * q)).toNat]? with
        | none => .error .indexError
        | some d => .ok (data.filter fun r => !decide (d ≤ r.day), data.filter fun r => decide (d ≤ r.day)) := by
  unfold trainTestSplit
  have h : (data.map fun r => stamp r.day) = (data.map Row.day).map stamp := by rw [List.map_map]; rfl
  simp only [h, stampSort_eq hs, List.getElem?_map]
  split
  · rfl
  split
  · rfl
  cases (stableSort (fun a b => decide (a ≤ b)) (data.map Row.day))[
      (roundHalfEven (((data.length : K) - 1) * q)).toNat]? with
  | none => rfl
  | some d => simp only [Option.map, hs.le_iff_le]

theorem trainTestSplitP_eq {stamp : ℤ → K} (hs : StrictMono stamp) (data : List (PRow K)) (q : K) :
    trainTestSplitP stamp data q =
      if q < 0 ∨ 1 < q then .error .valueError
      else if data.isEmpty then .error .outOfModel
      else match (stableSort (fun a b => decide (a ≤ b)) ((data.map PRow.row).map Row.day))[
          (roundHalfEven (((data.length : K) - 1) * q)).toNat]? with
        | none => .error .indexError
        | some d => .ok (data.filter fun p => !decide (d ≤ p.row.day), data.filter fun p => decide (d ≤ p.row.day)) := by
  unfold trainTestSplitP
  have h : (data.map fun p => stamp p.row.day) = ((data.map PRow.row).map Row.day).map stamp := by
    rw [List.map_map, List.map_map]; rfl
  simp only [h, stampSort_eq hs, List.getElem?_map]
  split
  · rfl
  split
  · rfl
  cases (stableSort (fun a b => decide (a ≤ b)) ((data.map PRow.row).map Row.day))[
      (roundHalfEven (((data.length : K) - 1) * q)).toNat]? with
  | none => rfl
  | some d => simp only [Option.map, hs.le_iff_le]

theorem trainTestSplit_ren {stamp : ℤ → K} (hs : StrictMono stamp) (hg : StrictMono g.day) (data : List (Row K)) (q : K) :
    trainTestSplit stamp (data.map g.row) q =
      (fun p => (p.1.map g.row, p.2.map g.row)) <$> trainTestSplit stamp data q := by
  rw [trainTestSplit_eq hs, trainTestSplit_eq hs, map_row_day, sortInt_map hg, List.getElem?_map, List.length_map,
    List.isEmpty_map]
  split
  · rfl
  split
  · rfl
  cases (stableSort (fun a b => decide (a ≤ b)) (data.map Row.day))[
      (roundHalfEven (((data.length : K) - 1) * q)).toNat]? with
  | none => rfl
  | some d =>
    show Except.ok _ = Except.ok _
    simp only [List.filter_map, Function.comp_def, Relabel.row_day, hg.le_iff_le]

theorem trainTestSplitP_ren {stamp : ℤ → K} (hs : StrictMono stamp) (hg : StrictMono g.day) (data : List (PRow K))
    (q : K) :
    trainTestSplitP stamp (data.map g.prow) q =
      (fun p => (p.1.map g.prow, p.2.map g.prow)) <$> trainTestSplitP stamp data q := by
  have h : ∀ p : PRow K, (g.prow p).row.day = g.day p.row.day := fun _ => rfl
  rw [trainTestSplitP_eq hs, trainTestSplitP_eq hs, map_prow_row, map_row_day, sortInt_map hg, List.getElem?_map,
    List.length_map, List.isEmpty_map]
  split
  · rfl
  split
  · rfl
  cases (stableSort (fun a b => decide (a ≤ b)) ((data.map PRow.row).map Row.day))[
      (roundHalfEven (((data.length : K) - 1) * q)).toNat]? with
  | none => rfl
  | some d =>
    show Except.ok _ = Except.ok _
    simp only [List.filter_map, Function.comp_def, h, hg.le_iff_le]

/-! ### The scores of the searches -/

theorem svdSearchScore_ren (hg : g.Inj) (env : RunEnv K) (fs : FixedSvd) (train valid : List (Row K)) (topk : ℕ)
    (c : List ℕ) :
    svdSearchScore env fs (train.map g.row) (valid.map g.row) topk c = svdSearchScore env fs train valid topk c := by
  match c with
  | [] => rfl
  | _ :: _ :: _ => rfl
  | [r] =>
    simp only [svdSearchScore, svdTrain_ren g hg, bind_map_left]
    congr 1
    funext s
    have h1 : (g.psi s).view = g.view s.view := rfl
    have h2 : psiScore (g.psi s) = psiScore s := rfl
    have h3 : (g.psi s).maps = g.maps s.maps := rfl
    simp only [h3, getUsersToRecommendTestItems_ren g hg, psiRecommend, h1, h2, recommend_ren g hg.user, bind_map_left,
      Bool.false_eq_true, if_false, hr_map hg.item]

theorem tdMetric_ren (hg : g.Inj) (argp : ArgPart K) (valid : List (Row K)) (topk : ℕ) (s : TDState K) :
    tdMetric argp hr (valid.map g.row) topk (g.td s) = tdMetric argp hr valid topk s := by
  have h1 : (g.td s).view = g.view s.view := rfl
  have h2 : tdRecommendUser (g.td s) = tdRecommendUser s := rfl
  have h3 : (g.td s).maps = g.maps s.maps := rfl
  simp only [tdMetric, h3, getUsersToRecommendTestItems_ren g hg, tdRecommend, h1, h2, recommend_ren g hg.user,
    bind_map_left, Bool.false_eq_true, if_false, hr_map hg.item]

theorem tdWithFactors_ren (m : TDAtt K) (maps : Mappings) (history : List (ℤ × ℤ)) (sh : SeqHist) (f : Fac K)
    (core : Option (Ten K)) :
    tdWithFactors m (g.maps maps) history sh f core = g.td <$> tdWithFactors m maps history sh f core := by
  unfold tdWithFactors
  simp only [map_bind, map_pure]
  rfl

theorem tdScore_ren (hg : g.Inj) (argp : ArgPart K) (valid : List (Row K)) (topk : ℕ) (m : TDAtt K) (maps : Mappings)
    (history : List (ℤ × ℤ)) (sh : SeqHist) :
    tdScore argp hr (valid.map g.row) topk m (g.maps maps) history sh =
      tdScore argp hr valid topk m maps history sh := by
  funext f core
  simp only [tdScore, tdWithFactors_ren, bind_map_left, tdMetric_ren hg]

theorem tdSearchTrain_ren (hg : g.Inj) (argp : ArgPart K) (valid : List (Row K)) (topk : ℕ) (relax : ℤ) (c : TDCfg K)
    (train : List (PRow K)) :
    tdSearchTrain argp hr (valid.map g.row) topk relax c (train.map g.prow) =
      (fun p => (g.td p.1, p.2)) <$> tdSearchTrain argp hr valid topk relax c train := by
  have h : ∀ data : List (PRow K), ((data.map g.times.prow).map fun p => (p.row.user, p.row.item)) =
      data.map fun p => (p.row.user, p.row.item) := fun data => by rw [List.map_map]; rfl
  unfold tdSearchTrain
  simp only [map_prow_row, getDfWithUpdatedIndices_ren g hg, bind_map_left, withPos_ren, trainTensor_ren, h,
    tdScore_ren hg, tdWithFactors_ren, map_bind, map_pure]

theorem tdSearchScores_ren (hg : g.Inj) (env : RunEnv K) (f : FixedTd) (train valid : List (PRow K)) (topk : ℕ)
    (c : List (TdParam K)) :
    tdSearchScores env f (train.map g.prow) (valid.map g.prow) topk c = tdSearchScores env f train valid topk c := by
  unfold tdSearchScores
  split
  · simp only [map_prow_row, tdSearchTrain_ren hg, bind_map_left]
  · rfl

/-! ### The searches -/

theorem searchSvd_ren (hg : g.Inj) (hd : StrictMono g.day) (env : RunEnv K)
    (hday : ∀ l, env.sortDay (l.map g.row) = (env.sortDay l).map g.row) (se : SearchEnv K) (hse : StrictMono se.stamp)
    (cfg : RunCfg K) (sc : SearchCfg K) (fs : FixedSvd) (data : List (IRow K)) :
    hyperparametersSearchSvd env se cfg sc fs (data.map g.irow) = hyperparametersSearchSvd env se cfg sc fs data := by
  have h : ∀ tr va topk, svdSearchScore env fs (tr.map g.row) (va.map g.row) topk = svdSearchScore env fs tr va topk :=
    fun tr va topk => funext (svdSearchScore_ren hg env fs tr va topk)
  unfold hyperparametersSearchSvd
  rw [prepareDataForExperiment_ren hd env.sortDay hday]
  simp only [bind_map_left, Relabel.split, trainTestSplit_ren hse hd, h]

theorem searchTdrec_ren (hg : g.Mono) (env : RunEnv K)
    (hday : ∀ l, env.sortDay (l.map g.row) = (env.sortDay l).map g.row) (se : SearchEnv K) (hse : StrictMono se.stamp)
    (cfg : RunCfg K) (sc : SearchCfg K) (ft : FixedTd) (data : List (IRow K)) :
    hyperparametersSearchTdrec env se cfg sc ft (data.map g.irow) =
      hyperparametersSearchTdrec env se cfg sc ft data := by
  have h : ∀ tr va topk, tdSearchScores env ft (tr.map g.prow) (va.map g.prow) topk = tdSearchScores env ft tr va topk :=
    fun tr va topk => funext (tdSearchScores_ren hg.inj env ft tr va topk)
  unfold hyperparametersSearchTdrec
  rw [prepareDataForExperiment_ren hg.day env.sortDay hday]
  simp only [bind_map_left, Relabel.split, getDfWithCroppedPos_ren g hg, trainTestSplitP_ren hse hg.day, h]

end

/-! ### New entities -/

/-- The sets under new names. -/
def Relabel.newSt (g : Relabel) (st : NewSt) : NewSt :=
  { st with users := st.users.image g.user, items := st.items.image g.item }

theorem toFinset_map_image (f : ℤ → ℤ) (l : List ℤ) : (l.map f).toFinset = l.toFinset.image f := by
  ext x; simp

theorem newStep_ren (hg : g.Inj) (st : NewSt) (chunk : List (Row K)) :
    newStep (g.newSt st) (chunk.map g.row) = g.newSt (newStep st chunk) := by
  have h1 : (chunk.map g.row).filter (fun r => decide (r.user ∉ st.users.image g.user) &&
      decide (r.item ∉ st.items.image g.item)) =
      (chunk.filter fun r => decide (r.user ∉ st.users) && decide (r.item ∉ st.items)).map g.row := by
    rw [List.filter_map]
    congr 1
    apply List.filter_congr
    intro r _
    simp only [Function.comp, Relabel.row_user, Relabel.row_item, hg.user.mem_finset_image, hg.item.mem_finset_image]
  unfold newStep Relabel.newSt
  dsimp only
  rw [h1]
  simp only [map_row_user, map_row_item, toFinset_map_image, ← Finset.image_union,
    ← Finset.image_sdiff _ _ hg.user, ← Finset.image_sdiff _ _ hg.item, Finset.card_image_of_injective _ hg.user,
    Finset.card_image_of_injective _ hg.item]

theorem newEntities_ren (hg : g.Inj) (initial : List (Row K)) (stream : List (List (Row K))) :
    newEntities (initial.map g.row) (stream.map (List.map g.row)) = g.newSt (newEntities initial stream) := by
  unfold newEntities
  simp only [map_row_user, map_row_item, toFinset_map_image]
  have h : ∀ st : NewSt, (stream.map (List.map g.row)).foldl newStep (g.newSt st) = g.newSt (stream.foldl newStep st) := by
    induction stream with
    | nil => intro st; rfl
    | cons c cs ih => intro st; simp only [List.map_cons, List.foldl_cons, newStep_ren hg, ih]
  exact h ⟨_, _, [], [], [], []⟩

section
variable [Field K] [LinearOrder K] [FloorRing K]

theorem plotNewEntities_ren (hg : g.Inj) (hd : StrictMono g.day) (sortDay : List (Row K) → List (Row K))
    (hday : ∀ l, sortDay (l.map g.row) = (sortDay l).map g.row) (data : List (IRow K)) (ratio : K) (hmin : Option ℤ)
    (hm : ℕ) (extra : Str) :
    plotNewEntities sortDay (data.map g.irow) ratio hmin hm extra =
      plotNewEntities sortDay data ratio hmin hm extra := by
  have h2 : ∀ l : List (ℤ × List (Row K)), (l.map fun e => (g.day e.1, e.2.map g.row)).map Prod.snd =
      (l.map Prod.snd).map (List.map g.row) := fun l => by rw [List.map_map, List.map_map]; rfl
  unfold plotNewEntities
  rw [prepareDataForExperiment_ren hd sortDay hday]
  simp only [bind_map_left, Relabel.split, h2, newEntities_ren hg]
  rfl

theorem prepareGraphs_ren (hg : g.Inj) (hd : StrictMono g.day) (sortDay : List (Row K) → List (Row K))
    (hday : ∀ l, sortDay (l.map g.row) = (sortDay l).map g.row) (c : GraphCfg K) (entries : List (Str × Bool × Series K))
    (data : List (IRow K)) :
    prepareGraphs sortDay c entries (data.map g.irow) = prepareGraphs sortDay c entries data := by
  unfold prepareGraphs
  simp only [plotNewEntities_ren hg hd sortDay hday]

end

end DynCF
