/-
The experiment commutes with a renaming of users, items and times (`Lemmas/Relabel`).
-/
import Verif.Lemmas.RelabelModels

namespace DynCF
variable {K : Type}

/-! ### Metrics -/

theorem forIdx2_map {α β γ α' β' : Type} (f : α → α') (h : β → β') (a : List α) (b : List β)
    (F : γ → α' → β' → PyM γ) (init : γ) :
    forIdx2 (a.map f) (b.map h) F init = forIdx2 a b (fun acc x y => F acc (f x) (h y)) init := by
  unfold forIdx2
  rw [List.length_map]
  congr 1
  funext acc i
  rw [List.getElem?_map, List.getElem?_map]
  cases a[i]? <;> cases b[i]? <;> rfl

section
variable [Field K]

theorem mrrScan_map {f : ℤ → ℤ} (hf : f.Injective) (t : ℤ) (total : K) (s : ℕ) (r : List ℤ) :
    mrrScan (f t) total (enumNat s (r.map f)) = mrrScan t total (enumNat s r) := by
  induction r generalizing s with
  | nil => rfl
  | cons x r ih => simp only [List.map_cons, enumNat, mrrScan, hf.eq_iff, ih]

variable [LinearOrder K]

theorem hr_map {f : ℤ → ℤ} (hf : f.Injective) (rec : List (List ℤ)) (items : List ℤ) :
    (hr (rec.map (List.map f)) (items.map f) : PyM K) = hr rec items := by
  have h : ∀ (t : ℤ) (r : List ℤ), (f t ∈ r.map f) = (t ∈ r) := fun t r => by
    rw [List.mem_map_of_injective hf]
  unfold hr
  simp only [forIdx2_map, h, List.length_map]

theorem mrr_map {f : ℤ → ℤ} (hf : f.Injective) (rec : List (List ℤ)) (items : List ℤ) :
    (mrr (rec.map (List.map f)) (items.map f) : PyM K) = mrr rec items := by
  unfold mrr
  simp only [forIdx2_map, mrrScan_map hf, List.length_map]

end

/-! ### The experiment -/

theorem Relabel.tab_rows (g : Relabel) (t : Tab K) : (g.tab t).rows = t.rows.map g.row := by
  cases t with
  | plain r => rfl
  | posed r => exact map_prow_row g r

/-- A recommender whose trained objects only carry the new names in their mappings. -/
structure RenModel {σ F : Type} (g : Relabel) (M : RecModel K σ F) (ren : σ → σ) : Prop where
  train : ∀ s d, M.train (ren s) (g.tab d) = ren <$> M.train s d
  update : ∀ s d, M.update (ren s) (g.tab d) = ren <$> M.update s d
  updateRe : ∀ s d f mp, M.updateRe (ren s) (g.tab d) f (g.maps mp) = ren <$> M.updateRe s d f mp
  recommend : ∀ s us k int, M.recommend (ren s) (us.map g.user) k int =
    (fun p => (p.1.map (List.map (if int then id else g.item)), ren p.2)) <$> M.recommend s us k int
  maps : ∀ s, M.maps (ren s) = g.maps (M.maps s)
  factors : ∀ s, M.factors (ren s) = M.factors s
  nItems : ∀ s, M.nItems (ren s) = M.nItems s
  getU : ∀ s, M.getU (ren s) = M.getU s
  getV : ∀ s, M.getV (ren s) = M.getV s

/-- The variables of the loop under new names. -/
def Relabel.exp {σ : Type} (g : Relabel) (ren : σ → σ) (st : ExpState K σ) : ExpState K σ :=
  { st with model := ren st.model, conc := g.tab st.conc }

section
variable [Field K] [LinearOrder K] {σ F : Type} {g : Relabel} {M : RecModel K σ F} {ren : σ → σ}

theorem scoreStep_ren (hg : g.Inj) (hM : RenModel g M ren) (cfg : ExpCfg K) (chunk : List (Row K)) (st : ExpState K σ) :
    scoreStep M cfg (chunk.map g.row) (g.exp ren st) = g.exp ren <$> scoreStep M cfg chunk st := by
  have h1 : (g.exp ren st).model = ren st.model := rfl
  unfold scoreStep
  simp only [h1, hM.maps, getUsersToRecommendTestItems_ren g hg, hM.recommend, bind_map_left, Bool.false_eq_true,
    if_false, hr_map hg.item, mrr_map hg.item, map_bind, map_pure]
  rfl

theorem stabilityStep_ren (hM : RenModel g M ren) (cfg cfg' : ExpCfg K) (hu : cfg'.testUsers = cfg.testUsers.map g.user)
    (hk : cfg'.kRecs = cfg.kRecs) (i : ℕ) (st : ExpState K σ) :
    stabilityStep M cfg' i (g.exp ren st) = g.exp ren <$> stabilityStep M cfg i st := by
  have h1 : (g.exp ren st).model = ren st.model := rfl
  have h2 : (g.exp ren st).recT1 = st.recT1 := rfl
  have h3 : (g.exp ren st).recT2 = st.recT2 := rfl
  have h4 : ∀ l : List (List ℤ), l.map (List.map id) = l := fun l => by simp
  unfold stabilityStep
  split
  · simp only [h1, hu, hk, hM.recommend, bind_map_left, if_true, h4, map_bind, map_pure]
    rfl
  · split
    · simp only [h1, h2, hu, hk, hM.recommend, hM.nItems, bind_map_left, if_true, h4, map_bind, map_pure]
      rfl
    · simp only [h1, h3, hu, hk, hM.recommend, hM.nItems, bind_map_left, if_true, h4, map_bind, map_pure]
      rfl

theorem driftStep_ren (hM : RenModel g M ren) (cfg cfg' : ExpCfg K) (hn : cfg'.normOf = cfg.normOf) (i : ℕ)
    (st : ExpState K σ) : driftStep M cfg' i (g.exp ren st) = g.exp ren <$> driftStep M cfg i st := by
  have h1 : (g.exp ren st).model = ren st.model := rfl
  unfold driftStep
  split
  · simp only [h1, hM.getU, hM.getV, map_bind, map_pure]
    rfl
  · split
    · simp only [h1, hn, hM.getU, hM.getV, map_bind, map_pure]
      rfl
    · simp only [h1, hn, hM.getU, hM.getV, map_bind, map_pure]
      rfl

theorem normStep_ren (hM : RenModel g M ren) (cfg cfg' : ExpCfg K) (hn : cfg'.normOf = cfg.normOf)
    (st : ExpState K σ) : normStep M cfg' (g.exp ren st) = g.exp ren <$> normStep M cfg st := by
  have h1 : (g.exp ren st).model = ren st.model := rfl
  unfold normStep
  simp only [h1, hn, hM.getU, hM.getV, map_bind, map_pure]
  rfl

/-- Cropping is the only part of the loop that needs the order of users and times. -/
def Relabel.FitsCfg (g : Relabel) (cfg : ExpCfg K) : Prop := cfg.chunkMode = true ∨ cfg.threeD = false ∨ g.Mono

theorem concatStep_ren (cfg : ExpCfg K) (hf : g.FitsCfg cfg) (conc : Tab K) (chunk : List (Row K)) :
    concatStep cfg (g.tab conc) (chunk.map g.row) = g.tab <$> concatStep cfg conc chunk := by
  unfold concatStep
  split
  · rfl
  · rename_i hc
    split
    · rename_i h3
      rcases hf with hf | hf | hf
      · exact absurd hf hc
      · exact absurd h3 (by simp [hf])
      · rw [Relabel.tab_rows, ← List.map_append, getDfWithCroppedPos_ren g hf]
        simp only [bind_map_left, map_bind, map_pure]
        rfl
    · cases conc with
      | plain r =>
        simp only [Relabel.tab, ← List.map_append]
        rfl
      | posed r => rfl

theorem updateStep_ren (hM : RenModel g M ren) (cfg : ExpCfg K) (s : σ) (conc : Tab K) (chunk : List (Row K)) :
    updateStep M cfg (ren s) (g.tab conc) (chunk.map g.row) = ren <$> updateStep M cfg s conc chunk := by
  have h : (if cfg.chunkMode then Tab.plain (chunk.map g.row) else g.tab conc) =
      g.tab (if cfg.chunkMode then Tab.plain chunk else conc) := by
    split <;> rfl
  unfold updateStep
  simp only [h, hM.factors, hM.maps]
  split
  · exact hM.updateRe _ _ _ _
  · exact hM.update _ _

theorem concatStep_congr (cfg : ExpCfg K) (us : List ℤ) (conc : Tab K) (chunk : List (Row K)) :
    concatStep { cfg with testUsers := us } conc chunk = concatStep cfg conc chunk := rfl

theorem expStep_ren (hg : g.Inj) (hM : RenModel g M ren) (cfg : ExpCfg K) (hf : g.FitsCfg cfg) (i : ℕ)
    (chunk : List (Row K)) (st : ExpState K σ) :
    expStep M { cfg with testUsers := cfg.testUsers.map g.user } i (chunk.map g.row) (g.exp ren st) =
      g.exp ren <$> expStep M cfg i chunk st := by
  have h1 : ∀ st : ExpState K σ, (g.exp ren st).conc = g.tab st.conc := fun _ => rfl
  have h2 : ∀ st : ExpState K σ, (g.exp ren st).model = ren st.model := fun _ => rfl
  have h3 : ∀ (c : List (Row K)) (s : ExpState K σ),
      scoreStep M { cfg with testUsers := cfg.testUsers.map g.user } c s = scoreStep M cfg c s := fun _ _ => rfl
  have h4 : ∀ (s : σ) (t : Tab K) (c : List (Row K)),
      updateStep M { cfg with testUsers := cfg.testUsers.map g.user } s t c = updateStep M cfg s t c :=
    fun _ _ _ => rfl
  unfold expStep
  simp only [h3, h4, concatStep_congr, scoreStep_ren hg hM, bind_map_left,
    stabilityStep_ren hM cfg { cfg with testUsers := cfg.testUsers.map g.user } rfl rfl,
    driftStep_ren hM cfg { cfg with testUsers := cfg.testUsers.map g.user } rfl,
    normStep_ren hM cfg { cfg with testUsers := cfg.testUsers.map g.user } rfl, h1, h2,
    concatStep_ren cfg hf, updateStep_ren hM, map_bind, map_pure]
  rfl

theorem expLoop_ren (hg : g.Inj) (hM : RenModel g M ren) (cfg : ExpCfg K) (hf : g.FitsCfg cfg) (i : ℕ)
    (stream : List (List (Row K))) (st : ExpState K σ) :
    expLoop M { cfg with testUsers := cfg.testUsers.map g.user } i (stream.map (List.map g.row)) (g.exp ren st) =
      g.exp ren <$> expLoop M cfg i stream st := by
  induction stream generalizing i st with
  | nil => rfl
  | cons chunk rest ih =>
    simp only [List.map_cons, expLoop, expStep_ren hg hM cfg hf, bind_map_left, map_bind]
    congr 1
    funext st'
    split
    · rfl
    · exact ih _ _

theorem runWith_ren (hg : g.Inj) (hM : RenModel g M ren) (cfg : ExpCfg K) (hf : g.FitsCfg cfg) (s0 : σ)
    (h0 : ren s0 = s0) (initial : Tab K) (stream : List (List (Row K))) :
    runWith M { cfg with testUsers := cfg.testUsers.map g.user } s0 (g.tab initial) (stream.map (List.map g.row)) =
      runWith M cfg s0 initial stream := by
  have h1 : expInit M { cfg with testUsers := cfg.testUsers.map g.user } s0 (g.tab initial) =
      g.exp ren <$> expInit M cfg s0 initial := by
    have ht := hM.train s0 initial
    rw [h0] at ht
    unfold expInit
    simp only [ht, bind_map_left, map_bind, map_pure]
    rfl
  have h2 : ∀ st : ExpState K σ, (g.exp ren st).dyn = st.dyn := fun _ => rfl
  unfold runWith dynamicalExperiment
  simp only [h1, bind_map_left, expLoop_ren hg hM cfg hf, bind_assoc, h2]

theorem RenModel.useTrain (hM : RenModel g M ren) (b : Bool) : RenModel g (withUpdate b M) ren := by
  unfold withUpdate
  split
  · exact { hM with update := hM.train }
  · exact hM

end

/-! ### The classes -/

section
variable [Field K] [LinearOrder K] {g : Relabel}

theorem svdClass_ren (hg : g.Inj) (env : PSIEnv K) (argp : ArgPart K) (c : PSICfg) :
    RenModel g (svdClass env argp c) (Option.map g.psi) where
  train s d := by
    simp only [svdClass, Relabel.tab_rows, svdTrain_ren g hg, bind_map_left, map_bind, map_pure]
    rfl
  update _ _ := rfl
  updateRe _ _ _ _ := rfl
  recommend s us k int := by
    cases s with
    | none => rfl
    | some st =>
      have h1 : (g.psi st).view = g.view st.view := rfl
      have h2 : psiScore (g.psi st) = psiScore st := rfl
      simp only [svdClass, Option.map, psiRecommend, h1, h2, recommend_ren g hg.user, bind_map_left, map_bind,
        map_pure]
  maps s := by cases s <;> rfl
  factors _ := rfl
  nItems s := by cases s <;> rfl
  getU s := by cases s <;> rfl
  getV s := by cases s <;> rfl

theorem psiClass_ren (hg : g.Inj) (env : PSIEnv K) (argp : ArgPart K) (c : PSICfg) :
    RenModel g (psiClass env argp c) (Option.map g.psi) :=
  { svdClass_ren hg env argp c with
    update := fun s d => by
      cases s with
      | none => rfl
      | some st =>
        simp only [psiClass, Option.map, Relabel.tab_rows, psiUpdate_ren g hg, bind_map_left, map_bind, map_pure] }

theorem histOf_ren (s : Option (TDState K)) : histOf (s.map g.td) = histOf s := by cases s <;> rfl

theorem tdClass_ren (hg : g.Inj) (argp : ArgPart K) (c : TDCfg K) (m : TDAtt K) :
    RenModel g (tdClass argp c m) (Option.map g.td) where
  train s d := by
    cases d with
    | plain r => rfl
    | posed r =>
      simp only [tdClass, Relabel.tab, histOf_ren, tdTrain_ren g hg, bind_map_left, map_bind, map_pure]
      rfl
  update _ _ := rfl
  updateRe _ _ _ _ := rfl
  recommend s us k int := by
    cases s with
    | none => rfl
    | some st =>
      have h1 : (g.td st).view = g.view st.view := rfl
      have h2 : tdRecommendUser (g.td st) = tdRecommendUser st := rfl
      simp only [tdClass, Option.map, tdRecommend, h1, h2, recommend_ren g hg.user, bind_map_left, map_bind,
        map_pure]
  maps s := by cases s <;> rfl
  factors s := by cases s <;> rfl
  nItems s := by cases s <;> rfl
  getU s := by cases s <;> rfl
  getV s := by cases s <;> rfl

theorem tdReClass_ren (hg : g.Inj) (argp : ArgPart K) (c : TDCfg K) (m : TDAtt K) :
    RenModel g (tdReClass argp c m) (Option.map g.td) :=
  { tdClass_ren hg argp c m with
    train := fun s d => by
      cases d with
      | plain r => rfl
      | posed r =>
        have h := fun h0 => tdReTrain_ren g hg c m h0 r none none
        simp only [Option.map] at h
        simp only [tdReClass, Relabel.tab, histOf_ren, h, bind_map_left, map_bind, map_pure]
        rfl
    updateRe := fun s d f mp => by
      cases d with
      | plain r => rfl
      | posed r =>
        have h := fun h0 => tdReTrain_ren g hg c m h0 r f (some mp)
        simp only [Option.map] at h
        simp only [tdReClass, Relabel.tab, histOf_ren, h, bind_map_left, map_bind, map_pure]
        rfl }

theorem tiClass_ren (hg : g.Mono) (rounds : TIRounds K) (hr : TIRounds.Commutes g rounds) (argp : ArgPart K)
    (c : TICfg K) (m : TDAtt K) : RenModel g (tiClass rounds argp c m) (Option.map g.td) :=
  { tdClass_ren hg.inj argp c.td m with
    update := fun s d => by
      cases s with
      | none => rfl
      | some st =>
        simp only [tiClass, Option.map, Relabel.tab_rows, tiUpdate_ren g c m hg rounds hr, bind_map_left, map_bind,
          map_pure] }

theorem randomTrain_ren (hg : g.Inj) (data : List (Row K)) :
    randomTrain (data.map g.row) = g.view <$> randomTrain data := by
  have h1 : ∀ l : List (Row K), (l.map g.times.row).map Row.user = l.map Row.user := fun l => by
    rw [List.map_map]; rfl
  have h2 : ∀ l : List (Row K), (l.map g.times.row).map Row.item = l.map Row.item := fun l => by
    rw [List.map_map]; rfl
  have h3 : ∀ l : List (Row K), ((l.map g.times.row).map fun r => (r.user, r.item)) =
      l.map fun r => (r.user, r.item) := fun l => by rw [List.map_map]; rfl
  unfold randomTrain
  simp only [getDfWithUpdatedIndices_ren g hg, bind_map_left, h1, h2, h3, List.isEmpty_map, map_bind]
  congr 1
  funext dm
  split <;> rfl

theorem randomClass_ren (hg : g.Inj) (argp : ArgPart K) (normals : ℕ → K) :
    RenModel g (randomClass argp normals) (fun s => (s.1.map g.view, s.2)) where
  train s d := by
    cases d with
    | plain r => rfl
    | posed r =>
      simp only [randomClass, Relabel.tab, map_prow_row, randomTrain_ren hg, bind_map_left, map_bind, map_pure]
      rfl
  update _ _ := rfl
  updateRe _ _ _ _ := rfl
  recommend s us k int := by
    obtain ⟨v, n⟩ := s
    cases v with
    | none => rfl
    | some v =>
      have h1 : (g.view v).nItems = v.nItems := rfl
      have h2 := recommend_ren g hg.user true argp v
        (fun i _ => .ok (List.ofFn fun j : Fin v.nItems => normals (n + i * v.nItems + j))) us k true int
      have h3 : randomRecommend argp (g.view v) (fun i j => normals (n + i * (g.view v).nItems + j)) (us.map g.user) k
          true int = List.map (List.map (if int then id else g.item)) <$>
            randomRecommend argp v (fun i j => normals (n + i * v.nItems + j)) us k true int := h2
      simp only [randomClass, Option.map, h3, bind_map_left, map_bind, map_pure, List.length_map]
      rfl
  maps s := by obtain ⟨v, n⟩ := s; cases v <;> rfl
  factors _ := rfl
  nItems s := by obtain ⟨v, n⟩ := s; cases v <;> rfl
  getU _ := rfl
  getV _ := rfl

end

end DynCF
