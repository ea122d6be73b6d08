/- C157: how the rows of different users are interleaved in a table has no influence on the sequence models. -/
import Verif.Model.PrepareModel
import Verif.Props.Evaluation
import Verif.Props.FullExperiment
import Verif.Props.Recommend
import Verif.Props.Crop
import Verif.Lemmas.Selection
import Verif.Lemmas.Hooi

namespace DynCF
variable {K : Type}

/-! ### Specification -/

/-- Every user has the same rows, in the same order, in both tables. -/
def SameLogs (a b : List (Row K)) : Prop :=
  ∀ u, (a.filter fun r => decide (r.user = u)) = b.filter fun r => decide (r.user = u)

/-- Every user has the same rows at every time, in the same order. -/
def SameTimedLogs (a b : List (Row K)) : Prop :=
  ∀ u t, (a.filter fun r => decide (r.user = u ∧ r.ts = t)) = b.filter fun r => decide (r.user = u ∧ r.ts = t)

/-! ### Tables -/

theorem SameLogs.timed {a b : List (Row K)} (h : SameLogs a b) : SameTimedLogs a b := by
  intro u t
  have e : ∀ l : List (Row K), (l.filter fun r => decide (r.user = u ∧ r.ts = t)) =
      (l.filter fun r => decide (r.user = u)).filter fun r => decide (r.ts = t) := fun l => by
    rw [List.filter_filter]
    exact List.filter_congr fun r _ => by rw [Bool.decide_and, Bool.and_comm]
  rw [e, e, h u]

theorem SameLogs.symm {a b : List (Row K)} (h : SameLogs a b) : SameLogs b a := fun u => (h u).symm

theorem SameLogs.append {a b c d : List (Row K)} (h : SameLogs a b) (h' : SameLogs c d) :
    SameLogs (a ++ c) (b ++ d) := fun u => by
  rw [List.filter_append, List.filter_append, h u, h' u]

theorem SameLogs.refl (a : List (Row K)) : SameLogs a a := fun _ => rfl

theorem SameTimedLogs.mem {a b : List (Row K)} (h : SameTimedLogs a b) (r : Row K) : r ∈ a ↔ r ∈ b := by
  have e : ∀ l : List (Row K), r ∈ l ↔ r ∈ l.filter fun x => decide (x.user = r.user ∧ x.ts = r.ts) := fun l => by
    simp
  rw [e a, e b, h]

/-- Reordering a table in which no user has two rows at the same time. -/
theorem C157_perm {a b : List (Row K)} (h : a.Perm b)
    (hd : a.Pairwise fun r r' => ¬ (r.user = r'.user ∧ r.ts = r'.ts)) : SameTimedLogs a b := by
  intro u t
  have hp := h.filter fun r => decide (r.user = u ∧ r.ts = t)
  have hl : (a.filter fun r => decide (r.user = u ∧ r.ts = t)).length ≤ 1 := by
    by_contra hc
    have hs := (hd.sublist (List.filter_sublist (p := fun r => decide (r.user = u ∧ r.ts = t))))
    generalize hg : (a.filter fun r => decide (r.user = u ∧ r.ts = t)) = l at hs hc
    match l with
    | [] => simp at hc
    | [_] => simp at hc
    | x :: y :: l =>
      have hx : x ∈ a.filter fun r => decide (r.user = u ∧ r.ts = t) := by rw [hg]; simp
      have hy : y ∈ a.filter fun r => decide (r.user = u ∧ r.ts = t) := by rw [hg]; simp
      have h1 := of_decide_eq_true (List.mem_filter.1 hx).2
      have h2 := of_decide_eq_true (List.mem_filter.1 hy).2
      exact (List.pairwise_cons.1 hs).1 y (by simp) ⟨h1.1.trans h2.1.symm, h1.2.trans h2.2.symm⟩
  generalize (a.filter fun r => decide (r.user = u ∧ r.ts = t)) = l at hp hl
  match l with
  | [] => exact (List.nil_perm.1 hp).symm
  | [x] => exact List.singleton_perm.1 hp
  | _ :: _ :: _ => simp at hl

theorem tsSort_congr {a b : List (Row K)} (h : SameTimedLogs a b) (u : ℤ) :
    tsSort (rowsOf u a) = tsSort (rowsOf u b) := by
  refine sorted_eq_of_filter_eq Row.ts _ _ (tsSort_stable _).1 (tsSort_stable _).1 fun t => ?_
  rw [(tsSort_stable _).2 t, (tsSort_stable _).2 t]
  have e : ∀ l : List (Row K), (rowsOf u l).filter (fun r => decide (r.ts = t)) =
      l.filter fun r => decide (r.user = u ∧ r.ts = t) := fun l => by
    unfold rowsOf
    rw [List.filter_filter]
    exact List.filter_congr fun r _ => by rw [Bool.decide_and, Bool.and_comm]
  rw [e, e, h u t]

/-- **C157, cropping.** Tables in which every user has the same rows at every time are cropped to the same table (or
both calls fail with the same error). -/
theorem C157_crop {a b : List (Row K)} (h : SameTimedLogs a b) (L : ℕ) :
    getDfWithCroppedPos a L true = getDfWithCroppedPos b L true := by
  by_cases ha : a = []
  · subst ha
    have hb : b = [] := List.eq_nil_iff_forall_not_mem.2 fun r hr => by simpa using (h.mem r).2 hr
    rw [hb]
  · have hb : b ≠ [] := by
      obtain ⟨r, hr⟩ := List.exists_mem_of_ne_nil _ ha
      exact List.ne_nil_of_mem ((h.mem r).1 hr)
    rcases Nat.eq_zero_or_pos L with rfl | hL
    · rw [(C08_crop_errors a true).1 ha, (C08_crop_errors b true).1 hb]
    · rw [getDfWithCroppedPos_eq a L true hL ha, getDfWithCroppedPos_eq b L true hL hb]
      unfold cropSpec
      rw [groupUsers_congr a b fun u => by simp only [h.mem]]
      simp only [if_true, tsSort_congr h]

/-! ### Updates -/

variable [Field K] [LinearOrder K]

/-- **C157, updates.** `update` of TIRec and TIRecA returns the same model for both tables. -/
theorem C157_update (rounds : TIRounds K) (c : TICfg K) (m : TDAtt K) (st : TDState K) {a b : List (Row K)}
    (h : SameTimedLogs a b) : tiUpdate rounds c m st a true = tiUpdate rounds c m st b true := by
  unfold tiUpdate tiUpdateLog tiPreprocess
  rw [C157_crop h]

/-- **C157, several updates.** -/
theorem C157_updates (rounds : TIRounds K) (c : TICfg K) (m : TDAtt K) {as bs : List (List (Row K))}
    (h : List.Forall₂ SameTimedLogs as bs) (st : TDState K) :
    tiUpdates rounds c m st as true = tiUpdates rounds c m st bs true := by
  unfold tiUpdates
  induction h generalizing st with
  | nil => rfl
  | cons hab _ ih =>
    rw [List.foldlM_cons, List.foldlM_cons, C157_update rounds c m st hab]
    cases tiUpdate rounds c m st _ true with
    | error e => rfl
    | ok s => exact ih s

/-! ### Evaluation -/

/-- the evaluation rows -/
theorem selection_eq (df : List (Row K)) (m : Mappings) : ∃ p : Row K → Bool,
    (∀ df' : List (Row K), getUsersToRecommendTestItems df' m =
      ((selectFirst Prod.fst ((df'.filter p).map fun r => (r.user, r.item)) []).map Prod.fst,
       (selectFirst Prod.fst ((df'.filter p).map fun r => (r.user, r.item)) []).map Prod.snd)) := by
  refine ⟨fun r => !(decide (mapGetPad m.user r.user = PAD)) && !(decide (mapGetPad m.item r.item = PAD)), fun df' => ?_⟩
  unfold getUsersToRecommendTestItems getKnownUiDfMask
  simp only [maskSelect_map, getIndsVals, maskFirst_eq_rec, maskSelect_firstMaskRec]

theorem zip_unzip_map (l : List (ℤ × ℤ)) : (l.map Prod.fst).zip (l.map Prod.snd) = l := by
  induction l with
  | nil => rfl
  | cons a l ih => simp [ih]

/-- The same pairs of test user and test item are selected, possibly in another order. -/
theorem selection_perm {a b : List (Row K)} (h : SameLogs a b) (m : Mappings) :
    ((getUsersToRecommendTestItems a m).1.zip (getUsersToRecommendTestItems a m).2).Perm
      ((getUsersToRecommendTestItems b m).1.zip (getUsersToRecommendTestItems b m).2) := by
  obtain ⟨p, hp⟩ := selection_eq a m
  rw [hp a, hp b]
  simp only [zip_unzip_map]
  have hnd : ∀ l : List (ℤ × ℤ), (selectFirst Prod.fst l []).Nodup := fun l => by
    refine List.Nodup.of_map Prod.fst ?_
    rw [selectFirst_keys]
    exact (nodup_pdUnique _).filter _
  rw [List.perm_ext_iff_of_nodup (hnd _) (hnd _)]
  -- an element is selected iff it comes first among the rows of its user
  have key : ∀ (l : List (Row K)) (u i : ℤ),
      (u, i) ∈ selectFirst Prod.fst ((l.filter p).map fun r => (r.user, r.item)) [] ↔
        ∃ r, ((l.filter fun r => decide (r.user = u)).filter p).head? = some r ∧ r.item = i := by
    intro l u i
    rw [mem_selectFirst]
    simp only [List.not_mem_nil, not_false_eq_true, true_and]
    have e : (l.filter fun r => decide (r.user = u)).filter p = (l.filter p).filter fun r => decide (r.user = u) := by
      rw [List.filter_filter, List.filter_filter]
      exact List.filter_congr fun r _ => Bool.and_comm _ _
    rw [e]
    generalize l.filter p = k
    induction k with
    | nil => simp
    | cons x k ih =>
      by_cases hx : x.user = u
      · rw [List.filter_cons_of_pos (by simpa using hx)]
        simp only [List.map_cons, List.head?_cons, Option.some.injEq, exists_eq_left']
        constructor
        · rintro ⟨pre, post, h1, h2⟩
          cases pre with
          | nil => rw [List.nil_append, List.cons.injEq, Prod.mk.injEq] at h1; exact h1.1.2
          | cons y pre =>
            rw [List.cons_append, List.cons.injEq] at h1
            exact absurd (by rw [← h1.1]; exact hx) (h2 y (by simp))
        · intro hi
          exact ⟨[], k.map fun r => (r.user, r.item), by simp [hx, hi], by simp⟩
      · rw [List.filter_cons_of_neg (by simpa using hx)]
        refine Iff.trans ?_ ih
        simp only [List.map_cons]
        constructor
        · rintro ⟨pre, post, h1, h2⟩
          cases pre with
          | nil => rw [List.nil_append, List.cons.injEq, Prod.mk.injEq] at h1; exact absurd h1.1.1 hx
          | cons y pre =>
            rw [List.cons_append, List.cons.injEq] at h1
            exact ⟨pre, post, h1.2, fun z hz => h2 z (List.mem_cons_of_mem _ hz)⟩
        · rintro ⟨pre, post, h1, h2⟩
          refine ⟨(x.user, x.item) :: pre, post, by rw [h1, List.cons_append], fun z hz => ?_⟩
          rcases List.mem_cons.1 hz with rfl | hz
          · exact hx
          · exact h2 z hz
  rintro ⟨u, i⟩
  rw [key, key, h u]

variable [IsStrictOrderedRing K]

/-- The metrics of permuted pairs. -/
theorem metrics_perm {us us' ts ts' : List ℤ} (h1 : us.length = ts.length) (h2 : us'.length = ts'.length)
    (h : (us.zip ts).Perm (us'.zip ts')) (g : ℤ → List ℤ) :
    (hr (us.map g) ts : PyM K) = hr (us'.map g) ts' ∧ (mrr (us.map g) ts : PyM K) = mrr (us'.map g) ts' := by
  have hl : ts.length = ts'.length := by
    have := h.length_eq
    rw [List.length_zip, List.length_zip] at this
    omega
  by_cases hne : ts = []
  · subst hne
    obtain rfl : ts' = [] := List.length_eq_zero_iff.1 hl.symm
    rw [(C12_no_test_users _).1, (C12_no_test_users _).1, (C12_no_test_users _).2, (C12_no_test_users _).2]
    exact ⟨rfl, rfl⟩
  have hne' : ts' ≠ [] := fun hc => hne (List.length_eq_zero_iff.1 (by rw [hl, hc]; rfl))
  have e : ∀ (f : List ℤ → ℤ → K) (us ts : List ℤ), ((ts.zip (us.map g)).map fun p => f p.2 p.1) =
      (us.zip ts).map fun p => f (g p.1) p.2 := by
    intro f us
    induction us with
    | nil => intro ts; cases ts <;> rfl
    | cons u us ih => intro ts; cases ts with
      | nil => rfl
      | cons t ts => simp [ih]
  have hm : ∀ f : List ℤ → ℤ → K, mean ((ts.zip (us.map g)).map fun p => f p.2 p.1) =
      mean ((ts'.zip (us'.map g)).map fun p => f p.2 p.1) := by
    intro f
    rw [e f, e f]
    unfold mean
    rw [(h.map _).sum_eq, (h.map _).length_eq]
  constructor
  · rw [(C12_hit_rate _ _ hne (by simpa using h1)).1, (C12_hit_rate _ _ hne' (by simpa using h2)).1, hm hit]
  · rw [C13_mrr _ _ hne (by simpa using h1), C13_mrr _ _ hne' (by simpa using h2), hm reciprocalRank]

omit [LinearOrder K] [IsStrictOrderedRing K] in
/-- The rows of the requested users are computed one by one. -/
theorem recommend_by_user (b : Bool) (argp : ArgPart K) (v : RecView) (sc : ℤ → PyM (List K)) (us : List ℤ) (k : ℕ)
    (filt internal : Bool) (res : List (List ℤ))
    (h : recommend b argp v (fun _ => sc) us k filt internal = .ok res) :
    ∃ g : ℤ → List ℤ, ∀ us', (∀ u ∈ us', u ∈ us) →
      recommend b argp v (fun _ => sc) us' k filt internal = .ok (us'.map g) := by
  obtain ⟨p, hp⟩ := recommend_ok_pref b argp v _ us k filt internal res h
  obtain ⟨hl, hrows⟩ := recommend_rows b argp v _ us k filt internal p hp res h
  have hex : ∀ u, ∃ row, u ∈ us → ∃ a, v.maps.user.old2new.get? u = some a ∧
      (sc a >>= fun rec => recommendRow argp v p rec (min k v.nItems) filt internal a) = .ok row := by
    intro u
    by_cases hu : u ∈ us
    · obtain ⟨i, hi, rfl⟩ := List.getElem_of_mem hu
      obtain ⟨a, ha⟩ := hrows i _ (res[i]'(by omega)) (List.getElem?_eq_getElem hi) (List.getElem?_eq_getElem (by omega))
      exact ⟨_, fun _ => ⟨a, ha⟩⟩
    · exact ⟨[], fun hc => absurd hc hu⟩
  choose g hg using hex
  refine ⟨g, fun us' hus => ?_⟩
  rw [recommend_eq b argp v _ us' k filt internal p hp]
  have hm : ∀ us' : List ℤ, (∀ u ∈ us', u ∈ us) → ∃ mapped, us'.mapM (fun u => v.maps.user.old2new.getItem u) = .ok mapped ∧
      ∀ n, (enumNat n mapped).mapM (fun iu : ℕ × ℤ => sc iu.2 >>= fun rec =>
        recommendRow argp v p rec (min k v.nItems) filt internal iu.2) = .ok (us'.map g) := by
    intro us'
    induction us' with
    | nil => intro _; exact ⟨[], rfl, fun n => rfl⟩
    | cons u us' ih =>
      intro hu
      obtain ⟨mapped, h1, h2⟩ := ih fun x hx => hu x (List.mem_cons_of_mem _ hx)
      obtain ⟨a, ha, hr⟩ := hg u (hu u (by simp))
      refine ⟨a :: mapped, ?_, fun n => ?_⟩
      · rw [List.mapM_cons, (getItem_ok_iff _ _ _).2 ha, except_bind_ok, h1]; rfl
      · rw [enumNat, List.mapM_cons, hr, except_bind_ok, h2 (n + 1)]; rfl
  obtain ⟨mapped, h1, h2⟩ := hm us' hus
  rw [h1, except_bind_ok]
  exact h2 0

/-! ### The experiment -/

/-- A model for which only the rows of each user, in their order, matter. -/
structure UserWise {σ F : Type} (M : RecModel K σ F) : Prop where
  update : ∀ s a b, SameLogs a b → M.update s (.plain a) = M.update s (.plain b)
  updateRe : ∀ s a b f mp, SameLogs a b → M.updateRe s (.plain a) f mp = M.updateRe s (.plain b) f mp
  recommend : ∀ s us k i r, M.recommend s us k i = .ok r → ∃ g : ℤ → List ℤ, ∀ us', (∀ u ∈ us', u ∈ us) →
    M.recommend s us' k i = .ok (us'.map g, s)

theorem scoreStep_logs {σ F : Type} {M : RecModel K σ F} (hM : UserWise M) (cfg : ExpCfg K) {a b : List (Row K)}
    (h : SameLogs a b) (st st' : ExpState K σ) (hs : scoreStep M cfg a st = .ok st') : scoreStep M cfg b st = .ok st' := by
  unfold scoreStep at hs ⊢
  obtain ⟨r, h1, hs⟩ := (bind_ok_iff _ _ _).1 hs
  obtain ⟨g, hg⟩ := hM.recommend _ _ _ _ _ h1
  have hp := selection_perm h (M.maps st.model)
  obtain ⟨p, hsel⟩ := selection_eq a (M.maps st.model)
  have l1 : (getUsersToRecommendTestItems a (M.maps st.model)).1.length =
      (getUsersToRecommendTestItems a (M.maps st.model)).2.length := by rw [hsel a]; simp
  have l2 : (getUsersToRecommendTestItems b (M.maps st.model)).1.length =
      (getUsersToRecommendTestItems b (M.maps st.model)).2.length := by rw [hsel b]; simp
  have hus : ((getUsersToRecommendTestItems b (M.maps st.model)).1).Perm
      (getUsersToRecommendTestItems a (M.maps st.model)).1 := by
    have := hp.map Prod.fst
    rw [List.map_fst_zip l1.le, List.map_fst_zip l2.le] at this
    exact this.symm
  rw [hg _ fun u hu => hu] at h1
  cases h1
  show (M.recommend st.model (getUsersToRecommendTestItems b (M.maps st.model)).1 cfg.kRecs false >>= _) = _
  rw [hg _ fun u hu => hus.mem_iff.1 hu, except_bind_ok]
  obtain ⟨e1, e2⟩ := metrics_perm (K := K) l1 l2 hp g
  simp only at hs ⊢
  rw [← e1, ← e2]
  exact hs

theorem concatStep_logs (cfg : ExpCfg K) (hc : cfg.chunkMode = true ∨ cfg.threeD = true) (conc : Tab K)
    {a b : List (Row K)} (h : SameLogs a b) : concatStep cfg conc a = concatStep cfg conc b := by
  unfold concatStep
  by_cases h1 : cfg.chunkMode = true
  · rw [if_pos h1, if_pos h1]
  · have h2 : cfg.threeD = true := hc.resolve_left h1
    rw [if_neg h1, if_neg h1, if_pos h2, if_pos h2, C157_crop (((SameLogs.refl conc.rows).append h).timed)]

theorem updateStep_logs {σ F : Type} {M : RecModel K σ F} (hM : UserWise M) (cfg : ExpCfg K) (s : σ) (conc : Tab K)
    {a b : List (Row K)} (h : SameLogs a b) : updateStep M cfg s conc a = updateStep M cfg s conc b := by
  unfold updateStep
  by_cases h1 : cfg.chunkMode = true
  · simp only [h1, if_true]
    rw [hM.update s a b h, hM.updateRe s a b _ _ h]
  · simp only [h1, Bool.false_eq_true, if_false]

theorem expStep_logs {σ F : Type} {M : RecModel K σ F} (hM : UserWise M) (cfg : ExpCfg K)
    (hc : cfg.chunkMode = true ∨ cfg.threeD = true) (i : ℕ) {a b : List (Row K)} (h : SameLogs a b)
    (st st' : ExpState K σ) (hs : expStep M cfg i a st = .ok st') : expStep M cfg i b st = .ok st' := by
  unfold expStep at hs ⊢
  obtain ⟨s1, h1, hs⟩ := (bind_ok_iff _ _ _).1 hs
  rw [scoreStep_logs hM cfg h st s1 h1, except_bind_ok]
  simp only [concatStep_logs cfg hc _ h, updateStep_logs hM cfg _ _ h] at hs
  exact hs

theorem expLoop_logs {σ F : Type} {M : RecModel K σ F} (hM : UserWise M) (cfg : ExpCfg K)
    (hc : cfg.chunkMode = true ∨ cfg.threeD = true) {as bs : List (List (Row K))} (h : List.Forall₂ SameLogs as bs)
    (i : ℕ) (st st' : ExpState K σ) (hs : expLoop M cfg i as st = .ok st') : expLoop M cfg i bs st = .ok st' := by
  induction h generalizing i st with
  | nil => exact hs
  | cons hab _ ih =>
    unfold expLoop at hs ⊢
    obtain ⟨s1, h1, hs⟩ := (bind_ok_iff _ _ _).1 hs
    rw [expStep_logs hM cfg hc i hab st s1 h1, except_bind_ok]
    split at hs
    · rename_i hi
      rw [if_pos hi]; exact hs
    · rename_i hi
      rw [if_neg hi]; exact ih _ _ hs

/-- **C157, experiment.** If every user has the same rows in the same order in each pair of chunks, a completed
experiment on the first stream completes on the second with the same final model and the same recorded series. -/
theorem C157_experiment {σ F : Type} {M : RecModel K σ F} (hM : UserWise M) (cfg : ExpCfg K)
    (hc : cfg.chunkMode = true ∨ cfg.threeD = true) (s0 : σ) (initial : Tab K) {as bs : List (List (Row K))}
    (h : List.Forall₂ SameLogs as bs) (st : ExpState K σ) (hs : dynamicalExperiment M cfg s0 initial as = .ok st) :
    dynamicalExperiment M cfg s0 initial bs = .ok st := by
  unfold dynamicalExperiment at hs ⊢
  obtain ⟨s1, h1, hs⟩ := (bind_ok_iff _ _ _).1 hs
  rw [h1, except_bind_ok]
  exact expLoop_logs hM cfg hc h 1 s1 st hs

theorem td_recommend_by_user (argp : ArgPart K) (c : TDCfg K) (m : TDAtt K) (s : Option (TDState K)) (us : List ℤ) (k : ℕ)
    (i : Bool) (r : List (List ℤ) × Option (TDState K)) (h : (tdClass argp c m).recommend s us k i = .ok r) :
    ∃ g : ℤ → List ℤ, ∀ us', (∀ u ∈ us', u ∈ us) → (tdClass argp c m).recommend s us' k i = .ok (us'.map g, s) := by
  cases s with
  | none => cases h
  | some st =>
    obtain ⟨res, h1, -⟩ := (bind_ok_iff _ _ _).1 h
    obtain ⟨g, hg⟩ := recommend_by_user false argp st.view _ us k true i res h1
    refine ⟨g, fun us' hu => ?_⟩
    show (tdRecommend argp st us' k true i >>= fun r => pure (r, some st)) = _
    have := hg us' hu
    unfold tdRecommend
    rw [this]
    rfl

theorem td_userWise (argp : ArgPart K) (c : TDCfg K) (m : TDAtt K) : UserWise (useTrain (tdClass argp c m)) :=
  ⟨fun _ _ _ _ => rfl, fun _ _ _ _ _ _ => rfl, td_recommend_by_user argp c m⟩

theorem tdRe_userWise (argp : ArgPart K) (c : TDCfg K) (m : TDAtt K) : UserWise (useTrain (tdReClass argp c m)) :=
  ⟨fun _ _ _ _ => rfl, fun _ _ _ _ _ _ => rfl, td_recommend_by_user argp c m⟩

theorem ti_userWise (rounds : TIRounds K) (argp : ArgPart K) (c : TICfg K) (m : TDAtt K) :
    UserWise (tiClass rounds argp c m) := by
  refine ⟨fun s a b h => ?_, fun _ _ _ _ _ _ => rfl, td_recommend_by_user argp c.td m⟩
  cases s with
  | none => rfl
  | some st =>
    show (tiUpdate rounds c m st a true >>= _) = (tiUpdate rounds c m st b true >>= _)
    rw [C157_update rounds c m st h.timed]

/-! ### The scripts -/

omit [Field K] [LinearOrder K] [IsStrictOrderedRing K] in
theorem SameLogs.filter {a b : List (Row K)} (h : SameLogs a b) (p : Row K → Bool) :
    SameLogs (a.filter p) (b.filter p) := fun u => by
  have e : ∀ l : List (Row K), (l.filter p).filter (fun r => decide (r.user = u)) =
      (l.filter fun r => decide (r.user = u)).filter p := fun l => by
    rw [List.filter_filter, List.filter_filter]
    exact List.filter_congr fun r _ => Bool.and_comm _ _
  rw [e, e, h u]

theorem sorted_unique_congr {l l' : List ℤ} (h : ∀ x, x ∈ l ↔ x ∈ l') :
    stableSort (fun a b => decide (a ≤ b)) (pdUnique l) = stableSort (fun a b => decide (a ≤ b)) (pdUnique l') := by
  have hs : ∀ l : List ℤ, (stableSort (fun a b : ℤ => decide (a ≤ b)) (pdUnique l)).Pairwise (· < ·) := fun l => by
    have h1 := stableSort_sorted (le := fun a b : ℤ => decide (a ≤ b))
      (by intro a b c; simp only [decide_eq_true_eq]; omega)
      (by intro a b; simp only [decide_eq_true_eq]; omega) (pdUnique l)
    have h2 : (stableSort (fun a b : ℤ => decide (a ≤ b)) (pdUnique l)).Nodup :=
      (stableSort_perm _ _).nodup_iff.2 (nodup_pdUnique _)
    refine (h1.and h2).imp ?_
    rintro a b ⟨h, hne⟩
    exact lt_of_le_of_ne (by simpa using h) hne
  exact strictly_sorted_unique _ _ (hs l) (hs l') fun x => by
    rw [mem_stableSort, mem_stableSort, mem_pdUnique, mem_pdUnique, h x]

omit [Field K] [LinearOrder K] [IsStrictOrderedRing K] in
theorem groupDays_logs {a b : List (Row K)} (h : SameLogs a b) : groupDays a = groupDays b :=
  sorted_unique_congr fun x => by simp only [List.mem_map, h.timed.mem]

omit [Field K] [LinearOrder K] [IsStrictOrderedRing K] in
theorem groupByDay_logs {a b : List (Row K)} (h : SameLogs a b) :
    List.Forall₂ SameLogs ((groupByDay a).map Prod.snd) ((groupByDay b).map Prod.snd) := by
  unfold groupByDay
  rw [groupDays_logs h, List.map_map, List.map_map, List.forall₂_map_left_iff, List.forall₂_map_right_iff]
  exact List.forall₂_same.2 fun d _ => h.filter _

omit [Field K] [LinearOrder K] [IsStrictOrderedRing K] in
theorem usersStability_logs (sortCnt : List (ℤ × ℕ) → List (ℤ × ℕ)) (t : List (Row K)) {a b : List (Row K)}
    (h : SameLogs a b) (hm : ℤ) : getUsersStability sortCnt t a hm = getUsersStability sortCnt t b hm := by
  unfold getUsersStability
  simp only [groupDays_logs h]
  have hs := h.filter fun r => decide (r.day ∈ sliceTo (groupDays b) hm) && decide (r.user ∈ pdUnique (t.map Row.user))
  generalize (a.filter fun r => decide (r.day ∈ sliceTo (groupDays b) hm) &&
    decide (r.user ∈ pdUnique (t.map Row.user))) = x at hs ⊢
  generalize (b.filter fun r => decide (r.day ∈ sliceTo (groupDays b) hm) &&
    decide (r.user ∈ pdUnique (t.map Row.user))) = y at hs ⊢
  rw [sorted_unique_congr (l := x.map Row.user) (l' := y.map Row.user)
    fun z => by simp only [List.mem_map, hs.timed.mem]]
  simp only [hs _]

omit [IsStrictOrderedRing K] in
theorem prepare_stream [FloorRing K] {sortDay : List (Row K) → List (Row K)} {data : List (IRow K)} {ratio : K}
    {hm : Option ℤ} {d : List (Row K) × List (ℤ × List (Row K)) × List (Row K)}
    (h : prepareDataForExperiment sortDay data ratio hm = .ok d) : d.2.1 = groupByDay d.2.2 := by
  unfold prepareDataForExperiment at h
  cases hm with
  | none => cases h; rfl
  | some m =>
    obtain ⟨x, -, h⟩ := (bind_ok_iff _ _ _).1 h
    cases h
    rfl

/-- **C157, script.** The experiment with a sequence model on two prepared files: if every user has the same rows at every
time in the two initial tables, and the same rows in the same order in the remaining tables, a completed run on the first
file completes on the second with the same result. The two runs may sort the days differently. -/
theorem C157_script [FloorRing K] (env : RunEnv K) (sortDay' : List (Row K) → List (Row K)) (cfg : RunCfg K) (name : String)
    (hn : name ∈ ["TDRec", "TDRecReinit", "TIRec", "TIRecA"]) (data data' : List (IRow K))
    (d d' : List (Row K) × List (ℤ × List (Row K)) × List (Row K))
    (hd : prepareDataForExperiment env.sortDay data cfg.initRatio cfg.hmMin = .ok d)
    (hd' : prepareDataForExperiment sortDay' data' cfg.initRatio cfg.hmMin = .ok d')
    (h1 : SameTimedLogs d.1 d'.1) (h2 : SameLogs d.2.2 d'.2.2) (res : Dynamics K)
    (hr : fullDynamicalExperiment env cfg name "3d" data = .ok res) :
    fullDynamicalExperiment { env with sortDay := sortDay' } cfg name "3d" data' = .ok res := by
  have s1 := prepare_stream hd
  have s2 := prepare_stream hd'
  unfold fullDynamicalExperiment at hr ⊢
  rw [hd, except_bind_ok] at hr
  show (prepareDataForExperiment sortDay' data' cfg.initRatio cfg.hmMin >>= _) = _
  rw [hd', except_bind_ok]
  have ht : initialTable "3d" cfg.maxLen d'.1 = initialTable "3d" cfg.maxLen d.1 := by
    unfold initialTable
    rw [if_pos rfl, if_pos rfl, C157_crop h1]
  rw [ht]
  obtain ⟨t, h3, hr⟩ := (bind_ok_iff _ _ _).1 hr
  rw [h3, except_bind_ok]
  obtain ⟨p, h4, hr⟩ := (bind_ok_iff _ _ _).1 hr
  have h4' : prepareModel { env with sortDay := sortDay' } cfg name = .ok p := h4
  rw [h4', except_bind_ok]
  have hst : List.Forall₂ SameLogs (d.2.1.map Prod.snd) (d'.2.1.map Prod.snd) := by
    rw [s1, s2]; exact groupByDay_logs h2
  show runPrepared { env with sortDay := sortDay' } (expCfgOf env cfg p
    (getUsersStability env.sortCnt t.rows d'.2.2 cfg.howMany)) p t (d'.2.1.map Prod.snd) = _
  rw [← usersStability_logs env.sortCnt t.rows h2 cfg.howMany]
  generalize getUsersStability env.sortCnt t.rows d.2.2 cfg.howMany = users at hr ⊢
  have key : ∀ {σ F : Type} {M : RecModel K σ F} {s0 : σ} {e : ExpCfg K}, UserWise M →
      (e.chunkMode = true ∨ e.threeD = true) → runWith M e s0 t (d.2.1.map Prod.snd) = .ok res →
      runWith M e s0 t (d'.2.1.map Prod.snd) = .ok res := by
    intro σ F M s0 e hM hc h
    obtain ⟨st, h5, h6⟩ := (bind_ok_iff _ _ _).1 h
    unfold runWith
    rw [C157_experiment hM e hc s0 t hst st h5]
    exact h6
  simp only [List.mem_cons, List.not_mem_nil, or_false] at hn
  rcases hn with rfl | rfl | rfl | rfl
  · obtain ⟨c, -, h4⟩ := (bind_ok_iff _ _ _).1 (show prepareTd env cfg = .ok p from h4)
    obtain ⟨m, -, h4⟩ := (bind_ok_iff _ _ _).1 h4
    cases h4
    exact key (td_userWise env.argp c m) (.inr rfl) hr
  · obtain ⟨c, -, h4⟩ := (bind_ok_iff _ _ _).1 (show prepareTdRe env cfg = .ok p from h4)
    obtain ⟨m, -, h4⟩ := (bind_ok_iff _ _ _).1 h4
    cases h4
    exact key (tdRe_userWise env.argp c m) (.inr rfl) hr
  · obtain ⟨c, -, h4⟩ := (bind_ok_iff _ _ _).1 (show prepareTi env cfg = .ok p from h4)
    obtain ⟨m, -, h4⟩ := (bind_ok_iff _ _ _).1 h4
    cases h4
    exact key (ti_userWise tirecRounds env.argp _ m) (.inl rfl) hr
  · obtain ⟨c, -, h4⟩ := (bind_ok_iff _ _ _).1 (show prepareTiA env cfg = .ok p from h4)
    obtain ⟨m, -, h4⟩ := (bind_ok_iff _ _ _).1 h4
    cases h4
    exact key (ti_userWise tirecaMiddle env.argp _ m) (.inl rfl) hr


/-! ### Examples -/

/-- `exRunData` with the initial rows of users 7 and 8 interleaved differently and the rows of day 1 swapped. -/
private def exMixedData : List (IRow ℚ) :=
  [⟨0, ⟨8, 41, 1, 1, 0⟩⟩, ⟨1, ⟨8, 43, 1, 3, 0⟩⟩, ⟨2, ⟨7, 40, 1, 0, 0⟩⟩, ⟨3, ⟨8, 42, 1, 2, 0⟩⟩,
   ⟨4, ⟨9, 41, 1, 5, 1⟩⟩, ⟨5, ⟨8, 43, 1, 4, 1⟩⟩, ⟨6, ⟨7, 43, 1, 6, 2⟩⟩]

/-- The two files give the same runs, whatever the numerical routines of the environment. -/
example (env : RunEnv ℚ) (cfg : RunCfg ℚ) (hs : env.sortDay = id) (h1 : cfg.initRatio = 4 / 7) (h2 : cfg.hmMin = none)
    (res : Dynamics ℚ) (hr : fullDynamicalExperiment env cfg "TIRec" "3d" exRunData = .ok res) :
    fullDynamicalExperiment { env with sortDay := id } cfg "TIRec" "3d" exMixedData = .ok res := by
  refine C157_script env id cfg "TIRec" (by decide) exRunData exMixedData
    ((exRunData.map IRow.row).take 4, groupByDay ((exRunData.map IRow.row).drop 4), (exRunData.map IRow.row).drop 4)
    ((exMixedData.map IRow.row).take 4, groupByDay ((exMixedData.map IRow.row).drop 4), (exMixedData.map IRow.row).drop 4)
    (by rw [hs, h1, h2]; decide +kernel) (by rw [h1, h2]; decide +kernel)
    (C157_perm (by decide +kernel) (by decide +kernel)) (fun u => ?_) res hr
  have e1 : (exRunData.map IRow.row).drop 4 = [⟨8, 43, 1, 4, 1⟩, ⟨9, 41, 1, 5, 1⟩, ⟨7, 43, 1, 6, 2⟩] := rfl
  have e2 : (exMixedData.map IRow.row).drop 4 = [⟨9, 41, 1, 5, 1⟩, ⟨8, 43, 1, 4, 1⟩, ⟨7, 43, 1, 6, 2⟩] := rfl
  simp only [e1, e2, List.filter_cons, List.filter_nil]
  by_cases h8 : (8 : ℤ) = u <;> by_cases h9 : (9 : ℤ) = u <;> simp [h8, h9]
  omega

/-- Two rows of one user at the same time: their order decides what is kept. -/
example : getDfWithCroppedPos ([⟨1, 7, 1, 5, 0⟩, ⟨1, 8, 1, 5, 0⟩] : List (Row ℚ)) 1 true ≠
    getDfWithCroppedPos [⟨1, 8, 1, 5, 0⟩, ⟨1, 7, 1, 5, 0⟩] 1 true := by decide +kernel

/-- … and nothing is lost by interleaving the users differently. -/
example : getDfWithCroppedPos ([⟨1, 7, 1, 5, 0⟩, ⟨2, 8, 1, 5, 0⟩, ⟨1, 8, 1, 4, 0⟩] : List (Row ℚ)) 2 true =
    getDfWithCroppedPos [⟨2, 8, 1, 5, 0⟩, ⟨1, 8, 1, 4, 0⟩, ⟨1, 7, 1, 5, 0⟩] 2 true := by decide +kernel

end DynCF
