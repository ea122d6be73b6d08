/- Properties C119 and C120: repeated interactions in the experiment script. -/
import Verif.Props.FullExperiment3
import Verif.Props.Evaluation
import Verif.Props.Mapping
import Verif.Props.PsiClass

set_option linter.unusedSectionVars false

namespace DynCF
variable {K : Type}

/-! ### Specification -/

/-- Both ids of `r` occur in earlier rows. -/
def KnownFrom (before : List (Row K)) (r : Row K) : Prop :=
  (∃ t ∈ before, t.user = r.user) ∧ ∃ t ∈ before, t.item = r.item

instance (before : List (Row K)) (r : Row K) : Decidable (KnownFrom before r) := by
  unfold KnownFrom
  infer_instance

/-- The scored pairs of a chunk: every user having a row with both ids known, once, in the order of the
first such row, with the item of that row. -/
structure Scored (before chunk : List (Row K)) (S : List (ℤ × ℤ)) : Prop where
  users : FirstAppearance ((chunk.filter fun r => decide (KnownFrom before r)).map Row.user) (S.map Prod.fst)
  items : ∀ u x, (u, x) ∈ S ↔ ∃ pre r post, chunk = pre ++ r :: post ∧ KnownFrom before r ∧ r.user = u ∧
    r.item = x ∧ ∀ r' ∈ pre, KnownFrom before r' → r'.user ≠ u

/-- The pair already occurs in an earlier row. -/
def IsRepeat (before : List (Row K)) (p : ℤ × ℤ) : Prop := ∃ t ∈ before, t.user = p.1 ∧ t.item = p.2

instance (before : List (Row K)) (p : ℤ × ℤ) : Decidable (IsRepeat before p) := by
  unfold IsRepeat
  infer_instance

/-- How many of the scored pairs are new. -/
def novel (before : List (Row K)) (S : List (ℤ × ℤ)) : ℕ := S.countP fun p => decide (¬ IsRepeat before p)

/-! ### Proof -/

variable [Field K] [LinearOrder K] [IsStrictOrderedRing K]

theorem zip_getElem?_iff {α β : Type} {a : List α} {b : List β} {p : α × β} (h : p ∈ a.zip b) :
    ∃ i : ℕ, a[i]? = some p.1 ∧ b[i]? = some p.2 := by
  obtain ⟨i, hi⟩ := List.mem_iff_getElem?.1 h
  rw [List.getElem?_zip_eq_some] at hi
  exact ⟨i, hi⟩

/-- If a repeated pair is never a hit then the hits are among the new pairs. -/
theorem hits_le_novel {recs : List (List ℤ)} {us xs : List ℤ} {before : List (Row K)} {h : K}
    (hx : us.length = xs.length) (hl : recs.length = us.length)
    (hno : ∀ (i : ℕ) (u x : ℤ) (row : List ℤ), us[i]? = some u → xs[i]? = some x → recs[i]? = some row →
      IsRepeat before (u, x) → x ∉ row)
    (hh : hr recs xs = .ok h) :
    us.zip xs ≠ [] ∧ h * ((us.zip xs).length : K) ≤ (novel before (us.zip xs) : K) := by
  have hne : xs ≠ [] := by
    rintro rfl
    rw [(C12_no_test_users recs).1] at hh
    cases hh
  have hpos := List.length_pos_of_ne_nil hne
  have hlen : (us.zip xs).length = xs.length := by rw [List.length_zip]; omega
  refine ⟨by intro e; rw [e] at hlen; simp at hlen; omega, ?_⟩
  rw [(C12_hit_rate recs xs hne (by omega)).2] at hh
  have hh := Except.ok.inj hh
  subst hh
  rw [hlen, div_mul_cancel₀ _ (by positivity)]
  have key : ∀ (us xs : List ℤ) (recs : List (List ℤ)), us.length = xs.length → recs.length = us.length →
      (∀ (i : ℕ) (u x : ℤ) (row : List ℤ), us[i]? = some u → xs[i]? = some x → recs[i]? = some row →
        IsRepeat before (u, x) → x ∉ row) →
      (xs.zip recs).countP (fun p => decide (p.1 ∈ p.2)) ≤ novel before (us.zip xs) := by
    intro us
    induction us with
    | nil =>
      intro xs recs h1 h2 _
      obtain rfl := List.length_eq_zero_iff.1 h1.symm
      simp
    | cons u us ih =>
      intro xs recs h1 h2 h3
      cases xs with
      | nil => simp at h1
      | cons x xs =>
        cases recs with
        | nil => simp at h2
        | cons row recs =>
          have h4 := ih xs recs (by simpa using h1) (by simpa using h2) fun i u' x' row' a b c =>
            h3 (i + 1) u' x' row' (by simpa using a) (by simpa using b) (by simpa using c)
          have h5 := h3 0 u x row rfl rfl rfl
          unfold novel at h4 ⊢
          simp only [List.zip_cons_cons, List.countP_cons]
          by_cases hr : IsRepeat before (u, x)
          · simp only [h5 hr, decide_false, hr, not_true_eq_false, Bool.false_eq_true, if_false]
            omega
          · simp only [hr, not_false_eq_true, decide_true, if_true]
            split <;> omega
  exact_mod_cast key us xs recs hx hl hno

theorem scored_intro {before chunk : List (Row K)} {m : Mappings} {us is : List ℤ}
    (hU : Represents m.user us) (hI : Represents m.item is)
    (hu : ∀ x, x ∈ us ↔ ∃ t ∈ before, t.user = x) (hi : ∀ x, x ∈ is ↔ ∃ t ∈ before, t.item = x) :
    Scored before chunk ((getUsersToRecommendTestItems chunk m).1.zip (getUsersToRecommendTestItems chunk m).2) ∧
    (getUsersToRecommendTestItems chunk m).1.length = (getUsersToRecommendTestItems chunk m).2.length := by
  obtain ⟨known, rfl, h1, h2, h3⟩ := C04_evaluation_selection chunk m us is hU hI
  have hk : ∀ r : Row K, KnownRow us is r ↔ KnownFrom before r := fun r => by
    unfold KnownRow KnownFrom
    rw [hu, hi]
  refine ⟨⟨?_, ?_⟩, h2⟩
  · rw [List.map_fst_zip (by omega)]
    have : (fun r : Row K => decide (r.user ∈ us ∧ r.item ∈ is)) = fun r => decide (KnownFrom before r) := by
      funext r
      exact decide_eq_decide.2 (hk r)
    rw [← this]
    exact h1
  · intro u x
    rw [h3 u x]
    simp only [hk]

/-- A successful filtered recommendation never shows a recorded item, whatever the scores and the partial
sort. -/
theorem filtered_rows {b : Bool} {argp : ArgPart K} {v : RecView} {score : ℕ → ℤ → PyM (List K)}
    {us : List ℤ} {k : ℕ} {res : List (List ℤ)} {users items : List ℤ}
    (hU : Represents v.maps.user users) (hI : Represents v.maps.item items)
    (h : recommend b argp v score us k true false = .ok res) :
    res.length = us.length ∧ ∀ (i : ℕ) (u : ℤ) (row : List ℤ), us[i]? = some u → res[i]? = some row →
      ∀ x ∈ row, ∃ a j : ℕ, users[a]? = some u ∧ items[j]? = some x ∧ ((a : ℤ), (j : ℤ)) ∉ v.history := by
  have hp : ∃ p, getPref v true = .ok p ∧ p = fun u i => v.history.countP fun q => decide (q = (u, i)) := by
    cases hc : historyCsr v with
    | ok p =>
      refine ⟨p, hc, ?_⟩
      unfold historyCsr at hc
      split at hc
      · exact (Except.ok.inj hc).symm
      · cases hc
    | error e =>
      exfalso
      unfold recommend at h
      cases b
      · simp only [Bool.false_eq_true, if_false, if_true, hc, except_bind_error] at h
        cases h
      · cases hm : us.mapM fun u => v.maps.user.old2new.getItem u with
        | error e => simp only [if_true, hm, except_bind_error] at h; cases h
        | ok m => simp only [if_true, hm, hc, except_bind_ok, except_bind_error] at h; cases h
  obtain ⟨p, hp, rfl⟩ := hp
  obtain ⟨hl, hrows⟩ := recommend_rows b argp v score us k true false _ hp res h
  refine ⟨hl, ?_⟩
  intro i u row hu hrow x hx
  obtain ⟨a', ha', hr⟩ := hrows i u row hu hrow
  obtain ⟨a, rfl, hua⟩ := (hU.old2new u a').1 ha'
  obtain ⟨rec, -, hr⟩ := (bind_ok_iff _ _ _).1 hr
  unfold recommendRow at hr
  split at hr
  · unfold singleItemRow at hr
    split at hr
    · cases hr
    obtain ⟨mask, -, hr⟩ := (bind_ok_iff _ _ _).1 hr
    simp only [Bool.false_eq_true, if_false] at hr
    split at hr
    · cases hr
    · split at hr
      · cases hr
        cases hx
      · cases hr
  split at hr
  · unfold zeroRow at hr
    obtain ⟨cand, -, hr⟩ := (bind_ok_iff _ _ _).1 hr
    obtain ⟨row', -, hr⟩ := (bind_ok_iff _ _ _).1 hr
    split at hr
    · cases hr
      cases hx
    · cases hr
  obtain ⟨cand, hcand, hr⟩ := (bind_ok_iff _ _ _).1 hr
  rw [if_neg (by simp), mapM_ok_iff] at hr
  obtain ⟨c, hc, hcx⟩ := forall₂_mem_right hr hx
  obtain ⟨j, rfl, hj⟩ := (hI.new2old c x).1 ((getItem_ok_iff _ _ _).1 hcx)
  refine ⟨a, j, hua, hj, ?_⟩
  unfold candidateItems at hcand
  rw [if_pos rfl] at hcand
  obtain ⟨mask, hmask, hcand⟩ := (bind_ok_iff _ _ _).1 hcand
  unfold viewedMask at hmask
  split at hmask
  · have hmask := Except.ok.inj hmask
    subst hmask
    split at hcand
    · cases hcand
    obtain ⟨part, -, hcand⟩ := (bind_ok_iff _ _ _).1 hcand
    rw [mapM_ok_iff] at hcand
    obtain ⟨q, -, hq⟩ := forall₂_mem_right hcand hc
    unfold npIndex at hq
    rw [List.map_map, maskSelect_map_map] at hq
    split at hq
    · rename_i y hy
      have hq := Except.ok.inj hq
      subst hq
      obtain ⟨j', hj', e⟩ := List.mem_map.1 (List.mem_of_getElem? hy)
      have e : j' = j := by exact_mod_cast e
      subst e
      have := (List.mem_filter.1 hj').2
      simp only [Function.comp_apply, ne_eq, decide_not, Bool.not_not, decide_eq_true_eq,
        List.countP_eq_zero] at this
      intro hmem
      exact this _ hmem rfl
    · cases hq
  · cases hmask

/-- The ids of the rows `reg` are registered and the rows `hist` are in the history. -/
def Remembers (maps : Mappings) (history : List (ℤ × ℤ)) (reg hist : List (Row K)) : Prop :=
  ∃ us is, Represents maps.user us ∧ Represents maps.item is ∧ (∀ x, x ∈ us ↔ ∃ t ∈ reg, t.user = x) ∧
    (∀ x, x ∈ is ↔ ∃ t ∈ reg, t.item = x) ∧
    ∀ t ∈ hist, ∃ a b : ℕ, us[a]? = some t.user ∧ is[b]? = some t.item ∧ ((a : ℤ), (b : ℤ)) ∈ history

theorem step_novel {b : Bool} {argp : ArgPart K} {v : RecView} {score : ℕ → ℤ → PyM (List K)} {f : Face K}
    {reg hist : List (Row K)} (h : Remembers v.maps v.history reg hist) (hm : f.maps = v.maps)
    (hf : ∀ us k, f.recommend us k false = recommend b argp v score us k true false)
    {e : List ℤ} {k : ℕ} {c : List (Row K)} {snap : Snap K} (hs : Snapshot f e k c snap) :
    ∃ S, Scored reg c S ∧ S ≠ [] ∧ 0 ≤ snap.rr ∧ snap.rr ≤ snap.hit ∧
      snap.hit * (S.length : K) ≤ (novel hist S : K) := by
  obtain ⟨us, is, hU, hI, hu, hi, hh⟩ := h
  obtain ⟨recs, h1, h2, h3, -⟩ := hs
  rw [hm] at h1 h2 h3
  rw [hf] at h1
  obtain ⟨hs1, hs2⟩ := scored_intro (chunk := c) hU hI hu hi
  obtain ⟨hl, hrows⟩ := filtered_rows hU hI h1
  have hno : ∀ (i : ℕ) (u x : ℤ) (row : List ℤ), (getUsersToRecommendTestItems c v.maps).1[i]? = some u →
      (getUsersToRecommendTestItems c v.maps).2[i]? = some x → recs[i]? = some row →
      IsRepeat hist (u, x) → x ∉ row := by
    intro i u x row hu hx hrow ⟨t, ht, htu, hti⟩ hmem
    obtain ⟨a, j, ha, hj, hn⟩ := hrows i u row hu hrow x hmem
    obtain ⟨a', j', ha', hj', hn'⟩ := hh t ht
    simp only at htu hti
    rw [htu] at ha'
    rw [hti] at hj'
    have e1 : a = a' := getElem?_inj_nodup hU.nodup ha ha'
    have e2 : j = j' := getElem?_inj_nodup hI.nodup hj hj'
    subst e1
    subst e2
    exact hn hn'
  obtain ⟨hne, hle⟩ := hits_le_novel (before := hist) hs2 hl hno h2
  obtain ⟨b1, -, b2, -⟩ := C13_mrr_bounds recs _ (recs.map List.length).sum _ _ (by rw [hl]; exact hs2)
    (fun r hr => List.le_sum_of_mem (List.mem_map_of_mem hr)) h3 h2
  exact ⟨_, hs1, hne, b1, b2, hle⟩

/-- What the claim says of the lists recorded by a run: at every step the hit rate and the MRR are at most
the share of the pairs that are new with respect to the rows `hist`; `Kept` tells which rows are registered
and which are in the history when a chunk arrives. -/
def RepeatsMiss [FloorRing K] (env : RunEnv K) (cfg : RunCfg K) (data : List (IRow K))
    (Kept : List (Row K) → List (List (Row K)) → List (Row K) → List (Row K) → Prop) (d : Dynamics K) : Prop :=
  ∃ initial stream left chunks,
    prepareDataForExperiment env.sortDay data cfg.initRatio cfg.hmMin = .ok (initial, stream, left) ∧
    chunks = (stream.map Prod.snd).take (expSteps cfg.howMany stream.length) ∧
    d.hr.length = chunks.length ∧ d.mrr.length = chunks.length ∧
    ∀ (i : ℕ) (c : List (Row K)) (h m : K), chunks[i]? = some c → d.hr[i]? = some h → d.mrr[i]? = some m →
      ∃ reg hist S, Kept initial (chunks.take i) reg hist ∧ Scored reg c S ∧ S ≠ [] ∧ 0 ≤ m ∧ m ≤ h ∧
        h * (S.length : K) ≤ (novel hist S : K)

theorem repeatsMiss_intro [FloorRing K] {env : RunEnv K} {cfg : RunCfg K} {data : List (IRow K)}
    {At : List (Row K) → List (List (Row K)) → Face K → Prop} {d : Dynamics K}
    {Kept : List (Row K) → List (List (Row K)) → List (Row K) → List (Row K) → Prop}
    (h : ScriptRun env cfg data At d)
    (hstep : ∀ initial past f e c snap, At initial past f → Snapshot f e cfg.topk c snap →
      ∃ reg hist S, Kept initial past reg hist ∧ Scored reg c S ∧ S ≠ [] ∧ 0 ≤ snap.rr ∧
        snap.rr ≤ snap.hit ∧ snap.hit * (S.length : K) ≤ (novel hist S : K)) :
    RepeatsMiss env cfg data Kept d := by
  obtain ⟨initial, stream, left, chunks, e, snaps, h1, h2, -, h4, -, -, h5, h6, h7⟩ := h
  refine ⟨initial, stream, left, chunks, h1, h2, ?_, ?_, ?_⟩
  · rw [h6.hr, List.length_map, h5]
  · rw [h6.mrr, List.length_map, h5]
  · intro i c hv m hc hh hm
    rw [h6.hr, List.getElem?_map] at hh
    rw [h6.mrr, List.getElem?_map] at hm
    obtain ⟨snap, hs, rfl⟩ := Option.map_eq_some_iff.1 hh
    rw [hs] at hm
    have hm := Option.some.inj hm
    subst hm
    obtain ⟨f, hf, hsn⟩ := h7 i c snap hc hs
    rw [h4] at hsn
    exact hstep initial (chunks.take i) f e.testUsers c snap hf hsn

theorem psiInv_remembers {st : PSIState K} {us is : List ℤ} {r : ℕ} {seen : List (Row K)}
    (h : PsiInv st us is r seen) : Remembers st.view.maps st.view.history seen seen := by
  refine ⟨us, is, (psiView_ok h).user, (psiView_ok h).item, h.users, h.items, ?_⟩
  intro t ht
  obtain ⟨p, hp, a, b, rfl, ha, hb⟩ := forall₂_mem_left h.hist ht
  exact ⟨a, b, ha, hb, hp⟩

/-- All rows so far are registered and in the history. -/
def KeepsAll (initial : List (Row K)) (past : List (List (Row K))) (reg hist : List (Row K)) : Prop :=
  reg = initial ++ past.flatten ∧ hist = initial ++ past.flatten

/-- **C119.** In a completed run of the experiment script with `SVD` or `PSIRec` a scored pair that the
user already had in the initial part or in an earlier chunk is never a hit: at every step the hit rate, and
with it the MRR, is at most the share of the new pairs among the scored ones. Nothing is assumed about the
scores or the partial sort. -/
theorem C119_repeats_miss [FloorRing K] (env : RunEnv K) (hsort : ArgSortOk env.psi.argsort) (cfg : RunCfg K)
    (fs : FixedSvd) (ft : FixedTd) (name : String) (hn : name = "SVD" ∨ name = "PSIRec")
    (data : List (IRow K)) (d : Dynamics K) (h : runScript env cfg fs ft name data = .ok d) :
    RepeatsMiss env cfg data KeepsAll d := by
  rcases hn with rfl | rfl
  · obtain ⟨r, -, h⟩ := C93_svd env cfg fs ft data d h
    refine repeatsMiss_intro h ?_
    rintro initial past f e c snap ⟨st, hst, rfl⟩ hs
    obtain ⟨us, is, -, -, ⟨st', g1, g2, -⟩ | ⟨g1, -⟩⟩ :=
      C31_train env.psi ⟨r, fs.nPower, fs.os, none, false⟩ (initial ++ past.flatten)
    · rw [hst] at g1
      have g1 := Except.ok.inj g1
      subst g1
      obtain ⟨S, hS⟩ := step_novel (psiInv_remembers g2) rfl (b := true) (argp := env.argp)
        (score := fun _ u => psiScore st u) (fun _ _ => rfl) hs
      exact ⟨_, _, S, ⟨rfl, rfl⟩, hS⟩
    · rw [hst] at g1
      cases g1
  · obtain ⟨r, -, h⟩ := C93_psirec env cfg fs ft data d h
    refine repeatsMiss_intro h ?_
    rintro initial past f e c snap ⟨st, hst, rfl⟩ hs
    obtain ⟨us, is, g, -, -⟩ := C31_run env.psi hsort _ initial past st hst
    obtain ⟨S, hS⟩ := step_novel (psiInv_remembers g) rfl (b := true) (argp := env.argp)
        (score := fun _ u => psiScore st u) (fun _ _ => rfl) hs
    exact ⟨_, _, S, ⟨rfl, rfl⟩, hS⟩

/-! ### The sequence models -/

theorem mapped_remembers {maps : Mappings} {users items : List ℤ} {t t' : List (PRow K)} {reg : List (Row K)}
    (hU : Represents maps.user users) (hI : Represents maps.item items)
    (hu : ∀ x, x ∈ users ↔ ∃ r ∈ reg, r.user = x) (hi : ∀ x, x ∈ items ↔ ∃ r ∈ reg, r.item = x)
    (hm : MappedTo users items t t') :
    Remembers maps (t'.map fun p => (p.row.user, p.row.item)) reg (t.map PRow.row) := by
  refine ⟨users, items, hU, hI, hu, hi, ?_⟩
  intro r hr
  obtain ⟨p, hp, rfl⟩ := List.mem_map.1 hr
  obtain ⟨p', hp', -, -, ⟨a, ha, ha'⟩, ⟨b, hb, hb'⟩⟩ := forall₂_mem_left hm hp
  exact ⟨a, b, ha', hb', List.mem_map.2 ⟨p', hp', by rw [ha, hb]⟩⟩

theorem tdTrain_remembers {τ : Type} {c : TDCfg K} {m : TDAtt K} {cb : Option (ExitCallback K τ)} {cb0 : τ}
    {h0 : SeqHist} {t : List (PRow K)} {st : TDState K} (h : tdTrain c m cb cb0 h0 t = .ok st) :
    Remembers st.maps st.history (t.map PRow.row) (t.map PRow.row) := by
  obtain ⟨rows, mp, users, items, h1, h2, h3, h4, h5, h6⟩ := train_mapped t
  unfold tdTrain at h
  rw [h1, except_bind_ok] at h
  obtain ⟨_, _, _, _, _, _, -, -, -, -, hm, hh, -⟩ := tdFit_ok h
  rw [hm, hh]
  refine mapped_remembers h3 h5 ?_ ?_ h6
  · intro x; rw [h2.mem]; simp
  · intro x; rw [h4.mem]; simp

theorem firstAppearance_new {ids new l : List ℤ}
    (h : FirstAppearance (l.filter fun x => decide (x ∉ ids)) new) (x : ℤ) : x ∈ ids ++ new ↔ x ∈ ids ∨ x ∈ l := by
  rw [List.mem_append, h.mem, List.mem_filter]
  by_cases hx : x ∈ ids <;> simp [hx]

theorem tdReTrain_fresh_remembers {c : TDCfg K} {m : TDAtt K} {h0 : SeqHist} {t : List (PRow K)} {st : TDState K}
    (h : tdReTrain c m h0 t none none = .ok st) :
    Remembers st.maps st.history (t.map PRow.row) (t.map PRow.row) :=
  tdTrain_remembers (cb := (none : Option (ExitCallback K Unit))) (cb0 := ()) h

theorem tdReTrain_again_remembers {c : TDCfg K} {m : TDAtt K} {h0 : SeqHist} {t : List (PRow K)}
    {st : TDState K} {init : Fac K} {mp : Mappings} {history : List (ℤ × ℤ)} {reg hist : List (Row K)}
    (hr : Remembers mp history reg hist) (h : tdReTrain c m h0 t (some init) (some mp) = .ok st) :
    Remembers st.maps st.history (reg ++ t.map PRow.row) (t.map PRow.row) := by
  obtain ⟨us, is, hU, hI, hu, hi, -⟩ := hr
  obtain ⟨nu, ni, hnu, hni, gu, gi, rows, hrows⟩ := C29_ids_stable mp us is hU hI (t.map PRow.row)
  have hmap := retrain_mapped t _ (us ++ nu) (is ++ ni) gu gi rows hrows
  unfold tdReTrain at h
  simp only at h
  rw [hrows, except_bind_ok] at h
  obtain ⟨_, _, _, _, _, _, -, -, -, -, hm, hh, -⟩ := tdFit_ok h
  rw [hm, hh]
  refine mapped_remembers gu gi ?_ ?_ hmap
  · intro x
    rw [firstAppearance_new hnu, hu]
    simp [or_and_right, exists_or]
  · intro x
    rw [firstAppearance_new hni, hi]
    simp [or_and_right, exists_or]

/-- `TDRec` keeps the cropped table of all rows so far. -/
def KeepsLast (L : ℕ) (initial : List (Row K)) (past : List (List (Row K))) (reg hist : List (Row K)) : Prop :=
  ∃ t, IsCropped L (initial ++ past.flatten) t ∧ reg = t.map PRow.row ∧ hist = t.map PRow.row

/-- `TDRecReinit` has the cropped table of all rows so far in its history; the ids of all earlier tables stay
registered. -/
def KeepsIdsOfAll (L : ℕ) (initial : List (Row K)) (past : List (List (Row K))) (reg hist : List (Row K)) : Prop :=
  ∃ (ts : List (List (PRow K))) (t : List (PRow K)), ts.length = past.length ∧
    (∀ j t', (ts ++ [t])[j]? = some t' → IsCropped L (initial ++ (past.take j).flatten) t') ∧
    reg = (ts ++ [t]).flatten.map PRow.row ∧ hist = t.map PRow.row

/-- `TIRec` and `TIRecA` keep the cropped initial table and every chunk cropped on its own. -/
def KeepsCrops (L L' : ℕ) (initial : List (Row K)) (past : List (List (Row K))) (reg hist : List (Row K)) : Prop :=
  ∃ t crs, IsCropped L initial t ∧ List.Forall₂ (IsCropped L') past crs ∧
    reg = (t ++ crs.flatten).map PRow.row ∧ hist = (t ++ crs.flatten).map PRow.row

theorem retrained_td_keeps {L : ℕ} {c : TDCfg K} {m : TDAtt K} {initial : List (Row K)}
    {past : List (List (Row K))} {st : TDState K}
    (h : Retrained L (tdTrain c m (none : Option (ExitCallback K Unit)) () [])
      (fun s => tdTrain c m (none : Option (ExitCallback K Unit)) () s.seqHist) initial past st) :
    ∃ reg hist, KeepsLast L initial past reg hist ∧ Remembers st.maps st.history reg hist := by
  cases h with
  | @first t s h1 h2 =>
    exact ⟨_, _, ⟨t, by simpa using h1, rfl, rfl⟩, tdTrain_remembers h2⟩
  | @again past c t s s' _ h2 h3 =>
    exact ⟨_, _, ⟨t, by simpa [List.append_assoc] using h2, rfl, rfl⟩, tdTrain_remembers h3⟩

theorem retrained_re_keeps {L : ℕ} {c : TDCfg K} {m : TDAtt K} {initial : List (Row K)}
    {past : List (List (Row K))} {st : TDState K}
    (h : Retrained L (fun t => tdReTrain c m [] t none none)
      (fun s t => tdReTrain c m s.seqHist t (some ⟨s.u, s.v, s.w⟩) (some s.maps)) initial past st) :
    ∃ reg hist, KeepsIdsOfAll L initial past reg hist ∧ Remembers st.maps st.history reg hist := by
  induction h with
  | @first t s h1 h2 =>
    refine ⟨_, _, ⟨[], t, rfl, ?_, rfl, rfl⟩, by simpa using tdReTrain_fresh_remembers h2⟩
    intro j t' hj
    have hj0 : j = 0 := by
      have := (List.getElem?_eq_some_iff.1 hj).1
      simp at this
      omega
    subst hj0
    have hj := Option.some.inj hj
    subst hj
    simpa using h1
  | @again past c t s s' _ h2 h3 ih =>
    obtain ⟨reg, hist, ⟨ts, t0, hl, hts, rfl, rfl⟩, hrem⟩ := ih
    refine ⟨_, _, ⟨ts ++ [t0], t, by simp [hl], ?_, rfl, rfl⟩, ?_⟩
    · intro j t' hj
      rcases Nat.lt_or_ge j (ts ++ [t0]).length with hlt | hge
      · rw [List.getElem?_append_left hlt] at hj
        have hlt' : j ≤ past.length := by simp at hlt; omega
        rw [List.take_append_of_le_length hlt']
        exact hts j t' hj
      · rw [List.getElem?_append_right hge] at hj
        have hj0 : j - (ts ++ [t0]).length = 0 := by
          have := (List.getElem?_eq_some_iff.1 hj).1
          simp only [List.length_singleton] at this
          omega
        rw [hj0] at hj
        have hj := Option.some.inj hj
        subst hj
        have : (past ++ [c]).take j = past ++ [c] := by
          apply List.take_of_length_le
          simp only [List.length_append, List.length_singleton] at hge ⊢
          omega
        rw [this]
        simpa [List.append_assoc] using h2
    · have := tdReTrain_again_remembers hrem h3
      simpa using this

/-! #### TIRec and TIRecA -/

theorem tiEmbUsers_history {c : TICfg K} {n : ℕ} {st st' : TDState K} (h : tiEmbUsers c n st = .ok st') :
    st'.history = st.history := by
  unfold tiEmbUsers at h
  split at h
  · have h := Except.ok.inj h
    subst h; rfl
  · unfold tiRandomUsers at h
    obtain ⟨g, -, h⟩ := (bind_ok_iff _ _ _).1 h
    obtain ⟨g', -, h⟩ := (bind_ok_iff _ _ _).1 h
    have h := Except.ok.inj h
    subst h; rfl

theorem tiEmbItems_history {c : TICfg K} {n : ℕ} {st st' : TDState K} (h : tiEmbItems c n st = .ok st') :
    st'.history = st.history := by
  unfold tiEmbItems at h
  split at h
  · have h := Except.ok.inj h
    subst h; rfl
  · unfold tiRandomItems at h
    obtain ⟨g, -, h⟩ := (bind_ok_iff _ _ _).1 h
    obtain ⟨g', -, h⟩ := (bind_ok_iff _ _ _).1 h
    have h := Except.ok.inj h
    subst h; rfl

theorem tirecVectors_history {c : TICfg K} {st st' : TDState K} {da : Mat K} {mode : ℤ}
    (h : tirecVectors c st da mode = .ok st') : st'.history = st.history := by
  unfold tirecVectors at h
  obtain ⟨g, -, h⟩ := (bind_ok_iff _ _ _).1 h
  obtain ⟨r, -, h⟩ := (bind_ok_iff _ _ _).1 h
  have h := Except.ok.inj h
  subst h; rfl

theorem tirecaVectors_history {c : TICfg K} {st st' : TDState K} {da : Mat K} {mode : ℤ}
    (h : tirecaVectors c st da mode = .ok st') : st'.history = st.history := by
  unfold tirecaVectors at h
  split at h
  · exact tiEmbUsers_history h
  · exact tiEmbItems_history h

theorem tiUpdateFactors_history {vec : TIVectors K} {c : TICfg K} {m : TDAtt K}
    (hv : ∀ st da mode st', vec c st da mode = .ok st' → st'.history = st.history) {st st' : TDState K}
    {data : List DRow} {mode : PsiMode} (h : tiUpdateFactors vec c m st data mode = .ok st') :
    st'.history = st.history := by
  unfold tiUpdateFactors at h
  split at h
  · cases mode with
    | newUsers =>
      obtain ⟨da, -, h⟩ := (bind_ok_iff _ _ _).1 h
      exact hv _ _ _ _ h
    | newItems =>
      obtain ⟨da, -, h⟩ := (bind_ok_iff _ _ _).1 h
      exact hv _ _ _ _ h
    | old =>
      obtain ⟨g, -, h⟩ := (bind_ok_iff _ _ _).1 h
      obtain ⟨r, -, h⟩ := (bind_ok_iff _ _ _).1 h
      have h := Except.ok.inj h
      subst h; rfl
    | new =>
      obtain ⟨da, -, h⟩ := (bind_ok_iff _ _ _).1 h
      obtain ⟨g, -, h⟩ := (bind_ok_iff _ _ _).1 h
      obtain ⟨r, -, h⟩ := (bind_ok_iff _ _ _).1 h
      have h := Except.ok.inj h
      subst h; rfl
  · have h := Except.ok.inj h
    subst h; rfl

theorem tiRounds_history {vec : TIVectors K} {c : TICfg K} {m : TDAtt K}
    (hv : ∀ st da mode st', vec c st da mode = .ok st' → st'.history = st.history) (modes : List PsiMode)
    {l l' : TIRound K} (h : modes.foldlM (tiRound vec c m) l = .ok l') : l'.st.history = l.st.history := by
  induction modes generalizing l with
  | nil =>
    have h := Except.ok.inj h
    subst h; rfl
  | cons a modes ih =>
    rw [List.foldlM_cons] at h
    obtain ⟨l1, h1, h⟩ := (bind_ok_iff _ _ _).1 h
    unfold tiRound at h1
    obtain ⟨st, h2, h1⟩ := (bind_ok_iff _ _ _).1 h1
    have h1 := Except.ok.inj h1
    subst h1
    exact (ih h).trans (tiUpdateFactors_history hv h2)

/-- The rounds of the class leave the history alone. -/
def RoundsKeepHistory (rounds : TIRounds K) : Prop :=
  ∀ c m st nu ni delta l, rounds c m st nu ni delta = .ok l → l.st.history = st.history

theorem tirecRounds_history : RoundsKeepHistory (tirecRounds (K := K)) := by
  intro c m st nu ni delta l h
  unfold tirecRounds at h
  obtain ⟨left, -, h⟩ := (bind_ok_iff _ _ _).1 h
  exact (tiRounds_history (fun _ _ _ _ => tirecVectors_history) _ h).trans rfl

theorem tirecaMiddle_history : RoundsKeepHistory (tirecaMiddle (K := K)) := by
  intro c m st nu ni delta l h
  unfold tirecaMiddle at h
  split at h
  · unfold tirecaIntegrator at h
    obtain ⟨left, -, h⟩ := (bind_ok_iff _ _ _).1 h
    obtain ⟨s1, h1, h⟩ := (bind_ok_iff _ _ _).1 h
    obtain ⟨s2, h2, h⟩ := (bind_ok_iff _ _ _).1 h
    obtain ⟨s3, h3, h⟩ := (bind_ok_iff _ _ _).1 h
    have h := Except.ok.inj h
    subst h
    exact (tiUpdateFactors_history (fun _ _ _ _ => tirecaVectors_history) h3).trans
      ((tiEmbItems_history h2).trans (tiEmbUsers_history h1))
  · unfold tirecaRounds at h
    obtain ⟨left, -, h⟩ := (bind_ok_iff _ _ _).1 h
    obtain ⟨l1, h1, h⟩ := (bind_ok_iff _ _ _).1 h
    obtain ⟨s2, h2, h⟩ := (bind_ok_iff _ _ _).1 h
    have h := Except.ok.inj h
    subst h
    exact (tiUpdateFactors_history (fun _ _ _ _ => tirecaVectors_history) h2).trans
      (tiRounds_history (fun _ _ _ _ => tirecaVectors_history) _ h1)

theorem tiUpdate_remembers {rounds : TIRounds K} (hr : RoundsKeepMaps rounds) (hr' : RoundsKeepHistory rounds)
    {c : TICfg K} {m : TDAtt K} {st st' : TDState K} {data : List (Row K)} {reg hist : List (Row K)}
    (hrem : Remembers st.maps st.history reg hist) (h : tiUpdate rounds c m st data true = .ok st') :
    ∃ cr, IsCropped c.td.seqLen data cr ∧
      Remembers st'.maps st'.history (reg ++ cr.map PRow.row) (hist ++ cr.map PRow.row) := by
  unfold tiUpdate tiUpdateLog at h
  obtain ⟨r, h1, h⟩ := (bind_ok_iff _ _ _).1 h
  obtain ⟨p, h2, h1⟩ := (bind_ok_iff _ _ _).1 h1
  obtain ⟨l, h3, h1⟩ := (bind_ok_iff _ _ _).1 h1
  obtain ⟨aw, -, h1⟩ := (bind_ok_iff _ _ _).1 h1
  obtain ⟨lw, -, h1⟩ := (bind_ok_iff _ _ _).1 h1
  obtain ⟨last, -, h1⟩ := (bind_ok_iff _ _ _).1 h1
  have h1 := Except.ok.inj h1
  subst h1
  have h := Except.ok.inj h
  subst h
  have hm : l.st.maps = p.maps := hr _ _ _ _ _ _ _ h3
  have hh := hr' _ _ _ _ _ _ _ h3
  change l.st.history = st.history at hh
  obtain ⟨us, is, hU, hI, hu, hi, hhist⟩ := hrem
  have hne : data ≠ [] := by
    rintro rfl
    unfold tiPreprocess at h2
    rw [(C08_crop_errors ([] : List (Row K)) true).2] at h2
    cases h2
  have hL : 1 ≤ c.td.seqLen := by
    by_contra hL
    have h0 : c.td.seqLen = 0 := by omega
    unfold tiPreprocess at h2
    rw [h0, (C08_crop_errors data true).1 hne] at h2
    cases h2
  obtain ⟨p', cr, nus, nis, hp⟩ := tiPreprocess_ok hU hI c.td.seqLen hL data hne true
  have hpp := hp.prep
  rw [h2] at hpp
  have hpp := Except.ok.inj hpp
  subst hpp
  obtain ⟨cr', hc1, hc2⟩ := C08_crop data c.td.seqLen hL hne
  have hcc := hp.crop
  rw [hc1] at hcc
  have hcc := Except.ok.inj hcc
  subst hcc
  refine ⟨cr', hc2, us ++ nus, is ++ nis, ?_, ?_, ?_, ?_, ?_⟩
  · show Represents l.st.maps.user _
    rw [hm]; exact hp.user
  · show Represents l.st.maps.item _
    rw [hm]; exact hp.item
  · intro x
    rw [firstAppearance_new hp.firstUsers, hu]
    simp [or_and_right, exists_or]
  · intro x
    rw [firstAppearance_new hp.firstItems, hi]
    simp [or_and_right, exists_or]
  · show ∀ t ∈ hist ++ cr'.map PRow.row, ∃ a b : ℕ, (us ++ nus)[a]? = some t.user ∧
      (is ++ nis)[b]? = some t.item ∧ ((a : ℤ), (b : ℤ)) ∈ tiUpdateHistory l.st.history p.chunk
    intro t ht
    unfold tiUpdateHistory
    rw [hh]
    rcases List.mem_append.1 ht with ht | ht
    · obtain ⟨a, b, ha, hb, hab⟩ := hhist t ht
      refine ⟨a, b, ?_, ?_, List.mem_append_left _ hab⟩
      · rw [List.getElem?_append_left (List.getElem?_eq_some_iff.1 ha).1, ha]
      · rw [List.getElem?_append_left (List.getElem?_eq_some_iff.1 hb).1, hb]
    · obtain ⟨q, hq, rfl⟩ := List.mem_map.1 ht
      obtain ⟨q', hq', -, -, ⟨a, ha, ha'⟩, ⟨b, hb, hb'⟩⟩ := forall₂_mem_left hp.mapped hq
      exact ⟨a, b, ha', hb', List.mem_append_right _ (List.mem_map.2 ⟨q', hq', by rw [ha, hb]⟩)⟩

theorem tiUpdates_remembers {rounds : TIRounds K} (hr : RoundsKeepMaps rounds) (hr' : RoundsKeepHistory rounds)
    {c : TICfg K} {m : TDAtt K} (chunks : List (List (Row K))) {st st' : TDState K} {reg hist : List (Row K)}
    (hrem : Remembers st.maps st.history reg hist) (h : tiUpdates rounds c m st chunks true = .ok st') :
    ∃ crs, List.Forall₂ (IsCropped c.td.seqLen) chunks crs ∧
      Remembers st'.maps st'.history (reg ++ crs.flatten.map PRow.row) (hist ++ crs.flatten.map PRow.row) := by
  unfold tiUpdates at h
  induction chunks generalizing st reg hist with
  | nil =>
    have h := Except.ok.inj h
    subst h
    exact ⟨[], .nil, by simpa using hrem⟩
  | cons a chunks ih =>
    rw [List.foldlM_cons] at h
    obtain ⟨s1, h1, h⟩ := (bind_ok_iff _ _ _).1 h
    obtain ⟨cr, hc, hrem1⟩ := tiUpdate_remembers hr hr' hrem h1
    obtain ⟨crs, hcrs, hrem2⟩ := ih hrem1 h
    exact ⟨cr :: crs, .cons hc hcrs, by simpa [List.append_assoc] using hrem2⟩

/-- The rows the script's sequence models keep. -/
def KeepsOf (cfg : RunCfg K) (ft : FixedTd) (name : String) :
    List (Row K) → List (List (Row K)) → List (Row K) → List (Row K) → Prop :=
  if name = "TDRec" then KeepsLast cfg.maxLen
  else if name = "TDRecReinit" then KeepsIdsOfAll cfg.maxLen
  else KeepsCrops cfg.maxLen ft.seqLen

/-- **C120 (partial).** In a completed run of the script with a sequence model a scored pair that occurs in the
rows the model keeps in its history is never a hit. Missing: the rows dropped by the cropping
(`C120_violated`). -/
theorem C120_kept_miss_partial [FloorRing K] (env : RunEnv K) (cfg : RunCfg K) (fs : FixedSvd) (ft : FixedTd)
    (name : String) (hn : name ∈ ["TDRec", "TDRecReinit", "TIRec", "TIRecA"])
    (data : List (IRow K)) (d : Dynamics K) (h : runScript env cfg fs ft name data = .ok d) :
    RepeatsMiss env cfg data (KeepsOf cfg ft name) d := by
  have key : ∀ {st : TDState K} {reg hist : List (Row K)} {e c snap},
      Remembers st.maps st.history reg hist → Snapshot (tdFace env.argp st) e cfg.topk c snap →
      ∃ S, Scored reg c S ∧ S ≠ [] ∧ 0 ≤ snap.rr ∧ snap.rr ≤ snap.hit ∧
        snap.hit * (S.length : K) ≤ (novel hist S : K) := fun {st} {reg} {hist} {e} {c} {snap} hrem hs =>
    step_novel (v := st.view) hrem rfl (b := false) (argp := env.argp) (score := fun _ u => do
      let r ← tdRecommendUser st u
      pure (List.ofFn r.val)) (fun _ _ => rfl) hs
  have ti : ∀ {rounds : TIRounds K}, RoundsKeepMaps rounds → RoundsKeepHistory rounds →
      ∀ {c : TICfg K} {m : TDAtt K} {initial : List (Row K)} {past : List (List (Row K))} {t : List (PRow K)}
        {st0 st : TDState K}, c.td.seqLen = ft.seqLen → IsCropped cfg.maxLen initial t →
      tdTrain c.td m (none : Option (ExitCallback K Unit)) () [] t = .ok st0 →
      tiUpdates rounds c m st0 past true = .ok st →
      ∃ reg hist, KeepsCrops cfg.maxLen ft.seqLen initial past reg hist ∧
        Remembers st.maps st.history reg hist := by
    intro rounds hr hr' c m initial past t st0 st hL h1 h2 h3
    obtain ⟨crs, hcrs, hrem⟩ := tiUpdates_remembers hr hr' past (tdTrain_remembers h2) h3
    rw [hL] at hcrs
    exact ⟨_, _, ⟨t, crs, h1, hcrs, rfl, rfl⟩, by rw [List.map_append]; exact hrem⟩
  simp only [List.mem_cons, List.not_mem_nil, or_false] at hn
  rcases hn with rfl | rfl | rfl | rfl
  · obtain ⟨c, m, -, h⟩ := C93_tdrec env cfg fs ft data d h
    refine repeatsMiss_intro h ?_
    rintro initial past f e c snap ⟨st, hst, rfl⟩ hs
    obtain ⟨reg, hist, hk, hrem⟩ := retrained_td_keeps hst
    obtain ⟨S, hS⟩ := key hrem hs
    exact ⟨reg, hist, S, hk, hS⟩
  · obtain ⟨c, m, -, h⟩ := C93_tdrecreinit env cfg fs ft data d h
    refine repeatsMiss_intro h ?_
    rintro initial past f e c snap ⟨st, hst, rfl⟩ hs
    obtain ⟨reg, hist, hk, hrem⟩ := retrained_re_keeps hst
    obtain ⟨S, hS⟩ := key hrem hs
    exact ⟨reg, hist, S, hk, hS⟩
  · obtain ⟨c, m, ⟨_, _, _, _, _, -, hc, -⟩, -, -, h⟩ := C93_tirec env cfg fs ft data d h
    refine repeatsMiss_intro h ?_
    rintro initial past f e c' snap ⟨t, st0, st, h1, h2, h3, rfl⟩ hs
    obtain ⟨reg, hist, hk, hrem⟩ := ti tirecRounds_maps tirecRounds_history (by rw [hc]; rfl) h1 h2 h3
    obtain ⟨S, hS⟩ := key hrem hs
    exact ⟨reg, hist, S, hk, hS⟩
  · obtain ⟨c, m, ⟨_, _, _, _, _, -, hc, -⟩, -, -, -, -, h⟩ := C93_tireca env cfg fs ft data d h
    refine repeatsMiss_intro h ?_
    rintro initial past f e c' snap ⟨t, st0, st, h1, h2, h3, rfl⟩ hs
    obtain ⟨reg, hist, hk, hrem⟩ := ti tirecaMiddle_maps tirecaMiddle_history (by rw [hc]; rfl) h1 h2 h3
    obtain ⟨S, hS⟩ := key hrem hs
    exact ⟨reg, hist, S, hk, hS⟩

/-! ### A repeat that is a hit -/

/-- two recommendations, sequences of length 2 -/
def exRepeatCfg : RunCfg ℚ := ⟨.steam, 2, 5/6, none, 5, 2, none, none⟩
def exRepeatTd : FixedTd := ⟨2, 0, 1, false, false⟩

/-- user 8 takes 41, 42, 43 and then 41 again; user 7 takes 40 and 41 -/
def exRepeatData : List (IRow ℚ) :=
  [⟨0, ⟨8, 41, 1, 0, 0⟩⟩, ⟨1, ⟨7, 40, 1, 1, 0⟩⟩, ⟨2, ⟨8, 42, 1, 2, 0⟩⟩, ⟨3, ⟨8, 43, 1, 3, 0⟩⟩, ⟨4, ⟨7, 41, 1, 4, 0⟩⟩,
   ⟨5, ⟨8, 41, 1, 5, 1⟩⟩]

def exRepeatHr (name : String) : Option (List ℚ × ℕ) :=
  match runScript exRunEnv exRepeatCfg exFixSvd exRepeatTd name exRepeatData with
  | .ok d => some (d.hr, d.mrr.length)
  | .error _ => none

theorem exRepeat_split : prepareDataForExperiment exRunEnv.sortDay exRepeatData exRepeatCfg.initRatio
    exRepeatCfg.hmMin = .ok ((exRepeatData.take 5).map IRow.row, [(1, [⟨8, 41, 1, 5, 1⟩])], [⟨8, 41, 1, 5, 1⟩]) := by
  decide +kernel

/-- **C120 fails.** With every sequence model a pair the user already had is scored as a hit: the cropping
drops the first interaction of user 8, so item 41 is recommended to this user again. Only two items are left
for user 8 and two are recommended, so this does not depend on the scores. -/
theorem C120_violated (name : String) (hn : name ∈ ["TDRec", "TDRecReinit", "TIRec", "TIRecA"]) :
    ∃ d, runScript exRunEnv exRepeatCfg exFixSvd exRepeatTd name exRepeatData = .ok d ∧ d.hr = [1] ∧
      ¬ RepeatsMiss exRunEnv exRepeatCfg exRepeatData KeepsAll d := by
  have hrun : ∀ name, exRepeatHr name = some ([1], 1) →
      ∃ d, runScript exRunEnv exRepeatCfg exFixSvd exRepeatTd name exRepeatData = .ok d ∧ d.hr = [1] ∧
        d.mrr.length = 1 := by
    intro name h
    unfold exRepeatHr at h
    cases hd : runScript exRunEnv exRepeatCfg exFixSvd exRepeatTd name exRepeatData with
    | error e => rw [hd] at h; cases h
    | ok d =>
      rw [hd] at h
      have h := Option.some.inj h
      exact ⟨d, rfl, congrArg Prod.fst h, congrArg Prod.snd h⟩
  have hname : exRepeatHr name = some ([1], 1) := by
    simp only [List.mem_cons, List.not_mem_nil, or_false] at hn
    rcases hn with rfl | rfl | rfl | rfl
    all_goals decide +kernel
  obtain ⟨d, h1, h2, h3⟩ := hrun name hname
  refine ⟨d, h1, h2, ?_⟩
  rintro ⟨initial, stream, left, chunks, g1, g2, -, -, g3⟩
  rw [exRepeat_split] at g1
  have g1 := Except.ok.inj g1
  simp only [Prod.mk.injEq] at g1
  obtain ⟨rfl, rfl, rfl⟩ := g1
  have g2 : chunks = [[⟨8, 41, 1, 5, 1⟩]] := by rw [g2]; decide
  subst g2
  obtain ⟨m, hm⟩ : ∃ m, d.mrr = [m] := List.length_eq_one_iff.1 h3
  obtain ⟨reg, hist, S, ⟨rfl, rfl⟩, hS, hne, -, -, hle⟩ := g3 0 [⟨8, 41, 1, 5, 1⟩] 1 m rfl (by rw [h2]; rfl) (by rw [hm]; rfl)
  have h0 : novel ((exRepeatData.take 5).map IRow.row ++ (List.take 0 [[(⟨8, 41, 1, 5, 1⟩ : Row ℚ)]]).flatten) S = 0 := by
    unfold novel
    rw [List.countP_eq_zero]
    rintro ⟨u, x⟩ hp
    obtain ⟨pre, r, post, he, -, rfl, rfl, -⟩ := (hS.items u x).1 hp
    have hr : r ∈ [(⟨8, 41, 1, 5, 1⟩ : Row ℚ)] := by rw [he]; simp
    rw [List.mem_singleton] at hr
    subst hr
    decide
  rw [h0, one_mul] at hle
  have := List.length_pos_of_ne_nil hne
  have h4 : ((S.length : ℕ) : ℚ) ≤ ((0 : ℕ) : ℚ) := hle
  have h5 : S.length ≤ 0 := by exact_mod_cast h4
  omega

/-! ### Examples -/

example : exRepeatHr "SVD" = none := by decide +kernel

/-- one recommendation -/
example : (match runScript exRunEnv { exRepeatCfg with topk := 1 } exFixSvd exRepeatTd "SVD" exRepeatData with
    | .ok d => some d.hr
    | .error _ => none) = some [0] := by decide +kernel

example : Scored ((exRepeatData.take 5).map IRow.row) [(⟨8, 41, 1, 5, 1⟩ : Row ℚ)] [(8, 41)] := by
  refine ⟨⟨by decide, ?_, by decide⟩, ?_⟩
  · intro x
    rw [show ([(⟨8, 41, 1, 5, 1⟩ : Row ℚ)].filter fun r =>
      decide (KnownFrom ((exRepeatData.take 5).map IRow.row) r)).map Row.user = [8] by decide]
    rfl
  · intro u x
    rw [List.mem_singleton, Prod.mk.injEq]
    constructor
    · rintro ⟨rfl, rfl⟩
      exact ⟨[], _, [], rfl, by decide, rfl, rfl, by simp⟩
    · rintro ⟨pre, r, post, he, -, rfl, rfl, -⟩
      have hr : r ∈ [(⟨8, 41, 1, 5, 1⟩ : Row ℚ)] := by rw [he]; simp
      rw [List.mem_singleton] at hr
      subst hr
      exact ⟨rfl, rfl⟩

example : novel ((exRepeatData.take 5).map IRow.row) [(8, 41), (7, 42)] = 1 := by decide

end DynCF
