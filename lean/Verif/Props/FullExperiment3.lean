/-
Property C95: whether the recommendations of consecutive models, which the experiment compares by their
internal item numbers, are numbered in the same way.
-/
import Verif.Props.FullExperiment2
import Verif.Props.PsiClass
import Verif.Props.TDRec3
import Verif.Lemmas.TIUpdate

set_option linter.unusedSectionVars false

namespace DynCF
variable {K : Type} [Field K] [LinearOrder K]

/-! ### Specification -/

/-- Every number that has a meaning keeps it, and every id keeps its number. -/
def KeepsIds (m m' : Mapping ℤ) : Prop :=
  (∀ i x, m.new2old.get? i = some x → m'.new2old.get? i = some x) ∧
  ∀ x i, m.old2new.get? x = some i → m'.old2new.get? x = some i

/-- Users and items keep their numbers. -/
def SameIds (m m' : Mappings) : Prop := KeepsIds m.user m'.user ∧ KeepsIds m.item m'.item

/-- The recommenders that meet two consecutive chunks number users and items in the same way. -/
def Comparable (At : List (Row K) → List (List (Row K)) → Face K → Prop) : Prop :=
  ∀ initial past c f f', At initial past f → At initial (past ++ [c]) f' → SameIds f.maps f'.maps

/-! ### Proof -/

/-- the mappings are one-to-one numberings -/
def Numbered (m : Mappings) : Prop := ∃ us is, Represents m.user us ∧ Represents m.item is

theorem keepsIds_append {m m' : Mapping ℤ} {ids new : List ℤ} (h : Represents m ids)
    (h' : Represents m' (ids ++ new)) : KeepsIds m m' := by
  have key : ∀ (k : ℕ) (x : ℤ), ids[k]? = some x → (ids ++ new)[k]? = some x := by
    intro k x hk
    rw [List.getElem?_append_left (List.getElem?_eq_some_iff.1 hk).1]
    exact hk
  constructor
  · intro i x hi
    obtain ⟨k, rfl, hk⟩ := (h.new2old i x).1 hi
    exact (h'.new2old _ _).2 ⟨k, rfl, key k x hk⟩
  · intro x i hi
    obtain ⟨k, rfl, hk⟩ := (h.old2new x i).1 hi
    exact (h'.old2new _ _).2 ⟨k, rfl, key k x hk⟩

theorem registerNew_sameIds {m : Mappings} (h : Numbered m) (data : List (Row K)) :
    Numbered (registerNew m data) ∧ SameIds m (registerNew m data) := by
  obtain ⟨us, is, h1, h2⟩ := h
  obtain ⟨nu, ni, -, -, g1, g2, -⟩ := C29_ids_stable m us is h1 h2 data
  exact ⟨⟨_, _, g1, g2⟩, keepsIds_append h1 g1, keepsIds_append h2 g2⟩

theorem firstAppearance_append_prefix {l r a : List ℤ} (ha : FirstAppearance l a) :
    ∃ b, FirstAppearance (l ++ r) (a ++ b) := by
  refine ⟨(pdUnique r).filter fun x => decide (x ∉ l), ?_, ?_, ?_⟩
  · rw [List.nodup_append]
    refine ⟨ha.nodup, (nodup_pdUnique r).filter _, ?_⟩
    rintro x hx y hy rfl
    exact of_decide_eq_true (List.mem_filter.1 hy).2 ((ha.mem x).1 hx)
  · intro x
    rw [List.mem_append, List.mem_append, ha.mem, List.mem_filter, mem_pdUnique]
    by_cases hx : x ∈ l <;> simp [hx]
  · rw [List.pairwise_append]
    refine ⟨?_, ?_, ?_⟩
    · refine List.Pairwise.imp_of_mem ?_ ha.order
      intro x y hx hy hxy
      rw [List.idxOf_append_of_mem ((ha.mem x).1 hx), List.idxOf_append_of_mem ((ha.mem y).1 hy)]
      exact hxy
    · refine List.Pairwise.imp_of_mem ?_ ((firstAppearance_pdUnique r).order.filter _)
      intro x y hx hy hxy
      rw [List.idxOf_append_of_notMem (of_decide_eq_true (List.mem_filter.1 hx).2),
        List.idxOf_append_of_notMem (of_decide_eq_true (List.mem_filter.1 hy).2)]
      omega
    · intro x hx y hy
      have hx' := (ha.mem x).1 hx
      rw [List.idxOf_append_of_mem hx', List.idxOf_append_of_notMem (of_decide_eq_true (List.mem_filter.1 hy).2)]
      have := List.idxOf_lt_length_of_mem hx'
      omega

theorem svdTrain_maps {env : PSIEnv K} {cfg : PSICfg} {data : List (Row K)} {st : PSIState K}
    (h : svdTrain env cfg data = .ok st) :
    ∃ us is, FirstAppearance (data.map Row.user) us ∧ FirstAppearance (data.map Row.item) is ∧
      Represents st.maps.user us ∧ Represents st.maps.item is := by
  obtain ⟨us, is, h1, h2, ⟨st', h3, h4, -⟩ | ⟨h3, -⟩⟩ := C31_train env cfg data
  · rw [h] at h3
    have h3 := Except.ok.inj h3
    subst h3
    exact ⟨us, is, h1, h2, h4.shape.user, h4.shape.item⟩
  · rw [h] at h3; cases h3

/-! #### TIRec and TIRecA -/

theorem tiEmbUsers_maps {c : TICfg K} {n : ℕ} {st st' : TDState K} (h : tiEmbUsers c n st = .ok st') :
    st'.maps = st.maps := by
  unfold tiEmbUsers at h
  split at h
  · have h := Except.ok.inj h
    subst h; rfl
  · unfold tiRandomUsers at h
    obtain ⟨g, -, h⟩ := (bind_ok_iff _ _ _).1 h
    obtain ⟨g', -, h⟩ := (bind_ok_iff _ _ _).1 h
    have h := Except.ok.inj h
    subst h; rfl

theorem tiEmbItems_maps {c : TICfg K} {n : ℕ} {st st' : TDState K} (h : tiEmbItems c n st = .ok st') :
    st'.maps = st.maps := by
  unfold tiEmbItems at h
  split at h
  · have h := Except.ok.inj h
    subst h; rfl
  · unfold tiRandomItems at h
    obtain ⟨g, -, h⟩ := (bind_ok_iff _ _ _).1 h
    obtain ⟨g', -, h⟩ := (bind_ok_iff _ _ _).1 h
    have h := Except.ok.inj h
    subst h; rfl

theorem tirecVectors_maps {c : TICfg K} {st st' : TDState K} {da : Mat K} {mode : ℤ}
    (h : tirecVectors c st da mode = .ok st') : st'.maps = st.maps := by
  unfold tirecVectors at h
  obtain ⟨g, -, h⟩ := (bind_ok_iff _ _ _).1 h
  obtain ⟨r, -, h⟩ := (bind_ok_iff _ _ _).1 h
  have h := Except.ok.inj h
  subst h; rfl

theorem tirecaVectors_maps {c : TICfg K} {st st' : TDState K} {da : Mat K} {mode : ℤ}
    (h : tirecaVectors c st da mode = .ok st') : st'.maps = st.maps := by
  unfold tirecaVectors at h
  split at h
  · exact tiEmbUsers_maps h
  · exact tiEmbItems_maps h

theorem tiUpdateFactors_maps {vec : TIVectors K} {c : TICfg K} {m : TDAtt K}
    (hv : ∀ st da mode st', vec c st da mode = .ok st' → st'.maps = st.maps) {st st' : TDState K}
    {data : List DRow} {mode : PsiMode} (h : tiUpdateFactors vec c m st data mode = .ok st') :
    st'.maps = st.maps := by
  unfold tiUpdateFactors at h
  split at h
  · cases mode with
    | newUsers =>
      obtain ⟨da, -, h⟩ := (bind_ok_iff _ _ _).1 h
      exact hv _ _ _ _ h
    | newItems =>
      obtain ⟨da, -, h⟩ := (bind_ok_iff _ _ _).1 h
      exact hv _ _ _ _ h
    | old =>
      obtain ⟨g, -, h⟩ := (bind_ok_iff _ _ _).1 h
      obtain ⟨r, -, h⟩ := (bind_ok_iff _ _ _).1 h
      have h := Except.ok.inj h
      subst h; rfl
    | new =>
      obtain ⟨da, -, h⟩ := (bind_ok_iff _ _ _).1 h
      obtain ⟨g, -, h⟩ := (bind_ok_iff _ _ _).1 h
      obtain ⟨r, -, h⟩ := (bind_ok_iff _ _ _).1 h
      have h := Except.ok.inj h
      subst h; rfl
  · have h := Except.ok.inj h
    subst h; rfl

theorem tiRounds_maps {vec : TIVectors K} {c : TICfg K} {m : TDAtt K}
    (hv : ∀ st da mode st', vec c st da mode = .ok st' → st'.maps = st.maps) (modes : List PsiMode)
    {l l' : TIRound K} (h : modes.foldlM (tiRound vec c m) l = .ok l') : l'.st.maps = l.st.maps := by
  induction modes generalizing l with
  | nil =>
    have h := Except.ok.inj h
    subst h; rfl
  | cons a modes ih =>
    rw [List.foldlM_cons] at h
    obtain ⟨l1, h1, h⟩ := (bind_ok_iff _ _ _).1 h
    unfold tiRound at h1
    obtain ⟨st, h2, h1⟩ := (bind_ok_iff _ _ _).1 h1
    have h1 := Except.ok.inj h1
    subst h1
    exact (ih h).trans (tiUpdateFactors_maps hv h2)

/-- The rounds of the class leave the mappings alone. -/
def RoundsKeepMaps (rounds : TIRounds K) : Prop :=
  ∀ c m st nu ni delta l, rounds c m st nu ni delta = .ok l → l.st.maps = st.maps

theorem tirecRounds_maps : RoundsKeepMaps (tirecRounds (K := K)) := by
  intro c m st nu ni delta l h
  unfold tirecRounds at h
  obtain ⟨left, -, h⟩ := (bind_ok_iff _ _ _).1 h
  exact (tiRounds_maps (fun _ _ _ _ => tirecVectors_maps) _ h).trans rfl

theorem tirecaMiddle_maps : RoundsKeepMaps (tirecaMiddle (K := K)) := by
  intro c m st nu ni delta l h
  unfold tirecaMiddle at h
  split at h
  · unfold tirecaIntegrator at h
    obtain ⟨left, -, h⟩ := (bind_ok_iff _ _ _).1 h
    obtain ⟨s1, h1, h⟩ := (bind_ok_iff _ _ _).1 h
    obtain ⟨s2, h2, h⟩ := (bind_ok_iff _ _ _).1 h
    obtain ⟨s3, h3, h⟩ := (bind_ok_iff _ _ _).1 h
    have h := Except.ok.inj h
    subst h
    exact (tiUpdateFactors_maps (fun _ _ _ _ => tirecaVectors_maps) h3).trans
      ((tiEmbItems_maps h2).trans (tiEmbUsers_maps h1))
  · unfold tirecaRounds at h
    obtain ⟨left, -, h⟩ := (bind_ok_iff _ _ _).1 h
    obtain ⟨l1, h1, h⟩ := (bind_ok_iff _ _ _).1 h
    obtain ⟨s2, h2, h⟩ := (bind_ok_iff _ _ _).1 h
    have h := Except.ok.inj h
    subst h
    exact (tiUpdateFactors_maps (fun _ _ _ _ => tirecaVectors_maps) h2).trans
      (tiRounds_maps (fun _ _ _ _ => tirecaVectors_maps) _ h1)

theorem tiUpdate_maps {rounds : TIRounds K} (hr : RoundsKeepMaps rounds) {c : TICfg K} {m : TDAtt K}
    {st st' : TDState K} {data : List (Row K)} {b : Bool} (h : tiUpdate rounds c m st data b = .ok st') :
    ∃ rows : List (Row K), st'.maps = registerNew st.maps rows := by
  unfold tiUpdate tiUpdateLog at h
  obtain ⟨r, h1, h⟩ := (bind_ok_iff _ _ _).1 h
  obtain ⟨p, h2, h1⟩ := (bind_ok_iff _ _ _).1 h1
  obtain ⟨l, h3, h1⟩ := (bind_ok_iff _ _ _).1 h1
  obtain ⟨aw, -, h1⟩ := (bind_ok_iff _ _ _).1 h1
  obtain ⟨lw, -, h1⟩ := (bind_ok_iff _ _ _).1 h1
  obtain ⟨last, -, h1⟩ := (bind_ok_iff _ _ _).1 h1
  have h1 := Except.ok.inj h1
  subst h1
  have h := Except.ok.inj h
  subst h
  have hm := hr _ _ _ _ _ _ _ h3
  unfold tiPreprocess at h2
  obtain ⟨chunk, -, h2⟩ := (bind_ok_iff _ _ _).1 h2
  obtain ⟨nu, -, h2⟩ := (bind_ok_iff _ _ _).1 h2
  obtain ⟨ni, -, h2⟩ := (bind_ok_iff _ _ _).1 h2
  obtain ⟨rows, -, h2⟩ := (bind_ok_iff _ _ _).1 h2
  have h2 := Except.ok.inj h2
  subst h2
  exact ⟨_, hm⟩

theorem tiUpdates_numbered {rounds : TIRounds K} (hr : RoundsKeepMaps rounds) {c : TICfg K} {m : TDAtt K}
    (chunks : List (List (Row K))) {st st' : TDState K} (hn : Numbered st.maps) {b : Bool}
    (h : tiUpdates rounds c m st chunks b = .ok st') : Numbered st'.maps := by
  unfold tiUpdates at h
  induction chunks generalizing st with
  | nil =>
    have h := Except.ok.inj h
    subst h; exact hn
  | cons a chunks ih =>
    rw [List.foldlM_cons] at h
    obtain ⟨s1, h1, h⟩ := (bind_ok_iff _ _ _).1 h
    obtain ⟨rows, hm⟩ := tiUpdate_maps hr h1
    exact ih (by rw [hm]; exact (registerNew_sameIds hn rows).1) h

theorem tdTrain_numbered {τ : Type} {c : TDCfg K} {m : TDAtt K} {cb : Option (ExitCallback K τ)} {cb0 : τ}
    {h0 : SeqHist} {t : List (PRow K)} {st : TDState K} (h : tdTrain c m cb cb0 h0 t = .ok st) :
    Numbered st.maps := by
  obtain ⟨rows, mp, users, items, h1, -, h3, -, h5, -⟩ := train_mapped t
  unfold tdTrain at h
  rw [h1, except_bind_ok] at h
  obtain ⟨_, _, _, _, _, _, -, -, -, -, hm, -⟩ := tdFit_ok h
  exact ⟨users, items, by rw [hm]; exact h3, by rw [hm]; exact h5⟩

theorem ti_comparable {rounds : TIRounds K} (hr : RoundsKeepMaps rounds) (argp : ArgPart K) (L : ℕ)
    (c : TICfg K) (m : TDAtt K) :
    Comparable (fun initial past f => ∃ t st0 st, IsCropped L initial t ∧
      tdTrain c.td m (none : Option (ExitCallback K Unit)) () [] t = .ok st0 ∧
      tiUpdates rounds c m st0 past true = .ok st ∧ f = tdFace argp st) := by
  rintro initial past chunk _ _ ⟨t, st0, st, h1, h2, h3, rfl⟩ ⟨t', st0', st', h1', h2', h3', rfl⟩
  obtain rfl := C08_crop_unique L _ _ _ h1 h1'
  rw [h2] at h2'
  have h2' := Except.ok.inj h2'
  subst h2'
  have hn := tiUpdates_numbered hr past (tdTrain_numbered h2) h3
  unfold tiUpdates at h3 h3'
  rw [List.foldlM_append, h3] at h3'
  have h3' : ([chunk].foldlM (fun s d => tiUpdate rounds c m s d true) st : PyM _) = .ok st' := h3'
  rw [List.foldlM_cons] at h3'
  obtain ⟨s1, h4, h5⟩ := (bind_ok_iff _ _ _).1 h3'
  have h5 := Except.ok.inj h5
  subst h5
  obtain ⟨rows, hm⟩ := tiUpdate_maps hr h4
  show SameIds st.maps s1.maps
  rw [hm]
  exact (registerNew_sameIds hn rows).2

/-! ### C95 -/

/-- **C95 (partial).** For every recommender of the experiment but TDRec the models that meet two
consecutive chunks give users and items the same numbers, so that the compared item numbers mean the same
items. Missing: TDRec (`C95_violated`). -/
theorem C95_comparable_partial (env : RunEnv K) (hsort : ArgSortOk env.psi.argsort) (L : ℕ) (c : PSICfg)
    (ct : TICfg K) (m : TDAtt K) :
    Comparable (fun initial past f =>
      ∃ st, svdTrain env.psi c (initial ++ past.flatten) = .ok st ∧ f = svdFace env.argp st) ∧
    Comparable (fun initial past f =>
      ∃ st, psiRun env.psi c initial past = .ok st ∧ f = svdFace env.argp st) ∧
    Comparable (fun initial past f =>
      ∃ st, Retrained L (fun t => tdReTrain ct.td m [] t none none)
          (fun s t => tdReTrain ct.td m s.seqHist t (some ⟨s.u, s.v, s.w⟩) (some s.maps)) initial past st ∧
        f = tdFace env.argp st) ∧
    Comparable (fun initial past f => ∃ t st0 st, IsCropped L initial t ∧
      tdTrain ct.td m (none : Option (ExitCallback K Unit)) () [] t = .ok st0 ∧
      tiUpdates tirecRounds ct m st0 past true = .ok st ∧ f = tdFace env.argp st) ∧
    Comparable (fun initial past f => ∃ t st0 st, IsCropped L initial t ∧
      tdTrain ct.td m (none : Option (ExitCallback K Unit)) () [] t = .ok st0 ∧
      tiUpdates tirecaMiddle ct m st0 past true = .ok st ∧ f = tdFace env.argp st) := by
  refine ⟨?_, ?_, ?_, ti_comparable tirecRounds_maps _ _ _ _, ti_comparable tirecaMiddle_maps _ _ _ _⟩
  · rintro initial past chunk _ _ ⟨st, h1, rfl⟩ ⟨st', h2, rfl⟩
    obtain ⟨us, is, a1, a2, a3, a4⟩ := svdTrain_maps h1
    obtain ⟨us', is', b1, b2, b3, b4⟩ := svdTrain_maps h2
    rw [List.flatten_append, ← List.append_assoc, List.map_append] at b1 b2
    obtain ⟨eu, g1⟩ := firstAppearance_append_prefix (r := [chunk].flatten.map Row.user) a1
    obtain ⟨ei, g2⟩ := firstAppearance_append_prefix (r := [chunk].flatten.map Row.item) a2
    obtain rfl := b1.unique g1
    obtain rfl := b2.unique g2
    exact ⟨keepsIds_append a3 b3, keepsIds_append a4 b4⟩
  · rintro initial past chunk _ _ ⟨st, h1, rfl⟩ ⟨st', h2, rfl⟩
    obtain ⟨us, is, hi, -⟩ := C31_run env.psi hsort c initial past st h1
    unfold psiRun at h1 h2
    obtain ⟨s0, h3, h1⟩ := (bind_ok_iff _ _ _).1 h1
    rw [h3, except_bind_ok, List.foldlM_append, h1, except_bind_ok] at h2
    obtain ⟨eu, ei, hi'⟩ := psiUpdates_inv env.psi hsort c [chunk] hi st' h2
    exact ⟨keepsIds_append hi.shape.user hi'.shape.user, keepsIds_append hi.shape.item hi'.shape.item⟩
  · rintro initial past chunk _ _ ⟨st, h1, rfl⟩ ⟨st', h2, rfl⟩
    have first : ∀ {t : List (PRow K)} {s : TDState K}, tdReTrain ct.td m [] t none none = .ok s →
        Numbered s.maps := by
      intro t s h
      obtain ⟨rows, mp, users, items, h1, -, h3, -, h5, -⟩ := train_mapped t
      unfold tdReTrain at h
      obtain ⟨r, hr, h⟩ := (bind_ok_iff _ _ _).1 h
      rw [h1] at hr
      have hr := Except.ok.inj hr
      subst hr
      obtain ⟨_, _, _, _, _, _, -, -, -, -, hm, -⟩ := tdFit_ok h
      exact ⟨users, items, by rw [hm]; exact h3, by rw [hm]; exact h5⟩
    have again : ∀ {t : List (PRow K)} {s s' : TDState K},
        tdReTrain ct.td m s.seqHist t (some ⟨s.u, s.v, s.w⟩) (some s.maps) = .ok s' →
        s'.maps = registerNew s.maps (t.map PRow.row) := by
      intro t s s' h
      unfold tdReTrain at h
      obtain ⟨rows, -, h⟩ := (bind_ok_iff _ _ _).1 h
      obtain ⟨_, _, _, _, _, _, -, -, -, -, hm, -⟩ := tdFit_ok h
      exact hm
    have det : ∀ {p : List (List (Row K))} {s : TDState K}, Retrained L (fun t => tdReTrain ct.td m [] t none none)
          (fun s t => tdReTrain ct.td m s.seqHist t (some ⟨s.u, s.v, s.w⟩) (some s.maps)) initial p s →
        Numbered s.maps ∧ ∀ s', Retrained L (fun t => tdReTrain ct.td m [] t none none)
          (fun s t => tdReTrain ct.td m s.seqHist t (some ⟨s.u, s.v, s.w⟩) (some s.maps)) initial p s' → s = s' := by
      intro p s h
      induction h with
      | @first t s hc ht =>
        refine ⟨first ht, ?_⟩
        intro s' h'
        generalize hp : ([] : List (List (Row K))) = p at h'
        cases h' with
        | @first t' s'' hc' ht' =>
          obtain rfl := C08_crop_unique L _ _ _ hc hc'
          have ht := ht.symm.trans ht'
          exact Except.ok.inj ht
        | again _ _ _ => simp at hp
      | @again p c' t s s1 hr hc ht ih =>
        refine ⟨by rw [again ht]; exact (registerNew_sameIds ih.1 _).1, ?_⟩
        intro s' h'
        generalize hp : p ++ [c'] = q at h'
        cases h' with
        | first _ _ => simp at hp
        | @again p' c'' t' s2 s3 hr' hc' ht' =>
          obtain ⟨rfl, hc2⟩ := List.append_inj' hp rfl
          simp only [List.cons.injEq, and_true] at hc2
          subst hc2
          obtain rfl := C08_crop_unique L _ _ _ hc hc'
          obtain rfl := ih.2 _ hr'
          exact Except.ok.inj (ht.symm.trans ht')
    generalize hp : past ++ [chunk] = q at h2
    cases h2 with
    | first _ _ => simp at hp
    | @again p' c'' t' s2 s3 hr' hc' ht' =>
      obtain ⟨rfl, -⟩ := List.append_inj' hp rfl
      obtain ⟨hn, hd⟩ := det h1
      obtain rfl := hd _ hr'
      show SameIds st.maps st'.maps
      rw [again ht']
      exact (registerNew_sameIds hn _).2

/-- the item numbers of the models of SVD that meet the two chunks of the example run -/
def exSvdNumbers : PyM (Dict ℤ ℤ × Dict ℤ ℤ) := do
  let st ← svdTrain exRunEnv.psi ⟨1, 0, 1, none, false⟩ ((exRunData.take 4).map IRow.row)
  let st' ← svdTrain exRunEnv.psi ⟨1, 0, 1, none, false⟩ (((exRunData.take 4) ++ (exRunData.drop 4)).map IRow.row ++
    [⟨9, 44, 1, 7, 3⟩])
  pure (st.maps.item.old2new, st'.maps.item.old2new)

-- the known items keep their numbers, the new item 44 gets the next one
example : exSvdNumbers = .ok ([(40, 0), (41, 1), (42, 2), (43, 3)], [(40, 0), (41, 1), (42, 2), (43, 3), (44, 4)]) := by
  decide +kernel

-- the hypothesis about `argsort` can be satisfied
example : ∃ env : RunEnv ℚ, ArgSortOk env.psi.argsort := by
  obtain ⟨a, ha⟩ := argSortOk_exists (K := ℚ)
  exact ⟨{ exRunEnv with psi := { exRunEnv.psi with argsort := a } }, ha⟩

/-! #### A completed run of TDRec -/

/-- unit vectors of lengths 2, 3 and 4 -/
def exUnit2 (m i : ℕ) : ℚ :=
  if m = 3 then [2/3, 2/3, 1/3].getD i 0
  else if m = 4 then [1/2, 1/2, 1/2, -1/2].getD i 0 else [3/5, 4/5].getD i 0

/-- the oracles of `exRunEnv` with these unit vectors -/
def exRunEnv2 : RunEnv ℚ :=
  { exRunEnv with la := { exRunLA with
      qr := fun {m n} A => (fun i j => if (j : ℕ) = 0 then exUnit2 m i else 0,
        fun i j => A (Fin.castLE (Nat.min_le_left m n) i) j) } }

/-- the stability values of the run -/
def exRunWji : Option (List ℚ) :=
  match runScript exRunEnv2 exRunCfg exFixSvd exFixTd "TDRec" exRunData with
  | .ok d => some d.wji
  | .error _ => none

/-- what the models that meet the two chunks recommend to the test users 7 and 8 (external ids), and the
numbers they give to item 43 -/
def exTwoModels : PyM (List (List ℤ) × List (List ℤ) × Option ℤ × Option ℤ) := do
  let c := tdSetup exRunEnv2 exFixTd (1, 1, 1) 1
  let m ← tdInit c
  let t0 ← getDfWithCroppedPos ((exRunData.take 4).map IRow.row) 3 true
  let t1 ← getDfWithCroppedPos ((exRunData.take 6).map IRow.row) 3 true
  let st ← tdTrain c m (none : Option (ExitCallback ℚ Unit)) () [] t0
  let st' ← tdTrain c m (none : Option (ExitCallback ℚ Unit)) () st.seqHist t1
  let r ← tdRecommend exRunEnv2.argp st [7, 8] 1 true false
  let r' ← tdRecommend exRunEnv2.argp st' [7, 8] 1 true false
  pure (r, r', st.maps.item.old2new.get? 43, st'.maps.item.old2new.get? 43)

/-- **C95 is violated** for TDRec: in a completed run the recorded stability is 1 although the
recommendation for user 7 changes from item 42 to item 43: both have the number 2 when they are
recommended. -/
theorem C95_violated :
    (∃ d, runScript exRunEnv2 exRunCfg exFixSvd exFixTd "TDRec" exRunData = .ok d ∧ d.wji = [1]) ∧
    exTwoModels = .ok ([[42], [40]], [[43], [40]], some 3, some 2) ∧
    ∃ c m, TdSelected exRunEnv2 exRunCfg exFixTd c m ∧
      ¬ Comparable (fun initial past f =>
        ∃ st, Retrained exRunCfg.maxLen (tdTrain c m (none : Option (ExitCallback ℚ Unit)) () [])
            (fun s => tdTrain c m (none : Option (ExitCallback ℚ Unit)) () s.seqHist) initial past st ∧
          f = tdFace exRunEnv2.argp st) := by
  have key : exTwoModels = .ok ([[42], [40]], [[43], [40]], some 3, some 2) := by decide +kernel
  refine ⟨?_, key, ?_⟩
  · have h : exRunWji = some [1] := by decide +kernel
    unfold exRunWji at h
    cases hd : runScript exRunEnv2 exRunCfg exFixSvd exFixTd "TDRec" exRunData with
    | error e => rw [hd] at h; cases h
    | ok d =>
      rw [hd] at h
      exact ⟨d, rfl, Option.some.inj h⟩
  · unfold exTwoModels at key
    obtain ⟨m, hm, key⟩ := (bind_ok_iff _ _ _).1 key
    obtain ⟨t0, ht0, key⟩ := (bind_ok_iff _ _ _).1 key
    obtain ⟨t1, ht1, key⟩ := (bind_ok_iff _ _ _).1 key
    obtain ⟨st, hst, key⟩ := (bind_ok_iff _ _ _).1 key
    obtain ⟨st', hst', key⟩ := (bind_ok_iff _ _ _).1 key
    obtain ⟨r, -, key⟩ := (bind_ok_iff _ _ _).1 key
    obtain ⟨r', -, key⟩ := (bind_ok_iff _ _ _).1 key
    have key := Except.ok.inj key
    simp only [Prod.mk.injEq] at key
    obtain ⟨-, -, k1, k2⟩ := key
    refine ⟨_, m, ⟨1, 1, 1, 1, 2, by decide +kernel, rfl, hm⟩, ?_⟩
    intro h
    have g0 := Retrained.first (again := fun s => tdTrain (tdSetup exRunEnv2 exFixTd (1, 1, 1) 1) m
      (none : Option (ExitCallback ℚ Unit)) () s.seqHist) (crop_ok_isCropped _ _ _ ht0) hst
    have g1 := Retrained.again (c := ((exRunData.drop 4).take 2).map IRow.row) (t := t1) g0
      (crop_ok_isCropped _ _ _ ht1) hst'
    have := (h _ _ _ _ _ ⟨_, g0, rfl⟩ ⟨_, g1, rfl⟩).2.2 43 3 k1
    have := this.symm.trans k2
    exact absurd (Option.some.inj this) (by decide)

end DynCF
