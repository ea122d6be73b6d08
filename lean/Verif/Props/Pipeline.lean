/-
C124: where the files left by `run_experiments.py` come from.
-/
import Verif.Model.Pipeline
import Verif.Props.Search
import Verif.Props.Graphs3

namespace DynCF
variable {K : Type} [Field K] [LinearOrder K] [FloorRing K]

/-! ### Specification -/

/-- `s` is what the call computes for the file `n` on its data, with the search results `svd` and `td`. -/
inductive Fresh (P : PipeEnv K) (svd : Option (List (SvdRow K))) (td : Option (List (TdRow K))) :
    Str → Series K → Prop
  | experiment (name : String) (r : Dynamics K)
      (hn : name ∈ ["SVD", "PSIRec", "TDRec", "TDRecReinit", "TIRec", "TIRecA"])
      (hs : name = "SVD" ∨ name = "PSIRec" → svd ≠ none) (ht : name ≠ "SVD" → name ≠ "PSIRec" → td ≠ none)
      (h : runScript { P.env with clock := P.clock (.experiment name), svdCsv := svd.getD [], tdCsv := td.getD [] }
        P.cfg P.fs P.ft name P.data = .ok r) : Fresh P svd td name.toList (dynJson r)
  | ablation (name : String) (i : ℕ) (o : K × Bool) (r : Dynamics K) (t : Str × Bool)
      (hn : name ∈ ["PSIRec", "TIRecA"])
      (hs : name = "PSIRec" → svd ≠ none) (ht : name = "TIRecA" → td ≠ none)
      (h : (ablationScript
        { P.env with clock := P.clock (.ablation name), svdCsv := svd.getD [], tdCsv := td.getD [] }
        P.cfg P.fs P.ft name P.data).1[i]? = some (o, r)) (hi : optionTexts[i]? = some t) :
      Fresh P svd td (ablationName name.toList t.1 t.2) (dynJson r)

/-! ### Proof -/

theorem Dict.get?_update_nodup {α β : Type} [DecidableEq α] (d e : Dict α β) (h : (Dict.keys e).Nodup) (k : α) :
    Dict.get? (Dict.update d e) k = (Dict.get? e k).or (Dict.get? d k) := by
  induction e generalizing d with
  | nil => rfl
  | cons p e ih =>
    obtain ⟨a, b⟩ := p
    have h : a ∉ Dict.keys e ∧ (Dict.keys e).Nodup := List.nodup_cons.1 h
    rw [Dict.update_cons, ih _ h.2, Dict.get?_set, Dict.get?_cons]
    by_cases hk : a = k
    · subst hk
      rw [(Dict.get?_eq_none_iff _ _).2 h.1]
      simp
    · simp [hk]

/-- What a script after the searches adds. -/
def cmdWrites (P : PipeEnv K) (svd : Option (List (SvdRow K))) (td : Option (List (TdRow K))) :
    Cmd → Dict Str (Series K)
  | .searchSvd => []
  | .searchTd => []
  | .experiment name =>
    if csvPresent (⟨svd, td, []⟩ : Disk K) name then
      match runScript (P.envFor (.experiment name) (svd.getD []) (td.getD [])) P.cfg P.fs P.ft name P.data with
      | .ok r => [(name.toList, dynJson r)]
      | .error _ => []
    else []
  | .ablation name =>
    if csvPresent (⟨svd, td, []⟩ : Disk K) name then
      ablationWrites name
        (ablationScript (P.envFor (.ablation name) (svd.getD []) (td.getD [])) P.cfg P.fs P.ft name P.data).1
    else []

theorem runCmd_later (P : PipeEnv K) (d : Disk K) (c : Cmd) (h1 : c ≠ .searchSvd) (h2 : c ≠ .searchTd) :
    (runCmd P d c).1 = { d with files := Dict.update d.files (cmdWrites P d.svdCsv d.tdCsv c) } := by
  cases c with
  | searchSvd => exact absurd rfl h1
  | searchTd => exact absurd rfl h2
  | experiment name =>
    unfold runCmd cmdWrites
    simp only
    rw [show csvPresent d name = csvPresent (⟨d.svdCsv, d.tdCsv, []⟩ : Disk K) name from rfl]
    split
    · cases runScript (P.envFor (.experiment name) (d.svdCsv.getD []) (d.tdCsv.getD [])) P.cfg P.fs P.ft name P.data <;>
        rfl
    · rfl
  | ablation name =>
    unfold runCmd cmdWrites
    simp only
    rw [show csvPresent d name = csvPresent (⟨d.svdCsv, d.tdCsv, []⟩ : Disk K) name from rfl]
    split <;> rfl

theorem runCmds_later (P : PipeEnv K) (cs : List Cmd) (h : ∀ c ∈ cs, c ≠ .searchSvd ∧ c ≠ .searchTd) (d : Disk K) :
    (runCmds P cs d).1 =
      { d with files := Dict.update d.files (cs.flatMap (cmdWrites P d.svdCsv d.tdCsv)) } := by
  induction cs generalizing d with
  | nil => rfl
  | cons c cs ih =>
    have hc := h c (List.mem_cons_self ..)
    show (runCmds P cs (runCmd P d c).1).1 = _
    rw [ih (fun c' hc' => h c' (List.mem_cons_of_mem _ hc')), runCmd_later P d c hc.1 hc.2, List.flatMap_cons,
      Dict.update_append]

theorem runCmds_append (P : PipeEnv K) (a b : List Cmd) (d : Disk K) :
    runCmds P (a ++ b) d =
      ((runCmds P b (runCmds P a d).1).1, (runCmds P a d).2 ++ (runCmds P b (runCmds P a d).1).2) := by
  induction a generalizing d with
  | nil => rfl
  | cons c a ih =>
    simp only [List.cons_append, runCmds, ih]

/-- The names a script may write. -/
def cmdNames : Cmd → List Str
  | .searchSvd => []
  | .searchTd => []
  | .experiment name => [name.toList]
  | .ablation name => optionTexts.map fun t => ablationName name.toList t.1 t.2

theorem cmdWrites_keys (P : PipeEnv K) (svd : Option (List (SvdRow K))) (td : Option (List (TdRow K))) (c : Cmd) :
    (Dict.keys (cmdWrites P svd td c)).Sublist (cmdNames c) := by
  cases c with
  | searchSvd => exact List.Sublist.refl _
  | searchTd => exact List.Sublist.refl _
  | experiment name =>
    simp only [cmdWrites]
    split
    · cases runScript (P.envFor (.experiment name) (svd.getD []) (td.getD [])) P.cfg P.fs P.ft name P.data with
      | ok r => exact List.Sublist.refl _
      | error e => exact List.nil_sublist _
    · exact List.nil_sublist _
  | ablation name =>
    simp only [cmdWrites]
    split
    · unfold ablationWrites Dict.keys cmdNames
      rw [List.map_map]
      generalize (ablationScript (P.envFor (.ablation name) (svd.getD []) (td.getD [])) P.cfg P.fs P.ft name P.data).1 = l
      have : ∀ (l : List ((K × Bool) × Dynamics K)) (ts : List (Str × Bool)),
          ((l.zip ts).map (Prod.fst ∘ fun p => (ablationName name.toList p.2.1 p.2.2, dynJson p.1.2))).Sublist
            (ts.map fun t => ablationName name.toList t.1 t.2) := by
        intro l
        induction l with
        | nil => intro ts; exact List.nil_sublist _
        | cons x l ih =>
          intro ts
          cases ts with
          | nil => exact List.nil_sublist _
          | cons t ts => exact (ih ts).cons_cons _
      exact this l optionTexts
    · exact List.nil_sublist _

/-- The scripts after the searches. -/
def laterCmds : List Cmd := expModels.map .experiment ++ ablModels.map .ablation

theorem laterCmds_later : ∀ c ∈ laterCmds, c ≠ .searchSvd ∧ c ≠ .searchTd := by decide

theorem later_names_nodup : (laterCmds.flatMap cmdNames).Nodup := by decide +kernel

theorem flatMap_sublist' {α β : Type} (f g : α → List β) (h : ∀ a, (f a).Sublist (g a)) (l : List α) :
    (l.flatMap f).Sublist (l.flatMap g) := by
  induction l with
  | nil => exact List.Sublist.refl _
  | cons a l ih =>
    rw [List.flatMap_cons, List.flatMap_cons]
    exact (h a).append ih

theorem laterWrites_nodup (P : PipeEnv K) (svd : Option (List (SvdRow K))) (td : Option (List (TdRow K))) :
    (Dict.keys (laterCmds.flatMap (cmdWrites P svd td))).Nodup := by
  have : Dict.keys (laterCmds.flatMap (cmdWrites P svd td)) =
      laterCmds.flatMap fun c => Dict.keys (cmdWrites P svd td c) := by
    unfold Dict.keys
    rw [List.map_flatMap]
  rw [this]
  exact (flatMap_sublist' _ _ (cmdWrites_keys P svd td) _).nodup later_names_nodup

theorem mem_later_iff (P : PipeEnv K) (svd : Option (List (SvdRow K))) (td : Option (List (TdRow K))) (n : Str)
    (s : Series K) : (n, s) ∈ laterCmds.flatMap (cmdWrites P svd td) ↔ Fresh P svd td n s := by
  rw [List.mem_flatMap]
  constructor
  · rintro ⟨c, hc, h⟩
    unfold laterCmds at hc
    rcases List.mem_append.1 hc with hc | hc
    · obtain ⟨name, hn, rfl⟩ := List.mem_map.1 hc
      simp only [cmdWrites] at h
      split at h
      · rename_i hp
        split at h
        · rename_i r hr
          simp only [List.mem_singleton, Prod.mk.injEq] at h
          obtain ⟨rfl, rfl⟩ := h
          have hp : (if name ∈ ["SVD", "PSIRec"] then svd.isSome else td.isSome) = true := hp
          refine .experiment name r ?_ ?_ ?_ hr
          · have : ∀ name ∈ expModels, name ∈ ["SVD", "PSIRec", "TDRec", "TDRecReinit", "TIRec", "TIRecA"] := by decide
            exact this name hn
          · intro h1
            rw [if_pos (by simpa using h1)] at hp
            rintro rfl
            cases hp
          · intro h1 h2
            rw [if_neg (by simp [h1, h2])] at hp
            rintro rfl
            cases hp
        · cases h
      · cases h
    · obtain ⟨name, hn, rfl⟩ := List.mem_map.1 hc
      simp only [cmdWrites] at h
      split at h
      · rename_i hp
        have hp : (if name ∈ ["SVD", "PSIRec"] then svd.isSome else td.isSome) = true := hp
        obtain ⟨⟨⟨o, r⟩, t⟩, hx, he⟩ := List.mem_map.1 h
        obtain ⟨i, hi⟩ := List.getElem?_of_mem hx
        rw [List.getElem?_zip_eq_some] at hi
        simp only [Prod.mk.injEq] at he
        obtain ⟨rfl, rfl⟩ := he
        refine .ablation name i o r t hn ?_ ?_ hi.1 hi.2
        · rintro rfl
          rw [if_pos (by decide)] at hp
          rintro rfl
          cases hp
        · rintro rfl
          rw [if_neg (by decide)] at hp
          rintro rfl
          cases hp
      · cases h
  · intro h
    cases h with
    | experiment name r hn hs ht h =>
      refine ⟨.experiment name, ?_, ?_⟩
      · revert hn
        clear h hs ht
        revert name
        decide
      · simp only [cmdWrites]
        have hp : csvPresent (⟨svd, td, []⟩ : Disk K) name = true := by
          unfold csvPresent
          split
          · rename_i hm
            exact Option.ne_none_iff_isSome.1 (hs (by simpa using hm))
          · rename_i hm
            simp only [List.mem_cons, List.not_mem_nil, or_false, not_or] at hm
            exact Option.ne_none_iff_isSome.1 (ht hm.1 hm.2)
        rw [if_pos hp]
        have h : runScript (P.envFor (.experiment name) (svd.getD []) (td.getD [])) P.cfg P.fs P.ft name P.data =
          .ok r := h
        rw [h]
        exact List.mem_singleton.2 rfl
    | ablation name i o r t hn hs ht h hi =>
      refine ⟨.ablation name, List.mem_append_right _ (List.mem_map.2 ⟨name, hn, rfl⟩), ?_⟩
      simp only [cmdWrites]
      have hp : csvPresent (⟨svd, td, []⟩ : Disk K) name = true := by
        unfold csvPresent
        simp only [List.mem_cons, List.not_mem_nil, or_false] at hn
        rcases hn with rfl | rfl
        · exact Option.ne_none_iff_isSome.1 (hs rfl)
        · exact Option.ne_none_iff_isSome.1 (ht rfl)
      rw [if_pos hp]
      refine List.mem_map.2 ⟨((o, r), t), ?_, rfl⟩
      exact List.mem_of_getElem? (List.getElem?_zip_eq_some.2 ⟨h, hi⟩)

theorem pipelineCmds_eq : pipelineCmds = [.searchSvd, .searchTd] ++ laterCmds := rfl

/-- The search results after the call. -/
theorem runCmds_search (P : PipeEnv K) (d : Disk K) :
    (runCmds P [.searchSvd, .searchTd] d).1 =
      ⟨(hyperparametersSearchSvd P.env P.se P.cfg P.sc P.fs P.data).toOption.or d.svdCsv,
        (hyperparametersSearchTdrec P.env P.se P.cfg P.sc P.ft P.data).toOption.or d.tdCsv, d.files⟩ ∧
    (runCmds P [.searchSvd, .searchTd] d).2 =
      [match hyperparametersSearchSvd P.env P.se P.cfg P.sc P.fs P.data with | .ok _ => none | .error e => some e,
        match hyperparametersSearchTdrec P.env P.se P.cfg P.sc P.ft P.data with
          | .ok _ => none | .error e => some e] := by
  have e1 : ∀ c rs rt, hyperparametersSearchSvd (P.envFor c rs rt) P.se P.cfg P.sc P.fs P.data =
    hyperparametersSearchSvd P.env P.se P.cfg P.sc P.fs P.data := fun _ _ _ => rfl
  have e2 : ∀ c rs rt, hyperparametersSearchTdrec (P.envFor c rs rt) P.se P.cfg P.sc P.ft P.data =
    hyperparametersSearchTdrec P.env P.se P.cfg P.sc P.ft P.data := fun _ _ _ => rfl
  simp only [runCmds, runCmd, e1, e2]
  cases hyperparametersSearchSvd P.env P.se P.cfg P.sc P.fs P.data <;>
    cases hyperparametersSearchTdrec P.env P.se P.cfg P.sc P.ft P.data <;> exact ⟨rfl, rfl⟩

/-- **C124, sources (partial).** After a call, whatever failed: the search results are the new ones, or the old
ones where the search failed; a file is what the call computes from these, or what it was before if the call
computes nothing for it. Missing: nothing old is used (`C124_violated`). -/
theorem C124_sources_partial (P : PipeEnv K) (d : Disk K) :
    let out := (runExperiments P d).1.1
    (∀ r, hyperparametersSearchSvd P.env P.se P.cfg P.sc P.fs P.data = .ok r → out.svdCsv = some r) ∧
    (∀ e, hyperparametersSearchSvd P.env P.se P.cfg P.sc P.fs P.data = .error e → out.svdCsv = d.svdCsv) ∧
    (∀ r, hyperparametersSearchTdrec P.env P.se P.cfg P.sc P.ft P.data = .ok r → out.tdCsv = some r) ∧
    (∀ e, hyperparametersSearchTdrec P.env P.se P.cfg P.sc P.ft P.data = .error e → out.tdCsv = d.tdCsv) ∧
    ∀ n, (∀ s, Fresh P out.svdCsv out.tdCsv n s → Dict.get? out.files n = some s) ∧
      ((∀ s, ¬ Fresh P out.svdCsv out.tdCsv n s) → Dict.get? out.files n = Dict.get? d.files n) := by
  have hout : (runExperiments P d).1.1 =
      ⟨(hyperparametersSearchSvd P.env P.se P.cfg P.sc P.fs P.data).toOption.or d.svdCsv,
        (hyperparametersSearchTdrec P.env P.se P.cfg P.sc P.ft P.data).toOption.or d.tdCsv,
        Dict.update d.files (laterCmds.flatMap (cmdWrites P
          ((hyperparametersSearchSvd P.env P.se P.cfg P.sc P.fs P.data).toOption.or d.svdCsv)
          ((hyperparametersSearchTdrec P.env P.se P.cfg P.sc P.ft P.data).toOption.or d.tdCsv)))⟩ := by
    show (runCmds P pipelineCmds d).1 = _
    rw [pipelineCmds_eq, runCmds_append]
    simp only
    rw [runCmds_later P laterCmds laterCmds_later, (runCmds_search P d).1]
  simp only [hout]
  refine ⟨?_, ?_, ?_, ?_, ?_⟩
  · intro r h; rw [h]; rfl
  · intro r h; rw [h]; rfl
  · intro r h; rw [h]; rfl
  · intro r h; rw [h]; rfl
  · intro n
    rw [Dict.get?_update_nodup _ _ (laterWrites_nodup P _ _)]
    constructor
    · intro s hs
      rw [Dict.get?_of_mem _ (laterWrites_nodup P _ _) ((mem_later_iff P _ _ n s).2 hs)]
      rfl
    · intro hs
      rw [(Dict.get?_eq_none_iff _ _).2]
      · rfl
      · intro hk
        obtain ⟨⟨n', s⟩, hm, rfl⟩ := List.mem_map.1 hk
        exact hs s ((mem_later_iff P _ _ n' s).1 hm)

/-- **C124, clean start.** If no results existed before, everything there afterwards has been computed by the call,
whatever failed. -/
theorem C124_clean (P : PipeEnv K) :
    let out := (runExperiments P ⟨none, none, []⟩).1.1
    (∀ r, out.svdCsv = some r → hyperparametersSearchSvd P.env P.se P.cfg P.sc P.fs P.data = .ok r) ∧
    (∀ r, out.tdCsv = some r → hyperparametersSearchTdrec P.env P.se P.cfg P.sc P.ft P.data = .ok r) ∧
    ∀ n s, Dict.get? out.files n = some s ↔ Fresh P out.svdCsv out.tdCsv n s := by
  obtain ⟨a1, a2, a3, a4, a5⟩ := C124_sources_partial P ⟨none, none, []⟩
  refine ⟨?_, ?_, ?_⟩
  · intro r h
    cases hs : hyperparametersSearchSvd P.env P.se P.cfg P.sc P.fs P.data with
    | error e => rw [a2 e hs] at h; cases h
    | ok r' => rw [a1 r' hs] at h; exact congrArg Except.ok (Option.some.inj h)
  · intro r h
    cases hs : hyperparametersSearchTdrec P.env P.se P.cfg P.sc P.ft P.data with
    | error e => rw [a4 e hs] at h; cases h
    | ok r' => rw [a3 r' hs] at h; exact congrArg Except.ok (Option.some.inj h)
  · intro n s
    refine ⟨fun h => ?_, (a5 n).1 s⟩
    by_cases hc : ∃ s', Fresh P (runExperiments P ⟨none, none, []⟩).1.1.svdCsv
        (runExperiments P ⟨none, none, []⟩).1.1.tdCsv n s'
    · obtain ⟨s', hs'⟩ := hc
      rw [(a5 n).1 s' hs'] at h
      rw [← Option.some.inj h]
      exact hs'
    · rw [(a5 n).2 fun s' hs' => hc ⟨s', hs'⟩] at h
      cases h

/-! ### Success -/

theorem cmdWrites_full (P : PipeEnv K) (d : Disk K) (c : Cmd) (hc : c ∈ laterCmds) (h : (runCmd P d c).2 = none) :
    Dict.keys (cmdWrites P d.svdCsv d.tdCsv c) = cmdNames c := by
  unfold laterCmds at hc
  rcases List.mem_append.1 hc with hc | hc
  · obtain ⟨name, hn, rfl⟩ := List.mem_map.1 hc
    simp only [runCmd] at h
    simp only [cmdWrites]
    rw [show csvPresent (⟨d.svdCsv, d.tdCsv, []⟩ : Disk K) name = csvPresent d name from rfl]
    split at h
    · rename_i hp
      rw [if_pos hp]
      split at h
      · rename_i r hr
        rw [hr]
        rfl
      · cases h
    · cases h
  · obtain ⟨name, hn, rfl⟩ := List.mem_map.1 hc
    simp only [runCmd] at h
    simp only [cmdWrites]
    rw [show csvPresent (⟨d.svdCsv, d.tdCsv, []⟩ : Disk K) name = csvPresent d name from rfl]
    split at h
    · rename_i hp
      rw [if_pos hp]
      have hl : (ablationScript (P.envFor (.ablation name) (d.svdCsv.getD []) (d.tdCsv.getD [])) P.cfg P.fs P.ft name
          P.data).1.length = 7 := by
        have key : ∀ (run : K × Bool → PyM (Dynamics K)), (ablationLoop run ablationOptions).2 = none →
            (ablationLoop run ablationOptions).1.length = 7 := by
          intro run hrun
          obtain ⟨rest, h1, -, ⟨h3, -⟩ | ⟨_, _, _, -, -, h3⟩⟩ := ablationLoop_spec run ablationOptions
          · subst h3
            have := congrArg List.length h1
            rw [List.append_nil, List.length_map] at this
            rw [← this]
            rfl
          · rw [hrun] at h3
            cases h3
        unfold ablationScript at h ⊢
        split
        · rename_i h1
          rw [if_pos h1] at h
          exact key _ h
        · rename_i h1
          rw [if_neg h1] at h
          split
          · rename_i h2
            rw [if_pos h2] at h
            exact key _ h
          · rename_i h2
            rw [if_neg h2] at h
            cases h
      unfold ablationWrites Dict.keys cmdNames
      rw [List.map_map]
      generalize (ablationScript (P.envFor (.ablation name) (d.svdCsv.getD []) (d.tdCsv.getD [])) P.cfg P.fs P.ft name
          P.data).1 = l at hl
      have : ∀ (l : List ((K × Bool) × Dynamics K)) (ts : List (Str × Bool)), l.length = ts.length →
          (l.zip ts).map (Prod.fst ∘ fun p => (ablationName name.toList p.2.1 p.2.2, dynJson p.1.2)) =
            ts.map fun t => ablationName name.toList t.1 t.2 := by
        intro l
        induction l with
        | nil =>
          intro ts h
          rw [List.length_eq_zero_iff.1 h.symm]
          rfl
        | cons x l ih =>
          intro ts h
          cases ts with
          | nil => cases h
          | cons t ts =>
            rw [List.zip_cons_cons, List.map_cons, List.map_cons, ih ts (by simpa using h)]
            rfl
      exact this l optionTexts (hl.trans rfl)
    · cases h

theorem runCmds_full (P : PipeEnv K) (cs : List Cmd) (hcs : ∀ c ∈ cs, c ∈ laterCmds) (d : Disk K)
    (h : ∀ e ∈ (runCmds P cs d).2, e = none) :
    cs.flatMap (fun c => Dict.keys (cmdWrites P d.svdCsv d.tdCsv c)) = cs.flatMap cmdNames := by
  induction cs generalizing d with
  | nil => rfl
  | cons c cs ih =>
    have hc := laterCmds_later c (hcs c (List.mem_cons_self ..))
    have h1 : (runCmd P d c).2 = none := h _ (List.mem_cons_self ..)
    have h2 := ih (fun c' hc' => hcs c' (List.mem_cons_of_mem _ hc')) (runCmd P d c).1
      (fun e he => h e (List.mem_cons_of_mem _ he))
    rw [runCmd_later P d c hc.1 hc.2] at h2
    rw [List.flatMap_cons, List.flatMap_cons, h2, cmdWrites_full P d c (hcs c (List.mem_cons_self ..)) h1]

theorem later_names : laterCmds.flatMap cmdNames = allRuns.map RunId.name := by decide +kernel

/-- **C124, success.** If no script fails, both search results are those of the call, and each of the twenty
result files is what the call computes with them, whatever was there before. -/
theorem C124_success (P : PipeEnv K) (d : Disk K) (h : ∀ e ∈ (runExperiments P d).1.2, e = none) :
    ∃ rs rt, hyperparametersSearchSvd P.env P.se P.cfg P.sc P.fs P.data = .ok rs ∧
      hyperparametersSearchTdrec P.env P.se P.cfg P.sc P.ft P.data = .ok rt ∧
      (runExperiments P d).1.1.svdCsv = some rs ∧ (runExperiments P d).1.1.tdCsv = some rt ∧
      (∀ r ∈ allRuns, ∃ s, Dict.get? (runExperiments P d).1.1.files r.name = some s ∧
        Fresh P (some rs) (some rt) r.name s) ∧
      ∀ n, n ∉ allRuns.map RunId.name → Dict.get? (runExperiments P d).1.1.files n = Dict.get? d.files n := by
  obtain ⟨a1, a2, a3, a4, a5⟩ := C124_sources_partial P d
  have he : (runExperiments P d).1.2 = (runCmds P [.searchSvd, .searchTd] d).2 ++
      (runCmds P laterCmds (runCmds P [.searchSvd, .searchTd] d).1).2 := by
    show (runCmds P pipelineCmds d).2 = _
    rw [pipelineCmds_eq, runCmds_append]
  rw [he] at h
  have h1 : ∀ e ∈ (runCmds P [.searchSvd, .searchTd] d).2, e = none := fun e hm => h e (List.mem_append_left _ hm)
  have h2 := runCmds_full P laterCmds (fun _ h => h) _ (fun e hm => h e (List.mem_append_right _ hm))
  rw [(runCmds_search P d).2] at h1
  rw [(runCmds_search P d).1] at h2
  cases hs : hyperparametersSearchSvd P.env P.se P.cfg P.sc P.fs P.data with
  | error e => rw [hs] at h1; cases h1 _ (List.mem_cons_self ..)
  | ok rs =>
    cases ht : hyperparametersSearchTdrec P.env P.se P.cfg P.sc P.ft P.data with
    | error e => rw [ht] at h1; cases h1 _ (List.mem_cons_of_mem _ (List.mem_cons_self ..))
    | ok rt =>
      rw [a1 rs hs, a3 rt ht] at a5
      rw [hs, ht] at h2
      have h2 : (laterCmds.flatMap fun c => Dict.keys (cmdWrites P (some rs) (some rt) c)) =
        laterCmds.flatMap cmdNames := h2
      rw [later_names] at h2
      have hkeys : Dict.keys (laterCmds.flatMap (cmdWrites P (some rs) (some rt))) = allRuns.map RunId.name := by
        rw [← h2]
        unfold Dict.keys
        rw [List.map_flatMap]
      refine ⟨rs, rt, rfl, rfl, a1 rs hs, a3 rt ht, ?_, ?_⟩
      · intro r hr
        have : r.name ∈ Dict.keys (laterCmds.flatMap (cmdWrites P (some rs) (some rt))) := by
          rw [hkeys]
          exact List.mem_map_of_mem hr
        obtain ⟨⟨n, s⟩, hm, hn⟩ := List.mem_map.1 this
        simp only at hn
        subst hn
        have hf := (mem_later_iff P _ _ _ _).1 hm
        exact ⟨s, (a5 _).1 s hf, hf⟩
      · intro n hn
        refine (a5 n).2 fun s hs => hn ?_
        rw [← hkeys]
        exact List.mem_map.2 ⟨(n, s), (mem_later_iff P _ _ n s).2 hs, rfl⟩

/-! ### Witness -/

/-- A call on `exSearchData` with a grid containing the rank 5, too large for three users. -/
def exPipe (ranks : List ℕ) : PipeEnv ℚ :=
  ⟨exRunEnv, exSearchEnv, exSearchRun, ⟨4/5, ranks, [(1, 1, 1)], [1]⟩, exFixSvd, exFixTd,
    ⟨"steam".toList, ["SVD".toList], "results/steam/metric_dynamics".toList, 1, [20], 1, 7/8, none⟩,
    fun _ n => n, id, exSearchData⟩

/-- **C124 is violated**: the search fails and leaves the file of an earlier call, and the nine later scripts use it
and succeed; without the old file there is no result for SVD. -/
theorem C124_violated :
    hyperparametersSearchSvd exRunEnv exSearchEnv exSearchRun ⟨4/5, [1, 5], [(1, 1, 1)], [1]⟩ exFixSvd exSearchData =
      .error .valueError ∧
    (runExperiments (exPipe [1, 5]) ⟨some [⟨2, 1⟩], none, []⟩).1.1.svdCsv = some [⟨2, 1⟩] ∧
    (runExperiments (exPipe [1, 5]) ⟨some [⟨2, 1⟩], none, []⟩).1.2 =
      some .valueError :: List.replicate 9 none ∧
    ((Dict.get? (runExperiments (exPipe [1, 5]) ⟨some [⟨2, 1⟩], none, []⟩).1.1.files "SVD".toList).bind
      fun s => Dict.get? s "hr".toList) = some [1] ∧
    Dict.get? (runExperiments (exPipe [1, 5]) ⟨none, none, []⟩).1.1.files "SVD".toList = none := by
  refine ⟨?_, ?_, ?_, ?_, ?_⟩ <;> decide +kernel

/-- With the ranks 1 and 2 no script fails, even with old files around. -/
theorem exPipe_success : ∀ e ∈ (runExperiments (exPipe [1, 2]) ⟨some [⟨5, 1⟩], none, [("SVD".toList, [])]⟩).1.2,
    e = none := by decide +kernel

example : ∃ rs rt s, (runExperiments (exPipe [1, 2]) ⟨some [⟨5, 1⟩], none, [("SVD".toList, [])]⟩).1.1.svdCsv = some rs ∧
    Dict.get? (runExperiments (exPipe [1, 2]) ⟨some [⟨5, 1⟩], none, [("SVD".toList, [])]⟩).1.1.files "SVD".toList = some s ∧
    Fresh (exPipe [1, 2]) (some rs) (some rt) "SVD".toList s := by
  obtain ⟨rs, rt, -, -, h, -, h', -⟩ := C124_success _ _ exPipe_success
  obtain ⟨s, h1, h2⟩ := h' (.plain "SVD".toList) (by decide)
  exact ⟨rs, rt, s, h, h1, h2⟩

end DynCF
