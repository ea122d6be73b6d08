/-
C114: the curves of the ablation figures carry the option they were computed with, and none is lost.
-/
import Verif.Lemmas.Strings
import Verif.Lemmas.Dict
import Verif.Lemmas.Hooi

namespace DynCF

/-- A text without the characters used to separate the parts of a name. -/
def PlainText (s : Str) : Prop := '_' ∉ s ∧ '/' ∉ s ∧ '(' ∉ s ∧ ';' ∉ s ∧ ¬ ".json".toList <:+: s

instance (s : Str) : Decidable (PlainText s) := by unfold PlainText; infer_instance

/-- The run a result file belongs to: a model as the experiment script prepares it, or a model with an option of
the ablation study. -/
inductive RunId
  | plain (model : Str)
  | option (model std : Str) (integ : Bool)
  deriving DecidableEq

/-- The name of its file. -/
def RunId.name : RunId → Str
  | .plain m => m
  | .option m s b => ablationName m s b

/-- The label it should have: the model, and in brackets the deviation and `0` or `B`. -/
def RunId.label : RunId → Str
  | .plain m => m
  | .option m s b => m ++ ['('] ++ s ++ [';'] ++ (if b then ['0', ')'] else ['B', ')'])

/-- The runs drawn for a target: the plain models `plains` and options of models named by plain text. -/
def RunId.Ok (target : Str) (plains : List Str) : RunId → Prop
  | .plain m => m ∈ plains
  | .option m s _ => PlainText m ∧ PlainText s ∧ s ≠ "int".toList ∧ target <:+: m

instance (target : Str) (plains : List Str) : (r : RunId) → Decidable (r.Ok target plains)
  | .plain m => inferInstanceAs (Decidable (m ∈ plains))
  | .option m s _ => inferInstanceAs (Decidable (PlainText m ∧ PlainText s ∧ s ≠ "int".toList ∧ target <:+: m))

/-! ### Labels -/

theorem breakOn_int (m s b : Str) (hm : '_' ∉ m) (hs : '_' ∉ s) (hi : s ≠ "int".toList) :
    breakOn "_int_".toList (m ++ "_std_".toList ++ s ++ "_int_".toList ++ b) =
      some (m ++ "_std_".toList ++ s, b) := by
  have hh := breakOn_here "_int_".toList b (by decide)
  have e2 : breakOn "_int_".toList ('_' :: (s ++ ("_int_".toList ++ b))) = some ('_' :: s, b) := by
    rw [breakOn, if_neg]
    · rw [show "_int_".toList = '_' :: "int_".toList from rfl] at hh ⊢
      rw [breakOn_skip '_' _ s _ hs, hh]
      simp
    · intro hp
      rw [List.isPrefixOf_iff_prefix] at hp
      obtain ⟨r, hr⟩ := hp
      rw [show "_int_".toList ++ r = '_' :: 'i' :: 'n' :: 't' :: '_' :: r from rfl] at hr
      replace hr := (List.cons.inj hr).2
      match s, hs, hi, hr with
      | [], _, _, hr => simp at hr
      | [_], _, _, hr => simp at hr
      | [_, _], _, _, hr => simp at hr
      | [a, b', c], _, hi, hr =>
        simp only [List.cons_append, List.nil_append, List.cons.injEq] at hr
        obtain ⟨rfl, rfl, rfl, -⟩ := hr
        exact hi rfl
      | a :: b' :: c :: d :: s, hs, _, hr =>
        simp only [List.cons_append, List.cons.injEq] at hr
        obtain ⟨-, -, -, rfl, -⟩ := hr
        simp at hs
  have e1 : breakOn "_int_".toList ("_std_".toList ++ (s ++ ("_int_".toList ++ b))) =
      some ("_std_".toList ++ s, b) := by
    rw [show "_std_".toList ++ (s ++ ("_int_".toList ++ b)) =
      '_' :: 's' :: 't' :: 'd' :: '_' :: (s ++ ("_int_".toList ++ b)) from rfl]
    rw [breakOn, if_neg (by simp [List.isPrefixOf]), breakOn, if_neg (by simp [List.isPrefixOf]),
      breakOn, if_neg (by simp [List.isPrefixOf]), breakOn, if_neg (by simp [List.isPrefixOf]), e2]
    rfl
  rw [show m ++ "_std_".toList ++ s ++ "_int_".toList ++ b =
    m ++ ("_std_".toList ++ (s ++ ("_int_".toList ++ b))) by simp]
  rw [show "_int_".toList = '_' :: "int_".toList from rfl] at e1 ⊢
  rw [breakOn_skip '_' _ m _ hm, e1]
  simp

theorem optionLabel_name (m s : Str) (b : Bool) (hm : '_' ∉ m) (hs : '_' ∉ s) (hi : s ≠ "int".toList) :
    optionLabel (ablationName m s b) = .ok (RunId.option m s b).label := by
  have h1 : pySplit "_int_".toList (ablationName m s b) = [m ++ "_std_".toList ++ s, boolStr b] :=
    pySplit_two (by decide) (breakOn_int m s _ hm hs hi) (by cases b <;> decide)
  have h2 : pySplit "_std_".toList (m ++ "_std_".toList ++ s) = [m, s] := by
    refine pySplit_two (by decide) ?_ (breakOn_none '_' _ s hs)
    have := breakOn_here "_std_".toList s (by decide)
    rw [show "_std_".toList = '_' :: "std_".toList from rfl] at this ⊢
    rw [List.append_assoc, breakOn_skip '_' _ m _ hm, this]
    simp
  unfold optionLabel
  simp only [h1, h2]
  congr 1
  unfold RunId.label
  by_cases h0 : s = "0".toList
  · cases b <;> simp [h0, boolStr]
  · have h0' : s ≠ ['0'] := h0
    cases b <;> simp [h0', boolStr]

theorem ablationName_underscore (m s : Str) (b : Bool) : '_' ∈ ablationName m s b := by
  simp [ablationName]

/-- **C114, labels.** Both functions turn the name of a file of the ablation study into the model with its
deviation and flag in brackets, and leave the names of whole models as they are. -/
theorem C114_label (m s : Str) (b : Bool) (hm : PlainText m) (hs : PlainText s) (hi : s ≠ "int".toList) :
    mapTensorName (ablationName m s b) = .ok (RunId.option m s b).label ∧
    mapMatrixName (ablationName m s b) = .ok (RunId.option m s b).label ∧
    mapTensorName "TIRec".toList = .ok "TIRec".toList ∧ mapTensorName "TIRecA".toList = .ok "TIRecA".toList ∧
    mapMatrixName "PSIRec".toList = .ok "PSIRec".toList := by
  have hu := ablationName_underscore m s b
  have hne : ∀ t : Str, '_' ∉ t → ablationName m s b ≠ t := by
    rintro t ht rfl
    exact ht hu
  refine ⟨?_, ?_, rfl, rfl, rfl⟩
  · unfold mapTensorName
    rw [if_neg (hne _ (by decide)), if_neg (hne _ (by decide))]
    exact optionLabel_name m s b hm.1 hs.1 hi
  · unfold mapMatrixName
    rw [if_neg (hne _ (by decide))]
    exact optionLabel_name m s b hm.1 hs.1 hi

/-- **C114, labels are different.** Two runs with the same label are the same run. -/
theorem C114_injective (target : Str) (plains : List Str) (hp : ∀ m ∈ plains, PlainText m) (r r' : RunId)
    (h : r.Ok target plains) (h' : r'.Ok target plains) (he : r.label = r'.label) : r = r' := by
  have hopt : ∀ (m s : Str) (b : Bool), '(' ∈ (RunId.option m s b).label := by
    intro m s b
    simp [RunId.label]
  match r, r', h, h', he with
  | .plain m, .plain m', _, _, he => exact congrArg RunId.plain he
  | .plain m, .option m' s' b', h, _, he =>
    have := hopt m' s' b'
    rw [← he] at this
    exact absurd this (hp m h).2.2.1
  | .option m s b, .plain m', _, h', he =>
    have := hopt m s b
    rw [he] at this
    exact absurd this (hp m' h').2.2.1
  | .option m s b, .option m' s' b', h, h', he =>
    simp only [RunId.label, List.append_assoc, List.singleton_append] at he
    obtain ⟨rfl, he1⟩ := append_cons_inj '(' m m' _ _ h.1.2.2.1 h'.1.2.2.1 he
    obtain ⟨rfl, he2⟩ := append_cons_inj ';' s s' _ _ h.2.1.2.2.2.1 h'.2.1.2.2.2.1 he1
    cases b <;> cases b' <;> simp at he2 ⊢

/-- **C114, refused names.** A name that is not one of the whole models and does not have the form
`model_std_…_int_…` raises `ValueError`; nothing else can be raised. -/
theorem C114_refused (name : Str) :
    (∀ e, mapTensorName name = .error e → e = .valueError) ∧
    (∀ e, mapMatrixName name = .error e → e = .valueError) ∧
    (∀ l, mapTensorName name = .ok l → name = "TIRec".toList ∨ name = "TIRecA".toList ∨
      ∃ m s b : Str, name = m ++ "_std_".toList ++ s ++ "_int_".toList ++ b) ∧
    (∀ l, mapMatrixName name = .ok l → name = "PSIRec".toList ∨
      ∃ m s b : Str, name = m ++ "_std_".toList ++ s ++ "_int_".toList ++ b) := by
  have herr : ∀ e, optionLabel name = .error e → e = .valueError := by
    intro e he
    unfold optionLabel at he
    split at he
    · split at he
      · simp at he
      · simpa using he.symm
    · simpa using he.symm
  have hok : ∀ l, optionLabel name = .ok l →
      ∃ m s b : Str, name = m ++ "_std_".toList ++ s ++ "_int_".toList ++ b := by
    intro l hl
    unfold optionLabel at hl
    split at hl
    · rename_i left im h1
      split at hl
      · rename_i m s h2
        refine ⟨m, s, im, ?_⟩
        have e1 := splitN_join "_int_".toList name.length name
        have e2 := splitN_join "_std_".toList left.length left
        unfold pySplit at h1 h2
        rw [h1] at e1
        rw [h2] at e2
        simp only [List.intercalate, List.intersperse, List.flatten_cons, List.flatten_nil,
          List.append_nil] at e1 e2
        rw [← e1, ← e2]
        simp
      · simp at hl
    · simp at hl
  refine ⟨?_, ?_, ?_, ?_⟩
  · intro e he
    unfold mapTensorName at he
    split at he
    · simp at he
    · split at he
      · simp at he
      · exact herr e he
  · intro e he
    unfold mapMatrixName at he
    split at he
    · simp at he
    · exact herr e he
  · intro l hl
    unfold mapTensorName at hl
    split at hl
    · exact .inl ‹_›
    · split at hl
      · exact .inr (.inl ‹_›)
      · exact .inr (.inr (hok l hl))
  · intro l hl
    unfold mapMatrixName at hl
    split at hl
    · exact .inl ‹_›
    · exact .inr (hok l hl)

/-! ### Files -/

theorem stemOf_path (dir name : Str) (h1 : '/' ∉ name) (h2 : ¬ ".json".toList <:+: name) :
    stemOf (resultPath dir name) = name := by
  have hl : (pySplit "/".toList (resultPath dir name)).getLastD [] = name ++ ".json".toList := by
    have := pySplit_last '/' dir (name ++ ".json".toList) (by simpa using h1)
    unfold resultPath
    simpa using this
  unfold stemOf
  rw [hl]
  have hb : breakOn ".json".toList (name ++ ".json".toList ++ []) = some (name, []) := by
    refine breakOn_first _ _ _ (by decide) ?_
    rintro ⟨p, q, e⟩
    apply h2
    have hn : (name ++ ".json".toList.dropLast)[p.length + 4]? = some 'n' := by
      rw [← e, show p ++ ".json".toList ++ q = p ++ ('.' :: 'j' :: 's' :: 'o' :: 'n' :: q) by simp]
      simp
    by_cases hlt : p.length + 4 < name.length
    · have hp1 : p ++ ".json".toList <+: name ++ ".json".toList.dropLast := ⟨q, e⟩
      have hp2 : p ++ ".json".toList <+: name :=
        List.prefix_of_prefix_length_le hp1 (List.prefix_append _ _) (by simp; omega)
      exact (List.infix_append' p ".json".toList []).trans (by simpa using hp2.isInfix)
    · rw [List.getElem?_append_right (by omega)] at hn
      have : ∀ i : ℕ, (".json".toList.dropLast)[i]? ≠ some 'n' := by
        intro i hi
        have := List.mem_of_getElem? hi
        revert this
        decide
      exact absurd hn (this _)
  rw [List.append_nil] at hb
  obtain ⟨n, -, e⟩ := pySplit_cons (by decide) hb
  rw [e]
  rfl

/-- A text without the character `c` that occurs around a `c` occurs before or after it. -/
theorem infix_around (c : Char) (t x y : Str) (h : c ∉ t) (hi : t <:+: x ++ c :: y) : t <:+: x ∨ t <:+: y := by
  obtain ⟨p, q, hpq⟩ := hi
  by_cases hle : p.length + t.length ≤ x.length
  · left
    have h3 : p ++ t <+: x ++ c :: y := ⟨q, hpq⟩
    have h4 : p ++ t <+: x :=
      List.prefix_of_prefix_length_le h3 (List.prefix_append _ _) (by simpa using hle)
    exact (List.infix_append' p t []).trans (by simpa using h4.isInfix)
  · right
    by_cases hp : p.length ≤ x.length
    · exfalso
      apply h
      have hs : (p ++ t ++ q)[x.length]? = some c := by rw [hpq]; simp
      rw [List.append_assoc, List.getElem?_append_right hp, List.getElem?_append_left (by omega)] at hs
      exact List.mem_of_getElem? hs
    · have hpre : x ++ [c] <+: p := by
        have a1 : x ++ [c] <+: p ++ t ++ q := ⟨y, by rw [hpq]; simp⟩
        have a2 : p <+: p ++ t ++ q := ⟨t ++ q, by simp⟩
        exact List.prefix_of_prefix_length_le a1 a2 (by simp; omega)
      obtain ⟨p', rfl⟩ := hpre
      refine ⟨p', q, ?_⟩
      have : (x ++ [c]) ++ (p' ++ t ++ q) = (x ++ [c]) ++ y := by simpa using hpq
      exact List.append_cancel_left this

/-- **C114, selection.** Whether a path contains the target does not depend on the directory, unless the
directory contains it. -/
theorem C114_selection (target dir name : Str) (h1 : '/' ∉ target) (h2 : ¬ target <:+: dir) :
    target <:+: resultPath dir name ↔ target <:+: name ++ ".json".toList := by
  have e : resultPath dir name = dir ++ '/' :: (name ++ ".json".toList) := by simp [resultPath]
  rw [e]
  constructor
  · intro h
    exact (infix_around '/' target _ _ h1 h).resolve_left h2
  · intro h
    exact h.trans ⟨dir ++ ['/'], [], by simp⟩

/-! ### The dictionary -/

theorem foldlM_set_fresh {α J : Type} (f : α → PyM Str) (g : α → Str) (v : α → J) (l : List α)
    (hf : ∀ a ∈ l, f a = .ok (g a)) (d : Dict Str J) (hnd : (l.map g).Nodup)
    (hdis : ∀ a ∈ l, g a ∉ Dict.keys d) :
    l.foldlM (fun d a => do
      let n ← f a
      pure (Dict.set d n (v a))) d = (.ok (d ++ l.map fun a => (g a, v a)) : PyM (Dict Str J)) := by
  induction l generalizing d with
  | nil => simp; rfl
  | cons a l ih =>
    rw [List.foldlM_cons, hf a (by simp)]
    simp only [except_bind_ok, pure_bind]
    rw [List.map_cons, List.nodup_cons] at hnd
    rw [Dict.set_not_mem d (g a) (v a) (hdis a (by simp)),
      ih (fun b hb => hf b (List.mem_cons_of_mem _ hb)) _ hnd.2]
    · simp
    · intro b hb hk
      simp only [Dict.keys, List.map_append, List.map_cons, List.map_nil, List.mem_append,
        List.mem_singleton] at hk
      rcases hk with hk | hk
      · exact hdis b (List.mem_cons_of_mem _ hb) hk
      · exact hnd.1 (List.mem_map.2 ⟨b, hb, hk⟩)

/-- **C114, curves.** The directory holds, in any order, the files of `runs` and other entries that are not
selected. The figure then gets one curve per run, each under the label of its run with the contents of its
file. -/
theorem C114_curves {J : Type} (target dir : Str) (plains : List Str) (mapper : Str → PyM Str)
    (runs : List (RunId × J)) (others entries : List (Str × Bool × J))
    (hplain : ∀ m ∈ plains, PlainText m ∧ target <:+: m ∧ mapper m = .ok m)
    (hmap : ∀ m s b, PlainText m → PlainText s → s ≠ "int".toList →
      mapper (ablationName m s b) = .ok (RunId.option m s b).label)
    (hruns : (runs.map Prod.fst).Nodup) (hok : ∀ r ∈ runs, r.1.Ok target plains)
    (hothers : ∀ o ∈ others, ¬ (o.2.1 = true ∧ target <:+: o.1))
    (hentries : entries.Perm ((runs.map fun r => (resultPath dir r.1.name, true, r.2)) ++ others)) :
    ∃ d : Dict Str J, ablationDict target mapper entries = .ok d ∧
      d.Perm (runs.map fun r => (r.1.label, r.2)) ∧ (Dict.keys d).Nodup := by
  have hname : ∀ r ∈ runs, stemOf (resultPath dir r.1.name) = r.1.name ∧ mapper r.1.name = .ok r.1.label ∧
      target <:+: resultPath dir r.1.name := by
    rintro ⟨r, j⟩ hr
    have h := hok _ hr
    have hinf : ∀ t : Str, target <:+: t → target <:+: resultPath dir t := fun t ht =>
      ht.trans ⟨dir ++ "/".toList, ".json".toList, by simp [resultPath]⟩
    cases r with
    | plain m =>
      obtain ⟨h1, h2, h3⟩ := hplain m h
      exact ⟨stemOf_path dir m h1.2.1 h1.2.2.2.2, h3, hinf m h2⟩
    | option m s b =>
      obtain ⟨h1, h2, h3, h4⟩ := h
      refine ⟨stemOf_path dir _ ?_ ?_, hmap m s b h1 h2 h3,
        hinf _ (h4.trans ⟨[], "_std_".toList ++ s ++ "_int_".toList ++ boolStr b, by simp [RunId.name, ablationName]⟩)⟩
      · have hb : '/' ∉ boolStr b := by cases b <;> decide
        simpa [RunId.name, ablationName, h1.2.1, h2.2.1] using hb
      · intro hi
        have e : (RunId.option m s b).name = m ++ '_' :: ("std".toList ++ '_' :: (s ++ '_' ::
            ("int".toList ++ '_' :: boolStr b))) := by simp [RunId.name, ablationName]
        rw [e] at hi
        have hu : '_' ∉ ".json".toList := by decide
        rcases infix_around '_' _ _ _ hu hi with hi | hi
        · exact h1.2.2.2.2 hi
        rcases infix_around '_' _ _ _ hu hi with hi | hi
        · exact absurd hi (by decide)
        rcases infix_around '_' _ _ _ hu hi with hi | hi
        · exact h2.2.2.2.2 hi
        rcases infix_around '_' _ _ _ hu hi with hi | hi
        · exact absurd hi (by decide)
        · cases b <;> exact absurd hi (by decide)
  have hsel : (entries.filter fun e => e.2.1 && decide (target <:+: e.1)).Perm
      (runs.map fun r => (resultPath dir r.1.name, true, r.2)) := by
    refine (hentries.filter _).trans ?_
    rw [List.filter_append, List.filter_eq_self.2, List.filter_eq_nil_iff.2, List.append_nil]
    · intro o ho
      simpa using hothers o ho
    · intro e he
      obtain ⟨r, hr, rfl⟩ := List.mem_map.1 he
      simpa using (hname r hr).2.2
  have hlab : ((runs.map fun r => (r.1.label, r.2)).map Prod.fst).Nodup := by
    rw [List.map_map, show (Prod.fst ∘ fun r : RunId × J => (r.1.label, r.2)) = RunId.label ∘ Prod.fst from rfl,
      ← List.map_map]
    refine List.Nodup.map_on ?_ hruns
    intro a ha b hb he
    obtain ⟨r, hr, rfl⟩ := List.mem_map.1 ha
    obtain ⟨r', hr', rfl⟩ := List.mem_map.1 hb
    exact C114_injective target plains (fun m hm => (hplain m hm).1) _ _ (hok r hr) (hok r' hr') he
  have hg : ∀ r ∈ runs, (fun e : Str × Bool × J => match mapper (stemOf e.1) with
      | .ok n => (n, e.2.2) | .error _ => ([], e.2.2)) (resultPath dir r.1.name, true, r.2) =
      (r.1.label, r.2) := by
    intro r hr
    obtain ⟨h1, h2, -⟩ := hname r hr
    simp only [h1, h2]
  have hd : ((entries.filter fun e => e.2.1 && decide (target <:+: e.1)).map
      (fun e : Str × Bool × J => match mapper (stemOf e.1) with
        | .ok n => (n, e.2.2) | .error _ => ([], e.2.2))).Perm (runs.map fun r => (r.1.label, r.2)) := by
    refine (hsel.map _).trans ?_
    rw [List.map_map]
    exact List.Perm.of_eq (List.map_congr_left hg)
  refine ⟨_, ?_, hd, ((hd.map Prod.fst).nodup_iff).2 hlab⟩
  unfold ablationDict
  have key := foldlM_set_fresh (fun e : Str × Bool × J => mapper (stemOf e.1))
    (fun e => (match mapper (stemOf e.1) with
      | .ok n => (n, e.2.2) | .error _ => ([], e.2.2)).1) (fun e => e.2.2)
    (entries.filter fun e => e.2.1 && decide (target <:+: e.1)) ?_ [] ?_ ?_
  · rw [key]
    rw [List.nil_append]
    congr 1
    refine List.map_congr_left fun e _ => ?_
    cases mapper (stemOf e.1) <;> rfl
  · intro e he
    obtain ⟨r, hr, rfl⟩ := List.mem_map.1 (hsel.subset he)
    obtain ⟨h1, h2, -⟩ := hname r hr
    simp only [h1, h2]
  · have := ((hd.map Prod.fst).nodup_iff).2 hlab
    rw [List.map_map] at this
    exact this
  · intro e _
    simp [Dict.keys]

/-! ### The files of the scripts -/

/-- The four directories of the configurations. -/
def resultDirs : List Str :=
  ["ml_20m", "amz_b", "amz_g", "steam"].map fun d => ("results/" ++ d ++ "/metric_dynamics").toList

/-- The models run by `run_experiments.py:13`. -/
def scriptModels : List Str :=
  ["SVD", "PSIRec", "TIRec", "TIRecA", "TDRec", "TDRecReinit"].map String.toList

/-- The runs of a model in the ablation study. -/
def studyRuns (model : Str) : List RunId := optionTexts.map fun o => .option model o.1 o.2

/-- All runs: `run_experiments.py` starts six experiments and two ablation studies. -/
def allRuns : List RunId :=
  scriptModels.map RunId.plain ++ studyRuns "PSIRec".toList ++ studyRuns "TIRecA".toList

/-- The runs that belong into the figures of the tensor models, and of the matrix model. -/
def tensorRuns : List RunId :=
  [RunId.plain "TIRec".toList, RunId.plain "TIRecA".toList] ++ studyRuns "TIRecA".toList
def matrixRuns : List RunId := RunId.plain "PSIRec".toList :: studyRuns "PSIRec".toList

theorem study_one {J : Type} (target : Str) (plains : List Str) (mapper : Str → PyM Str) (mine : List RunId)
    (dir : Str) (hdir : ¬ target <:+: dir) (ht : '/' ∉ target) (c : RunId → J) (dd : J)
    (entries : List (Str × Bool × J))
    (hentries : entries.Perm ((allRuns.map fun r => (resultPath dir r.name, true, c r)) ++
      [(resultPath dir "data_dynamics".toList, true, dd)]))
    (hplain : ∀ m ∈ plains, PlainText m ∧ target <:+: m ∧ mapper m = .ok m)
    (hmap : ∀ m s b, PlainText m → PlainText s → s ≠ "int".toList →
      mapper (ablationName m s b) = .ok (RunId.option m s b).label)
    (hnd : mine.Nodup) (hok : ∀ r ∈ mine, r.Ok target plains)
    (hperm : allRuns.Perm (mine ++ allRuns.filter fun r => decide (r ∉ mine)))
    (hrest : ∀ r ∈ allRuns, r ∉ mine → ¬ target <:+: r.name ++ ".json".toList)
    (hdd : ¬ target <:+: "data_dynamics".toList ++ ".json".toList) :
    ∃ d, ablationDict target mapper entries = .ok d ∧ (Dict.keys d).Nodup ∧
      d.Perm (mine.map fun r => (r.label, c r)) := by
  have a1 : ((mine.map fun r => (r, c r)).map Prod.fst).Nodup := by
    rw [List.map_map, show (Prod.fst ∘ fun r : RunId => (r, c r)) = id from rfl, List.map_id]
    exact hnd
  have a2 : ∀ r ∈ mine.map (fun r => (r, c r)), r.1.Ok target plains := by
    intro r hr
    obtain ⟨r', hr', rfl⟩ := List.mem_map.1 hr
    exact hok r' hr'
  have a3 : ∀ o ∈ ((allRuns.filter fun r => decide (r ∉ mine)).map
      fun r => (resultPath dir r.name, true, c r)) ++ [(resultPath dir "data_dynamics".toList, true, dd)],
      ¬ (o.2.1 = true ∧ target <:+: o.1) := by
    intro o ho h
    rw [List.mem_append, List.mem_singleton] at ho
    rcases ho with ho | rfl
    · obtain ⟨r, hr, rfl⟩ := List.mem_map.1 ho
      rw [List.mem_filter] at hr
      exact hrest r hr.1 (by simpa using hr.2) ((C114_selection _ _ _ ht hdir).1 h.2)
    · exact hdd ((C114_selection _ _ _ ht hdir).1 h.2)
  have a4 : entries.Perm (((mine.map fun r => (r, c r)).map fun r => (resultPath dir r.1.name, true, r.2)) ++
      (((allRuns.filter fun r => decide (r ∉ mine)).map fun r => (resultPath dir r.name, true, c r)) ++
        [(resultPath dir "data_dynamics".toList, true, dd)])) := by
    refine hentries.trans ?_
    rw [← List.append_assoc]
    refine List.Perm.append_right _ ?_
    have := hperm.map (fun r => (resultPath dir r.name, true, c r))
    rw [List.map_append] at this
    rw [List.map_map]
    exact this
  obtain ⟨d, h1, h2, h3⟩ := C114_curves target dir plains mapper _ _ entries hplain hmap a1 a2 a3 a4
  refine ⟨d, h1, h3, ?_⟩
  rw [List.map_map] at h2
  exact h2

/-- **C114, the study.** All scripts have been run on one of the four data sets, so that the directory holds (in
any order) the files of the six models, of seven options for each of two models, and `data_dynamics.json`. The
tensor figures have nine curves: TIRec, TIRecA and the seven options of TIRecA; the matrix figures have eight:
PSIRec and its seven options. Every curve has the contents of its own file. -/
theorem C114_study {J : Type} (dir : Str) (hdir : dir ∈ resultDirs) (c : RunId → J) (dd : J)
    (entries : List (Str × Bool × J))
    (hentries : entries.Perm ((allRuns.map fun r => (resultPath dir r.name, true, c r)) ++
      [(resultPath dir "data_dynamics".toList, true, dd)])) :
    (∃ d, ablationDict "TIRec".toList mapTensorName entries = .ok d ∧ (Dict.keys d).Nodup ∧
      d.Perm (tensorRuns.map fun r => (r.label, c r)) ∧ d.length = 9) ∧
    (∃ d, ablationDict "PSIRec".toList mapMatrixName entries = .ok d ∧ (Dict.keys d).Nodup ∧
      d.Perm (matrixRuns.map fun r => (r.label, c r)) ∧ d.length = 8) := by
  constructor
  · obtain ⟨d, h1, h2, h3⟩ := study_one "TIRec".toList ["TIRec".toList, "TIRecA".toList] mapTensorName tensorRuns
      dir (by clear hentries; revert dir; decide) (by decide) c dd entries hentries (by decide)
      (fun m s b hm hs hi => (C114_label m s b hm hs hi).1) (by decide) (by decide) (by decide) (by decide) (by decide)
    exact ⟨d, h1, h2, h3, by rw [h3.length_eq]; rfl⟩
  · obtain ⟨d, h1, h2, h3⟩ := study_one "PSIRec".toList ["PSIRec".toList] mapMatrixName matrixRuns
      dir (by clear hentries; revert dir; decide) (by decide) c dd entries hentries (by decide)
      (fun m s b hm hs hi => (C114_label m s b hm hs hi).2.1) (by decide) (by decide) (by decide) (by decide) (by decide)
    exact ⟨d, h1, h2, h3, by rw [h3.length_eq]; rfl⟩

/-- **C114, a directory with the wrong name.** The target is looked for in the whole path: below a directory
that contains it, the file of another model is selected and the figures are lost. -/
theorem C114_directory {J : Type} (target dir : Str) (hdir : target <:+: dir) (j : J)
    (entries : List (Str × Bool × J)) (h : (resultPath dir "SVD".toList, true, j) ∈ entries) :
    (∃ e, ablationDict target mapTensorName entries = .error e) ∧
    (∃ e, ablationDict target mapMatrixName entries = .error e) := by
  have hfail : ∀ (f : Str → PyM Str) (e : PyErr), f "SVD".toList = .error e →
      ∀ (l : List (Str × Bool × J)) (d : Dict Str J), (resultPath dir "SVD".toList, true, j) ∈ l →
      ∃ e, l.foldlM (fun d e => do
        let name ← f (stemOf e.1)
        pure (Dict.set d name e.2.2)) d = (.error e : PyM (Dict Str J)) := by
    intro f e hf l
    induction l with
    | nil => intro d hl; simp at hl
    | cons x l ih =>
      intro d hl
      rw [List.foldlM_cons]
      cases hx : f (stemOf x.1) with
      | error e => exact ⟨e, rfl⟩
      | ok n =>
        rcases List.mem_cons.1 hl with rfl | hl
        · rw [stemOf_path dir _ (by decide) (by decide), hf] at hx
          simp at hx
        · obtain ⟨e', he'⟩ := ih (Dict.set d n x.2.2) hl
          exact ⟨e', he'⟩
  have hmem : (resultPath dir "SVD".toList, true, j) ∈
      entries.filter fun e => e.2.1 && decide (target <:+: e.1) := by
    rw [List.mem_filter]
    refine ⟨h, ?_⟩
    simpa using hdir.trans ⟨[], "/SVD.json".toList, by simp [resultPath]⟩
  exact ⟨hfail mapTensorName .valueError (by decide) _ _ hmem,
    hfail mapMatrixName .valueError (by decide) _ _ hmem⟩

/-! ### Examples -/

example : (tensorRuns.map fun r => String.ofList r.label) = ["TIRec", "TIRecA", "TIRecA(0;0)", "TIRecA(1e-08;B)",
    "TIRecA(1e-05;B)", "TIRecA(0.001;B)", "TIRecA(1e-08;0)", "TIRecA(1e-05;0)", "TIRecA(0.001;0)"] := by
  decide +kernel
example : mapMatrixName "PSIRec_std_1e-08_int_False".toList = .ok "PSIRec(1e-08;B)".toList := by decide +kernel
example : mapMatrixName "PSIRec_old".toList = .error .valueError := by decide +kernel
example : stemOf "results/steam/metric_dynamics/TIRecA_std_0.001_int_True.json".toList =
    "TIRecA_std_0.001_int_True".toList := by decide +kernel
example : PlainText "PSIRec".toList ∧ PlainText "0.001".toList := by decide

end DynCF
