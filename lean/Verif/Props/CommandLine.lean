/-
C155: what `run_experiments.py` starts.
-/
import Verif.Model.CommandLine

namespace DynCF

/-! ### Lemmas -/

theorem splitChar_cons_ne {c x : Char} (h : x ≠ c) (s : Str) :
    splitChar c (x :: s) = match splitChar c s with
      | [] => [[x]]
      | w :: ws => (x :: w) :: ws := by
  rw [splitChar, if_neg h]
  rfl

theorem splitChar_plain {c : Char} {w : Str} (h : c ∉ w) : splitChar c w = [w] := by
  induction w with
  | nil => rfl
  | cons x xs ih =>
    rw [List.mem_cons, not_or] at h
    rw [splitChar_cons_ne (Ne.symm h.1), ih h.2]

theorem splitChar_append {c : Char} {w : Str} (h : c ∉ w) (s : Str) :
    splitChar c (w ++ c :: s) = w :: splitChar c s := by
  induction w with
  | nil => simp [splitChar]
  | cons x xs ih =>
    rw [List.mem_cons, not_or] at h
    rw [List.cons_append, splitChar_cons_ne (Ne.symm h.1), ih h.2]

theorem splitChar_ne_nil (c : Char) (s : Str) : splitChar c s ≠ [] := by
  induction s with
  | nil => simp [splitChar]
  | cons x xs ih =>
    rw [splitChar]
    split
    · simp
    · split <;> simp

/-- the words do not change if a text is split at a blank -/
theorem shellWords_append (a b : Str) : shellWords (a ++ ' ' :: b) = shellWords a ++ shellWords b := by
  have key : splitChar ' ' (a ++ ' ' :: b) = splitChar ' ' a ++ splitChar ' ' b := by
    induction a with
    | nil => simp [splitChar]
    | cons x xs ih =>
      rw [List.cons_append, splitChar, splitChar, ih]
      split
      · rfl
      · cases hs : splitChar ' ' xs with
        | nil => exact absurd hs (splitChar_ne_nil _ _)
        | cons w ws => rfl
  rw [shellWords, key, List.filter_append]
  rfl

theorem shellWords_word {w : Str} (h : ' ' ∉ w) (h0 : w ≠ []) : shellWords w = [w] := by
  rw [shellWords, splitChar_plain h]
  simp [h0]

theorem plain_ne {w : Str} (h : w.all plainChar = true) : ' ' ∉ w ∧ ';' ∉ w := by
  constructor <;> intro hm
  · exact absurd (List.all_eq_true.1 h _ hm) (by decide)
  · exact absurd (List.all_eq_true.1 h _ hm) (by decide)

theorem shellWords_join {ws : List Str} (h : ∀ w ∈ ws, w.all plainChar = true ∧ w ≠ []) :
    shellWords ([' '].intercalate ws) = ws := by
  induction ws with
  | nil => rfl
  | cons w ws ih =>
    have h1 := h w List.mem_cons_self
    cases ws with
    | nil =>
      rw [List.intercalate_singleton]
      exact shellWords_word (plain_ne h1.1).1 h1.2
    | cons v vs =>
      have : [' '].intercalate (w :: v :: vs) = w ++ ' ' :: [' '].intercalate (v :: vs) := by
        simp [List.intercalate_cons_cons]
      rw [this, shellWords_append, shellWords_word (plain_ne h1.1).1 h1.2,
        ih fun x hx => h x (List.mem_cons_of_mem _ hx)]
      rfl

/-- The characters of words and blanks. -/
def wordChar (c : Char) : Bool := plainChar c || c = ' '

theorem join_chars {ws : List Str} (h : ∀ w ∈ ws, w.all plainChar = true) :
    ([' '].intercalate ws).all wordChar = true := by
  induction ws with
  | nil => rfl
  | cons w ws ih =>
    have h1 : w.all wordChar = true := List.all_eq_true.2 fun c hc => by
      rw [wordChar, List.all_eq_true.1 (h w List.mem_cons_self) c hc, Bool.true_or]
    cases ws with
    | nil => rwa [List.intercalate_singleton]
    | cons v vs =>
      have : [' '].intercalate (w :: v :: vs) = w ++ ' ' :: [' '].intercalate (v :: vs) := by
        simp [List.intercalate_cons_cons]
      rw [this, List.all_append, h1, List.all_cons, ih fun x hx => h x (List.mem_cons_of_mem _ hx)]
      rfl

theorem wordChars_semi {s : Str} (h : s.all wordChar = true) : ';' ∉ s := fun hm =>
  absurd (List.all_eq_true.1 h _ hm) (by decide)

theorem wordChars_line {s : Str} (h : s.all wordChar = true) :
    s.all (fun c => plainChar c || c = ' ' || c = ';') = true :=
  List.all_eq_true.2 fun c hc => by
    have := List.all_eq_true.1 h c hc
    rw [wordChar] at this
    rw [this, Bool.true_or]

theorem shellLine_one {s : Str} (h : s.all wordChar = true) {w : Str} {ws : List Str} (hw : shellWords s = w :: ws)
    (hr : shellReserved.contains w = false) : shellLine s = .ok [w :: ws] := by
  rw [shellLine, if_pos (wordChars_line h)]
  dsimp only
  rw [splitChar_plain (wordChars_semi h), List.map_singleton, hw]
  have e : ([w :: ws] : List (List Str)).getLast? ≠ some [] := by simp
  rw [if_neg e, if_neg]
  simp only [List.any_cons, List.any_nil, List.isEmpty_cons, List.headD_cons, hr]
  decide

theorem shellLine_two {s t : Str} (hs : s.all wordChar = true) (ht : t.all wordChar = true) {v w : Str}
    {vs ws : List Str} (hv : shellWords s = v :: vs) (hw : shellWords t = w :: ws)
    (hrv : shellReserved.contains v = false) (hrw : shellReserved.contains w = false) :
    shellLine (s ++ ';' :: t) = .ok [v :: vs, w :: ws] := by
  rw [shellLine, if_pos (by
    rw [List.all_append, List.all_cons, wordChars_line hs, wordChars_line ht]
    rfl)]
  dsimp only
  rw [splitChar_append (wordChars_semi hs), splitChar_plain (wordChars_semi ht), List.map_cons, List.map_singleton, hv,
    hw]
  have e : ([v :: vs, w :: ws] : List (List Str)).getLast? ≠ some [] := by simp
  rw [if_neg e, if_neg]
  simp only [List.any_cons, List.any_nil, List.isEmpty_cons, List.headD_cons, hrv, hrw]
  decide

/-- The three files with three arguments. -/
def files3 : List Str :=
  ["find_hyperparams.py", "dynamical_experiment.py", "dynamical_ablation_study.py"].map String.toList

theorem startOf_usage3 {file : Str} (hf : file ∈ files3) {argv : List Str}
    (hd : ∀ w ∈ argv, w.head? ≠ some '-') (hl : argv.length ≠ 3) :
    startOf ("python".toList :: file :: argv) = .ok .usage := by
  have hp : parseArgs 3 argv = .ok none := by
    rw [parseArgs, if_neg (by simpa using hd), if_neg hl]
  simp only [files3, List.map_cons, List.map_nil, List.mem_cons, List.not_mem_nil, or_false] at hf
  rcases hf with rfl | rfl | rfl <;> simp [startOf, hp] <;> rfl

theorem startOf_usage1 {argv : List Str} (hd : ∀ w ∈ argv, w.head? ≠ some '-') (hl : argv.length ≠ 1) :
    startOf ("python".toList :: "prepare_graphs.py".toList :: argv) = .ok .usage := by
  have hp : parseArgs 1 argv = .ok none := by
    rw [parseArgs, if_neg (by simpa using hd), if_neg hl]
  simp [startOf, hp]
  rfl

theorem osSystem_of {line : Str} {ws : List Str} (h : shellLine line = .ok [ws]) :
    osSystem line = (startOf ws).map fun x => [x] := by
  rw [osSystem, h]
  change List.mapM startOf [ws] = _
  rw [List.mapM_cons, List.mapM_nil]
  cases startOf ws with
  | ok x => rfl
  | error e => rfl

theorem osSystem_of2 {line : Str} {vs ws : List Str} {x y : Start} (h : shellLine line = .ok [vs, ws])
    (hx : startOf vs = .ok x) (hy : startOf ws = .ok y) : osSystem line = .ok [x, y] := by
  rw [osSystem, h]
  change List.mapM startOf [vs, ws] = _
  rw [List.mapM_cons, List.mapM_cons, List.mapM_nil, hx, hy]
  rfl

/-- A line with three arguments after a text without semicolons. -/
theorem osSystem_line3 (file : Str) (hf : file ∈ files3) (data m : Str) (hd : data.all wordChar = true)
    (hm : m.all plainChar = true) (hm0 : m ≠ []) :
    osSystem ("python ".toList ++ file ++ " ".toList ++ data ++ " ".toList ++ m ++ " False".toList) =
      (startOf ("python".toList :: file :: (shellWords data ++ [m, "False".toList]))).map fun x => [x] := by
  have hfile : file.all plainChar = true ∧ file ≠ [] := by
    simp only [files3, List.map_cons, List.map_nil, List.mem_cons, List.not_mem_nil, or_false] at hf
    rcases hf with rfl | rfl | rfl <;> decide
  have hw : ∀ {w : Str}, w.all plainChar = true → w.all wordChar = true := fun h => List.all_eq_true.2 fun c hc => by
    rw [wordChar, List.all_eq_true.1 h c hc, Bool.true_or]
  have e : "python ".toList ++ file ++ " ".toList ++ data ++ " ".toList ++ m ++ " False".toList =
      "python".toList ++ ' ' :: (file ++ ' ' :: (data ++ ' ' :: (m ++ ' ' :: "False".toList))) := by
    simp [show "python ".toList = "python".toList ++ [' '] from rfl, show " False".toList = ' ' :: "False".toList from rfl,
      show " ".toList = [' '] from rfl]
  have hs : shellWords ("python".toList ++ ' ' :: (file ++ ' ' :: (data ++ ' ' :: (m ++ ' ' :: "False".toList)))) =
      "python".toList :: file :: (shellWords data ++ [m, "False".toList]) := by
    rw [shellWords_append, shellWords_append, shellWords_append, shellWords_append,
      shellWords_word (plain_ne hfile.1).1 hfile.2, shellWords_word (plain_ne hm).1 hm0,
      show shellWords "python".toList = ["python".toList] from by decide,
      show shellWords "False".toList = ["False".toList] from by decide]
    rfl
  have hc : ("python".toList ++ ' ' :: (file ++ ' ' :: (data ++ ' ' :: (m ++ ' ' :: "False".toList)))).all wordChar =
      true := by
    simp only [List.all_append, List.all_cons, hd, hw hfile.1, hw hm]
    decide
  rw [e, osSystem_of (shellLine_one hc hs (by decide))]

theorem osSystem_line1 (data : Str) (hd : data.all wordChar = true) :
    osSystem ("python prepare_graphs.py ".toList ++ data) =
      (startOf ("python".toList :: "prepare_graphs.py".toList :: shellWords data)).map fun x => [x] := by
  have e : "python prepare_graphs.py ".toList ++ data = "python prepare_graphs.py".toList ++ ' ' :: data := rfl
  have hs : shellWords ("python prepare_graphs.py".toList ++ ' ' :: data) =
      "python".toList :: "prepare_graphs.py".toList :: shellWords data := by
    rw [shellWords_append, show shellWords "python prepare_graphs.py".toList =
      ["python".toList, "prepare_graphs.py".toList] from by decide]
    rfl
  have hc : ("python prepare_graphs.py".toList ++ ' ' :: data).all wordChar = true := by
    rw [List.all_append, List.all_cons, hd]
    decide
  rw [e, osSystem_of (shellLine_one hc hs (by decide))]

/-- the command lines, one by one -/
theorem commandLines_eq (data : Str) : commandLines data =
    ([("find_hyperparams.py", "svd"), ("find_hyperparams.py", "tdrec"), ("dynamical_experiment.py", "SVD"),
      ("dynamical_experiment.py", "PSIRec"), ("dynamical_experiment.py", "TIRec"), ("dynamical_experiment.py", "TIRecA"),
      ("dynamical_experiment.py", "TDRec"), ("dynamical_experiment.py", "TDRecReinit"),
      ("dynamical_ablation_study.py", "PSIRec"), ("dynamical_ablation_study.py", "TIRecA")].map fun p =>
      "python ".toList ++ p.1.toList ++ " ".toList ++ data ++ " ".toList ++ p.2.toList ++ " False".toList) ++
    ["python prepare_graphs.py ".toList ++ data] := rfl

/-! ### C155 -/

/-- **C155 (partial).** With a name of plain characters that does not begin with a dash, the call starts exactly the ten
scripts of the pipeline and then the figures, each with this name as data set and the progress line enabled. The full
statement has no assumption on the name; see `C155_violated`. -/
theorem C155_plain_partial (data : Str) (hd : data.all plainChar = true) (h0 : data ≠ [])
    (hdash : data.head? ≠ some '-') :
    startedBy data = .ok (pipelineCmds.map (fun c => [.script c data false]) ++ [[.graphs data]]) := by
  have hw : data.all wordChar = true := List.all_eq_true.2 fun c hc => by
    rw [wordChar, List.all_eq_true.1 hd c hc, Bool.true_or]
  have hs : shellWords data = [data] := shellWords_word (plain_ne hd).1 h0
  have hp3 : ∀ m b : Str, m.head? ≠ some '-' → b.head? ≠ some '-' →
      parseArgs 3 [data, m, b] = .ok (some [data, m, b]) := fun m b h1 h2 => by
    rw [parseArgs, if_neg (by simp [hdash, h1, h2])]
    rfl
  have hp1 : parseArgs 1 [data] = .ok (some [data]) := by
    rw [parseArgs, if_neg (by simp [hdash])]
    rfl
  rw [startedBy, commandLines_eq]
  simp only [List.map_cons, List.map_nil, List.cons_append, List.nil_append, List.mapM_cons, List.mapM_nil]
  rw [osSystem_line1 data hw]
  repeat rw [osSystem_line3 _ (by decide) data _ hw (by decide) (by decide)]
  rw [hs]
  simp only [List.cons_append, List.nil_append, startOf]
  simp only [hp1, hp3 _ _ (show "svd".toList.head? ≠ some '-' by decide) (show "False".toList.head? ≠ some '-' by decide),
    hp3 _ _ (show "tdrec".toList.head? ≠ some '-' by decide) (show "False".toList.head? ≠ some '-' by decide),
    hp3 _ _ (show "SVD".toList.head? ≠ some '-' by decide) (show "False".toList.head? ≠ some '-' by decide),
    hp3 _ _ (show "PSIRec".toList.head? ≠ some '-' by decide) (show "False".toList.head? ≠ some '-' by decide),
    hp3 _ _ (show "TIRec".toList.head? ≠ some '-' by decide) (show "False".toList.head? ≠ some '-' by decide),
    hp3 _ _ (show "TIRecA".toList.head? ≠ some '-' by decide) (show "False".toList.head? ≠ some '-' by decide),
    hp3 _ _ (show "TDRec".toList.head? ≠ some '-' by decide) (show "False".toList.head? ≠ some '-' by decide),
    hp3 _ _ (show "TDRecReinit".toList.head? ≠ some '-' by decide) (show "False".toList.head? ≠ some '-' by decide)]
  rfl

/-- **C155, several words.** If the name consists of several words (or of none: an empty name), every started script
stops in `parse_args` and nothing is computed. -/
theorem C155_words (ws : List Str) (h : ∀ w ∈ ws, w.all plainChar = true ∧ w ≠ [] ∧ w.head? ≠ some '-')
    (hl : ws.length ≠ 1) :
    startedBy ([' '].intercalate ws) = .ok (List.replicate 11 [.usage]) := by
  have hw := join_chars fun w hw => (h w hw).1
  have hs : shellWords ([' '].intercalate ws) = ws := shellWords_join fun w hw => ⟨(h w hw).1, (h w hw).2.1⟩
  have h3 : ∀ file ∈ files3, ∀ m : Str, m.head? ≠ some '-' →
      startOf ("python".toList :: file :: (ws ++ [m, "False".toList])) = .ok .usage := fun file hf m hm => by
    refine startOf_usage3 hf ?_ (by simpa using hl)
    intro w hw
    simp only [List.mem_append, List.mem_cons, List.not_mem_nil, or_false] at hw
    rcases hw with hw | rfl | rfl
    · exact (h w hw).2.2
    · exact hm
    · decide
  have h1 := startOf_usage1 (argv := ws) (fun w hw => (h w hw).2.2) hl
  rw [startedBy, commandLines_eq]
  simp only [List.map_cons, List.map_nil, List.cons_append, List.nil_append, List.mapM_cons, List.mapM_nil]
  rw [osSystem_line1 _ hw]
  repeat rw [osSystem_line3 _ (by decide) _ _ hw (by decide) (by decide)]
  rw [hs, h1]
  repeat rw [h3 _ (by decide) _ (by decide)]
  rfl

/-- **C155, a semicolon.** The name is pasted into the command line unquoted: what follows a semicolon is executed as
a program of its own, eleven times. The ten scripts in front of it lose their other arguments and stop in
`parse_args`; only the figures are drawn. -/
theorem C155_semicolon (d : Str) (hd : d.all plainChar = true) (h0 : d ≠ []) (hdash : d.head? ≠ some '-')
    (prog : Str) (args : List Str) (hprog : prog ≠ "python".toList) (hres : shellReserved.contains prog = false)
    (h : ∀ w ∈ prog :: args, w.all plainChar = true ∧ w ≠ []) :
    startedBy (d ++ ";".toList ++ [' '].intercalate (prog :: args)) =
      .ok ((["svd", "tdrec", "SVD", "PSIRec", "TIRec", "TIRecA", "TDRec", "TDRecReinit", "PSIRec", "TIRecA"].map fun m =>
          [.usage, .foreign (prog :: args ++ [m.toList, "False".toList])]) ++
        [[.graphs d, .foreign (prog :: args)]]) := by
  have hw : ∀ {w : Str}, w.all plainChar = true → w.all wordChar = true := fun h => List.all_eq_true.2 fun c hc => by
    rw [wordChar, List.all_eq_true.1 h c hc, Bool.true_or]
  have hj := join_chars fun w hw => (h w hw).1
  have hs : shellWords ([' '].intercalate (prog :: args)) = prog :: args := shellWords_join h
  generalize [' '].intercalate (prog :: args) = t at hj hs ⊢
  have hfor : ∀ l : List Str, startOf (prog :: l) = .ok (.foreign (prog :: l)) := fun l => by
    cases l with
    | nil => rfl
    | cons a l =>
      rw [startOf]
      simp only [if_neg hprog]
      rfl
  have h3 : ∀ file ∈ files3, ∀ m : Str, m.all plainChar = true → m ≠ [] →
      osSystem ("python ".toList ++ file ++ " ".toList ++ (d ++ ";".toList ++ t) ++ " ".toList ++ m ++ " False".toList) =
        .ok [.usage, .foreign (prog :: args ++ [m, "False".toList])] := fun file hf m hm hm0 => by
    have hfile : file.all plainChar = true ∧ file ≠ [] := by
      simp only [files3, List.map_cons, List.map_nil, List.mem_cons, List.not_mem_nil, or_false] at hf
      rcases hf with rfl | rfl | rfl <;> decide
    have e : "python ".toList ++ file ++ " ".toList ++ (d ++ ";".toList ++ t) ++ " ".toList ++ m ++ " False".toList =
        ("python".toList ++ ' ' :: (file ++ ' ' :: d)) ++ ';' :: (t ++ ' ' :: (m ++ ' ' :: "False".toList)) := by
      simp [show "python ".toList = "python".toList ++ [' '] from rfl,
        show " False".toList = ' ' :: "False".toList from rfl, show " ".toList = [' '] from rfl,
        show ";".toList = [';'] from rfl]
    have w1 : shellWords ("python".toList ++ ' ' :: (file ++ ' ' :: d)) = "python".toList :: file :: [d] := by
      rw [shellWords_append, shellWords_append, shellWords_word (plain_ne hfile.1).1 hfile.2,
        shellWords_word (plain_ne hd).1 h0, show shellWords "python".toList = ["python".toList] from by decide]
      rfl
    have w2 : shellWords (t ++ ' ' :: (m ++ ' ' :: "False".toList)) = prog :: (args ++ [m, "False".toList]) := by
      rw [shellWords_append, shellWords_append, shellWords_word (plain_ne hm).1 hm0, hs,
        show shellWords "False".toList = ["False".toList] from by decide]
      rfl
    rw [e, osSystem_of2 (shellLine_two ?_ ?_ w1 w2 (by decide) hres) (startOf_usage3 hf ?_ ?_) (hfor _)]
    · rfl
    · simp only [List.all_append, List.all_cons, hw hd, hw hfile.1]
      decide
    · simp only [List.all_append, List.all_cons, hj, hw hm]
      decide
    · simpa using hdash
    · simp
  have h1 : osSystem ("python prepare_graphs.py ".toList ++ (d ++ ";".toList ++ t)) =
      .ok [.graphs d, .foreign (prog :: args)] := by
    have e : "python prepare_graphs.py ".toList ++ (d ++ ";".toList ++ t) =
        ("python prepare_graphs.py".toList ++ ' ' :: d) ++ ';' :: t := by
      simp [show "python prepare_graphs.py ".toList = "python prepare_graphs.py".toList ++ [' '] from rfl,
        show ";".toList = [';'] from rfl]
    have w1 : shellWords ("python prepare_graphs.py".toList ++ ' ' :: d) =
        "python".toList :: "prepare_graphs.py".toList :: [d] := by
      rw [shellWords_append, shellWords_word (plain_ne hd).1 h0, show shellWords "python prepare_graphs.py".toList =
        ["python".toList, "prepare_graphs.py".toList] from by decide]
      rfl
    have hp1 : parseArgs 1 [d] = .ok (some [d]) := by
      rw [parseArgs, if_neg (by simp [hdash])]
      rfl
    rw [e, osSystem_of2 (shellLine_two ?_ hj w1 hs (by decide) hres) (x := .graphs d) ?_ (hfor _)]
    · rw [List.all_append, List.all_cons, hw hd]
      decide
    · simp only [startOf, hp1]
      rfl
  rw [startedBy, commandLines_eq]
  simp only [List.map_cons, List.map_nil, List.cons_append, List.nil_append, List.mapM_cons, List.mapM_nil]
  rw [h1]
  repeat rw [h3 _ (by decide) _ (by decide) (by decide)]
  rfl

/-- **C155 is violated:** the call `run_experiments.py "ml_20m; rm -r results"` starts a program that is not one of the
scripts. -/
theorem C155_violated : ∃ l, startedBy "ml_20m;rm -r results".toList = .ok l ∧
    [.graphs "ml_20m".toList, .foreign ["rm".toList, "-r".toList, "results".toList]] ∈ l ∧
    ∀ c d b, Start.script c d b ∉ l.flatten := by
  refine ⟨_, C155_semicolon "ml_20m".toList (by decide) (by decide) (by decide) "rm".toList
    ["-r".toList, "results".toList] (by decide) (by decide) (by decide), by simp, ?_⟩
  intro c d b
  simp

/-- **C155, progress line.** In all three scripts it is disabled for the text `True` only. -/
theorem C155_bar (file d m b : Str) (hf : file ∈ files3) (c : Cmd) (d' : Str) (x : Bool)
    (h : startOf ["python".toList, file, d, m, b] = .ok (.script c d' x)) :
    d' = d ∧ (x = true ↔ b = "True".toList) := by
  have hx : ∀ b : Str, noBarOf b = true ↔ b = "True".toList := fun b => by
    unfold noBarOf
    split <;> simp_all
  have hp : parseArgs 3 [d, m, b] = .ok (some [d, m, b]) ∨ parseArgs 3 [d, m, b] = .error .outOfModel := by
    unfold parseArgs
    split
    · exact .inr rfl
    · exact .inl rfl
  simp only [files3, List.map_cons, List.map_nil, List.mem_cons, List.not_mem_nil, or_false] at hf
  rcases hf with rfl | rfl | rfl <;> rcases hp with hp | hp <;> simp [startOf, hp] at h
  · change (if m = ['s', 'v', 'd'] then Except.ok (Start.script Cmd.searchSvd d (noBarOf b))
      else if m = ['t', 'd', 'r', 'e', 'c'] then Except.ok (Start.script Cmd.searchTd d (noBarOf b))
      else Except.ok Start.badType) = _ at h
    split_ifs at h <;> cases h <;> exact ⟨rfl, hx _⟩
  · cases h
  · cases h
    exact ⟨rfl, hx _⟩
  · cases h
  · cases h
    exact ⟨rfl, hx _⟩
  · cases h

/-- **C155, other characters.** A name with a character that is neither a letter nor a digit nor one of `_ - . /`, blank and
semicolon is outside the model: nothing is claimed about it. -/
theorem C155_refused (data : Str) (c : Char) (hc : c ∈ data) (h : c.isAlphanum = false ∧ c ∉ "_-./ ;".toList) :
    startedBy data = .error .outOfModel := by
  have hn : ∀ a b : Str, (a ++ data ++ b).all (fun c => plainChar c || c = ' ' || c = ';') = false := by
    intro a b
    rw [List.all_eq_false]
    refine ⟨c, by simp [hc], ?_⟩
    obtain ⟨h1, h2⟩ := h
    have h2 : ¬(c = '_' ∨ c = '-' ∨ c = '.' ∨ c = '/' ∨ c = ' ' ∨ c = ';') := by simpa using h2
    push Not at h2
    obtain ⟨q1, q2, q3, q4, q5, q6⟩ := h2
    simp [plainChar, h1, q1, q2, q3, q4, q5, q6]
  unfold startedBy
  rw [show commandLines data = ("python find_hyperparams.py ".toList ++ data ++ (" ".toList ++ "svd".toList ++ " False".toList)) ::
    (commandLines data).tail from by simp [commandLines], List.mapM_cons]
  unfold osSystem shellLine
  rw [hn]
  rfl

/-- The plain characters are exactly these. -/
theorem plainChar_iff (c : Char) : plainChar c = true ↔ c.isAlphanum = true ∨ c ∈ "_-./".toList := by
  simp [plainChar]
  tauto

example : startedBy "ml$HOME".toList = .error .outOfModel :=
  C155_refused _ '$' (by decide) (by decide)

/-- The four data sets. -/
example : ∀ d ∈ ["ml_20m", "amz_b", "amz_g", "steam"].map String.toList,
    startedBy d = .ok (pipelineCmds.map (fun c => [.script c d false]) ++ [[.graphs d]]) := by
  intro d hd
  simp only [List.map_cons, List.map_nil, List.mem_cons, List.not_mem_nil, or_false] at hd
  rcases hd with rfl | rfl | rfl | rfl <;> exact C155_plain_partial _ (by decide) (by decide) (by decide)

/-- A name of two words, and an empty one. -/
example : startedBy "ml 20m".toList = .ok (List.replicate 11 [.usage]) ∧
    startedBy "".toList = .ok (List.replicate 11 [.usage]) :=
  ⟨C155_words ["ml".toList, "20m".toList] (by decide) (by decide), C155_words [] (by decide) (by decide)⟩

/-- The same by hand, for one of the lines. -/
example : osSystem "python dynamical_experiment.py steam SVD True".toList =
    .ok [.script (.experiment "SVD") "steam".toList true] := by decide +kernel

end DynCF
