/- Property C180: parsing the Steam reviews (`/repo/load_data.py: parse_lines_steam`). -/
import Verif.Model.SteamLines
import Verif.Props.JsonHook
import Verif.Lemmas.Selection

namespace DynCF

/-- the value of a key in the text of a dict: the last one given for the string `k` -/
def LastEntry (l : List (PyLit × PyLit)) (k : String) (x : PyLit) : Prop :=
  ∃ pre post, l = pre ++ (.str k, x) :: post ∧ ∀ y, (PyLit.str k, y) ∉ post

/-- a literal from which the fields can be read: a dict with all of them among its own keys -/
def GoodLiteral (fields : List String) (v : PyLit) : Prop :=
  ∃ l, v = .dict l ∧ ∀ f ∈ fields, ∃ x, (PyLit.str f, x) ∈ l

/-- the exception of looking up a key which is not there -/
def readError : PyLit → PyErr
  | .dict _ => .keyError
  | _ => .typeError

theorem mem_strPairs : ∀ (l : List (PyLit × PyLit)) (k : String) (v : PyLit), (k, v) ∈ strPairs l ↔ (PyLit.str k, v) ∈ l
  | [], k, v => by simp [strPairs]
  | (a, b) :: l, k, v => by
    cases a <;> simp [strPairs, mem_strPairs l k v]

theorem litGet?_update (ps : List (String × PyLit)) (d : Dict String PyLit) (k : String) :
    (Dict.update d ps).get? k = ((ps.reverse.find? fun p => decide (p.1 = k)).map Prod.snd).or (d.get? k) := by
  induction ps generalizing d with
  | nil => rfl
  | cons p ps ih =>
    rw [Dict.update_cons, ih, List.reverse_cons, List.find?_append]
    rcases h : ps.reverse.find? fun p => decide (p.1 = k) with _ | q
    · rw [h, Option.none_or, Option.map_none, Option.none_or, Dict.get?_set]
      by_cases hk : p.1 = k
      · simp [hk]
      · simp [hk]
    · rw [h]
      rfl

/-- the value read for a key -/
def litValue (l : List (PyLit × PyLit)) (k : String) : PyM PyLit := (Dict.update [] (strPairs l)).getItem k

theorem litValue_cases (l : List (PyLit × PyLit)) (k : String) :
    (∃ x, litValue l k = .ok x ∧ LastEntry l k x) ∨
      (litValue l k = .error .keyError ∧ ∀ x, (PyLit.str k, x) ∉ l) := by
  have key : ∀ l : List (PyLit × PyLit),
      (∃ p, ((strPairs l).reverse.find? fun p => decide (p.1 = k)) = some p ∧ LastEntry l k p.2) ∨
      (((strPairs l).reverse.find? fun p => decide (p.1 = k)) = none ∧ ∀ x, (PyLit.str k, x) ∉ l) := by
    intro l
    induction l with
    | nil => right; exact ⟨rfl, by simp⟩
    | cons ab l ih =>
      obtain ⟨a, b⟩ := ab
      rcases ih with ⟨p, hp, pre, post, he, hn⟩ | ⟨hf, hn⟩
      · left
        refine ⟨p, ?_, (a, b) :: pre, post, by rw [he]; rfl, hn⟩
        cases a <;> simp [strPairs, hp]
      · by_cases ha : a = .str k
        · subst ha
          left
          refine ⟨(k, b), ?_, [], l, rfl, hn⟩
          simp [strPairs, hf]
        · right
          refine ⟨?_, ?_⟩
          · cases a with
            | str s =>
              have : s ≠ k := fun h => ha (by rw [h])
              simp [strPairs, hf, this]
            | _ => simpa [strPairs] using hf
          · intro x hx
            rcases List.mem_cons.1 hx with h | h
            · exact ha (congrArg Prod.fst h).symm
            · exact hn x h
  unfold litValue Dict.getItem
  rw [litGet?_update]
  rcases key l with ⟨p, hp, hl⟩ | ⟨hf, hn⟩
  · left
    exact ⟨p.2, by rw [hp]; rfl, hl⟩
  · right
    exact ⟨by rw [hf]; rfl, hn⟩

theorem lastEntry_mem {l : List (PyLit × PyLit)} {k : String} {x : PyLit} (h : LastEntry l k x) :
    (PyLit.str k, x) ∈ l := by
  obtain ⟨pre, post, rfl, _⟩ := h
  simp

theorem steamRow_dict (fields : List String) (l : List (PyLit × PyLit)) :
    steamRow fields (.dict l) = fields.mapM (litValue l) := rfl

/-- **C180** (one line) From a good literal the row holds, field by field, the last value given for the field by the dict
itself. -/
theorem C180_row (fields : List String) (v : PyLit) (row : List PyLit) (hf : fields ≠ []) :
    steamRow fields v = .ok row ↔ ∃ l, v = .dict l ∧ List.Forall₂ (LastEntry l) fields row := by
  have huniq : ∀ (l : List (PyLit × PyLit)) k x, litValue l k = .ok x ↔ LastEntry l k x := by
    intro l k x
    constructor
    · intro h
      rcases litValue_cases l k with ⟨y, hy, hl⟩ | ⟨he, _⟩
      · rw [hy] at h; cases h; exact hl
      · rw [he] at h; cases h
    · intro h
      rcases litValue_cases l k with ⟨y, hy, hl⟩ | ⟨_, hn⟩
      · rw [hy]
        obtain ⟨p, q, h1, h2⟩ := h
        obtain ⟨p', q', h1', h2'⟩ := hl
        rw [h1, List.append_eq_append_iff] at h1'
        rcases h1' with ⟨c, hc, hc'⟩ | ⟨c, hc, hc'⟩
        · cases c with
          | nil => cases hc'; rfl
          | cons a c =>
            cases hc'
            exact absurd (by simp : (PyLit.str k, y) ∈ c ++ (PyLit.str k, y) :: q') (h2 y)
        · cases c with
          | nil => cases hc'; rfl
          | cons a c =>
            cases hc'
            exact absurd (by simp : (PyLit.str k, x) ∈ c ++ (PyLit.str k, x) :: q) (h2' x)
      · exact absurd (lastEntry_mem h) (hn x)
  have hdict : ∀ l, steamRow fields (.dict l) = .ok row ↔ List.Forall₂ (LastEntry l) fields row := by
    intro l
    rw [steamRow_dict, mapM_ok_iff]
    constructor
    · intro h; exact h.imp fun a b => (huniq l a b).1
    · intro h; exact h.imp fun a b => (huniq l a b).2
  cases v with
  | dict l =>
    rw [hdict]
    constructor
    · intro h; exact ⟨l, rfl, h⟩
    · rintro ⟨l', h, h'⟩; cases h; exact h'
  | _ =>
    constructor
    · intro h
      exfalso
      cases fields with
      | nil => exact hf rfl
      | cons f fs => cases h
    · rintro ⟨l, h, _⟩; cases h

/-- **C180** (which literals) A literal gives a row exactly when it is a dict with all the fields among its own keys; what
is nested inside the values does not matter. -/
theorem C180_row_iff (fields : List String) (v : PyLit) (hf : fields ≠ []) :
    (∃ row, steamRow fields v = .ok row) ↔ GoodLiteral fields v := by
  constructor
  · rintro ⟨row, h⟩
    obtain ⟨l, rfl, h'⟩ := (C180_row fields v row hf).1 h
    refine ⟨l, rfl, fun f hfm => ?_⟩
    obtain ⟨x, _, hx⟩ := forall₂_mem_left h' hfm
    exact ⟨x, lastEntry_mem hx⟩
  · rintro ⟨l, rfl, h⟩
    rw [steamRow_dict, mapM_ok_all]
    intro f hfm
    rcases litValue_cases l f with ⟨x, hx, _⟩ | ⟨_, hn⟩
    · exact ⟨x, hx⟩
    · obtain ⟨x, hx⟩ := h f hfm
      exact absurd hx (hn x)

/-- **C180** (failure) A dict without one of the fields raises `KeyError`, any other literal `TypeError`. -/
theorem C180_row_error (fields : List String) (v : PyLit) (hf : fields ≠ []) (hv : ¬ GoodLiteral fields v) :
    steamRow fields v = .error (readError v) := by
  cases v with
  | dict l =>
    have hall : ∀ (fs : List String) e, fs.mapM (litValue l) = .error e → e = .keyError := by
      intro fs
      induction fs with
      | nil => intro e h; cases h
      | cons f fs ih =>
        intro e h
        rw [List.mapM_cons] at h
        rcases litValue_cases l f with ⟨x, hx, _⟩ | ⟨he, _⟩
        · rw [hx] at h
          rcases hr : fs.mapM (litValue l) with e' | r
          · rw [hr] at h
            cases h
            exact ih _ hr
          · rw [hr] at h; cases h
        · rw [he] at h
          cases h; rfl
    rcases h : steamRow fields (.dict l) with e | row
    · rw [hall fields e h]; rfl
    · exact absurd ((C180_row_iff fields _ hf).1 ⟨row, h⟩) hv
  | _ =>
    cases fields with
    | nil => exact absurd rfl hf
    | cons f fs => rfl

/-- **C180** (the file) All lines are parsed exactly when each of them is a good literal; then there is one row for each
line, in the order of the file, with the last values given by that line. -/
theorem C180_rows (literal : String → PyM PyLit) (fields : List String) (hf : fields ≠ []) (lines : List String)
    (rows : List (List PyLit)) : steamRows literal fields lines = .ok rows ↔
      List.Forall₂ (fun line row => ∃ l, literal line = .ok (.dict l) ∧ List.Forall₂ (LastEntry l) fields row)
        lines rows := by
  unfold steamRows
  rw [mapM_ok_iff]
  have key : ∀ line row, steamLine literal fields line = .ok row ↔
      ∃ l, literal line = .ok (.dict l) ∧ List.Forall₂ (LastEntry l) fields row := by
    intro line row
    unfold steamLine
    rw [bind_ok_iff]
    constructor
    · rintro ⟨v, hv, h⟩
      obtain ⟨l, rfl, h'⟩ := (C180_row fields v row hf).1 h
      exact ⟨l, hv, h'⟩
    · rintro ⟨l, hl, h⟩
      exact ⟨_, hl, (C180_row fields _ row hf).2 ⟨l, rfl, h⟩⟩
  constructor
  · intro h; exact h.imp fun a b => (key a b).1
  · intro h; exact h.imp fun a b => (key a b).2

/-- **C180** (the first bad line) The exception is the one of the first bad line: that of `literal_eval` when the line is
not a literal (an empty line for example), otherwise the one of reading the fields. The lines after it do not matter. -/
theorem C180_first_bad (literal : String → PyM PyLit) (fields : List String) (hf : fields ≠ []) (pre post : List String)
    (bad : String) (hpre : ∀ line ∈ pre, ∃ v, literal line = .ok v ∧ GoodLiteral fields v) :
    (∀ e, literal bad = .error e → steamRows literal fields (pre ++ bad :: post) = .error e) ∧
    (∀ v, literal bad = .ok v → ¬ GoodLiteral fields v → steamRows literal fields (pre ++ bad :: post) =
      .error (readError v)) := by
  have key : ∀ e, steamLine literal fields bad = .error e →
      steamRows literal fields (pre ++ bad :: post) = .error e := by
    intro e he
    unfold steamRows
    induction pre with
    | nil => rw [List.nil_append, List.mapM_cons, he]; rfl
    | cons a pre ih =>
      obtain ⟨v, hv, hg⟩ := hpre a (List.mem_cons_self ..)
      obtain ⟨row, hr⟩ := (C180_row_iff fields v hf).2 hg
      have hs : steamLine literal fields a = .ok row := by
        unfold steamLine; rw [hv]; exact hr
      rw [List.cons_append, List.mapM_cons, hs, except_bind_ok, ih fun l hl => hpre l (List.mem_cons_of_mem _ hl)]
      rfl
  constructor
  · intro e he
    exact key e (by unfold steamLine; rw [he]; rfl)
  · intro v hv hn
    exact key _ (by unfold steamLine; rw [hv]; exact C180_row_error fields v hf hn)

/-- **C180** (one bad line spoils the file) When the download succeeds and the file has a bad line, `load_steam` raises the
exception of its first bad line; `steam.csv` is as it was before, and the downloaded temporary file is left behind. -/
theorem C180_bad_file {C : Type} (E : LoadEnv C) (lines : C → PyM (List String)) (literal : String → PyM PyLit)
    (table : List (List PyLit) → PyM C) (hE : E.steamCsv = steamCsvOf lines literal table)
    (d d1 : FileSys C) (raw : C) (ls : List String) (e : PyErr)
    (hdown : (mkdirP ["data", "steam"] >>= fun _ =>
      retrieve E "http://cseweb.ucsd.edu/~wckang/steam_reviews.json.gz" ["data", "temp_steam"]) d = (.ok (), d1))
    (hraw : E.fetch "http://cseweb.ucsd.edu/~wckang/steam_reviews.json.gz" = .ok raw) (hls : lines raw = .ok ls)
    (hbad : steamRows literal ["username", "product_id", "date"] ls = .error e) :
    loadSteamFile E d = (.error e, d1) ∧
      d1.get? ["data", "steam", "steam.csv"] = d.get? ["data", "steam", "steam.csv"] ∧
      d1.get? ["data", "temp_steam"] = some (.file raw) := by
  obtain ⟨u, d0, h0, h1⟩ := FsM.bind_ok_iff.1 hdown
  obtain ⟨c, hc, hd1⟩ := retrieve_ok _ _ _ _ _ h1
  rw [hraw] at hc
  cases hc
  have g1 : d1.get? ["data", "temp_steam"] = some (.file raw) := by rw [hd1, Dict.get?_set_self]
  refine ⟨?_, ?_, g1⟩
  · unfold loadSteamFile
    rw [FsM.bind_of_ok h0, FsM.bind_of_ok h1, FsM.bind_of_ok (readFile_run ["data", "temp_steam"] raw d1 g1)]
    have he : E.steamCsv raw = .error e := by
      rw [hE]
      unfold steamCsvOf
      rw [hls, except_bind_ok]
      show (steamRows literal ["username", "product_id", "date"] ls >>= table) = _
      rw [hbad]
      rfl
    have l1 : (FsM.lift (E.steamCsv raw) : FsM C C) d1 = (.error e, d1) := by rw [he]; rfl
    rw [FsM.bind_of_error l1]
  · have f1 := (mkdirP_frame (C := C) ["data", "steam"]).of_eq h0
    have f2 := (retrieve_frame E _ _).of_eq h1
    rw [f2 _ (by simp), f1 _ (by simp)]

/-! ### Examples -/

/-- a line of the file as a literal -/
def exSteamLit (u : String) (extra : List (PyLit × PyLit)) : PyLit :=
  .dict ([(.str "username", .str u), (.num 1, .none), (.str "product_id", .str "725280"),
    (.str "date", .str "2017-12-17")] ++ extra)

/-- three readable lines and an empty one -/
def exLiteral (s : String) : PyM PyLit :=
  if s = "a" then .ok (exSteamLit "Ann" [(.str "style", .dict [(.str "Size", .str "L")])])
  else if s = "b" then .ok (exSteamLit "Bob" [(.str "username", .str "Ben")])
  else if s = "c" then .ok (.list [.str "username"])
  else .error .valueError

/-- A nested dict without the fields does no harm here (it does for the Amazon files, C139); of two values for a key the
last one counts. -/
example : steamRows exLiteral steamFields ["a", "b"] =
    .ok [[.str "Ann", .str "725280", .str "2017-12-17"], [.str "Ben", .str "725280", .str "2017-12-17"]] := by
  rfl

/-- The first bad line decides. -/
example : steamRows exLiteral steamFields ["a", "c", ""] = .error .typeError ∧
    steamRows exLiteral steamFields ["a", "", "c"] = .error .valueError ∧
    steamRow steamFields (.dict [(.str "username", .str "Ann")]) = .error .keyError := ⟨rfl, rfl, rfl⟩

/-- A file with a bad line: the run fails, there is no `steam.csv`, the temporary file remains. -/
example : let E : LoadEnv ℕ := { exLoadEnv with
      steamCsv := steamCsvOf (fun _ => .ok ["a", "c"]) exLiteral fun rows => .ok rows.length }
    (loadSteamFile E [(["data"], .dir)]).1 = .error .typeError ∧
      (loadSteamFile E [(["data"], .dir)]).2.get? ["data", "steam", "steam.csv"] = none ∧
      (loadSteamFile E [(["data"], .dir)]).2.get? ["data", "temp_steam"] = some (.file 1) := by
  refine ⟨rfl, rfl, rfl⟩

end DynCF
