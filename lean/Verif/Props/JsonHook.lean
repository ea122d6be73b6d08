/- Property C139: parsing the Amazon reviews (`/repo/load_data.py: parse_lines_amz`). -/
import Verif.Props.LoadFiles
import Verif.Lemmas.Hooi

namespace DynCF

/-- `Inside o j`: the value `o` occurs in the JSON text `j`, at any depth. -/
inductive Inside (o : Json) : Json → Prop where
  | self : Inside o o
  | arr {l : List Json} {x : Json} (hx : x ∈ l) (h : Inside o x) : Inside o (.arr l)
  | obj {l : List (String × Json)} {k : String} {x : Json} (hx : (k, x) ∈ l) (h : Inside o x) : Inside o (.obj l)

/-- every object in the text has all the fields -/
def HasFields (fields : List String) (j : Json) : Prop :=
  ∀ l, Inside (.obj l) j → ∀ f ∈ fields, f ∈ l.map Prod.fst

theorem get?_update (ps : List (String × JVal)) (d : Dict String JVal) (k : String) :
    (Dict.update d ps).get? k = ((ps.reverse.find? fun p => decide (p.1 = k)).map Prod.snd).or (d.get? k) := by
  induction ps generalizing d with
  | nil => rfl
  | cons p ps ih =>
    rw [Dict.update_cons, ih, List.reverse_cons, List.find?_append]
    rcases h : ps.reverse.find? fun p => decide (p.1 = k) with _ | q
    · rw [h, Option.none_or, Option.map_none, Option.none_or, Dict.get?_set]
      by_cases hk : p.1 = k
      · simp [hk]
      · simp [hk]
    · rw [h]
      rfl

theorem getItem_update (ps : List (String × JVal)) (k : String) :
    (∃ v, (Dict.update [] ps).getItem k = .ok v) ↔ k ∈ ps.map Prod.fst := by
  unfold Dict.getItem
  rw [get?_update]
  rcases h : ps.reverse.find? fun p => decide (p.1 = k) with _ | q
  · rw [h]
    rw [List.find?_eq_none] at h
    simp only [List.mem_reverse, decide_eq_true_eq] at h
    constructor
    · rintro ⟨v, hv⟩; cases hv
    · intro hk
      obtain ⟨p, hp, rfl⟩ := List.mem_map.1 hk
      exact absurd rfl (h p hp)
  · rw [h]
    have h1 := List.mem_of_find?_eq_some h
    have h2 := List.find?_some h
    simp only [decide_eq_true_eq] at h2
    constructor
    · intro _
      rw [← h2]
      exact List.mem_map.2 ⟨q, List.mem_reverse.1 h1, rfl⟩
    · intro _
      exact ⟨q.2, rfl⟩

theorem mapM_ok_all {α β : Type} (f : α → PyM β) :
    ∀ l : List α, (∃ r, l.mapM f = .ok r) ↔ ∀ a ∈ l, ∃ b, f a = .ok b
  | [] => by simp [List.mapM_nil]; exact ⟨[], rfl⟩
  | a :: l => by
    rw [List.mapM_cons]
    rcases h : f a with e | b
    · constructor
      · rintro ⟨r, hr⟩; cases hr
      · intro hh
        obtain ⟨b, hb⟩ := hh a List.mem_cons_self
        rw [h] at hb; cases hb
    · rw [except_bind_ok]
      constructor
      · rintro ⟨r, hr⟩ x hx
        obtain ⟨t, ht, _⟩ := (bind_ok_iff _ _ _).1 hr
        rcases List.mem_cons.1 hx with rfl | hx
        · exact ⟨b, h⟩
        · exact (mapM_ok_all f l).1 ⟨t, ht⟩ x hx
      · intro hh
        obtain ⟨t, ht⟩ := (mapM_ok_all f l).2 fun x hx => hh x (List.mem_cons_of_mem _ hx)
        exact ⟨b :: t, by rw [ht]; rfl⟩

theorem hookTuple_ok_iff (fields : List String) (ps : List (String × JVal)) :
    (∃ v, hookTuple fields (Dict.update [] ps) = .ok v) ↔ ∀ f ∈ fields, f ∈ ps.map Prod.fst := by
  unfold hookTuple
  constructor
  · rintro ⟨v, hv⟩ f hf
    obtain ⟨l, hl, _⟩ := (bind_ok_iff _ _ _).1 hv
    exact (getItem_update ps f).1 ((mapM_ok_all _ fields).1 ⟨l, hl⟩ f hf)
  · intro h
    obtain ⟨l, hl⟩ := (mapM_ok_all (fun key => (Dict.update [] ps).getItem key) fields).2 fun f hf =>
      (getItem_update ps f).2 (h f hf)
    exact ⟨.tup l, by rw [hl]; rfl⟩

theorem hookPairs_keys (fields : List String) : ∀ (l : List (String × Json)) (ps : List (String × JVal)),
    hookPairs fields l = .ok ps → ps.map Prod.fst = l.map Prod.fst
  | [], ps, h => by
    unfold hookPairs at h
    cases h
    rfl
  | (k, x) :: l, ps, h => by
    unfold hookPairs at h
    obtain ⟨v, _, h⟩ := (bind_ok_iff _ _ _).1 h
    obtain ⟨vs, hvs, h⟩ := (bind_ok_iff _ _ _).1 h
    cases h
    rw [List.map_cons, List.map_cons, hookPairs_keys fields l vs hvs]

mutual
theorem hookVal_ok_iff (fields : List String) : (j : Json) →
    ((∃ v, hookVal fields j = .ok v) ↔ HasFields fields j)
  | .null => ⟨fun _ l h => by (cases h), fun _ => ⟨_, by unfold hookVal; rfl⟩⟩
  | .bool b => ⟨fun _ l h => by (cases h), fun _ => ⟨_, by unfold hookVal; rfl⟩⟩
  | .num q => ⟨fun _ l h => by (cases h), fun _ => ⟨_, by unfold hookVal; rfl⟩⟩
  | .str s => ⟨fun _ l h => by (cases h), fun _ => ⟨_, by unfold hookVal; rfl⟩⟩
  | .arr l => by
    have ih := hookList_ok_iff fields l
    constructor
    · rintro ⟨v, hv⟩ o ho
      unfold hookVal at hv
      obtain ⟨vs, hvs, _⟩ := (bind_ok_iff _ _ _).1 hv
      cases ho with
      | arr hx h => exact (ih.1 ⟨vs, hvs⟩ _ hx) o h
    · intro h
      obtain ⟨vs, hvs⟩ := ih.2 fun x hx o ho => h o (.arr hx ho)
      exact ⟨.list vs, by unfold hookVal; rw [hvs]; rfl⟩
  | .obj l => by
    have ih := hookPairs_ok_iff fields l
    constructor
    · rintro ⟨v, hv⟩ o ho
      unfold hookVal at hv
      obtain ⟨ps, hps, ht⟩ := (bind_ok_iff _ _ _).1 hv
      cases ho with
      | self =>
        have := (hookTuple_ok_iff fields ps).1 ⟨v, ht⟩
        rw [hookPairs_keys fields l ps hps] at this
        exact this
      | obj hx h => exact (ih.1 ⟨ps, hps⟩ _ _ hx) o h
    · intro h
      obtain ⟨ps, hps⟩ := ih.2 fun k x hx o ho => h o (.obj hx ho)
      obtain ⟨v, hv⟩ := (hookTuple_ok_iff fields ps).2 (by
        rw [hookPairs_keys fields l ps hps]
        exact h l .self)
      exact ⟨v, by unfold hookVal; rw [hps]; exact hv⟩
theorem hookList_ok_iff (fields : List String) : (l : List Json) →
    ((∃ vs, hookList fields l = .ok vs) ↔ ∀ x ∈ l, HasFields fields x)
  | [] => ⟨fun _ x hx => by (cases hx), fun _ => ⟨[], by unfold hookList; rfl⟩⟩
  | x :: l => by
    have h1 := hookVal_ok_iff fields x
    have h2 := hookList_ok_iff fields l
    constructor
    · rintro ⟨vs, hvs⟩ y hy
      unfold hookList at hvs
      obtain ⟨v, hv, hvs⟩ := (bind_ok_iff _ _ _).1 hvs
      obtain ⟨ws, hws, _⟩ := (bind_ok_iff _ _ _).1 hvs
      rcases List.mem_cons.1 hy with rfl | hy
      · exact h1.1 ⟨v, hv⟩
      · exact h2.1 ⟨ws, hws⟩ y hy
    · intro h
      obtain ⟨v, hv⟩ := h1.2 (h x List.mem_cons_self)
      obtain ⟨vs, hvs⟩ := h2.2 fun y hy => h y (List.mem_cons_of_mem _ hy)
      exact ⟨v :: vs, by unfold hookList; rw [hv, except_bind_ok, hvs]; rfl⟩
theorem hookPairs_ok_iff (fields : List String) : (l : List (String × Json)) →
    ((∃ vs, hookPairs fields l = .ok vs) ↔ ∀ k x, (k, x) ∈ l → HasFields fields x)
  | [] => ⟨fun _ k x hx => by (cases hx), fun _ => ⟨[], by unfold hookPairs; rfl⟩⟩
  | (k, x) :: l => by
    have h1 := hookVal_ok_iff fields x
    have h2 := hookPairs_ok_iff fields l
    constructor
    · rintro ⟨vs, hvs⟩ k' y hy
      unfold hookPairs at hvs
      obtain ⟨v, hv, hvs⟩ := (bind_ok_iff _ _ _).1 hvs
      obtain ⟨ws, hws, _⟩ := (bind_ok_iff _ _ _).1 hvs
      rcases List.mem_cons.1 hy with hy | hy
      · cases hy
        exact h1.1 ⟨v, hv⟩
      · exact h2.1 ⟨ws, hws⟩ k' y hy
    · intro h
      obtain ⟨v, hv⟩ := h1.2 (h k x List.mem_cons_self)
      obtain ⟨vs, hvs⟩ := h2.2 fun k' y hy => h k' y (List.mem_cons_of_mem _ hy)
      exact ⟨(k, v) :: vs, by unfold hookPairs; rw [hv, except_bind_ok, hvs]; rfl⟩
end

/-! ### C139 -/

/-- **C139** (success) The hook is called for every object in a line, not only for the review: parsing completes exactly
when every object, at any depth, has all the fields. -/
theorem C139_completes_iff (fields : List String) (j : Json) :
    (∃ v, hookVal fields j = .ok v) ↔ ∀ l, Inside (.obj l) j → ∀ f ∈ fields, f ∈ l.map Prod.fst :=
  hookVal_ok_iff fields j

mutual
theorem hookVal_keyError (fields : List String) : (j : Json) → ∀ e, hookVal fields j = .error e → e = .keyError
  | .null => fun e h => by unfold hookVal at h; cases h
  | .bool b => fun e h => by unfold hookVal at h; cases h
  | .num q => fun e h => by unfold hookVal at h; cases h
  | .str s => fun e h => by unfold hookVal at h; cases h
  | .arr l => fun e h => by
    unfold hookVal at h
    rcases hl : hookList fields l with e' | vs
    · rw [hl] at h; cases h
      exact hookList_keyError fields l e hl
    · rw [hl] at h; cases h
  | .obj l => fun e h => by
    unfold hookVal at h
    rcases hl : hookPairs fields l with e' | ps
    · rw [hl] at h; cases h
      exact hookPairs_keyError fields l e hl
    · rw [hl, except_bind_ok] at h
      unfold hookTuple at h
      rcases hm : fields.mapM fun key => (Dict.update [] ps).getItem key with e' | vs
      · rw [hm] at h; cases h
        have : ∀ (fs : List String), fs.mapM (fun key => (Dict.update [] ps).getItem key) = .error e → e = .keyError := by
          intro fs
          induction fs with
          | nil => intro h; cases h
          | cons f fs ih =>
            intro h
            rw [List.mapM_cons] at h
            rcases hf : (Dict.update [] ps).getItem f with e' | v
            · rw [hf] at h; cases h
              unfold Dict.getItem at hf
              split at hf
              · cases hf
              · cases hf; rfl
            · rw [hf, except_bind_ok] at h
              rcases hm : fs.mapM (fun key => (Dict.update [] ps).getItem key) with e' | vs
              · rw [hm] at h; cases h
                exact ih hm
              · rw [hm] at h; cases h
        exact this fields hm
      · rw [hm] at h; cases h
theorem hookList_keyError (fields : List String) : (l : List Json) → ∀ e, hookList fields l = .error e → e = .keyError
  | [] => fun e h => by unfold hookList at h; cases h
  | x :: l => fun e h => by
    unfold hookList at h
    rcases hx : hookVal fields x with e' | v
    · rw [hx] at h; cases h
      exact hookVal_keyError fields x e hx
    · rw [hx, except_bind_ok] at h
      rcases hl : hookList fields l with e' | vs
      · rw [hl] at h; cases h
        exact hookList_keyError fields l e hl
      · rw [hl] at h; cases h
theorem hookPairs_keyError (fields : List String) : (l : List (String × Json)) →
    ∀ e, hookPairs fields l = .error e → e = .keyError
  | [] => fun e h => by unfold hookPairs at h; cases h
  | (k, x) :: l => fun e h => by
    unfold hookPairs at h
    rcases hx : hookVal fields x with e' | v
    · rw [hx] at h; cases h
      exact hookVal_keyError fields x e hx
    · rw [hx, except_bind_ok] at h
      rcases hl : hookPairs fields l with e' | vs
      · rw [hl] at h; cases h
        exact hookPairs_keyError fields l e hl
      · rw [hl] at h; cases h
end

/-- **C139** (failure) Otherwise parsing raises `KeyError`. -/
theorem C139_error (fields : List String) (j : Json) (l : List (String × Json)) (hl : Inside (.obj l) j) (f : String)
    (hf : f ∈ fields) (hn : f ∉ l.map Prod.fst) : hookVal fields j = .error .keyError := by
  rcases h : hookVal fields j with e | v
  · rw [hookVal_keyError fields j e h]
  · exact absurd ((C139_completes_iff fields j).1 ⟨v, h⟩ l hl f hf) hn

/-- the last value given for a key in an object -/
def LastValue (l : List (String × Json)) (k : String) (x : Json) : Prop :=
  ∃ pre post, l = pre ++ (k, x) :: post ∧ k ∉ post.map Prod.fst

theorem hookPairs_last (fields : List String) : ∀ (l : List (String × Json)) (ps : List (String × JVal)) (k : String)
    (v : JVal), hookPairs fields l = .ok ps → (∃ pre post, ps = pre ++ (k, v) :: post ∧ k ∉ post.map Prod.fst) →
    ∃ x, LastValue l k x ∧ hookVal fields x = .ok v
  | [], ps, k, v, h, hp => by
    unfold hookPairs at h
    cases h
    obtain ⟨pre, post, h, _⟩ := hp
    cases pre <;> cases h
  | (k', x) :: l, ps, k, v, h, hp => by
    unfold hookPairs at h
    obtain ⟨w, hw, h⟩ := (bind_ok_iff _ _ _).1 h
    obtain ⟨vs, hvs, h⟩ := (bind_ok_iff _ _ _).1 h
    cases h
    obtain ⟨pre, post, h, hn⟩ := hp
    cases pre with
    | nil =>
      cases h
      refine ⟨x, ⟨[], l, rfl, ?_⟩, hw⟩
      rw [← hookPairs_keys fields l _ hvs]
      exact hn
    | cons a pre =>
      cases h
      obtain ⟨y, ⟨p, q, he, hq⟩, hy⟩ := hookPairs_last fields l _ k v hvs ⟨pre, post, rfl, hn⟩
      exact ⟨y, ⟨(k', x) :: p, q, by rw [he]; rfl, hq⟩, hy⟩

theorem find_reverse_last (ps : List (String × JVal)) (k : String) (p : String × JVal)
    (h : (ps.reverse.find? fun p => decide (p.1 = k)) = some p) :
    ∃ pre post, ps = pre ++ (k, p.2) :: post ∧ k ∉ post.map Prod.fst := by
  induction ps with
  | nil => cases h
  | cons a ps ih =>
    rw [List.reverse_cons, List.find?_append] at h
    rcases hf : ps.reverse.find? fun p => decide (p.1 = k) with _ | q
    · rw [hf, Option.none_or] at h
      by_cases ha : a.1 = k
      · simp only [List.find?_cons, ha, decide_true] at h
        cases h
        refine ⟨[], ps, by rw [← ha]; rfl, ?_⟩
        rw [List.find?_eq_none] at hf
        simp only [List.mem_reverse, decide_eq_true_eq] at hf
        intro hk
        obtain ⟨b, hb, he⟩ := List.mem_map.1 hk
        exact hf b hb he
      · simp [ha] at h
    · rw [hf, Option.some_or] at h
      cases h
      obtain ⟨pre, post, he, hn⟩ := ih hf
      exact ⟨a :: pre, post, by rw [he]; rfl, hn⟩

/-- **C139** (rows) When all lines are parsed there is one row for each line, in the order of the file; each line is an
object and its row holds, field by field, the last value given for the field in that line. -/
theorem C139_rows (fields : List String) (lines : List Json) (rows : List (List JVal))
    (h : amzRows fields lines = .ok rows) :
    List.Forall₂ (fun j row => ∃ l, j = .obj l ∧
      List.Forall₂ (fun f v => ∃ x, LastValue l f x ∧ hookVal fields x = .ok v) fields row) lines rows := by
  unfold amzRows at h
  induction lines generalizing rows with
  | nil => cases h; exact .nil
  | cons j lines ih =>
    rw [List.mapM_cons] at h
    obtain ⟨row, hrow, h⟩ := (bind_ok_iff _ _ _).1 h
    obtain ⟨rows', hrows, h⟩ := (bind_ok_iff _ _ _).1 h
    cases h
    refine .cons ?_ (ih rows' hrows)
    obtain ⟨v, hv, hr⟩ := (bind_ok_iff _ _ _).1 hrow
    cases j with
    | obj l =>
      refine ⟨l, rfl, ?_⟩
      unfold hookVal at hv
      obtain ⟨ps, hps, ht⟩ := (bind_ok_iff _ _ _).1 hv
      unfold hookTuple at ht
      obtain ⟨t, htm, ht⟩ := (bind_ok_iff _ _ _).1 ht
      cases ht
      unfold recordRow at hr
      cases hr
      have key : ∀ (fs : List String) (t : List JVal), fs.mapM (fun key => (Dict.update [] ps).getItem key) = .ok t →
          List.Forall₂ (fun f v => ∃ x, LastValue l f x ∧ hookVal fields x = .ok v) fs t := by
        intro fs
        induction fs with
        | nil => intro t h; cases h; exact .nil
        | cons f fs ihf =>
          intro t h
          rw [List.mapM_cons] at h
          obtain ⟨w, hw, h⟩ := (bind_ok_iff _ _ _).1 h
          obtain ⟨ws, hws, h⟩ := (bind_ok_iff _ _ _).1 h
          cases h
          refine .cons ?_ (ihf ws hws)
          unfold Dict.getItem at hw
          rw [get?_update] at hw
          rcases hf : ps.reverse.find? fun p => decide (p.1 = f) with _ | q
          · rw [hf] at hw; cases hw
          · rw [hf] at hw
            cases hw
            exact hookPairs_last fields l ps f q.2 hps (find_reverse_last ps f q hf)
      exact key fields _ htm
    | _ =>
      exfalso
      unfold hookVal at hv
      first
        | (cases hv; unfold recordRow at hr; cases hr)
        | (obtain ⟨vs, _, hv⟩ := (bind_ok_iff _ _ _).1 hv
           cases hv; unfold recordRow at hr; cases hr)

/-- Plain values are stored as they are. -/
theorem C139_plain (fields : List String) :
    (∀ s, hookVal fields (.str s) = .ok (.str s)) ∧ (∀ q, hookVal fields (.num q) = .ok (.num q)) := by
  constructor <;> intro x <;> (unfold hookVal; rfl)

theorem amzRows_error (fields : List String) (lines : List Json) (j : Json) (hj : j ∈ lines)
    (l : List (String × Json)) (hl : Inside (.obj l) j) (f : String) (hf : f ∈ fields) (hn : f ∉ l.map Prod.fst) :
    ∃ e, amzRows fields lines = .error e := by
  rcases h : amzRows fields lines with e | rows
  · exact ⟨e, rfl⟩
  · obtain ⟨row, hr⟩ := (mapM_ok_all _ lines).1 ⟨rows, h⟩ j hj
    obtain ⟨v, hv, _⟩ := (bind_ok_iff _ _ _).1 hr
    rw [C139_error fields j l hl f hf hn] at hv
    cases hv

/-- **C139** (one bad line spoils the file) A single object without one of the fields, in any line and at any depth, makes
`load_amazon` fail; the csv file is not written. -/
theorem C139_bad_line {C : Type} (E : LoadEnv C) (s name : String) (d : FileSys C) (raw : C) (lines : List Json)
    (hs : (s, name) ∈ [("amz_b", "Beauty"), ("amz_g", "Toys_and_Games")])
    (hraw : E.fetch ("http://snap.stanford.edu/data/amazon/productGraph/categoryFiles/reviews_" ++ name ++
      "_5.json.gz") = .ok raw) (hlines : E.jsonLines raw = .ok lines)
    (j : Json) (hj : j ∈ lines) (l : List (String × Json)) (hl : Inside (.obj l) j) (f : String)
    (hf : f ∈ ["reviewerID", "asin", "unixReviewTime"]) (hn : f ∉ l.map Prod.fst) :
    (∀ d', loadAmazon E s d ≠ (.ok (), d')) ∧
      (loadAmazon E s d).2.get? ["data", s, s ++ ".gz"] = d.get? ["data", s, s ++ ".gz"] := by
  obtain ⟨e, he⟩ := amzRows_error amzFields lines j hj l hl f hf hn
  have hname : amzNames.getItem s = .ok name := by
    simp only [List.mem_cons, Prod.mk.injEq, List.not_mem_nil, or_false] at hs
    rcases hs with ⟨rfl, rfl⟩ | ⟨rfl, rfl⟩ <;> rfl
  constructor
  · intro d' h
    obtain ⟨name', raw', lines', rows', h1, h2, h3, h4, _⟩ := loadAmazon_ok E s d d' h
    have : name' = name := by
      simp only [amzNames, List.mem_cons, Prod.mk.injEq, List.not_mem_nil, or_false] at hs h1
      rcases hs with ⟨rfl, rfl⟩ | ⟨rfl, rfl⟩
      · simpa using h1
      · simpa using h1
    subst this
    rw [hraw] at h2
    cases h2
    rw [hlines] at h3
    cases h3
    rw [he] at h4
    cases h4
  · have hfr : FrameOf (fun q => q.length ≤ 2) d (loadAmazon E s d).2 := by
      rcases hrun : loadAmazon E s d with ⟨res, d'⟩
      unfold loadAmazon at hrun
      have e0 : (FsM.lift (amzNames.getItem s) : FsM C String) d = (.ok name, d) := by rw [hname]; rfl
      rw [FsM.bind_of_ok e0] at hrun
      rcases h1 : mkdirP ["data", s] d with ⟨r1, d1⟩
      have f1 : FrameOf (fun q => q.length ≤ 2) d d1 :=
        ((mkdirP_frame _).of_eq h1).mono fun q hq => by simpa using hq.2.length_le
      rcases r1 with e' | u
      · rw [FsM.bind_of_error h1] at hrun
        cases hrun; exact f1
      rw [FsM.bind_of_ok h1] at hrun
      rcases h2 : retrieve E ("http://snap.stanford.edu/data/amazon/productGraph/categoryFiles/reviews_" ++ name ++
        "_5.json.gz") ["data", "temp_" ++ s] d1 with ⟨r2, d2⟩
      have f2 := FrameOf.trans _ _ _ _ f1 (((retrieve_frame E _ _).of_eq h2).mono fun q hq => by rw [hq]; simp)
      rcases r2 with e' | u
      · rw [FsM.bind_of_error h2] at hrun
        cases hrun; exact f2
      rw [FsM.bind_of_ok h2] at hrun
      obtain ⟨c, hc, hd2⟩ := retrieve_ok _ _ _ _ _ h2
      rw [hraw] at hc
      cases hc
      have h3 := readFile_run ["data", "temp_" ++ s] raw d2 (by rw [hd2, Dict.get?_set_self])
      rw [FsM.bind_of_ok h3] at hrun
      have l1 : (FsM.lift (E.jsonLines raw) : FsM C (List Json)) d2 = (.ok lines, d2) := by rw [hlines]; rfl
      rw [FsM.bind_of_ok l1] at hrun
      have l2 : (FsM.lift (amzRows amzFields lines) : FsM C _) d2 = (.error e, d2) := by rw [he]; rfl
      rw [FsM.bind_of_error l2] at hrun
      cases hrun
      exact f2
    exact hfr _ (by simp)

/-! ### Examples -/

/-- a line of the file -/
def exReview (u : String) (extra : List (String × Json)) : Json :=
  .obj ([("reviewerID", .str u), ("asin", .str "B1"), ("helpful", .arr [.num 2, .num 3]), ("unixReviewTime", .num 1388)] ++
    extra)

/-- Two reviews are two rows; the second line gives the reviewer twice, the last one counts. -/
example : amzRows amzFields [exReview "A" [], exReview "A" [("reviewerID", .str "B")]] =
    .ok [[.str "A", .str "B1", .num 1388], [.str "B", .str "B1", .num 1388]] := by
  rfl

/-- A nested object (as in the newer files of the same source, field `style`) raises `KeyError`. -/
example : amzRows amzFields [exReview "A" [], exReview "A" [("style", .obj [("Size:", .str "L")])]] =
    .error .keyError := by
  rfl

/-- servers with small files: the archive is `0`, the reviews are `1` -/
def exLoadEnv : LoadEnv ℕ where
  fetch url := .ok (if url = "https://files.grouplens.org/datasets/movielens/ml-20m.zip" then 0 else 1)
  unzip c := if c = 0 then .ok [(["ml-20m"], none), (["ml-20m", "ratings.csv"], some 7)] else .error .valueError
  jsonLines c := if c = 1 then .ok [exReview "A" []] else .error .valueError
  toCsv fields rows := fields.length + rows.length
  steamCsv c := if c = 1 then .ok 9 else .error .valueError

/-- The first run completes and leaves the four files; the second one fails at the renaming and leaves the unpacked
archive behind. -/
example : (loadData exLoadEnv []).1 = .ok () ∧
    prepareReads.map (fun p => (loadData exLoadEnv []).2.get? p) =
      [some (.file 7), some (.file 4), some (.file 4), some (.file 9)] ∧
    (loadData exLoadEnv (loadData exLoadEnv []).2).1 = .error .osError ∧
    (loadData exLoadEnv (loadData exLoadEnv []).2).2.get? ["data", "ml-20m", "ratings.csv"] = some (.file 7) := by
  decide +kernel

/-- The hypotheses of `C137_completes` on the archive hold for the example. -/
example : GoodArchive "ml-20m" [(["ml-20m"], none), (["ml-20m", "ratings.csv"], some 7)] := by
  refine ⟨by simp, ?_, ?_⟩
  · intro m hm
    simp only [List.mem_cons, List.not_mem_nil, or_false] at hm
    rcases hm with rfl | rfl
    · exact ⟨[], rfl, by simp⟩
    · exact ⟨["ratings.csv"], rfl, by simp⟩
  · intro m hm m' hm'
    simp only [List.mem_cons, List.not_mem_nil, or_false] at hm hm'
    rcases hm with rfl | rfl <;> rcases hm' with rfl | rfl <;> simp

end DynCF
