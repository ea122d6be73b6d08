/- Helper lemmas on the file system of `Model/LoadFiles`. -/
import Mathlib.Data.List.Infix
import Verif.Model.LoadFiles
import Verif.Lemmas.Dict

namespace DynCF
variable {C : Type}

theorem FsM.bind_apply {α β : Type} (x : FsM C α) (f : α → FsM C β) (d : FileSys C) :
    (x >>= f) d = match x d with
      | (.ok a, d') => f a d'
      | (.error e, d') => (.error e, d') := rfl

theorem FsM.pure_apply {α : Type} (a : α) (d : FileSys C) : (Pure.pure a : FsM C α) d = (.ok a, d) := rfl

theorem FsM.bind_of_ok {α β : Type} {x : FsM C α} {f : α → FsM C β} {d d1 : FileSys C} {a : α}
    (h : x d = (.ok a, d1)) : (x >>= f) d = f a d1 := by
  rw [FsM.bind_apply, h]

theorem FsM.bind_of_error {α β : Type} {x : FsM C α} {f : α → FsM C β} {d d1 : FileSys C} {e : PyErr}
    (h : x d = (.error e, d1)) : (x >>= f) d = (.error e, d1) := by
  rw [FsM.bind_apply, h]

theorem FsM.bind_ok_iff {α β : Type} {x : FsM C α} {f : α → FsM C β} {d d' : FileSys C} {b : β} :
    (x >>= f) d = (.ok b, d') ↔ ∃ a d1, x d = (.ok a, d1) ∧ f a d1 = (.ok b, d') := by
  rw [FsM.bind_apply]
  rcases h : x d with ⟨r, d1⟩
  rcases r with e | a
  · simp
  · simp

theorem FsM.lift_ok_iff {α : Type} {x : PyM α} {d d' : FileSys C} {a : α} :
    FsM.lift x d = (.ok a, d') ↔ x = .ok a ∧ d' = d := by
  unfold FsM.lift
  constructor
  · intro h
    have h1 := congrArg Prod.fst h
    have h2 := congrArg Prod.snd h
    exact ⟨h1, h2.symm⟩
  · rintro ⟨rfl, rfl⟩
    rfl

theorem FsM.forM_cons {α : Type} (a : α) (l : List α) (f : α → FsM C Unit) :
    List.forM (a :: l) f = (f a >>= fun _ => List.forM l f) := rfl

theorem FsM.forM_nil {α : Type} (f : α → FsM C Unit) : List.forM [] f = (Pure.pure () : FsM C Unit) := rfl

/-! ### Preserved relations -/

/-- A relation between the files before and after holds for an action, whether it completes or not. -/
def FsM.Rel {α : Type} (R : FileSys C → FileSys C → Prop) (x : FsM C α) : Prop := ∀ d, R d (x d).2

theorem FsM.Rel.of_eq {α : Type} {R : FileSys C → FileSys C → Prop} {x : FsM C α} (h : FsM.Rel R x) {d d' : FileSys C}
    {r : Except PyErr α} (he : x d = (r, d')) : R d d' := by
  have := h d
  rwa [he] at this

theorem FsM.Rel.bind {α β : Type} {R : FileSys C → FileSys C → Prop} (ht : ∀ a b c, R a b → R b c → R a c)
    {x : FsM C α} {f : α → FsM C β} (hx : FsM.Rel R x) (hf : ∀ a, FsM.Rel R (f a)) : FsM.Rel R (x >>= f) := by
  intro d
  have h1 := hx d
  rw [FsM.bind_apply]
  rcases h : x d with ⟨r, d1⟩
  rw [h] at h1
  rcases r with e | a
  · exact h1
  · exact ht _ _ _ h1 (hf a d1)

theorem FsM.Rel.lift {α : Type} {R : FileSys C → FileSys C → Prop} (hr : ∀ a, R a a) (x : PyM α) :
    FsM.Rel R (FsM.lift x : FsM C α) := fun d => hr d

theorem FsM.Rel.forM {α : Type} {R : FileSys C → FileSys C → Prop} (hr : ∀ a, R a a)
    (ht : ∀ a b c, R a b → R b c → R a c) {f : α → FsM C Unit} :
    ∀ (l : List α), (∀ a ∈ l, FsM.Rel R (f a)) → FsM.Rel R (l.forM f)
  | [], _ => fun d => hr d
  | a :: l, h => by
    rw [FsM.forM_cons]
    exact FsM.Rel.bind ht (h a List.mem_cons_self) fun _ =>
      FsM.Rel.forM hr ht l fun b hb => h b (List.mem_cons_of_mem _ hb)

/-- Nothing changes outside `S`. -/
def FrameOf (S : FPath → Prop) (d d' : FileSys C) : Prop := ∀ q, ¬ S q → d'.get? q = d.get? q

theorem FrameOf.refl (S : FPath → Prop) (d : FileSys C) : FrameOf S d d := fun _ _ => rfl

theorem FrameOf.trans (S : FPath → Prop) (a b c : FileSys C) (h : FrameOf S a b) (h' : FrameOf S b c) :
    FrameOf S a c := fun q hq => (h' q hq).trans (h q hq)

theorem FrameOf.mono {S T : FPath → Prop} {d d' : FileSys C} (h : FrameOf S d d') (hst : ∀ q, S q → T q) :
    FrameOf T d d' := fun q hq => h q fun hs => hq (hst q hs)

/-- Every directory is kept. -/
def KeepDirs (d d' : FileSys C) : Prop := ∀ q, d.get? q = some .dir → d'.get? q = some .dir

theorem KeepDirs.refl (d : FileSys C) : KeepDirs d d := fun _ h => h

theorem KeepDirs.trans (a b c : FileSys C) (h : KeepDirs a b) (h' : KeepDirs b c) : KeepDirs a c :=
  fun q hq => h' q (h q hq)

/-- Everything found before is still there, except possibly at the paths in `T`. -/
def KeepKeys (T : FPath → Prop) (d d' : FileSys C) : Prop :=
  ∀ q, ¬ T q → d.get? q ≠ none → d'.get? q ≠ none

theorem KeepKeys.refl (T : FPath → Prop) (d : FileSys C) : KeepKeys T d d := fun _ _ h => h

theorem KeepKeys.trans (T : FPath → Prop) (a b c : FileSys C) (h : KeepKeys T a b) (h' : KeepKeys T b c) :
    KeepKeys T a c := fun q hq hn => h' q hq (h q hq hn)

/-! ### Single operations -/

theorem get?_filter_ne (d : FileSys C) (p q : FPath) :
    Dict.get? (d.filter fun e => decide (e.1 ≠ p)) q = if q = p then none else d.get? q := by
  induction d with
  | nil => simp
  | cons e d ih =>
    obtain ⟨a, b⟩ := e
    rw [List.filter_cons]
    by_cases ha : a = p
    · subst ha
      simp only [ne_eq, not_true_eq_false, decide_false, Bool.false_eq_true, if_false, ih, Dict.get?_cons]
      by_cases hq : q = a
      · simp [hq]
      · rw [if_neg hq, if_neg hq, if_neg (fun h => hq h.symm)]
    · simp only [ne_eq, ha, not_false_eq_true, decide_true, if_true, Dict.get?_cons, ih]
      by_cases hq : a = q
      · subst hq
        simp [ha]
      · simp [hq]

theorem isDir_iff (d : FileSys C) (p : FPath) : d.isDir p = true ↔ p = [] ∨ d.get? p = some .dir := by
  unfold FileSys.isDir
  rcases h : d.get? p with _ | n
  · simp
  · rcases n with _ | c
    · simp
    · simp

theorem mkdir1_ok_iff (p : FPath) (d : FileSys C) :
    (mkdir1 p d).1 = .ok () ↔ ∀ c, d.get? p ≠ some (.file c) := by
  unfold mkdir1
  rcases h : d.get? p with _ | n
  · simp
  · rcases n with _ | c
    · simp
    · simp

theorem mkdir1_get (p q : FPath) (d : FileSys C) (h : ∀ c, d.get? p ≠ some (.file c)) :
    (mkdir1 p d).2.get? q = if q = p then some .dir else d.get? q := by
  unfold mkdir1
  rcases hp : d.get? p with _ | n
  · simp only [Dict.get?_set]
    by_cases hq : q = p
    · simp [hq]
    · rw [if_neg hq, if_neg (fun h => hq h.symm)]
  · rcases n with _ | c
    · by_cases hq : q = p
      · simp [hq, hp]
      · rw [if_neg hq]
    · exact absurd hp (h c)

theorem mkdir1_error (p : FPath) (d : FileSys C) (e : PyErr) (h : (mkdir1 p d).1 = .error e) : (mkdir1 p d).2 = d := by
  unfold mkdir1 at h ⊢
  rcases hp : d.get? p with _ | n
  · rw [hp] at h; simp at h
  · rcases n with _ | c <;> rfl

theorem mkdirs_ok_iff (L : List FPath) (d : FileSys C) :
    (L.forM mkdir1 d).1 = .ok () ↔ ∀ q ∈ L, ∀ c, d.get? q ≠ some (.file c) := by
  induction L generalizing d with
  | nil => simp [FsM.forM_nil, FsM.pure_apply]
  | cons p L ih =>
    rw [FsM.forM_cons]
    rcases hr : mkdir1 p d with ⟨r, d1⟩
    rcases r with e | u
    · rw [FsM.bind_of_error hr]
      have : ¬ (mkdir1 p d).1 = .ok () := by rw [hr]; simp
      rw [mkdir1_ok_iff] at this
      constructor
      · intro h; cases h
      · intro h; exact absurd (h p List.mem_cons_self) this
    · rw [FsM.bind_of_ok hr, ih]
      have hp : ∀ c, d.get? p ≠ some (.file c) := (mkdir1_ok_iff p d).1 (by rw [hr])
      have hg := fun q => mkdir1_get p q d hp
      rw [hr] at hg
      constructor
      · intro h q hq c hc
        rcases List.mem_cons.1 hq with rfl | hq
        · exact hp c hc
        · refine h q hq c ?_
          rw [hg, if_neg, hc]
          rintro rfl
          exact hp c hc
      · intro h q hq c hc
        rw [hg] at hc
        split at hc
        · cases hc
        · exact h q (List.mem_cons_of_mem _ hq) c hc

theorem mkdirs_get (L : List FPath) (d : FileSys C) (h : ∀ q ∈ L, ∀ c, d.get? q ≠ some (.file c)) (q : FPath) :
    (L.forM mkdir1 d).2.get? q = if q ∈ L then some .dir else d.get? q := by
  induction L generalizing d with
  | nil => simp [FsM.forM_nil, FsM.pure_apply]
  | cons p L ih =>
    have hp := h p List.mem_cons_self
    rw [FsM.forM_cons]
    have h1 : mkdir1 p d = (.ok (), (mkdir1 p d).2) := by
      rw [← (mkdir1_ok_iff p d).2 hp]
    have hg := fun q => mkdir1_get p q d hp
    rw [FsM.bind_of_ok h1, ih, hg]
    · by_cases hq : q = p
      · simp [hq]
      · simp [hq]
    · intro q hq c hc
      rw [hg] at hc
      split at hc
      · cases hc
      · exact h q (List.mem_cons_of_mem _ hq) c hc

theorem mem_inits_tail (p q : FPath) : q ∈ p.inits.tail ↔ q ≠ [] ∧ q <+: p := by
  cases p with
  | nil => simp
  | cons a p =>
    rw [List.inits_cons, List.tail_cons]
    constructor
    · intro h
      obtain ⟨t, ht, rfl⟩ := List.mem_map.1 h
      rw [List.mem_inits] at ht
      exact ⟨by simp, by simpa using ht⟩
    · rintro ⟨hq, h⟩
      cases q with
      | nil => exact absurd rfl hq
      | cons b t =>
        rw [List.cons_prefix_cons] at h
        obtain ⟨rfl, ht⟩ := h
        exact List.mem_map.2 ⟨t, List.mem_inits _ _ |>.2 ht, rfl⟩

/-- `mkdirP` completes when no initial part of the path is a file, -/
theorem mkdirP_ok_iff (p : FPath) (d : FileSys C) :
    (mkdirP p d).1 = .ok () ↔ ∀ q, q ≠ [] → q <+: p → ∀ c, d.get? q ≠ some (.file c) := by
  unfold mkdirP
  rw [mkdirs_ok_iff]
  constructor
  · intro h q h1 h2; exact h q ((mem_inits_tail p q).2 ⟨h1, h2⟩)
  · intro h q hq
    obtain ⟨h1, h2⟩ := (mem_inits_tail p q).1 hq
    exact h q h1 h2

/-- and then the initial parts are directories and nothing else changes. -/
theorem mkdirP_get (p : FPath) (d d' : FileSys C) (h : mkdirP p d = (.ok (), d')) (q : FPath) :
    d'.get? q = if q ≠ [] ∧ q <+: p then some .dir else d.get? q := by
  have h0 := (mkdirs_ok_iff p.inits.tail d).1 (by unfold mkdirP at h; rw [h])
  have := mkdirs_get p.inits.tail d h0 q
  unfold mkdirP at h
  rw [h] at this
  rw [this]
  exact if_congr (mem_inits_tail p q) rfl rfl

theorem mkdirP_run (p : FPath) (d : FileSys C) (h : ∀ q, q ≠ [] → q <+: p → ∀ c, d.get? q ≠ some (.file c)) :
    ∃ d', mkdirP p d = (.ok (), d') ∧ ∀ q, d'.get? q = if q ≠ [] ∧ q <+: p then some .dir else d.get? q := by
  refine ⟨(mkdirP p d).2, ?_, ?_⟩
  · rw [← (mkdirP_ok_iff p d).2 h]
  · exact mkdirP_get p d _ (by rw [← (mkdirP_ok_iff p d).2 h])

theorem mkdir1_keepNodes (p : FPath) (d : FileSys C) (q : FPath) (n : FNode C) (h : d.get? q = some n) :
    (mkdir1 p d).2.get? q = some n := by
  unfold mkdir1
  rcases hp : d.get? p with _ | m
  · simp only [Dict.get?_set]
    rw [if_neg, h]
    rintro rfl
    rw [h] at hp
    cases hp
  · rcases m with _ | c <;> exact h

/-- directories are made without touching anything that exists -/
theorem mkdirP_keepNodes (p : FPath) : FsM.Rel (fun d d' : FileSys C => ∀ q n, d.get? q = some n → d'.get? q = some n)
    (mkdirP p) := by
  unfold mkdirP
  refine FsM.Rel.forM (fun _ _ _ h => h) (fun a b c h h' q n hq => h' q n (h q n hq)) _ ?_
  intro a _ d q n h
  exact mkdir1_keepNodes a d q n h

theorem mkdirP_frame (p : FPath) : FsM.Rel (FrameOf (C := C) fun q => q ≠ [] ∧ q <+: p) (mkdirP p) := by
  unfold mkdirP
  refine FsM.Rel.forM (FrameOf.refl _) (FrameOf.trans _) _ ?_
  intro a ha d q hq
  have hqa : q ≠ a := by
    rintro rfl
    exact hq ((mem_inits_tail p q).1 ha)
  unfold mkdir1
  rcases d.get? a with _ | m
  · simp only [Dict.get?_set]
    rw [if_neg (fun h => hqa h.symm)]
  · rcases m with _ | c <;> rfl

theorem mkdirP_keepDirs (p : FPath) : FsM.Rel (KeepDirs (C := C)) (mkdirP p) :=
  fun d q h => mkdirP_keepNodes p d q _ h

theorem mkdirP_keepKeys (T : FPath → Prop) (p : FPath) : FsM.Rel (KeepKeys (C := C) T) (mkdirP p) := by
  intro d q _ h
  obtain ⟨n, hn⟩ := Option.ne_none_iff_exists'.1 h
  rw [mkdirP_keepNodes p d q n hn]
  simp

theorem writeFile_ok (p : FPath) (c : C) (d d' : FileSys C) (h : writeFile p c d = (.ok (), d')) :
    d' = d.set p (.file c) ∧ d.isDir p = false ∧ d.isDir p.dropLast = true := by
  unfold writeFile at h
  by_cases h1 : d.isDir p = true
  · rw [if_pos h1] at h; cases h
  · rw [if_neg h1] at h
    by_cases h2 : d.isDir p.dropLast = true
    · rw [if_pos h2] at h
      exact ⟨(congrArg Prod.snd h).symm, by simpa using h1, h2⟩
    · rw [if_neg h2] at h; cases h

theorem writeFile_run (p : FPath) (c : C) (d : FileSys C) (h1 : p ≠ []) (h2 : d.get? p ≠ some .dir)
    (h3 : p.dropLast = [] ∨ d.get? p.dropLast = some .dir) : writeFile p c d = (.ok (), d.set p (.file c)) := by
  unfold writeFile
  rw [if_neg, if_pos ((isDir_iff _ _).2 h3)]
  rw [isDir_iff]
  rintro (h | h)
  · exact h1 h
  · exact h2 h

theorem writeFile_rel {R : FileSys C → FileSys C → Prop} (p : FPath) (c : C) (hr : ∀ a, R a a)
    (h : ∀ d, d.get? p ≠ some .dir → R d (d.set p (.file c))) : FsM.Rel R (writeFile p c) := by
  intro d
  unfold writeFile
  by_cases h1 : d.isDir p = true
  · rw [if_pos h1]; exact hr d
  · rw [if_neg h1]
    by_cases h2 : d.isDir p.dropLast = true
    · rw [if_pos h2]
      refine h d fun hd => h1 ((isDir_iff _ _).2 (.inr hd))
    · rw [if_neg h2]; exact hr d

theorem writeFile_frame (p : FPath) (c : C) : FsM.Rel (FrameOf (C := C) fun q => q = p) (writeFile p c) :=
  writeFile_rel p c (FrameOf.refl _) fun d _ q hq => by rw [Dict.get?_set, if_neg (fun h => hq h.symm)]

theorem writeFile_keepDirs (p : FPath) (c : C) : FsM.Rel (KeepDirs (C := C)) (writeFile p c) :=
  writeFile_rel p c KeepDirs.refl fun d hd q hq => by
    rw [Dict.get?_set, if_neg, hq]
    rintro rfl
    exact hd hq

theorem writeFile_keepKeys (T : FPath → Prop) (p : FPath) (c : C) : FsM.Rel (KeepKeys (C := C) T) (writeFile p c) :=
  writeFile_rel p c (KeepKeys.refl T) fun d _ q _ h => by
    rw [Dict.get?_set]
    split
    · simp
    · exact h

theorem readFile_state (p : FPath) (d : FileSys C) : (readFile p d).2 = d := by
  unfold readFile
  rcases d.get? p with _ | n
  · rfl
  · rcases n with _ | c <;> rfl

theorem readFile_ok (p : FPath) (c : C) (d d' : FileSys C) (h : readFile p d = (.ok c, d')) :
    d' = d ∧ d.get? p = some (.file c) := by
  unfold readFile at h
  rcases hp : d.get? p with _ | n
  · rw [hp] at h; cases h
  · rw [hp] at h
    rcases n with _ | c'
    · cases h
    · cases h; exact ⟨rfl, rfl⟩

theorem readFile_run (p : FPath) (c : C) (d : FileSys C) (h : d.get? p = some (.file c)) :
    readFile p d = (.ok c, d) := by
  unfold readFile
  rw [h]

theorem readFile_rel {R : FileSys C → FileSys C → Prop} (hr : ∀ a, R a a) (p : FPath) : FsM.Rel R (readFile p) := by
  intro d
  rw [readFile_state]
  exact hr d

theorem unlinkOk_ok (p : FPath) (d d' : FileSys C) (h : unlinkOk p d = (.ok (), d')) :
    ∀ q, d'.get? q = if q = p then none else d.get? q := by
  intro q
  unfold unlinkOk at h
  rcases hp : d.get? p with _ | n
  · rw [hp] at h
    cases h
    exact get?_filter_ne d p q
  · rw [hp] at h
    rcases n with _ | c
    · cases h
    · cases h; exact get?_filter_ne d p q

theorem unlinkOk_run (p : FPath) (d : FileSys C) (h : d.get? p ≠ some .dir) :
    ∃ d', unlinkOk p d = (.ok (), d') ∧ ∀ q, d'.get? q = if q = p then none else d.get? q := by
  unfold unlinkOk
  rcases hp : d.get? p with _ | n
  · exact ⟨_, rfl, get?_filter_ne d p⟩
  · rcases n with _ | c
    · exact absurd hp h
    · exact ⟨_, rfl, get?_filter_ne d p⟩

theorem unlinkOk_rel {R : FileSys C → FileSys C → Prop} (p : FPath) (hr : ∀ a, R a a)
    (h : ∀ d d' : FileSys C, d.get? p ≠ some .dir → (∀ q, d'.get? q = if q = p then none else d.get? q) → R d d') :
    FsM.Rel R (unlinkOk p) := by
  intro d
  by_cases hd : d.get? p = some .dir
  · unfold unlinkOk
    rw [hd]
    exact hr d
  · obtain ⟨d', h1, h2⟩ := unlinkOk_run p d hd
    rw [h1]
    exact h d d' hd h2

theorem unlinkOk_frame (p : FPath) : FsM.Rel (FrameOf (C := C) fun q => q = p) (unlinkOk p) :=
  unlinkOk_rel p (FrameOf.refl _) fun d d' _ h q hq => by rw [h, if_neg hq]

theorem unlinkOk_keepDirs (p : FPath) : FsM.Rel (KeepDirs (C := C)) (unlinkOk p) :=
  unlinkOk_rel p KeepDirs.refl fun d d' hd h q hq => by
    rw [h, if_neg, hq]
    rintro rfl
    exact hd hq

theorem unlinkOk_keepKeys (p : FPath) : FsM.Rel (KeepKeys (C := C) fun q => q = p) (unlinkOk p) :=
  unlinkOk_rel p (KeepKeys.refl _) fun d d' _ h q hq hn => by rwa [h, if_neg hq]

/-! ### Renaming -/

theorem hasBelow_iff (d : FileSys C) (p : FPath) :
    d.hasBelow p = true ↔ ∃ q, p <+: q ∧ q ≠ p ∧ d.get? q ≠ none := by
  unfold FileSys.hasBelow
  rw [List.any_eq_true]
  constructor
  · rintro ⟨⟨q, n⟩, hm, h⟩
    simp only [Bool.and_eq_true, List.isPrefixOf_iff_prefix, decide_eq_true_eq] at h
    refine ⟨q, h.1, h.2, ?_⟩
    intro hn
    rw [Dict.get?_eq_none_iff] at hn
    exact hn (List.mem_map.2 ⟨(q, n), hm, rfl⟩)
  · rintro ⟨q, h1, h2, h3⟩
    have : q ∈ Dict.keys d := by
      by_contra hn
      exact h3 ((Dict.get?_eq_none_iff d q).2 hn)
    obtain ⟨e, he, rfl⟩ := List.mem_map.1 this
    refine ⟨e, he, ?_⟩
    simp only [Bool.and_eq_true, List.isPrefixOf_iff_prefix, decide_eq_true_eq]
    exact ⟨h1, h2⟩

theorem get?_map_key (d : FileSys C) (f : FPath → FPath) (q : FPath) (a : FPath)
    (h : ∀ b ∈ Dict.keys d, f b = q → b = a) (ha : f a = q) :
    Dict.get? (d.map fun e => (f e.1, e.2)) q = d.get? a := by
  induction d with
  | nil => rfl
  | cons e d ih =>
    obtain ⟨b, n⟩ := e
    rw [List.map_cons, Dict.get?_cons, Dict.get?_cons]
    rw [ih (fun b hb => h b (List.mem_cons_of_mem _ hb))]
    by_cases hb : b = a
    · subst hb
      simp [ha]
    · rw [if_neg hb, if_neg]
      intro hf
      exact hb (h b List.mem_cons_self hf)

theorem get?_map_key_none (d : FileSys C) (f : FPath → FPath) (q : FPath)
    (h : ∀ b ∈ Dict.keys d, f b ≠ q) : Dict.get? (d.map fun e => (f e.1, e.2)) q = none := by
  induction d with
  | nil => rfl
  | cons e d ih =>
    obtain ⟨b, n⟩ := e
    rw [List.map_cons, Dict.get?_cons, ih (fun b hb => h b (List.mem_cons_of_mem _ hb)),
      if_neg (h b List.mem_cons_self)]

theorem moved_get (src dst : FPath) (d : FileSys C) (h1 : ¬ src <+: dst) (h2 : ¬ dst <+: src)
    (hb : d.hasBelow dst = false) (q : FPath) :
    let d' : FileSys C := (d.filter fun e => decide (e.1 ≠ dst)).map fun e => (movedTo src dst e.1, e.2)
    (∀ r, d'.get? (dst ++ r) = d.get? (src ++ r)) ∧ (∀ r, d'.get? (src ++ r) = none) ∧
      (¬ src <+: q → ¬ dst <+: q → d'.get? q = d.get? q) := by
  intro d'
  have hk : ∀ b ∈ Dict.keys (d.filter fun e => decide (e.1 ≠ dst)), ¬ dst <+: b := by
    intro b hb' hp
    obtain ⟨e, he, rfl⟩ := List.mem_map.1 hb'
    rw [List.mem_filter, decide_eq_true_eq] at he
    have : d.hasBelow dst = true := by
      rw [hasBelow_iff]
      refine ⟨e.1, hp, he.2, fun hn => ?_⟩
      rw [Dict.get?_eq_none_iff] at hn
      exact hn (List.mem_map.2 ⟨e, he.1, rfl⟩)
    rw [hb] at this
    cases this
  have hsrc : ∀ r : FPath, movedTo src dst (src ++ r) = dst ++ r := by
    intro r
    unfold movedTo
    rw [if_pos (by rw [List.isPrefixOf_iff_prefix]; exact List.prefix_append _ _), List.drop_left]
  have hoth : ∀ b : FPath, ¬ src <+: b → movedTo src dst b = b := by
    intro b hb'
    unfold movedTo
    rw [if_neg (by rw [List.isPrefixOf_iff_prefix]; exact hb')]
  refine ⟨fun r => ?_, fun r => ?_, fun hs hd => ?_⟩
  · have := get?_map_key (d.filter fun e => decide (e.1 ≠ dst)) (movedTo src dst) (dst ++ r) (src ++ r) ?_ (hsrc r)
    · rw [this, get?_filter_ne, if_neg]
      intro he
      exact h1 (he ▸ List.prefix_append _ _)
    · intro b hbk hbe
      by_cases hp : src <+: b
      · obtain ⟨t, rfl⟩ := hp
        rw [hsrc] at hbe
        rw [List.append_cancel_left hbe]
      · rw [hoth b hp] at hbe
        exact absurd (hbe ▸ List.prefix_append _ _) (hk b hbk)
  · refine get?_map_key_none _ _ _ ?_
    intro b hbk hbe
    by_cases hp : src <+: b
    · obtain ⟨t, rfl⟩ := hp
      rw [hsrc] at hbe
      rcases List.prefix_or_prefix_of_prefix (List.prefix_append dst t) (hbe ▸ List.prefix_append src r) with h | h
      · exact h2 h
      · exact h1 h
    · rw [hoth b hp] at hbe
      exact hp (hbe ▸ List.prefix_append _ _)
  · have := get?_map_key (d.filter fun e => decide (e.1 ≠ dst)) (movedTo src dst) q q ?_ (hoth q hs)
    · rw [this, get?_filter_ne, if_neg]
      rintro rfl
      exact hd List.prefix_rfl
    · intro b hbk hbe
      by_cases hp : src <+: b
      · obtain ⟨t, rfl⟩ := hp
        rw [hsrc] at hbe
        exact absurd (hbe ▸ List.prefix_append _ _) hd
      · rw [hoth b hp] at hbe
        exact hbe

/-- The files after a completed renaming. -/
theorem renameDir_get (src dst : FPath) (d d' : FileSys C) (h1 : ¬ src <+: dst) (h2 : ¬ dst <+: src)
    (h : renameDir src dst d = (.ok (), d')) :
    (∀ r, d'.get? (dst ++ r) = d.get? (src ++ r)) ∧ (∀ r, d'.get? (src ++ r) = none) ∧
      (∀ q, ¬ src <+: q → ¬ dst <+: q → d'.get? q = d.get? q) ∧ d.get? src = some .dir ∧ d.hasBelow dst = false ∧
      (∀ c, d.get? dst ≠ some (.file c)) := by
  have key : d.get? src = some .dir ∧ d.hasBelow dst = false ∧ (∀ c, d.get? dst ≠ some (.file c)) ∧
      d' = (d.filter fun e => decide (e.1 ≠ dst)).map fun e => (movedTo src dst e.1, e.2) := by
    unfold renameDir at h
    rcases hs : d.get? src with _ | n
    · rw [hs] at h; cases h
    rcases n with _ | c
    · rw [hs] at h
      dsimp only at h
      rcases hd : d.get? dst with _ | m
      · rw [hd] at h
        dsimp only at h
        by_cases hb : d.hasBelow dst = true
        · rw [if_pos hb] at h; cases h
        · rw [if_neg hb] at h
          exact ⟨rfl, by simpa using hb, by simp, (congrArg Prod.snd h).symm⟩
      · rw [hd] at h
        rcases m with _ | c
        · dsimp only at h
          by_cases hb : d.hasBelow dst = true
          · rw [if_pos hb] at h; cases h
          · rw [if_neg hb] at h
            exact ⟨rfl, by simpa using hb, by simp, (congrArg Prod.snd h).symm⟩
        · cases h
    · rw [hs] at h; cases h
  obtain ⟨hs, hb, hf, rfl⟩ := key
  refine ⟨(moved_get src dst d h1 h2 hb []).1, (moved_get src dst d h1 h2 hb []).2.1, fun q => ?_, hs, hb, hf⟩
  exact (moved_get src dst d h1 h2 hb q).2.2

theorem renameDir_run (src dst : FPath) (d : FileSys C) (hs : d.get? src = some .dir) (hb : d.hasBelow dst = false)
    (hf : ∀ c, d.get? dst ≠ some (.file c)) : ∃ d', renameDir src dst d = (.ok (), d') := by
  unfold renameDir
  rw [hs]
  dsimp only
  rcases hd : d.get? dst with _ | m
  · dsimp only
    rw [if_neg (by simp [hb])]
    exact ⟨_, rfl⟩
  · rcases m with _ | c
    · dsimp only
      rw [if_neg (by simp [hb])]
      exact ⟨_, rfl⟩
    · exact absurd hd (hf c)

/-- A renaming that fails changes nothing. -/
theorem renameDir_error (src dst : FPath) (d d' : FileSys C) (e : PyErr)
    (h : renameDir src dst d = (.error e, d')) : d' = d := by
  unfold renameDir at h
  rcases hs : d.get? src with _ | n
  · rw [hs] at h; cases h; rfl
  rcases n with _ | c
  · rw [hs] at h
    dsimp only at h
    rcases hd : d.get? dst with _ | m
    · rw [hd] at h
      dsimp only at h
      split at h
      · cases h; rfl
      · cases h
    · rw [hd] at h
      rcases m with _ | c
      · dsimp only at h
        split at h
        · cases h; rfl
        · cases h
      · cases h; rfl
  · rw [hs] at h; cases h; rfl

/-! ### Archives -/

theorem extractMember_keepDirs (root : FPath) (m : FPath × Option C) :
    FsM.Rel (KeepDirs (C := C)) (extractMember root m) := by
  unfold extractMember
  rcases m.2 with _ | c
  · exact mkdirP_keepDirs _
  · exact FsM.Rel.bind KeepDirs.trans (mkdirP_keepDirs _) fun _ => writeFile_keepDirs _ _

theorem extractMember_keepKeys (T : FPath → Prop) (root : FPath) (m : FPath × Option C) :
    FsM.Rel (KeepKeys (C := C) T) (extractMember root m) := by
  unfold extractMember
  rcases m.2 with _ | c
  · exact mkdirP_keepKeys _ _
  · exact FsM.Rel.bind (KeepKeys.trans T) (mkdirP_keepKeys _ _) fun _ => writeFile_keepKeys _ _ _

/-- a member changes only initial parts of its path -/
theorem extractMember_frame (root : FPath) (m : FPath × Option C) (hm : root ++ m.1 ≠ []) :
    FsM.Rel (FrameOf (C := C) fun q => q ≠ [] ∧ q <+: root ++ m.1) (extractMember root m) := by
  unfold extractMember
  rcases m.2 with _ | c
  · exact mkdirP_frame _
  · refine FsM.Rel.bind (FrameOf.trans _) (fun d => (mkdirP_frame _ d).mono ?_) fun _ d =>
      (writeFile_frame _ _ d).mono ?_
    · rintro q ⟨h1, h2⟩
      exact ⟨h1, h2.trans (List.dropLast_prefix _)⟩
    · rintro q rfl
      exact ⟨hm, List.prefix_rfl⟩

/-- a member never touches another file -/
theorem extractMember_keepFile (root : FPath) (m : FPath × Option C) (p : FPath) (c : C) (h : root ++ m.1 ≠ p) :
    FsM.Rel (fun d d' : FileSys C => d.get? p = some (.file c) → d'.get? p = some (.file c)) (extractMember root m) := by
  unfold extractMember
  rcases m.2 with _ | c'
  · exact fun d hd => mkdirP_keepNodes _ d p _ hd
  · refine FsM.Rel.bind (fun _ _ _ h h' hd => h' (h hd)) (fun d hd => mkdirP_keepNodes _ d p _ hd) fun _ d hd => ?_
    rw [writeFile_frame _ _ d p (fun h' => h h'.symm), hd]

end DynCF
