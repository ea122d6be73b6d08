/- Properties C137 to C139: loading the data sets (`/repo/load_data.py`). -/
import Verif.Lemmas.LoadFiles
import Verif.Lemmas.Mapping

namespace DynCF
variable {C : Type}

/-! ### The single loaders -/

/-- the paths at and below `p` -/
def Under (p q : FPath) : Prop := p <+: q

theorem retrieve_frame (E : LoadEnv C) (url : String) (p : FPath) :
    FsM.Rel (FrameOf (C := C) fun q => q = p) (retrieve E url p) :=
  FsM.Rel.bind (FrameOf.trans _) (FsM.Rel.lift (FrameOf.refl _) _) fun _ => writeFile_frame _ _

theorem retrieve_keepDirs (E : LoadEnv C) (url : String) (p : FPath) :
    FsM.Rel (KeepDirs (C := C)) (retrieve E url p) :=
  FsM.Rel.bind KeepDirs.trans (FsM.Rel.lift KeepDirs.refl _) fun _ => writeFile_keepDirs _ _

theorem retrieve_keepKeys (T : FPath → Prop) (E : LoadEnv C) (url : String) (p : FPath) :
    FsM.Rel (KeepKeys (C := C) T) (retrieve E url p) :=
  FsM.Rel.bind (KeepKeys.trans T) (FsM.Rel.lift (KeepKeys.refl T) _) fun _ => writeFile_keepKeys _ _ _

/-- `load_amazon` changes only the directory of the data set and its temporary file. -/
theorem loadAmazon_frame (E : LoadEnv C) (s : String) :
    FsM.Rel (FrameOf (C := C) fun q => q = ["data"] ∨ Under ["data", s] q ∨ q = ["data", "temp_" ++ s])
      (loadAmazon E s) := by
  unfold loadAmazon
  refine FsM.Rel.bind (FrameOf.trans _) (FsM.Rel.lift (FrameOf.refl _) _) fun _ => ?_
  refine FsM.Rel.bind (FrameOf.trans _) (fun d => (mkdirP_frame _ d).mono ?_) fun _ => ?_
  · rintro q ⟨h1, h2⟩
    cases q with
    | nil => exact absurd rfl h1
    | cons a q =>
      rw [List.cons_prefix_cons] at h2
      obtain ⟨rfl, h2⟩ := h2
      cases q with
      | nil => exact .inl rfl
      | cons b q =>
        rw [List.cons_prefix_cons] at h2
        obtain ⟨rfl, h2⟩ := h2
        rw [List.prefix_nil.1 h2]
        exact .inr (.inl List.prefix_rfl)
  refine FsM.Rel.bind (FrameOf.trans _) (fun d => (retrieve_frame _ _ _ d).mono fun q h => .inr (.inr h)) fun _ => ?_
  refine FsM.Rel.bind (FrameOf.trans _) (readFile_rel (FrameOf.refl _) _) fun _ => ?_
  refine FsM.Rel.bind (FrameOf.trans _) (FsM.Rel.lift (FrameOf.refl _) _) fun _ => ?_
  refine FsM.Rel.bind (FrameOf.trans _) (FsM.Rel.lift (FrameOf.refl _) _) fun _ => ?_
  refine FsM.Rel.bind (FrameOf.trans _) (fun d => (writeFile_frame _ _ d).mono ?_) fun _ d =>
    (unlinkOk_frame _ d).mono fun q h => .inr (.inr h)
  rintro q rfl
  exact .inr (.inl ⟨[s ++ ".gz"], rfl⟩)

theorem loadAmazon_keepDirs (E : LoadEnv C) (s : String) : FsM.Rel (KeepDirs (C := C)) (loadAmazon E s) := by
  unfold loadAmazon
  refine FsM.Rel.bind KeepDirs.trans (FsM.Rel.lift KeepDirs.refl _) fun _ => ?_
  refine FsM.Rel.bind KeepDirs.trans (mkdirP_keepDirs _) fun _ => ?_
  refine FsM.Rel.bind KeepDirs.trans (retrieve_keepDirs _ _ _) fun _ => ?_
  refine FsM.Rel.bind KeepDirs.trans (readFile_rel KeepDirs.refl _) fun _ => ?_
  refine FsM.Rel.bind KeepDirs.trans (FsM.Rel.lift KeepDirs.refl _) fun _ => ?_
  refine FsM.Rel.bind KeepDirs.trans (FsM.Rel.lift KeepDirs.refl _) fun _ => ?_
  exact FsM.Rel.bind KeepDirs.trans (writeFile_keepDirs _ _) fun _ => unlinkOk_keepDirs _

theorem retrieve_ok (E : LoadEnv C) (url : String) (p : FPath) (d d' : FileSys C)
    (h : retrieve E url p d = (.ok (), d')) : ∃ c, E.fetch url = .ok c ∧ d' = d.set p (.file c) := by
  unfold retrieve at h
  obtain ⟨c, d1, h1, h2⟩ := FsM.bind_ok_iff.1 h
  obtain ⟨hc, rfl⟩ := FsM.lift_ok_iff.1 h1
  exact ⟨c, hc, (writeFile_ok _ _ _ _ h2).1⟩

theorem loadAmazon_ok (E : LoadEnv C) (s : String) (d d' : FileSys C) (h : loadAmazon E s d = (.ok (), d')) :
    ∃ name raw lines rows, (s, name) ∈ amzNames ∧
      E.fetch ("http://snap.stanford.edu/data/amazon/productGraph/categoryFiles/reviews_" ++ name ++ "_5.json.gz") =
        .ok raw ∧
      E.jsonLines raw = .ok lines ∧ amzRows amzFields lines = .ok rows ∧
      d'.get? ["data", s, s ++ ".gz"] = some (.file (E.toCsv amzFields rows)) ∧
      d'.get? ["data"] = some .dir ∧ d'.get? ["data", s] = some .dir ∧ d'.get? ["data", "temp_" ++ s] = none := by
  unfold loadAmazon at h
  obtain ⟨name, d0, h0, h0'⟩ := FsM.bind_ok_iff.1 h
  clear h
  obtain ⟨hname, rfl⟩ := FsM.lift_ok_iff.1 h0
  have h := h0'
  obtain ⟨_, d1, h1, h⟩ := FsM.bind_ok_iff.1 h
  obtain ⟨_, d2, h2, h⟩ := FsM.bind_ok_iff.1 h
  obtain ⟨raw, hraw, rfl⟩ := retrieve_ok _ _ _ _ _ h2
  obtain ⟨c, d3, h3, h⟩ := FsM.bind_ok_iff.1 h
  obtain ⟨rfl, hc⟩ := readFile_ok _ _ _ _ h3
  rw [Dict.get?_set_self] at hc
  cases hc
  obtain ⟨lines, d4, h4, h⟩ := FsM.bind_ok_iff.1 h
  obtain ⟨hl, rfl⟩ := FsM.lift_ok_iff.1 h4
  obtain ⟨rows, d5, h5, h⟩ := FsM.bind_ok_iff.1 h
  obtain ⟨hr, rfl⟩ := FsM.lift_ok_iff.1 h5
  obtain ⟨_, d6, h6, h⟩ := FsM.bind_ok_iff.1 h
  have hd : d1.get? ["data"] = some .dir ∧ d1.get? ["data", s] = some .dir := by
    constructor
    · rw [mkdirP_get _ _ _ h1, if_pos ⟨by simp, by simp⟩]
    · rw [mkdirP_get _ _ _ h1, if_pos ⟨by simp, by simp⟩]
  have hk : KeepDirs d1 d' := by
    have k1 := (retrieve_keepDirs E _ _).of_eq h2
    have k2 := writeFile_keepDirs ["data", s, s ++ ".gz"] (E.toCsv amzFields rows) (d1.set ["data", "temp_" ++ s] (.file raw))
    rw [h6] at k2
    have k3 := unlinkOk_keepDirs ["data", "temp_" ++ s] d6
    rw [h] at k3
    exact KeepDirs.trans _ _ _ (KeepDirs.trans _ _ _ k1 k2) k3
  obtain ⟨rfl, _, _⟩ := writeFile_ok _ _ _ _ h6
  have hu := unlinkOk_ok _ _ _ h
  refine ⟨name, raw, lines, rows, ?_, hraw, hl, hr, ?_, hk _ hd.1, hk _ hd.2, ?_⟩
  · unfold Dict.getItem at hname
    split at hname
    · rename_i v hv
      cases hname
      unfold amzNames at hv ⊢
      simp only [Dict.get?] at hv
      split at hv
      · rename_i he; cases hv; simp [← he]
      · split at hv
        · rename_i he; cases hv; simp [← he]
        · cases hv
    · cases hname
  · rw [hu, if_neg (by simp), Dict.get?_set_self]
  · rw [hu, if_pos rfl]

/-- `load_steam` changes only its directory and its temporary file. -/
theorem loadSteamFile_frame (E : LoadEnv C) :
    FsM.Rel (FrameOf (C := C) fun q => q = ["data"] ∨ Under ["data", "steam"] q ∨ q = ["data", "temp_steam"])
      (loadSteamFile E) := by
  unfold loadSteamFile
  refine FsM.Rel.bind (FrameOf.trans _) (fun d => (mkdirP_frame _ d).mono ?_) fun _ => ?_
  · rintro q ⟨h1, h2⟩
    cases q with
    | nil => exact absurd rfl h1
    | cons a q =>
      rw [List.cons_prefix_cons] at h2
      obtain ⟨rfl, h2⟩ := h2
      cases q with
      | nil => exact .inl rfl
      | cons b q =>
        rw [List.cons_prefix_cons] at h2
        obtain ⟨rfl, h2⟩ := h2
        rw [List.prefix_nil.1 h2]
        exact .inr (.inl List.prefix_rfl)
  refine FsM.Rel.bind (FrameOf.trans _) (fun d => (retrieve_frame _ _ _ d).mono fun q h => .inr (.inr h)) fun _ => ?_
  refine FsM.Rel.bind (FrameOf.trans _) (readFile_rel (FrameOf.refl _) _) fun _ => ?_
  refine FsM.Rel.bind (FrameOf.trans _) (FsM.Rel.lift (FrameOf.refl _) _) fun _ => ?_
  refine FsM.Rel.bind (FrameOf.trans _) (fun d => (writeFile_frame _ _ d).mono ?_) fun _ d =>
    (unlinkOk_frame _ d).mono fun q h => .inr (.inr h)
  rintro q rfl
  exact .inr (.inl ⟨["steam.csv"], rfl⟩)

theorem loadSteamFile_keepDirs (E : LoadEnv C) : FsM.Rel (KeepDirs (C := C)) (loadSteamFile E) := by
  unfold loadSteamFile
  refine FsM.Rel.bind KeepDirs.trans (mkdirP_keepDirs _) fun _ => ?_
  refine FsM.Rel.bind KeepDirs.trans (retrieve_keepDirs _ _ _) fun _ => ?_
  refine FsM.Rel.bind KeepDirs.trans (readFile_rel KeepDirs.refl _) fun _ => ?_
  refine FsM.Rel.bind KeepDirs.trans (FsM.Rel.lift KeepDirs.refl _) fun _ => ?_
  exact FsM.Rel.bind KeepDirs.trans (writeFile_keepDirs _ _) fun _ => unlinkOk_keepDirs _

theorem loadSteamFile_ok (E : LoadEnv C) (d d' : FileSys C) (h : loadSteamFile E d = (.ok (), d')) :
    ∃ raw out, E.fetch "http://cseweb.ucsd.edu/~wckang/steam_reviews.json.gz" = .ok raw ∧
      E.steamCsv raw = .ok out ∧ d'.get? ["data", "steam", "steam.csv"] = some (.file out) ∧
      d'.get? ["data", "steam"] = some .dir ∧ d'.get? ["data", "temp_steam"] = none := by
  unfold loadSteamFile at h
  obtain ⟨_, d1, h1, h⟩ := FsM.bind_ok_iff.1 h
  obtain ⟨_, d2, h2, h⟩ := FsM.bind_ok_iff.1 h
  obtain ⟨raw, hraw, rfl⟩ := retrieve_ok _ _ _ _ _ h2
  obtain ⟨c, d3, h3, h⟩ := FsM.bind_ok_iff.1 h
  obtain ⟨rfl, hc⟩ := readFile_ok _ _ _ _ h3
  rw [Dict.get?_set_self] at hc
  cases hc
  obtain ⟨out, d5, h5, h⟩ := FsM.bind_ok_iff.1 h
  obtain ⟨hr, rfl⟩ := FsM.lift_ok_iff.1 h5
  obtain ⟨_, d6, h6, h⟩ := FsM.bind_ok_iff.1 h
  have hd : d1.get? ["data", "steam"] = some .dir := by
    rw [mkdirP_get _ _ _ h1, if_pos ⟨by simp, by simp⟩]
  have hk : KeepDirs d1 d' := by
    have k1 := (retrieve_keepDirs E _ _).of_eq h2
    have k2 := writeFile_keepDirs ["data", "steam", "steam.csv"] out (d1.set ["data", "temp_steam"] (.file raw))
    rw [h6] at k2
    have k3 := unlinkOk_keepDirs ["data", "temp_steam"] d6
    rw [h] at k3
    exact KeepDirs.trans _ _ _ (KeepDirs.trans _ _ _ k1 k2) k3
  obtain ⟨rfl, _, _⟩ := writeFile_ok _ _ _ _ h6
  have hu := unlinkOk_ok _ _ _ h
  refine ⟨raw, out, hraw, hr, ?_, hk _ hd, ?_⟩
  · rw [hu, if_neg (by simp), Dict.get?_set_self]
  · rw [hu, if_pos rfl]

/-! ### The archive -/

theorem members_file (root : FPath) (ms : List (FPath × Option C)) (p : FPath) (c : C)
    (hnd : (ms.map Prod.fst).Nodup) (hm : (p, some c) ∈ ms) (d d' : FileSys C)
    (h : ms.forM (extractMember root) d = (.ok (), d')) : d'.get? (root ++ p) = some (.file c) := by
  induction ms generalizing d with
  | nil => cases hm
  | cons m ms ih =>
    rw [List.map_cons, List.nodup_cons] at hnd
    rw [FsM.forM_cons] at h
    obtain ⟨_, d1, h1, h2⟩ := FsM.bind_ok_iff.1 h
    rcases List.mem_cons.1 hm with rfl | hm
    · have hf : d1.get? (root ++ p) = some (.file c) := by
        unfold extractMember at h1
        obtain ⟨_, d2, _, h3⟩ := FsM.bind_ok_iff.1 h1
        rw [(writeFile_ok _ _ _ _ h3).1, Dict.get?_set_self]
      have := FsM.Rel.forM (R := fun d d' : FileSys C => d.get? (root ++ p) = some (.file c) →
        d'.get? (root ++ p) = some (.file c)) (fun _ h => h) (fun _ _ _ h h' hd => h' (h hd)) ms
        (f := extractMember root) (fun m hm => extractMember_keepFile root m (root ++ p) c (by
          intro he
          exact hnd.1 (List.mem_map.2 ⟨m, hm, List.append_cancel_left he⟩))) d1
      rw [h2] at this
      exact this hf
    · exact ih hnd.2 hm d1 h2

theorem prefix_data (q : FPath) (m : FPath) (h : q ≠ [] ∧ q <+: ["data"] ++ m) : Under ["data"] q := by
  obtain ⟨h1, h2⟩ := h
  cases q with
  | nil => exact absurd rfl h1
  | cons a q =>
    rw [List.singleton_append, List.cons_prefix_cons] at h2
    obtain ⟨rfl, _⟩ := h2
    exact ⟨q, rfl⟩

/-- `load_ml20m` changes only `data`. -/
theorem loadMl20m_frame (E : LoadEnv C) : FsM.Rel (FrameOf (C := C) (Under ["data"])) (loadMl20m E) := by
  unfold loadMl20m
  refine FsM.Rel.bind (FrameOf.trans _) (fun d => (mkdirP_frame _ d).mono fun q h => prefix_data q [] h) fun _ => ?_
  refine FsM.Rel.bind (FrameOf.trans _) (fun d => (retrieve_frame _ _ _ d).mono ?_) fun _ => ?_
  · rintro q rfl
    exact ⟨["temp.zip"], rfl⟩
  refine FsM.Rel.bind (FrameOf.trans _) (readFile_rel (FrameOf.refl _) _) fun _ => ?_
  refine FsM.Rel.bind (FrameOf.trans _) (FsM.Rel.lift (FrameOf.refl _) _) fun _ => ?_
  refine FsM.Rel.bind (FrameOf.trans _) (FsM.Rel.forM (FrameOf.refl _) (FrameOf.trans _) _ fun m _ d =>
    (extractMember_frame _ m (by simp) d).mono fun q h => prefix_data q m.1 h) fun _ => ?_
  refine FsM.Rel.bind (FrameOf.trans _) (fun d => (unlinkOk_frame _ d).mono ?_) fun _ d => ?_
  · rintro q rfl
    exact ⟨["temp.zip"], rfl⟩
  · rcases h : renameDir ["data", "ml-20m"] ["data", "ml_20m"] d with ⟨r, d'⟩
    rcases r with e | u
    · rw [renameDir_error _ _ _ _ _ h]
      exact FrameOf.refl _ _
    · obtain ⟨_, _, h3, _⟩ := renameDir_get _ _ _ _ (by decide) (by decide) h
      intro q hq
      refine h3 q (fun hp => hq ?_) (fun hp => hq ?_)
      · exact List.IsPrefix.trans ⟨["ml-20m"], rfl⟩ hp
      · exact List.IsPrefix.trans ⟨["ml_20m"], rfl⟩ hp

theorem loadMl20m_ok (E : LoadEnv C) (d d' : FileSys C) (h : loadMl20m E d = (.ok (), d')) :
    ∃ archive ms, E.fetch "https://files.grouplens.org/datasets/movielens/ml-20m.zip" = .ok archive ∧
      E.unzip archive = .ok ms ∧
      (∀ r c, (ms.map Prod.fst).Nodup → ("ml-20m" :: r, some c) ∈ ms →
        d'.get? ("data" :: "ml_20m" :: r) = some (.file c)) ∧
      d'.get? ["data"] = some .dir ∧ d'.get? ["data", "ml_20m"] = some .dir ∧ d'.get? ["data", "temp.zip"] = none := by
  unfold loadMl20m at h
  obtain ⟨_, d1, h1, h⟩ := FsM.bind_ok_iff.1 h
  obtain ⟨_, d2, h2, h⟩ := FsM.bind_ok_iff.1 h
  obtain ⟨raw, hraw, rfl⟩ := retrieve_ok _ _ _ _ _ h2
  obtain ⟨c, d3, h3, h⟩ := FsM.bind_ok_iff.1 h
  obtain ⟨rfl, hc⟩ := readFile_ok _ _ _ _ h3
  rw [Dict.get?_set_self] at hc
  cases hc
  obtain ⟨ms, d4, h4, h⟩ := FsM.bind_ok_iff.1 h
  obtain ⟨hms, rfl⟩ := FsM.lift_ok_iff.1 h4
  obtain ⟨_, d5, h5, h⟩ := FsM.bind_ok_iff.1 h
  obtain ⟨_, d6, h6, h⟩ := FsM.bind_ok_iff.1 h
  have hu := unlinkOk_ok _ _ _ h6
  obtain ⟨g1, g2, g3, g4, _⟩ := renameDir_get _ _ _ _ (by decide) (by decide) h
  refine ⟨raw, ms, hraw, hms, ?_, ?_, ?_, ?_⟩
  · intro r c hnd hm
    have := members_file ["data"] ms _ c hnd hm _ _ h5
    have h7 := g1 r
    change d'.get? ("data" :: "ml_20m" :: r) = d6.get? ("data" :: "ml-20m" :: r) at h7
    rw [h7, hu, if_neg (by simp)]
    exact this
  · rw [g3 _ (by decide) (by decide), hu, if_neg (by simp)]
    have hd : d1.get? ["data"] = some .dir := by rw [mkdirP_get _ _ _ h1, if_pos ⟨by simp, by simp⟩]
    have k1 := (retrieve_keepDirs E _ _).of_eq h2
    have k2 := FsM.Rel.forM KeepDirs.refl KeepDirs.trans ms (f := extractMember ["data"])
      (fun m _ => extractMember_keepDirs _ m) (d1.set ["data", "temp.zip"] (.file raw))
    rw [h5] at k2
    exact k2 _ (k1 _ hd)
  · have h7 := g1 []
    change d'.get? ["data", "ml_20m"] = d6.get? ["data", "ml-20m"] at h7
    rw [h7]
    exact g4
  · rw [g3 _ (by decide) (by decide), hu, if_pos rfl]

/-! ### The directories of the results -/

theorem prepareExtraDirs_keep : FsM.Rel (fun d d' : FileSys C => ∀ q n, d.get? q = some n → d'.get? q = some n)
    prepareExtraDirs := by
  have ht : ∀ a b c : FileSys C, (∀ q n, a.get? q = some n → b.get? q = some n) →
      (∀ q n, b.get? q = some n → c.get? q = some n) → ∀ q n, a.get? q = some n → c.get? q = some n :=
    fun a b c h h' q n hq => h' q n (h q n hq)
  unfold prepareExtraDirs
  refine FsM.Rel.bind ht ?_ fun _ => ?_
  · exact FsM.Rel.forM (fun _ _ _ h => h) ht _ fun _ _ =>
      FsM.Rel.forM (fun _ _ _ h => h) ht _ fun _ _ => mkdirP_keepNodes _
  · exact FsM.Rel.forM (fun _ _ _ h => h) ht _ fun _ _ => mkdirP_keepNodes _

theorem prepareExtraDirs_frame : FsM.Rel (FrameOf (C := C) fun q => Under ["results"] q ∨ Under ["configs"] q)
    prepareExtraDirs := by
  have hp : ∀ (a : String) (p q : FPath), q ≠ [] ∧ q <+: a :: p → Under [a] q := by
    rintro a p q ⟨h1, h2⟩
    cases q with
    | nil => exact absurd rfl h1
    | cons b q =>
      rw [List.cons_prefix_cons] at h2
      obtain ⟨rfl, _⟩ := h2
      exact ⟨q, rfl⟩
  unfold prepareExtraDirs
  refine FsM.Rel.bind (FrameOf.trans _) ?_ fun _ => ?_
  · exact FsM.Rel.forM (FrameOf.refl _) (FrameOf.trans _) _ fun s _ =>
      FsM.Rel.forM (FrameOf.refl _) (FrameOf.trans _) _ fun t _ d =>
        (mkdirP_frame _ d).mono fun q h => .inl (hp _ _ _ h)
  · exact FsM.Rel.forM (FrameOf.refl _) (FrameOf.trans _) _ fun s _ d =>
      (mkdirP_frame _ d).mono fun q h => .inr (hp _ _ _ h)

theorem forM_each {α : Type} (f : α → FsM C Unit)
    (hk : ∀ a, FsM.Rel (fun d d' : FileSys C => ∀ q n, d.get? q = some n → d'.get? q = some n) (f a))
    (P : α → FPath → Prop) (hf : ∀ a d d', f a d = (.ok (), d') → ∀ q, P a q → d'.get? q = some .dir) :
    ∀ (l : List α) (d d' : FileSys C), l.forM f d = (.ok (), d') → ∀ a ∈ l, ∀ q, P a q → d'.get? q = some .dir
  | [], _, _, _, a, ha, _, _ => by cases ha
  | b :: l, d, d', h, a, ha, q, hq => by
    rw [FsM.forM_cons] at h
    obtain ⟨_, d1, h1, h2⟩ := FsM.bind_ok_iff.1 h
    rcases List.mem_cons.1 ha with rfl | ha
    · have := FsM.Rel.forM (R := fun d d' : FileSys C => ∀ q n, d.get? q = some n → d'.get? q = some n)
        (fun _ _ _ h => h) (fun a b c h h' q n hq => h' q n (h q n hq)) l (fun a _ => hk a) d1
      rw [h2] at this
      exact this _ _ (hf _ _ _ h1 q hq)
    · exact forM_each f hk P hf l d1 d' h2 a ha q hq

theorem prepareExtraDirs_ok (d d' : FileSys C) (h : prepareExtraDirs d = (.ok (), d')) :
    ∀ s ∈ dataDirs, (∀ t ∈ targetDirs, d'.get? ["results", s, t] = some .dir) ∧
      d'.get? ["configs", s] = some .dir := by
  unfold prepareExtraDirs at h
  obtain ⟨_, d1, h1, h2⟩ := FsM.bind_ok_iff.1 h
  have hm : ∀ (p : FPath) (hp : p ≠ []) (d d' : FileSys C), mkdirP p d = (.ok (), d') → d'.get? p = some .dir := by
    intro p hp d d' h
    rw [mkdirP_get _ _ _ h, if_pos ⟨hp, List.prefix_rfl⟩]
  intro s hs
  constructor
  · intro t ht
    have hk := FsM.Rel.forM (R := fun d d' : FileSys C => ∀ q n, d.get? q = some n → d'.get? q = some n)
      (fun _ _ _ h => h) (fun a b c h h' q n hq => h' q n (h q n hq)) dataDirs
      (f := fun d => mkdirP ["configs", d]) (fun a _ => mkdirP_keepNodes _) d1
    rw [h2] at hk
    refine hk _ _ ?_
    refine forM_each (fun s => targetDirs.forM fun t => mkdirP ["results", s, t]) (fun s =>
      FsM.Rel.forM (fun _ _ _ h => h) (fun a b c h h' q n hq => h' q n (h q n hq)) _ fun _ _ => mkdirP_keepNodes _)
      (fun s q => ∃ t ∈ targetDirs, q = ["results", s, t]) ?_ dataDirs d d1 h1 s hs _ ⟨t, ht, rfl⟩
    rintro s d d' h q ⟨t, ht, rfl⟩
    exact forM_each (fun t => mkdirP ["results", s, t]) (fun _ => mkdirP_keepNodes _)
      (fun t q => q = ["results", s, t]) (by rintro t d d' h q rfl; exact hm _ (by simp) _ _ h) targetDirs d d' h t ht _ rfl
  · exact forM_each (fun s => mkdirP ["configs", s]) (fun _ => mkdirP_keepNodes _)
      (fun s q => q = ["configs", s]) (by rintro t d d' h q rfl; exact hm _ (by simp) _ _ h) dataDirs d1 d' h2 s hs _ rfl

/-! ### C137 what a completed run leaves -/

/-- **C137** A completed `load_data` leaves a working directory in which the other scripts find what they need: every
directory they write into, the files `prepare_data` reads with the downloaded contents, no temporary file, and nothing
changed outside `data`, `results` and `configs`. -/
theorem C137_after (E : LoadEnv C) (d d' : FileSys C) (h : loadData E d = (.ok (), d')) :
    (∀ s ∈ dataDirs, ∀ name fig, ∀ p ∈ scriptWrites s name fig, d'.get? p.dropLast = some .dir) ∧
    (∃ archive ms, E.fetch "https://files.grouplens.org/datasets/movielens/ml-20m.zip" = .ok archive ∧
      E.unzip archive = .ok ms ∧
      ∀ r c, (ms.map Prod.fst).Nodup → ("ml-20m" :: r, some c) ∈ ms →
        d'.get? ("data" :: "ml_20m" :: r) = some (.file c)) ∧
    (∀ s name, (s, name) ∈ [("amz_b", "Beauty"), ("amz_g", "Toys_and_Games")] → ∃ raw lines rows,
      E.fetch ("http://snap.stanford.edu/data/amazon/productGraph/categoryFiles/reviews_" ++ name ++ "_5.json.gz") =
        .ok raw ∧ E.jsonLines raw = .ok lines ∧ amzRows ["reviewerID", "asin", "unixReviewTime"] lines = .ok rows ∧
      d'.get? ["data", s, s ++ ".gz"] = some (.file (E.toCsv ["reviewerID", "asin", "unixReviewTime"] rows))) ∧
    (∃ raw out, E.fetch "http://cseweb.ucsd.edu/~wckang/steam_reviews.json.gz" = .ok raw ∧
      E.steamCsv raw = .ok out ∧ d'.get? ["data", "steam", "steam.csv"] = some (.file out)) ∧
    (∀ t ∈ ["temp.zip", "temp_amz_b", "temp_amz_g", "temp_steam"], d'.get? ["data", t] = none) ∧
    (∀ q : FPath, q.head? ∉ [some "data", some "results", some "configs"] → d'.get? q = d.get? q) := by
  unfold loadData at h
  obtain ⟨_, d1, h1, h⟩ := FsM.bind_ok_iff.1 h
  obtain ⟨_, d2, h2, h⟩ := FsM.bind_ok_iff.1 h
  obtain ⟨_, d3, h3, h⟩ := FsM.bind_ok_iff.1 h
  obtain ⟨_, d4, h4, h⟩ := FsM.bind_ok_iff.1 h
  obtain ⟨archive, ms, m1, m2, m3, m4, m5, m6⟩ := loadMl20m_ok E d d1 h1
  obtain ⟨nb, rb, lb, wb, b1, b2, b3, b4, b5, b6, b7, b8⟩ := loadAmazon_ok E _ _ _ h2
  obtain ⟨ng, rg, lg, wg, g1, g2, g3, g4, g5, g6, g7, g8⟩ := loadAmazon_ok E _ _ _ h3
  obtain ⟨rs, ws, s1, s2, s3, s4, s5⟩ := loadSteamFile_ok E _ _ h4
  have x := prepareExtraDirs_ok _ _ h
  have f1 := loadMl20m_frame E d
  rw [h1] at f1
  have f2 := loadAmazon_frame E "amz_b" d1
  rw [h2] at f2
  have f3 := loadAmazon_frame E "amz_g" d2
  rw [h3] at f3
  have f4 := loadSteamFile_frame E d3
  rw [h4] at f4
  have f5 := prepareExtraDirs_frame d4
  rw [h] at f5
  have k2 := loadAmazon_keepDirs E "amz_b" d1
  rw [h2] at k2
  have k3 := loadAmazon_keepDirs E "amz_g" d2
  rw [h3] at k3
  have k4 := loadSteamFile_keepDirs E d3
  rw [h4] at k4
  have k5 := prepareExtraDirs_keep d4
  rw [h] at k5
  have hdata : ∀ s ∈ dataDirs, d'.get? ["data", s] = some .dir := by
    intro s hs
    simp only [dataDirs, List.mem_cons, List.not_mem_nil, or_false] at hs
    rcases hs with rfl | rfl | rfl | rfl
    · exact k5 _ _ (k4 _ (k3 _ (k2 _ m5)))
    · exact k5 _ _ (k4 _ (k3 _ b7))
    · exact k5 _ _ (k4 _ g7)
    · exact k5 _ _ s4
  -- files below `data` survive the later steps
  have e5 : ∀ q, Under ["data"] q → d'.get? q = d4.get? q := by
    intro q hq
    obtain ⟨r, rfl⟩ := hq
    refine f5 _ ?_
    simp [Under]
  have e4 : ∀ r : FPath, ∀ s, s ≠ "steam" → s ≠ "temp_steam" → d4.get? ("data" :: s :: r) = d3.get? ("data" :: s :: r) := by
    intro r s h1 h2
    refine f4 _ ?_
    simp [Under, Ne.symm h1, h2]
  have e3 : ∀ r : FPath, ∀ s, s ≠ "amz_g" → s ≠ "temp_amz_g" → d3.get? ("data" :: s :: r) = d2.get? ("data" :: s :: r) := by
    intro r s h1 h2
    refine f3 _ ?_
    simp [Under, Ne.symm h1, h2]
  have e2 : ∀ r : FPath, ∀ s, s ≠ "amz_b" → s ≠ "temp_amz_b" → d2.get? ("data" :: s :: r) = d1.get? ("data" :: s :: r) := by
    intro r s h1 h2
    refine f2 _ ?_
    simp [Under, Ne.symm h1, h2]
  have hu : ∀ r : FPath, Under ["data"] ("data" :: r) := fun r => ⟨r, rfl⟩
  refine ⟨?_, ⟨archive, ms, m1, m2, ?_⟩, ?_, ⟨rs, ws, s1, s2, ?_⟩, ?_, ?_⟩
  · intro s hs name fig p hp
    obtain ⟨x1, _⟩ := x s hs
    simp only [scriptWrites, List.mem_cons, List.not_mem_nil, or_false] at hp
    rcases hp with rfl | rfl | rfl | rfl | rfl | rfl | rfl | rfl
    · exact hdata s hs
    · exact hdata s hs
    · exact x1 "metric_dynamics" (by decide)
    · exact x1 "hyperparams" (by decide)
    · exact x1 "hyperparams" (by decide)
    · exact x1 "metric_dynamics" (by decide)
    · exact x1 "graphics" (by decide)
    · exact x1 "ablation_study" (by decide)
  · intro r c hnd hm
    rw [e5 _ (hu _), e4 _ _ (by decide) (by decide), e3 _ _ (by decide) (by decide), e2 _ _ (by decide) (by decide)]
    exact m3 r c hnd hm
  · intro s name hs
    simp only [List.mem_cons, Prod.mk.injEq, List.not_mem_nil, or_false] at hs
    rcases hs with ⟨rfl, rfl⟩ | ⟨rfl, rfl⟩
    · have : nb = "Beauty" := by simpa [amzNames] using b1
      subst this
      refine ⟨rb, lb, wb, b2, b3, b4, ?_⟩
      rw [e5 _ (hu _), e4 _ _ (by decide) (by decide), e3 _ _ (by decide) (by decide)]
      exact b5
    · have : ng = "Toys_and_Games" := by simpa [amzNames] using g1
      subst this
      refine ⟨rg, lg, wg, g2, g3, g4, ?_⟩
      rw [e5 _ (hu _), e4 _ _ (by decide) (by decide)]
      exact g5
  · rw [e5 _ (hu _)]
    exact s3
  · intro t ht
    simp only [List.mem_cons, List.not_mem_nil, or_false] at ht
    rcases ht with rfl | rfl | rfl | rfl
    · rw [e5 _ (hu _), e4 _ _ (by decide) (by decide), e3 _ _ (by decide) (by decide),
        e2 _ _ (by decide) (by decide)]
      exact m6
    · rw [e5 _ (hu _), e4 _ _ (by decide) (by decide), e3 _ _ (by decide) (by decide)]
      exact b8
    · rw [e5 _ (hu _), e4 _ _ (by decide) (by decide)]
      exact g8
    · rw [e5 _ (hu _)]
      exact s5
  · intro q hq
    have hn : ∀ a, Under [a] q → q.head? = some a := by
      rintro a ⟨r, rfl⟩
      rfl
    have hnd : ¬ Under ["data"] q := fun hu => hq (by rw [hn _ hu]; simp)
    have hnd2 : ∀ s t : String, ¬ (q = ["data"] ∨ Under ["data", s] q ∨ q = ["data", t]) := by
      rintro s t (rfl | hu | rfl)
      · exact hnd ⟨[], rfl⟩
      · exact hnd (List.IsPrefix.trans ⟨[s], rfl⟩ hu)
      · exact hnd ⟨[t], rfl⟩
    rw [f5 q (by rintro (hu | hu) <;> exact hq (by rw [hn _ hu]; simp)), f4 q (hnd2 _ _), f3 q (hnd2 _ _),
      f2 q (hnd2 _ _), f1 q hnd]

/-! ### C137 a first run completes -/

theorem loadAmazon_run (E : LoadEnv C) (s name : String) (raw : C) (lines : List Json) (rows : List (List JVal))
    (d : FileSys C) (hname : amzNames.getItem s = .ok name)
    (hraw : E.fetch ("http://snap.stanford.edu/data/amazon/productGraph/categoryFiles/reviews_" ++ name ++
      "_5.json.gz") = .ok raw)
    (hl : E.jsonLines raw = .ok lines) (hr : amzRows amzFields lines = .ok rows) (hts : "temp_" ++ s ≠ s)
    (h0 : d.get? ["data"] = some .dir) (h1 : d.get? ["data", s] = none) (h2 : d.get? ["data", "temp_" ++ s] = none)
    (h3 : d.get? ["data", s, s ++ ".gz"] = none) : ∃ d', loadAmazon E s d = (.ok (), d') := by
  unfold loadAmazon
  have e0 : (FsM.lift (amzNames.getItem s) : FsM C String) d = (.ok name, d) := by rw [hname]; rfl
  rw [FsM.bind_of_ok e0]
  obtain ⟨d1, r1, g1⟩ := mkdirP_run ["data", s] d (by
    intro q hq hp c
    cases q with
    | nil => exact absurd rfl hq
    | cons a q =>
      rw [List.cons_prefix_cons] at hp
      obtain ⟨rfl, hp⟩ := hp
      cases q with
      | nil => rw [h0]; simp
      | cons b q =>
        rw [List.cons_prefix_cons] at hp
        obtain ⟨rfl, hp⟩ := hp
        rw [List.prefix_nil.1 hp, h1]
        simp)
  rw [FsM.bind_of_ok r1]
  have e1 : d1.get? ["data"] = some .dir := by rw [g1, if_pos ⟨by simp, by simp⟩]
  have e2 : d1.get? ["data", s] = some .dir := by rw [g1, if_pos ⟨by simp, by simp⟩]
  have e3 : d1.get? ["data", "temp_" ++ s] = none := by rw [g1, if_neg (by simp [hts]), h2]
  have e4 : d1.get? ["data", s, s ++ ".gz"] = none := by rw [g1, if_neg (by simp), h3]
  have w1 := writeFile_run ["data", "temp_" ++ s] raw d1 (by simp) (by rw [e3]; simp) (.inr e1)
  have r2 : retrieve E ("http://snap.stanford.edu/data/amazon/productGraph/categoryFiles/reviews_" ++ name ++
      "_5.json.gz") ["data", "temp_" ++ s] d1 = (.ok (), d1.set ["data", "temp_" ++ s] (.file raw)) := by
    unfold retrieve
    have : (FsM.lift (E.fetch ("http://snap.stanford.edu/data/amazon/productGraph/categoryFiles/reviews_" ++ name ++
      "_5.json.gz")) : FsM C C) d1 = (.ok raw, d1) := by rw [hraw]; rfl
    rw [FsM.bind_of_ok this]
    exact w1
  rw [FsM.bind_of_ok r2, FsM.bind_of_ok (readFile_run _ raw _ (Dict.get?_set_self _ _ _))]
  have l1 : (FsM.lift (E.jsonLines raw) : FsM C (List Json)) (d1.set ["data", "temp_" ++ s] (.file raw)) =
      (.ok lines, d1.set ["data", "temp_" ++ s] (.file raw)) := by rw [hl]; rfl
  rw [FsM.bind_of_ok l1]
  have l2 : (FsM.lift (amzRows amzFields lines) : FsM C _) (d1.set ["data", "temp_" ++ s] (.file raw)) =
      (.ok rows, d1.set ["data", "temp_" ++ s] (.file raw)) := by rw [hr]; rfl
  rw [FsM.bind_of_ok l2]
  rw [FsM.bind_of_ok (writeFile_run _ _ _ (by simp) (by
    rw [Dict.get?_set, if_neg (by simp), e4]; simp) (.inr (by
    rw [Dict.get?_set, if_neg]
    · exact e2
    · simpa using hts)))]
  obtain ⟨d', h, _⟩ := unlinkOk_run ["data", "temp_" ++ s] (((d1.set ["data", "temp_" ++ s] (.file raw)).set
    ["data", s, s ++ ".gz"] (.file (E.toCsv amzFields rows)))) (by
      rw [Dict.get?_set, if_neg (by simp), Dict.get?_set_self]; simp)
  exact ⟨d', h⟩

theorem loadSteamFile_run (E : LoadEnv C) (raw out : C) (d : FileSys C)
    (hraw : E.fetch "http://cseweb.ucsd.edu/~wckang/steam_reviews.json.gz" = .ok raw)
    (hr : E.steamCsv raw = .ok out)
    (h0 : d.get? ["data"] = some .dir) (h1 : d.get? ["data", "steam"] = none)
    (h2 : d.get? ["data", "temp_steam"] = none) (h3 : d.get? ["data", "steam", "steam.csv"] = none) :
    ∃ d', loadSteamFile E d = (.ok (), d') := by
  unfold loadSteamFile
  obtain ⟨d1, r1, g1⟩ := mkdirP_run ["data", "steam"] d (by
    intro q hq hp c
    cases q with
    | nil => exact absurd rfl hq
    | cons a q =>
      rw [List.cons_prefix_cons] at hp
      obtain ⟨rfl, hp⟩ := hp
      cases q with
      | nil => rw [h0]; simp
      | cons b q =>
        rw [List.cons_prefix_cons] at hp
        obtain ⟨rfl, hp⟩ := hp
        rw [List.prefix_nil.1 hp, h1]
        simp)
  rw [FsM.bind_of_ok r1]
  have e1 : d1.get? ["data"] = some .dir := by rw [g1, if_pos ⟨by simp, by simp⟩]
  have e2 : d1.get? ["data", "steam"] = some .dir := by rw [g1, if_pos ⟨by simp, by simp⟩]
  have e3 : d1.get? ["data", "temp_steam"] = none := by rw [g1, if_neg (by simp), h2]
  have e4 : d1.get? ["data", "steam", "steam.csv"] = none := by rw [g1, if_neg (by simp), h3]
  have w1 := writeFile_run ["data", "temp_steam"] raw d1 (by simp) (by rw [e3]; simp) (.inr e1)
  have r2 : retrieve E "http://cseweb.ucsd.edu/~wckang/steam_reviews.json.gz" ["data", "temp_steam"] d1 =
      (.ok (), d1.set ["data", "temp_steam"] (.file raw)) := by
    unfold retrieve
    have : (FsM.lift (E.fetch "http://cseweb.ucsd.edu/~wckang/steam_reviews.json.gz") : FsM C C) d1 =
      (.ok raw, d1) := by rw [hraw]; rfl
    rw [FsM.bind_of_ok this]
    exact w1
  rw [FsM.bind_of_ok r2, FsM.bind_of_ok (readFile_run _ raw _ (Dict.get?_set_self _ _ _))]
  have l2 : (FsM.lift (E.steamCsv raw) : FsM C C) (d1.set ["data", "temp_steam"] (.file raw)) =
      (.ok out, d1.set ["data", "temp_steam"] (.file raw)) := by rw [hr]; rfl
  rw [FsM.bind_of_ok l2]
  rw [FsM.bind_of_ok (writeFile_run _ _ _ (by simp) (by
    rw [Dict.get?_set, if_neg (by simp), e4]; simp) (.inr (by
    rw [Dict.get?_set, if_neg (by simp)]
    exact e2)))]
  obtain ⟨d', h, _⟩ := unlinkOk_run ["data", "temp_steam"] (((d1.set ["data", "temp_steam"] (.file raw)).set
    ["data", "steam", "steam.csv"] (.file out))) (by
      rw [Dict.get?_set, if_neg (by simp), Dict.get?_set_self]; simp)
  exact ⟨d', h⟩

/-- An action that makes directories: it completes if none of the paths in `P` is a file, and makes no file. -/
def MakesDirs (P : FPath → Prop) (x : FsM C Unit) : Prop :=
  ∀ d, (∀ q, P q → ∀ c, d.get? q ≠ some (.file c)) →
    ∃ d', x d = (.ok (), d') ∧ ∀ q c, d'.get? q = some (.file c) → d.get? q = some (.file c)

theorem MakesDirs.mkdirP {P : FPath → Prop} (p : FPath) (h : ∀ q, q ≠ [] → q <+: p → P q) :
    MakesDirs (C := C) P (mkdirP p) := by
  intro d hd
  obtain ⟨d', h1, h2⟩ := mkdirP_run p d fun q h1 h2 => hd q (h q h1 h2)
  refine ⟨d', h1, fun q c hq => ?_⟩
  rw [h2] at hq
  split at hq
  · cases hq
  · exact hq

theorem MakesDirs.bind {P : FPath → Prop} {x : FsM C Unit} {f : Unit → FsM C Unit} (hx : MakesDirs P x)
    (hf : ∀ u, MakesDirs P (f u)) : MakesDirs P (x >>= f) := by
  intro d hd
  obtain ⟨d1, h1, h2⟩ := hx d hd
  obtain ⟨d2, h3, h4⟩ := hf () d1 fun q hq c hc => hd q hq c (h2 q c hc)
  exact ⟨d2, by rw [FsM.bind_of_ok h1, h3], fun q c hq => h2 q c (h4 q c hq)⟩

theorem MakesDirs.forM {α : Type} {P : FPath → Prop} {f : α → FsM C Unit} :
    ∀ l : List α, (∀ a ∈ l, MakesDirs P (f a)) → MakesDirs P (l.forM f)
  | [], _ => fun d _ => ⟨d, rfl, fun _ _ h => h⟩
  | a :: l, h => by
    rw [FsM.forM_cons]
    exact (h a List.mem_cons_self).bind fun _ => MakesDirs.forM l fun b hb => h b (List.mem_cons_of_mem _ hb)

theorem prepareExtraDirs_makes : MakesDirs (C := C) (fun q => Under ["results"] q ∨ q = ["configs"] ∨
    ∃ s ∈ dataDirs, q = ["configs", s]) prepareExtraDirs := by
  unfold prepareExtraDirs
  refine MakesDirs.bind ?_ fun _ => ?_
  · refine MakesDirs.forM _ fun s _ => MakesDirs.forM _ fun t _ => MakesDirs.mkdirP _ ?_
    intro q h1 h2
    cases q with
    | nil => exact absurd rfl h1
    | cons b q =>
      rw [List.cons_prefix_cons] at h2
      obtain ⟨rfl, _⟩ := h2
      exact .inl ⟨q, rfl⟩
  · refine MakesDirs.forM _ fun s hs => MakesDirs.mkdirP _ ?_
    intro q h1 h2
    cases q with
    | nil => exact absurd rfl h1
    | cons b q =>
      rw [List.cons_prefix_cons] at h2
      obtain ⟨rfl, h2⟩ := h2
      cases q with
      | nil => exact .inr (.inl rfl)
      | cons b q =>
        rw [List.cons_prefix_cons] at h2
        obtain ⟨rfl, h2⟩ := h2
        rw [List.prefix_nil.1 h2]
        exact .inr (.inr ⟨_, hs, rfl⟩)

/-- An archive that can be unpacked below `top`: every member lies in the directory `top`, and below a file there is
nothing else. -/
def GoodArchive (top : String) (ms : List (FPath × Option C)) : Prop :=
  ms ≠ [] ∧ (∀ m ∈ ms, ∃ r, m.1 = top :: r ∧ (m.2.isSome → r ≠ [])) ∧
    ∀ m ∈ ms, ∀ m' ∈ ms, m.2.isSome → m.1 <+: m'.1 → m'.1 = m.1 ∧ m'.2.isSome

/-- what may be found below `data` while the archive is unpacked -/
def UnpackInv (ms : List (FPath × Option C)) (d : FileSys C) : Prop :=
  d.get? ["data"] = some .dir ∧
  (∀ r c, d.get? ("data" :: r) = some (.file c) → r = ["temp.zip"] ∨ ∃ m ∈ ms, m.2.isSome ∧ r = m.1) ∧
  (∀ r, d.get? ("data" :: r) = some .dir → r = [] ∨ ∃ m ∈ ms, r <+: m.1 ∧ (m.2.isSome → r ≠ m.1))

theorem unpack_step (top : String) (ht : top ≠ "temp.zip") (ms : List (FPath × Option C)) (hg : GoodArchive top ms)
    (m : FPath × Option C) (hm : m ∈ ms) (d : FileSys C) (hi : UnpackInv ms d) :
    ∃ d', extractMember ["data"] m d = (.ok (), d') ∧ UnpackInv ms d' ∧ d'.get? ["data", top] = some .dir := by
  obtain ⟨_, hg1, hg2⟩ := hg
  obtain ⟨i0, i1, i2⟩ := hi
  obtain ⟨r, hr, hrn⟩ := hg1 m hm
  -- no initial part of the directory to be made is a file
  have nofile : ∀ p : FPath, p <+: m.1 → (m.2.isSome → p ≠ m.1) → ∀ q, q ≠ [] → q <+: "data" :: p →
      ∀ c, d.get? q ≠ some (.file c) := by
    intro p hp hpn q hq hqp c hc
    cases q with
    | nil => exact hq rfl
    | cons a q =>
      rw [List.cons_prefix_cons] at hqp
      obtain ⟨rfl, hqp⟩ := hqp
      rcases i1 q c hc with rfl | ⟨m', hm', hs, rfl⟩
      · have := hqp.trans hp
        rw [hr, List.cons_prefix_cons] at this
        exact ht this.1.symm
      · obtain ⟨e, hs'⟩ := hg2 m' hm' m hm hs (hqp.trans hp)
        refine hpn hs' ?_
        rw [← e] at hqp
        exact hp.eq_of_length_le hqp.length_le
  have mk : ∀ p : FPath, p ≠ [] → p <+: m.1 → (m.2.isSome → p ≠ m.1) → ∃ d', mkdirP ("data" :: p) d = (.ok (), d') ∧
      UnpackInv ms d' ∧ d'.get? ["data", top] = some .dir ∧ d'.get? ("data" :: p) = some .dir := by
    intro p hp0 hp hpn
    obtain ⟨d', h1, h2⟩ := mkdirP_run ("data" :: p) d (nofile p hp hpn)
    refine ⟨d', h1, ⟨?_, ?_, ?_⟩, ?_, ?_⟩
    · rw [h2, if_pos ⟨by simp, by simp⟩]
    · intro r c hc
      rw [h2] at hc
      split at hc
      · cases hc
      · exact i1 r c hc
    · intro r hc
      rw [h2] at hc
      split at hc
      · rename_i hx
        rw [List.cons_prefix_cons] at hx
        refine .inr ⟨m, hm, hx.2.2.trans hp, fun hs he => hpn hs ?_⟩
        have := hx.2.2
        rw [he] at this
        exact hp.eq_of_length_le this.length_le
      · exact i2 r hc
    · rw [h2, if_pos]
      refine ⟨by simp, ?_⟩
      rw [List.cons_prefix_cons]
      refine ⟨rfl, ?_⟩
      cases p with
      | nil => exact absurd rfl hp0
      | cons a p =>
        rw [hr, List.cons_prefix_cons] at hp
        rw [hp.1]
        exact ⟨p, rfl⟩
    · rw [h2, if_pos ⟨by simp, List.prefix_rfl⟩]
  unfold extractMember
  rcases hm2 : m.2 with _ | c
  · obtain ⟨d', h1, h2, h3, _⟩ := mk m.1 (by rw [hr]; simp) List.prefix_rfl (by rw [hm2]; simp)
    exact ⟨d', h1, h2, h3⟩
  · have hrne : r ≠ [] := hrn (by rw [hm2]; simp)
    have hdl : m.1.dropLast = top :: r.dropLast := by
      rw [hr]
      cases r with
      | nil => exact absurd rfl hrne
      | cons a r => rfl
    have hlen : m.1.dropLast ≠ m.1 := by
      intro he
      have := congrArg List.length he
      rw [List.length_dropLast, hr] at this
      simp at this
    obtain ⟨d1, h1, ⟨j0, j1, j2⟩, h3, h4⟩ := mk m.1.dropLast (by rw [hdl]; simp) (List.dropLast_prefix _)
      (fun _ => hlen)
    have hdd : (["data"] ++ m.1).dropLast = "data" :: m.1.dropLast := by
      rw [hr]
      rfl
    dsimp only
    rw [hdd, FsM.bind_of_ok h1]
    have hnd : d1.get? ("data" :: m.1) ≠ some .dir := by
      intro hd
      rcases j2 _ hd with h | ⟨m', hm', hp, hn⟩
      · rw [hr] at h; cases h
      · obtain ⟨e, hs⟩ := hg2 m hm m' hm' (by rw [hm2]; simp) hp
        exact hn hs e.symm
    have w := writeFile_run ("data" :: m.1) c d1 (by simp) hnd (.inr (by
      have : ("data" :: m.1).dropLast = "data" :: m.1.dropLast := by rw [hr]; rfl
      rw [this]
      exact h4))
    refine ⟨_, w, ⟨?_, ?_, ?_⟩, ?_⟩
    · rw [Dict.get?_set, if_neg (by rw [hr]; simp)]
      exact j0
    · intro q x hx
      rw [Dict.get?_set] at hx
      split at hx
      · rename_i he
        refine .inr ⟨m, hm, by rw [hm2]; simp, ?_⟩
        exact (List.cons.inj he).2.symm
      · exact j1 q x hx
    · intro q hx
      rw [Dict.get?_set] at hx
      split at hx
      · cases hx
      · exact j2 q hx
    · rw [Dict.get?_set, if_neg]
      · exact h3
      · rw [hr]
        simpa using hrne

theorem unpack_run (top : String) (ht : top ≠ "temp.zip") (ms : List (FPath × Option C)) (hg : GoodArchive top ms) :
    ∀ (l : List (FPath × Option C)), (∀ m ∈ l, m ∈ ms) → ∀ d : FileSys C, UnpackInv ms d →
      ∃ d', l.forM (extractMember ["data"]) d = (.ok (), d') ∧ UnpackInv ms d' ∧
        (l ≠ [] → d'.get? ["data", top] = some .dir)
  | [], _, d, hi => ⟨d, rfl, hi, fun h => absurd rfl h⟩
  | m :: l, hl, d, hi => by
    obtain ⟨d1, h1, h2, h3⟩ := unpack_step top ht ms hg m (hl m List.mem_cons_self) d hi
    obtain ⟨d2, h4, h5, _⟩ := unpack_run top ht ms hg l (fun x hx => hl x (List.mem_cons_of_mem _ hx)) d1 h2
    refine ⟨d2, ?_, h5, fun _ => ?_⟩
    · rw [FsM.forM_cons, FsM.bind_of_ok h1, h4]
    · have := (FsM.Rel.forM KeepDirs.refl KeepDirs.trans l (f := extractMember ["data"])
        (fun m _ => extractMember_keepDirs _ m)).of_eq h4
      exact this _ h3

theorem loadMl20m_run (E : LoadEnv C) (archive : C) (ms : List (FPath × Option C)) (d : FileSys C)
    (hf : E.fetch "https://files.grouplens.org/datasets/movielens/ml-20m.zip" = .ok archive)
    (hz : E.unzip archive = .ok ms) (hg : GoodArchive "ml-20m" ms) (hd : ∀ r, d.get? ("data" :: r) = none) :
    ∃ d', loadMl20m E d = (.ok (), d') ∧ ∀ s r, s ≠ "ml_20m" → d'.get? ("data" :: s :: r) = none := by
  unfold loadMl20m
  obtain ⟨d1, r1, g1⟩ := mkdirP_run ["data"] d (by
    intro q hq hp c
    cases q with
    | nil => exact absurd rfl hq
    | cons a q =>
      rw [List.cons_prefix_cons] at hp
      obtain ⟨rfl, hp⟩ := hp
      rw [hd]
      simp)
  rw [FsM.bind_of_ok r1]
  have e1 : d1.get? ["data"] = some .dir := by rw [g1, if_pos ⟨by simp, by simp⟩]
  have e2 : ∀ s r, d1.get? ("data" :: s :: r) = none := by
    intro s r
    rw [g1, if_neg (by simp), hd]
  have w1 := writeFile_run ["data", "temp.zip"] archive d1 (by simp) (by rw [e2]; simp) (.inr e1)
  have r2 : retrieve E "https://files.grouplens.org/datasets/movielens/ml-20m.zip" ["data", "temp.zip"] d1 =
      (.ok (), d1.set ["data", "temp.zip"] (.file archive)) := by
    unfold retrieve
    have : (FsM.lift (E.fetch "https://files.grouplens.org/datasets/movielens/ml-20m.zip") : FsM C C) d1 =
      (.ok archive, d1) := by rw [hf]; rfl
    rw [FsM.bind_of_ok this]
    exact w1
  rw [FsM.bind_of_ok r2, FsM.bind_of_ok (readFile_run _ archive _ (Dict.get?_set_self _ _ _))]
  have l1 : (FsM.lift (E.unzip archive) : FsM C _) (d1.set ["data", "temp.zip"] (.file archive)) =
      (.ok ms, d1.set ["data", "temp.zip"] (.file archive)) := by rw [hz]; rfl
  rw [FsM.bind_of_ok l1]
  have hi : UnpackInv ms (d1.set ["data", "temp.zip"] (.file archive)) := by
    refine ⟨?_, ?_, ?_⟩
    · rw [Dict.get?_set, if_neg (by simp), e1]
    · intro r c hc
      rw [Dict.get?_set] at hc
      split at hc
      · rename_i he
        exact .inl (List.cons.inj he).2.symm
      · cases r with
        | nil => rw [e1] at hc; cases hc
        | cons s r => rw [e2] at hc; cases hc
    · intro r hc
      rw [Dict.get?_set] at hc
      split at hc
      · cases hc
      · cases r with
        | nil => exact .inl rfl
        | cons s r => rw [e2] at hc; cases hc
  obtain ⟨d2, r3, ⟨i0, i1, i2⟩, i3⟩ := unpack_run "ml-20m" (by decide) ms hg ms (fun _ h => h) _ hi
  rw [FsM.bind_of_ok r3]
  have hnone : ∀ s r, s ≠ "ml-20m" → s :: r ≠ ["temp.zip"] → d2.get? ("data" :: s :: r) = none := by
    intro s r hs htz
    rcases hx : d2.get? ("data" :: s :: r) with _ | n
    · rfl
    · rcases n with _ | c
      · rcases i2 _ hx with h | ⟨m, hm, hp, _⟩
        · cases h
        · obtain ⟨t, ht, _⟩ := hg.2.1 m hm
          rw [ht, List.cons_prefix_cons] at hp
          exact absurd hp.1 hs
      · rcases i1 _ _ hx with h | ⟨m, hm, _, he⟩
        · exact absurd h htz
        · obtain ⟨t, ht, _⟩ := hg.2.1 m hm
          rw [ht] at he
          exact absurd (List.cons.inj he).1 hs
  obtain ⟨d3, r4, g4⟩ := unlinkOk_run ["data", "temp.zip"] d2 (by
    intro h
    rcases i2 _ h with h | ⟨m, hm, hp, _⟩
    · cases h
    · obtain ⟨t, ht, _⟩ := hg.2.1 m hm
      rw [ht, List.cons_prefix_cons] at hp
      exact absurd hp.1 (by decide))
  rw [FsM.bind_of_ok r4]
  have h5 : d3.get? ["data", "ml-20m"] = some .dir := by
    rw [g4, if_neg (by simp)]
    exact i3 hg.1
  have hn3 : ∀ s r, s ≠ "ml-20m" → d3.get? ("data" :: s :: r) = none := by
    intro s r hs
    rw [g4]
    split
    · rfl
    · rename_i h
      exact hnone s r hs fun he => h (by rw [he])
  have hb : d3.hasBelow ["data", "ml_20m"] = false := by
    rw [← Bool.not_eq_true, hasBelow_iff]
    rintro ⟨q, ⟨r, rfl⟩, _, h⟩
    exact h (hn3 "ml_20m" r (by decide))
  obtain ⟨d4, r5⟩ := renameDir_run ["data", "ml-20m"] ["data", "ml_20m"] d3 h5 hb (by
    intro c
    rw [hn3 _ _ (by decide)]
    simp)
  obtain ⟨k1, k2, k3, _⟩ := renameDir_get _ _ _ _ (by decide) (by decide) r5
  refine ⟨d4, r5, ?_⟩
  intro s r hs
  by_cases hs' : s = "ml-20m"
  · subst hs'
    exact k2 r
  · rw [k3 _ (by simpa using fun h => hs' h.symm) (by simpa using fun h => hs h.symm)]
    exact hn3 s r hs'

/-- **C137** In a working directory without `data` and `results`, with servers and files as expected, `load_data`
completes. -/
theorem C137_completes (E : LoadEnv C) (d : FileSys C)
    (hd : ∀ q : FPath, q.head? = some "data" ∨ q.head? = some "results" → d.get? q = none)
    (hc : ∀ c, d.get? ["configs"] ≠ some (.file c) ∧ ∀ s ∈ dataDirs, d.get? ["configs", s] ≠ some (.file c))
    (archive : C) (ms : List (FPath × Option C))
    (hf : E.fetch "https://files.grouplens.org/datasets/movielens/ml-20m.zip" = .ok archive)
    (hz : E.unzip archive = .ok ms) (hg : GoodArchive "ml-20m" ms)
    (ha : ∀ name ∈ ["Beauty", "Toys_and_Games"], ∃ raw lines rows,
      E.fetch ("http://snap.stanford.edu/data/amazon/productGraph/categoryFiles/reviews_" ++ name ++ "_5.json.gz") =
        .ok raw ∧ E.jsonLines raw = .ok lines ∧ amzRows ["reviewerID", "asin", "unixReviewTime"] lines = .ok rows)
    (hs : ∃ raw out, E.fetch "http://cseweb.ucsd.edu/~wckang/steam_reviews.json.gz" = .ok raw ∧
      E.steamCsv raw = .ok out) :
    ∃ d', loadData E d = (.ok (), d') := by
  obtain ⟨d1, r1, n1⟩ := loadMl20m_run E archive ms d hf hz hg (fun r => hd _ (.inl rfl))
  obtain ⟨_, _, _, _, _, b1, _⟩ := loadMl20m_ok E d d1 r1
  obtain ⟨rb, lb, wb, hb1, hb2, hb3⟩ := ha "Beauty" (by simp)
  obtain ⟨rg, lg, wg, hg1, hg2, hg3⟩ := ha "Toys_and_Games" (by simp)
  obtain ⟨rs, os, hs1, hs2⟩ := hs
  obtain ⟨d2, r2⟩ := loadAmazon_run E "amz_b" "Beauty" rb lb wb d1 rfl hb1 hb2 hb3 (by decide) b1
    (n1 _ _ (by decide)) (n1 _ _ (by decide)) (n1 _ _ (by decide))
  obtain ⟨_, _, _, _, _, _, _, _, _, b2, _⟩ := loadAmazon_ok E _ _ _ r2
  have f2 := (loadAmazon_frame E "amz_b").of_eq r2
  have e2 : ∀ r : FPath, ∀ s, s ≠ "amz_b" → s ≠ "temp_amz_b" → d2.get? ("data" :: s :: r) = d1.get? ("data" :: s :: r) := by
    intro r s h1 h2
    refine f2 _ ?_
    simp [Under, Ne.symm h1, h2]
  obtain ⟨d3, r3⟩ := loadAmazon_run E "amz_g" "Toys_and_Games" rg lg wg d2 rfl hg1 hg2 hg3 (by decide) b2
    (by rw [e2 _ _ (by decide) (by decide)]; exact n1 _ _ (by decide))
    (by rw [e2 _ _ (by decide) (by decide)]; exact n1 _ _ (by decide))
    (by rw [e2 _ _ (by decide) (by decide)]; exact n1 _ _ (by decide))
  obtain ⟨_, _, _, _, _, _, _, _, _, b3, _⟩ := loadAmazon_ok E _ _ _ r3
  have f3 := (loadAmazon_frame E "amz_g").of_eq r3
  have e3 : ∀ r : FPath, ∀ s, s ≠ "amz_g" → s ≠ "temp_amz_g" → d3.get? ("data" :: s :: r) = d2.get? ("data" :: s :: r) := by
    intro r s h1 h2
    refine f3 _ ?_
    simp [Under, Ne.symm h1, h2]
  have e23 : ∀ r : FPath, ∀ s, s = "steam" ∨ s = "temp_steam" → d3.get? ("data" :: s :: r) = none := by
    intro r s hs
    have h1 : s ≠ "amz_g" := by rcases hs with rfl | rfl <;> decide
    have h2 : s ≠ "temp_amz_g" := by rcases hs with rfl | rfl <;> decide
    have h3 : s ≠ "amz_b" := by rcases hs with rfl | rfl <;> decide
    have h4 : s ≠ "temp_amz_b" := by rcases hs with rfl | rfl <;> decide
    have h5 : s ≠ "ml_20m" := by rcases hs with rfl | rfl <;> decide
    rw [e3 _ _ h1 h2, e2 _ _ h3 h4, n1 _ _ h5]
  obtain ⟨d4, r4⟩ := loadSteamFile_run E rs os d3 hs1 hs2 b3 (e23 _ _ (.inl rfl)) (e23 _ _ (.inr rfl))
    (e23 _ _ (.inl rfl))
  have f1 := (loadMl20m_frame E).of_eq r1
  have f4 := (loadSteamFile_frame E).of_eq r4
  have fall : ∀ q : FPath, ¬ Under ["data"] q → d4.get? q = d.get? q := by
    intro q hnd
    have hnd2 : ∀ s t : String, ¬ (q = ["data"] ∨ Under ["data", s] q ∨ q = ["data", t]) := by
      rintro s t (rfl | hu | rfl)
      · exact hnd ⟨[], rfl⟩
      · exact hnd (List.IsPrefix.trans ⟨[s], rfl⟩ hu)
      · exact hnd ⟨[t], rfl⟩
    rw [f4 q (hnd2 _ _), f3 q (hnd2 _ _), f2 q (hnd2 _ _), f1 q hnd]
  obtain ⟨d5, r5, _⟩ := prepareExtraDirs_makes d4 (by
    rintro q (⟨r, rfl⟩ | rfl | ⟨s, hs, rfl⟩) c
    · rw [fall _ (by simp [Under]), hd _ (.inr rfl)]
      simp
    · rw [fall _ (by simp [Under])]
      exact (hc c).1
    · rw [fall _ (by simp [Under])]
      exact (hc c).2 s hs)
  refine ⟨d5, ?_⟩
  unfold loadData
  rw [FsM.bind_of_ok r1, FsM.bind_of_ok r2, FsM.bind_of_ok r3, FsM.bind_of_ok r4, r5]

/-! ### C138 a second run fails -/

theorem loadMl20m_keys (E : LoadEnv C) (d d' : FileSys C) (h : loadMl20m E d = (.ok (), d')) (q : FPath)
    (hq : Under ["data", "ml_20m"] q) (hne : q ≠ ["data", "ml_20m"]) : d.get? q = none := by
  unfold loadMl20m at h
  obtain ⟨_, d1, h1, h⟩ := FsM.bind_ok_iff.1 h
  obtain ⟨_, d2, h2, h⟩ := FsM.bind_ok_iff.1 h
  obtain ⟨c, d3, h3, h⟩ := FsM.bind_ok_iff.1 h
  obtain ⟨ms, d4, h4, h⟩ := FsM.bind_ok_iff.1 h
  obtain ⟨_, d5, h5, h⟩ := FsM.bind_ok_iff.1 h
  obtain ⟨_, d6, h6, h⟩ := FsM.bind_ok_iff.1 h
  obtain ⟨_, _, _, _, hb, _⟩ := renameDir_get _ _ _ _ (by decide) (by decide) h
  by_contra hn
  have hqt : ¬ q = ["data", "temp.zip"] := by
    rintro rfl
    exact absurd hq (by simp [Under])
  have k1 := (mkdirP_keepKeys (fun q => q = ["data", "temp.zip"]) _).of_eq h1 q hqt hn
  have k2 := (retrieve_keepKeys (fun q => q = ["data", "temp.zip"]) E _ _).of_eq h2 q hqt k1
  have k3 := (readFile_rel (KeepKeys.refl (fun q => q = ["data", "temp.zip"])) _).of_eq h3 q hqt k2
  have k4 := (FsM.Rel.lift (KeepKeys.refl (fun q => q = ["data", "temp.zip"])) _).of_eq h4 q hqt k3
  have k5 := (FsM.Rel.forM (KeepKeys.refl _) (KeepKeys.trans _) ms (f := extractMember ["data"])
    (fun m _ => extractMember_keepKeys (fun q => q = ["data", "temp.zip"]) _ m)).of_eq h5 q hqt k4
  have k6 := (unlinkOk_keepKeys _).of_eq h6 q hqt k5
  have : d6.hasBelow ["data", "ml_20m"] = true := (hasBelow_iff _ _).2 ⟨q, hq, hne, k6⟩
  rw [hb] at this
  cases this

/-- **C138** (exact reason) `load_data` never completes when `data/ml_20m` contains anything. -/
theorem C138_blocked (E : LoadEnv C) (d : FileSys C) (r : FPath) (hr : r ≠ [])
    (h : d.get? ("data" :: "ml_20m" :: r) ≠ none) : ∀ d', loadData E d ≠ (.ok (), d') := by
  intro d' hd
  unfold loadData at hd
  obtain ⟨_, d1, h1, _⟩ := FsM.bind_ok_iff.1 hd
  exact h (loadMl20m_keys E d d1 h1 _ ⟨r, rfl⟩ (by simpa using hr))

/-- **C138** `load_data` cannot be run twice: after a completed run that unpacked a file into the directory, no later run
completes, whatever is downloaded then. -/
theorem C138_not_twice (E E' : LoadEnv C) (d d1 : FileSys C) (h : loadData E d = (.ok (), d1))
    (archive : C) (ms : List (FPath × Option C))
    (hf : E.fetch "https://files.grouplens.org/datasets/movielens/ml-20m.zip" = .ok archive)
    (hz : E.unzip archive = .ok ms) (hnd : (ms.map Prod.fst).Nodup) (r : FPath) (c : C) (hr : r ≠ [])
    (hm : ("ml-20m" :: r, some c) ∈ ms) : ∀ d2, loadData E' d1 ≠ (.ok (), d2) := by
  obtain ⟨_, ⟨a, ms', h1, h2, h3⟩, _⟩ := C137_after E d d1 h
  rw [hf] at h1
  cases h1
  rw [hz] at h2
  cases h2
  exact C138_blocked E' d1 r hr (by rw [h3 r c hnd hm]; simp)

/-- **C138** (what the failed run does) If the archive unpacks into `ml-20m`, the run ends with `OSError` at the
renaming, or earlier; it leaves everything outside `data/ml-20m` and the temporary archive as it was, so that no other
data set is loaded. -/
theorem C138_leaves (E : LoadEnv C) (d : FileSys C) (r : FPath) (hr : r ≠ [])
    (h : d.get? ("data" :: "ml_20m" :: r) ≠ none)
    (hu : ∀ a ms, E.unzip a = .ok ms → ∀ m ∈ ms, Under ["ml-20m"] m.1) (q : FPath)
    (hq : q ≠ ["data"] ∧ q ≠ ["data", "temp.zip"] ∧ ¬ Under ["data", "ml-20m"] q) :
    (loadData E d).2.get? q = d.get? q := by
  -- up to the renaming only the given paths change; the renaming fails
  have hS : ∀ m : FPath × Option C, Under ["ml-20m"] m.1 → ∀ q, q ≠ [] ∧ q <+: ["data"] ++ m.1 →
      q = ["data"] ∨ q = ["data", "temp.zip"] ∨ Under ["data", "ml-20m"] q := by
    rintro m ⟨t, ht⟩ q ⟨h1, h2⟩
    rw [← ht] at h2
    cases q with
    | nil => exact absurd rfl h1
    | cons a q =>
      rw [List.singleton_append, List.cons_prefix_cons] at h2
      obtain ⟨rfl, h2⟩ := h2
      cases q with
      | nil => exact .inl rfl
      | cons b q =>
        rw [List.singleton_append, List.cons_prefix_cons] at h2
        obtain ⟨rfl, _⟩ := h2
        exact .inr (.inr ⟨q, rfl⟩)
  have hfr : FrameOf (fun q => q = ["data"] ∨ q = ["data", "temp.zip"] ∨ Under ["data", "ml-20m"] q) d
      (loadMl20m E d).2 := by
    rcases hrun : loadMl20m E d with ⟨res, d'⟩
    unfold loadMl20m at hrun
    rcases h1 : mkdirP ["data"] d with ⟨r1, d1⟩
    have f1 : FrameOf (fun q => q = ["data"] ∨ q = ["data", "temp.zip"] ∨ Under ["data", "ml-20m"] q) d d1 :=
      ((mkdirP_frame _).of_eq h1).mono (by
        rintro q ⟨hq1, hq2⟩
        cases q with
        | nil => exact absurd rfl hq1
        | cons a q =>
          rw [List.cons_prefix_cons] at hq2
          obtain ⟨rfl, hq2⟩ := hq2
          rw [List.prefix_nil.1 hq2]
          exact .inl rfl)
    rcases r1 with e | u
    · rw [FsM.bind_of_error h1] at hrun
      cases hrun; exact f1
    rw [FsM.bind_of_ok h1] at hrun
    rcases h2 : retrieve E "https://files.grouplens.org/datasets/movielens/ml-20m.zip" ["data", "temp.zip"] d1
      with ⟨r2, d2⟩
    have f2 := FrameOf.trans _ _ _ _ f1 (((retrieve_frame E _ _).of_eq h2).mono fun q hq => .inr (.inl hq))
    rcases r2 with e | u
    · rw [FsM.bind_of_error h2] at hrun
      cases hrun; exact f2
    rw [FsM.bind_of_ok h2] at hrun
    rcases h3 : readFile ["data", "temp.zip"] d2 with ⟨r3, d3⟩
    have f3 := FrameOf.trans _ _ _ _ f2 ((readFile_rel (FrameOf.refl _) _).of_eq h3)
    rcases r3 with e | c
    · rw [FsM.bind_of_error h3] at hrun
      cases hrun; exact f3
    rw [FsM.bind_of_ok h3] at hrun
    rcases h4 : (FsM.lift (E.unzip c) : FsM C _) d3 with ⟨r4, d4⟩
    have f4 := FrameOf.trans _ _ _ _ f3 ((FsM.Rel.lift (FrameOf.refl _) _).of_eq h4)
    rcases r4 with e | ms
    · rw [FsM.bind_of_error h4] at hrun
      cases hrun; exact f4
    rw [FsM.bind_of_ok h4] at hrun
    have hms := hu c ms (FsM.lift_ok_iff.1 h4).1
    rcases h5 : ms.forM (extractMember ["data"]) d4 with ⟨r5, d5⟩
    have f5 := FrameOf.trans _ _ _ _ f4 ((FsM.Rel.forM (FrameOf.refl _) (FrameOf.trans _) ms
      (f := extractMember ["data"]) (fun m hm d => (extractMember_frame _ m (by simp) d).mono (hS m (hms m hm)))).of_eq h5)
    rcases r5 with e | u
    · rw [FsM.bind_of_error h5] at hrun
      cases hrun; exact f5
    rw [FsM.bind_of_ok h5] at hrun
    rcases h6 : unlinkOk ["data", "temp.zip"] d5 with ⟨r6, d6⟩
    have f6 := FrameOf.trans _ _ _ _ f5 (((unlinkOk_frame _).of_eq h6).mono fun q hq => .inr (.inl hq))
    rcases r6 with e | u
    · rw [FsM.bind_of_error h6] at hrun
      cases hrun; exact f6
    rw [FsM.bind_of_ok h6] at hrun
    rcases res with e | u
    · rw [renameDir_error _ _ _ _ _ hrun]
      exact f6
    · exfalso
      refine h (loadMl20m_keys E d d' ?_ _ ⟨r, rfl⟩ (by simpa using hr))
      unfold loadMl20m
      rw [FsM.bind_of_ok h1, FsM.bind_of_ok h2, FsM.bind_of_ok h3, FsM.bind_of_ok h4, FsM.bind_of_ok h5,
        FsM.bind_of_ok h6, hrun]
  have hst : (loadData E d).2 = (loadMl20m E d).2 := by
    unfold loadData
    rcases hrun : loadMl20m E d with ⟨res, d'⟩
    rcases res with e | u
    · rw [FsM.bind_of_error hrun]
    · exact absurd (loadMl20m_keys E d d' hrun _ ⟨r, rfl⟩ (by simpa using hr)) h
  rw [hst]
  refine hfr q ?_
  rintro (hh | hh | hh)
  · exact hq.1 hh
  · exact hq.2.1 hh
  · exact hq.2.2 hh

end DynCF
