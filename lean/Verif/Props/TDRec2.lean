/-
Property theorem C28: dimensions of a trained TDRec model.
-/
import Verif.Props.TDRec
import Verif.Props.Hooi2
import Verif.Spec.Recommend

set_option linter.unusedSectionVars false

namespace DynCF
variable {K : Type}

/-! ### C28 -/

theorem foldl_max_spec (l : List ℤ) (x : ℤ) :
    l.foldl max x ∈ x :: l ∧ ∀ y ∈ x :: l, y ≤ l.foldl max x := by
  induction l generalizing x with
  | nil => simp
  | cons a l ih =>
    obtain ⟨h1, h2⟩ := ih (max x a)
    rw [List.foldl_cons]
    constructor
    · rcases List.mem_cons.1 h1 with h | h
      · rw [h]
        rcases max_choice x a with h' | h' <;> rw [h'] <;> simp
      · simp [h]
    · intro y hy
      have hm := h2 (max x a) (by simp)
      rcases List.mem_cons.1 hy with rfl | hy
      · exact le_trans (le_max_left _ _) hm
      · rcases List.mem_cons.1 hy with rfl | hy
        · exact le_trans (le_max_right _ _) hm
        · exact h2 y (by simp [hy])

/-- `max + 1` when the maximum is known -/
theorem maxPlusOne_eq {l : List ℤ} {n : ℕ} (h1 : ((n : ℤ) - 1) ∈ l) (h2 : ∀ y ∈ l, y < n) :
    maxPlusOne l = .ok n := by
  cases l with
  | nil => cases h1
  | cons x l =>
    obtain ⟨h3, h4⟩ := foldl_max_spec l x
    have h5 := h4 _ h1
    have h6 := h2 _ h3
    show Except.ok _ = _
    congr 1
    omega

theorem indsShape_mapped {users items : List ℤ} {data data' : List (PRow K)}
    (hm : MappedTo users items data data') (hne : data ≠ [])
    (hu : FirstAppearance (data.map fun p => p.row.user) users)
    (hi : FirstAppearance (data.map fun p => p.row.item) items) (P : ℕ)
    (hp1 : ∃ r ∈ data, r.pos + 1 = P) (hp2 : ∀ r ∈ data, r.pos < P) :
    indsShape (sortedInds data') = .ok (users.length, items.length, P) := by
  have hmem : ∀ x, x ∈ sortedInds data' ↔ ∃ r ∈ data', r.inter = x := by
    intro x
    rw [sortedInds_eq, mem_stableSort, List.mem_map]
  obtain ⟨r0, hr0⟩ := List.exists_mem_of_ne_nil _ hne
  have hul : 0 < users.length := List.length_pos_of_mem ((hu.mem _).2 (List.mem_map_of_mem (f := fun p : PRow K => p.row.user) hr0))
  have hil : 0 < items.length := List.length_pos_of_mem ((hi.mem _).2 (List.mem_map_of_mem (f := fun p : PRow K => p.row.item) hr0))
  have e1 : maxPlusOne ((sortedInds data').map Inter.user) = .ok users.length := by
    apply maxPlusOne_eq
    · have hlast : users[users.length - 1]? = some (users[users.length - 1]'(by omega)) :=
        List.getElem?_eq_getElem _
      obtain ⟨r, hr, hru⟩ := List.mem_map.1 ((hu.mem _).1 (List.mem_of_getElem? hlast))
      obtain ⟨r', hr', _, _, ⟨k, hk, hku⟩, _⟩ := forall₂_mem_left hm hr
      rw [hru] at hku
      have := getElem?_inj_nodup hu.nodup hku hlast
      refine List.mem_map.2 ⟨r'.inter, (hmem _).2 ⟨r', hr', rfl⟩, ?_⟩
      show r'.row.user = _
      omega
    · intro y hy
      obtain ⟨x, hx, rfl⟩ := List.mem_map.1 hy
      obtain ⟨r', hr', rfl⟩ := (hmem _).1 hx
      obtain ⟨r, hr, _, _, ⟨k, hk, hku⟩, _⟩ := forall₂_mem_right hm hr'
      have := (List.getElem?_eq_some_iff.1 hku).1
      show r'.row.user < _
      omega
  have e2 : maxPlusOne ((sortedInds data').map Inter.item) = .ok items.length := by
    apply maxPlusOne_eq
    · have hlast : items[items.length - 1]? = some (items[items.length - 1]'(by omega)) :=
        List.getElem?_eq_getElem _
      obtain ⟨r, hr, hru⟩ := List.mem_map.1 ((hi.mem _).1 (List.mem_of_getElem? hlast))
      obtain ⟨r', hr', _, _, _, ⟨k, hk, hku⟩⟩ := forall₂_mem_left hm hr
      rw [hru] at hku
      have := getElem?_inj_nodup hi.nodup hku hlast
      refine List.mem_map.2 ⟨r'.inter, (hmem _).2 ⟨r', hr', rfl⟩, ?_⟩
      show r'.row.item = _
      omega
    · intro y hy
      obtain ⟨x, hx, rfl⟩ := List.mem_map.1 hy
      obtain ⟨r', hr', rfl⟩ := (hmem _).1 hx
      obtain ⟨r, hr, _, _, _, ⟨k, hk, hku⟩⟩ := forall₂_mem_right hm hr'
      have := (List.getElem?_eq_some_iff.1 hku).1
      show r'.row.item < _
      omega
  have e3 : maxPlusOne ((sortedInds data').map Inter.pos) = .ok P := by
    apply maxPlusOne_eq
    · obtain ⟨r, hr, hrp⟩ := hp1
      obtain ⟨r', hr', hpos, _⟩ := forall₂_mem_left hm hr
      refine List.mem_map.2 ⟨r'.inter, (hmem _).2 ⟨r', hr', rfl⟩, ?_⟩
      show r'.pos = _
      omega
    · intro y hy
      obtain ⟨x, hx, rfl⟩ := List.mem_map.1 hy
      obtain ⟨r', hr', rfl⟩ := (hmem _).1 hx
      obtain ⟨r, hr, hpos, _⟩ := forall₂_mem_right hm hr'
      have := hp2 r hr
      show r'.pos < _
      omega
  unfold indsShape
  rw [e1, except_bind_ok, e2, except_bind_ok, e3, except_bind_ok]
  rfl

/-- the highest position of a table with non-negative positions -/
theorem exists_top (data : List (PRow K)) (hne : data ≠ []) (hpos : ∀ r ∈ data, 0 ≤ r.pos) :
    ∃ P : ℕ, (∃ r ∈ data, r.pos + 1 = P) ∧ ∀ r ∈ data, r.pos < P := by
  cases data with
  | nil => exact absurd rfl hne
  | cons r0 l =>
    obtain ⟨h1, h2⟩ := foldl_max_spec (l.map PRow.pos) r0.pos
    rw [← List.map_cons] at h1 h2
    obtain ⟨r, hr, hrm⟩ := List.mem_map.1 h1
    have := hpos r hr
    refine ⟨(r.pos + 1).toNat, ⟨r, hr, by omega⟩, ?_⟩
    intro r' hr'
    have := h2 _ (List.mem_map_of_mem (f := PRow.pos) hr')
    omega

/-- **C28, shape.** For every non-empty table with non-negative positions: the tensor has as many
slices as there are distinct users and items and highest position plus one, the index arrays fit the
values, every index is in range and every user and item is used. -/
theorem C28_shape (data : List (PRow K)) (hne : data ≠ []) (hpos : ∀ r ∈ data, 0 ≤ r.pos) :
    ∃ rows m users items t P, getDfWithUpdatedIndices (data.map PRow.row) = .ok (rows, m) ∧
      FirstAppearance (data.map fun p => p.row.user) users ∧ Represents m.user users ∧
      FirstAppearance (data.map fun p => p.row.item) items ∧ Represents m.item items ∧
      trainTensor (withPos rows data) = .ok t ∧
      t.shape = (users.length, items.length, P) ∧
      (∃ r ∈ data, r.pos + 1 = P) ∧ (∀ r ∈ data, r.pos < P) ∧
      t.inds.length = t.vals.length ∧
      ∀ x ∈ t.inds, (0 ≤ x.user ∧ x.user < users.length) ∧ (0 ≤ x.item ∧ x.item < items.length) ∧
        (0 ≤ x.pos ∧ x.pos < P) := by
  obtain ⟨rows, m, users, items, h1, h2, h3, h4, h5, h6⟩ := train_mapped data
  obtain ⟨P, hp1, hp2⟩ := exists_top data hne hpos
  have hs := indsShape_mapped h6 hne h2 h4 P hp1 hp2
  refine ⟨rows, m, users, items, ⟨sortedInds (withPos rows data),
    (withPos rows data).map fun p => p.row.rel, _⟩, P, h1, h2, h3, h4, h5, ?_, rfl, hp1, hp2, ?_, ?_⟩
  · unfold trainTensor
    dsimp only
    rw [hs, except_bind_ok]
    rfl
  · show (sortedInds (withPos rows data)).length = ((withPos rows data).map _).length
    rw [sortedInds_eq, stableSort_length, List.length_map, List.length_map]
  · intro x hx
    rw [sortedInds_eq, mem_stableSort, List.mem_map] at hx
    obtain ⟨r', hr', rfl⟩ := hx
    obtain ⟨r, hr, hrp, _, ⟨k, hk, hku⟩, ⟨j, hj, hji⟩⟩ := forall₂_mem_right h6 hr'
    have q1 := (List.getElem?_eq_some_iff.1 hku).1
    have q2 := (List.getElem?_eq_some_iff.1 hji).1
    have q3 := hpos r hr
    have q4 := hp2 r hr
    refine ⟨⟨?_, ?_⟩, ⟨?_, ?_⟩, ?_, ?_⟩
    · show 0 ≤ r'.row.user; omega
    · show r'.row.user < _; omega
    · show 0 ≤ r'.row.item; omega
    · show r'.row.item < _; omega
    · show 0 ≤ r'.pos; omega
    · show r'.pos < _; omega

/-- An empty table raises `ValueError`. -/
theorem C28_empty [Field K] [LinearOrder K] {τ : Type} (c : TDCfg K) (m : TDAtt K)
    (cb : Option (ExitCallback K τ)) (cb0 : τ) (h0 : SeqHist) :
    tdTrain c m cb cb0 h0 [] = .error .valueError := rfl

/-! numbers of rows of the factors -/

/-- numbers of rows of the factors returned by `ga_satf` -/
theorem gaSatf_rows [Field K] [LinearOrder K] {τ : Type} {p : HooiPar K}
    {normOf : Ten K → K} {inds : List Ind3} {vals : List K} {shape : ℕ × ℕ × ℕ} {att : Mat K}
    {nIter : ℕ} {tol : K} {cb : Option (ExitCallback K τ)} {cb0 : τ} {init : Option (Fac K)}
    {force : Bool} {f : Fac K} {g : Option (Ten K)} {cbEnd : τ}
    (h : gaSatf p normOf inds vals shape att nIter tol cb cb0 init force = .ok ((f, g), cbEnd)) :
    f.f0.rows = shape.1 ∧ f.f1.rows = shape.2.1 := by
  obtain ⟨f0, nrm, _, hinit, hloop⟩ := gaSatf_ok h
  have hi := placeInit_rows hinit
  exact hooiLoop_inv _ _ (fun s => s.1.f0.rows = shape.1 ∧ s.1.f1.rows = shape.2.1)
    (by
      intro i s s' _ hs'
      obtain ⟨g', h1, _⟩ := onState_ok hs'
      exact ⟨(gaSatfSweep_rows h1).2.1, (gaSatfSweep_rows h1).2.2.1⟩) _ _ _ _ _
    ⟨hi.1, hi.2.1⟩ hloop

theorem tdInit_cols [Field K] {c : TDCfg K} {m : TDAtt K} (hL : 1 ≤ c.seqLen)
    (h : tdInit c = .ok m) : m.att.rows = c.seqLen ∧ m.att.cols = c.seqLen ∧
      m.attInv.rows = c.seqLen ∧ m.attInv.cols = c.seqLen := by
  rw [tdInit_eq c hL] at h
  have h := Except.ok.inj h
  subst h
  cases c.attF <;> exact ⟨rfl, rfl, rfl, rfl⟩

/-- **C28, dimensions.** Whenever training of a model succeeds, it has one user embedding per
distinct user, one item embedding per distinct item and one position embedding per place of the
sequence; the history arrays stay within the shape; so `recommend` works on a consistent state
(`ViewOk`, used by C17–C22). -/
theorem C28_trained_dimensions [Field K] [LinearOrder K] {τ : Type} (c : TDCfg K) (m : TDAtt K)
    (hL : 1 ≤ c.seqLen) (hm : tdInit c = .ok m)
    (cb : Option (ExitCallback K τ)) (cb0 : τ) (h0 : SeqHist) (data : List (PRow K))
    (hpos : ∀ r ∈ data, 0 ≤ r.pos) (s : TDState K)
    (h : tdTrain c m cb cb0 h0 data = .ok s) :
    ∃ users items, FirstAppearance (data.map fun p => p.row.user) users ∧
      FirstAppearance (data.map fun p => p.row.item) items ∧
      s.u.rows = users.length ∧ s.v.rows = items.length ∧ s.w.rows = c.seqLen ∧
      ViewOk s.view users items ∧
      -- the history is the table
      List.Forall₂ (fun (r : PRow K) (x : ℤ × ℤ) => (∃ k : ℕ, x.1 = k ∧ users[k]? = some r.row.user) ∧
        ∃ k : ℕ, x.2 = k ∧ items[k]? = some r.row.item) data s.history := by
  have hne : data ≠ [] := by
    rintro rfl
    rw [C28_empty] at h
    cases h
  obtain ⟨rows, mp, users, items, h1, h2, h3, h4, h5, h6⟩ := train_mapped data
  obtain ⟨P, hp1, hp2⟩ := exists_top data hne hpos
  have hs := indsShape_mapped h6 hne h2 h4 P hp1 hp2
  unfold tdTrain at h
  rw [h1, except_bind_ok] at h
  obtain ⟨t, f, g, cbEnd, aw, lw, ht, hga, haw, _, hmaps, hhist, _, hu, hv, hw, _⟩ := tdFit_ok h
  have hsh : t.shape = (users.length, items.length, P) :=
    Except.ok.inj ((trainTensor_ok ht).2.2.symm.trans hs)
  obtain ⟨g0, g1⟩ := gaSatf_rows hga
  rw [hsh] at g0 g1
  have g2 := (Mat.dot_ok haw).1
  rw [(tdInit_cols hL hm).2.1] at g2
  have hH : List.Forall₂ (fun (r : PRow K) (x : ℤ × ℤ) =>
      (∃ k : ℕ, x.1 = k ∧ users[k]? = some r.row.user) ∧
        ∃ k : ℕ, x.2 = k ∧ items[k]? = some r.row.item) data s.history := by
    rw [hhist, List.forall₂_map_right_iff]
    exact h6.imp fun a b hab => ⟨hab.2.2.1, hab.2.2.2⟩
  refine ⟨users, items, h2, h4, by rw [hu]; exact g0, by rw [hv]; exact g1, by rw [hw]; exact g2.symm,
    ⟨?_, ?_, ?_, ?_, ?_⟩, hH⟩
  · show Represents s.maps.user users; rw [hmaps]; exact h3
  · show Represents s.maps.item items; rw [hmaps]; exact h5
  · show s.u.rows = _; rw [hu]; exact g0
  · show s.v.rows = _; rw [hv]; exact g1
  · intro x hx
    obtain ⟨r, _, ⟨k, hk, hku⟩, ⟨j, hj, hji⟩⟩ := forall₂_mem_right hH hx
    have q1 := (List.getElem?_eq_some_iff.1 hku).1
    have q2 := (List.getElem?_eq_some_iff.1 hji).1
    have e1 : s.view.nUsers = users.length := by show s.u.rows = _; rw [hu]; exact g0
    have e2 : s.view.nItems = items.length := by show s.v.rows = _; rw [hv]; exact g1
    rw [e1, e2, hk, hj]
    omega

/-- `ga_satf` with an attention matrix of another size: no result, or a last factor that does not fit
the attention matrix. -/
theorem gaSatf_att_mismatch [Field K] [LinearOrder K] {τ : Type} (p : HooiPar K)
    (normOf : Ten K → K) (inds : List Ind3) (vals : List K) (shape : ℕ × ℕ × ℕ) (att : Mat K)
    (nIter : ℕ) (tol : K) (cb : Option (ExitCallback K τ)) (cb0 : τ) (force : Bool)
    (hv : checkParams (tri shape) (triZ p.rank) = .ok ()) (hatt : att.cols ≠ shape.2.2) :
    (nIter ≠ 0 ∧ gaSatf p normOf inds vals shape att nIter tol cb cb0 none force =
      .error .valueError) ∨
    ∃ f g, gaSatf p normOf inds vals shape att nIter tol cb cb0 none force = .ok ((f, g), cb0) ∧
      f.f2.rows = shape.2.2 := by
  unfold gaSatf
  rw [hv, except_bind_ok]
  simp only [placeInit, except_bind_ok]
  cases nIter with
  | zero =>
    right
    exact ⟨_, _, rfl, rfl⟩
  | succ n =>
    left
    refine ⟨by omega, ?_⟩
    have : onState (gaSatfSweep p inds vals shape att) 0
        ((initFactors p.la p.initRng shape p.rank true, none) : HooiState K) = .error .valueError := by
      unfold onState gaSatfSweep
      dsimp only
      rw [Mat.dot_error]
      · rfl
      · exact hatt
    unfold hooiLoop
    rw [this]
    rfl

/-- **C28, too short sequences.** If no position reaches the last place of the sequence (no user has
`L` interactions), training with a valid rank raises `ValueError`, however many sweeps are asked
for. -/
theorem C28_no_full_sequence [Field K] [LinearOrder K] {τ : Type} (c : TDCfg K) (m : TDAtt K)
    (hL : 1 ≤ c.seqLen) (hm : tdInit c = .ok m)
    (cb : Option (ExitCallback K τ)) (cb0 : τ) (h0 : SeqHist) (data : List (PRow K))
    (hpos : ∀ r ∈ data, 0 ≤ r.pos)
    (hv : c.hooi.rank.1 ≤ c.hooi.rank.2.1 * c.hooi.rank.2.2 ∧
      c.hooi.rank.2.1 ≤ c.hooi.rank.1 * c.hooi.rank.2.2 ∧
      c.hooi.rank.2.2 ≤ c.hooi.rank.1 * c.hooi.rank.2.1)
    (hshort : ∀ r ∈ data, r.pos + 1 < c.seqLen) :
    tdTrain c m cb cb0 h0 data = .error .valueError := by
  by_cases hne : data = []
  · subst hne; rfl
  obtain ⟨rows, mp, users, items, h1, h2, h3, h4, h5, h6⟩ := train_mapped data
  obtain ⟨P, hp1, hp2⟩ := exists_top data hne hpos
  have hs := indsShape_mapped h6 hne h2 h4 P hp1 hp2
  have hPL : P ≠ c.seqLen := by
    obtain ⟨r, hr, hrp⟩ := hp1
    have := hshort r hr
    omega
  unfold tdTrain
  rw [h1, except_bind_ok]
  unfold tdFit trainTensor
  dsimp only
  rw [hs, except_bind_ok]
  dsimp only [pure, Except.pure]
  rw [except_bind_ok]
  have hatt := tdInit_cols hL hm
  rcases gaSatf_att_mismatch c.hooi c.normOf ((sortedInds (withPos rows data)).map Inter.ind)
      ((withPos rows data).map fun p => p.row.rel) (users.length, items.length, P) m.att c.nIter
      c.growthTol cb cb0 c.force ((checkParams_ok_iff (users.length, items.length, P) c.hooi.rank).2 hv)
      (by rw [hatt.2.1]; exact hPL.symm) with ⟨_, he⟩ | ⟨f, g, he, hf⟩
  · rw [he]; rfl
  · rw [he, except_bind_ok]
    dsimp only
    rw [Mat.dot_error (by rw [hatt.2.1, hf]; exact hPL.symm)]
    rfl

/-- **C28, success.** If all positions are places of the sequence, the last place is taken by some
interaction (some user has `L` interactions) and the rank is valid and does not exceed the numbers of
users, items and places, training succeeds. -/
theorem C28_success [Field K] [LinearOrder K] {τ : Type} (c : TDCfg K) (m : TDAtt K)
    (hL : 1 ≤ c.seqLen) (hm : tdInit c = .ok m)
    (cb : Option (ExitCallback K τ)) (cb0 : τ) (h0 : SeqHist) (data : List (PRow K))
    (hpos : ∀ r ∈ data, 0 ≤ r.pos ∧ r.pos < c.seqLen) (hfull : ∃ r ∈ data, r.pos + 1 = c.seqLen)
    (hv : c.hooi.rank.1 ≤ c.hooi.rank.2.1 * c.hooi.rank.2.2 ∧
      c.hooi.rank.2.1 ≤ c.hooi.rank.1 * c.hooi.rank.2.2 ∧
      c.hooi.rank.2.2 ≤ c.hooi.rank.1 * c.hooi.rank.2.1)
    (users items : List ℤ) (hu : FirstAppearance (data.map fun p => p.row.user) users)
    (hi : FirstAppearance (data.map fun p => p.row.item) items)
    (hr : c.hooi.rank.1 ≤ users.length ∧ c.hooi.rank.2.1 ≤ items.length ∧
      c.hooi.rank.2.2 ≤ c.seqLen)
    (hcb : ∀ f, cb = some f → ∀ t x g, x.HasShape (users.length, items.length, c.seqLen) c.hooi.rank →
      ∃ r, f t x g = .ok r) :
    ∃ s, tdTrain c m cb cb0 h0 data = .ok s := by
  have hne : data ≠ [] := by
    rintro rfl
    obtain ⟨r, hr, _⟩ := hfull
    cases hr
  obtain ⟨rows, mp, users', items', t, P, h1, h2, h3, h4, h5, ht, hsh, hp1, hp2, hlen, hrange⟩ :=
    C28_shape data hne fun r hr => (hpos r hr).1
  have hPL : P = c.seqLen := by
    obtain ⟨r, hr, hrp⟩ := hp1
    have a1 := (hpos r hr).2
    obtain ⟨r', hr', hrp'⟩ := hfull
    have a2 := hp2 r' hr'
    omega
  have hul : users'.length = users.length := by
    apply List.Perm.length_eq
    rw [List.perm_ext_iff_of_nodup h2.nodup hu.nodup]
    intro x
    rw [h2.mem, hu.mem]
  have hil : items'.length = items.length := by
    apply List.Perm.length_eq
    rw [List.perm_ext_iff_of_nodup h4.nodup hi.nodup]
    intro x
    rw [h4.mem, hi.mem]
  rw [hul, hil, hPL] at hsh
  obtain ⟨es, he1, he2⟩ := coo_data_typed (n0 := users.length) (n1 := items.length) (n2 := c.seqLen)
    (t.inds.map Inter.ind) t.vals (by rw [List.length_map, hlen]) (by
      intro x hx
      obtain ⟨y, hy, rfl⟩ := List.mem_map.1 hx
      have := hrange y hy
      rw [hul, hil, hPL] at this
      exact this)
  obtain ⟨q1, q2, q3, q4⟩ := tdInit_cols hL hm
  obtain ⟨att, attInv⟩ := m
  dsimp only at q1 q2 q3 q4
  obtain ⟨A, rfl⟩ := Mat.eq_mk att q1 q2
  obtain ⟨B, rfl⟩ := Mat.eq_mk attInv q3 q4
  obtain ⟨f, g, cbEnd, hga, _, _, hf2, hf2'⟩ := C81_success c.hooi c.normOf es A c.nIter c.growthTol
    cb cb0 c.force hcb hv hr
  unfold tdTrain
  rw [h1, except_bind_ok]
  unfold tdFit
  dsimp only
  rw [ht, except_bind_ok, he1, he2, hsh, hga, except_bind_ok]
  dsimp only
  obtain ⟨W, hW⟩ := Mat.eq_mk f.f2 hf2 hf2'
  rw [hW, Mat.dot_mk, except_bind_ok]
  have hT : (Mat.mk c.seqLen c.seqLen B).T = Mat.mk c.seqLen c.seqLen B.transpose := rfl
  rw [hT, Mat.dot_mk, except_bind_ok]
  have hrow : ∀ (L r : ℕ) (M : Matrix (Fin L) (Fin r) K), 1 ≤ L → ∃ v, (Mat.mk L r M).row (-1) = .ok v := by
    intro L r M hL
    obtain ⟨n, rfl⟩ : ∃ n, L = n + 1 := ⟨L - 1, by omega⟩
    exact ⟨_, row_neg_one M⟩
  obtain ⟨v, hv⟩ := hrow _ _ (B.transpose * W) hL
  rw [hv, except_bind_ok]
  exact ⟨_, rfl⟩

/-- C28 for the cropped tables used by the experiments: positions are places of the sequence, and
the last place is taken exactly if some user has at least `L` interactions. -/
theorem C28_cropped (df : List (Row K)) (L : ℕ) (b : Bool) (hL : 1 ≤ L) (data : List (PRow K))
    (h : getDfWithCroppedPos df L b = .ok data) :
    (∀ r ∈ data, 0 ≤ r.pos ∧ r.pos < L) ∧
    ((∃ r ∈ data, r.pos + 1 = L) ↔ ∃ u, L ≤ (rowsOf u df).length) := by
  have hne : df ≠ [] := by
    rintro rfl
    cases h
  rw [getDfWithCroppedPos_eq df L b hL hne] at h
  have h := Except.ok.inj h
  subst h
  have hlen : ∀ u, (lastN L (if b then tsSort (rowsOf u df) else rowsOf u df)).length =
      min L (rowsOf u df).length := by
    intro u
    rw [lastN_length]
    cases b
    · rfl
    · have : (tsSort (rowsOf u df)).length = (rowsOf u df).length := stableSort_length _ _
      simp [this]
  have hpos : ∀ r ∈ cropSpec L df b, ∃ k : ℕ, r.pos = k ∧ k < min L (rowsOf r.row.user df).length := by
    intro r hr
    have hr' : r ∈ (cropSpec L df b).filter (fun x => decide (x.row.user = r.row.user)) := by
      rw [List.mem_filter]; exact ⟨hr, by simp⟩
    rw [cropSpec_user] at hr'
    have := List.mem_map_of_mem (f := PRow.pos) hr'
    rw [posed_pos, List.mem_map] at this
    obtain ⟨k, hk, hk'⟩ := this
    rw [List.mem_range, hlen] at hk
    exact ⟨k, hk'.symm, hk⟩
  constructor
  · intro r hr
    obtain ⟨k, hk, hk'⟩ := hpos r hr
    omega
  · constructor
    · rintro ⟨r, hr, hrp⟩
      obtain ⟨k, hk, hk'⟩ := hpos r hr
      exact ⟨r.row.user, by omega⟩
    · rintro ⟨u, hu⟩
      have hmem : ((L - 1 : ℕ) : ℤ) ∈ (posed (lastN L (if b then tsSort (rowsOf u df) else
          rowsOf u df))).map PRow.pos := by
        rw [posed_pos, hlen, List.mem_map]
        exact ⟨L - 1, List.mem_range.2 (by omega), rfl⟩
      rw [← cropSpec_user] at hmem
      obtain ⟨r, hr, hrp⟩ := List.mem_map.1 hmem
      exact ⟨r, (List.mem_filter.1 hr).1, by omega⟩

/-! Concrete runs: two users and two items, sequence length 2; a single interaction per user fails. -/
def exDims (r : PyM (TDState ℚ)) : PyM (ℕ × ℕ × ℕ × List (ℤ × ℤ)) :=
  r >>= fun s => pure (s.u.rows, s.v.rows, s.w.rows, s.history)

example : exDims (exTrainOn [] exTrain1) = .ok (2, 2, 2, [(0, 0), (0, 1), (1, 0), (1, 1)]) ∧
    exDims (exTrainOn [] exTrain2) = .ok (2, 3, 2, [(0, 0), (0, 1), (1, 2)]) ∧
    exDims (exTrainOn [] [⟨⟨7, 40, 1, 1, 0⟩, 0⟩, ⟨⟨8, 30, 1, 2, 0⟩, 0⟩]) = .error .valueError := by
  refine ⟨by decide +kernel, by decide +kernel, by decide +kernel⟩

end DynCF
