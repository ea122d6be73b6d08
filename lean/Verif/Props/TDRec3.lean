/-
Property theorems C29 (retraining with previous factors) and C10 (training and updates).
-/
import Verif.Props.TDRec2

set_option linter.unusedSectionVars false

namespace DynCF
variable {K : Type}

/-! ### C29 -/

theorem newIds_firstAppearance {m : Mapping ℤ} {ids : List ℤ} (h : Represents m ids) (col : List ℤ) :
    FirstAppearance (col.filter fun x => decide (x ∉ ids)) (newIds m col) := by
  have hP : ∀ x, (m.old2new.get? x).isNone = decide (x ∉ ids) := by
    intro x
    rw [Bool.eq_iff_iff, Option.isNone_iff_eq_none, represents_none h, decide_eq_true_eq]
  have he : newIds m col = (pdUnique col).filter fun x => decide (x ∉ ids) := by
    unfold newIds
    congr 1
    funext x
    exact hP x
  have hfa := firstAppearance_pdUnique col
  rw [he]
  refine ⟨hfa.nodup.filter _, ?_, ?_⟩
  · intro x
    rw [List.mem_filter, List.mem_filter, hfa.mem]
  · have hmem : ((pdUnique col).filter fun x => decide (x ∉ ids)).Pairwise fun x y =>
        (x ∈ (pdUnique col).filter fun x => decide (x ∉ ids)) ∧
        y ∈ (pdUnique col).filter fun x => decide (x ∉ ids) := by
      rw [List.pairwise_iff_forall_sublist]
      intro a b hab
      exact ⟨hab.subset (by simp), hab.subset (by simp)⟩
    refine (List.pairwise_and_iff.2 ⟨hfa.order.filter _, hmem⟩).imp ?_
    rintro x y ⟨hxy, hx, hy⟩
    have hx' : decide (x ∉ ids) = true := (List.mem_filter.1 hx).2
    have hy' : decide (y ∉ ids) = true := (List.mem_filter.1 hy).2
    have hxc : x ∈ col := (hfa.mem x).1 (List.mem_filter.1 hx).1
    clear hmem hx hy hfa he
    -- the order of first occurrences is kept by filtering
    induction col with
    | nil => cases hxc
    | cons a l ih =>
      by_cases hax : a = x
      · subst hax
        have hya : a ≠ y := by
          rintro rfl
          omega
        rw [List.filter_cons, if_pos hx', List.idxOf_cons_self, List.idxOf_cons_ne _ hya]
        omega
      · have hay : a ≠ y := by
          rintro rfl
          rw [List.idxOf_cons_self] at hxy
          omega
        rw [List.idxOf_cons_ne _ hax, List.idxOf_cons_ne _ hay] at hxy
        have := ih (by omega) (by
          rcases List.mem_cons.1 hxc with h | h
          · exact absurd h.symm hax
          · exact h)
        rw [List.filter_cons]
        split
        · rw [List.idxOf_cons_ne _ hax, List.idxOf_cons_ne _ hay]
          omega
        · exact this

/-- **C29, ids.** Registering the new ids of a later table keeps the index of every known id and
gives the unknown ids of the table the next indices in order of first appearance; afterwards every
row of the table can be mapped. -/
theorem C29_ids_stable (m : Mappings) (users items : List ℤ) (hu : Represents m.user users)
    (hi : Represents m.item items) (data : List (Row K)) :
    ∃ nu ni, FirstAppearance ((data.map Row.user).filter fun x => decide (x ∉ users)) nu ∧
      FirstAppearance ((data.map Row.item).filter fun x => decide (x ∉ items)) ni ∧
      Represents (registerNew m data).user (users ++ nu) ∧
      Represents (registerNew m data).item (items ++ ni) ∧
      ∃ rows, mapDfColumns data (registerNew m data) = .ok rows := by
  have h1 := newIds_firstAppearance hu (data.map Row.user)
  have h2 := newIds_firstAppearance hi (data.map Row.item)
  have key : ∀ (ids : List ℤ) (mp : Mapping ℤ) (col : List ℤ), Represents mp ids →
      Represents (updateContMappingStruct mp (newIds mp col)) (ids ++ newIds mp col) := by
    intro ids mp col h
    have hfa := newIds_firstAppearance h col
    apply represents_update h
    rw [List.nodup_append]
    refine ⟨h.nodup, hfa.nodup, ?_⟩
    rintro x hx y hy rfl
    have := (List.mem_filter.1 ((hfa.mem x).1 hy)).2
    exact (of_decide_eq_true this) hx
  have g1 := key users m.user (data.map Row.user) hu
  have g2 := key items m.item (data.map Row.item) hi
  refine ⟨_, _, h1, h2, g1, g2, ?_⟩
  apply mapDfColumns_exists
  · intro r hr
    refine (represents_mem g1 _).2 ?_
    rw [List.mem_append]
    by_cases hx : r.user ∈ users
    · exact Or.inl hx
    · right
      rw [h1.mem, List.mem_filter]
      exact ⟨List.mem_map_of_mem (f := Row.user) hr, by simpa using hx⟩
  · intro r hr
    refine (represents_mem g2 _).2 ?_
    rw [List.mem_append]
    by_cases hx : r.item ∈ items
    · exact Or.inl hx
    · right
      rw [h2.mem, List.mem_filter]
      exact ⟨List.mem_map_of_mem (f := Row.item) hr, by simpa using hx⟩

theorem col_max {users : List ℤ} (hn : users.Nodup) {l : List ℤ} {l' : List ℤ}
    (h : List.Forall₂ (fun x x' => ∃ k : ℕ, x' = (k : ℤ) ∧ users[k]? = some x) l l')
    (hlast : ∃ x ∈ l, users.getLast? = some x) (l'' : List ℤ) (hp : ∀ x, x ∈ l'' ↔ x ∈ l') :
    maxPlusOne l'' = .ok users.length := by
  apply maxPlusOne_eq
  · obtain ⟨x, hx, hl⟩ := hlast
    obtain ⟨x', hx', k, hk, hku⟩ := forall₂_mem_left h hx
    rw [List.getLast?_eq_getElem?] at hl
    have h1 := getElem?_inj_nodup hn hku hl
    have h2 := (List.getElem?_eq_some_iff.1 hl).1
    rw [hp]
    have : x' = (users.length : ℤ) - 1 := by omega
    rw [← this]
    exact hx'
  · intro y hy
    rw [hp] at hy
    obtain ⟨x, _, k, hk, hku⟩ := forall₂_mem_right h hy
    have := (List.getElem?_eq_some_iff.1 hku).1
    omega

/-- the shape when the highest indices occur -/
theorem indsShape_mapped_last {users items : List ℤ} {data data' : List (PRow K)}
    (hm : MappedTo users items data data') (hu : users.Nodup) (hi : items.Nodup)
    (hul : ∃ r ∈ data, users.getLast? = some r.row.user)
    (hil : ∃ r ∈ data, items.getLast? = some r.row.item) (P : ℕ)
    (hp1 : ∃ r ∈ data, r.pos + 1 = P) (hp2 : ∀ r ∈ data, r.pos < P) :
    indsShape (sortedInds data') = .ok (users.length, items.length, P) := by
  have hmem : ∀ (f : Inter → ℤ) (x : ℤ), x ∈ (sortedInds data').map f ↔
      x ∈ data'.map fun r => f r.inter := by
    intro f x
    rw [sortedInds_eq, List.mem_map, List.mem_map]
    constructor
    · rintro ⟨y, hy, rfl⟩
      rw [mem_stableSort, List.mem_map] at hy
      obtain ⟨r, hr, rfl⟩ := hy
      exact ⟨r, hr, rfl⟩
    · rintro ⟨r, hr, rfl⟩
      exact ⟨r.inter, (mem_stableSort _ _ _).2 (List.mem_map_of_mem hr), rfl⟩
  have e1 : maxPlusOne ((sortedInds data').map Inter.user) = .ok users.length := by
    refine col_max hu (l := data.map fun r => r.row.user) (l' := data'.map fun r => r.row.user) ?_ ?_ _
      (hmem Inter.user)
    · rw [List.forall₂_map_left_iff, List.forall₂_map_right_iff]
      exact hm.imp fun a b h => h.2.2.1
    · obtain ⟨r, hr, h⟩ := hul
      exact ⟨_, List.mem_map_of_mem (f := fun r : PRow K => r.row.user) hr, h⟩
  have e2 : maxPlusOne ((sortedInds data').map Inter.item) = .ok items.length := by
    refine col_max hi (l := data.map fun r => r.row.item) (l' := data'.map fun r => r.row.item) ?_ ?_ _
      (hmem Inter.item)
    · rw [List.forall₂_map_left_iff, List.forall₂_map_right_iff]
      exact hm.imp fun a b h => h.2.2.2
    · obtain ⟨r, hr, h⟩ := hil
      exact ⟨_, List.mem_map_of_mem (f := fun r : PRow K => r.row.item) hr, h⟩
  have e3 : maxPlusOne ((sortedInds data').map Inter.pos) = .ok P := by
    apply maxPlusOne_eq
    · rw [hmem]
      obtain ⟨r, hr, hrp⟩ := hp1
      obtain ⟨r', hr', hpos, _⟩ := forall₂_mem_left hm hr
      refine List.mem_map.2 ⟨r', hr', ?_⟩
      show r'.pos = _
      omega
    · intro y hy
      rw [hmem] at hy
      obtain ⟨r', hr', rfl⟩ := List.mem_map.1 hy
      obtain ⟨r, hr, hpos, _⟩ := forall₂_mem_right hm hr'
      have := hp2 r hr
      show r'.pos < _
      omega
  unfold indsShape
  rw [e1, except_bind_ok, e2, except_bind_ok, e3, except_bind_ok]
  rfl

/-- `ga_satf` with initial factors that can be placed succeeds under the conditions of C81. -/
theorem gaSatf_success_init [Field K] [LinearOrder K] {τ : Type} (p : HooiPar K)
    (normOf : Ten K → K) {n0 n1 n2 : ℕ} (es : List (Ent n0 n1 n2 K))
    (A : Matrix (Fin n2) (Fin n2) K) (nIter : ℕ) (tol : K)
    (cb : Option (ExitCallback K τ)) (cb0 : τ) (force : Bool)
    (hcb : ∀ c, cb = some c → ∀ t f g, ∃ r, c t f g = .ok r)
    (hv : p.rank.1 ≤ p.rank.2.1 * p.rank.2.2 ∧ p.rank.2.1 ≤ p.rank.1 * p.rank.2.2 ∧
      p.rank.2.2 ≤ p.rank.1 * p.rank.2.1)
    (hr : p.rank.1 ≤ n0 ∧ p.rank.2.1 ≤ n1 ∧ p.rank.2.2 ≤ n2) (init : Option (Fac K)) (f0 : Fac K)
    (hinit : placeInit (initFactors p.la p.initRng (n0, n1, n2) p.rank true) init = .ok f0)
    (hf0 : f0.HasShape (n0, n1, n2) p.rank) :
    ∃ f g t, gaSatf p normOf (indsOf es) (valsOf es) (n0, n1, n2) ⟨n2, n2, A⟩ nIter tol cb cb0 init
        force = .ok ((f, g), t) ∧ f.HasShape (n0, n1, n2) p.rank := by
  unfold gaSatf
  rw [(checkParams_ok_iff (n0, n1, n2) p.rank).2 hv, except_bind_ok, hinit, except_bind_ok]
  obtain ⟨⟨f, g⟩, ⟨x, t⟩, h, hf⟩ := hooiLoop_success
    (onState (gaSatfSweep p (indsOf es) (valsOf es) (n0, n1, n2) ⟨n2, n2, A⟩))
    (stopOn (gaSatfStop normOf tol force cb))
    (fun s => s.1.HasShape (n0, n1, n2) p.rank) (fun s => ∃ g, s.2 = some g)
    (by
      intro i s hs
      obtain ⟨f', g, h1, h2⟩ := gaSatfSweep_success p es A i s.1 hv hr hs
      refine ⟨(f', some g), ?_, h2, g, rfl⟩
      unfold onState
      rw [h1, except_bind_ok]
      rfl)
    (by
      rintro ⟨f, g⟩ t ⟨g', rfl⟩
      show ∃ r, gaSatfStop normOf tol force cb (f, g') t = _
      unfold gaSatfStop
      split
      · exact ⟨_, rfl⟩
      · cases cb with
        | none => exact ⟨_, rfl⟩
        | some c =>
          obtain ⟨r, hr⟩ := hcb c rfl t.2 f g'
          dsimp only
          rw [hr, except_bind_ok]
          exact ⟨_, rfl⟩)
    nIter 0 (f0, none) (0, cb0) hf0
  rw [h, except_bind_ok]
  exact ⟨f, g, t, rfl, hf⟩

/-- placing rows: the previous rows come first, the others stay random -/
theorem placeRows_spec {F I : Mat K} (hc : I.cols = F.cols) (hr : I.rows ≤ F.rows) :
    ∃ M : Matrix (Fin F.rows) (Fin F.cols) K, placeRows F I = .ok ⟨F.rows, F.cols, M⟩ ∧
      (∀ (i : Fin I.rows) (j : Fin I.cols), M (Fin.castLE hr i) (Fin.cast hc j) = I.val i j) ∧
      ∀ (i : Fin F.rows) (j : Fin F.cols), I.rows ≤ (i : ℕ) → M i j = F.val i j := by
  refine ⟨Matrix.of fun i j =>
        if hi : (i : ℕ) < I.rows then I.val ⟨i, hi⟩ (Fin.cast hc.symm j) else F.val i j, ?_, ?_, ?_⟩
  · unfold placeRows
    rw [dif_pos hc, if_pos hr]
  · intro i j
    rw [Matrix.of_apply, dif_pos (by simp)]
    rfl
  · intro i j h
    rw [Matrix.of_apply, dif_neg (by omega)]

/-- Retraining under the conditions of `C29_retrain_partial`: also the shapes of the factors. -/
theorem retrain_success [Field K] [LinearOrder K] (c : TDCfg K) (m : TDAtt K)
    (hL : 1 ≤ c.seqLen) (hm : tdInit c = .ok m) (h0 : SeqHist) (data : List (PRow K))
    (init : Fac K) (mp : Mappings) (users items : List ℤ)
    (hu : Represents mp.user users) (hi : Represents mp.item items)
    (hinit : init.HasShape (users.length, items.length, c.seqLen) c.hooi.rank)
    (hlu : ∃ r ∈ data, r.row.user ∉ users ∨ users.getLast? = some r.row.user)
    (hli : ∃ r ∈ data, r.row.item ∉ items ∨ items.getLast? = some r.row.item)
    (hpos : ∀ r ∈ data, 0 ≤ r.pos ∧ r.pos < c.seqLen) (hfull : ∃ r ∈ data, r.pos + 1 = c.seqLen)
    (hv : c.hooi.rank.1 ≤ c.hooi.rank.2.1 * c.hooi.rank.2.2 ∧
      c.hooi.rank.2.1 ≤ c.hooi.rank.1 * c.hooi.rank.2.2 ∧
      c.hooi.rank.2.2 ≤ c.hooi.rank.1 * c.hooi.rank.2.1)
    (hr : c.hooi.rank.1 ≤ users.length ∧ c.hooi.rank.2.1 ≤ items.length ∧
      c.hooi.rank.2.2 ≤ c.seqLen) :
    ∃ s nu ni, tdReTrain c m h0 data (some init) (some mp) = .ok s ∧
      FirstAppearance ((data.map fun p => p.row.user).filter fun x => decide (x ∉ users)) nu ∧
      FirstAppearance ((data.map fun p => p.row.item).filter fun x => decide (x ∉ items)) ni ∧
      Represents s.maps.user (users ++ nu) ∧ Represents s.maps.item (items ++ ni) ∧
      (⟨s.u, s.v, s.w⟩ : Fac K).HasShape ((users ++ nu).length, (items ++ ni).length, c.seqLen) c.hooi.rank := by
  obtain ⟨nu, ni, hnu, hni, gu, gi, rows, hrows⟩ := C29_ids_stable mp users items hu hi
    (data.map PRow.row)
  have hmap := retrain_mapped data _ (users ++ nu) (items ++ ni) gu gi rows hrows
  have hlast : ∀ (ids new : List ℤ) (f : PRow K → ℤ),
      FirstAppearance (((data.map PRow.row).map fun r => f ⟨r, 0⟩).filter fun x => decide (x ∉ ids)) new →
      (∀ r : PRow K, f r = f ⟨r.row, 0⟩) →
      (∃ r ∈ data, f r ∉ ids ∨ ids.getLast? = some (f r)) →
      ∃ r ∈ data, (ids ++ new).getLast? = some (f r) := by
    intro ids new f hfa hf ⟨r, hr, h⟩
    by_cases hn : new = []
    · subst hn
      rcases h with h | h
      · exfalso
        have : f r ∈ ([] : List ℤ) := by
          rw [hfa.mem, List.mem_filter]
          refine ⟨?_, by simpa using h⟩
          rw [hf r]
          exact List.mem_map_of_mem (f := fun x : Row K => f ⟨x, 0⟩)
            (List.mem_map_of_mem (f := PRow.row) hr)
        cases this
      · exact ⟨r, hr, by rw [List.append_nil]; exact h⟩
    · have hl : (ids ++ new).getLast? = some (new.getLast hn) := by
        rw [List.getLast?_append, List.getLast?_eq_some_getLast hn]
        rfl
      have := (hfa.mem _).1 (List.getLast_mem hn)
      obtain ⟨x, hx, hx'⟩ := List.mem_map.1 (List.mem_filter.1 this).1
      obtain ⟨r', hr', rfl⟩ := List.mem_map.1 hx
      exact ⟨r', hr', by rw [hl, ← hx', hf r']⟩
  have hlu' := hlast users nu (fun r => r.row.user) hnu (fun _ => rfl) hlu
  have hli' := hlast items ni (fun r => r.row.item) hni (fun _ => rfl) hli
  have hs := indsShape_mapped_last hmap gu.nodup gi.nodup hlu' hli' c.seqLen hfull
    fun r hr => (hpos r hr).2
  obtain ⟨es, he1, he2⟩ := coo_data_typed (n0 := (users ++ nu).length) (n1 := (items ++ ni).length)
    (n2 := c.seqLen) ((sortedInds (withPos rows data)).map Inter.ind)
    ((withPos rows data).map fun p => p.row.rel)
    (by rw [List.length_map, List.length_map, sortedInds_eq, stableSort_length, List.length_map]) (by
      intro x hx
      obtain ⟨y, hy, rfl⟩ := List.mem_map.1 hx
      rw [sortedInds_eq, mem_stableSort, List.mem_map] at hy
      obtain ⟨r', hr', rfl⟩ := hy
      obtain ⟨r, hr, hrp, _, ⟨k, hk, hku⟩, ⟨j, hj, hji⟩⟩ := forall₂_mem_right hmap hr'
      have q1 := (List.getElem?_eq_some_iff.1 hku).1
      have q2 := (List.getElem?_eq_some_iff.1 hji).1
      have q3 := hpos r hr
      refine ⟨⟨?_, ?_⟩, ⟨?_, ?_⟩, ?_, ?_⟩
      · show 0 ≤ r'.row.user; omega
      · show r'.row.user < _; omega
      · show 0 ≤ r'.row.item; omega
      · show r'.row.item < _; omega
      · show 0 ≤ r'.pos; omega
      · show r'.pos < _; omega)
  obtain ⟨q1, q2, q3, q4⟩ := tdInit_cols hL hm
  obtain ⟨att, attInv⟩ := m
  dsimp only at q1 q2 q3 q4
  obtain ⟨A, rfl⟩ := Mat.eq_mk att q1 q2
  obtain ⟨B, rfl⟩ := Mat.eq_mk attInv q3 q4
  have hr' : c.hooi.rank.1 ≤ (users ++ nu).length ∧ c.hooi.rank.2.1 ≤ (items ++ ni).length ∧
      c.hooi.rank.2.2 ≤ c.seqLen := by
    rw [List.length_append, List.length_append]
    omega
  -- placing the previous factors
  have hplace : ∃ f0, placeInit (initFactors c.hooi.la c.hooi.initRng
      ((users ++ nu).length, (items ++ ni).length, c.seqLen) c.hooi.rank true) (some init) = .ok f0 ∧
      f0.HasShape ((users ++ nu).length, (items ++ ni).length, c.seqLen) c.hooi.rank := by
    obtain ⟨⟨i1, i2⟩, ⟨i3, i4⟩, i5, i6⟩ := hinit
    dsimp only at i1 i2 i3 i4 i5 i6
    obtain ⟨M0, p0, _⟩ := placeRows_spec (F := initFactor c.hooi.la (c.hooi.initRng 0)
        (users ++ nu).length c.hooi.rank.1 true) (I := init.f0)
      (by rw [i2]; show c.hooi.rank.1 = min (users ++ nu).length c.hooi.rank.1; omega)
      (by rw [i1]; show users.length ≤ (users ++ nu).length; rw [List.length_append]; omega)
    obtain ⟨M1, p1, _⟩ := placeRows_spec (F := initFactor c.hooi.la (c.hooi.initRng 1)
        (items ++ ni).length c.hooi.rank.2.1 true) (I := init.f1)
      (by rw [i4]; show c.hooi.rank.2.1 = min (items ++ ni).length c.hooi.rank.2.1; omega)
      (by rw [i3]; show items.length ≤ (items ++ ni).length; rw [List.length_append]; omega)
    obtain ⟨M2, p2, _⟩ := placeRows_spec (F := initFactor c.hooi.la (c.hooi.initRng 2)
        c.seqLen c.hooi.rank.2.2 true) (I := init.f2)
      (by rw [i6]; show c.hooi.rank.2.2 = min c.seqLen c.hooi.rank.2.2; omega)
      (by rw [i5]; exact le_refl c.seqLen)
    refine ⟨⟨⟨_, _, M0⟩, ⟨_, _, M1⟩, ⟨_, _, M2⟩⟩, ?_, ?_⟩
    · unfold placeInit initFactors
      dsimp only
      rw [p0, except_bind_ok, p1, except_bind_ok, p2, except_bind_ok]
      rfl
    · refine ⟨⟨rfl, ?_⟩, ⟨rfl, ?_⟩, rfl, ?_⟩
      · show min (users ++ nu).length c.hooi.rank.1 = c.hooi.rank.1; omega
      · show min (items ++ ni).length c.hooi.rank.2.1 = c.hooi.rank.2.1; omega
      · show min c.seqLen c.hooi.rank.2.2 = c.hooi.rank.2.2; omega
  obtain ⟨f0, hpl, hf0⟩ := hplace
  obtain ⟨f, g, t, hga, hf⟩ := gaSatf_success_init c.hooi c.normOf es A c.nIter c.growthTol
    (none : Option (ExitCallback K Unit)) () c.force (by intro f h; cases h) hv hr' (some init) f0 hpl hf0
  obtain ⟨⟨k1, k2⟩, ⟨k3, k4⟩, k5, k6⟩ := hf
  obtain ⟨W, hW⟩ := Mat.eq_mk f.f2 k5 k6
  have hrow : ∀ (L r : ℕ) (M : Matrix (Fin L) (Fin r) K), 1 ≤ L → ∃ v, (Mat.mk L r M).row (-1) = .ok v := by
    intro L r M hL
    obtain ⟨n, rfl⟩ : ∃ n, L = n + 1 := ⟨L - 1, by omega⟩
    exact ⟨_, row_neg_one M⟩
  obtain ⟨v, hv⟩ := hrow _ _ (B.transpose * W) hL
  have hfit : ∃ s, tdReTrain c ⟨⟨c.seqLen, c.seqLen, A⟩, ⟨c.seqLen, c.seqLen, B⟩⟩ h0 data (some init)
      (some mp) = .ok s ∧ s.maps = registerNew mp (data.map PRow.row) ∧ s.u = f.f0 ∧ s.v = f.f1 ∧
      s.w = f.f2 := by
    unfold tdReTrain
    dsimp only
    rw [hrows, except_bind_ok]
    unfold tdFit trainTensor
    dsimp only
    rw [hs, except_bind_ok]
    dsimp only [pure, Except.pure]
    rw [except_bind_ok]
    dsimp only
    rw [he1, he2, hga, except_bind_ok]
    dsimp only
    rw [hW, Mat.dot_mk, except_bind_ok]
    have hT : (Mat.mk c.seqLen c.seqLen B).T = Mat.mk c.seqLen c.seqLen B.transpose := rfl
    rw [hT, Mat.dot_mk, except_bind_ok, hv, except_bind_ok]
    exact ⟨_, rfl, rfl, rfl, rfl, rfl⟩
  obtain ⟨s, hs1, hs2, hs3, hs4, hs5⟩ := hfit
  refine ⟨s, nu, ni, hs1, by simpa [Function.comp_def] using hnu, by simpa [Function.comp_def] using hni,
    by rw [hs2]; exact gu, by rw [hs2]; exact gi, ?_⟩
  rw [hs3, hs4, hs5]
  exact ⟨⟨k1, k2⟩, ⟨k3, k4⟩, k5, k6⟩

/-- **C29 (partial).** Retraining from a previous model (factors of the right shape and the mappings
they belong to) succeeds on every later table in which some row has a new user or the last known
one, some row has a new item or the last known one, some row takes the last place of the sequence
(and no position exceeds it), for a valid rank within the dimensions. The result has
one embedding per known or new id and the mappings extended as in `C29_ids_stable`.
Missing: tables from which the id with the highest index was cropped out (`C29_violated`). -/
theorem C29_retrain_partial [Field K] [LinearOrder K] (c : TDCfg K) (m : TDAtt K)
    (hL : 1 ≤ c.seqLen) (hm : tdInit c = .ok m) (h0 : SeqHist) (data : List (PRow K))
    (init : Fac K) (mp : Mappings) (users items : List ℤ)
    (hu : Represents mp.user users) (hi : Represents mp.item items)
    (hinit : init.HasShape (users.length, items.length, c.seqLen) c.hooi.rank)
    (hlu : ∃ r ∈ data, r.row.user ∉ users ∨ users.getLast? = some r.row.user)
    (hli : ∃ r ∈ data, r.row.item ∉ items ∨ items.getLast? = some r.row.item)
    (hpos : ∀ r ∈ data, 0 ≤ r.pos ∧ r.pos < c.seqLen) (hfull : ∃ r ∈ data, r.pos + 1 = c.seqLen)
    (hv : c.hooi.rank.1 ≤ c.hooi.rank.2.1 * c.hooi.rank.2.2 ∧
      c.hooi.rank.2.1 ≤ c.hooi.rank.1 * c.hooi.rank.2.2 ∧
      c.hooi.rank.2.2 ≤ c.hooi.rank.1 * c.hooi.rank.2.1)
    (hr : c.hooi.rank.1 ≤ users.length ∧ c.hooi.rank.2.1 ≤ items.length ∧
      c.hooi.rank.2.2 ≤ c.seqLen) :
    ∃ s nu ni, tdReTrain c m h0 data (some init) (some mp) = .ok s ∧
      Represents s.maps.user (users ++ nu) ∧ Represents s.maps.item (items ++ ni) ∧
      s.u.rows = (users ++ nu).length ∧ s.v.rows = (items ++ ni).length ∧ s.w.rows = c.seqLen := by
  obtain ⟨s, nu, ni, h1, -, -, h2, h3, ⟨h4, -⟩, ⟨h5, -⟩, h6, -⟩ :=
    retrain_success c m hL hm h0 data init mp users items hu hi hinit hlu hli hpos hfull hv hr
  exact ⟨s, nu, ni, h1, h2, h3, h4, h5, h6⟩

/-- a user with items 40 and 30, and two more interactions of that user with item 40 -/
def exDrop0 : List (Row ℚ) := [⟨7, 40, 1, 1, 0⟩, ⟨7, 30, 1, 2, 0⟩]
def exDrop1 : List (Row ℚ) := exDrop0 ++ [⟨7, 40, 1, 3, 0⟩, ⟨7, 40, 1, 4, 0⟩]

/-- first training with cropping, then retraining on the later cropped table with the first model's
factors and mappings -/
def exRetrain (df0 df1 : List (Row ℚ)) : PyM (TDState ℚ × PyM (TDState ℚ)) := do
  let d0 ← getDfWithCroppedPos df0 2 true
  let s ← exTrainOn [] d0
  let d1 ← getDfWithCroppedPos df1 2 true
  pure (s, tdReTrain exTDCfg0 exTDAtt0 s.seqHist d1 (some ⟨s.u, s.v, s.w⟩) (some s.maps))

/-- the dimensions and histories after the first and after the second step -/
def exRetrainDims (df0 df1 : List (Row ℚ)) (second : Bool) : PyM (ℕ × ℕ × ℕ × List (ℤ × ℤ)) := do
  let r ← exRetrain df0 df1
  exDims (if second then r.2 else pure r.1)

/-- **C29 is violated**: item 30 has the highest index and is not among the last two interactions any
more; the initial item factor (2 rows) does not fit the new tensor (1 item) and retraining raises
`ValueError`. -/
theorem C29_violated :
    exRetrainDims exDrop0 exDrop1 false = .ok (1, 2, 2, [(0, 0), (0, 1)]) ∧
    exRetrainDims exDrop0 exDrop1 true = .error .valueError := by
  constructor <;> decide +kernel

/-- With a new item retraining succeeds: the mapping grows to three items. -/
example : exRetrainDims exDrop0 (exDrop0 ++ [⟨7, 50, 1, 3, 0⟩]) true =
    .ok (1, 3, 2, [(0, 1), (0, 2)]) := by decide +kernel

end DynCF
