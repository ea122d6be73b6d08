/-
The prepared data files and the order in which the experiments see them (C104, C105).
-/
import Verif.Model.PrepareFiles
import Verif.Props.LoadData
import Verif.Props.ExperimentData

namespace DynCF
variable {K : Type}

/-! ### Rounding -/

theorem roundHalfEven_near [Field K] [LinearOrder K] [IsStrictOrderedRing K] [FloorRing K] (x : K) :
    ((roundHalfEven x : ℤ) : K) ≤ x + 1 / 2 ∧ x - 1 / 2 ≤ roundHalfEven x := by
  have h1 := Int.floor_le x
  have h2 := Int.lt_floor_add_one x
  unfold roundHalfEven
  split_ifs with h h'
  · constructor <;> linarith
  · constructor <;> linarith [h'.1]
  · push Not at h
    push_cast
    constructor <;> linarith

theorem roundHalfEven_mono [Field K] [LinearOrder K] [IsStrictOrderedRing K] [FloorRing K] {x y : K}
    (hxy : x ≤ y) : roundHalfEven x ≤ roundHalfEven y := by
  have hf : ⌊x⌋ ≤ ⌊y⌋ := Int.floor_mono hxy
  rcases eq_or_lt_of_le hf with he | hlt
  · unfold roundHalfEven
    rw [he]
    by_cases hx : x - ⌊y⌋ < 1 / 2
    · rw [if_pos hx]
      split_ifs <;> omega
    · have hy : ¬ y - ⌊y⌋ < 1 / 2 := by
        push Not at hx ⊢
        linarith
      rw [if_neg hx, if_neg hy]
      by_cases hy2 : y - ⌊y⌋ = 1 / 2 ∧ ⌊y⌋ % 2 = 0
      · rw [if_pos hy2, if_pos ⟨by push Not at hx; linarith [hy2.1], hy2.2⟩]
      · rw [if_neg hy2]
        split_ifs <;> omega
  · have h1 : roundHalfEven x ≤ ⌊x⌋ + 1 := by unfold roundHalfEven; split_ifs <;> omega
    have h2 : ⌊y⌋ ≤ roundHalfEven y := by unfold roundHalfEven; split_ifs <;> omega
    omega

theorem dayOf_mono {a b : ℤ} (h : a ≤ b) : dayOf a ≤ dayOf b := by
  apply roundHalfEven_mono
  have : (a : ℚ) ≤ b := by exact_mod_cast h
  linarith

theorem dayOf_near (ts : ℤ) : |dayOf ts * 86400 - ts| ≤ 43200 := by
  obtain ⟨h1, h2⟩ := roundHalfEven_near ((ts : ℚ) / 86400)
  have e : ((dayOf ts : ℤ) : ℚ) = (roundHalfEven ((ts : ℚ) / 86400) : ℤ) := rfl
  rw [← e] at h1 h2
  have a1 : (dayOf ts : ℚ) * 86400 ≤ ts + 43200 := by linarith
  have a2 : (ts : ℚ) - 43200 ≤ dayOf ts * 86400 := by linarith
  have b1 : dayOf ts * 86400 ≤ ts + 43200 := by exact_mod_cast a1
  have b2 : ts - 43200 ≤ dayOf ts * 86400 := by exact_mod_cast a2
  rw [abs_le]
  constructor <;> linarith

/-! ### The contract of the sort -/

/-- Sorting by time stamp: the same rows, time stamps not decreasing. -/
def IsTsSort {U : Type} (sortTs : List (RawRow U) → List (RawRow U)) : Prop :=
  ∀ l, (sortTs l).Perm l ∧ (sortTs l).Pairwise fun a b => a.ts ≤ b.ts

/-- What the experiments rely on in a prepared file: the index counts the rows, the rows are in order of
time, every relevance is one, and the day of a row is a midnight at most half a day away, the same for rows
of the same time and never earlier for a later row. -/
structure Chronological [One K] (data : List (IRow K)) : Prop where
  indexed : ∀ (i : ℕ) (r : IRow K), data[i]? = some r → r.idx = i
  byTime : data.Pairwise fun a b => a.row.ts ≤ b.row.ts
  relevance : ∀ r ∈ data, r.row.rel = 1
  midnight : ∀ r ∈ data, |r.row.day * 86400 - r.row.ts| ≤ 43200
  dayMono : ∀ r ∈ data, ∀ s ∈ data, r.row.ts ≤ s.row.ts → r.row.day ≤ s.row.day

theorem mem_preparedRows [One K] {rows : List (RawRow ℤ)} {x : IRow K} (h : x ∈ preparedRows rows) :
    ∃ r ∈ rows, x.row = ⟨r.user, r.item, 1, r.ts, dayOf r.ts⟩ := by
  unfold preparedRows at h
  obtain ⟨i, hi, rfl⟩ := List.mem_mapIdx.1 h
  exact ⟨rows[i], List.getElem_mem hi, rfl⟩

theorem preparedRows_chronological [One K] {rows : List (RawRow ℤ)} (h : rows.Pairwise fun a b => a.ts ≤ b.ts) :
    Chronological (preparedRows (K := K) rows) := by
  constructor
  · intro i r hr
    unfold preparedRows at hr
    rw [List.getElem?_mapIdx] at hr
    obtain ⟨x, -, rfl⟩ := Option.map_eq_some_iff.1 hr
    rfl
  · rw [List.pairwise_iff_getElem]
    intro i j hi hj hij
    have hl : (preparedRows (K := K) rows).length = rows.length := by simp [preparedRows]
    have := List.pairwise_iff_getElem.1 h i j (by omega) (by omega) hij
    simpa [preparedRows] using this
  · intro r hr
    obtain ⟨x, -, e⟩ := mem_preparedRows hr
    rw [e]
  · intro r hr
    obtain ⟨x, -, e⟩ := mem_preparedRows hr
    rw [e]
    exact dayOf_near x.ts
  · intro r hr s hs hrs
    obtain ⟨x, -, e⟩ := mem_preparedRows hr
    obtain ⟨y, -, e'⟩ := mem_preparedRows hs
    rw [e, e'] at hrs ⊢
    exact dayOf_mono hrs

/-! ### C104 -/

/-- **C104**, MovieLens. The prepared file holds the last fifth of the ratings (rounded down): the ratings
split into those left out and those kept, no rating left out is later than one kept, and the kept ones are
written in order of time with their own users and items. -/
theorem C104_ml20m [One K] (sortTs : List (RawRow ℤ) → List (RawRow ℤ)) (hs : IsTsSort sortTs)
    (data : List (RawRow ℤ)) :
    Chronological (prepareMl20m (K := K) sortTs data) ∧
    ∃ dropped kept : List (RawRow ℤ), (dropped ++ kept).Perm data ∧ kept.length = data.length / 5 ∧
      (∀ a ∈ dropped, ∀ b ∈ kept, a.ts ≤ b.ts) ∧
      (prepareMl20m (K := K) sortTs data).map (fun r => (⟨r.row.user, r.row.item, r.row.ts⟩ : RawRow ℤ)) =
        kept := by
  obtain ⟨hp, ho⟩ := hs data
  have hn : (pyInt (((sortTs data).length : ℚ) * (1 / 5))).toNat = data.length / 5 := by
    rw [hp.length_eq]
    unfold pyInt
    rw [if_pos (by positivity)]
    have : ⌊((data.length : ℕ) : ℚ) * (1 / 5)⌋ = ((data.length / 5 : ℕ) : ℤ) := by
      rw [Int.floor_eq_iff]
      have h1 : data.length / 5 * 5 ≤ data.length := Nat.div_mul_le_self _ _
      have h2 : data.length < data.length / 5 * 5 + 5 := by omega
      have h1' : ((data.length / 5 : ℕ) : ℚ) * 5 ≤ data.length := by exact_mod_cast h1
      have h2' : (data.length : ℚ) < ((data.length / 5 : ℕ) : ℚ) * 5 + 5 := by exact_mod_cast h2
      rw [Int.cast_natCast]
      constructor <;> linarith
    rw [this, Int.toNat_natCast]
  have hl : (sortTs data).length = data.length := hp.length_eq
  have hrun : prepareMl20m (K := K) sortTs data =
      preparedRows ((sortTs data).drop (data.length - data.length / 5)) := by
    unfold prepareMl20m
    simp only [hn]
    rw [hl]
  rw [hrun]
  have hsplit := List.take_append_drop (data.length - data.length / 5) (sortTs data)
  have ho' := ho
  rw [← hsplit, List.pairwise_append] at ho'
  refine ⟨preparedRows_chronological ho'.2.1, _, _, by rw [hsplit]; exact hp, ?_, ho'.2.2, ?_⟩
  · rw [List.length_drop, hl]
    omega
  · apply List.ext_getElem
    · simp [preparedRows]
    · intro i h1 h2
      simp [preparedRows]

theorem encodeRaw_get {V : Type} [LinearOrder V] (rows : List (RawRow (Option V))) (i : ℕ)
    (r : RawRow (Option V)) (h : rows[i]? = some r) :
    ∃ u v, (categoricalCodes (rows.map RawRow.user))[i]? = some u ∧
      (categoricalCodes (rows.map RawRow.item))[i]? = some v ∧
      (encodeRaw rows)[i]? = some ⟨u, v, r.ts⟩ := by
  have lu := (C70_codes (rows.map RawRow.user)).1
  have li := (C70_codes (rows.map RawRow.item)).1
  have hi : i < rows.length := (List.getElem?_eq_some_iff.1 h).1
  rw [List.length_map] at lu li
  refine ⟨_, _, List.getElem?_eq_getElem (by omega), List.getElem?_eq_getElem (by omega), ?_⟩
  unfold encodeRaw
  rw [List.getElem?_map, List.getElem?_eq_getElem (by simp; omega)]
  have e := (List.getElem?_eq_some_iff.1 h).2
  simp [e]

theorem encodeRaw_length {V : Type} [LinearOrder V] (rows : List (RawRow (Option V))) :
    (encodeRaw rows).length = rows.length := by
  have lu := (C70_codes (rows.map RawRow.user)).1
  have li := (C70_codes (rows.map RawRow.item)).1
  rw [List.length_map] at lu li
  unfold encodeRaw
  simp only [List.length_map, List.length_zip]
  omega

theorem preparedRows_get [One K] (rows : List (RawRow ℤ)) (i : ℕ) (x : RawRow ℤ) (h : rows[i]? = some x) :
    (preparedRows (K := K) rows)[i]? = some ⟨i, ⟨x.user, x.item, 1, x.ts, dayOf x.ts⟩⟩ := by
  unfold preparedRows
  rw [List.getElem?_mapIdx, h]
  rfl

/-- **C104**, Amazon and Steam. All records are written, in order of time; two rows carry the same user
number exactly if their records carry the same user name, and the numbers of named users run from 0
without gaps; the same for the items. -/
theorem C104_encoded [One K] {V : Type} [LinearOrder V]
    (sortTs : List (RawRow (Option V)) → List (RawRow (Option V))) (hs : IsTsSort sortTs)
    (data : List (RawRow (Option V))) :
    Chronological (prepareEncoded (K := K) sortTs data) ∧
    ∃ rows : List (RawRow (Option V)), rows.Perm data ∧
      (prepareEncoded (K := K) sortTs data).map (fun r => r.row.ts) = rows.map RawRow.ts ∧
      (∀ (i j : ℕ) (r s : RawRow (Option V)) (x y : IRow K), rows[i]? = some r → rows[j]? = some s →
        (prepareEncoded (K := K) sortTs data)[i]? = some x → (prepareEncoded (K := K) sortTs data)[j]? = some y →
        (r.user ≠ none → s.user ≠ none → (x.row.user = y.row.user ↔ r.user = s.user)) ∧
        (r.item ≠ none → s.item ≠ none → (x.row.item = y.row.item ↔ r.item = s.item))) ∧
      (∀ (i : ℕ) (r : RawRow (Option V)) (x : IRow K), rows[i]? = some r → (prepareEncoded (K := K) sortTs data)[i]? = some x →
        (∀ v, r.user = some v → 0 ≤ x.row.user ∧
          x.row.user < ((rows.filterMap RawRow.user).toFinset.card : ℤ)) ∧
        (∀ v, r.item = some v → 0 ≤ x.row.item ∧
          x.row.item < ((rows.filterMap RawRow.item).toFinset.card : ℤ)) ∧
        (r.user = none → x.row.user = -1) ∧ (r.item = none → x.row.item = -1)) ∧
      (∀ c : ℕ, c < (rows.filterMap RawRow.user).toFinset.card →
        ∃ x ∈ prepareEncoded (K := K) sortTs data, x.row.user = c) ∧
      (∀ c : ℕ, c < (rows.filterMap RawRow.item).toFinset.card →
        ∃ x ∈ prepareEncoded (K := K) sortTs data, x.row.item = c) := by
  obtain ⟨hp, ho⟩ := hs data
  have hts : (encodeRaw (sortTs data)).map RawRow.ts = (sortTs data).map RawRow.ts := by
    apply List.ext_getElem
    · rw [List.length_map, List.length_map, encodeRaw_length]
    · intro i h1 h2
      rw [List.length_map] at h2
      obtain ⟨u, v, -, -, e⟩ := encodeRaw_get (sortTs data) i _ (List.getElem?_eq_getElem h2)
      rw [List.getElem_map, List.getElem_map, (List.getElem?_eq_some_iff.1 e).2]
  have hsorted : (encodeRaw (sortTs data)).Pairwise fun a b => a.ts ≤ b.ts := by
    have h1 : ((sortTs data).map RawRow.ts).Pairwise (· ≤ ·) := List.pairwise_map.2 ho
    rw [← hts] at h1
    exact List.pairwise_map.1 h1
  have hget : ∀ (i : ℕ) r (x : IRow K), (sortTs data)[i]? = some r →
      (prepareEncoded (K := K) sortTs data)[i]? = some x →
      (categoricalCodes ((sortTs data).map RawRow.user))[i]? = some x.row.user ∧
      (categoricalCodes ((sortTs data).map RawRow.item))[i]? = some x.row.item := by
    intro i r x hr hx
    obtain ⟨u, v, hu, hv, e⟩ := encodeRaw_get _ i r hr
    have hx' : (prepareEncoded (K := K) sortTs data)[i]? = _ := preparedRows_get _ i _ e
    rw [hx] at hx'
    have := Option.some.inj hx'
    subst this
    exact ⟨hu, hv⟩
  obtain ⟨-, mu, ru, su, ou, -⟩ := C70_codes ((sortTs data).map RawRow.user)
  obtain ⟨-, mi, ri, si, oi, -⟩ := C70_codes ((sortTs data).map RawRow.item)
  have hat : ∀ (f : RawRow (Option V) → Option V) (i : ℕ) r v, (sortTs data)[i]? = some r → f r = some v →
      At ((sortTs data).map f) i v := by
    intro f i r v hr hv
    unfold At
    rw [List.getElem?_map, hr, ← hv]
    rfl
  have fm : ∀ f : RawRow (Option V) → Option V, ((sortTs data).map f).filterMap id =
      (sortTs data).filterMap f := by
    intro f
    rw [List.filterMap_map]
    rfl
  have hex : ∀ (i : ℕ) r, (sortTs data)[i]? = some r → ∃ x : IRow K,
      (prepareEncoded (K := K) sortTs data)[i]? = some x := by
    intro i r hr
    obtain ⟨u, v, -, -, e⟩ := encodeRaw_get _ i r hr
    exact ⟨_, preparedRows_get _ i _ e⟩
  have hat' : ∀ (f : RawRow (Option V) → Option V) (i : ℕ) v, At ((sortTs data).map f) i v →
      ∃ r, (sortTs data)[i]? = some r := by
    intro f i v h
    unfold At at h
    rw [List.getElem?_map] at h
    obtain ⟨r, hr, -⟩ := Option.map_eq_some_iff.1 h
    exact ⟨r, hr⟩
  refine ⟨preparedRows_chronological hsorted, sortTs data, hp, ?_, ?_, ?_, ?_, ?_⟩
  · rw [← hts]
    apply List.ext_getElem
    · simp [prepareEncoded, preparedRows]
    · intro i h1 h2
      simp [prepareEncoded, preparedRows]
  · intro i j r s x y hr hs' hx hy
    obtain ⟨a1, a2⟩ := hget i r x hr hx
    obtain ⟨b1, b2⟩ := hget j s y hs' hy
    constructor
    · intro n1 n2
      obtain ⟨v, hv⟩ := Option.ne_none_iff_exists'.1 n1
      obtain ⟨w, hw⟩ := Option.ne_none_iff_exists'.1 n2
      rw [(ou i j v w _ _ (hat _ i r v hr hv) (hat _ j s w hs' hw) a1 b1).2, hv, hw, Option.some.injEq]
    · intro n1 n2
      obtain ⟨v, hv⟩ := Option.ne_none_iff_exists'.1 n1
      obtain ⟨w, hw⟩ := Option.ne_none_iff_exists'.1 n2
      rw [(oi i j v w _ _ (hat _ i r v hr hv) (hat _ j s w hs' hw) a2 b2).2, hv, hw, Option.some.injEq]
  · intro i r x hr hx
    obtain ⟨a1, a2⟩ := hget i r x hr hx
    refine ⟨?_, ?_, ?_, ?_⟩
    · intro v hv
      obtain ⟨c, hc, hlt⟩ := ru i v (hat _ i r v hr hv)
      rw [a1] at hc
      rw [Option.some.inj hc, ← fm]
      exact ⟨by positivity, by exact_mod_cast hlt⟩
    · intro v hv
      obtain ⟨c, hc, hlt⟩ := ri i v (hat _ i r v hr hv)
      rw [a2] at hc
      rw [Option.some.inj hc, ← fm]
      exact ⟨by positivity, by exact_mod_cast hlt⟩
    · intro hn
      have := mu i (by rw [List.getElem?_map, hr, ← hn]; rfl)
      rw [a1] at this
      exact Option.some.inj this
    · intro hn
      have := mi i (by rw [List.getElem?_map, hr, ← hn]; rfl)
      rw [a2] at this
      exact Option.some.inj this
  · intro c hc
    obtain ⟨i, v, hi, hcode⟩ := su c (by rw [fm]; exact hc)
    obtain ⟨r, hr⟩ := hat' _ i v hi
    obtain ⟨x, hx⟩ := hex i r hr
    have := (hget i r x hr hx).1
    rw [hcode] at this
    exact ⟨x, List.mem_of_getElem? hx, (Option.some.inj this).symm⟩
  · intro c hc
    obtain ⟨i, v, hi, hcode⟩ := si c (by rw [fm]; exact hc)
    obtain ⟨r, hr⟩ := hat' _ i v hi
    obtain ⟨x, hx⟩ := hex i r hr
    have := (hget i r x hr hx).2
    rw [hcode] at this
    exact ⟨x, List.mem_of_getElem? hx, (Option.some.inj this).symm⟩

/-- **C104**, the experiment. On any chronological file, with or without grouping of days, no initial row is
later than a row of the stream, and no row of a chunk is later than a row of a following chunk: a model is
never trained on what it is tested on later. -/
theorem C104_experiment [Field K] [LinearOrder K] [IsStrictOrderedRing K] [FloorRing K]
    (sortDay : List (Row K) → List (Row K)) (hsort : IsDaySort sortDay) (data : List (IRow K))
    (hdata : Chronological data) (ratio : K) (h0 : 0 ≤ ratio) (hm : Option ℤ) :
    ∃ initial stream left, prepareDataForExperiment sortDay data ratio hm = .ok (initial, stream, left) ∧
      (∀ a ∈ initial, ∀ c ∈ stream, ∀ b ∈ c.2, a.ts ≤ b.ts) ∧
      (stream.Pairwise fun c c' => ∀ a ∈ c.2, ∀ b ∈ c'.2, a.ts < b.ts) ∧
      (∃ m : ℕ, (m : K) ≤ data.length * ratio ∧ data.length * ratio < m + 1 ∧
        initial = (data.take m).map IRow.row ∧
        ((stream.flatMap Prod.snd).map fun r => (r.user, r.item, r.rel, r.ts)).Perm
          ((data.drop m).map fun r => (r.row.user, r.row.item, r.row.rel, r.row.ts))) := by
  have hidx : Indexed data := hdata.indexed
  have hinit : ∀ m, ∀ a ∈ (data.take m).map IRow.row, ∀ b ∈ (data.drop m).map IRow.row, a.ts ≤ b.ts := by
    intro m a ha b hb
    obtain ⟨a', ha', rfl⟩ := List.mem_map.1 ha
    obtain ⟨b', hb', rfl⟩ := List.mem_map.1 hb
    have hp := hdata.byTime
    rw [← List.take_append_drop m data, List.pairwise_append] at hp
    exact hp.2.2 a' ha' b' hb'
  have hmono : ∀ m, ∀ a ∈ (data.drop m).map IRow.row, ∀ b ∈ (data.drop m).map IRow.row, a.day < b.day →
      a.ts < b.ts := by
    intro m a ha b hb hab
    obtain ⟨a', ha', rfl⟩ := List.mem_map.1 ha
    obtain ⟨b', hb', rfl⟩ := List.mem_map.1 hb
    by_contra hc
    have := hdata.dayMono b' (List.mem_of_mem_drop hb') a' (List.mem_of_mem_drop ha') (not_lt.1 hc)
    omega
  cases hm with
  | none =>
    obtain ⟨m, b1, b2, stream, hrun, hk, hperm, hpart⟩ := C65_days sortDay data ratio hidx h0
    refine ⟨_, _, _, hrun, ?_, ?_, m, b1, b2, rfl, ?_⟩
    · intro a ha c hc b hb
      rw [(hpart c hc).2] at hb
      exact hinit m a ha b (List.mem_filter.1 hb).1
    · refine (List.pairwise_map.1 hk).imp_of_mem ?_
      intro c c' hc hc' hlt a ha b hb
      rw [(hpart c hc).2] at ha
      rw [(hpart c' hc').2] at hb
      obtain ⟨ha1, ha2⟩ := List.mem_filter.1 ha
      obtain ⟨hb1, hb2⟩ := List.mem_filter.1 hb
      exact hmono m a ha1 b hb1 (by rw [of_decide_eq_true ha2, of_decide_eq_true hb2]; exact hlt)
    · have := hperm.map fun r : Row K => (r.user, r.item, r.rel, r.ts)
      rwa [List.map_map] at this
  | some hm =>
    obtain ⟨m, b1, b2, stream, lab, hrun, ⟨hk, -, hpart⟩, hperm, -, -, hlab⟩ :=
      C65_groups_partial sortDay hsort data ratio hm hidx h0
    have hmem : ∀ c ∈ stream, ∀ a ∈ c.2, ∃ r ∈ (data.drop m).map IRow.row, a.ts = r.ts ∧ lab r.day = c.1 := by
      intro c hc a ha
      rw [(hpart c hc).2] at ha
      obtain ⟨ha1, ha2⟩ := List.mem_filter.1 ha
      obtain ⟨r, hr, rfl⟩ := List.mem_map.1 ha1
      exact ⟨r, (hsort.perm _).mem_iff.1 hr, rfl, of_decide_eq_true ha2⟩
    refine ⟨_, _, _, hrun, ?_, ?_, m, b1, b2, rfl, ?_⟩
    · intro a ha c hc b hb
      obtain ⟨r, hr, e, -⟩ := hmem c hc b hb
      rw [e]
      exact hinit m a ha r hr
    · refine (List.pairwise_map.1 hk).imp_of_mem ?_
      intro c c' hc hc' hlt a ha b hb
      obtain ⟨r, hr, e, l⟩ := hmem c hc a ha
      obtain ⟨r', hr', e', l'⟩ := hmem c' hc' b hb
      rw [e, e']
      refine hmono m r hr r' hr' ?_
      by_contra hcon
      have := hlab r' hr' r hr (not_lt.1 hcon)
      omega
    · have := hperm.map fun r : Row K => (r.user, r.item, r.rel, r.ts)
      rw [List.map_map, List.map_map] at this
      exact this

/-! ### Examples -/

/-- A stable sort by time stamp. -/
def exTsSort {U : Type} (l : List (RawRow U)) : List (RawRow U) := stableSort (fun a b => decide (a.ts ≤ b.ts)) l

theorem exTsSort_isTsSort {U : Type} : IsTsSort (exTsSort (U := U)) := by
  intro l
  refine ⟨stableSort_perm _ _, ?_⟩
  refine (stableSort_sorted (le := fun a b : RawRow U => decide (a.ts ≤ b.ts)) ?_ ?_ l).imp ?_
  · intro a b c h1 h2
    simp only [decide_eq_true_eq] at *
    exact le_trans h1 h2
  · intro a b
    simp only [decide_eq_true_eq]
    exact le_total _ _
  · intro a b h
    simpa using h

/-- Ten ratings, unsorted; the last two are kept. -/
example : prepareMl20m (K := ℚ) exTsSort
    [⟨1, 10, 5⟩, ⟨2, 11, 900000⟩, ⟨3, 12, 7⟩, ⟨4, 13, 8⟩, ⟨5, 14, 86400⟩, ⟨6, 15, 100000⟩, ⟨7, 16, 1⟩,
      ⟨8, 17, 800000⟩, ⟨9, 18, 3⟩, ⟨1, 19, 4⟩] =
    [⟨0, ⟨8, 17, 1, 800000, 9⟩⟩, ⟨1, ⟨2, 11, 1, 900000, 10⟩⟩] := by decide +kernel

/-- Names are numbered in their order; a missing name becomes -1. -/
example : prepareEncoded (K := ℚ) exTsSort
    [⟨some 7, some 3, 200000⟩, ⟨some 5, some 9, 100⟩, ⟨none, some 3, 100000⟩] =
    [⟨0, ⟨0, 1, 1, 100, 0⟩⟩, ⟨1, ⟨-1, 0, 1, 100000, 1⟩⟩, ⟨2, ⟨1, 0, 1, 200000, 2⟩⟩] := by decide +kernel

/-- `C104_experiment` applied to a prepared file. -/
example (data : List (RawRow ℤ)) : ∃ initial stream left,
    prepareDataForExperiment (K := ℚ) revTieSort (prepareMl20m exTsSort data) (3 / 10) (some 2) =
      .ok (initial, stream, left) ∧ ∀ a ∈ initial, ∀ c ∈ stream, ∀ b ∈ c.2, a.ts ≤ b.ts := by
  obtain ⟨i, s, l, h1, h2, -⟩ := C104_experiment revTieSort revTieSort_isDaySort _
    (C104_ml20m (K := ℚ) exTsSort exTsSort_isTsSort data).1 (3 / 10) (by norm_num) (some 2)
  exact ⟨i, s, l, h1, h2⟩

end DynCF
