/-
The day of an interaction, the Steam table, the statistics of a table and the data dynamics (C105-C108).
-/
import Verif.Props.PrepareFiles

namespace DynCF
variable {K : Type}

/-! ### C105 -/

/-- **C105**, what holds. The day written is the calendar day (UTC) for a time in the first half of its
day, and the following calendar day for a time in the second half; at noon it is the even one of the two.
What is missing from the property: the afternoon, see `C105_violated`. -/
theorem C105_day_partial (ts : ℤ) :
    (ts % 86400 < 43200 → dayOf ts = ts / 86400) ∧
    (43200 < ts % 86400 → dayOf ts = ts / 86400 + 1) ∧
    (ts % 86400 = 43200 → dayOf ts % 2 = 0 ∧ (dayOf ts = ts / 86400 ∨ dayOf ts = ts / 86400 + 1)) := by
  have hfl : ⌊(ts : ℚ) / 86400⌋ = ts / 86400 := by
    have := Rat.floor_intCast_div_natCast ts 86400
    simpa using this
  have hdec : (ts : ℚ) / 86400 - ((ts / 86400 : ℤ) : ℚ) = ((ts % 86400 : ℤ) : ℚ) / 86400 := by
    have h : (ts : ℚ) = 86400 * ((ts / 86400 : ℤ) : ℚ) + ((ts % 86400 : ℤ) : ℚ) := by
      exact_mod_cast (Int.mul_ediv_add_emod ts 86400).symm
    field_simp
    linarith
  have hlt : ((ts % 86400 : ℤ) : ℚ) / 86400 < 1 / 2 ↔ ts % 86400 < 43200 := by
    rw [div_lt_iff₀ (by norm_num)]
    norm_num
    exact_mod_cast Iff.rfl
  have heq : ((ts % 86400 : ℤ) : ℚ) / 86400 = 1 / 2 ↔ ts % 86400 = 43200 := by
    rw [div_eq_iff (by norm_num)]
    norm_num
    exact_mod_cast Iff.rfl
  unfold dayOf roundHalfEven
  rw [hfl, hdec]
  simp only [hlt, heq]
  refine ⟨fun h => by rw [if_pos h], fun h => ?_, fun h => ?_⟩
  · rw [if_neg (by omega), if_neg (by omega)]
  · rw [if_neg (by omega)]
    split_ifs with h2
    · exact ⟨h2.2, .inl rfl⟩
    · exact ⟨by omega, .inr rfl⟩

/-- **C105** is violated: two records of the same calendar day are given different days, and the experiment
puts them into different chunks; the later one shares its chunk with a record of the next calendar day. -/
theorem C105_violated : ∃ (data : List (RawRow (Option ℕ))) (initial left c c' : List (Row ℚ)) (d d' : ℤ),
    prepareDataForExperiment revTieSort (prepareEncoded (K := ℚ) exTsSort data) 0 none =
      .ok (initial, [(d, c), (d', c')], left) ∧
    (∃ a ∈ c, ∃ b ∈ c', a.ts / 86400 = b.ts / 86400) ∧
    (∃ a ∈ c', ∃ b ∈ c', a.ts / 86400 ≠ b.ts / 86400) :=
  ⟨[⟨some 0, some 0, 36000⟩, ⟨some 1, some 0, 72000⟩, ⟨some 0, some 1, 90000⟩], [],
    [⟨0, 0, 1, 36000, 0⟩, ⟨1, 0, 1, 72000, 1⟩, ⟨0, 1, 1, 90000, 1⟩],
    [⟨0, 0, 1, 36000, 0⟩], [⟨1, 0, 1, 72000, 1⟩, ⟨0, 1, 1, 90000, 1⟩], 0, 1,
    by decide +kernel, by decide +kernel, by decide +kernel⟩

example : dayOf 36000 = 0 ∧ dayOf 72000 = 1 ∧ dayOf 43200 = 0 ∧ dayOf 129600 = 2 ∧ dayOf (-50000) = -1 := by
  decide +kernel

/-! ### C106 -/

/-- `t` holds one record per user-item pair of `data`, the last one, in the order of the table. -/
structure LastRecords (data t : List SteamRow) : Prop where
  sub : t.Sublist data
  once : (t.map fun r => (r.user, r.item)).Nodup
  last : ∀ r ∈ t, ∃ pre post, data = pre ++ r :: post ∧ ∀ s ∈ post, ¬ (s.user = r.user ∧ s.item = r.item)
  all : ∀ r ∈ data, ∃ s ∈ t, s.user = r.user ∧ s.item = r.item

theorem dropDuplicatesLast_spec (data : List SteamRow) : LastRecords data (dropDuplicatesLast data) := by
  induction data with
  | nil => exact ⟨.slnil, List.nodup_nil, by simp [dropDuplicatesLast], by simp⟩
  | cons r l ih =>
    unfold dropDuplicatesLast
    split_ifs with h
    · rw [List.any_eq_true] at h
      obtain ⟨x, hx, hxr⟩ := h
      have hxr := of_decide_eq_true hxr
      refine ⟨ih.sub.cons r, ih.once, ?_, ?_⟩
      · intro s hs
        obtain ⟨pre, post, e, hp⟩ := ih.last s hs
        exact ⟨r :: pre, post, by rw [e]; rfl, hp⟩
      · intro s hs
        rcases List.mem_cons.1 hs with rfl | hs
        · obtain ⟨y, hy, e1, e2⟩ := ih.all x hx
          exact ⟨y, hy, e1.trans hxr.1, e2.trans hxr.2⟩
        · exact ih.all s hs
    · have hno : ∀ s ∈ l, ¬ (s.user = r.user ∧ s.item = r.item) := by
        intro s hs hc
        exact h (List.any_eq_true.2 ⟨s, hs, decide_eq_true hc⟩)
      refine ⟨ih.sub.cons₂ r, ?_, ?_, ?_⟩
      · rw [List.map_cons, List.nodup_cons]
        refine ⟨?_, ih.once⟩
        intro hc
        obtain ⟨s, hs, e⟩ := List.mem_map.1 hc
        exact hno s (ih.sub.subset hs) ⟨(Prod.ext_iff.1 e).1, (Prod.ext_iff.1 e).2⟩
      · intro s hs
        rcases List.mem_cons.1 hs with rfl | hs
        · exact ⟨[], l, rfl, hno⟩
        · obtain ⟨pre, post, e, hp⟩ := ih.last s hs
          exact ⟨r :: pre, post, by rw [e]; rfl, hp⟩
      · intro s hs
        rcases List.mem_cons.1 hs with rfl | hs
        · exact ⟨s, List.mem_cons_self, rfl, rfl⟩
        · obtain ⟨y, hy, e⟩ := ih.all s hs
          exact ⟨y, List.mem_cons_of_mem _ hy, e⟩

/-- **C106**. The Steam table is well defined; it holds every user-item pair at most once, as its last
review; every user and every item in it has at least five rows, and it contains every other set of last
reviews with this property. The time written is midnight of the day of the review, and the day which
`prepare_steam` derives from it is that day. -/
theorem C106_steam (data : List SteamRow) : ∃ recs kept : List SteamRow, LastRecords data recs ∧
    (∀ fuel, recs.length < fuel → loadSteam fuel data =
      some (kept.map fun r => ⟨r.user, r.item, r.date * 86400⟩)) ∧
    kept.Sublist recs ∧ (kept.map fun r => (r.user, r.item)).Nodup ∧
    (∀ r ∈ kept, 5 ≤ kept.countP (fun s => decide (s.user = r.user)) ∧
      5 ≤ kept.countP (fun s => decide (s.item = r.item))) ∧
    (∀ t : List SteamRow, t.Sublist recs → (∀ r ∈ t, 5 ≤ t.countP (fun s => decide (s.user = r.user)) ∧
      5 ≤ t.countP (fun s => decide (s.item = r.item))) → t.Sublist kept) ∧
    (∀ r ∈ kept, dayOf (r.date * 86400) = r.date) := by
  have hl := dropDuplicatesLast_spec data
  obtain ⟨kept, hrun, hsub, hcore, hmax, -⟩ :=
    C69_pcore SteamRow.user SteamRow.item 5 (dropDuplicatesLast data)
  have conv : ∀ t : List SteamRow, IsPCore SteamRow.user SteamRow.item 5 t ↔
      ∀ r ∈ t, 5 ≤ t.countP (fun s => decide (s.user = r.user)) ∧
      5 ≤ t.countP (fun s => decide (s.item = r.item)) := by
    intro t
    unfold IsPCore
    simp only [show (5 : ℤ) = ((5 : ℕ) : ℤ) from rfl, Nat.cast_le]
  refine ⟨_, kept, hl, ?_, hsub, (hsub.map _).nodup hl.once, (conv kept).1 hcore, ?_, ?_⟩
  · intro fuel hf
    unfold loadSteam
    rw [hrun fuel hf]
    rfl
  · intro t ht hc
    exact hmax t ht ((conv t).2 hc)
  · intro r _
    rw [(C105_day_partial (r.date * 86400)).1 (by simp)]
    simp

/-- Duplicates go, the last one stays. -/
example : dropDuplicatesLast [⟨1, 1, 10⟩, ⟨1, 2, 11⟩, ⟨1, 1, 12⟩, ⟨2, 1, 13⟩] =
    [⟨1, 2, 11⟩, ⟨1, 1, 12⟩, ⟨2, 1, 13⟩] := by decide +kernel

/-- Five users, five items, all 25 pairs, a repeated review and a user with one review. -/
example : loadSteam 40 (⟨0, 0, 3⟩ :: ⟨9, 0, 4⟩ ::
      ((List.range 5).flatMap fun u => (List.range 5).map fun i => ⟨u, i, 7⟩)) =
    some ((List.range 5).flatMap fun u => (List.range 5).map fun i => ⟨u, i, 604800⟩) := by decide +kernel

/-! ### C107 -/

theorem npRound2_near (x : ℚ) : |npRound2 x - x| ≤ 1 / 200 := by
  obtain ⟨h1, h2⟩ := roundHalfEven_near (x * 100)
  unfold npRound2
  rw [abs_le]
  constructor <;> linarith

theorem npRound2_mono {x y : ℚ} (h : x ≤ y) : npRound2 x ≤ npRound2 y := by
  unfold npRound2
  have : (roundHalfEven (x * 100) : ℚ) ≤ roundHalfEven (y * 100) := by
    exact_mod_cast roundHalfEven_mono (by linarith)
  linarith

theorem pdUnique_length {α : Type} [DecidableEq α] (l : List α) : (pdUnique l).length = l.toFinset.card := by
  rw [← List.toFinset_card_of_nodup (nodup_pdUnique l)]
  congr 1
  ext x
  simp [mem_pdUnique]

theorem sum_counts {α : Type} (key : α → ℤ) (l : List α) :
    ((pdUnique (l.map key)).map fun u => (l.filter fun r => decide (key r = u)).length).sum = l.length := by
  rw [← List.sum_toFinset _ (nodup_pdUnique _)]
  have h := List.length_eq_countP_add_countP (fun _ : α => true) (l := l)
  have : ∀ u, (l.filter fun r => decide (key r = u)).length = (l.map key).count u := by
    intro u
    rw [List.count_eq_countP, List.countP_map, List.countP_eq_length_filter]
    congr 2
  simp only [this]
  have hs := List.sum_toFinset_count_eq_length (l.map key)
  rw [List.length_map] at hs
  rw [← hs]
  apply Finset.sum_congr
  · ext x
    simp [mem_pdUnique]
  · intros; rfl

/-- The number of rows of user `u`. -/
def userRows (df : List (Row K)) (u : ℤ) : ℕ := df.countP fun r => decide (r.user = u)

/-- **C107**. The saved statistics: distinct users, items and days, the number of rows, mean and median of
the number of rows per user and the percentage of filled cells, the last three to within half a hundredth.
A table without repeated user-item pairs has a density of at most 100. An empty table raises
`ZeroDivisionError`. -/
theorem C107_stats (df : List (Row K)) :
    (df = [] → printRecsysDfStats df = .error .zeroDivisionError) ∧
    (df ≠ [] → ∃ st, printRecsysDfStats df = .ok st ∧
      st.nUsers = (df.map Row.user).toFinset.card ∧ st.nItems = (df.map Row.item).toFinset.card ∧
      st.nDates = (df.map Row.day).toFinset.card ∧ st.nInteractions = df.length ∧
      |st.nItemsMean - (df.length : ℚ) / (df.map Row.user).toFinset.card| ≤ 1 / 200 ∧
      (∃ s : List ℕ, s.Pairwise (· ≤ ·) ∧
        (s : Multiset ℕ) = (df.map Row.user).toFinset.val.map (userRows df) ∧
        ∃ lo hi, s[(s.length - 1) / 2]? = some lo ∧ s[s.length / 2]? = some hi ∧
          |st.nItemsMedian - ((lo : ℚ) + hi) / 2| ≤ 1 / 200) ∧
      |st.density - 100 * (df.length : ℚ) /
        ((df.map Row.user).toFinset.card * (df.map Row.item).toFinset.card)| ≤ 1 / 200 ∧
      ((df.map fun r => (r.user, r.item)).Nodup → st.density ≤ 100)) := by
  constructor
  · rintro rfl
    rfl
  · intro hne
    have hu : 0 < (df.map Row.user).toFinset.card := by
      rw [Finset.card_pos]
      obtain ⟨r, l, rfl⟩ := List.exists_cons_of_ne_nil hne
      exact ⟨r.user, by simp⟩
    have hi : 0 < (df.map Row.item).toFinset.card := by
      rw [Finset.card_pos]
      obtain ⟨r, l, rfl⟩ := List.exists_cons_of_ne_nil hne
      exact ⟨r.item, by simp⟩
    have hnz : (pdUnique (df.map Row.user)).length * (pdUnique (df.map Row.item)).length ≠ 0 := by
      rw [pdUnique_length, pdUnique_length]
      positivity
    refine ⟨_, by unfold printRecsysDfStats; simp only [if_neg hnz]; rfl, pdUnique_length _,
      pdUnique_length _, pdUnique_length _, rfl, ?_, ?_, ?_, ?_⟩
    · simp only
      rw [sum_counts Row.user df, List.length_map, pdUnique_length]
      exact npRound2_near _
    · generalize hc : (pdUnique (df.map Row.user)).map
        (fun u => (df.filter fun r => decide (r.user = u)).length) = counts
      have hlen : counts.length = (df.map Row.user).toFinset.card := by
        rw [← hc, List.length_map, pdUnique_length]
      have hsl : (stableSort (fun a b => decide (a ≤ b)) counts).length = counts.length :=
        stableSort_length _ _
      refine ⟨stableSort (fun a b => decide (a ≤ b)) counts, ?_, ?_, _, _,
        List.getElem?_eq_getElem (by omega), List.getElem?_eq_getElem (by omega), ?_⟩
      · refine (stableSort_sorted (le := fun a b : ℕ => decide (a ≤ b)) ?_ ?_ counts).imp ?_
        · intro a b c h1 h2
          simp only [decide_eq_true_eq] at *
          exact le_trans h1 h2
        · intro a b
          simp only [decide_eq_true_eq]
          exact le_total _ _
        · intro a b h
          simpa using h
      · rw [Multiset.coe_eq_coe.2 (stableSort_perm _ counts), ← hc]
        have hset : (df.map Row.user).toFinset = (pdUnique (df.map Row.user)).toFinset := by
          ext x
          simp [mem_pdUnique]
        rw [hset, List.toFinset_val, (nodup_pdUnique _).dedup, Multiset.map_coe]
        congr 1
        apply List.map_congr_left
        intro u _
        unfold userRows
        rw [List.countP_eq_length_filter]
      · have := npRound2_near (medianOf counts)
        unfold medianOf at this ⊢
        simp only at this ⊢
        have g1 : (stableSort (fun a b => decide (a ≤ b)) counts).getD
            (((stableSort (fun a b => decide (a ≤ b)) counts).length - 1) / 2) 0 =
            (stableSort (fun a b => decide (a ≤ b)) counts)[((stableSort (fun a b => decide (a ≤ b))
              counts).length - 1) / 2]'(by omega) := by
          rw [List.getD_eq_getElem?_getD, List.getElem?_eq_getElem (by omega), Option.getD_some]
        have g2 : (stableSort (fun a b => decide (a ≤ b)) counts).getD
            ((stableSort (fun a b => decide (a ≤ b)) counts).length / 2) 0 =
            (stableSort (fun a b => decide (a ≤ b)) counts)[(stableSort (fun a b => decide (a ≤ b))
              counts).length / 2]'(by omega) := by
          rw [List.getD_eq_getElem?_getD, List.getElem?_eq_getElem (by omega), Option.getD_some]
        rw [g1, g2] at this ⊢
        exact this
    · simp only
      rw [pdUnique_length, pdUnique_length]
      rw [show 100 * (df.length : ℚ) / ((df.map Row.user).toFinset.card * (df.map Row.item).toFinset.card) =
        (df.length : ℚ) / ((df.map Row.user).toFinset.card * (df.map Row.item).toFinset.card) * 100 by ring]
      exact npRound2_near _
    · intro hnd
      simp only
      rw [pdUnique_length, pdUnique_length]
      have h100 : npRound2 100 = 100 := by decide +kernel
      refine le_trans (npRound2_mono (y := 100) ?_) (le_of_eq h100)
      have hle : df.length ≤ (df.map Row.user).toFinset.card * (df.map Row.item).toFinset.card := by
        rw [← Finset.card_product, ← List.length_map (f := fun r : Row K => (r.user, r.item)),
          ← List.toFinset_card_of_nodup hnd]
        apply Finset.card_le_card
        intro x hx
        rw [List.mem_toFinset, List.mem_map] at hx
        obtain ⟨r, hr, rfl⟩ := hx
        simp only [Finset.mem_product, List.mem_toFinset]
        exact ⟨List.mem_map_of_mem hr, List.mem_map_of_mem hr⟩
      have hle' : (df.length : ℚ) ≤
          (df.map Row.user).toFinset.card * (df.map Row.item).toFinset.card := by exact_mod_cast hle
      have : (df.length : ℚ) / ((df.map Row.user).toFinset.card * (df.map Row.item).toFinset.card) ≤ 1 := by
        rw [div_le_one (by positivity)]
        exact hle'
      linarith

example : printRecsysDfStats (K := ℚ)
    [⟨1, 10, 1, 0, 0⟩, ⟨1, 11, 1, 0, 1⟩, ⟨2, 10, 1, 0, 1⟩, ⟨3, 10, 1, 0, 2⟩, ⟨1, 12, 1, 0, 2⟩] =
    .ok ⟨3, 3, 3, 5, 167 / 100, 1, 5556 / 100⟩ := by decide +kernel

/-! ### C108 -/

/-- The two saved series for a list of chunks: distinct users and interactions of each chunk. -/
def ChunkSeries (chunks : List (ℤ × List (Row K))) (res : List ℕ × List ℕ) : Prop :=
  res.1 = chunks.map (fun c => (c.2.map Row.user).toFinset.card) ∧
  res.2 = chunks.map (fun c => c.2.length)

theorem saveDataDynamics_spec (left : List (Row K)) (hm : ℤ) :
    (sliceTo (groupDays left) hm = [] → saveDataDynamics left hm = .error .indexError) ∧
    (sliceTo (groupDays left) hm ≠ [] → ∃ res, saveDataDynamics left hm = .ok res ∧
      ChunkSeries ((groupByDay left).take ((sliceTo (groupDays left) hm).length - 1)) res) := by
  constructor
  · intro h
    unfold saveDataDynamics
    rw [h]
    rfl
  · intro h
    obtain ⟨k, hk⟩ : ∃ k, sliceTo (groupDays left) hm = (groupDays left).take k := by
      unfold sliceTo
      split_ifs
      · exact ⟨_, rfl⟩
      · exact ⟨_, rfl⟩
    rw [hk] at h ⊢
    have hsorted := groupDays_sorted left
    generalize hn : ((groupDays left).take k).length = n
    have hn0 : 0 < n := by rw [← hn]; exact List.length_pos_iff.2 h
    have hnk : n ≤ (groupDays left).length := by
      rw [← hn, List.length_take]
      omega
    have htk : (groupDays left).take k = (groupDays left).take n := by
      rw [← hn, List.length_take]
      rw [List.take_eq_take_iff]
      omega
    have hlast : ((groupDays left).take k).getLast? = some ((groupDays left)[n - 1]'(by omega)) := by
      rw [htk, List.getLast?_eq_getElem?, List.length_take, List.getElem?_take]
      rw [Nat.min_eq_left hnk, if_pos (by omega), List.getElem?_eq_getElem]
    have hdays : groupDays (left.filter fun r => decide (r.day < (groupDays left)[n - 1]'(by omega))) =
        (groupDays left).take (n - 1) := by
      apply List.Perm.eq_of_pairwise (le := (· < ·))
      · intro a b _ _ h1 h2
        omega
      · exact groupDays_sorted _
      · exact hsorted.sublist (List.take_sublist _ _)
      · rw [List.perm_ext_iff_of_nodup ((groupDays_sorted _).imp fun h => ne_of_lt h)
          ((hsorted.sublist (List.take_sublist _ _)).imp fun h => ne_of_lt h)]
        intro d
        rw [mem_groupDays]
        have hget := List.pairwise_iff_getElem.1 hsorted
        constructor
        · rintro ⟨r, hr, rfl⟩
          obtain ⟨hr1, hr2⟩ := List.mem_filter.1 hr
          have hr2 := of_decide_eq_true hr2
          obtain ⟨i, hi, e⟩ := List.getElem_of_mem ((mem_groupDays left r.day).2 ⟨r, hr1, rfl⟩)
          have : i < n - 1 := by
            by_contra hc
            rcases eq_or_lt_of_le (not_lt.1 hc) with h' | h'
            · subst h'
              omega
            · have := hget (n - 1) i (by omega) hi h'
              omega
          rw [List.mem_take_iff_getElem]
          exact ⟨i, by omega, e⟩
        · intro hd
          rw [List.mem_take_iff_getElem] at hd
          obtain ⟨i, hi, e⟩ := hd
          obtain ⟨r, hr, hrd⟩ := (mem_groupDays left d).1 (by rw [← e]; exact List.getElem_mem _)
          refine ⟨r, List.mem_filter.2 ⟨hr, decide_eq_true ?_⟩, hrd⟩
          rw [hrd, ← e]
          exact hget i (n - 1) (by omega) (by omega) (by omega)
    have hgroups : groupByDay (left.filter fun r => decide (r.day < (groupDays left)[n - 1]'(by omega))) =
        (groupByDay left).take (n - 1) := by
      unfold groupByDay
      rw [hdays, ← List.map_take]
      apply List.map_congr_left
      intro d hd
      rw [List.mem_take_iff_getElem] at hd
      obtain ⟨i, hi, e⟩ := hd
      have hlt : d < (groupDays left)[n - 1]'(by omega) := by
        rw [← e]
        exact List.pairwise_iff_getElem.1 hsorted i (n - 1) (by omega) (by omega) (by omega)
      congr 1
      rw [List.filter_filter]
      apply List.filter_congr
      intro r _
      by_cases hr : r.day = d
      · simp [hr, hlt]
      · simp [hr]
    refine ⟨((groupByDay (left.filter fun r => decide (r.day < (groupDays left)[n - 1]'(by omega)))).map
      fun g => (pdUnique (g.2.map Row.user)).length,
      (groupByDay (left.filter fun r => decide (r.day < (groupDays left)[n - 1]'(by omega)))).map
        fun g => g.2.length), ?_, ?_⟩
    · unfold saveDataDynamics
      rw [hk, hlast]
    · constructor
      · simp only [hgroups]
        apply List.map_congr_left
        intro c _
        exact pdUnique_length _
      · simp only [hgroups]

/-- **C108**, what holds. For the stream of an experiment, the saved series list the distinct users and the
interactions of the chunks in order, but only of the first `T - 1` of the `T` chunks that the experiment
processes, `T` being the smaller of `how_many_iterations` and the number of chunks. If the stream is empty,
an `IndexError` is raised. What is missing from the property: the last chunk, see `C108_violated`. -/
theorem C108_dynamics_partial [Field K] [LinearOrder K] [IsStrictOrderedRing K] [FloorRing K]
    (sortDay : List (Row K) → List (Row K)) (data : List (IRow K)) (ratio : K) (hmin : Option ℤ)
    (initial left : List (Row K)) (stream : List (ℤ × List (Row K))) (hm : ℕ)
    (hrun : prepareDataForExperiment sortDay data ratio hmin = .ok (initial, stream, left)) :
    (stream = [] ∨ hm = 0 → saveDataDynamics left hm = .error .indexError) ∧
    (stream ≠ [] → 0 < hm → ∃ res, saveDataDynamics left hm = .ok res ∧
      ChunkSeries (stream.take (min hm stream.length - 1)) res) := by
  have hs : stream = groupByDay left := by
    unfold prepareDataForExperiment at hrun
    cases hmin with
    | none =>
      have := Except.ok.inj hrun
      simp only [Prod.mk.injEq] at this
      rw [← this.2.1, ← this.2.2]
    | some m =>
      simp only at hrun
      obtain ⟨l, -, h2⟩ := (bind_ok_iff _ _ _).1 hrun
      have := Except.ok.inj h2
      simp only [Prod.mk.injEq] at this
      rw [← this.2.1, ← this.2.2]
  have hlen : stream.length = (groupDays left).length := by rw [hs]; simp [groupByDay]
  have hsl : sliceTo (groupDays left) hm = (groupDays left).take hm := by
    unfold sliceTo
    rw [if_pos (by positivity), Int.toNat_natCast]
  obtain ⟨h1, h2⟩ := saveDataDynamics_spec left hm
  rw [hsl] at h1 h2
  constructor
  · rintro (h | h)
    · apply h1
      have : (groupDays left).length = 0 := by rw [← hlen, h]; rfl
      rw [List.length_eq_zero_iff.1 this]
      exact List.take_nil
    · apply h1
      rw [h]
      rfl
  · intro hne h0
    have hpos : 0 < stream.length := List.length_pos_iff.2 hne
    obtain ⟨res, e, hc⟩ := h2 (by
      rw [ne_eq, List.take_eq_nil_iff]
      rintro (h | h)
      · omega
      · rw [h, List.length_nil] at hlen
        omega)
    refine ⟨res, e, ?_⟩
    rw [List.length_take, ← hlen, ← hs] at hc
    exact hc

/-- **C108**, negative numbers. With `-k` iterations the last `k` days are left out first. -/
theorem C108_negative_partial (left : List (Row K)) (k : ℕ) (hk : 1 ≤ k) :
    saveDataDynamics left (-(k : ℤ)) = saveDataDynamics left (((left.map Row.day).toFinset.card - k : ℕ) : ℤ) := by
  unfold saveDataDynamics
  rw [sliceTo_neg _ k hk, groupDays_length]

/-- **C108** is violated: two iterations are asked for and two chunks are there, but only the first is
recorded. -/
theorem C108_violated : ∃ (data : List (IRow ℚ)) (initial left : List (Row ℚ)) (c c' : ℤ × List (Row ℚ))
    (n m : ℕ), Indexed data ∧
    prepareDataForExperiment revTieSort data (3 / 10) none = .ok (initial, [c, c'], left) ∧
    saveDataDynamics left 2 = .ok ([n], [m]) :=
  ⟨exFile, [⟨1, 10, 5, 100, 1⟩, ⟨2, 11, 5, 101, 1⟩],
    [⟨1, 12, 5, 200, 2⟩, ⟨2, 12, 5, 201, 2⟩, ⟨3, 10, 5, 202, 2⟩, ⟨1, 13, 5, 300, 3⟩, ⟨2, 13, 5, 301, 3⟩],
    (2, [⟨1, 12, 5, 200, 2⟩, ⟨2, 12, 5, 201, 2⟩, ⟨3, 10, 5, 202, 2⟩]),
    (3, [⟨1, 13, 5, 300, 3⟩, ⟨2, 13, 5, 301, 3⟩]), 3, 3, exFile_indexed, by decide +kernel, by decide +kernel⟩

example : saveDataDynamics (K := ℚ) [⟨1, 10, 1, 0, 4⟩, ⟨1, 11, 1, 0, 4⟩, ⟨2, 10, 1, 0, 5⟩, ⟨3, 10, 1, 0, 6⟩,
    ⟨3, 10, 1, 0, 7⟩] 3 = .ok ([1, 1], [2, 1]) := by decide +kernel

end DynCF
