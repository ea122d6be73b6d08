/- Property C121: the table of data statistics. -/
import Verif.Model.StatsTable
import Verif.Props.PrepareFiles2
import Verif.Props.Graphs2

set_option linter.unusedSectionVars false

namespace DynCF
variable {K : Type}

/-! ### Specification -/

/-- `lo` and `hi` are the two middle values of the numbers of rows per user. -/
def MiddleCounts (df : List (Row K)) (lo hi : ℕ) : Prop :=
  ∃ s : List ℕ, s.Pairwise (· ≤ ·) ∧ (s : Multiset ℕ) = (df.map Row.user).toFinset.val.map (userRows df) ∧
    s[(s.length - 1) / 2]? = some lo ∧ s[s.length / 2]? = some hi

/-- The printed row of a data set: exact counts, the median of the rows per user cut to an integer, the
percentage of filled cells to within half a hundredth. -/
def PrintedRow (name : Str) (df : List (Row K)) (row : StatsRow) : Prop :=
  row.dataset = name ∧ row.nUsers = (df.map Row.user).toFinset.card ∧
    row.nItems = (df.map Row.item).toFinset.card ∧ row.nInteractions = df.length ∧
    (∃ lo hi, MiddleCounts df lo hi ∧ row.nItemsMedian = ((lo + hi) / 2 : ℕ)) ∧
    |row.density - 100 * (df.length : ℚ) /
      ((df.map Row.user).toFinset.card * (df.map Row.item).toFinset.card)| ≤ 1 / 200

/-- The directories of the data sets and their names in the table, in the order of the rows. -/
def printedSets : List (Str × Str) :=
  [("ml_20m".toList, "ML-20M".toList), ("amz_b".toList, "AMZ-B".toList), ("amz_g".toList, "AMZ-G".toList),
   ("steam".toList, "Steam".toList)]

/-! ### Proof -/

theorem truncInt_natCast (n : ℕ) : truncInt (n : ℚ) = n := by
  unfold truncInt
  rw [if_pos (by positivity)]
  exact Int.floor_natCast n

theorem truncInt_half (n : ℕ) : truncInt ((n : ℚ) / 2) = (n / 2 : ℕ) := by
  unfold truncInt
  rw [if_pos (by positivity)]
  have := Rat.floor_intCast_div_natCast (n : ℤ) 2
  rw [Int.cast_natCast, Nat.cast_ofNat] at this
  rw [this]
  norm_cast

theorem npRound2_half (n : ℕ) : npRound2 ((n : ℚ) / 2) = (n : ℚ) / 2 := by
  unfold npRound2
  have : roundHalfEven ((n : ℚ) / 2 * 100) = (n * 50 : ℤ) := by
    have e : (n : ℚ) / 2 * 100 = ((n * 50 : ℤ) : ℚ) := by push_cast; ring
    rw [e]
    unfold roundHalfEven
    rw [if_pos (by rw [Int.floor_intCast]; simp), Int.floor_intCast]
  rw [this]
  push_cast
  ring

/-- The saved median is exact. -/
theorem saved_median {df : List (Row K)} {st : RecsysStats} (h : printRecsysDfStats df = .ok st) :
    ∃ lo hi, MiddleCounts df lo hi ∧ st.nItemsMedian = ((lo + hi : ℕ) : ℚ) / 2 := by
  unfold printRecsysDfStats at h
  simp only at h
  split at h
  · cases h
  rename_i hnz
  have h := Except.ok.inj h
  subst h
  generalize hc : (pdUnique (df.map Row.user)).map
    (fun u => (df.filter fun r => decide (r.user = u)).length) = counts
  have hlen : 0 < counts.length := by
    rw [← hc, List.length_map]
    exact Nat.pos_of_ne_zero fun e => hnz (by rw [e, Nat.zero_mul])
  have hsl : (stableSort (fun a b => decide (a ≤ b)) counts).length = counts.length := stableSort_length _ _
  refine ⟨_, _, ⟨stableSort (fun a b => decide (a ≤ b)) counts, ?_, ?_,
    List.getElem?_eq_getElem (by omega), List.getElem?_eq_getElem (by omega)⟩, ?_⟩
  · refine (stableSort_sorted (le := fun a b : ℕ => decide (a ≤ b)) ?_ ?_ counts).imp ?_
    · intro a b c h1 h2
      simp only [decide_eq_true_eq] at *
      exact le_trans h1 h2
    · intro a b
      simp only [decide_eq_true_eq]
      exact le_total _ _
    · intro a b h
      simpa using h
  · rw [Multiset.coe_eq_coe.2 (stableSort_perm _ counts), ← hc]
    have hset : (df.map Row.user).toFinset = (pdUnique (df.map Row.user)).toFinset := by
      ext x
      simp [mem_pdUnique]
    rw [hset, List.toFinset_val, (nodup_pdUnique _).dedup, Multiset.map_coe]
    congr 1
    apply List.map_congr_left
    intro u _
    unfold userRows
    rw [List.countP_eq_length_filter]
  · show npRound2 (medianOf counts) = _
    rw [← npRound2_half]
    congr 1
    unfold medianOf
    simp only
    rw [List.getD_eq_getElem?_getD, List.getElem?_eq_getElem (by omega), Option.getD_some,
      List.getD_eq_getElem?_getD, List.getElem?_eq_getElem (by omega), Option.getD_some]
    push_cast
    rfl

theorem pivot_saved (s : RecsysStats) :
    pivotValue (savedStats s) "n_users".toList = .ok (s.nUsers : ℚ) ∧
    pivotValue (savedStats s) "n_items".toList = .ok (s.nItems : ℚ) ∧
    pivotValue (savedStats s) "n_interactions".toList = .ok (s.nInteractions : ℚ) ∧
    pivotValue (savedStats s) "n_items_median".toList = .ok s.nItemsMedian ∧
    pivotValue (savedStats s) "density%".toList = .ok s.density := by
  have key : ∀ (k : Str) (x : ℚ), (savedStats s).filter (fun p => decide (p.1 = k)) = [(k, x)] →
      pivotValue (savedStats s) k = .ok x := by
    intro k x h
    unfold pivotValue
    simp [h]
  refine ⟨key _ _ rfl, key _ _ rfl, key _ _ rfl, key _ _ rfl, key _ _ rfl⟩

theorem statsRow_saved {files : Str → Option (Dict Str ℚ)} {n : Str × Str} {df : List (Row K)} {st : RecsysStats}
    (h : printRecsysDfStats df = .ok st) (hf : files n.1 = some (savedStats st)) :
    ∃ row, statsRow files n = .ok row ∧ PrintedRow n.2 df row := by
  obtain ⟨p1, p2, p3, p4, p5⟩ := pivot_saved st
  have hne : df ≠ [] := by
    rintro rfl
    cases h
  obtain ⟨st', h', c1, c2, -, c4, -, -, c7, -⟩ := (C107_stats df).2 hne
  rw [h] at h'
  have h' := Except.ok.inj h'
  subst h'
  obtain ⟨lo, hi, hm, he⟩ := saved_median h
  unfold statsRow
  rw [hf]
  simp only
  rw [p1, p2, p3, p4, p5]
  refine ⟨_, rfl, rfl, ?_, ?_, ?_, ⟨lo, hi, hm, ?_⟩, c7⟩
  · exact (truncInt_natCast _).trans (congrArg _ c1)
  · exact (truncInt_natCast _).trans (congrArg _ c2)
  · exact (truncInt_natCast _).trans (congrArg _ c4)
  · simp only
    rw [he, truncInt_half]

/-- **C121 (partial).** If the four files were written from (non-empty) tables then the printed table has one
row per data set, in the fixed order, with the exact counts, the median of the rows per user cut to an integer
and the density. Missing: half-integer medians (`C121_violated`). -/
theorem C121_table_partial (files : Str → Option (Dict Str ℚ)) (tables : Str → List (Row K))
    (h : ∀ n ∈ printedSets, ∃ st, printRecsysDfStats (tables n.1) = .ok st ∧ files n.1 = some (savedStats st)) :
    ∃ rows, statsTable files = .ok rows ∧
      List.Forall₂ (fun n row => PrintedRow n.2 (tables n.1) row) printedSets rows := by
  unfold statsTable
  rw [show statsNames = printedSets from rfl]
  revert h
  generalize printedSets = names
  intro h
  induction names with
  | nil => exact ⟨[], rfl, .nil⟩
  | cons n names ih =>
    obtain ⟨rows, h1, h2⟩ := ih fun n' hn => h n' (List.mem_cons_of_mem _ hn)
    obtain ⟨st, h3, h4⟩ := h n List.mem_cons_self
    obtain ⟨row, h5, h6⟩ := statsRow_saved h3 h4
    exact ⟨row :: rows, by rw [List.mapM_cons, h5, except_bind_ok, h1]; rfl, .cons h6 h2⟩

/-- **C121, errors.** Without the file of one of the data sets nothing is printed: `FileNotFoundError`, if all
files that are there are files of statistics. -/
theorem C121_missing (files : Str → Option (Dict Str ℚ)) (n : Str × Str) (hn : n ∈ printedSets)
    (h : files n.1 = none) (hok : ∀ n', files n' = none ∨ ∃ st, files n' = some (savedStats st)) :
    statsTable files = .error .fileNotFoundError := by
  unfold statsTable
  rw [show statsNames = printedSets from rfl]
  revert hn
  generalize printedSets = names
  intro hn
  induction names with
  | nil => cases hn
  | cons a names ih =>
    rw [List.mapM_cons]
    rcases hok a.1 with ha | ⟨st, ha⟩
    · have : statsRow files a = .error .fileNotFoundError := by unfold statsRow; rw [ha]
      rw [this]
      rfl
    · obtain ⟨p1, p2, p3, p4, p5⟩ := pivot_saved st
      have : ∃ row, statsRow files a = .ok row := by
        unfold statsRow
        rw [ha]
        simp only
        rw [p1, p2, p3, p4, p5]
        exact ⟨_, rfl⟩
      obtain ⟨row, hrow⟩ := this
      rw [hrow, except_bind_ok, ih ?_]
      · rfl
      · rcases List.mem_cons.1 hn with rfl | hn
        · rw [h] at ha; cases ha
        · exact hn

/-- **C121, the file.** The saved file of a non-empty table: the exact numbers of users, items, days and interactions, and
the exact median of the rows per user, each under its own key and nothing else there. -/
theorem C121_file (df : List (Row K)) (st : RecsysStats) (h : printRecsysDfStats df = .ok st) :
    (savedStats st).map Prod.fst = ["n_users".toList, "n_items".toList, "nu_dates".toList, "n_interactions".toList,
      "n_items_mean".toList, "n_items_median".toList, "density%".toList] ∧
    Dict.get? (savedStats st) "n_users".toList = some (((df.map Row.user).toFinset.card : ℕ) : ℚ) ∧
    Dict.get? (savedStats st) "n_items".toList = some (((df.map Row.item).toFinset.card : ℕ) : ℚ) ∧
    Dict.get? (savedStats st) "nu_dates".toList = some (((df.map Row.day).toFinset.card : ℕ) : ℚ) ∧
    Dict.get? (savedStats st) "n_interactions".toList = some ((df.length : ℕ) : ℚ) ∧
    (∃ lo hi, MiddleCounts df lo hi ∧
      Dict.get? (savedStats st) "n_items_median".toList = some (((lo + hi : ℕ) : ℚ) / 2)) ∧
    (∃ x, Dict.get? (savedStats st) "n_items_mean".toList = some x ∧
      |x - (df.length : ℚ) / (df.map Row.user).toFinset.card| ≤ 1 / 200) ∧
    ∃ x, Dict.get? (savedStats st) "density%".toList = some x ∧
      |x - 100 * (df.length : ℚ) / ((df.map Row.user).toFinset.card * (df.map Row.item).toFinset.card)| ≤ 1 / 200 := by
  have hne : df ≠ [] := by
    rintro rfl
    cases h
  obtain ⟨st', h', c1, c2, c3, c4, c5, -, c7, -⟩ := (C107_stats df).2 hne
  rw [h] at h'
  have h' := Except.ok.inj h'
  subst h'
  obtain ⟨lo, hi, hm, he⟩ := saved_median h
  refine ⟨rfl, ?_, ?_, ?_, ?_, ⟨lo, hi, hm, ?_⟩, ⟨_, rfl, c5⟩, ⟨_, rfl, c7⟩⟩
  · rw [← c1]; rfl
  · rw [← c2]; rfl
  · rw [← c3]; rfl
  · rw [← c4]; rfl
  · rw [← he]; rfl

/-- **C121, repeated keys.** In a file that lists a key several times the table shows the mean of its values; a key that
is not there is a `KeyError`. -/
theorem C121_pivot (file : Dict Str ℚ) (key : Str) :
    (pivotValue file key = .error .keyError ↔ ∀ p ∈ file, p.1 ≠ key) ∧
    ∀ x, pivotValue file key = .ok x →
      x * (file.countP fun p => p.1 = key) = (file.map fun p => if p.1 = key then p.2 else 0).sum := by
  have hsum : ((file.filter fun p => decide (p.1 = key)).map Prod.snd).sum =
      (file.map fun p => if p.1 = key then p.2 else 0).sum := by
    induction file with
    | nil => rfl
    | cons p file ih =>
      by_cases hp : p.1 = key
      · simp [hp, ih]
      · simp [hp, ih]
  unfold pivotValue
  dsimp only
  constructor
  · split
    · rename_i h
      simp only [true_iff]
      intro p hp e
      rw [List.isEmpty_iff, List.map_eq_nil_iff, List.filter_eq_nil_iff] at h
      exact h p hp (by simpa using e)
    · rename_i h
      simp only [reduceCtorEq, false_iff]
      intro hall
      apply h
      rw [List.isEmpty_iff, List.map_eq_nil_iff, List.filter_eq_nil_iff]
      intro p hp
      simpa using hall p hp
  · intro x hx
    split at hx
    · cases hx
    · rename_i h
      have hx := Except.ok.inj hx
      rw [← hx, hsum, List.length_map, ← List.countP_eq_length_filter]
      have : ((file.countP fun p => decide (p.1 = key) : ℕ) : ℚ) ≠ 0 := by
        rw [List.countP_eq_length_filter]
        intro e
        apply h
        rw [List.isEmpty_iff, List.map_eq_nil_iff]
        exact List.length_eq_zero_iff.1 (by exact_mod_cast e)
      exact div_mul_cancel₀ _ this

/-- The median of the rows per user is 3/2. -/
def exStatsData : List (Row ℚ) := [⟨1, 10, 1, 0, 0⟩, ⟨2, 11, 1, 0, 1⟩, ⟨2, 10, 1, 0, 1⟩]

/-- **C121 fails.** Two users with one and two rows: the saved median is 3/2, the printed one is 1. -/
theorem C121_violated : ∃ st, printRecsysDfStats exStatsData = .ok st ∧ st.nItemsMedian = 3 / 2 ∧
    statsTable (fun _ => some (savedStats st)) =
      .ok (printedSets.map fun n => ⟨n.2, 2, 2, 3, 1, 75⟩) := by
  refine ⟨⟨2, 2, 2, 3, 3 / 2, 3 / 2, 75⟩, by decide +kernel, rfl, by decide +kernel⟩

example : truncInt (-7 / 2) = -3 ∧ truncInt (7 / 2) = 3 := by decide +kernel
example : pivotValue [("a".toList, 1), ("b".toList, 2), ("a".toList, 4)] "a".toList = .ok (5 / 2) := by decide +kernel
example : statsTable (fun n => if n = "steam".toList then none else
    some (savedStats ⟨2, 2, 2, 3, 3 / 2, 3 / 2, 75⟩)) = .error .fileNotFoundError := by decide +kernel

end DynCF
