/- C175 and C176: the text of the printed tables. -/
import Verif.Model.LatexText
import Verif.Props.ResultsTable
import Verif.Props.StatsTable
import Verif.Props.PrepareFiles
import Verif.Lemmas.Selection
import Mathlib.Tactic.Linarith
import Mathlib.Tactic.FieldSimp

namespace DynCF

/-! ### Specification -/

/-- The value of digits, a point and digits. -/
def unsignedValue (s : Str) : ℚ :=
  let frac := (s.dropWhile fun c => decide (c ≠ '.')).drop 1
  (Nat.ofDigitChars 10 (s.takeWhile fun c => decide (c ≠ '.')) 0 : ℚ) + (Nat.ofDigitChars 10 frac 0 : ℚ) / 10 ^ frac.length

/-- The value of a decimal text with an optional sign. -/
def decValue : Str → ℚ
  | '-' :: s => -unsignedValue s
  | s => unsignedValue s

/-- A decimal text: an optional sign, at least one digit, a point, and exactly `d` digits. -/
def DecText (d : ℕ) (s : Str) : Prop :=
  ∃ sign whole frac : Str, s = sign ++ (whole ++ '.' :: frac) ∧ (sign = [] ∨ sign = ['-']) ∧ whole ≠ [] ∧
    frac.length = d ∧ (∀ c ∈ whole, c.isDigit = true) ∧ ∀ c ∈ frac, c.isDigit = true

/-- What the text in the place of a result file and a metric must show. -/
def PrintsMean (file : Option (Series ℚ)) (metric : Str) (text : Str) : Prop :=
  (∃ s y, file = some s ∧ (∀ m ∈ tableMetrics, Dict.get? s m ≠ none) ∧ Dict.get? s metric = some y ∧
    ((y = [] ∧ text = "NaN".toList) ∨
      (y ≠ [] ∧ DecText 3 text ∧ |decValue text - y.sum / (y.length : ℚ)| ≤ 1 / 2000))) ∨
  ((∀ s, file = some s → ∃ m ∈ tableMetrics, Dict.get? s m = none) ∧ text = "-".toList)

/-! ### Numbers -/

theorem roundHalfEven_nonneg {x : ℚ} (h : 0 ≤ x) : 0 ≤ roundHalfEven x := by
  have := Int.floor_nonneg.2 h
  unfold roundHalfEven
  split_ifs <;> omega

theorem digit_ne {c : Char} (h : c.isDigit = true) {e : Char} (he : e.isDigit = false) : c ≠ e := by
  rintro rfl
  rw [h] at he
  cases he

theorem toDigits_digit {n : ℕ} {c : Char} (h : c ∈ Nat.toDigits 10 n) : c.isDigit = true :=
  Nat.isDigit_of_mem_toDigits (by decide) (by decide) h

theorem unsignedValue_eq {whole frac : Str} (h : ∀ c ∈ whole, c.isDigit = true) :
    unsignedValue (whole ++ '.' :: frac) =
      (Nat.ofDigitChars 10 whole 0 : ℚ) + (Nat.ofDigitChars 10 frac 0 : ℚ) / 10 ^ frac.length := by
  have hp : ∀ c ∈ whole, decide (c ≠ '.') = true := fun c hc => by
    simpa using digit_ne (h c hc) (by decide)
  unfold unsignedValue
  rw [List.takeWhile_append_of_pos hp, List.dropWhile_append_of_pos hp]
  simp

theorem decValue_digits {c : Char} {s : Str} (h : c.isDigit = true) : decValue (c :: s) = unsignedValue (c :: s) := by
  have := digit_ne h (e := '-') (by decide)
  unfold decValue
  split
  · rename_i e
    exact absurd (List.cons.inj e).1 this
  · rfl

/-- the rounded number of units in the last place -/
def units (d : ℕ) (x : ℚ) : ℕ := (roundHalfEven (|x| * 10 ^ d)).toNat

theorem units_cast (d : ℕ) (x : ℚ) : ((units d x : ℕ) : ℚ) = (roundHalfEven (|x| * 10 ^ d) : ℤ) := by
  have h : 0 ≤ roundHalfEven (|x| * 10 ^ d) := roundHalfEven_nonneg (by positivity)
  have := Int.toNat_of_nonneg h
  unfold units
  exact_mod_cast congrArg (fun z : ℤ => (z : ℚ)) this

/-- the digits behind the point -/
def fracStr (d : ℕ) (x : ℚ) : Str :=
  List.replicate (d - (Nat.toDigits 10 (units d x % 10 ^ d)).length) '0' ++ Nat.toDigits 10 (units d x % 10 ^ d)

theorem fracStr_length {d : ℕ} (hd : 0 < d) (x : ℚ) : (fracStr d x).length = d := by
  have := (Nat.length_toDigits_le_iff (b := 10) (n := units d x % 10 ^ d) (by decide) hd).2
    (Nat.mod_lt _ (by positivity))
  unfold fracStr
  rw [List.length_append, List.length_replicate]
  omega

theorem fracStr_digit {d : ℕ} {x : ℚ} {c : Char} (h : c ∈ fracStr d x) : c.isDigit = true := by
  rcases List.mem_append.1 h with h | h
  · rw [List.eq_of_mem_replicate h]; decide
  · exact toDigits_digit h

theorem fracStr_value (d : ℕ) (x : ℚ) : Nat.ofDigitChars 10 (fracStr d x) 0 = units d x % 10 ^ d := by
  unfold fracStr
  rw [Nat.ofDigitChars_append, Nat.ofDigitChars_replicate_zero, Nat.mul_zero, Nat.ofDigitChars_ten_toDigits]

theorem fixedStr_eq (d : ℕ) (x : ℚ) : fixedStr d x =
    (if x < 0 then ['-'] else []) ++ (Nat.toDigits 10 (units d x / 10 ^ d) ++ '.' :: fracStr d x) := rfl

theorem fixed_form {d : ℕ} (hd : 0 < d) (x : ℚ) : DecText d (fixedStr d x) :=
  ⟨_, _, _, fixedStr_eq d x, by split_ifs <;> simp, Nat.toDigits_ne_nil, fracStr_length hd x,
    fun _ h => toDigits_digit h, fun _ h => fracStr_digit h⟩

theorem fixed_value {d : ℕ} (hd : 0 < d) (x : ℚ) : decValue (fixedStr d x) =
    (if x < 0 then -((units d x : ℕ) : ℚ) else (units d x : ℕ)) / 10 ^ d := by
  have hu : unsignedValue (Nat.toDigits 10 (units d x / 10 ^ d) ++ '.' :: fracStr d x) = (units d x : ℕ) / 10 ^ d := by
    rw [unsignedValue_eq (fun _ h => toDigits_digit h), Nat.ofDigitChars_ten_toDigits, fracStr_value, fracStr_length hd]
    have h10 : (10 : ℚ) ^ d ≠ 0 := by positivity
    have h : (((10 ^ d) * (units d x / 10 ^ d) + units d x % 10 ^ d : ℕ) : ℚ) = (units d x : ℕ) := by
      rw [Nat.div_add_mod]
    push_cast at h
    rw [← h]
    field_simp
  rw [fixedStr_eq]
  split_ifs with hx
  · show -unsignedValue (Nat.toDigits 10 (units d x / 10 ^ d) ++ '.' :: fracStr d x) = _
    rw [hu, neg_div]
  · rw [List.nil_append, ← hu]
    cases e : Nat.toDigits 10 (units d x / 10 ^ d) with
    | nil => exact absurd e Nat.toDigits_ne_nil
    | cons c s => exact decValue_digits (toDigits_digit (n := units d x / 10 ^ d) (by rw [e]; exact List.mem_cons_self))

/-- **C175, accuracy.** The text of a number is a decimal with d places that differs from it by at most half a unit of
the last place. -/
theorem C175_number {d : ℕ} (hd : 0 < d) (x : ℚ) :
    DecText d (fixedStr d x) ∧ |decValue (fixedStr d x) - x| ≤ 1 / (2 * 10 ^ d) := by
  refine ⟨fixed_form hd x, ?_⟩
  have h10 : (0 : ℚ) < 10 ^ d := by positivity
  have hn := roundHalfEven_near (|x| * 10 ^ d)
  rw [← units_cast] at hn
  have key : abs (((units d x : ℕ) : ℚ) / 10 ^ d - abs x) ≤ 1 / (2 * 10 ^ d) := by
    have e : ((units d x : ℕ) : ℚ) / 10 ^ d - abs x = ((units d x : ℕ) - abs x * 10 ^ d) / 10 ^ d := by field_simp
    rw [e, abs_div, abs_of_pos h10, ← div_div, div_le_div_iff_of_pos_right h10, abs_le]
    constructor <;> linarith [hn.1, hn.2]
  rw [fixed_value hd]
  split_ifs with hx
  · rw [abs_of_neg hx] at key
    rw [← abs_neg]
    have e : -(-((units d x : ℕ) : ℚ) / 10 ^ d - x) = ((units d x : ℕ) : ℚ) / 10 ^ d - -x := by ring
    rwa [e]
  · rw [abs_of_nonneg (not_lt.1 hx)] at key
    exact key

/-- **C175, order.** A number that is printed as a smaller number is smaller. -/
theorem C175_order {d : ℕ} (hd : 0 < d) {x y : ℚ} (h : decValue (fixedStr d x) < decValue (fixedStr d y)) : x < y := by
  by_contra hxy
  have hxy := not_lt.1 hxy
  refine absurd h (not_lt.2 ?_)
  have h10 : (0 : ℚ) < 10 ^ d := by positivity
  have mono : ∀ {a b : ℚ}, |a| ≤ |b| → ((units d a : ℕ) : ℚ) ≤ (units d b : ℕ) := by
    intro a b hab
    rw [units_cast, units_cast]
    exact_mod_cast roundHalfEven_mono (mul_le_mul_of_nonneg_right hab h10.le)
  rw [fixed_value hd, fixed_value hd, div_le_div_iff_of_pos_right h10]
  split_ifs with hy hx hx
  · rw [neg_le_neg_iff]
    exact mono (by rw [abs_of_neg hx, abs_of_neg hy]; linarith)
  · exact (neg_nonpos.2 (Nat.cast_nonneg _)).trans (Nat.cast_nonneg _)
  · exact absurd (lt_of_le_of_lt hxy hx) hy
  · exact mono (by rw [abs_of_nonneg (not_lt.1 hx), abs_of_nonneg (not_lt.1 hy)]; exact hxy)

/-- **C175, ties.** Different averages can be printed as the same number: every two within an interval of half a
thousandth above a multiple of a thousandth. -/
theorem C175_ties (n : ℕ) {t u : ℚ} (ht : 0 ≤ t) (ht' : t < 1 / 2000) (hu : 0 ≤ u) (hu' : u < 1 / 2000) :
    fixedStr 3 ((n : ℚ) / 1000 + t) = fixedStr 3 ((n : ℚ) / 1000 + u) := by
  have key : ∀ v : ℚ, 0 ≤ v → v < 1 / 2000 → units 3 ((n : ℚ) / 1000 + v) = n ∧ ¬ ((n : ℚ) / 1000 + v < 0) := by
    intro v hv hv'
    have h0 : (0 : ℚ) ≤ (n : ℚ) / 1000 + v := by positivity
    refine ⟨?_, not_lt.2 h0⟩
    have hf : ⌊|(n : ℚ) / 1000 + v| * 10 ^ 3⌋ = (n : ℤ) := by
      rw [abs_of_nonneg h0, Int.floor_eq_iff]
      constructor
      · push_cast; linarith
      · push_cast; linarith
    unfold units roundHalfEven
    rw [hf, if_pos]
    · rfl
    · rw [abs_of_nonneg h0]
      push_cast
      linarith
  have h1 := key t ht ht'
  have h2 := key u hu hu'
  rw [fixedStr_eq, fixedStr_eq, fracStr, fracStr, h1.1, h2.1, if_neg h1.2, if_neg h2.2]

theorem cellText_shows {file : Option (Series ℚ)} {metric : Str} {c : TableCell ℚ} (h : CellFor file metric c) :
    PrintsMean file metric (cellText c) := by
  rcases h with ⟨s, y, h1, h2, h3, h4⟩ | ⟨h1, rfl⟩
  · refine Or.inl ⟨s, y, h1, h2, h3, ?_⟩
    rcases h4 with ⟨hy, rfl⟩ | ⟨hy, rfl⟩
    · exact Or.inl ⟨hy, rfl⟩
    · have := C175_number (d := 3) (by decide) (y.sum / (y.length : ℚ))
      refine Or.inr ⟨hy, this.1, this.2.trans (by norm_num)⟩
  · exact Or.inr ⟨h1, rfl⟩

/-! ### Tables -/

/-- the labels of the rows of the first table -/
def firstLabels : List (Str × Str) := tableSets.flatMap fun s => tableMetrics.map fun m => (s, m)

/-- the shown data set in a row of the first table -/
def shownSet (l : Str × Str) : Str :=
  if l.2 = "hr".toList then "\\multirow[t]{4}{*}{".toList ++ l.1 ++ "}".toList else []

/-- the shown metric in a row of the second table -/
def shownMetric (l : Str × Str) : Str := if l.2 = "PSIRec".toList then l.1 else []

theorem tableOne_eq (files : Str → Str → Option (Series ℚ)) :
    tableOne files = .ok (firstLabels.map fun l => (l, tableModels.map fun m => cellAt (files l.1 m) l.2)) := by
  have hrows : ∀ s, frameRows (tableFrame files s) =
      tableMetrics.map fun i => tableModels.map fun m => cellAt (files s m) i := by
    intro s
    unfold frameRows
    rw [frame_index, tableFrame_eq]
    rfl
  unfold tableOne
  simp only [List.flatMap_map, frame_index, hrows]
  rfl

theorem zip_map_self {α β γ : Type} (f : α → β) (g : α → γ) : ∀ l : List α,
    (l.map f).zip (l.map g) = l.map fun a => (f a, g a)
  | [] => rfl
  | a :: l => by simp [zip_map_self f g l]

theorem tableOneText_eq (files : Str → Str → Option (Series ℚ)) :
    tableOneText files = .ok (latexLine ([] :: [] :: tableModels) :: firstLabels.map fun l =>
      latexLine (shownSet l :: l.2 :: tableModels.map fun m => cellText (cellAt (files l.1 m) l.2))) := by
  unfold tableOneText frameLines
  rw [tableOne_eq]
  simp only [except_bind_ok, List.map_map, Function.comp_def]
  have h : sparseLevel true (labelGroups (firstLabels.map fun l => l.1)) = firstLabels.map shownSet := by decide +kernel
  rw [h, zip_map_self, List.map_map]
  rfl

theorem tableTwoText_eq (files : Str → Str → Option (Series ℚ)) :
    tableTwoText files = latexLine ([] :: [] :: tableSets) :: secondLabels.map fun l =>
      latexLine (shownMetric l :: l.2 :: tableSets.map fun s => cellText (cellAt (files s l.2) l.1)) := by
  unfold tableTwoText frameLines
  rw [tableTwo_eq]
  simp only [List.map_map, Function.comp_def]
  have h : sparseLevel false (labelGroups (secondLabels.map fun l => l.1)) = secondLabels.map shownMetric := by
    decide +kernel
  rw [h, zip_map_self, List.map_map]
  rfl

theorem mem_secondLabels (l : Str × Str) : l ∈ secondLabels ↔ l.1 ∈ tableMetrics ∧ l.2 ∈ tableModels := by
  unfold secondLabels
  rw [mem_stableSort, List.mem_flatMap]
  constructor
  · rintro ⟨m, hm, h⟩
    obtain ⟨i, hi, rfl⟩ := List.mem_map.1 h
    exact ⟨hi, hm⟩
  · rintro ⟨h1, h2⟩
    exact ⟨l.2, h2, List.mem_map.2 ⟨l.1, h1, rfl⟩⟩

/-- **C175, the first table.** Below the header there is one line for each data set and metric, in this order. It shows
the metric and then, for each model in the order of the header, the average of the series to within half a thousandth. -/
theorem C175_first (files : Str → Str → Option (Series ℚ)) :
    ∃ body, tableOneText files = .ok (latexLine ([] :: [] :: tableModels) :: body) ∧
      List.Forall₂ (fun (l : Str × Str) line => ∃ label cells,
        line = List.intercalate " & ".toList (label :: l.2 :: cells) ++ " \\\\".toList ∧
        List.Forall₂ (fun m c => PrintsMean (files l.1 m) l.2 c) tableModels cells)
        (tableSets.flatMap fun s => tableMetrics.map fun m => (s, m)) body := by
  refine ⟨_, tableOneText_eq files, ?_⟩
  rw [List.forall₂_map_right_iff]
  refine List.forall₂_same.2 fun l hl => ⟨_, _, rfl, ?_⟩
  rw [List.forall₂_map_right_iff]
  obtain ⟨s, _, hl⟩ := List.mem_flatMap.1 hl
  obtain ⟨i, hi, rfl⟩ := List.mem_map.1 hl
  exact List.forall₂_same.2 fun m _ => cellText_shows ((tableColumn_cells (files s m)).2 i hi)

/-- **C175, the second table.** Below the header there is one line for each metric and model, in alphabetical order; it
shows the model and then, for each data set in the order of the header, the average to within half a thousandth. -/
theorem C175_second (files : Str → Str → Option (Series ℚ)) :
    ∃ (labels : List (Str × Str)) (body : List Str), tableTwoText files = latexLine ([] :: [] :: tableSets) :: body ∧
      (∀ l : Str × Str, l ∈ labels ↔ l.1 ∈ tableMetrics ∧ l.2 ∈ tableModels) ∧
      labels.Pairwise (fun a b => a.1 < b.1 ∨ (a.1 = b.1 ∧ a.2 < b.2)) ∧
      List.Forall₂ (fun (l : Str × Str) line => ∃ label cells,
        line = List.intercalate " & ".toList (label :: l.2 :: cells) ++ " \\\\".toList ∧
        List.Forall₂ (fun s c => PrintsMean (files s l.2) l.1 c) tableSets cells) labels body := by
  refine ⟨secondLabels, _, tableTwoText_eq files, mem_secondLabels, second_labels, ?_⟩
  rw [List.forall₂_map_right_iff]
  refine List.forall₂_same.2 fun l hl => ⟨_, _, rfl, ?_⟩
  rw [List.forall₂_map_right_iff]
  exact List.forall₂_same.2 fun s _ => cellText_shows ((tableColumn_cells (files s l.2)).2 l.1 ((mem_secondLabels l).1 hl).1)

/-- **C175, headers and row labels.** The headers name the models and the data sets in the order of the columns; the rows
of the first table belong to the data sets and metrics in the written order. -/
theorem C175_headers (files : Str → Str → Option (Series ℚ)) :
    (∃ body, tableOneText files = .ok (" &  & SVD & PSIRec & TDRec & TDRecReinit & TIRec & TIRecA \\\\".toList :: body)) ∧
    (tableTwoText files).head? = some " &  & ml_20m & amz_b & amz_g & steam \\\\".toList ∧
    (∃ t, tableOne files = .ok t ∧ t.map Prod.fst =
      ["ml_20m".toList, "amz_b".toList, "amz_g".toList, "steam".toList].flatMap fun s =>
        [(s, "hr".toList), (s, "mrr".toList), (s, "wji".toList), (s, "calculation_time".toList)]) ∧
    tableModels = ["SVD", "PSIRec", "TDRec", "TDRecReinit", "TIRec", "TIRecA"].map String.toList ∧
    tableSets = ["ml_20m", "amz_b", "amz_g", "steam"].map String.toList := by
  have hone : latexLine ([] :: [] :: tableModels) =
      " &  & SVD & PSIRec & TDRec & TDRecReinit & TIRec & TIRecA \\\\".toList := by decide +kernel
  refine ⟨⟨_, hone ▸ tableOneText_eq files⟩, ?_, ⟨_, tableOne_eq files, ?_⟩, by decide +kernel, by decide +kernel⟩
  · rw [tableTwoText_eq, List.head?_cons, show latexLine ([] :: [] :: tableSets) =
      " &  & ml_20m & amz_b & amz_g & steam \\\\".toList by decide +kernel]
  · rw [List.map_map]
    exact (List.map_id firstLabels).trans (by decide +kernel)

/-! ### Reading by LaTeX -/

/-- What LaTeX sees of a line: a per cent sign that is not part of a command `\%` hides the rest. -/
def texSeen : Str → Str
  | [] => []
  | '\\' :: c :: s => '\\' :: c :: texSeen s
  | '%' :: _ => []
  | c :: s => c :: texSeen s

/-- The characters of a text that are not part of a command of one sign. -/
def texPlain : Str → Str
  | [] => []
  | '\\' :: _ :: s => texPlain s
  | c :: s => c :: texPlain s

/-- The row of a line is closed. -/
def Closed (line : Str) : Prop := " \\\\".toList <:+ texSeen line

/-- LaTeX accepts the characters of a line outside formulas. -/
def Accepted (line : Str) : Prop :=
  ∀ c ∈ texPlain (texSeen line), c ≠ '_' ∧ c ≠ '^' ∧ c ≠ '#' ∧ c ≠ '$'

/-- no command, no comment -/
def NoTex (s : Str) : Prop := ∀ c ∈ s, c ≠ '\\' ∧ c ≠ '%'

theorem texSeen_append {a : Str} (h : NoTex a) (b : Str) : texSeen (a ++ b) = a ++ texSeen b := by
  induction a with
  | nil => rfl
  | cons c a ih =>
    have hc := h c List.mem_cons_self
    have := ih fun e he => h e (List.mem_cons_of_mem _ he)
    rw [List.cons_append, List.cons_append, ← this]
    conv_lhs => unfold texSeen
    split
    · rename_i e; cases e
    · rename_i e; exact absurd (List.cons.inj e).1 hc.1
    · rename_i e; exact absurd (List.cons.inj e).1 hc.2
    · rename_i e; obtain ⟨rfl, rfl⟩ := List.cons.inj e; rfl

theorem texPlain_append {a : Str} (h : NoTex a) (b : Str) : texPlain (a ++ b) = a ++ texPlain b := by
  induction a with
  | nil => rfl
  | cons c a ih =>
    have hc := h c List.mem_cons_self
    have := ih fun e he => h e (List.mem_cons_of_mem _ he)
    rw [List.cons_append, List.cons_append, ← this]
    conv_lhs => unfold texPlain
    split
    · rename_i e; cases e
    · rename_i e; exact absurd (List.cons.inj e).1 hc.1
    · rename_i e; obtain ⟨rfl, rfl⟩ := List.cons.inj e; rfl

theorem noTex_intercalate {sep : Str} (hs : NoTex sep) : ∀ {l : List Str}, (∀ s ∈ l, NoTex s) →
    NoTex (List.intercalate sep l)
  | [], _ => by intro c hc; simp at hc
  | [a], h => by rw [List.intercalate_singleton]; exact h a List.mem_cons_self
  | a :: b :: l, h => by
    rw [List.intercalate_cons_cons]
    intro c hc
    rcases List.mem_append.1 hc with hc | hc
    · rcases List.mem_append.1 hc with hc | hc
      · exact h a List.mem_cons_self c hc
      · exact hs c hc
    · exact noTex_intercalate hs (fun s hs => h s (List.mem_cons_of_mem _ hs)) c hc

theorem mem_intercalate {sep : Str} {c : Char} : ∀ {l : List Str}, c ∈ List.intercalate sep l →
    c ∈ sep ∨ ∃ s ∈ l, c ∈ s
  | [], h => by simp at h
  | [a], h => by rw [List.intercalate_singleton] at h; exact Or.inr ⟨a, List.mem_cons_self, h⟩
  | a :: b :: l, h => by
    rw [List.intercalate_cons_cons] at h
    rcases List.mem_append.1 h with h | h
    · rcases List.mem_append.1 h with h | h
      · exact Or.inr ⟨a, List.mem_cons_self, h⟩
      · exact Or.inl h
    · rcases mem_intercalate h with h | ⟨s, hs, hc⟩
      · exact Or.inl h
      · exact Or.inr ⟨s, List.mem_cons_of_mem _ hs, hc⟩

theorem mem_intercalate_of {sep : Str} {c : Char} {s : Str} (hc : c ∈ s) : ∀ {l : List Str}, s ∈ l →
    c ∈ List.intercalate sep l
  | [a], h => by rw [List.intercalate_singleton, ← List.mem_singleton.1 h]; exact hc
  | a :: b :: l, h => by
    rw [List.intercalate_cons_cons]
    rcases List.mem_cons.1 h with rfl | h
    · exact List.mem_append_left _ (List.mem_append_left _ hc)
    · exact List.mem_append_right _ (mem_intercalate_of hc h)

theorem count_intercalate_amp : ∀ {l : List Str}, (∀ s ∈ l, '&' ∉ s) →
    (List.intercalate " & ".toList l).count '&' = l.length - 1
  | [], _ => rfl
  | [a], h => by
    rw [List.intercalate_singleton]
    exact List.count_eq_zero.2 (h a List.mem_cons_self)
  | a :: b :: l, h => by
    rw [List.intercalate_cons_cons, List.count_append, List.count_append,
      List.count_eq_zero.2 (h a List.mem_cons_self),
      count_intercalate_amp (l := b :: l) fun s hs => h s (List.mem_cons_of_mem _ hs)]
    have : (" & ".toList).count '&' = 1 := by decide
    rw [this]
    simp only [List.length_cons]
    omega

/-- no special characters at all -/
def TexSafe (s : Str) : Prop :=
  ∀ c ∈ s, c ≠ '\\' ∧ c ≠ '%' ∧ c ≠ '&' ∧ c ≠ '_' ∧ c ≠ '^' ∧ c ≠ '#' ∧ c ≠ '$'

theorem TexSafe.noTex {s : Str} (h : TexSafe s) : NoTex s := fun c hc => ⟨(h c hc).1, (h c hc).2.1⟩

theorem digit_safe {c : Char} (h : c.isDigit = true) :
    c ≠ '\\' ∧ c ≠ '%' ∧ c ≠ '&' ∧ c ≠ '_' ∧ c ≠ '^' ∧ c ≠ '#' ∧ c ≠ '$' :=
  ⟨digit_ne h (by decide), digit_ne h (by decide), digit_ne h (by decide), digit_ne h (by decide),
    digit_ne h (by decide), digit_ne h (by decide), digit_ne h (by decide)⟩

theorem fixed_safe (d : ℕ) (x : ℚ) : TexSafe (fixedStr d x) := by
  rw [fixedStr_eq]
  intro c hc
  rcases List.mem_append.1 hc with hc | hc
  · split_ifs at hc
    · rw [List.mem_singleton.1 hc]; decide
    · simp at hc
  · rcases List.mem_append.1 hc with hc | hc
    · exact digit_safe (toDigits_digit hc)
    · rcases List.mem_cons.1 hc with rfl | hc
      · decide
      · exact digit_safe (fracStr_digit hc)

theorem intStr_safe (n : ℤ) : TexSafe (intStr n) := by
  intro c hc
  rcases List.mem_append.1 hc with hc | hc
  · split_ifs at hc
    · rw [List.mem_singleton.1 hc]; decide
    · simp at hc
  · exact digit_safe (toDigits_digit hc)

theorem cellText_safe (c : TableCell ℚ) : TexSafe (cellText c) := by
  cases c with
  | num x => exact fixed_safe 3 x
  | nan => unfold cellText TexSafe; decide
  | dash => unfold cellText TexSafe; decide

theorem line_seen {cells : List Str} (h : ∀ s ∈ cells, NoTex s) : texSeen (latexLine cells) = latexLine cells := by
  unfold latexLine
  rw [texSeen_append (noTex_intercalate (by unfold NoTex; decide) h)]
  rfl

theorem line_closed {cells : List Str} (h : ∀ s ∈ cells, NoTex s) : Closed (latexLine cells) := by
  unfold Closed
  rw [line_seen h]
  exact List.suffix_append _ _

theorem line_accepted {cells : List Str} (h : ∀ s ∈ cells, NoTex s) : Accepted (latexLine cells) ↔
    ∀ s ∈ cells, ∀ c ∈ s, c ≠ '_' ∧ c ≠ '^' ∧ c ≠ '#' ∧ c ≠ '$' := by
  have hp : texPlain (latexLine cells) = List.intercalate " & ".toList cells ++ " ".toList := by
    unfold latexLine
    rw [texPlain_append (noTex_intercalate (by unfold NoTex; decide) h)]
    rfl
  unfold Accepted
  rw [line_seen h, hp]
  constructor
  · intro H s hs c hc
    exact H c (List.mem_append_left _ (mem_intercalate_of hc hs))
  · intro H c hc
    rcases List.mem_append.1 hc with hc | hc
    · rcases mem_intercalate hc with hc | ⟨s, hs, hc⟩
      · exact (show ∀ c ∈ " & ".toList, c ≠ '_' ∧ c ≠ '^' ∧ c ≠ '#' ∧ c ≠ '$' by decide) c hc
      · exact H s hs c hc
    · exact (show ∀ c ∈ " ".toList, c ≠ '_' ∧ c ≠ '^' ∧ c ≠ '#' ∧ c ≠ '$' by decide) c hc

theorem line_amp {cells : List Str} (h : ∀ s ∈ cells, '&' ∉ s) :
    (latexLine cells).count '&' = cells.length - 1 := by
  unfold latexLine
  rw [List.count_append, count_intercalate_amp h, show (" \\\\".toList).count '&' = 0 by decide, Nat.add_zero]

/-- a command at the start of the first cell changes nothing -/
theorem command_line {c : Char} {s : Str} {cells : List Str} :
    (Closed (latexLine (s :: cells)) → Closed (latexLine (('\\' :: c :: s) :: cells))) ∧
    (Accepted (latexLine (('\\' :: c :: s) :: cells)) ↔ Accepted (latexLine (s :: cells))) := by
  have h : latexLine (('\\' :: c :: s) :: cells) = '\\' :: c :: latexLine (s :: cells) := by
    unfold latexLine
    cases cells with
    | nil => simp
    | cons a l => rw [List.intercalate_cons_cons, List.intercalate_cons_cons]; rfl
  have hs : texSeen ('\\' :: c :: latexLine (s :: cells)) = '\\' :: c :: texSeen (latexLine (s :: cells)) := by
    rw [texSeen]
  rw [h]
  constructor
  · intro H
    unfold Closed
    rw [hs]
    exact H.trans ⟨['\\', c], rfl⟩
  · unfold Accepted
    rw [hs]
    rw [texPlain]

theorem first_facts : ∀ l ∈ firstLabels,
    ((shownSet l = [] ∧ ¬ l.2 = "hr".toList) ∨ (l.2 = "hr".toList ∧
      shownSet l = '\\' :: 'm' :: ("ultirow[t]{4}{*}{".toList ++ l.1 ++ "}".toList))) ∧
    (∀ c ∈ l.1, c ≠ '\\' ∧ c ≠ '%' ∧ c ≠ '&') ∧ (∀ c ∈ l.2, c ≠ '\\' ∧ c ≠ '%' ∧ c ≠ '&') ∧
    ((∀ c ∈ l.2, c ≠ '_' ∧ c ≠ '^' ∧ c ≠ '#' ∧ c ≠ '$') ↔ l.2 ≠ "calculation_time".toList) ∧
    ((∀ c ∈ l.1, c ≠ '_' ∧ c ≠ '^' ∧ c ≠ '#' ∧ c ≠ '$') ↔ l.1 = "steam".toList) := by
  decide +kernel

theorem noTex_of {s : Str} (h : ∀ c ∈ s, c ≠ '\\' ∧ c ≠ '%' ∧ c ≠ '&') : NoTex s :=
  fun c hc => ⟨(h c hc).1, (h c hc).2.1⟩

/-- **C176, violated by the first table of results.** Whatever the result files are, the printed text is refused by
LaTeX: the names of data sets and metrics keep their underscores. -/
theorem C176_first_violated (files : Str → Str → Option (Series ℚ)) :
    ∃ lines, tableOneText files = .ok lines ∧ ∃ l ∈ lines, ¬ Accepted l := by
  refine ⟨_, tableOneText_eq files, _, List.mem_cons_of_mem _ (List.mem_map.2
    ⟨("steam".toList, "calculation_time".toList), by decide +kernel, rfl⟩), ?_⟩
  rw [line_accepted]
  · intro H
    exact absurd (H "calculation_time".toList (by simp) '_' (by decide)) (by decide)
  · intro s hs
    rcases List.mem_cons.1 hs with rfl | hs
    · unfold NoTex; decide
    · rcases List.mem_cons.1 hs with rfl | hs
      · unfold NoTex; decide
      · obtain ⟨m, _, rfl⟩ := List.mem_map.1 hs
        exact (cellText_safe _).noTex

/-- **C176, violated by the second table of results**, already in its header. -/
theorem C176_second_violated (files : Str → Str → Option (Series ℚ)) :
    ∃ l ∈ tableTwoText files, ¬ Accepted l := by
  refine ⟨_, by rw [tableTwoText_eq]; exact List.mem_cons_self, ?_⟩
  unfold Accepted
  decide +kernel

/-- **C176, violated by the table of data statistics.** Whatever the files are, the per cent sign in the last column
name hides the end of the header from LaTeX, so that its row is not closed. -/
theorem C176_stats_violated {files : Str → Option (Dict Str ℚ)} {lines : List Str} (h : statsText files = .ok lines) :
    ∃ l, lines.head? = some l ∧ ¬ Closed l ∧ ¬ Accepted l ∧
      texSeen l = "dataset & n_users & n_items & n_interactions & n_items_median & density".toList := by
  unfold statsText at h
  obtain ⟨rows, _, h⟩ := (bind_ok_iff _ _ _).1 h
  have h := Except.ok.inj h
  subst h
  refine ⟨_, rfl, ?_, ?_, by decide +kernel⟩
  · unfold Closed; decide +kernel
  · unfold Accepted; decide +kernel

/-- **C176, the rows of the first table.** All lines are closed and have eight cells; LaTeX accepts exactly the header and
the rows of the metrics other than the time that do not show a data set other than Steam. -/
theorem C176_first_partial (files : Str → Str → Option (Series ℚ)) :
    ∃ header body, tableOneText files = .ok (header :: body) ∧
      (∀ l ∈ header :: body, Closed l ∧ l.count '&' = 7) ∧ Accepted header ∧
      List.Forall₂ (fun (l : Str × Str) line => Accepted line ↔
        l.2 ≠ "calculation_time".toList ∧ (l.2 = "hr".toList → l.1 = "steam".toList))
        (tableSets.flatMap fun s => tableMetrics.map fun m => (s, m)) body := by
  refine ⟨_, _, tableOneText_eq files, ?_, ?_, ?_⟩
  · intro line hline
    rcases List.mem_cons.1 hline with rfl | hline
    · exact ⟨by unfold Closed; decide +kernel, by decide +kernel⟩
    · obtain ⟨l, hl, rfl⟩ := List.mem_map.1 hline
      obtain ⟨h1, h2, h3, _, _⟩ := first_facts l hl
      have hcells : ∀ s ∈ tableModels.map (fun m => cellText (cellAt (files l.1 m) l.2)), TexSafe s := by
        intro s hs
        obtain ⟨m, _, rfl⟩ := List.mem_map.1 hs
        exact cellText_safe _
      constructor
      · rcases h1 with ⟨e, _⟩ | ⟨_, e⟩
        · rw [e]
          refine line_closed fun s hs => ?_
          rcases List.mem_cons.1 hs with rfl | hs
          · intro c hc; simp at hc
          · rcases List.mem_cons.1 hs with rfl | hs
            · exact noTex_of h3
            · exact (hcells s hs).noTex
        · rw [e]
          refine command_line.1 (line_closed fun s hs => ?_)
          rcases List.mem_cons.1 hs with rfl | hs
          · intro c hc
            rcases List.mem_append.1 hc with hc | hc
            · rcases List.mem_append.1 hc with hc | hc
              · exact (show ∀ c ∈ "ultirow[t]{4}{*}{".toList, c ≠ '\\' ∧ c ≠ '%' by decide) c hc
              · exact noTex_of h2 c hc
            · exact (show ∀ c ∈ "}".toList, c ≠ '\\' ∧ c ≠ '%' by decide) c hc
          · rcases List.mem_cons.1 hs with rfl | hs
            · exact noTex_of h3
            · exact (hcells s hs).noTex
      · rw [line_amp]
        · rfl
        · intro s hs
          rcases List.mem_cons.1 hs with rfl | hs
          · unfold shownSet
            split_ifs
            · intro hc
              rcases List.mem_append.1 hc with hc | hc
              · rcases List.mem_append.1 hc with hc | hc
                · exact absurd hc (by decide)
                · exact (h2 _ hc).2.2 rfl
              · exact absurd hc (by decide)
            · simp
          · rcases List.mem_cons.1 hs with rfl | hs
            · exact fun hc => (h3 _ hc).2.2 rfl
            · exact fun hc => (hcells s hs _ hc).2.2.1 rfl
  · unfold Accepted; decide +kernel
  · rw [List.forall₂_map_right_iff]
    refine List.forall₂_same.2 fun l hl => ?_
    obtain ⟨h1, h2, h3, h4, h5⟩ := first_facts l hl
    have hcells : ∀ s ∈ tableModels.map (fun m => cellText (cellAt (files l.1 m) l.2)), TexSafe s := by
      intro s hs
      obtain ⟨m, _, rfl⟩ := List.mem_map.1 hs
      exact cellText_safe _
    have good : ∀ s ∈ tableModels.map (fun m => cellText (cellAt (files l.1 m) l.2)), ∀ c ∈ s,
        c ≠ '_' ∧ c ≠ '^' ∧ c ≠ '#' ∧ c ≠ '$' := fun s hs c hc => (hcells s hs c hc).2.2.2
    rcases h1 with ⟨e, hne⟩ | ⟨he, e⟩
    · rw [e, line_accepted]
      · constructor
        · intro H
          exact ⟨h4.1 (H l.2 (by simp)), fun h => absurd h hne⟩
        · rintro ⟨ha, _⟩ s hs
          rcases List.mem_cons.1 hs with rfl | hs
          · simp
          · rcases List.mem_cons.1 hs with rfl | hs
            · exact h4.2 ha
            · exact good s hs
      · intro s hs
        rcases List.mem_cons.1 hs with rfl | hs
        · intro c hc; simp at hc
        · rcases List.mem_cons.1 hs with rfl | hs
          · exact noTex_of h3
          · exact (hcells s hs).noTex
    · rw [e, command_line.2, line_accepted]
      · constructor
        · intro H
          refine ⟨h4.1 (H l.2 (by simp)), fun _ => h5.1 fun c hc => H _ List.mem_cons_self c ?_⟩
          exact List.mem_append_left _ (List.mem_append_right _ hc)
        · rintro ⟨ha, hb⟩ s hs
          rcases List.mem_cons.1 hs with rfl | hs
          · intro c hc
            rcases List.mem_append.1 hc with hc | hc
            · rcases List.mem_append.1 hc with hc | hc
              · exact (show ∀ c ∈ "ultirow[t]{4}{*}{".toList, c ≠ '_' ∧ c ≠ '^' ∧ c ≠ '#' ∧ c ≠ '$' by decide) c hc
              · exact h5.2 (hb he) c hc
            · exact (show ∀ c ∈ "}".toList, c ≠ '_' ∧ c ≠ '^' ∧ c ≠ '#' ∧ c ≠ '$' by decide) c hc
          · rcases List.mem_cons.1 hs with rfl | hs
            · exact h4.2 ha
            · exact good s hs
      · intro s hs
        rcases List.mem_cons.1 hs with rfl | hs
        · intro c hc
          rcases List.mem_append.1 hc with hc | hc
          · rcases List.mem_append.1 hc with hc | hc
            · exact (show ∀ c ∈ "ultirow[t]{4}{*}{".toList, c ≠ '\\' ∧ c ≠ '%' by decide) c hc
            · exact noTex_of h2 c hc
          · exact (show ∀ c ∈ "}".toList, c ≠ '\\' ∧ c ≠ '%' by decide) c hc
        · rcases List.mem_cons.1 hs with rfl | hs
          · exact noTex_of h3
          · exact (hcells s hs).noTex

theorem second_facts : ∀ l ∈ secondLabels,
    (∀ c ∈ shownMetric l, c ≠ '\\' ∧ c ≠ '%' ∧ c ≠ '&') ∧ TexSafe l.2 ∧
    ((∀ c ∈ shownMetric l, c ≠ '_' ∧ c ≠ '^' ∧ c ≠ '#' ∧ c ≠ '$') ↔ l ≠ ("calculation_time".toList, "PSIRec".toList)) := by
  unfold TexSafe
  decide +kernel

/-- **C176, the rows of the second table.** All lines are closed and have six cells; LaTeX refuses the header and the row
that shows `calculation_time`, and accepts all others. -/
theorem C176_second_partial (files : Str → Str → Option (Series ℚ)) :
    ∃ header body, tableTwoText files = header :: body ∧
      (∀ l ∈ header :: body, Closed l ∧ l.count '&' = 5) ∧ ¬ Accepted header ∧
      List.Forall₂ (fun (r : (Str × Str) × List (TableCell ℚ)) line => Accepted line ↔
        r.1 ≠ ("calculation_time".toList, "PSIRec".toList)) (tableTwo files) body := by
  have hcells : ∀ (l : Str × Str), ∀ s ∈ tableSets.map (fun m => cellText (cellAt (files m l.2) l.1)), TexSafe s := by
    intro l s hs
    obtain ⟨m, _, rfl⟩ := List.mem_map.1 hs
    exact cellText_safe _
  have hno : ∀ l ∈ secondLabels, ∀ s ∈ shownMetric l :: l.2 :: tableSets.map (fun m => cellText (cellAt (files m l.2) l.1)),
      ∀ c ∈ s, c ≠ '\\' ∧ c ≠ '%' ∧ c ≠ '&' := by
    intro l hl s hs c hc
    obtain ⟨h1, h2, _⟩ := second_facts l hl
    rcases List.mem_cons.1 hs with rfl | hs
    · exact h1 c hc
    · rcases List.mem_cons.1 hs with rfl | hs
      · exact ⟨(h2 c hc).1, (h2 c hc).2.1, (h2 c hc).2.2.1⟩
      · exact ⟨(hcells l s hs c hc).1, (hcells l s hs c hc).2.1, (hcells l s hs c hc).2.2.1⟩
  refine ⟨_, _, tableTwoText_eq files, ?_, ?_, ?_⟩
  · intro line hline
    rcases List.mem_cons.1 hline with rfl | hline
    · exact ⟨by unfold Closed; decide +kernel, by decide +kernel⟩
    · obtain ⟨l, hl, rfl⟩ := List.mem_map.1 hline
      refine ⟨line_closed fun s hs => noTex_of (hno l hl s hs), ?_⟩
      rw [line_amp fun s hs hc => (hno l hl s hs _ hc).2.2 rfl]
      rfl
  · unfold Accepted; decide +kernel
  · rw [tableTwo_eq, List.forall₂_map_right_iff, List.forall₂_map_left_iff]
    refine List.forall₂_same.2 fun l hl => ?_
    obtain ⟨_, h2, h3⟩ := second_facts l hl
    rw [line_accepted fun s hs => noTex_of (hno l hl s hs), ← h3]
    constructor
    · intro H c hc
      exact H _ List.mem_cons_self c hc
    · intro H s hs
      rcases List.mem_cons.1 hs with rfl | hs
      · exact H
      · rcases List.mem_cons.1 hs with rfl | hs
        · exact fun c hc => (h2 c hc).2.2.2
        · exact fun c hc => (hcells l s hs c hc).2.2.2

/-- **C176, the rows of the table of data statistics.** The lines below the header are closed, have six cells and are
accepted. -/
theorem C176_stats_partial {files : Str → Option (Dict Str ℚ)} {lines : List Str} (h : statsText files = .ok lines) :
    lines.length = 5 ∧ ∀ l ∈ lines.tail, Closed l ∧ Accepted l ∧ l.count '&' = 5 := by
  unfold statsText at h
  obtain ⟨rows, hrows, h⟩ := (bind_ok_iff _ _ _).1 h
  have h := Except.ok.inj h
  subst h
  have hf := (mapM_ok_iff _ _ _).1 hrows
  refine ⟨by simp [← hf.length_eq, statsNames], ?_⟩
  intro line hline
  obtain ⟨r, hr, rfl⟩ := List.mem_map.1 hline
  have hname : TexSafe r.dataset := by
    obtain ⟨n, hn, hrow⟩ := forall₂_mem_right hf hr
    have e : r.dataset = n.2 := by
      unfold statsRow at hrow
      split at hrow
      · cases hrow
      · simp only [bind_ok_iff] at hrow
        obtain ⟨_, _, _, _, _, _, _, _, _, _, hrow⟩ := hrow
        rw [← Except.ok.inj hrow]
    rw [e]
    exact (show ∀ n ∈ statsNames, TexSafe n.2 by unfold TexSafe; decide +kernel) n hn
  have hsafe : ∀ s ∈ statsCells r, TexSafe s := by
    intro s hs
    simp only [statsCells, List.mem_cons, List.not_mem_nil, or_false] at hs
    rcases hs with rfl | rfl | rfl | rfl | rfl | rfl
    · exact hname
    · exact intStr_safe _
    · exact intStr_safe _
    · exact intStr_safe _
    · exact intStr_safe _
    · exact fixed_safe _ _
  refine ⟨line_closed fun s hs => (hsafe s hs).noTex,
    (line_accepted fun s hs => (hsafe s hs).noTex).2 fun s hs c hc => (hsafe s hs c hc).2.2.2, ?_⟩
  rw [line_amp fun s hs hc => (hsafe s hs _ hc).2.2.1 rfl]
  rfl

/-- The text of an integer: an optional sign and digits, without a superfluous zero in front. -/
def IntText (n : ℤ) (s : Str) : Prop :=
  ∃ sign digits : Str, s = sign ++ digits ∧ digits ≠ [] ∧ (∀ c ∈ digits, c.isDigit = true) ∧
    ((sign = [] ∧ (Nat.ofDigitChars 10 digits 0 : ℤ) = n) ∨
      (sign = ['-'] ∧ n < 0 ∧ -(Nat.ofDigitChars 10 digits 0 : ℤ) = n)) ∧
    (digits.head? = some '0' → digits = ['0'])

theorem toDigits_head (n : ℕ) (h : (Nat.toDigits 10 n).head? = some '0') : Nat.toDigits 10 n = ['0'] := by
  induction n using Nat.strong_induction_on with
  | _ n ih =>
    by_cases hn : n < 10
    · rw [Nat.toDigits_of_lt_base hn] at h ⊢
      simpa using h
    · have e := Nat.toDigits_of_base_le (b := 10) (n := n) (by decide) (by omega)
      rw [e] at h
      have hne : Nat.toDigits 10 (n / 10) ≠ [] := Nat.toDigits_ne_nil
      rw [List.head?_append_of_ne_nil _ hne] at h
      have h0 := ih (n / 10) (by omega) h
      have hv := Nat.ofDigitChars_ten_toDigits (n := n / 10)
      rw [h0] at hv
      have : Nat.ofDigitChars 10 ['0'] 0 = 0 := by decide +kernel
      omega

theorem intStr_text (n : ℤ) : IntText n (intStr n) := by
  refine ⟨_, _, rfl, Nat.toDigits_ne_nil, fun _ h => toDigits_digit h, ?_, ?_⟩
  · rw [Nat.ofDigitChars_ten_toDigits]
    split_ifs with h
    · exact Or.inr ⟨rfl, h, by omega⟩
    · exact Or.inl ⟨rfl, by omega⟩
  · exact toDigits_head _

/-- **C175, the table of data statistics.** The header names the columns; below it there is one line per row of the
table, with the name of the data set, the four counts in the order of the header, and the density to within half a
millionth. -/
theorem C175_stats {files : Str → Option (Dict Str ℚ)} {rows : List StatsRow} (h : statsTable files = .ok rows) :
    ∃ body, statsText files =
        .ok ("dataset & n_users & n_items & n_interactions & n_items_median & density% \\\\".toList :: body) ∧
      List.Forall₂ (fun (r : StatsRow) line => ∃ users items inter median density,
        line = List.intercalate " & ".toList [r.dataset, users, items, inter, median, density] ++ " \\\\".toList ∧
        IntText r.nUsers users ∧ IntText r.nItems items ∧ IntText r.nInteractions inter ∧
        IntText r.nItemsMedian median ∧ DecText 6 density ∧ |decValue density - r.density| ≤ 1 / 2000000) rows body := by
  have hhead : latexLine statsColumns =
      "dataset & n_users & n_items & n_interactions & n_items_median & density% \\\\".toList := by decide +kernel
  refine ⟨rows.map fun r => latexLine (statsCells r), ?_, ?_⟩
  · unfold statsText
    rw [h, ← hhead]
    rfl
  · rw [List.forall₂_map_right_iff]
    refine List.forall₂_same.2 fun r _ => ⟨_, _, _, _, _, rfl, intStr_text _, intStr_text _, intStr_text _,
      intStr_text _, ?_⟩
    have := C175_number (d := 6) (by decide) r.density
    exact ⟨this.1, this.2.trans (by norm_num)⟩

/-- **C175, no table of data statistics.** The text is missing exactly when the table is, with the same error. -/
theorem C175_stats_error {files : Str → Option (Dict Str ℚ)} {e : PyErr} :
    statsText files = .error e ↔ statsTable files = .error e := by
  unfold statsText
  cases statsTable files <;> simp [bind, Except.bind, pure, Except.pure]

/-! ### Examples -/

example : IntText (-120) "-120".toList ∧ ¬ IntText 12 "13".toList := by
  refine ⟨intStr_text (-120), ?_⟩
  rintro ⟨sign, digits, h, _, _, ⟨rfl, hv⟩ | ⟨rfl, hn, _⟩, _⟩
  · rw [List.nil_append] at h
    rw [← h] at hv
    exact absurd hv (by decide +kernel)
  · omega

example : fixedStr 3 (3 / 8) = "0.375".toList ∧ fixedStr 3 (5 / 16) = "0.312".toList ∧
    fixedStr 3 (-1 / 16) = "-0.062".toList ∧ fixedStr 3 (1 / 4000) = "0.000".toList := by decide +kernel
example : decValue "-0.062".toList = -62 / 1000 ∧ decValue "12.5".toList = 25 / 2 := by decide +kernel
example : DecText 3 "0.375".toList := ⟨[], ['0'], "375".toList, rfl, Or.inl rfl, by decide, rfl, by decide, by decide⟩
example : ¬ (∃ l, tableOneText exFiles = .error l) := by
  obtain ⟨_, h, _⟩ := C175_first exFiles
  rintro ⟨l, h'⟩
  rw [h] at h'
  cases h'
example : (tableTwoText exFiles)[8]? = some " & SVD & - & - & 0.375 & - \\\\".toList := by decide +kernel
example : texSeen "50\\% & a % b".toList = "50\\% & a ".toList ∧ texPlain "a\\_b_c".toList = "ab_c".toList := by
  decide +kernel
example : ∃ lines, statsText (fun _ => some (savedStats ⟨2, 2, 2, 3, 3 / 2, 3 / 2, 75⟩)) = .ok lines ∧
    lines[4]? = some "Steam & 2 & 2 & 3 & 1 & 75.000000 \\\\".toList := ⟨_, rfl, by decide +kernel⟩

end DynCF
