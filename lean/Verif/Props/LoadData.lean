/- Properties C69 and C70: p-core filtering and encoding of a column. -/
import Verif.Model.LoadData
import Verif.Lemmas.Sort
import Verif.Lemmas.Hooi
import Mathlib.Data.Finset.Card
import Mathlib.Data.List.Infix

namespace DynCF

/-! ### C69 -/

/-- Every user and every item of the table has at least `p` rows in it. -/
def IsPCore {α : Type} (user item : α → ℤ) (p : ℤ) (t : List α) : Prop :=
  ∀ r ∈ t, p ≤ t.countP (fun s => decide (user s = user r)) ∧
    p ≤ t.countP (fun s => decide (item s = item r))

theorem pcoreCheck_spec {α : Type} (key : α → ℤ) (p : ℤ) (data : List α) :
    ((pcoreCheck key p data).1 = data.filter fun r =>
      decide (p ≤ data.countP (fun s => decide (key s = key r)))) ∧
    ((pcoreCheck key p data).2 = true ↔
      ∀ r ∈ data, p ≤ data.countP (fun s => decide (key s = key r))) := by
  have hall : ((valueCounts key data).all (fun c => decide (p ≤ c.2)) = true) ↔
      ∀ r ∈ data, p ≤ data.countP (fun s => decide (key s = key r)) := by
    rw [List.all_eq_true]
    constructor
    · intro h r hr
      have := h (key r, _) (List.mem_map.2 ⟨key r, by rw [mem_pdUnique]; exact List.mem_map.2 ⟨r, hr, rfl⟩, rfl⟩)
      rw [List.countP_eq_length_filter]
      simpa using this
    · rintro h ⟨k, n⟩ hc
      obtain ⟨k', hk', heq⟩ := List.mem_map.1 hc
      obtain ⟨rfl, rfl⟩ := Prod.mk.inj heq
      rw [mem_pdUnique] at hk'
      obtain ⟨r, hr, rfl⟩ := List.mem_map.1 hk'
      have := h r hr
      rw [List.countP_eq_length_filter] at this
      simpa using this
  unfold pcoreCheck
  simp only []
  split
  · rename_i h
    refine ⟨?_, by simpa using hall.1 h⟩
    symm
    rw [List.filter_eq_self]
    intro r hr
    simpa using hall.1 h r hr
  · rename_i h
    refine ⟨?_, by simpa using fun h' => h (hall.2 h')⟩
    refine List.filter_congr ?_
    intro r hr
    rw [decide_eq_decide]
    simp only [List.mem_map, List.mem_filter, decide_eq_true_eq, valueCounts]
    constructor
    · rintro ⟨c, ⟨⟨k, hk, rfl⟩, hc⟩, hk'⟩
      simp only at hc hk'
      rw [List.countP_eq_length_filter, ← hk']
      exact hc
    · intro hp
      rw [List.countP_eq_length_filter] at hp
      exact ⟨_, ⟨⟨key r, by rw [mem_pdUnique]; exact List.mem_map.2 ⟨r, hr, rfl⟩, rfl⟩, hp⟩, rfl⟩

theorem pcoreCheck_sublist {α : Type} (key : α → ℤ) (p : ℤ) (data : List α) :
    (pcoreCheck key p data).1.Sublist data := by
  rw [(pcoreCheck_spec key p data).1]
  exact List.filter_sublist

theorem pcoreCheck_true {α : Type} (key : α → ℤ) (p : ℤ) (data : List α)
    (h : (pcoreCheck key p data).2 = true) : (pcoreCheck key p data).1 = data := by
  rw [(pcoreCheck_spec key p data).1, List.filter_eq_self]
  intro r hr
  simpa using (pcoreCheck_spec key p data).2.1 h r hr

theorem pcoreCheck_false {α : Type} (key : α → ℤ) (p : ℤ) (data : List α)
    (h : (pcoreCheck key p data).2 = false) : (pcoreCheck key p data).1.length < data.length := by
  rcases Nat.lt_or_eq_of_le (pcoreCheck_sublist key p data).length_le with h' | h'
  · exact h'
  · exfalso
    have he := (pcoreCheck_sublist key p data).eq_of_length h'
    rw [(pcoreCheck_spec key p data).1, List.filter_eq_self] at he
    have : (pcoreCheck key p data).2 = true := by
      rw [(pcoreCheck_spec key p data).2]
      intro r hr
      simpa using he r hr
    rw [this] at h
    cases h

/-- A part of the table that is a p-core in the column survives the check. -/
theorem pcoreCheck_keeps {α : Type} (key : α → ℤ) (p : ℤ) (data t : List α) (ht : t.Sublist data)
    (h : ∀ r ∈ t, p ≤ t.countP (fun s => decide (key s = key r))) :
    t.Sublist (pcoreCheck key p data).1 := by
  rw [(pcoreCheck_spec key p data).1]
  have : t.filter (fun r => decide (p ≤ data.countP (fun s => decide (key s = key r)))) = t := by
    rw [List.filter_eq_self]
    intro r hr
    rw [decide_eq_true_eq]
    refine (h r hr).trans ?_
    exact_mod_cast ht.countP_le
  rw [← this]
  exact ht.filter _

theorem pcoreFilter_spec {α : Type} (user item : α → ℤ) (p : ℤ) (fuel : ℕ) (data : List α)
    (hf : data.length < fuel) :
    ∃ res, pcoreFilter user item p fuel data = some res ∧ res.Sublist data ∧
      (p = 0 ∨ IsPCore user item p res) ∧
      ∀ t, t.Sublist data → IsPCore user item p t → t.Sublist res := by
  induction fuel generalizing data with
  | zero => omega
  | succ fuel ih =>
    unfold pcoreFilter
    by_cases hp : p = 0
    · rw [if_pos hp]
      exact ⟨data, rfl, List.Sublist.refl _, Or.inl hp, fun t ht _ => ht⟩
    · rw [if_neg hp]
      have hs1 := pcoreCheck_sublist item p data
      have hs2 := pcoreCheck_sublist user p (pcoreCheck item p data).1
      have hkeep : ∀ t, t.Sublist data → IsPCore user item p t →
          t.Sublist (pcoreCheck user p (pcoreCheck item p data).1).1 := fun t ht hc =>
        pcoreCheck_keeps user p _ t (pcoreCheck_keeps item p data t ht fun r hr => (hc r hr).2)
          fun r hr => (hc r hr).1
      simp only []
      split
      · rename_i h
        rw [Bool.and_eq_true] at h
        have e1 := pcoreCheck_true item p data h.2
        have e2 := pcoreCheck_true user p _ h.1
        refine ⟨_, rfl, hs2.trans hs1, Or.inr ?_, hkeep⟩
        rw [e2, e1]
        have h1 := h.1
        rw [e1] at h1
        exact fun r hr => ⟨(pcoreCheck_spec user p data).2.1 h1 r hr,
          (pcoreCheck_spec item p data).2.1 h.2 r hr⟩
      · rename_i h
        have hlt : (pcoreCheck user p (pcoreCheck item p data).1).1.length < data.length := by
          rw [Bool.and_eq_true, not_and_or] at h
          rcases h with h | h
          · exact lt_of_lt_of_le (pcoreCheck_false user p _ (by simpa using h)) hs1.length_le
          · exact lt_of_le_of_lt hs2.length_le (pcoreCheck_false item p _ (by simpa using h))
        obtain ⟨res, hr, hsub, hcore, hmax⟩ := ih (pcoreCheck user p (pcoreCheck item p data).1).1 (by omega)
        exact ⟨res, hr, hsub.trans (hs2.trans hs1), hcore, fun t ht hc => hmax t (hkeep t ht hc) hc⟩

/-- **C69**: the loop stops (after at most as many rounds as there are rows, plus one), and the
result is the unique largest sub-table, in the original order, in which every user and every item
has at least `p` rows. -/
theorem C69_pcore {α : Type} (user item : α → ℤ) (p : ℤ) (data : List α) :
    ∃ res, (∀ fuel, data.length < fuel → pcoreFilter user item p fuel data = some res) ∧
      res.Sublist data ∧ IsPCore user item p res ∧
      (∀ t, t.Sublist data → IsPCore user item p t → t.Sublist res) ∧
      (∀ res', res'.Sublist data → IsPCore user item p res' →
        (∀ t, t.Sublist data → IsPCore user item p t → t.Sublist res') → res' = res) := by
  obtain ⟨res, hr, hsub, hcore, hmax⟩ := pcoreFilter_spec user item p (data.length + 1) data (by omega)
  have hcore' : IsPCore user item p res := by
    rcases hcore with rfl | h
    · exact fun r _ => ⟨Int.natCast_nonneg _, Int.natCast_nonneg _⟩
    · exact h
  refine ⟨res, ?_, hsub, hcore', hmax, ?_⟩
  · intro fuel hf
    obtain ⟨res', hr', hsub', hcore'', hmax'⟩ := pcoreFilter_spec user item p fuel data hf
    have hc'' : IsPCore user item p res' := by
      rcases hcore'' with rfl | h
      · exact fun r _ => ⟨Int.natCast_nonneg _, Int.natCast_nonneg _⟩
      · exact h
    rw [hr', (hmax res' hsub' hc'').antisymm (hmax' res hsub hcore')]
  · intro res' hs hc hm
    exact (hmax res' hs hc).antisymm (hm res hsub hcore')

/-- A chain reaction: item 9 has one row; without it user 3 has one row, then item 7 goes. -/
example : pcoreFilter Prod.fst Prod.snd 2 9
    [(1, 5), (1, 6), (2, 5), (2, 6), (3, 9), (3, 7), (1, 7)] = some [((1 : ℤ), (5 : ℤ)), (1, 6), (2, 5), (2, 6)] := by
  decide
example := C69_pcore (Prod.fst : ℤ × ℤ → ℤ) Prod.snd 2 [(1, 5), (1, 6), (2, 5), (2, 6), (3, 9), (3, 7), (1, 7)]
example : IsPCore (Prod.fst : ℤ × ℤ → ℤ) Prod.snd 2 [(1, 5), (1, 6), (2, 5), (2, 6)] := by
  unfold IsPCore; decide

/-! ### C70 -/

section encode
variable {V : Type} [LinearOrder V]

theorem sortedUnique_lt (l : List V) :
    (stableSort (fun a b => decide (a ≤ b)) (pdUnique l)).Pairwise (· < ·) := by
  have h1 := stableSort_sorted (le := fun a b : V => decide (a ≤ b))
    (by intro a b c; simp only [decide_eq_true_eq]; exact le_trans)
    (by intro a b; simp only [decide_eq_true_eq]; exact le_total a b) (pdUnique l)
  have h2 : (stableSort (fun a b : V => decide (a ≤ b)) (pdUnique l)).Nodup :=
    (stableSort_perm _ _).nodup_iff.2 (nodup_pdUnique _)
  refine (h1.and h2).imp ?_
  intro a b h
  exact lt_of_le_of_ne (by simpa using h.1) h.2

theorem idxOf_lt_iff (l : List V) (hs : l.Pairwise (· < ·)) (v w : V) (hv : v ∈ l) (hw : w ∈ l) :
    l.idxOf v < l.idxOf w ↔ v < w := by
  have gv := List.getElem_idxOf (List.idxOf_lt_length_iff.2 hv)
  have gw := List.getElem_idxOf (List.idxOf_lt_length_iff.2 hw)
  have key : ∀ x y, x ∈ l → y ∈ l → l.idxOf x < l.idxOf y → x < y := by
    intro x y hx hy h
    have := List.pairwise_iff_getElem.1 hs _ _ (List.idxOf_lt_length_iff.2 hx)
      (List.idxOf_lt_length_iff.2 hy) h
    rwa [List.getElem_idxOf, List.getElem_idxOf] at this
  refine ⟨key v w hv hw, fun h => ?_⟩
  rcases Nat.lt_trichotomy (l.idxOf v) (l.idxOf w) with h' | h' | h'
  · exact h'
  · have : v = w := (List.idxOf_inj hv).1 h'
    exact absurd h (by rw [this]; exact lt_irrefl _)
  · exact absurd (key w v hw hv h') (not_lt.2 (le_of_lt h))

/-- The value present in a column at a place. -/
def At (col : List (Option V)) (i : ℕ) (v : V) : Prop := col[i]? = some (some v)

/-- **C70**, the codes. A missing value gets -1. The codes of the other values are the numbers
below the number of distinct values, all of them used, ordered like the values; the column can be
decoded from its codes. -/
theorem C70_codes (col : List (Option V)) :
    (categoricalCodes col).length = col.length ∧
    (∀ i : ℕ, col[i]? = some none → (categoricalCodes col)[i]? = some (-1)) ∧
    (∀ i v, At col i v → ∃ c : ℕ, (categoricalCodes col)[i]? = some (c : ℤ) ∧
      c < (col.filterMap id).toFinset.card) ∧
    (∀ c : ℕ, c < (col.filterMap id).toFinset.card →
      ∃ i v, At col i v ∧ (categoricalCodes col)[i]? = some (c : ℤ)) ∧
    (∀ i j v w c d, At col i v → At col j w → (categoricalCodes col)[i]? = some c →
      (categoricalCodes col)[j]? = some d → ((c < d ↔ v < w) ∧ (c = d ↔ v = w))) ∧
    (∃ dec : ℤ → Option V, (categoricalCodes col).map dec = col) := by
  generalize hc : stableSort (fun a b : V => decide (a ≤ b)) (pdUnique (col.filterMap id)) = cats
  have hs : cats.Pairwise (· < ·) := by rw [← hc]; exact sortedUnique_lt _
  have hmem : ∀ v, v ∈ cats ↔ ∃ i, At col i v := by
    intro v
    rw [← hc, mem_stableSort, mem_pdUnique]
    simp only [List.mem_filterMap, id_eq, exists_eq_right, At]
    rw [List.mem_iff_getElem?]
  have hnd : cats.Nodup := hs.imp fun h => ne_of_lt h
  have hcard : (col.filterMap id).toFinset.card = cats.length := by
    rw [← List.toFinset_card_of_nodup hnd]
    congr 1
    ext v
    rw [List.mem_toFinset, List.mem_toFinset, ← hc, mem_stableSort, mem_pdUnique]
  have hcodes : ∀ i : ℕ, (categoricalCodes col)[i]? = col[i]?.map fun
      | none => -1
      | some v => (cats.idxOf v : ℤ) := by
    intro i
    unfold categoricalCodes
    simp only [hc, List.getElem?_map]
    congr 1
  have hat : ∀ i v, At col i v → (categoricalCodes col)[i]? = some (cats.idxOf v : ℤ) := by
    intro i v h
    rw [hcodes, show col[i]? = some (some v) from h]
    rfl
  rw [hcard]
  refine ⟨by simp [categoricalCodes], ?_, ?_, ?_, ?_, ?_⟩
  · intro i h
    rw [hcodes, h]
    rfl
  · intro i v h
    exact ⟨_, hat i v h, List.idxOf_lt_length_iff.2 ((hmem v).2 ⟨i, h⟩)⟩
  · intro c hlt
    obtain ⟨i, hi⟩ := (hmem cats[c]).1 (List.getElem_mem _)
    refine ⟨i, _, hi, ?_⟩
    rw [hat i _ hi, hnd.idxOf_getElem c hlt]
  · intro i j v w c d hv hw hc hd
    rw [hat i v hv, Option.some.injEq] at hc
    rw [hat j w hw, Option.some.injEq] at hd
    subst hc hd
    have hv' := (hmem v).2 ⟨i, hv⟩
    have hw' := (hmem w).2 ⟨j, hw⟩
    refine ⟨?_, ?_⟩
    · rw [← idxOf_lt_iff cats hs v w hv' hw']
      exact_mod_cast Iff.rfl
    · rw [← List.idxOf_inj hv']
      exact_mod_cast Iff.rfl
  · refine ⟨fun c => if c < 0 then none else cats[c.toNat]?, ?_⟩
    refine List.ext_getElem? fun i => ?_
    rw [List.getElem?_map, hcodes]
    rcases hi : col[i]? with _ | (_ | v)
    · rfl
    · rfl
    · have hlt := List.idxOf_lt_length_iff.2 ((hmem v).2 ⟨i, hi⟩)
      have hnn : ¬ ((cats.idxOf v : ℤ) < 0) := by omega
      simp only [Option.map_some, if_neg hnn, Int.toNat_natCast, List.getElem?_eq_getElem hlt,
        List.getElem_idxOf]

/-- **C70**, the table: the other columns stay as they are and in order, the encoded column is
moved to the end under its old name. An unknown column is a `KeyError`. -/
theorem C70_table (data : List (String × Column V)) (name : String) (vals : List (Option V))
    (hnd : (data.map Prod.fst).Nodup) (ht : "_temp" ∉ data.map Prod.fst) (hname : name ≠ "_temp") :
    ((name, Column.raw vals) ∈ data → encodeColumn data name =
      .ok (data.filter (fun c => !decide (c.1 = name)) ++ [(name, .codes (categoricalCodes vals))])) ∧
    (name ∉ data.map Prod.fst → encodeColumn data name = .error .keyError) := by
  have hne : ∀ c ∈ data, c.1 ≠ "_temp" := fun c hc h => ht (List.mem_map.2 ⟨c, hc, h⟩)
  have htf : data.find? (fun c => decide (c.1 = "_temp")) = none := by
    rw [List.find?_eq_none]
    intro c hc
    simpa using hne c hc
  constructor
  · intro hmem
    have hf : data.find? (fun c => decide (c.1 = name)) = some (name, .raw vals) := by
      cases hfd : data.find? (fun c => decide (c.1 = name)) with
      | none =>
        rw [List.find?_eq_none] at hfd
        exact absurd (by simp) (hfd _ hmem)
      | some c =>
        have h1 : c.1 = name := by simpa using List.find?_some hfd
        have h2 := List.mem_of_find?_eq_some hfd
        have := List.inj_on_of_nodup_map hnd h2 hmem h1
        rw [this]
    unfold encodeColumn
    simp only [hf, htf, Option.isSome_none]
    congr 1
    rw [if_neg (by simp), List.filter_append, List.map_append]
    congr 1
    · refine (List.map_congr_left ?_).trans (List.map_id _)
      intro c hc
      rw [if_neg (hne c (List.mem_of_mem_filter hc))]
      rfl
    · rw [List.filter_cons_of_pos (by simpa using Ne.symm hname)]
      rfl
  · intro hmem
    have hf : data.find? (fun c => decide (c.1 = name)) = none := by
      rw [List.find?_eq_none]
      intro c hc
      simpa using fun h => hmem (List.mem_map.2 ⟨c, hc, h⟩)
    unfold encodeColumn
    simp only [hf]

end encode

example : categoricalCodes [some (70 : ℤ), some 1, none, some 70, some 80] = [1, 0, -1, 1, 2] := by
  decide +kernel
example : (encodeColumn [("user", Column.raw [some (9 : ℤ), some 4]), ("day", .raw [some 1, some 1])] "user").toOption =
    some [("day", .raw [some 1, some 1]), ("user", .codes [1, 0])] := by decide +kernel
example := (C70_table [("user", Column.raw [some (9 : ℤ), some 4]), ("day", .raw [some 1, some 1])] "user"
  [some 9, some 4] (by decide) (by decide) (by decide)).1 (by decide)

end DynCF
