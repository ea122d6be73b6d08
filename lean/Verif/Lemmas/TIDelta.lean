/-
The delta of a chunk and the ids that are new in it.
-/
import Verif.Lemmas.TIRec
import Verif.Props.History
import Verif.Props.TDRec3

set_option linter.unusedSectionVars false

namespace DynCF
variable {K : Type}

/-! ### Registration of new ids -/

theorem represents_newIds {m : Mapping ℤ} {ids : List ℤ} (h : Represents m ids) (col : List ℤ) :
    Represents (updateContMappingStruct m (newIds m col)) (ids ++ newIds m col) := by
  have hfa := newIds_firstAppearance h col
  apply represents_update h
  rw [List.nodup_append]
  refine ⟨h.nodup, hfa.nodup, ?_⟩
  rintro x hx y hy rfl
  exact (of_decide_eq_true (List.mem_filter.1 ((hfa.mem x).1 hy)).2) hx

/-- the integers `n, n + 1, …, n + k - 1` -/
def idRange (n k : ℕ) : List ℤ := (List.range k).map fun i : ℕ => ((n + i : ℕ) : ℤ)

theorem mem_idRange {n k : ℕ} {x : ℤ} : x ∈ idRange n k ↔ (n : ℤ) ≤ x ∧ x < (n + k : ℕ) := by
  unfold idRange
  rw [List.mem_map]
  constructor
  · rintro ⟨i, hi, rfl⟩
    rw [List.mem_range] at hi
    push_cast
    omega
  · rintro ⟨h1, h2⟩
    exact ⟨(x - n).toNat, by rw [List.mem_range]; omega, by push_cast; omega⟩

theorem idRange_nodup (n k : ℕ) : (idRange n k).Nodup := by
  unfold idRange
  refine List.Nodup.map ?_ List.nodup_range
  intro a b h
  simpa using h

theorem idRange_length (n k : ℕ) : (idRange n k).length = k := by simp [idRange]

theorem new_ids_internal {m : Mapping ℤ} {ids nus : List ℤ} (h : Represents m (ids ++ nus)) :
    (nus.mapM fun e => m.old2new.getItem e) = .ok (idRange ids.length nus.length) := by
  rw [mapM_ok_iff, List.forall₂_iff_get]
  refine ⟨by simp [idRange], fun i h1 h2 => ?_⟩
  rw [getItem_ok_iff, h.old2new]
  refine ⟨ids.length + i, ?_, ?_⟩
  · simp [idRange]
  · rw [List.getElem?_append_right (by omega), Nat.add_sub_cancel_left]
    simp

/-- What `preprocess_raw_input_data` returns. -/
structure PrepOk (maps : Mappings) (L : ℕ) (data : List (Row K)) (b : Bool) (users items : List ℤ) (p : TIPrep K)
    (cr : List (PRow K)) (nus nis : List ℤ) : Prop where
  crop : getDfWithCroppedPos data L b = .ok cr
  prep : tiPreprocess maps L data b = .ok p
  firstUsers : FirstAppearance ((cr.map fun r => r.row.user).filter fun x => decide (x ∉ users)) nus
  firstItems : FirstAppearance ((cr.map fun r => r.row.item).filter fun x => decide (x ∉ items)) nis
  user : Represents p.maps.user (users ++ nus)
  item : Represents p.maps.item (items ++ nis)
  newUsers : p.newUsers = idRange users.length nus.length
  newItems : p.newItems = idRange items.length nis.length
  mapped : MappedTo (users ++ nus) (items ++ nis) cr p.chunk

theorem tiPreprocess_ok {maps : Mappings} {users items : List ℤ} (hu : Represents maps.user users)
    (hi : Represents maps.item items) (L : ℕ) (hL : 1 ≤ L) (data : List (Row K)) (hne : data ≠ []) (b : Bool) :
    ∃ p cr nus nis, PrepOk maps L data b users items p cr nus nis := by
  have hc := getDfWithCroppedPos_eq data L b hL hne
  set cr := cropSpec L data b
  have f1 := newIds_firstAppearance hu ((cr.map PRow.row).map Row.user)
  have f2 := newIds_firstAppearance hi ((cr.map PRow.row).map Row.item)
  have g1 : Represents (registerNew maps (cr.map PRow.row)).user _ := represents_newIds hu ((cr.map PRow.row).map Row.user)
  have g2 : Represents (registerNew maps (cr.map PRow.row)).item _ := represents_newIds hi ((cr.map PRow.row).map Row.item)
  obtain ⟨_, _, _, _, _, _, rows, hrows⟩ := C29_ids_stable maps users items hu hi (cr.map PRow.row)
  refine ⟨⟨withPos rows cr, _, _, registerNew maps (cr.map PRow.row)⟩, cr, _, _, hc, ?_, ?_, ?_, g1, g2, rfl, rfl,
    retrain_mapped cr _ _ _ g1 g2 rows hrows⟩
  · unfold tiPreprocess
    rw [hc]
    simp only [except_bind_ok]
    rw [new_ids_internal g1]
    simp only [except_bind_ok]
    rw [new_ids_internal g2]
    simp only [except_bind_ok, hrows]
    rfl
  · rw [List.map_map] at f1 ⊢; exact f1
  · rw [List.map_map] at f2 ⊢; exact f2

theorem tiPreprocess_empty (maps : Mappings) (L : ℕ) (b : Bool) :
    tiPreprocess maps L ([] : List (Row K)) b = .error .keyError := rfl

/-- a cropped chunk has at most `L` rows of a user -/
theorem crop_bound {data : List (Row K)} {L : ℕ} {b : Bool} (hL : 1 ≤ L) (hne : data ≠ []) {cr : List (PRow K)}
    (h : getDfWithCroppedPos data L b = .ok cr) (u : ℤ) :
    (cr.filter fun r => decide (r.row.user = u)).length ≤ L := by
  rw [getDfWithCroppedPos_eq data L b hL hne] at h
  obtain rfl := Except.ok.inj h
  have e := congrArg List.length (congrArg (List.map PRow.row) (cropSpec_user L data b u))
  rw [posed_rows, List.length_map, lastN_length] at e
  omega

/-! ### The delta -/

theorem window_mem {L : ℕ} {items : List ℤ} {x : ℤ} (h : x ∈ window L items) : x = PAD ∨ x ∈ items := by
  unfold window lastN at h
  have := List.mem_of_mem_drop h
  rw [List.mem_append, List.mem_replicate] at this
  exact this.imp And.right id

theorem mem_itemsOf {u x : ℤ} {l : List Inter} (h : x ∈ itemsOf u l) : ∃ t ∈ l, t.user = u ∧ t.item = x := by
  unfold itemsOf at h
  obtain ⟨t, ht, rfl⟩ := List.mem_map.1 h
  rw [List.mem_filter, decide_eq_true_eq] at ht
  exact ⟨t, ht.1, ht.2, rfl⟩

theorem itemsOf_mem {t : Inter} {l : List Inter} (h : t ∈ l) : t.item ∈ itemsOf t.user l :=
  List.mem_map_of_mem (List.mem_filter.2 ⟨h, by simp⟩)

/-- the items of the last (at most `L`) interactions are in the window -/
theorem window_of_recent (L : ℕ) (a b : List ℤ) (hb : b.length ≤ L) {x : ℤ} (hx : x ∈ b) :
    ∃ p : ℕ, p < L ∧ (window L (a ++ b))[p]? = some x := by
  obtain ⟨j, hj, rfl⟩ := List.mem_iff_getElem.1 hx
  refine ⟨L - b.length + j, by omega, ?_⟩
  rw [window_getElem?, if_neg (by rw [List.length_append]; omega), List.getElem?_append_right (by rw [List.length_append]; omega)]
  have : L - b.length + j + (a ++ b).length - L - a.length = j := by rw [List.length_append]; omega
  rw [this]
  simp [hj]

section
variable {L : ℕ} {h : SeqHist} {past new : List Inter}

theorem hist_persist (hh : HistInv L h past) (u : ℤ) (o : List ℤ) (ho : (snapshot h).get? u = some o) :
    ∃ d, (updateUserSeqHistory new h L).get? u = some d ∧ d.items.length = o.length := by
  rw [snapshot_get?, hh.entry] at ho
  rw [(histInv_update L h past new hh).entry]
  unfold histEntry at ho ⊢
  by_cases h1 : itemsOf u past = []
  · rw [if_pos h1] at ho; cases ho
  · rw [if_neg h1] at ho
    have h2 : itemsOf u (past ++ new) ≠ [] := by
      rw [itemsOf_append]
      exact fun hc => h1 (List.append_eq_nil_iff.1 hc).1
    rw [if_neg h2]
    refine ⟨_, rfl, ?_⟩
    simp only [Option.map_some, Option.some.injEq] at ho
    rw [← ho, window_length, window_length]

/-- the value of a history at a cell -/
def histCell (L : ℕ) (past : List Inter) (u i p : ℤ) : ℤ := cell ((histEntry L u past).map Deque.items) i p

theorem mem_delta_iff (hh : HistInv L h past) (u i p v : ℤ) :
    (⟨u, i, p, v⟩ ∈ calculateDelta (updateUserSeqHistory new h L) (snapshot h) ↔
      v = histCell L (past ++ new) u i p - histCell L past u i p ∧ v ≠ 0) := by
  rw [C07_delta_exact_entries _ _ (hist_persist hh), snapshot_get?, hh.entry, (histInv_update L h past new hh).entry]
  rfl

theorem histCell_ne_zero {u i p : ℤ} (hc : histCell L past u i p ≠ 0) :
    histCell L past u i p = 1 ∧ i ≠ PAD ∧ 0 ≤ p ∧ p < L ∧ ∃ t ∈ past, t.user = u ∧ t.item = i := by
  unfold histCell histEntry at *
  by_cases h1 : itemsOf u past = []
  · rw [if_pos h1] at hc; exact absurd rfl hc
  · rw [if_neg h1] at *
    dsimp only [Option.map_some, cell] at *
    split at hc
    · rename_i h2
      rw [if_pos h2]
      obtain ⟨h3, h4, h5⟩ := h2
      obtain ⟨hlt, hget⟩ := List.getElem?_eq_some_iff.1 h5
      rw [window_length] at hlt
      refine ⟨rfl, h3, h4, by omega, ?_⟩
      rcases window_mem (List.mem_of_getElem? h5) with h | h
      · exact absurd h h3
      · exact mem_itemsOf h
    · exact absurd rfl hc

/-- every entry of the delta concerns a user, an item and a place that occur, and is ±1 -/
theorem delta_entry (hh : HistInv L h past) {r : DRow}
    (hr : r ∈ calculateDelta (updateUserSeqHistory new h L) (snapshot h)) :
    (r.val = 1 ∨ r.val = -1) ∧ 0 ≤ r.pos ∧ r.pos < L ∧ r.item ≠ PAD ∧
      ∃ t ∈ past ++ new, t.user = r.user ∧ t.item = r.item := by
  obtain ⟨u, i, p, v⟩ := r
  obtain ⟨h1, h2⟩ := (mem_delta_iff hh u i p v).1 hr
  by_cases hn : histCell L (past ++ new) u i p = 0
  · have ho : histCell L past u i p ≠ 0 := by
      intro ho; rw [hn, ho] at h1; exact h2 (by rw [h1]; rfl)
    obtain ⟨a, b, c, d, t, ht, e, f⟩ := histCell_ne_zero ho
    exact ⟨Or.inr (by dsimp only; rw [h1, hn, a]; rfl), c, d, b, t, List.mem_append_left _ ht, e, f⟩
  · obtain ⟨a, b, c, d, t, ht, e, f⟩ := histCell_ne_zero hn
    refine ⟨?_, c, d, b, t, ht, e, f⟩
    by_cases ho : histCell L past u i p = 0
    · left; dsimp only; rw [h1, a, ho]; rfl
    · obtain ⟨a', _⟩ := histCell_ne_zero ho
      rw [a, a'] at h1
      exact absurd h1 h2

/-- an interaction of the chunk with a user or an item that did not occur before gives an entry `+1` -/
theorem delta_new (hh : HistInv L h past) (hb : ∀ u, (new.filter fun t => decide (t.user = u)).length ≤ L)
    {t : Inter} (ht : t ∈ new) (hpad : t.item ≠ PAD)
    (hnew : (∀ x ∈ past, x.user ≠ t.user) ∨ (∀ x ∈ past, x.item ≠ t.item)) :
    ∃ p : ℤ, ⟨t.user, t.item, p, 1⟩ ∈ calculateDelta (updateUserSeqHistory new h L) (snapshot h) := by
  obtain ⟨p, hp, hw⟩ := window_of_recent L (itemsOf t.user past) (itemsOf t.user new)
    (by unfold itemsOf; rw [List.length_map]; exact hb _) (itemsOf_mem ht)
  refine ⟨(p : ℤ), (mem_delta_iff hh _ _ _ _).2 ⟨?_, by omega⟩⟩
  have e1 : histCell L (past ++ new) t.user t.item p = 1 := by
    unfold histCell histEntry
    rw [if_neg]
    · dsimp only [Option.map_some, cell]
      rw [if_pos]
      refine ⟨hpad, by omega, ?_⟩
      rw [Int.toNat_natCast, itemsOf_append]
      exact hw
    · intro hc
      have := itemsOf_mem (List.mem_append_right past ht)
      rw [hc] at this
      cases this
  have e2 : histCell L past t.user t.item p = 0 := by
    by_contra hc
    obtain ⟨_, _, _, _, x, hx, hxu, hxi⟩ := histCell_ne_zero hc
    rcases hnew with hnew | hnew
    · exact hnew x hx hxu
    · exact hnew x hx hxi
  rw [e1, e2]; rfl

/-- the delta is empty exactly if no window changes -/
theorem delta_nil_iff (hh : HistInv L h past) :
    calculateDelta (updateUserSeqHistory new h L) (snapshot h) = [] ↔
      ∀ u i p, histCell L (past ++ new) u i p = histCell L past u i p := by
  constructor
  · intro hd u i p
    by_contra hne
    have : (⟨u, i, p, histCell L (past ++ new) u i p - histCell L past u i p⟩ : DRow) ∈
        calculateDelta (updateUserSeqHistory new h L) (snapshot h) :=
      (mem_delta_iff hh _ _ _ _).2 ⟨rfl, fun h0 => hne (by omega)⟩
    rw [hd] at this
    cases this
  · intro hall
    rw [List.eq_nil_iff_forall_not_mem]
    rintro ⟨u, i, p, v⟩ hr
    obtain ⟨h1, h2⟩ := (mem_delta_iff hh u i p v).1 hr
    rw [hall u i p] at h1
    exact h2 (by omega)

end
end DynCF
