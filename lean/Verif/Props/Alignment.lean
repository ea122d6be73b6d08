/-
Property theorems C10: how the tensor factorised by training relates to the tensor of the
sequential histories that later updates change.
-/
import Verif.Props.TDRec

set_option linter.unusedSectionVars false

namespace DynCF
variable {K : Type}

/-- entry of a list of rows numbered from `s` on with relevance one -/
theorem sum_numbered [Ring K] (l : List (PRow K)) (s : ℤ)
    (hp : ∀ (k : ℕ) (r : PRow K), l[k]? = some r → r.pos = s + (k : ℤ))
    (h1 : ∀ r ∈ l, r.row.rel = 1) (b p : ℤ) :
    ((l.filter fun r => decide (r.row.item = b ∧ r.pos = p)).map fun r => r.row.rel).sum =
      if s ≤ p ∧ (l.map fun r => r.row.item)[(p - s).toNat]? = some b then 1 else 0 := by
  induction l generalizing s with
  | nil => simp
  | cons r l ih =>
    have hr : r.pos = s := by
      have := hp 0 r rfl
      omega
    have ih' := ih (s + 1) (by
      intro k r' h
      have := hp (k + 1) r' (by simpa using h)
      push_cast at this
      omega) (fun r' h => h1 r' (List.mem_cons_of_mem _ h))
    rw [List.filter_cons]
    by_cases hsp : s = p
    · subst hsp
      have hz : (s - s).toNat = 0 := by omega
      rw [if_neg (by omega)] at ih'
      rw [hz, List.map_cons, List.getElem?_cons_zero, hr]
      by_cases hb : r.row.item = b
      · rw [if_pos (decide_eq_true ⟨hb, rfl⟩), List.map_cons, List.sum_cons, ih',
          h1 r List.mem_cons_self, add_zero, if_pos ⟨le_refl _, by rw [hb]⟩]
      · rw [if_neg (by simp [hb]), ih', if_neg]
        rintro ⟨_, h⟩
        exact hb (Option.some.inj h)
    · rw [if_neg (by rw [hr]; simp [hsp]), ih']
      by_cases hlt : s < p
      · have hz : (p - s).toNat = (p - (s + 1)).toNat + 1 := by omega
        rw [hz, List.map_cons, List.getElem?_cons_succ]
        have : (s + 1 ≤ p) ↔ (s ≤ p) := by omega
        simp only [this]
      · rw [if_neg (by omega), if_neg (by omega)]

/-- The rows of one user in a mapped cropped table: numbered from zero, as many as the last (at
most) `L` rows of the user. -/
theorem mapped_user_rows {users items : List ℤ} {df : List (Row K)} {L : ℕ} {sortBool : Bool}
    {data' : List (PRow K)} (hu : users.Nodup)
    (hm : MappedTo users items (cropSpec L df sortBool) data') (a : ℕ) (u : ℤ)
    (ha : users[a]? = some u) :
    (∀ (k : ℕ) (r : PRow K), (data'.filter fun r => decide (r.row.user = (a : ℤ)))[k]? = some r →
      r.pos = (0 : ℤ) + (k : ℤ)) ∧
    (data'.filter fun r => decide (r.row.user = (a : ℤ))).length = min L (rowsOf u df).length := by
  have hf : List.Forall₂ (fun p p' : PRow K => p'.pos = p.pos)
      ((cropSpec L df sortBool).filter fun r => decide (r.row.user = u))
      (data'.filter fun r => decide (r.row.user = (a : ℤ))) := by
    refine (forall₂_filter ?_ hm).imp fun p p' h => h.1
    rintro p p' ⟨_, _, ⟨k, hk, hku⟩, _⟩
    rw [decide_eq_decide, hk]
    constructor
    · intro h
      rw [h] at hku
      rw [getElem?_inj_nodup hu hku ha]
    · intro h
      have : k = a := by omega
      subst this
      rw [hku] at ha
      exact Option.some.inj ha
  rw [cropSpec_user] at hf
  constructor
  · intro k r hr
    have h1 := forall₂_map_eq (f := PRow.pos) (g := PRow.pos) (fun p p' h => h.symm) hf
    rw [posed_pos] at h1
    have h2 := congrArg (fun l : List ℤ => l[k]?) h1
    simp only [List.getElem?_map, hr, Option.map_some] at h2
    rcases hk : (List.range (lastN L (if sortBool = true then tsSort (rowsOf u df) else rowsOf u df)).length)[k]?
      with _ | x
    · rw [hk] at h2; cases h2
    · rw [hk] at h2
      obtain ⟨hk1, hk2⟩ := List.getElem?_eq_some_iff.1 hk
      rw [List.getElem_range] at hk2
      subst hk2
      have := Option.some.inj h2
      rw [← this]
      dsimp only
      omega
  · rw [← hf.length_eq]
    have h3 := congrArg List.length (posed_rows (K := K)
      (lastN L (if sortBool = true then tsSort (rowsOf u df) else rowsOf u df)))
    rw [List.length_map] at h3
    rw [h3, lastN_length]
    have h4 : (tsSort (rowsOf u df)).length = (rowsOf u df).length := stableSort_length _ _
    cases sortBool
    · rfl
    · rw [if_pos rfl, h4]

theorem cell_window_shift (L n : ℕ) (xs : List ℤ) (hn : xs.length = n) (hL : n ≤ L) (b p : ℤ)
    (hb : 0 ≤ b) :
    cell (some (window L xs)) b (p + ((L : ℤ) - n)) =
      if 0 ≤ p ∧ xs[p.toNat]? = some b then 1 else 0 := by
  have hpad : b ≠ PAD := by unfold PAD; omega
  unfold cell
  dsimp only
  rw [window_getElem?]
  by_cases hp : 0 ≤ p
  · have h1 : ¬ ((p + ((L : ℤ) - n)).toNat + xs.length < L) := by omega
    have h2 : (p + ((L : ℤ) - n)).toNat + xs.length - L = p.toNat := by omega
    rw [if_neg h1, h2]
    have h3 : (b ≠ PAD ∧ 0 ≤ p + ((L : ℤ) - n) ∧ xs[p.toNat]? = some b) ↔
        (0 ≤ p ∧ xs[p.toNat]? = some b) := by
      constructor
      · rintro ⟨_, _, h⟩; exact ⟨hp, h⟩
      · rintro ⟨_, h⟩; exact ⟨hpad, by omega, h⟩
    simp only [h3]
  · rw [if_neg (c := 0 ≤ p ∧ _) (by rintro ⟨h, _⟩; exact hp h)]
    apply if_neg
    rintro ⟨_, h1, h2⟩
    rw [if_pos (by omega)] at h2
    exact hpad (Option.some.inj h2).symm

/-- What training factorises, the mappings and the history it leaves for a table that was cropped
with sequence length `L` (the way the experiments call it). -/
structure TrainedOn (L : ℕ) (df : List (Row K)) (users : List ℤ) (t : TrainTensor K)
    (h : SeqHist) : Prop where
  run : ∃ data rows m b, getDfWithCroppedPos df L b = .ok data ∧
    getDfWithUpdatedIndices (data.map PRow.row) = .ok (rows, m) ∧ Represents m.user users ∧
    trainTensor (withPos rows data) = .ok t
  hist : h = updateUserSeqHistory t.inds [] L

theorem trained_parts [Ring K] {L : ℕ} (hL : 1 ≤ L) {df : List (Row K)} {users : List ℤ}
    {t : TrainTensor K} {h : SeqHist} (ht : TrainedOn L df users t h) :
    ∃ data' items sortBool, users.Nodup ∧ MappedTo users items (cropSpec L df sortBool) data' ∧
      t.inds = data'.map PRow.inter ∧ (∀ a b p, tensorAt t a b p = tableAt data' a b p) := by
  obtain ⟨data, rows, m, sb, h1, h2, h3, h4⟩ := ht.run
  have hne : df ≠ [] := by
    rintro rfl
    cases h1
  rw [getDfWithCroppedPos_eq df L sb hL hne] at h1
  have hd := Except.ok.inj h1
  subst hd
  obtain ⟨rows', m', users', items, g1, g2, g3, g4, g5, g6⟩ := train_mapped (cropSpec L df sb)
  rw [h2] at g1
  have e := Except.ok.inj g1
  injection e with e1 e2
  subst e1 e2
  have hus : users' = users := by
    apply List.ext_getElem?
    intro k
    apply Option.ext
    intro x
    constructor
    · intro hx
      obtain ⟨j, hj, hjx⟩ := (h3.old2new x (k : ℤ)).1 ((g3.old2new x (k : ℤ)).2 ⟨k, rfl, hx⟩)
      have : k = j := by omega
      rw [this]; exact hjx
    · intro hx
      obtain ⟨j, hj, hjx⟩ := (g3.old2new x (k : ℤ)).1 ((h3.old2new x (k : ℤ)).2 ⟨k, rfl, hx⟩)
      have : k = j := by omega
      rw [this]; exact hjx
  subst hus
  have hs := sortedInds_of_sorted g6 g2 (cropSpec_sorted L df sb)
  refine ⟨_, items, sb, g2.nodup, g6, ?_, fun a b p => tensorAt_of_unsorted h4 hs a b p⟩
  rw [(trainTensor_ok h4).1, hs]

theorem tableAt_user [AddCommMonoid K] (data : List (PRow K)) (a b p : ℤ) :
    tableAt data a b p = (((data.filter fun r => decide (r.row.user = a)).filter
      fun r => decide (r.row.item = b ∧ r.pos = p)).map fun r => r.row.rel).sum := by
  unfold tableAt
  rw [List.filter_filter]
  congr 2
  apply List.filter_congr
  intro r _
  by_cases h1 : r.row.user = a <;> by_cases h2 : r.row.item = b <;> by_cases h3 : r.pos = p <;>
    simp [h1, h2, h3]

theorem itemsOf_inter (a : ℤ) (data : List (PRow K)) :
    itemsOf a (data.map PRow.inter) =
      (data.filter fun r => decide (r.row.user = a)).map fun r => r.row.item := by
  unfold itemsOf
  rw [List.filter_map, List.map_map]
  rfl

/-- **C10, exact relation.** For a cropped table with relevance one, the factorised tensor of the
user with index `a` who has `n` rows is the indicator of the user's window shifted to the left by
`L - min L n` positions: training numbers the positions from the left, the windows from the right. -/
theorem C10_shift [Ring K] (L : ℕ) (hL : 1 ≤ L) (df : List (Row K)) (h1 : ∀ r ∈ df, r.rel = 1)
    (users : List ℤ) (t : TrainTensor K) (h : SeqHist) (ht : TrainedOn L df users t h)
    (a b : ℕ) (u p : ℤ) (ha : users[a]? = some u) :
    tensorAt t a b p = ((cell ((h.get? (a : ℤ)).map Deque.items) b
      (p + ((L : ℤ) - (min L (rowsOf u df).length : ℕ))) : ℤ) : K) := by
  obtain ⟨data', items, sb, hn, hm, hi, htab⟩ := trained_parts hL ht
  obtain ⟨hp, hlen⟩ := mapped_user_rows hn hm a u ha
  have hrel : ∀ r ∈ data', r.row.rel = 1 := by
    intro r hr
    obtain ⟨r0, hr0, _, hrel, _⟩ := forall₂_mem_right hm hr
    rw [hrel]
    apply h1
    have hx := cropSpec_user L df sb r0.row.user
    have hy : r0 ∈ (cropSpec L df sb).filter fun r => decide (r.row.user = r0.row.user) := by
      rw [List.mem_filter]; exact ⟨hr0, by simp⟩
    rw [hx] at hy
    have hz := List.mem_map_of_mem (f := PRow.row) hy
    rw [posed_rows] at hz
    have hw := mem_lastN hz
    have hv : r0.row ∈ rowsOf r0.row.user df := by
      cases sb
      · exact hw
      · exact (mem_tsSort _ _).1 hw
    exact (List.mem_filter.1 hv).1
  rw [htab, tableAt_user, sum_numbered _ 0 hp (fun r hr => hrel r (List.mem_filter.1 hr).1)]
  have hI := histInv_update L [] [] t.inds (histInv_nil L)
  rw [List.nil_append] at hI
  rw [ht.hist, hI.entry, hi]
  unfold histEntry
  rw [itemsOf_inter]
  by_cases he : ((data'.filter fun r => decide (r.row.user = (a : ℤ))).map fun r => r.row.item) = []
  · rw [if_pos he, he]
    simp [cell]
  · rw [if_neg he]
    have hc := cell_window_shift L (min L (rowsOf u df).length)
      ((data'.filter fun r => decide (r.row.user = (a : ℤ))).map fun r => r.row.item)
      (by rw [List.length_map]; exact hlen) (by omega) (b : ℤ) p (by omega)
    rw [Option.map_some]
    dsimp only
    rw [hc]
    have hz : (p - 0).toNat = p.toNat := by omega
    rw [hz]
    split <;> simp

/-- **C10 (partial).** For a cropped table with relevance one and any later sequence of update
batches, the factorised tensor plus all deltas is the indicator of the current windows in the slice
of every user who either was not in the training table or had at least `L` rows in it.
Missing: users with fewer rows than the sequence length (`C10_violated`; `C10_shift` says exactly what
training factorises for them). -/
theorem C10_aligned_partial [Ring K] (L : ℕ) (hL : 1 ≤ L) (df : List (Row K))
    (h1 : ∀ r ∈ df, r.rel = 1) (users : List ℤ) (t : TrainTensor K) (h : SeqHist)
    (ht : TrainedOn L df users t h) (batches : List (List Inter)) (a b : ℕ) (p : ℤ)
    (hfull : ∀ u, users[a]? = some u → L ≤ (rowsOf u df).length) :
    tensorAt t a b p + ((((deltasAlong L h batches).map fun d => cooAt d a b p).sum : ℤ) : K) =
      ((cell (((batches.foldl (fun h b => updateUserSeqHistory b h L) h).get? (a : ℤ)).map
        Deque.items) b p : ℤ) : K) := by
  have ht0 : tensorAt t a b p = ((cell ((h.get? (a : ℤ)).map Deque.items) b p : ℤ) : K) := by
    rcases hu : users[a]? with _ | u
    · obtain ⟨data', items, sb, hn, hm, hi, htab⟩ := trained_parts hL ht
      have he : (data'.filter fun r => decide (r.row.user = (a : ℤ))) = [] := by
        rw [List.filter_eq_nil_iff]
        intro r hr hra
        obtain ⟨_, _, _, _, ⟨k, hk, hku⟩, _⟩ := forall₂_mem_right hm hr
        have : r.row.user = (a : ℤ) := of_decide_eq_true hra
        have : k = a := by omega
        rw [this, hu] at hku
        cases hku
      have hI := histInv_update L [] [] t.inds (histInv_nil L)
      rw [List.nil_append] at hI
      rw [htab, tableAt_user, he, ht.hist, hI.entry, hi]
      unfold histEntry
      rw [itemsOf_inter, he]
      simp [cell]
    · rw [C10_shift L hL df h1 users t h ht a b u p hu]
      have := hfull u hu
      have hz : p + ((L : ℤ) - (min L (rowsOf u df).length : ℕ)) = p := by omega
      rw [hz]
  have hT := C06_deltas_telescope L [t.inds] batches a b p
  dsimp only at hT
  have hh : List.foldl (fun h b => updateUserSeqHistory b h L) [] [t.inds] = h := by
    rw [ht.hist]
    rfl
  rw [hh] at hT
  rw [ht0, ← Int.cast_add, hT]
  have hI := histInv_batches L _ _ batches (histInv_update L [] [] t.inds (histInv_nil L))
  rw [← ht.hist, List.nil_append] at hI
  rw [hI.entry]
  unfold histEntry
  have hfl : [t.inds].flatten = t.inds := by simp
  rw [hfl]
  split <;> rfl

/-- user 7 with two interactions, user 8 with one -/
def exShort : List (Row ℤ) := [⟨7, 40, 1, 1, 0⟩, ⟨7, 30, 1, 2, 0⟩, ⟨8, 40, 1, 3, 0⟩]
/-- what training factorises for this table -/
def exShortT : TrainTensor ℤ := ⟨[⟨0, 0, 0⟩, ⟨0, 1, 1⟩, ⟨1, 0, 0⟩], [1, 1, 1], (2, 2, 2)⟩
/-- the history after training -/
def exShortH : SeqHist := [(0, ⟨2, [0, 1]⟩), (1, ⟨2, [-1, 0]⟩)]

theorem exShort_trained : TrainedOn 2 exShort [7, 8] exShortT exShortH := by
  refine ⟨⟨[⟨⟨7, 40, 1, 1, 0⟩, 0⟩, ⟨⟨7, 30, 1, 2, 0⟩, 1⟩, ⟨⟨8, 40, 1, 3, 0⟩, 0⟩],
    [⟨0, 0, 1, 1, 0⟩, ⟨0, 1, 1, 2, 0⟩, ⟨1, 0, 1, 3, 0⟩],
    ⟨getContMappingStruct [7, 8] 0, getContMappingStruct [40, 30] 0⟩, true, rfl, rfl,
    represents_start_zero _ (by decide), rfl⟩, rfl⟩

/-- **C10 is violated**: user 8 (index 1) has one interaction with item 40 (index 0). Training puts it
at position 0, the window at position 1. When user 8 then takes item 30 (index 1), the accumulated
tensor has 2 at the cell (item 40, position 0) and -1 at (item 40, position 1); the window of user 8
then is `[40, 30]`. -/
theorem C10_violated :
    TrainedOn 2 exShort [7, 8] exShortT exShortH ∧ (∀ r ∈ exShort, r.rel = 1) ∧
    tensorAt exShortT 1 0 0 = 1 ∧ cell ((exShortH.get? 1).map Deque.items) 0 0 = 0 ∧
    cell ((exShortH.get? 1).map Deque.items) 0 1 = 1 ∧
    tensorAt exShortT 1 0 0 +
      ((deltasAlong 2 exShortH [[⟨1, 1, 0⟩]]).map fun d => cooAt d 1 0 0).sum = 2 ∧
    tensorAt exShortT 1 0 1 +
      ((deltasAlong 2 exShortH [[⟨1, 1, 0⟩]]).map fun d => cooAt d 1 0 1).sum = -1 ∧
    ((updateUserSeqHistory [⟨1, 1, 0⟩] exShortH 2).get? 1).map Deque.items = some [0, 1] :=
  ⟨exShort_trained, by decide, by decide, by decide, by decide, by decide, by decide, by decide⟩

/-- The slice of user 7 (index 0), who has a full window, is aligned. -/
example (b : ℕ) (p : ℤ) : tensorAt exShortT (0 : ℕ) b p +
    ((deltasAlong 2 exShortH [[⟨0, 0, 0⟩]]).map fun d => cooAt d (0 : ℕ) b p).sum =
    cell (some [1, 0]) b p := by
  have := C10_aligned_partial 2 (by decide) exShort (by decide) [7, 8] exShortT exShortH
    exShort_trained [[⟨0, 0, 0⟩]] 0 b p (by intro u hu; cases hu; decide)
  rw [Int.cast_id, Int.cast_id] at this
  exact this

end DynCF
