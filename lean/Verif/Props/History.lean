/-
Property theorems C05-C07: sequential histories and their deltas.
-/
import Verif.Lemmas.History

namespace DynCF

/-- **C05.** After any sequence of batches, a user who interacted has the window of the last
`L` of (padding ++ all their items over all batches); other users have no entry. -/
theorem C05_window (L : ℕ) (batches : List (List Inter)) (u : ℤ) :
    Dict.get? (batches.foldl (fun h b => updateUserSeqHistory b h L) ([] : SeqHist)) u =
      if itemsOf u batches.flatten = [] then none
      else some ⟨L, window L (itemsOf u batches.flatten)⟩ := by
  have := (histInv_batches L [] [] batches (histInv_nil L)).entry u
  simpa [histEntry] using this

/-- C05, what a window is, entry by entry: exactly `L` entries; entry `k` is padding while
`k` is before the last `min L n` items, and then the items in order. -/
theorem C05_window_entries (L : ℕ) (items : List ℤ) :
    (window L items).length = L ∧
    ∀ k < L, (window L items)[k]? =
      if k + items.length < L then some PAD else items[k + items.length - L]? :=
  ⟨window_length L items, fun k _ => window_getElem? L items k⟩

/-- C05, batch independence: two ways of batching the same interactions give every user the
same window. -/
theorem C05_batching_irrelevant (L : ℕ) (b1 b2 : List (List Inter))
    (h : b1.flatten = b2.flatten) (u : ℤ) :
    Dict.get? (b1.foldl (fun h b => updateUserSeqHistory b h L) ([] : SeqHist)) u =
      Dict.get? (b2.foldl (fun h b => updateUserSeqHistory b h L) ([] : SeqHist)) u := by
  rw [C05_window, C05_window, h]

/-- **C07.** The delta contains an entry at a cell iff the two histories differ there, and its
value is the difference; hence values are ±1, padding never occurs, untouched cells do not
occur. -/
theorem C07_delta_exact_entries (new : SeqHist) (old : Dict ℤ (List ℤ))
    (hpersist : ∀ u o, old.get? u = some o → ∃ d, new.get? u = some d ∧ d.items.length = o.length)
    (u i p v : ℤ) :
    (⟨u, i, p, v⟩ ∈ calculateDelta new old ↔
      v = cell ((new.get? u).map Deque.items) i p - cell (old.get? u) i p ∧ v ≠ 0) := by
  rw [mem_calculateDelta]
  simp only [userDelta]
  cases hn : new.get? u with
  | none =>
    have ho : old.get? u = none := by
      cases ho : old.get? u with
      | none => rfl
      | some o => obtain ⟨d, hd, _⟩ := hpersist u o ho; rw [hn] at hd; cases hd
    simp [ho, cell]
  | some d =>
    cases ho : old.get? u with
    | none =>
      simp only [mem_deltaNewUser, Option.map_some, cell, true_and]
      by_cases hc : i ≠ PAD ∧ 0 ≤ p ∧ d.items[p.toNat]? = some i
      · rw [if_pos hc]
        constructor
        · rintro ⟨rfl, _⟩; simp
        · rintro ⟨h1, h2⟩; exact ⟨by simpa using h1, hc⟩
      · rw [if_neg hc]
        constructor
        · rintro ⟨_, h⟩; exact absurd h hc
        · rintro ⟨h1, h2⟩; simp at h1; exact absurd h1 h2
    | some o =>
      obtain ⟨d', hd', hlen⟩ := hpersist u o ho
      rw [hn] at hd'; cases hd'
      simp only [mem_deltaOldUser, Option.map_some, cell, true_and]
      by_cases hip : i ≠ PAD ∧ 0 ≤ p
      · obtain ⟨hi, hp⟩ := hip
        simp only [hi, hp, ne_eq, not_false_eq_true, true_and]
        cases ha : d.items[p.toNat]? with
        | none =>
          have hb : o[p.toNat]? = none := by
            rw [List.getElem?_eq_none_iff] at ha ⊢; omega
          simp [hb]
        | some a =>
          have hlt := (List.getElem?_eq_some_iff.1 ha).1
          obtain ⟨b, hb⟩ : ∃ b, o[p.toNat]? = some b := ⟨_, List.getElem?_eq_getElem (by omega)⟩
          simp only [hb, Option.some.injEq]
          constructor
          · rintro ⟨a', b', ha', hb', hne, h⟩
            subst ha' hb'
            rcases h with ⟨rfl, rfl⟩ | ⟨rfl, rfl⟩
            · rw [if_pos rfl, if_neg (fun e => hne e.symm)]; simp
            · rw [if_neg hne, if_pos rfl]; simp
          · rintro ⟨h1, h2⟩
            refine ⟨a, b, rfl, rfl, ?_, ?_⟩
            · rintro rfl; apply h2; rw [h1]; split <;> simp
            · by_cases e1 : a = i
              · by_cases e2 : b = i
                · rw [if_pos e1, if_pos e2] at h1; exact absurd (by simpa using h1) h2
                · rw [if_pos e1, if_neg e2] at h1; left; exact ⟨by simpa using h1, e1.symm⟩
              · by_cases e2 : b = i
                · rw [if_neg e1, if_pos e2] at h1; right; exact ⟨by simpa using h1, e2.symm⟩
                · rw [if_neg e1, if_neg e2] at h1; exact absurd (by simpa using h1) h2
      · have h1 : ¬ (i ≠ PAD ∧ 0 ≤ p ∧ d.items[p.toNat]? = some i) := fun h => hip ⟨h.1, h.2.1⟩
        have h2 : ¬ (i ≠ PAD ∧ 0 ≤ p ∧ o[p.toNat]? = some i) := fun h => hip ⟨h.1, h.2.1⟩
        rw [if_neg h1, if_neg h2]
        constructor
        · rintro ⟨h3, h4, _⟩; exact absurd ⟨h3, h4⟩ hip
        · rintro ⟨h3, h4⟩; simp at h3; exact absurd h3 h4

/-- C07, well-formedness: no coordinate occurs twice; every entry is ±1, refers to a real item
and a position inside the user's window. -/
theorem C07_delta_wellformed (new : SeqHist) (old : Dict ℤ (List ℤ)) (hk : new.keys.Nodup) :
    ((calculateDelta new old).map fun r => (r.user, r.item, r.pos)).Nodup ∧
    ∀ r ∈ calculateDelta new old, (r.val = 1 ∨ r.val = -1) ∧ r.item ≠ PAD ∧ 0 ≤ r.pos ∧
      ∃ d, new.get? r.user = some d ∧ r.pos < d.items.length := by
  refine ⟨calculateDelta_nodup new old hk, ?_⟩
  intro r hr
  rw [mem_calculateDelta] at hr
  unfold userDelta at hr
  split at hr
  · cases hr
  · rename_i d hd
    split at hr
    · obtain ⟨_, h2, h3, h4, h5⟩ := (mem_deltaNewUser _ _ _).1 hr
      have := (List.getElem?_eq_some_iff.1 h5).1
      exact ⟨Or.inl h2, h3, h4, d, hd, by omega⟩
    · obtain ⟨_, h2, h3, a, b, h4, h5, _, h6⟩ := (mem_deltaOldUser _ _ _ _).1 hr
      have := (List.getElem?_eq_some_iff.1 h4).1
      exact ⟨by rcases h6 with h | h <;> simp [h.1], h2, h3, d, hd, by omega⟩

/-- C07: a user whose window did not change contributes nothing. -/
theorem C07_unchanged_user_absent (new : SeqHist) (old : Dict ℤ (List ℤ)) (u : ℤ) (d : Deque)
    (hn : new.get? u = some d) (ho : old.get? u = some d.items) :
    ∀ r ∈ calculateDelta new old, r.user ≠ u := by
  rintro r hr rfl
  rw [mem_calculateDelta] at hr
  simp only [userDelta, hn, ho] at hr
  obtain ⟨_, _, _, a, b, h4, h5, hne, _⟩ := (mem_deltaOldUser _ _ _ _).1 hr
  rw [h4] at h5; exact hne (Option.some.inj h5)

/-- **C06.** At every cell the delta sums to new indicator minus old indicator. -/
theorem C06_delta_is_difference (new : SeqHist) (old : Dict ℤ (List ℤ)) (hk : new.keys.Nodup)
    (hpersist : ∀ u o, old.get? u = some o → ∃ d, new.get? u = some d ∧ d.items.length = o.length)
    (u i p : ℤ) :
    cooAt (calculateDelta new old) u i p =
      cell ((new.get? u).map Deque.items) i p - cell (old.get? u) i p :=
  cooAt_eq _ (calculateDelta_nodup new old hk) _ _ _ _
    (fun w => by
      rw [C07_delta_exact_entries new old hpersist]
      constructor
      · rintro ⟨rfl, h⟩; exact ⟨rfl, h⟩
      · rintro ⟨rfl, h⟩; exact ⟨rfl, h⟩)

/-- The deltas produced along a sequence of batches: for each batch, the delta between the
history after and before it (models/tirec.py:159-175). -/
def deltasAlong (L : ℕ) : SeqHist → List (List Inter) → List (List DRow)
  | _, [] => []
  | h, b :: bs =>
    let h' := updateUserSeqHistory b h L
    calculateDelta h' (snapshot h) :: deltasAlong L h' bs

/-- **C06, telescoping.** Starting from any history built from past interactions, the
indicator of the starting history plus all deltas of any sequence of batches is the
indicator of the windows of all interactions so far. -/
theorem C06_deltas_telescope (L : ℕ) (past batches : List (List Inter)) (u i p : ℤ) :
    let h0 : SeqHist := past.foldl (fun h b => updateUserSeqHistory b h L) []
    let all := past.flatten ++ batches.flatten
    cell ((h0.get? u).map Deque.items) i p +
      ((deltasAlong L h0 batches).map fun d => cooAt d u i p).sum =
    cell (if itemsOf u all = [] then none else some (window L (itemsOf u all))) i p := by
  intro h0 all
  have hInv : HistInv L h0 past.flatten := by
    simpa using histInv_batches L [] [] past (histInv_nil L)
  clear_value h0
  have key : ∀ (bs : List (List Inter)) (h : SeqHist) (done : List Inter), HistInv L h done →
      cell ((h.get? u).map Deque.items) i p + ((deltasAlong L h bs).map fun d => cooAt d u i p).sum =
      cell (if itemsOf u (done ++ bs.flatten) = [] then none
        else some (window L (itemsOf u (done ++ bs.flatten)))) i p := by
    intro bs
    induction bs with
    | nil =>
      intro h done hI
      rw [hI.entry u]
      simp only [deltasAlong, List.map_nil, List.sum_nil, add_zero, List.flatten_nil,
        List.append_nil, histEntry]
      split <;> rfl
    | cons b bs ih =>
      intro h done hI
      have hI' := histInv_update L h done b hI
      have hp : ∀ u o, (snapshot h).get? u = some o →
          ∃ d, (updateUserSeqHistory b h L).get? u = some d ∧ d.items.length = o.length := by
        intro u o ho
        rw [snapshot_get?, hI.entry u] at ho
        unfold histEntry at ho
        by_cases hn : itemsOf u done = []
        · rw [if_pos hn] at ho; cases ho
        · rw [if_neg hn] at ho
          refine ⟨⟨L, window L (itemsOf u (done ++ b))⟩, ?_, ?_⟩
          · rw [hI'.entry u]
            unfold histEntry
            rw [if_neg]
            rw [itemsOf_append]; simp [hn]
          · have := Option.some.inj ho
            simp only at this
            rw [← this, window_length, window_length]
      have hd := C06_delta_is_difference (updateUserSeqHistory b h L) (snapshot h) hI'.nodup hp u i p
      have := ih _ _ hI'
      rw [List.append_assoc] at this
      rw [List.flatten_cons, ← this]
      simp only [deltasAlong, List.map_cons, List.sum_cons, hd, snapshot_get?]
      ring
  exact key batches h0 past.flatten hInv

/-! Non-vacuity and concrete values. -/

example : updateUserSeqHistory [⟨1, 10, 0⟩, ⟨1, 11, 1⟩, ⟨2, 10, 0⟩, ⟨1, 12, 2⟩] [] 2 =
    [(1, ⟨2, [11, 12]⟩), (2, ⟨2, [-1, 10]⟩)] := by decide

example : calculateDelta [(1, ⟨2, [12, 13]⟩), (2, ⟨2, [-1, 10]⟩)] [(1, [12, 12])] =
    [⟨1, 13, 1, 1⟩, ⟨1, 12, 1, -1⟩, ⟨2, 10, 1, 1⟩] := by decide

-- hypotheses of C06/C07 are met by histories with a changed, an unchanged and a new user
example : ∀ u o, Dict.get? [((1 : ℤ), [(12 : ℤ), 12]), (3, [-1, 7])] u = some o →
    ∃ d, Dict.get? [((1 : ℤ), (⟨2, [12, 13]⟩ : Deque)), (3, ⟨2, [-1, 7]⟩), (2, ⟨2, [-1, 10]⟩)] u
      = some d ∧ d.items.length = o.length := by
  intro u o h
  simp only [Dict.get?] at h ⊢
  split at h
  · rename_i e; subst e; cases h; exact ⟨_, rfl, rfl⟩
  · split at h
    · rename_i e; subst e; cases h; exact ⟨_, rfl, rfl⟩
    · cases h

end DynCF
