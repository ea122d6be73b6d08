/- Helper lemmas for sequential histories and deltas. -/
import Verif.Lemmas.Selection
import Verif.Spec.History
import Mathlib.Algebra.BigOperators.Group.List.Basic
import Mathlib.Tactic.Ring
import Mathlib.Tactic.Linarith

namespace DynCF

theorem lastN_length {α : Type} (n : ℕ) (l : List α) : (lastN n l).length = min n l.length := by
  simp [lastN]; omega

theorem lastN_of_length_le {α : Type} (n : ℕ) (l : List α) (h : l.length ≤ n) : lastN n l = l := by
  simp [lastN, Nat.sub_eq_zero_of_le h]

theorem lastN_append_of_le {α : Type} (n : ℕ) (l m : List α) (h : n ≤ m.length) :
    lastN n (l ++ m) = lastN n m := by
  unfold lastN
  rw [List.length_append, List.drop_append]
  have h1 : l.drop (l.length + m.length - n) = [] := by
    rw [List.drop_eq_nil_iff]; omega
  rw [h1, List.nil_append]
  congr 1; omega

theorem lastN_append_lastN {α : Type} (n : ℕ) (l m : List α) :
    lastN n (lastN n l ++ m) = lastN n (l ++ m) := by
  by_cases h : l.length ≤ n
  · rw [lastN_of_length_le n l h]
  · have e : l ++ m = l.take (l.length - n) ++ (lastN n l ++ m) := by
      rw [← List.append_assoc]; unfold lastN; rw [List.take_append_drop]
    rw [e, lastN_append_of_le n (l.take (l.length - n)) (lastN n l ++ m)]
    rw [List.length_append, lastN_length]; omega

theorem lastN_suffix {α : Type} (n : ℕ) (l : List α) : ∃ p, l = p ++ lastN n l :=
  ⟨l.take (l.length - n), by unfold lastN; rw [List.take_append_drop]⟩

theorem deque_append_window (L : ℕ) (items : List ℤ) (x : ℤ) :
    Deque.append ⟨L, window L items⟩ x = ⟨L, window L (items ++ [x])⟩ := by
  have : (Deque.append ⟨L, window L items⟩ x) = ⟨L, lastN L (window L items ++ [x])⟩ := rfl
  rw [this]
  unfold window
  rw [lastN_append_lastN, List.append_assoc]

theorem window_length (L : ℕ) (items : List ℤ) : (window L items).length = L := by
  unfold window; rw [lastN_length]; simp

theorem window_nil (L : ℕ) : window L [] = List.replicate L PAD := by
  unfold window; rw [lastN_of_length_le] <;> simp

theorem window_getElem? (L : ℕ) (items : List ℤ) (k : ℕ) :
    (window L items)[k]? =
      if k + items.length < L then some PAD else items[k + items.length - L]? := by
  unfold window lastN
  rw [List.getElem?_drop, List.getElem?_append]
  simp only [List.length_append, List.length_replicate]
  have e : L + items.length - L + k = k + items.length := by omega
  rw [e]
  split
  · rw [List.getElem?_replicate, if_pos (by assumption)]
  · rfl

/-- Expected entry of user `u` after the interactions `l`. -/
def histEntry (L : ℕ) (u : ℤ) (l : List Inter) : Option Deque :=
  if itemsOf u l = [] then none else some ⟨L, window L (itemsOf u l)⟩

theorem itemsOf_append (u : ℤ) (a b : List Inter) :
    itemsOf u (a ++ b) = itemsOf u a ++ itemsOf u b := by simp [itemsOf]

/-- The history `h` is the one obtained from the interactions `past`. -/
structure HistInv (L : ℕ) (h : SeqHist) (past : List Inter) : Prop where
  nodup : h.keys.Nodup
  entry : ∀ u, h.get? u = histEntry L u past

theorem histInv_step (L : ℕ) (h : SeqHist) (past : List Inter) (t : Inter)
    (hi : HistInv L h past) : HistInv L (updateUserSeqHistoryStep L h t) (past ++ [t]) := by
  have hit : itemsOf t.user (past ++ [t]) = itemsOf t.user past ++ [t.item] := by
    simp [itemsOf]
  have hother : ∀ u, u ≠ t.user → itemsOf u (past ++ [t]) = itemsOf u past := by
    intro u hu
    rw [itemsOf_append]
    simp [itemsOf, Ne.symm hu]
  unfold updateUserSeqHistoryStep
  by_cases hc : h.contains t.user = true
  · have hs : (h.get? t.user).isSome := hc
    obtain ⟨d, hd⟩ := Option.isSome_iff_exists.1 hs
    simp only [hc, if_true, hd]
    refine ⟨Dict.keys_set_nodup _ _ _ hi.nodup, ?_⟩
    intro u
    rw [Dict.get?_set]
    by_cases hu : t.user = u
    · subst hu
      rw [if_pos rfl]
      have := hi.entry t.user
      rw [hd] at this
      unfold histEntry at this ⊢
      by_cases hn : itemsOf t.user past = []
      · rw [if_pos hn] at this; cases this
      · rw [if_neg hn] at this
        rw [hit, if_neg (by simp), ← deque_append_window, ← Option.some.inj this]
    · rw [if_neg hu, hi.entry u]
      unfold histEntry
      rw [hother u (Ne.symm hu)]
  · have hs : h.get? t.user = none := by
      cases hg : h.get? t.user with
      | none => rfl
      | some d => exact absurd (by show (h.get? t.user).isSome = true; rw [hg]; rfl) hc
    simp only [hc, Bool.false_eq_true, if_false, Dict.get?_set_self]
    refine ⟨Dict.keys_set_nodup _ _ _ (Dict.keys_set_nodup _ _ _ hi.nodup), ?_⟩
    intro u
    rw [Dict.get?_set]
    by_cases hu : t.user = u
    · subst hu
      rw [if_pos rfl]
      have := hi.entry t.user
      rw [hs] at this
      unfold histEntry at this ⊢
      have hn : itemsOf t.user past = [] := by
        by_contra hn; rw [if_neg hn] at this; cases this
      rw [hit, if_neg (by simp), ← deque_append_window, hn, window_nil]
    · rw [if_neg hu, Dict.get?_set_ne _ _ hu, hi.entry u]
      unfold histEntry
      rw [hother u (Ne.symm hu)]

theorem histInv_update (L : ℕ) (h : SeqHist) (past new : List Inter) (hi : HistInv L h past) :
    HistInv L (updateUserSeqHistory new h L) (past ++ new) := by
  induction new generalizing h past with
  | nil => simpa [updateUserSeqHistory] using hi
  | cons t new ih =>
    have := ih _ _ (histInv_step L h past t hi)
    rw [List.append_assoc, List.singleton_append] at this
    exact this

theorem histInv_nil (L : ℕ) : HistInv L [] [] :=
  ⟨by simp [Dict.keys], fun u => by simp [histEntry, itemsOf]⟩

theorem histInv_batches (L : ℕ) (h : SeqHist) (past : List Inter) (batches : List (List Inter))
    (hi : HistInv L h past) :
    HistInv L (batches.foldl (fun h b => updateUserSeqHistory b h L) h)
      (past ++ batches.flatten) := by
  induction batches generalizing h past with
  | nil => simpa using hi
  | cons b bs ih =>
    have := ih _ _ (histInv_update L h past b hi)
    rw [List.append_assoc] at this
    simpa using this

/-! ### snapshot -/

theorem snapshot_get? (h : SeqHist) (u : ℤ) :
    (snapshot h).get? u = (h.get? u).map Deque.items := by
  induction h with
  | nil => rfl
  | cons p h ih =>
    obtain ⟨a, d⟩ := p
    simp only [snapshot, List.map_cons, Dict.get?_cons] at ih ⊢
    split <;> simp [ih]

theorem snapshot_keys (h : SeqHist) : (snapshot h).keys = h.keys := by
  simp [snapshot, Dict.keys]

/-! ### delta -/

theorem mem_deltaNewUser (u : ℤ) (new : List ℤ) (r : DRow) :
    r ∈ deltaNewUser u new ↔ r.user = u ∧ r.val = 1 ∧ r.item ≠ PAD ∧ 0 ≤ r.pos ∧
      new[r.pos.toNat]? = some r.item := by
  unfold deltaNewUser
  simp only [List.mem_flatMap, Prod.exists]
  constructor
  · rintro ⟨p, i, hm, hr⟩
    obtain ⟨k, hk, hx⟩ := (mem_pyEnumerate _ _ _ _).1 hm
    simp only [Int.zero_add] at hk
    subst hk
    split at hr
    · rename_i hne
      rw [List.mem_singleton] at hr
      subst hr
      exact ⟨rfl, rfl, hne, by simp, by simpa using hx⟩
    · cases hr
  · rintro ⟨h1, h2, h3, h4, h5⟩
    refine ⟨r.pos, r.item, (mem_pyEnumerate _ _ _ _).2 ⟨r.pos.toNat, by omega, h5⟩, ?_⟩
    rw [if_pos h3, List.mem_singleton]
    cases r; simp only at *; subst h1 h2; rfl

theorem mem_deltaOldUser (u : ℤ) (new old : List ℤ) (r : DRow) :
    r ∈ deltaOldUser u new old ↔ r.user = u ∧ r.item ≠ PAD ∧ 0 ≤ r.pos ∧
      ∃ a b, new[r.pos.toNat]? = some a ∧ old[r.pos.toNat]? = some b ∧ a ≠ b ∧
        ((r.val = 1 ∧ r.item = a) ∨ (r.val = -1 ∧ r.item = b)) := by
  unfold deltaOldUser
  simp only [List.mem_flatMap, Prod.exists]
  constructor
  · rintro ⟨p, a, b, hm, hr⟩
    obtain ⟨k, hk, hx⟩ := (mem_pyEnumerate _ _ _ _).1 hm
    simp only [Int.zero_add] at hk
    subst hk
    rw [List.getElem?_zip_eq_some] at hx
    split at hr
    · rename_i hne
      rw [List.mem_append] at hr
      rcases hr with hr | hr
      · split at hr
        · rename_i hp
          rw [List.mem_singleton] at hr; subst hr
          exact ⟨rfl, hp, by simp, a, b, by simpa using hx.1, by simpa using hx.2, hne,
            Or.inl ⟨rfl, rfl⟩⟩
        · cases hr
      · split at hr
        · rename_i hp
          rw [List.mem_singleton] at hr; subst hr
          exact ⟨rfl, hp, by simp, a, b, by simpa using hx.1, by simpa using hx.2, hne,
            Or.inr ⟨rfl, rfl⟩⟩
        · cases hr
    · cases hr
  · rintro ⟨h1, h2, h3, a, b, h4, h5, hne, h6⟩
    refine ⟨r.pos, a, b, (mem_pyEnumerate _ _ _ _).2 ⟨r.pos.toNat, by omega, ?_⟩, ?_⟩
    · rw [List.getElem?_zip_eq_some]; exact ⟨h4, h5⟩
    · rw [if_pos hne, List.mem_append]
      rcases h6 with ⟨h6, h7⟩ | ⟨h6, h7⟩
      · left
        rw [if_pos (by rw [← h7]; exact h2), List.mem_singleton]
        cases r; simp only at *; subst h1 h6 h7; rfl
      · right
        rw [if_pos (by rw [← h7]; exact h2), List.mem_singleton]
        cases r; simp only at *; subst h1 h6 h7; rfl

/-- coordinates of an entry -/
def DRow.coord (r : DRow) : ℤ × ℤ × ℤ := (r.user, r.item, r.pos)

theorem flatMap_enum_nodup {α : Type} (l : List α) (s : ℤ) (f : ℤ × α → List DRow)
    (hf : ∀ p, ((f p).map DRow.coord).Nodup) (hp : ∀ p, ∀ r ∈ f p, r.pos = p.1) :
    (((pyEnumerate l s).flatMap f).map DRow.coord).Nodup := by
  induction l generalizing s with
  | nil => simp [pyEnumerate]
  | cons a l ih =>
    simp only [pyEnumerate, List.flatMap_cons, List.map_append]
    rw [List.nodup_append]
    refine ⟨hf _, ih _, ?_⟩
    intro x hx y hy hxy
    subst hxy
    obtain ⟨r, hr, rfl⟩ := List.mem_map.1 hx
    obtain ⟨r', hr', he⟩ := List.mem_map.1 hy
    obtain ⟨⟨j, b⟩, hm, hr''⟩ := List.mem_flatMap.1 hr'
    obtain ⟨k, hk, _⟩ := (mem_pyEnumerate _ _ _ _).1 hm
    have e1 := hp _ r hr
    have e2 := hp _ r' hr''
    have e3 : r'.pos = r.pos := by
      have := congrArg (fun c => c.2.2) he
      simpa [DRow.coord] using this
    simp only at e1 e2
    omega

theorem deltaNewUser_nodup (u : ℤ) (new : List ℤ) :
    ((deltaNewUser u new).map DRow.coord).Nodup := by
  apply flatMap_enum_nodup
  · intro p; split <;> simp
  · intro p r hr
    split at hr
    · rw [List.mem_singleton] at hr; subst hr; rfl
    · cases hr

theorem deltaOldUser_nodup (u : ℤ) (new old : List ℤ) :
    ((deltaOldUser u new old).map DRow.coord).Nodup := by
  apply flatMap_enum_nodup
  · rintro ⟨p, a, b⟩
    simp only
    split
    · rename_i hne
      split <;> split <;> simp [DRow.coord, hne]
    · simp
  · rintro ⟨p, a, b⟩ r hr
    simp only at hr ⊢
    split at hr
    · rw [List.mem_append] at hr
      rcases hr with hr | hr <;> split at hr <;>
        simp only [List.mem_singleton, List.not_mem_nil] at hr <;> (subst hr; rfl)
    · cases hr

/-- Entries of one user. -/
def userDelta (new : SeqHist) (old : Dict ℤ (List ℤ)) (u : ℤ) : List DRow :=
  match new.get? u with
    | none => []
    | some d =>
      match old.get? u with
      | none => deltaNewUser u d.items
      | some o => deltaOldUser u d.items o

theorem userDelta_user (new : SeqHist) (old : Dict ℤ (List ℤ)) (u : ℤ) (r : DRow)
    (h : r ∈ userDelta new old u) : r.user = u := by
  unfold userDelta at h
  split at h
  · cases h
  · split at h
    · exact ((mem_deltaNewUser _ _ _).1 h).1
    · exact ((mem_deltaOldUser _ _ _ _).1 h).1

theorem userDelta_nodup (new : SeqHist) (old : Dict ℤ (List ℤ)) (u : ℤ) :
    ((userDelta new old u).map DRow.coord).Nodup := by
  unfold userDelta
  split
  · simp
  · split
    · exact deltaNewUser_nodup _ _
    · exact deltaOldUser_nodup _ _ _

theorem mem_calculateDelta (new : SeqHist) (old : Dict ℤ (List ℤ)) (r : DRow) :
    r ∈ calculateDelta new old ↔ r ∈ userDelta new old r.user := by
  have e : calculateDelta new old = new.keys.flatMap (userDelta new old) := rfl
  rw [e, List.mem_flatMap]
  constructor
  · rintro ⟨u, _, hr⟩
    rw [userDelta_user _ _ _ _ hr]; exact hr
  · intro h
    refine ⟨r.user, ?_, h⟩
    rw [Dict.mem_keys_iff]
    unfold userDelta at h
    cases hg : new.get? r.user with
    | none => rw [hg] at h; cases h
    | some d => rfl

theorem calculateDelta_nodup (new : SeqHist) (old : Dict ℤ (List ℤ)) (h : new.keys.Nodup) :
    ((calculateDelta new old).map DRow.coord).Nodup := by
  have e : calculateDelta new old = new.keys.flatMap (userDelta new old) := rfl
  rw [e]
  generalize new.keys = ks at h
  induction ks with
  | nil => simp
  | cons u ks ih =>
    rw [List.nodup_cons] at h
    rw [List.flatMap_cons, List.map_append, List.nodup_append]
    refine ⟨userDelta_nodup _ _ _, ih h.2, ?_⟩
    intro x hx y hy hxy
    subst hxy
    obtain ⟨r, hr, rfl⟩ := List.mem_map.1 hx
    obtain ⟨r', hr', he⟩ := List.mem_map.1 hy
    obtain ⟨u', hu', hr''⟩ := List.mem_flatMap.1 hr'
    have e1 := userDelta_user _ _ _ _ hr
    have e2 := userDelta_user _ _ _ _ hr''
    have e3 : r'.user = r.user := by
      have := congrArg (fun c => c.1) he
      simpa [DRow.coord] using this
    rw [e1, e2] at e3
    exact h.1 (e3 ▸ hu')

/-- With distinct coordinates the value at a cell is the entry there, or 0. -/
theorem cooAt_eq (d : List DRow) (hd : (d.map DRow.coord).Nodup) (u i p v : ℤ)
    (h : ∀ w, (⟨u, i, p, w⟩ ∈ d ↔ w = v ∧ v ≠ 0)) : cooAt d u i p = v := by
  unfold cooAt
  have key : ∀ l : List DRow, (l.map DRow.coord).Nodup →
      (∀ r ∈ l, r.user = u ∧ r.item = i ∧ r.pos = p) →
      l = [] ∨ ∃ w, l = [⟨u, i, p, w⟩] := by
    intro l hl hall
    match l with
    | [] => exact Or.inl rfl
    | [r] =>
      right
      obtain ⟨h1, h2, h3⟩ := hall r (by simp)
      exact ⟨r.val, by cases r; simp only at *; subst h1 h2 h3; rfl⟩
    | r :: r' :: l =>
      exfalso
      obtain ⟨h1, h2, h3⟩ := hall r (by simp)
      obtain ⟨h1', h2', h3'⟩ := hall r' (by simp)
      simp only [List.map_cons, List.nodup_cons, List.mem_cons, not_or] at hl
      apply hl.1.1
      simp [DRow.coord, *]
  have hfil := key (d.filter fun r => decide (r.user = u ∧ r.item = i ∧ r.pos = p))
    (hd.sublist (List.Sublist.map _ List.filter_sublist)) (by
      intro r hr; simpa using (List.mem_filter.1 hr).2)
  rcases hfil with hf | ⟨w, hf⟩
  · rw [hf]
    by_cases hv : v = 0
    · simp [hv]
    · have := (h v).2 ⟨rfl, hv⟩
      have hm : (⟨u, i, p, v⟩ : DRow) ∈ d.filter fun r => decide (r.user = u ∧ r.item = i ∧ r.pos = p) := by
        rw [List.mem_filter]; exact ⟨this, by simp⟩
      rw [hf] at hm; cases hm
  · have hm : (⟨u, i, p, w⟩ : DRow) ∈ d := by
      have : (⟨u, i, p, w⟩ : DRow) ∈ d.filter fun r => decide (r.user = u ∧ r.item = i ∧ r.pos = p) := by
        rw [hf]; simp
      exact (List.mem_filter.1 this).1
    rw [hf, ((h w).1 hm).1]; simp

end DynCF
