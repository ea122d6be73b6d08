/- Property C76: the statistics of new users and items. -/
import Verif.Model.NewEntities
import Mathlib.Algebra.BigOperators.Group.List.Basic

namespace DynCF
variable {K : Type}

/-- `u` occurs in some row of the tables (`f` reads the user or the item). -/
def Occurs (f : Row K → ℤ) (tables : List (List (Row K))) (u : ℤ) : Prop :=
  ∃ t ∈ tables, ∃ r ∈ t, f r = u

/-- `s` is the set of the values seen in chunk `i` for the first time: in no earlier chunk and not in
the initial table. -/
def FirstSeen (f : Row K → ℤ) (initial : List (Row K)) (stream : List (List (Row K))) (i : ℕ)
    (s : Finset ℤ) : Prop :=
  ∀ u, u ∈ s ↔ (∃ c, stream[i]? = some c ∧ ∃ r ∈ c, f r = u) ∧
    ¬ Occurs f (initial :: stream.take i) u

/-- new users of chunk `i` that occur there with an item not seen before chunk `i` (and for items
with a user not seen before): `f` reads the value, `g` the partner. -/
def FirstSeenBoth (f g : Row K → ℤ) (initial : List (Row K)) (stream : List (List (Row K))) (i : ℕ)
    (s : Finset ℤ) : Prop :=
  ∀ u, u ∈ s ↔ ∃ c, stream[i]? = some c ∧ ∃ r ∈ c, f r = u ∧
    ¬ Occurs f (initial :: stream.take i) u ∧ ¬ Occurs g (initial :: stream.take i) (g r)

theorem occurs_snoc (f : Row K → ℤ) (tables : List (List (Row K))) (c : List (Row K)) (u : ℤ) :
    Occurs f (tables ++ [c]) u ↔ Occurs f tables u ∨ ∃ r ∈ c, f r = u := by
  unfold Occurs
  constructor
  · rintro ⟨t, ht, h⟩
    rcases List.mem_append.1 ht with ht | ht
    · exact Or.inl ⟨t, ht, h⟩
    · rw [List.mem_singleton.1 ht] at h
      exact Or.inr h
  · rintro (⟨t, ht, h⟩ | h)
    · exact ⟨t, by simp [ht], h⟩
    · exact ⟨c, by simp, h⟩

theorem newEntities_snoc (initial : List (Row K)) (stream : List (List (Row K))) (c : List (Row K)) :
    newEntities initial (stream ++ [c]) = newStep (newEntities initial stream) c := by
  simp [newEntities, List.foldl_append]

/-- the sets hold what has been seen; the lists have one entry per chunk -/
theorem newEntities_sets (initial : List (Row K)) (stream : List (List (Row K))) :
    (∀ u, u ∈ (newEntities initial stream).users ↔ Occurs Row.user (initial :: stream) u) ∧
    (∀ v, v ∈ (newEntities initial stream).items ↔ Occurs Row.item (initial :: stream) v) ∧
    (newEntities initial stream).nNewUsers.length = stream.length ∧
    (newEntities initial stream).nNewItems.length = stream.length ∧
    (newEntities initial stream).nNewUsersNi.length = stream.length ∧
    (newEntities initial stream).nNewItemsNu.length = stream.length := by
  induction stream using List.reverseRecOn with
  | nil => simp [newEntities, Occurs]
  | append_singleton l c ih =>
    rw [newEntities_snoc, ← List.cons_append]
    obtain ⟨h1, h2, h3, h4, h5, h6⟩ := ih
    refine ⟨fun u => ?_, fun v => ?_, ?_, ?_, ?_, ?_⟩
    · rw [occurs_snoc, ← h1]
      simp only [newStep, Finset.mem_union, List.mem_toFinset, List.mem_map, List.mem_filter,
        Bool.and_eq_true, decide_eq_true_eq, Finset.mem_sdiff]
      constructor
      · rintro ((h | ⟨r, ⟨hr, -⟩, rfl⟩) | ⟨⟨r, hr, rfl⟩, -⟩)
        · exact Or.inl h
        · exact Or.inr ⟨r, hr, rfl⟩
        · exact Or.inr ⟨r, hr, rfl⟩
      · rintro (h | h)
        · exact Or.inl (Or.inl h)
        · by_cases hq : u ∈ (newEntities initial l).users ∨ ∃ a, (a ∈ c ∧ a.user ∉
              (newEntities initial l).users ∧ a.item ∉ (newEntities initial l).items) ∧ a.user = u
          · exact Or.inl hq
          · exact Or.inr ⟨h, hq⟩
    · rw [occurs_snoc, ← h2]
      simp only [newStep, Finset.mem_union, List.mem_toFinset, List.mem_map, List.mem_filter,
        Bool.and_eq_true, decide_eq_true_eq, Finset.mem_sdiff]
      constructor
      · rintro ((h | ⟨r, ⟨hr, -⟩, rfl⟩) | ⟨⟨r, hr, rfl⟩, -⟩)
        · exact Or.inl h
        · exact Or.inr ⟨r, hr, rfl⟩
        · exact Or.inr ⟨r, hr, rfl⟩
      · rintro (h | h)
        · exact Or.inl (Or.inl h)
        · by_cases hq : v ∈ (newEntities initial l).items ∨ ∃ a, (a ∈ c ∧ a.user ∉
              (newEntities initial l).users ∧ a.item ∉ (newEntities initial l).items) ∧ a.item = v
          · exact Or.inl hq
          · exact Or.inr ⟨h, hq⟩
    · simp [newStep, h3]
    · simp [newStep, h4]
    · simp [newStep, h5]
    · simp [newStep, h6]

theorem firstSeen_last (f : Row K → ℤ) (initial : List (Row K)) (l : List (List (Row K)))
    (c : List (Row K)) (seen : Finset ℤ) (h : ∀ u, u ∈ seen ↔ Occurs f (initial :: l) u) :
    FirstSeen f initial (l ++ [c]) l.length ((c.map f).toFinset \ seen) := by
  intro u
  rw [show (l ++ [c])[l.length]? = some c by simp, show (l ++ [c]).take l.length = l by simp,
    Finset.mem_sdiff, h, List.mem_toFinset, List.mem_map]
  constructor
  · rintro ⟨h, hn⟩; exact ⟨⟨c, rfl, h⟩, hn⟩
  · rintro ⟨⟨c', hc, h⟩, hn⟩
    cases hc
    exact ⟨h, hn⟩

theorem firstSeenBoth_last (f g : Row K → ℤ) (initial : List (Row K)) (l : List (List (Row K)))
    (c : List (Row K)) (q : Row K → Bool)
    (h : ∀ r, q r = true ↔ ¬ Occurs f (initial :: l) (f r) ∧ ¬ Occurs g (initial :: l) (g r)) :
    FirstSeenBoth f g initial (l ++ [c]) l.length ((c.filter q).map f).toFinset := by
  intro u
  rw [show (l ++ [c])[l.length]? = some c by simp, show (l ++ [c]).take l.length = l by simp,
    List.mem_toFinset, List.mem_map]
  constructor
  · rintro ⟨r, hr, rfl⟩
    obtain ⟨hr1, hr2⟩ := List.mem_filter.1 hr
    obtain ⟨ha, hb⟩ := (h r).1 hr2
    exact ⟨c, rfl, r, hr1, rfl, ha, hb⟩
  · rintro ⟨c', hc, r, hr, rfl, ha, hb⟩
    cases hc
    exact ⟨r, List.mem_filter.2 ⟨hr, (h r).2 ⟨ha, hb⟩⟩, rfl⟩

/-- the two kinds of new values of a chunk add up -/
theorem card_two_kinds (f : Row K → ℤ) (c : List (Row K)) (q : Row K → Bool) (seen : Finset ℤ)
    (hq : ∀ r, q r = true → f r ∉ seen) :
    ((c.map f).toFinset \ (seen ∪ ((c.filter q).map f).toFinset)).card +
      ((c.filter q).map f).toFinset.card = ((c.map f).toFinset \ seen).card := by
  have hsub : ((c.filter q).map f).toFinset ⊆ (c.map f).toFinset \ seen := by
    intro u hu
    rw [List.mem_toFinset, List.mem_map] at hu
    obtain ⟨r, hr, rfl⟩ := hu
    obtain ⟨hr1, hr2⟩ := List.mem_filter.1 hr
    rw [Finset.mem_sdiff, List.mem_toFinset]
    exact ⟨List.mem_map_of_mem hr1, hq r hr2⟩
  have he : ∀ A B C : Finset ℤ, A \ (B ∪ C) = (A \ B) \ C := by
    intro A B C
    ext u
    simp only [Finset.mem_sdiff, Finset.mem_union]
    tauto
  rw [he, Finset.card_sdiff_add_card_eq_card hsub]

/-- What one position of the four lists says. -/
def ChunkCounts (initial : List (Row K)) (stream : List (List (Row K))) (i : ℕ) (st : NewSt) : Prop :=
  ∃ (a b a' b' : ℕ) (su si sun sin : Finset ℤ),
    st.nNewUsers[i]? = some a ∧ st.nNewItems[i]? = some b ∧ st.nNewUsersNi[i]? = some a' ∧
    st.nNewItemsNu[i]? = some b' ∧
    FirstSeen Row.user initial stream i su ∧ FirstSeen Row.item initial stream i si ∧
    FirstSeenBoth Row.user Row.item initial stream i sun ∧
    FirstSeenBoth Row.item Row.user initial stream i sin ∧
    a' = sun.card ∧ b' = sin.card ∧ a + a' = su.card ∧ b + b' = si.card

theorem firstSeen_append (f : Row K → ℤ) (initial : List (Row K)) (l m : List (List (Row K))) (i : ℕ)
    (hi : i < l.length) (s : Finset ℤ) (h : FirstSeen f initial l i s) :
    FirstSeen f initial (l ++ m) i s := by
  intro u
  rw [h u, List.getElem?_append_left hi, List.take_append_of_le_length (le_of_lt hi)]

theorem firstSeenBoth_append (f g : Row K → ℤ) (initial : List (Row K)) (l m : List (List (Row K)))
    (i : ℕ) (hi : i < l.length) (s : Finset ℤ) (h : FirstSeenBoth f g initial l i s) :
    FirstSeenBoth f g initial (l ++ m) i s := by
  intro u
  rw [h u, List.getElem?_append_left hi, List.take_append_of_le_length (le_of_lt hi)]

/-- **C76**: position `i` of the lists speaks about chunk `i`: the entry of the second kind is the
number of users (items) first seen in this chunk together with an item (user) not seen before the
chunk, and the two entries add up to the number of all users (items) first seen in this chunk. The
initial users plus all counted users are all users seen, and the same for the items. -/
theorem C76_new_entities (initial : List (Row K)) (stream : List (List (Row K))) :
    (∀ i < stream.length, ChunkCounts initial stream i (newEntities initial stream)) ∧
    (∀ iu au : Finset ℤ, (∀ u, u ∈ iu ↔ Occurs Row.user [initial] u) →
      (∀ u, u ∈ au ↔ Occurs Row.user (initial :: stream) u) →
      iu.card + (newEntities initial stream).nNewUsers.sum +
        (newEntities initial stream).nNewUsersNi.sum = au.card) ∧
    (∀ ii ai : Finset ℤ, (∀ u, u ∈ ii ↔ Occurs Row.item [initial] u) →
      (∀ u, u ∈ ai ↔ Occurs Row.item (initial :: stream) u) →
      ii.card + (newEntities initial stream).nNewItems.sum +
        (newEntities initial stream).nNewItemsNu.sum = ai.card) := by
  have hext : ∀ (f : Row K → ℤ) (tables : List (List (Row K))) (s t : Finset ℤ),
      (∀ u, u ∈ s ↔ Occurs f tables u) → (∀ u, u ∈ t ↔ Occurs f tables u) → s = t := by
    intro f tables s t hs ht
    ext u
    rw [hs, ht]
  suffices h : (∀ i < stream.length, ChunkCounts initial stream i (newEntities initial stream)) ∧
      (initial.map Row.user).toFinset.card + (newEntities initial stream).nNewUsers.sum +
        (newEntities initial stream).nNewUsersNi.sum = (newEntities initial stream).users.card ∧
      (initial.map Row.item).toFinset.card + (newEntities initial stream).nNewItems.sum +
        (newEntities initial stream).nNewItemsNu.sum = (newEntities initial stream).items.card by
    obtain ⟨h1, h2, h3⟩ := h
    obtain ⟨hu, hi, -⟩ := newEntities_sets initial stream
    refine ⟨h1, ?_, ?_⟩
    · intro iu au hiu hau
      rw [hext _ _ au _ hau hu, ← h2, hext _ _ iu (initial.map Row.user).toFinset hiu]
      intro u
      simp [Occurs]
    · intro iu au hiu hau
      rw [hext _ _ au _ hau hi, ← h3, hext _ _ iu (initial.map Row.item).toFinset hiu]
      intro u
      simp [Occurs]
  induction stream using List.reverseRecOn with
  | nil => simp [newEntities]
  | append_singleton l c ih =>
    obtain ⟨ih1, ih2, ih3⟩ := ih
    obtain ⟨hu, hi, hl1, hl2, hl3, hl4⟩ := newEntities_sets initial l
    rw [newEntities_snoc]
    generalize newEntities initial l = st at *
    have hku := card_two_kinds Row.user c
      (fun r => decide (r.user ∉ st.users) && decide (r.item ∉ st.items)) st.users (by
        intro r hr
        simp only [Bool.and_eq_true, decide_eq_true_eq] at hr
        exact hr.1)
    have hki := card_two_kinds Row.item c
      (fun r => decide (r.user ∉ st.users) && decide (r.item ∉ st.items)) st.items (by
        intro r hr
        simp only [Bool.and_eq_true, decide_eq_true_eq] at hr
        exact hr.2)
    refine ⟨?_, ?_, ?_⟩
    · intro i hi'
      rw [List.length_append, List.length_singleton] at hi'
      rcases Nat.lt_or_ge i l.length with hlt | hge
      · obtain ⟨a, b, a', b', su, si, sun, sin, e1, e2, e3, e4, f1, f2, f3, f4, g⟩ := ih1 i hlt
        refine ⟨a, b, a', b', su, si, sun, sin, ?_, ?_, ?_, ?_, firstSeen_append _ _ _ _ _ hlt _ f1,
          firstSeen_append _ _ _ _ _ hlt _ f2, firstSeenBoth_append _ _ _ _ _ _ hlt _ f3,
          firstSeenBoth_append _ _ _ _ _ _ hlt _ f4, g⟩
        · simp only [newStep]
          rw [List.getElem?_append_left (by omega), e1]
        · simp only [newStep]
          rw [List.getElem?_append_left (by omega), e2]
        · simp only [newStep]
          rw [List.getElem?_append_left (by omega), e3]
        · simp only [newStep]
          rw [List.getElem?_append_left (by omega), e4]
      · have hie : i = l.length := by omega
        subst hie
        refine ⟨_, _, _, _, _, _, _, _, ?_, ?_, ?_, ?_, firstSeen_last Row.user initial l c st.users hu,
          firstSeen_last Row.item initial l c st.items hi,
          firstSeenBoth_last Row.user Row.item initial l c
            (fun r => decide (r.user ∉ st.users) && decide (r.item ∉ st.items)) ?_,
          firstSeenBoth_last Row.item Row.user initial l c
            (fun r => decide (r.user ∉ st.users) && decide (r.item ∉ st.items)) ?_, rfl, rfl, hku, hki⟩
        · simp only [newStep]
          rw [← hl1]; simp
        · simp only [newStep]
          rw [← hl2]; simp
        · simp only [newStep]
          rw [← hl3]; simp
        · simp only [newStep]
          rw [← hl4]; simp
        · intro r
          rw [Bool.and_eq_true, decide_eq_true_eq, decide_eq_true_eq, hu, hi]
        · intro r
          rw [Bool.and_eq_true, decide_eq_true_eq, decide_eq_true_eq, hu, hi, and_comm]
    · simp only [newStep, List.sum_append, List.sum_singleton]
      rw [Finset.card_union_of_disjoint Finset.disjoint_sdiff,
        Finset.card_union_of_disjoint, ← ih2]
      · omega
      · rw [Finset.disjoint_right]
        intro u h
        rw [List.mem_toFinset, List.mem_map] at h
        obtain ⟨r, hr, rfl⟩ := h
        have := (List.mem_filter.1 hr).2
        simp only [Bool.and_eq_true, decide_eq_true_eq] at this
        exact this.1
    · simp only [newStep, List.sum_append, List.sum_singleton]
      rw [Finset.card_union_of_disjoint Finset.disjoint_sdiff,
        Finset.card_union_of_disjoint, ← ih3]
      · omega
      · rw [Finset.disjoint_right]
        intro u h
        rw [List.mem_toFinset, List.mem_map] at h
        obtain ⟨r, hr, rfl⟩ := h
        have := (List.mem_filter.1 hr).2
        simp only [Bool.and_eq_true, decide_eq_true_eq] at this
        exact this.2

/-- Users 1, 2 and item 10 are known. The first chunk brings user 3 with the new item 20 and user 4
with the known item 10; the second brings the item 30 for a known user and nothing else new. -/
example : newEntities [(⟨1, 10, 1, 0, 0⟩ : Row ℤ), ⟨2, 10, 1, 0, 0⟩]
    [[⟨3, 20, 1, 1, 1⟩, ⟨4, 10, 1, 1, 1⟩, ⟨1, 20, 1, 1, 1⟩], [⟨3, 30, 1, 2, 2⟩, ⟨4, 20, 1, 2, 2⟩]] =
    ⟨{1, 2, 3, 4}, {10, 20, 30}, [1, 0], [0, 1], [1, 0], [1, 0]⟩ := by decide

end DynCF
