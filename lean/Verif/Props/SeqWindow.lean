/- When an update of `TIRec` has something to do, in terms of the rows (used for C130). -/
import Verif.Props.SeqView
import Verif.Props.TIRec

set_option linter.unusedSectionVars false

namespace DynCF
variable {K : Type}

/-! ### Specification -/

/-- The last `L` items of a user. -/
def lastItems (L : ℕ) (rows : List (Row K)) (u : ℤ) : List ℤ := lastN L ((rowsOf u rows).map Row.item)

/-- Some user's last `L` items change when the rows `new` come after the rows `seen`. -/
def WindowMoves (L : ℕ) (seen new : List (Row K)) : Prop := ∃ u, lastItems L (seen ++ new) u ≠ lastItems L seen u

/-- The users and the items of `new` that do not occur in `seen`. -/
def newUsersOf (seen new : List (Row K)) : Finset ℤ := (new.map Row.user).toFinset \ (seen.map Row.user).toFinset
def newItemsOf (seen new : List (Row K)) : Finset ℤ := (new.map Row.item).toFinset \ (seen.map Row.item).toFinset

/-- There are not too many new users without a new item, and not too many new items without a new user: at most as many
as the unfolding of the core times the other factors has columns. -/
def TIRecFits (L : ℕ) (seen new : List (Row K)) : Prop :=
  ((newUsersOf seen new).filter fun u => ∀ r ∈ new, r.user = u → r.item ∉ newItemsOf seen new).card ≤
      L * (numItems seen + ((newItemsOf seen new).filter fun i => ∃ r ∈ new, r.item = i ∧ r.user ∈ newUsersOf seen new).card) ∧
    ((newItemsOf seen new).filter fun i => ∀ r ∈ new, r.item = i → r.user ∉ newUsersOf seen new).card ≤
      L * (numUsers seen + (newUsersOf seen new).card)

/-! ### Windows -/

theorem window_split (L : ℕ) (items : List ℤ) :
    window L items = List.replicate (L - items.length) PAD ++ lastN L items := by
  unfold window lastN
  rw [List.length_append, List.length_replicate, Nat.add_sub_cancel_left, List.drop_append, List.drop_replicate,
    List.length_replicate]

theorem window_eq_iff (L : ℕ) {a b : List ℤ} (ha : ∀ x ∈ a, x ≠ PAD) (hb : ∀ x ∈ b, x ≠ PAD) :
    window L a = window L b ↔ lastN L a = lastN L b := by
  have key : ∀ l : List ℤ, (∀ x ∈ l, x ≠ PAD) → (window L l).filter (fun x => decide (x ≠ PAD)) = lastN L l := by
    intro l hl
    rw [window_split, List.filter_append]
    have e1 : (List.replicate (L - l.length) PAD).filter (fun x => decide (x ≠ PAD)) = [] := by
      rw [List.filter_eq_nil_iff]
      intro x hx
      simp [(List.mem_replicate.1 hx).2]
    have e2 : (lastN L l).filter (fun x => decide (x ≠ PAD)) = lastN L l := by
      rw [List.filter_eq_self]
      intro x hx
      simpa using hl x (List.mem_of_mem_drop hx)
    rw [e1, e2]
    rfl
  constructor
  · intro h
    rw [← key a ha, ← key b hb, h]
  · intro h
    have hlen := congrArg List.length h
    rw [lastN_length, lastN_length] at hlen
    rw [window_split, window_split, h]
    congr 2
    omega

theorem cell_eq_iff {w w' : List ℤ} (hw : w.length = w'.length) :
    (∀ i p, cell (some w) i p = cell (some w') i p) ↔ w = w' := by
  constructor
  · intro h
    apply List.ext_getElem hw
    intro n h1 h2
    have key : ∀ a b : List ℤ, (h1 : n < a.length) → (∀ i p, cell (some a) i p = cell (some b) i p) → a[n] ≠ PAD →
        b[n]? = some a[n] := by
      intro a b ha hab hne
      have := hab a[n] (n : ℤ)
      dsimp only [cell] at this
      rw [if_pos ⟨hne, by omega, by rw [Int.toNat_natCast, List.getElem?_eq_getElem ha]⟩] at this
      by_contra hc
      rw [if_neg (by rintro ⟨-, -, h⟩; exact hc (by rwa [Int.toNat_natCast] at h))] at this
      omega
    by_cases hp : w[n] = PAD
    · by_cases hp' : w'[n] = PAD
      · rw [hp, hp']
      · have := key w' w h2 (fun i p => (h i p).symm) hp'
        rw [List.getElem?_eq_getElem h1] at this
        exact Option.some.inj this
    · have := key w w' h1 h hp
      rw [List.getElem?_eq_getElem h2] at this
      exact (Option.some.inj this).symm
  · rintro rfl i p
    rfl

theorem histCell_window (L : ℕ) (past : List Inter) (u i p : ℤ) :
    histCell L past u i p = cell (some (window L (itemsOf u past))) i p := by
  unfold histCell histEntry
  by_cases h : itemsOf u past = []
  · rw [if_pos h, h, window_nil]
    dsimp only [Option.map_none, cell]
    rw [if_neg]
    rintro ⟨h1, -, h2⟩
    exact h1 (List.mem_replicate.1 (List.mem_of_getElem? h2)).2
  · rw [if_neg h]
    rfl

/-- The delta is empty exactly if no user's last `L` items change. -/
theorem isDelta_nil_iff {L : ℕ} {past new : List Inter} {δ : List DRow} (h : IsDelta L past new δ)
    (hpast : ∀ t ∈ past ++ new, 0 ≤ t.item) :
    δ = [] ↔ ∀ u, lastN L (itemsOf u (past ++ new)) = lastN L (itemsOf u past) := by
  have hpad : ∀ l : List Inter, (∀ t ∈ l, 0 ≤ t.item) → ∀ u, ∀ x ∈ itemsOf u l, x ≠ PAD := by
    intro l hl u x hx
    obtain ⟨t, ht, -, rfl⟩ := mem_itemsOf hx
    have := hl t ht
    unfold PAD
    omega
  have e : ∀ u, (∀ i p, histCell L (past ++ new) u i p = histCell L past u i p) ↔
      lastN L (itemsOf u (past ++ new)) = lastN L (itemsOf u past) := by
    intro u
    rw [← window_eq_iff L (hpad _ hpast u) (hpad past (fun t ht => hpast t (List.mem_append_left _ ht)) u),
      ← cell_eq_iff (by rw [window_length, window_length])]
    simp only [histCell_window]
  simp only [← e]
  constructor
  · rintro rfl u i p
    by_contra hne
    have := (h.mem u i p _).2 ⟨rfl, fun h0 => hne (by omega)⟩
    cases this
  · intro hall
    rw [List.eq_nil_iff_forall_not_mem]
    rintro ⟨u, i, p, v⟩ hr
    obtain ⟨h1, h2⟩ := (h.mem u i p v).1 hr
    rw [hall u i p] at h1
    exact h2 (by omega)

/-! ### Internal and external indices -/

/-- The interactions `past` are the rows `ext` in the same order, with internal indices. -/
def Ordered (users items : List ℤ) (ext : List (PRow K)) (past : List Inter) : Prop :=
  List.Forall₂ (fun (r : PRow K) (t : Inter) => t.pos = r.pos ∧
    (∃ k : ℕ, t.user = k ∧ users[k]? = some r.row.user) ∧
    ∃ k : ℕ, t.item = k ∧ items[k]? = some r.row.item) ext past

theorem Ordered.mono {users items us is' : List ℤ} {ext : List (PRow K)} {past : List Inter}
    (h : Ordered users items ext past) : Ordered (users ++ us) (items ++ is') ext past := by
  refine List.Forall₂.imp ?_ h
  rintro p p' ⟨h1, ⟨k, h3, h4⟩, ⟨l, h5, h6⟩⟩
  have a1 := (List.getElem?_eq_some_iff.1 h4).1
  have a2 := (List.getElem?_eq_some_iff.1 h6).1
  exact ⟨h1, ⟨k, h3, by rw [List.getElem?_append_left a1]; exact h4⟩,
    ⟨l, h5, by rw [List.getElem?_append_left a2]; exact h6⟩⟩

theorem Ordered.append {users items : List ℤ} {d e : List (PRow K)} {d' e' : List Inter} (h : Ordered users items d d')
    (h' : Ordered users items e e') : Ordered users items (d ++ e) (d' ++ e') := List.rel_append h h'

theorem Ordered.itemsOf {users items : List ℤ} {ext : List (PRow K)} {past : List Inter} (hu : users.Nodup)
    (h : Ordered users items ext past) {k : ℕ} {x : ℤ} (hk : users[k]? = some x) :
    List.Forall₂ (fun (j y : ℤ) => ∃ n : ℕ, j = n ∧ items[n]? = some y) (itemsOf (k : ℤ) past)
      ((rowsOf x (ext.map PRow.row)).map Row.item) := by
  induction h with
  | nil => exact List.Forall₂.nil
  | @cons r t _ _ hr _ ih =>
    obtain ⟨-, ⟨n, h3, h4⟩, h5⟩ := hr
    unfold DynCF.itemsOf rowsOf at ih ⊢
    rw [List.map_cons, List.filter_cons, List.filter_cons]
    by_cases hx : r.row.user = x
    · have : n = k := getElem?_inj_nodup hu h4 (by rw [hx]; exact hk)
      subst this
      rw [if_pos (by simpa using h3), if_pos (by simpa using hx)]
      exact List.Forall₂.cons h5 ih
    · have : n ≠ k := by
        rintro rfl
        rw [hk] at h4
        exact hx (Option.some.inj h4).symm
      rw [if_neg (by simp only [decide_eq_true_eq]; omega), if_neg (by simpa using hx)]
      exact ih

theorem forall₂_lastN {α β : Type} {R : α → β → Prop} (L : ℕ) {a : List α} {b : List β} (h : List.Forall₂ R a b) :
    List.Forall₂ R (lastN L a) (lastN L b) := by
  unfold lastN
  rw [h.length_eq]
  exact List.forall₂_drop _ h

theorem index_eq_iff {items : List ℤ} (hi : items.Nodup) {a b A B : List ℤ}
    (hA : List.Forall₂ (fun (j y : ℤ) => ∃ n : ℕ, j = n ∧ items[n]? = some y) a A)
    (hB : List.Forall₂ (fun (j y : ℤ) => ∃ n : ℕ, j = n ∧ items[n]? = some y) b B) : a = b ↔ A = B := by
  constructor
  · rintro rfl
    refine List.right_unique_forall₂' ?_ hA hB
    rintro x y z ⟨n, h1, h2⟩ ⟨n', h1', h2'⟩
    have : n = n' := by omega
    subst this
    rw [h2] at h2'
    exact Option.some.inj h2'
  · rintro rfl
    refine List.left_unique_forall₂' ?_ hA hB
    rintro x y z ⟨n, h1, h2⟩ ⟨n', h1', h2'⟩
    rw [h1, h1', getElem?_inj_nodup hi h2 h2']

theorem Ordered.range {users items : List ℤ} {ext : List (PRow K)} {past : List Inter}
    (h : Ordered users items ext past) {t : Inter} (ht : t ∈ past) :
    (0 ≤ t.user ∧ t.user < users.length) ∧ 0 ≤ t.item ∧ t.item < items.length := by
  obtain ⟨r, -, -, ⟨k, h3, h4⟩, ⟨l, h5, h6⟩⟩ := forall₂_mem_right h ht
  have a1 := (List.getElem?_eq_some_iff.1 h4).1
  have a2 := (List.getElem?_eq_some_iff.1 h6).1
  omega

theorem Ordered.row {users items : List ℤ} {ext : List (PRow K)} {past : List Inter}
    (h : Ordered users items ext past) {r : PRow K} (hr : r ∈ ext) : r.row.user ∈ users ∧ r.row.item ∈ items := by
  obtain ⟨t, -, -, ⟨k, h3, h4⟩, ⟨l, h5, h6⟩⟩ := forall₂_mem_left h hr
  exact ⟨List.mem_of_getElem? h4, List.mem_of_getElem? h6⟩

/-- The delta is not empty exactly if some user's last `L` items change. -/
theorem delta_moves {L : ℕ} {users items : List ℤ} {ext cr : List (PRow K)} {past new : List Inter} {δ : List DRow}
    (hu : users.Nodup) (hi : items.Nodup) (hp : Ordered users items ext past) (hn : Ordered users items cr new)
    (h : IsDelta L past new δ) : δ ≠ [] ↔ WindowMoves L (ext.map PRow.row) (cr.map PRow.row) := by
  have ha := hp.append hn
  rw [ne_eq, isDelta_nil_iff h fun t ht => (ha.range ht).2.1, not_forall]
  unfold WindowMoves lastItems
  rw [← List.map_append]
  constructor
  · rintro ⟨u, hne⟩
    by_cases hr : 0 ≤ u ∧ u < users.length
    · have hk : u.toNat < users.length := by omega
      have hku : ((u.toNat : ℕ) : ℤ) = u := by omega
      refine ⟨users[u.toNat], fun he => hne ?_⟩
      have h1 := forall₂_lastN L (ha.itemsOf hu (List.getElem?_eq_getElem hk))
      have h2 := forall₂_lastN L (hp.itemsOf hu (List.getElem?_eq_getElem hk))
      rw [hku] at h1 h2
      exact (index_eq_iff hi h1 h2).2 he
    · exfalso
      apply hne
      have : ∀ l : List Inter, (∀ t ∈ l, t ∈ past ++ new) → DynCF.itemsOf u l = [] := by
        intro l hl
        rw [List.eq_nil_iff_forall_not_mem]
        intro x hx
        obtain ⟨t, ht, h1, -⟩ := mem_itemsOf hx
        have := (ha.range (hl t ht)).1
        omega
      rw [this _ fun t ht => ht, this past fun t ht => List.mem_append_left _ ht]
  · rintro ⟨x, hne⟩
    by_cases hx : x ∈ users
    · obtain ⟨k, hk, rfl⟩ := List.mem_iff_getElem.1 hx
      refine ⟨(k : ℤ), fun he => hne ?_⟩
      exact (index_eq_iff hi (forall₂_lastN L (ha.itemsOf hu (List.getElem?_eq_getElem hk)))
        (forall₂_lastN L (hp.itemsOf hu (List.getElem?_eq_getElem hk)))).1 he
    · exfalso
      apply hne
      have : ∀ l : List (PRow K), (∀ r ∈ l, r ∈ ext ++ cr) → rowsOf x (l.map PRow.row) = [] := by
        intro l hl
        rw [List.eq_nil_iff_forall_not_mem]
        intro r hr
        unfold rowsOf at hr
        obtain ⟨h1, h2⟩ := List.mem_filter.1 hr
        obtain ⟨p, hp', rfl⟩ := List.mem_map.1 h1
        exact hx (by rw [← (of_decide_eq_true h2 : p.row.user = x)]; exact (ha.row (hl p hp')).1)
      rw [this _ fun t ht => ht, this ext fun t ht => List.mem_append_left _ ht]

/-! ### Numbers of new users and items -/

theorem card_index {ids : List ℤ} (hd : ids.Nodup) {S : List ℤ} {T : Finset ℤ}
    (hS : ∀ j ∈ S, 0 ≤ j ∧ j < ids.length) (hT : ∀ x ∈ T, x ∈ ids)
    (h : ∀ (k : ℕ) (x : ℤ), ids[k]? = some x → ((k : ℤ) ∈ S ↔ x ∈ T)) : (npUnique S).length = T.card := by
  rw [← List.toFinset_card_of_nodup (npUnique_nodup S)]
  refine Finset.card_bij (fun j _ => ids.getD j.toNat 0) ?_ ?_ ?_
  · intro j hj
    rw [List.mem_toFinset, mem_npUnique] at hj
    have := hS j hj
    have hlt : j.toNat < ids.length := by omega
    have hjj : ((j.toNat : ℕ) : ℤ) = j := by omega
    have := (h j.toNat _ (List.getElem?_eq_getElem hlt)).1 (by rw [hjj]; exact hj)
    simpa [List.getD_eq_getElem?_getD, List.getElem?_eq_getElem hlt] using this
  · intro j hj j' hj' he
    rw [List.mem_toFinset, mem_npUnique] at hj hj'
    have h1 := hS j hj
    have h2 := hS j' hj'
    have hlt : j.toNat < ids.length := by omega
    have hlt' : j'.toNat < ids.length := by omega
    simp only [List.getD_eq_getElem?_getD, List.getElem?_eq_getElem hlt, List.getElem?_eq_getElem hlt',
      Option.getD_some] at he
    have := (hd.getElem_inj_iff (hi := hlt) (hj := hlt')).1 he
    omega
  · intro x hx
    obtain ⟨k, hk, rfl⟩ := List.mem_iff_getElem.1 (hT x hx)
    refine ⟨(k : ℤ), ?_, ?_⟩
    · rw [List.mem_toFinset, mem_npUnique]
      exact (h k _ (List.getElem?_eq_getElem hk)).2 hx
    · simp [List.getD_eq_getElem?_getD, List.getElem?_eq_getElem hk]

/-- The entries of the delta with a new user or a new item are the interactions of the chunk. -/
theorem delta_pair {L : ℕ} {past new : List Inter} {δ : List DRow} (h : IsDelta L past new δ)
    (hb : ∀ u, (itemsOf u new).length ≤ L) (h0 : ∀ t ∈ new, 0 ≤ t.item) {u i : ℤ}
    (hnew : ∀ t ∈ past, t.user = u → t.item ≠ i) :
    (∃ r ∈ δ, r.user = u ∧ r.item = i) ↔ ∃ t ∈ new, t.user = u ∧ t.item = i := by
  have e2 : ∀ p, histCell L past u i p = 0 := by
    intro p
    by_contra hc
    obtain ⟨_, _, _, _, x, hx, hxu, hxi⟩ := histCell_ne_zero hc
    exact hnew x hx hxu hxi
  constructor
  · rintro ⟨⟨u', i', p, v⟩, hr, rfl, rfl⟩
    obtain ⟨h1, h2⟩ := (h.mem u' i' p v).1 hr
    rw [e2, sub_zero] at h1
    obtain ⟨_, _, _, _, x, hx, hxu, hxi⟩ := histCell_ne_zero (h1 ▸ h2)
    rcases List.mem_append.1 hx with hx | hx
    · exact absurd hxi (hnew x hx hxu)
    · exact ⟨x, hx, hxu, hxi⟩
  · rintro ⟨t, ht, rfl, rfl⟩
    obtain ⟨p, hp, hw⟩ := window_of_recent L (itemsOf t.user past) (itemsOf t.user new) (hb _) (itemsOf_mem ht)
    refine ⟨⟨t.user, t.item, (p : ℤ), 1⟩, (h.mem _ _ _ _).2 ⟨?_, by omega⟩, rfl, rfl⟩
    rw [e2, sub_zero, histCell_window, itemsOf_append]
    dsimp only [cell]
    have := h0 t ht
    rw [if_pos ⟨by unfold PAD; omega, by omega, by rw [Int.toNat_natCast]; exact hw⟩]

theorem mem_new_iff {ids nids : List ℤ} {S T : List ℤ} (hd : (ids ++ nids).Nodup)
    (hf : FirstAppearance (T.filter fun x => decide (x ∉ ids)) nids) (hS : ∀ x, x ∈ ids ↔ x ∈ S) {k : ℕ} {x : ℤ}
    (hk : (ids ++ nids)[k]? = some x) :
    (k : ℤ) ∈ idRange ids.length nids.length ↔ x ∈ T.toFinset \ S.toFinset := by
  rw [mem_idRange, Finset.mem_sdiff, List.mem_toFinset, List.mem_toFinset, ← hS]
  have hlt := (List.getElem?_eq_some_iff.1 hk).1
  rw [List.length_append] at hlt
  constructor
  · rintro ⟨h1, -⟩
    rw [List.getElem?_append_right (by omega)] at hk
    have := (hf.mem x).1 (List.mem_of_getElem? hk)
    rw [List.mem_filter, decide_eq_true_eq] at this
    exact this
  · rintro ⟨-, h2⟩
    refine ⟨?_, by omega⟩
    by_contra hlt'
    rw [List.getElem?_append_left (by omega)] at hk
    exact h2 (List.mem_of_getElem? hk)

theorem fits_rows {L : ℕ} {users items nus nis : List ℤ} {ext cr : List (PRow K)} {past new : List Inter}
    {δ : List DRow} (hu : (users ++ nus).Nodup) (hi : (items ++ nis).Nodup) (hp : Ordered users items ext past)
    (hn : Ordered (users ++ nus) (items ++ nis) cr new) (h : IsDelta L past new δ)
    (hfu : FirstAppearance ((cr.map fun r => r.row.user).filter fun x => decide (x ∉ users)) nus)
    (hfi : FirstAppearance ((cr.map fun r => r.row.item).filter fun x => decide (x ∉ items)) nis)
    (hou : ∀ x ∈ users, ∃ r ∈ ext, r.row.user = x) (hoi : ∀ x ∈ items, ∃ r ∈ ext, r.row.item = x)
    (hb : ∀ u, (itemsOf u new).length ≤ L) :
    TIFits (fun n N => n ≤ N) users.length nus.length items.length L (idRange users.length nus.length)
      (idRange items.length nis.length) δ ↔ TIRecFits L (ext.map PRow.row) (cr.map PRow.row) := by
  have ha := (hp.mono (us := nus) (is' := nis)).append hn
  have hSu : ∀ x, x ∈ users ↔ x ∈ (ext.map PRow.row).map Row.user := by
    intro x
    rw [List.map_map, List.mem_map]
    exact ⟨hou x, fun ⟨r, hr, hx⟩ => hx ▸ (hp.row hr).1⟩
  have hSi : ∀ x, x ∈ items ↔ x ∈ (ext.map PRow.row).map Row.item := by
    intro x
    rw [List.map_map, List.mem_map]
    exact ⟨hoi x, fun ⟨r, hr, hx⟩ => hx ▸ (hp.row hr).2⟩
  have hnu : ∀ (k : ℕ) (x : ℤ), (users ++ nus)[k]? = some x → ((k : ℤ) ∈ idRange users.length nus.length ↔
      x ∈ newUsersOf (ext.map PRow.row) (cr.map PRow.row)) := by
    intro k x hk
    unfold newUsersOf
    rw [← mem_new_iff hu (T := (cr.map PRow.row).map Row.user) (by rw [List.map_map]; exact hfu) hSu hk]
  have hni : ∀ (k : ℕ) (x : ℤ), (items ++ nis)[k]? = some x → ((k : ℤ) ∈ idRange items.length nis.length ↔
      x ∈ newItemsOf (ext.map PRow.row) (cr.map PRow.row)) := by
    intro k x hk
    unfold newItemsOf
    rw [← mem_new_iff hi (T := (cr.map PRow.row).map Row.item) (by rw [List.map_map]; exact hfi) hSi hk]
  have hrange : ∀ r ∈ δ, ∃ k l : ℕ, r.user = k ∧ r.item = l ∧ k < (users ++ nus).length ∧ l < (items ++ nis).length := by
    rintro ⟨u, i, p, v⟩ hr
    obtain ⟨h1, h2⟩ := (h.mem u i p v).1 hr
    have : ∃ t ∈ past ++ new, t.user = u ∧ t.item = i := by
      by_cases hc : histCell L (past ++ new) u i p = 0
      · obtain ⟨_, _, _, _, x, hx, hxu, hxi⟩ := histCell_ne_zero (L := L) (past := past) (u := u) (i := i) (p := p)
          (by omega)
        exact ⟨x, List.mem_append_left _ hx, hxu, hxi⟩
      · obtain ⟨_, _, _, _, x, hx, hxu, hxi⟩ := histCell_ne_zero hc
        exact ⟨x, hx, hxu, hxi⟩
    obtain ⟨t, ht, rfl, rfl⟩ := this
    have := ha.range ht
    exact ⟨t.user.toNat, t.item.toNat, by dsimp only; omega, by dsimp only; omega, by omega, by omega⟩
  -- the entries with a new user or a new item
  have hpair : ∀ (k l : ℕ) (x y : ℤ), (users ++ nus)[k]? = some x → (items ++ nis)[l]? = some y →
      ((k : ℤ) ∈ idRange users.length nus.length ∨ (l : ℤ) ∈ idRange items.length nis.length) →
      ((∃ r ∈ δ, r.user = k ∧ r.item = l) ↔ ∃ r ∈ cr.map PRow.row, r.user = x ∧ r.item = y) := by
    intro k l x y hk hl hnew
    rw [delta_pair h hb (fun t ht => (hn.range ht).2.1)]
    · constructor
      · rintro ⟨t, ht, h1, h2⟩
        obtain ⟨r, hr, -, ⟨k', h3, h4⟩, ⟨l', h5, h6⟩⟩ := forall₂_mem_right hn ht
        have e1 : k' = k := by omega
        have e2 : l' = l := by omega
        subst e1 e2
        rw [hk] at h4
        rw [hl] at h6
        exact ⟨r.row, List.mem_map_of_mem hr, (Option.some.inj h4).symm, (Option.some.inj h6).symm⟩
      · rintro ⟨r, hr, h1, h2⟩
        obtain ⟨q, hq, rfl⟩ := List.mem_map.1 hr
        obtain ⟨t, ht, -, ⟨k', h3, h4⟩, ⟨l', h5, h6⟩⟩ := forall₂_mem_left hn hq
        have e1 : k' = k := getElem?_inj_nodup hu h4 (by rw [h1]; exact hk)
        have e2 : l' = l := getElem?_inj_nodup hi h6 (by rw [h2]; exact hl)
        exact ⟨t, ht, by rw [h3, e1], by rw [h5, e2]⟩
    · intro t ht h1 h2
      have := hp.range ht
      rcases hnew with hnew | hnew <;> rw [mem_idRange] at hnew <;> omega
  have hUt : ∀ x ∈ newUsersOf (ext.map PRow.row) (cr.map PRow.row), x ∈ users ++ nus := by
    intro x hx
    unfold newUsersOf at hx
    obtain ⟨h1, -⟩ := Finset.mem_sdiff.1 hx
    rw [List.mem_toFinset, List.map_map] at h1
    obtain ⟨q, hq, rfl⟩ := List.mem_map.1 h1
    exact (hn.row hq).1
  have hIt : ∀ x ∈ newItemsOf (ext.map PRow.row) (cr.map PRow.row), x ∈ items ++ nis := by
    intro x hx
    unfold newItemsOf at hx
    obtain ⟨h1, -⟩ := Finset.mem_sdiff.1 hx
    rw [List.mem_toFinset, List.map_map] at h1
    obtain ⟨q, hq, rfl⟩ := List.mem_map.1 h1
    exact (hn.row hq).2
  have hpartU : ∀ md, ∀ j ∈ (tiPart (idRange users.length nus.length) (idRange items.length nis.length) δ md).map DRow.user,
      0 ≤ j ∧ j < (users ++ nus).length := by
    intro md j hj
    obtain ⟨r, hr, rfl⟩ := List.mem_map.1 hj
    obtain ⟨k, l, h1, -, h3, -⟩ := hrange r (mem_tiPart.1 hr).1
    omega
  have hpartI : ∀ md, ∀ j ∈ (tiPart (idRange users.length nus.length) (idRange items.length nis.length) δ md).map DRow.item,
      0 ≤ j ∧ j < (items ++ nis).length := by
    intro md j hj
    obtain ⟨r, hr, rfl⟩ := List.mem_map.1 hj
    obtain ⟨k, l, -, h2, -, h4⟩ := hrange r (mem_tiPart.1 hr).1
    omega
  have c1 : partUsers (idRange users.length nus.length) (idRange items.length nis.length) δ .newUsers =
      ((newUsersOf (ext.map PRow.row) (cr.map PRow.row)).filter fun u => ∀ r ∈ cr.map PRow.row, r.user = u →
        r.item ∉ newItemsOf (ext.map PRow.row) (cr.map PRow.row)).card := by
    unfold partUsers
    refine card_index hu (hpartU _) (fun x hx => hUt x (Finset.mem_filter.1 hx).1) ?_
    intro k x hk
    rw [Finset.mem_filter, ← hnu k x hk, List.mem_map]
    constructor
    · rintro ⟨r, hr, hrk⟩
      obtain ⟨hrδ, h1, h2⟩ := mem_tiPart.1 hr
      rw [hrk] at h1 h2
      refine ⟨h1, fun q hq hqx hqi => ?_⟩
      obtain ⟨p, hp', rfl⟩ := List.mem_map.1 hq
      obtain ⟨l, hl, hle⟩ := List.mem_iff_getElem.1 (hn.row hp').2
      have hl' : (items ++ nis)[l]? = some p.row.item := by rw [List.getElem?_eq_getElem hl, hle]
      obtain ⟨r', hr', e1, e2⟩ := (hpair k l x _ hk hl' (Or.inl h1)).2 ⟨p.row, hq, hqx, rfl⟩
      refine h2 r' hr' e1 ?_
      rw [e2]
      exact (hni l _ hl').2 hqi
    · rintro ⟨h1, h2⟩
      have hx := (hnu k x hk).1 h1
      unfold newUsersOf at hx
      obtain ⟨hx, -⟩ := Finset.mem_sdiff.1 hx
      rw [List.mem_toFinset, List.mem_map] at hx
      obtain ⟨q, hq, hqx⟩ := hx
      obtain ⟨p, hp', rfl⟩ := List.mem_map.1 hq
      obtain ⟨l, hl, hle⟩ := List.mem_iff_getElem.1 (hn.row hp').2
      have hl' : (items ++ nis)[l]? = some p.row.item := by rw [List.getElem?_eq_getElem hl, hle]
      obtain ⟨r, hr, e1, e2⟩ := (hpair k l x _ hk hl' (Or.inl h1)).2 ⟨p.row, hq, hqx, rfl⟩
      refine ⟨r, mem_tiPart.2 ⟨hr, by rw [e1]; exact h1, fun r' hr' h3 h4 => ?_⟩, e1⟩
      obtain ⟨-, l', -, e4, -, e6⟩ := hrange r' hr'
      have hl'' := List.getElem?_eq_getElem e6
      rw [e1] at h3
      obtain ⟨q', hq', e7, e8⟩ := (hpair k l' x _ hk hl'' (Or.inl h1)).1 ⟨r', hr', h3, e4⟩
      refine h2 q' hq' e7 ?_
      rw [e8, ← hni l' _ hl'', ← e4]
      exact h4
  have c2 : partItems (idRange users.length nus.length) (idRange items.length nis.length) δ .new =
      ((newItemsOf (ext.map PRow.row) (cr.map PRow.row)).filter fun i => ∃ r ∈ cr.map PRow.row, r.item = i ∧
        r.user ∈ newUsersOf (ext.map PRow.row) (cr.map PRow.row)).card := by
    unfold partItems
    refine card_index hi (hpartI _) (fun x hx => hIt x (Finset.mem_filter.1 hx).1) ?_
    intro l y hl
    rw [Finset.mem_filter, ← hni l y hl, List.mem_map]
    constructor
    · rintro ⟨r, hr, hrl⟩
      obtain ⟨hrδ, h1, h2⟩ := mem_tiPart.1 hr
      rw [hrl] at h2
      obtain ⟨k, -, e1, -, e3, -⟩ := hrange r hrδ
      have hk := List.getElem?_eq_getElem e3
      rw [e1] at h1
      obtain ⟨q, hq, e7, e8⟩ := (hpair k l _ y hk hl (Or.inl h1)).1 ⟨r, hrδ, e1, hrl⟩
      exact ⟨h2, q, hq, e8, by rw [e7, ← hnu k _ hk]; exact h1⟩
    · rintro ⟨h1, q, hq, hqy, hqu⟩
      obtain ⟨p, hp', rfl⟩ := List.mem_map.1 hq
      obtain ⟨k, hk, hke⟩ := List.mem_iff_getElem.1 (hn.row hp').1
      have hk' : (users ++ nus)[k]? = some p.row.user := by rw [List.getElem?_eq_getElem hk, hke]
      obtain ⟨r, hr, e1, e2⟩ := (hpair k l _ y hk' hl (Or.inr h1)).2 ⟨p.row, hq, rfl, hqy⟩
      exact ⟨r, mem_tiPart.2 ⟨hr, by rw [e1]; exact (hnu k _ hk').2 hqu, by rw [e2]; exact h1⟩, e2⟩
  have c3 : partItems (idRange users.length nus.length) (idRange items.length nis.length) δ .newItems =
      ((newItemsOf (ext.map PRow.row) (cr.map PRow.row)).filter fun i => ∀ r ∈ cr.map PRow.row, r.item = i →
        r.user ∉ newUsersOf (ext.map PRow.row) (cr.map PRow.row)).card := by
    unfold partItems
    refine card_index hi (hpartI _) (fun x hx => hIt x (Finset.mem_filter.1 hx).1) ?_
    intro l y hl
    rw [Finset.mem_filter, ← hni l y hl, List.mem_map]
    constructor
    · rintro ⟨r, hr, hrl⟩
      obtain ⟨hrδ, h1, h2⟩ := mem_tiPart.1 hr
      rw [hrl] at h1 h2
      refine ⟨h1, fun q hq hqy hqu => ?_⟩
      obtain ⟨p, hp', rfl⟩ := List.mem_map.1 hq
      obtain ⟨k, hk, hke⟩ := List.mem_iff_getElem.1 (hn.row hp').1
      have hk' : (users ++ nus)[k]? = some p.row.user := by rw [List.getElem?_eq_getElem hk, hke]
      obtain ⟨r', hr', e1, e2⟩ := (hpair k l _ y hk' hl (Or.inr h1)).2 ⟨p.row, hq, rfl, hqy⟩
      refine h2 r' hr' e2 ?_
      rw [e1]
      exact (hnu k _ hk').2 hqu
    · rintro ⟨h1, h2⟩
      have hy := (hni l y hl).1 h1
      unfold newItemsOf at hy
      obtain ⟨hy, -⟩ := Finset.mem_sdiff.1 hy
      rw [List.mem_toFinset, List.mem_map] at hy
      obtain ⟨q, hq, hqy⟩ := hy
      obtain ⟨p, hp', rfl⟩ := List.mem_map.1 hq
      obtain ⟨k, hk, hke⟩ := List.mem_iff_getElem.1 (hn.row hp').1
      have hk' : (users ++ nus)[k]? = some p.row.user := by rw [List.getElem?_eq_getElem hk, hke]
      obtain ⟨r, hr, e1, e2⟩ := (hpair k l _ y hk' hl (Or.inr h1)).2 ⟨p.row, hq, rfl, hqy⟩
      refine ⟨r, mem_tiPart.2 ⟨hr, by rw [e2]; exact h1, fun r' hr' h3 h4 => ?_⟩, e2⟩
      obtain ⟨k', -, e3, -, e5, -⟩ := hrange r' hr'
      have hk'' := List.getElem?_eq_getElem e5
      rw [e2] at h3
      obtain ⟨q', hq', e7, e8⟩ := (hpair k' l _ y hk'' hl (Or.inr h1)).1 ⟨r', hr', e3, h3⟩
      refine h2 q' hq' e8 ?_
      rw [e7, ← hnu k' _ hk'', ← e3]
      exact h4
  have c4 : users.length = numUsers (ext.map PRow.row) := by
    unfold numUsers
    rw [← List.toFinset_card_of_nodup (List.nodup_append.1 hu).1]
    congr 1
    ext x
    rw [List.mem_toFinset, List.mem_toFinset, hSu]
  have c5 : items.length = numItems (ext.map PRow.row) := by
    unfold numItems
    rw [← List.toFinset_card_of_nodup (List.nodup_append.1 hi).1]
    congr 1
    ext x
    rw [List.mem_toFinset, List.mem_toFinset, hSi]
  have c6 : nus.length = (newUsersOf (ext.map PRow.row) (cr.map PRow.row)).card := by
    rw [← List.toFinset_card_of_nodup (List.nodup_append.1 hu).2.1]
    congr 1
    ext x
    unfold newUsersOf
    rw [List.mem_toFinset, hfu.mem, List.mem_filter, decide_eq_true_eq, hSu, Finset.mem_sdiff, List.mem_toFinset,
      List.mem_toFinset, List.map_map, List.map_map]
    rfl
  unfold TIFits TIRecFits
  rw [c1, c2, c3, c4, c5, c6]

end DynCF
