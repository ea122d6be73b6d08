/- C148: the recommendations of the same model for two lengths of the list. -/
import Verif.Props.Recommend
import Verif.Props.Evaluation

namespace DynCF
variable {K : Type}

/-- No two items open to a user have the same score: `scores` are the scores by item number. -/
def DistinctScores (v : RecView) (users : List ℤ) (filt : Bool) (u : ℤ) (scores : List K) : Prop :=
  ∀ (j j' : ℕ) (s : K), (filt = true → ¬ Recorded v users u j) → (filt = true → ¬ Recorded v users u j') →
    scores[j]? = some s → scores[j']? = some s → j = j'

section
variable [LinearOrder K] [Inhabited K] {argp argp' : ArgPart K} {v : RecView} {users items : List ℤ}
  {score : ℕ → ℤ → PyM (List K)} {f : ℕ → ℕ → List K} {k k' : ℕ} {filt : Bool}

omit [Inhabited K] in
/-- The best items for `k` are among the best for `k' ≥ k` when all scores are different. -/
theorem candSpec_subset {s : List K} {u : ℤ} {c c' : List ℕ} (hs : s.length = v.nItems)
    (h : CandSpec v s filt u k c) (h' : CandSpec v s filt u k' c') (hk : k ≤ k')
    (hd : ∀ j ∈ allowedIdx v filt u, ∀ j' ∈ allowedIdx v filt u, ∀ x, s[j]? = some x → s[j']? = some x → j = j') :
    ∀ j ∈ c, j ∈ c' := by
  intro j hj
  by_contra hn
  have hne : ∃ j' ∈ c', j' ∉ c := by
    by_contra hall
    push_neg at hall
    have h1 : c'.toFinset ⊆ c.toFinset.erase j := by
      intro x hx
      rw [List.mem_toFinset] at hx
      rw [Finset.mem_erase, List.mem_toFinset]
      exact ⟨fun e => hn (e ▸ hx), hall x hx⟩
    have h2 := Finset.card_le_card h1
    rw [Finset.card_erase_of_mem (List.mem_toFinset.2 hj), List.toFinset_card_of_nodup h.nodup,
      List.toFinset_card_of_nodup h'.nodup, h.length, h'.length] at h2
    have h3 : 0 < c.length := List.length_pos_of_mem hj
    rw [h.length] at h3
    omega
  obtain ⟨j', hj', hnj⟩ := hne
  have a1 := h.allowed j hj
  have a2 := h'.allowed j' hj'
  have l1 : j < s.length := by rw [hs]; exact ((mem_allowedIdx v filt u j).1 a1).1
  have l2 : j' < s.length := by rw [hs]; exact ((mem_allowedIdx v filt u j').1 a2).1
  have e1 := h.optimal j hj j' a2 hnj _ _ (List.getElem?_eq_getElem l2) (List.getElem?_eq_getElem l1)
  have e2 := h'.optimal j' hj' j a1 hn _ _ (List.getElem?_eq_getElem l1) (List.getElem?_eq_getElem l2)
  have := hd j a1 j' a2 s[j] (List.getElem?_eq_getElem l1)
    (by rw [List.getElem?_eq_getElem l2, le_antisymm e1 e2])
  exact hnj (this ▸ hj)

/-- **C148 (partial), the items.** Two requests for the same users to the same model, for `k` and for `k' ≥ k` items,
with any two correct partial sorts. If no two items open to a user have the same score, every item in the row of the
user for `k` is in the row for `k'`. Missing: equal scores (`C148_violated`). -/
theorem C148_nested_partial (h : RecSetting argp v users items score f k filt)
    (h' : RecSetting argp' v users items score f k' filt) (hk : k ≤ k') (b b' internal : Bool) (us : List ℤ)
    (res res' : List (List ℤ)) (hres : recommend b argp v score us k filt internal = .ok res)
    (hres' : recommend b' argp' v score us k' filt internal = .ok res')
    (i : ℕ) (u : ℤ) (row row' : List ℤ) (hu : us[i]? = some u) (hrow : res[i]? = some row) (hrow' : res'[i]? = some row')
    (hd : ∀ a, users[a]? = some u → DistinctScores v users filt u (f i a)) :
    ∀ x ∈ row, x ∈ row' := by
  obtain ⟨a, c, hua, hlt, hcs, rfl⟩ := (h.result b internal us res hres).2 i u row hu hrow
  obtain ⟨a', c', hua', -, hcs', rfl⟩ := (h'.result b' internal us res' hres').2 i u row' hu hrow'
  have hnd := h.view.user.nodup
  have ea : a' = a := by
    obtain ⟨l1, e1⟩ := List.getElem?_eq_some_iff.1 hua
    obtain ⟨l2, e2⟩ := List.getElem?_eq_some_iff.1 hua'
    exact (List.Nodup.getElem_inj_iff hnd).1 (e2.trans e1.symm)
  subst ea
  have hsub := candSpec_subset (h.scores i a' hlt).2 hcs hcs' (by omega) (fun j hj j' hj' x hx hx' =>
    hd a' hua j j' x (fun hf => by rw [recorded_iff h.view hua]; exact ((mem_allowedIdx v filt a' j).1 hj).2 hf)
      (fun hf => by rw [recorded_iff h.view hua]; exact ((mem_allowedIdx v filt a' j').1 hj').2 hf) hx hx')
  intro x hx
  unfold showRow at hx ⊢
  obtain ⟨j, hj, rfl⟩ := List.mem_map.1 hx
  exact List.mem_map.2 ⟨j, hsub j hj, rfl⟩

end

section
variable [Field K] [LinearOrder K] [IsStrictOrderedRing K] {argp argp' : ArgPart K} {v : RecView}
  {users items : List ℤ} {score : ℕ → ℤ → PyM (List K)} {f : ℕ → ℕ → List K} {k k' : ℕ} {filt : Bool}

/-- the hit rate grows with the rows -/
theorem hr_mono (recs recs' : List (List ℤ)) (tests : List ℤ) (hl : recs.length = tests.length)
    (hl' : recs'.length = tests.length)
    (h : ∀ (i : ℕ) (row row' : List ℤ), recs[i]? = some row → recs'[i]? = some row' → ∀ x ∈ row, x ∈ row') (x y : K)
    (hx : hr recs tests = .ok x) (hy : hr recs' tests = .ok y) : x ≤ y := by
  have hne : tests ≠ [] := by
    rintro rfl
    rw [(C12_no_test_users recs).1] at hx
    cases hx
  rw [(C12_hit_rate recs tests hne hl).2] at hx
  rw [(C12_hit_rate recs' tests hne hl').2] at hy
  rw [← Except.ok.inj hx, ← Except.ok.inj hy]
  have hc : ∀ (recs recs' : List (List ℤ)) (tests : List ℤ), recs.length = tests.length → recs'.length = tests.length →
      (∀ (i : ℕ) (row row' : List ℤ), recs[i]? = some row → recs'[i]? = some row' → ∀ x ∈ row, x ∈ row') →
      (tests.zip recs).countP (fun p => decide (p.1 ∈ p.2)) ≤ (tests.zip recs').countP fun p => decide (p.1 ∈ p.2) := by
    intro recs recs' tests
    induction tests generalizing recs recs' with
    | nil => intros; simp
    | cons t ts ih =>
      intro h1 h2 h3
      obtain ⟨r, rs, rfl⟩ : ∃ r rs, recs = r :: rs := by cases recs with | nil => simp at h1 | cons r rs => exact ⟨r, rs, rfl⟩
      obtain ⟨r', rs', rfl⟩ : ∃ r rs, recs' = r :: rs := by
        cases recs' with | nil => simp at h2 | cons r rs => exact ⟨r, rs, rfl⟩
      have e := ih rs rs' (by simpa using h1) (by simpa using h2) (fun i row row' hi hi' =>
        h3 (i + 1) row row' (by simpa using hi) (by simpa using hi'))
      have e0 := h3 0 r r' rfl rfl t
      simp only [List.zip_cons_cons, List.countP_cons, decide_eq_true_eq]
      by_cases ht : t ∈ r
      · rw [if_pos ht, if_pos (e0 ht)]; omega
      · rw [if_neg ht]; omega
  have := hc recs recs' tests hl hl' h
  gcongr

/-- **C148 (partial), the hit rate.** If no two items open to a requested user have the same score, the hit rate for a
longer list is at least as high. Missing: equal scores, and the reciprocal rank (`C148_violated`). -/
theorem C148_hit_rate_partial (h : RecSetting argp v users items score f k filt)
    (h' : RecSetting argp' v users items score f k' filt) (hk : k ≤ k') (b b' internal : Bool) (us : List ℤ)
    (res res' : List (List ℤ)) (hres : recommend b argp v score us k filt internal = .ok res)
    (hres' : recommend b' argp' v score us k' filt internal = .ok res')
    (hd : ∀ i u a, us[i]? = some u → users[a]? = some u → DistinctScores v users filt u (f i a))
    (tests : List ℤ) (ht : tests.length = us.length) (x y : K) (hx : hr res tests = .ok x) (hy : hr res' tests = .ok y) :
    x ≤ y := by
  haveI : Inhabited K := ⟨0⟩
  have l1 := (C18_k_distinct_items h b internal us res hres).1
  have l2 := (C18_k_distinct_items h' b' internal us res' hres').1
  refine hr_mono res res' tests (l1.trans ht.symm) (l2.trans ht.symm) (fun i row row' hi hi' => ?_) x y hx hy
  have hiu : i < us.length := by rw [← l1]; exact (List.getElem?_eq_some_iff.1 hi).1
  exact C148_nested_partial h h' hk b b' internal us res res' hres hres' i _ row row' (List.getElem?_eq_getElem hiu) hi hi'
    (fun a ha => hd i _ a (List.getElem?_eq_getElem hiu) ha)

end

/-! ### Violations -/

/-- sorts, except that of three equal scores it chooses the first when one item is asked for (and the last two when two are) -/
def tiesArgp : ArgPart ℤ := fun a k => if a = [5, 5, 5] ∧ k = 1 then [1, 2, 0] else sortedIdx a

theorem tiesArgp_ok : ArgPartOk tiesArgp := by
  intro a k hk hka
  unfold tiesArgp
  split
  · rename_i h
    obtain ⟨rfl, rfl⟩ := h
    refine ⟨by decide, ?_⟩
    intro i j pi pj x y hi hj hx hy _ _
    have hall : ∀ (p : ℕ) (z : ℤ), ([5, 5, 5] : List ℤ)[p]? = some z → z = 5 := by
      intro p z hz
      have := List.mem_of_getElem? hz
      simpa using this
    rw [hall _ _ hx, hall _ _ hy]
  · exact sortedIdx_ok a k

/-- one user without history and three items -/
def threeView : RecView := ⟨1, 3, ⟨getContMappingStruct [70] 0, getContMappingStruct [10, 11, 12] 0⟩, []⟩

/-- **C148 is violated.** With equal scores a correct partial sort may give item 10 when one item is asked for and items
12 and 11 when two are: the hit of a user who takes item 10 is lost. And even with different scores (1, 3, 2) a longer
list can lower the reciprocal rank: for two items the row is 11, 12 and for three 12, 11, 10, so that a user who takes
item 11 counts 1 and then 1/2. -/
theorem C148_violated :
    (ArgPartOk tiesArgp ∧
      recommend true tiesArgp threeView (fun _ _ => .ok [5, 5, 5]) [70] 1 false false = .ok [[10]] ∧
      recommend true tiesArgp threeView (fun _ _ => .ok [5, 5, 5]) [70] 2 false false = .ok [[12, 11]] ∧
      (hr [[10]] [10] : PyM ℚ) = .ok 1 ∧ (hr [[12, 11]] [10] : PyM ℚ) = .ok 0) ∧
    (ArgPartOk lazyArgp ∧
      recommend true lazyArgp threeView (fun _ _ => .ok [1, 3, 2]) [70] 2 false false = .ok [[11, 12]] ∧
      recommend true lazyArgp threeView (fun _ _ => .ok [1, 3, 2]) [70] 3 false false = .ok [[12, 11, 10]] ∧
      (mrr [[11, 12]] [11] : PyM ℚ) = .ok 1 ∧ (mrr [[12, 11, 10]] [11] : PyM ℚ) = .ok (1 / 2)) :=
  ⟨⟨tiesArgp_ok, by decide +kernel, by decide +kernel, by decide +kernel, by decide +kernel⟩,
    lazyArgp_ok, by decide +kernel, by decide +kernel, by decide +kernel, by decide +kernel⟩

/-- the scores 1, 3, 2 are all different -/
theorem threeView_distinct : DistinctScores threeView [70] false 70 ([1, 3, 2] : List ℤ) := by
  intro j j' s _ _ h h'
  rcases j with _ | _ | _ | j <;> rcases j' with _ | _ | _ | j' <;> simp at h h' <;> omega

theorem threeView_setting (k : ℕ) (hk : 1 ≤ k) : RecSetting lazyArgp threeView [70] [10, 11, 12]
    (fun _ _ => .ok [1, 3, 2]) (fun _ _ => [1, 3, 2]) k false where
  argp := lazyArgp_ok
  view := ⟨represents_start_zero _ (by decide), represents_start_zero _ (by decide), rfl, rfl, by decide⟩
  scores := fun _ _ _ => ⟨rfl, rfl⟩
  k := hk
  nonempty := by decide
  nonempty2 := by intro h; cases h

/-- the two items of the shorter list are among the three of the longer one -/
example : ∀ x ∈ ([11, 12] : List ℤ), x ∈ ([12, 11, 10] : List ℤ) :=
  C148_nested_partial (threeView_setting 2 (by decide)) (threeView_setting 3 (by decide)) (by decide) true true false
    [70] [[11, 12]] [[12, 11, 10]] (by decide +kernel) (by decide +kernel) 0 70 _ _ rfl rfl rfl
    (fun _ _ => threeView_distinct)

end DynCF
