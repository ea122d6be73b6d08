/- Properties C71, C72, C73: parameter grids. -/
import Verif.Model.RandomGrid
import Mathlib.Data.List.Infix
import Mathlib.Algebra.Order.Ring.Int
import Mathlib.Algebra.BigOperators.Group.List.Basic
import Mathlib.Algebra.Ring.Nat
import Mathlib.Data.Nat.Cast.Basic
import Mathlib.Tactic.NormNum

namespace DynCF
variable {α : Type} [DecidableEq α]

/-- A configuration: one listed value per parameter, in the order of the parameters. -/
def IsConfig (values : List (List α)) (c : List α) : Prop := List.Forall₂ (· ∈ ·) c values

theorem mem_pyProduct (values : List (List α)) (c : List α) :
    c ∈ pyProduct values ↔ IsConfig values c := by
  induction values generalizing c with
  | nil =>
    unfold pyProduct IsConfig
    rw [List.mem_singleton, List.forall₂_nil_right_iff]
  | cons vs rest ih =>
    unfold pyProduct IsConfig
    simp only [List.mem_flatMap, List.mem_map]
    constructor
    · rintro ⟨v, hv, c', hc', rfl⟩
      exact List.Forall₂.cons hv ((ih c').1 hc')
    · intro h
      cases h with
      | cons hv hr => exact ⟨_, hv, _, (ih _).2 hr, rfl⟩

/-- **C73**: the full grid is the set of all configurations; the names are those of the
parameters, in order. Without parameters the call fails. -/
theorem C73_full_grid (params : List (String × List α)) :
    (params ≠ [] → ∃ grid, fullGrid params = .ok (grid, params.map Prod.fst) ∧
      ∀ c, c ∈ grid ↔ IsConfig (params.map Prod.snd) c) ∧
    (params = [] → fullGrid params = .error .valueError) := by
  unfold fullGrid
  constructor
  · intro h
    rw [if_neg (by simpa using h)]
    exact ⟨_, rfl, fun c => by rw [List.mem_toFinset, mem_pyProduct]⟩
  · rintro rfl
    rfl

example : fullGrid [("rank", [10, 20]), ("scale", [0, 1])] =
    .ok ({[10, 0], [10, 1], [20, 0], [20, 1]}, ["rank", "scale"]) := by decide

/-! ### C71 -/

/-- The configurations of a list of draws that are kept / skipped. -/
def keptOf (skip : List α → Bool) (draws : List (List α)) : Finset (List α) :=
  (draws.filter fun c => !skip c).toFinset
def skippedOf (skip : List α → Bool) (draws : List (List α)) : Finset (List α) :=
  (draws.filter fun c => skip c).toFinset

theorem gridLoop_spec (skip : List α → Bool) (n : ℤ) (draws : List (List α))
    (grid skipped : Finset (List α)) :
    ∃ k ≤ draws.length,
      (∀ j < k, ((grid ∪ keptOf skip (draws.take j)).card : ℤ) <
        n - (skipped ∪ skippedOf skip (draws.take j)).card) ∧
      ((gridLoop skip n draws grid skipped = .completed (grid ∪ keptOf skip (draws.take k)) ∧
          n - (skipped ∪ skippedOf skip (draws.take k)).card ≤
            (grid ∪ keptOf skip (draws.take k)).card) ∨
        (gridLoop skip n draws grid skipped = .interrupted (grid ∪ keptOf skip (draws.take k)) ∧
          k = draws.length ∧ ((grid ∪ keptOf skip (draws.take k)).card : ℤ) <
            n - (skipped ∪ skippedOf skip (draws.take k)).card)) := by
  induction draws generalizing grid skipped with
  | nil =>
    refine ⟨0, le_refl _, by simp, ?_⟩
    unfold gridLoop
    by_cases h : (grid.card : ℤ) < n - skipped.card
    · rw [if_pos h]
      right
      simpa [keptOf, skippedOf] using h
    · rw [if_neg h]
      left
      simpa [keptOf, skippedOf] using h
  | cons c draws ih =>
    by_cases h : (grid.card : ℤ) < n - skipped.card
    · by_cases hs : skip c = true
      · obtain ⟨k, hk, hj, hor⟩ := ih grid (insert c skipped)
        have hkeep : ∀ l, keptOf skip (c :: l) = keptOf skip l := by
          intro l; simp [keptOf, hs]
        have hskip : ∀ l, skipped ∪ skippedOf skip (c :: l) = insert c skipped ∪ skippedOf skip l := by
          intro l; simp [skippedOf, hs]
        refine ⟨k + 1, by simpa using hk, ?_, ?_⟩
        · intro j hjk
          cases j with
          | zero => simpa [keptOf, skippedOf] using h
          | succ j =>
            rw [List.take_succ_cons, hkeep, hskip]
            exact hj j (by omega)
        · rw [List.take_succ_cons, hkeep, hskip]
          unfold gridLoop
          rw [if_pos h]
          simp only [hs, if_true, List.length_cons, Nat.add_right_cancel_iff]
          exact hor
      · obtain ⟨k, hk, hj, hor⟩ := ih (insert c grid) skipped
        have hkeep : ∀ l, grid ∪ keptOf skip (c :: l) = insert c grid ∪ keptOf skip l := by
          intro l; simp [keptOf, hs]
        have hskip : ∀ l, skippedOf skip (c :: l) = skippedOf skip l := by
          intro l; simp [skippedOf, hs]
        refine ⟨k + 1, by simpa using hk, ?_, ?_⟩
        · intro j hjk
          cases j with
          | zero => simpa [keptOf, skippedOf] using h
          | succ j =>
            rw [List.take_succ_cons, hkeep, hskip]
            exact hj j (by omega)
        · rw [List.take_succ_cons, hkeep, hskip]
          unfold gridLoop
          rw [if_pos h]
          simp only [hs, List.length_cons, Nat.add_right_cancel_iff]
          exact hor
    · refine ⟨0, Nat.zero_le _, by simp, ?_⟩
      unfold gridLoop
      rw [if_neg h]
      left
      simpa [keptOf, skippedOf] using h

theorem kept_skipped_snoc (skip : List α → Bool) (cache : Finset (List α)) (l : List (List α))
    (c : List α) :
    ((cache ∪ keptOf skip (l ++ [c])).card : ℤ) + (skippedOf skip (l ++ [c])).card ≤
      (cache ∪ keptOf skip l).card + (skippedOf skip l).card + 1 := by
  by_cases hs : skip c = true
  · have e1 : keptOf skip (l ++ [c]) = keptOf skip l := by
      simp [keptOf, hs]
    have e2 : skippedOf skip (l ++ [c]) = insert c (skippedOf skip l) := by
      ext x
      simp [skippedOf, hs, or_comm]
    have e3 := Finset.card_insert_le c (skippedOf skip l)
    rw [e1, e2]
    omega
  · have e1 : skippedOf skip (l ++ [c]) = skippedOf skip l := by
      simp [skippedOf, hs]
    have e2 : cache ∪ keptOf skip (l ++ [c]) = insert c (cache ∪ keptOf skip l) := by
      ext x
      simp [keptOf, hs]
    have e3 := Finset.card_insert_le c (cache ∪ keptOf skip l)
    rw [e1, e2]
    omega

/-- **C71**. Whatever is drawn, and whether the search completes or is interrupted, the returned
set consists of the cache and the drawn configurations that are not to be skipped (`used` are the
draws made). If the search completes, the set has `max (|cache|, n - |skipped|)` elements, where
`skipped` are the drawn configurations to be skipped; if it is interrupted it has fewer than
`n - |skipped|`. -/
theorem C71_random_grid (params : List (String × List α)) (hp : params ≠ []) (n : ℤ) (hn : 0 ≤ n)
    (cache : Finset (List α)) (skip : List α → Bool) (draws : List (List α))
    (hd : ∀ c ∈ draws, IsConfig (params.map Prod.snd) c) :
    ∃ out, randomGrid params n cache skip draws = .ok (out, params.map Prod.fst) ∧
      ∃ used, used <+: draws ∧
        (∀ c, c ∈ out.grid ↔ c ∈ cache ∨ (c ∈ used ∧ skip c = false)) ∧
        (∀ c ∈ out.grid, c ∈ cache ∨ (IsConfig (params.map Prod.snd) c ∧ skip c = false)) ∧
        (∀ g, out = .completed g → (g.card : ℤ) = max (cache.card : ℤ)
          (gridSize (params.map Prod.snd) n - (skippedOf skip used).card)) ∧
        (∀ g, out = .interrupted g → used = draws ∧
          (g.card : ℤ) < gridSize (params.map Prod.snd) n - (skippedOf skip used).card) := by
  generalize hN : gridSize (params.map Prod.snd) n = N
  obtain ⟨k, hk, hj, hor⟩ := gridLoop_spec skip N draws cache ∅
  have hgrid : (gridLoop skip N draws cache ∅).grid = cache ∪ keptOf skip (draws.take k) := by
    rcases hor with ⟨h, -⟩ | ⟨h, -⟩ <;> rw [h] <;> rfl
  have hmem : ∀ c, c ∈ (gridLoop skip N draws cache ∅).grid ↔
      c ∈ cache ∨ (c ∈ draws.take k ∧ skip c = false) := by
    intro c
    rw [hgrid]
    simp [keptOf]
  refine ⟨gridLoop skip N draws cache ∅, ?_, draws.take k, List.take_prefix _ _, hmem, ?_, ?_, ?_⟩
  · unfold randomGrid
    rw [if_neg (not_lt.2 hn), if_neg (by simpa using hp), hN]
  · intro c hc
    rcases (hmem c).1 hc with h | ⟨h, hs⟩
    · exact Or.inl h
    · exact Or.inr ⟨hd c (List.mem_of_mem_take h), hs⟩
  · intro g hg
    rcases hor with ⟨h, hle⟩ | ⟨h, -⟩
    · rw [h] at hg
      injection hg with hg
      rw [Finset.empty_union] at hle
      rw [← hg]
      have hsub : (cache.card : ℤ) ≤ (cache ∪ keptOf skip (draws.take k)).card := by
        exact_mod_cast Finset.card_le_card Finset.subset_union_left
      refine le_antisymm ?_ (max_le hsub hle)
      cases k with
      | zero => simp [keptOf]
      | succ k =>
        have hlt := hj k (by omega)
        rw [Finset.empty_union] at hlt
        have htake : draws.take (k + 1) = draws.take k ++ [draws[k]] := by
          rw [List.take_succ_eq_append_getElem]
        have h1 : ((cache ∪ keptOf skip (draws.take (k + 1))).card : ℤ) +
            (skippedOf skip (draws.take (k + 1))).card ≤
            (cache ∪ keptOf skip (draws.take k)).card + (skippedOf skip (draws.take k)).card + 1 := by
          rw [htake]
          exact kept_skipped_snoc skip cache (draws.take k) draws[k]
        refine le_max_of_le_right ?_
        omega
    · rw [h] at hg
      cases hg
  · intro g hg
    rcases hor with ⟨h, -⟩ | ⟨h, hkl, hlt⟩
    · rw [h] at hg
      cases hg
    · rw [h] at hg
      injection hg with hg
      rw [Finset.empty_union] at hlt
      refine ⟨by rw [hkl, List.take_length], ?_⟩
      rw [← hg]
      exact hlt

/-- **C71**, refused calls. -/
theorem C71_errors (params : List (String × List α)) (n : ℤ) (cache : Finset (List α))
    (skip : List α → Bool) (draws : List (List α)) :
    (∃ e, randomGrid params n cache skip draws = .error e) ↔ n < 0 ∨ params = [] := by
  unfold randomGrid
  by_cases h : n < 0
  · rw [if_pos h]
    exact ⟨fun _ => Or.inl h, fun _ => ⟨_, rfl⟩⟩
  · rw [if_neg h]
    cases params with
    | nil => exact ⟨fun _ => Or.inr rfl, fun _ => ⟨_, rfl⟩⟩
    | cons p ps =>
      rw [if_neg (by simp)]
      constructor
      · rintro ⟨e, he⟩
        cases he
      · rintro (h' | h')
        · exact absurd h' h
        · cases h'

/-- Three of the four configurations, one of them skipped: two remain. -/
example : ∃ g, randomGrid [("rank", [10, 20]), ("scale", [0, 1])] 3 ∅ (fun c => decide (c = [10, 1]))
    [[10, 0], [10, 1], [10, 0], [20, 1], [20, 0]] =
    .ok (.completed g, ["rank", "scale"]) ∧ g = {[10, 0], [20, 1]} := ⟨_, rfl, by decide⟩
/-- Interrupted after two draws; a cache outside the grid is kept. -/
example : ∃ g, randomGrid [("rank", [10, 20]), ("scale", [0, 1])] 0 {[7, 7]} (fun _ => false)
    [[10, 0], [10, 1]] = .ok (.interrupted g, ["rank", "scale"]) ∧
    g = {[7, 7], [10, 0], [10, 1]} := ⟨_, rfl, by decide⟩
example := C71_random_grid [("rank", [10, 20]), ("scale", [0, 1])] (by simp) 3 (by decide) ∅
  (fun c => decide (c = [10, 1])) [[10, 0], [10, 1], [10, 0], [20, 1], [20, 0]]
  (by intro c hc; rw [← mem_pyProduct]; revert c; decide)

/-! ### C72 -/

theorem card_configs (values : List (List α)) (h : ∀ vs ∈ values, vs.Nodup) :
    ((pyProduct values).toFinset.card : ℤ) = maxN values := by
  have hl : ∀ values : List (List α), (∀ vs ∈ values, vs.Nodup) → (pyProduct values).Nodup ∧
      (pyProduct values).length = (values.map List.length).prod := by
    intro values h
    induction values with
    | nil => simp [pyProduct]
    | cons vs rest ih =>
      obtain ⟨h1, h2⟩ := ih fun ws hw => h ws (by simp [hw])
      unfold pyProduct
      constructor
      · rw [List.nodup_flatMap]
        refine ⟨fun v _ => h1.map (fun a b hab => (List.cons.inj hab).2), ?_⟩
        refine (h vs (by simp)).imp ?_
        intro a b hab
        rw [Function.onFun, List.disjoint_left]
        intro c hc hc'
        obtain ⟨x, -, rfl⟩ := List.mem_map.1 hc
        obtain ⟨y, -, hy⟩ := List.mem_map.1 hc'
        exact hab (List.cons.inj hy).1.symm
      · rw [List.length_flatMap]
        simp only [List.length_map, h2, List.map_const', List.sum_replicate, List.map_cons,
          List.prod_cons, nsmul_eq_mul, Nat.cast_id]
  rw [List.toFinset_card_of_nodup (hl values h).1, (hl values h).2, maxN]

/-- A completed search does not look at further draws; an interrupted one goes on. -/
theorem gridLoop_append (skip : List α → Bool) (n : ℤ) (d1 d2 : List (List α))
    (grid skipped : Finset (List α)) (g : Finset (List α))
    (h : gridLoop skip n d1 grid skipped = .interrupted g) :
    gridLoop skip n (d1 ++ d2) grid skipped =
      gridLoop skip n d2 (grid ∪ keptOf skip d1) (skipped ∪ skippedOf skip d1) := by
  induction d1 generalizing grid skipped with
  | nil => simp [keptOf, skippedOf]
  | cons c d1 ih =>
    unfold gridLoop at h
    split at h
    · rename_i hlt
      rw [List.cons_append, gridLoop, if_pos hlt]
      by_cases hs : skip c = true
      · simp only [hs, if_true] at h ⊢
        rw [ih _ _ h]
        congr 1
        · simp [keptOf, hs]
        · simp [skippedOf, hs]
      · simp only [hs] at h ⊢
        simp only [Bool.false_eq_true, if_false] at h ⊢
        rw [ih _ _ h]
        congr 1
        · simp [keptOf, hs]
        · simp [skippedOf, hs]
    · cases h

/-- From a state with enough reachable configurations the search can be completed. -/
theorem gridLoop_can_finish (skip : List α → Bool) (n : ℤ) (P : Finset (List α)) (m : ℕ)
    (grid skipped : Finset (List α)) (hm : n - skipped.card - grid.card ≤ m)
    (hP : n ≤ ((grid ∪ P.filter fun c => skip c = false).card : ℤ) +
      ((skipped ∪ P.filter fun c => skip c = true).card : ℤ)) :
    ∃ draws, (∀ c ∈ draws, c ∈ P) ∧ ∃ g, gridLoop skip n draws grid skipped = .completed g := by
  induction m generalizing grid skipped with
  | zero =>
    refine ⟨[], by simp, grid, ?_⟩
    unfold gridLoop
    rw [if_neg (by push_cast at hm; omega)]
  | succ m ih =>
    by_cases hlt : (grid.card : ℤ) < n - skipped.card
    · have hex : ∃ c ∈ P, (skip c = false ∧ c ∉ grid) ∨ (skip c = true ∧ c ∉ skipped) := by
        by_contra hno
        push Not at hno
        have e1 : grid ∪ P.filter (fun c => skip c = false) = grid := by
          rw [Finset.union_eq_left]
          intro c hc
          rw [Finset.mem_filter] at hc
          exact (hno c hc.1).1 hc.2
        have e2 : skipped ∪ P.filter (fun c => skip c = true) = skipped := by
          rw [Finset.union_eq_left]
          intro c hc
          rw [Finset.mem_filter] at hc
          exact (hno c hc.1).2 hc.2
        rw [e1, e2] at hP
        omega
      obtain ⟨c, hc, ⟨hs, hnew⟩ | ⟨hs, hnew⟩⟩ := hex
      · have hcard := Finset.card_insert_of_notMem hnew
        obtain ⟨draws, hd, g, hg⟩ := ih (insert c grid) skipped (by push_cast at hm ⊢; omega) (by
          refine hP.trans (add_le_add ?_ (le_refl _))
          exact_mod_cast Finset.card_le_card (Finset.union_subset_union (Finset.subset_insert _ _)
            (Finset.Subset.refl _)))
        refine ⟨c :: draws, by simpa using ⟨hc, hd⟩, g, ?_⟩
        unfold gridLoop
        rw [if_pos hlt]
        simp only [hs, Bool.false_eq_true, if_false]
        exact hg
      · have hcard := Finset.card_insert_of_notMem hnew
        obtain ⟨draws, hd, g, hg⟩ := ih grid (insert c skipped) (by push_cast at hm ⊢; omega) (by
          refine hP.trans (add_le_add (le_refl _) ?_)
          exact_mod_cast Finset.card_le_card (Finset.union_subset_union (Finset.subset_insert _ _)
            (Finset.Subset.refl _)))
        refine ⟨c :: draws, by simpa using ⟨hc, hd⟩, g, ?_⟩
        unfold gridLoop
        rw [if_pos hlt]
        simp only [hs, if_true]
        exact hg
    · refine ⟨[], by simp, grid, ?_⟩
      unfold gridLoop
      rw [if_neg hlt]

/-- **C72** if no value is listed twice for a parameter: after any draws, further draws complete
the search. -/
theorem C72_can_finish_partial (params : List (String × List α)) (hp : params ≠ []) (n : ℤ)
    (hn : 0 ≤ n) (cache : Finset (List α)) (skip : List α → Bool) (draws : List (List α))
    (hd : ∀ c ∈ draws, IsConfig (params.map Prod.snd) c)
    (hnd : ∀ p ∈ params, p.2.Nodup) :
    ∃ more, (∀ c ∈ more, IsConfig (params.map Prod.snd) c) ∧ ∃ g,
      randomGrid params n cache skip (draws ++ more) = .ok (.completed g, params.map Prod.fst) := by
  have hrun : ∀ ds, randomGrid params n cache skip ds =
      .ok (gridLoop skip (gridSize (params.map Prod.snd) n) ds cache ∅, params.map Prod.fst) := by
    intro ds
    unfold randomGrid
    rw [if_neg (not_lt.2 hn), if_neg (by simpa using hp)]
  generalize hN : gridSize (params.map Prod.snd) n = N at hrun
  have hNle : N ≤ ((pyProduct (params.map Prod.snd)).toFinset.card : ℤ) := by
    rw [card_configs _ (by
      intro vs hvs
      obtain ⟨p, hp', rfl⟩ := List.mem_map.1 hvs
      exact hnd p hp'), ← hN, gridSize]
    exact min_le_right _ _
  cases hout : gridLoop skip N draws cache ∅ with
  | completed g =>
    refine ⟨[], by simp, g, ?_⟩
    rw [hrun, List.append_nil, hout]
  | interrupted g =>
    obtain ⟨more, hm, g', hg'⟩ := gridLoop_can_finish skip N (pyProduct (params.map Prod.snd)).toFinset
      (N - (∅ ∪ skippedOf skip draws).card - (cache ∪ keptOf skip draws).card).toNat
      (cache ∪ keptOf skip draws) (∅ ∪ skippedOf skip draws) (Int.self_le_toNat _) (by
        refine hNle.trans ?_
        have hle : (pyProduct (params.map Prod.snd)).toFinset.card ≤
            ((pyProduct (params.map Prod.snd)).toFinset.filter fun c => skip c = false).card +
            ((pyProduct (params.map Prod.snd)).toFinset.filter fun c => skip c = true).card := by
          refine le_trans (Finset.card_le_card ?_) (Finset.card_union_le _ _)
          intro c hc
          rw [Finset.mem_union, Finset.mem_filter, Finset.mem_filter]
          cases hs : skip c
          · exact Or.inl ⟨hc, rfl⟩
          · exact Or.inr ⟨hc, rfl⟩
        have h1 := Finset.card_le_card (Finset.subset_union_right (s₁ := cache ∪ keptOf skip draws)
          (s₂ := (pyProduct (params.map Prod.snd)).toFinset.filter fun c => skip c = false))
        have h2 := Finset.card_le_card (Finset.subset_union_right (s₁ := ∅ ∪ skippedOf skip draws)
          (s₂ := (pyProduct (params.map Prod.snd)).toFinset.filter fun c => skip c = true))
        exact_mod_cast hle.trans (add_le_add h1 h2))
    refine ⟨more, fun c hc => (mem_pyProduct _ _).1 (List.mem_toFinset.1 (hm c hc)), g', ?_⟩
    rw [hrun, gridLoop_append skip N draws more cache ∅ g hout, hg']

/-- **C72**, exactly when the search can complete at all: iff the number of points asked for is at
most the number of different points (cached or not to be skipped) plus the number of different
configurations to be skipped. -/
theorem C72_exact (params : List (String × List α)) (hp : params ≠ []) (n : ℤ) (hn : 0 ≤ n)
    (cache : Finset (List α)) (skip : List α → Bool) (configs : Finset (List α))
    (hc : ∀ c, c ∈ configs ↔ IsConfig (params.map Prod.snd) c) :
    (∃ draws, (∀ c ∈ draws, IsConfig (params.map Prod.snd) c) ∧ ∃ g,
      randomGrid params n cache skip draws = .ok (.completed g, params.map Prod.fst)) ↔
    gridSize (params.map Prod.snd) n ≤ ((cache ∪ configs.filter fun c => skip c = false).card : ℤ) +
      ((configs.filter fun c => skip c = true).card : ℤ) := by
  have hrun : ∀ ds, randomGrid params n cache skip ds =
      .ok (gridLoop skip (gridSize (params.map Prod.snd) n) ds cache ∅, params.map Prod.fst) := by
    intro ds
    unfold randomGrid
    rw [if_neg (not_lt.2 hn), if_neg (by simpa using hp)]
  generalize gridSize (params.map Prod.snd) n = N at hrun
  constructor
  · rintro ⟨draws, hd, g, hg⟩
    rw [hrun] at hg
    have hg' : gridLoop skip N draws cache ∅ = .completed g := by
      injection hg with hg
      exact (Prod.mk.inj hg).1
    obtain ⟨k, hk, -, ⟨-, hle⟩ | ⟨h, -⟩⟩ := gridLoop_spec skip N draws cache ∅
    · have h1 : (cache ∪ keptOf skip (draws.take k)).card ≤
          (cache ∪ configs.filter fun c => skip c = false).card := by
        refine Finset.card_le_card (Finset.union_subset_union (Finset.Subset.refl _) ?_)
        intro c hc'
        simp only [keptOf, List.mem_toFinset, List.mem_filter, Bool.not_eq_true'] at hc'
        rw [Finset.mem_filter]
        exact ⟨(hc c).2 (hd c (List.mem_of_mem_take hc'.1)), hc'.2⟩
      have h2 : (∅ ∪ skippedOf skip (draws.take k)).card ≤
          (configs.filter fun c => skip c = true).card := by
        rw [Finset.empty_union]
        refine Finset.card_le_card ?_
        intro c hc'
        simp only [skippedOf, List.mem_toFinset, List.mem_filter] at hc'
        rw [Finset.mem_filter]
        exact ⟨(hc c).2 (hd c (List.mem_of_mem_take hc'.1)), hc'.2⟩
      omega
    · rw [h] at hg'
      cases hg'
  · intro hle
    obtain ⟨draws, hd, g, hg⟩ := gridLoop_can_finish skip N configs (N - cache.card).toNat cache ∅
      (by rw [Finset.card_empty]; have := Int.self_le_toNat (N - cache.card); push_cast; omega)
      (by rw [Finset.empty_union]; exact hle)
    exact ⟨draws, fun c hc' => (hc c).1 (hd c hc'), g, by rw [hrun, hg]⟩

/-- **C72** is violated if a value is listed twice: the search for all points of `{A: [1, 1]}` waits
for two distinct configurations where there is only one, and never ends by itself. -/
theorem C72_violated : ∃ (params : List (String × List ℤ)) (n : ℤ) (cache : Finset (List ℤ))
    (skip : List ℤ → Bool), params ≠ [] ∧ 0 ≤ n ∧
    ∀ draws, (∀ c ∈ draws, IsConfig (params.map Prod.snd) c) →
      ∃ g, randomGrid params n cache skip draws = .ok (.interrupted g, params.map Prod.fst) := by
  refine ⟨[("A", [1, 1])], 0, ∅, fun _ => false, by simp, le_refl _, ?_⟩
  intro draws hd
  have hc : ∀ c ∈ draws, c = [1] := by
    intro c hc
    have := (mem_pyProduct _ _).2 (hd c hc)
    simpa [pyProduct] using this
  obtain ⟨out, hout, used, hu, hmem, -, hcomp, -⟩ := C71_random_grid [("A", [1, 1])] (by simp) 0
    (le_refl _) ∅ (fun _ => false) draws hd
  cases out with
  | interrupted g => exact ⟨g, hout⟩
  | completed g =>
    exfalso
    have hcard := hcomp g rfl
    have hN : gridSize ([(("A" : String), [(1 : ℤ), 1])].map Prod.snd) 0 = 2 := by decide
    rw [hN] at hcard
    have hsub : g ⊆ {[1]} := by
      intro c hcg
      rcases (hmem c).1 hcg with h | h
      · cases h
      · rw [Finset.mem_singleton]
        exact hc c (hu.subset h.1)
    have h1 := Finset.card_le_card hsub
    rw [Finset.card_singleton] at h1
    have h2 : (skippedOf (fun _ : List ℤ => false) used).card = 0 := by simp [skippedOf]
    rw [h2] at hcard
    simp at hcard
    omega

example := C72_can_finish_partial [("rank", [10, 20]), ("scale", [0, 1])] (by simp) 3 (by decide) ∅
  (fun c => decide (c = [10, 1])) [[10, 0]] (by intro c hc; rw [← mem_pyProduct]; revert c; decide)
  (by decide)

end DynCF
