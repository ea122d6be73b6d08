/-
How the rounds of `TIRec.update` and `TIRecA.update` divide the delta.
-/
import Verif.Model.TIRec
import Verif.Lemmas.PsiUpdate

set_option linter.unusedSectionVars false

namespace DynCF
variable {K : Type}

/-- Specification of the four classes of entries of a delta, given the ids that are new: a block entry has
a new user and a new item; a user is added on its own if it is new and never occurs with a new item; an item
likewise; everything else is left for the integrator. -/
def TIClass (nu ni : List ℤ) (δ : List DRow) (r : DRow) : PsiMode → Prop
  | .new => r.user ∈ nu ∧ r.item ∈ ni
  | .newUsers => r.user ∈ nu ∧ ∀ x ∈ δ, x.user = r.user → x.item ∉ ni
  | .newItems => r.item ∈ ni ∧ ∀ x ∈ δ, x.item = r.item → x.user ∉ nu
  | .old => ¬ (r.user ∈ nu ∧ r.item ∈ ni) ∧
      (r.user ∈ nu → ∃ x ∈ δ, x.user = r.user ∧ x.item ∈ ni) ∧
      (r.item ∈ ni → ∃ x ∈ δ, x.item = r.item ∧ x.user ∈ nu)

instance (nu ni : List ℤ) (δ : List DRow) (r : DRow) (m : PsiMode) : Decidable (TIClass nu ni δ r m) := by
  cases m <;> unfold TIClass <;> infer_instance

/-- the entries of one class, in order -/
def tiPart (nu ni : List ℤ) (δ : List DRow) (m : PsiMode) : List DRow :=
  δ.filter fun r => decide (TIClass nu ni δ r m)

theorem mem_tiPart {nu ni : List ℤ} {δ : List DRow} {m : PsiMode} {r : DRow} :
    r ∈ tiPart nu ni δ m ↔ r ∈ δ ∧ TIClass nu ni δ r m := by
  unfold tiPart
  rw [List.mem_filter, decide_eq_true_eq]

/-- every entry is in exactly one class -/
theorem tiClass_unique (nu ni : List ℤ) (δ : List DRow) (r : DRow) (hr : r ∈ δ) :
    ∃! m, TIClass nu ni δ r m := by
  by_cases hu : r.user ∈ nu <;> by_cases hi : r.item ∈ ni
  · refine ⟨.new, ⟨hu, hi⟩, ?_⟩
    rintro (_ | _ | _ | _) h
    · rfl
    · exact absurd hi (h.2 r hr rfl)
    · exact absurd hu (h.2 r hr rfl)
    · exact absurd ⟨hu, hi⟩ h.1
  · by_cases he : ∀ x ∈ δ, x.user = r.user → x.item ∉ ni
    · refine ⟨.newUsers, ⟨hu, he⟩, ?_⟩
      rintro (_ | _ | _ | _) h
      · exact absurd h.2 hi
      · rfl
      · exact absurd h.1 hi
      · obtain ⟨x, hx, h1, h2⟩ := h.2.1 hu
        exact absurd h2 (he x hx h1)
    · refine ⟨.old, ⟨fun h => hi h.2, fun _ => ?_, fun h => absurd h hi⟩, ?_⟩
      · push Not at he
        obtain ⟨x, hx, h1, h2⟩ := he
        exact ⟨x, hx, h1, h2⟩
      · rintro (_ | _ | _ | _) h
        · exact absurd h.2 hi
        · exact absurd h.2 he
        · exact absurd h.1 hi
        · rfl
  · by_cases he : ∀ x ∈ δ, x.item = r.item → x.user ∉ nu
    · refine ⟨.newItems, ⟨hi, he⟩, ?_⟩
      rintro (_ | _ | _ | _) h
      · exact absurd h.1 hu
      · exact absurd h.1 hu
      · rfl
      · obtain ⟨x, hx, h1, h2⟩ := h.2.2 hi
        exact absurd h2 (he x hx h1)
    · refine ⟨.old, ⟨fun h => hu h.1, fun h => absurd h hu, fun _ => ?_⟩, ?_⟩
      · push Not at he
        obtain ⟨x, hx, h1, h2⟩ := he
        exact ⟨x, hx, h1, h2⟩
      · rintro (_ | _ | _ | _) h
        · exact absurd h.1 hu
        · exact absurd h.1 hu
        · exact absurd h.2 he
        · rfl
  · refine ⟨.old, ⟨fun h => hu h.1, fun h => absurd h hu, fun h => absurd h hi⟩, ?_⟩
    rintro (_ | _ | _ | _) h
    · exact absurd h.1 hu
    · exact absurd h.1 hu
    · exact absurd h.1 hi
    · rfl

/-- the four classes together are the delta -/
theorem tiPart_perm (nu ni : List ℤ) (δ : List DRow) :
    (tiPart nu ni δ .new ++ tiPart nu ni δ .newUsers ++ tiPart nu ni δ .newItems ++ tiPart nu ni δ .old).Perm δ := by
  have key : ∀ l : List DRow, (∀ r ∈ l, r ∈ δ) →
      (l.filter (fun r => decide (TIClass nu ni δ r .new)) ++ l.filter (fun r => decide (TIClass nu ni δ r .newUsers)) ++
        l.filter (fun r => decide (TIClass nu ni δ r .newItems)) ++
        l.filter (fun r => decide (TIClass nu ni δ r .old))).Perm l := by
    intro l hl
    rw [List.perm_iff_count]
    intro a
    simp only [List.count_append]
    by_cases ha : a ∈ l
    · obtain ⟨m, hm, huniq⟩ := tiClass_unique nu ni δ a (hl a ha)
      have hc : ∀ m', List.count a (l.filter fun r => decide (TIClass nu ni δ r m')) =
          if m' = m then List.count a l else 0 := by
        intro m'
        by_cases h : m' = m
        · subst h
          rw [if_pos rfl, List.count_filter (by simpa using hm)]
        · rw [if_neg h, List.count_eq_zero]
          intro hmem
          exact h (huniq m' (by simpa using (List.mem_filter.1 hmem).2))
      simp only [hc]
      cases m <;> simp
    · have hc : ∀ m', List.count a (l.filter fun r => decide (TIClass nu ni δ r m')) = 0 := by
        intro m'
        rw [List.count_eq_zero]
        intro hmem
        exact ha (List.mem_filter.1 hmem).1
      simp only [hc, List.count_eq_zero.2 ha]
  exact key δ fun r hr => hr

/-! ### One round -/

theorem tiDivide_masked (inds : List DRow) (m : PsiMode) (nu ni : List ℤ) :
    (tiDivide inds m nu ni).masked = inds.filter (tiMaskRow nu ni m) := maskSelect_map _ _

theorem tiDivide_rest (inds : List DRow) (m : PsiMode) (nu ni : List ℤ) :
    maskSelect inds ((tiDivide inds m nu ni).mask.map fun b => !b) = inds.filter fun r => !tiMaskRow nu ni m r := by
  unfold tiDivide
  dsimp only
  rw [List.map_map]
  exact maskSelect_map _ _

theorem tiMaskRow_iff (nu ni : List ℤ) (m : PsiMode) (r : DRow) : tiMaskRow nu ni m r = true ↔
    match m with
    | .new => r.user ∈ nu ∧ r.item ∈ ni
    | .newUsers => r.user ∈ nu ∧ r.item ∉ ni
    | .newItems => r.user ∉ nu ∧ r.item ∈ ni
    | .old => r.user ∉ nu ∧ r.item ∉ ni := by
  unfold tiMaskRow
  cases m <;> simp

section
variable [Field K] [LinearOrder K]

theorem tiRound_eq (vec : TIVectors K) (c : TICfg K) (m : TDAtt K) (l : TIRound K) (mode : PsiMode)
    {D R : List DRow} {U I : List ℤ} (hD : l.left.filter (tiMaskRow l.newUsers l.newItems mode) = D)
    (hR : (l.left.filter fun r => !tiMaskRow l.newUsers l.newItems mode r) = R)
    (hU : tiLeftUsers l.newUsers D mode = U) (hI : tiLeftItems l.newItems D mode = I) :
    tiRound vec c m l mode = (do
      let st ← tiUpdateFactors vec c m l.st D mode
      pure ⟨st, R, U, I, l.log ++ [(mode, D)]⟩) := by
  unfold tiRound
  dsimp only
  rw [tiDivide_rest, hR]
  have e1 : (tiDivide l.left mode l.newUsers l.newItems).masked = D := by rw [tiDivide_masked, hD]
  have e2 : (tiDivide l.left mode l.newUsers l.newItems).newUsers = U := by
    rw [← hU, ← e1]; rfl
  have e3 : (tiDivide l.left mode l.newUsers l.newItems).newItems = I := by
    rw [← hI, ← e1]; rfl
  rw [e1, e2, e3]

/-- the users still new after the block round -/
theorem mem_leftUsers1 {nu ni : List ℤ} {δ : List DRow} (x : ℤ) :
    x ∈ tiLeftUsers nu (tiPart nu ni δ .new) .new ↔ x ∈ nu ∧ ∀ r ∈ δ, r.user = x → r.item ∉ ni := by
  unfold tiLeftUsers
  rw [List.mem_filter]
  refine and_congr_right fun hx => ?_
  rw [Bool.not_eq_true', decide_eq_false_iff_not, List.mem_map]
  constructor
  · intro h r hr hu hi
    exact h ⟨r, mem_tiPart.2 ⟨hr, by rw [hu]; exact hx, hi⟩, hu⟩
  · rintro h ⟨r, hr, hu⟩
    exact h r (mem_tiPart.1 hr).1 hu (mem_tiPart.1 hr).2.2

theorem mem_leftItems1 {nu ni : List ℤ} {δ : List DRow} (x : ℤ) :
    x ∈ tiLeftItems ni (tiPart nu ni δ .new) .new ↔ x ∈ ni ∧ ∀ r ∈ δ, r.item = x → r.user ∉ nu := by
  unfold tiLeftItems
  rw [List.mem_filter]
  refine and_congr_right fun hx => ?_
  rw [Bool.not_eq_true', decide_eq_false_iff_not, List.mem_map]
  constructor
  · intro h r hr hi hu
    exact h ⟨r, mem_tiPart.2 ⟨hr, hu, by rw [hi]; exact hx⟩, hi⟩
  · rintro h ⟨r, hr, hi⟩
    exact h r (mem_tiPart.1 hr).1 hi (mem_tiPart.1 hr).2.1

/-- The first three rounds, of either class. -/
theorem tiRounds3 (vec : TIVectors K) (c : TICfg K) (m : TDAtt K) (st : TDState K) (nu ni : List ℤ) (δ : List DRow)
    (hu : ∀ x ∈ nu, ∃ r ∈ δ, r.user = x) (hi : ∀ x ∈ ni, ∃ r ∈ δ, r.item = x) :
    [PsiMode.new, .newUsers, .newItems].foldlM (tiRound vec c m) ⟨st, δ, nu, ni, []⟩ = (do
      let st1 ← tiUpdateFactors vec c m st (tiPart nu ni δ .new) .new
      let st2 ← tiUpdateFactors vec c m st1 (tiPart nu ni δ .newUsers) .newUsers
      let st3 ← tiUpdateFactors vec c m st2 (tiPart nu ni δ .newItems) .newItems
      pure ⟨st3, tiPart nu ni δ .old, [], [], [(.new, tiPart nu ni δ .new), (.newUsers, tiPart nu ni δ .newUsers),
        (.newItems, tiPart nu ni δ .newItems)]⟩) := by
  set D1 := tiPart nu ni δ .new with hD1
  set U1 := tiLeftUsers nu D1 .new with hU1
  set I1 := tiLeftItems ni D1 .new with hI1
  have mU : ∀ x, x ∈ U1 ↔ x ∈ nu ∧ ∀ r ∈ δ, r.user = x → r.item ∉ ni := mem_leftUsers1
  have mI : ∀ x, x ∈ I1 ↔ x ∈ ni ∧ ∀ r ∈ δ, r.item = x → r.user ∉ nu := mem_leftItems1
  have d1 : δ.filter (tiMaskRow nu ni .new) = D1 := by
    apply List.filter_congr
    intro r _
    rw [Bool.eq_iff_iff, tiMaskRow_iff, decide_eq_true_eq]
    rfl
  have d2 : (δ.filter fun r => !tiMaskRow nu ni .new r).filter (tiMaskRow U1 I1 .newUsers) = tiPart nu ni δ .newUsers := by
    rw [List.filter_filter]
    apply List.filter_congr
    intro r hr
    rw [Bool.eq_iff_iff, Bool.and_eq_true, Bool.not_eq_true', Bool.eq_false_iff, ne_eq, tiMaskRow_iff, tiMaskRow_iff,
      decide_eq_true_eq]
    dsimp only [TIClass]
    rw [mU]
    refine ⟨fun h => h.1.1, fun h => ⟨⟨h, fun h' => h.2 r hr rfl ((mI _).1 h').1⟩, fun h' => h.2 r hr rfl h'.2⟩⟩
  have d2u : tiLeftUsers U1 (tiPart nu ni δ .newUsers) .newUsers = [] := by
    unfold tiLeftUsers
    rw [List.filter_eq_nil_iff]
    intro x hx
    simp only [Bool.not_eq_true', decide_eq_false_iff_not, not_not, List.mem_map]
    obtain ⟨r, hr, he⟩ := hu x ((mU x).1 hx).1
    refine ⟨r, mem_tiPart.2 ⟨hr, ?_⟩, he⟩
    dsimp only [TIClass]
    rw [he]
    exact (mU x).1 hx
  have d3 : (((δ.filter fun r => !tiMaskRow nu ni .new r).filter fun r => !tiMaskRow U1 I1 .newUsers r).filter
      (tiMaskRow [] I1 .newItems)) = tiPart nu ni δ .newItems := by
    rw [List.filter_filter, List.filter_filter]
    apply List.filter_congr
    intro r hr
    rw [Bool.eq_iff_iff, Bool.and_eq_true, Bool.and_eq_true, Bool.not_eq_true', Bool.not_eq_true', Bool.eq_false_iff,
      Bool.eq_false_iff, ne_eq, ne_eq, tiMaskRow_iff, tiMaskRow_iff, tiMaskRow_iff, decide_eq_true_eq]
    dsimp only [TIClass]
    refine ⟨fun h => (mI _).1 h.1.1.2, fun h => ⟨⟨⟨List.not_mem_nil, (mI _).2 h⟩,
      fun h' => h.2 r hr rfl ((mU _).1 h'.1).1⟩, fun h' => h.2 r hr rfl h'.1⟩⟩
  have d3i : tiLeftItems I1 (tiPart nu ni δ .newItems) .newItems = [] := by
    unfold tiLeftItems
    rw [List.filter_eq_nil_iff]
    intro x hx
    simp only [Bool.not_eq_true', decide_eq_false_iff_not, not_not, List.mem_map]
    obtain ⟨r, hr, he⟩ := hi x ((mI x).1 hx).1
    refine ⟨r, mem_tiPart.2 ⟨hr, ?_⟩, he⟩
    dsimp only [TIClass]
    rw [he]
    exact (mI x).1 hx
  have d4 : (((δ.filter fun r => !tiMaskRow nu ni .new r).filter fun r => !tiMaskRow U1 I1 .newUsers r).filter
      fun r => !tiMaskRow [] I1 .newItems r) = tiPart nu ni δ .old := by
    rw [List.filter_filter, List.filter_filter]
    apply List.filter_congr
    intro r hr
    rw [Bool.eq_iff_iff, Bool.and_eq_true, Bool.and_eq_true, Bool.not_eq_true', Bool.not_eq_true', Bool.not_eq_true',
      Bool.eq_false_iff, Bool.eq_false_iff, Bool.eq_false_iff, ne_eq, ne_eq, ne_eq, tiMaskRow_iff, tiMaskRow_iff,
      tiMaskRow_iff, decide_eq_true_eq]
    constructor
    · rintro ⟨⟨h3, h2⟩, h1⟩
      refine ⟨h1, fun h => ?_, fun h => ?_⟩
      · by_contra hne
        push Not at hne
        have hU : r.user ∈ U1 := (mU _).2 ⟨h, hne⟩
        exact h2 ⟨hU, fun h' => h1 ⟨h, ((mI _).1 h').1⟩⟩
      · by_contra hne
        push Not at hne
        exact h3 ⟨List.not_mem_nil, (mI _).2 ⟨h, hne⟩⟩
    · intro h
      refine ⟨⟨fun h3 => ?_, fun h2 => ?_⟩, h.1⟩
      · obtain ⟨x, hx, hx1, hx2⟩ := h.2.2 ((mI _).1 h3.2).1
        exact ((mI _).1 h3.2).2 x hx hx1 hx2
      · obtain ⟨x, hx, hx1, hx2⟩ := h.2.1 ((mU _).1 h2.1).1
        exact ((mU _).1 h2.1).2 x hx hx1 hx2
  simp only [List.foldlM_cons, List.foldlM_nil]
  rw [tiRound_eq vec c m ⟨st, δ, nu, ni, []⟩ .new d1 rfl rfl rfl]
  cases tiUpdateFactors vec c m st D1 .new with
  | error e => rfl
  | ok st1 =>
    simp only [pure, Except.pure, except_bind_ok]
    rw [tiRound_eq vec c m _ .newUsers d2 rfl d2u rfl]
    dsimp only
    cases tiUpdateFactors vec c m st1 (tiPart nu ni δ .newUsers) .newUsers with
    | error e => rfl
    | ok st2 =>
      simp only [pure, Except.pure, except_bind_ok]
      rw [tiRound_eq vec c m _ .newItems d3 d4 rfl d3i]
      dsimp only
      cases tiUpdateFactors vec c m st2 (tiPart nu ni δ .newItems) .newItems with
      | error e => rfl
      | ok st3 => rfl

/-- `TIRec.update`: every class of entries is passed to its step once, in order, and nothing is left. -/
theorem tirecRounds_eq (c : TICfg K) (m : TDAtt K) (st : TDState K) (nu ni : List ℤ) (δ : List DRow) (hδ : δ ≠ [])
    (hu : ∀ x ∈ nu, ∃ r ∈ δ, r.user = x) (hi : ∀ x ∈ ni, ∃ r ∈ δ, r.item = x) :
    tirecRounds c m st nu ni δ = (do
      let st1 ← tiUpdateFactors tirecVectors c m st (tiPart nu ni δ .new) .new
      let st2 ← tiUpdateFactors tirecVectors c m st1 (tiPart nu ni δ .newUsers) .newUsers
      let st3 ← tiUpdateFactors tirecVectors c m st2 (tiPart nu ni δ .newItems) .newItems
      let st4 ← tiUpdateFactors tirecVectors c m st3 (tiPart nu ni δ .old) .old
      pure ⟨st4, [], [], [], [(.new, tiPart nu ni δ .new), (.newUsers, tiPart nu ni δ .newUsers),
        (.newItems, tiPart nu ni δ .newItems), (.old, tiPart nu ni δ .old)]⟩) := by
  have h3 := tiRounds3 tirecVectors c m st nu ni δ hu hi
  unfold tirecRounds tiConcat
  rw [if_neg (by simpa using hδ), except_bind_ok]
  have e : ∀ (f : TIRound K → PsiMode → PyM (TIRound K)) (l : TIRound K),
      [PsiMode.new, .newUsers, .newItems, .old].foldlM f l =
        ([PsiMode.new, .newUsers, .newItems].foldlM f l >>= fun l => f l .old) := by
    intro f l
    rw [show [PsiMode.new, .newUsers, .newItems, .old] = [PsiMode.new, .newUsers, .newItems] ++ [.old] from rfl,
      List.foldlM_append]
    simp
  rw [e, h3]
  simp only [bind_assoc]
  have hr : ∀ st3 : TDState K, tiRound tirecVectors c m ⟨st3, tiPart nu ni δ .old, [], [],
      [(.new, tiPart nu ni δ .new), (.newUsers, tiPart nu ni δ .newUsers), (.newItems, tiPart nu ni δ .newItems)]⟩ .old =
      (do
        let st4 ← tiUpdateFactors tirecVectors c m st3 (tiPart nu ni δ .old) .old
        pure ⟨st4, [], [], [], [(.new, tiPart nu ni δ .new), (.newUsers, tiPart nu ni δ .newUsers),
          (.newItems, tiPart nu ni δ .newItems), (.old, tiPart nu ni δ .old)]⟩) := by
    intro st3
    refine tiRound_eq tirecVectors c m _ .old ?_ ?_ rfl rfl
    · rw [List.filter_eq_self]
      intro r _
      simp [tiMaskRow_iff]
    · rw [List.filter_eq_nil_iff]
      intro r _
      simp [tiMaskRow]
  simp only [pure_bind, hr]

/-- `TIRecA.update` (default): after the first three steps the integrator gets the whole delta. -/
theorem tirecaRounds_eq (c : TICfg K) (m : TDAtt K) (st : TDState K) (nu ni : List ℤ) (δ : List DRow) (hδ : δ ≠ [])
    (hu : ∀ x ∈ nu, ∃ r ∈ δ, r.user = x) (hi : ∀ x ∈ ni, ∃ r ∈ δ, r.item = x) :
    tirecaRounds c m st nu ni δ = (do
      let st1 ← tiUpdateFactors tirecaVectors c m st (tiPart nu ni δ .new) .new
      let st2 ← tiUpdateFactors tirecaVectors c m st1 (tiPart nu ni δ .newUsers) .newUsers
      let st3 ← tiUpdateFactors tirecaVectors c m st2 (tiPart nu ni δ .newItems) .newItems
      let st4 ← tiUpdateFactors tirecaVectors c m st3 δ .old
      pure ⟨st4, [], [], [], [(.new, tiPart nu ni δ .new), (.newUsers, tiPart nu ni δ .newUsers),
        (.newItems, tiPart nu ni δ .newItems), (.old, δ)]⟩) := by
  have h3 := tiRounds3 tirecaVectors c m st nu ni δ hu hi
  unfold tirecaRounds tiConcat
  rw [if_neg (by simpa using hδ), except_bind_ok, h3]
  simp only [bind_assoc, pure_bind]
  have e : maskSelect δ ((tiDivide δ .new [] []).mask.map fun b => !b) = δ := by
    rw [tiDivide_rest, List.filter_eq_self]
    intro r _
    simp [tiMaskRow]
  have e2 : (tiDivide δ .new [] []).newUsers = [] := rfl
  have e3 : (tiDivide δ .new [] []).newItems = [] := rfl
  simp only [e, e2, e3]
  rfl

theorem tiConcat_nil : tiConcat [] = .error .valueError := rfl

end
end DynCF
