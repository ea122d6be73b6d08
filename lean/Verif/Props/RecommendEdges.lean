/- Property C146: recommendations at the edges (none asked for, a catalogue of one item). -/
import Verif.Props.Recommend

set_option linter.unusedSectionVars false
namespace DynCF
variable {K : Type} [LinearOrder K] [Inhabited K]
variable {argp : ArgPart K} {v : RecView} {users items : List ℤ} {score : ℕ → ℤ → PyM (List K)} {f : ℕ → ℕ → List K}

/-- For known users `recommend` treats one user after the other. -/
theorem recommend_known (b filt internal : Bool) (hv : ViewOk v users items) (p : ℤ → ℤ → ℕ)
    (hp : getPref v filt = .ok p) (us : List ℤ) (hus : ∀ u ∈ us, u ∈ users) (k : ℕ) (R : ℤ → PyM (List ℤ))
    (hR : ∀ i u (a : ℕ), u ∈ us → users[a]? = some u →
      (score i a >>= fun rec => recommendRow argp v p rec (min k v.nItems) filt internal a) = R u) :
    recommend b argp v score us k filt internal = us.mapM R := by
  rw [recommend_eq b argp v score us k filt internal p hp]
  have hm : ∃ mapped, us.mapM (fun u => v.maps.user.old2new.getItem u) = .ok mapped ∧
      List.Forall₂ (fun u m => ∃ a : ℕ, m = (a : ℤ) ∧ users[a]? = some u) us mapped := by
    clear hR
    induction us with
    | nil => exact ⟨[], rfl, .nil⟩
    | cons u us ih =>
      obtain ⟨m, h1, h2⟩ := ih fun x hx => hus x (List.mem_cons_of_mem _ hx)
      obtain ⟨a, ha⟩ := List.mem_iff_getElem?.1 (hus u List.mem_cons_self)
      refine ⟨(a : ℤ) :: m, ?_, .cons ⟨a, rfl, ha⟩ h2⟩
      rw [List.mapM_cons, (getItem_ok_iff _ _ _).2 ((hv.user.old2new u a).2 ⟨a, rfl, ha⟩), except_bind_ok, h1,
        except_bind_ok]
      rfl
  obtain ⟨mapped, h1, h2⟩ := hm
  rw [h1, except_bind_ok]
  generalize 0 = s
  clear h1 hus
  induction h2 generalizing s with
  | nil => rfl
  | @cons u m us mapped hum _ ih =>
    obtain ⟨a, rfl, ha⟩ := hum
    rw [enumNat, List.mapM_cons, List.mapM_cons]
    dsimp only
    rw [hR s u a List.mem_cons_self ha, ih (fun i u a hu => hR i u a (List.mem_cons_of_mem _ hu)) (s + 1)]

theorem mapM_same_ok {α β : Type} (l : List α) (g : α → PyM β) (x : β) (h : ∀ a ∈ l, g a = .ok x) :
    l.mapM g = .ok (l.map fun _ => x) := by
  induction l with
  | nil => rfl
  | cons a l ih =>
    rw [List.mapM_cons, h a List.mem_cons_self, except_bind_ok, ih fun b hb => h b (List.mem_cons_of_mem _ hb)]
    rfl

/-- a loop with a single kind of error raises it -/
theorem mapM_only_error {α β : Type} (l : List α) (g : α → PyM β) (e : PyErr) (h : ∀ a ∈ l, (∃ x, g a = .ok x) ∨ g a = .error e)
    (he : ∃ a ∈ l, g a = .error e) : l.mapM g = .error e := by
  cases hr : l.mapM g with
  | error e' =>
    obtain ⟨a, ha, hga⟩ := mapM_error _ _ _ hr
    rcases h a ha with ⟨x, hx⟩ | hx
    · rw [hx] at hga; cases hga
    · rw [hx] at hga; rw [Except.error.inj hga]
  | ok r =>
    obtain ⟨a, ha, hga⟩ := he
    rw [mapM_ok_iff] at hr
    obtain ⟨i, hi⟩ := List.mem_iff_getElem?.1 ha
    obtain ⟨y, _, hy⟩ := forall₂_exists_right hr i hi
    rw [hga] at hy
    cases hy

theorem pref_of_view (hv : ViewOk v users items) (filt : Bool) :
    ∃ p, getPref v filt = .ok p ∧
      (filt = true → p = fun u i => v.history.countP fun q => decide (q = (u, i))) := by
  cases filt
  · exact ⟨_, rfl, by simp⟩
  · exact ⟨_, historyCsr_ok hv, fun _ => rfl⟩

/-- the number of items that `recommend` may choose from for user `u` -/
def choices (v : RecView) (users items : List ℤ) (filt : Bool) (u : ℤ) : ℕ :=
  if filt then unseenCount v users u else items.length

theorem allowed_choices (hv : ViewOk v users items) {u : ℤ} {a : ℕ} (ha : users[a]? = some u) (filt : Bool) :
    (allowedIdx v filt a).length = choices v users items filt u := by
  unfold choices
  cases filt
  · rw [(allowed_length hv ha).2, hv.nItems]; rfl
  · exact (allowed_length hv ha).1

theorem viewedMask_known (hv : ViewOk v users items) {u : ℤ} {a : ℕ} (ha : users[a]? = some u) (p : ℤ → ℤ → ℕ) :
    viewedMask v p a = .ok ((List.range v.nItems).map fun i : ℕ => decide (p a (i : ℤ) ≠ 0)) := by
  have := (List.getElem?_eq_some_iff.1 ha).1
  have := hv.nUsers
  unfold viewedMask
  rw [if_pos (by constructor <;> omega)]

theorem count_ne_zero (h : List (ℤ × ℤ)) (x : ℤ × ℤ) :
    decide (h.countP (fun q => decide (q = x)) ≠ 0) = decide (x ∈ h) := by
  refine decide_eq_decide.2 ?_
  rw [← Nat.pos_iff_ne_zero, List.countP_pos_iff]
  constructor
  · rintro ⟨a, ha, he⟩
    rwa [of_decide_eq_true he] at ha
  · exact fun hm => ⟨x, hm, decide_eq_true rfl⟩

/-- the row of `k = 0` -/
theorem zeroRow_known (hv : ViewOk v users items) (filt internal : Bool) (p : ℤ → ℤ → ℕ)
    (hp : filt = true → p = fun u i => v.history.countP fun q => decide (q = (u, i))) {u : ℤ} {a : ℕ}
    (ha : users[a]? = some u) (rec : List K) (hrec : rec.length = v.nItems) :
    zeroRow v p rec filt internal a =
      if choices v users items filt u ≤ 1 then .ok [] else .error .valueError := by
  have hall : allCandidates v p rec filt a = .ok ((allowedIdx v filt a).map fun i : ℕ => (i : ℤ)) := by
    unfold allCandidates
    cases filt with
    | false =>
      rw [allowedIdx_false, hrec]
      rfl
    | true =>
      rw [if_pos rfl, viewedMask_known hv ha, except_bind_ok, if_neg (by simp [hrec]), hp rfl, List.map_map,
        maskSelect_map_map]
      refine congrArg (fun l => (Except.ok (List.map _ l) : PyM (List ℤ))) ?_
      unfold allowedIdx
      refine List.filter_congr fun i _ => ?_
      dsimp only [Function.comp_apply]
      rw [count_ne_zero]
      simp
  have hshow : ∃ row, showItems v internal ((allowedIdx v filt a).map fun i : ℕ => (i : ℤ)) = .ok row ∧
      row.length = (allowedIdx v filt a).length := by
    unfold showItems
    cases internal with
    | true => exact ⟨_, rfl, by simp⟩
    | false =>
      have := mapM_new2old _ _ hv.item (allowedIdx v filt a) fun j hj => by
        rw [← hv.nItems]; exact ((mem_allowedIdx v filt a j).1 hj).1
      exact ⟨_, this, by simp⟩
  obtain ⟨row, h1, h2⟩ := hshow
  unfold zeroRow
  rw [hall, except_bind_ok, h1, except_bind_ok, h2, allowed_choices hv ha]

/-- **C146, no items asked for** (exact behaviour). With `k = 0` (and not the filtered catalogue of one item, for
which see below) `recommend` returns empty rows if no user of the request has more than one item to choose from, and
otherwise raises `ValueError`: the slice `[-0:]` selects all items, which do not fit into the empty row. -/
theorem C146_zero (hv : ViewOk v users items) (hs : ScoresOk v score f) (b filt internal : Bool)
    (h1 : ¬ (filt = true ∧ items.length = 1)) (us : List ℤ) (hus : ∀ u ∈ us, u ∈ users) :
    ((∀ u ∈ us, choices v users items filt u ≤ 1) →
      recommend b argp v score us 0 filt internal = .ok (us.map fun _ => [])) ∧
    ((∃ u ∈ us, 2 ≤ choices v users items filt u) →
      recommend b argp v score us 0 filt internal = .error .valueError) := by
  obtain ⟨p, hp, hp'⟩ := pref_of_view hv filt
  have e := recommend_known (argp := argp) (score := score) b filt internal hv p hp us hus 0
    (fun u => if choices v users items filt u ≤ 1 then .ok [] else .error .valueError) (by
      intro i u a _ ha
      obtain ⟨h3, h4⟩ := hs i a (by rw [hv.nUsers]; exact (List.getElem?_eq_some_iff.1 ha).1)
      rw [h3, except_bind_ok]
      unfold recommendRow
      rw [if_neg (by rw [hv.nItems]; exact h1), if_pos (by omega)]
      exact zeroRow_known hv filt internal p hp' ha _ h4)
  rw [e]
  constructor
  · intro h
    exact mapM_same_ok _ _ _ fun u hu => if_pos (h u hu)
  · rintro ⟨u, hu, h⟩
    refine mapM_only_error _ _ _ (fun u _ => ?_) ⟨u, hu, if_neg (by omega)⟩
    split
    · exact Or.inl ⟨_, rfl⟩
    · exact Or.inr rfl

/-- the row for a catalogue of one item, filtered -/
theorem singleItemRow_known (hv : ViewOk v users items) (h1 : items.length = 1) (internal : Bool) {u : ℤ} {a : ℕ}
    (ha : users[a]? = some u) (rec : List K) (hrec : rec.length = v.nItems) (k : ℕ) :
    singleItemRow v (fun u i => v.history.countP fun q => decide (q = (u, i))) rec k internal a =
      if unseenCount v users u = 1 then
        if internal then .ok (List.replicate k 0) else .error .typeError
      else if internal then .error .valueError
      else if k = 0 then .ok [] else .error .valueError := by
  have hn := hv.nItems
  unfold singleItemRow
  rw [if_neg (by omega), viewedMask_known hv ha, except_bind_ok, hn, h1]
  have hc : unseenCount v users u = 1 ↔ ((a : ℤ), (0 : ℤ)) ∉ v.history := by
    rw [← (allowed_length hv ha).1]
    unfold allowedIdx
    rw [hn, h1]
    by_cases hm : ((a : ℤ), (0 : ℤ)) ∈ v.history
    · simp [List.range_succ, hm]
    · simp [List.range_succ, hm]
  have hmask : ((List.map (fun i : ℕ => decide ((v.history.countP fun q => decide (q = ((a : ℤ), (i : ℤ)))) ≠ 0))
      (List.range 1)).all fun b => !b) = true ↔ unseenCount v users u = 1 := by
    rw [hc]
    simp only [count_ne_zero]
    simp [List.range_succ]
  by_cases hu : unseenCount v users u = 1
  · rw [if_pos (hmask.2 hu), if_pos hu]
  · rw [if_neg (fun h => hu (hmask.1 h)), if_neg hu]

theorem recommend_single (hv : ViewOk v users items) (hs : ScoresOk v score f) (b internal : Bool)
    (h1 : items.length = 1) (us : List ℤ) (hus : ∀ u ∈ us, u ∈ users) (k : ℕ) :
    recommend b argp v score us k true internal = us.mapM fun u =>
      if unseenCount v users u = 1 then
        if internal then .ok (List.replicate (min k 1) 0) else .error .typeError
      else if internal then .error .valueError
      else if k = 0 then .ok [] else .error .valueError := by
  obtain ⟨p, hp, hp'⟩ := pref_of_view hv true
  rw [hp' rfl] at hp
  refine recommend_known b true internal hv _ hp us hus k _ ?_
  intro i u a _ ha
  obtain ⟨h3, h4⟩ := hs i a (by rw [hv.nUsers]; exact (List.getElem?_eq_some_iff.1 ha).1)
  rw [h3, except_bind_ok]
  unfold recommendRow
  rw [if_pos ⟨rfl, by rw [hv.nItems, h1]⟩, singleItemRow_known hv h1 internal ha _ h4, hv.nItems, h1]
  rcases Nat.eq_zero_or_pos k with rfl | hk
  · rfl
  · rw [if_neg (show ¬ min k 1 = 0 by omega), if_neg (show ¬ k = 0 by omega)]

/-- **C146, one item, by index** (exact behaviour): if every user of the request has still to view the only item, all
get it (none if `k = 0`); otherwise `ValueError`. -/
theorem C146_single_internal (hv : ViewOk v users items) (hs : ScoresOk v score f) (b : Bool)
    (h1 : items.length = 1) (us : List ℤ) (hus : ∀ u ∈ us, u ∈ users) (k : ℕ) :
    ((∀ u ∈ us, unseenCount v users u = 1) →
      recommend b argp v score us k true true = .ok (us.map fun _ => List.replicate (min k 1) 0)) ∧
    ((∃ u ∈ us, unseenCount v users u ≠ 1) →
      recommend b argp v score us k true true = .error .valueError) := by
  rw [recommend_single hv hs b true h1 us hus k]
  constructor
  · intro h
    exact mapM_same_ok _ _ _ fun u hu => by rw [if_pos (h u hu)]; rfl
  · rintro ⟨u, hu, h⟩
    refine mapM_only_error _ _ _ (fun u _ => ?_) ⟨u, hu, by rw [if_neg h]; rfl⟩
    split
    · exact Or.inl ⟨_, rfl⟩
    · exact Or.inr rfl

/-- **C146, one item, by external id** (exact behaviour): with `k ≥ 1` every request of at least one user raises:
`TypeError` (an array is looked up in a dictionary) if the first user has still to view the item, else
`ValueError`. -/
theorem C146_single_external (hv : ViewOk v users items) (hs : ScoresOk v score f) (b : Bool)
    (h1 : items.length = 1) (u : ℤ) (us : List ℤ) (hus : ∀ x ∈ u :: us, x ∈ users) (k : ℕ) (hk : 1 ≤ k) :
    recommend b argp v score (u :: us) k true false =
      .error (if unseenCount v users u = 1 then .typeError else .valueError) := by
  rw [recommend_single hv hs b false h1 (u :: us) hus k, List.mapM_cons]
  by_cases hu : unseenCount v users u = 1
  · rw [if_pos hu, if_pos hu]
    rfl
  · rw [if_neg hu, if_neg hu, if_neg (by simp), if_neg (by omega)]
    rfl

/-- **C146 (partial).** For at least one item asked for and a catalogue of at least one item (two with filtering), a
request for known users who all have enough items left succeeds and every row has `min k n` different items. Missing:
`k = 0` and the filtered catalogue of one item, see `C146_zero`, `C146_single_internal`, `C146_single_external` for
what happens there, and `C146_violated`. -/
theorem C146_enough_partial (k : ℕ) (filt : Bool) (h : RecSetting argp v users items score f k filt)
    (b internal : Bool) (us : List ℤ) (hus : ∀ u ∈ us, u ∈ users)
    (hc : ∀ u ∈ us, min k items.length ≤ choices v users items filt u) :
    ∃ res, recommend b argp v score us k filt internal = .ok res ∧ res.length = us.length ∧
      ∀ row ∈ res, row.length = min k items.length ∧ row.Nodup := by
  obtain ⟨res, hres⟩ := (C21_exact_failure h b internal us).2.2 hus (fun hf u hu => by
    have := hc u hu
    rw [hf] at this
    exact this)
  have := C18_k_distinct_items h b internal us res hres
  exact ⟨res, hres, this.1, fun row hr => ⟨(this.2 row hr).1, (this.2 row hr).2.1⟩⟩

/-- two users, two items; the first user has viewed one of them -/
private def edgeView : RecView :=
  ⟨2, 2, ⟨getContMappingStruct [70, 71] 0, getContMappingStruct [10, 11] 0⟩, [(0, 1)]⟩

/-- two users, one item, viewed by the second user -/
private def edgeSingle : RecView :=
  ⟨2, 1, ⟨getContMappingStruct [70, 71] 0, getContMappingStruct [10] 0⟩, [(1, 0)]⟩

/-- **C146 is violated** (also with a correct partial sort): asked for no items, `recommend` raises `ValueError`; asked
for the only item of the catalogue, which the user has not viewed, it raises `TypeError`. -/
theorem C146_violated :
    ArgPartOk lazyArgp ∧
    recommend true lazyArgp edgeView (fun _ _ => .ok [3, 5]) [71] 0 true false = .error .valueError ∧
    choices edgeView [70, 71] [10, 11] true 71 = 2 ∧
    recommend true lazyArgp edgeSingle (fun _ _ => .ok [3]) [70] 1 true false = .error .typeError ∧
    choices edgeSingle [70, 71] [10] true 70 = 1 := by
  refine ⟨lazyArgp_ok, ?_, ?_, ?_, ?_⟩ <;> decide +kernel

/-- user 70 has a single item left: nothing is asked for, nothing is returned -/
example : recommend false lazyArgp edgeView (fun _ _ => .ok [3, 5]) [70] 0 true false = .ok [[]] := by
  decide +kernel

/-- by index the only item is recommended -/
example : recommend false lazyArgp edgeSingle (fun _ _ => .ok [3]) [70] 4 true true = .ok [[0]] ∧
    recommend false lazyArgp edgeSingle (fun _ _ => .ok [3]) [70, 71] 4 true true = .error .valueError := by
  refine ⟨?_, ?_⟩ <;> decide +kernel

/-- the setting of the theorems at `edgeSingle` -/
example : ViewOk edgeSingle [70, 71] [10] ∧ ScoresOk edgeSingle (fun _ _ => .ok [3]) (fun _ _ => [3]) := by
  refine ⟨⟨represents_start_zero _ (by decide), represents_start_zero _ (by decide), rfl, rfl, ?_⟩, fun _ _ _ => ⟨rfl, rfl⟩⟩
  decide

end DynCF
