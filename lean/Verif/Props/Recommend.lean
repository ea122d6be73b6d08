/- Properties C17-C22: recommendations. -/
import Verif.Lemmas.Recommend

set_option linter.unusedSectionVars false
namespace DynCF
variable {K : Type} [LinearOrder K] [Inhabited K]

/-- The setting of C17-C21: a consistent model, scores for every known user, a partial sort that
meets its contract, at least one recommendation asked for, a non-empty catalogue (at least two
items when viewed items are filtered). -/
structure RecSetting (argp : ArgPart K) (v : RecView) (users items : List ℤ)
    (score : ℕ → ℤ → PyM (List K)) (f : ℕ → ℕ → List K) (k : ℕ) (filt : Bool) : Prop where
  argp : ArgPartOk argp
  view : ViewOk v users items
  scores : ScoresOk v score f
  k : 1 ≤ k
  nonempty : 1 ≤ items.length
  nonempty2 : filt = true → 2 ≤ items.length

theorem RecSetting.pref {argp : ArgPart K} {v : RecView} {users items : List ℤ}
    {score : ℕ → ℤ → PyM (List K)} {f : ℕ → ℕ → List K} {k : ℕ} {filt : Bool}
    (h : RecSetting argp v users items score f k filt) :
    ∃ p, getPref v filt = .ok p ∧
      (filt = true → p = fun u i => v.history.countP fun q => decide (q = (u, i))) := by
  cases filt
  · exact ⟨_, rfl, by simp⟩
  · exact ⟨_, historyCsr_ok h.view, fun _ => rfl⟩

/-- Outcome for one known user. -/
theorem RecSetting.row {argp : ArgPart K} {v : RecView} {users items : List ℤ}
    {score : ℕ → ℤ → PyM (List K)} {f : ℕ → ℕ → List K} {k : ℕ} {filt : Bool}
    (h : RecSetting argp v users items score f k filt) (internal : Bool) (p : ℤ → ℤ → ℕ)
    (hp : filt = true → p = fun u i => v.history.countP fun q => decide (q = (u, i)))
    (i a : ℕ) (ha : a < v.nUsers) :
    (min k v.nItems ≤ (allowedIdx v filt a).length →
      ∃ c, CandSpec v (f i a) filt a (min k v.nItems) c ∧
        (score i a >>= fun rec => recommendRow argp v p rec (min k v.nItems) filt internal a) =
          .ok (showRow items internal c)) ∧
    ((allowedIdx v filt a).length < min k v.nItems →
      (score i a >>= fun rec => recommendRow argp v p rec (min k v.nItems) filt internal a) =
        .error .valueError) := by
  obtain ⟨h1, h2⟩ := h.scores i a ha
  rw [h1, except_bind_ok]
  have := h.nonempty; have := h.k; have hn := h.view.nItems
  exact recommendRow_spec argp h.argp h.view p filt internal hp
    (by intro hf; have := h.nonempty2 hf; omega) (f i a) h2 a ha (min k v.nItems) (by omega)

theorem represents_lookup {m : Mapping ℤ} {ids : List ℤ} (h : Represents m ids) {x i : ℤ}
    (hx : m.old2new.get? x = some i) : ∃ a : ℕ, i = a ∧ ids[a]? = some x ∧ a < ids.length := by
  obtain ⟨a, rfl, ha⟩ := (h.old2new x i).1 hx
  exact ⟨a, rfl, ha, (List.getElem?_eq_some_iff.1 ha).1⟩

/-- What every returned row is. -/
theorem RecSetting.result {argp : ArgPart K} {v : RecView} {users items : List ℤ}
    {score : ℕ → ℤ → PyM (List K)} {f : ℕ → ℕ → List K} {k : ℕ} {filt : Bool}
    (h : RecSetting argp v users items score f k filt) (b internal : Bool) (us : List ℤ)
    (res : List (List ℤ)) (hres : recommend b argp v score us k filt internal = .ok res) :
    res.length = us.length ∧ ∀ i u row, us[i]? = some u → res[i]? = some row →
      ∃ a c, users[a]? = some u ∧ a < v.nUsers ∧ CandSpec v (f i a) filt a (min k v.nItems) c ∧
        row = showRow items internal c := by
  obtain ⟨p, hp, hp'⟩ := h.pref
  obtain ⟨hl, hrows⟩ := recommend_rows b argp v score us k filt internal p hp res hres
  refine ⟨hl, ?_⟩
  intro i u row hu hrow
  obtain ⟨a', ha', hr⟩ := hrows i u row hu hrow
  obtain ⟨a, rfl, hua, hlt⟩ := represents_lookup h.view.user ha'
  have hlt' : a < v.nUsers := by rw [h.view.nUsers]; exact hlt
  obtain ⟨hok, herr⟩ := h.row internal p hp' i a hlt'
  by_cases hc : min k v.nItems ≤ (allowedIdx v filt a).length
  · obtain ⟨c, hcs, he⟩ := hok hc
    rw [he] at hr
    exact ⟨a, c, hua, hlt', hcs, (Except.ok.inj hr).symm⟩
  · rw [herr (by omega)] at hr; cases hr

theorem shown_iff {items : List ℤ} {internal : Bool} {c : List ℕ} (hc : ∀ j ∈ c, j < items.length)
    (x : ℤ) : x ∈ showRow items internal c ↔ ∃ j ∈ c, Shown items internal j x := by
  unfold showRow Shown
  rw [List.mem_map]
  constructor
  · rintro ⟨j, hj, rfl⟩
    refine ⟨j, hj, hc j hj, ?_⟩
    cases internal
    · simp [List.getD_eq_getElem?_getD, hc j hj]
    · simp
  · rintro ⟨j, hj, _, hx⟩
    refine ⟨j, hj, ?_⟩
    cases internal
    · simp only [Bool.false_eq_true, if_false] at hx ⊢
      simp [List.getD_eq_getElem?_getD, hx]
    · simp only [if_true] at hx ⊢; exact hx.symm

theorem shown_inj {items : List ℤ} (hnd : items.Nodup) {internal : Bool} {j j' : ℕ} {x : ℤ}
    (h : Shown items internal j x) (h' : Shown items internal j' x) : j = j' := by
  obtain ⟨h1, h2⟩ := h
  obtain ⟨h1', h2'⟩ := h'
  cases internal
  · simp only [Bool.false_eq_true, if_false] at h2 h2'
    rw [List.getElem?_eq_getElem h1, Option.some.injEq] at h2
    rw [List.getElem?_eq_getElem h1', Option.some.injEq] at h2'
    exact (List.Nodup.getElem_inj_iff hnd).1 (h2.trans h2'.symm)
  · simp only [if_true] at h2 h2'; omega

theorem recorded_iff {v : RecView} {users items : List ℤ} (hv : ViewOk v users items) {u : ℤ}
    {a : ℕ} (ha : users[a]? = some u) (j : ℕ) :
    Recorded v users u j ↔ ((a : ℤ), (j : ℤ)) ∈ v.history := by
  constructor
  · rintro ⟨a', ha', hm⟩
    have : a' = a := by
      have h1 := (List.getElem?_eq_some_iff.1 ha).1
      have h1' := (List.getElem?_eq_some_iff.1 ha').1
      rw [List.getElem?_eq_getElem h1, Option.some.injEq] at ha
      rw [List.getElem?_eq_getElem h1', Option.some.injEq] at ha'
      exact (List.Nodup.getElem_inj_iff hv.user.nodup).1 (ha'.trans ha.symm)
    rw [← this]; exact hm
  · intro h; exact ⟨a, ha, h⟩

section
variable {argp : ArgPart K} {v : RecView} {users items : List ℤ}
    {score : ℕ → ℤ → PyM (List K)} {f : ℕ → ℕ → List K} {k : ℕ} {filt : Bool}

/-- **C17** No returned item - shown by index or by external id - is recorded in the history of
the user it is recommended to. -/
theorem C17_filtered (h : RecSetting argp v users items score f k true) (b internal : Bool)
    (us : List ℤ) (res : List (List ℤ))
    (hres : recommend b argp v score us k true internal = .ok res)
    (i : ℕ) (u : ℤ) (row : List ℤ) (hu : us[i]? = some u) (hrow : res[i]? = some row) :
    ∀ x ∈ row, ∀ j, Shown items internal j x → ¬ Recorded v users u j := by
  obtain ⟨a, c, hua, hlt, hcs, rfl⟩ := (h.result b internal us res hres).2 i u row hu hrow
  have hcl : ∀ j ∈ c, j < items.length := fun j hj => by
    have := (mem_allowedIdx v true a j).1 (hcs.allowed j hj)
    rw [← h.view.nItems]; exact this.1
  intro x hx j hj
  obtain ⟨j', hj', hs⟩ := (shown_iff hcl x).1 hx
  have := shown_inj h.view.item.nodup hs hj
  subst this
  rw [recorded_iff h.view hua]
  exact ((mem_allowedIdx v true a j').1 (hcs.allowed j' hj')).2 rfl

/-- **C18** One row per requested user, in request order, each with exactly `min k n_items`
pairwise distinct items of the catalogue. -/
theorem C18_k_distinct_items (h : RecSetting argp v users items score f k filt) (b internal : Bool)
    (us : List ℤ) (res : List (List ℤ))
    (hres : recommend b argp v score us k filt internal = .ok res) :
    res.length = us.length ∧ ∀ row ∈ res, row.length = min k items.length ∧ row.Nodup ∧
      ∀ x ∈ row, ∃ j, Shown items internal j x := by
  obtain ⟨hl, hr⟩ := h.result b internal us res hres
  refine ⟨hl, ?_⟩
  intro row hrow
  obtain ⟨i, hi⟩ := List.mem_iff_getElem?.1 hrow
  have hi' : i < us.length := by rw [← hl]; exact (List.getElem?_eq_some_iff.1 hi).1
  obtain ⟨a, c, hua, hlt, hcs, rfl⟩ := hr i _ row (List.getElem?_eq_getElem hi') hi
  have hcl : ∀ j ∈ c, j < items.length := fun j hj => by
    have := (mem_allowedIdx v filt a j).1 (hcs.allowed j hj)
    rw [← h.view.nItems]; exact this.1
  refine ⟨?_, ?_, ?_⟩
  · unfold showRow; rw [List.length_map, hcs.length, h.view.nItems]
  · unfold showRow
    apply List.Nodup.map_on _ hcs.nodup
    intro x hx y hy hxy
    have hx' := hcl x hx
    have hy' := hcl y hy
    apply shown_inj h.view.item.nodup (internal := internal)
      (x := if internal = true then (x : ℤ) else items.getD x 0)
    · refine ⟨hx', ?_⟩
      cases internal <;> simp [List.getD_eq_getElem?_getD, hx']
    · refine ⟨hy', ?_⟩
      rw [hxy]
      cases internal <;> simp [List.getD_eq_getElem?_getD, hy']
  · intro x hx
    obtain ⟨j, _, hs⟩ := (shown_iff hcl x).1 hx
    exact ⟨j, hs⟩

/-- **C19** Any allowed catalogue item that is not returned scores no higher than any returned
one. `f i a` are the scores computed for the request number `i` of the user with index `a`. -/
theorem C19_optimal (h : RecSetting argp v users items score f k filt) (b internal : Bool)
    (us : List ℤ) (res : List (List ℤ))
    (hres : recommend b argp v score us k filt internal = .ok res)
    (i : ℕ) (u : ℤ) (row : List ℤ) (hu : us[i]? = some u) (hrow : res[i]? = some row) :
    ∃ a, users[a]? = some u ∧
      ∀ x ∈ row, ∀ j, Shown items internal j x →
      ∀ j' < items.length, (filt = true → ¬ Recorded v users u j') →
        (∀ y ∈ row, ¬ Shown items internal j' y) →
        ∀ s s', (f i a)[j]? = some s → (f i a)[j']? = some s' → s' ≤ s := by
  obtain ⟨a, c, hua, hlt, hcs, rfl⟩ := (h.result b internal us res hres).2 i u row hu hrow
  have hcl : ∀ j ∈ c, j < items.length := fun j hj => by
    have := (mem_allowedIdx v filt a j).1 (hcs.allowed j hj)
    rw [← h.view.nItems]; exact this.1
  refine ⟨a, hua, ?_⟩
  intro x hx j hj j' hj' hallowed hnot s s' hs hs'
  obtain ⟨j0, hj0, hsh⟩ := (shown_iff hcl x).1 hx
  have := shown_inj h.view.item.nodup hsh hj
  subst this
  apply hcs.optimal j0 hj0 j' _ _ s' s hs' hs
  · rw [mem_allowedIdx]
    refine ⟨by rw [h.view.nItems]; exact hj', ?_⟩
    intro hf
    rw [← recorded_iff h.view hua]; exact hallowed hf
  · intro hj'c
    obtain ⟨y, hy⟩ : ∃ y, Shown items internal j' y := by
      cases internal
      · exact ⟨items[j'], hj', by simp [hj']⟩
      · exact ⟨j', hj', by simp⟩
    exact hnot y ((shown_iff hcl y).2 ⟨j', hj'c, hy⟩) hy

/-- number of catalogue items not recorded for user `u` -/
def unseenCount (v : RecView) (users : List ℤ) (u : ℤ) : ℕ :=
  (List.range v.nItems).countP fun j : ℕ =>
    decide ((((users.idxOf u : ℕ) : ℤ), (j : ℤ)) ∉ v.history)

theorem allowed_length (hv : ViewOk v users items) {u : ℤ} {a : ℕ} (ha : users[a]? = some u) :
    (allowedIdx v true a).length = unseenCount v users u ∧
    (allowedIdx v false a).length = v.nItems := by
  have hlt := (List.getElem?_eq_some_iff.1 ha).1
  have : users.idxOf u = a := by
    rw [List.getElem?_eq_getElem hlt, Option.some.injEq] at ha
    rw [← ha]; exact List.Nodup.idxOf_getElem hv.user.nodup a hlt
  constructor
  · unfold allowedIdx unseenCount
    rw [this, List.countP_eq_length_filter]
    simp
  · rw [allowedIdx_false, List.length_range]

/-- **C21** Exactly when `recommend` fails: an unknown user raises `KeyError`; otherwise too few
unseen items for some requested user raise `ValueError`; otherwise it returns. -/
theorem C21_exact_failure (h : RecSetting argp v users items score f k filt) (b internal : Bool)
    (us : List ℤ) :
    ((∃ u ∈ us, u ∉ users) → recommend b argp v score us k filt internal = .error .keyError) ∧
    ((∀ u ∈ us, u ∈ users) → (filt = true ∧ ∃ u ∈ us, unseenCount v users u < min k items.length) →
      recommend b argp v score us k filt internal = .error .valueError) ∧
    ((∀ u ∈ us, u ∈ users) → (filt = true → ∀ u ∈ us, min k items.length ≤ unseenCount v users u) →
      ∃ res, recommend b argp v score us k filt internal = .ok res) := by
  obtain ⟨p, hp, hp'⟩ := h.pref
  rw [recommend_eq b argp v score us k filt internal p hp]
  have hknown : ∀ u, u ∈ users ↔ ∃ a, v.maps.user.old2new.get? u = some a := by
    intro u
    constructor
    · intro hu
      obtain ⟨a, ha⟩ := List.mem_iff_getElem?.1 hu
      exact ⟨a, (h.view.user.old2new u a).2 ⟨a, rfl, ha⟩⟩
    · rintro ⟨a, ha⟩
      obtain ⟨_, _, h2, _⟩ := represents_lookup h.view.user ha
      exact List.mem_of_getElem? h2
  have hmapped : (∀ u ∈ us, u ∈ users) →
      ∃ mapped, us.mapM (fun u => v.maps.user.old2new.getItem u) = .ok mapped := by
    intro hall
    cases hm : us.mapM fun u => v.maps.user.old2new.getItem u with
    | ok m => exact ⟨m, rfl⟩
    | error e =>
      obtain ⟨u, hu, he⟩ := mapM_error _ _ _ hm
      obtain ⟨a, ha⟩ := (hknown u).1 (hall u hu)
      rw [(getItem_ok_iff _ _ _).2 ha] at he
      cases he
  -- each mapped entry is a valid index of its user
  have hentry : ∀ mapped, us.mapM (fun u => v.maps.user.old2new.getItem u) = .ok mapped →
      ∀ iu ∈ enumNat 0 mapped, ∃ (u : ℤ) (a : ℕ), u ∈ us ∧ users[a]? = some u ∧ iu.2 = (a : ℤ) ∧
        a < v.nUsers := by
    intro mapped hm iu hiu
    rw [mapM_ok_iff] at hm
    obtain ⟨i, hi⟩ := List.mem_iff_getElem?.1 hiu
    rw [enumNat_getElem?] at hi
    cases hmi : mapped[i]? with
    | none => rw [hmi] at hi; simp at hi
    | some m =>
      rw [hmi] at hi
      simp only [Option.map_some, Option.some.injEq] at hi
      have hil : i < us.length := by
        rw [hm.length_eq]; exact (List.getElem?_eq_some_iff.1 hmi).1
      have hg := forall₂_getElem? hm i (List.getElem?_eq_getElem hil) hmi
      rw [getItem_ok_iff] at hg
      obtain ⟨a, rfl, hua, hlt⟩ := represents_lookup h.view.user hg
      exact ⟨_, a, List.getElem_mem hil, hua, by rw [← hi], by rw [h.view.nUsers]; exact hlt⟩
  refine ⟨?_, ?_, ?_⟩
  · rintro ⟨u, hu, hnot⟩
    cases hm : us.mapM fun u => v.maps.user.old2new.getItem u with
    | error e =>
      obtain ⟨u', _, he⟩ := mapM_error _ _ _ hm
      rw [getItem_error] at he
      rw [except_bind_error, he.1]
    | ok m =>
      exfalso
      rw [mapM_ok_iff] at hm
      obtain ⟨i, hi⟩ := List.mem_iff_getElem?.1 hu
      obtain ⟨a, _, ha⟩ := forall₂_exists_right hm i hi
      exact hnot ((hknown u).2 ⟨a, (getItem_ok_iff _ _ _).1 ha⟩)
  · rintro hall ⟨rfl, u, hu, hfew⟩
    obtain ⟨mapped, hm⟩ := hmapped hall
    rw [hm, except_bind_ok]
    cases hr : (enumNat 0 mapped).mapM fun iu => score iu.1 iu.2 >>= fun rec =>
        recommendRow argp v p rec (min k v.nItems) true internal iu.2 with
    | error e =>
      obtain ⟨iu, hiu, he⟩ := mapM_error _ _ _ hr
      obtain ⟨u', a, _, hua, ha, hlt⟩ := hentry mapped hm iu hiu
      rw [ha] at he
      obtain ⟨hok, herr⟩ := h.row internal p hp' iu.1 a hlt
      by_cases hc : min k v.nItems ≤ (allowedIdx v true a).length
      · obtain ⟨c, _, hcc⟩ := hok hc
        rw [hcc] at he; cases he
      · rw [herr (by omega)] at he; rw [← Except.error.inj he]
    | ok res =>
      exfalso
      rw [mapM_ok_iff] at hm hr
      obtain ⟨i, hi⟩ := List.mem_iff_getElem?.1 hu
      obtain ⟨m, hmi, ha⟩ := forall₂_exists_right hm i hi
      rw [getItem_ok_iff] at ha
      obtain ⟨a, rfl, hua, hlt⟩ := represents_lookup h.view.user ha
      have he : (enumNat 0 mapped)[i]? = some (i, (a : ℤ)) := by
        rw [enumNat_getElem?, hmi]; simp
      obtain ⟨row, _, hrow⟩ := forall₂_exists_right hr i he
      have hlt' : a < v.nUsers := by rw [h.view.nUsers]; exact hlt
      have := (h.row internal p hp' i a hlt').2 (by
        rw [(allowed_length h.view hua).1, h.view.nItems]; exact hfew)
      rw [this] at hrow
      cases hrow
  · intro hall hmany
    obtain ⟨mapped, hm⟩ := hmapped hall
    rw [hm, except_bind_ok]
    cases hr : (enumNat 0 mapped).mapM fun iu => score iu.1 iu.2 >>= fun rec =>
        recommendRow argp v p rec (min k v.nItems) filt internal iu.2 with
    | ok res => exact ⟨res, rfl⟩
    | error e =>
      exfalso
      obtain ⟨iu, hiu, he⟩ := mapM_error _ _ _ hr
      obtain ⟨u, a, hu, hua, ha, hlt⟩ := hentry mapped hm iu hiu
      rw [ha] at he
      have hc : min k v.nItems ≤ (allowedIdx v filt a).length := by
        cases filt
        · rw [(allowed_length h.view hua).2]; omega
        · rw [(allowed_length h.view hua).1, h.view.nItems]; exact hmany rfl u hu
      obtain ⟨c, _, hcc⟩ := (h.row internal p hp' iu.1 a hlt).1 hc
      rw [hcc] at he; cases he

/-- **C20**, what holds: the item returned last has the lowest score of the row; in particular rows
of one or two items are ranked. Missing: the order of the other items (see `C20_violated`). -/
theorem C20_ranked_partial (h : RecSetting argp v users items score f k filt) (b internal : Bool)
    (us : List ℤ) (res : List (List ℤ))
    (hres : recommend b argp v score us k filt internal = .ok res)
    (i : ℕ) (u : ℤ) (row : List ℤ) (hu : us[i]? = some u) (hrow : res[i]? = some row) :
    ∃ a, users[a]? = some u ∧ ∀ x ∈ row, ∀ l, row.getLast? = some l →
      ∀ j jl, Shown items internal j x → Shown items internal jl l →
        ∀ s s', (f i a)[j]? = some s → (f i a)[jl]? = some s' → s' ≤ s := by
  obtain ⟨a, c, hua, hlt, hcs, rfl⟩ := (h.result b internal us res hres).2 i u row hu hrow
  have hcl : ∀ j ∈ c, j < items.length := fun j hj => by
    have := (mem_allowedIdx v filt a j).1 (hcs.allowed j hj)
    rw [← h.view.nItems]; exact this.1
  refine ⟨a, hua, ?_⟩
  intro x hx l hl j jl hj hjl s s' hs hs'
  obtain ⟨j0, hj0, hsh⟩ := (shown_iff hcl x).1 hx
  have := shown_inj h.view.item.nodup hsh hj
  subst this
  unfold showRow at hl
  rw [List.getLast?_map] at hl
  cases hcl' : c.getLast? with
  | none => rw [hcl'] at hl; simp at hl
  | some l' =>
    rw [hcl'] at hl
    simp only [Option.map_some, Option.some.injEq] at hl
    have hl'c := List.mem_of_getLast? hcl'
    have hsl : Shown items internal l' l := by
      refine ⟨hcl l' hl'c, ?_⟩
      rw [← hl]
      cases internal <;> simp [List.getD_eq_getElem?_getD, hcl l' hl'c]
    have := shown_inj h.view.item.nodup hsl hjl
    subst this
    exact hcs.last j0 hj0 l' hcl' s' s hs' hs

end

omit [LinearOrder K] [Inhabited K] in
/-- **C22** When the scores of a user do not depend on the position in the request (all models
except the random one), the row of a user is the row of the request for that user alone. -/
theorem C22_users_independent (b internal filt : Bool) (argp : ArgPart K) (v : RecView)
    (sc : ℤ → PyM (List K)) (us : List ℤ) (k : ℕ) (res : List (List ℤ))
    (hres : recommend b argp v (fun _ => sc) us k filt internal = .ok res)
    (i : ℕ) (u : ℤ) (hu : us[i]? = some u) :
    ∃ row, res[i]? = some row ∧ recommend b argp v (fun _ => sc) [u] k filt internal = .ok [row] := by
  obtain ⟨p, hp⟩ := recommend_ok_pref b argp v _ us k filt internal res hres
  obtain ⟨hl, hrows⟩ := recommend_rows b argp v _ us k filt internal p hp res hres
  have hi : i < res.length := by rw [hl]; exact (List.getElem?_eq_some_iff.1 hu).1
  refine ⟨res[i], List.getElem?_eq_getElem hi, ?_⟩
  obtain ⟨a, ha, hrow⟩ := hrows i u _ hu (List.getElem?_eq_getElem hi)
  rw [recommend_eq b argp v _ [u] k filt internal p hp]
  simp only [List.mapM_cons, List.mapM_nil]
  rw [(getItem_ok_iff _ _ _).2 ha]
  show List.mapM (m := PyM) (fun iu : ℕ × ℤ => sc iu.2 >>= fun rec =>
    recommendRow argp v p rec (min k v.nItems) filt internal iu.2) (enumNat 0 [a]) = _
  simp only [enumNat, List.mapM_cons, List.mapM_nil]
  rw [hrow]
  rfl

/-! ### C20 is violated -/

/-- sort the indices by score (stable) -/
def sortedIdx (a : List ℤ) : List ℕ :=
  stableSort (fun i j => decide (a.getD i 0 ≤ a.getD j 0)) (List.range a.length)

/-- A partial sort meeting the contract: on `[1,3,2]` with `k = 3` it leaves the array as it is
(only the element at place 0 has to be in its sorted place, and the smallest element is already
there; this is also what numpy's selection by repeated minimum does), otherwise it sorts. -/
def lazyArgp : ArgPart ℤ := fun a k => if a = [1, 3, 2] ∧ k = 3 then [0, 1, 2] else sortedIdx a

theorem sortedIdx_ok (a : List ℤ) (k : ℕ) : IsArgPartition a k (sortedIdx a) := by
  refine ⟨stableSort_perm _ _, ?_⟩
  intro i j pi pj x y hi hj hx hy hik hkj
  have hs : (sortedIdx a).Pairwise (fun i j => decide (a.getD i 0 ≤ a.getD j 0) = true) := by
    apply stableSort_sorted
    · intro a b c; simp only [decide_eq_true_eq]; exact le_trans
    · intro a b; simp only [decide_eq_true_eq]; exact le_total _ _
  have ex : a.getD pi 0 = x := by simp [List.getD_eq_getElem?_getD, hx]
  have ey : a.getD pj 0 = y := by simp [List.getD_eq_getElem?_getD, hy]
  rcases Nat.lt_or_ge i j with hlt | hge
  · obtain ⟨hi1, hi2⟩ := List.getElem?_eq_some_iff.1 hi
    obtain ⟨hj1, hj2⟩ := List.getElem?_eq_some_iff.1 hj
    have := List.pairwise_iff_getElem.1 hs i j hi1 hj1 hlt
    rw [hi2, hj2, ex, ey] at this
    simpa using this
  · have : i = j := by omega
    subst this
    rw [hi, Option.some.injEq] at hj
    subst hj
    rw [hx, Option.some.injEq] at hy
    exact le_of_eq hy

theorem lazyArgp_ok : ArgPartOk lazyArgp := by
  intro a k hk hka
  unfold lazyArgp
  split
  · rename_i h
    obtain ⟨rfl, rfl⟩ := h
    refine ⟨by decide, ?_⟩
    intro i j pi pj x y hi hj hx hy hik hkj
    have : i = 0 := by simp at hik; exact hik
    subst this
    simp at hi
    subst hi
    simp at hx
    subst hx
    rcases j with _ | _ | _ | j <;> simp at hj
    · subst hj; simp at hy; omega
    · subst hj; simp at hy; omega
    · subst hj; simp at hy; omega
  · exact sortedIdx_ok a k

private def exView : RecView :=
  ⟨1, 3, ⟨getContMappingStruct [70] 0, getContMappingStruct [10, 11, 12] 0⟩, []⟩

private def exScores : List ℤ := [1, 3, 2]

/-- **C20 is violated**: rows are not ranked by decreasing score. With scores 1, 3, 2 for items
10, 11, 12 the row returned is 12 (score 2), 11 (score 3), 10 (score 1), although the partial sort
meets its contract on every input. -/
theorem C20_violated :
    ArgPartOk lazyArgp ∧
    recommend true lazyArgp exView (fun _ _ => .ok exScores) [70] 3 false false =
      .ok [[12, 11, 10]] ∧
    exScores[2]? = some 2 ∧ exScores[1]? = some 3 := by
  refine ⟨lazyArgp_ok, ?_, rfl, rfl⟩
  decide +kernel

/-! Concrete instance of the setting. -/
private def exView2 : RecView :=
  ⟨2, 3, ⟨getContMappingStruct [70, 71] 0, getContMappingStruct [10, 11, 12] 0⟩, [(0, 1), (1, 2), (0, 1)]⟩

theorem exView2_setting : RecSetting lazyArgp exView2 [70, 71] [10, 11, 12]
    (fun _ a => .ok (if a = 0 then [5, 9, 7] else [1, 2, 8])) (fun _ a => if a = 0 then [5, 9, 7] else [1, 2, 8])
    2 true where
  argp := lazyArgp_ok
  view := by
    refine ⟨represents_start_zero _ (by decide), represents_start_zero _ (by decide), rfl, rfl, ?_⟩
    decide
  scores := by
    intro i a ha
    refine ⟨?_, ?_⟩
    · simp
    · show (if a = 0 then [5, 9, 7] else [1, 2, 8] : List ℤ).length = 3
      split <;> rfl
  k := by decide
  nonempty := by decide
  nonempty2 := by decide

example : recommend false lazyArgp exView2
    (fun _ a => .ok (if a = 0 then [5, 9, 7] else [1, 2, 8])) [71, 70] 2 true false =
    .ok [[11, 10], [12, 10]] := by decide +kernel
example : recommend true lazyArgp exView2
    (fun _ a => .ok (if a = 0 then [5, 9, 7] else [1, 2, 8])) [71, 70] 3 true false =
    .error .valueError := by decide +kernel
example : recommend true lazyArgp exView2
    (fun _ a => .ok (if a = 0 then [5, 9, 7] else [1, 2, 8])) [71, 72] 2 true false =
    .error .keyError := by decide +kernel

end DynCF
