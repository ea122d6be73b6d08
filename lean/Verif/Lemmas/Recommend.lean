/- Helper lemmas for recommendations. -/
import Verif.Spec.Recommend
import Verif.Lemmas.Evaluation
import Verif.Lemmas.Sort

namespace DynCF
variable {K : Type}

theorem maskSelect_map_map {α β : Type} (l : List α) (h : α → β) (p : α → Bool) :
    maskSelect (l.map h) (l.map p) = (l.filter p).map h := by
  induction l with
  | nil => rfl
  | cons a l ih =>
    simp only [List.map_cons, maskSelect, List.filter_cons]
    cases p a <;> simp [ih]

/-- what the partial sort selects -/
theorem argp_selection [LinearOrder K] (argp : ArgPart K) (hargp : ArgPartOk argp) (a : List K)
    (k : ℕ) (hk : 1 ≤ k) (hka : k ≤ a.length) :
    let c := (sliceLast (argp a k) k).reverse
    c.length = k ∧ c.Nodup ∧ (∀ j ∈ c, j < a.length) ∧
    (∀ j ∈ c, ∀ j' < a.length, j' ∉ c → ∀ x y, a[j']? = some x → a[j]? = some y → x ≤ y) ∧
    (∀ j ∈ c, ∀ l, c.getLast? = some l → ∀ x y, a[l]? = some x → a[j]? = some y → x ≤ y) := by
  intro c
  obtain ⟨hperm, hord⟩ := hargp a k hk hka
  have hlen : (argp a k).length = a.length := by rw [hperm.length_eq, List.length_range]
  have hnd : (argp a k).Nodup := hperm.nodup_iff.2 List.nodup_range
  have hc : c = ((argp a k).drop (a.length - k)).reverse := by
    show (sliceLast (argp a k) k).reverse = _
    unfold sliceLast
    rw [if_neg (by omega), hlen]
  have hmem : ∀ j, j ∈ c ↔ ∃ i, a.length - k ≤ i ∧ (argp a k)[i]? = some j := by
    intro j
    rw [hc, List.mem_reverse, List.mem_iff_getElem?]
    constructor
    · rintro ⟨i, hi⟩
      rw [List.getElem?_drop] at hi
      exact ⟨_, by omega, hi⟩
    · rintro ⟨i, hi, h⟩
      refine ⟨i - (a.length - k), ?_⟩
      rw [List.getElem?_drop]
      rw [show a.length - k + (i - (a.length - k)) = i by omega]; exact h
  refine ⟨?_, ?_, ?_, ?_, ?_⟩
  · rw [hc, List.length_reverse, List.length_drop, hlen]; omega
  · rw [hc, List.nodup_reverse]; exact hnd.sublist (List.drop_sublist _ _)
  · intro j hj
    obtain ⟨i, _, hi⟩ := (hmem j).1 hj
    have : j ∈ argp a k := List.mem_of_getElem? hi
    rw [hperm.mem_iff, List.mem_range] at this
    exact this
  · intro j hj j' hj' hnot x y hx hy
    obtain ⟨i, hi, hij⟩ := (hmem j).1 hj
    have : j' ∈ argp a k := by rw [hperm.mem_iff, List.mem_range]; exact hj'
    obtain ⟨i', hi'⟩ := List.mem_iff_getElem?.1 this
    have hlt : i' < a.length - k := by
      by_contra hge
      exact hnot ((hmem j').2 ⟨i', by omega, hi'⟩)
    exact hord i' i j' j x y hi' hij hx hy (by omega) hi
  · intro j hj l hl x y hx hy
    obtain ⟨i, hi, hij⟩ := (hmem j).1 hj
    have : (argp a k)[a.length - k]? = some l := by
      rw [hc, List.getLast?_reverse, List.head?_eq_getElem?, List.getElem?_drop] at hl
      simpa using hl
    exact hord _ i l j x y this hij hx hy (le_refl _) hi

/-- the catalogue indices allowed for a user -/
def allowedIdx (v : RecView) (filt : Bool) (u : ℤ) : List ℕ :=
  (List.range v.nItems).filter fun i => !filt || decide ((u, (i : ℤ)) ∉ v.history)

theorem mem_allowedIdx (v : RecView) (filt : Bool) (u : ℤ) (j : ℕ) :
    j ∈ allowedIdx v filt u ↔ j < v.nItems ∧ (filt = true → (u, (j : ℤ)) ∉ v.history) := by
  unfold allowedIdx
  rw [List.mem_filter, List.mem_range]
  cases filt <;> simp

theorem allowedIdx_nodup (v : RecView) (filt : Bool) (u : ℤ) : (allowedIdx v filt u).Nodup :=
  List.nodup_range.filter _

theorem allowedIdx_false (v : RecView) (u : ℤ) : allowedIdx v false u = List.range v.nItems := by
  unfold allowedIdx; simp

/-- What a row consists of, before translation to external ids. -/
structure CandSpec [LinearOrder K] (v : RecView) (s : List K) (filt : Bool) (u : ℤ) (k : ℕ)
    (c : List ℕ) : Prop where
  length : c.length = k
  nodup : c.Nodup
  allowed : ∀ j ∈ c, j ∈ allowedIdx v filt u
  optimal : ∀ j ∈ c, ∀ j' ∈ allowedIdx v filt u, j' ∉ c →
    ∀ x y, s[j']? = some x → s[j]? = some y → x ≤ y
  last : ∀ j ∈ c, ∀ l, c.getLast? = some l → ∀ x y, s[l]? = some x → s[j]? = some y → x ≤ y

theorem list_eq_range_map {α : Type} (s : List α) (d : α) :
    s = (List.range s.length).map fun i => s.getD i d := by
  apply List.ext_getElem
  · simp
  · intro i h1 h2
    simp [List.getD_eq_getElem?_getD, h1]

theorem mapM_npIndex {α : Type} [Inhabited α] (a : List α) (l : List ℕ) (h : ∀ j ∈ l, j < a.length) :
    l.mapM (npIndex a) = .ok (l.map fun j => a.getD j default) := by
  induction l with
  | nil => rfl
  | cons j l ih =>
    have hj : j < a.length := h j (by simp)
    have : npIndex a j = .ok (a.getD j default) := by
      unfold npIndex
      rw [List.getElem?_eq_getElem hj]
      simp [List.getD_eq_getElem?_getD, hj]
    rw [List.mapM_cons, this, except_bind_ok, ih (fun i hi => h i (List.mem_cons_of_mem _ hi))]
    rfl

/-- Selecting through a list of distinct allowed indices. -/
theorem cand_of_selection [LinearOrder K] [Inhabited K] (argp : ArgPart K) (hargp : ArgPartOk argp)
    (v : RecView) (s : List K) (filt : Bool) (u : ℤ) (k : ℕ)
    (hk : 1 ≤ k) (hka : k ≤ (allowedIdx v filt u).length) :
    CandSpec v s filt u k
      (((sliceLast (argp ((allowedIdx v filt u).map fun i => s.getD i default) k) k).reverse).map
        fun j => (allowedIdx v filt u).getD j 0) := by
  set fl := allowedIdx v filt u with hfl
  set a := fl.map fun i => s.getD i default with ha
  have hal : a.length = fl.length := by simp [ha]
  obtain ⟨h1, h2, h3, h4, h5⟩ := argp_selection argp hargp a k hk (by omega)
  set c := (sliceLast (argp a k) k).reverse with hc
  have hget : ∀ j < fl.length, fl.getD j 0 = fl[j]! := by
    intro j hj; simp [List.getD_eq_getElem?_getD, hj]
  have hfn : fl.Nodup := allowedIdx_nodup v filt u
  have hmemfl : ∀ j < fl.length, fl.getD j 0 ∈ fl := by
    intro j hj
    rw [List.getD_eq_getElem?_getD, List.getElem?_eq_getElem hj]
    exact List.getElem_mem hj
  have hval : ∀ j < fl.length, ∀ x, s[fl.getD j 0]? = some x → a[j]? = some x := by
    intro j hj x hx
    rw [ha, List.getElem?_map, List.getElem?_eq_getElem hj]
    simp only [Option.map_some]
    rw [List.getD_eq_getElem?_getD, List.getElem?_eq_getElem hj] at hx
    simp only [Option.getD_some] at hx
    simp [List.getD_eq_getElem?_getD, hx]
  refine ⟨?_, ?_, ?_, ?_, ?_⟩
  · simpa using h1
  · apply List.Nodup.map_on _ h2
    intro x hx y hy hxy
    have hx' : x < fl.length := by have := h3 x hx; omega
    have hy' : y < fl.length := by have := h3 y hy; omega
    rw [List.getD_eq_getElem?_getD, List.getElem?_eq_getElem hx', List.getD_eq_getElem?_getD,
      List.getElem?_eq_getElem hy'] at hxy
    exact (List.Nodup.getElem_inj_iff hfn).1 hxy
  · intro j hj
    obtain ⟨i, hi, rfl⟩ := List.mem_map.1 hj
    have := h3 i hi
    exact hmemfl i (by omega)
  · intro j hj j' hj' hnot x y hx hy
    obtain ⟨i, hi, rfl⟩ := List.mem_map.1 hj
    have hilt : i < fl.length := by have := h3 i hi; omega
    obtain ⟨i', hi', hji'⟩ := List.mem_iff_getElem.1 hj'
    have e : fl.getD i' 0 = j' := by
      rw [List.getD_eq_getElem?_getD, List.getElem?_eq_getElem hi']; exact hji'
    have hnot' : i' ∉ c := fun h => hnot (List.mem_map.2 ⟨i', h, e⟩)
    rw [← e] at hx
    exact h4 i hi i' (by rw [hal]; exact hi') hnot' x y (hval i' hi' x hx) (hval i hilt y hy)
  · intro j hj l hl x y hx hy
    obtain ⟨i, hi, rfl⟩ := List.mem_map.1 hj
    have hilt : i < fl.length := by have := h3 i hi; omega
    rw [List.getLast?_map] at hl
    cases hcl : c.getLast? with
    | none => rw [hcl] at hl; simp at hl
    | some l' =>
      rw [hcl] at hl
      simp only [Option.map_some, Option.some.injEq] at hl
      have hl' : l' ∈ c := List.mem_of_getLast? hcl
      have hllt : l' < fl.length := by have := h3 l' hl'; omega
      rw [← hl] at hx
      exact h5 i hi l' hcl x y (hval l' hllt x hx) (hval i hilt y hy)

/-- Translation to what is shown. -/
def showRow (items : List ℤ) (internal : Bool) (c : List ℕ) : List ℤ :=
  c.map fun j : ℕ => if internal then (j : ℤ) else items.getD j 0

theorem mapM_new2old (m : Mapping ℤ) (items : List ℤ) (hm : Represents m items) (c : List ℕ)
    (hc : ∀ j ∈ c, j < items.length) :
    (c.map fun j : ℕ => (j : ℤ)).mapM (fun j => m.new2old.getItem j) =
      .ok (c.map fun j => items.getD j 0) := by
  induction c with
  | nil => rfl
  | cons j c ih =>
    have hj := hc j (by simp)
    have : m.new2old.getItem (j : ℤ) = .ok (items.getD j 0) := by
      rw [getItem_ok_iff, hm.new2old]
      refine ⟨j, rfl, ?_⟩
      rw [List.getElem?_eq_getElem hj, List.getD_eq_getElem?_getD, List.getElem?_eq_getElem hj]
      rfl
    rw [List.map_cons, List.mapM_cons, this, except_bind_ok,
      ih (fun i hi => hc i (List.mem_cons_of_mem _ hi))]
    rfl

theorem historyCsr_ok {v : RecView} {users items : List ℤ} (hv : ViewOk v users items) :
    historyCsr v = .ok fun u i => v.history.countP fun p => decide (p = (u, i)) := by
  unfold historyCsr
  rw [if_pos]
  rw [List.all_eq_true]
  intro p hp
  simpa using hv.hist p hp

/-- Outcome of one row. -/
theorem recommendRow_spec [LinearOrder K] [Inhabited K] (argp : ArgPart K) (hargp : ArgPartOk argp)
    {v : RecView} {users items : List ℤ} (hv : ViewOk v users items) (pref : ℤ → ℤ → ℕ)
    (filt internal : Bool)
    (hpref : filt = true → pref = fun u i => v.history.countP fun p => decide (p = (u, i)))
    (hn : filt = true → v.nItems ≠ 1)
    (s : List K) (hs : s.length = v.nItems) (a : ℕ) (ha : a < v.nUsers) (k : ℕ) (hk : 1 ≤ k) :
    (k ≤ (allowedIdx v filt a).length →
      ∃ c, CandSpec v s filt a k c ∧
        recommendRow argp v pref s k filt internal a = .ok (showRow items internal c)) ∧
    ((allowedIdx v filt a).length < k →
      recommendRow argp v pref s k filt internal a = .error .valueError) := by
  have hk0 : k ≠ 0 := by omega
  -- the intermediate candidate list
  have hmask : filt = true → maskSelect s (((List.range v.nItems).map fun i : ℕ =>
      decide (pref a (i : ℤ) ≠ 0)).map fun b => !b) =
      (allowedIdx v filt a).map fun i => s.getD i default := by
    intro hf
    conv_lhs => rw [list_eq_range_map s default, hs, List.map_map]
    rw [maskSelect_map_map]
    congr 1
    unfold allowedIdx
    apply List.filter_congr
    intro i _
    rw [hpref hf, hf]
    simp only [Function.comp]
    by_cases hm : ((a : ℤ), (i : ℤ)) ∈ v.history
    · simp [hm]
    · simp [hm]
  have hmaski : filt = true → maskSelect ((List.range v.nItems).map fun i : ℕ => (i : ℤ))
      (((List.range v.nItems).map fun i : ℕ => decide (pref a (i : ℤ) ≠ 0)).map fun b => !b) =
      (allowedIdx v filt a).map fun i : ℕ => (i : ℤ) := by
    intro hf
    rw [List.map_map, maskSelect_map_map]
    congr 1
    unfold allowedIdx
    apply List.filter_congr
    intro i _
    rw [hpref hf, hf]
    simp only [Function.comp]
    by_cases hm : ((a : ℤ), (i : ℤ)) ∈ v.history
    · simp [hm]
    · simp [hm]
  have hview : viewedMask v pref (a : ℤ) = .ok ((List.range v.nItems).map fun i : ℕ =>
      decide (pref a (i : ℤ) ≠ 0)) := by
    unfold viewedMask; rw [if_pos (by constructor <;> omega)]
  constructor
  · intro hka
    have hcs := cand_of_selection argp hargp v s filt a k hk hka
    refine ⟨_, hcs, ?_⟩
    have hcl : ∀ j ∈ (((sliceLast (argp ((allowedIdx v filt a).map fun i => s.getD i default) k) k).reverse).map
        fun j => (allowedIdx v filt a).getD j 0), j < items.length := by
      intro j hj
      have := hcs.allowed j hj
      rw [mem_allowedIdx] at this
      rw [← hv.nItems]; exact this.1
    have hsel := argp_selection argp hargp ((allowedIdx v filt a).map fun i => s.getD i default) k hk
      (by simpa using hka)
    have hfin : ∀ c : List ℕ, (∀ j ∈ c, j < items.length) →
        (if internal = true then (pure (c.map fun j : ℕ => (j : ℤ)) : PyM (List ℤ))
         else (c.map fun j : ℕ => (j : ℤ)).mapM fun j => v.maps.item.new2old.getItem j) =
        .ok (showRow items internal c) := by
      intro c hc
      unfold showRow
      cases internal
      · simp only [Bool.false_eq_true, if_false]
        exact mapM_new2old _ _ hv.item c hc
      · simp only [if_true]; rfl
    unfold recommendRow candidateItems
    rw [if_neg (fun hc => hn hc.1 hc.2), if_neg hk0]
    cases filt with
    | false =>
      simp only [Bool.false_eq_true, if_false]
      unfold argPartition
      have hall : (allowedIdx v false a).map (fun i => s.getD i default) = s := by
        rw [allowedIdx_false, ← hs]; exact (list_eq_range_map s default).symm
      rw [hall] at hcl ⊢
      rw [if_pos (by rw [allowedIdx_false, List.length_range] at hka; omega), except_bind_ok]
      rw [show ∀ {α β : Type} (x : α) (f : α → PyM β), ((pure x : PyM α) >>= f) = f x
        from fun x f => rfl]
      have e : ((sliceLast (argp s k) k).reverse).map (fun j => (allowedIdx v false a).getD j 0) =
          (sliceLast (argp s k) k).reverse := by
        rw [allowedIdx_false]
        conv_rhs => rw [← List.map_id (sliceLast (argp s k) k).reverse]
        apply List.map_congr_left
        intro j hj
        rw [hall] at hsel
        have := hsel.2.2.1 j hj
        rw [hs] at this
        simp [List.getD_eq_getElem?_getD, this]
      rw [e] at hcl ⊢
      exact hfin _ hcl
    | true =>
      simp only [if_true]
      rw [hview, except_bind_ok, if_neg (by simp [hs])]
      rw [hmask rfl, hmaski rfl]
      unfold argPartition
      rw [if_pos (by simpa using hka), except_bind_ok]
      rw [mapM_npIndex _ _ (by
        intro j hj
        have := hsel.2.2.1 j hj
        simpa using this), except_bind_ok]
      have e : ((sliceLast (argp ((allowedIdx v true a).map fun i => s.getD i default) k) k).reverse).map
          (fun j => ((allowedIdx v true a).map fun i : ℕ => (i : ℤ)).getD j default) =
          (((sliceLast (argp ((allowedIdx v true a).map fun i => s.getD i default) k) k).reverse).map
            fun j => (allowedIdx v true a).getD j 0).map fun j : ℕ => (j : ℤ) := by
        rw [List.map_map]
        apply List.map_congr_left
        intro j hj
        have := hsel.2.2.1 j hj
        simp only [List.length_map] at this
        simp [List.getD_eq_getElem?_getD, this]
      rw [e]
      exact hfin _ hcl
  · intro hlt
    unfold recommendRow candidateItems
    rw [if_neg (fun hc => hn hc.1 hc.2), if_neg hk0]
    cases filt with
    | false =>
      simp only [Bool.false_eq_true, if_false]
      unfold argPartition
      rw [if_neg (by rw [allowedIdx_false, List.length_range] at hlt; omega)]
      rfl
    | true =>
      simp only [if_true]
      rw [hview, except_bind_ok, if_neg (by simp [hs])]
      rw [hmask rfl]
      unfold argPartition
      rw [if_neg (by simpa using hlt)]
      rfl

/-- the history matrix used by `recommend` -/
def getPref (v : RecView) (filt : Bool) : PyM (ℤ → ℤ → ℕ) :=
  if filt then historyCsr v else pure (fun _ _ => 0)

theorem recommend_eq (b : Bool) (argp : ArgPart K) (v : RecView) (score : ℕ → ℤ → PyM (List K))
    (us : List ℤ) (k : ℕ) (filt internal : Bool) (p : ℤ → ℤ → ℕ) (hp : getPref v filt = .ok p) :
    recommend b argp v score us k filt internal =
      (us.mapM fun u => v.maps.user.old2new.getItem u) >>= fun mapped =>
        (enumNat 0 mapped).mapM fun iu => score iu.1 iu.2 >>= fun rec =>
          recommendRow argp v p rec (min k v.nItems) filt internal iu.2 := by
  unfold recommend
  unfold getPref at hp
  rw [hp]
  cases b
  · simp only [Bool.false_eq_true, if_false]
    rw [except_bind_ok]
    cases us.mapM fun u => v.maps.user.old2new.getItem u <;> rfl
  · simp only [if_true]
    cases us.mapM fun u => v.maps.user.old2new.getItem u <;> rfl

theorem recommend_ok_pref (b : Bool) (argp : ArgPart K) (v : RecView)
    (score : ℕ → ℤ → PyM (List K)) (us : List ℤ) (k : ℕ) (filt internal : Bool)
    (res : List (List ℤ)) (h : recommend b argp v score us k filt internal = .ok res) :
    ∃ p, getPref v filt = .ok p := by
  unfold getPref
  cases hp : (if filt = true then historyCsr v else pure (fun _ _ => 0)) with
  | ok p => exact ⟨p, rfl⟩
  | error e =>
    exfalso
    unfold recommend at h
    rw [hp] at h
    cases b
    · simp only [Bool.false_eq_true, if_false] at h
      rw [except_bind_error] at h; cases h
    · simp only [if_true] at h
      cases hm : us.mapM fun u => v.maps.user.old2new.getItem u with
      | ok m => rw [hm] at h; cases h
      | error e => rw [hm] at h; cases h

theorem enumNat_getElem? {α : Type} (s : ℕ) (l : List α) (i : ℕ) :
    (enumNat s l)[i]? = (l[i]?).map fun x => (s + i, x) := by
  induction l generalizing s i with
  | nil => simp [enumNat]
  | cons a l ih =>
    cases i with
    | zero => simp [enumNat]
    | succ i =>
      simp only [enumNat, List.getElem?_cons_succ, ih]
      congr 1
      funext x
      rw [Nat.add_right_comm]; rfl

theorem enumNat_length {α : Type} (s : ℕ) (l : List α) : (enumNat s l).length = l.length := by
  induction l generalizing s with
  | nil => rfl
  | cons a l ih => simp [enumNat, ih]

theorem forall₂_getElem? {α β : Type} {R : α → β → Prop} {l1 : List α} {l2 : List β}
    (h : List.Forall₂ R l1 l2) (i : ℕ) {a : α} {b : β} (ha : l1[i]? = some a)
    (hb : l2[i]? = some b) : R a b := by
  induction h generalizing i with
  | nil => simp at ha
  | cons h1 _ ih =>
    cases i with
    | zero => simp at ha hb; subst ha; subst hb; exact h1
    | succ i => exact ih i (by simpa using ha) (by simpa using hb)

theorem forall₂_exists_right {α β : Type} {R : α → β → Prop} {l1 : List α} {l2 : List β}
    (h : List.Forall₂ R l1 l2) (i : ℕ) {a : α} (ha : l1[i]? = some a) :
    ∃ b, l2[i]? = some b ∧ R a b := by
  have hl := h.length_eq
  have hi : i < l1.length := (List.getElem?_eq_some_iff.1 ha).1
  refine ⟨l2[i]'(by omega), List.getElem?_eq_getElem (by omega), ?_⟩
  exact forall₂_getElem? h i ha (List.getElem?_eq_getElem (by omega))

/-- every returned row, positionally -/
theorem recommend_rows (b : Bool) (argp : ArgPart K) (v : RecView) (score : ℕ → ℤ → PyM (List K))
    (us : List ℤ) (k : ℕ) (filt internal : Bool) (p : ℤ → ℤ → ℕ) (hp : getPref v filt = .ok p)
    (res : List (List ℤ)) (h : recommend b argp v score us k filt internal = .ok res) :
    res.length = us.length ∧
    ∀ i u row, us[i]? = some u → res[i]? = some row → ∃ a, v.maps.user.old2new.get? u = some a ∧
      (score i a >>= fun rec => recommendRow argp v p rec (min k v.nItems) filt internal a) = .ok row := by
  rw [recommend_eq b argp v score us k filt internal p hp] at h
  cases hm : us.mapM fun u => v.maps.user.old2new.getItem u with
  | error e => rw [hm] at h; cases h
  | ok mapped =>
    rw [hm, except_bind_ok] at h
    rw [mapM_ok_iff] at hm h
    have hl1 := hm.length_eq
    have hl2 := h.length_eq
    rw [enumNat_length] at hl2
    refine ⟨by omega, ?_⟩
    intro i u row hu hrow
    obtain ⟨a, ha, hga⟩ := forall₂_exists_right hm i hu
    refine ⟨a, (getItem_ok_iff _ _ _).1 hga, ?_⟩
    have he : (enumNat 0 mapped)[i]? = some (i, a) := by
      rw [enumNat_getElem?, ha]; simp
    exact forall₂_getElem? h i he hrow

end DynCF
