/- C185: `SVD` and `PSI` read their tables only through the total relevance of every pair and the order in which the
pairs first appear. -/
import Verif.Props.PsiClass
import Verif.Lemmas.Hooi

set_option linter.unusedSectionVars false

namespace DynCF
open Matrix
variable {K : Type}

/-! ### Specification -/

/-- The pairs of user and item of a table, row by row. -/
def tablePairs (rows : List (Row K)) : List (ℤ × ℤ) := rows.map fun r => (r.user, r.item)

/-- Total relevance of a pair. -/
def pairTotal [AddCommMonoid K] (rows : List (Row K)) (p : ℤ × ℤ) : K :=
  ((rows.filter fun r => decide ((r.user, r.item) = p)).map Row.rel).sum

/-- The distinct pairs first appear in the same order and have the same total relevance. -/
structure SameTable [AddCommMonoid K] (d d' : List (Row K)) : Prop where
  order : ∃ ps, FirstAppearance (tablePairs d) ps ∧ FirstAppearance (tablePairs d') ps
  total : ∀ p, pairTotal d p = pairTotal d' p

/-- The same pairs, in any order, with the same total relevance. -/
structure SamePairs [AddCommMonoid K] (d d' : List (Row K)) : Prop where
  mem : ∀ p, p ∈ tablePairs d ↔ p ∈ tablePairs d'
  total : ∀ p, pairTotal d p = pairTotal d' p

/-- The two models agree in all attributes, except that a recorded pair may be repeated or stand elsewhere in the
history. -/
structure PsiSame (st st' : PSIState K) : Prop where
  rest : st' = { st with history := st'.history }
  hist : ∀ p, p ∈ st.history ↔ p ∈ st'.history

/-- Both computations succeed with related results, or both raise the same exception. -/
def SameOutcome {α β : Type} (R : α → β → Prop) (x : PyM α) (y : PyM β) : Prop :=
  (∃ a b, x = .ok a ∧ y = .ok b ∧ R a b) ∨ ∃ e, x = .error e ∧ y = .error e

/-! ### Outcomes -/

theorem SameOutcome.bind {α β γ δ : Type} {R : α → β → Prop} {S : γ → δ → Prop} {x : PyM α} {y : PyM β}
    {f : α → PyM γ} {g : β → PyM δ} (h : SameOutcome R x y) (hf : ∀ a b, R a b → SameOutcome S (f a) (g b)) :
    SameOutcome S (x >>= f) (y >>= g) := by
  rcases h with ⟨a, b, rfl, rfl, hab⟩ | ⟨e, rfl, rfl⟩
  · exact hf a b hab
  · exact .inr ⟨e, rfl, rfl⟩

theorem SameOutcome.pure {α β : Type} {R : α → β → Prop} {a : α} {b : β} (h : R a b) :
    SameOutcome R (Pure.pure a) (Pure.pure b) := .inl ⟨a, b, rfl, rfl, h⟩

theorem SameOutcome.of_eq {α : Type} {x y : PyM α} (h : x = y) : SameOutcome Eq x y := by
  subst h
  cases x with
  | error e => exact .inr ⟨e, rfl, rfl⟩
  | ok a => exact .inl ⟨a, a, rfl, rfl, rfl⟩

theorem same_bind {α γ δ : Type} {S : γ → δ → Prop} {x : PyM α} {f : α → PyM γ} {g : α → PyM δ}
    (h : ∀ a, SameOutcome S (f a) (g a)) : SameOutcome S (x >>= f) (x >>= g) :=
  (SameOutcome.of_eq rfl).bind fun a b e => by subst e; exact h a

theorem SameOutcome.foldlM {α β γ δ : Type} {R : α → β → Prop} {T : γ → δ → Prop} {f : α → γ → PyM α}
    {g : β → δ → PyM β} (hf : ∀ a b c d, R a b → T c d → SameOutcome R (f a c) (g b d)) {l : List γ} {l' : List δ}
    (hl : List.Forall₂ T l l') : ∀ {a : α} {b : β}, R a b → SameOutcome R (l.foldlM f a) (l'.foldlM g b) := by
  induction hl with
  | nil => exact fun h => .pure h
  | cons h1 _ ih =>
    intro a b hab
    rw [List.foldlM_cons, List.foldlM_cons]
    exact (hf _ _ _ _ hab h1).bind fun a b h => ih h

/-! ### Tables -/

theorem firstAppearance_eq_pdUnique {α : Type} [DecidableEq α] {l a : List α} (ha : FirstAppearance l a) :
    a = pdUnique l := by
  have hb := firstAppearance_pdUnique l
  refine List.Perm.eq_of_pairwise (le := fun x y => l.idxOf x < l.idxOf y) ?_ ha.order hb.order ?_
  · intro x y _ _ h1 h2
    omega
  · rw [List.perm_ext_iff_of_nodup ha.nodup hb.nodup]
    intro x
    rw [ha.mem, hb.mem]

theorem pdUnique_filter {α : Type} [DecidableEq α] (p : α → Bool) (l : List α) :
    pdUnique (l.filter p) = (pdUnique l).filter p := by
  induction l with
  | nil => rfl
  | cons a l ih =>
    rw [List.filter_cons]
    by_cases h : p a = true
    · rw [if_pos h, pdUnique, pdUnique, List.filter_cons, if_pos h, ih, List.filter_filter, List.filter_filter]
      congr 1
      exact List.filter_congr fun x _ => Bool.and_comm _ _
    · rw [if_neg h, pdUnique, List.filter_cons, if_neg h, ih, List.filter_filter]
      refine List.filter_congr fun x _ => ?_
      by_cases hx : x = a
      · subst hx
        simp [h]
      · simp [hx]

theorem pdUnique_map_unique {α β : Type} [DecidableEq α] [DecidableEq β] (f : α → β) (l : List α) :
    pdUnique ((pdUnique l).map f) = pdUnique (l.map f) := by
  induction l with
  | nil => rfl
  | cons a l ih =>
    rw [pdUnique, List.map_cons, List.map_cons, pdUnique, pdUnique, ← ih]
    congr 1
    rw [← pdUnique_filter (fun y : β => decide (y ≠ f a)) (((pdUnique l).filter fun y => decide (y ≠ a)).map f),
      ← pdUnique_filter (fun y : β => decide (y ≠ f a)) ((pdUnique l).map f), List.filter_map, List.filter_map,
      List.filter_filter]
    congr 2
    refine List.filter_congr fun x _ => ?_
    by_cases hx : x = a
    · subst hx
      simp
    · simp [hx]

section tables
variable [AddCommMonoid K] {d d' : List (Row K)}

theorem SameTable.unique (h : SameTable d d') : pdUnique (tablePairs d) = pdUnique (tablePairs d') := by
  obtain ⟨ps, h1, h2⟩ := h.order
  rw [← firstAppearance_eq_pdUnique h1, ← firstAppearance_eq_pdUnique h2]

theorem SameTable.of_unique (h : pdUnique (tablePairs d) = pdUnique (tablePairs d'))
    (ht : ∀ p, pairTotal d p = pairTotal d' p) : SameTable d d' :=
  ⟨⟨_, firstAppearance_pdUnique _, h ▸ firstAppearance_pdUnique _⟩, ht⟩

theorem SameTable.pairs (h : SameTable d d') : SamePairs d d' :=
  ⟨fun p => by rw [← mem_pdUnique, h.unique, mem_pdUnique], h.total⟩

theorem SamePairs.symm (h : SamePairs d d') : SamePairs d' d := ⟨fun p => (h.mem p).symm, fun p => (h.total p).symm⟩

theorem SamePairs.isEmpty (h : SamePairs d d') : d.length > 0 ↔ d'.length > 0 := by
  have key : ∀ {a b : List (Row K)}, SamePairs a b → a.length > 0 → b.length > 0 := by
    intro a b hab ha
    obtain ⟨x, hx⟩ := List.exists_mem_of_length_pos ha
    have := (hab.mem _).1 (List.mem_map.2 ⟨x, hx, rfl⟩)
    obtain ⟨y, hy, -⟩ := List.mem_map.1 this
    exact List.length_pos_of_mem hy
  exact ⟨key h, key h.symm⟩

theorem SamePairs.forall (h : SamePairs d d') {P : ℤ × ℤ → Prop} :
    (∀ r ∈ d, P (r.user, r.item)) ↔ ∀ r ∈ d', P (r.user, r.item) := by
  have key : ∀ {a b : List (Row K)}, SamePairs a b → (∀ r ∈ a, P (r.user, r.item)) → ∀ r ∈ b, P (r.user, r.item) := by
    intro a b hab ha r hr
    obtain ⟨y, hy, e⟩ := List.mem_map.1 ((hab.mem _).2 (List.mem_map.2 ⟨r, hr, rfl⟩))
    exact e ▸ ha y hy
  exact ⟨key h, key h.symm⟩

theorem tablePairs_filter (q : ℤ × ℤ → Bool) (d : List (Row K)) :
    tablePairs (d.filter fun r => q (r.user, r.item)) = (tablePairs d).filter q := by
  rw [tablePairs, tablePairs, List.filter_map]
  rfl

theorem pairTotal_filter (q : ℤ × ℤ → Bool) (d : List (Row K)) (p : ℤ × ℤ) :
    pairTotal (d.filter fun r => q (r.user, r.item)) p = if q p then pairTotal d p else 0 := by
  unfold pairTotal
  rw [List.filter_filter]
  split
  · rename_i hq
    congr 2
    refine List.filter_congr fun r _ => ?_
    by_cases hr : (r.user, r.item) = p
    · rw [hr, hq]; simp
    · simp [hr]
  · rename_i hq
    rw [List.filter_eq_nil_iff.2]
    · simp
    · intro r _ hr
      rw [Bool.and_eq_true, decide_eq_true_eq] at hr
      rw [hr.1] at hr
      exact hq hr.2

theorem SameTable.filter (h : SameTable d d') (q : ℤ × ℤ → Bool) :
    SameTable (d.filter fun r => q (r.user, r.item)) (d'.filter fun r => q (r.user, r.item)) := by
  refine .of_unique ?_ fun p => by rw [pairTotal_filter, pairTotal_filter, h.total]
  rw [tablePairs_filter, tablePairs_filter, pdUnique_filter, pdUnique_filter, h.unique]

theorem SameTable.users (h : SameTable d d') : pdUnique (d.map Row.user) = pdUnique (d'.map Row.user) := by
  have e : ∀ l : List (Row K), l.map Row.user = (tablePairs l).map Prod.fst := fun l => by simp [tablePairs]
  rw [e, e, ← pdUnique_map_unique, h.unique, pdUnique_map_unique]

theorem SameTable.items (h : SameTable d d') : pdUnique (d.map Row.item) = pdUnique (d'.map Row.item) := by
  have e : ∀ l : List (Row K), l.map Row.item = (tablePairs l).map Prod.snd := fun l => by simp [tablePairs]
  rw [e, e, ← pdUnique_map_unique, h.unique, pdUnique_map_unique]

/-- Summing the relevances of the rows, or the totals of the pairs. -/
theorem sum_by_pairs (q : ℤ × ℤ → Bool) (S : Finset (ℤ × ℤ)) (d : List (Row K)) (hS : ∀ p ∈ tablePairs d, p ∈ S) :
    ((d.filter fun r => q (r.user, r.item)).map Row.rel).sum = ∑ p ∈ S, if q p then pairTotal d p else 0 := by
  induction d with
  | nil => simp [pairTotal]
  | cons r d ih =>
    have hr : (r.user, r.item) ∈ S := hS _ (by simp [tablePairs])
    have e : ∀ p, (if q p then pairTotal (r :: d) p else 0) =
        (if p = (r.user, r.item) then (if q (r.user, r.item) then r.rel else 0) else 0) +
          (if q p then pairTotal d p else 0) := by
      intro p
      unfold pairTotal
      rw [List.filter_cons]
      by_cases hp : p = (r.user, r.item)
      · subst hp
        by_cases hq : q (r.user, r.item) = true <;> simp [hq]
      · have hp' : ¬ (r.user, r.item) = p := fun h => hp h.symm
        simp [hp, hp']
    rw [Finset.sum_congr rfl fun p _ => e p, Finset.sum_add_distrib, Finset.sum_ite_eq', if_pos hr,
      ← ih fun p hp => hS p (List.mem_cons_of_mem _ hp), List.filter_cons]
    by_cases hq : q (r.user, r.item) = true <;> simp [hq]

theorem SamePairs.sum (h : SamePairs d d') (q : ℤ × ℤ → Bool) :
    ((d.filter fun r => q (r.user, r.item)).map Row.rel).sum =
      ((d'.filter fun r => q (r.user, r.item)).map Row.rel).sum := by
  rw [sum_by_pairs q (tablePairs d).toFinset d fun p hp => List.mem_toFinset.2 hp,
    sum_by_pairs q (tablePairs d).toFinset d' fun p hp => List.mem_toFinset.2 ((h.mem p).2 hp)]
  simp only [h.total]

theorem SamePairs.matrix (h : SamePairs d d') (G : ℤ × ℤ → ℤ × ℤ) (n0 n1 : ℕ) :
    getMappedMatrix (d.map fun r => (G (r.user, r.item), r.rel)) n0 n1 =
      getMappedMatrix (d'.map fun r => (G (r.user, r.item), r.rel)) n0 n1 := by
  unfold getMappedMatrix
  have hc : ∀ l : List (Row K), ((l.map fun r => (G (r.user, r.item), r.rel)).all fun x =>
      decide (0 ≤ x.1.1 ∧ x.1.1 < n0 ∧ 0 ≤ x.1.2 ∧ x.1.2 < n1)) = true ↔ ∀ r ∈ l,
        (fun p => 0 ≤ (G p).1 ∧ (G p).1 < n0 ∧ 0 ≤ (G p).2 ∧ (G p).2 < n1) (r.user, r.item) := fun l => by
    simp
  simp only [hc, h.forall (P := fun p => 0 ≤ (G p).1 ∧ (G p).1 < n0 ∧ 0 ≤ (G p).2 ∧ (G p).2 < n1)]
  split
  · congr 2
    ext i j
    simp only [Matrix.of_apply]
    have e : ∀ l : List (Row K), ((l.map fun r => (G (r.user, r.item), r.rel)).filter fun x =>
        decide (x.1 = (((i : ℕ) : ℤ), ((j : ℕ) : ℤ)))).map Prod.snd =
          (l.filter fun r => (fun p => decide (G p = (((i : ℕ) : ℤ), ((j : ℕ) : ℤ)))) (r.user, r.item)).map Row.rel :=
      fun l => by rw [List.filter_map, List.map_map]; rfl
    rw [e, e]
    exact h.sum fun p => decide (G p = (((i : ℕ) : ℤ), ((j : ℕ) : ℤ)))
  · rfl

/-- A look-up in every row: the values, or `KeyError`. -/
theorem mapM_lookup (D : Dict ℤ ℤ) (f : Row K → ℤ) (l : List (Row K)) :
    (l.mapM fun r => D.getItem (f r)) =
      if ∀ r ∈ l, (D.get? (f r)).isSome then .ok (l.map fun r => (D.get? (f r)).getD 0) else .error .keyError := by
  induction l with
  | nil => simp; rfl
  | cons a l ih =>
    rw [List.mapM_cons, Dict.getItem]
    cases ha : D.get? (f a) with
    | none => simp [ha, except_bind_error]
    | some x =>
      dsimp only
      rw [except_bind_ok, ih]
      by_cases hl : ∀ r ∈ l, (D.get? (f r)).isSome = true
      · rw [if_pos hl, if_pos (by simpa [ha] using hl)]
        simp [ha]
      · rw [if_neg hl, if_neg (by simpa [ha] using hl)]
        rfl

theorem SamePairs.lookup (h : SamePairs d d') (D : Dict ℤ ℤ) (f : ℤ × ℤ → ℤ) :
    (∀ r ∈ d, (D.get? (f (r.user, r.item))).isSome = true) ↔ ∀ r ∈ d', (D.get? (f (r.user, r.item))).isSome = true :=
  h.forall (P := fun p => (D.get? (f p)).isSome = true)

theorem SamePairs.entries (h : SamePairs d d') (f g : ℤ × ℤ → ℤ) (D E : Dict ℤ ℤ) (n0 n1 : ℕ) :
    mappedEntries d (fun r => f (r.user, r.item)) (fun r => g (r.user, r.item)) D E n0 n1 =
      mappedEntries d' (fun r => f (r.user, r.item)) (fun r => g (r.user, r.item)) D E n0 n1 := by
  unfold mappedEntries
  rw [mapM_lookup D fun r => f (r.user, r.item), mapM_lookup D fun r => f (r.user, r.item),
    mapM_lookup E fun r => g (r.user, r.item), mapM_lookup E fun r => g (r.user, r.item)]
  simp only [h.lookup D f, h.lookup E g]
  split
  · split
    · simp only [except_bind_ok]
      have e : ∀ l : List (Row K), ((l.map fun r => (D.get? (f (r.user, r.item))).getD 0).zip
          (l.map fun r => (E.get? (g (r.user, r.item))).getD 0)).zip (l.map Row.rel) =
            l.map fun r => ((fun p => ((D.get? (f p)).getD 0, (E.get? (g p)).getD 0)) (r.user, r.item), r.rel) :=
        fun l => by rw [List.zip_map', List.zip_map']
      rw [e, e]
      exact h.matrix (fun p => ((D.get? (f p)).getD 0, (E.get? (g p)).getD 0)) n0 n1
    · rfl
  · rfl

end tables

/-! ### Updates -/

section updates
variable [Field K] [LinearOrder K] {d d' : List (Row K)} {st st' : PSIState K}

theorem PsiSame.maps (h : PsiSame st st') : st'.maps = st.maps := by rw [h.rest]

theorem psiUpdater_same (env : PSIEnv K) (cfg : PSICfg) (h : PsiSame st st') (da : Mat K) (mode : PsiMode) :
    SameOutcome PsiSame (psiUpdater env cfg st da mode) (psiUpdater env cfg st' da mode) := by
  obtain ⟨hr, hh⟩ := h
  rw [hr]
  generalize st'.history = H at hh
  clear hr
  obtain ⟨rank, nPower, os, init, integ⟩ := cfg
  cases mode with
  | newUsers =>
    rcases init with _ | _ | _
    · exact same_bind fun a => .pure ⟨rfl, hh⟩
    · exact .pure ⟨rfl, hh⟩
    · exact same_bind fun a => .pure ⟨rfl, hh⟩
  | newItems =>
    rcases init with _ | _ | _
    · exact same_bind fun a => .pure ⟨rfl, hh⟩
    · exact .pure ⟨rfl, hh⟩
    · exact same_bind fun a => .pure ⟨rfl, hh⟩
  | old => exact same_bind fun a => .pure ⟨rfl, hh⟩
  | new =>
    cases integ
    · exact same_bind fun a => .pure ⟨rfl, hh⟩
    · exact .pure ⟨rfl, hh⟩

theorem processData_same (h : PsiSame st st') (hd : SameTable d d') (mode : PsiMode) :
    SameOutcome (fun a b : Mat K × PSIState K => a.1 = b.1 ∧ PsiSame a.2 b.2) (processData st d mode)
      (processData st' d' mode) := by
  obtain ⟨hr, hh⟩ := h
  rw [hr]
  generalize st'.history = H at hh
  clear hr
  have e1 := fun D E n0 n1 => hd.pairs.entries Prod.fst Prod.snd D E n0 n1
  have e2 := fun D E n0 n1 => hd.pairs.entries Prod.snd Prod.fst D E n0 n1
  cases mode <;> unfold processData <;> try simp only [addNewEntities, hd.users, hd.items]
  · exact (SameOutcome.of_eq (e1 _ _ _ _)).bind fun a b e => .pure ⟨e, rfl, hh⟩
  · exact (SameOutcome.of_eq (e2 _ _ _ _)).bind fun a b e => .pure ⟨e, rfl, hh⟩
  · exact (SameOutcome.of_eq (e1 _ _ _ _)).bind fun a b e => .pure ⟨e, rfl, hh⟩
  · exact (SameOutcome.of_eq (e1 _ _ _ _)).bind fun a b e => .pure ⟨e, rfl, hh⟩

theorem updateFactorsByMode_same (env : PSIEnv K) (cfg : PSICfg) (h : PsiSame st st') (hd : SameTable d d')
    (mode : PsiMode) :
    SameOutcome PsiSame (updateFactorsByMode env cfg st d mode) (updateFactorsByMode env cfg st' d' mode) := by
  unfold updateFactorsByMode
  simp only [hd.pairs.isEmpty]
  split
  · exact (processData_same h hd mode).bind fun a b e => by rw [e.1]; exact psiUpdater_same env cfg e.2 _ mode
  · exact .pure h

/-- the variables of the loops agree -/
def LoopSame (l l' : PsiLoop K) : Prop := PsiSame l.st l'.st ∧ SameTable l.left l'.left

theorem psiRound_same (env : PSIEnv K) (cfg : PSICfg) (l l' : PsiLoop K) (m m' : PsiMode) (h : LoopSame l l')
    (hm : m = m') : SameOutcome LoopSame (psiRound env cfg l m) (psiRound env cfg l' m') := by
  subst hm
  have key : ∀ (M : Mappings) (b : Bool), ∃ q : ℤ × ℤ → Bool, ∀ r : Row K,
      (if b then divideRow M m r else !divideRow M m r) = q (r.user, r.item) := fun M b =>
    ⟨fun p => if b then divideRow M m (⟨p.1, p.2, 0, 0, 0⟩ : Row K) else !divideRow M m (⟨p.1, p.2, 0, 0, 0⟩ : Row K),
      fun r => rfl⟩
  unfold psiRound getDivideDfMask
  dsimp only
  rw [h.1.maps, maskSelect_map, maskSelect_map, List.map_map, List.map_map, maskSelect_map, maskSelect_map]
  obtain ⟨q, hq⟩ := key l.st.maps true
  obtain ⟨q', hq'⟩ := key l.st.maps false
  have f1 : divideRow l.st.maps m = fun r : Row K => q (r.user, r.item) := funext fun r => hq r
  have f2 : (fun b => !b) ∘ divideRow l.st.maps m = fun r : Row K => q' (r.user, r.item) := funext fun r => hq' r
  rw [f2, f1]
  exact (updateFactorsByMode_same env cfg h.1 (h.2.filter q) m).bind fun a b e => .pure ⟨e, h.2.filter q'⟩

theorem rounds_same (env : PSIEnv K) (cfg : PSICfg) (ms : List PsiMode) {l l' : PsiLoop K} (h : LoopSame l l') :
    SameOutcome LoopSame (ms.foldlM (psiRound env cfg) l) (ms.foldlM (psiRound env cfg) l') :=
  SameOutcome.foldlM (T := Eq) (fun a b c d hab hcd => psiRound_same env cfg a b c d hab hcd)
    (List.forall₂_same.2 fun _ _ => rfl) h

theorem psiRounds_same (env : PSIEnv K) (cfg : PSICfg) (h : PsiSame st st') (hd : SameTable d d') :
    SameOutcome (fun l l' : PsiLoop K => PsiSame l.st l'.st) (psiRounds env cfg st d) (psiRounds env cfg st' d') := by
  have h0 : LoopSame ⟨st, d, []⟩ ⟨st', d', []⟩ := ⟨h, hd⟩
  unfold psiRounds
  split
  · rcases rounds_same env cfg [.new, .newUsers, .newItems, .old] h0 with ⟨a, b, ha, hb, hab⟩ | he
    · exact .inl ⟨a, b, ha, hb, hab.1⟩
    · exact .inr he
  · exact (psiRound_same env cfg _ _ _ _ h0 rfl).bind fun l1 l1' h1 =>
      (rounds_same env cfg _ h1).bind fun l3 l3' h3 =>
        (updateFactorsByMode_same env cfg h3.1 h1.2 .old).bind fun a b hab => .pure hab
  · exact (rounds_same env cfg _ h0).bind fun l3 l3' h3 =>
      (updateFactorsByMode_same env cfg h3.1 hd .old).bind fun a b hab => .pure hab
  · exact .inr ⟨_, rfl, rfl⟩

theorem psiUpdateHistory_same (h : PsiSame st st') (hd : SamePairs d d') :
    SameOutcome PsiSame (psiUpdateHistory st d) (psiUpdateHistory st' d') := by
  obtain ⟨hr, hh⟩ := h
  unfold psiUpdateHistory
  rw [hr]
  generalize st'.history = H at hh
  clear hr
  dsimp only
  rw [mapM_lookup, mapM_lookup, mapM_lookup, mapM_lookup]
  have e1 := hd.lookup st.maps.user.old2new Prod.fst
  have e2 := hd.lookup st.maps.item.old2new Prod.snd
  dsimp only at e1 e2
  simp only [e1, e2]
  split
  · split
    · refine .pure ⟨rfl, fun p => ?_⟩
      dsimp only
      rw [List.zip_map', List.zip_map', List.mem_append, List.mem_append, hh]
      have e : ∀ l : List (Row K), (l.map fun r => ((st.maps.user.old2new.get? r.user).getD 0,
          (st.maps.item.old2new.get? r.item).getD 0)) = (tablePairs l).map fun q =>
            ((st.maps.user.old2new.get? q.1).getD 0, (st.maps.item.old2new.get? q.2).getD 0) := fun l => by
        rw [tablePairs, List.map_map]; rfl
      rw [e, e, List.mem_map, List.mem_map]
      simp only [hd.mem]
    · exact .inr ⟨_, rfl, rfl⟩
  · exact .inr ⟨_, rfl, rfl⟩

theorem psiFinish_same {H : PyM (PSIState K)} {H' : PyM (PSIState K)} (h : SameOutcome PsiSame H H') :
    SameOutcome PsiSame (do
      let st ← H
      let itemFactors ← st.s.toMat.dot st.vt
      pure { st with s := .mat st.s.toMat, userFactors := st.u, itemFactors := itemFactors }) (do
      let st ← H'
      let itemFactors ← st.s.toMat.dot st.vt
      pure { st with s := .mat st.s.toMat, userFactors := st.u, itemFactors := itemFactors }) := by
  refine h.bind fun a b hab => ?_
  obtain ⟨hr, hh⟩ := hab
  rw [hr]
  generalize b.history = Hb at hh
  clear hr
  exact same_bind fun x => .pure ⟨rfl, hh⟩

/-! ### C185 -/

/-- **C185, one update.** For every state, every configuration and every behaviour of the numerical routines: updating
with two chunks in which the distinct pairs first appear in the same order, with the same total relevance, gives the
same model (only repetitions and order in the recorded history may differ), or the same exception. -/
theorem C185_update (env : PSIEnv K) (cfg : PSICfg) (h : PsiSame st st') (hd : SameTable d d') :
    SameOutcome PsiSame (psiUpdate env cfg st d) (psiUpdate env cfg st' d') := by
  rcases psiRounds_same env cfg h hd with ⟨a, b, ha, hb, hab⟩ | ⟨e, he, he'⟩
  · unfold psiUpdate
    rw [ha, hb, except_bind_ok, except_bind_ok]
    exact psiFinish_same (psiUpdateHistory_same hab hd.pairs)
  · refine .inr ⟨e, ?_, ?_⟩
    · unfold psiUpdate
      rw [he]
      rfl
    · unfold psiUpdate
      rw [he']
      rfl

/-- The same for several chunks. -/
theorem C185_updates (env : PSIEnv K) (cfg : PSICfg) (h : PsiSame st st') {cs cs' : List (List (Row K))}
    (hc : List.Forall₂ SameTable cs cs') :
    SameOutcome PsiSame (cs.foldlM (psiUpdate env cfg) st) (cs'.foldlM (psiUpdate env cfg) st') :=
  SameOutcome.foldlM (R := PsiSame) (T := SameTable) (f := psiUpdate env cfg) (g := psiUpdate env cfg)
    (fun _ _ _ _ hab hcd => C185_update env cfg hab hcd) hc h

theorem applyUserMap_lookup (m : Mapping ℤ) (l : List (Row K)) :
    applyUserMap m l = if ∀ r ∈ l, (m.old2new.get? r.user).isSome then
      .ok (l.map fun r => { r with user := (m.old2new.get? r.user).getD 0 }) else .error .keyError := by
  unfold applyUserMap
  induction l with
  | nil => simp; rfl
  | cons a l ih =>
    rw [List.mapM_cons, Dict.getItem]
    cases ha : m.old2new.get? a.user with
    | none => simp [ha, except_bind_error]
    | some x =>
      dsimp only
      rw [except_bind_ok, ih]
      by_cases hl : ∀ r ∈ l, (m.old2new.get? r.user).isSome = true
      · rw [if_pos hl, if_pos (by simpa [ha] using hl)]
        simp [ha]
      · rw [if_neg hl, if_neg (by simpa [ha] using hl)]
        rfl

theorem applyItemMap_lookup (m : Mapping ℤ) (l : List (Row K)) :
    applyItemMap m l = if ∀ r ∈ l, (m.old2new.get? r.item).isSome then
      .ok (l.map fun r => { r with item := (m.old2new.get? r.item).getD 0 }) else .error .keyError := by
  unfold applyItemMap
  induction l with
  | nil => simp; rfl
  | cons a l ih =>
    rw [List.mapM_cons, Dict.getItem]
    cases ha : m.old2new.get? a.item with
    | none => simp [ha, except_bind_error]
    | some x =>
      dsimp only
      rw [except_bind_ok, ih]
      by_cases hl : ∀ r ∈ l, (m.old2new.get? r.item).isSome = true
      · rw [if_pos hl, if_pos (by simpa [ha] using hl)]
        simp [ha]
      · rw [if_neg hl, if_neg (by simpa [ha] using hl)]
        rfl

/-- the mapped table, and the mappings -/
theorem getDf_same (hd : SameTable d d') :
    SameOutcome (fun a b : List (Row K) × Mappings => a.2 = b.2 ∧ ∃ G : ℤ × ℤ → ℤ × ℤ,
      (∃ F : Row K → Row K, a.1 = d.map F ∧ b.1 = d'.map F ∧
        ∀ r, ((F r).user, (F r).item) = G (r.user, r.item) ∧ (F r).rel = r.rel))
      (getDfWithUpdatedIndices d) (getDfWithUpdatedIndices d') := by
  unfold getDfWithUpdatedIndices
  rw [hd.users]
  generalize getContMappingStruct (pdUnique (d'.map Row.user)) 0 = mu
  dsimp only
  rw [applyUserMap_lookup, applyUserMap_lookup]
  have e1 := hd.pairs.lookup mu.old2new Prod.fst
  dsimp only at e1
  simp only [e1]
  split
  swap
  · exact .inr ⟨_, rfl, rfl⟩
  rw [except_bind_ok, except_bind_ok, List.map_map, List.map_map]
  have e2 : ∀ l : List (Row K), l.map (Row.item ∘ fun r => { r with user := (mu.old2new.get? r.user).getD 0 }) =
      l.map Row.item := fun l => rfl
  rw [e2, e2, hd.items]
  generalize getContMappingStruct (pdUnique (d'.map Row.item)) 0 = mi
  rw [applyItemMap_lookup, applyItemMap_lookup]
  have e3 := hd.pairs.lookup mi.old2new Prod.snd
  dsimp only at e3
  simp only [List.forall_mem_map, e3]
  split
  swap
  · exact .inr ⟨_, rfl, rfl⟩
  rw [except_bind_ok, except_bind_ok, List.map_map, List.map_map]
  exact .pure ⟨rfl, fun p => ((mu.old2new.get? p.1).getD 0, (mi.old2new.get? p.2).getD 0), _, rfl, rfl,
    fun r => ⟨rfl, rfl⟩⟩

theorem inferDim_mem {a b : List ℤ} (h : ∀ x, x ∈ a ↔ x ∈ b) : inferDim a = inferDim b := by
  refine le_antisymm ((inferDim_le a _).2 fun x hx => ?_) ((inferDim_le b _).2 fun x hx => ?_)
  · exact (inferDim_le b _).1 le_rfl x ((h x).1 hx)
  · exact (inferDim_le a _).1 le_rfl x ((h x).2 hx)

/-- **C185, training.** -/
theorem C185_train (env : PSIEnv K) (cfg : PSICfg) (hd : SameTable d d') :
    SameOutcome PsiSame (svdTrain env cfg d) (svdTrain env cfg d') := by
  unfold svdTrain
  refine (getDf_same hd).bind fun a b hab => ?_
  obtain ⟨a1, a2⟩ := a
  obtain ⟨b1, b2⟩ := b
  obtain ⟨h2, G, F, h3, h4, hF⟩ := hab
  dsimp only at h2 h3 h4
  subst h2 h3 h4
  dsimp only
  have e : ∀ l : List (Row K), ((l.map F).map fun r => ((r.user, r.item), r.rel)) =
      l.map fun r => (G (r.user, r.item), r.rel) := fun l => by
    rw [List.map_map]
    exact List.map_congr_left fun r _ => by simp only [Function.comp, (hF r).1, (hF r).2]
  have e' : ∀ l : List (Row K), ((l.map F).map fun r => (r.user, r.item)) = (tablePairs l).map G := fun l => by
    rw [List.map_map, tablePairs, List.map_map]
    exact List.map_congr_left fun r _ => by simp only [Function.comp, (hF r).1]
  have hcoo : cooInfer (d.map fun r => (G (r.user, r.item), r.rel)) =
      cooInfer (d'.map fun r => (G (r.user, r.item), r.rel)) := by
    unfold cooInfer
    have hm : ∀ (f : ℤ × ℤ → ℤ) x, x ∈ ((d.map fun r => (G (r.user, r.item), r.rel)).map fun y => f y.1) ↔
        x ∈ ((d'.map fun r => (G (r.user, r.item), r.rel)).map fun y => f y.1) := fun f x => by
      have : ∀ l : List (Row K), ((l.map fun r => (G (r.user, r.item), r.rel)).map fun y => f y.1) =
          (tablePairs l).map fun q => f (G q) := fun l => by
        rw [List.map_map, tablePairs, List.map_map]; rfl
      rw [this, this, List.mem_map, List.mem_map]
      simp only [hd.pairs.mem]
    have hemp : (d.map fun r => (G (r.user, r.item), r.rel)).isEmpty =
        (d'.map fun r => (G (r.user, r.item), r.rel)).isEmpty := by
      have := hd.pairs.isEmpty
      cases d <;> cases d' <;> simp_all
    rw [hemp, inferDim_mem (hm Prod.fst), inferDim_mem (hm Prod.snd), hd.pairs.matrix G]
  rw [e, e, hcoo, e', e']
  refine same_bind fun a0 => same_bind fun f => same_bind fun i => .pure ⟨rfl, fun p => ?_⟩
  dsimp only
  rw [List.mem_map, List.mem_map]
  simp only [hd.pairs.mem]

/-- **C185, a run.** Training and any number of updates. -/
theorem C185_run (env : PSIEnv K) (cfg : PSICfg) (hd : SameTable d d') {cs cs' : List (List (Row K))}
    (hc : List.Forall₂ SameTable cs cs') :
    SameOutcome PsiSame (psiRun env cfg d cs) (psiRun env cfg d' cs') :=
  (C185_train env cfg hd).bind fun _ _ h => C185_updates env cfg h hc

/-- **C185, recommendations.** Models that agree in this sense return the same lists (or the same exception) for all
users, all numbers of items, with and without filtering. -/
theorem C185_recommend (argp : ArgPart K) (h : PsiSame st st') (users : List ℤ) (k : ℕ) (filt internal : Bool) :
    psiRecommend argp st users k filt internal = psiRecommend argp st' users k filt internal := by
  obtain ⟨hr, hh⟩ := h
  rw [hr]
  generalize st'.history = H at hh
  clear hr
  unfold psiRecommend
  have hs : ∀ u, psiScore { st with history := H } u = psiScore st u := fun u => rfl
  simp only [hs]
  have hmask : ∀ (p p' : ℤ → ℤ → ℕ) (u : ℤ), (∀ i, p u i ≠ 0 ↔ p' u i ≠ 0) → viewedMask st.view p u =
      viewedMask ({ st with history := H } : PSIState K).view p' u := by
    intro p p' u hp
    unfold viewedMask
    simp only [hp]
    rfl
  have hrow : ∀ (p p' : ℤ → ℤ → ℕ) (rec : List K) (n : ℕ) (u : ℤ), (∀ i, p u i ≠ 0 ↔ p' u i ≠ 0) →
      recommendRow argp st.view p rec n filt internal u =
        recommendRow argp ({ st with history := H } : PSIState K).view p' rec n filt internal u := by
    intro p p' rec n u hp
    unfold recommendRow singleItemRow zeroRow allCandidates candidateItems
    rw [hmask p p' u hp]
    rfl
  unfold recommend
  cases filt with
  | false =>
    exact rfl
  | true =>
    have hcsr : SameOutcome (fun p p' : ℤ → ℤ → ℕ => ∀ u i, p u i ≠ 0 ↔ p' u i ≠ 0) (historyCsr st.view)
        (historyCsr ({ st with history := H } : PSIState K).view) := by
      unfold historyCsr
      have e : (st.view.history.all fun p => decide (0 ≤ p.1 ∧ p.1 < st.view.nUsers ∧ 0 ≤ p.2 ∧ p.2 < st.view.nItems)) =
          (H.all fun p => decide (0 ≤ p.1 ∧ p.1 < st.view.nUsers ∧ 0 ≤ p.2 ∧ p.2 < st.view.nItems)) := by
        rw [Bool.eq_iff_iff, List.all_eq_true, List.all_eq_true]
        exact forall_congr' fun p => imp_congr_left (hh p)
      rw [e]
      change SameOutcome _ _ (if (H.all fun p =>
        decide (0 ≤ p.1 ∧ p.1 < st.view.nUsers ∧ 0 ≤ p.2 ∧ p.2 < st.view.nItems)) = true then _ else _)
      split
      · refine .inl ⟨_, _, rfl, rfl, fun u i => ?_⟩
        have c : ∀ l : List (ℤ × ℤ), (l.countP fun p => decide (p = (u, i))) ≠ 0 ↔ (u, i) ∈ l := fun l => by
          rw [← Nat.pos_iff_ne_zero, List.countP_pos_iff]
          simp
        rw [c]
        exact (hh (u, i)).trans (c H).symm
      · exact .inr ⟨_, rfl, rfl⟩
    simp only [if_true]
    have hv : ({ st with history := H } : PSIState K).view.maps = st.view.maps := rfl
    rw [hv]
    rcases hcsr with ⟨p, p', h1, h2, hp⟩ | ⟨e, h1, h2⟩
    · rw [h1, h2]
      cases (users.mapM fun u => st.view.maps.user.old2new.getItem u) with
      | error e => rfl
      | ok m =>
        simp only [except_bind_ok]
        change ((enumNat 0 m).mapM fun iu => _) = ((enumNat 0 m).mapM fun iu => _)
        congr 1
        funext iu
        congr 1
        funext rec
        exact hrow p p' rec _ iu.2 (hp iu.2)
    · rw [h1, h2]
      cases (users.mapM fun u => st.view.maps.user.old2new.getItem u) <;> rfl

/-! ### Chunks of known users and items -/

/-- All users and items of the table are known to the model. -/
def AllKnown (st : PSIState K) (d : List (Row K)) : Prop :=
  ∀ r ∈ d, (∃ a : ℕ, st.maps.user.old2new.get? r.user = some (a : ℤ)) ∧
    ∃ b : ℕ, st.maps.item.old2new.get? r.item = some (b : ℤ)

theorem divideRow_known {r : Row K} {M : Mappings} (h : (∃ a : ℕ, M.user.old2new.get? r.user = some (a : ℤ)) ∧
    ∃ b : ℕ, M.item.old2new.get? r.item = some (b : ℤ)) (m : PsiMode) : divideRow M m r = decide (m = .old) := by
  obtain ⟨⟨a, ha⟩, ⟨b, hb⟩⟩ := h
  have h1 : mapGetPad M.user r.user ≠ -1 := by
    rw [mapGetPad, ha, Option.getD_some]; omega
  have h2 : mapGetPad M.item r.item ≠ -1 := by
    rw [mapGetPad, hb, Option.getD_some]; omega
  cases m <;> simp [divideRow, h1, h2]

theorem tableRound_known (env : PSIEnv K) (cfg : PSICfg) (hk : AllKnown st d) (log : List (PsiMode × List (Row K)))
    (m : PsiMode) (hm : m ≠ .old) : psiRound env cfg ⟨st, d, log⟩ m = .ok ⟨st, d, log ++ [(m, [])]⟩ := by
  have e1 : d.filter (divideRow st.maps m) = [] :=
    List.filter_eq_nil_iff.2 fun r hr => by rw [divideRow_known (hk r hr)]; simpa using hm
  have e2 : d.filter ((fun b => !b) ∘ divideRow st.maps m) = d :=
    List.filter_eq_self.2 fun r hr => by
      simp only [Function.comp]
      rw [divideRow_known (hk r hr)]
      simpa using hm
  unfold psiRound getDivideDfMask
  dsimp only
  rw [maskSelect_map, List.map_map, maskSelect_map, e1, e2]
  rfl

theorem tableRounds_known (env : PSIEnv K) (cfg : PSICfg) (hc : cfg.init = none → cfg.integrator = false)
    (hk : AllKnown st d) :
    SameOutcome (fun (l : PsiLoop K) s => l.st = s) (psiRounds env cfg st d)
      (updateFactorsByMode env cfg st d .old) := by
  have r := fun log m hm => tableRound_known env cfg hk log m hm
  have hold : ∀ log, SameOutcome (fun (l : PsiLoop K) s => l.st = s) (psiRound env cfg ⟨st, d, log⟩ .old)
      (updateFactorsByMode env cfg st d .old) := by
    intro log
    have e1 : d.filter (divideRow st.maps .old) = d :=
      List.filter_eq_self.2 fun r hr => by rw [divideRow_known (hk r hr)]; rfl
    unfold psiRound getDivideDfMask
    dsimp only
    rw [maskSelect_map, e1]
    cases updateFactorsByMode env cfg st d .old with
    | error e => exact .inr ⟨e, rfl, rfl⟩
    | ok a => exact .inl ⟨_, a, rfl, rfl, rfl⟩
  have hlast : ∀ l : PsiLoop K, l.st = st → SameOutcome (fun (l : PsiLoop K) s => l.st = s) (do
      let st ← updateFactorsByMode env cfg l.st d .old
      pure { l with st := st, log := l.log ++ [(.old, d)] }) (updateFactorsByMode env cfg st d .old) := by
    intro l hl
    rw [hl]
    cases updateFactorsByMode env cfg st d .old with
    | error e => exact .inr ⟨e, rfl, rfl⟩
    | ok a => exact .inl ⟨_, a, rfl, rfl, rfl⟩
  unfold psiRounds
  split
  · rw [List.foldlM_cons, r _ _ (by decide), except_bind_ok, List.foldlM_cons, r _ _ (by decide), except_bind_ok,
      List.foldlM_cons, r _ _ (by decide), except_bind_ok, List.foldlM_cons]
    rcases hold ([] ++ [(PsiMode.new, [])] ++ [(PsiMode.newUsers, [])] ++ [(PsiMode.newItems, [])]) with
      ⟨a, b, ha, hb, hab⟩ | ⟨e, he, he'⟩
    · rw [ha]
      exact .inl ⟨a, b, rfl, hb, hab⟩
    · rw [he]
      exact .inr ⟨e, rfl, he'⟩
  · unfold psiRoundsInit
    rw [r _ _ (by decide), except_bind_ok, List.foldlM_cons, r _ _ (by decide), except_bind_ok, List.foldlM_cons,
      r _ _ (by decide), except_bind_ok, List.foldlM_nil]
    exact hlast ⟨st, d, _⟩ rfl
  · unfold psiRoundsIntegrator
    rw [List.foldlM_cons, r _ _ (by decide), except_bind_ok, List.foldlM_cons, r _ _ (by decide), except_bind_ok,
      List.foldlM_cons, r _ _ (by decide), except_bind_ok, List.foldlM_nil]
    exact hlast ⟨st, d, _⟩ rfl
  · rename_i h1 h2
    rw [hc h1] at h2
    cases h2

/-- **C185, known users and items.** If all users and items of the chunk are known, the order of the rows has no
influence at all. -/
theorem C185_known (env : PSIEnv K) (cfg : PSICfg) (hd : SamePairs d d') (hk : AllKnown st d) :
    SameOutcome PsiSame (psiUpdate env cfg st d) (psiUpdate env cfg st d') := by
  have h0 : PsiSame st st := ⟨rfl, fun _ => Iff.rfl⟩
  by_cases hc : cfg.init = none → cfg.integrator = false
  · have hk' : AllKnown st d' := (hd.forall (P := fun p => (∃ a : ℕ, st.maps.user.old2new.get? p.1 = some (a : ℤ)) ∧
      ∃ b : ℕ, st.maps.item.old2new.get? p.2 = some (b : ℤ))).1 hk
    have hu : updateFactorsByMode env cfg st d .old = updateFactorsByMode env cfg st d' .old := by
      unfold updateFactorsByMode processData
      dsimp only
      rw [show mappedEntries d Row.user Row.item st.maps.user.old2new st.maps.item.old2new st.u.rows st.vt.cols = _ from
        hd.entries Prod.fst Prod.snd _ _ _ _]
      simp only [hd.isEmpty]
    have h1 := tableRounds_known env cfg hc hk
    have h2 := tableRounds_known env cfg hc hk'
    rw [hu] at h1
    rcases h1 with ⟨a, b, ha, hb, hab⟩ | ⟨e, he, he1⟩ <;> rcases h2 with ⟨a', b', ha', hb', hab'⟩ | ⟨e', he', he1'⟩
    · rw [hb] at hb'
      cases hb'
      unfold psiUpdate
      rw [ha, ha', except_bind_ok, except_bind_ok]
      exact psiFinish_same (psiUpdateHistory_same (by rw [hab, hab']; exact ⟨rfl, fun _ => Iff.rfl⟩) hd)
    · rw [hb] at he1'
      cases he1'
    · rw [he1] at hb'
      cases hb'
    · rw [he1] at he1'
      cases he1'
      refine .inr ⟨e, ?_, ?_⟩
      · unfold psiUpdate
        rw [he]
        rfl
      · unfold psiUpdate
        rw [he']
        rfl
  · obtain ⟨rank, nPower, os, init, integ⟩ := cfg
    simp only [Classical.not_imp, Bool.not_eq_false] at hc
    obtain ⟨rfl, rfl⟩ := hc
    exact .inr ⟨.runtimeError, rfl, rfl⟩

/-! ### Mixed chunks -/

/-- User and item of the pair are known to the model. -/
def KnownPair (M : Mappings) (p : ℤ × ℤ) : Prop :=
  (∃ a : ℕ, M.user.old2new.get? p.1 = some (a : ℤ)) ∧ ∃ b : ℕ, M.item.old2new.get? p.2 = some (b : ℤ)

open Classical in
/-- The same pairs with the same total relevance, and those with an unknown user or item first appear in the same
order. -/
structure SameChunk (st : PSIState K) (d d' : List (Row K)) : Prop where
  pairs : SamePairs d d'
  order : ∃ ps, FirstAppearance ((tablePairs d).filter fun p => decide (¬ KnownPair st.maps p)) ps ∧
    FirstAppearance ((tablePairs d').filter fun p => decide (¬ KnownPair st.maps p)) ps

theorem get?_update_other {α β : Type} [DecidableEq α] (e : Dict α β) (x : α) (h : ∀ p ∈ e, p.1 ≠ x) (D : Dict α β) :
    (D.update e).get? x = D.get? x := by
  induction e generalizing D with
  | nil => rfl
  | cons p e ih =>
    rw [Dict.update_cons, ih (fun q hq => h q (List.mem_cons_of_mem _ hq)),
      Dict.get?_set_ne _ _ (h p List.mem_cons_self)]

theorem addNewEntities_other (m : Mapping ℤ) (col : List ℤ) (x : ℤ) (h : x ∉ col) :
    (addNewEntities m col).1.old2new.get? x = m.old2new.get? x := by
  unfold addNewEntities updateContMappingStruct
  dsimp only
  refine get?_update_other _ x (fun p hp => ?_) _
  rw [getContMappingStruct_old2new _ _ (nodup_pdUnique col)] at hp
  have hk : p.1 ∈ Dict.keys ((pyEnumerate (pdUnique col) (m.n : ℤ)).map Prod.swap) := List.mem_map.2 ⟨p, hp, rfl⟩
  rw [swap_keys, mem_pdUnique] at hk
  exact fun he => h (he ▸ hk)

theorem psiUpdater_maps (env : PSIEnv K) (cfg : PSICfg) (da : Mat K) (m : PsiMode)
    (h : psiUpdater env cfg st da m = .ok st') : st'.maps = st.maps := by
  obtain ⟨rank, nPower, os, init, integ⟩ := cfg
  cases m with
  | newUsers =>
    rcases init with _ | _ | _
    · obtain ⟨f, -, h⟩ := (bind_ok_iff _ _ _).1 h
      cases h; rfl
    · cases h; rfl
    · obtain ⟨f, -, h⟩ := (bind_ok_iff _ _ _).1 h
      cases h; rfl
  | newItems =>
    rcases init with _ | _ | _
    · obtain ⟨f, -, h⟩ := (bind_ok_iff _ _ _).1 h
      cases h; rfl
    · cases h; rfl
    · obtain ⟨f, -, h⟩ := (bind_ok_iff _ _ _).1 h
      cases h; rfl
  | old =>
    obtain ⟨f, -, h⟩ := (bind_ok_iff _ _ _).1 h
    cases h; rfl
  | new =>
    cases integ
    · obtain ⟨f, -, h⟩ := (bind_ok_iff _ _ _).1 h
      cases h; rfl
    · cases h; rfl

/-- A step never changes the numbers of known users and items. -/
theorem updateFactorsByMode_known (env : PSIEnv K) (cfg : PSICfg) (m : PsiMode)
    (hd : ∀ r ∈ d, divideRow st.maps m r = true) (h : updateFactorsByMode env cfg st d m = .ok st') {p : ℤ × ℤ}
    (hp : KnownPair st.maps p) : KnownPair st'.maps p := by
  have hu : m = .new ∨ m = .newUsers → p.1 ∉ d.map Row.user := fun hm hx => by
    obtain ⟨r, hr, e⟩ := List.mem_map.1 hx
    have := hd r hr
    obtain ⟨a, ha⟩ := hp.1
    have h1 : mapGetPad st.maps.user r.user ≠ -1 := by
      rw [e, mapGetPad, ha, Option.getD_some]; omega
    rcases hm with rfl | rfl <;> simp [divideRow, h1] at this
  have hi : m = .new ∨ m = .newItems → p.2 ∉ d.map Row.item := fun hm hx => by
    obtain ⟨r, hr, e⟩ := List.mem_map.1 hx
    have := hd r hr
    obtain ⟨a, ha⟩ := hp.2
    have h1 : mapGetPad st.maps.item r.item ≠ -1 := by
      rw [e, mapGetPad, ha, Option.getD_some]; omega
    rcases hm with rfl | rfl <;> simp [divideRow, h1] at this
  unfold updateFactorsByMode at h
  split at h
  swap
  · cases h; exact hp
  obtain ⟨⟨da, s⟩, h1, h2⟩ := (bind_ok_iff _ _ _).1 h
  have hm := psiUpdater_maps env cfg da m h2
  rw [hm]
  unfold processData at h1
  cases m with
  | newUsers =>
    obtain ⟨_, -, h1⟩ := (bind_ok_iff _ _ _).1 h1
    cases h1
    exact ⟨by simpa only [addNewEntities_other _ _ _ (hu (.inr rfl))] using hp.1, hp.2⟩
  | newItems =>
    obtain ⟨_, -, h1⟩ := (bind_ok_iff _ _ _).1 h1
    cases h1
    exact ⟨hp.1, by simpa only [addNewEntities_other _ _ _ (hi (.inr rfl))] using hp.2⟩
  | old =>
    obtain ⟨_, -, h1⟩ := (bind_ok_iff _ _ _).1 h1
    cases h1
    exact hp
  | new =>
    obtain ⟨_, -, h1⟩ := (bind_ok_iff _ _ _).1 h1
    cases h1
    exact ⟨by simpa only [addNewEntities_other _ _ _ (hu (.inl rfl))] using hp.1,
      by simpa only [addNewEntities_other _ _ _ (hi (.inl rfl))] using hp.2⟩

theorem updateOld_same (env : PSIEnv K) (cfg : PSICfg) (h : PsiSame st st') (hd : SamePairs d d') :
    SameOutcome PsiSame (updateFactorsByMode env cfg st d .old) (updateFactorsByMode env cfg st' d' .old) := by
  have hu : updateFactorsByMode env cfg st d .old = updateFactorsByMode env cfg st d' .old := by
    unfold updateFactorsByMode processData
    dsimp only
    rw [show mappedEntries d Row.user Row.item st.maps.user.old2new st.maps.item.old2new st.u.rows st.vt.cols = _ from
      hd.entries Prod.fst Prod.snd _ _ _ _]
    simp only [hd.isEmpty]
  rw [hu]
  exact updateFactorsByMode_same env cfg h (.of_unique rfl fun _ => rfl) .old

theorem SamePairs.filter (h : SamePairs d d') (q : ℤ × ℤ → Bool) :
    SamePairs (d.filter fun r => q (r.user, r.item)) (d'.filter fun r => q (r.user, r.item)) :=
  ⟨fun p => by rw [tablePairs_filter, tablePairs_filter, List.mem_filter, List.mem_filter, h.mem],
    fun p => by rw [pairTotal_filter, pairTotal_filter, h.total]⟩

/-- the variables of the loops, when the order matters outside `Q` only -/
structure LoopMixed (Q : ℤ × ℤ → Bool) (l l' : PsiLoop K) : Prop where
  st : PsiSame l.st l'.st
  pairs : SamePairs l.left l'.left
  order : pdUnique ((tablePairs l.left).filter fun p => !Q p) = pdUnique ((tablePairs l'.left).filter fun p => !Q p)
  known : ∀ p, Q p = true → KnownPair l.st.maps p

theorem psiRound_mixed (env : PSIEnv K) (cfg : PSICfg) (Q : ℤ × ℤ → Bool) (l l' : PsiLoop K) (m m' : PsiMode)
    (h : LoopMixed Q l l') (hm : m = m') :
    SameOutcome (LoopMixed Q) (psiRound env cfg l m) (psiRound env cfg l' m') := by
  subst hm
  obtain ⟨q, hq⟩ : ∃ q : ℤ × ℤ → Bool, ∀ r : Row K, divideRow l.st.maps m r = q (r.user, r.item) :=
    ⟨fun p => divideRow l.st.maps m (⟨p.1, p.2, 0, 0, 0⟩ : Row K), fun r => rfl⟩
  have hQ : m ≠ .old → ∀ p, q p = true → Q p = false := fun hm p hp => by
    by_contra hc
    rw [Bool.not_eq_false] at hc
    have e := hq (⟨p.1, p.2, 0, 0, 0⟩ : Row K)
    rw [divideRow_known (r := (⟨p.1, p.2, 0, 0, 0⟩ : Row K)) (h.known p hc)] at e
    exact hm (of_decide_eq_true (e.trans hp))
  unfold psiRound getDivideDfMask
  dsimp only
  rw [h.st.maps, maskSelect_map, maskSelect_map, List.map_map, List.map_map, maskSelect_map, maskSelect_map]
  have f1 : divideRow l.st.maps m = fun r : Row K => q (r.user, r.item) := funext fun r => hq r
  have f2 : (fun b => !b) ∘ divideRow l.st.maps m = fun r : Row K => (fun p => !q p) (r.user, r.item) :=
    funext fun r => congrArg Bool.not (hq r)
  have hup : SameOutcome PsiSame (updateFactorsByMode env cfg l.st (l.left.filter fun r => q (r.user, r.item)) m)
      (updateFactorsByMode env cfg l'.st (l'.left.filter fun r => q (r.user, r.item)) m) := by
    by_cases hm : m = .old
    · subst hm
      exact updateOld_same env cfg h.st (h.pairs.filter q)
    · refine updateFactorsByMode_same env cfg h.st (.of_unique ?_ (h.pairs.filter q).total) m
      have e : ∀ L : List (Row K), tablePairs (L.filter fun r => q (r.user, r.item)) =
          ((tablePairs L).filter fun p => !Q p).filter q := fun L => by
        rw [tablePairs_filter, List.filter_filter]
        refine List.filter_congr fun p _ => ?_
        cases hp : q p with
        | false => rfl
        | true => rw [hQ hm p hp]; rfl
      rw [e, e, pdUnique_filter q, h.order, pdUnique_filter q]
  rw [f2, f1]
  rcases hup with ⟨a, b, ha, hb, hab⟩ | ⟨e, he, he'⟩
  · rw [ha, hb, except_bind_ok, except_bind_ok]
    refine .pure ⟨hab, h.pairs.filter fun p => !q p, ?_, fun p hp => ?_⟩
    · have e : ∀ L : List (Row K), (tablePairs (L.filter fun r => (fun p => !q p) (r.user, r.item))).filter
          (fun p => !Q p) = ((tablePairs L).filter fun p => !Q p).filter fun p => !q p := fun L => by
        rw [tablePairs_filter (fun p => !q p), List.filter_filter, List.filter_filter]
        exact List.filter_congr fun p _ => Bool.and_comm _ _
      dsimp only at e ⊢
      rw [e, e, pdUnique_filter (fun p => !q p), h.order, pdUnique_filter (fun p => !q p)]
    · refine updateFactorsByMode_known env cfg m (fun r hr => ?_) ha (h.known p hp)
      rw [hq]
      exact (List.mem_filter.1 hr).2
  · rw [he, he']
    exact .inr ⟨e, rfl, rfl⟩

theorem rounds_mixed (env : PSIEnv K) (cfg : PSICfg) (Q : ℤ × ℤ → Bool) (ms : List PsiMode) {l l' : PsiLoop K}
    (h : LoopMixed Q l l') :
    SameOutcome (LoopMixed Q) (ms.foldlM (psiRound env cfg) l) (ms.foldlM (psiRound env cfg) l') :=
  SameOutcome.foldlM (R := LoopMixed Q) (T := Eq) (fun a b c d hab hcd => psiRound_mixed env cfg Q a b c d hab hcd)
    (List.forall₂_same.2 fun _ _ => rfl) h

/-- **C185, any chunk.** Only the pairs with an unknown user or item have to appear in the same order. -/
theorem C185_mixed (env : PSIEnv K) (cfg : PSICfg) (hd : SameChunk st d d') :
    SameOutcome PsiSame (psiUpdate env cfg st d) (psiUpdate env cfg st d') := by
  classical
  have h0 : LoopMixed (fun p => decide (KnownPair st.maps p)) (⟨st, d, []⟩ : PsiLoop K) ⟨st, d', []⟩ := by
    refine ⟨⟨rfl, fun _ => Iff.rfl⟩, hd.pairs, ?_, fun p hp => of_decide_eq_true hp⟩
    obtain ⟨ps, h1, h2⟩ := hd.order
    have e : (fun p => !decide (KnownPair st.maps p)) = fun p => decide (¬ KnownPair st.maps p) :=
      funext fun p => (decide_not).symm
    dsimp only
    rw [e]
    rw [← firstAppearance_eq_pdUnique (by convert h1), ← firstAppearance_eq_pdUnique (by convert h2)]
  have hr : SameOutcome (fun l l' : PsiLoop K => PsiSame l.st l'.st) (psiRounds env cfg st d)
      (psiRounds env cfg st d') := by
    unfold psiRounds
    split
    · rcases rounds_mixed env cfg _ [.new, .newUsers, .newItems, .old] h0 with ⟨a, b, ha, hb, hab⟩ | he
      · exact .inl ⟨a, b, ha, hb, hab.st⟩
      · exact .inr he
    · exact (psiRound_mixed env cfg _ _ _ _ _ h0 rfl).bind fun l1 l1' h1 =>
        (rounds_mixed env cfg _ _ h1).bind fun l3 l3' h3 =>
          (updateOld_same env cfg h3.st h1.pairs).bind fun a b hab => .pure hab
    · exact (rounds_mixed env cfg _ _ h0).bind fun l3 l3' h3 =>
        (updateOld_same env cfg h3.st hd.pairs).bind fun a b hab => .pure hab
    · exact .inr ⟨_, rfl, rfl⟩
  rcases hr with ⟨a, b, ha, hb, hab⟩ | ⟨e, he, he'⟩
  · unfold psiUpdate
    rw [ha, hb, except_bind_ok, except_bind_ok]
    exact psiFinish_same (psiUpdateHistory_same hab hd.pairs)
  · refine .inr ⟨e, ?_, ?_⟩
    · unfold psiUpdate
      rw [he]
      rfl
    · unfold psiUpdate
      rw [he']
      rfl

end updates

/-! ### Examples -/

section examples

/-- The chunk `psiExChunk` at other times, with the first and the fourth interaction split into two. -/
def psiExSplit : List (Row ℚ) :=
  [⟨12, 22, 1 / 4, 30, 5⟩, ⟨13, 20, 1, 40, 5⟩, ⟨12, 22, 3 / 4, 41, 5⟩, ⟨10, 23, 1, 42, 5⟩, ⟨11, 20, 1 / 2, 43, 5⟩,
    ⟨12, 21, 1, 44, 6⟩, ⟨11, 20, 1 / 2, 45, 6⟩]

theorem psiExSplit_same : SameTable psiExChunk psiExSplit := by
  refine .of_unique (by decide) fun p => ?_
  have e : ∀ l : List (Row ℚ), p ∉ tablePairs l → pairTotal l p = 0 := fun l hp => by
    unfold pairTotal
    rw [List.filter_eq_nil_iff.2]
    · rfl
    · intro r hr he
      rw [decide_eq_true_eq] at he
      exact hp (List.mem_map.2 ⟨r, hr, he⟩)
  by_cases hp : p ∈ tablePairs psiExChunk
  · simp only [tablePairs, psiExChunk, List.map_cons, List.map_nil, List.mem_cons, List.not_mem_nil, or_false] at hp
    rcases hp with rfl | rfl | rfl | rfl | rfl <;> decide +kernel
  · rw [e _ hp, e]
    rwa [← mem_pdUnique, show pdUnique (tablePairs psiExSplit) = pdUnique (tablePairs psiExChunk) by decide,
      mem_pdUnique]

/-- Both chunks are accepted after training in every supported configuration, whatever the numerical routines return,
and the two models recommend the same. -/
example (env : PSIEnv ℚ) (hsort : ArgSortOk env.argsort) (init : Option Emb) (b : Bool)
    (hb : init = none → b = false) (argp : ArgPart ℚ) (users : List ℤ) (k : ℕ) :
    ∃ st st', psiRun env (psiExCfg init b) psiExTrain [psiExChunk] = .ok st ∧
      psiRun env (psiExCfg init b) psiExTrain [psiExSplit] = .ok st' ∧
      psiRecommend argp st users k true false = psiRecommend argp st' users k true false := by
  obtain ⟨st, hst⟩ := psiEx_run env hsort init b hb
  rcases C185_run env (psiExCfg init b) (d := psiExTrain) (.of_unique rfl fun _ => rfl)
    (.cons psiExSplit_same .nil) with ⟨a, a', h1, h2, h⟩ | ⟨e, h1, -⟩
  · exact ⟨a, a', h1, h2, C185_recommend argp h users k true false⟩
  · rw [hst] at h1
    cases h1

/-- After training, two interactions of known users and items can be exchanged: both orders are accepted. -/
example (env : PSIEnv ℚ) (hsort : ArgSortOk env.argsort) (init : Option Emb) (b : Bool)
    (hb : init = none → b = false) :
    ∃ st x y, svdTrain env (psiExCfg init b) psiExTrain = .ok st ∧
      psiUpdate env (psiExCfg init b) st [⟨11, 20, 2, 3, 1⟩, ⟨10, 20, 1, 4, 1⟩] = .ok x ∧
      psiUpdate env (psiExCfg init b) st [⟨10, 20, 1, 4, 1⟩, ⟨11, 20, 2, 3, 1⟩] = .ok y ∧ PsiSame x y := by
  obtain ⟨st, us, is, e, hinv, e1, e2, l1, l2⟩ := psiEx_trained env init b
  have hmu : ∀ x : ℤ, x = 10 ∨ x = 11 → x ∈ us := fun x hx => by
    rw [← List.mem_toFinset, e1]; simpa using hx
  have hmi : (20 : ℤ) ∈ is := by
    rw [← List.mem_toFinset, e2]; simp
  have hk : AllKnown st [⟨11, 20, 2, 3, 1⟩, ⟨10, 20, 1, 4, 1⟩] := by
    intro r hr
    have hu : r.user ∈ us := hmu _ (by
      simp only [List.mem_cons, List.not_mem_nil, or_false] at hr
      rcases hr with rfl | rfl <;> simp)
    have hi : r.item ∈ is := by
      simp only [List.mem_cons, List.not_mem_nil, or_false] at hr
      rcases hr with rfl | rfl <;> exact hmi
    obtain ⟨a, ha, hau⟩ := List.getElem_of_mem hu
    obtain ⟨c, hc, hci⟩ := List.getElem_of_mem hi
    refine ⟨⟨a, ?_⟩, ⟨c, ?_⟩⟩
    · rw [hinv.shape.user.old2new]
      exact ⟨a, rfl, List.getElem?_eq_some_iff.2 ⟨ha, hau⟩⟩
    · rw [hinv.shape.item.old2new]
      exact ⟨c, rfl, List.getElem?_eq_some_iff.2 ⟨hc, hci⟩⟩
  have hp : SamePairs ([⟨11, 20, 2, 3, 1⟩, ⟨10, 20, 1, 4, 1⟩] : List (Row ℚ)) [⟨10, 20, 1, 4, 1⟩, ⟨11, 20, 2, 3, 1⟩] :=
    ⟨fun p => by simp [tablePairs, or_comm], fun p => (((List.Perm.swap _ _ _).filter _).map _).sum_eq⟩
  rcases C185_known env (psiExCfg init b) hp hk with ⟨x, y, h1, h2, h⟩ | ⟨err, h1, -⟩
  · exact ⟨st, x, y, e, h1, h2, h⟩
  · rcases C31_update env hsort (psiExCfg init b) hinv [⟨11, 20, 2, 3, 1⟩, ⟨10, 20, 1, 4, 1⟩] with
      ⟨st', -, -, e', -⟩ | ⟨-, -, -, hm⟩ | ⟨-, hc, hd⟩
    · rw [e'] at h1
      cases h1
    · replace hm := hm.manyNew hinv.shape.user.nodup hinv.shape.item.nodup
      rw [ManyNew, newCount, newCount, e1, e2, l1, l2] at hm
      exact absurd hm (by decide +kernel)
    · rw [hb hc] at hd
      cases hd

/-- `psiExChunk` with the row of known user and item moved to the front is accepted and gives the same model. -/
example (env : PSIEnv ℚ) (hsort : ArgSortOk env.argsort) (init : Option Emb) (b : Bool)
    (hb : init = none → b = false) :
    ∃ st x y, svdTrain env (psiExCfg init b) psiExTrain = .ok st ∧
      psiUpdate env (psiExCfg init b) st psiExChunk = .ok x ∧
      psiUpdate env (psiExCfg init b) st [⟨11, 20, 1, 6, 1⟩, ⟨12, 22, 1, 3, 1⟩, ⟨13, 20, 1, 4, 1⟩, ⟨10, 23, 1, 5, 1⟩,
        ⟨12, 21, 1, 7, 1⟩] = .ok y ∧ PsiSame x y := by
  obtain ⟨st, us, is, e, hinv, e1, e2, l1, l2⟩ := psiEx_trained env init b
  have hperm : psiExChunk.Perm [⟨11, 20, 1, 6, 1⟩, ⟨12, 22, 1, 3, 1⟩, ⟨13, 20, 1, 4, 1⟩, ⟨10, 23, 1, 5, 1⟩,
      ⟨12, 21, 1, 7, 1⟩] := by decide
  have hkn : KnownPair st.maps (11, 20) := by
    obtain ⟨a, ha, hau⟩ := List.getElem_of_mem (show (11 : ℤ) ∈ us by rw [← List.mem_toFinset, e1]; simp)
    obtain ⟨c, hc, hci⟩ := List.getElem_of_mem (show (20 : ℤ) ∈ is by rw [← List.mem_toFinset, e2]; simp)
    refine ⟨⟨a, ?_⟩, ⟨c, ?_⟩⟩
    · rw [hinv.shape.user.old2new]
      exact ⟨a, rfl, List.getElem?_eq_some_iff.2 ⟨ha, hau⟩⟩
    · rw [hinv.shape.item.old2new]
      exact ⟨c, rfl, List.getElem?_eq_some_iff.2 ⟨hc, hci⟩⟩
  have hs : SameChunk st psiExChunk [⟨11, 20, 1, 6, 1⟩, ⟨12, 22, 1, 3, 1⟩, ⟨13, 20, 1, 4, 1⟩, ⟨10, 23, 1, 5, 1⟩,
      ⟨12, 21, 1, 7, 1⟩] := by
    classical
    refine ⟨⟨fun p => (hperm.map _).mem_iff, fun p => ((hperm.filter _).map _).sum_eq⟩, _, ?_,
      firstAppearance_pdUnique _⟩
    refine cast (congrArg₂ FirstAppearance ?_ rfl) (firstAppearance_pdUnique _)
    simp only [tablePairs, psiExChunk, List.map_cons, List.map_nil, List.filter_cons, hkn, not_true_eq_false,
      decide_false, Bool.false_eq_true, if_false]
  rcases C185_mixed env (psiExCfg init b) hs with ⟨x, y, h1, h2, h⟩ | ⟨err, h1, -⟩
  · exact ⟨st, x, y, e, h1, h2, h⟩
  · obtain ⟨z, hz⟩ := psiEx_run env hsort init b hb
    unfold psiRun at hz
    rw [e, except_bind_ok, List.foldlM_cons, h1] at hz
    cases hz

/-- The order of first appearance is needed: it decides the numbers of the users, here in training. -/
example : ∃ (d d' : List (Row ℚ)) (a b : List (Row ℚ) × Mappings), SamePairs d d' ∧
    getDfWithUpdatedIndices d = .ok a ∧ getDfWithUpdatedIndices d' = .ok b ∧
    a.2.user.old2new.get? 10 = some 0 ∧ b.2.user.old2new.get? 10 = some 1 := by
  refine ⟨[⟨10, 20, 1, 0, 0⟩, ⟨11, 21, 1, 1, 0⟩], [⟨11, 21, 1, 1, 0⟩, ⟨10, 20, 1, 0, 0⟩], _, _, ⟨fun p => ?_, fun p => ?_⟩,
    rfl, rfl, rfl, rfl⟩
  · simp [tablePairs, or_comm]
  · exact (((List.Perm.swap _ _ _).filter _).map _).sum_eq

end examples
end DynCF
