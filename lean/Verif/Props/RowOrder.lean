/- C156: `SVD` depends on its table only through the total relevance of every pair of user and item. -/
import Mathlib.Data.List.NodupEquivFin
import Verif.Props.SvdBackend
import Verif.Props.LongerLists

namespace DynCF
open Matrix

/-! ### Specification -/

/-- Total relevance of a pair. -/
def totalRel (rows : List (Row ℝ)) (u i : ℤ) : ℝ :=
  ((rows.filter fun r => decide (r.user = u ∧ r.item = i)).map Row.rel).sum

/-- The two tables contain the same pairs with the same total relevance. -/
def SameTotals (rows rows' : List (Row ℝ)) : Prop :=
  ∀ u i, totalRel rows u i = totalRel rows' u i ∧
    ((∃ r ∈ rows, r.user = u ∧ r.item = i) ↔ ∃ r ∈ rows', r.user = u ∧ r.item = i)

/-- The score a model gives to a user and an item, both by name. -/
def NamedScore (st : PSIState ℝ) (u i : ℤ) (x : ℝ) : Prop :=
  ∃ (a : ℤ) (b : ℕ) (l : List ℝ), st.maps.user.old2new.get? u = some a ∧
    st.maps.item.old2new.get? i = some (b : ℤ) ∧ psiScore st a = .ok l ∧ l[b]? = some x

/-! ### Lemmas -/

theorem SameTotals.symm {rows rows' : List (Row ℝ)} (h : SameTotals rows rows') : SameTotals rows' rows :=
  fun u i => ⟨(h u i).1.symm, (h u i).2.symm⟩

theorem SameTotals.users {rows rows' : List (Row ℝ)} (h : SameTotals rows rows') (x : ℤ) :
    x ∈ rows.map Row.user ↔ x ∈ rows'.map Row.user := by
  simp only [List.mem_map]
  constructor
  · rintro ⟨r, hr, rfl⟩
    obtain ⟨r', hr', h1, -⟩ := (h r.user r.item).2.1 ⟨r, hr, rfl, rfl⟩
    exact ⟨r', hr', h1⟩
  · rintro ⟨r, hr, rfl⟩
    obtain ⟨r', hr', h1, -⟩ := (h r.user r.item).2.2 ⟨r, hr, rfl, rfl⟩
    exact ⟨r', hr', h1⟩

theorem SameTotals.items {rows rows' : List (Row ℝ)} (h : SameTotals rows rows') (x : ℤ) :
    x ∈ rows.map Row.item ↔ x ∈ rows'.map Row.item := by
  simp only [List.mem_map]
  constructor
  · rintro ⟨r, hr, rfl⟩
    obtain ⟨r', hr', -, h1⟩ := (h r.user r.item).2.1 ⟨r, hr, rfl, rfl⟩
    exact ⟨r', hr', h1⟩
  · rintro ⟨r, hr, rfl⟩
    obtain ⟨r', hr', -, h1⟩ := (h r.user r.item).2.2 ⟨r, hr, rfl, rfl⟩
    exact ⟨r', hr', h1⟩

/-- Two lists of the same names. -/
theorem exists_renumber {l l' : List ℤ} (h : l.Nodup) (h' : l'.Nodup) (hm : ∀ x, x ∈ l ↔ x ∈ l') :
    l.length = l'.length ∧ ∃ σ : Fin l'.length ≃ Fin l.length, ∀ i, l[σ i] = l'[i] := by
  refine ⟨((List.perm_ext_iff_of_nodup h h').2 hm).length_eq, (h'.getEquiv l').trans
    ((Equiv.subtypeEquivRight fun x => (hm x).symm).trans (h.getEquiv l).symm), fun i => ?_⟩
  have e := (h.getEquiv l).apply_symm_apply ((Equiv.subtypeEquivRight fun x => (hm x).symm) (h'.getEquiv l' i))
  exact congrArg Subtype.val e

theorem truncated_perm {m n r : ℕ} {A : Matrix (Fin m) (Fin n) ℝ} {U : Matrix (Fin m) (Fin r) ℝ} {s : Fin r → ℝ}
    {V : Matrix (Fin r) (Fin n) ℝ} (h : TruncatedSvd A U s V) (σ : Fin m ≃ Fin m) (τ : Fin n ≃ Fin n) :
    TruncatedSvd (A.submatrix σ τ) (U.submatrix σ id) s (V.submatrix id τ) := by
  obtain ⟨U', s', V', hr, hA, hUU, hVV, h0, hd, hU, hs, hV⟩ := h
  refine ⟨U'.submatrix σ id, s', V'.submatrix id τ, hr, ?_, ?_, ?_, h0, hd, fun i k => hU _ _, hs, fun k j => hV _ _⟩
  · rw [← hA]
    ext i j
    simp only [Matrix.mul_apply, Matrix.submatrix_apply, Matrix.mul_diagonal, id]
  · rw [← hUU]
    ext i j
    simp only [Matrix.mul_apply, Matrix.transpose_apply, Matrix.submatrix_apply, id]
    exact Equiv.sum_comp σ fun k => U' k i * U' k j
  · rw [← hVV]
    ext i j
    simp only [Matrix.mul_apply, Matrix.transpose_apply, Matrix.submatrix_apply, id]
    exact Equiv.sum_comp τ fun k => V' i k * V' j k

theorem prediction_perm {m m' n n' r : ℕ} (hm : m = m') (hn : n = n') {A : Matrix (Fin m) (Fin n) ℝ}
    {A' : Matrix (Fin m') (Fin n') ℝ} (hgap : SpectralGap r A) (σ : Fin m' ≃ Fin m) (τ : Fin n' ≃ Fin n)
    (hA : ∀ i j, A' i j = A (σ i) (τ j)) {U : Matrix (Fin m) (Fin r) ℝ} {s : Fin r → ℝ} {V : Matrix (Fin r) (Fin n) ℝ}
    {U' : Matrix (Fin m') (Fin r) ℝ} {s' : Fin r → ℝ} {V' : Matrix (Fin r) (Fin n') ℝ} (h : TruncatedSvd A U s V)
    (h' : TruncatedSvd A' U' s' V') (i : Fin m') (j : Fin n') :
    (U' * diagonal s' * V') i j = (U * diagonal s * V) (σ i) (τ j) := by
  subst hm hn
  have hT := truncated_perm h' σ.symm τ.symm
  have e : A'.submatrix σ.symm τ.symm = A := by
    ext a b
    rw [Matrix.submatrix_apply, hA, Equiv.apply_symm_apply, Equiv.apply_symm_apply]
  rw [e] at hT
  have := congrFun (congrFun (truncated_unique hgap h hT) (σ i)) (τ j)
  rw [this]
  simp only [Matrix.mul_apply, Matrix.submatrix_apply, Matrix.mul_diagonal, id, Equiv.symm_apply_apply]

theorem interactionMatrix_total (us is : List ℤ) (rows : List (Row ℝ)) (i : Fin us.length) (j : Fin is.length) :
    interactionMatrix us is rows i j = totalRel rows us[i] is[j] := rfl

/-! ### C156 -/

/-- On this table the routine returns a singular value decomposition. -/
def SvdsOn (la : LinAlg ℝ) (rank : ℕ) (rows : List (Row ℝ)) : Prop :=
  ∀ us is, FirstAppearance (rows.map Row.user) us → FirstAppearance (rows.map Row.item) is →
    SvdsOk la rank (interactionMatrix us is rows)

/-- The `rank` leading singular values of the interaction matrix are larger than the others. -/
def GapOn (rank : ℕ) (rows : List (Row ℝ)) : Prop :=
  ∀ us is, FirstAppearance (rows.map Row.user) us → FirstAppearance (rows.map Row.item) is →
    SpectralGap rank (interactionMatrix us is rows)

/-- **C156, training.** Training on both tables succeeds, or fails on both with `ValueError`. -/
theorem C156_train (e e' : PSIEnv ℝ) (c : PSICfg) (rows rows' : List (Row ℝ)) (h : SameTotals rows rows') :
    (∃ st st', svdTrain e c rows = .ok st ∧ svdTrain e' c rows' = .ok st') ∨
      (svdTrain e c rows = .error .valueError ∧ svdTrain e' c rows' = .error .valueError) := by
  obtain ⟨us, is, hu, hi, hc⟩ := C31_train e c rows
  obtain ⟨us', is', hu', hi', hc'⟩ := C31_train e' c rows'
  have l1 := (exists_renumber hu.nodup hu'.nodup fun x => by rw [hu.mem, hu'.mem, h.users]).1
  have l2 := (exists_renumber hi.nodup hi'.nodup fun x => by rw [hi.mem, hi'.mem, h.items]).1
  rcases hc with ⟨st, h1, -, h2⟩ | ⟨h1, h2⟩ <;> rcases hc' with ⟨st', h1', -, h2'⟩ | ⟨h1', h2'⟩
  · exact .inl ⟨st, st', h1, h1'⟩
  · rw [← l1, ← l2] at h2'
    exact absurd h2 h2'
  · rw [← l1, ← l2] at h2'
    exact absurd h2' h2
  · exact .inr ⟨h1, h1'⟩

/-- both trained models, in coordinates -/
theorem rowOrder_core (e e' : PSIEnv ℝ) (c : PSICfg) (rows rows' : List (Row ℝ)) (h : SameTotals rows rows')
    (hs : SvdsOn e.la c.rank rows) (hs' : SvdsOn e'.la c.rank rows') (hg : GapOn c.rank rows) (st st' : PSIState ℝ)
    (ht : svdTrain e c rows = .ok st) (ht' : svdTrain e' c rows' = .ok st') :
    ∃ (us is us' is' : List ℤ) (P : Matrix (Fin us.length) (Fin is.length) ℝ)
      (P' : Matrix (Fin us'.length) (Fin is'.length) ℝ) (σ : Fin us'.length ≃ Fin us.length)
      (τ : Fin is'.length ≃ Fin is.length),
      PsiInv st us is c.rank rows ∧ PsiInv st' us' is' c.rank rows' ∧
      (∀ i, us[σ i] = us'[i]) ∧ (∀ j, is[τ j] = is'[j]) ∧ (∀ i j, P' i j = P (σ i) (τ j)) ∧
      (∀ a : Fin us.length, psiScore st ((a : ℕ) : ℤ) = .ok (List.ofFn fun j => P a j)) ∧
      ∀ a : Fin us'.length, psiScore st' ((a : ℕ) : ℤ) = .ok (List.ofFn fun j => P' a j) := by
  obtain ⟨us, is, hu, hi, hc⟩ := C31_train e c rows
  obtain ⟨us', is', hu', hi', hc'⟩ := C31_train e' c rows'
  obtain ⟨l1, σ, hσ⟩ := exists_renumber hu.nodup hu'.nodup fun x => by rw [hu.mem, hu'.mem, h.users]
  obtain ⟨l2, τ, hτ⟩ := exists_renumber hi.nodup hi'.nodup fun x => by rw [hi.mem, hi'.mem, h.items]
  obtain ⟨U, s, V, hT, -, -, -, k1, k2⟩ := C98_train e c rows st us is hu hi (hs us is hu hi) ht
  obtain ⟨U', s', V', hT', -, -, -, k1', k2'⟩ := C98_train e' c rows' st' us' is' hu' hi' (hs' us' is' hu' hi') ht'
  have i1 : PsiInv st us is c.rank rows := by
    rcases hc with ⟨x, h1, h2, -⟩ | ⟨h1, -⟩
    · rw [ht] at h1; cases h1; exact h2
    · rw [ht] at h1; cases h1
  have i2 : PsiInv st' us' is' c.rank rows' := by
    rcases hc' with ⟨x, h1, h2, -⟩ | ⟨h1, -⟩
    · rw [ht'] at h1; cases h1; exact h2
    · rw [ht'] at h1; cases h1
  refine ⟨us, is, us', is', U * (diagonal s * V), U' * (diagonal s' * V'), σ, τ, i1, i2, hσ, hτ, fun i j => ?_,
    psiScore_factors U _ k1 k2, psiScore_factors U' _ k1' k2'⟩
  rw [← Matrix.mul_assoc, ← Matrix.mul_assoc]
  refine prediction_perm l1 l2 (hg us is hu hi) σ τ (fun i j => ?_) hT hT' i j
  rw [interactionMatrix_total, interactionMatrix_total, hσ, hτ, (h _ _).1]

/-- **C156, scores.** The two models give every user and every item of the tables the same score. -/
theorem C156_scores (e e' : PSIEnv ℝ) (c : PSICfg) (rows rows' : List (Row ℝ)) (h : SameTotals rows rows')
    (hs : SvdsOn e.la c.rank rows) (hs' : SvdsOn e'.la c.rank rows') (hg : GapOn c.rank rows) (st st' : PSIState ℝ)
    (ht : svdTrain e c rows = .ok st) (ht' : svdTrain e' c rows' = .ok st') (u i : ℤ)
    (hu : u ∈ rows.map Row.user) (hi : i ∈ rows.map Row.item) :
    ∃ x, NamedScore st u i x ∧ NamedScore st' u i x := by
  obtain ⟨us, is, us', is', P, P', σ, τ, i1, i2, hσ, hτ, hP, k, k'⟩ :=
    rowOrder_core e e' c rows rows' h hs hs' hg st st' ht ht'
  have hu' : u ∈ us' := (i2.users u).2 (by simpa using (h.users u).1 hu)
  have hi' : i ∈ is' := (i2.items i).2 (by simpa using (h.items i).1 hi)
  obtain ⟨a, ha, rfl⟩ := List.getElem_of_mem hu'
  obtain ⟨b, hb, rfl⟩ := List.getElem_of_mem hi'
  have e1 := hσ ⟨a, ha⟩
  have e2 := hτ ⟨b, hb⟩
  refine ⟨P' ⟨a, ha⟩ ⟨b, hb⟩, ⟨((σ ⟨a, ha⟩ : ℕ) : ℤ), τ ⟨b, hb⟩, _, ?_, ?_, k (σ ⟨a, ha⟩), ?_⟩,
    ⟨(a : ℤ), b, _, ?_, ?_, k' ⟨a, ha⟩, ?_⟩⟩
  · rw [i1.shape.user.old2new]
    exact ⟨_, rfl, List.getElem?_eq_some_iff.2 ⟨(σ ⟨a, ha⟩).2, e1⟩⟩
  · rw [i1.shape.item.old2new]
    exact ⟨_, rfl, List.getElem?_eq_some_iff.2 ⟨(τ ⟨b, hb⟩).2, e2⟩⟩
  · rw [hP]
    simp
  · rw [i2.shape.user.old2new]
    exact ⟨_, rfl, List.getElem?_eq_some_iff.2 ⟨ha, rfl⟩⟩
  · rw [i2.shape.item.old2new]
    exact ⟨_, rfl, List.getElem?_eq_some_iff.2 ⟨hb, rfl⟩⟩
  · simp [hb]

theorem candSpec_rename {v v' : RecView} {n n' : ℕ} (hn : v.nItems = n) (τ : Fin n' ≃ Fin n)
    {s s' : List ℝ} {filt : Bool} {a a' : ℤ} (hs : ∀ j : Fin n', s'[(j : ℕ)]? = s[(τ j : ℕ)]?)
    (hn' : v'.nItems = n') (hall : ∀ j : Fin n', (j : ℕ) ∈ allowedIdx v' filt a' ↔ (τ j : ℕ) ∈ allowedIdx v filt a)
    {k : ℕ} {c : List ℕ} (h : CandSpec v s filt a k c) :
    ∃ c0 : List (Fin n'), c = c0.map (fun j => (τ j : ℕ)) ∧ CandSpec v' s' filt a' k (c0.map fun j : Fin n' => (j : ℕ)) := by
  have hlt : ∀ j ∈ c, j < n := fun j hj => by
    rw [← hn]
    exact ((mem_allowedIdx v filt a j).1 (h.allowed j hj)).1
  obtain ⟨c1, rfl⟩ : ∃ c1 : List (Fin n), c = c1.map fun j : Fin n => (j : ℕ) := by
    clear h
    induction c with
    | nil => exact ⟨[], rfl⟩
    | cons x xs ih =>
      obtain ⟨c1, h1⟩ := ih fun j hj => hlt j (List.mem_cons_of_mem _ hj)
      exact ⟨⟨x, hlt x List.mem_cons_self⟩ :: c1, by rw [List.map_cons, ← h1]⟩
  refine ⟨c1.map τ.symm, ?_, ?_⟩
  · rw [List.map_map]
    exact List.map_congr_left fun j _ => by simp
  have hmem : ∀ j : Fin n', (j : ℕ) ∈ (c1.map τ.symm).map (fun j : Fin n' => (j : ℕ)) ↔
      (τ j : ℕ) ∈ c1.map (fun j : Fin n => (j : ℕ)) := fun j => by
    rw [List.map_map]
    simp only [List.mem_map, Function.comp]
    constructor
    · rintro ⟨x, hx, he⟩
      exact ⟨x, hx, by rw [← Fin.ext he, Equiv.apply_symm_apply]⟩
    · rintro ⟨x, hx, he⟩
      exact ⟨x, hx, by rw [Fin.ext he, Equiv.symm_apply_apply]⟩
  have hfin : ∀ j ∈ (c1.map τ.symm).map (fun j : Fin n' => (j : ℕ)), ∃ j' : Fin n', (j' : ℕ) = j := fun j hj => by
    obtain ⟨x, -, rfl⟩ := List.mem_map.1 hj
    exact ⟨x, rfl⟩
  constructor
  · rw [List.length_map, List.length_map, ← List.length_map (f := fun j : Fin n => (j : ℕ)), h.length]
  · have := List.Nodup.of_map _ h.nodup
    exact (this.map τ.symm.injective).map Fin.val_injective
  · intro j hj
    obtain ⟨x, rfl⟩ := hfin j hj
    exact (hall x).2 (h.allowed _ ((hmem x).1 hj))
  · intro j hj j' hj' hnot x y hx hy
    obtain ⟨z, rfl⟩ := hfin j hj
    obtain ⟨z', rfl⟩ : ∃ z' : Fin n', (z' : ℕ) = j' :=
      ⟨⟨j', by rw [← hn']; exact ((mem_allowedIdx v' filt a' j').1 hj').1⟩, rfl⟩
    refine h.optimal _ ((hmem z).1 hj) _ ((hall z').1 hj') (fun hm => hnot ((hmem z').2 hm)) x y ?_ ?_
    · rw [← hs]; exact hx
    · rw [← hs]; exact hy
  · intro j hj l hl x y hx hy
    obtain ⟨z, rfl⟩ := hfin j hj
    rw [List.map_map, List.getLast?_map] at hl
    cases hc : c1.getLast? with
    | none => rw [hc] at hl; cases hl
    | some w =>
      rw [hc] at hl
      have hl : ((τ.symm w : Fin n') : ℕ) = l := by simpa using hl
      subst hl
      refine h.last _ ((hmem z).1 hj) w (by rw [List.getLast?_map, hc]; rfl) x y ?_ (by rw [← hs]; exact hy)
      rw [hs, Equiv.apply_symm_apply] at hx
      exact hx

theorem psiInv_recorded {st : PSIState ℝ} {us is : List ℤ} {r : ℕ} {rows : List (Row ℝ)} (h : PsiInv st us is r rows)
    {a b : ℕ} {u i : ℤ} (ha : us[a]? = some u) (hb : is[b]? = some i) :
    ((a : ℤ), (b : ℤ)) ∈ st.history ↔ ∃ t ∈ rows, t.user = u ∧ t.item = i := by
  have inj : ∀ {l : List ℤ}, l.Nodup → ∀ {x y : ℕ} {z : ℤ}, l[x]? = some z → l[y]? = some z → x = y :=
    fun hnd x y z hx hy => by
      obtain ⟨l1, e1⟩ := List.getElem?_eq_some_iff.1 hx
      obtain ⟨l2, e2⟩ := List.getElem?_eq_some_iff.1 hy
      exact (List.Nodup.getElem_inj_iff hnd).1 (e1.trans e2.symm)
  constructor
  · intro hm
    obtain ⟨t, ht, a', b', he, h1, h2⟩ := forall₂_mem_right h.hist hm
    simp only [Prod.mk.injEq, Nat.cast_inj] at he
    obtain ⟨rfl, rfl⟩ := he
    rw [ha] at h1
    rw [hb] at h2
    exact ⟨t, ht, (Option.some.inj h1).symm, (Option.some.inj h2).symm⟩
  · rintro ⟨t, ht, rfl, rfl⟩
    obtain ⟨p, hp, a', b', rfl, h1, h2⟩ := forall₂_mem_left h.hist ht
    rw [inj h.shape.user.nodup ha h1, inj h.shape.item.nodup hb h2]
    exact hp

/-- **C156, recommendations.** A user whose open items have pairwise different scores is recommended the same items by
both models (in possibly another order: `argpartition` does not sort). -/
theorem C156_recommend (e e' : PSIEnv ℝ) (c : PSICfg) (rows rows' : List (Row ℝ)) (h : SameTotals rows rows')
    (hs : SvdsOn e.la c.rank rows) (hs' : SvdsOn e'.la c.rank rows') (hg : GapOn c.rank rows) (st st' : PSIState ℝ)
    (ht : svdTrain e c rows = .ok st) (ht' : svdTrain e' c rows' = .ok st') (argp argp' : ArgPart ℝ)
    (ha : ArgPartOk argp) (ha' : ArgPartOk argp') (users : List ℤ) (k : ℕ) (hk : 1 ≤ k) (filt : Bool)
    (res res' : List (List ℤ)) (hres : psiRecommend argp st users k filt false = .ok res)
    (hres' : psiRecommend argp' st' users k filt false = .ok res') (n : ℕ) (u : ℤ) (row row' : List ℤ)
    (hu : users[n]? = some u) (hrow : res[n]? = some row) (hrow' : res'[n]? = some row')
    (hd : ∀ i i' x, (filt = true → ¬ ∃ t ∈ rows, t.user = u ∧ t.item = i) →
      (filt = true → ¬ ∃ t ∈ rows, t.user = u ∧ t.item = i') →
      NamedScore st u i x → NamedScore st u i' x → i = i') : row.Perm row' := by
  obtain ⟨us, is, us', is', P, P', σ, τ, i1, i2, hσ, hτ, hP, q, q'⟩ :=
    rowOrder_core e e' c rows rows' h hs hs' hg st st' ht ht'
  haveI : Inhabited ℝ := ⟨0⟩
  obtain ⟨f, hf⟩ := psiScores_ok i1
  obtain ⟨f', hf'⟩ := psiScores_ok i2
  have hset : RecSetting argp st.view us is (fun _ u => psiScore st u) f k filt :=
    ⟨ha, psiView_ok i1, hf, hk, by have := i1.big; have := i1.pos; omega,
      fun _ => by have := i1.big; have := i1.pos; omega⟩
  have hset' : RecSetting argp' st'.view us' is' (fun _ u => psiScore st' u) f' k filt :=
    ⟨ha', psiView_ok i2, hf', hk, by have := i2.big; have := i2.pos; omega,
      fun _ => by have := i2.big; have := i2.pos; omega⟩
  obtain ⟨a, d, hua, hlt, hcs, rfl⟩ := (hset.result true false users res hres).2 n u row hu hrow
  obtain ⟨a', d', hua', hlt', hcs', rfl⟩ := (hset'.result true false users res' hres').2 n u row' hu hrow'
  have la : a < us.length := (List.getElem?_eq_some_iff.1 hua).1
  have la' : a' < us'.length := (List.getElem?_eq_some_iff.1 hua').1
  have ea : σ ⟨a', la'⟩ = ⟨a, la⟩ := by
    have e1 := hσ ⟨a', la'⟩
    have e2 : us'[a'] = u := (List.getElem?_eq_some_iff.1 hua').2
    have e3 : us[a] = u := (List.getElem?_eq_some_iff.1 hua).2
    exact Fin.ext ((List.Nodup.getElem_inj_iff i1.shape.user.nodup).1 (e1.trans (e2.trans e3.symm)))
  have ef : f n a = List.ofFn fun j => P ⟨a, la⟩ j :=
    Except.ok.inj ((hf n a hlt).1.symm.trans (q ⟨a, la⟩))
  have ef' : f' n a' = List.ofFn fun j => P' ⟨a', la'⟩ j :=
    Except.ok.inj ((hf' n a' hlt').1.symm.trans (q' ⟨a', la'⟩))
  have gi : ∀ j : Fin is'.length, is[(τ j : ℕ)]? = some is'[j] := fun j =>
    List.getElem?_eq_some_iff.2 ⟨(τ j).2, hτ j⟩
  have hn : st.view.nItems = is.length := (psiView_ok i1).nItems
  have hn' : st'.view.nItems = is'.length := (psiView_ok i2).nItems
  have hl : is.length = is'.length := by simpa using (Fintype.card_congr τ).symm
  obtain ⟨c0, rfl, hc0⟩ := candSpec_rename (v' := st'.view) (s' := f' n a') (a' := (a' : ℤ)) hn τ (fun j => by
      rw [ef, ef']
      simp only [hP, ea, List.getElem?_ofFn, (τ j).2, j.2, dite_true]) hn' (fun j => by
      rw [mem_allowedIdx, mem_allowedIdx, hn, hn']
      have r1 := psiInv_recorded i1 hua (gi j)
      have r2 := psiInv_recorded i2 hua' (List.getElem?_eq_getElem j.2)
      have r3 := (h u is'[j]).2
      have r1 : ((a : ℤ), ((τ j : ℕ) : ℤ)) ∈ st.view.history ↔ _ := r1
      have r2 : ((a' : ℤ), ((j : ℕ) : ℤ)) ∈ st'.view.history ↔ _ := r2
      rw [r1, r2]
      have r3 : (∃ t ∈ rows, t.user = u ∧ t.item = is'[j]) ↔ ∃ t ∈ rows', t.user = u ∧ t.item = is'[(j : ℕ)] := r3
      rw [r3]
      simp [j.2, (τ j).2]) hcs
  rw [show st.view.nItems = st'.view.nItems from hn.trans (hl.trans hn'.symm)] at hc0
  have hdist : ∀ j ∈ allowedIdx st'.view filt a', ∀ j' ∈ allowedIdx st'.view filt a', ∀ x,
      (f' n a')[j]? = some x → (f' n a')[j']? = some x → j = j' := by
    have named : ∀ j ∈ allowedIdx st'.view filt a', ∀ x, (f' n a')[j]? = some x →
        ∃ (hj : j < is'.length), NamedScore st u is'[j] x ∧
          (filt = true → ¬ ∃ t ∈ rows, t.user = u ∧ t.item = is'[j]) := by
      intro j hj x hx
      rw [mem_allowedIdx, hn'] at hj
      refine ⟨hj.1, ⟨(a : ℤ), τ ⟨j, hj.1⟩, _, ?_, ?_, q ⟨a, la⟩, ?_⟩, fun hft hex => ?_⟩
      · rw [i1.shape.user.old2new]
        exact ⟨_, rfl, hua⟩
      · rw [i1.shape.item.old2new]
        exact ⟨_, rfl, gi ⟨j, hj.1⟩⟩
      · rw [ef', List.getElem?_ofFn, dif_pos hj.1, hP, ea] at hx
        rw [List.getElem?_ofFn, dif_pos (τ ⟨j, hj.1⟩).2]
        exact hx
      · exact hj.2 hft ((psiInv_recorded i2 hua' (List.getElem?_eq_getElem hj.1)).2 ((h u is'[j]).2.1 hex))
    intro j hj j' hj' x hx hx'
    obtain ⟨l1, n1, o1⟩ := named j hj x hx
    obtain ⟨l2, n2, o2⟩ := named j' hj' x hx'
    exact (List.Nodup.getElem_inj_iff i2.shape.item.nodup).1 (hd _ _ x o1 o2 n1 n2)
  have hmem : ∀ j, j ∈ c0.map (fun j : Fin is'.length => (j : ℕ)) ↔ j ∈ d' := fun j =>
    ⟨candSpec_subset (hf' n a' hlt').2 hc0 hcs' le_rfl hdist j, candSpec_subset (hf' n a' hlt').2 hcs' hc0 le_rfl hdist j⟩
  have hperm : (c0.map fun j : Fin is'.length => (j : ℕ)).Perm d' := (List.perm_ext_iff_of_nodup hc0.nodup hcs'.nodup).2 hmem
  unfold showRow
  refine List.Perm.trans (List.Perm.of_eq ?_) (hperm.map _)
  rw [List.map_map, List.map_map]
  refine List.map_congr_left fun j _ => ?_
  simp only [Function.comp, Bool.false_eq_true, if_false]
  rw [List.getD_eq_getElem?_getD, gi, List.getD_eq_getElem?_getD, List.getElem?_eq_getElem j.2]
  rfl

/-- Permuted tables have the same totals. -/
theorem C156_perm {rows rows' : List (Row ℝ)} (h : rows.Perm rows') : SameTotals rows rows' := fun u i =>
  ⟨((h.filter _).map _).sum_eq, by constructor <;> rintro ⟨r, hr, hh⟩ <;>
    first | exact ⟨r, h.mem_iff.1 hr, hh⟩ | exact ⟨r, h.mem_iff.2 hr, hh⟩⟩

/-! ### Examples -/

/-- the table `exTieRows 2` in another order, with the relevance 2 split into two interactions, at other times -/
noncomputable def exReorderedRows : List (Row ℝ) := [⟨8, 41, 1, 5, 3⟩, ⟨7, 40, 1 / 2, 6, 3⟩, ⟨7, 40, 3 / 2, 9, 4⟩]

theorem exReordered_same : SameTotals (exTieRows 2) exReorderedRows := by
  intro u i
  by_cases h1 : u = 7 ∧ i = 40
  · obtain ⟨rfl, rfl⟩ := h1
    constructor
    · simp [totalRel, exTieRows, exReorderedRows]; norm_num
    · simp [exTieRows, exReorderedRows]
  · by_cases h2 : u = 8 ∧ i = 41
    · obtain ⟨rfl, rfl⟩ := h2
      constructor
      · simp [totalRel, exTieRows, exReorderedRows]
      · simp [exTieRows, exReorderedRows]
    · have h1' : ¬ ((7 : ℤ) = u ∧ (40 : ℤ) = i) := fun h => h1 ⟨h.1.symm, h.2.symm⟩
      have h2' : ¬ ((8 : ℤ) = u ∧ (41 : ℤ) = i) := fun h => h2 ⟨h.1.symm, h.2.symm⟩
      constructor
      · simp [totalRel, exTieRows, exReorderedRows, h1', h2']
      · simp [exTieRows, exReorderedRows, h1', h2']

-- both tables can be trained with rank 1, and give user 7 the same score for item 41
example (e : PSIEnv ℝ) : ∃ st st', svdTrain { e with la := realLA } ⟨1, 0, 1, none, false⟩ (exTieRows 2) = .ok st ∧
    svdTrain { e with la := realLA } ⟨1, 0, 1, none, false⟩ exReorderedRows = .ok st' ∧
    ∃ x, NamedScore st 7 41 x ∧ NamedScore st' 7 41 x := by
  have hu : FirstAppearance ((exTieRows 2).map Row.user) [7, 8] := firstAppearance_pdUnique [7, 8]
  have hi : FirstAppearance ((exTieRows 2).map Row.item) [40, 41] := firstAppearance_pdUnique [40, 41]
  have hu' : FirstAppearance (exReorderedRows.map Row.user) [8, 7] := firstAppearance_pdUnique [8, 7, 7]
  have hi' : FirstAppearance (exReorderedRows.map Row.item) [41, 40] := firstAppearance_pdUnique [41, 40, 40]
  have hs : SvdsOn realLA 1 (exTieRows 2) := fun us is h h' => by
    obtain rfl := h.unique hu
    obtain rfl := h'.unique hi
    exact realLA_svds (by decide) _
  have hs' : SvdsOn realLA 1 exReorderedRows := fun us is h h' => by
    obtain rfl := h.unique hu'
    obtain rfl := h'.unique hi'
    exact realLA_svds (by decide) _
  have hg : GapOn 1 (exTieRows 2) := fun us is h h' => by
    obtain rfl := h.unique hu
    obtain rfl := h'.unique hi
    exact exGap
  rcases C156_train { e with la := realLA } { e with la := realLA } ⟨1, 0, 1, none, false⟩ _ _ exReordered_same with
    ⟨st, st', h1, h2⟩ | ⟨h1, -⟩
  · exact ⟨st, st', h1, h2, C156_scores _ _ _ _ _ exReordered_same hs hs' hg st st' h1 h2 7 41
      (by simp [exTieRows]) (by simp [exTieRows])⟩
  · obtain ⟨st, h3, -⟩ := svdTrain_factors { e with la := realLA } ⟨1, 0, 1, none, false⟩ (exTieRows 2) [7, 8] [40, 41]
      hu hi (by decide) (by decide)
    rw [h3] at h1
    cases h1

end DynCF
