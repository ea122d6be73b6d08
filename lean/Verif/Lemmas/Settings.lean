/- Helper lemmas for C135: the two functions that build the core. -/
import Verif.Lemmas.Hooi
import Verif.Lemmas.TensorOps3
import Verif.Model.TuckerIntegrator

set_option linter.unusedSectionVars false
namespace DynCF
variable {K : Type}

/-- every completed step of a fold is completed from some state -/
theorem foldlM_steps {α β : Type} (f : β → α → PyM β) : ∀ (l : List α) (b r : β), l.foldlM f b = .ok r →
    ∀ x ∈ l, ∃ s s', f s x = .ok s'
  | [], _, _, _, x, hx => by cases hx
  | a :: l, b, r, h, x, hx => by
    rw [List.foldlM_cons] at h
    obtain ⟨s', h1, h2⟩ := (bind_ok_iff _ _ _).1 h
    rcases List.mem_cons.1 hx with rfl | hx
    · exact ⟨b, s', h1⟩
    · exact foldlM_steps f l s' r h2 x hx

/-- the index is accepted for an axis of length `n` -/
def IdxOk (n : ℕ) (z : ℤ) : Prop := ∃ i, pyIdx n z = .ok i

theorem row_idxOk (u : Mat K) (z : ℤ) (r : Fin u.cols → K) (h : u.row z = .ok r) : IdxOk u.rows z := by
  unfold Mat.row at h
  obtain ⟨i, h1, _⟩ := (bind_ok_iff _ _ _).1 h
  exact ⟨i, h1⟩

theorem row_of_idx (u : Mat K) (z : ℤ) (i : Fin u.rows) (h : pyIdx u.rows z = .ok i) : u.row z = .ok (u.val i) := by
  unfold Mat.row
  rw [h, except_bind_ok]
  rfl

section
variable [CommRing K]

theorem coreRows_idxOk (u1 u2 u3 : Mat K) (e : Ind3 × K) (r) (h : coreRows u1 u2 u3 e = .ok r) :
    IdxOk u1.rows e.1.1 ∧ IdxOk u2.rows e.1.2.1 ∧ IdxOk u3.rows e.1.2.2 := by
  unfold coreRows at h
  obtain ⟨a, h1, h⟩ := (bind_ok_iff _ _ _).1 h
  obtain ⟨b, h2, h⟩ := (bind_ok_iff _ _ _).1 h
  obtain ⟨c, h3, _⟩ := (bind_ok_iff _ _ _).1 h
  exact ⟨row_idxOk _ _ _ h1, row_idxOk _ _ _ h2, row_idxOk _ _ _ h3⟩

/-- entries with accepted indices, as entries with indices in range -/
theorem entries_typed (u1 u2 u3 : Mat K) : ∀ es : List (Ind3 × K),
    (∀ e ∈ es, IdxOk u1.rows e.1.1 ∧ IdxOk u2.rows e.1.2.1 ∧ IdxOk u3.rows e.1.2.2) →
    ∃ es' : List (Ent u1.rows u2.rows u3.rows K),
      List.Forall₂ (fun e e' => e.2 = e'.2 ∧ coreRows u1 u2 u3 e = coreRows u1 u2 u3 (Ent.ind e', e'.2)) es es'
  | [], _ => ⟨[], .nil⟩
  | e :: es, h => by
    obtain ⟨es', h'⟩ := entries_typed u1 u2 u3 es (fun x hx => h x (List.mem_cons_of_mem _ hx))
    obtain ⟨⟨i, hi⟩, ⟨j, hj⟩, ⟨k, hk⟩⟩ := h e List.mem_cons_self
    refine ⟨((i, j, k), e.2) :: es', .cons ⟨rfl, ?_⟩ h'⟩
    unfold coreRows
    rw [row_of_idx _ _ _ hi, row_of_idx _ _ _ hj, row_of_idx _ _ _ hk]
    simp only [Ent.ind]
    rw [row_of_idx _ _ _ (pyIdx_coe i), row_of_idx _ _ _ (pyIdx_coe j), row_of_idx _ _ _ (pyIdx_coe k)]

theorem foldlM_forall2 {α α' β : Type} (f : β → α → PyM β) (g : β → α' → PyM β) (l : List α) (l' : List α')
    (h : List.Forall₂ (fun a a' => ∀ b, f b a = g b a') l l') (b : β) : l.foldlM f b = l'.foldlM g b := by
  induction h generalizing b with
  | nil => rfl
  | cons h1 _ ih =>
    rw [List.foldlM_cons, List.foldlM_cons, h1]
    congr 1
    funext c
    exact ih c

/-- With accepted indices the two functions give the same core. -/
theorem core_variants (inds : List Ind3) (vals : List K) (u1 u2 u3 : Mat K)
    (h : ∀ e ∈ inds.zip vals, IdxOk u1.rows e.1.1 ∧ IdxOk u2.rows e.1.2.1 ∧ IdxOk u3.rows e.1.2.2) :
    constructCoreParallel inds vals u1 u2 u3 = constructCore inds vals u1 u2 u3 := by
  by_cases hl : vals.length ≤ inds.length
  · obtain ⟨es, hes⟩ := entries_typed u1 u2 u3 (inds.zip vals) h
    have hz : cooEntries inds vals = .ok (inds.zip vals) := by
      unfold cooEntries
      rw [if_pos hl]
    have hes' : List.Forall₂ (fun e e' => e.2 = e'.2 ∧ coreRows u1 u2 u3 e = coreRows u1 u2 u3 e')
        (inds.zip vals) (es.map fun e => (Ent.ind e, e.2)) := by
      rw [List.forall₂_map_right_iff]
      exact hes
    have h1 : constructCore inds vals u1 u2 u3 = constructCore (indsOf es) (valsOf es) u1 u2 u3 := by
      unfold constructCore
      rw [hz, cooEntries_typed, except_bind_ok, except_bind_ok]
      congr 1
      apply foldlM_forall2
      refine hes'.imp ?_
      rintro a b ⟨h1, h2⟩ core
      rw [h2, h1]
    have h2 : constructCoreParallel inds vals u1 u2 u3 =
        constructCoreParallel (indsOf es) (valsOf es) u1 u2 u3 := by
      unfold constructCoreParallel
      rw [hz, cooEntries_typed, except_bind_ok, except_bind_ok]
      congr 1
      congr 1
      funext core i
      unfold corePrangeBody
      apply foldlM_forall2
      refine hes'.imp ?_
      rintro a b ⟨h1, h2⟩ core
      rw [h2, h1]
    rw [h1, h2]
    have a := constructCore_typed es u1.val u2.val u3.val
    have b := constructCoreParallel_typed es u1.val u2.val u3.val
    exact b.trans a.symm
  · unfold constructCoreParallel constructCore cooEntries
    rw [if_neg hl]
    rfl

theorem coreFunction_flag (b b' : Bool) (inds : List Ind3) (vals : List K) (u1 u2 u3 : Mat K)
    (h : ∀ e ∈ inds.zip vals, IdxOk u1.rows e.1.1 ∧ IdxOk u2.rows e.1.2.1 ∧ IdxOk u3.rows e.1.2.2) :
    coreFunction b inds vals u1 u2 u3 = coreFunction b' inds vals u1 u2 u3 := by
  have := core_variants inds vals u1 u2 u3 h
  cases b <;> cases b' <;> simp [coreFunction, this]

/-- The indices accepted by `tensordot2`. -/
theorem tensordot2_idx (inds : List Ind3) (vals : List K) (s : ℕ × ℕ × ℕ) (u v : Mat K) (mu mv m0 n0 : ℕ)
    (h3 : 3 - ((mu : ℤ) + (mv : ℤ)) = m0) (hn : (tri s)[m0]? = some n0) (t : Ten K)
    (h : tensordot2 inds vals (tri s) u v ((mu : ℤ), (mv : ℤ)) = .ok t) :
    t.d0 = n0 ∧ ∀ e ∈ inds.zip vals, IdxOk n0 (e.1.at m0) ∧ IdxOk u.rows (e.1.at mu) ∧ IdxOk v.rows (e.1.at mv) := by
  unfold tensordot2 at h
  split at h
  · cases h
  split at h
  · cases h
  split at h
  · cases h
  split at h
  · cases h
  simp only [h3, Int.toNat_natCast, hn] at h
  obtain ⟨es, h1, h⟩ := (bind_ok_iff _ _ _).1 h
  obtain ⟨res, h2, h⟩ := (bind_ok_iff _ _ _).1 h
  have h := Except.ok.inj h
  subst h
  refine ⟨rfl, ?_⟩
  have hes : es = inds.zip vals := by
    unfold cooEntries at h1
    split at h1
    · exact (Except.ok.inj h1).symm
    · cases h1
  subst hes
  intro e he
  unfold doubleTensordot at h2
  obtain ⟨s0, s1, hs⟩ := foldlM_steps _ _ _ _ h2 e he
  obtain ⟨a, ha, hs⟩ := (bind_ok_iff _ _ _).1 hs
  obtain ⟨b, hb, hs⟩ := (bind_ok_iff _ _ _).1 hs
  obtain ⟨i0, hi, hs⟩ := (bind_ok_iff _ _ _).1 hs
  exact ⟨⟨i0, hi⟩, row_idxOk _ _ _ ha, row_idxOk _ _ _ hb⟩

theorem reshapeTo_rows (t : Ten K) (c : ℕ) (x : Mat K) (h : t.reshapeTo c = .ok x) : x.rows = t.d0 := by
  unfold Ten.reshapeTo at h
  split at h
  · have h := Except.ok.inj h
    subst h
    rfl
  · split at h <;> cases h

theorem projected_idx (inds : List Ind3) (vals : List K) (s : ℕ × ℕ × ℕ) (u v : Mat K) (mu mv ru rv m0 n0 : ℕ)
    (h3 : 3 - ((mu : ℤ) + (mv : ℤ)) = m0) (hn : (tri s)[m0]? = some n0) (x : Mat K)
    (h : projected inds vals s u v mu mv ru rv = .ok x) :
    x.rows = n0 ∧ ∀ e ∈ inds.zip vals, IdxOk n0 (e.1.at m0) ∧ IdxOk u.rows (e.1.at mu) ∧ IdxOk v.rows (e.1.at mv) := by
  unfold projected at h
  obtain ⟨t, h1, h2⟩ := (bind_ok_iff _ _ _).1 h
  obtain ⟨h4, h5⟩ := tensordot2_idx inds vals s u v mu mv m0 n0 h3 hn t h1
  exact ⟨(reshapeTo_rows _ _ _ h2).trans h4, h5⟩

theorem dot_rows (A B C : Mat K) (h : A.dot B = .ok C) : C.rows = A.rows := by
  unfold Mat.dot at h
  split at h
  · have h := Except.ok.inj h
    subst h
    rfl
  · cases h


/-- The parameters with another value of `parallel`. -/
def HooiPar.flag (p : HooiPar K) (b : Bool) : HooiPar K := { p with parallel := b }

theorem modeStep_flag (p : HooiPar K) (b : Bool) (att) (inds : List Ind3) (vals : List K) (s : ℕ × ℕ × ℕ)
    (i mode : ℕ) (f : Fac K) :
    modeStep (p.flag b) att inds vals s i mode f = modeStep p att inds vals s i mode f := rfl

theorem bind_congr_ok {α β : Type} (x : PyM α) (f g : α → PyM β) (h : ∀ a, x = .ok a → f a = g a) :
    (x >>= f) = (x >>= g) := by
  cases x with
  | error e => rfl
  | ok a => exact h a rfl

/-- A sweep of `ga_satf` does not depend on the flag: the indices have been used before the core is built. -/
theorem gaSatfSweep_flag (p : HooiPar K) (b : Bool) (inds : List Ind3) (vals : List K) (s : ℕ × ℕ × ℕ)
    (att : Mat K) (i : ℕ) (f : Fac K) :
    gaSatfSweep (p.flag b) inds vals s att i f = gaSatfSweep p inds vals s att i f := by
  unfold gaSatfSweep
  simp only [modeStep_flag]
  apply bind_congr_ok
  intro aw haw
  apply bind_congr_ok
  intro f1 h1
  apply bind_congr_ok
  intro f2 h2
  apply bind_congr_ok
  intro f3 h3
  apply bind_congr_ok
  intro aw' haw'
  congr 1
  apply coreFunction_flag
  unfold modeStep at h1 h2 h3
  simp only at h1 h2 h3
  obtain ⟨x1, e1, h1⟩ := (bind_ok_iff _ _ _).1 h1
  obtain ⟨x2, e2, h2⟩ := (bind_ok_iff _ _ _).1 h2
  obtain ⟨x3, e3, h3⟩ := (bind_ok_iff _ _ _).1 h3
  obtain ⟨x4, e4, h3⟩ := (bind_ok_iff _ _ _).1 h3
  have h1 := Except.ok.inj h1
  have h2 := Except.ok.inj h2
  have h3 := Except.ok.inj h3
  subst h1 h2 h3
  obtain ⟨r1, k1⟩ := projected_idx inds vals s _ _ 1 2 _ _ 0 s.1 (by norm_num) rfl _ e1
  obtain ⟨r2, k2⟩ := projected_idx inds vals s _ _ 0 2 _ _ 1 s.2.1 (by norm_num) rfl _ e2
  intro e he
  refine ⟨?_, ?_, ?_⟩
  · show IdxOk (leadingCols p i 0 p.rank.1 x1).rows _
    rw [leadingCols_rows, r1]
    exact (k1 e he).1
  · show IdxOk (leadingCols p i 1 p.rank.2.1 x2).rows _
    rw [leadingCols_rows, r2]
    exact (k2 e he).1
  · have := (k1 e he).2.2
    rw [dot_rows _ _ _ haw'] 
    rw [show ({ f with f2 := aw } : Fac K).f2.rows = att.rows from dot_rows _ _ _ haw] at this
    exact this

end

theorem gaSatf_flag [Field K] [LinearOrder K] {τ : Type} (p : HooiPar K) (b : Bool) (normOf : Ten K → K)
    (inds : List Ind3) (vals : List K) (shape : ℕ × ℕ × ℕ) (att : Mat K) (nIter : ℕ) (tol : K)
    (cb : Option (ExitCallback K τ)) (cb0 : τ) (init : Option (Fac K)) (force : Bool) :
    gaSatf (p.flag b) normOf inds vals shape att nIter tol cb cb0 init force =
      gaSatf p normOf inds vals shape att nIter tol cb cb0 init force := by
  have : gaSatfSweep (p.flag b) inds vals shape att = gaSatfSweep p inds vals shape att := by
    funext i f
    exact gaSatfSweep_flag p b inds vals shape att i f
  unfold gaSatf
  rw [this]
  rfl

/-- A sweep of `rp_hooi` does not depend on the flag. -/
theorem rpHooiSweep_flag [CommRing K] (p : HooiPar K) (b : Bool) (inds : List Ind3) (vals : List K)
    (s : ℕ × ℕ × ℕ) (i : ℕ) (f : Fac K) :
    rpHooiSweep (p.flag b) inds vals s i f = rpHooiSweep p inds vals s i f := by
  unfold rpHooiSweep
  simp only [modeStep_flag]
  apply bind_congr_ok
  intro f1 h1
  apply bind_congr_ok
  intro f2 h2
  apply bind_congr_ok
  intro f3 h3
  congr 1
  apply coreFunction_flag
  unfold modeStep at h1 h2 h3
  simp only at h1 h2 h3
  obtain ⟨x1, e1, h1⟩ := (bind_ok_iff _ _ _).1 h1
  obtain ⟨x2, e2, h2⟩ := (bind_ok_iff _ _ _).1 h2
  obtain ⟨x3, e3, h3⟩ := (bind_ok_iff _ _ _).1 h3
  obtain ⟨x4, e4, h3⟩ := (bind_ok_iff _ _ _).1 h3
  have h1 := Except.ok.inj h1
  have h2 := Except.ok.inj h2
  have h3 := Except.ok.inj h3
  have e4 := Except.ok.inj e4
  subst h1 h2 h3 e4
  obtain ⟨r1, k1⟩ := projected_idx inds vals s _ _ 1 2 _ _ 0 s.1 (by norm_num) rfl _ e1
  obtain ⟨r2, k2⟩ := projected_idx inds vals s _ _ 0 2 _ _ 1 s.2.1 (by norm_num) rfl _ e2
  obtain ⟨r3, k3⟩ := projected_idx inds vals s _ _ 0 1 _ _ 2 s.2.2 (by norm_num) rfl _ e3
  intro e he
  refine ⟨?_, ?_, ?_⟩
  · show IdxOk (leadingCols p i 0 p.rank.1 x1).rows _
    rw [leadingCols_rows, r1]
    exact (k1 e he).1
  · show IdxOk (leadingCols p i 1 p.rank.2.1 x2).rows _
    rw [leadingCols_rows, r2]
    exact (k2 e he).1
  · show IdxOk (leadingCols p i 2 p.rank.2.2 x3).rows _
    rw [leadingCols_rows, r3]
    exact (k3 e he).1

theorem rpHooi_flag [Field K] [LinearOrder K] (p : HooiPar K) (b : Bool) (normOf : Ten K → K)
    (inds : List Ind3) (vals : List K) (shape : ℕ × ℕ × ℕ) (nIter : ℕ) (tol : K) :
    rpHooi (p.flag b) normOf inds vals shape nIter tol = rpHooi p normOf inds vals shape nIter tol := by
  have : rpHooiSweep (p.flag b) inds vals shape = rpHooiSweep p inds vals shape := by
    funext i f
    exact rpHooiSweep_flag p b inds vals shape i f
  unfold rpHooi
  rw [this]
  rfl

/-! ### Completed computations that are reproduced -/

/-- whenever the first completes, the second completes with the same result -/
def Le {α : Type} (x y : PyM α) : Prop := ∀ r, x = .ok r → y = .ok r

theorem Le.refl {α : Type} (x : PyM α) : Le x x := fun _ h => h

theorem Le.of_eq {α : Type} {x y : PyM α} (h : x = y) : Le x y := h ▸ Le.refl x

theorem Le.bind {α β : Type} {x y : PyM α} {f g : α → PyM β} (h : Le x y) (hf : ∀ a, Le (f a) (g a)) :
    Le (x >>= f) (y >>= g) := by
  intro r hr
  obtain ⟨a, h1, h2⟩ := (bind_ok_iff _ _ _).1 hr
  rw [h a h1, except_bind_ok]
  exact hf a r h2

theorem Le.ite {α : Type} {c : Prop} [Decidable c] {x y x' y' : PyM α} (h : Le x x') (h' : Le y y') :
    Le (if c then x else y) (if c then x' else y') := by
  split
  · exact h
  · exact h'

theorem Le.foldlM {α β : Type} {f g : β → α → PyM β} (h : ∀ b a, Le (f b a) (g b a)) :
    ∀ (l : List α) (b : β), Le (l.foldlM f b) (l.foldlM g b)
  | [], b => Le.refl _
  | a :: l, b => by
    rw [List.foldlM_cons, List.foldlM_cons]
    exact (h b a).bind fun c => Le.foldlM h l c

theorem core_le [CommRing K] (inds : List Ind3) (vals : List K) (u1 u2 u3 : Mat K) (b : Bool) :
    Le (coreFunction false inds vals u1 u2 u3) (coreFunction b inds vals u1 u2 u3) := by
  intro r hr
  rw [← coreFunction_flag false b inds vals u1 u2 u3 ?_]
  · exact hr
  · intro e he
    have h : constructCore inds vals u1 u2 u3 = .ok r := hr
    unfold constructCore at h
    obtain ⟨es, h1, h⟩ := (bind_ok_iff _ _ _).1 h
    obtain ⟨c, h2, h⟩ := (bind_ok_iff _ _ _).1 h
    have hes : es = inds.zip vals := by
      unfold cooEntries at h1
      split at h1
      · exact (Except.ok.inj h1).symm
      · cases h1
    subst hes
    obtain ⟨s0, s1, hs⟩ := foldlM_steps _ _ _ _ h2 e he
    obtain ⟨q, hq, _⟩ := (bind_ok_iff _ _ _).1 hs
    exact coreRows_idxOk _ _ _ _ _ hq

theorem tuckerIntegrator_le [CommRing K] [DecidableEq K] (la : LinAlg K) (f : Fac K) (core : Ten K)
    (inds : List Ind3) (vals : List K) (shape : ℕ × ℕ × ℕ) (b : Bool) (att : Option (Mat K)) :
    Le (tuckerIntegrator la f core inds vals shape false att) (tuckerIntegrator la f core inds vals shape b att) := by
  unfold tuckerIntegrator
  refine (Le.refl _).bind fun r0 => (Le.refl _).bind fun r1 => (Le.refl _).bind fun r2 => (Le.refl _).bind fun w => ?_
  exact (core_le _ _ _ _ _ _).bind fun g => Le.refl _

/-! ### Rejected indices -/

theorem row_error (u : Mat K) (z : ℤ) (h : ¬ IdxOk u.rows z) : u.row z = .error .indexError := by
  unfold Mat.row
  have : pyIdx u.rows z = .error .indexError := by
    unfold pyIdx
    split
    · exact absurd ⟨_, by unfold pyIdx; rw [dif_pos (by assumption)]⟩ h
    · split
      · exact absurd ⟨_, by unfold pyIdx; rw [dif_neg (by assumption), dif_pos (by assumption)]⟩ h
      · rfl
  rw [this]
  rfl

/-- the rows of an entry are read, or an index is rejected -/
theorem coreRows_cases [CommRing K] (u1 u2 u3 : Mat K) (e : Ind3 × K) :
    (∃ r, coreRows u1 u2 u3 e = .ok r) ∨ coreRows u1 u2 u3 e = .error .indexError := by
  unfold coreRows
  by_cases h1 : IdxOk u1.rows e.1.1
  · obtain ⟨i, hi⟩ := h1
    rw [row_of_idx _ _ _ hi, except_bind_ok]
    by_cases h2 : IdxOk u2.rows e.1.2.1
    · obtain ⟨j, hj⟩ := h2
      rw [row_of_idx _ _ _ hj, except_bind_ok]
      by_cases h3 : IdxOk u3.rows e.1.2.2
      · obtain ⟨k, hk⟩ := h3
        rw [row_of_idx _ _ _ hk, except_bind_ok]
        exact Or.inl ⟨_, rfl⟩
      · rw [row_error _ _ h3]
        exact Or.inr rfl
    · rw [row_error _ _ h2]
      exact Or.inr rfl
  · rw [row_error _ _ h1]
    exact Or.inr rfl

/-- a fold with a step that fails from every state -/
theorem foldlM_bad {α β : Type} (f : β → α → PyM β) (x : PyErr)
    (hf : ∀ a, (∀ b, ∃ b', f b a = .ok b') ∨ ∀ b, f b a = .error x) :
    ∀ (l : List α) (b : β), (∃ a ∈ l, ∀ b, f b a = .error x) → l.foldlM f b = .error x
  | [], _, ⟨_, h, _⟩ => by cases h
  | a :: l, b, ⟨a', ha, h⟩ => by
    rw [List.foldlM_cons]
    rcases hf a with h1 | h1
    · obtain ⟨b', hb⟩ := h1 b
      rw [hb, except_bind_ok]
      rcases List.mem_cons.1 ha with rfl | ha
      · rw [h b] at hb
        cases hb
      · exact foldlM_bad f x hf l b' ⟨a', ha, h⟩
    · rw [h1 b]
      rfl

theorem coreStep_cases [CommRing K] (u1 u2 u3 : Mat K) {β : Type}
    (g : (Ind3 × K) → ((Fin u1.cols → K) × (Fin u2.cols → K) × (Fin u3.cols → K)) → β → β) (e : Ind3 × K) :
    (∀ b : β, ∃ b', (do let r ← coreRows u1 u2 u3 e; pure (g e r b) : PyM β) = .ok b') ∨
      ∀ b : β, (do let r ← coreRows u1 u2 u3 e; pure (g e r b) : PyM β) = .error .indexError := by
  rcases coreRows_cases u1 u2 u3 e with ⟨r, h⟩ | h
  · left
    intro b
    rw [h]
    exact ⟨_, rfl⟩
  · right
    intro b
    rw [h]
    rfl

/-- With at least one column the two functions agree in every case. -/
theorem core_variants_cols [CommRing K] (inds : List Ind3) (vals : List K) (u1 u2 u3 : Mat K) (hc : u1.cols ≠ 0) :
    constructCoreParallel inds vals u1 u2 u3 = constructCore inds vals u1 u2 u3 := by
  by_cases h : ∀ e ∈ inds.zip vals, IdxOk u1.rows e.1.1 ∧ IdxOk u2.rows e.1.2.1 ∧ IdxOk u3.rows e.1.2.2
  · exact core_variants inds vals u1 u2 u3 h
  · push Not at h
    obtain ⟨e, he, h⟩ := h
    have hbad : coreRows u1 u2 u3 e = .error .indexError := by
      rcases coreRows_cases u1 u2 u3 e with ⟨r, hr⟩ | hr
      · have := coreRows_idxOk _ _ _ _ _ hr
        exact absurd this.2.2 (h this.1 this.2.1)
      · exact hr
    by_cases hl : vals.length ≤ inds.length
    · have hz : cooEntries inds vals = .ok (inds.zip vals) := by
        unfold cooEntries
        rw [if_pos hl]
      have hbody : ∀ (i : Fin u1.cols) core, corePrangeBody (inds.zip vals) u1 u2 u3 i core = .error .indexError := by
        intro i core
        unfold corePrangeBody
        refine foldlM_bad _ _ (fun a => coreStep_cases u1 u2 u3 (fun e r core =>
          (List.finRange u2.cols).foldl (fun core j => (List.finRange u3.cols).foldl (fun core k =>
            addAt core i j k (e.2 * r.1 i * r.2.1 j * r.2.2 k)) core) core) a) _ _ ⟨e, he, fun b => ?_⟩
        rw [hbad]
        rfl
      have hseq : (inds.zip vals).foldlM (fun core e => do
          let r ← coreRows u1 u2 u3 e
          pure (coreEntryLoops e.2 r.1 r.2.1 r.2.2 core)) (fun _ _ _ => 0 : T3 u1.cols u2.cols u3.cols K) =
            .error .indexError := by
        refine foldlM_bad _ _ (fun a => coreStep_cases u1 u2 u3 (fun e r core => coreEntryLoops e.2 r.1 r.2.1 r.2.2 core) a)
          _ _ ⟨e, he, fun b => ?_⟩
        rw [hbad]
        rfl
      unfold constructCoreParallel constructCore
      rw [hz, except_bind_ok, except_bind_ok, hseq]
      have : (List.finRange u1.cols).foldlM (fun core i => corePrangeBody (inds.zip vals) u1 u2 u3 i core)
          (fun _ _ _ => 0 : T3 u1.cols u2.cols u3.cols K) = .error .indexError := by
        refine foldlM_bad _ _ (fun a => Or.inr fun b => hbody a b) _ _ ⟨⟨0, Nat.pos_of_ne_zero hc⟩, List.mem_finRange _, ?_⟩
        exact fun b => hbody _ b
      rw [this]
    · unfold constructCoreParallel constructCore cooEntries
      rw [if_neg hl]
      rfl

end DynCF
