/-
The rounds of `TIRec.update` and `TIRecA.update` on states with given dimensions.
-/
import Verif.Lemmas.TIShape
import Verif.Lemmas.TIDelta

set_option linter.unusedSectionVars false

namespace DynCF
open Matrix
variable {K : Type}

/-! ### The two groups of new users and of new items -/

section
variable {nu ni : List ℤ} {δ : List DRow}

theorem newUsers_split (hnd : nu.Nodup) (hu : ∀ x ∈ nu, ∃ r ∈ δ, r.user = x) :
    (npUnique ((tiPart nu ni δ .new).map DRow.user) ++ npUnique ((tiPart nu ni δ .newUsers).map DRow.user)).Perm nu := by
  have m1 : ∀ x, x ∈ npUnique ((tiPart nu ni δ .new).map DRow.user) ↔ x ∈ nu ∧ ∃ r ∈ δ, r.user = x ∧ r.item ∈ ni := by
    intro x
    rw [mem_npUnique, List.mem_map]
    constructor
    · rintro ⟨r, hr, rfl⟩
      obtain ⟨h1, h2, h3⟩ := mem_tiPart.1 hr
      exact ⟨h2, r, h1, rfl, h3⟩
    · rintro ⟨hx, r, hr, rfl, hi⟩
      exact ⟨r, mem_tiPart.2 ⟨hr, hx, hi⟩, rfl⟩
  have m2 : ∀ x, x ∈ npUnique ((tiPart nu ni δ .newUsers).map DRow.user) ↔
      x ∈ nu ∧ ∀ r ∈ δ, r.user = x → r.item ∉ ni := by
    intro x
    rw [mem_npUnique, List.mem_map]
    constructor
    · rintro ⟨r, hr, rfl⟩
      exact (mem_tiPart.1 hr).2
    · rintro ⟨hx, h⟩
      obtain ⟨r, hr, rfl⟩ := hu x hx
      exact ⟨r, mem_tiPart.2 ⟨hr, hx, h⟩, rfl⟩
  rw [List.perm_ext_iff_of_nodup ?_ hnd]
  · intro x
    rw [List.mem_append, m1, m2]
    constructor
    · rintro (h | h) <;> exact h.1
    · intro hx
      by_cases he : ∃ r ∈ δ, r.user = x ∧ r.item ∈ ni
      · exact Or.inl ⟨hx, he⟩
      · push Not at he
        exact Or.inr ⟨hx, he⟩
  · rw [List.nodup_append]
    refine ⟨npUnique_nodup _, npUnique_nodup _, ?_⟩
    rintro x hx y hy rfl
    obtain ⟨_, r, hr, h1, h2⟩ := (m1 x).1 hx
    exact ((m2 x).1 hy).2 r hr h1 h2

theorem newItems_split (hnd : ni.Nodup) (hi : ∀ x ∈ ni, ∃ r ∈ δ, r.item = x) :
    (npUnique ((tiPart nu ni δ .new).map DRow.item) ++ npUnique ((tiPart nu ni δ .newItems).map DRow.item)).Perm ni := by
  have m1 : ∀ x, x ∈ npUnique ((tiPart nu ni δ .new).map DRow.item) ↔ x ∈ ni ∧ ∃ r ∈ δ, r.item = x ∧ r.user ∈ nu := by
    intro x
    rw [mem_npUnique, List.mem_map]
    constructor
    · rintro ⟨r, hr, rfl⟩
      obtain ⟨h1, h2, h3⟩ := mem_tiPart.1 hr
      exact ⟨h3, r, h1, rfl, h2⟩
    · rintro ⟨hx, r, hr, rfl, hi⟩
      exact ⟨r, mem_tiPart.2 ⟨hr, hi, hx⟩, rfl⟩
  have m2 : ∀ x, x ∈ npUnique ((tiPart nu ni δ .newItems).map DRow.item) ↔
      x ∈ ni ∧ ∀ r ∈ δ, r.item = x → r.user ∉ nu := by
    intro x
    rw [mem_npUnique, List.mem_map]
    constructor
    · rintro ⟨r, hr, rfl⟩
      exact (mem_tiPart.1 hr).2
    · rintro ⟨hx, h⟩
      obtain ⟨r, hr, rfl⟩ := hi x hx
      exact ⟨r, mem_tiPart.2 ⟨hr, hx, h⟩, rfl⟩
  rw [List.perm_ext_iff_of_nodup ?_ hnd]
  · intro x
    rw [List.mem_append, m1, m2]
    constructor
    · rintro (h | h) <;> exact h.1
    · intro hx
      by_cases he : ∃ r ∈ δ, r.item = x ∧ r.user ∈ nu
      · exact Or.inl ⟨hx, he⟩
      · push Not at he
        exact Or.inr ⟨hx, he⟩
  · rw [List.nodup_append]
    refine ⟨npUnique_nodup _, npUnique_nodup _, ?_⟩
    rintro x hx y hy rfl
    obtain ⟨_, r, hr, h1, h2⟩ := (m1 x).1 hx
    exact ((m2 x).1 hy).2 r hr h1 h2

end

/-- A delta in which `a` new users (numbered from `U0`) and `b` new items (from `I0`) occur. -/
structure DeltaOk (U0 a I0 b L : ℕ) (nu ni : List ℤ) (δ : List DRow) : Prop where
  newUsers : nu = idRange U0 a
  newItems : ni = idRange I0 b
  user : ∀ r ∈ δ, 0 ≤ r.user ∧ r.user < (U0 + a : ℕ)
  item : ∀ r ∈ δ, 0 ≤ r.item ∧ r.item < (I0 + b : ℕ)
  pos : ∀ r ∈ δ, 0 ≤ r.pos ∧ r.pos < L
  usersOccur : ∀ x ∈ nu, ∃ r ∈ δ, r.user = x
  itemsOccur : ∀ x ∈ ni, ∃ r ∈ δ, r.item = x

section
variable [Field K] [LinearOrder K] [IsStrictOrderedRing K]
variable {vec : TIVectors K} {cfg : TICfg K} {m : TDAtt K} {fits : ℕ → ℕ → Prop}

/-- numbers of new users and items of a part -/
def partUsers (nu ni : List ℤ) (δ : List DRow) (md : PsiMode) : ℕ := (npUnique ((tiPart nu ni δ md).map DRow.user)).length
def partItems (nu ni : List ℤ) (δ : List DRow) (md : PsiMode) : ℕ := (npUnique ((tiPart nu ni δ md).map DRow.item)).length

theorem DeltaOk.countUsers {U0 a I0 b L : ℕ} {nu ni : List ℤ} {δ : List DRow} (h : DeltaOk U0 a I0 b L nu ni δ) :
    partUsers nu ni δ .new + partUsers nu ni δ .newUsers = a := by
  have := (newUsers_split (ni := ni) (by rw [h.newUsers]; exact idRange_nodup _ _) h.usersOccur).length_eq
  rw [List.length_append] at this
  unfold partUsers
  rw [this, h.newUsers, idRange_length]

theorem DeltaOk.countItems {U0 a I0 b L : ℕ} {nu ni : List ℤ} {δ : List DRow} (h : DeltaOk U0 a I0 b L nu ni δ) :
    partItems nu ni δ .new + partItems nu ni δ .newItems = b := by
  have := (newItems_split (nu := nu) (by rw [h.newItems]; exact idRange_nodup _ _) h.itemsOccur).length_eq
  rw [List.length_append] at this
  unfold partItems
  rw [this, h.newItems, idRange_length]

theorem DeltaOk.oldItem {U0 a I0 b L : ℕ} {nu ni : List ℤ} {δ : List DRow} (h : DeltaOk U0 a I0 b L nu ni δ) {r : DRow}
    (hr : r ∈ δ) (hn : r.item ∉ ni) : 0 ≤ r.item ∧ r.item < I0 := by
  have h1 := h.item r hr
  rw [h.newItems, mem_idRange] at hn
  omega

theorem DeltaOk.oldUser {U0 a I0 b L : ℕ} {nu ni : List ℤ} {δ : List DRow} (h : DeltaOk U0 a I0 b L nu ni δ) {r : DRow}
    (hr : r ∈ δ) (hn : r.user ∉ nu) : 0 ≤ r.user ∧ r.user < U0 := by
  have h1 := h.user r hr
  rw [h.newUsers, mem_idRange] at hn
  omega

theorem TIDims.mono {n0 n1 n2 r0 r1 r2 : ℕ} (h : TIDims n0 n1 n2 r0 r1 r2) (a b : ℕ) :
    TIDims (n0 + a) (n1 + b) n2 r0 r1 r2 :=
  ⟨h.h0, h.h1, h.h2, h.n0.trans (Nat.le_add_right _ _), h.n1.trans (Nat.le_add_right _ _), h.n2⟩

section
variable (att : Option (Matrix (Fin cfg.td.seqLen) (Fin cfg.td.seqLen) K)) (hatt : tiAttArg cfg m = attArg att)
    {st : TDState K} {U0 a I0 b r0 r1 r2 : ℕ} {nu ni : List ℤ} {δ : List DRow}
    (hδ : DeltaOk U0 a I0 b cfg.td.seqLen nu ni δ)
include hatt hδ

/-- the block step -/
theorem round_new (h : TIShape st U0 I0 cfg.td.seqLen r0 r1 r2) (hd : TIDims U0 I0 cfg.td.seqLen r0 r1 r2) :
    ∃ st', tiUpdateFactors vec cfg m st (tiPart nu ni δ .new) .new = .ok st' ∧
      TIShape st' (U0 + partUsers nu ni δ .new) (I0 + partItems nu ni δ .new) cfg.td.seqLen r0 r1 r2 ∧ TISame st st' := by
  unfold tiUpdateFactors
  split
  · exact tiStep_new att hatt h hd _ fun r hr => hδ.pos r (mem_tiPart.1 hr).1
  · rename_i hne
    have he : tiPart nu ni δ .new = [] := List.length_eq_zero_iff.1 (by omega)
    refine ⟨st, rfl, ?_, TISame.refl _⟩
    unfold partUsers partItems
    rw [he]
    exact h

/-- the step for new users -/
theorem round_newUsers (hvec : TIVecOk vec cfg fits) (hf0 : ∀ N, fits 0 N)
    (h : TIShape st (U0 + partUsers nu ni δ .new) (I0 + partItems nu ni δ .new) cfg.td.seqLen r0 r1 r2)
    (hd : TIDims U0 I0 cfg.td.seqLen r0 r1 r2) (hpos : 0 < r0) :
    (fits (partUsers nu ni δ .newUsers) (cfg.td.seqLen * (I0 + partItems nu ni δ .new)) →
      ∃ st', tiUpdateFactors vec cfg m st (tiPart nu ni δ .newUsers) .newUsers = .ok st' ∧
        TIShape st' (U0 + a) (I0 + partItems nu ni δ .new) cfg.td.seqLen r0 r1 r2 ∧ TISame st st') ∧
    (¬ fits (partUsers nu ni δ .newUsers) (cfg.td.seqLen * (I0 + partItems nu ni δ .new)) →
      tiUpdateFactors vec cfg m st (tiPart nu ni δ .newUsers) .newUsers = .error .valueError) := by
  have hcount := hδ.countUsers
  unfold tiUpdateFactors
  split
  · have := tiStep_users att hatt hvec h (hd.mono _ _) hpos (tiPart nu ni δ .newUsers)
      (by
        intro r hr
        obtain ⟨h1, h2⟩ := mem_tiPart.1 hr
        have := hδ.oldItem h1 (h2.2 r h1 rfl)
        push_cast
        omega) (fun r hr => hδ.pos r (mem_tiPart.1 hr).1)
    rw [Nat.add_assoc, show partUsers nu ni δ .new + (npUnique ((tiPart nu ni δ .newUsers).map DRow.user)).length = a from
      hcount] at this
    exact this
  · rename_i hne
    have he : tiPart nu ni δ .newUsers = [] := List.length_eq_zero_iff.1 (by omega)
    have hz : partUsers nu ni δ .newUsers = 0 := by unfold partUsers; rw [he]; rfl
    rw [hz]
    refine ⟨fun _ => ⟨st, rfl, ?_, TISame.refl _⟩, fun hf => absurd (hf0 _) hf⟩
    rw [hz, Nat.add_zero] at hcount
    rw [← hcount]
    exact h

/-- the step for new items -/
theorem round_newItems (hvec : TIVecOk vec cfg fits) (hf0 : ∀ N, fits 0 N)
    (h : TIShape st (U0 + a) (I0 + partItems nu ni δ .new) cfg.td.seqLen r0 r1 r2)
    (hd : TIDims U0 I0 cfg.td.seqLen r0 r1 r2) (hpos : 0 < r1) :
    (fits (partItems nu ni δ .newItems) (cfg.td.seqLen * (U0 + a)) →
      ∃ st', tiUpdateFactors vec cfg m st (tiPart nu ni δ .newItems) .newItems = .ok st' ∧
        TIShape st' (U0 + a) (I0 + b) cfg.td.seqLen r0 r1 r2 ∧ TISame st st') ∧
    (¬ fits (partItems nu ni δ .newItems) (cfg.td.seqLen * (U0 + a)) →
      tiUpdateFactors vec cfg m st (tiPart nu ni δ .newItems) .newItems = .error .valueError) := by
  have hcount := hδ.countItems
  unfold tiUpdateFactors
  split
  · have := tiStep_items att hatt hvec h (hd.mono _ _) hpos (tiPart nu ni δ .newItems)
      (by
        intro r hr
        obtain ⟨h1, h2⟩ := mem_tiPart.1 hr
        have := hδ.oldUser h1 (h2.2 r h1 rfl)
        push_cast
        omega) (fun r hr => hδ.pos r (mem_tiPart.1 hr).1)
    rw [Nat.add_assoc, show partItems nu ni δ .new + (npUnique ((tiPart nu ni δ .newItems).map DRow.item)).length = b from
      hcount] at this
    exact this
  · rename_i hne
    have he : tiPart nu ni δ .newItems = [] := List.length_eq_zero_iff.1 (by omega)
    have hz : partItems nu ni δ .newItems = 0 := by unfold partItems; rw [he]; rfl
    rw [hz]
    refine ⟨fun _ => ⟨st, rfl, ?_, TISame.refl _⟩, fun hf => absurd (hf0 _) hf⟩
    rw [hz, Nat.add_zero] at hcount
    rw [← hcount]
    exact h

/-- the integrator -/
theorem round_old (hqr : QrAlways cfg.td.hooi.la) (h : TIShape st (U0 + a) (I0 + b) cfg.td.seqLen r0 r1 r2)
    (hd : TIDims U0 I0 cfg.td.seqLen r0 r1 r2) (data : List DRow) (hsub : ∀ r ∈ data, r ∈ δ) :
    ∃ st', tiUpdateFactors vec cfg m st data .old = .ok st' ∧
      TIShape st' (U0 + a) (I0 + b) cfg.td.seqLen r0 r1 r2 ∧ TISame st st' := by
  unfold tiUpdateFactors
  split
  · rename_i hne
    exact tiStep_old att hatt hqr h (hd.mono _ _) data (by rintro rfl; simp at hne)
      (fun r hr => hδ.user r (hsub r hr)) (fun r hr => hδ.item r (hsub r hr)) (fun r hr => hδ.pos r (hsub r hr))
  · exact ⟨st, rfl, h, TISame.refl _⟩

/-- the numbers of vectors added in the vector steps fit -/
def TIFits (fits : ℕ → ℕ → Prop) (U0 a I0 L : ℕ) (nu ni : List ℤ) (δ : List DRow) : Prop :=
  fits (partUsers nu ni δ .newUsers) (L * (I0 + partItems nu ni δ .new)) ∧
    fits (partItems nu ni δ .newItems) (L * (U0 + a))

/-- The rounds of `TIRec.update`: they end without error exactly if there are not too many new users and items at
once, and then the factors have one row per user and item. -/
theorem tirecRounds_shape (hqr : QrAlways cfg.td.hooi.la) (hne : δ ≠ [])
    (h : TIShape st U0 I0 cfg.td.seqLen r0 r1 r2) (hd : TIDims U0 I0 cfg.td.seqLen r0 r1 r2) (h0 : 0 < r0) (h1 : 0 < r1) :
    (TIFits (fun n N => n ≤ N) U0 a I0 cfg.td.seqLen nu ni δ →
      ∃ st', tirecRounds cfg m st nu ni δ = .ok ⟨st', [], [], [], [(.new, tiPart nu ni δ .new),
        (.newUsers, tiPart nu ni δ .newUsers), (.newItems, tiPart nu ni δ .newItems), (.old, tiPart nu ni δ .old)]⟩ ∧
        TIShape st' (U0 + a) (I0 + b) cfg.td.seqLen r0 r1 r2 ∧ TISame st st') ∧
    (¬ TIFits (fun n N => n ≤ N) U0 a I0 cfg.td.seqLen nu ni δ → tirecRounds cfg m st nu ni δ = .error .valueError) := by
  rw [tirecRounds_eq cfg m st nu ni δ hne hδ.usersOccur hδ.itemsOccur]
  have hvec := tirecVectors_ok cfg hqr
  obtain ⟨st1, e1, s1, q1⟩ := round_new (vec := tirecVectors) att hatt hδ h hd
  obtain ⟨k2, b2⟩ := round_newUsers att hatt hδ hvec (fun _ => Nat.zero_le _) s1 hd h0
  rw [e1, except_bind_ok]
  by_cases f2 : partUsers nu ni δ .newUsers ≤ cfg.td.seqLen * (I0 + partItems nu ni δ .new)
  · obtain ⟨st2, e2, s2, q2⟩ := k2 f2
    obtain ⟨k3, b3⟩ := round_newItems att hatt hδ hvec (fun _ => Nat.zero_le _) s2 hd h1
    rw [e2, except_bind_ok]
    by_cases f3 : partItems nu ni δ .newItems ≤ cfg.td.seqLen * (U0 + a)
    · obtain ⟨st3, e3, s3, q3⟩ := k3 f3
      obtain ⟨st4, e4, s4, q4⟩ := round_old (vec := tirecVectors) att hatt hδ hqr s3 hd (tiPart nu ni δ .old)
        (fun r hr => (mem_tiPart.1 hr).1)
      rw [e3, except_bind_ok, e4, except_bind_ok]
      exact ⟨fun _ => ⟨st4, rfl, s4, ((q1.trans q2).trans q3).trans q4⟩, fun hn => absurd ⟨f2, f3⟩ hn⟩
    · rw [b3 f3]
      exact ⟨fun hf => absurd hf.2 f3, fun _ => rfl⟩
  · rw [b2 f2]
    exact ⟨fun hf => absurd hf.1 f2, fun _ => rfl⟩

/-- The rounds of `TIRecA.update` (default): they end without error. -/
theorem tirecaRounds_shape (hqr : QrAlways cfg.td.hooi.la) (hne : δ ≠ [])
    (h : TIShape st U0 I0 cfg.td.seqLen r0 r1 r2) (hd : TIDims U0 I0 cfg.td.seqLen r0 r1 r2) (h0 : 0 < r0) (h1 : 0 < r1) :
    ∃ st', tirecaRounds cfg m st nu ni δ = .ok ⟨st', [], [], [], [(.new, tiPart nu ni δ .new),
        (.newUsers, tiPart nu ni δ .newUsers), (.newItems, tiPart nu ni δ .newItems), (.old, δ)]⟩ ∧
      TIShape st' (U0 + a) (I0 + b) cfg.td.seqLen r0 r1 r2 ∧ TISame st st' := by
  rw [tirecaRounds_eq cfg m st nu ni δ hne hδ.usersOccur hδ.itemsOccur]
  have hvec := tirecaVectors_ok cfg hqr
  obtain ⟨st1, e1, s1, q1⟩ := round_new (vec := tirecaVectors) att hatt hδ h hd
  obtain ⟨st2, e2, s2, q2⟩ := (round_newUsers att hatt hδ hvec (fun _ => trivial) s1 hd h0).1 trivial
  obtain ⟨st3, e3, s3, q3⟩ := (round_newItems att hatt hδ hvec (fun _ => trivial) s2 hd h1).1 trivial
  obtain ⟨st4, e4, s4, q4⟩ := round_old (vec := tirecaVectors) att hatt hδ hqr s3 hd δ (fun r hr => hr)
  rw [e1, except_bind_ok, e2, except_bind_ok, e3, except_bind_ok, e4, except_bind_ok]
  exact ⟨st4, rfl, s4, ((q1.trans q2).trans q3).trans q4⟩

/-- `TIRecA.update` with `_nu_ni_process_integrator`. -/
theorem tirecaIntegrator_shape (hqr : QrAlways cfg.td.hooi.la) (hne : δ ≠ [])
    (h : TIShape st U0 I0 cfg.td.seqLen r0 r1 r2) (hd : TIDims U0 I0 cfg.td.seqLen r0 r1 r2) :
    ∃ st', tirecaIntegrator cfg m st nu ni δ = .ok ⟨st', [], nu, ni, [(.old, δ)]⟩ ∧
      TIShape st' (U0 + a) (I0 + b) cfg.td.seqLen r0 r1 r2 ∧ TISame st st' := by
  have ha : nu.length = a := by rw [hδ.newUsers, idRange_length]
  have hb : ni.length = b := by rw [hδ.newItems, idRange_length]
  obtain ⟨st1, e1, s1, q1⟩ := tiEmbUsers_shape cfg hqr h a hd.n0
  obtain ⟨st2, e2, s2, q2⟩ := tiEmbItems_shape cfg hqr s1 b hd.n1
  obtain ⟨st3, e3, s3, q3⟩ := round_old (vec := tirecaVectors) att hatt hδ hqr s2 hd δ (fun r hr => hr)
  refine ⟨st3, ?_, s3, (q1.trans q2).trans q3⟩
  unfold tirecaIntegrator tiConcat
  rw [if_neg (by simpa using hne), except_bind_ok, ha, hb, e1, except_bind_ok, e2, except_bind_ok, e3]
  rfl

end
end
end DynCF
