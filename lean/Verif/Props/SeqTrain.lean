/- Property C129: exactly when `TDRec.train` succeeds. -/
import Verif.Props.FullExperiment4

set_option linter.unusedSectionVars false

namespace DynCF
variable {K : Type}

/-! ### Specification -/

/-- The rank can be used for a tensor of this size: no entry exceeds the product of the other two or the
size of its mode. -/
def RankFits (r : ℕ × ℕ × ℕ) (n0 n1 n2 : ℕ) : Prop :=
  (r.1 ≤ r.2.1 * r.2.2 ∧ r.2.1 ≤ r.1 * r.2.2 ∧ r.2.2 ≤ r.1 * r.2.1) ∧ r.1 ≤ n0 ∧ r.2.1 ≤ n1 ∧ r.2.2 ≤ n2

/-- The numbers of distinct users and items of rows. -/
def numUsers (rows : List (Row K)) : ℕ := (rows.map Row.user).toFinset.card
def numItems (rows : List (Row K)) : ℕ := (rows.map Row.item).toFinset.card

/-- The longest sequence a user has in the table cropped to `L` is of length `n`. -/
def LongestIs (L n : ℕ) (rows : List (Row K)) : Prop :=
  (∀ u, min L (rowsOf u rows).length ≤ n) ∧ ∃ u, min L (rowsOf u rows).length = n

/-! ### Training -/

section
variable [Field K] [LinearOrder K]

theorem first_card {l ids : List ℤ} (h : FirstAppearance l ids) : ids.length = l.toFinset.card := by
  rw [← List.toFinset_card_of_nodup h.nodup]
  congr 1
  ext x
  simp only [List.mem_toFinset, h.mem]

theorem rank_pos {r : ℕ × ℕ × ℕ} {n0 n1 n2 : ℕ}
    (hv : r.1 ≤ r.2.1 * r.2.2 ∧ r.2.1 ≤ r.1 * r.2.2 ∧ r.2.2 ≤ r.1 * r.2.1)
    (h : n0 < r.1 ∨ n1 < r.2.1 ∨ n2 < r.2.2) : 0 < r.1 ∧ 0 < r.2.1 ∧ 0 < r.2.2 := by
  obtain ⟨h1, h2, h3⟩ := hv
  have key : ∀ a b c : ℕ, 0 < a → a ≤ b * c → 0 < b ∧ 0 < c := by
    intro a b c ha hle
    constructor
    · rcases Nat.eq_zero_or_pos b with rfl | hb
      · rw [Nat.zero_mul] at hle; omega
      · exact hb
    · rcases Nat.eq_zero_or_pos c with rfl | hb
      · rw [Nat.mul_zero] at hle; omega
      · exact hb
  rcases h with h | h | h
  · have := key _ _ _ (by omega) h1; exact ⟨by omega, this.1, this.2⟩
  · have := key _ _ _ (by omega) h2; exact ⟨this.1, by omega, this.2⟩
  · have := key _ _ _ (by omega) h3; exact ⟨this.1, this.2, by omega⟩

/-- `train` succeeds exactly if the positions reach exactly to the last place of the sequence and the rank
fits. -/
theorem tdTrain_iff {τ : Type} (c : TDCfg K) (m : TDAtt K) (hL : 1 ≤ c.seqLen) (hm : tdInit c = .ok m)
    (hn : 1 ≤ c.nIter) (cb : Option (ExitCallback K τ)) (cb0 : τ) (h0 : SeqHist) (data : List (PRow K))
    (hcb : ∀ f, cb = some f → ∀ t x g, ∃ r, f t x g = .ok r) (hpos : ∀ r ∈ data, 0 ≤ r.pos) :
    (∃ s, tdTrain c m cb cb0 h0 data = .ok s) ↔
      ((∀ r ∈ data, r.pos < c.seqLen) ∧ ∃ r ∈ data, r.pos + 1 = c.seqLen) ∧
      RankFits c.hooi.rank (numUsers (data.map PRow.row)) (numItems (data.map PRow.row)) c.seqLen := by
  have eU : ∀ {users}, FirstAppearance (data.map fun p => p.row.user) users →
      users.length = numUsers (data.map PRow.row) := fun h => by
    rw [first_card h]; unfold numUsers; rw [List.map_map]; rfl
  have eI : ∀ {items}, FirstAppearance (data.map fun p => p.row.item) items →
      items.length = numItems (data.map PRow.row) := fun h => by
    rw [first_card h]; unfold numItems; rw [List.map_map]; rfl
  by_cases hne : data = []
  · subst hne
    constructor
    · rintro ⟨s, h⟩
      rw [C28_empty] at h
      cases h
    · rintro ⟨⟨-, r, hr, -⟩, -⟩
      cases hr
  constructor
  · rintro ⟨s, h⟩
    obtain ⟨rows, mp, users, items, t, P, h1, h2, h3, h4, h5, ht, hsh, hp1, hp2, hlen, hrange⟩ :=
      C28_shape data hne hpos
    rw [← eU h2, ← eI h4]
    unfold tdTrain at h
    rw [h1, except_bind_ok] at h
    unfold tdFit at h
    dsimp only at h
    rw [ht, except_bind_ok] at h
    have hatt := tdInit_cols hL hm
    have hv : checkParams (tri t.shape) (triZ c.hooi.rank) = .ok () := by
      obtain ⟨r, hr, -⟩ := (bind_ok_iff _ _ _).1 h
      unfold gaSatf at hr
      obtain ⟨x, hx, -⟩ := (bind_ok_iff _ _ _).1 hr
      exact hx
    have hv' := (checkParams_ok_iff _ _).1 hv
    have hPL : P = c.seqLen := by
      by_contra hPL
      have hc : m.att.cols ≠ t.shape.2.2 := by
        rw [hatt.2.1, hsh]; exact fun e => hPL e.symm
      rcases gaSatf_att_mismatch c.hooi c.normOf (t.inds.map Inter.ind) t.vals t.shape m.att c.nIter
          c.growthTol cb cb0 c.force hv hc with ⟨-, he⟩ | ⟨f, g, he, hf⟩
      · rw [he] at h; cases h
      · rw [he, except_bind_ok] at h
        dsimp only at h
        rw [Mat.dot_error (by rw [hf]; exact hc)] at h
        cases h
    subst hPL
    refine ⟨⟨hp2, hp1⟩, hv', ?_⟩
    by_contra hr
    have hr : users.length < c.hooi.rank.1 ∨ items.length < c.hooi.rank.2.1 ∨ c.seqLen < c.hooi.rank.2.2 := by
      by_contra hh
      exact hr ⟨by omega, by omega, by omega⟩
    obtain ⟨es, he1, he2⟩ := coo_data_typed (n0 := users.length) (n1 := items.length) (n2 := c.seqLen)
      (t.inds.map Inter.ind) t.vals (by rw [List.length_map, hlen]) (by
        intro x hx
        obtain ⟨y, hy, rfl⟩ := List.mem_map.1 hx
        exact hrange y hy)
    obtain ⟨q1, q2, -, -⟩ := hatt
    obtain ⟨A, hA⟩ := Mat.eq_mk m.att q1 q2
    obtain ⟨r0, hr0⟩ := List.exists_mem_of_ne_nil data hne
    have hu0 : 0 < users.length := List.length_pos_of_mem ((h2.mem _).2 (List.mem_map_of_mem hr0))
    have hi0 : 0 < items.length := List.length_pos_of_mem ((h4.mem _).2 (List.mem_map_of_mem hr0))
    rw [he1, he2, hsh, hA, C81_rank_too_large c.hooi c.normOf es A c.nIter hn c.growthTol cb cb0 c.force hv'
      (rank_pos hv' hr) hu0 hi0 hr] at h
    cases h
  · rintro ⟨⟨h1, h2⟩, h3, h4⟩
    refine C28_success c m hL hm cb cb0 h0 data (fun r hr => ⟨hpos r hr, h1 r hr⟩) h2 h3 _ _
      (firstAppearance_pdUnique _) (firstAppearance_pdUnique _) ?_ fun f hf t x g _ => hcb f hf t x g
    rw [eU (firstAppearance_pdUnique _), eI (firstAppearance_pdUnique _)]
    exact h4

theorem places_mem (n : ℕ) (x : ℤ) : x ∈ (List.range n).map (fun i : ℕ => (i : ℤ)) ↔ 0 ≤ x ∧ x < n := by
  rw [List.mem_map]
  constructor
  · rintro ⟨k, hk, rfl⟩
    rw [List.mem_range] at hk
    omega
  · rintro ⟨h1, h2⟩
    exact ⟨x.toNat, by rw [List.mem_range]; omega, by omega⟩

theorem cropped_pos {L : ℕ} {df : List (Row K)} {t : List (PRow K)} (h : IsCropped L df t) :
    (∀ r ∈ t, 0 ≤ r.pos ∧ r.pos < min L (rowsOf r.row.user df).length) ∧
    ∀ u (j : ℕ), j < min L (rowsOf u df).length → ∃ r ∈ t, r.row.user = u ∧ r.pos = j := by
  constructor
  · intro r hr
    obtain ⟨s, -, -, h2⟩ := h.2 r.row.user
    have : r.pos ∈ (t.filter fun x => decide (x.row.user = r.row.user)).map PRow.pos :=
      List.mem_map_of_mem (List.mem_filter.2 ⟨hr, by simp⟩)
    rw [h2] at this
    exact (places_mem _ _).1 this
  · intro u j hj
    obtain ⟨s, -, -, h2⟩ := h.2 u
    have : (j : ℤ) ∈ (t.filter fun r => decide (r.row.user = u)).map PRow.pos := by
      rw [h2]
      exact (places_mem _ _).2 ⟨by omega, by omega⟩
    obtain ⟨r, hr, e⟩ := List.mem_map.1 this
    obtain ⟨h3, h4⟩ := List.mem_filter.1 hr
    exact ⟨r, h3, by simpa using h4, e⟩

/-- **C129, training.** On a table cropped to `L` places (as in the experiments), `train` with at least one
sweep succeeds exactly if the longest sequence fills exactly the places of the model and the rank fits the
numbers of distinct users and items that are left and the number of places. -/
theorem C129_train {τ : Type} (c : TDCfg K) (m : TDAtt K) (hS : 1 ≤ c.seqLen) (hm : tdInit c = .ok m)
    (hn : 1 ≤ c.nIter) (cb : Option (ExitCallback K τ)) (cb0 : τ) (h0 : SeqHist)
    (hcb : ∀ f, cb = some f → ∀ t x g, ∃ r, f t x g = .ok r)
    (L : ℕ) (rows : List (Row K)) (t : List (PRow K)) (ht : IsCropped L rows t) :
    (∃ s, tdTrain c m cb cb0 h0 t = .ok s) ↔
      LongestIs L c.seqLen rows ∧
      RankFits c.hooi.rank (numUsers (t.map PRow.row)) (numItems (t.map PRow.row)) c.seqLen := by
  obtain ⟨p1, p2⟩ := cropped_pos ht
  rw [tdTrain_iff c m hS hm hn cb cb0 h0 t hcb fun r hr => (p1 r hr).1]
  refine and_congr_left fun _ => ?_
  constructor
  · rintro ⟨h1, r, hr, h2⟩
    have hle : ∀ u, min L (rowsOf u rows).length ≤ c.seqLen := by
      intro u
      by_contra hh
      obtain ⟨r', g1, -, g3⟩ := p2 u c.seqLen (not_le.1 hh)
      have := h1 r' g1
      omega
    refine ⟨hle, r.row.user, le_antisymm (hle _) ?_⟩
    have := (p1 r hr).2
    omega
  · rintro ⟨h1, u, h2⟩
    constructor
    · intro r hr
      have g1 := (p1 r hr).2
      have g2 := h1 r.row.user
      omega
    · obtain ⟨r, g1, -, g3⟩ := p2 u (c.seqLen - 1) (by omega)
      exact ⟨r, g1, by omega⟩

end
end DynCF
