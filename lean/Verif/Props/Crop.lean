/- Properties C08, C09: cropped position tables. -/
import Verif.Lemmas.Crop

namespace DynCF
variable {K : Type}

/-- positions of a list with `n` rows: 0, 1, ..., n-1 -/
private def posUpTo (n : ℕ) : List ℤ := (List.range n).map (fun i : ℕ => (i : ℤ))

/-- The table `res` is the cropped version of `df`: users in ascending order, and for each user
exactly the last (at most) `L` rows of that user's rows ordered by time (ties in table order),
numbered 0, 1, 2, ... -/
def IsCropped (L : ℕ) (df : List (Row K)) (res : List (PRow K)) : Prop :=
  res.Pairwise (fun a b => a.row.user ≤ b.row.user) ∧
  ∀ u, ∃ s, IsStableTimeSort (rowsOf u df) s ∧
    (res.filter fun r => decide (r.row.user = u)).map PRow.row = lastN L s ∧
    (res.filter fun r => decide (r.row.user = u)).map PRow.pos = posUpTo (min L (rowsOf u df).length)

theorem pairwise_flatMap_users (us : List ℤ) (f : ℤ → List (PRow K)) (hs : us.Pairwise (· < ·))
    (hf : ∀ u, ∀ r ∈ f u, r.row.user = u) :
    (us.flatMap f).Pairwise (fun a b => a.row.user ≤ b.row.user) := by
  induction us with
  | nil => simp
  | cons v us ih =>
    rw [List.pairwise_cons] at hs
    rw [List.flatMap_cons, List.pairwise_append]
    refine ⟨?_, ih hs.2, ?_⟩
    · rw [List.pairwise_iff_forall_sublist]
      intro a b hab
      rw [hf v a (hab.subset (by simp)), hf v b (hab.subset (by simp))]
    · intro a ha b hb
      obtain ⟨w, hw, hb⟩ := List.mem_flatMap.1 hb
      have := hs.1 w hw
      rw [hf v a ha, hf w b hb]; omega

/-- **C08** Cropping a non-empty table with `L ≥ 1` always succeeds and keeps exactly each user's
latest `L` rows in stable time order, positions counted from 0; the specification `IsCropped`
determines the result uniquely (`C08_crop_unique`). -/
theorem C08_crop (df : List (Row K)) (L : ℕ) (hL : 1 ≤ L) (hne : df ≠ []) :
    ∃ res, getDfWithCroppedPos df L true = .ok res ∧ IsCropped L df res := by
  refine ⟨_, getDfWithCroppedPos_eq df L true hL hne, ?_, ?_⟩
  · exact pairwise_flatMap_users _ _ (groupUsers_sorted df) (posed_user L df true)
  · intro u
    refine ⟨tsSort (rowsOf u df), tsSort_stable _, ?_, ?_⟩
    · rw [cropSpec_user, posed_rows]; rfl
    · rw [cropSpec_user, posed_pos, lastN_length]
      simp only [if_true]
      have : (tsSort (rowsOf u df)).length = (rowsOf u df).length := stableSort_length _ _
      rw [this]; rfl

/-- **C08** with `sort_bool=False`: the same, in the order the rows have in the table. -/
theorem C08_crop_unsorted (df : List (Row K)) (L : ℕ) (hL : 1 ≤ L) (hne : df ≠ []) :
    ∃ res, getDfWithCroppedPos df L false = .ok res ∧
      res.Pairwise (fun a b => a.row.user ≤ b.row.user) ∧
      ∀ u, (res.filter fun r => decide (r.row.user = u)).map PRow.row = lastN L (rowsOf u df) ∧
        (res.filter fun r => decide (r.row.user = u)).map PRow.pos =
          posUpTo (min L (rowsOf u df).length) := by
  refine ⟨_, getDfWithCroppedPos_eq df L false hL hne, ?_, ?_⟩
  · exact pairwise_flatMap_users _ _ (groupUsers_sorted df) (posed_user L df false)
  · intro u
    constructor
    · rw [cropSpec_user, posed_rows]; rfl
    · rw [cropSpec_user, posed_pos, lastN_length]; rfl

theorem prow_list_ext (a b : List (PRow K)) (h1 : a.map PRow.row = b.map PRow.row)
    (h2 : a.map PRow.pos = b.map PRow.pos) : a = b := by
  induction a generalizing b with
  | nil => cases b <;> simp_all
  | cons x a ih =>
    cases b with
    | nil => simp at h1
    | cons y b =>
      simp only [List.map_cons, List.cons.injEq] at h1 h2
      rw [ih b h1.2 h2.2]
      cases x; cases y; simp_all

/-- The specification of C08 leaves no freedom. -/
theorem C08_crop_unique (L : ℕ) (df : List (Row K)) (r1 r2 : List (PRow K))
    (h1 : IsCropped L df r1) (h2 : IsCropped L df r2) : r1 = r2 := by
  apply sorted_eq_of_filter_eq (fun r : PRow K => r.row.user) r1 r2 h1.1 h2.1
  intro u
  obtain ⟨s, hs, ha, hb⟩ := h1.2 u
  obtain ⟨s', hs', ha', hb'⟩ := h2.2 u
  rw [isStableTimeSort_unique hs' hs] at ha'
  exact prow_list_ext _ _ (ha.trans ha'.symm) (hb.trans hb'.symm)

theorem addOrderCropped_zero (x : List (Row K)) (hx : x ≠ []) :
    addOrderCropped x 0 = .error .valueError := by
  unfold addOrderCropped
  have : 0 < x.length := List.length_pos_of_ne_nil hx
  rw [if_neg (by omega)]
  simp only [if_true]
  rw [if_neg (by omega)]

/-- **C08**, error branches: `L = 0` on a non-empty table raises `ValueError`, an empty table
raises `KeyError`; by `C08_crop` nothing else fails. -/
theorem C08_crop_errors (df : List (Row K)) (b : Bool) :
    (df ≠ [] → getDfWithCroppedPos df 0 b = .error .valueError) ∧
    (∀ L, getDfWithCroppedPos ([] : List (Row K)) L b = .error .keyError) := by
  refine ⟨fun hne => ?_, fun L => rfl⟩
  unfold getDfWithCroppedPos
  have he : df.isEmpty = false := by cases df <;> simp_all
  simp only [he, Bool.false_eq_true, if_false]
  have hne' : (if b = true then sortUserTs df else df) ≠ [] := by
    cases b
    · exact hne
    · simp only [if_true]
      intro h
      apply hne
      have := stableSort_length (fun a b : Row K => decide (a.user < b.user ∨ (a.user = b.user ∧ a.ts ≤ b.ts))) df
      unfold sortUserTs at h
      rw [h] at this
      exact List.length_eq_zero_iff.1 this.symm
  generalize (if b = true then sortUserTs df else df) = d at hne' ⊢
  obtain ⟨r, hr⟩ := List.exists_mem_of_ne_nil _ hne'
  have hu : r.user ∈ groupUsers d := (mem_groupUsers d r.user).2 ⟨r, hr, rfl⟩
  have hall : ∀ u ∈ groupUsers d, addOrderCropped (d.filter fun r => decide (r.user = u)) 0 =
      .error .valueError := by
    intro u hu
    apply addOrderCropped_zero
    obtain ⟨r, hr, hru⟩ := (mem_groupUsers d u).1 hu
    have : r ∈ d.filter fun r => decide (r.user = u) := by rw [List.mem_filter]; simp [hr, hru]
    exact List.ne_nil_of_mem this
  cases hg : groupUsers d with
  | nil => rw [hg] at hu; cases hu
  | cons u us =>
    show ((pure PUnit.unit : PyM PUnit) >>= fun _ => _) = _
    rw [show (pure PUnit.unit : PyM PUnit) = Except.ok PUnit.unit from rfl, except_bind_ok,
      List.mapM_cons, hall u (by rw [hg]; simp)]
    rfl

/-- One step of the experiment's history: concatenate the new rows, crop again
(dynamical_experiment.py:155-160). -/
def cropStep (L : ℕ) (acc : List (PRow K)) (chunk : List (Row K)) : PyM (List (PRow K)) :=
  getDfWithCroppedPos (acc.map PRow.row ++ chunk) L true

/-- **C09** Cropping (cropped ++ new) is the same table as cropping all original rows. -/
theorem C09_incremental_crop (L : ℕ) (hL : 1 ≤ L) (a b : List (Row K)) (ha : a ≠ [])
    (res : List (PRow K)) (h : getDfWithCroppedPos a L true = .ok res) :
    getDfWithCroppedPos (res.map PRow.row ++ b) L true = getDfWithCroppedPos (a ++ b) L true := by
  rw [getDfWithCroppedPos_eq a L true hL ha] at h
  have h := Except.ok.inj h
  subst h
  rw [getDfWithCroppedPos_eq (a ++ b) L true hL (by simp [ha])]
  rw [getDfWithCroppedPos_eq _ L true hL, cropSpec_incremental L hL]
  intro hnil
  have h1 := cropSpec_incremental L hL a b
  rw [hnil] at h1
  obtain ⟨r, a', rfl⟩ := List.exists_cons_of_ne_nil ha
  have h2 := cropSpec_user L (r :: a' ++ b) true r.user
  rw [← h1] at h2
  have h3 := congrArg (List.map PRow.row) h2
  rw [posed_rows] at h3
  have h4 := congrArg List.length h3
  rw [lastN_length] at h4
  simp only [if_true] at h4
  have e : (tsSort (rowsOf r.user (r :: a' ++ b))).length = (rowsOf r.user (r :: a' ++ b)).length :=
    stableSort_length _ _
  have : 0 < (rowsOf r.user (r :: a' ++ b)).length := by
    unfold rowsOf; simp
  rw [e] at h4
  have h5 : (List.map PRow.row (List.filter (fun r_1 => decide (r_1.row.user = r.user))
      (cropSpec L ([] : List (Row K)) true))).length = 0 := rfl
  rw [h5] at h4
  omega

/-- **C09** for any number of steps: cropping after every chunk ends in the same table as cropping
the initial rows followed by all chunks once. -/
theorem C09_repeated_crop (L : ℕ) (hL : 1 ≤ L) (a : List (Row K)) (ha : a ≠ [])
    (chunks : List (List (Row K))) :
    (getDfWithCroppedPos a L true >>= fun r0 => chunks.foldlM (cropStep L) r0) =
      getDfWithCroppedPos (a ++ chunks.flatten) L true := by
  induction chunks generalizing a with
  | nil =>
    rw [getDfWithCroppedPos_eq a L true hL ha, except_bind_ok]
    simp only [List.flatten_nil, List.append_nil, List.foldlM_nil]
    rw [getDfWithCroppedPos_eq a L true hL ha]; rfl
  | cons c cs ih =>
    have hc := C09_incremental_crop L hL a c ha _ (getDfWithCroppedPos_eq a L true hL ha)
    rw [getDfWithCroppedPos_eq a L true hL ha, except_bind_ok, List.foldlM_cons]
    unfold cropStep at ih ⊢
    rw [hc]
    rw [ih (a ++ c) (by simp [ha])]
    simp

/-! Concrete instances. -/
private def exRows : List (Row ℤ) :=
  [⟨2, 5, 1, 30, 0⟩, ⟨1, 7, 1, 20, 0⟩, ⟨2, 6, 1, 10, 0⟩, ⟨2, 8, 1, 30, 0⟩, ⟨1, 9, 1, 5, 0⟩]

example : getDfWithCroppedPos exRows 2 true =
    .ok [⟨⟨1, 9, 1, 5, 0⟩, 0⟩, ⟨⟨1, 7, 1, 20, 0⟩, 1⟩, ⟨⟨2, 5, 1, 30, 0⟩, 0⟩, ⟨⟨2, 8, 1, 30, 0⟩, 1⟩] := by
  decide +kernel
example : exRows ≠ [] ∧ 1 ≤ 2 := by decide
example : (getDfWithCroppedPos (exRows.take 2) 2 true >>= fun r0 =>
    [(exRows.drop 2).take 2, exRows.drop 4].foldlM (cropStep 2) r0) =
    getDfWithCroppedPos exRows 2 true := by decide +kernel
example : getDfWithCroppedPos exRows 0 true = .error .valueError := by decide +kernel

end DynCF
