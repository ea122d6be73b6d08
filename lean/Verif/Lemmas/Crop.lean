/- Helper lemmas for cropping. -/
import Verif.Lemmas.Sort
import Verif.Lemmas.History

namespace DynCF
variable {K : Type}

/-- sort by time, stably -/
def tsSort (l : List (Row K)) : List (Row K) := stableSort (fun a b => decide (a.ts ≤ b.ts)) l

/-- positions 0,1,2,... -/
def posed (l : List (Row K)) : List (PRow K) :=
  (l.zip (List.range l.length)).map fun p => ⟨p.1, (p.2 : ℤ)⟩

theorem ts_trans : ∀ a b c : Row K, decide (a.ts ≤ b.ts) = true → decide (b.ts ≤ c.ts) = true →
    decide (a.ts ≤ c.ts) = true := by
  intro a b c; simp only [decide_eq_true_eq]; omega

theorem ts_total : ∀ a b : Row K, decide (a.ts ≤ b.ts) = true ∨ decide (b.ts ≤ a.ts) = true := by
  intro a b; simp only [decide_eq_true_eq]; omega

/-- the lexicographic order of `sort_values(by=[USER_ID, TIMESTAMP])` -/
def lexLe (a b : Row K) : Bool := decide (a.user < b.user ∨ (a.user = b.user ∧ a.ts ≤ b.ts))

theorem lex_trans : ∀ a b c : Row K, lexLe a b = true → lexLe b c = true → lexLe a c = true := by
  intro a b c; simp only [lexLe, decide_eq_true_eq]; omega

theorem lex_total : ∀ a b : Row K, lexLe a b = true ∨ lexLe b a = true := by
  intro a b; simp only [lexLe, decide_eq_true_eq]; omega

theorem rowsOf_sortUserTs (df : List (Row K)) (u : ℤ) :
    rowsOf u (sortUserTs df) = tsSort (rowsOf u df) := by
  have : sortUserTs df = stableSort lexLe df := rfl
  unfold rowsOf tsSort
  rw [this, filter_stableSort lex_trans lex_total]
  apply stableSort_congr
  intro x hx y hy
  have hx' : x.user = u := by simpa using (List.mem_filter.1 hx).2
  have hy' : y.user = u := by simpa using (List.mem_filter.1 hy).2
  unfold lexLe
  rw [decide_eq_decide]; omega

theorem tsSort_stable (l : List (Row K)) : IsStableTimeSort l (tsSort l) := by
  refine ⟨?_, ?_⟩
  · refine (stableSort_sorted ts_trans ts_total l).imp ?_
    intro a b h; simpa using h
  · intro t
    unfold tsSort
    rw [filter_stableSort ts_trans ts_total]
    apply stableSort_of_sorted
    rw [List.pairwise_iff_forall_sublist]
    intro a b hab
    have ha : a ∈ l.filter (fun r => decide (r.ts = t)) := hab.subset (by simp)
    have hb : b ∈ l.filter (fun r => decide (r.ts = t)) := hab.subset (by simp)
    have ha' : a.ts = t := by simpa using (List.mem_filter.1 ha).2
    have hb' : b.ts = t := by simpa using (List.mem_filter.1 hb).2
    simp [ha', hb']

theorem isStableTimeSort_unique {l a b : List (Row K)} (ha : IsStableTimeSort l a)
    (hb : IsStableTimeSort l b) : a = b :=
  sorted_eq_of_filter_eq Row.ts a b ha.1 hb.1 (fun t => by rw [ha.2 t, hb.2 t])

theorem groupUsers_sorted (df : List (Row K)) : (groupUsers df).Pairwise (· < ·) := by
  unfold groupUsers
  have h1 := stableSort_sorted (le := fun a b : ℤ => decide (a ≤ b))
    (by intro a b c; simp only [decide_eq_true_eq]; omega)
    (by intro a b; simp only [decide_eq_true_eq]; omega) (pdUnique (df.map Row.user))
  have h2 : (stableSort (fun a b : ℤ => decide (a ≤ b)) (pdUnique (df.map Row.user))).Nodup :=
    (stableSort_perm _ _).nodup_iff.2 (nodup_pdUnique _)
  have := h1.and h2
  refine this.imp ?_
  rintro a b ⟨h, hne⟩
  have : a ≤ b := by simpa using h
  have : a ≠ b := hne
  omega

theorem mem_groupUsers (df : List (Row K)) (u : ℤ) :
    u ∈ groupUsers df ↔ ∃ r ∈ df, r.user = u := by
  unfold groupUsers
  rw [mem_stableSort, mem_pdUnique, List.mem_map]

theorem groupUsers_congr (df df' : List (Row K))
    (h : ∀ u, (∃ r ∈ df, r.user = u) ↔ ∃ r ∈ df', r.user = u) : groupUsers df = groupUsers df' :=
  strictly_sorted_unique _ _ (groupUsers_sorted _) (groupUsers_sorted _) (fun u => by
    rw [mem_groupUsers, mem_groupUsers, h u])

theorem groupUsers_sortUserTs (df : List (Row K)) : groupUsers (sortUserTs df) = groupUsers df := by
  apply groupUsers_congr
  intro u
  have : ∀ r, r ∈ sortUserTs df ↔ r ∈ df := fun r => mem_stableSort _ _ r
  simp only [this]

theorem posed_pos_ne (l : List (Row K)) : ∀ r ∈ posed l, r.pos ≠ PAD := by
  intro r hr
  obtain ⟨p, _, rfl⟩ := List.mem_map.1 hr
  simp only [PAD]; omega

theorem posed_rows (l : List (Row K)) : (posed l).map PRow.row = l := by
  unfold posed
  rw [List.map_map]
  have : (PRow.row ∘ fun p : Row K × ℕ => (⟨p.1, (p.2 : ℤ)⟩ : PRow K)) = Prod.fst := rfl
  rw [this, List.map_fst_zip]
  simp

theorem posed_pos (l : List (Row K)) :
    (posed l).map PRow.pos = (List.range l.length).map (fun i : ℕ => (i : ℤ)) := by
  unfold posed
  rw [List.map_map]
  have : (PRow.pos ∘ fun p : Row K × ℕ => (⟨p.1, (p.2 : ℤ)⟩ : PRow K)) =
      (fun i : ℕ => (i : ℤ)) ∘ Prod.snd := rfl
  rw [this, ← List.map_map, List.map_snd_zip]
  simp

theorem addOrderCropped_ok (x : List (Row K)) (L : ℕ) (hL : 0 < L) :
    ∃ r, addOrderCropped x L = .ok r ∧
      r.filter (fun r => decide (r.pos ≠ PAD)) = posed (lastN L x) := by
  unfold addOrderCropped
  by_cases h : L ≥ x.length
  · rw [if_pos h]
    refine ⟨_, rfl, ?_⟩
    rw [lastN_of_length_le L x h]
    rw [List.filter_eq_self.2]
    · rfl
    · intro r hr
      have := posed_pos_ne x r hr
      simpa using this
  · rw [if_neg h]
    have h0 : L ≠ 0 := by omega
    simp only [h0, if_false]
    have e : x.length - (x.length - L) = L := by omega
    rw [if_pos e]
    refine ⟨_, rfl, ?_⟩
    have hx : x = x.take (x.length - L) ++ lastN L x := by
      unfold lastN; rw [List.take_append_drop]
    have hl : (lastN L x).length = L := by rw [lastN_length]; omega
    have hz : x.zip (List.replicate (x.length - L) PAD ++ (List.range L).map (fun i : ℕ => (i : ℤ)))
        = (x.take (x.length - L)).zip (List.replicate (x.length - L) PAD) ++
          (lastN L x).zip ((List.range L).map (fun i : ℕ => (i : ℤ))) := by
      conv_lhs => rw [hx]
      have hlen : (x.take (x.length - L) ++ lastN L x).length = x.length := by rw [← hx]
      rw [hlen, List.zip_append]
      simp
    rw [hz, List.map_append, List.filter_append]
    have h1 : (((x.take (x.length - L)).zip (List.replicate (x.length - L) PAD)).map
        (fun p => (⟨p.1, p.2⟩ : PRow K))).filter (fun r => decide (r.pos ≠ PAD)) = [] := by
      rw [List.filter_eq_nil_iff]
      intro r hr
      obtain ⟨p, hp, rfl⟩ := List.mem_map.1 hr
      have := (List.of_mem_zip hp).2
      have := List.eq_of_mem_replicate this
      simp [this]
    rw [h1, List.nil_append]
    have h2 : ((lastN L x).zip ((List.range L).map (fun i : ℕ => (i : ℤ)))).map
        (fun p => (⟨p.1, p.2⟩ : PRow K)) = posed (lastN L x) := by
      unfold posed
      rw [hl, List.zip_map_right, List.map_map]
      rfl
    rw [h2, List.filter_eq_self]
    intro r hr
    have := posed_pos_ne _ r hr
    simpa using this

/-- Closed form of a successful crop. -/
def cropSpec (L : ℕ) (df : List (Row K)) (sortBool : Bool) : List (PRow K) :=
  (groupUsers df).flatMap fun u =>
    posed (lastN L (if sortBool then tsSort (rowsOf u df) else rowsOf u df))

theorem getDfWithCroppedPos_eq (df : List (Row K)) (L : ℕ) (b : Bool) (hL : 0 < L)
    (hne : df ≠ []) : getDfWithCroppedPos df L b = .ok (cropSpec L df b) := by
  unfold getDfWithCroppedPos
  have he : df.isEmpty = false := by cases df <;> simp_all
  simp only [he, Bool.false_eq_true, if_false]
  have hg : groupUsers (if b = true then sortUserTs df else df) = groupUsers df := by
    cases b
    · rfl
    · simp only [if_true]; exact groupUsers_sortUserTs df
  have hrows : ∀ u, (if b = true then sortUserTs df else df).filter (fun r => decide (r.user = u))
      = if b = true then tsSort (rowsOf u df) else rowsOf u df := by
    intro u
    cases b
    · rfl
    · simp only [if_true]; exact rowsOf_sortUserTs df u
  rw [hg]
  simp only [hrows]
  unfold cropSpec
  generalize groupUsers df = us
  have key : ∀ us : List ℤ, ∃ gs : List (List (PRow K)),
      us.mapM (fun u => addOrderCropped (if b = true then tsSort (rowsOf u df) else rowsOf u df) L)
        = .ok gs ∧ gs.flatten.filter (fun r => decide (r.pos ≠ PAD)) =
        us.flatMap fun u => posed (lastN L (if b = true then tsSort (rowsOf u df) else rowsOf u df)) := by
    intro us
    induction us with
    | nil => exact ⟨[], rfl, rfl⟩
    | cons u us ih =>
      obtain ⟨gs, h1, h2⟩ := ih
      obtain ⟨r, hr1, hr2⟩ := addOrderCropped_ok
        (if b = true then tsSort (rowsOf u df) else rowsOf u df) L hL
      refine ⟨r :: gs, ?_, ?_⟩
      · rw [List.mapM_cons, hr1, except_bind_ok, h1, except_bind_ok]; rfl
      · rw [List.flatten_cons, List.filter_append, hr2, h2, List.flatMap_cons]
  obtain ⟨gs, h1, h2⟩ := key us
  show ((pure PUnit.unit : PyM PUnit) >>= fun _ => _) = _
  rw [show (pure PUnit.unit : PyM PUnit) = Except.ok PUnit.unit from rfl, except_bind_ok, h1]
  show Except.ok _ = _
  rw [h2]

/-- Rows of a given user in a flatMap over distinct users. -/
theorem filter_flatMap_user (us : List ℤ) (f : ℤ → List (PRow K)) (hnd : us.Nodup)
    (hf : ∀ u, ∀ r ∈ f u, r.row.user = u) (u : ℤ) :
    (us.flatMap f).filter (fun r => decide (r.row.user = u)) = if u ∈ us then f u else [] := by
  induction us with
  | nil => simp
  | cons v us ih =>
    rw [List.nodup_cons] at hnd
    rw [List.flatMap_cons, List.filter_append, ih hnd.2]
    by_cases hv : v = u
    · subst hv
      rw [if_neg hnd.1, List.append_nil, if_pos (by simp), List.filter_eq_self]
      intro r hr; simpa using hf v r hr
    · rw [List.filter_eq_nil_iff.2, List.nil_append]
      · by_cases hu : u ∈ us
        · rw [if_pos hu, if_pos (by simp [hu])]
        · rw [if_neg hu, if_neg (by simp [hu, Ne.symm hv])]
      · intro r hr
        have := hf v r hr
        simp only [decide_eq_true_eq]; omega

theorem mem_lastN {α : Type} {n : ℕ} {l : List α} {x : α} (h : x ∈ lastN n l) : x ∈ l :=
  List.mem_of_mem_drop h

theorem mem_tsSort (l : List (Row K)) (r : Row K) : r ∈ tsSort l ↔ r ∈ l := mem_stableSort _ _ _

theorem posed_user (L : ℕ) (df : List (Row K)) (b : Bool) (u : ℤ) :
    ∀ r ∈ posed (lastN L (if b then tsSort (rowsOf u df) else rowsOf u df)), r.row.user = u := by
  intro r hr
  have h1 : r.row ∈ (posed (lastN L (if b then tsSort (rowsOf u df) else rowsOf u df))).map PRow.row :=
    List.mem_map_of_mem (f := PRow.row) hr
  rw [posed_rows] at h1
  have h2 := mem_lastN h1
  have h3 : r.row ∈ rowsOf u df := by
    cases b
    · exact h2
    · exact (mem_tsSort _ _).1 h2
  simpa [rowsOf] using (List.mem_filter.1 h3).2

theorem rowsOf_eq_nil (df : List (Row K)) (u : ℤ) (h : u ∉ groupUsers df) : rowsOf u df = [] := by
  rw [mem_groupUsers] at h
  unfold rowsOf
  rw [List.filter_eq_nil_iff]
  intro r hr
  simp only [decide_eq_true_eq]
  exact fun e => h ⟨r, hr, e⟩

theorem cropSpec_user (L : ℕ) (df : List (Row K)) (b : Bool) (u : ℤ) :
    (cropSpec L df b).filter (fun r => decide (r.row.user = u)) =
      posed (lastN L (if b then tsSort (rowsOf u df) else rowsOf u df)) := by
  unfold cropSpec
  rw [filter_flatMap_user _ _ ((groupUsers_sorted df).imp (fun h => by omega)) (posed_user L df b)]
  split
  · rfl
  · rename_i h
    rw [rowsOf_eq_nil df u h]
    cases b <;> simp [tsSort, stableSort_nil, lastN, posed]

/-! ### incremental cropping -/

/-- dropping an element that has at least `n` later-or-equal companions does not change the
last `n` of the sorted list -/
theorem lastN_tsSort_cons (n : ℕ) (a : Row K) (l : List (Row K))
    (h : n ≤ (l.filter (fun r => decide (a.ts ≤ r.ts))).length) :
    lastN n (tsSort (a :: l)) = lastN n (tsSort l) := by
  unfold tsSort
  rw [stableSort_cons]
  have hs := stableSort_sorted (le := fun a b : Row K => decide (a.ts ≤ b.ts)) ts_trans ts_total l
  obtain ⟨p, q, h1, h2, h3, h4⟩ := ins_split ts_trans a _ hs
  have hq : q = (stableSort (fun a b : Row K => decide (a.ts ≤ b.ts)) l).filter
      (fun r => decide (a.ts ≤ r.ts)) := by
    rw [h1, List.filter_append, List.filter_eq_nil_iff.2 h3, List.filter_eq_self.2 h4]; rfl
  have hlen : n ≤ q.length := by
    rw [hq, ((stableSort_perm _ l).filter _).length_eq]; exact h
  rw [h2, h1, lastN_append_of_le n p q hlen]
  have : p ++ a :: q = (p ++ [a]) ++ q := by simp
  rw [this, lastN_append_of_le n _ q hlen]

theorem lastN_tsSort_drop (n : ℕ) (x y b : List (Row K)) (hy : n ≤ y.length)
    (hxy : ∀ a ∈ x, ∀ r ∈ y, a.ts ≤ r.ts) :
    lastN n (tsSort (x ++ (y ++ b))) = lastN n (tsSort (y ++ b)) := by
  induction x with
  | nil => rfl
  | cons a x ih =>
    rw [List.cons_append, lastN_tsSort_cons, ih (fun a' h => hxy a' (List.mem_cons_of_mem _ h))]
    rw [List.filter_append, List.filter_append, List.length_append, List.length_append]
    have : (y.filter (fun r => decide (a.ts ≤ r.ts))) = y := by
      rw [List.filter_eq_self]
      intro r hr
      simpa using hxy a (by simp) r hr
    rw [this]; omega

theorem tsSort_append_left (a b : List (Row K)) : tsSort (tsSort a ++ b) = tsSort (a ++ b) := by
  apply isStableTimeSort_unique (l := a ++ b)
  · obtain ⟨h1, h2⟩ := tsSort_stable (tsSort a ++ b)
    refine ⟨h1, fun t => ?_⟩
    rw [h2 t, List.filter_append, List.filter_append, (tsSort_stable a).2 t]
  · exact tsSort_stable _

theorem lastN_tsSort_incremental (n : ℕ) (a b : List (Row K)) :
    lastN n (tsSort (lastN n (tsSort a) ++ b)) = lastN n (tsSort (a ++ b)) := by
  rw [← tsSort_append_left a b]
  by_cases h : (tsSort a).length ≤ n
  · rw [lastN_of_length_le n _ h]
  · have hs := (tsSort_stable a).1
    have e : tsSort a = (tsSort a).take ((tsSort a).length - n) ++ lastN n (tsSort a) := by
      unfold lastN; rw [List.take_append_drop]
    conv_rhs => rw [e]
    rw [List.append_assoc, lastN_tsSort_drop]
    · rw [lastN_length]; omega
    · rw [e, List.pairwise_append] at hs
      intro x hx r hr
      exact hs.2.2 x hx r hr

theorem rowsOf_append (u : ℤ) (a b : List (Row K)) : rowsOf u (a ++ b) = rowsOf u a ++ rowsOf u b := by
  simp [rowsOf]

theorem rowsOf_crop_rows (L : ℕ) (df : List (Row K)) (u : ℤ) :
    rowsOf u ((cropSpec L df true).map PRow.row) = lastN L (tsSort (rowsOf u df)) := by
  have := cropSpec_user L df true u
  simp only [if_true] at this
  have h2 := congrArg (List.map PRow.row) this
  rw [posed_rows] at h2
  rw [← h2]
  unfold rowsOf
  rw [List.filter_map]
  rfl

theorem exists_user_iff (df : List (Row K)) (u : ℤ) :
    (∃ r ∈ df, r.user = u) ↔ rowsOf u df ≠ [] := by
  constructor
  · rintro ⟨r, hr, rfl⟩ he
    have : r ∈ rowsOf r.user df := by unfold rowsOf; rw [List.mem_filter]; exact ⟨hr, by simp⟩
    rw [he] at this; cases this
  · intro h
    obtain ⟨r, hr⟩ := List.exists_mem_of_ne_nil _ h
    unfold rowsOf at hr
    rw [List.mem_filter] at hr
    exact ⟨r, hr.1, by simpa using hr.2⟩

theorem cropSpec_incremental (L : ℕ) (hL : 0 < L) (a b : List (Row K)) :
    cropSpec L ((cropSpec L a true).map PRow.row ++ b) true = cropSpec L (a ++ b) true := by
  have hg : groupUsers ((cropSpec L a true).map PRow.row ++ b) = groupUsers (a ++ b) := by
    apply groupUsers_congr
    intro u
    rw [exists_user_iff, exists_user_iff, rowsOf_append, rowsOf_append, rowsOf_crop_rows]
    rw [Ne, Ne, List.append_eq_nil_iff, List.append_eq_nil_iff]
    have : lastN L (tsSort (rowsOf u a)) = [] ↔ rowsOf u a = [] := by
      rw [← List.length_eq_zero_iff, lastN_length, ← List.length_eq_zero_iff]
      have : (tsSort (rowsOf u a)).length = (rowsOf u a).length := stableSort_length _ _
      omega
    rw [this]
  unfold cropSpec at hg ⊢
  rw [hg]
  congr 1
  funext u
  simp only [if_true]
  have h2 := rowsOf_crop_rows L a u
  unfold cropSpec at h2
  simp only [if_true] at h2
  rw [rowsOf_append, h2, rowsOf_append, lastN_tsSort_incremental]

end DynCF
