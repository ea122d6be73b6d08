/- Properties C12-C16: metrics. -/
import Verif.Lemmas.Evaluation
import Verif.Model.Drift
import Mathlib.Algebra.Order.Field.Rat
import Mathlib.Tactic.NormNum

set_option linter.unusedSectionVars false

namespace DynCF
variable {K : Type} [Field K] [LinearOrder K] [IsStrictOrderedRing K]

/-- **C12** The hit rate is the mean of the hits, i.e. (number of hit users)/(number of test
users). -/
theorem C12_hit_rate (recs : List (List ℤ)) (tests : List ℤ) (hne : tests ≠ [])
    (hlen : recs.length = tests.length) :
    (hr recs tests : PyM K) = .ok (mean ((tests.zip recs).map fun p => hit p.2 p.1)) ∧
    (hr recs tests : PyM K) =
      .ok (((tests.zip recs).countP fun p => decide (p.1 ∈ p.2) : ℕ) / (tests.length : K)) := by
  have hl : ((tests.length : ℕ) : K) ≠ 0 := by
    have := List.length_pos_of_ne_nil hne
    positivity
  have h1 : (hr recs tests : PyM K) =
      .ok (((tests.zip recs).map fun p => (hit p.2 p.1 : K)).sum / (tests.length : K)) := by
    unfold hr
    rw [forIdx2_eq _ _ _ (by omega)]
    have : (fun (total : K) (p : ℤ × List ℤ) =>
        (Except.ok (if p.1 ∈ p.2 then total + 1 else total) : PyM K)) =
        fun total p => .ok (total + hit p.2 p.1) := by
      funext total p
      unfold hit
      split <;> simp
    rw [this, foldlM_ok (g := fun (total : K) (p : ℤ × List ℤ) => total + hit p.2 p.1),
      except_bind_ok, foldl_add_sum, zero_add]
    unfold pyDiv
    rw [if_neg hl]
  constructor
  · rw [h1]; unfold mean
    simp [hlen]
  · rw [h1, sum_map_hit]

/-- **C12** range and extreme values of the hit rate -/
theorem C12_hit_rate_range (recs : List (List ℤ)) (tests : List ℤ) (v : K)
    (hlen : recs.length = tests.length) (h : hr recs tests = .ok v) :
    0 ≤ v ∧ v ≤ 1 ∧ (v = 1 ↔ ∀ p ∈ tests.zip recs, p.1 ∈ p.2) ∧
      (v = 0 ↔ ∀ p ∈ tests.zip recs, p.1 ∉ p.2) := by
  have hne : tests ≠ [] := by
    rintro rfl
    simp [hr, forIdx2, pyDiv, bind, Except.bind, pure, Except.pure] at h
  rw [(C12_hit_rate recs tests hne hlen).1] at h
  have h := Except.ok.inj h
  subst h
  have hz : (tests.zip recs).map (fun p => (hit p.2 p.1 : K)) ≠ [] := by
    obtain ⟨t, ts, rfl⟩ := List.exists_cons_of_ne_nil hne
    cases recs with
    | nil => simp at hlen
    | cons r rs => simp
  have hb : ∀ x ∈ (tests.zip recs).map (fun p => (hit p.2 p.1 : K)), 0 ≤ x ∧ x ≤ 1 := by
    intro x hx
    obtain ⟨p, _, rfl⟩ := List.mem_map.1 hx
    unfold hit; split <;> simp
  have := mean_bounds _ (fun x hx => (hb x hx).1) (fun x hx => (hb x hx).2) hz
  refine ⟨this.1, this.2, ?_, ?_⟩
  · rw [mean_eq_one _ (fun x hx => (hb x hx).2) hz]
    simp only [List.forall_mem_map]
    apply forall₂_congr
    intro p _
    unfold hit; split <;> simp_all
  · rw [mean_eq_zero _ (fun x hx => (hb x hx).1) hz]
    simp only [List.forall_mem_map]
    apply forall₂_congr
    intro p _
    unfold hit; split <;> simp_all

/-- **C12/C13** with no test users both metrics raise `ZeroDivisionError`. -/
theorem C12_no_test_users (recs : List (List ℤ)) :
    (hr recs [] : PyM K) = .error .zeroDivisionError ∧
    (mrr recs [] : PyM K) = .error .zeroDivisionError := by
  constructor <;> simp [hr, mrr, forIdx2, pyDiv, bind, Except.bind, pure, Except.pure]

/-- **C13** MRR is the mean reciprocal rank of the first occurrence. -/
theorem C13_mrr (recs : List (List ℤ)) (tests : List ℤ) (hne : tests ≠ [])
    (hlen : recs.length = tests.length) :
    (mrr recs tests : PyM K) =
      .ok (mean ((tests.zip recs).map fun p => reciprocalRank p.2 p.1)) := by
  have hl : ((tests.length : ℕ) : K) ≠ 0 := by
    have := List.length_pos_of_ne_nil hne
    positivity
  unfold mrr
  rw [forIdx2_eq _ _ _ (by omega)]
  have : (fun (total : K) (p : ℤ × List ℤ) =>
      (Except.ok (mrrScan p.1 total (enumNat 0 p.2)) : PyM K)) =
      fun total p => .ok (total + reciprocalRank p.2 p.1) := by
    funext total p
    rw [mrrScan_eq]
    unfold reciprocalRank
    simp only [Nat.add_zero, add_comm (1 : K)]
  rw [this, foldlM_ok (g := fun (total : K) (p : ℤ × List ℤ) => total + reciprocalRank p.2 p.1),
    except_bind_ok, foldl_add_sum, zero_add]
  unfold pyDiv mean
  rw [if_neg hl]
  simp [hlen]

/-- **C13** MRR lies in [0,1], is at most HR and at least HR / (row length). -/
theorem C13_mrr_bounds (recs : List (List ℤ)) (tests : List ℤ) (m : ℕ) (v h : K)
    (hlen : recs.length = tests.length) (hm : ∀ r ∈ recs, r.length ≤ m)
    (hv : mrr recs tests = .ok v) (hh : hr recs tests = .ok h) :
    0 ≤ v ∧ v ≤ 1 ∧ v ≤ h ∧ h / (m : K) ≤ v := by
  have hr' := C12_hit_rate_range recs tests h hlen hh
  have hne : tests ≠ [] := by
    rintro rfl
    rw [(C12_no_test_users recs).2] at hv
    cases hv
  rw [C13_mrr recs tests hne hlen] at hv
  have hv := Except.ok.inj hv
  rw [(C12_hit_rate recs tests hne hlen).1] at hh
  have hh := Except.ok.inj hh
  have h1 : v ≤ h := by
    rw [← hv, ← hh]
    exact mean_le_mean _ _ _ (fun p _ => reciprocalRank_le_hit _ _)
  have h0 : 0 ≤ v := by
    rw [← hv]; unfold mean
    apply div_nonneg _ (by positivity)
    apply List.sum_nonneg
    intro x hx
    obtain ⟨p, _, rfl⟩ := List.mem_map.1 hx
    exact reciprocalRank_nonneg _ _
  refine ⟨h0, le_trans h1 hr'.2.1, h1, ?_⟩
  rw [← hh, ← hv]
  unfold mean
  simp only [List.length_map]
  rw [div_right_comm]
  apply div_le_div_of_nonneg_right _ (by positivity)
  rw [div_eq_mul_inv, ← List.sum_map_mul_right]
  apply List.sum_le_sum
  intro p hp
  have hpm := hm _ (List.of_mem_zip hp).2
  unfold hit reciprocalRank
  split
  · rename_i hmem
    have hi := List.idxOf_lt_length_of_mem hmem
    rw [one_mul, ← one_div]
    apply one_div_le_one_div_of_le (by positivity)
    have : p.2.idxOf p.1 + 1 ≤ m := by omega
    exact_mod_cast this
  · simp

/-- **C13** only the part of a row up to the first hit matters. -/
theorem C13_after_first_hit_irrelevant (pre post post' : List ℤ) (t : ℤ) :
    (reciprocalRank (pre ++ t :: post) t : K) = reciprocalRank (pre ++ t :: post') t := by
  unfold reciprocalRank
  rw [if_pos (by simp), if_pos (by simp)]
  by_cases h : t ∈ pre
  · rw [List.idxOf_append_of_mem h, List.idxOf_append_of_mem h]
  · rw [List.idxOf_append_of_notMem h, List.idxOf_append_of_notMem h,
      List.idxOf_cons_self, List.idxOf_cons_self]

theorem wjiSim_eq (N k : ℕ) (a b : List (List ℤ)) (hne : a ≠ [])
    (hlen : a.length = b.length) (ha : IsRecArray N k a) (hb : IsRecArray N k b) :
    (wjiSim a b N : PyM K) = .ok (mean ((a.zip b).map fun p => rankJaccard N p.1 p.2)) := by
  unfold wjiSim
  have htop : (a.headD []).length = k := by
    obtain ⟨r, rs, rfl⟩ := List.exists_cons_of_ne_nil hne
    exact (ha.2 r (by simp)).1
  simp only [htop]
  rw [forIdx2_eq _ _ _ (by omega)]
  have key : ∀ (l : List (List ℤ × List ℤ)) (init : K),
      (∀ p ∈ l, IsRecRow N k p.1 ∧ IsRecRow N k p.2) →
      l.foldlM (fun (acc : K) (p : List ℤ × List ℤ) => (do
        let bow1 ← fancySet (List.replicate N (0 : K)) p.1 (recipRange k)
        let bow2 ← fancySet (List.replicate N (0 : K)) p.2 (recipRange k)
        let w ← wji bow1 bow2
        pure (acc + w) : PyM K)) init = .ok (init + (l.map fun p => rankJaccard N p.1 p.2).sum) := by
    intro l
    induction l with
    | nil => intro init _; simp; rfl
    | cons p l ih =>
      intro init hp
      obtain ⟨h1, h2⟩ := hp p (by simp)
      rw [List.foldlM_cons, fancySet_rank N k p.1 h1.1 h1.2.1 h1.2.2, except_bind_ok,
        fancySet_rank N k p.2 h2.1 h2.2.1 h2.2.2, except_bind_ok, wji_eq]
      unfold pyDiv
      rw [if_neg (denom_pos ha.1 p.2 h1).ne', except_bind_ok]
      show l.foldlM _ (init + rankJaccard N p.1 p.2) = _
      rw [ih _ (fun q hq => hp q (List.mem_cons_of_mem _ hq))]
      simp [add_assoc]
  rw [key _ _ (by
    intro p hp
    have := List.of_mem_zip hp
    exact ⟨ha.2 _ this.1, hb.2 _ this.2⟩), except_bind_ok, zero_add]
  unfold pyDiv mean
  have hl : ((a.length : ℕ) : K) ≠ 0 := by
    have := List.length_pos_of_ne_nil hne
    positivity
  rw [if_neg hl]
  simp [← hlen]

/-- **C14** For arrays of recommendations the stability score is the mean weighted Jaccard index
of the two rankings of every user. -/
theorem C14_stability_formula (N k : ℕ) (a b : List (List ℤ)) (hne : a ≠ [])
    (hlen : a.length = b.length) (ha : IsRecArray N k a) (hb : IsRecArray N k b) :
    (wjiSim a b N : PyM K) = .ok (mean ((a.zip b).map fun p => rankJaccard N p.1 p.2)) :=
  wjiSim_eq N k a b hne hlen ha hb

/-- **C14** It is symmetric, lies in [0,1], equals 1 exactly when all lists coincide in order, and
0 exactly when every user's rankings contribute 0 - in particular when they are disjoint. -/
theorem C14_stability_similarity (N k : ℕ) (a b : List (List ℤ)) (hne : a ≠ [])
    (hlen : a.length = b.length) (ha : IsRecArray N k a) (hb : IsRecArray N k b) :
    ∃ v : K, wjiSim a b N = .ok v ∧ wjiSim b a N = .ok v ∧ 0 ≤ v ∧ v ≤ 1 ∧ (v = 1 ↔ a = b) ∧
      ((∀ p ∈ a.zip b, ∀ x ∈ p.1, x ∉ p.2) → v = 0) := by
  refine ⟨_, wjiSim_eq N k a b hne hlen ha hb, ?_, ?_⟩
  · rw [wjiSim_eq N k b a (by intro h; apply hne; subst h; simpa using hlen) hlen.symm hb ha]
    congr 2
    rw [← List.zip_swap a b, List.map_map]
    apply List.map_congr_left
    intro p _
    exact rankJaccard_symm N _ _
  · have hz : (a.zip b).map (fun p => (rankJaccard N p.1 p.2 : K)) ≠ [] := by
      obtain ⟨r, rs, rfl⟩ := List.exists_cons_of_ne_nil hne
      cases b with
      | nil => simp at hlen
      | cons r rs => simp
    have h0 : ∀ x ∈ (a.zip b).map (fun p => (rankJaccard N p.1 p.2 : K)), 0 ≤ x := by
      intro x hx
      obtain ⟨p, _, rfl⟩ := List.mem_map.1 hx
      exact rankJaccard_nonneg _ _ _
    have h1 : ∀ x ∈ (a.zip b).map (fun p => (rankJaccard N p.1 p.2 : K)), x ≤ 1 := by
      intro x hx
      obtain ⟨p, hp, rfl⟩ := List.mem_map.1 hx
      exact rankJaccard_le_one ha.1 _ (ha.2 _ (List.of_mem_zip hp).1)
    have hbd := mean_bounds _ h0 h1 hz
    refine ⟨hbd.1, hbd.2, ?_, ?_⟩
    · rw [mean_eq_one _ h1 hz]
      simp only [List.forall_mem_map]
      have : (∀ p ∈ a.zip b, (rankJaccard N p.1 p.2 : K) = 1) ↔ ∀ p ∈ a.zip b, p.1 = p.2 := by
        apply forall₂_congr
        intro p hp
        have := List.of_mem_zip hp
        exact rankJaccard_eq_one ha.1 (ha.2 _ this.1) (hb.2 _ this.2)
      rw [this]
      clear this hbd h1 h0 hz ha hb hne
      induction a generalizing b with
      | nil => cases b <;> simp_all
      | cons x a ih =>
        cases b with
        | nil => simp at hlen
        | cons y b =>
          rw [List.zip_cons_cons, List.forall_mem_cons]
          have := ih b (by simpa using hlen)
          simp only [List.cons.injEq]
          exact and_congr Iff.rfl this
    · intro hd
      rw [mean_eq_zero _ h0 hz]
      simp only [List.forall_mem_map]
      intro p hp
      exact rankJaccard_disjoint N (hd p hp)

/-- A single user with disjoint lists contributes 0 whatever the others do. -/
theorem C14_disjoint_contributes_zero (N : ℕ) (a b : List ℤ) (h : ∀ x ∈ a, x ∉ b) :
    (rankJaccard N a b : K) = 0 := rankJaccard_disjoint N h

/-- **C14**, error branch: no users raise `ZeroDivisionError`. -/
theorem C14_no_users (b : List (List ℤ)) (N : ℕ) :
    (wjiSim [] b N : PyM K) = .error .zeroDivisionError := by
  simp [wjiSim, forIdx2, pyDiv, bind, Except.bind, pure, Except.pure]

omit [LinearOrder K] [IsStrictOrderedRing K] in
theorem mapM_ok_range {β : Type} (n : ℕ) (f : ℕ → β) :
    (List.range n).mapM (fun i => (.ok (f i) : PyM β)) = .ok ((List.range n).map f) := by
  generalize List.range n = l
  induction l with
  | nil => rfl
  | cons a l ih => rw [List.mapM_cons, except_bind_ok, ih]; rfl

/-- the `w` consecutive entries starting at `i` -/
def windowAt (arr : List K) (w i : ℕ) : List K := (List.range w).map fun j => arr.getD (i + j) 0

omit [LinearOrder K] [IsStrictOrderedRing K] in
theorem drop_take_windowAt (arr : List K) (w i : ℕ) (h : i + w ≤ arr.length) :
    (arr.drop i).take w = windowAt arr w i := by
  apply List.ext_getElem
  · simp [windowAt]; omega
  · intro j h1 h2
    have hj : j < w := by simp [windowAt] at h2; exact h2
    simp only [windowAt, List.getElem_take, List.getElem_drop, List.getElem_map,
      List.getElem_range]
    rw [List.getD_eq_getElem?_getD, List.getElem?_eq_getElem (by omega)]
    rfl

/-- **C15** Sliding windows: value `i` aggregates exactly entries `i .. i+w-1`. -/
theorem C15_sliding_window (arr : List K) (w : ℕ) (hn : w ≤ arr.length) :
    slidingWindow arr w "sum" =
      .ok ((List.range (arr.length - w + 1)).map fun i => (windowAt arr w i).sum) ∧
    (1 ≤ w → slidingWindow arr w "mean" =
      .ok ((List.range (arr.length - w + 1)).map fun i => (windowAt arr w i).sum / (w : K))) := by
  have hcong : ∀ {g g' : ℕ → PyM K}, (∀ i < arr.length - w + 1, g i = g' i) →
      (List.range (arr.length - w + 1)).mapM g = (List.range (arr.length - w + 1)).mapM g' := by
    intro g g' h
    have : ∀ l : List ℕ, (∀ i ∈ l, g i = g' i) → l.mapM g = l.mapM g' := by
      intro l
      induction l with
      | nil => intro _; rfl
      | cons a l ih =>
        intro hl
        rw [List.mapM_cons, List.mapM_cons, hl a (by simp),
          ih (fun i hi => hl i (List.mem_cons_of_mem _ hi))]
    exact this _ (fun i hi => h i (List.mem_range.1 hi))
  constructor
  · unfold slidingWindow
    rw [if_neg (by omega)]
    simp only [if_true]
    rw [show ((pure fun l => Except.ok l.sum : PyM (List K → PyM K)) >>= fun f =>
      (List.range (arr.length - w + 1)).mapM fun i => f ((arr.drop i).take w)) =
      (List.range (arr.length - w + 1)).mapM fun i => .ok ((arr.drop i).take w).sum from rfl]
    rw [hcong (g' := fun i => .ok (windowAt arr w i).sum), mapM_ok_range]
    intro i hi
    rw [drop_take_windowAt arr w i (by omega)]
  · intro hw
    unfold slidingWindow
    rw [if_neg (by omega)]
    rw [if_neg (by decide), if_pos rfl]
    rw [show ((pure fun l : List K => if l.length = 0 then (Except.error PyErr.outOfModel : PyM K)
        else Except.ok (l.sum / (l.length : K)) : PyM (List K → PyM K)) >>= fun f =>
      (List.range (arr.length - w + 1)).mapM fun i => f ((arr.drop i).take w)) =
      (List.range (arr.length - w + 1)).mapM fun i =>
        if ((arr.drop i).take w).length = 0 then (Except.error PyErr.outOfModel : PyM K)
        else .ok (((arr.drop i).take w).sum / (((arr.drop i).take w).length : K)) from rfl]
    rw [hcong (g' := fun i => .ok ((windowAt arr w i).sum / (w : K))), mapM_ok_range]
    intro i hi
    rw [drop_take_windowAt arr w i (by omega)]
    have : (windowAt arr w i).length = w := by simp [windowAt]
    rw [if_neg (by omega), this]

omit [LinearOrder K] [IsStrictOrderedRing K] in
/-- **C15** Inputs shorter than the window are returned unchanged whatever the mode; otherwise an
unknown mode raises `NotImplementedError`. -/
theorem C15_sliding_window_edges (arr : List K) (w : ℕ) (mode : String) :
    (arr.length < w → slidingWindow arr w mode = .ok arr) ∧
    (w ≤ arr.length → mode ≠ "sum" → mode ≠ "mean" →
      slidingWindow arr w mode = .error .notImplementedError) := by
  constructor
  · intro h; unfold slidingWindow; rw [if_pos h]; rfl
  · intro h h1 h2
    unfold slidingWindow
    rw [if_neg (by omega), if_neg h1, if_neg h2]; rfl

/-! ### C16 -/

/-- The embeddings `u1` before a step as a matrix with `n` rows: entities that were not there have zeros. -/
noncomputable def embBefore {m k : ℕ} (n : ℕ) (u1 : Matrix (Fin m) (Fin k) ℝ) : Matrix (Fin n) (Fin k) ℝ :=
  Matrix.of fun i j => ∑ i' : Fin m, if (i' : ℕ) = i then u1 i' j else 0

theorem padRows_eq {m k : ℕ} (n : ℕ) (u1 : Matrix (Fin m) (Fin k) ℝ) : padRows n u1 = embBefore n u1 := by
  ext i j
  simp only [padRows, embBefore, Matrix.of_apply]
  split
  · rename_i h
    rw [Finset.sum_eq_single_of_mem ⟨i.1, h⟩ (Finset.mem_univ _) fun b _ hb =>
      if_neg fun e => hb (Fin.ext e), if_pos rfl]
  · rename_i h
    exact (Finset.sum_eq_zero fun b _ => if_neg fun e => h (by rw [← e]; exact b.2)).symm

/-- The relative change of the embeddings, new rows counting from zero. -/
noncomputable def relativeChange {m n k : ℕ} (u1 : Matrix (Fin m) (Fin k) ℝ)
    (u2 : Matrix (Fin n) (Fin k) ℝ) : ℝ := frob (u2 - embBefore n u1) / frob u2

/-- **C16 is violated**: the value recorded is not the relative change. Witness: embeddings
`[1]` then `[3]`: relative change 2/3, recorded 1/2. -/
theorem C16_violated : ∃ (u1 u2 : Matrix (Fin 1) (Fin 1) ℝ),
    userDrift u1 u2 = .ok (1 / 2) ∧ relativeChange u1 u2 = 2 / 3 := by
  have e1 : ((Matrix.of fun _ _ => 3 : Matrix (Fin 1) (Fin 1) ℝ) -
      padRows 1 (Matrix.of fun _ _ => 1 : Matrix (Fin 1) (Fin 1) ℝ)) = Matrix.of fun _ _ => 2 := by
    ext i j
    simp only [Matrix.sub_apply, Matrix.of_apply, padRows]
    rw [dif_pos (by omega)]
    norm_num
  have e2 : ((Matrix.of fun _ _ => 2 : Matrix (Fin 1) (Fin 1) ℝ) - Matrix.of fun _ _ => 3) =
      Matrix.of fun _ _ => -1 := by
    ext i j
    simp only [Matrix.sub_apply, Matrix.of_apply]
    norm_num
  have ef : ∀ x : ℝ, frob (Matrix.of fun _ _ => x : Matrix (Fin 1) (Fin 1) ℝ) = |x| := by
    intro x
    unfold frob
    simp [Real.sqrt_sq_eq_abs]
  refine ⟨Matrix.of fun _ _ => 1, Matrix.of fun _ _ => 3, ?_, ?_⟩
  · unfold userDrift relNorm
    rw [if_neg (by omega), e1, e2, ef, ef, if_neg (by norm_num)]
    norm_num
  · unfold relativeChange
    rw [← padRows_eq, e1, ef, ef]
    norm_num

theorem frob_neg {m n : ℕ} (a : Matrix (Fin m) (Fin n) ℝ) : frob (-a) = frob a := by
  unfold frob; simp

theorem frob_eq_zero {m n : ℕ} (a : Matrix (Fin m) (Fin n) ℝ) : frob a = 0 ↔ a = 0 := by
  unfold frob
  have h0 : ∀ i, 0 ≤ ∑ j, a i j ^ 2 := fun i => Finset.sum_nonneg (fun j _ => sq_nonneg _)
  rw [Real.sqrt_eq_zero (Finset.sum_nonneg (fun i _ => h0 i))]
  rw [Finset.sum_eq_zero_iff_of_nonneg (fun i _ => h0 i)]
  constructor
  · intro h
    ext i j
    have := h i (Finset.mem_univ i)
    rw [Finset.sum_eq_zero_iff_of_nonneg (fun j _ => sq_nonneg _)] at this
    have := this j (Finset.mem_univ j)
    simpa using this
  · rintro rfl i _
    simp

/-- **C16** what is recorded instead (for all embeddings): the norm of the *old* embeddings over
the norm of the change. Missing from the full property: it is not the relative change
(`C16_violated`); and when nothing changed, where the drift should be 0, no finite number is
recorded at all (division by zero in numpy). -/
theorem C16_recorded_drift_partial {m n k : ℕ} (u1 : Matrix (Fin m) (Fin k) ℝ)
    (u2 : Matrix (Fin n) (Fin k) ℝ) (hmn : m ≤ n) :
    (u2 ≠ embBefore n u1 →
      userDrift u1 u2 = .ok (frob (embBefore n u1) / frob (u2 - embBefore n u1))) ∧
    (u2 = embBefore n u1 → userDrift u1 u2 = .error .outOfModel) := by
  rw [← padRows_eq]
  unfold userDrift relNorm
  rw [if_neg (by omega)]
  constructor
  · intro h
    rw [if_neg]
    · congr 2
      rw [← frob_neg]
      congr 1
      abel
    · rw [frob_eq_zero, sub_eq_zero]; exact h
  · intro h
    rw [if_pos]
    rw [frob_eq_zero, sub_eq_zero]; exact h

/-! Concrete instances. -/
example : (hr [[3, 1], [2, 5], [7, 4]] [1, 9, 7] : PyM ℚ) = .ok (2 / 3) := by decide +kernel
example : (mrr [[3, 1], [2, 5], [7, 4]] [1, 9, 7] : PyM ℚ) = .ok (1 / 2) := by decide +kernel
example : IsRecArray 4 2 [[3, 1], [2, 0]] ∧ IsRecArray 4 2 [[3, 2], [2, 0]] := by
  unfold IsRecArray; decide
example : (wjiSim [[3, 1], [2, 0]] [[3, 2], [2, 0]] 4 : PyM ℚ) = .ok (3 / 4) := by decide +kernel
example : (slidingWindow [1, 2, 3, 4] 2 "mean" : PyM (List ℚ)) = .ok [3 / 2, 5 / 2, 7 / 2] := by
  decide +kernel
example : (slidingWindow [1, 2] 3 "oops" : PyM (List ℚ)) = .ok [1, 2] := by decide +kernel

end DynCF
