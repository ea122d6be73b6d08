/- Helper lemmas for the evaluation metrics. -/
import Verif.Model.Evaluation
import Verif.Spec.Evaluation
import Verif.Lemmas.Mapping
import Mathlib.Tactic.Ring
import Mathlib.Tactic.Linarith
import Mathlib.Tactic.Positivity
import Mathlib.Tactic.FieldSimp
import Mathlib.Algebra.Order.BigOperators.Group.List
import Mathlib.Data.List.Range

namespace DynCF

/-- `for i in range(len(a)): ... a[i] ... b[i] ...` as a fold over the zipped lists. -/
theorem forIdx2_eq {α β γ : Type} (ts : List α) (rs : List β)
    (g : γ → α → β → PyM γ) (h : ts.length ≤ rs.length) (init : γ) :
    forIdx2 ts rs g init = (ts.zip rs).foldlM (fun acc p => g acc p.1 p.2) init := by
  induction ts generalizing rs init with
  | nil => rfl
  | cons t ts ih =>
    cases rs with
    | nil => simp at h
    | cons r rs =>
      unfold forIdx2
      rw [List.length_cons, List.range_succ_eq_map, List.foldlM_cons, List.zip_cons_cons,
        List.foldlM_cons]
      simp only [List.getElem?_cons_zero]
      congr 1
      funext acc
      rw [List.foldlM_map]
      simp only [List.getElem?_cons_succ]
      exact ih rs (by simpa using h) acc

theorem forIdx2_short {α β γ : Type} (ts : List α) (rs : List β)
    (g : γ → α → β → γ) (h : rs.length < ts.length) (init : γ) :
    forIdx2 ts rs (fun a x y => .ok (g a x y)) init = .error .outOfModel := by
  induction ts generalizing rs init with
  | nil => simp at h
  | cons t ts ih =>
    unfold forIdx2
    rw [List.length_cons, List.range_succ_eq_map, List.foldlM_cons]
    cases rs with
    | nil => rfl
    | cons r rs =>
      simp only [List.getElem?_cons_zero]
      rw [except_bind_ok, List.foldlM_map]
      simp only [List.getElem?_cons_succ]
      exact ih rs (by simpa using h) _

theorem foldlM_ok {α γ : Type} (l : List α) (g : γ → α → γ) (init : γ) :
    l.foldlM (fun acc x => (.ok (g acc x) : PyM γ)) init = .ok (l.foldl g init) := by
  induction l generalizing init with
  | nil => rfl
  | cons x l ih => rw [List.foldlM_cons, except_bind_ok, ih]; rfl

variable {K : Type} [Field K] [LinearOrder K] [IsStrictOrderedRing K]

omit [LinearOrder K] [IsStrictOrderedRing K] in
theorem foldl_add_sum {α : Type} (l : List α) (f : α → K) (init : K) :
    l.foldl (fun acc x => acc + f x) init = init + (l.map f).sum := by
  induction l generalizing init with
  | nil => simp
  | cons x l ih => rw [List.foldl_cons, ih]; simp [add_assoc]

omit [LinearOrder K] [IsStrictOrderedRing K] in
theorem mrrScan_eq (t : ℤ) (total : K) (off : ℕ) (r : List ℤ) :
    mrrScan t total (enumNat off r) =
      total + (if t ∈ r then 1 / (1 + ((r.idxOf t + off : ℕ) : K)) else 0) := by
  induction r generalizing off with
  | nil => simp [enumNat, mrrScan]
  | cons x r ih =>
    unfold enumNat mrrScan
    by_cases hx : x = t
    · subst hx; simp
    · rw [if_neg hx, ih]
      have : (t ∈ x :: r) ↔ t ∈ r := by simp [Ne.symm hx]
      rw [List.idxOf_cons_ne _ hx]
      by_cases ht : t ∈ r
      · rw [if_pos ht, if_pos (this.2 ht)]
        congr 3
        push_cast; ring
      · rw [if_neg ht, if_neg (fun h => ht (this.1 h))]

theorem reciprocalRank_nonneg (r : List ℤ) (t : ℤ) : (0 : K) ≤ reciprocalRank r t := by
  unfold reciprocalRank; split
  · positivity
  · exact le_refl _

theorem reciprocalRank_pos {r : List ℤ} {t : ℤ} (h : t ∈ r) : (0 : K) < reciprocalRank r t := by
  unfold reciprocalRank; rw [if_pos h]; positivity

theorem reciprocalRank_le_hit (r : List ℤ) (t : ℤ) : (reciprocalRank r t : K) ≤ hit r t := by
  unfold reciprocalRank hit
  split
  · rw [div_le_one (by positivity)]
    have : (0 : K) ≤ (r.idxOf t : K) := by positivity
    linarith
  · exact le_refl _

omit [LinearOrder K] [IsStrictOrderedRing K] in
theorem sum_map_hit (l : List (ℤ × List ℤ)) :
    (l.map fun p => (hit p.2 p.1 : K)).sum = ((l.countP fun p => decide (p.1 ∈ p.2) : ℕ) : K) := by
  induction l with
  | nil => simp
  | cons p l ih =>
    rw [List.map_cons, List.sum_cons, ih, List.countP_cons]
    unfold hit
    by_cases h : p.1 ∈ p.2 <;> simp [h, add_comm]

/-! ### weighted Jaccard -/

omit [Field K] [LinearOrder K] [IsStrictOrderedRing K] in
theorem getElem?_foldl_set (idx : List ℤ) (vals : List K) (a : List K) (x : ℕ)
    (hlen : idx.length = vals.length) (hnd : idx.Nodup)
    (hr : ∀ i ∈ idx, 0 ≤ i ∧ i < (a.length : ℤ)) :
    ((idx.zip vals).foldl (fun a p => a.set p.1.toNat p.2) a)[x]? =
      if (x : ℤ) ∈ idx then vals[idx.idxOf (x : ℤ)]? else a[x]? := by
  induction idx generalizing vals a with
  | nil => simp
  | cons i idx ih =>
    cases vals with
    | nil => simp at hlen
    | cons v vals =>
      rw [List.nodup_cons] at hnd
      rw [List.zip_cons_cons, List.foldl_cons]
      rw [ih vals _ (by simpa using hlen) hnd.2 (by
        intro j hj; rw [List.length_set]; exact hr j (List.mem_cons_of_mem _ hj))]
      have hi := hr i (by simp)
      by_cases hx : (x : ℤ) = i
      · subst hx
        rw [if_neg hnd.1, if_pos (by simp), List.idxOf_cons_self]
        simp only [Int.toNat_natCast, List.getElem?_cons_zero]
        rw [List.getElem?_set_self]
        omega
      · have h1 : (x : ℤ) ∈ i :: idx ↔ (x : ℤ) ∈ idx := by simp [hx]
        by_cases hm : (x : ℤ) ∈ idx
        · rw [if_pos hm, if_pos (h1.2 hm), List.idxOf_cons_ne _ (fun e => hx e.symm)]
          simp
        · rw [if_neg hm, if_neg (fun h => hm (h1.1 h)), List.getElem?_set_ne]
          omega

omit [LinearOrder K] [IsStrictOrderedRing K] in
theorem fancySet_rank (N k : ℕ) (r : List ℤ) (hk : r.length = k) (hnd : r.Nodup)
    (hr : ∀ i ∈ r, 0 ≤ i ∧ i < (N : ℤ)) :
    fancySet (List.replicate N (0 : K)) r (recipRange k) =
      .ok ((List.range N).map fun x : ℕ => reciprocalRank r (x : ℤ)) := by
  unfold fancySet
  have hl : r.length = (recipRange k : List K).length := by simp [recipRange, hk]
  rw [if_neg (by simpa using hl), if_neg]
  · congr 1
    apply List.ext_getElem?
    intro x
    rw [getElem?_foldl_set r _ _ x hl hnd (by simpa using hr), List.getElem?_map]
    by_cases hx : x < N
    · rw [List.getElem?_range hx]
      simp only [Option.map_some, reciprocalRank]
      by_cases hm : (x : ℤ) ∈ r
      · rw [if_pos hm, if_pos hm]
        have : r.idxOf (x : ℤ) < k := by rw [← hk]; exact List.idxOf_lt_length_of_mem hm
        simp [recipRange, List.getElem?_range this]
      · rw [if_neg hm, if_neg hm]; simp [hx]
    · have h1 : (x : ℤ) ∉ r := fun h => by have := hr _ h; omega
      rw [if_neg h1]
      simp [hx]
  · simp only [List.any_eq_true, not_exists, not_and, decide_eq_true_eq]
    intro i hi
    have := hr i hi
    simp only [List.length_replicate]
    omega

omit [IsStrictOrderedRing K] in
theorem wji_eq (N : ℕ) (f g : ℕ → K) :
    wji ((List.range N).map f) ((List.range N).map g) =
      pyDiv ((List.range N).map fun x => min (f x) (g x)).sum
        ((List.range N).map fun x => max (f x) (g x)).sum := by
  unfold wji
  rw [forIdx2_eq _ _ _ (by simp)]
  rw [foldlM_ok (g := fun (nd : K × K) (p : K × K) => (nd.1 + min p.1 p.2, nd.2 + max p.1 p.2)),
    except_bind_ok]
  have : ∀ (l : List ℕ) (nd : K × K), ((l.map f).zip (l.map g)).foldl
      (fun (nd : K × K) (p : K × K) => (nd.1 + min p.1 p.2, nd.2 + max p.1 p.2)) nd =
      (nd.1 + (l.map fun x => min (f x) (g x)).sum, nd.2 + (l.map fun x => max (f x) (g x)).sum) := by
    intro l
    induction l with
    | nil => intro nd; simp
    | cons x l ih => intro nd; simp [ih, add_assoc]
  rw [this]
  simp

theorem sum_le_sum_range (l : List ℕ) (f g : ℕ → K) (h : ∀ x ∈ l, f x ≤ g x) :
    (l.map f).sum ≤ (l.map g).sum := List.sum_le_sum h

theorem sum_eq_imp (l : List ℕ) (f g : ℕ → K) (h : ∀ x ∈ l, f x ≤ g x)
    (he : (l.map f).sum = (l.map g).sum) : ∀ x ∈ l, f x = g x := by
  induction l with
  | nil => simp
  | cons a l ih =>
    simp only [List.map_cons, List.sum_cons] at he
    have h1 := h a (by simp)
    have h2 := sum_le_sum_range l f g (fun x hx => h x (List.mem_cons_of_mem _ hx))
    have e1 : f a = g a := by linarith
    have e2 : (l.map f).sum = (l.map g).sum := by linarith
    intro x hx
    rcases List.mem_cons.1 hx with rfl | hx
    · exact e1
    · exact ih (fun x hx => h x (List.mem_cons_of_mem _ hx)) e2 x hx

theorem single_le_sum (l : List ℕ) (f : ℕ → K) (h : ∀ x ∈ l, 0 ≤ f x) (a : ℕ) (ha : a ∈ l) :
    f a ≤ (l.map f).sum := by
  induction l with
  | nil => cases ha
  | cons b l ih =>
    rw [List.map_cons, List.sum_cons]
    have h0 : 0 ≤ (l.map f).sum := List.sum_nonneg (by
      intro y hy; obtain ⟨x, hx, rfl⟩ := List.mem_map.1 hy; exact h x (List.mem_cons_of_mem _ hx))
    rcases List.mem_cons.1 ha with rfl | ha
    · linarith
    · have := ih (fun x hx => h x (List.mem_cons_of_mem _ hx)) ha
      have := h b (by simp)
      linarith

/-- a row satisfying the array contract -/
def IsRecRow (N k : ℕ) (r : List ℤ) : Prop :=
  r.length = k ∧ r.Nodup ∧ ∀ x ∈ r, 0 ≤ x ∧ x < (N : ℤ)

theorem denom_pos {N k : ℕ} (hk : 1 ≤ k) {a : List ℤ} (b : List ℤ) (ha : IsRecRow N k a) :
    0 < ((List.range N).map fun x : ℕ => max (reciprocalRank a x) (reciprocalRank b x : K)).sum := by
  obtain ⟨h1, h2, h3⟩ := ha
  obtain ⟨y, a', rfl⟩ : ∃ y a', a = y :: a' := by
    cases a with
    | nil => simp at h1; omega
    | cons y a' => exact ⟨y, a', rfl⟩
  have hy := h3 y (by simp)
  have hmem : y.toNat ∈ List.range N := by rw [List.mem_range]; omega
  have := single_le_sum (List.range N)
    (fun x : ℕ => max (reciprocalRank (y :: a') x) (reciprocalRank b x : K))
    (fun x _ => le_max_of_le_left (reciprocalRank_nonneg _ _)) y.toNat hmem
  have e : ((y.toNat : ℕ) : ℤ) = y := by omega
  have hp : (0 : K) < reciprocalRank (y :: a') ((y.toNat : ℕ) : ℤ) := by
    rw [e]; exact reciprocalRank_pos (by simp)
  exact lt_of_lt_of_le (lt_of_lt_of_le hp (le_max_left _ _)) this

theorem rankJaccard_nonneg (N : ℕ) (a b : List ℤ) : (0 : K) ≤ rankJaccard N a b := by
  unfold rankJaccard
  apply div_nonneg
  · apply List.sum_nonneg
    intro y hy; obtain ⟨x, _, rfl⟩ := List.mem_map.1 hy
    exact le_min (reciprocalRank_nonneg _ _) (reciprocalRank_nonneg _ _)
  · apply List.sum_nonneg
    intro y hy; obtain ⟨x, _, rfl⟩ := List.mem_map.1 hy
    exact le_max_of_le_left (reciprocalRank_nonneg _ _)

theorem rankJaccard_le_one {N k : ℕ} (hk : 1 ≤ k) {a : List ℤ} (b : List ℤ) (ha : IsRecRow N k a) :
    (rankJaccard N a b : K) ≤ 1 := by
  unfold rankJaccard
  rw [div_le_one (denom_pos hk b ha)]
  exact sum_le_sum_range _ _ _ (fun x _ => min_le_max)

omit [IsStrictOrderedRing K] in
theorem rankJaccard_symm (N : ℕ) (a b : List ℤ) : (rankJaccard N a b : K) = rankJaccard N b a := by
  unfold rankJaccard
  simp only [min_comm, max_comm]

theorem rank_determines {N k : ℕ} {a b : List ℤ} (ha : IsRecRow N k a) (hb : IsRecRow N k b)
    (h : ∀ x : ℕ, x < N → (reciprocalRank a x : K) = reciprocalRank b x) : a = b := by
  apply List.ext_getElem (by rw [ha.1, hb.1])
  intro i hi hi'
  have hmem : a[i] ∈ a := List.getElem_mem hi
  have hr := ha.2.2 _ hmem
  have e : ((a[i].toNat : ℕ) : ℤ) = a[i] := by omega
  have h1 := h a[i].toNat (by omega)
  rw [e] at h1
  have hmb : a[i] ∈ b := by
    by_contra hc
    have hp := reciprocalRank_pos (K := K) hmem
    rw [h1] at hp
    simp [reciprocalRank, hc] at hp
  unfold reciprocalRank at h1
  rw [if_pos hmem, if_pos hmb] at h1
  have hidx : a.idxOf a[i] = i := List.Nodup.idxOf_getElem ha.2.1 i hi
  rw [hidx] at h1
  have h2 : (i : K) + 1 = (b.idxOf a[i] : K) + 1 := by
    have hpos1 : ((i : K) + 1) ≠ 0 := by positivity
    have hpos2 : ((b.idxOf a[i] : K) + 1) ≠ 0 := by positivity
    rw [div_eq_div_iff hpos1 hpos2] at h1
    linarith
  have h3 : i = b.idxOf a[i] := by
    have : (i : K) = (b.idxOf a[i] : K) := by linarith
    exact_mod_cast this
  have h4 : b[b.idxOf a[i]]'(List.idxOf_lt_length_of_mem hmb) = a[i] := List.getElem_idxOf _
  rw [← h4]
  congr 1
  exact h3.symm

theorem rankJaccard_eq_one {N k : ℕ} (hk : 1 ≤ k) {a b : List ℤ} (ha : IsRecRow N k a)
    (hb : IsRecRow N k b) : (rankJaccard N a b : K) = 1 ↔ a = b := by
  have hd := denom_pos (K := K) hk b ha
  constructor
  · intro h
    unfold rankJaccard at h
    rw [div_eq_one_iff_eq hd.ne'] at h
    apply rank_determines (K := K) ha hb
    intro x hx
    have := sum_eq_imp _ _ _ (fun x _ => min_le_max) h x (List.mem_range.2 hx)
    rcases le_total (reciprocalRank a x : K) (reciprocalRank b x) with hle | hle
    · rwa [min_eq_left hle, max_eq_right hle] at this
    · rw [min_eq_right hle, max_eq_left hle] at this; exact this.symm
  · rintro rfl
    unfold rankJaccard
    simp only [max_self, min_self] at hd ⊢
    exact div_self hd.ne'

theorem rankJaccard_disjoint (N : ℕ) {a b : List ℤ} (h : ∀ x ∈ a, x ∉ b) :
    (rankJaccard N a b : K) = 0 := by
  unfold rankJaccard
  rw [div_eq_zero_iff]; left
  have : ((List.range N).map fun x : ℕ => min (reciprocalRank a x) (reciprocalRank b x : K)) =
      (List.range N).map fun _ => 0 := by
    apply List.map_congr_left
    intro x _
    by_cases hx : (x : ℤ) ∈ a
    · have : (reciprocalRank b x : K) = 0 := by simp [reciprocalRank, h _ hx]
      rw [this]; exact min_eq_right (reciprocalRank_nonneg _ _)
    · have : (reciprocalRank a x : K) = 0 := by simp [reciprocalRank, hx]
      rw [this]; exact min_eq_left (reciprocalRank_nonneg _ _)
  rw [this]; simp

theorem mean_bounds (l : List K) (h0 : ∀ x ∈ l, 0 ≤ x) (h1 : ∀ x ∈ l, x ≤ 1) (hne : l ≠ []) :
    0 ≤ mean l ∧ mean l ≤ 1 := by
  unfold mean
  have hl : (0 : K) < (l.length : K) := by
    have := List.length_pos_of_ne_nil hne
    exact_mod_cast this
  refine ⟨div_nonneg (List.sum_nonneg h0) hl.le, ?_⟩
  rw [div_le_one hl]
  clear hl hne
  induction l with
  | nil => simp
  | cons a l ih =>
    rw [List.sum_cons, List.length_cons]
    push_cast
    have := ih (fun x hx => h0 x (List.mem_cons_of_mem _ hx)) (fun x hx => h1 x (List.mem_cons_of_mem _ hx))
    have := h1 a (by simp)
    linarith

theorem mean_eq_one (l : List K) (h1 : ∀ x ∈ l, x ≤ 1) (hne : l ≠ []) :
    mean l = 1 ↔ ∀ x ∈ l, x = 1 := by
  unfold mean
  have hl : (0 : K) < (l.length : K) := by
    have := List.length_pos_of_ne_nil hne
    exact_mod_cast this
  rw [div_eq_one_iff_eq hl.ne']
  clear hl hne
  have key : ∀ l : List K, (∀ x ∈ l, x ≤ 1) → l.sum ≤ l.length := by
    intro l
    induction l with
    | nil => simp
    | cons a l ih =>
      intro h
      rw [List.sum_cons, List.length_cons]
      push_cast
      have := ih (fun x hx => h x (List.mem_cons_of_mem _ hx))
      have := h a (by simp)
      linarith
  induction l with
  | nil => simp
  | cons a l ih =>
    rw [List.sum_cons, List.length_cons]
    push_cast
    have hk := key l (fun x hx => h1 x (List.mem_cons_of_mem _ hx))
    have ha := h1 a (by simp)
    have ih' := ih (fun x hx => h1 x (List.mem_cons_of_mem _ hx))
    constructor
    · intro h x hx
      have e1 : a = 1 := by linarith
      have e2 : l.sum = l.length := by linarith
      rcases List.mem_cons.1 hx with rfl | hx
      · exact e1
      · exact ih'.1 e2 x hx
    · intro h
      have := ih'.2 (fun x hx => h x (List.mem_cons_of_mem _ hx))
      have := h a (by simp)
      linarith

theorem mean_eq_zero (l : List K) (h0 : ∀ x ∈ l, 0 ≤ x) (hne : l ≠ []) :
    mean l = 0 ↔ ∀ x ∈ l, x = 0 := by
  unfold mean
  have hl : (0 : K) < (l.length : K) := by
    have := List.length_pos_of_ne_nil hne
    exact_mod_cast this
  rw [div_eq_zero_iff]
  simp only [hl.ne', or_false]
  clear hl hne
  induction l with
  | nil => simp
  | cons a l ih =>
    rw [List.sum_cons]
    have hk : 0 ≤ l.sum := List.sum_nonneg (fun x hx => h0 x (List.mem_cons_of_mem _ hx))
    have ha := h0 a (by simp)
    have ih' := ih (fun x hx => h0 x (List.mem_cons_of_mem _ hx))
    constructor
    · intro h x hx
      have e1 : a = 0 := by linarith
      have e2 : l.sum = 0 := by linarith
      rcases List.mem_cons.1 hx with rfl | hx
      · exact e1
      · exact ih'.1 e2 x hx
    · intro h
      have := ih'.2 (fun x hx => h x (List.mem_cons_of_mem _ hx))
      have := h a (by simp)
      linarith

theorem mean_le_mean (l : List (ℤ × List ℤ)) (f g : ℤ × List ℤ → K) (h : ∀ x ∈ l, f x ≤ g x) :
    mean (l.map f) ≤ mean (l.map g) := by
  unfold mean
  simp only [List.length_map]
  apply div_le_div_of_nonneg_right (List.sum_le_sum h)
  positivity

end DynCF
