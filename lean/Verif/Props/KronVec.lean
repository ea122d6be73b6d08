/-
**C182** `kron_vec_jit` (`/repo/source/tensor_operations.py:291-299`) is the Kronecker product.
-/
import Verif.Model.KronVec

namespace DynCF
variable {K : Type}

/-- what the inner loop writes: the block `[s + off, s + off + |b|)` -/
theorem kronInner_from [Mul K] (b : List K) (off s : ℕ) (x : K) (vec : List K)
    (h : s + off + b.length ≤ vec.length) :
    (enumNat s b).foldl (fun vec p => vec.set (p.1 + off) (x * p.2)) vec =
      vec.take (s + off) ++ b.map (x * ·) ++ vec.drop (s + off + b.length) := by
  induction b generalizing s vec with
  | nil => simp [enumNat]
  | cons y ys ih =>
    simp only [List.length_cons] at h
    simp only [enumNat, List.foldl_cons]
    rw [ih (s + 1) _ (by simp; omega)]
    apply List.ext_getElem?
    intro i
    simp only [List.getElem?_append, List.length_append, List.length_take, List.length_set, List.length_map,
      List.getElem?_take, List.getElem?_drop, List.getElem?_set, List.length_cons, List.map_cons,
      List.getElem?_cons, List.getElem?_map]
    rcases lt_trichotomy i (s + off) with hi | hi | hi
    · have e1 : i < min (s + 1 + off) vec.length + ys.length := by omega
      have e2 : i < min (s + 1 + off) vec.length := by omega
      have e3 : i < s + 1 + off := by omega
      have e4 : ¬ s + off = i := by omega
      have e5 : i < min (s + off) vec.length + (ys.length + 1) := by omega
      have e6 : i < min (s + off) vec.length := by omega
      simp [e1, e2, e3, e4, e5, e6, hi]
    · subst hi
      have e1 : s + off < min (s + 1 + off) vec.length + ys.length := by omega
      have e2 : s + off < min (s + 1 + off) vec.length := by omega
      have e3 : s + off < s + 1 + off := by omega
      have e5 : s + off < min (s + off) vec.length + (ys.length + 1) := by omega
      have e6 : ¬ s + off < min (s + off) vec.length := by omega
      have e7 : s + off < vec.length := by omega
      have e8 : s + off - min (s + off) vec.length = 0 := by omega
      simp [e1, e2, e3, e5, e6, e7, e8]
    · have e2 : ¬ i < min (s + 1 + off) vec.length := by omega
      have e6 : ¬ i < min (s + off) vec.length := by omega
      have m1 : min (s + 1 + off) vec.length = s + 1 + off := by omega
      have m2 : min (s + off) vec.length = s + off := by omega
      have e8 : ¬ i - (s + off) = 0 := by omega
      have e9 : i - (s + off) - 1 = i - (s + 1 + off) := by omega
      by_cases hr : i < s + 1 + off + ys.length
      · have : i < s + off + (ys.length + 1) := by omega
        have g1 : ¬ i < s + 1 + off := by omega
        have g2 : ¬ i < s + off := by omega
        simp [m1, m2, hr, this, g1, g2, e8, e9]
      · have : ¬ i < s + off + (ys.length + 1) := by omega
        have g3 : ¬ s + off = s + 1 + off + ys.length + (i - (s + 1 + off + ys.length)) := by omega
        have g4 : s + 1 + off + ys.length + (i - (s + 1 + off + ys.length)) =
          s + off + (ys.length + 1) + (i - (s + off + (ys.length + 1))) := by omega
        have g5 : ¬ i < s + 1 + off := by omega
        rw [m1, m2, if_neg hr, if_neg this, if_neg g3, g4]

/-- what both loops write -/
theorem kronOuter_from [Mul K] (a b : List K) (s : ℕ) (vec : List K)
    (h : b.length * (s + a.length) ≤ vec.length) :
    (enumNat s a).foldl (fun vec p => kronInner b (b.length * p.1) p.2 vec) vec =
      vec.take (b.length * s) ++ a.flatMap (fun x => b.map (x * ·)) ++
        vec.drop (b.length * (s + a.length)) := by
  induction a generalizing s vec with
  | nil => simp [enumNat]
  | cons x xs ih =>
    simp only [List.length_cons] at h
    have hb : b.length * s + b.length ≤ vec.length := by nlinarith [Nat.zero_le (b.length * xs.length)]
    have e : kronInner b (b.length * s) x vec =
        vec.take (b.length * s) ++ b.map (x * ·) ++ vec.drop (b.length * s + b.length) := by
      have := kronInner_from b (b.length * s) 0 x vec (by omega)
      simpa [kronInner] using this
    have hl : (kronInner b (b.length * s) x vec).length = vec.length := by
      rw [e]; simp; omega
    simp only [enumNat, List.foldl_cons]
    rw [ih (s + 1) _ (by rw [hl]; calc _ = b.length * (s + (xs.length + 1)) := by ring
                              _ ≤ _ := h), e]
    have l1 : (vec.take (b.length * s) ++ b.map (x * ·)).length = b.length * (s + 1) := by
      simp; rw [min_eq_left (by omega)]; ring
    have d1 : b.length * (s + 1 + xs.length) = b.length * (s + 1) + b.length * xs.length := by ring
    rw [List.take_append_of_le_length (le_of_eq l1.symm), List.take_of_length_le (le_of_eq l1),
      List.drop_append, l1, List.drop_of_length_le (by rw [l1]; nlinarith [Nat.zero_le (b.length * xs.length)]),
      List.drop_drop]
    have d2 : b.length * s + b.length + (b.length * (s + 1 + xs.length) - b.length * (s + 1)) =
        b.length * (s + (xs.length + 1)) := by
      rw [d1, Nat.add_sub_cancel_left]; ring
    rw [d2]
    simp

/-- **C182** The result: for each element of `a`, the whole of `b` multiplied by it; whatever the memory of
`np.empty` held, nothing of it remains. -/
theorem C182_kron [Mul K] (junk : ℕ → K) (a b : List K) :
    kronVecJit junk a b = a.flatMap fun x => b.map fun y => x * y := by
  have := kronOuter_from a b 0 ((List.range (a.length * b.length)).map junk) (by simp [Nat.mul_comm])
  unfold kronVecJit
  rw [this]
  simp [Nat.mul_comm]

/-- **C182, length.** -/
theorem C182_length [Mul K] (junk : ℕ → K) (a b : List K) :
    (kronVecJit junk a b).length = a.length * b.length := by
  rw [C182_kron]
  induction a with
  | nil => simp
  | cons x xs ih => simp [ih]; ring

/-- **C182, entries.** Entry `|b| * i + k` is `a[i] * b[k]`. -/
theorem C182_entry [Mul K] (junk : ℕ → K) (a b : List K) (i k : ℕ) (x y : K) (hx : a[i]? = some x)
    (hy : b[k]? = some y) : (kronVecJit junk a b)[b.length * i + k]? = some (x * y) := by
  rw [C182_kron]
  have hk : k < b.length := (List.getElem?_eq_some_iff.mp hy).1
  induction a generalizing i with
  | nil => simp at hx
  | cons z zs ih =>
    cases i with
    | zero =>
      simp at hx; subst hx
      rw [List.flatMap_cons, List.getElem?_append_left (by simpa using hk)]
      simp [hy]
    | succ i =>
      simp at hx
      rw [List.flatMap_cons, List.getElem?_append_right (by simp; nlinarith)]
      have : b.length * (i + 1) + k - (b.map fun y => z * y).length = b.length * i + k := by
        simp; rw [Nat.mul_succ]; omega
      rw [this]
      exact ih i hx

/-- the loops give the entries of `kronVec` (the model of a column of `khatri_rao`) -/
theorem kronVecJit_ofFn [CommRing K] (junk : ℕ → K) {p q : ℕ} (a : Fin p → K) (b : Fin q → K) :
    kronVecJit junk (List.ofFn a) (List.ofFn b) = List.ofFn (kronVec a b) := by
  apply List.ext_getElem?
  intro l
  by_cases hl : l < p * q
  · have hq : 0 < q := by
      rcases Nat.eq_zero_or_pos q with h | h
      · subst h; simp at hl
      · exact h
    have hi : l / q < p := (Nat.div_lt_iff_lt_mul hq).2 hl
    have hk : l % q < q := Nat.mod_lt _ hq
    have e := C182_entry junk (List.ofFn a) (List.ofFn b) (l / q) (l % q) (a ⟨l / q, hi⟩) (b ⟨l % q, hk⟩)
      (by simp [hi]) (by simp [hk])
    rw [List.length_ofFn, Nat.div_add_mod] at e
    rw [e, List.getElem?_ofFn]
    simp [hl, kronVec, finProdFinEquiv, Fin.divNat, Fin.modNat]
  · rw [List.getElem?_eq_none (by rw [C182_length]; simp; omega),
      List.getElem?_eq_none (by simp; omega)]

/-- **C182, use.** In `sparse_tensor_double_tensor_old` the loops compute what one column of
`q_t.dot(khatri_rao(...))` is in `sparse_tensor_double_tensor` (`projVec`), errors included. -/
theorem C182_project [CommRing K] (junk : ℕ → K) (q u1 u2 : Mat K) (i1 i2 : ℤ) :
    projVecJit junk q u1 u2 i1 i2 = projVec q u1 u2 i1 i2 := by
  unfold projVecJit projVec
  cases hb : u2.row i2 with
  | error e => rfl
  | ok b =>
    cases ha : u1.row i1 with
    | error e => rfl
    | ok a =>
      change (if _ then _ else _) = (if h : _ then _ else _)
      have hl : (kronVecJit junk (List.ofFn b) (List.ofFn a)).length = u2.cols * u1.cols := by
        rw [C182_length]; simp
      by_cases h : u2.cols * u1.cols = q.rows
      · rw [if_pos (hl.trans h), dif_pos h]
        congr 1
        funext c
        rw [kronVecJit_ofFn]
        obtain ⟨qr, qc, qv⟩ := q
        simp only at h
        subst h
        rw [← List.sum_ofFn]
        congr 1
        apply List.ext_getElem <;> simp
      · rw [if_neg (by rw [hl]; exact h), dif_neg h]

example : kronVecJit (fun n => (n : ℤ) + 77) [1, 2] [1, 2, 3, 4] = [1, 2, 3, 4, 2, 4, 6, 8] := by decide

example : ((projVecJit (fun _ => 5) ⟨4, 1, !![1; 10; 100; 1000]⟩ ⟨1, 2, !![2, 3]⟩ ⟨1, 2, !![4, 7]⟩ 0 0 :
    PyM (Fin 1 → ℤ)).map fun v => v 0) = .ok 22528 := by decide +kernel

example : ((projVecJit (fun _ => 5) ⟨3, 1, !![1; 10; 100]⟩ ⟨1, 2, !![2, 3]⟩ ⟨1, 2, !![4, 7]⟩ 0 0 :
    PyM (Fin 1 → ℤ)).map fun v => v 0) = .error .valueError := by decide +kernel

end DynCF
