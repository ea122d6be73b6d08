/-
Properties C45, C46 and C83 of the PSI recommender: what adding users and items does to the
predictions `u · s · vt`.
-/
import Verif.Model.PsiClass
import Verif.Props.SvdUpdate
import Mathlib.LinearAlgebra.Matrix.Rank

set_option linter.unusedSectionVars false

namespace DynCF
open Matrix
variable {K : Type}

/-- The state stores the factors `U` (`m × r`), `S` (`r × c`) and `V` (`c × n`); its predictions are
the entries of `U * S * V`. -/
def Stores [Zero K] (st : PSIState K) {m r c n : ℕ} (U : Matrix (Fin m) (Fin r) K)
    (S : Matrix (Fin r) (Fin c) K) (V : Matrix (Fin c) (Fin n) K) : Prop :=
  st.u = ⟨m, r, U⟩ ∧ st.s.toMat = ⟨r, c, S⟩ ∧ st.vt = ⟨c, n, V⟩

/-! ### C45 -/

/-- **C45** Zero embeddings for `k` new users. -/
theorem C45_users [CommRing K] (st : PSIState K) {m r c n : ℕ} (U : Matrix (Fin m) (Fin r) K)
    (S : Matrix (Fin r) (Fin c) K) (V : Matrix (Fin c) (Fin n) K) (h : Stores st U S V) (k : ℕ) :
    ∃ U' : Matrix (Fin (m + k)) (Fin r) K, Stores (addZeroUsers k st) U' S V ∧
      (∀ i j, (U' * S * V) (Fin.castAdd k i) j = (U * S * V) i j) ∧
      ∀ i j, (U' * S * V) (Fin.natAdd m i) j = 0 := by
  obtain ⟨hu, hs, hv⟩ := h
  refine ⟨Matrix.of fun i j => Fin.addCases (fun i => U i j) (fun _ => 0) i, ⟨?_, hs, hv⟩, ?_, ?_⟩
  · show zeroPadRows st.u k = _
    rw [hu]
    rfl
  · intro i j
    simp [Matrix.mul_apply]
  · intro i j
    simp [Matrix.mul_apply]

/-- **C45** Zero embeddings for `k` new items. -/
theorem C45_items [CommRing K] (st : PSIState K) {m r c n : ℕ} (U : Matrix (Fin m) (Fin r) K)
    (S : Matrix (Fin r) (Fin c) K) (V : Matrix (Fin c) (Fin n) K) (h : Stores st U S V) (k : ℕ) :
    ∃ V' : Matrix (Fin c) (Fin (n + k)) K, Stores (addZeroItems k st) U S V' ∧
      (∀ i j, (U * S * V') i (Fin.castAdd k j) = (U * S * V) i j) ∧
      ∀ i j, (U * S * V') i (Fin.natAdd n j) = 0 := by
  obtain ⟨hu, hs, hv⟩ := h
  refine ⟨Matrix.of fun i j => Fin.addCases (fun j => V i j) (fun _ => 0) j, ⟨hu, hs, ?_⟩, ?_, ?_⟩
  · show (zeroPadRows st.vt.T k).T = _
    rw [hv]
    rfl
  · intro i j
    simp [Matrix.mul_apply]
  · intro i j
    simp [Matrix.mul_apply]

/-- The step `new` with the integrator for new ids: zero embeddings on both sides. -/
theorem C45_new [Field K] [LinearOrder K] (env : PSIEnv K) (cfg : PSICfg) (hc : cfg.integrator = true)
    (st : PSIState K) {m r c n a b : ℕ} (U : Matrix (Fin m) (Fin r) K) (S : Matrix (Fin r) (Fin c) K)
    (V : Matrix (Fin c) (Fin n) K) (h : Stores st U S V) (da : Matrix (Fin a) (Fin b) K) :
    ∃ st' U' V', psiUpdater env cfg st ⟨a, b, da⟩ .new = .ok st' ∧
      Stores (m := m + a) (n := n + b) st' U' S V' ∧
      (∀ i j, (U' * S * V') (Fin.castAdd a i) (Fin.castAdd b j) = (U * S * V) i j) ∧
      (∀ i j, (U' * S * V') (Fin.natAdd m i) j = 0) ∧ ∀ i j, (U' * S * V') i (Fin.natAdd n j) = 0 := by
  obtain ⟨U', h1, h2, h3⟩ := C45_users st U S V h a
  obtain ⟨V', h4, h5, h6⟩ := C45_items (addZeroUsers a st) U' S V h1 b
  refine ⟨_, U', V', by simp only [psiUpdater, hc, if_true]; rfl, h4, ?_, ?_, h6⟩
  · intro i j
    rw [h5, h2]
  · intro i j
    refine Fin.addCases (fun j => ?_) (fun j => ?_) j
    · rw [h5, h3]
    · rw [h6]

/-- Two users, one item, rank 1, singular value 2: predictions 2 and 4. -/
def embState : PSIState ℝ :=
  ⟨⟨⟨[], [], 0⟩, ⟨[], [], 0⟩⟩, ⟨2, 1, !![1; 2]⟩, .vec 1 (fun _ => 2), ⟨1, 1, !![1]⟩, [], ⟨2, 1, !![1; 2]⟩,
    ⟨1, 1, !![2]⟩⟩

/-- One zero user added. -/
example : ∃ U' : Matrix (Fin (2 + 1)) (Fin 1) ℝ,
    Stores (addZeroUsers 1 embState) U' (Matrix.diagonal fun _ => 2) (!![1] : Matrix (Fin 1) (Fin 1) ℝ) ∧
    (U' * (Matrix.diagonal fun _ => 2 : Matrix (Fin 1) (Fin 1) ℝ) * (!![1] : Matrix (Fin 1) (Fin 1) ℝ)) 1 0 = 4 ∧
    (U' * (Matrix.diagonal fun _ => 2 : Matrix (Fin 1) (Fin 1) ℝ) * (!![1] : Matrix (Fin 1) (Fin 1) ℝ)) 2 0 = 0 := by
  obtain ⟨U', h1, h2, h3⟩ := C45_users embState !![1; 2] (Matrix.diagonal fun _ => 2) !![1] ⟨rfl, rfl, rfl⟩ 1
  refine ⟨U', h1, ?_, h3 0 0⟩
  rw [show (1 : Fin (2 + 1)) = Fin.castAdd 1 (1 : Fin 2) from rfl, h2]
  simp [Matrix.mul_apply]
  norm_num

/-! ### C46 -/

/-- **C46** Random embeddings for new users: existing predictions do not change. -/
theorem C46_users [CommRing K] (env : PSIEnv K) (hqr : QrAlways env.la) (st : PSIState K) {m r c n : ℕ}
    (U : Matrix (Fin m) (Fin r) K) (S : Matrix (Fin r) (Fin c) K) (V : Matrix (Fin c) (Fin n) K)
    (h : Stores st U S V) (k : ℕ) :
    ∃ (p : ℕ) (U' : Matrix (Fin (m + k)) (Fin p) K) (S' : Matrix (Fin p) (Fin c) K) (st' : PSIState K),
      addRandomUsers env k st = .ok st' ∧ Stores st' U' S' V ∧ U'.transpose * U' = 1 ∧
      (∀ i j, (U' * S' * V) (Fin.castAdd k i) j = (U * S * V) i j) ∧
      ∀ i j, (U' * S' * V) (Fin.natAdd m i) j =
        ((env.normal (m + k) r).submatrix (Fin.natAdd m) id * S * V) i j := by
  obtain ⟨hu, hs, hv⟩ := h
  obtain ⟨maps, u, s, v, hist, uf, itf⟩ := st
  dsimp only at hu hs hv
  subst hu hv
  set A : Matrix (Fin (m + k)) (Fin r) K := Matrix.of fun i j =>
    Fin.addCases (fun i => U i j) (fun i' => env.normal (m + k) r (Fin.natAdd m i') j) i with hA
  obtain ⟨h1, h2⟩ := hqr A
  have hprod : (env.la.qr A).1 * ((env.la.qr A).2 * S) * V = A * S * V := by
    rw [← Matrix.mul_assoc (env.la.qr A).1, h1]
  refine ⟨_, (env.la.qr A).1, (env.la.qr A).2 * S,
    ⟨maps, ⟨_, _, (env.la.qr A).1⟩, .mat ⟨_, _, (env.la.qr A).2 * S⟩, ⟨c, n, V⟩, hist, uf, itf⟩,
    ?_, ⟨rfl, rfl, rfl⟩, h2, ?_, ?_⟩
  · unfold addRandomUsers padRandom LinAlg.qrM
    dsimp only
    rw [hs, Mat.dot_mk]
    rfl
  · intro i j
    rw [hprod]
    simp [Matrix.mul_apply, hA]
  · intro i j
    rw [hprod]
    simp [Matrix.mul_apply, hA]

/-- The factors after random embeddings for new items (the code multiplies `R · s`). -/
theorem addRandomItems_run [CommRing K] (env : PSIEnv K) (st : PSIState K) {m r n : ℕ}
    (U : Matrix (Fin m) (Fin r) K) (S : Matrix (Fin r) (Fin r) K) (V : Matrix (Fin r) (Fin n) K)
    (h : Stores st U S V) (k : ℕ) (A : Matrix (Fin (n + k)) (Fin r) K)
    (hA : A = Matrix.of fun i j => Fin.addCases (fun i => V j i)
      (fun i' => env.normal (n + k) r (Fin.natAdd n i') j) i) :
    addRandomItems env k st = .ok { st with
      vt := ⟨min (n + k) r, n + k, (env.la.qr A).1.transpose⟩,
      s := .mat ⟨min (n + k) r, r, (env.la.qr A).2 * S⟩ } := by
  obtain ⟨hu, hs, hv⟩ := h
  obtain ⟨maps, u, s, v, hist, uf, itf⟩ := st
  dsimp only at hu hs hv
  subst hu hv hA
  unfold addRandomItems padRandom LinAlg.qrM
  dsimp only [Mat.T]
  rw [hs, Mat.dot_mk]
  rfl

/-- **C46 (items, partial)** With random embeddings for new items the existing predictions stay the same
if `R S = S Rᵀ` for the triangular factor `R` of the extended item factors. The full statement has no such
assumption: see `C46_items_violated` for its failure (the code uses `R S` where `S Rᵀ` is needed). -/
theorem C46_items_partial [CommRing K] (env : PSIEnv K) (hqr : QrAlways env.la) (st : PSIState K) {m r n : ℕ}
    (U : Matrix (Fin m) (Fin r) K) (S : Matrix (Fin r) (Fin r) K) (V : Matrix (Fin r) (Fin n) K)
    (h : Stores st U S V) (k : ℕ) (hrn : r ≤ n) :
    ∃ (V' : Matrix (Fin r) (Fin (n + k)) K) (R : Matrix (Fin r) (Fin r) K) (st' : PSIState K),
      addRandomItems env k st = .ok st' ∧ Stores st' U (R * S) V' ∧ V' * V'.transpose = 1 ∧
      (∀ i j, (R.transpose * V') i (Fin.castAdd k j) = V i j) ∧
      (R * S = S * R.transpose → ∀ i j, (U * (R * S) * V') i (Fin.castAdd k j) = (U * S * V) i j) := by
  set A : Matrix (Fin (n + k)) (Fin r) K := Matrix.of fun i j => Fin.addCases (fun i => V j i)
      (fun i' => env.normal (n + k) r (Fin.natAdd n i') j) i with hA
  have hrun := addRandomItems_run env st U S V h k A hA
  obtain ⟨h1, h2⟩ := hqr A
  obtain ⟨hu, hs, hv⟩ := h
  generalize env.la.qr A = x at *
  obtain ⟨Q, R⟩ := x
  dsimp only at *
  have hmin : min (n + k) r = r := by omega
  generalize min (n + k) r = p at *
  subst hmin
  have hold : ∀ i j, (R.transpose * Q.transpose) i (Fin.castAdd k j) = V i j := by
    intro i j
    rw [← Matrix.transpose_mul, h1]
    simp [hA]
  refine ⟨Q.transpose, R, _, hrun, ⟨hu, rfl, rfl⟩, by rw [Matrix.transpose_transpose, h2], hold, ?_⟩
  intro hc i j
  rw [hc, ← Matrix.mul_assoc, Matrix.mul_assoc _ R.transpose, Matrix.mul_apply, Matrix.mul_apply]
  exact Finset.sum_congr rfl fun a _ => by rw [hold]

/-- **C46 is violated for new items.** Whatever the QR routine returns (within its contract), there is a
core `S` such that one random embedding changes an existing prediction. Here `u` and `vt` are the
2 × 2 identity and the random row is `(1, 0)`. -/
theorem C46_items_violated (env : PSIEnv ℝ) (hqr : QrAlways env.la)
    (hn : env.normal (2 + 1) 2 = Matrix.of fun _ j => if j = 0 then 1 else 0)
    (maps : Mappings) (hist : List (ℤ × ℤ)) (uf itf : Mat ℝ) :
    ∃ (S : Matrix (Fin 2) (Fin 2) ℝ) (S' : Matrix (Fin 2) (Fin 2) ℝ) (V' : Matrix (Fin 2) (Fin (2 + 1)) ℝ)
      (st' : PSIState ℝ),
      addRandomItems env 1 ⟨maps, ⟨2, 2, 1⟩, .mat ⟨2, 2, S⟩, ⟨2, 2, 1⟩, hist, uf, itf⟩ = .ok st' ∧
      Stores st' (1 : Matrix (Fin 2) (Fin 2) ℝ) S' V' ∧
      ∃ i j, ((1 : Matrix (Fin 2) (Fin 2) ℝ) * S' * V') i (Fin.castAdd 1 j) ≠
        ((1 : Matrix (Fin 2) (Fin 2) ℝ) * S * (1 : Matrix (Fin 2) (Fin 2) ℝ)) i j := by
  set A : Matrix (Fin (2 + 1)) (Fin 2) ℝ := Matrix.of fun i j => Fin.addCases
      (fun i => (1 : Matrix (Fin 2) (Fin 2) ℝ) j i)
      (fun i' : Fin 1 => env.normal (2 + 1) 2 (Fin.natAdd 2 i') j) i with hA
  have hrun := fun S : Matrix (Fin 2) (Fin 2) ℝ =>
    addRandomItems_run env ⟨maps, ⟨2, 2, 1⟩, .mat ⟨2, 2, S⟩, ⟨2, 2, 1⟩, hist, uf, itf⟩ 1 S 1 ⟨rfl, rfl, rfl⟩ 1 A hA
  obtain ⟨h1, h2⟩ := hqr A
  generalize env.la.qr A = x at *
  obtain ⟨Q, R⟩ := x
  change Matrix (Fin (2 + 1)) (Fin 2) ℝ at Q
  change Matrix (Fin 2) (Fin 2) ℝ at R
  dsimp only at h1 h2 hrun
  have h1 : Q * R = A := h1
  have h2 : Q.transpose * Q = 1 := h2
  have hRR : R.transpose * R = !![2, 0; 0, 1] := by
    have : A.transpose * A = !![2, 0; 0, 1] := by
      ext i j
      rw [Matrix.mul_apply, Fin.sum_univ_add]
      fin_cases i <;> fin_cases j <;>
        simp [hA, hn, Matrix.one_apply, Matrix.of_apply] <;> norm_num
    rw [← this, ← h1, Matrix.transpose_mul, Matrix.mul_assoc, ← Matrix.mul_assoc _ Q, h2, Matrix.one_mul]
  have hold : ∀ i j, (R.transpose * Q.transpose) i (Fin.castAdd 1 j) = (1 : Matrix (Fin 2) (Fin 2) ℝ) i j := by
    intro i j
    rw [← Matrix.transpose_mul, h1]
    simp [hA]
  by_contra hno
  push Not at hno
  -- every prediction would be unchanged for every core
  have hall : ∀ S : Matrix (Fin 2) (Fin 2) ℝ, R * S = S * R.transpose := by
    intro S
    have := hno S (R * S) Q.transpose _ (hrun S) ⟨rfl, rfl, rfl⟩
    simp only [Matrix.one_mul, Matrix.mul_one] at this
    -- the old columns of Qᵀ
    set V0 : Matrix (Fin 2) (Fin 2) ℝ := Matrix.of fun i j => Q.transpose i (Fin.castAdd 1 j) with hV0
    have e1 : R.transpose * V0 = 1 := by
      ext i j
      have := hold i j
      rw [Matrix.mul_apply] at this ⊢
      exact this
    have e2 : R * S * V0 = S := by
      ext i j
      have := this i j
      rw [Matrix.mul_apply] at this ⊢
      exact this
    have e3 : V0 * R.transpose = 1 := mul_eq_one_comm.1 e1
    calc R * S = R * S * (V0 * R.transpose) := by rw [e3, Matrix.mul_one]
      _ = S * R.transpose := by rw [← Matrix.mul_assoc, e2]
  have hsym : R = R.transpose := by simpa using hall 1
  have hE := hall !![0, 1; 0, 0]
  rw [← hsym] at hE hRR
  have e01 := congrFun (congrFun hE 0) 1
  have e00 := congrFun (congrFun hE 0) 0
  have s01 := congrFun (congrFun hsym 0) 1
  have q00 := congrFun (congrFun hRR 0) 0
  have q11 := congrFun (congrFun hRR 1) 1
  simp [Matrix.mul_apply, Fin.sum_univ_two] at e01 e00 s01 q00 q11
  rw [e01] at q00
  nlinarith

/-! ### Exact appending -/

section
variable [Field K] [LinearOrder K] [IsStrictOrderedRing K]

/-- The sketch of `X` captures the range of `X`: `X` is a multiple of the sketch (true for almost all random
matrices when `X` has rank at most `rank + os`). -/
def Captures (rng : Rng K) {p n : ℕ} (X : Matrix (Fin p) (Fin n) K) (rank nPower os : ℕ) : Prop :=
  ∃ B, sketch rng X rank nPower os * B = X

theorem pow_mul_gram {p n : ℕ} (X : Matrix (Fin p) (Fin n) K) (k : ℕ) :
    (X * X.transpose) ^ k * X = X * (X.transpose * X) ^ k := by
  induction k with
  | zero => rw [pow_zero, pow_zero, Matrix.one_mul, Matrix.mul_one]
  | succ k ih => rw [pow_succ, pow_succ', Matrix.mul_assoc, Matrix.mul_assoc, ← Matrix.mul_assoc X,
      ← Matrix.mul_assoc _ (X * X.transpose) X, ← pow_succ, pow_succ', Matrix.mul_assoc, ih]; simp only [Matrix.mul_assoc]

theorem sketch_gram (rng : Rng K) {p n : ℕ} (X : Matrix (Fin p) (Fin n) K) (rank nPower os : ℕ) :
    sketch rng X rank nPower os = X * ((X.transpose * X) ^ nPower * rng n (rank + os)) := by
  rw [sketch, ← Matrix.mul_assoc, pow_mul_gram, Matrix.mul_assoc]

/-- whether the sketch captures a matrix depends on its Gram matrix only -/
theorem captures_of_gram (rng : Rng K) {p m n : ℕ} (D : Matrix (Fin p) (Fin n) K) (X : Matrix (Fin m) (Fin n) K)
    (h : D.transpose * D = X.transpose * X) (rank nPower os : ℕ) (hX : Captures rng X rank nPower os) :
    Captures rng D rank nPower os := by
  obtain ⟨B, hB⟩ := hX
  refine ⟨B, ?_⟩
  rw [sketch_gram] at hB ⊢
  rw [h]
  generalize (X.transpose * X) ^ nPower * rng n (rank + os) = G at hB ⊢
  have hM : X * (G * B - 1) = 0 := by rw [Matrix.mul_sub, ← Matrix.mul_assoc, hB, Matrix.mul_one, sub_self]
  have hg : (D * (G * B - 1)).transpose * (D * (G * B - 1)) = 0 := by
    rw [Matrix.transpose_mul, Matrix.mul_assoc, ← Matrix.mul_assoc D.transpose, h, Matrix.mul_assoc X.transpose, hM,
      Matrix.mul_zero, Matrix.mul_zero]
  have hz : D * (G * B - 1) = 0 := by
    ext i j
    have := congrFun (congrFun hg j) j
    generalize D * (G * B - 1) = E at this ⊢
    have hd : (fun i => E i j) ⬝ᵥ (fun i => E i j) = 0 := this
    exact congrFun (dotProduct_self_eq_zero.1 hd) i
  rw [Matrix.mul_sub, Matrix.mul_one, sub_eq_zero] at hz
  rw [Matrix.mul_assoc, hz]

/-- **C42, exact result.** With orthonormal `U`, if the extended matrix has rank at most `r` and the sketch
captures its range, the returned factors reproduce `[U S V | N]` exactly. -/
theorem C42_recovery (la : LinAlg K) (rng : Rng K) (hqr : QrAlways la)
    (hsvd : ∀ {a b : ℕ} (A : Matrix (Fin a) (Fin b) K), SvdOk la A) {m r q nc : ℕ}
    (U : Matrix (Fin m) (Fin r) K) (s : SArg K) (S : Matrix (Fin r) (Fin r) K)
    (hs : s.toMat = ⟨r, r, S⟩) (V : Matrix (Fin r) (Fin q) K) (N : Matrix (Fin m) (Fin nc) K)
    (hnc : nc ≤ m) (hpos : 0 < r + nc) (nPower os : ℕ) (hU : U.transpose * U = 1)
    (hrank : (hblock (U * S) N).rank ≤ r) (hcap : Captures rng (hblock (U * S) N) r nPower os) :
    ∃ (k : ℕ) (U2 : Matrix (Fin m) (Fin k) K) (s2 : Fin k → K) (V2 : Matrix (Fin k) (Fin (q + nc)) K),
      updateSvdNewVectors la rng ⟨m, r, U⟩ s ⟨r, q, V⟩ ⟨m, nc, N⟩ nPower os =
        .ok (⟨m, k, U2⟩, ⟨k, s2⟩, ⟨k, q + nc, V2⟩) ∧
      U2 * Matrix.diagonal s2 * V2 = hblock (U * S * V) N := by
  obtain ⟨p, P, D, k, d1, d2, d3, he, hk, hrun, hPD, hp⟩ :=
    newVectors_run la rng hqr U s S hs V N hnc hpos nPower os
  have hgram : D.transpose * D = (P * D).transpose * (P * D) := by
    rcases hp with ⟨hP, -⟩ | ⟨-, hiso⟩
    · rw [Matrix.transpose_mul, Matrix.mul_assoc, ← Matrix.mul_assoc _ P, hP, Matrix.one_mul]
    · exact (hiso hU).symm
  have hD : D.rank ≤ r := by
    rw [← Matrix.rank_transpose_mul_self, hgram, Matrix.rank_transpose_mul_self, hPD]
    exact hrank
  rw [← hPD] at hcap
  obtain ⟨B, hB⟩ := captures_of_gram rng D (P * D) hgram r nPower os hcap
  obtain ⟨k', d1', d2', d3', he', hex⟩ := C47_recovery la rng D r nPower os ⟨hqr _, hsvd _⟩ B hB hD
  rw [he] at he'
  have hk' : k = k' := congrArg (fun x => x.2.1.len) he'
  subst hk'
  simp only [Prod.mk.injEq, Mat.mk.injEq, Vec.mk.injEq, heq_eq_eq, true_and] at he'
  obtain ⟨rfl, rfl, rfl⟩ := he'
  refine ⟨k, _, _, _, hrun, ?_⟩
  have hW : P * D * (blk V.transpose 0 0 (1 : Matrix (Fin nc) (Fin nc) K)).transpose =
      hblock (U * S * V) N := by
    rw [hPD, blk_transpose, hblock_mul_blk]
    simp
  rw [Matrix.transpose_mul, Matrix.transpose_transpose, ← hW, ← hex]
  simp only [Matrix.mul_assoc]

/-- **C83 (items)** Appending new items by `update_svd_new_vectors` for *any* core `S`: if the extended
matrix has rank at most `r` (and the sketch captures it), the predictions of existing items are unchanged
and the new items get exactly their data. -/
theorem C83_items (env : PSIEnv K) (hqr : QrAlways env.la)
    (hsvd : ∀ {a b : ℕ} (A : Matrix (Fin a) (Fin b) K), SvdOk env.la A) (cfg : PSICfg)
    (hc : cfg.init = none) (st : PSIState K) {m n r nc : ℕ} (U : Matrix (Fin m) (Fin r) K)
    (S : Matrix (Fin r) (Fin r) K) (V : Matrix (Fin r) (Fin n) K) (h : Stores st U S V)
    (N : Matrix (Fin m) (Fin nc) K) (hnc : nc ≤ m) (hpos : 0 < nc) (hU : U.transpose * U = 1)
    (hrank : (hblock (U * S) N).rank ≤ r) (hcap : Captures env.rng (hblock (U * S) N) r cfg.nPower cfg.os) :
    ∃ (k : ℕ) (U' : Matrix (Fin m) (Fin k) K) (S' : Matrix (Fin k) (Fin k) K)
      (V' : Matrix (Fin k) (Fin (n + nc)) K) (st' : PSIState K),
      psiUpdater env cfg st ⟨m, nc, N⟩ .newItems = .ok st' ∧ Stores st' U' S' V' ∧
      (∀ i j, (U' * S' * V') i (Fin.castAdd nc j) = (U * S * V) i j) ∧
      ∀ i j, (U' * S' * V') i (Fin.natAdd n j) = N i j := by
  obtain ⟨hu, hs, hv⟩ := h
  obtain ⟨k, U2, s2, V2, he, hp⟩ := C42_recovery env.la env.rng hqr hsvd U st.s S hs V N hnc (by omega)
    cfg.nPower cfg.os hU hrank hcap
  refine ⟨k, U2, Matrix.diagonal s2, V2, { st with u := ⟨m, k, U2⟩, s := .vec k s2, vt := ⟨k, n + nc, V2⟩ },
    ?_, ⟨rfl, rfl, rfl⟩, ?_, ?_⟩
  · unfold psiUpdater
    rw [hc]
    dsimp only
    rw [hu, hv, he]
    rfl
  · intro i j
    rw [hp, hblock_left]
  · intro i j
    rw [hp, hblock_right]

/-- **C83 (users, partial)** Appending new users: the same, but only for a symmetric core `S` (for example a
diagonal one). The code passes `s` where `sᵀ` belongs, see `C83_users_violated`; the full statement has no
assumption on `S`, as for items. -/
theorem C83_users_partial (env : PSIEnv K) (hqr : QrAlways env.la)
    (hsvd : ∀ {a b : ℕ} (A : Matrix (Fin a) (Fin b) K), SvdOk env.la A) (cfg : PSICfg)
    (hc : cfg.init = none) (st : PSIState K) {m n r nc : ℕ} (U : Matrix (Fin m) (Fin r) K)
    (S : Matrix (Fin r) (Fin r) K) (hS : S.transpose = S) (V : Matrix (Fin r) (Fin n) K) (h : Stores st U S V)
    (N : Matrix (Fin n) (Fin nc) K) (hnc : nc ≤ n) (hpos : 0 < nc) (hV : V * V.transpose = 1)
    (hrank : (hblock (V.transpose * S) N).rank ≤ r)
    (hcap : Captures env.rng (hblock (V.transpose * S) N) r cfg.nPower cfg.os) :
    ∃ (k : ℕ) (U' : Matrix (Fin (m + nc)) (Fin k) K) (S' : Matrix (Fin k) (Fin k) K)
      (V' : Matrix (Fin k) (Fin n) K) (st' : PSIState K),
      psiUpdater env cfg st ⟨n, nc, N⟩ .newUsers = .ok st' ∧ Stores st' U' S' V' ∧
      (∀ i j, (U' * S' * V') (Fin.castAdd nc i) j = (U * S * V) i j) ∧
      ∀ i j, (U' * S' * V') (Fin.natAdd m i) j = N j i := by
  obtain ⟨hu, hs, hv⟩ := h
  obtain ⟨k, U2, s2, V2, he, hp⟩ := C42_recovery env.la env.rng hqr hsvd V.transpose st.s S hs U.transpose N hnc
    (by omega) cfg.nPower cfg.os (by rw [Matrix.transpose_transpose, hV]) hrank hcap
  have hp' : V2.transpose * Matrix.diagonal s2 * U2.transpose =
      (hblock (V.transpose * S * U.transpose) N).transpose := by
    rw [← hp, Matrix.transpose_mul, Matrix.transpose_mul, Matrix.diagonal_transpose, Matrix.mul_assoc]
  refine ⟨k, V2.transpose, Matrix.diagonal s2, U2.transpose,
    { st with u := ⟨m + nc, k, V2.transpose⟩, s := .vec k s2, vt := ⟨k, n, U2.transpose⟩ },
    ?_, ⟨rfl, rfl, rfl⟩, ?_, ?_⟩
  · unfold psiUpdater
    rw [hc]
    dsimp only
    rw [hu, hv]
    simp only [Mat.T_mk]
    rw [he]
    rfl
  · intro i j
    rw [hp', Matrix.transpose_apply, hblock_left, ← Matrix.transpose_apply (V.transpose * S * U.transpose),
      Matrix.transpose_mul, Matrix.transpose_mul, Matrix.transpose_transpose, Matrix.transpose_transpose, hS,
      Matrix.mul_assoc]
  · intro i j
    rw [hp', Matrix.transpose_apply, hblock_right]

end

/-- A sketch that captures everything: the identity as random matrix, no power iteration. -/
def eyeRng : Rng ℝ := fun _ _ => Matrix.of fun i j => if (i : ℕ) = (j : ℕ) then 1 else 0

theorem eyeRng_captures (r nc : ℕ) {p : ℕ} (D : Matrix (Fin p) (Fin (r + nc)) ℝ) :
    Captures eyeRng D r 0 nc := by
  refine ⟨1, ?_⟩
  have : eyeRng (r + nc) (r + nc) = 1 := by
    ext i j
    have : ((i : ℕ) = (j : ℕ)) ↔ i = j := Fin.ext_iff.symm
    simp only [eyeRng, Matrix.of_apply, this, Matrix.one_apply]
  rw [sketch, pow_zero, Matrix.one_mul, this, Matrix.mul_one, Matrix.mul_one]

noncomputable def eyeEnv (argsort : ArgSort ℝ) : PSIEnv ℝ := ⟨realLA, eyeRng, argsort, fun _ _ => 0⟩

/-- A core as it is left by a projector-splitting step: not symmetric. -/
def nilS : Matrix (Fin 2) (Fin 2) ℝ := !![0, 1; 0, 0]

/-- The example state: identity factors with the core `nilS`. -/
def nilState (maps : Mappings) : PSIState ℝ :=
  ⟨maps, ⟨2, 2, 1⟩, .mat ⟨2, 2, nilS⟩, ⟨2, 2, 1⟩, [], ⟨2, 2, 1⟩, ⟨2, 2, nilS⟩⟩

theorem nil_rank : (hblock (nilS : Matrix (Fin 2) (Fin 2) ℝ) (0 : Matrix (Fin 2) (Fin 1) ℝ)).rank ≤ 2 :=
  (Matrix.rank_le_height _).trans le_rfl

/-- **C83 is violated for new users.** One new user without any (non-zero) data is appended to a model with
identity factors and a non-symmetric core: everything is recovered exactly - of the wrong matrix. The
prediction of the existing user 0 for item 1 changes from 1 to 0, that of user 1 for item 0 from 0 to 1. -/
theorem C83_users_violated (argsort : ArgSort ℝ) (maps : Mappings) :
    ∃ (k : ℕ) (U' : Matrix (Fin (2 + 1)) (Fin k) ℝ) (S' : Matrix (Fin k) (Fin k) ℝ)
      (V' : Matrix (Fin k) (Fin 2) ℝ) (st' : PSIState ℝ),
      Stores (nilState maps) (1 : Matrix (Fin 2) (Fin 2) ℝ) nilS (1 : Matrix (Fin 2) (Fin 2) ℝ) ∧
      psiUpdater (eyeEnv argsort) ⟨2, 0, 1, none, false⟩ (nilState maps) ⟨2, 1, 0⟩ .newUsers = .ok st' ∧
      Stores st' U' S' V' ∧
      ((1 : Matrix (Fin 2) (Fin 2) ℝ) * nilS * (1 : Matrix (Fin 2) (Fin 2) ℝ)) 0 1 = 1 ∧ (U' * S' * V') 0 1 = 0 ∧
      ((1 : Matrix (Fin 2) (Fin 2) ℝ) * nilS * (1 : Matrix (Fin 2) (Fin 2) ℝ)) 1 0 = 0 ∧ (U' * S' * V') 1 0 = 1 := by
  obtain ⟨k, U2, s2, V2, he, hp⟩ := C42_recovery realLA eyeRng qrAlways_real (fun A => realLA_svd A)
    (1 : Matrix (Fin 2) (Fin 2) ℝ) (.mat ⟨2, 2, nilS⟩) nilS rfl (1 : Matrix (Fin 2) (Fin 2) ℝ)
    (0 : Matrix (Fin 2) (Fin 1) ℝ) (by omega) (by omega) 0 1 (by simp) (by simpa using nil_rank)
    (eyeRng_captures 2 1 _)
  have hp' : V2.transpose * Matrix.diagonal s2 * U2.transpose =
      (hblock nilS (0 : Matrix (Fin 2) (Fin 1) ℝ)).transpose := by
    have := congrArg Matrix.transpose hp
    rw [Matrix.transpose_mul, Matrix.transpose_mul, Matrix.diagonal_transpose, ← Matrix.mul_assoc] at this
    rw [this]
    simp
  refine ⟨k, V2.transpose, Matrix.diagonal s2, U2.transpose,
    { nilState maps with u := ⟨2 + 1, k, V2.transpose⟩, s := .vec k s2, vt := ⟨k, 2, U2.transpose⟩ },
    ⟨rfl, rfl, rfl⟩, ?_, ⟨rfl, rfl, rfl⟩, by simp [nilS], ?_, by simp [nilS], ?_⟩
  · unfold psiUpdater
    dsimp only [nilState, eyeEnv]
    simp only [Mat.T_mk, Matrix.transpose_one]
    rw [he]
    rfl
  · rw [hp', Matrix.transpose_apply, show (0 : Fin (2 + 1)) = Fin.castAdd 1 (0 : Fin 2) from rfl, hblock_left]
    simp [nilS]
  · rw [hp', Matrix.transpose_apply, show (1 : Fin (2 + 1)) = Fin.castAdd 1 (1 : Fin 2) from rfl, hblock_left]
    simp [nilS]

/-- The same core and an empty new *item* leave the predictions unchanged. -/
example (argsort : ArgSort ℝ) (maps : Mappings) :
    ∃ (k : ℕ) (U' : Matrix (Fin 2) (Fin k) ℝ) (S' : Matrix (Fin k) (Fin k) ℝ)
      (V' : Matrix (Fin k) (Fin (2 + 1)) ℝ) (st' : PSIState ℝ),
      psiUpdater (eyeEnv argsort) ⟨2, 0, 1, none, false⟩ (nilState maps) ⟨2, 1, 0⟩ .newItems = .ok st' ∧
      Stores st' U' S' V' ∧ (U' * S' * V') 0 1 = 1 := by
  obtain ⟨k, U', S', V', st', h1, h2, h3, -⟩ := C83_items (eyeEnv argsort) qrAlways_real (fun A => realLA_svd A)
    ⟨2, 0, 1, none, false⟩ rfl (nilState maps) (1 : Matrix (Fin 2) (Fin 2) ℝ) nilS (1 : Matrix (Fin 2) (Fin 2) ℝ)
    ⟨rfl, rfl, rfl⟩ (0 : Matrix (Fin 2) (Fin 1) ℝ) (by omega) (by omega) (by simp) (by simpa using nil_rank)
    (eyeRng_captures 2 1 _)
  refine ⟨k, U', S', V', st', h1, h2, ?_⟩
  rw [show (1 : Fin (2 + 1)) = Fin.castAdd 1 (1 : Fin 2) from rfl, h3]
  simp [nilS]

end DynCF
