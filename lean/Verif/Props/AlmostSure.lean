/-
C159: with normal draws the sketches of `random_svd` capture the range almost surely.
-/
import Verif.Lemmas.GaussianDraws
import Verif.Props.RandomSvdBest
import Verif.Props.Hosvd
import Mathlib.Probability.HasLaw
import Mathlib.Probability.ProductMeasure
import Mathlib.Probability.Independence.InfinitePi

namespace DynCF
open MeasureTheory Matrix ProbabilityTheory

variable {Ω : Type} [MeasurableSpace Ω]

/-- Every matrix handed out by the generator has independent standard normal entries (`RandomState.randn`). Nothing is
said about different matrices: they may depend on each other, as they do for calls with the same seed. -/
def NormalDraws (P : Measure Ω) (rng : Ω → Rng ℝ) : Prop :=
  ∀ m n, HasLaw (fun w (q : Fin m × Fin n) => rng w m n q.1 q.2) (randn m n) P

/-! ### Lemmas -/

theorem NormalDraws.ae {P : Measure Ω} {rng : Ω → Rng ℝ} (h : NormalDraws P rng) {m n : ℕ}
    {Q : Matrix (Fin m) (Fin n) ℝ → Prop} (hq : ∀ᵐ w ∂randn m n, Q (entries w)) : ∀ᵐ w ∂P, Q (rng w m n) := by
  have h1 := h m n
  rw [← h1.map_eq] at hq
  exact ae_of_ae_map h1.aemeasurable hq

/-! ### Theorems -/

/-- **C159, capture.** If the matrix has rank at most `rank + os`, the sketch of `random_svd` captures its range almost
surely, for every number of power iterations. -/
theorem C159_captures (P : Measure Ω) (rng : Ω → Rng ℝ) (h : NormalDraws P rng) {m n : ℕ}
    (x : Matrix (Fin m) (Fin n) ℝ) (rank nPower os : ℕ) (hx : x.rank ≤ rank + os) :
    ∀ᵐ w ∂P, Captures (rng w) x rank nPower os := by
  obtain ⟨C, hC⟩ := C154_captures eyeRng x n nPower 0 1 (by
    ext i j
    simp [eyeRng, Matrix.one_apply, Fin.ext_iff])
  have he : eyeRng n (n + 0) = 1 := by
    ext i j
    simp [eyeRng, Matrix.one_apply, Fin.ext_iff]
  rw [sketch_gram, he, Matrix.mul_one] at hC
  have hr : (x * (x.transpose * x) ^ nPower).rank ≤ rank + os := (Matrix.rank_mul_le_left _ _).trans hx
  filter_upwards [h.ae (Q := fun R => ∃ B, x * (x.transpose * x) ^ nPower * R * B = x * (x.transpose * x) ^ nPower)
    (randn_range _ hr)] with w ⟨B, hB⟩
  refine ⟨B * C, ?_⟩
  rw [sketch_gram, ← Matrix.mul_assoc x, ← Matrix.mul_assoc _ B, hB, hC]

/-- **C159, no capture.** A matrix of larger rank is captured by no draw. -/
theorem C159_never (rng : Rng ℝ) {m n : ℕ} (x : Matrix (Fin m) (Fin n) ℝ) (rank nPower os : ℕ)
    (hx : rank + os < x.rank) : ¬ Captures rng x rank nPower os := by
  rintro ⟨B, hB⟩
  have h1 := (Matrix.rank_mul_le_left (sketch rng x rank nPower os) B).trans (Matrix.rank_le_width _)
  rw [hB] at h1
  omega

/-- **C159, exact result.** `random_svd` reproduces a matrix of rank at most `rank` almost surely. -/
theorem C159_exact (P : Measure Ω) (rng : Ω → Rng ℝ) (h : NormalDraws P rng) (la : LinAlg ℝ) (hla : LaOk la) {m n : ℕ}
    (x : Matrix (Fin m) (Fin n) ℝ) (rank nPower os : ℕ) (hx : x.rank ≤ rank) :
    ∀ᵐ w ∂P, ∃ (k : ℕ) (U : Matrix (Fin m) (Fin k) ℝ) (s : Fin k → ℝ) (V : Matrix (Fin k) (Fin n) ℝ),
      randomSvd la (rng w) ⟨m, n, x⟩ rank nPower os = (⟨m, k, U⟩, ⟨k, s⟩, ⟨k, n, V⟩) ∧
      U * diagonal s * V = x := by
  filter_upwards [C159_captures P rng h x rank nPower os (by omega)] with w ⟨B, hB⟩
  exact C47_recovery la (rng w) x rank nPower os ⟨hla.qr _, hla.svd _⟩ B hB hx

/-- **C159, best approximation.** If the rank of the matrix is at most `rank + os`, `random_svd` returns almost surely a
best approximation of rank at most `rank`. -/
theorem C159_best (P : Measure Ω) (rng : Ω → Rng ℝ) (h : NormalDraws P rng) (la : LinAlg ℝ) (hla : LaOk la) {m n : ℕ}
    (x : Matrix (Fin m) (Fin n) ℝ) (rank nPower os : ℕ) (hx : x.rank ≤ rank + os) :
    ∀ᵐ w ∂P, ∃ (k : ℕ) (U : Matrix (Fin m) (Fin k) ℝ) (s : Fin k → ℝ) (V : Matrix (Fin k) (Fin n) ℝ),
      randomSvd la (rng w) ⟨m, n, x⟩ rank nPower os = (⟨m, k, U⟩, ⟨k, s⟩, ⟨k, n, V⟩) ∧
      ∀ X : Matrix (Fin m) (Fin n) ℝ, X.rank ≤ rank → sqSum (x - U * diagonal s * V) ≤ sqSum (x - X) := by
  filter_upwards [C159_captures P rng h x rank nPower os hx] with w hw
  exact C154_best la (rng w) x rank nPower os ⟨hla.qr _, hla.svd _⟩ hw

/-- **C159, new items.** Appending new items to a PSIRec model with orthonormal factors gives almost surely a best
approximation of the old predictions with the new columns, if the columns to be represented have rank at most
`r + os`, in particular if at most `os` items are new. -/
theorem C159_items (P : Measure Ω) (rng : Ω → Rng ℝ) (h : NormalDraws P rng) (env : PSIEnv ℝ) (hla : LaOk env.la)
    (cfg : PSICfg) (hc : cfg.init = none) (st : PSIState ℝ) {m n r nc : ℕ} (U : Matrix (Fin m) (Fin r) ℝ)
    (S : Matrix (Fin r) (Fin r) ℝ) (V : Matrix (Fin r) (Fin n) ℝ) (hst : Stores st U S V)
    (N : Matrix (Fin m) (Fin nc) ℝ) (hnc : nc ≤ m) (hpos : 0 < nc) (hU : U.transpose * U = 1)
    (hV : V * V.transpose = 1) (hr : nc ≤ cfg.os ∨ (hblock (U * S) N).rank ≤ r + cfg.os) :
    ∀ᵐ w ∂P, ∃ (k : ℕ) (U' : Matrix (Fin m) (Fin k) ℝ) (S' : Matrix (Fin k) (Fin k) ℝ)
      (V' : Matrix (Fin k) (Fin (n + nc)) ℝ) (st' : PSIState ℝ),
      psiUpdater { env with rng := rng w } cfg st ⟨m, nc, N⟩ .newItems = .ok st' ∧ Stores st' U' S' V' ∧
      ∀ X : Matrix (Fin m) (Fin (n + nc)) ℝ, X.rank ≤ r →
        sqSum (hblock (U * S * V) N - U' * S' * V') ≤ sqSum (hblock (U * S * V) N - X) := by
  have hr' : (hblock (U * S) N).rank ≤ r + cfg.os := by
    rcases hr with hr | hr
    · exact (Matrix.rank_le_width _).trans (by omega)
    · exact hr
  filter_upwards [C159_captures P rng h _ r cfg.nPower cfg.os hr'] with w hw
  exact C154_items { env with rng := rng w } hla.qr hla.svd cfg hc st U S V hst N hnc hpos hU hV hw

/-- **C159, new users.** The same for new users, with the transposed core the code uses (see C154). -/
theorem C159_users (P : Measure Ω) (rng : Ω → Rng ℝ) (h : NormalDraws P rng) (env : PSIEnv ℝ) (hla : LaOk env.la)
    (cfg : PSICfg) (hc : cfg.init = none) (st : PSIState ℝ) {m n r nc : ℕ} (U : Matrix (Fin m) (Fin r) ℝ)
    (S : Matrix (Fin r) (Fin r) ℝ) (V : Matrix (Fin r) (Fin n) ℝ) (hst : Stores st U S V)
    (N : Matrix (Fin n) (Fin nc) ℝ) (hnc : nc ≤ n) (hpos : 0 < nc) (hU : U.transpose * U = 1)
    (hV : V * V.transpose = 1) (hr : nc ≤ cfg.os ∨ (hblock (V.transpose * S) N).rank ≤ r + cfg.os) :
    ∀ᵐ w ∂P, ∃ (k : ℕ) (U' : Matrix (Fin (m + nc)) (Fin k) ℝ) (S' : Matrix (Fin k) (Fin k) ℝ)
      (V' : Matrix (Fin k) (Fin n) ℝ) (st' : PSIState ℝ),
      psiUpdater { env with rng := rng w } cfg st ⟨n, nc, N⟩ .newUsers = .ok st' ∧ Stores st' U' S' V' ∧
      ∀ X : Matrix (Fin (m + nc)) (Fin n) ℝ, X.rank ≤ r →
        sqSum ((hblock (U * S.transpose * V).transpose N).transpose - U' * S' * V') ≤
          sqSum ((hblock (U * S.transpose * V).transpose N).transpose - X) := by
  have hr' : (hblock (V.transpose * S) N).rank ≤ r + cfg.os := by
    rcases hr with hr | hr
    · exact (Matrix.rank_le_width _).trans (by omega)
    · exact hr
  filter_upwards [C159_captures P rng h _ r cfg.nPower cfg.os hr'] with w hw
  exact C154_users { env with rng := rng w } hla.qr hla.svd cfg hc st U S V hst N hnc hpos hU hV hw

/-- **C159, HOSVD.** `hosvd_dense` reproduces a tensor of multilinear rank at most the requested rank almost surely;
the draws for the three modes may depend on each other. -/
theorem C159_hosvd (P : Measure Ω) (rng : Ω → ℕ → Rng ℝ) (h : ∀ mode, NormalDraws P fun w => rng w mode)
    (la : LinAlg ℝ) (hla : LaOk la) {n0 n1 n2 r0 r1 r2 : ℕ} (x : T3 n0 n1 n2 ℝ)
    (hv : r0 ≤ r1 * r2 ∧ r1 ≤ r0 * r2 ∧ r2 ≤ r0 * r1) (h0 : r0 ≤ n0) (h1 : r1 ≤ n1) (h2 : r2 ≤ n2) (nPower os : ℕ)
    (hx : MultiRankLe x r0 r1 r2) :
    ∀ᵐ w ∂P, ∃ (F0 : Matrix (Fin n0) (Fin r0) ℝ) (F1 : Matrix (Fin n1) (Fin r1) ℝ) (F2 : Matrix (Fin n2) (Fin r2) ℝ)
      (c : T3 r0 r1 r2 ℝ),
      hosvdDense la (rng w) ⟨_, _, _, x⟩ (r0, r1, r2) nPower os =
        .ok (⟨⟨_, _, F0⟩, ⟨_, _, F1⟩, ⟨_, _, F2⟩⟩, ⟨_, _, _, c⟩) ∧
      F0.transpose * F0 = 1 ∧ F1.transpose * F1 = 1 ∧ F2.transpose * F2 = 1 ∧ tuckerTensor F0 F1 F2 c = x := by
  filter_upwards [C159_captures P _ (h 0) (unf x).transpose r0 nPower os
      (by rw [Matrix.rank_transpose]; exact hx.k0.trans (by omega)),
    C159_captures P _ (h 1) (unf (front1 x)).transpose r1 nPower os
      (by rw [Matrix.rank_transpose]; exact hx.k1.trans (by omega)),
    C159_captures P _ (h 2) (unf (front2 x)).transpose r2 nPower os
      (by rw [Matrix.rank_transpose]; exact hx.k2.trans (by omega))] with w c0 c1 c2
  obtain ⟨F0, F1, F2, e, hp⟩ := C88_hosvd_dense la (rng w) x hv h0 h1 h2 nPower os
  obtain ⟨o0, o1, o2, hex⟩ := hp hla
  exact ⟨F0, F1, F2, _, e, o0, o1, o2, hex hx ⟨c0, c1, c2⟩⟩

/-- **C159, GA-SATF.** If every rank plus the oversampling is at least the product of the two other ranks, then almost
surely, for all data, attention matrices and starts at once, the norms of the cores of a completed call of `ga_satf` never
decrease from sweep to sweep. -/
theorem C159_ga_satf {τ : Type} (P : Measure Ω) (rng : Ω → ℕ → ℕ → Rng ℝ)
    (h : ∀ i mode, NormalDraws P fun w => rng w i mode) (p : HooiPar ℝ) (hla : LaOk p.la)
    (h0 : p.rank.2.1 * p.rank.2.2 ≤ p.rank.1 + p.os) (h1 : p.rank.1 * p.rank.2.2 ≤ p.rank.2.1 + p.os)
    (h2 : p.rank.1 * p.rank.2.1 ≤ p.rank.2.2 + p.os) :
    ∀ᵐ w ∂P, ∀ (n0 n1 n2 : ℕ) (es : List (Ent n0 n1 n2 ℝ)) (A : Matrix (Fin n2) (Fin n2) ℝ) (nIter : ℕ) (tol : ℝ)
      (cb : Option (ExitCallback ℝ τ)) (cb0 : τ) (init : Option (Fac ℝ)) (force : Bool) (f : Fac ℝ)
      (g : Option (Ten ℝ)) (cbEnd : τ),
      gaSatf { p with rsvdRng := rng w } tenFrob (indsOf es) (valsOf es) (n0, n1, n2) ⟨n2, n2, A⟩ nIter tol cb cb0 init
        force = .ok ((f, g), cbEnd) →
      ∃ (k : ℕ) (F : ℕ → Fac ℝ) (G : ℕ → Ten ℝ), k ≤ nIter ∧
        SweepRun (gaSatfSweep { p with rsvdRng := rng w } (indsOf es) (valsOf es) (n0, n1, n2) ⟨n2, n2, A⟩) k F G ∧
        f = F k ∧ (g = if k = 0 then none else some (G k)) ∧
        ∀ i j, 1 ≤ i → i ≤ j → j ≤ k → tenFrob (G i) ≤ tenFrob (G j) := by
  have full : ∀ i mode a b, a ≤ b → ∀ᵐ w ∂P, FullRows (rng w i mode a b) := by
    intro i mode a b hab
    refine (h i mode).ae (Q := FullRows) ?_
    filter_upwards [randn_fullRows (1 : Matrix (Fin a) (Fin a) ℝ) ⟨1, Matrix.one_mul _⟩ hab] with w hw
    rwa [Matrix.one_mul] at hw
  have all : ∀ᵐ w ∂P, ∀ i, FullRows (rng w i 0 (p.rank.2.1 * p.rank.2.2) (p.rank.1 + p.os)) ∧
      FullRows (rng w i 1 (p.rank.1 * p.rank.2.2) (p.rank.2.1 + p.os)) ∧
      FullRows (rng w i 2 (p.rank.1 * p.rank.2.1) (p.rank.2.2 + p.os)) := by
    rw [ae_all_iff]
    intro i
    filter_upwards [full i 0 _ _ h0, full i 1 _ _ h1, full i 2 _ _ h2] with w a b c
    exact ⟨a, b, c⟩
  filter_upwards [all] with w hw
  intro n0 n1 n2 es A nIter tol cb cb0 init force f g cbEnd hrun
  obtain ⟨k, F, G, hk, hs, e1, e2, -, e3, -⟩ := C112_ga_satf { p with rsvdRng := rng w } (fun _ _ A => hla.qr A)
    (fun _ _ A => hla.svd A) hw es A nIter tol cb cb0 init force f g cbEnd hrun
  exact ⟨k, F, G, hk, hs, e1, e2, e3⟩

/-! ### Such generators exist -/

/-- infinitely many independent standard normal numbers -/
noncomputable def normalSource : Measure (ℕ × ℕ → ℝ) := Measure.infinitePi fun _ => gaussianReal 0 1

/-- a generator that reads every matrix from the same source -/
def sourceRng (w : ℕ × ℕ → ℝ) : Rng ℝ := fun _ _ => Matrix.of fun i j => w (i, j)

theorem source_normal : NormalDraws normalSource sourceRng := by
  intro m n
  have hm : ∀ q : Fin m × Fin n, Measurable fun w : ℕ × ℕ → ℝ => w (q.1, q.2) := fun q => by fun_prop
  have hi : iIndepFun (fun (q : Fin m × Fin n) (w : ℕ × ℕ → ℝ) => w (q.1, q.2)) normalSource :=
    (iIndepFun_infinitePi (P := fun _ : ℕ × ℕ => gaussianReal 0 1) (X := fun _ x => x) fun _ => measurable_id).precomp
      (g := fun q : Fin m × Fin n => ((q.1 : ℕ), (q.2 : ℕ)))
      fun a b hab => Prod.ext (Fin.ext (Prod.mk.inj hab).1) (Fin.ext (Prod.mk.inj hab).2)
  refine ⟨(measurable_pi_lambda _ hm).aemeasurable, ?_⟩
  have e := hi.map_fun_eq_pi_map fun q => (hm q).aemeasurable
  refine e.trans (congrArg Measure.pi (funext fun q => ?_))
  exact (measurePreserving_eval_infinitePi (fun _ : ℕ × ℕ => gaussianReal 0 1) _).map_eq

/-- the matrix of rank one with rows (1, 2, 3), (2, 4, 6), (3, 6, 9) -/
def rankOne : Matrix (Fin 3) (Fin 3) ℝ := Matrix.vecMulVec ![1, 2, 3] ![1, 2, 3]

-- rank 1, one power iteration, no oversampling: reproduced almost surely
example : ∀ᵐ w ∂normalSource, ∃ (k : ℕ) (U : Matrix (Fin 3) (Fin k) ℝ) (s : Fin k → ℝ) (V : Matrix (Fin k) (Fin 3) ℝ),
    randomSvd realLA (sourceRng w) ⟨3, 3, rankOne⟩ 1 1 0 = (⟨3, k, U⟩, ⟨k, s⟩, ⟨k, 3, V⟩) ∧
      U * diagonal s * V = rankOne :=
  C159_exact _ _ source_normal realLA laOk_real rankOne 1 1 0 (Matrix.rank_vecMulVec_le _ _)

-- the identity has rank 3: two columns capture it never, three almost surely
example : (∀ w, ¬ Captures (sourceRng w) (1 : Matrix (Fin 3) (Fin 3) ℝ) 1 0 1) ∧
    ∀ᵐ w ∂normalSource, Captures (sourceRng w) (1 : Matrix (Fin 3) (Fin 3) ℝ) 1 0 2 :=
  ⟨fun w => C159_never _ _ 1 0 1 (by rw [Matrix.rank_one]; decide),
    C159_captures _ _ source_normal _ 1 0 2 (Matrix.rank_le_height _)⟩

-- a Tucker tensor of shape (4, 3, 5) with a core of shape (2, 2, 2), the same source for all modes
example (U : Matrix (Fin 4) (Fin 2) ℝ) (V : Matrix (Fin 3) (Fin 2) ℝ) (W : Matrix (Fin 5) (Fin 2) ℝ) (c : T3 2 2 2 ℝ) :
    ∀ᵐ w ∂normalSource, ∃ (F0 : Matrix (Fin 4) (Fin 2) ℝ) (F1 : Matrix (Fin 3) (Fin 2) ℝ)
      (F2 : Matrix (Fin 5) (Fin 2) ℝ) (c' : T3 2 2 2 ℝ),
      hosvdDense realLA (fun _ => sourceRng w) ⟨_, _, _, tuckerTensor U V W c⟩ (2, 2, 2) 1 2 =
        .ok (⟨⟨_, _, F0⟩, ⟨_, _, F1⟩, ⟨_, _, F2⟩⟩, ⟨_, _, _, c'⟩) ∧
      tuckerTensor F0 F1 F2 c' = tuckerTensor U V W c := by
  filter_upwards [C159_hosvd normalSource (fun w _ => sourceRng w) (fun _ => source_normal) realLA laOk_real
    (tuckerTensor U V W c) (r0 := 2) (r1 := 2) (r2 := 2) (by decide) (by decide) (by decide) (by decide) 1 2
    (multiRank_tucker U V W c)] with w ⟨F0, F1, F2, c', e, _, _, _, h⟩
  exact ⟨F0, F1, F2, c', e, h⟩

-- appending one item to a model of rank one with the predictions (2, 0), (0, 0), oversampling 1
example (env : PSIEnv ℝ) (hla : LaOk env.la) (cfg : PSICfg) (hc : cfg.init = none) (hos : cfg.os = 1) (st : PSIState ℝ)
    (hst : Stores st !![(1 : ℝ); 0] !![2] !![1, 0]) :
    ∀ᵐ w ∂normalSource, ∃ (k : ℕ) (U' : Matrix (Fin 2) (Fin k) ℝ) (S' : Matrix (Fin k) (Fin k) ℝ)
      (V' : Matrix (Fin k) (Fin (2 + 1)) ℝ) (st' : PSIState ℝ),
      psiUpdater { env with rng := sourceRng w } cfg st ⟨2, 1, !![3; 4]⟩ .newItems = .ok st' ∧ Stores st' U' S' V' ∧
      ∀ X : Matrix (Fin 2) (Fin (2 + 1)) ℝ, X.rank ≤ 1 →
        sqSum (hblock (!![(1 : ℝ); 0] * !![(2 : ℝ)] * !![(1 : ℝ), 0]) !![3; 4] - U' * S' * V') ≤
          sqSum (hblock (!![(1 : ℝ); 0] * !![(2 : ℝ)] * !![(1 : ℝ), 0]) !![3; 4] - X) :=
  C159_items normalSource sourceRng source_normal env hla cfg hc st _ _ _ hst _ (by decide) (by decide)
    (by ext i j; fin_cases i; fin_cases j; simp [Matrix.mul_apply])
    (by ext i j; fin_cases i; fin_cases j; simp [Matrix.mul_apply]) (Or.inl (by rw [hos]))

end DynCF
