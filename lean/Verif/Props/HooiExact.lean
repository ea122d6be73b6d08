/-
C163: from a random start GA-SATF and RP-HOOI reproduce tensors of small multilinear rank exactly, almost surely.
-/
import Verif.Lemmas.HooiExact
import Verif.Props.AlmostSure

set_option linter.unusedSectionVars false

namespace DynCF
open MeasureTheory Matrix ProbabilityTheory

/-- Every matrix handed out by the generator has independent entries, uniform on `[0, 1)` (`RandomState.rand`). Nothing
is said about different matrices. -/
def UniformDraws {Ω : Type} [MeasurableSpace Ω] (P : Measure Ω) (rng : Ω → Rng ℝ) : Prop :=
  ∀ m n, HasLaw (fun w (q : Fin m × Fin n) => rng w m n q.1 q.2)
    (Measure.pi fun _ => (volume : Measure ℝ).restrict (Set.Ico 0 1)) P

/-- `Q` holds for almost every first draw, then (that draw being fixed) for almost every second draw, and so on for `n`
draws: what happens almost surely when the draws are made one after the other, independently. -/
def Successively {Ω : Type} [MeasurableSpace Ω] (P : Measure Ω) : ℕ → (List Ω → Prop) → Prop
  | 0, Q => Q []
  | n + 1, Q => ∀ᵐ w ∂P, Successively P n fun l => Q (w :: l)

/-- The factors and the core reproduce the tensor `x`. -/
def Reproduces {n0 n1 n2 : ℕ} (x : T3 n0 n1 n2 ℝ) (f : Fac ℝ) (g : Ten ℝ) : Prop :=
  ∃ (r0 r1 r2 : ℕ) (U : Matrix (Fin n0) (Fin r0) ℝ) (V : Matrix (Fin n1) (Fin r1) ℝ) (W : Matrix (Fin n2) (Fin r2) ℝ)
    (c : T3 r0 r1 r2 ℝ), f = ⟨⟨_, _, U⟩, ⟨_, _, V⟩, ⟨_, _, W⟩⟩ ∧ g = ⟨_, _, _, c⟩ ∧ tuckerTensor U V W c = x

/-! ### Draws made one after the other -/

section
variable {Ω : Type} [MeasurableSpace Ω] {P : Measure Ω}

theorem Successively.mono {n : ℕ} {Q R : List Ω → Prop} (h : Successively P n Q)
    (hQR : ∀ l, l.length = n → Q l → R l) : Successively P n R := by
  induction n generalizing Q R with
  | zero => exact hQR [] rfl h
  | succ n ih =>
    filter_upwards [h] with w hw
    exact ih hw fun l hl => hQR (w :: l) (by simp [hl])

theorem Successively.append {m n : ℕ} {Q : List Ω → Prop}
    (h : Successively P m fun l => Successively P n fun l' => Q (l ++ l')) : Successively P (m + n) Q := by
  induction m generalizing Q with
  | zero =>
    rw [Nat.zero_add]
    exact h
  | succ m ih =>
    rw [show m + 1 + n = (m + n) + 1 by omega]
    filter_upwards [h] with w hw
    exact ih hw

/-- If the event is measurable, this is the same as an almost sure event for independent draws. -/
theorem Successively.pi [SigmaFinite P] {n : ℕ} {Q : List Ω → Prop}
    (hm : MeasurableSet {w : Fin n → Ω | Q (List.ofFn w)}) (h : Successively P n Q) :
    ∀ᵐ w ∂Measure.pi (fun _ : Fin n => P), Q (List.ofFn w) := by
  induction n generalizing Q with
  | zero =>
    refine Filter.Eventually.of_forall fun w => ?_
    rw [List.ofFn_zero]
    exact h
  | succ n ih =>
    have he := measurePreserving_piFinSuccAbove (fun _ : Fin (n + 1) => P) 0
    have hq : MeasurableSet {z : Ω × (Fin n → Ω) | Q (z.1 :: List.ofFn z.2)} := by
      have := (MeasurableEquiv.piFinSuccAbove (fun _ : Fin (n + 1) => Ω) 0).symm.measurable hm
      refine (congrArg MeasurableSet (Set.ext fun z => ?_)).mp this
      show Q (List.ofFn _) ↔ _
      rw [List.ofFn_succ]
      rfl
    have key : ∀ᵐ z ∂P.prod (Measure.pi fun _ : Fin n => P), Q (z.1 :: List.ofFn z.2) := by
      rw [Measure.ae_prod_iff_ae_ae hq]
      filter_upwards [h] with w hw
      exact ih (Q := fun l => Q (w :: l)) (measurable_prodMk_left hq) hw
    filter_upwards [he.quasiMeasurePreserving.ae key] with w hw
    rw [List.ofFn_succ]
    exact hw
end

/-! ### One sweep -/

section
variable {n0 n1 n2 : ℕ} (p : HooiPar ℝ) (hla : LaOk p.la) (es : List (Ent n0 n1 n2 ℝ)) (A : Matrix (Fin n2) (Fin n2) ℝ)
  (i : ℕ)

/-- the factors keep everything in modes 1 and 2 of the attended data -/
def Ready (f : Fac ℝ) : Prop :=
  ∃ (q : ℕ) (U : Matrix (Fin n0) (Fin q) ℝ) (V : Matrix (Fin n1) (Fin p.rank.2.1) ℝ)
    (W : Matrix (Fin n2) (Fin p.rank.2.2) ℝ), f = ⟨⟨_, _, U⟩, ⟨_, _, V⟩, ⟨_, _, W⟩⟩ ∧
    Keeps1 (attended A (cooTensor es)) V ∧ Keeps2 (attended A (cooTensor es)) W

/-- the three sketches of a sweep capture the matrices of the sweep -/
def Caught (R0 R1 R2 : Rng ℝ) (V : Matrix (Fin n1) (Fin p.rank.2.1) ℝ) (W : Matrix (Fin n2) (Fin p.rank.2.2) ℝ) : Prop :=
  Captures R0 (flat (mul1 V.transpose (mul2 W.transpose (attended A (cooTensor es))))) p.rank.1 p.nPower p.os ∧
  (∀ U' : Matrix (Fin n0) (Fin p.rank.1) ℝ,
    (randomSvd p.la R0 ⟨_, _, flat (mul1 V.transpose (mul2 W.transpose (attended A (cooTensor es))))⟩ p.rank.1 p.nPower
      p.os).1.revCols = ⟨_, _, U'⟩ →
    Captures R1 (flat (mul1 U'.transpose (mul2 W.transpose (front1 (attended A (cooTensor es)))))) p.rank.2.1 p.nPower
      p.os ∧
    ∀ V' : Matrix (Fin n1) (Fin p.rank.2.1) ℝ,
      (randomSvd p.la R1 ⟨_, _, flat (mul1 U'.transpose (mul2 W.transpose (front1 (attended A (cooTensor es)))))⟩
        p.rank.2.1 p.nPower p.os).1.revCols = ⟨_, _, V'⟩ →
      Captures R2 (flat (mul1 U'.transpose (mul2 V'.transpose (front2 (attended A (cooTensor es)))))) p.rank.2.2 p.nPower
        p.os)

include hla in
/-- one sweep from factors that keep everything -/
theorem sweep_exact (hr : MultiRankLe (attended A (cooTensor es)) p.rank.1 p.rank.2.1 p.rank.2.2)
    (hv : p.rank.1 ≤ p.rank.2.1 * p.rank.2.2 ∧ p.rank.2.1 ≤ p.rank.1 * p.rank.2.2 ∧
      p.rank.2.2 ≤ p.rank.1 * p.rank.2.1)
    (hd : p.rank.1 ≤ n0 ∧ p.rank.2.1 ≤ n1 ∧ p.rank.2.2 ≤ n2) {q : ℕ} (U : Matrix (Fin n0) (Fin q) ℝ)
    (V : Matrix (Fin n1) (Fin p.rank.2.1) ℝ) (W : Matrix (Fin n2) (Fin p.rank.2.2) ℝ)
    (hV : Keeps1 (attended A (cooTensor es)) V) (hW : Keeps2 (attended A (cooTensor es)) W)
    (hc : Caught p es A (p.rsvdRng i 0) (p.rsvdRng i 1) (p.rsvdRng i 2) V W) :
    ∃ (f : Fac ℝ) (g : Ten ℝ), gaSatfSweep p (indsOf es) (valsOf es) (n0, n1, n2) ⟨n2, n2, A⟩ i
        ⟨⟨_, _, U⟩, ⟨_, _, V⟩, ⟨_, _, W⟩⟩ = .ok (f, g) ∧
      Ready p es A f ∧ Reproduces (attended A (cooTensor es)) f g := by
  obtain ⟨c0, hc⟩ := hc
  set x := attended A (cooTensor es) with hx
  obtain ⟨k0, U', e0, u0⟩ := step_keeps p hla i 0 p.rank.1 x V W hV hW hr.k0 c0
  have s0 := (leadingCols_shape p i 0 p.rank.1 ⟨_, _, flat (mul1 V.transpose (mul2 W.transpose x))⟩).2
  rw [e0] at s0
  obtain rfl : k0 = p.rank.1 := by
    dsimp only at s0
    omega
  obtain ⟨c1, hc⟩ := hc U' e0
  have hU' : Keeps1 (front1 x) U' := ⟨U', front1_inj (by rw [front1_mul1]; exact u0)⟩
  have hW1 : Keeps2 (front1 x) W := by
    obtain ⟨B, hB⟩ := hW
    exact ⟨B, by rw [← front1_mul2, hB]⟩
  obtain ⟨k1, V', e1, u1⟩ := step_keeps p hla i 1 p.rank.2.1 (front1 x) U' W hU' hW1 hr.k1 c1
  have s1 := (leadingCols_shape p i 1 p.rank.2.1 ⟨_, _, flat (mul1 U'.transpose (mul2 W.transpose (front1 x)))⟩).2
  rw [e1] at s1
  obtain rfl : k1 = p.rank.2.1 := by
    dsimp only at s1
    omega
  have c2 := hc V' e1
  have u1' : mul1 (V' * V'.transpose) x = x := front1_inj (by rw [front1_mul1]; exact u1)
  have hU2 : Keeps1 (front2 x) U' := ⟨U', by rw [← front2_mul0, u0]⟩
  have hV2 : Keeps2 (front2 x) V' := ⟨V', by rw [← front2_mul1, u1']⟩
  obtain ⟨k2, W', e2, u2⟩ := step_keeps p hla i 2 p.rank.2.2 (front2 x) U' V' hU2 hV2 hr.k2 c2
  have s2 := (leadingCols_shape p i 2 p.rank.2.2 ⟨_, _, flat (mul1 U'.transpose (mul2 V'.transpose (front2 x)))⟩).2
  rw [e2] at s2
  obtain rfl : k2 = p.rank.2.2 := by
    dsimp only at s2
    omega
  have u2' : mul2 (W' * W'.transpose) x = x := front2_inj (by rw [front2_mul2]; exact u2)
  refine ⟨⟨⟨_, _, U'⟩, ⟨_, _, V'⟩, ⟨_, _, W'⟩⟩, ⟨_, _, _, coreTensor (cooTensor es) U' V' (A * W')⟩, ?_, ?_, ?_⟩
  · unfold gaSatfSweep
    dsimp only
    rw [Mat.dot_mk, except_bind_ok]
    have m0 : modeStep p (some ⟨n2, n2, A⟩) (indsOf es) (valsOf es) (n0, n1, n2) i 0
        ⟨⟨_, _, U⟩, ⟨_, _, V⟩, ⟨_, _, A * W⟩⟩ = .ok ⟨⟨_, _, U'⟩, ⟨_, _, V⟩, ⟨_, _, A * W⟩⟩ := by
      unfold modeStep
      dsimp only
      rw [projected0, except_bind_ok, e0]
      rfl
    have m1 : modeStep p (some ⟨n2, n2, A⟩) (indsOf es) (valsOf es) (n0, n1, n2) i 1
        ⟨⟨_, _, U'⟩, ⟨_, _, V⟩, ⟨_, _, A * W⟩⟩ = .ok ⟨⟨_, _, U'⟩, ⟨_, _, V'⟩, ⟨_, _, A * W⟩⟩ := by
      unfold modeStep
      dsimp only
      rw [projected1, except_bind_ok, e1]
      rfl
    have m2 : modeStep p (some ⟨n2, n2, A⟩) (indsOf es) (valsOf es) (n0, n1, n2) i 2
        ⟨⟨_, _, U'⟩, ⟨_, _, V'⟩, ⟨_, _, A * W⟩⟩ = .ok ⟨⟨_, _, U'⟩, ⟨_, _, V'⟩, ⟨_, _, W'⟩⟩ := by
      unfold modeStep
      dsimp only
      have h2 := projected2 es A U' V'
      obtain ⟨X, hX, h2⟩ := (bind_ok_iff _ _ _).1 h2
      rw [hX, except_bind_ok, h2, except_bind_ok, e2]
      rfl
    rw [m0, except_bind_ok, m1, except_bind_ok, m2, except_bind_ok, Mat.dot_mk, except_bind_ok, coreFunction_typed,
      except_bind_ok]
    rfl
  · exact ⟨_, U', V', W', rfl, ⟨V', u1'⟩, ⟨W', u2'⟩⟩
  · refine ⟨_, _, _, U', V', W', _, rfl, rfl, ?_⟩
    rw [coreTensor_attended, ← hx, tuckerTensor_eq, coreTensor_eq, ← mul02_comm, ← mul12_comm, mul2_mul2, u2',
      ← mul01_comm, mul1_mul1, u1', mul0_mul0, u0]
end

/-! ### Whole calls -/

section
variable {n0 n1 n2 : ℕ}

/-- `n` sweeps from `f`, every one of which reproduces the attended data -/
def ExactRun (p : HooiPar ℝ) (es : List (Ent n0 n1 n2 ℝ)) (A : Matrix (Fin n2) (Fin n2) ℝ) (n : ℕ) (f : Fac ℝ) : Prop :=
  ∃ (F : ℕ → Fac ℝ) (G : ℕ → Ten ℝ), F 0 = f ∧
    (∀ j < n, gaSatfSweep p (indsOf es) (valsOf es) (n0, n1, n2) ⟨n2, n2, A⟩ j (F j) = .ok (F (j + 1), G (j + 1)) ∧
      Reproduces (attended A (cooTensor es)) (F (j + 1)) (G (j + 1))) ∧ Ready p es A (F n)

theorem exactRun_extend {p : HooiPar ℝ} {es : List (Ent n0 n1 n2 ℝ)} {A : Matrix (Fin n2) (Fin n2) ℝ} {n : ℕ} {f : Fac ℝ}
    {F : ℕ → Fac ℝ} {G : ℕ → Ten ℝ} (hF : F 0 = f)
    (hrun : ∀ j < n, gaSatfSweep p (indsOf es) (valsOf es) (n0, n1, n2) ⟨n2, n2, A⟩ j (F j) = .ok (F (j + 1), G (j + 1)) ∧
      Reproduces (attended A (cooTensor es)) (F (j + 1)) (G (j + 1))) {f' : Fac ℝ} {g' : Ten ℝ}
    (h : gaSatfSweep p (indsOf es) (valsOf es) (n0, n1, n2) ⟨n2, n2, A⟩ n (F n) = .ok (f', g')) (h1 : Ready p es A f')
    (h2 : Reproduces (attended A (cooTensor es)) f' g') : ExactRun p es A (n + 1) f := by
  refine ⟨fun j => if j ≤ n then F j else f', fun j => if j ≤ n then G j else g', by simpa using hF, ?_, by simpa using h1⟩
  intro j hj
  by_cases hjn : j = n
  · subst hjn
    simp only [le_refl, if_true, show ¬ (j + 1 ≤ j) by omega, if_false]
    exact ⟨h, h2⟩
  · simp only [show j ≤ n by omega, show j + 1 ≤ n by omega, if_true]
    exact hrun j (by omega)

/-- a call whose possible sweeps are exact -/
theorem exactRun_call {τ : Type} {p : HooiPar ℝ} {es : List (Ent n0 n1 n2 ℝ)} {A : Matrix (Fin n2) (Fin n2) ℝ} {nIter : ℕ}
    (hn : 1 ≤ nIter)
    (hrun : ExactRun p es A nIter (initFactors p.la p.initRng (n0, n1, n2) p.rank true)) (normOf : Ten ℝ → ℝ) (tol : ℝ)
    (cb : Option (ExitCallback ℝ τ)) (cb0 : τ) (force : Bool) (f : Fac ℝ) (g : Option (Ten ℝ)) (t : τ)
    (h : gaSatf p normOf (indsOf es) (valsOf es) (n0, n1, n2) ⟨n2, n2, A⟩ nIter tol cb cb0 none force = .ok ((f, g), t)) :
    ∃ g', g = some g' ∧ Reproduces (attended A (cooTensor es)) f g' := by
  obtain ⟨F, G, hF, hex, -⟩ := hrun
  obtain ⟨k, F', G', hk, h0, hrun', e1, e2, hf, hnc, hcb⟩ := C61_ga_satf_run p normOf _ _ _ _ nIter tol cb cb0 none force f g
    t h
  have h0 : F' 0 = F 0 := by
    rw [hF]
    exact (Except.ok.inj h0).symm
  have hk1 : 1 ≤ k := by
    by_contra hlt
    have hkn : k < nIter := by omega
    cases force with
    | true => have := (hf rfl).1; omega
    | false =>
      cases cb with
      | none => have := ((hnc rfl rfl).2.1 hkn).1; omega
      | some c =>
        obtain ⟨y, b, -, -, -, -, hh⟩ := hcb c rfl rfl
        have := (hh hkn).1
        omega
  have same : ∀ j, j ≤ k → F' j = F j ∧ (1 ≤ j → G' j = G j) := by
    intro j
    induction j with
    | zero => exact fun _ => ⟨h0, fun h => by omega⟩
    | succ j ih =>
      intro hj
      have a := hrun' j (by omega)
      have b := (hex j (by omega)).1
      rw [(ih (by omega)).1, b] at a
      have a := Except.ok.inj a
      exact ⟨(congrArg Prod.fst a).symm, fun _ => (congrArg Prod.snd a).symm⟩
  obtain ⟨sF, sG⟩ := same k le_rfl
  rw [if_neg (by omega)] at e2
  refine ⟨G' k, e2, ?_⟩
  rw [e1, sF, sG hk1]
  have := (hex (k - 1) (by omega)).2
  rwa [Nat.sub_add_cancel hk1] at this

/-- the QR factor of a matrix with at most as many columns as rows -/
theorem initFactor_qr (la : LinAlg ℝ) (hla : LaOk la) (rng : Rng ℝ) {n r : ℕ} (h : r ≤ n) :
    ∃ (Q : Matrix (Fin n) (Fin r) ℝ) (T : Matrix (Fin r) (Fin r) ℝ), initFactor la rng n r true = ⟨n, r, Q⟩ ∧
      Q * T = rng n r := by
  have key : ∀ k, k = min n r → ∀ (Q : Matrix (Fin n) (Fin k) ℝ) (T : Matrix (Fin k) (Fin r) ℝ), Q * T = rng n r →
      initFactor la rng n r true = ⟨n, k, Q⟩ →
      ∃ (Q : Matrix (Fin n) (Fin r) ℝ) (T : Matrix (Fin r) (Fin r) ℝ), initFactor la rng n r true = ⟨n, r, Q⟩ ∧
        Q * T = rng n r := by
    intro k hk Q T h1 h2
    obtain rfl : k = r := by omega
    exact ⟨Q, T, h2, h1⟩
  exact key _ rfl _ _ (hla.qr (rng n r)).1 rfl

/-- random factors keep everything in a mode whose rank is at most their width -/
theorem random_keeps {Ω : Type} [MeasurableSpace Ω] {P : Measure Ω} {rng : Ω → Rng ℝ} (h : UniformDraws P rng) {a b c r : ℕ}
    (y : T3 a b c ℝ) (hr : (unf y).rank ≤ r) :
    ∀ᵐ w ∂P, ∀ (Q : Matrix (Fin a) (Fin r) ℝ) (T : Matrix (Fin r) (Fin r) ℝ), Q * T = rng w a r → Keeps0 y Q := by
  have h1 := h a r
  have h2 := iid_range ((volume : Measure ℝ).restrict (Set.Ico 0 1)) (n := r) (unf y).transpose
    (by rw [Matrix.rank_transpose]; exact hr)
  rw [← h1.map_eq] at h2
  filter_upwards [ae_of_ae_map h1.aemeasurable h2] with w ⟨B, hB⟩ Q T hQT
  refine ⟨(T * B).transpose, unf_inj ?_⟩
  have hB : (unf y).transpose * rng w a r * B = (unf y).transpose := hB
  rw [← hQT] at hB
  rw [unf_mul0, ← Matrix.transpose_mul, ← Matrix.transpose_transpose (unf y), ← Matrix.transpose_mul]
  congr 1
  rw [← Matrix.mul_assoc, ← Matrix.mul_assoc]
  rw [← Matrix.mul_assoc] at hB
  exact hB

/-- the initial factors are ready almost surely -/
theorem init_ready {Ω : Type} [MeasurableSpace Ω] {P : Measure Ω} {ini : Ω → ℕ → Rng ℝ}
    (h1 : UniformDraws P fun w => ini w 1) (h2 : UniformDraws P fun w => ini w 2) (p : HooiPar ℝ) (hla : LaOk p.la)
    (es : List (Ent n0 n1 n2 ℝ)) (A : Matrix (Fin n2) (Fin n2) ℝ)
    (hr : MultiRankLe (attended A (cooTensor es)) p.rank.1 p.rank.2.1 p.rank.2.2)
    (hd : p.rank.1 ≤ n0 ∧ p.rank.2.1 ≤ n1 ∧ p.rank.2.2 ≤ n2) :
    ∀ᵐ w ∂P, Ready p es A (initFactors p.la (ini w) (n0, n1, n2) p.rank true) := by
  filter_upwards [random_keeps h1 _ hr.k1, random_keeps h2 _ hr.k2] with w a b
  obtain ⟨Q0, T0, e0, -⟩ := initFactor_qr p.la hla (ini w 0) hd.1
  obtain ⟨Q1, T1, e1, t1⟩ := initFactor_qr p.la hla (ini w 1) hd.2.1
  obtain ⟨Q2, T2, e2, t2⟩ := initFactor_qr p.la hla (ini w 2) hd.2.2
  refine ⟨_, Q0, Q1, Q2, ?_, ?_, ?_⟩
  · unfold initFactors
    rw [e0, e1, e2]
  · obtain ⟨B, hB⟩ := a Q1 T1 t1
    exact ⟨B, front1_inj hB⟩
  · obtain ⟨B, hB⟩ := b Q2 T2 t2
    exact ⟨B, front2_inj hB⟩

/-- the sketch of one step captures almost surely -/
theorem step_captured {Ω : Type} [MeasurableSpace Ω] {P : Measure Ω} {rng : Ω → Rng ℝ} (h : NormalDraws P rng)
    {a b c q s r : ℕ} (y : T3 a b c ℝ) (hr : (unf y).rank ≤ r) (nPower os : ℕ) (V : Matrix (Fin b) (Fin q) ℝ)
    (W : Matrix (Fin c) (Fin s) ℝ) :
    ∀ᵐ w ∂P, Captures (rng w) (flat (mul1 V.transpose (mul2 W.transpose y))) r nPower os :=
  C159_captures P rng h _ r nPower os (((rank_contracted y V W).trans hr).trans (by omega))

/-- a sweep reads only its own three sketches -/
theorem sweep_draws (p : HooiPar ℝ) (R R' : ℕ → ℕ → Rng ℝ) (inds : List Ind3) (vals : List ℝ) (shape : ℕ × ℕ × ℕ)
    (att : Mat ℝ) (i : ℕ) (f : Fac ℝ) (h0 : R i 0 = R' i 0) (h1 : R i 1 = R' i 1) (h2 : R i 2 = R' i 2) :
    gaSatfSweep { p with rsvdRng := R } inds vals shape att i f =
      gaSatfSweep { p with rsvdRng := R' } inds vals shape att i f := by
  unfold gaSatfSweep modeStep leadingCols
  simp only [h0, h1, h2]

/-- the call, with the requested shapes -/
theorem exactRun_typed {τ : Type} {p : HooiPar ℝ} {es : List (Ent n0 n1 n2 ℝ)} {A : Matrix (Fin n2) (Fin n2) ℝ} {nIter : ℕ}
    (hn : 1 ≤ nIter)
    (hrun : ExactRun p es A nIter (initFactors p.la p.initRng (n0, n1, n2) p.rank true))
    (hv : p.rank.1 ≤ p.rank.2.1 * p.rank.2.2 ∧ p.rank.2.1 ≤ p.rank.1 * p.rank.2.2 ∧
      p.rank.2.2 ≤ p.rank.1 * p.rank.2.1)
    (hd : p.rank.1 ≤ n0 ∧ p.rank.2.1 ≤ n1 ∧ p.rank.2.2 ≤ n2) (normOf : Ten ℝ → ℝ) (tol : ℝ)
    (cb : Option (ExitCallback ℝ τ)) (cb0 : τ) (force : Bool) (hcb : ∀ c, cb = some c → ∀ t f g, ∃ r, c t f g = .ok r) :
    ∃ (U : Matrix (Fin n0) (Fin p.rank.1) ℝ) (V : Matrix (Fin n1) (Fin p.rank.2.1) ℝ)
      (W : Matrix (Fin n2) (Fin p.rank.2.2) ℝ) (c : T3 p.rank.1 p.rank.2.1 p.rank.2.2 ℝ) (t : τ),
      gaSatf p normOf (indsOf es) (valsOf es) (n0, n1, n2) ⟨n2, n2, A⟩ nIter tol cb cb0 none force =
          .ok ((⟨⟨_, _, U⟩, ⟨_, _, V⟩, ⟨_, _, W⟩⟩, some ⟨_, _, _, c⟩), t) ∧
      ∀ i j k, tuckerTensor U V W c i j k = ∑ l, A l k * cooTensor es i j l := by
  obtain ⟨f, g, t, h, ⟨-, s0⟩, ⟨-, s1⟩, -, s2⟩ := C81_success p normOf es A nIter tol cb cb0 force
    (fun c hc t f g _ => hcb c hc t f g) hv hd
  obtain ⟨g', rfl, r0, r1, r2, U, V, W, c, rfl, rfl, he⟩ := exactRun_call hn hrun normOf tol cb cb0 force f g t h
  dsimp only at s0 s1 s2
  subst s0 s1 s2
  exact ⟨U, V, W, c, t, h, fun i j k => congrFun (congrFun (congrFun he i) j) k⟩

end

/-! ### Theorems -/

section
variable {n0 n1 n2 : ℕ}

/-- The sketches read from a list of draws, three per sweep. -/
def listRng {Ω : Type} (rng : Ω → Rng ℝ) (d : Ω) (l : List Ω) : ℕ → ℕ → Rng ℝ :=
  fun i mode => rng (l.getD (3 * i + mode) d)

/-- **C163.** Let the attended data have multilinear rank at most the requested rank, which is valid and not larger than
the shape. For almost all initial draws (uniform entries), and then for almost all sketches (normal entries) drawn one
after the other, `ga_satf` completes and its factors and core reproduce the attended data exactly, whatever the
tolerance, the exit callback (as long as it does not raise) and the flag that forces all sweeps. -/
theorem C163_ga_satf {τ Ω₀ Ω : Type} [MeasurableSpace Ω₀] [MeasurableSpace Ω] (P₀ : Measure Ω₀) (ini : Ω₀ → ℕ → Rng ℝ)
    (hini : ∀ mode, UniformDraws P₀ fun v => ini v mode) (P : Measure Ω) (rng : Ω → Rng ℝ) (hrng : NormalDraws P rng)
    (d : Ω) (p : HooiPar ℝ) (hla : LaOk p.la) (normOf : Ten ℝ → ℝ) (es : List (Ent n0 n1 n2 ℝ))
    (A : Matrix (Fin n2) (Fin n2) ℝ)
    (hr : MultiRankLe (fun i j k => ∑ l, A l k * cooTensor es i j l) p.rank.1 p.rank.2.1 p.rank.2.2)
    (hv : p.rank.1 ≤ p.rank.2.1 * p.rank.2.2 ∧ p.rank.2.1 ≤ p.rank.1 * p.rank.2.2 ∧
      p.rank.2.2 ≤ p.rank.1 * p.rank.2.1)
    (hd : p.rank.1 ≤ n0 ∧ p.rank.2.1 ≤ n1 ∧ p.rank.2.2 ≤ n2) (nIter : ℕ) (hn : 1 ≤ nIter) :
    ∀ᵐ v ∂P₀, Successively P (3 * nIter) fun l =>
      ∀ (tol : ℝ) (cb : Option (ExitCallback ℝ τ)) (cb0 : τ) (force : Bool),
        (∀ c, cb = some c → ∀ t f g, ∃ r, c t f g = .ok r) →
        ∃ (U : Matrix (Fin n0) (Fin p.rank.1) ℝ) (V : Matrix (Fin n1) (Fin p.rank.2.1) ℝ)
          (W : Matrix (Fin n2) (Fin p.rank.2.2) ℝ) (c : T3 p.rank.1 p.rank.2.1 p.rank.2.2 ℝ) (t : τ),
          gaSatf { p with initRng := ini v, rsvdRng := listRng rng d l } normOf (indsOf es) (valsOf es) (n0, n1, n2)
            ⟨n2, n2, A⟩ nIter tol cb cb0 none force =
              .ok ((⟨⟨_, _, U⟩, ⟨_, _, V⟩, ⟨_, _, W⟩⟩, some ⟨_, _, _, c⟩), t) ∧
          ∀ i j k, tuckerTensor U V W c i j k = ∑ l, A l k * cooTensor es i j l := by
  have hr' : MultiRankLe (attended A (cooTensor es)) p.rank.1 p.rank.2.1 p.rank.2.2 := hr
  filter_upwards [init_ready (hini 1) (hini 2) p hla es A hr' hd] with v hready
  have main : ∀ n, Successively P (3 * n) fun l => ExactRun { p with initRng := ini v, rsvdRng := listRng rng d l } es A n
      (initFactors p.la (ini v) (n0, n1, n2) p.rank true) := by
    intro n
    induction n with
    | zero => exact ⟨fun _ => _, fun _ => ⟨0, 0, 0, fun i => i.elim0⟩, rfl, fun j hj => by omega, hready⟩
    | succ n ih =>
      refine Successively.append (m := 3 * n) (n := 3) (ih.mono fun l hl hrun => ?_)
      obtain ⟨F, G, hF, hex, q, U, V, W, hFn, hV, hW⟩ := hrun
      dsimp only at V W
      -- the three sketches of the new sweep
      have step : ∀ w0 w1 w2, Caught p es A (rng w0) (rng w1) (rng w2) V W →
          ExactRun { p with initRng := ini v, rsvdRng := listRng rng d (l ++ [w0, w1, w2]) } es A (n + 1)
            (initFactors p.la (ini v) (n0, n1, n2) p.rank true) := by
        intro w0 w1 w2 hc
        have old : ∀ i mode, i < n → mode < 3 → listRng rng d (l ++ [w0, w1, w2]) i mode = listRng rng d l i mode := by
          intro i mode hi hm
          unfold listRng
          rw [List.getD_eq_getElem?_getD, List.getD_eq_getElem?_getD, List.getElem?_append_left (by omega)]
        have new : ∀ mode, listRng rng d (l ++ [w0, w1, w2]) n mode = rng ([w0, w1, w2].getD mode d) := by
          intro mode
          unfold listRng
          rw [List.getD_eq_getElem?_getD, List.getD_eq_getElem?_getD, List.getElem?_append_right (by omega), hl,
            Nat.add_sub_cancel_left]
        obtain ⟨f', g', e, h1, h2⟩ := sweep_exact { p with initRng := ini v, rsvdRng := listRng rng d (l ++ [w0, w1, w2]) }
          hla es A n hr' hv hd U V W hV hW (by
            dsimp only
            rw [new 0, new 1, new 2]
            exact hc)
        refine exactRun_extend hF (fun j hj => ⟨?_, (hex j hj).2⟩) (by rw [hFn]; exact e) h1 h2
        rw [← (hex j hj).1]
        exact sweep_draws { p with initRng := ini v } _ _ _ _ _ _ j (F j) (old j 0 hj (by omega)) (old j 1 hj (by omega))
          (old j 2 hj (by omega))
      show ∀ᵐ w0 ∂P, ∀ᵐ w1 ∂P, ∀ᵐ w2 ∂P, ExactRun _ es A (n + 1) _
      filter_upwards [step_captured hrng (attended A (cooTensor es)) hr'.k0 p.nPower p.os V W] with w0 c0
      by_cases hU : ∃ U' : Matrix (Fin n0) (Fin p.rank.1) ℝ, (randomSvd p.la (rng w0) ⟨_, _, flat (mul1 V.transpose
          (mul2 W.transpose (attended A (cooTensor es))))⟩ p.rank.1 p.nPower p.os).1.revCols = ⟨_, _, U'⟩
      · obtain ⟨U', eU⟩ := hU
        filter_upwards [step_captured hrng (front1 (attended A (cooTensor es))) hr'.k1 p.nPower p.os U' W] with w1 c1
        by_cases hV' : ∃ V' : Matrix (Fin n1) (Fin p.rank.2.1) ℝ, (randomSvd p.la (rng w1) ⟨_, _, flat (mul1 U'.transpose
            (mul2 W.transpose (front1 (attended A (cooTensor es)))))⟩ p.rank.2.1 p.nPower p.os).1.revCols = ⟨_, _, V'⟩
        · obtain ⟨V', eV⟩ := hV'
          filter_upwards [step_captured hrng (front2 (attended A (cooTensor es))) hr'.k2 p.nPower p.os U' V'] with w2 c2
          refine step w0 w1 w2 ⟨c0, fun U'' h => ?_⟩
          obtain rfl : U'' = U' := by
            rw [eU] at h
            simpa using h.symm
          refine ⟨c1, fun V'' h => ?_⟩
          obtain rfl : V'' = V' := by
            rw [eV] at h
            simpa using h.symm
          exact c2
        · refine Filter.Eventually.of_forall fun w2 => step w0 w1 w2 ⟨c0, fun U'' h => ?_⟩
          obtain rfl : U'' = U' := by
            rw [eU] at h
            simpa using h.symm
          exact ⟨c1, fun V'' h => absurd ⟨V'', h⟩ hV'⟩
      · exact Filter.Eventually.of_forall fun w1 => Filter.Eventually.of_forall fun w2 => step w0 w1 w2
          ⟨c0, fun U' h => absurd ⟨U', h⟩ hU⟩
  exact (main nIter).mono fun l _ hrun tol cb cb0 force hcb => exactRun_typed hn hrun hv hd normOf tol cb cb0 force hcb

/-- **C163, `rp_hooi`.** The same for `rp_hooi`, which reproduces the data. -/
theorem C163_rp_hooi {Ω₀ Ω : Type} [MeasurableSpace Ω₀] [MeasurableSpace Ω] (P₀ : Measure Ω₀) (ini : Ω₀ → ℕ → Rng ℝ)
    (hini : ∀ mode, UniformDraws P₀ fun v => ini v mode) (P : Measure Ω) (rng : Ω → Rng ℝ) (hrng : NormalDraws P rng)
    (d : Ω) (p : HooiPar ℝ) (hla : LaOk p.la) (normOf : Ten ℝ → ℝ) (es : List (Ent n0 n1 n2 ℝ))
    (hr : MultiRankLe (cooTensor es) p.rank.1 p.rank.2.1 p.rank.2.2)
    (hv : p.rank.1 ≤ p.rank.2.1 * p.rank.2.2 ∧ p.rank.2.1 ≤ p.rank.1 * p.rank.2.2 ∧
      p.rank.2.2 ≤ p.rank.1 * p.rank.2.1)
    (hd : p.rank.1 ≤ n0 ∧ p.rank.2.1 ≤ n1 ∧ p.rank.2.2 ≤ n2) (nIter : ℕ) (hn : 1 ≤ nIter) :
    ∀ᵐ v ∂P₀, Successively P (3 * nIter) fun l => ∀ tol : ℝ,
        ∃ (U : Matrix (Fin n0) (Fin p.rank.1) ℝ) (V : Matrix (Fin n1) (Fin p.rank.2.1) ℝ)
          (W : Matrix (Fin n2) (Fin p.rank.2.2) ℝ) (c : T3 p.rank.1 p.rank.2.1 p.rank.2.2 ℝ),
          rpHooi { p with initRng := ini v, rsvdRng := listRng rng d l } normOf (indsOf es) (valsOf es) (n0, n1, n2)
            nIter tol = .ok (⟨⟨_, _, U⟩, ⟨_, _, V⟩, ⟨_, _, W⟩⟩, some ⟨_, _, _, c⟩) ∧
          tuckerTensor U V W c = cooTensor es := by
  have e : (fun i j k => ∑ l, (1 : Matrix (Fin n2) (Fin n2) ℝ) l k * cooTensor es i j l) = cooTensor es := by
    funext i j k
    simp [Matrix.one_apply]
  filter_upwards [C163_ga_satf (τ := Unit) P₀ ini hini P rng hrng d p hla normOf es 1 (by rw [e]; exact hr) hv hd nIter hn]
    with v hv'
  refine hv'.mono fun l _ h tol => ?_
  obtain ⟨U, V, W, c, t, h1, h2⟩ := h tol none () false (fun c hc => by cases hc)
  refine ⟨U, V, W, c, ?_, funext fun i => funext fun j => funext fun k => (h2 i j k).trans (congrFun (congrFun
    (congrFun e i) j) k)⟩
  have h79 := C79_identity_attention (τ := Unit) { p with initRng := ini v, rsvdRng := listRng rng d l } normOf (indsOf es)
    (valsOf es) (n0, n1, n2) nIter tol ()
  have h1 : gaSatf { p with initRng := ini v, rsvdRng := listRng rng d l } normOf (indsOf es) (valsOf es) (n0, n1, n2)
      (Mat.eye n2) nIter tol none () none false = _ := h1
  dsimp only at h79
  rw [h1] at h79
  cases hx : rpHooi { p with initRng := ini v, rsvdRng := listRng rng d l } normOf (indsOf es) (valsOf es) (n0, n1, n2)
    nIter tol with
  | error e => rw [hx] at h79; cases h79
  | ok r =>
    rw [hx] at h79
    have := Except.ok.inj h79
    exact congrArg Except.ok (congrArg Prod.fst this).symm

/-- **C163, wide sketches.** If every product of two of the ranks is at most the third rank plus the oversampling, no
independence is needed: initial draws and sketches may depend on each other in any way, as they do when all of them
come from one seed. -/
theorem C163_wide {τ Ω : Type} [MeasurableSpace Ω] (P : Measure Ω) (ini : Ω → ℕ → Rng ℝ)
    (hini : ∀ mode, UniformDraws P fun w => ini w mode) (rng : Ω → ℕ → ℕ → Rng ℝ)
    (hrng : ∀ i mode, NormalDraws P fun w => rng w i mode) (p : HooiPar ℝ) (hla : LaOk p.la) (normOf : Ten ℝ → ℝ)
    (h0 : p.rank.2.1 * p.rank.2.2 ≤ p.rank.1 + p.os) (h1 : p.rank.1 * p.rank.2.2 ≤ p.rank.2.1 + p.os)
    (h2 : p.rank.1 * p.rank.2.1 ≤ p.rank.2.2 + p.os) (es : List (Ent n0 n1 n2 ℝ))
    (A : Matrix (Fin n2) (Fin n2) ℝ)
    (hr : MultiRankLe (fun i j k => ∑ l, A l k * cooTensor es i j l) p.rank.1 p.rank.2.1 p.rank.2.2)
    (hv : p.rank.1 ≤ p.rank.2.1 * p.rank.2.2 ∧ p.rank.2.1 ≤ p.rank.1 * p.rank.2.2 ∧
      p.rank.2.2 ≤ p.rank.1 * p.rank.2.1)
    (hd : p.rank.1 ≤ n0 ∧ p.rank.2.1 ≤ n1 ∧ p.rank.2.2 ≤ n2) :
    ∀ᵐ w ∂P, ∀ (nIter : ℕ), 1 ≤ nIter → ∀ (tol : ℝ) (cb : Option (ExitCallback ℝ τ)) (cb0 : τ) (force : Bool),
        (∀ c, cb = some c → ∀ t f g, ∃ r, c t f g = .ok r) →
        ∃ (U : Matrix (Fin n0) (Fin p.rank.1) ℝ) (V : Matrix (Fin n1) (Fin p.rank.2.1) ℝ)
          (W : Matrix (Fin n2) (Fin p.rank.2.2) ℝ) (c : T3 p.rank.1 p.rank.2.1 p.rank.2.2 ℝ) (t : τ),
          gaSatf { p with initRng := ini w, rsvdRng := rng w } normOf (indsOf es) (valsOf es) (n0, n1, n2)
            ⟨n2, n2, A⟩ nIter tol cb cb0 none force =
              .ok ((⟨⟨_, _, U⟩, ⟨_, _, V⟩, ⟨_, _, W⟩⟩, some ⟨_, _, _, c⟩), t) ∧
          ∀ i j k, tuckerTensor U V W c i j k = ∑ l, A l k * cooTensor es i j l := by
  have hr' : MultiRankLe (attended A (cooTensor es)) p.rank.1 p.rank.2.1 p.rank.2.2 := hr
  have full : ∀ i mode a b, a ≤ b → ∀ᵐ w ∂P, FullRows (rng w i mode a b) := by
    intro i mode a b hab
    have := (hrng i mode).ae (m := a) (n := b) (Q := fun R => FullRows R) (by
      have := randn_fullRows (n := b) (1 : Matrix (Fin a) (Fin a) ℝ) ⟨1, by rw [Matrix.mul_one]⟩ hab
      simpa only [Matrix.one_mul] using this)
    exact this
  have all : ∀ᵐ w ∂P, FullDraws { p with rsvdRng := rng w } := by
    unfold FullDraws
    rw [ae_all_iff]
    intro i
    filter_upwards [full i 0 _ _ h0, full i 1 _ _ h1, full i 2 _ _ h2] with w a b c
    exact ⟨a, b, c⟩
  filter_upwards [init_ready (hini 1) (hini 2) p hla es A hr' hd, all] with w hready hw nIter hn tol cb cb0 force hcb
  have main : ∀ n, ExactRun { p with initRng := ini w, rsvdRng := rng w } es A n
      (initFactors p.la (ini w) (n0, n1, n2) p.rank true) := by
    intro n
    induction n with
    | zero => exact ⟨fun _ => _, fun _ => ⟨0, 0, 0, fun i => i.elim0⟩, rfl, fun j hj => by omega, hready⟩
    | succ n ih =>
      obtain ⟨F, G, hF, hex, q, U, V, W, hFn, hV, hW⟩ := ih
      obtain ⟨f', g', e, g1, g2⟩ := sweep_exact { p with initRng := ini w, rsvdRng := rng w } hla es A n hr' hv hd U V W hV
        hW ⟨full_captures _ _ _ _ _ (hw n).1, fun U' _ => ⟨full_captures _ _ _ _ _ (hw n).2.1, fun V' _ =>
          full_captures _ _ _ _ _ (hw n).2.2⟩⟩
      exact exactRun_extend hF hex (by rw [hFn]; exact e) g1 g2
  exact exactRun_typed hn (main nIter) hv hd normOf tol cb cb0 force hcb

/-- **C163, converse.** If the call reproduces the attended data, their multilinear rank is at most the requested one. -/
theorem C163_only {τ : Type} (p : HooiPar ℝ) (normOf : Ten ℝ → ℝ) (es : List (Ent n0 n1 n2 ℝ))
    (A : Matrix (Fin n2) (Fin n2) ℝ) (nIter : ℕ) (tol : ℝ) (cb : Option (ExitCallback ℝ τ)) (cb0 : τ)
    (init : Option (Fac ℝ)) (force : Bool) {r0 r1 r2 : ℕ} (U : Matrix (Fin n0) (Fin r0) ℝ) (V : Matrix (Fin n1) (Fin r1) ℝ)
    (W : Matrix (Fin n2) (Fin r2) ℝ) (c : T3 r0 r1 r2 ℝ) (t : τ)
    (h : gaSatf p normOf (indsOf es) (valsOf es) (n0, n1, n2) ⟨n2, n2, A⟩ nIter tol cb cb0 init force =
      .ok ((⟨⟨_, _, U⟩, ⟨_, _, V⟩, ⟨_, _, W⟩⟩, some ⟨_, _, _, c⟩), t))
    (he : ∀ i j k, tuckerTensor U V W c i j k = ∑ l, A l k * cooTensor es i j l) :
    MultiRankLe (fun i j k => ∑ l, A l k * cooTensor es i j l) p.rank.1 p.rank.2.1 p.rank.2.2 := by
  have hx : (fun i j k => ∑ l, A l k * cooTensor es i j l) = tuckerTensor U V W c :=
    funext fun i => funext fun j => funext fun k => (he i j k).symm
  obtain ⟨k, F, G, hk, h0, hrun, e1, e2, -⟩ := C61_ga_satf_run p normOf _ _ _ _ nIter tol cb cb0 init force _ _ t h
  have hk1 : k ≠ 0 := by
    rintro rfl
    rw [if_pos rfl] at e2
    cases e2
  have hs := hrun (k - 1) (by omega)
  rw [Nat.sub_add_cancel (by omega)] at hs
  obtain ⟨w0, w1, w2⟩ := sweep_widths p _ _ _ _ _ _ _ hs
  dsimp only at w0 w1 w2
  rw [← e1] at w0 w1 w2
  have := multiRank_tucker U V W c
  rw [hx]
  exact ⟨this.k0.trans w0, this.k1.trans w1, this.k2.trans w2⟩
end

/-! ### Such draws exist, and the claim at work -/

/-- infinitely many independent numbers, uniform on `[0, 1)` -/
noncomputable def uniformSource : Measure (ℕ × ℕ → ℝ) :=
  Measure.infinitePi fun _ => (volume : Measure ℝ).restrict (Set.Ico 0 1)

instance uniform_prob : IsProbabilityMeasure ((volume : Measure ℝ).restrict (Set.Ico 0 1)) := ⟨by simp⟩

theorem source_uniform : UniformDraws uniformSource sourceRng := by
  intro m n
  have hm : ∀ q : Fin m × Fin n, Measurable fun w : ℕ × ℕ → ℝ => w (q.1, q.2) := fun q => by fun_prop
  have hi : iIndepFun (fun (q : Fin m × Fin n) (w : ℕ × ℕ → ℝ) => w (q.1, q.2)) uniformSource :=
    (iIndepFun_infinitePi (P := fun _ : ℕ × ℕ => (volume : Measure ℝ).restrict (Set.Ico 0 1)) (X := fun _ x => x)
      fun _ => measurable_id).precomp
      (g := fun q : Fin m × Fin n => ((q.1 : ℕ), (q.2 : ℕ)))
      fun a b hab => Prod.ext (Fin.ext (Prod.mk.inj hab).1) (Fin.ext (Prod.mk.inj hab).2)
  refine ⟨(measurable_pi_lambda _ hm).aemeasurable, ?_⟩
  have e := hi.map_fun_eq_pi_map fun q => (hm q).aemeasurable
  refine e.trans (congrArg Measure.pi (funext fun q => ?_))
  exact (measurePreserving_eval_infinitePi (fun _ : ℕ × ℕ => (volume : Measure ℝ).restrict (Set.Ico 0 1)) _).map_eq

/-- two entries of a 3 × 3 × 3 tensor -/
def exTwo : List (Ent 3 3 3 ℝ) := [((0, 0, 0), 3), ((1, 1, 1), 1)]
/-- an attention matrix that mixes the positions -/
noncomputable def exMix : Matrix (Fin 3) (Fin 3) ℝ := !![1, 1/2, 1/3; 0, 1, 1/2; 0, 0, 1]

theorem exTwo_rank : MultiRankLe (fun i j k => ∑ l, exMix l k * cooTensor exTwo i j l) 2 2 2 := by
  have e : (fun i j k => ∑ l, exMix l k * cooTensor exTwo i j l) =
      tuckerTensor !![1, 0; 0, 1; 0, 0] !![1, 0; 0, 1; 0, 0] !![1, 0; 1/2, 1; 1/3, 1/2]
        (fun a b c => if a = b ∧ b = c then (if a = 0 then 3 else 1) else 0) := by
    funext i j k
    fin_cases i <;> fin_cases j <;> fin_cases k <;>
      simp [tuckerTensor, Fin.sum_univ_succ, exMix, exTwo, cooTensor, mul_comm]
  rw [e]
  exact multiRank_tucker _ _ _ _

/-- the parameters: rank (2, 2, 2), one power iteration and no oversampling -/
noncomputable def exParTwo (os : ℕ) : HooiPar ℝ := ⟨realLA, fun _ => eyeRng, fun _ _ => eyeRng, (2, 2, 2), 1, os, true⟩

/-- Two sweeps without oversampling on data whose attended form has rank (2, 2, 2): almost surely exact, the entry
(1, 1, 2) of the reconstruction is the attended one, 1 / 2. -/
example : ∀ᵐ v ∂uniformSource, Successively normalSource 6 fun l =>
    ∃ (U V W : Matrix (Fin 3) (Fin 2) ℝ) (c : T3 2 2 2 ℝ) (t : Unit),
      gaSatf (τ := Unit) { exParTwo 0 with initRng := fun _ => sourceRng v, rsvdRng := listRng sourceRng 0 l } tenFrob
        (indsOf exTwo) (valsOf exTwo) (3, 3, 3) ⟨3, 3, exMix⟩ 2 0 none () none true =
          .ok ((⟨⟨_, _, U⟩, ⟨_, _, V⟩, ⟨_, _, W⟩⟩, some ⟨_, _, _, c⟩), t) ∧
      tuckerTensor U V W c 1 1 2 = 1 / 2 := by
  filter_upwards [C163_ga_satf (τ := Unit) uniformSource (fun v _ => sourceRng v) (fun _ => source_uniform) normalSource
    sourceRng source_normal 0 (exParTwo 0) laOk_real tenFrob exTwo exMix exTwo_rank (by decide) (by decide) 2 (by omega)]
    with v hv
  refine Successively.mono hv fun l _ h => ?_
  obtain ⟨U, V, W, c, t, h1, h2⟩ := h 0 none () true (fun c hc => by cases hc)
  refine ⟨U, V, W, c, t, h1, (h2 1 1 2).trans ?_⟩
  simp [Fin.sum_univ_succ, exMix, exTwo, cooTensor]

/-- With rank (1, 1, 1) the same data are never reproduced, whatever is drawn: two of their slices are not
proportional. -/
example (ini : ℕ → Rng ℝ) (sk : ℕ → ℕ → Rng ℝ) (U V W : Matrix (Fin 3) (Fin 1) ℝ) (c : T3 1 1 1 ℝ) (t : Unit) :
    ¬ (gaSatf (τ := Unit) { exParTwo 0 with initRng := ini, rsvdRng := sk, rank := (1, 1, 1) } tenFrob
        (indsOf exTwo) (valsOf exTwo) (3, 3, 3) ⟨3, 3, exMix⟩ 2 0 none () none true =
          .ok ((⟨⟨_, _, U⟩, ⟨_, _, V⟩, ⟨_, _, W⟩⟩, some ⟨_, _, _, c⟩), t) ∧
      ∀ i j k, tuckerTensor U V W c i j k = ∑ l, exMix l k * cooTensor exTwo i j l) := by
  rintro ⟨h, he⟩
  have hm := (C163_only _ tenFrob exTwo exMix 2 0 none () none true U V W c t h he).k0
  obtain ⟨L, R, hLR, -⟩ := rank_factor (unf fun i j k => ∑ l, exMix l k * cooTensor exTwo i j l)
  have key : ∀ r ≤ 1, ∀ (L : Matrix (Fin 3) (Fin r) ℝ) (R : Matrix (Fin r) (Fin (3 * 3)) ℝ),
      L * R ≠ unf fun i j k => ∑ l, exMix l k * cooTensor exTwo i j l := by
    intro r hr L R e
    have g : ∀ (i j k : Fin 3), ∑ a, L i a * R a (finProdFinEquiv (k, j)) = ∑ l, exMix l k * cooTensor exTwo i j l := by
      intro i j k
      have := congrFun (congrFun e i) (finProdFinEquiv (k, j))
      simpa only [unf, Matrix.of_apply, Equiv.symm_apply_apply, Matrix.mul_apply] using this
    have g1 := g 0 0 0
    have g2 := g 0 1 1
    have g3 := g 1 0 0
    have g4 := g 1 1 1
    rcases Nat.le_one_iff_eq_zero_or_eq_one.1 hr with rfl | rfl
    · simp [Fin.sum_univ_succ, exMix, exTwo, cooTensor] at g1
    · simp only [Finset.univ_unique, Fin.default_eq_zero, Finset.sum_singleton] at g1 g2 g3 g4
      simp [Fin.sum_univ_succ, exMix, exTwo, cooTensor] at g1 g2 g3 g4
      rcases g2 with h | h <;> rcases g3 with h' | h' <;> simp_all
  exact key _ hm L R hLR

/-- `rp_hooi` on the data themselves. -/
example : ∀ᵐ v ∂uniformSource, Successively normalSource 3 fun l =>
    ∃ (U V W : Matrix (Fin 3) (Fin 2) ℝ) (c : T3 2 2 2 ℝ),
      rpHooi { exParTwo 0 with initRng := fun _ => sourceRng v, rsvdRng := listRng sourceRng 0 l } tenFrob
        (indsOf exTwo) (valsOf exTwo) (3, 3, 3) 1 0 = .ok (⟨⟨_, _, U⟩, ⟨_, _, V⟩, ⟨_, _, W⟩⟩, some ⟨_, _, _, c⟩) ∧
      tuckerTensor U V W c 0 0 0 = 3 := by
  have e : cooTensor exTwo = tuckerTensor !![1, 0; 0, 1; 0, 0] !![1, 0; 0, 1; 0, 0] !![1, 0; 0, 1; 0, 0]
        (fun a b c => if a = b ∧ b = c then (if a = 0 then 3 else 1) else 0) := by
    funext i j k
    fin_cases i <;> fin_cases j <;> fin_cases k <;>
      simp [tuckerTensor, Fin.sum_univ_succ, exTwo, cooTensor]
  filter_upwards [C163_rp_hooi uniformSource (fun v _ => sourceRng v) (fun _ => source_uniform) normalSource
    sourceRng source_normal 0 (exParTwo 0) laOk_real tenFrob exTwo (by rw [e]; exact multiRank_tucker _ _ _ _) (by decide)
    (by decide) 1 (by omega)] with v hv
  refine Successively.mono hv fun l _ h => ?_
  obtain ⟨U, V, W, c, h1, h2⟩ := h 0
  refine ⟨U, V, W, c, h1, (congrFun (congrFun (congrFun h2 0) 0) 0).trans ?_⟩
  simp [exTwo, cooTensor]

/-- All sketches of all sweeps read from the same numbers, with oversampling 2: exact after any number of sweeps. -/
example : ∀ᵐ w ∂uniformSource.prod normalSource, ∀ nIter, 1 ≤ nIter →
    ∃ (U V W : Matrix (Fin 3) (Fin 2) ℝ) (c : T3 2 2 2 ℝ) (t : Unit),
      gaSatf (τ := Unit) { exParTwo 2 with initRng := fun _ => sourceRng w.1, rsvdRng := fun _ _ => sourceRng w.2 } tenFrob
        (indsOf exTwo) (valsOf exTwo) (3, 3, 3) ⟨3, 3, exMix⟩ nIter (1 / 100) none () none false =
          .ok ((⟨⟨_, _, U⟩, ⟨_, _, V⟩, ⟨_, _, W⟩⟩, some ⟨_, _, _, c⟩), t) ∧
      tuckerTensor U V W c 0 0 1 = 3 / 2 := by
  haveI : IsProbabilityMeasure uniformSource := by unfold uniformSource; infer_instance
  haveI : IsProbabilityMeasure normalSource := by unfold normalSource; infer_instance
  have hf : HasLaw Prod.fst uniformSource (uniformSource.prod normalSource) :=
    ⟨measurable_fst.aemeasurable, measurePreserving_fst.map_eq⟩
  have hs : HasLaw Prod.snd normalSource (uniformSource.prod normalSource) :=
    ⟨measurable_snd.aemeasurable, measurePreserving_snd.map_eq⟩
  filter_upwards [C163_wide (τ := Unit) (uniformSource.prod normalSource) (fun w _ => sourceRng w.1)
    (fun _ m n => (source_uniform m n).comp hf) (fun w _ _ => sourceRng w.2) (fun _ _ m n => (source_normal m n).comp hs)
    (exParTwo 2) laOk_real tenFrob (by decide) (by decide) (by decide) exTwo exMix exTwo_rank (by decide) (by decide)]
    with w h nIter hn
  obtain ⟨U, V, W, c, t, h1, h2⟩ := h nIter hn (1 / 100) none () false (fun c hc => by cases hc)
  refine ⟨U, V, W, c, t, h1, (h2 0 0 1).trans ?_⟩
  simp [Fin.sum_univ_succ, exMix, exTwo, cooTensor]
  norm_num

end DynCF
