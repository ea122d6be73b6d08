/-
Dimensions of the factors through the steps of `TIRec.update` and `TIRecA.update`.
-/
import Verif.Lemmas.TIStep
import Verif.Props.TDRec2

set_option linter.unusedSectionVars false

namespace DynCF
open Matrix
variable {K : Type}

/-- The state holds these factors and this core. -/
structure TIStores (st : TDState K) {n0 n1 n2 r0 r1 r2 : ℕ} (U : Matrix (Fin n0) (Fin r0) K)
    (V : Matrix (Fin n1) (Fin r1) K) (W : Matrix (Fin n2) (Fin r2) K) (c : T3 r0 r1 r2 K) : Prop where
  u : st.u = ⟨n0, r0, U⟩
  v : st.v = ⟨n1, r1, V⟩
  w : st.w = ⟨n2, r2, W⟩
  core : st.core = some ⟨r0, r1, r2, c⟩

/-- The state holds factors and a core of these dimensions. -/
def TIShape (st : TDState K) (n0 n1 n2 r0 r1 r2 : ℕ) : Prop :=
  ∃ (U : Matrix (Fin n0) (Fin r0) K) (V : Matrix (Fin n1) (Fin r1) K) (W : Matrix (Fin n2) (Fin r2) K)
    (c : T3 r0 r1 r2 K), TIStores st U V W c

/-- Only factors and core differ. -/
structure TISame (s t : TDState K) : Prop where
  maps : t.maps = s.maps
  history : t.history = s.history
  seqHist : t.seqHist = s.seqHist
  aw : t.aw = s.aw
  lastPos : t.lastPos = s.lastPos

theorem TISame.refl (s : TDState K) : TISame s s := ⟨rfl, rfl, rfl, rfl, rfl⟩
theorem TISame.trans {s t w : TDState K} (h1 : TISame s t) (h2 : TISame t w) : TISame s w :=
  ⟨h2.maps.trans h1.maps, h2.history.trans h1.history, h2.seqHist.trans h1.seqHist, h2.aw.trans h1.aw,
    h2.lastPos.trans h1.lastPos⟩

theorem setFac_same (st : TDState K) (r : Fac K × Ten K) : TISame st (st.setFac r) := ⟨rfl, rfl, rfl, rfl, rfl⟩

theorem setFac_shape (st : TDState K) {n0 n1 n2 r0 r1 r2 : ℕ} (U : Matrix (Fin n0) (Fin r0) K)
    (V : Matrix (Fin n1) (Fin r1) K) (W : Matrix (Fin n2) (Fin r2) K) (c : T3 r0 r1 r2 K) :
    TIStores (st.setFac (⟨⟨_, _, U⟩, ⟨_, _, V⟩, ⟨_, _, W⟩⟩, ⟨_, _, _, c⟩)) U V W c := ⟨rfl, rfl, rfl, rfl⟩

theorem tiCore_stores {st : TDState K} {n0 n1 n2 r0 r1 r2 : ℕ} {U : Matrix (Fin n0) (Fin r0) K}
    {V : Matrix (Fin n1) (Fin r1) K} {W : Matrix (Fin n2) (Fin r2) K} {c : T3 r0 r1 r2 K} (h : TIStores st U V W c) :
    tiCore st = .ok ⟨r0, r1, r2, c⟩ ∧ st.fac = ⟨⟨_, _, U⟩, ⟨_, _, V⟩, ⟨_, _, W⟩⟩ := by
  unfold tiCore TDState.fac
  rw [h.core, h.u, h.v, h.w]
  exact ⟨rfl, rfl⟩

section
variable [CommRing K]

theorem tiCoreTimes_0 {r0 r1 r2 : ℕ} (c : T3 r0 r1 r2 K) (R : Matrix (Fin r0) (Fin r0) K) :
    tiCoreTimes ⟨r0, r1, r2, c⟩ ⟨r0, r0, R⟩ 0 = .ok ⟨r0, r1, r2, mul0 R c⟩ := by
  unfold tiCoreTimes
  rw [unfoldDense_0, except_bind_ok, Mat.dot_mk, except_bind_ok, ← unf_mul0]
  exact foldDense_0 _

theorem tiCoreTimes_1 {r0 r1 r2 : ℕ} (c : T3 r0 r1 r2 K) (R : Matrix (Fin r1) (Fin r1) K) :
    tiCoreTimes ⟨r0, r1, r2, c⟩ ⟨r1, r1, R⟩ 1 = .ok ⟨r0, r1, r2, mul1 R c⟩ := by
  unfold tiCoreTimes
  rw [unfoldDense_1, except_bind_ok, Mat.dot_mk, except_bind_ok, ← unf_mul0, ← front1_mul1]
  exact foldDense_1 _

/-- `U` with random rows appended -/
def padRand {n r : ℕ} (normal : Rng K) (U : Matrix (Fin n) (Fin r) K) (k : ℕ) : Matrix (Fin (n + k)) (Fin r) K :=
  Matrix.of fun i j => Fin.addCases (fun i => U i j) (fun i' => normal (n + k) r (Fin.natAdd n i') j) i

/-- `U` with zero rows appended -/
def zeroRows {n r : ℕ} (U : Matrix (Fin n) (Fin r) K) (k : ℕ) : Matrix (Fin (n + k)) (Fin r) K :=
  Matrix.of fun i j => Fin.addCases (fun i => U i j) (fun _ => 0) i

theorem qrM_padded (la : LinAlg K) (hqr : QrAlways la) {n r : ℕ} (hr : r ≤ n) (A : Matrix (Fin n) (Fin r) K) :
    ∃ (Q : Matrix (Fin n) (Fin r) K) (R : Matrix (Fin r) (Fin r) K),
      la.qrM ⟨n, r, A⟩ = (⟨n, r, Q⟩, ⟨r, r, R⟩) ∧ Q * R = A ∧ Q.transpose * Q = 1 := by
  obtain ⟨h1, h2⟩ := hqr A
  unfold LinAlg.qrM
  dsimp only
  generalize la.qr A = x at *
  obtain ⟨Q, R⟩ := x
  dsimp only at *
  have hmin : min n r = r := by omega
  generalize min n r = p at *
  subst hmin
  exact ⟨Q, R, rfl, h1, h2⟩

variable {n0 n1 n2 r0 r1 r2 : ℕ} {st : TDState K} {U : Matrix (Fin n0) (Fin r0) K}
    {V : Matrix (Fin n1) (Fin r1) K} {W : Matrix (Fin n2) (Fin r2) K} {c : T3 r0 r1 r2 K}

theorem tiZeroUsers_stores (h : TIStores st U V W c) (k : ℕ) :
    TIStores (tiZeroUsers k st) (zeroRows U k) V W c ∧ TISame st (tiZeroUsers k st) := by
  refine ⟨⟨?_, h.v, h.w, h.core⟩, ⟨rfl, rfl, rfl, rfl, rfl⟩⟩
  show zeroPadRows st.u k = _
  rw [h.u]
  rfl

theorem tiZeroItems_stores (h : TIStores st U V W c) (k : ℕ) :
    TIStores (tiZeroItems k st) U (zeroRows V k) W c ∧ TISame st (tiZeroItems k st) := by
  refine ⟨⟨h.u, ?_, h.w, h.core⟩, ⟨rfl, rfl, rfl, rfl, rfl⟩⟩
  show zeroPadRows st.v k = _
  rw [h.v]
  rfl

theorem tiRandomUsers_stores (cfg : TICfg K) (hqr : QrAlways cfg.td.hooi.la) (h : TIStores st U V W c) (k : ℕ)
    (hr : r0 ≤ n0 + k) :
    ∃ (Q : Matrix (Fin (n0 + k)) (Fin r0) K) (R : Matrix (Fin r0) (Fin r0) K) (st' : TDState K),
      tiRandomUsers cfg k st = .ok st' ∧ TIStores st' Q V W (mul0 R c) ∧ TISame st st' ∧
      Q * R = padRand cfg.normal U k ∧ Q.transpose * Q = 1 := by
  obtain ⟨Q, R, e, h1, h2⟩ := qrM_padded cfg.td.hooi.la hqr hr (padRand cfg.normal U k)
  refine ⟨Q, R, { st with u := ⟨_, _, Q⟩, core := some ⟨_, _, _, mul0 R c⟩ }, ?_, ⟨rfl, h.v, h.w, rfl⟩,
    ⟨rfl, rfl, rfl, rfl, rfl⟩, h1, h2⟩
  unfold tiRandomUsers
  have hp : padRandom cfg.normal st.u k = ⟨n0 + k, r0, padRand cfg.normal U k⟩ := by rw [h.u]; rfl
  dsimp only
  rw [hp, e, (tiCore_stores h).1, except_bind_ok]
  dsimp only
  rw [tiCoreTimes_0, except_bind_ok]
  rfl

theorem tiRandomItems_stores (cfg : TICfg K) (hqr : QrAlways cfg.td.hooi.la) (h : TIStores st U V W c) (k : ℕ)
    (hr : r1 ≤ n1 + k) :
    ∃ (Q : Matrix (Fin (n1 + k)) (Fin r1) K) (R : Matrix (Fin r1) (Fin r1) K) (st' : TDState K),
      tiRandomItems cfg k st = .ok st' ∧ TIStores st' U Q W (mul1 R c) ∧ TISame st st' ∧
      Q * R = padRand cfg.normal V k ∧ Q.transpose * Q = 1 := by
  obtain ⟨Q, R, e, h1, h2⟩ := qrM_padded cfg.td.hooi.la hqr hr (padRand cfg.normal V k)
  refine ⟨Q, R, { st with v := ⟨_, _, Q⟩, core := some ⟨_, _, _, mul1 R c⟩ }, ?_, ⟨h.u, rfl, h.w, rfl⟩,
    ⟨rfl, rfl, rfl, rfl, rfl⟩, h1, h2⟩
  unfold tiRandomItems
  have hp : padRandom cfg.normal st.v k = ⟨n1 + k, r1, padRand cfg.normal V k⟩ := by rw [h.v]; rfl
  dsimp only
  rw [hp, e, (tiCore_stores h).1, except_bind_ok]
  dsimp only
  rw [tiCoreTimes_1, except_bind_ok]
  rfl

theorem tiEmbUsers_shape (cfg : TICfg K) (hqr : QrAlways cfg.td.hooi.la) (h : TIShape st n0 n1 n2 r0 r1 r2) (k : ℕ)
    (hr : r0 ≤ n0) : ∃ st', tiEmbUsers cfg k st = .ok st' ∧ TIShape st' (n0 + k) n1 n2 r0 r1 r2 ∧ TISame st st' := by
  obtain ⟨U, V, W, c, h⟩ := h
  unfold tiEmbUsers
  cases cfg.init with
  | zero => exact ⟨_, rfl, ⟨_, _, _, _, (tiZeroUsers_stores h k).1⟩, (tiZeroUsers_stores h k).2⟩
  | random =>
    obtain ⟨Q, R, st', e, h1, h2, _⟩ := tiRandomUsers_stores cfg hqr h k (by omega)
    exact ⟨st', e, ⟨_, _, _, _, h1⟩, h2⟩

theorem tiEmbItems_shape (cfg : TICfg K) (hqr : QrAlways cfg.td.hooi.la) (h : TIShape st n0 n1 n2 r0 r1 r2) (k : ℕ)
    (hr : r1 ≤ n1) : ∃ st', tiEmbItems cfg k st = .ok st' ∧ TIShape st' n0 (n1 + k) n2 r0 r1 r2 ∧ TISame st st' := by
  obtain ⟨U, V, W, c, h⟩ := h
  unfold tiEmbItems
  cases cfg.init with
  | zero => exact ⟨_, rfl, ⟨_, _, _, _, (tiZeroItems_stores h k).1⟩, (tiZeroItems_stores h k).2⟩
  | random =>
    obtain ⟨Q, R, st', e, h1, h2, _⟩ := tiRandomItems_stores cfg hqr h k (by omega)
    exact ⟨st', e, ⟨_, _, _, _, h1⟩, h2⟩

end

section
variable [Field K] [LinearOrder K] [IsStrictOrderedRing K]
variable {n0 n1 n2 r0 r1 r2 nc : ℕ}

/-- How a class adds new vectors, on states with given dimensions: the step works exactly if the number of new
vectors fits (`fits`), adds that many rows and touches nothing else. -/
structure TIVecOk (vec : TIVectors K) (cfg : TICfg K) (fits : ℕ → ℕ → Prop) : Prop where
  users : ∀ {n0 n1 n2 r0 r1 r2 nc : ℕ} {st : TDState K}, TIShape st n0 n1 n2 r0 r1 r2 → TIDims n0 n1 n2 r0 r1 r2 →
    0 < r0 → ∀ t : T3 nc n1 n2 K, fits nc (n2 * n1) →
    ∃ st', vec cfg st ⟨nc, n2 * n1, unf t⟩ 0 = .ok st' ∧ TIShape st' (n0 + nc) n1 n2 r0 r1 r2 ∧ TISame st st'
  usersErr : ∀ {n0 n1 n2 r0 r1 r2 nc : ℕ} {st : TDState K}, TIShape st n0 n1 n2 r0 r1 r2 → TIDims n0 n1 n2 r0 r1 r2 →
    0 < r0 → ∀ t : T3 nc n1 n2 K, ¬ fits nc (n2 * n1) → vec cfg st ⟨nc, n2 * n1, unf t⟩ 0 = .error .valueError
  items : ∀ {n0 n1 n2 r0 r1 r2 nc : ℕ} {st : TDState K}, TIShape st n0 n1 n2 r0 r1 r2 → TIDims n0 n1 n2 r0 r1 r2 →
    0 < r1 → ∀ t : T3 n0 nc n2 K, fits nc (n2 * n0) →
    ∃ st', vec cfg st ⟨nc, n2 * n0, unf (front1 t)⟩ 1 = .ok st' ∧ TIShape st' n0 (n1 + nc) n2 r0 r1 r2 ∧ TISame st st'
  itemsErr : ∀ {n0 n1 n2 r0 r1 r2 nc : ℕ} {st : TDState K}, TIShape st n0 n1 n2 r0 r1 r2 → TIDims n0 n1 n2 r0 r1 r2 →
    0 < r1 → ∀ t : T3 n0 nc n2 K, ¬ fits nc (n2 * n0) → vec cfg st ⟨nc, n2 * n0, unf (front1 t)⟩ 1 = .error .valueError

theorem TIDims.le0 (h : TIDims n0 n1 n2 r0 r1 r2) : r0 ≤ n2 * n1 := h.h0.trans (Nat.mul_le_mul h.n2 h.n1)
theorem TIDims.le1 (h : TIDims n0 n1 n2 r0 r1 r2) : r1 ≤ n2 * n0 := h.h1.trans (Nat.mul_le_mul h.n2 h.n0)

theorem tirecVectors_ok (cfg : TICfg K) (hqr : QrAlways cfg.td.hooi.la) :
    TIVecOk tirecVectors cfg fun nc N => nc ≤ N := by
  refine ⟨?_, ?_, ?_, ?_⟩
  · rintro n0 n1 n2 r0 r1 r2 nc st ⟨U, V, W, c, h⟩ hd hpos t hf
    obtain ⟨U', c', e, _⟩ := C50_mode0 cfg.td.hooi.la cfg.vecRng hqr hpos hd.le0 hf U V W c t cfg.td.hooi.nPower
      cfg.td.hooi.os cfg.explicitCalc
    refine ⟨_, ?_, ⟨_, _, _, _, setFac_shape st U' V W c'⟩, setFac_same _ _⟩
    unfold tirecVectors
    rw [(tiCore_stores h).1, except_bind_ok, (tiCore_stores h).2, e]
    rfl
  · rintro n0 n1 n2 r0 r1 r2 nc st ⟨U, V, W, c, h⟩ hd hpos t hf
    unfold tirecVectors
    rw [(tiCore_stores h).1, except_bind_ok, (tiCore_stores h).2,
      C50_too_many cfg.td.hooi.la cfg.vecRng hpos hd.le0 (by omega) U V W c t]
    rfl
  · rintro n0 n1 n2 r0 r1 r2 nc st ⟨U, V, W, c, h⟩ hd hpos t hf
    obtain ⟨V', c', e, _⟩ := C50_mode1 cfg.td.hooi.la cfg.vecRng hqr hpos hd.le1 hf U V W c t cfg.td.hooi.nPower
      cfg.td.hooi.os cfg.explicitCalc
    refine ⟨_, ?_, ⟨_, _, _, _, setFac_shape st U V' W c'⟩, setFac_same _ _⟩
    unfold tirecVectors
    rw [(tiCore_stores h).1, except_bind_ok, (tiCore_stores h).2, e]
    rfl
  · rintro n0 n1 n2 r0 r1 r2 nc st ⟨U, V, W, c, h⟩ hd hpos t hf
    unfold tirecVectors
    rw [(tiCore_stores h).1, except_bind_ok, (tiCore_stores h).2,
      C50_too_many_items cfg.td.hooi.la cfg.vecRng hpos hd.le1 (by omega) U V W c t]
    rfl

theorem tirecaVectors_ok (cfg : TICfg K) (hqr : QrAlways cfg.td.hooi.la) :
    TIVecOk tirecaVectors cfg fun _ _ => True := by
  refine ⟨?_, ?_, ?_, ?_⟩
  · intro n0 n1 n2 r0 r1 r2 nc st h hd hpos t hf
    exact tiEmbUsers_shape cfg hqr h nc hd.n0
  · intro n0 n1 n2 r0 r1 r2 nc st h hd hpos t hf
    exact absurd trivial hf
  · intro n0 n1 n2 r0 r1 r2 nc st h hd hpos t hf
    exact tiEmbItems_shape cfg hqr h nc hd.n1
  · intro n0 n1 n2 r0 r1 r2 nc st h hd hpos t hf
    exact absurd trivial hf

/-! ### The steps -/

section
variable {vec : TIVectors K} {cfg : TICfg K} {m : TDAtt K} {fits : ℕ → ℕ → Prop}
    (att : Option (Matrix (Fin cfg.td.seqLen) (Fin cfg.td.seqLen) K)) (hatt : tiAttArg cfg m = attArg att)
    {st : TDState K}
include hatt

theorem tiStep_users (hvec : TIVecOk vec cfg fits) (h : TIShape st n0 n1 cfg.td.seqLen r0 r1 r2)
    (hd : TIDims n0 n1 cfg.td.seqLen r0 r1 r2) (hpos : 0 < r0) (data : List DRow)
    (hi : ∀ r ∈ data, 0 ≤ r.item ∧ r.item < n1) (hp : ∀ r ∈ data, 0 ≤ r.pos ∧ r.pos < cfg.td.seqLen) :
    (fits (npUnique (data.map DRow.user)).length (cfg.td.seqLen * n1) →
      ∃ st', tiStep vec cfg m st data .newUsers = .ok st' ∧
        TIShape st' (n0 + (npUnique (data.map DRow.user)).length) n1 cfg.td.seqLen r0 r1 r2 ∧ TISame st st') ∧
    (¬ fits (npUnique (data.map DRow.user)).length (cfg.td.seqLen * n1) →
      tiStep vec cfg m st data .newUsers = .error .valueError) := by
  have hv : st.v.rows = n1 := by
    obtain ⟨U, V, W, c, h⟩ := h
    rw [h.v]
  simp only [tiStep]
  rw [tiDataUsers_eq cfg m st att hatt hv data hi hp, except_bind_ok]
  exact ⟨fun hf => hvec.users h hd hpos _ hf, fun hf => hvec.usersErr h hd hpos _ hf⟩

theorem tiStep_items (hvec : TIVecOk vec cfg fits) (h : TIShape st n0 n1 cfg.td.seqLen r0 r1 r2)
    (hd : TIDims n0 n1 cfg.td.seqLen r0 r1 r2) (hpos : 0 < r1) (data : List DRow)
    (hu : ∀ r ∈ data, 0 ≤ r.user ∧ r.user < n0) (hp : ∀ r ∈ data, 0 ≤ r.pos ∧ r.pos < cfg.td.seqLen) :
    (fits (npUnique (data.map DRow.item)).length (cfg.td.seqLen * n0) →
      ∃ st', tiStep vec cfg m st data .newItems = .ok st' ∧
        TIShape st' n0 (n1 + (npUnique (data.map DRow.item)).length) cfg.td.seqLen r0 r1 r2 ∧ TISame st st') ∧
    (¬ fits (npUnique (data.map DRow.item)).length (cfg.td.seqLen * n0) →
      tiStep vec cfg m st data .newItems = .error .valueError) := by
  have hv : st.u.rows = n0 := by
    obtain ⟨U, V, W, c, h⟩ := h
    rw [h.u]
  simp only [tiStep]
  rw [tiDataItems_eq cfg m st att hatt hv data hu hp, except_bind_ok]
  exact ⟨fun hf => hvec.items h hd hpos _ hf, fun hf => hvec.itemsErr h hd hpos _ hf⟩

theorem tiStep_new (h : TIShape st n0 n1 cfg.td.seqLen r0 r1 r2) (hd : TIDims n0 n1 cfg.td.seqLen r0 r1 r2)
    (data : List DRow) (hp : ∀ r ∈ data, 0 ≤ r.pos ∧ r.pos < cfg.td.seqLen) :
    ∃ st', tiStep vec cfg m st data .new = .ok st' ∧
      TIShape st' (n0 + (npUnique (data.map DRow.user)).length) (n1 + (npUnique (data.map DRow.item)).length)
        cfg.td.seqLen r0 r1 r2 ∧ TISame st st' := by
  obtain ⟨U, V, W, c, h⟩ := h
  obtain ⟨es, hes⟩ := tiBlock_typed (K := K) data cfg.td.seqLen hp
  obtain ⟨U', V', W', c', e, _⟩ := C51_new_matrix cfg.td.hooi.la cfg.matRng U V W c
    ⟨by rw [mul_comm]; exact hd.h0, by rw [mul_comm]; exact hd.h1, by rw [mul_comm]; exact hd.h2⟩ es att
    cfg.td.hooi.nPower cfg.td.hooi.os
    (fun i j k => Fin.addCases (fun i => Fin.addCases (fun j => tuckerTensor U V W c i j k) (fun _ => 0) j)
      (fun i => Fin.addCases (fun _ => 0)
        (fun j => ∑ l, (W * (attVal att * W).transpose) k l * cooTensor es i j l) j) i)
    (by intro i j k; simp) (by intro i j k; simp) (by intro i j k; simp) (by intro i j k; simp)
  refine ⟨_, ?_, ⟨_, _, _, _, setFac_shape st U' V' W' c'⟩, setFac_same _ _⟩
  simp only [tiStep, tiNew]
  rw [tiDataNew_eq, except_bind_ok, (tiCore_stores h).1, except_bind_ok, (tiCore_stores h).2, hes.inds, hes.vals,
    tiBlock_users, tiBlock_items, hatt, e]
  rfl

theorem tiStep_old (hqr : QrAlways cfg.td.hooi.la) (h : TIShape st n0 n1 cfg.td.seqLen r0 r1 r2)
    (hd : TIDims n0 n1 cfg.td.seqLen r0 r1 r2) (data : List DRow) (hne : data ≠ [])
    (hu : ∀ r ∈ data, 0 ≤ r.user ∧ r.user < n0) (hi : ∀ r ∈ data, 0 ≤ r.item ∧ r.item < n1)
    (hp : ∀ r ∈ data, 0 ≤ r.pos ∧ r.pos < cfg.td.seqLen) :
    ∃ st', tiStep vec cfg m st data .old = .ok st' ∧ TIShape st' n0 n1 cfg.td.seqLen r0 r1 r2 ∧ TISame st st' := by
  obtain ⟨U, V, W, c, h⟩ := h
  obtain ⟨es, hes⟩ := delta_typed (K := K) data n0 n1 cfg.td.seqLen hu hi hp
  obtain ⟨U', V', W', e, _⟩ := tuckerIntegrator_run cfg.td.hooi.la hqr es (hes.ne hne) att hd U V W c
    cfg.td.hooi.parallel
  generalize hc' : mul2 (W'.transpose * W) (mul1 (V'.transpose * V) (mul0 (U'.transpose * U) c)) +
    coreTensor (cooTensor es) U' V' (attVal att * W') = c' at e
  refine ⟨_, ?_, ⟨_, _, _, _, setFac_shape st U' V' W' c'⟩, setFac_same _ _⟩
  simp only [tiStep, tiOld]
  rw [(tiCore_stores h).1, except_bind_ok, (tiCore_stores h).2, hes.inds, hes.vals, hatt, h.u, h.v]
  dsimp only
  rw [e]
  rfl

end
end
end DynCF
