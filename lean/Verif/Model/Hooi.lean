/-
Model of `/repo/source/rp_hooi.py`.
-/
import Verif.Model.TensorOps
import Verif.Model.RandomSvd

namespace DynCF
variable {K : Type}

/-- rp_hooi.py:14-20 `tucker_rank_is_valid`. For a tuple of another length than 3 (and not empty)
the unpacking `mu, mv = modes[modes != mode]` of the first iteration raises `ValueError`. -/
def tuckerRankIsValid (rank : List ℤ) : PyM Bool :=
  match rank with
  | [] => .ok true
  | [r0, r1, r2] =>
    if r0 > r1 * r2 then .ok false
    else if r1 > r0 * r2 then .ok false
    else if r2 > r0 * r1 then .ok false
    else .ok true
  | _ => .error .valueError

/-- rp_hooi.py:26-30 `check_params` -/
def checkParams (shape : List ℕ) (rank : List ℤ) : PyM Unit :=
  if shape.length > 3 then .error .notImplementedError
  else do
    let ok ← tuckerRankIsValid rank
    if ok then .ok () else .error .runtimeError

/-- a 3-way shape or rank as the tuple passed around -/
def tri (s : ℕ × ℕ × ℕ) : List ℕ := [s.1, s.2.1, s.2.2]
/-- the same with integer entries -/
def triZ (s : ℕ × ℕ × ℕ) : List ℤ := [(s.1 : ℤ), (s.2.1 : ℤ), (s.2.2 : ℤ)]

/-- The three factor matrices (`factors_list`). -/
structure Fac (K : Type) where
  f0 : Mat K
  f1 : Mat K
  f2 : Mat K

/-- rp_hooi.py:36-39: one mode of `init_factors` (`rng` is the draw for that mode) -/
def initFactor (la : LinAlg K) (rng : Rng K) (n r : ℕ) (orthogonal : Bool) : Mat K :=
  if orthogonal then (la.qrM ⟨n, r, rng n r⟩).1 else ⟨n, r, rng n r⟩

/-- rp_hooi.py:32-40 `init_factors` -/
def initFactors (la : LinAlg K) (rng : ℕ → Rng K) (shape rank : ℕ × ℕ × ℕ) (orthogonal : Bool) :
    Fac K :=
  ⟨initFactor la (rng 0) shape.1 rank.1 orthogonal,
   initFactor la (rng 1) shape.2.1 rank.2.1 orthogonal,
   initFactor la (rng 2) shape.2.2 rank.2.2 orthogonal⟩

/-- rp_hooi.py:235-236: `factors_list[i][:n_rows] = init_factors_list[i]`. Broadcasting a single
row or column is refused. -/
def placeRows (F init : Mat K) : PyM (Mat K) :=
  if h : init.cols = F.cols then
    if init.rows ≤ F.rows then
      .ok ⟨F.rows, F.cols, Matrix.of fun i j =>
        if hi : (i : ℕ) < init.rows then init.val ⟨i, hi⟩ (Fin.cast h.symm j) else F.val i j⟩
    else if init.rows = 1 then .error .outOfModel
    else .error .valueError
  else if init.cols = 1 then .error .outOfModel
  else .error .valueError

/-- rp_hooi.py:233-236 -/
def placeInit (f : Fac K) (init : Option (Fac K)) : PyM (Fac K) :=
  match init with
  | none => .ok f
  | some g => do
    let f0 ← placeRows f.f0 g.f0
    let f1 ← placeRows f.f1 g.f1
    let f2 ← placeRows f.f2 g.f2
    pure ⟨f0, f1, f2⟩

section
variable [CommRing K]

/-- `t.reshape(d0, c)` for a `(d0, d1, d2)` array (with `d0 = 0` numpy accepts any `c`: refused) -/
def Ten.reshapeTo (t : Ten K) (c : ℕ) : PyM (Mat K) :=
  if h : c = t.d1 * t.d2 then .ok ⟨t.d0, c, t.reshape2.val.submatrix id (Fin.cast h)⟩
  else if t.d0 = 0 then .error .outOfModel
  else .error .valueError

/-- Parameters of the alternating factorisations that stay fixed. `rsvdRng i mode` is the random
sketch drawn in sweep `i` for `mode`; `initRng mode` the draw of `init_factors`. -/
structure HooiPar (K : Type) where
  la : LinAlg K
  initRng : ℕ → Rng K
  rsvdRng : ℕ → ℕ → Rng K
  rank : ℕ × ℕ × ℕ
  nPower : ℕ
  os : ℕ
  parallel : Bool

/-- rp_hooi.py:113-114 = 154-155 = 251-252: `random_svd` of the projected unfolding and reversal of
the columns -/
def leadingCols (p : HooiPar K) (i mode rank : ℕ) (x : Mat K) : Mat K :=
  (randomSvd p.la (p.rsvdRng i mode) x rank p.nPower p.os).1.revCols

/-- rp_hooi.py:112 = 153 = 248: the tensor contracted with the two other factors, as a matrix -/
def projected (inds : List Ind3) (vals : List K) (shape : ℕ × ℕ × ℕ) (u v : Mat K) (mu mv ru rv : ℕ) :
    PyM (Mat K) := do
  let t ← tensordot2 inds vals (tri shape) u v ((mu : ℤ), (mv : ℤ))
  t.reshapeTo (ru * rv)

/-- rp_hooi.py:249-250: only `ga_satf`, and only for mode 2 -/
def attMul (att : Option (Mat K)) (x : Mat K) : PyM (Mat K) :=
  match att with
  | none => .ok x
  | some a => a.T.dot x

/-- rp_hooi.py:109-114 = 151-155 = 245-252: the inner loop body for one mode (`att` is the
attention matrix in `ga_satf`, absent in the other functions) -/
def modeStep (p : HooiPar K) (att : Option (Mat K)) (inds : List Ind3) (vals : List K)
    (shape : ℕ × ℕ × ℕ) (i mode : ℕ) (f : Fac K) : PyM (Fac K) :=
  match mode with
  | 0 => do
    let x ← projected inds vals shape f.f1 f.f2 1 2 p.rank.2.1 p.rank.2.2
    pure { f with f0 := leadingCols p i 0 p.rank.1 x }
  | 1 => do
    let x ← projected inds vals shape f.f0 f.f2 0 2 p.rank.1 p.rank.2.2
    pure { f with f1 := leadingCols p i 1 p.rank.2.1 x }
  | _ => do
    let x ← projected inds vals shape f.f0 f.f1 0 1 p.rank.1 p.rank.2.1
    let x ← attMul att x
    pure { f with f2 := leadingCols p i 2 p.rank.2.2 x }

/-- `core_function` (rp_hooi.py:105) -/
def coreFunction (par : Bool) (inds : List Ind3) (vals : List K) (u v w : Mat K) : PyM (Ten K) :=
  if par then constructCoreParallel inds vals u v w else constructCore inds vals u v w

/-- rp_hooi.py:244-253: one sweep of `ga_satf` (number `i`) -/
def gaSatfSweep (p : HooiPar K) (inds : List Ind3) (vals : List K) (shape : ℕ × ℕ × ℕ) (att : Mat K)
    (i : ℕ) (f : Fac K) : PyM (Fac K × Ten K) := do
  let aw ← att.dot f.f2
  let f ← modeStep p (some att) inds vals shape i 0 { f with f2 := aw }
  let f ← modeStep p (some att) inds vals shape i 1 f
  let f ← modeStep p (some att) inds vals shape i 2 f
  let aw ← att.dot f.f2
  let core ← coreFunction p.parallel inds vals f.f0 f.f1 aw
  pure (f, core)

/-- rp_hooi.py:109-116: one sweep of `rp_hooi` -/
def rpHooiSweep (p : HooiPar K) (inds : List Ind3) (vals : List K) (shape : ℕ × ℕ × ℕ)
    (i : ℕ) (f : Fac K) : PyM (Fac K × Ten K) := do
  let f ← modeStep p none inds vals shape i 0 f
  let f ← modeStep p none inds vals shape i 1 f
  let f ← modeStep p none inds vals shape i 2 f
  let core ← coreFunction p.parallel inds vals f.f0 f.f1 f.f2
  pure (f, core)

/-- rp_hooi.py:149-157: one sweep of `tucker2`; the identity mode (0, 1 or 2) is skipped -/
def tucker2Sweep (p : HooiPar K) (inds : List Ind3) (vals : List K) (shape : ℕ × ℕ × ℕ) (im : ℕ)
    (i : ℕ) (f : Fac K) : PyM (Fac K × Ten K) := do
  let f ← ([0, 1, 2].filter fun m => decide (m ≠ im)).foldlM
    (fun f m => modeStep p none inds vals shape i m f) f
  let core ← coreFunction p.parallel inds vals f.f0 f.f1 f.f2
  pure (f, core)

end

/-- What the loop carries: factors and the last core (`np.empty(0)` before the first sweep). -/
abbrev HooiState (K : Type) := Fac K × Option (Ten K)

/-- The loop `for i in range(n_iter)` of rp_hooi.py:107-121, 147-163 and 242-263: `n` iterations are left,
the next one has number `i`. After each sweep `stop` decides, reading and writing the loop's own
variables (`g_norm_old`) or the state of the callback. -/
def hooiLoop {σ τ : Type} (sweep : ℕ → σ → PyM σ) (stop : σ → τ → PyM (Bool × τ)) :
    ℕ → ℕ → σ → τ → PyM (σ × τ)
  | 0, _, s, t => .ok (s, t)
  | n + 1, i, s, t => do
    let s' ← sweep i s
    let r ← stop s' t
    if r.1 then pure (s', r.2) else hooiLoop sweep stop n (i + 1) s' r.2

/-- `EPS = 1e-8` (rp_hooi.py:11) -/
def hooiEps [Field K] : K := 1 / 10 ^ 8

/-- rp_hooi.py:42-47 `_core_grew_bool` -/
def coreGrewBool [Field K] [LinearOrder K] (growth tol : K) : Bool :=
  if growth < tol then false else true

/-- rp_hooi.py:256-260 (= 117-121 = 159-163): the relative growth test; `normOf` is
`np.linalg.norm` of a 3-way array. -/
def growthStop [Field K] [LinearOrder K] (normOf : Ten K → K) (tol : K) (s : Fac K × Ten K)
    (old : K) : Bool × K :=
  let new := normOf s.2
  let growth := (new - old) / (new + hooiEps)
  (!(coreGrewBool growth tol), new)

/-- The optional callback: a function of its own state (a Python closure may keep state), the
factors and the core; it may raise. -/
abbrev ExitCallback (K τ : Type) := τ → Fac K → Ten K → PyM (Bool × τ)

/-- rp_hooi.py:254-263: the decision after a sweep of `ga_satf` -/
def gaSatfStop [Field K] [LinearOrder K] {τ : Type} (normOf : Ten K → K) (tol : K) (force : Bool)
    (cb : Option (ExitCallback K τ)) (s : Fac K × Ten K) (st : K × τ) : PyM (Bool × K × τ) :=
  if force then .ok (false, st)
  else match cb with
    | none => let r := growthStop normOf tol s st.1
              .ok (r.1, r.2, st.2)
    | some f => do
      let r ← f st.2 s.1 s.2
      pure (r.1, st.1, r.2)

/-- a sweep as a step of the loop state -/
def onState {κ : Type} (sweep : ℕ → Fac K → PyM (Fac K × κ)) (i : ℕ) (s : Fac K × Option κ) :
    PyM (Fac K × Option κ) := do
  let r ← sweep i s.1
  pure (r.1, some r.2)

/-- the decision on the loop state (after a sweep the core is present) -/
def stopOn {κ τ : Type} (stop : Fac K × κ → τ → PyM (Bool × τ)) (s : Fac K × Option κ) (t : τ) :
    PyM (Bool × τ) :=
  match s.2 with
  | some g => stop (s.1, g) t
  | none => .error .outOfModel

/-- rp_hooi.py:167-264 `ga_satf`; the state of the callback is returned too. -/
def gaSatf [Field K] [LinearOrder K] {τ : Type} (p : HooiPar K) (normOf : Ten K → K)
    (inds : List Ind3) (vals : List K) (shape : ℕ × ℕ × ℕ) (att : Mat K) (nIter : ℕ) (tol : K)
    (cb : Option (ExitCallback K τ)) (cb0 : τ) (init : Option (Fac K)) (force : Bool) :
    PyM (HooiState K × τ) := do
  checkParams (tri shape) (triZ p.rank)
  let f ← placeInit (initFactors p.la p.initRng shape p.rank true) init
  let r ← hooiLoop (onState (gaSatfSweep p inds vals shape att))
    (stopOn (gaSatfStop normOf tol force cb)) nIter 0 (f, none) (0, cb0)
  pure (r.1, r.2.2)

/-- rp_hooi.py:49-122 `rp_hooi` -/
def rpHooi [Field K] [LinearOrder K] (p : HooiPar K) (normOf : Ten K → K)
    (inds : List Ind3) (vals : List K) (shape : ℕ × ℕ × ℕ) (nIter : ℕ) (tol : K) :
    PyM (HooiState K) := do
  checkParams (tri shape) (triZ p.rank)
  let f := initFactors p.la p.initRng shape p.rank true
  let r ← hooiLoop (onState (rpHooiSweep p inds vals shape))
    (stopOn fun s old => .ok (growthStop normOf tol s old)) nIter 0 (f, none) 0
  pure r.1

/-- `factors_list[identity_mode] = np.eye(rank[identity_mode])` (rp_hooi.py:141) -/
def setIdentity [Field K] (f : Fac K) (rank : ℕ × ℕ × ℕ) (im : ℕ) : Fac K :=
  match im with
  | 0 => { f with f0 := Mat.eye rank.1 }
  | 1 => { f with f1 := Mat.eye rank.2.1 }
  | _ => { f with f2 := Mat.eye rank.2.2 }

/-- `factors_list[mode_a], factors_list[mode_b]` for the two modes other than `im` -/
def otherFactors (f : Fac K) (im : ℕ) : Mat K × Mat K :=
  match im with
  | 0 => (f.f1, f.f2)
  | 1 => (f.f0, f.f2)
  | _ => (f.f0, f.f1)

/-- rp_hooi.py:124-165 `tucker2`; an identity mode other than 0, 1, 2 is refused. -/
def tucker2 [Field K] [LinearOrder K] (p : HooiPar K) (normOf : Ten K → K)
    (inds : List Ind3) (vals : List K) (shape : ℕ × ℕ × ℕ) (im : ℕ) (nIter : ℕ) (tol : K) :
    PyM (Mat K × Mat K × Option (Ten K)) :=
  if im > 2 then .error .outOfModel
  else do
    checkParams (tri shape) (triZ p.rank)
    let f := setIdentity (initFactors p.la p.initRng shape p.rank true) p.rank im
    let r ← hooiLoop (onState (tucker2Sweep p inds vals shape im))
      (stopOn fun s old => .ok (growthStop normOf tol s old)) nIter 0 (f, none) 0
    pure ((otherFactors r.1.1 im).1, (otherFactors r.1.1 im).2, r.1.2)

end DynCF
