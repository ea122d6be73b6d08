/-
Interleaved execution of `construct_core_parallel` (tensor_operations.py:97-130): the iterations of
the `prange` loop are distributed over threads; each `core[i, j, k] += x` is a separate read and a
separate write of shared memory; threads interleave arbitrarily. Reads of `inds`, `vals`, `u1`, `u2`,
`u3` are not steps because nobody writes them.
-/
import Verif.Spec.Tensor

namespace DynCF

/-- An atomic access of shared memory: read a cell into the thread's register, or write register
plus `x` into a cell. -/
inductive Act (C K : Type)
  | load (c : C)
  | store (c : C) (x : K)

/-- Thread state: register and remaining actions. -/
structure Th (C K : Type) where
  reg : K
  todo : List (Act C K)

/-- Shared memory and threads. -/
structure Conf (ι C K : Type) where
  mem : C → K
  th : ι → Th C K

variable {ι C K : Type} [DecidableEq ι] [DecidableEq C] [Add K]

/-- effect of one action on memory and register -/
def Act.run (a : Act C K) (s : (C → K) × K) : (C → K) × K :=
  match a with
  | .load c => (s.1, s.1 c)
  | .store c x => (fun c' => if c' = c then s.2 + x else s.1 c', s.2)

/-- Thread `t` executes its next action (nothing if it has finished). -/
def Conf.step (g : Conf ι C K) (t : ι) : Conf ι C K :=
  match (g.th t).todo with
  | [] => g
  | a :: rest =>
    let s := a.run (g.mem, (g.th t).reg)
    ⟨s.1, fun t' => if t' = t then ⟨s.2, rest⟩ else g.th t'⟩

/-- A schedule: which thread makes the next step. -/
def Conf.exec (g : Conf ι C K) (sched : List ι) : Conf ι C K := sched.foldl Conf.step g

variable [Mul K]

/-- tensor_operations.py:115-129: the memory accesses of iteration `i`, in program order -/
def iterActs {n0 n1 n2 r1 r2 r3 : ℕ} (es : List (Ent n0 n1 n2 K)) (U1 : Matrix (Fin n0) (Fin r1) K)
    (U2 : Matrix (Fin n1) (Fin r2) K) (U3 : Matrix (Fin n2) (Fin r3) K) (i : Fin r1) :
    List (Act (Fin r1 × Fin r2 × Fin r3) K) :=
  es.flatMap fun e => (List.finRange r2).flatMap fun j => (List.finRange r3).flatMap fun k =>
    [.load (i, j, k), .store (i, j, k) (e.2 * U1 e.1.1 i * U2 e.1.2.1 j * U3 e.1.2.2 k)]

/-- Start of the parallel loop: zero core; thread `t` will execute the iterations `asg t`. -/
def parallelStart [Zero K] {n0 n1 n2 r1 r2 r3 : ℕ} (es : List (Ent n0 n1 n2 K))
    (U1 : Matrix (Fin n0) (Fin r1) K) (U2 : Matrix (Fin n1) (Fin r2) K)
    (U3 : Matrix (Fin n2) (Fin r3) K) (asg : ι → List (Fin r1)) (reg0 : ι → K) :
    Conf ι (Fin r1 × Fin r2 × Fin r3) K :=
  ⟨fun _ => 0, fun t => ⟨reg0 t, (asg t).flatMap (iterActs es U1 U2 U3)⟩⟩

/-- every iteration is given to exactly one thread, once -/
def IsAssignment {n : ℕ} (asg : ι → List (Fin n)) : Prop :=
  (∀ t, (asg t).Nodup) ∧ ∀ i, ∃ t, i ∈ asg t ∧ ∀ t', i ∈ asg t' → t' = t

end DynCF
