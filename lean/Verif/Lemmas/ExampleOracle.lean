/-
Oracles used by the concrete examples.
-/
import Verif.Py.LinAlg
import Mathlib.Algebra.Order.Field.Rat

namespace DynCF

/-- Routines for the examples: the values are placeholders except `inv`, which inverts unit
lower-triangular 2 × 2 matrices. -/
def exLA : LinAlg ℚ where
  qr _ := (fun _ _ => 0, fun _ _ => 0)
  svd _ := (fun _ _ => 0, fun _ => 0, fun _ _ => 0)
  svdFull _ := (fun _ _ => 0, fun _ => 0, fun _ _ => 0)
  svds _ _ := (fun _ _ => 0, fun _ => 0, fun _ _ => 0)
  inv A := fun i j => (if i = j then 2 else 0) - A i j

end DynCF
