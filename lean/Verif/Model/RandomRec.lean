/-
Model of `/repo/source/models/random_rec.py`.
-/
import Verif.Model.PsiClass

namespace DynCF
variable {K : Type}

/-- models/random_rec.py:23-28 `RandomRec.train`. `max(axis=0) + 1` of the mapped columns; an empty table
gives NaN sizes there and is refused here. The position column is not used. -/
def randomTrain (data : List (Row K)) : PyM RecView := do
  let dm ← getDfWithUpdatedIndices data
  if dm.1.isEmpty then .error .outOfModel
  else pure ⟨inferDim (dm.1.map Row.user), inferDim (dm.1.map Row.item), dm.2,
    dm.1.map fun r => (r.user, r.item)⟩

/-- models/random_rec.py:46-47, 49-74 `recommend`; `draw i` is the `i`-th array drawn by
`self.rs.randn(self.n_items)`. -/
def randomRecommend (argp : ArgPart K) (v : RecView) (draw : ℕ → Fin v.nItems → K) (users : List ℤ) (k : ℕ)
    (filterViewed internal : Bool) : PyM (List (List ℤ)) :=
  recommend true argp v (fun i _ => .ok (List.ofFn (draw i))) users k filterViewed internal

end DynCF
