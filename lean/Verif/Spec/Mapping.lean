/-
Specifications for id mappings, independent of how the model builds them.
-/
import Verif.Model.DataPreparation

namespace DynCF

/-- `ids` lists the distinct values of `l` in order of first appearance:
same values, no repetition, and `x` precedes `y` in `ids` exactly as their first
occurrences do in `l`. -/
structure FirstAppearance {α : Type} [DecidableEq α] (l ids : List α) : Prop where
  nodup : ids.Nodup
  mem : ∀ x, x ∈ ids ↔ x ∈ l
  order : ids.Pairwise (fun x y => l.idxOf x < l.idxOf y)

/-- The mapping structure `m` is exactly the one-to-one correspondence
`ids[k] ↔ k` for `k = 0, …, ids.length - 1`, in both lookup tables, and its counter is the
number of ids. -/
structure Represents {α : Type} [DecidableEq α] (m : Mapping α) (ids : List α) : Prop where
  nodup : ids.Nodup
  count : m.n = ids.length
  old2new : ∀ x (i : ℤ), m.old2new.get? x = some i ↔ ∃ k : ℕ, i = k ∧ ids[k]? = some x
  new2old : ∀ (i : ℤ) x, m.new2old.get? i = some x ↔ ∃ k : ℕ, i = k ∧ ids[k]? = some x

/-- Same row up to its user and item ids. -/
def SameRest {K : Type} (r r' : Row K) : Prop := r.rel = r'.rel ∧ r.ts = r'.ts ∧ r.day = r'.day

end DynCF
