/-
Specifications for sequential histories, deltas and cropping, independent of the model.
-/
import Verif.Model.TiData

namespace DynCF

/-- The last `n` elements of a list (all of it if shorter). -/
def lastN {α : Type} (n : ℕ) (l : List α) : List α := l.drop (l.length - n)

/-- The items user `u` interacted with, in order. -/
def itemsOf (u : ℤ) (l : List Inter) : List ℤ :=
  (l.filter fun t => decide (t.user = u)).map Inter.item

/-- The window of length `L` for a sequence of items: padding on the left, most recent last. -/
def window (L : ℕ) (items : List ℤ) : List ℤ := lastN L (List.replicate L PAD ++ items)

/-- Indicator tensor of a (possibly absent) user window: 1 at (item `i`, position `p`) iff the
window has item `i ≠ PAD` at `p`. -/
def cell (w : Option (List ℤ)) (i p : ℤ) : ℤ :=
  match w with
  | none => 0
  | some l => if i ≠ PAD ∧ 0 ≤ p ∧ l[p.toNat]? = some i then 1 else 0

/-- Value of a COO tensor at a cell: the sum of its entries there. -/
def cooAt (d : List DRow) (u i p : ℤ) : ℤ :=
  ((d.filter fun r => decide (r.user = u ∧ r.item = i ∧ r.pos = p)).map DRow.val).sum

/-- `l'` is `l` sorted by time with ties in original order. -/
def IsStableTimeSort {K : Type} (l l' : List (Row K)) : Prop :=
  l'.Pairwise (fun a b => a.ts ≤ b.ts) ∧
    ∀ t, l'.filter (fun r => decide (r.ts = t)) = l.filter (fun r => decide (r.ts = t))

/-- The rows of one user. -/
def rowsOf {K : Type} (u : ℤ) (df : List (Row K)) : List (Row K) :=
  df.filter fun r => decide (r.user = u)

end DynCF
