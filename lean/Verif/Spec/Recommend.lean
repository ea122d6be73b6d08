/- Specifications for recommendations. -/
import Verif.Model.Recommend
import Verif.Spec.Mapping

namespace DynCF
variable {K : Type}

/-- Contract of `np.argpartition(a, -k)`: a permutation of the indices such that the element at
place `n-k` is in its sorted place: everything before it is at most as large and everything after
it at least as large. Nothing is promised about the order inside the two parts. -/
def IsArgPartition [LE K] (a : List K) (k : ℕ) (p : List ℕ) : Prop :=
  p.Perm (List.range a.length) ∧
  ∀ (i j pi pj : ℕ) (x y : K), p[i]? = some pi → p[j]? = some pj → a[pi]? = some x →
    a[pj]? = some y → i ≤ a.length - k → a.length - k ≤ j → x ≤ y

/-- An `argpartition` that meets its contract on every call. -/
def ArgPartOk [LE K] (argp : ArgPart K) : Prop :=
  ∀ (a : List K) (k : ℕ), 1 ≤ k → k ≤ a.length → IsArgPartition a k (argp a k)

/-- A consistent model state: `users` and `items` are the known external ids, the mappings are the
correspondence between ids and `0..n-1`, sizes agree and the history refers to known indices. -/
structure ViewOk (v : RecView) (users items : List ℤ) : Prop where
  user : Represents v.maps.user users
  item : Represents v.maps.item items
  nUsers : v.nUsers = users.length
  nItems : v.nItems = items.length
  hist : ∀ p ∈ v.history, 0 ≤ p.1 ∧ p.1 < v.nUsers ∧ 0 ≤ p.2 ∧ p.2 < v.nItems

/-- The history records that user `u` (external id) viewed the catalogue item number `j`. -/
def Recorded (v : RecView) (users : List ℤ) (u : ℤ) (j : ℕ) : Prop :=
  ∃ a : ℕ, users[a]? = some u ∧ ((a : ℤ), (j : ℤ)) ∈ v.history

/-- How the catalogue item number `j` appears in the result: its index (internal) or its id. -/
def Shown (items : List ℤ) (internal : Bool) (j : ℕ) (x : ℤ) : Prop :=
  j < items.length ∧ if internal then x = (j : ℤ) else items[j]? = some x

/-- Every known user gets one score per catalogue item. -/
def ScoresOk (v : RecView) (score : ℕ → ℤ → PyM (List K)) (f : ℕ → ℕ → List K) : Prop :=
  ∀ i (a : ℕ), a < v.nUsers → score i (a : ℤ) = .ok (f i a) ∧ (f i a).length = v.nItems

end DynCF
