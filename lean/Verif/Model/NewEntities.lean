/- Model of the counting in `plot_new_entities_dynamics`
(`/repo/source/experiments/prepare_graphs.py:143-200`); the plotting itself is not modelled. -/
import Verif.Model.DataPreparation
import Mathlib.Data.Finset.Basic
import Mathlib.Data.Finset.Card

namespace DynCF
variable {K : Type}

/-- `users_set`, `items_set` and the four lists. -/
structure NewSt where
  users : Finset ℤ
  items : Finset ℤ
  nNewUsers : List ℕ
  nNewItems : List ℕ
  nNewUsersNi : List ℕ
  nNewItemsNu : List ℕ
  deriving DecidableEq

/-- prepare_graphs.py:164-184: one chunk. -/
def newStep (st : NewSt) (chunk : List (Row K)) : NewSt :=
  let mask := chunk.filter fun r => decide (r.user ∉ st.users) && decide (r.item ∉ st.items)
  let newUsers := (mask.map Row.user).toFinset
  let newItems := (mask.map Row.item).toFinset
  let users := st.users ∪ newUsers
  let items := st.items ∪ newItems
  let chunkUsers := (chunk.map Row.user).toFinset
  let newUsers2 := chunkUsers \ users
  let chunkItems := (chunk.map Row.item).toFinset
  let newItems2 := chunkItems \ items
  ⟨users ∪ newUsers2, items ∪ newItems2, st.nNewUsers ++ [newUsers2.card],
    st.nNewItems ++ [newItems2.card], st.nNewUsersNi ++ [newUsers.card],
    st.nNewItemsNu ++ [newItems.card]⟩

/-- prepare_graphs.py:156-184: the whole stream. -/
def newEntities (initial : List (Row K)) (stream : List (List (Row K))) : NewSt :=
  stream.foldl newStep
    ⟨(initial.map Row.user).toFinset, (initial.map Row.item).toFinset, [], [], [], []⟩

/-- prepare_graphs.py:187-192: the plotted lists. -/
def plottedLists (st : NewSt) (hm : ℕ) : List (List ℕ) :=
  [st.nNewUsers.take hm, st.nNewItems.take hm, st.nNewUsersNi.take hm, st.nNewItemsNu.take hm]

end DynCF
