/-
Property C84 of the random recommender (`models/random_rec.py`).
-/
import Verif.Model.RandomRec
import Verif.Props.PsiClass

set_option linter.unusedSectionVars false

namespace DynCF
variable {K : Type}

/-- **C84** Training on a non-empty table: sizes are the numbers of distinct users and items, ids are
numbered by first appearance and the history lists the mapped rows in order. -/
theorem C84_train (data : List (Row K)) (hne : data ≠ []) :
    ∃ v us is, randomTrain data = .ok v ∧ FirstAppearance (data.map Row.user) us ∧
      FirstAppearance (data.map Row.item) is ∧ ViewOk v us is ∧
      List.Forall₂ (fun (x : Row K) (p : ℤ × ℤ) => ∃ a b : ℕ, p = ((a : ℤ), (b : ℤ)) ∧
        us[a]? = some x.user ∧ is[b]? = some x.item) data v.history := by
  obtain ⟨df', m, us, is, he, hfu, hu, hfi, hi, hrel⟩ := C01_training_mapping data
  have hmem : ∀ x ∈ df', (∃ k : ℕ, x.user = k ∧ k < us.length) ∧ ∃ k : ℕ, x.item = k ∧ k < is.length := by
    intro x hx
    obtain ⟨y, hy, -, ⟨k, h1, h2⟩, ⟨k', h3, h4⟩⟩ := forall₂_mem_right hrel hx
    exact ⟨⟨k, h1, (List.getElem?_eq_some_iff.1 h2).1⟩, ⟨k', h3, (List.getElem?_eq_some_iff.1 h4).1⟩⟩
  have hd0 : inferDim (df'.map Row.user) = us.length := by
    refine inferDim_eq ?_ ?_
    · intro x hx
      obtain ⟨y, hy, rfl⟩ := List.mem_map.1 hx
      exact (hmem y hy).1
    · intro k hk
      have : us[k] ∈ data.map Row.user := (hfu.mem _).1 (List.getElem_mem hk)
      obtain ⟨y, hy, hyk⟩ := List.mem_map.1 this
      obtain ⟨z, hz, -, ⟨k', h1, h2⟩, -⟩ := forall₂_mem_left hrel hy
      have hk' : k' = k := by
        obtain ⟨hlt, h2⟩ := List.getElem?_eq_some_iff.1 h2
        exact (List.Nodup.getElem_inj_iff hfu.nodup).1 (h2.trans hyk)
      exact List.mem_map.2 ⟨z, hz, by rw [h1, hk']⟩
  have hd1 : inferDim (df'.map Row.item) = is.length := by
    refine inferDim_eq ?_ ?_
    · intro x hx
      obtain ⟨y, hy, rfl⟩ := List.mem_map.1 hx
      exact (hmem y hy).2
    · intro k hk
      have : is[k] ∈ data.map Row.item := (hfi.mem _).1 (List.getElem_mem hk)
      obtain ⟨y, hy, hyk⟩ := List.mem_map.1 this
      obtain ⟨z, hz, -, -, ⟨k', h1, h2⟩⟩ := forall₂_mem_left hrel hy
      have hk' : k' = k := by
        obtain ⟨hlt, h2⟩ := List.getElem?_eq_some_iff.1 h2
        exact (List.Nodup.getElem_inj_iff hfi.nodup).1 (h2.trans hyk)
      exact List.mem_map.2 ⟨z, hz, by rw [h1, hk']⟩
  refine ⟨⟨inferDim (df'.map Row.user), inferDim (df'.map Row.item), m, df'.map fun r => (r.user, r.item)⟩, us, is, ?_, hfu, hfi, ⟨hu, hi, hd0, hd1, ?_⟩, ?_⟩
  · unfold randomTrain
    rw [he, except_bind_ok, if_neg]
    · rfl
    · intro h
      have : df' = [] := by simpa using h
      subst this
      cases hrel
      exact hne rfl
  · intro p hp
    obtain ⟨y, hy, rfl⟩ := List.mem_map.1 hp
    obtain ⟨⟨k, h1, h2⟩, ⟨k', h3, h4⟩⟩ := hmem y hy
    dsimp only
    rw [hd0, hd1, h1, h3]
    omega
  · rw [List.forall₂_map_right_iff]
    refine hrel.imp ?_
    rintro x y ⟨-, ⟨k, h1, h2⟩, ⟨k', h3, h4⟩⟩
    exact ⟨k, k', by rw [h1, h3], h2, h4⟩

variable [LinearOrder K] [Inhabited K]

/-- **C84** Whatever is drawn: a trained random recommender over at least two items returns one row per
requested user with `min k #items` distinct items of the catalogue, none of which the user has in the
training table. -/
theorem C84_recommend (data : List (Row K)) (v : RecView) (hv : randomTrain data = .ok v)
    (h2 : 2 ≤ v.nItems) (argp : ArgPart K) (hargp : ArgPartOk argp) (draw : ℕ → Fin v.nItems → K)
    (users : List ℤ) (k : ℕ) (hk : 1 ≤ k) (res : List (List ℤ))
    (hres : randomRecommend argp v draw users k true false = .ok res) :
    res.length = users.length ∧ ∀ (i : ℕ) (u : ℤ) (row : List ℤ), users[i]? = some u → res[i]? = some row →
      row.length = min k v.nItems ∧ row.Nodup ∧
      (∀ x ∈ row, ∃ t ∈ data, t.item = x) ∧ ∀ t ∈ data, t.user = u → t.item ∉ row := by
  have hne : data ≠ [] := by
    rintro rfl
    obtain ⟨df', m, us, is, he, -, -, -, -, hrel⟩ := C01_training_mapping ([] : List (Row K))
    cases hrel
    unfold randomTrain at hv
    rw [he] at hv
    cases hv
  obtain ⟨v', us, is, hv', hfu, hfi, hview, hhist⟩ := C84_train data hne
  rw [hv] at hv'
  cases hv'
  have hlen : v.nItems = is.length := hview.nItems
  have hset : RecSetting argp v us is (fun i _ => .ok (List.ofFn (draw i))) (fun i _ => List.ofFn (draw i)) k true :=
    ⟨hargp, hview, fun i a _ => ⟨rfl, by simp⟩, hk, by omega, fun _ => by omega⟩
  obtain ⟨hl, hr⟩ := C18_k_distinct_items hset true false users res hres
  refine ⟨hl, fun i u row hu hrow => ?_⟩
  obtain ⟨a1, a2, a3⟩ := hr row (List.mem_of_getElem? hrow)
  refine ⟨by rw [a1, hlen], a2, ?_, ?_⟩
  · intro x hx
    obtain ⟨j, hj, hs⟩ := a3 x hx
    simp only [Bool.false_eq_true, if_false] at hs
    have := (hfi.mem x).1 (List.mem_of_getElem? hs)
    simpa using this
  · intro t ht htu hx
    obtain ⟨p, hp, a, b, rfl, ha, hb⟩ := forall₂_mem_left hhist ht
    exact C17_filtered hset true false users res hres i u row hu hrow _ hx b
      ⟨(List.getElem?_eq_some_iff.1 hb).1, by simpa using hb⟩ ⟨a, by rw [ha, htu], hp⟩

/-- Two users, three items; user 7 has seen item 1. -/
example : ∃ v, randomTrain [(⟨7, 1, 1, 0, 0⟩ : Row ℚ), ⟨8, 2, 1, 0, 0⟩, ⟨8, 3, 1, 0, 0⟩] = .ok v ∧
    v.nUsers = 2 ∧ v.nItems = 3 ∧ v.history = [(0, 0), (1, 1), (1, 2)] := ⟨_, rfl, rfl, rfl, rfl⟩

end DynCF
