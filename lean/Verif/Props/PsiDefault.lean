/-
C181: the two schemes of `PSI` with new embeddings do the same on chunks whose rows all have a known user or a known item,
and the error of the default scheme with zero embeddings over such chunks.
-/
import Verif.Props.PsiGrow

namespace DynCF
open Matrix

/-! ### Specification -/

/-- Every row of a chunk has its user or its item from a row of the training table or of an earlier chunk. -/
def KnownSide {K : Type} (train : List (Row K)) (chunks : List (List (Row K))) : Prop :=
  ∀ (t : ℕ) (c : List (Row K)), chunks[t]? = some c → ∀ x ∈ c,
    ∃ y ∈ train ++ (chunks.take t).flatten, y.user = x.user ∨ y.item = x.item

section
variable {K : Type} [Field K] [LinearOrder K]

/-- the steps other than the one for new pairs do not read the flag -/
theorem psiRound_flag (env : PSIEnv K) (cfg : PSICfg) (b : Bool) (l : PsiLoop K) (mode : PsiMode) (hm : mode ≠ .new) :
    psiRound env { cfg with integrator := b } l mode = psiRound env cfg l mode := by
  unfold psiRound updateFactorsByMode
  cases mode with
  | new => exact absurd rfl hm
  | _ => rfl

theorem psiOld_flag (env : PSIEnv K) (cfg : PSICfg) (b : Bool) (st : PSIState K) (data : List (Row K)) :
    updateFactorsByMode env { cfg with integrator := b } st data .old = updateFactorsByMode env cfg st data .old := rfl

/-- without new pairs the first round does nothing -/
theorem psiRound_new_empty (env : PSIEnv K) (cfg : PSICfg) {st : PSIState K} (data : List (Row K))
    (h : ∀ x ∈ data, divideRow st.maps .new x = false) :
    psiRound env cfg ⟨st, data, []⟩ .new = .ok ⟨st, data, [(.new, [])]⟩ := by
  have h1 : maskSelect data (getDivideDfMask data st.maps .new) = [] := by
    unfold getDivideDfMask
    induction data with
    | nil => rfl
    | cons a l ih =>
      have := ih fun x hx => h x (List.mem_cons_of_mem _ hx)
      simpa [maskSelect, h a (List.mem_cons_self ..)] using this
  have h2 : maskSelect data ((getDivideDfMask data st.maps .new).map fun b => !b) = data := by
    unfold getDivideDfMask
    clear h1
    induction data with
    | nil => rfl
    | cons a l ih =>
      have := ih fun x hx => h x (List.mem_cons_of_mem _ hx)
      simpa [maskSelect, h a (List.mem_cons_self ..)] using this
  unfold psiRound
  dsimp only
  rw [h1, h2]
  rfl

variable [IsStrictOrderedRing K]

/-- **C181, one update.** With zero or random embeddings, a chunk whose rows all have a user or an item of the rows seen so
far is treated in the same way by the default scheme and by the integrator scheme: the same object or the same error. -/
theorem C181_update (env : PSIEnv K) (cfg : PSICfg) (hinit : cfg.init ≠ none) {st : PSIState K} {us is : List ℤ} {r : ℕ}
    {seen : List (Row K)} (h : PsiInv st us is r seen) (data : List (Row K))
    (hk : ∀ x ∈ data, ∃ y ∈ seen, y.user = x.user ∨ y.item = x.item) :
    psiUpdate env { cfg with integrator := false } st data = psiUpdate env { cfg with integrator := true } st data := by
  have hnew : ∀ x ∈ data, divideRow st.maps .new x = false := by
    intro x hx
    obtain ⟨y, hy, he⟩ := hk x hx
    have hkn : x.user ∈ us ∨ x.item ∈ is := by
      rcases he with he | he
      · exact .inl ((h.users _).2 ⟨y, hy, he⟩)
      · exact .inr ((h.items _).2 ⟨y, hy, he⟩)
    rw [divideRow_eq h.shape.user h.shape.item]
    simp only [stepClass]
    rcases hkn with hkn | hkn <;> simp [hkn]
  unfold psiUpdate
  suffices e : psiRounds env { cfg with integrator := false } st data =
      psiRounds env { cfg with integrator := true } st data by rw [e]
  unfold psiRounds
  obtain ⟨e, he⟩ := Option.ne_none_iff_exists'.1 hinit
  obtain ⟨rank, nPower, os, init, b⟩ := cfg
  dsimp only at he
  subst he
  dsimp only
  unfold psiRoundsInit psiRoundsIntegrator
  rw [psiRound_new_empty env _ data hnew, except_bind_ok]
  simp only [List.foldlM_cons, psiRound_new_empty env _ data hnew, except_bind_ok]
  have f1 := fun l => psiRound_flag env ⟨rank, nPower, os, some e, true⟩ false l .newUsers (by decide)
  have f2 := fun l => psiRound_flag env ⟨rank, nPower, os, some e, true⟩ false l .newItems (by decide)
  have f3 := fun st data => psiOld_flag env ⟨rank, nPower, os, some e, true⟩ false st data
  dsimp only at f1 f2 f3
  simp only [f1, f2, f3, List.foldlM_nil]

theorem psiUpdates_same (env : PSIEnv K) (hsort : ArgSortOk env.argsort) (cfg : PSICfg) (hinit : cfg.init ≠ none) {r : ℕ}
    (chunks : List (List (Row K))) : ∀ (seen : List (Row K)) (st : PSIState K) (us is : List ℤ),
      PsiInv st us is r seen → KnownSide seen chunks →
      chunks.foldlM (psiUpdate env { cfg with integrator := false }) st =
        chunks.foldlM (psiUpdate env { cfg with integrator := true }) st := by
  induction chunks with
  | nil => intros; rfl
  | cons c chunks ih =>
    intro seen st us is h hk
    rw [List.foldlM_cons, List.foldlM_cons]
    have h0 := C181_update env cfg hinit h c (by
      intro x hx
      simpa using hk 0 c rfl x hx)
    rw [h0]
    rcases C31_update env hsort { cfg with integrator := true } h c with ⟨st', eu, ei, e, hinv, -⟩ | ⟨-, hc, -⟩ | ⟨-, hc, -⟩
    · rw [e, except_bind_ok, except_bind_ok]
      refine ih (seen ++ c) st' _ _ hinv fun t c' hc' x hx => ?_
      have := hk (t + 1) c' hc' x hx
      simpa [List.append_assoc] using this
    · exact absurd hc hinit
    · exact absurd hc hinit

/-- **C181, a run.** Over any number of such chunks the two schemes give the same object or the same error. -/
theorem C181_run (env : PSIEnv K) (hsort : ArgSortOk env.argsort) (cfg : PSICfg) (hinit : cfg.init ≠ none)
    (train : List (Row K)) (chunks : List (List (Row K))) (hk : KnownSide train chunks) :
    psiRun env { cfg with integrator := false } train chunks =
      psiRun env { cfg with integrator := true } train chunks := by
  unfold psiRun
  show (svdTrain env cfg train >>= _) = (svdTrain env cfg train >>= _)
  obtain ⟨us, is, -, -, ⟨st, e, hinv, -⟩ | ⟨e, -⟩⟩ := psiTrain_eq env cfg train
  · rw [e, except_bind_ok, except_bind_ok]
    exact psiUpdates_same env hsort cfg hinit chunks train st us is hinv hk
  · rw [e]; rfl

end

/-- **C181, the error.** In the default scheme with zero embeddings training and any number of such chunks succeed, the
known users and items are those of the rows seen, and the distance of the scores to the table of all rows is at most the
distance of the training table to any matrix of the rank plus the norms of the chunks; hence at most the distance of the
table of all rows to any matrix of the rank plus twice the norms of the chunks. -/
theorem C181_error (env : PSIEnv ℝ) (hqr : QrAlways env.la) (hsort : ArgSortOk env.argsort) (cfg : PSICfg)
    (hz : cfg.init = some .zero) (hint : cfg.integrator = false) (train : List (Row ℝ)) (us is : List ℤ)
    (hu : FirstAppearance (train.map Row.user) us) (hi : FirstAppearance (train.map Row.item) is)
    (hr : 1 ≤ cfg.rank ∧ cfg.rank < us.length ∧ cfg.rank < is.length)
    (hsvd : SvdsOk env.la cfg.rank (interactionMatrix us is train)) (chunks : List (List (Row ℝ)))
    (hk : KnownSide train chunks) :
    ∃ (st : PSIState ℝ) (us' is' : List ℤ) (B : Matrix (Fin us'.length) (Fin is'.length) ℝ),
      psiRun env cfg train chunks = .ok st ∧ us <+: us' ∧ is <+: is' ∧ us'.Nodup ∧ is'.Nodup ∧
      (∀ u, u ∈ us' ↔ ∃ x ∈ train ++ chunks.flatten, x.user = u) ∧
      (∀ i, i ∈ is' ↔ ∃ x ∈ train ++ chunks.flatten, x.item = i) ∧
      Represents st.maps.user us' ∧ Represents st.maps.item is' ∧
      (∀ a : Fin us'.length, psiScore st ((a : ℕ) : ℤ) = .ok (List.ofFn fun j => B a j)) ∧
      (∀ X : Matrix (Fin us.length) (Fin is.length) ℝ, X.rank ≤ cfg.rank →
        fro (interactionMatrix us' is' (train ++ chunks.flatten) - B) ≤
          fro (interactionMatrix us is train - X) + (chunks.map fun c => fro (interactionMatrix us' is' c)).sum) ∧
      (∀ X : Matrix (Fin us'.length) (Fin is'.length) ℝ, X.rank ≤ cfg.rank →
        fro (interactionMatrix us' is' (train ++ chunks.flatten) - B) ≤
          fro (interactionMatrix us' is' (train ++ chunks.flatten) - X) +
            2 * (chunks.map fun c => fro (interactionMatrix us' is' c)).sum) ∧
      fro B ≤ fro (interactionMatrix us is train) + (chunks.map fun c => fro (interactionMatrix us' is' c)).sum := by
  have e := C181_run env hsort cfg (by rw [hz]; simp) train chunks hk
  have e0 : ({ cfg with integrator := false } : PSICfg) = cfg := by rw [← hint]
  rw [e0] at e
  rw [e]
  exact C170_run env hqr hsort { cfg with integrator := true } hz rfl train us is hu hi hr hsvd chunks

/-! ### Examples -/

/-- A new user with a known item, then a known user (new before) with a new item; but not a new user with a new item. -/
example : KnownSide psiExTrain [[⟨12, 20, 1, 3, 1⟩], [⟨12, 25, 1, 4, 2⟩]] ∧ ¬ KnownSide psiExTrain [psiExChunk] := by
  constructor
  · intro t c hc x hx
    match t, hc with
    | 0, hc =>
      cases hc
      obtain rfl := List.mem_singleton.1 hx
      exact ⟨⟨10, 20, 1, 0, 0⟩, by simp [psiExTrain], .inr rfl⟩
    | 1, hc =>
      cases hc
      obtain rfl := List.mem_singleton.1 hx
      exact ⟨⟨12, 20, 1, 3, 1⟩, by simp, .inl rfl⟩
  · intro h
    obtain ⟨y, hy, he⟩ := h 0 _ rfl ⟨12, 22, 1, 3, 1⟩ (by simp [psiExChunk])
    simp [psiExTrain] at hy
    rcases hy with rfl | rfl | rfl <;> simp at he

/-- With random embeddings the two schemes agree on these chunks, and the run completes. -/
example (env : PSIEnv ℚ) (hsort : ArgSortOk env.argsort) :
    ∃ st, psiRun env (psiExCfg (some .random) false) psiExTrain [[⟨12, 20, 1, 3, 1⟩]] = .ok st ∧
      psiRun env (psiExCfg (some .random) true) psiExTrain [[⟨12, 20, 1, 3, 1⟩]] = .ok st := by
  have hk : KnownSide psiExTrain [[(⟨12, 20, 1, 3, 1⟩ : Row ℚ)]] := by
    intro t c hc x hx
    match t, hc with
    | 0, hc =>
      cases hc
      obtain rfl := List.mem_singleton.1 hx
      exact ⟨⟨10, 20, 1, 0, 0⟩, by simp [psiExTrain], .inr rfl⟩
  have e := C181_run env hsort (psiExCfg (some .random) false) (by simp [psiExCfg]) psiExTrain _ hk
  obtain ⟨st, us, is, e0, hinv, -⟩ := psiEx_trained env (some .random) false
  rcases C31_update env hsort (psiExCfg (some .random) false) hinv [⟨12, 20, 1, 3, 1⟩] with
    ⟨st', -, -, e', -⟩ | ⟨-, hc, -⟩ | ⟨-, hc, -⟩
  · have e1 : psiRun env (psiExCfg (some .random) false) psiExTrain [[⟨12, 20, 1, 3, 1⟩]] = .ok st' := by
      unfold psiRun
      rw [e0, except_bind_ok, List.foldlM_cons, e']
      rfl
    exact ⟨st', e1, e.symm.trans e1⟩
  · cases hc
  · cases hc

end DynCF
