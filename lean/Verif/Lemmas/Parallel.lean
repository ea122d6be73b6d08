/- Non-interference of threads that touch disjoint cells. -/
import Verif.Model.Parallel
import Verif.Lemmas.TensorOps

set_option linter.unusedSectionVars false
namespace DynCF
variable {ι C K : Type} [DecidableEq ι] [DecidableEq C]

/-- the cell an action touches -/
def Act.cell : Act C K → C
  | .load c => c
  | .store c _ => c

/-- run a list of actions alone -/
def runActs [Add K] (l : List (Act C K)) (s : (C → K) × K) : (C → K) × K :=
  l.foldl (fun s a => a.run s) s

section
variable [Add K]

/-- Each thread has executed a prefix of its program as if it were alone. -/
def Alone (own : ι → Set C) (mem0 : C → K) (reg0 : ι → K) (prog : ι → List (Act C K))
    (g : Conf ι C K) : Prop :=
  ∀ t, ∃ done, done ++ (g.th t).todo = prog t ∧
    (g.th t).reg = (runActs done (mem0, reg0 t)).2 ∧
    ∀ c ∈ own t, g.mem c = (runActs done (mem0, reg0 t)).1 c

theorem run_agree (S : Set C) (a : Act C K) (ha : a.cell ∈ S) (s s' : (C → K) × K)
    (h1 : s.2 = s'.2) (h2 : ∀ c ∈ S, s.1 c = s'.1 c) :
    (a.run s).2 = (a.run s').2 ∧ ∀ c ∈ S, (a.run s).1 c = (a.run s').1 c := by
  cases a with
  | load c => exact ⟨h2 c ha, h2⟩
  | store c x =>
    refine ⟨h1, ?_⟩
    intro c' hc'
    show (if c' = c then s.2 + x else s.1 c') = (if c' = c then s'.2 + x else s'.1 c')
    rw [h1, h2 c' hc']

theorem run_other (a : Act C K) (s : (C → K) × K) (c : C) (hc : c ≠ a.cell) :
    (a.run s).1 c = s.1 c := by
  cases a with
  | load c' => rfl
  | store c' x =>
    show (if c = c' then s.2 + x else s.1 c) = s.1 c
    rw [if_neg]; exact hc

theorem alone_step (own : ι → Set C) (hdis : ∀ t t' c, c ∈ own t → c ∈ own t' → t = t')
    (mem0 : C → K) (reg0 : ι → K) (prog : ι → List (Act C K))
    (hown : ∀ t, ∀ a ∈ prog t, a.cell ∈ own t) (g : Conf ι C K)
    (h : Alone own mem0 reg0 prog g) (t : ι) : Alone own mem0 reg0 prog (g.step t) := by
  unfold Conf.step
  cases hd : (g.th t).todo with
  | nil => exact h
  | cons a rest =>
    intro t'
    obtain ⟨done, h1, h2, h3⟩ := h t'
    by_cases ht : t' = t
    · subst ht
      have ha : a.cell ∈ own t' := hown t' a (by rw [← h1, hd]; simp)
      obtain ⟨r1, r2⟩ := run_agree (own t') a ha (g.mem, (g.th t').reg) _ h2 h3
      refine ⟨done ++ [a], ?_, ?_, ?_⟩
      · rw [← h1, hd]; simp
      · simp only [if_true]
        rw [r1]; simp [runActs, List.foldl_append]
      · intro c hc
        simp only
        rw [r2 c hc]; simp [runActs, List.foldl_append]
    · refine ⟨done, ?_, ?_, ?_⟩
      · simp only [if_neg ht]; exact h1
      · simp only [if_neg ht]; exact h2
      · intro c hc
        simp only
        rw [run_other]
        · exact h3 c hc
        · rintro rfl
          obtain ⟨done', h1', _⟩ := h t
          exact ht (hdis t' t a.cell hc (hown t a (by rw [← h1', hd]; simp)))

theorem alone_exec (own : ι → Set C) (hdis : ∀ t t' c, c ∈ own t → c ∈ own t' → t = t')
    (mem0 : C → K) (reg0 : ι → K) (prog : ι → List (Act C K))
    (hown : ∀ t, ∀ a ∈ prog t, a.cell ∈ own t) (sched : List ι) :
    Alone own mem0 reg0 prog (Conf.exec ⟨mem0, fun t => ⟨reg0 t, prog t⟩⟩ sched) := by
  have h0 : Alone own mem0 reg0 prog ⟨mem0, fun t => ⟨reg0 t, prog t⟩⟩ := by
    intro t; exact ⟨[], rfl, rfl, fun c _ => rfl⟩
  generalize (⟨mem0, fun t => ⟨reg0 t, prog t⟩⟩ : Conf ι C K) = g at h0
  unfold Conf.exec
  induction sched generalizing g with
  | nil => exact h0
  | cons t ts ih =>
    exact ih _ (alone_step own hdis mem0 reg0 prog hown g h0 t)

end

section
variable [AddCommMonoid K]

/-- a program made of read-add-write pairs adds, to each cell, the sum of its increments -/
theorem runActs_pairs (l : List (C × K)) (s : (C → K) × K) (c : C) :
    (runActs (l.flatMap fun p => [Act.load p.1, Act.store p.1 p.2]) s).1 c =
      s.1 c + ((l.filter fun p => decide (p.1 = c)).map Prod.snd).sum := by
  induction l generalizing s with
  | nil => simp [runActs]
  | cons p l ih =>
    simp only [List.flatMap_cons, runActs, List.foldl_append, List.foldl_cons, List.foldl_nil]
    have := ih ((Act.store p.1 p.2).run ((Act.load p.1).run s))
    simp only [runActs] at this
    rw [this]
    show (if c = p.1 then s.1 p.1 + p.2 else s.1 c) + _ = _
    rw [List.filter_cons]
    by_cases h : c = p.1
    · subst h; simp [add_assoc]
    · have h' : ¬ p.1 = c := fun e => h e.symm
      simp [h, h']

end
end DynCF
