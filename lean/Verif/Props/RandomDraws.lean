/-
Property theorem C84 (continued): two consecutive calls of the random recommender use different numbers of the
random stream.
-/
import Verif.Model.PrepareModel
import Verif.Props.RandomRec
import Verif.Lemmas.Hooi
import Mathlib.Data.Rat.Floor

namespace DynCF
variable {K : Type} [Field K] [LinearOrder K] [Inhabited K]

/-- **C84** (draws). Consecutive calls of `recommend` on one random recommender: every score is a number of the
random stream, no number is used for two users or items of one call, and none is used in both calls. -/
theorem C84_draws (argp : ArgPart K) (normals : ℕ → K) (s s1 s2 : Option RecView × ℕ) (us us' : List ℤ) (k k' : ℕ)
    (int int' : Bool) (r r' : List (List ℤ))
    (h1 : (randomClass argp normals).recommend s us k int = .ok (r, s1))
    (h2 : (randomClass argp normals).recommend s1 us' k' int' = .ok (r', s2)) :
    ∃ (v : RecView) (pos pos' : ℕ → Fin v.nItems → ℕ), s.1 = some v ∧
      randomRecommend argp v (fun i j => normals (pos i j)) us k true int = .ok r ∧
      randomRecommend argp v (fun i j => normals (pos' i j)) us' k' true int' = .ok r' ∧
      (∀ i i' j j', pos i j = pos i' j' → i = i' ∧ j = j') ∧
      (∀ i i' j j', pos' i j = pos' i' j' → i = i' ∧ j = j') ∧
      ∀ i < us.length, ∀ i' j j', pos i j ≠ pos' i' j' := by
  obtain ⟨o, n⟩ := s
  cases o with
  | none => cases h1
  | some v =>
    obtain ⟨q, hq, h1⟩ := (bind_ok_iff _ _ _).1 h1
    have h1 := Except.ok.inj h1
    rw [Prod.mk.injEq] at h1
    obtain ⟨rfl, rfl⟩ := h1
    obtain ⟨q', hq', h2⟩ := (bind_ok_iff _ _ _).1 h2
    have h2 := Except.ok.inj h2
    rw [Prod.mk.injEq] at h2
    obtain ⟨rfl, -⟩ := h2
    have inj : ∀ (m i i' : ℕ) (j j' : Fin v.nItems), m + i * v.nItems + j = m + i' * v.nItems + j' →
        i = i' ∧ j = j' := by
      intro m i i' j j' h
      have hj := j.2
      have hj' := j'.2
      have hi : i = i' := by
        rcases Nat.lt_trichotomy i i' with hlt | heq | hlt
        · have : (i + 1) * v.nItems ≤ i' * v.nItems := Nat.mul_le_mul_right _ hlt
          rw [Nat.add_mul, Nat.one_mul] at this
          omega
        · exact heq
        · have : (i' + 1) * v.nItems ≤ i * v.nItems := Nat.mul_le_mul_right _ hlt
          rw [Nat.add_mul, Nat.one_mul] at this
          omega
      subst hi
      exact ⟨rfl, Fin.ext (by omega)⟩
    refine ⟨v, fun i j => n + i * v.nItems + j, fun i j => n + us.length * v.nItems + i * v.nItems + j, rfl, hq, hq',
      inj _, inj _, fun i hi i' j j' => ?_⟩
    have hj := j.2
    have : (i + 1) * v.nItems ≤ us.length * v.nItems := Nat.mul_le_mul_right _ hi
    rw [Nat.add_mul, Nat.one_mul] at this
    dsimp only
    have hj' : i' * v.nItems ≥ 0 := Nat.zero_le _
    omega

/-- `argpartition` of the example: the places in increasing order of value -/
def exDrawArgp : ArgPart ℚ := fun a _ =>
  stableSort (fun i j => decide (a.getD i 0 ≤ a.getD j 0)) (List.range a.length)

/-- Two calls for one user on a trained recommender over four items, with the stream `0, 1, 2, 3, 10, 5, …`: the
first item differs because new numbers are drawn. -/
example : ∃ r1 r2 s1 s2 s3,
    (randomClass exDrawArgp (fun n => if n = 4 then (10 : ℚ) else n)).train (none, 0)
      (.posed [⟨⟨7, 1, 1, 0, 0⟩, 0⟩, ⟨⟨7, 2, 1, 0, 0⟩, 1⟩, ⟨⟨8, 3, 1, 0, 0⟩, 0⟩, ⟨⟨8, 4, 1, 0, 0⟩, 1⟩]) = .ok s1 ∧
    (randomClass exDrawArgp (fun n => if n = 4 then (10 : ℚ) else n)).recommend s1 [8] 1 false = .ok (r1, s2) ∧
    (randomClass exDrawArgp (fun n => if n = 4 then (10 : ℚ) else n)).recommend s2 [8] 1 false = .ok (r2, s3) ∧
    r1 ≠ r2 := by
  refine ⟨_, _, _, _, _, rfl, rfl, rfl, ?_⟩
  decide +kernel

end DynCF
