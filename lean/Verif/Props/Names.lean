/-
C109: the names of the ablation files, spelled out; C93: settings that are missing from the configuration.
-/
import Verif.Props.Pipeline

namespace DynCF
variable {K : Type} [Field K] [LinearOrder K]

/-- How Python prints the deviations of the ablation study. -/
def stdText (x : K) : String :=
  if x = 0 then "0" else if x = 1 / 10 ^ 8 then "1e-08" else if x = 1 / 10 ^ 5 then "1e-05" else "0.001"

theorem names_zip [IsStrictOrderedRing K] (f : Str × Bool → Dynamics K → Str × Series K)
    (l : List ((K × Bool) × Dynamics K)) (rest : List (K × Bool))
    (h : (ablationOptions : List (K × Bool)) = l.map Prod.fst ++ rest) :
    (l.zip optionTexts).map (fun p => f p.2 p.1.2) =
      l.map fun p => f ((stdText p.1.1).toList, p.1.2) p.2 := by
  have e : (ablationOptions : List (K × Bool)).map (fun o => ((stdText o.1).toList, o.2)) = optionTexts := by
    have h1 : (10 : K) ^ 8 ≠ 0 := by positivity
    have h2 : (10 : K) ^ 5 ≠ 0 := by positivity
    have h3 : (10 : K) ^ 3 ≠ 0 := by positivity
    have h4 : (1 / 10 ^ 5 : K) ≠ 1 / 10 ^ 8 := by norm_num
    have h5 : (1 / 10 ^ 3 : K) ≠ 1 / 10 ^ 8 := by norm_num
    have h6 : (1 / 10 ^ 3 : K) ≠ 1 / 10 ^ 5 := by norm_num
    unfold ablationOptions stdText optionTexts
    simp only [List.map_cons, List.map_nil, if_true, if_neg (one_div_ne_zero h1), if_neg (one_div_ne_zero h2),
      if_neg (one_div_ne_zero h3), if_neg h4, if_neg h5, if_neg h6]
  rw [← e, h]
  clear h e
  induction l with
  | nil => rfl
  | cons a l ih =>
    simp only [List.map_cons, List.cons_append, List.zip_cons_cons]
    rw [ih]

/-- **C109, names.** The ablation script names the file of the option `(std, integrator)` after the model, the
deviation as Python prints it and the flag: `PSIRec_std_1e-08_int_False`. -/
theorem C109_names [FloorRing K] [IsStrictOrderedRing K] (env : RunEnv K) (cfg : RunCfg K) (fs : FixedSvd) (ft : FixedTd)
    (name : String) (data : List (IRow K)) :
    ablationWrites name (ablationScript env cfg fs ft name data).1 =
      (ablationScript env cfg fs ft name data).1.map fun p =>
        ((name ++ "_std_" ++ stdText p.1.1 ++ "_int_" ++ (if p.1.2 then "True" else "False")).toList, dynJson p.2) := by
  have hw : ∃ rest, (ablationOptions : List (K × Bool)) =
      (ablationScript env cfg fs ft name data).1.map Prod.fst ++ rest := by
    by_cases h1 : name = "PSIRec"
    · subst h1
      obtain ⟨rest, h, -⟩ := (C109_psirec env cfg fs ft data).1
      exact ⟨rest, h⟩
    · by_cases h2 : name = "TIRecA"
      · subst h2
        obtain ⟨rest, h, -⟩ := (C109_tireca env cfg fs ft data).1
        exact ⟨rest, h⟩
      · rw [(C109_options env cfg fs ft data name).2.2 h1 h2]
        exact ⟨_, rfl⟩
  obtain ⟨rest, hw⟩ := hw
  unfold ablationWrites
  rw [names_zip (fun t d => (ablationName name.toList t.1 t.2, dynJson d)) _ rest hw]
  refine List.map_congr_left fun p _ => ?_
  unfold ablationName boolStr
  simp only [String.toList_append]
  cases p.1.2 <;> rfl

/-- The seven names for `TIRecA`. -/
example : (ablationOptions : List (ℚ × Bool)).map (fun o =>
      "TIRecA" ++ "_std_" ++ stdText o.1 ++ "_int_" ++ (if o.2 then "True" else "False")) =
    ["TIRecA_std_0_int_True", "TIRecA_std_1e-08_int_False", "TIRecA_std_1e-05_int_False", "TIRecA_std_0.001_int_False",
      "TIRecA_std_1e-08_int_True", "TIRecA_std_1e-05_int_True", "TIRecA_std_0.001_int_True"] := by
  decide +kernel

/-- **C93, missing settings.** Without the fixed settings of its class in the configuration no model can be prepared:
`prepare_model` raises `KeyError`, once the searched rank is known. `RandomRec` needs no settings. -/
theorem C93_missing (env : RunEnv K) (cfg : RunCfg K) :
    (∀ r, getOptimalSvdRank cfg.dataset env.svdCsv = .ok r → cfg.fixedSvd = none →
      prepareModel env cfg "SVD" = .error .keyError ∧ prepareModel env cfg "PSIRec" = .error .keyError) ∧
    (∀ p, getOptimalTdrecParams cfg.dataset env.tdCsv = .ok p → cfg.fixedTd = none →
      ∀ name ∈ ["TDRec", "TDRecReinit", "TIRec", "TIRecA"], prepareModel env cfg name = .error .keyError) ∧
    ∃ p, prepareModel env cfg "Random" = .ok p := by
  refine ⟨fun r hr hn => ?_, fun p hp hn name hname => ?_, _, rfl⟩
  · have h : prepSvdCfg env cfg = .error .keyError := by
      unfold prepSvdCfg
      rw [hr, except_bind_ok, hn]
      rfl
    constructor
    · show prepareSvd env cfg = _
      unfold prepareSvd
      rw [h]
      rfl
    · show preparePsi env cfg = _
      unfold preparePsi
      rw [h]
      rfl
  · have h : prepTdCfg env cfg = .error .keyError := by
      unfold prepTdCfg
      rw [hp, except_bind_ok, hn]
      rfl
    simp only [List.mem_cons, List.not_mem_nil, or_false] at hname
    rcases hname with rfl | rfl | rfl | rfl
    · show prepareTd env cfg = _
      unfold prepareTd
      rw [h]
      rfl
    · show prepareTdRe env cfg = _
      unfold prepareTdRe
      rw [h]
      rfl
    · show prepareTi env cfg = _
      unfold prepareTi
      rw [h]
      rfl
    · show prepareTiA env cfg = _
      unfold prepareTiA
      rw [h]
      rfl

end DynCF
