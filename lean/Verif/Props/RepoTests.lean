/-
The unit tests of the repository with literal data (`/repo/tests`), stated about the model. They are no property of
their own: they show that the definitions of `Verif/Model` give the values the authors expect of the code. Floats are
read as the fractions they print; `almost x e` is the comparison of `assertAlmostEqual` (7 places).

The tests with generated data are instances of theorems: `test_hosvd.py`, `test_rp_hooi.py` (C60, C79, C88, C81),
`test_psi_functions.py` (C42, C44, C101, C103, C113), `test_matrix_operations.py` (C59, C99), the shapes of
`test_tucker_integrator.py` (C50, C51).
-/
import Verif.Model.DataPreparation
import Verif.Model.Evaluation
import Verif.Model.TDRec
import Verif.Model.PsiClass
import Verif.Model.Hosvd
import Verif.Model.KronVec

namespace DynCF
namespace RepoTests

def almost (x : PyM ℚ) (e : ℚ) : Bool :=
  match x with
  | .ok v => decide (|v - e| ≤ 1 / 20000000)
  | .error _ => false
def dictOf (m : Mapping ℤ) : Dict ℤ ℤ × Dict ℤ ℤ × ℕ := (m.old2new, m.new2old, m.n)
def rowsOfMat (m : Mat ℚ) : List (List ℚ) := List.ofFn fun i => List.ofFn (m.val i)
def rowsM (x : PyM (Mat ℚ)) : Option (List (List ℚ)) :=
  match x with
  | .ok m => some (rowsOfMat m)
  | .error _ => none
def rowsT (x : PyM (Ten ℚ)) : Option (List (List (List ℚ))) :=
  match x with
  | .ok t => some (List.ofFn fun i => List.ofFn fun j => List.ofFn (t.val i j))
  | .error _ => none

/-! ### test_data_preparation.py -/

/-- lines 17-26 -/
example : dictOf (getContMappingStruct [12, 23, 45] 0) = ([(12, 0), (23, 1), (45, 2)], [(0, 12), (1, 23), (2, 45)], 3) := rfl

/-- lines 28-38 -/
example : dictOf (updateContMappingStruct (getContMappingStruct [12, 23, 45] 0) [99, 101, 505]) =
    ([(12, 0), (23, 1), (45, 2), (99, 3), (101, 4), (505, 5)],
     [(0, 12), (1, 23), (2, 45), (3, 99), (4, 101), (5, 505)], 6) := rfl

/-- lines 40-58 -/
example : (getDfWithUpdatedIndices [(⟨12, 11, 1, 0, 0⟩ : Row ℚ), ⟨23, 20, 1, 0, 0⟩, ⟨45, 77, 1, 0, 0⟩]).toOption.map
      (fun r => (r.1.map fun x => (x.user, x.item), dictOf r.2.user, dictOf r.2.item)) =
    some ([(0, 0), (1, 1), (2, 2)], ([(12, 0), (23, 1), (45, 2)], [(0, 12), (1, 23), (2, 45)], 3),
      ([(11, 0), (20, 1), (77, 2)], [(0, 11), (1, 20), (2, 77)], 3)) := rfl

/-! ### test_evaluation.py -/

/-- lines 22-25 -/
example : almost (hr [[1, 2, 3], [4, 5, 6], [7, 8, 9]] [3, 7, 8]) (2 / 3) = true := by decide +kernel

/-- lines 27-30 -/
example : almost (mrr [[1, 2, 3], [4, 5, 6], [7, 8, 9]] [3, 7, 8]) 0.27777777777777773 = true := by decide +kernel

/-- lines 32-49 -/
example : almost (wjiSim [[2, 3, 4], [0, 2, 3], [4, 3, 2]] [[2, 3, 4], [2, 3, 1], [4, 2, 3]] 5) 0.7091503267973857 =
    true := by decide +kernel

/-! ### test_ti_data_processing.py -/

/-- lines 26-53: the tables, in the order of users and positions -/
def a0 : List Inter := [⟨0, 1, 0⟩, ⟨0, 0, 1⟩, ⟨1, 0, 0⟩, ⟨1, 2, 1⟩, ⟨2, 2, 0⟩, ⟨2, 1, 1⟩, ⟨3, 1, 0⟩, ⟨3, 2, 1⟩]
def a1 : List Inter := [⟨0, 0, 2⟩, ⟨0, 1, 3⟩, ⟨1, 1, 2⟩, ⟨2, 2, 2⟩, ⟨2, 1, 3⟩]
def a2 : List Inter := [⟨0, 2, 4⟩, ⟨1, 0, 3⟩, ⟨1, 2, 4⟩, ⟨2, 2, 4⟩]
def a3 : List Inter := [⟨0, 0, 5⟩, ⟨0, 1, 6⟩, ⟨1, 1, 5⟩, ⟨1, 0, 6⟩, ⟨2, 0, 5⟩, ⟨3, 0, 2⟩]
def h0 : SeqHist := updateUserSeqHistory a0 [] 4
def h1 : SeqHist := updateUserSeqHistory a1 h0 4
def h2 : SeqHist := updateUserSeqHistory a2 h1 4
def h3 : SeqHist := updateUserSeqHistory a3 h2 4

/-- lines 56-82 -/
example : h2 = [(0, ⟨4, [0, 0, 1, 2]⟩), (1, ⟨4, [2, 1, 0, 2]⟩), (2, ⟨4, [1, 2, 1, 2]⟩), (3, ⟨4, [-1, -1, 1, 2]⟩)] := by
  decide +kernel
example : h3 = [(0, ⟨4, [1, 2, 0, 1]⟩), (1, ⟨4, [0, 2, 1, 0]⟩), (2, ⟨4, [2, 1, 2, 0]⟩), (3, ⟨4, [-1, 1, 2, 0]⟩)] := by
  decide +kernel

/-- lines 84-118; the test sorts every column for itself, here the rows are compared -/
example : (calculateDelta h1 (snapshot h0)).Perm
    [⟨0, 1, 0, 1⟩, ⟨0, 0, 1, 1⟩, ⟨0, 0, 2, 1⟩, ⟨0, 1, 2, -1⟩, ⟨0, 0, 3, -1⟩, ⟨0, 1, 3, 1⟩, ⟨1, 0, 1, 1⟩, ⟨1, 0, 2, -1⟩,
     ⟨1, 2, 2, 1⟩, ⟨1, 1, 3, 1⟩, ⟨1, 2, 3, -1⟩, ⟨2, 2, 0, 1⟩, ⟨2, 1, 1, 1⟩] := by
  decide +kernel

/-- lines 120-162 -/
example : (calculateDelta h2 (snapshot h1)).Perm
    [⟨0, 0, 0, 1⟩, ⟨0, 1, 0, -1⟩, ⟨0, 0, 2, -1⟩, ⟨0, 1, 2, 1⟩, ⟨0, 1, 3, -1⟩, ⟨0, 2, 3, 1⟩, ⟨1, 2, 0, 1⟩, ⟨1, 0, 1, -1⟩,
     ⟨1, 1, 1, 1⟩, ⟨1, 0, 2, 1⟩, ⟨1, 2, 2, -1⟩, ⟨1, 1, 3, -1⟩, ⟨1, 2, 3, 1⟩, ⟨2, 1, 0, 1⟩, ⟨2, 2, 0, -1⟩, ⟨2, 1, 1, -1⟩,
     ⟨2, 2, 1, 1⟩, ⟨2, 1, 2, 1⟩, ⟨2, 2, 2, -1⟩, ⟨2, 1, 3, -1⟩, ⟨2, 2, 3, 1⟩] := by
  decide +kernel

/-- lines 164-214 -/
example : (calculateDelta h3 (snapshot h2)).Perm
    [⟨0, 0, 0, -1⟩, ⟨0, 1, 0, 1⟩, ⟨0, 0, 1, -1⟩, ⟨0, 2, 1, 1⟩, ⟨0, 0, 2, 1⟩, ⟨0, 1, 2, -1⟩, ⟨0, 1, 3, 1⟩, ⟨0, 2, 3, -1⟩,
     ⟨1, 0, 0, 1⟩, ⟨1, 2, 0, -1⟩, ⟨1, 1, 1, -1⟩, ⟨1, 2, 1, 1⟩, ⟨1, 0, 2, -1⟩, ⟨1, 1, 2, 1⟩, ⟨1, 0, 3, 1⟩, ⟨1, 2, 3, -1⟩,
     ⟨2, 1, 0, -1⟩, ⟨2, 2, 0, 1⟩, ⟨2, 1, 1, 1⟩, ⟨2, 2, 1, -1⟩, ⟨2, 1, 2, -1⟩, ⟨2, 2, 2, 1⟩, ⟨2, 0, 3, 1⟩, ⟨2, 2, 3, -1⟩,
     ⟨3, 1, 1, 1⟩, ⟨3, 1, 2, -1⟩, ⟨3, 2, 2, 1⟩, ⟨3, 0, 3, 1⟩, ⟨3, 2, 3, -1⟩] := by
  decide +kernel

/-- lines 216-231 -/
example : (addOrderCropped ([1, 2, 3, 4, 3, 2].map fun i => (⟨0, i, 1, 0, 0⟩ : Row ℚ)) 4).toOption.map
    (fun t => t.map fun p => (p.row.user, p.row.item, p.pos)) =
    some [(0, 1, -1), (0, 2, -1), (0, 3, 0), (0, 4, 1), (0, 3, 2), (0, 2, 3)] := by decide +kernel

/-- lines 233-246; the letters are numbers here -/
example : (getDfWithCroppedPos ([(0, 1), (0, 2), (0, 3), (0, 4), (1, 11), (1, 12), (1, 13), (1, 14), (3, 21), (3, 22),
      (3, 23)].map fun p => (⟨p.1, p.2, 1, 0, 0⟩ : Row ℚ)) 3 false).toOption.map
    (fun t => t.map fun p => (p.row.user, p.row.item, p.pos)) =
    some [(0, 2, 0), (0, 3, 1), (0, 4, 2), (1, 12, 0), (1, 13, 1), (1, 14, 2), (3, 21, 0), (3, 22, 1), (3, 23, 2)] := by
  decide +kernel

/-! ### test_tdrec.py -/

/-- lines 55-65 -/
example : rowsM (getGlobalAttention 4 fun i : ℕ => (i : ℚ)) =
    some [[1, 0, 0, 0], [1/2, 1, 0, 0], [1/3, 1/2, 1, 0], [1/4, 1/3, 1/2, 1]] := by decide +kernel

/-- lines 67-71 -/
example : getPosItemsArrays [4, 5, 10, 11, 50] 4 = ([2, 1, 0], [50, 11, 10]) := by decide +kernel

/-- lines 19-53: `w`, `v`, the history, `attention_mtx.dot(w)`; the last row of `attention_mtx_inv.T.dot(w)` is that of
`w` (C24). -/
def w : Mat ℚ := ⟨4, 2, fun i j => ((([[1, 2], [2, 3], [3, 4], [1, 1]] : List (List ℚ)).getD i []).getD j 0)⟩
def tdState : PyM (TDState ℚ) := do
  let a ← getGlobalAttention 4 fun i : ℕ => (i : ℚ) ^ 2
  let aw ← a.dot w
  pure ⟨getContMappingStruct [] 0 |> fun m => ⟨m, m⟩, [], updateUserSeqHistory [⟨0, 3, 0⟩, ⟨0, 2, 1⟩, ⟨0, 1, 2⟩] [] 4,
    ⟨0, 2, 0⟩, ⟨5, 2, fun i _ => (i : ℚ) + 1⟩, w, none, aw, ⟨2, fun _ => 1⟩⟩

/-- lines 73-84 -/
example : (tdState >>= fun s => tdRecommendUser s 0).toOption.map (fun x => List.ofFn x.val) =
    some [557/6, 557/3, 557/2, 1114/3, 2785/6] := by decide +kernel

/-! ### test_svd_model.py -/

def svdState : PSIState ℚ where
  maps := ⟨⟨(List.range 5).map fun i : ℕ => ((i : ℤ) + 100, (i : ℤ)), (List.range 5).map fun i : ℕ => ((i : ℤ), (i : ℤ) + 100), 5⟩,
    ⟨(List.range 6).map fun i : ℕ => ((i : ℤ) + 200, (i : ℤ)), (List.range 6).map fun i : ℕ => ((i : ℤ), (i : ℤ) + 200), 6⟩⟩
  u := ⟨5, 3, fun i j => ((([[0.37427841, -0.30118744, -0.96556633], [2.29874821, -0.21836592, -0.44987196],
    [-0.93689866, -0.35001607, -1.20881597], [-0.84424139, 0.45886554, 0.99219709],
    [-0.23778262, -0.20085885, -1.31348285]] : List (List ℚ)).getD i []).getD j 0)⟩
  s := .vec 3 fun _ => 1
  vt := ⟨3, 6, fun i j => ((([[-0.8064354, 1.06088316, 0.30051897, 0.052212, 0.26933904, -0.85300425],
    [-0.17560066, 0.70145484, 1.35287405, 0.28870878, -1.090444, -0.55996878],
    [0.11033713, -1.45870458, 0.64202769, -0.97937828, 0.22735107, -0.84464499]] : List (List ℚ)).getD i []).getD j 0)⟩
  history := [(0, 1), (0, 3), (1, 1), (1, 2), (2, 1), (2, 2), (2, 3), (2, 5), (3, 1), (3, 5)]
  userFactors := ⟨5, 3, fun i j => ((([[0.37427841, -0.30118744, -0.96556633], [2.29874821, -0.21836592, -0.44987196],
    [-0.93689866, -0.35001607, -1.20881597], [-0.84424139, 0.45886554, 0.99219709],
    [-0.23778262, -0.20085885, -1.31348285]] : List (List ℚ)).getD i []).getD j 0)⟩
  itemFactors := ⟨3, 6, fun i j => ((([[-0.8064354, 1.06088316, 0.30051897, 0.052212, 0.26933904, -0.85300425],
    [-0.17560066, 0.70145484, 1.35287405, 0.28870878, -1.090444, -0.55996878],
    [0.11033713, -1.45870458, 0.64202769, -0.97937828, 0.22735107, -0.84464499]] : List (List ℚ)).getD i []).getD j 0)⟩

/-- A full sort is a correct `argpartition`. -/
def argp : ArgPart ℚ := fun a _ => stableSort (fun i j => decide (a.getD i 0 ≤ a.getD j 0)) (List.range a.length)

/-- lines 54-77 -/
example : (psiRecommend argp svdState [100, 101, 102, 103] 2 true false).toOption =
    some [[205, 204], [204, 203], [200, 204], [202, 200]] := by decide +kernel

/-- lines 79-101 -/
example : (psiRecommend argp svdState [100, 101, 102, 103] 2 false false).toOption =
    some [[201, 203], [201, 204], [205, 203], [202, 200]] := by decide +kernel

/-! ### test_psi_model.py -/

def maskRows : List (Row ℚ) := (List.range 10).map fun i : ℕ => ⟨(i : ℤ), (i : ℤ) + 1, 1, 0, 0⟩
def maskMaps : Mappings := ⟨⟨[(1, 100), (2, 200), (3, 300), (4, 400)], [], 0⟩, ⟨[(1, 200), (2, 400), (3, 600), (4, 800)], [], 0⟩⟩

/-- lines 33-51 -/
example : getDivideDfMask maskRows maskMaps .newUsers = true :: List.replicate 9 false := by decide +kernel
example : getDivideDfMask maskRows maskMaps .newItems = List.replicate 4 false ++ [true] ++ List.replicate 5 false := by
  decide +kernel
example : getDivideDfMask maskRows maskMaps .old = [false] ++ List.replicate 3 true ++ List.replicate 6 false := by
  decide +kernel
example : getDivideDfMask maskRows maskMaps .new = List.replicate 5 false ++ List.replicate 5 true := by decide +kernel

/-! ### test_tensor_operations.py -/

/-- lines 30-94 -/
def inds : List Ind3 := [(0, 0, 0), (0, 3, 0), (2, 1, 0), (0, 2, 1), (1, 1, 1), (2, 0, 1), (0, 0, 2), (2, 1, 2), (0, 0, 3),
  (1, 2, 3), (2, 2, 3), (1, 2, 4), (2, 0, 4), (2, 3, 4)]
def indsF : List (Fin 3 → ℤ) := inds.map fun c => ![c.1, c.2.1, c.2.2]
def vals : List ℚ := (List.range 14).map fun i : ℕ => (i : ℚ) + 1
def u0 : Mat ℚ := ⟨3, 2, fun i _ => (i : ℚ) + 1⟩
def u1 : Mat ℚ := ⟨4, 2, fun i _ => (i : ℚ) + 1⟩
def u2 : Mat ℚ := ⟨5, 2, fun i _ => (i : ℚ) + 1⟩
def coreVals : List ℚ := [-0.24782446, 0.33595678, -0.12707375, -1.03521045, 0.63423559, 1.01342649, 0.33298816, -1.06924143]
def core : Ten ℚ := ⟨2, 2, 2, fun i j k => coreVals.getD (4 * i + 2 * j + k) 0⟩

/-- lines 97-133 -/
example : rowsM (unfoldSparse indsF vals (3, 4, 5) 0) = some
    [[1, 0, 0, 2, 0, 0, 4, 0, 7, 0, 0, 0, 9, 0, 0, 0, 0, 0, 0, 0],
     [0, 0, 0, 0, 0, 5, 0, 0, 0, 0, 0, 0, 0, 0, 10, 0, 0, 0, 12, 0],
     [0, 3, 0, 0, 6, 0, 0, 0, 0, 8, 0, 0, 0, 0, 11, 0, 13, 0, 0, 14]] := by decide +kernel
example : rowsM (unfoldSparse indsF vals (3, 4, 5) 1) = some
    [[1, 0, 0, 0, 0, 6, 7, 0, 0, 9, 0, 0, 0, 0, 13],
     [0, 0, 3, 0, 5, 0, 0, 0, 8, 0, 0, 0, 0, 0, 0],
     [0, 0, 0, 4, 0, 0, 0, 0, 0, 0, 10, 11, 0, 12, 0],
     [2, 0, 0, 0, 0, 0, 0, 0, 0, 0, 0, 0, 0, 0, 14]] := by decide +kernel
example : rowsM (unfoldSparse indsF vals (3, 4, 5) 2) = some
    [[1, 0, 0, 0, 0, 3, 0, 0, 0, 2, 0, 0],
     [0, 0, 6, 0, 5, 0, 4, 0, 0, 0, 0, 0],
     [7, 0, 0, 0, 0, 8, 0, 0, 0, 0, 0, 0],
     [9, 0, 0, 0, 0, 0, 0, 10, 11, 0, 0, 0],
     [0, 0, 13, 0, 0, 0, 0, 12, 0, 0, 0, 14]] := by decide +kernel

/-- lines 135-175: dense unfolding and folding back -/
example (mode : Fin 3) : rowsM (do unfoldDense (← sparseToDense inds vals (3, 4, 5)) (mode : ℕ)) =
    rowsM (unfoldSparse indsF vals (3, 4, 5) (mode : ℕ)) := by
  revert mode; decide +kernel
example (mode : Fin 3) : rowsT (do
      let x ← sparseToDense inds vals (3, 4, 5)
      foldDense (← unfoldDense x (mode : ℕ)) (3, 4, 5) (mode : ℕ)) = rowsT (sparseToDense inds vals (3, 4, 5)) := by
  revert mode; decide +kernel

/-- lines 177-226 -/
example : rowsT (constructCore inds vals u0 u1 u2) = some (List.replicate 2 (List.replicate 2 (List.replicate 2 2359))) := by
  decide +kernel
example : rowsT (constructCoreParallel inds vals u0 u1 u2) =
    some (List.replicate 2 (List.replicate 2 (List.replicate 2 2359))) := by decide +kernel
example : rowsT (do constructCoreDense (← sparseToDense inds vals (3, 4, 5)) u0 u1 u2) =
    some (List.replicate 2 (List.replicate 2 (List.replicate 2 2359))) := by decide +kernel

/-- lines 228-305 -/
example : rowsT (tensordot2 inds vals [3, 4, 5] u0 u1 (0, 1)) =
    some ([27, 50, 55, 168, 279].map fun x => List.replicate 2 (List.replicate 2 x)) := by decide +kernel
example : rowsT (tensordot2 inds vals [3, 4, 5] u0 u2 (0, 2)) =
    some ([289, 101, 340, 212].map fun x => List.replicate 2 (List.replicate 2 x)) := by decide +kernel
example : rowsT (tensordot2 inds vals [3, 4, 5] u1 u2 (1, 2)) =
    some ([90, 320, 543].map fun x => List.replicate 2 (List.replicate 2 x)) := by decide +kernel

/-- lines 307-335 -/
example : rowsM (do unfoldDense (← tensordot inds vals (3, 4, 5) u0.T 0) 0) = some (List.replicate 2
    [1, 9, 0, 2, 18, 10, 4, 0, 7, 24, 0, 0, 9, 0, 53, 0, 39, 0, 24, 42]) := by decide +kernel
example : rowsM (do unfoldDense (← tensordot inds vals (3, 4, 5) u1.T 1) 1) = some (List.replicate 2
    [9, 0, 6, 12, 10, 6, 7, 0, 16, 9, 30, 33, 0, 36, 69]) := by decide +kernel
example : rowsM (do unfoldDense (← tensordot inds vals (3, 4, 5) u2.T 2) 2) = some (List.replicate 2
    [58, 0, 77, 0, 10, 27, 8, 100, 44, 2, 0, 70]) := by decide +kernel

/-- lines 337-340 -/
example : almost (getTuckerElement 0 1 2 u0 u1 u2 core) (-0.9764583966671614) = true := by decide +kernel

/-- lines 342-366: all cells are multiples of the first -/
example : rowsT (constructTensorFromTucker u0 u1 u2 core) = some ((List.range 3).map fun i : ℕ => (List.range 4).map fun j : ℕ =>
    (List.range 5).map fun k : ℕ => (-0.16274307 : ℚ) * (((i + 1) * (j + 1) * (k + 1) : ℕ) : ℚ)) := by decide +kernel

/-- lines 368-388 -/
example : denseToSparse core = ([(0, 0, 0), (0, 0, 1), (0, 1, 0), (0, 1, 1), (1, 0, 0), (1, 0, 1), (1, 1, 0), (1, 1, 1)],
    coreVals) := by decide +kernel

/-- lines 390-396 -/
example : List.ofFn (kronVec (fun i : Fin 2 => (i : ℚ) + 1) (fun i : Fin 4 => (i : ℚ) + 1)) = [1, 2, 3, 4, 2, 4, 6, 8] := by
  decide +kernel

/-- the same with the loops of `kron_vec_jit`, for any content of the array given by `np.empty` -/
example (junk : ℕ → ℚ) : kronVecJit junk [1, 2] [1, 2, 3, 4] = [1, 2, 3, 4, 2, 4, 6, 8] := by
  simp [kronVecJit, kronInner, enumNat, List.range_succ]
  norm_num

/-- lines 398-417: to 5 places -/
def q : Mat ℚ := ⟨4, 2, fun i j => ((([[0.28032188, 0.90735399], [-0.67577357, 0.76568089], [-0.65675385, 1.04515706],
  [-0.72509302, 0.00263777]] : List (List ℚ)).getD i []).getD j 0)⟩
example : ((rowsM (sparseTensorDoubleTensor inds vals (3, 4, 5) q 0 u1 u2)).map fun a =>
    (List.zipWith (List.zipWith fun x y => decide (|x - y| ≤ 1 / 400000)) a
      [[-159.95687075, 244.87467409], [-568.73554046, 870.66550787], [-965.07312021, 1477.41053366]])) =
    some (List.replicate 3 [true, true]) := by decide +kernel

/-! ### `test_bad_rank` of test_hosvd.py and test_rp_hooi.py -/

example (la : LinAlg ℚ) (inds : List Ind3) (vals : List ℚ) :
    (hosvd la inds vals (20, 20, 20) (5, 2, 2) false).map (fun _ => ()) = .error .runtimeError := by
  have h : checkParams (tri (20, 20, 20)) (triZ (5, 2, 2)) = .error .runtimeError := by decide +kernel
  unfold hosvd
  rw [h]
  rfl

example (p : HooiPar ℚ) (hp : p.rank = (5, 2, 2)) (normOf : Ten ℚ → ℚ) (inds : List Ind3) (vals : List ℚ) (tol : ℚ) :
    (rpHooi p normOf inds vals (20, 20, 20) 25 tol).map (fun _ => ()) = .error .runtimeError := by
  have h : checkParams (tri (20, 20, 20)) (triZ (5, 2, 2)) = .error .runtimeError := by decide +kernel
  unfold rpHooi
  rw [hp, h]
  rfl

end RepoTests
end DynCF
