import Verif.Model.Regression
/-
Model of the front ends of stats/regression.py and stats/density_estimation.py: shape conversion, kd-tree construction and
queries, default radii, and the static methods `KernelRegressionND.by_*` and `DensityEstimationND.by_*`.

The kd-tree itself (sklearn.neighbors.KDTree) is outside the code base; `KD` is its interface and `KD.OK` its documented
contract: a batch of query points in, one row of distances and one row of indices per query point out.  Distances are
Euclidean (the default metric); `impl_kw` and `impl_query_kw` are not modelled.
-/
namespace Pyhipp.KernelReg
open Pyhipp Reduction Stats Regression

/-- An array argument by its number of dimensions. -/
inductive In where
  | d1 (l : List ℝ)
  | d2 (rows : List (List ℝ))
  | other

/-- stats/regression.py:18-24 and stats/density_estimation.py:13-19 `_cvt_x_shape`. -/
def cvt : In → PyM (List (List ℝ))
  | .d1 l => .ok (l.map (fun a => [a]))
  | .d2 rows => .ok rows
  | .other => .error .assertionError

/-- Euclidean distance of two points. -/
noncomputable def dist (a b : List ℝ) : ℝ := Real.sqrt (List.zipWith (fun u v => (u - v) ^ 2) a b).sum

/-- The two queries of a kd-tree: `query pts qs k` gives (distances, indices), `radius pts qs r` gives (indices, distances). -/
structure KD where
  query : List (List ℝ) → List (List ℝ) → Nat → List (List ℝ) × List (List Nat)
  radius : List (List ℝ) → List (List ℝ) → ℝ → List (List Nat) × List (List ℝ)

/-- `KDTree(x)`: sklearn's `check_array` refuses an empty or ragged array (ValueError). -/
noncomputable def treeCheck (x : List (List ℝ)) : PyM Unit :=
  if x = [] ∨ ∃ r ∈ x, r.length ≠ (x.headD []).length ∨ r = [] then .error .valueError else .ok ()

/-- A query: at least one point, all of the tree's dimension (ValueError). -/
noncomputable def queryCheck (x q : List (List ℝ)) : PyM Unit :=
  if q = [] ∨ ∃ r ∈ q, r.length ≠ (x.headD []).length then .error .valueError else .ok ()

/-- `y_tr[ids]` with an index beyond the end is an IndexError. -/
def gatherCheck (y : List ℝ) (ids : List (List Nat)) : PyM Unit :=
  if ids.all (fun r => r.all (fun i => decide (i < y.length))) then .ok () else .error .indexError

/-- stats/regression.py:124-125 and stats/density_estimation.py:99-100: `x.std(0).mean() / 10`. -/
noncomputable def defaultDx (x : List (List ℝ)) : ℝ :=
  npMean ((List.range (x.headD []).length).map (fun j => npStd (column x j))) / 10

/-- The optional weights, checked against the indices. -/
def weightCheck (w : Option (List ℝ)) (ids : List (List Nat)) : PyM Unit :=
  match w with
  | none => .ok ()
  | some w => gatherCheck w ids

/-- stats/regression.py:160-190 `KernelRegressionND.by_knn` = `fit` (37-47) + `__call__` (49-80): sklearn refuses `k` larger
than the number of training points (ValueError). -/
noncomputable def regKnn {γ : Type} (T : KD) (x : In) (y : List ℝ) (w : Option (List ℝ)) (xPred : In) (k : Nat)
    (maxDx : Option ℝ) (reduce : List (String × Red2 γ)) (kernel : Option Kernel) :
    PyM (List γ × PyDict String γ) := do
  let X ← cvt x
  treeCheck X
  let Q ← cvt xPred
  queryCheck X Q
  if X.length < k then .error .valueError else
  let dsIds := T.query X Q k
  gatherCheck y dsIds.2
  weightCheck w dsIds.2
  return knnCall y w dsIds.1 dsIds.2 reduce maxDx kernel

/-- stats/regression.py:192-277 `KernelRegressionND.by_local_kernel` = `fit` (96-106) + `__call__` (108-148). -/
noncomputable def regLocal {γ : Type} (T : KD) (x : In) (y : List ℝ) (w : Option (List ℝ)) (xPred : In)
    (maxDx : Option ℝ) (reduce : Src (String × Red1 γ)) (kernel : Option Kernel) :
    PyM (List (List γ) × PyDict String (List γ)) := do
  let X ← cvt x
  treeCheck X
  let Q ← cvt xPred
  let r := maxDx.getD (defaultDx Q)
  queryCheck X Q
  let idsDs := T.radius X Q r
  gatherCheck y idsDs.1
  weightCheck w idsDs.1
  localCall y w idsDs.2 idsDs.1 reduce kernel

/-- stats/density_estimation.py:233-276 `DensityEstimationND.by_local_kernel` = `fit` (75-91) + `__call__` (93-122): densities,
numbers of neighbours and the largest neighbour distances. -/
noncomputable def densLocal (T : KD) (x : In) (w : Option (List ℝ)) (xPred : In) (maxDx : Option ℝ) (kernel : Option Kernel) :
    PyM (List ℝ × List Nat × List ℝ) := do
  let X ← cvt x
  treeCheck X
  let wTr := fitWeight X.length w
  let Q ← cvt xPred
  let r := maxDx.getD (defaultDx Q)
  queryCheck X Q
  let idsDs := T.radius X Q r
  let vol := ballVolumeNat r (X.headD []).length
  gatherCheck wTr idsDs.1
  let h := List.zipWith (fun d id => localDensity wTr vol kernel d id) idsDs.2 idsDs.1
  return (h, idsDs.1.map List.length, idsDs.2.map (fun d => d.foldl max 0))

/-- stats/density_estimation.py:278-293 `DensityEstimationND.by_knn` = `fit` (133-148) + `__call__` (150-180). -/
noncomputable def densKnn (T : KD) (x : In) (w : Option (List ℝ)) (xPred : In) (k : Nat) (maxDx : Option ℝ)
    (kernel : Option Kernel) : PyM (List (ℝ × Nat × ℝ)) := do
  let X ← cvt x
  treeCheck X
  let wTr := fitWeight X.length w
  let Q ← cvt xPred
  queryCheck X Q
  if X.length < k then .error .valueError else
  let dsIds := T.query X Q k
  gatherCheck wTr dsIds.2
  return List.zipWith (fun d id => knnDensity wTr (X.headD []).length maxDx kernel d id) dsIds.1 dsIds.2

end Pyhipp.KernelReg
