import Verif.Model.FloatKernel
/-
stats/density_estimation.py, the estimates from neighbours, in double precision (Model/Stats.lean has them over the real numbers).  The results of the
kd-tree query, distances and indices of the neighbours of one query point, are parameters.
-/
namespace Pyhipp.FloatNeighbour
open Pyhipp Pyhipp.F64 Pyhipp.FloatReduce Pyhipp.FloatKernel

/-- stats/density_estimation.py:81-87 and 139-145 the training weights that `fit` keeps, for `n` training points. -/
def fitWeight (sum : List Num → Num) (n : Nat) (weight : Option (List Num)) : List Num :=
  match weight with
  | none => List.replicate n (Num.div (.fin 1) (ofQ (n : ℚ)))
  | some w => w.map fun x => Num.div x (sum w)

/-- The larger of two numbers as in `np.max`. -/
def maxNum (a b : Num) : Num := if a = .nan ∨ b = .nan then .nan else if Num.lt a b then b else a

/-- `ds.max()`, for at least one element. -/
def maxL : List Num → Num
  | [] => .nan
  | d :: ds => ds.foldl maxNum d

/-- What an estimate returns for one query point. -/
structure Estimate where
  h : Num
  n : Nat
  maxDx : Num
  deriving DecidableEq

/-- stats/density_estimation.py:107-113 the neighbours' weights, times the kernel scaled to the mean 1. -/
def localWeights (sum : List Num → Num) (kernel : Option (Num → Num)) (w ds : List Num) : List Num :=
  match kernel with
  | none => w
  | some k =>
    let wK := ds.map k
    let wK := if 0 < wK.length then wK.map fun x => Num.mul x (Num.div (ofQ (wK.length : ℚ)) (sum wK)) else wK
    mulL w wK

/-- stats/density_estimation.py:102-123 `_LocalKernelDensityEstimation.__call__` with the radius `maxDx` given, for one query point with neighbours `ids` at
the distances `ds`. -/
def localDensity (sum : List Num → Num) (kernel : Option (Num → Num)) (weight : List Num) (nDims : Nat) (maxDx : Num) (ds : List Num) (ids : List Nat) : Estimate :=
  let vol := ballVolume maxDx nDims
  let w := localWeights sum kernel (gather weight ids) ds
  ⟨Num.div (sum w) vol, ids.length, if 0 < ds.length then maxL ds else .fin 0⟩

/-- stats/density_estimation.py:158, 163 the radius of the ball: the largest distance, clipped at the given one. -/
def knnRadius (ds : List Num) (maxDx : Option Num) : Num :=
  match maxDx with
  | none => maxL ds
  | some m => let r := maxL ds; if r = .nan ∨ m = .nan then .nan else if Num.lt m r then m else r

/-- stats/density_estimation.py:161-165 the neighbours that count. -/
def knnMask (ds : List Num) (maxDx : Option Num) : List Bool :=
  match maxDx with
  | none => ds.map fun _ => true
  | some m => ds.map fun d => Num.lt d m

/-- stats/density_estimation.py:168-174 the neighbours' weights, times the kernel scaled to the mean 1 over the neighbours that count. -/
def knnWeights (sum : List Num → Num) (kernel : Option (Num → Num)) (w ds : List Num) (mask : List Bool) (nW : Nat) : List Num :=
  match kernel with
  | none => w
  | some k =>
    let wK := ds.map k
    let wKSum := if nW = 0 then ofQ (1 / 10 ^ 10) else sum (mulL wK (mask.map b2f))
    let wK := wK.map fun x => Num.mul x (Num.div (ofQ (nW : ℚ)) wKSum)
    mulL w wK

/-- stats/density_estimation.py:155-180 `_KnnDensityEstimation.__call__` for one query point with neighbours `ids` at the distances `ds`. -/
def knnDensity (sum : List Num → Num) (kernel : Option (Num → Num)) (weight : List Num) (nDims : Nat) (maxDx : Option Num) (ds : List Num) (ids : List Nat) : Estimate :=
  let rMax := knnRadius ds maxDx
  let mask := knnMask ds maxDx
  let vol := ballVolume rMax nDims
  let nW := (mask.filter id).length
  let w := knnWeights sum kernel (gather weight ids) ds mask nW
  ⟨Num.div (sum (mulL w (mask.map b2f))) vol, nW, rMax⟩

end Pyhipp.FloatNeighbour
