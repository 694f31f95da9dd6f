import Verif.Base.Float64
import Verif.Base.Py
import Verif.Model.FloatReduce
/-
stats/kernel.py and `masked_fraction_by_knn` of stats/regression.py in double precision (Model/Stats.lean and Model/Regression.lean have them over
the real numbers).  `np.exp` is a parameter; the results of the kd-tree query, distances and indices, are parameters too.
-/
namespace Pyhipp.FloatKernel
open Pyhipp Pyhipp.F64 Pyhipp.FloatReduce

/-- stats/kernel.py:32-36 `Gaussian._impl`, one distance. -/
def gaussian (exp : Num → Num) (sigma d : Num) : Num :=
  let dSq := Num.mul d d
  let sigmaSq := Num.mul sigma sigma
  exp (Num.div (Num.mul (.fin (-1 / 2)) dSq) sigmaSq)

/-- stats/kernel.py:48-51 `Tophat._impl`, one distance. -/
def tophat (radius d : Num) : Num := b2f (Num.lt d radius)

/-- `np.pi`. -/
def pi64 : ℚ := 884279719003555 / 2 ^ 48

/-- stats/kernel.py:58-68 `Tophat._ball_volume` for a dimension that is not negative (another is an AssertionError, see C53). -/
def ballVolume (r : Num) : Nat → Num
  | 0 => .fin 1
  | 1 => Num.mul (.fin 2) r
  | n + 2 => Num.mul (Num.mul (Num.mul (Num.div (Num.mul (.fin 2) (.fin pi64)) (ofQ ((n + 2 : Nat) : ℚ))) r) r) (ballVolume r n)

/-- `a.clip(lo)`. -/
def clipLo (v lo : Num) : Num := if Num.lt v lo then lo else v

/-- `a[ids]` for valid indices. -/
def gather (a : List Num) (ids : List Nat) : List Num := ids.map fun i => a.getD i .nan

/-- stats/regression.py:66 the neighbours within reach, for one query point. -/
def near (ds : List Num) (maxDx : Option Num) : Option (List Bool) := maxDx.map fun r => ds.map fun d => Num.lt d r

/-- stats/regression.py:290-303 `masked_fraction_by_knn` with a kernel (a function of the distance) or none, for one query point with neighbours `ids` at the
distances `ds` (numpy adds the rows of a matrix one by one in the same order). -/
def maskedFraction (sum : List Num → Num) (kernel : Option (Num → Num)) (weight : List Num) (mask : List Bool) (maxDx : Option Num)
    (ds : List Num) (ids : List Nat) : Num :=
  let maskedWeight := mulL (mask.map b2f) weight
  let wK := kernel.map fun k => ds.map k
  let w := sum1 sum (gather weight ids) wK (near ds maxDx)
  let wMasked := sum1 sum (gather maskedWeight ids) wK (near ds maxDx)
  Num.div wMasked (clipLo w (ofQ (1 / 10 ^ 10)))

end Pyhipp.FloatKernel
