import Verif.Model.FloatReduce
/-
`Num.safe_div`, `Num.norm` and `Num.normalize` of core/dataproc/num.py in double precision (Model/Frame.lean has the same functions over exact numbers, and
`bound_scalar`, `bound_array` with NaN).
-/
namespace Pyhipp.FloatNum
open Pyhipp Pyhipp.F64 Pyhipp.FloatReduce

/-- core/dataproc/num.py:17-25, 28-42: one number bounded from below: `max(x, lo)` and `x[x < lo] = lo` alike replace it iff it is below `lo`. -/
def boundLo (x lo : Num) : Num := if Num.lt x lo then lo else x

/-- core/dataproc/num.py:44-46 `Num.safe_div`, element by element. -/
def safeDiv (x y : Num) (lo : Num) : Num := Num.div x (boundLo y lo)

/-- core/dataproc/num.py:82-85 `Num.norm` along one axis: `np.linalg.norm` with an integer axis is `sqrt(add.reduce(x * x, axis))`. -/
def norm (sum : List Num → Num) (sq : ℚ → ℚ) (x : List Num) : Num := npSqrt sq (sum (mulL x x))

/-- `np.clip(n, lo, None)` = `np.maximum(n, lo)`: NaN if either is. -/
def clipLo (n lo : Num) : Num := if n = .nan ∨ lo = .nan then .nan else if Num.lt n lo then lo else n

/-- core/dataproc/num.py:87-96 `Num.normalize` of one vector along the axis. -/
def normalize (sum : List Num → Num) (sq : ℚ → ℚ) (x : List Num) (lo : Num) : List Num :=
  let n := norm sum sq x
  let n := clipLo n lo
  x.map (fun a => Num.div a n)

end Pyhipp.FloatNum
