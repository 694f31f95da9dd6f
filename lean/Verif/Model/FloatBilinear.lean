import Verif.Model.FloatLinear
/-
`bisearch_interp_2d` of numerical/interpolate.py in double precision (Model/Interpolate.lean has the same code over exact numbers).
-/
namespace Pyhipp.FloatBilinear
open Pyhipp Pyhipp.F64 Pyhipp.FloatLinear

/-- `y[i, j]` of a 2-d array given as the list of its rows. -/
def get2 (y : List (List Num)) (i j : Int) : PyM Num := do
  let row ← pyGet y i
  pyGet row j

/-- numerical/interpolate.py:112-122 `bisearch_interp_2d` for a two-dimensional `y`. -/
def interp2 (xs1 xs2 : List Num) (y : List (List Num)) (v1 v2 : Num) : PyM Num := do
  let (l1, r1, w1l, w1r) ← interpWeight xs1 v1
  let (l2, r2, w2l, w2r) ← interpWeight xs2 v2
  let yll ← get2 y l1 l2
  let ylr ← get2 y l1 r2
  let yrl ← get2 y r1 l2
  let yrr ← get2 y r1 r2
  return Num.add (Num.add (Num.add (Num.mul yll (Num.mul w1l w2l)) (Num.mul ylr (Num.mul w1l w2r))) (Num.mul yrl (Num.mul w1r w2l))) (Num.mul yrr (Num.mul w1r w2r))

end Pyhipp.FloatBilinear
