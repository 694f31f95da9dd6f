import Verif.Model.Coords
import Verif.Base.Float64
/-
`dms_to_deg` and `hms_to_deg` of astro/coords/cvt.py in double precision (Model/Coords.lean has the same functions over exact numbers, and `float(text)`
for decimal notation, which is used here with its result rounded to the nearest double, as Python does).
-/
namespace Pyhipp.FloatCoords
open Pyhipp Pyhipp.F64

/-- Python's `float(text)` on decimal notation: correctly rounded. -/
def pyFloat (t : Str) : PyM Num := do
  let q ← Coords.pyFloat t
  return ofQ q

/-- The argument of the converters: text or a tuple of floats. -/
inductive Arg where
  | text (s : Str)
  | tuple (vs : List Num)

/-- cvt.py:8 and 15 `d, m, s = dms`: a wrong number of fields fails to unpack (ValueError). -/
def unpack3 : List Num → PyM (Num × Num × Num)
  | [d, m, s] => .ok (d, m, s)
  | _ => .error .valueError

/-- cvt.py:6-8 and 13-15: the three fields. -/
def fields : Arg → PyM (Num × Num × Num)
  | .text s => do
      let vs ← (Str.split ':' s).mapM pyFloat
      unpack3 vs
  | .tuple vs => unpack3 vs

/-- cvt.py:9, and the bracket of 16: `d + m / 60. + s / 3600.`, added from the left. -/
def sexa (d m s : Num) : Num := Num.add (Num.add d (Num.div m (.fin 60))) (Num.div s (.fin 3600))

/-- coords/cvt.py:5-10 `dms_to_deg`. -/
def dms_to_deg (dms : Arg) : PyM Num := do
  let (d, m, s) ← fields dms
  return sexa d m s

/-- coords/cvt.py:12-17 `hms_to_deg`. -/
def hms_to_deg (hms : Arg) : PyM Num := do
  let (h, m, s) ← fields hms
  return Num.mul (sexa h m s) (.fin 15)

end Pyhipp.FloatCoords
