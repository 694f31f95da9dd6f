import Verif.Model.FloatMesh
/-
field/cubic_box/cosmic_web.py `FieldInterpolator` in double precision (Model/Field.lean has the same code over exact numbers).
-/
namespace Pyhipp.FloatMesh
open Pyhipp F64

/-- field/cubic_box/cosmic_web.py:50-57: one of the eight terms, `data[cell] * w0 * w1 * w2`. -/
def term (d : Num) (w0 w1 w2 : Num) : Num := Num.mul (Num.mul (Num.mul d w0) w1) w2

/-- field/cubic_box/cosmic_web.py:41-58 `FieldInterpolator._value_at` at one point, for a float64 field. -/
def valueAt (bad : Num → ℤ) (m : Mesh) (data : Data) (x : Point) : Num :=
  let a := weightsAt bad m x.1
  let b := weightsAt bad m x.2.1
  let c := weightsAt bad m x.2.2
  Num.add (Num.add (Num.add (Num.add (Num.add (Num.add (Num.add
    (term (data (a.1, b.1, c.1)) a.2.2.1 b.2.2.1 c.2.2.1)
    (term (data (a.1, b.1, c.2.1)) a.2.2.1 b.2.2.1 c.2.2.2))
    (term (data (a.1, b.2.1, c.1)) a.2.2.1 b.2.2.2 c.2.2.1))
    (term (data (a.1, b.2.1, c.2.1)) a.2.2.1 b.2.2.2 c.2.2.2))
    (term (data (a.2.1, b.1, c.1)) a.2.2.2 b.2.2.1 c.2.2.1))
    (term (data (a.2.1, b.1, c.2.1)) a.2.2.2 b.2.2.1 c.2.2.2))
    (term (data (a.2.1, b.2.1, c.1)) a.2.2.2 b.2.2.2 c.2.2.1))
    (term (data (a.2.1, b.2.1, c.2.1)) a.2.2.2 b.2.2.2 c.2.2.2)

/-- field/cubic_box/cosmic_web.py:33-39 `FieldInterpolator.value_at` for an array given by its rows (an array without rows has three columns). -/
def valuesAt (bad : Num → ℤ) (m : Mesh) (data : Data) (xs : List (List Num)) : PyM (List Num) := do
  pyAssert (xs.all (fun r => r.length == 3))
  return xs.map (fun r => valueAt bad m data (r.getD 0 .nan, r.getD 1 .nan, r.getD 2 .nan))

end Pyhipp.FloatMesh
