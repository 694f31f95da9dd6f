import Verif.Base.Py
import Verif.Base.Num
import Mathlib.Analysis.SpecialFunctions.Pow.Real
import Mathlib.Analysis.SpecialFunctions.Log.Base
import Verif.Base.Nan
/-
Model of src/pyhipp/core/dataproc/{frame,num}.py.
-/
namespace Pyhipp.Frame
open Pyhipp

section PeriodicBox
variable {α : Type _} [Field α] [LinearOrder α]

/-- core/dataproc/frame.py:85-87 `PeriodicBox.__combine_mask` (flattened arrays of one common
size; numpy broadcasting of `where` is not modelled). -/
def combineMask (mask : List Bool) (wh : Option (List Bool)) : List Bool :=
  match wh with
  | none => mask
  | some w => List.zipWith (fun a b => a && b) mask w

/-- `x[mask] += d` -/
def addMasked (x : List α) (mask : List Bool) (d : α) : List α :=
  List.zipWith (fun a m => if m then a + d else a) x mask

/-- core/dataproc/frame.py:49-60 `PeriodicBox.shift_in`.  Returns (contents of the caller's array
afterwards, result); arrays of any shape are flattened. -/
def shiftIn (x : List α) (L : α) (wh : Option (List Bool) := none) (copy : Bool := true) :
    List α × List α :=
  let x0 := x
  let mask := combineMask (x.map (fun a => decide (a < 0))) wh
  let x := addMasked x mask L
  let mask := combineMask (x.map (fun a => decide (a ≥ L))) wh
  let x := addMasked x mask (-L)
  (if copy then x0 else x, x)

/-- core/dataproc/frame.py:62-76 `PeriodicBox.shift_to` (`x_ref` already broadcast to the size of
`x`).  Both masks use the original `dx`. -/
def shiftTo (x xref : List α) (L : α) (wh : Option (List Bool) := none) (copy : Bool := true) :
    List α × List α :=
  let x0 := x
  let lHalf := (1 / 2) * L
  let dx := List.zipWith (fun a b => a - b) x xref
  let mask := combineMask (dx.map (fun a => decide (a < -lHalf))) wh
  let x := addMasked x mask L
  let mask := combineMask (dx.map (fun a => decide (a ≥ lHalf))) wh
  let x := addMasked x mask (-L)
  (if copy then x0 else x, x)

/-- core/dataproc/frame.py:78-83 `PeriodicBox.test_bound`. -/
def testBound (x : List α) (L : α) (wh : Option (List Bool) := none) : Bool :=
  let x : List α := match wh with
    | none => x
    | some w => ((x.zip w).filter (fun p : α × Bool => p.2)).map (fun p : α × Bool => p.1)
  x.all (fun a => decide (a ≥ 0) && decide (a < L))

end PeriodicBox

section Bound
variable {α : Type _} [LinearOrder α]

/-- core/dataproc/num.py:17-25 `Num.bound_scalar`.  Python's `max(x, lo)` returns `lo` iff
`lo > x`, `min(x, hi)` returns `hi` iff `hi < x`. -/
def boundScalar (x : Fl α) (lo hi : Option (Fl α)) : Fl α :=
  let x := match lo with
    | some l => if Fl.gt l x then l else x
    | none => x
  match hi with
    | some h => if Fl.lt h x then h else x
    | none => x

/-- core/dataproc/num.py:28-42 `Num.bound_array`.  Returns (contents of the caller's array
afterwards, result). -/
def boundArray (x : List (Fl α)) (lo hi : Option (Fl α)) (copy : Bool := true) :
    List (Fl α) × List (Fl α) :=
  let x0 := x
  let x := match lo with
    | some l => x.map (fun a => if Fl.lt a l then l else a)
    | none => x
  let x := match hi with
    | some h => x.map (fun a => if Fl.gt a h then h else a)
    | none => x
  (if copy then x0 else x, x)

end Bound

section Real
open Real

/-- `Num.bound(x, lo)` on a number without NaN (core/dataproc/num.py:5-25). -/
noncomputable def boundLo (x lo : ℝ) : ℝ := if lo > x then lo else x

/-- core/dataproc/num.py:44-46 `Num.safe_div` (one element). -/
noncomputable def safeDiv (x y : ℝ) (lo : ℝ := 1 / 10 ^ 10) : ℝ := x / boundLo y lo

/-- core/dataproc/num.py:48-52 `Num.lg`, log base 10. -/
noncomputable def lg (x : ℝ) : ℝ := Real.logb 10 x

/-- core/dataproc/num.py:54-63 `Num.safe_lg` (one element). -/
noncomputable def safeLg (x : ℝ) (lo : ℝ := 1 / 10 ^ 10) : ℝ := lg (boundLo x lo)

/-- core/dataproc/num.py:65-80 `Num.ln`, `Num.safe_ln` (one element). -/
noncomputable def safeLn (x : ℝ) (lo : ℝ := 1 / 10 ^ 10) : ℝ := Real.log (boundLo x lo)

/-- core/dataproc/num.py:82-85 `Num.norm` along the vector axis. -/
noncomputable def norm (x : List ℝ) : ℝ := Real.sqrt ((x.map (fun a => a ^ 2)).sum)

/-- core/dataproc/num.py:87-95 `Num.normalize` of one vector; `np.clip(n, lo, None)` is
`max(n, lo)`. -/
noncomputable def normalize (x : List ℝ) (lo : ℝ := 1 / 10 ^ 10) : List ℝ :=
  let n := norm x
  let n := max n lo
  x.map (fun a => a / n)

/-- A row of an (n,3) array. -/
structure V3 where
  x : ℝ
  y : ℝ
  z : ℝ

@[ext] theorem V3.ext' {a b : V3} (hx : a.x = b.x) (hy : a.y = b.y) (hz : a.z = b.z) : a = b := by
  cases a; cases b; simp_all

def V3.cross (a b : V3) : V3 :=
  ⟨a.y * b.z - a.z * b.y, a.z * b.x - a.x * b.z, a.x * b.y - a.y * b.x⟩
def V3.dot (a b : V3) : ℝ := a.x * b.x + a.y * b.y + a.z * b.z
def V3.add (a b : V3) : V3 := ⟨a.x + b.x, a.y + b.y, a.z + b.z⟩
def V3.smul (c : ℝ) (a : V3) : V3 := ⟨a.x * c, a.y * c, a.z * c⟩

/-- `Num.normalize` for a row of three numbers (core/dataproc/num.py:87-95). -/
noncomputable def V3.normalize (a : V3) (lo : ℝ := 1 / 10 ^ 10) : V3 :=
  let n := Real.sqrt (a.x ^ 2 + a.y ^ 2 + a.z ^ 2)
  let n := max n lo
  ⟨a.x / n, a.y / n, a.z / n⟩

/-- core/dataproc/frame.py:24-43 `Polar.rt_to_cart`, one row (floating point input: for integer
arrays the in-place division raises). -/
noncomputable def rtToCart (x v : V3) : V3 :=
  let vnewZ := x
  let voldZ : V3 := ⟨0, 0, 1⟩
  let vnewX := voldZ.cross vnewZ
  let vnewY := vnewZ.cross vnewX
  let vnewX := vnewX.normalize
  let vnewY := vnewY.normalize
  let vnewZ := vnewZ.normalize
  ((vnewX.smul v.x).add (vnewY.smul v.y)).add (vnewZ.smul v.z)

/-- core/dataproc/frame.py:5-15 `Polar.unit_vec_to_cart`. -/
noncomputable def unitVecToCart (theta phi : ℝ) : V3 :=
  ⟨sin theta * cos phi, sin theta * sin phi, cos theta⟩

end Real
end Pyhipp.Frame
