import Verif.Base.Py
import Verif.Base.Num
/-
Model of src/pyhipp/numerical/interpolate.py.

Arrays are lists; an access outside the array is an IndexError value (numba would read
garbage; the theorems show it does not happen).  Numbers are elements of an ordered field
(comparison-only functions: of a linear order); rounding is not modelled.
-/
namespace Pyhipp.Interpolate
open Pyhipp

section Order
variable {α : Type _} [LinearOrder α]

/-- numerical/interpolate.py:25-31, the `while r - l > 1` loop of `bisearch`. -/
def bisearchLoop (xs : List α) (v : α) (l r : Nat) : PyM Nat :=
  if _h : r - l > 1 then
    let c := (l + r) / 2
    match pyGet xs c with
    | .ok xc => if v < xc then bisearchLoop xs v l c else bisearchLoop xs v c r
    | .error e => .error e
  else .ok l
termination_by r - l

/-- numerical/interpolate.py:10-31 `bisearch`. -/
def bisearch (xs : List α) (v : α) : PyM Int := do
  let n := xs.length
  pyAssert (decide (n > 0))
  let x0 ← pyGet xs 0
  if v < x0 then return -1
  let l ← bisearchLoop xs v 0 n
  return (l : Int)

end Order

section Field
variable {α : Type _} [Field α] [LinearOrder α]

/-- numerical/interpolate.py:34-51 `bisearch_nearest`. -/
def bisearchNearest (xs : List α) (v : α) : PyM Int := do
  let l ← bisearch xs v
  let r := l + 1
  let n : Int := xs.length
  if l < 0 then return 0
  if r > n - 1 then return n - 1
  let xl ← pyGet xs l
  let xr ← pyGet xs r
  let dxl := v - xl
  let dxr := xr - v
  return if dxl < dxr then l else r

/-- numerical/interpolate.py:54-62 `bisearch_nearest_array` (for 1-d `x_dst`). -/
def bisearchNearestArray (xs : List α) (vs : List α) : PyM (List Int) :=
  vs.mapM (bisearchNearest xs)

/-- numerical/interpolate.py:65-77 `linear_interp_weight`. -/
def linearInterpWeight (x xl xr : α) : α × α :=
  let dxl := x - xl
  let dxr := xr - x
  let dx := dxl + dxr
  (dxr / dx, dxl / dx)

/-- numerical/interpolate.py:80-94 `bisearch_interp_weight`; result (l, r, w_l, w_r). -/
def bisearchInterpWeight (xs : List α) (v : α) : PyM (Int × Int × α × α) := do
  let l ← bisearch xs v
  if l < 0 then return (0, 0, 0, 1)
  let r := l + 1
  let n : Int := xs.length
  if r > n - 1 then return (n - 1, n - 1, 1, 0)
  let xl ← pyGet xs l
  let xr ← pyGet xs r
  let w := linearInterpWeight v xl xr
  return (l, r, w.1, w.2)

/-- numerical/interpolate.py:97-100 `bisearch_interp` (scalar-valued `y`). -/
def bisearchInterp (xs ys : List α) (v : α) : PyM α := do
  let (l, r, wl, wr) ← bisearchInterpWeight xs v
  let yl ← pyGet ys l
  let yr ← pyGet ys r
  return yl * wl + yr * wr

/-- numerical/interpolate.py:102-110 `bisearch_interp_fix_oob`. -/
def bisearchInterpFixOob (xs ys : List α) (v yLeft yRight : α) : PyM α := do
  let x0 ← pyGet xs 0
  if v < x0 then return yLeft
  let xn ← pyGet xs (-1)
  if v > xn then return yRight
  bisearchInterp xs ys v

/-- `y[i, j]` of a 2-d array given as the list of its rows. -/
def get2 (y : List (List α)) (i j : Int) : PyM α := do
  let row ← pyGet y i
  pyGet row j

/-- numerical/interpolate.py:112-122 `bisearch_interp_2d` (y shaped (n1, n2); trailing axes
of `y` are element-wise copies of the scalar case and not modelled). -/
def bisearchInterp2d (xs1 xs2 : List α) (y : List (List α)) (v1 v2 : α) : PyM α := do
  let (l1, r1, w1l, w1r) ← bisearchInterpWeight xs1 v1
  let (l2, r2, w2l, w2r) ← bisearchInterpWeight xs2 v2
  let yll ← get2 y l1 l2
  let ylr ← get2 y l1 r2
  let yrl ← get2 y r1 l2
  let yrr ← get2 y r1 r2
  return yll * (w1l * w2l) + ylr * (w1l * w2r) + yrl * (w1r * w2l) + yrr * (w1r * w2r)

/-- numerical/interpolate.py:124-128, fields of `Linear`. -/
structure Linear (α : Type _) where
  xNodes : List α
  yNodes : List α

/-- `x_nodes[1:] - x_nodes[:-1]` -/
def diffs : List α → List α
  | a :: b :: t => (b - a) :: diffs (b :: t)
  | _ => []

/-- numerical/interpolate.py:130-146 `Linear.__init__`.  `arr.all()` on a float array is
"no entry equals 0".  `x_nodes.shape == (n,)` always holds for a 1-d array. -/
def Linear.init [DecidableEq α] (xs ys : List α) (check : Bool := true) : PyM (Linear α) := do
  if check then
    let n := xs.length
    pyAssert (decide (ys.length = n))
    pyAssert ((diffs xs).all (fun d => decide (d ≠ 0)))
  pyAssert (decide (xs.length ≥ 2))
  return ⟨xs, ys⟩

/-- numerical/interpolate.py:148-152 `Linear.value_at`. -/
def Linear.valueAt (f : Linear α) (x : α) : PyM α :=
  bisearchInterp f.xNodes f.yNodes x

/-- numerical/interpolate.py:160-167, body of the loop in `Linear.derivative`. -/
def derivAt (xs ys : List α) (n i : Nat) : PyM α := do
  let il0 : Int := (i : Int) - 1
  let ir0 : Int := (i : Int) + 1
  let (il, ir) : Int × Int :=
    if il0 = -1 then (0, 1)
    else if ir0 = n then ((n : Int) - 2, (n : Int) - 1)
    else (il0, ir0)
  let xl ← pyGet xs il
  let xr ← pyGet xs ir
  let yl ← pyGet ys il
  let yr ← pyGet ys ir
  return (yr - yl) / (xr - xl)

/-- numerical/interpolate.py:154-170 `Linear.derivative`. -/
def Linear.derivative [DecidableEq α] (f : Linear α) : PyM (Linear α) := do
  let n := f.xNodes.length
  let yds ← (List.range n).mapM (derivAt f.xNodes f.yNodes n)
  Linear.init f.xNodes yds (check := false)

end Field
end Pyhipp.Interpolate
