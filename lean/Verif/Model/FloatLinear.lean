import Verif.Base.Float64
import Verif.Base.Py
/-
numerical/interpolate.py in double precision, rounding, infinities and NaN included (Model/Interpolate.lean has the same code over exact numbers).
-/
namespace Pyhipp.FloatLinear
open Pyhipp F64

/-- numerical/interpolate.py:25-31, the `while r - l > 1` loop of `bisearch`. -/
def searchLoop (xs : List Num) (v : Num) (l r : Nat) : PyM Nat :=
  if _h : r - l > 1 then
    let c := (l + r) / 2
    match pyGet xs c with
    | .ok xc => if Num.lt v xc then searchLoop xs v l c else searchLoop xs v c r
    | .error e => .error e
  else .ok l
termination_by r - l

/-- numerical/interpolate.py:10-31 `bisearch`. -/
def search (xs : List Num) (v : Num) : PyM Int := do
  let n := xs.length
  pyAssert (decide (n > 0))
  let x0 ← pyGet xs 0
  if Num.lt v x0 then return -1
  let l ← searchLoop xs v 0 n
  return (l : Int)

/-- numerical/interpolate.py:34-51 `bisearch_nearest`. -/
def nearest (xs : List Num) (v : Num) : PyM Int := do
  let l ← search xs v
  let r := l + 1
  let n : Int := xs.length
  if l < 0 then return 0
  if r > n - 1 then return n - 1
  let xl ← pyGet xs l
  let xr ← pyGet xs r
  let dxl := Num.sub v xl
  let dxr := Num.sub xr v
  return if Num.lt dxl dxr then l else r

/-- `x / y` of two scalars in code compiled by numba (its default error model is that of Python). -/
def pyDiv (x y : Num) : PyM Num := if y = .fin 0 then .error .zeroDivisionError else .ok (Num.div x y)

/-- numerical/interpolate.py:65-77 `linear_interp_weight`. -/
def weight (x xl xr : Num) : PyM (Num × Num) := do
  let dxl := Num.sub x xl
  let dxr := Num.sub xr x
  let dx := Num.add dxl dxr
  let wl ← pyDiv dxr dx
  let wr ← pyDiv dxl dx
  return (wl, wr)

/-- numerical/interpolate.py:80-94 `bisearch_interp_weight`; result (l, r, w_l, w_r). -/
def interpWeight (xs : List Num) (v : Num) : PyM (Int × Int × Num × Num) := do
  let l ← search xs v
  if l < 0 then return (0, 0, .fin 0, .fin 1)
  let r := l + 1
  let n : Int := xs.length
  if r > n - 1 then return (n - 1, n - 1, .fin 1, .fin 0)
  let xl ← pyGet xs l
  let xr ← pyGet xs r
  let w ← weight v xl xr
  return (l, r, w.1, w.2)

/-- numerical/interpolate.py:97-100 `bisearch_interp`. -/
def interp (xs ys : List Num) (v : Num) : PyM Num := do
  let (l, r, wl, wr) ← interpWeight xs v
  let yl ← pyGet ys l
  let yr ← pyGet ys r
  return Num.add (Num.mul yl wl) (Num.mul yr wr)

/-- numerical/interpolate.py:102-110 `bisearch_interp_fix_oob`. -/
def interpFixOob (xs ys : List Num) (v yLeft yRight : Num) : PyM Num := do
  let x0 ← pyGet xs 0
  if Num.lt v x0 then return yLeft
  let xn ← pyGet xs (-1)
  if Num.lt xn v then return yRight
  interp xs ys v

/-- numerical/interpolate.py:124-128, fields of `Linear`. -/
structure Linear where
  xNodes : List Num
  yNodes : List Num

/-- `x_nodes[1:] - x_nodes[:-1]` -/
def diffs : List Num → List Num
  | a :: b :: t => Num.sub b a :: diffs (b :: t)
  | _ => []

/-- numerical/interpolate.py:130-146 `Linear.__init__`; `arr.all()` on a float array is "no entry equals 0" (NaN is not 0). -/
def Linear.init (xs ys : List Num) (check : Bool) : PyM Linear := do
  if check then
    pyAssert (decide (ys.length = xs.length))
    pyAssert ((diffs xs).all (fun d => decide (d ≠ .fin 0)))
  pyAssert (decide (xs.length ≥ 2))
  return ⟨xs, ys⟩

/-- numerical/interpolate.py:148-152 `Linear.value_at`. -/
def Linear.valueAt (f : Linear) (x : Num) : PyM Num := interp f.xNodes f.yNodes x

/-- numerical/interpolate.py:160-167: the two nodes used for the slope at node `i`. -/
def slopeNodes (n i : Nat) : Int × Int :=
  if (i : Int) - 1 = -1 then (0, 1) else if (i : Int) + 1 = n then ((n : Int) - 2, (n : Int) - 1) else ((i : Int) - 1, (i : Int) + 1)

/-- numerical/interpolate.py:160-168, body of the loop in `Linear.derivative`. -/
def slopeAt (xs ys : List Num) (i : Nat) : PyM Num := do
  let p := slopeNodes xs.length i
  let xl ← pyGet xs p.1
  let xr ← pyGet xs p.2
  let yl ← pyGet ys p.1
  let yr ← pyGet ys p.2
  pyDiv (Num.sub yr yl) (Num.sub xr xl)

/-- numerical/interpolate.py:154-170 `Linear.derivative`. -/
def Linear.derivative (f : Linear) : PyM Linear := do
  let yds ← (List.range f.xNodes.length).mapM (slopeAt f.xNodes f.yNodes)
  Linear.init f.xNodes yds false

end Pyhipp.FloatLinear
