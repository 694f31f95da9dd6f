import Verif.Model.Grid
import Verif.Model.Reduction
/-
Model of the ways to make a grid in src/pyhipp/core/dataproc/grid.py: from slices, from other
grids, through `GridMd.at[...]` and from the range of some data.

Numbers are elements of an ordered field (no rounding, no NaN).
-/
namespace Pyhipp.GridMake
open Pyhipp Pyhipp.Grid Pyhipp.Reduction

section G
variable {α : Type} [Field α] [LinearOrder α] [FloorRing α]

/-- The step of a slice: absent, a real number, or an imaginary number `c j`. -/
inductive Step (α : Type)
  | none
  | real (d : α)
  | imag (c : α)

/-- What a user may pass for one axis: an array of locations, another 1-d grid (given by its
stored locations), or a slice `start:stop:step` (`start` may be absent; `stop` is a number). -/
inductive Axis (α : Type)
  | locs (l : List α)
  | grid (l : List α)
  | slice (start : Option α) (stop : α) (step : Step α)

/-- `np.arange(start, stop, step)` for Python numbers: `ceil((stop - start) / step)` values
(none if that is negative), the `i`-th is `start + i*step`; a step of zero raises
ZeroDivisionError. -/
def npArange (start stop step : α) : PyM (List α) :=
  if step = 0 then .error .zeroDivisionError
  else .ok ((List.range (Int.ceil ((stop - start) / step)).toNat).map
    (fun i : Nat => start + (i : α) * step))

/-- `np.mgrid[start:stop:c j]` of one slice with an imaginary step: `length = int(abs(c))`
values `i*step + start` where `step = (stop - start) / (length - 1)` unless `length == 1`. -/
def mgridImag (start stop c : α) : List α :=
  let length : Nat := (Int.floor |c|).toNat
  let step : α := if length ≠ 1 then (stop - start) / ((length : α) - 1) else 1
  (List.range length).map (fun i : Nat => (i : α) * step + start)

/-- `np.mgrid[start:stop:step]` of one slice. -/
def mgrid (start : Option α) (stop : α) : Step α → PyM (List α)
  | .none => npArange (start.getD 0) stop 1
  | .real d => npArange (start.getD 0) stop d
  | .imag c => .ok (mgridImag (start.getD 0) stop c)

/-- core/dataproc/grid.py:13-25 `Grid1d.__init__`: the stored locations. -/
def grid1d : Axis α → PyM (List α)
  | .locs l => grid1dInit l
  | .grid l => grid1dInit l
  | .slice a b s => do
      let l ← mgrid a b s
      grid1dInit l

/-- core/dataproc/grid.py:78-85 `GridMd.__init__(*grids_1d)`. -/
def gridMd (axes : List (Axis α)) : PyM (List (List α)) := do
  let gs ← axes.mapM grid1d
  pyAssert (decide (gs.length ≥ 1))
  return gs

/-- The subscript of `GridMd.at[...]`: a tuple or one object. -/
inductive Key (α : Type)
  | tuple (l : List (Axis α))
  | one (a : Axis α)

/-- core/dataproc/grid.py:50-53 `_GridMdAt.__getitem__`. -/
def gridAt : Key α → PyM (List (List α))
  | .tuple l => gridMd l
  | .one a => gridMd [a]

/-- `np.linspace(a, b, num)`: ValueError for a negative number of points. -/
def npLinspace (a b : α) (num : Int) : PyM (List α) :=
  if num < 0 then .error .valueError
  else match num.toNat with
    | 0 => .ok []
    | 1 => .ok [a]
    | k + 2 => .ok (linspace a b (k + 1))

/-- `np.quantile(data, (p_lo, p_hi))`: ValueError for a probability outside [0, 1]; an empty
array raises IndexError (numpy >= 1.22; no theorem depends on it). -/
def npQuantile2 (data : List α) (pLo pHi : α) : PyM (α × α) :=
  if ¬ (0 ≤ pLo ∧ pLo ≤ 1 ∧ 0 ≤ pHi ∧ pHi ≤ 1) then .error .valueError
  else if data.length = 0 then .error .indexError
  else .ok (npQuantile data pLo, npQuantile data pHi)

/-- The argument `n` of `from_data_range`. -/
inductive Num
  | scalar (n : Int)
  | array (l : List Int)

/-- core/dataproc/grid.py:90-94: one pass of the loop. -/
def rangeAxis (pLo pHi : α) (data : List α) (n : Int) : PyM (List α) := do
  let q ← npQuantile2 data pLo pHi
  npLinspace q.1 q.2 n

/-- core/dataproc/grid.py:87-95 `GridMd.from_data_range(*data_1d, p_lo=0., p_hi=1., n=32)`. -/
def fromDataRange (data : List (List α)) (pLo : α := 0) (pHi : α := 1) (n : Num := .scalar 32) :
    PyM (List (List α)) := do
  let ns := match n with
    | .scalar k => List.replicate data.length k
    | .array l => l
  let grids ← (data.zip ns).mapM (fun d => rangeAxis pLo pHi d.1 d.2)
  gridMdInit grids

/-- core/dataproc/grid.py:145-150 `GridMd.locate` of an array of `x` rows with `m` columns
(`x.T` has `m` rows): `zip` of the columns and the axes. -/
def locateRect (grids : List (List α)) (m : Nat) (x : List (List α)) : List (List Int) :=
  let xT := (List.range m).map (fun k : Nat => x.map (fun row => row.getD k 0))
  (xT.zip grids).map (fun c => c.1.map (locate c.2))

end G
end Pyhipp.GridMake
