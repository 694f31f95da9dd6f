import Verif.Model.Binning
import Verif.Model.Interpolate
/-
Arrays with more axes than the first one in stats/binning.py (`BinnedData` with a shape, `combine_adjacent_bins`) and numerical/interpolate.py (values `y` with trailing axes).

Simplifications: an array of shape (n, ...) is the list of its n rows, a row being the list of its entries in C order; exact arithmetic as in Model/Binning and
Model/Interpolate; weights of samples are numbers or rows of the shape of the data (other shapes that numba broadcasts are left out).
-/
namespace Pyhipp.TrailingAxes
open Pyhipp Binning Interpolate

section
variable {α : Type} [Field α] [LinearOrder α] [FloorRing α]

/-- `row * w`. -/
def scale (row : List α) (w : α) : List α := row.map (fun v => v * w)

/-- `a + b` of rows of one shape. -/
def addRows (a b : List α) : List α := List.zipWith (fun u v => u + v) a b

/-- numerical/interpolate.py:97-100 `bisearch_interp` for `y` of shape (n, ...). -/
def interp (xs : List α) (y : List (List α)) (v : α) : PyM (List α) := do
  let (l, r, wl, wr) ← bisearchInterpWeight xs v
  let yl ← pyGet y l
  let yr ← pyGet y r
  return addRows (scale yl wl) (scale yr wr)

/-- `y[i, j]` of an array of shape (n1, n2, ...). -/
def get2 (y : List (List (List α))) (i j : Int) : PyM (List α) := do
  let row ← pyGet y i
  pyGet row j

/-- numerical/interpolate.py:112-122 `bisearch_interp_2d` for `y` of shape (n1, n2, ...). -/
def interp2d (xs1 xs2 : List α) (y : List (List (List α))) (v1 v2 : α) : PyM (List α) := do
  let (l1, r1, w1l, w1r) ← bisearchInterpWeight xs1 v1
  let (l2, r2, w2l, w2r) ← bisearchInterpWeight xs2 v2
  let yll ← get2 y l1 l2
  let ylr ← get2 y l1 r2
  let yrl ← get2 y r1 l2
  let yrr ← get2 y r1 r2
  return addRows (addRows (addRows (scale yll (w1l * w2l)) (scale ylr (w1l * w2r))) (scale yrl (w1r * w2l))) (scale yrr (w1r * w2r))

/-- stats/binning.py:85-105 `Bin.combine_adjacent_bins` for an array of shape (n, ...). -/
def combine (x : List (List α)) (nComb : Int) : PyM (List (List α)) := do
  pyAssert (decide (nComb ≥ 1))
  let nOut : Int := (x.length : Int) - nComb + 1
  pyAssert (decide (nOut > 0))
  let xOut := x.take nOut.toNat
  return (List.range (nComb.toNat - 1)).foldl (fun xo b0 => List.zipWith addRows xo ((x.drop (b0 + 1)).take nOut.toNat)) xOut

/-- stats/binning.py:272-275 `np.zeros((n_bins,) + shape)` with `m` the product of `shape`. -/
def newData (bs : Bins α) (m : Nat) : List (List α) := List.replicate bs.nBins (List.replicate m 0)

/-- `data[id] += w` guarded by `0 <= id < n_bins` (stats/binning.py:296-298, 305-308). -/
def addOne (data : List (List α)) (id : Int) (w : List α) : List (List α) :=
  if 0 ≤ id ∧ id < data.length then data.modify id.toNat (fun d => addRows d w) else data

/-- The weights given to `add`: a number for each sample, or a row for each sample. -/
inductive Weights (α : Type)
  | numbers (w : List α)
  | rows (w : List (List α))

/-- The rows added: `data[id] += 1` and a number `weights[i]` go to every entry of the row. -/
def Weights.perSample (m : Nat) : Weights α → List (List α)
  | .numbers w => w.map (fun v => List.replicate m v)
  | .rows w => w

/-- stats/binning.py:284-308 `BinnedData.add`. -/
def addPoints (bs : Bins α) (m : Nat) (data : List (List α)) (x : List α) (weight : Option (Weights α)) : PyM (List (List α)) :=
  let ids := x.map bs.locate
  match weight with
  | none => .ok (ids.foldl (fun d id => addOne d id (List.replicate m 1)) data)
  | some w =>
      if ids.length = (w.perSample m).length then .ok ((ids.zip (w.perSample m)).foldl (fun d p => addOne d p.1 p.2) data)
      else .error .assertionError

/-- A history of `add` calls on one object; a failing call leaves the data unchanged and the caller goes on. -/
def runAdds (bs : Bins α) (m : Nat) : List (List α) → List (List α × Option (Weights α)) → List (List α)
  | data, [] => data
  | data, (x, w) :: t =>
      match addPoints bs m data x w with
      | .ok d => runAdds bs m d t
      | .error _ => runAdds bs m data t

end
end Pyhipp.TrailingAxes
