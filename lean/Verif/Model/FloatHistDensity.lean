import Verif.Model.FloatGrid
import Verif.Model.FloatReduce
import Verif.Model.Grid
import Verif.Model.Binning
/-
stats/density_estimation.py `_Histogram` in double precision, with the arithmetic of `np.histogramdd` written out.
-/
namespace Pyhipp.FloatHistDensity
open Pyhipp F64

/-- `np.histogramdd`: `searchsorted(edges, x, side='right')`, reduced by one where `x == edges[-1]`; 0 is below the first edge and
`len(edges)` beyond the last. -/
def slot (e : List Num) (x : Num) : Nat :=
  let k := (e.takeWhile (FloatGrid.notAfter x)).length
  if x ≠ .nan ∧ x = e.getLastD .nan then k - 1 else k

/-- The point is counted in cell `I` (the outer slots are cut off). -/
def inCell (grids : List (List Num)) (I : List Nat) (r : List Num) : Bool :=
  (grids.zip (I.zip r)).all (fun q => decide (slot q.1 q.2.2 = q.2.1 + 1))

/-- `np.bincount`: without weights integers, converted to floats; with weights sums in the order of the data, from 0.0. -/
def cellSum (grids : List (List Num)) (x : List (List Num)) (w : Option (List Num)) (I : List Nat) : Num :=
  match w with
  | none => ofQ (x.countP (inCell grids I) : ℕ)
  | some w => (((x.zip w).filter (fun p => inCell grids I p.1)).map (fun p => p.2)).foldl Num.add (.fin 0)

/-- `np.diff(edges)[i]`. -/
def width (g : List Num) (i : Nat) : Num := Num.sub (g.getD (i + 1) .nan) (g.getD i .nan)

/-- `hist = hist / dedges[i]` axis by axis, then `hist /= s`. -/
def norm (grids : List (List Num)) (I : List Nat) (v s : Num) : Num :=
  Num.div ((grids.zip I).foldl (fun v q => Num.div v (width q.1 q.2)) v) s

/-- stats/density_estimation.py:30-43 `_Histogram.fit` on doubles; `sum` is `hist.sum()`. -/
def fit (sum : List Num → Num) (grids : List (List Num)) (density : Bool) (x : List (List Num)) (w : Option (List Num)) :
    PyM (Grid.NDArr Num) := do
  pyAssert (x.all (fun r => r.length == grids.length))
  if (w.getD (x.map fun _ => .fin 1)).length ≠ x.length then .error .valueError else
  let shape := grids.map (fun g => g.length - 1)
  let counts := (Grid.indices shape).map (cellSum grids x w)
  let s := sum counts
  return { shape := shape,
           data := if density then (Grid.indices shape).map (fun I => norm grids I (cellSum grids x w I) s) else counts }

/-- stats/density_estimation.py:45-64 `_Histogram.__call__` at one point of as many coordinates as the grid has axes: (h, is_out). -/
def eval (grids : List (List Num)) (h : Grid.NDArr Num) (outFill : Num) (r : List Num) : PyM (Num × Bool) := do
  let ids := List.zipWith FloatGrid.locate grids r
  let isOut := (ids.zip grids).any (fun q => decide (q.1 < 0) || decide (q.1 ≥ (q.2.length : Int) - 1))
  let clipped := List.zipWith (fun id g => (Binning.clipInt id (some 0) (some ((List.length (α := Num) g : Int) - 2))).toNat) ids grids
  match h.get? clipped with
  | some v => return (if isOut then outFill else v, isOut)
  | none => .error .indexError

end Pyhipp.FloatHistDensity
