import Verif.Model.Regression
/-
Model of stats/density_estimation.py `DensityEstimationND.by_histogram` as it is called: conversion of the array arguments, the
whole batch of query points, every entry of the returned dictionary, and query arrays whose number of columns differs from the
number of axes of the grid (which the code does not check).
-/
namespace Pyhipp.HistDensity
open Pyhipp Regression

/-- An array argument by its number of dimensions; a 2-D array carries its number of columns, which its rows do not tell when it
has none. -/
inductive In (α : Type) where
  | d1 (l : List α)
  | d2 (cols : Nat) (rows : List (List α))
  | other

section
variable {α : Type} [Field α] [LinearOrder α]

/-- stats/density_estimation.py:13-19 `_cvt_x_shape`: number of columns and rows. -/
def cvt : In α → PyM (Nat × List (List α))
  | .d1 l => .ok (1, l.map (fun a => [a]))
  | .d2 cols rows => .ok (cols, rows)
  | .other => .error .assertionError

/-- stats/density_estimation.py:30-43 `_Histogram.fit`. -/
def fit (grids : List (List α)) (density : Bool) (x : In α) (w : Option (List α)) : PyM (Grid.NDArr α) := do
  let X ← cvt x
  pyAssert (X.1 == grids.length)
  histFit grids density X.2 w

/-- The dictionary returned (stats/density_estimation.py:61-64), without the `out_fill` handed back. -/
structure Out (α : Type) where
  ids : List (List Int)
  clipped : List (List Int)
  h : Grid.NDArr α
  isOut : List Bool

/-- stats/density_estimation.py:54-55: `(id < 0) | (id >= n_loc-1)`. -/
def outside (g : List α) (id : Int) : Bool := decide (id < 0) || decide (id ≥ (g.length : Int) - 1)

/-- stats/density_estimation.py:53-55: the accumulated flag of point `j`. -/
def flag (used : List (List α)) (ids : List (List Int)) (j : Nat) : Bool :=
  (ids.zip used).any (fun q => outside q.2 (q.1.getD j 0))

/-- stats/density_estimation.py:56-57: `id.clip(0, n_loc-2)`. -/
def clip (g : List α) (id : Int) : Int := Binning.clipInt id (some 0) (some ((g.length : Int) - 2))

/-- The multi-index used for point `j`. -/
def at_ (clipped : List (List Int)) (j : Nat) : List Nat := clipped.map (fun c => (c.getD j 0).toNat)

/-- stats/density_estimation.py:58-59: `h = self._h[clipped_ids]; h[is_out] = out_fill`.  Advanced indexing by `m` index arrays of
length `n` gives an array of shape `(n, *h.shape[m:])`; an index outside its axis is an IndexError.  (A negative index counts from
the end, but `clip` gives one only for an axis of length 0, where it is an IndexError as well.) -/
def gather (h : Grid.NDArr α) (clipped : List (List Int)) (isOut : List Bool) (n : Nat) (outFill : α) : PyM (Grid.NDArr α) :=
  if (clipped.zip h.shape).all (fun q => q.1.all (fun i => decide (0 ≤ i) && decide (i < (q.2 : Int)))) then
    let shape := n :: h.shape.drop clipped.length
    .ok { shape := shape,
          data := (Grid.indices shape).map (fun K =>
            if isOut.getD (K.headD 0) false then outFill else (h.get? (at_ clipped (K.headD 0) ++ K.tail)).getD 0) }
  else .error .indexError

/-- stats/density_estimation.py:45-64 `_Histogram.__call__`; `zip(x.T, grids)` in core/dataproc/grid.py:145-150 stops at the
shorter of the two; `ids[0]` of no indices is an IndexError. -/
def call (grids : List (List α)) (h : Grid.NDArr α) (outFill : α) (x : In α) : PyM (Out α) := do
  let X ← cvt x
  let used := grids.take X.1
  let ids := Grid.locateMd used X.2
  if ids.isEmpty then .error .indexError else
  let n := X.2.length
  let isOut := (List.range n).map (flag used ids)
  let clipped := List.zipWith (fun id g => id.map (clip g)) ids used
  let hv ← gather h clipped isOut n outFill
  return { ids := ids, clipped := clipped, h := hv, isOut := isOut }

/-- stats/density_estimation.py:185-231 `DensityEstimationND.by_histogram`. -/
def byHistogram (grids : List (List α)) (x xPred : In α) (density : Bool) (w : Option (List α)) (outFill : α) : PyM (Out α) := do
  let h ← fit grids density x w
  call grids h outFill xPred

end
end Pyhipp.HistDensity
