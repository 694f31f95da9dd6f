import Verif.Model.FloatGrid
import Verif.Model.Binning
/-
The helpers of class Bin and Hist1D of stats/binning.py in double precision (Model/Binning.lean has them over exact numbers).  `np.linspace` is written out
as numpy computes it for arrays of ends.
-/
namespace Pyhipp.FloatSubBins
open Pyhipp Pyhipp.F64
open Pyhipp.Binning (BinSpec)

/-- `e[:-stride], e[stride:]` for `stride >= 1`, paired. -/
def strided (e : List Num) (stride : Nat) : List (Num × Num) := (e.take (e.length - stride)).zip (e.drop stride)

/-- stats/binning.py:73-76 `Bin.edges_to_centers`: `.5 * ( lo + hi )`. -/
def edgesToCenters (e : List Num) (stride : Nat) : List Num := (strided e stride).map fun p => Num.mul (.fin (1 / 2)) (Num.add p.1 p.2)

/-- stats/binning.py:79-82 `Bin.edges_to_widths`: `hi - lo`. -/
def edgesToWidths (e : List Num) (stride : Nat) : List Num := (strided e stride).map fun p => Num.sub p.2 p.1

/-- stats/binning.py:85-105 `Bin.combine_adjacent_bins` for a one-dimensional array with the addition `add` of its dtype. -/
def combineBy {β : Type} (add : β → β → β) (x : List β) (nComb : Int) : PyM (List β) := do
  pyAssert (decide (nComb ≥ 1))
  let nOut : Int := (x.length : Int) - nComb + 1
  pyAssert (decide (nOut > 0))
  let xOut := x.take nOut.toNat
  return (List.range (nComb.toNat - 1)).foldl (fun xo b0 => List.zipWith add xo ((x.drop (b0 + 1)).take nOut.toNat)) xOut

/-- `Bin.combine_adjacent_bins` of a float64 array. -/
def combine (x : List Num) (nComb : Int) : PyM (List Num) := combineBy Num.add x nComb

/-- Sub-edge `j` of the interval `(a, b)` in `np.linspace(e[:-1], e[1:], s, endpoint=False)`: `j*step + a`; but numpy uses `(j/s)*(b - a) + a` for all the intervals
as soon as the step of one of them is zero. -/
def subEdge (anyZero : Bool) (s j : Nat) (a b : Num) : Num :=
  let delta := Num.sub b a
  if anyZero then Num.add (Num.mul (Num.div (ofQ j) (ofQ s)) delta) a
  else Num.add (Num.mul (ofQ j) (Num.div delta (ofQ s))) a

/-- `(step == 0).any()` of numpy. -/
def anyStepZero (ps : List (Num × Num)) (s : Nat) : Bool := ps.any fun p => decide (Num.div (Num.sub p.2 p.1) (ofQ s) = .fin 0)

/-- stats/binning.py:61-70 `Bin.insert_sub_bins_into_edges`; IndexError for no edges. -/
def insertSubBins (e : List Num) (s : Nat) : PyM (List Num) :=
  if s = 1 then .ok e else do
    let ps := e.zip (e.drop 1)
    let z := anyStepZero ps s
    let eNew := ps.flatMap fun p => (List.range s).map fun j : Nat => subEdge z s j p.1 p.2
    let eEnd ← pyGet e (-1)
    return eNew ++ [eEnd]

/-- `np.isfinite`. -/
def isFinite : Num → Bool
  | .fin _ => true
  | _ => false

/-- No edge exceeds the next: `not np.any(bin_edges[:-1] > bin_edges[1:])`. -/
def noDescent (e : List Num) : Bool := (e.zip (e.drop 1)).all fun p => !Num.lt p.2 p.1

/-- Edges used by `np.histogram(x, bins, range)`: for a number, equal bins over the range, which has to be finite and ordered (a range of one value is widened
by 1/2 on both sides); for an array the array itself, which must not descend. -/
def histEdges (bins : BinSpec Num) (range : Num × Num) : PyM (List Num) :=
  match bins with
  | .num n =>
      if Num.lt range.2 range.1 || !(isFinite range.1 && isFinite range.2) || decide (n < 1) then .error .valueError
      else if range.1 = range.2 then .ok (FloatGrid.linspace (Num.sub range.1 (.fin (1 / 2))) (Num.add range.2 (.fin (1 / 2))) (n.toNat + 1))
      else .ok (FloatGrid.linspace range.1 range.2 (n.toNat + 1))
  | .edges e => if noDescent e then .ok e else .error .valueError

/-- Which samples `np.histogram` counts in bin `i`: those of `[e_i, e_{i+1})`, the last bin closed (its documented contract). -/
def inBin (e : List Num) (i : Nat) (x : Num) : Bool :=
  Num.le (e.getD i .nan) x && (Num.lt x (e.getD (i + 1) .nan) || (decide (i + 2 = e.length) && decide (x = e.getD (i + 1) .nan)))

/-- The counts of `np.histogram` without weights (integers). -/
def histCounts (e xs : List Num) : List ℤ := (List.range (e.length - 1)).map fun i : Nat => ((xs.countP (inBin e i) : Nat) : ℤ)

/-- The mapping returned by `from_overlapped_bins`. -/
structure OverlapHist where
  x : List Num
  dx : List Num
  h : List ℤ
  subE : List Num
  subH : List ℤ

/-- stats/binning.py:108-119 `Hist1D.from_overlapped_bins` without weights, hence with integer counts. -/
def fromOverlappedBins (x : List Num) (bins : BinSpec Num) (subBins : Int) (range : Num × Num) : PyM OverlapHist := do
  let _e ← histEdges bins range
  let _h := histCounts _e x
  let xc := edgesToCenters _e subBins.toNat
  let dx := edgesToWidths _e subBins.toNat
  let h ← combineBy (· + ·) _h subBins
  return { x := xc, dx := dx, h := h, subE := _e, subH := h }

end Pyhipp.FloatSubBins
