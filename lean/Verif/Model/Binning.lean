import Verif.Base.Sorted
import Mathlib.Algebra.Order.Floor.Ring
/-
Model of src/pyhipp/stats/binning.py.  1-d arrays are lists; exact arithmetic in an ordered
field replaces floating point; `floor(...)` conversion to int64 does not overflow.
-/
namespace Pyhipp.Binning
open Pyhipp

section B
variable {α : Type} [Field α] [LinearOrder α] [FloorRing α]

/-- stats/binning.py:174-188, 225-240: the two concrete `Bins` classes with the attributes
that `locate` and friends read. -/
inductive Bins (α : Type)
  | equal (b e : α) (nBins : Nat) (step : α)
  | bisearch (edges : List α)

/-- stats/binning.py:175-188 `EqualSpaceBins.__init__`. -/
def equalSpaceInit (b e : α) (nBins : Int) : PyM (Bins α) := do
  pyAssert (decide (b < e))
  pyAssert (decide (nBins > 0))
  let span := e - b
  let step := span / (nBins : α)
  return .equal b e nBins.toNat step

/-- stats/binning.py:226-240 `BiSearchBins.__init__` (1-d input). -/
def biSearchInit (edges : List α) : PyM (Bins α) := do
  let edges := npSort edges
  pyAssert (decide (edges.length ≥ 2))
  return .bisearch edges

/-- stats/binning.py:206-207, 256-257 `n_bins`. -/
def Bins.nBins : Bins α → Nat
  | .equal _ _ n _ => n
  | .bisearch edges => edges.length - 1

/-- stats/binning.py:210-211, 260-261 `x_edges`. -/
def Bins.edges : Bins α → List α
  | .equal b e n _ => linspace b e n
  | .bisearch edges => edges

/-- `np.clip(i, lo, hi)` for integers, either bound optional. -/
def clipInt (i : Int) (lo hi : Option Int) : Int :=
  let i := match lo with | some l => max i l | none => i
  match hi with | some h => min i h | none => i

/-- stats/binning.py:190-194 `EqualSpaceBins.locate`, 242-244 `BiSearchBins.locate`; one
element. -/
def Bins.locate (bs : Bins α) (x : α) : Int :=
  match bs with
  | .equal b _ n step =>
      let ids := Int.floor ((x - b) / step)
      clipInt ids (some (-1)) (some (n : Int))
  | .bisearch edges => (ssRight edges x : Int) - 1

/-- stats/binning.py:139-147 `Bins.locate_bound`, one element. -/
def Bins.locateBound (bs : Bins α) (x : α) (lower upper : Bool := true) : Int :=
  let ind := bs.locate x
  clipInt ind (if lower then some 0 else none) (if upper then some ((bs.nBins : Int) - 1) else none)

/-- stats/binning.py:149-159 `Bins.locate_nearest`, one element. -/
def Bins.locateNearest (bs : Bins α) (x : α) : PyM Int := do
  let indL := bs.locateBound x
  let indR := indL + 1
  let e := bs.edges
  let xL ← pyGet e indL
  let xR ← pyGet e indR
  let dL := x - xL
  let dR := xR - x
  return if dL < dR then indL else indR

/-- `data[id] += w` guarded by `0 <= id < n_bins`: loop bodies of
stats/binning.py:296-298 and 305-308. -/
def addOne (data : List α) (id : Int) (w : α) : List α :=
  if 0 ≤ id ∧ id < data.length then data.modify id.toNat (fun d => d + w) else data

/-- stats/binning.py:284-290 `BinnedData.add` with 292-308 (1-d data).  The numba assertion on
the lengths precedes any write; on failure the state is unchanged. -/
def addPoints (bs : Bins α) (data : List α) (x : List α) (weight : Option (List α)) :
    PyM (List α) :=
  let ids := x.map bs.locate
  match weight with
  | none => .ok (ids.foldl (fun d id => addOne d id 1) data)
  | some ws =>
      if ids.length = ws.length then
        .ok ((ids.zip ws).foldl (fun d iw => addOne d iw.1 iw.2) data)
      else .error .assertionError

/-- stats/binning.py:264-275 `BinnedData.__init__`: zeros. -/
def newData (bs : Bins α) : List α := List.replicate bs.nBins 0

/-- A history of `add` calls on one object; a failing call leaves the data unchanged and the
caller goes on. -/
def runAdds (bs : Bins α) : List α → List (List α × Option (List α)) → List α
  | data, [] => data
  | data, (x, w) :: t =>
      match addPoints bs data x w with
      | .ok d => runAdds bs d t
      | .error _ => runAdds bs data t

/-! ### class Bin -/

/-- stats/binning.py:61-70 `Bin.insert_sub_bins_into_edges`;
`np.linspace(e[:-1], e[1:], s, endpoint=False).T.ravel()` lists, interval by interval, the points
`e_i + j (e_{i+1} - e_i)/s`. -/
def insertSubBins (e : List α) (s : Nat) : PyM (List α) :=
  if s = 1 then .ok e else do
    let eNew := (List.zip e (e.drop 1)).flatMap (fun p =>
      (List.range s).map (fun j : Nat => p.1 + (j : α) * ((p.2 - p.1) / (s : α))))
    let eEnd ← pyGet e (-1)
    return eNew ++ [eEnd]

/-- `e[:-stride], e[stride:]` for `stride >= 1`. -/
def strided (e : List α) (stride : Nat) : List (α × α) :=
  (e.take (e.length - stride)).zip (e.drop stride)

/-- stats/binning.py:73-76 `Bin.edges_to_centers`. -/
def edgesToCenters (e : List α) (stride : Nat := 1) : List α :=
  (strided e stride).map (fun p => (1 / 2) * (p.1 + p.2))

/-- stats/binning.py:79-82 `Bin.edges_to_widths`. -/
def edgesToWidths (e : List α) (stride : Nat := 1) : List α :=
  (strided e stride).map (fun p => p.2 - p.1)

/-- stats/binning.py:85-105 `Bin.combine_adjacent_bins` (1-d). -/
def combineAdjacent (x : List α) (nComb : Int) : PyM (List α) := do
  pyAssert (decide (nComb ≥ 1))
  let nOut : Int := (x.length : Int) - nComb + 1
  pyAssert (decide (nOut > 0))
  let xOut := x.take nOut.toNat
  return (List.range (nComb.toNat - 1)).foldl (fun xo b0 =>
    List.zipWith (fun a b => a + b) xo ((x.drop (b0 + 1)).take nOut.toNat)) xOut

/-- The `bins` argument: a number of bins or an array of edges. -/
inductive BinSpec (α : Type)
  | num (n : Int)
  | edges (e : List α)

/-- stats/binning.py:36-58 `Bin.parse_sub_bin_spec`. -/
def parseSubBinSpec (bins : BinSpec α) (subBins : Int) (range : Option (α × α)) :
    PyM (BinSpec α × Int × (α × α)) := do
  pyAssert (decide (subBins ≥ 1))
  match bins with
  | .num n =>
      match range with
      | none => .error .assertionError
      | some r => return (.num (n * subBins), subBins, r)
  | .edges e =>
      let e' ← insertSubBins e subBins.toNat
      pyAssert range.isNone
      let lo ← pyGet e' 0
      let hi ← pyGet e' (-1)
      return (.edges e', subBins, (lo, hi))

/-- Edges used by `np.histogram(x, bins, range)`: for an integer, `n` equal bins over the range
(a degenerate range `(a, a)` is widened by 1/2 on each side, ValueError for `n < 1` or
`lo > hi`); for an array, the array itself, which must be sorted. -/
def histEdges (bins : BinSpec α) (range : α × α) : PyM (List α) :=
  match bins with
  | .num n =>
      if range.1 > range.2 then .error .valueError
      else if n < 1 then .error .valueError
      else if range.1 = range.2 then .ok (linspace (range.1 - 1 / 2) (range.2 + 1 / 2) n.toNat)
      else .ok (linspace range.1 range.2 n.toNat)
  | .edges e => if (npDiff e).all (fun d => decide (0 ≤ d)) then .ok e else .error .valueError

/-- Which samples `np.histogram` counts in bin `i` of the given edges: `[e_i, e_{i+1})`, the last
bin closed. -/
def inBin (e : List α) (i : Nat) (x : α) : Bool :=
  decide (e.getD i 0 ≤ x) &&
    (decide (x < e.getD (i + 1) 0) || (decide (i + 2 = e.length) && decide (x = e.getD (i + 1) 0)))

/-- `np.histogram` counts: weights (1 if omitted) summed per bin. -/
def histCounts (e : List α) (xw : List (α × α)) : List α :=
  (List.range (e.length - 1)).map (fun i =>
    ((xw.filter (fun p => inBin e i p.1)).map (fun p => p.2)).sum)

/-- The mapping returned by `from_overlapped_bins`. -/
structure OverlapHist (α : Type) where
  x : List α
  dx : List α
  h : List α
  subE : List α
  subH : List α

/-- stats/binning.py:108-119 `Hist1D.from_overlapped_bins`; ValueError of np.histogram when the
weights do not have the length of `x`. -/
def fromOverlappedBins (x : List α) (bins : BinSpec α) (subBins : Int) (range : α × α)
    (weights : Option (List α)) : PyM (OverlapHist α) := do
  let ws := weights.getD (x.map (fun _ => 1))
  if ws.length ≠ x.length then .error .valueError else
  let _e ← histEdges bins range
  let _h := histCounts _e (x.zip ws)
  let xc := edgesToCenters _e subBins.toNat
  let dx := edgesToWidths _e subBins.toNat
  let h ← combineAdjacent _h subBins
  return { x := xc, dx := dx, h := h, subE := _e, subH := h }

end B
end Pyhipp.Binning
