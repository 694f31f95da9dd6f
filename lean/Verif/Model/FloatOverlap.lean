import Verif.Model.FloatSubBins
/-
Weighted overlapping histograms (stats/binning.py:108-119 with `weights`) in double precision.  The sums of np.histogram are written out as numpy computes them, since
its two algorithms differ: for a number of bins the weights of each bin are added one after the other (`np.bincount`); for an array of edges the samples
are sorted, the weights are summed up cumulatively, and the bins are differences of the cumulative sums.  Both work on blocks of 65536 samples.

Simplifications: the bin of a sample and `searchsorted` are taken by their documented contracts; the order in which the sort leaves equal samples is a
parameter (numpy's default sort is not stable).
-/
namespace Pyhipp.FloatOverlap
open Pyhipp Pyhipp.F64
open Pyhipp.Binning (BinSpec)
open Pyhipp.FloatSubBins (inBin histEdges edgesToCenters edgesToWidths combine)

/-- `for i in range(0, len(a), BLOCK): a[i:i+BLOCK]` of np.histogram. -/
def blocks {α : Type} (B : Nat) (l : List α) : List (List α) := (List.range ((l.length + B - 1) / B)).map fun k : Nat => (l.drop (k * B)).take B

/-- `BLOCK = 65536` of np.histogram. -/
def blockSize : Nat := 65536

/-- Doubles added one after the other, from zero. -/
def seqAdd (ws : List Num) : Num := ws.foldl Num.add (.fin 0)

/-- `np.bincount(indices, weights=tmp_w, minlength=n_equal_bins)` of a block of samples and weights. -/
def binSums (e : List Num) (ps : List (Num × Num)) : List Num :=
  (List.range (e.length - 1)).map fun i : Nat => seqAdd ((ps.filter fun p => inBin e i p.1).map fun p => p.2)

/-- np.histogram for a number of bins: `n += np.bincount(...)` for each block. -/
def histEqual (e : List Num) (bs : List (List (Num × Num))) : List Num :=
  bs.foldl (fun n b => List.zipWith Num.add n (binSums e b)) (List.replicate (e.length - 1) (.fin 0))

/-- Which samples `searchsorted(edges[:-1], 'left')`, `searchsorted(edges[-1:], 'right')` put before edge `j`. -/
def below (e : List Num) (j : Nat) (x : Num) : Bool :=
  if j + 1 = e.length then Num.le x (e.getD j .nan) else Num.lt x (e.getD j .nan)

/-- `cw[bin_index]` of a sorted block, with `cw = concatenate((zero, sw.cumsum()))`. -/
def cumAt (e : List Num) (sorted : List (Num × Num)) : List Num :=
  (List.range e.length).map fun j : Nat => seqAdd ((sorted.map fun p => p.2).take (sorted.countP fun p => below e j p.1))

/-- `np.diff(cum_n)`. -/
def diff (c : List Num) : List Num := List.zipWith (fun a b => Num.sub b a) c (c.drop 1)

/-- np.histogram for an array of edges: `cum_n += cw[bin_index]` for each block, then `np.diff(cum_n)`. -/
def histCum (sort : List (Num × Num) → List (Num × Num)) (e : List Num) (bs : List (List (Num × Num))) : List Num :=
  diff (bs.foldl (fun c b => List.zipWith Num.add c (cumAt e (sort b))) (List.replicate e.length (.fin 0)))

/-- The sums `_h` of `np.histogram(x, bins, range, weights)`. -/
def histWeights (sort : List (Num × Num) → List (Num × Num)) (bins : BinSpec Num) (e : List Num) (ps : List (Num × Num)) : List Num :=
  match bins with
  | .num _ => histEqual e (blocks blockSize ps)
  | .edges _ => histCum sort e (blocks blockSize ps)

/-- The mapping returned by `from_overlapped_bins` with weights. -/
structure OverlapHist where
  x : List Num
  dx : List Num
  h : List Num
  subE : List Num
  subH : List Num

/-- stats/binning.py:108-119 `Hist1D.from_overlapped_bins` with weights (float64); weights of another length are a ValueError of np.histogram. -/
def fromOverlappedBins (sort : List (Num × Num) → List (Num × Num)) (x w : List Num) (bins : BinSpec Num) (subBins : Int) (range : Num × Num) : PyM OverlapHist := do
  if w.length ≠ x.length then .error .valueError else
  let _e ← histEdges bins range
  let _h := histWeights sort bins _e (x.zip w)
  let xc := edgesToCenters _e subBins.toNat
  let dx := edgesToWidths _e subBins.toNat
  let h ← combine _h subBins
  return { x := xc, dx := dx, h := h, subE := _e, subH := h }

end Pyhipp.FloatOverlap
