import Verif.Base.Py
import Verif.Base.Sorted
import Mathlib.Algebra.Order.Field.Basic
/-
Model of src/pyhipp/plot/two_dim.py: Histogram2D, KNearestNeighbor2D and Scatter2D.

Numbers are elements of an ordered field; matplotlib's drawing is left out, what is handed to it is modelled.
-/
namespace Pyhipp.TwoDim
open Pyhipp

variable {K : Type} [Field K] [LinearOrder K] [IsStrictOrderedRing K]

/-- The `x_bins` argument: a number of bins or their edges. -/
inductive Bins (K : Type) where
  | count (n : Nat)
  | edges (e : List K)

/-- Are the edges in increasing order (equal neighbours allowed)? -/
def increasing : List K → Bool
  | a :: b :: t => decide (a ≤ b) && increasing (b :: t)
  | _ => true

/-- numpy's edges: a number of equal bins over the range (a range of zero width is widened by 1/2 to both sides), or the given edges. -/
def edgesOf (bins : Bins K) (range : K × K) : PyM (List K) := match bins with
  | .count n =>
      if n = 0 ∨ range.2 < range.1 then .error .valueError
      else if range.1 = range.2 then .ok (linspace (range.1 - 1 / 2) (range.2 + 1 / 2) n)
      else .ok (linspace range.1 range.2 n)
  | .edges e => if increasing e && decide (2 ≤ e.length) then .ok e else .error .valueError

/-- `np.histogramdd`: `searchsorted(side='right')`, less one for values on the last edge. -/
def rawBin (e : List K) (x : K) : Nat := if e.getLast? = some x then ssRight e x - 1 else ssRight e x

/-- `np.histogramdd`: the bin of a coordinate; the two bins of outliers are cut off. -/
def cellOf (e : List K) (x : K) : Option Nat :=
  if 1 ≤ rawBin e x ∧ rawBin e x ≤ e.length - 1 then some (rawBin e x - 1) else none

/-- A data point with its weight (1 if none are given). -/
structure Pt (K : Type) where
  x : K
  y : K
  w : K

/-- `np.histogram2d`: the weight in cell (i, j). -/
def count (xe ye : List K) (pts : List (Pt K)) (i j : Nat) : K :=
  ((pts.filter (fun p => decide (cellOf xe p.x = some i ∧ cellOf ye p.y = some j))).map Pt.w).sum

/-- The histogram's total. -/
def total (xe ye : List K) (pts : List (Pt K)) : K :=
  ((List.range (xe.length - 1)).map (fun i => ((List.range (ye.length - 1)).map (fun j => count xe ye pts i j)).sum)).sum

/-- Width of bin `i`. -/
def width (e : List K) (i : Nat) : K := e.getD (i + 1) 0 - e.getD i 0

/-- two_dim.py:69-73: the array `z` of `np.histogram2d(..., density=True)`: weights divided by the widths and the total. -/
def density (xe ye : List K) (pts : List (Pt K)) : List (List K) :=
  (List.range (xe.length - 1)).map (fun i => (List.range (ye.length - 1)).map (fun j =>
    count xe ye pts i j / width xe i / width ye j / total xe ye pts))

/-- What to do outside the bins. -/
inductive OutOfRange where
  | zero
  | fixed

/-- two_dim.py:47-81: a fitted `Histogram2D`. -/
structure Hist (K : Type) where
  xe : List K
  ye : List K
  z : List (List K)
  out : OutOfRange

/-- two_dim.py:69-81 `fit`. -/
def fit (xBins yBins : Bins K) (xRange yRange : K × K) (out : OutOfRange) (pts : List (Pt K)) : PyM (Hist K) := do
  let xe ← edgesOf xBins xRange
  let ye ← edgesOf yBins yRange
  return ⟨xe, ye, density xe ye pts, out⟩

/-- `np.clip(i, 0, n - 1)` -/
def clip (i : Int) (n : Nat) : Nat := (min (max i 0) ((n : Int) - 1)).toNat

/-- two_dim.py:83-93 `on`, for one point: `searchsorted(side='left') - 1`. -/
def Hist.on (h : Hist K) (x y : K) : K :=
  let n_x := h.xe.length - 1
  let n_y := h.ye.length - 1
  let x_id := (ssLeft h.xe x : Int) - 1
  let y_id := (ssLeft h.ye y : Int) - 1
  let _x_id := clip x_id n_x
  let _y_id := clip y_id n_y
  let z := (h.z.getD _x_id []).getD _y_id 0
  match h.out with
  | .zero => if x_id ≠ _x_id ∨ y_id ≠ _y_id then 0 else z
  | .fixed => z

/-- The `indexing` argument of `np.meshgrid`. -/
inductive Indexing where
  | xy
  | ij

/-- two_dim.py:31-45 `on_meshgrid`: the values of the estimator `on` on the grid of the coordinates `x` and `y`, row by row. -/
def onMeshgrid (on : K → K → K) (x y : List K) : Indexing → List (List K)
  | .xy => y.map (fun b => x.map (fun a => on a b))
  | .ij => x.map (fun a => y.map (fun b => on a b))

/-- two_dim.py:39-42: coordinates that are not given are `n` equally spaced ones over the range, ends included. -/
def coords (given : Option (List K)) (range : K × K) (n : Nat) : List K := match given with
  | some x => x
  | none => match n with
      | 0 => []
      | 1 => [range.1]
      | n + 1 => linspace range.1 range.2 n

/-! ### Nearest neighbours -/

/-- Squared distance of a data point from (x, y). -/
def d2 (x y : K) (p : Pt K) : K := (p.x - x) * (p.x - x) + (p.y - y) * (p.y - y)

/-- two_dim.py:95-126: a fitted `KNearestNeighbor2D`: the points, `k_used`, and whether weights were given. -/
structure Knn (K : Type) where
  pts : List (Pt K)
  kUsed : Nat
  weighted : Bool

/-- two_dim.py:102-114 `fit`: `k = min(self.k, n_pts)`; sklearn rejects `n_neighbors = 0`. -/
def Knn.fit (k : Nat) (weighted : Bool) (pts : List (Pt K)) : PyM (Knn K) :=
  let k_used := min k pts.length
  if k_used = 0 then .error .valueError else .ok ⟨pts, k_used, weighted⟩

/-- sklearn `kneighbors`: the `k` nearest points in order of distance (ties in the order of the data). -/
def Knn.neighbors (n : Knn K) (x y : K) : List (Pt K) :=
  (n.pts.mergeSort (fun a b => decide (d2 x y a ≤ d2 x y b))).take n.kUsed

/-- two_dim.py:116-126 `on` for one point: `pi` stands for `np.pi`, `r * r` is the squared distance to the last neighbour (square root and square are
left out); numpy's `k / 0` is inf. -/
def Knn.on (pi : K) (n : Knn K) (x y : K) : K :=
  let nb := n.neighbors x y
  let rr := (nb.map (d2 x y)).getLastD 0
  let s := pi * rr
  if n.weighted then (nb.map Pt.w).sum / s else (n.kUsed : K) / s

/-! ### Scatter2D -/

/-- `x.min(), x.max()` -/
def minMax (x : List K) : PyM (K × K) := match x with
  | [] => .error .valueError
  | a :: t => .ok (t.foldl min a, t.foldl max a)

/-- two_dim.py:129-166: the attributes of a `Scatter2D` that the methods use. -/
structure Scatter (K : Type) where
  data : List (Pt K)
  xe : List K
  ye : List K
  est : Hist K

/-- Centres of bins. -/
def centers (e : List K) : List K := List.zipWith (fun hi lo => (1 / 2) * (hi + lo)) (e.drop 1) e

/-- The range of one coordinate: as given, or that of the data. -/
def rangeOf (given : Option (K × K)) (x : List K) : PyM (K × K) := match given with
  | some r => .ok r
  | none => minMax x

/-- two_dim.py:130-166 `Scatter2D.__init__` with the default density estimator.  `x_e[1] - x_e[0]` is an IndexError for zero bins. -/
def Scatter.new (pts : List (Pt K)) (range : Option ((K × K) × (K × K))) (xb yb : Nat) : PyM (Scatter K) := do
  let xr ← rangeOf (range.map Prod.fst) (pts.map Pt.x)
  let yr ← rangeOf (range.map Prod.snd) (pts.map Pt.y)
  if xb = 0 ∨ yb = 0 then .error .indexError
  else
    let est ← fit (.count xb) (.count yb) xr yr .zero pts
    return ⟨pts, linspace xr.1 xr.2 xb, linspace yr.1 yr.2 yb, est⟩

/-- two_dim.py:232-243: the (transformed) density on the centres, `z_m` with rows for y. -/
def Scatter.onMesh (s : Scatter K) (t : K → K) : List (List K) :=
  (onMeshgrid s.est.on (centers s.xe) (centers s.ye) .xy).map (fun row => row.map t)

/-- `np.cumsum` -/
def cumsumFrom : K → List K → List K
  | _, [] => []
  | acc, a :: t => (acc + a) :: cumsumFrom (acc + a) t

/-- two_dim.py:245-251 `cum_prob_mass` of the flattened density; `z_cum[-1]` is an IndexError for an empty one. -/
def cumProbMass (z : List K) : PyM (List K × List K) :=
  let zs := npSort z
  let cum := cumsumFrom 0 zs
  match cum.getLast? with
  | none => .error .indexError
  | some tot => .ok (zs, cum.map (fun c => c / tot))

/-- two_dim.py:254-258: the level of one percentile. -/
def levelAt (zs prob : List K) (idShift : Int) (p : K) : K :=
  let ps_lo := 1 - p
  let id := (ssLeft prob ps_lo : Int) + idShift
  zs.getD (clip id prob.length) 0

/-- two_dim.py:253-259 `z_level_at_percentile`. -/
def zLevels (z : List K) (ps : List K) (idShift : Int) : PyM (List K) := do
  let (zs, prob) ← cumProbMass z
  return ps.map (levelAt zs prob idShift)

/-- two_dim.py:213-223: the points drawn by `scatter(hidden_in_p)`. -/
def Scatter.drawn (s : Scatter K) (t : K → K) (hidden : Option K) : PyM (List (Pt K)) := match hidden with
  | none => .ok s.data
  | some p => do
      let ls ← zLevels (s.onMesh t).flatten [p] (-1)
      let level := ls.headD 0
      return s.data.filter (fun q => decide (t (s.est.on q.x q.y) < level))

end Pyhipp.TwoDim
