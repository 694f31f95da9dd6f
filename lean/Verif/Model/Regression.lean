import Verif.Model.Stats
import Verif.Model.Binning
import Verif.Model.Grid
/-
Model of src/pyhipp/stats/{regression,density_estimation}.py.  The kd-tree queries (sklearn) are
not modelled: their results, distances `ds` and indices `ids` per query point, are parameters.
-/
namespace Pyhipp.Regression
open Pyhipp Reduction Stats

/-- `y_tr[ids]` for a 2-d index array with valid entries (a kd-tree only returns indices of its
points). -/
def gather (y : List ℝ) (ids : List (List Nat)) : List (List ℝ) :=
  ids.map (fun r => r.map (fun i => y.getD i 0))

/-- Element-wise product of two matrices. -/
def mul2 (a b : List (List ℝ)) : List (List ℝ) :=
  List.zipWith (fun r s => List.zipWith (fun x y => x * y) r s) a b

/-- stats/regression.py:66 the mask. -/
noncomputable def knnMask (ds : List (List ℝ)) (maxDx : Option ℝ) : Option (List (List Bool)) :=
  maxDx.map (fun m => ds.map (fun r => r.map (fun d => decide (d < m))))

/-- stats/regression.py:68-71 the weights. -/
noncomputable def knnWeight (wTr : Option (List ℝ)) (ds : List (List ℝ)) (ids : List (List Nat))
    (kernel : Option Kernel) : Option (List (List ℝ)) :=
  let w := wTr.map (fun w => gather w ids)
  match kernel with
  | none => w
  | some k =>
      let wk := ds.map (fun r => r.map k.eval)
      match w with
      | none => some wk
      | some w => some (mul2 w wk)

/-- A reduction of a matrix (stats/reduction.py), giving an array of type `γ`. -/
abbrev Red2 (γ : Type) := List (List ℝ) → Option (List (List ℝ)) → Option (List (List Bool)) → γ

/-- stats/regression.py:49-80 `_KnnRegression.__call__` on the arrays stored by `fit` (37-47): the
list `out['y']` and the named entries `out['y_<name>']` (names are assumed to contain no '/'). -/
noncomputable def knnCall {γ : Type} (yTr : List ℝ) (wTr : Option (List ℝ)) (ds : List (List ℝ))
    (ids : List (List Nat)) (reduce : List (String × Red2 γ)) (maxDx : Option ℝ)
    (kernel : Option Kernel) : List γ × PyDict String γ :=
  let mask := knnMask ds maxDx
  let y := gather yTr ids
  let w := knnWeight wTr ds ids kernel
  reduce.foldl (fun acc r =>
    let p := r.2 y w mask
    (acc.1 ++ [p], acc.2.set ("y_" ++ r.1) p)) ([], [])

/-- stats/regression.py:295-307 `masked_fraction_by_knn`: (fractions, invalid flags).  The weight is
passed to `fit` as the target, so the sums are kernel-weighted sums of the weights. -/
noncomputable def maskedFraction (k : Nat) (weight : List ℝ) (mask : List Bool) (ds : List (List ℝ))
    (ids : List (List Nat)) (maxDx : Option ℝ) (kernel : Option Kernel) (minCount : Int) :
    List ℝ × Bc Bool :=
  let maskedWeight := List.zipWith (fun (m : Bool) w => b2n m * w) mask weight
  let m := knnMask ds maxDx
  let w := sum2d (gather weight ids) (knnWeight none ds ids kernel) m
  let count := count2d k m
  let wMasked := sum2d (gather maskedWeight ids) (knnWeight none ds ids kernel) m
  let frac := List.zipWith (fun a b => a / max b (1 / 10 ^ 10)) wMasked w
  let invalid := count.map (fun n : Nat => decide ((n : Int) < minCount))
  (frac, invalid)

/-- An `Iterable` of reductions and what two passes over it see (stats/regression.py:117-118): a
sequence gives the same items twice, a one-shot iterator is empty the second time. -/
noncomputable def twoPasses {γ : Type} (reduce : Src (String × γ)) : List String × List γ :=
  let (a, src) := reduce.read
  let (b, _) := src.read
  (a.map (fun r => r.1), b.map (fun r => r.2))

/-- A 1-d reduction. -/
abbrev Red1 (γ : Type) := List ℝ → Option (List ℝ) → γ

/-- stats/regression.py:132-139: one query point. -/
noncomputable def localPred {γ : Type} (yTr : List ℝ) (wTr : Option (List ℝ)) (kernel : Option Kernel)
    (calls : List (Red1 γ)) (d : List ℝ) (id : List Nat) : List γ :=
  let y := id.map (fun i => yTr.getD i 0)
  let w := wTr.map (fun w => id.map (fun i => w.getD i 0))
  let w := match kernel with
    | none => w
    | some k =>
        let wk := d.map k.eval
        match w with
        | none => some wk
        | some w => some (List.zipWith (fun a b => a * b) w wk)
  calls.map (fun c => c y w)

/-- stats/regression.py:108-148 `_LocalKernelRegression.__call__`: `out['y']` and the named entries.
`y_pred[i]` of a too short tuple is an IndexError. -/
noncomputable def localCall {γ : Type} (yTr : List ℝ) (wTr : Option (List ℝ)) (ds : List (List ℝ))
    (ids : List (List Nat)) (reduce : Src (String × Red1 γ)) (kernel : Option Kernel) :
    PyM (List (List γ) × PyDict String (List γ)) := do
  let (names, calls) := twoPasses reduce
  let preds := List.zipWith (fun d id => localPred yTr wTr kernel calls d id) ds ids
  let y ← (List.range names.length).mapM (fun i : Nat => preds.mapM (fun p => pyGet p (i : Int)))
  return (y, (names.zip y).foldl (fun (d : PyDict String (List γ)) q => d.set ("y_" ++ q.1) q.2) [])

/-! ### stats/density_estimation.py -/
section Hist
variable {α : Type} [Field α] [LinearOrder α]

/-- `np.histogramdd`: does a point fall into cell `I` of the grid?  Half-open bins, last one
closed, in every dimension. -/
def inCell (grids : List (List α)) (I : List Nat) (x : List α) : Bool :=
  (grids.zip (I.zip x)).all (fun q => Binning.inBin q.1 q.2.1 q.2.2)

/-- Volume of cell `I`. -/
def cellVol (grids : List (List α)) (I : List Nat) : α :=
  ((grids.zip I).map (fun q => q.1.getD (q.2 + 1) 0 - q.1.getD q.2 0)).prod

/-- Weight in cell `I`. -/
def cellCount (grids : List (List α)) (xw : List (List α × α)) (I : List Nat) : α :=
  ((xw.filter (fun p => inCell grids I p.1)).map (fun p => p.2)).sum

/-- Shape of the histogram. -/
def histShape (grids : List (List α)) : List Nat := grids.map (fun g => g.length - 1)

/-- stats/density_estimation.py:30-43 `_Histogram.fit`: `np.histogramdd(x, bins, density, weights)`
(weights 1 if omitted); for `density` the counts are divided by the cell volumes and their total. -/
def histFit (grids : List (List α)) (density : Bool) (x : List (List α)) (w : Option (List α)) :
    PyM (Grid.NDArr α) := do
  pyAssert (x.all (fun r => r.length == grids.length))
  let ws := w.getD (x.map (fun _ => 1))
  if ws.length ≠ x.length then .error .valueError else
  let shape := histShape grids
  let counts := (Grid.indices shape).map (cellCount grids (x.zip ws))
  let total := counts.sum
  let data := if density then
      (Grid.indices shape).map (fun I => cellCount grids (x.zip ws) I / cellVol grids I / total)
    else counts
  return { shape := shape, data := data }

/-- stats/density_estimation.py:45-64 `_Histogram.__call__` at one point: (h, is_out). -/
def histEval (grids : List (List α)) (h : Grid.NDArr α) (outFill : α) (x : List α) :
    PyM (α × Bool) := do
  let ids := List.zipWith (fun g a => Grid.locate g a) grids x
  let isOut := (ids.zip grids).any (fun q => decide (q.1 < 0) || decide (q.1 ≥ (q.2.length : Int) - 1))
  let clipped := List.zipWith (fun id g =>
    (Binning.clipInt id (some 0) (some ((List.length (α := α) g : Int) - 2))).toNat) ids grids
  match h.get? clipped with
  | some v => return (if isOut then outFill else v, isOut)
  | none => .error .indexError

end Hist

/-- stats/density_estimation.py:81-87 (and 139-145): normalised weights of the training points. -/
noncomputable def fitWeight (n : Nat) (w : Option (List ℝ)) : List ℝ :=
  match w with
  | none => List.replicate n (1 / (n : ℝ))
  | some w => w.map (fun a => a / w.sum)

/-- stats/density_estimation.py:106-114: one query point of the local kernel estimate. -/
noncomputable def localDensity (wTr : List ℝ) (vol : ℝ) (kernel : Option Kernel) (d : List ℝ)
    (id : List Nat) : ℝ :=
  let w := id.map (fun i => wTr.getD i 0)
  let w := match kernel with
    | none => w
    | some k =>
        let wk := d.map k.eval
        let nw := wk.length
        let wk := if nw > 0 then wk.map (fun a => a * ((nw : ℝ) / wk.sum)) else wk
        List.zipWith (fun a b => a * b) w wk
  w.sum / vol

/-- stats/density_estimation.py:158-176 one query point of the k-nearest-neighbour estimate:
(h, n_neighbors, r_max); `nDims` is the dimension of the data. -/
noncomputable def knnDensity (wTr : List ℝ) (nDims : Nat) (maxDx : Option ℝ) (kernel : Option Kernel)
    (ds : List ℝ) (id : List Nat) : ℝ × Nat × ℝ :=
  let rMax := ds.foldl max 0
  let w := id.map (fun i => wTr.getD i 0)
  let mask : List Bool := maxDx.elim (ds.map (fun _ => true)) (fun m => ds.map (fun d => decide (d < m)))
  let rMax := maxDx.elim rMax (fun m => min rMax m)
  let vol := ballVolumeNat rMax nDims
  let nW : Nat := (mask.map (fun b => if b then 1 else 0)).sum
  let w := match kernel with
    | none => w
    | some k =>
        let wk := ds.map k.eval
        let wkSum := (List.zipWith (fun a b => a * b) wk (mask.map b2n)).sum
        let wkSum := if nW = 0 then 1 / 10 ^ 10 else wkSum
        List.zipWith (fun a b => a * b) w (wk.map (fun a => a * ((nW : ℝ) / wkSum)))
  ((List.zipWith (fun a b => a * b) w (mask.map b2n)).sum / vol, nW, rMax)

end Pyhipp.Regression
