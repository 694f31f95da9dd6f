import Verif.Base.Sorted
import Verif.Base.Nan
import Mathlib.Algebra.Order.Floor.Ring
import Mathlib.Analysis.SpecialFunctions.Pow.Real
/-
Model of src/pyhipp/stats/reduction.py.  A 1-d array is a list; a 2-d array is the list of its
rows.  Exact arithmetic replaces floating point, except where NaN is made explicit.
-/
namespace Pyhipp.Reduction
open Pyhipp

section Basic
variable {α : Type}

/-- `x[mask]` for a boolean mask of the shape of `x` (stats/reduction.py:71-74). -/
def sel (x : List α) (mask : Option (List Bool)) : List α :=
  match mask with
  | none => x
  | some m => ((x.zip m).filter (fun p => p.2)).map (fun p => p.1)

/-- stats/reduction.py:52-62 `Reduce.__call__` for 1-d input: shape checks, then `_impl`. -/
def call1d {β : Type} (impl : List α → Option (List α) → Option (List Bool) → β)
    (x : List α) (w : Option (List α)) (m : Option (List Bool)) : PyM β :=
  if (w.all (fun w => w.length == x.length)) && (m.all (fun m => m.length == x.length)) then
    .ok (impl x w m)
  else .error .assertionError

/-- A boolean used as a number. -/
def b2n [Zero α] [One α] (b : Bool) : α := if b then 1 else 0

/-- stats/reduction.py:108-111 `Count._impl`, 1-d. -/
def count1d (x : List α) (mask : Option (List Bool)) : Nat :=
  match mask with
  | none => x.length
  | some m => (m.map (fun b => if b then 1 else 0)).sum

/-- stats/reduction.py:122-125 the total weight array of `Sum._impl`. -/
def wTot [Zero α] [One α] [Mul α] (weight : Option (List α)) (mask : Option (List Bool)) :
    Option (List α) :=
  match weight with
  | none => mask.map (fun m => m.map b2n)
  | some w => match mask with
    | none => some w
    | some m => some (List.zipWith (fun a b => a * b) w (m.map b2n))

/-- stats/reduction.py:120-131 `Sum._impl`, 1-d. -/
def sum1d [Zero α] [One α] [Mul α] [Add α] (x : List α) (weight : Option (List α))
    (mask : Option (List Bool)) : α :=
  let x := match wTot weight mask with
    | none => x
    | some w => List.zipWith (fun a b => a * b) x w
  x.sum

end Basic

section Field
variable {α : Type} [Field α]

/-- stats/reduction.py:140-153 `Mean._impl`, 1-d.  `w_sum[sel_empty] = 1` only avoids the division
by zero for the entry that is overwritten by the fill value afterwards. -/
def mean1d (fill : α) (x : List α) (weight : Option (List α)) (mask : Option (List Bool)) : α :=
  let xCount := count1d x mask
  let xwSum := sum1d x weight mask
  let wSum := match weight with
    | none => (xCount : α)
    | some w => sum1d w none mask
  let selEmpty := xCount < 1
  let wSum := if selEmpty then 1 else wSum
  let out := xwSum / wSum
  if selEmpty then fill else out

/-- A numpy result that is either 0-d or has one entry per row. -/
inductive Bc (β : Type)
  | scalar (b : β)
  | rows (l : List β)

def Bc.map {β γ : Type} (f : β → γ) : Bc β → Bc γ
  | .scalar b => .scalar (f b)
  | .rows l => .rows (l.map f)

/-- `a[sel] = v` -/
def Bc.setWhere {β : Type} (a : Bc β) (sel : Bc Bool) (v : β) : Bc β :=
  match a, sel with
  | .scalar b, .scalar s => .scalar (if s then v else b)
  | .scalar b, .rows _ => .scalar b   -- numpy: IndexError; does not occur below
  | .rows l, .scalar s => .rows (l.map (fun b => if s then v else b))
  | .rows l, .rows ss => .rows (List.zipWith (fun b s => if s then v else b) l ss)

/-- `l / w` with broadcasting of a 0-d `w`. -/
def Bc.divL (l : List α) (w : Bc α) : List α :=
  match w with
  | .scalar b => l.map (fun a => a / b)
  | .rows ws => List.zipWith (fun a b => a / b) l ws

/-- stats/reduction.py:108-111 `Count._impl`, 2-d array with rows of length `m`: without a mask the
0-d `x.shape[-1]`. -/
def count2d (m : Nat) (mask : Option (List (List Bool))) : Bc Nat :=
  match mask with
  | none => .scalar m
  | some ms => .rows (ms.map (fun r => (r.map (fun b => if b then 1 else 0)).sum))

/-- stats/reduction.py:120-131 `Sum._impl`, 2-d. -/
def sum2d (x : List (List α)) (weight : Option (List (List α)))
    (mask : Option (List (List Bool))) : List α :=
  let w? : Option (List (List α)) := match weight with
    | none => mask.map (fun ms => ms.map (fun r => r.map b2n))
    | some w => match mask with
      | none => some w
      | some ms => some (List.zipWith (fun wr mr => List.zipWith (fun a b => a * b) wr (mr.map b2n)) w ms)
  let x := match w? with
    | none => x
    | some w => List.zipWith (fun xr wr => List.zipWith (fun a b => a * b) xr wr) x w
  x.map List.sum

/-- stats/reduction.py:140-153 `Mean._impl`, 2-d array with rows of length `m`. -/
def mean2d (fill : α) (m : Nat) (x : List (List α)) (weight : Option (List (List α)))
    (mask : Option (List (List Bool))) : List α :=
  let xCount := count2d m mask
  let xwSum := sum2d x weight mask
  let wSum : Bc α := match weight with
    | none => xCount.map (fun n : Nat => (n : α))
    | some w => .rows (sum2d w none mask)
  let selEmpty := xCount.map (fun n => decide (n < 1))
  let wSum := wSum.setWhere selEmpty 1
  let out := Bc.rows (Bc.divL xwSum wSum)
  match out.setWhere selEmpty fill with
  | .rows l => l
  | .scalar _ => []

end Field

section Quantile
variable {α : Type} [Field α] [LinearOrder α]

/-- `np.interp(p, xp, fp)` for one `p` and sorted `xp` of the length of `fp`, at least 1. -/
def npInterp (p : α) (xp fp : List α) : α :=
  let j : Int := (ssRight xp p : Int) - 1
  if j < 0 then fp.getD 0 0
  else if j ≥ (xp.length : Int) - 1 then fp.getD (xp.length - 1) 0
  else
    let i := j.toNat
    fp.getD i 0 + (p - xp.getD i 0) * ((fp.getD (i + 1) 0 - fp.getD i 0)
      / (xp.getD (i + 1) 0 - xp.getD i 0))

/-- `np.cumsum`, running sum first. -/
def cumsumFrom (s : α) : List α → List α
  | [] => []
  | a :: t => (s + a) :: cumsumFrom (s + a) t

/-- stats/reduction.py:207-214 `Quantile._impl_with_weight` for one `p`.  `np.argsort` is not
stable, so the order of equal samples is not determined: `srt` stands for
`l ↦ l[np.argsort(first components)]`. -/
def quantileW (srt : List (α × α) → List (α × α)) (sort : Bool) (p : α) (x w : List α) : α :=
  let xw := if sort then srt (x.zip w) else x.zip w
  let cdf := cumsumFrom 0 (xw.map (fun q => q.2))
  npInterp p cdf (xw.map (fun q => q.1))

/-- What `np.argsort` guarantees: a rearrangement in non-decreasing order. -/
def IsArgsort (srt : List (α × α) → List (α × α)) : Prop :=
  ∀ l, (srt l).Perm l ∧ ((srt l).map (fun q => q.1)).Pairwise (· ≤ ·)

/-- `np.quantile(x, p)` (method 'linear') of a non-empty array, `0 <= p <= 1`. -/
def npQuantile [FloorRing α] (x : List α) (p : α) : α :=
  let s := npSort x
  let h := p * ((s.length : α) - 1)
  let i := (Int.floor h).toNat
  let g := h - (i : α)
  s.getD (min i (s.length - 1)) 0
    + g * (s.getD (min (i + 1) (s.length - 1)) 0 - s.getD (min i (s.length - 1)) 0)

/-- `np.median` of a non-empty array. -/
def npMedian (x : List α) : α :=
  let s := npSort x
  let n := s.length
  if n % 2 = 1 then s.getD (n / 2) 0 else (s.getD (n / 2 - 1) 0 + s.getD (n / 2) 0) / 2

/-- stats/reduction.py:69-82 `Reduce._impl_1d` around the two implementations. -/
def impl1d {β : Type} (fill : β) (noW : List α → β) (withW : List α → List α → β)
    (x : List α) (weight : Option (List α)) (mask : Option (List Bool)) : β :=
  let x' := sel x mask
  let weight := weight.map (fun w => sel w mask)
  if x'.length = 0 then fill
  else match weight with
    | none => noW x'
    | some w => withW x' (w.map (fun a => a / w.sum))

/-- stats/reduction.py:174-214 `Quantile` with a list of probabilities, 1-d. -/
def quantile1d [FloorRing α] (srt : List (α × α) → List (α × α)) (ps : List α) (sort : Bool)
    (fill : α) (x : List α) (weight : Option (List α)) (mask : Option (List Bool)) : List α :=
  impl1d (ps.map (fun _ => fill)) (fun x => ps.map (npQuantile x))
    (fun x w => ps.map (fun p => quantileW srt sort p x w)) x weight mask

/-- stats/reduction.py:250-268 `Median`, 1-d; the weighted branch goes through
`Quantile(0.5).__call__`, which normalises the (already normalised) weights again. -/
def median1d [FloorRing α] (srt : List (α × α) → List (α × α)) (sort : Bool) (fill : α)
    (x : List α) (weight : Option (List α)) (mask : Option (List Bool)) : α :=
  impl1d fill npMedian
    (fun x w => impl1d fill (fun x => npQuantile x (1 / 2))
      (fun x w => quantileW srt sort (1 / 2) x w) x (some w) none) x weight mask

/-- stats/reduction.py:91-98 `Reduce._impl_2d`: row by row. -/
def impl2d {β : Type} (impl : List α → Option (List α) → Option (List Bool) → β)
    (x : List (List α)) (weight : Option (List (List α))) (mask : Option (List (List Bool))) :
    List β :=
  x.mapIdx (fun i xr => impl xr (weight.map (fun w => w.getD i [])) (mask.map (fun m => m.getD i [])))

/-- stats/reduction.py:177-186 `Quantile.ps_map`. -/
def psMap : List (String × List α) :=
  [("1sigma", [16 / 100, 84 / 100]), ("2sigma", [25 / 1000, 975 / 1000]),
   ("3sigma", [5 / 1000, 995 / 1000]), ("median+1sigma", [16 / 100, 1 / 2, 84 / 100]),
   ("median+2sigma", [25 / 1000, 1 / 2, 975 / 1000]),
   ("median+3sigma", [5 / 1000, 1 / 2, 995 / 1000]),
   ("lower_3sigmas", [68 / 100, 95 / 100, 99 / 100]),
   ("upper_3sigmas", [1 / 100, 5 / 100, 32 / 100])]

/-- stats/reduction.py:232-247 `Errorbar._impl`, 1-d, the quantile branch (`reduce` is a key of
`ps_map`); unpacking anything but three values is a ValueError. -/
def errorbarQ [FloorRing α] (srt : List (α × α) → List (α × α)) (reduce : String) (fill : α)
    (x : List α) (weight : Option (List α)) (mask : Option (List Bool)) : PyM (List α) :=
  match psMap.lookup reduce with
  | none => .error .keyError
  | some ps =>
    match quantile1d srt ps true fill x weight mask with
    | [lo, med, hi] => .ok [med, med - lo, hi - med]
    | _ => .error .valueError

/-- stats/reduction.py:240-249 `Errorbar._impl`, 2-d, the quantile branch: the matrix of quantiles (one row per row of `x`) is transposed and its three
columns are unpacked.  `np.array` of no rows at all has shape (0,): it is not transposed, and unpacking it is a ValueError. -/
def errorbarQ2d [FloorRing α] (srt : List (α × α) → List (α × α)) (reduce : String) (fill : α)
    (x : List (List α)) (weight : Option (List (List α))) (mask : Option (List (List Bool))) : PyM (List (List α)) :=
  match psMap.lookup reduce with
  | none => .error .keyError
  | some ps =>
    let out := impl2d (quantile1d srt ps true fill) x weight mask
    if out.length = 0 ∨ ps.length ≠ 3 then .error .valueError
    else .ok (out.map fun q => [q.getD 1 0, q.getD 1 0 - q.getD 0 0, q.getD 2 0 - q.getD 1 0])

end Quantile

section Real

/-- `np.sqrt`: NaN for negative arguments. -/
noncomputable def npSqrt (x : ℝ) : Fl ℝ := if x < 0 then .nan else .num (Real.sqrt x)

/-- stats/reduction.py:163-171 `StdDev._impl`, 1-d. -/
noncomputable def stdDev1d (fill : ℝ) (x : List ℝ) (weight : Option (List ℝ))
    (mask : Option (List Bool)) : Fl ℝ :=
  let xMean := mean1d fill x weight mask
  let dx := x.map (fun a => a - xMean)
  npSqrt (mean1d fill (dx.map (fun d => d * d)) weight mask)

/-- stats/reduction.py:163-171 `StdDev._impl`, 2-d. -/
noncomputable def stdDev2d (fill : ℝ) (m : Nat) (x : List (List ℝ))
    (weight : Option (List (List ℝ))) (mask : Option (List (List Bool))) : List (Fl ℝ) :=
  let xMean := mean2d fill m x weight mask
  let dx := List.zipWith (fun (r : List ℝ) mu => r.map (fun a => a - mu)) x xMean
  (mean2d fill m (dx.map (fun r => r.map (fun d => d * d))) weight mask).map npSqrt

/-- stats/reduction.py:235-238 `Errorbar('mean+sd')`, 1-d. -/
noncomputable def errorbarMeanSd (fill : ℝ) (x : List ℝ) (weight : Option (List ℝ))
    (mask : Option (List Bool)) : Fl ℝ × Fl ℝ × Fl ℝ :=
  let mean := mean1d fill x weight mask
  let sd := stdDev1d fill x weight mask
  (.num mean, sd, sd)

/-- stats/reduction.py:235-238, 249 `Errorbar('mean+sd')`, 2-d array with rows of length `m`: the three columns stacked. -/
noncomputable def errorbarMeanSd2d (fill : ℝ) (m : Nat) (x : List (List ℝ)) (weight : Option (List (List ℝ)))
    (mask : Option (List (List Bool))) : List (Fl ℝ × Fl ℝ × Fl ℝ) :=
  let mean := mean2d fill m x weight mask
  let sd := stdDev2d fill m x weight mask
  List.zipWith (fun a s => (.num a, s, s)) mean sd

end Real
end Pyhipp.Reduction
