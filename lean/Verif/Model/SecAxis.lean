import Verif.Model.Axes
import Verif.Base.Sorted
import Mathlib.Analysis.SpecialFunctions.Log.Base
import Mathlib.Analysis.SpecialFunctions.Pow.Real
/-
Model of src/pyhipp/astro/plot/shortcuts.py: secondary axes and filled bands on top of `plot.Axes`
(Model/Axes.lean).  Coordinates are exact reals.
-/
namespace Pyhipp.Plot
open Pyhipp

/-- A secondary axis that matplotlib made: whether it is an x axis, where, the two transformations
(of any type `φ`), the further keywords, and the `plot.Axes` wrapped around it. -/
structure Sec (φ : Type) where
  isX : Bool
  location : Str
  fwd : φ
  bwd : φ
  kw : PyDict Str PV
  ax : Ax

/-- The axes, the secondary axes made for it, in order. -/
structure SecW (φ : Type) where
  ax : Ax
  secs : List (Sec φ)

variable {φ : Type}

/-- shortcuts.py:20-25: x axis or y axis, or neither. -/
def sideOf (location : PV) : Option (Bool × Str) := match location with
  | .str s =>
      if s = "top".toList ∨ s = "bottom".toList then some (true, s)
      else if s = "left".toList ∨ s = "right".toList then some (false, s)
      else none
  | _ => none

/-- shortcuts.py:28-32: the settings of the secondary axis. -/
def secFrame (axis : Str) (ticks label : PV) : PyDict Str PV :=
  (if label.isNone then [] else [("label".toList, .map [(axis, label)])]) ++
    (if ticks.isNone then [] else [("ticks".toList, .map [(axis, ticks)])])

/-- shortcuts.py:34-38: the ticks of the first axes are switched off on that side. -/
def hideTicks (accepts : Call → Bool) (isX : Bool) (location : Str) (ax : Ax) : AxR :=
  let m : PV := .map [("which".toList, .str "both".toList), (location, .bool false)]
  if isX then ax.tickParams accepts m .none .none [] else ax.tickParams accepts .none m .none []

/-- shortcuts.py:14-40 `Axes.add_secondary_axis`, with plot/axes.py:40-48.  `acceptsSec` says which
keywords matplotlib accepts for a new secondary axis (ValueError otherwise).  The new axes is the last
of `secs`; it stays there when a later step raises. -/
def addSecondary (accepts : Call → Bool) (acceptsSec : PyDict Str PV → Bool) (w : SecW φ) (fwd bwd : φ)
    (location : PV := .str "top".toList) (ticks label : PV := .none) (hide_first_ticks : Bool := true)
    (mpl_axes_kw : PyDict Str PV := []) : PyM Unit × SecW φ :=
  match sideOf location with
  | none => (.error .valueError, w)
  | some (isX, loc) =>
      if mpl_axes_kw.has "functions".toList then (.error .typeError, w)
      else if !acceptsSec mpl_axes_kw then (.error .valueError, w)
      else
        let axis := if isX then "x".toList else "y".toList
        match Ax.new.fmtFrame accepts (secFrame axis ticks label) with
        | (.error e, sax) => (.error e, { w with secs := w.secs ++ [⟨isX, loc, fwd, bwd, mpl_axes_kw, sax⟩] })
        | (.ok (), sax) =>
            let w1 := { w with secs := w.secs ++ [⟨isX, loc, fwd, bwd, mpl_axes_kw, sax⟩] }
            if hide_first_ticks then
              let r := hideTicks accepts isX loc w.ax
              (r.1, { w1 with ax := r.2 })
            else (.ok (), w1)

/-- shortcuts.py:46-47: the transformations between lg(1+z) and z. -/
noncomputable def lgzp1ToZ (l : ℝ) : ℝ := (10 : ℝ) ^ l - 1
/-- shortcuts.py:48. -/
noncomputable def zToLgzp1 (z : ℝ) : ℝ := Real.logb 10 (1 + z)

/-- shortcuts.py:42-52 `add_secondary_axis_lgzp1_to_z`. -/
noncomputable def addSecondaryZ (accepts : Call → Bool) (acceptsSec : PyDict Str PV → Bool) (w : SecW (ℝ → ℝ))
    (location : PV := .str "top".toList)
    (ticks : PV := .seq ([0, 1, 2, 3, 4, 5, 7, 10, 14].map (fun q : ℚ => .num q)))
    (label : PV := .str "$z$".toList) (hide_first_ticks : Bool := true) (mpl_axes_kw : PyDict Str PV := []) :
    PyM Unit × SecW (ℝ → ℝ) :=
  addSecondary accepts acceptsSec w lgzp1ToZ zToLgzp1 location ticks label hide_first_ticks mpl_axes_kw

/-- What `*arg` may be applied to: a tuple of values or a function object. -/
inductive StarArg (φ : Type)
  | tuple (l : List φ)
  | function

/-- `*arg` in a call: a function object is not iterable (TypeError). -/
def StarArg.unpack : StarArg φ → PyM (List φ)
  | .tuple l => .ok l
  | .function => .error .typeError

/-- shortcuts.py:58: `def fn(x): return x, lambda x: x` defines ONE function (returning a pair), not the
pair of functions `(lambda x: x, lambda x: x)`. -/
def identicalFn : StarArg φ := .function

/-- shortcuts.py:53-59 `add_secondary_identical_axis`: `*fn` is evaluated before the call; a wrong number
of positional arguments would be a TypeError as well. -/
def addSecondaryIdentical (accepts : Call → Bool) (acceptsSec : PyDict Str PV → Bool) (w : SecW φ)
    (location ticks label : PV) (hide_first_ticks : Bool) (mpl_axes_kw : PyDict Str PV) : PyM Unit × SecW φ :=
  match (identicalFn : StarArg φ).unpack with
  | .error e => (.error e, w)
  | .ok [f, g] => addSecondary accepts acceptsSec w f g location ticks label hide_first_ticks mpl_axes_kw
  | .ok _ => (.error .typeError, w)

/-- The line through knots `i` and `i+1`, at `v`. -/
noncomputable def segVal (K : List (ℝ × ℝ)) (i : Nat) (v : ℝ) : ℝ :=
  let p := K.getD i (0, 0)
  let q := K.getD (i + 1) (0, 0)
  p.2 + (v - p.1) * ((q.2 - p.2) / (q.1 - p.1))

/-- Evaluation of a linear spline with sorted knots, the end pieces extended. -/
noncomputable def plin (K : List (ℝ × ℝ)) (v : ℝ) : ℝ :=
  segVal K (min (ssRight (K.map (fun p => p.1)) v - 1) (K.length - 2)) v

/-- `scipy.interpolate.interp1d(x, y, kind='slinear', fill_value='extrapolate')`: ValueError when the
lengths differ, when there are fewer than two points or when an abscissa is repeated; the points are
sorted by abscissa. -/
noncomputable def interpExt (x y : List ℝ) : PyM (ℝ → ℝ) :=
  if x.length ≠ y.length then .error .valueError
  else if x.length < 2 then .error .valueError
  else
    let K := (x.zip y).mergeSort (fun p q => decide (p.1 ≤ q.1))
    if (K.map (fun p => p.1)).Nodup then .ok (plin K) else .error .valueError

/-- shortcuts.py:61-68 `add_secondary_axis_interp` with the default `interp_kw`; `kw` are the keywords
of `add_secondary_axis`, given here as a continuation. -/
noncomputable def addSecondaryInterp (w : SecW (ℝ → ℝ)) (x x_new : List ℝ)
    (k : (ℝ → ℝ) → (ℝ → ℝ) → PyM Unit × SecW (ℝ → ℝ)) : PyM Unit × SecW (ℝ → ℝ) :=
  match interpExt x x_new with
  | .error e => (.error e, w)
  | .ok fwd =>
      match interpExt x_new x with
      | .error e => (.error e, w)
      | .ok bwd => k fwd bwd

/-- shortcuts.py:70-80 `fill_between_xy`: the vertices of the polygon; `np.column_stack` raises
ValueError when the numbers of abscissae and ordinates differ. -/
def fillVertices (x1 y1 x2 y2 : List ℝ) : PyM (List (ℝ × ℝ)) :=
  let x := x1 ++ x2.reverse
  let y := y1 ++ y2.reverse
  if x.length = y.length then .ok (x.zip y) else .error .valueError

end Pyhipp.Plot
