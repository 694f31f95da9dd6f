import Verif.Base.Py
import Verif.Base.Float64
import Verif.Model.FloatQuantile
/-
Grid1d and the makers of grids of core/dataproc/grid.py in double precision (Model/Grid.lean and Model/GridMake.lean have them over exact numbers).  One
axis at a time: a GridMd is a list of axes.  `np.linspace`, `np.mgrid` and `np.arange` are written out as numpy computes them.
-/
namespace Pyhipp.FloatGrid
open Pyhipp Pyhipp.F64

/-- `np.diff(locs) >= 0.` -/
def diffsOk : List Num → Bool
  | a :: b :: rest => Num.le (.fin 0) (Num.sub b a) && diffsOk (b :: rest)
  | _ => true

/-- core/dataproc/grid.py:13-24 `Grid1d.__init__` for a one-dimensional float64 array. -/
def mk (locs : List Num) : PyM (List Num) := do
  pyAssert (decide (1 ≤ locs.length) && diffsOk locs)
  return locs

/-- One centre: `0.5*(a + b)`. -/
def mid (a b : Num) : Num := Num.mul (.fin (1 / 2)) (Num.add a b)

/-- `0.5*(locs[:-1] + locs[1:])` -/
def mids : List Num → List Num
  | a :: b :: rest => mid a b :: mids (b :: rest)
  | _ => []

/-- core/dataproc/grid.py:30-34 `Grid1d.centers`. -/
def centers (locs : List Num) : PyM (List Num) := mk (mids locs)

/-- core/dataproc/grid.py:36-39 `Grid1d.extent`. -/
def extent (locs : List Num) : Num × Num := (locs.headD .nan, locs.getLastD .nan)

/-- `a` does not come after `x` in numpy's order (NaN last). -/
def notAfter (x a : Num) : Bool := x = .nan || Num.le a x

/-- core/dataproc/grid.py:41-46 `Grid1d.locate` of one number: `np.searchsorted(locs, x, side='right') - 1` by its contract for ordered arrays. -/
def locate (locs : List Num) (x : Num) : Int := ((locs.takeWhile (notAfter x)).length : Int) - 1

/-- `np.linspace(a, b, n)`: `i*step + a` with the last one set to `b`; for a step that is zero `(i/(n-1))*(b-a) + a`; one point is `0*(b - a) + a`. -/
def linspace (a b : Num) (n : Nat) : List Num :=
  let delta := Num.sub b a
  if n = 1 then [Num.add (Num.mul (.fin 0) delta) a]
  else
    let dv := ofQ ((n : ℚ) - 1)
    let step := Num.div delta dv
    (List.range n).map fun i : Nat =>
      if i + 1 = n then b
      else if step = .fin 0 then Num.add (Num.mul (Num.div (ofQ i) dv) delta) a
      else Num.add (Num.mul (ofQ i) step) a

/-- `np.mgrid[a:b:n*1j]`: `i*step + a`, the last one too. -/
def mgridImag (a b : Num) (n : Nat) : List Num :=
  let step := if n = 1 then .fin 1 else Num.div (Num.sub b a) (ofQ ((n : ℚ) - 1))
  (List.range n).map fun i : Nat => Num.add (Num.mul (ofQ i) step) a

/-- The length of `np.arange(a, b, d)`: `ceil((b - a)/d)`, at least zero; ZeroDivisionError for d = 0; if the quotient underflows to zero, one for a
positive quotient and none for a negative one. -/
def arangeLen (a b d : Num) : PyM Nat :=
  let delta := Num.sub b a
  if d = .fin 0 then .error .zeroDivisionError
  else match Num.div delta d with
    | .fin q =>
        if q = 0 ∧ delta ≠ .fin 0 then .ok (if Num.lt (.fin 0) delta = Num.lt (.fin 0) d then 1 else 0)
        else .ok ⌈q⌉.toNat
    | _ => .error .valueError

/-- `np.arange(a, b, d)` of doubles, as for `np.mgrid[a:b:d]`: the first two are `a` and `a + d`, the others continue with their rounded difference. -/
def arange (a b d : Num) : PyM (List Num) := do
  let n ← arangeLen a b d
  let next := Num.add a d
  let delta := Num.sub next a
  return (List.range n).map fun i : Nat => if i = 0 then a else if i = 1 then next else Num.add a (Num.mul (ofQ i) delta)

/-- core/dataproc/grid.py:84-93 `GridMd.from_data_range`, one axis with `n` locations. -/
def fromDataRange (data : List Num) (pLo pHi : Num) (n : Nat) : PyM (List Num) := do
  let lo ← FloatQuantile.npQuantile data pLo
  let hi ← FloatQuantile.npQuantile data pHi
  mk (linspace lo hi n)

end Pyhipp.FloatGrid
