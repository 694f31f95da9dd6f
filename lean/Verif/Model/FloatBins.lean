import Verif.Base.Float64
import Verif.Base.Py
/-
stats/binning.py `EqualSpaceBins` in double precision, rounding included (Model/Binning.lean has the same code over
exact numbers).
-/
namespace Pyhipp.FloatBins
open Pyhipp F64

/-- stats/binning.py:174-188: the attributes of an EqualSpaceBins object. -/
structure EqBins where
  b : Num
  e : Num
  n : Nat
  span : Num
  step : Num

/-- stats/binning.py:175-188 `EqualSpaceBins.__init__` for doubles; the number of bins is converted to a double by the division. -/
def mk (b e : Num) (n : Nat) : PyM EqBins := do
  pyAssert (Num.lt b e)
  pyAssert (decide (0 < n))
  let span := Num.sub e b
  return { b := b, e := e, n := n, span := span, step := Num.div span (ofQ n) }

/-- The argument of `floor` in `locate`. -/
def EqBins.pos (B : EqBins) (x : Num) : Num := Num.div (Num.sub x B.b) B.step

/-- stats/binning.py:190-194 `EqualSpaceBins.locate`, one element. -/
def EqBins.locate (bad : Num → ℤ) (B : EqBins) (x : Num) : ℤ := max (-1) (min (Num.toInt64 bad (Num.floor (B.pos x))) B.n)

/-- stats/binning.py:139-147 `Bins.locate_bound` with the defaults. -/
def EqBins.locateBound (bad : Num → ℤ) (B : EqBins) (x : Num) : ℤ := max 0 (min (B.locate bad x) (B.n - 1))

/-- stats/binning.py:209-211 `x_edges`: `np.linspace(b, e, n + 1)`, i.e. `i * step + b` with the last one set to `e` (for a step that is not
zero). -/
def EqBins.edge (B : EqBins) (i : Nat) : Num := if i = B.n then B.e else Num.add (Num.mul (ofQ i) B.step) B.b

end Pyhipp.FloatBins
