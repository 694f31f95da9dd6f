import Verif.Base.Float64
import Verif.Base.Py
/-
Model of `RandomNoise.add_to` (src/pyhipp/stats/sampling.py:84-97) in double precision, given the standard normal draws `z` (`n_repeats` rows of `len(x)`);
`pow10` is numpy's power `10**dx`.  `x` is one-dimensional and holds doubles (integers are first converted by numpy).
-/
namespace Pyhipp.FloatNoise
open Pyhipp Pyhipp.F64

/-- The result: one row, or a two-dimensional array. -/
inductive Out
  | row (r : List Num)
  | rows (rs : List (List Num))
  deriving DecidableEq

/-- stats/sampling.py:87-92: one element. -/
def noisy (pow10 : Num → Num) (sigma : Num) (inLg : Bool) (x z : Num) : Num :=
  let dx := Num.mul z sigma
  if inLg then Num.mul x (pow10 dx) else Num.add x dx

/-- stats/sampling.py:84-97 `add_to`; `standard_normal((n_repeats, n_xs))` has a row of draws for each repeat; a negative `n_repeats` is a ValueError. -/
def addTo (pow10 : Num → Num) (sigma : Num) (inLg : Bool) (draws : Nat → Nat → Num) (x : List Num) (nRepeats : Int) : PyM Out := do
  if nRepeats < 0 then .error .valueError else
  let out := (List.range nRepeats.toNat).map fun i : Nat => x.mapIdx fun j a => noisy pow10 sigma inLg a (draws i j)
  match out with
  | [r] => return .row r
  | rs => return .rows rs

end Pyhipp.FloatNoise
