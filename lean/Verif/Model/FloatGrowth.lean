import Verif.Model.FloatCosmology
/-
Model of `_GrowthFactorCarroll92` (src/pyhipp/astro/cosmology/power_spectrum.py:530-564) in double precision, for a number as redshift; numba raises
ZeroDivisionError for a vanishing divisor.  `pw` is the power with exponent 4/7.
-/
namespace Pyhipp.FloatGrowth
open Pyhipp Pyhipp.F64 Pyhipp.FloatLinear Pyhipp.FloatCosmology

/-- astro/cosmology/power_spectrum.py:554-555: the divisor `f2`. -/
def f2 (pw : Num → Num) (m l : Num) : Num :=
  Num.add (Num.sub (pw m) l) (Num.mul (Num.add (.fin 1) (Num.div m (.fin 2))) (Num.add (.fin 1) (Num.div l (.fin 70))))

/-- astro/cosmology/power_spectrum.py:548-556 `growth_factor` with the current `norm`. -/
def growthAt (pw : Num → Num) (cosm : Cosm) (norm z : Num) : PyM Num := do
  let omega_m ← cosm.omegaMScalar z
  let omega_l ← cosm.omegaLScalar z
  let f1 ← pyDiv (Num.mul (Num.mul norm (.fin (5 / 2))) omega_m) (Num.add (.fin 1) z)
  pyDiv f1 (f2 pw omega_m omega_l)

/-- astro/cosmology/power_spectrum.py:541-546 and 558-561: `__init__` sets `norm` to 1 and then `__normalize`s. -/
def newNorm (pw : Num → Num) (cosm : Cosm) : PyM Num := do
  let d ← growthAt pw cosm (.fin 1) (.fin 0)
  pyDiv (.fin 1) d

/-- astro/cosmology/power_spectrum.py:541-556: `growth_factor` of a new object. -/
def growth (pw : Num → Num) (cosm : Cosm) (z : Num) : PyM Num := do
  let norm ← newNorm pw cosm
  growthAt pw cosm norm z

/-- astro/cosmology/power_spectrum.py:563-564 `delta_crit` of a new object. -/
def deltaCrit (pw : Num → Num) (cosm : Cosm) (z : Num) : PyM Num := do
  let g ← growth pw cosm z
  pyDiv (ofQ (843 / 500)) g

end Pyhipp.FloatGrowth
