import Verif.Base.Float64
import Verif.Base.Py
import Verif.Model.FloatReduce
import Verif.Model.FloatLinear
/-
Model of `_FlatLambdaCDMNR` and `_Densities` (src/pyhipp/astro/cosmology/flat_lambda_cdm_nr.py) in double precision: every operation
rounds.  numba computes `x**3` as `x * (x * x)`.  The critical density today is a parameter (its value involves π and constants of
nature); the conversions between radius and mass, which take a cube root, are not modelled here.
The functions on `Num` are those for an array of redshifts or scale factors, elementwise (numba divides arrays as IEEE prescribes), and for
a number as long as the divisor is not zero; the versions for a number, which raise, end in `Scalar`.
-/
namespace Pyhipp.FloatCosmology
open Pyhipp Pyhipp.F64 Pyhipp.FloatReduce Pyhipp.FloatLinear

/-- `x**3` with a literal exponent in numba. -/
def cube (x : Num) : Num := Num.mul x (Num.mul x x)

/-- astro/cosmology/flat_lambda_cdm_nr.py:35-46: the fields used by the background (`us` and the spectrum are not needed here). -/
structure Cosm where
  omegaM0 : Num
  omegaB0 : Num
  omegaL0 : Num
  bigHubble0 : Num

/-- astro/cosmology/flat_lambda_cdm_nr.py:48-72 `__init__` (`big_hubble0` is the literal of line 70, given as a double). -/
def Cosm.new (omegaM0 omegaB0 bigHubble0 : Num) : Cosm := ⟨omegaM0, omegaB0, Num.sub (.fin 1) omegaM0, bigHubble0⟩

/-- astro/cosmology/flat_lambda_cdm_nr.py:74-79 `efunc_sqr`. -/
def Cosm.efuncSqr (c : Cosm) (z : Num) : Num :=
  let zp1 := Num.add z (.fin 1)
  Num.add c.omegaL0 (Num.mul c.omegaM0 (cube zp1))

/-- astro/cosmology/flat_lambda_cdm_nr.py:81-85 `efunc`. -/
def Cosm.efunc (sq : ℚ → ℚ) (c : Cosm) (z : Num) : Num := npSqrt sq (c.efuncSqr z)

/-- astro/cosmology/flat_lambda_cdm_nr.py:87-89 `omega_m`. -/
def Cosm.omegaM (c : Cosm) (z : Num) : Num :=
  let zp1 := Num.add z (.fin 1)
  Num.div (Num.mul c.omegaM0 (cube zp1)) (c.efuncSqr z)

/-- astro/cosmology/flat_lambda_cdm_nr.py:91-92 `omega_l`. -/
def Cosm.omegaL (c : Cosm) (z : Num) : Num := Num.div c.omegaL0 (c.efuncSqr z)

/-- astro/cosmology/flat_lambda_cdm_nr.py:87-89 `omega_m` of a number. -/
def Cosm.omegaMScalar (c : Cosm) (z : Num) : PyM Num :=
  let zp1 := Num.add z (.fin 1)
  pyDiv (Num.mul c.omegaM0 (cube zp1)) (c.efuncSqr z)

/-- astro/cosmology/flat_lambda_cdm_nr.py:91-92 `omega_l` of a number. -/
def Cosm.omegaLScalar (c : Cosm) (z : Num) : PyM Num := pyDiv c.omegaL0 (c.efuncSqr z)

/-- astro/cosmology/flat_lambda_cdm_nr.py:94-95 `baryon_fraction`. -/
def Cosm.baryonFraction (c : Cosm) : PyM Num := pyDiv c.omegaB0 c.omegaM0

/-- astro/cosmology/flat_lambda_cdm_nr.py:97-101 `big_hubble`. -/
def Cosm.bigHubble (sq : ℚ → ℚ) (c : Cosm) (z : Num) : Num := Num.mul c.bigHubble0 (c.efunc sq z)

/-- astro/cosmology/flat_lambda_cdm_nr.py:103-104 `a2z`. -/
def a2z (a : Num) : Num := Num.sub (Num.div (.fin 1) a) (.fin 1)

/-- astro/cosmology/flat_lambda_cdm_nr.py:106-107 `z2a`. -/
def z2a (z : Num) : Num := Num.div (.fin 1) (Num.add z (.fin 1))

/-- astro/cosmology/flat_lambda_cdm_nr.py:103-104 `a2z` of a number. -/
def a2zScalar (a : Num) : PyM Num := do
  let q ← pyDiv (.fin 1) a
  return Num.sub q (.fin 1)

/-- astro/cosmology/flat_lambda_cdm_nr.py:106-107 `z2a` of a number. -/
def z2aScalar (z : Num) : PyM Num := pyDiv (.fin 1) (Num.add z (.fin 1))

/-- astro/cosmology/flat_lambda_cdm_nr.py:137-142 `_Densities.crit`, given `crit0()`. -/
def Cosm.crit (c : Cosm) (crit0 : Num) (z : Num) : Num := Num.mul crit0 (c.efuncSqr z)

/-- astro/cosmology/flat_lambda_cdm_nr.py:144-149 `_Densities.mean0`, given `crit0()`. -/
def Cosm.mean0 (c : Cosm) (crit0 : Num) : Num := Num.mul crit0 c.omegaM0

/-- astro/cosmology/flat_lambda_cdm_nr.py:151-156 `_Densities.mean`, given `crit0()`. -/
def Cosm.mean (c : Cosm) (crit0 : Num) (z : Num) : Num :=
  let zp1 := Num.add z (.fin 1)
  Num.mul (c.mean0 crit0) (cube zp1)

end Pyhipp.FloatCosmology
