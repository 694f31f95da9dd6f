import Verif.Base.Float64
import Verif.Base.Py
import Verif.Model.FloatReduce
/-
The density contrast of field/cubic_box in double precision (Model/Fourier.lean has it over the real numbers).  The grid is the list of its cells
in memory order; the order in which `mean` adds them is left open (`FloatReduce.IsSum`).  A grid without cells is not modelled.
-/
namespace Pyhipp.FloatContrast
open Pyhipp Pyhipp.F64

/-- `rho_x.mean()`. -/
def mean (sum : List Num → Num) (rho : List Num) : Num := Num.div (sum rho) (ofQ (rho.length : ℚ))

/-- The literal `1.0e-10`. -/
def low : Num := ofQ (1 / 10 ^ 10)

/-- field/cubic_box/smoothing.py:178-186 and gravity.py:121-129 `_normalize`. -/
def normalize (sum : List Num → Num) (rho : List Num) : PyM (List Num) :=
  let rhoMean := mean sum rho
  if Num.lt rhoMean low then .error .valueError
  else .ok (rho.map fun r => Num.sub (Num.div r rhoMean) (.fin 1))

end Pyhipp.FloatContrast
