import Verif.Base.Float64
import Verif.Model.FloatReduce
/-
Model of `NFWProfileCalculator.mu` and `c_to_v_max2vir` (src/pyhipp/astro/cosmology/halo_theory.py:49-57) in double precision, for arrays (elementwise);
`log` is numpy's logarithm, `sq` the machine's square root.
-/
namespace Pyhipp.FloatNFW
open Pyhipp Pyhipp.F64 Pyhipp.FloatReduce

/-- halo_theory.py:49-51 `mu`. -/
def mu (log : Num → Num) (x : Num) : Num := Num.sub (log (Num.add (.fin 1) x)) (Num.div x (Num.add (.fin 1) x))

/-- halo_theory.py:53-57 `c_to_v_max2vir`. -/
def cToV (log : Num → Num) (sq : ℚ → ℚ) (c : Num) : Num :=
  let mu_at_c := mu log c
  npSqrt sq (Num.div (Num.mul (ofQ (216217 / 1000000)) c) mu_at_c)

end Pyhipp.FloatNFW
