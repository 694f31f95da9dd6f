import Verif.Base.Float64
import Verif.Base.Py
/-
Model of `ProbTransToNorm.__init__` (src/pyhipp/stats/prob_dist.py:11-26) in double precision: which samples it accepts and the table it makes.  `sort` is
numpy's sort (NaN last); -0.0 and 0.0 are one number here, as for the test that the code makes.  The interpolation with scipy is not modelled here.
-/
namespace Pyhipp.FloatProb
open Pyhipp Pyhipp.F64

/-- `np.diff`. -/
def diff (s : List Num) : List Num := List.zipWith (fun a b => Num.sub b a) s s.tail

/-- stats/prob_dist.py:11-26 `ProbTransToNorm.__init__`: (xs_sorted, cum_ps).  The minimum of an empty array is a ValueError; a NaN makes the minimum NaN. -/
def probInit (sort : List Num → List Num) (xs : List Num) : PyM (List Num × List Num) := do
  let xs_sorted := sort xs
  let n := xs.length
  if (diff xs_sorted).length = 0 then .error .valueError else
  pyAssert ((diff xs_sorted).all (fun d => Num.lt (.fin 0) d))
  let cum_ps := (List.range n).map (fun i : Nat => Num.div (ofQ i) (Num.sub (ofQ n) (.fin 1)))
  return (xs_sorted, cum_ps)

end Pyhipp.FloatProb
