import Verif.Model.TwoDim
import Verif.Model.FloatQuantile
/-
`Scatter2D.cum_prob_mass`, `z_level_at_percentile` and the selection of `scatter(hidden_in_p)` of plot/two_dim.py in double precision (Model/TwoDim.lean has them
over exact numbers).  The densities of the cells (after `z_transform`) and of the points are given.
-/
namespace Pyhipp.FloatContour
open Pyhipp Pyhipp.F64 Pyhipp.FloatQuantile

/-- `np.sort` of doubles: NaN goes last. -/
def npSortNan (z : List Num) : List Num := FloatQuantile.npSort (z.filter (fun a => a ≠ .nan)) ++ z.filter (fun a => a = .nan)

/-- `np.searchsorted(prob, v)` (side left) of an ordered array, NaN counting as larger than all numbers: how many entries come before `v`. -/
def ssLeft (prob : List Num) (v : Num) : Nat := (prob.takeWhile (fun c => Num.lt c v)).length

/-- plot/two_dim.py:245-251 `cum_prob_mass` of the flattened density; `z_cum[-1]` is an IndexError for an empty one. -/
def cumProbMass (z : List Num) : PyM (List Num × List Num) :=
  let zs := npSortNan z
  let cum := cumsum zs
  match cum.getLast? with
  | none => .error .indexError
  | some tot => .ok (zs, cum.map (fun c => Num.div c tot))

/-- plot/two_dim.py:254-258: the level of one percentile. -/
def levelAt (zs prob : List Num) (idShift : Int) (p : Num) : Num :=
  let ps_lo := Num.sub (.fin 1) p
  let id := (ssLeft prob ps_lo : Int) + idShift
  zs.getD (TwoDim.clip id prob.length) .nan

/-- plot/two_dim.py:253-259 `z_level_at_percentile`. -/
def zLevels (z : List Num) (ps : List Num) (idShift : Int) : PyM (List Num) := do
  let (zs, prob) ← cumProbMass z
  return ps.map (levelAt zs prob idShift)

/-- plot/two_dim.py:213-223: which points `scatter(hidden_in_p)` draws, from the densities `at` of the points and `z` of the cells. -/
def shown (z at' : List Num) (hidden : Option Num) : PyM (List Bool) := match hidden with
  | none => .ok (at'.map (fun _ => true))
  | some p => do
      let ls ← zLevels z [p] (-1)
      let level := ls.headD .nan
      return at'.map (fun a => Num.lt a level)

end Pyhipp.FloatContour
