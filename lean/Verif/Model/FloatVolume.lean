import Verif.Model.FloatOverlap
import Verif.Model.FloatNum
/-
`BinnedVolumeDensity.__hist` of astro/stats/lss.py in double precision (Model/Lss.lean has it over exact numbers).  `np.log10` is a parameter.
-/
namespace Pyhipp.FloatVolume
open Pyhipp Pyhipp.F64
open Pyhipp.Binning (BinSpec)

/-- The mapping returned by `__hist`. -/
structure VolHist where
  x : List Num
  dx : List Num
  subE : List Num
  h : List Num
  y : List Num
  lgY : List Num
  deriving DecidableEq

/-- astro/stats/lss.py:74 `y = h / (volume * dx)`. -/
def density (h dx : List Num) (volume : Num) : List Num := List.zipWith (fun h d => Num.div h (Num.mul volume d)) h dx

/-- astro/stats/lss.py:75 `dp.Num.safe_lg(y, lo=lg_y_pad)` (core/dataproc/num.py:55-63). -/
def safeLg (log10 : Num → Num) (y : List Num) (lo : Num) : List Num := y.map fun v => log10 (FloatNum.boundLo v lo)

/-- astro/stats/lss.py:67-81 `BinnedVolumeDensity.__hist` after the noise was added, without weights: the counts are integers, converted to doubles by the division. -/
def hist (log10 : Num → Num) (x : List Num) (bins : BinSpec Num) (subBins : Int) (range : Num × Num) (volume pad : Num) : PyM VolHist := do
  let out ← FloatSubBins.fromOverlappedBins x bins subBins range
  let h := out.h.map fun z : ℤ => ofQ (z : ℚ)
  let y := density h out.dx volume
  return ⟨out.x, out.dx, out.subE, h, y, safeLg log10 y pad⟩

/-- astro/stats/lss.py:67-81 `BinnedVolumeDensity.__hist` after the noise was added, with weights. -/
def histW (sort : List (Num × Num) → List (Num × Num)) (log10 : Num → Num) (x w : List Num) (bins : BinSpec Num) (subBins : Int) (range : Num × Num)
    (volume pad : Num) : PyM VolHist := do
  let out ← FloatOverlap.fromOverlappedBins sort x w bins subBins range
  let y := density out.h out.dx volume
  return ⟨out.x, out.dx, out.subE, out.h, y, safeLg log10 y pad⟩

end Pyhipp.FloatVolume
