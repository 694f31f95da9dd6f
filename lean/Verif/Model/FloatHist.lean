import Verif.Model.FloatBins
/-
stats/binning.py `BinnedData` with its default dtype (float): counts and weighted sums accumulated in double precision.
-/
namespace Pyhipp.FloatHist
open Pyhipp F64 FloatBins

/-- `data[id] += w` inside numba, which does not check bounds: an index outside the array would read and write foreign memory, here an IndexError
(C125 shows that it never happens). -/
def store (data : List Num) (id : ℤ) (w : Num) : PyM (List Num) :=
  if 0 ≤ id ∧ id < data.length then .ok (data.set id.toNat (Num.add (data.getD id.toNat .nan) w)) else .error .indexError

/-- stats/binning.py:298-299, 307-308: `if id >= 0 and id < n_bins: data[id] += w` for one element. -/
def put (nBins : Nat) (data : List Num) (id : ℤ) (w : Num) : PyM (List Num) :=
  if id ≥ 0 ∧ id < nBins then store data id w else .ok data

/-- stats/binning.py:293-299 `__add_unweighted` on a float array; the integer 1 is converted to 1.0. -/
def addUnweighted (ids : List ℤ) (data : List Num) : PyM (List Num) :=
  let nBins := data.length
  ids.foldlM (fun d id => put nBins d id (.fin 1)) data

/-- stats/binning.py:301-308 `__add_weighted`. -/
def addWeighted (ids : List ℤ) (ws : List Num) (data : List Num) : PyM (List Num) := do
  let nIds := ids.length
  let nBins := data.length
  pyAssert (nIds == ws.length)
  (List.range nIds).foldlM (fun d i => put nBins d (ids.getD i 0) (ws.getD i .nan)) data

/-- stats/binning.py:284-290 `BinnedData.add` on the float array `data`, the bins given by their `locate`. -/
def add (locate : Num → ℤ) (data : List Num) (xs : List Num) : Option (List Num) → PyM (List Num)
  | none => addUnweighted (xs.map locate) data
  | some ws => addWeighted (xs.map locate) ws data

/-- stats/binning.py:264-275 `BinnedData.__init__` with the default dtype and shape: the array of zeros. -/
def zeros (n : Nat) : List Num := List.replicate n (.fin 0)

/-- A program of `add` calls on one object; a call that raises leaves the array as it was (the assertion precedes the loop,
stats/binning.py:305). -/
def run (locate : Num → ℤ) (data : List Num) : List (List Num × Option (List Num)) → List Num
  | [] => data
  | c :: cs => run locate (match add locate data c.1 c.2 with
      | .ok d => d
      | .error _ => data) cs

end Pyhipp.FloatHist
