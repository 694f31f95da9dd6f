import Verif.Model.Grid
/-
core/dataproc/grid.py, `GridMd.applied` in full: stacked and separate input, one or several results, trailing axes.
-/
namespace Pyhipp.GridApplied
open Pyhipp Pyhipp.Grid

variable {α β : Type} [Inhabited α]

/-- What the function is called with: one (N, M) array, or M arrays of length N. -/
inductive FIn (α : Type) where
  | stacked (rows : List (List α))
  | args (cols : List (List α))

/-- What the function returns: an array; something to iterate over, `none` being an element that has no shape; or neither (a number, `None`). -/
inductive FOut (β : Type) where
  | array (a : NDArr β)
  | many (l : List (Option (NDArr β)))
  | other

/-- The attribute `values`. -/
inductive Values (β : Type) where
  | one (a : NDArr β)
  | many (l : List (NDArr β))

/-- core/dataproc/grid.py:56-60 `_AppliedResult`. -/
structure Result (α β : Type) where
  values : Values β
  locs : List (NDArr α)
  locs1d : List (List α)

/-- core/dataproc/grid.py:98-104: the grid points as the function gets them. -/
def input (grids : List (List α)) (xy stack : Bool) : FIn α :=
  let locsFlat := (meshgrid grids xy).map (fun l => l.data)
  if stack then
    .stacked ((List.range (locsFlat.headD []).length).map fun r => locsFlat.map fun l => l.getD r default)
  else .args locsFlat

/-- core/dataproc/grid.py:111-115 `__out_shaping`; `np.reshape` refuses another number of elements, and a thing without a shape is an AttributeError. -/
def outShaping (out : Option (NDArr β)) (locs : List (NDArr α)) : PyM (NDArr β) :=
  match out with
  | none => .error .attributeError
  | some out =>
    let shape := (locs.map fun l => l.shape).headD [] ++ out.shape.drop 1
    if shape.prod = out.shape.prod then .ok { shape := shape, data := out.data } else .error .valueError

/-- core/dataproc/grid.py:97-109 `GridMd.applied`. -/
def applied (grids : List (List α)) (f : FIn α → PyM (FOut β)) (xy stack : Bool) : PyM (Result α β) := do
  let locs := meshgrid grids xy
  let out ← f (input grids xy stack)
  match out with
  | .array a =>
    let v ← outShaping (some a) locs
    return ⟨.one v, locs, grids⟩
  | .many l =>
    let vs ← l.mapM fun o => outShaping o locs
    return ⟨.many vs, locs, grids⟩
  | .other => .error .typeError

end Pyhipp.GridApplied
