import Verif.Base.Sorted
/-
Model of src/pyhipp/core/dataproc/grid.py.
-/
namespace Pyhipp.Grid
open Pyhipp

section G
variable {α : Type} [Field α] [LinearOrder α]

/-- core/dataproc/grid.py:13-25 `Grid1d.__init__` for a 1-d array of (non-NaN) locations.
Returns the stored `locs`. -/
def grid1dInit (locs : List α) : PyM (List α) := do
  pyAssert (decide (locs.length ≥ 1) && (npDiff locs).all (fun d => decide (d ≥ 0)))
  return locs

/-- core/dataproc/grid.py:31-35 `Grid1d.centers`: the locations of the new grid, which goes
through the same constructor. -/
def centers (locs : List α) : PyM (List α) :=
  let cent := List.zipWith (fun lo hi => (1 / 2) * (lo + hi)) locs.dropLast (locs.drop 1)
  grid1dInit cent

/-- core/dataproc/grid.py:37-40 `Grid1d.extent`. -/
def extent (locs : List α) : PyM (α × α) := do
  let a ← pyGet locs 0
  let b ← pyGet locs (-1)
  return (a, b)

/-- core/dataproc/grid.py:42-47 `Grid1d.locate` of one number. -/
def locate (locs : List α) (x : α) : Int := (ssRight locs x : Int) - 1

/-- core/dataproc/grid.py:78-85 `GridMd.__init__`. -/
def gridMdInit (grids : List (List α)) : PyM (List (List α)) := do
  let gs ← grids.mapM grid1dInit
  pyAssert (decide (gs.length ≥ 1))
  return gs

/-- core/dataproc/grid.py:137-139 `GridMd.centers`. -/
def centersMd (grids : List (List α)) : PyM (List (List α)) := do
  let cs ← grids.mapM centers
  gridMdInit cs

/-- core/dataproc/grid.py:145-150 `GridMd.locate`; `x` is the list of N points (rows); the
result is one list of N indices per dimension.  `x.T` of an (N, M) array is modelled by
picking component `k` of each row (rows are assumed to have at least M entries). -/
def locateMd (grids : List (List α)) (x : List (List α)) : List (List Int) :=
  grids.mapIdx (fun k g => x.map (fun row => locate g (row.getD k 0)))

end G

/-! n-dimensional arrays as (shape, row-major data) -/

/-- All multi-indices of an array of the given shape in row-major (C) order. -/
def indices : List Nat → List (List Nat)
  | [] => [[]]
  | n :: s => (List.range n).flatMap (fun i => (indices s).map (fun I => i :: I))

/-- Offset of a multi-index in the flat row-major data. -/
def flatIdx : List Nat → List Nat → Nat
  | _ :: s, i :: I => i * s.prod + flatIdx s I
  | _, _ => 0

structure NDArr (β : Type) where
  shape : List Nat
  data : List β

/-- `arr[I]` for a full multi-index. -/
def NDArr.get? {β : Type} (a : NDArr β) (I : List Nat) : Option β :=
  if List.Forall₂ (fun i n => i < n) I a.shape then a.data[flatIdx a.shape I]? else none

/-- `np.swapaxes(0, 1)` on an index or shape: numpy's 'xy' indexing exchanges the first two
axes when there are at least two. -/
def swap01 {β : Type} : List β → List β
  | a :: b :: t => b :: a :: t
  | l => l

section A
variable {α β : Type} [Inhabited α]

/-- core/dataproc/grid.py:125-127 `GridMd.locs` / `GridMd.locs_xy`: `np.meshgrid(*locs_1d,
indexing=...)`; the k-th output holds the k-th coordinate of every grid point. -/
def meshgrid (grids : List (List α)) (xy : Bool) : List (NDArr α) :=
  let n := grids.map List.length
  let shape := if xy then swap01 n else n
  grids.mapIdx (fun k g =>
    { shape := shape,
      data := (indices shape).map (fun I =>
        let J := if xy then swap01 I else I
        g.getD (J.getD k 0) default) })

/-- core/dataproc/grid.py:97-109 `GridMd.applied` with `stack_input=True` and a single
array-valued output `f : (points) -> values` (one entry per row; trailing output axes are
inside `β`).  `np.reshape` raises ValueError when the number of entries does not fit. -/
def applied (grids : List (List α)) (f : List (List α) → List β) (xy : Bool := true) :
    PyM (NDArr β) :=
  let locs := meshgrid grids xy
  let locsFlat := locs.map (fun l => l.data)
  let nRows := (locsFlat.headD []).length
  let rows := (List.range nRows).map (fun r => locsFlat.map (fun l => l.getD r default))
  let out := f rows
  let shape := (locs.map (fun l => l.shape)).headD []
  if out.length = shape.prod then .ok { shape := shape, data := out } else .error .valueError

end A
end Pyhipp.Grid
