import Verif.Base.Py
import Mathlib.Algebra.Order.Floor.Ring
import Mathlib.Algebra.BigOperators.Group.Finset.Basic
import Mathlib.Algebra.Order.BigOperators.Ring.Finset
/-
Model of src/pyhipp/field/cubic_box/{mesh,field,mass_assignment,cosmic_web}.py over an ordered field
with a floor function (exact arithmetic; floating-point rounding is not modelled).
-/
namespace Pyhipp.CubicBox
open Pyhipp

section
variable {α : Type} [Field α] [LinearOrder α] [FloorRing α]

/-- field/cubic_box/mesh.py:8-20 `_Mesh`. -/
structure Mesh (α : Type) where
  nGrids : Nat
  lBox : α

/-- field/cubic_box/mesh.py:16 `l_grid`. -/
def Mesh.lGrid (m : Mesh α) : α := m.lBox / (m.nGrids : α)

/-- field/cubic_box/mesh.py:22-32 `total_n_grids`, `volume`, `cell_volume`. -/
def Mesh.totalNGrids (m : Mesh α) : Nat := m.nGrids ^ 3
def Mesh.volume (m : Mesh α) : α := m.lBox ^ 3
def Mesh.cellVolume (m : Mesh α) : α := m.lGrid ^ 3

/-- field/cubic_box/mesh.py:34-37 `x_to_xi` (39-45 `x_to_xi_nd` is the same per element). -/
def Mesh.xToXi (m : Mesh α) (x : α) : Int := ⌊x / m.lGrid + 1 / 2⌋ % (m.nGrids : Int)

/-- A 3-d array: the entry at every index. -/
abbrev Cube (α : Type) := Int → Int → Int → α

/-- A 3-d position. -/
abbrev Vec3 (α : Type) := α × α × α

/-- field/cubic_box/mass_assignment.py:24-25 `shape_at_xi`. -/
def shapeAtXi (xi : α) : α := max (1 - |xi|) 0

/-- field/cubic_box/mass_assignment.py:27-29 `shape_at_x`. -/
def shapeAtX (m : Mesh α) (x : α) : α := shapeAtXi (x / m.lGrid)

/-- The result of `weights_at`. -/
structure W (α : Type) where
  il : Int
  ir : Int
  wl : α
  wr : α

/-- field/cubic_box/mass_assignment.py:51-63 `weights_at`. -/
def weightsAt (m : Mesh α) (x : α) : W α :=
  let x := x / m.lGrid
  let xl : α := (⌊x⌋ : Int)
  let wl := 1 - (x - xl)
  let wr := 1 - wl
  let il := ⌊x⌋
  let ir := il + 1
  { il := il % (m.nGrids : Int), ir := ir % (m.nGrids : Int), wl := wl, wr := wr }

/-- `d[i, j, k] += v` -/
def addAt (d : Cube α) (i j k : Int) (v : α) : Cube α :=
  fun i' j' k' => if i' = i ∧ j' = j ∧ k' = k then d i' j' k' + v else d i' j' k'

/-- field/cubic_box/mass_assignment.py:88-106 `_Linear.add_1`: eight successive updates. -/
def add1 (m : Mesh α) (d : Cube α) (x : Vec3 α) (weight : α) : Cube α :=
  let a := weightsAt m x.1
  let b := weightsAt m x.2.1
  let c := weightsAt m x.2.2
  let d := addAt d a.il b.il c.il (a.wl * b.wl * c.wl * weight)
  let d := addAt d a.il b.il c.ir (a.wl * b.wl * c.wr * weight)
  let d := addAt d a.il b.ir c.il (a.wl * b.wr * c.wl * weight)
  let d := addAt d a.il b.ir c.ir (a.wl * b.wr * c.wr * weight)
  let d := addAt d a.ir b.il c.il (a.wr * b.wl * c.wl * weight)
  let d := addAt d a.ir b.il c.ir (a.wr * b.wl * c.wr * weight)
  let d := addAt d a.ir b.ir c.il (a.wr * b.wr * c.wl * weight)
  let d := addAt d a.ir b.ir c.ir (a.wr * b.wr * c.wr * weight)
  d

/-- field/cubic_box/mass_assignment.py:108-117 `_Linear.add` (with weights: pairs; zip). -/
def addPairs (m : Mesh α) (d : Cube α) (ps : List (Vec3 α × α)) : Cube α :=
  ps.foldl (fun d p => add1 m d p.1 p.2) d

/-- field/cubic_box/mass_assignment.py:131-138 `DensityField.add`: `len(weights)` must agree; the
positions are (n, 3) arrays by type here. -/
def densityAdd (m : Mesh α) (d : Cube α) (xs : List (Vec3 α)) (weights : Option (List α)) :
    PyM (Cube α) :=
  match weights with
  | some w => if w.length = xs.length then .ok (addPairs m d (xs.zip w)) else .error .assertionError
  | none => .ok (addPairs m d (xs.map (fun x => (x, 1))))

/-- A whole history of `add` calls on a new DensityField (120-129: zeros). -/
def densityRun (m : Mesh α) (calls : List (List (Vec3 α) × Option (List α))) : PyM (Cube α) :=
  calls.foldlM (fun d c => densityAdd m d c.1 c.2) (fun _ _ _ => 0)

/-- What a DensityField (or any group written by its `dump`, 140-147) holds. -/
structure Dump (α : Type) where
  data : Cube α
  lBox : α
  nGrids : Nat

/-- field/cubic_box/mass_assignment.py:153-164 `join_dumps`: the record written to the output group.
Without an input the variable `out` is unbound (NameError).  Arrays of different size do not
broadcast (ValueError) unless the added one has a single cell, which numpy broadcasts. -/
def joinDumps : List (Dump α) → PyM (Dump α)
  | [] => .error .nameError
  | first :: rest => rest.foldlM (fun (out : Dump α) g =>
      if g.nGrids = out.nGrids then
        .ok { out with data := fun i j k => out.data i j k + g.data i j k }
      else if g.nGrids = 1 then
        .ok { out with data := fun i j k => out.data i j k + g.data 0 0 0 }
      else .error .valueError) first

/-- field/cubic_box/cosmic_web.py:41-59 `FieldInterpolator._value_at` at one point. -/
def valueAt (m : Mesh α) (data : Cube α) (x : Vec3 α) : α :=
  let a := weightsAt m x.1
  let b := weightsAt m x.2.1
  let c := weightsAt m x.2.2
  data a.il b.il c.il * a.wl * b.wl * c.wl
    + data a.il b.il c.ir * a.wl * b.wl * c.wr
    + data a.il b.ir c.il * a.wl * b.wr * c.wl
    + data a.il b.ir c.ir * a.wl * b.wr * c.wr
    + data a.ir b.il c.il * a.wr * b.wl * c.wl
    + data a.ir b.il c.ir * a.wr * b.wl * c.wr
    + data a.ir b.ir c.il * a.wr * b.wr * c.wl
    + data a.ir b.ir c.ir * a.wr * b.wr * c.wr

/-- All grid indices in C order (`np.meshgrid(..., indexing='ij')` flattened). -/
def cells (n : Nat) : List (Int × Int × Int) :=
  (List.range n).flatMap (fun i : Nat => (List.range n).flatMap (fun j : Nat => (List.range n).map (fun k : Nat =>
    ((i : Int), (j : Int), (k : Int)))))

/-- field/cubic_box/cosmic_web.py:87 `n_lams` of one cell. -/
def countAbove (lam : α × α × α) (th : α) : Nat :=
  (if lam.1 > th then 1 else 0) + (if lam.2.1 > th then 1 else 0) + (if lam.2.2 > th then 1 else 0)

/-- A constructed TidalClassifier. -/
structure Classifier (α : Type) where
  mesh : Mesh α
  lam : Cube (α × α × α)
  nLams : Cube Nat

/-- field/cubic_box/cosmic_web.py:80-92 `TidalClassifier.__init__`; `nLam` is the side length of the
given array (its last axis is 3 by type).  The cast to float32 is in Model/FloatWeb.lean. -/
def classifierInit (lam : Cube (α × α × α)) (nLam : Nat) (mesh : Mesh α) (th : α) :
    PyM (Classifier α) := do
  pyAssert (nLam == mesh.nGrids)
  pyAssert ((cells mesh.nGrids).all (fun c => decide ((lam c.1 c.2.1 c.2.2).1 ≤ (lam c.1 c.2.1 c.2.2).2.1)))
  pyAssert ((cells mesh.nGrids).all (fun c => decide ((lam c.1 c.2.1 c.2.2).2.1 ≤ (lam c.1 c.2.1 c.2.2).2.2)))
  return { mesh := mesh, lam := lam, nLams := fun i j k => countAbove (lam i j k) th }

/-- field/cubic_box/cosmic_web.py:64-75 `web_types`. -/
def webTypes (name : String) : PyM Nat :=
  if name = "knot" then .ok 3 else if name = "filament" then .ok 2 else if name = "sheet" then .ok 1
  else if name = "void" then .ok 0 else if name = "k" then .ok 3 else if name = "f" then .ok 2
  else if name = "s" then .ok 1 else if name = "v" then .ok 0 else .error .keyError

/-- field/cubic_box/cosmic_web.py:115-123 `web_type_at` of one point. -/
def webTypeAt (c : Classifier α) (x : Vec3 α) : Nat :=
  c.nLams (c.mesh.xToXi x.1) (c.mesh.xToXi x.2.1) (c.mesh.xToXi x.2.2)

/-- field/cubic_box/cosmic_web.py:125-133 `lam_at` of one point. -/
def lamAt (c : Classifier α) (x : Vec3 α) : α × α × α :=
  c.lam (c.mesh.xToXi x.1) (c.mesh.xToXi x.2.1) (c.mesh.xToXi x.2.2)

/-- field/cubic_box/cosmic_web.py:135-150 `grid_points_of_web_type`. -/
def gridPoints (c : Classifier α) (name : String) : PyM (List (Vec3 α)) := do
  let t ← webTypes name
  let sel := (cells c.mesh.nGrids).filter (fun q => c.nLams q.1 q.2.1 q.2.2 == t)
  return sel.map (fun q => ((q.1 : α) * c.mesh.lGrid, (q.2.1 : α) * c.mesh.lGrid, (q.2.2 : α) * c.mesh.lGrid))

/-- field/cubic_box/cosmic_web.py:152-182 `f_knot` ... `f_void`: fraction of cells of type `t`. -/
def fraction (c : Classifier α) (t : Nat) : α :=
  (((cells c.mesh.nGrids).countP (fun q => c.nLams q.1 q.2.1 q.2.2 == t) : Nat) : α)
    / ((c.mesh.nGrids ^ 3 : Nat) : α)

end
end Pyhipp.CubicBox
