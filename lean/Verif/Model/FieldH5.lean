import Verif.Model.Field
import Verif.Model.H5Like
/-
Model of src/pyhipp/field/cubic_box/mass_assignment.py:140-170: `DensityField.dump`, `join_dumps`, `load` on HDF5 groups.
-/
namespace Pyhipp.CubicBox
open Pyhipp Pyhipp.H5

variable {α : Type} [Field α] [LinearOrder α]

/-- An array element: a float or an integer. -/
inductive Cell (α : Type) where
  | flt (x : α)
  | int (n : Nat)

/-- The dtypes that occur. -/
inductive FDT where
  | f64 | i64 | other
  deriving DecidableEq

/-- The elements of a `(n, n, n)` array in C order. -/
def cubeElems (n : Nat) (d : Cube α) : List (Cell α) := (cells n).map (fun c => .flt (d c.1 c.2.1 c.2.2))

/-- field/cubic_box/mass_assignment.py:143-147: the dict that `dump` writes. -/
def fieldDict (g : Dump α) : Val FDT (Cell α) :=
  .map [(.str "data".toList, .leaf (.dat ⟨.f64, [g.nGrids, g.nGrids, g.nGrids], cubeElems g.nGrids g.data⟩)),
    (.str "l_box".toList, .leaf (.dat ⟨.f64, [], [.flt g.lBox]⟩)), (.str "n_grids".toList, .leaf (.dat ⟨.i64, [], [.int g.nGrids]⟩))]

/-- field/cubic_box/mass_assignment.py:140-147 `DensityField.dump`. -/
def fieldDump (env : Env FDT (Cell α)) (g : Dump α) (flag : String) (n : Node FDT (Cell α)) : PyM Unit × Node FDT (Cell α) :=
  dump env flag (fieldDict g) n

/-- A stored float. -/
def asFloat (d : Dset FDT (Cell α)) : PyM α :=
  match d.shape, d.elems with
  | [], [.flt x] => .ok x
  | _, _ => .error .typeError

/-- A stored integer. -/
def asInt (d : Dset FDT (Cell α)) : PyM Nat :=
  match d.shape, d.elems with
  | [], [.int n] => .ok n
  | _, _ => .error .typeError

/-- `arr[i, j, k]` of a 3-d float array (index within the bounds). -/
def arrAt (d : Dset FDT (Cell α)) (i j k : Int) : α :=
  match d.shape with
  | [_, b, c] => match d.elems[(i.toNat * b + j.toNat) * c + k.toNat]? with
      | some (.flt x) => x
      | _ => 0
  | _ => 0

/-- field/cubic_box/mass_assignment.py:167-170 `DensityField.load`: a field with the data and the mesh; the jitclass of the field
takes 3-d float arrays of the size of the mesh only (field.py:10-33). -/
def fieldLoad (n : Node FDT (Cell α)) : PyM (Dump α) := do
  let data ← dsGet n "data".toList
  let l ← dsGet n "l_box".toList
  let m ← dsGet n "n_grids".toList
  let lBox ← asFloat l
  let nGrids ← asInt m
  if data.shape.length = 3 ∧ data.dt = .f64 then
    if data.shape = [nGrids, nGrids, nGrids] then return { data := arrAt data, lBox := lBox, nGrids := nGrids }
    else throw .assertionError
  else throw .typeError

/-- `x + y` of two elements into a float array. -/
def Cell.add : Cell α → Cell α → Cell α
  | .flt x, .flt y => .flt (x + y)
  | .flt x, .int n => .flt (x + (n : α))
  | .int m, .int n => .int (m + n)
  | .int m, .flt _ => .int m

/-- `data += arr` in numpy: `arr` is broadcast to the shape of `data`, else ValueError. -/
def iadd (old new : Dset FDT (Cell α)) : PyM (Dset FDT (Cell α)) :=
  if new.shape.length ≤ old.shape.length then
    match matchShape new.shape old.shape with
    | some ps => .ok { old with elems := List.zipWith Cell.add old.elems (expand ps new.elems) }
    | none => .error .valueError
  else .error .valueError

/-- field/cubic_box/mass_assignment.py:161-163: one more input group. -/
def joinStep (out : List (Str × LVal FDT (Cell α))) (g : Node FDT (Cell α)) : PyM (List (Str × LVal FDT (Cell α))) := do
  match PyDict.get? out "data".toList with
  | some (.dat old) => do
      let new ← dsGet g "data".toList
      let d ← iadd old new
      return PyDict.set out "data".toList (.dat d)
  | some (.map _) => throw .typeError
  | none => throw .keyError

/-- field/cubic_box/mass_assignment.py:158-163: the dict to be written; without an input `out` is not defined. -/
def joinData : List (Node FDT (Cell α)) → PyM (List (Str × LVal FDT (Cell α)))
  | [] => .error .nameError
  | first :: rest => match load first with
      | .map kvs => rest.foldlM joinStep kvs
      | .dat _ => .error .attributeError

/-- field/cubic_box/mass_assignment.py:153-164 `DensityField.join_dumps`. -/
def joinDumpsH5 (env : Env FDT (Cell α)) (ins : List (Node FDT (Cell α))) (flag : String) (out : Node FDT (Cell α)) : PyM Unit × Node FDT (Cell α) :=
  match joinData ins with
  | .error e => (.error e, out)
  | .ok kvs => dump env flag (LVal.toVal (.map kvs)) out

end Pyhipp.CubicBox
