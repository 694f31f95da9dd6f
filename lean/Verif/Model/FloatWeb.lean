import Verif.Base.Float32
import Verif.Model.FloatMesh
import Verif.Model.H5
/-
field/cubic_box/cosmic_web.py `TidalClassifier` with its float32 arrays, rounding included (Model/Field.lean has the same code over exact numbers),
and the two constructors that read an HDF5 group.
-/
namespace Pyhipp.FloatWeb
open Pyhipp F64 FloatMesh

/-- A grid node. -/
abbrev Node3 := ℤ × ℤ × ℤ

/-- The three eigenvalues at a node. -/
abbrev Lam := Num × Num × Num

/-- An array of numbers: its shape and its elements in C order. -/
structure Arr where
  shape : List Nat
  elems : List Num

/-- All nodes of an n³ mesh in C order. -/
def nodes (n : Nat) : List Node3 :=
  (List.range n).flatMap (fun i : Nat => (List.range n).flatMap (fun j : Nat => (List.range n).map (fun k : Nat => ((i : ℤ), (j : ℤ), (k : ℤ)))))

/-- `a[i, j, k, c]` of an array of shape (n, n, n, 3) (indices within the bounds). -/
def Arr.at4 (a : Arr) (n : Nat) (p : Node3) (c : Nat) : Num :=
  a.elems.getD ((((p.1.toNat * n) + p.2.1.toNat) * n + p.2.2.toNat) * 3 + c) .nan

/-- `a[i, j, k, :]`. -/
def Arr.lamAt (a : Arr) (n : Nat) (p : Node3) : Lam := (a.at4 n p 0, a.at4 n p 1, a.at4 n p 2)

/-- `np.array(a, dtype=np.float32)` of a float64 array. -/
def Arr.toF32 (a : Arr) : Arr := { a with elems := a.elems.map F32.cast }

/-- The threshold: a Python float (which numpy brings to float32 in a comparison with a float32 array) or a numpy float64 (numpy ≥ 2 compares in float64). -/
inductive Th where
  | pyFloat (x : Num)
  | f64 (x : Num)

/-- The value a float32 array is compared with. -/
def Th.value : Th → Num
  | .pyFloat x => F32.cast x
  | .f64 x => x

/-- field/cubic_box/cosmic_web.py:87 `np.count_nonzero(lam > lam_th, axis=-1)` at one node. -/
def countAbove (l : Lam) (th : Num) : Nat :=
  (Num.lt th l.1).toNat + (Num.lt th l.2.1).toNat + (Num.lt th l.2.2).toNat

/-- A constructed `TidalClassifier`: its mesh, `lam` and `n_lams`. -/
structure Classifier where
  mesh : Mesh
  lam : Node3 → Lam
  nLams : Node3 → Nat

/-- field/cubic_box/cosmic_web.py:80-92 `TidalClassifier.__init__`. -/
def init (lam : Arr) (mesh : Mesh) (th : Th) : PyM Classifier := do
  let lam := lam.toF32
  let n := mesh.n
  pyAssert (lam.shape == [n, n, n, 3])
  pyAssert ((nodes n).all (fun p => Num.le (lam.at4 n p 0) (lam.at4 n p 1)))
  pyAssert ((nodes n).all (fun p => Num.le (lam.at4 n p 1) (lam.at4 n p 2)))
  return { mesh := mesh, lam := lam.lamAt n, nLams := fun p => countAbove (lam.lamAt n p) th.value }

/-- field/cubic_box/cosmic_web.py:121, 131: the node a row of coordinates is assigned to. -/
def nodeOf (bad : Num → ℤ) (m : Mesh) (x : Point) : Node3 := (xToXi bad m x.1, xToXi bad m x.2.1, xToXi bad m x.2.2)

/-- A row of a table with three columns. -/
def row3 (r : List Num) : Point := (r.getD 0 .nan, r.getD 1 .nan, r.getD 2 .nan)

/-- field/cubic_box/cosmic_web.py:100-107, 115-123 `web_type_at`; the array of points is given by its rows and its number of columns. -/
def webTypeAt (bad : Num → ℤ) (c : Classifier) (cols : Nat) (xs : List (List Num)) : PyM (List Nat) := do
  pyAssert (cols == 3)
  return xs.map (fun r => c.nLams (nodeOf bad c.mesh (row3 r)))

/-- field/cubic_box/cosmic_web.py:109-113, 125-133 `lam_at`. -/
def lamAt (bad : Num → ℤ) (c : Classifier) (cols : Nat) (xs : List (List Num)) : PyM (List Lam) := do
  pyAssert (cols == 3)
  return xs.map (fun r => c.lam (nodeOf bad c.mesh (row3 r)))

/-- field/cubic_box/cosmic_web.py:64-75 `web_types`. -/
def webTypes (name : Str) : PyM Nat :=
  match PyDict.get? [("knot".toList, 3), ("filament".toList, 2), ("sheet".toList, 1), ("void".toList, 0), ("k".toList, 3), ("f".toList, 2), ("s".toList, 1), ("v".toList, 0)] name with
  | some t => .ok t
  | none => .error .keyError

/-- field/cubic_box/cosmic_web.py:147-148: `x[:, i] = idx * h`, rounded to float32 by the assignment. -/
def coord (h : Num) (i : ℤ) : Num := F32.cast (Num.mul (ofQ i) h)

/-- field/cubic_box/cosmic_web.py:135-150 `grid_points_of_web_type`: the rows of the result. -/
def gridPoints (c : Classifier) (name : Str) : PyM (List (List Num)) := do
  let t ← webTypes name
  return ((nodes c.mesh.n).filter (fun p => c.nLams p == t)).map (fun p => [coord c.mesh.lGrid p.1, coord c.mesh.lGrid p.2.1, coord c.mesh.lGrid p.2.2])

/-- field/cubic_box/cosmic_web.py:152-182 `f_knot` … `f_void`: number of nodes of type `t` over the number of nodes, both int64. -/
def fraction (c : Classifier) (t : Nat) : Num :=
  Num.div (ofQ ((nodes c.mesh.n).countP (fun p => c.nLams p == t) : Nat)) (ofQ (c.mesh.n ^ 3 : Nat))

/-! ### From a file -/

/-- dtypes of the stored datasets. -/
inductive DT where
  | f64 | f32 | i64 | other
  deriving DecidableEq

/-- Stored elements. -/
inductive Elem where
  | flt (x : Num)
  | int (k : ℤ)

/-- A number as a float. -/
def Elem.num : Elem → Num
  | .flt x => x
  | .int k => ofQ k

/-- A stored 0-d integer. -/
def scalarInt (d : H5.Dset DT Elem) : PyM ℤ :=
  match d.shape, d.elems with
  | [], [.int k] => .ok k
  | _, _ => .error .typeError

/-- A stored 0-d number as a float. -/
def scalarNum (d : H5.Dset DT Elem) : PyM Num :=
  match d.shape, d.elems with
  | [], [e] => .ok e.num
  | _, _ => .error .typeError

/-- `Mesh.new(n_grids, l_box)` with a positive number of grids; a non-positive one is not modelled beyond being refused
(0 is a ZeroDivisionError, field/cubic_box/mesh.py:16). -/
def meshOf (k : ℤ) (l : Num) : PyM Mesh := if 0 < k then .ok (Mesh.new l k.toNat) else .error .zeroDivisionError

/-- field/cubic_box/cosmic_web.py:94-98 `TidalClassifier.new_from_file`. -/
def newFromFile (g : H5.Node DT Elem) (th : Th) : PyM Classifier := do
  let n ← H5.dsGet g "n_grids".toList
  let l ← H5.dsGet g "l_box".toList
  let lam ← H5.dsGet g "lam".toList
  let k ← scalarInt n
  let lb ← scalarNum l
  let mesh ← meshOf k lb
  init { shape := lam.shape, elems := lam.elems.map Elem.num } mesh th

/-- `a[i, j, k]` of an array of shape (n, n, n) (indices within the bounds). -/
def at3 (elems : List Num) (n : Nat) (p : Node3) : Num := elems.getD ((p.1.toNat * n + p.2.1.toNat) * n + p.2.2.toNat) .nan

/-- field/cubic_box/field.py:16-33 `_Field`: a 3-d float64 array with equal sides, as many as the mesh has. -/
def newField (dt : DT) (shape : List Nat) (elems : List Num) (m : Mesh) : PyM Data :=
  match shape with
  | [a, b, c] =>
    if dt = .f64 then do
      pyAssert (a == b && b == c)
      pyAssert (m.n == a)
      return at3 elems m.n
    else .error .typeError
  | _ => .error .typeError

/-- field/cubic_box/cosmic_web.py:24-31 `FieldInterpolator.new_density_field_from_file`: the mesh and the data of the field. -/
def newDensityFromFile (g : H5.Node DT Elem) (key : Str) : PyM (Mesh × Data) := do
  let d ← H5.dsGet g key
  let l ← H5.dsGet g "l_box".toList
  let n ← H5.dsGet g "n_grids".toList
  let rho := d.elems.map (fun e => Num.add e.num (.fin 1))
  let k ← scalarInt n
  let lb ← scalarNum l
  let mesh ← meshOf k lb
  let data ← newField (if d.dt = .i64 then .f64 else d.dt) d.shape rho mesh
  return (mesh, data)

end Pyhipp.FloatWeb
