import Verif.Base.Py
import Verif.Base.Sorted
import Mathlib.Data.Real.Basic
/-
Which arrays share memory: core/abc.py `HasValue`, core/arrays/array.py `Array`, core/dataproc/data_structs.py `Array.as_array`,
field/cubic_box/field.py `_Field`/`Field`, field/cubic_box/cosmic_web.py `TidalClassifier.__init__` (copy of `lam`).

A numpy array is a memory block, the positions of its elements in the block (in C order of the array; a reshaped, sliced or
transposed view is another list of positions of the same block) and a shape.  Elements are reals; data types are not modelled
(arrays of double precision).  Assignment `a[...] = v` is modelled for a number and for an array of the same shape; numpy's
broadcasting of other shapes is not.
-/
namespace Pyhipp.ArrayRef
open Pyhipp

/-- The memory blocks. -/
abbrev Mem := List (List ℝ)

/-- A numpy array. -/
structure Arr where
  blk : Nat
  idx : List Nat
  shape : List Nat

/-- The elements of an array. -/
def read (m : Mem) (a : Arr) : List ℝ := a.idx.map (fun i => (m.getD a.blk []).getD i 0)

/-- A new array in C order. -/
def alloc (m : Mem) (vs : List ℝ) (shape : List Nat) : Mem × Arr :=
  (m ++ [vs], { blk := m.length, idx := List.range vs.length, shape := shape })

/-- What a caller passes as data. -/
inductive Like where
  | num (x : ℝ)
  | seq (l : List ℝ)
  | arr (a : Arr)

/-- `np.array(x, copy=copy)`.  With `copy=False` an array is returned itself; anything else needs a copy, which numpy 2 (`strict`)
refuses with a ValueError and numpy 1 makes. -/
def npArray (strict copy : Bool) (m : Mem) (x : Like) : PyM (Mem × Arr) :=
  match x with
  | .arr a => if copy then .ok (alloc m (read m a) a.shape) else .ok (m, a)
  | .num v => if strict && !copy then .error .valueError else .ok (alloc m [v] [])
  | .seq l => if strict && !copy then .error .valueError else .ok (alloc m l [l.length])

/-- core/abc.py:120-123 `HasValue.__init__`: the attribute `value`. -/
def hasValue (strict : Bool) (m : Mem) (x : Like) (copy : Bool := true) : PyM (Mem × Arr) := npArray strict copy m x

/-- core/arrays/array.py:15-25 `Array.__init__` for floating-point data: the attribute `_impl`. -/
def mkArray (strict : Bool) (m : Mem) (x : Like) (copy : Bool := true) : PyM (Mem × Arr) := npArray strict copy m x

/-- Store values at positions of a block, one by one. -/
def store (b : List ℝ) : List (Nat × ℝ) → List ℝ
  | [] => b
  | p :: t => store (b.set p.1 p.2) t

/-- `a[...] = v`: all values of `v` are read before the first is stored. -/
def assign (m : Mem) (a : Arr) (vs : List ℝ) : Mem := m.set a.blk (store (m.getD a.blk []) (a.idx.zip vs))

/-- core/abc.py:125-126 `HasValue.set_value`. -/
def setValue (m : Mem) (a : Arr) (x : Like) : PyM Mem :=
  match x with
  | .num v => .ok (assign m a (a.idx.map (fun _ => v)))
  | .seq l => if a.shape = [l.length] then .ok (assign m a l) else .error .valueError
  | .arr b => if a.shape = b.shape then .ok (assign m a (read m b)) else .error .valueError

/-- core/arrays/array.py:37-38 `Array.copied`. -/
def copied (m : Mem) (a : Arr) : Mem × Arr := alloc m (read m a) a.shape

/-- C-contiguous: consecutive positions. -/
def contiguous (a : Arr) : Bool := a.idx == (List.range a.idx.length).map (fun k => a.idx.headD 0 + k)

/-- core/arrays/array.py:40-42 `Array.flatten`: numpy's `ravel` copies only if it must. -/
def flatten (m : Mem) (a : Arr) (copy : Bool := true) : Mem × Arr :=
  if copy then alloc m (read m a) [a.idx.length]
  else if contiguous a then (m, { a with shape := [a.idx.length] })
  else alloc m (read m a) [a.idx.length]

/-- core/arrays/array.py:44-46 `Array.sorted` with the default `axis=None`: the sorted flattened copy. -/
noncomputable def sorted (m : Mem) (a : Arr) : Mem × Arr :=
  let vs := npSort (read m a)
  alloc m vs [vs.length]

/-- core/arrays/array.py:27-35 `Array.zeros` / `Array.ones` of a valid shape. -/
def full (m : Mem) (shape : List Nat) (v : ℝ) : Mem × Arr := alloc m (List.replicate shape.prod v) shape

/-- core/dataproc/data_structs.py:43-47 `__as_array_one`. -/
def asArrayOne (strict copy : Bool) (m : Mem) (x : Option Like) : PyM (Mem × Option Arr) :=
  match x with
  | none => .ok (m, none)
  | some x => do
      let (m, a) ← npArray strict copy m x
      return (m, some a)

/-- core/dataproc/data_structs.py:40 the loop over the arguments. -/
def asArrayLoop (strict copy : Bool) : Mem → List (Option Like) → PyM (Mem × List (Option Arr))
  | m, [] => .ok (m, [])
  | m, x :: t => do
      let (m, a) ← asArrayOne strict copy m x
      let (m, as) ← asArrayLoop strict copy m t
      return (m, a :: as)

/-- core/dataproc/data_structs.py:24-41 `Array.as_array`; one argument gives a single result instead of a tuple: `Sum.inl`. -/
def asArray (strict copy : Bool) (m : Mem) (xs : List (Option Like)) : PyM (Mem × (Option Arr ⊕ List (Option Arr))) :=
  match xs with
  | [] => .error .assertionError
  | [x] => do
      let (m, a) ← asArrayOne strict copy m x
      return (m, .inl a)
  | xs => do
      let (m, as) ← asArrayLoop strict copy m xs
      return (m, .inr as)

/-- A mesh: field/cubic_box/mesh.py `_Mesh` (identity, cells per side, box size). -/
structure Mesh where
  id : Nat
  nGrids : Nat
  lBox : ℝ

/-- field/cubic_box/field.py:10-35, 52-54: a field refers to its data and mesh. -/
structure Field where
  data : Arr
  mesh : Mesh

/-- field/cubic_box/field.py:16-35 `_Field.__init__`; `freshId` is the identity of the mesh made for `mesh=None`. -/
def mkField (freshId : Nat) (data : Arr) (mesh : Option Mesh) : PyM Field :=
  match data.shape with
  | [n0, n1, n2] =>
      if n0 = n1 ∧ n1 = n2 then
        match mesh with
        | none => .ok { data := data, mesh := { id := freshId, nGrids := n0, lBox := 1 } }
        | some ms => if ms.nGrids = n0 then .ok { data := data, mesh := ms } else .error .assertionError
      else .error .assertionError
  | _ => .error .assertionError

/-- field/cubic_box/field.py:63-66 `Field.new_by_data`. -/
def newByData (data : Arr) (mesh : Mesh) : PyM Field := mkField 0 data (some mesh)

/-- field/cubic_box/field.py:56-61 `Field.new_zeros`. -/
def newZeros (m : Mem) (mesh : Mesh) : PyM (Mem × Field) := do
  let (m, a) := full m [mesh.nGrids, mesh.nGrids, mesh.nGrids] 0
  let f ← newByData a mesh
  return (m, f)

/-- field/cubic_box/field.py:68-69 `Field.copied`. -/
def Field.copied (m : Mem) (f : Field) : PyM (Mem × Field) := do
  let (m, a) := alloc m (read m f.data) f.data.shape
  let f ← newByData a f.mesh
  return (m, f)

/-- field/cubic_box/field.py:44-47 `shape`, taken from the mesh. -/
def Field.shape (f : Field) : List Nat := [f.mesh.nGrids, f.mesh.nGrids, f.mesh.nGrids]

/-- Statements of a program on arrays; arrays are numbered in the order of their creation. -/
inductive Cmd where
  | hasValue (i : Nat) (copy : Bool)
  | new (l : List ℝ)
  | setValue (i : Nat) (x : Nat ⊕ ℝ)
  | copied (i : Nat)
  | flatten (i : Nat) (copy : Bool)
  | sorted (i : Nat)
  | full (shape : List Nat) (v : ℝ)

/-- Program state. -/
structure St where
  mem : Mem
  arrs : List Arr

/-- Add an array. -/
def St.push (s : St) (r : Mem × Arr) : St := { mem := r.1, arrs := s.arrs ++ [r.2] }

/-- What is assigned: an array or a number. -/
def St.source (s : St) : Nat ⊕ ℝ → Option Like
  | .inl j => (s.arrs[j]?).map .arr
  | .inr v => some (.num v)

/-- One statement; a failing one (an unknown number, or an assignment of another shape) changes nothing. -/
noncomputable def St.exec (s : St) : Cmd → St
  | .hasValue i copy =>
      match s.arrs[i]? with
      | none => s
      | some a => match ArrayRef.hasValue true s.mem (.arr a) copy with
        | .ok r => s.push r
        | .error _ => s
  | .new l => s.push (alloc s.mem l [l.length])
  | .setValue i x =>
      match s.arrs[i]? with
      | none => s
      | some a =>
          match s.source x with
          | none => s
          | some x => match ArrayRef.setValue s.mem a x with
            | .ok m => { s with mem := m }
            | .error _ => s
  | .copied i => match s.arrs[i]? with
      | none => s
      | some a => s.push (ArrayRef.copied s.mem a)
  | .flatten i copy => match s.arrs[i]? with
      | none => s
      | some a => s.push (ArrayRef.flatten s.mem a copy)
  | .sorted i => match s.arrs[i]? with
      | none => s
      | some a => s.push (ArrayRef.sorted s.mem a)
  | .full shape v => s.push (ArrayRef.full s.mem shape v)

/-- A program. -/
noncomputable def St.run (s : St) (cs : List Cmd) : St := cs.foldl St.exec s

end Pyhipp.ArrayRef
