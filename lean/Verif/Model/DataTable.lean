import Verif.Base.Py
import Verif.Base.Dict
import Verif.Base.Str
import Verif.Base.Slice
/-
Model of src/pyhipp/core/containers/data_table.py.  Arrays are views into buffers, so that copying
and sharing are visible.

Simplifications: a column is a sequence of rows along axis 0 (a row is an opaque value, of the same
shape in every table); dtype conversion is not modelled; mapping arguments hold ndarrays; row
selections are slices, integer arrays or boolean masks (a scalar integer, which drops an
axis, is Verif.Model.TableRow).
-/
namespace Pyhipp.DataTable
open Pyhipp

variable {ρ : Type} [Inhabited ρ]

/-- An ndarray: row `j` is the cell `idx[j]` of buffer `buf`. -/
structure Arr where
  buf : Nat
  idx : List Nat
  deriving DecidableEq

/-- Memory: buffers of cells; `next` is the first unused buffer. -/
structure Mem (ρ : Type) where
  next : Nat
  cell : Nat → Nat → ρ

/-- The rows of an array. -/
def read (m : Mem ρ) (a : Arr) : List ρ := a.idx.map (m.cell a.buf)

/-- `a[j] = x` for `0 <= j < len(a)` (in-place change). -/
def write (m : Mem ρ) (a : Arr) (j : Nat) (x : ρ) : Mem ρ :=
  { m with cell := fun b i => if b = a.buf ∧ some i = a.idx[j]? then x else m.cell b i }

/-- A new array with the given rows. -/
def alloc (m : Mem ρ) (rows : List ρ) : Arr × Mem ρ :=
  (⟨m.next, List.range rows.length⟩,
   { next := m.next + 1, cell := fun b i => if b = m.next then rows.getD i default else m.cell b i })

/-- `np.array(v, copy=copy)` of an ndarray. -/
def npArray (m : Mem ρ) (a : Arr) (copy : Bool) : Arr × Mem ρ :=
  if copy then alloc m (read m a) else (a, m)

/-- `{k: np.array(v, copy=copy) for k, v in data.items()}` -/
def npArrays (m : Mem ρ) (copy : Bool) : PyDict Str Arr → PyDict Str Arr × Mem ρ
  | [] => ([], m)
  | (k, a) :: t =>
      let (b, m1) := npArray m a copy
      let (t', m2) := npArrays m1 copy t
      ((k, b) :: t', m2)

/-- core/containers/data_table.py:46-56 `__init__`: the new table (its ordered dict of columns). -/
def new (m : Mem ρ) (data : PyDict Str Arr) (copy : Bool) : PyDict Str Arr × Mem ρ := npArrays m copy data

/-- core/containers/data_table.py:58-66 `__getitem__` for one key. -/
def getItem (t : PyDict Str Arr) (k : Str) : PyM Arr :=
  match t.get? k with
  | some a => .ok a
  | none => .error .keyError

/-- core/containers/data_table.py:64-65: a tuple of keys. -/
def getItems (t : PyDict Str Arr) (ks : List Str) : PyM (List Arr) := ks.mapM (getItem t)

/-- core/containers/data_table.py:68-84 `__setitem__` for one key. -/
def setItem (m : Mem ρ) (t : PyDict Str Arr) (k : Str) (a : Arr) : PyDict Str Arr × Mem ρ :=
  let (b, m1) := npArray m a true
  (t.set k b, m1)

/-- core/containers/data_table.py:83-84: the loop of a tuple assignment. -/
def setLoop (m : Mem ρ) (t : PyDict Str Arr) : List (Str × Arr) → PyDict Str Arr × Mem ρ
  | [] => (t, m)
  | (k, a) :: rest =>
      let (t1, m1) := setItem m t k a
      setLoop m1 t1 rest

/-- core/containers/data_table.py:80-84: a tuple of keys and values. -/
def setItems (m : Mem ρ) (t : PyDict Str Arr) (ks : List Str) (vs : List Arr) : PyM (PyDict Str Arr × Mem ρ) :=
  if ks.length = vs.length then .ok (setLoop m t (ks.zip vs)) else .error .assertionError

/-- core/containers/data_table.py:86-107 `__delitem__` (one key, or the loop over a tuple of keys): the
table is returned also when it raises. -/
def delItems (t : PyDict Str Arr) : List Str → PyM Unit × PyDict Str Arr
  | [] => (.ok (), t)
  | k :: ks => if t.has k then delItems (t.del k) ks else (.error .keyError, t)

/-- core/containers/data_table.py:128-131 `update`. -/
def update (m : Mem ρ) (t other : PyDict Str Arr) (copy : Bool) : PyDict Str Arr × Mem ρ :=
  let (o, m1) := npArrays m copy other
  (t.update o, m1)

/-- core/containers/data_table.py:137-141 `__getattr__`. -/
def getAttr (t : PyDict Str Arr) (k : Str) : PyM Arr :=
  match getItem t k with
  | .error .keyError => .error .attributeError
  | r => r

/-- core/containers/data_table.py:161-162 `copy`. -/
def copyT (m : Mem ρ) (t : PyDict Str Arr) : PyDict Str Arr × Mem ρ := new m t true

/-- core/containers/data_table.py:147-159 `__ior__` / `__or__`. -/
def orT (m : Mem ρ) (t other : PyDict Str Arr) : PyDict Str Arr × Mem ρ :=
  let (out, m1) := copyT m t
  update m1 out other true

/-- core/containers/data_table.py:178-179 `to_dict`. -/
def toDict (m : Mem ρ) (t : PyDict Str Arr) (copy : Bool) : PyDict Str Arr × Mem ρ := npArrays m copy t

/-- core/containers/data_table.py:229-233: the concatenated columns. -/
def concatCols (m : Mem ρ) (all : List (PyDict Str Arr)) : List Str → PyM (PyDict Str Arr × Mem ρ)
  | [] => .ok ([], m)
  | k :: ks => do
      let cols ← all.mapM (fun t => getItem t k)
      let (b, m1) := alloc m (cols.flatMap (read m))
      let (t', m2) ← concatCols m1 all ks
      return ((k, b) :: t', m2)

/-- core/containers/data_table.py:190-233 `concat`. -/
def concat (m : Mem ρ) (t : PyDict Str Arr) (others : List (PyDict Str Arr)) : PyM (PyDict Str Arr × Mem ρ) := do
  let (d, m1) ← concatCols m (t :: others) t.keys
  return new m1 d true

/-- A row selection. -/
inductive Sel where
  | slice (lo hi step : Option Int)
  | ints (is : List Int)
  | mask (bs : List Bool)

/-- The selected positions of an axis of length `n`; IndexError as in numpy (ValueError for a slice with step 0). -/
def Sel.positions (n : Nat) : Sel → PyM (List Nat)
  | .slice lo hi step => slicePos n lo hi step
  | .ints is => is.mapM (fun (i : Int) =>
      if 0 ≤ i ∧ i < n then .ok i.toNat else if -(n : Int) ≤ i ∧ i < 0 then .ok (i + n).toNat else .error .indexError)
  | .mask bs => if bs.length = n then .ok ((List.range n).filter (fun i => bs.getD i false)) else .error .indexError

/-- `v[args]`: a slice is a view, everything else a new array. -/
def index (m : Mem ρ) (a : Arr) (s : Sel) : PyM (Arr × Mem ρ) := do
  let ps ← s.positions a.idx.length
  match s with
  | .slice _ _ _ => return (⟨a.buf, ps.map (fun p => a.idx.getD p 0)⟩, m)
  | _ => return alloc m (ps.map (fun p => (read m a).getD p default))

/-- `{k: v[args] for k, v in self.items()}` -/
def indexCols (m : Mem ρ) (s : Sel) : PyDict Str Arr → PyM (PyDict Str Arr × Mem ρ)
  | [] => .ok ([], m)
  | (k, a) :: t => do
      let (b, m1) ← index m a s
      let (t', m2) ← indexCols m1 s t
      return ((k, b) :: t', m2)

/-- core/containers/data_table.py:235-242 `subset` (and 18-24, 252-254 `iloc`). -/
def subset (m : Mem ρ) (t : PyDict Str Arr) (s : Sel) (copy : Bool) : PyM (PyDict Str Arr × Mem ρ) := do
  let (d, m1) ← indexCols m s t
  return new m1 d copy

/-- `{k: self[k] for k in keys}` -/
def pick (t : PyDict Str Arr) (ks : List Str) : PyM (PyDict Str Arr) :=
  ks.foldlM (fun d k => do
    let a ← getItem t k
    return d.set k a) []

/-- core/containers/data_table.py:244-250 `subcol`. -/
def subcol (m : Mem ρ) (t : PyDict Str Arr) (ks : List Str) (copy : Bool) : PyM (PyDict Str Arr × Mem ρ) := do
  let d ← pick t ks
  return new m d copy

end Pyhipp.DataTable
