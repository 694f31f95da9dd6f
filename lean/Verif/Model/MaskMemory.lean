import Verif.Model.DataTable
/-
Model of `Mask.on_array`, `on_arrays` and `on_dict` (src/pyhipp/core/dataproc/mask.py) with the memory of
the arrays: which results share data with the arguments.  Arrays, memory and row selections are those of
Model/DataTable.lean (the scalar integer selection is not modelled).
-/
namespace Pyhipp.MaskMemory
open Pyhipp Pyhipp.DataTable

variable {ρ : Type} [Inhabited ρ]

/-- core/dataproc/mask.py:48-50 `Mask.on_array`: `np.array(a[mask], copy=copy)`. -/
def onArray (m : Mem ρ) (s : Sel) (a : Arr) (copy : Bool) : PyM (Arr × Mem ρ) := do
  let (b, m1) ← index m a s
  return npArray m1 b copy

/-- core/dataproc/mask.py:62-63: the tuple of the results for the other arrays, left to right. -/
def onOthers (m : Mem ρ) (s : Sel) (copy : Bool) : List Arr → PyM (List Arr × Mem ρ)
  | [] => .ok ([], m)
  | a :: t => do
      let (b, m1) ← onArray m s a copy
      let (t', m2) ← onOthers m1 s copy t
      return (b :: t', m2)

/-- What `Mask.on_arrays` returns: an array or a tuple of arrays. -/
inductive Out where
  | array (a : Arr)
  | tuple (l : List Arr)
  deriving DecidableEq

/-- core/dataproc/mask.py:52-63 `Mask.on_arrays`. -/
def onArrays (m : Mem ρ) (s : Sel) (a : Arr) (others : List Arr) (copy : Bool) : PyM (Out × Mem ρ) := do
  let (b, m1) ← onArray m s a copy
  if others.length = 0 then return (.array b, m1)
  else do
    let (t, m2) ← onOthers m1 s copy others
    return (.tuple (b :: t), m2)

/-- core/dataproc/mask.py:44-45: the loop of `Mask.on_dict`.  `table` tells whether `type(d)` is DataTable, whose
`out_d[k] = v` copies the value (core/containers/data_table.py:68-78), or a dict, which stores it. -/
def onDictLoop (table : Bool) (s : Sel) (copy : Bool) (m : Mem ρ) (out : PyDict Str Arr) :
    PyDict Str Arr → PyM (PyDict Str Arr × Mem ρ)
  | [] => .ok (out, m)
  | (k, a) :: t => do
      let (b, m1) ← onArray m s a copy
      if table then
        let (out', m2) := setItem m1 out k b
        onDictLoop table s copy m2 out' t
      else onDictLoop table s copy m1 (out.set k b) t

/-- core/dataproc/mask.py:41-46 `Mask.on_dict`. -/
def onDict (table : Bool) (m : Mem ρ) (d : PyDict Str Arr) (s : Sel) (copy : Bool) : PyM (PyDict Str Arr × Mem ρ) :=
  onDictLoop table s copy m [] d

end Pyhipp.MaskMemory
