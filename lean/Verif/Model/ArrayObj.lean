import Verif.Base.Py
/-
Model of src/pyhipp/core/arrays/array.py: Array, Shape, FlatIndexArray and IndexArray with integer contents.

An n-dimensional array is its shape and its elements in C order.  `strict` is numpy's reading of `np.array(x, copy=False)`: numpy 2 raises ValueError
if a copy cannot be avoided (every argument that is not already an array), numpy 1 copies.
-/
namespace Pyhipp.ArrayObj
open Pyhipp

/-- A numpy array. -/
structure Arr where
  shape : List Nat
  data : List Int

/-- Number of elements. -/
def Arr.size (a : Arr) : Nat := a.data.length

/-- What a caller passes as data: a number, a flat sequence, a numpy array or an `Array`. -/
inductive Like where
  | scalar (i : Int)
  | seq (l : List Int)
  | arr (a : Arr)

/-- array.py:15-25 `Array.__init__`: `np.array(data, copy=copy)`. -/
def mkArray (strict : Bool) (data : Like) (copy : Bool) : PyM Arr := match data with
  | .arr a => .ok a
  | .scalar i => if strict && !copy then .error .valueError else .ok ⟨[], [i]⟩
  | .seq l => if strict && !copy then .error .valueError else .ok ⟨[l.length], l⟩

/-- array.py:102-106 `Shape.__init__`. -/
def mkShape (strict : Bool) (data : Like) : PyM Arr := do
  let a ← mkArray strict data true
  pyAssert (a.shape.length == 1)
  return a

/-- `int(x)`: a number, or an array of exactly one element. -/
def pyInt : Like → PyM Int
  | .scalar i => .ok i
  | .seq _ => .error .typeError
  | .arr a => match a.data with
      | [i] => .ok i
      | _ => .error .typeError

/-- A `FlatIndexArray`. -/
structure FlatIndex where
  nIndexed : Int
  arr : Arr

/-- array.py:112-118 `FlatIndexArray.__init__(n_indexed, data, copy)`. -/
def mkFlatIndex (strict : Bool) (n_indexed data : Like) (copy : Bool) : PyM FlatIndex := do
  let a ← mkArray strict data copy
  let n ← pyInt n_indexed
  pyAssert (a.shape.length == 1)
  return ⟨n, a⟩

/-- The result of `argsort`. -/
inductive Sorted where
  | flat (f : FlatIndex)
  | ints (a : Arr)

/-- array.py:48-55 `Array.argsort(axis)`; `order` is numpy's sorting permutation of the flattened array, `orderAxis` the one along an axis. -/
def argsort (strict : Bool) (order : List Int → List Int) (orderAxis : Arr → Int → Arr) (a : Arr) (axis : Option Int) : PyM Sorted := match axis with
  | none =>
      let out := order a.data
      do
        let f ← mkFlatIndex strict (.arr ⟨[out.length], out⟩) (.scalar a.size) false
        return .flat f
  | some k => do
      let b ← mkArray strict (.arr (orderAxis a k)) false
      return .ints b

/-- array.py:122-129 `IndexArray.__init__(shape_indexed, data, copy)`: a `Shape` object has no `__getitem__` (TypeError). -/
def mkIndexArray (strict : Bool) (shape_indexed data : Like) (copy : Bool) : PyM Unit := do
  let a ← mkArray strict data copy
  let _ ← mkShape strict shape_indexed
  pyAssert (a.shape.length == 2)
  .error .typeError

end Pyhipp.ArrayObj
