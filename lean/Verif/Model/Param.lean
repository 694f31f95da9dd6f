import Verif.Base.Py
import Verif.Base.Dict
import Verif.Base.Str
/-
Model of src/pyhipp/astro/cosmology/param.py (ParamList) and of HasValue of src/pyhipp/core/abc.py.

A `Param` is an object (reference into a heap), because `set_values` changes it in place and one object may occur
more than once.  Values are one-dimensional arrays; a scalar assigned to one is an array of length 1.
-/
namespace Pyhipp.Param
open Pyhipp

local notation "Ref" => Nat

/-- param.py:5-7 with core/abc.py HasName, HasValue: the attributes of a parameter. -/
structure Param (V : Type) where
  name : Str
  value : List V

/-- The parameter objects. -/
abbrev Heap (V : Type) := Ref → Param V

variable {V : Type}

/-- core/abc.py:125-126 `set_value`: `self.value[...] = value` (numpy broadcasting: same length, or one value for all). -/
def setValue (h : Heap V) (r : Ref) (v : List V) : PyM Unit × Heap V :=
  let old := (h r).value
  let put (new : List V) : Heap V := fun x => if x = r then { h r with value := new } else h x
  if v.length = old.length then (.ok (), put v)
  else match v with
    | [a] => (.ok (), put (old.map (fun _ => a)))
    | _ => (.error .valueError, h)

/-- param.py:15-23: the attributes of a `ParamList`. -/
structure PList where
  params : List Ref
  name2idx : PyDict Str Int

/-- `{p.name: i for i, p in enumerate(_params)}` (param.py:20), starting at index `i`. -/
def indexNames (h : Heap V) : Nat → List Ref → PyDict Str Int → PyDict Str Int
  | _, [], d => d
  | i, r :: rs, d => indexNames h (i + 1) rs (d.set (h r).name (i : Int))

/-- param.py:16-23 `ParamList.__init__`. -/
def PList.new (h : Heap V) (params : List Ref) : PList := ⟨params, indexNames h 0 params []⟩

/-- A subscript. -/
inductive Key where
  | int (i : Int)
  | str (s : Str)

/-- param.py:25-28 `__getitem__`. -/
def PList.getItem (p : PList) : Key → PyM Ref
  | .int i => pyGet p.params i
  | .str s => match p.name2idx.get? s with
      | some i => pyGet p.params i
      | none => .error .keyError

/-- `xs[i] = v` for a list. -/
def pySet {α : Type} (xs : List α) (i : Int) (v : α) : PyM (List α) :=
  if 0 ≤ i then (if i.toNat < xs.length then .ok (xs.set i.toNat v) else .error .indexError)
  else if 0 ≤ i + xs.length then .ok (xs.set (i + xs.length).toNat v) else .error .indexError

/-- param.py:30-32 `__setitem__`; a text index is a TypeError of the list. -/
def PList.setItem (h : Heap V) (p : PList) (k : Key) (r : Ref) : PyM PList :=
  match k with
  | .str _ => .error .typeError
  | .int i => match pySet p.params i r with
      | .error e => .error e
      | .ok ps => .ok ⟨ps, p.name2idx.set (h r).name i⟩

/-- param.py:34-35 `__len__`. -/
def PList.len (p : PList) : Nat := p.params.length

/-- param.py:37-39 `values`. -/
def PList.values (h : Heap V) (p : PList) : List (List V) := p.params.map (fun r => (h r).value)

/-- param.py:43-44: the loop of `set_values`. -/
def setAll (h : Heap V) : List Ref → List (List V) → PyM Unit × Heap V
  | r :: rs, v :: vs => match setValue h r v with
      | (.ok (), h') => setAll h' rs vs
      | (.error e, h') => (.error e, h')
  | _, _ => (.ok (), h)

/-- param.py:41-44 `set_values`. -/
def PList.setValues (h : Heap V) (p : PList) (values : List (List V)) : PyM Unit × Heap V :=
  if values.length = p.len then setAll h p.params values else (.error .assertionError, h)

/-- An operation on the list. -/
inductive Op (V : Type) where
  | assign (i : Int) (r : Ref)
  | setValues (vs : List (List V))

/-- One operation; a raising one is caught by the caller. -/
def step (s : Heap V × PList) : Op V → Heap V × PList
  | .assign i r => match s.2.setItem s.1 (.int i) r with
      | .ok p => (s.1, p)
      | .error _ => s
  | .setValues vs => ((s.2.setValues s.1 vs).2, s.2)

/-- A history of operations. -/
def run (s : Heap V × PList) (ops : List (Op V)) : Heap V × PList := ops.foldl step s

end Pyhipp.Param
