import Verif.Model.DataDict
/-
Model of `DataDict.to_simple_repr` (src/pyhipp/core/containers/data_dict.py:159-166) over the heap of Model/DataDict.lean.

Simplifications: `rep a` is `a.to_simple_repr()` if the leaf `a` is a HasSimpleRepr object and `a` itself otherwise (leaves are opaque, their
conversion allocates nothing in this heap); the dictionary `out` is allocated when it is complete (nobody can see it before); the
recursion limit of Python is a parameter `n`, counted in nested calls of this method only.
-/
namespace Pyhipp.DataDict
open Pyhipp

local notation "Ref" => Nat

variable {A : Type}

/-- core/containers/data_dict.py:161-166: the loop; `call h r` is `v.to_simple_repr()` of a nested DataDict `r`.  Built-in dicts, tuples
and other values are stored as they are. -/
def convItems (rep : A → PyM A) (call : Heap A → Ref → PyM Ref × Heap A) :
    Heap A → List (Str × Val A) → PyDict Str (Val A) → PyM (PyDict Str (Val A)) × Heap A
  | h, [], out => (.ok out, h)
  | h, (k, .atom a) :: rest, out => match rep a with
      | .ok a' => convItems rep call h rest (out.set k (.atom a'))
      | .error e => (.error e, h)
  | h, (k, .tup vs) :: rest, out => convItems rep call h rest (out.set k (.tup vs))
  | h, (k, .ref r) :: rest, out => match h.obj r with
      | some (.dataDict _) => match call h r with
          | (.ok o, h') => convItems rep call h' rest (out.set k (.ref o))
          | (.error e, h') => (.error e, h')
      | _ => convItems rep call h rest (out.set k (.ref r))

/-- core/containers/data_dict.py:159-166 `DataDict.to_simple_repr`, with recursion limit `n` (RecursionError is a RuntimeError). -/
def toSimple (rep : A → PyM A) : Nat → Heap A → Ref → PyM Ref × Heap A
  | 0, h, _ => (.error .runtimeError, h)
  | n + 1, h, d => match h.obj d with
      | some (.dataDict i) => match convItems rep (toSimple rep n) h (h.entries i) [] with
          | (.ok out, h') => ((.ok (h'.alloc (.dict out)).1), (h'.alloc (.dict out)).2)
          | (.error e, h') => (.error e, h')
      | _ => (.error .attributeError, h)

end Pyhipp.DataDict
