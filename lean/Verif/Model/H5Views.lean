import Verif.Model.H5
/-
Model of the wrappers `Group`, `DatasetManager` and `AttrManager` of src/pyhipp/io/h5/named_objs.py as containers: indexing with
anything, `len`, `bool`, `in`, iteration, `dict(...)`, and `KeyList` of src/pyhipp/io/h5/utils.py:66-89.
-/
namespace Pyhipp.H5
open Pyhipp

variable {DT E β : Type}

/-- What is put between the brackets: a string, something that is not iterable (a number, None), or an iterable of keys (tuple,
list, set, generator; bytes iterate over numbers). -/
inductive AnyKey where
  | str (s : Str)
  | atom
  | seq (ks : List AnyKey)

/-- The result: one value or a tuple. -/
inductive Res (β : Type) where
  | one (v : β)
  | tup (vs : List (Res β))

/-- A wrapper: its items in the order of iteration, look-up by a string, and whether the class has `__len__`. -/
structure View (β : Type) where
  items : List (Str × β)
  look : Str → PyM β
  hasLen : Bool

mutual
/-- io/h5/named_objs.py:19-23, 129-136, 456-470 `__getitem__`: a string is looked up; everything else is iterated over. -/
def View.get (v : View β) : AnyKey → PyM (Res β)
  | .str s => do
      let x ← v.look s
      return .one x
  | .atom => .error .typeError
  | .seq ks => do
      let xs ← v.gets ks
      return .tup xs
/-- `tuple(self[k] for k in key)` -/
def View.gets (v : View β) : List AnyKey → PyM (List (Res β))
  | [] => .ok []
  | k :: ks => do
      let x ← v.get k
      let xs ← v.gets ks
      return x :: xs
end

/-- `len(x)`: io/h5/named_objs.py:34-35 and 453-454; `DatasetManager` has none. -/
def View.len (v : View β) : PyM Nat := if v.hasLen then .ok v.items.length else .error .typeError

/-- `bool(x)`: by `__len__` if there is one, else True. -/
def View.truth (v : View β) : Bool := if v.hasLen then v.items.length != 0 else true

/-- `iter(x)`: none of the classes has `__iter__`, so Python asks for `x[0]`, `x[1]`, … until IndexError; `fuel` items at most. -/
def View.iterate (v : View β) : Nat → Nat → PyM (List (Res β))
  | 0, _ => .ok []
  | fuel + 1, i => match v.get .atom with
      | .error .indexError => .ok []
      | .error e => .error e
      | .ok x => do
          let xs ← View.iterate v fuel (i + 1)
          return x :: xs

/-- `x.keys()`, `x.values()`, `x.items()`: io/h5/named_objs.py:87-96, 211-220, 438-447. -/
def View.keys (v : View β) : List Str := v.items.map (·.1)
def View.values (v : View β) : List β := v.items.map (·.2)

/-- `dict(x)` and `{**x}`: the object has `keys`, so it is `x[k]` for the keys. -/
def View.toDict (v : View β) : PyM (PyDict Str β) := dictOf v.look v.keys

/-- io/h5/named_objs.py:306-476 `Group` on a group of the file. -/
def groupView (n : Node DT E) : View (Node DT E) :=
  { items := match n with
      | .dset _ _ => []
      | .grp ch _ => sortNames ch
    look := fun k => match lookup n (pathOf k) with
      | some x => .ok x
      | none => .error .keyError
    hasLen := true }

/-- io/h5/named_objs.py:119-247 `DatasetManager`. -/
def dsView (n : Node DT E) : View (Dset DT E) := { items := dsItems n, look := dsGet n, hasLen := false }

/-- io/h5/named_objs.py:11-116 `AttrManager`. -/
def attrView (at' : List (Str × Dset DT E)) : View (Dset DT E) := { items := attrItems at', look := attrGet at', hasLen := true }

/-- `', '.join(names)` -/
def joinNames : List Str → Str
  | [] => []
  | [k] => k
  | k :: ks => k ++ ", ".toList ++ joinNames ks

/-- io/h5/named_objs.py:233-236 `DatasetManager.what` (and `ls`, io/h5/utils.py:60-61, which prints it). -/
def dsWhat (n : Node DT E) : PyM Str := do
  let k ← (dsView n).len
  if k = 0 then return [] else return '[' :: joinNames ((dsItems n).map (·.1)) ++ [']']

/-- io/h5/utils.py:70-71 `KeyList.__getitem__` with an integer. -/
def klGet (keys : List Str) (i : Int) : PyM Str := pyGet keys i

/-- io/h5/utils.py:76-77 `KeyList.__contains__`. -/
def klHas (keys : List Str) (k : Str) : Bool := k ∈ keys

/-- io/h5/utils.py:79-80 `KeyList.__reversed__`. -/
def klRev (keys : List Str) : List Str := keys.reverse

/-- `KeyList.index(k)` (`Sequence` mixin): the first position, found by trying `self[0]`, `self[1]`, … -/
def klIndexFrom : List Str → Str → Nat → PyM Nat
  | [], _, _ => .error .valueError
  | x :: t, k, i => if x = k then .ok i else klIndexFrom t k (i + 1)
def klIndex (keys : List Str) (k : Str) : PyM Nat := klIndexFrom keys k 0

/-- `KeyList.count(k)` (`Sequence` mixin). -/
def klCount (keys : List Str) (k : Str) : Nat := (keys.filter (fun x => x = k)).length

end Pyhipp.H5
