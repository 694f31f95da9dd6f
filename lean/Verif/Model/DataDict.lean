import Verif.Base.Py
import Verif.Base.Dict
import Verif.Base.Str
/-
Model of src/pyhipp/core/containers/data_dict.py over an explicit heap, so that aliasing of nested
mappings is visible.

Simplifications: dictionary keys are strings (or, in `[]`, arbitrarily nested tuples of strings);
leaf values are opaque atoms, on which `v[k]` is a TypeError; `len(val)`/`zip` in a tuple assignment
are modelled for tuples (lists behave the same), any other value is a TypeError.
-/
namespace Pyhipp.DataDict
open Pyhipp

/-- Object references. -/
local notation "Ref" => Nat

/-- Python values: an opaque leaf, a reference to a mapping object, or a tuple. -/
inductive Val (A : Type) where
  | atom (a : A)
  | ref (r : Ref)
  | tup (vs : List (Val A))

/-- Heap objects: a built-in `dict`, or a `DataDict` holding the reference of its `_dict`
(data_dict.py:22-28). -/
inductive Obj (A : Type) where
  | dict (es : PyDict Str (Val A))
  | dataDict (inner : Ref)

/-- The heap; `next` is the next free reference. -/
structure Heap (A : Type) where
  next : Ref
  obj : Ref → Option (Obj A)

variable {A : Type}

/-- Keys accepted by `[]`: a string or a tuple of keys. -/
inductive Key where
  | str (s : Str)
  | tup (ks : List Key)

/-- The entries of a built-in dict object. -/
def Heap.entries (h : Heap A) (r : Ref) : PyDict Str (Val A) :=
  match h.obj r with
  | some (.dict es) => es
  | _ => []

/-- Overwrite the entries of the built-in dict `r`. -/
def Heap.put (h : Heap A) (r : Ref) (es : PyDict Str (Val A)) : Heap A :=
  { h with obj := fun x => if x = r then some (.dict es) else h.obj x }

/-- Allocate an object. -/
def Heap.alloc (h : Heap A) (o : Obj A) : Ref × Heap A :=
  (h.next, { next := h.next + 1, obj := fun x => if x = h.next then some o else h.obj x })

/-- The built-in dict that `v[k]` reads: a dict itself, or the `_dict` of a DataDict; other values are
not subscriptable by a string (TypeError). -/
def resolve (h : Heap A) : Val A → PyM Ref
  | .ref r => match h.obj r with
      | some (.dict _) => .ok r
      | some (.dataDict i) => .ok i
      | none => .error .runtimeError
  | _ => .error .typeError

/-- `v[k]` for a string without slash. -/
def step (h : Heap A) (v : Val A) (k : Str) : PyM (Val A) := do
  let r ← resolve h v
  match (h.entries r).get? k with
  | some x => return x
  | none => throw .keyError

/-- `v[k0][k1]...` -/
def walk (h : Heap A) (v : Val A) : List Str → PyM (Val A)
  | [] => .ok v
  | k :: ks => do
      let x ← step h v k
      walk h x ks

/-- core/containers/data_dict.py:174-176 `__split_key`. -/
def splitKey (key : Str) : List Str := Str.comps '/' key

/-- core/containers/data_dict.py:30-54 `__getitem__` for a string key. -/
def getStr (h : Heap A) (d : Ref) (key : Str) : PyM (Val A) := do
  if '/' ∉ key then
    step h (.ref d) key
  else
    match splitKey key with
    | [] => throw .assertionError
    | k0 :: rest => do
        let v ← step h (.ref d) k0
        walk h v rest

mutual
/-- core/containers/data_dict.py:30-54 `__getitem__`. -/
def getItem (h : Heap A) (d : Ref) : Key → PyM (Val A)
  | .str s => getStr h d s
  | .tup ks => do
      let vs ← getItems h d ks
      return .tup vs
/-- data_dict.py:42-43: `tuple(self[_key] for _key in key)`. -/
def getItems (h : Heap A) (d : Ref) : List Key → PyM (List (Val A))
  | [] => .ok []
  | k :: ks => do
      let v ← getItem h d k
      let vs ← getItems h d ks
      return v :: vs
end

/-- `v[k] = val` for a string without slash. -/
def store (h : Heap A) (v : Val A) (k : Str) (val : Val A) : PyM Unit × Heap A :=
  match resolve h v with
  | .ok r => (.ok (), h.put r ((h.entries r).set k val))
  | .error e => (.error e, h)

/-- `del v[k]` for a string without slash. -/
def remove (h : Heap A) (v : Val A) (k : Str) : PyM Unit × Heap A :=
  match resolve h v with
  | .ok r => if (h.entries r).has k then (.ok (), h.put r ((h.entries r).del k)) else (.error .keyError, h)
  | .error e => (.error e, h)

/-- core/containers/data_dict.py:74-86 `__setitem__` for a string key. -/
def setStr (h : Heap A) (d : Ref) (key : Str) (val : Val A) : PyM Unit × Heap A :=
  if '/' ∉ key then
    store h (.ref d) key val
  else
    match (splitKey key).getLast? with
    | none => (.error .assertionError, h)
    | some last =>
        match walk h (.ref d) (splitKey key).dropLast with
        | .ok v => store h v last val
        | .error e => (.error e, h)

mutual
/-- core/containers/data_dict.py:56-86 `__setitem__`; the heap is returned also when it raises. -/
def setItem (h : Heap A) (d : Ref) : Key → Val A → PyM Unit × Heap A
  | .str s, val => setStr h d s val
  | .tup ks, .tup vs =>
      if ks.length = vs.length then setItems h d ks vs else (.error .assertionError, h)
  | .tup _, _ => (.error .typeError, h)
/-- data_dict.py:69-71: assignments from left to right, stopping at the first error. -/
def setItems (h : Heap A) (d : Ref) : List Key → List (Val A) → PyM Unit × Heap A
  | k :: ks, v :: vs =>
      match setItem h d k v with
      | (.ok (), h') => setItems h' d ks vs
      | (.error e, h') => (.error e, h')
  | _, _ => (.ok (), h)
end

/-- core/containers/data_dict.py:102-111 `__delitem__` for a string key. -/
def delStr (h : Heap A) (d : Ref) (key : Str) : PyM Unit × Heap A :=
  if '/' ∉ key then
    remove h (.ref d) key
  else
    match (splitKey key).getLast? with
    | none => (.error .assertionError, h)
    | some last =>
        match walk h (.ref d) (splitKey key).dropLast with
        | .ok v => remove h v last
        | .error e => (.error e, h)

mutual
/-- core/containers/data_dict.py:88-111 `__delitem__`. -/
def delItem (h : Heap A) (d : Ref) : Key → PyM Unit × Heap A
  | .str s => delStr h d s
  | .tup ks => delItems h d ks
/-- data_dict.py:97-100: deletions from left to right, stopping at the first error. -/
def delItems (h : Heap A) (d : Ref) : List Key → PyM Unit × Heap A
  | [] => (.ok (), h)
  | k :: ks =>
      match delItem h d k with
      | (.ok (), h') => delItems h' d ks
      | (.error e, h') => (.error e, h')
end

/-- core/containers/data_dict.py:113-132: the direct entries of a mapping object, in order; `iter`,
`len`, `keys`, `values`, `items` are projections of it.  `None` if the value is not a mapping. -/
def items? (h : Heap A) (v : Val A) : Option (PyDict Str (Val A)) :=
  match resolve h v with
  | .ok r => some (h.entries r)
  | .error _ => none

/-- `list(d.items())` -/
def items (h : Heap A) (d : Ref) : PyDict Str (Val A) := (items? h (.ref d)).getD []

/-- core/containers/data_dict.py:122-124 `__contains__`. -/
def contains (h : Heap A) (d : Ref) (key : Str) : Bool := (items h d).has key

/-- core/containers/data_dict.py:22-28 `__init__`; `src = none` is `None`. -/
def new (h : Heap A) (src : Option (Val A)) : PyM Ref × Heap A :=
  match src with
  | none =>
      let (i, h1) := h.alloc (.dict [])
      let (d, h2) := h1.alloc (.dataDict i)
      (.ok d, h2)
  | some v =>
      match items? h v with
      | none => (.error .assertionError, h)
      | some es =>
          let (i, h1) := h.alloc (.dict es)
          let (d, h2) := h1.alloc (.dataDict i)
          (.ok d, h2)

/-- core/containers/data_dict.py:135-139 `update`. -/
def update (h : Heap A) (d : Ref) (other : Val A) : PyM Unit × Heap A :=
  match items? h other with
  | none => (.error .assertionError, h)
  | some es =>
      match resolve h (.ref d) with
      | .ok r => (.ok (), h.put r ((h.entries r).update es))
      | .error e => (.error e, h)

/-- core/containers/data_dict.py:141-142 `clear`. -/
def clear (h : Heap A) (d : Ref) : PyM Unit × Heap A :=
  match resolve h (.ref d) with
  | .ok r => (.ok (), h.put r [])
  | .error e => (.error e, h)

/-- core/containers/data_dict.py:146-151 `__ior__`. -/
def ior (h : Heap A) (d : Ref) (other : Val A) : PyM Ref × Heap A :=
  match update h d other with
  | (.ok (), h') => (.ok d, h')
  | (.error e, h') => (.error e, h')

/-- core/containers/data_dict.py:171-172 `copy`: `DataDict(self._dict)`. -/
def copy (h : Heap A) (d : Ref) : PyM Ref × Heap A :=
  match resolve h (.ref d) with
  | .ok r => new h (some (.ref r))
  | .error e => (.error e, h)

/-- core/containers/data_dict.py:153-157 `__or__`. -/
def or (h : Heap A) (d : Ref) (other : Val A) : PyM Ref × Heap A :=
  match copy h d with
  | (.ok c, h') => ior h' c other
  | (.error e, h') => (.error e, h')

/-- `Mapping.get(key, default)` (inherited mixin): `[]` with KeyError turned into the default. -/
def get (h : Heap A) (d : Ref) (key : Key) (dflt : Val A) : PyM (Val A) :=
  match getItem h d key with
  | .error .keyError => .ok dflt
  | r => r

/-- `MutableMapping.pop(key)` (inherited mixin, without default). -/
def pop (h : Heap A) (d : Ref) (key : Key) : PyM (Val A) × Heap A :=
  match getItem h d key with
  | .error e => (.error e, h)
  | .ok v =>
      match delItem h d key with
      | (.ok (), h') => (.ok v, h')
      | (.error e, h') => (.error e, h')

/-- `MutableMapping.setdefault(key, default)` (inherited mixin). -/
def setdefault (h : Heap A) (d : Ref) (key : Key) (dflt : Val A) : PyM (Val A) × Heap A :=
  match getItem h d key with
  | .ok v => (.ok v, h)
  | .error .keyError =>
      match setItem h d key dflt with
      | (.ok (), h') => (.ok dflt, h')
      | (.error e, h') => (.error e, h')
  | .error e => (.error e, h)

end Pyhipp.DataDict
