import Verif.Base.Py
import Verif.Base.Dict
import Verif.Base.Str
/-
Model of src/pyhipp/core/abc.py:10-117 (IsImmutable, HasSimpleRepr, HasDictRepr, HasListRepr, HasName, HasLog) and of the overrides
`super().to_simple_repr() | {...}` of core/arrays/dtype.py:47-53 and core/arrays/array.py:76-83.

Values are trees: an object is its class name, the way its class builds the representation and its attributes.  Not modelled: cyclic
object graphs (Python raises RecursionError), dictionary keys other than texts, the text layout of pprint / yaml / json (only which
values json accepts).
-/
namespace Pyhipp.Repr
open Pyhipp

/-- How a class represents its instances. -/
inductive How (X : Type)
  /-- HasSimpleRepr itself: `object.__repr__(self)`, a text. -/
  | base (text : Str)
  /-- HasDictRepr: `repr_enable_type_string`, `repr_attr_keys`. -/
  | dict (typed : Bool) (keys : List Str)
  /-- HasListRepr (the second definition): `repr_enable_type_string`, `repr_attr_keys`. -/
  | list (typed : Bool) (keys : List Str)

/-- A Python value.  `leaf x` is anything that is neither a text, nor a container, nor a HasSimpleRepr object (numbers, arrays, ...). -/
inductive Val (X : Type)
  | leaf (x : X)
  | str (s : Str)
  | list (vs : List (Val X))
  | tuple (vs : List (Val X))
  | dict (kvs : List (Str × Val X))
  /-- A HasSimpleRepr object: class name, representation, attributes, attributes whose property raises, and the entries that the class
  adds with `super().to_simple_repr() | {...}`. -/
  | obj (cls : Str) (how : How X) (attrs : List (Str × Val X)) (bad : List (Str × PyErr)) (extra : List (Str × Val X))

variable {X : Type}

/-- `getattr(self, k)`, then `to_simple_repr` if the value is a HasSimpleRepr; `conv` are the attributes, converted. -/
def attr (conv : List (Str × PyM (Val X))) (bad : List (Str × PyErr)) (k : Str) : PyM (Val X) :=
  match PyDict.get? conv k with
  | some r => r
  | none => match PyDict.get? bad k with
      | some e => .error e
      | none => .error .attributeError

/-- core/abc.py:48-53: the loop of `HasDictRepr.to_simple_repr`. -/
def dictLoop (get : Str → PyM (Val X)) : List Str → PyDict Str (Val X) → PyM (PyDict Str (Val X))
  | [], out => .ok out
  | k :: ks, out => match get k with
      | .ok v => dictLoop get ks (PyDict.set out k v)
      | .error e => .error e

/-- core/abc.py:66-70: the loop of `HasListRepr.to_simple_repr`. -/
def listLoop (get : Str → PyM (Val X)) : List Str → List (Val X) → PyM (List (Val X))
  | [], out => .ok out
  | k :: ks, out => match get k with
      | .ok v => listLoop get ks (out ++ [v])
      | .error e => .error e

/-- core/abc.py:45-54 `HasDictRepr.to_simple_repr`. -/
def dictRepr (get : Str → PyM (Val X)) (cls : Str) (typed : Bool) (keys : List Str) : PyM (PyDict Str (Val X)) :=
  dictLoop get keys (if typed then PyDict.set [] "type".toList (Val.str cls) else [])

/-- core/abc.py:62-71 (the first HasListRepr, which builds a list). -/
def listRepr (get : Str → PyM (Val X)) (cls : Str) (typed : Bool) (keys : List Str) : PyM (List (Val X)) :=
  listLoop get keys (if typed then [Val.str cls] else [])

/-- `to_simple_repr()` of an object whose attributes have the converted values `get`. -/
def build (get : Str → PyM (Val X)) (cls : Str) (how : How X) (extra : List (Str × Val X)) : PyM (Val X) :=
  match how with
  | .base t => .ok (.str t)
  | .dict typed keys => match dictRepr get cls typed keys with
      | .ok d => .ok (.dict (PyDict.update d extra))
      | .error e => .error e
  | .list typed keys => match listRepr get cls typed keys with
      | .ok l => .ok (.tuple l)
      | .error e => .error e

mutual
/-- `v.to_simple_repr() if isinstance(v, HasSimpleRepr) else v` (core/abc.py:50-52, 68-70); on an object this is `to_simple_repr()`. -/
def simple : Val X → PyM (Val X)
  | .leaf x => .ok (.leaf x)
  | .str s => .ok (.str s)
  | .list vs => .ok (.list vs)
  | .tuple vs => .ok (.tuple vs)
  | .dict kvs => .ok (.dict kvs)
  | .obj cls how attrs bad extra => build (attr (simpleAttrs attrs) bad) cls how extra
/-- The converted attributes. -/
def simpleAttrs : List (Str × Val X) → List (Str × PyM (Val X))
  | [] => []
  | (k, v) :: rest => (k, simple v) :: simpleAttrs rest
end

/-- A JSON document. -/
inductive Json (X : Type)
  | leaf (x : X)
  | str (s : Str)
  | arr (vs : List (Json X))
  | obj (kvs : List (Str × Json X))

mutual
/-- `json.dumps(v)` (as a document): lists and tuples are arrays, dictionaries are objects; a leaf is accepted if it is a bool, a number or None
(`ok`), any other object raises TypeError. -/
def dumps (ok : X → Bool) : Val X → PyM (Json X)
  | .leaf x => if ok x then .ok (.leaf x) else .error .typeError
  | .str s => .ok (.str s)
  | .list vs => match dumpsAll ok vs with
      | .ok js => .ok (.arr js)
      | .error e => .error e
  | .tuple vs => match dumpsAll ok vs with
      | .ok js => .ok (.arr js)
      | .error e => .error e
  | .dict kvs => match dumpsItems ok kvs with
      | .ok js => .ok (.obj js)
      | .error e => .error e
  | .obj _ _ _ _ _ => .error .typeError
/-- The elements of a list or tuple. -/
def dumpsAll (ok : X → Bool) : List (Val X) → PyM (List (Json X))
  | [] => .ok []
  | v :: vs => match dumps ok v with
      | .ok j => match dumpsAll ok vs with
          | .ok js => .ok (j :: js)
          | .error e => .error e
      | .error e => .error e
/-- The entries of a dictionary. -/
def dumpsItems (ok : X → Bool) : List (Str × Val X) → PyM (List (Str × Json X))
  | [] => .ok []
  | (k, v) :: kvs => match dumps ok v with
      | .ok j => match dumpsItems ok kvs with
          | .ok js => .ok ((k, j) :: js)
          | .error e => .error e
      | .error e => .error e
end

/-- core/abc.py:33-37 `to_json`. -/
def toJson (ok : X → Bool) (v : Val X) : PyM (Json X) :=
  match simple v with
  | .ok r => dumps ok r
  | .error e => .error e

/-! ### HasName, HasLog -/

/-- core/abc.py:81-87 `HasName.__init__`: `name` is None or a value whose `str` is given. -/
def mkName (cls : Str) : Option Str → Str
  | none => cls
  | some s => s

/-- The state of a HasLog object and the text written to the standard output. -/
structure Logger where
  name : Str
  verbose : Bool
  out : Str

/-- The keyword arguments of `log` (core/abc.py:102-103). -/
structure LogKw where
  end_ : Str := ['\n']
  sep : Str := []
  named : Bool := true
  timed : Bool := false

/-- `print(*args, end=end, sep=sep)`: the text written; `args` are the texts of the arguments. -/
def printText (args : List Str) (sep end_ : Str) : Str := sep.intercalate args ++ end_

/-- core/abc.py:106-111: the prefix; `t` is the formatted local time. -/
def logPrefix (name t : Str) (kw : LogKw) : Str :=
  (if kw.named then '[' :: name ++ [']'] else []) ++ (if kw.timed then '[' :: t ++ [']'] else [])

/-- core/abc.py:112-115: what `log` prints when verbose. -/
def logText (name t : Str) (kw : LogKw) (args : List Str) : Str :=
  if 0 < (logPrefix name t kw).length then printText (logPrefix name t kw :: [' '] :: args) kw.sep kw.end_
  else printText args kw.sep kw.end_

/-- core/abc.py:91-94 `HasLog.__init__`. -/
def Logger.new (cls : Str) (name : Option Str) (verbose : Bool) : Logger := ⟨mkName cls name, verbose, []⟩

/-- What can happen to the object. -/
inductive LogOp
  | on | off
  | rename (s : Str)
  | log (t : Str) (kw : LogKw) (args : List Str)

/-- core/abc.py:96-116: one call. -/
def Logger.step (l : Logger) : LogOp → Logger
  | .on => { l with verbose := true }
  | .off => { l with verbose := false }
  | .rename s => { l with name := s }
  | .log t kw args => if l.verbose then { l with out := l.out ++ logText l.name t kw args } else l

/-- A history of calls. -/
def Logger.run (l : Logger) (ops : List LogOp) : Logger := ops.foldl Logger.step l

end Pyhipp.Repr
