import Verif.Base.Py
import Verif.Base.Dict
import Verif.Base.Str
/-
Model of attribute access to columns, datasets and HDF5 attributes: `DataTable.__getattr__`
(src/pyhipp/core/containers/data_table.py:137-144), `AttrManager.__getattr__` and `DatasetManager.__getattr__`
(src/pyhipp/io/h5/named_objs.py:40-47, 152-159), with Python's rules for looking up attributes, and of what
`copy.copy`, `copy.deepcopy` and unpickling do with such an object.

RecursionError is a RuntimeError in Python and is written `.runtimeError` here.
-/
namespace Pyhipp.AttrAccess
open Pyhipp

variable {β : Type}

/-- A class: the names of its properties, of everything else it and its bases define, and the instance variable that
holds the items. -/
structure Cls where
  props : List Str
  names : List Str
  store : Str

/-- What a look-up finds: an item, a member of the class, the container of the items, or something the user has set. -/
inductive Val (β : Type) where
  | item (v : β)
  | member (name : Str)
  | store
  | other (v : β)
  deriving DecidableEq

/-- An object: its instance variables and the items in the container (those of the table, the group or the attributes). -/
structure Obj (β : Type) where
  inst : PyDict Str (Val β)
  items : PyDict Str β

/-- Names every class has (Python 3.11 `object`). -/
def objectNames : List Str :=
  ["__class__", "__delattr__", "__dict__", "__dir__", "__doc__", "__eq__", "__format__", "__ge__", "__getattribute__", "__getstate__",
   "__gt__", "__hash__", "__init__", "__init_subclass__", "__le__", "__lt__", "__module__", "__ne__", "__new__", "__reduce__",
   "__reduce_ex__", "__repr__", "__setattr__", "__sizeof__", "__str__", "__subclasshook__", "__weakref__"].map String.toList

/-- core/containers/data_table.py:27-254 `DataTable` with `MutableMapping` and `HasSimpleRepr` (core/abc.py:15-38). -/
def dataTable : Cls :=
  { props := ["iloc"].map String.toList
    names := objectNames ++ ["_MutableMapping__marker", "__abstractmethods__", "__class_getitem__", "__contains__", "__delitem__", "__getitem__", "__iter__",
      "__len__", "__reversed__", "__setitem__", "__slots__", "_abc_impl", "clear", "get", "items", "keys", "pop", "popitem", "setdefault", "update", "values",
      "__getattr__", "__ior__", "__or__", "copy", "to_simple_repr", "_to_h5_data", "_from_h5_data", "to_dict", "to_dict_of_list", "col_stacked",
      "row_stacked", "concat", "subset", "subcol", "to_yaml", "to_json"].map String.toList
    store := "_data".toList }

/-- io/h5/named_objs.py:11-116 `AttrManager` with `Obj` (io/h5/utils.py:52-64). -/
def attrManager : Cls :=
  { props := []
    names := objectNames ++ ["Raw", "__getitem__", "__setitem__", "__len__", "__contains__", "__getattr__", "create", "create_empty", "keys", "values", "items",
      "load", "dump", "what", "_AttrManager__keys", "ls"].map String.toList
    store := "_raw".toList }

/-- io/h5/named_objs.py:119-247 `DatasetManager` with `Obj` (io/h5/utils.py:52-64). -/
def datasetManager : Cls :=
  { props := []
    names := objectNames ++ ["Raw", "CreateFlag", "__getitem__", "__setitem__", "__contains__", "__getattr__", "create", "create_empty", "keys", "values",
      "items", "load", "dump", "what", "_DatasetManager__keys", "_DatasetManager__items", "ls"].map String.toList
    store := "_raw".toList }

/-- `object.__getattribute__`: properties, then instance variables, then the rest of the class. -/
def normal (c : Cls) (o : Obj β) (name : Str) : Option (Val β) :=
  if name ∈ c.props then some (.member name)
  else match o.inst.get? name with
    | some v => some v
    | none => if name ∈ c.names then some (.member name) else none

/-- `self._data[key]` once `self._data` has been looked up. -/
def index (o : Obj β) (name : Str) : Val β → PyM (Val β)
  | .store => match o.items.get? name with
      | some v => .ok (.item v)
      | none => .error .keyError
  | _ => .error .typeError

/-- `except KeyError: raise AttributeError(...)`. -/
def keyToAttr (r : PyM (Val β)) : PyM (Val β) := match r with
  | .error .keyError => .error .attributeError
  | r => r

/-- `o.name` with `n` stack frames left.  What the normal look-up does not find goes to `__getattr__` (one frame), which evaluates
`self[name]` (another frame), which looks up `self._data`.
core/containers/data_table.py:137-141, 66-68; io/h5/named_objs.py:40-44, 19-21 and 152-156, 129-134. -/
def attr (c : Cls) (o : Obj β) : Nat → Str → PyM (Val β)
  | 0, name => match normal c o name with
      | some v => .ok v
      | none => .error .runtimeError
  | 1, name => match normal c o name with
      | some v => .ok v
      | none => .error .runtimeError
  | n + 2, name => match normal c o name with
      | some v => .ok v
      | none => keyToAttr (do
          let d ← attr c o n c.store
          index o name d)

/-- `o[name]` with `n` frames left. -/
def getItem (c : Cls) (o : Obj β) (n : Nat) (name : Str) : PyM (Val β) := match n with
  | 0 => .error .runtimeError
  | n + 1 => do
      let d ← attr c o n c.store
      index o name d

/-- `hasattr(o, name)`: only AttributeError is caught. -/
def hasAttr (c : Cls) (o : Obj β) (n : Nat) (name : Str) : PyM Bool := match attr c o n name with
  | .ok _ => .ok true
  | .error .attributeError => .ok false
  | .error e => .error e

/-- `o.name = v`: none of the classes defines `__setattr__`. -/
def setAttr (c : Cls) (o : Obj β) (name : Str) (v : β) : PyM Unit × Obj β :=
  if name ∈ c.props then (.error .attributeError, o) else (.ok (), { o with inst := o.inst.set name (.other v) })

/-- core/containers/data_table.py:143-144, io/h5/named_objs.py:46-47 and 158-159 `__dir__` (`dir()` sorts the result, so the order does
not matter). -/
def dirNames (c : Cls) (o : Obj β) : List Str := o.items.keys ++ (o.inst.keys ++ c.props ++ c.names)

/-- An object after `__init__` (`self._data = …`, core/containers/data_table.py:53-55; `self._raw = raw`, io/h5/utils.py:56-58). -/
def fresh (c : Cls) (items : PyDict Str β) : Obj β := ⟨[(c.store, .store)], items⟩

/-- `cls.__new__(cls)`: no instance variables. -/
def blank (items : PyDict Str β) : Obj β := ⟨[], items⟩

/-- The second half of `copy.copy`, `copy.deepcopy` and `pickle.loads`: an object made by `__new__` is asked whether it has
`__setstate__`; if not, it receives the instance variables. -/
def rebuild (c : Cls) (o : Obj β) (n : Nat) : PyM (Obj β) := do
  let has ← hasAttr c (blank o.items) n "__setstate__".toList
  if has then .error .typeError else return o

end Pyhipp.AttrAccess
