import Verif.Base.Py
import Verif.Base.Dict
import Verif.Base.Str
import Mathlib.Data.List.Sort
/-
Model of src/pyhipp/io/h5/named_objs.py and utils.py: groups, datasets, attributes, dump and load.

A file without links is a tree; a group object is the subtree it refers to and an operation on it
returns the new subtree, also when it raises.  (Links: Model/H5Link.lean; opening files, `dump_to`,
`load_from`: Model/H5File.lean.)

h5py itself is not in the repository.  What is assumed of it, and modelled here:
* a key is a slash path relative to the group (keys with a leading slash on a group other than the
  root, "." components and the empty key are outside the model);
* `in`, `[]` follow the path; `create_group` creates missing parents at once, or nothing if it fails;
  `create_dataset` creates the parents first and then the dataset;
* `keys()` lists names in increasing order;
* `dset[...] = data` keeps dtype and shape, casts and broadcasts; `attrs.modify` keeps dtype and shape,
  casts and does not broadcast;
* a str is stored as a UTF-8 string and read back as bytes from a dataset, as str from an attribute.
What values a dtype can hold, and casting between dtypes, are parameters (`Env`).
-/
namespace Pyhipp.H5
open Pyhipp

variable {DT E : Type}

/-- An array (shape `[]`: a scalar, a str or a bytes object); row-major elements. -/
structure Dset (DT E : Type) where
  dt : DT
  shape : List Nat
  elems : List E
  deriving DecidableEq

/-- What h5py and numpy decide: the parameters of the model. -/
structure Env (DT E : Type) where
  /-- was the file opened for writing -/
  writable : Bool
  /-- the dtype h5py gives to a str -/
  strDT : DT
  /-- the bytes object that reading a stored str returns -/
  bytesOf : Str → E
  /-- the str object -/
  strOf : Str → E
  /-- fill value of an empty dataset -/
  zero : DT → E
  /-- the error, if any, of storing an array as a new object (e.g. a dtype h5py does not support) -/
  storeErr : Dset DT E → Option PyErr
  /-- element conversion between dtypes, if there is one -/
  cast : DT → DT → Option (E → E)

/-- A leaf of the data to be dumped: a str; bytes, ndarray or scalar; or anything else. -/
inductive Leaf (DT E : Type) where
  | str (s : Str)
  | dat (d : Dset DT E)
  | bad

/-- A key of a Python mapping. -/
inductive KeyObj where
  | str (s : Str)
  | other

/-- The data to be dumped: a mapping (entries in iteration order) or a leaf. -/
inductive Val (DT E : Type) where
  | map (kvs : List (KeyObj × Val DT E))
  | leaf (l : Leaf DT E)

/-- An object in the file. -/
inductive Node (DT E : Type) where
  | dset (d : Dset DT E) (attrs : List (Str × Dset DT E))
  | grp (ch : List (Str × Node DT E)) (attrs : List (Str × Dset DT E))

/-- What loading returns: a DataDict or an array/bytes. -/
inductive LVal (DT E : Type) where
  | map (kvs : List (Str × LVal DT E))
  | dat (d : Dset DT E)

/-- The components of a key. -/
def pathOf (key : Str) : List Str := Str.comps '/' key

/-- The names of a group in increasing order (with what they refer to). -/
def sortNames {β : Type} (l : List (Str × β)) : List (Str × β) := l.insertionSort (fun a b => a.1 ≤ b.1)

/-! ### h5py -/

/-- `raw[key]`; `none` is KeyError. -/
def lookup : Node DT E → List Str → Option (Node DT E)
  | n, [] => some n
  | .dset _ _, _ :: _ => none
  | .grp ch _, k :: ks => match PyDict.get? ch k with
      | some c => lookup c ks
      | none => none

/-- `key in raw` -/
def contains (n : Node DT E) (p : List Str) : Bool := (lookup n p).isSome

/-- Run an operation on the object at a path. -/
def modifyAt {α : Type} (f : Node DT E → PyM α × Node DT E) : Node DT E → List Str → PyM α × Node DT E
  | n, [] => f n
  | .dset d a, _ :: _ => (.error .keyError, .dset d a)
  | .grp ch a, k :: ks => match PyDict.get? ch k with
      | some c =>
          let (r, c') := modifyAt f c ks
          (r, .grp (PyDict.set ch k c') a)
      | none => (.error .keyError, .grp ch a)

/-- `raw.create_group(key)` -/
def rawCreateGroup (env : Env DT E) : Node DT E → List Str → PyM Unit × Node DT E
  | n, [] => (.error .valueError, n)
  | .dset d a, _ :: _ => (.error .valueError, .dset d a)
  | .grp ch a, k :: ks =>
      if env.writable then
        match PyDict.get? ch k with
        | some c =>
            let (r, c') := rawCreateGroup env c ks
            (r, .grp (PyDict.set ch k c') a)
        | none =>
            (.ok (), .grp (PyDict.set ch k (ks.foldr (fun k n => .grp [(k, n)] []) (.grp [] []))) a)
      else (.error .valueError, .grp ch a)

/-- `raw.create_dataset(key, data=data)`, where `obj` is the array made of the data or the error of
making it. -/
def rawCreateDataset (env : Env DT E) (obj : PyM (Dset DT E)) : Node DT E → List Str → PyM Unit × Node DT E
  | n, [] => (.error .valueError, n)
  | .dset d a, [_] => (.error .typeError, .dset d a)
  | .dset d a, _ :: _ :: _ => (.error .valueError, .dset d a)
  | .grp ch a, [k] =>
      if env.writable then
        match obj with
        | .error e => (.error e, .grp ch a)
        | .ok d => if PyDict.has ch k then (.error .valueError, .grp ch a) else (.ok (), .grp (PyDict.set ch k (.dset d [])) a)
      else (.error .valueError, .grp ch a)
  | .grp ch a, k :: k' :: ks =>
      if env.writable then
        let (r, c') := rawCreateDataset env obj ((PyDict.get? ch k).getD (.grp [] [])) (k' :: ks)
        (r, .grp (PyDict.set ch k c') a)
      else (.error .valueError, .grp ch a)

/-- The array of a leaf as h5py sees it; TypeError for objects without an array form. -/
def leafDset (env : Env DT E) : Leaf DT E → PyM (Dset DT E)
  | .str s => .ok ⟨env.strDT, [], [env.bytesOf s]⟩
  | .dat d => .ok d
  | .bad => .error .typeError

/-- The dataset created from a leaf. -/
def newDset (env : Env DT E) (l : Leaf DT E) : PyM (Dset DT E) := do
  let d ← leafDset env l
  match env.storeErr d with
  | none => return d
  | some e => throw e

/-- Broadcasting: pairs (source, target) of dimensions, outermost first. -/
def expand : List (Nat × Nat) → List E → List E
  | [], xs => xs
  | (s, t) :: r, xs =>
      let c := (r.map (·.1)).prod
      if s = t then (List.range s).flatMap (fun i => expand r ((xs.drop (i * c)).take c))
      else (List.replicate t (expand r xs)).flatten

/-- Match the source shape to the target shape from the last dimension on; missing source dimensions
count as 1, extra ones must not exceed 1. -/
def matchShape (src tgt : List Nat) : Option (List (Nat × Nat)) :=
  let extra := src.take (src.length - tgt.length)
  let src' := List.replicate (tgt.length - src.length) 1 ++ src.drop (src.length - tgt.length)
  if extra.all (fun n => decide (n ≤ 1)) && (src'.zip tgt).all (fun p => decide (p.1 = 1 ∨ p.1 = p.2)) then some (src'.zip tgt) else none

/-- `dset[...] = data` for array data: dtype and shape of the dataset stay. -/
def overwrite (env : Env DT E) (old : Dset DT E) (new : Dset DT E) : PyM (Dset DT E) :=
  match env.cast new.dt old.dt with
  | none => .error .typeError
  | some f => match matchShape new.shape old.shape with
      | none => .error .typeError
      | some ps => .ok { old with elems := (expand ps new.elems).map f }

/-- `dset[...] = data` on an object in the file. -/
def assign (env : Env DT E) (l : Leaf DT E) : Node DT E → PyM Unit × Node DT E
  | .grp ch a => (.error .typeError, .grp ch a)
  | .dset old a =>
      if env.writable then
        match (do let d ← leafDset env l; overwrite env old d : PyM _) with
        | .ok d => (.ok (), .dset d a)
        | .error e => (.error e, .dset old a)
      else (.error .osError, .dset old a)

/-! ### Group and DatasetManager -/

/-- The flags accepted by the creating functions (named_objs.py:57, 78, 170, 197, 327, 344, 355). -/
def flagOk (flag : String) : Bool := flag == "x" || flag == "ac" || flag == "ca"

/-- io/h5/named_objs.py:317-340 `Group.create_group`; the returned object is the one at `key`. -/
def createGroup (env : Env DT E) (n : Node DT E) (key : Str) (flag : String) : PyM Unit × Node DT E :=
  if !flagOk flag then (.error .valueError, n)
  else if contains n (pathOf key) then
    if flag == "x" then (.error .valueError, n)
    else match lookup n (pathOf key) with
      | some (.grp _ _) => (.ok (), n)
      | _ => (.error .valueError, n)
  else rawCreateGroup env n (pathOf key)

/-- io/h5/named_objs.py:161-183 `DatasetManager.create`. -/
def dsCreate (env : Env DT E) (n : Node DT E) (key : Str) (data : Leaf DT E) (flag : String) : PyM Unit × Node DT E :=
  if !flagOk flag then (.error .valueError, n)
  else if contains n (pathOf key) then
    if flag == "x" then (.error .valueError, n)
    else match lookup n (pathOf key) with
      | some (.dset _ _) => modifyAt (assign env data) n (pathOf key)
      | _ => (.error .valueError, n)
  else rawCreateDataset env (newDset env data) n (pathOf key)

/-- io/h5/named_objs.py:147-150 `DatasetManager.__contains__`. -/
def dsContains (n : Node DT E) (key : Str) : Bool :=
  match lookup n (pathOf key) with
  | some (.dset _ _) => true
  | _ => false

/-- io/h5/named_objs.py:185-209 `DatasetManager.create_empty`. -/
def dsCreateEmpty (env : Env DT E) (n : Node DT E) (key : Str) (shape : List Nat) (dt : DT) (flag : String) :
    PyM Unit × Node DT E :=
  if !flagOk flag then (.error .valueError, n)
  else if dsContains n key then
    if flag == "x" then (.error .valueError, n) else (.ok (), n)
  else
    rawCreateDataset env
      (match env.storeErr ⟨dt, shape, List.replicate shape.prod (env.zero dt)⟩ with
        | none => .ok ⟨dt, shape, List.replicate shape.prod (env.zero dt)⟩
        | some e => .error e) n (pathOf key)

/-- io/h5/named_objs.py:129-136 `DatasetManager.__getitem__` for one key. -/
def dsGet (n : Node DT E) (key : Str) : PyM (Dset DT E) :=
  match lookup n (pathOf key) with
  | some (.dset d _) => .ok d
  | _ => .error .keyError

/-- io/h5/named_objs.py:135-136: a tuple of keys. -/
def dsGets (n : Node DT E) (keys : List Str) : PyM (List (Dset DT E)) := keys.mapM (dsGet n)

/-- io/h5/named_objs.py:138-145 `DatasetManager.__setitem__`. -/
def dsSet (env : Env DT E) (n : Node DT E) (key : Str) (data : Leaf DT E) : PyM Unit × Node DT E :=
  if dsContains n key then modifyAt (assign env data) n (pathOf key) else (.error .keyError, n)

/-- io/h5/named_objs.py:241-247 `__items`: the children that are datasets, in name order (`keys`, `values`
and `items` are projections of it, 211-220). -/
def dsItems : Node DT E → List (Str × Dset DT E)
  | .dset _ _ => []
  | .grp ch _ => (sortNames ch).filterMap (fun p => match p.2 with
      | .dset d _ => some (p.1, d)
      | .grp _ _ => none)

/-- io/h5/named_objs.py:226-228 `DatasetManager.dump`. -/
def dsDump (env : Env DT E) (flag : String) : List (Str × Leaf DT E) → Node DT E → PyM Unit × Node DT E
  | [], n => (.ok (), n)
  | (k, l) :: rest, n => match dsCreate env n k l flag with
      | (.ok (), n1) => dsDump env flag rest n1
      | (.error e, n1) => (.error e, n1)

/-- io/h5/utils.py:18-24, 85-86: `KeyList(keys).matched(key_re)`; the pattern is a predicate on keys
(`re.match`: a match at the start). -/
def matched (pat : Option (Str → Bool)) (keys : List Str) : List Str :=
  match pat with
  | none => keys
  | some f => keys.filter f

/-- `{k: self[k] for k in keys}` -/
def dictOf {β : Type} (get : Str → PyM β) (keys : List Str) : PyM (PyDict Str β) :=
  keys.foldlM (fun d k => do
    let v ← get k
    return PyDict.set d k v) []

/-- io/h5/named_objs.py:222-224 `DatasetManager.load`. -/
def dsLoad (n : Node DT E) (pat : Option (Str → Bool)) (keys : Option (List Str)) : PyM (PyDict Str (Dset DT E)) :=
  dictOf (dsGet n) (matched pat (keys.getD ((dsItems n).map (·.1))))

/-- io/h5/named_objs.py:475-476 `Group.__delitem__`: `del raw[key]`; the last component is unlinked. -/
def delItem (env : Env DT E) : Node DT E → List Str → PyM Unit × Node DT E
  | n, [] => (.error .keyError, n)
  | .dset d a, _ :: _ => (.error .keyError, .dset d a)
  | .grp ch a, [k] =>
      if PyDict.has ch k then
        if env.writable then (.ok (), .grp (PyDict.del ch k) a) else (.error .keyError, .grp ch a)
      else (.error .keyError, .grp ch a)
  | .grp ch a, k :: k' :: ks => match PyDict.get? ch k with
      | some c =>
          let (r, c') := delItem env c (k' :: ks)
          (r, .grp (PyDict.set ch k c') a)
      | none => (.error .keyError, .grp ch a)

/-! ### dump and load -/

/-- io/h5/utils.py:31-34 `is_supported_data`. -/
def leafOk : Leaf DT E → Bool
  | .bad => false
  | _ => true

mutual
/-- io/h5/utils.py:36-50 `is_data_dict_supported` (the hint is not modelled). -/
def scan : Val DT E → Bool
  | .leaf _ => false
  | .map kvs => scanItems kvs
/-- the loop of utils.py:41-49 -/
def scanItems : List (KeyObj × Val DT E) → Bool
  | [] => true
  | (.other, _) :: _ => false
  | (.str _, .leaf l) :: rest => leafOk l && scanItems rest
  | (.str _, .map kvs) :: rest => scan (.map kvs) && scanItems rest
end

mutual
/-- io/h5/named_objs.py:364-390 `Group.dump`. -/
def dump (env : Env DT E) (flag : String) : Val DT E → Node DT E → PyM Unit × Node DT E
  | .leaf _, n => (.error .typeError, n)
  | .map kvs, n => if scanItems kvs then dumpItems env flag kvs n else (.error .typeError, n)
/-- the loop of named_objs.py:386-390 -/
def dumpItems (env : Env DT E) (flag : String) : List (KeyObj × Val DT E) → Node DT E → PyM Unit × Node DT E
  | [], n => (.ok (), n)
  | (.other, _) :: _, n => (.error .typeError, n)
  | (.str k, .map kvs) :: rest, n =>
      match createGroup env n k flag with
      | (.error e, n1) => (.error e, n1)
      | (.ok (), n1) =>
          match modifyAt (dump env flag (.map kvs)) n1 (pathOf k) with
          | (.error e, n2) => (.error e, n2)
          | (.ok (), n2) => dumpItems env flag rest n2
  | (.str k, .leaf l) :: rest, n =>
      match dsCreate env n k l flag with
      | (.error e, n1) => (.error e, n1)
      | (.ok (), n1) => dumpItems env flag rest n1
end

mutual
/-- io/h5/named_objs.py:392-405 `Group.load` (for a dataset: `v[()]`). -/
def load : Node DT E → LVal DT E
  | .dset d _ => .dat d
  | .grp ch _ => .map (sortNames (loadItems ch))
/-- the loop of named_objs.py:397-404 -/
def loadItems : List (Str × Node DT E) → List (Str × LVal DT E)
  | [] => []
  | (k, n) :: rest => (k, load n) :: loadItems rest
end

/-! ### AttrManager -/

/-- The array of a leaf as an attribute value. -/
def leafAttr (env : Env DT E) : Leaf DT E → PyM (Dset DT E)
  | .str s => .ok ⟨env.strDT, [], [env.strOf s]⟩
  | .dat d => .ok d
  | .bad => .error .typeError

/-- `raw.modify(key, value)` for an existing attribute: dtype and shape stay; the shape must agree, except
that one-element arrays may replace each other. -/
def attrModify (env : Env DT E) (old : Dset DT E) (l : Leaf DT E) : PyM (Dset DT E) := do
  if !env.writable then throw .osError
  let d ← leafAttr env l
  match env.cast d.dt old.dt with
  | none => throw .typeError
  | some f =>
      if d.shape = old.shape ∨ (d.shape.prod = 1 ∧ old.shape.prod = 1) then return { old with elems := d.elems.map f }
      else throw .typeError

/-- `raw.create(key, ...)` of a new attribute. -/
def attrNew (env : Env DT E) (obj : PyM (Dset DT E)) : PyM (Dset DT E) := do
  if !env.writable then throw .osError
  let d ← obj
  match env.storeErr d with
  | none => return d
  | some e => throw e

/-- Store a computed attribute value, or raise without changing anything. -/
def attrPut (at' : List (Str × Dset DT E)) (key : Str) : PyM (Dset DT E) → PyM Unit × List (Str × Dset DT E)
  | .ok d => (.ok (), PyDict.set at' key d)
  | .error e => (.error e, at')

/-- io/h5/named_objs.py:19-23 `AttrManager.__getitem__` for one key. -/
def attrGet (at' : List (Str × Dset DT E)) (key : Str) : PyM (Dset DT E) :=
  match PyDict.get? at' key with
  | some d => .ok d
  | none => .error .keyError

/-- io/h5/named_objs.py:25-32 `AttrManager.__setitem__`. -/
def attrSet (env : Env DT E) (at' : List (Str × Dset DT E)) (key : Str) (l : Leaf DT E) : PyM Unit × List (Str × Dset DT E) :=
  match PyDict.get? at' key with
  | none => (.error .keyError, at')
  | some old => attrPut at' key (attrModify env old l)

/-- io/h5/named_objs.py:49-65 `AttrManager.create`. -/
def attrCreate (env : Env DT E) (at' : List (Str × Dset DT E)) (key : Str) (l : Leaf DT E) (flag : String) :
    PyM Unit × List (Str × Dset DT E) :=
  if !flagOk flag then (.error .valueError, at')
  else match PyDict.get? at' key with
    | some old => if flag == "x" then (.error .valueError, at') else attrPut at' key (attrModify env old l)
    | none => attrPut at' key (attrNew env (leafAttr env l))

/-- io/h5/named_objs.py:67-85 `AttrManager.create_empty`. -/
def attrCreateEmpty (env : Env DT E) (at' : List (Str × Dset DT E)) (key : Str) (shape : List Nat) (dt : DT) (flag : String) :
    PyM Unit × List (Str × Dset DT E) :=
  if !flagOk flag then (.error .valueError, at')
  else match PyDict.get? at' key with
    | some _ => if flag == "x" then (.error .valueError, at') else (.ok (), at')
    | none => attrPut at' key (attrNew env (.ok ⟨dt, shape, List.replicate shape.prod (env.zero dt)⟩))

/-- io/h5/named_objs.py:87-96 `keys`, `items`. -/
def attrItems (at' : List (Str × Dset DT E)) : List (Str × Dset DT E) := sortNames at'

/-- io/h5/named_objs.py:98-100 `AttrManager.load`. -/
def attrLoad (at' : List (Str × Dset DT E)) (pat : Option (Str → Bool)) (keys : Option (List Str)) : PyM (PyDict Str (Dset DT E)) :=
  dictOf (attrGet at') (matched pat (keys.getD ((attrItems at').map (·.1))))

/-- io/h5/named_objs.py:102-104 `AttrManager.dump`. -/
def attrDump (env : Env DT E) (flag : String) : List (Str × Leaf DT E) → List (Str × Dset DT E) → PyM Unit × List (Str × Dset DT E)
  | [], at' => (.ok (), at')
  | (k, l) :: rest, at' => match attrCreate env at' k l flag with
      | (.ok (), a1) => attrDump env flag rest a1
      | (.error e, a1) => (.error e, a1)

/-- The attributes of an object (named_objs.py:262-264). -/
def Node.attrs : Node DT E → List (Str × Dset DT E)
  | .dset _ a => a
  | .grp _ a => a

end Pyhipp.H5
