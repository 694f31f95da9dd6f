import Verif.Model.H5
/-
Model of the links of src/pyhipp/io/h5/named_objs.py:342-362 and of `Group.__delitem__` (475-476) in files with links.

What is assumed of HDF5: a soft link holds a path (absolute: from the root of its file; else from the group that holds
it), an external link a file name and a path in that file; a path is followed component by component through links, at most
`fuel` of them (16 by default); `in` is true iff the path leads to an object; `raw[key] = link` creates missing parent groups
and fails if the name is taken, be it by a dangling link; `del` removes a name, never what a link refers to.
Hard links to one object under several names are not modelled; all files are opened for writing or none is.
-/
namespace Pyhipp.H5
open Pyhipp

variable {DT E : Type}

/-- What a name in a group refers to. -/
inductive LNode (DT E : Type) where
  | dset (d : Dset DT E) (attrs : List (Str × Dset DT E))
  | grp (ch : List (Str × LNode DT E)) (attrs : List (Str × Dset DT E))
  | soft (target : Str)
  | ext (file path : Str)

/-- HDF5 files by name: their root groups. -/
abbrev LFS (DT E : Type) := Str → Option (LNode DT E)

/-- A place in a file: the names from the root, no link followed. -/
structure Loc where
  file : Str
  path : List Str
  deriving DecidableEq

/-- The child `k` of a place. -/
def Loc.child (l : Loc) (k : Str) : Loc := ⟨l.file, l.path ++ [k]⟩

/-- The node at a path, no link followed. -/
def nodeAt : LNode DT E → List Str → Option (LNode DT E)
  | n, [] => some n
  | .grp ch _, k :: ks => match PyDict.get? ch k with
      | some c => nodeAt c ks
      | none => none
  | _, _ :: _ => none

/-- Replace the node at a path that exists. -/
def replaceAt (n' : LNode DT E) : LNode DT E → List Str → LNode DT E
  | _, [] => n'
  | .grp ch a, k :: ks => match PyDict.get? ch k with
      | some c => .grp (PyDict.set ch k (replaceAt n' c ks)) a
      | none => .grp ch a
  | n, _ :: _ => n

/-- What is at a place. -/
def LFS.at (fs : LFS DT E) (l : Loc) : Option (LNode DT E) :=
  match fs l.file with
  | some root => nodeAt root l.path
  | none => none

/-- Replace what is at a place. -/
def LFS.put (fs : LFS DT E) (l : Loc) (n : LNode DT E) : LFS DT E :=
  fun q => if q = l.file then (fs q).map (fun root => replaceAt n root l.path) else fs q

/-- Where the path of a soft link starts: at the root, or at the group that holds the link. -/
def linkBase (l : Loc) (target : Str) : Loc := if target.head? = some '/' then ⟨l.file, []⟩ else l

/-- Follow a path, given how to go on from a link. -/
def walkWith (fs : LFS DT E) (follow : Loc → List Str → Option Loc) : Loc → List Str → Option Loc
  | l, [] => match fs.at l with
      | some _ => some l
      | none => none
  | l, k :: ks => match fs.at (l.child k) with
      | none => none
      | some (.soft t) => follow (linkBase l t) (pathOf t ++ ks)
      | some (.ext f t) => follow ⟨f, []⟩ (pathOf t ++ ks)
      | some _ => walkWith fs follow (l.child k) ks

/-- Follow a path through at most `fuel` links. -/
def walk (fs : LFS DT E) : Nat → Loc → List Str → Option Loc
  | 0 => walkWith fs (fun _ _ => none)
  | fuel + 1 => walkWith fs (walk fs fuel)

/-- io/h5/named_objs.py:472-473 `Group.__contains__`. -/
def linkContains (fs : LFS DT E) (fuel : Nat) (g : Loc) (key : Str) : Bool := (walk fs fuel g (pathOf key)).isSome

/-- `raw[key]` (named_objs.py:456-470): what the key leads to; `none` is KeyError. -/
def linkGet (fs : LFS DT E) (fuel : Nat) (g : Loc) (key : Str) : Option (LNode DT E) :=
  match walk fs fuel g (pathOf key) with
  | some l => fs.at l
  | none => none

/-- Create a link under `k :: ks` in the group at `p` (with new groups if `ks` is not empty); the name must not exist. -/
def linkHere (fs : LFS DT E) (link : LNode DT E) (p : Loc) (k : Str) (ks : List Str) : PyM Unit × LFS DT E :=
  match fs.at p with
  | some (.grp ch a) =>
      if PyDict.has ch k then (.error .valueError, fs)
      else (.ok (), fs.put p (.grp (PyDict.set ch k (ks.foldr (fun k n => .grp [(k, n)] []) link)) a))
  | _ => (.error .valueError, fs)

/-- `raw[key] = link` in a file opened for writing.  The first list are the parents, innermost first, and `k :: ks` what follows: if the
parents lead somewhere, the link is created there; if not, the innermost parent is to be created as well. -/
def rawLinkAt (fs : LFS DT E) (fuel : Nat) (link : LNode DT E) (g : Loc) : List Str → Str → List Str → PyM Unit × LFS DT E
  | [], k, ks => match walk fs fuel g [] with
      | some p => linkHere fs link p k ks
      | none => (.error .valueError, fs)
  | k1 :: rp, k, ks => match walk fs fuel g (k1 :: rp).reverse with
      | some p => linkHere fs link p k ks
      | none => rawLinkAt fs fuel link g rp k1 (k :: ks)

/-- `raw[key] = h5py.SoftLink(..)` / `h5py.ExternalLink(..)`. -/
def rawLink (fs : LFS DT E) (fuel : Nat) (link : LNode DT E) (g : Loc) (comps : List Str) : PyM Unit × LFS DT E :=
  match comps.reverse with
  | [] => (.error .valueError, fs)
  | k :: rp => rawLinkAt fs fuel link g rp k []

/-- The common body of the two functions below (named_objs.py:344-351 and 355-362). -/
def createLink (fs : LFS DT E) (fuel : Nat) (writable : Bool) (g : Loc) (key : Str) (link : LNode DT E) (flag : String) : PyM Unit × LFS DT E :=
  if !flagOk flag then (.error .valueError, fs)
  else if linkContains fs fuel g key then
    if flag == "x" then (.error .valueError, fs) else (.ok (), fs)
  else if writable then rawLink fs fuel link g (pathOf key) else (.error .valueError, fs)

/-- io/h5/named_objs.py:342-351 `Group.create_soft_link`. -/
def createSoftLink (fs : LFS DT E) (fuel : Nat) (writable : Bool) (g : Loc) (key path : Str) (flag : String) : PyM Unit × LFS DT E :=
  createLink fs fuel writable g key (.soft path) flag

/-- io/h5/named_objs.py:353-362 `Group.create_external_link`. -/
def createExternalLink (fs : LFS DT E) (fuel : Nat) (writable : Bool) (g : Loc) (key file path : Str) (flag : String) : PyM Unit × LFS DT E :=
  createLink fs fuel writable g key (.ext file path) flag

/-- io/h5/named_objs.py:475-476 `Group.__delitem__`. -/
def linkDel (fs : LFS DT E) (fuel : Nat) (writable : Bool) (g : Loc) (key : Str) : PyM Unit × LFS DT E :=
  match (pathOf key).getLast? with
  | none => (.error .keyError, fs)
  | some k => match walk fs fuel g (pathOf key).dropLast with
      | none => (.error .keyError, fs)
      | some p => match fs.at p with
          | some (.grp ch a) =>
              if PyDict.has ch k && writable then (.ok (), fs.put p (.grp (PyDict.del ch k) a)) else (.error .keyError, fs)
          | _ => (.error .keyError, fs)

end Pyhipp.H5
