import Verif.Model.H5
/-
Model of the tree listing: src/pyhipp/io/h5/named_objs.py `AttrManager.what` (109-113), `Dataset.what` (296-302) and
`Group.what` (407-436).  How values, dtypes and shapes print is a parameter.
-/
namespace Pyhipp.H5
open Pyhipp

variable {DT E : Type}

/-- How numpy and h5py format things. -/
structure Fmt (DT E : Type) where
  attr : Dset DT E → Str
  dt : DT → Str
  shape : List Nat → Str

/-- The options `attr`, `dset`, `group` of `what`. -/
structure WhatOpts where
  attr : Bool
  dset : Bool
  group : Bool

/-- `', '.join(l)` -/
def commaJoin : List Str → Str
  | [] => []
  | [s] => s
  | s :: s' :: r => s ++ ", ".toList ++ commaJoin (s' :: r)

/-- named_objs.py:109-113 `AttrManager.what`. -/
def attrWhat (fmt : Fmt DT E) (at' : List (Str × Dset DT E)) : Str :=
  if at'.length == 0 then [] else "[".toList ++ commaJoin ((attrItems at').map (fun p => p.1 ++ "=".toList ++ fmt.attr p.2)) ++ "]".toList

/-- named_objs.py:297-303 `Dataset.what`. -/
def dsetWhat (fmt : Fmt DT E) (attr : Bool) (d : Dset DT E) (at' : List (Str × Dset DT E)) : Str :=
  let sShape := if d.shape.length > 0 then ", ".toList ++ fmt.shape d.shape else []
  let out := "(".toList ++ fmt.dt d.dt ++ sShape ++ ")".toList
  if !attr then out else out ++ attrWhat fmt at'

/-- `s.replace('\n', '\n   ')` -/
def indent (s : Str) : Str := s.flatMap (fun c => if c = '\n' then ['\n', ' ', ' ', ' '] else [c])

/-- named_objs.py:417-434: the loop over the items, `i` from the given index on; the text of an item is `none` if the item is
skipped. -/
def assemble (nKeys : Nat) : Nat → List (Str × Option Str) → Str
  | _, [] => []
  | i, (_, none) :: rest => assemble nKeys (i + 1) rest
  | i, (k, some s) :: rest =>
      (if i = nKeys - 1 then "\n└─ ".toList else "\n├─ ".toList) ++ k ++ indent s ++ assemble nKeys (i + 1) rest

mutual
/-- named_objs.py:407-436 `Group.what` (296-302 for a dataset). -/
def what (fmt : Fmt DT E) (o : WhatOpts) (maxDepth : Int) : Nat → Node DT E → Str
  | _, .dset d at' => dsetWhat fmt o.attr d at'
  | depth, .grp ch at' =>
      let out := "/".toList ++ (if o.attr then attrWhat fmt at' else [])
      if ((depth + 1 : Nat) : Int) = maxDepth then out
      else out ++ assemble ch.length 0 (sortNames (whatKids fmt o maxDepth (depth + 1) ch))
/-- The texts of the children (skipped ones: `none`). -/
def whatKids (fmt : Fmt DT E) (o : WhatOpts) (maxDepth : Int) : Nat → List (Str × Node DT E) → List (Str × Option Str)
  | _, [] => []
  | depth, (k, .dset d at') :: rest =>
      (k, if o.dset then some (dsetWhat fmt o.attr d at') else none) :: whatKids fmt o maxDepth depth rest
  | depth, (k, .grp ch at') :: rest =>
      (k, if o.group then some (what fmt o maxDepth depth (.grp ch at')) else none) :: whatKids fmt o maxDepth depth rest
end

end Pyhipp.H5
