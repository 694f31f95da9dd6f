import Verif.Model.DataDict
import Verif.Model.DataTable
/-
The methods that DataDict and DataTable inherit from `collections.abc.MutableMapping`: `popitem` and `==` (C136), and for DataTable also `get`,
`pop` and `setdefault` (those of DataDict are in Model/DataDict).

Simplifications: atoms compare by an equality that is decidable and reflexive (no NaN); the identity of a tuple is not looked at, its elements
are; the recursion limit of Python is the number of nested comparisons allowed.
-/
namespace Pyhipp.DataDict
open Pyhipp

local notation "Ref" => Nat

variable {A : Type}

/-- `MutableMapping.popitem` (inherited by core/containers/data_dict.py:10 `DataDict`): `key = next(iter(self))`, KeyError if there is none;
`value = self[key]; del self[key]; return key, value`. -/
def popitem (h : Heap A) (d : Ref) : PyM (Str × Val A) × Heap A :=
  match (items h d).keys.head? with
  | none => (.error .keyError, h)
  | some k =>
      match getItem h d (.str k) with
      | .error e => (.error e, h)
      | .ok v =>
          match delItem h d (.str k) with
          | (.ok (), h') => (.ok (k, v), h')
          | (.error e, h') => (.error e, h')

/-- `[d.popitem() for _ in range(n)]`: the results so far, the state and whether an exception ended it. -/
def popitems (h : Heap A) (d : Ref) : Nat → List (Str × Val A) × Option PyErr × Heap A
  | 0 => ([], none, h)
  | n + 1 =>
      match popitem h d with
      | (.ok kv, h') => (kv :: (popitems h' d n).1, (popitems h' d n).2)
      | (.error e, h') => ([], some e, h')

section Eq
variable [DecidableEq A]

/-- `v is w`, or atoms that are equal anyway. -/
def ident : Val A → Val A → Bool
  | .atom a, .atom b => decide (a = b)
  | .ref r, .ref s => decide (r = s)
  | _, _ => false

/-- `PyObject_RichCompareBool(v, w, Py_EQ)`: identity first. -/
def identOrEq (eq : Val A → Val A → PyM Bool) (v w : Val A) : PyM Bool := if ident v w then .ok true else eq v w

/-- The loop of `dict == dict`. -/
def eqEntries (eq : Val A → Val A → PyM Bool) (fs : PyDict Str (Val A)) : PyDict Str (Val A) → PyM Bool
  | [] => .ok true
  | (k, v) :: es =>
      match fs.get? k with
      | none => .ok false
      | some w =>
          match identOrEq eq v w with
          | .error e => .error e
          | .ok false => .ok false
          | .ok true => eqEntries eq fs es

/-- `dict == dict` of two built-in dicts. -/
def eqDict (eq : Val A → Val A → PyM Bool) (es fs : PyDict Str (Val A)) : PyM Bool :=
  if es.length = fs.length then eqEntries eq fs es else .ok false

/-- `tuple == tuple`. -/
def eqTuple (eq : Val A → Val A → PyM Bool) : List (Val A) → List (Val A) → PyM Bool
  | [], [] => .ok true
  | v :: vs, w :: ws =>
      match identOrEq eq v w with
      | .error e => .error e
      | .ok false => .ok false
      | .ok true => eqTuple eq vs ws
  | _, _ => .ok false

/-- The two mapping objects of `==`: `Mapping.__eq__` (inherited by core/containers/data_dict.py:10) compares `dict(self.items())` with
`dict(other.items())`; if only the right operand is a DataDict, `dict.__eq__` declines and the reflected method compares the other way round. -/
def eqObj (eq : Val A → Val A → PyM Bool) (h : Heap A) : Obj A → Obj A → PyM Bool
  | .dict es, .dict fs => eqDict eq es fs
  | .dict es, .dataDict j => eqDict eq (h.entries j) es
  | .dataDict i, .dict fs => eqDict eq (h.entries i) fs
  | .dataDict i, .dataDict j => eqDict eq (h.entries i) (h.entries j)

/-- `v == w` with `n` nested comparisons allowed; RecursionError (a RuntimeError) beyond. -/
def eqV (h : Heap A) : Nat → Val A → Val A → PyM Bool
  | 0, _, _ => .error .runtimeError
  | _ + 1, .atom a, .atom b => .ok (decide (a = b))
  | n + 1, .tup vs, .tup ws => eqTuple (eqV h n) vs ws
  | n + 1, .ref r, .ref s =>
      match h.obj r, h.obj s with
      | some o, some p => eqObj (eqV h n) h o p
      | _, _ => .error .runtimeError
  | _ + 1, _, _ => .ok false

end Eq
end Pyhipp.DataDict

namespace Pyhipp.DataTable
open Pyhipp

variable {ρ : Type} [Inhabited ρ]

/-- `MutableMapping.popitem` (inherited by core/containers/data_table.py:27 `DataTable`). -/
def popitem (t : PyDict Str Arr) : PyM (Str × Arr) × PyDict Str Arr :=
  match t.keys.head? with
  | none => (.error .keyError, t)
  | some k =>
      match getItem t k with
      | .error e => (.error e, t)
      | .ok a =>
          match delItems t [k] with
          | (.ok (), t') => (.ok (k, a), t')
          | (.error e, t') => (.error e, t')

/-- `[t.popitem() for _ in range(n)]`. -/
def popitems (t : PyDict Str Arr) : Nat → List (Str × Arr) × Option PyErr × PyDict Str Arr
  | 0 => ([], none, t)
  | n + 1 =>
      match popitem t with
      | (.ok kv, t') => (kv :: (popitems t' n).1, (popitems t' n).2)
      | (.error e, t') => ([], some e, t')

/-- `MutableMapping.pop(key)` (inherited). -/
def pop (t : PyDict Str Arr) (k : Str) : PyM Arr × PyDict Str Arr :=
  match getItem t k with
  | .error e => (.error e, t)
  | .ok a =>
      match delItems t [k] with
      | (.ok (), t') => (.ok a, t')
      | (.error e, t') => (.error e, t')

/-- `Mapping.get(key, default)` (inherited). -/
def get (t : PyDict Str Arr) (k : Str) (dflt : Arr) : PyM Arr :=
  match getItem t k with
  | .error .keyError => .ok dflt
  | r => r

/-- `MutableMapping.setdefault(key, default)` (inherited): after `self[key] = default` it returns `default`, not `self[key]`. -/
def setdefault (m : Mem ρ) (t : PyDict Str Arr) (k : Str) (dflt : Arr) : Arr × PyDict Str Arr × Mem ρ :=
  match getItem t k with
  | .ok a => (a, t, m)
  | .error _ => (dflt, setItem m t k dflt)

/-- A column as `==` sees it: the identity of the ndarray object and its numbers (one dimension). -/
structure Col (K : Type) where
  id : Nat
  data : List K

variable {K : Type} [DecidableEq K]

/-- `bool(a == b)` of one-dimensional ndarrays of equal length; other lengths that do not broadcast are a ValueError, and so is the truth value of
an array of two or more elements.  (`empty` stands for `bool` of an empty array, which depends on the version of numpy.) -/
def truthEq (empty : PyM Bool) (a b : List K) : PyM Bool :=
  if a.length = b.length ∨ a.length = 1 ∨ b.length = 1 then
    match (if a.length = 1 then b.map (fun y => decide (a.head? = some y)) else if b.length = 1 then a.map (fun x => decide (some x = b.head?))
      else List.zipWith (fun x y => decide (x = y)) a b) with
    | [] => empty
    | [t] => .ok t
    | _ => .error .valueError
  else .error .valueError

/-- The loop of `dict == dict` over columns: the identity of the object first. -/
def eqCols (empty : PyM Bool) (fs : PyDict Str (Col K)) : PyDict Str (Col K) → PyM Bool
  | [] => .ok true
  | (k, a) :: es =>
      match fs.get? k with
      | none => .ok false
      | some b =>
          match (if a.id = b.id then .ok true else truthEq empty a.data b.data) with
          | .error e => .error e
          | .ok false => .ok false
          | .ok true => eqCols empty fs es

/-- `t == u` of two DataTables (`Mapping.__eq__`, inherited by core/containers/data_table.py:27): `dict(t.items()) == dict(u.items())`. -/
def eqT (empty : PyM Bool) (t u : PyDict Str (Col K)) : PyM Bool :=
  if t.length = u.length then eqCols empty u t else .ok false

end Pyhipp.DataTable
