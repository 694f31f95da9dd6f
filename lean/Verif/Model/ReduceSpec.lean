import Verif.Base.Py
import Verif.Base.Dict
import Verif.Base.Str
/-
Model of `_Predefined` of src/pyhipp/stats/reduction.py: turning a specification (an object, a name, a pair (name, kwargs), or
an iterable of these) into named reduction objects.  The constructors of the reduction classes are a parameter: `init c kw` is
`c(**kw)`.
-/
namespace Pyhipp.ReduceSpec
open Pyhipp

/-- The reduction classes. -/
inductive Cls where
  | count | sum | mean | stdDev | quantile | median | errorbar
  deriving DecidableEq

/-- The class attribute `key` (reduction.py:106, 118, 135, 158, 175, 221, 252). -/
def Cls.key : Cls → Str
  | .count => "count".toList
  | .sum => "sum".toList
  | .mean => "mean".toList
  | .stdDev => "std_dev".toList
  | .quantile => "quantile".toList
  | .median => "median".toList
  | .errorbar => "errorbar".toList

/-- reduction.py:281-293: the table of names. -/
def table : PyDict Str Cls :=
  [("count".toList, .count), ("cnt".toList, .count), ("sum".toList, .sum), ("mean".toList, .mean),
   ("std_dev".toList, .stdDev), ("std".toList, .stdDev), ("sd".toList, .stdDev), ("quantile".toList, .quantile),
   ("qs".toList, .quantile), ("median".toList, .median), ("errorbar".toList, .errorbar)]

/-- What a caller may pass: a reduction object `R` (of class `Cls`), a string, a mapping of keyword arguments, a tuple, or another iterable (list). -/
inductive Arg (R K : Type) where
  | obj (c : Cls) (r : R)
  | str (s : Str)
  | kw (d : List (Str × K))
  | tuple (l : List (Arg R K))
  | list (l : List (Arg R K))

variable {R K : Type}

/-- data_dict.py:44-52 `self[key]` of the table for a string: a path of one component names a class; subscripting a class is a
TypeError. -/
def lookupStr (s : Str) : PyM Cls :=
  if '/' ∉ s then
    match PyDict.get? table s with
    | some c => .ok c
    | none => .error .keyError
  else
    match Str.comps '/' s with
    | [] => .error .assertionError
    | k :: rest =>
        match PyDict.get? table k with
        | none => .error .keyError
        | some c => if rest = [] then .ok c else .error .typeError

mutual
/-- `self[name]` where `name` may be any object: `none` is a tuple of classes, which cannot be called. -/
def lookup : Arg R K → PyM (Option Cls)
  | .str s => do return some (← lookupStr s)
  | .tuple l => do lookupAll l; return none
  | .obj _ _ => .error .typeError
  | .kw d => if d.any (fun p => p.1 == "/".toList) then .error .attributeError else .error .typeError
  | .list l => if slashIn l then .error .attributeError else .error .typeError
/-- data_dict.py:42-43. -/
def lookupAll : List (Arg R K) → PyM Unit
  | [] => .ok ()
  | a :: t => do
      let _ ← lookup a
      lookupAll t
/-- `'/' in key` for a list. -/
def slashIn : List (Arg R K) → Bool
  | [] => false
  | a :: t => (match a with | .str s => s == "/".toList | _ => false) || slashIn t
end

/-- `name, kw = reduce`: any iterable of exactly two items (a mapping iterates over its keys). -/
def unpack2 : Arg R K → PyM (Arg R K × Arg R K)
  | .tuple [a, b] => .ok (a, b)
  | .list [a, b] => .ok (a, b)
  | .kw [a, b] => .ok (.str a.1, .str b.1)
  | .obj _ _ => .error .typeError
  | _ => .error .valueError

/-- reduction.py:304 `self[name](**kw)`. -/
def build (init : Cls → List (Str × K) → PyM R) (name kw : Arg R K) : PyM R := do
  let c? ← lookup name
  match kw with
  | .kw d =>
      match c? with
      | some c => init c d
      | none => .error .typeError
  | _ => .error .typeError

/-- reduction.py:295-304 `create`: (name, object); for a pair the name is returned as it was given (only a string gets that far). -/
def create (init : Cls → List (Str × K) → PyM R) (a : Arg R K) : PyM (Str × R) :=
  match a with
  | .obj c r => .ok (c.key, r)
  | .str s => do
      let r ← build init (.str s) (.kw [])
      return (s, r)
  | a => do
      let (name, kw) ← unpack2 a
      let r ← build init name kw
      match name with
      | .str s => return (s, r)
      | _ => .error .typeError

/-- reduction.py:306-312 `iter`, consumed to the end: an object, a string or a tuple is one specification, any other iterable a
collection of them. -/
def iter (init : Cls → List (Str × K) → PyM R) (a : Arg R K) : PyM (List (Str × R)) :=
  match a with
  | .obj c r => do return [← create init (.obj c r)]
  | .str s => do return [← create init (.str s)]
  | .tuple l => do return [← create init (.tuple l)]
  | .list l => l.mapM (create init)
  | .kw d => d.mapM (fun p => create init (.str p.1))

end Pyhipp.ReduceSpec
