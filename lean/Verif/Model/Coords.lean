import Verif.Base.Py
import Verif.Base.Str
import Mathlib.Algebra.Order.Field.Rat
/-
Model of src/pyhipp/astro/coords/cvt.py: sexagesimal angles.

Numbers are rational.  `float(text)` is modelled for plain decimal notation (optional sign, digits, optional
fraction, blanks around); exponents, underscores, "inf" and "nan" are left out and count as not parsable.
-/
namespace Pyhipp.Coords
open Pyhipp

/-- The value of a decimal digit. -/
def digit? (c : Char) : Option Nat := if '0' ≤ c ∧ c ≤ '9' then some (c.toNat - '0'.toNat) else none

/-- The number written by digits, continuing from `acc`. -/
def digitsFrom : Nat → Str → Option Nat
  | acc, [] => some acc
  | acc, c :: t => match digit? c with
      | some d => digitsFrom (10 * acc + d) t
      | none => none

/-- An unsigned decimal: "12", "12.5", "12.", ".5" (at least one digit). -/
def unsigned (s : Str) : Option ℚ :=
  match Str.split '.' s with
  | [a] => if a = [] then none else (digitsFrom 0 a).map (fun n : Nat => (n : ℚ))
  | [a, b] => if a = [] ∧ b = [] then none
      else match digitsFrom 0 a, digitsFrom 0 b with
        | some n, some m => some ((n : ℚ) + (m : ℚ) / 10 ^ b.length)
        | _, _ => none
  | _ => none

/-- `str.strip()` for blanks. -/
def strip (s : Str) : Str := ((s.dropWhile (· = ' ')).reverse.dropWhile (· = ' ')).reverse

/-- A sign and an unsigned decimal. -/
def signed : Str → Option ℚ
  | '-' :: t => (unsigned t).map (fun q => -q)
  | '+' :: t => unsigned t
  | s => unsigned s

/-- Python's `float(text)` on decimal notation. -/
def pyFloat (s : Str) : PyM ℚ := match signed (strip s) with
  | some q => .ok q
  | none => .error .valueError

/-- The argument of the converters: text or a tuple. -/
inductive Arg where
  | text (s : Str)
  | tuple (vs : List ℚ)

/-- cvt.py:8 and 15 `d, m, s = dms`: a wrong number of fields fails to unpack (ValueError). -/
def unpack3 : List ℚ → PyM (ℚ × ℚ × ℚ)
  | [d, m, s] => .ok (d, m, s)
  | _ => .error .valueError

/-- cvt.py:6-8 and 13-15: the three fields. -/
def fields : Arg → PyM (ℚ × ℚ × ℚ)
  | .text s => do
      let vs ← (Str.split ':' s).mapM pyFloat
      unpack3 vs
  | .tuple vs => unpack3 vs

/-- coords/cvt.py:5-10 `dms_to_deg`. -/
def dms_to_deg (dms : Arg) : PyM ℚ := do
  let (d, m, s) ← fields dms
  let deg := d + m / 60 + s / 3600
  return deg

/-- coords/cvt.py:12-17 `hms_to_deg`. -/
def hms_to_deg (hms : Arg) : PyM ℚ := do
  let (h, m, s) ← fields hms
  let deg := (h + m / 60 + s / 3600) * 15
  return deg

end Pyhipp.Coords
