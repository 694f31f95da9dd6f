import Verif.Base.Float64
import Verif.Base.Py
/-
core/dataproc/frame.py `PeriodicBox` in double precision, rounding included (Model/Frame.lean has the same code over exact numbers, with
the copy flag and the in-place effect).
-/
namespace Pyhipp.FloatBox
open Pyhipp F64

/-- The value 0.0. -/
def zero : Num := .fin 0

/-- core/dataproc/frame.py:85-87 `__combine_mask`, one element; `w` is the element of `where` (`True` when `where` is None). -/
def combine (mask w : Bool) : Bool := mask && w

/-- core/dataproc/frame.py:49-60 `PeriodicBox.shift_in`, one element. -/
def shiftIn1 (l x : Num) (w : Bool) : Num :=
  let x := if combine (Num.lt x zero) w then Num.add x l else x
  let x := if combine (Num.le l x) w then Num.sub x l else x
  x

/-- core/dataproc/frame.py:62-76 `PeriodicBox.shift_to`, one element; both masks use the same `dx`. -/
def shiftTo1 (l x ref : Num) (w : Bool) : Num :=
  let half := Num.mul (.fin (1 / 2)) l
  let dx := Num.sub x ref
  let x := if combine (Num.lt dx (Num.neg half)) w then Num.add x l else x
  let x := if combine (Num.le half dx) w then Num.sub x l else x
  x

/-- `where`: None means every element. -/
def mask (wh : Option (List Bool)) (n : Nat) : List Bool := wh.getD (List.replicate n true)

/-- core/dataproc/frame.py:49-60 `PeriodicBox.shift_in` for a (flattened) array. -/
def shiftIn (l : Num) (xs : List Num) (wh : Option (List Bool)) : List Num := List.zipWith (shiftIn1 l) xs (mask wh xs.length)

/-- core/dataproc/frame.py:62-76 `PeriodicBox.shift_to` for a (flattened) array and as many references. -/
def shiftTo (l : Num) (xs refs : List Num) (wh : Option (List Bool)) : List Num :=
  List.zipWith (fun (p : Num × Num) w => shiftTo1 l p.1 p.2 w) (xs.zip refs) (mask wh xs.length)

/-- core/dataproc/frame.py:78-83 `PeriodicBox.test_bound`. -/
def testBound (l : Num) (xs : List Num) (wh : Option (List Bool)) : Bool :=
  let xs := ((xs.zip (mask wh xs.length)).filter (·.2)).map (·.1)
  xs.all (fun x => Num.le zero x && Num.lt x l)

end Pyhipp.FloatBox
