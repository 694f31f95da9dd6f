import Verif.Model.FloatNum
/-
`Standardize` of stats/preprocessing.py in double precision, column by column (Model/Stats.lean has it over exact numbers).
-/
namespace Pyhipp.FloatStandardize
open Pyhipp Pyhipp.F64 Pyhipp.FloatReduce Pyhipp.FloatNum

/-- One column of `x_train.mean(0)`: the sum divided by the number of rows. -/
def meanCol (sum : List Num → Num) (x : List Num) : Num := Num.div (sum x) (ofQ (x.length : ℚ))

/-- One column of `x_train.std(0)` (numpy's `_var` and `_std` with ddof = 0): the root of the mean of the squared differences from the mean. -/
def stdCol (sum : List Num → Num) (sq : ℚ → ℚ) (x : List Num) : Num :=
  let m := meanCol sum x
  let d := x.map (fun a => Num.sub a m)
  npSqrt sq (Num.div (sum (mulL d d)) (ofQ (x.length : ℚ)))

/-- The attributes of one column. -/
structure Std where
  mean : Num
  sd : Num
deriving DecidableEq

/-- stats/preprocessing.py:30-41 `Standardize.__init__`, one column of the training set; `clip(sd_lb)` is `np.maximum`. -/
def train (sum : List Num → Num) (sq : ℚ → ℚ) (lb : Num) (x : List Num) : Std := ⟨meanCol sum x, clipLo (stdCol sum sq x) lb⟩

/-- stats/preprocessing.py:43-44 `Standardize._impl_forward`, one element. -/
def Std.forward (s : Std) (x : Num) : Num := Num.div (Num.sub x s.mean) s.sd

/-- stats/preprocessing.py:46-47 `Standardize._impl_backward`, one element. -/
def Std.backward (s : Std) (x : Num) : Num := Num.add (Num.mul x s.sd) s.mean

end Pyhipp.FloatStandardize
