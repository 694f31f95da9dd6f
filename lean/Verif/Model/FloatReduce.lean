import Verif.Base.Py
import Verif.Base.Float64
/-
Model of src/pyhipp/stats/reduction.py (Sum, Mean, StdDev of one-dimensional arrays) in double precision.

The order in which numpy adds up an array depends on its length, its memory layout and the machine (pairwise blocks, vector
instructions); every order that uses each element once is allowed here.  Signed zeros are not distinguished.
-/
namespace Pyhipp.FloatReduce
open Pyhipp Pyhipp.F64

/-- An order of summation: which partial results are added to which; `zero` is the start value some loops use, `leaf i` is
element `i`. -/
inductive Order where
  | zero
  | leaf (i : Nat)
  | node (l r : Order)

/-- The elements used. -/
def Order.leaves : Order → List Nat
  | .zero => []
  | .leaf i => [i]
  | .node l r => l.leaves ++ r.leaves

/-- The result of the additions. -/
def Order.eval (xs : List Num) : Order → Num
  | .zero => .fin 0
  | .leaf i => xs.getD i .nan
  | .node l r => Num.add (l.eval xs) (r.eval xs)

/-- `x.sum(-1)` of numpy: for every array, some order that uses each element once. -/
def IsSum (sum : List Num → Num) : Prop :=
  ∀ xs, ∃ t : Order, t.leaves.Perm (List.range xs.length) ∧ sum xs = t.eval xs

/-- A boolean in a product. -/
def b2f (b : Bool) : Num := if b then .fin 1 else .fin 0

/-- Element-wise product. -/
def mulL (a b : List Num) : List Num := List.zipWith Num.mul a b

/-- stats/reduction.py:108-111 `Count._impl`. -/
def count1 (x : List Num) (mask : Option (List Bool)) : Nat :=
  match mask with
  | none => x.length
  | some m => (m.filter id).length

/-- stats/reduction.py:122-125 the total weight. -/
def wTot (weight : Option (List Num)) (mask : Option (List Bool)) : Option (List Num) :=
  match weight with
  | none => mask.map (fun m => m.map b2f)
  | some w => match mask with
    | none => some w
    | some m => some (mulL w (m.map b2f))

/-- stats/reduction.py:120-131 `Sum._impl`. -/
def sum1 (sum : List Num → Num) (x : List Num) (weight : Option (List Num)) (mask : Option (List Bool)) : Num :=
  match wTot weight mask with
  | none => sum x
  | some w => sum (mulL x w)

/-- stats/reduction.py:140-153 `Mean._impl`. -/
def mean1 (sum : List Num → Num) (fill : Num) (x : List Num) (weight : Option (List Num)) (mask : Option (List Bool)) : Num :=
  let xCount := count1 x mask
  let xwSum := sum1 sum x weight mask
  let wSum := match weight with
    | none => ofQ (xCount : ℚ)
    | some w => sum1 sum w none mask
  if xCount < 1 then fill else Num.div xwSum wSum

/-- `np.sqrt`: `sq` is the machine's square root of numbers that are not negative. -/
def npSqrt (sq : ℚ → ℚ) : Num → Num
  | .fin q => if q < 0 then .nan else .fin (sq q)
  | .inf true => .nan
  | x => x

/-- stats/reduction.py:163-171 `StdDev._impl`. -/
def stdDev1 (sum : List Num → Num) (sq : ℚ → ℚ) (fill : Num) (x : List Num) (weight : Option (List Num))
    (mask : Option (List Bool)) : Num :=
  let xMean := mean1 sum fill x weight mask
  let dx := x.map (fun a => Num.sub a xMean)
  npSqrt sq (mean1 sum fill (mulL dx dx) weight mask)

/-- stats/reduction.py:52-62 `Reduce.__call__`: the shapes must agree. -/
def call (impl : List Num → Option (List Num) → Option (List Bool) → Num) (x : List Num) (weight : Option (List Num))
    (mask : Option (List Bool)) : PyM Num := do
  match weight with
    | none => pure ()
    | some w => pyAssert (w.length == x.length)
  match mask with
    | none => pure ()
    | some m => pyAssert (m.length == x.length)
  return impl x weight mask

end Pyhipp.FloatReduce
