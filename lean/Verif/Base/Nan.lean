import Mathlib.Order.Defs.LinearOrder
/-
Numbers with NaN: IEEE comparisons are false as soon as a NaN is involved.
-/
namespace Pyhipp

/-- A float-like value: a number or NaN (infinities can be part of `α`). -/
inductive Fl (α : Type _)
  | nan
  | num (a : α)
  deriving DecidableEq

namespace Fl
variable {α : Type _} [LinearOrder α]

/-- `x < y` -/
def lt : Fl α → Fl α → Bool
  | num a, num b => decide (a < b)
  | _, _ => false
/-- `x > y` -/
def gt (x y : Fl α) : Bool := lt y x
/-- `x >= y` -/
def ge : Fl α → Fl α → Bool
  | num a, num b => decide (b ≤ a)
  | _, _ => false

@[simp] theorem lt_num (a b : α) : lt (num a) (num b) = decide (a < b) := rfl
@[simp] theorem gt_num (a b : α) : gt (num a) (num b) = decide (b < a) := rfl
@[simp] theorem ge_num (a b : α) : ge (num a) (num b) = decide (b ≤ a) := rfl
@[simp] theorem lt_nan_left (x : Fl α) : lt nan x = false := by cases x <;> rfl
@[simp] theorem lt_nan_right (x : Fl α) : lt x nan = false := by cases x <;> rfl
@[simp] theorem gt_nan_left (x : Fl α) : gt nan x = false := by cases x <;> rfl
@[simp] theorem gt_nan_right (x : Fl α) : gt x nan = false := by cases x <;> rfl
@[simp] theorem ge_nan_left (x : Fl α) : ge nan x = false := by cases x <;> rfl
@[simp] theorem ge_nan_right (x : Fl α) : ge x nan = false := by cases x <;> rfl

end Fl
end Pyhipp
