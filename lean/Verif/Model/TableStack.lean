import Verif.Base.Py
import Verif.Base.Dict
import Verif.Base.Str
/-
Model of `DataTable.col_stacked`, `row_stacked`, `to_dict_of_list` and the mapping views (src/pyhipp/core/containers/data_table.py:109-126, 143-144, 181-188) for
columns of any number of dimensions.  `np.column_stack` and `np.row_stack` (= `vstack`) are modelled after numpy.  dtypes are left out.
-/
namespace Pyhipp.TableStack
open Pyhipp

variable {α : Type}

/-- An ndarray: its shape and the elements by index. -/
structure Nd (α : Type) where
  shape : List Nat
  get : List Nat → α

/-- The two-dimensional form used by `np.column_stack`: `np.array(a, ndmin=2).T` for fewer than two dimensions. -/
def asCol (a : Nd α) : Nd α := match a.shape with
  | [] => ⟨[1, 1], fun _ => a.get []⟩
  | [n] => ⟨[n, 1], fun ix => a.get [ix.getD 0 0]⟩
  | _ => a

/-- `np.atleast_2d` as used by `np.vstack`: a 1-d array becomes one row. -/
def asRow (a : Nd α) : Nd α := match a.shape with
  | [] => ⟨[1, 1], fun _ => a.get []⟩
  | [n] => ⟨[1, n], fun ix => a.get [ix.getD 1 0]⟩
  | _ => a

/-- The element of the concatenation at position `i` of the axis: in the block that contains `i`. -/
def blockAt (axis : Nat) (ix : List Nat) : Nat → Nd α → List (Nd α) → α
  | i, a, [] => a.get (ix.set axis i)
  | i, a, b :: t => if i < a.shape.getD axis 0 then a.get (ix.set axis i) else blockAt axis ix (i - a.shape.getD axis 0) b t

/-- The lengths along the axis, added up. -/
def total (axis : Nat) (as : List (Nd α)) : Nat := (as.map (fun a => a.shape.getD axis 0)).sum

/-- `np.concatenate(as, axis)` of arrays with at least two dimensions: ValueError without arrays, for different numbers of dimensions and for different lengths along another axis. -/
def concatenate (axis : Nat) : List (Nd α) → PyM (Nd α)
  | [] => .error .valueError
  | a :: t =>
      if t.all (fun b => decide (b.shape.length = a.shape.length ∧ b.shape.eraseIdx axis = a.shape.eraseIdx axis)) then
        .ok ⟨a.shape.set axis (total axis (a :: t)), fun ix => blockAt axis ix (ix.getD axis 0) a t⟩
      else .error .valueError

/-- core/containers/data_table.py:184-185 `col_stacked`. -/
def colStacked (t : PyDict Str (Nd α)) : PyM (Nd α) := concatenate 1 (t.map (fun p => asCol p.2))

/-- core/containers/data_table.py:187-188 `row_stacked`. -/
def rowStacked (t : PyDict Str (Nd α)) : PyM (Nd α) := concatenate 0 (t.map (fun p => asRow p.2))

end Pyhipp.TableStack
