import Verif.Model.DataTable
/-
Model of one-row selections of a DataTable (src/pyhipp/core/containers/data_table.py:235-242 with an
int as `args`; also `iloc`, 18-24 and 252-254).  An int drops axis 0: of a 1-D column `v[i]` is a numpy
scalar (a value, no memory of its own), of an M-D column a view.

Simplifications: as Verif.Model.DataTable; `flat k` says whether column `k` is 1-D; `strict` says how
`np.array(scalar, copy=False)` behaves: ValueError (numpy 2) or a new 0-D array (numpy 1).
-/
namespace Pyhipp.TableRow
open Pyhipp Pyhipp.DataTable

variable {ρ : Type} [Inhabited ρ]

/-- The position of row `i` in an axis of length `n`. -/
def rowPos (n : Nat) (i : Int) : PyM Nat :=
  if 0 ≤ i ∧ i < n then .ok i.toNat
  else if -(n : Int) ≤ i ∧ i < 0 then .ok (i + n).toNat
  else .error .indexError

/-- `v[i]`. -/
inductive Item (ρ : Type) where
  | scalar (x : ρ)
  | view (buf pos : Nat)

/-- One row as an array of its own: cell `pos` of buffer `buf`. -/
structure Cell where
  buf : Nat
  pos : Nat
  deriving DecidableEq

/-- The value of a row. -/
def readCell (m : Mem ρ) (c : Cell) : ρ := m.cell c.buf c.pos

/-- core/containers/data_table.py:241 `v[args]` with an int. -/
def item (m : Mem ρ) (flat : Bool) (a : Arr) (i : Int) : PyM (Item ρ) := do
  let p ← rowPos a.idx.length i
  let q := a.idx.getD p 0
  return if flat then .scalar (m.cell a.buf q) else .view a.buf q

/-- core/containers/data_table.py:240-242 `{k: v[args] for k, v in self.items()}`. -/
def items (m : Mem ρ) (flat : Str → Bool) (i : Int) : PyDict Str Arr → PyM (PyDict Str (Item ρ))
  | [] => .ok []
  | (k, a) :: t => do
      let x ← item m (flat k) a i
      let r ← items m flat i t
      return (k, x) :: r

/-- A new buffer with one cell. -/
def newCell (m : Mem ρ) (x : ρ) : Cell × Mem ρ :=
  (⟨m.next, 0⟩, { next := m.next + 1, cell := fun b i => if b = m.next then x else m.cell b i })

/-- core/containers/data_table.py:55 `np.array(v, copy=copy)` of a scalar or of a view. -/
def rowArray (strict : Bool) (m : Mem ρ) (copy : Bool) : Item ρ → PyM (Cell × Mem ρ)
  | .scalar x => if copy || !strict then .ok (newCell m x) else .error .valueError
  | .view b q => .ok (if copy then newCell m (m.cell b q) else (⟨b, q⟩, m))

/-- core/containers/data_table.py:54-56: the columns of the new table. -/
def rowArrays (strict : Bool) (m : Mem ρ) (copy : Bool) : PyDict Str (Item ρ) → PyM (PyDict Str Cell × Mem ρ)
  | [] => .ok ([], m)
  | (k, x) :: t => do
      let (c, m1) ← rowArray strict m copy x
      let (r, m2) ← rowArrays strict m1 copy t
      return ((k, c) :: r, m2)

/-- core/containers/data_table.py:235-242 `subset` with an int (and 18-24, 252-254 `iloc`). -/
def subsetRow (strict : Bool) (flat : Str → Bool) (m : Mem ρ) (t : PyDict Str Arr) (i : Int) (copy : Bool) :
    PyM (PyDict Str Cell × Mem ρ) := do
  let d ← items m flat i t
  rowArrays strict m copy d

end Pyhipp.TableRow
