import Verif.Base.Float64
import Verif.Model.Dataproc
import Verif.Model.FloatMesh
/-
Machine integers: `Array.count_to_offset` on the integer types of numpy, and the cell numbers of the meshes in the int64 arithmetic of numba, where
results are cut to 64 bits without notice (Model/Dataproc, Model/Neighbor and Model/FloatMesh use unbounded integers).

The default integer of numpy is taken as 64 bits (Linux, macOS; Windows from numpy 2 on).
-/
namespace Pyhipp.Int64
open Pyhipp F64 FloatMesh

/-- The int64 with the bits of `z`. -/
def wrapS (z : ℤ) : ℤ := (z + 2 ^ 63) % 2 ^ 64 - 2 ^ 63

/-- The uint64 with the bits of `z`. -/
def wrapU (z : ℤ) : ℤ := z % 2 ^ 64

/-- `np.cumsum` in a fixed integer type. -/
def cumsumW (wrap : ℤ → ℤ) (s : ℤ) : List ℤ → List ℤ
  | [] => []
  | c :: t => wrap (s + c) :: cumsumW wrap (wrap (s + c)) t

/-- An array of offsets: of int64 or of float64. -/
inductive Offsets where
  | ints (l : List ℤ)
  | floats (l : List Num)

/-- core/dataproc/data_structs.py:51-62 `Array.count_to_offset`: `np.cumsum` of signed integers (of any width) is int64, of unsigned integers uint64;
`np.concatenate` with `(0,)`, an int64, gives int64, or float64 if the other is uint64. -/
def countToOffset (signed : Bool) (count : List ℤ) (hasEnd : Bool) : Offsets :=
  let cut : {γ : Type} → List γ → List γ := fun l => if !hasEnd then l.dropLast else l
  if signed then .ints (cut (0 :: cumsumW wrapS 0 count)) else .floats (cut ((0 :: cumsumW wrapU 0 count).map (fun z : ℤ => ofQ (z : ℚ))))

/-- `x[off[i]:off[i + 1]]` on a list of `n` elements: the bounds (as Python clamps them), IndexError if there is no such offset, TypeError for floats. -/
def sliceBy (off : Offsets) (i n : Nat) : PyM (Nat × Nat) :=
  match off with
  | .floats l => if i + 1 < l.length then .error .typeError else .error .indexError
  | .ints l =>
      match l[i]?, l[i + 1]? with
      | some a, some b => .ok (pyClamp n a, pyClamp n b)
      | _, _ => .error .indexError

/-- field/neighbor/kd_mesh.py:37-40 `x2xi_f` and 96 in int64 arithmetic, from the numbers of the cells along the axes. -/
def cellNumber (n : ℤ) (c : ℤ × ℤ × ℤ) : ℤ := wrapS (wrapS (wrapS (wrapS (c.1 * n) + c.2.1) * n) + c.2.2)

/-- field/neighbor/kd_mesh.py:37-40 `x2xi_f`, the position in double precision. -/
def x2xif (bad : Num → ℤ) (m : Mesh) (x : Point) : ℤ :=
  cellNumber m.n (x2xi bad m x.1 % m.n, x2xi bad m x.2.1 % m.n, x2xi bad m x.2.2 % m.n)

/-- field/cubic_box/mesh.py:23-25 `total_n_grids` and field/neighbor/kd_mesh.py:59, 107: `n_grids**3` in int64 arithmetic. -/
def totalCells (n : ℤ) : ℤ := wrapS (wrapS (n * n) * n)

/-- field/cubic_box/mass_assignment.py:59-61: the cells left and right of a position in units of cells, in int64 arithmetic. -/
def cellsAt (bad : Num → ℤ) (n : ℤ) (x : Num) : ℤ × ℤ :=
  let iL := Num.toInt64 bad (Num.floor x)
  (iL % n, wrapS (iL + 1) % n)

end Pyhipp.Int64
