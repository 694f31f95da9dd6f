import Verif.Base.Py
import Mathlib.Data.Matrix.Mul
import Mathlib.LinearAlgebra.Matrix.Notation
/-
Model of src/pyhipp/group_theory/point_group.py: symmetry operations and their groups.

An operation is its matrix (n_dims fixed by type), over a commutative ring instead of floats: the entries of all
matrices that occur are -1, 0 and 1, on which float arithmetic is exact.
-/
namespace Pyhipp.PointGroup
open Pyhipp Matrix

variable {R : Type} [CommRing R] {n : Nat}

/-- An operation: `Op.mat`. -/
abbrev Mat (n : Nat) (R : Type) := Matrix (Fin n) (Fin n) R

/-- group_theory/point_group.py:33-36 `copied`: a new array with the same entries. -/
def opCopied (m : Mat n R) : Mat n R := m

/-- group_theory/point_group.py:38-42 `Op.combined`. -/
def opCombined (m : Mat n R) (ops : List (Mat n R)) : Mat n R := ops.foldl (fun out op => out * op) (opCopied m)

/-- group_theory/point_group.py:44-45 `__call__` for a vector: `x @ mat.T`. -/
def opCall (m : Mat n R) (x : Fin n → R) : Fin n → R := x ᵥ* mᵀ

/-- point_group.py:44-45 for an array of vectors: `x @ mat.T` acts on the last axis. -/
def opCalls (m : Mat n R) (xs : List (Fin n → R)) : List (Fin n → R) := xs.map (opCall m)

/-- group_theory/point_group.py:69-70 `Group.copied`. -/
def groupCopied (ops : List (Mat n R)) : List (Mat n R) := ops.map opCopied

/-- group_theory/point_group.py:72-84 `Group.combined`. -/
def groupCombined (g0 : List (Mat n R)) : List (List (Mat n R)) → List (Mat n R)
  | [] => groupCopied g0
  | g1 :: groups => groupCombined (g0.flatMap (fun op0 => g1.map (fun op1 => opCombined op0 [op1]))) groups

/-- group_theory/point_group.py:17-21 `Op.create` and 23-26 `Op.group`: the first `group_size` matrices of the table. -/
def opGroup (mats : List (Mat n R)) (groupSize : Nat) : PyM (List (Mat n R)) :=
  (List.range groupSize).mapM (fun idx => match mats[idx]? with
    | some m => .ok m
    | none => .error .indexError)

/-- group_theory/point_group.py:99-124 `RotationXY.mats`. -/
def rotationXY : List (Mat 3 R) :=
  [!![1, 0, 0; 0, 1, 0; 0, 0, 1], !![0, -1, 0; 1, 0, 0; 0, 0, 1], !![-1, 0, 0; 0, -1, 0; 0, 0, 1], !![0, 1, 0; -1, 0, 0; 0, 0, 1]]

/-- group_theory/point_group.py:126-162 `RotationOther.mats`. -/
def rotationOther : List (Mat 3 R) :=
  [!![1, 0, 0; 0, 1, 0; 0, 0, 1], !![1, 0, 0; 0, 0, 1; 0, -1, 0], !![1, 0, 0; 0, 0, -1; 0, 1, 0], !![1, 0, 0; 0, -1, 0; 0, 0, -1],
   !![0, 0, 1; 0, 1, 0; -1, 0, 0], !![0, 0, -1; 0, 1, 0; 1, 0, 0]]

/-- group_theory/point_group.py:164-180 `ReflectionX.mats`. -/
def reflectionX : List (Mat 3 R) := [!![1, 0, 0; 0, 1, 0; 0, 0, 1], !![-1, 0, 0; 0, 1, 0; 0, 0, 1]]

/-- group_theory/point_group.py:182-203 `Rotation2DXY.mats`. -/
def rotation2DXY : List (Mat 2 R) := [!![1, 0; 0, 1], !![0, -1; 1, 0], !![-1, 0; 0, -1], !![0, 1; -1, 0]]

/-- group_theory/point_group.py:205-219 `Reflection2DX.mats`. -/
def reflection2DX : List (Mat 2 R) := [!![1, 0; 0, 1], !![-1, 0; 0, 1]]

/-- group_theory/point_group.py:57-61: the cubic group. -/
def createCubic : PyM (List (Mat 3 R)) := do
  let g2 ← opGroup reflectionX 2
  let g1 ← opGroup rotationXY 4
  let g0 ← opGroup rotationOther 6
  return groupCombined g0 [g1, g2]

/-- group_theory/point_group.py:62-65: the square group. -/
def createSquare : PyM (List (Mat 2 R)) := do
  let g1 ← opGroup reflection2DX 2
  let g0 ← opGroup rotation2DXY 4
  return groupCombined g0 [g1]

/-- A group of operations in three or two dimensions. -/
inductive AnyGroup (R : Type) where
  | three (ops : List (Mat 3 R))
  | two (ops : List (Mat 2 R))

/-- group_theory/point_group.py:55-67 `Group.create`. -/
def create (name : String) : PyM (AnyGroup R) :=
  if name == "cubic" || name == "3d" then do
    let g ← createCubic
    return .three g
  else if name == "square" || name == "2d" then do
    let g ← createSquare
    return .two g
  else .error .keyError

/-- group_theory/point_group.py:92-93 `Group.__len__`: there is no attribute `opts`. -/
def groupLen (_ops : List (Mat n R)) : PyM Nat := .error .attributeError

end Pyhipp.PointGroup
