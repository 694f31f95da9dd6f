import Verif.Model.Field
import Mathlib.Analysis.SpecialFunctions.Pow.Real
/-
Model of src/pyhipp/field/neighbor/{kd_mesh,kd_tree}.py (exact arithmetic).
-/
namespace Pyhipp.Neighbor
open Pyhipp Pyhipp.CubicBox

section
variable {α : Type} [Field α] [LinearOrder α] [FloorRing α]

/-- field/neighbor/kd_mesh.py:18-32 `_PE3Mesh` with `x2xi_1` (34-35 `x2xi_3` is the same per axis). -/
def x2xi1 (m : Mesh α) (x : α) : Int := ⌊x / m.lGrid⌋

/-- field/neighbor/kd_mesh.py:37-40 `x2xi_f`. -/
def x2xif (m : Mesh α) (x : Vec3 α) : Int :=
  let n : Int := m.nGrids
  let xi0 := x2xi1 m x.1 % n
  let xi1 := x2xi1 m x.2.1 % n
  let xi2 := x2xi1 m x.2.2 % n
  (xi0 * n + xi1) * n + xi2

/-- field/neighbor/kd_mesh.py:112-115: the inner loop. -/
def scan (xi : List Int) (i : Int) (e : Nat) : Nat :=
  if h : e < xi.length then
    if xi[e] > i then e else scan xi i (e + 1)
  else e
termination_by xi.length - e

/-- field/neighbor/kd_mesh.py:108-117: the table of cell starts for `nTot` cells, as the list of the
entries 1, 2, ... following the initial 0; `b` is the running position. -/
def firstsFrom (xi : List Int) : List Nat → Nat → List Nat
  | [], _ => []
  | i :: rest, b =>
      let e := scan xi (i : Int) b
      e :: firstsFrom xi rest e

/-- field/neighbor/kd_mesh.py:51-62 `_PE3`. -/
structure PE3 (α : Type) where
  mesh : Mesh α
  xs : List (Vec3 α)
  cellFirsts : List Nat

/-- field/neighbor/kd_mesh.py:42-47, 101-118 `_PE3_from_meshing_points`; `asort` is `np.argsort`. -/
def build (asort : List Int → List Nat) (m : Mesh α) (xs : List (Vec3 α)) : PE3 α :=
  let xif := xs.map (x2xif m)
  let args := asort xif
  let xif' := args.map (fun a => xif.getD a 0)
  let xs' := args.map (fun a => xs.getD a (0, 0, 0))
  { mesh := m, xs := xs', cellFirsts := 0 :: firstsFrom xif' (List.range (m.nGrids ^ 3)) 0 }

/-- `range(lb, ub)` -/
def pyRange (lb ub : Int) : List Int := (List.range (ub - lb).toNat).map (fun k => lb + (k : Nat))

/-- `xs[b:e]` for `0 <= b`, `0 <= e`. -/
def slice {β : Type} (xs : List β) (b e : Nat) : List β := (xs.take e).drop b

/-- field/neighbor/kd_mesh.py:96-98: the points handed over for one cell. -/
def cellPoints (t : PE3 α) (f : Int) : List (Vec3 α) :=
  slice t.xs (t.cellFirsts.getD f.toNat 0) (t.cellFirsts.getD (f.toNat + 1) 0)

/-- field/neighbor/kd_mesh.py:83-98 `__query_points_1`: the arrays passed to `q.on(i_dst, .)`. -/
def query1 (t : PE3 α) (x : Vec3 α) (r : α) : List (List (Vec3 α)) :=
  let n : Int := t.mesh.nGrids
  (pyRange (x2xi1 t.mesh (x.1 - r)) (x2xi1 t.mesh (x.1 + r) + 1)).flatMap (fun i0 =>
    (pyRange (x2xi1 t.mesh (x.2.1 - r)) (x2xi1 t.mesh (x.2.1 + r) + 1)).flatMap (fun i1 =>
      (pyRange (x2xi1 t.mesh (x.2.2 - r)) (x2xi1 t.mesh (x.2.2 + r) + 1)).map (fun i2 =>
        cellPoints t ((i0 % n * n + i1 % n) * n + i2 % n))))

/-- field/neighbor/kd_mesh.py:64-81 `query_points`: the sequence of calls `q.on(i, x_ngbs)`. -/
def queryPoints (asort : List Int → List Nat) (t : PE3 α) (qs : List (Vec3 α)) (rs : List α) :
    List (Nat × List (Vec3 α)) :=
  (asort (qs.map (x2xif t.mesh))).flatMap (fun i =>
    (query1 t (qs.getD i (0, 0, 0)) (rs.getD i 0)).map (fun c => (i, c)))

end

/-- field/neighbor/kd_tree.py:18-28 `PE.__init__`: the KD-tree with a periodic box rejects data outside
`[0, l_box)`. -/
noncomputable def peNew (xs : List (List ℝ)) (l : ℝ) : PyM (List (List ℝ)) :=
  if xs.all (fun x => x.all (fun a => decide (0 ≤ a) && decide (a < l))) then .ok xs else .error .valueError

/-- field/neighbor/kd_tree.py:47-51: one component of the difference, wrapped. -/
noncomputable def wrap (l dx : ℝ) : ℝ :=
  let lHalf := 1 / 2 * l
  let dx := if dx > lHalf then dx - l else dx
  if dx < -lHalf then dx + l else dx

/-- field/neighbor/kd_tree.py:46-52 `__d` for one pair of points. -/
noncomputable def peDist (l : ℝ) (x1 x2 : List ℝ) : ℝ :=
  Real.sqrt ((List.zipWith (fun a b => wrap l (b - a)) x1 x2).map (fun d => d ^ 2)).sum

/-- field/neighbor/kd_tree.py:30-44 `query_r_1` with `return_d=True`; `ball` is the index list returned by
scipy's `query_ball_point`. -/
noncomputable def queryR1 (data : List (List ℝ)) (l : ℝ) (ball : List ℝ → ℝ → List Nat) (x : List ℝ) (r : ℝ) :
    PyM (List Nat × List ℝ) := do
  pyAssert (x.all (fun a => decide (0 ≤ a)) && x.all (fun a => decide (a < l)))
  let ids := ball x r
  return (ids, ids.map (fun i => peDist l x (data.getD i [])))

end Pyhipp.Neighbor
