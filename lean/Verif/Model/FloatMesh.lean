import Verif.Base.Float64
import Verif.Base.Py
import Verif.Model.Neighbor
/-
field/cubic_box/mesh.py, field/neighbor/kd_mesh.py and the cloud-in-cell weights of field/cubic_box/mass_assignment.py in double precision,
rounding included (Model/Field.lean and Model/Neighbor.lean have the same code over exact numbers).  `bad` is what the machine gives for the
conversion to int64 of NaN, infinities and values out of range.
-/
namespace Pyhipp.FloatMesh
open Pyhipp F64
open Pyhipp.Neighbor (scan firstsFrom pyRange slice)

/-- field/cubic_box/mesh.py:7-21 `_Mesh`, field/neighbor/kd_mesh.py:18-29 `_PE3Mesh`. -/
structure Mesh where
  lBox : Num
  lGrid : Num
  n : Nat

/-- field/cubic_box/mesh.py:14-21, field/neighbor/kd_mesh.py:23-29 (for a positive number of cells). -/
def Mesh.new (l : Num) (n : Nat) : Mesh := { lBox := l, lGrid := Num.div l (ofQ n), n := n }

/-- field/cubic_box/mesh.py:35-45 `x_to_xi`, `x_to_xi_nd` (one element). -/
def xToXi (bad : Num → ℤ) (m : Mesh) (x : Num) : ℤ :=
  Num.toInt64 bad (Num.floor (Num.add (Num.div x m.lGrid) (.fin (1 / 2)))) % m.n

/-- field/neighbor/kd_mesh.py:31-35 `x2xi_1`, `x2xi_3` (one element). -/
def x2xi (bad : Num → ℤ) (m : Mesh) (x : Num) : ℤ := Num.toInt64 bad (Num.floor (Num.div x m.lGrid))

/-- A position in space. -/
abbrev Point := Num × Num × Num

/-- field/neighbor/kd_mesh.py:37-40 `x2xi_f` (without overflow of n³ beyond int64). -/
def x2xif (bad : Num → ℤ) (m : Mesh) (x : Point) : ℤ :=
  (x2xi bad m x.1 % m.n * m.n + x2xi bad m x.2.1 % m.n) * m.n + x2xi bad m x.2.2 % m.n

/-- Default for list access. -/
def origin : Point := (.fin 0, .fin 0, .fin 0)

/-- field/neighbor/kd_mesh.py:51-62 `_PE3`. -/
structure PE3 where
  mesh : Mesh
  xs : List Point
  cellFirsts : List Nat

/-- field/neighbor/kd_mesh.py:42-47, 101-118 `_PE3_from_meshing_points`; `asort` is `np.argsort`. -/
def build (bad : Num → ℤ) (asort : List Int → List Nat) (m : Mesh) (xs : List Point) : PE3 :=
  let xif := xs.map (x2xif bad m)
  let args := asort xif
  let xif' := args.map (fun a => xif.getD a 0)
  let xs' := args.map (fun a => xs.getD a origin)
  { mesh := m, xs := xs', cellFirsts := 0 :: firstsFrom xif' (List.range (m.n ^ 3)) 0 }

/-- field/neighbor/kd_mesh.py:96-98: the points handed over for one cell. -/
def cellPoints (t : PE3) (f : Int) : List Point :=
  slice t.xs (t.cellFirsts.getD f.toNat 0) (t.cellFirsts.getD (f.toNat + 1) 0)

/-- field/neighbor/kd_mesh.py:87-94: the window of cells along one axis. -/
def window (bad : Num → ℤ) (m : Mesh) (x r : Num) : List Int :=
  pyRange (x2xi bad m (Num.sub x r)) (x2xi bad m (Num.add x r) + 1)

/-- field/neighbor/kd_mesh.py:83-98 `__query_points_1`: the arrays passed to `q.on(i_dst, .)`. -/
def query1 (bad : Num → ℤ) (t : PE3) (x : Point) (r : Num) : List (List Point) :=
  let n : Int := t.mesh.n
  (window bad t.mesh x.1 r).flatMap (fun i0 =>
    (window bad t.mesh x.2.1 r).flatMap (fun i1 =>
      (window bad t.mesh x.2.2 r).map (fun i2 => cellPoints t ((i0 % n * n + i1 % n) * n + i2 % n))))

/-- field/neighbor/kd_mesh.py:64-81 `query_points`: the sequence of calls `q.on(i, x_ngbs)`. -/
def queryPoints (bad : Num → ℤ) (asort : List Int → List Nat) (t : PE3) (qs : List Point) (rs : List Num) : List (Nat × List Point) :=
  (asort (qs.map (x2xif bad t.mesh))).flatMap (fun i =>
    (query1 bad t (qs.getD i origin) (rs.getD i (.fin 0))).map (fun c => (i, c)))

/-- field/cubic_box/mass_assignment.py:51-64 `weights_at`: (i_l, i_r, w_l, w_r). -/
def weightsAt (bad : Num → ℤ) (m : Mesh) (x : Num) : ℤ × ℤ × Num × Num :=
  let x := Num.div x m.lGrid
  let xl := Num.floor x
  let wl := Num.sub (.fin 1) (Num.sub x xl)
  let wr := Num.sub (.fin 1) wl
  let il := Num.toInt64 bad xl
  let ir := il + 1
  (il % m.n, ir % m.n, wl, wr)

/-- field/cubic_box/mass_assignment.py:96-103: the eight products of weights that `add_1` deposits for a point, with their cells. -/
def deposits (bad : Num → ℤ) (m : Mesh) (x : Point) (weight : Num) : List ((ℤ × ℤ × ℤ) × Num) :=
  let a := weightsAt bad m x.1
  let b := weightsAt bad m x.2.1
  let c := weightsAt bad m x.2.2
  let w (p q r : Num) : Num := Num.mul (Num.mul (Num.mul p q) r) weight
  [((a.1, b.1, c.1), w a.2.2.1 b.2.2.1 c.2.2.1),
   ((a.1, b.1, c.2.1), w a.2.2.1 b.2.2.1 c.2.2.2),
   ((a.1, b.2.1, c.1), w a.2.2.1 b.2.2.2 c.2.2.1),
   ((a.1, b.2.1, c.2.1), w a.2.2.1 b.2.2.2 c.2.2.2),
   ((a.2.1, b.1, c.1), w a.2.2.2 b.2.2.1 c.2.2.1),
   ((a.2.1, b.1, c.2.1), w a.2.2.2 b.2.2.1 c.2.2.2),
   ((a.2.1, b.2.1, c.1), w a.2.2.2 b.2.2.2 c.2.2.1),
   ((a.2.1, b.2.1, c.2.1), w a.2.2.2 b.2.2.2 c.2.2.2)]

/-- The data array of a density field; only cells of the mesh are used. -/
abbrev Data := ℤ × ℤ × ℤ → Num

/-- `d[c] += v` -/
def addTo (d : Data) (cv : (ℤ × ℤ × ℤ) × Num) : Data := fun c => if c = cv.1 then Num.add (d c) cv.2 else d c

/-- field/cubic_box/mass_assignment.py:88-106 `add_1`. -/
def add1 (bad : Num → ℤ) (m : Mesh) (d : Data) (x : Point) (weight : Num) : Data := (deposits bad m x weight).foldl addTo d

/-- field/cubic_box/mass_assignment.py:108-117 `add` with weights (without weights every weight is 1.0). -/
def add (bad : Num → ℤ) (m : Mesh) (d : Data) (xs : List Point) (weights : Option (List Num)) : Data :=
  match weights with
  | some ws => (xs.zip ws).foldl (fun d p => add1 bad m d p.1 p.2) d
  | none => xs.foldl (fun d x => add1 bad m d x (.fin 1)) d

end Pyhipp.FloatMesh
