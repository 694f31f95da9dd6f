import Verif.Model.Stats
import Verif.Model.Grid
import Mathlib.Analysis.SpecialFunctions.Pow.Real
/-
stats/random.py: the arrays returned by `Rng` and by the jitted `_Rng`, and the numbers they draw.
-/
namespace Pyhipp.RngArrays
open Pyhipp Stats

/-- The calls of a numpy Generator made by these methods; `size = None` gives one number, here an array of shape (). -/
inductive GenOp where
  | random (size : Option (List Nat))
  | uniform (low high : ℝ) (size : Option (List Nat))
  | standardNormal (size : Option (List Nat))
  | normal (loc scale : ℝ) (size : Option (List Nat))

abbrev Arr := Grid.NDArr ℝ
abbrev Gen (σ : Type) := NpGen σ GenOp Arr

variable {σ : Type}

/-- A ufunc on an array. -/
def amap (f : ℝ → ℝ) (a : Arr) : Arr := { shape := a.shape, data := a.data.map f }

/-- A binary ufunc on arrays of one shape. -/
def amap2 (f : ℝ → ℝ → ℝ) (a b : Arr) : Arr := { shape := a.shape, data := List.zipWith f a.data b.data }

/-- `np.stack(arrs, axis=-1)`, the arrays having the shape of the first. -/
noncomputable def stackLast (arrs : List Arr) : Arr :=
  let shape := (arrs.head?.map (fun a => a.shape)).getD []
  { shape := shape ++ [arrs.length],
    data := (List.range shape.prod).flatMap (fun i => arrs.map (fun a => a.data.getD i 0)) }

/-- A tuple of arrays, a stacked array, or (uniform_circle) one array. -/
inductive Out where
  | tuple (l : List Arr)
  | one (a : Arr)

/-- core/dataproc/frame.py:13-15 and 20-22, stats/random.py:124-127: stack if asked for. -/
noncomputable def pack (stack : Bool) (l : List Arr) : Out := if stack then .one (stackLast l) else .tuple l

/-- core/dataproc/frame.py:6-12 `Polar.unit_vec_to_cart` before stacking. -/
noncomputable def unitVecToCart (theta phi : Arr) : List Arr :=
  let cos_t := amap Real.cos theta
  let sin_t := amap Real.sin theta
  let cos_p := amap Real.cos phi
  let sin_p := amap Real.sin phi
  [amap2 (· * ·) sin_t cos_p, amap2 (· * ·) sin_t sin_p, cos_t]

/-- core/dataproc/frame.py:18-20 `Polar.unit_vec_to_cart_2d` before stacking. -/
noncomputable def unitVecToCart2d (theta : Arr) : List Arr := [amap Real.cos theta, amap Real.sin theta]

/-- stats/random.py:82-84 `Rng.random`; 22-24 `_Rng.random`. -/
def random (G : Gen σ) (size : Option (List Nat) := none) (s : σ) : Arr × σ := G.step (.random size) s

/-- stats/random.py:86-88 `Rng.uniform`; 26-28 `_Rng.uniform`. -/
def uniform (G : Gen σ) (low : ℝ := 0) (high : ℝ := 1) (size : Option (List Nat) := none) (s : σ) : Arr × σ := G.step (.uniform low high size) s

/-- stats/random.py:90-91 `Rng.standard_normal`; 30-31 `_Rng.standard_normal`. -/
def standardNormal (G : Gen σ) (size : Option (List Nat) := none) (s : σ) : Arr × σ := G.step (.standardNormal size) s

/-- stats/random.py:93-94 `Rng.normal`; 33-34 `_Rng.normal`. -/
def normal (G : Gen σ) (loc : ℝ := 0) (scale : ℝ := 1) (size : Option (List Nat) := none) (s : σ) : Arr × σ := G.step (.normal loc scale size) s

/-- stats/random.py:36-42 `_Rng.lg_normal`. -/
noncomputable def lgNormal (G : Gen σ) (loc : ℝ := 0) (scale : ℝ := 1) (size : Option (List Nat) := none) (s : σ) : Arr × σ :=
  let (lg_rv, s) := normal G loc scale size s
  (amap (fun v => (10 : ℝ) ^ v) lg_rv, s)

/-- stats/random.py:44-52 `_Rng.uniform_sphere_polar`. -/
noncomputable def jitSpherePolar (G : Gen σ) (size : Option (List Nat) := none) (s : σ) : (Arr × Arr) × σ :=
  let (cos_theta, s) := uniform G (-1) 1 size s
  let (phi, s) := uniform G 0 (2 * Real.pi) size s
  let theta := amap Real.arccos cos_theta
  ((theta, phi), s)

/-- stats/random.py:54-64 `_Rng.uniform_sphere_cart`. -/
noncomputable def jitSphereCart (G : Gen σ) (size : Option (List Nat) := none) (s : σ) : (Arr × Arr × Arr) × σ :=
  let ((theta, phi), s) := jitSpherePolar G size s
  let cos_t := amap Real.cos theta
  let sin_t := amap Real.sin theta
  let cos_p := amap Real.cos phi
  let sin_p := amap Real.sin phi
  ((amap2 (· * ·) sin_t cos_p, amap2 (· * ·) sin_t sin_p, cos_t), s)

/-- stats/random.py:113-127 `Rng.uniform_sphere`. -/
noncomputable def uniformSphere (G : Gen σ) (size : Option (List Nat) := none) (stack : Bool := true) (cartesian : Bool := true) (s : σ) : Out × σ :=
  let (cos_theta, s) := uniform G (-1) 1 size s
  let (phi, s) := uniform G 0 (2 * Real.pi) size s
  let theta := amap Real.arccos cos_theta
  (pack stack (if cartesian then unitVecToCart theta phi else [theta, phi]), s)

/-- stats/random.py:129-133 `Rng.uniform_circle`. -/
noncomputable def uniformCircle (G : Gen σ) (size : Option (List Nat) := none) (stack : Bool := true) (cartesian : Bool := true) (s : σ) : Out × σ :=
  let (theta, s) := uniform G 0 (2 * Real.pi) size s
  (if cartesian then pack stack (unitVecToCart2d theta) else .one theta, s)

/-- What numpy promises: arrays of the shape asked for, uniform numbers in their interval (the upper end included, which rounding can
produce). -/
structure Contract (G : Gen σ) : Prop where
  shape : ∀ (op : GenOp) (s : σ), (G.step op s).1.data.length = (G.step op s).1.shape.prod ∧
    (G.step op s).1.shape = (match op with | .random z => z | .uniform _ _ z => z | .standardNormal z => z | .normal _ _ z => z).getD []
  unif : ∀ lo hi z s, lo ≤ hi → ∀ v ∈ (G.step (.uniform lo hi z) s).1.data, lo ≤ v ∧ v ≤ hi

end Pyhipp.RngArrays
