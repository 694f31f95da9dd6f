import Verif.Model.Field
import Mathlib.Analysis.SpecialFunctions.Trigonometric.Basic
import Mathlib.Analysis.SpecialFunctions.Complex.Circle
/-
Model of src/pyhipp/field/cubic_box/{fft,smoothing,gravity}.py over the real numbers (exact
arithmetic; floating-point rounding is not modelled).  `scipy.fft.rfftn` / `irfftn` are written out
as the finite sums they are documented to compute.
-/
namespace Pyhipp.CubicBox
open Pyhipp

/-- A 3-d numpy array: its shape and its entries (entries outside the shape are never read). -/
structure Arr3 (β : Type) where
  n0 : Nat
  n1 : Nat
  n2 : Nat
  get : Nat → Nat → Nat → β

/-- `exp(i t)` -/
noncomputable def cis (t : ℝ) : ℂ := Complex.exp ((t : ℂ) * Complex.I)

/-- field/cubic_box/fft.py:34-36 `NdRealFFT.forward` = `scipy.fft.rfftn(x, norm='ortho')` of a real
3-d array. -/
noncomputable def rfftn (x : Arr3 ℝ) : Arr3 ℂ where
  n0 := x.n0
  n1 := x.n1
  n2 := x.n2 / 2 + 1
  get := fun k0 k1 k2 => ((1 / Real.sqrt ((x.n0 * x.n1 * x.n2 : Nat) : ℝ) : ℝ) : ℂ) *
    ∑ m0 ∈ Finset.range x.n0, ∑ m1 ∈ Finset.range x.n1, ∑ m2 ∈ Finset.range x.n2,
      (x.get m0 m1 m2 : ℂ) * cis (-(2 * Real.pi *
        ((k0 * m0 : ℝ) / x.n0 + (k1 * m1 : ℝ) / x.n1 + (k2 * m2 : ℝ) / x.n2)))

/-- field/cubic_box/fft.py:38-40 `NdRealFFT.backward` = `scipy.fft.irfftn(X, norm='ortho')` without a
shape: the last axis of the result has `2 * (X.shape[2] - 1)` points, and a result without points is a
ValueError.  The complex-to-real step along the last axis counts the modes strictly between 0 and the
last one twice (their mirror images are not stored) and keeps the real part only. -/
noncomputable def irfftn (X : Arr3 ℂ) : PyM (Arr3 ℝ) :=
  let M := 2 * (X.n2 - 1)
  if M < 1 then .error .valueError
  else .ok {
    n0 := X.n0
    n1 := X.n1
    n2 := M
    get := fun m0 m1 m2 => 1 / Real.sqrt ((X.n0 * X.n1 * M : Nat) : ℝ) *
      ∑ k2 ∈ Finset.range X.n2, (if k2 = 0 ∨ k2 + 1 = X.n2 then 1 else 2) *
        ((∑ k0 ∈ Finset.range X.n0, ∑ k1 ∈ Finset.range X.n1,
          X.get k0 k1 k2 * cis (2 * Real.pi * ((k0 * m0 : ℝ) / X.n0 + (k1 * m1 : ℝ) / X.n1)))
          * cis (2 * Real.pi * ((k2 * m2 : ℝ) / M))).re }

/-- The wave number of index `i` on the first two axes: field/cubic_box/smoothing.py:119,121 (and
202,204, gravity.py:147,149,180,182): `i - N if i > N // 2 else i`. -/
def waveNumber (N i : Nat) : Int := if i > N / 2 then (i : Int) - N else i

/-- field/cubic_box/smoothing.py:22-41 `_Gaussian.window_at_ki` (with 28 `scale`). -/
noncomputable def gaussianWindow (r lBox k0 k1 k2 : ℝ) : ℝ :=
  Real.exp (-(1 / 2) * (2 * Real.pi * r / lBox) ^ 2 * (k0 * k0 + k1 * k1 + k2 * k2))

/-- field/cubic_box/smoothing.py:54-75 `_Tophat.window_at_ki` (with 60 `scale`). -/
noncomputable def tophatWindow (r lBox k0 k1 k2 : ℝ) : ℝ :=
  let kr := Real.sqrt (k0 * k0 + k1 * k1 + k2 * k2) * (2 * Real.pi * r / lBox)
  if kr < 1 / 10 ^ 6 then 1 else 3 * (Real.sin kr - kr * Real.cos kr) / kr ^ 3

/-- field/cubic_box/mass_assignment.py:31-39 `_LinearShapeFn.shape_at_ki`. -/
noncomputable def shapeAtKi (N : Nat) (k : ℝ) : ℝ :=
  if |k| < 1 / 10 ^ 6 then 1
  else (Real.sin (Real.pi * k / N) / (Real.pi * k / N)) * (Real.sin (Real.pi * k / N) / (Real.pi * k / N))

/-- field/cubic_box/mass_assignment.py:41-45 `shape_at_ki_nd`. -/
noncomputable def shapeAtKiNd (N : Nat) (k0 k1 k2 : ℝ) : ℝ :=
  1 * shapeAtKi N k0 * shapeAtKi N k1 * shapeAtKi N k2

/-- field/cubic_box/smoothing.py:94-100, 162-167: the window chosen by name. -/
noncomputable def windowOf (method : String) (r lBox : ℝ) : PyM (ℝ → ℝ → ℝ → ℝ) :=
  if method = "gaussian" then .ok (gaussianWindow r lBox)
  else if method = "tophat" then .ok (tophatWindow r lBox)
  else .error .valueError

/-- The triple loop of field/cubic_box/smoothing.py:107-126, 188-217 and gravity.py:131-164, 166-187:
every mode is multiplied by a real factor depending on its wave vector. -/
noncomputable def mulModes (N : Nat) (w : ℝ → ℝ → ℝ → ℝ) (X : Arr3 ℂ) : PyM (Arr3 ℂ) := do
  pyAssert (X.n0 == N && X.n1 == N && X.n2 == N / 2 + 1)
  return { n0 := X.n0, n1 := X.n1, n2 := X.n2, get := fun i0 i1 i2 => X.get i0 i1 i2 *
     ((w (waveNumber N i0) (waveNumber N i1) (i2 : ℝ) : ℝ) : ℂ) }

/-- A Field: its data and mesh. -/
structure FieldR where
  data : Arr3 ℝ
  mesh : Mesh ℝ

/-- field/cubic_box/field.py:16-34, 63-66 `Field.new_by_data`. -/
def fieldNew (data : Arr3 ℝ) (mesh : Mesh ℝ) : PyM FieldR := do
  pyAssert (data.n0 == data.n1 && data.n1 == data.n2)
  pyAssert (mesh.nGrids == data.n0)
  return { data := data, mesh := mesh }

/-- field/cubic_box/smoothing.py:91-105 `FFTSmoothing.run`. -/
noncomputable def fftSmoothing (method : String) (r : ℝ) (f : FieldR) : PyM FieldR := do
  let w ← windowOf method r f.mesh.lBox
  let dk ← mulModes f.mesh.nGrids w (rfftn f.data)
  let d ← irfftn dk
  fieldNew d f.mesh

/-- `x.mean()` of a 3-d array. -/
noncomputable def Arr3.mean (x : Arr3 ℝ) : ℝ :=
  (∑ m0 ∈ Finset.range x.n0, ∑ m1 ∈ Finset.range x.n1, ∑ m2 ∈ Finset.range x.n2, x.get m0 m1 m2)
    / ((x.n0 * x.n1 * x.n2 : Nat) : ℝ)

/-- field/cubic_box/smoothing.py:180-186 and gravity.py:121-129 `_normalize`. -/
noncomputable def normalize (rho : Arr3 ℝ) : PyM (Arr3 ℝ) :=
  if rho.mean < 1 / 10 ^ 10 then .error .valueError
  else .ok { n0 := rho.n0, n1 := rho.n1, n2 := rho.n2, get := fun i j k => rho.get i j k / rho.mean - 1 }

/-- The result record of `FourierSpaceSmoothing.run` (131-139). -/
structure SmoothResult where
  lBox : ℝ
  nGrids : Nat
  rhoX : Arr3 ℝ
  deltaX : Arr3 ℝ
  deltaK : Arr3 ℂ
  deltaSmK : Arr3 ℂ
  deltaSmX : Arr3 ℝ

/-- field/cubic_box/smoothing.py:152-176 `FourierSpaceSmoothing.run` (with 188-217 `_smooth`). -/
noncomputable def fourierSmoothing (method : String) (r : ℝ) (f : FieldR) : PyM SmoothResult := do
  let w ← windowOf method r f.mesh.lBox
  let N := f.mesh.nGrids
  let deltaX ← normalize f.data
  let deltaK := rfftn deltaX
  let deltaSmK ← mulModes N (fun k0 k1 k2 => 1 / shapeAtKiNd N k0 k1 k2 * w k0 k1 k2) deltaK
  let deltaSmX ← irfftn deltaSmK
  return { lBox := f.mesh.lBox, nGrids := N, rhoX := f.data, deltaX := deltaX, deltaK := deltaK,
           deltaSmK := deltaSmK, deltaSmX := deltaSmX }

/-- field/cubic_box/gravity.py:25-29 `_GreenFn3d.at_ki`. -/
noncomputable def green (k0 k1 k2 : ℝ) : ℝ :=
  if k0 * k0 + k1 * k1 + k2 * k2 < 1 / 10 ^ 6 then 0 else -1 / (k0 * k0 + k1 * k1 + k2 * k2)

/-- `ki[axis]` -/
def comp (k0 k1 k2 : ℝ) (axis : Fin 3) : ℝ := if axis = 0 then k0 else if axis = 1 then k1 else k2

/-- field/cubic_box/gravity.py:38-44 `_TidalTensor.at_ki`, the factor of `phi`. -/
def tidalFactor (a b : Fin 3) (k0 k1 k2 : ℝ) : ℝ := -comp k0 k1 k2 a * comp k0 k1 k2 b

/-- The result record of `TidalField.run` (gravity.py:49-74). -/
structure TidalResult where
  lBox : ℝ
  nGrids : Nat
  rhoX : Arr3 ℝ
  deltaX : Arr3 ℝ
  deltaK : Arr3 ℂ
  deltaSmK : Arr3 ℂ
  deltaSmX : Arr3 ℝ
  phiK : Arr3 ℂ
  tX : Nat → Nat → Nat → Fin 3 → Fin 3 → ℝ
  lam : Nat → Nat → Nat → ℝ × ℝ × ℝ

/-- field/cubic_box/gravity.py:108-110: one component of the tidal tensor in real space; the
assignment into the (N, N, N) slot is a ValueError when the shape differs (no axis of the source can
have length 1 then). -/
noncomputable def tidalComponent (N : Nat) (phiK : Arr3 ℂ) (a b : Fin 3) : PyM (Arr3 ℝ) := do
  let tk ← mulModes N (tidalFactor a b) phiK
  let tx ← irfftn tk
  if tx.n0 = N ∧ tx.n1 = N ∧ tx.n2 = N then return tx else throw .valueError

/-- field/cubic_box/gravity.py:86-119 `TidalField.run`; `corr` is `correct_shape == 'cic'`, `eig` is
`np.linalg.eigvalsh` of one 3 x 3 matrix.  The six components with `j <= i` are computed and mirrored. -/
noncomputable def tidalField (eig : (Fin 3 → Fin 3 → ℝ) → ℝ × ℝ × ℝ) (r : ℝ) (corr : Bool) (f : FieldR) :
    PyM TidalResult := do
  let N := f.mesh.nGrids
  let deltaX ← normalize f.data
  let deltaK := rfftn deltaX
  let deltaSmK ← mulModes N (fun k0 k1 k2 => 1 / (if corr then shapeAtKiNd N k0 k1 k2 else 1) *
    gaussianWindow r f.mesh.lBox k0 k1 k2) deltaK
  let phiK ← mulModes N green deltaSmK
  let deltaSmX ← irfftn deltaSmK
  let t00 ← tidalComponent N phiK 0 0
  let t10 ← tidalComponent N phiK 1 0
  let t11 ← tidalComponent N phiK 1 1
  let t20 ← tidalComponent N phiK 2 0
  let t21 ← tidalComponent N phiK 2 1
  let t22 ← tidalComponent N phiK 2 2
  let tX : Nat → Nat → Nat → Fin 3 → Fin 3 → ℝ := fun i j k a b =>
    if a = 0 ∧ b = 0 then t00.get i j k
    else if a = 1 ∧ b = 1 then t11.get i j k
    else if a = 2 ∧ b = 2 then t22.get i j k
    else if (a = 1 ∧ b = 0) ∨ (a = 0 ∧ b = 1) then t10.get i j k
    else if (a = 2 ∧ b = 0) ∨ (a = 0 ∧ b = 2) then t20.get i j k
    else t21.get i j k
  return { lBox := f.mesh.lBox, nGrids := N, rhoX := f.data, deltaX := deltaX, deltaK := deltaK,
           deltaSmK := deltaSmK, deltaSmX := deltaSmX, phiK := phiK, tX := tX,
           lam := fun i j k => eig (tX i j k) }

/-- field/cubic_box/gravity.py:76-84 `TidalField.__init__`: only False and 'cic' are accepted. -/
def tidalInit (correctShape : Option String) : PyM Bool :=
  match correctShape with
  | none => .ok false
  | some s => if s = "cic" then .ok true else .error .assertionError

end Pyhipp.CubicBox
