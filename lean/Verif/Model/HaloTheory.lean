import Verif.Model.LambdaCDM
import Verif.Model.NFW
import Verif.Model.Repr
/-
Model of src/pyhipp/astro/cosmology/halo_theory.py:74-241 `HaloTheory`: the mass function and the tabulated functions (the virial quantities are in
Model/Cosmology.lean, the NFW profile in Model/NFW.lean).

The package `hmf` (assumed to be installed) is a function of the keyword dictionary.  Masses, redshifts and table entries are scalars / lists of real
numbers.
-/
namespace Pyhipp.LCDM
open Pyhipp Pyhipp.Cosmology

/-! ### Mass function -/

/-- A keyword value for `hmf.MassFunction`: a text, a number, a dictionary of numbers, anything else. -/
inductive HV (X : Type)
  | text (s : Str)
  | num (q : ℝ)
  | dict (es : List (Str × ℝ))
  | other (x : X)

/-- halo_theory.py:33-40 `HaloMassFunction`. -/
structure HMF where
  lgM : List ℝ
  dn : List ℝ

/-- What is read from the data file (halo_theory.py:201-209). -/
structure Tables where
  z : List ℝ
  lgDeltaC : List ℝ
  lgM : List ℝ
  lgSigma : List ℝ
  dSigma : List ℝ

/-- halo_theory.py:82-87: a HaloTheory object; `cached` is the value stored by `cached_property`. -/
structure Halo (Y : Type) where
  dataFile : Str
  model : Model Y
  cached : Option Tables

variable {X Y : Type}

/-- halo_theory.py:82-87 `__init__`. -/
def Halo.new (dataFile : Str) (model : Model Y) : Halo Y := ⟨dataFile, model, none⟩

/-- model.py:177-179 `LambdaCDM.halo_theory`: `self.data_dir/'data.hdf5'`. -/
def Model.haloTheory (m : Model Y) : Halo Y := Halo.new (joinPath m.dataDir "data.hdf5".toList) m

/-- halo_theory.py:183-188: the entries that are always set. -/
noncomputable def massArgs (lgMin lgMax dlg z : ℝ) : PyDict Str (HV X) :=
  [("Mmin".toList, .num (lgMin + 10.0)), ("Mmax".toList, .num (lgMax + 10.0 + dlg * 0.001)), ("dlog10m".toList, .num dlg), ("z".toList, .num z)]

/-- halo_theory.py:168-177: the entries of a spherical overdensity definition. -/
def overdensity (name : Str) : PyDict Str (HV X) :=
  [("mdef_model".toList, .text name), ("mdef_params".toList, .dict [("overdensity".toList, 200)])]

/-- halo_theory.py:189-192: `MassFunction(**impl_kw)`, its `m` and `dndlog10m`. -/
noncomputable def runHmf (hmf : PyDict Str (HV X) → PyM (List ℝ × List ℝ)) (kw : PyDict Str (HV X)) : PyM HMF :=
  match hmf kw with
  | .ok (m, dn) => .ok ⟨m.map (fun x => Real.logb 10 x - 10), dn⟩
  | .error e => .error e

/-- halo_theory.py:162-192 `mass_function`; the second component is the dictionary object passed as `impl_kw`, after the call (`|` makes a new
dictionary, `|=` changes the object). -/
noncomputable def Halo.massFunction (hmf : PyDict Str (HV X) → PyM (List ℝ × List ℝ)) (_self : Halo Y) (lgMin lgMax dlg z : ℝ) (massDef : Str)
    (kw : PyDict Str (HV X)) : PyM HMF × PyDict Str (HV X) :=
  if massDef = "200crit".toList then
    (runHmf hmf (PyDict.update (PyDict.update (overdensity "SOCritical".toList) kw) (massArgs lgMin lgMax dlg z)), kw)
  else if massDef = "200mean".toList then
    (runHmf hmf (PyDict.update (PyDict.update (overdensity "SOMean".toList) kw) (massArgs lgMin lgMax dlg z)), kw)
  else if massDef = "custom".toList then
    let kw := PyDict.update kw (massArgs lgMin lgMax dlg z)
    (runHmf hmf kw, kw)
  else (.error .valueError, kw)

/-- A call: which dictionary object is passed (0 is the default value of the parameter, one object for all calls), and the other arguments. -/
structure MassCall where
  ref : Nat
  lgMin : ℝ
  lgMax : ℝ
  dlg : ℝ
  z : ℝ
  massDef : Str

/-- The dictionary objects after a call. -/
noncomputable def massStep (hmf : PyDict Str (HV X) → PyM (List ℝ × List ℝ)) (T : Halo Y) (D : Nat → PyDict Str (HV X)) (c : MassCall) :
    Nat → PyDict Str (HV X) :=
  fun r => if r = c.ref then (T.massFunction hmf c.lgMin c.lgMax c.dlg c.z c.massDef (D c.ref)).2 else D r

/-! ### Tables -/

/-- An open data file: groups of one-dimensional datasets. -/
abbrev DataFile := PyDict Str (PyDict Str (List ℝ))

/-- `f[g]`, `g[d][()]` -/
def itemOf {B : Type} (d : PyDict Str B) (k : Str) : PyM B := match PyDict.get? d k with
  | some v => .ok v
  | none => .error .keyError

/-- halo_theory.py:201-209. -/
def readTables (file : Option DataFile) : PyM Tables := match file with
  | none => .error .fileNotFoundError
  | some f => do
      let g ← itemOf f "LgDeltaC".toList
      let z ← itemOf g "z".toList
      let dc ← itemOf g "lg_delta_c".toList
      let g ← itemOf f "LgSigma".toList
      let lm ← itemOf g "lg_m".toList
      let ls ← itemOf g "lg_sigma".toList
      let ds ← itemOf g "dlg_sigma_dlg_m".toList
      return ⟨z, dc, lm, ls, ds⟩

open Classical in
/-- `interp1d(x, y, kind='slinear')`: equal lengths, at least two points, no point twice (ValueError otherwise). -/
noncomputable def checkInterp (x y : List ℝ) : PyM Unit :=
  if x.length = y.length ∧ 2 ≤ x.length ∧ x.Nodup then .ok () else .error .valueError

/-- halo_theory.py:194-226: the body of the cached property `__interp`. -/
noncomputable def loadTables (file : Option DataFile) : PyM Tables := do
  let t ← readTables file
  checkInterp t.lgM t.lgSigma
  checkInterp t.lgM t.dSigma
  checkInterp t.z t.lgDeltaC
  return t

/-- The cached property `__interp`; `fs` is what the files hold now. -/
noncomputable def Halo.interp (fs : Str → Option DataFile) (T : Halo Y) : PyM Tables × Halo Y := match T.cached with
  | some t => (.ok t, T)
  | none => match loadTables (fs T.dataFile) with
      | .ok t => (.ok t, { T with cached := some t })
      | .error e => (.error e, T)

/-- The tabulated functions. -/
inductive Tab
  | lgSigma | dSigma | lgDeltaC

/-- The abscissae and the ordinates of a tabulated function (halo_theory.py:212-214). -/
def Tables.xy (t : Tables) : Tab → List ℝ × List ℝ
  | .lgSigma => (t.lgM, t.lgSigma)
  | .dSigma => (t.lgM, t.dSigma)
  | .lgDeltaC => (t.z, t.lgDeltaC)

/-- halo_theory.py:143-156 `lg_sigma`, `dlg_sigma_dlg_m`, `lg_delta_c`. -/
noncomputable def Halo.eval (fs : Str → Option DataFile) (T : Halo Y) (q : Tab) (v : ℝ) : PyM ℝ × Halo Y := match T.interp fs with
  | (.ok t, T) => (interp1d (t.xy q).1 (t.xy q).2 v, T)
  | (.error e, T) => (.error e, T)

/-- `np.diff(x)` -/
def diffs (x : List ℝ) : List ℝ := List.zipWith (fun a b => b - a) x x.tail

/-- halo_theory.py:221-225 `__find_quantity_info`: range and mean step. -/
noncomputable def quantityInfo (x : List ℝ) : PyM (ℝ × ℝ × ℝ) := do
  let a ← pyGet x 0
  let b ← pyGet x (-1)
  return (a, b, (diffs x).sum / (diffs x).length)

/-- A leaf of the representation: a number or an interpolator object. -/
inductive TV
  | num (q : ℝ)
  | func

/-- The representation of one quantity. -/
noncomputable def infoVal (i : ℝ × ℝ × ℝ) : Repr.Val TV :=
  .dict [("range".toList, .tuple [.leaf (.num i.1), .leaf (.num i.2.1)]), ("step".toList, .leaf (.num i.2.2))]

/-- halo_theory.py:89-93 `to_simple_repr` with 216-226. -/
noncomputable def Halo.simpleRepr (fs : Str → Option DataFile) (T : Halo Y) : PyM (Repr.Val TV) × Halo Y := match T.interp fs with
  | (.error e, T) => (.error e, T)
  | (.ok t, T) => (do
      let z ← quantityInfo t.z
      let dc ← quantityInfo t.lgDeltaC
      let lm ← quantityInfo t.lgM
      let ls ← quantityInfo t.lgSigma
      let ds ← quantityInfo t.dSigma
      return .dict [("data_file".toList, .str T.dataFile), ("__interp".toList, .dict
        [("z".toList, infoVal z), ("lg_delta_c".toList, infoVal dc), ("lg_m".toList, infoVal lm), ("lg_sigma".toList, infoVal ls),
          ("dlg_sigma_dlg_m".toList, infoVal ds), ("f_lg_sigma_at_lg_m".toList, .leaf .func), ("f_dlg_sigma_dlg_m_at_lg_m".toList, .leaf .func),
          ("f_lg_delta_c_at_z".toList, .leaf .func)])], T)

/-- Which leaves json accepts. -/
def TV.jsonOk : TV → Bool
  | .num _ => true
  | .func => false

end Pyhipp.LCDM
