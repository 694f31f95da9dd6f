import Verif.Model.Cosmology
import Verif.Model.Frame
import Verif.Base.Py
import Verif.Base.Dict
import Verif.Base.Str
import Mathlib.MeasureTheory.Integral.IntervalIntegral.Basic
/-
Model of src/pyhipp/astro/cosmology/model.py: `LambdaCDM`, its constructors, the calculators of distances, times and redshifts, `_Predefined`.

astropy's `FlatLambdaCDM` is modelled by its documented formulas: massless neutrinos with the default Neff = 3.04, radiation from the CMB
temperature, Ode0 = 1 - Om0 - Or0.  Numbers are real numbers, parameters are scalars.
-/
namespace Pyhipp.LCDM
open Pyhipp Pyhipp.Cosmology

/-! ### astropy -/

/-- astropy's SI constants and the radiation constant `a_B / c^2` (kg m^-3 K^-4). -/
structure Phys extends Astropy where
  aB : ℝ

/-- A `FlatLambdaCDM`: H0 in km/s/Mpc, Om0, Tcmb0 in K, Ob0. -/
structure FLRW where
  H0 : ℝ
  Om0 : ℝ
  Tcmb0 : ℝ
  Ob0 : ℝ

/-- `FlatLambdaCDM(H0=..., Om0=..., Tcmb0=..., Ob0=...)`: Om0 and Ob0 must not be negative, Ob0 not exceed Om0 (ValueError). -/
noncomputable def FLRW.new (H0 Om0 Tcmb0 Ob0 : ℝ) : PyM FLRW :=
  if Om0 < 0 ∨ Ob0 < 0 ∨ Om0 < Ob0 then .error .valueError else .ok ⟨H0, Om0, Tcmb0, Ob0⟩

variable (P : Phys)

/-- H0 in 1/s. -/
noncomputable def FLRW.H0si (m : FLRW) : ℝ := m.H0 * 1000 / P.mpc

/-- `critical_density0` in kg/m^3. -/
noncomputable def FLRW.crit0 (m : FLRW) : ℝ := 3 * m.H0si P ^ 2 / (8 * Real.pi * P.G)

/-- Photons and massless neutrinos today: `Ogamma0 + Onu0`, with Onu0 = 0.22710731766 * Neff * Ogamma0. -/
noncomputable def FLRW.Or0 (m : FLRW) : ℝ := P.aB * m.Tcmb0 ^ 4 / m.crit0 P * (1 + 0.22710731766 * 3.04)

/-- `Ode0` of a flat model. -/
noncomputable def FLRW.Ode0 (m : FLRW) : ℝ := 1 - m.Om0 - m.Or0 P

/-- `efunc(z)^2`. -/
noncomputable def FLRW.E2 (m : FLRW) (z : ℝ) : ℝ := m.Om0 * (1 + z) ^ 3 + m.Or0 P * (1 + z) ^ 4 + m.Ode0 P

/-- `efunc(z)`. -/
noncomputable def FLRW.E (m : FLRW) (z : ℝ) : ℝ := Real.sqrt (m.E2 P z)

/-- `H(z)` in 1/s. -/
noncomputable def FLRW.H (m : FLRW) (z : ℝ) : ℝ := m.H0si P * m.E P z

/-- `Om(z)`. -/
noncomputable def FLRW.Om (m : FLRW) (z : ℝ) : ℝ := m.Om0 * (1 + z) ^ 3 / m.E2 P z

/-- `Ob(z)`. -/
noncomputable def FLRW.Ob (m : FLRW) (z : ℝ) : ℝ := m.Ob0 * (1 + z) ^ 3 / m.E2 P z

/-- `Ode(z)`. -/
noncomputable def FLRW.Ode (m : FLRW) (z : ℝ) : ℝ := m.Ode0 P / m.E2 P z

/-- `critical_density(z)` in kg/m^3. -/
noncomputable def FLRW.crit (m : FLRW) (z : ℝ) : ℝ := m.crit0 P * m.E2 P z

/-- `comoving_distance(z)` in m. -/
noncomputable def FLRW.comoving (m : FLRW) (z : ℝ) : ℝ := P.c / m.H0si P * ∫ x in (0 : ℝ)..z, 1 / m.E P x

/-- `angular_diameter_distance(z)` in m. -/
noncomputable def FLRW.angular (m : FLRW) (z : ℝ) : ℝ := m.comoving P z / (1 + z)

/-- `luminosity_distance(z)` in m. -/
noncomputable def FLRW.luminosity (m : FLRW) (z : ℝ) : ℝ := (1 + z) * m.comoving P z

/-- `distmod(z)`: 5 lg(|d_L| / Mpc) + 25. -/
noncomputable def FLRW.distmod (m : FLRW) (z : ℝ) : ℝ := 5 * (Real.log |m.luminosity P z / P.mpc| / Real.log 10) + 25

/-- `lookback_time(z)` in s. -/
noncomputable def FLRW.lookback (m : FLRW) (z : ℝ) : ℝ := 1 / m.H0si P * ∫ x in (0 : ℝ)..z, 1 / ((1 + x) * m.E P x)

/-- `age(z)` in s. -/
noncomputable def FLRW.age (m : FLRW) (z : ℝ) : ℝ := 1 / m.H0si P * ∫ x in Set.Ioi z, 1 / ((1 + x) * m.E P x)

/-! ### LambdaCDM -/

/-- A LambdaCDM object: the current values of its parameters (name, value), in order; name, data directory, meta data; the astropy model and
the unit system made at construction. -/
structure Model (X : Type) where
  params : List (Str × ℝ)
  name : Str
  dataDir : Str
  info : Option (PyDict Str X)
  ap : FLRW
  us : UnitSys

variable {X : Type}

/-- `self.params[k].value` (param.py:25-28: the index by name, the last of equal names wins). -/
def param (ps : List (Str × ℝ)) (k : Str) : PyM ℝ :=
  match PyDict.get? ps.reverse k with
  | some v => .ok v
  | none => .error .keyError

/-- model.py:18-37 `__init__`; `dataDir` is None or a path (`Path(None)` is a TypeError). -/
noncomputable def Model.new (ps : List (Str × ℝ)) (dataDir : Option Str) (info : Option (PyDict Str X)) (name : Option Str) : PyM (Model X) :=
  match dataDir with
  | none => .error .typeError
  | some d => do
    let h ← param ps "hubble".toList
    let om ← param ps "omega_m0".toList
    let t ← param ps "t_cmb".toList
    let ob ← param ps "omega_b0".toList
    let ap ← FLRW.new (h * 100.0) om t ob
    return { params := ps, name := name.getD "LambdaCDM".toList, dataDir := d, info := info,
             ap := ap, us := UnitSys.forCosmology P.toAstropy h }

/-- model.py:58-84 `from_parameters`; `cwd` is the current directory. -/
noncomputable def fromParameters (cwd : Str) (params : PyDict Str ℝ) (name dataDir : Option Str) (info : Option (PyDict Str X)) : PyM (Model X) :=
  Model.new P params (some (match dataDir with | some d => d | none => cwd)) (some (match info with | some m => m | none => []))
    (some (match name with | some n => n | none => []))

/-- model.py:86-98 `from_astropy_model`. -/
noncomputable def fromAstropy (cwd : Str) (m : FLRW) (name dataDir : Option Str) (info : Option (PyDict Str X)) : PyM (Model X) :=
  fromParameters P cwd [("hubble".toList, m.H0 / 100), ("omega_m0".toList, m.Om0), ("omega_l0".toList, m.Ode0 P), ("omega_b0".toList, m.Ob0),
    ("t_cmb".toList, m.Tcmb0)] name dataDir info

/-! ### Configuration files -/

/-- A value in a configuration file: the parameters (an object of numbers), a text, null, anything else. -/
inductive CV (X : Type)
  | params (ps : List (Str × ℝ))
  | text (s : Str)
  | null
  | other (x : X)

/-- The argument of `from_conf_file`: a text or a `Path` (its text and its parent). -/
inductive PathArg
  | str (s : Str)
  | path (s parent : Str)

/-- `str(path)` -/
def PathArg.text : PathArg → Str
  | .str s => s
  | .path s _ => s

/-- What a file holds: a JSON object, or text that is not valid JSON (`json.load` raises a ValueError). -/
inductive File (X : Type)
  | conf (c : PyDict Str (CV X))
  | broken

/-- `conf.pop(k)` -/
def pop {B : Type} (c : PyDict Str B) (k : Str) : PyM (B × PyDict Str B) :=
  match PyDict.get? c k with
  | some v => .ok (v, PyDict.del c k)
  | none => .error .keyError

/-- `parent / d` (pathlib): an absolute `d` replaces the parent. -/
def joinPath (parent : Str) : Str → Str
  | '/' :: d => '/' :: d
  | d => parent ++ '/' :: d

/-- The value of 'name' as the `name` argument (core/abc.py:80-87): null is None, otherwise `str`. -/
def nameArg (showOther : CV X → Str) : CV X → Option Str
  | .null => none
  | .text s => some s
  | v => some (showOther v)

/-- model.py:39-56 `from_conf_file`; `showOther` is `str` of a value that is no text. -/
noncomputable def fromConfFile (showOther : CV X → Str) (fs : Str → Option (File X)) (path : PathArg) : PyM (Model (CV X)) := do
  pyAssert (decide (path.text.drop (path.text.length - 5) = ".json".toList))
  match fs path.text with
  | none => throw .fileNotFoundError
  | some .broken => throw .valueError
  | some (.conf conf) => do
      let (ps, conf) ← pop conf "parameters".toList
      match ps with
      | .params ps => do
          let (name, conf) ← pop conf "name".toList
          match path with
          | .str _ => throw .attributeError
          | .path _ parent => do
              let (dir, conf) ← pop conf "data_dir".toList
              match dir with
              | .text d => Model.new P ps (some (joinPath parent d)) (some conf) (nameArg showOther name)
              | _ => throw .typeError
      | _ => throw .attributeError

/-! ### Derived quantities -/

/-- model.py:113-115, 121-123, 128-130, 135-137, 142-152: the parameter properties. -/
def Model.get (m : Model X) (k : Str) : PyM ℝ := param m.params k

/-- model.py:109-111 `baryon_fraction0`. -/
noncomputable def Model.baryonFraction0 (m : Model X) : PyM ℝ := do
  let b ← m.get "omega_b0".toList
  let o ← m.get "omega_m0".toList
  return b / o

/-- model.py:117-119 `big_hubble`. -/
noncomputable def Model.bigHubble (m : Model X) (z : ℝ) : ℝ := m.ap.H P z / m.us.u_big_hubble

/-- model.py:124-126 `omega_m`. -/
noncomputable def Model.omegaM (m : Model X) (z : ℝ) : ℝ := m.ap.Om P z

/-- model.py:131-133 `omega_l`. -/
noncomputable def Model.omegaL (m : Model X) (z : ℝ) : ℝ := m.ap.Ode P z

/-- model.py:138-140 `omega_b`. -/
noncomputable def Model.omegaB (m : Model X) (z : ℝ) : ℝ := m.ap.Ob P z

/-- model.py:154-159 `rho_crit`. -/
noncomputable def Model.rhoCrit (m : Model X) (z : ℝ) : ℝ := m.ap.crit P z / m.us.u_density

/-- model.py:161-168 `rho_matter`. -/
noncomputable def Model.rhoMatter (m : Model X) (z : ℝ) : ℝ := m.rhoCrit P z * m.omegaM P z

/-- model.py:170-175 `age`. -/
noncomputable def Model.age (m : Model X) (z : ℝ) : ℝ := m.ap.age P z / m.us.u_t

/-- model.py:30 `big_hubble0` [h/Gyr]. -/
noncomputable def bigHubble0 : ℝ := 0.1022712165045695

/-- The parts that halo_theory.py uses. -/
noncomputable def Model.halo (m : Model X) : HaloModel := ⟨m.rhoCrit P, m.omegaM P, m.us⟩

/-- model.py:200-205 `comoving_at`: `d.to('Mpc').value * self.hubble`, the current parameter (the calculator holds the same array). -/
noncomputable def Model.comovingAt (m : Model X) (z : ℝ) : PyM ℝ := do
  let h ← m.get "hubble".toList
  return m.ap.comoving P z / P.mpc * h

/-- model.py:207-212 `angular_diameter_at`. -/
noncomputable def Model.angularAt (m : Model X) (z : ℝ) : PyM ℝ := do
  let h ← m.get "hubble".toList
  return m.ap.angular P z / P.mpc * h

/-- model.py:214-219 `luminosity_at`. -/
noncomputable def Model.luminosityAt (m : Model X) (z : ℝ) : PyM ℝ := do
  let h ← m.get "hubble".toList
  return m.ap.luminosity P z / P.mpc * h

/-- model.py:221-223 `distance_modulus_at`. -/
noncomputable def Model.distModAt (m : Model X) (z : ℝ) : ℝ := m.ap.distmod P z

/-- model.py:232-237 `lookback_at`. -/
noncomputable def Model.lookbackAt (m : Model X) (z : ℝ) : PyM ℝ := do
  let h ← m.get "hubble".toList
  return m.ap.lookback P z / P.gyr * h

/-- model.py:246-251 `at_comoving`; `solve d` is the redshift at which astropy's solver finds the comoving distance `d` (in m). -/
noncomputable def Model.atComoving (m : Model X) (solve : (ℝ → ℝ) → ℝ → PyM ℝ) (d : ℝ) : PyM ℝ := do
  let h ← m.get "hubble".toList
  let d := Frame.boundLo d 1.0e-4
  solve (m.ap.comoving P) (d / h * P.mpc)

/-- A parameter object's value is changed in place (`m.params[k].set_value(v)`): the astropy model and the unit system stay. -/
def Model.setParam (m : Model X) (k : Str) (v : ℝ) : Model X :=
  { m with params := m.params.map (fun p => if p.1 = k then (k, v) else p) }

/-! ### Predefined models -/

/-- model.py:254-283: the cache of `_Predefined`, in order. -/
abbrev Predef (X : Type) := PyDict Str (Model (CV X))

/-- model.py:282-285 `load`. -/
noncomputable def loadNamed (showOther : CV X → Str) (fs : Str → Option (File X)) (dir name : Str) : PyM (Model (CV X)) :=
  fromConfFile P showOther fs (.path (dir ++ '/' :: name ++ ".json".toList) dir)

/-- model.py:260-262: the models loaded at import. -/
noncomputable def Predef.init (showOther : CV X → Str) (fs : Str → Option (File X)) (dir : Str) : List Str → Predef X → PyM (Predef X)
  | [], c => .ok c
  | n :: ns, c => match loadNamed P showOther fs dir n with
      | .ok m => Predef.init showOther fs dir ns (PyDict.set c n m)
      | .error e => .error e

/-- model.py:254-262 `_Predefined.__init__`. -/
noncomputable def Predef.new (showOther : CV X → Str) (fs : Str → Option (File X)) (dir : Str) : PyM (Predef X) :=
  Predef.init P showOther fs dir ["tng".toList, "eagle".toList] []

/-- model.py:264-265 `__getitem__` (core/abc.py:133-141 `get_cache_or`). -/
noncomputable def Predef.getItem (showOther : CV X → Str) (fs : Str → Option (File X)) (dir : Str) (c : Predef X) (name : Str) :
    PyM (Model (CV X)) × Predef X :=
  match PyDict.get? c name with
  | some m => (.ok m, c)
  | none => match loadNamed P showOther fs dir name with
      | .ok m => (.ok m, PyDict.set c name m)
      | .error e => (.error e, c)

end Pyhipp.LCDM
