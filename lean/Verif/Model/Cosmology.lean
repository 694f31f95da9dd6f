import Verif.Base.Py
import Mathlib.Analysis.SpecialFunctions.Pow.Real
import Mathlib.Analysis.SpecialFunctions.Trigonometric.Basic
/-
Model of src/pyhipp/astro/quantity/unit_system.py, src/pyhipp/astro/cosmology/flat_lambda_cdm_nr.py, halo_theory.py and
power_spectrum.py.  Floats are real numbers; division by zero and roots of negative numbers, which give inf or nan in the
code, are excluded by the hypotheses of the theorems.
-/
namespace Pyhipp.Cosmology
open Pyhipp

/-! ### Units -/

/-- quantity/unit_system.py:8-26: the fields of `_Constants`. -/
structure Constants where
  pc_to_m : ℝ
  kpc_to_m : ℝ
  mpc_to_m : ℝ
  yr_to_s : ℝ
  kyr_to_s : ℝ
  myr_to_s : ℝ
  gyr_to_s : ℝ
  msun_to_kg : ℝ
  light_speed : ℝ
  proton_mass : ℝ
  gravity_constant : ℝ
  solar_mass : ℝ
  salpeter_time : ℝ

/-- quantity/unit_system.py:28-44 `_Constants.__init__`. -/
noncomputable def constants : Constants :=
  let mpc_to_m : ℝ := 3.085677581491367e+22
  let kpc_to_m := mpc_to_m * 1.0e3
  let pc_to_m := mpc_to_m / 1.0e6
  let gyr_to_s : ℝ := 3.15576e+16
  let myr_to_s := gyr_to_s / 1.0e3
  let kyr_to_s := gyr_to_s / 1.0e6
  let yr_to_s := gyr_to_s / 1.0e9
  let msun_to_kg : ℝ := 1.988409870698051e+30
  { pc_to_m, kpc_to_m, mpc_to_m, yr_to_s, kyr_to_s, myr_to_s, gyr_to_s, msun_to_kg
    light_speed := 299792458.0
    proton_mass := 1.67262192369e-27
    gravity_constant := 6.6743e-11
    solar_mass := 1.988409870698051e+30
    salpeter_time := 450.49 * (gyr_to_s * 1.0e-3) }

/-- quantity/unit_system.py:50-72: the fields of `_UnitSystem`. -/
structure Units where
  u_length : ℝ
  u_time : ℝ
  u_mass : ℝ
  u_temperature : ℝ
  u_gravity_constant : ℝ
  u_density : ℝ
  u_big_hubble : ℝ
  u_velocity : ℝ
  u_velocity_in_kmps : ℝ
  proton_mass : ℝ
  solar_mass : ℝ
  pc : ℝ
  yr : ℝ
  salpeter_time : ℝ
  light_speed : ℝ
  gravity_constant : ℝ

/-- quantity/unit_system.py:74-102 `_UnitSystem.__init__`. -/
noncomputable def unitSystem (u_length u_time u_mass u_temperature : ℝ) : Units :=
  let u_gravity_constant := u_length ^ 3 / u_time ^ 2 / u_mass
  let u_density := u_mass / u_length ^ 3
  let u_big_hubble := 1.0 / u_time
  let u_velocity := u_length / u_time
  let cc := constants
  { u_length, u_time, u_mass, u_temperature, u_gravity_constant, u_density, u_big_hubble, u_velocity
    u_velocity_in_kmps := u_velocity / 1.0e3
    proton_mass := cc.proton_mass / u_mass
    solar_mass := cc.solar_mass / u_mass
    pc := cc.pc_to_m / u_length
    yr := cc.yr_to_s / u_time
    salpeter_time := cc.salpeter_time / u_time
    light_speed := cc.light_speed / u_velocity
    gravity_constant := cc.gravity_constant / u_gravity_constant }

/-- astropy: the SI values of the constants and units `UnitSystem` uses (m, kg, s; erg, km/s).  They are astropy's; here any
positive values, except that a km is 1000 m and an erg 10^-7 J. -/
structure Astropy where
  G : ℝ
  c : ℝ
  m_p : ℝ
  h : ℝ
  msun : ℝ
  mpc : ℝ
  pc : ℝ
  gyr : ℝ
  yr : ℝ

/-- quantity/unit_system.py:199-201 `__conv_coef`: astropy quantities are represented by their SI values; `(a / b).to(1)`. -/
noncomputable def convCoef (xFrom xTo : ℝ) : ℝ := xFrom / xTo

/-- quantity/unit_system.py:109-197: the attributes of `UnitSystem`. -/
structure UnitSys where
  u_l : ℝ
  u_t : ℝ
  u_m : ℝ
  u_v : ℝ
  u_e : ℝ
  u_power : ℝ
  u_angular_momentum : ℝ
  u_gravity_constant : ℝ
  u_density : ℝ
  u_big_hubble : ℝ
  u_l_to_pc : ℝ
  u_t_to_yr : ℝ
  u_m_to_sol : ℝ
  u_v_to_kmps : ℝ
  u_e_to_erg : ℝ
  u_power_to_ergps : ℝ
  c_gravity : ℝ
  c_m_sun : ℝ
  c_light_speed : ℝ
  c_m_p : ℝ
  c_h_planck : ℝ

/-- quantity/unit_system.py:124-169 `UnitSystem.__init__` and 189-197 `__get_const`. -/
noncomputable def UnitSys.new (A : Astropy) (u_length_in_m u_time_in_s u_mass_in_kg : ℝ) : UnitSys :=
  let u_l := u_length_in_m * 1
  let u_t := u_time_in_s * 1
  let u_m := u_mass_in_kg * 1
  let u_v := u_l / u_t
  let u_e := u_m * u_v ^ 2
  let u_power := u_e / u_t
  let u_angular_momentum := u_l * u_m * u_v
  let u_gravity_constant := u_l ^ 3 / u_t ^ 2 / u_m
  { u_l, u_t, u_m, u_v, u_e, u_power, u_angular_momentum, u_gravity_constant
    u_density := u_m / u_l ^ 3
    u_big_hubble := 1 / u_t
    u_l_to_pc := convCoef u_l (1.0 * A.pc)
    u_t_to_yr := convCoef u_t (1.0 * A.yr)
    u_m_to_sol := convCoef u_m (1.0 * A.msun)
    u_v_to_kmps := convCoef u_v (1000 / 1)
    u_e_to_erg := convCoef u_e (1.0 * 1e-7)
    u_power_to_ergps := convCoef u_power (1e-7 / 1)
    c_gravity := convCoef A.G u_gravity_constant
    c_m_sun := convCoef A.msun u_m
    c_light_speed := convCoef A.c u_v
    c_m_p := convCoef A.m_p u_m
    c_h_planck := convCoef A.h u_angular_momentum }

/-- quantity/unit_system.py:171-181 `create_for_cosmology`: Mpc/h, Gyr/h, 1e10 Msun/h. -/
noncomputable def UnitSys.forCosmology (A : Astropy) (hubble : ℝ) : UnitSys :=
  UnitSys.new A (A.mpc / hubble) (A.gyr / hubble) (A.msun * 1.0e10 / hubble)

/-! ### Background -/

/-- cosmology/flat_lambda_cdm_nr.py:24-32 `_make_us_for_cosmology`. -/
noncomputable def makeUs (hubble : ℝ) : Units :=
  unitSystem (constants.mpc_to_m / hubble) (constants.gyr_to_s / hubble) (constants.msun_to_kg * 1.0e10 / hubble) 1.0

/-- cosmology/flat_lambda_cdm_nr.py:35-46: the fields of `_FlatLambdaCDMNR`. -/
structure Cosm where
  hubble : ℝ
  omega_m0 : ℝ
  omega_b0 : ℝ
  n_spec : ℝ
  sigma_8 : ℝ
  omega_l0 : ℝ
  big_hubble0 : ℝ
  us : Units

/-- cosmology/flat_lambda_cdm_nr.py:48-72 `_FlatLambdaCDMNR.__init__`. -/
noncomputable def Cosm.new (hubble omega_m0 omega_b0 n_spec sigma_8 : ℝ) : Cosm :=
  { hubble, omega_m0, omega_b0, n_spec, sigma_8
    omega_l0 := 1.0 - omega_m0
    big_hubble0 := 0.1022712165045695
    us := makeUs hubble }

/-- cosmology/flat_lambda_cdm_nr.py:74-79 `efunc_sqr`. -/
noncomputable def Cosm.efunc_sqr (c : Cosm) (z : ℝ) : ℝ :=
  let zp1 := z + 1.0
  c.omega_l0 + c.omega_m0 * zp1 ^ 3

/-- cosmology/flat_lambda_cdm_nr.py:81-85 `efunc`. -/
noncomputable def Cosm.efunc (c : Cosm) (z : ℝ) : ℝ := Real.sqrt (c.efunc_sqr z)

/-- cosmology/flat_lambda_cdm_nr.py:87-89 `omega_m`. -/
noncomputable def Cosm.omega_m (c : Cosm) (z : ℝ) : ℝ :=
  let zp1 := z + 1.0
  c.omega_m0 * zp1 ^ 3 / c.efunc_sqr z

/-- cosmology/flat_lambda_cdm_nr.py:91-92 `omega_l`. -/
noncomputable def Cosm.omega_l (c : Cosm) (z : ℝ) : ℝ := c.omega_l0 / c.efunc_sqr z

/-- cosmology/flat_lambda_cdm_nr.py:94-95 `baryon_fraction`. -/
noncomputable def Cosm.baryon_fraction (c : Cosm) : ℝ := c.omega_b0 / c.omega_m0

/-- cosmology/flat_lambda_cdm_nr.py:97-101 `big_hubble`. -/
noncomputable def Cosm.big_hubble (c : Cosm) (z : ℝ) : ℝ := c.big_hubble0 * c.efunc z

/-- cosmology/flat_lambda_cdm_nr.py:103-104 `a2z`. -/
noncomputable def a2z (a : ℝ) : ℝ := 1.0 / a - 1.0

/-- cosmology/flat_lambda_cdm_nr.py:106-107 `z2a`. -/
noncomputable def z2a (z : ℝ) : ℝ := 1.0 / (z + 1.0)

/-- cosmology/flat_lambda_cdm_nr.py:113-117 `_planck_2015`. -/
noncomputable def planck2015 : Cosm := Cosm.new 0.6774 0.3089 0.0486 0.9667 0.8159

/-! ### Densities -/

/-- cosmology/flat_lambda_cdm_nr.py:128-135 `_Densities.crit0`. -/
noncomputable def Cosm.crit0 (c : Cosm) : ℝ :=
  let H0 := c.big_hubble0
  let G := c.us.gravity_constant
  3.0 * H0 ^ 2 / (8.0 * Real.pi * G)

/-- cosmology/flat_lambda_cdm_nr.py:137-142 `crit`. -/
noncomputable def Cosm.crit (c : Cosm) (z : ℝ) : ℝ := c.crit0 * c.efunc_sqr z

/-- cosmology/flat_lambda_cdm_nr.py:144-149 `mean0`. -/
noncomputable def Cosm.mean0 (c : Cosm) : ℝ := c.crit0 * c.omega_m0

/-- cosmology/flat_lambda_cdm_nr.py:151-156 `mean`. -/
noncomputable def Cosm.mean (c : Cosm) (z : ℝ) : ℝ :=
  let zp1 := z + 1.0
  c.mean0 * zp1 ^ 3

/-- cosmology/flat_lambda_cdm_nr.py:158-163 `r_to_m`. -/
noncomputable def Cosm.r_to_m (c : Cosm) (r : ℝ) : ℝ := 4.0 / 3.0 * Real.pi * r ^ 3 * c.mean0

/-- cosmology/flat_lambda_cdm_nr.py:165-172 `m_to_r`. -/
noncomputable def Cosm.m_to_r (c : Cosm) (mass : ℝ) : ℝ :=
  let vol := mass / c.mean0
  let r3 := vol / (4.0 / 3.0 * Real.pi)
  r3 ^ (1.0 / 3.0 : ℝ)

/-! ### Halo theory -/

/-- The parts of a `LambdaCDM` model that halo_theory.py uses: astropy's critical density (in code units) and matter fraction as
functions of redshift, and the unit system. -/
structure HaloModel where
  rho_crit : ℝ → ℝ
  omega_m : ℝ → ℝ
  us : UnitSys

/-- cosmology/model.py:160-167 `rho_matter`. -/
noncomputable def HaloModel.rho_matter (m : HaloModel) (z : ℝ) : ℝ := m.rho_crit z * m.omega_m z

/-- cosmology/halo_theory.py:94-101 `rho_vir_mean` (comoving). -/
noncomputable def HaloModel.rho_vir_mean (m : HaloModel) (f z : ℝ) : ℝ :=
  let a := 1.0 / (1.0 + z)
  let rho_mean := m.rho_matter z * a ^ 3
  f * rho_mean

/-- cosmology/halo_theory.py:103-110 `rho_vir_crit` (comoving). -/
noncomputable def HaloModel.rho_vir_crit (m : HaloModel) (f z : ℝ) : ℝ :=
  let a := 1.0 / (1.0 + z)
  let rho_crit := m.rho_crit z * a ^ 3
  f * rho_crit

/-- cosmology/halo_theory.py:124-130 `r_vir`. -/
noncomputable def r_vir (m_vir rho_vir : ℝ) : ℝ :=
  let V := m_vir / rho_vir
  (V / (4 / 3 * Real.pi)) ^ (1 / 3 : ℝ)

/-- cosmology/halo_theory.py:132-140 `v_vir`. -/
noncomputable def v_vir (us : UnitSys) (m_vir r_vir : ℝ) (to_kmps : Bool) : ℝ :=
  let v_vir := Real.sqrt (us.c_gravity * m_vir / r_vir)
  if to_kmps then v_vir * us.u_v_to_kmps else v_vir

/-- cosmology/halo_theory.py:14-26: the fields of `VirialProperties`. -/
structure VirialProperties where
  m : ℝ
  rho : ℝ
  r : ℝ
  r_phy : ℝ
  v : ℝ

/-- cosmology/halo_theory.py:28-31 `t_dyn`. -/
noncomputable def VirialProperties.t_dyn (p : VirialProperties) : ℝ := p.r_phy / p.v

/-- cosmology/halo_theory.py:227-232 `__vir_props`. -/
noncomputable def vir_props (us : UnitSys) (m rho z : ℝ) : VirialProperties :=
  let r := r_vir m rho
  let a := 1 / (1 + z)
  let r_phy := a * r
  let v := v_vir us m r_phy false
  ⟨m, rho, r, r_phy, v⟩

/-- cosmology/halo_theory.py:112-116 `vir_props_mean`. -/
noncomputable def HaloModel.vir_props_mean (M : HaloModel) (m_vir f z : ℝ) : VirialProperties :=
  vir_props M.us m_vir (M.rho_vir_mean f z) z

/-- cosmology/halo_theory.py:118-122 `vir_props_crit`. -/
noncomputable def HaloModel.vir_props_crit (M : HaloModel) (m_vir f z : ℝ) : VirialProperties :=
  vir_props M.us m_vir (M.rho_vir_crit f z) z

/-! ### Growth factor -/

/-- cosmology/power_spectrum.py:548-556 `_GrowthFactorCarroll92.growth_factor` with the current `norm`. -/
noncomputable def Cosm.growthAt (cosm : Cosm) (norm z : ℝ) : ℝ :=
  let omega_m := cosm.omega_m z
  let omega_l := cosm.omega_l z
  let f1 := norm * 2.5 * omega_m / (1 + z)
  let f2 := omega_m ^ (4 / 7 : ℝ) - omega_l + (1 + omega_m / 2) * (1 + omega_l / 70)
  f1 / f2

/-- cosmology/power_spectrum.py:541-546 and 558-561: `__init__` sets `norm` to 1 and then `__normalize`s. -/
noncomputable def Cosm.growthNorm (cosm : Cosm) : ℝ := 1.0 / cosm.growthAt 1.0 0.0

/-- `growth_factor` of a constructed object. -/
noncomputable def Cosm.growth_factor (cosm : Cosm) (z : ℝ) : ℝ := cosm.growthAt cosm.growthNorm z

/-- cosmology/power_spectrum.py:563-564 `delta_crit`. -/
noncomputable def Cosm.delta_crit (cosm : Cosm) (z : ℝ) : ℝ := 1.686 / cosm.growth_factor z

end Pyhipp.Cosmology
