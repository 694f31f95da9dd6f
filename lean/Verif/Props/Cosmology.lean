import Verif.Model.Cosmology
import Mathlib.Analysis.Calculus.Deriv.MeanValue
import Mathlib.Analysis.SpecialFunctions.Pow.Deriv
import Mathlib.Tactic.FieldSimp
import Mathlib.Tactic.Positivity
import Mathlib.Tactic.Linarith
import Mathlib.Tactic.NormNum.OfScientific
/-
C78-C81: unit systems, the background of a flat Lambda-CDM cosmology, mass-radius conversion, growth factor.
-/
namespace Pyhipp.Cosmology
open Pyhipp

/-! ### C78 -/

/-- C78: in any unit system, each constant times its unit is the SI value. -/
theorem C78_constants (l t m θ : ℝ) (hl : 0 < l) (ht : 0 < t) (hm : 0 < m) :
    let U := unitSystem l t m θ
    U.gravity_constant * (l ^ 3 / t ^ 2 / m) = 6.6743e-11 ∧ U.light_speed * (l / t) = 299792458 ∧
    U.solar_mass * m = 1.988409870698051e+30 ∧ U.proton_mass * m = 1.67262192369e-27 ∧
    U.pc * l = 3.085677581491367e+16 ∧ U.yr * t = 365.25 * 86400 ∧ U.u_velocity_in_kmps * 1000 = l / t ∧
    U.u_big_hubble * t = 1 ∧ U.u_density * l ^ 3 = m := by
  simp only [unitSystem, constants]
  refine ⟨?_, ?_, ?_, ?_, ?_, ?_, ?_, ?_, ?_⟩ <;> field_simp <;> norm_num

/-- C78: computing with values in the unit system is computing in SI and converting the result: circular velocity squared. -/
theorem C78_dynamics (l t m θ M r : ℝ) (hl : 0 < l) (ht : 0 < t) (hm : 0 < m) (hr : 0 < r) :
    let U := unitSystem l t m θ
    U.gravity_constant * (M / U.u_mass) / (r / U.u_length) = (6.6743e-11 * M / r) / U.u_velocity ^ 2 ∧
    (M / U.u_mass) * U.light_speed ^ 2 = M * 299792458 ^ 2 / (m * (l / t) ^ 2) ∧
    (M / U.u_mass) / (r / U.u_length) ^ 3 = (M / r ^ 3) / U.u_density := by
  simp only [unitSystem, constants]
  refine ⟨?_, ?_, ?_⟩ <;> field_simp <;> norm_num

/-- C78: the table is consistent for parsecs and megaparsecs, for all multiples of a year, and for the solar mass. -/
theorem C78_table : constants.mpc_to_m = 1e6 * constants.pc_to_m ∧ constants.gyr_to_s = 1e3 * constants.myr_to_s ∧
    constants.gyr_to_s = 1e6 * constants.kyr_to_s ∧ constants.gyr_to_s = 1e9 * constants.yr_to_s ∧
    constants.msun_to_kg = constants.solar_mass ∧ constants.yr_to_s = 31557600 ∧
    constants.salpeter_time = 450.49 * constants.myr_to_s := by
  simp only [constants]
  norm_num

/-- C78 (recorded defect): a kiloparsec is 10^6 times too long: 1000 Mpc. -/
theorem C78_kpc_defect : constants.kpc_to_m = 1e6 * (constants.mpc_to_m / 1e3) ∧ constants.kpc_to_m ≠ 1e3 * constants.pc_to_m := by
  simp only [constants]
  norm_num

/-- C78: the astropy-based class: each constant times its unit is the SI value, the conversion factors are the ratios, and the
dimensions of the derived units agree (energy = force times length, angular momentum = energy times time). -/
theorem C78_astropy (A : Astropy) (l t m : ℝ) (hl : 0 < l) (ht : 0 < t) (hm : 0 < m) (hpc : 0 < A.pc) (hyr : 0 < A.yr) (hs : 0 < A.msun) :
    let U := UnitSys.new A l t m
    U.c_gravity * U.u_gravity_constant = A.G ∧ U.c_light_speed * U.u_v = A.c ∧ U.c_m_sun * U.u_m = A.msun ∧ U.c_m_p * U.u_m = A.m_p ∧
    U.c_h_planck * U.u_angular_momentum = A.h ∧ U.u_l_to_pc * A.pc = U.u_l ∧ U.u_t_to_yr * A.yr = U.u_t ∧
    U.u_m_to_sol * U.c_m_sun = 1 ∧ U.u_v_to_kmps * 1000 = U.u_v ∧ U.u_e_to_erg * 1e-7 = U.u_e ∧ U.u_power_to_ergps = U.u_e_to_erg / t ∧
    U.u_e * U.u_t = U.u_angular_momentum ∧ U.u_e = U.u_gravity_constant * U.u_m ^ 2 / U.u_l ∧
    U.u_big_hubble ^ 2 = U.u_gravity_constant * U.u_density := by
  simp only [UnitSys.new, convCoef]
  refine ⟨?_, ?_, ?_, ?_, ?_, ?_, ?_, ?_, ?_, ?_, ?_, ?_, ?_, ?_⟩ <;> (try field_simp) <;> (try norm_num)

/-- C78: the two implementations agree when astropy's constants are those of the table. -/
theorem C78_agree (A : Astropy) (l t m θ : ℝ) (hG : A.G = constants.gravity_constant) (hc : A.c = constants.light_speed)
    (hp : A.m_p = constants.proton_mass) (hs : A.msun = constants.solar_mass) :
    (UnitSys.new A l t m).c_gravity = (unitSystem l t m θ).gravity_constant ∧ (UnitSys.new A l t m).c_light_speed = (unitSystem l t m θ).light_speed ∧
    (UnitSys.new A l t m).c_m_p = (unitSystem l t m θ).proton_mass ∧ (UnitSys.new A l t m).c_m_sun = (unitSystem l t m θ).solar_mass ∧
    (UnitSys.new A l t m).u_v_to_kmps = (unitSystem l t m θ).u_velocity_in_kmps ∧
    (UnitSys.new A l t m).u_density = (unitSystem l t m θ).u_density := by
  simp only [UnitSys.new, unitSystem, convCoef, hG, hc, hp, hs, mul_one]
  refine ⟨trivial, trivial, trivial, trivial, ?_, trivial⟩
  norm_num

/-- C78: the unit systems for cosmology: a distance of d Mpc is d*h code units, a time of t Gyr is t*h, a mass of M Msun is M*h/1e10. -/
theorem C78_cosmology (h d : ℝ) (hh : 0 < h) : let U := makeUs h
    d * constants.mpc_to_m / U.u_length = d * h ∧ d * constants.gyr_to_s / U.u_time = d * h ∧
    d * constants.msun_to_kg / U.u_mass = d * h / 1e10 := by
  simp only [makeUs, unitSystem, constants]
  refine ⟨?_, ?_, ?_⟩ <;> field_simp <;> norm_num

/-- C78: the astropy-based unit system for cosmology: the units are Mpc/h, Gyr/h and 1e10 Msun/h, so a distance of d Mpc is d*h code
units and so on, and the velocity unit does not depend on h. -/
theorem C78_for_cosmology (A : Astropy) (h d : ℝ) (hh : 0 < h) (hp : 0 < A.mpc) (hg : 0 < A.gyr) (hs : 0 < A.msun) : let U := UnitSys.forCosmology A h
    d * A.mpc / U.u_l = d * h ∧ d * A.gyr / U.u_t = d * h ∧ d * A.msun / U.u_m = d * h / 1e10 ∧ U.u_v = A.mpc / A.gyr ∧
    U.u_m_to_sol = 1e10 / h ∧ U.u_l_to_pc = A.mpc / A.pc / h ∧ U.u_t_to_yr = A.gyr / A.yr / h := by
  simp only [UnitSys.forCosmology, UnitSys.new, convCoef]
  refine ⟨?_, ?_, ?_, ?_, ?_, ?_, ?_⟩ <;> field_simp <;> norm_num

/-- C78: H0 = 100 h km/s/Mpc has in those units the value `big_hubble0` whatever h is, up to 2e-17. -/
theorem C78_hubble (h : ℝ) (hh : 0 < h) (ωm ωb n s : ℝ) :
    |(Cosm.new h ωm ωb n s).big_hubble0 - (100 * h * 1000 / constants.mpc_to_m) / (makeUs h).u_big_hubble| ≤ 2e-17 := by
  have e : (100 * h * 1000 / constants.mpc_to_m) / (makeUs h).u_big_hubble = 100 * 1000 * 3.15576e16 / 3.085677581491367e+22 := by
    simp only [makeUs, unitSystem, constants]
    field_simp
    norm_num
  rw [e, abs_le]
  simp only [Cosm.new]
  constructor <;> norm_num

example : (unitSystem 1 1 1 1).light_speed = 299792458 := by
  have h := (C78_constants 1 1 1 1 one_pos one_pos one_pos).2.1
  norm_num at h ⊢
  exact h

/-! ### C79 -/

/-- The cosmologies meant: 0 < omega_m0 < 1, h > 0. -/
structure Good (c : Cosm) : Prop where
  made : ∃ h m b n s, 0 < h ∧ 0 < m ∧ m < 1 ∧ c = Cosm.new h m b n s

theorem Good.basic {c : Cosm} (g : Good c) : 0 < c.omega_m0 ∧ c.omega_m0 < 1 ∧ c.omega_l0 = 1 - c.omega_m0 ∧ 0 < c.hubble ∧
    c.us = makeUs c.hubble ∧ c.big_hubble0 = 0.1022712165045695 := by
  obtain ⟨h, m, b, n, s, hh, h0, h1, rfl⟩ := g.made
  refine ⟨h0, h1, ?_, hh, rfl, rfl⟩
  simp only [Cosm.new]; norm_num

/-- Non-vacuity: Planck 2015. -/
example : Good planck2015 := ⟨⟨_, _, _, _, _, by norm_num, by norm_num, by norm_num, rfl⟩⟩

/-- C81: the predefined cosmology is flat with the published Planck 2015 parameters (Table 4, last column). -/
theorem C81_planck : planck2015.hubble = 0.6774 ∧ planck2015.omega_m0 = 0.3089 ∧ planck2015.omega_l0 = 0.6911 ∧ planck2015.omega_b0 = 0.0486 ∧ planck2015.n_spec = 0.9667 ∧
    planck2015.sigma_8 = 0.8159 := by
  refine ⟨rfl, rfl, ?_, rfl, rfl, rfl⟩
  simp only [planck2015, Cosm.new]
  norm_num

theorem Good.E2 {c : Cosm} (g : Good c) (z : ℝ) : c.efunc_sqr z = 1 - c.omega_m0 + c.omega_m0 * (1 + z) ^ 3 := by
  obtain ⟨-, -, hl, -⟩ := g.basic
  simp only [Cosm.efunc_sqr, hl]
  norm_num
  left; ring

theorem Good.E2_pos {c : Cosm} (g : Good c) {z : ℝ} (hz : -1 < z) : 0 < c.efunc_sqr z := by
  obtain ⟨h0, h1, -⟩ := g.basic
  rw [g.E2]
  have : 0 < (1 + z) ^ 3 := pow_pos (by linarith) 3
  have := mul_pos h0 this
  linarith

/-- C79: E(z)^2 is the Friedmann expression, and H(z)^2 is H0^2 times it. -/
theorem C79_friedmann {c : Cosm} (g : Good c) {z : ℝ} (hz : -1 < z) :
    c.big_hubble z ^ 2 = c.big_hubble0 ^ 2 * ((1 - c.omega_m0) + c.omega_m0 * (1 + z) ^ 3) := by
  unfold Cosm.big_hubble Cosm.efunc
  rw [mul_pow, Real.sq_sqrt (le_of_lt (g.E2_pos hz)), g.E2]

/-- C79: the universe is flat at all times. -/
theorem C79_flat {c : Cosm} (g : Good c) {z : ℝ} (hz : -1 < z) : c.omega_m z + c.omega_l z = 1 ∧ 0 < c.omega_m z ∧ 0 < c.omega_l z := by
  obtain ⟨h0, h1, hl, -⟩ := g.basic
  have hE := g.E2_pos hz
  have h3 : 0 < (z + 1.0) ^ 3 := pow_pos (by norm_num; linarith) 3
  refine ⟨?_, div_pos (mul_pos h0 h3) hE, div_pos (by rw [hl]; linarith) hE⟩
  unfold Cosm.omega_m Cosm.omega_l
  rw [← add_div, div_eq_one_iff_eq (ne_of_gt hE), Cosm.efunc_sqr, add_comm]

theorem Good.om {c : Cosm} (g : Good c) (z : ℝ) : c.omega_m z = c.omega_m0 * (1 + z) ^ 3 / (1 - c.omega_m0 + c.omega_m0 * (1 + z) ^ 3) := by
  simp only [Cosm.omega_m, g.E2]
  norm_num [add_comm]

/-- C79: the matter fraction, the expansion rate and the critical density increase strictly with redshift. -/
theorem C79_monotone {c : Cosm} (g : Good c) {z w : ℝ} (hz : -1 < z) (hw : z < w) :
    c.omega_m z < c.omega_m w ∧ c.omega_l w < c.omega_l z ∧ c.efunc z < c.efunc w ∧ c.big_hubble z < c.big_hubble w := by
  obtain ⟨h0, h1, hl, -, -, hH⟩ := g.basic
  have hp : (1 + z) ^ 3 < (1 + w) ^ 3 := pow_lt_pow_left₀ (by linarith) (by linarith) (by norm_num)
  have hE : c.efunc_sqr z < c.efunc_sqr w := by
    rw [g.E2, g.E2]
    have := mul_lt_mul_of_pos_left hp h0
    linarith
  have h4 : c.omega_l w < c.omega_l z := by
    unfold Cosm.omega_l
    exact div_lt_div_of_pos_left (by rw [hl]; linarith) (g.E2_pos hz) hE
  have hef : c.efunc z < c.efunc w := Real.sqrt_lt_sqrt (le_of_lt (g.E2_pos hz)) hE
  refine ⟨?_, h4, hef, ?_⟩
  · have a := (C79_flat g hz).1
    have b := (C79_flat g (lt_trans hz hw)).1
    linarith
  · unfold Cosm.big_hubble
    exact mul_lt_mul_of_pos_left hef (by rw [hH]; norm_num)

/-- C79: scale factor and redshift are inverse to each other. -/
theorem C79_a_z {a z : ℝ} (ha : 0 < a) (hz : -1 < z) : z2a (a2z a) = a ∧ a2z (z2a z) = z ∧ a2z 1 = 0 ∧ z2a 0 = 1 ∧ 0 < z2a z ∧ -1 < a2z a := by
  have h1 : z + 1 ≠ 0 := by linarith
  have h2 : 0 < z + 1 := by linarith
  unfold z2a a2z
  norm_num
  exact ⟨h2, ha⟩

/-- C79: at z = 0 all quantities are the parameters. -/
theorem C79_today {c : Cosm} (g : Good c) : c.omega_m 0 = c.omega_m0 ∧ c.omega_l 0 = c.omega_l0 ∧ c.efunc 0 = 1 ∧ c.big_hubble 0 = c.big_hubble0 ∧
    c.crit 0 = c.crit0 ∧ c.mean 0 = c.mean0 := by
  have hE : c.efunc_sqr 0 = 1 := by rw [g.E2]; ring
  refine ⟨?_, ?_, ?_, ?_, ?_, ?_⟩
  · simp [Cosm.omega_m, hE]; norm_num
  · simp [Cosm.omega_l, hE]
  · simp [Cosm.efunc, hE]
  · simp [Cosm.big_hubble, Cosm.efunc, hE]
  · simp [Cosm.crit, hE]
  · simp [Cosm.mean]; norm_num

theorem Good.G_pos {c : Cosm} (g : Good c) : 0 < c.us.gravity_constant := by
  obtain ⟨-, -, -, hh, hus, -⟩ := g.basic
  rw [hus]
  simp only [makeUs, unitSystem, constants]
  positivity

theorem Good.crit0_pos {c : Cosm} (g : Good c) : 0 < c.crit0 := by
  obtain ⟨-, -, -, -, -, hH⟩ := g.basic
  have := g.G_pos
  unfold Cosm.crit0
  rw [hH]
  positivity

/-- C79: the mean matter density is the matter fraction times the critical density, and the critical density obeys the
Friedmann equation H^2 = 8 pi G rho / 3. -/
theorem C79_densities {c : Cosm} (g : Good c) {z : ℝ} (hz : -1 < z) :
    c.mean z = c.crit z * c.omega_m z ∧ c.big_hubble z ^ 2 = 8 * Real.pi * c.us.gravity_constant / 3 * c.crit z ∧ 0 < c.mean z := by
  have hE := g.E2_pos hz
  have hG := g.G_pos
  have hc := g.crit0_pos
  obtain ⟨h0, -⟩ := g.basic
  refine ⟨?_, ?_, ?_⟩
  · simp only [Cosm.mean, Cosm.crit, Cosm.omega_m, Cosm.mean0]
    field_simp
  · rw [C79_friedmann g hz, ← g.E2]
    simp only [Cosm.crit, Cosm.crit0]
    have := Real.pi_pos
    field_simp
    norm_num
    ring
  · simp only [Cosm.mean, Cosm.mean0]
    have h3 : 0 < (z + 1.0) ^ 3 := pow_pos (by norm_num; linarith) 3
    positivity

/-- C79: the baryon fraction times the matter density is the baryon density. -/
theorem C79_baryons {c : Cosm} (g : Good c) : c.baryon_fraction * c.mean0 = c.omega_b0 * c.crit0 := by
  obtain ⟨h0, -⟩ := g.basic
  unfold Cosm.baryon_fraction Cosm.mean0
  field_simp

/-! ### C80 -/

theorem cube_root {x : ℝ} (hx : 0 ≤ x) : (x ^ (1 / 3 : ℝ)) ^ 3 = x := by
  rw [← Real.rpow_natCast, ← Real.rpow_mul hx]; norm_num

theorem root_cube {x : ℝ} (hx : 0 ≤ x) : (x ^ 3) ^ (1 / 3 : ℝ) = x := by
  rw [← Real.rpow_natCast, ← Real.rpow_mul hx]; norm_num

theorem Good.mean0_pos {c : Cosm} (g : Good c) : 0 < c.mean0 := mul_pos g.crit0_pos g.basic.1

theorem m_to_r_eq (c : Cosm) (m : ℝ) : c.m_to_r m = (m / c.mean0 / (4 / 3 * Real.pi)) ^ (1 / 3 : ℝ) := by
  unfold Cosm.m_to_r; norm_num

theorem r_to_m_eq (c : Cosm) (r : ℝ) : c.r_to_m r = 4 / 3 * Real.pi * r ^ 3 * c.mean0 := by
  unfold Cosm.r_to_m; norm_num

/-- C80: mass to radius and radius to mass are inverse to each other. -/
theorem C80_inverse {c : Cosm} (g : Good c) {m r : ℝ} (hm : 0 ≤ m) (hr : 0 ≤ r) : c.r_to_m (c.m_to_r m) = m ∧ c.m_to_r (c.r_to_m r) = r := by
  have h0 := g.mean0_pos
  have hp := Real.pi_pos
  constructor
  · rw [r_to_m_eq, m_to_r_eq, cube_root (by positivity)]
    field_simp
  · rw [r_to_m_eq, m_to_r_eq]
    have : 4 / 3 * Real.pi * r ^ 3 * c.mean0 / c.mean0 / (4 / 3 * Real.pi) = r ^ 3 := by field_simp
    rw [this, root_cube hr]

/-- C80: the mass in a sphere of the radius returned has the mean density, and a larger mass has a larger radius. -/
theorem C80_monotone {c : Cosm} (g : Good c) {m m' : ℝ} (hm : 0 ≤ m) (h : m < m') : c.m_to_r m < c.m_to_r m' ∧ 0 ≤ c.m_to_r m := by
  have h0 := g.mean0_pos
  have hp := Real.pi_pos
  rw [m_to_r_eq, m_to_r_eq]
  refine ⟨Real.rpow_lt_rpow (by positivity) ?_ (by norm_num), by positivity⟩
  gcongr

/-- C80: the virial radius encloses the mass at the given density. -/
theorem C80_r_vir {m rho : ℝ} (hm : 0 ≤ m) (hr : 0 < rho) : 4 / 3 * Real.pi * (r_vir m rho) ^ 3 * rho = m := by
  have hp := Real.pi_pos
  unfold r_vir
  rw [cube_root (by positivity)]
  field_simp

/-- C80: the virial velocity is the circular velocity; in km/s it is multiplied by the conversion factor. -/
theorem C80_v_vir (us : UnitSys) {m r : ℝ} (hG : 0 ≤ us.c_gravity) (hm : 0 ≤ m) (hr : 0 < r) :
    (v_vir us m r false) ^ 2 = us.c_gravity * m / r ∧ v_vir us m r true = v_vir us m r false * us.u_v_to_kmps ∧ 0 ≤ v_vir us m r false := by
  refine ⟨?_, rfl, Real.sqrt_nonneg _⟩
  simp only [v_vir]
  exact Real.sq_sqrt (by positivity)

/-- C80: the fields of `vir_props`: r encloses m at comoving density rho, r_phy is r times the scale factor, v is circular. -/
theorem C80_vir_props (us : UnitSys) {m rho z : ℝ} (hG : 0 < us.c_gravity) (hm : 0 < m) (hr : 0 < rho) (hz : -1 < z) :
    let p := vir_props us m rho z
    p.m = m ∧ p.rho = rho ∧ 4 / 3 * Real.pi * p.r ^ 3 * p.rho = p.m ∧ p.r_phy * (1 + z) = p.r ∧ p.v ^ 2 = us.c_gravity * p.m / p.r_phy ∧ 0 < p.v := by
  have hp := Real.pi_pos
  have hz' : 0 < 1 + z := by linarith
  have hrp : 0 < r_vir m rho := Real.rpow_pos_of_pos (by positivity) _
  have hph : 0 < 1 / (1 + z) * r_vir m rho := by positivity
  refine ⟨rfl, rfl, C80_r_vir (le_of_lt hm) hr, ?_, (C80_v_vir us (le_of_lt hG) (le_of_lt hm) hph).1, ?_⟩
  · simp only [vir_props]; field_simp
  · simp only [vir_props, v_vir]
    exact Real.sqrt_pos.mpr (by positivity)

/-- C80: the dynamical time depends on the physical density only, not on the mass: t_dyn^2 = 3 / (4 pi G rho_phys). -/
theorem C80_t_dyn (us : UnitSys) {m rho z : ℝ} (hG : 0 < us.c_gravity) (hm : 0 < m) (hr : 0 < rho) (hz : -1 < z) :
    (vir_props us m rho z).t_dyn = Real.sqrt (3 / (4 * Real.pi * us.c_gravity * (rho * (1 + z) ^ 3))) := by
  have hp := Real.pi_pos
  have hz' : 0 < 1 + z := by linarith
  obtain ⟨h1, h2, h3, h4, h5, h6⟩ := C80_vir_props us hG hm hr hz
  have hrp : 0 < (vir_props us m rho z).r := Real.rpow_pos_of_pos (by positivity) _
  have hph : 0 < (vir_props us m rho z).r_phy := by simp only [vir_props] at *; positivity
  rw [eq_comm, Real.sqrt_eq_iff_mul_self_eq (by positivity) (by unfold VirialProperties.t_dyn; positivity)]
  unfold VirialProperties.t_dyn
  rw [h1, h2, ← h4] at h3
  rw [h1] at h5
  rw [div_mul_div_comm, ← pow_two (vir_props us m rho z).v, h5]
  generalize (vir_props us m rho z).r_phy = y at *
  rw [← h3]
  field_simp

/-- C80: so halos of all masses at one redshift and overdensity have the same dynamical time: for the overdensity f relative to
the critical density, t_dyn^2 = 3 / (4 pi G f rho_crit(z)); relative to the mean density, with rho_matter. -/
theorem C80_t_dyn_halo (M : HaloModel) {m f z : ℝ} (hG : 0 < M.us.c_gravity) (hm : 0 < m) (hf : 0 < f) (hc : 0 < M.rho_crit z)
    (ho : 0 < M.omega_m z) (hz : -1 < z) :
    (M.vir_props_crit m f z).t_dyn = Real.sqrt (3 / (4 * Real.pi * M.us.c_gravity * (f * M.rho_crit z))) ∧
    (M.vir_props_mean m f z).t_dyn = Real.sqrt (3 / (4 * Real.pi * M.us.c_gravity * (f * (M.omega_m z * M.rho_crit z)))) := by
  have hz' : 0 < 1 + z := by linarith
  have e1 : M.rho_vir_crit f z * (1 + z) ^ 3 = f * M.rho_crit z := by
    simp only [HaloModel.rho_vir_crit]; norm_num; field_simp
  have e2 : M.rho_vir_mean f z * (1 + z) ^ 3 = f * (M.omega_m z * M.rho_crit z) := by
    simp only [HaloModel.rho_vir_mean, HaloModel.rho_matter]; norm_num; field_simp
  have p1 : 0 < M.rho_vir_crit f z := by simp only [HaloModel.rho_vir_crit]; norm_num; positivity
  have p2 : 0 < M.rho_vir_mean f z := by simp only [HaloModel.rho_vir_mean, HaloModel.rho_matter]; norm_num; positivity
  unfold HaloModel.vir_props_crit HaloModel.vir_props_mean
  rw [C80_t_dyn M.us hG hm p1 hz, C80_t_dyn M.us hG hm p2 hz, e1, e2]
  exact ⟨rfl, rfl⟩

/-- Non-vacuity of the halo theorems: units of 1 with G = 1. -/
example : (vir_props (UnitSys.new ⟨1, 1, 1, 1, 1, 1, 1, 1, 1⟩ 1 1 1) 5 2 0).t_dyn = Real.sqrt (3 / (4 * Real.pi * 1 * (2 * (1 + 0) ^ 3))) := by
  have h : (UnitSys.new ⟨1, 1, 1, 1, 1, 1, 1, 1, 1⟩ 1 1 1).c_gravity = 1 := by simp [UnitSys.new, convCoef]
  have := C80_t_dyn (UnitSys.new ⟨1, 1, 1, 1, 1, 1, 1, 1, 1⟩ 1 1 1) (m := 5) (rho := 2) (z := 0) (by rw [h]; norm_num) (by norm_num) (by norm_num) (by norm_num)
  rw [h] at this
  exact this

/-! ### C81 -/

/-- The denominator of the growth factor as a function of the matter fraction. -/
noncomputable def growthF (x : ℝ) : ℝ := x ^ (4 / 7 : ℝ) - (1 - x) + (1 + x / 2) * (1 + (1 - x) / 70)

theorem growthF_pos {x : ℝ} (h0 : 0 < x) (h1 : x < 1) : 0 < growthF x := by
  have := Real.rpow_pos_of_pos h0 (4 / 7 : ℝ)
  unfold growthF
  nlinarith [mul_pos h0 (sub_pos.mpr h1)]

theorem Good.growthAt {c : Cosm} (g : Good c) {z : ℝ} (hz : -1 < z) (n : ℝ) : c.growthAt n z = n * (2.5 * c.omega_m z / ((1 + z) * growthF (c.omega_m z))) := by
  have h := (C79_flat g hz).1
  have hl : c.omega_l z = 1 - c.omega_m z := by linarith
  have hF := growthF_pos (C79_flat g hz).2.1 (by have := (C79_flat g hz).2.2; linarith)
  have hz' : 0 < 1 + z := by linarith
  simp only [Cosm.growthAt, hl]
  rw [← growthF]
  field_simp

theorem Good.om_lt {c : Cosm} (g : Good c) {z : ℝ} (hz : -1 < z) : c.omega_m z < 1 := by
  have := (C79_flat g hz).2.2; have := (C79_flat g hz).1; linarith

/-- C81: the growth factor is the fit of Carroll et al. 1992, g(z) = 5/2 Omega_m / (Omega_m^(4/7) - Omega_L + (1 + Omega_m/2)(1 +
Omega_L/70)) / (1+z), divided by its value today. -/
theorem C81_carroll {c : Cosm} (g : Good c) {z : ℝ} (hz : -1 < z) :
    let G := fun z => 5 / 2 * c.omega_m z / (c.omega_m z ^ (4 / 7 : ℝ) - c.omega_l z + (1 + c.omega_m z / 2) * (1 + c.omega_l z / 70)) / (1 + z)
    c.growth_factor z = G z / G 0 := by
  intro G
  have h0 : (-1 : ℝ) < 0 := by norm_num
  have hG : ∀ z, -1 < z → G z = 2.5 * c.omega_m z / ((1 + z) * growthF (c.omega_m z)) := by
    intro z hz
    have h := (C79_flat g hz).1
    have hl : c.omega_l z = 1 - c.omega_m z := by linarith
    have hF := growthF_pos (C79_flat g hz).2.1 (g.om_lt hz)
    have hz' : 0 < 1 + z := by linarith
    simp only [G, hl]
    rw [← growthF]
    field_simp
    norm_num
    ring
  unfold Cosm.growth_factor Cosm.growthNorm
  rw [g.growthAt hz, hG z hz, hG 0 h0]
  have h00 : (0.0 : ℝ) = 0 := by norm_num
  rw [h00, g.growthAt h0]
  have h1 : (1.0 : ℝ) = 1 := by norm_num
  rw [h1, one_mul, one_div, inv_mul_eq_div]

theorem Good.growth_pos_at {c : Cosm} (g : Good c) {z : ℝ} (hz : -1 < z) : 0 < 2.5 * c.omega_m z / ((1 + z) * growthF (c.omega_m z)) := by
  have hF := growthF_pos (C79_flat g hz).2.1 (g.om_lt hz)
  have hz' : 0 < 1 + z := by linarith
  have := (C79_flat g hz).2.1
  positivity

theorem Good.growth_eq {c : Cosm} (g : Good c) {z : ℝ} (hz : -1 < z) : c.growth_factor z =
    (2.5 * c.omega_m z / ((1 + z) * growthF (c.omega_m z))) / (2.5 * c.omega_m 0 / ((1 + 0) * growthF (c.omega_m 0))) := by
  unfold Cosm.growth_factor Cosm.growthNorm
  have h00 : (0.0 : ℝ) = 0 := by norm_num
  rw [g.growthAt hz, h00, g.growthAt (by norm_num : (-1 : ℝ) < 0)]
  have h1 : (1.0 : ℝ) = 1 := by norm_num
  rw [h1, one_mul, one_div, inv_mul_eq_div]

/-- C81: the growth factor is 1 today and positive always; the collapse threshold today is 1.686. -/
theorem C81_today {c : Cosm} (g : Good c) : c.growth_factor 0 = 1 ∧ c.delta_crit 0 = 1.686 ∧ ∀ z, -1 < z → 0 < c.growth_factor z ∧ 0 < c.delta_crit z ∧
    c.delta_crit z * c.growth_factor z = 1.686 := by
  have h0 : (-1 : ℝ) < 0 := by norm_num
  have e : c.growth_factor 0 = 1 := by rw [g.growth_eq h0, div_self (ne_of_gt (g.growth_pos_at h0))]
  refine ⟨e, by unfold Cosm.delta_crit; rw [e]; norm_num, fun z hz => ?_⟩
  have hp : 0 < c.growth_factor z := by rw [g.growth_eq hz]; exact div_pos (g.growth_pos_at hz) (g.growth_pos_at h0)
  unfold Cosm.delta_crit
  refine ⟨hp, by positivity, by field_simp⟩

/-- The reciprocal of the growth factor, up to a constant factor, as a function of u = 1+z; l is Omega_L/Omega_m today. -/
noncomputable def invGrowth (l u : ℝ) : ℝ := u * (1 + l / u ^ 3) ^ (3 / 7 : ℝ) + (u + l / u ^ 2) / 70 + 209 / 140 * u - u / (140 * (1 + l / u ^ 3))

theorem invGrowth_eq {l u x : ℝ} (hu : 0 < u) (hl : 0 < l) (hx : x = 1 / (1 + l / u ^ 3)) : u * growthF x / x = invGrowth l u := by
  have hw : 0 < 1 + l / u ^ 3 := by positivity
  have h1 : x ^ (4 / 7 : ℝ) = x * (1 + l / u ^ 3) ^ (3 / 7 : ℝ) := by
    have e : x = (1 + l / u ^ 3)⁻¹ := by rw [hx, one_div]
    rw [e, Real.inv_rpow (le_of_lt hw), ← Real.rpow_neg (le_of_lt hw), ← Real.rpow_neg_one, ← Real.rpow_add hw]
    norm_num
  have hxp : 0 < x := by rw [hx]; positivity
  unfold growthF invGrowth
  rw [h1]
  have e2 : u * (x * (1 + l / u ^ 3) ^ (3 / 7 : ℝ) - (1 - x) + (1 + x / 2) * (1 + (1 - x) / 70)) / x =
      u * (1 + l / u ^ 3) ^ (3 / 7 : ℝ) + u * (1 / x) / 70 + 209 / 140 * u - u * x / 140 := by
    field_simp
    ring
  rw [e2, hx]
  field_simp

theorem invGrowth_strictMono {l : ℝ} (hl : 0 < l) (hl' : l ≤ 22 / 3) : StrictMonoOn (invGrowth l) (Set.Ici 1) := by
  have hd : ∀ u : ℝ, 1 ≤ u → HasDerivAt (invGrowth l)
      (((1 + l / u ^ 3) ^ (3 / 7 : ℝ) + u * ((-3 * l / u ^ 4) * (3 / 7) * (1 + l / u ^ 3) ^ ((3 / 7 : ℝ) - 1))) + (1 + -2 * l / u ^ 3) / 70 + 209 / 140 -
        (140 * (1 + l / u ^ 3) - u * (140 * (-3 * l / u ^ 4))) / (140 * (1 + l / u ^ 3)) ^ 2) u := by
    intro u hu
    have hu0 : (0 : ℝ) < u := by linarith
    have hw : 0 < 1 + l / u ^ 3 := by positivity
    have h3 : HasDerivAt (fun u : ℝ => 1 + l / u ^ 3) (-3 * l / u ^ 4) u := by
      have := ((hasDerivAt_const u l).div (hasDerivAt_pow 3 u) (by positivity)).const_add 1
      refine this.congr_deriv ?_
      field_simp
      norm_num
      try ring
    have h2 : HasDerivAt (fun u : ℝ => l / u ^ 2) (-2 * l / u ^ 3) u := by
      have := ((hasDerivAt_const u l).div (hasDerivAt_pow 2 u) (by positivity))
      refine this.congr_deriv ?_
      field_simp
      norm_num
      try ring
    have t1 := (hasDerivAt_id u).mul (h3.rpow_const (p := 3 / 7) (Or.inl (ne_of_gt hw)))
    have t2 := ((hasDerivAt_id u).add h2).div_const 70
    have t3 := (hasDerivAt_id u).const_mul (209 / 140)
    have t4 := (hasDerivAt_id u).div (h3.const_mul 140) (by positivity)
    have := ((t1.add t2).add t3).sub t4
    refine this.congr_deriv ?_
    simp only [id, one_mul, mul_one]
  refine strictMonoOn_of_deriv_pos (convex_Ici 1) (fun u hu => (hd u hu).continuousAt.continuousWithinAt) ?_
  intro u hu
  rw [interior_Ici] at hu
  have hu1 : (1 : ℝ) < u := hu
  have hu0 : (0 : ℝ) < u := by linarith
  rw [(hd u (le_of_lt hu1)).deriv]
  set w := l / u ^ 3 with hwdef
  have hu3 : (1 : ℝ) ≤ u ^ 3 := one_le_pow₀ (le_of_lt hu1)
  have hw0 : 0 < w := by positivity
  have hw1 : w ≤ 22 / 3 := by
    rw [hwdef, div_le_iff₀ (by positivity)]
    nlinarith
  have e1 : u * ((-3 * l / u ^ 4) * (3 / 7) * (1 + w) ^ ((3 / 7 : ℝ) - 1)) = -(9 / 7) * w * (1 + w) ^ ((3 / 7 : ℝ) - 1) := by
    rw [hwdef]; field_simp; norm_num
  have e2 : -2 * l / u ^ 3 = -2 * w := by rw [hwdef]; ring
  have e3 : u * (140 * (-3 * l / u ^ 4)) = -420 * w := by rw [hwdef]; field_simp; norm_num
  rw [e1, e2, e3]
  have hp : 0 < (1 + w) ^ ((3 / 7 : ℝ) - 1) := Real.rpow_pos_of_pos (by linarith) _
  have hp1 : (1 + w) ^ ((3 / 7 : ℝ) - 1) ≤ 1 := Real.rpow_le_one_of_one_le_of_nonpos (by linarith) (by norm_num)
  have hsplit : (1 + w) ^ (3 / 7 : ℝ) = (1 + w) * (1 + w) ^ ((3 / 7 : ℝ) - 1) := by
    rw [Real.rpow_sub_one (by linarith)]; field_simp
  rw [hsplit]
  set p := (1 + w) ^ ((3 / 7 : ℝ) - 1)
  have hq : (140 * (1 + w) - -420 * w) / (140 * (1 + w)) ^ 2 ≤ 4 / 140 := by
    rw [div_le_div_iff₀ (by positivity) (by norm_num)]
    nlinarith
  have h7 : -(1 : ℝ) * (2 / 7 * (22 / 3) - 1) ≤ (1 + w) * p + -(9 / 7) * w * p := by
    have : (1 + w) * p + -(9 / 7) * w * p = p * (1 - 2 / 7 * w) := by ring
    rw [this]
    by_cases h : 0 ≤ 1 - 2 / 7 * w
    · have := mul_nonneg (le_of_lt hp) h; linarith
    · push Not at h
      nlinarith
  linarith

/-- C81: for omega_m0 >= 0.12 the growth factor decreases strictly with redshift from its value 1 today, and the collapse threshold
increases from 1.686. -/
theorem C81_growth_decreasing {c : Cosm} (g : Good c) (hm : 0.12 ≤ c.omega_m0) {z w : ℝ} (hz : 0 ≤ z) (hw : z < w) :
    c.growth_factor w < c.growth_factor z ∧ c.delta_crit z < c.delta_crit w ∧ c.growth_factor w < 1 ∧ 1.686 < c.delta_crit w := by
  obtain ⟨h0, h1, hl, -⟩ := g.basic
  have hlam : 0 < (1 - c.omega_m0) / c.omega_m0 := div_pos (by linarith) h0
  have hlam' : (1 - c.omega_m0) / c.omega_m0 ≤ 22 / 3 := by
    rw [div_le_iff₀ h0]; norm_num at hm ⊢; linarith
  have key : ∀ z, 0 ≤ z → c.growth_factor z = 2.5 / invGrowth ((1 - c.omega_m0) / c.omega_m0) (1 + z) / (2.5 * c.omega_m 0 / ((1 + 0) * growthF (c.omega_m 0))) := by
    intro z hz
    rw [g.growth_eq (by linarith)]
    have hx : c.omega_m z = 1 / (1 + (1 - c.omega_m0) / c.omega_m0 / (1 + z) ^ 3) := by
      rw [g.om]
      have : 0 < 1 + z := by linarith
      have h9 : 0 < 1 - c.omega_m0 := by linarith
      field_simp
      ring
    rw [← invGrowth_eq (by linarith) hlam hx]
    have hF := growthF_pos (C79_flat g (show -1 < z by linarith)).2.1 (g.om_lt (by linarith))
    have := (C79_flat g (show -1 < z by linarith)).2.1
    have h9 : 0 < 1 + z := by linarith
    congr 1
    field_simp
  have hpos0 := g.growth_pos_at (show (-1 : ℝ) < 0 by norm_num)
  have hip : ∀ z, 0 ≤ z → 0 < invGrowth ((1 - c.omega_m0) / c.omega_m0) (1 + z) := by
    intro z hz
    have hp := ((C81_today g).2.2 z (by linarith)).1
    rw [key z hz] at hp
    by_contra hcon
    have : 2.5 / invGrowth ((1 - c.omega_m0) / c.omega_m0) (1 + z) ≤ 0 := div_nonpos_of_nonneg_of_nonpos (by norm_num) (not_lt.mp hcon)
    have := div_nonpos_of_nonpos_of_nonneg this (le_of_lt hpos0)
    linarith
  have lt : ∀ z w, 0 ≤ z → z < w → c.growth_factor w < c.growth_factor z := by
    intro z w hz hw
    rw [key z hz, key w (by linarith)]
    have := invGrowth_strictMono hlam hlam' (show (1 : ℝ) + z ∈ Set.Ici 1 by simp; linarith) (show (1 : ℝ) + w ∈ Set.Ici 1 by simp; linarith) (show 1 + z < 1 + w by linarith)
    exact div_lt_div_of_pos_right (div_lt_div_of_pos_left (by norm_num) (hip z hz) this) hpos0
  have dlt : ∀ z w, 0 ≤ z → z < w → c.delta_crit z < c.delta_crit w := by
    intro z w hz hw
    unfold Cosm.delta_crit
    exact div_lt_div_of_pos_left (by norm_num) ((C81_today g).2.2 w (by linarith)).1 (lt z w hz hw)
  have a := lt 0 w le_rfl (by linarith)
  have b := dlt 0 w le_rfl (by linarith)
  rw [(C81_today g).1] at a
  rw [(C81_today g).2.1] at b
  exact ⟨lt z w hz hw, dlt z w hz hw, a, b⟩

/-- Non-vacuity: Planck 2015 meets the hypotheses. -/
example : planck2015.growth_factor 2 < planck2015.growth_factor 1 :=
  (C81_growth_decreasing ⟨⟨_, _, _, _, _, by norm_num, by norm_num, by norm_num, rfl⟩⟩ (by simp only [planck2015, Cosm.new]; norm_num)
    (by norm_num) (by norm_num)).1

end Pyhipp.Cosmology
