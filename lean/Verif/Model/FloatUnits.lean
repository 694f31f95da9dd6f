import Verif.Model.FloatCosmology
import Verif.Model.FloatKernel
/-
Model of `_Constants` and `_UnitSystem` (src/pyhipp/astro/quantity/unit_system.py), of `_make_us_for_cosmology` and of the critical density today and the mass in a
sphere (src/pyhipp/astro/cosmology/flat_lambda_cdm_nr.py) in double precision.  The code is compiled by numba: `x**2` is `x * x`, `x**3` is `x * (x * x)`, a division
by the number zero raises ZeroDivisionError, an overflow does not raise.
-/
namespace Pyhipp.FloatUnits
open Pyhipp Pyhipp.F64 Pyhipp.FloatLinear Pyhipp.FloatCosmology Pyhipp.FloatKernel

/-- quantity/unit_system.py:9-26: the fields of `_Constants`. -/
structure Constants where
  pc_to_m : Num
  kpc_to_m : Num
  mpc_to_m : Num
  yr_to_s : Num
  kyr_to_s : Num
  myr_to_s : Num
  gyr_to_s : Num
  msun_to_kg : Num
  light_speed : Num
  proton_mass : Num
  gravity_constant : Num
  solar_mass : Num
  salpeter_time : Num

/-- quantity/unit_system.py:28-44 `_Constants.__init__`; a decimal literal is the double nearest to it. -/
def constants : Constants :=
  let mpc := ofQ (3085677581491367 * 10 ^ 7)
  let gyr := ofQ (315576 * 10 ^ 11)
  { mpc_to_m := mpc
    kpc_to_m := Num.mul mpc (.fin 1000)
    pc_to_m := Num.div mpc (.fin 1000000)
    gyr_to_s := gyr
    myr_to_s := Num.div gyr (.fin 1000)
    kyr_to_s := Num.div gyr (.fin 1000000)
    yr_to_s := Num.div gyr (.fin 1000000000)
    msun_to_kg := ofQ (1988409870698051 * 10 ^ 15)
    light_speed := .fin 299792458
    proton_mass := ofQ (167262192369 / 10 ^ 38)
    gravity_constant := ofQ (66743 / 10 ^ 15)
    solar_mass := ofQ (1988409870698051 * 10 ^ 15)
    salpeter_time := Num.mul (ofQ (45049 / 100)) (Num.mul gyr (ofQ (1 / 1000))) }

/-- quantity/unit_system.py:50-72: the fields of `_UnitSystem`. -/
structure Units where
  u_length : Num
  u_time : Num
  u_mass : Num
  u_temperature : Num
  u_gravity_constant : Num
  u_density : Num
  u_big_hubble : Num
  u_velocity : Num
  u_velocity_in_kmps : Num
  proton_mass : Num
  solar_mass : Num
  pc : Num
  yr : Num
  salpeter_time : Num
  light_speed : Num
  gravity_constant : Num

/-- quantity/unit_system.py:74-102 `_UnitSystem.__init__`. -/
def Units.new (l t m θ : Num) : PyM Units := do
  let g1 ← pyDiv (cube l) (Num.mul t t)
  let u_g ← pyDiv g1 m
  let u_rho ← pyDiv m (cube l)
  let u_h ← pyDiv (.fin 1) t
  let u_v ← pyDiv l t
  let u_kmps ← pyDiv u_v (.fin 1000)
  let cc := constants
  let mp ← pyDiv cc.proton_mass m
  let ms ← pyDiv cc.solar_mass m
  let pc ← pyDiv cc.pc_to_m l
  let yr ← pyDiv cc.yr_to_s t
  let sal ← pyDiv cc.salpeter_time t
  let c ← pyDiv cc.light_speed u_v
  let g ← pyDiv cc.gravity_constant u_g
  return { u_length := l, u_time := t, u_mass := m, u_temperature := θ, u_gravity_constant := u_g, u_density := u_rho, u_big_hubble := u_h, u_velocity := u_v,
           u_velocity_in_kmps := u_kmps, proton_mass := mp, solar_mass := ms, pc := pc, yr := yr, salpeter_time := sal, light_speed := c, gravity_constant := g }

/-- cosmology/flat_lambda_cdm_nr.py:23-31 `_make_us_for_cosmology`. -/
def makeUs (hubble : Num) : PyM Units := do
  let cc := constants
  let l ← pyDiv cc.mpc_to_m hubble
  let t ← pyDiv cc.gyr_to_s hubble
  let m ← pyDiv (Num.mul cc.msun_to_kg (.fin (10 ^ 10))) hubble
  Units.new l t m (.fin 1)

/-- cosmology/flat_lambda_cdm_nr.py:70: the literal of `big_hubble0`. -/
def bigHubble0 : Num := ofQ (1022712165045695 / 10 ^ 16)

/-- cosmology/flat_lambda_cdm_nr.py:128-135 `_Densities.crit0`, given the unit system of the cosmology and `big_hubble0`. -/
def crit0 (us : Units) (h0 : Num) : PyM Num :=
  pyDiv (Num.mul (.fin 3) (Num.mul h0 h0)) (Num.mul (Num.mul (.fin 8) (.fin pi64)) us.gravity_constant)

/-- cosmology/flat_lambda_cdm_nr.py:144-149 `_Densities.mean0` and 158-163 `r_to_m`. -/
def rToM (us : Units) (h0 omegaM0 r : Num) : PyM Num := do
  let rho ← crit0 us h0
  return Num.mul (Num.mul (Num.mul (Num.div (.fin 4) (.fin 3)) (.fin pi64)) (cube r)) (Num.mul rho omegaM0)

/-- cosmology/flat_lambda_cdm_nr.py:144-149 `_Densities.mean0` and 165-172 `m_to_r`; `pow13` is what the C library computes for `x**(1.0/3.0)`. -/
def mToR (pow13 : Num → Num) (us : Units) (h0 omegaM0 mass : Num) : PyM Num := do
  let rho ← crit0 us h0
  let vol ← pyDiv mass (Num.mul rho omegaM0)
  let r3 ← pyDiv vol (Num.mul (Num.div (.fin 4) (.fin 3)) (.fin pi64))
  return pow13 r3

end Pyhipp.FloatUnits
