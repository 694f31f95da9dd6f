import Verif.Model.FloatUnits
/-
Model of the virial quantities of `HaloTheory` (src/pyhipp/astro/cosmology/halo_theory.py:14-31, 94-143, 227-232) in double precision: every operation
rounds.  The functions are those for arrays, elementwise (a division by zero gives an infinity or NaN; with plain Python numbers it raises).  The gravity
constant, the unit conversion and the density of the model at a redshift are parameters; `pow13` and `pow3` are what the C library computes for
`x**(1./3.)` and `x**3`, `sq` its square root.
-/
namespace Pyhipp.FloatHalo
open Pyhipp Pyhipp.F64 Pyhipp.FloatReduce Pyhipp.FloatUnits Pyhipp.FloatKernel

/-- halo_theory.py:94-101 `rho_vir_mean` and 103-110 `rho_vir_crit`; `rhoZ` is `self.model.rho_matter(z)` or `self.model.rho_crit(z)`. -/
def rhoVir (pow3 : Num → Num) (f rhoZ z : Num) : Num :=
  let a := Num.div (.fin 1) (Num.add (.fin 1) z)
  let rho := Num.mul rhoZ (pow3 a)
  Num.mul f rho

/-- halo_theory.py:124-130 `r_vir`. -/
def rVir (pow13 : Num → Num) (m rho : Num) : Num :=
  let V := Num.div m rho
  pow13 (Num.div V (Num.mul (Num.div (.fin 4) (.fin 3)) (.fin pi64)))

/-- halo_theory.py:132-141 `v_vir`; `kmps` is the factor `u_v_to_kmps` if `to_kmps` is set. -/
def vVir (sq : ℚ → ℚ) (G m r : Num) (kmps : Option Num) : Num :=
  let v := npSqrt sq (Num.div (Num.mul G m) r)
  match kmps with
  | none => v
  | some u => Num.mul v u

/-- halo_theory.py:14-26 `VirialProperties`. -/
structure Virial where
  m : Num
  rho : Num
  r : Num
  r_phy : Num
  v : Num

/-- halo_theory.py:28-31 `t_dyn`. -/
def Virial.tDyn (p : Virial) : Num := Num.div p.r_phy p.v

/-- halo_theory.py:227-232 `__vir_props`. -/
def virProps (pow13 : Num → Num) (sq : ℚ → ℚ) (G m rho z : Num) : Virial :=
  let r := rVir pow13 m rho
  let a := Num.div (.fin 1) (Num.add (.fin 1) z)
  let r_phy := Num.mul a r
  let v := vVir sq G m r_phy none
  ⟨m, rho, r, r_phy, v⟩

/-- halo_theory.py:112-122 `vir_props_mean` and `vir_props_crit`. -/
def virPropsOf (pow3 pow13 : Num → Num) (sq : ℚ → ℚ) (G m f rhoZ z : Num) : Virial :=
  virProps pow13 sq G m (rhoVir pow3 f rhoZ z) z

end Pyhipp.FloatHalo
