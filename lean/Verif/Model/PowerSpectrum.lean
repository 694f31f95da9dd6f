import Verif.Model.Cosmology
import Verif.Model.Interpolate
import Mathlib.Analysis.SpecialFunctions.Log.Base
/-
Model of src/pyhipp/astro/cosmology/power_spectrum.py: transfer functions, power spectrum, variance of the density field.
Floats are real numbers.
-/
namespace Pyhipp.Cosmology
open Pyhipp

/-- power_spectrum.py:12-14 `sqr`. -/
noncomputable def sqr (x : ℝ) : ℝ := x * x
/-- power_spectrum.py:17-19 `cube`. -/
noncomputable def cube (x : ℝ) : ℝ := x * x * x
/-- power_spectrum.py:22-24 `pow4`. -/
noncomputable def pow4 (x : ℝ) : ℝ := x * x * x * x

/-! ### Eisenstein & Hu 1999 -/

/-- power_spectrum.py:61-89: those fields of `_TransferFunctionEH99` that `_transfer_function` reads. -/
structure EH99 where
  alpha_gamma : ℝ
  beta_c : ℝ
  num_degen_hdm : ℝ
  f_cb : ℝ
  f_hdm : ℝ
  growth_k0 : ℝ
  hhubble : ℝ
  omhh : ℝ
  p_cb : ℝ
  sound_horizon_fit : ℝ
  theta_cmb : ℝ
  with_neutrino : Bool

/-- power_spectrum.py:148-151: `if degen_hdm < 1: degen_hdm = 1`. -/
def EH99.degen (degen_hdm : Int) : Int := if degen_hdm < 1 then 1 else degen_hdm

/-- power_spectrum.py:153-156: zero densities are replaced by a trace amount. -/
noncomputable def EH99.trace (omega : ℝ) : ℝ := if omega ≤ 0 then 1.0e-5 else omega

/-- power_spectrum.py:158-217: the numbers computed from accepted arguments (fields that are never read are left out). -/
noncomputable def EH99.compute (omega_matter omega_baryon omega_hdm num_degen_hdm omega_lambda hubble redshift : ℝ) (with_neutrino : Bool) : EH99 :=
  let theta_cmb : ℝ := 2.728 / 2.7
  let hubble_sqr := sqr hubble
  let omega_curv := 1.0 - omega_matter - omega_lambda
  let omhh := omega_matter * hubble_sqr
  let obhh := omega_baryon * hubble_sqr
  let f_baryon := omega_baryon / omega_matter
  let f_hdm := omega_hdm / omega_matter
  let f_cdm := 1.0 - f_baryon - f_hdm
  let f_cb := f_cdm + f_baryon
  let f_bnu := f_baryon + f_hdm
  let theta_cmb_sqr := sqr theta_cmb
  let z_equality := 25000.0 * omhh / sqr theta_cmb_sqr
  let z_drag_b1 := 0.313 * omhh ^ (-0.419 : ℝ) * (1 + 0.607 * omhh ^ (0.674 : ℝ))
  let z_drag_b2 := 0.238 * omhh ^ (0.223 : ℝ)
  let z_drag := 1291 * omhh ^ (0.251 : ℝ) / (1.0 + 0.659 * omhh ^ (0.828 : ℝ)) * (1.0 + z_drag_b1 * obhh ^ z_drag_b2)
  let y_drag := z_equality / (1.0 + z_drag)
  let sound_horizon_fit := 44.5 * Real.log (9.83 / omhh) / Real.sqrt (1.0 + 10.0 * obhh ^ (0.75 : ℝ))
  let p_c := 0.25 * (5.0 - Real.sqrt (1 + 24.0 * f_cdm))
  let p_cb := 0.25 * (5.0 - Real.sqrt (1 + 24.0 * f_cb))
  let omega_denom := omega_lambda + sqr (1.0 + redshift) * (omega_curv + omega_matter * (1.0 + redshift))
  let omega_lambda_z := omega_lambda / omega_denom
  let omega_matter_z := omega_matter * sqr (1.0 + redshift) * (1.0 + redshift) / omega_denom
  let growth_k0 := z_equality / (1.0 + redshift) * 2.5 * omega_matter_z /
    (omega_matter_z ^ (4.0 / 7.0 : ℝ) - omega_lambda_z + (1.0 + omega_matter_z / 2.0) * (1.0 + omega_lambda_z / 70.0))
  let alpha_nu := f_cdm / f_cb * (5.0 - 2 * (p_c + p_cb)) / (5 - 4 * p_cb) * (1 + y_drag) ^ (p_cb - p_c) *
    (1 + f_bnu * (-0.553 + 0.126 * f_bnu * f_bnu)) /
    (1 - 0.193 * Real.sqrt (f_hdm * num_degen_hdm) + 0.169 * f_hdm * num_degen_hdm ^ (0.2 : ℝ)) *
    (1 + (p_c - p_cb) / 2 * (1 + 1 / (3 - 4 * p_c) / (7 - 4 * p_cb)) / (1 + y_drag))
  let alpha_gamma := Real.sqrt alpha_nu
  let beta_c := 1 / (1 - 0.949 * f_bnu)
  { alpha_gamma, beta_c, num_degen_hdm, f_cb, f_hdm, growth_k0, hhubble := hubble, omhh, p_cb, sound_horizon_fit, theta_cmb, with_neutrino }

open Classical in
/-- power_spectrum.py:108-156 `set_cosmology`: the checks, then the computation. -/
noncomputable def EH99.setCosmology (omega_matter omega_baryon omega_hdm : ℝ) (degen_hdm : Int) (omega_lambda hubble redshift : ℝ) (with_neutrino : Bool) : PyM EH99 :=
  if omega_baryon < 0.0 then .error .valueError
  else if omega_hdm < 0.0 then .error .valueError
  else if hubble ≤ 0.0 then .error .valueError
  else if hubble > 2.0 then .error .valueError
  else if redshift ≤ -1.0 then .error .valueError
  else if redshift > 99.0 then .error .valueError
  else .ok (EH99.compute omega_matter (EH99.trace omega_baryon) (EH99.trace omega_hdm) (EH99.degen degen_hdm : ℝ) omega_lambda hubble redshift with_neutrino)

/-- power_spectrum.py:249-292 `_transfer_function`: (cb, cbnu). -/
noncomputable def EH99.tf (t : EH99) (kk : ℝ) : ℝ × ℝ :=
  let kk := kk * t.hhubble
  let qq := kk / t.omhh * sqr t.theta_cmb
  let y_freestream := 17.2 * t.f_hdm * (1 + 0.488 * t.f_hdm ^ (-7.0 / 6.0 : ℝ)) * sqr (t.num_degen_hdm * qq / t.f_hdm)
  let temp1 := t.growth_k0 ^ (1.0 - t.p_cb)
  let temp2 := (t.growth_k0 / (1 + y_freestream)) ^ (0.7 : ℝ)
  let growth_cb := (1.0 + temp2) ^ (t.p_cb / 0.7) * temp1
  let growth_cbnu := (t.f_cb ^ (0.7 / t.p_cb) + temp2) ^ (t.p_cb / 0.7) * temp1
  let gamma_eff := t.omhh * (t.alpha_gamma + (1 - t.alpha_gamma) / (1 + sqr (sqr (kk * t.sound_horizon_fit * 0.43))))
  let qq_eff := qq * t.omhh / gamma_eff
  let tf_sup_L := Real.log (2.71828 + 1.84 * t.beta_c * t.alpha_gamma * qq_eff)
  let tf_sup_C := 14.4 + 325 / (1 + 60.5 * qq_eff ^ (1.11 : ℝ))
  let tf_sup := tf_sup_L / (tf_sup_L + tf_sup_C * sqr qq_eff)
  let qq_nu := 3.92 * qq * Real.sqrt (t.num_degen_hdm / t.f_hdm)
  let max_fs_correction := 1 + 1.2 * t.f_hdm ^ (0.64 : ℝ) * t.num_degen_hdm ^ (0.3 + 0.6 * t.f_hdm) / (qq_nu ^ (-1.6 : ℝ) + qq_nu ^ (0.8 : ℝ))
  let tf_master := tf_sup * max_fs_correction
  (tf_master * growth_cb / t.growth_k0, tf_master * growth_cbnu / t.growth_k0)

/-- power_spectrum.py:294-297 `transfer_function`. -/
noncomputable def EH99.transfer_function (t : EH99) (kk : ℝ) : ℝ := if t.with_neutrino then (t.tf kk).2 else (t.tf kk).1

/-! ### Eisenstein & Hu 1998 -/

/-- power_spectrum.py:314-333: those fields of `_TransferFunctionEH98` that `_transfer_function` reads. -/
structure EH98 where
  hubble : ℝ
  omhh : ℝ
  obhh : ℝ
  k_equality : ℝ
  sound_horizon : ℝ
  k_silk : ℝ
  alpha_c : ℝ
  beta_c : ℝ
  alpha_b : ℝ
  beta_b : ℝ
  beta_node : ℝ

/-- power_spectrum.py:363-408: the numbers computed from accepted arguments (fields that are never read are left out). -/
noncomputable def EH98.compute (omega0 f_baryon hubble Tcmb : ℝ) : EH98 :=
  let omega0hh := omega0 * sqr hubble
  let omhh := omega0hh
  let obhh := omhh * f_baryon
  let theta_cmb := Tcmb / 2.7
  let z_equality := 2.50e4 * omhh / pow4 theta_cmb
  let k_equality := 0.0746 * omhh / sqr theta_cmb
  let z_drag_b1 := 0.313 * omhh ^ (-0.419 : ℝ) * (1 + 0.607 * omhh ^ (0.674 : ℝ))
  let z_drag_b2 := 0.238 * omhh ^ (0.223 : ℝ)
  let z_drag := 1291 * omhh ^ (0.251 : ℝ) / (1 + 0.659 * omhh ^ (0.828 : ℝ)) * (1 + z_drag_b1 * obhh ^ z_drag_b2)
  let R_drag := 31.5 * obhh / pow4 theta_cmb * (1000 / (1 + z_drag))
  let R_equality := 31.5 * obhh / pow4 theta_cmb * (1000 / z_equality)
  let sound_horizon := 2 / 3 / k_equality * Real.sqrt (6 / R_equality) *
    Real.log ((Real.sqrt (1 + R_drag) + Real.sqrt (R_drag + R_equality)) / (1 + Real.sqrt R_equality))
  let k_silk := 1.6 * obhh ^ (0.52 : ℝ) * omhh ^ (0.73 : ℝ) * (1 + (10.4 * omhh) ^ (-0.95 : ℝ))
  let alpha_c_a1 := (46.9 * omhh) ^ (0.670 : ℝ) * (1 + (32.1 * omhh) ^ (-0.532 : ℝ))
  let alpha_c_a2 := (12.0 * omhh) ^ (0.424 : ℝ) * (1 + (45.0 * omhh) ^ (-0.582 : ℝ))
  let alpha_c := alpha_c_a1 ^ (-f_baryon) * alpha_c_a2 ^ (-cube f_baryon)
  let beta_c_b1 := 0.944 / (1 + (458 * omhh) ^ (-0.708 : ℝ))
  let beta_c_b2 := (0.395 * omhh) ^ (-0.0266 : ℝ)
  let beta_c := 1.0 / (1 + beta_c_b1 * ((1 - f_baryon) ^ beta_c_b2 - 1))
  let y := z_equality / (1 + z_drag)
  let alpha_b_G := y * (-6 * Real.sqrt (1 + y) + (2 + 3 * y) * Real.log ((Real.sqrt (1 + y) + 1) / (Real.sqrt (1 + y) - 1)))
  let alpha_b := 2.07 * k_equality * sound_horizon * (1 + R_drag) ^ (-0.75 : ℝ) * alpha_b_G
  let beta_node := 8.41 * omhh ^ (0.435 : ℝ)
  let beta_b := 0.5 + f_baryon + (3 - 2 * f_baryon) * Real.sqrt ((17.2 * omhh) ^ (2.0 : ℝ) + 1)
  { hubble, omhh, obhh, k_equality, sound_horizon, k_silk, alpha_c, beta_c, alpha_b, beta_b, beta_node }

open Classical in
/-- power_spectrum.py:338-361 `set_cosmology`: the checks, then the computation. -/
noncomputable def EH98.setCosmology (omega0 f_baryon hubble Tcmb : ℝ) : PyM EH98 :=
  if omega0 ≤ 0.0 then .error .valueError
  else if f_baryon ≤ 0.0 then .error .valueError
  else if hubble ≤ 0.0 then .error .valueError
  else if Tcmb ≤ 0 then .error .valueError
  else .ok (EH98.compute omega0 f_baryon hubble Tcmb)

open Classical in
/-- power_spectrum.py:431-474 `_transfer_function`: (full, baryon, cdm). -/
noncomputable def EH98.tf (t : EH98) (kk : ℝ) : ℝ × ℝ × ℝ :=
  let k := kk * t.hubble
  let k := |k|
  if k = 0.0 then (1.0, 1.0, 1.0) else
  let q := k / 13.41 / t.k_equality
  let xx := k * t.sound_horizon
  let T_c_ln_beta := Real.log (2.718282 + 1.8 * t.beta_c * q)
  let T_c_ln_nobeta := Real.log (2.718282 + 1.8 * q)
  let T_c_C_alpha := 14.2 / t.alpha_c + 386.0 / (1 + 69.9 * q ^ (1.08 : ℝ))
  let T_c_C_noalpha := 14.2 + 386.0 / (1 + 69.9 * q ^ (1.08 : ℝ))
  let T_c_f := 1.0 / (1.0 + pow4 (xx / 5.4))
  let T_c := T_c_f * T_c_ln_beta / (T_c_ln_beta + T_c_C_noalpha * sqr q) + (1 - T_c_f) * T_c_ln_beta / (T_c_ln_beta + T_c_C_alpha * sqr q)
  let s_tilde := t.sound_horizon * (1 + cube (t.beta_node / xx)) ^ (-1 / 3 : ℝ)
  let xx_tilde := k * s_tilde
  let T_b_T0 := T_c_ln_nobeta / (T_c_ln_nobeta + T_c_C_noalpha * sqr q)
  let T_b := Real.sin xx_tilde / xx_tilde * (T_b_T0 / (1 + sqr (xx / 5.2)) +
    t.alpha_b / (1 + cube (t.beta_b / xx)) * Real.exp (-(k / t.k_silk) ^ (1.4 : ℝ)))
  let f_baryon := t.obhh / t.omhh
  (f_baryon * T_b + (1 - f_baryon) * T_c, T_b, T_c)

/-- power_spectrum.py:476-477 `transfer_function`. -/
noncomputable def EH98.transfer_function (t : EH98) (kk : ℝ) : ℝ := (t.tf kk).1

/-- power_spectrum.py:481-517 `_TransferFunctionFlatLambdaCDMNR`: the function T(k) of the variant chosen. -/
noncomputable def Cosm.transfer (cosm : Cosm) (with_baryon_effect : Bool) : PyM (ℝ → ℝ) :=
  if with_baryon_effect then do
    let t ← EH98.setCosmology cosm.omega_m0 cosm.baryon_fraction cosm.hubble 2.728
    return t.transfer_function
  else do
    let t ← EH99.setCosmology cosm.omega_m0 cosm.omega_b0 0.0 0 cosm.omega_l0 cosm.hubble 0.0 false
    return t.transfer_function

/-! ### Power spectrum -/

/-- scipy.integrate.quad over an interval: the value it returns for a function. -/
abbrev Quad := (ℝ → ℝ) → ℝ

/-- power_spectrum.py:601-605: the fields of `_PowerSpectrumFlatLambdaCDMNR`; the growth factor is that of `cosm`. -/
structure PowerSpectrum where
  cosm : Cosm
  tf : ℝ → ℝ
  norm : ℝ

open Classical in
/-- power_spectrum.py:620-623 `_j1`. -/
noncomputable def j1 (x : ℝ) : ℝ := if x < 1.0e-5 then (1 / 3) * x else (Real.sin x - x * Real.cos x) / (x * x)

open Classical in
/-- power_spectrum.py:625-629 `window_func`. -/
noncomputable def window_func (k r : ℝ) : ℝ :=
  let x := k * r
  if x < 1.0e-5 then 1.0 else 3.0 * j1 x / x

/-- power_spectrum.py:649-659 `_sigma_sqr_integrand`. -/
noncomputable def PowerSpectrum.integrand (P : PowerSpectrum) (r z ln_k : ℝ) : ℝ :=
  let k := Real.exp ln_k
  let T := P.tf k
  let D1 := P.cosm.growth_factor z
  let W := window_func k r
  let f1 := k ^ (3.0 + P.cosm.n_spec)
  let f2 := 1.0e3 * T * D1 * W
  f1 * f2 ^ 2

/-- power_spectrum.py:661-673 `sigma_sqr`; `quad` integrates over ln k from -23 to 23. -/
noncomputable def PowerSpectrum.sigma_sqr (quad : Quad) (P : PowerSpectrum) (r z : ℝ) : ℝ := quad (P.integrand r z) * P.norm

/-- power_spectrum.py:607-618 `__init__` and 699-702 `_normalize_tf`, once the transfer function is constructed. -/
noncomputable def PowerSpectrum.normalized (quad : Quad) (cosm : Cosm) (tf : ℝ → ℝ) : PowerSpectrum :=
  let P : PowerSpectrum := ⟨cosm, tf, 1.0⟩
  let sigma_8_sqr := cosm.sigma_8 ^ 2
  let sigma_sqr := P.sigma_sqr quad 8.0 0.0
  { P with norm := sigma_8_sqr / sigma_sqr }

/-- power_spectrum.py:607-618 `__init__`. -/
noncomputable def PowerSpectrum.new (quad : Quad) (cosm : Cosm) (with_baryon_effect : Bool) : PyM PowerSpectrum := do
  let tf ← cosm.transfer with_baryon_effect
  return PowerSpectrum.normalized quad cosm tf

/-- power_spectrum.py:675-680 `sigma_sqr_at_mass`. -/
noncomputable def PowerSpectrum.sigma_sqr_at_mass (quad : Quad) (P : PowerSpectrum) (mass z : ℝ) : ℝ :=
  P.sigma_sqr quad (P.cosm.m_to_r mass) z

/-- power_spectrum.py:704-716 `big_delta_sqr`. -/
noncomputable def PowerSpectrum.big_delta_sqr (P : PowerSpectrum) (k z : ℝ) : ℝ :=
  let f1 := k ^ (3.0 + P.cosm.n_spec)
  let T := P.tf k
  let D1 := P.cosm.growth_factor z
  let f2 := 1.0e3 * T * D1
  P.norm * f1 * f2 ^ 2

/-- power_spectrum.py:718-729 `power`. -/
noncomputable def PowerSpectrum.power (P : PowerSpectrum) (k z : ℝ) : ℝ :=
  let f1 := 2.0 * Real.pi ^ 2 * k ^ P.cosm.n_spec
  let T := P.tf k
  let D1 := P.cosm.growth_factor z
  let f2 := 1.0e3 * T * D1
  P.norm * f1 * f2 ^ 2

/-- power_spectrum.py:692 `np.linspace(lm1, lm2, n_nodes)` for n_nodes ≥ 2. -/
noncomputable def linspaceR (a b : ℝ) (n : Nat) : List ℝ := (List.range n).map (fun i : Nat => a + i * ((b - a) / (n - 1 : ℝ)))

/-- power_spectrum.py:682-697 `interp_lg_sigma_at_lg_mass` (n_nodes ≥ 2). -/
noncomputable def PowerSpectrum.interp_lg_sigma (quad : Quad) (P : PowerSpectrum) (lm1 lm2 : ℝ) (n : Nat) : PyM (Interpolate.Linear ℝ) :=
  let lm := linspaceR lm1 lm2 n
  let m := lm.map (fun x => (10.0 : ℝ) ^ x)
  let lsigma := m.map (fun m => Real.logb 10 (Real.sqrt (P.sigma_sqr_at_mass quad m 0.0)))
  Interpolate.Linear.init lm lsigma true

end Pyhipp.Cosmology
