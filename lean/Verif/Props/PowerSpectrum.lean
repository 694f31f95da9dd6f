import Verif.Model.PowerSpectrum
import Verif.Props.Cosmology
import Verif.Props.Interpolate
import Mathlib.Analysis.SpecialFunctions.Trigonometric.Deriv
import Mathlib.Analysis.SpecialFunctions.Trigonometric.Bounds
/-
C81: transfer functions, power spectrum and the variance of the density field.
-/
namespace Pyhipp.Cosmology
open Pyhipp

/-- What the theorems need of the quadrature: scaling the integrand scales the result. -/
def Homogeneous (quad : Quad) : Prop := ∀ (c : ℝ) (f : ℝ → ℝ), quad (fun x => c * f x) = c * quad f

/-- The variance before normalisation. -/
noncomputable def rawSigma (quad : Quad) (c : Cosm) (T : ℝ → ℝ) (r : ℝ) : ℝ :=
  quad (fun ln_k => (Real.exp ln_k) ^ (3 + c.n_spec) * (1000 * T (Real.exp ln_k) * window_func (Real.exp ln_k) r) ^ 2)

theorem integrand_eq (P : PowerSpectrum) (r z : ℝ) : P.integrand r z = fun ln_k => P.cosm.growth_factor z ^ 2 *
    ((Real.exp ln_k) ^ (3 + P.cosm.n_spec) * (1000 * P.tf (Real.exp ln_k) * window_func (Real.exp ln_k) r) ^ 2) := by
  funext x
  have h3 : (3.0 : ℝ) = 3 := by norm_num
  have h1 : (1.0e3 : ℝ) = 1000 := by norm_num
  simp only [PowerSpectrum.integrand, h3, h1]
  ring

theorem sigma_raw {quad : Quad} (hq : Homogeneous quad) (P : PowerSpectrum) (r z : ℝ) :
    P.sigma_sqr quad r z = P.cosm.growth_factor z ^ 2 * rawSigma quad P.cosm P.tf r * P.norm := by
  unfold PowerSpectrum.sigma_sqr rawSigma
  rw [integrand_eq, hq]

theorem norm_raw {quad : Quad} (hq : Homogeneous quad) {c : Cosm} (g : Good c) (T : ℝ → ℝ) :
    (PowerSpectrum.normalized quad c T).norm = c.sigma_8 ^ 2 / rawSigma quad c T 8 := by
  have e : ((⟨c, T, 1.0⟩ : PowerSpectrum).sigma_sqr quad 8.0 0.0) = rawSigma quad c T 8 := by
    rw [sigma_raw hq]
    have h0 : (0.0 : ℝ) = 0 := by norm_num
    have h8 : (8.0 : ℝ) = 8 := by norm_num
    have h1 : (1.0 : ℝ) = 1 := by norm_num
    simp only [h0, h8, h1, (C81_today g).1]
    ring
  simp only [PowerSpectrum.normalized]
  rw [e]

/-- C81: after construction the variance in spheres of 8 Mpc/h today is sigma_8^2, whatever the transfer function and the quadrature,
as long as the quadrature does not return 0 for the unnormalised variance. -/
theorem C81_sigma8 (quad : Quad) (c : Cosm) (T : ℝ → ℝ) (h : (⟨c, T, 1⟩ : PowerSpectrum).sigma_sqr quad 8 0 ≠ 0) :
    (PowerSpectrum.normalized quad c T).sigma_sqr quad 8 0 = c.sigma_8 ^ 2 := by
  have h0 : (0.0 : ℝ) = 0 := by norm_num
  have h8 : (8.0 : ℝ) = 8 := by norm_num
  have h1 : (1.0 : ℝ) = 1 := by norm_num
  have hi : ∀ n n', (⟨c, T, n⟩ : PowerSpectrum).integrand 8 0 = (⟨c, T, n'⟩ : PowerSpectrum).integrand 8 0 := fun _ _ => rfl
  simp only [PowerSpectrum.sigma_sqr, PowerSpectrum.normalized, h0, h8, h1, mul_one] at h ⊢
  rw [hi _ 1]
  field_simp

/-- C81: so also in terms of masses: the mass in a sphere of 8 Mpc/h has the variance sigma_8^2. -/
theorem C81_sigma8_mass (quad : Quad) {c : Cosm} (g : Good c) (T : ℝ → ℝ) (h : (⟨c, T, 1⟩ : PowerSpectrum).sigma_sqr quad 8 0 ≠ 0) :
    (PowerSpectrum.normalized quad c T).sigma_sqr_at_mass quad (c.r_to_m 8) 0 = c.sigma_8 ^ 2 := by
  unfold PowerSpectrum.sigma_sqr_at_mass
  have : (PowerSpectrum.normalized quad c T).cosm = c := rfl
  rw [this, (C80_inverse g le_rfl (by norm_num : (0 : ℝ) ≤ 8)).2]
  exact C81_sigma8 quad c T h

/-- C81: the variance grows as the square of the growth factor, on all scales. -/
theorem C81_sigma_growth {quad : Quad} (hq : Homogeneous quad) (P : PowerSpectrum) (g : Good P.cosm) (r m z : ℝ) :
    P.sigma_sqr quad r z = P.cosm.growth_factor z ^ 2 * P.sigma_sqr quad r 0 ∧
    P.sigma_sqr_at_mass quad m z = P.cosm.growth_factor z ^ 2 * P.sigma_sqr_at_mass quad m 0 := by
  have key : ∀ r, P.sigma_sqr quad r z = P.cosm.growth_factor z ^ 2 * P.sigma_sqr quad r 0 := by
    intro r
    rw [sigma_raw hq, sigma_raw hq, (C81_today g).1]
    ring
  exact ⟨key r, key _⟩

/-- C81: the variance is the integral of Delta^2(k, z) W(k r)^2 over ln k. -/
theorem C81_sigma_integral {quad : Quad} (hq : Homogeneous quad) (P : PowerSpectrum) (r z : ℝ) :
    P.sigma_sqr quad r z = quad (fun ln_k => P.big_delta_sqr (Real.exp ln_k) z * window_func (Real.exp ln_k) r ^ 2) := by
  unfold PowerSpectrum.sigma_sqr
  rw [mul_comm, ← hq]
  congr 1
  funext x
  simp only [PowerSpectrum.integrand, PowerSpectrum.big_delta_sqr]
  ring

/-- C81: Delta^2(k, z) = k^3 P(k, z) / (2 pi^2). -/
theorem C81_delta_power (P : PowerSpectrum) {k : ℝ} (hk : 0 < k) (z : ℝ) : P.big_delta_sqr k z = k ^ 3 * P.power k z / (2 * Real.pi ^ 2) := by
  have hp := Real.pi_pos
  have h3 : (3.0 : ℝ) = ((3 : ℕ) : ℝ) := by norm_num
  have h2 : (2.0 : ℝ) = 2 := by norm_num
  simp only [PowerSpectrum.big_delta_sqr, PowerSpectrum.power, h3, h2]
  rw [Real.rpow_add hk, Real.rpow_natCast]
  field_simp

/-- C81: power spectrum and Delta^2 grow as the square of the growth factor. -/
theorem C81_power_growth (P : PowerSpectrum) (g : Good P.cosm) (k z : ℝ) :
    P.power k z = P.cosm.growth_factor z ^ 2 * P.power k 0 ∧ P.big_delta_sqr k z = P.cosm.growth_factor z ^ 2 * P.big_delta_sqr k 0 := by
  have h1 : (1.0e3 : ℝ) = 1000 := by norm_num
  have h2 : (2.0 : ℝ) = 2 := by norm_num
  have h3 : (3.0 : ℝ) = 3 := by norm_num
  simp only [PowerSpectrum.big_delta_sqr, PowerSpectrum.power, (C81_today g).1, h1, h2, h3]
  constructor <;> ring

/-- C81: the normalisation of the transfer function does not matter: multiplying it by a constant changes neither the variance nor the
power spectrum. -/
theorem C81_tf_norm {quad : Quad} (hq : Homogeneous quad) {c : Cosm} (g : Good c) (T : ℝ → ℝ) {b : ℝ} (hb : b ≠ 0) (k r z : ℝ) :
    (PowerSpectrum.normalized quad c (fun k => b * T k)).power k z = (PowerSpectrum.normalized quad c T).power k z ∧
    (PowerSpectrum.normalized quad c (fun k => b * T k)).big_delta_sqr k z = (PowerSpectrum.normalized quad c T).big_delta_sqr k z ∧
    (PowerSpectrum.normalized quad c (fun k => b * T k)).sigma_sqr quad r z = (PowerSpectrum.normalized quad c T).sigma_sqr quad r z := by
  have hr : ∀ r, rawSigma quad c (fun k => b * T k) r = b ^ 2 * rawSigma quad c T r := by
    intro r
    unfold rawSigma
    rw [← hq]
    congr 1
    funext x
    ring
  have hn : (PowerSpectrum.normalized quad c (fun k => b * T k)).norm * b ^ 2 = (PowerSpectrum.normalized quad c T).norm := by
    rw [norm_raw hq g, norm_raw hq g, hr, div_mul_eq_mul_div, mul_comm, mul_div_mul_left _ _ (pow_ne_zero 2 hb)]
  have h1 : (1.0e3 : ℝ) = 1000 := by norm_num
  have h2 : (2.0 : ℝ) = 2 := by norm_num
  have h3 : (3.0 : ℝ) = 3 := by norm_num
  refine ⟨?_, ?_, ?_⟩
  · simp only [PowerSpectrum.power, h1, h2]
    rw [← hn]
    simp only [PowerSpectrum.normalized]
    ring
  · simp only [PowerSpectrum.big_delta_sqr, h1, h3]
    rw [← hn]
    simp only [PowerSpectrum.normalized]
    ring
  · rw [sigma_raw hq, sigma_raw hq, ← hn]
    have e1 : (PowerSpectrum.normalized quad c (fun k => b * T k)).tf = fun k => b * T k := rfl
    have e2 : (PowerSpectrum.normalized quad c T).tf = T := rfl
    have e3 : ∀ T, (PowerSpectrum.normalized quad c T).cosm = c := fun _ => rfl
    rw [e1, e2, e3, e3, hr]
    ring

/-! ### The window function -/

theorem sin_sub_nonneg_bound {x : ℝ} (hx : 0 ≤ x) : |Real.sin x - x * Real.cos x| ≤ x ^ 3 / 3 := by
  have hd : ∀ t, HasDerivAt (fun t : ℝ => Real.sin t - t * Real.cos t) (t * Real.sin t) t := by
    intro t
    have := (Real.hasDerivAt_sin t).sub ((hasDerivAt_id t).mul (Real.hasDerivAt_cos t))
    refine this.congr_deriv ?_
    simp
  have hc : ∀ t, HasDerivAt (fun t : ℝ => t ^ 3 / 3) (t ^ 2) t := by
    intro t
    refine ((hasDerivAt_pow 3 t).div_const 3).congr_deriv ?_
    norm_num
  have hs : ∀ t : ℝ, 0 ≤ t → |Real.sin t| ≤ t := fun t ht => (Real.abs_sin_le_abs (x := t)).trans (le_of_eq (abs_of_nonneg ht))
  rw [abs_le]
  constructor
  · have hm : MonotoneOn (fun t : ℝ => (Real.sin t - t * Real.cos t) + t ^ 3 / 3) (Set.Ici 0) := by
      refine monotoneOn_of_deriv_nonneg (convex_Ici 0) (fun t _ => (((hd t).fun_add (hc t)).continuousAt).continuousWithinAt)
        (fun t _ => ((hd t).fun_add (hc t)).differentiableAt.differentiableWithinAt) ?_
      intro t ht
      rw [interior_Ici] at ht
      rw [((hd t).fun_add (hc t)).deriv]
      have := (abs_le.mp (hs t (le_of_lt ht))).1
      have ht' : (0 : ℝ) < t := ht
      nlinarith
    have := hm (Set.mem_Ici.mpr le_rfl) (Set.mem_Ici.mpr hx) hx
    simp at this
    linarith
  · have hm : MonotoneOn (fun t : ℝ => t ^ 3 / 3 - (Real.sin t - t * Real.cos t)) (Set.Ici 0) := by
      refine monotoneOn_of_deriv_nonneg (convex_Ici 0) (fun t _ => (((hc t).fun_sub (hd t)).continuousAt).continuousWithinAt)
        (fun t _ => ((hc t).fun_sub (hd t)).differentiableAt.differentiableWithinAt) ?_
      intro t ht
      rw [interior_Ici] at ht
      rw [((hc t).fun_sub (hd t)).deriv]
      have := (abs_le.mp (hs t (le_of_lt ht))).2
      have ht' : (0 : ℝ) < t := ht
      nlinarith
    have := hm (Set.mem_Ici.mpr le_rfl) (Set.mem_Ici.mpr hx) hx
    simp at this
    linarith

theorem window_eq {k r : ℝ} (h : 1.0e-5 ≤ k * r) : window_func k r = 3 * (Real.sin (k * r) - k * r * Real.cos (k * r)) / (k * r) ^ 3 := by
  have hx : 0 < k * r := lt_of_lt_of_le (by norm_num) h
  have h3 : (3.0 : ℝ) = 3 := by norm_num
  simp only [window_func, j1]
  rw [if_neg (not_lt.mpr h), if_neg (not_lt.mpr h), h3]
  field_simp

/-- C81: the window function is the Fourier transform of a spherical top hat, 3 (sin x - x cos x) / x^3 with x = k r (1 for tiny x),
and never exceeds 1 in size: smoothing never increases the power on any scale. -/
theorem C81_window (k r : ℝ) : |window_func k r| ≤ 1 ∧
    (k * r < 1.0e-5 → window_func k r = 1) ∧ (1.0e-5 ≤ k * r → window_func k r = 3 * (Real.sin (k * r) - k * r * Real.cos (k * r)) / (k * r) ^ 3) := by
  refine ⟨?_, fun h => ?_, window_eq⟩
  · by_cases h : k * r < 1.0e-5
    · simp only [window_func, if_pos h]; norm_num
    · have h' := not_lt.mp h
      have hx : 0 < k * r := lt_of_lt_of_le (by norm_num) h'
      rw [window_eq h', abs_div, abs_of_pos (by positivity : 0 < (k * r) ^ 3), div_le_one (by positivity), abs_mul, abs_of_pos (by norm_num : (0 : ℝ) < 3)]
      have := sin_sub_nonneg_bound (le_of_lt hx)
      linarith
  · simp only [window_func, if_pos h]; norm_num

/-- C81: the spherical Bessel function behind it: (sin x - x cos x) / x^2, x / 3 for tiny x, and never above x / 3. -/
theorem C81_j1 {x : ℝ} (hx : 0 ≤ x) : |j1 x| ≤ x / 3 ∧ (x < 1.0e-5 → j1 x = x / 3) ∧ (1.0e-5 ≤ x → j1 x = (Real.sin x - x * Real.cos x) / x ^ 2) := by
  refine ⟨?_, fun h => ?_, fun h => ?_⟩
  · by_cases h : x < 1.0e-5
    · unfold j1; rw [if_pos h, abs_of_nonneg (by positivity)]; linarith
    · have hx' : 0 < x := lt_of_lt_of_le (by norm_num) (not_lt.mp h)
      unfold j1
      rw [if_neg h, abs_div, abs_of_pos (by positivity : 0 < x * x), div_le_iff₀ (by positivity)]
      have := sin_sub_nonneg_bound hx
      clear h
      have e : x / 3 * (x * x) = x ^ 3 / 3 := by ring
      rw [e]; exact this
  · unfold j1; rw [if_pos h]; ring
  · unfold j1; rw [if_neg (not_lt.mpr h)]; congr 1; ring

example : j1 0 = 0 / 3 := (C81_j1 le_rfl).2.1 (by norm_num)

end Pyhipp.Cosmology
