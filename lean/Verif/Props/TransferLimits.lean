import Verif.Props.Transfer
import Mathlib.Analysis.SpecialFunctions.Trigonometric.Sinc
import Mathlib.Analysis.SpecialFunctions.Pow.Asymptotics
/-
C147: the transfer functions on large and small scales: limits, continuity at k = 0, bounds.
-/
namespace Pyhipp.Cosmology
open Pyhipp Set Filter Topology

/-- The coefficients of the fit with baryon wiggles are positive. -/
structure EH98.Pos (t : EH98) : Prop where
  h : 0 < t.hubble
  ke : 0 < t.k_equality
  s : 0 < t.sound_horizon
  ks : 0 < t.k_silk
  ac : 0 < t.alpha_c
  bc : 0 < t.beta_c
  bn : 0 < t.beta_node
  bb : 0 < t.beta_b

theorem eh98_pos {m f h θ : ℝ} (hm : 0 < m) (hf : 0 < f) (hf1 : f < 1) (hh : 0 < h) (hθ : 0 < θ) : EH98.Pos (EH98.compute m f h θ) := by
  have hs : 0 < sqr h := mul_pos hh hh
  have ho : 0 < m * sqr h := mul_pos hm hs
  have hθ' : 0 < θ / 2.7 := by positivity
  have h4 : 0 < pow4 (θ / 2.7) := by unfold pow4; positivity
  have h2 : 0 < sqr (θ / 2.7) := by unfold sqr; positivity
  set o := m * sqr h with hoe
  have hob : 0 < o * f := mul_pos ho hf
  have R : ∀ {x : ℝ}, 0 < x → ∀ p : ℝ, 0 < x ^ p := fun h p => Real.rpow_pos_of_pos h p
  have q1 := R ho (-0.419)
  have q2 := R ho 0.674
  have q3 := R ho 0.251
  have q4 := R ho 0.828
  have hke : 0 < 0.0746 * o / sqr (θ / 2.7) := by positivity
  have hze : 0 < 2.50e4 * o / pow4 (θ / 2.7) := by positivity
  have hzd : 0 < 1291 * o ^ (0.251 : ℝ) / (1 + 0.659 * o ^ (0.828 : ℝ)) *
      (1 + 0.313 * o ^ (-0.419 : ℝ) * (1 + 0.607 * o ^ (0.674 : ℝ)) * (o * f) ^ (0.238 * o ^ (0.223 : ℝ))) := by
    have := R hob (0.238 * o ^ (0.223 : ℝ))
    positivity
  refine ⟨hh, hke, ?_, ?_, ?_, ?_, ?_, ?_⟩
  · simp only [EH98.compute]
    rw [← hoe]
    set zd := 1291 * o ^ (0.251 : ℝ) / (1 + 0.659 * o ^ (0.828 : ℝ)) *
      (1 + 0.313 * o ^ (-0.419 : ℝ) * (1 + 0.607 * o ^ (0.674 : ℝ)) * (o * f) ^ (0.238 * o ^ (0.223 : ℝ)))
    have hRd : 0 < 31.5 * (o * f) / pow4 (θ / 2.7) * (1000 / (1 + zd)) := by positivity
    have hRe : 0 < 31.5 * (o * f) / pow4 (θ / 2.7) * (1000 / (2.50e4 * o / pow4 (θ / 2.7))) := by positivity
    set Rd := 31.5 * (o * f) / pow4 (θ / 2.7) * (1000 / (1 + zd))
    set Re := 31.5 * (o * f) / pow4 (θ / 2.7) * (1000 / (2.50e4 * o / pow4 (θ / 2.7)))
    have s1 : 1 < Real.sqrt (1 + Rd) := by rw [Real.lt_sqrt (by norm_num)]; linarith
    have s2 : Real.sqrt Re < Real.sqrt (Rd + Re) := Real.sqrt_lt_sqrt hRe.le (by linarith)
    have s3 := Real.sqrt_nonneg Re
    have hl : 0 < Real.log ((Real.sqrt (1 + Rd) + Real.sqrt (Rd + Re)) / (1 + Real.sqrt Re)) := by
      refine Real.log_pos ?_
      rw [one_lt_div (by linarith)]
      linarith
    have s4 : 0 < Real.sqrt (6 / Re) := Real.sqrt_pos.mpr (by positivity)
    positivity
  · simp only [EH98.compute]
    rw [← hoe]
    have a1 := R hob 0.52
    have a2 := R ho 0.73
    have a3 := R (show 0 < 10.4 * o by positivity) (-0.95)
    positivity
  · simp only [EH98.compute]
    rw [← hoe]
    have a1 := R (show 0 < 46.9 * o by positivity) 0.670
    have a2 := R (show 0 < 32.1 * o by positivity) (-0.532)
    have a3 := R (show 0 < 12.0 * o by positivity) 0.424
    have a4 := R (show 0 < 45.0 * o by positivity) (-0.582)
    have b1 : 0 < (46.9 * o) ^ (0.670 : ℝ) * (1 + (32.1 * o) ^ (-0.532 : ℝ)) := by positivity
    have b2 : 0 < (12.0 * o) ^ (0.424 : ℝ) * (1 + (45.0 * o) ^ (-0.582 : ℝ)) := by positivity
    exact mul_pos (R b1 _) (R b2 _)
  · simp only [EH98.compute]
    rw [← hoe]
    have a1 := R (show 0 < 458 * o by positivity) (-0.708)
    set b1 := 0.944 / (1 + (458 * o) ^ (-0.708 : ℝ)) with hb1
    have h0 : 0 < b1 := by positivity
    have h1 : b1 < 1 := by rw [hb1, div_lt_one (by linarith)]; norm_num; linarith
    have h3 := R (show 0 < 1 - f by linarith) ((0.395 * o) ^ (-0.0266 : ℝ))
    have : 0 < 1 + b1 * ((1 - f) ^ ((0.395 * o) ^ (-0.0266 : ℝ)) - 1) := by nlinarith
    positivity
  · simp only [EH98.compute]
    rw [← hoe]
    have := R ho 0.435
    positivity
  · simp only [EH98.compute]
    rw [← hoe]
    have := Real.sqrt_nonneg ((17.2 * o) ^ (2.0 : ℝ) + 1)
    have h3 : 0 ≤ (3 - 2 * f) * Real.sqrt ((17.2 * o) ^ (2.0 : ℝ) + 1) := mul_nonneg (by linarith) this
    norm_num at h3 ⊢
    linarith

/-- log(e + aq) / (log(e + aq) + C q²). -/
noncomputable def lratio (e a c q : ℝ) : ℝ := Real.log (e + a * q) / (Real.log (e + a * q) + c * sqr q)

theorem lratio_bounds {e a c q : ℝ} (he : 1 < e) (ha : 0 < a) (hc : 0 < c) (hq : 0 < q) :
    0 < lratio e a c q ∧ lratio e a c q < 1 ∧ ∀ d, 0 < d → d ≤ c → lratio e a c q ≤ (e / q + a) / (d * q) := by
  have h1 : 1 < e + a * q := by have := mul_pos ha hq; linarith
  have hl := Real.log_pos h1
  have hs : 0 < sqr q := mul_pos hq hq
  have hcs := mul_pos hc hs
  have hle : Real.log (e + a * q) ≤ e + a * q := (Real.log_le_sub_one_of_pos (by linarith)).trans (by linarith)
  refine ⟨div_pos hl (by linarith), (div_lt_one (by linarith)).mpr (by linarith), fun d hd hdc => ?_⟩
  unfold lratio
  have e1 : (e / q + a) / (d * q) = (e + a * q) / (d * sqr q) := by unfold sqr; field_simp
  rw [e1]
  have : 0 < d * sqr q := mul_pos hd hs
  refine div_le_div₀ (by linarith) hle this ?_
  have := mul_le_mul_of_nonneg_right hdc hs.le
  linarith

theorem lratio_cont {e a : ℝ} {q c : ℝ → ℝ} {k : ℝ} (he : 1 < e) (ha : 0 < a) (hq : ContinuousAt q k) (hc : ContinuousAt c k) (h0 : 0 ≤ q k) (hc0 : 0 < c k) :
    ContinuousAt (fun k => lratio e a (c k) (q k)) k := by
  have h1 : 1 < e + a * q k := by have := mul_nonneg ha.le h0; linarith
  have hl := Real.log_pos h1
  have hs : 0 ≤ sqr (q k) := mul_self_nonneg _
  have hcs := mul_nonneg hc0.le hs
  have hlc : ContinuousAt (fun k => Real.log (e + a * q k)) k := (continuousAt_const.add (continuousAt_const.mul hq)).log (show e + a * q k ≠ 0 by linarith)
  exact hlc.div (hlc.add (hc.mul (hq.mul hq))) (show Real.log (e + a * q k) + c k * sqr (q k) ≠ 0 by linarith)

/-- The cold dark matter part, at physical wavenumber k. -/
noncomputable def EH98.cdm (t : EH98) (k : ℝ) : ℝ :=
  let q := k / 13.41 / t.k_equality
  let w := 1.0 / (1.0 + pow4 (k * t.sound_horizon / 5.4))
  w * lratio 2.718282 (1.8 * t.beta_c) (14.2 + 386.0 / (1 + 69.9 * q ^ (1.08 : ℝ))) q +
    (1 - w) * lratio 2.718282 (1.8 * t.beta_c) (14.2 / t.alpha_c + 386.0 / (1 + 69.9 * q ^ (1.08 : ℝ))) q

/-- The baryon part, at physical wavenumber k, in a form that makes sense at k = 0. -/
noncomputable def EH98.bar (t : EH98) (k : ℝ) : ℝ :=
  let q := k / 13.41 / t.k_equality
  let x := k * t.sound_horizon
  Real.sinc (k * (t.sound_horizon * (x ^ 3 / (x ^ 3 + t.beta_node ^ 3)) ^ (1 / 3 : ℝ))) *
    (lratio 2.718282 1.8 (14.2 + 386.0 / (1 + 69.9 * q ^ (1.08 : ℝ))) q / (1 + sqr (x / 5.2)) +
      t.alpha_b * (x ^ 3 / (x ^ 3 + t.beta_b ^ 3)) * Real.exp (-(k / t.k_silk) ^ (1.4 : ℝ)))

theorem cube_inv {b x : ℝ} (hb : 0 < b) (hx : 0 < x) : 1 + cube (b / x) = (x ^ 3 / (x ^ 3 + b ^ 3))⁻¹ := by
  unfold cube
  have : x ^ 3 + b ^ 3 ≠ 0 := by positivity
  field_simp

theorem EH98.tf_pos_eq {t : EH98} (p : t.Pos) {kk : ℝ} (hk : kk ≠ 0) : t.tf kk =
    (t.obhh / t.omhh * t.bar |kk * t.hubble| + (1 - t.obhh / t.omhh) * t.cdm |kk * t.hubble|, t.bar |kk * t.hubble|, t.cdm |kk * t.hubble|) := by
  have hk' : 0 < |kk * t.hubble| := abs_pos.mpr (mul_ne_zero hk p.h.ne')
  have h0 : ¬ |kk * t.hubble| = 0.0 := by norm_num; exact ⟨hk, p.h.ne'⟩
  set k := |kk * t.hubble| with hkd
  have hx : 0 < k * t.sound_horizon := mul_pos hk' p.s
  have hb : t.bar k = Real.sin (k * (t.sound_horizon * (1 + cube (t.beta_node / (k * t.sound_horizon))) ^ (-1 / 3 : ℝ))) /
      (k * (t.sound_horizon * (1 + cube (t.beta_node / (k * t.sound_horizon))) ^ (-1 / 3 : ℝ))) *
      (lratio 2.718282 1.8 (14.2 + 386.0 / (1 + 69.9 * (k / 13.41 / t.k_equality) ^ (1.08 : ℝ))) (k / 13.41 / t.k_equality) / (1 + sqr (k * t.sound_horizon / 5.2)) +
      t.alpha_b / (1 + cube (t.beta_b / (k * t.sound_horizon))) * Real.exp (-(k / t.k_silk) ^ (1.4 : ℝ))) := by
    have hr : ∀ b : ℝ, 0 < b → 0 < (k * t.sound_horizon) ^ 3 / ((k * t.sound_horizon) ^ 3 + b ^ 3) := fun b hb => by positivity
    have e1 : (1 + cube (t.beta_node / (k * t.sound_horizon))) ^ (-1 / 3 : ℝ) =
        ((k * t.sound_horizon) ^ 3 / ((k * t.sound_horizon) ^ 3 + t.beta_node ^ 3)) ^ (1 / 3 : ℝ) := by
      rw [cube_inv p.bn hx, Real.inv_rpow (hr _ p.bn).le, ← Real.rpow_neg (hr _ p.bn).le]
      norm_num
    have e2 : t.alpha_b / (1 + cube (t.beta_b / (k * t.sound_horizon))) =
        t.alpha_b * ((k * t.sound_horizon) ^ 3 / ((k * t.sound_horizon) ^ 3 + t.beta_b ^ 3)) := by
      rw [cube_inv p.bb hx, div_inv_eq_mul]
    rw [e1, e2]
    unfold EH98.bar
    simp only
    rw [Real.sinc_of_ne_zero]
    have := Real.rpow_pos_of_pos (hr _ p.bn) (1 / 3)
    have := p.s
    positivity
  have hc : t.cdm k = 1.0 / (1.0 + pow4 (k * t.sound_horizon / 5.4)) * Real.log (2.718282 + 1.8 * t.beta_c * (k / 13.41 / t.k_equality)) /
      (Real.log (2.718282 + 1.8 * t.beta_c * (k / 13.41 / t.k_equality)) +
        (14.2 + 386.0 / (1 + 69.9 * (k / 13.41 / t.k_equality) ^ (1.08 : ℝ))) * sqr (k / 13.41 / t.k_equality)) +
      (1 - 1.0 / (1.0 + pow4 (k * t.sound_horizon / 5.4))) * Real.log (2.718282 + 1.8 * t.beta_c * (k / 13.41 / t.k_equality)) /
      (Real.log (2.718282 + 1.8 * t.beta_c * (k / 13.41 / t.k_equality)) +
        (14.2 / t.alpha_c + 386.0 / (1 + 69.9 * (k / 13.41 / t.k_equality) ^ (1.08 : ℝ))) * sqr (k / 13.41 / t.k_equality)) := by
    unfold EH98.cdm lratio
    simp only [mul_div_assoc]
  rw [hb, hc]
  unfold EH98.tf
  simp only
  rw [if_neg h0]
  rfl

theorem lr0 {e a c : ℝ} (he : 1 < e) : lratio e a c 0 = 1 := by
  unfold lratio sqr
  have := Real.log_pos he
  simp only [mul_zero, add_zero]
  exact div_self this.ne'

theorem EH98.zero {t : EH98} : t.cdm 0 = 1 ∧ t.bar 0 = 1 := by
  constructor
  · unfold EH98.cdm
    simp only [zero_div, zero_mul]
    rw [lr0 (by norm_num), lr0 (by norm_num), mul_one, mul_one, add_sub_cancel]
  · unfold EH98.bar
    simp only [zero_div, zero_mul]
    rw [lr0 (by norm_num), Real.sinc_zero]
    unfold sqr
    norm_num

theorem EH98.tf_eq {t : EH98} (p : t.Pos) (kk : ℝ) : t.tf kk =
    (t.obhh / t.omhh * t.bar |kk * t.hubble| + (1 - t.obhh / t.omhh) * t.cdm |kk * t.hubble|, t.bar |kk * t.hubble|, t.cdm |kk * t.hubble|) := by
  by_cases hk : kk = 0
  · subst hk
    rw [zero_mul, abs_zero, EH98.zero.1, EH98.zero.2]
    unfold EH98.tf
    simp only [zero_mul, abs_zero]
    rw [if_pos (by norm_num)]
    norm_num
  · exact EH98.tf_pos_eq p hk

theorem C_cont {t : EH98} (p : t.Pos) (a : ℝ) {k : ℝ} (ha : 0 < a) (hk : 0 ≤ k) :
    ContinuousAt (fun k : ℝ => a + 386.0 / (1 + 69.9 * (k / 13.41 / t.k_equality) ^ (1.08 : ℝ))) k ∧
      0 < a + 386.0 / (1 + 69.9 * (k / 13.41 / t.k_equality) ^ (1.08 : ℝ)) ∧ a ≤ a + 386.0 / (1 + 69.9 * (k / 13.41 / t.k_equality) ^ (1.08 : ℝ)) := by
  have hq : 0 ≤ k / 13.41 / t.k_equality := by have := p.ke; positivity
  have hr := Real.rpow_nonneg hq 1.08
  have hd : 0 < 1 + 69.9 * (k / 13.41 / t.k_equality) ^ (1.08 : ℝ) := by positivity
  have hp : 0 ≤ 386.0 / (1 + 69.9 * (k / 13.41 / t.k_equality) ^ (1.08 : ℝ)) := by positivity
  refine ⟨?_, by linarith, by linarith⟩
  have hqc : ContinuousAt (fun k : ℝ => (k / 13.41 / t.k_equality) ^ (1.08 : ℝ)) k :=
    ((continuousAt_id.div_const _).div_const _).rpow_const (Or.inr (by norm_num))
  exact continuousAt_const.add (continuousAt_const.div (continuousAt_const.add (continuousAt_const.mul hqc)) hd.ne')

theorem EH98.q_cont {t : EH98} (k : ℝ) : ContinuousAt (fun k : ℝ => k / 13.41 / t.k_equality) k := (continuousAt_id.div_const _).div_const _

theorem EH98.cont {t : EH98} (p : t.Pos) {k : ℝ} (hk : 0 ≤ k) : ContinuousAt t.cdm k ∧ ContinuousAt t.bar k := by
  have hq : 0 ≤ k / 13.41 / t.k_equality := by have := p.ke; positivity
  have hx : 0 ≤ k * t.sound_horizon := mul_nonneg hk p.s.le
  have hac : 0 < 14.2 / t.alpha_c := by have := p.ac; positivity
  obtain ⟨c1, c2, -⟩ := C_cont p 14.2 (by norm_num) hk
  obtain ⟨c3, c4, -⟩ := C_cont p _ hac hk
  have hbc : 0 < 1.8 * t.beta_c := by have := p.bc; positivity
  have he : (1 : ℝ) < 2.718282 := by norm_num
  have hxc : ContinuousAt (fun k : ℝ => k * t.sound_horizon) k := continuousAt_id.mul continuousAt_const
  have hw : ContinuousAt (fun k : ℝ => 1.0 / (1.0 + pow4 (k * t.sound_horizon / 5.4))) k := by
    have h5 := hxc.div_const 5.4
    refine continuousAt_const.div (continuousAt_const.add (((h5.mul h5).mul h5).mul h5)) ?_
    have : 0 ≤ pow4 (k * t.sound_horizon / 5.4) := by unfold pow4; positivity
    exact show (1.0 : ℝ) + pow4 (k * t.sound_horizon / 5.4) ≠ 0 from (add_pos_of_pos_of_nonneg (by norm_num) this).ne'
  constructor
  · exact (hw.mul (lratio_cont he hbc (EH98.q_cont k) c1 hq c2)).add ((continuousAt_const.sub hw).mul (lratio_cont he hbc (EH98.q_cont k) c3 hq c4))
  · have hfr : ∀ b : ℝ, 0 < b → ContinuousAt (fun k : ℝ => (k * t.sound_horizon) ^ 3 / ((k * t.sound_horizon) ^ 3 + b ^ 3)) k := fun b hb =>
      (hxc.pow 3).div ((hxc.pow 3).add continuousAt_const) (by positivity)
    have hsn : ContinuousAt (fun k : ℝ => Real.sinc (k * (t.sound_horizon * ((k * t.sound_horizon) ^ 3 / ((k * t.sound_horizon) ^ 3 + t.beta_node ^ 3)) ^ (1 / 3 : ℝ)))) k := by
      have h1 : ContinuousAt (fun k : ℝ => ((k * t.sound_horizon) ^ 3 / ((k * t.sound_horizon) ^ 3 + t.beta_node ^ 3)) ^ (1 / 3 : ℝ)) k :=
        (hfr _ p.bn).rpow_const (Or.inr (by norm_num))
      exact ContinuousAt.comp (f := fun k : ℝ => k * (t.sound_horizon * ((k * t.sound_horizon) ^ 3 / ((k * t.sound_horizon) ^ 3 + t.beta_node ^ 3)) ^ (1 / 3 : ℝ)))
        (g := Real.sinc) Real.continuous_sinc.continuousAt (continuousAt_id.mul (continuousAt_const.mul h1))
    have hex : ContinuousAt (fun k : ℝ => Real.exp (-(k / t.k_silk) ^ (1.4 : ℝ))) k := by
      have h1 : ContinuousAt (fun k : ℝ => (k / t.k_silk) ^ (1.4 : ℝ)) k := (continuousAt_id.div_const _).rpow_const (Or.inr (by norm_num))
      exact h1.neg.rexp
    have h5 := hxc.div_const 5.2
    refine hsn.mul (((lratio_cont he (by norm_num : (0 : ℝ) < 1.8) (EH98.q_cont k) c1 hq c2).div (continuousAt_const.add (h5.mul h5)) ?_).add
      ((continuousAt_const.mul (hfr _ p.bb)).mul hex))
    have := mul_self_nonneg (k * t.sound_horizon / 5.2)
    exact show (1 : ℝ) + k * t.sound_horizon / 5.2 * (k * t.sound_horizon / 5.2) ≠ 0 from (add_pos_of_pos_of_nonneg (by norm_num) this).ne'

theorem EH98.cdm_range {t : EH98} (p : t.Pos) {k : ℝ} (hk : 0 < k) : 0 < t.cdm k ∧ t.cdm k < 1 := by
  have hq : 0 < k / 13.41 / t.k_equality := by have := p.ke; positivity
  have hac : 0 < 14.2 / t.alpha_c := by have := p.ac; positivity
  obtain ⟨-, c2, -⟩ := C_cont p 14.2 (by norm_num) hk.le
  obtain ⟨-, c4, -⟩ := C_cont p _ hac hk.le
  have hbc : 0 < 1.8 * t.beta_c := by have := p.bc; positivity
  have he : (1 : ℝ) < 2.718282 := by norm_num
  obtain ⟨a1, a2, -⟩ := lratio_bounds he hbc c2 hq
  obtain ⟨b1, b2, -⟩ := lratio_bounds he hbc c4 hq
  have hp : 0 < pow4 (k * t.sound_horizon / 5.4) := by have := p.s; unfold pow4; positivity
  have hw0 : 0 < 1.0 / (1.0 + pow4 (k * t.sound_horizon / 5.4)) := by positivity
  have hw1 : 1.0 / (1.0 + pow4 (k * t.sound_horizon / 5.4)) < 1 := by rw [div_lt_one (by positivity)]; linarith
  unfold EH98.cdm
  simp only
  constructor <;> nlinarith

theorem EH98.decay {t : EH98} (p : t.Pos) : ∃ B, ∀ k, 1 ≤ k → |t.cdm k| ≤ B / k ∧ |t.bar k| ≤ B / k := by
  have he : (1 : ℝ) < 2.718282 := by norm_num
  have hac : 0 < 14.2 / t.alpha_c := by have := p.ac; positivity
  have hbc : 0 < 1.8 * t.beta_c := by have := p.bc; positivity
  set u : ℝ := 13.41 * t.k_equality with hu
  have hu0 : 0 < u := by have := p.ke; positivity
  have hqk : ∀ k : ℝ, k / 13.41 / t.k_equality = k / u := fun k => by rw [div_div]
  -- one ratio
  have key : ∀ (a d : ℝ), 0 < a → 0 < d → ∀ k, 1 ≤ k → ∀ c, d ≤ c →
      lratio 2.718282 a c (k / u) ≤ ((2.718282 * u + a) * u / d) / k := by
    intro a d ha hd k hk c hc
    have hk0 : 0 < k := by linarith
    have hq : 0 < k / u := by positivity
    refine ((lratio_bounds he ha (by linarith) hq).2.2 d hd hc).trans ?_
    have h1 : 2.718282 / (k / u) ≤ 2.718282 * u := by
      rw [div_div_eq_mul_div]; exact div_le_self (by positivity) hk
    calc (2.718282 / (k / u) + a) / (d * (k / u)) ≤ (2.718282 * u + a) / (d * (k / u)) :=
          div_le_div_of_nonneg_right (by linarith) (by positivity)
      _ = ((2.718282 * u + a) * u / d) / k := by field_simp
  set A1 := (2.718282 * u + 1.8 * t.beta_c) * u / 14.2
  set A2 := (2.718282 * u + 1.8 * t.beta_c) * u / (14.2 / t.alpha_c)
  set A3 := (2.718282 * u + 1.8) * u / 14.2
  set A4 := |t.alpha_b| * t.k_silk ^ (1.4 : ℝ)
  have hA1 : 0 ≤ A1 := by positivity
  have hA2 : 0 ≤ A2 := by positivity
  have hA3 : 0 ≤ A3 := by positivity
  have hA4 : 0 ≤ A4 := by have := p.ks; positivity
  refine ⟨A1 + A2 + A3 + A4, fun k hk => ?_⟩
  have hk0 : 0 < k := by linarith
  obtain ⟨-, c2, c2'⟩ := C_cont p 14.2 (by norm_num) hk0.le
  obtain ⟨-, c4, c4'⟩ := C_cont p _ hac hk0.le
  rw [hqk] at c2 c2' c4 c4'
  have hq : 0 < k / u := by positivity
  have hmono : ∀ x y : ℝ, x ≤ y → x / k ≤ y / k := fun x y h => div_le_div_of_nonneg_right h hk0.le
  constructor
  · rw [abs_of_pos (EH98.cdm_range p hk0).1]
    have hp : 0 < pow4 (k * t.sound_horizon / 5.4) := by have := p.s; unfold pow4; positivity
    have hw0 : 0 < 1.0 / (1.0 + pow4 (k * t.sound_horizon / 5.4)) := by positivity
    have hw1 : 1.0 / (1.0 + pow4 (k * t.sound_horizon / 5.4)) < 1 := by rw [div_lt_one (by positivity)]; linarith
    have k1 := key (1.8 * t.beta_c) 14.2 hbc (by norm_num) k hk _ c2'
    have k2 := key (1.8 * t.beta_c) _ hbc hac k hk _ c4'
    have r1 := (lratio_bounds he hbc c2 hq).1
    have r2 := (lratio_bounds he hbc c4 hq).1
    refine le_trans ?_ (hmono (A1 + A2) _ (by linarith))
    rw [add_div]
    unfold EH98.cdm
    simp only [hqk]
    exact add_le_add ((mul_le_of_le_one_left r1.le hw1.le).trans k1) ((mul_le_of_le_one_left r2.le (by linarith)).trans k2)
  · have k3 := key 1.8 14.2 (by norm_num) (by norm_num) k hk _ c2'
    have r3 := (lratio_bounds he (by norm_num : (0 : ℝ) < 1.8) c2 hq).1
    unfold EH98.bar
    simp only [hqk]
    rw [abs_mul]
    refine (mul_le_of_le_one_left (abs_nonneg _) (Real.abs_sinc_le_one _)).trans ?_
    refine (abs_add_le _ _).trans ?_
    refine le_trans (add_le_add (b := A3 / k) (d := A4 / k) ?_ ?_) (by rw [← add_div]; exact hmono _ _ (by linarith))
    · have hs : 0 ≤ sqr (k * t.sound_horizon / 5.2) := mul_self_nonneg _
      rw [abs_of_nonneg (by positivity)]
      exact (div_le_self r3.le (by linarith)).trans k3
    · have hx : 0 < (k * t.sound_horizon) ^ 3 := by have := p.s; positivity
      have hb : 0 < t.beta_b ^ 3 := by have := p.bb; positivity
      have hf0 : 0 ≤ (k * t.sound_horizon) ^ 3 / ((k * t.sound_horizon) ^ 3 + t.beta_b ^ 3) := by positivity
      have hf1 : (k * t.sound_horizon) ^ 3 / ((k * t.sound_horizon) ^ 3 + t.beta_b ^ 3) ≤ 1 := by
        rw [div_le_one (by positivity)]; linarith
      rw [abs_mul, abs_mul, abs_of_nonneg hf0, abs_of_pos (Real.exp_pos _)]
      have hv : 0 < (k / t.k_silk) ^ (1.4 : ℝ) := Real.rpow_pos_of_pos (div_pos hk0 p.ks) _
      have hexp : Real.exp (-(k / t.k_silk) ^ (1.4 : ℝ)) ≤ t.k_silk ^ (1.4 : ℝ) / k := by
        rw [Real.exp_neg]
        have h1 := Real.add_one_le_exp ((k / t.k_silk) ^ (1.4 : ℝ))
        have h2 : k ≤ k ^ (1.4 : ℝ) := by
          have := Real.rpow_le_rpow_of_exponent_le hk (show (1 : ℝ) ≤ 1.4 by norm_num)
          rwa [Real.rpow_one] at this
        have hks := Real.rpow_pos_of_pos p.ks 1.4
        have h3 : k / t.k_silk ^ (1.4 : ℝ) ≤ (k / t.k_silk) ^ (1.4 : ℝ) := by
          rw [Real.div_rpow hk0.le p.ks.le]
          exact div_le_div_of_nonneg_right h2 hks.le
        rw [← inv_div k (t.k_silk ^ (1.4 : ℝ))]
        have h4 : 0 < k / t.k_silk ^ (1.4 : ℝ) := by positivity
        exact inv_anti₀ h4 (by linarith)
      calc |t.alpha_b| * ((k * t.sound_horizon) ^ 3 / ((k * t.sound_horizon) ^ 3 + t.beta_b ^ 3)) * Real.exp (-(k / t.k_silk) ^ (1.4 : ℝ))
          ≤ |t.alpha_b| * (t.k_silk ^ (1.4 : ℝ) / k) := by
            refine mul_le_mul (mul_le_of_le_one_right (abs_nonneg _) hf1) hexp (Real.exp_pos _).le (abs_nonneg _)
        _ = A4 / k := (mul_div_assoc _ _ _).symm


/-- C147: with baryon wiggles, for every accepted cosmology with a baryon fraction below one, the transfer function and its baryon and
cold dark matter parts are continuous at all wavenumbers, equal to one at k = 0 (the special case of the code is the limit of the formula),
and tend to zero on small scales, at least as fast as 1/k; the cold dark matter part is strictly between 0 and 1 for every k ≠ 0. -/
theorem C147_wiggles {m f h θ : ℝ} (hm : 0 < m) (hf : 0 < f) (hf1 : f < 1) (hh : 0 < h) (hθ : 0 < θ) :
    ∃ t, EH98.setCosmology m f h θ = .ok t ∧
      (∀ T : ℝ → ℝ, (T = t.transfer_function ∨ T = (fun k => (t.tf k).2.1) ∨ T = (fun k => (t.tf k).2.2)) →
        Continuous T ∧ T 0 = 1 ∧ Tendsto T atTop (𝓝 0) ∧ Tendsto T atBot (𝓝 0) ∧ ∃ B, ∀ k, 1 / h ≤ |k| → |T k| ≤ B / |k|) ∧
      ∀ k, k ≠ 0 → 0 < (t.tf k).2.2 ∧ (t.tf k).2.2 < 1 := by
  refine ⟨EH98.compute m f h θ, ?_, ?_, ?_⟩
  · unfold EH98.setCosmology
    rw [if_neg (by norm_num; exact hm), if_neg (by norm_num; exact hf), if_neg (by norm_num; exact hh), if_neg (by linarith)]
  · have p := eh98_pos hm hf hf1 hh hθ
    have hth : (EH98.compute m f h θ).hubble = h := rfl
    set t := EH98.compute m f h θ
    obtain ⟨B, hB⟩ := EH98.decay p
    set b := t.obhh / t.omhh
    have hmain : ∀ (G : ℝ → ℝ) (D : ℝ), (∀ k, 0 ≤ k → ContinuousAt G k) → G 0 = 1 → (∀ k, 1 ≤ k → |G k| ≤ D / k) →
        ∀ T : ℝ → ℝ, (∀ kk, T kk = G |kk * h|) →
        Continuous T ∧ T 0 = 1 ∧ Tendsto T atTop (𝓝 0) ∧ Tendsto T atBot (𝓝 0) ∧ ∃ B, ∀ k, 1 / h ≤ |k| → |T k| ≤ B / |k| := by
      intro G D hc h0 hd T hT
      have hTe : T = fun kk => G |kk * h| := funext hT
      have hb : ∀ k, 1 / h ≤ |k| → |T k| ≤ D / h / |k| := by
        intro k hk
        rw [div_le_iff₀ hh] at hk
        have := hd |k * h| (by rw [abs_mul, abs_of_pos hh]; exact hk)
        rw [hT k]
        rw [abs_mul k h, abs_of_pos hh] at this ⊢
        rwa [div_div, mul_comm h]
      have hz : Tendsto (fun x : ℝ => D / h / x) atTop (𝓝 0) := tendsto_const_nhds.div_atTop tendsto_id
      refine ⟨?_, ?_, ?_, ?_, D / h, hb⟩
      · rw [hTe]
        refine continuous_iff_continuousAt.mpr fun kk => ?_
        have hin : ContinuousAt (fun kk : ℝ => |kk * h|) kk := (continuous_abs.comp (continuous_mul_const h)).continuousAt
        exact ContinuousAt.comp (f := fun kk : ℝ => |kk * h|) (g := G) (hc _ (abs_nonneg _)) hin
      · rw [hT, zero_mul, abs_zero, h0]
      · refine squeeze_zero_norm' ?_ (hz.comp tendsto_abs_atTop_atTop)
        filter_upwards [tendsto_abs_atTop_atTop.eventually_ge_atTop (1 / h)] with k hk
        exact hb k hk
      · refine squeeze_zero_norm' ?_ (hz.comp tendsto_abs_atBot_atTop)
        filter_upwards [tendsto_abs_atBot_atTop.eventually_ge_atTop (1 / h)] with k hk
        exact hb k hk
    rintro T (rfl | rfl | rfl)
    · refine hmain (fun k => b * t.bar k + (1 - b) * t.cdm k) (|b| * B + |1 - b| * B) (fun k hk => ?_) ?_ (fun k hk => ?_) _ (fun kk => ?_)
      · exact (continuousAt_const.mul (EH98.cont p hk).2).add (continuousAt_const.mul (EH98.cont p hk).1)
      · simp only [EH98.zero.1, EH98.zero.2]; ring
      · refine (abs_add_le _ _).trans ?_
        rw [abs_mul, abs_mul, add_div, mul_div_assoc, mul_div_assoc]
        exact add_le_add (mul_le_mul_of_nonneg_left (hB k hk).2 (abs_nonneg _)) (mul_le_mul_of_nonneg_left (hB k hk).1 (abs_nonneg _))
      · unfold EH98.transfer_function
        rw [EH98.tf_eq p, hth]
    · refine hmain t.bar B (fun k hk => (EH98.cont p hk).2) EH98.zero.2 (fun k hk => (hB k hk).2) _ (fun kk => ?_)
      rw [EH98.tf_eq p, hth]
    · refine hmain t.cdm B (fun k hk => (EH98.cont p hk).1) EH98.zero.1 (fun k hk => (hB k hk).1) _ (fun kk => ?_)
      rw [EH98.tf_eq p, hth]
  · intro k hk
    have p := eh98_pos hm hf hf1 hh hθ
    rw [EH98.tf_eq p]
    exact EH98.cdm_range p (abs_pos.mpr (mul_ne_zero hk p.h.ne'))

example : ∃ t, EH98.setCosmology 0.3 0.16 0.7 2.728 = .ok t ∧ Continuous t.transfer_function ∧ t.transfer_function 0 = 1 := by
  obtain ⟨t, h, hT, -⟩ := C147_wiggles (m := 0.3) (f := 0.16) (h := 0.7) (θ := 2.728) (by norm_num) (by norm_num) (by norm_num) (by norm_num) (by norm_num)
  exact ⟨t, h, (hT _ (Or.inl rfl)).1, (hT _ (Or.inl rfl)).2.1⟩


/-- The free-streaming correction is between 1 and 1 + A q^1.6, and at most 1 + A / q^0.8. -/
theorem fs_bounds {A q : ℝ} (hA : 0 < A) (hq : 0 < q) :
    0 ≤ A / (q ^ (-1.6 : ℝ) + q ^ (0.8 : ℝ)) ∧ A / (q ^ (-1.6 : ℝ) + q ^ (0.8 : ℝ)) ≤ A * q ^ (1.6 : ℝ) ∧ A / (q ^ (-1.6 : ℝ) + q ^ (0.8 : ℝ)) ≤ A / q ^ (0.8 : ℝ) := by
  have h1 := Real.rpow_pos_of_pos hq (-1.6)
  have h2 := Real.rpow_pos_of_pos hq 0.8
  have h3 := Real.rpow_pos_of_pos hq 1.6
  refine ⟨by positivity, ?_, div_le_div_of_nonneg_left hA.le h2 (by linarith)⟩
  have e : q ^ (1.6 : ℝ) = (q ^ (-1.6 : ℝ))⁻¹ := by rw [Real.rpow_neg hq.le, inv_inv]
  rw [e, ← div_eq_mul_inv]
  exact div_le_div_of_nonneg_left hA.le h1 (by linarith)

/-- The effective shape parameter of the fit without wiggles. -/
noncomputable def EH99.gam (t : EH99) (k : ℝ) : ℝ :=
  t.omhh * (t.alpha_gamma + (1 - t.alpha_gamma) / (1 + sqr (sqr (k * t.hhubble * t.sound_horizon_fit * 0.43))))
noncomputable def EH99.q (t : EH99) (k : ℝ) : ℝ := k * t.hhubble / t.omhh * sqr t.theta_cmb
noncomputable def EH99.qe (t : EH99) (k : ℝ) : ℝ := t.q k * t.omhh / t.gam k
noncomputable def EH99.yfs (t : EH99) (k : ℝ) : ℝ := 17.2 * t.f_hdm * (1 + 0.488 * t.f_hdm ^ (-7.0 / 6.0 : ℝ)) * sqr (t.num_degen_hdm * t.q k / t.f_hdm)
noncomputable def EH99.gcb (t : EH99) (k : ℝ) : ℝ := (1.0 + (t.growth_k0 / (1 + t.yfs k)) ^ (0.7 : ℝ)) ^ (t.p_cb / 0.7) * t.growth_k0 ^ (1.0 - t.p_cb)
noncomputable def EH99.mfs (t : EH99) (k : ℝ) : ℝ := 1 + 1.2 * t.f_hdm ^ (0.64 : ℝ) * t.num_degen_hdm ^ (0.3 + 0.6 * t.f_hdm) /
  ((3.92 * t.q k * Real.sqrt (t.num_degen_hdm / t.f_hdm)) ^ (-1.6 : ℝ) + (3.92 * t.q k * Real.sqrt (t.num_degen_hdm / t.f_hdm)) ^ (0.8 : ℝ))

theorem EH99.tf_eq (t : EH99) (k : ℝ) : (t.tf k).1 =
    lratio 2.71828 (1.84 * t.beta_c * t.alpha_gamma) (14.4 + 325 / (1 + 60.5 * t.qe k ^ (1.11 : ℝ))) (t.qe k) * t.mfs k * t.gcb k / t.growth_k0 := rfl

theorem EH99.gam_bounds {t : EH99} (p : t.Pos) (k : ℝ) : 0 < t.gam k ∧ t.gam k ≤ t.omhh * (1 + t.alpha_gamma) := by
  have hs : 0 ≤ sqr (sqr (k * t.hhubble * t.sound_horizon_fit * 0.43)) := mul_self_nonneg _
  unfold EH99.gam
  set s := sqr (sqr (k * t.hhubble * t.sound_horizon_fit * 0.43))
  have h1 : 0 < 1 + s := by linarith
  have e : t.alpha_gamma + (1 - t.alpha_gamma) / (1 + s) = (1 + t.alpha_gamma * s) / (1 + s) := by
    field_simp
    ring
  rw [e]
  have ha := p.a
  have ho := p.o
  refine ⟨by positivity, mul_le_mul_of_nonneg_left ?_ ho.le⟩
  rw [div_le_iff₀ h1]
  nlinarith [mul_nonneg ha.le hs]

theorem EH99.q_pos {t : EH99} (p : t.Pos) {k : ℝ} (hk : 0 < k) : 0 < t.q k := by
  have := p.h; have := p.o; have := p.th
  unfold EH99.q sqr
  positivity

theorem EH99.yfs_nonneg {t : EH99} (p : t.Pos) (k : ℝ) : 0 ≤ t.yfs k := by
  have := Real.rpow_pos_of_pos p.f (-7.0 / 6.0)
  have hs : 0 ≤ sqr (t.num_degen_hdm * t.q k / t.f_hdm) := mul_self_nonneg _
  have := p.f
  unfold EH99.yfs
  positivity

theorem EH99.decay {t : EH99} (p : t.Pos) (hp : 0 ≤ t.p_cb) : ∃ B, ∀ k, 1 ≤ k → (t.tf k).1 ≤ B / k := by
  have ha := p.a
  have ho := p.o
  have hg := p.g
  have hq1 := EH99.q_pos p one_pos
  have hsq : 0 < Real.sqrt (t.num_degen_hdm / t.f_hdm) := Real.sqrt_pos.mpr (div_pos p.n p.f)
  have hqk : ∀ k, t.q k = k * t.q 1 := fun k => by unfold EH99.q; ring
  set c := t.q 1 / (1 + t.alpha_gamma) with hc
  have hc0 : 0 < c := by positivity
  have hA : 0 < 1.2 * t.f_hdm ^ (0.64 : ℝ) * t.num_degen_hdm ^ (0.3 + 0.6 * t.f_hdm) := by
    have := Real.rpow_pos_of_pos p.f 0.64
    have := Real.rpow_pos_of_pos p.n (0.3 + 0.6 * t.f_hdm)
    positivity
  set A := 1.2 * t.f_hdm ^ (0.64 : ℝ) * t.num_degen_hdm ^ (0.3 + 0.6 * t.f_hdm) with hAd
  set a := 1.84 * t.beta_c * t.alpha_gamma with had
  have ha0 : 0 < a := by have := p.b; positivity
  set M := 1 + A / (3.92 * t.q 1 * Real.sqrt (t.num_degen_hdm / t.f_hdm)) ^ (0.8 : ℝ) with hM
  set G := (1.0 + t.growth_k0 ^ (0.7 : ℝ)) ^ (t.p_cb / 0.7) * t.growth_k0 ^ (1.0 - t.p_cb) with hG
  refine ⟨(2.71828 / c + a) / (14.4 * c) * M * G / t.growth_k0, fun k hk => ?_⟩
  have hk0 : 0 < k := by linarith
  have hqe : c * k ≤ t.qe k := by
    unfold EH99.qe
    obtain ⟨g0, g1⟩ := EH99.gam_bounds p k
    rw [le_div_iff₀ g0, hqk, hc]
    have : t.q 1 / (1 + t.alpha_gamma) * k * t.gam k ≤ t.q 1 / (1 + t.alpha_gamma) * k * (t.omhh * (1 + t.alpha_gamma)) :=
      mul_le_mul_of_nonneg_left g1 (by positivity)
    refine this.trans (le_of_eq ?_)
    field_simp
  have hqe0 : 0 < t.qe k := lt_of_lt_of_le (mul_pos hc0 hk0) hqe
  have hC : 14.4 ≤ 14.4 + 325 / (1 + 60.5 * t.qe k ^ (1.11 : ℝ)) := by
    have := Real.rpow_pos_of_pos hqe0 1.11
    have h2 : 0 ≤ 325 / (1 + 60.5 * t.qe k ^ (1.11 : ℝ)) := by positivity
    linarith
  obtain ⟨r0, -, r1⟩ := lratio_bounds (e := 2.71828) (a := a) (c := 14.4 + 325 / (1 + 60.5 * t.qe k ^ (1.11 : ℝ))) (by norm_num) ha0 (lt_of_lt_of_le (by norm_num) hC) hqe0
  have hlr : lratio 2.71828 a (14.4 + 325 / (1 + 60.5 * t.qe k ^ (1.11 : ℝ))) (t.qe k) ≤ (2.71828 / c + a) / (14.4 * c) / k := by
    refine (r1 14.4 (by norm_num) hC).trans ?_
    have h1 : c ≤ t.qe k := le_trans (le_mul_of_one_le_right hc0.le hk) hqe
    rw [div_div, mul_assoc]
    refine div_le_div₀ (by positivity) ?_ (by positivity) (mul_le_mul_of_nonneg_left hqe (by norm_num))
    exact add_le_add_left (div_le_div_of_nonneg_left (by norm_num) hc0 h1) _
  have hqn : ∀ x, 0 < x → 0 < 3.92 * t.q x * Real.sqrt (t.num_degen_hdm / t.f_hdm) := fun x hx => by have := EH99.q_pos p hx; positivity
  have hm : t.mfs k ≤ M ∧ 0 < t.mfs k := by
    obtain ⟨b0, -, b1⟩ := fs_bounds hA (hqn k hk0)
    unfold EH99.mfs
    rw [hM]
    refine ⟨add_le_add_right (b1.trans (div_le_div_of_nonneg_left hA.le (Real.rpow_pos_of_pos (hqn 1 one_pos) _) ?_)) _, add_pos_of_pos_of_nonneg one_pos b0⟩
    refine Real.rpow_le_rpow (hqn 1 one_pos).le ?_ (by norm_num)
    refine mul_le_mul_of_nonneg_right (mul_le_mul_of_nonneg_left ?_ (by norm_num)) hsq.le
    rw [hqk k]
    exact le_mul_of_one_le_left hq1.le hk
  have hgc : t.gcb k ≤ G ∧ 0 < t.gcb k := by
    have hy := EH99.yfs_nonneg p k
    have h1 : 0 < t.growth_k0 / (1 + t.yfs k) := by positivity
    have h2 := Real.rpow_pos_of_pos h1 0.7
    have h3 := Real.rpow_pos_of_pos hg (1.0 - t.p_cb)
    unfold EH99.gcb
    rw [hG]
    refine ⟨mul_le_mul_of_nonneg_right (Real.rpow_le_rpow (by positivity) ?_ (by positivity)) h3.le, mul_pos (Real.rpow_pos_of_pos (by positivity) _) h3⟩
    exact add_le_add_right (Real.rpow_le_rpow h1.le (div_le_self hg.le (le_add_of_nonneg_right hy)) (by norm_num)) _
  rw [EH99.tf_eq]
  have e : (2.71828 / c + a) / (14.4 * c) * M * G / t.growth_k0 / k = (2.71828 / c + a) / (14.4 * c) / k * M * G / t.growth_k0 := by ring
  rw [e]
  refine div_le_div_of_nonneg_right ?_ hg.le
  refine mul_le_mul (mul_le_mul hlr hm.1 hm.2.le (r0.le.trans hlr)) hgc.1 hgc.2.le ?_
  exact mul_nonneg (r0.le.trans hlr) (hm.2.le.trans hm.1)

theorem EH99.at_zero {t : EH99} (p : t.Pos) : Tendsto (fun k => (t.tf k).1) (𝓝[>] 0) (𝓝 ((1 + t.growth_k0 ^ (-0.7 : ℝ)) ^ (t.p_cb / 0.7))) := by
  have ho := p.o
  have hg := p.g
  have hid : Tendsto (fun k : ℝ => k) (𝓝[>] 0) (𝓝 0) := tendsto_nhdsWithin_of_tendsto_nhds tendsto_id
  have hsq : 0 < Real.sqrt (t.num_degen_hdm / t.f_hdm) := Real.sqrt_pos.mpr (div_pos p.n p.f)
  have hq : Tendsto t.q (𝓝[>] 0) (𝓝 0) := by
    have := ((hid.mul_const t.hhubble).div_const t.omhh).mul_const (sqr t.theta_cmb)
    rw [zero_mul, zero_div, zero_mul] at this
    exact this
  have hgam : Tendsto t.gam (𝓝[>] 0) (𝓝 t.omhh) := by
    have h1 : Tendsto (fun k : ℝ => k * t.hhubble * t.sound_horizon_fit * 0.43) (𝓝[>] 0) (𝓝 0) := by
      have := ((hid.mul_const t.hhubble).mul_const t.sound_horizon_fit).mul_const (0.43 : ℝ)
      simpa using this
    have h2 : Tendsto (fun k : ℝ => sqr (sqr (k * t.hhubble * t.sound_horizon_fit * 0.43))) (𝓝[>] 0) (𝓝 0) := by
      have := (h1.mul h1).mul (h1.mul h1)
      rw [mul_zero, mul_zero] at this
      exact this
    have h3 : Tendsto (fun k : ℝ => t.omhh * (t.alpha_gamma + (1 - t.alpha_gamma) / (1 + sqr (sqr (k * t.hhubble * t.sound_horizon_fit * 0.43))))) (𝓝[>] 0)
        (𝓝 (t.omhh * (t.alpha_gamma + (1 - t.alpha_gamma) / (1 + 0)))) :=
      (((tendsto_const_nhds.div (h2.const_add 1) (by norm_num)).const_add t.alpha_gamma).const_mul t.omhh)
    have e : t.omhh * (t.alpha_gamma + (1 - t.alpha_gamma) / (1 + 0)) = t.omhh := by ring
    rw [e] at h3
    exact h3
  have hqe : Tendsto t.qe (𝓝[>] 0) (𝓝 0) := by
    have := (hq.mul_const t.omhh).div hgam ho.ne'
    rw [zero_mul, zero_div] at this
    exact this
  have hlr : Tendsto (fun k => lratio 2.71828 (1.84 * t.beta_c * t.alpha_gamma) (14.4 + 325 / (1 + 60.5 * t.qe k ^ (1.11 : ℝ))) (t.qe k)) (𝓝[>] 0) (𝓝 1) := by
    have h1 : Tendsto (fun k => t.qe k ^ (1.11 : ℝ)) (𝓝[>] 0) (𝓝 0) := by
      have := hqe.rpow_const (p := 1.11) (Or.inr (by norm_num))
      rwa [Real.zero_rpow (by norm_num)] at this
    have h2 : Tendsto (fun k => 14.4 + 325 / (1 + 60.5 * t.qe k ^ (1.11 : ℝ))) (𝓝[>] 0) (𝓝 (14.4 + 325 / (1 + 60.5 * 0))) :=
      ((tendsto_const_nhds.div ((h1.const_mul 60.5).const_add 1) (by norm_num)).const_add 14.4)
    have h3 : Tendsto (fun k => Real.log (2.71828 + 1.84 * t.beta_c * t.alpha_gamma * t.qe k)) (𝓝[>] 0) (𝓝 (Real.log 2.71828)) := by
      have := ((hqe.const_mul (1.84 * t.beta_c * t.alpha_gamma)).const_add 2.71828).log (by norm_num)
      rwa [mul_zero, add_zero] at this
    have hpos : 0 < Real.log 2.71828 := Real.log_pos (by norm_num)
    have e : Real.log 2.71828 + (14.4 + 325 / (1 + 60.5 * 0)) * (0 * 0) = Real.log 2.71828 := by ring
    have h4 := h3.add (h2.mul (hqe.mul hqe))
    rw [e] at h4
    have h5 := h3.div h4 hpos.ne'
    rw [div_self hpos.ne'] at h5
    exact h5
  have hm : Tendsto t.mfs (𝓝[>] 0) (𝓝 1) := by
    have hA : 0 < 1.2 * t.f_hdm ^ (0.64 : ℝ) * t.num_degen_hdm ^ (0.3 + 0.6 * t.f_hdm) := by
      have := Real.rpow_pos_of_pos p.f 0.64
      have := Real.rpow_pos_of_pos p.n (0.3 + 0.6 * t.f_hdm)
      positivity
    have hqn : Tendsto (fun k => 3.92 * t.q k * Real.sqrt (t.num_degen_hdm / t.f_hdm)) (𝓝[>] 0) (𝓝 0) := by
      have := (hq.const_mul 3.92).mul_const (Real.sqrt (t.num_degen_hdm / t.f_hdm))
      simpa using this
    have hup : Tendsto (fun k => 1.2 * t.f_hdm ^ (0.64 : ℝ) * t.num_degen_hdm ^ (0.3 + 0.6 * t.f_hdm) * (3.92 * t.q k * Real.sqrt (t.num_degen_hdm / t.f_hdm)) ^ (1.6 : ℝ)) (𝓝[>] 0) (𝓝 0) := by
      have h1 := hqn.rpow_const (p := 1.6) (Or.inr (by norm_num))
      rw [Real.zero_rpow (by norm_num)] at h1
      simpa using h1.const_mul (1.2 * t.f_hdm ^ (0.64 : ℝ) * t.num_degen_hdm ^ (0.3 + 0.6 * t.f_hdm))
    have hpos : ∀ᶠ k in 𝓝[>] (0 : ℝ), 0 < 3.92 * t.q k * Real.sqrt (t.num_degen_hdm / t.f_hdm) := by
      filter_upwards [self_mem_nhdsWithin] with k hk
      have := EH99.q_pos p hk
      positivity
    have h0 : Tendsto (fun k => 1.2 * t.f_hdm ^ (0.64 : ℝ) * t.num_degen_hdm ^ (0.3 + 0.6 * t.f_hdm) /
        ((3.92 * t.q k * Real.sqrt (t.num_degen_hdm / t.f_hdm)) ^ (-1.6 : ℝ) + (3.92 * t.q k * Real.sqrt (t.num_degen_hdm / t.f_hdm)) ^ (0.8 : ℝ))) (𝓝[>] 0) (𝓝 0) :=
      squeeze_zero' (hpos.mono fun k hk => (fs_bounds hA hk).1) (hpos.mono fun k hk => (fs_bounds hA hk).2.1) hup
    have := h0.const_add 1
    rw [add_zero] at this
    exact this
  have hgc : Tendsto t.gcb (𝓝[>] 0) (𝓝 ((1.0 + t.growth_k0 ^ (0.7 : ℝ)) ^ (t.p_cb / 0.7) * t.growth_k0 ^ (1.0 - t.p_cb))) := by
    have hy : Tendsto t.yfs (𝓝[>] 0) (𝓝 0) := by
      have h1 : Tendsto (fun k => t.num_degen_hdm * t.q k / t.f_hdm) (𝓝[>] 0) (𝓝 0) := by
        have := (hq.const_mul t.num_degen_hdm).div_const t.f_hdm
        simpa using this
      have h2 := (h1.mul h1).const_mul (17.2 * t.f_hdm * (1 + 0.488 * t.f_hdm ^ (-7.0 / 6.0 : ℝ)))
      rw [mul_zero, mul_zero] at h2
      exact h2
    have h1 : Tendsto (fun k => t.growth_k0 / (1 + t.yfs k)) (𝓝[>] 0) (𝓝 t.growth_k0) := by
      have : Tendsto (fun k => t.growth_k0 / (1 + t.yfs k)) (𝓝[>] 0) (𝓝 (t.growth_k0 / (1 + 0))) := tendsto_const_nhds.div (hy.const_add 1) (by norm_num)
      rwa [add_zero, div_one] at this
    have h2 := h1.rpow_const (p := 0.7) (Or.inl hg.ne')
    have h3 := (h2.const_add 1.0).rpow_const (p := t.p_cb / 0.7) (Or.inl (by have := Real.rpow_pos_of_pos hg 0.7; positivity))
    exact h3.mul_const _
  have h := ((hlr.mul hm).mul hgc).div_const t.growth_k0
  have e : 1 * 1 * ((1.0 + t.growth_k0 ^ (0.7 : ℝ)) ^ (t.p_cb / 0.7) * t.growth_k0 ^ (1.0 - t.p_cb)) / t.growth_k0 = (1 + t.growth_k0 ^ (-0.7 : ℝ)) ^ (t.p_cb / 0.7) := by
    have h7 := Real.rpow_pos_of_pos hg 0.7
    have e1 : 1 + t.growth_k0 ^ (-0.7 : ℝ) = (1.0 + t.growth_k0 ^ (0.7 : ℝ)) * t.growth_k0 ^ (-0.7 : ℝ) := by
      rw [add_mul, ← Real.rpow_add hg]
      norm_num
      ring
    rw [e1, Real.mul_rpow (by positivity) (Real.rpow_pos_of_pos hg _).le, ← Real.rpow_mul hg.le, mul_one, one_mul, mul_div_assoc]
    congr 1
    nth_rewrite 2 [← Real.rpow_one t.growth_k0]
    rw [← Real.rpow_sub hg]
    congr 1
    norm_num
    ring
  rw [e] at h
  exact h


theorem tendsto_of_decay {T : ℝ → ℝ} {B : ℝ} (h : ∀ k, 1 ≤ k → |T k| ≤ B / k) : Tendsto T atTop (𝓝 0) := by
  have hz : Tendsto (fun x : ℝ => B / x) atTop (𝓝 0) := tendsto_const_nhds.div_atTop tendsto_id
  refine squeeze_zero_norm' ?_ hz
  filter_upwards [eventually_ge_atTop (1 : ℝ)] with k hk
  exact h k hk

theorem p_cb_bounds {fb fn : ℝ} (h0 : 0 < fn) (h1 : fn ≤ 0.01) :
    0 ≤ 0.25 * (5.0 - Real.sqrt (1 + 24.0 * ((1.0 - fb - fn) + fb))) ∧ 0.25 * (5.0 - Real.sqrt (1 + 24.0 * ((1.0 - fb - fn) + fb))) ≤ 1.2 * fn := by
  rw [quarter]
  have e : 1 + 24 * ((1.0 - fb - fn) + fb) = 25 - 24 * fn := by norm_num; ring
  rw [e]
  norm_num at h1
  have h2 : Real.sqrt (25 - 24 * fn) ≤ 5 := by
    rw [Real.sqrt_le_left (by norm_num)]; linarith
  have h3 : 5 - 24 * fn / 5 ≤ Real.sqrt (25 - 24 * fn) := by
    refine Real.le_sqrt_of_sq_le ?_
    nlinarith
  norm_num
  constructor <;> linarith

theorem growthF_le {m : ℝ} (h0 : 0 < m) (h1 : m ≤ 1) : growthF m ≤ 2.6 := by
  unfold growthF
  have : m ^ (4 / 7 : ℝ) ≤ 1 := Real.rpow_le_one h0.le h1 (by norm_num)
  norm_num at this ⊢
  nlinarith

/-- C147: without wiggles, for every usable cosmology, the transfer function tends to a limit L ≥ 1 on large scales (the formula is not
normalised to exactly one; for Ω_m h² ≥ 0.05 the excess is below two per cent), and to zero on small scales, at least as fast as 1/k. -/
theorem C147_plain {c : Cosm} (u : Usable c) : ∃ T L, c.transfer false = .ok T ∧ Tendsto T (𝓝[>] 0) (𝓝 L) ∧ 1 ≤ L ∧
    (0.05 ≤ c.omega_m0 * c.hubble ^ 2 → L ≤ 1.02) ∧ Tendsto T atTop (𝓝 0) ∧ ∃ B, ∀ k, 1 ≤ k → |T k| ≤ B / k := by
  obtain ⟨T, hT, -, hTp⟩ := C81_eh99 u
  have hp := eh99_pos u
  obtain ⟨hm0, hm1, hl, hh, -, -⟩ := u.good.basic
  have hz : EH99.trace 0.0 = 1e-5 := by unfold EH99.trace; norm_num
  have hm := u.m
  norm_num at hm
  have hfn : (0 : ℝ) < EH99.trace 0.0 / c.omega_m0 := by rw [hz]; positivity
  have hfn1 : EH99.trace 0.0 / c.omega_m0 ≤ 0.01 := by rw [hz, div_le_iff₀ hm0]; norm_num; linarith
  have hpc := p_cb_bounds (fb := EH99.trace c.omega_b0 / c.omega_m0) hfn hfn1
  set t := EH99.compute c.omega_m0 (EH99.trace c.omega_b0) (EH99.trace 0.0) (EH99.degen 0 : ℝ) c.omega_l0 c.hubble 0.0 false with ht
  have hTe : T = fun k => (t.tf k).1 := by
    have h2 : c.transfer false = .ok (fun k => (t.tf k).1) := by
      unfold Cosm.transfer EH99.setCosmology
      have c1 : ¬ c.omega_b0 < 0.0 := by have := u.b; norm_num; exact this
      have c2 : ¬ ((0.0 : ℝ) < 0.0) := lt_irrefl _
      have c3 : ¬ c.hubble ≤ 0.0 := by norm_num; exact hh
      have c4 : ¬ c.hubble > 2.0 := by have := u.h; norm_num; exact this
      have c5 : ¬ ((0.0 : ℝ) ≤ -1.0) := by norm_num
      have c6 : ¬ ((0.0 : ℝ) > 99.0) := by norm_num
      simp only [Bool.false_eq_true, if_false]
      rw [if_neg c1, if_neg c2, if_neg c3, if_neg c4, if_neg c5, if_neg c6]
      rfl
    rw [hT] at h2
    exact Except.ok.inj h2
  have hpt : 0 ≤ t.p_cb := hpc.1
  obtain ⟨B, hB⟩ := EH99.decay hp hpt
  have hB' : ∀ k, 1 ≤ k → |T k| ≤ B / k := by
    intro k hk
    rw [abs_of_pos (hTp k (by linarith)), hTe]
    exact hB k hk
  have hg := hp.g
  have hgr := Real.rpow_pos_of_pos hg (-0.7)
  refine ⟨T, _, hT, by rw [hTe]; exact EH99.at_zero hp, ?_, ?_, tendsto_of_decay hB', B, hB'⟩
  · exact Real.one_le_rpow (by linarith) (by positivity)
  · intro ho
    have hge : 1 ≤ t.growth_k0 := by
      have e : t.growth_k0 = 25000.0 * (c.omega_m0 * sqr c.hubble) / sqr (sqr (2.728 / 2.7)) / (1.0 + 0.0) * 2.5 * c.omega_m0 / growthF c.omega_m0 := by
        rw [ht]
        simp only [EH99.compute]
        have hden : c.omega_l0 + sqr (1.0 + 0.0) * (1.0 - c.omega_m0 - c.omega_l0 + c.omega_m0 * (1.0 + 0.0)) = 1 := by
          unfold sqr; norm_num; ring
        rw [hden]
        have e1 : c.omega_m0 * sqr (1.0 + 0.0) * (1.0 + 0.0) / 1 = c.omega_m0 := by unfold sqr; norm_num
        rw [e1, div_one, hl]
        have e2 : c.omega_m0 ^ (4.0 / 7.0 : ℝ) - (1 - c.omega_m0) + (1.0 + c.omega_m0 / 2.0) * (1.0 + (1 - c.omega_m0) / 70.0) = growthF c.omega_m0 := by
          unfold growthF; norm_num
        rw [e2]
      rw [e]
      have hF := growthF_pos hm0 hm1
      have hF2 := growthF_le hm0 hm1.le
      rw [one_le_div hF]
      refine hF2.trans ?_
      have hsq : sqr c.hubble = c.hubble ^ 2 := by unfold sqr; ring
      rw [hsq]
      unfold sqr
      norm_num at ho ⊢
      nlinarith
    have h1 : t.growth_k0 ^ (-0.7 : ℝ) ≤ 1 := Real.rpow_le_one_of_one_le_of_nonpos hge (by norm_num)
    have hp2 : t.p_cb / 0.7 ≤ 0.02 := by
      have : t.p_cb ≤ 1.2 * (EH99.trace 0.0 / c.omega_m0) := hpc.2
      rw [div_le_iff₀ (by norm_num)]
      norm_num at this hfn1 ⊢
      linarith
    have hb := rpow_one_add_le_one_add_mul_self (s := t.growth_k0 ^ (-0.7 : ℝ)) (by linarith) (p := t.p_cb / 0.7) (by positivity) (hp2.trans (by norm_num))
    refine hb.trans ?_
    have hq0 : 0 ≤ t.p_cb / 0.7 := by positivity
    norm_num at hp2 ⊢
    norm_num at hq0 h1 hgr
    nlinarith

/-- The limits of a spectrum whose transfer function has the limit L at k = 0 and falls at least as fast as 1/k. -/
theorem spectrum_limits (P : PowerSpectrum) {L B : ℝ} (h0 : Tendsto P.tf (𝓝[>] 0) (𝓝 L)) (hB : ∀ k, 1 ≤ k → |P.tf k| ≤ B / k) (z : ℝ) :
    Tendsto (fun k => P.power k z / k ^ P.cosm.n_spec) (𝓝[>] 0) (𝓝 (2 * Real.pi ^ 2 * P.norm * (1000 * L * P.cosm.growth_factor z) ^ 2)) ∧
    (0 < P.cosm.n_spec → Tendsto (fun k => P.power k z) (𝓝[>] 0) (𝓝 0)) ∧
    (-3 < P.cosm.n_spec → Tendsto (fun k => P.big_delta_sqr k z) (𝓝[>] 0) (𝓝 0)) ∧
    (P.cosm.n_spec < 2 → Tendsto (fun k => P.power k z) atTop (𝓝 0)) := by
  have e1 : ∀ k, P.power k z = 2 * Real.pi ^ 2 * P.norm * (1000 * P.tf k * P.cosm.growth_factor z) ^ 2 * k ^ P.cosm.n_spec := by
    intro k; unfold PowerSpectrum.power; norm_num; ring
  have e2 : ∀ k, P.big_delta_sqr k z = P.norm * (1000 * P.tf k * P.cosm.growth_factor z) ^ 2 * k ^ (3 + P.cosm.n_spec) := by
    intro k; unfold PowerSpectrum.big_delta_sqr; norm_num; ring
  have hsq : Tendsto (fun k => (1000 * P.tf k * P.cosm.growth_factor z) ^ 2) (𝓝[>] 0) (𝓝 ((1000 * L * P.cosm.growth_factor z) ^ 2)) :=
    ((h0.const_mul 1000).mul_const _).pow 2
  have hid : Tendsto (fun k : ℝ => k) (𝓝[>] 0) (𝓝 0) := tendsto_nhdsWithin_of_tendsto_nhds tendsto_id
  have hpow : ∀ p : ℝ, 0 < p → Tendsto (fun k : ℝ => k ^ p) (𝓝[>] 0) (𝓝 0) := by
    intro p hp
    have := hid.rpow_const (p := p) (Or.inr hp.le)
    rwa [Real.zero_rpow hp.ne'] at this
  refine ⟨?_, fun hn => ?_, fun hn => ?_, fun hn => ?_⟩
  · refine (hsq.const_mul (2 * Real.pi ^ 2 * P.norm)).congr' ?_
    filter_upwards [self_mem_nhdsWithin] with k hk
    rw [e1, mul_div_assoc, div_self (Real.rpow_pos_of_pos hk _).ne', mul_one]
  · have := (hsq.const_mul (2 * Real.pi ^ 2 * P.norm)).mul (hpow _ hn)
    rw [mul_zero] at this
    exact this.congr fun k => (e1 k).symm
  · have := (hsq.const_mul P.norm).mul (hpow (3 + P.cosm.n_spec) (by linarith))
    rw [mul_zero] at this
    exact this.congr fun k => (e2 k).symm
  · have hz : Tendsto (fun k : ℝ => 2 * Real.pi ^ 2 * |P.norm| * (1000 * B * P.cosm.growth_factor z) ^ 2 * k ^ (-(2 - P.cosm.n_spec))) atTop (𝓝 0) := by
      have := (tendsto_rpow_neg_atTop (y := 2 - P.cosm.n_spec) (by linarith)).const_mul (2 * Real.pi ^ 2 * |P.norm| * (1000 * B * P.cosm.growth_factor z) ^ 2)
      rwa [mul_zero] at this
    refine squeeze_zero_norm' ?_ hz
    filter_upwards [eventually_ge_atTop (1 : ℝ)] with k hk
    have hk0 : 0 < k := by linarith
    have hkn := Real.rpow_pos_of_pos hk0 P.cosm.n_spec
    have hp2 : P.tf k ^ 2 ≤ (B / k) ^ 2 := by rw [← sq_abs]; exact pow_le_pow_left₀ (abs_nonneg _) (hB k hk) 2
    have e3 : k ^ (-(2 - P.cosm.n_spec)) = k ^ P.cosm.n_spec / k ^ 2 := by
      rw [neg_sub, Real.rpow_sub hk0]; norm_num
    rw [e1, e3, Real.norm_eq_abs, abs_mul, abs_mul, abs_mul, abs_of_pos hkn, abs_of_nonneg (show 0 ≤ 2 * Real.pi ^ 2 by positivity), abs_of_nonneg (sq_nonneg (1000 * P.tf k * P.cosm.growth_factor z))]
    have h4 : (1000 * P.tf k * P.cosm.growth_factor z) ^ 2 ≤ (1000 * B * P.cosm.growth_factor z) ^ 2 / k ^ 2 := by
      have e : (1000 * B * P.cosm.growth_factor z) ^ 2 / k ^ 2 = (1000 * P.cosm.growth_factor z) ^ 2 * (B / k) ^ 2 := by field_simp
      have e' : (1000 * P.tf k * P.cosm.growth_factor z) ^ 2 = (1000 * P.cosm.growth_factor z) ^ 2 * P.tf k ^ 2 := by ring
      rw [e, e']
      exact mul_le_mul_of_nonneg_left hp2 (sq_nonneg _)
    calc 2 * Real.pi ^ 2 * |P.norm| * (1000 * P.tf k * P.cosm.growth_factor z) ^ 2 * k ^ P.cosm.n_spec
        ≤ 2 * Real.pi ^ 2 * |P.norm| * ((1000 * B * P.cosm.growth_factor z) ^ 2 / k ^ 2) * k ^ P.cosm.n_spec :=
          mul_le_mul_of_nonneg_right (mul_le_mul_of_nonneg_left h4 (by positivity)) hkn.le
      _ = 2 * Real.pi ^ 2 * |P.norm| * (1000 * B * P.cosm.growth_factor z) ^ 2 * (k ^ P.cosm.n_spec / k ^ 2) := by ring

/-- C147: on large scales the power spectrum of a constructed object approaches the primordial power law k^n (times a constant), with
baryon wiggles the constant is 2π² norm (1000 D1(z))²; for 0 < n < 2 the spectrum vanishes at both ends, and the dimensionless spectrum
vanishes on large scales. Both variants of the transfer function, every redshift, every integration routine used for the normalisation. -/
theorem C147_power (quad : Quad) {c : Cosm} (wb : Bool)
    (h : if wb then 0 < c.omega_m0 ∧ 0 < c.baryon_fraction ∧ c.baryon_fraction < 1 ∧ 0 < c.hubble else Usable c) :
    ∃ P L, PowerSpectrum.new quad c wb = .ok P ∧ P.cosm = c ∧ 1 ≤ L ∧ (wb = true → L = 1) ∧ ∀ z,
      Tendsto (fun k => P.power k z / k ^ c.n_spec) (𝓝[>] 0) (𝓝 (2 * Real.pi ^ 2 * P.norm * (1000 * L * c.growth_factor z) ^ 2)) ∧
      (0 < c.n_spec → Tendsto (fun k => P.power k z) (𝓝[>] 0) (𝓝 0)) ∧
      (-3 < c.n_spec → Tendsto (fun k => P.big_delta_sqr k z) (𝓝[>] 0) (𝓝 0)) ∧
      (c.n_spec < 2 → Tendsto (fun k => P.power k z) atTop (𝓝 0)) := by
  cases wb with
  | false =>
    have u : Usable c := h
    obtain ⟨T, L, hT, h0, hL, -, -, B, hB⟩ := C147_plain u
    refine ⟨PowerSpectrum.normalized quad c T, L, ?_, rfl, hL, (fun h => by cases h), fun z => spectrum_limits (PowerSpectrum.normalized quad c T) h0 hB z⟩
    unfold PowerSpectrum.new
    rw [hT]
    rfl
  | true =>
    obtain ⟨hm, hf, hf1, hh⟩ : 0 < c.omega_m0 ∧ 0 < c.baryon_fraction ∧ c.baryon_fraction < 1 ∧ 0 < c.hubble := h
    obtain ⟨t, ht, hT, -⟩ := C147_wiggles hm hf hf1 hh (show (0 : ℝ) < 2.728 by norm_num)
    obtain ⟨hc, h0, -, -, B, hB⟩ := hT _ (Or.inl rfl)
    have hct : c.transfer true = .ok t.transfer_function := by
      unfold Cosm.transfer
      rw [if_pos rfl, ht]
      rfl
    have hlim : Tendsto t.transfer_function (𝓝[>] 0) (𝓝 1) := by
      have := hc.tendsto 0
      rw [h0] at this
      exact tendsto_nhdsWithin_of_tendsto_nhds this
    -- a bound from k = 1 on, by compactness of [1, 1/h]
    have hbd : ∃ D, ∀ k, 1 ≤ k → |t.transfer_function k| ≤ D / k := by
      obtain ⟨M, hM⟩ := (isCompact_Icc (a := (1 : ℝ)) (b := max 1 (1 / c.hubble))).exists_bound_of_continuousOn hc.continuousOn
      refine ⟨max (|M| * max 1 (1 / c.hubble)) B, fun k hk => ?_⟩
      have hk0 : 0 < k := by linarith
      by_cases hkm : k ≤ max 1 (1 / c.hubble)
      · have h1 : |t.transfer_function k| ≤ M := hM k ⟨hk, hkm⟩
        rw [le_div_iff₀ hk0]
        refine le_trans ?_ (le_max_left _ _)
        exact mul_le_mul (h1.trans (le_abs_self M)) hkm hk0.le (abs_nonneg _)
      · have h1 : 1 / c.hubble ≤ |k| := by rw [abs_of_pos hk0]; exact (le_max_right 1 _).trans (not_le.mp hkm).le
        have := hB k h1
        rw [abs_of_pos hk0] at this
        exact this.trans (div_le_div_of_nonneg_right (le_max_right _ _) hk0.le)
    obtain ⟨D, hD⟩ := hbd
    refine ⟨PowerSpectrum.normalized quad c t.transfer_function, 1, ?_, rfl, le_refl _, (fun _ => rfl), fun z => spectrum_limits (PowerSpectrum.normalized quad c t.transfer_function) hlim hD z⟩
    unfold PowerSpectrum.new
    rw [hct]
    rfl

/-- C147: with exact integration the amplitude of the large-scale power law is positive: the spectrum without wiggles is proportional
to k^n on large scales, with a positive constant of proportionality. -/
theorem C147_amplitude {c : Cosm} (u : Usable c) (hs : c.sigma_8 ≠ 0) : ∃ P, PowerSpectrum.new exactQuad c false = .ok P ∧
    ∀ z, -1 < z → ∃ A > 0, Tendsto (fun k => P.power k z / k ^ c.n_spec) (𝓝[>] 0) (𝓝 A) := by
  obtain ⟨P, L, hP, hPc, hL, -, hlim⟩ := C147_power exactQuad (c := c) false u
  obtain ⟨T, hT, hc, hp⟩ := C81_eh99 u
  have hPe : P = PowerSpectrum.normalized exactQuad c T := by
    unfold PowerSpectrum.new at hP
    rw [hT] at hP
    exact (Except.ok.inj hP).symm
  have hraw := rawSigma_pos c (T := T) ⟨hc, hp⟩ (by norm_num : (0 : ℝ) < 8) log8.1 log8.2
  have hn : 0 < P.norm := by
    rw [hPe]
    have e : (PowerSpectrum.normalized exactQuad c T).norm = c.sigma_8 ^ 2 / (⟨c, T, 1.0⟩ : PowerSpectrum).sigma_sqr exactQuad 8.0 0.0 := rfl
    have hd : 0 < (⟨c, T, 1.0⟩ : PowerSpectrum).sigma_sqr exactQuad 8.0 0.0 := by
      rw [sigma_raw exactQuad_hom]
      have e8 : (8.0 : ℝ) = 8 := by norm_num
      have e0 : (0.0 : ℝ) = 0 := by norm_num
      have e1 : (1.0 : ℝ) = 1 := by norm_num
      simp only [e8, e0, e1, (C81_today u.good).1, one_pow, one_mul, mul_one]
      exact hraw
    rw [e]
    have : 0 < c.sigma_8 ^ 2 := by positivity
    exact div_pos this hd
  refine ⟨P, hP, fun z hz => ⟨_, ?_, (hlim z).1⟩⟩
  have hgz := ((C81_today u.good).2.2 z hz).1
  have := Real.pi_pos
  have hL0 : 0 < L := by linarith
  positivity

example : Usable planck2015 ∧ planck2015.sigma_8 ≠ 0 ∧ 0 < planck2015.n_spec ∧ planck2015.n_spec < 2 ∧ 0 < planck2015.baryon_fraction ∧ planck2015.baryon_fraction < 1 ∧
    0.05 ≤ planck2015.omega_m0 * planck2015.hubble ^ 2 := by
  refine ⟨⟨⟨⟨_, _, _, _, _, by norm_num, by norm_num, by norm_num, rfl⟩⟩, ?_, ?_, ?_, ?_⟩, ?_, ?_, ?_, ?_, ?_, ?_⟩ <;> simp only [planck2015, Cosm.new, Cosm.baryon_fraction] <;> norm_num

end Pyhipp.Cosmology
