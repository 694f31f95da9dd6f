import Verif.Props.PowerSpectrum
import Mathlib.Topology.Algebra.Order.Field
import Mathlib.MeasureTheory.Integral.IntervalIntegral.Basic
import Mathlib.MeasureTheory.Integral.IntervalIntegral.FundThmCalculus
/-
C81: positivity and continuity of the no-wiggle transfer function, so that the normalisation is well defined for exact integration.
-/
namespace Pyhipp.Cosmology
open Pyhipp Set

/-- The coefficients are positive. -/
structure EH99.Pos (t : EH99) : Prop where
  a : 0 < t.alpha_gamma
  b : 0 < t.beta_c
  n : 0 < t.num_degen_hdm
  f : 0 < t.f_hdm
  g : 0 < t.growth_k0
  h : 0 < t.hhubble
  o : 0 < t.omhh
  th : 0 < t.theta_cmb

/-- Continuous and positive on the positive wavenumbers. -/
def PC (f : ℝ → ℝ) : Prop := ContinuousOn f (Ioi 0) ∧ ∀ k ∈ Ioi (0 : ℝ), 0 < f k

theorem PC.const {c : ℝ} (h : 0 < c) : PC (fun _ => c) := ⟨continuousOn_const, fun _ _ => h⟩
theorem PC.id : PC (fun k => k) := ⟨continuousOn_id, fun _ h => h⟩
theorem PC.mul {f g : ℝ → ℝ} (hf : PC f) (hg : PC g) : PC (fun k => f k * g k) := ⟨hf.1.mul hg.1, fun k hk => mul_pos (hf.2 k hk) (hg.2 k hk)⟩
theorem PC.add {f g : ℝ → ℝ} (hf : PC f) (hg : PC g) : PC (fun k => f k + g k) := ⟨hf.1.add hg.1, fun k hk => add_pos (hf.2 k hk) (hg.2 k hk)⟩
theorem PC.div {f g : ℝ → ℝ} (hf : PC f) (hg : PC g) : PC (fun k => f k / g k) :=
  ⟨hf.1.div hg.1 (fun k hk => ne_of_gt (hg.2 k hk)), fun k hk => div_pos (hf.2 k hk) (hg.2 k hk)⟩
theorem PC.rpow {f : ℝ → ℝ} (hf : PC f) (p : ℝ) : PC (fun k => f k ^ p) :=
  ⟨hf.1.rpow_const (fun k hk => Or.inl (ne_of_gt (hf.2 k hk))), fun k hk => Real.rpow_pos_of_pos (hf.2 k hk) p⟩
theorem PC.sqr {f : ℝ → ℝ} (hf : PC f) : PC (fun k => sqr (f k)) := hf.mul hf
theorem PC.log {f : ℝ → ℝ} (hf : PC f) (h : ∀ k ∈ Ioi (0 : ℝ), 1 < f k) : PC (fun k => Real.log (f k)) :=
  ⟨hf.1.log (fun k hk => ne_of_gt (hf.2 k hk)), fun k hk => Real.log_pos (h k hk)⟩

theorem EH99.tf_pc {t : EH99} (p : t.Pos) : PC (fun k => (t.tf k).1) := by
  have hkk : PC (fun k => k * t.hhubble) := PC.id.mul (PC.const p.h)
  have hqq : PC (fun k => k * t.hhubble / t.omhh * Cosmology.sqr t.theta_cmb) := (hkk.div (PC.const p.o)).mul (PC.const p.th).sqr
  have hy := ((PC.const (show (0 : ℝ) < 17.2 by norm_num)).mul (PC.const p.f)).mul
    ((PC.const (show (0 : ℝ) < 1 by norm_num)).add ((PC.const (show (0 : ℝ) < 0.488 by norm_num)).mul ((PC.const p.f).rpow (-7.0 / 6.0))))
  have hy2 := hy.mul (((PC.const p.n).mul hqq).div (PC.const p.f)).sqr
  have ht1 := (PC.const p.g).rpow (1.0 - t.p_cb)
  have ht2 := ((PC.const p.g).div ((PC.const (show (0 : ℝ) < 1 by norm_num)).add hy2)).rpow 0.7
  have hcb := (((PC.const (show (0 : ℝ) < 1.0 by norm_num)).add ht2).rpow (t.p_cb / 0.7)).mul ht1
  have hge : PC (fun k => t.omhh * (t.alpha_gamma + (1 - t.alpha_gamma) / (1 + Cosmology.sqr (Cosmology.sqr (k * t.hhubble * t.sound_horizon_fit * 0.43))))) := by
    have hs : ∀ x : ℝ, 0 ≤ Cosmology.sqr (Cosmology.sqr x) := fun x => mul_self_nonneg _
    constructor
    · refine continuousOn_const.mul (continuousOn_const.add (continuousOn_const.div (continuousOn_const.add ?_) ?_))
      · have : Continuous (fun k : ℝ => Cosmology.sqr (Cosmology.sqr (k * t.hhubble * t.sound_horizon_fit * 0.43))) := by
          unfold Cosmology.sqr; fun_prop
        exact this.continuousOn
      · intro k _
        have := hs (k * t.hhubble * t.sound_horizon_fit * 0.43)
        linarith
    · intro k _
      have := hs (k * t.hhubble * t.sound_horizon_fit * 0.43)
      set s := Cosmology.sqr (Cosmology.sqr (k * t.hhubble * t.sound_horizon_fit * 0.43))
      have e : t.alpha_gamma + (1 - t.alpha_gamma) / (1 + s) = (1 + t.alpha_gamma * s) / (1 + s) := by
        have : (1 : ℝ) + s ≠ 0 := by linarith
        field_simp
        ring
      show 0 < t.omhh * (t.alpha_gamma + (1 - t.alpha_gamma) / (1 + s))
      rw [e]
      have h1 : 0 < 1 + s := by linarith
      have h2 : 0 < 1 + t.alpha_gamma * s := by have := mul_nonneg (le_of_lt p.a) this; linarith
      have := p.o
      positivity
  have hqe := (hqq.mul (PC.const p.o)).div hge
  have hLarg := (PC.const (show (0 : ℝ) < 2.71828 by norm_num)).add ((((PC.const (show (0 : ℝ) < 1.84 by norm_num)).mul (PC.const p.b)).mul (PC.const p.a)).mul hqe)
  have hL := hLarg.log (by
    intro k hk
    have := ((((PC.const (show (0 : ℝ) < 1.84 by norm_num)).mul (PC.const p.b)).mul (PC.const p.a)).mul hqe).2 k hk
    norm_num at this ⊢
    linarith)
  have hC := (PC.const (show (0 : ℝ) < 14.4 by norm_num)).add ((PC.const (show (0 : ℝ) < 325 by norm_num)).div
    ((PC.const (show (0 : ℝ) < 1 by norm_num)).add ((PC.const (show (0 : ℝ) < 60.5 by norm_num)).mul (hqe.rpow 1.11))))
  have hsup := hL.div (hL.add (hC.mul hqe.sqr))
  have hqn := ((PC.const (show (0 : ℝ) < 3.92 by norm_num)).mul hqq).mul (PC.const (Real.sqrt_pos.mpr (div_pos p.n p.f)))
  have hmf := (PC.const (show (0 : ℝ) < 1 by norm_num)).add ((((PC.const (show (0 : ℝ) < 1.2 by norm_num)).mul ((PC.const p.f).rpow 0.64)).mul
    ((PC.const p.n).rpow (0.3 + 0.6 * t.f_hdm))).div ((hqn.rpow (-1.6)).add (hqn.rpow 0.8)))
  exact ((hsup.mul hmf).mul hcb).div (PC.const p.g)

/-- C81: the cosmologies for which the no-wiggle fit is meant (and more): baryons at most 80 per cent of matter. -/
structure Usable (c : Cosm) : Prop where
  good : Good c
  m : 0.001 ≤ c.omega_m0
  b : 0 ≤ c.omega_b0
  bm : c.omega_b0 + 2e-5 ≤ 0.8 * c.omega_m0
  h : c.hubble ≤ 2

example : Usable planck2015 := ⟨⟨⟨_, _, _, _, _, by norm_num, by norm_num, by norm_num, rfl⟩⟩, by simp only [planck2015, Cosm.new]; norm_num,
  by simp only [planck2015, Cosm.new]; norm_num, by simp only [planck2015, Cosm.new]; norm_num, by simp only [planck2015, Cosm.new]; norm_num⟩

theorem alpha_core {fc fcb y S1 S2 X Y : ℝ} (hc : 0 < fc) (hcb : 0 < fcb) (hy : 0 < y) (s1 : 2 < S1) (s2 : S1 ≤ S2) (hX : 0 < X) (hY : 0 < Y) :
    0 < fc / fcb * (5 - 2 * ((5 - S1) / 4 + (5 - S2) / 4)) / (5 - 4 * ((5 - S2) / 4)) * (1 + y) ^ ((5 - S2) / 4 - (5 - S1) / 4) * X / Y *
    (1 + ((5 - S1) / 4 - (5 - S2) / 4) / 2 * (1 + 1 / (3 - 4 * ((5 - S1) / 4)) / (7 - 4 * ((5 - S2) / 4))) / (1 + y)) := by
  have t1 : 0 < (1 + y) ^ ((5 - S2) / 4 - (5 - S1) / 4) := Real.rpow_pos_of_pos (by linarith) _
  have t5 : 0 < 5 - 2 * ((5 - S1) / 4 + (5 - S2) / 4) := by linarith
  have t6 : 0 < (5 : ℝ) - 4 * ((5 - S2) / 4) := by linarith
  have t4 : 0 ≤ ((5 - S1) / 4 - (5 - S2) / 4) / 2 * (1 + 1 / (3 - 4 * ((5 - S1) / 4)) / (7 - 4 * ((5 - S2) / 4))) / (1 + y) := by
    have a1 : 0 < 3 - 4 * ((5 - S1) / 4) := by linarith
    have a2 : 0 < 7 - 4 * ((5 - S2) / 4) := by linarith
    have a3 : 0 ≤ (5 - S1) / 4 - (5 - S2) / 4 := by linarith
    positivity
  positivity

theorem alpha_X {f : ℝ} (h0 : 0 < f) (h8 : f ≤ 4 / 5) : 0 < 1 + f * (-553 / 1000 + 126 / 1000 * f * f) := by
  have : 0 ≤ f * f * f := by positivity
  nlinarith

theorem alpha_Y {f : ℝ} (h0 : 0 < f) (h8 : f ≤ 1 / 100) : 0 < 1 - 193 / 1000 * Real.sqrt f + 169 / 1000 * f := by
  have h9 : Real.sqrt f ≤ 1 := by
    rw [Real.sqrt_le_left (by norm_num)]; linarith
  linarith

theorem quarter (x : ℝ) : 0.25 * (5.0 - Real.sqrt (1 + 24.0 * x)) = (5 - Real.sqrt (1 + 24 * x)) / 4 := by
  have h1 : (0.25 : ℝ) = 1 / 4 := by norm_num
  have h2 : (5.0 : ℝ) = 5 := by norm_num
  have h3 : (24.0 : ℝ) = 24 := by norm_num
  rw [h1, h2, h3, one_div, inv_mul_eq_div]

theorem alpha_nu_pos {fb fn y : ℝ} (hb : 0 < fb) (hn : 0 < fn) (hn1 : fn ≤ 0.01) (h8 : fb + fn ≤ 0.8) (hy : 0 < y) :
    let f_cdm := 1.0 - fb - fn
    let f_cb := f_cdm + fb
    let f_bnu := fb + fn
    let p_c := 0.25 * (5.0 - Real.sqrt (1 + 24.0 * f_cdm))
    let p_cb := 0.25 * (5.0 - Real.sqrt (1 + 24.0 * f_cb))
    0 < f_cdm / f_cb * (5.0 - 2 * (p_c + p_cb)) / (5 - 4 * p_cb) * (1 + y) ^ (p_cb - p_c) *
    (1 + f_bnu * (-0.553 + 0.126 * f_bnu * f_bnu)) /
    (1 - 0.193 * Real.sqrt (fn * 1) + 0.169 * fn * 1 ^ (0.2 : ℝ)) *
    (1 + (p_c - p_cb) / 2 * (1 + 1 / (3 - 4 * p_c) / (7 - 4 * p_cb)) / (1 + y)) := by
  have h10 : (1.0 : ℝ) = 1 := by norm_num
  have h50 : (5.0 : ℝ) = 5 := by norm_num
  have hX : -(0.553 : ℝ) = -553 / 1000 := by norm_num
  have hX2 : (0.126 : ℝ) = 126 / 1000 := by norm_num
  have hY : (0.193 : ℝ) = 193 / 1000 := by norm_num
  have hY2 : (0.169 : ℝ) = 169 / 1000 := by norm_num
  have hn1' : fn ≤ 1 / 100 := by norm_num at hn1 ⊢; exact hn1
  have h8' : fb + fn ≤ 4 / 5 := by norm_num at h8 ⊢; exact h8
  simp only [quarter]
  rw [h10, h50, hX, hX2, hY, hY2, mul_one, Real.one_rpow, mul_one]
  clear hX hX2 hY hY2 h10 h50 hn1 h8
  have s1 : 2 < Real.sqrt (1 + 24 * (1 - fb - fn)) := by
    rw [Real.lt_sqrt (by norm_num)]; norm_num; linarith
  exact alpha_core (by linarith) (by linarith) hy s1 (Real.sqrt_le_sqrt (by linarith)) (alpha_X (by linarith) h8') (alpha_Y hn hn1')

theorem trace_pos (x : ℝ) : 0 < EH99.trace x := by unfold EH99.trace; split <;> [norm_num; linarith]

theorem trace_le {x : ℝ} (h : 0 ≤ x) : EH99.trace x ≤ x + 1e-5 := by
  unfold EH99.trace
  split
  · norm_num; linarith
  · norm_num

theorem eh99_pos {c : Cosm} (u : Usable c) :
    EH99.Pos (EH99.compute c.omega_m0 (EH99.trace c.omega_b0) (EH99.trace 0.0) (EH99.degen 0 : ℝ) c.omega_l0 c.hubble 0.0 false) := by
  obtain ⟨hm0, hm1, hl, hh, -, -⟩ := u.good.basic
  have hz : EH99.trace 0.0 = 1e-5 := by unfold EH99.trace; norm_num
  have hd : ((EH99.degen 0 : Int) : ℝ) = 1 := by simp [EH99.degen]
  have hb := trace_pos c.omega_b0
  have hb' := trace_le u.b
  have hbm := u.bm
  have hm := u.m
  norm_num at hm hbm hb'
  have hfb : 0 < EH99.trace c.omega_b0 / c.omega_m0 := by positivity
  have hfn : (0 : ℝ) < 1e-5 / c.omega_m0 := by positivity
  have hfn1 : (1e-5 : ℝ) / c.omega_m0 ≤ 0.01 := by rw [div_le_iff₀ hm0]; norm_num; linarith
  have hs8 : EH99.trace c.omega_b0 / c.omega_m0 + 1e-5 / c.omega_m0 ≤ 0.8 := by
    rw [← add_div, div_le_iff₀ hm0]; norm_num; linarith
  have hh2 : 0 < Cosmology.sqr c.hubble := mul_pos hh hh
  have homhh : 0 < c.omega_m0 * Cosmology.sqr c.hubble := by positivity
  rw [hz, hd]
  refine ⟨?_, ?_, ?_, ?_, ?_, hh, homhh, ?_⟩
  · simp only [EH99.compute]
    refine Real.sqrt_pos.mpr (alpha_nu_pos hfb hfn hfn1 hs8 ?_)
    have q1 : 0 < (c.omega_m0 * Cosmology.sqr c.hubble) ^ (-0.419 : ℝ) := Real.rpow_pos_of_pos homhh _
    have q2 : 0 < (c.omega_m0 * Cosmology.sqr c.hubble) ^ (0.674 : ℝ) := Real.rpow_pos_of_pos homhh _
    have q3 : 0 < (c.omega_m0 * Cosmology.sqr c.hubble) ^ (0.251 : ℝ) := Real.rpow_pos_of_pos homhh _
    have q4 : 0 < (c.omega_m0 * Cosmology.sqr c.hubble) ^ (0.828 : ℝ) := Real.rpow_pos_of_pos homhh _
    have q5 : ∀ p : ℝ, 0 < (EH99.trace c.omega_b0 * Cosmology.sqr c.hubble) ^ p := fun p => Real.rpow_pos_of_pos (by positivity) _
    have q6 := q5 (0.238 * (c.omega_m0 * Cosmology.sqr c.hubble) ^ (0.223 : ℝ))
    have q7 : 0 < Cosmology.sqr (Cosmology.sqr (2.728 / 2.7)) := by unfold Cosmology.sqr; norm_num
    positivity
  · simp only [EH99.compute]
    have : 0 < 1 - 0.949 * (EH99.trace c.omega_b0 / c.omega_m0 + 1e-5 / c.omega_m0) := by
      norm_num at hs8 ⊢; linarith
    positivity
  · simp only [EH99.compute]; norm_num
  · simp only [EH99.compute]; exact hfn
  · simp only [EH99.compute]
    have hden : c.omega_l0 + Cosmology.sqr (1.0 + 0.0) * (1.0 - c.omega_m0 - c.omega_l0 + c.omega_m0 * (1.0 + 0.0)) = 1 := by
      unfold Cosmology.sqr; norm_num; ring
    rw [hden]
    have e1 : c.omega_m0 * Cosmology.sqr (1.0 + 0.0) * (1.0 + 0.0) / 1 = c.omega_m0 := by unfold Cosmology.sqr; norm_num
    rw [e1, div_one, hl]
    have hF := growthF_pos hm0 hm1
    have e2 : c.omega_m0 ^ (4.0 / 7.0 : ℝ) - (1 - c.omega_m0) + (1.0 + c.omega_m0 / 2.0) * (1.0 + (1 - c.omega_m0) / 70.0) = growthF c.omega_m0 := by
      unfold growthF; norm_num
    rw [e2]
    have q7 : 0 < Cosmology.sqr (Cosmology.sqr (2.728 / 2.7)) := by unfold Cosmology.sqr; norm_num
    have q8 : (0 : ℝ) < 1.0 + 0.0 := by norm_num
    positivity
  · simp only [EH99.compute]; norm_num

/-- C81: without baryon wiggles the power spectrum can be constructed for every usable cosmology, and the transfer function is
positive and continuous at all positive wavenumbers. -/
theorem C81_eh99 {c : Cosm} (u : Usable c) : ∃ T, c.transfer false = .ok T ∧ ContinuousOn T (Ioi 0) ∧ ∀ k > 0, 0 < T k := by
  have hp := eh99_pos u
  have hpc := EH99.tf_pc hp
  refine ⟨_, ?_, hpc.1, fun k hk => hpc.2 k hk⟩
  obtain ⟨hm0, hm1, hl, hh, -, -⟩ := u.good.basic
  unfold Cosm.transfer EH99.setCosmology
  have c1 : ¬ c.omega_b0 < 0.0 := by have := u.b; norm_num; exact this
  have c2 : ¬ ((0.0 : ℝ) < 0.0) := lt_irrefl _
  have c3 : ¬ c.hubble ≤ 0.0 := by norm_num; exact hh
  have c4 : ¬ c.hubble > 2.0 := by have := u.h; norm_num; exact this
  have c5 : ¬ ((0.0 : ℝ) ≤ -1.0) := by norm_num
  have c6 : ¬ ((0.0 : ℝ) > 99.0) := by norm_num
  simp only [Bool.false_eq_true, if_false]
  rw [if_neg c1, if_neg c2, if_neg c3, if_neg c4, if_neg c5, if_neg c6]
  rfl


/-- Exact integration over ln k from -23 to 23. -/
noncomputable def exactQuad : Quad := fun f => ∫ x in (-23 : ℝ)..23, f x

theorem exactQuad_hom : Homogeneous exactQuad := fun c f => intervalIntegral.integral_const_mul c f

/-- Positivity of the unnormalised variance for scales with the small-argument branch inside the range of wavenumbers. -/
theorem rawSigma_pos (c : Cosm) {T : ℝ → ℝ} (hT : PC T) {r : ℝ} (hr : 0 < r) (h1 : -23 < Real.log (1.0e-5 / r)) (h2 : Real.log (1.0e-5 / r) < 23) :
    0 < rawSigma exactQuad c T r := by
  set x0 := Real.log (1.0e-5 / r) with hx0
  have hpos : (0 : ℝ) < 1.0e-5 / r := by positivity
  have hexp : Real.exp x0 * r = 1.0e-5 := by rw [hx0, Real.exp_log hpos]; field_simp
  set F : ℝ → ℝ := fun x => (Real.exp x) ^ (3 + c.n_spec) * (1000 * T (Real.exp x) * window_func (Real.exp x) r) ^ 2 with hF
  have hTc : Continuous (fun x : ℝ => T (Real.exp x)) := by
    rw [← continuousOn_univ]
    exact hT.1.comp Real.continuous_exp.continuousOn (fun x _ => Real.exp_pos x)
  have hpc : Continuous (fun x : ℝ => (Real.exp x) ^ (3 + c.n_spec)) :=
    Real.continuous_exp.rpow_const (fun x => Or.inl (ne_of_gt (Real.exp_pos x)))
  have hlt : ∀ x, x < x0 → window_func (Real.exp x) r = 1 := by
    intro x hx
    refine (C81_window _ _).2.1 ?_
    rw [← hexp]
    exact mul_lt_mul_of_pos_right (Real.exp_lt_exp.mpr hx) hr
  have hge : ∀ x, x0 ≤ x → window_func (Real.exp x) r =
      3 * (Real.sin (Real.exp x * r) - Real.exp x * r * Real.cos (Real.exp x * r)) / (Real.exp x * r) ^ 3 := by
    intro x hx
    refine window_eq ?_
    rw [← hexp]
    exact mul_le_mul_of_nonneg_right (Real.exp_le_exp.mpr hx) (le_of_lt hr)
  have i1 : IntervalIntegrable F MeasureTheory.volume (-23) x0 := by
    have hc : Continuous (fun x : ℝ => (Real.exp x) ^ (3 + c.n_spec) * (1000 * T (Real.exp x) * 1) ^ 2) := hpc.mul (((continuous_const.mul hTc).mul continuous_const).pow 2)
    refine (hc.intervalIntegrable _ _).congr_uIoo ?_
    intro x hx
    rw [uIoo_of_le (le_of_lt h1)] at hx
    simp only [hF, hlt x hx.2]
  have i2 : IntervalIntegrable F MeasureTheory.volume x0 23 := by
    have hc : Continuous (fun x : ℝ => (Real.exp x) ^ (3 + c.n_spec) * (1000 * T (Real.exp x) *
        (3 * (Real.sin (Real.exp x * r) - Real.exp x * r * Real.cos (Real.exp x * r)) / (Real.exp x * r) ^ 3)) ^ 2) := by
      have hd : Continuous (fun x : ℝ => 3 * (Real.sin (Real.exp x * r) - Real.exp x * r * Real.cos (Real.exp x * r)) / (Real.exp x * r) ^ 3) := by
        refine Continuous.div (by fun_prop) (by fun_prop) (fun x => ?_)
        have := Real.exp_pos x
        positivity
      exact hpc.mul (((continuous_const.mul hTc).mul hd).pow 2)
    refine (hc.intervalIntegrable _ _).congr_uIoo ?_
    intro x hx
    rw [uIoo_of_le (le_of_lt h2)] at hx
    simp only [hF, hge x (le_of_lt hx.1)]
  have p1 : 0 < ∫ x in (-23 : ℝ)..x0, F x := by
    refine intervalIntegral.intervalIntegral_pos_of_pos_on i1 (fun x hx => ?_) h1
    simp only [hF, hlt x hx.2]
    have := hT.2 _ (Real.exp_pos x)
    have := Real.rpow_pos_of_pos (Real.exp_pos x) (3 + c.n_spec)
    positivity
  have p2 : 0 ≤ ∫ x in x0..(23 : ℝ), F x := by
    refine intervalIntegral.integral_nonneg (le_of_lt h2) (fun x _ => ?_)
    have := Real.rpow_pos_of_pos (Real.exp_pos x) (3 + c.n_spec)
    simp only [hF]
    positivity
  have := intervalIntegral.integral_add_adjacent_intervals i1 i2
  unfold rawSigma exactQuad
  rw [← this]
  linarith

theorem log8 : -23 < Real.log (1.0e-5 / 8) ∧ Real.log (1.0e-5 / 8) < 23 := by
  constructor
  · rw [Real.lt_log_iff_exp_lt (by norm_num)]
    have h1 : (2 : ℝ) < Real.exp 1 := by have := Real.add_one_lt_exp (show (1 : ℝ) ≠ 0 by norm_num); linarith
    have h2 : (2 : ℝ) ^ 23 < Real.exp 1 ^ 23 := pow_lt_pow_left₀ h1 (by norm_num) (by norm_num)
    rw [← Real.exp_nat_mul] at h2
    rw [Real.exp_neg]
    norm_num at h2 ⊢
    rw [inv_lt_comm₀ (Real.exp_pos _) (by norm_num)]
    norm_num
    linarith
  · have : Real.log (1.0e-5 / 8) < 0 := Real.log_neg (by norm_num) (by norm_num)
    linarith

/-- C81: with exact integration the power spectrum without baryon wiggles of every usable cosmology is constructed without error and
has the variance sigma_8^2 D1(z)^2 in spheres of 8 Mpc/h at every redshift. -/
theorem C81_exact {c : Cosm} (u : Usable c) : ∃ P, PowerSpectrum.new exactQuad c false = .ok P ∧
    ∀ z, P.sigma_sqr exactQuad 8 z = c.growth_factor z ^ 2 * c.sigma_8 ^ 2 := by
  obtain ⟨T, hT, hc, hp⟩ := C81_eh99 u
  refine ⟨PowerSpectrum.normalized exactQuad c T, ?_, fun z => ?_⟩
  · unfold PowerSpectrum.new
    rw [hT]
    rfl
  · have hraw := rawSigma_pos c (T := T) ⟨hc, hp⟩ (by norm_num : (0 : ℝ) < 8) log8.1 log8.2
    rw [(C81_sigma_growth exactQuad_hom _ u.good 8 0 z).1]
    rw [C81_sigma8 exactQuad c T]
    · rfl
    · rw [sigma_raw exactQuad_hom, (C81_today u.good).1]
      simp only [one_pow, one_mul, mul_one]
      exact ne_of_gt hraw

/-- C81: with baryon wiggles: T(0) = 1 and T(-k) = T(k). -/
theorem C81_eh98_even (t : EH98) (k : ℝ) : t.transfer_function 0 = 1 ∧ t.transfer_function (-k) = t.transfer_function k := by
  constructor
  · unfold EH98.transfer_function EH98.tf
    simp only [zero_mul, abs_zero]
    rw [if_pos (by norm_num)]
    norm_num
  · have : t.tf (-k) = t.tf k := by
      unfold EH98.tf
      simp only [neg_mul, abs_neg]
    unfold EH98.transfer_function
    rw [this]

/-- C81: the fit with wiggles is the mean of the baryon and CDM parts weighted with the baryon fraction. -/
theorem C81_eh98_mix (m b h θ k : ℝ) (hm : 0 < m) (hh : 0 < h) :
    let t := EH98.compute m b h θ
    t.transfer_function k = b * (t.tf k).2.1 + (1 - b) * (t.tf k).2.2 := by
  intro t
  have hb : t.obhh / t.omhh = b := by
    simp only [t, EH98.compute, Cosmology.sqr]
    field_simp
  unfold EH98.transfer_function EH98.tf
  simp only
  split
  · norm_num
  · simp only [hb]

/-- C81: parameters out of range are rejected with ValueError, before anything is computed; both variants accept the rest. -/
theorem C81_rejected (quad : Quad) {c : Cosm} :
    ((c.omega_b0 < 0 ∨ c.hubble ≤ 0 ∨ 2 < c.hubble) → PowerSpectrum.new quad c false = .error .valueError) ∧
    ((c.omega_m0 ≤ 0 ∨ c.baryon_fraction ≤ 0 ∨ c.hubble ≤ 0) → PowerSpectrum.new quad c true = .error .valueError) ∧
    ((0 < c.omega_m0 ∧ 0 < c.baryon_fraction ∧ 0 < c.hubble) → ∃ P, PowerSpectrum.new quad c true = .ok P) ∧
    ((0 ≤ c.omega_b0 ∧ 0 < c.hubble ∧ c.hubble ≤ 2) → ∃ P, PowerSpectrum.new quad c false = .ok P) := by
  have z : (0.0 : ℝ) = 0 := by norm_num
  have t : (2.0 : ℝ) = 2 := by norm_num
  have o : ¬ ((0 : ℝ) ≤ -1.0) := by norm_num
  have o' : ¬ ((0 : ℝ) > 99.0) := by norm_num
  have cm : ¬ ((2.728 : ℝ) ≤ 0) := by norm_num
  have l : ¬ ((0 : ℝ) < 0) := lt_irrefl _
  refine ⟨fun h => ?_, fun h => ?_, fun h => ?_, fun h => ?_⟩
  · unfold PowerSpectrum.new Cosm.transfer EH99.setCosmology
    simp only [Bool.false_eq_true, if_false, z, t, if_neg l, if_neg o, if_neg o', gt_iff_lt]
    by_cases h1 : c.omega_b0 < 0
    · rw [if_pos h1]; rfl
    · rw [if_neg h1]
      by_cases h2 : c.hubble ≤ 0
      · rw [if_pos h2]; rfl
      · rw [if_neg h2, if_pos (by tauto)]; rfl
  · unfold PowerSpectrum.new Cosm.transfer EH98.setCosmology
    simp only [if_true, z, if_neg cm]
    by_cases h1 : c.omega_m0 ≤ 0
    · rw [if_pos h1]; rfl
    · rw [if_neg h1]
      by_cases h2 : c.baryon_fraction ≤ 0
      · rw [if_pos h2]; rfl
      · rw [if_neg h2, if_pos (by tauto)]; rfl
  · have : ∃ x : PyM PowerSpectrum, PowerSpectrum.new quad c true = x ∧ ∃ P, x = .ok P := by
      refine ⟨_, rfl, ?_⟩
      unfold PowerSpectrum.new Cosm.transfer EH98.setCosmology
      simp only [if_true, z, if_neg cm]
      rw [if_neg (not_le.mpr h.1), if_neg (not_le.mpr h.2.1), if_neg (not_le.mpr h.2.2)]
      exact ⟨_, rfl⟩
    obtain ⟨x, hx, P, hP⟩ := this
    exact ⟨P, hx.trans hP⟩
  · have : ∃ x : PyM PowerSpectrum, PowerSpectrum.new quad c false = x ∧ ∃ P, x = .ok P := by
      refine ⟨_, rfl, ?_⟩
      unfold PowerSpectrum.new Cosm.transfer EH99.setCosmology
      simp only [Bool.false_eq_true, if_false, z, t, if_neg l, if_neg o, if_neg o', gt_iff_lt]
      rw [if_neg (not_lt.mpr h.1), if_neg (not_le.mpr h.2.1), if_neg (not_lt.mpr h.2.2)]
      exact ⟨_, rfl⟩
    obtain ⟨x, hx, P, hP⟩ := this
    exact ⟨P, hx.trans hP⟩

/-- C81: the interpolator of lg sigma at lg mass returns at each of its nodes the value computed directly there. -/
theorem C81_interp (quad : Quad) (P : PowerSpectrum) (lm1 lm2 : ℝ) (n : Nat) (hn : 2 ≤ n) (hlm : lm1 < lm2) :
    ∃ f, P.interp_lg_sigma quad lm1 lm2 n = .ok f ∧ ∀ i, i < n →
      f.valueAt (lm1 + i * ((lm2 - lm1) / (n - 1 : ℝ))) =
        .ok (Real.logb 10 (Real.sqrt (P.sigma_sqr_at_mass quad ((10.0 : ℝ) ^ (lm1 + i * ((lm2 - lm1) / (n - 1 : ℝ)))) 0.0))) := by
  have hn1 : (0 : ℝ) < (n : ℝ) - 1 := by
    have : (2 : ℝ) ≤ n := by exact_mod_cast hn
    linarith
  have hstep : 0 < (lm2 - lm1) / (n - 1 : ℝ) := div_pos (by linarith) hn1
  have hs : (linspaceR lm1 lm2 n).Pairwise (· < ·) := by
    unfold linspaceR
    rw [List.pairwise_map]
    refine List.pairwise_lt_range.imp ?_
    intro a b hab
    have : (a : ℝ) < b := by exact_mod_cast hab
    have := mul_lt_mul_of_pos_right this hstep
    linarith
  have hlen : (linspaceR lm1 lm2 n).length = n := by simp [linspaceR]
  unfold PowerSpectrum.interp_lg_sigma
  simp only
  set ys := ((linspaceR lm1 lm2 n).map (fun x => (10.0 : ℝ) ^ x)).map (fun m => Real.logb 10 (Real.sqrt (P.sigma_sqr_at_mass quad m 0.0))) with hys
  have hinit : Interpolate.Linear.init (linspaceR lm1 lm2 n) ys true = .ok ⟨linspaceR lm1 lm2 n, ys⟩ := by
    have h := (Interpolate.C62_init_iff (linspaceR lm1 lm2 n) ys).2.mpr ⟨by simp [hys], by omega, fun i hi => ?_⟩
    · unfold Interpolate.Linear.init at h ⊢
      convert h
    · exact ne_of_gt (List.pairwise_iff_getElem.mp hs i (i + 1) (by omega) hi (by omega))
  refine ⟨⟨linspaceR lm1 lm2 n, ys⟩, hinit, ?_⟩
  intro i hi
  have := Interpolate.C59_at_node ⟨linspaceR lm1 lm2 n, ys⟩ hs (by simp [hys]) i (by simp only; omega)
  simp only [hys, List.getElem_map] at this
  have e : (linspaceR lm1 lm2 n)[i]'(by omega) = lm1 + i * ((lm2 - lm1) / (n - 1 : ℝ)) := by simp [linspaceR]
  rw [e] at this
  exact this

end Pyhipp.Cosmology
