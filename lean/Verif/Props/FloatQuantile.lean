import Verif.Model.FloatQuantile
import Verif.Props.FloatReduce
import Verif.Props.FloatLinear
import Verif.Base.Sorted
import Mathlib.Data.List.Sort
import Mathlib.Tactic.ByContra
/-
C138: `Quantile`, `Median` and `Errorbar` without weights in double precision.
-/
namespace Pyhipp.FloatQuantile
open Pyhipp Pyhipp.F64 Pyhipp.FloatReduce
open Pyhipp.FloatLinear (fins sub_fin add_fin)

/-! ### Rounding to nearest -/

theorem zsplit {a b c : ℤ} (h : c = a + b) : (2 : ℚ) ^ c = 2 ^ a * 2 ^ b := by rw [h, zpow_add₀ (by norm_num)]

theorem zhalf (a : ℤ) : (2 : ℚ) ^ a / 2 = 2 ^ (a - 1) := by rw [zpow_sub₀ (by norm_num), zpow_one]

/-- A number that rounds to something above the double `y` is at least half way. -/
theorem rnd_mid {y D : ℚ} (hy : IsF y) (hy0 : 0 ≤ y) (h : y < rnd D) : (y + rnd D) / 2 ≤ D := by
  have hyD : y < D := by
    by_contra hn
    exact absurd (rnd_le (not_lt.mp hn) hy) (not_le.mpr h)
  have hD0 : 0 < D := lt_of_le_of_lt hy0 hyD
  by_contra hn
  rw [not_le] at hn
  have he := rnd_err_ulp D
  have hdD : D < rnd D := by linarith
  rw [abs_of_pos (by linarith)] at he
  have hg : (0 : ℚ) < 2 ^ expo D := pow_pos' _
  obtain ⟨m, hm⟩ : ∃ m : ℤ, rnd D = m * 2 ^ expo D := ⟨_, rfl⟩
  have noInt : ∀ k : ℤ, y < k * 2 ^ expo D + 0 → (k : ℚ) * 2 ^ expo D < rnd D → rnd D - y < 2 ^ expo D → False := by
    intro k h1 h2 h3
    rw [hm] at h2
    have : (k : ℚ) < m := lt_of_mul_lt_mul_right h2 hg.le
    have : k + 1 ≤ m := by exact_mod_cast this
    have : ((k : ℚ) + 1) ≤ m := by exact_mod_cast this
    have := mul_le_mul_of_nonneg_right this hg.le
    rw [hm] at h3
    linarith
  have hgap : rnd D - y < 2 ^ expo D := by linarith
  rcases le_or_gt (expo D) (expo y) with hle | hlt
  · obtain ⟨k, hk⟩ := hy.mult_of_le hle
    rw [hk] at hgap h
    rw [hm] at hgap h
    have h1 : (k : ℚ) < m := lt_of_mul_lt_mul_right h hg.le
    have h2 : k + 1 ≤ m := by exact_mod_cast h1
    have h3 : ((k : ℚ) + 1) ≤ m := by exact_mod_cast h2
    have := mul_le_mul_of_nonneg_right h3 hg.le
    linarith
  · have hgt : -1074 < expo D := lt_of_le_of_lt (expo_ge y) hlt
    have hP := expo_le_abs D hgt hD0.ne'
    rw [abs_of_pos hD0] at hP
    have hy2 := lt_expo y
    rw [abs_of_nonneg hy0] at hy2
    have hle : (2 : ℚ) ^ (expo y + 53) ≤ 2 ^ (expo D + 52) := zpow_le_zpow_right₀ (by norm_num) (by omega)
    have hPk : (2 : ℚ) ^ (expo D + 52) = ((2 ^ 52 : ℤ) : ℚ) * 2 ^ expo D := by
      rw [zpow_add₀ (by norm_num), mul_comm]; norm_num
    exact noInt (2 ^ 52) (by rw [← hPk]; linarith) (by rw [← hPk]; linarith) hgap

theorem rne_lt {y : ℚ} {k : ℤ} (h : y < k + 1 / 2) : rne y ≤ k := by
  have := rne_close y
  rw [abs_le] at this
  have h2 : (rne y : ℚ) < k + 1 := by linarith [this.2]
  have : rne y < k + 1 := by exact_mod_cast h2
  omega

/-- Half of a double that is not too small is a double. -/
theorem isF_half {d : ℚ} (hd : IsF d) (h : 2 ^ (-1021 : ℤ) ≤ d) : IsF (d / 2) := by
  obtain ⟨m, hm, e⟩ := hd.form
  have he : -1073 ≤ expo d := by
    by_contra hn
    have h1 : expo d = -1074 := by have := expo_ge d; omega
    have h2 := lt_expo d
    rw [h1, abs_of_pos (lt_of_lt_of_le (pow_pos' _) h)] at h2
    norm_num at h2 h
    linarith
  have : d / 2 = m * 2 ^ (expo d - 1) := by
    rw [zpow_sub₀ (by norm_num), zpow_one, ← mul_div_assoc, ← e]
  rw [this]
  exact isF_of hm (by omega)

theorem isF_double {d : ℚ} (hd : IsF d) : IsF (2 * d) := by
  obtain ⟨m, hm, e⟩ := hd.form
  have : 2 * d = m * 2 ^ (expo d + 1) := by
    rw [zpow_add₀ (by norm_num), zpow_one, ← mul_assoc, ← e, mul_comm]
  rw [this]
  exact isF_of hm (by have := expo_ge d; omega)

/-- What is added below the middle and what is subtracted above it do not cross. -/
theorem half_sum {a b t : ℚ} (fa : IsF a) (fb : IsF b) (h : a ≤ b) (ht0 : 0 ≤ t) (ht : t ≤ 1 / 2 - 2 ^ (-54 : ℤ)) :
    rnd (rnd (b - a) * t) + rnd (rnd (b - a) * (1 / 2)) ≤ b - a := by
  have hD0 : 0 ≤ b - a := by linarith
  have hd0 : 0 ≤ rnd (b - a) := rnd_nonneg hD0
  have hu : (0 : ℚ) < 2 ^ (-54 : ℤ) := pow_pos' _
  have hth : t ≤ 1 / 2 := by linarith
  rcases le_or_gt (b - a) (2 ^ (-1021 : ℤ)) with hs | hs
  · have fD : IsF (b - a) := isF_sub_small fb fa (by rwa [abs_of_nonneg hD0])
    have e : rnd (b - a) = b - a := fD
    rw [e]
    generalize b - a = D at *
    obtain ⟨m, hm⟩ := fD.mult
    have hg : (0 : ℚ) < 2 ^ (-1074 : ℤ) := pow_pos' _
    have hg2 : (2 : ℚ) ^ (-1021 : ℤ) = 2 ^ 53 * 2 ^ (-1074 : ℤ) := by
      rw [zsplit (show (-1021 : ℤ) = 53 + -1074 by norm_num)]; norm_cast
    have hm0 : 0 ≤ m := by
      have : (0 : ℚ) ≤ m := by
        by_contra hn
        have := mul_neg_of_neg_of_pos (not_le.mp hn) hg
        linarith
      exact_mod_cast this
    have hmb : m ≤ 2 ^ 53 := by
      have : (m : ℚ) ≤ 2 ^ 53 := by
        rw [hm, hg2] at hs
        exact le_of_mul_le_mul_right hs hg
      exact_mod_cast this
    rcases Int.even_or_odd' m with ⟨k, hk | hk⟩
    · have eh : D * (1 / 2) = k * 2 ^ (-1074 : ℤ) := by rw [hm, hk]; push_cast; ring
      have fh : IsF (D * (1 / 2)) := by rw [eh]; exact isF_of (by rw [abs_le]; omega) (by norm_num)
      have h1 : rnd (D * t) ≤ D * (1 / 2) := rnd_le (mul_le_mul_of_nonneg_left hth hD0) fh
      have h2 : rnd (D * (1 / 2)) = D * (1 / 2) := fh
      rw [h2]; linarith
    · have h2 : rnd (D * (1 / 2)) ≤ (k + 1 : ℤ) * 2 ^ (-1074 : ℤ) := by
        apply rnd_le
        · rw [hm, hk]; push_cast; nlinarith
        · exact isF_of (by rw [abs_le]; omega) (by norm_num)
      have hDp : 0 < D := by
        rw [hm]; apply mul_pos _ hg
        exact_mod_cast (by omega : 0 < m)
      have h1 : rnd (D * t) ≤ k * 2 ^ (-1074 : ℤ) := by
        rcases eq_or_lt_of_le ht0 with e0 | ht0'
        · rw [← e0, mul_zero, rnd_zero]
          exact mul_nonneg (by exact_mod_cast (by omega : 0 ≤ k)) hg.le
        · have hx : 0 < D * t := mul_pos hDp ht0'
          have hxD : D * t < D := by nlinarith
          have hexp : expo (D * t) = -1074 := by
            apply le_antisymm _ (expo_ge _)
            apply expo_le_of_lt (by norm_num) _ hx.ne'
            rw [abs_of_pos hx]
            norm_num at hs ⊢
            linarith
          unfold rnd
          rw [hexp]
          apply mul_le_mul_of_nonneg_right _ hg.le
          have : rne (D * t / 2 ^ (-1074 : ℤ)) ≤ k := by
            apply rne_lt
            rw [div_lt_iff₀ hg]
            have : D * t < D * (1 / 2) := by nlinarith
            have e2 : D * (1 / 2) = ((k : ℚ) + 1 / 2) * 2 ^ (-1074 : ℤ) := by rw [hm, hk]; push_cast; ring
            linarith
          exact_mod_cast this
      have : D = (2 * k + 1 : ℤ) * 2 ^ (-1074 : ℤ) := by rw [hm, hk]
      push_cast at this h2
      linarith
  · have hd : (2 : ℚ) ^ (-1021 : ℤ) ≤ rnd (b - a) := le_rnd hs.le (isF_pow (by norm_num))
    have fd : IsF (rnd (b - a)) := isF_rnd _
    have fh : IsF (rnd (b - a) * (1 / 2)) := by
      have := isF_half fd hd
      rwa [div_eq_mul_one_div] at this
    have hB : rnd (rnd (b - a) * (1 / 2)) = rnd (b - a) * (1 / 2) := fh
    rw [hB]
    have hA : rnd (rnd (b - a) * t) ≤ rnd (b - a) * (1 / 2) := rnd_le (mul_le_mul_of_nonneg_left hth hd0) fh
    rcases le_or_gt (rnd (b - a)) (b - a) with hle | hlt
    · linarith
    · have hdp : 0 < rnd (b - a) := lt_of_lt_of_le (pow_pos' _) hd
      have hstrict : 2 * rnd (rnd (b - a) * t) < rnd (b - a) := by
        by_contra hn
        have e : rnd (rnd (b - a) * t) = rnd (b - a) * (1 / 2) := by linarith
        have herr := rnd_err_ulp (rnd (b - a) * t)
        rw [e] at herr
        have hx0 : 0 < rnd (b - a) * t := by
          rcases eq_or_lt_of_le ht0 with e0 | ht0'
          · rw [← e0, mul_zero, rnd_zero] at e; linarith
          · exact mul_pos hdp ht0'
        have hmul : rnd (b - a) * t ≤ rnd (b - a) * (1 / 2 - 2 ^ (-54 : ℤ)) := mul_le_mul_of_nonneg_left ht hd0
        have hx1 : rnd (b - a) * 2 ^ (-54 : ℤ) ≤ rnd (b - a) * (1 / 2) - rnd (b - a) * t := by
          rw [mul_sub] at hmul; linarith
        have hub : rnd (b - a) * 2 ^ (-54 : ℤ) ≤ 2 ^ expo (rnd (b - a) * t) / 2 := by
          refine le_trans hx1 (le_trans (le_abs_self _) herr)
        rcases eq_or_lt_of_le (expo_ge (rnd (b - a) * t)) with he | he
        · rw [← he] at hub
          have e3 : (2 : ℚ) ^ (-1074 : ℤ) / 2 = 2 ^ (-1021 : ℤ) * 2 ^ (-54 : ℤ) := by
            rw [zhalf, zsplit (show (-1074 - 1 : ℤ) = -1021 + -54 by norm_num)]
          rw [e3] at hub
          have := le_of_mul_le_mul_right hub hu
          linarith
        · have h1 := expo_le_abs _ he hx0.ne'
          rw [abs_of_pos hx0] at h1
          have e3 : (2 : ℚ) ^ (expo (rnd (b - a) * t) + 52) * 2 ^ (-53 : ℤ) = 2 ^ expo (rnd (b - a) * t) / 2 := by
            rw [zhalf, ← zpow_add₀ (by norm_num)]; congr 1; ring
          have e4 : (2 : ℚ) ^ (-54 : ℤ) = 2 ^ (-53 : ℤ) * (1 / 2) := by norm_num
          have hx2 : rnd (b - a) * t < rnd (b - a) * (1 / 2) := by
            have := mul_pos hdp hu
            linarith
          have h3 : (2 : ℚ) ^ (expo (rnd (b - a) * t) + 52) * 2 ^ (-53 : ℤ) < rnd (b - a) * (1 / 2) * 2 ^ (-53 : ℤ) :=
            mul_lt_mul_of_pos_right (lt_of_le_of_lt h1 hx2) (pow_pos' _)
          rw [e3] at h3
          rw [e4] at hub
          linarith
      have := rnd_mid (isF_double (isF_rnd (rnd (b - a) * t))) (by
        have := rnd_nonneg (mul_nonneg hd0 ht0); linarith) hstrict
      linarith

/-! ### Interpolation between two elements -/

/-- A double below one half. -/
theorem lt_half {t : ℚ} (ft : IsF t) (h : t < 1 / 2) : t ≤ 1 / 2 - 2 ^ (-54 : ℤ) := by
  have hu : (2 : ℚ) ^ (-54 : ℤ) ≤ 1 / 4 := by norm_num
  rcases le_or_gt t (1 / 4) with h4 | h4
  · linarith
  · have hexp : (-54 : ℤ) ≤ expo t := by
      by_contra hn
      have h1 := lt_expo t
      rw [abs_of_pos (by linarith)] at h1
      have h2 : (2 : ℚ) ^ (expo t + 53) ≤ 2 ^ (-2 : ℤ) := zpow_le_zpow_right₀ (by norm_num) (by omega)
      norm_num at h2
      linarith
    obtain ⟨k, hk⟩ := ft.mult_of_le hexp
    have hg : (0 : ℚ) < 2 ^ (-54 : ℤ) := pow_pos' _
    have e : (1 / 2 : ℚ) = (2 ^ 53 : ℤ) * 2 ^ (-54 : ℤ) := by norm_num
    rw [hk, e] at h
    have h1 : (k : ℚ) < (2 ^ 53 : ℤ) := lt_of_mul_lt_mul_right h hg.le
    have h2 : k + 1 ≤ 2 ^ 53 := by exact_mod_cast h1
    have h3 : ((k : ℚ) + 1) ≤ (2 ^ 53 : ℤ) := by exact_mod_cast h2
    have := mul_le_mul_of_nonneg_right h3 hg.le
    rw [hk, e]; linarith

/-- `lerp` on numbers that cause no overflow. -/
def lerpQ (a b t : ℚ) : ℚ :=
  if 1 / 2 ≤ t then rnd (b - rnd (rnd (b - a) * rnd (1 - t))) else rnd (a + rnd (rnd (b - a) * t))

theorem lerpQ_isF (a b t : ℚ) : IsF (lerpQ a b t) := by unfold lerpQ; split <;> exact isF_rnd _

theorem one_isF : IsF (1 : ℚ) := FloatLinear.one_isF

theorem half_isF : IsF (1 / 2 : ℚ) := by decide +kernel

theorem upper_part {t : ℚ} (h : 1 / 2 ≤ t) (h1 : t ≤ 1) : 0 ≤ rnd (1 - t) ∧ rnd (1 - t) ≤ 1 / 2 :=
  ⟨rnd_nonneg (by linarith), rnd_le (by linarith) half_isF⟩

theorem below_mid {a b t : ℚ} (fa : IsF a) (fb : IsF b) (h : a ≤ b) (ft : IsF t) (ht0 : 0 ≤ t) (ht : t < 1 / 2) :
    0 ≤ rnd (rnd (b - a) * t) ∧ rnd (rnd (b - a) * t) + rnd (rnd (b - a) * (1 / 2)) ≤ b - a :=
  ⟨rnd_nonneg (mul_nonneg (rnd_nonneg (by linarith)) ht0), half_sum fa fb h ht0 (lt_half ft ht)⟩

theorem above_mid {a b s : ℚ} (h : a ≤ b) (hs0 : 0 ≤ s) (hs : s ≤ 1 / 2) :
    0 ≤ rnd (rnd (b - a) * s) ∧ rnd (rnd (b - a) * s) ≤ rnd (rnd (b - a) * (1 / 2)) := by
  have hd : 0 ≤ rnd (b - a) := rnd_nonneg (by linarith)
  exact ⟨rnd_nonneg (mul_nonneg hd hs0), rnd_mono (mul_le_mul_of_nonneg_left hs hd)⟩

theorem half_le {a b : ℚ} (fa : IsF a) (fb : IsF b) (h : a ≤ b) : rnd (rnd (b - a) * (1 / 2)) ≤ b - a := by
  have := half_sum fa fb h le_rfl (by norm_num)
  rw [mul_zero, rnd_zero, zero_add] at this
  exact this

/-- The interpolation stays between the two elements. -/
theorem lerpQ_mem {a b t : ℚ} (fa : IsF a) (fb : IsF b) (h : a ≤ b) (ft : IsF t) (ht0 : 0 ≤ t) (ht1 : t ≤ 1) :
    a ≤ lerpQ a b t ∧ lerpQ a b t ≤ b := by
  have hB := half_le fa fb h
  unfold lerpQ
  split
  · rename_i hh
    obtain ⟨u0, u1⟩ := upper_part hh ht1
    obtain ⟨v0, v1⟩ := above_mid (a := a) (b := b) h u0 u1
    exact ⟨le_rnd (by linarith) fa, rnd_le (by linarith) fb⟩
  · rename_i hh
    rw [not_le] at hh
    obtain ⟨v0, v1⟩ := below_mid fa fb h ft ht0 hh
    have : 0 ≤ rnd (rnd (b - a) * (1 / 2)) := rnd_nonneg (mul_nonneg (rnd_nonneg (by linarith)) (by norm_num))
    exact ⟨le_rnd (by linarith) fa, rnd_le (by linarith) fb⟩

/-- The interpolation is monotone. -/
theorem lerpQ_mono {a b t t' : ℚ} (fa : IsF a) (fb : IsF b) (h : a ≤ b) (ft : IsF t) (ht0 : 0 ≤ t) (htt : t ≤ t') (ht1 : t' ≤ 1) :
    lerpQ a b t ≤ lerpQ a b t' := by
  have hd : 0 ≤ rnd (b - a) := rnd_nonneg (by linarith)
  unfold lerpQ
  by_cases h1 : 1 / 2 ≤ t
  · rw [if_pos h1, if_pos (le_trans h1 htt)]
    apply rnd_mono
    have := rnd_mono (mul_le_mul_of_nonneg_left (rnd_mono (show 1 - t' ≤ 1 - t by linarith)) hd)
    linarith
  · rw [if_neg h1]
    rw [not_le] at h1
    by_cases h2 : 1 / 2 ≤ t'
    · rw [if_pos h2]
      apply rnd_mono
      obtain ⟨v0, v1⟩ := below_mid fa fb h ft ht0 h1
      obtain ⟨u0, u1⟩ := upper_part h2 ht1
      obtain ⟨w0, w1⟩ := above_mid (a := a) (b := b) h u0 u1
      linarith
    · rw [if_neg h2]
      apply rnd_mono
      have := rnd_mono (mul_le_mul_of_nonneg_left htt hd)
      linarith

/-- At the two ends the interpolation is exact. -/
theorem lerpQ_zero {a b : ℚ} (fa : IsF a) : lerpQ a b 0 = a := by
  have : ¬ ((1 : ℚ) / 2 ≤ 0) := by norm_num
  rw [lerpQ, if_neg this, mul_zero, rnd_zero, add_zero]; exact fa

/-- Error of the interpolation. -/
theorem lerpQ_err {a b t M : ℚ} (fa : IsF a) (fb : IsF b) (h : a ≤ b) (ft : IsF t) (ht0 : 0 ≤ t) (ht1 : t ≤ 1) (ha : |a| ≤ M) (hb : |b| ≤ M) :
    |lerpQ a b t - (a + (b - a) * t)| ≤ 2 ^ (-51 : ℤ) * M + 2 ^ (-1075 : ℤ) := by
  have hM : 0 ≤ M := le_trans (abs_nonneg _) ha
  have hD0 : 0 ≤ b - a := by linarith
  have hD2 : b - a ≤ 2 * M := by
    rw [abs_le] at ha hb; linarith
  have hu : (0 : ℚ) < 2 ^ (-53 : ℤ) := pow_pos' _
  have hu1 : (2 : ℚ) ^ (-53 : ℤ) ≤ 1 / 16 := by norm_num
  have e51 : (2 : ℚ) ^ (-51 : ℤ) = 4 * 2 ^ (-53 : ℤ) := by norm_num
  have hn := pow_pos' (-1075)
  have core : ∀ s : ℚ, 0 ≤ s → s ≤ 1 / 2 → |rnd (rnd (b - a) * s) - (b - a) * s| ≤ 2 * 2 ^ (-53 : ℤ) * M + 2 ^ (-53 : ℤ) * (2 ^ (-53 : ℤ) * M) + 2 ^ (-1075 : ℤ) := by
    intro s s0 s1
    have d1 := rnd_sub_err fb fa
    rw [abs_of_nonneg hD0] at d1
    have d2 := FloatMesh.rnd_err_all (rnd (b - a) * s)
    have hd0 : 0 ≤ rnd (b - a) := rnd_nonneg hD0
    rw [abs_of_nonneg (mul_nonneg hd0 s0)] at d2
    generalize (2 : ℚ) ^ (-1075 : ℤ) = η at *
    generalize (2 : ℚ) ^ (-53 : ℤ) = u at *
    generalize rnd (rnd (b - a) * s) = A at *
    generalize rnd (b - a) = d at *
    generalize b - a = D at *
    have hds : |d * s - D * s| ≤ u * M := by
      rw [← sub_mul, abs_mul, abs_of_nonneg s0]
      calc |d - D| * s ≤ (u * D) * (1 / 2) := mul_le_mul d1 s1 s0 (mul_nonneg hu.le hD0)
        _ ≤ u * M := by nlinarith
    have hdsM : d * s ≤ M + u * M := by
      have : D * s ≤ M := by nlinarith
      rw [abs_le] at hds; linarith [hds.2]
    have : u * (d * s) ≤ u * (M + u * M) := mul_le_mul_of_nonneg_left hdsM hu.le
    rw [abs_le] at d2 hds ⊢
    constructor <;> nlinarith [d2.1, d2.2, hds.1, hds.2]
  have small : (2 : ℚ) ^ (-53 : ℤ) * (2 ^ (-53 : ℤ) * M) ≤ 2 ^ (-53 : ℤ) * M * (1 / 16) := by
    have : (2 : ℚ) ^ (-53 : ℤ) * M ≤ M * (1 / 16) := by nlinarith
    have := mul_le_mul_of_nonneg_left this hu.le
    linarith
  have hmem := lerpQ_mem fa fb h ft ht0 ht1
  have hB := half_le fa fb h
  unfold lerpQ
  split
  · rename_i hh
    have f1t : IsF (1 - t) := sterbenz one_isF ft (by linarith) (by linarith) (by linarith)
    have e1t : rnd (1 - t) = 1 - t := f1t
    rw [e1t]
    have c := core (1 - t) (by linarith) (by linarith)
    have f := rnd_sub_err fb (isF_rnd (rnd (b - a) * (1 - t)))
    have hval : |b - rnd (rnd (b - a) * (1 - t))| ≤ M := by
      obtain ⟨v0, v1⟩ := above_mid (a := a) (b := b) (s := 1 - t) h (by linarith) (by linarith)
      rw [abs_le] at ha hb ⊢
      constructor <;> linarith [ha.1, hb.2]
    have := mul_le_mul_of_nonneg_left hval hu.le
    rw [e51]
    generalize rnd (rnd (b - a) * (1 - t)) = A at *
    have uM := mul_nonneg hu.le hM
    clear core
    generalize (2 : ℚ) ^ (-1075 : ℤ) = η at *
    generalize (2 : ℚ) ^ (-53 : ℤ) = u at *
    rw [abs_le] at c f ⊢
    constructor <;> linarith [c.1, c.2, f.1, f.2]
  · rename_i hh
    rw [not_le] at hh
    have c := core t ht0 hh.le
    have f := rnd_sub_err fa (isF_rnd (rnd (b - a) * t)).neg
    rw [sub_neg_eq_add] at f
    have hval : |a + rnd (rnd (b - a) * t)| ≤ M := by
      obtain ⟨v0, v1⟩ := below_mid fa fb h ft ht0 hh
      have : 0 ≤ rnd (rnd (b - a) * (1 / 2)) := rnd_nonneg (mul_nonneg (rnd_nonneg (by linarith)) (by norm_num))
      rw [abs_le] at ha hb ⊢
      constructor <;> linarith [ha.1, hb.2]
    have := mul_le_mul_of_nonneg_left hval hu.le
    rw [e51]
    generalize rnd (rnd (b - a) * t) = A at *
    have uM := mul_nonneg hu.le hM
    clear core
    generalize (2 : ℚ) ^ (-1075 : ℤ) = η at *
    generalize (2 : ℚ) ^ (-53 : ℤ) = u at *
    rw [abs_le] at c f ⊢
    constructor <;> linarith [c.1, c.2, f.1, f.2]

theorem lerp_fin {a b t : ℚ} (ha : |a| ≤ 2 ^ 1021) (hb : |b| ≤ 2 ^ 1021) (fa : IsF a) (fb : IsF b) (h : a ≤ b) (ft : IsF t) (ht0 : 0 ≤ t) (ht1 : t ≤ 1) :
    lerp (.fin a) (.fin b) (.fin t) = .fin (lerpQ a b t) := by
  have hD0 : 0 ≤ b - a := by linarith
  have hd0 : 0 ≤ rnd (b - a) := rnd_nonneg hD0
  have hd : |rnd (b - a)| ≤ 2 ^ 1022 := by
    rw [abs_of_nonneg hd0]
    apply rnd_le _ FloatLinear.pow1022
    have e : (2 : ℚ) ^ 1022 = 2 ^ 1021 + 2 ^ 1021 := by rw [pow_succ]; ring
    rw [abs_le] at ha hb; rw [e]; linarith
  have big : (2 : ℚ) ^ 1021 ≤ 2 ^ 1022 := pow_le_pow_right₀ (by norm_num) (by norm_num)
  have lt : (2 : ℚ) ^ 1022 < 2 ^ 1024 := pow_lt_pow_right₀ (by norm_num) (by norm_num)
  have hsub := sub_fin (le_trans hb big) (le_trans ha big)
  have hmul : ∀ s : ℚ, 0 ≤ s → s ≤ 1 → Num.mul (.fin (rnd (b - a))) (.fin s) = .fin (rnd (rnd (b - a) * s)) ∧ |rnd (rnd (b - a) * s)| ≤ 2 ^ 1022 := by
    intro s s0 s1
    have hb : |rnd (b - a) * s| ≤ 2 ^ 1022 := by
      rw [abs_mul, abs_of_nonneg s0]
      calc |rnd (b - a)| * s ≤ |rnd (b - a)| * 1 := mul_le_mul_of_nonneg_left s1 (abs_nonneg _)
        _ ≤ 2 ^ 1022 := by rw [mul_one]; exact hd
    refine ⟨ofQ_fin_le hb FloatLinear.pow1022 lt, ?_⟩
    rw [rnd_abs]
    exact rnd_le hb FloatLinear.pow1022
  have h1 : |(1 : ℚ)| ≤ 2 ^ 1022 := by rw [abs_one]; exact one_le_pow₀ (by norm_num)
  have ht : |t| ≤ 2 ^ 1022 := by rw [abs_of_nonneg ht0]; exact le_trans ht1 (one_le_pow₀ (by norm_num))
  unfold lerp lerpQ
  simp only [hsub, Num.le, decide_eq_true_eq]
  split
  · rename_i hh
    obtain ⟨u0, u1⟩ := upper_part hh ht1
    obtain ⟨m1, m2⟩ := hmul (rnd (1 - t)) u0 (by linarith)
    rw [sub_fin h1 ht, m1, sub_fin (le_trans hb big) m2]
  · rename_i hh
    rw [not_le] at hh
    obtain ⟨m1, m2⟩ := hmul t ht0 ht1
    rw [m1, add_fin (le_trans ha big) m2]

/-! ### `np.quantile` -/

/-- `s` is `l` in order. -/
def Ordered (s l : List ℚ) : Prop := s.Perm l ∧ s.Pairwise (· ≤ ·)

/-- Doubles that leave room for differences. -/
def Moderate (xs : List ℚ) : Prop := ∀ x ∈ xs, IsF x ∧ |x| ≤ 2 ^ 1021

theorem ordered_eq {s l : List ℚ} (h : Ordered s l) : s = Pyhipp.npSort l :=
  (h.1.trans (npSort_perm l).symm).eq_of_pairwise (le := (· ≤ ·)) (fun _ _ _ _ h1 h2 => le_antisymm h1 h2) h.2 (npSort_sorted _)

theorem sort_fin (xs : List ℚ) : npSort (fins xs) = fins (Pyhipp.npSort xs) := by
  unfold npSort Pyhipp.npSort fins
  rw [List.map_mergeSort (s := Num.le)]
  intro a _ b _
  rfl

/-- The rounded position. -/
def posn (n : Nat) (p : ℚ) : ℚ := rnd (((n : ℚ) - 1) * p)

/-- The result for the elements in order. -/
def valueQ (s : List ℚ) (p : ℚ) : ℚ :=
  if (s.length : ℚ) - 1 ≤ posn s.length p then s.getLastD 0
  else lerpQ (s.getD ⌊posn s.length p⌋.toNat 0) (s.getD (⌊posn s.length p⌋.toNat + 1) 0) (posn s.length p - ⌊posn s.length p⌋)

theorem posn_spec {n : Nat} (hn0 : 0 < n) (hn : n ≤ 2 ^ 53) {p : ℚ} (h0 : 0 ≤ p) (h1 : p ≤ 1) :
    IsF (posn n p) ∧ 0 ≤ posn n p ∧ posn n p ≤ (n : ℚ) - 1 ∧ IsF ((n : ℚ) - 1) := by
  have hc : ((n : ℚ) - 1) = ((n - 1 : ℕ) : ℚ) := by rw [Nat.cast_sub hn0]; simp
  have hn1 : (0 : ℚ) ≤ (n : ℚ) - 1 := by rw [hc]; positivity
  have hF : IsF ((n : ℚ) - 1) := by
    rw [hc]
    have := isF_int (m := ((n - 1 : ℕ) : ℤ)) (by rw [abs_of_nonneg (by positivity)]; push_cast; omega)
    exact_mod_cast this
  exact ⟨isF_rnd _, rnd_nonneg (mul_nonneg hn1 h0), rnd_le (by nlinarith) hF, hF⟩

theorem floor_spec {n : Nat} {v : ℚ} (h0 : 0 ≤ v) (h : v < (n : ℚ) - 1) :
    ⌊v⌋.toNat + 1 < n ∧ ((⌊v⌋.toNat : ℕ) : ℤ) = ⌊v⌋ ∧ 0 ≤ v - ⌊v⌋ ∧ v - ⌊v⌋ ≤ 1 := by
  have hf0 : 0 ≤ ⌊v⌋ := Int.floor_nonneg.mpr h0
  have e : ((⌊v⌋.toNat : ℕ) : ℤ) = ⌊v⌋ := Int.toNat_of_nonneg hf0
  have h1 := Int.floor_le v
  have h2 := Int.lt_floor_add_one v
  refine ⟨?_, e, by linarith, by linarith⟩
  have : ((⌊v⌋ + 1 : ℤ) : ℚ) < (n : ℤ) := by push_cast; linarith
  have : ⌊v⌋ + 1 < (n : ℤ) := by exact_mod_cast this
  omega

theorem getD_get {α : Type} (s : List α) (d : α) {k : Nat} (h : k < s.length) : s.getD k d = s[k] := by
  rw [List.getD_eq_getElem?_getD, List.getElem?_eq_getElem h]; rfl

theorem getD_mem (s : List ℚ) (k : Nat) (h : k < s.length) : s.getD k 0 ∈ s := by
  rw [getD_get _ _ h]; exact List.getElem_mem h

theorem last_eq (s : List ℚ) (h : s ≠ []) : s.getLastD 0 = s.getD (s.length - 1) 0 := by
  have hl : 0 < s.length := List.length_pos_iff.mpr h
  rw [getD_get _ _ (by omega), List.getLastD_eq_getLast?, List.getLast?_eq_getElem?, List.getElem?_eq_getElem (by omega)]; rfl

theorem step_le {s : List ℚ} (hs : s.Pairwise (· ≤ ·)) {i j : Nat} (hij : i ≤ j) (hj : j < s.length) : s.getD i 0 ≤ s.getD j 0 := by
  rw [getD_get _ _ hj, getD_get _ _ (by omega)]
  exact pw_le hs hij hj

theorem lerp_same (a : ℚ) (fa : IsF a) (ha : |a| ≤ 2 ^ 1021) (t : ℚ) (ht : |t| ≤ 2 ^ 1022) : lerp (.fin a) (.fin a) (.fin t) = .fin a := by
  have ha2 := FloatLinear.le22 ha
  have h1 : |(1 : ℚ)| ≤ 2 ^ 1022 := by rw [abs_one]; exact one_le_pow₀ (by norm_num)
  have z : |(0 : ℚ)| ≤ 2 ^ 1022 := by rw [abs_zero]; positivity
  have e : rnd a = a := fa
  have m : ∀ y : ℚ, Num.mul (.fin 0) (.fin y) = .fin 0 := by
    intro y; show ofQ (0 * y) = _
    rw [zero_mul]; exact ofQ_self ⟨zero_isF, by simp⟩
  unfold lerp
  simp only [sub_fin ha2 ha2, sub_self, rnd_zero, sub_fin h1 ht, m, sub_fin ha2 z, add_fin ha2 z, sub_zero, add_zero, e]
  split <;> rfl

theorem npQuantile_fin {xs : List ℚ} (hne : xs ≠ []) (hx : Moderate xs) (hn : xs.length ≤ 2 ^ 53) {p : ℚ} (h0 : 0 ≤ p) (h1 : p ≤ 1) :
    npQuantile (fins xs) (.fin p) = .ok (.fin (valueQ (Pyhipp.npSort xs) p)) := by
  have hl : 0 < xs.length := List.length_pos_iff.mpr hne
  have hsl : (Pyhipp.npSort xs).length = xs.length := (npSort_perm xs).length_eq
  have hsne : Pyhipp.npSort xs ≠ [] := by rw [← List.length_pos_iff, hsl]; exact hl
  have hsm : Moderate (Pyhipp.npSort xs) := fun x h => hx x ((npSort_perm xs).mem_iff.mp h)
  have hss := npSort_sorted xs
  obtain ⟨v1, v2, v3, nF⟩ := posn_spec hl hn h0 h1
  have hnan : ¬ (Num.nan ∈ fins xs) := by simp [fins]
  have nB : (xs.length : ℚ) - 1 < 2 ^ 53 := by
    have : (xs.length : ℚ) ≤ 2 ^ 53 := by exact_mod_cast hn
    linarith
  have b53 : (2 : ℚ) ^ 53 ≤ 2 ^ 1021 := pow_le_pow_right₀ (by norm_num) (by norm_num)
  have hlt : (2 : ℚ) ^ 1021 < 2 ^ 1024 := pow_lt_pow_right₀ (by norm_num) (by norm_num)
  have hn1 : (0 : ℚ) ≤ (xs.length : ℚ) - 1 := le_trans v2 v3
  have nB24 : (xs.length : ℚ) - 1 < 2 ^ 1024 := lt_trans (lt_of_lt_of_le nB b53) hlt
  have e1 : ofQ ((xs.length : ℚ) - 1) = .fin ((xs.length : ℚ) - 1) := ofQ_self ⟨nF, by rw [abs_of_nonneg hn1]; exact nB24⟩
  have e2 : Num.mul (.fin ((xs.length : ℚ) - 1)) (.fin p) = .fin (posn xs.length p) := by
    show ofQ _ = _
    unfold posn
    apply ofQ_fin_le (y := (xs.length : ℚ) - 1) _ nF nB24
    rw [abs_of_nonneg (mul_nonneg hn1 h0)]; nlinarith
  have vB : |posn xs.length p| ≤ 2 ^ 1021 := by rw [abs_of_nonneg v2]; exact le_trans v3 (le_trans nB.le b53)
  have hc : (Num.le (.fin 0) (.fin p) && Num.le (.fin p) (.fin 1)) = true := by simp [Num.le, h0, h1]
  unfold npQuantile valueQ
  rw [if_pos hc, if_neg hnan, fins, List.length_map, e1, e2, ← fins, sort_fin, hsl]
  simp only [Num.le, decide_eq_true_eq]
  generalize hs : Pyhipp.npSort xs = s at *
  split
  · have elast : (fins s).getLastD .nan = .fin (s.getLastD 0) := by
      rw [last_eq s hsne, List.getLastD_eq_getLast?, List.getLast?_eq_getElem?, FloatLinear.fins_length, getD_get _ _ (by omega)]
      simp only [fins, List.getElem?_map]
      rw [List.getElem?_eq_getElem (by omega)]; rfl
    have hmem := hsm _ (getD_mem s (s.length - 1) (by omega))
    rw [← last_eq s hsne] at hmem
    have h1' : |(1 : ℚ)| ≤ 2 ^ 1022 := by rw [abs_one]; exact one_le_pow₀ (by norm_num)
    have hadd : Num.add (.fin (posn xs.length p)) (.fin 1) = .fin (rnd (posn xs.length p + 1)) := add_fin (FloatLinear.le22 vB) h1'
    rw [elast, hadd, lerp_same _ hmem.1 hmem.2]
    rw [abs_of_nonneg (rnd_nonneg (by linarith))]
    apply rnd_le _ FloatLinear.pow1022
    have e3 : (2 : ℚ) ^ 1022 = 2 ^ 1021 + 2 ^ 1021 := by rw [pow_succ]; ring
    have o : (1 : ℚ) ≤ 2 ^ 1021 := one_le_pow₀ (by norm_num)
    rw [abs_of_nonneg v2] at vB
    rw [e3]; exact add_le_add vB o
  · rename_i hv
    rw [not_le] at hv
    obtain ⟨k1, k2, k3, k4⟩ := floor_spec v2 hv
    have ft : IsF (posn xs.length p - ⌊posn xs.length p⌋) := isF_fract v1 v2
    have hfl : |((⌊posn xs.length p⌋ : ℤ) : ℚ)| ≤ 2 ^ 1022 := by
      rw [abs_of_nonneg (by exact_mod_cast Int.floor_nonneg.mpr v2)]
      have := Int.floor_le (posn xs.length p)
      rw [abs_of_nonneg v2] at vB
      exact le_trans this (le_trans vB (pow_le_pow_right₀ (by norm_num) (by norm_num)))
    have esub : Num.sub (.fin (posn xs.length p)) (.fin ((⌊posn xs.length p⌋ : ℤ) : ℚ)) = .fin (posn xs.length p - ⌊posn xs.length p⌋) := by
      rw [sub_fin (FloatLinear.le22 vB) hfl]
      have e : rnd (posn xs.length p - ⌊posn xs.length p⌋) = posn xs.length p - ⌊posn xs.length p⌋ := ft
      rw [e]
    have eidx : toIdx (Num.floor (.fin (posn xs.length p))) = ⌊posn xs.length p⌋.toNat := by
      simp [Num.floor, toIdx]
    have eg : ∀ k, k < s.length → (fins s).getD k .nan = .fin (s.getD k 0) := by
      intro k hk
      rw [getD_get _ _ (by simpa [fins] using hk), getD_get _ _ hk]
      simp [fins]
    rw [eidx, eg _ (by omega), eg _ (by omega)]
    have hfe : Num.floor (.fin (posn xs.length p)) = .fin ((⌊posn xs.length p⌋ : ℤ) : ℚ) := rfl
    rw [hfe, esub]
    have ma := hsm _ (getD_mem s ⌊posn xs.length p⌋.toNat (by omega))
    have mb := hsm _ (getD_mem s (⌊posn xs.length p⌋.toNat + 1) (by omega))
    rw [lerp_fin ma.2 mb.2 ma.1 mb.1 (step_le hss (by omega) (by omega)) ft k3 k4]

/-- The element number `v` (counted from 0) of the list `s`; between two whole numbers, on the straight line between the two elements. -/
def atPosition (s : List ℚ) (v : ℚ) : ℚ :=
  s.getD ⌊v⌋.toNat 0 + (s.getD (min (⌊v⌋.toNat + 1) (s.length - 1)) 0 - s.getD ⌊v⌋.toNat 0) * (v - ⌊v⌋)

section Value
variable {s : List ℚ} (hne : s ≠ []) (hs : s.Pairwise (· ≤ ·)) (hF : Moderate s) (hn : s.length ≤ 2 ^ 53)
include hne hs hF hn

theorem value_bracket {p : ℚ} (h0 : 0 ≤ p) (h1 : p ≤ 1) :
    IsF (valueQ s p) ∧ (((s.length : ℚ) - 1 ≤ posn s.length p ∧ valueQ s p = s.getD (s.length - 1) 0) ∨
      (posn s.length p < (s.length : ℚ) - 1 ∧ ⌊posn s.length p⌋.toNat + 1 < s.length ∧
        s.getD ⌊posn s.length p⌋.toNat 0 ≤ valueQ s p ∧ valueQ s p ≤ s.getD (⌊posn s.length p⌋.toNat + 1) 0)) := by
  have hl : 0 < s.length := List.length_pos_iff.mpr hne
  obtain ⟨v1, v2, v3, nF⟩ := posn_spec hl hn h0 h1
  unfold valueQ
  split
  · rename_i hv
    rw [last_eq s hne]
    exact ⟨(hF _ (getD_mem s _ (by omega))).1, .inl ⟨hv, rfl⟩⟩
  · rename_i hv
    rw [not_le] at hv
    obtain ⟨k1, k2, k3, k4⟩ := floor_spec v2 hv
    have ma := hF _ (getD_mem s ⌊posn s.length p⌋.toNat (by omega))
    have mb := hF _ (getD_mem s (⌊posn s.length p⌋.toNat + 1) (by omega))
    exact ⟨lerpQ_isF _ _ _, .inr ⟨hv, k1, lerpQ_mem ma.1 mb.1 (step_le hs (by omega) (by omega)) (isF_fract v1 v2) k3 k4⟩⟩

theorem value_mono {p p' : ℚ} (h0 : 0 ≤ p) (hpp : p ≤ p') (h1 : p' ≤ 1) : valueQ s p ≤ valueQ s p' := by
  have hl : 0 < s.length := List.length_pos_iff.mpr hne
  have hn1 : (0 : ℚ) ≤ (s.length : ℚ) - 1 := by
    have : (1 : ℚ) ≤ s.length := by exact_mod_cast hl
    linarith
  have hv : posn s.length p ≤ posn s.length p' := rnd_mono (mul_le_mul_of_nonneg_left hpp hn1)
  obtain ⟨-, b1⟩ := value_bracket hne hs hF hn h0 (le_trans hpp h1)
  obtain ⟨-, b2⟩ := value_bracket hne hs hF hn (le_trans h0 hpp) h1
  obtain ⟨v1, v2, v3, nF⟩ := posn_spec hl hn h0 (le_trans hpp h1)
  obtain ⟨w1, w2, w3, -⟩ := posn_spec hl hn (le_trans h0 hpp) h1
  rcases b2 with ⟨c1, c2⟩ | ⟨c1, c2, c3, c4⟩
  · rw [c2]
    rcases b1 with ⟨d1, d2⟩ | ⟨d1, d2, d3, d4⟩
    · rw [d2]
    · exact le_trans d4 (step_le hs (by omega) (by omega))
  · rcases b1 with ⟨d1, d2⟩ | ⟨d1, d2, d3, d4⟩
    · exact absurd (lt_of_le_of_lt d1 (lt_of_le_of_lt hv c1)) (lt_irrefl _)
    · have hf : ⌊posn s.length p⌋ ≤ ⌊posn s.length p'⌋ := Int.floor_mono hv
      rcases eq_or_lt_of_le hf with e | hlt
      · unfold valueQ
        rw [if_neg (not_le.mpr d1), if_neg (not_le.mpr c1), ← e]
        obtain ⟨k1, k2, k3, k4⟩ := floor_spec v2 d1
        obtain ⟨l1, l2, l3, l4⟩ := floor_spec w2 c1
        have ma := hF _ (getD_mem s ⌊posn s.length p⌋.toNat (by omega))
        have mb := hF _ (getD_mem s (⌊posn s.length p⌋.toNat + 1) (by omega))
        rw [← e] at l4
        exact lerpQ_mono ma.1 mb.1 (step_le hs (by omega) (by omega)) (isF_fract v1 v2) k3 (by linarith) l4
      · have hz : 0 ≤ ⌊posn s.length p⌋ := Int.floor_nonneg.mpr v2
        exact le_trans d4 (le_trans (step_le hs (by omega) (by omega)) c3)

theorem value_whole {p : ℚ} (h0 : 0 ≤ p) (h1 : p ≤ 1) (k : Nat) (hk : k < s.length) (e : ((s.length : ℚ) - 1) * p = k) : valueQ s p = s.getD k 0 := by
  have hv : posn s.length p = k := by
    unfold posn
    rw [e]
    have := isF_int (m := (k : ℤ)) (by rw [abs_of_nonneg (by positivity)]; omega)
    have h : IsF (k : ℚ) := by exact_mod_cast this
    exact h
  unfold valueQ
  rw [hv]
  split
  · rename_i h
    have h2 : (s.length : ℚ) ≤ (k + 1 : ℕ) := by push_cast; linarith
    have : s.length ≤ k + 1 := by exact_mod_cast h2
    rw [last_eq s hne]
    congr 1; omega
  · have e1 : ⌊(k : ℚ)⌋ = (k : ℤ) := Int.floor_natCast k
    rw [e1]
    simp only [Int.toNat_natCast, Int.cast_natCast, sub_self]
    exact lerpQ_zero (hF _ (getD_mem s k hk)).1

theorem value_close {p : ℚ} (h0 : 0 ≤ p) (h1 : p ≤ 1) {M : ℚ} (hM : ∀ x ∈ s, |x| ≤ M) :
    ∃ p' : ℚ, 0 ≤ p' ∧ p' ≤ 1 ∧ |p' - p| ≤ 2 ^ (-53 : ℤ) * p + 2 ^ (-1075 : ℤ) ∧
      |valueQ s p - atPosition s (((s.length : ℚ) - 1) * p')| ≤ 2 ^ (-51 : ℤ) * M + 2 ^ (-1075 : ℤ) := by
  have hl : 0 < s.length := List.length_pos_iff.mpr hne
  have hM0 : 0 ≤ M := le_trans (abs_nonneg _) (hM _ (getD_mem s 0 hl))
  have hη := pow_pos' (-1075)
  have hu := pow_pos' (-53)
  have rhs0 : (0 : ℚ) ≤ 2 ^ (-51 : ℤ) * M + 2 ^ (-1075 : ℤ) := add_nonneg (mul_nonneg (pow_pos' _).le hM0) hη.le
  obtain ⟨v1, v2, v3, nF⟩ := posn_spec hl hn h0 h1
  rcases Nat.lt_or_ge 1 s.length with h2 | h2
  · have hn1 : (1 : ℚ) ≤ (s.length : ℚ) - 1 := by
      have : (2 : ℚ) ≤ s.length := by exact_mod_cast h2
      linarith
    have hpos : (0 : ℚ) < (s.length : ℚ) - 1 := by linarith
    refine ⟨posn s.length p / ((s.length : ℚ) - 1), by positivity, by rw [div_le_one hpos]; exact v3, ?_, ?_⟩
    · have e : posn s.length p / ((s.length : ℚ) - 1) - p = (posn s.length p - ((s.length : ℚ) - 1) * p) / ((s.length : ℚ) - 1) := by
        field_simp
      have herr := FloatMesh.rnd_err_all (((s.length : ℚ) - 1) * p)
      rw [abs_of_nonneg (mul_nonneg hpos.le h0)] at herr
      rw [e, abs_div, abs_of_pos hpos, div_le_iff₀ hpos]
      refine le_trans herr ?_
      generalize (2 : ℚ) ^ (-1075 : ℤ) = η at *
      generalize (2 : ℚ) ^ (-53 : ℤ) = u at *
      nlinarith
    · rw [mul_div_cancel₀ _ hpos.ne']
      unfold valueQ atPosition
      split
      · rename_i hv
        have e : posn s.length p = ((s.length - 1 : ℕ) : ℚ) := by
          rw [Nat.cast_sub (by omega)]; push_cast; linarith
        rw [e, Int.floor_natCast, Int.toNat_natCast, last_eq s hne]
        simp only [Int.cast_natCast, sub_self, mul_zero, add_zero, abs_zero]
        exact rhs0
      · rename_i hv
        rw [not_le] at hv
        obtain ⟨k1, k2, k3, k4⟩ := floor_spec v2 hv
        rw [min_eq_left (by omega)]
        have ma := getD_mem s ⌊posn s.length p⌋.toNat (by omega)
        have mb := getD_mem s (⌊posn s.length p⌋.toNat + 1) (by omega)
        exact lerpQ_err (hF _ ma).1 (hF _ mb).1 (step_le hs (by omega) (by omega)) (isF_fract v1 v2) k3 k4 (hM _ ma) (hM _ mb)
  · have hl1 : s.length = 1 := by omega
    refine ⟨p, h0, h1, ?_, ?_⟩
    · rw [sub_self, abs_zero]; exact add_nonneg (mul_nonneg hu.le h0) hη.le
    · have e : ((s.length : ℚ) - 1) * p = 0 := by rw [hl1]; norm_num
      have := value_whole hne hs hF hn h0 h1 0 (by omega) (by rw [e]; norm_num)
      rw [this, e]
      have z : s.getD 0 0 - atPosition s 0 = 0 := by unfold atPosition; simp
      rw [z, abs_zero]; exact rhs0

end Value

theorem sel_fins (xs : List ℚ) (mask : Option (List Bool)) : sel (fins xs) mask = fins (kept xs mask) := kept_map Num.fin xs mask

theorem kept_moderate {xs : List ℚ} (mask : Option (List Bool)) (h : Moderate xs) : Moderate (kept xs mask) := fun x hx => h x (kept_mem xs mask x hx)

/-- C138: unweighted quantiles of (the kept part of) an array of finite doubles.  There is one function of the probability that gives all of them; it is
monotone without exception, never outside the data, exactly the least element at 0, the largest at 1 and an element itself at every whole position; and
everywhere the exact quantile at a probability that differs by rounding only, up to rounding. -/
theorem C138_quantile (np : Np) (xs : List ℚ) (mask : Option (List Bool)) (hne : kept xs mask ≠ []) (hx : Moderate xs) (hn : xs.length ≤ 2 ^ 53)
    (s : List ℚ) (hs : Ordered s (kept xs mask)) (sort : Bool) (fill : Num) :
    ∃ q : ℚ → ℚ,
      (∀ ps : List ℚ, (∀ p ∈ ps, 0 ≤ p ∧ p ≤ 1) → quantile1 np (fins ps) sort fill (fins xs) none mask = .ok (fins (ps.map q))) ∧
      (∀ p p' : ℚ, 0 ≤ p → p ≤ p' → p' ≤ 1 → q p ≤ q p') ∧
      (∀ x ∈ kept xs mask, q 0 ≤ x ∧ x ≤ q 1) ∧ q 0 ∈ kept xs mask ∧ q 1 ∈ kept xs mask ∧
      (∀ p : ℚ, 0 ≤ p → p ≤ 1 → IsF (q p) ∧
        (∀ (k : Nat) (hk : k < s.length), ((s.length : ℚ) - 1) * p = k → q p = s[k]) ∧
        (∀ M : ℚ, (∀ x ∈ kept xs mask, |x| ≤ M) → ∃ p' : ℚ, 0 ≤ p' ∧ p' ≤ 1 ∧ |p' - p| ≤ 2 ^ (-53 : ℤ) * p + 2 ^ (-1075 : ℤ) ∧
          |q p - atPosition s (((s.length : ℚ) - 1) * p')| ≤ 2 ^ (-51 : ℤ) * M + 2 ^ (-1075 : ℤ))) := by
  have hse := ordered_eq hs
  have hsl := hs.1.length_eq
  have hsne : s ≠ [] := by
    intro e; rw [e] at hsl
    exact hne (List.length_eq_zero_iff.mp hsl.symm)
  have hl : 0 < s.length := List.length_pos_iff.mpr hsne
  have hsm : Moderate s := fun x h => kept_moderate mask hx x (hs.1.mem_iff.mp h)
  have hkn : (kept xs mask).length ≤ 2 ^ 53 := le_trans (kept_length_le xs mask) hn
  have hsn : s.length ≤ 2 ^ 53 := by omega
  have q0 : valueQ s 0 = s.getD 0 0 := value_whole hsne hs.2 hsm hsn le_rfl (by norm_num) 0 hl (by simp)
  have q1 : valueQ s 1 = s.getD (s.length - 1) 0 := value_whole hsne hs.2 hsm hsn (by norm_num) le_rfl _ (by omega) (by
    rw [Nat.cast_sub (by omega)]; push_cast; ring)
  refine ⟨valueQ s, ?_, fun p p' => value_mono hsne hs.2 hsm hsn, ?_, ?_, ?_, ?_⟩
  · intro ps hps
    unfold quantile1
    rw [sel_fins, FloatLinear.fins_length, if_neg (by omega)]
    have : ∀ ps : List ℚ, (∀ p ∈ ps, 0 ≤ p ∧ p ≤ 1) → (fins ps).mapM (npQuantile (fins (kept xs mask))) = .ok (fins (ps.map (valueQ s))) := by
      intro ps hps
      induction ps with
      | nil => rfl
      | cons p ps ih =>
          have h1 := npQuantile_fin hne (kept_moderate mask hx) hkn (hps p (by simp)).1 (hps p (by simp)).2
          have h2 := ih (fun p hp => hps p (by simp [hp]))
          simp only [fins, List.map_cons, List.mapM_cons] at h2 h1 ⊢
          rw [h1, h2, ← hse]; rfl
    exact this ps hps
  · intro x hx'
    obtain ⟨i, hi, rfl⟩ := List.getElem_of_mem (hs.1.mem_iff.mpr hx')
    rw [q0, q1, ← getD_get s 0 hi]
    exact ⟨step_le hs.2 (by omega) hi, step_le hs.2 (by omega) (by omega)⟩
  · rw [q0]; exact hs.1.mem_iff.mp (getD_mem s 0 hl)
  · rw [q1]; exact hs.1.mem_iff.mp (getD_mem s _ (by omega))
  · intro p h0 h1
    refine ⟨(value_bracket hsne hs.2 hsm hsn h0 h1).1, ?_, ?_⟩
    · intro k hk e
      rw [value_whole hsne hs.2 hsm hsn h0 h1 k hk e, getD_get _ _ hk]
    · intro M hM
      exact value_close hsne hs.2 hsm hsn h0 h1 (fun x hx => hM x (hs.1.mem_iff.mp hx))

/-- C138: a NaN among the kept elements makes every unweighted quantile and the median NaN. -/
theorem C138_nan (np : Np) (x : List Num) (mask : Option (List Bool)) (h : .nan ∈ kept x mask) (ps : List ℚ) (hps : ∀ p ∈ ps, 0 ≤ p ∧ p ≤ 1) (sort : Bool) (fill : Num) :
    quantile1 np (fins ps) sort fill x none mask = .ok (ps.map (fun _ => .nan)) ∧ median1 np sort fill x none mask = .nan := by
  have e : sel x mask = kept x mask := by cases mask <;> rfl
  have hl : ¬ (kept x mask).length = 0 := by
    intro e0; rw [List.length_eq_zero_iff.mp e0] at h; cases h
  constructor
  · unfold quantile1
    rw [e, if_neg hl]
    dsimp only
    induction ps with
    | nil => rfl
    | cons p ps ih =>
        have h2 := ih (fun p hp => hps p (by simp [hp]))
        have hp := hps p (by simp)
        have h1 : npQuantile (kept x mask) (.fin p) = .ok .nan := by
          have hc : (Num.le (.fin 0) (.fin p) && Num.le (.fin p) (.fin 1)) = true := by simp [Num.le, hp.1, hp.2]
          unfold npQuantile
          rw [if_pos hc, if_pos h]
        simp only [fins, List.map_cons, List.mapM_cons] at h2 ⊢
        rw [h1, h2]; rfl
  · unfold median1 npMedian
    rw [e, if_neg hl]
    dsimp only
    rw [if_pos h]

/-- C138: without weights a probability outside [0, 1], or NaN, is a ValueError — unless nothing is kept, in which case the fill value comes back whatever
the probabilities. -/
theorem C138_invalid (np : Np) (x : List Num) (weight : Option (List Num)) (mask : Option (List Bool)) (ps : List Num) (sort : Bool) (fill : Num) :
    (kept x mask = [] → quantile1 np ps sort fill x weight mask = .ok (ps.map (fun _ => fill)) ∧ median1 np sort fill x weight mask = fill) ∧
    (kept x mask ≠ [] → (∃ p ∈ ps, ∀ q : ℚ, p = .fin q → q < 0 ∨ 1 < q) → quantile1 np ps sort fill x none mask = .error .valueError) := by
  have e : sel x mask = kept x mask := by cases mask <;> rfl
  constructor
  · intro h
    simp [quantile1, median1, e, h]
  · intro h hp
    have hl : ¬ (kept x mask).length = 0 := fun e0 => h (List.length_eq_zero_iff.mp e0)
    unfold quantile1
    rw [e, if_neg hl]
    dsimp only
    generalize kept x mask = l
    obtain ⟨p, hp1, hp2⟩ := hp
    have all : ∀ p, (∃ r, npQuantile l p = .ok r) ∨ npQuantile l p = .error .valueError := by
      intro p
      unfold npQuantile
      split
      · split
        · exact .inl ⟨_, rfl⟩
        · dsimp only
          split
          · exact .inl ⟨_, rfl⟩
          · exact .inl ⟨_, rfl⟩
      · exact .inr rfl
    have bad : npQuantile l p = .error .valueError := by
      have hc : ¬ ((Num.le (.fin 0) p && Num.le p (.fin 1)) = true) := by
        rcases p with _ | b | q
        · simp [Num.le]
        · cases b <;> simp [Num.le]
        · rcases hp2 q rfl with h | h
          · simp [Num.le, h]
          · simp [Num.le, h]
      unfold npQuantile
      rw [if_neg hc]
    induction ps with
    | nil => cases hp1
    | cons p0 ps ih =>
        rw [List.mapM_cons]
        rcases List.mem_cons.mp hp1 with rfl | hp1
        · rw [bad]; rfl
        · rcases all p0 with ⟨r, hr⟩ | hr
          · rw [hr, ih hp1]; rfl
          · rw [hr]; rfl

/-- C138: the median without weights: the middle element, or a double between the two middle ones that is their mean up to rounding. -/
theorem C138_median (np : Np) (xs : List ℚ) (mask : Option (List Bool)) (hne : kept xs mask ≠ []) (hx : Moderate xs) (s : List ℚ) (hs : Ordered s (kept xs mask))
    (sort : Bool) (fill : Num) :
    ∃ r : ℚ, median1 np sort fill (fins xs) none mask = .fin r ∧
      (∀ k : Nat, (hk : s.length = 2 * k + 1) → r = s[k]) ∧
      (∀ k : Nat, (hk : s.length = 2 * k + 2) → s[k] ≤ r ∧ r ≤ s[k + 1] ∧
        |r - (s[k] + s[k + 1]) / 2| ≤ 2 ^ (-52 : ℤ) * (|s[k]| + |s[k + 1]|) + 2 ^ (-1075 : ℤ)) := by
  have hse := ordered_eq hs
  have hsl := hs.1.length_eq
  have hsne : s ≠ [] := by
    intro e; rw [e] at hsl
    exact hne (List.length_eq_zero_iff.mp hsl.symm)
  have hl : 0 < s.length := List.length_pos_iff.mpr hsne
  have hsm : Moderate s := fun x h => kept_moderate mask hx x (hs.1.mem_iff.mp h)
  have hnan : ¬ (Num.nan ∈ fins (kept xs mask)) := by simp [fins]
  have eg : ∀ k, k < s.length → (fins s).getD k .nan = .fin (s.getD k 0) := by
    intro k hk
    rw [getD_get _ _ (by simpa [fins] using hk), getD_get _ _ hk]
    simp [fins]
  have em : median1 np sort fill (fins xs) none mask = (if s.length % 2 = 1 then Num.div ((fins s).getD (s.length / 2) .nan) (.fin 1)
      else Num.div (Num.add ((fins s).getD (s.length / 2 - 1) .nan) ((fins s).getD (s.length / 2) .nan)) (.fin 2)) := by
    unfold median1 npMedian
    rw [sel_fins, FloatLinear.fins_length, if_neg (by omega)]
    dsimp only
    rw [if_neg hnan, sort_fin, ← hse, ← hsl]
  rw [em]
  have lt21 : (2 : ℚ) ^ 1021 < 2 ^ 1024 := pow_lt_pow_right₀ (by norm_num) (by norm_num)
  rcases Nat.even_or_odd' s.length with ⟨k, hk | hk⟩
  · obtain ⟨k, rfl⟩ : ∃ j, k = j + 1 := ⟨k - 1, by omega⟩
    have e1 : s.length / 2 - 1 = k := by omega
    have e2 : s.length / 2 = k + 1 := by omega
    rw [if_neg (by omega), e1, e2, eg k (by omega), eg (k + 1) (by omega)]
    have ma := hsm _ (getD_mem s k (by omega))
    have mb := hsm _ (getD_mem s (k + 1) (by omega))
    have hle : s.getD k 0 ≤ s.getD (k + 1) 0 := step_le hs.2 (by omega) (by omega)
    rw [add_fin (FloatLinear.le22 ma.2) (FloatLinear.le22 mb.2)]
    have key : ∀ a b : ℚ, IsF a → IsF b → |a| ≤ 2 ^ 1021 → |b| ≤ 2 ^ 1021 → a ≤ b →
        ∃ r, Num.div (.fin (rnd (a + b))) (.fin 2) = .fin r ∧ a ≤ r ∧ r ≤ b ∧ |r - (a + b) / 2| ≤ 2 ^ (-52 : ℤ) * (|a| + |b|) + 2 ^ (-1075 : ℤ) := by
      intro a b fa fb ba bb hab
      have h1 : 2 * a ≤ rnd (a + b) := le_rnd (by linarith) (isF_double fa)
      have h2 : rnd (a + b) ≤ 2 * b := rnd_le (by linarith) (isF_double fb)
      have hB : |rnd (a + b) / 2| ≤ 2 ^ 1021 := by
        rw [abs_le] at ba bb ⊢
        constructor
        · refine le_trans ba.1 ?_; linarith
        · refine le_trans ?_ bb.2; linarith
      have p21 : IsF ((2 : ℚ) ^ 1021) := by
        have := isF_pow (e := 1021) (by norm_num)
        exact_mod_cast this
      refine ⟨rnd (rnd (a + b) / 2), ?_, le_rnd (by linarith) fa, rnd_le (by linarith) fb, ?_⟩
      · have : Num.div (.fin (rnd (a + b))) (.fin 2) = ofQ (rnd (a + b) / 2) := by
          simp [Num.div]
        rw [this]
        exact ofQ_fin_le hB p21 lt21
      · have d1 := rnd_sub_err fa fb.neg
        rw [sub_neg_eq_add] at d1
        have d2 := FloatMesh.rnd_err_all (rnd (a + b) / 2)
        have d3 := abs_add_le a b
        have hu := pow_pos' (-53)
        have hu1 : (2 : ℚ) ^ (-53 : ℤ) ≤ 1 / 4 := by norm_num
        have d5 : |rnd (a + b)| ≤ |a + b| + 2 ^ (-53 : ℤ) * |a + b| := by
          have := abs_sub_abs_le_abs_sub (rnd (a + b)) (a + b)
          linarith
        have e5 : |rnd (a + b) / 2| = |rnd (a + b)| / 2 := by rw [abs_div, abs_of_pos (by norm_num : (0 : ℚ) < 2)]
        rw [e5] at d2
        clear ba bb hB lt21 e5
        generalize (2 : ℚ) ^ (-1075 : ℤ) = η at *
        have e52 : (2 : ℚ) ^ (-52 : ℤ) = 2 * 2 ^ (-53 : ℤ) := by norm_num
        rw [e52]
        clear e52
        generalize (2 : ℚ) ^ (-53 : ℤ) = u at *
        generalize rnd (rnd (a + b) / 2) = r at *
        generalize rnd (a + b) = t at *
        have h0 := abs_nonneg (a + b)
        generalize |t| = T at *
        generalize |a + b| = S at *
        have : u * (T / 2) ≤ u * (S * (3 / 4)) := by
          apply mul_le_mul_of_nonneg_left _ hu.le
          nlinarith
        have h6 : u * S ≤ u * (|a| + |b|) := mul_le_mul_of_nonneg_left d3 hu.le
        have h7 : 0 ≤ u * S := mul_nonneg hu.le h0
        rw [abs_le] at d1 d2 ⊢
        constructor <;> linarith
    obtain ⟨r, r1, r2, r3, r4⟩ := key _ _ ma.1 mb.1 ma.2 mb.2 hle
    refine ⟨r, r1, fun j hj => by omega, fun j hj => ?_⟩
    obtain rfl : j = k := by omega
    have g1 : s.getD j 0 = s[j] := getD_get _ _ (by omega)
    have g2 : s.getD (j + 1) 0 = s[j + 1] := getD_get _ _ (by omega)
    rw [g1] at r2 r4
    rw [g2] at r3 r4
    exact ⟨r2, r3, r4⟩
  · have e2 : s.length / 2 = k := by omega
    rw [if_pos (by omega), e2, eg k (by omega)]
    have ma := hsm _ (getD_mem s k (by omega))
    refine ⟨s.getD k 0, ?_, fun j hj => ?_, fun j hj => by omega⟩
    · have : Num.div (.fin (s.getD k 0)) (.fin 1) = ofQ (s.getD k 0) := by simp [Num.div]
      rw [this]
      exact ofQ_self ⟨ma.1, lt_of_le_of_lt ma.2 lt21⟩
    · obtain rfl : j = k := by omega
      exact getD_get _ _ (by omega)


/-- The probability in the lower tail, for the three kinds of error bar: 1, 2 and 3 standard deviations. -/
def tail : String → Option ℚ
  | "median+1sigma" => some (16 / 100)
  | "median+2sigma" => some (25 / 1000)
  | "median+3sigma" => some (5 / 1000)
  | _ => none

/-- C138: error bars without weights: the centre is the quantile at one half, and the two errors are its (rounded) distances to the quantiles in the two
tails; they are never negative and never infinite or NaN. -/
theorem C138_errorbar (np : Np) (xs : List ℚ) (mask : Option (List Bool)) (hne : kept xs mask ≠ []) (hx : Moderate xs) (hn : xs.length ≤ 2 ^ 53)
    (reduce : String) (t : ℚ) (ht : tail reduce = some t) (fill : Num) :
    ∃ lo med hi eLo eHi : ℚ, quantile1 np [ofQ t, .fin (1 / 2), ofQ (1 - t)] true fill (fins xs) none mask = .ok [.fin lo, .fin med, .fin hi] ∧
      errorbar np reduce fill (fins xs) none mask = .ok (.fin med, .fin eLo, .fin eHi) ∧
      lo ≤ med ∧ med ≤ hi ∧ 0 ≤ eLo ∧ 0 ≤ eHi ∧
      |eLo - (med - lo)| ≤ 2 ^ (-53 : ℤ) * (med - lo) ∧ |eHi - (hi - med)| ≤ 2 ^ (-53 : ℤ) * (hi - med) := by
  have hkey : ∀ a b : ℚ, ofQ a = .fin (rnd a) → ofQ b = .fin (rnd b) → 0 ≤ rnd a → rnd a ≤ 1 / 2 → 1 / 2 ≤ rnd b → rnd b ≤ 1 →
      psMap.lookup reduce = some [ofQ a, .fin (1 / 2), ofQ b] →
      ∃ lo med hi eLo eHi : ℚ, quantile1 np [ofQ a, .fin (1 / 2), ofQ b] true fill (fins xs) none mask = .ok [.fin lo, .fin med, .fin hi] ∧
      errorbar np reduce fill (fins xs) none mask = .ok (.fin med, .fin eLo, .fin eHi) ∧
      lo ≤ med ∧ med ≤ hi ∧ 0 ≤ eLo ∧ 0 ≤ eHi ∧
      |eLo - (med - lo)| ≤ 2 ^ (-53 : ℤ) * (med - lo) ∧ |eHi - (hi - med)| ≤ 2 ^ (-53 : ℤ) * (hi - med) := by
    intro a b ea eb h1 h2 h3 h4 hl
    obtain ⟨q, q1, q2, q3, q4, q5, q6⟩ := C138_quantile np xs mask hne hx hn (_) ⟨npSort_perm (kept xs mask), npSort_sorted (kept xs mask)⟩ true fill
    have hq := q1 [rnd a, 1 / 2, rnd b] (by
      intro p hp
      simp only [List.mem_cons, List.not_mem_nil, or_false] at hp
      rcases hp with rfl | rfl | rfl
      · exact ⟨h1, by linarith⟩
      · norm_num
      · exact ⟨by linarith, h4⟩)
    simp only [fins, List.map_cons, List.map_nil] at hq
    rw [← ea, ← eb] at hq
    have m1 := q2 (rnd a) (1 / 2) h1 h2 (by norm_num)
    have m2 := q2 (1 / 2) (rnd b) (by norm_num) h3 h4
    have bd : ∀ p : ℚ, 0 ≤ p → p ≤ 1 → |q p| ≤ 2 ^ 1021 := by
      intro p hp0 hp1
      have b0 := (kept_moderate mask hx _ q4).2
      have b1 := (kept_moderate mask hx _ q5).2
      have c0 := q2 0 p le_rfl hp0 hp1
      have c1 := q2 p 1 hp0 hp1 le_rfl
      rw [abs_le] at b0 b1 ⊢
      exact ⟨le_trans b0.1 c0, le_trans c1 b1.2⟩
    have fl := (q6 (rnd a) h1 (by linarith)).1
    have fm := (q6 (1 / 2) (by norm_num) (by norm_num)).1
    have fh := (q6 (rnd b) (by linarith) h4).1
    refine ⟨_, _, _, rnd (q (1 / 2) - q (rnd a)), rnd (q (rnd b) - q (1 / 2)), hq, ?_, m1, m2, le_rnd (by linarith) zero_isF, le_rnd (by linarith) zero_isF, ?_, ?_⟩
    · unfold errorbar
      rw [hl]
      dsimp only
      rw [show fins xs = xs.map Num.fin from rfl, hq]
      dsimp only
      rw [sub_fin (FloatLinear.le22 (bd _ (by norm_num) (by norm_num))) (FloatLinear.le22 (bd _ h1 (by linarith))),
        sub_fin (FloatLinear.le22 (bd _ (by linarith) h4)) (FloatLinear.le22 (bd _ (by norm_num) (by norm_num)))]
    · have := rnd_sub_err fm fl
      rwa [abs_of_nonneg (by linarith : (0 : ℚ) ≤ q (1 / 2) - q (rnd a))] at this
    · have := rnd_sub_err fh fm
      rwa [abs_of_nonneg (by linarith : (0 : ℚ) ≤ q (rnd b) - q (1 / 2))] at this
  have hh : ofQ (1 / 2) = .fin (1 / 2) := by decide +kernel
  unfold tail at ht
  split at ht
  · injection ht with ht; subst ht
    exact hkey _ _ (by decide +kernel) (by decide +kernel) (by decide +kernel) (by decide +kernel) (by decide +kernel) (by decide +kernel) (by decide +kernel)
  · injection ht with ht; subst ht
    exact hkey _ _ (by decide +kernel) (by decide +kernel) (by decide +kernel) (by decide +kernel) (by decide +kernel) (by decide +kernel) (by decide +kernel)
  · injection ht with ht; subst ht
    exact hkey _ _ (by decide +kernel) (by decide +kernel) (by decide +kernel) (by decide +kernel) (by decide +kernel) (by decide +kernel) (by decide +kernel)
  · cases ht

/-- C138: the keys of two probabilities cannot be unpacked (ValueError), an unknown key is a KeyError, and when nothing is kept both errors are exactly zero
around a finite fill value. -/
theorem C138_errorbar_other (np : Np) (xs : List ℚ) (mask : Option (List Bool)) (hne : kept xs mask ≠ []) (hx : Moderate xs) (hn : xs.length ≤ 2 ^ 53) :
    (∀ fill, errorbar np "1sigma" fill (fins xs) none mask = .error .valueError ∧ errorbar np "2sigma" fill (fins xs) none mask = .error .valueError ∧
      errorbar np "3sigma" fill (fins xs) none mask = .error .valueError) ∧
    (∀ reduce fill (x : List Num) weight mask, reduce ∉ ["1sigma", "2sigma", "3sigma", "median+1sigma", "median+2sigma", "median+3sigma", "lower_3sigmas", "upper_3sigmas"] →
      errorbar np reduce fill x weight mask = .error .keyError) ∧
    (∀ (reduce : String) (t f : ℚ) (x : List Num) weight mask, tail reduce = some t → kept x mask = [] → |f| ≤ 2 ^ 1021 →
      errorbar np reduce (.fin f) x weight mask = .ok (.fin f, .fin 0, .fin 0)) := by
  refine ⟨?_, ?_, ?_⟩
  · intro fill
    have two : ∀ (r : String) (a b : ℚ), ofQ a = .fin (rnd a) → ofQ b = .fin (rnd b) → 0 ≤ rnd a → rnd a ≤ 1 → 0 ≤ rnd b → rnd b ≤ 1 →
        psMap.lookup r = some [ofQ a, ofQ b] → errorbar np r fill (fins xs) none mask = .error .valueError := by
      intro r a b ea eb h1 h2 h3 h4 hl
      obtain ⟨q, q1, -⟩ := C138_quantile np xs mask hne hx hn (_) ⟨npSort_perm (kept xs mask), npSort_sorted (kept xs mask)⟩ true fill
      have hq := q1 [rnd a, rnd b] (by
        intro p hp
        simp only [List.mem_cons, List.not_mem_nil, or_false] at hp
        rcases hp with rfl | rfl
        · exact ⟨h1, h2⟩
        · exact ⟨h3, h4⟩)
      simp only [fins, List.map_cons, List.map_nil] at hq
      rw [← ea, ← eb] at hq
      unfold errorbar
      rw [hl]
      dsimp only
      rw [show fins xs = xs.map Num.fin from rfl, hq]
    exact ⟨two _ (16 / 100) (84 / 100) (by decide +kernel) (by decide +kernel) (by decide +kernel) (by decide +kernel) (by decide +kernel) (by decide +kernel) (by decide +kernel),
      two _ (25 / 1000) (975 / 1000) (by decide +kernel) (by decide +kernel) (by decide +kernel) (by decide +kernel) (by decide +kernel) (by decide +kernel) (by decide +kernel),
      two _ (5 / 1000) (995 / 1000) (by decide +kernel) (by decide +kernel) (by decide +kernel) (by decide +kernel) (by decide +kernel) (by decide +kernel) (by decide +kernel)⟩
  · intro reduce fill x weight mask h
    have : psMap.lookup reduce = none := by
      simp only [List.mem_cons, List.not_mem_nil, or_false, not_or] at h
      obtain ⟨h1, h2, h3, h4, h5, h6, h7, h8⟩ := h
      simp [psMap, List.lookup, beq_false_of_ne h1, beq_false_of_ne h2, beq_false_of_ne h3, beq_false_of_ne h4, beq_false_of_ne h5, beq_false_of_ne h6,
        beq_false_of_ne h7, beq_false_of_ne h8]
    unfold errorbar
    rw [this]
  · intro reduce t f x weight mask ht hk hf
    have he : (sel x mask).length = 0 := by
      have : sel x mask = kept x mask := rfl
      rw [this, hk]; rfl
    have three : ∀ (a b c : Num), psMap.lookup reduce = some [a, b, c] → errorbar np reduce (.fin f) x weight mask = .ok (.fin f, .fin 0, .fin 0) := by
      intro a b c hl
      unfold errorbar quantile1
      rw [hl]
      dsimp only
      rw [if_pos he]
      simp only [List.map_cons, List.map_nil]
      rw [sub_fin (FloatLinear.le22 hf) (FloatLinear.le22 hf), sub_self, show rnd 0 = 0 from zero_isF]
    unfold tail at ht
    split at ht
    · exact three (ofQ (16 / 100)) (ofQ (1 / 2)) (ofQ (84 / 100)) (by decide +kernel)
    · exact three (ofQ (25 / 1000)) (ofQ (1 / 2)) (ofQ (975 / 1000)) (by decide +kernel)
    · exact three (ofQ (5 / 1000)) (ofQ (1 / 2)) (ofQ (995 / 1000)) (by decide +kernel)
    · cases ht


/-- The hypotheses of the theorems above hold for four doubles of which one is masked out. -/
theorem example_data : Moderate [3, 1 / 2, -7, 10] ∧ kept [3, 1 / 2, -7, (10 : ℚ)] (some [true, true, false, true]) ≠ [] ∧
    Ordered [1 / 2, 3, 10] (kept [3, 1 / 2, -7, (10 : ℚ)] (some [true, true, false, true])) := by
  have b : ∀ x : ℚ, |x| ≤ 2 ^ 4 → |x| ≤ 2 ^ 1021 := fun x h => le_trans h (pow_le_pow_right₀ (by norm_num) (by norm_num))
  refine ⟨?_, by decide, ?_, by decide +kernel⟩
  · intro x hx
    simp only [List.mem_cons, List.not_mem_nil, or_false] at hx
    rcases hx with rfl | rfl | rfl | rfl <;> exact ⟨by decide +kernel, b _ (by norm_num [abs_of_pos])⟩
  · exact List.Perm.swap _ _ _

/-- So its median is 3 and the centre of its error bar lies between two non-negative errors. -/
example (np : Np) : median1 np true .nan (fins [3, 1 / 2, -7, 10]) none (some [true, true, false, true]) = .fin 3 := by
  obtain ⟨h1, h2, h3⟩ := example_data
  obtain ⟨r, e, h, -⟩ := C138_median np _ _ h2 h1 _ h3 true .nan
  rw [e, h 1 rfl]; rfl

example (np : Np) : ∃ lo hi : ℚ, 0 ≤ lo ∧ 0 ≤ hi ∧
    errorbar np "median+2sigma" .nan (fins [3, 1 / 2, -7, 10]) none (some [true, true, false, true]) = .ok (.fin 3, .fin lo, .fin hi) := by
  obtain ⟨h1, h2, h3⟩ := example_data
  obtain ⟨q, e, -, -, -, -, h⟩ := C138_quantile np _ _ h2 h1 (by decide) _ h3 true .nan
  obtain ⟨lo, med, hi, a, b, c1, c2, c3, c4, c5, c6, -, -⟩ := C138_errorbar np _ _ h2 h1 (by decide) "median+2sigma" _ rfl .nan
  have hm : q (1 / 2) = 3 := (h (1 / 2) (by norm_num) (by norm_num)).2.1 1 (by decide) (by norm_num)
  have := e [rnd (25 / 1000), 1 / 2, rnd (1 - 25 / 1000)] (by decide +kernel)
  simp only [fins, List.map_cons, List.map_nil, hm] at this
  rw [show ofQ (25 / 1000) = .fin (rnd (25 / 1000)) by decide +kernel, show ofQ (1 - 25 / 1000) = .fin (rnd (1 - 25 / 1000)) by decide +kernel] at c1
  simp only [fins, List.map_cons, List.map_nil] at c1
  rw [this] at c1
  injection c1 with c1
  injection c1 with _ c1
  injection c1 with c1 _
  injection c1 with c1
  exact ⟨a, b, c5, c6, by rw [c2, ← c1]⟩


/-- C138: the keys 'lower_3sigmas' and 'upper_3sigmas' stand for the probabilities 0.68, 0.95, 0.99 and 0.01, 0.05, 0.32; as error bars their centre is the quantile at 0.95 or
0.05, not the median. -/
theorem C138_errorbar_sigmas (np : Np) (fill : Num) (x : List Num) (weight : Option (List Num)) (mask : Option (List Bool)) (a b c : Num) :
    (quantile1 np [ofQ (68 / 100), ofQ (95 / 100), ofQ (99 / 100)] true fill x weight mask = .ok [a, b, c] →
      errorbar np "lower_3sigmas" fill x weight mask = .ok (b, Num.sub b a, Num.sub c b)) ∧
    (quantile1 np [ofQ (1 / 100), ofQ (5 / 100), ofQ (32 / 100)] true fill x weight mask = .ok [a, b, c] →
      errorbar np "upper_3sigmas" fill x weight mask = .ok (b, Num.sub b a, Num.sub c b)) := by
  have e1 : psMap.lookup "lower_3sigmas" = some [ofQ (68 / 100), ofQ (95 / 100), ofQ (99 / 100)] := rfl
  have e2 : psMap.lookup "upper_3sigmas" = some [ofQ (1 / 100), ofQ (5 / 100), ofQ (32 / 100)] := rfl
  constructor <;> intro h <;> unfold errorbar
  · rw [e1]; dsimp only; rw [h]
  · rw [e2]; dsimp only; rw [h]

end Pyhipp.FloatQuantile
