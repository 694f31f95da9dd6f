import Verif.Base.Float32
import Verif.Props.FloatBins
/-
C127: the rounding to single precision.
-/
namespace Pyhipp.F32
open Pyhipp.F64 (rne rne_int rne_close rne_mono rne_neg le_rne rne_le pow_pos')
open Pyhipp.FloatBins (rne_nearest)

/-- Singles are multiples of their last unit. -/
theorem IsF.form {x : ℚ} (h : IsF x) : ∃ m : ℤ, |m| ≤ 2 ^ 24 ∧ x = m * 2 ^ expo x := ⟨_, mant_le x, h.symm⟩

theorem IsF.mult_of_le {x : ℚ} (h : IsF x) {e : ℤ} (he : e ≤ expo x) : ∃ k : ℤ, x = k * 2 ^ e := by
  obtain ⟨m, -, e1⟩ := h.form
  obtain ⟨d, hd⟩ := Int.eq_ofNat_of_zero_le (sub_nonneg.mpr he)
  refine ⟨m * 2 ^ d, ?_⟩
  conv_lhs => rw [e1]
  have : expo x = (d : ℤ) + e := by omega
  rw [this, zpow_add₀ (by norm_num), zpow_natCast]
  push_cast
  ring

theorem rnd_near_mult (x : ℚ) (k : ℤ) : |rnd x - x| ≤ |k * 2 ^ expo x - x| := by
  have hp := pow_pos' (expo x)
  have h := rne_nearest (x / 2 ^ expo x) k
  have e : ∀ j : ℤ, |(j : ℚ) * 2 ^ expo x - x| = |(j : ℚ) - x / 2 ^ expo x| * 2 ^ expo x := by
    intro j
    rw [← abs_of_pos hp, ← abs_mul, abs_of_pos hp]
    congr 1
    field_simp
  unfold rnd
  rw [e, e]
  exact mul_le_mul_of_nonneg_right h hp.le

/-- C127: what the rounding to float32 is, independently of how it is computed: the singles are the numbers `m * 2^e` with at most 24
bits and e ≥ -149; the rounded value is a single, no single is nearer, and between two equally near ones the even multiple of the last
place is taken. -/
theorem C127_rounding (x : ℚ) :
    (IsF x ↔ ∃ m e : ℤ, |m| ≤ 2 ^ 24 ∧ -149 ≤ e ∧ x = m * 2 ^ e) ∧ IsF (rnd x) ∧ (∀ y, IsF y → |rnd x - x| ≤ |y - x|) ∧
    (∀ k : ℤ, x = (k + 1 / 2) * 2 ^ expo x → ∃ j : ℤ, rnd x = (2 * j) * 2 ^ expo x) := by
  refine ⟨⟨fun h => ?_, ?_⟩, isF_rnd x, ?_, ?_⟩
  · obtain ⟨m, hm, he⟩ := h.form
    exact ⟨m, expo x, hm, expo_ge x, he⟩
  · rintro ⟨m, e, hm, he, rfl⟩
    exact isF_of hm he
  · intro y hy
    rcases le_or_gt (expo x) (expo y) with h | h
    · obtain ⟨k, hk⟩ := hy.mult_of_le h
      have := rnd_near_mult x k
      rwa [← hk] at this
    · by_cases hx0 : x = 0
      · subst hx0
        rw [rnd_zero, sub_self, abs_zero]
        exact abs_nonneg _
      have hex : -149 < expo x := lt_of_le_of_lt (expo_ge y) h
      have h1 := expo_le_abs x hex hx0
      have h2 : |y| < 2 ^ (expo x + 23) := lt_of_lt_of_le (lt_expo y) (zpow_le_zpow_right₀ (by norm_num) (by omega))
      have e23 : (2 : ℚ) ^ (expo x + 23) = (2 ^ 23 : ℤ) * 2 ^ expo x := by
        rw [add_comm, zpow_add₀ (by norm_num)]
        norm_num
      rw [abs_lt] at h2
      rcases lt_or_gt_of_ne hx0 with hneg | hpos
      · have h3 := rnd_near_mult x (-2 ^ 23)
        have e' : (((-2 ^ 23 : ℤ)) : ℚ) * 2 ^ expo x = -(2 ^ (expo x + 23)) := by rw [e23]; push_cast; ring
        rw [e'] at h3
        rw [abs_of_neg hneg] at h1
        rw [abs_of_nonneg (show 0 ≤ -(2 ^ (expo x + 23)) - x by linarith)] at h3
        have h4 := le_abs_self (y - x)
        linarith
      · have h3 := rnd_near_mult x (2 ^ 23)
        rw [← e23] at h3
        rw [abs_of_pos hpos] at h1
        rw [abs_of_nonpos (show 2 ^ (expo x + 23) - x ≤ 0 by linarith)] at h3
        have h4 := neg_le_abs (y - x)
        linarith
  · intro k hk
    have hp := pow_pos' (expo x)
    have hq : x / 2 ^ expo x = k + 1 / 2 := by
      rw [div_eq_iff hp.ne']
      exact hk
    have hf : ⌊x / 2 ^ expo x⌋ = k := by
      rw [hq, Int.floor_eq_iff]
      constructor <;> linarith
    have hr : rne (x / 2 ^ expo x) = if k % 2 = 0 then k else k + 1 := by
      unfold rne
      rw [hf, hq]
      have a : ¬ ((k : ℚ) + 1 / 2 - k < 1 / 2) := by linarith
      have b : ¬ (1 / 2 < (k : ℚ) + 1 / 2 - k) := by linarith
      rw [if_neg a, if_neg b]
    unfold rnd
    rw [hr]
    split_ifs with h
    · exact ⟨k / 2, by rw [show (2 : ℚ) * ((k / 2 : ℤ) : ℚ) = ((2 * (k / 2) : ℤ) : ℚ) by push_cast; rfl, Int.mul_ediv_cancel' (Int.dvd_of_emod_eq_zero h)]⟩
    · refine ⟨(k + 1) / 2, ?_⟩
      rw [show (2 : ℚ) * (((k + 1) / 2 : ℤ) : ℚ) = ((2 * ((k + 1) / 2) : ℤ) : ℚ) by push_cast; rfl, Int.mul_ediv_cancel' (by omega)]

example : rnd (1 / 10) = 13421773 / 134217728 := by decide +kernel

end Pyhipp.F32
