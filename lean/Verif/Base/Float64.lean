import Mathlib.Data.Int.Log
import Mathlib.Data.Rat.Floor
import Mathlib.Algebra.Order.Floor.Ring
import Mathlib.Tactic.Linarith
import Mathlib.Tactic.Ring
import Mathlib.Tactic.FieldSimp
import Mathlib.Tactic.Positivity
import Mathlib.Tactic.NormNum
/-
IEEE 754 double precision (binary64) as used by numpy and numba: round to nearest, ties to even, with gradual underflow, overflow to
infinity and NaN.  The two zeros are not distinguished (no operation modelled here divides by a zero of either sign).
-/
namespace Pyhipp.F64

/-- Round a rational to the nearest integer, ties to even. -/
def rne (y : ℚ) : ℤ :=
  if y - ⌊y⌋ < 1 / 2 then ⌊y⌋ else if 1 / 2 < y - ⌊y⌋ then ⌊y⌋ + 1 else if ⌊y⌋ % 2 = 0 then ⌊y⌋ else ⌊y⌋ + 1

/-- Exponent of the last bit of a double near `x`. -/
def expo (x : ℚ) : ℤ := max (Int.log 2 |x| - 52) (-1074)

/-- The double nearest to `x` (ignoring overflow). -/
def rnd (x : ℚ) : ℚ := rne (x / 2 ^ expo x) * 2 ^ expo x

/-- `x` is a double (ignoring overflow). -/
def IsF (x : ℚ) : Prop := rnd x = x

instance (x : ℚ) : Decidable (IsF x) := inferInstanceAs (Decidable (rnd x = x))

/-! ### Rounding to an integer -/

theorem rne_int (m : ℤ) : rne (m : ℚ) = m := by simp [rne]

theorem rne_close (y : ℚ) : |(rne y : ℚ) - y| ≤ 1 / 2 := by
  have h0 := Int.floor_le y
  have h1 := Int.lt_floor_add_one y
  unfold rne
  split_ifs <;> push_cast <;> rw [abs_le] <;> constructor <;> linarith

theorem rne_mono {x y : ℚ} (h : x ≤ y) : rne x ≤ rne y := by
  have hf : ⌊x⌋ ≤ ⌊y⌋ := Int.floor_le_floor h
  rcases eq_or_lt_of_le hf with e | hl
  · unfold rne
    rw [← e]
    split_ifs <;> first | omega | (exfalso; linarith)
  · have h1 : rne x ≤ ⌊x⌋ + 1 := by unfold rne; split_ifs <;> omega
    have h2 : ⌊y⌋ ≤ rne y := by unfold rne; split_ifs <;> omega
    omega

theorem rne_neg (y : ℚ) : rne (-y) = - rne y := by
  by_cases hy : y = ⌊y⌋
  · rw [hy, ← Int.cast_neg, rne_int, rne_int]
  · have h0 : (⌊y⌋ : ℚ) < y := lt_of_le_of_ne (Int.floor_le y) (Ne.symm hy)
    have h1 := Int.lt_floor_add_one y
    have hf : ⌊-y⌋ = -⌊y⌋ - 1 := by
      rw [Int.floor_eq_iff]
      push_cast
      constructor <;> linarith
    unfold rne
    rw [hf]
    push_cast
    split_ifs <;> first | omega | (exfalso; linarith)

theorem le_rne {m : ℤ} {y : ℚ} (h : (m : ℚ) ≤ y) : m ≤ rne y := by
  have := rne_mono h
  rwa [rne_int] at this

theorem rne_le {m : ℤ} {y : ℚ} (h : y ≤ (m : ℚ)) : rne y ≤ m := by
  have := rne_mono h
  rwa [rne_int] at this

/-! ### Exponents -/

theorem pow_pos' (e : ℤ) : (0 : ℚ) < 2 ^ e := zpow_pos (by norm_num) e

theorem expo_neg (x : ℚ) : expo (-x) = expo x := by simp [expo]

theorem expo_ge (x : ℚ) : -1074 ≤ expo x := le_max_right _ _

theorem lt_expo (x : ℚ) : |x| < 2 ^ (expo x + 53) := by
  have h := Int.lt_zpow_succ_log_self (R := ℚ) (b := 2) (by norm_num) |x|
  refine lt_of_lt_of_le h ?_
  have : Int.log 2 |x| - 52 ≤ expo x := le_max_left _ _
  exact zpow_le_zpow_right₀ (by norm_num) (by omega)

theorem expo_le_abs (x : ℚ) (h : -1074 < expo x) (hx : x ≠ 0) : (2 : ℚ) ^ (expo x + 52) ≤ |x| := by
  have e : expo x = Int.log 2 |x| - 52 := by
    unfold expo at *
    rcases max_choice (Int.log 2 |x| - 52) (-1074) with h1 | h1 <;> omega
  have := Int.zpow_log_le_self (R := ℚ) (b := 2) (by norm_num) (abs_pos.mpr hx)
  rw [e]
  simpa using this

theorem expo_mono {x y : ℚ} (hx : x ≠ 0) (h : |x| ≤ |y|) : expo x ≤ expo y := by
  unfold expo
  have := Int.log_mono_right (b := 2) (abs_pos.mpr hx) h
  omega

theorem expo_le_of_lt {x : ℚ} {e : ℤ} (he : -1074 ≤ e) (h : |x| < 2 ^ (e + 53)) (hx : x ≠ 0) : expo x ≤ e := by
  by_contra hc
  have h1 := expo_le_abs x (by omega) hx
  have : (2 : ℚ) ^ (e + 53) ≤ 2 ^ (expo x + 52) := zpow_le_zpow_right₀ (by norm_num) (by omega)
  linarith

/-! ### Rounding to a double -/

@[simp] theorem rnd_zero : rnd 0 = 0 := by
  unfold rnd
  rw [zero_div]
  have := rne_int 0
  simp only [Int.cast_zero] at this
  rw [this]
  simp

theorem rnd_neg (x : ℚ) : rnd (-x) = - rnd x := by
  unfold rnd
  rw [expo_neg, neg_div, rne_neg]
  push_cast
  ring

/-- Rounding at a fixed exponent fixes the multiples. -/
theorem rnd_mult (x : ℚ) (k : ℤ) (h : x = k * 2 ^ expo x) : rnd x = x := by
  unfold rnd
  have hp := (pow_pos' (expo x)).ne'
  have : x / 2 ^ expo x = k := by
    rw [div_eq_iff hp]
    exact h
  rw [this, rne_int, ← h]

theorem isF_of {m e : ℤ} (hm : |m| ≤ 2 ^ 53) (he : -1074 ≤ e) : IsF (m * 2 ^ e) := by
  have main : ∀ (m e : ℤ), |m| < 2 ^ 53 → -1074 ≤ e → IsF (m * 2 ^ e) := by
    intro m e hm he
    by_cases h0 : (m : ℚ) * 2 ^ e = 0
    · rw [h0]; exact rnd_zero
    have hle : expo ((m : ℚ) * 2 ^ e) ≤ e := by
      refine expo_le_of_lt he ?_ h0
      rw [abs_mul, abs_of_pos (pow_pos' e), zpow_add₀ (by norm_num), mul_comm]
      refine mul_lt_mul_of_pos_left ?_ (pow_pos' e)
      have : ((|m| : ℤ) : ℚ) < ((2 ^ 53 : ℤ) : ℚ) := by exact_mod_cast hm
      push_cast at this
      norm_num at this ⊢
      exact this
    obtain ⟨d, hd⟩ := Int.eq_ofNat_of_zero_le (sub_nonneg.mpr hle)
    refine rnd_mult _ (m * 2 ^ d) ?_
    push_cast
    rw [mul_assoc]
    congr 1
    have : e = (d : ℤ) + expo ((m : ℚ) * 2 ^ e) := by omega
    conv_lhs => rw [this]
    rw [zpow_add₀ (by norm_num), zpow_natCast]
  rcases lt_or_eq_of_le hm with h | h
  · exact main m e h he
  · have : m = 2 ^ 53 ∨ m = - 2 ^ 53 := by
      rcases abs_choice m with h1 | h1 <;> omega
    rcases this with rfl | rfl
    · have := main (2 ^ 52) (e + 1) (by norm_num) (by omega)
      rw [zpow_add_one₀ (by norm_num)] at this
      have e2 : (((2 ^ 52 : ℤ)) : ℚ) * (2 ^ e * 2) = ((2 ^ 53 : ℤ) : ℚ) * 2 ^ e := by push_cast; ring
      rwa [e2] at this
    · have := main (-2 ^ 52) (e + 1) (by norm_num) (by omega)
      rw [zpow_add_one₀ (by norm_num)] at this
      have e2 : (((-2 ^ 52 : ℤ)) : ℚ) * (2 ^ e * 2) = ((-2 ^ 53 : ℤ) : ℚ) * 2 ^ e := by push_cast; ring
      rwa [e2] at this

/-- Integers up to 2^53 are doubles. -/
theorem isF_int {m : ℤ} (hm : |m| ≤ 2 ^ 53) : IsF (m : ℚ) := by
  have := isF_of (e := 0) hm (by norm_num)
  simpa using this

theorem isF_pow {e : ℤ} (he : -1074 ≤ e) : IsF ((2 : ℚ) ^ e) := by
  have := isF_of (m := 1) (e := e) (by norm_num) he
  simpa using this

theorem mant_le (x : ℚ) : |rne (x / 2 ^ expo x)| ≤ 2 ^ 53 := by
  have h := lt_expo x
  have hp := pow_pos' (expo x)
  have hb : |x / 2 ^ expo x| < 2 ^ (53 : ℤ) := by
    rw [abs_div, abs_of_pos hp, div_lt_iff₀ hp, ← zpow_add₀ (by norm_num)]
    have : (53 : ℤ) + expo x = expo x + 53 := by ring
    rwa [this]
  have hb' := abs_lt.mp hb
  have e1 : (2 : ℚ) ^ (53 : ℤ) = ((2 ^ 53 : ℤ) : ℚ) := by norm_num
  rw [e1] at hb'
  rw [abs_le]
  constructor
  · exact le_rne (by push_cast at *; linarith [hb'.1])
  · exact rne_le (by linarith [hb'.2])

/-- A result of rounding is a double. -/
theorem isF_rnd (x : ℚ) : IsF (rnd x) := isF_of (mant_le x) (expo_ge x)

theorem rnd_rnd (x : ℚ) : rnd (rnd x) = rnd x := isF_rnd x

theorem rnd_nonneg {x : ℚ} (h : 0 ≤ x) : 0 ≤ rnd x := by
  unfold rnd
  have hp := pow_pos' (expo x)
  have : (0 : ℤ) ≤ rne (x / 2 ^ expo x) := le_rne (by push_cast; positivity)
  have : (0 : ℚ) ≤ rne (x / 2 ^ expo x) := by exact_mod_cast this
  positivity

theorem rnd_le_pow (x : ℚ) : rnd x ≤ 2 ^ (expo x + 53) := by
  have h := (abs_le.mp (mant_le x)).2
  unfold rnd
  rw [zpow_add₀ (by norm_num), mul_comm]
  refine mul_le_mul_of_nonneg_left ?_ (pow_pos' _).le
  have : ((rne (x / 2 ^ expo x) : ℤ) : ℚ) ≤ ((2 ^ 53 : ℤ) : ℚ) := by exact_mod_cast h
  push_cast at this
  norm_num at this ⊢
  exact this

theorem pow_le_rnd {x : ℚ} (hx : 0 < x) (h : -1074 < expo x) : 2 ^ (expo x + 52) ≤ rnd x := by
  have h1 := expo_le_abs x h hx.ne'
  rw [abs_of_pos hx] at h1
  have hp := pow_pos' (expo x)
  have : (2 ^ 52 : ℤ) ≤ rne (x / 2 ^ expo x) := by
    apply le_rne
    rw [le_div_iff₀ hp]
    rw [zpow_add₀ (by norm_num)] at h1
    push_cast
    norm_num at h1 ⊢
    linarith
  unfold rnd
  rw [zpow_add₀ (by norm_num), mul_comm]
  refine mul_le_mul_of_nonneg_right ?_ hp.le
  have : ((2 ^ 52 : ℤ) : ℚ) ≤ ((rne (x / 2 ^ expo x) : ℤ) : ℚ) := by exact_mod_cast this
  push_cast at this
  norm_num at this ⊢
  exact this

theorem rnd_mono_pos {x y : ℚ} (hx : 0 < x) (h : x ≤ y) : rnd x ≤ rnd y := by
  have hy : 0 < y := lt_of_lt_of_le hx h
  have he : expo x ≤ expo y := expo_mono hx.ne' (by rw [abs_of_pos hx, abs_of_pos hy]; exact h)
  rcases eq_or_lt_of_le he with e | hl
  · unfold rnd
    rw [e]
    refine mul_le_mul_of_nonneg_right ?_ (pow_pos' _).le
    have := rne_mono (x := x / 2 ^ expo y) (y := y / 2 ^ expo y) (div_le_div_of_nonneg_right h (pow_pos' _).le)
    exact_mod_cast this
  · have h1 := rnd_le_pow x
    have h2 := pow_le_rnd hy (lt_of_le_of_lt (expo_ge x) hl)
    have h3 : (2 : ℚ) ^ (expo x + 53) ≤ 2 ^ (expo y + 52) := zpow_le_zpow_right₀ (by norm_num) (by omega)
    linarith

/-- Rounding is monotone. -/
theorem rnd_mono {x y : ℚ} (h : x ≤ y) : rnd x ≤ rnd y := by
  rcases lt_trichotomy x 0 with hx | rfl | hx
  · rcases lt_trichotomy y 0 with hy | rfl | hy
    · have := rnd_mono_pos (x := -y) (y := -x) (by linarith) (by linarith)
      rw [rnd_neg, rnd_neg] at this
      linarith
    · have := rnd_nonneg (x := -x) (by linarith)
      rw [rnd_neg] at this
      rw [rnd_zero]
      linarith
    · have h1 := rnd_nonneg (x := -x) (by linarith)
      rw [rnd_neg] at h1
      have h2 := rnd_nonneg hy.le
      linarith
  · rw [rnd_zero]; exact rnd_nonneg h
  · exact rnd_mono_pos hx h

theorem rnd_le {x y : ℚ} (h : x ≤ y) (hy : IsF y) : rnd x ≤ y := by
  have := rnd_mono h
  rwa [hy] at this

theorem le_rnd {x y : ℚ} (h : x ≤ y) (hx : IsF x) : x ≤ rnd y := by
  have := rnd_mono h
  rwa [hx] at this

theorem IsF.neg {x : ℚ} (h : IsF x) : IsF (-x) := by
  unfold IsF at *
  rw [rnd_neg, h]

/-- The rounding error is half a unit of the last place. -/
theorem rnd_err_ulp (x : ℚ) : |rnd x - x| ≤ 2 ^ expo x / 2 := by
  have hp := pow_pos' (expo x)
  have h := rne_close (x / 2 ^ expo x)
  have e : rnd x - x = ((rne (x / 2 ^ expo x) : ℚ) - x / 2 ^ expo x) * 2 ^ expo x := by
    unfold rnd
    rw [sub_mul, div_mul_cancel₀ _ hp.ne']
  rw [e, abs_mul, abs_of_pos hp]
  nlinarith

/-- Relative error 2^-53 in the normal range. -/
theorem rnd_err {x : ℚ} (h : 2 ^ (-1022 : ℤ) ≤ |x|) : |rnd x - x| ≤ 2 ^ (-53 : ℤ) * |x| := by
  have hx : x ≠ 0 := by
    rintro rfl
    rw [abs_zero] at h
    exact absurd h (not_le.mpr (pow_pos' _))
  refine le_trans (rnd_err_ulp x) ?_
  have hlog : -1022 ≤ Int.log 2 |x| := (Int.zpow_le_iff_le_log (by norm_num) (abs_pos.mpr hx)).mp (by exact_mod_cast h)
  have e : expo x = Int.log 2 |x| - 52 := max_eq_left (by omega)
  have h1 := Int.zpow_log_le_self (R := ℚ) (b := 2) (by norm_num) (abs_pos.mpr hx)
  rw [e]
  have : (2 : ℚ) ^ (Int.log 2 |x| - 52) / 2 = 2 ^ (-53 : ℤ) * 2 ^ Int.log 2 |x| := by
    rw [show Int.log 2 |x| - 52 = (-53 : ℤ) + Int.log 2 |x| + 1 by ring, zpow_add_one₀ (by norm_num), zpow_add₀ (by norm_num)]
    ring
  rw [this]
  exact mul_le_mul_of_nonneg_left (by exact_mod_cast h1) (pow_pos' _).le

/-- Doubles are multiples of their last unit. -/
theorem IsF.form {x : ℚ} (h : IsF x) : ∃ m : ℤ, |m| ≤ 2 ^ 53 ∧ x = m * 2 ^ expo x := ⟨_, mant_le x, h.symm⟩

/-- Doubles are multiples of the smallest one. -/
theorem IsF.mult {x : ℚ} (h : IsF x) : ∃ m : ℤ, x = m * 2 ^ (-1074 : ℤ) := by
  obtain ⟨m, -, e⟩ := h.form
  obtain ⟨d, hd⟩ := Int.eq_ofNat_of_zero_le (sub_nonneg.mpr (expo_ge x))
  refine ⟨m * 2 ^ d, ?_⟩
  conv_lhs => rw [e]
  have : expo x = (d : ℤ) + (-1074) := by omega
  rw [this, zpow_add₀ (by norm_num), zpow_natCast]
  push_cast
  ring

/-- The difference of two different doubles does not round to zero: the sign is right. -/
theorem rnd_sub_pos {x y : ℚ} (hx : IsF x) (hy : IsF y) (h : y < x) : 0 < rnd (x - y) := by
  obtain ⟨m, e1⟩ := hx.mult
  obtain ⟨k, e2⟩ := hy.mult
  have hp := pow_pos' (-1074)
  have hd : x - y = ((m - k : ℤ) : ℚ) * 2 ^ (-1074 : ℤ) := by rw [e1, e2]; push_cast; ring
  have hmk : (0 : ℚ) < ((m - k : ℤ) : ℚ) := by
    have : 0 < x - y := by linarith
    rw [hd] at this
    exact pos_of_mul_pos_left this hp.le
  have h1 : (1 : ℤ) ≤ m - k := by
    have : (0 : ℤ) < m - k := by exact_mod_cast hmk
    omega
  have : (2 : ℚ) ^ (-1074 : ℤ) ≤ x - y := by
    rw [hd]
    have : (1 : ℚ) ≤ ((m - k : ℤ) : ℚ) := by exact_mod_cast h1
    nlinarith
  exact lt_of_lt_of_le hp (le_rnd this (isF_pow (by norm_num)))

theorem rnd_sub_neg {x y : ℚ} (hx : IsF x) (hy : IsF y) (h : x < y) : rnd (x - y) < 0 := by
  have := rnd_sub_pos hy hx h
  rw [← neg_sub, rnd_neg] at this
  linarith

/-- Two doubles that are multiples of 2^e and differ by at most 2^(e+53): the difference is a double. -/
theorem isF_of_mult {x : ℚ} {e k : ℤ} (he : -1074 ≤ e) (h : x = k * 2 ^ e) (hx : |x| ≤ 2 ^ (e + 53)) : IsF x := by
  rw [h]
  refine isF_of ?_ he
  rw [h, abs_mul, abs_of_pos (pow_pos' e), zpow_add₀ (by norm_num), mul_comm] at hx
  have := le_of_mul_le_mul_left hx (pow_pos' e)
  have h2 : ((|k| : ℤ) : ℚ) ≤ ((2 ^ 53 : ℤ) : ℚ) := by push_cast; norm_num at this ⊢; exact this
  exact_mod_cast h2

theorem IsF.mult_of_le {x : ℚ} (h : IsF x) {e : ℤ} (he : e ≤ expo x) : ∃ k : ℤ, x = k * 2 ^ e := by
  obtain ⟨m, -, e1⟩ := h.form
  obtain ⟨d, hd⟩ := Int.eq_ofNat_of_zero_le (sub_nonneg.mpr he)
  refine ⟨m * 2 ^ d, ?_⟩
  conv_lhs => rw [e1]
  have : expo x = (d : ℤ) + e := by omega
  rw [this, zpow_add₀ (by norm_num), zpow_natCast]
  push_cast
  ring

/-- Sterbenz: doubles within a factor of two subtract exactly. -/
theorem sterbenz {x y : ℚ} (hx : IsF x) (hy : IsF y) (h0 : 0 < y) (h1 : y ≤ 2 * x) (h2 : x ≤ 2 * y) : IsF (x - y) := by
  have hx0 : 0 < x := by linarith
  obtain ⟨a, ha⟩ := hx.mult_of_le (min_le_left (expo x) (expo y))
  obtain ⟨b, hb⟩ := hy.mult_of_le (min_le_right (expo x) (expo y))
  refine isF_of_mult (e := min (expo x) (expo y)) (k := a - b) (le_min (expo_ge x) (expo_ge y)) ?_ ?_
  · push_cast
    rw [sub_mul, ← ha, ← hb]
  · rcases min_choice (expo x) (expo y) with h | h <;> rw [h]
    · have := lt_expo x
      rw [abs_of_pos hx0] at this
      rw [abs_le]; constructor <;> linarith
    · have := lt_expo y
      rw [abs_of_pos h0] at this
      rw [abs_le]; constructor <;> linarith

/-- The fractional part of a non-negative double is a double. -/
theorem isF_fract {x : ℚ} (hx : IsF x) (h0 : 0 ≤ x) : IsF (x - ⌊x⌋) := by
  rcases le_or_gt 0 (expo x) with he | he
  · obtain ⟨k, hk⟩ := hx.mult_of_le he
    rw [zpow_zero, mul_one] at hk
    rw [hk, Int.floor_intCast, sub_self]
    exact rnd_zero
  · obtain ⟨m, -, e1⟩ := hx.form
    obtain ⟨d, hd⟩ := Int.eq_ofNat_of_zero_le (a := - expo x) (by omega)
    refine isF_of_mult (e := expo x) (k := m - ⌊x⌋ * 2 ^ d) (expo_ge x) ?_ ?_
    · push_cast
      rw [sub_mul, ← e1, mul_assoc, ← zpow_natCast, ← zpow_add₀ (by norm_num)]
      have : (d : ℤ) + expo x = 0 := by omega
      rw [this]; simp
    · have h1 := lt_expo x
      rw [abs_of_nonneg h0] at h1
      have h2 := Int.floor_le x
      have h3 : (0 : ℚ) ≤ ⌊x⌋ := by exact_mod_cast Int.floor_nonneg.mpr h0
      rw [abs_le]; constructor <;> linarith

/-- Small differences of doubles are exact. -/
theorem isF_sub_small {x y : ℚ} (hx : IsF x) (hy : IsF y) (h : |x - y| ≤ 2 ^ (-1021 : ℤ)) : IsF (x - y) := by
  obtain ⟨m, e1⟩ := hx.mult
  obtain ⟨k, e2⟩ := hy.mult
  refine isF_of_mult (e := -1074) (k := m - k) (le_refl _) (by rw [e1, e2]; push_cast; ring) ?_
  simpa using h

/-- Differences of doubles have a small relative error, even below the normal range. -/
theorem rnd_sub_err {x y : ℚ} (hx : IsF x) (hy : IsF y) : |rnd (x - y) - (x - y)| ≤ 2 ^ (-53 : ℤ) * |x - y| := by
  rcases le_or_gt (2 ^ (-1022 : ℤ)) |x - y| with h | h
  · exact rnd_err h
  · have : IsF (x - y) := isF_sub_small hx hy (le_trans h.le (zpow_le_zpow_right₀ (by norm_num) (by norm_num)))
    rw [this, sub_self, abs_zero]
    positivity

/-! ### Numbers with infinities and NaN -/

/-- A double: `inf true` is -∞. -/
inductive Num where
  | nan
  | inf (neg : Bool)
  | fin (q : ℚ)
  deriving DecidableEq

/-- Round an exact result. -/
def ofQ (q : ℚ) : Num := if 2 ^ 1024 ≤ |rnd q| then .inf (decide (q < 0)) else .fin (rnd q)

namespace Num

/-- A finite value that a double can have. -/
def Ok : Num → Prop
  | .fin q => IsF q ∧ |q| < 2 ^ 1024
  | _ => True

def neg : Num → Num
  | .nan => .nan
  | .inf b => .inf (!b)
  | .fin q => .fin (-q)

def add : Num → Num → Num
  | .nan, _ => .nan
  | _, .nan => .nan
  | .inf a, .inf b => if a = b then .inf a else .nan
  | .inf a, .fin _ => .inf a
  | .fin _, .inf b => .inf b
  | .fin x, .fin y => ofQ (x + y)

def sub (x y : Num) : Num := add x (neg y)

def mul : Num → Num → Num
  | .nan, _ => .nan
  | _, .nan => .nan
  | .inf a, .inf b => .inf (a != b)
  | .inf a, .fin y => if y = 0 then .nan else .inf (a != decide (y < 0))
  | .fin x, .inf b => if x = 0 then .nan else .inf (decide (x < 0) != b)
  | .fin x, .fin y => ofQ (x * y)

/-- Division; zero as a divisor counts as positive. -/
def div : Num → Num → Num
  | .nan, _ => .nan
  | _, .nan => .nan
  | .inf _, .inf _ => .nan
  | .inf a, .fin y => .inf (a != decide (y < 0))
  | .fin _, .inf _ => .fin 0
  | .fin x, .fin y => if y = 0 then (if x = 0 then .nan else .inf (decide (x < 0))) else ofQ (x / y)

/-- Comparisons are false on NaN. -/
def lt : Num → Num → Bool
  | .nan, _ => false
  | _, .nan => false
  | .inf a, .inf b => a && !b
  | .inf a, .fin _ => a
  | .fin _, .inf b => !b
  | .fin x, .fin y => decide (x < y)

def le : Num → Num → Bool
  | .nan, _ => false
  | _, .nan => false
  | .inf a, .inf b => a || !b
  | .inf a, .fin _ => a
  | .fin _, .inf b => !b
  | .fin x, .fin y => decide (x ≤ y)

/-- `np.floor`: exact. -/
def floor : Num → Num
  | .fin q => .fin ⌊q⌋
  | x => x

/-- Conversion to int64: `bad` is what the machine gives for NaN, infinities and values outside the range. -/
def toInt64 (bad : Num → ℤ) (x : Num) : ℤ :=
  match x with
  | .fin q => if -2 ^ 63 ≤ q ∧ q < 2 ^ 63 then (if 0 ≤ q then ⌊q⌋ else ⌈q⌉) else bad x
  | _ => bad x

/-- x86-64: the "integer indefinite" value. -/
def x86 : Num → ℤ := fun _ => -2 ^ 63

end Num

theorem ofQ_fin {q : ℚ} (h : |rnd q| < 2 ^ 1024) : ofQ q = .fin (rnd q) := if_neg (not_le.mpr h)

theorem rnd_abs (x : ℚ) : |rnd x| = rnd |x| := by
  rcases le_total 0 x with h | h
  · rw [abs_of_nonneg h, abs_of_nonneg (rnd_nonneg h)]
  · have h1 := rnd_nonneg (x := -x) (by linarith)
    rw [abs_of_nonpos h, rnd_neg, abs_of_nonpos (by rw [rnd_neg] at h1; linarith)]

/-- No overflow below a finite double. -/
theorem ofQ_fin_le {q y : ℚ} (h : |q| ≤ y) (hy : IsF y) (hb : y < 2 ^ 1024) : ofQ q = .fin (rnd q) := by
  refine ofQ_fin (lt_of_le_of_lt ?_ hb)
  rw [rnd_abs]
  exact rnd_le h hy

end Pyhipp.F64
