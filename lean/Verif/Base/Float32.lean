import Verif.Base.Float64
/-
IEEE 754 single precision (binary32), as in arrays of dtype float32: round to nearest, ties to even, with gradual underflow and overflow to infinity.
-/
namespace Pyhipp.F32
open Pyhipp.F64 (rne rne_int rne_close rne_mono rne_neg le_rne rne_le pow_pos' Num)

/-- Exponent of the last bit of a single near `x`. -/
def expo (x : ℚ) : ℤ := max (Int.log 2 |x| - 23) (-149)

/-- The single nearest to `x` (ignoring overflow). -/
def rnd (x : ℚ) : ℚ := rne (x / 2 ^ expo x) * 2 ^ expo x

/-- `x` is a single (ignoring overflow). -/
def IsF (x : ℚ) : Prop := rnd x = x

instance (x : ℚ) : Decidable (IsF x) := inferInstanceAs (Decidable (rnd x = x))

/-! ### Exponents -/

theorem expo_neg (x : ℚ) : expo (-x) = expo x := by simp [expo]

theorem expo_ge (x : ℚ) : -149 ≤ expo x := le_max_right _ _

theorem lt_expo (x : ℚ) : |x| < 2 ^ (expo x + 24) := by
  have h := Int.lt_zpow_succ_log_self (R := ℚ) (b := 2) (by norm_num) |x|
  refine lt_of_lt_of_le h ?_
  have : Int.log 2 |x| - 23 ≤ expo x := le_max_left _ _
  exact zpow_le_zpow_right₀ (by norm_num) (by omega)

theorem expo_le_abs (x : ℚ) (h : -149 < expo x) (hx : x ≠ 0) : (2 : ℚ) ^ (expo x + 23) ≤ |x| := by
  have e : expo x = Int.log 2 |x| - 23 := by
    unfold expo at *
    rcases max_choice (Int.log 2 |x| - 23) (-149) with h1 | h1 <;> omega
  have := Int.zpow_log_le_self (R := ℚ) (b := 2) (by norm_num) (abs_pos.mpr hx)
  rw [e]
  simpa using this

theorem expo_mono {x y : ℚ} (hx : x ≠ 0) (h : |x| ≤ |y|) : expo x ≤ expo y := by
  unfold expo
  have := Int.log_mono_right (b := 2) (abs_pos.mpr hx) h
  omega

theorem expo_le_of_lt {x : ℚ} {e : ℤ} (he : -149 ≤ e) (h : |x| < 2 ^ (e + 24)) (hx : x ≠ 0) : expo x ≤ e := by
  by_contra hc
  have h1 := expo_le_abs x (by omega) hx
  have : (2 : ℚ) ^ (e + 24) ≤ 2 ^ (expo x + 23) := zpow_le_zpow_right₀ (by norm_num) (by omega)
  linarith

/-! ### Rounding to a single -/

@[simp] theorem rnd_zero : rnd 0 = 0 := by
  unfold rnd
  rw [zero_div]
  have := rne_int 0
  simp only [Int.cast_zero] at this
  rw [this]
  simp

theorem rnd_neg (x : ℚ) : rnd (-x) = - rnd x := by
  unfold rnd
  rw [expo_neg, neg_div, rne_neg]
  push_cast
  ring

/-- Rounding at a fixed exponent fixes the multiples. -/
theorem rnd_mult (x : ℚ) (k : ℤ) (h : x = k * 2 ^ expo x) : rnd x = x := by
  unfold rnd
  have hp := (pow_pos' (expo x)).ne'
  have : x / 2 ^ expo x = k := by
    rw [div_eq_iff hp]
    exact h
  rw [this, rne_int, ← h]

theorem isF_of {m e : ℤ} (hm : |m| ≤ 2 ^ 24) (he : -149 ≤ e) : IsF (m * 2 ^ e) := by
  have main : ∀ (m e : ℤ), |m| < 2 ^ 24 → -149 ≤ e → IsF (m * 2 ^ e) := by
    intro m e hm he
    by_cases h0 : (m : ℚ) * 2 ^ e = 0
    · rw [h0]; exact rnd_zero
    have hle : expo ((m : ℚ) * 2 ^ e) ≤ e := by
      refine expo_le_of_lt he ?_ h0
      rw [abs_mul, abs_of_pos (pow_pos' e), zpow_add₀ (by norm_num), mul_comm]
      refine mul_lt_mul_of_pos_left ?_ (pow_pos' e)
      have : ((|m| : ℤ) : ℚ) < ((2 ^ 24 : ℤ) : ℚ) := by exact_mod_cast hm
      push_cast at this
      norm_num at this ⊢
      exact this
    obtain ⟨d, hd⟩ := Int.eq_ofNat_of_zero_le (sub_nonneg.mpr hle)
    refine rnd_mult _ (m * 2 ^ d) ?_
    push_cast
    rw [mul_assoc]
    congr 1
    have : e = (d : ℤ) + expo ((m : ℚ) * 2 ^ e) := by omega
    conv_lhs => rw [this]
    rw [zpow_add₀ (by norm_num), zpow_natCast]
  rcases lt_or_eq_of_le hm with h | h
  · exact main m e h he
  · have : m = 2 ^ 24 ∨ m = - 2 ^ 24 := by
      rcases abs_choice m with h1 | h1 <;> omega
    rcases this with rfl | rfl
    · have := main (2 ^ 23) (e + 1) (by norm_num) (by omega)
      rw [zpow_add_one₀ (by norm_num)] at this
      have e2 : (((2 ^ 23 : ℤ)) : ℚ) * (2 ^ e * 2) = ((2 ^ 24 : ℤ) : ℚ) * 2 ^ e := by push_cast; ring
      rwa [e2] at this
    · have := main (-2 ^ 23) (e + 1) (by norm_num) (by omega)
      rw [zpow_add_one₀ (by norm_num)] at this
      have e2 : (((-2 ^ 23 : ℤ)) : ℚ) * (2 ^ e * 2) = ((-2 ^ 24 : ℤ) : ℚ) * 2 ^ e := by push_cast; ring
      rwa [e2] at this

/-- Integers up to 2^24 are singles. -/
theorem isF_int {m : ℤ} (hm : |m| ≤ 2 ^ 24) : IsF (m : ℚ) := by
  have := isF_of (e := 0) hm (by norm_num)
  simpa using this

theorem isF_pow {e : ℤ} (he : -149 ≤ e) : IsF ((2 : ℚ) ^ e) := by
  have := isF_of (m := 1) (e := e) (by norm_num) he
  simpa using this

theorem mant_le (x : ℚ) : |rne (x / 2 ^ expo x)| ≤ 2 ^ 24 := by
  have h := lt_expo x
  have hp := pow_pos' (expo x)
  have hb : |x / 2 ^ expo x| < 2 ^ (24 : ℤ) := by
    rw [abs_div, abs_of_pos hp, div_lt_iff₀ hp, ← zpow_add₀ (by norm_num)]
    have : (24 : ℤ) + expo x = expo x + 24 := by ring
    rwa [this]
  have hb' := abs_lt.mp hb
  have e1 : (2 : ℚ) ^ (24 : ℤ) = ((2 ^ 24 : ℤ) : ℚ) := by norm_num
  rw [e1] at hb'
  rw [abs_le]
  constructor
  · exact le_rne (by push_cast at *; linarith [hb'.1])
  · exact rne_le (by linarith [hb'.2])

/-- A result of rounding is a single. -/
theorem isF_rnd (x : ℚ) : IsF (rnd x) := isF_of (mant_le x) (expo_ge x)

theorem rnd_rnd (x : ℚ) : rnd (rnd x) = rnd x := isF_rnd x

theorem rnd_nonneg {x : ℚ} (h : 0 ≤ x) : 0 ≤ rnd x := by
  unfold rnd
  have hp := pow_pos' (expo x)
  have : (0 : ℤ) ≤ rne (x / 2 ^ expo x) := le_rne (by push_cast; positivity)
  have : (0 : ℚ) ≤ rne (x / 2 ^ expo x) := by exact_mod_cast this
  positivity

theorem rnd_le_pow (x : ℚ) : rnd x ≤ 2 ^ (expo x + 24) := by
  have h := (abs_le.mp (mant_le x)).2
  unfold rnd
  rw [zpow_add₀ (by norm_num), mul_comm]
  refine mul_le_mul_of_nonneg_left ?_ (pow_pos' _).le
  have : ((rne (x / 2 ^ expo x) : ℤ) : ℚ) ≤ ((2 ^ 24 : ℤ) : ℚ) := by exact_mod_cast h
  push_cast at this
  norm_num at this ⊢
  exact this

theorem pow_le_rnd {x : ℚ} (hx : 0 < x) (h : -149 < expo x) : 2 ^ (expo x + 23) ≤ rnd x := by
  have h1 := expo_le_abs x h hx.ne'
  rw [abs_of_pos hx] at h1
  have hp := pow_pos' (expo x)
  have : (2 ^ 23 : ℤ) ≤ rne (x / 2 ^ expo x) := by
    apply le_rne
    rw [le_div_iff₀ hp]
    rw [zpow_add₀ (by norm_num)] at h1
    push_cast
    norm_num at h1 ⊢
    linarith
  unfold rnd
  rw [zpow_add₀ (by norm_num), mul_comm]
  refine mul_le_mul_of_nonneg_right ?_ hp.le
  have : ((2 ^ 23 : ℤ) : ℚ) ≤ ((rne (x / 2 ^ expo x) : ℤ) : ℚ) := by exact_mod_cast this
  push_cast at this
  norm_num at this ⊢
  exact this

theorem rnd_mono_pos {x y : ℚ} (hx : 0 < x) (h : x ≤ y) : rnd x ≤ rnd y := by
  have hy : 0 < y := lt_of_lt_of_le hx h
  have he : expo x ≤ expo y := expo_mono hx.ne' (by rw [abs_of_pos hx, abs_of_pos hy]; exact h)
  rcases eq_or_lt_of_le he with e | hl
  · unfold rnd
    rw [e]
    refine mul_le_mul_of_nonneg_right ?_ (pow_pos' _).le
    have := rne_mono (x := x / 2 ^ expo y) (y := y / 2 ^ expo y) (div_le_div_of_nonneg_right h (pow_pos' _).le)
    exact_mod_cast this
  · have h1 := rnd_le_pow x
    have h2 := pow_le_rnd hy (lt_of_le_of_lt (expo_ge x) hl)
    have h3 : (2 : ℚ) ^ (expo x + 24) ≤ 2 ^ (expo y + 23) := zpow_le_zpow_right₀ (by norm_num) (by omega)
    linarith

/-- Rounding is monotone. -/
theorem rnd_mono {x y : ℚ} (h : x ≤ y) : rnd x ≤ rnd y := by
  rcases lt_trichotomy x 0 with hx | rfl | hx
  · rcases lt_trichotomy y 0 with hy | rfl | hy
    · have := rnd_mono_pos (x := -y) (y := -x) (by linarith) (by linarith)
      rw [rnd_neg, rnd_neg] at this
      linarith
    · have := rnd_nonneg (x := -x) (by linarith)
      rw [rnd_neg] at this
      rw [rnd_zero]
      linarith
    · have h1 := rnd_nonneg (x := -x) (by linarith)
      rw [rnd_neg] at h1
      have h2 := rnd_nonneg hy.le
      linarith
  · rw [rnd_zero]; exact rnd_nonneg h
  · exact rnd_mono_pos hx h

theorem rnd_le {x y : ℚ} (h : x ≤ y) (hy : IsF y) : rnd x ≤ y := by
  have := rnd_mono h
  rwa [hy] at this

theorem le_rnd {x y : ℚ} (h : x ≤ y) (hx : IsF x) : x ≤ rnd y := by
  have := rnd_mono h
  rwa [hx] at this

theorem IsF.neg {x : ℚ} (h : IsF x) : IsF (-x) := by
  unfold IsF at *
  rw [rnd_neg, h]

/-- The rounding error is half a unit of the last place. -/
theorem rnd_err_ulp (x : ℚ) : |rnd x - x| ≤ 2 ^ expo x / 2 := by
  have hp := pow_pos' (expo x)
  have h := rne_close (x / 2 ^ expo x)
  have e : rnd x - x = ((rne (x / 2 ^ expo x) : ℚ) - x / 2 ^ expo x) * 2 ^ expo x := by
    unfold rnd
    rw [sub_mul, div_mul_cancel₀ _ hp.ne']
  rw [e, abs_mul, abs_of_pos hp]
  nlinarith

/-- Relative error 2^-24 in the normal range. -/
theorem rnd_err {x : ℚ} (h : 2 ^ (-126 : ℤ) ≤ |x|) : |rnd x - x| ≤ 2 ^ (-24 : ℤ) * |x| := by
  have hx : x ≠ 0 := by
    rintro rfl
    rw [abs_zero] at h
    exact absurd h (not_le.mpr (pow_pos' _))
  refine le_trans (rnd_err_ulp x) ?_
  have hlog : -126 ≤ Int.log 2 |x| := (Int.zpow_le_iff_le_log (by norm_num) (abs_pos.mpr hx)).mp (by exact_mod_cast h)
  have e : expo x = Int.log 2 |x| - 23 := max_eq_left (by omega)
  have h1 := Int.zpow_log_le_self (R := ℚ) (b := 2) (by norm_num) (abs_pos.mpr hx)
  rw [e]
  have : (2 : ℚ) ^ (Int.log 2 |x| - 23) / 2 = 2 ^ (-24 : ℤ) * 2 ^ Int.log 2 |x| := by
    rw [show Int.log 2 |x| - 23 = (-24 : ℤ) + Int.log 2 |x| + 1 by ring, zpow_add_one₀ (by norm_num), zpow_add₀ (by norm_num)]
    ring
  rw [this]
  exact mul_le_mul_of_nonneg_left (by exact_mod_cast h1) (pow_pos' _).le

/-- One rounding: relative error 2^-24 plus half the smallest single. -/
theorem rnd_err_all (q : ℚ) : |rnd q - q| ≤ 2 ^ (-24 : ℤ) * |q| + 2 ^ (-150 : ℤ) := by
  have hp := pow_pos' (-150)
  rcases le_or_gt (2 ^ (-126 : ℤ)) |q| with h | h
  · linarith [rnd_err h]
  · by_cases h0 : q = 0
    · subst h0; rw [rnd_zero, sub_self, abs_zero, mul_zero, zero_add]; exact hp.le
    · have he : expo q ≤ -149 := expo_le_of_lt (by norm_num) (by
        refine lt_of_lt_of_le h (zpow_le_zpow_right₀ (by norm_num) (by norm_num))) h0
      have h2 := rnd_err_ulp q
      have h3 : (2 : ℚ) ^ expo q ≤ 2 ^ (-149 : ℤ) := zpow_le_zpow_right₀ (by norm_num) he
      have h4 : (2 : ℚ) ^ (-149 : ℤ) = 2 * 2 ^ (-150 : ℤ) := by norm_num
      have h5 : 0 ≤ 2 ^ (-24 : ℤ) * |q| := mul_nonneg (pow_pos' _).le (abs_nonneg _)
      linarith

theorem rnd_abs (x : ℚ) : |rnd x| = rnd |x| := by
  rcases le_total 0 x with h | h
  · rw [abs_of_nonneg h, abs_of_nonneg (rnd_nonneg h)]
  · have := rnd_nonneg (x := -x) (by linarith)
    rw [abs_of_nonpos h, rnd_neg, abs_of_nonpos]
    rw [rnd_neg] at this
    linarith

/-- Every single is a double. -/
theorem IsF.double {x : ℚ} (h : IsF x) : F64.IsF x := by
  have e : x = (rne (x / 2 ^ expo x) : ℚ) * 2 ^ expo x := h.symm
  rw [e]
  exact F64.isF_of (le_trans (mant_le x) (by norm_num)) (le_trans (by norm_num) (expo_ge x))

/-- Conversion of a double to single precision (`np.array(a, dtype=np.float32)`, assignment into a float32 array). -/
def cast : Num → Num
  | .nan => .nan
  | .inf s => .inf s
  | .fin q => if 2 ^ 128 ≤ |rnd q| then .inf (decide (q < 0)) else .fin (rnd q)

end Pyhipp.F32
