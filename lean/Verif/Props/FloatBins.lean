import Verif.Model.FloatBins
/-
C121: EqualSpaceBins.locate in double precision.
-/
namespace Pyhipp.FloatBins
open Pyhipp F64

/-- Specification: bins made from finite doubles `b < e` without overflow or underflow: at most 2^50 bins, together at most 2^1023 wide, each
at least 2^-1021 wide. -/
structure Made (B : EqBins) (b e : ℚ) : Prop where
  made : mk (.fin b) (.fin e) B.n = .ok B
  fb : IsF b
  fe : IsF e
  n_le : B.n ≤ 2 ^ 50
  wide : e - b ≤ 2 ^ 1023
  normal : B.n * 2 ^ (-1021 : ℤ) ≤ e - b

/-- The exact width of a bin. -/
def width (B : EqBins) (b e : ℚ) : ℚ := (e - b) / B.n

/-- The exact position of `x` in units of bins. -/
def truePos (B : EqBins) (b e x : ℚ) : ℚ := (x - b) / width B b e

/-- `x` is within 2^61 bins of the lower edge, on either side, and not absurdly far. -/
def Near (B : EqBins) (b e x : ℚ) : Prop := |x - b| ≤ 2 ^ 61 * width B b e ∧ |x - b| ≤ 2 ^ 1023

/-- The computed step. -/
def stepQ (B : EqBins) (b e : ℚ) : ℚ := rnd (rnd (e - b) / B.n)

variable {B : EqBins} {b e : ℚ}

theorem Made.lt (h : Made B b e) : b < e := by
  have := h.made
  unfold FloatBins.mk at this
  simp only [bind, Except.bind, pyAssert, Num.lt] at this
  by_contra hc
  simp [hc] at this

theorem Made.n_pos (h : Made B b e) : 0 < B.n := by
  have := h.made
  unfold FloatBins.mk at this
  simp only [bind, Except.bind, pyAssert, Num.lt] at this
  by_contra hc
  simp [h.lt, hc] at this

theorem Made.nq (h : Made B b e) : (0 : ℚ) < B.n := by exact_mod_cast h.n_pos

theorem Made.n_lt (h : Made B b e) : (B.n : ℚ) ≤ 2 ^ 50 := by exact_mod_cast h.n_le

theorem Made.nZ (h : Made B b e) : |(B.n : ℤ)| ≤ 2 ^ 53 := by
  have h1 := h.n_le
  rw [abs_of_nonneg (by omega)]
  norm_num at h1 ⊢
  omega

theorem Made.nF (h : Made B b e) : IsF (B.n : ℚ) := by
  have := isF_int (m := B.n) h.nZ
  simpa using this

theorem Made.width_pos (h : Made B b e) : 0 < width B b e := div_pos (by linarith [h.lt]) h.nq

theorem pow1023 : IsF ((2 : ℚ) ^ 1023) := by
  have := isF_pow (e := 1023) (by norm_num)
  exact_mod_cast this

theorem lt1024 : (2 : ℚ) ^ 1023 < 2 ^ 1024 := pow_lt_pow_right₀ (by norm_num) (by norm_num)

theorem Made.span_pos (h : Made B b e) : 0 < rnd (e - b) := rnd_sub_pos h.fe h.fb h.lt

theorem Made.span_le (h : Made B b e) : rnd (e - b) ≤ 2 ^ 1023 := rnd_le h.wide pow1023

theorem Made.quot_normal (h : Made B b e) : 2 ^ (-1021 : ℤ) ≤ rnd (e - b) / B.n := by
  rw [le_div_iff₀ h.nq, mul_comm]
  refine le_rnd h.normal ?_
  have := isF_of (m := B.n) (e := -1021) h.nZ (by norm_num)
  simpa using this

theorem Made.step_ge (h : Made B b e) : 2 ^ (-1021 : ℤ) ≤ stepQ B b e := le_rnd h.quot_normal (isF_pow (by norm_num))

theorem Made.step_pos (h : Made B b e) : 0 < stepQ B b e := lt_of_lt_of_le (pow_pos' _) h.step_ge

theorem Made.step_le (h : Made B b e) : stepQ B b e ≤ rnd (e - b) := by
  refine rnd_le ?_ (isF_rnd _)
  have : (1 : ℚ) ≤ B.n := by exact_mod_cast h.n_pos
  exact div_le_self h.span_pos.le this

theorem Made.eq (h : Made B b e) : B.b = .fin b ∧ B.e = .fin e ∧ B.step = .fin (stepQ B b e) := by
  have hm := h.made
  unfold FloatBins.mk at hm
  have h1 : pyAssert (Num.lt (.fin b) (.fin e)) = .ok () := by simp [pyAssert, Num.lt, h.lt]
  have h2 : pyAssert (decide (0 < B.n)) = .ok () := by simp [pyAssert, h.n_pos]
  simp only [bind, Except.bind, h1, h2, pure, Except.pure] at hm
  have hB := Except.ok.inj hm
  have hs : Num.sub (.fin e) (.fin b) = .fin (rnd (e - b)) := by
    simp only [Num.sub, Num.neg, Num.add, ← sub_eq_add_neg]
    refine ofQ_fin ?_
    rw [abs_of_pos h.span_pos]
    exact lt_of_le_of_lt h.span_le lt1024
  have hn : ofQ (B.n : ℚ) = .fin B.n := by
    have hf : rnd (B.n : ℚ) = B.n := h.nF
    rw [ofQ_fin, hf]
    rw [hf, abs_of_pos h.nq]
    refine lt_of_le_of_lt h.n_lt ?_
    exact pow_lt_pow_right₀ (by norm_num) (by norm_num)
  have hd : Num.div (.fin (rnd (e - b))) (.fin B.n) = .fin (stepQ B b e) := by
    simp only [Num.div, if_neg h.nq.ne']
    refine ofQ_fin ?_
    have : 0 < rnd (rnd (e - b) / B.n) := h.step_pos
    rw [abs_of_pos this]
    exact lt_of_le_of_lt (le_trans h.step_le h.span_le) lt1024
  rw [hs, hn, hd] at hB
  have h3 := congrArg EqBins.b hB
  have h4 := congrArg EqBins.e hB
  have h5 := congrArg EqBins.step hB
  exact ⟨h3.symm, h4.symm, h5.symm⟩

/-! ### Accuracy of the position -/

theorem rel_bounds {x y : ℚ} (h : |y - x| ≤ 2 ^ (-53 : ℤ) * |x|) (hx : 0 ≤ x) : x * (1 - 2 ^ (-53 : ℤ)) ≤ y ∧ y ≤ x * (1 + 2 ^ (-53 : ℤ)) := by
  rw [abs_of_nonneg hx] at h
  have := abs_le.mp h
  constructor <;> linarith [this.1, this.2]

theorem step_bounds (h : Made B b e) : width B b e * (1 - 2 ^ (-53 : ℤ)) ^ 2 ≤ stepQ B b e ∧ stepQ B b e ≤ width B b e * (1 + 2 ^ (-53 : ℤ)) ^ 2 := by
  have heb : 0 < e - b := by linarith [h.lt]
  have hn := h.nq
  obtain ⟨s1, s2⟩ := rel_bounds (rnd_sub_err h.fe h.fb) heb.le
  have hq0 : 0 ≤ rnd (e - b) / B.n := div_nonneg h.span_pos.le hn.le
  have hqn : 2 ^ (-1022 : ℤ) ≤ |rnd (e - b) / B.n| := by
    rw [abs_of_nonneg hq0]
    exact le_trans (zpow_le_zpow_right₀ (by norm_num) (by norm_num)) h.quot_normal
  obtain ⟨t1, t2⟩ := rel_bounds (rnd_err hqn) hq0
  have u1 : width B b e * (1 - 2 ^ (-53 : ℤ)) ≤ rnd (e - b) / B.n := by
    unfold width
    rw [le_div_iff₀ hn]
    have : (e - b) / B.n * (1 - 2 ^ (-53 : ℤ)) * B.n = (e - b) * (1 - 2 ^ (-53 : ℤ)) := by field_simp
    rw [this]; exact s1
  have u2 : rnd (e - b) / B.n ≤ width B b e * (1 + 2 ^ (-53 : ℤ)) := by
    unfold width
    rw [div_le_iff₀ hn]
    have : (e - b) / B.n * (1 + 2 ^ (-53 : ℤ)) * B.n = (e - b) * (1 + 2 ^ (-53 : ℤ)) := by field_simp
    rw [this]; exact s2
  have c1 : (0 : ℚ) ≤ 1 - 2 ^ (-53 : ℤ) := by norm_num
  have c2 : (0 : ℚ) ≤ 1 + 2 ^ (-53 : ℤ) := by norm_num
  unfold stepQ
  constructor
  · refine le_trans ?_ t1
    rw [pow_two, ← mul_assoc]
    exact mul_le_mul_of_nonneg_right u1 c1
  · refine le_trans t2 ?_
    rw [pow_two, ← mul_assoc]
    exact mul_le_mul_of_nonneg_right u2 c2

/-- The computed quotient, before its own rounding, is within a factor 1 ± 2^-51 of the true position. -/
theorem quotient_bounds (h : Made B b e) {x : ℚ} (fx : IsF x) (hbx : b ≤ x) :
    truePos B b e x * (1 - 2 ^ (-51 : ℤ)) ≤ rnd (x - b) / stepQ B b e ∧ rnd (x - b) / stepQ B b e ≤ truePos B b e x * (1 + 2 ^ (-51 : ℤ)) := by
  have hs := h.step_pos
  have hw := h.width_pos
  have hd : 0 ≤ x - b := by linarith
  obtain ⟨d1, d2⟩ := rel_bounds (rnd_sub_err fx h.fb) hd
  obtain ⟨t1, t2⟩ := step_bounds h
  have ht : truePos B b e x * width B b e = x - b := by unfold truePos; field_simp
  have ht0 : 0 ≤ truePos B b e x := div_nonneg hd hw.le
  constructor
  · rw [le_div_iff₀ hs]
    refine le_trans (mul_le_mul_of_nonneg_left t2 (mul_nonneg ht0 (by norm_num))) ?_
    refine le_trans ?_ d1
    rw [← ht]
    have : truePos B b e x * (1 - 2 ^ (-51 : ℤ)) * (width B b e * (1 + 2 ^ (-53 : ℤ)) ^ 2) =
      (truePos B b e x * width B b e) * ((1 - 2 ^ (-51 : ℤ)) * (1 + 2 ^ (-53 : ℤ)) ^ 2) := by ring
    rw [this]
    exact mul_le_mul_of_nonneg_left (by norm_num) (by rw [ht]; exact hd)
  · rw [div_le_iff₀ hs]
    refine le_trans ?_ (mul_le_mul_of_nonneg_left t1 (mul_nonneg ht0 (by norm_num)))
    refine le_trans d2 ?_
    rw [← ht]
    have : truePos B b e x * (1 + 2 ^ (-51 : ℤ)) * (width B b e * (1 - 2 ^ (-53 : ℤ)) ^ 2) =
      (truePos B b e x * width B b e) * ((1 + 2 ^ (-51 : ℤ)) * (1 - 2 ^ (-53 : ℤ)) ^ 2) := by ring
    rw [this]
    exact mul_le_mul_of_nonneg_left (by norm_num) (by rw [ht]; exact hd)

/-! ### From the position to the index -/

/-- The position of `x` as computed. -/
def posQ (B : EqBins) (b e x : ℚ) : ℚ := rnd (rnd (x - b) / stepQ B b e)

theorem posQ_mono (h : Made B b e) {x y : ℚ} (hxy : x ≤ y) : posQ B b e x ≤ posQ B b e y :=
  rnd_mono (div_le_div_of_nonneg_right (rnd_mono (by linarith)) h.step_pos.le)

theorem near_pos (h : Made B b e) {x : ℚ} (hx : Near B b e x) : |posQ B b e x| ≤ 2 ^ 62 := by
  have hs := h.step_pos
  have hw := h.width_pos
  obtain ⟨t1, -⟩ := step_bounds h
  have hsw : width B b e ≤ 2 * stepQ B b e := by
    have : width B b e * (1 / 2) ≤ width B b e * (1 - 2 ^ (-53 : ℤ)) ^ 2 := mul_le_mul_of_nonneg_left (by norm_num) hw.le
    have := le_trans this t1
    linarith
  have hstF : IsF (stepQ B b e) := isF_rnd _
  have hF : IsF (2 ^ 62 * stepQ B b e) := by
    obtain ⟨m, hm, e1⟩ := hstF.form
    have := isF_of (m := m) (e := expo (stepQ B b e) + 62) hm (by have := expo_ge (stepQ B b e); omega)
    rw [zpow_add₀ (by norm_num)] at this
    have e2 : (m : ℚ) * (2 ^ expo (stepQ B b e) * 2 ^ (62 : ℤ)) = 2 ^ 62 * stepQ B b e := by
      conv_rhs => rw [e1]
      norm_num
      ring
    rwa [e2] at this
  have h1 : |rnd (x - b)| ≤ 2 ^ 62 * stepQ B b e := by
    rw [rnd_abs]
    refine rnd_le (le_trans hx.1 ?_) hF
    nlinarith
  unfold posQ
  rw [rnd_abs, abs_div, abs_of_pos hs]
  have : IsF ((2 : ℚ) ^ 62) := by
    have := isF_pow (e := 62) (by norm_num)
    exact_mod_cast this
  refine rnd_le ?_ this
  rw [div_le_iff₀ hs]
  exact h1

/-- `locate` of an ordinary argument. -/
theorem locate_near (h : Made B b e) (bad : Num → ℤ) {x : ℚ} (hx : Near B b e x) :
    B.locate bad (.fin x) = max (-1) (min ⌊posQ B b e x⌋ B.n) := by
  have h1 : |rnd (x - b)| < 2 ^ 1024 := by
    rw [rnd_abs]
    exact lt_of_le_of_lt (rnd_le hx.2 pow1023) lt1024
  have h2 : |posQ B b e x| < 2 ^ 63 := lt_of_le_of_lt (near_pos h hx) (by norm_num)
  have hp : B.pos (.fin x) = .fin (posQ B b e x) := by
    obtain ⟨e1, -, e3⟩ := h.eq
    unfold EqBins.pos
    rw [e1, e3]
    simp only [Num.sub, Num.neg, Num.add, ← sub_eq_add_neg]
    rw [ofQ_fin h1]
    simp only [Num.div, if_neg h.step_pos.ne']
    exact ofQ_fin (lt_trans h2 (pow_lt_pow_right₀ (by norm_num) (by norm_num)))
  have h2' := abs_lt.mp h2
  unfold EqBins.locate
  rw [hp]
  simp only [Num.floor, Num.toInt64]
  generalize posQ B b e x = q at *
  have l1 : (-2 ^ 63 : ℤ) ≤ ⌊q⌋ := by rw [Int.le_floor]; push_cast; linarith
  have l2 : ⌊q⌋ < (2 ^ 63 : ℤ) := by rw [Int.floor_lt]; push_cast; linarith
  have l1' : (-2 ^ 63 : ℚ) ≤ (⌊q⌋ : ℚ) := by exact_mod_cast l1
  have l2' : (⌊q⌋ : ℚ) < 2 ^ 63 := by exact_mod_cast l2
  rw [if_pos ⟨l1', l2'⟩]
  have : (if (0 : ℚ) ≤ ((⌊q⌋ : ℤ) : ℚ) then ⌊((⌊q⌋ : ℤ) : ℚ)⌋ else ⌈((⌊q⌋ : ℤ) : ℚ)⌉) = ⌊q⌋ := by
    split_ifs <;> simp
  rw [this]

/-- C121: whatever the argument - NaN and infinities included - and whatever the machine does with numbers that do not fit, the result of
`locate` is in [-1, n_bins] and that of `locate_bound` is a valid bin. -/
theorem C121_range (B : EqBins) (hn : 0 < B.n) (bad : Num → ℤ) (x : Num) :
    -1 ≤ B.locate bad x ∧ B.locate bad x ≤ B.n ∧ 0 ≤ B.locateBound bad x ∧ B.locateBound bad x < B.n := by
  unfold EqBins.locateBound EqBins.locate
  omega

/-- C121: `locate` is monotone: a larger number is never put into a lower bin, in spite of rounding. -/
theorem C121_monotone (h : Made B b e) (bad : Num → ℤ) {x y : ℚ} (hxy : x ≤ y) (hx : Near B b e x) (hy : Near B b e y) :
    B.locate bad (.fin x) ≤ B.locate bad (.fin y) := by
  rw [locate_near h bad hx, locate_near h bad hy]
  have := Int.floor_le_floor (posQ_mono h hxy)
  omega

/-- C121: the lower edge is exact: it is in bin 0; no number above it is reported as below the bins; every number below it (by at least 2^-1073
bins) is. -/
theorem C121_lower (h : Made B b e) (bad : Num → ℤ) {x : ℚ} (fx : IsF x) (hx : Near B b e x) :
    B.locate bad (.fin b) = 0 ∧ (b ≤ x → 0 ≤ B.locate bad (.fin x)) ∧
    (2 ^ (-1073 : ℤ) * width B b e ≤ b - x → B.locate bad (.fin x) = -1) := by
  have hs := h.step_pos
  have hw := h.width_pos
  refine ⟨?_, ?_, ?_⟩
  · have hb : Near B b e b := by unfold Near; rw [sub_self, abs_zero]; constructor <;> positivity
    rw [locate_near h bad hb]
    have : posQ B b e b = 0 := by simp [posQ]
    rw [this]
    simp
  · intro hle
    rw [locate_near h bad hx]
    have : 0 ≤ posQ B b e x := rnd_nonneg (div_nonneg (rnd_nonneg (by linarith)) hs.le)
    have := Int.floor_nonneg.mpr this
    omega
  · intro hd
    rw [locate_near h bad hx]
    have hbx : 0 ≤ b - x := le_trans (mul_nonneg (pow_pos' _).le hw.le) hd
    obtain ⟨d1, -⟩ := rel_bounds (rnd_sub_err h.fb fx) hbx
    obtain ⟨-, t2⟩ := step_bounds h
    have h2 : 2 ^ (-1074 : ℤ) ≤ rnd (b - x) / stepQ B b e := by
      rw [le_div_iff₀ hs]
      have k1 : stepQ B b e ≤ width B b e * (3 / 2) := le_trans t2 (mul_le_mul_of_nonneg_left (by norm_num) hw.le)
      have k2 : (b - x) * (3 / 4) ≤ rnd (b - x) := le_trans (mul_le_mul_of_nonneg_left (by norm_num) hbx) d1
      have k3 : (2 : ℚ) ^ (-1073 : ℤ) = 2 * 2 ^ (-1074 : ℤ) := by
        rw [show (-1073 : ℤ) = -1074 + 1 by norm_num, zpow_add_one₀ (by norm_num), mul_comm]
      rw [k3] at hd
      have k4 : 2 ^ (-1074 : ℤ) * stepQ B b e ≤ 2 ^ (-1074 : ℤ) * (width B b e * (3 / 2)) := mul_le_mul_of_nonneg_left k1 (pow_pos' _).le
      linarith
    have h3 := le_rnd h2 (isF_pow (le_refl _))
    have hneg : posQ B b e x < 0 := by
      unfold posQ
      rw [← neg_sub, rnd_neg, neg_div, rnd_neg]
      have := pow_pos' (-1074)
      linarith
    have : ⌊posQ B b e x⌋ < 0 := by rw [Int.floor_lt]; exact_mod_cast hneg
    omega

/-- The computed position is within a factor 1 ± 2^-50 of the true one (if that is at least 1/4). -/
theorem pos_bounds (h : Made B b e) {x : ℚ} (fx : IsF x) (hbx : b ≤ x) :
    (1 / 4 ≤ truePos B b e x → truePos B b e x * (1 - 2 ^ (-50 : ℤ)) ≤ posQ B b e x) ∧
    (1 / 4 ≤ truePos B b e x → posQ B b e x ≤ truePos B b e x * (1 + 2 ^ (-50 : ℤ))) ∧ (truePos B b e x ≤ 1 / 4 → posQ B b e x ≤ 1 / 2) := by
  obtain ⟨q1, q2⟩ := quotient_bounds h fx hbx
  have ht0 : 0 ≤ truePos B b e x := div_nonneg (by linarith) h.width_pos.le
  unfold posQ
  generalize rnd (x - b) / stepQ B b e = q at *
  have hq0 : 0 ≤ q := le_trans (mul_nonneg ht0 (by norm_num)) q1
  refine ⟨fun ht => ?_, fun ht => ?_, fun ht => ?_⟩
  · have hqn : 2 ^ (-1022 : ℤ) ≤ |q| := by
      rw [abs_of_nonneg hq0]
      have : (1 / 8 : ℚ) ≤ q := le_trans (le_trans (by norm_num) (mul_le_mul_of_nonneg_right ht (by norm_num))) q1
      refine le_trans ?_ this
      have : (2 : ℚ) ^ (-1022 : ℤ) ≤ 2 ^ (-3 : ℤ) := zpow_le_zpow_right₀ (by norm_num) (by norm_num)
      norm_num at this ⊢
      exact this
    obtain ⟨r1, r2⟩ := rel_bounds (rnd_err hqn) hq0
    refine le_trans ?_ r1
    refine le_trans ?_ (mul_le_mul_of_nonneg_right q1 (by norm_num))
    rw [mul_assoc]
    exact mul_le_mul_of_nonneg_left (by norm_num) ht0
  · have hqn : 2 ^ (-1022 : ℤ) ≤ |q| := by
      rw [abs_of_nonneg hq0]
      have : (1 / 8 : ℚ) ≤ q := le_trans (le_trans (by norm_num) (mul_le_mul_of_nonneg_right ht (by norm_num))) q1
      refine le_trans ?_ this
      have : (2 : ℚ) ^ (-1022 : ℤ) ≤ 2 ^ (-3 : ℤ) := zpow_le_zpow_right₀ (by norm_num) (by norm_num)
      norm_num at this ⊢
      exact this
    obtain ⟨r1, r2⟩ := rel_bounds (rnd_err hqn) hq0
    refine le_trans r2 ?_
    refine le_trans (mul_le_mul_of_nonneg_right q2 (by norm_num)) ?_
    rw [mul_assoc]
    exact mul_le_mul_of_nonneg_left (by norm_num) ht0
  · have : q ≤ 1 / 2 := le_trans q2 (le_trans (mul_le_mul_of_nonneg_right ht (by norm_num)) (by norm_num))
    refine rnd_le this ?_
    have := isF_pow (e := -1) (by norm_num)
    norm_num at this ⊢
    exact this

/-- C121: away from the edges the bin is the right one: if the exact position of `x` is in bin `k`, not closer to an edge than a fraction 2^-50 of
the position of that edge, then `locate` gives `k`; if it is beyond the upper edge by that fraction, `n_bins`. -/
theorem C121_interior (h : Made B b e) (bad : Num → ℤ) {x : ℚ} (fx : IsF x) (hx : Near B b e x) (hbx : b ≤ x) :
    (∀ k : ℕ, k < B.n → k * (1 + 2 ^ (-49 : ℤ)) ≤ truePos B b e x → truePos B b e x ≤ (k + 1) * (1 - 2 ^ (-49 : ℤ)) → B.locate bad (.fin x) = k) ∧
    (B.n * (1 + 2 ^ (-49 : ℤ)) ≤ truePos B b e x → B.locate bad (.fin x) = B.n) := by
  obtain ⟨p1, p2, p3⟩ := pos_bounds h fx hbx
  have ht0 : 0 ≤ truePos B b e x := div_nonneg (by linarith) h.width_pos.le
  have hp0 : 0 ≤ posQ B b e x := rnd_nonneg (div_nonneg (rnd_nonneg (by linarith)) h.step_pos.le)
  have low : ∀ k : ℕ, k * (1 + 2 ^ (-49 : ℤ)) ≤ truePos B b e x → (k : ℤ) ≤ ⌊posQ B b e x⌋ := by
    intro k hk
    rw [Int.le_floor]
    push_cast
    rcases Nat.eq_zero_or_pos k with rfl | hkp
    · simpa using hp0
    · have hk1 : (1 : ℚ) ≤ k := by exact_mod_cast hkp
      have h4 : 1 / 4 ≤ truePos B b e x := by
        refine le_trans ?_ hk
        have : (1 : ℚ) * 1 ≤ k * (1 + 2 ^ (-49 : ℤ)) := mul_le_mul hk1 (by norm_num) (by norm_num) (by linarith)
        linarith
      refine le_trans ?_ (p1 h4)
      refine le_trans ?_ (mul_le_mul_of_nonneg_right hk (by norm_num))
      rw [mul_assoc]
      have : (k : ℚ) * 1 ≤ k * ((1 + 2 ^ (-49 : ℤ)) * (1 - 2 ^ (-50 : ℤ))) := mul_le_mul_of_nonneg_left (by norm_num) (by linarith)
      linarith
  constructor
  · intro k hkn h1 h2
    rw [locate_near h bad hx]
    have l1 := low k h1
    have l2 : ⌊posQ B b e x⌋ < (k : ℤ) + 1 := by
      rw [Int.floor_lt]
      push_cast
      have hk1 : (0 : ℚ) ≤ k := by positivity
      rcases le_or_gt (1 / 4) (truePos B b e x) with h4 | h4
      · refine lt_of_le_of_lt (p2 h4) ?_
        refine lt_of_le_of_lt (mul_le_mul_of_nonneg_right h2 (by norm_num)) ?_
        rw [mul_assoc]
        have : ((k : ℚ) + 1) * ((1 - 2 ^ (-49 : ℤ)) * (1 + 2 ^ (-50 : ℤ))) < (k + 1) * 1 := mul_lt_mul_of_pos_left (by norm_num) (by linarith)
        linarith
      · have := p3 h4.le
        linarith
    omega
  · intro hn
    rw [locate_near h bad hx]
    have := low B.n hn
    omega

/-- C121: at the upper edge itself the result is `n_bins`, as documented, or the last bin. -/
theorem C121_upper (h : Made B b e) (bad : Num → ℤ) : B.locate bad (.fin e) = B.n ∨ B.locate bad (.fin e) = B.n - 1 := by
  have heb : 0 < e - b := by linarith [h.lt]
  have hn1 : (1 : ℚ) ≤ B.n := by exact_mod_cast h.n_pos
  have hx : Near B b e e := by
    refine ⟨?_, by rw [abs_of_pos heb]; exact h.wide⟩
    rw [abs_of_pos heb]
    unfold width
    rw [mul_div_assoc', le_div_iff₀ h.nq, mul_comm]
    exact mul_le_mul_of_nonneg_right (le_trans h.n_lt (by norm_num)) heb.le
  have ht : truePos B b e e = B.n := by
    unfold truePos width
    have := h.nq.ne'
    have := heb.ne'
    field_simp
  obtain ⟨p1, -, -⟩ := pos_bounds h h.fe h.lt.le
  rw [ht] at p1
  have p1 := p1 (by linarith)
  rw [locate_near h bad hx]
  have : ((B.n : ℤ) - 1) ≤ ⌊posQ B b e e⌋ := by
    rw [Int.le_floor]
    push_cast
    refine le_trans ?_ p1
    have : (B.n : ℚ) * 2 ^ (-50 : ℤ) ≤ 2 ^ 50 * 2 ^ (-50 : ℤ) := mul_le_mul_of_nonneg_right h.n_lt (by norm_num)
    norm_num at this ⊢
    linarith
  omega

/-- C121: if the number of bins is a power of two the upper edge is exact. -/
theorem C121_upper_pow2 (h : Made B b e) (bad : Num → ℤ) (k : ℕ) (hk : B.n = 2 ^ k) : B.locate bad (.fin e) = B.n := by
  have heb : 0 < e - b := by linarith [h.lt]
  have hx : Near B b e e := by
    refine ⟨?_, by rw [abs_of_pos heb]; exact h.wide⟩
    rw [abs_of_pos heb]
    unfold width
    rw [mul_div_assoc', le_div_iff₀ h.nq, mul_comm]
    exact mul_le_mul_of_nonneg_right (le_trans h.n_lt (by norm_num)) heb.le
  have hstep : stepQ B b e = rnd (e - b) / B.n := by
    show rnd _ = _
    have hs := isF_rnd (e - b)
    have hq := h.quot_normal
    have hpow : (B.n : ℚ) = 2 ^ (k : ℤ) := by rw [hk]; push_cast; simp
    obtain ⟨m, hm, e1⟩ := hs.form
    have hval : rnd (e - b) / B.n = m * 2 ^ (expo (rnd (e - b)) - k) := by
      rw [hpow]
      conv_lhs => rw [e1]
      rw [zpow_sub₀ (by norm_num), mul_div_assoc]
    rw [hval]
    refine isF_of hm ?_
    have h0 : rnd (e - b) ≠ 0 := h.span_pos.ne'
    have h1 := lt_expo (rnd (e - b))
    rw [abs_of_pos h.span_pos] at h1
    have h2 : (2 : ℚ) ^ (-1021 + (k : ℤ)) < 2 ^ (expo (rnd (e - b)) + 53) := by
      refine lt_of_le_of_lt ?_ h1
      rw [le_div_iff₀ h.nq, hpow, ← zpow_add₀ (by norm_num)] at hq
      exact hq
    have := (zpow_lt_zpow_iff_right₀ (by norm_num : (1 : ℚ) < 2)).mp h2
    omega
  have hp : posQ B b e e = B.n := by
    unfold posQ
    rw [hstep]
    have : rnd (e - b) / (rnd (e - b) / B.n) = B.n := by
      have := h.span_pos.ne'
      have := h.nq.ne'
      field_simp
    rw [this]
    exact h.nF
  rw [locate_near h bad hx, hp]
  have : ⌊((B.n : ℕ) : ℚ)⌋ = (B.n : ℤ) := by simp
  rw [this]
  omega

/-! ### What goes wrong -/

/-- `EqualSpaceBins((0, 100), 11)` and `EqualSpaceBins((0, 1), 9)`. -/
def bins100 : EqBins := { b := .fin 0, e := .fin 100, n := 11, span := Num.sub (.fin 100) (.fin 0), step := Num.div (Num.sub (.fin 100) (.fin 0)) (ofQ 11) }
def bins1 : EqBins := { b := .fin 0, e := .fin 1, n := 9, span := Num.sub (.fin 1) (.fin 0), step := Num.div (Num.sub (.fin 1) (.fin 0)) (ofQ 9) }
def bins10 : EqBins := { b := .fin 0, e := .fin 10, n := 10, span := Num.sub (.fin 10) (.fin 0), step := Num.div (Num.sub (.fin 10) (.fin 0)) (ofQ 10) }

theorem bins100_made : Made bins100 0 100 := by
  refine ⟨rfl, by decide +kernel, by decide +kernel, by decide, ?_, ?_⟩
  · exact le_trans (by norm_num : (100 : ℚ) - 0 ≤ 2 ^ 7) (pow_le_pow_right₀ (by norm_num) (by norm_num))
  · have : (2 : ℚ) ^ (-1021 : ℤ) ≤ 2 ^ (0 : ℤ) := zpow_le_zpow_right₀ (by norm_num) (by norm_num)
    rw [zpow_zero] at this
    have e : ((bins100.n : ℕ) : ℚ) = 11 := by norm_num [bins100]
    rw [e]
    linarith

/-- C121 (defect): the documentation promises `n_bins` for every x ≥ x_edges[-1]; with 11 bins on (0, 100) the upper edge 100 itself is
located in the last bin 10 (C125_edge_defect: `BinnedData.add` counts it there). -/
theorem C121_upper_defect :
    mk (.fin 0) (.fin 100) 11 = .ok bins100 ∧ bins100.edge 11 = .fin 100 ∧ (∀ bad, bins100.locate bad (.fin 100) = 10) := by
  refine ⟨rfl, rfl, fun bad => ?_⟩
  have hx : Near bins100 0 100 100 := by
    refine ⟨?_, le_trans (by norm_num : |(100 : ℚ) - 0| ≤ 2 ^ 7) (pow_le_pow_right₀ (by norm_num) (by norm_num))⟩
    unfold width
    norm_num [bins100]
  rw [locate_near bins100_made bad hx]
  decide +kernel

/-- C121 (defect): `locate` disagrees with `x_edges`: with 9 bins on (0, 1) the edge x_edges[7] is located in bin 6 although bin 6 ends there. -/
theorem C121_edge_defect :
    mk (.fin 0) (.fin 1) 9 = .ok bins1 ∧ bins1.locate Num.x86 (bins1.edge 7) = 6 ∧ bins1.locate Num.x86 (bins1.edge 6) = 6 := by
  refine ⟨rfl, by decide +kernel, by decide +kernel⟩

/-- C121 (defect, x86-64): beyond 2^63 bins, and at +∞, the conversion to an integer fails silently and `locate` answers -1 ("below the bins");
`locate_bound` then gives the lowest bin.  NaN is located there, too. -/
theorem C121_huge_defect :
    mk (.fin 0) (.fin 10) 10 = .ok bins10 ∧ bins10.locate Num.x86 (.fin (2 ^ 64)) = -1 ∧ bins10.locate Num.x86 (.inf false) = -1 ∧
    bins10.locateBound Num.x86 (.fin (2 ^ 64)) = 0 ∧ bins10.locateBound Num.x86 (.inf false) = 0 ∧ bins10.locate Num.x86 .nan = -1 := by
  refine ⟨rfl, by decide +kernel, by decide +kernel, by decide +kernel, by decide +kernel, by decide +kernel⟩

/-- C121 (defect): a negative number closer to the lower edge than the smallest double counted in bins is located in bin 0. -/
theorem C121_tiny_defect : bins100.locate Num.x86 (.fin (-2 ^ (-1074 : ℤ))) = 0 := by decide +kernel

theorem rne_nearest (z : ℚ) (k : ℤ) : |(rne z : ℚ) - z| ≤ |(k : ℚ) - z| := by
  have h0 := Int.floor_le z
  have h1 := Int.lt_floor_add_one z
  have key : ∀ j : ℤ, (j : ℚ) = ⌊z⌋ ∨ (j : ℚ) = ⌊z⌋ + 1 → (|(j : ℚ) - z| ≤ z - ⌊z⌋ → |(j : ℚ) - z| ≤ ⌊z⌋ + 1 - z → |(j : ℚ) - z| ≤ |(k : ℚ) - z|) := by
    intro j _ ha hb
    rcases le_or_gt k ⌊z⌋ with h | h
    · have : (k : ℚ) ≤ ⌊z⌋ := by exact_mod_cast h
      rw [abs_of_nonpos (show (k : ℚ) - z ≤ 0 by linarith)]
      linarith
    · have : (⌊z⌋ : ℚ) + 1 ≤ k := by exact_mod_cast h
      rw [abs_of_nonneg (show 0 ≤ (k : ℚ) - z by linarith)]
      linarith
  unfold rne
  split_ifs with a b c
  · refine key _ (.inl rfl) ?_ ?_ <;> (rw [abs_of_nonpos (by linarith)]; try linarith)
  · refine key _ (.inr (by push_cast; rfl)) ?_ ?_ <;> (push_cast; rw [abs_of_nonneg (by linarith)]; try linarith)
  · refine key _ (.inl rfl) ?_ ?_ <;> (rw [abs_of_nonpos (by linarith)]; try linarith)
  · refine key _ (.inr (by push_cast; rfl)) ?_ ?_ <;> (push_cast; rw [abs_of_nonneg (by linarith)]; try linarith)

theorem rnd_near_mult (x : ℚ) (k : ℤ) : |rnd x - x| ≤ |k * 2 ^ expo x - x| := by
  have hp := pow_pos' (expo x)
  have h := rne_nearest (x / 2 ^ expo x) k
  have e : ∀ j : ℤ, |(j : ℚ) * 2 ^ expo x - x| = |(j : ℚ) - x / 2 ^ expo x| * 2 ^ expo x := by
    intro j
    rw [← abs_of_pos hp, ← abs_mul, abs_of_pos hp]
    congr 1
    field_simp
  unfold rnd
  rw [e, e]
  exact mul_le_mul_of_nonneg_right h hp.le

/-- C121: what the rounding of these chapters is, independently of how it is computed: the doubles are the numbers `m * 2^e` with at most 53
bits and e ≥ -1074; the rounded value is a double, no double is nearer, and between two equally near ones the even multiple of the last
place is taken. -/
theorem C121_rounding (x : ℚ) :
    (IsF x ↔ ∃ m e : ℤ, |m| ≤ 2 ^ 53 ∧ -1074 ≤ e ∧ x = m * 2 ^ e) ∧ IsF (rnd x) ∧ (∀ y, IsF y → |rnd x - x| ≤ |y - x|) ∧
    (∀ k : ℤ, x = (k + 1 / 2) * 2 ^ expo x → ∃ j : ℤ, rnd x = (2 * j) * 2 ^ expo x) := by
  refine ⟨⟨fun h => ?_, ?_⟩, isF_rnd x, ?_, ?_⟩
  · obtain ⟨m, hm, he⟩ := h.form
    exact ⟨m, expo x, hm, expo_ge x, he⟩
  · rintro ⟨m, e, hm, he, rfl⟩
    exact isF_of hm he
  · intro y hy
    rcases le_or_gt (expo x) (expo y) with h | h
    · obtain ⟨k, hk⟩ := hy.mult_of_le h
      have := rnd_near_mult x k
      rwa [← hk] at this
    · by_cases hx0 : x = 0
      · subst hx0
        rw [rnd_zero, sub_self, abs_zero]
        exact abs_nonneg _
      have hex : -1074 < expo x := lt_of_le_of_lt (expo_ge y) h
      have h1 := expo_le_abs x hex hx0
      have h2 : |y| < 2 ^ (expo x + 52) := lt_of_lt_of_le (lt_expo y) (zpow_le_zpow_right₀ (by norm_num) (by omega))
      have e52 : (2 : ℚ) ^ (expo x + 52) = (2 ^ 52 : ℤ) * 2 ^ expo x := by
        rw [add_comm, zpow_add₀ (by norm_num)]
        norm_num
      rw [abs_lt] at h2
      rcases lt_or_gt_of_ne hx0 with hneg | hpos
      · have h3 := rnd_near_mult x (-2 ^ 52)
        have e' : (((-2 ^ 52 : ℤ)) : ℚ) * 2 ^ expo x = -(2 ^ (expo x + 52)) := by rw [e52]; push_cast; ring
        rw [e'] at h3
        rw [abs_of_neg hneg] at h1
        rw [abs_of_nonneg (show 0 ≤ -(2 ^ (expo x + 52)) - x by linarith)] at h3
        have h4 := le_abs_self (y - x)
        linarith
      · have h3 := rnd_near_mult x (2 ^ 52)
        rw [← e52] at h3
        rw [abs_of_pos hpos] at h1
        rw [abs_of_nonpos (show 2 ^ (expo x + 52) - x ≤ 0 by linarith)] at h3
        have h4 := neg_le_abs (y - x)
        linarith
  · intro k hk
    have hp := pow_pos' (expo x)
    have hq : x / 2 ^ expo x = k + 1 / 2 := by
      rw [div_eq_iff hp.ne']
      exact hk
    have hf : ⌊x / 2 ^ expo x⌋ = k := by
      rw [hq, Int.floor_eq_iff]
      constructor <;> linarith
    have hr : rne (x / 2 ^ expo x) = if k % 2 = 0 then k else k + 1 := by
      unfold rne
      rw [hf, hq]
      have a : ¬ ((k : ℚ) + 1 / 2 - k < 1 / 2) := by linarith
      have b : ¬ (1 / 2 < (k : ℚ) + 1 / 2 - k) := by linarith
      rw [if_neg a, if_neg b]
    unfold rnd
    rw [hr]
    split_ifs with h
    · exact ⟨k / 2, by rw [show (2 : ℚ) * ((k / 2 : ℤ) : ℚ) = ((2 * (k / 2) : ℤ) : ℚ) by push_cast; rfl, Int.mul_ediv_cancel' (Int.dvd_of_emod_eq_zero h)]⟩
    · refine ⟨(k + 1) / 2, ?_⟩
      rw [show (2 : ℚ) * (((k + 1) / 2 : ℤ) : ℚ) = ((2 * ((k + 1) / 2) : ℤ) : ℚ) by push_cast; rfl, Int.mul_ediv_cancel' (by omega)]

example : rnd (1 / 10) = 3602879701896397 / 36028797018963968 := by decide +kernel
example : rnd (2 ^ 53 + 1) = 2 ^ 53 := by decide +kernel
example : rnd (2 ^ 53 + 3) = 2 ^ 53 + 4 := by decide +kernel

end Pyhipp.FloatBins
