import Verif.Model.FloatNFW
import Verif.Props.FloatHalo
import Verif.Props.NFW
/-
C98 in double precision: the mass function of an NFW profile and the ratio of its velocities.
-/
namespace Pyhipp.FloatNFW
open Pyhipp Pyhipp.F64 Pyhipp.FloatReduce Pyhipp.FloatHistDensity Pyhipp.FloatCosmology Pyhipp.FloatUnits Pyhipp.FloatHalo
open Pyhipp.FloatNum (IsSqrt)
open Pyhipp.Cosmology (nfwMu)

/-- What is used of numpy's logarithm: an absolute error of at most 2^-49 between 1 and 2^21 (where it is below 15). -/
def LogOk (log : Num → Num) : Prop := ∀ y : ℚ, 1 ≤ y → y ≤ 2 ^ 21 → ∃ L : ℚ, log (.fin y) = .fin L ∧ |(L : ℝ) - Real.log y| ≤ 2 ^ (-49 : ℤ)

/-- C98, a finding: **tiny concentrations.** For a concentration between 2^-1000 and 2^-53, 1 + c is rounded to 1, so that the computed mass function is -c (the exact one is
positive) and the ratio of the velocities is NaN. -/
theorem C98_tiny {c : ℚ} (hc : IsF c) (c0 : 0 < c) (c1 : c ≤ 2 ^ (-53 : ℤ)) (log : Num → Num) (hlog : log (.fin 1) = .fin 0) (sq : ℚ → ℚ)
    (c2 : 2 ^ (-1000 : ℤ) ≤ c) :
    mu log (.fin c) = .fin (-c) ∧ 0 < nfwMu c ∧ cToV log sq (.fin c) = .nan := by
  have e1 : Num.add (.fin 1) (.fin c) = .fin 1 := by
    have a : rnd (1 + 2 ^ (-53 : ℤ)) = 1 := by decide +kernel
    have b : rnd (1 + c) = 1 := le_antisymm (by rw [← a]; exact rnd_mono (by linarith)) (le_rnd (by linarith) (by decide +kernel))
    show ofQ (1 + c) = _
    rw [ofQ_fin (by rw [b, abs_one]; exact one_lt_pow₀ (by norm_num) (by norm_num)), b]
  have small : ∀ q : ℚ, |q| ≤ 1 → ofQ q = .fin (rnd q) := fun q h =>
    ofQ_fin_le h (by decide +kernel) (one_lt_pow₀ (by norm_num) (by norm_num))
  have cle : c ≤ 1 := le_trans c1 (by norm_num)
  have e2 : Num.div (.fin c) (.fin 1) = .fin c := by
    show (if (1 : ℚ) = 0 then (if c = 0 then Num.nan else .inf (decide (c < 0))) else ofQ (c / 1)) = _
    rw [if_neg one_ne_zero, div_one, small c (by rwa [abs_of_pos c0]), hc]
  have em : mu log (.fin c) = .fin (-c) := by
    unfold mu
    rw [e1, hlog, e2]
    show ofQ (0 + -c) = _
    rw [zero_add, small _ (by rwa [abs_neg, abs_of_pos c0]), hc.neg]
  refine ⟨em, (Cosmology.C98_mu le_rfl (by exact_mod_cast c0)).2.2, ?_⟩
  unfold cToV
  have bk := box_lit (q := 216217 / 1000000) (-3) (-2) (by norm_num) (by norm_num) (by norm_num) (by norm_num)
  have bc := box_fin (-1000) 0 c2 (by simpa using cle)
  obtain ⟨n, en, n1, n2, tn, wn⟩ := bk.mul bc (by norm_num) (by norm_num)
  have n0 : 0 < n := lt_of_lt_of_le (pow_pos' _) n1
  obtain ⟨-, -, w2⟩ := wn.close tn (by norm_num)
  simp only [en, em]
  have hq : n / -c ≤ -(2 ^ (-4 : ℤ)) := by
    rw [div_neg, neg_le_neg_iff, le_div_iff₀ c0]
    have : (2 : ℚ) ^ (-4 : ℤ) * c ≤ 216217 / 1000000 * c / 2 := by
      have : (2 : ℚ) ^ (-4 : ℤ) ≤ 216217 / 1000000 / 2 := by norm_num
      nlinarith
    exact le_trans this (by linarith)
  have hr : rnd (n / -c) ≤ -(2 ^ (-4 : ℤ)) := rnd_le hq (isF_pow (by norm_num)).neg
  have p4 : (0 : ℚ) < 2 ^ (-4 : ℤ) := pow_pos' _
  have ed : Num.div (.fin n) (.fin (-c)) = ofQ (n / -c) := by
    show (if -c = 0 then _ else ofQ (n / -c)) = _
    rw [if_neg (by linarith)]
  rw [ed]
  unfold ofQ
  split
  · rw [decide_eq_true (by linarith)]; rfl
  · simp only [npSqrt]
    rw [if_pos (by linarith)]

/-! ### The tabulated range -/

theorem cast_abs_le {a b : ℚ} (h : |a| ≤ b) : |(a : ℝ)| ≤ (b : ℝ) := by
  rw [← Rat.cast_abs]
  exact Rat.cast_le.mpr h

theorem log_near {s : ℝ} (h : |s - 1| ≤ 2 ^ (-53 : ℤ)) : |Real.log s| ≤ 2 * 2 ^ (-53 : ℤ) := by
  rw [abs_le] at h
  have u1 : (2 : ℝ) ^ (-53 : ℤ) ≤ 1 / 4 := by norm_num
  have u0 : (0 : ℝ) < 2 ^ (-53 : ℤ) := by norm_num
  generalize (2 : ℝ) ^ (-53 : ℤ) = u at *
  have s0 : 0 < s := by linarith
  have a := Real.log_le_sub_one_of_pos s0
  have b := Real.one_sub_inv_le_log_of_pos s0
  have c : -(2 * u) ≤ 1 - s⁻¹ := by
    rw [← sub_nonneg]
    have e : 1 - s⁻¹ - -(2 * u) = (s - 1 + 2 * u * s) / s := by field_simp; ring
    rw [e]
    exact div_nonneg (by nlinarith) s0.le
  rw [abs_le]
  constructor <;> linarith

theorem nfwMu_bounds {x : ℝ} (h1 : 2 ≤ x) (h2 : x ≤ 2 ^ 20) : 1 / 4 < nfwMu x ∧ nfwMu x ≤ 21 := by
  have e : ∀ x : ℝ, nfwMu x = Real.log (1 + x) - x / (1 + x) := fun x => by unfold nfwMu; norm_num
  constructor
  · have m2 : 1 / 4 < nfwMu 2 := by
      rw [e]
      have : 1 < Real.log 3 := by
        rw [Real.lt_log_iff_exp_lt (by norm_num)]
        exact lt_trans Real.exp_one_lt_d9 (by norm_num)
      norm_num
      linarith
    rcases eq_or_lt_of_le h1 with rfl | h
    · exact m2
    · exact lt_trans m2 (Cosmology.C98_mu (by norm_num) h).2.1
  · rw [e]
    have a : Real.log (1 + x) ≤ Real.log (2 ^ 21) := Real.log_le_log (by linarith) (by norm_num at h2 ⊢; linarith)
    have b : Real.log ((2 : ℝ) ^ 21) = 21 * Real.log 2 := by rw [Real.log_pow]; norm_num
    have c : Real.log 2 ≤ 1 := by have := Real.log_two_lt_d9; linarith
    have d : 0 ≤ x / (1 + x) := div_nonneg (by linarith) (by linarith)
    linarith

/-- C98: **with rounding**, for concentrations from 2 to 2^20: the computed mass function is within 2^-46 of the exact one. -/
theorem C98_mu_double {x : ℚ} (h1 : 2 ≤ x) (h2 : x ≤ 2 ^ 20) {log : Num → Num} (hl : LogOk log) :
    ∃ M : ℚ, mu log (.fin x) = .fin M ∧ |(M : ℝ) - nfwMu x| ≤ 2 ^ (-46 : ℤ) ∧ 1 / 5 < M ∧ M ≤ 22 := by
  have u0 : (0 : ℚ) < 2 ^ (-53 : ℤ) := pow_pos' _
  have hb : (1 : ℚ) + x ≤ 2 ^ 21 := by norm_num at h2 ⊢; linarith
  have x0 : 0 < x := by linarith
  have fin : ∀ q : ℚ, |q| ≤ 2 ^ 21 → ofQ q = .fin (rnd q) := fun q h =>
    ofQ_fin_le h (by decide +kernel) (pow_lt_pow_right₀ (by norm_num) (by norm_num))
  -- 1 + x
  obtain ⟨y, hy⟩ : ∃ y, y = rnd (1 + x) := ⟨_, rfl⟩
  have ey : Num.add (.fin 1) (.fin x) = .fin y := by
    show ofQ (1 + x) = _
    rw [fin _ (by rwa [abs_of_pos (by linarith)]), hy]
  have y3 : 3 ≤ y := by rw [hy]; exact le_rnd (by linarith) (by decide +kernel)
  have y21 : y ≤ 2 ^ 21 := by rw [hy]; exact rnd_le hb (by decide +kernel)
  have yerr : |y - (1 + x)| ≤ 2 ^ (-53 : ℤ) * (1 + x) := by
    have := rnd_err (x := 1 + x) (by
      rw [abs_of_pos (by linarith)]
      exact le_trans (zpow_le_one_of_nonpos₀ (by norm_num) (by norm_num)) (by linarith))
    rwa [abs_of_pos (show (0 : ℚ) < 1 + x by linarith), ← hy] at this
  -- the quotient
  have y0 : 0 < y := by linarith
  have xy : x / y ≤ 1 := by
    rw [div_le_one y0, hy]
    by_contra hc
    rw [← hy] at hc
    rw [abs_le] at yerr
    have : (2 : ℚ) ^ (-53 : ℤ) * (1 + x) ≤ 1 := by
      have : (2 : ℚ) ^ (-53 : ℤ) * (1 + x) ≤ 2 ^ (-53 : ℤ) * 2 ^ 21 := mul_le_mul_of_nonneg_left hb u0.le
      exact le_trans this (by norm_num)
    linarith
  have xy0 : 2 ^ (-53 : ℤ) ≤ x / y := by
    rw [le_div_iff₀ y0]
    have : (2 : ℚ) ^ (-53 : ℤ) * y ≤ 2 ^ (-53 : ℤ) * 2 ^ 21 := mul_le_mul_of_nonneg_left y21 u0.le
    refine le_trans this (le_trans (by norm_num) h1)
  have xyp : 0 < x / y := lt_of_lt_of_le u0 xy0
  obtain ⟨d, hd⟩ : ∃ d, d = rnd (x / y) := ⟨_, rfl⟩
  have ed : Num.div (.fin x) (.fin y) = .fin d := by
    show (if y = 0 then _ else ofQ (x / y)) = _
    rw [if_neg y0.ne', fin _ (by rw [abs_of_pos xyp]; exact le_trans xy (by norm_num)), hd]
  have derr : |d - x / y| ≤ 2 ^ (-53 : ℤ) := by
    have := rnd_err (x := x / y) (by rw [abs_of_pos xyp]; exact le_trans (zpow_le_zpow_right₀ (by norm_num) (by norm_num)) xy0)
    rw [abs_of_pos xyp, ← hd] at this
    exact le_trans this (mul_le_of_le_one_right u0.le xy)
  obtain ⟨L, eL, hL⟩ := hl y (by linarith) y21
  -- real errors
  have x0R : (0 : ℝ) < x := by exact_mod_cast x0
  have X0 : (0 : ℝ) < 1 + x := by linarith
  have Y0 : (0 : ℝ) < y := by exact_mod_cast y0
  have yerrR : |(y : ℝ) - (1 + x)| ≤ 2 ^ (-53 : ℤ) * (1 + x) := by
    have := cast_abs_le yerr
    push_cast at this
    exact this
  have derrR : |(d : ℝ) - x / y| ≤ 2 ^ (-53 : ℤ) := by
    have := cast_abs_le derr
    push_cast at this
    exact this
  have ratio : |(y : ℝ) / (1 + x) - 1| ≤ 2 ^ (-53 : ℤ) := by
    rw [show (y : ℝ) / (1 + x) - 1 = (y - (1 + x)) / (1 + x) by field_simp, abs_div, abs_of_pos X0, div_le_iff₀ X0]
    exact yerrR
  have logerr := log_near ratio
  rw [Real.log_div Y0.ne' X0.ne'] at logerr
  have qerr : |(x : ℝ) / y - x / (1 + x)| ≤ 2 ^ (-53 : ℤ) := by
    have xyR : (x : ℝ) / y ≤ 1 := by exact_mod_cast xy
    have xypR : 0 ≤ (x : ℝ) / y := by exact_mod_cast xyp.le
    rw [show (x : ℝ) / y - x / (1 + x) = -((x : ℝ) / y * ((y : ℝ) / (1 + x) - 1) * 1) + 0 + ((x : ℝ) / y * ((y : ℝ) / (1 + x) - 1) + (x / y - x / (1 + x))) by ring]
    have z : (x : ℝ) / y * ((y : ℝ) / (1 + x) - 1) + (x / y - x / (1 + x)) = 0 := by field_simp; ring
    rw [z, mul_one, add_zero, add_zero, abs_neg, abs_mul, abs_of_nonneg xypR]
    exact le_trans (mul_le_of_le_one_left (abs_nonneg _) xyR) ratio
  have em : nfwMu x = Real.log (1 + x) - x / (1 + x) := by unfold nfwMu; norm_num
  obtain ⟨b1, b2⟩ := nfwMu_bounds (x := x) (by exact_mod_cast h1) (by exact_mod_cast h2)
  have tot : |((L - d : ℚ) : ℝ) - nfwMu x| ≤ 2 ^ (-48 : ℤ) := by
    rw [em]
    push_cast
    rw [abs_le] at hL logerr derrR qerr ⊢
    have : (2 : ℝ) ^ (-49 : ℤ) + 4 * 2 ^ (-53 : ℤ) ≤ 2 ^ (-48 : ℤ) := by norm_num
    clear * - hL logerr derrR qerr this
    generalize (2 : ℝ) ^ (-49 : ℤ) = a at *
    generalize (2 : ℝ) ^ (-48 : ℤ) = b at *
    generalize (2 : ℝ) ^ (-53 : ℤ) = u at *
    constructor <;> linarith [hL.1, hL.2, logerr.1, logerr.2, derrR.1, derrR.2, qerr.1, qerr.2]
  have t48 : (2 : ℝ) ^ (-48 : ℤ) ≤ 1 / 100 := by norm_num
  have lo : (6 : ℚ) / 25 ≤ L - d := by
    rw [abs_le] at tot
    generalize (2 : ℝ) ^ (-48 : ℤ) = w at *
    have : ((6 / 25 : ℚ) : ℝ) ≤ ((L - d : ℚ) : ℝ) := by push_cast at tot ⊢; linarith [tot.1]
    exact_mod_cast this
  have hi : L - d ≤ 22 := by
    rw [abs_le] at tot
    generalize (2 : ℝ) ^ (-48 : ℤ) = w at *
    have : ((L - d : ℚ) : ℝ) ≤ ((22 : ℚ) : ℝ) := by push_cast at tot ⊢; linarith [tot.2]
    exact_mod_cast this
  have pos : 0 < L - d := by linarith
  have merr := rnd_err (x := L - d) (by
    rw [abs_of_pos pos]
    exact le_trans (zpow_le_zpow_right₀ (n := -10) (by norm_num) (by norm_num)) (le_trans (by norm_num) lo))
  rw [abs_of_pos pos] at merr
  have merr' : |rnd (L - d) - (L - d)| ≤ 2 ^ (-48 : ℤ) := by
    have : (2 : ℚ) ^ (-53 : ℤ) * (L - d) ≤ 2 ^ (-53 : ℤ) * 22 := mul_le_mul_of_nonneg_left hi u0.le
    exact le_trans merr (le_trans this (by norm_num))
  have merrR : |((rnd (L - d) : ℚ) : ℝ) - ((L - d : ℚ) : ℝ)| ≤ 2 ^ (-48 : ℤ) := by
    have := cast_abs_le merr'
    push_cast at this ⊢
    exact this
  refine ⟨rnd (L - d), ?_, ?_, ?_, ?_⟩
  · unfold mu
    rw [ey, eL, ed]
    show ofQ (L + -d) = _
    rw [← sub_eq_add_neg, fin _ (by rw [abs_of_pos pos]; exact le_trans hi (by norm_num))]
  · rw [abs_le] at merrR tot ⊢
    have : (2 : ℝ) ^ (-48 : ℤ) + 2 ^ (-48 : ℤ) ≤ 2 ^ (-46 : ℤ) := by norm_num
    clear * - merrR tot this
    generalize (2 : ℝ) ^ (-48 : ℤ) = w at *
    generalize (2 : ℝ) ^ (-46 : ℤ) = w' at *
    constructor <;> linarith [merrR.1, merrR.2, tot.1, tot.2]
  · rw [abs_le] at merr'
    have : (2 : ℚ) ^ (-48 : ℤ) ≤ 1 / 100 := by norm_num
    clear * - merr' this lo
    generalize (2 : ℚ) ^ (-48 : ℤ) = w at *
    linarith [merr'.1]
  · exact rnd_le hi (by decide +kernel)

/-- C98: **the ratio of the velocities with rounding**, for concentrations from 2 to 2^20: a positive double whose square is 0.216217 c / μ(c) up to a relative 2^-42. -/
theorem C98_ratio_double {c : ℚ} (h1 : 2 ≤ c) (h2 : c ≤ 2 ^ 20) {log : Num → Num} (hl : LogOk log) {sq : ℚ → ℚ} (hs : IsSqrt sq) :
    ∃ v : ℚ, cToV log sq (.fin c) = .fin v ∧ 0 < v ∧ |(v : ℝ) ^ 2 * nfwMu c - 216217 / 1000000 * (c : ℝ)| ≤ 2 ^ (-42 : ℤ) * (216217 / 1000000 * (c : ℝ)) := by
  obtain ⟨M, eM, hM, M1, M2⟩ := C98_mu_double h1 h2 hl
  have bk := box_lit (q := 216217 / 1000000) (-3) (-2) (by norm_num) (by norm_num) (by norm_num) (by norm_num)
  have bc := box_fin 1 20 (by norm_num; exact h1) (by exact_mod_cast h2)
  have bM := box_fin (q := M) (-3) 5 (le_trans (by norm_num) M1.le) (le_trans M2 (by norm_num))
  have bn := bk.mul bc (by norm_num) (by norm_num)
  obtain ⟨n, en, -, -, -, -⟩ := bn
  have bn := bk.mul bc (by norm_num) (by norm_num)
  obtain ⟨q, eq, q1, -, tq, wq⟩ := bn.ndiv bM (by norm_num) (by norm_num)
  have M0 : 0 < M := by linarith
  have q0 : 0 < q := lt_of_lt_of_le (pow_pos' _) q1
  have qF : IsF q := by
    rw [en] at eq
    exact div_isF M0.ne' eq
  obtain ⟨v0, wv⟩ := within_sqrt hs qF q0
  have w := wv.trans wq
  have c0 : 0 < c := by linarith
  have g0 : 0 < 216217 / 1000000 * c := by positivity
  have w' := w_mul w (w_refl M) (sq_nonneg _) tq.le M0.le M0.le
  rw [show 216217 / 1000000 * c / M * M = 216217 / 1000000 * c by field_simp] at w'
  have ek : 9 + (1 + 0 + 1 + 0 + 1) + 0 = 12 := rfl
  rw [ek] at w'
  have hg : 216217 / 1000000 * (c : ℝ) = ((216217 / 1000000 * c : ℚ) : ℝ) := by push_cast; ring
  refine ⟨sq q, ?_, v0, ?_⟩
  · unfold cToV
    simp only [eM, eq]
    exact if_neg (not_lt.mpr q0.le)
  rw [hg]
  generalize 216217 / 1000000 * c = g at *
  obtain ⟨k1, k2, -⟩ := w'.close g0 (by norm_num)
  have k1R : |((sq q : ℚ) : ℝ) ^ 2 * M - g| ≤ (12 : ℕ) * 2 ^ (-52 : ℤ) * g := by
    have := cast_abs_le k1
    push_cast at this ⊢
    exact this
  have k2R : ((sq q : ℚ) : ℝ) ^ 2 * M ≤ 2 * g := by exact_mod_cast k2
  have g0R : (0 : ℝ) < g := by exact_mod_cast g0
  have M1R : (1 / 5 : ℝ) ≤ M := by
    have : ((1 / 5 : ℚ) : ℝ) ≤ (M : ℝ) := by exact_mod_cast M1.le
    push_cast at this
    exact this
  have s0 : 0 ≤ ((sq q : ℚ) : ℝ) ^ 2 := sq_nonneg _
  have vb : ((sq q : ℚ) : ℝ) ^ 2 ≤ 10 * g := by nlinarith
  have d : |((sq q : ℚ) : ℝ) ^ 2 * (nfwMu c - M)| ≤ 10 * g * 2 ^ (-46 : ℤ) := by
    rw [abs_mul, abs_of_nonneg s0, abs_sub_comm]
    exact mul_le_mul vb hM (abs_nonneg _) (by linarith)
  generalize ((sq q : ℚ) : ℝ) ^ 2 = V at *
  have e : V * nfwMu c - g = (V * M - g) + V * (nfwMu c - M) := by ring
  rw [e]
  rw [abs_le] at k1R d ⊢
  have n1 : ((12 : ℕ) : ℝ) * 2 ^ (-52 : ℤ) + 10 * 2 ^ (-46 : ℤ) ≤ 2 ^ (-42 : ℤ) := by norm_num
  have n2 := mul_le_mul_of_nonneg_right n1 g0R.le
  constructor <;> linarith [k1R.1, k1R.2, d.1, d.2]

/-! ### The hypotheses are met -/

theorem exists_log (y : ℚ) : ∃ L : ℚ, |(L : ℝ) - Real.log y| ≤ 2 ^ (-49 : ℤ) := by
  have h : Real.log y < Real.log y + 2 ^ (-49 : ℤ) := lt_add_of_pos_right _ (zpow_pos (by norm_num) _)
  obtain ⟨L, h1, h2⟩ := exists_rat_btwn h
  refine ⟨L, ?_⟩
  generalize (2 : ℝ) ^ (-49 : ℤ) = w at *
  rw [abs_le]
  constructor <;> linarith

open Classical in
/-- A logarithm of this accuracy. -/
noncomputable def logEx : Num → Num
  | .fin y => if y = 1 then .fin 0 else if 0 < y then .fin (exists_log y).choose else .nan
  | _ => .nan

theorem logEx_ok : LogOk logEx ∧ logEx (.fin 1) = .fin 0 := by
  refine ⟨fun y h1 _ => ?_, by simp [logEx]⟩
  by_cases h : y = 1
  · subst h
    exact ⟨0, by simp [logEx], by simp⟩
  · exact ⟨(exists_log y).choose, by simp only [logEx, if_neg h, if_pos (show 0 < y by linarith)], (exists_log y).choose_spec⟩

example : ∃ v : ℚ, cToV logEx FloatNum.sqrt53 (.fin 10) = .fin v ∧ 0 < v := by
  obtain ⟨v, a, b, -⟩ := C98_ratio_double (c := 10) (by norm_num) (by norm_num) logEx_ok.1 FloatNum.sqrt53_isSqrt
  exact ⟨v, a, b⟩

example : cToV logEx FloatNum.sqrt53 (.fin (2 ^ (-60 : ℤ))) = .nan :=
  (C98_tiny (isF_pow (by norm_num)) (pow_pos' _) (zpow_le_zpow_right₀ (by norm_num) (by norm_num)) logEx logEx_ok.2 _
    (zpow_le_zpow_right₀ (by norm_num) (by norm_num))).2.2


end Pyhipp.FloatNFW
