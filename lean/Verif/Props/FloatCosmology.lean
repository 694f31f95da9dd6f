import Verif.Model.FloatCosmology
import Verif.Props.FloatHistDensity
import Verif.Props.FloatCoords
import Verif.Props.FloatNum
/-
C157: the background cosmology in double precision.
-/
namespace Pyhipp.FloatCosmology
open Pyhipp Pyhipp.F64 Pyhipp.FloatReduce Pyhipp.FloatHistDensity Pyhipp.FloatLinear Pyhipp.FloatStandardize Pyhipp.FloatNum

/-! ### More about relative errors -/

theorem w_refl (t : ℚ) : Within t t 0 := by unfold Within; simp

theorem w_mono {v t : ℚ} {j k : Nat} (h : Within v t j) (hv : 0 ≤ v) (ht : 0 ≤ t) (hjk : j ≤ k) : Within v t k := by
  have hp : (1 - 2 ^ (-53 : ℤ) : ℚ) ^ k ≤ (1 - 2 ^ (-53 : ℤ)) ^ j := pow_le_pow_of_le_one u_pos.le u_lt hjk
  exact ⟨le_trans (mul_le_mul_of_nonneg_left hp ht) h.1, le_trans (mul_le_mul_of_nonneg_left hp hv) h.2⟩

theorem w_mul {v t e d : ℚ} {a b : Nat} (h : Within v t a) (h' : Within e d b) (hv : 0 ≤ v) (ht : 0 ≤ t) (he : 0 ≤ e) (hd : 0 ≤ d) :
    Within (v * e) (t * d) (a + b) := by
  obtain ⟨h1, h2⟩ := h
  obtain ⟨h3, h4⟩ := h'
  have p := pow_pos u_pos a
  have q := pow_pos u_pos b
  unfold Within
  rw [pow_add]
  generalize (1 - 2 ^ (-53 : ℤ) : ℚ) ^ a = P at *
  generalize (1 - 2 ^ (-53 : ℤ) : ℚ) ^ b = R at *
  constructor
  · calc t * d * (P * R) = (t * P) * (d * R) := by ring
      _ ≤ v * e := mul_le_mul h1 h3 (by positivity) hv
  · calc v * e * (P * R) = (v * P) * (e * R) := by ring
      _ ≤ t * d := mul_le_mul h2 h4 (by positivity) ht

theorem w_add {v t e d : ℚ} {k : Nat} (h : Within v t k) (h' : Within e d k) : Within (v + e) (t + d) k := by
  obtain ⟨h1, h2⟩ := h
  obtain ⟨h3, h4⟩ := h'
  unfold Within
  generalize (1 - 2 ^ (-53 : ℤ) : ℚ) ^ k = P at *
  constructor <;> linarith

theorem w_rnd {x : ℚ} (h : 2 ^ (-1022 : ℤ) ≤ x) : Within (rnd x) x 1 := by
  have h0 : 0 ≤ x := le_trans (pow_pos' _).le h
  have := rnd_err (x := x) (by rwa [abs_of_nonneg h0])
  rw [abs_of_nonneg h0] at this
  exact within_rnd_of h0 this

theorem w_rnd_add {a b : ℚ} (ha : IsF a) (hb : IsF b) (h : 0 ≤ a + b) : Within (rnd (a + b)) (a + b) 1 := by
  have := FloatCoords.rnd_add_err ha hb
  rw [abs_of_nonneg h] at this
  exact within_rnd_of h this

/-! ### The sum of the densities today -/

theorem one_rnd {x : ℚ} (h : |x - 1| ≤ 2 ^ (-54 : ℤ)) : rnd x = 1 := by
  rw [abs_le] at h
  have e54 : (2 : ℚ) ^ (-54 : ℤ) = 1 / 2 ^ 54 := by norm_num
  rw [e54] at h
  rcases lt_or_ge x 1 with hx | hx
  · have hx0 : 0 < x := by linarith [show (1 : ℚ) / 2 ^ 54 < 1 by norm_num, h.1]
    have hlog : Int.log 2 |x| = -1 := by
      rw [abs_of_pos hx0]
      have h1 : Int.log 2 x < 0 := by rw [← Int.lt_zpow_iff_log_lt (by norm_num) hx0]; simpa using hx
      have h2 : -1 ≤ Int.log 2 x := by
        rw [← Int.zpow_le_iff_le_log (by norm_num) hx0]
        have : ((2 : ℕ) : ℚ) ^ (-1 : ℤ) = 1 / 2 := by norm_num
        rw [this]
        linarith [show (1 : ℚ) / 2 ^ 54 < 1 / 2 by norm_num, h.1]
      omega
    have he : expo x = -53 := by unfold expo; rw [hlog]; rfl
    unfold rnd
    rw [he]
    have hy : x / 2 ^ (-53 : ℤ) = x * 2 ^ 53 := by rw [zpow_neg, div_inv_eq_mul]; norm_num
    rw [hy]
    have b1 : (2 ^ 53 : ℚ) - 1 / 2 ≤ x * 2 ^ 53 := by
      have := mul_le_mul_of_nonneg_right (show 1 - 1 / 2 ^ 54 ≤ x by linarith [h.1]) (show (0 : ℚ) ≤ 2 ^ 53 by norm_num)
      norm_num at this ⊢
      linarith
    have b2 : x * 2 ^ 53 < 2 ^ 53 := by
      have := mul_lt_mul_of_pos_right hx (show (0 : ℚ) < 2 ^ 53 by norm_num)
      linarith
    have hfl : ⌊x * 2 ^ 53⌋ = 2 ^ 53 - 1 := by
      rw [Int.floor_eq_iff]
      constructor
      · push_cast; linarith
      · push_cast; linarith
    have hr : rne (x * 2 ^ 53) = 2 ^ 53 := by
      unfold rne
      rw [hfl]
      have hn : ¬ (x * 2 ^ 53 - ((2 ^ 53 - 1 : ℤ) : ℚ) < 1 / 2) := by push_cast; linarith
      rw [if_neg hn]
      split_ifs with h1 h2
      · norm_num
      · norm_num at h2
      · norm_num
    rw [hr]
    norm_num
  · have hx0 : 0 < x := by linarith
    have hlog : Int.log 2 |x| = 0 := by
      rw [abs_of_pos hx0]
      have h1 : Int.log 2 x < 1 := by
        rw [← Int.lt_zpow_iff_log_lt (by norm_num) hx0]
        have : ((2 : ℕ) : ℚ) ^ (1 : ℤ) = 2 := by norm_num
        rw [this]
        linarith [show (1 : ℚ) / 2 ^ 54 < 1 by norm_num, h.2]
      have h2 : 0 ≤ Int.log 2 x := by
        rw [← Int.zpow_le_iff_le_log (by norm_num) hx0]; simpa using hx
      omega
    have he : expo x = -52 := by unfold expo; rw [hlog]; rfl
    unfold rnd
    rw [he]
    have hy : x / 2 ^ (-52 : ℤ) = x * 2 ^ 52 := by rw [zpow_neg, div_inv_eq_mul]; norm_num
    rw [hy]
    have b1 : x * 2 ^ 52 ≤ 2 ^ 52 + 1 / 4 := by
      have := mul_le_mul_of_nonneg_right (show x ≤ 1 + 1 / 2 ^ 54 by linarith [h.2]) (show (0 : ℚ) ≤ 2 ^ 52 by norm_num)
      norm_num at this ⊢
      linarith
    have b2 : 2 ^ 52 ≤ x * 2 ^ 52 := by
      have := mul_le_mul_of_nonneg_right hx (show (0 : ℚ) ≤ 2 ^ 52 by norm_num)
      linarith
    have hfl : ⌊x * 2 ^ 52⌋ = 2 ^ 52 := by
      rw [Int.floor_eq_iff]
      constructor
      · push_cast; linarith
      · push_cast; linarith
    have hr : rne (x * 2 ^ 52) = 2 ^ 52 := by
      unfold rne
      rw [hfl, if_pos (by push_cast; linarith)]
    rw [hr]
    norm_num

/-- The rounding of `1 - om` is undone by adding `om`. -/
theorem closure_one {om : ℚ} (fo : IsF om) (h0 : 0 ≤ om) (h1 : om ≤ 1) : rnd (rnd (1 - om) + om) = 1 := by
  rcases le_or_gt (1 / 2) om with h | h
  · have : IsF (1 - om) := sterbenz one_isF fo (by linarith) (by linarith) (by linarith)
    have e : rnd (1 - om) = 1 - om := this
    rw [e]
    have e2 : 1 - om + om = 1 := by ring
    rw [e2]; exact one_isF
  · apply one_rnd
    have hx : (0 : ℚ) < 1 - om := by linarith
    rcases eq_or_lt_of_le h0 with rfl | hpos
    · have : rnd (1 - 0) = 1 := by rw [sub_zero]; exact one_isF
      rw [this]; norm_num
    have he : expo (1 - om) ≤ -53 := by
      refine expo_le_of_lt (by norm_num) ?_ hx.ne'
      rw [abs_of_pos hx]
      norm_num
      exact hpos
    have hr := rnd_err_ulp (1 - om)
    have hz : (2 : ℚ) ^ expo (1 - om) / 2 ≤ 2 ^ (-54 : ℤ) := by
      have := zpow_le_zpow_right₀ (show (1 : ℚ) ≤ 2 by norm_num) he
      have e : (2 : ℚ) ^ (-53 : ℤ) / 2 = 2 ^ (-54 : ℤ) := by norm_num
      rw [← e]
      exact div_le_div_of_nonneg_right this (by norm_num)
    have e : rnd (1 - om) + om - 1 = rnd (1 - om) - (1 - om) := by ring
    rw [e]
    exact le_trans hr hz


/-! ### The computed quantities -/

theorem isF_zpow {e : ℤ} (h : -1074 ≤ e) : IsF ((2 : ℚ) ^ e) := isF_pow h

theorem npow_isF (k : Nat) : IsF ((2 : ℚ) ^ k) := by
  have := isF_pow (e := (k : ℤ)) (by omega)
  exact_mod_cast this

/-- `z + 1` of a double above -1. -/
theorem zp1_ge {z : ℚ} (fz : IsF z) (h : -1 < z) : (2 : ℚ) ^ (-53 : ℤ) ≤ z + 1 := by
  have e53 : (2 : ℚ) ^ (-53 : ℤ) ≤ 1 / 2 := by norm_num
  rcases le_or_gt (-(1 / 2)) z with h2 | h2
  · exact le_trans e53 (by linarith)
  · have hz : z ≠ 0 := by intro h; rw [h] at h2; norm_num at h2
    have ha : |z| = -z := abs_of_neg (by linarith)
    have he : (-53 : ℤ) ≤ expo z := by
      unfold expo
      have : (-1 : ℤ) ≤ Int.log 2 |z| := by
        rw [← Int.zpow_le_iff_le_log (by norm_num) (abs_pos.mpr hz), ha]
        have : ((2 : ℕ) : ℚ) ^ (-1 : ℤ) = 1 / 2 := by norm_num
        rw [this]; linarith
      omega
    obtain ⟨k, hk⟩ := fz.mult_of_le he
    have e2 : z + 1 = ((k + 2 ^ 53 : ℤ) : ℚ) * 2 ^ (-53 : ℤ) := by
      rw [Int.cast_add, add_mul, ← hk]
      have : ((2 ^ 53 : ℤ) : ℚ) * 2 ^ (-53 : ℤ) = 1 := by norm_num
      rw [this]
    have hp := pow_pos' (-53)
    have hk0 : 0 < k + 2 ^ 53 := by
      by_contra hc
      have : ((k + 2 ^ 53 : ℤ) : ℚ) ≤ 0 := by exact_mod_cast (by omega : k + 2 ^ 53 ≤ 0)
      have := mul_nonpos_of_nonpos_of_nonneg this hp.le
      rw [← e2] at this
      linarith
    rw [e2]
    exact le_mul_of_one_le_left hp.le (by exact_mod_cast hk0)

/-- Products of numbers between powers of two, rounded. -/
theorem mul_box {x y : ℚ} {a b : ℤ} {c d : Nat} (x1 : (2 : ℚ) ^ a ≤ x) (x2 : x ≤ 2 ^ c) (y1 : (2 : ℚ) ^ b ≤ y) (y2 : y ≤ 2 ^ d)
    (hab : -1022 ≤ a + b) (hcd : c + d ≤ 1023) :
    Num.mul (.fin x) (.fin y) = .fin (rnd (x * y)) ∧ (2 : ℚ) ^ (a + b) ≤ rnd (x * y) ∧ rnd (x * y) ≤ 2 ^ (c + d) ∧ Within (rnd (x * y)) (x * y) 1 := by
  have hx : 0 < x := lt_of_lt_of_le (pow_pos' a) x1
  have hy : 0 < y := lt_of_lt_of_le (pow_pos' b) y1
  have l : (2 : ℚ) ^ (a + b) ≤ x * y := by
    rw [zpow_add₀ (by norm_num)]
    exact mul_le_mul x1 y1 (pow_pos' _).le hx.le
  have u : x * y ≤ 2 ^ (c + d) := by
    rw [pow_add]
    exact mul_le_mul x2 y2 hy.le (by positivity)
  refine ⟨mul_fin ?_, le_rnd l (isF_pow (by omega)), rnd_le u (npow_isF _), w_rnd ?_⟩
  · rw [abs_of_pos (mul_pos hx hy)]
    exact le_trans u (pow_le_pow_right₀ (by norm_num) hcd)
  · exact le_trans (zpow_le_zpow_right₀ (by norm_num) hab) l

/-- All intermediate results of the background at a redshift. -/
structure Parts (om z L Z c P E : ℚ) : Prop where
  eL : Num.sub (.fin 1) (.fin om) = .fin L
  eZ : Num.add (.fin z) (.fin 1) = .fin Z
  ec : cube (.fin Z) = .fin c
  eP : Num.mul (.fin om) (.fin c) = .fin P
  eE : Num.add (.fin L) (.fin P) = .fin E
  fP : IsF P
  fL : IsF L
  fE : IsF E
  L0 : 0 ≤ L
  L1 : L ≤ 1
  Lpos : L = 0 ∨ 2 ^ (-53 : ℤ) ≤ L
  c1 : (2 : ℚ) ^ (-159 : ℤ) ≤ c
  c2 : c ≤ 2 ^ 303
  P1 : (2 : ℚ) ^ (-259 : ℤ) ≤ P
  P2 : P ≤ 2 ^ 303
  E1 : P ≤ E
  E1' : L ≤ E
  E2 : E ≤ 2 ^ 304
  wL : Within L (1 - om) 1
  wc : Within c ((z + 1) ^ 3) 5
  wP : Within P (om * (z + 1) ^ 3) 6
  wE : Within E (L + P) 1

theorem parts {om z : ℚ} (fo : IsF om) (o0 : 2 ^ (-100 : ℤ) ≤ om) (o1 : om ≤ 1) (fz : IsF z) (z0 : -1 < z) (z1 : z ≤ 2 ^ 100) :
    ∃ L Z c P E, Parts om z L Z c P E := by
  have om0 : 0 < om := lt_of_lt_of_le (pow_pos' _) o0
  have h1022 : (2 : ℚ) ^ 101 ≤ 2 ^ 1022 := pow_le_pow_right₀ (by norm_num) (by norm_num)
  have h1022' : (2 : ℚ) ^ 303 ≤ 2 ^ 1022 := pow_le_pow_right₀ (by norm_num) (by norm_num)
  have h100 : (2 : ℚ) ^ 101 = 2 * 2 ^ 100 := by norm_num
  have one100 : (1 : ℚ) ≤ 2 ^ 100 := by norm_num
  have one1022 : (1 : ℚ) ≤ 2 ^ 1022 := one_le_pow₀ (by norm_num)
  -- 1 - om
  have eL : Num.sub (.fin 1) (.fin om) = .fin (rnd (1 - om)) :=
    sub_fin (by rw [abs_one]; exact one1022) (by rw [abs_of_pos om0]; exact le_trans o1 one1022)
  have L0 : 0 ≤ rnd (1 - om) := rnd_nonneg (by linarith)
  have L1 : rnd (1 - om) ≤ 1 := rnd_le (by linarith) one_isF
  have wL : Within (rnd (1 - om)) (1 - om) 1 := by
    have := w_rnd_add one_isF fo.neg (by linarith)
    rwa [← sub_eq_add_neg] at this
  have Lpos : rnd (1 - om) = 0 ∨ (2 : ℚ) ^ (-53 : ℤ) ≤ rnd (1 - om) := by
    rcases eq_or_lt_of_le o1 with rfl | h
    · left; rw [sub_self]; exact rnd_zero
    · right
      have := zp1_ge fo.neg (by linarith)
      exact le_rnd (by linarith) (isF_pow (by norm_num))
  -- z + 1
  have zz := zp1_ge fz z0
  have zu : z + 1 ≤ 2 ^ 101 := by rw [h100]; linarith
  have eZ : Num.add (.fin z) (.fin 1) = .fin (rnd (z + 1)) :=
    add_fin (abs_le.mpr ⟨le_trans (neg_le_neg one1022) z0.le, le_trans z1 (pow_le_pow_right₀ (by norm_num) (by norm_num))⟩)
      (by rw [abs_one]; exact one1022)
  have Z1 : (2 : ℚ) ^ (-53 : ℤ) ≤ rnd (z + 1) := le_rnd zz (isF_pow (by norm_num))
  have Z2 : rnd (z + 1) ≤ 2 ^ 101 := rnd_le zu (npow_isF _)
  have zpos : 0 < z + 1 := by linarith
  have wZ : Within (rnd (z + 1)) (z + 1) 1 := w_rnd_add fz one_isF zpos.le
  generalize rnd (z + 1) = Z at *
  have Zpos : 0 < Z := lt_of_lt_of_le (pow_pos' _) Z1
  -- cube
  obtain ⟨es, s1, s2, ws⟩ := mul_box Z1 Z2 Z1 Z2 (by norm_num) (by norm_num)
  have ws' := ws.trans (w_mul wZ wZ Zpos.le zpos.le Zpos.le zpos.le)
  generalize rnd (Z * Z) = s at *
  obtain ⟨ecc, c1, c2, wc⟩ := mul_box Z1 Z2 s1 s2 (by norm_num) (by norm_num)
  have spos : 0 < s := lt_of_lt_of_le (pow_pos' _) s1
  have wc' := wc.trans (w_mul wZ ws' Zpos.le zpos.le spos.le (mul_pos zpos zpos).le)
  have ec : cube (.fin Z) = .fin (rnd (Z * s)) := by unfold cube; rw [es, ecc]
  generalize rnd (Z * s) = c at *
  have e3 : (z + 1) * ((z + 1) * (z + 1)) = (z + 1) ^ 3 := by ring
  rw [e3] at wc'
  have cpos : 0 < c := lt_of_lt_of_le (pow_pos' _) c1
  have c1' : (2 : ℚ) ^ (-159 : ℤ) ≤ c := c1
  have c2' : c ≤ 2 ^ 303 := c2
  -- product
  have o2 : om ≤ 2 ^ 0 := by simpa using o1
  obtain ⟨eP, P1, P2, wP⟩ := mul_box o0 o2 c1' c2' (by norm_num) (by norm_num)
  have wP' := wP.trans (w_mul (w_refl om) wc' om0.le om0.le cpos.le (pow_pos zpos 3).le)
  have fP : IsF (rnd (om * c)) := isF_rnd _
  generalize rnd (om * c) = P at *
  have P1' : (2 : ℚ) ^ (-259 : ℤ) ≤ P := P1
  have P2' : P ≤ 2 ^ 303 := by simpa using P2
  have Ppos : 0 < P := lt_of_lt_of_le (pow_pos' _) P1'
  have fL : IsF (rnd (1 - om)) := isF_rnd _
  generalize rnd (1 - om) = L at *
  -- sum
  have eE : Num.add (.fin L) (.fin P) = .fin (rnd (L + P)) :=
    add_fin (by rw [abs_of_nonneg L0]; exact le_trans L1 one1022) (by rw [abs_of_pos Ppos]; exact le_trans P2' h1022')
  refine ⟨L, Z, c, P, rnd (L + P), eL, eZ, ec, eP, eE, fP, fL, isF_rnd _, L0, L1, Lpos, c1', c2', P1', P2', ?_, ?_, ?_, wL, ?_, ?_, ?_⟩
  · exact le_rnd (by linarith) fP
  · exact le_rnd (by linarith) fL
  · refine rnd_le ?_ (npow_isF _)
    have e4 : (2 : ℚ) ^ 304 = 2 * 2 ^ 303 := by rw [show 304 = 303 + 1 from rfl, pow_succ]; ring
    have e5 : (1 : ℚ) ≤ 2 ^ 303 := one_le_pow₀ (by norm_num)
    rw [e4]
    generalize (2 : ℚ) ^ 303 = A at *
    linarith only [L1, P2', e5]
  · exact wc'
  · exact wP'
  · exact w_rnd_add fL fP (by linarith)

theorem efunc_eq {om z L Z c P E : ℚ} (h : Parts om z L Z c P E) (ob H0 : Num) :
    (Cosm.new (.fin om) ob H0).efuncSqr (.fin z) = .fin E := by
  unfold Cosm.efuncSqr Cosm.new
  simp only [h.eL, h.eZ, h.ec, h.eP, h.eE]

/-- Specification: the exact expansion function squared. -/
def E2 (om z : ℚ) : ℚ := 1 - om + om * (z + 1) ^ 3

theorem E2_pos {om z : ℚ} (o0 : 0 < om) (o1 : om ≤ 1) (z0 : -1 < z) : 0 < E2 om z := by
  have := mul_pos o0 (pow_pos (show 0 < z + 1 by linarith) 3)
  unfold E2; linarith

theorem wE {om z L Z c P E : ℚ} (h : Parts om z L Z c P E) (o0 : 0 < om) (o1 : om ≤ 1) (z0 : -1 < z) : Within E (E2 om z) 7 := by
  have P0 : 0 < P := lt_of_lt_of_le (pow_pos' _) h.P1
  have hz : 0 < om * (z + 1) ^ 3 := mul_pos o0 (pow_pos (show 0 < z + 1 by linarith) 3)
  have h2 := w_add (w_mono h.wL h.L0 (by linarith) (by norm_num : 1 ≤ 6)) h.wP
  exact h.wE.trans h2

/-- C157 (accuracy): for every double Ω_m0 between 2^-100 and 1 and every double redshift -1 < z ≤ 2^100, `efunc_sqr(z)` is 1 - Ω_m0 + Ω_m0 (1 + z)³ up
to a relative 7·2^-52; `omega_m` and `omega_l` are Ω_m0 (1 + z)³ / E² and (1 - Ω_m0) / E² up to a relative 14·2^-52; the square of `efunc(z)` is E² up to a
relative 12·2^-52. -/
theorem C157_accuracy {om z : ℚ} (fo : IsF om) (o0 : 2 ^ (-100 : ℤ) ≤ om) (o1 : om ≤ 1) (fz : IsF z) (z0 : -1 < z) (z1 : z ≤ 2 ^ 100) (ob H0 : Num)
    (sq : ℚ → ℚ) (hq : IsSqrt sq) :
    ∃ E m l r : ℚ, (Cosm.new (.fin om) ob H0).efuncSqr (.fin z) = .fin E ∧ |E - E2 om z| ≤ 7 * 2 ^ (-52 : ℤ) * E2 om z ∧
      (Cosm.new (.fin om) ob H0).omegaM (.fin z) = .fin m ∧ |m - om * (z + 1) ^ 3 / E2 om z| ≤ 14 * 2 ^ (-52 : ℤ) * (om * (z + 1) ^ 3 / E2 om z) ∧
      (Cosm.new (.fin om) ob H0).omegaL (.fin z) = .fin l ∧ |l - (1 - om) / E2 om z| ≤ 14 * 2 ^ (-52 : ℤ) * ((1 - om) / E2 om z) ∧
      (Cosm.new (.fin om) ob H0).efunc sq (.fin z) = .fin r ∧ 0 ≤ r ∧ |r ^ 2 - E2 om z| ≤ 12 * 2 ^ (-52 : ℤ) * E2 om z := by
  obtain ⟨L, Z, c, P, E, h⟩ := parts fo o0 o1 fz z0 z1
  have om0 : 0 < om := lt_of_lt_of_le (pow_pos' _) o0
  have hE2 := E2_pos om0 o1 z0
  have WE := wE h om0 o1 z0
  have P0 : 0 < P := lt_of_lt_of_le (pow_pos' _) h.P1
  have E0 : 0 < E := lt_of_lt_of_le P0 h.E1
  have hz : 0 < om * (z + 1) ^ 3 := mul_pos om0 (pow_pos (show 0 < z + 1 by linarith) 3)
  have e := efunc_eq h ob H0
  have cE := (WE.close hE2 (by norm_num)).1
  -- quotients
  have quo : ∀ (x t : ℚ) (k : Nat), Within x t k → k ≤ 6 → 0 < t → (2 : ℚ) ^ (-259 : ℤ) ≤ x → x ≤ E →
      Num.div (.fin x) (.fin E) = .fin (rnd (x / E)) ∧ |rnd (x / E) - t / E2 om z| ≤ 14 * 2 ^ (-52 : ℤ) * (t / E2 om z) := by
    intro x t k hw hk ht hx hxE
    have x0 : 0 < x := lt_of_lt_of_le (pow_pos' _) hx
    have l : (2 : ℚ) ^ (-563 : ℤ) ≤ x / E := by
      rw [le_div_iff₀ E0]
      have : (2 : ℚ) ^ (-563 : ℤ) * 2 ^ 304 = 2 ^ (-259 : ℤ) := by rw [← zpow_natCast, ← zpow_add₀ (by norm_num)]; norm_num
      calc (2 : ℚ) ^ (-563 : ℤ) * E ≤ 2 ^ (-563 : ℤ) * 2 ^ 304 := mul_le_mul_of_nonneg_left h.E2 (pow_pos' _).le
        _ = 2 ^ (-259 : ℤ) := this
        _ ≤ x := hx
    have u : x / E ≤ 1 := by rw [div_le_one E0]; exact hxE
    have w1 := w_rnd (le_trans (zpow_le_zpow_right₀ (by norm_num) (by norm_num)) l)
    have w2 := w1.trans (Within.div hw WE ht hE2)
    have xE0 : 0 < x / E := div_pos x0 E0
    have w3 := w_mono w2 (rnd_nonneg xE0.le) (div_pos ht hE2).le (show 1 + (k + 7) ≤ 14 by omega)
    have := (w3.close (div_pos ht hE2) (by norm_num)).1
    refine ⟨div_fin E0.ne' ?_, by exact_mod_cast this⟩
    rw [abs_of_pos xE0]
    exact le_trans u (one_le_pow₀ (by norm_num))
  obtain ⟨m1, m2⟩ := quo P _ 6 h.wP le_rfl hz h.P1 h.E1
  obtain ⟨l, l1, l2⟩ : ∃ l, Num.div (.fin L) (.fin E) = .fin l ∧ |l - (1 - om) / E2 om z| ≤ 14 * 2 ^ (-52 : ℤ) * ((1 - om) / E2 om z) := by
    rcases h.Lpos with hL | hL
    · have : om = 1 := by
        by_contra hc
        have hlt : 0 < 1 - om := by
          rcases lt_or_eq_of_le o1 with h | h
          · linarith
          · exact absurd h hc
        have := h.wL.pos hlt
        linarith
      refine ⟨0, ?_, ?_⟩
      · rw [hL, div_fin E0.ne' (by rw [zero_div, abs_zero]; positivity), zero_div, rnd_zero]
      · rw [this]; simp
    · have ho : 0 < 1 - om := by
        rcases lt_or_eq_of_le o1 with h' | h'
        · linarith
        · exfalso
          have h5 := h.wL.2
          rw [h', sub_self] at h5
          have : 0 < L := lt_of_lt_of_le (pow_pos' _) hL
          have := mul_pos this (pow_pos u_pos 1)
          linarith
      obtain ⟨a, b⟩ := quo L _ 1 h.wL (by norm_num) ho (le_trans (zpow_le_zpow_right₀ (by norm_num) (by norm_num)) hL) h.E1'
      exact ⟨_, a, b⟩
  obtain ⟨q1, q2, q3⟩ := hq E h.fE E0.le
  refine ⟨E, _, l, sq E, e, by exact_mod_cast cE, ?_, m2, ?_, l2, ?_, q2, ?_⟩
  · unfold Cosm.omegaM
    rw [e]
    show Num.div (Num.mul (Num.fin om) (cube (Num.add (Num.fin z) (Num.fin 1)))) _ = _
    rw [h.eZ, h.ec, h.eP, m1]
  · unfold Cosm.omegaL
    rw [e]
    show Num.div (Num.sub (Num.fin 1) (Num.fin om)) _ = _
    rw [h.eL, l1]
  · unfold Cosm.efunc
    rw [e]
    exact if_neg (not_lt.mpr E0.le)
  · have e50 : (2 : ℚ) ^ (-50 : ℤ) = 4 * 2 ^ (-52 : ℤ) := by norm_num
    have e52 : (2 : ℚ) ^ (-52 : ℤ) ≤ 1 / 64 := by norm_num
    have p52 := pow_pos' (-52)
    rw [e50] at q3
    have cE' : |E - E2 om z| ≤ 7 * 2 ^ (-52 : ℤ) * E2 om z := by exact_mod_cast cE
    generalize (2 : ℚ) ^ (-52 : ℤ) = u at *
    generalize E2 om z = t at *
    rw [abs_le] at *
    have hu : u * E ≤ u * (t + 7 * u * t) := mul_le_mul_of_nonneg_left (by linarith) p52.le
    have hu2 : u * (7 * u * t) ≤ 1 / 64 * (7 * u * t) := mul_le_mul_of_nonneg_right e52 (by positivity)
    have : 0 < u * t := mul_pos p52 hE2
    constructor <;> nlinarith


/-! ### Today -/

theorem ofQ_self' {x : ℚ} (fx : IsF x) (h : |x| ≤ 2 ^ 1023) : ofQ x = .fin x := by
  have := ofQ_fin_le h FloatBins.pow1023 FloatBins.lt1024
  rw [this, show rnd x = x from fx]

theorem le1023 {x : ℚ} (h0 : 0 ≤ x) (h : x ≤ 1) : |x| ≤ 2 ^ 1023 := by
  rw [abs_of_nonneg h0]
  exact le_trans h (one_le_pow₀ (by norm_num))

theorem efunc_today {om : ℚ} (fo : IsF om) (o0 : 0 ≤ om) (o1 : om ≤ 1) (ob H0 : Num) :
    (Cosm.new (.fin om) ob H0).efuncSqr (.fin 0) = .fin 1 ∧ Num.mul (.fin om) (cube (Num.add (.fin 0) (.fin 1))) = .fin om ∧
    Num.sub (.fin 1) (.fin om) = .fin (rnd (1 - om)) := by
  have one1022 : (1 : ℚ) ≤ 2 ^ 1022 := one_le_pow₀ (by norm_num)
  have one1 : ofQ 1 = .fin 1 := ofQ_self' one_isF (le1023 (by norm_num) le_rfl)
  have eL : Num.sub (.fin 1) (.fin om) = .fin (rnd (1 - om)) :=
    sub_fin (by rw [abs_one]; exact one1022) (by rw [abs_of_nonneg o0]; exact le_trans o1 one1022)
  have ez : Num.add (.fin 0) (.fin 1) = .fin 1 := by
    show ofQ (0 + 1) = _
    rw [zero_add, one1]
  have em : Num.mul (.fin 1) (.fin 1) = .fin 1 := by
    show ofQ (1 * 1) = _
    rw [one_mul, one1]
  have ec : cube (.fin 1) = .fin 1 := by unfold cube; rw [em, em]
  have eo : Num.mul (.fin om) (.fin 1) = .fin om := by
    show ofQ (om * 1) = _
    rw [mul_one, ofQ_self' fo (le1023 o0 o1)]
  have hL1 : rnd (1 - om) ≤ 1 := rnd_le (by linarith) one_isF
  have hL0 : 0 ≤ rnd (1 - om) := rnd_nonneg (by linarith)
  have es : Num.add (.fin (rnd (1 - om))) (.fin om) = .fin 1 := by
    rw [add_fin (by rw [abs_of_nonneg hL0]; exact le_trans hL1 one1022) (by rw [abs_of_nonneg o0]; exact le_trans o1 one1022), closure_one fo o0 o1]
  refine ⟨?_, by rw [ez, ec, eo], eL⟩
  unfold Cosm.efuncSqr Cosm.new
  simp only [eL, ez, ec, eo, es]

/-- C157 (today): at redshift 0 the background is exact, for every double Ω_m0 between 0 and 1: E² and E are 1 (the rounding of 1 - Ω_m0 is undone by
adding Ω_m0), H is H0, Ω_m is Ω_m0, Ω_Λ is the rounded 1 - Ω_m0, and the critical and mean densities are those of today. -/
theorem C157_today {om : ℚ} (fo : IsF om) (o0 : 0 ≤ om) (o1 : om ≤ 1) (ob : Num) {H0 : ℚ} (fH : IsF H0) (hH : |H0| ≤ 2 ^ 1023)
    (sq : ℚ → ℚ) (hs : sq 1 = 1) {rho : ℚ} (fr : IsF rho) (hr : |rho| ≤ 2 ^ 1023) :
    let C := Cosm.new (.fin om) ob (.fin H0)
    C.efuncSqr (.fin 0) = .fin 1 ∧ C.efunc sq (.fin 0) = .fin 1 ∧ C.bigHubble sq (.fin 0) = .fin H0 ∧ C.omegaM (.fin 0) = .fin om ∧
      C.omegaL (.fin 0) = .fin (rnd (1 - om)) ∧ C.crit (.fin rho) (.fin 0) = .fin rho ∧ C.mean (.fin rho) (.fin 0) = C.mean0 (.fin rho) := by
  intro C
  obtain ⟨h1, h2, h3⟩ := efunc_today fo o0 o1 ob (.fin H0)
  have h4 : C.efunc sq (.fin 0) = .fin 1 := by
    show npSqrt sq (C.efuncSqr (.fin 0)) = _
    rw [h1]
    show (if (1 : ℚ) < 0 then Num.nan else Num.fin (sq 1)) = _
    rw [if_neg (by norm_num), hs]
  have d1 : ∀ x : ℚ, IsF x → 0 ≤ x → x ≤ 1 → Num.div (.fin x) (.fin 1) = .fin x := by
    intro x fx h0 h1
    rw [div_fin one_ne_zero (by rw [div_one]; exact le1023 h0 h1), div_one, show rnd x = x from fx]
  have m1 : ∀ x : ℚ, IsF x → |x| ≤ 2 ^ 1023 → Num.mul (.fin x) (.fin 1) = .fin x := by
    intro x fx hx
    rw [mul_fin (by rwa [mul_one]), mul_one, show rnd x = x from fx]
  refine ⟨h1, h4, ?_, ?_, ?_, ?_, ?_⟩
  · show Num.mul (.fin H0) (C.efunc sq (.fin 0)) = _
    rw [h4]; exact m1 _ fH hH
  · show Num.div (Num.mul (.fin om) (cube (Num.add (.fin 0) (.fin 1)))) (C.efuncSqr (.fin 0)) = _
    rw [h1, h2]; exact d1 _ fo o0 o1
  · show Num.div (Num.sub (.fin 1) (.fin om)) (C.efuncSqr (.fin 0)) = _
    rw [h1, h3]
    exact d1 _ (isF_rnd _) (rnd_nonneg (by linarith)) (rnd_le (by linarith) one_isF)
  · show Num.mul (.fin rho) (C.efuncSqr (.fin 0)) = _
    rw [h1]; exact m1 _ fr hr
  · have one1 : ofQ 1 = .fin 1 := ofQ_self' one_isF (le1023 (by norm_num) le_rfl)
    have ez : Num.add (.fin 0) (.fin 1) = .fin 1 := by
      show ofQ (0 + 1) = _
      rw [zero_add, one1]
    have em : Num.mul (.fin 1) (.fin 1) = .fin 1 := by
      show ofQ (1 * 1) = _
      rw [one_mul, one1]
    have ec : cube (.fin 1) = .fin 1 := by unfold cube; rw [em, em]
    show Num.mul (Num.mul (.fin rho) (.fin om)) (cube (Num.add (.fin 0) (.fin 1))) = Num.mul (.fin rho) (.fin om)
    rw [ez, ec]
    have hb : |rho * om| ≤ 2 ^ 1023 := by
      rw [abs_mul, abs_of_nonneg o0]
      exact le_trans (mul_le_of_le_one_right (abs_nonneg _) o1) hr
    rw [mul_fin hb]
    refine m1 _ (isF_rnd _) ?_
    rw [rnd_abs]
    exact rnd_le hb FloatBins.pow1023

/-- C157 (budget): `omega_m(z)` and `omega_l(z)` are between 0 and 1, and add up to 1 within 2·2^-52, at every redshift. -/
theorem C157_budget {om z : ℚ} (fo : IsF om) (o0 : 2 ^ (-100 : ℤ) ≤ om) (o1 : om ≤ 1) (fz : IsF z) (z0 : -1 < z) (z1 : z ≤ 2 ^ 100) (ob H0 : Num) :
    ∃ m l : ℚ, (Cosm.new (.fin om) ob H0).omegaM (.fin z) = .fin m ∧ (Cosm.new (.fin om) ob H0).omegaL (.fin z) = .fin l ∧
      0 ≤ m ∧ m ≤ 1 ∧ 0 ≤ l ∧ l ≤ 1 ∧ |m + l - 1| ≤ 2 * 2 ^ (-52 : ℤ) := by
  obtain ⟨L, Z, c, P, E, h⟩ := parts fo o0 o1 fz z0 z1
  have P0 : 0 < P := lt_of_lt_of_le (pow_pos' _) h.P1
  have E0 : 0 < E := lt_of_lt_of_le P0 h.E1
  have e := efunc_eq h ob H0
  have quo : ∀ x : ℚ, 0 ≤ x → (x = 0 ∨ (2 : ℚ) ^ (-259 : ℤ) ≤ x) → x ≤ E →
      Num.div (.fin x) (.fin E) = .fin (rnd (x / E)) ∧ 0 ≤ rnd (x / E) ∧ rnd (x / E) ≤ 1 ∧ Within (rnd (x / E)) (x / E) 1 := by
    intro x x0 hx hxE
    have u : x / E ≤ 1 := by rw [div_le_one E0]; exact hxE
    have p : 0 ≤ x / E := div_nonneg x0 E0.le
    refine ⟨div_fin E0.ne' (le1023 p u), rnd_nonneg p, rnd_le u one_isF, ?_⟩
    rcases hx with rfl | hx
    · rw [zero_div, rnd_zero]; unfold Within; simp
    · refine w_rnd (le_trans (zpow_le_zpow_right₀ (by norm_num) (by norm_num : (-1022 : ℤ) ≤ -563)) ?_)
      rw [le_div_iff₀ E0]
      have : (2 : ℚ) ^ (-563 : ℤ) * 2 ^ 304 = 2 ^ (-259 : ℤ) := by rw [← zpow_natCast, ← zpow_add₀ (by norm_num)]; norm_num
      calc (2 : ℚ) ^ (-563 : ℤ) * E ≤ 2 ^ (-563 : ℤ) * 2 ^ 304 := mul_le_mul_of_nonneg_left h.E2 (pow_pos' _).le
        _ = 2 ^ (-259 : ℤ) := this
        _ ≤ x := hx
  obtain ⟨a1, a2, a3, a4⟩ := quo P P0.le (.inr h.P1) h.E1
  obtain ⟨b1, b2, b3, b4⟩ := quo L h.L0 (h.Lpos.imp_right (fun hL => le_trans (zpow_le_zpow_right₀ (by norm_num) (by norm_num)) hL)) h.E1'
  refine ⟨_, _, ?_, ?_, a2, a3, b2, b3, ?_⟩
  · unfold Cosm.omegaM
    rw [e]
    show Num.div (Num.mul (Num.fin om) (cube (Num.add (Num.fin z) (Num.fin 1)))) _ = _
    rw [h.eZ, h.ec, h.eP, a1]
  · unfold Cosm.omegaL
    rw [e]
    show Num.div (Num.sub (Num.fin 1) (Num.fin om)) _ = _
    rw [h.eL, b1]
  · have w := w_add a4 b4
    have hs : 0 < L + P := by linarith [h.L0]
    have e1 : P / E + L / E = (L + P) / E := by rw [← add_div, add_comm]
    rw [e1] at w
    have w2 : Within ((L + P) / E) ((L + P) / (L + P)) (0 + 1) := Within.div (w_refl _) h.wE hs hs
    rw [div_self hs.ne'] at w2
    have := ((w.trans w2).close one_pos (by norm_num)).1
    norm_num at this ⊢
    exact this

/-! ### Monotone -/

theorem ofQ_inj {q r : ℚ} (h : ofQ q = .fin r) : r = rnd q := by
  unfold ofQ at h
  split at h
  · cases h
  · exact (Num.fin.inj h).symm

/-- C157 (monotone): the computed E² never decreases with the redshift, in spite of all roundings. -/
theorem C157_monotone {om z z' : ℚ} (fo : IsF om) (o0 : 2 ^ (-100 : ℤ) ≤ om) (o1 : om ≤ 1) (fz : IsF z) (fz' : IsF z') (z0 : -1 < z) (hz : z ≤ z')
    (z1 : z' ≤ 2 ^ 100) (ob H0 : Num) :
    ∃ E E' : ℚ, (Cosm.new (.fin om) ob H0).efuncSqr (.fin z) = .fin E ∧ (Cosm.new (.fin om) ob H0).efuncSqr (.fin z') = .fin E' ∧ E ≤ E' := by
  obtain ⟨L, Z, c, P, E, h⟩ := parts fo o0 o1 fz z0 (le_trans hz z1)
  obtain ⟨L', Z', c', P', E', h'⟩ := parts fo o0 o1 fz' (lt_of_lt_of_le z0 hz) z1
  have om0 : 0 < om := lt_of_lt_of_le (pow_pos' _) o0
  refine ⟨E, E', efunc_eq h ob H0, efunc_eq h' ob H0, ?_⟩
  have hL : L = L' := Num.fin.inj (h.eL.symm.trans h'.eL)
  have hZ : Z ≤ Z' := by
    rw [ofQ_inj (q := z + 1) h.eZ, ofQ_inj (q := z' + 1) h'.eZ]
    exact rnd_mono (by linarith)
  have hZ0 : 0 ≤ Z := by
    rw [ofQ_inj (q := z + 1) h.eZ]
    exact rnd_nonneg (by linarith)
  have hc : ∀ {Z c : ℚ}, cube (.fin Z) = .fin c → c = rnd (Z * rnd (Z * Z)) := by
    intro Z c hcc
    unfold cube at hcc
    have e1 : Num.mul (.fin Z) (.fin Z) = ofQ (Z * Z) := rfl
    rw [e1] at hcc
    unfold ofQ at hcc
    split at hcc
    · exfalso
      simp only [Num.mul] at hcc
      split at hcc <;> cases hcc
    · exact ofQ_inj (q := Z * rnd (Z * Z)) hcc
  have hcc : c ≤ c' := by
    rw [hc h.ec, hc h'.ec]
    have s1 : rnd (Z * Z) ≤ rnd (Z' * Z') := rnd_mono (mul_le_mul hZ hZ hZ0 (le_trans hZ0 hZ))
    exact rnd_mono (mul_le_mul hZ s1 (rnd_nonneg (mul_nonneg hZ0 hZ0)) (le_trans hZ0 hZ))
  have hP : P ≤ P' := by
    rw [ofQ_inj (q := om * c) h.eP, ofQ_inj (q := om * c') h'.eP]
    exact rnd_mono (mul_le_mul_of_nonneg_left hcc om0.le)
  rw [ofQ_inj (q := L + P) h.eE, ofQ_inj (q := L' + P') h'.eE, hL]
  exact rnd_mono (by linarith)

/-! ### Redshift and scale factor -/

/-- C157 (scale factor): for scale factors up to 1, `z2a(a2z(a))` is `a` up to a relative 4·2^-52; for redshifts from 0, `a2z(z2a(z))` is `z` up to
4·2^-52 of 1 + z; today (a = 1, z = 0) both are exact. -/
theorem C157_scale :
    (∀ a : ℚ, IsF a → 2 ^ (-100 : ℤ) ≤ a → a ≤ 1 → ∃ r : ℚ, z2a (a2z (.fin a)) = .fin r ∧ |r - a| ≤ 4 * 2 ^ (-52 : ℤ) * a) ∧
    (∀ z : ℚ, IsF z → 0 ≤ z → z ≤ 2 ^ 100 → ∃ r : ℚ, a2z (z2a (.fin z)) = .fin r ∧ |r - z| ≤ 4 * 2 ^ (-52 : ℤ) * (1 + z)) ∧
    a2z (.fin 1) = .fin 0 ∧ z2a (.fin 0) = .fin 1 := by
  have one1022 : (1 : ℚ) ≤ 2 ^ 1022 := one_le_pow₀ (by norm_num)
  have p1023 : (2 : ℚ) ^ 101 ≤ 2 ^ 1023 := pow_le_pow_right₀ (by norm_num) (by norm_num)
  have p1022 : (2 : ℚ) ^ 101 ≤ 2 ^ 1022 := pow_le_pow_right₀ (by norm_num) (by norm_num)
  have e101 : (2 : ℚ) ^ 101 = 2 * 2 ^ 100 := by norm_num
  have o100 : (1 : ℚ) ≤ 2 ^ 100 := by norm_num
  have inv100 : ((2 : ℚ) ^ (-100 : ℤ))⁻¹ = 2 ^ 100 := by rw [zpow_neg, inv_inv]; norm_num
  have inv101 : ((2 : ℚ) ^ 101)⁻¹ = 2 ^ (-101 : ℤ) := by rw [zpow_neg]; norm_num
  have tiny : (2 : ℚ) ^ (-1022 : ℤ) ≤ 2 ^ (-101 : ℤ) := zpow_le_zpow_right₀ (by norm_num) (by norm_num)
  have tiny1 : (2 : ℚ) ^ (-101 : ℤ) ≤ 1 := by norm_num
  -- reciprocal of a number between 2^-101 and 2^101
  have recip : ∀ x : ℚ, 2 ^ (-101 : ℤ) ≤ x → x ≤ 2 ^ 101 → Num.div (.fin 1) (.fin x) = .fin (rnd (1 / x)) ∧ Within (rnd (1 / x)) (1 / x) 1 ∧
      2 ^ (-101 : ℤ) ≤ 1 / x ∧ 1 / x ≤ 2 ^ 101 := by
    intro x h1 h2
    have x0 : 0 < x := lt_of_lt_of_le (pow_pos' _) h1
    have l : (2 : ℚ) ^ (-101 : ℤ) ≤ 1 / x := by
      rw [← inv101, one_div]
      exact inv_anti₀ x0 h2
    have u : 1 / x ≤ 2 ^ 101 := by
      rw [one_div]
      have := inv_anti₀ (pow_pos' (-101)) h1
      have e : ((2 : ℚ) ^ (-101 : ℤ))⁻¹ = 2 ^ 101 := by rw [zpow_neg, inv_inv]; norm_num
      rwa [e] at this
    refine ⟨div_fin x0.ne' ?_, w_rnd (le_trans tiny l), l, u⟩
    rw [abs_of_pos (by positivity)]
    exact le_trans u p1023
  refine ⟨?_, ?_, ?_, ?_⟩
  · intro a fa h1 h2
    have a0 : 0 < a := lt_of_lt_of_le (pow_pos' _) h1
    have h101 : (2 : ℚ) ^ (-101 : ℤ) ≤ a := le_trans (zpow_le_zpow_right₀ (by norm_num) (by norm_num)) h1
    obtain ⟨e1, w1, l1, u1⟩ := recip a h101 (le_trans h2 (one_le_pow₀ (by norm_num)))
    have u1' : 1 / a ≤ 2 ^ 100 := by
      rw [one_div, ← inv100]
      exact inv_anti₀ (pow_pos' _) h1
    have q1 : 1 ≤ rnd (1 / a) := le_rnd (by rw [le_div_iff₀ a0]; linarith) one_isF
    have q2 : rnd (1 / a) ≤ 2 ^ 100 := rnd_le u1' (npow_isF _)
    have fq : IsF (rnd (1 / a)) := isF_rnd _
    unfold a2z
    rw [e1]
    generalize rnd (1 / a) = q at *
    have e2 : Num.sub (.fin q) (.fin 1) = .fin (rnd (q - 1)) :=
      sub_fin (by rw [abs_of_nonneg (by linarith)]; exact le_trans q2 (pow_le_pow_right₀ (by norm_num) (by norm_num))) (by rw [abs_one]; exact one1022)
    rw [e2]
    have er := rnd_sub_err fq one_isF
    rw [abs_of_nonneg (show 0 ≤ q - 1 by linarith)] at er
    have z0 : 0 ≤ rnd (q - 1) := rnd_nonneg (by linarith)
    have z1 : rnd (q - 1) ≤ q := rnd_le (by linarith) fq
    have fz : IsF (rnd (q - 1)) := isF_rnd _
    unfold z2a
    generalize rnd (q - 1) = z at *
    have wz : Within (z + 1) q 1 := by
      refine within_rnd_of (by linarith) ?_
      have e : z + 1 - q = z - (q - 1) := by ring
      rw [e]
      refine le_trans er (mul_le_mul_of_nonneg_left (by linarith) (pow_pos' _).le)
    have zu : z + 1 ≤ 2 ^ 101 := by
      rw [e101]
      exact le_trans (add_le_add (le_trans z1 q2) o100) (by rw [two_mul])
    have e3 : Num.add (.fin z) (.fin 1) = .fin (rnd (z + 1)) :=
      add_fin (by rw [abs_of_nonneg z0]; exact le_trans (by linarith) (le_trans zu p1022)) (by rw [abs_one]; exact one1022)
    rw [e3]
    have wZ := w_rnd_add fz one_isF (by linarith)
    have Z1 : 1 ≤ rnd (z + 1) := le_rnd (by linarith) one_isF
    have Z2 : rnd (z + 1) ≤ 2 ^ 101 := rnd_le zu (npow_isF _)
    generalize rnd (z + 1) = Z at *
    obtain ⟨e4, w4, l4, u4⟩ := recip Z (le_trans tiny1 Z1) Z2
    rw [e4]
    have wq := (wZ.trans wz).trans w1
    have w5 := w4.trans (Within.div (w_refl 1) wq one_pos (by positivity))
    rw [one_div_one_div] at w5
    have := (w5.close a0 (by norm_num)).1
    exact ⟨_, rfl, by exact_mod_cast this⟩
  · intro z fz h1 h2
    have zu : z + 1 ≤ 2 ^ 101 := by
      rw [e101]
      exact le_trans (add_le_add h2 o100) (by rw [two_mul])
    have e3 : Num.add (.fin z) (.fin 1) = .fin (rnd (z + 1)) :=
      add_fin (by rw [abs_of_nonneg h1]; exact le_trans (by linarith) (le_trans zu p1022)) (by rw [abs_one]; exact one1022)
    unfold z2a
    rw [e3]
    have wZ := w_rnd_add fz one_isF (by linarith)
    have Z1 : 1 ≤ rnd (z + 1) := le_rnd (by linarith) one_isF
    have Z2 : rnd (z + 1) ≤ 2 ^ 101 := rnd_le zu (npow_isF _)
    generalize rnd (z + 1) = Z at *
    have Z0 : 0 < Z := by linarith
    obtain ⟨e4, w4, l4, u4⟩ := recip Z (le_trans tiny1 Z1) Z2
    rw [e4]
    have a1 : rnd (1 / Z) ≤ 1 := rnd_le (by rw [div_le_one Z0]; exact Z1) one_isF
    have a2 : (2 : ℚ) ^ (-101 : ℤ) ≤ rnd (1 / Z) := le_rnd l4 (isF_pow (by norm_num))
    unfold a2z
    generalize rnd (1 / Z) = a at *
    have a0 : 0 < a := lt_of_lt_of_le (pow_pos' _) a2
    obtain ⟨e5, w5, l5, u5⟩ := recip a a2 (le_trans a1 (one_le_pow₀ (by norm_num)))
    rw [e5]
    have q1 : 1 ≤ rnd (1 / a) := le_rnd (by rw [le_div_iff₀ a0]; linarith) one_isF
    have q2 : rnd (1 / a) ≤ 2 ^ 101 := rnd_le u5 (npow_isF _)
    have fq : IsF (rnd (1 / a)) := isF_rnd _
    have hz1 : 0 < z + 1 := by linarith
    have wa := w4.trans (Within.div (w_refl 1) wZ one_pos hz1)
    have wq := w5.trans (Within.div (w_refl 1) wa one_pos (by positivity))
    rw [one_div_one_div] at wq
    generalize rnd (1 / a) = q at *
    have e2 : Num.sub (.fin q) (.fin 1) = .fin (rnd (q - 1)) :=
      sub_fin (by rw [abs_of_nonneg (by linarith)]; exact le_trans q2 p1022) (by rw [abs_one]; exact one1022)
    rw [e2]
    refine ⟨_, rfl, ?_⟩
    have er := rnd_sub_err fq one_isF
    rw [abs_of_nonneg (show 0 ≤ q - 1 by linarith)] at er
    obtain ⟨c1, c2, _⟩ := wq.close hz1 (by norm_num)
    have e53 : (2 : ℚ) ^ (-53 : ℤ) = 2 ^ (-52 : ℤ) / 2 := by norm_num
    rw [e53] at er
    have p52 := pow_pos' (-52)
    have c1' : |q - (z + 1)| ≤ 3 * 2 ^ (-52 : ℤ) * (z + 1) := by norm_num at c1 ⊢; exact c1
    generalize rnd (q - 1) = y at *
    generalize (2 : ℚ) ^ (-52 : ℤ) = u at *
    rw [abs_le] at *
    have : u / 2 * (q - 1) ≤ u / 2 * (2 * (z + 1)) := mul_le_mul_of_nonneg_left (by linarith only [c2]) (by linarith only [p52])
    constructor <;> linarith only [c1'.1, c1'.2, er.1, er.2, this]
  · decide +kernel
  · decide +kernel

/-- C157, a finding: for scale factors above 1 (the future) the conversion to redshift and back loses everything: 2^60 comes back as infinity in an array, and
with ZeroDivisionError as a number. -/
theorem C157_future : a2z (.fin (2 ^ 60)) = .fin (-1) ∧ z2a (a2z (.fin (2 ^ 60))) = .inf false ∧
    (a2zScalar (.fin (2 ^ 60))).bind z2aScalar = .error .zeroDivisionError := by
  refine ⟨by decide +kernel, by decide +kernel, ?_⟩
  have e : Num.sub (Num.div (.fin 1) (.fin (2 ^ 60))) (.fin 1) = .fin (-1) := by decide +kernel
  have e' : Num.add (.fin (-1)) (.fin 1) = .fin 0 := by decide +kernel
  have h0 : ¬ Num.fin (2 ^ 60) = .fin 0 := by decide +kernel
  simp only [a2zScalar, pyDiv, if_neg h0, bind, Except.bind, pure, Except.pure, e, z2aScalar, e', if_true]

/-- C157 (numbers): for a number the functions return what they return for an array of it, except that a vanishing divisor raises ZeroDivisionError: E² = 0 for the
two fractions, a = 0 for `a2z`, z = -1 for `z2a`; the baryon fraction raises it if and only if there is no matter. -/
theorem C157_scalar (c : Cosm) (z a : Num) :
    c.omegaMScalar z = (if c.efuncSqr z = .fin 0 then .error .zeroDivisionError else .ok (c.omegaM z)) ∧
    c.omegaLScalar z = (if c.efuncSqr z = .fin 0 then .error .zeroDivisionError else .ok (c.omegaL z)) ∧
    a2zScalar a = (if a = .fin 0 then .error .zeroDivisionError else .ok (a2z a)) ∧
    (∀ q : ℚ, IsF q → z2aScalar (.fin q) = (if q = -1 then .error .zeroDivisionError else .ok (z2a (.fin q)))) ∧
    (c.baryonFraction = .error .zeroDivisionError ↔ c.omegaM0 = .fin 0) := by
  refine ⟨rfl, rfl, ?_, fun q fq => ?_, ?_⟩
  · unfold a2zScalar pyDiv
    split_ifs <;> rfl
  · have h : Num.add (.fin q) (.fin 1) = .fin 0 ↔ q = -1 := by
      constructor
      · intro h
        have hs : IsF (-1 : ℚ) := one_isF.neg
        by_contra hne
        have e : Num.add (.fin q) (.fin 1) = ofQ (q + 1) := rfl
        rw [e] at h
        unfold ofQ at h
        split_ifs at h
        have h := Num.fin.inj h
        rcases lt_or_gt_of_ne hne with l | l
        · have := rnd_sub_pos hs fq l
          rw [show -1 - q = -(q + 1) by ring, rnd_neg, h] at this
          norm_num at this
        · have := rnd_sub_pos fq hs l
          rw [show q - -1 = q + 1 by ring, h] at this
          norm_num at this
      · rintro rfl
        decide +kernel
    unfold z2aScalar pyDiv z2a
    by_cases hq : q = -1
    · rw [if_pos (h.mpr hq), if_pos hq]
    · rw [if_neg (fun h' => hq (h.mp h')), if_neg hq]
  · unfold Cosm.baryonFraction pyDiv
    split_ifs with h
    · exact ⟨fun _ => h, fun _ => rfl⟩
    · exact ⟨fun h' => by (cases h'), fun h' => absurd h' h⟩

/-- A cosmology of matter alone at z = -1. -/
example : (Cosm.new (.fin 1) (.fin 0) (.fin 1)).omegaMScalar (.fin (-1)) = .error .zeroDivisionError := by
  rw [(C157_scalar _ _ (.fin 1)).1, if_pos (by decide +kernel)]

/-! ### Densities -/

/-- C157 (densities): given a critical density today ρ between 2^-100 and 2^100, `crit(z)` is ρ E² up to a relative 8·2^-52 and `mean(z)` is ρ Ω_m0 (1 + z)³ up to
a relative 7·2^-52. -/
theorem C157_densities {om z rho : ℚ} (fo : IsF om) (o0 : 2 ^ (-100 : ℤ) ≤ om) (o1 : om ≤ 1) (fz : IsF z) (z0 : -1 < z) (z1 : z ≤ 2 ^ 100)
    (r1 : 2 ^ (-100 : ℤ) ≤ rho) (r2 : rho ≤ 2 ^ 100) (ob H0 : Num) :
    ∃ c m : ℚ, (Cosm.new (.fin om) ob H0).crit (.fin rho) (.fin z) = .fin c ∧ |c - rho * E2 om z| ≤ 8 * 2 ^ (-52 : ℤ) * (rho * E2 om z) ∧
      (Cosm.new (.fin om) ob H0).mean (.fin rho) (.fin z) = .fin m ∧
      |m - rho * (om * (z + 1) ^ 3)| ≤ 7 * 2 ^ (-52 : ℤ) * (rho * (om * (z + 1) ^ 3)) := by
  obtain ⟨L, Z, c, P, E, h⟩ := parts fo o0 o1 fz z0 z1
  have om0 : 0 < om := lt_of_lt_of_le (pow_pos' _) o0
  have rho0 : 0 < rho := lt_of_lt_of_le (pow_pos' _) r1
  have c0 : 0 < c := lt_of_lt_of_le (pow_pos' _) h.c1
  have hE2 := E2_pos om0 o1 z0
  have WE := wE h om0 o1 z0
  have P0 : 0 < P := lt_of_lt_of_le (pow_pos' _) h.P1
  have E0 : 0 < E := lt_of_lt_of_le P0 h.E1
  have hz : 0 < (z + 1) ^ 3 := pow_pos (show 0 < z + 1 by linarith) 3
  obtain ⟨a1, -, -, a4⟩ := mul_box r1 r2 (le_trans h.P1 h.E1) h.E2 (by norm_num) (by norm_num)
  have wa := a4.trans (w_mul (w_refl rho) WE rho0.le rho0.le E0.le hE2.le)
  obtain ⟨b1, b2, b3, b4⟩ := mul_box r1 r2 o0 (show om ≤ 2 ^ 0 by simpa using o1) (by norm_num) (by norm_num)
  obtain ⟨d1, -, -, d4⟩ := mul_box b2 b3 h.c1 h.c2 (by norm_num) (by norm_num)
  have m0 : 0 < rnd (rho * om) := lt_of_lt_of_le (pow_pos' _) b2
  have wd := d4.trans (w_mul b4 h.wc m0.le (mul_pos rho0 om0).le c0.le hz.le)
  refine ⟨rnd (rho * E), rnd (rnd (rho * om) * c), ?_, ?_, ?_, ?_⟩
  · unfold Cosm.crit
    rw [efunc_eq h ob H0, a1]
  · have := (wa.close (mul_pos rho0 hE2) (by norm_num)).1
    norm_num at this ⊢; exact this
  · unfold Cosm.mean Cosm.mean0
    show Num.mul (Num.mul (.fin rho) (.fin om)) (cube (Num.add (.fin z) (.fin 1))) = _
    rw [h.eZ, h.ec, b1, d1]
  · have := (wd.close (mul_pos (mul_pos rho0 om0) hz) (by norm_num)).1
    rw [mul_assoc rho] at this
    norm_num at this ⊢; exact this

/-- C157 (NaN and infinity): a redshift that is NaN makes everything NaN; at infinite redshift E² is infinite, Ω_Λ is 0 and Ω_m is NaN. -/
theorem C157_special (C : Cosm) (sq : ℚ → ℚ) :
    (C.efuncSqr .nan = .nan ∧ C.efunc sq .nan = .nan ∧ C.bigHubble sq .nan = .nan ∧ C.omegaM .nan = .nan ∧ C.omegaL .nan = .nan ∧ a2z .nan = .nan ∧ z2a .nan = .nan) ∧
    (∀ (om : ℚ) (ob H0 : Num), 0 < om → om ≤ 1 → (Cosm.new (.fin om) ob H0).efuncSqr (.inf false) = .inf false ∧
      (Cosm.new (.fin om) ob H0).omegaM (.inf false) = .nan ∧ (Cosm.new (.fin om) ob H0).omegaL (.inf false) = .fin 0) ∧
    z2a (.inf false) = .fin 0 ∧ a2z (.inf false) = .fin (-1) := by
  have an : ∀ x : Num, Num.add x .nan = .nan := fun x => by cases x <;> rfl
  have mn : ∀ x : Num, Num.mul x .nan = .nan := fun x => by cases x <;> rfl
  have dn : ∀ x : Num, Num.div x .nan = .nan := fun x => by cases x <;> rfl
  have e1 : C.efuncSqr .nan = .nan := by
    show Num.add C.omegaL0 (Num.mul C.omegaM0 .nan) = _
    rw [mn, an]
  have e2 : C.efunc sq .nan = .nan := by
    show npSqrt sq (C.efuncSqr .nan) = _
    rw [e1]; rfl
  refine ⟨⟨e1, e2, ?_, ?_, ?_, rfl, rfl⟩, ?_, rfl, by decide +kernel⟩
  · show Num.mul _ (C.efunc sq .nan) = _
    rw [e2, mn]
  · show Num.div _ (C.efuncSqr .nan) = _
    rw [e1, dn]
  · show Num.div _ (C.efuncSqr .nan) = _
    rw [e1, dn]
  · intro om ob H0 h0 h1
    have one1022 : (1 : ℚ) ≤ 2 ^ 1022 := one_le_pow₀ (by norm_num)
    have eL : Num.sub (.fin 1) (.fin om) = .fin (rnd (1 - om)) :=
      sub_fin (by rw [abs_one]; exact one1022) (by rw [abs_of_pos h0]; exact le_trans h1 one1022)
    have em : Num.mul (.fin om) (.inf false) = .inf false := by
      show (if om = 0 then Num.nan else Num.inf (decide (om < 0) != false)) = _
      rw [if_neg h0.ne', decide_eq_false (not_lt.mpr h0.le)]; rfl
    have ec : cube (Num.add (.inf false) (.fin 1)) = .inf false := rfl
    have eE : (Cosm.new (.fin om) ob H0).efuncSqr (.inf false) = .inf false := by
      show Num.add (Num.sub (.fin 1) (.fin om)) (Num.mul (.fin om) (cube (Num.add (.inf false) (.fin 1)))) = _
      rw [ec, em, eL]; rfl
    refine ⟨eE, ?_, ?_⟩
    · show Num.div (Num.mul (.fin om) (cube (Num.add (.inf false) (.fin 1)))) ((Cosm.new (.fin om) ob H0).efuncSqr (.inf false)) = _
      rw [ec, em, eE]; rfl
    · show Num.div (Num.sub (.fin 1) (.fin om)) ((Cosm.new (.fin om) ob H0).efuncSqr (.inf false)) = _
      rw [eL, eE]; rfl

/-- The hypotheses are met: Ω_m0 the double nearest to 0.3089, z = 2. -/
example : ∃ m l : ℚ, (Cosm.new (.fin (rnd (3089 / 10000))) .nan .nan).omegaM (.fin 2) = .fin m ∧ (Cosm.new (.fin (rnd (3089 / 10000))) .nan .nan).omegaL (.fin 2) = .fin l ∧
    |m + l - 1| ≤ 2 * 2 ^ (-52 : ℤ) := by
  obtain ⟨m, l, h1, h2, -, -, -, -, h3⟩ := C157_budget (om := rnd (3089 / 10000)) (z := 2) (isF_rnd _) (by decide +kernel) (by decide +kernel) (by decide +kernel) (by norm_num)
    (by norm_num) .nan .nan
  exact ⟨m, l, h1, h2, h3⟩

/-- The square root of the tests is exact at 1. -/
example : sqrt53 1 = 1 := by decide +kernel

/-! ### Hubble parameter and baryons -/

/-- C157 (Hubble parameter): for a Hubble constant between 2^-100 and 2^100 the square of `big_hubble(z)` is H0² E² up to a relative 15·2^-52. -/
theorem C157_hubble {om z H0 : ℚ} (fo : IsF om) (o0 : 2 ^ (-100 : ℤ) ≤ om) (o1 : om ≤ 1) (fz : IsF z) (z0 : -1 < z) (z1 : z ≤ 2 ^ 100)
    (h1 : 2 ^ (-100 : ℤ) ≤ H0) (h2 : H0 ≤ 2 ^ 100) (ob : Num) (sq : ℚ → ℚ) (hq : IsSqrt sq) :
    ∃ H : ℚ, (Cosm.new (.fin om) ob (.fin H0)).bigHubble sq (.fin z) = .fin H ∧ 0 < H ∧ |H ^ 2 - H0 ^ 2 * E2 om z| ≤ 15 * 2 ^ (-52 : ℤ) * (H0 ^ 2 * E2 om z) := by
  obtain ⟨E, m, l, r, e1, a1, -, -, -, -, e4, r0, a4⟩ := C157_accuracy fo o0 o1 fz z0 z1 ob (.fin H0) sq hq
  obtain ⟨L, Z, c, P, E', h⟩ := parts fo o0 o1 fz z0 z1
  have eE : E = E' := by
    have := efunc_eq h ob (.fin H0)
    rw [e1] at this
    exact Num.fin.inj this
  subst eE
  have om0 : 0 < om := lt_of_lt_of_le (pow_pos' _) o0
  have hE2 := E2_pos om0 o1 z0
  obtain ⟨c1, c2, c3⟩ := (wE h om0 o1 z0).close hE2 (by norm_num)
  have El : (2 : ℚ) ^ (-259 : ℤ) ≤ E := le_trans h.P1 h.E1
  have Eu := h.E2
  have H00 : 0 < H0 := lt_of_lt_of_le (pow_pos' _) h1
  obtain ⟨b1, b2⟩ := abs_le.mp a4
  have u : 12 * (2 : ℚ) ^ (-52 : ℤ) ≤ 1 / 2 := by norm_num
  have k := mul_le_mul_of_nonneg_right u hE2.le
  have rl : (2 : ℚ) ^ (-131 : ℤ) ≤ r := by
    by_contra hc
    have hlt : r < 2 ^ (-131 : ℤ) := not_le.mp hc
    have : r ^ 2 < (2 ^ (-131 : ℤ)) ^ 2 := pow_lt_pow_left₀ hlt r0 (by norm_num)
    have e : ((2 : ℚ) ^ (-131 : ℤ)) ^ 2 * 8 = 2 ^ (-259 : ℤ) := by decide +kernel
    generalize ((2 : ℚ) ^ (-131 : ℤ)) ^ 2 = w at *
    generalize (2 : ℚ) ^ (-259 : ℤ) = w' at *
    generalize 12 * (2 : ℚ) ^ (-52 : ℤ) * E2 om z = w'' at *
    linarith only [this, e, El, c2, b1, k, hE2]
  have ru : r ≤ 2 ^ 153 := by
    by_contra hc
    have hlt : (2 : ℚ) ^ 153 < r := not_le.mp hc
    have : ((2 : ℚ) ^ 153) ^ 2 < r ^ 2 := pow_lt_pow_left₀ hlt (by positivity) (by norm_num)
    have e : ((2 : ℚ) ^ 153) ^ 2 = 4 * 2 ^ 304 := by decide +kernel
    rw [e] at this
    have Eu' : E ≤ 2 ^ 304 := le_trans Eu (pow_le_pow_right₀ (by norm_num) (by norm_num))
    generalize (2 : ℚ) ^ 304 = w at *
    generalize 12 * (2 : ℚ) ^ (-52 : ℤ) * E2 om z = w'' at *
    linarith only [this, Eu', c3, b2, k, hE2]
  obtain ⟨d1, d2, d3, d4⟩ := mul_box h1 h2 rl ru (by norm_num) (by norm_num)
  have rp : 0 < r := lt_of_lt_of_le (pow_pos' _) rl
  have hp : 0 < H0 * r := mul_pos H00 rp
  refine ⟨rnd (H0 * r), ?_, d4.pos hp, ?_⟩
  · show Num.mul (.fin H0) ((Cosm.new (.fin om) ob (.fin H0)).efunc sq (.fin z)) = _
    rw [e4, d1]
  · have w := w_mul d4 d4 (d4.pos hp).le hp.le (d4.pos hp).le hp.le
    obtain ⟨f1, -, -⟩ := w.close (mul_pos hp hp) (by norm_num)
    have e : |H0 ^ 2 * r ^ 2 - H0 ^ 2 * E2 om z| ≤ 12 * 2 ^ (-52 : ℤ) * (H0 ^ 2 * E2 om z) := by
      rw [← mul_sub, abs_mul, abs_of_nonneg (by positivity : (0 : ℚ) ≤ H0 ^ 2)]
      have := mul_le_mul_of_nonneg_left a4 (by positivity : (0 : ℚ) ≤ H0 ^ 2)
      linarith only [this]
    have X0 : 0 ≤ H0 ^ 2 * E2 om z := mul_nonneg (by positivity) hE2.le
    have t1 : rnd (H0 * r) * rnd (H0 * r) = rnd (H0 * r) ^ 2 := by ring
    have t2 : H0 * r * (H0 * r) = H0 ^ 2 * r ^ 2 := by ring
    rw [t1, t2] at f1
    have t3 : H0 ^ 2 * r ^ 2 ≤ 3 / 2 * (H0 ^ 2 * E2 om z) := by
      have := mul_le_mul_of_nonneg_right u X0
      have := (abs_le.mp e).2
      generalize 12 * (2 : ℚ) ^ (-52 : ℤ) * (H0 ^ 2 * E2 om z) = w at *
      linarith
    have t4 := mul_le_mul_of_nonneg_left t3 (mul_nonneg (by norm_num : (0 : ℚ) ≤ 2) (pow_pos' (-52)).le)
    have T := abs_add_le (rnd (H0 * r) ^ 2 - H0 ^ 2 * r ^ 2) (H0 ^ 2 * r ^ 2 - H0 ^ 2 * E2 om z)
    rw [sub_add_sub_cancel] at T
    push_cast at f1
    generalize rnd (H0 * r) ^ 2 = a at *
    generalize H0 ^ 2 * r ^ 2 = b at *
    generalize H0 ^ 2 * E2 om z = x at *
    generalize (2 : ℚ) ^ (-52 : ℤ) = ε at *
    have t5 : 2 * ε * (3 / 2 * x) = 3 * (ε * x) := by ring
    have t6 : 12 * ε * x = 12 * (ε * x) := by ring
    have t7 : 15 * ε * x = 15 * (ε * x) := by ring
    rw [t5] at t4
    rw [t6] at e
    rw [t7]
    linarith only [T, e, f1, t4]

/-- C157 (baryons): the baryon fraction is the nearest double to the ratio; between 0 and 1 if the baryons are part of the matter, 1 if all matter is baryons. -/
theorem C157_baryons {om ob : ℚ} (o0 : 2 ^ (-100 : ℤ) ≤ om) (o1 : om ≤ 1) (b0 : 0 ≤ ob) (b1 : ob ≤ om) (H0 : Num) :
    ∃ f : ℚ, (Cosm.new (.fin om) (.fin ob) H0).baryonFraction = .ok (.fin f) ∧ f = rnd (ob / om) ∧ 0 ≤ f ∧ f ≤ 1 ∧ |f - ob / om| ≤ 2 ^ (-53 : ℤ) * (ob / om) + 2 ^ (-1075 : ℤ) ∧
      (ob = om → f = 1) := by
  have om0 : 0 < om := lt_of_lt_of_le (pow_pos' _) o0
  have q0 : 0 ≤ ob / om := div_nonneg b0 om0.le
  have q1 : ob / om ≤ 1 := by rw [div_le_one om0]; exact b1
  have e := FloatMesh.rnd_err_all (ob / om)
  rw [abs_of_nonneg q0] at e
  refine ⟨rnd (ob / om), by rw [Cosm.baryonFraction, pyDiv, if_neg (show ¬ (Cosm.new (.fin om) (.fin ob) H0).omegaM0 = .fin 0 from fun h => om0.ne' (Num.fin.inj h))]; exact congrArg _ (div_fin om0.ne' (le1023 q0 q1)), rfl, rnd_nonneg q0, rnd_le q1 one_isF, e, fun h => ?_⟩
  rw [h, div_self om0.ne']
  exact one_isF


/-- C157 (numbers): above z = -1 nothing raises. -/
theorem C157_scalar_ok {om z : ℚ} (fo : IsF om) (o0 : 2 ^ (-100 : ℤ) ≤ om) (o1 : om ≤ 1) (fz : IsF z) (z0 : -1 < z) (z1 : z ≤ 2 ^ 100) (ob H0 : Num) :
    let c := Cosm.new (.fin om) ob H0
    c.omegaMScalar (.fin z) = .ok (c.omegaM (.fin z)) ∧ c.omegaLScalar (.fin z) = .ok (c.omegaL (.fin z)) ∧ z2aScalar (.fin z) = .ok (z2a (.fin z)) ∧
      ∃ f, c.baryonFraction = .ok f := by
  intro c
  obtain ⟨L, Z, c', P, E, h⟩ := parts fo o0 o1 fz z0 z1
  have P0 : 0 < P := lt_of_lt_of_le (pow_pos' _) h.P1
  have E0 : 0 < E := lt_of_lt_of_le P0 h.E1
  have e := efunc_eq h ob H0
  have hE : ¬ c.efuncSqr (.fin z) = .fin 0 := by
    rw [e]; exact fun h => E0.ne' (Num.fin.inj h)
  have om0 : 0 < om := lt_of_lt_of_le (pow_pos' _) o0
  obtain ⟨h1, h2, -, h4, -⟩ := C157_scalar c (.fin z) (.fin 1)
  refine ⟨by rw [h1, if_neg hE], by rw [h2, if_neg hE], by rw [h4 z fz, if_neg z0.ne'], Num.div c.omegaB0 c.omegaM0, ?_⟩
  rw [Cosm.baryonFraction, pyDiv, if_neg (show ¬ c.omegaM0 = .fin 0 from fun h => om0.ne' (Num.fin.inj h))]

example : (Cosm.new (.fin (1 / 4)) (.fin 0) (.fin 1)).omegaLScalar (.fin 3) = .ok ((Cosm.new (.fin (1 / 4)) (.fin 0) (.fin 1)).omegaL (.fin 3)) :=
  (C157_scalar_ok (om := 1 / 4) (z := 3) (by decide +kernel) (by norm_num) (by norm_num) (by decide +kernel) (by norm_num)
    (le_trans (show (3 : ℚ) ≤ 2 ^ 2 by norm_num) (pow_le_pow_right₀ (by norm_num) (by norm_num))) (.fin 0) (.fin 1)).2.1

end Pyhipp.FloatCosmology
