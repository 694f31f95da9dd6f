import Verif.Model.FloatStandardize
import Verif.Props.FloatNum
/-
C142: standardisation in double precision.
-/
namespace Pyhipp.FloatStandardize
open Pyhipp Pyhipp.F64 Pyhipp.FloatReduce Pyhipp.FloatNum
open Pyhipp.FloatLinear (sub_fin add_fin)

/-! ### There and back -/

theorem there_alg {x m s d q p r u z : ℚ} (hs : 0 < s) (hu : 0 ≤ u) (hu1 : u ≤ 1 / 64) (hz : 0 ≤ z) (e1 : |d - (x - m)| ≤ u * |x - m|) (e2 : |q - d / s| ≤ u * |d / s| + z)
    (e3 : |p - q * s| ≤ u * |q * s| + z) (e4 : |r - (p + m)| ≤ u * |p + m|) : |r - x| ≤ 4 * u * |x - m| + u * |x| + (3 * s + 2) * z := by
  have A0 := abs_nonneg (x - m)
  have zs := mul_nonneg hz hs.le
  have b1 : |d| ≤ |x - m| + u * |x - m| := by
    have := abs_add_le (d - (x - m)) (x - m)
    rw [sub_add_cancel] at this
    linarith
  have b2 : |q * s - d| ≤ u * |d| + z * s := by
    have e : q * s - d = (q - d / s) * s := by field_simp
    rw [e, abs_mul, abs_of_pos hs]
    refine le_trans (mul_le_mul_of_nonneg_right e2 hs.le) (le_of_eq ?_)
    rw [abs_div, abs_of_pos hs]; field_simp
  have b3 : |q * s| ≤ |d| + (u * |d| + z * s) := by
    have := abs_add_le (q * s - d) d
    rw [sub_add_cancel] at this
    linarith
  have b4 : |p + m - x| ≤ (u * |q * s| + z) + (u * |d| + z * s) + u * |x - m| := by
    have t1 := abs_add_le (p - q * s) (q * s - d)
    have t2 := abs_add_le (p - q * s + (q * s - d)) (d - (x - m))
    rw [show p - q * s + (q * s - d) + (d - (x - m)) = p + m - x by ring] at t2
    linarith
  have b5 : |p + m| ≤ |x| + |p + m - x| := by
    have := abs_add_le (p + m - x) x
    rw [sub_add_cancel] at this
    linarith
  have b6 := abs_add_le (r - (p + m)) (p + m - x)
  rw [sub_add_sub_cancel] at b6
  have uA := mul_nonneg hu A0
  have c1 : u * |d| ≤ u * (|x - m| + u * |x - m|) := mul_le_mul_of_nonneg_left b1 hu
  have c2 : u * (u * |x - m|) ≤ 1 / 64 * (u * |x - m|) := mul_le_mul_of_nonneg_right hu1 uA
  have c3 : u * |q * s| ≤ u * (|d| + (u * |d| + z * s)) := mul_le_mul_of_nonneg_left b3 hu
  have c4 : u * (u * |d|) ≤ 1 / 64 * (u * |d|) := mul_le_mul_of_nonneg_right hu1 (mul_nonneg hu (abs_nonneg _))
  have c5 : u * (z * s) ≤ 1 / 64 * (z * s) := mul_le_mul_of_nonneg_right hu1 zs
  have bE : |p + m - x| ≤ 27 / 8 * (u * |x - m|) + 9 / 8 * (z * s) + z := by nlinarith
  have c6 : u * |p + m - x| ≤ 1 / 64 * |p + m - x| := mul_le_mul_of_nonneg_right hu1 (abs_nonneg _)
  have c7 : u * |p + m| ≤ u * (|x| + |p + m - x|) := mul_le_mul_of_nonneg_left b5 hu
  nlinarith

theorem back_alg {q m s p y d r u z : ℚ} (hs : 0 < s) (hu : 0 ≤ u) (hu1 : u ≤ 1 / 64) (hz : 0 ≤ z) (e1 : |p - q * s| ≤ u * |q * s| + z) (e2 : |y - (p + m)| ≤ u * |p + m|)
    (e3 : |d - (y - m)| ≤ u * |y - m|) (e4 : |r - d / s| ≤ u * |d / s| + z) : |r - q| ≤ 6 * u * |q| + 2 * u * (|m| / s) + (2 / s + 1) * z := by
  have A0 := abs_nonneg (q * s)
  have b1 : |p| ≤ |q * s| + (u * |q * s| + z) := by
    have := abs_add_le (p - q * s) (q * s)
    rw [sub_add_cancel] at this
    linarith
  have b2 : |p + m| ≤ |p| + |m| := abs_add_le _ _
  have b3 : |y - m| ≤ |p| + u * |p + m| := by
    have := abs_add_le (y - (p + m)) p
    rw [show y - (p + m) + p = y - m by ring] at this
    linarith
  have b4 : |d - q * s| ≤ u * |y - m| + u * |p + m| + (u * |q * s| + z) := by
    have t1 := abs_add_le (d - (y - m)) (y - (p + m))
    have t2 := abs_add_le (d - (y - m) + (y - (p + m))) (p - q * s)
    rw [show d - (y - m) + (y - (p + m)) + (p - q * s) = d - q * s by ring] at t2
    linarith
  have m0 := abs_nonneg m
  have um := mul_nonneg hu m0
  have uA := mul_nonneg hu A0
  have uz := mul_nonneg hu hz
  have c0 : u * (u * |q * s|) ≤ 1 / 64 * (u * |q * s|) := mul_le_mul_of_nonneg_right hu1 uA
  have c0' : u * z ≤ 1 / 64 * z := mul_le_mul_of_nonneg_right hu1 hz
  have c1 : u * |p| ≤ 65 / 64 * (u * |q * s|) + 1 / 64 * z := by nlinarith
  have c2 : u * |p + m| ≤ u * |p| + u * |m| := by rw [← mul_add]; exact mul_le_mul_of_nonneg_left b2 hu
  have c3 : u * |y - m| ≤ u * |p| + u * (u * |p + m|) := by rw [← mul_add]; exact mul_le_mul_of_nonneg_left b3 hu
  have c4 : u * (u * |p + m|) ≤ 1 / 64 * (u * |p + m|) := mul_le_mul_of_nonneg_right hu1 (mul_nonneg hu (abs_nonneg _))
  have bd : |d - q * s| ≤ 13 / 4 * (u * |q * s|) + 5 / 4 * (u * |m|) + 5 / 4 * z := by linarith
  have e : r - q = (r - d / s) + (d - q * s) / s := by field_simp; ring
  have t := abs_add_le (r - d / s) ((d - q * s) / s)
  rw [← e, abs_div (d - q * s), abs_of_pos hs] at t
  have ds : |d / s| ≤ |q| + |d - q * s| / s := by
    have e' : d / s = (d - q * s) / s + q := by field_simp; ring
    have := abs_add_le ((d - q * s) / s) q
    rw [← e', abs_div (d - q * s), abs_of_pos hs] at this
    linarith
  have f : |d - q * s| / s ≤ 13 / 4 * (u * |q|) + 5 / 4 * (u * (|m| / s)) + 5 / 4 * (z / s) := by
    rw [div_le_iff₀ hs]
    refine le_trans bd (le_of_eq ?_)
    rw [abs_mul, abs_of_pos hs]
    field_simp
  have f0 : 0 ≤ |d - q * s| / s := div_nonneg (abs_nonneg _) hs.le
  have g1 : u * |d / s| ≤ u * |q| + u * (|d - q * s| / s) := by rw [← mul_add]; exact mul_le_mul_of_nonneg_left ds hu
  have g2 : u * (|d - q * s| / s) ≤ 1 / 64 * (|d - q * s| / s) := mul_le_mul_of_nonneg_right hu1 f0
  have h0 : 0 ≤ u * |q| := mul_nonneg hu (abs_nonneg _)
  have h1 : 0 ≤ u * (|m| / s) := mul_nonneg hu (div_nonneg m0 hs.le)
  have h2 : 0 ≤ z / s := div_nonneg hz hs.le
  have e5 : (2 / s + 1) * z = 2 * (z / s) + z := by field_simp
  rw [e5]
  linarith

theorem mul_fin {x y : ℚ} (h : |x * y| ≤ 2 ^ 1023) : Num.mul (.fin x) (.fin y) = .fin (rnd (x * y)) := ofQ_fin_le h FloatBins.pow1023 FloatBins.lt1024

theorem div_fin {x y : ℚ} (hy : y ≠ 0) (h : |x / y| ≤ 2 ^ 1023) : Num.div (.fin x) (.fin y) = .fin (rnd (x / y)) := by
  show (if y = 0 then _ else ofQ (x / y)) = _
  rw [if_neg hy]
  exact ofQ_fin_le h FloatBins.pow1023 FloatBins.lt1024

theorem pow_isF (k : Nat) : IsF ((2 : ℚ) ^ k) := by
  have := isF_pow (e := (k : ℤ)) (by omega)
  exact_mod_cast this

/-- Sizes: a rounded sum or difference of two numbers of at most 2^k is at most 2^(k+1). -/
theorem rnd_add_size {a b : ℚ} {k : Nat} (ha : |a| ≤ 2 ^ k) (hb : |b| ≤ 2 ^ k) : |rnd (a + b)| ≤ 2 ^ (k + 1) := by
  rw [rnd_abs]
  refine rnd_le (le_trans (abs_add_le _ _) ?_) (pow_isF _)
  rw [pow_succ, mul_two]
  exact add_le_add ha hb

theorem rnd_mul_size {a b : ℚ} {j k : Nat} (ha : |a| ≤ 2 ^ j) (hb : |b| ≤ 2 ^ k) : |rnd (a * b)| ≤ 2 ^ (j + k) := by
  rw [rnd_abs]
  refine rnd_le ?_ (pow_isF _)
  rw [abs_mul, pow_add]
  exact mul_le_mul ha hb (abs_nonneg _) (by positivity)

theorem div_size {a s : ℚ} {j : Nat} (hs : 2 ^ (-100 : ℤ) ≤ s) (ha : |a| ≤ 2 ^ j) : |a / s| ≤ 2 ^ (j + 100) := by
  have s0 : 0 < s := lt_of_lt_of_le (pow_pos' _) hs
  rw [abs_div, abs_of_pos s0, div_le_iff₀ s0]
  refine le_trans ha ?_
  have : (2 : ℚ) ^ (j + 100) * 2 ^ (-100 : ℤ) ≤ 2 ^ (j + 100) * s := mul_le_mul_of_nonneg_left hs (by positivity)
  refine le_trans (le_of_eq ?_) this
  rw [pow_add, mul_assoc, ← zpow_natCast (2 : ℚ) 100, ← zpow_add₀ (by norm_num)]
  norm_num

theorem up {x : ℚ} {j : Nat} (k : Nat) (h : |x| ≤ 2 ^ j) (hjk : j ≤ k) : |x| ≤ 2 ^ k := le_trans h (pow_le_pow_right₀ (by norm_num) hjk)

/-- The size of a rounded number. -/
theorem rnd_size {x : ℚ} {k : Nat} (h : |x| ≤ 2 ^ k) : |rnd x| ≤ 2 ^ k := by
  rw [rnd_abs]
  exact rnd_le h (pow_isF _)

theorem quot_back {d s : ℚ} (s0 : 0 < s) (s2 : s ≤ 2 ^ 490) (h : |d| ≤ 2 ^ 491) : |rnd (d / s) * s| ≤ 2 ^ 494 := by
  have e := FloatMesh.rnd_err_all (d / s)
  have t := abs_add_le (rnd (d / s) - d / s) (d / s)
  rw [sub_add_cancel] at t
  have u1 : (2 : ℚ) ^ (-53 : ℤ) * |d / s| ≤ 1 * |d / s| := mul_le_mul_of_nonneg_right (by norm_num) (abs_nonneg _)
  have z1 : (2 : ℚ) ^ (-1075 : ℤ) ≤ 1 := le_trans (zpow_le_zpow_right₀ (n := (0 : ℤ)) (by norm_num) (by norm_num)) (by norm_num)
  have b : |rnd (d / s)| ≤ 2 * |d / s| + 1 := by
    generalize (2 : ℚ) ^ (-1075 : ℤ) = z at *
    linarith
  rw [abs_mul, abs_of_pos s0]
  refine le_trans (mul_le_mul_of_nonneg_right b s0.le) ?_
  have e2 : (2 * |d / s| + 1) * s = 2 * |d| + s := by rw [abs_div, abs_of_pos s0]; field_simp
  rw [e2]
  have e3 : (2 : ℚ) ^ 491 = 2 * 2 ^ 490 := by rw [pow_succ]; ring
  have e4 : (2 : ℚ) ^ 494 = 16 * 2 ^ 490 := by rw [show 494 = 490 + 4 from rfl, pow_add]; ring
  have p : (0 : ℚ) < 2 ^ 490 := by positivity
  rw [e3] at h
  rw [e4]
  generalize (2 : ℚ) ^ 490 = y at *
  linarith only [h, s2, p]

/-- C142: **forward and back again.** For a mean `m` and deviation `s` that are doubles, |m| ≤ 2^400 and 2^-100 ≤ s ≤ 2^400, and any double |x| ≤ 2^400,
standardising x and transforming back gives x up to 2^-51·|x − m| + 2^-53·|x| + (3s + 2)·2^-1075. -/
theorem C142_round_trip {x m s : ℚ} (fx : IsF x) (fm : IsF m) (hx : |x| ≤ 2 ^ 490) (hm : |m| ≤ 2 ^ 490) (s1 : 2 ^ (-100 : ℤ) ≤ s) (s2 : s ≤ 2 ^ 490) :
    ∃ q r : ℚ, Std.forward ⟨.fin m, .fin s⟩ (.fin x) = .fin q ∧ Std.backward ⟨.fin m, .fin s⟩ (.fin q) = .fin r ∧
      |r - x| ≤ 2 ^ (-51 : ℤ) * |x - m| + 2 ^ (-53 : ℤ) * |x| + (3 * s + 2) * 2 ^ (-1075 : ℤ) := by
  have s0 : 0 < s := lt_of_lt_of_le (pow_pos' _) s1
  have s2' : |s| ≤ 2 ^ 490 := (abs_of_pos s0).le.trans s2
  have d1 : |rnd (x - m)| ≤ 2 ^ 491 := by rw [sub_eq_add_neg]; exact rnd_add_size hx ((abs_neg m).le.trans hm)
  have d2 : |rnd (x - m) / s| ≤ 2 ^ 591 := div_size s1 d1
  have d4 : |rnd (rnd (x - m) / s) * s| ≤ 2 ^ 494 := quot_back s0 s2 d1
  refine ⟨rnd (rnd (x - m) / s), rnd (rnd (rnd (rnd (x - m) / s) * s) + m), ?_, ?_, ?_⟩
  · show Num.div (Num.sub (.fin x) (.fin m)) (.fin s) = _
    rw [sub_fin (up 1022 hx (by norm_num)) (up 1022 hm (by norm_num)), div_fin s0.ne' (up 1023 d2 (by norm_num))]
  · show Num.add (Num.mul (.fin _) (.fin s)) (.fin m) = _
    rw [mul_fin (up 1023 d4 (by norm_num)), add_fin (up 1022 (rnd_size d4) (by norm_num)) (up 1022 hm (by norm_num))]
  · have e4 := rnd_sub_err (isF_rnd (rnd (rnd (x - m) / s) * s)) fm.neg
    rw [sub_neg_eq_add] at e4
    have e51 : (2 : ℚ) ^ (-51 : ℤ) = 4 * 2 ^ (-53 : ℤ) := by norm_num
    rw [e51]
    exact there_alg s0 (pow_pos' _).le (by norm_num) (pow_pos' _).le (rnd_sub_err fx fm) (FloatMesh.rnd_err_all _) (FloatMesh.rnd_err_all _) e4

/-- C142: **back and forward again**: a standardised value q with |q| ≤ 2^100 is reproduced up to 6·2^-53·|q| + 2^-52·|m|/s + (2/s + 1)·2^-1075: the loss
is the spacing of doubles near the mean, in units of the deviation. -/
theorem C142_round_trip_back {q m s : ℚ} (fm : IsF m) (hq : |q| ≤ 2 ^ 100) (hm : |m| ≤ 2 ^ 490) (s1 : 2 ^ (-100 : ℤ) ≤ s) (s2 : s ≤ 2 ^ 490) :
    ∃ y r : ℚ, Std.backward ⟨.fin m, .fin s⟩ (.fin q) = .fin y ∧ Std.forward ⟨.fin m, .fin s⟩ (.fin y) = .fin r ∧
      |r - q| ≤ 6 * 2 ^ (-53 : ℤ) * |q| + 2 ^ (-52 : ℤ) * (|m| / s) + (2 / s + 1) * 2 ^ (-1075 : ℤ) := by
  have s0 : 0 < s := lt_of_lt_of_le (pow_pos' _) s1
  have s2' : |s| ≤ 2 ^ 490 := (abs_of_pos s0).le.trans s2
  have d1 : |q * s| ≤ 2 ^ 590 := by
    rw [abs_mul, show 590 = 100 + 490 from rfl, pow_add]
    exact mul_le_mul hq s2' (abs_nonneg _) (by positivity)
  have d2 : |rnd (q * s)| ≤ 2 ^ 590 := rnd_size d1
  have d3 : |rnd (rnd (q * s) + m)| ≤ 2 ^ 591 := rnd_add_size d2 (up 590 hm (by norm_num))
  have d4 : |rnd (rnd (rnd (q * s) + m) - m)| ≤ 2 ^ 592 := by
    rw [sub_eq_add_neg]
    exact rnd_add_size d3 ((abs_neg m).le.trans (up 591 hm (by norm_num)))
  have d5 : |rnd (rnd (rnd (q * s) + m) - m) / s| ≤ 2 ^ 692 := div_size s1 d4
  refine ⟨rnd (rnd (q * s) + m), rnd (rnd (rnd (rnd (q * s) + m) - m) / s), ?_, ?_, ?_⟩
  · show Num.add (Num.mul (.fin q) (.fin s)) (.fin m) = _
    rw [mul_fin (up 1023 d1 (by norm_num)), add_fin (up 1022 d2 (by norm_num)) (up 1022 hm (by norm_num))]
  · show Num.div (Num.sub (.fin _) (.fin m)) (.fin s) = _
    rw [sub_fin (up 1022 d3 (by norm_num)) (up 1022 hm (by norm_num)), div_fin s0.ne' (up 1023 d5 (by norm_num))]
  · have e2 := rnd_sub_err (isF_rnd (q * s)) fm.neg
    rw [sub_neg_eq_add] at e2
    have e52 : (2 : ℚ) ^ (-52 : ℤ) = 2 * 2 ^ (-53 : ℤ) := by norm_num
    rw [e52]
    exact back_alg s0 (pow_pos' _).le (by norm_num) (pow_pos' _).le (FloatMesh.rnd_err_all _) e2 (rnd_sub_err (isF_rnd _) fm) (FloatMesh.rnd_err_all _)


/-! ### Training -/

/-- The relative error of a column of `n` rows: (n + 10)·2^-51. -/
def stdErr (n : Nat) : ℚ := (n + 10) * 2 ^ (-51 : ℤ)

/-- The exact mean of the squared differences of the column from the number `m`. -/
def spread (xs : List ℚ) (m : ℚ) : ℚ := avg (xs.map fun x => (x - m) ^ 2)

theorem spread_nonneg (xs : List ℚ) (m : ℚ) : 0 ≤ spread xs m := avg_nonneg _ (by
  intro y hy
  obtain ⟨x, -, rfl⟩ := List.mem_map.mp hy
  exact sq_nonneg _)

theorem avg_le {l : List ℚ} {B : ℚ} (hB : 0 ≤ B) (h : ∀ x ∈ l, x ≤ B) : avg l ≤ B := by
  unfold avg
  rcases Nat.eq_zero_or_pos l.length with h0 | h0
  · rw [h0]; simpa using hB
  · have hc : (0 : ℚ) < l.length := by exact_mod_cast h0
    rw [div_le_iff₀ hc, mul_comm]
    clear h0 hc
    induction l with
    | nil => simp
    | cons a t ih =>
      have := ih (fun x hx => h x (by simp [hx]))
      have := h a (by simp)
      simp only [List.sum_cons, List.length_cons]
      push_cast
      linarith

theorem mean1_eq (sum : List Num → Num) (fill : Num) (x : List Num) (h : 0 < x.length) : mean1 sum fill x none none = Num.div (sum x) (ofQ (x.length : ℚ)) := by
  show (if x.length < 1 then fill else Num.div (sum x) (ofQ (x.length : ℚ))) = _
  rw [if_neg (by omega)]

theorem meanCol_eq (sum : List Num → Num) (fill : Num) (x : List Num) (h : 0 < x.length) : meanCol sum x = mean1 sum fill x none none :=
  (mean1_eq sum fill x h).symm

theorem stdCol_eq (sum : List Num → Num) (sq : ℚ → ℚ) (fill : Num) (x : List Num) (h : 0 < x.length) : stdCol sum sq x = stdDev1 sum sq fill x none none := by
  unfold stdCol stdDev1
  simp only
  rw [meanCol_eq sum fill x h]
  generalize mean1 sum fill x none none = m
  have hl : (mulL (x.map fun a => Num.sub a m) (x.map fun a => Num.sub a m)).length = x.length := by
    simp [mulL]
  rw [mean1_eq sum fill _ (by rw [hl]; exact h), hl]

theorem sd_alg {V T n2 k t : ℚ} (hT : 0 ≤ T) (k0 : 0 ≤ k) (k1 : k ≤ 2 ^ 40) (t0 : 0 ≤ t) (h1 : |V - T| ≤ (k + 3) * 2 ^ (-52 : ℤ) * T + t) (h2 : |n2 - V| ≤ 2 ^ (-50 : ℤ) * V) :
    |n2 - T| ≤ ((k + 2) + 6) * 2 ^ (-52 : ℤ) * T + 2 * t := by
  have e50 : (2 : ℚ) ^ (-50 : ℤ) = 4 * 2 ^ (-52 : ℤ) := by norm_num
  have hw : (k + 3) * (2 : ℚ) ^ (-52 : ℤ) ≤ 1 / 16 := by
    refine le_trans (mul_le_mul_of_nonneg_right (add_le_add_left k1 3) (pow_pos' _).le) ?_
    norm_num
  have hu : (2 : ℚ) ^ (-52 : ℤ) ≤ 1 / 16 := by norm_num
  have hu0 := pow_pos' (-52)
  rw [e50] at h2
  clear e50
  generalize (2 : ℚ) ^ (-52 : ℤ) = u at *
  have t2 := abs_add_le (n2 - V) (V - T)
  rw [sub_add_sub_cancel] at t2
  have v1 : V ≤ T + ((k + 3) * u * T + t) := by linarith [(abs_le.mp h1).2]
  have uV : u * V ≤ u * (T + ((k + 3) * u * T + t)) := mul_le_mul_of_nonneg_left v1 hu0.le
  have uT := mul_nonneg hu0.le hT
  have a1 : (k + 3) * u * (u * T) ≤ 1 / 16 * (u * T) := mul_le_mul_of_nonneg_right hw uT
  have a2 : u * t ≤ 1 / 16 * t := mul_le_mul_of_nonneg_right hu t0
  nlinarith

/-- C142: **training.** For a column of n ≤ 2^40 doubles of at most 2^480 in size and a lower bound `lb` on the deviation (a double of at least 2^-100): `mean` is the exact mean
up to n·2^-52 of the mean magnitude; with T the exact mean of the squared differences from that mean, i.e. the variance plus the square of the error of the mean, the deviation
`sd` is the root of T up to the relative error stdErr n (in the square) if T is above lb², `lb` itself if T is below, and never smaller than lb or than the root of T by more
than the error. -/
theorem C142_train (sum : List Num → Num) (hs : IsSum sum) (sq : ℚ → ℚ) (hq : IsSqrt sq) {xs : List ℚ} (hF : ∀ x ∈ xs, IsF x) (hb : ∀ x ∈ xs, |x| ≤ 2 ^ 480)
    (h1 : 0 < xs.length) (hn : xs.length ≤ 2 ^ 40) {lb : ℚ} (flb : IsF lb) (hlb : 2 ^ (-100 : ℤ) ≤ lb) :
    ∃ m s : ℚ, train sum sq (.fin lb) (xs.map .fin) = ⟨.fin m, .fin s⟩ ∧ IsF m ∧ IsF s ∧ |m| ≤ 2 ^ 482 ∧ lb ≤ s ∧ s ≤ max (2 ^ 490) lb ∧
      |m - avg xs| ≤ xs.length * 2 ^ (-52 : ℤ) * avg (xs.map fun x => |x|) + 2 ^ (-1075 : ℤ) ∧
      spread xs m = spread xs (avg xs) + (m - avg xs) ^ 2 ∧
      (lb ^ 2 * (1 + stdErr xs.length) ≤ spread xs m → |spread xs m / s ^ 2 - 1| ≤ stdErr xs.length) ∧
      (spread xs m ≤ lb ^ 2 * (1 - stdErr xs.length) → s = lb) ∧ spread xs m ≤ s ^ 2 * (1 + stdErr xs.length) := by
  obtain ⟨V, m, em, fm, sm, fV, eV, V0, dm, dV⟩ := sd_core sum hs sq .nan xs none hF hb (by intro m h; cases h) hn h1
  simp only [kept] at dm dV
  obtain ⟨fr, r0, rr⟩ := hq V fV V0
  have k0 : (0 : ℚ) ≤ xs.length := Nat.cast_nonneg _
  have k40 : (xs.length : ℚ) ≤ 2 ^ 40 := by exact_mod_cast hn
  have T0 := spread_nonneg xs m
  have hd := sd_alg T0 k0 k40 (pow_pos' _).le dV rr
  have eE : stdErr xs.length = ((xs.length : ℚ) + 2 + 8) * 2 ^ (-51 : ℤ) := by unfold stdErr; ring
  have hz : (2 : ℚ) ^ (-1073 : ℤ) ≤ 2 ^ (-360 : ℤ) := zpow_le_zpow_right₀ (by norm_num) (by norm_num)
  obtain ⟨c1, c2, c3⟩ := clip_gen T0 (show 0 ≤ (xs.length : ℚ) + 2 by linarith only [k0])
    (le_trans (add_le_add_left k40 2) (by norm_num)) (pow_pos' _).le hz r0 hlb hd
  rw [← eE] at c1 c2 c3
  have size : sq V ≤ 2 ^ 490 := by
    refine le_of_sq_le_sq ?_ (by positivity)
    have bT : spread xs m ≤ 2 ^ 970 := by
      refine avg_le (by positivity) (fun y hy => ?_)
      obtain ⟨x, hx, rfl⟩ := List.mem_map.mp hy
      have hx' := up 482 (hb x hx) (by norm_num)
      have : |x - m| ≤ 2 ^ 485 := by
        refine le_trans (abs_sub _ _) (le_trans (add_le_add hx' sm) ?_)
        rw [show 485 = 482 + 3 from rfl, pow_add]
        have : (0 : ℚ) < 2 ^ 482 := by positivity
        generalize (2 : ℚ) ^ 482 = y at *
        linarith only [this]
      show (x - m) ^ 2 ≤ _
      rw [← sq_abs, show 970 = 485 * 2 from rfl, pow_mul]
      exact pow_le_pow_left₀ (abs_nonneg _) this 2
    have g := (abs_le.mp hd).2
    have e980 : ((2 : ℚ) ^ 490) ^ 2 = 1024 * 2 ^ 970 := by rw [← pow_mul, show 490 * 2 = 970 + 10 from rfl, pow_add]; ring
    rw [e980]
    have w : ((xs.length : ℚ) + 2 + 6) * 2 ^ (-52 : ℤ) ≤ 1 := by
      refine le_trans (mul_le_mul_of_nonneg_right (add_le_add_left (add_le_add_left k40 2) 6) (pow_pos' _).le) ?_
      norm_num
    have wT := mul_le_mul_of_nonneg_right w T0
    have z1 : (2 : ℚ) ^ (-1073 : ℤ) ≤ 2 ^ 970 := le_trans (zpow_le_zpow_right₀ (n := (0 : ℤ)) (by norm_num) (by norm_num)) (by rw [zpow_zero]; exact one_le_pow₀ (by norm_num))
    clear c1 c2 c3 sm hb hz dV dm hd hlb
    generalize spread xs m = T at *
    generalize ((xs.length : ℚ) + 2 + 6) * 2 ^ (-52 : ℤ) * T = W at *
    generalize (2 : ℚ) ^ (-1073 : ℤ) = z at *
    generalize (2 : ℚ) ^ 970 = y at *
    linarith only [g, wT, bT, z1, T0]
  have ec : clipLo (.fin (sq V)) (.fin lb) = .fin (max (sq V) lb) := by
    unfold clipLo
    rw [if_neg (by simp)]
    exact boundLo_fin _ _
  refine ⟨m, max (sq V) lb, ?_, fm, ?_, sm, le_max_right _ _, max_le_max size le_rfl, dm, avg_shift _ h1 m, fun h => ?_, fun h => max_eq_right (c2 h), c3⟩
  · have hl : 0 < (xs.map Num.fin).length := by rwa [List.length_map]
    unfold train
    rw [meanCol_eq sum .nan _ hl, stdCol_eq sum sq .nan _ hl, em, eV, ec]
  · rcases max_choice (sq V) lb with e | e <;> rw [e]
    · exact fr
    · exact flb
  · obtain ⟨a, b⟩ := c1 h
    rwa [max_eq_left a]


/-! ### The standardised training set -/

theorem avg_err {l : List ℚ} (hl : 0 < l.length) (f g h : ℚ → ℚ) (a b : ℚ) (H : ∀ x ∈ l, |f x - g x| ≤ a * h x + b) : |avg (l.map f) - avg (l.map g)| ≤ a * avg (l.map h) + b := by
  have hc : (0 : ℚ) < l.length := by exact_mod_cast hl
  have key : |(l.map f).sum - (l.map g).sum| ≤ a * (l.map h).sum + l.length * b := by
    clear hl hc
    induction l with
    | nil => simp
    | cons x t ih =>
      have h1 := ih (fun y hy => H y (by simp [hy]))
      have h2 := H x (by simp)
      simp only [List.map_cons, List.sum_cons, List.length_cons]
      have h3 := abs_add_le (f x - g x) ((t.map f).sum - (t.map g).sum)
      rw [show f x - g x + ((t.map f).sum - (t.map g).sum) = f x + (t.map f).sum - (g x + (t.map g).sum) by ring] at h3
      push_cast
      linarith
  unfold avg
  simp only [List.length_map]
  rw [← sub_div, abs_div, abs_of_pos hc, div_le_iff₀ hc]
  refine le_trans key (le_of_eq ?_)
  field_simp

theorem avg_lin {l : List ℚ} (hl : 0 < l.length) (m s : ℚ) : avg (l.map fun x => (x - m) / s) = (avg l - m) / s := by
  have hc : (0 : ℚ) < l.length := by exact_mod_cast hl
  have key : (l.map fun x => (x - m) / s).sum = (l.sum - l.length * m) / s := by
    clear hl hc
    induction l with
    | nil => simp
    | cons a t ih =>
      simp only [List.map_cons, List.sum_cons, List.length_cons]
      rw [ih]
      push_cast
      ring
  unfold avg
  rw [key, List.length_map]
  field_simp

theorem avg_sq (l : List ℚ) (m s : ℚ) : avg (l.map fun x => ((x - m) / s) ^ 2) = spread l m / s ^ 2 := by
  have key : (l.map fun x => ((x - m) / s) ^ 2).sum = (l.map fun x => (x - m) ^ 2).sum / s ^ 2 := by
    induction l with
    | nil => simp
    | cons a t ih =>
      simp only [List.map_cons, List.sum_cons]
      rw [ih, div_pow, add_div]
  unfold spread avg
  rw [key, List.length_map, List.length_map]
  ring

theorem abs_le_half (y : ℚ) : |y| ≤ (1 + y ^ 2) / 2 := by
  rw [← sq_abs y]
  nlinarith [sq_nonneg (|y| - 1)]

/-- The error of one standardised value. -/
theorem value_err {x m s d z u t : ℚ} (s0 : 0 < s) (hu : 0 ≤ u) (hu1 : u ≤ 1) (e1 : |d - (x - m)| ≤ u * |x - m|) (e2 : |z - d / s| ≤ u * |d / s| + t) :
    |z - (x - m) / s| ≤ 3 * u * |(x - m) / s| + t := by
  have y0 := abs_nonneg ((x - m) / s)
  have b1 : |d / s - (x - m) / s| ≤ u * |(x - m) / s| := by
    rw [← sub_div, abs_div, abs_div (x - m), abs_of_pos s0, ← mul_div_assoc]
    exact div_le_div_of_nonneg_right e1 s0.le
  have b2 := abs_add_le (d / s - (x - m) / s) ((x - m) / s)
  rw [sub_add_cancel] at b2
  have b3 := abs_add_le (z - d / s) (d / s - (x - m) / s)
  rw [sub_add_sub_cancel] at b3
  have c1 : u * |d / s| ≤ u * (u * |(x - m) / s| + |(x - m) / s|) := mul_le_mul_of_nonneg_left (by linarith) hu
  have c2 : u * (u * |(x - m) / s|) ≤ 1 * (u * |(x - m) / s|) := mul_le_mul_of_nonneg_right hu1 (mul_nonneg hu y0)
  linarith

theorem value_sq {y z a t : ℚ} (a0 : 0 ≤ a) (a1 : a ≤ 1 / 4) (t0 : 0 ≤ t) (t1 : t ≤ 1) (h : |z - y| ≤ a * |y| + t) : |z ^ 2 - y ^ 2| ≤ (9 / 4 * a + 2 * t) * y ^ 2 + 4 * t := by
  have y0 := abs_nonneg y
  have e : z ^ 2 - y ^ 2 = (z - y) * (z + y) := by ring
  have b : |z + y| ≤ (a * |y| + t) + 2 * |y| := by
    have := abs_add_le (z - y) (y + y)
    rw [show z - y + (y + y) = z + y by ring, ← two_mul y, abs_mul, abs_two] at this
    linarith
  rw [e, abs_mul]
  refine le_trans (mul_le_mul h b (abs_nonneg _) (add_nonneg (mul_nonneg a0 y0) t0)) ?_
  have q : |y| ^ 2 = y ^ 2 := sq_abs y
  have hy := abs_le_half y
  rw [← q] at hy ⊢
  have k1 : a * (a * |y| ^ 2) ≤ 1 / 4 * (a * |y| ^ 2) := mul_le_mul_of_nonneg_right a1 (by positivity)
  have k2 : a * (t * |y|) ≤ 1 / 4 * (t * |y|) := mul_le_mul_of_nonneg_right a1 (mul_nonneg t0 y0)
  have k3 : t * t ≤ t * 1 := mul_le_mul_of_nonneg_left t1 t0
  have k4 : t * |y| ≤ t * ((1 + |y| ^ 2) / 2) := mul_le_mul_of_nonneg_left hy t0
  nlinarith

theorem value_abs {y z a t : ℚ} (a0 : 0 ≤ a) (h : |z - y| ≤ a * |y| + t) : |z - y| ≤ a / 2 * y ^ 2 + (a / 2 + t) := by
  have := mul_le_mul_of_nonneg_left (abs_le_half y) a0
  linarith

theorem tiny_t : (2 : ℚ) ^ (-1075 : ℤ) ≤ 2 ^ (-100 : ℤ) := zpow_le_zpow_right₀ (by norm_num) (by norm_num)

theorem stdErr_small {n : Nat} (hn : n ≤ 2 ^ 40) : 0 ≤ stdErr n ∧ stdErr n ≤ 1 / 64 := by
  have k0 : (0 : ℚ) ≤ n := Nat.cast_nonneg _
  have k40 : (n : ℚ) ≤ 2 ^ 40 := by exact_mod_cast hn
  refine ⟨mul_nonneg (by linarith) (pow_pos' _).le, ?_⟩
  refine le_trans (mul_le_mul_of_nonneg_right (add_le_add_left k40 10) (pow_pos' _).le) ?_
  norm_num

/-- C142: **the standardised training column** is finite; its mean square is 1 up to (n + 14)·2^-51 if its exact standard deviation is above the bound `lb`, and in no case
larger; its mean is 0 up to the error of the mean, in units of the deviation, plus 2^-51. -/
theorem C142_standardised (sum : List Num → Num) (hs : IsSum sum) (sq : ℚ → ℚ) (hq : IsSqrt sq) {xs : List ℚ} (hF : ∀ x ∈ xs, IsF x) (hb : ∀ x ∈ xs, |x| ≤ 2 ^ 480)
    (h1 : 0 < xs.length) (hn : xs.length ≤ 2 ^ 40) {lb : ℚ} (flb : IsF lb) (hlb : 2 ^ (-100 : ℤ) ≤ lb) :
    ∃ zs : List ℚ, (xs.map .fin).map (train sum sq (.fin lb) (xs.map .fin)).forward = zs.map .fin ∧
      (lb ^ 2 * (1 + stdErr xs.length) ≤ spread xs (avg xs) → |avg (zs.map fun z => z ^ 2) - 1| ≤ (xs.length + 14) * 2 ^ (-51 : ℤ)) ∧
      avg (zs.map fun z => z ^ 2) ≤ 1 + (xs.length + 14) * 2 ^ (-51 : ℤ) ∧
      |avg zs| ≤ (xs.length * 2 ^ (-52 : ℤ) * avg (xs.map fun x => |x|) + 2 ^ (-1075 : ℤ)) / lb + 2 ^ (-51 : ℤ) := by
  obtain ⟨m, s, et, fm, fs, sm, sl, -, dm, es, c1, -, c3⟩ := C142_train sum hs sq hq hF hb h1 hn flb hlb
  have lb0 : 0 < lb := lt_of_lt_of_le (pow_pos' _) hlb
  have s0 : 0 < s := lt_of_lt_of_le lb0 sl
  have se := stdErr_small hn
  have ve : ∀ x ∈ xs, |rnd (rnd (x - m) / s) - (x - m) / s| ≤ 3 * 2 ^ (-53 : ℤ) * |(x - m) / s| + 2 ^ (-1075 : ℤ) := fun x hx =>
    value_err s0 (pow_pos' _).le (by norm_num) (rnd_sub_err (hF x hx) fm) (FloatMesh.rnd_err_all _)
  have y2 : spread xs m / s ^ 2 ≤ 1 + stdErr xs.length := by rw [div_le_iff₀ (by positivity), mul_comm]; exact c3
  have y0 : 0 ≤ spread xs m / s ^ 2 := div_nonneg (spread_nonneg _ _) (by positivity)
  have t0 := pow_pos' (-1075)
  have t1 := tiny_t
  have sqd := avg_err h1 (fun x => rnd (rnd (x - m) / s) ^ 2) (fun x => ((x - m) / s) ^ 2) (fun x => ((x - m) / s) ^ 2) _ _ (fun x hx =>
    value_sq (mul_nonneg (by norm_num) (pow_pos' _).le) (by norm_num) t0.le (le_trans t1 (by norm_num)) (ve x hx))
  have md := avg_err h1 (fun x => rnd (rnd (x - m) / s)) (fun x => (x - m) / s) (fun x => ((x - m) / s) ^ 2) _ _ (fun x hx => value_abs (mul_nonneg (by norm_num) (pow_pos' _).le) (ve x hx))
  rw [avg_sq] at sqd md
  rw [avg_lin h1] at md
  have e14 : ((xs.length : ℚ) + 14) * 2 ^ (-51 : ℤ) = stdErr xs.length + 2 ^ (-49 : ℤ) := by
    unfold stdErr
    rw [show (2 : ℚ) ^ (-49 : ℤ) = 4 * 2 ^ (-51 : ℤ) by norm_num]; ring
  have sqd' : |avg (xs.map fun x => rnd (rnd (x - m) / s) ^ 2) - spread xs m / s ^ 2| ≤ 2 ^ (-49 : ℤ) := by
    refine le_trans sqd ?_
    have y2' : spread xs m / s ^ 2 ≤ 2 := by linarith only [y2, se.2]
    generalize spread xs m / s ^ 2 = Y at *
    generalize (2 : ℚ) ^ (-1075 : ℤ) = t at *
    have a : (9 / 4 * (3 * (2 : ℚ) ^ (-53 : ℤ)) + 2 * t) * Y ≤ (9 / 4 * (3 * (2 : ℚ) ^ (-53 : ℤ)) + 2 * t) * 2 :=
      mul_le_mul_of_nonneg_left y2' (add_nonneg (by norm_num) (by linarith only [t0]))
    have b : (9 / 4 * (3 * (2 : ℚ) ^ (-53 : ℤ)) + 2 * 2 ^ (-100 : ℤ)) * 2 + 4 * 2 ^ (-100 : ℤ) ≤ 2 ^ (-49 : ℤ) := by norm_num
    generalize (2 : ℚ) ^ (-53 : ℤ) = u at *
    generalize (2 : ℚ) ^ (-100 : ℤ) = w at *
    generalize (2 : ℚ) ^ (-49 : ℤ) = v at *
    linarith only [a, b, t1]
  have md' : |avg (xs.map fun x => rnd (rnd (x - m) / s)) - (avg xs - m) / s| ≤ 2 ^ (-51 : ℤ) := by
    refine le_trans md ?_
    have y2' : spread xs m / s ^ 2 ≤ 65 / 64 := by linarith only [y2, se.2]
    generalize spread xs m / s ^ 2 = Y at *
    generalize (2 : ℚ) ^ (-1075 : ℤ) = t at *
    have a : 3 * (2 : ℚ) ^ (-53 : ℤ) / 2 * Y ≤ 3 * (2 : ℚ) ^ (-53 : ℤ) / 2 * (65 / 64) := mul_le_mul_of_nonneg_left y2' (by norm_num)
    have b : 3 * (2 : ℚ) ^ (-53 : ℤ) / 2 * (65 / 64) + (3 * (2 : ℚ) ^ (-53 : ℤ) / 2 + 2 ^ (-100 : ℤ)) ≤ 2 ^ (-51 : ℤ) := by norm_num
    generalize (2 : ℚ) ^ (-53 : ℤ) = u at *
    generalize (2 : ℚ) ^ (-100 : ℤ) = w at *
    generalize (2 : ℚ) ^ (-51 : ℤ) = v at *
    linarith only [a, b, t1]
  have em : ∀ f : ℚ → ℚ, (xs.map fun x => rnd (rnd (x - m) / s)).map f = xs.map fun x => f (rnd (rnd (x - m) / s)) := fun f => by rw [List.map_map]; rfl
  refine ⟨xs.map fun x => rnd (rnd (x - m) / s), ?_, fun h => ?_, ?_, ?_⟩
  · rw [et, List.map_map, List.map_map]
    refine List.map_congr_left (fun x hx => ?_)
    show Num.div (Num.sub (.fin x) (.fin m)) (.fin s) = .fin (rnd (rnd (x - m) / s))
    have d1 : |rnd (x - m)| ≤ 2 ^ 483 := by
      rw [sub_eq_add_neg]
      exact rnd_add_size (up 482 (hb x hx) (by norm_num)) ((abs_neg m).le.trans sm)
    have d2 : |rnd (x - m) / s| ≤ 2 ^ 583 := div_size (le_trans hlb sl) d1
    rw [sub_fin (up 1022 (hb x hx) (by norm_num)) (up 1022 sm (by norm_num)), div_fin s0.ne' (up 1023 d2 (by norm_num))]
  · rw [em, e14]
    have h' : lb ^ 2 * (1 + stdErr xs.length) ≤ spread xs m := by
      rw [es]
      linarith only [h, sq_nonneg (m - avg xs)]
    have t := abs_add_le (avg (xs.map fun x => rnd (rnd (x - m) / s) ^ 2) - spread xs m / s ^ 2) (spread xs m / s ^ 2 - 1)
    rw [sub_add_sub_cancel] at t
    linarith only [t, sqd', c1 h']
  · rw [em, e14]
    linarith only [(abs_le.mp sqd').2, y2]
  · have t := abs_add_le (avg (xs.map fun x => rnd (rnd (x - m) / s)) - (avg xs - m) / s) ((avg xs - m) / s)
    rw [sub_add_cancel] at t
    have q : |(avg xs - m) / s| ≤ (xs.length * 2 ^ (-52 : ℤ) * avg (xs.map fun x => |x|) + 2 ^ (-1075 : ℤ)) / lb := by
      rw [abs_div, abs_of_pos s0, abs_sub_comm]
      refine le_trans (div_le_div_of_nonneg_left (abs_nonneg _) lb0 sl) (div_le_div_of_nonneg_right dm lb0.le)
    refine le_trans t ?_
    rw [add_comm]
    exact add_le_add q md'

/-! ### Constant columns -/

/-- C142, a finding: **a constant column does not standardise to zeros.** Three copies of the double nearest to 0.1, times 2^40 (about 1.1e11): the sum rounds, the mean is
2^-16 too large, which is far above the usual bound of 1e-10 on the deviation, so that "sd" is 2^-16 and every standardised value is −1. Any machine root that is exact on
2^-32 does this. -/
theorem C142_constant (sq : ℚ → ℚ) (hsq : sq (2 ^ (-32 : ℤ)) = 2 ^ (-16 : ℤ)) :
    train leftSum sq (.fin (rnd (1 / 10 ^ 10))) (List.replicate 3 (.fin (rnd (1 / 10) * 2 ^ 40))) = ⟨.fin (rnd (1 / 10) * 2 ^ 40 + 2 ^ (-16 : ℤ)), .fin (2 ^ (-16 : ℤ))⟩ ∧
    (train leftSum sq (.fin (rnd (1 / 10 ^ 10))) (List.replicate 3 (.fin (rnd (1 / 10) * 2 ^ 40)))).forward (.fin (rnd (1 / 10) * 2 ^ 40)) = .fin (-1) := by
  have e1 : meanCol leftSum (List.replicate 3 (.fin (rnd (1 / 10) * 2 ^ 40))) = .fin (rnd (1 / 10) * 2 ^ 40 + 2 ^ (-16 : ℤ)) := by decide +kernel
  have e2 : stdCol leftSum sq (List.replicate 3 (.fin (rnd (1 / 10) * 2 ^ 40))) = .fin (2 ^ (-16 : ℤ)) := by
    unfold stdCol
    simp only
    rw [e1]
    have e3 : Num.div (leftSum (mulL (List.map (fun a => Num.sub a (.fin (rnd (1 / 10) * 2 ^ 40 + 2 ^ (-16 : ℤ)))) (List.replicate 3 (.fin (rnd (1 / 10) * 2 ^ 40))))
      (List.map (fun a => Num.sub a (.fin (rnd (1 / 10) * 2 ^ 40 + 2 ^ (-16 : ℤ)))) (List.replicate 3 (.fin (rnd (1 / 10) * 2 ^ 40)))))) (ofQ ((List.replicate 3 (Num.fin (rnd (1 / 10) * 2 ^ 40))).length : ℚ))
      = .fin (2 ^ (-32 : ℤ)) := by decide +kernel
    rw [e3]
    show (if (2 : ℚ) ^ (-32 : ℤ) < 0 then Num.nan else .fin (sq (2 ^ (-32 : ℤ)))) = _
    rw [if_neg (not_lt.mpr (pow_pos' _).le), hsq]
  have e4 : clipLo (.fin (2 ^ (-16 : ℤ))) (.fin (rnd (1 / 10 ^ 10))) = .fin (2 ^ (-16 : ℤ)) := by decide +kernel
  have e5 : train leftSum sq (.fin (rnd (1 / 10 ^ 10))) (List.replicate 3 (.fin (rnd (1 / 10) * 2 ^ 40))) = ⟨.fin (rnd (1 / 10) * 2 ^ 40 + 2 ^ (-16 : ℤ)), .fin (2 ^ (-16 : ℤ))⟩ := by
    unfold train
    rw [e1, e2, e4]
  refine ⟨e5, ?_⟩
  rw [e5]
  decide +kernel

example : sqrt53 (2 ^ (-32 : ℤ)) = 2 ^ (-16 : ℤ) := by decide +kernel

/-- The hypotheses of `C142_standardised` are met: the column 1, 2, 4 with the usual bound. -/
example : ∃ zs : List ℚ, ([1, 2, 4].map .fin).map (train leftSum sqrt53 (.fin (rnd (1 / 10 ^ 10))) ([1, 2, 4].map .fin)).forward = zs.map .fin ∧
    |avg (zs.map fun z => z ^ 2) - 1| ≤ 17 * 2 ^ (-51 : ℤ) := by
  have l1 : (2 : ℚ) ^ (-34 : ℤ) ≤ rnd (1 / 10 ^ 10) := by decide +kernel
  have l2 : rnd (1 / 10 ^ 10) ≤ 1 := by decide +kernel
  obtain ⟨zs, e, h, -⟩ := C142_standardised leftSum leftSum_isSum sqrt53 sqrt53_isSqrt (xs := [1, 2, 4]) (by decide +kernel) (by
    intro x hx
    refine le_trans (b := (2 : ℚ) ^ 2) ?_ (pow_le_pow_right₀ (by norm_num) (by norm_num))
    simp only [List.mem_cons, List.not_mem_nil, or_false] at hx
    rcases hx with rfl | rfl | rfl <;> norm_num) (by norm_num) (by norm_num) (lb := rnd (1 / 10 ^ 10)) (isF_rnd _) (le_trans (zpow_le_zpow_right₀ (by norm_num) (by norm_num)) l1)
  refine ⟨zs, e, le_trans (h ?_) ?_⟩
  · have : rnd (1 / 10 ^ 10) ^ 2 ≤ 1 := pow_le_one₀ (le_trans (pow_pos' _).le l1) l2
    refine le_trans (mul_le_mul_of_nonneg_right this (by norm_num [stdErr])) ?_
    norm_num [stdErr, spread, avg]
  · norm_num

/-- Both round trips have values to work on: mean 1, deviation 1/2. -/
example : Std.forward ⟨.fin 1, .fin (1 / 2)⟩ (.fin 3) = .fin 4 ∧ Std.backward ⟨.fin 1, .fin (1 / 2)⟩ (.fin 4) = .fin 3 := by decide +kernel

end Pyhipp.FloatStandardize
