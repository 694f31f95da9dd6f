import Verif.Props.FloatReduce
/-
C132 for weighted means and standard deviations of all sizes: the products of values and weights may be as small as they like.
-/
namespace Pyhipp.FloatReduce
open Pyhipp Pyhipp.F64 Pyhipp.FloatHist

set_option linter.unusedSectionVars false

/-- Rounding each of the products, however small. -/
theorem rnd_list_err_all (l : List ℚ) :
    |(l.map rnd).sum - l.sum| ≤ 2 ^ (-53 : ℤ) * absSum l + l.length * 2 ^ (-1075 : ℤ) ∧
      absSum (l.map rnd) ≤ (1 + 2 ^ (-53 : ℤ)) * absSum l + l.length * 2 ^ (-1075 : ℤ) := by
  induction l with
  | nil => simp [absSum]
  | cons p t ih =>
    obtain ⟨h1, h2⟩ := ih
    have h3 := FloatMesh.rnd_err_all p
    simp only [List.map_cons, List.sum_cons, absSum_cons, List.length_cons]
    push_cast
    have h4 := abs_add_le (rnd p - p) ((t.map rnd).sum - t.sum)
    rw [show rnd p - p + ((t.map rnd).sum - t.sum) = rnd p + (t.map rnd).sum - (p + t.sum) by ring] at h4
    have h5 := abs_add_le (rnd p - p) p
    rw [sub_add_cancel] at h5
    generalize (2 : ℚ) ^ (-53 : ℤ) = u at *
    generalize (2 : ℚ) ^ (-1075 : ℤ) = v at *
    constructor <;> linarith

/-- Sums of terms that are not negative are not negative. -/
theorem sum_nonneg' (sum : List Num → Num) (hs : IsSum sum) (xs : List ℚ) (h0 : ∀ x ∈ xs, 0 ≤ x) (N : ℚ) (h : sum (xs.map .fin) = .fin N) : 0 ≤ N := by
  obtain ⟨t, ht, et⟩ := hs (xs.map .fin)
  rw [List.length_map] at ht
  have := eval_nonneg xs h0 t (fun i h => by simpa using ht.mem_iff.mp h)
  rw [← et, h] at this
  rcases this with h | ⟨q, hq, h⟩
  · exact absurd h (by simp)
  · rw [Num.fin.injEq] at h
    rw [h]; exact hq

/-- The exact weighted sum of the kept pairs. -/
def wsum (l : List (ℚ × ℚ)) (f : ℚ → ℚ) : ℚ := (l.map fun p => f p.1 * p.2).sum

/-- Numerator and denominator of the weighted mean, products of any size. -/
theorem weighted_core_all (sum : List Num → Num) (hs : IsSum sum) (xs ws : List ℚ) (mask : Option (List Bool))
    (hW : Doubles ws) (hl : ws.length = xs.length) (hm : Fits mask xs.length) (hn : xs.length ≤ 2 ^ 50)
    (h0 : ∀ p ∈ kept (xs.zip ws) mask, 0 ≤ p.2)
    (hA : wsum (kept (xs.zip ws) mask) (fun x => |x|) ≤ 2 ^ 1020) (hWt : (kept ws mask).sum ≤ 2 ^ 1021) :
    ∃ N D : ℚ, sum1 sum (xs.map .fin) (some (ws.map .fin)) mask = .fin N ∧ sum1 sum (ws.map .fin) none mask = .fin D ∧
      |N - wsum (kept (xs.zip ws) mask) (fun x => x)| ≤
        (xs.length : ℚ) * 2 ^ (-52 : ℤ) * (wsum (kept (xs.zip ws) mask) (fun x => |x|) + 2 ^ (-1022 : ℤ)) ∧
      |D - (kept ws mask).sum| ≤ ((xs.length - 1 : ℕ) : ℚ) * 2 ^ (-52 : ℤ) * (kept ws mask).sum ∧
      ((∀ p ∈ kept (xs.zip ws) mask, 0 ≤ p.1) → 0 ≤ N) := by
  have ew : absSum (kept ws mask) = (kept ws mask).sum := by
    rw [← kept_snd xs ws hl]
    exact absSum_of_nonneg _ (fun y hy => by obtain ⟨p, hp, rfl⟩ := List.mem_map.mp hy; exact h0 p hp)
  have ep : (List.zipWith (· * ·) xs (maskedQ ws mask)).sum = wsum (kept (xs.zip ws) mask) (fun x => x) :=
    kept_zip_sum (fun p => p.1 * p.2) (by simp) xs ws mask
  have ea : absSum (List.zipWith (· * ·) xs (maskedQ ws mask)) = wsum (kept (xs.zip ws) mask) (fun x => |x|) := by
    have h1 : wsum (kept (xs.zip ws) mask) (fun x => |x|) = ((kept (xs.zip ws) mask).map fun p => |p.1 * p.2|).sum := by
      unfold wsum
      exact congrArg List.sum (List.map_congr_left (fun p hp => by rw [abs_mul, abs_of_nonneg (h0 p hp)]))
    rw [h1, ← kept_zip_sum (fun p => |p.1 * p.2|) (by simp) xs ws mask, absSum, List.map_zipWith]
  have p52 : (2 : ℕ) ^ 50 ≤ 2 ^ 52 := by norm_num
  -- the denominator
  obtain ⟨D, d1, d2, d3⟩ := sum_err sum hs (maskedQ ws mask) (fun x h => (maskedQ_doubles mask hW x h).1)
    (by rw [maskedQ_length _ _ (by rw [hl]; exact hm), hl]; omega)
    (by rw [maskedQ_abs, ew]; exact le_trans hWt (pow_le_pow_right₀ (by norm_num) (by norm_num)))
  rw [maskedQ_sum, maskedQ_abs, maskedQ_length _ _ (by rw [hl]; exact hm), ew, hl] at d3
  -- the numerator
  have hnn : (∀ p ∈ kept (xs.zip ws) mask, 0 ≤ p.1) → ∀ p ∈ List.zipWith (· * ·) xs (maskedQ ws mask), 0 ≤ p := by
    intro h p hp
    rcases prod_mem xs ws mask p hp with rfl | ⟨q, hq, rfl⟩
    · exact le_rfl
    · exact mul_nonneg (h q hq) (h0 q hq)
  generalize hL : List.zipWith (· * ·) xs (maskedQ ws mask) = L at *
  have hLlen : L.length = xs.length := by
    rw [← hL, List.length_zipWith, maskedQ_length _ _ (by rw [hl]; exact hm), hl, min_self]
  have hsmall : ∀ p ∈ L, |p| ≤ 2 ^ 1023 := fun p hp =>
    le_trans (mem_le_absSum L p hp) (by rw [ea]; exact le_trans hA (pow_le_pow_right₀ (by norm_num) (by norm_num)))
  obtain ⟨e1, e2⟩ := rnd_list_err_all L
  have nn := absSum_nonneg L
  have hu1 : (2 : ℚ) ^ (-53 : ℤ) ≤ 1 := by norm_num
  have hu0 : (0 : ℚ) < 2 ^ (-53 : ℤ) := pow_pos' _
  have hv0 : (0 : ℚ) < 2 ^ (-1075 : ℤ) := pow_pos' _
  have nq : (xs.length : ℚ) ≤ 2 ^ 50 := by exact_mod_cast hn
  have nv : (xs.length : ℚ) * 2 ^ (-1075 : ℤ) ≤ 2 ^ 1020 := by
    refine le_trans (mul_le_mul nq (d := 1) ?_ hv0.le (by positivity)) ?_
    · have := zpow_le_zpow_right₀ (by norm_num : (1 : ℚ) ≤ 2) (by norm_num : (-1075 : ℤ) ≤ 0)
      simpa using this
    · rw [mul_one]; exact pow_le_pow_right₀ (by norm_num) (by norm_num)
  rw [hLlen] at e1 e2
  obtain ⟨N, n1, n2, n3⟩ := sum_err sum hs (L.map rnd) (fun x h => by
      obtain ⟨y, _, rfl⟩ := List.mem_map.mp h
      exact isF_rnd y) (by rw [List.length_map, hLlen]; omega) (by
      have e : (2 : ℚ) ^ 1022 = 4 * 2 ^ 1020 := by rw [show 1022 = 1020 + 2 by norm_num, pow_add]; ring
      rw [e]
      rw [← ea] at hA
      have q : (1 + 2 ^ (-53 : ℤ)) * absSum L ≤ 2 * absSum L := mul_le_mul_of_nonneg_right (by linarith) nn
      generalize (2 : ℚ) ^ 1020 = z at *
      linarith only [e2, q, nv, hA, nn])
  rw [List.length_map, hLlen] at n3
  refine ⟨N, D, ?_, ?_, ?_, d3, ?_⟩
  · rw [sum1_weight sum xs ws mask hW, mulL_fin xs _ (by rw [hL]; exact hsmall), hL, n1]
  · rw [sum1_unweighted sum mask hW, d1]
  · rw [← ep, ← ea]
    have k1 := eps_le_one (n := xs.length - 1) (by omega)
    have k0 : 0 ≤ ((xs.length - 1 : ℕ) : ℚ) * 2 ^ (-52 : ℤ) := mul_nonneg (Nat.cast_nonneg _) (pow_pos' _).le
    have e52 : (2 : ℚ) ^ (-52 : ℤ) = 2 * 2 ^ (-53 : ℤ) := by
      rw [show (-52 : ℤ) = 1 + -53 by norm_num, zpow_add₀ (by norm_num), zpow_one]
    have e1022 : (2 : ℚ) ^ (-53 : ℤ) * 2 ^ (-1022 : ℤ) = 2 ^ (-1075 : ℤ) := by
      rw [← zpow_add₀ (by norm_num)]; norm_num
    have h3 := abs_add_le (N - (L.map rnd).sum) ((L.map rnd).sum - L.sum)
    rw [show N - (L.map rnd).sum + ((L.map rnd).sum - L.sum) = N - L.sum by ring] at h3
    by_cases hx : xs.length = 0
    · have : L = [] := List.eq_nil_of_length_eq_zero (by omega)
      subst this
      rw [hx] at n3 e1 ⊢
      simp only [List.map_nil, List.sum_nil, absSum, mul_zero, Nat.cast_zero, zero_mul, add_zero] at *
      linarith
    · have e : (xs.length : ℚ) = ((xs.length - 1 : ℕ) : ℚ) + 1 := by
        have : xs.length = xs.length - 1 + 1 := by omega
        exact_mod_cast this
      have q1 := mul_le_mul_of_nonneg_left e2 k0
      have q2 := mul_le_mul_of_nonneg_right k1 (mul_nonneg hu0.le nn)
      have q3 := mul_le_mul_of_nonneg_right k1 (mul_nonneg (Nat.cast_nonneg (α := ℚ) xs.length) hv0.le)
      have n1' : (1 : ℚ) ≤ xs.length := by exact_mod_cast Nat.one_le_iff_ne_zero.mpr hx
      have goal : (xs.length : ℚ) * 2 ^ (-52 : ℤ) * (absSum L + 2 ^ (-1022 : ℤ)) =
          ((xs.length - 1 : ℕ) : ℚ) * 2 ^ (-52 : ℤ) * absSum L + 2 * (2 ^ (-53 : ℤ) * absSum L) + 2 * (xs.length * 2 ^ (-1075 : ℤ)) := by
        rw [mul_add, ← e1022]
        conv_lhs => arg 1; rw [e]
        rw [e52]
        generalize (2 : ℚ) ^ (-1022 : ℤ) = z
        generalize (2 : ℚ) ^ (-53 : ℤ) = u
        ring
      rw [goal]
      generalize ((xs.length - 1 : ℕ) : ℚ) * 2 ^ (-52 : ℤ) = k at *
      generalize (xs.length : ℚ) * 2 ^ (-1075 : ℤ) = v at *
      generalize (2 : ℚ) ^ (-53 : ℤ) = u at *
      have : k * ((1 + u) * absSum L + v) = k * absSum L + k * (u * absSum L) + k * v := by ring
      rw [this] at q1
      linarith only [q1, q2, q3, h3, n3, e1]
  · intro h
    refine sum_nonneg' sum hs (L.map rnd) ?_ N n1
    intro x hx
    obtain ⟨y, hy, rfl⟩ := List.mem_map.mp hx
    exact rnd_nonneg (hnn h y hy)

/-- The exact weighted average of `f` of the data: pairs of a datum and its weight. -/
def wavg (l : List (ℚ × ℚ)) (f : ℚ → ℚ) : ℚ := (l.map fun p => f p.1 * p.2).sum / (l.map fun p => p.2).sum

theorem wavg_eq (xs ws : List ℚ) (hl : ws.length = xs.length) (mask : Option (List Bool)) (f : ℚ → ℚ) :
    wavg (kept (xs.zip ws) mask) f = wsum (kept (xs.zip ws) mask) f / (kept ws mask).sum := by
  rw [← kept_snd xs ws hl]; rfl

theorem wsum_le (l : List (ℚ × ℚ)) (f g : ℚ → ℚ) (h : ∀ p ∈ l, 0 ≤ p.2 ∧ f p.1 ≤ g p.1) : wsum l f ≤ wsum l g := by
  induction l with
  | nil => simp [wsum]
  | cons p t ih =>
    have h1 := ih (fun q hq => h q (by simp [hq]))
    obtain ⟨a1, a2⟩ := h p (by simp)
    simp only [wsum, List.map_cons, List.sum_cons] at *
    have := mul_le_mul_of_nonneg_right a2 a1
    linarith

theorem wsum_const (l : List (ℚ × ℚ)) (c : ℚ) : wsum l (fun _ => c) = c * (l.map fun p => p.2).sum := by
  unfold wsum; rw [List.sum_map_mul_left]

theorem wsum_abs_le (l : List (ℚ × ℚ)) (h : ∀ p ∈ l, 0 ≤ p.2) : |wsum l (fun x => x)| ≤ wsum l (fun x => |x|) := by
  induction l with
  | nil => simp [wsum]
  | cons p t ih =>
    have h1 := ih (fun q hq => h q (by simp [hq]))
    have a1 := h p (by simp)
    simp only [wsum, List.map_cons, List.sum_cons] at *
    have := abs_add_le (p.1 * p.2) ((t.map fun p => p.1 * p.2).sum)
    rw [abs_mul, abs_of_nonneg a1] at this
    linarith

/-- The weighted mean of data of any size. -/
theorem wmean_core (sum : List Num → Num) (hs : IsSum sum) (fill : Num) (xs ws : List ℚ) (mask : Option (List Bool))
    (hW : Doubles ws) (hl : ws.length = xs.length) (hm : Fits mask xs.length) (hn : xs.length ≤ 2 ^ 50)
    (h0 : ∀ p ∈ kept (xs.zip ws) mask, 0 ≤ p.2 ∧ |p.1| ≤ 2 ^ 1020)
    (hA : wsum (kept (xs.zip ws) mask) (fun x => |x|) ≤ 2 ^ 1020)
    (hpos : 2 ^ (-1000 : ℤ) ≤ (kept ws mask).sum) (hWt : (kept ws mask).sum ≤ 2 ^ 1021) :
    ∃ r : ℚ, mean1 sum fill (xs.map .fin) (some (ws.map .fin)) mask = .fin r ∧ IsF r ∧
      |r - wavg (kept (xs.zip ws) mask) (fun x => x)| ≤
        (xs.length : ℚ) * 2 ^ (-50 : ℤ) * (wavg (kept (xs.zip ws) mask) (fun x => |x|) + 2 ^ (-1022 : ℤ) / (kept ws mask).sum) + 2 ^ (-1075 : ℤ) ∧
      ((∀ p ∈ kept (xs.zip ws) mask, 0 ≤ p.1) → 0 ≤ r) := by
  obtain ⟨N, D, n1, d1, n2, d2, n3⟩ := weighted_core_all sum hs xs ws mask hW hl hm hn (fun p hp => (h0 p hp).1) hA hWt
  have hp0 : 0 < (kept ws mask).sum := lt_of_lt_of_le (pow_pos' _) hpos
  have hk0 : 0 < (kept ws mask).length := by
    rcases Nat.eq_zero_or_pos (kept ws mask).length with h | h
    · rw [List.eq_nil_of_length_eq_zero h] at hp0; simp at hp0
    · exact h
  have hAM : wsum (kept (xs.zip ws) mask) (fun x => |x|) ≤ 2 ^ 1020 * (kept ws mask).sum := by
    rw [← kept_snd xs ws hl]
    refine le_trans (wsum_le _ _ (fun _ => 2 ^ 1020) h0) (le_of_eq ?_)
    rw [wsum_const]
  have hPA := wsum_abs_le (kept (xs.zip ws) mask) (fun p hp => (h0 p hp).1)
  have hcount : count1 (xs.map .fin) mask = (kept ws mask).length := count_kept _ ws (by simp [hl]) mask (by simpa using hm)
  rw [wavg_eq _ _ hl, wavg_eq _ _ hl, ← add_div]
  have v0 : (0 : ℚ) < 2 ^ (-1022 : ℤ) := pow_pos' _
  have vW : (2 : ℚ) ^ (-1022 : ℤ) ≤ 2 ^ 1020 * (kept ws mask).sum := by
    have h1 : (2 : ℚ) ^ (-1022 : ℤ) ≤ 2 ^ (-1000 : ℤ) := zpow_le_zpow_right₀ (by norm_num) (by norm_num)
    have h2 : (1 : ℚ) ≤ 2 ^ 1020 := one_le_pow₀ (by norm_num)
    have h3 := mul_le_mul_of_nonneg_right h2 hp0.le
    rw [one_mul] at h3
    exact le_trans h1 (le_trans hpos h3)
  generalize wsum (kept (xs.zip ws) mask) (fun x => x) = P at *
  generalize wsum (kept (xs.zip ws) mask) (fun x => |x|) = A at *
  generalize (kept ws mask).sum = W at *
  have hPA' : |P| ≤ A + 2 ^ (-1022 : ℤ) := le_trans hPA (le_add_of_nonneg_right v0.le)
  have hA0 : 0 ≤ A + 2 ^ (-1022 : ℤ) := le_trans (abs_nonneg _) hPA'
  have hAM' : A + 2 ^ (-1022 : ℤ) ≤ 2 ^ 1021 * W := by
    have e : (2 : ℚ) ^ 1021 = 2 * 2 ^ 1020 := by rw [pow_succ]; ring
    rw [e]
    generalize (2 : ℚ) ^ 1020 = z at *
    generalize (2 : ℚ) ^ (-1022 : ℤ) = v at *
    linarith only [hAM, vW]
  generalize A + (2 : ℚ) ^ (-1022 : ℤ) = A' at *
  have hQ0 : 0 ≤ A' / W := div_nonneg hA0 hp0.le
  have k0 : 0 ≤ (xs.length : ℚ) * 2 ^ (-52 : ℤ) := mul_nonneg (Nat.cast_nonneg _) (pow_pos' _).le
  have k1 : (xs.length : ℚ) * 2 ^ (-52 : ℤ) ≤ 1 / 4 := by
    have h2 : (xs.length : ℚ) ≤ 2 ^ 50 := by exact_mod_cast hn
    have h3 : ((2 : ℚ) ^ 50) * 2 ^ (-52 : ℤ) = 1 / 4 := by norm_num
    rw [← h3]
    exact mul_le_mul_of_nonneg_right h2 (pow_pos' _).le
  have e50 : (xs.length : ℚ) * 2 ^ (-50 : ℤ) = 4 * ((xs.length : ℚ) * 2 ^ (-52 : ℤ)) := by
    rw [show (-50 : ℤ) = 2 + -52 by norm_num, zpow_add₀ (by norm_num)]; ring
  have hl1 : 1 ≤ xs.length := by
    have := kept_length_le ws mask
    omega
  have en : ((xs.length - 1 : ℕ) : ℚ) * 2 ^ (-52 : ℤ) = (xs.length : ℚ) * 2 ^ (-52 : ℤ) - 2 ^ (-52 : ℤ) := by
    rw [Nat.cast_sub hl1]; push_cast; ring
  have k2 : 0 ≤ ((xs.length - 1 : ℕ) : ℚ) * 2 ^ (-52 : ℤ) := mul_nonneg (Nat.cast_nonneg _) (pow_pos' _).le
  have p52 : (0 : ℚ) < 2 ^ (-52 : ℤ) := pow_pos' _
  obtain ⟨hD, hr⟩ := ratio_err hp0 hPA' k0 k2 (by rw [en]; linarith only [k1, p52]) n2 d2
  rw [en] at hr
  have hq : |N / D| ≤ 2 * (A' / W) := by
    have h1 := abs_add_le (N / D - P / W) (P / W)
    rw [sub_add_cancel] at h1
    have h2 : |P / W| ≤ A' / W := by rw [abs_div, abs_of_pos hp0]; exact div_le_div_of_nonneg_right hPA' hp0.le
    have h3 := mul_le_mul_of_nonneg_right k1 hQ0
    have h4 := mul_nonneg p52.le hQ0
    linarith only [h1, h2, h3, h4, hr]
  have hAW : A' / W ≤ 2 ^ 1021 := by rw [div_le_iff₀ hp0]; exact hAM'
  refine ⟨rnd (N / D), ?_, isF_rnd _, ?_, ?_⟩
  · simp only [mean1, hcount, n1, d1]
    rw [if_neg (by omega)]
    show (if D = 0 then _ else ofQ _) = _
    rw [if_neg hD.ne', ofQ_fin_le (le_trans hq ?_) FloatBins.pow1023 FloatBins.lt1024]
    have e : (2 : ℚ) ^ 1023 = 2 * (2 * 2 ^ 1021) := by rw [pow_succ, pow_succ]; ring
    rw [e]
    have : (0 : ℚ) < 2 ^ 1021 := by positivity
    generalize (2 : ℚ) ^ 1021 = z at *
    linarith only [hAW, this]
  · have h1 := FloatMesh.rnd_err_all (N / D)
    have h2 : (2 : ℚ) ^ (-53 : ℤ) * |N / D| ≤ 2 ^ (-53 : ℤ) * (2 * (A' / W)) := mul_le_mul_of_nonneg_left hq (pow_pos' _).le
    have e52 : (2 : ℚ) ^ (-52 : ℤ) = 2 * 2 ^ (-53 : ℤ) := by
      rw [show (-52 : ℤ) = 1 + -53 by norm_num, zpow_add₀ (by norm_num), zpow_one]
    have h3 := abs_add_le (rnd (N / D) - N / D) (N / D - P / W)
    rw [show rnd (N / D) - N / D + (N / D - P / W) = rnd (N / D) - P / W by ring] at h3
    rw [e50]
    generalize (xs.length : ℚ) * 2 ^ (-52 : ℤ) = k at *
    generalize A' / W = Q at *
    have e1 : 2 * (k + (k - 2 ^ (-52 : ℤ))) * Q = 4 * k * Q - 2 * (2 ^ (-52 : ℤ) * Q) := by ring
    have e2 : (2 : ℚ) ^ (-53 : ℤ) * (2 * Q) = 2 ^ (-52 : ℤ) * Q := by rw [e52]; ring
    have := mul_nonneg p52.le hQ0
    rw [e1] at hr
    rw [e2] at h2
    generalize (2 : ℚ) ^ (-52 : ℤ) * Q = y at *
    generalize (2 : ℚ) ^ (-1075 : ℤ) = v at *
    linarith only [h1, h2, h3, hr, this]
  · intro h
    exact rnd_nonneg (div_nonneg (n3 h) hD.le)

/-- C132: the weighted mean of the kept data, products of values and weights of any size: an additional error of the order of the smallest double,
relative to the total weight. -/
theorem C132_weighted_all (sum : List Num → Num) (hs : IsSum sum) (fill : Num) (xs ws : List ℚ) (mask : Option (List Bool))
    (hW : Doubles ws) (hl : ws.length = xs.length) (hm : Fits mask xs.length) (hn : xs.length ≤ 2 ^ 50)
    (h0 : ∀ p ∈ kept (xs.zip ws) mask, 0 ≤ p.2 ∧ |p.1| ≤ 2 ^ 1020)
    (hA : ((kept (xs.zip ws) mask).map fun p => |p.1| * p.2).sum ≤ 2 ^ 1020)
    (hpos : 2 ^ (-1000 : ℤ) ≤ (kept ws mask).sum) (hWt : (kept ws mask).sum ≤ 2 ^ 1021) :
    ∃ r : ℚ, call (mean1 sum fill) (xs.map .fin) (some (ws.map .fin)) mask = .ok (.fin r) ∧ IsF r ∧
      |r - wavg (kept (xs.zip ws) mask) (fun x => x)| ≤
        (xs.length : ℚ) * 2 ^ (-50 : ℤ) * (wavg (kept (xs.zip ws) mask) (fun x => |x|) + 2 ^ (-1022 : ℤ) / (kept ws mask).sum) + 2 ^ (-1075 : ℤ) ∧
      ((∀ p ∈ kept (xs.zip ws) mask, 0 ≤ p.1) → 0 ≤ r) := by
  obtain ⟨r, h1, h2⟩ := wmean_core sum hs fill xs ws mask hW hl hm hn h0 hA hpos hWt
  refine ⟨r, ?_, h2⟩
  rw [call_ok _ _ _ _ (by intro w hw; cases hw; simp [hl]) (by simpa using hm), h1]

/-! ### Weighted standard deviations -/

theorem wavg_shift (l : List (ℚ × ℚ)) (hW : (l.map fun p => p.2).sum ≠ 0) (r : ℚ) :
    wavg l (fun x => (x - r) ^ 2) = wavg l (fun x => (x - wavg l (fun x => x)) ^ 2) + (r - wavg l (fun x => x)) ^ 2 := by
  have key : ∀ s : ℚ, wsum l (fun x => (x - s) ^ 2) = wsum l (fun x => x ^ 2) - 2 * s * wsum l (fun x => x) + (l.map fun p => p.2).sum * s ^ 2 := by
    intro s
    clear hW
    induction l with
    | nil => simp [wsum]
    | cons p t ih => simp only [wsum, List.map_cons, List.sum_cons] at *; rw [ih]; ring
  have e : wsum l (fun x => x) = (l.map fun p => p.2).sum * wavg l (fun x => x) := by unfold wavg wsum; field_simp
  have h : ∀ s : ℚ, wavg l (fun x => (x - s) ^ 2) =
      (wsum l (fun x => x ^ 2) - 2 * s * ((l.map fun p => p.2).sum * wavg l (fun x => x)) + (l.map fun p => p.2).sum * s ^ 2) / (l.map fun p => p.2).sum := by
    intro s
    rw [← e, ← key]; rfl
  rw [h r, h (wavg l (fun x => x))]
  generalize wavg l (fun x => x) = m
  generalize (l.map fun p => p.2).sum = W at *
  field_simp
  ring

theorem wlist_err (l : List (ℚ × ℚ)) (f g : ℚ → ℚ) (a b : ℚ) (h : ∀ p ∈ l, 0 ≤ p.2 ∧ |f p.1 - g p.1| ≤ a * g p.1 + b) :
    |wsum l f - wsum l g| ≤ a * wsum l g + b * (l.map fun p => p.2).sum := by
  induction l with
  | nil => simp [wsum]
  | cons p t ih =>
    have h1 := ih (fun y hy => h y (by simp [hy]))
    obtain ⟨h2, h3⟩ := h p (by simp)
    simp only [wsum, List.map_cons, List.sum_cons] at *
    have h4 := abs_add_le ((f p.1 - g p.1) * p.2) ((t.map fun p => f p.1 * p.2).sum - (t.map fun p => g p.1 * p.2).sum)
    rw [show (f p.1 - g p.1) * p.2 + ((t.map fun p => f p.1 * p.2).sum - (t.map fun p => g p.1 * p.2).sum) =
      f p.1 * p.2 + (t.map fun p => f p.1 * p.2).sum - (g p.1 * p.2 + (t.map fun p => g p.1 * p.2).sum) by ring, abs_mul, abs_of_nonneg h2] at h4
    have h5 := mul_le_mul_of_nonneg_right h3 h2
    linarith


/-- C132: the weighted standard deviation of the kept finite doubles (at most 2^480 in size, at most 2^40 of them, total weight between 2^-1000 and
2^50) is the square root of a number `V` that is not negative and is close to the exact weighted variance plus the square of the error `d` of the
weighted mean. -/
theorem C132_weighted_sd (sum : List Num → Num) (hs : IsSum sum) (sq : ℚ → ℚ) (fill : Num) (xs ws : List ℚ) (mask : Option (List Bool))
    (hF : ∀ x ∈ xs, IsF x) (hsm : ∀ x ∈ xs, |x| ≤ 2 ^ 480)
    (hW : Doubles ws) (hl : ws.length = xs.length) (hm : Fits mask xs.length) (hn : xs.length ≤ 2 ^ 40)
    (h0 : ∀ w ∈ kept ws mask, 0 ≤ w) (hpos : 2 ^ (-1000 : ℤ) ≤ (kept ws mask).sum) (hWt : (kept ws mask).sum ≤ 2 ^ 50) :
    ∃ V d : ℚ, call (stdDev1 sum sq fill) (xs.map .fin) (some (ws.map .fin)) mask = .ok (.fin (sq V)) ∧ 0 ≤ V ∧
      |d| ≤ (xs.length : ℚ) * 2 ^ (-50 : ℤ) * (wavg (kept (xs.zip ws) mask) (fun x => |x|) + 2 ^ (-1022 : ℤ) / (kept ws mask).sum) + 2 ^ (-1075 : ℤ) ∧
      |V - (wavg (kept (xs.zip ws) mask) (fun x => (x - wavg (kept (xs.zip ws) mask) (fun x => x)) ^ 2) + d ^ 2)| ≤
        (xs.length + 1 : ℚ) * 2 ^ (-50 : ℤ) * (wavg (kept (xs.zip ws) mask) (fun x => (x - wavg (kept (xs.zip ws) mask) (fun x => x)) ^ 2) + d ^ 2 +
          2 ^ (-1022 : ℤ) / (kept ws mask).sum) + 2 ^ (-1073 : ℤ) := by
  have hwk : ∀ p ∈ kept (xs.zip ws) mask, 0 ≤ p.2 := by
    intro p hp
    refine h0 p.2 ?_
    rw [← kept_snd xs ws hl]
    exact List.mem_map.mpr ⟨p, hp, rfl⟩
  have hfst : ∀ p ∈ kept (xs.zip ws) mask, p.1 ∈ xs := fun p hp => (List.of_mem_zip (kept_mem _ _ _ hp)).1
  have hp0 : 0 < (kept ws mask).sum := lt_of_lt_of_le (pow_pos' _) hpos
  have eW : ((kept (xs.zip ws) mask).map fun p => p.2).sum = (kept ws mask).sum := by rw [← kept_snd xs ws hl]
  have n50 : xs.length ≤ 2 ^ 50 := le_trans hn (by norm_num)
  have W1021 : (kept ws mask).sum ≤ 2 ^ 1021 := le_trans hWt (pow_le_pow_right₀ (by norm_num) (by norm_num))
  have aB : ∀ (ys : List ℚ) (e : ℕ), e + 50 ≤ 1020 → ys.length = xs.length → (∀ y ∈ ys, |y| ≤ 2 ^ e) →
      wsum (kept (ys.zip ws) mask) (fun x => |x|) ≤ 2 ^ e * (kept ws mask).sum ∧ wsum (kept (ys.zip ws) mask) (fun x => |x|) ≤ 2 ^ 1020 := by
    intro ys e he hy hb
    have k1 : wsum (kept (ys.zip ws) mask) (fun x => |x|) ≤ 2 ^ e * (kept ws mask).sum := by
      rw [← kept_snd ys ws (by rw [hl, hy])]
      refine le_trans (wsum_le _ _ (fun _ => 2 ^ e) ?_) (le_of_eq ?_)
      · intro p hp
        refine ⟨h0 p.2 ?_, hb p.1 (List.of_mem_zip (kept_mem _ _ _ hp)).1⟩
        rw [← kept_snd ys ws (by rw [hl, hy])]
        exact List.mem_map.mpr ⟨p, hp, rfl⟩
      · rw [wsum_const]
    refine ⟨k1, le_trans k1 (le_trans (mul_le_mul_of_nonneg_left hWt (by positivity)) ?_)⟩
    rw [← pow_add]
    exact pow_le_pow_right₀ (by norm_num) he
  obtain ⟨aA, aA'⟩ := aB xs 480 (by norm_num) rfl hsm
  obtain ⟨r, m1, m2, m3, -⟩ := wmean_core sum hs fill xs ws mask hW hl hm n50
    (fun p hp => ⟨hwk p hp, le_trans (hsm _ (hfst p hp)) (pow_le_pow_right₀ (by norm_num) (by norm_num))⟩) aA' hpos W1021
  have vW : (2 : ℚ) ^ (-1022 : ℤ) / (kept ws mask).sum ≤ 1 := by
    rw [div_le_one hp0]
    exact le_trans (zpow_le_zpow_right₀ (by norm_num) (by norm_num)) hpos
  have vW0 : 0 < (2 : ℚ) ^ (-1022 : ℤ) / (kept ws mask).sum := div_pos (pow_pos' _) hp0
  have kq : (xs.length : ℚ) * 2 ^ (-50 : ℤ) ≤ 2 ^ (-10 : ℤ) := by
    have h2 : (xs.length : ℚ) ≤ 2 ^ 40 := by exact_mod_cast hn
    refine le_trans (mul_le_mul_of_nonneg_right h2 (pow_pos' _).le) (le_of_eq ?_)
    norm_num
  have kq0 : 0 ≤ (xs.length : ℚ) * 2 ^ (-50 : ℤ) := mul_nonneg (Nat.cast_nonneg _) (pow_pos' _).le
  have kt : (2 : ℚ) ^ (-10 : ℤ) ≤ 1 / 1000 := by norm_num
  -- size of the mean
  have hr : |r| ≤ 2 ^ 482 := by
    have k3 : |wavg (kept (xs.zip ws) mask) (fun x => x)| ≤ 2 ^ 480 := by
      rw [wavg_eq _ _ hl, abs_div, abs_of_pos hp0, div_le_iff₀ hp0]
      exact le_trans (wsum_abs_le _ hwk) aA
    have k3' : wavg (kept (xs.zip ws) mask) (fun x => |x|) ≤ 2 ^ 480 := by
      rw [wavg_eq _ _ hl, div_le_iff₀ hp0]
      exact aA
    have k4 := abs_add_le (r - wavg (kept (xs.zip ws) mask) (fun x => x)) (wavg (kept (xs.zip ws) mask) (fun x => x))
    rw [sub_add_cancel] at k4
    have k5 : (2 : ℚ) ^ (-1075 : ℤ) ≤ 1 := by
      have := zpow_le_zpow_right₀ (by norm_num : (1 : ℚ) ≤ 2) (by norm_num : (-1075 : ℤ) ≤ 0)
      simpa using this
    have k6 : (1 : ℚ) ≤ 2 ^ 480 := one_le_pow₀ (by norm_num)
    have k7 : (2 : ℚ) ^ 482 = 4 * 2 ^ 480 := by rw [show 482 = 480 + 2 by norm_num, pow_add]; ring
    rw [k7]
    generalize (2 : ℚ) ^ 480 = z at *
    generalize (2 : ℚ) ^ (-1075 : ℤ) = z' at *
    generalize (2 : ℚ) ^ (-1022 : ℤ) / (kept ws mask).sum = v at *
    have k8 : (xs.length : ℚ) * 2 ^ (-50 : ℤ) * (wavg (kept (xs.zip ws) mask) (fun x => |x|) + v) ≤ (xs.length : ℚ) * 2 ^ (-50 : ℤ) * (z + 1) :=
      mul_le_mul_of_nonneg_left (by linarith only [k3', vW]) kq0
    have k9 : (xs.length : ℚ) * 2 ^ (-50 : ℤ) * (z + 1) ≤ 1 / 1000 * (z + 1) :=
      mul_le_mul_of_nonneg_right (le_trans kq kt) (by linarith only [k6])
    have kA := le_trans k8 k9
    generalize (xs.length : ℚ) * 2 ^ (-50 : ℤ) * (wavg (kept (xs.zip ws) mask) (fun x => |x|) + v) = y at *
    linarith only [k3, k4, k5, k6, kA, m3]
  have sub1 : ∀ x ∈ xs, Num.sub (.fin x) (.fin r) = .fin (rnd (x - r)) ∧ |rnd (x - r)| ≤ 2 ^ 484 := by
    intro x hx
    have h1 := hsm x hx
    have h2 : |x - r| ≤ 2 ^ 484 := by
      have := abs_sub x r
      have k7 : (2 : ℚ) ^ 482 = 4 * 2 ^ 480 := by rw [show 482 = 480 + 2 by norm_num, pow_add]; ring
      have k8 : (2 : ℚ) ^ 484 = 16 * 2 ^ 480 := by rw [show 484 = 480 + 4 by norm_num, pow_add]; ring
      have k6 : (0 : ℚ) < 2 ^ 480 := by positivity
      rw [k7] at hr
      rw [k8]
      generalize (2 : ℚ) ^ 480 = z at *
      linarith only [this, h1, hr, k6]
    have f484 : IsF ((2 : ℚ) ^ 484) := by
      have := isF_pow (e := 484) (by norm_num)
      exact_mod_cast this
    refine ⟨?_, ?_⟩
    · refine FloatLinear.sub_fin (le_trans h1 ?_) (le_trans hr ?_) <;> exact pow_le_pow_right₀ (by norm_num) (by norm_num)
    · rw [rnd_abs]; exact rnd_le h2 f484
  generalize hds : xs.map (fun x => rnd (rnd (x - r) * rnd (x - r))) = ds
  have sqb : ∀ x ∈ xs, |rnd (x - r) * rnd (x - r)| ≤ 2 ^ 968 := by
    intro x hx
    rw [abs_mul, show 968 = 484 + 484 by norm_num, pow_add]
    exact mul_le_mul (sub1 x hx).2 (sub1 x hx).2 (abs_nonneg _) (by positivity)
  have f968 : IsF ((2 : ℚ) ^ 968) := by
    have := isF_pow (e := 968) (by norm_num)
    exact_mod_cast this
  have dsb : ∀ y ∈ ds, IsF y ∧ 0 ≤ y ∧ |y| ≤ 2 ^ 968 := by
    intro y hy
    rw [← hds] at hy
    obtain ⟨x, hx, rfl⟩ := List.mem_map.mp hy
    refine ⟨isF_rnd _, rnd_nonneg (mul_self_nonneg _), ?_⟩
    rw [rnd_abs]; exact rnd_le (sqb x hx) f968
  have edx : mulL ((xs.map .fin).map (fun a => Num.sub a (.fin r))) ((xs.map .fin).map (fun a => Num.sub a (.fin r))) = ds.map .fin := by
    have h1 : (xs.map Num.fin).map (fun a => Num.sub a (.fin r)) = (xs.map (fun x => rnd (x - r))).map .fin := by
      rw [List.map_map, List.map_map]
      exact List.map_congr_left (fun x hx => (sub1 x hx).1)
    have h2 : List.zipWith (· * ·) (xs.map (fun x => rnd (x - r))) (xs.map (fun x => rnd (x - r))) = xs.map (fun x => rnd (x - r) * rnd (x - r)) := by
      rw [List.zipWith_map, List.zipWith_self]
    rw [h1, mulL_fin, h2, ← hds]
    · rw [List.map_map, List.map_map, List.map_map]; rfl
    · rw [h2]
      intro p hp
      obtain ⟨x, hx, rfl⟩ := List.mem_map.mp hp
      exact le_trans (sqb x hx) (pow_le_pow_right₀ (by norm_num) (by norm_num))
  have lds : ds.length = xs.length := by rw [← hds, List.length_map]
  have kds : kept (ds.zip ws) mask = (kept (xs.zip ws) mask).map (fun p => (rnd (rnd (p.1 - r) * rnd (p.1 - r)), p.2)) := by
    rw [← hds, List.zip_map_left, kept_map]; rfl
  obtain ⟨-, aD'⟩ := aB ds 968 (by norm_num) lds (fun y hy => (dsb y hy).2.2)
  obtain ⟨V, v1, v2, v3, v4⟩ := wmean_core sum hs fill ds ws mask hW (by rw [hl, lds]) (by rw [lds]; exact hm) (by rw [lds]; exact n50)
    (fun p hp => by
      rw [kds] at hp
      obtain ⟨q, hq, rfl⟩ := List.mem_map.mp hp
      refine ⟨hwk q hq, le_trans (dsb _ ?_).2.2 (pow_le_pow_right₀ (by norm_num) (by norm_num))⟩
      rw [← hds]
      exact List.mem_map.mpr ⟨q.1, hfst q hq, rfl⟩) aD' hpos W1021
  have v0 : 0 ≤ V := v4 (fun p hp => by
      rw [kds] at hp
      obtain ⟨q, hq, rfl⟩ := List.mem_map.mp hp
      exact rnd_nonneg (mul_self_nonneg _))
  refine ⟨V, r - wavg (kept (xs.zip ws) mask) (fun x => x), ?_, v0, m3, ?_⟩
  · rw [call_ok _ _ _ _ (by intro w hw; cases hw; simp [hl]) (by simpa using hm)]
    simp only [stdDev1]
    rw [m1, edx, v1]
    simp [npSqrt, not_lt.mpr v0]
  · rw [← wavg_shift _ (by rw [eW]; exact hp0.ne')]
    have ed : ∀ f : ℚ → ℚ, wavg (kept (ds.zip ws) mask) f = wsum (kept (xs.zip ws) mask) (fun x => f (rnd (rnd (x - r) * rnd (x - r)))) / (kept ws mask).sum := by
      intro f
      rw [wavg_eq _ _ (by rw [hl, lds]), kds]
      unfold wsum
      rw [List.map_map]
      rfl
    have l1 := wlist_err (kept (xs.zip ws) mask) (fun x => rnd (rnd (x - r) * rnd (x - r))) (fun x => (x - r) ^ 2) (2 * 2 ^ (-52 : ℤ)) (2 ^ (-1075 : ℤ))
      (fun p hp => ⟨hwk p hp, square_err (hF p.1 (hfst p hp)) m2⟩)
    rw [eW] at l1
    have habs : wavg (kept (ds.zip ws) mask) (fun x => |x|) = wavg (kept (ds.zip ws) mask) (fun x => x) := by
      rw [ed, ed]
      have : (fun x => |rnd (rnd (x - r) * rnd (x - r))|) = fun x => rnd (rnd (x - r) * rnd (x - r)) := by
        funext x; exact abs_of_nonneg (rnd_nonneg (mul_self_nonneg _))
      rw [this]
    have l2 : |wavg (kept (ds.zip ws) mask) (fun x => x) - wavg (kept (xs.zip ws) mask) (fun x => (x - r) ^ 2)| ≤
        2 * 2 ^ (-52 : ℤ) * wavg (kept (xs.zip ws) mask) (fun x => (x - r) ^ 2) + 2 ^ (-1075 : ℤ) := by
      rw [ed, wavg_eq _ _ hl, ← sub_div, abs_div, abs_of_pos hp0, div_le_iff₀ hp0]
      refine le_trans l1 (le_of_eq ?_)
      generalize (2 : ℚ) ^ (-1075 : ℤ) = z'
      generalize (2 : ℚ) ^ (-52 : ℤ) = z
      rw [add_mul, mul_assoc (2 * z), div_mul_cancel₀ _ hp0.ne']
    have hT0 : 0 ≤ wavg (kept (xs.zip ws) mask) (fun x => (x - r) ^ 2) := by
      rw [wavg_eq _ _ hl]
      refine div_nonneg (List.sum_nonneg ?_) hp0.le
      intro y hy
      obtain ⟨p, hp, rfl⟩ := List.mem_map.mp hy
      exact mul_nonneg (sq_nonneg _) (hwk p hp)
    rw [habs, lds] at v3
    generalize wavg (kept (xs.zip ws) mask) (fun x => (x - r) ^ 2) = T at *
    generalize wavg (kept (ds.zip ws) mask) (fun x => x) = Q at *
    have h3 := abs_add_le (V - Q) (Q - T)
    rw [sub_add_sub_cancel] at h3
    have h4 := le_abs_self (Q - T)
    have e73 : (2 : ℚ) ^ (-1073 : ℤ) = 4 * 2 ^ (-1075 : ℤ) := by
      rw [show (-1073 : ℤ) = 2 + -1075 by norm_num, zpow_add₀ (by norm_num)]; norm_num
    have e50 : (2 : ℚ) ^ (-50 : ℤ) = 4 * 2 ^ (-52 : ℤ) := by
      rw [show (-50 : ℤ) = 2 + -52 by norm_num, zpow_add₀ (by norm_num)]; norm_num
    have p1075 : (0 : ℚ) < 2 ^ (-1075 : ℤ) := pow_pos' _
    have p52 : (0 : ℚ) < 2 ^ (-52 : ℤ) := pow_pos' _
    rw [e73, add_mul, one_mul]
    have kq' := le_trans kq kt
    generalize (2 : ℚ) ^ (-1022 : ℤ) / (kept ws mask).sum = w at *
    generalize (xs.length : ℚ) * 2 ^ (-50 : ℤ) = k at *
    rw [e50]
    generalize (2 : ℚ) ^ (-1075 : ℤ) = v at *
    generalize (2 : ℚ) ^ (-52 : ℤ) = e at *
    have q1 : Q ≤ T + 2 * e * T + v := by linarith only [h4, l2]
    have q2 : k * (Q + w) ≤ k * (T + 2 * e * T + v + w) := mul_le_mul_of_nonneg_left (by linarith only [q1]) kq0
    have q3 : k * (2 * (e * T)) ≤ 1 / 1000 * (2 * (e * T)) := mul_le_mul_of_nonneg_right kq' (by positivity)
    have q4 : k * v ≤ 1 / 1000 * v := mul_le_mul_of_nonneg_right kq' p1075.le
    have q5 : 0 ≤ e * T := mul_nonneg p52.le hT0
    have q6 : 0 ≤ e * w := mul_nonneg p52.le vW0.le
    have q7 : k * (T + 2 * e * T + v + w) = k * (T + w) + k * (2 * (e * T)) + k * v := by ring
    have q8 : (k + 4 * e) * (T + w) = k * (T + w) + 4 * (e * T) + 4 * (e * w) := by ring
    rw [q8]
    rw [q7] at q2
    linarith only [q1, q2, q3, q4, q5, q6, h3, v3, l2, p1075]


/-- The hypotheses are met: four weighted doubles, one masked out and one with weight zero; the weighted mean of 1 and 0.1 with weights 2 and 1. -/
example (sq : ℚ → ℚ) : ∃ V d : ℚ, call (stdDev1 leftSum sq .nan) (exData.map .fin) (some (exWeights.map .fin)) exMask = .ok (.fin (sq V)) ∧ 0 ≤ V ∧
    |V - (2 / 9 * (1 - tenth) ^ 2 + d ^ 2)| ≤ 2 ^ (-46 : ℤ) * (2 / 9 * (1 - tenth) ^ 2 + d ^ 2 + 1) := by
  have hk : kept exWeights exMask = [2, 1, 0] := rfl
  have hz : kept (exData.zip exWeights) exMask = [(1, 2), (tenth, 1), (1 / 4, 0)] := rfl
  have hlen : exData.length = 4 := rfl
  obtain ⟨V, d, h1, h2, -, h4⟩ := C132_weighted_sd leftSum leftSum_isSum sq .nan exData exWeights exMask (fun x hx => (exData_doubles x hx).1)
    (by
      intro x hx
      refine le_trans (b := (2 : ℚ) ^ 2) ?_ (pow_le_pow_right₀ (by norm_num) (by norm_num))
      simp only [exData, List.mem_cons, List.not_mem_nil, or_false] at hx
      rcases hx with rfl | rfl | rfl | rfl <;> decide +kernel)
    exWeights_doubles rfl exMask_fits (by rw [hlen]; norm_num)
    (by rw [hk]; intro w hw; simp only [List.mem_cons, List.not_mem_nil, or_false] at hw; rcases hw with rfl | rfl | rfl <;> norm_num)
    (by
      rw [hk]
      refine le_trans (b := (2 : ℚ) ^ (0 : ℤ)) (zpow_le_zpow_right₀ (by norm_num) (by norm_num)) ?_
      norm_num)
    (by rw [hk]; norm_num)
  refine ⟨V, d, h1, h2, ?_⟩
  rw [hz, hk, hlen] at h4
  have em : wavg [(1, 2), (tenth, 1), (1 / 4, 0)] (fun x => x) = (2 + tenth) / 3 := by
    simp only [wavg, List.map_cons, List.map_nil, List.sum_cons, List.sum_nil]; ring
  have ev : wavg [(1, 2), (tenth, 1), (1 / 4, 0)] (fun x => (x - (2 + tenth) / 3) ^ 2) = 2 / 9 * (1 - tenth) ^ 2 := by
    simp only [wavg, List.map_cons, List.map_nil, List.sum_cons, List.sum_nil]; ring
  rw [em, ev] at h4
  have s1 : (2 : ℚ) ^ (-1022 : ℤ) / [(2 : ℚ), 1, 0].sum ≤ 1 / 2 := by
    have : (2 : ℚ) ^ (-1022 : ℤ) ≤ 2 ^ (0 : ℤ) := zpow_le_zpow_right₀ (by norm_num) (by norm_num)
    rw [zpow_zero] at this
    simp only [List.sum_cons, List.sum_nil]
    generalize (2 : ℚ) ^ (-1022 : ℤ) = v at *
    linarith only [this]
  have s2 : (2 : ℚ) ^ (-1073 : ℤ) ≤ 2 ^ (-47 : ℤ) := zpow_le_zpow_right₀ (by norm_num) (by norm_num)
  have e47 : (2 : ℚ) ^ (-47 : ℤ) = 1 / 2 * 2 ^ (-46 : ℤ) := by norm_num
  have e50 : ((4 : ℕ) + 1 : ℚ) * (2 : ℚ) ^ (-50 : ℤ) ≤ 2 ^ (-46 : ℤ) := by norm_num
  have p46 : (0 : ℚ) < 2 ^ (-46 : ℤ) := pow_pos' _
  have nn : 0 ≤ 2 / 9 * (1 - tenth) ^ 2 + d ^ 2 := by positivity
  rw [e47] at s2
  have n2 : 0 ≤ (2 : ℚ) ^ (-1022 : ℤ) / [(2 : ℚ), 1, 0].sum := div_nonneg (pow_pos' _).le (by norm_num)
  generalize (2 : ℚ) ^ (-1022 : ℤ) / [(2 : ℚ), 1, 0].sum = w at *
  generalize 2 / 9 * (1 - tenth) ^ 2 + d ^ 2 = T at *
  have q1 := mul_le_mul e50 (le_refl (T + w)) (by linarith only [nn, n2]) p46.le
  have q2 := mul_le_mul_of_nonneg_left s1 p46.le
  generalize (2 : ℚ) ^ (-46 : ℤ) = u at *
  generalize (2 : ℚ) ^ (-1073 : ℤ) = y at *
  generalize ((4 : ℕ) + 1 : ℚ) * (2 : ℚ) ^ (-50 : ℤ) * (T + w) = g at *
  linarith only [h4, q1, q2, s2]

end Pyhipp.FloatReduce
