import Verif.Model.FloatBilinear
import Verif.Props.FloatLinear
import Mathlib.Tactic.IntervalCases
/-
C140: bilinear interpolation in double precision.
-/
namespace Pyhipp.FloatBilinear
open Pyhipp Pyhipp.F64 Pyhipp.FloatLinear
open Pyhipp.Interpolate (bisearch_spec sorted_le sorted_lt strict_sorted)

/-! ### Specification -/

/-- The coordinate `v`, moved into the range of the nodes if it is outside, lies at the fraction `t` of the way from node `k` to the next. -/
def At (xs : List ℚ) (v : ℚ) (k : Nat) (t : ℚ) : Prop :=
  0 ≤ t ∧ t ≤ 1 ∧ ∃ h : k + 1 < xs.length, max xs[0] (min v xs[xs.length - 1]) = xs[k] + t * (xs[k + 1] - xs[k])

/-- The bilinear function on the cell (k1, k2) of the table at the fractions (t1, t2). -/
def bilinear (y : Nat → Nat → ℚ) (k1 k2 : Nat) (t1 t2 : ℚ) : ℚ :=
  (1 - t1) * ((1 - t2) * y k1 k2 + t2 * y k1 (k2 + 1)) + t1 * ((1 - t2) * y (k1 + 1) k2 + t2 * y (k1 + 1) (k2 + 1))

/-- An array of doubles with `n1` rows and `n2` columns, given by its entries. -/
def table (n1 n2 : Nat) (y : Nat → Nat → ℚ) : List (List Num) := (List.range n1).map (fun i => (List.range n2).map (fun j => Num.fin (y i j)))

/-! ### The weights along one axis -/

/-- The two nodes and weights of one axis: the computed weights `wl`, `wr` are close to the exact ones `pl`, `pr`. -/
structure Axis (xs : List ℚ) (v : ℚ) (l r : Nat) (wl wr pl pr : ℚ) : Prop where
  hl : l < xs.length
  hr : r < xs.length
  fl : IsF wl
  fr : IsF wr
  wl0 : 0 ≤ wl
  wr0 : 0 ≤ wr
  wl1 : wl ≤ 1
  wr1 : wr ≤ 1
  pl0 : 0 ≤ pl
  pr0 : 0 ≤ pr
  one : pl + pr = 1
  el : |wl - pl| ≤ 2 ^ (-50 : ℤ) * pl + 2 ^ (-1075 : ℤ)
  er : |wr - pr| ≤ 2 ^ (-50 : ℤ) * pr + 2 ^ (-1075 : ℤ)
  exact' : ∀ k t, At xs v k t → ∀ f : Nat → ℚ, pl * f l + pr * f r = (1 - t) * f k + t * f (k + 1)
  node : ∀ k (h : k < xs.length), v = xs[k] → ∀ f : Nat → ℚ, (f l = f k ∧ wl = 1 ∧ wr = 0) ∨ (f r = f k ∧ wl = 0 ∧ wr = 1)

theorem zero_err : |(0 : ℚ) - 0| ≤ 2 ^ (-50 : ℤ) * 0 + 2 ^ (-1075 : ℤ) := by
  rw [sub_zero, abs_zero, mul_zero, zero_add]; exact (pow_pos' _).le

theorem one_err : |(1 : ℚ) - 1| ≤ 2 ^ (-50 : ℤ) * 1 + 2 ^ (-1075 : ℤ) := by
  rw [sub_self, abs_zero]
  exact add_nonneg (mul_nonneg (pow_pos' _).le (by norm_num)) (pow_pos' _).le

theorem axis_spec {xs : List ℚ} (N : Nodes xs) {v : ℚ} (fv : IsF v) :
    ∃ (l r : Nat) (wl wr pl pr : ℚ), interpWeight (fins xs) (.fin v) = .ok ((l : Int), (r : Int), .fin wl, .fin wr) ∧ Axis xs v l r wl wr pl pr := by
  have hn : 0 < xs.length := List.length_pos_iff.mpr N.ne
  have so := strict_sorted N.inc
  have le : ∀ i j (hij : i ≤ j) (hj : j < xs.length), xs[i] ≤ xs[j] := fun i j hij hj => sorted_le so hij hj
  have lt : ∀ i j (hij : i < j) (hj : j < xs.length), xs[i] < xs[j] := fun i j hij hj => sorted_lt N.inc hij hj
  have f0 : IsF (0 : ℚ) := rnd_zero
  rcases lt_or_ge v xs[0] with hv | hv
  · -- left of the nodes
    refine ⟨0, 0, 0, 1, 0, 1, ?_, ⟨hn, hn, f0, one_isF, le_rfl, by norm_num, by norm_num, le_rfl, le_rfl, by norm_num, by norm_num, zero_err, one_err, ?_, ?_⟩⟩
    · unfold interpWeight
      rw [search_lt_first N.ne so v hn hv]
      simp only [bind, Except.bind, pure, Except.pure]
      rw [if_pos (by omega)]
      rfl
    · rintro k t ⟨t0, t1, hk, e⟩ f
      rw [max_eq_left (le_trans (min_le_left _ _) hv.le)] at e
      have a := le 0 k (by omega) (by omega)
      have b := lt k (k + 1) (by omega) hk
      have c : 0 ≤ t * (xs[k + 1] - xs[k]) := mul_nonneg t0 (by linarith)
      have hk0 : k = 0 := by
        by_contra h
        have := lt 0 k (by omega) (by omega)
        linarith
      subst hk0
      have ht : t = 0 := by
        have : t * (xs[0 + 1] - xs[0]) = 0 := by linarith
        rcases mul_eq_zero.mp this with h | h
        · exact h
        · linarith
      rw [ht]; ring
    · intro k h e f
      have := le 0 k (by omega) h
      rw [e] at hv
      linarith
  · rcases le_or_gt xs[xs.length - 1] v with hv2 | hv2
    · -- right of the nodes
      refine ⟨xs.length - 1, xs.length - 1, 1, 0, 1, 0, ?_, ⟨by omega, by omega, one_isF, f0, by norm_num, le_rfl, le_rfl, by norm_num, by norm_num, le_rfl, by norm_num, one_err, zero_err, ?_, ?_⟩⟩
      · have e : (xs.length : Int) - 1 = ((xs.length - 1 : Nat) : Int) := by omega
        unfold interpWeight
        rw [search_ge_last N.ne so v hn hv2, fins_length]
        simp only [bind, Except.bind, pure, Except.pure]
        rw [if_neg (by omega), if_pos (by omega), e]
      · rintro k t ⟨t0, t1, hk, e⟩ f
        rw [min_eq_right hv2, max_eq_right (le 0 _ (by omega) (by omega))] at e
        have a := le (k + 1) (xs.length - 1) (by omega) (by omega)
        have b := lt k (k + 1) (by omega) hk
        have c : t * (xs[k + 1] - xs[k]) ≤ 1 * (xs[k + 1] - xs[k]) := mul_le_mul_of_nonneg_right t1 (by linarith)
        have hk0 : k + 1 = xs.length - 1 := by
          by_contra h
          have := lt (k + 1) (xs.length - 1) (by omega) (by omega)
          linarith
        have hx : xs[xs.length - 1] = xs[k + 1] := by congr 1; omega
        have ht : t = 1 := by
          have : (1 - t) * (xs[k + 1] - xs[k]) = 0 := by rw [hx] at e; linarith
          rcases mul_eq_zero.mp this with h | h
          · linarith
          · linarith
        rw [ht, ← hk0]; ring
      · intro k h e f
        left
        have : ¬ k < xs.length - 1 := fun hlt => by
          have := lt k (xs.length - 1) hlt (by omega)
          rw [e] at hv2
          linarith
        exact ⟨by congr 1; omega, rfl, rfl⟩
    · -- between two nodes
      obtain ⟨i, hi, i1, i2, i3⟩ := bisearch_spec xs v N.ne so
      have h0 := (i3 0 hn).mp hv
      have h1 : ¬ ((xs.length - 1 : Nat) : Int) ≤ i := fun h => absurd ((i3 (xs.length - 1) (by omega)).mpr h) (not_le.mpr hv2)
      obtain ⟨k, rfl⟩ : ∃ k : Nat, i = k := ⟨i.toNat, by omega⟩
      have hk : k + 1 < xs.length := by omega
      have ha : xs[k] ≤ v := (i3 k (by omega)).mpr le_rfl
      have hb : v < xs[k + 1] := by
        rw [← not_le]
        intro h
        have := (i3 (k + 1) hk).mp h
        omega
      have fl : IsF xs[k] := N.isF _ (List.getElem_mem _)
      have fr : IsF xs[k + 1] := N.isF _ (List.getElem_mem _)
      obtain ⟨wl, wr, ew, Wl, Wr, hw⟩ := weight_spec fv fl fr ha hb (N.small _ (List.getElem_mem _)) (N.small _ (List.getElem_mem _))
      have hd : 0 < xs[k + 1] - xs[k] := by linarith
      refine ⟨k, k + 1, wl, wr, (xs[k + 1] - v) / (xs[k + 1] - xs[k]), (v - xs[k]) / (xs[k + 1] - xs[k]), ?_, ⟨by omega, hk, Wl.isF, Wr.isF, Wl.nonneg, Wr.nonneg, Wl.le_one, Wr.le_one,
        div_nonneg (by linarith) hd.le, div_nonneg (by linarith) hd.le, by rw [← add_div, div_eq_one_iff_eq hd.ne']; ring, Wl.err, Wr.err, ?_, ?_⟩⟩
      · have g1 := fins_getN xs k (by omega)
        have g2 := fins_getN xs (k + 1) hk
        have e : ((k : Int) + 1) = ((k + 1 : Nat) : Int) := by push_cast; rfl
        unfold interpWeight
        rw [search_fin, hi, fins_length]
        simp only [bind, Except.bind, pure, Except.pure, if_neg (show ¬ (k : Int) < 0 by omega), if_neg (show ¬ (k : Int) + 1 > (xs.length : Int) - 1 by omega)]
        rw [e, g1, g2]
        simp only
        rw [ew]
      · rintro j t ⟨t0, t1, hj, e⟩ f
        rw [min_eq_left hv2.le, max_eq_right hv] at e
        have b := lt j (j + 1) (by omega) hj
        have c0 : 0 ≤ t * (xs[j + 1] - xs[j]) := mul_nonneg t0 (by linarith)
        have c1 : t * (xs[j + 1] - xs[j]) ≤ 1 * (xs[j + 1] - xs[j]) := mul_le_mul_of_nonneg_right t1 (by linarith)
        rcases lt_trichotomy j k with hjk | rfl | hjk
        · have d := le (j + 1) k (by omega) (by omega)
          have hjk' : j + 1 = k := by
            by_contra h
            have := lt (j + 1) k (by omega) (by omega)
            linarith
          subst hjk'
          have hvk : v = xs[j + 1] := by linarith
          have ht : t = 1 := by
            have : (1 - t) * (xs[j + 1] - xs[j]) = 0 := by linarith
            rcases mul_eq_zero.mp this with h | h
            · linarith
            · linarith
          rw [ht, hvk, div_self (by rw [← hvk]; linarith), sub_self, zero_div]; ring
        · have ht : (v - xs[j]) / (xs[j + 1] - xs[j]) = t := by rw [div_eq_iff hd.ne']; linarith
          have ht' : (xs[j + 1] - v) / (xs[j + 1] - xs[j]) = 1 - t := by rw [div_eq_iff hd.ne']; linarith
          rw [ht, ht']
        · have := le (k + 1) j (by omega) (by omega)
          linarith
      · intro j hj e f
        left
        have : j = k := by
          rcases lt_trichotomy j k with h | h | h
          · have := lt j k h (by omega)
            linarith
          · exact h
          · have := le (k + 1) j (by omega) hj
            linarith
        subst this
        obtain ⟨x1, x2⟩ := hw e
        exact ⟨rfl, x1, x2⟩

/-! ### One of the four terms -/

theorem prod_alg {w1 w2 p1 p2 a z : ℚ} (ha : 0 ≤ a) (hz : 0 ≤ z) (ha1 : a ≤ 1) (w21 : w2 ≤ 1) (w20 : 0 ≤ w2) (p10 : 0 ≤ p1) (p11 : p1 ≤ 1) (p20 : 0 ≤ p2)
    (e1 : |w1 - p1| ≤ a * p1 + z) (e2 : |w2 - p2| ≤ a * p2 + z) : |w1 * w2 - p1 * p2| ≤ (2 * a + a * a) * (p1 * p2) + 3 * z := by
  have h : w1 * w2 - p1 * p2 = (w1 - p1) * w2 + p1 * (w2 - p2) := by ring
  rw [h]
  have t := abs_add_le ((w1 - p1) * w2) (p1 * (w2 - p2))
  rw [abs_mul, abs_mul, abs_of_nonneg w20, abs_of_nonneg p10] at t
  have x1 : |w1 - p1| * w2 ≤ (a * p1 + z) * w2 := mul_le_mul_of_nonneg_right e1 w20
  have x2 : p1 * |w2 - p2| ≤ p1 * (a * p2 + z) := mul_le_mul_of_nonneg_left e2 p10
  have x3 : w2 ≤ p2 + (a * p2 + z) := by linarith [(abs_le.mp e2).2]
  have x4 : a * p1 * w2 ≤ a * p1 * (p2 + (a * p2 + z)) := mul_le_mul_of_nonneg_left x3 (mul_nonneg ha p10)
  have x5 : z * w2 ≤ z := by nlinarith
  have x6 : p1 * z ≤ z := by nlinarith
  have x7 : a * p1 * z ≤ z := by
    have : a * p1 ≤ 1 := by nlinarith
    nlinarith
  nlinarith

/-- The product of two computed weights. -/
theorem weight_prod {w1 w2 p1 p2 : ℚ} (w10 : 0 ≤ w1) (w11 : w1 ≤ 1) (w20 : 0 ≤ w2) (w21 : w2 ≤ 1) (p10 : 0 ≤ p1) (p11 : p1 ≤ 1) (p20 : 0 ≤ p2)
    (e1 : |w1 - p1| ≤ 2 ^ (-50 : ℤ) * p1 + 2 ^ (-1075 : ℤ)) (e2 : |w2 - p2| ≤ 2 ^ (-50 : ℤ) * p2 + 2 ^ (-1075 : ℤ)) :
    Num.mul (.fin w1) (.fin w2) = .fin (rnd (w1 * w2)) ∧ 0 ≤ rnd (w1 * w2) ∧ rnd (w1 * w2) ≤ 1 ∧
      |rnd (w1 * w2) - p1 * p2| ≤ (2 ^ (-49 : ℤ) + 2 ^ (-52 : ℤ)) * (p1 * p2) + 5 * 2 ^ (-1075 : ℤ) := by
  have hw0 : 0 ≤ w1 * w2 := mul_nonneg w10 w20
  have hw1 : w1 * w2 ≤ 1 := mul_le_one₀ w11 w20 w21
  refine ⟨ofQ_fin_le (y := 1) (by rwa [abs_of_nonneg hw0]) one_isF (one_lt_pow₀ (by norm_num) (by norm_num)), rnd_nonneg hw0, rnd_le hw1 one_isF, ?_⟩
  have h := prod_alg (pow_pos' (-50)).le (pow_pos' (-1075)).le (by norm_num) w21 w20 p10 p11 p20 e1 e2
  have r := FloatMesh.rnd_err_all (w1 * w2)
  rw [abs_of_nonneg hw0] at r
  have t := abs_add_le (rnd (w1 * w2) - w1 * w2) (w1 * w2 - p1 * p2)
  rw [sub_add_sub_cancel] at t
  have hP : 0 ≤ p1 * p2 := mul_nonneg p10 p20
  have z0 := pow_pos' (-1075)
  clear e1 e2
  generalize (2 : ℚ) ^ (-1075 : ℤ) = z at *
  generalize rnd (w1 * w2) = W at *
  generalize w1 * w2 = w at *
  generalize p1 * p2 = P at *
  have hw : w ≤ P + ((2 * 2 ^ (-50 : ℤ) + 2 ^ (-50 : ℤ) * 2 ^ (-50 : ℤ)) * P + 3 * z) := by linarith [(abs_le.mp h).2]
  have hu : (2 : ℚ) ^ (-53 : ℤ) * w ≤ 2 ^ (-53 : ℤ) * (P + ((2 * 2 ^ (-50 : ℤ) + 2 ^ (-50 : ℤ) * 2 ^ (-50 : ℤ)) * P + 3 * z)) := mul_le_mul_of_nonneg_left hw (pow_pos' _).le
  have c : ((2 : ℚ) * 2 ^ (-50 : ℤ) + 2 ^ (-50 : ℤ) * 2 ^ (-50 : ℤ)) + 2 ^ (-53 : ℤ) * (1 + (2 * 2 ^ (-50 : ℤ) + 2 ^ (-50 : ℤ) * 2 ^ (-50 : ℤ))) ≤ 2 ^ (-49 : ℤ) + 2 ^ (-52 : ℤ) := by norm_num
  have cP := mul_le_mul_of_nonneg_right c hP
  have hz : (2 : ℚ) ^ (-53 : ℤ) * (3 * z) ≤ 1 * z := by
    have : (2 : ℚ) ^ (-53 : ℤ) * 3 ≤ 1 := by norm_num
    have := mul_le_mul_of_nonneg_right this z0.le
    linarith
  clear c
  generalize (2 : ℚ) ^ (-53 : ℤ) = u at *
  generalize (2 : ℚ) ^ (-50 : ℤ) = a at *
  generalize (2 : ℚ) ^ (-49 : ℤ) = b at *
  generalize (2 : ℚ) ^ (-52 : ℤ) = d at *
  linarith

/-- One term. -/
theorem term_err {y W P M : ℚ} (hy : |y| ≤ M) (hM : M ≤ 2 ^ 1020) (W0 : 0 ≤ W) (W1 : W ≤ 1) (hP : 0 ≤ P)
    (e : |W - P| ≤ (2 ^ (-49 : ℤ) + 2 ^ (-52 : ℤ)) * P + 5 * 2 ^ (-1075 : ℤ)) :
    Num.mul (.fin y) (.fin W) = .fin (rnd (y * W)) ∧ |rnd (y * W)| ≤ 2 ^ 1020 ∧
      |rnd (y * W) - y * P| ≤ M * ((2 ^ (-49 : ℤ) + 2 ^ (-51 : ℤ)) * P + 6 * 2 ^ (-1075 : ℤ)) + 2 ^ (-1075 : ℤ) := by
  have hM0 : 0 ≤ M := le_trans (abs_nonneg _) hy
  have hyW : |y * W| ≤ M * W := by
    rw [abs_mul, abs_of_nonneg W0]
    exact mul_le_mul_of_nonneg_right hy W0
  have hyM : |y * W| ≤ 2 ^ 1020 := le_trans (le_trans hyW (mul_le_of_le_one_right hM0 W1)) hM
  have p20 : IsF ((2 : ℚ) ^ 1020) := by
    have := isF_pow (e := 1020) (by norm_num)
    exact_mod_cast this
  refine ⟨ofQ_fin_le hyM p20 (pow_lt_pow_right₀ (by norm_num) (by norm_num)), by rw [rnd_abs]; exact rnd_le hyM p20, ?_⟩
  clear hyM hM
  have r := FloatMesh.rnd_err_all (y * W)
  have t := abs_add_le (rnd (y * W) - y * W) (y * (W - P))
  rw [show rnd (y * W) - y * W + y * (W - P) = rnd (y * W) - y * P by ring, abs_mul y] at t
  have z0 := pow_pos' (-1075)
  generalize (2 : ℚ) ^ (-1075 : ℤ) = z at *
  have x1 : |y| * |W - P| ≤ M * ((2 ^ (-49 : ℤ) + 2 ^ (-52 : ℤ)) * P + 5 * z) := mul_le_mul hy e (abs_nonneg _) hM0
  have x2 : W ≤ P + ((2 ^ (-49 : ℤ) + 2 ^ (-52 : ℤ)) * P + 5 * z) := by linarith [(abs_le.mp e).2]
  have x3 : (2 : ℚ) ^ (-53 : ℤ) * |y * W| ≤ 2 ^ (-53 : ℤ) * (M * (P + ((2 ^ (-49 : ℤ) + 2 ^ (-52 : ℤ)) * P + 5 * z))) :=
    mul_le_mul_of_nonneg_left (le_trans hyW (mul_le_mul_of_nonneg_left x2 hM0)) (pow_pos' _).le
  have c : ((2 : ℚ) ^ (-49 : ℤ) + 2 ^ (-52 : ℤ)) + 2 ^ (-53 : ℤ) * (1 + (2 ^ (-49 : ℤ) + 2 ^ (-52 : ℤ))) ≤ 2 ^ (-49 : ℤ) + 2 ^ (-51 : ℤ) := by norm_num
  have cP := mul_le_mul_of_nonneg_left (mul_le_mul_of_nonneg_right c hP) hM0
  have hz : M * ((2 : ℚ) ^ (-53 : ℤ) * (5 * z)) ≤ M * z := by
    refine mul_le_mul_of_nonneg_left ?_ hM0
    have : (2 : ℚ) ^ (-53 : ℤ) * 5 ≤ 1 := by norm_num
    have := mul_le_mul_of_nonneg_right this z0.le
    linarith
  clear c
  generalize (2 : ℚ) ^ (-53 : ℤ) = u at *
  generalize (2 : ℚ) ^ (-51 : ℤ) = a at *
  generalize (2 : ℚ) ^ (-49 : ℤ) = b at *
  generalize (2 : ℚ) ^ (-52 : ℤ) = d at *
  linarith

/-! ### The sum of the four terms -/

/-- Three additions. -/
theorem sum_alg {u B T1 T2 T3 T4 S1 S2 S3 : ℚ} (hu : 0 ≤ u) (hu1 : u ≤ 1 / 16) (b12 : |T1 + T2| ≤ B) (b123 : |T1 + T2 + T3| ≤ B) (b : |T1 + T2 + T3 + T4| ≤ B)
    (e1 : |S1 - (T1 + T2)| ≤ u * |T1 + T2|) (e2 : |S2 - (S1 + T3)| ≤ u * |S1 + T3|) (e3 : |S3 - (S2 + T4)| ≤ u * |S2 + T4|) :
    |S3 - (T1 + T2 + T3 + T4)| ≤ 4 * u * B := by
  have hB : 0 ≤ B := le_trans (abs_nonneg _) b12
  have uB := mul_nonneg hu hB
  have d1 : |S1 - (T1 + T2)| ≤ u * B := le_trans e1 (mul_le_mul_of_nonneg_left b12 hu)
  have a2 : |S1 + T3| ≤ B + u * B := by
    have := abs_add_le (S1 - (T1 + T2)) (T1 + T2 + T3)
    rw [show S1 - (T1 + T2) + (T1 + T2 + T3) = S1 + T3 by ring] at this
    linarith
  have d2 : |S2 - (T1 + T2 + T3)| ≤ u * B + u * (B + u * B) := by
    have := abs_add_le (S2 - (S1 + T3)) (S1 - (T1 + T2))
    rw [show S2 - (S1 + T3) + (S1 - (T1 + T2)) = S2 - (T1 + T2 + T3) by ring] at this
    have := mul_le_mul_of_nonneg_left a2 hu
    linarith
  have a3 : |S2 + T4| ≤ B + (u * B + u * (B + u * B)) := by
    have := abs_add_le (S2 - (T1 + T2 + T3)) (T1 + T2 + T3 + T4)
    rw [show S2 - (T1 + T2 + T3) + (T1 + T2 + T3 + T4) = S2 + T4 by ring] at this
    linarith
  have := abs_add_le (S3 - (S2 + T4)) (S2 - (T1 + T2 + T3))
  rw [show S3 - (S2 + T4) + (S2 - (T1 + T2 + T3)) = S3 - (T1 + T2 + T3 + T4) by ring] at this
  have m := mul_le_mul_of_nonneg_left a3 hu
  have k1 : u * (u * B) ≤ 1 / 16 * (u * B) := mul_le_mul_of_nonneg_right hu1 uB
  have k2 : u * (u * (u * B)) ≤ 1 / 16 * (u * B) := by
    have : u * (u * B) ≤ u * B := by nlinarith
    have h2 := mul_le_mul_of_nonneg_left this hu
    linarith
  nlinarith

/-- Three additions in double precision. -/
theorem add4 {T1 T2 T3 T4 B : ℚ} (f1 : IsF T1) (f2 : IsF T2) (f3 : IsF T3) (f4 : IsF T4) (h1 : |T1| ≤ 2 ^ 1020) (h2 : |T2| ≤ 2 ^ 1020) (h3 : |T3| ≤ 2 ^ 1020) (h4 : |T4| ≤ 2 ^ 1020)
    (b12 : |T1 + T2| ≤ B) (b123 : |T1 + T2 + T3| ≤ B) (b : |T1 + T2 + T3 + T4| ≤ B) :
    ∃ r, Num.add (Num.add (Num.add (.fin T1) (.fin T2)) (.fin T3)) (.fin T4) = .fin r ∧ IsF r ∧ |r - (T1 + T2 + T3 + T4)| ≤ 4 * 2 ^ (-53 : ℤ) * B := by
  have p20 : IsF ((2 : ℚ) ^ 1020) := by
    have := isF_pow (e := 1020) (by norm_num)
    exact_mod_cast this
  have l20 : (2 : ℚ) ^ 1020 ≤ 2 ^ 1022 := pow_le_pow_right₀ (by norm_num) (by norm_num)
  have e22 : (2 : ℚ) ^ 1022 = 2 ^ 1020 + 2 ^ 1020 + 2 ^ 1020 + 2 ^ 1020 := by
    rw [show 1022 = 1020 + 2 from rfl, pow_add]; ring
  have x0 : (0 : ℚ) ≤ 2 ^ 1020 := by positivity
  have p21 : IsF ((2 : ℚ) ^ 1020 + 2 ^ 1020) := by
    have h := isF_pow (e := 1021) (by norm_num)
    have e : (2 : ℚ) ^ 1020 + 2 ^ 1020 = 2 ^ 1021 := by rw [← mul_two, ← pow_succ]
    rw [e]
    exact_mod_cast h
  have c1 : |rnd (T1 + T2)| ≤ 2 ^ 1020 + 2 ^ 1020 := by
    rw [rnd_abs]
    exact rnd_le (le_trans (abs_add_le _ _) (add_le_add h1 h2)) p21
  have c2 : |rnd (rnd (T1 + T2) + T3)| ≤ 2 ^ 1022 := by
    rw [rnd_abs]
    refine rnd_le (le_trans (abs_add_le _ _) (le_trans (add_le_add c1 h3) ?_)) pow1022
    rw [e22]
    exact le_add_of_nonneg_right x0
  have c1' : |rnd (T1 + T2)| ≤ 2 ^ 1022 := by
    refine le_trans c1 ?_
    rw [e22]
    exact le_trans (le_add_of_nonneg_right x0) (le_add_of_nonneg_right x0)
  refine ⟨rnd (rnd (rnd (T1 + T2) + T3) + T4), ?_, isF_rnd _, ?_⟩
  · rw [add_fin (le_trans h1 l20) (le_trans h2 l20), add_fin c1' (le_trans h3 l20), add_fin c2 (le_trans h4 l20)]
  · have r1 := rnd_sub_err f1 f2.neg
    have r2 := rnd_sub_err (isF_rnd (T1 + T2)) f3.neg
    have r3 := rnd_sub_err (isF_rnd (rnd (T1 + T2) + T3)) f4.neg
    rw [sub_neg_eq_add] at r1 r2 r3
    exact sum_alg (pow_pos' _).le (by norm_num) b12 b123 b r1 r2 r3


/-! ### C140 -/

theorem get2_table (n1 n2 : Nat) (y : Nat → Nat → ℚ) {i j : Nat} (hi : i < n1) (hj : j < n2) : get2 (table n1 n2 y) (i : Int) (j : Int) = .ok (.fin (y i j)) := by
  unfold get2 table
  rw [pyGet_ofNat _ i (by simpa using hi)]
  simp only [bind, Except.bind, List.getElem_map, List.getElem_range]
  rw [pyGet_ofNat _ j (by simpa using hj)]
  simp

theorem final_alg {M E u z b d r T X : ℚ} (hM : 0 ≤ M) (hz : 0 ≤ z) (hz1 : z ≤ 2 ^ (-60 : ℤ)) (hu : u = 2 ^ (-53 : ℤ)) (hb : b = 2 ^ (-49 : ℤ)) (hd : d = 2 ^ (-51 : ℤ))
    (hE : E = M * ((b + d) + 24 * z) + 4 * z) (e1 : |r - T| ≤ 4 * u * (M + E)) (e2 : |T - X| ≤ E) : |r - X| ≤ 2 ^ (-48 : ℤ) * M + 8 * z := by
  have t := abs_add_le (r - T) (T - X)
  rw [sub_add_sub_cancel] at t
  have k : |r - X| ≤ 4 * u * (M + E) + E := le_trans t (add_le_add e1 e2)
  refine le_trans k ?_
  have hMz : M * z ≤ M * 2 ^ (-60 : ℤ) := mul_le_mul_of_nonneg_left hz1 hM
  rw [hE, hu, hb, hd]
  clear hE e1 e2 k t
  norm_num at hMz ⊢
  nlinarith [mul_nonneg hM hz]

theorem weight_le_one {p q : ℚ} (hq : 0 ≤ q) (h : p + q = 1) : p ≤ 1 := by linarith

/-- Two, three and four terms are bounded by M + E. -/
theorem part_bound {M E T1 T2 T3 T4 X1 X2 X3 X4 P1 P2 P3 P4 E1 E2 E3 E4 : ℚ} (hM : 0 ≤ M) (h1 : |T1 - X1| ≤ E1) (h2 : |T2 - X2| ≤ E2) (h3 : |T3 - X3| ≤ E3) (h4 : |T4 - X4| ≤ E4)
    (b1 : |X1| ≤ M * P1) (b2 : |X2| ≤ M * P2) (b3 : |X3| ≤ M * P3) (b4 : |X4| ≤ M * P4) (p3 : 0 ≤ P3) (p4 : 0 ≤ P4) (hP : P1 + P2 + P3 + P4 = 1) (hE : E1 + E2 + E3 + E4 = E) :
    |T1 + T2| ≤ M + E ∧ |T1 + T2 + T3| ≤ M + E ∧ |T1 + T2 + T3 + T4| ≤ M + E ∧ |T1 + T2 + T3 + T4 - (X1 + X2 + X3 + X4)| ≤ E := by
  have m : M * P1 + M * P2 + M * P3 + M * P4 = M := by rw [← mul_add, ← mul_add, ← mul_add, hP, mul_one]
  have m3 := mul_nonneg hM p3
  have m4 := mul_nonneg hM p4
  have n3 : 0 ≤ E3 := le_trans (abs_nonneg _) h3
  have n4 : 0 ≤ E4 := le_trans (abs_nonneg _) h4
  rw [abs_le] at h1 h2 h3 h4 b1 b2 b3 b4
  obtain ⟨h1a, h1b⟩ := h1
  obtain ⟨h2a, h2b⟩ := h2
  obtain ⟨h3a, h3b⟩ := h3
  obtain ⟨h4a, h4b⟩ := h4
  obtain ⟨b1a, b1b⟩ := b1
  obtain ⟨b2a, b2b⟩ := b2
  obtain ⟨b3a, b3b⟩ := b3
  obtain ⟨b4a, b4b⟩ := b4
  refine ⟨abs_le.mpr ⟨?_, ?_⟩, abs_le.mpr ⟨?_, ?_⟩, abs_le.mpr ⟨?_, ?_⟩, abs_le.mpr ⟨?_, ?_⟩⟩ <;> linarith

theorem abs_mul_le {y P M : ℚ} (hy : |y| ≤ M) (hP : 0 ≤ P) : |y * P| ≤ M * P := by
  rw [abs_mul, abs_of_nonneg hP]
  exact mul_le_mul_of_nonneg_right hy hP

/-- C140: **two-dimensional linear interpolation in double precision.** For strictly increasing finite nodes along both axes (at most 2^1021), a table of finite
values of at most M ≤ 2^1020, and any finite coordinates, the interpolated value is finite and differs from the exact bilinear function of the cell holding the
point (moved onto the boundary along each axis on which it is outside) by at most 2^-48·M + 2^-1072. -/
theorem C140_bilinear {xs1 xs2 : List ℚ} (N1 : Nodes xs1) (N2 : Nodes xs2) {y : Nat → Nat → ℚ} {M : ℚ} (hy : ∀ i j, |y i j| ≤ M) (hM : M ≤ 2 ^ 1020)
    {v1 v2 : ℚ} (f1 : IsF v1) (f2 : IsF v2) :
    ∃ r : ℚ, interp2 (fins xs1) (fins xs2) (table xs1.length xs2.length y) (.fin v1) (.fin v2) = .ok (.fin r) ∧ IsF r ∧
      ∀ k1 t1 k2 t2, At xs1 v1 k1 t1 → At xs2 v2 k2 t2 → |r - bilinear y k1 k2 t1 t2| ≤ 2 ^ (-48 : ℤ) * M + 2 ^ (-1072 : ℤ) := by
  obtain ⟨l1, r1, wl1, wr1, pl1, pr1, e1, A1⟩ := axis_spec N1 f1
  obtain ⟨l2, r2, wl2, wr2, pl2, pr2, e2, A2⟩ := axis_spec N2 f2
  have hM0 : 0 ≤ M := le_trans (abs_nonneg _) (hy 0 0)
  have ql1 : pl1 ≤ 1 := weight_le_one A1.pr0 A1.one
  have qr1 : pr1 ≤ 1 := weight_le_one A1.pl0 (by rw [add_comm]; exact A1.one)
  obtain ⟨mll, ll0, ll1, lle⟩ := weight_prod A1.wl0 A1.wl1 A2.wl0 A2.wl1 A1.pl0 ql1 A2.pl0 A1.el A2.el
  obtain ⟨mlr, lr0, lr1, lre⟩ := weight_prod A1.wl0 A1.wl1 A2.wr0 A2.wr1 A1.pl0 ql1 A2.pr0 A1.el A2.er
  obtain ⟨mrl, rl0, rl1, rle⟩ := weight_prod A1.wr0 A1.wr1 A2.wl0 A2.wl1 A1.pr0 qr1 A2.pl0 A1.er A2.el
  obtain ⟨mrr, rr0, rr1, rre⟩ := weight_prod A1.wr0 A1.wr1 A2.wr0 A2.wr1 A1.pr0 qr1 A2.pr0 A1.er A2.er
  have Pll := mul_nonneg A1.pl0 A2.pl0
  have Plr := mul_nonneg A1.pl0 A2.pr0
  have Prl := mul_nonneg A1.pr0 A2.pl0
  have Prr := mul_nonneg A1.pr0 A2.pr0
  obtain ⟨tll, bll, ell⟩ := term_err (hy l1 l2) hM ll0 ll1 Pll lle
  obtain ⟨tlr, blr, elr⟩ := term_err (hy l1 r2) hM lr0 lr1 Plr lre
  obtain ⟨trl, brl, erl⟩ := term_err (hy r1 l2) hM rl0 rl1 Prl rle
  obtain ⟨trr, brr, err⟩ := term_err (hy r1 r2) hM rr0 rr1 Prr rre
  have hP : pl1 * pl2 + pl1 * pr2 + pr1 * pl2 + pr1 * pr2 = 1 := by
    have : (pl1 + pr1) * (pl2 + pr2) = 1 := by rw [A1.one, A2.one, one_mul]
    rw [← this]; ring
  have hE : (M * ((2 ^ (-49 : ℤ) + 2 ^ (-51 : ℤ)) * (pl1 * pl2) + 6 * 2 ^ (-1075 : ℤ)) + 2 ^ (-1075 : ℤ)) + (M * ((2 ^ (-49 : ℤ) + 2 ^ (-51 : ℤ)) * (pl1 * pr2) + 6 * 2 ^ (-1075 : ℤ)) + 2 ^ (-1075 : ℤ))
      + (M * ((2 ^ (-49 : ℤ) + 2 ^ (-51 : ℤ)) * (pr1 * pl2) + 6 * 2 ^ (-1075 : ℤ)) + 2 ^ (-1075 : ℤ)) + (M * ((2 ^ (-49 : ℤ) + 2 ^ (-51 : ℤ)) * (pr1 * pr2) + 6 * 2 ^ (-1075 : ℤ)) + 2 ^ (-1075 : ℤ))
      = M * ((2 ^ (-49 : ℤ) + 2 ^ (-51 : ℤ)) + 24 * 2 ^ (-1075 : ℤ)) + 4 * 2 ^ (-1075 : ℤ) := by
    generalize (2 : ℚ) ^ (-1075 : ℤ) = z
    generalize (2 : ℚ) ^ (-49 : ℤ) + (2 : ℚ) ^ (-51 : ℤ) = c
    have : M * (c * (pl1 * pl2) + 6 * z) + z + (M * (c * (pl1 * pr2) + 6 * z) + z) + (M * (c * (pr1 * pl2) + 6 * z) + z) + (M * (c * (pr1 * pr2) + 6 * z) + z)
      = M * (c * (pl1 * pl2 + pl1 * pr2 + pr1 * pl2 + pr1 * pr2) + 24 * z) + 4 * z := by ring
    rw [this, hP, mul_one]
  obtain ⟨c2, c3, c4, cx⟩ := part_bound hM0 ell elr erl err (abs_mul_le (hy l1 l2) Pll) (abs_mul_le (hy l1 r2) Plr) (abs_mul_le (hy r1 l2) Prl) (abs_mul_le (hy r1 r2) Prr) Prl Prr hP hE
  obtain ⟨r, er, fr, br⟩ := add4 (isF_rnd _) (isF_rnd _) (isF_rnd _) (isF_rnd _) bll blr brl brr c2 c3 c4
  refine ⟨r, ?_, fr, ?_⟩
  · unfold interp2
    rw [e1, e2]
    simp only [bind, Except.bind, pure, Except.pure]
    rw [get2_table _ _ _ A1.hl A2.hl, get2_table _ _ _ A1.hl A2.hr, get2_table _ _ _ A1.hr A2.hl, get2_table _ _ _ A1.hr A2.hr]
    simp only
    rw [mll, mlr, mrl, mrr, tll, tlr, trl, trr, er]
  · intro k1 t1 k2 t2 a1 a2
    have x : y l1 l2 * (pl1 * pl2) + y l1 r2 * (pl1 * pr2) + y r1 l2 * (pr1 * pl2) + y r1 r2 * (pr1 * pr2) = bilinear y k1 k2 t1 t2 := by
      have g1 := A1.exact' k1 t1 a1 (fun i => pl2 * y i l2 + pr2 * y i r2)
      have g2 := A2.exact' k2 t2 a2 (fun j => y k1 j)
      have g3 := A2.exact' k2 t2 a2 (fun j => y (k1 + 1) j)
      rw [g2, g3] at g1
      unfold bilinear
      rw [← g1]; ring
    rw [x] at cx
    have e72 : (2 : ℚ) ^ (-1072 : ℤ) = 8 * 2 ^ (-1075 : ℤ) := by
      rw [show (-1072 : ℤ) = 3 + -1075 by norm_num, zpow_add₀ (by norm_num)]; norm_num
    rw [e72]
    exact final_alg hM0 (pow_pos' _).le FloatMesh.tiny_le rfl rfl rfl rfl br cx


/-- Every finite coordinate has a cell, as soon as the axis has two nodes. -/
theorem C140_cell {xs : List ℚ} (N : Nodes xs) (hn : 2 ≤ xs.length) (v : ℚ) : ∃ k t, At xs v k t := by
  have so := strict_sorted N.inc
  have hm : xs[0] ≤ xs[xs.length - 1] := sorted_le so (by omega) (by omega)
  rcases le_or_gt xs[xs.length - 1] (max xs[0] (min v xs[xs.length - 1])) with h | h
  · refine ⟨xs.length - 2, 1, by norm_num, le_rfl, by omega, ?_⟩
    have e : xs[xs.length - 2 + 1] = xs[xs.length - 1] := by congr 1; omega
    rw [one_mul, e, le_antisymm (max_le hm (min_le_right _ _)) h]; ring
  · generalize hc : max xs[0] (min v xs[xs.length - 1]) = c at h
    have h0 : xs[0] ≤ c := by rw [← hc]; exact le_max_left _ _
    obtain ⟨i, hi, i1, i2, i3⟩ := bisearch_spec xs c N.ne so
    have a0 := (i3 0 (by omega)).mp h0
    have a1 : ¬ ((xs.length - 1 : Nat) : Int) ≤ i := fun h' => absurd ((i3 (xs.length - 1) (by omega)).mpr h') (not_le.mpr h)
    obtain ⟨k, rfl⟩ : ∃ k : Nat, i = k := ⟨i.toNat, by omega⟩
    have hk : k + 1 < xs.length := by omega
    have ha : xs[k] ≤ c := (i3 k (by omega)).mpr le_rfl
    have hb : c < xs[k + 1] := by
      rw [← not_le]
      intro h'
      have := (i3 (k + 1) hk).mp h'
      omega
    have hd : 0 < xs[k + 1] - xs[k] := by linarith
    refine ⟨k, (c - xs[k]) / (xs[k + 1] - xs[k]), div_nonneg (by linarith) hd.le, (div_le_one hd).mpr (by linarith), hk, ?_⟩
    rw [hc, div_mul_cancel₀ _ hd.ne']; ring

/-- C140: the value stays within the range of the four corners of its cell, up to the same error. -/
theorem C140_range {xs1 xs2 : List ℚ} (N1 : Nodes xs1) (N2 : Nodes xs2) {y : Nat → Nat → ℚ} {M : ℚ} (hy : ∀ i j, |y i j| ≤ M) (hM : M ≤ 2 ^ 1020)
    {v1 v2 : ℚ} (f1 : IsF v1) (f2 : IsF v2) {k1 k2 : Nat} {t1 t2 lo hi : ℚ} (a1 : At xs1 v1 k1 t1) (a2 : At xs2 v2 k2 t2)
    (hlo : ∀ i j, i = k1 ∨ i = k1 + 1 → j = k2 ∨ j = k2 + 1 → lo ≤ y i j) (hhi : ∀ i j, i = k1 ∨ i = k1 + 1 → j = k2 ∨ j = k2 + 1 → y i j ≤ hi) :
    ∃ r : ℚ, interp2 (fins xs1) (fins xs2) (table xs1.length xs2.length y) (.fin v1) (.fin v2) = .ok (.fin r) ∧
      lo - (2 ^ (-48 : ℤ) * M + 2 ^ (-1072 : ℤ)) ≤ r ∧ r ≤ hi + (2 ^ (-48 : ℤ) * M + 2 ^ (-1072 : ℤ)) := by
  obtain ⟨r, er, -, br⟩ := C140_bilinear N1 N2 hy hM f1 f2
  refine ⟨r, er, ?_⟩
  have h := br k1 t1 k2 t2 a1 a2
  have key : ∀ {a b s : ℚ}, 0 ≤ s → s ≤ 1 → lo ≤ a → lo ≤ b → lo ≤ (1 - s) * a + s * b := fun s0 s1 ha hb => by nlinarith
  have key' : ∀ {a b s : ℚ}, 0 ≤ s → s ≤ 1 → a ≤ hi → b ≤ hi → (1 - s) * a + s * b ≤ hi := fun s0 s1 ha hb => by nlinarith
  have g1 : lo ≤ bilinear y k1 k2 t1 t2 :=
    key a1.1 a1.2.1 (key a2.1 a2.2.1 (hlo _ _ (.inl rfl) (.inl rfl)) (hlo _ _ (.inl rfl) (.inr rfl))) (key a2.1 a2.2.1 (hlo _ _ (.inr rfl) (.inl rfl)) (hlo _ _ (.inr rfl) (.inr rfl)))
  have g2 : bilinear y k1 k2 t1 t2 ≤ hi :=
    key' a1.1 a1.2.1 (key' a2.1 a2.2.1 (hhi _ _ (.inl rfl) (.inl rfl)) (hhi _ _ (.inl rfl) (.inr rfl))) (key' a2.1 a2.2.1 (hhi _ _ (.inr rfl) (.inl rfl)) (hhi _ _ (.inr rfl) (.inr rfl)))
  generalize (2 : ℚ) ^ (-1072 : ℤ) = z at *
  obtain ⟨x1, x2⟩ := abs_le.mp h
  constructor <;> linarith

/-! ### Exact points -/

theorem mul_one_fin {y : ℚ} (fy : IsF y) (hb : |y| ≤ 2 ^ 1023) : Num.mul (.fin y) (.fin 1) = .fin y := by
  show ofQ (y * 1) = _
  rw [mul_one, ofQ_fin_le hb FloatBins.pow1023 FloatBins.lt1024, fy]

theorem mul_zero_fin (y : ℚ) : Num.mul (.fin y) (.fin 0) = .fin 0 := by
  show ofQ (y * 0) = _
  rw [mul_zero]; decide +kernel

theorem add_zero_fin {y : ℚ} (fy : IsF y) (hb : |y| ≤ 2 ^ 1023) : Num.add (.fin y) (.fin 0) = .fin y := by
  show ofQ (y + 0) = _
  rw [add_zero, ofQ_fin_le hb FloatBins.pow1023 FloatBins.lt1024, fy]

theorem zero_add_fin {y : ℚ} (fy : IsF y) (hb : |y| ≤ 2 ^ 1023) : Num.add (.fin 0) (.fin y) = .fin y := by
  show ofQ (0 + y) = _
  rw [zero_add, ofQ_fin_le hb FloatBins.pow1023 FloatBins.lt1024, fy]

theorem m11 : Num.mul (.fin 1) (.fin 1) = .fin 1 := by decide +kernel
theorem m10 : Num.mul (.fin 1) (.fin 0) = .fin 0 := by decide +kernel
theorem m01 : Num.mul (.fin 0) (.fin 1) = .fin 0 := by decide +kernel
theorem m00 : Num.mul (.fin 0) (.fin 0) = .fin 0 := by decide +kernel
theorem a00 : Num.add (.fin 0) (.fin 0) = .fin 0 := by decide +kernel

/-- An axis of which one node gets the weight 1 and the other 0. -/
def Corner (p : Int × Int × Num × Num) (k : Nat) (n : Nat) : Prop :=
  ∃ l r : Nat, l < n ∧ r < n ∧ ((l = k ∧ p = ((l : Int), (r : Int), Num.fin 1, Num.fin 0)) ∨ (r = k ∧ p = ((l : Int), (r : Int), Num.fin 0, Num.fin 1)))

theorem corner_value {xs1 xs2 : List Num} {v1 v2 : Num} {p1 p2 : Int × Int × Num × Num} {k1 k2 n1 n2 : Nat} {y : Nat → Nat → ℚ} (e1 : interpWeight xs1 v1 = .ok p1)
    (e2 : interpWeight xs2 v2 = .ok p2) (c1 : Corner p1 k1 n1) (c2 : Corner p2 k2 n2) (fy : IsF (y k1 k2)) (hb : |y k1 k2| ≤ 2 ^ 1023) :
    interp2 xs1 xs2 (table n1 n2 y) v1 v2 = .ok (.fin (y k1 k2)) := by
  obtain ⟨l1, r1, hl1, hr1, c1⟩ := c1
  obtain ⟨l2, r2, hl2, hr2, c2⟩ := c2
  unfold interp2
  rw [e1, e2]
  have t := @get2_table n1 n2 y
  rcases c1 with ⟨rfl, rfl⟩ | ⟨rfl, rfl⟩ <;> rcases c2 with ⟨rfl, rfl⟩ | ⟨rfl, rfl⟩ <;> simp only [bind, Except.bind, pure, Except.pure, t hl1 hl2, t hl1 hr2, t hr1 hl2, t hr1 hr2, m11, m10, m01, m00,
    mul_zero_fin, mul_one_fin fy hb, a00, add_zero_fin fy hb, zero_add_fin fy hb]

theorem corner_node {xs : List ℚ} (N : Nodes xs) {k : Nat} (h : k < xs.length) : ∃ p, interpWeight (fins xs) (.fin xs[k]) = .ok p ∧ Corner p k xs.length := by
  obtain ⟨l, r, wl, wr, pl, pr, e, A⟩ := axis_spec N (N.isF _ (List.getElem_mem h))
  refine ⟨_, e, l, r, A.hl, A.hr, ?_⟩
  rcases A.node k h rfl (fun i => (i : ℚ)) with ⟨e', rfl, rfl⟩ | ⟨e', rfl, rfl⟩
  · exact .inl ⟨by exact_mod_cast e', rfl⟩
  · exact .inr ⟨by exact_mod_cast e', rfl⟩

theorem corner_first {xs : List ℚ} (hn : 0 < xs.length) {v : Num} (hs : search (fins xs) v = .ok (-1)) :
    ∃ p, interpWeight (fins xs) v = .ok p ∧ Corner p 0 xs.length := by
  refine ⟨((0 : Nat), (0 : Nat), .fin 0, .fin 1), ?_, 0, 0, hn, hn, .inr ⟨rfl, rfl⟩⟩
  unfold interpWeight
  rw [hs]
  simp only [bind, Except.bind, pure, Except.pure]
  rw [if_pos (by omega)]
  rfl

theorem corner_last {xs : List ℚ} (hn : 0 < xs.length) {v : Num} (hs : search (fins xs) v = .ok ((xs.length - 1 : Nat) : Int)) :
    ∃ p, interpWeight (fins xs) v = .ok p ∧ Corner p (xs.length - 1) xs.length := by
  refine ⟨(((xs.length - 1 : Nat) : Int), ((xs.length - 1 : Nat) : Int), .fin 1, .fin 0), ?_, xs.length - 1, xs.length - 1, by omega, by omega, .inl ⟨rfl, rfl⟩⟩
  have e : (xs.length : Int) - 1 = ((xs.length - 1 : Nat) : Int) := by omega
  unfold interpWeight
  rw [hs, fins_length]
  simp only [bind, Except.bind, pure, Except.pure]
  rw [if_neg (by omega), if_pos (by omega), e]

/-- The coordinate `v` lands exactly on node `k` of the axis: it is that node, or `k` is the first node and `v` is below it or −∞, or `k` is the last node and
`v` is above it, +∞ or NaN. -/
def Lands (xs : List ℚ) (v : Num) (k : Nat) : Prop :=
  (∃ h : k < xs.length, v = .fin xs[k]) ∨
  (k = 0 ∧ ∃ h : 0 < xs.length, v = .inf true ∨ ∃ q, v = .fin q ∧ q < xs[0]) ∨
  (k = xs.length - 1 ∧ ∃ h : xs.length - 1 < xs.length, v = .inf false ∨ v = .nan ∨ ∃ q, v = .fin q ∧ xs[xs.length - 1] < q)

theorem corner_lands {xs : List ℚ} (N : Nodes xs) {v : Num} {k : Nat} (h : Lands xs v k) : ∃ p, interpWeight (fins xs) v = .ok p ∧ Corner p k xs.length := by
  have so := strict_sorted N.inc
  have hn : 0 < xs.length := List.length_pos_iff.mpr N.ne
  rcases h with ⟨h, rfl⟩ | ⟨rfl, h, rfl | ⟨q, rfl, hq⟩⟩ | ⟨rfl, h, rfl | rfl | ⟨q, rfl, hq⟩⟩
  · exact corner_node N h
  · exact corner_first hn (search_bot xs N.ne)
  · exact corner_first hn (search_lt_first N.ne so q hn hq)
  · exact corner_last hn (search_top xs N.ne _ (fun _ => rfl))
  · exact corner_last hn (search_top xs N.ne _ (fun _ => rfl))
  · exact corner_last hn (search_ge_last N.ne so q hn hq.le)

/-- C140: **the table is reproduced exactly**: at a node of both axes the result is bit for bit the entry of the table; a coordinate outside the nodes, also an
infinite one, counts as the nearest end. A finding: a NaN coordinate silently counts as the last node, it does not give NaN. -/
theorem C140_nodes {xs1 xs2 : List ℚ} (N1 : Nodes xs1) (N2 : Nodes xs2) {y : Nat → Nat → ℚ} {v1 v2 : Num} {k1 k2 : Nat} (h1 : Lands xs1 v1 k1) (h2 : Lands xs2 v2 k2)
    (fy : IsF (y k1 k2)) (hb : |y k1 k2| ≤ 2 ^ 1023) :
    interp2 (fins xs1) (fins xs2) (table xs1.length xs2.length y) v1 v2 = .ok (.fin (y k1 k2)) := by
  obtain ⟨p1, e1, c1⟩ := corner_lands N1 h1
  obtain ⟨p2, e2, c2⟩ := corner_lands N2 h2
  exact corner_value e1 e2 c1 c2 fy hb

/-- C140, a finding: **an infinite or NaN table entry spoils its neighbours**: at the node (k1, k2) the result is NaN if one of the three entries to the right,
above, or both, is infinite or NaN, although the node's own entry is finite. -/
theorem C140_inf {xs1 xs2 : List ℚ} (N1 : Nodes xs1) (N2 : Nodes xs2) {y : List (List Num)} {k1 k2 : Nat} (h1 : k1 + 1 < xs1.length) (h2 : k2 + 1 < xs2.length)
    (hy : ∀ i j, i < xs1.length → j < xs2.length → ∃ a, get2 y (i : Int) (j : Int) = .ok a) {b : Num} (hb : b = .nan ∨ ∃ s, b = .inf s)
    (h : get2 y (k1 : Int) ((k2 + 1 : Nat) : Int) = .ok b ∨ get2 y ((k1 + 1 : Nat) : Int) (k2 : Int) = .ok b ∨ get2 y ((k1 + 1 : Nat) : Int) ((k2 + 1 : Nat) : Int) = .ok b) :
    interp2 (fins xs1) (fins xs2) y (.fin (xs1[k1]'(by omega))) (.fin (xs2[k2]'(by omega))) = .ok .nan := by
  have wt : ∀ {xs : List ℚ} (N : Nodes xs) {k : Nat} (h : k + 1 < xs.length), interpWeight (fins xs) (.fin (xs[k]'(by omega))) = .ok ((k : Int), ((k + 1 : Nat) : Int), .fin 1, .fin 0) := by
    intro xs N k h
    have fl : IsF xs[k] := N.isF _ (List.getElem_mem _)
    have hlt : xs[k] < xs[k + 1] := sorted_lt N.inc (by omega) h
    obtain ⟨i, hi, i1, i2, i3⟩ := bisearch_spec xs xs[k] N.ne (strict_sorted N.inc)
    have a := (i3 k (by omega)).mp le_rfl
    have b : ¬ ((k + 1 : Nat) : Int) ≤ i := fun h' => absurd ((i3 (k + 1) h).mpr h') (not_le.mpr hlt)
    obtain rfl : i = k := by omega
    obtain ⟨wl, wr, ew, -, -, hx⟩ := weight_spec fl fl (N.isF _ (List.getElem_mem _)) (le_refl _) hlt (N.small _ (List.getElem_mem _)) (N.small _ (List.getElem_mem h))
    obtain ⟨rfl, rfl⟩ := hx rfl
    have g1 := fins_getN xs k (by omega)
    have g2 := fins_getN xs (k + 1) h
    have e : ((k : Int) + 1) = ((k + 1 : Nat) : Int) := by push_cast; rfl
    unfold interpWeight
    rw [search_fin, hi, fins_length]
    simp only [bind, Except.bind, pure, Except.pure, if_neg (show ¬ (k : Int) < 0 by omega), if_neg (show ¬ (k : Int) + 1 > (xs.length : Int) - 1 by omega)]
    rw [e, g1, g2]
    simp only
    rw [ew]
  have nan_r : ∀ a : Num, Num.add a .nan = .nan := by intro a; cases a <;> rfl
  have nan_l : ∀ a : Num, Num.add .nan a = .nan := by intro a; cases a <;> rfl
  have b0 : Num.mul b (.fin 0) = .nan := by
    rcases hb with rfl | ⟨s, rfl⟩
    · rfl
    · simp [Num.mul]
  obtain ⟨all, eall⟩ := hy k1 k2 (by omega) (by omega)
  obtain ⟨alr, ealr⟩ := hy k1 (k2 + 1) (by omega) h2
  obtain ⟨arl, earl⟩ := hy (k1 + 1) k2 h1 (by omega)
  obtain ⟨arr, earr⟩ := hy (k1 + 1) (k2 + 1) h1 h2
  unfold interp2
  rw [wt N1 h1, wt N2 h2]
  simp only [bind, Except.bind, pure, Except.pure]
  rw [eall, ealr, earl, earr]
  simp only [m11, m10, m01, m00]
  rcases h with h | h | h
  · rw [ealr] at h
    obtain rfl := Except.ok.inj h
    rw [b0, nan_r, nan_l, nan_l]
  · rw [earl] at h
    obtain rfl := Except.ok.inj h
    rw [b0, nan_r, nan_l]
  · rw [earr] at h
    obtain rfl := Except.ok.inj h
    rw [b0, nan_r]


/-! ### Examples -/

theorem example_nodes : Nodes [0, 1, 3] := by
  refine ⟨by simp, by decide +kernel, by decide +kernel, ?_⟩
  intro x hx
  have h : (3 : ℚ) ≤ 2 ^ 1021 := le_trans (by norm_num : (3 : ℚ) ≤ 2 ^ 2) (pow_le_pow_right₀ (by norm_num) (by norm_num))
  simp only [List.mem_cons, List.not_mem_nil, or_false] at hx
  refine le_trans ?_ h
  rcases hx with rfl | rfl | rfl <;> norm_num [abs_of_nonneg]

/-- The hypotheses of `C140_bilinear` are met and its conclusion speaks of a definite value: on the table min(i, 7) + 2·min(j, 7) over the nodes 0, 1, 3 the point
(2, 0.5) has the cell (1, 0) and the fractions (1/2, 1/2), and the bilinear value is 2.5. -/
example : At [0, 1, 3] 2 1 (1 / 2) ∧ At [0, 1, 3] (1 / 2) 0 (1 / 2) ∧ bilinear (fun i j => min (i : ℚ) 7 + 2 * min (j : ℚ) 7) 1 0 (1 / 2) (1 / 2) = 5 / 2 ∧
    ∃ r : ℚ, interp2 (fins [0, 1, 3]) (fins [0, 1, 3]) (table 3 3 (fun i j => min (i : ℚ) 7 + 2 * min (j : ℚ) 7)) (.fin 2) (.fin (1 / 2)) = .ok (.fin r) ∧
      |r - 5 / 2| ≤ 2 ^ (-48 : ℤ) * 21 + 2 ^ (-1072 : ℤ) := by
  have a1 : At [0, 1, 3] 2 1 (1 / 2) := ⟨by norm_num, by norm_num, by decide, by norm_num⟩
  have a2 : At [0, 1, 3] (1 / 2) 0 (1 / 2) := ⟨by norm_num, by norm_num, by decide, by norm_num⟩
  have b : bilinear (fun i j => min (i : ℚ) 7 + 2 * min (j : ℚ) 7) 1 0 (1 / 2) (1 / 2) = 5 / 2 := by norm_num [bilinear]
  refine ⟨a1, a2, b, ?_⟩
  have hM : (21 : ℚ) ≤ 2 ^ 1020 := le_trans (by norm_num : (21 : ℚ) ≤ 2 ^ 5) (pow_le_pow_right₀ (by norm_num) (by norm_num))
  obtain ⟨r, er, -, h⟩ := C140_bilinear example_nodes example_nodes (y := fun i j => min (i : ℚ) 7 + 2 * min (j : ℚ) 7) (M := 21) (fun i j => by
    have h1 : min (i : ℚ) 7 ≤ 7 := min_le_right _ _
    have h2 : min (j : ℚ) 7 ≤ 7 := min_le_right _ _
    have h3 : 0 ≤ min (i : ℚ) 7 := le_min (Nat.cast_nonneg _) (by norm_num)
    have h4 : 0 ≤ min (j : ℚ) 7 := le_min (Nat.cast_nonneg _) (by norm_num)
    rw [abs_of_nonneg (by linarith)]
    linarith) hM (v1 := 2) (v2 := 1 / 2) (by decide +kernel) (by decide +kernel)
  have := h 1 (1 / 2) 0 (1 / 2) a1 a2
  rw [b] at this
  exact ⟨r, er, this⟩

example : Lands [0, 1, 3] .nan 2 ∧ Lands [0, 1, 3] (.inf true) 0 ∧ Lands [0, 1, 3] (.fin 1) 1 :=
  ⟨.inr (.inr ⟨rfl, by decide, .inr (.inl rfl)⟩), .inr (.inl ⟨rfl, by decide, .inl rfl⟩), .inl ⟨by decide, rfl⟩⟩

/-- A NaN coordinate gives the entry of the last node, −∞ that of the first. -/
example : interp2 (fins [0, 1, 3]) (fins [0, 1, 3]) (table 3 3 (fun i j => (i : ℚ) + 10 * (j : ℚ))) .nan (.inf true) = .ok (.fin 2) := by
  have h := C140_nodes example_nodes example_nodes (y := fun i j => (i : ℚ) + 10 * (j : ℚ)) (k1 := 2) (k2 := 0) (v1 := .nan) (v2 := .inf true)
    (.inr (.inr ⟨rfl, by decide, .inr (.inl rfl)⟩)) (.inr (.inl ⟨rfl, by decide, .inl rfl⟩)) (by decide +kernel)
    (le_trans (by norm_num : _ ≤ (2 : ℚ) ^ 2) (pow_le_pow_right₀ (by norm_num) (by norm_num)))
  norm_num at h
  exact h

/-- `C140_inf` applies to a table with an infinity above and to the right of a finite entry. -/
example : interp2 (fins [0, 1, 3]) (fins [0, 1, 3]) [[.fin 1, .fin 2, .fin 3], [.fin 1, .inf false, .fin 3], [.fin 1, .fin 2, .fin 3]] (.fin 0) (.fin 0) = .ok .nan :=
  C140_inf example_nodes example_nodes (k1 := 0) (k2 := 0) (by decide) (by decide) (fun i j hi hj => by
    have hi : i < 3 := hi
    have hj : j < 3 := hj
    interval_cases i <;> interval_cases j <;> exact ⟨_, rfl⟩) (b := .inf false) (.inr ⟨_, rfl⟩) (.inr (.inr rfl))

end Pyhipp.FloatBilinear
