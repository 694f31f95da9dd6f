import Verif.Props.FloatQuantile
/-
C139: `Quantile`, `Median` and `Errorbar` with weights in double precision.
-/
namespace Pyhipp.FloatQuantile
open Pyhipp Pyhipp.F64 Pyhipp.FloatReduce
open Pyhipp.FloatLinear (fins sub_fin add_fin)

/-! ### One interval of `np.interp` -/

/-- Distinct doubles that are not tiny are not too close. -/
theorem gap {x y : ℚ} (fx : IsF x) (fy : IsF y) (h0 : 0 ≤ x) (h : x < y) (hy : 2 ^ (-60 : ℤ) ≤ y) : 2 ^ (-113 : ℤ) ≤ y - x := by
  rcases le_or_gt x (2 ^ (-61 : ℤ)) with hx | hx
  · have e1 : (2 : ℚ) ^ (-60 : ℤ) = 2 * 2 ^ (-61 : ℤ) := by norm_num
    have e2 : (2 : ℚ) ^ (-113 : ℤ) ≤ 2 ^ (-61 : ℤ) := zpow_le_zpow_right₀ (by norm_num) (by norm_num)
    linarith
  · have hp : (0 : ℚ) < 2 ^ (-61 : ℤ) := pow_pos' _
    have ex : -113 ≤ expo x := by
      have h1 : expo (2 ^ (-61 : ℤ) : ℚ) = -113 := by decide +kernel
      rw [← h1]
      exact expo_mono hp.ne' (by rw [abs_of_pos hp, abs_of_pos (by linarith)]; exact hx.le)
    have ey : -113 ≤ expo y := le_trans ex (expo_mono (by linarith) (by rw [abs_of_pos (by linarith), abs_of_pos (by linarith)]; exact h.le))
    obtain ⟨a, ha⟩ := fx.mult_of_le ex
    obtain ⟨b, hb⟩ := fy.mult_of_le ey
    have hu : (0 : ℚ) < 2 ^ (-113 : ℤ) := pow_pos' _
    rw [ha, hb] at h ⊢
    have h1 : (a : ℚ) < b := lt_of_mul_lt_mul_right h hu.le
    have h2 : a + 1 ≤ b := by exact_mod_cast h1
    have h3 : (a : ℚ) + 1 ≤ b := by exact_mod_cast h2
    have := mul_le_mul_of_nonneg_right h3 hu.le
    linarith

/-- What is computed between two nodes. -/
def stepQ (x0 x1 c0 c1 p : ℚ) : ℚ := rnd (rnd (rnd (rnd (x1 - x0) / rnd (c1 - c0)) * rnd (p - c0)) + x0)

/-- How far above the data a weighted quantile can be. -/
def slack (M : ℚ) : ℚ := 2 ^ (-48 : ℤ) * M + 2 ^ (-1072 : ℤ)

theorem pow900 {M : ℚ} (h : M ≤ 2 ^ 900) : M ≤ 2 ^ 1021 := le_trans h (pow_le_pow_right₀ (by norm_num) (by norm_num))

theorem ofQ_eq_fin {q d : ℚ} (h : ofQ q = .fin d) : d = rnd q := by
  unfold ofQ at h
  by_cases c : 2 ^ 1024 ≤ |rnd q|
  · rw [if_pos c] at h; exact Num.noConfusion h
  · rw [if_neg c] at h; exact (Num.fin.inj h).symm

/-- The errors of one step add up to less than the slack. -/
theorem step_err {x0 x1 c0 c1 p M : ℚ} (fx0 : IsF x0) (fx1 : IsF x1) (fc0 : IsF c0) (fc1 : IsF c1) (fp : IsF p) (hx : x0 ≤ x1) (h0 : 0 ≤ c0) (h1 : c0 < p) (h2 : p < c1)
    (h3 : c1 ≤ 4) (hp : 2 ^ (-60 : ℤ) ≤ p) (b0 : |x0| ≤ M) (b1 : |x1| ≤ M) (hM : M ≤ 2 ^ 900) :
    Num.add (Num.mul (Num.div (Num.sub (.fin x1) (.fin x0)) (Num.sub (.fin c1) (.fin c0))) (Num.sub (.fin p) (.fin c0))) (.fin x0) = .fin (stepQ x0 x1 c0 c1 p) ∧
      |stepQ x0 x1 c0 c1 p - (x0 + (x1 - x0) / (c1 - c0) * (p - c0))| ≤ slack M := by
  have hM0 : 0 ≤ M := le_trans (abs_nonneg _) b0
  have hg := gap fc0 fc1 h0 (by linarith) (by linarith)
  have hg0 : 0 < c1 - c0 := by linarith
  have c4 : ∀ z : ℚ, 0 ≤ z → z ≤ 4 → |z| ≤ 2 ^ 1021 := by
    intro z z0 z4
    rw [abs_of_nonneg z0]
    exact le_trans (le_trans z4 (by norm_num : (4 : ℚ) ≤ 2 ^ 2)) (pow_le_pow_right₀ (by norm_num) (by norm_num))
  have hD : x1 - x0 ≤ 2 * M := by
    rw [abs_le] at b0 b1
    linarith
  have hD0 : 0 ≤ x1 - x0 := by linarith
  have hs0 : 0 ≤ (x1 - x0) / (c1 - c0) := div_nonneg hD0 hg0.le
  have hbig : |(x1 - x0) / (c1 - c0)| ≤ 2 ^ 1015 := by
    rw [abs_of_nonneg hs0, div_le_iff₀ hg0]
    have e1 : (2 : ℚ) ^ 1015 = 2 ^ 115 * 2 ^ 900 := by rw [← pow_add]
    have e2 : (0 : ℚ) ≤ 2 ^ 900 := by positivity
    rw [e1]
    clear e1
    generalize (2 : ℚ) ^ 900 = B at *
    have h5 : (2 : ℚ) ^ 115 * B * 2 ^ (-113 : ℤ) ≤ 2 ^ 115 * B * (c1 - c0) := mul_le_mul_of_nonneg_left hg (mul_nonneg (by norm_num) e2)
    have h6 : (2 : ℚ) ^ 115 * B * 2 ^ (-113 : ℤ) = 4 * B := by
      rw [mul_right_comm]; norm_num
    rw [h6] at h5
    linarith
  obtain ⟨d, d1, d2⟩ := FloatLinear.slope_err fx0 fx1 fc0 fc1 (by linarith : c0 < c1) (le_trans b0 (pow900 hM)) (le_trans b1 (pow900 hM)) (c4 c0 h0 (by linarith)) (c4 c1 (by linarith) h3)
    (le_trans hbig (pow_le_pow_right₀ (by norm_num) (by norm_num)))
  have hD' : 0 < rnd (c1 - c0) := rnd_sub_pos fc1 fc0 (by linarith)
  have ed : d = rnd (rnd (x1 - x0) / rnd (c1 - c0)) := by
    rw [sub_fin (FloatLinear.le22 (le_trans b1 (pow900 hM))) (FloatLinear.le22 (le_trans b0 (pow900 hM))), sub_fin (FloatLinear.le22 (c4 c1 (by linarith) h3)) (FloatLinear.le22 (c4 c0 h0 (by linarith)))] at d1
    simp only [Num.div, if_neg hD'.ne'] at d1
    exact ofQ_eq_fin d1
  have t1 := rnd_sub_err fp fc0
  rw [abs_of_pos (by linarith : 0 < p - c0)] at t1
  have ht0 : 0 ≤ rnd (p - c0) := rnd_nonneg (by linarith)
  have hd0 : 0 ≤ d := by rw [ed]; exact rnd_nonneg (div_nonneg (rnd_nonneg hD0) hD'.le)
  rw [abs_of_nonneg hs0] at d2 hbig
  -- the product
  have hst : (x1 - x0) / (c1 - c0) * (p - c0) ≤ x1 - x0 := by
    rw [div_mul_eq_mul_div, div_le_iff₀ hg0]
    exact mul_le_mul_of_nonneg_left (by linarith) hD0
  have ht4 : p - c0 ≤ 4 := by linarith
  have htp : 0 < p - c0 := by linarith
  have hst0 : 0 ≤ (x1 - x0) / (c1 - c0) * (p - c0) := mul_nonneg hs0 htp.le
  have e0 : stepQ x0 x1 c0 c1 p = rnd (rnd (d * rnd (p - c0)) + x0) := by rw [ed]; rfl
  have prod : |d * rnd (p - c0) - (x1 - x0) / (c1 - c0) * (p - c0)| ≤ (2 ^ (-50 : ℤ) + 2 ^ (-52 : ℤ)) * (x1 - x0) + 5 * 2 ^ (-1075 : ℤ) := by
    generalize rnd (p - c0) = t' at *
    generalize p - c0 = t at *
    generalize (x1 - x0) / (c1 - c0) = s at *
    generalize x1 - x0 = D at *
    have hη : (0 : ℚ) < 2 ^ (-1075 : ℤ) := pow_pos' _
    clear hbig hM b0 b1 hD hg d1 ed e0
    generalize (2 : ℚ) ^ (-1075 : ℤ) = η at *
    have e : d * t' - s * t = (d - s) * t' + s * (t' - t) := by ring
    have a1 : |(d - s) * t'| ≤ (2 ^ (-50 : ℤ) * s + η) * t' := by
      rw [abs_mul, abs_of_nonneg ht0]
      exact mul_le_mul_of_nonneg_right d2 ht0
    have a2 : |s * (t' - t)| ≤ s * (2 ^ (-53 : ℤ) * t) := by
      rw [abs_mul, abs_of_nonneg hs0]
      exact mul_le_mul_of_nonneg_left t1 hs0
    have t2 : t' ≤ (1 + 2 ^ (-53 : ℤ)) * t := by linarith [(abs_le.mp t1).2]
    have a3 : (2 ^ (-50 : ℤ) * s + η) * t' ≤ (2 ^ (-50 : ℤ) * s + η) * ((1 + 2 ^ (-53 : ℤ)) * t) :=
      mul_le_mul_of_nonneg_left t2 (by
        have : (0 : ℚ) ≤ 2 ^ (-50 : ℤ) * s := mul_nonneg (pow_pos' _).le hs0
        linarith)
    have a4 : η * ((1 + 2 ^ (-53 : ℤ)) * t) ≤ η * 5 := mul_le_mul_of_nonneg_left (by
      have : (1 + (2 : ℚ) ^ (-53 : ℤ)) * t ≤ 5 / 4 * 4 := mul_le_mul (by norm_num) ht4 htp.le (by norm_num)
      exact le_trans this (by norm_num)) hη.le
    have k : (2 ^ (-50 : ℤ) * (1 + 2 ^ (-53 : ℤ)) + 2 ^ (-53 : ℤ)) * (s * t) ≤ ((2 : ℚ) ^ (-50 : ℤ) + 2 ^ (-52 : ℤ)) * (s * t) :=
      mul_le_mul_of_nonneg_right (by norm_num) hst0
    have k2 : ((2 : ℚ) ^ (-50 : ℤ) + 2 ^ (-52 : ℤ)) * (s * t) ≤ ((2 : ℚ) ^ (-50 : ℤ) + 2 ^ (-52 : ℤ)) * D := mul_le_mul_of_nonneg_left hst (by norm_num)
    have tri := abs_add_le ((d - s) * t') (s * (t' - t))
    rw [← e] at tri
    clear t2 t1 d2 hp
    generalize (2 : ℚ) ^ (-50 : ℤ) = v50 at *
    generalize (2 : ℚ) ^ (-52 : ℤ) = v52 at *
    generalize (2 : ℚ) ^ (-53 : ℤ) = v53 at *
    linarith
  have hDM : (x1 - x0) ≤ 2 * M := hD
  have p0 : 0 ≤ d * rnd (p - c0) := mul_nonneg hd0 ht0
  -- sizes
  have hη : (0 : ℚ) < 2 ^ (-1075 : ℤ) := pow_pos' _
  have hη1 : (2 : ℚ) ^ (-1075 : ℤ) ≤ 1 := zpow_le_one_of_nonpos₀ (by norm_num) (by norm_num)
  have pbig : d * rnd (p - c0) ≤ 4 * 2 ^ 900 + 5 := by
    have h1 := (abs_le.mp prod).2
    have k : ((2 : ℚ) ^ (-50 : ℤ) + 2 ^ (-52 : ℤ)) * (x1 - x0) ≤ 1 * (x1 - x0) := mul_le_mul_of_nonneg_right (by norm_num) hD0
    have hM2 : 4 * M ≤ 4 * 2 ^ 900 := mul_le_mul_of_nonneg_left hM (by norm_num)
    clear hbig hM b0 b1
    generalize (2 : ℚ) ^ (-1075 : ℤ) = η at *
    generalize (2 : ℚ) ^ 900 = B at *
    linarith
  have pbig2 : |d * rnd (p - c0)| ≤ 2 ^ 1022 := by
    rw [abs_of_nonneg p0]
    refine le_trans pbig ?_
    have e1 : (2 : ℚ) ^ 1022 = 2 ^ 122 * 2 ^ 900 := by rw [← pow_add]
    have e2 : (1 : ℚ) ≤ 2 ^ 900 := one_le_pow₀ (by norm_num)
    rw [e1]
    clear hbig hM pbig hη hη1 prod d2 e1 t1 hp
    generalize (2 : ℚ) ^ 900 = B at *
    have : (9 : ℚ) * B ≤ 2 ^ 122 * B := mul_le_mul_of_nonneg_right (by norm_num) (by linarith)
    linarith
  have m1 : Num.mul (.fin d) (.fin (rnd (p - c0))) = .fin (rnd (d * rnd (p - c0))) := ofQ_fin_le pbig2 FloatLinear.pow1022 (pow_lt_pow_right₀ (by norm_num) (by norm_num))
  have m2 : |rnd (d * rnd (p - c0))| ≤ 2 ^ 1022 := by rw [rnd_abs]; exact rnd_le pbig2 FloatLinear.pow1022
  constructor
  · rw [d1, sub_fin (FloatLinear.le22 (c4 p (by linarith) (by linarith))) (FloatLinear.le22 (c4 c0 h0 (by linarith))), m1,
      add_fin m2 (FloatLinear.le22 (le_trans b0 (pow900 hM))), e0]
  · rw [e0]
    have q1 := FloatMesh.rnd_err_all (d * rnd (p - c0))
    have q2 := rnd_sub_err (isF_rnd (d * rnd (p - c0))) fx0.neg
    rw [sub_neg_eq_add] at q2
    rw [abs_of_nonneg p0] at q1
    unfold slack
    have e72 : (2 : ℚ) ^ (-1072 : ℤ) = 8 * 2 ^ (-1075 : ℤ) := by rw [zsplit (show (-1072 : ℤ) = 3 + -1075 by norm_num)]; norm_num
    rw [e72]
    have bM : |x0 + (x1 - x0) / (c1 - c0) * (p - c0)| ≤ M := by
      rw [abs_le] at b0 b1 ⊢
      constructor <;> linarith
    generalize rnd (d * rnd (p - c0)) = m at *
    generalize rnd (m + x0) = r at *
    generalize d * rnd (p - c0) = P at *
    generalize (x1 - x0) / (c1 - c0) * (p - c0) = st at *
    generalize x1 - x0 = D at *
    clear hbig hM pbig pbig2 m1 m2 e72 e0 d1 d2 ed hst0 hs0 hg hp hη1
    generalize (2 : ℚ) ^ (-1075 : ℤ) = η at *
    have hM0 : 0 ≤ M := le_trans (abs_nonneg _) b0
    -- |P| ≤ D (1 + small) + 5η
    have P1 : P ≤ 2 * (2 * M) + 5 * η := by
      have h1 := (abs_le.mp prod).2
      have k : ((2 : ℚ) ^ (-50 : ℤ) + 2 ^ (-52 : ℤ)) * D ≤ 1 * D := mul_le_mul_of_nonneg_right (by norm_num) hD0
      linarith
    have E1 : |m - st| ≤ (2 ^ (-50 : ℤ) + 2 ^ (-51 : ℤ)) * (2 * M) + 7 * η := by
      have tri := abs_add_le (m - P) (P - st)
      rw [sub_add_sub_cancel] at tri
      have k1 : (2 : ℚ) ^ (-53 : ℤ) * P ≤ 2 ^ (-53 : ℤ) * (2 * (2 * M) + 5 * η) := mul_le_mul_of_nonneg_left P1 (by norm_num)
      have k2 : ((2 : ℚ) ^ (-50 : ℤ) + 2 ^ (-52 : ℤ)) * D ≤ ((2 : ℚ) ^ (-50 : ℤ) + 2 ^ (-52 : ℤ)) * (2 * M) := mul_le_mul_of_nonneg_left hDM (by norm_num)
      norm_num at *
      linarith
    have tri := abs_add_le (r - (m + x0)) (m - st)
    rw [show r - (m + x0) + (m - st) = r - (x0 + st) by ring] at tri
    have tri2 := abs_add_le (m - st) (x0 + st)
    rw [show m - st + (x0 + st) = m + x0 by ring] at tri2
    have k3 : (2 : ℚ) ^ (-53 : ℤ) * |m + x0| ≤ 2 ^ (-53 : ℤ) * ((2 ^ (-50 : ℤ) + 2 ^ (-51 : ℤ)) * (2 * M) + 7 * η + M) :=
      mul_le_mul_of_nonneg_left (by linarith) (by norm_num)
    norm_num at *
    linarith


/-! ### `np.interp` between the nodes of a distribution function -/

/-- How many nodes are not larger. -/
def countLE (cs : List ℚ) (p : ℚ) : Nat := (cs.filter (fun c => decide (c ≤ p))).length

/-- What the search in `np.interp` returns on finite nodes in order (numpy's `binary_search_with_guess`, whatever the guess). -/
def IsFind (find : Num → List Num → Int) : Prop :=
  ∀ (p : ℚ) (cs : List ℚ), cs ≠ [] → cs.Pairwise (· ≤ ·) →
    find (.fin p) (fins cs) = if cs.getLastD 0 < p then (cs.length : Int) else (countLE cs p : Int) - 1

theorem count_spec {cs : List ℚ} (hs : cs.Pairwise (· ≤ ·)) (p : ℚ) {i : Nat} (hi : i < cs.length) : cs.getD i 0 ≤ p ↔ i < countLE cs p := by
  induction cs generalizing i with
  | nil => simp at hi
  | cons c t ih =>
    rw [List.pairwise_cons] at hs
    by_cases hc : c ≤ p
    · have e : countLE (c :: t) p = countLE t p + 1 := by simp [countLE, List.filter_cons, hc]
      rw [e]
      cases i with
      | zero => simpa using hc
      | succ i =>
        have := ih hs.2 (i := i) (by simpa using hi)
        simpa using this
    · have e : countLE (c :: t) p = 0 := by
        unfold countLE
        rw [List.length_eq_zero_iff, List.filter_eq_nil_iff]
        intro a ha
        rcases List.mem_cons.mp ha with rfl | ha
        · simpa using hc
        · have := hs.1 a ha
          simp only [decide_eq_true_eq, not_le] at *
          linarith
      rw [e]
      simp only [Nat.not_lt_zero, iff_false, not_le] at *
      cases i with
      | zero => simpa using hc
      | succ i =>
        have hi' : i < t.length := by simpa using hi
        have : t.getD i 0 ∈ t := getD_mem t i hi'
        have := hs.1 _ this
        simp only [List.getD_cons_succ]
        linarith

theorem count_le (cs : List ℚ) (p : ℚ) : countLE cs p ≤ cs.length := List.length_filter_le _ _

theorem count_mono (cs : List ℚ) {p p' : ℚ} (h : p ≤ p') : countLE cs p ≤ countLE cs p' := by
  unfold countLE
  apply List.Sublist.length_le
  apply List.monotone_filter_right
  intro a ha
  simp only [decide_eq_true_eq] at *
  linarith

/-- The result of the interpolation. -/
def valueW (cs xs : List ℚ) (p : ℚ) : ℚ :=
  if countLE cs p = 0 then xs.getD 0 0
  else if countLE cs p = cs.length then xs.getD (cs.length - 1) 0
  else if cs.getD (countLE cs p - 1) 0 = p then xs.getD (countLE cs p - 1) 0
  else stepQ (xs.getD (countLE cs p - 1) 0) (xs.getD (countLE cs p) 0) (cs.getD (countLE cs p - 1) 0) (cs.getD (countLE cs p) 0) p

/-- Nodes of a distribution function in double precision. -/
structure Cdf (cs : List ℚ) : Prop where
  ne : cs ≠ []
  mono : cs.Pairwise (· ≤ ·)
  dbl : ∀ c ∈ cs, IsF c ∧ 0 ≤ c ∧ c ≤ 4

/-- Data in order. -/
structure Data (xs : List ℚ) (M : ℚ) : Prop where
  mono : xs.Pairwise (· ≤ ·)
  dbl : ∀ x ∈ xs, IsF x ∧ |x| ≤ M
  big : M ≤ 2 ^ 900

theorem fins_getD (xs : List ℚ) {i : Nat} (h : i < xs.length) : (fins xs).getD i .nan = .fin (xs.getD i 0) := getD_fin xs i h

/-- A probability that is not a tiny positive number. -/
def Usual (p : ℚ) : Prop := IsF p ∧ (p ≤ 0 ∨ 2 ^ (-60 : ℤ) ≤ p)

/-- In the interior of an interval. -/
theorem interior {cs : List ℚ} (hc : Cdf cs) {p : ℚ} (hp : Usual p) (h0 : countLE cs p ≠ 0) (h1 : countLE cs p ≠ cs.length) (h2 : cs.getD (countLE cs p - 1) 0 ≠ p) :
    countLE cs p - 1 < cs.length ∧ countLE cs p < cs.length ∧ cs.getD (countLE cs p - 1) 0 < p ∧ p < cs.getD (countLE cs p) 0 ∧ 2 ^ (-60 : ℤ) ≤ p := by
  have hk := count_le cs p
  have a1 : countLE cs p - 1 < cs.length := by omega
  have a2 : countLE cs p < cs.length := by omega
  have b1 := (count_spec hc.mono p a1).mpr (by omega)
  have b2 : ¬ cs.getD (countLE cs p) 0 ≤ p := fun h => by
    have := (count_spec hc.mono p a2).mp h
    omega
  have b3 := lt_of_le_of_ne b1 h2
  have c0 := (hc.dbl _ (getD_mem cs _ a1)).2.1
  refine ⟨a1, a2, b3, not_le.mp b2, ?_⟩
  rcases hp.2 with h | h
  · linarith
  · exact h

theorem interior_step {cs xs : List ℚ} {M : ℚ} (hc : Cdf cs) (hx : Data xs M) (hl : xs.length = cs.length) {p : ℚ} (hp : Usual p)
    (h0 : countLE cs p ≠ 0) (h1 : countLE cs p ≠ cs.length) (h2 : cs.getD (countLE cs p - 1) 0 ≠ p) :
    Num.add (Num.mul (Num.div (Num.sub (.fin (xs.getD (countLE cs p) 0)) (.fin (xs.getD (countLE cs p - 1) 0))) (Num.sub (.fin (cs.getD (countLE cs p) 0)) (.fin (cs.getD (countLE cs p - 1) 0))))
      (Num.sub (.fin p) (.fin (cs.getD (countLE cs p - 1) 0)))) (.fin (xs.getD (countLE cs p - 1) 0)) =
      .fin (stepQ (xs.getD (countLE cs p - 1) 0) (xs.getD (countLE cs p) 0) (cs.getD (countLE cs p - 1) 0) (cs.getD (countLE cs p) 0) p) ∧
    |stepQ (xs.getD (countLE cs p - 1) 0) (xs.getD (countLE cs p) 0) (cs.getD (countLE cs p - 1) 0) (cs.getD (countLE cs p) 0) p -
      (xs.getD (countLE cs p - 1) 0 + (xs.getD (countLE cs p) 0 - xs.getD (countLE cs p - 1) 0) / (cs.getD (countLE cs p) 0 - cs.getD (countLE cs p - 1) 0) * (p - cs.getD (countLE cs p - 1) 0))| ≤ slack M := by
  obtain ⟨a1, a2, b1, b2, b3⟩ := interior hc hp h0 h1 h2
  have d0 := hc.dbl _ (getD_mem cs _ a1)
  have d1 := hc.dbl _ (getD_mem cs _ a2)
  have e0 := hx.dbl _ (getD_mem xs (countLE cs p - 1) (by omega))
  have e1 := hx.dbl _ (getD_mem xs (countLE cs p) (by omega))
  exact step_err e0.1 e1.1 d0.1 d1.1 hp.1 (step_le hx.mono (by omega) (by omega)) d0.2.1 b1 b2 d1.2.2 b3 e0.2 e1.2 hx.big

theorem npInterp_fin {find : Num → List Num → Int} (hf : IsFind find) {cs xs : List ℚ} {M : ℚ} (hc : Cdf cs) (hx : Data xs M) (hl : xs.length = cs.length)
    {p : ℚ} (hp : Usual p) : npInterp find (.fin p) (fins cs) (fins xs) = .fin (valueW cs xs p) := by
  have hn : 0 < cs.length := List.length_pos_iff.mpr hc.ne
  have hhead : (fins xs).headD .nan = .fin (xs.getD 0 0) := by
    cases xs with
    | nil => simp at hl; omega
    | cons a t => rfl
  have hlast : (fins xs).getLastD .nan = .fin (xs.getD (cs.length - 1) 0) := by
    have hne : xs ≠ [] := by rintro rfl; simp at hl; omega
    rw [← hl, ← last_eq xs hne]
    unfold fins
    rw [List.getLastD_eq_getLast?, List.getLastD_eq_getLast?, List.getLast?_map]
    cases h : xs.getLast? with
    | none => exact absurd (List.getLast?_eq_none_iff.mp h) hne
    | some a => rfl
  have hfl : (fins cs).length = cs.length := FloatLinear.fins_length cs
  unfold npInterp valueW
  rw [hfl, hhead, hlast]
  by_cases hn1 : cs.length = 1
  · rw [if_pos hn1]
    have hk := count_le cs p
    split
    · rfl
    · rw [if_pos (by omega), hn1]
  · rw [if_neg hn1, if_neg (by exact fun h => Num.noConfusion h)]
    have hj := hf p cs hc.ne hc.mono
    dsimp only
    by_cases hlp : cs.getLastD 0 < p
    · rw [if_pos hlp] at hj
      have hk : countLE cs p = cs.length := by
        have := (count_spec hc.mono p (i := cs.length - 1) (by omega)).mp (by rw [← last_eq cs hc.ne]; exact hlp.le)
        have := count_le cs p
        omega
      rw [hj, if_neg (by omega), if_pos (by omega), if_neg (by omega), if_pos hk]
    · rw [if_neg hlp] at hj
      rw [hj]
      by_cases k0 : countLE cs p = 0
      · rw [if_pos (by omega), if_pos k0]
      · rw [if_neg (by omega), if_neg k0]
        by_cases k1 : countLE cs p = cs.length
        · rw [if_pos (by omega), if_pos k1]
        · have hk := count_le cs p
          rw [if_neg (by omega), if_neg k1]
          have ei : ((countLE cs p : Int) - 1).toNat = countLE cs p - 1 := by omega
          have ei1 : countLE cs p - 1 + 1 = countLE cs p := by omega
          rw [ei, ei1, fins_getD cs (by omega), fins_getD cs (by omega), fins_getD xs (by omega), fins_getD xs (by omega)]
          by_cases k2 : cs.getD (countLE cs p - 1) 0 = p
          · rw [if_pos (by rw [k2]), if_pos k2]
          · rw [if_neg (fun h => k2 (Num.fin.inj h)), if_neg k2, (interior_step hc hx hl hp k0 k1 k2).1, if_neg (by exact fun h => Num.noConfusion h)]

theorem slack_nonneg {M : ℚ} (h : 0 ≤ M) : 0 ≤ slack M := add_nonneg (mul_nonneg (pow_pos' _).le h) (pow_pos' _).le

theorem stepQ_isF (x0 x1 c0 c1 p : ℚ) : IsF (stepQ x0 x1 c0 c1 p) := isF_rnd _

theorem stepQ_ge {x0 x1 c0 c1 p : ℚ} (f0 : IsF x0) (hx : x0 ≤ x1) (hc : c0 ≤ c1) (hp : c0 ≤ p) : x0 ≤ stepQ x0 x1 c0 c1 p := by
  apply le_rnd _ f0
  have : 0 ≤ rnd (rnd (rnd (x1 - x0) / rnd (c1 - c0)) * rnd (p - c0)) :=
    rnd_nonneg (mul_nonneg (rnd_nonneg (div_nonneg (rnd_nonneg (by linarith)) (rnd_nonneg (by linarith)))) (rnd_nonneg (by linarith)))
  linarith

theorem stepQ_mono {x0 x1 c0 c1 p p' : ℚ} (hx : x0 ≤ x1) (hc : c0 ≤ c1) (hp : p ≤ p') : stepQ x0 x1 c0 c1 p ≤ stepQ x0 x1 c0 c1 p' := by
  apply rnd_mono
  have h0 : 0 ≤ rnd (rnd (x1 - x0) / rnd (c1 - c0)) := rnd_nonneg (div_nonneg (rnd_nonneg (by linarith)) (rnd_nonneg (by linarith)))
  have := rnd_mono (mul_le_mul_of_nonneg_left (rnd_mono (show p - c0 ≤ p' - c0 by linarith)) h0)
  linarith

theorem valueW_step {cs xs : List ℚ} {p : ℚ} (k0 : countLE cs p ≠ 0) (k1 : countLE cs p ≠ cs.length) (k2 : cs.getD (countLE cs p - 1) 0 ≠ p) :
    valueW cs xs p = stepQ (xs.getD (countLE cs p - 1) 0) (xs.getD (countLE cs p) 0) (cs.getD (countLE cs p - 1) 0) (cs.getD (countLE cs p) 0) p := by
  unfold valueW; rw [if_neg k0, if_neg k1, if_neg k2]

/-- Where the result lies: not below the last node that is not larger, and above the next one by the slack at most. -/
theorem valueW_bracket {cs xs : List ℚ} {M : ℚ} (hc : Cdf cs) (hx : Data xs M) (hl : xs.length = cs.length) {p : ℚ} (hp : Usual p) :
    IsF (valueW cs xs p) ∧ (countLE cs p = 0 → valueW cs xs p = xs.getD 0 0) ∧ (countLE cs p = cs.length → valueW cs xs p = xs.getD (cs.length - 1) 0) ∧
    (∀ i, i < countLE cs p → xs.getD i 0 ≤ valueW cs xs p) ∧ (∀ i, countLE cs p ≤ i → i < cs.length → valueW cs xs p ≤ xs.getD i 0 + slack M) := by
  have hn : 0 < cs.length := List.length_pos_iff.mpr hc.ne
  have hk := count_le cs p
  have hM : 0 ≤ M := le_trans (abs_nonneg _) (hx.dbl _ (getD_mem xs 0 (by omega))).2
  have hsl := slack_nonneg hM
  have fx : ∀ i, i < cs.length → IsF (xs.getD i 0) := fun i hi => (hx.dbl _ (getD_mem xs i (by omega))).1
  have mono : ∀ i j, i ≤ j → j < cs.length → xs.getD i 0 ≤ xs.getD j 0 := fun i j h1 h2 => step_le hx.mono h1 (by omega)
  by_cases k0 : countLE cs p = 0
  · have e : valueW cs xs p = xs.getD 0 0 := by unfold valueW; rw [if_pos k0]
    rw [e]
    refine ⟨fx 0 hn, fun _ => rfl, fun h => by omega, fun i hi => by omega, fun i _ hi => ?_⟩
    have := mono 0 i (by omega) hi
    linarith
  · by_cases k1 : countLE cs p = cs.length
    · have e : valueW cs xs p = xs.getD (cs.length - 1) 0 := by unfold valueW; rw [if_neg k0, if_pos k1]
      rw [e]
      exact ⟨fx _ (by omega), fun h => absurd h k0, fun _ => rfl, fun i hi => mono _ _ (by omega) (by omega), fun i h1 h2 => by omega⟩
    · by_cases k2 : cs.getD (countLE cs p - 1) 0 = p
      · have e : valueW cs xs p = xs.getD (countLE cs p - 1) 0 := by unfold valueW; rw [if_neg k0, if_neg k1, if_pos k2]
        rw [e]
        refine ⟨fx _ (by omega), fun h => absurd h k0, fun h => absurd h k1, fun i hi => mono _ _ (by omega) (by omega), fun i h1 h2 => ?_⟩
        have := mono (countLE cs p - 1) i (by omega) h2
        linarith
      · obtain ⟨a1, a2, b1, b2, b3⟩ := interior hc hp k0 k1 k2
        have er := (interior_step hc hx hl hp k0 k1 k2).2
        have e := valueW_step (xs := xs) k0 k1 k2
        rw [e]
        have m1 := mono (countLE cs p - 1) (countLE cs p) (by omega) a2
        refine ⟨stepQ_isF _ _ _ _ _, fun h => absurd h k0, fun h => absurd h k1, fun i hi => ?_, fun i h1 h2 => ?_⟩
        · have := stepQ_ge (fx _ a1) m1 (by linarith : cs.getD (countLE cs p - 1) 0 ≤ cs.getD (countLE cs p) 0) b1.le
          exact le_trans (mono i _ (by omega) (by omega)) this
        · have m2 := mono (countLE cs p) i h1 h2
          have hg : 0 < cs.getD (countLE cs p) 0 - cs.getD (countLE cs p - 1) 0 := by linarith
          have hst : (xs.getD (countLE cs p) 0 - xs.getD (countLE cs p - 1) 0) / (cs.getD (countLE cs p) 0 - cs.getD (countLE cs p - 1) 0) * (p - cs.getD (countLE cs p - 1) 0) ≤
              xs.getD (countLE cs p) 0 - xs.getD (countLE cs p - 1) 0 := by
            rw [div_mul_eq_mul_div, div_le_iff₀ hg]
            exact mul_le_mul_of_nonneg_left (by linarith) (by linarith)
          have := (abs_le.mp er).2
          linarith

theorem valueW_mono {cs xs : List ℚ} {M : ℚ} (hc : Cdf cs) (hx : Data xs M) (hl : xs.length = cs.length) {p p' : ℚ} (hp : Usual p) (hp' : Usual p') (h : p ≤ p') :
    valueW cs xs p ≤ valueW cs xs p' + slack M := by
  have hn : 0 < cs.length := List.length_pos_iff.mpr hc.ne
  have hM : 0 ≤ M := le_trans (abs_nonneg _) (hx.dbl _ (getD_mem xs 0 (by omega))).2
  have hsl := slack_nonneg hM
  have mono : ∀ i j, i ≤ j → j < cs.length → xs.getD i 0 ≤ xs.getD j 0 := fun i j h1 h2 => step_le hx.mono h1 (by omega)
  have hk := count_le cs p
  have hk' := count_le cs p'
  obtain ⟨-, z1, z2, z3, z4⟩ := valueW_bracket hc hx hl hp
  obtain ⟨-, y1, y2, y3, y4⟩ := valueW_bracket hc hx hl hp'
  rcases Nat.lt_or_ge (countLE cs p) (countLE cs p') with hlt | hge
  · have a1 := z4 (countLE cs p) le_rfl (by omega)
    have a2 := y3 (countLE cs p) hlt
    linarith
  · have hkk : countLE cs p = countLE cs p' := le_antisymm (count_mono cs h) hge
    by_cases k0 : countLE cs p = 0
    · rw [z1 k0, y1 (by omega)]; linarith
    · by_cases k1 : countLE cs p = cs.length
      · rw [z2 k1, y2 (by omega)]; linarith
      · by_cases k2 : cs.getD (countLE cs p - 1) 0 = p
        · have e : valueW cs xs p = xs.getD (countLE cs p - 1) 0 := by unfold valueW; rw [if_neg k0, if_neg k1, if_pos k2]
          have := y3 (countLE cs p - 1) (by omega)
          rw [e]; linarith
        · obtain ⟨a1, a2, b1, b2, b3⟩ := interior hc hp k0 k1 k2
          have k2' : cs.getD (countLE cs p' - 1) 0 ≠ p' := by rw [← hkk]; intro e; linarith
          have e := valueW_step (xs := xs) k0 k1 k2
          have e' := valueW_step (xs := xs) (p := p') (by omega) (by omega) k2'
          rw [e, e', ← hkk]
          have := stepQ_mono (mono (countLE cs p - 1) (countLE cs p) (by omega) a2) (by linarith : cs.getD (countLE cs p - 1) 0 ≤ cs.getD (countLE cs p) 0) h
          linarith


/-! ### Running sums -/

/-- Running sums after the first. -/
def accumQ (s : ℚ) : List ℚ → List ℚ
  | [] => []
  | w :: t => rnd (s + w) :: accumQ (rnd (s + w)) t

/-- Running sums. -/
def cumQ : List ℚ → List ℚ
  | [] => []
  | w :: t => w :: accumQ w t

/-- The growth of the rounding error per addition. -/
local notation "G" => ((1 : ℚ) + 2 ^ (-53 : ℤ))

theorem G_mono {a b : Nat} (h : a ≤ b) : G ^ a ≤ G ^ b := FloatMesh.growth_mono h

theorem accum_spec {B : ℚ} (hB : B ≤ 2 ^ 1022) (k : Nat) (S s : ℚ) (fs : IsF s) (hs0 : 0 ≤ s) (hS0 : 0 ≤ S) (he : |s - S| ≤ (G ^ k - 1) * S) (vs : List ℚ) (hv : ∀ v ∈ vs, IsF v ∧ 0 ≤ v)
    (hb : G ^ (k + vs.length) * (S + vs.sum) ≤ B) :
    accum (.fin s) (fins vs) = fins (accumQ s vs) ∧ (s :: accumQ s vs).Pairwise (· ≤ ·) ∧ (accumQ s vs).length = vs.length ∧ (∀ a ∈ accumQ s vs, IsF a ∧ 0 ≤ a ∧ a ≤ B) ∧
      ∀ i, i < vs.length → |(accumQ s vs).getD i 0 - (S + (vs.take (i + 1)).sum)| ≤ (G ^ (k + vs.length) - 1) * (S + (vs.take (i + 1)).sum) := by
  induction vs generalizing k S s with
  | nil => exact ⟨rfl, by simp [accumQ], rfl, by simp [accumQ], by simp⟩
  | cons w t ih =>
    obtain ⟨fw, hw0⟩ := hv w (by simp)
    have ht0 : 0 ≤ t.sum := List.sum_nonneg (fun v h => (hv v (by simp [h])).2)
    have g1 : 1 ≤ G ^ k := FloatMesh.one_le_growth k
    have hu := pow_pos' (-53)
    have r1 := rnd_sub_err fs fw.neg
    rw [sub_neg_eq_add, abs_of_nonneg (by linarith : 0 ≤ s + w)] at r1
    have s1 : s + w ≤ G ^ k * (S + w) := by
      have := (abs_le.mp he).2
      have : 1 * w ≤ G ^ k * w := mul_le_mul_of_nonneg_right g1 hw0
      linarith
    have he' : |rnd (s + w) - (S + w)| ≤ (G ^ (k + 1) - 1) * (S + w) := by
      have tri := abs_add_le (rnd (s + w) - (s + w)) (s - S)
      rw [show rnd (s + w) - (s + w) + (s - S) = rnd (s + w) - (S + w) by ring] at tri
      have q1 : 2 ^ (-53 : ℤ) * (s + w) ≤ 2 ^ (-53 : ℤ) * (G ^ k * (S + w)) := mul_le_mul_of_nonneg_left s1 hu.le
      have q2 : (G ^ k - 1) * S ≤ (G ^ k - 1) * (S + w) := mul_le_mul_of_nonneg_left (by linarith) (by linarith)
      rw [pow_succ]
      linarith
    have hr0 : 0 ≤ rnd (s + w) := rnd_nonneg (by linarith)
    rw [List.sum_cons, List.length_cons] at hb
    have hb' : G ^ (k + 1 + t.length) * (S + w + t.sum) ≤ B := by
      rw [show k + 1 + t.length = k + (t.length + 1) by omega, add_assoc]; exact hb
    have r4 : rnd (s + w) ≤ B := by
      have a1 := (abs_le.mp he').2
      have a2 : G ^ (k + 1) * (S + w) ≤ G ^ (k + 1 + t.length) * (S + w + t.sum) :=
        mul_le_mul (G_mono (by omega)) (by linarith) (by linarith) (by positivity)
      linarith
    obtain ⟨i1, i2, i3, i4, i5⟩ := ih (k + 1) (S + w) (rnd (s + w)) (isF_rnd _) hr0 (by linarith) he' (fun v h => hv v (by simp [h])) hb'
    have c22 : ∀ z : ℚ, 0 ≤ z → z ≤ B → |z| ≤ 2 ^ 1022 := by
      intro z z0 z4
      rw [abs_of_nonneg z0]
      exact z4.trans hB
    have hsum4 : s + w ≤ B := by
      refine le_trans s1 (le_trans ?_ hb)
      exact mul_le_mul (G_mono (by omega)) (by linarith) (by linarith) (by positivity)
    have hadd : Num.add (.fin s) (.fin w) = .fin (rnd (s + w)) := add_fin (c22 s hs0 (by linarith)) (c22 w hw0 (by linarith))
    refine ⟨?_, ?_, by simp [accumQ, i3], ?_, ?_⟩
    · show Num.add (.fin s) (.fin w) :: accum (Num.add (.fin s) (.fin w)) (fins t) = _
      rw [hadd, i1]; rfl
    · show (s :: rnd (s + w) :: accumQ (rnd (s + w)) t).Pairwise (· ≤ ·)
      rw [List.pairwise_cons]
      have h1 : s ≤ rnd (s + w) := le_rnd (by linarith) fs
      refine ⟨fun a ha => ?_, i2⟩
      rcases List.mem_cons.mp ha with rfl | ha
      · exact h1
      · exact le_trans h1 ((List.pairwise_cons.mp i2).1 a ha)
    · intro a ha
      rcases List.mem_cons.mp ha with rfl | ha
      · exact ⟨isF_rnd _, hr0, r4⟩
      · exact i4 a ha
    · intro i hi
      have ek : k + 1 + t.length = k + (t.length + 1) := by omega
      cases i with
      | zero =>
        show |rnd (s + w) - (S + (List.take 1 (w :: t)).sum)| ≤ (G ^ (k + (t.length + 1)) - 1) * (S + (List.take 1 (w :: t)).sum)
        rw [show (List.take 1 (w :: t)).sum = w by simp]
        refine le_trans he' (mul_le_mul_of_nonneg_right ?_ (by linarith))
        have := G_mono (show k + 1 ≤ k + (t.length + 1) by omega)
        linarith
      | succ i =>
        have := i5 i (by simpa using hi)
        rw [ek] at this
        have e : (List.take (i + 1 + 1) (w :: t)).sum = w + (t.take (i + 1)).sum := by simp
        rw [e, ← add_assoc]
        exact this

/-- Running sums of numbers that are not negative: non-decreasing, each within rounding of the exact sum. -/
theorem cum_spec (vs : List ℚ) (hne : vs ≠ []) (hv : ∀ v ∈ vs, IsF v ∧ 0 ≤ v) (hn : vs.length ≤ 2 ^ 44) (hb : vs.sum ≤ 2) :
    cumsum (fins vs) = fins (cumQ vs) ∧ Cdf (cumQ vs) ∧ (cumQ vs).length = vs.length ∧
      ∀ i, i < vs.length → |(cumQ vs).getD i 0 - (vs.take (i + 1)).sum| ≤ (vs.length : ℚ) * 2 ^ (-51 : ℤ) := by
  cases vs with
  | nil => exact absurd rfl hne
  | cons w t =>
    obtain ⟨fw, hw0⟩ := hv w (by simp)
    have ht0 : 0 ≤ t.sum := List.sum_nonneg (fun v h => (hv v (by simp [h])).2)
    rw [List.length_cons] at hn
    rw [List.sum_cons] at hb
    have gl := growth_le t.length (by omega)
    have hsmall : (t.length : ℚ) * 2 ^ (-52 : ℤ) ≤ 1 := by
      have h2 : (t.length : ℚ) ≤ 2 ^ 52 := by exact_mod_cast (by omega : t.length ≤ 2 ^ 52)
      have h3 : ((2 : ℚ) ^ 52) * 2 ^ (-52 : ℤ) = 1 := by norm_num
      rw [← h3]
      exact mul_le_mul_of_nonneg_right h2 (pow_pos' _).le
    have hb' : G ^ (0 + t.length) * (w + t.sum) ≤ 4 := by
      rw [zero_add]
      have : G ^ t.length * (w + t.sum) ≤ 2 * 2 := mul_le_mul (by linarith) hb (by linarith) (by norm_num)
      linarith
    obtain ⟨a1, a2, a3, a4, a5⟩ := accum_spec (B := 4) (le_trans (by norm_num : (4 : ℚ) ≤ 2 ^ 2) (pow_le_pow_right₀ (by norm_num) (by norm_num))) 0 w w fw hw0 hw0 (by simp) t (fun v h => hv v (by simp [h])) hb'
    refine ⟨?_, ⟨by simp [cumQ], a2, ?_⟩, by simp [cumQ, a3], ?_⟩
    · show Num.fin w :: accum (.fin w) (fins t) = _
      rw [a1]; rfl
    · intro c hc
      rcases List.mem_cons.mp hc with rfl | hc
      · exact ⟨fw, hw0, by linarith⟩
      · exact a4 c hc
    · intro i hi
      have pos : (0 : ℚ) ≤ ((w :: t).length : ℚ) * 2 ^ (-51 : ℤ) := mul_nonneg (Nat.cast_nonneg _) (pow_pos' _).le
      cases i with
      | zero =>
        show |w - (List.take 1 (w :: t)).sum| ≤ _
        rw [show (List.take 1 (w :: t)).sum = w by simp, sub_self, abs_zero]
        exact pos
      | succ i =>
        have h := a5 i (by simpa using hi)
        have e : (List.take (i + 1 + 1) (w :: t)).sum = w + (t.take (i + 1)).sum := by simp
        rw [e]
        refine le_trans h ?_
        rw [zero_add]
        have tk0 : 0 ≤ (t.take (i + 1)).sum := List.sum_nonneg (fun v h => (hv v (by simp [List.mem_of_mem_take h])).2)
        have tk : (t.take (i + 1)).sum ≤ t.sum := by
          have h1 : t.sum = (t.take (i + 1)).sum + (t.drop (i + 1)).sum := by rw [← List.sum_append, List.take_append_drop]
          have h2 : 0 ≤ (t.drop (i + 1)).sum := List.sum_nonneg (fun v h => (hv v (by simp [List.mem_of_mem_drop h])).2)
          linarith
        have m : (G ^ t.length - 1) * (w + (t.take (i + 1)).sum) ≤ (t.length : ℚ) * 2 ^ (-52 : ℤ) * 2 :=
          mul_le_mul (by linarith) (by linarith) (by linarith) (mul_nonneg (Nat.cast_nonneg _) (pow_pos' _).le)
        have e51 : (2 : ℚ) ^ (-51 : ℤ) = 2 * 2 ^ (-52 : ℤ) := by norm_num
        rw [e51, List.length_cons]
        push_cast
        have := pow_pos' (-52)
        linarith


/-! ### Normalised weights -/

/-- `f w` is `w / W` up to a relative error `A` and an absolute error `B`. -/
structure Norm (ws : List ℚ) (W A B : ℚ) (f : ℚ → ℚ) : Prop where
  dbl : ∀ w ∈ ws, IsF (f w) ∧ 0 ≤ f w
  err : ∀ w ∈ ws, |f w - w / W| ≤ A * (w / W) + B

theorem small_n {n : Nat} (hn : n ≤ 2 ^ 44) : (n : ℚ) * 2 ^ (-51 : ℤ) ≤ 1 / 128 := by
  have h2 : (n : ℚ) ≤ 2 ^ 44 := by exact_mod_cast hn
  have h3 : ((2 : ℚ) ^ 44) * 2 ^ (-51 : ℤ) = 1 / 128 := by norm_num
  rw [← h3]
  exact mul_le_mul_of_nonneg_right h2 (pow_pos' _).le

theorem absSum_nn {ws : List ℚ} (h : ∀ w ∈ ws, 0 ≤ w) : FloatHist.absSum ws = ws.sum := by
  induction ws with
  | nil => simp [FloatHist.absSum]
  | cons w t ih => rw [FloatHist.absSum_cons, ih (fun v hv => h v (by simp [hv])), List.sum_cons, abs_of_nonneg (h w (by simp))]

theorem two_le {a : ℚ} (h : a ≤ 1 / 2) : 2 * a ≤ 1 := by linarith

theorem near_one {A V : ℚ} (h : A ≤ 1 / 128) (h1 : -(2 * A) ≤ V - 1) (h2 : V - 1 ≤ 2 * A) : 0 < V ∧ V ≤ 2 := ⟨by linarith, by linarith⟩

/-- stats/reduction.py:80 in double precision. -/
theorem normalise_spec {sum : List Num → Num} (hs : IsSum sum) (ws : List ℚ) (hw : ∀ w ∈ ws, IsF w ∧ 0 ≤ w) (hn : ws.length ≤ 2 ^ 44) (hpos : 0 < ws.sum)
    (hW : ws.sum ≤ 2 ^ 1021) : ∃ f : ℚ → ℚ, normalise sum (fins ws) = fins (ws.map f) ∧ Norm ws ws.sum ((ws.length : ℚ) * 2 ^ (-51 : ℤ)) (2 ^ (-1075 : ℤ)) f := by
  have hnn : ∀ w ∈ ws, 0 ≤ w := fun w h => (hw w h).2
  obtain ⟨D, d1, d2, d3⟩ := sum_err sum hs ws (fun w h => (hw w h).1) (by omega) (by rw [absSum_nn hnn]; exact le_trans hW (pow_le_pow_right₀ (by norm_num) (by norm_num)))
  rw [absSum_nn hnn] at d3
  have hl : 1 ≤ ws.length := by
    rcases Nat.eq_zero_or_pos ws.length with h | h
    · rw [List.eq_nil_of_length_eq_zero h] at hpos; simp at hpos
    · exact h
  have hk := small_n hn
  have e51 : (2 : ℚ) ^ (-51 : ℤ) = 2 * 2 ^ (-52 : ℤ) := by norm_num
  have en : ((ws.length - 1 : ℕ) : ℚ) * 2 ^ (-52 : ℤ) = (ws.length : ℚ) * 2 ^ (-52 : ℤ) - 2 ^ (-52 : ℤ) := by
    rw [Nat.cast_sub hl]; push_cast; ring
  have b0 : 0 ≤ ((ws.length - 1 : ℕ) : ℚ) * 2 ^ (-52 : ℤ) := mul_nonneg (Nat.cast_nonneg _) (pow_pos' _).le
  have p52 : (0 : ℚ) < 2 ^ (-52 : ℤ) := pow_pos' _
  have b1 : ((ws.length - 1 : ℕ) : ℚ) * 2 ^ (-52 : ℤ) ≤ 1 / 2 := by rw [en]; rw [e51] at hk; linarith
  have key : ∀ w ∈ ws, 0 < D ∧ |w / D - w / ws.sum| ≤ 2 * (((ws.length - 1 : ℕ) : ℚ) * 2 ^ (-52 : ℤ)) * (w / ws.sum) ∧ 0 ≤ w / ws.sum ∧ w / ws.sum ≤ 1 := by
    intro w h
    have h0 := hnn w h
    obtain ⟨k1, k2⟩ := ratio_err (N := w) (P := w) (A := w) (a := 0) hpos (abs_of_nonneg h0).le le_rfl b0 b1 (by simp) d3
    rw [zero_add] at k2
    refine ⟨k1, k2, div_nonneg h0 hpos.le, ?_⟩
    rw [div_le_one hpos]
    have := FloatReduce.mem_le_absSum ws w h
    rw [absSum_nn hnn, abs_of_nonneg h0] at this
    exact this
  have hD : 0 < D := by
    cases ws with
    | nil => simp at hl
    | cons a t => exact (key a (by simp)).1
  refine ⟨fun w => rnd (w / D), ?_, ?_, ?_⟩
  · unfold normalise fins
    rw [List.map_map, List.map_map]
    apply List.map_congr_left
    intro w h
    simp only [Function.comp]
    rw [d1]
    simp only [Num.div, if_neg hD.ne']
    obtain ⟨-, k2, k3, k4⟩ := key w h
    have hq : |w / D| ≤ 4 := by
      have tri := abs_add_le (w / D - w / ws.sum) (w / ws.sum)
      rw [sub_add_cancel, abs_of_nonneg k3] at tri
      have : 2 * (((ws.length - 1 : ℕ) : ℚ) * 2 ^ (-52 : ℤ)) * (w / ws.sum) ≤ 2 * (1 / 2) * 1 := mul_le_mul (by linarith) k4 k3 (by norm_num)
      linarith
    exact ofQ_fin_le (le_trans (le_trans hq (by norm_num : (4 : ℚ) ≤ 2 ^ 2)) (pow_le_pow_right₀ (by norm_num) (by norm_num))) FloatBins.pow1023 FloatBins.lt1024
  · exact fun w h => ⟨isF_rnd _, rnd_nonneg (div_nonneg (hnn w h) hD.le)⟩
  · intro w h
    obtain ⟨-, k2, k3, k4⟩ := key w h
    have hd0 : 0 ≤ w / D := div_nonneg (hnn w h) hD.le
    have r := FloatMesh.rnd_err_all (w / D)
    rw [abs_of_nonneg hd0] at r
    have tri := abs_add_le (rnd (w / D) - w / D) (w / D - w / ws.sum)
    rw [sub_add_sub_cancel] at tri
    have e52 : (2 : ℚ) ^ (-52 : ℤ) = 2 * 2 ^ (-53 : ℤ) := by norm_num
    have k5 : w / D ≤ 2 * (w / ws.sum) := by
      have h1 := (abs_le.mp k2).2
      have : 2 * (((ws.length - 1 : ℕ) : ℚ) * 2 ^ (-52 : ℤ)) * (w / ws.sum) ≤ 1 * (w / ws.sum) := mul_le_mul_of_nonneg_right (two_le b1) k3
      clear r tri hW
      generalize 2 * (((ws.length - 1 : ℕ) : ℚ) * 2 ^ (-52 : ℤ)) * (w / ws.sum) = z at *
      linarith
    have k6 : 2 ^ (-53 : ℤ) * (w / D) ≤ 2 ^ (-53 : ℤ) * (2 * (w / ws.sum)) := mul_le_mul_of_nonneg_left k5 (pow_pos' _).le
    rw [en] at k2
    rw [e51]
    have k7 : 0 ≤ 2 ^ (-52 : ℤ) * (w / ws.sum) := mul_nonneg p52.le k3
    show |rnd (w / D) - w / ws.sum| ≤ _
    generalize w / ws.sum = F at *
    generalize w / D = Q at *
    generalize (2 : ℚ) ^ (-1075 : ℤ) = η at *
    have : 2 ^ (-53 : ℤ) * (2 * F) = 2 ^ (-52 : ℤ) * F := by rw [e52]; ring
    rw [this] at k6
    linarith

theorem norm_sum {ws : List ℚ} {W A B : ℚ} {f : ℚ → ℚ} (h : Norm ws W A B f) (zs : List ℚ) (hz : ∀ z ∈ zs, z ∈ ws) :
    |(zs.map f).sum - zs.sum / W| ≤ A * (zs.sum / W) + zs.length * B := by
  induction zs with
  | nil => simp
  | cons z t ih =>
    have h1 := ih (fun y hy => hz y (by simp [hy]))
    have h2 := h.err z (hz z (by simp))
    simp only [List.map_cons, List.sum_cons, List.length_cons]
    have tri := abs_add_le (f z - z / W) ((t.map f).sum - t.sum / W)
    rw [show f z - z / W + ((t.map f).sum - t.sum / W) = f z + (t.map f).sum - (z + t.sum) / W by ring] at tri
    push_cast
    have e : A * ((z + t.sum) / W) = A * (z / W) + A * (t.sum / W) := by ring
    rw [e]
    linarith

/-- Normalising again (stats/reduction.py:266-268 with 80). -/
theorem normalise_again {sum : List Num → Num} (hs : IsSum sum) (ws : List ℚ) (hw : ∀ w ∈ ws, 0 ≤ w) (hn : ws.length ≤ 2 ^ 44) (hpos : 0 < ws.sum) {f : ℚ → ℚ}
    (hf : Norm ws ws.sum ((ws.length : ℚ) * 2 ^ (-51 : ℤ)) (2 ^ (-1075 : ℤ)) f) :
    ∃ g : ℚ → ℚ, normalise sum (fins (ws.map f)) = fins ((ws.map f).map g) ∧ Norm ws ws.sum ((ws.length : ℚ) * 2 ^ (-47 : ℤ)) (2 ^ (-1073 : ℤ)) (g ∘ f) := by
  have hk := small_n hn
  have hA0 : 0 ≤ (ws.length : ℚ) * 2 ^ (-51 : ℤ) := mul_nonneg (Nat.cast_nonneg _) (pow_pos' _).le
  have hη : (0 : ℚ) < 2 ^ (-1075 : ℤ) := pow_pos' _
  have hnη : (ws.length : ℚ) * 2 ^ (-1075 : ℤ) ≤ (ws.length : ℚ) * 2 ^ (-51 : ℤ) := mul_le_mul_of_nonneg_left (zpow_le_zpow_right₀ (by norm_num) (by norm_num)) (Nat.cast_nonneg _)
  have hV := norm_sum hf ws (fun _ h => h)
  rw [div_self hpos.ne', mul_one] at hV
  have hV1 : |(ws.map f).sum - 1| ≤ 2 * ((ws.length : ℚ) * 2 ^ (-51 : ℤ)) := by linarith
  have hVb := abs_le.mp hV1
  have hV02 : 0 < (ws.map f).sum ∧ (ws.map f).sum ≤ 2 := near_one hk hVb.1 hVb.2
  have hV0 := hV02.1
  have hV2 := hV02.2
  obtain ⟨g, g1, g2⟩ := normalise_spec hs (ws.map f) (fun v hv => by
      obtain ⟨w, h, rfl⟩ := List.mem_map.mp hv
      exact hf.dbl w h) (by rwa [List.length_map]) hV0 (le_trans (le_trans hV2 (by norm_num : (2 : ℚ) ≤ 2 ^ 1)) (pow_le_pow_right₀ (by norm_num) (by norm_num)))
  rw [List.length_map] at g2
  refine ⟨g, g1, ?_, ?_⟩
  · intro w h
    exact g2.dbl (f w) (List.mem_map.mpr ⟨w, h, rfl⟩)
  · intro w h
    have e1 := g2.err (f w) (List.mem_map.mpr ⟨w, h, rfl⟩)
    have e2 := hf.err w h
    have hF0 : 0 ≤ w / ws.sum := div_nonneg (hw w h) hpos.le
    have f0 := (hf.dbl w h).2
    show |g (f w) - w / ws.sum| ≤ _
    have e47 : (ws.length : ℚ) * 2 ^ (-47 : ℤ) = 16 * ((ws.length : ℚ) * 2 ^ (-51 : ℤ)) := by
      rw [show (2 : ℚ) ^ (-47 : ℤ) = 16 * 2 ^ (-51 : ℤ) by norm_num]; ring
    have e73 : (2 : ℚ) ^ (-1073 : ℤ) = 4 * 2 ^ (-1075 : ℤ) := by rw [zsplit (show (-1073 : ℤ) = 2 + -1075 by norm_num)]; norm_num
    rw [e47, e73]
    clear e47 e73 hV
    generalize (ws.length : ℚ) * 2 ^ (-51 : ℤ) = A at *
    generalize (2 : ℚ) ^ (-1075 : ℤ) = η at *
    generalize (ws.map f).sum = V at *
    generalize w / ws.sum = F at *
    generalize f w = v at *
    -- v / V
    have e3 : |v / V - F| ≤ 2 * ((3 * A) * F + η) := by
      have : v / V - F = ((v - F) - F * (V - 1)) / V := by field_simp; ring
      rw [this, abs_div, abs_of_pos hV0, div_le_iff₀ hV0]
      have t1 := abs_sub (v - F) (F * (V - 1))
      rw [abs_mul F, abs_of_nonneg hF0] at t1
      have t2 : F * |V - 1| ≤ F * (2 * A) := mul_le_mul_of_nonneg_left hV1 hF0
      have t3 : ((3 * A) * F + η) * 1 ≤ ((3 * A) * F + η) * (2 * V) := mul_le_mul_of_nonneg_left (by linarith) (by
        have := mul_nonneg hA0 hF0
        linarith)
      linarith
    have e4 : v / V ≤ 2 * F + 2 * η := by
      have h1 := (abs_le.mp e3).2
      have h2 : A * F ≤ 1 / 128 * F := mul_le_mul_of_nonneg_right hk hF0
      linarith
    have e5 : A * (v / V) ≤ A * (2 * F + 2 * η) := mul_le_mul_of_nonneg_left e4 hA0
    have e6 : A * η ≤ 1 / 128 * η := mul_le_mul_of_nonneg_right hk hη.le
    have e7 := mul_nonneg hA0 hF0
    have tri := abs_add_le (g v - v / V) (v / V - F)
    rw [sub_add_sub_cancel] at tri
    linarith


/-! ### What a weighted quantile is -/

/-- The total weight of the elements with a property; elements come with their weights. -/
def weightOf (L : List (ℚ × ℚ)) (P : ℚ → Bool) : ℚ := ((L.filter (fun e => P e.1)).map (·.2)).sum

/-- `r` is a quantile of the weighted elements at the probability `p`, up to an error `δ` of the probability and `ε` of the value: the elements below `r` (by more than
`ε`) carry no more than the fraction `p` (+ `δ`) of the weight, the elements up to any element above `r` carry at least the fraction `p` (- `δ`), and `r` is neither below all
elements nor above all of them by more than `ε`. -/
structure IsQuantile (L : List (ℚ × ℚ)) (δ ε p r : ℚ) : Prop where
  below : weightOf L (fun x => decide (x < r - ε)) ≤ (p + δ) * (L.map (·.2)).sum
  above : ∀ e ∈ L, r < e.1 → (p - δ) * (L.map (·.2)).sum ≤ weightOf L (fun x => decide (x ≤ e.1))
  lower : ∃ e ∈ L, e.1 ≤ r
  upper : ∃ e ∈ L, r ≤ e.1 + ε

theorem weightOf_perm {L L' : List (ℚ × ℚ)} (h : L.Perm L') (P : ℚ → Bool) : weightOf L P = weightOf L' P := ((h.filter _).map _).sum_eq

theorem isQuantile_perm {L L' : List (ℚ × ℚ)} (h : L.Perm L') {δ ε p r : ℚ} (hq : IsQuantile L δ ε p r) : IsQuantile L' δ ε p r := by
  have hs : (L.map (·.2)).sum = (L'.map (·.2)).sum := (h.map _).sum_eq
  refine ⟨?_, ?_, ?_, ?_⟩
  · rw [← weightOf_perm h, ← hs]; exact hq.below
  · intro e he hr
    rw [← weightOf_perm h, ← hs]; exact hq.above e (h.mem_iff.mpr he) hr
  · obtain ⟨e, h1, h2⟩ := hq.lower; exact ⟨e, h.mem_iff.mp h1, h2⟩
  · obtain ⟨e, h1, h2⟩ := hq.upper; exact ⟨e, h.mem_iff.mp h1, h2⟩

theorem weightOf_append (L L' : List (ℚ × ℚ)) (P : ℚ → Bool) : weightOf (L ++ L') P = weightOf L P + weightOf L' P := by simp [weightOf]

theorem weightOf_le {L : List (ℚ × ℚ)} (h : ∀ e ∈ L, 0 ≤ e.2) (P : ℚ → Bool) : weightOf L P ≤ (L.map (·.2)).sum ∧ 0 ≤ weightOf L P := by
  induction L with
  | nil => simp [weightOf]
  | cons e t ih =>
    obtain ⟨h1, h2⟩ := ih (fun x hx => h x (by simp [hx]))
    have h0 := h e (by simp)
    unfold weightOf at *
    rw [List.filter_cons]
    split
    · simp only [List.map_cons, List.sum_cons]; constructor <;> linarith
    · simp only [List.map_cons, List.sum_cons]; constructor <;> linarith

/-- If only the first `k` have the property. -/
theorem weightOf_upto {L : List (ℚ × ℚ)} (h : ∀ e ∈ L, 0 ≤ e.2) (P : ℚ → Bool) (k : Nat) (hk : ∀ i, k ≤ i → (hi : i < L.length) → P L[i].1 = false) :
    weightOf L P ≤ ((L.take k).map (·.2)).sum := by
  have e : weightOf L P = weightOf (L.take k) P + weightOf (L.drop k) P := by rw [← weightOf_append, List.take_append_drop]
  have z : weightOf (L.drop k) P = 0 := by
    unfold weightOf
    rw [List.filter_eq_nil_iff.mpr]
    · simp
    · intro a ha
      obtain ⟨j, hj, rfl⟩ := List.getElem_of_mem ha
      rw [List.getElem_drop]
      rw [List.length_drop] at hj
      rw [hk (k + j) (by omega) (by omega)]
      simp
  rw [e, z, add_zero]
  exact (weightOf_le (fun x hx => h x (List.mem_of_mem_take hx)) P).1

/-- If the first `k` have the property. -/
theorem weightOf_from {L : List (ℚ × ℚ)} (h : ∀ e ∈ L, 0 ≤ e.2) (P : ℚ → Bool) (k : Nat) (hk : ∀ i, i < k → (hi : i < L.length) → P L[i].1 = true) :
    ((L.take k).map (·.2)).sum ≤ weightOf L P := by
  have e : weightOf L P = weightOf (L.take k) P + weightOf (L.drop k) P := by rw [← weightOf_append, List.take_append_drop]
  have z : weightOf (L.take k) P = ((L.take k).map (·.2)).sum := by
    unfold weightOf
    rw [List.filter_eq_self.mpr]
    intro a ha
    obtain ⟨j, hj, rfl⟩ := List.getElem_of_mem ha
    rw [List.getElem_take]
    rw [List.length_take] at hj
    exact hk j (by omega) (by omega)
  rw [e, z]
  have := (weightOf_le (fun x hx => h x (List.mem_of_mem_drop hx) : ∀ e ∈ L.drop k, 0 ≤ e.2) P).2
  linarith

/-- The distribution function of elements in order. -/
theorem cdf_spec {L : List (ℚ × ℚ)} (hne : L ≠ []) (hn : L.length ≤ 2 ^ 44) (h0 : ∀ e ∈ L, 0 ≤ e.2) (hpos : 0 < (L.map (·.2)).sum) {A B δ : ℚ} {f : ℚ → ℚ}
    (hf : Norm (L.map (·.2)) (L.map (·.2)).sum A B f) (hA : 0 ≤ A) (hB : 0 ≤ B) (h1 : A + L.length * B ≤ 1) (hδ : A + L.length * B + L.length * 2 ^ (-51 : ℤ) ≤ δ) :
    cumsum (fins ((L.map (·.2)).map f)) = fins (cumQ ((L.map (·.2)).map f)) ∧ Cdf (cumQ ((L.map (·.2)).map f)) ∧ (cumQ ((L.map (·.2)).map f)).length = L.length ∧
      ∀ i, i < L.length → |(cumQ ((L.map (·.2)).map f)).getD i 0 - ((L.take (i + 1)).map (·.2)).sum / (L.map (·.2)).sum| ≤ δ := by
  have hs := norm_sum hf (L.map (·.2)) (fun _ h => h)
  rw [div_self hpos.ne', mul_one, List.length_map] at hs
  obtain ⟨c1, c2, c3, c4⟩ := cum_spec ((L.map (·.2)).map f) (by simpa using hne) (fun v hv => by
      obtain ⟨w, h, rfl⟩ := List.mem_map.mp hv
      exact hf.dbl w h) (by simpa using hn) (by linarith [(abs_le.mp hs).2])
  refine ⟨c1, c2, by simpa using c3, fun i hi => ?_⟩
  have d1 := c4 i (by simpa using hi)
  have e : ((L.map (·.2)).map f).take (i + 1) = ((L.take (i + 1)).map (·.2)).map f := by rw [List.map_take, List.map_take]
  rw [e] at d1
  have d2 := norm_sum hf ((L.take (i + 1)).map (·.2)) (fun z hz => by
    obtain ⟨e, he, rfl⟩ := List.mem_map.mp hz
    exact List.mem_map.mpr ⟨e, List.mem_of_mem_take he, rfl⟩)
  have hle : ((L.take (i + 1)).map (·.2)).sum ≤ (L.map (·.2)).sum := by
    have h := weightOf_from h0 (fun _ => true) (i + 1) (fun _ _ _ => rfl)
    have h2 := (weightOf_le h0 (fun _ => true)).1
    linarith
  have hF1 : ((L.take (i + 1)).map (·.2)).sum / (L.map (·.2)).sum ≤ 1 := by rw [div_le_one hpos]; exact hle
  have hlen : (((L.take (i + 1)).map (·.2)).length : ℚ) ≤ L.length := by
    exact_mod_cast (by simp)
  have k1 := mul_le_mul_of_nonneg_right hlen hB
  have k2 := mul_le_mul_of_nonneg_left hF1 hA
  have hlen2 : ((((L.map (·.2)).map f).length : ℕ) : ℚ) = L.length := by simp
  rw [hlen2] at d1
  have tri := abs_add_le ((cumQ ((L.map (·.2)).map f)).getD i 0 - (((L.take (i + 1)).map (·.2)).map f).sum)
    ((((L.take (i + 1)).map (·.2)).map f).sum - ((L.take (i + 1)).map (·.2)).sum / (L.map (·.2)).sum)
  rw [sub_add_sub_cancel] at tri
  generalize (L.length : ℚ) * 2 ^ (-51 : ℤ) = z at *
  linarith

theorem map_getD {β : Type} (f : ℚ × ℚ → β) (d : β) (L : List (ℚ × ℚ)) {i : Nat} (h : i < L.length) : (L.map f).getD i d = f L[i] := by
  rw [getD_get _ _ (by simpa using h), List.getElem_map]

/-- The interpolation gives a quantile. -/
theorem quantile_core {L : List (ℚ × ℚ)} (hne : L ≠ []) (h0 : ∀ e ∈ L, 0 ≤ e.2) (hpos : 0 < (L.map (·.2)).sum) {cs : List ℚ} (hc : Cdf cs) (hl : cs.length = L.length) {M δ : ℚ}
    (hx : Data (L.map (·.1)) M) (hδ : ∀ i, i < L.length → |cs.getD i 0 - ((L.take (i + 1)).map (·.2)).sum / (L.map (·.2)).sum| ≤ δ) {p : ℚ} (hp : Usual p) :
    (0 ≤ p → IsQuantile L δ (slack M) p (valueW cs (L.map (·.1)) p)) ∧
    (p < 0 → valueW cs (L.map (·.1)) p ∈ L.map (·.1) ∧ ∀ e ∈ L, valueW cs (L.map (·.1)) p ≤ e.1) ∧
    (1 + δ < p → valueW cs (L.map (·.1)) p ∈ L.map (·.1) ∧ ∀ e ∈ L, e.1 ≤ valueW cs (L.map (·.1)) p) := by
  have hn : 0 < L.length := List.length_pos_iff.mpr hne
  have hk := count_le cs p
  obtain ⟨-, z1, z2, z3, z4⟩ := valueW_bracket hc hx (by rw [List.length_map, hl]) hp
  have g : ∀ i, (hi : i < L.length) → (L.map (·.1)).getD i 0 = L[i].1 := fun i hi => map_getD _ _ _ hi
  have mono : ∀ i j, (hij : i ≤ j) → (hj : j < L.length) → (L[i]'(by omega)).1 ≤ L[j].1 := by
    intro i j hij hj
    have := step_le hx.mono hij (by simpa using hj)
    rwa [g i (by omega), g j hj] at this
  have hM : 0 ≤ M := by
    have := (hx.dbl _ (getD_mem (L.map (·.1)) 0 (by simpa using hn))).2
    exact le_trans (abs_nonneg _) this
  have hsl := slack_nonneg hM
  have hδ0 : 0 ≤ δ := le_trans (abs_nonneg _) (hδ 0 hn)
  refine ⟨fun hp0 => ⟨?_, ?_, ?_, ?_⟩, fun hneg => ?_, fun hbig => ?_⟩
  · have h1 := weightOf_upto h0 (fun x => decide (x < valueW cs (L.map (·.1)) p - slack M)) (countLE cs p) (by
      intro i hi hiL
      have := z4 i hi (by omega)
      rw [g i hiL] at this
      simp only [decide_eq_false_iff_not, not_lt]
      linarith)
    refine le_trans h1 ?_
    rcases Nat.eq_zero_or_pos (countLE cs p) with k0 | k0
    · rw [k0]
      simp only [List.take_zero, List.map_nil, List.sum_nil]
      exact mul_nonneg (by linarith) hpos.le
    · have h2 := (abs_le.mp (hδ (countLE cs p - 1) (by omega))).1
      rw [show countLE cs p - 1 + 1 = countLE cs p by omega] at h2
      have h3 := (count_spec hc.mono p (i := countLE cs p - 1) (by omega)).mpr (by omega)
      rw [← div_le_iff₀ hpos]
      linarith
  · intro e he hr
    obtain ⟨i, hi, rfl⟩ := List.getElem_of_mem he
    have hki : countLE cs p ≤ i := by
      by_contra hlt
      have := z3 i (by omega)
      rw [g i hi] at this
      linarith
    have h1 := weightOf_from h0 (fun x => decide (x ≤ L[i].1)) (countLE cs p + 1) (by
      intro j hj hjL
      simp only [decide_eq_true_eq]
      exact mono j i (by omega) hi)
    refine le_trans ?_ h1
    have h2 := (abs_le.mp (hδ (countLE cs p) (by omega))).2
    have h3 : ¬ cs.getD (countLE cs p) 0 ≤ p := fun h => by
      have := (count_spec hc.mono p (i := countLE cs p) (by omega)).mp h
      omega
    rw [← le_div_iff₀ hpos]
    linarith
  · rcases Nat.eq_zero_or_pos (countLE cs p) with k0 | k0
    · exact ⟨L[0], List.getElem_mem hn, by rw [z1 k0, g 0 hn]⟩
    · have := z3 (countLE cs p - 1) (by omega)
      rw [g _ (by omega)] at this
      exact ⟨_, List.getElem_mem (by omega), this⟩
  · by_cases k1 : countLE cs p = cs.length
    · refine ⟨L[L.length - 1], List.getElem_mem (by omega), ?_⟩
      rw [z2 k1, hl, g _ (by omega)]
      linarith
    · have := z4 (countLE cs p) le_rfl (by omega)
      rw [g _ (by omega)] at this
      exact ⟨_, List.getElem_mem (by omega), this⟩
  · have k0 : countLE cs p = 0 := by
      by_contra hk0
      have h3 := (count_spec hc.mono p (i := 0) (by omega)).mpr (by omega)
      have := (hc.dbl _ (getD_mem cs 0 (by omega))).2.1
      linarith
    rw [z1 k0]
    refine ⟨getD_mem _ _ (by simpa using hn), fun e he => ?_⟩
    obtain ⟨i, hi, rfl⟩ := List.getElem_of_mem he
    rw [g 0 hn]
    exact mono 0 i (by omega) hi
  · have k1 : countLE cs p = cs.length := by
      have h2 := (abs_le.mp (hδ (L.length - 1) (by omega))).2
      rw [show L.length - 1 + 1 = L.length by omega, List.take_length, div_self hpos.ne'] at h2
      have := (count_spec hc.mono p (i := L.length - 1) (by omega)).mp (by linarith)
      omega
    rw [z2 k1, hl]
    refine ⟨getD_mem _ _ (by simp; omega), fun e he => ?_⟩
    obtain ⟨i, hi, rfl⟩ := List.getElem_of_mem he
    rw [g _ (by omega)]
    exact mono i _ (by omega) (by omega)


/-! ### The polyline that is followed -/

/-- `r` is the value at `p` of the polyline through the points `(cs i, xs i)`, constant beyond its ends. -/
def OnPolyline (cs xs : List ℚ) (p r : ℚ) : Prop :=
  (p < cs.getD 0 0 ∧ r = xs.getD 0 0) ∨ (cs.getD (cs.length - 1) 0 ≤ p ∧ r = xs.getD (cs.length - 1) 0) ∨
  ∃ i, i + 1 < cs.length ∧ cs.getD i 0 ≤ p ∧ p < cs.getD (i + 1) 0 ∧
    r = xs.getD i 0 + (xs.getD (i + 1) 0 - xs.getD i 0) / (cs.getD (i + 1) 0 - cs.getD i 0) * (p - cs.getD i 0)

theorem valueW_line {cs xs : List ℚ} {M : ℚ} (hc : Cdf cs) (hx : Data xs M) (hl : xs.length = cs.length) {p : ℚ} (hp : Usual p) :
    ∃ r0, OnPolyline cs xs p r0 ∧ |valueW cs xs p - r0| ≤ slack M := by
  have hn : 0 < cs.length := List.length_pos_iff.mpr hc.ne
  have hk := count_le cs p
  have hM : 0 ≤ M := le_trans (abs_nonneg _) (hx.dbl _ (getD_mem xs 0 (by omega))).2
  have hsl := slack_nonneg hM
  obtain ⟨-, z1, z2, -, -⟩ := valueW_bracket hc hx hl hp
  by_cases k0 : countLE cs p = 0
  · refine ⟨_, .inl ⟨?_, rfl⟩, by rw [z1 k0, sub_self, abs_zero]; exact hsl⟩
    rw [← not_le]
    intro h
    have := (count_spec hc.mono p hn).mp h
    omega
  · by_cases k1 : countLE cs p = cs.length
    · exact ⟨_, .inr (.inl ⟨(count_spec hc.mono p (by omega)).mpr (by omega), rfl⟩), by rw [z2 k1, sub_self, abs_zero]; exact hsl⟩
    · have hlt : p < cs.getD (countLE cs p) 0 := by
        rw [← not_le]
        intro h
        have := (count_spec hc.mono p (by omega)).mp h
        omega
      have hle := (count_spec hc.mono p (i := countLE cs p - 1) (by omega)).mpr (by omega)
      have es : countLE cs p - 1 + 1 = countLE cs p := by omega
      refine ⟨_, .inr (.inr ⟨countLE cs p - 1, by omega, hle, by rw [es]; exact hlt, rfl⟩), ?_⟩
      rw [es]
      by_cases k2 : cs.getD (countLE cs p - 1) 0 = p
      · have e : valueW cs xs p = xs.getD (countLE cs p - 1) 0 := by unfold valueW; rw [if_neg k0, if_neg k1, if_pos k2]
        rw [e, k2]
        simp only [sub_self, mul_zero, add_zero, abs_zero]
        exact hsl
      · rw [valueW_step k0 k1 k2]
        exact (interior_step hc hx hl hp k0 k1 k2).2

/-! ### The parts of numpy that are used -/

/-- What `np.argsort` returns on finite elements: each position once, in the order of the elements. -/
def IsArgsort (argsort : List Num → List Nat) : Prop :=
  ∀ xs : List ℚ, (argsort (fins xs)).Perm (List.range xs.length) ∧ ((argsort (fins xs)).map (fun i : Nat => xs.getD i 0)).Pairwise (· ≤ ·)

/-- The sum adds in some order, the sort sorts and the search finds. -/
structure Works (np : Np) : Prop where
  sum : IsSum np.sum
  argsort : IsArgsort np.argsort
  find : IsFind np.find

theorem takeAt_fins (xs : List ℚ) (idx : List Nat) (h : ∀ i ∈ idx, i < xs.length) : takeAt (fins xs) idx = fins (idx.map (fun i : Nat => xs.getD i 0)) := by
  unfold takeAt fins
  rw [List.map_map]
  apply List.map_congr_left
  intro i hi
  exact getD_fin xs i (h i hi)

/-- The elements with their weights in the order of the sort. -/
def inOrder (xs ws : List ℚ) (idx : List Nat) : List (ℚ × ℚ) := idx.map (fun i : Nat => (xs.getD i 0, ws.getD i 0))

theorem inOrder_perm {xs ws : List ℚ} (hl : ws.length = xs.length) {idx : List Nat} (h : idx.Perm (List.range xs.length)) : (inOrder xs ws idx).Perm (xs.zip ws) := by
  have e : inOrder xs ws (List.range xs.length) = xs.zip ws := by
    apply List.ext_getElem
    · simp [inOrder, hl]
    · intro i h1 h2
      have hi : i < xs.length := by simpa [inOrder] using h1
      simp only [inOrder, List.getElem_map, List.getElem_range, List.getElem_zip]
      rw [getD_get _ _ hi, getD_get _ _ (by omega)]
  rw [← e]
  exact h.map _

/-- The outcome of the weighted quantile: a double for every usual probability, on the polyline through the elements in order and their cumulated
weights up to `δ` and `ε`; hence a quantile, and monotone up to `ε`. -/
structure Outcome (L : List (ℚ × ℚ)) (δ ε : ℚ) (q : ℚ → ℚ) : Prop where
  dbl : ∀ p, Usual p → IsF (q p)
  line : ∃ (L' : List (ℚ × ℚ)) (cs : List ℚ), L'.Perm L ∧ (L'.map (·.1)).Pairwise (· ≤ ·) ∧ cs.length = L.length ∧ cs.Pairwise (· ≤ ·) ∧
    (∀ i, i < L.length → |cs.getD i 0 - ((L'.take (i + 1)).map (·.2)).sum / (L.map (·.2)).sum| ≤ δ) ∧
    ∀ p, Usual p → ∃ r0, OnPolyline cs (L'.map (·.1)) p r0 ∧ |q p - r0| ≤ ε
  quant : ∀ p, Usual p → 0 ≤ p → IsQuantile L δ ε p (q p)
  mono : ∀ p p', Usual p → Usual p' → p ≤ p' → q p ≤ q p' + ε
  low : ∀ p, Usual p → p < 0 → q p ∈ L.map (·.1) ∧ ∀ e ∈ L, q p ≤ e.1
  high : ∀ p, Usual p → 1 + δ < p → q p ∈ L.map (·.1) ∧ ∀ e ∈ L, e.1 ≤ q p

theorem withWeight_spec {np : Np} (h : Works np) {X W : List ℚ} (hl : W.length = X.length) (hne : X ≠ []) (hn : X.length ≤ 2 ^ 44) {M : ℚ}
    (hx : ∀ x ∈ X, IsF x ∧ |x| ≤ M) (hM : M ≤ 2 ^ 900) (h0 : ∀ w ∈ W, 0 ≤ w) (hpos : 0 < W.sum) {A B δ : ℚ} {f : ℚ → ℚ}
    (hf : Norm W W.sum A B f) (hA : 0 ≤ A) (hB : 0 ≤ B) (h1 : A + X.length * B ≤ 1) (hδ : A + X.length * B + X.length * 2 ^ (-51 : ℤ) ≤ δ)
    (sort : Bool) (hs : sort = true ∨ X.Pairwise (· ≤ ·)) :
    ∃ q : ℚ → ℚ, (∀ p, Usual p → withWeight np.argsort np.find sort (fins X) (fins (W.map f)) (.fin p) = .fin (q p)) ∧ Outcome (X.zip W) δ (slack M) q := by
  have main : ∀ L : List (ℚ × ℚ), L.Perm (X.zip W) → (L.map (·.1)).Pairwise (· ≤ ·) →
      (∀ p, withWeight np.argsort np.find sort (fins X) (fins (W.map f)) p = npInterp np.find p (cumsum (fins ((L.map (·.2)).map f))) (fins (L.map (·.1)))) →
      ∃ q : ℚ → ℚ, (∀ p, Usual p → withWeight np.argsort np.find sort (fins X) (fins (W.map f)) (.fin p) = .fin (q p)) ∧ Outcome (X.zip W) δ (slack M) q := by
    intro L hp hsorted he
    have eX : (X.zip W).map (·.1) = X := List.map_fst_zip (by omega)
    have eW : (X.zip W).map (·.2) = W := List.map_snd_zip (by omega)
    have hsum : (L.map (·.2)).sum = W.sum := by rw [(hp.map _).sum_eq, eW]
    have hlen : L.length = X.length := by rw [hp.length_eq]; simp [hl]
    have hLne : L ≠ [] := by
      intro e; rw [e] at hlen; exact hne (List.length_eq_zero_iff.mp hlen.symm)
    have hL0 : ∀ e ∈ L, 0 ≤ e.2 := fun e hm => h0 _ (by rw [← eW]; exact List.mem_map.mpr ⟨e, hp.mem_iff.mp hm, rfl⟩)
    have memW : ∀ w ∈ L.map (·.2), w ∈ W := fun w hw => by rw [← eW]; exact (hp.map _).mem_iff.mp hw
    have memX : ∀ x ∈ L.map (·.1), x ∈ X := fun w hw => by rw [← eX]; exact (hp.map _).mem_iff.mp hw
    have hd : Data (L.map (·.1)) M := ⟨hsorted, fun x hm => hx x (memX x hm), hM⟩
    have hfL : Norm (L.map (·.2)) (L.map (·.2)).sum A B f := by
      rw [hsum]
      exact ⟨fun w hw => hf.dbl w (memW w hw), fun w hw => hf.err w (memW w hw)⟩
    have hposL : 0 < (L.map (·.2)).sum := by rw [hsum]; exact hpos
    obtain ⟨c1, c2, c3, c4⟩ := cdf_spec hLne (by rw [hlen]; exact hn) hL0 hposL hfL hA hB (by rw [hlen]; exact h1) (δ := δ) (by rw [hlen]; exact hδ)
    generalize cumQ ((L.map (·.2)).map f) = cs at *
    have hll : (L.map (·.1)).length = cs.length := by rw [c3, List.length_map]
    refine ⟨valueW cs (L.map (·.1)), fun p hu => ?_, ?_⟩
    · rw [he, c1]
      exact npInterp_fin h.find c2 hd hll hu
    · have core := fun p (hu : Usual p) => quantile_core hLne hL0 hposL c2 c3 hd c4 hu
      have hLz : (X.zip W).length = L.length := hp.length_eq.symm
      refine ⟨fun p hu => (valueW_bracket c2 hd hll hu).1, ⟨L, cs, hp, hsorted, by rw [c3, hLz], c2.mono, ?_, fun p hu => valueW_line c2 hd hll hu⟩,
        fun p hu hp0 => isQuantile_perm hp ((core p hu).1 hp0), fun p p' hu hu' hle => valueW_mono c2 hd hll hu hu' hle, fun p hu hneg => ?_, fun p hu hbig => ?_⟩
      · intro i hi
        rw [← (hp.map _).sum_eq]
        exact c4 i (by omega)
      · obtain ⟨m1, m2⟩ := (core p hu).2.1 hneg
        exact ⟨(hp.map _).mem_iff.mp m1, fun e hm => m2 e (hp.mem_iff.mpr hm)⟩
      · obtain ⟨m1, m2⟩ := (core p hu).2.2 hbig
        exact ⟨(hp.map _).mem_iff.mp m1, fun e hm => m2 e (hp.mem_iff.mpr hm)⟩
  cases sort with
  | true =>
    obtain ⟨a1, a2⟩ := h.argsort X
    have hidx : ∀ i ∈ np.argsort (fins X), i < X.length := fun i hi => by simpa using a1.mem_iff.mp hi
    refine main (inOrder X W (np.argsort (fins X))) (inOrder_perm hl a1) ?_ ?_
    · simpa [inOrder, Function.comp_def] using a2
    · intro p
      unfold withWeight
      rw [if_pos rfl, takeAt_fins X _ hidx, takeAt_fins (W.map f) _ (by simpa [hl] using hidx)]
      have e1 : (np.argsort (fins X)).map (fun i : Nat => (W.map f).getD i 0) = ((inOrder X W (np.argsort (fins X))).map (·.2)).map f := by
        unfold inOrder
        rw [List.map_map, List.map_map]
        apply List.map_congr_left
        intro i hi
        have : i < W.length := by rw [hl]; exact hidx i hi
        rw [getD_get _ _ (by simpa using this)]
        simp only [List.getElem_map, Function.comp]
        rw [getD_get _ _ this]
      have e2 : (np.argsort (fins X)).map (fun i : Nat => X.getD i 0) = (inOrder X W (np.argsort (fins X))).map (·.1) := by
        simp [inOrder, Function.comp_def]
      rw [e1, e2]
  | false =>
    have hso : X.Pairwise (· ≤ ·) := by
      rcases hs with e | e
      · cases e
      · exact e
    have eX : (X.zip W).map (·.1) = X := List.map_fst_zip (by omega)
    have eW : (X.zip W).map (·.2) = W := List.map_snd_zip (by omega)
    refine main (X.zip W) (List.Perm.refl _) (by rw [eX]; exact hso) ?_
    intro p
    unfold withWeight
    rw [eX, eW]
    rfl

/-! ### The reductions -/

/-- The kept elements with their weights. -/
def elements (xs ws : List ℚ) (mask : Option (List Bool)) : List (ℚ × ℚ) := kept (xs.zip ws) mask

/-- What the theorems suppose of the data: as many weights as elements; among the kept elements at most 2^44 doubles not larger than `M` in size, with weights that
are not negative, not all zero, and do not overflow when added up. -/
structure Weighted (xs ws : List ℚ) (mask : Option (List Bool)) (M : ℚ) : Prop where
  len : ws.length = xs.length
  fits : Fits mask xs.length
  few : (elements xs ws mask).length ≤ 2 ^ 44
  data : ∀ e ∈ elements xs ws mask, IsF e.1 ∧ |e.1| ≤ M
  big : M ≤ 2 ^ 900
  weights : ∀ e ∈ elements xs ws mask, IsF e.2 ∧ 0 ≤ e.2
  pos : 0 < ((elements xs ws mask).map (·.2)).sum
  fin : ((elements xs ws mask).map (·.2)).sum ≤ 2 ^ 1021

theorem kept_fst (xs ws : List ℚ) (hl : ws.length = xs.length) (mask : Option (List Bool)) : (elements xs ws mask).map (·.1) = kept xs mask := by
  unfold elements
  rw [← kept_map]
  congr 1
  exact List.map_fst_zip (by omega)

theorem elements_zip (xs ws : List ℚ) (hl : ws.length = xs.length) (mask : Option (List Bool)) : (kept xs mask).zip (kept ws mask) = elements xs ws mask := by
  rw [← kept_fst xs ws hl, ← kept_snd xs ws hl]
  show List.zip ((elements xs ws mask).map (·.1)) ((elements xs ws mask).map (·.2)) = _
  generalize elements xs ws mask = L
  induction L with
  | nil => rfl
  | cons a t ih => simp only [List.map_cons, List.zip_cons_cons, ih]

/-- The hypotheses for the kept lists. -/
theorem weighted_lists {xs ws : List ℚ} {mask : Option (List Bool)} {M : ℚ} (h : Weighted xs ws mask M) :
    (kept ws mask).length = (kept xs mask).length ∧ kept xs mask ≠ [] ∧ (kept xs mask).length = (elements xs ws mask).length ∧ (∀ x ∈ kept xs mask, IsF x ∧ |x| ≤ M) ∧
      (∀ w ∈ kept ws mask, IsF w ∧ 0 ≤ w) ∧ 0 < (kept ws mask).sum ∧ (kept ws mask).sum ≤ 2 ^ 1021 := by
  have e1 := kept_fst xs ws h.len mask
  have e2 : (elements xs ws mask).map (·.2) = kept ws mask := kept_snd xs ws h.len mask
  have l1 : (kept xs mask).length = (elements xs ws mask).length := by rw [← e1, List.length_map]
  have l2 : (kept ws mask).length = (elements xs ws mask).length := by rw [← e2, List.length_map]
  refine ⟨by omega, ?_, l1, ?_, ?_, ?_, ?_⟩
  · intro e
    rw [e] at l1
    have : elements xs ws mask = [] := List.length_eq_zero_iff.mp l1.symm
    have hp := h.pos
    rw [this] at hp
    simp at hp
  · intro x hx
    rw [← e1] at hx
    obtain ⟨e, he, rfl⟩ := List.mem_map.mp hx
    exact h.data e he
  · intro x hx
    rw [← e2] at hx
    obtain ⟨e, he, rfl⟩ := List.mem_map.mp hx
    exact h.weights e he
  · rw [← e2]; exact h.pos
  · rw [← e2]; exact h.fin

theorem tiny_n {n : Nat} (hn : n ≤ 2 ^ 44) {k : ℤ} (hk : k ≤ -51) : (n : ℚ) * 2 ^ k ≤ n * 2 ^ (-51 : ℤ) :=
  mul_le_mul_of_nonneg_left (zpow_le_zpow_right₀ (by norm_num) hk) (Nat.cast_nonneg _)

theorem bound_one {n : Nat} (hn : n ≤ 2 ^ 44) :
    (n : ℚ) * 2 ^ (-51 : ℤ) + n * 2 ^ (-1075 : ℤ) ≤ 1 ∧ (n : ℚ) * 2 ^ (-51 : ℤ) + n * 2 ^ (-1075 : ℤ) + n * 2 ^ (-51 : ℤ) ≤ n * 2 ^ (-49 : ℤ) := by
  have h1 := small_n hn
  have h2 := tiny_n hn (k := -1075) (by norm_num)
  have h3 : (n : ℚ) * 2 ^ (-49 : ℤ) = 4 * (n * 2 ^ (-51 : ℤ)) := by rw [show (2 : ℚ) ^ (-49 : ℤ) = 4 * 2 ^ (-51 : ℤ) by norm_num]; ring
  have h0 : 0 ≤ (n : ℚ) * 2 ^ (-51 : ℤ) := mul_nonneg (Nat.cast_nonneg _) (pow_pos' _).le
  rw [h3]
  generalize (n : ℚ) * 2 ^ (-51 : ℤ) = z at *
  generalize (n : ℚ) * 2 ^ (-1075 : ℤ) = y at *
  exact ⟨by linarith, by linarith⟩

theorem bound_two {n : Nat} (hn : n ≤ 2 ^ 44) :
    (n : ℚ) * 2 ^ (-47 : ℤ) + n * 2 ^ (-1073 : ℤ) ≤ 1 ∧ (n : ℚ) * 2 ^ (-47 : ℤ) + n * 2 ^ (-1073 : ℤ) + n * 2 ^ (-51 : ℤ) ≤ n * 2 ^ (-46 : ℤ) := by
  have h1 := small_n hn
  have h2 := tiny_n hn (k := -1073) (by norm_num)
  have h3 : (n : ℚ) * 2 ^ (-46 : ℤ) = 32 * (n * 2 ^ (-51 : ℤ)) := by rw [show (2 : ℚ) ^ (-46 : ℤ) = 32 * 2 ^ (-51 : ℤ) by norm_num]; ring
  have h4 : (n : ℚ) * 2 ^ (-47 : ℤ) = 16 * (n * 2 ^ (-51 : ℤ)) := by rw [show (2 : ℚ) ^ (-47 : ℤ) = 16 * 2 ^ (-51 : ℤ) by norm_num]; ring
  have h0 : 0 ≤ (n : ℚ) * 2 ^ (-51 : ℤ) := mul_nonneg (Nat.cast_nonneg _) (pow_pos' _).le
  rw [h3, h4]
  generalize (n : ℚ) * 2 ^ (-51 : ℤ) = z at *
  generalize (n : ℚ) * 2 ^ (-1073 : ℤ) = y at *
  exact ⟨by linarith, by linarith⟩

/-- C139: weighted quantiles in double precision. -/
theorem C139_quantile {np : Np} (h : Works np) {xs ws : List ℚ} {mask : Option (List Bool)} {M : ℚ} (hw : Weighted xs ws mask M) (sort : Bool)
    (hs : sort = true ∨ (kept xs mask).Pairwise (· ≤ ·)) (fill : Num) :
    ∃ q : ℚ → ℚ, (∀ ps : List ℚ, (∀ p ∈ ps, Usual p) → quantile1 np (fins ps) sort fill (fins xs) (some (fins ws)) mask = .ok (fins (ps.map q))) ∧
      Outcome (elements xs ws mask) ((elements xs ws mask).length * 2 ^ (-49 : ℤ)) (slack M) q := by
  obtain ⟨l1, l2, l3, l4, l5, l6, l7⟩ := weighted_lists hw
  have few := hw.few
  rw [← l3] at few ⊢
  rw [← elements_zip xs ws hw.len]
  obtain ⟨f, f1, f2⟩ := normalise_spec h.sum (kept ws mask) l5 (by omega) l6 l7
  rw [l1] at f2
  obtain ⟨b1, b2⟩ := bound_one few
  obtain ⟨q, q1, q2⟩ := withWeight_spec h l1 l2 few l4 hw.big (fun w hm => (l5 w hm).2) l6 f2 (mul_nonneg (Nat.cast_nonneg _) (pow_pos' _).le) (pow_pos' _).le b1 b2 sort hs
  refine ⟨q, fun ps hps => ?_, q2⟩
  unfold quantile1
  rw [sel_fins, FloatLinear.fins_length, if_neg (fun e => l2 (List.length_eq_zero_iff.mp e))]
  dsimp only
  rw [sel_fins, f1]
  refine congrArg Except.ok ?_
  show (ps.map Num.fin).map _ = (ps.map q).map Num.fin
  rw [List.map_map, List.map_map]
  exact List.map_congr_left (fun p hp => q1 p (hps p hp))

theorem usual_half : Usual (1 / 2) := ⟨half_isF, .inr (by norm_num)⟩

/-- C139: the weighted median in double precision. -/
theorem C139_median {np : Np} (h : Works np) {xs ws : List ℚ} {mask : Option (List Bool)} {M : ℚ} (hw : Weighted xs ws mask M) (sort : Bool)
    (hs : sort = true ∨ (kept xs mask).Pairwise (· ≤ ·)) (fill : Num) :
    ∃ r : ℚ, median1 np sort fill (fins xs) (some (fins ws)) mask = .fin r ∧ IsF r ∧
      IsQuantile (elements xs ws mask) ((elements xs ws mask).length * 2 ^ (-46 : ℤ)) (slack M) (1 / 2) r := by
  obtain ⟨l1, l2, l3, l4, l5, l6, l7⟩ := weighted_lists hw
  have few := hw.few
  rw [← l3] at few ⊢
  rw [← elements_zip xs ws hw.len]
  have l5' : ∀ w ∈ kept ws mask, 0 ≤ w := fun w hm => (l5 w hm).2
  obtain ⟨f, f1, f2⟩ := normalise_spec h.sum (kept ws mask) l5 (by omega) l6 l7
  obtain ⟨g, g1, g2⟩ := normalise_again h.sum (kept ws mask) l5' (by omega) l6 f2
  rw [l1] at g2
  obtain ⟨b1, b2⟩ := bound_two few
  obtain ⟨q, q1, q2⟩ := withWeight_spec h l1 l2 few l4 hw.big l5' l6 g2 (mul_nonneg (Nat.cast_nonneg _) (pow_pos' _).le) (pow_pos' _).le b1 b2 sort hs
  refine ⟨q (1 / 2), ?_, q2.dbl _ usual_half, q2.quant _ usual_half (by norm_num)⟩
  unfold median1
  rw [sel_fins, FloatLinear.fins_length, if_neg (fun e => l2 (List.length_eq_zero_iff.mp e))]
  dsimp only
  rw [sel_fins, f1, g1, List.map_map]
  exact q1 _ usual_half

theorem outcome_bound {L : List (ℚ × ℚ)} {δ M : ℚ} {q : ℚ → ℚ} (h : Outcome L δ (slack M) q) (hd : ∀ e ∈ L, |e.1| ≤ M) {p : ℚ} (hp : Usual p) (hp0 : 0 ≤ p) :
    |q p| ≤ M + slack M := by
  obtain ⟨e, e1, e2⟩ := (h.quant p hp hp0).lower
  obtain ⟨e', e1', e2'⟩ := (h.quant p hp hp0).upper
  have a := abs_le.mp (hd e e1)
  have b := abs_le.mp (hd e' e1')
  have := slack_nonneg (le_trans (abs_nonneg _) (hd e e1))
  rw [abs_le]
  constructor <;> linarith [a.1, b.2]

theorem slack_big {M : ℚ} (h0 : 0 ≤ M) (h : M ≤ 2 ^ 900) : M + slack M ≤ 2 ^ 1021 := by
  have h1 : slack M ≤ M + 1 := by
    unfold slack
    have a : (2 : ℚ) ^ (-48 : ℤ) * M ≤ 1 * M := mul_le_mul_of_nonneg_right (by norm_num) h0
    have b : (2 : ℚ) ^ (-1072 : ℤ) ≤ 1 := by rw [← zpow_zero 2]; exact zpow_le_zpow_right₀ (by norm_num) (by norm_num)
    exact le_trans (add_le_add a b) (by rw [one_mul])
  have h2 : (1 : ℚ) ≤ 2 ^ 900 := one_le_pow₀ (by norm_num)
  have h3 : (2 : ℚ) ^ 902 = 2 ^ 900 + 2 ^ 900 + 2 ^ 900 + 2 ^ 900 := by
    rw [show 902 = 900 + 2 from rfl, pow_add]; ring
  have h4 : (2 : ℚ) ^ 902 ≤ 2 ^ 1021 := pow_le_pow_right₀ (by norm_num) (by norm_num)
  refine le_trans ?_ h4
  rw [h3]
  clear h3 h4
  generalize (2 : ℚ) ^ 900 = z at *
  linarith

/-- A rounded difference that is hardly negative. -/
theorem diff_ge {a b ε : ℚ} (fa : IsF a) (fb : IsF b) (h0 : 0 ≤ ε) (h : b ≤ a + ε) : -(2 * ε) ≤ rnd (a - b) := by
  rcases le_or_gt b a with hle | hlt
  · have := rnd_nonneg (sub_nonneg.mpr hle)
    linarith
  · have e := rnd_sub_err fa fb
    rw [abs_of_neg (by linarith : a - b < 0)] at e
    have hu : (2 : ℚ) ^ (-53 : ℤ) * -(a - b) ≤ 1 * -(a - b) := mul_le_mul_of_nonneg_right (by norm_num) (by linarith)
    have := (abs_le.mp e).1
    linarith

/-- C139: error bars with weights: the centre and the two ends are the quantiles at one half and in the two tails, the errors are the rounded distances: finite, and
negative at most by the rounding of the interpolation. -/
theorem C139_errorbar {np : Np} (h : Works np) {xs ws : List ℚ} {mask : Option (List Bool)} {M : ℚ} (hw : Weighted xs ws mask M) (reduce : String) (t : ℚ)
    (ht : tail reduce = some t) (fill : Num) :
    ∃ lo med hi eLo eHi : ℚ, quantile1 np [ofQ t, .fin (1 / 2), ofQ (1 - t)] true fill (fins xs) (some (fins ws)) mask = .ok [.fin lo, .fin med, .fin hi] ∧
      errorbar np reduce fill (fins xs) (some (fins ws)) mask = .ok (.fin med, .fin eLo, .fin eHi) ∧
      IsQuantile (elements xs ws mask) ((elements xs ws mask).length * 2 ^ (-49 : ℤ)) (slack M) (rnd t) lo ∧
      IsQuantile (elements xs ws mask) ((elements xs ws mask).length * 2 ^ (-49 : ℤ)) (slack M) (1 / 2) med ∧
      IsQuantile (elements xs ws mask) ((elements xs ws mask).length * 2 ^ (-49 : ℤ)) (slack M) (rnd (1 - t)) hi ∧
      lo ≤ med + slack M ∧ med ≤ hi + slack M ∧ -(2 * slack M) ≤ eLo ∧ -(2 * slack M) ≤ eHi ∧
      |eLo - (med - lo)| ≤ 2 ^ (-53 : ℤ) * |med - lo| ∧ |eHi - (hi - med)| ≤ 2 ^ (-53 : ℤ) * |hi - med| := by
  obtain ⟨q, q1, q2⟩ := C139_quantile h hw true (.inl rfl) fill
  have hM : 0 ≤ M := by
    have hne := (weighted_lists hw).2.1
    obtain ⟨x, l, e⟩ := List.exists_cons_of_ne_nil hne
    exact le_trans (abs_nonneg _) ((weighted_lists hw).2.2.2.1 x (by rw [e]; simp)).2
  have hsl := slack_nonneg hM
  have bd : ∀ p, Usual p → 0 ≤ p → |q p| ≤ 2 ^ 1021 := fun p hp hp0 => le_trans (outcome_bound q2 (fun e he => (hw.data e he).2) hp hp0) (slack_big hM hw.big)
  have hkey : ∀ a b : ℚ, ofQ a = .fin (rnd a) → ofQ b = .fin (rnd b) → 2 ^ (-60 : ℤ) ≤ rnd a → rnd a ≤ 1 / 2 → 1 / 2 ≤ rnd b →
      psMap.lookup reduce = some [ofQ a, .fin (1 / 2), ofQ b] →
      ∃ lo med hi eLo eHi : ℚ, quantile1 np [ofQ a, .fin (1 / 2), ofQ b] true fill (fins xs) (some (fins ws)) mask = .ok [.fin lo, .fin med, .fin hi] ∧
      errorbar np reduce fill (fins xs) (some (fins ws)) mask = .ok (.fin med, .fin eLo, .fin eHi) ∧
      IsQuantile (elements xs ws mask) ((elements xs ws mask).length * 2 ^ (-49 : ℤ)) (slack M) (rnd a) lo ∧
      IsQuantile (elements xs ws mask) ((elements xs ws mask).length * 2 ^ (-49 : ℤ)) (slack M) (1 / 2) med ∧
      IsQuantile (elements xs ws mask) ((elements xs ws mask).length * 2 ^ (-49 : ℤ)) (slack M) (rnd b) hi ∧
      lo ≤ med + slack M ∧ med ≤ hi + slack M ∧ -(2 * slack M) ≤ eLo ∧ -(2 * slack M) ≤ eHi ∧
      |eLo - (med - lo)| ≤ 2 ^ (-53 : ℤ) * |med - lo| ∧ |eHi - (hi - med)| ≤ 2 ^ (-53 : ℤ) * |hi - med| := by
    intro a b ea eb h1 h2 h3 hl
    have p60 : (0 : ℚ) < 2 ^ (-60 : ℤ) := pow_pos' _
    have ua : Usual (rnd a) := ⟨isF_rnd _, .inr h1⟩
    have ub : Usual (rnd b) := ⟨isF_rnd _, .inr (le_trans (by norm_num) h3)⟩
    have a0 : 0 ≤ rnd a := le_trans p60.le h1
    have b0 : 0 ≤ rnd b := le_trans (by norm_num) h3
    have hq := q1 [rnd a, 1 / 2, rnd b] (by
      intro p hp
      simp only [List.mem_cons, List.not_mem_nil, or_false] at hp
      rcases hp with rfl | rfl | rfl
      · exact ua
      · exact usual_half
      · exact ub)
    simp only [fins, List.map_cons, List.map_nil] at hq
    rw [← ea, ← eb] at hq
    have m1 := q2.mono _ _ ua usual_half h2
    have m2 := q2.mono _ _ usual_half ub h3
    have fl := q2.dbl _ ua
    have fm := q2.dbl _ usual_half
    have fh := q2.dbl _ ub
    refine ⟨_, _, _, rnd (q (1 / 2) - q (rnd a)), rnd (q (rnd b) - q (1 / 2)), hq, ?_, q2.quant _ ua a0, q2.quant _ usual_half (by norm_num), q2.quant _ ub b0, m1, m2,
      diff_ge fm fl hsl m1, diff_ge fh fm hsl m2, rnd_sub_err fm fl, rnd_sub_err fh fm⟩
    unfold errorbar
    rw [hl]
    dsimp only
    rw [show fins xs = xs.map Num.fin from rfl, show fins ws = ws.map Num.fin from rfl, hq]
    dsimp only
    rw [sub_fin (FloatLinear.le22 (bd _ usual_half (by norm_num))) (FloatLinear.le22 (bd _ ua a0)),
      sub_fin (FloatLinear.le22 (bd _ ub b0)) (FloatLinear.le22 (bd _ usual_half (by norm_num)))]
  unfold tail at ht
  split at ht
  · injection ht with ht; subst ht
    exact hkey _ _ (by decide +kernel) (by decide +kernel) (by decide +kernel) (by decide +kernel) (by decide +kernel) (by decide +kernel)
  · injection ht with ht; subst ht
    exact hkey _ _ (by decide +kernel) (by decide +kernel) (by decide +kernel) (by decide +kernel) (by decide +kernel) (by decide +kernel)
  · injection ht with ht; subst ht
    exact hkey _ _ (by decide +kernel) (by decide +kernel) (by decide +kernel) (by decide +kernel) (by decide +kernel) (by decide +kernel)
  · cases ht

/-! ### Special cases -/

theorem npInterp_one (find : Num → List Num → Int) (p c x : Num) : npInterp find p [c] [x] = x := by
  unfold npInterp
  rw [if_pos (show [c].length = 1 from rfl)]
  rfl

/-- C139: if one element is kept, the result is that element, whatever the probability (negative, above one or NaN), the weight (zero, negative, NaN) and the
element (NaN too), provided that the sort leaves one element alone. -/
theorem C139_one (np : Np) (x w : List Num) (mask : Option (List Bool)) (a b : Num) (hx : kept x mask = [a]) (hw : kept w mask = [b]) (sort : Bool)
    (hs : sort = true → np.argsort [a] = [0]) (ps : List Num) (fill : Num) :
    quantile1 np ps sort fill x (some w) mask = .ok (ps.map (fun _ => a)) ∧ median1 np sort fill x (some w) mask = a := by
  have one : ∀ v p, withWeight np.argsort np.find sort [a] [v] p = a := by
    intro v p
    unfold withWeight
    split
    · rename_i h
      rw [hs h]
      exact npInterp_one _ _ _ _
    · exact npInterp_one _ _ _ _
  have e1 : sel x mask = [a] := hx
  have e2 : sel w mask = [b] := hw
  constructor
  · unfold quantile1
    rw [e1, if_neg (by simp)]
    dsimp only
    rw [e2]
    refine congrArg Except.ok (List.map_congr_left (fun p _ => ?_))
    exact one _ p
  · unfold median1
    rw [e1, if_neg (by simp)]
    dsimp only
    rw [e2]
    exact one _ _

theorem sub_nan (a : Num) : Num.sub a .nan = .nan := by cases a <;> rfl

theorem mul_nan (a : Num) : Num.mul a .nan = .nan := by cases a <;> rfl

theorem accum_nan (s : Num) (n : Nat) : accum s (List.replicate n .nan) = List.replicate n .nan := by
  induction n generalizing s with
  | zero => rfl
  | succ n ih =>
    rw [List.replicate_succ]
    show Num.add s .nan :: accum (Num.add s .nan) (List.replicate n .nan) = _
    rw [ih]
    congr 1
    cases s <;> rfl

theorem cumsum_nan (n : Nat) : cumsum (List.replicate n .nan) = List.replicate n .nan := by
  cases n with
  | zero => rfl
  | succ n =>
    rw [List.replicate_succ]
    show Num.nan :: accum .nan (List.replicate n .nan) = _
    rw [accum_nan]

theorem npInterp_nan (find : Num → List Num → Int) (p : Num) (fp : List Num) (hne : fp ≠ []) :
    npInterp find p (List.replicate fp.length .nan) fp = .nan ∨ npInterp find p (List.replicate fp.length .nan) fp ∈ fp := by
  have hn : 0 < fp.length := List.length_pos_iff.mpr hne
  have hhead : fp.headD .nan ∈ fp := by
    cases fp with
    | nil => exact absurd rfl hne
    | cons a t => simp
  have hlast : fp.getLastD .nan ∈ fp := by
    rw [List.getLastD_eq_getLast?, List.getLast?_eq_some_getLast hne]
    exact List.getLast_mem hne
  have hx : ∀ i, (List.replicate fp.length Num.nan).getD i .nan = .nan := by
    intro i
    rw [List.getD_eq_getElem?_getD, List.getElem?_replicate]
    split <;> rfl
  unfold npInterp
  rw [List.length_replicate]
  split
  · exact .inr hhead
  · split
    · exact .inl rfl
    · dsimp only
      generalize find p (List.replicate fp.length .nan) = j
      split
      · exact .inr hhead
      · split
        · exact .inr hlast
        · rename_i h1 h2 h3 h4
          rw [hx, hx, if_neg (fun e => h2 e.symm), sub_nan, sub_nan, mul_nan]
          rw [show Num.add Num.nan (fp.getD j.toNat .nan) = .nan from rfl, if_pos rfl, show Num.add Num.nan (fp.getD (j.toNat + 1) .nan) = .nan from rfl]
          split
          · right
            have hj : j.toNat < fp.length := by omega
            rw [getD_get _ _ hj]
            exact List.getElem_mem hj
          · exact .inl rfl

theorem sum_zero {sum : List Num → Num} (hs : IsSum sum) (n : Nat) : sum (List.replicate n (.fin 0)) = .fin 0 := by
  obtain ⟨t, h1, h2⟩ := hs (List.replicate n (.fin 0))
  rw [h2]
  rw [List.length_replicate] at h1
  have : ∀ t : Order, (∀ i ∈ t.leaves, i < n) → t.eval (List.replicate n (.fin 0)) = .fin 0 := by
    intro t
    induction t with
    | zero => intro _; rfl
    | leaf i =>
      intro h
      have : i < n := h i (by simp [Order.leaves])
      show (List.replicate n (Num.fin 0)).getD i .nan = _
      rw [getD_get _ _ (by simpa using this)]
      simp
    | node a b iha ihb =>
      intro h
      show Num.add (a.eval _) (b.eval _) = _
      rw [iha (fun i hi => h i (by simp [Order.leaves, hi])), ihb (fun i hi => h i (by simp [Order.leaves, hi]))]
      decide +kernel
  exact this t (fun i hi => by simpa using h1.mem_iff.mp hi)

/-- C139: if the kept weights are all zero, every result is NaN or one of the kept elements, whatever the search does. -/
theorem C139_zero_weights {np : Np} (hs : IsSum np.sum) (ha : IsArgsort np.argsort) (xs ws : List ℚ) (mask : Option (List Bool)) (hl : ws.length = xs.length) (hne : kept xs mask ≠ [])
    (hz : ∀ w ∈ kept ws mask, w = 0) (sort : Bool) (fill : Num) :
    (∀ ps : List Num, ∃ rs, quantile1 np ps sort fill (fins xs) (some (fins ws)) mask = .ok rs ∧ rs.length = ps.length ∧ ∀ r ∈ rs, r = .nan ∨ ∃ x ∈ kept xs mask, r = .fin x) ∧
    (median1 np sort fill (fins xs) (some (fins ws)) mask = .nan ∨ ∃ x ∈ kept xs mask, median1 np sort fill (fins xs) (some (fins ws)) mask = .fin x) := by
  have hlen : (kept ws mask).length = (kept xs mask).length := by
    have e1 := kept_fst xs ws hl mask
    have e2 : (elements xs ws mask).map (·.2) = kept ws mask := kept_snd xs ws hl mask
    rw [← e1, ← e2, List.length_map, List.length_map]
  have ew : fins (kept ws mask) = List.replicate (kept xs mask).length (.fin 0) := by
    rw [← hlen, List.eq_replicate_iff]
    refine ⟨FloatLinear.fins_length _, fun b hb => ?_⟩
    obtain ⟨w, h, rfl⟩ := List.mem_map.mp hb
    rw [hz w h]
  generalize hW : (kept ws mask) = W at *
  generalize hX : (kept xs mask) = X at *
  have norm0 : normalise np.sum (List.replicate X.length (.fin 0)) = List.replicate X.length .nan := by
    unfold normalise
    rw [sum_zero hs, List.map_replicate]
    congr 1
  have core : ∀ v : List Num, v = List.replicate X.length .nan → ∀ p, withWeight np.argsort np.find sort (fins X) v p = .nan ∨
      ∃ x ∈ X, withWeight np.argsort np.find sort (fins X) v p = .fin x := by
    intro v hv p
    have mem : ∀ Y : List ℚ, (∀ y ∈ Y, y ∈ X) → Y ≠ [] → npInterp np.find p (List.replicate Y.length .nan) (fins Y) = .nan ∨
        ∃ x ∈ X, npInterp np.find p (List.replicate Y.length .nan) (fins Y) = .fin x := by
      intro Y hY hYne
      have := npInterp_nan np.find p (fins Y) (fun e => hYne (by simpa [fins] using e))
      rw [FloatLinear.fins_length] at this
      rcases this with h | h
      · exact .inl h
      · obtain ⟨x, hx, e⟩ := List.mem_map.mp h
        exact .inr ⟨x, hY x hx, e.symm⟩
    unfold withWeight
    rw [hv]
    cases sort with
    | true =>
      rw [if_pos rfl]
      obtain ⟨a1, -⟩ := ha X
      have hidx : ∀ i ∈ np.argsort (fins X), i < X.length := fun i hi => by simpa using a1.mem_iff.mp hi
      have hil : (np.argsort (fins X)).length = X.length := by simpa using a1.length_eq
      have et : takeAt (List.replicate X.length .nan) (np.argsort (fins X)) = List.replicate ((np.argsort (fins X)).map (fun i : Nat => X.getD i 0)).length .nan := by
        rw [List.length_map, List.eq_replicate_iff]
        refine ⟨by simp [takeAt], fun b hb => ?_⟩
        obtain ⟨i, hi, rfl⟩ := List.mem_map.mp hb
        rw [List.getD_eq_getElem?_getD, List.getElem?_replicate]
        split <;> rfl
      rw [et, takeAt_fins X _ hidx, cumsum_nan]
      refine mem _ ?_ ?_
      · intro y hy
        obtain ⟨i, hi, rfl⟩ := List.mem_map.mp hy
        exact getD_mem X i (hidx i hi)
      · intro e
        have : ((np.argsort (fins X)).map (fun i : Nat => X.getD i 0)).length = 0 := by rw [e]; rfl
        rw [List.length_map, hil] at this
        exact hne (List.length_eq_zero_iff.mp this)
    | false =>
      rw [if_neg (by simp), cumsum_nan]
      exact mem X (fun y h => h) hne
  have hn0 : ¬ (fins X).length = 0 := by
    rw [FloatLinear.fins_length]
    exact fun e => hne (List.length_eq_zero_iff.mp e)
  have s1 : sel (fins xs) mask = fins X := by rw [sel_fins, hX]
  have s2 : normalise np.sum (sel (fins ws) mask) = List.replicate X.length .nan := by rw [sel_fins, hW, ew, norm0]
  have s3 : normalise np.sum (List.replicate X.length .nan) = List.replicate X.length .nan := by
    unfold normalise
    rw [List.map_replicate]
    rfl
  refine ⟨fun ps => ⟨ps.map (withWeight np.argsort np.find sort (fins X) (List.replicate X.length .nan)), ?_, ?_, ?_⟩, ?_⟩
  · unfold quantile1
    rw [s1, if_neg hn0]
    dsimp only
    rw [s2]
  · rw [List.length_map]
  · intro r hr
    obtain ⟨p, -, rfl⟩ := List.mem_map.mp hr
    exact core _ rfl p
  · unfold median1
    rw [s1, if_neg hn0]
    dsimp only
    rw [s2, s3]
    exact core _ rfl _

/-! ### An implementation, and the hypotheses on it -/

/-- The number. -/
def toQ : Num → ℚ
  | .fin q => q
  | _ => 0

theorem toQ_fins (xs : List ℚ) : (fins xs).map toQ = xs := by
  unfold fins
  rw [List.map_map]
  exact List.map_id'' (fun _ => rfl) xs

/-- Sorts the positions by insertion. -/
def refArgsort (xs : List Num) : List Nat :=
  (List.range xs.length).insertionSort (fun i j => (xs.map toQ).getD i 0 ≤ (xs.map toQ).getD j 0)

/-- Counts the nodes that are not larger. -/
def refFind (p : Num) (cs : List Num) : Int :=
  if (cs.map toQ).getLastD 0 < toQ p then (cs.length : Int) else (countLE (cs.map toQ) (toQ p) : Int) - 1

/-- Sums from the left, an insertion sort and a count. -/
def refNp : Np := ⟨leftSum, refArgsort, refFind⟩

theorem refNp_works : Works refNp := by
  refine ⟨leftSum_isSum, fun xs => ⟨?_, ?_⟩, fun p cs hne hs => ?_⟩
  · have := List.perm_insertionSort (fun i j : Nat => ((fins xs).map toQ).getD i 0 ≤ ((fins xs).map toQ).getD j 0) (List.range (fins xs).length)
    rw [FloatLinear.fins_length] at this
    show (refArgsort (fins xs)).Perm _
    unfold refArgsort
    rw [FloatLinear.fins_length]
    exact this
  · show ((refArgsort (fins xs)).map (fun i : Nat => xs.getD i 0)).Pairwise (· ≤ ·)
    unfold refArgsort
    rw [toQ_fins]
    rw [List.pairwise_map]
    haveI : Std.Total (fun i j : Nat => xs.getD i 0 ≤ xs.getD j 0) := ⟨fun i j => le_total _ _⟩
    haveI : IsTrans Nat (fun i j : Nat => xs.getD i 0 ≤ xs.getD j 0) := ⟨fun i j k h1 h2 => le_trans h1 h2⟩
    exact List.pairwise_insertionSort _ _
  · show refFind (.fin p) (fins cs) = _
    unfold refFind
    rw [toQ_fins, FloatLinear.fins_length]
    rfl

/-- Four elements with weights, one masked out; the element of weight zero stays. -/
theorem example_weighted : Weighted [3, 1 / 2, -7, 10, 4] [1, 2, 5, 0, 3 / 2] (some [true, true, false, true, true]) 10 := by
  have e : elements [3, 1 / 2, -7, 10, 4] [1, 2, 5, 0, 3 / 2] (some [true, true, false, true, true]) = [(3, 1), (1 / 2, 2), (10, 0), (4, 3 / 2)] := by decide +kernel
  have b : ∀ k : Nat, 4 ≤ k → (10 : ℚ) ≤ 2 ^ k := fun k hk => le_trans (by norm_num : (10 : ℚ) ≤ 2 ^ 4) (pow_le_pow_right₀ (by norm_num) hk)
  refine ⟨rfl, ?_, ?_, ?_, b _ (by norm_num), ?_, ?_, ?_⟩
  · intro m hm
    injection hm with hm
    rw [← hm]; rfl
  · rw [e]; decide
  · rw [e]; decide +kernel
  · rw [e]; decide +kernel
  · rw [e]; decide +kernel
  · rw [e]
    refine le_trans ?_ (b _ (by norm_num))
    decide +kernel

/-- So its weighted median is not below the smallest element and hardly above the largest one. -/
example : ∃ r : ℚ, median1 refNp true .nan (fins [3, 1 / 2, -7, 10, 4]) (some (fins [1, 2, 5, 0, 3 / 2])) (some [true, true, false, true, true]) = .fin r ∧
    1 / 2 ≤ r ∧ r ≤ 10 + slack 10 := by
  obtain ⟨r, h1, -, h2⟩ := C139_median refNp_works example_weighted true (.inl rfl) .nan
  have e : elements [3, 1 / 2, -7, 10, 4] [1, 2, 5, 0, 3 / 2] (some [true, true, false, true, true]) = [(3, 1), (1 / 2, 2), (10, 0), (4, 3 / 2)] := by decide +kernel
  rw [e] at h2
  obtain ⟨a, a1, a2⟩ := h2.lower
  obtain ⟨b, b1, b2⟩ := h2.upper
  have c1 : (1 / 2 : ℚ) ≤ a.1 := (by decide +kernel : ∀ a ∈ [((3 : ℚ), (1 : ℚ)), (1 / 2, 2), (10, 0), (4, 3 / 2)], (1 / 2 : ℚ) ≤ a.1) a a1
  have c2 : b.1 ≤ 10 := (by decide +kernel : ∀ a ∈ [((3 : ℚ), (1 : ℚ)), (1 / 2, 2), (10, 0), (4, 3 / 2)], a.1 ≤ (10 : ℚ)) b b1
  exact ⟨r, h1, le_trans c1 a2, le_trans b2 (by linarith)⟩

/-- In fact it is 9/8, a quarter of the way from 1/2 to 3, up to rounding. -/
example : median1 refNp true .nan (fins [3, 1 / 2, -7, 10, 4]) (some (fins [1, 2, 5, 0, 3 / 2])) (some [true, true, false, true, true]) = .fin (9 / 8 + 1 / 2 ^ 52) := by decide +kernel

/-- C139: the bounds cannot be made exact: a weighted quantile of negative elements can be zero, so it can lie above all elements, and it can decrease when the
probability grows. -/
theorem C139_not_exact : ∃ (xs ws : List ℚ) (p p' : ℚ), Weighted xs ws none 20 ∧ Usual p ∧ Usual p' ∧ p < p' ∧ p < 1 ∧ (∀ x ∈ xs, x < 0) ∧
    ∃ r' : ℚ, r' < 0 ∧ quantile1 refNp [.fin p, .fin p'] true .nan (fins xs) (some (fins ws)) none = .ok [.fin 0, .fin r'] := by
  refine ⟨[-20, -(1 / 2 ^ 62), -(1 / 2 ^ 63)], [1 / 16, 7003097420561122 / 2 ^ 53, 1441151880758558 / 2 ^ 53], 7566047373982433 / 2 ^ 53, 7566047373982434 / 2 ^ 53, ?_,
    ⟨by decide +kernel, .inr (by norm_num)⟩, ⟨by decide +kernel, .inr (by norm_num)⟩, by norm_num, by norm_num, by decide +kernel, -(1 / 2 ^ 62), by norm_num, by decide +kernel⟩
  have e : elements [-20, -(1 / 2 ^ 62), -(1 / 2 ^ 63)] [1 / 16, 7003097420561122 / 2 ^ 53, 1441151880758558 / 2 ^ 53] none =
    [(-20, 1 / 16), (-(1 / 2 ^ 62), 7003097420561122 / 2 ^ 53), (-(1 / 2 ^ 63), 1441151880758558 / 2 ^ 53)] := rfl
  have b : ∀ k : Nat, 5 ≤ k → (20 : ℚ) ≤ 2 ^ k := fun k hk => le_trans (by norm_num : (20 : ℚ) ≤ 2 ^ 5) (pow_le_pow_right₀ (by norm_num) hk)
  refine ⟨rfl, ?_, ?_, ?_, b _ (by norm_num), ?_, ?_, ?_⟩
  · intro m hm; cases hm
  · rw [e]; decide
  · rw [e]; decide +kernel
  · rw [e]; decide +kernel
  · rw [e]; decide +kernel
  · rw [e]
    refine le_trans ?_ (b _ (by norm_num))
    decide +kernel

end Pyhipp.FloatQuantile
