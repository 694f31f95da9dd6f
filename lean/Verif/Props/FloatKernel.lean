import Verif.Model.FloatKernel
import Verif.Props.FloatReduce
import Verif.Props.FloatContrast
/-
C159: kernel weights, ball volumes and masked fractions in double precision.
-/
namespace Pyhipp.FloatKernel
open Pyhipp Pyhipp.F64 Pyhipp.FloatReduce Pyhipp.FloatHist Pyhipp.FloatHistDensity
open Pyhipp.FloatCosmology (w_mono w_mul w_rnd w_refl mul_box npow_isF le1023)

/-! ### Order on doubles -/

theorem ofQ_le {p q : ℚ} (h : p ≤ q) : Num.le (ofQ p) (ofQ q) = true := by
  have hr := rnd_mono h
  unfold ofQ
  split
  · rename_i hp
    split
    · rename_i hq
      show (decide (p < 0) || !decide (q < 0)) = true
      by_cases hp0 : p < 0
      · simp [hp0]
      · have : ¬ q < 0 := by linarith
        simp [this]
    · rename_i hq
      show decide (p < 0) = true
      rw [decide_eq_true_eq]
      by_contra h0
      have h1 := rnd_nonneg (not_lt.mp h0)
      have h2 : 0 ≤ rnd q := le_trans h1 hr
      rw [abs_of_nonneg h1] at hp
      rw [abs_of_nonneg h2] at hq
      exact hq (le_trans hp hr)
  · rename_i hp
    split
    · rename_i hq
      show (!decide (q < 0)) = true
      by_contra h0
      have h0 : q < 0 := by simpa using h0
      have h2 : rnd q ≤ 0 := by
        have := rnd_mono h0.le
        rwa [rnd_zero] at this
      have h3 : rnd p ≤ 0 := le_trans hr h2
      rw [abs_of_nonpos h3] at hp
      rw [abs_of_nonpos h2] at hq
      exact hp (by linarith)
    · exact decide_eq_true hr

/-- `np.exp`: at most 1 and not negative for arguments that are not positive, 1 at 0, and 0 where the exponential is far below the smallest double. -/
structure IsExp (exp : Num → Num) : Prop where
  neg : ∀ x, Num.le x (.fin 0) = true → ∃ v : ℚ, exp x = .fin v ∧ IsF v ∧ 0 ≤ v ∧ v ≤ 1
  zero : exp (.fin 0) = .fin 1
  under : ∀ x, Num.le x (.fin (-746)) = true → exp x = .fin 0
  nan : exp .nan = .nan

/-- The argument of the exponential. -/
def arg (sigma d : Num) : Num := Num.div (Num.mul (.fin (-1 / 2)) (Num.mul d d)) (Num.mul sigma sigma)

theorem gaussian_eq (exp : Num → Num) (sigma d : Num) : gaussian exp sigma d = exp (arg sigma d) := rfl

theorem sigma_sq {s : ℚ} (h1 : 2 ^ (-500 : ℤ) ≤ |s|) (h2 : |s| ≤ 2 ^ 500) :
    Num.mul (.fin s) (.fin s) = .fin (rnd (s * s)) ∧ Within (rnd (s * s)) (s * s) 1 ∧ 0 < s * s ∧ 0 < rnd (s * s) := by
  obtain ⟨a1, a2, a3, a4⟩ := mul_box h1 h2 h1 h2 (by norm_num) (by norm_num)
  rw [abs_mul_abs_self] at a1 a2 a3 a4
  have s0 : s ≠ 0 := by
    rintro rfl
    rw [abs_zero] at h1
    exact absurd h1 (not_le.mpr (pow_pos' _))
  have p0 : 0 < s * s := mul_self_pos.mpr s0
  refine ⟨?_, a4, p0, a4.pos p0⟩
  have e : ofQ (|s| * |s|) = .fin (rnd (s * s)) := a1
  rw [abs_mul_abs_self] at e
  exact e

/-- A distance: not negative, possibly infinite. -/
theorem dist_cases {d : Num} (h : Num.le (.fin 0) d = true) : d = .inf false ∨ ∃ q : ℚ, d = .fin q ∧ 0 ≤ q := by
  cases d with
  | nan => cases h
  | inf b =>
    cases b with
    | true => cases h
    | false => exact .inl rfl
  | fin q => exact .inr ⟨q, rfl, of_decide_eq_true h⟩

theorem le_refl' {x : Num} (h : x ≠ .nan) : Num.le x x = true := by
  cases x with
  | nan => exact absurd rfl h
  | inf b => cases b <;> rfl
  | fin q => exact decide_eq_true (le_refl q)

theorem le_trans' {x y z : Num} (h : Num.le x y = true) (h' : Num.le y z = true) : Num.le x z = true := by
  cases x with
  | nan => cases h
  | inf a =>
    cases y with
    | nan => cases h
    | inf b =>
      cases z with
      | nan => cases h'
      | inf c => cases a <;> cases b <;> cases c <;> simp_all [Num.le]
      | fin r => cases a <;> cases b <;> simp_all [Num.le]
    | fin q =>
      cases z with
      | nan => cases h'
      | inf c => cases a <;> cases c <;> simp_all [Num.le]
      | fin r => cases a <;> simp_all [Num.le]
  | fin p =>
    cases y with
    | nan => cases h
    | inf b =>
      cases z with
      | nan => cases h'
      | inf c => cases b <;> cases c <;> simp_all [Num.le]
      | fin r => cases b <;> simp_all [Num.le]
    | fin q =>
      cases z with
      | nan => cases h'
      | inf c => cases c <;> simp_all [Num.le]
      | fin r =>
        have h1 : p ≤ q := of_decide_eq_true h
        have h2 : q ≤ r := of_decide_eq_true h'
        exact decide_eq_true (h1.trans h2)

theorem ofQ_ne_nan (q : ℚ) : ofQ q ≠ .nan := by unfold ofQ; split <;> simp

/-- Squares are ordered like the distances. -/
theorem sq_le {d d' : Num} (h : Num.le (.fin 0) d = true) (h' : Num.le d d' = true) : Num.le (Num.mul d d) (Num.mul d' d') = true := by
  rcases dist_cases (le_trans' h h') with rfl | ⟨q', rfl, hq'⟩
  · show Num.le _ (.inf false) = true
    rcases dist_cases h with rfl | ⟨q, rfl, hq⟩
    · rfl
    · show Num.le (ofQ (q * q)) (.inf false) = true
      unfold ofQ
      split <;> simp [Num.le]
  · rcases dist_cases h with rfl | ⟨q, rfl, hq⟩
    · cases h'
    · have : q ≤ q' := of_decide_eq_true h'
      exact ofQ_le (mul_le_mul this this hq hq')

theorem half_le {x y : Num} (hx : Num.le (.fin 0) x = true) (h : Num.le x y = true) :
    Num.le (Num.mul (.fin (-1 / 2)) y) (Num.mul (.fin (-1 / 2)) x) = true := by
  have hn : ∀ z : Num, Num.le (.fin 0) z = true → Num.mul (.fin (-1 / 2)) z ≠ .nan := by
    intro z hz
    rcases dist_cases hz with rfl | ⟨q, rfl, hq⟩
    · show (if (-1 / 2 : ℚ) = 0 then Num.nan else _) ≠ _
      rw [if_neg (by norm_num)]
      simp
    · exact ofQ_ne_nan _
  rcases dist_cases (le_trans' hx h) with rfl | ⟨q', rfl, hq'⟩
  · have e : Num.mul (.fin (-1 / 2)) (.inf false) = .inf true := by
      show (if (-1 / 2 : ℚ) = 0 then Num.nan else _) = _
      rw [if_neg (by norm_num), decide_eq_true (by norm_num : (-1 / 2 : ℚ) < 0)]
      rfl
    rw [e]
    have := hn x hx
    cases hz : Num.mul (.fin (-1 / 2)) x with
    | nan => exact absurd hz this
    | inf b => rfl
    | fin q => rfl
  · rcases dist_cases hx with rfl | ⟨q, rfl, hq⟩
    · cases h
    · have : q ≤ q' := of_decide_eq_true h
      exact ofQ_le (by linarith)

theorem divp_le {x y : Num} {s : ℚ} (hs : 0 < s) (h : Num.le x y = true) : Num.le (Num.div x (.fin s)) (Num.div y (.fin s)) = true := by
  have e : decide (s < 0) = false := decide_eq_false (by linarith)
  have ei : ∀ b, Num.div (.inf b) (.fin s) = .inf b := by
    intro b
    show Num.inf (b != decide (s < 0)) = _
    rw [e]
    cases b <;> rfl
  have ef : ∀ q : ℚ, Num.div (.fin q) (.fin s) = ofQ (q / s) := by
    intro q
    show (if s = 0 then _ else _) = _
    rw [if_neg hs.ne']
  cases x with
  | nan => cases h
  | inf a =>
    cases y with
    | nan => cases h
    | inf b => rw [ei, ei]; exact h
    | fin q =>
      rw [ei, ef]
      cases a with
      | false => cases h
      | true => unfold ofQ; split <;> rfl
  | fin p =>
    cases y with
    | nan => cases h
    | inf b =>
      rw [ei, ef]
      cases b with
      | true => cases h
      | false => unfold ofQ; split <;> simp [Num.le]
    | fin q =>
      rw [ef, ef]
      have : p ≤ q := of_decide_eq_true h
      exact ofQ_le (div_le_div_of_nonneg_right this hs.le)

theorem arg_zero {s : ℚ} (h1 : 2 ^ (-500 : ℤ) ≤ |s|) (h2 : |s| ≤ 2 ^ 500) : arg (.fin s) (.fin 0) = .fin 0 := by
  obtain ⟨e, -, -, p⟩ := sigma_sq h1 h2
  unfold arg
  rw [e]
  have e1 : Num.mul (.fin (-1 / 2)) (Num.mul (.fin 0) (.fin 0)) = .fin 0 := by decide +kernel
  rw [e1, FloatStandardize.div_fin p.ne' (by rw [zero_div, abs_zero]; positivity), zero_div, rnd_zero]

theorem arg_le {s : ℚ} (h1 : 2 ^ (-500 : ℤ) ≤ |s|) (h2 : |s| ≤ 2 ^ 500) {d d' : Num} (h : Num.le (.fin 0) d = true) (h' : Num.le d d' = true) :
    Num.le (arg (.fin s) d') (arg (.fin s) d) = true := by
  obtain ⟨e, -, -, p⟩ := sigma_sq h1 h2
  unfold arg
  rw [e]
  refine divp_le p (half_le ?_ (sq_le h h'))
  have := sq_le (d := .fin 0) (le_refl' (by simp)) h
  have e0 : Num.mul (.fin 0) (.fin 0) = .fin 0 := by decide +kernel
  rwa [e0] at this

theorem arg_far {s : ℚ} (h1 : 2 ^ (-500 : ℤ) ≤ |s|) (h2 : |s| ≤ 2 ^ 500) {d : Num} (h : Num.le (.fin (40 * |s|)) d = true) :
    Num.le (arg (.fin s) d) (.fin (-746)) = true := by
  have s0 : 0 ≤ |s| := abs_nonneg s
  refine le_trans' (arg_le h1 h2 (d := .fin (40 * |s|)) (decide_eq_true (by linarith)) h) ?_
  obtain ⟨e, w, p0, p⟩ := sigma_sq h1 h2
  have t1 : 40 * |s| * (40 * |s|) = 1600 * (s * s) := by rw [← abs_mul_abs_self s]; ring
  have lo : (2 : ℚ) ^ (-1000 : ℤ) ≤ s * s := by
    rw [← abs_mul_abs_self, show (-1000 : ℤ) = -500 + -500 by norm_num, zpow_add₀ (by norm_num)]
    exact mul_le_mul h1 h1 (pow_pos' _).le s0
  have hi : s * s ≤ 2 ^ 1000 := by
    rw [← abs_mul_abs_self, show 1000 = 500 + 500 by norm_num, pow_add]
    exact mul_le_mul h2 h2 s0 (by positivity)
  have n1000 : (2 : ℚ) ^ (-1021 : ℤ) ≤ 2 ^ (-1000 : ℤ) := zpow_le_zpow_right₀ (by norm_num) (by norm_num)
  have e1021 : (2 : ℚ) ^ (-1021 : ℤ) = 2 * 2 ^ (-1022 : ℤ) := by rw [show (-1021 : ℤ) = 1 + (-1022) by norm_num, zpow_add₀ (by norm_num)]; norm_num
  have b1023 : (2 : ℚ) ^ 1000 * 3200 ≤ 2 ^ 1023 := by
    calc (2 : ℚ) ^ 1000 * 3200 ≤ 2 ^ 1000 * 2 ^ 12 := mul_le_mul_of_nonneg_left (by norm_num) (by positivity)
      _ = 2 ^ 1012 := by rw [← pow_add]
      _ ≤ 2 ^ 1023 := pow_le_pow_right₀ (by norm_num) (by norm_num)
  have m1 : Num.mul (.fin (40 * |s|)) (.fin (40 * |s|)) = .fin (rnd (1600 * (s * s))) := by
    rw [FloatStandardize.mul_fin (by rw [t1, abs_of_pos (by linarith)]; generalize (2 : ℚ) ^ 1000 = a at *; generalize (2 : ℚ) ^ 1023 = b at *; linarith only [hi, b1023, p0]), t1]
  have tn := pow_pos' (-1022)
  have w1 : Within (rnd (1600 * (s * s))) (1600 * (s * s)) 1 := w_rnd (by
    generalize (2 : ℚ) ^ (-1022 : ℤ) = a at *
    generalize (2 : ℚ) ^ (-1000 : ℤ) = b at *
    linarith only [lo, n1000, p0, e1021, tn])
  obtain ⟨c1, c2, c3⟩ := w1.close (by linarith) (by norm_num)
  have q0 : 0 < rnd (1600 * (s * s)) := w1.pos (by linarith)
  generalize hR : rnd (1600 * (s * s)) = R at *
  have m2 : Num.mul (.fin (-1 / 2)) (.fin R) = .fin (rnd (-1 / 2 * R)) := FloatStandardize.mul_fin (by
    rw [abs_mul, abs_of_pos q0, show |(-1 / 2 : ℚ)| = 1 / 2 by norm_num]
    generalize (2 : ℚ) ^ 1000 = a at *
    generalize (2 : ℚ) ^ 1023 = b at *
    linarith only [c2, hi, b1023, p0])
  have w2 : Within (rnd (1 / 2 * R)) (1 / 2 * R) 1 := w_rnd (by
    generalize (2 : ℚ) ^ (-1022 : ℤ) = a at *
    generalize (2 : ℚ) ^ (-1000 : ℤ) = b at *
    linarith only [c3, lo, n1000, p0, e1021, tn])
  have hneg : rnd (-1 / 2 * R) = - rnd (1 / 2 * R) := by rw [← rnd_neg]; exact congrArg rnd (show -1 / 2 * R = -(1 / 2 * R) by clear * -; ring)
  have v0 : 0 < rnd (1 / 2 * R) := w2.pos (by linarith)
  obtain ⟨a1, -, -⟩ := w2.close (by linarith) (by norm_num)
  obtain ⟨b1, -, -⟩ := w.close p0 (by norm_num)
  generalize rnd (1 / 2 * R) = V at *
  generalize rnd (s * s) = S at *
  unfold arg
  rw [e, m1, m2, hneg]
  have e2 : Num.div (.fin (-V)) (.fin S) = ofQ (-V / S) := by
    show (if S = 0 then _ else _) = _
    rw [if_neg p.ne']
  rw [e2, ← (show ofQ (-746) = .fin (-746) by decide +kernel)]
  refine ofQ_le ?_
  rw [div_le_iff₀ p]
  have u : (2 : ℚ) ^ (-52 : ℤ) ≤ 1 / 1000000 := by norm_num
  have up := pow_pos' (-52)
  obtain ⟨a1, -⟩ := abs_le.mp a1
  obtain ⟨c1, -⟩ := abs_le.mp c1
  obtain ⟨-, b1⟩ := abs_le.mp b1
  have k1 := mul_le_mul_of_nonneg_right u p0.le
  have k2 := mul_le_mul_of_nonneg_right u q0.le
  generalize (2 : ℚ) ^ (-52 : ℤ) = ε at *
  generalize s * s = Q at *
  push_cast at *
  rw [one_mul] at *
  have x1 : ε * (1600 * Q) = 1600 * (ε * Q) := by ring
  have x2 : ε * (1 / 2 * R) = 1 / 2 * (ε * R) := by ring
  rw [x1] at c1
  rw [x2] at a1
  linarith only [a1, b1, c1, k1, k2, p0, q0]

/-- C159 (Gaussian kernel), for a width between 2^-500 and 2^500 of either sign: the weight at every distance, also an infinite one, is between 0 and 1; it is 1 at
distance 0 and 0 from 40 widths on; it does not depend on the sign of the width; NaN distances get NaN. -/
theorem C159_gaussian (exp : Num → Num) (he : IsExp exp) {s : ℚ} (h1 : 2 ^ (-500 : ℤ) ≤ |s|) (h2 : |s| ≤ 2 ^ 500) :
    (∀ d, Num.le (.fin 0) d = true → ∃ v : ℚ, gaussian exp (.fin s) d = .fin v ∧ IsF v ∧ 0 ≤ v ∧ v ≤ 1) ∧
    gaussian exp (.fin s) (.fin 0) = .fin 1 ∧
    (∀ d, Num.le (.fin (40 * |s|)) d = true → gaussian exp (.fin s) d = .fin 0) ∧
    (∀ d, gaussian exp (.fin (-s)) d = gaussian exp (.fin s) d) ∧
    gaussian exp (.fin s) .nan = .nan := by
  refine ⟨fun d hd => ?_, ?_, fun d hd => ?_, fun d => ?_, ?_⟩
  · refine he.neg _ ?_
    have := arg_le h1 h2 (d := .fin 0) (le_refl' (by simp)) hd
    rwa [arg_zero h1 h2] at this
  · rw [gaussian_eq, arg_zero h1 h2, he.zero]
  · rw [gaussian_eq, he.under _ (arg_far h1 h2 hd)]
  · rw [gaussian_eq, gaussian_eq]
    unfold arg
    have : Num.mul (.fin (-s)) (.fin (-s)) = Num.mul (.fin s) (.fin s) := by
      show ofQ (-s * -s) = ofQ (s * s)
      rw [neg_mul_neg]
    rw [this]
  · rw [gaussian_eq]
    exact he.nan

/-- C159 (Gaussian kernel, order): if the exponential of the platform never decreases, nearer points never weigh less. -/
theorem C159_nearer (exp : Num → Num) (he : IsExp exp) (hm : ∀ x y, Num.le x y = true → Num.le (exp x) (exp y) = true) {s : ℚ}
    (h1 : 2 ^ (-500 : ℤ) ≤ |s|) (h2 : |s| ≤ 2 ^ 500) {d d' : Num} (h : Num.le (.fin 0) d = true) (h' : Num.le d d' = true) :
    ∃ v v' : ℚ, gaussian exp (.fin s) d = .fin v ∧ gaussian exp (.fin s) d' = .fin v' ∧ v' ≤ v := by
  obtain ⟨v, e1, -⟩ := (C159_gaussian exp he h1 h2).1 d h
  obtain ⟨v', e2, -⟩ := (C159_gaussian exp he h1 h2).1 d' (le_trans' h h')
  refine ⟨v, v', e1, e2, ?_⟩
  have : Num.le (gaussian exp (.fin s) d') (gaussian exp (.fin s) d) = true := hm _ _ (arg_le h1 h2 h h')
  rw [e1, e2] at this
  exact of_decide_eq_true this

/-- C159 (tiny widths): a width of 2^-540 squares to 0, and a neighbour at distance 0 gets the weight NaN. -/
theorem C159_tiny (exp : Num → Num) (he : IsExp exp) : gaussian exp (.fin (2 ^ (-540 : ℤ))) (.fin 0) = .nan := by
  rw [gaussian_eq]
  have : arg (.fin (2 ^ (-540 : ℤ))) (.fin 0) = .nan := by decide +kernel
  rw [this, he.nan]

/-- C159 (top-hat kernel): 1 strictly inside the radius, 0 elsewhere and for NaN. -/
theorem C159_tophat : (∀ r d : ℚ, tophat (.fin r) (.fin d) = if d < r then .fin 1 else .fin 0) ∧ (∀ r, tophat r .nan = .fin 0) ∧
    (∀ r : ℚ, tophat (.fin r) (.inf false) = .fin 0) := by
  refine ⟨fun r d => ?_, fun r => rfl, fun r => rfl⟩
  unfold tophat b2f
  by_cases h : d < r <;> simp [Num.lt, h]

/-- C159 (far points): the Gaussian-weighted mean of neighbours that are all at least 40 widths away is NaN, whatever their values. -/
theorem C159_far (sum : List Num → Num) (hs : IsSum sum) (fill : Num) (exp : Num → Num) (he : IsExp exp) {s : ℚ}
    (h1 : 2 ^ (-500 : ℤ) ≤ |s|) (h2 : |s| ≤ 2 ^ 500) (ys ds : List ℚ) (hl : ds.length = ys.length) (hne : ds ≠ []) (hd : ∀ d ∈ ds, 40 * |s| ≤ d) :
    call (mean1 sum fill) (ys.map .fin) (some (ds.map fun d => gaussian exp (.fin s) (.fin d))) none = .ok .nan := by
  have e : (ds.map fun d => gaussian exp (.fin s) (.fin d)) = (ds.map fun _ => (0 : ℚ)).map .fin := by
    rw [List.map_map]
    exact List.map_congr_left fun d h => (C159_gaussian exp he h1 h2).2.2.1 _ (decide_eq_true (hd d h))
  rw [e]
  have hz : ∀ w ∈ (ds.map fun _ => (0 : ℚ)), w = 0 := by
    intro w hw
    obtain ⟨_, _, rfl⟩ := List.mem_map.mp hw
    rfl
  refine C132_zero_weights sum hs fill ys (ds.map fun _ => (0 : ℚ)) none (fun w hw => ?_) (by simpa using hl) (fun m h => by cases h) ?_ hz
  · rw [hz w hw]
    exact ⟨zero_isF, by rw [abs_zero]; positivity⟩
  · show 0 < (ds.map fun _ => (0 : ℚ)).length
    rw [List.length_map]
    exact List.length_pos_iff.mpr hne

/-! ### Volume of a ball -/

/-- The recursion of the volume without rounding (with the double nearest to π). -/
def volExact (r : ℚ) : Nat → ℚ
  | 0 => 1
  | 1 => 2 * r
  | n + 2 => 2 * pi64 / ((n + 2 : Nat) : ℚ) * r * r * volExact r n

theorem twoPi : Num.mul (.fin 2) (.fin pi64) = .fin (2 * pi64) := by decide +kernel

theorem vol_step {n : Nat} (hn : n ≤ 100) :
    Num.div (Num.mul (.fin 2) (.fin pi64)) (ofQ ((n + 2 : Nat) : ℚ)) = .fin (rnd (2 * pi64 / ((n + 2 : Nat) : ℚ))) ∧
    (2 : ℚ) ^ (-5 : ℤ) ≤ rnd (2 * pi64 / ((n + 2 : Nat) : ℚ)) ∧ rnd (2 * pi64 / ((n + 2 : Nat) : ℚ)) ≤ 2 ^ 2 ∧
    Within (rnd (2 * pi64 / ((n + 2 : Nat) : ℚ))) (2 * pi64 / ((n + 2 : Nat) : ℚ)) 1 ∧ 0 < 2 * pi64 / ((n + 2 : Nat) : ℚ) := by
  have p1 : (6 : ℚ) ≤ 2 * pi64 := by unfold pi64; norm_num
  have p2 : 2 * pi64 ≤ (7 : ℚ) := by unfold pi64; norm_num
  have n2 : (2 : ℚ) ≤ ((n + 2 : Nat) : ℚ) := by exact_mod_cast (by omega : 2 ≤ n + 2)
  have n3 : ((n + 2 : Nat) : ℚ) ≤ 102 := by exact_mod_cast (by omega : n + 2 ≤ 102)
  rw [twoPi, nat_double (by omega : n + 2 ≤ 2 ^ 53)]
  generalize ((n + 2 : Nat) : ℚ) = k at *
  have k0 : 0 < k := by linarith
  have q0 : 0 < 2 * pi64 / k := div_pos (by linarith) k0
  have lo : (2 : ℚ) ^ (-5 : ℤ) ≤ 2 * pi64 / k := by
    rw [le_div_iff₀ k0, show (2 : ℚ) ^ (-5 : ℤ) = 1 / 32 by norm_num]
    linarith
  have hi : 2 * pi64 / k ≤ 2 ^ 2 := by
    rw [div_le_iff₀ k0]
    linarith
  refine ⟨FloatStandardize.div_fin k0.ne' ?_, le_rnd lo (isF_pow (by norm_num)), rnd_le hi (npow_isF 2), w_rnd ?_, q0⟩
  · rw [abs_of_pos q0]
    exact le_trans hi (pow_le_pow_right₀ (by norm_num) (by norm_num))
  · exact le_trans (zpow_le_zpow_right₀ (by norm_num) (by norm_num)) lo

theorem vol_core {r : ℚ} {c : Nat} (fr : IsF r) (h1 : 2 ^ (-(c : ℤ)) ≤ r) (h2 : r ≤ 2 ^ c) :
    ∀ n : Nat, n ≤ 100 → n * (c + 5) ≤ 1022 → ∃ v : ℚ, ballVolume (.fin r) n = .fin v ∧ (2 : ℚ) ^ (-((n * (c + 5) : Nat) : ℤ)) ≤ v ∧ v ≤ 2 ^ (n * (c + 2)) ∧
      0 < volExact r n ∧ Within v (volExact r n) (2 * n)
  | 0, _, _ => ⟨1, rfl, by simp, by simp, by simp [volExact], w_refl _⟩
  | 1, _, hb => by
    have r0 : 0 < r := lt_of_lt_of_le (pow_pos' _) h1
    have f2 : IsF (2 * r) ∧ |2 * r| ≤ 2 ^ 1023 := by
      have u : 2 * r ≤ 2 ^ 1023 := by
        calc 2 * r ≤ 2 ^ (c + 1) := by rw [pow_succ]; linarith
          _ ≤ 2 ^ 1023 := pow_le_pow_right₀ (by norm_num) (by omega)
      refine ⟨?_, by rw [abs_of_pos (by linarith)]; exact u⟩
      obtain ⟨m, hm, e⟩ := fr.form
      have : 2 * r = m * 2 ^ (expo r + 1) := by
        rw [zpow_add₀ (by norm_num), zpow_one]
        conv_lhs => rw [e]
        ring
      rw [this]
      exact isF_of hm (by have := expo_ge r; omega)
    have e : ballVolume (.fin r) 1 = .fin (2 * r) := by
      show ofQ (2 * r) = _
      rw [ofQ_fin_le f2.2 FloatBins.pow1023 FloatBins.lt1024, show rnd (2 * r) = 2 * r from f2.1]
    refine ⟨2 * r, e, ?_, ?_, by show 0 < 2 * r; linarith, w_mono (w_refl (2 * r)) (by linarith) (show (0 : ℚ) ≤ 2 * r by linarith) (by norm_num)⟩
    · refine le_trans (le_trans (zpow_le_zpow_right₀ (by norm_num) ?_) h1) (by linarith)
      push_cast
      omega
    · calc 2 * r ≤ 2 ^ (c + 1) := by rw [pow_succ]; linarith
        _ ≤ _ := pow_le_pow_right₀ (by norm_num) (by omega)
  | n + 2, hn, hb => by
    have e1 : (n + 2) * (c + 5) = n * (c + 5) + 2 * c + 10 := by ring
    have e2 : (n + 2) * (c + 2) = n * (c + 2) + 2 * c + 4 := by ring
    have l25 : n * (c + 2) ≤ n * (c + 5) := Nat.mul_le_mul_left _ (by omega)
    obtain ⟨v, e, v1, v2, x0, w⟩ := vol_core fr h1 h2 n (by omega) (by omega)
    have r0 : 0 < r := lt_of_lt_of_le (pow_pos' _) h1
    obtain ⟨s1, s2, s3, s4, s5⟩ := vol_step (n := n) (by omega)
    have s0 := s4.pos s5
    obtain ⟨a1, a2, a3, a4⟩ := mul_box s2 s3 h1 h2 (by omega) (by omega)
    have A0 : 0 < rnd (rnd (2 * pi64 / ((n + 2 : Nat) : ℚ)) * r) := a4.pos (mul_pos s0 r0)
    obtain ⟨b1, b2, b3, b4⟩ := mul_box a2 a3 h1 h2 (by omega) (by omega)
    have B0 : 0 < rnd (rnd (rnd (2 * pi64 / ((n + 2 : Nat) : ℚ)) * r) * r) := b4.pos (mul_pos A0 r0)
    obtain ⟨c1, c2, c3, c4⟩ := mul_box b2 b3 v1 v2 (by omega) (by omega)
    have v0 := w.pos x0
    refine ⟨rnd (rnd (rnd (rnd (2 * pi64 / ((n + 2 : Nat) : ℚ)) * r) * r) * v), ?_, ?_, ?_, mul_pos (mul_pos (mul_pos s5 r0) r0) x0, ?_⟩
    · show Num.mul (Num.mul (Num.mul (Num.div (Num.mul (.fin 2) (.fin pi64)) (ofQ ((n + 2 : Nat) : ℚ))) (.fin r)) (.fin r)) (ballVolume (.fin r) n) = _
      rw [s1, a1, b1, e, c1]
    · refine le_trans (zpow_le_zpow_right₀ (by norm_num) ?_) c2
      rw [e1]
      push_cast
      omega
    · refine le_trans c3 (pow_le_pow_right₀ (by norm_num) ?_)
      rw [e2]
      omega
    · have wa : Within (rnd (rnd (2 * pi64 / ((n + 2 : Nat) : ℚ)) * r)) (2 * pi64 / ((n + 2 : Nat) : ℚ) * r) (1 + (1 + 0)) :=
        a4.trans (w_mul s4 (w_refl r) s0.le s5.le r0.le r0.le)
      have wb : Within (rnd (rnd (rnd (2 * pi64 / ((n + 2 : Nat) : ℚ)) * r) * r)) (2 * pi64 / ((n + 2 : Nat) : ℚ) * r * r) (1 + (1 + (1 + 0) + 0)) :=
        b4.trans (w_mul wa (w_refl r) A0.le (mul_pos s5 r0).le r0.le r0.le)
      have wc := c4.trans (w_mul wb w B0.le (mul_pos (mul_pos s5 r0) r0).le v0.le x0.le)
      have ee : 1 + (1 + (1 + (1 + 0) + 0) + 2 * n) = 2 * (n + 2) := by omega
      rw [ee] at wc
      exact wc

/-- C159 (ball volume): for a radius between 2^-c and 2^c and up to 100 dimensions n with n·(c + 5) ≤ 1022 the computed volume is positive and within a relative
2n·2^-52 of the recursion without rounding. -/
theorem C159_volume {r : ℚ} {c n : Nat} (fr : IsF r) (h1 : 2 ^ (-(c : ℤ)) ≤ r) (h2 : r ≤ 2 ^ c) (hn : n ≤ 100) (hc : n * (c + 5) ≤ 1022) :
    ∃ v : ℚ, ballVolume (.fin r) n = .fin v ∧ 0 < v ∧ |v - volExact r n| ≤ 2 * n * 2 ^ (-52 : ℤ) * volExact r n := by
  obtain ⟨v, e, -, -, x0, w⟩ := vol_core fr h1 h2 n hn hc
  refine ⟨v, e, w.pos x0, ?_⟩
  have := (w.close x0 (by omega)).1
  push_cast at this
  exact this

/-- A sphere of radius 3 in three dimensions. -/
example : ∃ v : ℚ, ballVolume (.fin 3) 3 = .fin v ∧ 0 < v ∧ |v - 2 * pi64 / 3 * 3 * 3 * (2 * 3)| ≤ 6 * 2 ^ (-52 : ℤ) * (2 * pi64 / 3 * 3 * 3 * (2 * 3)) := by
  obtain ⟨v, h1, h2, h3⟩ := C159_volume (r := 3) (c := 2) (n := 3) (by decide +kernel) (by norm_num) (by norm_num) (by norm_num) (by norm_num)
  refine ⟨v, h1, h2, ?_⟩
  simp only [volExact] at h3
  norm_num at h3 ⊢
  exact h3

/-! ### Masked fractions -/

/-- The value of a finite number. -/
def val : Num → ℚ
  | .fin q => q
  | _ => 0

/-- numpy's sum of an axis: the order of the additions depends on the number of elements alone. -/
def SameOrder (sum : List Num → Num) : Prop :=
  ∀ n, ∃ t : Order, t.leaves.Perm (List.range n) ∧ ∀ xs : List Num, xs.length = n → sum xs = t.eval xs

theorem SameOrder.isSum {sum : List Num → Num} (h : SameOrder sum) : IsSum sum := by
  intro xs
  obtain ⟨t, h1, h2⟩ := h xs.length
  exact ⟨t, h1, h2 xs rfl⟩

theorem add_le' {x x' y y' : Num} (hx : Num.le (.fin 0) x = true) (h1 : Num.le x x' = true) (hy : Num.le (.fin 0) y = true) (h2 : Num.le y y' = true) :
    Num.le (.fin 0) (Num.add x y) = true ∧ Num.le (Num.add x y) (Num.add x' y') = true := by
  rcases dist_cases hx with rfl | ⟨p, rfl, hp⟩
  · rcases dist_cases (le_trans' hx h1) with rfl | ⟨p', rfl, hp'⟩
    · rcases dist_cases hy with rfl | ⟨q, rfl, hq⟩
      · rcases dist_cases (le_trans' hy h2) with rfl | ⟨q', rfl, hq'⟩
        · exact ⟨rfl, rfl⟩
        · cases h2
      · rcases dist_cases (le_trans' hy h2) with rfl | ⟨q', rfl, hq'⟩ <;> exact ⟨rfl, rfl⟩
    · cases h1
  · rcases dist_cases hy with rfl | ⟨q, rfl, hq⟩
    · rcases dist_cases (le_trans' hy h2) with rfl | ⟨q', rfl, hq'⟩
      · rcases dist_cases (le_trans' hx h1) with rfl | ⟨p', rfl, hp'⟩ <;> exact ⟨rfl, rfl⟩
      · cases h2
    · have e0 : ofQ 0 = .fin 0 := by decide +kernel
      refine ⟨by rw [← e0]; exact ofQ_le (by linarith), ?_⟩
      rcases dist_cases (le_trans' hx h1) with rfl | ⟨p', rfl, hp'⟩
      · have : Num.add (.inf false) y' = .inf false := by
          rcases dist_cases (le_trans' hy h2) with rfl | ⟨q', rfl, hq'⟩ <;> rfl
        rw [this]
        show Num.le (ofQ (p + q)) (.inf false) = true
        unfold ofQ
        split <;> simp [Num.le]
      · rcases dist_cases (le_trans' hy h2) with rfl | ⟨q', rfl, hq'⟩
        · show Num.le (ofQ (p + q)) (.inf false) = true
          unfold ofQ
          split <;> simp [Num.le]
        · have a : p ≤ p' := of_decide_eq_true h1
          have b : q ≤ q' := of_decide_eq_true h2
          exact ofQ_le (by linarith)

theorem eval_le (xs ys : List Num) (t : Order) (h : ∀ i ∈ t.leaves, Num.le (.fin 0) (xs.getD i .nan) = true ∧ Num.le (xs.getD i .nan) (ys.getD i .nan) = true) :
    Num.le (.fin 0) (t.eval xs) = true ∧ Num.le (t.eval xs) (t.eval ys) = true := by
  induction t with
  | zero => exact ⟨decide_eq_true (le_refl (0 : ℚ)), decide_eq_true (le_refl (0 : ℚ))⟩
  | leaf j => exact h j (by simp [Order.leaves])
  | node l r ihl ihr =>
    obtain ⟨l1, l2⟩ := ihl (fun i hi => h i (by simp [Order.leaves, hi]))
    obtain ⟨r1, r2⟩ := ihr (fun i hi => h i (by simp [Order.leaves, hi]))
    exact add_le' l1 l2 r1 r2

theorem zipWith_congr' {α β γ : Type} {f g : α → β → γ} : ∀ (xs : List α) (ys : List β), (∀ x ∈ xs, ∀ y ∈ ys, f x y = g x y) → List.zipWith f xs ys = List.zipWith g xs ys
  | [], _, _ => by simp
  | _ :: _, [], _ => by simp
  | x :: xs, y :: ys, h => by
    simp only [List.zipWith_cons_cons]
    rw [h x (by simp) y (by simp), zipWith_congr' xs ys (fun a ha b hb => h a (by simp [ha]) b (by simp [hb]))]

/-- The kernel value at a distance, 1 without a kernel. -/
def kerVal (d : Num) : Option (Num → Num) → ℚ
  | none => 1
  | some k => val (k d)

/-- 1 within reach, 0 beyond. -/
def reach (d : Num) : Option Num → ℚ
  | none => 1
  | some r => if Num.lt d r then 1 else 0

/-- What a neighbour at distance `d` counts for: its kernel value, or 1, and nothing out of reach. -/
def coef (kernel : Option (Num → Num)) (maxDx : Option Num) (d : Num) : ℚ := kerVal d kernel * reach d maxDx

/-- Kernel values as the theorems need them. -/
def KernelOk (kernel : Option (Num → Num)) (ds : List Num) : Prop :=
  ∀ k, kernel = some k → ∀ d ∈ ds, ∃ v : ℚ, k d = .fin v ∧ IsF v ∧ 0 ≤ v ∧ v ≤ 1

theorem coef_bounds {kernel : Option (Num → Num)} {ds : List Num} (hk : KernelOk kernel ds) (maxDx : Option Num) {d : Num} (hd : d ∈ ds) :
    IsF (coef kernel maxDx d) ∧ 0 ≤ coef kernel maxDx d ∧ coef kernel maxDx d ≤ 1 := by
  have hv : ∃ v : ℚ, kerVal d kernel = v ∧ IsF v ∧ 0 ≤ v ∧ v ≤ 1 := by
    cases kernel with
    | none => exact ⟨1, rfl, FloatLinear.one_isF, by norm_num, le_rfl⟩
    | some k =>
      obtain ⟨v, e, h⟩ := hk k rfl d hd
      exact ⟨v, by simp only [kerVal, e, val], h⟩
  obtain ⟨v, e, f, v0, v1⟩ := hv
  unfold coef
  rw [e]
  cases maxDx with
  | none => simpa [reach] using ⟨f, v0, v1⟩
  | some r =>
    by_cases h : Num.lt d r = true
    · simpa [reach, h] using ⟨f, v0, v1⟩
    · simpa [reach, h] using zero_isF

/-- A weight: a double from 0 to 2^480. -/
def WeightOk (x : ℚ) : Prop := IsF x ∧ 0 ≤ x ∧ x ≤ 2 ^ 480

theorem WeightOk.dbl {x : ℚ} (h : WeightOk x) : IsF x ∧ |x| < 2 ^ 1024 :=
  ⟨h.1, by rw [abs_of_nonneg h.2.1]; exact lt_of_le_of_lt h.2.2 (pow_lt_pow_right₀ (by norm_num) (by norm_num))⟩

theorem mul_coef {x c : ℚ} (hx : WeightOk x) (h0 : 0 ≤ c) (h1 : c ≤ 1) : Num.mul (.fin x) (.fin c) = .fin (rnd (x * c)) := by
  refine FloatStandardize.mul_fin ?_
  rw [abs_of_nonneg (mul_nonneg hx.2.1 h0)]
  exact le_trans (mul_le_of_le_one_right hx.2.1 h1) (le_trans hx.2.2 (pow_le_pow_right₀ (by norm_num) (by norm_num)))

theorem sum1_coef (sum : List Num → Num) {kernel : Option (Num → Num)} {ds : List Num} (hk : KernelOk kernel ds) (maxDx : Option Num) (xs : List ℚ)
    (hx : ∀ x ∈ xs, WeightOk x) (hl : xs.length = ds.length) :
    sum1 sum (xs.map .fin) (kernel.map fun k => ds.map k) (near ds maxDx) = sum ((List.zipWith (fun x d => rnd (x * coef kernel maxDx d)) xs ds).map .fin) := by
  have b2 : ∀ (x : ℚ) (b : Bool), IsF x ∧ |x| < 2 ^ 1024 → Num.mul (.fin x) (b2f b) = .fin (x * (if b then 1 else 0)) := by
    intro x b h
    rw [mul_b2f h]
    cases b <;> simp
  cases kernel with
  | none =>
    cases maxDx with
    | none =>
      show sum _ = _
      refine congrArg sum ?_
      refine congrArg (List.map Num.fin) ?_
      have : ∀ (xs : List ℚ) (ds : List Num), (∀ x ∈ xs, WeightOk x) → xs.length = ds.length → xs = List.zipWith (fun x d => rnd (x * coef none none d)) xs ds := by
        intro xs
        induction xs with
        | nil => intro ds _ _; simp
        | cons x t ih =>
          intro ds hx hl
          cases ds with
          | nil => simp at hl
          | cons d ds =>
            simp only [List.zipWith_cons_cons]
            rw [← ih ds (fun y hy => hx y (by simp [hy])) (by simpa using hl)]
            have : coef none none d = 1 := by simp [coef, kerVal, reach]
            rw [this, mul_one, show rnd x = x from (hx x (by simp)).1]
      exact this xs ds hx hl
    | some r =>
      show sum (mulL _ ((ds.map fun d => Num.lt d r).map b2f)) = _
      refine congrArg sum ?_
      unfold mulL
      rw [List.map_map, List.zipWith_map, List.map_zipWith]
      refine zipWith_congr' _ _ fun x h d hd => ?_
      have f := coef_bounds hk (some r) hd
      show Num.mul (.fin x) (b2f (Num.lt d r)) = _
      rw [b2 x _ (hx x h).dbl]
      have e : coef none (some r) d = if Num.lt d r then 1 else 0 := by simp [coef, kerVal, reach]
      rw [e]
      have : IsF (x * (if Num.lt d r then 1 else 0)) := by
        split
        · rw [mul_one]; exact (hx x h).1
        · rw [mul_zero]; exact zero_isF
      rw [show rnd _ = _ from this]
  | some k =>
    cases maxDx with
    | none =>
      show sum (mulL _ (ds.map k)) = _
      refine congrArg sum ?_
      unfold mulL
      rw [List.zipWith_map, List.map_zipWith]
      refine zipWith_congr' _ _ fun x h d hd => ?_
      obtain ⟨v, e, f, v0, v1⟩ := hk k rfl d hd
      have e2 : coef (some k) none d = v := by simp [coef, kerVal, reach, e, val]
      rw [e, e2, mul_coef (hx x h) v0 v1]
    | some r =>
      show sum (mulL _ (mulL (ds.map k) ((ds.map fun d => Num.lt d r).map b2f))) = _
      refine congrArg sum ?_
      have e0 : mulL (ds.map k) ((ds.map fun d => Num.lt d r).map b2f) = ds.map fun d => Num.mul (k d) (b2f (Num.lt d r)) := by
        unfold mulL
        rw [List.map_map, List.zipWith_map, List.zipWith_self]
        rfl
      rw [e0]
      unfold mulL
      rw [List.zipWith_map, List.map_zipWith]
      refine zipWith_congr' _ _ fun x h d hd => ?_
      obtain ⟨f0, f1, f2⟩ := coef_bounds hk (some r) hd
      obtain ⟨v, e, f, v0, v1⟩ := hk k rfl d hd
      have e2 : coef (some k) (some r) d = v * (if Num.lt d r then 1 else 0) := by simp [coef, kerVal, reach, e, val]
      rw [e, b2 v _ ⟨f, by rw [abs_of_nonneg v0]; exact lt_of_le_of_lt v1 (one_lt_pow₀ (by norm_num) (by norm_num))⟩, ← e2, mul_coef (hx x h) f1 f2]

/-- The sum of rounded products. -/
theorem total_err (sum : List Num → Num) (hs : IsSum sum) (ps : List ℚ) (hp : ∀ p ∈ ps, 0 ≤ p ∧ p ≤ 2 ^ 480) (hn : ps.length ≤ 2 ^ 40) :
    ∃ b : ℚ, sum ((ps.map rnd).map .fin) = .fin b ∧ IsF b ∧ |b - ps.sum| ≤ ps.length * 2 ^ (-52 : ℤ) * ps.sum + ps.length * 2 ^ (-1074 : ℤ) := by
  have hB : ∀ x ∈ ps.map rnd, IsF x ∧ 0 ≤ x ∧ x ≤ 2 ^ 480 := by
    intro x hx
    obtain ⟨p, h, rfl⟩ := List.mem_map.mp hx
    exact ⟨isF_rnd _, rnd_nonneg (hp p h).1, rnd_le (hp p h).2 (npow_isF 480)⟩
  have nB : 0 ≤ (ps.map rnd).sum := List.sum_nonneg fun x hx => (hB x hx).2.1
  have S0 : 0 ≤ ps.sum := List.sum_nonneg fun x hx => (hp x hx).1
  have aB : absSum (ps.map rnd) = (ps.map rnd).sum := FloatContrast.absSum_eq fun x hx => (hB x hx).2.1
  have le520 : (ps.map rnd).sum ≤ 2 ^ 1022 := by
    have h := (sum_bounds (ps.map rnd) 0 (2 ^ 480) (fun x hx => (hB x hx).2)).2
    rw [List.length_map] at h
    have h2 : (ps.length : ℚ) ≤ 2 ^ 40 := by exact_mod_cast hn
    refine le_trans h (le_trans (mul_le_mul_of_nonneg_right h2 (by positivity)) ?_)
    rw [← pow_add]
    exact pow_le_pow_right₀ (by norm_num) (by norm_num)
  obtain ⟨b, e, fb, hb⟩ := sum_err sum hs (ps.map rnd) (fun x hx => (hB x hx).1) (by rw [List.length_map]; exact le_trans hn (by norm_num)) (by rw [aB]; exact le520)
  rw [aB, List.length_map] at hb
  refine ⟨b, e, fb, ?_⟩
  have each : ∀ l : List ℚ, (∀ p ∈ l, 0 ≤ p) → |(l.map rnd).sum - l.sum| ≤ 2 ^ (-53 : ℤ) * l.sum + l.length * 2 ^ (-1075 : ℤ) := by
    intro l
    induction l with
    | nil => intro _; simp
    | cons p t ih =>
      intro h
      have i1 := ih (fun q hq => h q (by simp [hq]))
      have i2 := FloatMesh.rnd_err_all p
      rw [abs_of_nonneg (h p (by simp))] at i2
      simp only [List.map_cons, List.sum_cons, List.length_cons]
      push_cast
      have ee : rnd p + (t.map rnd).sum - (p + t.sum) = (rnd p - p) + ((t.map rnd).sum - t.sum) := by ring
      rw [ee]
      refine le_trans (abs_add_le _ _) (le_trans (add_le_add i2 i1) (le_of_eq ?_))
      ring
  have hE := each ps (fun p h => (hp p h).1)
  rcases Nat.eq_zero_or_pos ps.length with h0 | h0
  · have : ps = [] := List.length_eq_zero_iff.mp h0
    subst this
    simpa using hb
  have n1 : ((ps.length - 1 : ℕ) : ℚ) = ps.length - 1 := by rw [Nat.cast_sub (by omega)]; norm_num
  rw [n1] at hb
  have hn' : (ps.length : ℚ) * 2 ^ (-52 : ℤ) ≤ 1 / 4096 := by
    have h : (ps.length : ℚ) ≤ 2 ^ 40 := by exact_mod_cast hn
    calc (ps.length : ℚ) * 2 ^ (-52 : ℤ) ≤ 2 ^ 40 * 2 ^ (-52 : ℤ) := mul_le_mul_of_nonneg_right h (pow_pos' _).le
      _ = 1 / 4096 := by norm_num
  have l1 : (1 : ℚ) ≤ ps.length := by exact_mod_cast h0
  have e52 : (2 : ℚ) ^ (-52 : ℤ) = 2 * 2 ^ (-53 : ℤ) := by norm_num
  have e1074 : (2 : ℚ) ^ (-1074 : ℤ) = 2 * 2 ^ (-1075 : ℤ) := by rw [show (-1074 : ℤ) = 1 + (-1075) by norm_num, zpow_add₀ (by norm_num)]; norm_num
  have u0 := pow_pos' (-53)
  have u1 : (2 : ℚ) ^ (-53 : ℤ) ≤ 1 := by norm_num
  have t0 := pow_pos' (-1075)
  rw [e1074]
  rw [e52] at hb hn' ⊢
  generalize (2 : ℚ) ^ (-53 : ℤ) = u at *
  generalize (2 : ℚ) ^ (-1075 : ℤ) = t at *
  generalize (ps.map rnd).sum = B at *
  generalize ps.sum = S at *
  generalize (ps.length : ℚ) = n at *
  have T : |b - S| ≤ |b - B| + |B - S| := by
    have := abs_add_le (b - B) (B - S)
    rwa [show b - B + (B - S) = b - S by ring] at this
  have hBS : B ≤ S + (u * S + n * t) := by linarith only [(abs_le.mp hE).2]
  have c0 : 0 ≤ (n - 1) * (2 * u) := mul_nonneg (by linarith only [l1]) (by linarith only [u0])
  have k1 : (n - 1) * (2 * u) * B ≤ (n - 1) * (2 * u) * (S + (u * S + n * t)) := mul_le_mul_of_nonneg_left hBS c0
  have nt : 0 ≤ n * t := mul_nonneg (by linarith only [l1]) t0.le
  have c1 : (n - 1) * (2 * u) ≤ 1 / 2 := by linarith only [hn', u0]
  have k2 : (n - 1) * (2 * u) * (n * t) ≤ 1 / 2 * (n * t) := mul_le_mul_of_nonneg_right c1 nt
  have k3 : (n - 1) * (2 * u) * (u * S) ≤ 1 / 2 * (u * S) := mul_le_mul_of_nonneg_right c1 (mul_nonneg u0.le S0)
  have uS : 0 ≤ u * S := mul_nonneg u0.le S0
  have x1 : (n - 1) * (2 * u) * (S + (u * S + n * t)) = 2 * (n * (u * S)) - 2 * (u * S) + (n - 1) * (2 * u) * (u * S) + (n - 1) * (2 * u) * (n * t) := by ring
  have x2 : n * (2 * u) * S + n * (2 * t) = 2 * (n * (u * S)) + 2 * (n * t) := by ring
  rw [x1] at k1
  rw [x2]
  linarith only [T, hb, hE, k1, k2, k3, uS, nt]

/-- The weight of a training point. -/
def wOf (weight : List ℚ) (i : Nat) : ℚ := weight.getD i 0

/-- The weight of a training point if it is masked, else 0. -/
def mOf (weight : List ℚ) (mask : List Bool) (i : Nat) : ℚ := if mask.getD i false then weight.getD i 0 else 0

/-- The exact kernel-weighted total of a quantity over the neighbours. -/
def total (kernel : Option (Num → Num)) (maxDx : Option Num) (g : Nat → ℚ) (ids : List Nat) (ds : List Num) : ℚ :=
  (List.zipWith (fun i d => g i * coef kernel maxDx d) ids ds).sum

theorem gather_weight {weight : List ℚ} {ids : List Nat} (hi : ∀ i ∈ ids, i < weight.length) :
    gather (weight.map .fin) ids = (ids.map (wOf weight)).map .fin := by
  unfold gather
  rw [List.map_map]
  refine List.map_congr_left fun i h => ?_
  exact getD_fin weight i (hi i h)

theorem gather_masked {weight : List ℚ} {mask : List Bool} {ids : List Nat} (hw : ∀ x ∈ weight, WeightOk x) (hm : mask.length = weight.length)
    (hi : ∀ i ∈ ids, i < weight.length) : gather (mulL (mask.map b2f) (weight.map .fin)) ids = (ids.map (mOf weight mask)).map .fin := by
  unfold gather
  rw [List.map_map]
  refine List.map_congr_left fun i h => ?_
  have hiw := hi i h
  have him : i < mask.length := by omega
  have hlen : i < (mulL (mask.map b2f) (weight.map .fin)).length := by simp [mulL]; omega
  rw [getD_lt _ _ _ hlen]
  have e : (mulL (mask.map b2f) (weight.map .fin))[i] = Num.mul (b2f mask[i]) (.fin weight[i]) := by simp [mulL]
  rw [e]
  show _ = Num.fin (if mask.getD i false then weight.getD i 0 else 0)
  rw [getD_lt _ _ _ him, getD_lt _ _ _ hiw]
  have ok := (hw _ (List.getElem_mem hiw)).dbl
  cases mask[i] with
  | false =>
    show ofQ (0 * weight[i]) = _
    rw [zero_mul, if_neg (by simp)]
    decide +kernel
  | true =>
    show ofQ (1 * weight[i]) = _
    rw [one_mul, ofQ_self ok]
    rfl

/-- C159 (masked fraction): for weights from 0 to 2^480, kernel values from 0 to 1 and up to 2^40 neighbours, the fraction is between 0 and 1, exactly 0 if no
neighbour is masked; if the neighbours' total weight is at least 2^-30 it is exactly 1 when all of them are masked and within (n + 1)·2^-49 of the exact
fraction. -/
theorem C159_fraction (sum : List Num → Num) (hs : SameOrder sum) {kernel : Option (Num → Num)} {ds : List Num} (hk : KernelOk kernel ds) (maxDx : Option Num)
    {weight : List ℚ} {mask : List Bool} {ids : List Nat} (hw : ∀ x ∈ weight, WeightOk x) (hm : mask.length = weight.length)
    (hi : ∀ i ∈ ids, i < weight.length) (hl : ids.length = ds.length) (hn : ids.length ≤ 2 ^ 40) :
    ∃ f : ℚ, maskedFraction sum kernel (weight.map .fin) mask maxDx ds ids = .fin f ∧ 0 ≤ f ∧ f ≤ 1 ∧
      ((∀ i ∈ ids, mask.getD i false = false) → f = 0) ∧
      (2 ^ (-30 : ℤ) ≤ total kernel maxDx (wOf weight) ids ds →
        ((∀ i ∈ ids, mask.getD i false = true) → f = 1) ∧
        |f - total kernel maxDx (mOf weight mask) ids ds / total kernel maxDx (wOf weight) ids ds| ≤ (ids.length + 1) * 2 ^ (-49 : ℤ)) := by
  have hsum := hs.isSum
  have z480 : (0 : ℚ) ≤ 2 ^ 480 := by positivity
  have W_ok : ∀ i ∈ ids, WeightOk (wOf weight i) := by
    intro i h
    unfold wOf
    rw [getD_lt _ _ _ (hi i h)]
    exact hw _ (List.getElem_mem _)
  have M_ok : ∀ i ∈ ids, WeightOk (mOf weight mask i) := by
    intro i h
    unfold mOf
    split
    · exact W_ok i h
    · exact ⟨zero_isF, le_rfl, z480⟩
  -- both sums
  have red : ∀ g : Nat → ℚ, (∀ i ∈ ids, WeightOk (g i)) →
      sum1 sum ((ids.map g).map .fin) (kernel.map fun k => ds.map k) (near ds maxDx) =
        sum (((List.zipWith (fun i d => g i * coef kernel maxDx d) ids ds).map rnd).map .fin) := by
    intro g hg
    rw [sum1_coef sum hk maxDx (ids.map g) (by
      intro x hx
      obtain ⟨i, h, rfl⟩ := List.mem_map.mp hx
      exact hg i h) (by simpa using hl)]
    rw [List.zipWith_map_left, List.map_zipWith, List.map_zipWith, List.map_zipWith]
  have prod_ok : ∀ g : Nat → ℚ, (∀ i ∈ ids, WeightOk (g i)) → ∀ p ∈ List.zipWith (fun i d => g i * coef kernel maxDx d) ids ds, 0 ≤ p ∧ p ≤ 2 ^ 480 := by
    intro g hg p hp
    rw [← List.map_uncurry_zip_eq_zipWith] at hp
    obtain ⟨⟨i, d⟩, h, rfl⟩ := List.mem_map.mp hp
    obtain ⟨h1, h2⟩ := List.of_mem_zip h
    obtain ⟨-, c0, c1⟩ := coef_bounds hk maxDx h2
    obtain ⟨-, g0, g1⟩ := hg i h1
    exact ⟨mul_nonneg g0 c0, le_trans (mul_le_of_le_one_right g0 c1) g1⟩
  have len : ∀ g : Nat → ℚ, (List.zipWith (fun i d => g i * coef kernel maxDx d) ids ds).length = ids.length := by intro g; simp [hl]
  obtain ⟨b, eb, fb, hb⟩ := total_err sum hsum _ (prod_ok _ W_ok) (by rw [len]; exact hn)
  obtain ⟨a, ea, fa, ha⟩ := total_err sum hsum _ (prod_ok _ M_ok) (by rw [len]; exact hn)
  rw [len] at hb ha
  have Mle : ∀ i ∈ ids, mOf weight mask i ≤ wOf weight i := by
    intro i h
    unfold mOf
    split
    · exact le_rfl
    · exact (W_ok i h).2.1
  -- the masked sum is at most the whole one
  have hab : 0 ≤ a ∧ a ≤ b := by
    obtain ⟨t, ht, et⟩ := hs ids.length
    have l1 : ∀ g : Nat → ℚ, (((List.zipWith (fun i d => g i * coef kernel maxDx d) ids ds).map rnd).map Num.fin).length = ids.length := by intro g; simp [hl]
    have := eval_le (((List.zipWith (fun i d => mOf weight mask i * coef kernel maxDx d) ids ds).map rnd).map .fin)
      (((List.zipWith (fun i d => wOf weight i * coef kernel maxDx d) ids ds).map rnd).map .fin) t (by
        intro i h
        have hil : i < ids.length := by simpa using ht.mem_iff.mp h
        rw [getD_lt _ _ _ (by rw [l1]; exact hil), getD_lt _ _ _ (by rw [l1]; exact hil)]
        simp only [List.getElem_map, List.getElem_zipWith]
        obtain ⟨-, c0, c1⟩ := coef_bounds hk maxDx (List.getElem_mem (by omega : i < ds.length))
        have hm' := List.getElem_mem hil
        exact ⟨decide_eq_true (rnd_nonneg (mul_nonneg (M_ok _ hm').2.1 c0)), decide_eq_true (rnd_mono (mul_le_mul_of_nonneg_right (Mle _ hm') c0))⟩)
    rw [← et _ (l1 _), ← et _ (l1 _), ea, eb] at this
    exact ⟨of_decide_eq_true this.1, of_decide_eq_true this.2⟩
  have el : ofQ (1 / 10 ^ 10) = .fin (rnd (1 / 10 ^ 10)) := FloatContrast.low_eq
  have L0 : 0 < rnd (1 / 10 ^ 10) := lt_of_lt_of_le (pow_pos' _) FloatContrast.low_ge
  have L1 : rnd (1 / 10 ^ 10) ≤ 2 ^ (-33 : ℤ) := by decide +kernel
  have eF : maskedFraction sum kernel (weight.map .fin) mask maxDx ds ids = Num.div (.fin a) (.fin (max b (rnd (1 / 10 ^ 10)))) := by
    show Num.div (sum1 sum (gather (mulL (mask.map b2f) (weight.map .fin)) ids) (kernel.map fun k => ds.map k) (near ds maxDx))
      (clipLo (sum1 sum (gather (weight.map .fin) ids) (kernel.map fun k => ds.map k) (near ds maxDx)) (ofQ (1 / 10 ^ 10))) = _
    rw [gather_weight hi, gather_masked hw hm hi, red _ W_ok, red _ M_ok, ea, eb, el]
    unfold clipLo
    simp only [Num.lt, decide_eq_true_eq]
    split
    · rename_i h; rw [max_eq_right h.le]
    · rename_i h; rw [max_eq_left (not_lt.mp h)]
  have m0 : 0 < max b (rnd (1 / 10 ^ 10)) := lt_of_lt_of_le L0 (le_max_right _ _)
  have q0 : 0 ≤ a / max b (rnd (1 / 10 ^ 10)) := div_nonneg hab.1 m0.le
  have q1 : a / max b (rnd (1 / 10 ^ 10)) ≤ 1 := by
    rw [div_le_one m0]
    exact le_trans hab.2 (le_max_left _ _)
  refine ⟨rnd (a / max b (rnd (1 / 10 ^ 10))), ?_, rnd_nonneg q0, rnd_le q1 FloatLinear.one_isF, ?_, ?_⟩
  · rw [eF, FloatStandardize.div_fin m0.ne' (le1023 q0 q1)]
  · intro hz
    have : a = 0 := by
      have e := sum_zeros sum hsum ((List.zipWith (fun i d => mOf weight mask i * coef kernel maxDx d) ids ds).map rnd) (by
        intro x hx
        obtain ⟨p, hp, rfl⟩ := List.mem_map.mp hx
        rw [← List.map_uncurry_zip_eq_zipWith] at hp
        obtain ⟨⟨i, d⟩, h, rfl⟩ := List.mem_map.mp hp
        have : mOf weight mask i = 0 := by
          unfold mOf
          rw [hz i (List.of_mem_zip h).1]
          rfl
        show rnd (mOf weight mask i * coef kernel maxDx d) = 0
        rw [this, zero_mul, rnd_zero])
      exact Num.fin.inj (ea.symm.trans e)
    rw [this, zero_div, rnd_zero]
  · intro hT
    have T0 : 0 < total kernel maxDx (wOf weight) ids ds := lt_of_lt_of_le (pow_pos' _) hT
    have hP0 : 0 ≤ total kernel maxDx (mOf weight mask) ids ds := List.sum_nonneg fun p hp => (prod_ok _ M_ok p hp).1
    have hPT : total kernel maxDx (mOf weight mask) ids ds ≤ total kernel maxDx (wOf weight) ids ds := by
      unfold total
      refine List.Forall₂.sum_le_sum ?_
      rw [List.forall₂_iff_get]
      refine ⟨by rw [len, len], fun i h1 h2 => ?_⟩
      have hil : i < ids.length := by rw [len] at h1; exact h1
      simp only [List.get_eq_getElem, List.getElem_zipWith]
      obtain ⟨-, c0, c1⟩ := coef_bounds hk maxDx (List.getElem_mem (by omega : i < ds.length))
      exact mul_le_mul_of_nonneg_right (Mle _ (List.getElem_mem hil)) c0
    have hb' : |b - total kernel maxDx (wOf weight) ids ds| ≤ ids.length * 2 ^ (-52 : ℤ) * total kernel maxDx (wOf weight) ids ds + ids.length * 2 ^ (-1074 : ℤ) := hb
    have ha' : |a - total kernel maxDx (mOf weight mask) ids ds| ≤ ids.length * 2 ^ (-52 : ℤ) * total kernel maxDx (mOf weight mask) ids ds + ids.length * 2 ^ (-1074 : ℤ) := ha
    have hall : (∀ i ∈ ids, mask.getD i false = true) → a = b := by
      intro h
      have e : List.zipWith (fun i d => mOf weight mask i * coef kernel maxDx d) ids ds = List.zipWith (fun i d => wOf weight i * coef kernel maxDx d) ids ds :=
        zipWith_congr' _ _ fun i hi' d _ => by
          have : mOf weight mask i = wOf weight i := by
            unfold mOf
            rw [h i hi', if_pos rfl]
            rfl
          rw [this]
      rw [e, eb] at ea
      exact (Num.fin.inj ea).symm
    generalize total kernel maxDx (wOf weight) ids ds = T at *
    generalize total kernel maxDx (mOf weight mask) ids ds = P at *
    have n0 : (0 : ℚ) ≤ ids.length := Nat.cast_nonneg _
    have hn' : (ids.length : ℚ) * 2 ^ (-52 : ℤ) ≤ 1 / 4096 := by
      have h : (ids.length : ℚ) ≤ 2 ^ 40 := by exact_mod_cast hn
      calc (ids.length : ℚ) * 2 ^ (-52 : ℤ) ≤ 2 ^ 40 * 2 ^ (-52 : ℤ) := mul_le_mul_of_nonneg_right h (pow_pos' _).le
        _ = 1 / 4096 := by norm_num
    have tiny : (2 : ℚ) ^ (-1074 : ℤ) ≤ 2 ^ (-52 : ℤ) * T := by
      refine le_trans ?_ (mul_le_mul_of_nonneg_left hT (pow_pos' _).le)
      rw [← zpow_add₀ (by norm_num)]
      exact zpow_le_zpow_right₀ (by norm_num) (by norm_num)
    have tiny' : (ids.length : ℚ) * 2 ^ (-1074 : ℤ) ≤ ids.length * 2 ^ (-52 : ℤ) * T := by
      rw [mul_assoc]
      exact mul_le_mul_of_nonneg_left tiny n0
    have p0 : (0 : ℚ) ≤ ids.length * 2 ^ (-52 : ℤ) := mul_nonneg n0 (pow_pos' _).le
    have e1 : |b - T| ≤ 2 * (ids.length * 2 ^ (-52 : ℤ)) * T := by linarith only [hb', tiny']
    have e2 : |a - P| ≤ 2 * (ids.length * 2 ^ (-52 : ℤ)) * T := by
      have := mul_le_mul_of_nonneg_left hPT p0
      linarith only [ha', tiny', this]
    have e33 : (2 : ℚ) ^ (-33 : ℤ) * 8 = 2 ^ (-30 : ℤ) := by norm_num
    have hη : 2 * (ids.length * 2 ^ (-52 : ℤ)) * T ≤ 1 / 2048 * T := mul_le_mul_of_nonneg_right (by linarith only [hn']) T0.le
    have bT : T ≤ 2 * b := by
      have := (abs_le.mp e1).1
      generalize 2 * (ids.length * (2 : ℚ) ^ (-52 : ℤ)) * T = z at *
      linarith only [this, hη, T0]
    have hbm : max b (rnd (1 / 10 ^ 10)) = b := max_eq_left (by
      refine le_trans L1 ?_
      generalize (2 : ℚ) ^ (-33 : ℤ) = z at *
      generalize (2 : ℚ) ^ (-30 : ℤ) = z' at *
      linarith only [hT, bT, e33, T0])
    have b0 : 0 < b := by linarith only [bT, T0]
    rw [hbm] at q0 q1 ⊢
    constructor
    · intro h
      rw [hall h, div_self b0.ne']
      exact FloatLinear.one_isF
    · have r1 := FloatMesh.rnd_err_all (a / b)
      rw [abs_of_nonneg q0] at r1
      have r2 : |a / b - P / T| ≤ 8 * (ids.length * 2 ^ (-52 : ℤ)) := by
        have ee : a / b - P / T = (a - P) / b + P / T * ((T - b) / b) := by
          field_simp
          ring
        have pt : P / T ≤ 1 := by rw [div_le_one T0]; exact hPT
        have pt0 : 0 ≤ P / T := div_nonneg hP0 T0.le
        have g1 : |(a - P) / b| ≤ 4 * (ids.length * 2 ^ (-52 : ℤ)) := by
          rw [abs_div, abs_of_pos b0, div_le_iff₀ b0]
          have := mul_le_mul_of_nonneg_left bT (mul_nonneg (by norm_num : (0 : ℚ) ≤ 2) p0)
          linarith only [e2, this]
        have g2 : |(T - b) / b| ≤ 4 * (ids.length * 2 ^ (-52 : ℤ)) := by
          rw [abs_div, abs_of_pos b0, div_le_iff₀ b0, abs_sub_comm]
          have := mul_le_mul_of_nonneg_left bT (mul_nonneg (by norm_num : (0 : ℚ) ≤ 2) p0)
          linarith only [e1, this]
        rw [ee]
        refine le_trans (abs_add_le _ _) ?_
        rw [abs_mul, abs_of_nonneg pt0]
        have g3 : P / T * |(T - b) / b| ≤ 1 * |(T - b) / b| := mul_le_mul_of_nonneg_right pt (abs_nonneg _)
        linarith only [g1, g2, g3]
      have T' : |rnd (a / b) - P / T| ≤ |rnd (a / b) - a / b| + |a / b - P / T| := by
        have := abs_add_le (rnd (a / b) - a / b) (a / b - P / T)
        rwa [show rnd (a / b) - a / b + (a / b - P / T) = rnd (a / b) - P / T by ring] at this
      have s1 : (2 : ℚ) ^ (-53 : ℤ) * (a / b) ≤ 2 ^ (-53 : ℤ) * 1 := mul_le_mul_of_nonneg_left q1 (pow_pos' _).le
      have s2 : (2 : ℚ) ^ (-1075 : ℤ) ≤ 2 ^ (-53 : ℤ) := zpow_le_zpow_right₀ (by norm_num) (by norm_num)
      have s3 : (2 : ℚ) ^ (-49 : ℤ) = 8 * 2 ^ (-52 : ℤ) := by norm_num
      have s4 : (2 : ℚ) ^ (-53 : ℤ) + 2 ^ (-53 : ℤ) ≤ 2 ^ (-49 : ℤ) := by norm_num
      have s5 : ((ids.length : ℚ) + 1) * 2 ^ (-49 : ℤ) = 8 * (ids.length * 2 ^ (-52 : ℤ)) + 2 ^ (-49 : ℤ) := by rw [s3]; ring
      rw [s5]
      generalize (2 : ℚ) ^ (-53 : ℤ) = x1 at *
      generalize (2 : ℚ) ^ (-49 : ℤ) = x2 at *
      generalize (2 : ℚ) ^ (-1075 : ℤ) = x3 at *
      generalize (ids.length : ℚ) * (2 : ℚ) ^ (-52 : ℤ) = x4 at *
      linarith only [T', r1, r2, s1, s2, s4]

/-- The fraction is the rounded quotient of two sums, one at most the other. -/
theorem frac_form (sum : List Num → Num) (hs : SameOrder sum) {kernel : Option (Num → Num)} {ds : List Num} (hk : KernelOk kernel ds) (maxDx : Option Num)
    {weight : List ℚ} {mask : List Bool} {ids : List Nat} (hw : ∀ x ∈ weight, WeightOk x) (hm : mask.length = weight.length)
    (hi : ∀ i ∈ ids, i < weight.length) (hl : ids.length = ds.length) (hn : ids.length ≤ 2 ^ 40) :
    ∃ a b : ℚ, sum (((List.zipWith (fun i d => mOf weight mask i * coef kernel maxDx d) ids ds).map rnd).map .fin) = .fin a ∧
      sum (((List.zipWith (fun i d => wOf weight i * coef kernel maxDx d) ids ds).map rnd).map .fin) = .fin b ∧ 0 ≤ a ∧ a ≤ b ∧
      maskedFraction sum kernel (weight.map .fin) mask maxDx ds ids = .fin (rnd (a / max b (rnd (1 / 10 ^ 10)))) := by
  have hsum := hs.isSum
  have z480 : (0 : ℚ) ≤ 2 ^ 480 := by positivity
  have W_ok : ∀ i ∈ ids, WeightOk (wOf weight i) := by
    intro i h
    unfold wOf
    rw [getD_lt _ _ _ (hi i h)]
    exact hw _ (List.getElem_mem _)
  have M_ok : ∀ i ∈ ids, WeightOk (mOf weight mask i) := by
    intro i h
    unfold mOf
    split
    · exact W_ok i h
    · exact ⟨zero_isF, le_rfl, z480⟩
  -- both sums
  have red : ∀ g : Nat → ℚ, (∀ i ∈ ids, WeightOk (g i)) →
      sum1 sum ((ids.map g).map .fin) (kernel.map fun k => ds.map k) (near ds maxDx) =
        sum (((List.zipWith (fun i d => g i * coef kernel maxDx d) ids ds).map rnd).map .fin) := by
    intro g hg
    rw [sum1_coef sum hk maxDx (ids.map g) (by
      intro x hx
      obtain ⟨i, h, rfl⟩ := List.mem_map.mp hx
      exact hg i h) (by simpa using hl)]
    rw [List.zipWith_map_left, List.map_zipWith, List.map_zipWith, List.map_zipWith]
  have prod_ok : ∀ g : Nat → ℚ, (∀ i ∈ ids, WeightOk (g i)) → ∀ p ∈ List.zipWith (fun i d => g i * coef kernel maxDx d) ids ds, 0 ≤ p ∧ p ≤ 2 ^ 480 := by
    intro g hg p hp
    rw [← List.map_uncurry_zip_eq_zipWith] at hp
    obtain ⟨⟨i, d⟩, h, rfl⟩ := List.mem_map.mp hp
    obtain ⟨h1, h2⟩ := List.of_mem_zip h
    obtain ⟨-, c0, c1⟩ := coef_bounds hk maxDx h2
    obtain ⟨-, g0, g1⟩ := hg i h1
    exact ⟨mul_nonneg g0 c0, le_trans (mul_le_of_le_one_right g0 c1) g1⟩
  have len : ∀ g : Nat → ℚ, (List.zipWith (fun i d => g i * coef kernel maxDx d) ids ds).length = ids.length := by intro g; simp [hl]
  obtain ⟨b, eb, fb, hb⟩ := total_err sum hsum _ (prod_ok _ W_ok) (by rw [len]; exact hn)
  obtain ⟨a, ea, fa, ha⟩ := total_err sum hsum _ (prod_ok _ M_ok) (by rw [len]; exact hn)
  rw [len] at hb ha
  have Mle : ∀ i ∈ ids, mOf weight mask i ≤ wOf weight i := by
    intro i h
    unfold mOf
    split
    · exact le_rfl
    · exact (W_ok i h).2.1
  -- the masked sum is at most the whole one
  have hab : 0 ≤ a ∧ a ≤ b := by
    obtain ⟨t, ht, et⟩ := hs ids.length
    have l1 : ∀ g : Nat → ℚ, (((List.zipWith (fun i d => g i * coef kernel maxDx d) ids ds).map rnd).map Num.fin).length = ids.length := by intro g; simp [hl]
    have := eval_le (((List.zipWith (fun i d => mOf weight mask i * coef kernel maxDx d) ids ds).map rnd).map .fin)
      (((List.zipWith (fun i d => wOf weight i * coef kernel maxDx d) ids ds).map rnd).map .fin) t (by
        intro i h
        have hil : i < ids.length := by simpa using ht.mem_iff.mp h
        rw [getD_lt _ _ _ (by rw [l1]; exact hil), getD_lt _ _ _ (by rw [l1]; exact hil)]
        simp only [List.getElem_map, List.getElem_zipWith]
        obtain ⟨-, c0, c1⟩ := coef_bounds hk maxDx (List.getElem_mem (by omega : i < ds.length))
        have hm' := List.getElem_mem hil
        exact ⟨decide_eq_true (rnd_nonneg (mul_nonneg (M_ok _ hm').2.1 c0)), decide_eq_true (rnd_mono (mul_le_mul_of_nonneg_right (Mle _ hm') c0))⟩)
    rw [← et _ (l1 _), ← et _ (l1 _), ea, eb] at this
    exact ⟨of_decide_eq_true this.1, of_decide_eq_true this.2⟩
  have el : ofQ (1 / 10 ^ 10) = .fin (rnd (1 / 10 ^ 10)) := FloatContrast.low_eq
  have L0 : 0 < rnd (1 / 10 ^ 10) := lt_of_lt_of_le (pow_pos' _) FloatContrast.low_ge
  have L1 : rnd (1 / 10 ^ 10) ≤ 2 ^ (-33 : ℤ) := by decide +kernel
  have eF : maskedFraction sum kernel (weight.map .fin) mask maxDx ds ids = Num.div (.fin a) (.fin (max b (rnd (1 / 10 ^ 10)))) := by
    show Num.div (sum1 sum (gather (mulL (mask.map b2f) (weight.map .fin)) ids) (kernel.map fun k => ds.map k) (near ds maxDx))
      (clipLo (sum1 sum (gather (weight.map .fin) ids) (kernel.map fun k => ds.map k) (near ds maxDx)) (ofQ (1 / 10 ^ 10))) = _
    rw [gather_weight hi, gather_masked hw hm hi, red _ W_ok, red _ M_ok, ea, eb, el]
    unfold clipLo
    simp only [Num.lt, decide_eq_true_eq]
    split
    · rename_i h; rw [max_eq_right h.le]
    · rename_i h; rw [max_eq_left (not_lt.mp h)]
  have m0 : 0 < max b (rnd (1 / 10 ^ 10)) := lt_of_lt_of_le L0 (le_max_right _ _)
  have q0 : 0 ≤ a / max b (rnd (1 / 10 ^ 10)) := div_nonneg hab.1 m0.le
  have q1 : a / max b (rnd (1 / 10 ^ 10)) ≤ 1 := by
    rw [div_le_one m0]
    exact le_trans hab.2 (le_max_left _ _)
  exact ⟨a, b, ea, eb, hab.1, hab.2, by rw [eF, FloatStandardize.div_fin m0.ne' (le1023 q0 q1)]⟩

/-- C159 (more masked points): masking more neighbours never lowers the fraction, rounding included. -/
theorem C159_more (sum : List Num → Num) (hs : SameOrder sum) {kernel : Option (Num → Num)} {ds : List Num} (hk : KernelOk kernel ds) (maxDx : Option Num)
    {weight : List ℚ} {mask mask' : List Bool} {ids : List Nat} (hw : ∀ x ∈ weight, WeightOk x) (hm : mask.length = weight.length)
    (hm' : mask'.length = weight.length) (hi : ∀ i ∈ ids, i < weight.length) (hl : ids.length = ds.length) (hn : ids.length ≤ 2 ^ 40)
    (hsub : ∀ i ∈ ids, mask.getD i false = true → mask'.getD i false = true) :
    ∃ f f' : ℚ, maskedFraction sum kernel (weight.map .fin) mask maxDx ds ids = .fin f ∧
      maskedFraction sum kernel (weight.map .fin) mask' maxDx ds ids = .fin f' ∧ f ≤ f' := by
  obtain ⟨a, b, ea, eb, a0, ab, e⟩ := frac_form sum hs hk maxDx hw hm hi hl hn
  obtain ⟨a', b', ea', eb', a0', ab', e'⟩ := frac_form sum hs hk maxDx hw hm' hi hl hn
  obtain rfl : b = b' := Num.fin.inj (eb.symm.trans eb')
  have haa : a ≤ a' := by
    obtain ⟨t, ht, et⟩ := hs ids.length
    have l1 : ∀ g : Nat → ℚ, (((List.zipWith (fun i d => g i * coef kernel maxDx d) ids ds).map rnd).map Num.fin).length = ids.length := by intro g; simp [hl]
    have := eval_le (((List.zipWith (fun i d => mOf weight mask i * coef kernel maxDx d) ids ds).map rnd).map .fin)
      (((List.zipWith (fun i d => mOf weight mask' i * coef kernel maxDx d) ids ds).map rnd).map .fin) t (by
        intro i h
        have hil : i < ids.length := by simpa using ht.mem_iff.mp h
        rw [getD_lt _ _ _ (by rw [l1]; exact hil), getD_lt _ _ _ (by rw [l1]; exact hil)]
        simp only [List.getElem_map, List.getElem_zipWith]
        obtain ⟨-, c0, c1⟩ := coef_bounds hk maxDx (List.getElem_mem (by omega : i < ds.length))
        have hmem := List.getElem_mem hil
        have w0 : 0 ≤ weight.getD ids[i] 0 := by
          rw [getD_lt _ _ _ (hi _ hmem)]
          exact (hw _ (List.getElem_mem _)).2.1
        have M0 : 0 ≤ mOf weight mask ids[i] := by
          unfold mOf
          split
          · exact w0
          · exact le_rfl
        have MM : mOf weight mask ids[i] ≤ mOf weight mask' ids[i] := by
          unfold mOf
          split
          · rename_i h1; rw [if_pos (hsub _ hmem h1)]
          · split
            · exact w0
            · exact le_rfl
        exact ⟨decide_eq_true (rnd_nonneg (mul_nonneg M0 c0)), decide_eq_true (rnd_mono (mul_le_mul_of_nonneg_right MM c0))⟩)
    rw [← et _ (l1 _), ← et _ (l1 _), ea, ea'] at this
    exact of_decide_eq_true this.2
  have m0 : 0 ≤ max b (rnd (1 / 10 ^ 10)) := le_trans (le_trans a0 ab) (le_max_left _ _)
  exact ⟨_, _, e, e', rnd_mono (div_le_div_of_nonneg_right haa m0)⟩

/-- Adding up to 2^53 zeros and ones is exact. -/
theorem sum_flags (sum : List Num → Num) (hs : IsSum sum) (bs : List Bool) (hn : bs.length ≤ 2 ^ 53) :
    sum ((bs.map fun b => if b then (1 : ℚ) else 0).map .fin) = .fin ((bs.count true : ℕ) : ℚ) := by
  obtain ⟨t, ht, e⟩ := hs ((bs.map fun b => if b then (1 : ℚ) else 0).map .fin)
  have ez : bs.map (fun b => if b then (1 : ℚ) else 0) = (bs.map fun b => if b then (1 : ℤ) else 0).map (fun z : ℤ => (z : ℚ)) := by
    rw [List.map_map]
    refine List.map_congr_left fun b _ => ?_
    cases b <;> simp
  have hS : (bs.map fun b => if b then (1 : ℚ) else 0).sum = ((bs.count true : ℕ) : ℚ) := by
    clear * -
    induction bs with
    | nil => simp
    | cons b t ih => cases b <;> simp [ih]; ring
  have hA : absSum (bs.map fun b => if b then (1 : ℚ) else 0) = ((bs.count true : ℕ) : ℚ) := by
    rw [← hS]
    unfold absSum
    rw [List.map_map]
    refine congrArg List.sum (List.map_congr_left fun b _ => ?_)
    cases b <;> simp
  have hp : (vals (bs.map fun b => if b then (1 : ℚ) else 0) t).Perm _ := vals_perm _ t (by simpa using ht)
  have hlt : ∀ i ∈ t.leaves, i < (bs.map fun b => if b then (1 : ℤ) else 0).length := by
    intro i hi
    simpa using ht.mem_iff.mp hi
  have := (eval_int (bs.map fun b => if b then (1 : ℤ) else 0) t hlt (by
    rw [← ez, absSum_perm hp, hA]
    have h : bs.count true ≤ 2 ^ 53 := le_trans List.count_le_length hn
    exact_mod_cast h)).1
  rw [← ez] at this
  rw [e, this, hp.sum_eq, hS]

/-- Whether a neighbour at distance `d` counts. -/
def inReach (d : Num) : Option Num → Bool
  | none => true
  | some r => Num.lt d r

/-- C159 (counts): without weights and kernel the fraction is the number of masked neighbours within reach over the number of neighbours within reach,
correctly rounded, and 0 if there is none. -/
theorem C159_counts (sum : List Num → Num) (hs : SameOrder sum) (maxDx : Option Num) (N : Nat) {ds : List Num} {mask : List Bool} {ids : List Nat}
    (hm : mask.length = N) (hi : ∀ i ∈ ids, i < N) (hl : ids.length = ds.length) (hn : ids.length ≤ 2 ^ 40) :
    let within := (ids.zip ds).filter fun p => inReach p.2 maxDx
    maskedFraction sum none (List.replicate N (.fin 1)) mask maxDx ds ids =
      .fin (if within.length = 0 then 0 else rnd ((within.filter fun p => mask.getD p.1 false).length / within.length)) := by
  intro within
  have hw : ∀ x ∈ List.replicate N (1 : ℚ), WeightOk x := by
    intro x hx
    rw [(List.mem_replicate.mp hx).2]
    exact ⟨FloatLinear.one_isF, by norm_num, one_le_pow₀ (by norm_num)⟩
  obtain ⟨a, b, ea, eb, a0, ab, e⟩ := frac_form sum hs (kernel := none) (ds := ds) (fun k h => by cases h) maxDx (weight := List.replicate N 1) (mask := mask)
    (ids := ids) hw (by simpa using hm) (by simpa using hi) hl hn
  have cf : ∀ d, coef none maxDx d = if inReach d maxDx then 1 else 0 := by
    intro d
    cases maxDx with
    | none => simp [coef, kerVal, reach, inReach]
    | some r => cases h : Num.lt d r <;> simp [coef, kerVal, reach, inReach, h]
  have wi : ∀ i ∈ ids, wOf (List.replicate N 1) i = 1 := by
    intro i h
    unfold wOf
    rw [getD_lt _ _ _ (by simpa using hi i h)]
    simp
  have mi : ∀ i ∈ ids, mOf (List.replicate N 1) mask i = if mask.getD i false then 1 else 0 := by
    intro i h
    unfold mOf
    rw [show (List.replicate N (1 : ℚ)).getD i 0 = 1 from wi i h]
  have eW : (List.zipWith (fun i d => wOf (List.replicate N 1) i * coef none maxDx d) ids ds).map rnd =
      ((ids.zip ds).map fun p => inReach p.2 maxDx).map fun b => if b then (1 : ℚ) else 0 := by
    rw [← List.map_uncurry_zip_eq_zipWith, List.map_map, List.map_map]
    refine List.map_congr_left ?_
    rintro ⟨i, d⟩ h
    show rnd (wOf (List.replicate N 1) i * coef none maxDx d) = if inReach d maxDx then (1 : ℚ) else 0
    rw [wi i (List.of_mem_zip h).1, cf]
    split
    · rw [one_mul]; exact FloatLinear.one_isF
    · rw [mul_zero, rnd_zero]
  have eM : (List.zipWith (fun i d => mOf (List.replicate N 1) mask i * coef none maxDx d) ids ds).map rnd =
      ((ids.zip ds).map fun p => inReach p.2 maxDx && mask.getD p.1 false).map fun b => if b then (1 : ℚ) else 0 := by
    rw [← List.map_uncurry_zip_eq_zipWith, List.map_map, List.map_map]
    refine List.map_congr_left ?_
    rintro ⟨i, d⟩ h
    show rnd (mOf (List.replicate N 1) mask i * coef none maxDx d) = if inReach d maxDx && mask.getD i false then (1 : ℚ) else 0
    rw [mi i (List.of_mem_zip h).1, cf]
    by_cases h1 : inReach d maxDx = true
    · by_cases h2 : mask.getD i false = true
      · rw [if_pos h2, if_pos h1, if_pos (by rw [h1, h2]; rfl), one_mul]; exact FloatLinear.one_isF
      · rw [if_neg h2, zero_mul, rnd_zero, if_neg (by rw [Bool.not_eq_true _ |>.mp h2]; simp)]
    · rw [if_neg h1, mul_zero, rnd_zero, if_neg (by simp [h1])]
  have hlen : (ids.zip ds).length ≤ 2 ^ 53 := by
    rw [List.length_zip, ← hl, min_self]
    exact le_trans hn (by norm_num)
  rw [eW, sum_flags sum hs.isSum _ (by rw [List.length_map]; exact hlen)] at eb
  rw [eM, sum_flags sum hs.isSum _ (by rw [List.length_map]; exact hlen)] at ea
  have cW : ((ids.zip ds).map fun p => inReach p.2 maxDx).count true = within.length := by
    show _ = ((ids.zip ds).filter fun p => inReach p.2 maxDx).length
    rw [← List.countP_eq_length_filter, List.count, List.countP_map]
    refine List.countP_congr fun p _ => ?_
    simp
  have cM : ((ids.zip ds).map fun p => inReach p.2 maxDx && mask.getD p.1 false).count true = (within.filter fun p => mask.getD p.1 false).length := by
    show _ = (((ids.zip ds).filter fun p => inReach p.2 maxDx).filter fun p => mask.getD p.1 false).length
    rw [List.filter_filter, ← List.countP_eq_length_filter, List.count, List.countP_map]
    refine List.countP_congr fun p _ => ?_
    simp [and_comm]
  rw [cW] at eb
  rw [cM] at ea
  obtain rfl := Num.fin.inj eb
  obtain rfl := Num.fin.inj ea
  rw [← List.map_replicate, e]
  refine congrArg Num.fin ?_
  have L1 : rnd (1 / 10 ^ 10) ≤ 2 ^ (-33 : ℤ) := by decide +kernel
  have L2 : (2 : ℚ) ^ (-33 : ℤ) ≤ 1 := by norm_num
  split
  · rename_i h0
    rw [h0] at ab
    have : ((within.filter fun p => mask.getD p.1 false).length : ℚ) = 0 := le_antisymm (by simpa using ab) (Nat.cast_nonneg _)
    rw [this, zero_div, rnd_zero]
  · rename_i h0
    have : (1 : ℚ) ≤ (within.length : ℚ) := by exact_mod_cast Nat.one_le_iff_ne_zero.mpr h0
    rw [max_eq_left (le_trans L1 (le_trans L2 this))]

/-- Three neighbours, two of them within reach, one of these masked. -/
example : maskedFraction leftSum none (List.replicate 4 (.fin 1)) [true, false, true, true] (some (.fin 3)) [.fin 1, .fin 2, .fin 3] [0, 1, 3] = .fin (1 / 2) := by
  decide +kernel

/-! ### Cases -/

/-- Adding from left to right uses the same order for all arrays of a length. -/
theorem leftSum_sameOrder : SameOrder leftSum := by
  intro n
  refine ⟨leftOrder n, ?_, fun xs hx => ?_⟩
  · have : ∀ (l : List Nat) (t : Order), (l.foldl (fun t i => Order.node t (.leaf i)) t).leaves = t.leaves ++ l := by
      intro l
      induction l with
      | nil => intro t; simp
      | cons i l ih => intro t; rw [List.foldl_cons, ih]; simp [Order.leaves]
    unfold leftOrder
    rw [this]
    simp [Order.leaves]
  · have : ∀ (l : List Nat) (t : Order), (l.foldl (fun t i => Order.node t (.leaf i)) t).eval xs =
        (l.map (fun i => xs.getD i .nan)).foldl Num.add (t.eval xs) := by
      intro l
      induction l with
      | nil => intro t; rfl
      | cons i l ih => intro t; rw [List.foldl_cons, ih, List.map_cons, List.foldl_cons]; rfl
    unfold leftOrder leftSum
    rw [this]
    congr 1
    apply List.ext_getElem
    · simp [hx]
    · intro i h1 h2
      simp [h1]

/-- A coarse exponential that satisfies the assumptions. -/
def stepExp (x : Num) : Num :=
  if x = .nan then .nan else if Num.le x (.fin (-746)) then .fin 0 else if Num.lt x (.fin 0) then .fin (1 / 2) else .fin 1

theorem stepExp_isExp : IsExp stepExp where
  neg := by
    intro x hx
    have hn : x ≠ .nan := by rintro rfl; cases hx
    unfold stepExp
    rw [if_neg hn]
    split
    · exact ⟨0, rfl, zero_isF, le_rfl, by norm_num⟩
    · split
      · exact ⟨1 / 2, rfl, by decide +kernel, by norm_num, by norm_num⟩
      · exact ⟨1, rfl, FloatLinear.one_isF, by norm_num, le_rfl⟩
  zero := by decide +kernel
  under := by
    intro x hx
    have hn : x ≠ .nan := by rintro rfl; cases hx
    unfold stepExp
    rw [if_neg hn, if_pos hx]
  nan := rfl

example : gaussian stepExp (.fin 1) (.fin 2) = .fin (1 / 2) ∧ gaussian stepExp (.fin 1) (.fin 40) = .fin 0 := by decide +kernel

/-- Three neighbours of weights 1, 2 and 5, the middle one masked, one out of reach. -/
example : maskedFraction leftSum none [.fin 1, .fin 2, .fin 5] [false, true, false] (some (.fin 3)) [.fin 0, .fin 2, .fin 3] [0, 1, 2] = .fin (rnd (2 / 3)) := by
  decide +kernel

/-- `C159_fraction` applies to it. -/
example : ∃ f : ℚ, maskedFraction leftSum none ([1, 2, 5].map .fin) [false, true, false] (some (.fin 3)) [.fin 0, .fin 2, .fin 3] [0, 1, 2] = .fin f ∧ 0 ≤ f ∧ f ≤ 1 := by
  have z : (5 : ℚ) ≤ 2 ^ 480 := le_trans (by norm_num : (5 : ℚ) ≤ 2 ^ 3) (pow_le_pow_right₀ (by norm_num) (by norm_num))
  obtain ⟨f, h1, h2, h3, -⟩ := C159_fraction leftSum leftSum_sameOrder (kernel := none) (ds := [.fin 0, .fin 2, .fin 3]) (fun k h => by cases h) (some (.fin 3))
    (weight := [1, 2, 5]) (mask := [false, true, false]) (ids := [0, 1, 2]) (by
      intro x hx
      simp only [List.mem_cons, List.not_mem_nil, or_false] at hx
      rcases hx with rfl | rfl | rfl
      · exact ⟨by decide +kernel, by norm_num, le_trans (by norm_num) z⟩
      · exact ⟨by decide +kernel, by norm_num, le_trans (by norm_num) z⟩
      · exact ⟨by decide +kernel, by norm_num, z⟩) rfl (by decide) rfl (by decide)
  exact ⟨f, h1, h2, h3⟩

/-- C159 (thin neighbourhoods): if the neighbours' weights add up to less than 1e-10 the fraction is too small: one neighbour of weight 2^-40, masked, gives a
fraction below 0.01. -/
theorem C159_thin : ∃ f : ℚ, maskedFraction leftSum none [.fin (2 ^ (-40 : ℤ))] [true] none [.fin 0] [0] = .fin f ∧ f < 1 / 100 :=
  ⟨rnd (2 ^ (-40 : ℤ) / rnd (1 / 10 ^ 10)), by decide +kernel, by decide +kernel⟩

end Pyhipp.FloatKernel
