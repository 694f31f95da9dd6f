import Verif.Model.FloatHalo
import Verif.Props.FloatUnits
import Verif.Props.FloatNum
/-
C162: virial radius, velocity and dynamical time of haloes in double precision.
-/
namespace Pyhipp.FloatHalo
open Pyhipp Pyhipp.F64 Pyhipp.FloatReduce Pyhipp.FloatHistDensity Pyhipp.FloatCosmology Pyhipp.FloatUnits Pyhipp.FloatKernel
open Pyhipp.FloatNum (IsSqrt)

/-! ### Specification -/

/-- The C library's cube root of a positive double: a positive double whose cube is the argument up to `K` roundings. -/
def IsCbrt (pow13 : Num → Num) (K : Nat) : Prop :=
  ∀ V : ℚ, 0 < V → ∃ R : ℚ, pow13 (.fin V) = .fin R ∧ V * (1 - 2 ^ (-53 : ℤ)) ^ K ≤ R ^ 3 ∧ R ^ 3 * (1 - 2 ^ (-53 : ℤ)) ^ K ≤ V

/-- The C library's third power of a positive double, within `K` roundings as long as it is a normal number. -/
def IsCube (pow3 : Num → Num) (K : Nat) : Prop :=
  ∀ x : ℚ, 0 < x → 2 ^ (-1000 : ℤ) ≤ x ^ 3 → x ^ 3 ≤ 2 ^ (1000 : ℤ) →
    ∃ y : ℚ, pow3 (.fin x) = .fin y ∧ x ^ 3 * (1 - 2 ^ (-53 : ℤ)) ^ K ≤ y ∧ y * (1 - 2 ^ (-53 : ℤ)) ^ K ≤ x ^ 3

/-! ### Steps -/

theorem box_zp1 {z : ℚ} (z0 : 0 ≤ z) (z1 : z ≤ 2 ^ (20 : ℤ)) : Box (Num.add (.fin 1) (.fin z)) (1 + z) 0 21 1 := by
  obtain ⟨e, r1, r2, r3⟩ := rnd_box (q := 1 + z) (lo := 0) (hi := 21) (by norm_num; linarith) (by norm_num at z1 ⊢; linarith) (by norm_num) (by norm_num)
    (by linarith) (w_refl _)
  exact ⟨_, e, r1, r2, by linarith, r3⟩

theorem box_a {z : ℚ} (z0 : 0 ≤ z) (z1 : z ≤ 2 ^ (20 : ℤ)) :
    Box (Num.div (.fin 1) (Num.add (.fin 1) (.fin z))) (1 / (1 + z)) (-21) 0 2 :=
  ((box_fin (q := 1) 0 0 (by norm_num) (by norm_num)).ndiv (box_zp1 z0 z1) (by norm_num) (by norm_num)).cast rfl (by norm_num) (by norm_num) (by norm_num)

theorem div_isF {x y v : ℚ} (hy : y ≠ 0) (h : Num.div (.fin x) (.fin y) = .fin v) : IsF v := by
  have h' : ofQ (x / y) = .fin v := by
    have e : Num.div (.fin x) (.fin y) = if y = 0 then (if x = 0 then Num.nan else .inf (decide (x < 0))) else ofQ (x / y) := rfl
    rw [e, if_neg hy] at h
    exact h
  unfold ofQ at h'
  split_ifs at h'
  rw [← Num.fin.inj h']
  exact isF_rnd _

theorem Box.pos {x : Num} {t : ℚ} {lo hi : ℤ} {k : Nat} (h : Box x t lo hi k) : 0 < t := h.choose_spec.2.2.2.1

theorem within_sqrt {sq : ℚ → ℚ} (hs : IsSqrt sq) {q : ℚ} (hq : IsF q) (q0 : 0 < q) : 0 < sq q ∧ Within (sq q ^ 2) q 9 := by
  obtain ⟨-, s0, s1⟩ := hs q hq q0.le
  rw [abs_le] at s1
  have a : q * (1 - 2 ^ (-53 : ℤ)) ^ 9 ≤ q * (1 - 2 ^ (-50 : ℤ)) := mul_le_mul_of_nonneg_left (by norm_num) q0.le
  have b : q * (1 + 2 ^ (-50 : ℤ)) * (1 - 2 ^ (-53 : ℤ)) ^ 9 ≤ q := by
    rw [mul_assoc]
    exact mul_le_of_le_one_right q0.le (by norm_num)
  have c : sq q ^ 2 ≤ q * (1 + 2 ^ (-50 : ℤ)) := by nlinarith
  refine ⟨lt_of_le_of_ne s0 ?_, by linarith, le_trans (mul_le_mul_of_nonneg_right c (pow_pos u_pos 9).le) b⟩
  intro h
  rw [← h] at s1
  have : q * (1 - 2 ^ (-50 : ℤ)) ≤ 0 := by nlinarith
  have : 0 < q * (1 - 2 ^ (-50 : ℤ)) := mul_pos q0 (by norm_num)
  linarith

theorem w_exact {v t : ℚ} {k : Nat} (h : Within v t k) : Within t v k := ⟨h.2, h.1⟩

/-- A finite value with its bounds, as an exact number. -/
theorem box_self {v : ℚ} {lo hi : ℤ} (l : (2 : ℚ) ^ lo ≤ v) (u : v ≤ 2 ^ hi) : Box (.fin v) v lo hi 0 := box_fin lo hi l u

theorem root_bounds {n : Nat} (hn : n ≠ 0) {v q : ℚ} {lo hi a b : ℤ} (v0 : 0 < v) (h1 : q ≤ 2 * v ^ n) (h2 : v ^ n ≤ 2 * q) (l : (2 : ℚ) ^ lo ≤ q) (u : q ≤ 2 ^ hi)
    (ha : a * n + 1 ≤ lo) (hb : hi + 1 ≤ b * n) : (2 : ℚ) ^ a ≤ v ∧ v ≤ 2 ^ b := by
  have two : (2 : ℚ) ≠ 0 := by norm_num
  constructor
  · refine (pow_le_pow_iff_left₀ (pow_pos' a).le v0.le hn).mp ?_
    have e : ((2 : ℚ) ^ a) ^ n * 2 ≤ 2 ^ lo := by
      rw [← zpow_natCast, ← zpow_mul, ← zpow_add_one₀ two]
      exact zpow_le_zpow_right₀ (by norm_num) ha
    linarith
  · refine (pow_le_pow_iff_left₀ v0.le (pow_pos' b).le hn).mp ?_
    have e : 2 ^ hi * 2 ≤ ((2 : ℚ) ^ b) ^ n := by
      rw [← zpow_natCast, ← zpow_mul, ← zpow_add_one₀ two]
      exact zpow_le_zpow_right₀ (by norm_num) hb
    linarith

theorem core {m rho G z : ℚ} (m1 : 2 ^ (-100 : ℤ) ≤ m) (m2 : m ≤ 2 ^ (100 : ℤ)) (d1 : 2 ^ (-100 : ℤ) ≤ rho) (d2 : rho ≤ 2 ^ (100 : ℤ))
    (g1 : 2 ^ (-60 : ℤ) ≤ G) (g2 : G ≤ 2 ^ (60 : ℤ)) (z0 : 0 ≤ z) (z1 : z ≤ 2 ^ (20 : ℤ))
    {pow13 : Num → Num} {K : Nat} (hK : K ≤ 2 ^ 50) (hp : IsCbrt pow13 K) {sq : ℚ → ℚ} (hs : IsSqrt sq) :
    ∃ R p v t : ℚ, virProps pow13 sq (.fin G) (.fin m) (.fin rho) (.fin z) = ⟨.fin m, .fin rho, .fin R, .fin p, .fin v⟩ ∧
      (virProps pow13 sq (.fin G) (.fin m) (.fin rho) (.fin z)).tDyn = .fin t ∧ 0 < R ∧ 0 < p ∧ 0 < t ∧ (2 : ℚ) ^ (-114 : ℤ) ≤ v ∧ v ≤ 2 ^ (125 : ℤ) ∧
      Within (R ^ 3) (m / rho / (4 / 3 * pi64)) (K + 4) ∧ Within p (1 / (1 + z) * R) 3 ∧ Within (v ^ 2) (G * m / p) 11 ∧ Within t (p / v) 1 := by
  have bm := box_fin _ _ m1 m2
  have bd := box_fin _ _ d1 d2
  have bg := box_fin _ _ g1 g2
  have bV := (bm.ndiv bd (by norm_num) (by norm_num)).ndiv box_43 (by norm_num) (by norm_num)
  obtain ⟨V, eV, V1, V2, tV, wV⟩ := bV
  have V0 : 0 < V := lt_of_lt_of_le (pow_pos' _) V1
  obtain ⟨R, eR, q1, q2⟩ := hp V V0
  have wR : Within (R ^ 3) V K := ⟨q1, q2⟩
  have R3 : 0 < R ^ 3 := wR.pos V0
  have R0 : 0 < R := by
    by_contra hc
    have : R ^ 3 ≤ 0 := by
      have h : 0 ≤ (-R) ^ 3 := pow_nonneg (by linarith) 3
      have e : (-R) ^ 3 = -R ^ 3 := by ring
      rw [e] at h
      linarith
    linarith
  obtain ⟨-, c1, c2⟩ := wR.close V0 (le_trans hK (by norm_num))
  obtain ⟨r1, r2⟩ := root_bounds (n := 3) (by norm_num) (a := -68) (b := 67) R0 c2 c1 V1 V2 (by norm_num) (by norm_num)
  have bR := box_self r1 r2
  have bp := (box_a z0 z1).mul bR (by norm_num) (by norm_num)
  obtain ⟨p, ep, p1, p2, tp, wp⟩ := bp
  have p0 : 0 < p := lt_of_lt_of_le (pow_pos' _) p1
  have bq := (bg.mul bm (by norm_num) (by norm_num)).ndiv (box_self p1 p2) (by norm_num) (by norm_num)
  obtain ⟨y, ey, y1, -, -, -⟩ := bg.mul bm (by norm_num) (by norm_num)
  obtain ⟨q, eq, Q1, Q2, tq, wq⟩ := bq
  have q0 : 0 < q := lt_of_lt_of_le (pow_pos' _) Q1
  have qF : IsF q := by
    rw [ey] at eq
    exact div_isF p0.ne' eq
  obtain ⟨v0, wv⟩ := within_sqrt hs qF q0
  obtain ⟨-, s1, s2⟩ := wv.close q0 (by norm_num)
  obtain ⟨v1, v2⟩ := root_bounds (n := 2) (by norm_num) (a := -114) (b := 125) v0 s2 s1 Q1 Q2 (by norm_num) (by norm_num)
  have bt := (box_self p1 p2).ndiv (box_self v1 v2) (by norm_num) (by norm_num)
  obtain ⟨t, et, t1, t2, tt, wt⟩ := bt
  have hv : npSqrt sq (.fin q) = .fin (sq q) := if_neg (not_lt.mpr q0.le)
  have hall : virProps pow13 sq (.fin G) (.fin m) (.fin rho) (.fin z) = ⟨.fin m, .fin rho, .fin R, .fin p, .fin (sq q)⟩ := by
    simp only [virProps, rVir, vVir, eV, eR, ep, eq, hv]
  refine ⟨R, p, sq q, t, hall, by rw [hall]; exact et, R0, p0, lt_of_lt_of_le (pow_pos' _) t1, v1, v2, ?_, wp, ?_, wt⟩
  · exact wR.trans wV
  · exact wv.trans wq

/-- C162: **virial properties.** For a mass and a comoving density between 2^-100 and 2^100, a gravity constant between 2^-60 and 2^60 and a redshift from 0 to
2^20, all results are finite positive doubles; the sphere of the radius `R` has the mass (up to K + 4 units of 2^-52, K from the C library's cube root), the physical
radius is `R` / (1 + z) within 3 units, v² is G m over the physical radius within 11 units, and the dynamical time is the physical radius over v within 1 unit. -/
theorem C162_virial {m rho G z : ℚ} (m1 : 2 ^ (-100 : ℤ) ≤ m) (m2 : m ≤ 2 ^ (100 : ℤ)) (d1 : 2 ^ (-100 : ℤ) ≤ rho) (d2 : rho ≤ 2 ^ (100 : ℤ))
    (g1 : 2 ^ (-60 : ℤ) ≤ G) (g2 : G ≤ 2 ^ (60 : ℤ)) (z0 : 0 ≤ z) (z1 : z ≤ 2 ^ (20 : ℤ))
    {pow13 : Num → Num} {K : Nat} (hK : K ≤ 2 ^ 50) (hp : IsCbrt pow13 K) {sq : ℚ → ℚ} (hs : IsSqrt sq) :
    ∃ R p v t : ℚ, virProps pow13 sq (.fin G) (.fin m) (.fin rho) (.fin z) = ⟨.fin m, .fin rho, .fin R, .fin p, .fin v⟩ ∧
      (virProps pow13 sq (.fin G) (.fin m) (.fin rho) (.fin z)).tDyn = .fin t ∧ 0 < R ∧ 0 < p ∧ 0 < v ∧ 0 < t ∧
      |4 / 3 * pi64 * R ^ 3 * rho - m| ≤ (K + 4) * 2 ^ (-52 : ℤ) * m ∧ |p * (1 + z) - R| ≤ 3 * 2 ^ (-52 : ℤ) * R ∧
      |v ^ 2 * p - G * m| ≤ 11 * 2 ^ (-52 : ℤ) * (G * m) ∧ |t * v - p| ≤ 2 ^ (-52 : ℤ) * p := by
  obtain ⟨R, p, v, t, e1, e2, R0, p0, t0, v1, -, wR, wp, wv, wt⟩ := core m1 m2 d1 d2 g1 g2 z0 z1 hK hp hs
  have v0 : 0 < v := lt_of_lt_of_le (pow_pos' _) v1
  have m0 : 0 < m := lt_of_lt_of_le (pow_pos' _) m1
  have d0 : 0 < rho := lt_of_lt_of_le (pow_pos' _) d1
  have G0 : 0 < G := lt_of_lt_of_le (pow_pos' _) g1
  have pi0 : 0 < pi64 := by unfold pi64; norm_num
  have zp : 0 < 1 + z := by linarith
  refine ⟨R, p, v, t, e1, e2, R0, p0, v0, t0, ?_, ?_, ?_, ?_⟩
  · have f0 : 0 ≤ 4 / 3 * pi64 * rho := by positivity
    have t3 : 0 < m / rho / (4 / 3 * pi64) := by positivity
    have w := w_mul (w_refl (4 / 3 * pi64 * rho)) wR f0 f0 (pow_pos R0 3).le t3.le
    rw [show 4 / 3 * pi64 * rho * R ^ 3 = 4 / 3 * pi64 * R ^ 3 * rho by ring,
      show 4 / 3 * pi64 * rho * (m / rho / (4 / 3 * pi64)) = m by field_simp] at w
    have := (w.close m0 (by
      have : (2 : ℕ) ^ 51 = 2 * 2 ^ 50 := by norm_num
      have h : 100 ≤ (2 : ℕ) ^ 50 := by norm_num
      omega)).1
    refine le_trans this (le_of_eq ?_)
    push_cast
    ring
  · have w := w_mul wp (w_refl (1 + z)) p0.le (by positivity) zp.le zp.le
    rw [show 1 / (1 + z) * R * (1 + z) = R by field_simp] at w
    have := (w.close R0 (by norm_num)).1
    norm_num at this ⊢
    exact this
  · have w := w_mul wv (w_refl p) (sq_nonneg v) (by positivity) p0.le p0.le
    rw [show G * m / p * p = G * m by field_simp] at w
    have := (w.close (mul_pos G0 m0) (by norm_num)).1
    norm_num at this ⊢
    exact this
  · have w := w_mul wt (w_refl v) t0.le (by positivity) v0.le v0.le
    rw [show p / v * v = p by field_simp] at w
    have := (w.close p0 (by norm_num)).1
    norm_num at this ⊢
    exact this

theorem w_pow {v t : ℚ} {k : Nat} (h : Within v t k) (hv : 0 ≤ v) (ht : 0 ≤ t) (n : Nat) : Within (v ^ n) (t ^ n) (n * k) := by
  induction n with
  | zero => simpa using w_refl 1
  | succ n ih =>
      have := w_mul ih h (pow_nonneg hv n) (pow_nonneg ht n) hv ht
      rw [pow_succ, pow_succ, Nat.succ_mul]
      exact this

theorem dyn_core {m rho G z : ℚ} (m1 : 2 ^ (-100 : ℤ) ≤ m) (m2 : m ≤ 2 ^ (100 : ℤ)) (d1 : 2 ^ (-100 : ℤ) ≤ rho) (d2 : rho ≤ 2 ^ (100 : ℤ))
    (g1 : 2 ^ (-60 : ℤ) ≤ G) (g2 : G ≤ 2 ^ (60 : ℤ)) (z0 : 0 ≤ z) (z1 : z ≤ 2 ^ (20 : ℤ))
    {pow13 : Num → Num} {K : Nat} (hK : K ≤ 2 ^ 50) (hp : IsCbrt pow13 K) {sq : ℚ → ℚ} (hs : IsSqrt sq) :
    ∃ t : ℚ, (virProps pow13 sq (.fin G) (.fin m) (.fin rho) (.fin z)).tDyn = .fin t ∧ 0 < t ∧
      Within (t ^ 2 * (4 / 3 * pi64 * G * (rho * (1 + z) ^ 3))) 1 (K + 26) := by
  obtain ⟨R, p, v, t, -, e2, R0, p0, t0, v1, -, wR, wp, wv, wt⟩ := core m1 m2 d1 d2 g1 g2 z0 z1 hK hp hs
  have v0 : 0 < v := lt_of_lt_of_le (pow_pos' _) v1
  have m0 : 0 < m := lt_of_lt_of_le (pow_pos' _) m1
  have d0 : 0 < rho := lt_of_lt_of_le (pow_pos' _) d1
  have G0 : 0 < G := lt_of_lt_of_le (pow_pos' _) g1
  have pi0 : 0 < pi64 := by unfold pi64; norm_num
  have zp : 0 < 1 + z := by linarith
  refine ⟨t, e2, t0, ?_⟩
  -- t² within p² / v², v² within G m / p
  have a1 := w_pow wt t0.le (by positivity) 2
  have a2 : Within ((p / v) ^ 2) (p ^ 2 / (G * m / p)) 11 := by
    have := (w_refl (p ^ 2)).div wv (by positivity) (by positivity)
    rw [div_pow]
    simpa using this
  have a3 : Within (p ^ 3 / (G * m)) ((1 / (1 + z) * R) ^ 3 / (G * m)) 9 := by
    have := (w_pow wp p0.le (by positivity) 3).div (w_refl (G * m)) (by positivity) (by positivity)
    simpa using this
  have a4 : Within ((1 / (1 + z) * R) ^ 3 / (G * m)) (m / rho / (4 / 3 * pi64) * ((1 / (1 + z)) ^ 3 / (G * m))) (K + 4) := by
    have f0 : 0 ≤ (1 / (1 + z)) ^ 3 / (G * m) := by positivity
    have := w_mul wR (w_refl ((1 / (1 + z)) ^ 3 / (G * m))) (by positivity) (by positivity) f0 f0
    rw [show (1 / (1 + z) * R) ^ 3 / (G * m) = R ^ 3 * ((1 / (1 + z)) ^ 3 / (G * m)) by ring]
    exact this
  have a2' : Within ((p / v) ^ 2) (p ^ 3 / (G * m)) 11 := by
    rwa [show p ^ 2 / (G * m / p) = p ^ 3 / (G * m) by field_simp] at a2
  have b := ((a1.trans a2').trans a3).trans a4
  have f0 : 0 ≤ 4 / 3 * pi64 * G * (rho * (1 + z) ^ 3) := by positivity
  have c := w_mul b (w_refl (4 / 3 * pi64 * G * (rho * (1 + z) ^ 3))) (sq_nonneg t) (by positivity) f0 f0
  rw [show m / rho / (4 / 3 * pi64) * ((1 / (1 + z)) ^ 3 / (G * m)) * (4 / 3 * pi64 * G * (rho * (1 + z) ^ 3)) = 1 by field_simp] at c
  exact w_mono c (by positivity) zero_le_one (by omega)

/-- C162: **the dynamical time depends on the density alone**: t² · 4/3 π G ρ (1 + z)³ is 1 within K + 26 units of 2^-52, whatever the mass. -/
theorem C162_dynamical_time {m rho G z : ℚ} (m1 : 2 ^ (-100 : ℤ) ≤ m) (m2 : m ≤ 2 ^ (100 : ℤ)) (d1 : 2 ^ (-100 : ℤ) ≤ rho) (d2 : rho ≤ 2 ^ (100 : ℤ))
    (g1 : 2 ^ (-60 : ℤ) ≤ G) (g2 : G ≤ 2 ^ (60 : ℤ)) (z0 : 0 ≤ z) (z1 : z ≤ 2 ^ (20 : ℤ))
    {pow13 : Num → Num} {K : Nat} (hK : K ≤ 2 ^ 50) (hp : IsCbrt pow13 K) {sq : ℚ → ℚ} (hs : IsSqrt sq) :
    ∃ t : ℚ, (virProps pow13 sq (.fin G) (.fin m) (.fin rho) (.fin z)).tDyn = .fin t ∧ 0 < t ∧
      |t ^ 2 * (4 / 3 * pi64 * G * (rho * (1 + z) ^ 3)) - 1| ≤ ((K : ℚ) + 26) * 2 ^ (-52 : ℤ) := by
  obtain ⟨t, e2, t0, c⟩ := dyn_core m1 m2 d1 d2 g1 g2 z0 z1 hK hp hs
  refine ⟨t, e2, t0, ?_⟩
  have := (c.close one_pos (by
      have : (2 : ℕ) ^ 51 = 2 * 2 ^ 50 := by norm_num
      have h : 100 ≤ (2 : ℕ) ^ 50 := by norm_num
      omega)).1
  refine le_trans this (le_of_eq ?_)
  push_cast
  ring

theorem density_box {f d z : ℚ} {a b c e : ℤ} (f1 : 2 ^ a ≤ f) (f2 : f ≤ 2 ^ b) (d1 : 2 ^ c ≤ d) (d2 : d ≤ 2 ^ e) (ha : -1022 ≤ c + -64) (hb : e + 1 ≤ 1023)
    (hc : -1022 ≤ a + (c + -64)) (hd : b + (e + 1) ≤ 1023)
    (z0 : 0 ≤ z) (z1 : z ≤ 2 ^ (20 : ℤ)) {pow3 : Num → Num} {K : Nat} (hK : K ≤ 50) (hp : IsCube pow3 K) :
    Box (rhoVir pow3 (.fin f) (.fin d) (.fin z)) (f * (d / (1 + z) ^ 3)) (a + (c + -64)) (b + (e + 1)) (K + 8) := by
  obtain ⟨sa, ea, A1, A2, ta, wa⟩ := box_a z0 z1
  have a0 : 0 < sa := lt_of_lt_of_le (pow_pos' _) A1
  have A1' : (2 : ℚ) ^ (-63 : ℤ) ≤ sa ^ 3 := by
    have := pow_le_pow_left₀ (pow_pos' _).le A1 3
    refine le_trans (le_of_eq ?_) this
    norm_num
  have A2' : sa ^ 3 ≤ 1 := pow_le_one₀ a0.le (by simpa using A2)
  obtain ⟨y, ey, y1, y2⟩ := hp sa a0 (le_trans (zpow_le_zpow_right₀ (by norm_num) (by norm_num)) A1') (le_trans A2' (one_le_zpow₀ (by norm_num) (by norm_num)))
  have wy : Within y (sa ^ 3) K := ⟨y1, y2⟩
  have a30 : 0 < sa ^ 3 := pow_pos a0 3
  obtain ⟨-, c1, c2⟩ := wy.close a30 (le_trans hK (by norm_num))
  have w := wy.trans (w_pow wa a0.le ta.le 3)
  have by' : Box (.fin y) ((1 / (1 + z)) ^ 3) (-64) 1 (K + 3 * 2) := by
    refine ⟨y, rfl, ?_, ?_, pow_pos ta 3, w⟩
    · have e : (2 : ℚ) ^ (-63 : ℤ) = 2 * 2 ^ (-64 : ℤ) := by norm_num
      linarith
    · norm_num; linarith
  have bb := (box_fin _ _ f1 f2).mul ((box_fin _ _ d1 d2).mul by' ha hb) hc hd
  have hz : f * (d * (1 / (1 + z)) ^ 3) = f * (d / (1 + z) ^ 3) := by rw [div_pow, one_pow]; ring
  rw [hz] at bb
  unfold rhoVir
  simp only [ea, ey]
  exact bb.cast rfl rfl rfl (by ring)

/-- C162: the comoving density of a halo, f ρ(z) / (1 + z)³, within K + 8 units of 2^-52 (K from the C library's third power). -/
theorem C162_density {f d z : ℚ} (f1 : 2 ^ (-100 : ℤ) ≤ f) (f2 : f ≤ 2 ^ (100 : ℤ)) (d1 : 2 ^ (-100 : ℤ) ≤ d) (d2 : d ≤ 2 ^ (100 : ℤ))
    (z0 : 0 ≤ z) (z1 : z ≤ 2 ^ (20 : ℤ)) {pow3 : Num → Num} {K : Nat} (hK : K ≤ 50) (hp : IsCube pow3 K) :
    Close (rhoVir pow3 (.fin f) (.fin d) (.fin z)) (f * (d / (1 + z) ^ 3)) (K + 8) :=
  (density_box f1 f2 d1 d2 (by norm_num) (by norm_num) (by norm_num) (by norm_num) z0 z1 hK hp).close (by omega)

/-- C162: **haloes of a given overdensity**: with ρ(z) the matter or critical density of the model (physical) and f the overdensity, t² · 4/3 π G f ρ(z) is 1 within
K + K' + 34 units of 2^-52: the redshift enters through ρ(z) alone, and the mass does not enter. -/
theorem C162_overdensity {m f d G z : ℚ} (m1 : 2 ^ (-100 : ℤ) ≤ m) (m2 : m ≤ 2 ^ (100 : ℤ)) (f1 : 2 ^ (-10 : ℤ) ≤ f) (f2 : f ≤ 2 ^ (20 : ℤ))
    (d1 : 2 ^ (-20 : ℤ) ≤ d) (d2 : d ≤ 2 ^ (70 : ℤ)) (g1 : 2 ^ (-60 : ℤ) ≤ G) (g2 : G ≤ 2 ^ (60 : ℤ)) (z0 : 0 ≤ z) (z1 : z ≤ 2 ^ (20 : ℤ))
    {pow3 pow13 : Num → Num} {K K' : Nat} (hK : K ≤ 2 ^ 49) (hp : IsCbrt pow13 K) (hK' : K' ≤ 50) (hp' : IsCube pow3 K') {sq : ℚ → ℚ} (hs : IsSqrt sq) :
    ∃ t rho : ℚ, (virPropsOf pow3 pow13 sq (.fin G) (.fin m) (.fin f) (.fin d) (.fin z)).rho = .fin rho ∧
      |rho - f * (d / (1 + z) ^ 3)| ≤ (K' + 8) * 2 ^ (-52 : ℤ) * (f * (d / (1 + z) ^ 3)) ∧
      (virPropsOf pow3 pow13 sq (.fin G) (.fin m) (.fin f) (.fin d) (.fin z)).tDyn = .fin t ∧ 0 < t ∧
      |t ^ 2 * (4 / 3 * pi64 * G * (f * d)) - 1| ≤ ((K : ℚ) + K' + 34) * 2 ^ (-52 : ℤ) := by
  obtain ⟨rho, er, R1, R2, tr, wr⟩ := density_box f1 f2 d1 d2 (by norm_num) (by norm_num) (by norm_num) (by norm_num) z0 z1 hK' hp'
  have r1 : (2 : ℚ) ^ (-100 : ℤ) ≤ rho := le_trans (zpow_le_zpow_right₀ (by norm_num) (by norm_num)) R1
  have r2 : rho ≤ 2 ^ (100 : ℤ) := le_trans R2 (zpow_le_zpow_right₀ (by norm_num) (by norm_num))
  obtain ⟨t, e2, t0, w⟩ := dyn_core m1 m2 r1 r2 g1 g2 z0 z1 (le_trans hK (by norm_num)) hp hs
  have G0 : 0 < G := lt_of_lt_of_le (pow_pos' _) g1
  have f0 : 0 < f := lt_of_lt_of_le (pow_pos' _) f1
  have d0 : 0 < d := lt_of_lt_of_le (pow_pos' _) d1
  have rho0 : 0 < rho := lt_of_lt_of_le (pow_pos' _) r1
  have pi0 : 0 < pi64 := by unfold pi64; norm_num
  have zp : 0 < 1 + z := by linarith
  refine ⟨t, rho, ?_, ?_, ?_, t0, ?_⟩
  · show rhoVir pow3 (.fin f) (.fin d) (.fin z) = .fin rho
    exact er
  · have := (wr.close tr (by omega)).1
    push_cast at this
    exact this
  · show (virProps pow13 sq (.fin G) (.fin m) (rhoVir pow3 (.fin f) (.fin d) (.fin z)) (.fin z)).tDyn = _
    rw [er]; exact e2
  · -- replace the computed density by the exact one
    have g0 : 0 ≤ t ^ 2 * (4 / 3 * pi64 * G * (1 + z) ^ 3) := by positivity
    have c := w_mul (w_exact wr) (w_refl (t ^ 2 * (4 / 3 * pi64 * G * (1 + z) ^ 3))) tr.le rho0.le g0 g0
    rw [show rho * (t ^ 2 * (4 / 3 * pi64 * G * (1 + z) ^ 3)) = t ^ 2 * (4 / 3 * pi64 * G * (rho * (1 + z) ^ 3)) by ring,
      show f * (d / (1 + z) ^ 3) * (t ^ 2 * (4 / 3 * pi64 * G * (1 + z) ^ 3)) = t ^ 2 * (4 / 3 * pi64 * G * (f * d)) by field_simp] at c
    have := ((c.trans w).close one_pos (by
      have : (2 : ℕ) ^ 51 = 4 * 2 ^ 49 := by norm_num
      have h : 200 ≤ (2 : ℕ) ^ 49 := by norm_num
      omega)).1
    refine le_trans this (le_of_eq ?_)
    push_cast
    ring

/-- C162: a heavier halo of the same density is not smaller, as long as the C library's cube root preserves the order (overflow included). -/
theorem C162_monotone {m m' rho : ℚ} (h : m ≤ m') (d0 : 0 < rho) (pow13 : Num → Num) (hp : ∀ x y, Le x y → Le (pow13 x) (pow13 y)) :
    Le (rVir pow13 (.fin m) (.fin rho)) (rVir pow13 (.fin m') (.fin rho)) := by
  have hd : ∀ (x y : Num) (c : ℚ), Le x y → 0 < c → Le (Num.div x (.fin c)) (Num.div y (.fin c)) := by
    intro x y c hxy hc
    have e : ∀ q : ℚ, Num.div (.fin q) (.fin c) = ofQ (q / c) := by
      intro q
      show (if c = 0 then _ else ofQ (q / c)) = _
      rw [if_neg hc.ne']
    have i : ∀ s, Num.div (.inf s) (.fin c) = .inf s := by
      intro s
      show Num.inf (s != decide (c < 0)) = .inf s
      rw [decide_eq_false (not_lt.mpr hc.le)]
      cases s <;> rfl
    have lo : ∀ q : ℚ, Le (.inf true) (ofQ q) := by
      intro q
      unfold ofQ
      split <;> trivial
    have hi : ∀ q : ℚ, Le (ofQ q) (.inf false) := by
      intro q
      unfold ofQ
      split
      · cases decide (q < 0) <;> trivial
      · trivial
    cases x with
    | nan => exact absurd hxy (by simp [Le])
    | inf s =>
        rw [i]
        cases s with
        | true =>
            cases y with
            | nan => exact absurd hxy (by simp [Le])
            | inf s' => rw [i]; trivial
            | fin q => rw [e]; exact lo _
        | false =>
            cases y with
            | nan => exact absurd hxy (by simp [Le])
            | inf s' => rw [i]; exact hxy
            | fin q => exact absurd hxy (by simp [Le])
    | fin q =>
        rw [e]
        cases y with
        | nan => exact absurd hxy (by simp [Le])
        | inf s' =>
            rw [i]
            cases s' with
            | true => exact absurd hxy (by simp [Le])
            | false => exact hi _
        | fin q' =>
            rw [e]
            exact ofQ_mono (div_le_div_of_nonneg_right hxy hc.le)
  obtain ⟨c, ec, c1, -, -, -⟩ := box_43
  have c0 : 0 < c := lt_of_lt_of_le (pow_pos' _) c1
  unfold rVir
  simp only [ec]
  exact hp _ _ (hd _ _ _ (hd _ _ _ h d0) c0)

/-! ### Edges -/

/-- C162: **edge cases** (C library: the cube root of 0, infinity and NaN are themselves).
1. A halo of mass zero has radius 0, but NaN as velocity and dynamical time.
2. A density of zero gives an infinite radius, velocity 0 and an infinite dynamical time.
3. A mass that is NaN gives NaN in all three.
4. At z = -1 the physical radius is infinite, the velocity 0 and the dynamical time infinite. -/
theorem C162_edges {m rho G z : ℚ} (m0 : 0 < m) (d0 : 0 < rho) (z0 : 0 ≤ z) (z1 : z ≤ 2 ^ (20 : ℤ)) (hG : IsF (G * m)) (hG0 : 0 < G * m) (hG1 : G * m < 2 ^ 1024)
    {pow13 : Num → Num} (h0 : pow13 (.fin 0) = .fin 0) (hi : pow13 (.inf false) = .inf false) (hn : pow13 .nan = .nan) {sq : ℚ → ℚ} (hs : sq 0 = 0) :
    (let p := virProps pow13 sq (.fin G) (.fin 0) (.fin rho) (.fin z)
     p.r = .fin 0 ∧ p.r_phy = .fin 0 ∧ p.v = .nan ∧ p.tDyn = .nan) ∧
    (let p := virProps pow13 sq (.fin G) (.fin m) (.fin 0) (.fin z)
     p.r = .inf false ∧ p.r_phy = .inf false ∧ p.v = .fin 0 ∧ p.tDyn = .inf false) ∧
    (let p := virProps pow13 sq (.fin G) .nan (.fin rho) (.fin z)
     p.r = .nan ∧ p.r_phy = .nan ∧ p.v = .nan ∧ p.tDyn = .nan) ∧
    (∀ R : ℚ, 0 < R → rVir pow13 (.fin m) (.fin rho) = .fin R →
      let p := virProps pow13 sq (.fin G) (.fin m) (.fin rho) (.fin (-1))
      p.r = .fin R ∧ p.r_phy = .inf false ∧ p.v = .fin 0 ∧ p.tDyn = .inf false) := by
  obtain ⟨c, ec, c1, -, -, -⟩ := box_43
  have c0 : 0 < c := lt_of_lt_of_le (pow_pos' _) c1
  obtain ⟨a, ea, a1, -, -, -⟩ := box_a z0 z1
  have a0 : 0 < a := lt_of_lt_of_le (pow_pos' _) a1
  have r0 : ofQ 0 = .fin 0 := by decide +kernel
  have hGm : Num.mul (.fin G) (.fin m) = .fin (G * m) := by
    show ofQ (G * m) = _
    rw [ofQ_fin (by rw [hG, abs_of_pos hG0]; exact hG1), hG]
  have e0 : Num.div (.fin 0) (.fin rho) = .fin 0 := by
    show (if rho = 0 then _ else ofQ (0 / rho)) = _
    rw [if_neg d0.ne', zero_div, r0]
  have e0c : Num.div (.fin 0) (.fin c) = .fin 0 := by
    show (if c = 0 then _ else ofQ (0 / c)) = _
    rw [if_neg c0.ne', zero_div, r0]
  have s0 : npSqrt sq (.fin 0) = .fin 0 := by simp [npSqrt, hs]
  refine ⟨?_, ?_, ?_, ?_⟩
  · have ma : Num.mul (.fin a) (.fin 0) = .fin 0 := by show ofQ (a * 0) = _; rw [mul_zero, r0]
    have mg : Num.mul (.fin G) (.fin 0) = .fin 0 := by show ofQ (G * 0) = _; rw [mul_zero, r0]
    have dd : Num.div (.fin 0) (.fin 0) = .nan := by decide +kernel
    have dn : Num.div (.fin 0) .nan = .nan := rfl
    simp only [virProps, rVir, vVir, Virial.tDyn, e0, ec, e0c, h0, ea, ma, mg, dd, npSqrt, dn, and_self]
  · have dm : Num.div (.fin m) (.fin 0) = .inf false := by
      show (if (0 : ℚ) = 0 then (if m = 0 then Num.nan else .inf (decide (m < 0))) else ofQ (m / 0)) = _
      rw [if_pos rfl, if_neg m0.ne', decide_eq_false (not_lt.mpr m0.le)]
    have dc : Num.div (.inf false) (.fin c) = .inf false := by
      show Num.inf (false != decide (c < 0)) = _
      rw [decide_eq_false (not_lt.mpr c0.le)]; rfl
    have ma : Num.mul (.fin a) (.inf false) = .inf false := by
      show (if a = 0 then Num.nan else .inf (decide (a < 0) != false)) = _
      rw [if_neg a0.ne', decide_eq_false (not_lt.mpr a0.le)]; rfl
    have dg : Num.div (.fin (G * m)) (.inf false) = .fin 0 := rfl
    have di : Num.div (.inf false) (.fin 0) = .inf false := by decide +kernel
    simp only [virProps, rVir, vVir, Virial.tDyn, dm, ec, dc, hi, ea, ma, hGm, dg, s0, di, and_self]
  · have n1 : ∀ x : Num, Num.div .nan x = .nan := fun x => by cases x <;> rfl
    have n2 : ∀ x : Num, Num.mul x .nan = .nan := fun x => by cases x <;> rfl
    simp only [virProps, rVir, vVir, Virial.tDyn, n1, n2, hn, npSqrt, and_self]
  · intro R R0 hR
    have az : Num.div (.fin 1) (Num.add (.fin 1) (.fin (-1))) = .inf false := by decide +kernel
    have ma : Num.mul (.inf false) (.fin R) = .inf false := by
      show (if R = 0 then Num.nan else .inf (false != decide (R < 0))) = _
      rw [if_neg R0.ne', decide_eq_false (not_lt.mpr R0.le)]; rfl
    have dg : Num.div (.fin (G * m)) (.inf false) = .fin 0 := rfl
    have di : Num.div (.inf false) (.fin 0) = .inf false := by decide +kernel
    simp only [virProps, hR, vVir, Virial.tDyn, az, ma, hGm, dg, s0, di, and_self]

/-- C162: `to_kmps` multiplies the velocity by the unit, with one rounding. -/
theorem C162_kmps {v u : ℚ} {G m r : Num} {sq : ℚ → ℚ} (hv : vVir sq G m r none = .fin v) (v1 : 2 ^ (-300 : ℤ) ≤ v) (v2 : v ≤ 2 ^ (300 : ℤ))
    (u1 : 2 ^ (-300 : ℤ) ≤ u) (u2 : u ≤ 2 ^ (300 : ℤ)) : Close (vVir sq G m r (some (.fin u))) (v * u) 1 := by
  have b := ((box_fin _ _ v1 v2).mul (box_fin _ _ u1 u2) (by norm_num) (by norm_num)).close (by norm_num)
  have e : vVir sq G m r (some (.fin u)) = Num.mul (vVir sq G m r none) (.fin u) := rfl
  rw [e, hv]
  exact b

/-! ### The hypotheses are met -/

theorem exists_cbrt (V : ℚ) (hV : 0 < V) : ∃ R : ℚ, V * (1 - 2 ^ (-53 : ℤ)) ^ 1 ≤ R ^ 3 ∧ R ^ 3 * (1 - 2 ^ (-53 : ℤ)) ^ 1 ≤ V := by
  have v0 : (0 : ℝ) < V := by exact_mod_cast hV
  have w0 : (0 : ℝ) < V * (1 - 2 ^ (-53 : ℤ)) := mul_pos v0 (by norm_num)
  have lt : (V : ℝ) * (1 - 2 ^ (-53 : ℤ)) < V := mul_lt_of_lt_one_right v0 (by norm_num)
  have cube : ∀ x : ℝ, 0 < x → (x ^ ((1 : ℝ) / 3)) ^ 3 = x := by
    intro x hx
    rw [← Real.rpow_natCast, ← Real.rpow_mul hx.le]
    norm_num
  obtain ⟨R, h1, h2⟩ := exists_rat_btwn (Real.rpow_lt_rpow w0.le lt (by norm_num : (0 : ℝ) < 1 / 3))
  have a0 := Real.rpow_nonneg w0.le ((1 : ℝ) / 3)
  have p1 := pow_le_pow_left₀ a0 h1.le 3
  have p2 := pow_le_pow_left₀ (le_trans a0 h1.le) h2.le 3
  rw [cube _ w0] at p1
  rw [cube _ v0] at p2
  have q1 : V * (1 - 2 ^ (-53 : ℤ)) ≤ R ^ 3 := by
    have : ((V * (1 - 2 ^ (-53 : ℤ)) : ℚ) : ℝ) ≤ ((R ^ 3 : ℚ) : ℝ) := by push_cast; exact p1
    exact_mod_cast this
  have q2 : R ^ 3 ≤ V := by exact_mod_cast p2
  have q0 : 0 < V * (1 - 2 ^ (-53 : ℤ)) := mul_pos hV (by norm_num)
  refine ⟨R, by rw [pow_one]; exact q1, ?_⟩
  rw [pow_one]
  exact le_trans (mul_le_of_le_one_right (le_trans q0.le q1) (by norm_num)) q2

open Classical in
/-- A cube root as C libraries have it. -/
noncomputable def cbrt : Num → Num
  | .fin V => if h : 0 < V then .fin (exists_cbrt V h).choose else if V = 0 then .fin 0 else .nan
  | .inf false => .inf false
  | _ => .nan

theorem cbrt_spec : IsCbrt cbrt 1 ∧ cbrt (.fin 0) = .fin 0 ∧ cbrt (.inf false) = .inf false ∧ cbrt .nan = .nan := by
  refine ⟨?_, by simp [cbrt], rfl, rfl⟩
  intro V hV
  have h := (exists_cbrt V hV).choose_spec
  exact ⟨(exists_cbrt V hV).choose, by simp only [cbrt, dif_pos hV], h.1, h.2⟩

/-- A halo of mass 1000 at redshift 1 (G = 43, density 16): the dynamical time. -/
example : ∃ t : ℚ, (virProps cbrt FloatNum.sqrt53 (.fin 43) (.fin 1000) (.fin 16) (.fin 1)).tDyn = .fin t ∧ 0 < t ∧
    |t ^ 2 * (4 / 3 * pi64 * 43 * (16 * (1 + 1) ^ 3)) - 1| ≤ (((1 : ℕ) : ℚ) + 26) * 2 ^ (-52 : ℤ) :=
  C162_dynamical_time (by norm_num) (by norm_num) (by norm_num) (by norm_num) (by norm_num) (by norm_num) (by norm_num) (by norm_num)
    (by norm_num) cbrt_spec.1 FloatNum.sqrt53_isSqrt

example : ∃ R p v t : ℚ, virProps cbrt FloatNum.sqrt53 (.fin 43) (.fin 1000) (.fin 16) (.fin 1) = ⟨.fin 1000, .fin 16, .fin R, .fin p, .fin v⟩ ∧
    (virProps cbrt FloatNum.sqrt53 (.fin 43) (.fin 1000) (.fin 16) (.fin 1)).tDyn = .fin t ∧ 0 < R := by
  obtain ⟨R, p, v, t, a, b, c, -⟩ := C162_virial (m := 1000) (rho := 16) (G := 43) (z := 1) (by norm_num) (by norm_num) (by norm_num) (by norm_num) (by norm_num)
    (by norm_num) (by norm_num) (by norm_num) (by norm_num) cbrt_spec.1 FloatNum.sqrt53_isSqrt
  exact ⟨R, p, v, t, a, b, c⟩

example : Close (rhoVir (fun x => match x with | .fin q => .fin (q ^ 3) | y => y) (.fin 200) (.fin 3) (.fin 1)) (200 * (3 / (1 + 1) ^ 3)) (0 + 8) :=
  C162_density (by norm_num) (by norm_num) (by norm_num) (by norm_num) (by norm_num) (by norm_num) (by norm_num)
    (fun x _ _ _ => ⟨x ^ 3, rfl, by simp, by simp⟩)

/-- Overdensity 200 of a density of 3 at redshift 1. -/
example : ∃ t : ℚ, (virPropsOf (fun x => match x with | .fin q => .fin (q ^ 3) | y => y) cbrt FloatNum.sqrt53 (.fin 43) (.fin 1000) (.fin 200) (.fin 3) (.fin 1)).tDyn =
    .fin t ∧ 0 < t := by
  obtain ⟨t, r, -, -, a, b, -⟩ := C162_overdensity (m := 1000) (f := 200) (d := 3) (G := 43) (z := 1) (K := 1) (K' := 0) (by norm_num) (by norm_num) (by norm_num)
    (by norm_num) (by norm_num) (by norm_num) (by norm_num) (by norm_num) (by norm_num) (by norm_num) (by norm_num) cbrt_spec.1 (by norm_num)
    (pow3 := fun x => match x with | .fin q => .fin (q ^ 3) | y => y) (fun x _ _ _ => ⟨x ^ 3, rfl, by simp, by simp⟩) FloatNum.sqrt53_isSqrt
  exact ⟨t, a, b⟩

example : (virProps cbrt FloatNum.sqrt53 (.fin 4) (.fin 0) (.fin 16) (.fin 1)).tDyn = .nan :=
  (C162_edges (m := 2) (rho := 16) (G := 4) (z := 1) (by norm_num) (by norm_num) (by norm_num) (by norm_num) (by decide +kernel) (by norm_num) (lt_of_lt_of_le (b := 2 ^ 10) (by norm_num) (pow_le_pow_right₀ (by norm_num) (by norm_num)))
    cbrt_spec.2.1 cbrt_spec.2.2.1 cbrt_spec.2.2.2 (by decide +kernel)).1.2.2.2

example : Le (rVir id (.fin 1) (.fin 3)) (rVir id (.fin 2) (.fin 3)) := C162_monotone (by norm_num) (by norm_num) id (fun _ _ h => h)


end Pyhipp.FloatHalo
