import Verif.Model.Fourier
import Verif.Props.Field
import Mathlib.Analysis.SpecialFunctions.Trigonometric.Bounds
import Mathlib.Analysis.SpecialFunctions.Trigonometric.Deriv
import Mathlib.Analysis.Calculus.Deriv.MeanValue
import Mathlib.Tactic.Ring
import Mathlib.Algebra.BigOperators.Field
import Mathlib.Tactic.Linarith
import Mathlib.Tactic.FieldSimp
import Mathlib.Tactic.Positivity
import Mathlib.Tactic.FinCases
/-
C69, C70: Fourier smoothing and the tidal field.
-/
namespace Pyhipp.CubicBox
open Pyhipp

/-! ### The wave-number map -/

/-- C69: on the indices of an axis, the wave number is the representative of the index modulo `N` in
`(-N/2, N/2]`, hence distinct indices have distinct wave numbers and mirrored indices opposite ones
(except the Nyquist index, its own mirror image). -/
theorem C69_wave_number (N i : Nat) (hi : i < N) :
    (waveNumber N i - (i : Int)) % N = 0 ∧ -(N : Int) < 2 * waveNumber N i ∧ 2 * waveNumber N i ≤ N ∧
    (∀ j, j < N → waveNumber N j = waveNumber N i → j = i) ∧
    (0 < i → 2 * i ≠ N → waveNumber N (N - i) = -waveNumber N i) ∧ waveNumber N 0 = 0 := by
  have h : ∀ j, waveNumber N j = if j > N / 2 then (j : Int) - N else j := fun _ => rfl
  refine ⟨?_, ?_, ?_, ?_, ?_, ?_⟩
  · rw [h]; split_ifs
    · have : (i : Int) - N - i = -N := by ring
      rw [this]; simp
    · simp
  · rw [h]; split_ifs <;> omega
  · rw [h]; split_ifs <;> omega
  · intro j hj he; rw [h, h] at he; split_ifs at he <;> omega
  · intro h0 h2; rw [h, h]; split_ifs <;> omega
  · rw [h]; simp

example : (List.range 6).map (waveNumber 6) = [0, 1, 2, 3, -2, -1] := by decide
example : (List.range 5).map (waveNumber 5) = [0, 1, 2, -2, -1] := by decide

theorem waveNumber_le (N i : Nat) (h : i ≤ N / 2) : waveNumber N i = i := by
  unfold waveNumber; rw [if_neg (by omega)]

theorem waveNumber_mirror (N i : Nat) (hi : i < N) :
    waveNumber N ((N - i) % N) = waveNumber N i ∨ waveNumber N ((N - i) % N) = -waveNumber N i := by
  rcases Nat.eq_zero_or_pos i with rfl | h0
  · left; simp [Nat.mod_self]
  · have e : (N - i) % N = N - i := Nat.mod_eq_of_lt (by omega)
    rw [e]
    unfold waveNumber
    split_ifs <;> omega

theorem waveNumber_abs (N i : Nat) (hi : i < N) : |(waveNumber N i : ℝ)| ≤ (N : ℝ) / 2 := by
  obtain ⟨-, h1, h2, -⟩ := C69_wave_number N i hi
  have a1 : -(N : ℝ) < 2 * (waveNumber N i : ℝ) := by exact_mod_cast h1
  have a2 : 2 * (waveNumber N i : ℝ) ≤ N := by exact_mod_cast h2
  rw [abs_le]; constructor <;> linarith

/-! ### Windows -/

/-- C69: the Gaussian window is 1 at the zero mode, in (0,1] everywhere, and depends on the wave
vector only through the squares of its components; it decreases with the length of the wave vector. -/
theorem C69_gaussian (r l k0 k1 k2 : ℝ) :
    gaussianWindow r l 0 0 0 = 1 ∧ 0 < gaussianWindow r l k0 k1 k2 ∧ gaussianWindow r l k0 k1 k2 ≤ 1 ∧
    gaussianWindow r l (-k0) (-k1) (-k2) = gaussianWindow r l k0 k1 k2 ∧
    (∀ q0 q1 q2, k0 ^ 2 + k1 ^ 2 + k2 ^ 2 ≤ q0 ^ 2 + q1 ^ 2 + q2 ^ 2 →
      gaussianWindow r l q0 q1 q2 ≤ gaussianWindow r l k0 k1 k2) ∧
    gaussianWindow r l k0 k1 k2 = Real.exp (-((2 * Real.pi / l) ^ 2 * (k0 ^ 2 + k1 ^ 2 + k2 ^ 2)) * r ^ 2 / 2) := by
  refine ⟨by simp [gaussianWindow], Real.exp_pos _, ?_, by simp [gaussianWindow], ?_, ?_⟩
  · unfold gaussianWindow
    rw [Real.exp_le_one_iff]
    have h1 : 0 ≤ (2 * Real.pi * r / l) ^ 2 := sq_nonneg _
    have h2 : 0 ≤ k0 * k0 + k1 * k1 + k2 * k2 := by
      have := mul_self_nonneg k0; have := mul_self_nonneg k1; have := mul_self_nonneg k2; linarith
    have := mul_nonneg h1 h2
    nlinarith
  · intro q0 q1 q2 h
    unfold gaussianWindow
    apply Real.exp_le_exp.mpr
    have h1 : 0 ≤ (2 * Real.pi * r / l) ^ 2 := sq_nonneg _
    have := mul_le_mul_of_nonneg_left h h1
    nlinarith
  · unfold gaussianWindow
    congr 1
    ring

theorem tophat_bound (x : ℝ) (hx : 0 ≤ x) : |Real.sin x - x * Real.cos x| ≤ x ^ 3 / 3 := by
  have hd1 : ∀ y : ℝ, HasDerivAt (fun y => y ^ 3 / 3 - (Real.sin y - y * Real.cos y)) (y ^ 2 - y * Real.sin y) y := by
    intro y
    have h1 := ((hasDerivAt_pow 3 y).div_const 3)
    have h2 := (Real.hasDerivAt_sin y).sub ((hasDerivAt_id y).mul (Real.hasDerivAt_cos y))
    have := h1.sub h2
    have e : y ^ 2 - y * Real.sin y = ((3 : Nat) : ℝ) * y ^ (3 - 1) / 3 - (Real.cos y - (1 * Real.cos y + id y * -Real.sin y)) := by
      simp only [id, Nat.cast_ofNat, Nat.add_one_sub_one]
      ring
    rw [e]
    exact this
  have hd2 : ∀ y : ℝ, HasDerivAt (fun y => y ^ 3 / 3 + (Real.sin y - y * Real.cos y)) (y ^ 2 + y * Real.sin y) y := by
    intro y
    have h1 := ((hasDerivAt_pow 3 y).div_const 3)
    have h2 := (Real.hasDerivAt_sin y).sub ((hasDerivAt_id y).mul (Real.hasDerivAt_cos y))
    have := h1.add h2
    have e : y ^ 2 + y * Real.sin y = ((3 : Nat) : ℝ) * y ^ (3 - 1) / 3 + (Real.cos y - (1 * Real.cos y + id y * -Real.sin y)) := by
      simp only [id, Nat.cast_ofNat, Nat.add_one_sub_one]
      ring
    rw [e]
    exact this
  have mono : ∀ (f f' : ℝ → ℝ), (∀ y, HasDerivAt f (f' y) y) → (∀ y, 0 ≤ y → 0 ≤ f' y) → f 0 = 0 → 0 ≤ f x := by
    intro f f' hf hf' h0
    have hm : MonotoneOn f (Set.Ici 0) := by
      apply monotoneOn_of_deriv_nonneg (convex_Ici 0)
      · exact fun y _ => (hf y).continuousAt.continuousWithinAt
      · exact fun y _ => (hf y).differentiableAt.differentiableWithinAt
      · intro y hy
        rw [(hf y).deriv]
        rw [interior_Ici] at hy
        exact hf' y (le_of_lt hy)
    have := hm (Set.mem_Ici.mpr le_rfl) (Set.mem_Ici.mpr hx) hx
    rwa [h0] at this
  have b1 := mono _ _ hd1 (fun y hy => by
    have := Real.sin_le hy
    nlinarith) (by simp)
  have b2 := mono _ _ hd2 (fun y hy => by
    have : -y ≤ Real.sin y := by
      have := Real.sin_le hy; have := Real.abs_sin_le_abs (x := y); rw [abs_of_nonneg hy] at this; linarith [neg_abs_le (Real.sin y)]
    nlinarith) (by simp)
  rw [abs_le]
  constructor <;> linarith

/-- C69: the top-hat window is 1 at the zero mode, between -1 and 1 everywhere, and depends on the
wave vector only through its length. -/
theorem C69_tophat (r l k0 k1 k2 : ℝ) :
    tophatWindow r l 0 0 0 = 1 ∧ |tophatWindow r l k0 k1 k2| ≤ 1 ∧
    tophatWindow r l (-k0) (-k1) (-k2) = tophatWindow r l k0 k1 k2 ∧
    (∀ q0 q1 q2, q0 ^ 2 + q1 ^ 2 + q2 ^ 2 = k0 ^ 2 + k1 ^ 2 + k2 ^ 2 →
      tophatWindow r l q0 q1 q2 = tophatWindow r l k0 k1 k2) ∧
    (r ≤ 0 → 0 < l → tophatWindow r l k0 k1 k2 = 1) := by
  refine ⟨?_, ?_, by simp [tophatWindow], ?_, ?_⟩
  · simp only [tophatWindow, mul_zero, add_zero, Real.sqrt_zero, zero_mul]
    rw [if_pos (by norm_num)]
  · simp only [tophatWindow]
    generalize Real.sqrt (k0 * k0 + k1 * k1 + k2 * k2) * (2 * Real.pi * r / l) = x
    split_ifs with h
    · simp
    · have hx : 0 < x := lt_of_lt_of_le (by norm_num) (not_lt.mp h)
      have hb := tophat_bound x hx.le
      have h3 : 0 < x ^ 3 := pow_pos hx 3
      rw [abs_div, abs_mul, abs_of_pos h3, div_le_one h3]
      rw [abs_of_pos (by norm_num : (0 : ℝ) < 3)]
      linarith
  · intro q0 q1 q2 h
    have : q0 * q0 + q1 * q1 + q2 * q2 = k0 * k0 + k1 * k1 + k2 * k2 := by nlinarith
    simp only [tophatWindow, this]
  · intro hr hl
    simp only [tophatWindow]
    rw [if_pos]
    have h1 : 2 * Real.pi * r / l ≤ 0 := div_nonpos_of_nonpos_of_nonneg (by nlinarith [Real.pi_pos]) hl.le
    have h2 := Real.sqrt_nonneg (k0 * k0 + k1 * k1 + k2 * k2)
    have := mul_nonpos_of_nonneg_of_nonpos h2 h1
    have : (0 : ℝ) < 1 / 10 ^ 6 := by norm_num
    linarith

/-- C69: the factor the smoothing divides by is positive (at least `(4/π²)³`) and at most 1 at every
mode of the grid, and 1 at the zero mode: the correction for the mass assignment never divides by
zero. -/
theorem C69_cic (N : Nat) (i0 i1 i2 : Nat) (h0 : i0 < N) (h1 : i1 < N) (h2 : i2 ≤ N / 2) :
    (4 / Real.pi ^ 2) ^ 3 ≤ shapeAtKiNd N (waveNumber N i0) (waveNumber N i1) i2 ∧
    0 < shapeAtKiNd N (waveNumber N i0) (waveNumber N i1) i2 ∧
    shapeAtKiNd N (waveNumber N i0) (waveNumber N i1) i2 ≤ 1 ∧ shapeAtKiNd N 0 0 0 = 1 := by
  have hpi := Real.pi_pos
  have hN : (0 : ℝ) < N := by exact_mod_cast (by omega : 0 < N)
  have c0 : (0 : ℝ) < 4 / Real.pi ^ 2 := by positivity
  have key : ∀ k : ℝ, |k| ≤ (N : ℝ) / 2 → 4 / Real.pi ^ 2 ≤ shapeAtKi N k ∧ shapeAtKi N k ≤ 1 := by
    intro k hk
    unfold shapeAtKi
    split_ifs with h
    · refine ⟨?_, le_rfl⟩
      rw [div_le_one (by positivity)]
      nlinarith [Real.two_le_pi]
    · have hkpos : 0 < |k| := lt_of_lt_of_le (by norm_num) (not_lt.mp h)
      set x := Real.pi * k / N with hx
      have hxabs : |x| = Real.pi * |k| / N := by
        rw [hx, abs_div, abs_mul, abs_of_pos hpi, abs_of_pos hN]
      have hx0 : 0 < |x| := by rw [hxabs]; positivity
      have hx1 : |x| ≤ Real.pi / 2 := by
        rw [hxabs, div_le_iff₀ hN]
        nlinarith
      have hs : Real.sin x / x = Real.sin |x| / |x| := by
        rcases abs_cases x with ⟨e, -⟩ | ⟨e, -⟩
        · rw [e]
        · rw [e, Real.sin_neg, neg_div_neg_eq]
      rw [hs]
      have lo : 2 / Real.pi ≤ Real.sin |x| / |x| := by
        rw [le_div_iff₀ hx0]
        exact Real.mul_le_sin hx0.le hx1
      have hi : Real.sin |x| / |x| ≤ 1 := by
        rw [div_le_one hx0]; exact Real.sin_le hx0.le
      have p0 : 0 < 2 / Real.pi := by positivity
      constructor
      · have e : 4 / Real.pi ^ 2 = (2 / Real.pi) * (2 / Real.pi) := by field_simp; norm_num
        rw [e]
        exact mul_le_mul lo lo p0.le (p0.le.trans lo)
      · exact mul_le_one₀ hi (p0.le.trans lo) hi
  have b2 : |((i2 : Nat) : ℝ)| ≤ (N : ℝ) / 2 := by
    rw [abs_of_nonneg (by positivity), le_div_iff₀ (by norm_num)]
    exact_mod_cast (by omega : i2 * 2 ≤ N)
  obtain ⟨a1, a2⟩ := key _ (waveNumber_abs N i0 h0)
  obtain ⟨a3, a4⟩ := key _ (waveNumber_abs N i1 h1)
  obtain ⟨a5, a6⟩ := key _ b2
  unfold shapeAtKiNd
  rw [one_mul]
  have m1 : (4 / Real.pi ^ 2) ^ 3 ≤ shapeAtKi N (waveNumber N i0) * shapeAtKi N (waveNumber N i1) * shapeAtKi N i2 := by
    have := mul_le_mul (mul_le_mul a1 a3 c0.le (c0.le.trans a1)) a5 c0.le
      (mul_nonneg (c0.le.trans a1) (c0.le.trans a3))
    calc (4 / Real.pi ^ 2) ^ 3 = (4 / Real.pi ^ 2) * (4 / Real.pi ^ 2) * (4 / Real.pi ^ 2) := by ring
      _ ≤ _ := this
  refine ⟨m1, lt_of_lt_of_le (by positivity) m1, ?_, ?_⟩
  · exact mul_le_one₀ (mul_le_one₀ a2 (c0.le.trans a3) a4) (c0.le.trans a5) a6
  · simp [shapeAtKi]

/-! ### Finite Fourier sums -/

theorem cis_add (a b : ℝ) : cis (a + b) = cis a * cis b := by
  unfold cis; rw [← Complex.exp_add]; push_cast; ring_nf

theorem cis_re (a : ℝ) : (cis a).re = Real.cos a := by
  unfold cis; rw [Complex.exp_ofReal_mul_I_re]

theorem cis_int (n : Int) : cis (2 * Real.pi * n) = 1 := by
  unfold cis
  rw [Complex.exp_eq_one_iff]
  exact ⟨n, by push_cast; ring⟩

theorem S1 (N : Nat) (hN : 0 < N) (k a : Int) :
    ∑ m ∈ Finset.range N, cis (2 * Real.pi * ((k : ℝ) * ((m : ℝ) - a)) / N) =
      if (N : Int) ∣ k then (N : ℂ) else 0 := by
  have hNr : (N : ℝ) ≠ 0 := by exact_mod_cast hN.ne'
  have hpi := Real.pi_ne_zero
  split_ifs with h
  · obtain ⟨c, rfl⟩ := h
    have : ∀ m ∈ Finset.range N, cis (2 * Real.pi * ((((N : Int) * c : Int) : ℝ) * ((m : ℝ) - a)) / N) = 1 := by
      intro m _
      rw [← cis_int (c * (m - a))]
      congr 1
      push_cast
      field_simp
    rw [Finset.sum_congr rfl this]
    simp
  · set z := cis (2 * Real.pi * (k : ℝ) / N) with hz
    have e : ∀ m ∈ Finset.range N, cis (2 * Real.pi * ((k : ℝ) * ((m : ℝ) - a)) / N) =
        cis (-(2 * Real.pi * ((k : ℝ) * a) / N)) * z ^ m := by
      intro m _
      have : z ^ m = cis (m * (2 * Real.pi * (k : ℝ) / N)) := by
        rw [hz]; unfold cis; rw [← Complex.exp_nat_mul]; push_cast; ring_nf
      rw [this, ← cis_add]
      congr 1
      field_simp
      ring
    rw [Finset.sum_congr rfl e, ← Finset.mul_sum]
    have hz1 : z ≠ 1 := by
      intro hc
      rw [hz] at hc
      unfold cis at hc
      rw [Complex.exp_eq_one_iff] at hc
      obtain ⟨n, hn⟩ := hc
      apply h
      have hI := Complex.I_ne_zero
      have h2 : ((2 * Real.pi * (k : ℝ) / N : ℝ) : ℂ) = ((n * (2 * Real.pi) : ℝ) : ℂ) := by
        apply mul_right_cancel₀ hI
        rw [hn]; push_cast; ring
      have h3 : 2 * Real.pi * (k : ℝ) / N = n * (2 * Real.pi) := by exact_mod_cast h2
      have h4 : (k : ℝ) = n * N := by
        field_simp at h3
        linarith
      refine ⟨n, ?_⟩
      have : k = n * N := by exact_mod_cast h4
      rw [this]; ring
    have hzN : z ^ N = 1 := by
      have : z ^ N = cis (2 * Real.pi * k) := by
        rw [hz]; unfold cis; rw [← Complex.exp_nat_mul]; congr 1; push_cast
        have : (N : ℂ) ≠ 0 := by exact_mod_cast hN.ne'
        field_simp
      rw [this, cis_int]
    rw [geom_sum_eq hz1, hzN]
    simp

/-- Sum of a cosine over all grid points. -/
theorem cosSum (N : Nat) (hN : 0 < N) (k0 k1 k2 a0 a1 a2 : Int) :
    ∑ m0 ∈ Finset.range N, ∑ m1 ∈ Finset.range N, ∑ m2 ∈ Finset.range N,
      Real.cos (2 * Real.pi * ((k0 : ℝ) * ((m0 : ℝ) - a0) + k1 * ((m1 : ℝ) - a1) + k2 * ((m2 : ℝ) - a2)) / N) =
      if (N : Int) ∣ k0 ∧ (N : Int) ∣ k1 ∧ (N : Int) ∣ k2 then (N : ℝ) ^ 3 else 0 := by
  have e : ∀ m0 m1 m2 : Nat, Real.cos (2 * Real.pi * ((k0 : ℝ) * ((m0 : ℝ) - a0) + k1 * ((m1 : ℝ) - a1) + k2 * ((m2 : ℝ) - a2)) / N)
      = (cis (2 * Real.pi * ((k0 : ℝ) * ((m0 : ℝ) - a0)) / N) * (cis (2 * Real.pi * ((k1 : ℝ) * ((m1 : ℝ) - a1)) / N)
        * cis (2 * Real.pi * ((k2 : ℝ) * ((m2 : ℝ) - a2)) / N))).re := by
    intro m0 m1 m2
    rw [← cis_add, ← cis_add, cis_re]
    congr 1
    ring
  simp only [e, ← Complex.re_sum, ← Finset.mul_sum, ← Finset.sum_mul, S1 N hN]
  by_cases h0 : (N : Int) ∣ k0 <;> by_cases h1 : (N : Int) ∣ k1 <;> by_cases h2 : (N : Int) ∣ k2 <;>
    simp [h0, h1, h2]
  have : ((N : ℂ) * ((N : ℂ) * (N : ℂ))) = (((N : ℝ) ^ 3 : ℝ) : ℂ) := by push_cast; ring
  have h := congrArg Complex.re this
  rw [Complex.ofReal_re] at h
  simpa using h

/-- A window that depends on the squares of the wave numbers only. -/
def EvenW (w : ℝ → ℝ → ℝ → ℝ) : Prop :=
  ∀ a b c a' b' c', (a' = a ∨ a' = -a) → (b' = b ∨ b' = -b) → (c' = c ∨ c' = -c) → w a' b' c' = w a b c

/-- Specification: the convolution kernel of a filter with Fourier window `w`, summed over the whole
grid of modes. -/
noncomputable def kernel (N : Nat) (w : ℝ → ℝ → ℝ → ℝ) (d0 d1 d2 : ℝ) : ℝ :=
  (∑ k0 ∈ Finset.range N, ∑ k1 ∈ Finset.range N, ∑ k2 ∈ Finset.range N,
    w (waveNumber N k0) (waveNumber N k1) (waveNumber N k2) *
      Real.cos (2 * Real.pi * (k0 * d0 + k1 * d1 + k2 * d2) / N)) / (N : ℝ) ^ 3

/-- Specification: circular convolution of a real array with the kernel of `w`. -/
noncomputable def convolved (N : Nat) (w : ℝ → ℝ → ℝ → ℝ) (x : Nat → Nat → Nat → ℝ) (m0 m1 m2 : Nat) : ℝ :=
  ∑ p0 ∈ Finset.range N, ∑ p1 ∈ Finset.range N, ∑ p2 ∈ Finset.range N,
    x p0 p1 p2 * kernel N w ((m0 : ℝ) - p0) ((m1 : ℝ) - p1) ((m2 : ℝ) - p2)

theorem sum_mirror (N : Nat) (f : Nat → ℝ) :
    ∑ k ∈ Finset.range N, f ((N - k) % N) = ∑ k ∈ Finset.range N, f k := by
  have hinv : ∀ k, k < N → (N - (N - k) % N) % N = k := by
    intro k hk
    rcases Nat.eq_zero_or_pos k with rfl | h
    · simp
    · rw [Nat.mod_eq_of_lt (by omega : N - k < N), Nat.mod_eq_of_lt (by omega)]; omega
  have hlt : ∀ k, k < N → (N - k) % N < N := fun k hk => Nat.mod_lt _ (by omega)
  apply Finset.sum_nbij' (fun k => (N - k) % N) (fun k => (N - k) % N)
  · intro k hk; simp only [Finset.mem_range] at *; exact hlt k hk
  · intro k hk; simp only [Finset.mem_range] at *; exact hlt k hk
  · intro k hk; simp only [Finset.mem_range] at hk; exact hinv k hk
  · intro k hk; simp only [Finset.mem_range] at hk; exact hinv k hk
  · intro k hk; rfl

theorem fold_half (h : Nat) (hh : 0 < h) (F : Nat → ℝ) (hF : ∀ k, 0 < k → k < 2 * h → F (2 * h - k) = F k) :
    ∑ k ∈ Finset.range (h + 1), (if k = 0 ∨ k + 1 = h + 1 then 1 else 2) * F k = ∑ k ∈ Finset.range (2 * h), F k := by
  obtain ⟨g, rfl⟩ : ∃ g, h = g + 1 := ⟨h - 1, by omega⟩
  have l : ∑ k ∈ Finset.range (g + 1 + 1), (if k = 0 ∨ k + 1 = g + 1 + 1 then (1 : ℝ) else 2) * F k
      = F 0 + 2 * ∑ k ∈ Finset.range g, F (k + 1) + F (g + 1) := by
    rw [Finset.sum_range_succ, Finset.sum_range_succ']
    have : ∀ k ∈ Finset.range g, (if k + 1 = 0 ∨ k + 1 + 1 = g + 1 + 1 then (1 : ℝ) else 2) * F (k + 1) = 2 * F (k + 1) := by
      intro k hk
      rw [if_neg]
      simp only [Finset.mem_range] at hk
      omega
    rw [Finset.sum_congr rfl this, ← Finset.mul_sum]
    simp
    ring
  have r : ∑ k ∈ Finset.range (2 * (g + 1)), F k =
      F 0 + ∑ k ∈ Finset.range g, F (k + 1) + F (g + 1) + ∑ k ∈ Finset.range g, F (k + 1) := by
    rw [show 2 * (g + 1) = (g + 1 + 1) + g by ring, Finset.sum_range_add, Finset.sum_range_succ,
      Finset.sum_range_succ']
    have : ∑ k ∈ Finset.range g, F (g + 1 + 1 + k) = ∑ k ∈ Finset.range g, F (k + 1) := by
      rw [← Finset.sum_range_reflect]
      apply Finset.sum_congr rfl
      intro k hk
      simp only [Finset.mem_range] at hk
      rw [← hF (k + 1) (by omega) (by omega)]
      congr 1
      omega
    rw [this]
    ring
  rw [l, r]
  ring

theorem re_term (s x w a b c : ℝ) :
    ((s : ℂ) * ((x : ℂ) * cis a) * (w : ℂ) * cis b * cis c).re = s * (x * w * Real.cos (a + b + c)) := by
  have : (s : ℂ) * ((x : ℂ) * cis a) * (w : ℂ) * cis b * cis c = ((s * (x * w) : ℝ) : ℂ) * cis (a + b + c) := by
    rw [cis_add, cis_add]; push_cast; ring
  rw [this, Complex.re_ofReal_mul, cis_re]
  ring

theorem mirror_cos (N : Nat) (hN : 0 < N) (k0 k1 k2 : Nat) (h0 : k0 < N) (h1 : k1 < N) (h2 : k2 < N) (d0 d1 d2 : Int) :
    Real.cos (2 * Real.pi * ((((N - k0) % N : Nat) : ℝ) * d0 + (((N - k1) % N : Nat) : ℝ) * d1 + (((N - k2) % N : Nat) : ℝ) * d2) / N) =
    Real.cos (2 * Real.pi * ((k0 : ℝ) * d0 + k1 * d1 + k2 * d2) / N) := by
  have hNr : (N : ℝ) ≠ 0 := by exact_mod_cast hN.ne'
  have key : ∀ k, k < N → ∃ z : Int, (((N - k) % N : Nat) : ℝ) = (z : ℝ) * N - k := by
    intro k hk
    rcases Nat.eq_zero_or_pos k with rfl | h
    · exact ⟨0, by simp⟩
    · refine ⟨1, ?_⟩
      rw [Nat.mod_eq_of_lt (by omega), Nat.cast_sub (by omega)]
      push_cast; ring
  obtain ⟨z0, e0⟩ := key k0 h0
  obtain ⟨z1, e1⟩ := key k1 h1
  obtain ⟨z2, e2⟩ := key k2 h2
  rw [e0, e1, e2]
  rw [← Real.cos_neg (2 * Real.pi * ((k0 : ℝ) * d0 + k1 * d1 + k2 * d2) / N)]
  rw [← Real.cos_add_int_mul_two_pi (-(2 * Real.pi * ((k0 : ℝ) * d0 + k1 * d1 + k2 * d2) / N)) (z0 * d0 + z1 * d1 + z2 * d2)]
  congr 1
  push_cast
  field_simp
  ring

/-- The entries computed by `irfftn`. -/
noncomputable def irVal (X : Arr3 ℂ) (m0 m1 m2 : Nat) : ℝ :=
  1 / Real.sqrt ((X.n0 * X.n1 * (2 * (X.n2 - 1)) : Nat) : ℝ) *
      ∑ k2 ∈ Finset.range X.n2, (if k2 = 0 ∨ k2 + 1 = X.n2 then 1 else 2) *
        ((∑ k0 ∈ Finset.range X.n0, ∑ k1 ∈ Finset.range X.n1,
          X.get k0 k1 k2 * cis (2 * Real.pi * ((k0 * m0 : ℝ) / X.n0 + (k1 * m1 : ℝ) / X.n1)))
          * cis (2 * Real.pi * ((k2 * m2 : ℝ) / (2 * (X.n2 - 1) : Nat)))).re

theorem irfftn_ok (X : Arr3 ℂ) (h : 2 ≤ X.n2) :
    irfftn X = .ok ⟨X.n0, X.n1, 2 * (X.n2 - 1), irVal X⟩ := by
  unfold irfftn
  simp only
  rw [if_neg (by omega)]
  rfl

theorem mulModes_ok (N : Nat) (w : ℝ → ℝ → ℝ → ℝ) (X : Arr3 ℂ) (h0 : X.n0 = N) (h1 : X.n1 = N) (h2 : X.n2 = N / 2 + 1) :
    mulModes N w X = .ok ⟨X.n0, X.n1, X.n2, fun i0 i1 i2 => X.get i0 i1 i2 *
      ((w (waveNumber N i0) (waveNumber N i1) (i2 : ℝ) : ℝ) : ℂ)⟩ := by
  unfold mulModes
  rw [h0, h1, h2]
  simp [pyAssert, bind, Except.bind, pure, Except.pure]

theorem swap5 (N : Nat) (T : Nat → Nat → Nat → Nat → Nat → ℝ) :
    ∑ k0 ∈ Finset.range N, ∑ k1 ∈ Finset.range N, ∑ p0 ∈ Finset.range N, ∑ p1 ∈ Finset.range N, ∑ p2 ∈ Finset.range N,
      T k0 k1 p0 p1 p2 =
    ∑ p0 ∈ Finset.range N, ∑ p1 ∈ Finset.range N, ∑ p2 ∈ Finset.range N, ∑ k0 ∈ Finset.range N, ∑ k1 ∈ Finset.range N,
      T k0 k1 p0 p1 p2 := by
  have := Finset.sum_comm (s := Finset.range N ×ˢ Finset.range N)
    (t := Finset.range N ×ˢ (Finset.range N ×ˢ Finset.range N))
    (f := fun q p => T q.1 q.2 p.1 p.2.1 p.2.2)
  simpa only [Finset.sum_product] using this

theorem swap4 (N h : Nat) (T : Nat → Nat → Nat → Nat → ℝ) :
    ∑ k ∈ Finset.range h, ∑ p0 ∈ Finset.range N, ∑ p1 ∈ Finset.range N, ∑ p2 ∈ Finset.range N, T k p0 p1 p2 =
    ∑ p0 ∈ Finset.range N, ∑ p1 ∈ Finset.range N, ∑ p2 ∈ Finset.range N, ∑ k ∈ Finset.range h, T k p0 p1 p2 := by
  have := Finset.sum_comm (s := Finset.range h)
    (t := Finset.range N ×ˢ (Finset.range N ×ˢ Finset.range N))
    (f := fun q p => T q p.1 p.2.1 p.2.2)
  simpa only [Finset.sum_product] using this

theorem swap3 (N h : Nat) (T : Nat → Nat → Nat → ℝ) :
    ∑ k ∈ Finset.range h, ∑ p0 ∈ Finset.range N, ∑ p1 ∈ Finset.range N, T k p0 p1 =
    ∑ p0 ∈ Finset.range N, ∑ p1 ∈ Finset.range N, ∑ k ∈ Finset.range h, T k p0 p1 := by
  have := Finset.sum_comm (s := Finset.range h)
    (t := Finset.range N ×ˢ Finset.range N)
    (f := fun q p => T q p.1 p.2)
  simpa only [Finset.sum_product] using this

theorem sum3_congr (N : Nat) (f g : Nat → Nat → Nat → ℝ)
    (h : ∀ i j k, i < N → j < N → k < N → f i j k = g i j k) :
    ∑ p0 ∈ Finset.range N, ∑ p1 ∈ Finset.range N, ∑ p2 ∈ Finset.range N, f p0 p1 p2 =
    ∑ p0 ∈ Finset.range N, ∑ p1 ∈ Finset.range N, ∑ p2 ∈ Finset.range N, g p0 p1 p2 := by
  refine Finset.sum_congr rfl fun i hi => Finset.sum_congr rfl fun j hj => Finset.sum_congr rfl fun k hk => ?_
  exact h i j k (Finset.mem_range.mp hi) (Finset.mem_range.mp hj) (Finset.mem_range.mp hk)

/-- The whole chain forward transform, multiplication by an even real window, backward transform is
the circular convolution, when the number of grid points is even. -/
theorem filter_eq (N : Nat) (hN : 0 < N) (hev : N % 2 = 0) (w : ℝ → ℝ → ℝ → ℝ) (hw : EvenW w) (x : Arr3 ℝ)
    (h0 : x.n0 = N) (h1 : x.n1 = N) (h2 : x.n2 = N) :
    ∃ X out, mulModes N w (rfftn x) = .ok X ∧ X.n0 = N ∧ X.n1 = N ∧ X.n2 = N / 2 + 1 ∧
      irfftn X = .ok out ∧ out.n0 = N ∧ out.n1 = N ∧ out.n2 = N ∧
      ∀ m0 m1 m2 : Nat, out.get m0 m1 m2 = convolved N w x.get m0 m1 m2 := by
  obtain ⟨h, rfl⟩ : ∃ h, N = 2 * h := ⟨N / 2, by omega⟩
  have hh : 0 < h := by omega
  obtain ⟨n0, n1, n2, g⟩ := x
  simp only at h0 h1 h2
  subst h0; subst h1; subst h2
  have hhalf : 2 * h / 2 = h := by omega
  rw [mulModes_ok (2 * h) w _ rfl rfl rfl]
  refine ⟨_, _, rfl, rfl, rfl, rfl, irfftn_ok _ (by simp only [rfftn]; omega), rfl, rfl, by simp only [rfftn]; omega, ?_⟩
  intro m0 m1 m2
  simp only [irVal, rfftn, hhalf, Nat.add_sub_cancel]
  set N := 2 * h with hNdef
  have hNr : (N : ℝ) ≠ 0 := by exact_mod_cast hN.ne'
  set s : ℝ := 1 / Real.sqrt ((N * N * N : Nat) : ℝ) with hs
  have hss : s * s = 1 / (N : ℝ) ^ 3 := by
    rw [hs, div_mul_div_comm, Real.mul_self_sqrt (by positivity)]
    push_cast; ring
  set F : Nat → Nat → Nat → Nat → ℝ := fun p0 p1 p2 k2 => ∑ k0 ∈ Finset.range N, ∑ k1 ∈ Finset.range N,
    w (waveNumber N k0) (waveNumber N k1) (waveNumber N k2) *
      Real.cos (2 * Real.pi * (k0 * ((m0 : ℝ) - p0) + k1 * ((m1 : ℝ) - p1) + k2 * ((m2 : ℝ) - p2)) / N) with hF
  have hre : ∀ k2 ∈ Finset.range (h + 1),
      ((∑ k0 ∈ Finset.range N, ∑ k1 ∈ Finset.range N,
        ((s : ℂ) * ∑ p0 ∈ Finset.range N, ∑ p1 ∈ Finset.range N, ∑ p2 ∈ Finset.range N,
          (g p0 p1 p2 : ℂ) * cis (-(2 * Real.pi * ((k0 * p0 : ℝ) / N + (k1 * p1 : ℝ) / N + (k2 * p2 : ℝ) / N))))
          * ((w (waveNumber N k0) (waveNumber N k1) (k2 : ℝ) : ℝ) : ℂ)
          * cis (2 * Real.pi * ((k0 * m0 : ℝ) / N + (k1 * m1 : ℝ) / N)))
        * cis (2 * Real.pi * ((k2 * m2 : ℝ) / N))).re
      = s * ∑ p0 ∈ Finset.range N, ∑ p1 ∈ Finset.range N, ∑ p2 ∈ Finset.range N, g p0 p1 p2 * F p0 p1 p2 k2 := by
    intro k2 hk2
    have hk : ((k2 : Nat) : ℝ) = (waveNumber N k2 : ℝ) := by
      rw [waveNumber_le N k2 (by simp only [Finset.mem_range] at hk2; omega)]; simp
    simp only [Finset.mul_sum, Finset.sum_mul, Complex.re_sum, re_term, hF]
    rw [swap5]
    apply sum3_congr
    intro p0 p1 p2 _ _ _
    refine Finset.sum_congr rfl fun k0 _ => Finset.sum_congr rfl fun k1 _ => ?_
    rw [← hk]
    have : -(2 * Real.pi * ((k0 : ℝ) * p0 / N + (k1 : ℝ) * p1 / N + (k2 : ℝ) * p2 / N)) +
        2 * Real.pi * ((k0 : ℝ) * m0 / N + (k1 : ℝ) * m1 / N) + 2 * Real.pi * ((k2 : ℝ) * m2 / N)
        = 2 * Real.pi * (k0 * ((m0 : ℝ) - p0) + k1 * ((m1 : ℝ) - p1) + k2 * ((m2 : ℝ) - p2)) / N := by
      field_simp; ring
    rw [this]
    ring
  have hker : ∀ p0 p1 p2 : Nat, kernel N w ((m0 : ℝ) - p0) ((m1 : ℝ) - p1) ((m2 : ℝ) - p2) =
      (∑ k2 ∈ Finset.range (h + 1), (if k2 = 0 ∨ k2 + 1 = h + 1 then 1 else 2) * F p0 p1 p2 k2) / (N : ℝ) ^ 3 := by
    intro p0 p1 p2
    unfold kernel
    congr 1
    rw [fold_half h hh]
    · simp only [hF]
      exact (swap3 N N _).symm
    · intro k hk hk'
      have hmod : (N - k) % N = N - k := Nat.mod_eq_of_lt (by omega)
      simp only [hF]
      rw [← hNdef, ← sum_mirror N]
      apply Finset.sum_congr rfl
      intro k0 hk0
      rw [← sum_mirror N]
      apply Finset.sum_congr rfl
      intro k1 hk1
      have b0 := Finset.mem_range.mp hk0
      have b1 := Finset.mem_range.mp hk1
      have hc := mirror_cos N hN k0 k1 k b0 b1 (by omega) ((m0 : Int) - p0) ((m1 : Int) - p1) ((m2 : Int) - p2)
      rw [hmod] at hc
      push_cast at hc
      have hww : w (waveNumber N ((N - k0) % N)) (waveNumber N ((N - k1) % N)) (waveNumber N (N - k)) =
          w (waveNumber N k0) (waveNumber N k1) (waveNumber N k) := by
        apply hw
        · rcases waveNumber_mirror N k0 b0 with e | e <;> rw [e] <;> simp
        · rcases waveNumber_mirror N k1 b1 with e | e <;> rw [e] <;> simp
        · have := waveNumber_mirror N k (by omega)
          rw [hmod] at this
          rcases this with e | e <;> rw [e] <;> simp
      rw [hww]
      congr 1
  unfold convolved
  simp only [hker]
  rw [Finset.sum_congr rfl (fun k2 hk2 => by rw [hre k2 hk2])]
  simp only [Finset.mul_sum, Finset.sum_div]
  rw [swap4]
  apply sum3_congr
  intro p0 p1 p2 _ _ _
  refine Finset.sum_congr rfl fun k2 _ => ?_
  have : ∀ a b c : ℝ, s * (a * (s * (b * c))) = b * (a * c * (s * s)) := by intros; ring
  rw [this, hss]
  ring

/-! ### C69: smoothing -/

/-- Specification: a field whose data fit its mesh. -/
structure FieldR.OK (f : FieldR) : Prop where
  pos : 0 < f.mesh.nGrids
  n0 : f.data.n0 = f.mesh.nGrids
  n1 : f.data.n1 = f.mesh.nGrids
  n2 : f.data.n2 = f.mesh.nGrids

theorem even_gaussian (r l : ℝ) : EvenW (gaussianWindow r l) := by
  intro a b c a' b' c' ha hb hc
  have h1 : a' * a' = a * a := by rcases ha with rfl | rfl <;> ring
  have h2 : b' * b' = b * b := by rcases hb with rfl | rfl <;> ring
  have h3 : c' * c' = c * c := by rcases hc with rfl | rfl <;> ring
  simp only [gaussianWindow, h1, h2, h3]

theorem even_tophat (r l : ℝ) : EvenW (tophatWindow r l) := by
  intro a b c a' b' c' ha hb hc
  have h1 : a' * a' = a * a := by rcases ha with rfl | rfl <;> ring
  have h2 : b' * b' = b * b := by rcases hb with rfl | rfl <;> ring
  have h3 : c' * c' = c * c := by rcases hc with rfl | rfl <;> ring
  simp only [tophatWindow, h1, h2, h3]

theorem even_shape1 (N : Nat) (a a' : ℝ) (h : a' = a ∨ a' = -a) : shapeAtKi N a' = shapeAtKi N a := by
  rcases h with rfl | rfl
  · rfl
  · unfold shapeAtKi
    rw [abs_neg]
    have : Real.pi * -a / N = -(Real.pi * a / N) := by ring
    rw [this, Real.sin_neg, neg_div_neg_eq]

theorem even_shape (N : Nat) : EvenW (shapeAtKiNd N) := by
  intro a b c a' b' c' ha hb hc
  simp only [shapeAtKiNd, even_shape1 N a a' ha, even_shape1 N b b' hb, even_shape1 N c c' hc]

theorem windowOf_spec (method : String) (r l : ℝ) (w : ℝ → ℝ → ℝ → ℝ) (h : windowOf method r l = .ok w) :
    EvenW w ∧ w 0 0 0 = 1 := by
  unfold windowOf at h
  split_ifs at h
  · simp only [Except.ok.injEq] at h; subst h
    exact ⟨even_gaussian r l, (C69_gaussian r l 0 0 0).1⟩
  · simp only [Except.ok.injEq] at h; subst h
    exact ⟨even_tophat r l, (C69_tophat r l 0 0 0).1⟩

/-- C69: the names: 'gaussian' and 'tophat' are accepted, anything else is a ValueError before any
work is done. -/
theorem C69_method (method : String) (r : ℝ) (f : FieldR) :
    (method = "gaussian" → windowOf method r f.mesh.lBox = .ok (gaussianWindow r f.mesh.lBox)) ∧
    (method = "tophat" → windowOf method r f.mesh.lBox = .ok (tophatWindow r f.mesh.lBox)) ∧
    (method ≠ "gaussian" → method ≠ "tophat" → fftSmoothing method r f = .error .valueError ∧
      fourierSmoothing method r f = .error .valueError) := by
  refine ⟨?_, ?_, ?_⟩
  · rintro rfl; simp [windowOf]
  · rintro rfl; simp [windowOf]
  · intro h1 h2
    simp [fftSmoothing, fourierSmoothing, windowOf, h1, h2, bind, Except.bind]

/-- C69: on a grid with an even number of points per axis, smoothing succeeds, keeps mesh and shape,
and is the circular convolution with the kernel whose Fourier coefficients are the window at the
wave numbers of the grid. -/
theorem C69_convolution (method : String) (r : ℝ) (f : FieldR) (hf : f.OK) (hev : f.mesh.nGrids % 2 = 0)
    (w : ℝ → ℝ → ℝ → ℝ) (hw : windowOf method r f.mesh.lBox = .ok w) :
    ∃ out, fftSmoothing method r f = .ok out ∧ out.OK ∧ out.mesh = f.mesh ∧
      ∀ m0 m1 m2 : Nat, out.data.get m0 m1 m2 = convolved f.mesh.nGrids w f.data.get m0 m1 m2 := by
  obtain ⟨X, d, e1, -, -, -, e2, g0, g1, g2, hv⟩ := filter_eq f.mesh.nGrids hf.pos hev w (windowOf_spec _ _ _ _ hw).1
    f.data hf.n0 hf.n1 hf.n2
  refine ⟨⟨d, f.mesh⟩, ?_, ⟨hf.pos, g0, g1, g2⟩, rfl, hv⟩
  simp [fftSmoothing, hw, e1, e2, fieldNew, g0, g1, g2, pyAssert, bind, Except.bind, pure, Except.pure]

theorem kernel_sum (N : Nat) (hN : 0 < N) (w : ℝ → ℝ → ℝ → ℝ) (a0 a1 a2 : Nat) :
    ∑ m0 ∈ Finset.range N, ∑ m1 ∈ Finset.range N, ∑ m2 ∈ Finset.range N,
      kernel N w ((m0 : ℝ) - a0) ((m1 : ℝ) - a1) ((m2 : ℝ) - a2) = w 0 0 0 := by
  have hNr : (N : ℝ) ≠ 0 := by exact_mod_cast hN.ne'
  unfold kernel
  simp only [← Finset.sum_div]
  rw [div_eq_iff (pow_ne_zero 3 hNr)]
  have sw : ∀ T : Nat → Nat → Nat → Nat → Nat → Nat → ℝ,
      ∑ m0 ∈ Finset.range N, ∑ m1 ∈ Finset.range N, ∑ m2 ∈ Finset.range N,
        ∑ k0 ∈ Finset.range N, ∑ k1 ∈ Finset.range N, ∑ k2 ∈ Finset.range N, T m0 m1 m2 k0 k1 k2 =
      ∑ k0 ∈ Finset.range N, ∑ k1 ∈ Finset.range N, ∑ k2 ∈ Finset.range N,
        ∑ m0 ∈ Finset.range N, ∑ m1 ∈ Finset.range N, ∑ m2 ∈ Finset.range N, T m0 m1 m2 k0 k1 k2 := by
    intro T
    have := Finset.sum_comm (s := Finset.range N ×ˢ (Finset.range N ×ˢ Finset.range N))
      (t := Finset.range N ×ˢ (Finset.range N ×ˢ Finset.range N))
      (f := fun m k => T m.1 m.2.1 m.2.2 k.1 k.2.1 k.2.2)
    simpa only [Finset.sum_product] using this
  rw [sw]
  have hz : ∀ k, k < N → ((N : Int) ∣ (k : Int) ↔ k = 0) := by
    intro k hk
    constructor
    · intro h
      have := Int.natCast_dvd_natCast.mp h
      exact Nat.eq_zero_of_dvd_of_lt this hk
    · rintro rfl; simp
  rw [sum3_congr N _ (fun k0 k1 k2 => if k0 = 0 ∧ k1 = 0 ∧ k2 = 0 then w 0 0 0 * (N : ℝ) ^ 3 else 0)]
  · rw [Finset.sum_eq_single 0, Finset.sum_eq_single 0, Finset.sum_eq_single 0]
    · simp
    · intro b _ hb; simp [hb]
    · simp; omega
    · intro b _ hb; simp [hb]
    · simp; omega
    · intro b _ hb; simp [hb]
    · simp; omega
  · intro k0 k1 k2 h0 h1 h2
    simp only [← Finset.mul_sum]
    have := cosSum N hN k0 k1 k2 a0 a1 a2
    simp only [Int.cast_natCast, hz k0 h0, hz k1 h1, hz k2 h2] at this
    rw [this]
    split_ifs with h
    · obtain ⟨rfl, rfl, rfl⟩ := h
      simp [waveNumber]
    · simp

/-- C69: smoothing preserves the total (hence the mean) of the field. -/
theorem C69_mean (method : String) (r : ℝ) (f out : FieldR) (hf : f.OK) (hev : f.mesh.nGrids % 2 = 0)
    (h : fftSmoothing method r f = .ok out) : out.data.mean = f.data.mean := by
  rcases hw : windowOf method r f.mesh.lBox with e | w
  · simp [fftSmoothing, hw, bind, Except.bind] at h
  · obtain ⟨out', e1, ok, hm, hv⟩ := C69_convolution method r f hf hev w hw
    rw [h] at e1
    obtain rfl : out = out' := by simpa using e1
    obtain ⟨o0, o1, o2⟩ : out.data.n0 = f.mesh.nGrids ∧ out.data.n1 = f.mesh.nGrids ∧ out.data.n2 = f.mesh.nGrids := by
      rw [← hm]; exact ⟨ok.n0, ok.n1, ok.n2⟩
    unfold Arr3.mean
    rw [o0, o1, o2, hf.n0, hf.n1, hf.n2]
    congr 1
    simp only [hv, convolved]
    have sw : ∀ (N : Nat) (T : Nat → Nat → Nat → Nat → Nat → Nat → ℝ),
        ∑ m0 ∈ Finset.range N, ∑ m1 ∈ Finset.range N, ∑ m2 ∈ Finset.range N,
          ∑ k0 ∈ Finset.range N, ∑ k1 ∈ Finset.range N, ∑ k2 ∈ Finset.range N, T m0 m1 m2 k0 k1 k2 =
        ∑ k0 ∈ Finset.range N, ∑ k1 ∈ Finset.range N, ∑ k2 ∈ Finset.range N,
          ∑ m0 ∈ Finset.range N, ∑ m1 ∈ Finset.range N, ∑ m2 ∈ Finset.range N, T m0 m1 m2 k0 k1 k2 := by
      intro N T
      have := Finset.sum_comm (s := Finset.range N ×ˢ (Finset.range N ×ˢ Finset.range N))
        (t := Finset.range N ×ˢ (Finset.range N ×ˢ Finset.range N))
        (f := fun m k => T m.1 m.2.1 m.2.2 k.1 k.2.1 k.2.2)
      simpa only [Finset.sum_product] using this
    rw [sw]
    apply sum3_congr
    intro p0 p1 p2 _ _ _
    simp only [← Finset.mul_sum]
    rw [kernel_sum f.mesh.nGrids hf.pos, (windowOf_spec _ _ _ _ hw).2, mul_one]

theorem kernel_neg (N : Nat) (w : ℝ → ℝ → ℝ → ℝ) (d0 d1 d2 : ℝ) :
    kernel N w (-d0) (-d1) (-d2) = kernel N w d0 d1 d2 := by
  unfold kernel
  congr 1
  apply sum3_congr
  intro k0 k1 k2 _ _ _
  congr 1
  rw [← Real.cos_neg]
  congr 1
  ring

/-- C69: a constant field is left as it is. -/
theorem C69_constant (method : String) (r : ℝ) (f out : FieldR) (hf : f.OK) (hev : f.mesh.nGrids % 2 = 0)
    (h : fftSmoothing method r f = .ok out) (c : ℝ) (hc : ∀ i j k, f.data.get i j k = c) (m0 m1 m2 : Nat) :
    out.data.get m0 m1 m2 = c := by
  rcases hw : windowOf method r f.mesh.lBox with e | w
  · simp [fftSmoothing, hw, bind, Except.bind] at h
  · obtain ⟨out', e1, ok, hm, hv⟩ := C69_convolution method r f hf hev w hw
    rw [h] at e1
    obtain rfl : out = out' := by simpa using e1
    rw [hv]
    simp only [convolved, hc, ← Finset.mul_sum]
    have e : ∀ p0 p1 p2 : Nat, kernel f.mesh.nGrids w ((m0 : ℝ) - p0) ((m1 : ℝ) - p1) ((m2 : ℝ) - p2) =
        kernel f.mesh.nGrids w ((p0 : ℝ) - m0) ((p1 : ℝ) - m1) ((p2 : ℝ) - m2) := by
      intro p0 p1 p2
      rw [← kernel_neg]
      congr 1 <;> ring
    simp only [e]
    rw [kernel_sum f.mesh.nGrids hf.pos, (windowOf_spec _ _ _ _ hw).2, mul_one]

/-- C69: with smoothing length 0 the field comes back unchanged at every grid point. -/
theorem C69_zero_radius (method : String) (f out : FieldR) (hf : f.OK) (hev : f.mesh.nGrids % 2 = 0)
    (hm : method = "gaussian" ∨ (method = "tophat" ∧ 0 < f.mesh.lBox))
    (h : fftSmoothing method 0 f = .ok out) (m0 m1 m2 : Nat) (h0 : m0 < f.mesh.nGrids) (h1 : m1 < f.mesh.nGrids)
    (h2 : m2 < f.mesh.nGrids) : out.data.get m0 m1 m2 = f.data.get m0 m1 m2 := by
  rcases hw : windowOf method 0 f.mesh.lBox with e | w
  · simp [fftSmoothing, hw, bind, Except.bind] at h
  · have hone : ∀ a b c, w a b c = 1 := by
      intro a b c
      rcases hm with rfl | ⟨rfl, hl⟩
      · simp [windowOf] at hw; subst hw; simp [gaussianWindow]
      · simp [windowOf] at hw; subst hw; exact (C69_tophat 0 _ a b c).2.2.2.2 le_rfl hl
    obtain ⟨out', e1, ok, hm', hv⟩ := C69_convolution method 0 f hf hev w hw
    rw [h] at e1
    obtain rfl : out = out' := by simpa using e1
    rw [hv]
    set N := f.mesh.nGrids with hN
    have hNr : (N : ℝ) ≠ 0 := by exact_mod_cast hf.pos.ne'
    have hk : ∀ p0 p1 p2 : Nat, p0 < N → p1 < N → p2 < N →
        kernel N w ((m0 : ℝ) - p0) ((m1 : ℝ) - p1) ((m2 : ℝ) - p2) =
        if p0 = m0 ∧ p1 = m1 ∧ p2 = m2 then 1 else 0 := by
      intro p0 p1 p2 b0 b1 b2
      have := cosSum N hf.pos ((m0 : Int) - p0) ((m1 : Int) - p1) ((m2 : Int) - p2) 0 0 0
      have hd : ∀ a b : Nat, a < N → b < N → ((N : Int) ∣ (a : Int) - b ↔ b = a) := by
        intro a b ha hb
        constructor
        · intro hdv
          have := Int.eq_zero_of_abs_lt_dvd hdv (by rw [abs_lt]; constructor <;> omega)
          omega
        · rintro rfl; simp
      simp only [hd m0 p0 h0 b0, hd m1 p1 h1 b1, hd m2 p2 h2 b2] at this
      unfold kernel
      simp only [hone, one_mul]
      rw [div_eq_iff (pow_ne_zero 3 hNr)]
      have e2 : (if p0 = m0 ∧ p1 = m1 ∧ p2 = m2 then (1 : ℝ) else 0) * (N : ℝ) ^ 3 =
          if p0 = m0 ∧ p1 = m1 ∧ p2 = m2 then (N : ℝ) ^ 3 else 0 := by split_ifs <;> simp
      rw [e2, ← this]
      apply sum3_congr
      intro k0 k1 k2 _ _ _
      congr 2
      push_cast
      ring
    unfold convolved
    rw [sum3_congr N _ (fun p0 p1 p2 => if p0 = m0 ∧ p1 = m1 ∧ p2 = m2 then f.data.get m0 m1 m2 else 0)]
    · rw [Finset.sum_eq_single m0, Finset.sum_eq_single m1, Finset.sum_eq_single m2]
      · simp
      · intro b _ hb; simp [hb]
      · intro hb; simp at hb; omega
      · intro b _ hb; simp [hb]
      · intro hb; simp at hb; omega
      · intro b _ hb; simp [hb]
      · intro hb; simp at hb; omega
    · intro p0 p1 p2 b0 b1 b2
      rw [hk p0 p1 p2 b0 b1 b2]
      split_ifs with hc
      · obtain ⟨rfl, rfl, rfl⟩ := hc; simp
      · simp

theorem sum_shift (N s : Nat) (f : Nat → ℝ) :
    ∑ k ∈ Finset.range N, f ((k + s) % N) = ∑ k ∈ Finset.range N, f k := by
  rcases Nat.eq_zero_or_pos N with rfl | hN
  · simp
  have hs : s % N < N := Nat.mod_lt _ hN
  have a1 : ∀ k, k < N → (k + s) % N = if k + s % N < N then k + s % N else k + s % N - N := by
    intro k hk
    rw [Nat.add_mod, Nat.mod_eq_of_lt hk]
    split_ifs with h
    · exact Nat.mod_eq_of_lt h
    · rw [Nat.mod_eq_sub_mod (by omega), Nat.mod_eq_of_lt (by omega)]
  have a2 : ∀ k, k < N → (k + (N - s % N)) % N = if k < s % N then k + (N - s % N) else k - s % N := by
    intro k hk
    split_ifs with h
    · exact Nat.mod_eq_of_lt (by omega)
    · rw [Nat.mod_eq_sub_mod (by omega), Nat.mod_eq_of_lt (by omega)]; omega
  apply Finset.sum_nbij' (fun k => (k + s) % N) (fun k => (k + (N - s % N)) % N)
  · intro k hk; simp only [Finset.mem_range] at *; exact Nat.mod_lt _ hN
  · intro k hk; simp only [Finset.mem_range] at *; exact Nat.mod_lt _ hN
  · intro k hk
    simp only [Finset.mem_range] at hk
    rw [a2 _ (Nat.mod_lt _ hN), a1 k hk]
    split_ifs <;> omega
  · intro k hk
    simp only [Finset.mem_range] at hk
    rw [a1 _ (Nat.mod_lt _ hN), a2 k hk]
    split_ifs <;> omega
  · intro k hk; rfl

theorem kernel_periodic (N : Nat) (hN : 0 < N) (w : ℝ → ℝ → ℝ → ℝ) (d0 d1 d2 : ℝ) (z0 z1 z2 : Int) :
    kernel N w (d0 + z0 * N) (d1 + z1 * N) (d2 + z2 * N) = kernel N w d0 d1 d2 := by
  have hNr : (N : ℝ) ≠ 0 := by exact_mod_cast hN.ne'
  unfold kernel
  congr 1
  apply sum3_congr
  intro k0 k1 k2 _ _ _
  congr 1
  rw [← Real.cos_add_int_mul_two_pi (2 * Real.pi * (k0 * d0 + k1 * d1 + k2 * d2) / N) (k0 * z0 + k1 * z1 + k2 * z2)]
  congr 1
  push_cast
  field_simp
  ring

/-- C69: smoothing commutes with periodic translations of the grid and is linear. -/
theorem C69_equivariant (method : String) (r : ℝ) (f g u fo go uo : FieldR) (hf : f.OK) (hg : g.OK) (hu : u.OK)
    (hev : f.mesh.nGrids % 2 = 0) (hm : g.mesh = f.mesh) (hmu : u.mesh = f.mesh)
    (ef : fftSmoothing method r f = .ok fo) (eg : fftSmoothing method r g = .ok go)
    (eu : fftSmoothing method r u = .ok uo) (m0 m1 m2 : Nat) :
    (∀ s0 s1 s2 : Nat, (∀ i j k, g.data.get i j k = f.data.get ((i + s0) % f.mesh.nGrids) ((j + s1) % f.mesh.nGrids)
        ((k + s2) % f.mesh.nGrids)) →
      go.data.get m0 m1 m2 = fo.data.get ((m0 + s0) % f.mesh.nGrids) ((m1 + s1) % f.mesh.nGrids)
        ((m2 + s2) % f.mesh.nGrids)) ∧
    (∀ a b : ℝ, (∀ i j k, u.data.get i j k = a * f.data.get i j k + b * g.data.get i j k) →
      uo.data.get m0 m1 m2 = a * fo.data.get m0 m1 m2 + b * go.data.get m0 m1 m2) := by
  rcases hw : windowOf method r f.mesh.lBox with e | w
  · simp [fftSmoothing, hw, bind, Except.bind] at ef
  obtain ⟨_, e1, -, -, vf⟩ := C69_convolution method r f hf hev w hw
  obtain ⟨_, e2, -, -, vg⟩ := C69_convolution method r g hg (hm ▸ hev) w (hm ▸ hw)
  obtain ⟨_, e3, -, -, vu⟩ := C69_convolution method r u hu (hmu ▸ hev) w (hmu ▸ hw)
  rw [ef] at e1; rw [eg] at e2; rw [eu] at e3
  simp only [Except.ok.injEq] at e1 e2 e3
  subst e1; subst e2; subst e3
  rw [hm] at vg
  rw [hmu] at vu
  constructor
  · intro s0 s1 s2 hs
    rw [vf, vg]
    set N := f.mesh.nGrids
    have hN : 0 < N := hf.pos
    symm
    unfold convolved
    rw [← sum_shift N s0]
    apply Finset.sum_congr rfl
    intro p0 _
    rw [← sum_shift N s1]
    apply Finset.sum_congr rfl
    intro p1 _
    rw [← sum_shift N s2]
    apply Finset.sum_congr rfl
    intro p2 _
    rw [hs]
    congr 1
    have key : ∀ a : Nat, ∃ z : Int, ((a % N : Nat) : ℝ) = a - (z : ℝ) * N := by
      intro a
      refine ⟨((a / N : Nat) : Int), ?_⟩
      have := Nat.div_add_mod a N
      have : ((N * (a / N) + a % N : Nat) : ℝ) = a := by rw [this]
      rw [Nat.cast_add, Nat.cast_mul] at this
      rw [Int.cast_natCast]
      linarith
    obtain ⟨z0, e0⟩ := key (m0 + s0)
    obtain ⟨z1, e1⟩ := key (m1 + s1)
    obtain ⟨z2, e2⟩ := key (m2 + s2)
    obtain ⟨y0, f0⟩ := key (p0 + s0)
    obtain ⟨y1, f1⟩ := key (p1 + s1)
    obtain ⟨y2, f2⟩ := key (p2 + s2)
    rw [e0, e1, e2, f0, f1, f2]
    rw [← kernel_periodic N hN w ((m0 : ℝ) - p0) ((m1 : ℝ) - p1) ((m2 : ℝ) - p2) (y0 - z0) (y1 - z1) (y2 - z2)]
    congr 1 <;> push_cast <;> ring
  · intro a b hab
    rw [vf, vg, vu]
    unfold convolved
    simp only [Finset.mul_sum, ← Finset.sum_add_distrib]
    apply sum3_congr
    intro p0 p1 p2 _ _ _
    rw [hab]
    ring

/-- C69 (defect, recorded): on a grid with an odd number of points per axis the backward transform
loses one plane: `FFTSmoothing.run` always fails, with an AssertionError from 3 points on and a
ValueError for a single cell. -/
theorem C69_odd_defect (method : String) (r : ℝ) (f : FieldR) (hf : f.OK) (hodd : f.mesh.nGrids % 2 = 1)
    (w : ℝ → ℝ → ℝ → ℝ) (hw : windowOf method r f.mesh.lBox = .ok w) :
    (f.mesh.nGrids = 1 → fftSmoothing method r f = .error .valueError) ∧
    (f.mesh.nGrids ≠ 1 → fftSmoothing method r f = .error .assertionError) := by
  have h2 : (rfftn f.data).n2 = f.mesh.nGrids / 2 + 1 := by simp [rfftn, hf.n2]
  have hmul := mulModes_ok f.mesh.nGrids w (rfftn f.data) hf.n0 hf.n1 h2
  constructor
  · intro h1
    simp only [fftSmoothing, hw, hmul, bind, Except.bind]
    have : irfftn ⟨(rfftn f.data).n0, (rfftn f.data).n1, (rfftn f.data).n2, fun i0 i1 i2 => (rfftn f.data).get i0 i1 i2 *
      ((w (waveNumber f.mesh.nGrids i0) (waveNumber f.mesh.nGrids i1) (i2 : ℝ) : ℝ) : ℂ)⟩ = .error .valueError := by
      unfold irfftn
      simp only
      rw [if_pos]
      rw [h2, h1]
      decide
    rw [this]
  · intro h1
    simp only [fftSmoothing, hw, hmul, bind, Except.bind]
    rw [irfftn_ok _ (by simp only [h2]; omega)]
    simp only [fieldNew]
    have e1 : (rfftn f.data).n1 = f.mesh.nGrids := hf.n1
    have e0 : (rfftn f.data).n0 = f.mesh.nGrids := hf.n0
    rw [e0, e1, h2]
    have : (f.mesh.nGrids == f.mesh.nGrids && f.mesh.nGrids == 2 * (f.mesh.nGrids / 2 + 1 - 1)) = false := by
      simp; omega
    rw [this]
    simp [pyAssert, bind, Except.bind]

example : (⟨⟨4, 4, 4, fun i _ _ => i⟩, ⟨4, 1⟩⟩ : FieldR).OK := ⟨by decide, rfl, rfl, rfl⟩
example : ∃ w, windowOf "tophat" 1 2 = .ok w := ⟨_, (C69_method "tophat" 1 ⟨⟨4, 4, 4, fun i _ _ => i⟩, ⟨4, 2⟩⟩).2.1 rfl⟩

/-! ### FourierSpaceSmoothing and C70 -/

theorem normalize_ok (rho d : Arr3 ℝ) (h : normalize rho = .ok d) :
    1 / 10 ^ 10 ≤ rho.mean ∧ d = ⟨rho.n0, rho.n1, rho.n2, fun i j k => rho.get i j k / rho.mean - 1⟩ := by
  unfold normalize at h
  split_ifs at h with hlt
  · simp only [Except.ok.injEq] at h
    exact ⟨not_lt.mp hlt, h.symm⟩

/-- C70: normalisation fails with a ValueError exactly when the mean is below 1e-10; otherwise every
cell becomes `rho / mean - 1`, the result has zero mean, and it does not depend on the normalisation
of the density (as long as its mean is not below the limit). -/
theorem C70_normalize (rho : Arr3 ℝ) (h0 : 0 < rho.n0) (h1 : 0 < rho.n1) (h2 : 0 < rho.n2) :
    (rho.mean < 1 / 10 ^ 10 → normalize rho = .error .valueError) ∧
    (1 / 10 ^ 10 ≤ rho.mean → ∃ d, normalize rho = .ok d ∧ d.n0 = rho.n0 ∧ d.n1 = rho.n1 ∧ d.n2 = rho.n2 ∧
      d.mean = 0 ∧ (∀ i j k, (1 + d.get i j k) * rho.mean = rho.get i j k) ∧
      ∀ c : ℝ, 0 < c → 1 / 10 ^ 10 ≤ c * rho.mean →
        normalize ⟨rho.n0, rho.n1, rho.n2, fun i j k => c * rho.get i j k⟩ = .ok d) := by
  constructor
  · intro h; rw [normalize, if_pos h]
  · intro h
    have hm : 0 < rho.mean := lt_of_lt_of_le (by norm_num) h
    have hcount : ((rho.n0 * rho.n1 * rho.n2 : Nat) : ℝ) ≠ 0 := by
      exact_mod_cast (Nat.mul_pos (Nat.mul_pos h0 h1) h2).ne'
    refine ⟨⟨rho.n0, rho.n1, rho.n2, fun i j k => rho.get i j k / rho.mean - 1⟩, ?_, rfl, rfl, rfl, ?_, ?_, ?_⟩
    · rw [normalize, if_neg (not_lt.mpr h)]
    · have e : (∑ m0 ∈ Finset.range rho.n0, ∑ m1 ∈ Finset.range rho.n1, ∑ m2 ∈ Finset.range rho.n2,
          rho.get m0 m1 m2) = rho.mean * ((rho.n0 * rho.n1 * rho.n2 : Nat) : ℝ) := by
        unfold Arr3.mean; rw [div_mul_cancel₀ _ hcount]
      rw [Arr3.mean]
      simp only [Finset.sum_sub_distrib, ← Finset.sum_div, e]
      rw [div_eq_zero_iff]
      left
      simp only [Finset.sum_const, Finset.card_range, smul_eq_mul]
      push_cast
      field_simp
      ring
    · intro i j k; simp; field_simp
    · intro c hc hcm
      have hmean : (⟨rho.n0, rho.n1, rho.n2, fun i j k => c * rho.get i j k⟩ : Arr3 ℝ).mean = c * rho.mean := by
        simp only [Arr3.mean, ← Finset.mul_sum]
        ring
      unfold normalize
      rw [hmean, if_neg (not_lt.mpr hcm)]
      congr 2
      funext i j k
      simp only
      field_simp

/-- The zero mode of the transform is proportional to the mean. -/
theorem rfftn_zero (x : Arr3 ℝ) (h : x.mean = 0) (h0 : 0 < x.n0) (h1 : 0 < x.n1) (h2 : 0 < x.n2) :
    (rfftn x).get 0 0 0 = 0 := by
  have hcount : ((x.n0 * x.n1 * x.n2 : Nat) : ℝ) ≠ 0 := by
    exact_mod_cast (Nat.mul_pos (Nat.mul_pos h0 h1) h2).ne'
  have e : (∑ m0 ∈ Finset.range x.n0, ∑ m1 ∈ Finset.range x.n1, ∑ m2 ∈ Finset.range x.n2,
          x.get m0 m1 m2) = 0 := by
    unfold Arr3.mean at h
    rw [div_eq_zero_iff] at h
    exact h.resolve_right hcount
  have e2 := congrArg (fun t : ℝ => (t : ℂ)) e
  simp only [Complex.ofReal_sum, Complex.ofReal_zero] at e2
  simp only [rfftn, Nat.cast_zero, zero_mul, zero_div, add_zero, mul_zero, neg_zero]
  have : cis 0 = 1 := by simp [cis]
  simp only [this, mul_one, e2, mul_zero]

/-- C69/C70: the record of `FourierSpaceSmoothing.run` on an even grid: the overdensity has zero mean and
reproduces the density, the smoothed overdensity is its convolution with the window divided by the
mass-assignment factor, and again has zero mean. -/
theorem C69_fourier_space (method : String) (r : ℝ) (f : FieldR) (hf : f.OK) (hev : f.mesh.nGrids % 2 = 0)
    (w : ℝ → ℝ → ℝ → ℝ) (hw : windowOf method r f.mesh.lBox = .ok w) (hmean : 1 / 10 ^ 10 ≤ f.data.mean) :
    ∃ res, fourierSmoothing method r f = .ok res ∧ res.lBox = f.mesh.lBox ∧ res.nGrids = f.mesh.nGrids ∧
      res.rhoX = f.data ∧ normalize f.data = .ok res.deltaX ∧ res.deltaX.mean = 0 ∧
      res.deltaSmX.n0 = f.mesh.nGrids ∧ res.deltaSmX.n1 = f.mesh.nGrids ∧ res.deltaSmX.n2 = f.mesh.nGrids ∧
      res.deltaSmX.mean = 0 ∧
      ∀ m0 m1 m2 : Nat, res.deltaSmX.get m0 m1 m2 = convolved f.mesh.nGrids
        (fun k0 k1 k2 => w k0 k1 k2 / shapeAtKiNd f.mesh.nGrids k0 k1 k2) res.deltaX.get m0 m1 m2 := by
  have hp0 : 0 < f.data.n0 := hf.n0 ▸ hf.pos
  have hp1 : 0 < f.data.n1 := hf.n1 ▸ hf.pos
  have hp2 : 0 < f.data.n2 := hf.n2 ▸ hf.pos
  obtain ⟨d, e1, d0, d1, d2, dm, -⟩ := (C70_normalize f.data hp0 hp1 hp2).2 hmean
  set w' : ℝ → ℝ → ℝ → ℝ := fun k0 k1 k2 => 1 / shapeAtKiNd f.mesh.nGrids k0 k1 k2 * w k0 k1 k2 with hw'
  have hE : EvenW w' := by
    intro a b c a' b' c' ha hb hc
    simp only [hw', even_shape f.mesh.nGrids a b c a' b' c' ha hb hc,
      (windowOf_spec _ _ _ _ hw).1 a b c a' b' c' ha hb hc]
  obtain ⟨X, out, e2, -, -, -, e3, o0, o1, o2, hv⟩ := filter_eq f.mesh.nGrids hf.pos hev w' hE d (d0.trans hf.n0)
    (d1.trans hf.n1) (d2.trans hf.n2)
  have hw'' : w' = fun k0 k1 k2 => w k0 k1 k2 / shapeAtKiNd f.mesh.nGrids k0 k1 k2 := by
    funext k0 k1 k2; simp only [hw']; ring
  refine ⟨⟨f.mesh.lBox, f.mesh.nGrids, f.data, d, rfftn d, X, out⟩, ?_, rfl, rfl, rfl, e1, dm, o0, o1, o2, ?_, ?_⟩
  · simp only [fourierSmoothing, hw, e1, bind, Except.bind, pure, Except.pure]
    rw [e2]
    simp only [e3]
  · simp only [Arr3.mean, o0, o1, o2, hv, convolved]
    rw [div_eq_zero_iff]
    left
    have sw : ∀ (N : Nat) (T : Nat → Nat → Nat → Nat → Nat → Nat → ℝ),
        ∑ m0 ∈ Finset.range N, ∑ m1 ∈ Finset.range N, ∑ m2 ∈ Finset.range N,
          ∑ k0 ∈ Finset.range N, ∑ k1 ∈ Finset.range N, ∑ k2 ∈ Finset.range N, T m0 m1 m2 k0 k1 k2 =
        ∑ k0 ∈ Finset.range N, ∑ k1 ∈ Finset.range N, ∑ k2 ∈ Finset.range N,
          ∑ m0 ∈ Finset.range N, ∑ m1 ∈ Finset.range N, ∑ m2 ∈ Finset.range N, T m0 m1 m2 k0 k1 k2 := by
      intro N T
      have := Finset.sum_comm (s := Finset.range N ×ˢ (Finset.range N ×ˢ Finset.range N))
        (t := Finset.range N ×ˢ (Finset.range N ×ˢ Finset.range N))
        (f := fun m k => T m.1 m.2.1 m.2.2 k.1 k.2.1 k.2.2)
      simpa only [Finset.sum_product] using this
    rw [sw]
    simp only [← Finset.mul_sum]
    simp only [kernel_sum f.mesh.nGrids hf.pos, ← Finset.sum_mul]
    have hz := dm
    unfold Arr3.mean at hz
    rw [div_eq_zero_iff, d0, d1, d2, hf.n0, hf.n1, hf.n2] at hz
    have hcount : ((f.mesh.nGrids * f.mesh.nGrids * f.mesh.nGrids : Nat) : ℝ) ≠ 0 := by
      exact_mod_cast (Nat.mul_pos (Nat.mul_pos hf.pos hf.pos) hf.pos).ne'
    rw [hz.resolve_right hcount, zero_mul]
  · intro m0 m1 m2
    rw [hv, hw'']

/-- C69 (defect, recorded): with an odd number (>= 3) of points per axis `FourierSpaceSmoothing.run`
succeeds but the smoothed array has one plane less than the grid. -/
theorem C69_fourier_space_odd_defect (method : String) (r : ℝ) (f : FieldR) (hf : f.OK) (hodd : f.mesh.nGrids % 2 = 1)
    (h3 : 3 ≤ f.mesh.nGrids) (w : ℝ → ℝ → ℝ → ℝ) (hw : windowOf method r f.mesh.lBox = .ok w)
    (hmean : 1 / 10 ^ 10 ≤ f.data.mean) :
    ∃ res, fourierSmoothing method r f = .ok res ∧ res.deltaSmX.n0 = f.mesh.nGrids ∧
      res.deltaSmX.n2 = f.mesh.nGrids - 1 := by
  have hn : normalize f.data = .ok ⟨f.data.n0, f.data.n1, f.data.n2, fun i j k => f.data.get i j k / f.data.mean - 1⟩ := by
    rw [normalize, if_neg (not_lt.mpr hmean)]
  set d : Arr3 ℝ := ⟨f.data.n0, f.data.n1, f.data.n2, fun i j k => f.data.get i j k / f.data.mean - 1⟩ with hd
  have h2 : (rfftn d).n2 = f.mesh.nGrids / 2 + 1 := by simp [rfftn, hd, hf.n2]
  have hmul := mulModes_ok f.mesh.nGrids (fun k0 k1 k2 => 1 / shapeAtKiNd f.mesh.nGrids k0 k1 k2 * w k0 k1 k2)
    (rfftn d) hf.n0 hf.n1 h2
  refine ⟨_, by
    simp only [fourierSmoothing, hw, hn, bind, Except.bind, pure, Except.pure]
    rw [hmul]
    simp only
    rw [irfftn_ok _ (by simp only [h2]; omega)], ?_, ?_⟩
  · exact hf.n0
  · simp only [h2]; omega

theorem tidalComponent_ok (N : Nat) (hN : 0 < N) (hev : N % 2 = 0) (phi : Arr3 ℂ) (h0 : phi.n0 = N) (h1 : phi.n1 = N)
    (h2 : phi.n2 = N / 2 + 1) (a b : Fin 3) :
    tidalComponent N phi a b = .ok ⟨N, N, N, irVal ⟨N, N, N / 2 + 1, fun i0 i1 i2 => phi.get i0 i1 i2 *
      ((tidalFactor a b (waveNumber N i0) (waveNumber N i1) (i2 : ℝ) : ℝ) : ℂ)⟩⟩ := by
  unfold tidalComponent
  rw [mulModes_ok N _ phi h0 h1 h2]
  simp only [bind, Except.bind]
  rw [irfftn_ok _ (by simp only [h2]; omega)]
  simp only [h0, h1, h2, pure, Except.pure]
  have e : 2 * (N / 2 + 1 - 1) = N := by omega
  simp only [e, and_self, if_true]

theorem irVal_congr (n0 n1 n2 : Nat) (A B : Nat → Nat → Nat → ℂ)
    (h : ∀ i j k, i < n0 → j < n1 → k < n2 → A i j k = B i j k) (m0 m1 m2 : Nat) :
    irVal ⟨n0, n1, n2, A⟩ m0 m1 m2 = irVal ⟨n0, n1, n2, B⟩ m0 m1 m2 := by
  simp only [irVal]
  congr 1
  refine Finset.sum_congr rfl fun k2 hk2 => ?_
  congr 3
  refine Finset.sum_congr rfl fun k0 hk0 => Finset.sum_congr rfl fun k1 hk1 => ?_
  rw [h k0 k1 k2 (Finset.mem_range.mp hk0) (Finset.mem_range.mp hk1) (Finset.mem_range.mp hk2)]

theorem irVal_add3 (n0 n1 n2 : Nat) (A B C : Nat → Nat → Nat → ℂ) (m0 m1 m2 : Nat) :
    irVal ⟨n0, n1, n2, A⟩ m0 m1 m2 + irVal ⟨n0, n1, n2, B⟩ m0 m1 m2 + irVal ⟨n0, n1, n2, C⟩ m0 m1 m2 =
    irVal ⟨n0, n1, n2, fun i j k => A i j k + B i j k + C i j k⟩ m0 m1 m2 := by
  simp only [irVal]
  rw [← mul_add, ← mul_add, ← Finset.sum_add_distrib, ← Finset.sum_add_distrib]
  congr 1
  refine Finset.sum_congr rfl fun k2 hk2 => ?_
  rw [← mul_add, ← mul_add, ← Complex.add_re, ← Complex.add_re, ← add_mul, ← add_mul,
    ← Finset.sum_add_distrib, ← Finset.sum_add_distrib]
  congr 3
  refine Finset.sum_congr rfl fun k0 _ => ?_
  rw [← Finset.sum_add_distrib, ← Finset.sum_add_distrib]
  refine Finset.sum_congr rfl fun k1 _ => ?_
  ring

/-- Specification of one mode of the grid: its squared wave number. -/
def ksq (N i0 i1 i2 : Nat) : ℝ := (waveNumber N i0 : ℝ) ^ 2 + (waveNumber N i1 : ℝ) ^ 2 + (i2 : ℝ) ^ 2

theorem ksq_cases (N i0 i1 i2 : Nat) (h0 : i0 < N) (h1 : i1 < N) :
    (i0 = 0 ∧ i1 = 0 ∧ i2 = 0 ∧ ksq N i0 i1 i2 = 0) ∨ (1 ≤ ksq N i0 i1 i2 ∧ ¬ (i0 = 0 ∧ i1 = 0 ∧ i2 = 0)) := by
  have z : ∀ i, i < N → (waveNumber N i = 0 ↔ i = 0) := by
    intro i hi
    unfold waveNumber
    split_ifs <;> omega
  by_cases h : i0 = 0 ∧ i1 = 0 ∧ i2 = 0
  · left
    obtain ⟨rfl, rfl, rfl⟩ := h
    simp [ksq, waveNumber]
  · right
    refine ⟨?_, h⟩
    have e : ksq N i0 i1 i2 = (((waveNumber N i0) ^ 2 + (waveNumber N i1) ^ 2 + (i2 : Int) ^ 2 : Int) : ℝ) := by
      simp [ksq]
    rw [e]
    have : (1 : Int) ≤ (waveNumber N i0) ^ 2 + (waveNumber N i1) ^ 2 + (i2 : Int) ^ 2 := by
      have p0 := sq_nonneg (waveNumber N i0)
      have p1 := sq_nonneg (waveNumber N i1)
      have p2 := sq_nonneg (i2 : Int)
      by_contra hc
      have q0 : (waveNumber N i0) ^ 2 = 0 := by omega
      have q1 : (waveNumber N i1) ^ 2 = 0 := by omega
      have q2 : (i2 : Int) ^ 2 = 0 := by omega
      rw [pow_eq_zero_iff (by norm_num)] at q0 q1 q2
      exact h ⟨(z i0 h0).mp q0, (z i1 h1).mp q1, by exact_mod_cast q2⟩
    exact_mod_cast this

/-- Specification: the wave vector of a mode of the half grid. -/
def kvec (N i0 i1 i2 : Nat) (a : Fin 3) : ℝ := ![(waveNumber N i0 : ℝ), (waveNumber N i1 : ℝ), (i2 : ℝ)] a

/-- C70: the tidal field of a density on an even grid.  The run succeeds; the smoothed overdensity is
the Gaussian convolution (with the mass-assignment correction if requested); in every mode the
potential solves `-k² phi = delta` and vanishes at `k = 0`; component (a, b) of the tensor is the
backward transform of `k_a k_b / k²` times the smoothed modes; the tensor is symmetric, and its trace
is the smoothed overdensity at every point. -/
theorem C70_tidal (eig : (Fin 3 → Fin 3 → ℝ) → ℝ × ℝ × ℝ) (r : ℝ) (corr : Bool) (f : FieldR) (hf : f.OK)
    (hev : f.mesh.nGrids % 2 = 0) (hmean : 1 / 10 ^ 10 ≤ f.data.mean) :
    ∃ res, tidalField eig r corr f = .ok res ∧ res.lBox = f.mesh.lBox ∧ res.nGrids = f.mesh.nGrids ∧
      res.rhoX = f.data ∧ normalize f.data = .ok res.deltaX ∧ res.deltaK = rfftn res.deltaX ∧
      (∀ m0 m1 m2 : Nat, res.deltaSmX.get m0 m1 m2 = convolved f.mesh.nGrids
        (fun k0 k1 k2 => gaussianWindow r f.mesh.lBox k0 k1 k2 /
          (if corr then shapeAtKiNd f.mesh.nGrids k0 k1 k2 else 1)) res.deltaX.get m0 m1 m2) ∧
      (∀ i0 i1 i2, i0 < f.mesh.nGrids → i1 < f.mesh.nGrids → i2 ≤ f.mesh.nGrids / 2 →
        -((ksq f.mesh.nGrids i0 i1 i2 : ℝ) : ℂ) * res.phiK.get i0 i1 i2 = res.deltaSmK.get i0 i1 i2) ∧
      res.phiK.get 0 0 0 = 0 ∧
      (∀ a b, ∃ T, irfftn ⟨f.mesh.nGrids, f.mesh.nGrids, f.mesh.nGrids / 2 + 1, fun i0 i1 i2 =>
          res.deltaSmK.get i0 i1 i2 * ((kvec f.mesh.nGrids i0 i1 i2 a * kvec f.mesh.nGrids i0 i1 i2 b /
            ksq f.mesh.nGrids i0 i1 i2 : ℝ) : ℂ)⟩ = .ok T ∧ ∀ i j k, res.tX i j k a b = T.get i j k) ∧
      (∀ i j k a b, res.tX i j k a b = res.tX i j k b a) ∧
      (∀ i j k, res.tX i j k 0 0 + res.tX i j k 1 1 + res.tX i j k 2 2 = res.deltaSmX.get i j k) ∧
      ∀ i j k, res.lam i j k = eig (res.tX i j k) := by
  set N := f.mesh.nGrids with hN
  have hpos : 0 < N := hf.pos
  have hp0 : 0 < f.data.n0 := hf.n0 ▸ hf.pos
  have hp1 : 0 < f.data.n1 := hf.n1 ▸ hf.pos
  have hp2 : 0 < f.data.n2 := hf.n2 ▸ hf.pos
  obtain ⟨d, e1, d0, d1, d2, dm, -⟩ := (C70_normalize f.data hp0 hp1 hp2).2 hmean
  set w : ℝ → ℝ → ℝ → ℝ := fun k0 k1 k2 => 1 / (if corr then shapeAtKiNd N k0 k1 k2 else 1) *
    gaussianWindow r f.mesh.lBox k0 k1 k2 with hw
  have hE : EvenW w := by
    intro a b c a' b' c' ha hb hc
    simp only [hw, even_shape N a b c a' b' c' ha hb hc, even_gaussian r f.mesh.lBox a b c a' b' c' ha hb hc]
  obtain ⟨X, out, e2, x0, x1, x2, e3, o0, o1, o2, hv⟩ := filter_eq N hpos hev w hE d (d0.trans hf.n0)
    (d1.trans hf.n1) (d2.trans hf.n2)
  have hXget : X.get = fun i0 i1 i2 => (rfftn d).get i0 i1 i2 *
      ((w (waveNumber N i0) (waveNumber N i1) (i2 : ℝ) : ℝ) : ℂ) := by
    have := mulModes_ok N w (rfftn d) (d0.trans hf.n0) (d1.trans hf.n1)
      (by show d.n2 / 2 + 1 = _; rw [d2, hf.n2])
    rw [e2] at this
    simp only [Except.ok.injEq] at this
    rw [this]
  have hX0 : X.get 0 0 0 = 0 := by
    rw [hXget]
    simp only
    rw [rfftn_zero d dm (d0 ▸ hp0) (d1 ▸ hp1) (d2 ▸ hp2), zero_mul]
  have hphi := mulModes_ok N green X x0 x1 x2
  set phi : Arr3 ℂ := ⟨X.n0, X.n1, X.n2, fun i0 i1 i2 => X.get i0 i1 i2 *
      ((green (waveNumber N i0) (waveNumber N i1) (i2 : ℝ) : ℝ) : ℂ)⟩ with hphidef
  have ht := tidalComponent_ok N hpos hev phi x0 x1 x2
  have hout : out.get = irVal ⟨N, N, N / 2 + 1, X.get⟩ := by
    have := irfftn_ok X (by rw [x2]; omega)
    rw [e3] at this
    simp only [Except.ok.injEq] at this
    rw [this]
    obtain ⟨X0, X1, X2, Xg⟩ := X
    simp only at x0 x1 x2
    subst x0; subst x1; subst x2
    rfl
  have poisson : ∀ i0 i1 i2, i0 < N → i1 < N →
      -((ksq N i0 i1 i2 : ℝ) : ℂ) * phi.get i0 i1 i2 = X.get i0 i1 i2 := by
    intro i0 i1 i2 b0 b1
    simp only [hphidef]
    have es : (waveNumber N i0 : ℝ) * (waveNumber N i0 : ℝ) + (waveNumber N i1 : ℝ) * (waveNumber N i1 : ℝ) +
        (i2 : ℝ) * (i2 : ℝ) = ksq N i0 i1 i2 := by unfold ksq; ring
    unfold green
    rw [es]
    rcases ksq_cases N i0 i1 i2 b0 b1 with ⟨rfl, rfl, rfl, h⟩ | ⟨h, -⟩
    · rw [h, hX0]; simp
    · rw [if_neg (not_lt.mpr (le_trans (by norm_num) h))]
      have : ((ksq N i0 i1 i2 : ℝ) : ℂ) ≠ 0 := by
        exact_mod_cast (lt_of_lt_of_le one_pos h).ne'
      push_cast
      field_simp
  refine ⟨_, by
    simp only [tidalField, e1, bind, Except.bind, pure, Except.pure, ← hN]
    rw [e2]
    simp only [hphi, e3, ht]
    rfl, rfl, rfl, rfl, e1, rfl, ?_, ?_, ?_, ?_, ?_, ?_, ?_⟩
  · intro m0 m1 m2
    simp only [hv]
    congr 1
    funext k0 k1 k2
    simp only [hw]
    ring
  · intro i0 i1 i2 b0 b1 _
    exact poisson i0 i1 i2 b0 b1
  · simp only [hphidef, hX0, zero_mul]
  · intro a b
    refine ⟨_, irfftn_ok _ (by simp only; omega), ?_⟩
    intro i j k
    have key : ∀ (a b : Fin 3), irVal ⟨N, N, N / 2 + 1, fun i0 i1 i2 => phi.get i0 i1 i2 *
        ((tidalFactor a b (waveNumber N i0) (waveNumber N i1) (i2 : ℝ) : ℝ) : ℂ)⟩ i j k =
        irVal ⟨N, N, N / 2 + 1, fun i0 i1 i2 => X.get i0 i1 i2 *
          ((kvec N i0 i1 i2 a * kvec N i0 i1 i2 b / ksq N i0 i1 i2 : ℝ) : ℂ)⟩ i j k := by
      intro a b
      apply irVal_congr
      intro k0 k1 k2 b0 b1 b2
      have hc : ∀ a, comp (waveNumber N k0) (waveNumber N k1) k2 a = kvec N k0 k1 k2 a := by
        intro a; fin_cases a <;> simp [comp, kvec]
      rw [← poisson k0 k1 k2 b0 b1]
      simp only [tidalFactor, hc]
      rcases ksq_cases N k0 k1 k2 b0 b1 with ⟨rfl, rfl, rfl, h⟩ | ⟨h, -⟩
      · simp only [hphidef, hX0]; simp
      · have : ((ksq N k0 k1 k2 : ℝ) : ℂ) ≠ 0 := by
          exact_mod_cast (lt_of_lt_of_le one_pos h).ne'
        push_cast
        field_simp
    have symm : ∀ (a b : Fin 3), irVal ⟨N, N, N / 2 + 1, fun i0 i1 i2 => X.get i0 i1 i2 *
          ((kvec N i0 i1 i2 a * kvec N i0 i1 i2 b / ksq N i0 i1 i2 : ℝ) : ℂ)⟩ i j k =
        irVal ⟨N, N, N / 2 + 1, fun i0 i1 i2 => X.get i0 i1 i2 *
          ((kvec N i0 i1 i2 b * kvec N i0 i1 i2 a / ksq N i0 i1 i2 : ℝ) : ℂ)⟩ i j k := by
      intro a b
      apply irVal_congr
      intro k0 k1 k2 _ _ _
      rw [mul_comm (kvec N k0 k1 k2 a)]
    simp only [key]
    fin_cases a <;> fin_cases b <;> simp
    · simpa using symm 1 0
    · simpa using symm 2 0
    · simpa using symm 2 1
  · intro i j k a b
    fin_cases a <;> fin_cases b <;> simp
  · intro i j k
    simp only [Fin.isValue, and_self, if_true, Fin.reduceEq, if_false]
    rw [irVal_add3, hout]
    apply irVal_congr
    intro k0 k1 k2 b0 b1 b2
    rw [← poisson k0 k1 k2 b0 b1]
    simp only [tidalFactor, comp, ksq]
    push_cast
    simp
    ring
  · intro i j k
    rfl

/-- C70: what the caller sees: with `eigvalsh` returning the eigenvalues in ascending order (their sum
is the trace), the eigenvalues of every cell add up to the smoothed overdensity and are sorted, so
the cosmic-web classifier accepts them. -/
theorem C70_eigenvalues (eig : (Fin 3 → Fin 3 → ℝ) → ℝ × ℝ × ℝ)
    (heig : ∀ t : Fin 3 → Fin 3 → ℝ, (∀ a b, t a b = t b a) →
      (eig t).1 ≤ (eig t).2.1 ∧ (eig t).2.1 ≤ (eig t).2.2 ∧
      (eig t).1 + (eig t).2.1 + (eig t).2.2 = t 0 0 + t 1 1 + t 2 2)
    (r : ℝ) (corr : Bool) (f : FieldR) (hf : f.OK) (hev : f.mesh.nGrids % 2 = 0) (hmean : 1 / 10 ^ 10 ≤ f.data.mean) :
    ∃ res, tidalField eig r corr f = .ok res ∧
      (∀ i j k, (res.lam i j k).1 + (res.lam i j k).2.1 + (res.lam i j k).2.2 = res.deltaSmX.get i j k) ∧
      ∀ th, ∃ c, classifierInit (fun i j k => res.lam i.toNat j.toNat k.toNat) f.mesh.nGrids f.mesh th = .ok c := by
  obtain ⟨res, e, -, -, -, -, -, -, -, -, -, hs, htr, hl⟩ := C70_tidal eig r corr f hf hev hmean
  refine ⟨res, e, ?_, ?_⟩
  · intro i j k
    rw [hl, (heig _ (hs i j k)).2.2, htr]
  · intro th
    rw [(C71_init _ _ _ _).1]
    refine ⟨rfl, fun i j k _ _ _ => ?_⟩
    have := heig _ (hs i j k)
    rw [← hl] at this
    exact ⟨this.1, this.2.1⟩

/-- C70: too low a mean density is rejected; on an odd grid (defect, recorded) the run always fails. -/
theorem C70_reject (eig : (Fin 3 → Fin 3 → ℝ) → ℝ × ℝ × ℝ) (r : ℝ) (corr : Bool) (f : FieldR) (hf : f.OK) :
    (f.data.mean < 1 / 10 ^ 10 → tidalField eig r corr f = .error .valueError) ∧
    (f.mesh.nGrids % 2 = 1 → tidalField eig r corr f = .error .valueError) ∧
    (∀ s, tidalInit (some s) = if s = "cic" then .ok true else .error .assertionError) := by
  refine ⟨?_, ?_, fun s => rfl⟩
  · intro h
    simp only [tidalField, bind, Except.bind, normalize, if_pos h]
  · intro hodd
    by_cases hlt : f.data.mean < 1 / 10 ^ 10
    · simp only [tidalField, bind, Except.bind, normalize, if_pos hlt]
    set N := f.mesh.nGrids with hN
    have hn : normalize f.data = .ok ⟨f.data.n0, f.data.n1, f.data.n2, fun i j k => f.data.get i j k / f.data.mean - 1⟩ := by
      rw [normalize, if_neg hlt]
    set d : Arr3 ℝ := ⟨f.data.n0, f.data.n1, f.data.n2, fun i j k => f.data.get i j k / f.data.mean - 1⟩ with hd
    have h2 : (rfftn d).n2 = N / 2 + 1 := by simp [rfftn, hd, hf.n2, hN]
    have hmul := fun w => mulModes_ok N w (rfftn d) hf.n0 hf.n1 h2
    have hmul2 := fun g => mulModes_ok N green ⟨(rfftn d).n0, (rfftn d).n1, (rfftn d).n2, g⟩ hf.n0 hf.n1 h2
    simp only [tidalField, hn, bind, Except.bind, ← hN]
    rw [hmul]
    simp only
    rw [hmul2]
    simp only
    by_cases h1 : N = 1
    · have : ∀ g, irfftn ⟨(rfftn d).n0, (rfftn d).n1, (rfftn d).n2, g⟩ = .error .valueError := by
        intro g
        unfold irfftn
        simp only
        rw [if_pos]
        rw [h2, h1]
        decide
      rw [this]
    · rw [irfftn_ok _ (by simp only [h2]; omega)]
      simp only
      have : ∀ g, tidalComponent N ⟨(rfftn d).n0, (rfftn d).n1, (rfftn d).n2, g⟩ 0 0 = .error .valueError := by
        intro g
        unfold tidalComponent
        rw [mulModes_ok N (tidalFactor 0 0) ⟨(rfftn d).n0, (rfftn d).n1, (rfftn d).n2, g⟩ hf.n0 hf.n1 h2]
        simp only [bind, Except.bind]
        rw [irfftn_ok _ (by simp only [h2]; omega)]
        simp only [h2]
        rw [if_neg (by omega)]
        rfl
      rw [this]

example : 1 / 10 ^ 10 ≤ (⟨2, 2, 2, fun _ _ _ => 1⟩ : Arr3 ℝ).mean := by
  simp [Arr3.mean]; norm_num

end Pyhipp.CubicBox
