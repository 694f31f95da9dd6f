import Verif.Model.FloatInterp
import Verif.Props.FloatHist
/-
C126: FieldInterpolator in double precision.
-/
namespace Pyhipp.FloatMesh
open Pyhipp F64

/-! ### Specification: linear interpolation in exact arithmetic -/

/-- The piecewise linear function through `f i` at the integers. -/
def lerp (f : ℤ → ℚ) (p : ℚ) : ℚ := f ⌊p⌋ * (1 - (p - ⌊p⌋)) + f (⌊p⌋ + 1) * (p - ⌊p⌋)

/-- Trilinear interpolation. -/
def trilinear (D : ℤ → ℤ → ℤ → ℚ) (p : ℚ × ℚ × ℚ) : ℚ := lerp (fun i => lerp (fun j => lerp (fun k => D i j k) p.2.2) p.2.1) p.1

/-- The periodic extension of a field of `n` cells a side. -/
def periodic (n : Nat) (q : ℤ × ℤ × ℤ → ℚ) (i j k : ℤ) : ℚ := q (i % n, j % n, k % n)

/-- Specification: `data` holds the finite doubles `q`, none larger than `M`, each 0 or at least 2^-800 in size. -/
structure DataOK (m : Mesh) (data : Data) (q : ℤ × ℤ × ℤ → ℚ) (M : ℚ) : Prop where
  eq : ∀ c, IsCell m c → data c = .fin (q c)
  f : ∀ c, IsCell m c → IsF (q c)
  le : ∀ c, IsCell m c → |q c| ≤ M
  sz : ∀ c, IsCell m c → q c = 0 ∨ 2 ^ (-800 : ℤ) ≤ |q c|
  small : M ≤ 2 ^ 1000

/-! ### Exact interpolation -/

theorem lerp_abs {f : ℤ → ℚ} {M : ℚ} (hM : ∀ i, |f i| ≤ M) (p : ℚ) : |lerp f p| ≤ M := by
  have h0 := Int.floor_le p
  have h1 := Int.lt_floor_add_one p
  have a := abs_le.mp (hM ⌊p⌋)
  have b := abs_le.mp (hM (⌊p⌋ + 1))
  unfold lerp
  rw [abs_le]
  constructor <;> nlinarith

theorem lerp_sub {f g : ℤ → ℚ} {e : ℚ} (h : ∀ i, |f i - g i| ≤ e) (p : ℚ) : |lerp f p - lerp g p| ≤ e := by
  have : lerp f p - lerp g p = lerp (fun i => f i - g i) p := by unfold lerp; ring
  rw [this]
  exact lerp_abs h p

theorem lerp_lip_le {f : ℤ → ℚ} {M : ℚ} (hM : ∀ i, |f i| ≤ M) {p q : ℚ} (h : p ≤ q) (h1 : q - p < 1) :
    |lerp f q - lerp f p| ≤ 2 * M * (q - p) := by
  have step : ∀ i, |f (i + 1) - f i| ≤ 2 * M := by
    intro i
    have := abs_sub (f (i + 1)) (f i)
    linarith [hM i, hM (i + 1)]
  have p0 := Int.floor_le p
  have p1 := Int.lt_floor_add_one p
  have q0 := Int.floor_le q
  have q1 := Int.lt_floor_add_one q
  have hf : ⌊p⌋ ≤ ⌊q⌋ := Int.floor_le_floor h
  have hf2 : ⌊q⌋ < ⌊p⌋ + 2 := by
    have : (⌊q⌋ : ℚ) < ((⌊p⌋ + 2 : ℤ) : ℚ) := by push_cast; linarith
    exact_mod_cast this
  have hc : ⌊q⌋ = ⌊p⌋ ∨ ⌊q⌋ = ⌊p⌋ + 1 := by omega
  unfold lerp
  rcases hc with e | e
  · rw [e]
    rw [show f ⌊p⌋ * (1 - (q - ⌊p⌋)) + f (⌊p⌋ + 1) * (q - ⌊p⌋) - (f ⌊p⌋ * (1 - (p - ⌊p⌋)) + f (⌊p⌋ + 1) * (p - ⌊p⌋)) =
      (f (⌊p⌋ + 1) - f ⌊p⌋) * (q - p) by ring, abs_mul, abs_of_nonneg (show 0 ≤ q - p by linarith)]
    exact mul_le_mul_of_nonneg_right (step _) (by linarith)
  · rw [e] at q0 q1 ⊢
    push_cast at q0 q1 ⊢
    have s1 := abs_le.mp (step ⌊p⌋)
    have s2 := abs_le.mp (step (⌊p⌋ + 1))
    generalize f ⌊p⌋ = x at *
    generalize f (⌊p⌋ + 1 + 1) = z at *
    generalize f (⌊p⌋ + 1) = y at *
    generalize (⌊p⌋ : ℚ) = n at *
    rw [show y * (1 - (q - (n + 1))) + z * (q - (n + 1)) - (x * (1 - (p - n)) + y * (p - n)) = (z - y) * (q - (n + 1)) + (y - x) * (n + 1 - p) by ring]
    have a1 : (z - y) * (q - (n + 1)) ≤ 2 * M * (q - (n + 1)) := mul_le_mul_of_nonneg_right s2.2 (by linarith)
    have a2 : -(2 * M) * (q - (n + 1)) ≤ (z - y) * (q - (n + 1)) := mul_le_mul_of_nonneg_right s2.1 (by linarith)
    have b1 : (y - x) * (n + 1 - p) ≤ 2 * M * (n + 1 - p) := mul_le_mul_of_nonneg_right s1.2 (by linarith)
    have b2 : -(2 * M) * (n + 1 - p) ≤ (y - x) * (n + 1 - p) := mul_le_mul_of_nonneg_right s1.1 (by linarith)
    rw [abs_le]
    constructor <;> linarith

theorem lerp_lip {f : ℤ → ℚ} {M : ℚ} (hM : ∀ i, |f i| ≤ M) {p q : ℚ} (h1 : |q - p| < 1) : |lerp f q - lerp f p| ≤ 2 * M * |q - p| := by
  rcases le_total p q with h | h
  · rw [abs_of_nonneg (show 0 ≤ q - p by linarith)] at h1 ⊢
    exact lerp_lip_le hM h h1
  · rw [abs_sub_comm, abs_sub_comm q p] at *
    rw [abs_of_nonneg (show 0 ≤ p - q by linarith)] at *
    exact lerp_lip_le hM h h1

/-- Interpolation with weights that are nearly the fractional part. -/
theorem lerp_weights {f : ℤ → ℚ} {M : ℚ} (hM : ∀ i, |f i| ≤ M) {p wl wr : ℚ} (W : Weights p wl wr) :
    |f ⌊p⌋ * wl + f (⌊p⌋ + 1) * wr - lerp f p| ≤ 2 * M * 2 ^ (-53 : ℤ) := by
  have hs : |f (⌊p⌋ + 1) - f ⌊p⌋| ≤ 2 * M := by
    have := abs_sub (f (⌊p⌋ + 1)) (f ⌊p⌋)
    linarith [hM ⌊p⌋, hM (⌊p⌋ + 1)]
  have e : f ⌊p⌋ * wl + f (⌊p⌋ + 1) * wr - lerp f p = (f (⌊p⌋ + 1) - f ⌊p⌋) * (wr - (p - ⌊p⌋)) := by
    have : wl = 1 - wr := by linarith [W.sum]
    rw [this]
    unfold lerp
    ring
  rw [e, abs_mul]
  exact mul_le_mul hs W.err (abs_nonneg _) (le_trans (abs_nonneg _) hs)

theorem comb_abs {x y M wl wr : ℚ} (hx : |x| ≤ M) (hy : |y| ≤ M) (l0 : 0 ≤ wl) (r0 : 0 ≤ wr) (s : wl + wr = 1) : |x * wl + y * wr| ≤ M := by
  have a := abs_le.mp hx
  have b := abs_le.mp hy
  have : wl = 1 - wr := by linarith
  subst this
  rw [abs_le]
  constructor <;> nlinarith

/-- The combination of eight values with the computed weights is nearly the trilinear interpolation at the computed positions. -/
theorem comb_trilinear {D : ℤ → ℤ → ℤ → ℚ} {M : ℚ} (hM : ∀ i j k, |D i j k| ≤ M) {p : ℚ × ℚ × ℚ} {al ar bl br cl cr : ℚ}
    (wa : Weights p.1 al ar) (wb : Weights p.2.1 bl br) (wc : Weights p.2.2 cl cr) :
    |((D ⌊p.1⌋ ⌊p.2.1⌋ ⌊p.2.2⌋ * cl + D ⌊p.1⌋ ⌊p.2.1⌋ (⌊p.2.2⌋ + 1) * cr) * bl +
        (D ⌊p.1⌋ (⌊p.2.1⌋ + 1) ⌊p.2.2⌋ * cl + D ⌊p.1⌋ (⌊p.2.1⌋ + 1) (⌊p.2.2⌋ + 1) * cr) * br) * al +
      ((D (⌊p.1⌋ + 1) ⌊p.2.1⌋ ⌊p.2.2⌋ * cl + D (⌊p.1⌋ + 1) ⌊p.2.1⌋ (⌊p.2.2⌋ + 1) * cr) * bl +
        (D (⌊p.1⌋ + 1) (⌊p.2.1⌋ + 1) ⌊p.2.2⌋ * cl + D (⌊p.1⌋ + 1) (⌊p.2.1⌋ + 1) (⌊p.2.2⌋ + 1) * cr) * br) * ar - trilinear D p| ≤
      3 * (2 * M * 2 ^ (-53 : ℤ)) := by
  obtain ⟨x, y, z⟩ := p
  simp only at *
  have h3 : ∀ i j, |(D i j ⌊z⌋ * cl + D i j (⌊z⌋ + 1) * cr) - lerp (fun k => D i j k) z| ≤ 2 * M * 2 ^ (-53 : ℤ) :=
    fun i j => lerp_weights (f := fun k => D i j k) (hM i j) wc
  have b3 : ∀ i j, |lerp (fun k => D i j k) z| ≤ M := fun i j => lerp_abs (hM i j) z
  have h2 : ∀ i, |(lerp (fun k => D i ⌊y⌋ k) z * bl + lerp (fun k => D i (⌊y⌋ + 1) k) z * br) - lerp (fun j => lerp (fun k => D i j k) z) y| ≤ 2 * M * 2 ^ (-53 : ℤ) :=
    fun i => lerp_weights (f := fun j => lerp (fun k => D i j k) z) (b3 i) wb
  have b2 : ∀ i, |lerp (fun j => lerp (fun k => D i j k) z) y| ≤ M := fun i => lerp_abs (b3 i) y
  have h1 := lerp_weights (f := fun i => lerp (fun j => lerp (fun k => D i j k) z) y) b2 wa
  unfold trilinear
  simp only
  generalize 2 * M * 2 ^ (-53 : ℤ) = E at *
  have k2 : ∀ i, |((D i ⌊y⌋ ⌊z⌋ * cl + D i ⌊y⌋ (⌊z⌋ + 1) * cr) * bl + (D i (⌊y⌋ + 1) ⌊z⌋ * cl + D i (⌊y⌋ + 1) (⌊z⌋ + 1) * cr) * br) -
      lerp (fun j => lerp (fun k => D i j k) z) y| ≤ 2 * E := by
    intro i
    have := comb_abs (h3 i ⌊y⌋) (h3 i (⌊y⌋ + 1)) wb.l0 wb.r0 wb.sum
    have t := abs_add_le ((D i ⌊y⌋ ⌊z⌋ * cl + D i ⌊y⌋ (⌊z⌋ + 1) * cr - lerp (fun k => D i ⌊y⌋ k) z) * bl + (D i (⌊y⌋ + 1) ⌊z⌋ * cl +
      D i (⌊y⌋ + 1) (⌊z⌋ + 1) * cr - lerp (fun k => D i (⌊y⌋ + 1) k) z) * br) ((lerp (fun k => D i ⌊y⌋ k) z * bl + lerp (fun k => D i (⌊y⌋ + 1) k) z * br) -
      lerp (fun j => lerp (fun k => D i j k) z) y)
    have e := h2 i
    refine le_trans (le_of_eq ?_) (le_trans t (by linarith))
    congr 1
    ring
  have := comb_abs (k2 ⌊x⌋) (k2 (⌊x⌋ + 1)) wa.l0 wa.r0 wa.sum
  generalize lerp (fun i => lerp (fun j => lerp (fun k => D i j k) z) y) x = R at *
  generalize hu : lerp (fun j => lerp (fun k => D ⌊x⌋ j k) z) y = U at *
  generalize hv : lerp (fun j => lerp (fun k => D (⌊x⌋ + 1) j k) z) y = V at *
  generalize (D ⌊x⌋ ⌊y⌋ ⌊z⌋ * cl + D ⌊x⌋ ⌊y⌋ (⌊z⌋ + 1) * cr) * bl + (D ⌊x⌋ (⌊y⌋ + 1) ⌊z⌋ * cl + D ⌊x⌋ (⌊y⌋ + 1) (⌊z⌋ + 1) * cr) * br = S at *
  generalize (D (⌊x⌋ + 1) ⌊y⌋ ⌊z⌋ * cl + D (⌊x⌋ + 1) ⌊y⌋ (⌊z⌋ + 1) * cr) * bl + (D (⌊x⌋ + 1) (⌊y⌋ + 1) ⌊z⌋ * cl + D (⌊x⌋ + 1) (⌊y⌋ + 1) (⌊z⌋ + 1) * cr) * br = T at *
  have t := abs_add_le ((S - U) * al + (T - V) * ar) (U * al + V * ar - R)
  refine le_trans (le_of_eq ?_) (le_trans t (by linarith))
  congr 1
  ring

theorem trilinear_lip {D : ℤ → ℤ → ℤ → ℚ} {M : ℚ} (hM : ∀ i j k, |D i j k| ≤ M) {p q : ℚ × ℚ × ℚ} (h1 : |q.1 - p.1| < 1) (h2 : |q.2.1 - p.2.1| < 1)
    (h3 : |q.2.2 - p.2.2| < 1) : |trilinear D q - trilinear D p| ≤ 2 * M * (|q.1 - p.1| + |q.2.1 - p.2.1| + |q.2.2 - p.2.2|) := by
  obtain ⟨x, y, z⟩ := p
  obtain ⟨x', y', z'⟩ := q
  unfold trilinear
  simp only at *
  have b3 : ∀ (i j : ℤ) (w : ℚ), |lerp (fun k => D i j k) w| ≤ M := fun i j w => lerp_abs (hM i j) w
  have c3 : ∀ i j : ℤ, |lerp (fun k => D i j k) z' - lerp (fun k => D i j k) z| ≤ 2 * M * |z' - z| := fun i j => lerp_lip (hM i j) h3
  have c2 : ∀ i : ℤ, |lerp (fun j => lerp (fun k => D i j k) z') y' - lerp (fun j => lerp (fun k => D i j k) z) y| ≤ 2 * M * |z' - z| + 2 * M * |y' - y| := by
    intro i
    have a := lerp_sub (c3 i) y'
    have b := lerp_lip (b3 i · z) h2
    have := abs_add_le (lerp (fun j => lerp (fun k => D i j k) z') y' - lerp (fun j => lerp (fun k => D i j k) z) y')
      (lerp (fun j => lerp (fun k => D i j k) z) y' - lerp (fun j => lerp (fun k => D i j k) z) y)
    rw [sub_add_sub_cancel] at this
    linarith
  have b2 : ∀ i : ℤ, |lerp (fun j => lerp (fun k => D i j k) z) y| ≤ M := fun i => lerp_abs (b3 i · z) y
  have a := lerp_sub c2 x'
  have b := lerp_lip b2 h1
  have := abs_add_le (lerp (fun i => lerp (fun j => lerp (fun k => D i j k) z') y') x' - lerp (fun i => lerp (fun j => lerp (fun k => D i j k) z) y) x')
    (lerp (fun i => lerp (fun j => lerp (fun k => D i j k) z) y) x' - lerp (fun i => lerp (fun j => lerp (fun k => D i j k) z) y) x)
  rw [sub_add_sub_cancel] at this
  linarith


/-! ### Rounding -/

theorem mul_step {y c : ℚ} {e : ℤ} (hy : Sz e |y|) (hc : Sz (-53) c) (c1 : c ≤ 1) (he : -1022 ≤ e + -53) (fy : IsF y) (by' : |y| < 2 ^ 1024) :
    Num.mul (.fin y) (.fin c) = .fin (rnd (y * c)) ∧ |rnd (y * c)| ≤ |y| ∧ Sz (e + -53) |rnd (y * c)| ∧
      |rnd (y * c) - y * c| ≤ 2 ^ (-53 : ℤ) * |y * c| := by
  have c0 := hc.nonneg
  have hab : |y * c| = |y| * c := by rw [abs_mul, abs_of_nonneg c0]
  have hle : |y * c| ≤ |y| := by
    rw [hab]
    have := mul_le_mul_of_nonneg_left c1 (abs_nonneg y)
    linarith
  have fay : IsF |y| := by
    unfold IsF
    rw [← rnd_abs, fy]
  have s := hy.mul hc
  rw [← hab] at s
  obtain ⟨s1, s2⟩ := s.rnd he
  have r1 : |rnd (y * c)| ≤ |y| := by
    rw [rnd_abs]
    exact rnd_le hle fay
  refine ⟨ofQ_fin (lt_of_le_of_lt r1 by'), r1, by rw [rnd_abs]; exact s1, ?_⟩
  rcases s with h | h
  · have : y * c = 0 := abs_eq_zero.mp h
    rw [this, rnd_zero, sub_self, abs_zero, mul_zero]
  · exact rnd_err (le_trans (zpow_le_zpow_right₀ (by norm_num) he) h)

theorem rel_signed {a u x y z c : ℚ} (hu : 0 ≤ u) (hc : 0 ≤ c) (h : |y - x| ≤ (a - 1) * |x|) (hz : |z - y * c| ≤ u * |y * c|) :
    |z - x * c| ≤ (a * (1 + u) - 1) * |x * c| := by
  rw [abs_mul, abs_of_nonneg hc] at hz ⊢
  have h1 : |y| ≤ a * |x| := by
    have := abs_add_le (y - x) x
    rw [sub_add_cancel] at this
    linarith
  have h2 : |y * c - x * c| ≤ (a - 1) * (|x| * c) := by
    rw [← sub_mul, abs_mul, abs_of_nonneg hc, ← mul_assoc]
    exact mul_le_mul_of_nonneg_right h hc
  have h3 : |z - x * c| ≤ |z - y * c| + |y * c - x * c| := by
    have := abs_add_le (z - y * c) (y * c - x * c)
    rwa [sub_add_sub_cancel] at this
  have h4 : u * (|y| * c) ≤ u * (a * |x| * c) := mul_le_mul_of_nonneg_left (mul_le_mul_of_nonneg_right h1 hc) hu
  linarith

theorem term_err {d a b c M : ℚ} (hd : d = 0 ∨ 2 ^ (-800 : ℤ) ≤ |d|) (fd : IsF d) (hM : |d| ≤ M) (M1 : M ≤ 2 ^ 1000) (ha : Sz (-53) a) (hb : Sz (-53) b)
    (hc : Sz (-53) c) (a1 : a ≤ 1) (b1 : b ≤ 1) (c1 : c ≤ 1) :
    ∃ t : ℚ, term (.fin d) (.fin a) (.fin b) (.fin c) = .fin t ∧ IsF t ∧
      |t - d * (a * b * c)| ≤ ((1 + 2 ^ (-53 : ℤ)) ^ 3 - 1) * M * (a * b * c) ∧ |t| ≤ (1 + 2 ^ (-53 : ℤ)) ^ 3 * M * (a * b * c) := by
  have hB : |d| < 2 ^ 1024 := lt_of_le_of_lt (le_trans hM M1) (pow_lt_pow_right₀ (by norm_num) (by norm_num))
  have sd : Sz (-800) |d| := by
    rcases hd with h | h
    · left; rw [h, abs_zero]
    · exact .inr h
  obtain ⟨n1, l1, s1, e1⟩ := mul_step sd ha a1 (by norm_num) fd hB
  obtain ⟨n2, l2, s2, e2⟩ := mul_step s1 hb b1 (by norm_num) (isF_rnd _) (lt_of_le_of_lt l1 hB)
  obtain ⟨n3, l3, s3, e3⟩ := mul_step s2 hc c1 (by norm_num) (isF_rnd _) (lt_of_le_of_lt (le_trans l2 l1) hB)
  refine ⟨_, by unfold term; rw [n1, n2, n3], isF_rnd _, ?_⟩
  have hu : (0 : ℚ) ≤ 2 ^ (-53 : ℤ) := (pow_pos' _).le
  have R1 := rel_signed (a := 1) hu ha.nonneg (x := d) (y := d) (by simp) e1
  have R2 := rel_signed hu hb.nonneg R1 e2
  have R3 := rel_signed hu hc.nonneg R2 e3
  have w0 : 0 ≤ a * b * c := mul_nonneg (mul_nonneg ha.nonneg hb.nonneg) hc.nonneg
  rw [show d * a * b * c = d * (a * b * c) by ring] at R3
  generalize rnd (rnd (rnd (d * a) * b) * c) = t at *
  generalize (2 : ℚ) ^ (-53 : ℤ) = u at *
  rw [abs_mul, abs_of_nonneg w0] at R3
  generalize a * b * c = w at *
  have hg : 0 ≤ (1 + u) ^ 3 - 1 := by nlinarith [mul_nonneg hu hu, mul_nonneg (mul_nonneg hu hu) hu]
  have h1 : ((1 + u) ^ 3 - 1) * (|d| * w) ≤ ((1 + u) ^ 3 - 1) * (M * w) := mul_le_mul_of_nonneg_left (mul_le_mul_of_nonneg_right hM w0) hg
  have h2 : |t - d * w| ≤ ((1 + u) ^ 3 - 1) * M * w := by
    refine le_trans R3 (le_trans (le_of_eq ?_) (le_trans h1 (le_of_eq ?_))) <;> ring
  refine ⟨h2, ?_⟩
  have h3 := abs_add_le (t - d * w) (d * w)
  rw [sub_add_cancel, abs_mul d w, abs_of_nonneg w0] at h3
  have h4 : |d| * w ≤ M * w := mul_le_mul_of_nonneg_right hM w0
  linarith

/-- C126: the interpolated value is a finite double that differs from the exact trilinear interpolation of the eight data values with the computed
weights by at most 2^-48 of the largest data value; the weights are those of C124 (non-negative, exact sum 1). -/
theorem C126_weighted {m : Mesh} {L : ℚ} (h : Good m L) (bad : Num → ℤ) {data : Data} {q : ℤ × ℤ × ℤ → ℚ} {M : ℚ} (hd : DataOK m data q M)
    {v : ℚ × ℚ × ℚ} (hv : NearPt m L v) :
    ∃ r al ar bl br cl cr : ℚ, valueAt bad m data (pt v) = .fin r ∧ IsF r ∧
      Weights (posQ m L v.1) al ar ∧ Weights (posQ m L v.2.1) bl br ∧ Weights (posQ m L v.2.2) cl cr ∧
      ∀ i j k : ℤ, i = ⌊posQ m L v.1⌋ → j = ⌊posQ m L v.2.1⌋ → k = ⌊posQ m L v.2.2⌋ →
        |r - (((periodic m.n q i j k * cl + periodic m.n q i j (k + 1) * cr) * bl +
            (periodic m.n q i (j + 1) k * cl + periodic m.n q i (j + 1) (k + 1) * cr) * br) * al +
          ((periodic m.n q (i + 1) j k * cl + periodic m.n q (i + 1) j (k + 1) * cr) * bl +
            (periodic m.n q (i + 1) (j + 1) k * cl + periodic m.n q (i + 1) (j + 1) (k + 1) * cr) * br) * ar)| ≤ 2 ^ (-48 : ℤ) * M := by
  obtain ⟨al, ar, ea, wa⟩ := C124_weights h bad hv.1
  obtain ⟨bl, br, eb, wb⟩ := C124_weights h bad hv.2.1
  obtain ⟨cl, cr, ec, wc⟩ := C124_weights h bad hv.2.2
  have sal := sz_weight wa.l0 wa.ml
  have sar := sz_weight wa.r0 wa.mr
  have sbl := sz_weight wb.l0 wb.ml
  have sbr := sz_weight wb.r0 wb.mr
  have scl := sz_weight wc.l0 wc.ml
  have scr := sz_weight wc.r0 wc.mr
  have hn := h.n_pos
  have hm : ∀ a b c : ℤ, IsCell m (a % m.n, b % m.n, c % m.n) := fun a b c =>
    ⟨Neighbor.mod_range m.n hn a, Neighbor.mod_range m.n hn b, Neighbor.mod_range m.n hn c⟩
  have T := fun (x y z : ℤ) {a b c : ℚ} (ha : Sz (-53) a) (hb : Sz (-53) b) (hc : Sz (-53) c) (a1 : a ≤ 1) (b1 : b ≤ 1) (c1 : c ≤ 1) =>
    term_err (hd.sz _ (hm x y z)) (hd.f _ (hm x y z)) (hd.le _ (hm x y z)) hd.small ha hb hc a1 b1 c1
  have D := fun x y z : ℤ => hd.eq _ (hm x y z)
  have M0 : 0 ≤ M := le_trans (abs_nonneg _) (hd.le _ (hm 0 0 0))
  set i := ⌊posQ m L v.1⌋
  set j := ⌊posQ m L v.2.1⌋
  set k := ⌊posQ m L v.2.2⌋
  obtain ⟨t1, n1, f1, x1, y1⟩ := T i j k sal sbl scl wa.l1 wb.l1 wc.l1
  obtain ⟨t2, n2, f2, x2, y2⟩ := T i j (k + 1) sal sbl scr wa.l1 wb.l1 wc.r1
  obtain ⟨t3, n3, f3, x3, y3⟩ := T i (j + 1) k sal sbr scl wa.l1 wb.r1 wc.l1
  obtain ⟨t4, n4, f4, x4, y4⟩ := T i (j + 1) (k + 1) sal sbr scr wa.l1 wb.r1 wc.r1
  obtain ⟨t5, n5, f5, x5, y5⟩ := T (i + 1) j k sar sbl scl wa.r1 wb.l1 wc.l1
  obtain ⟨t6, n6, f6, x6, y6⟩ := T (i + 1) j (k + 1) sar sbl scr wa.r1 wb.l1 wc.r1
  obtain ⟨t7, n7, f7, x7, y7⟩ := T (i + 1) (j + 1) k sar sbr scl wa.r1 wb.r1 wc.l1
  obtain ⟨t8, n8, f8, x8, y8⟩ := T (i + 1) (j + 1) (k + 1) sar sbr scr wa.r1 wb.r1 wc.r1
  have ev : valueAt bad m data (pt v) = FloatHist.seqSum (.fin t1) ([t2, t3, t4, t5, t6, t7, t8].map .fin) := by
    unfold valueAt pt
    simp only [ea, eb, ec, D, n1, n2, n3, n4, n5, n6, n7, n8]
    rfl
  have W : al * bl * cl + al * bl * cr + al * br * cl + al * br * cr + ar * bl * cl + ar * bl * cr + ar * br * cl + ar * br * cr = 1 := by
    have : al * bl * cl + al * bl * cr + al * br * cl + al * br * cr + ar * bl * cl + ar * bl * cr + ar * br * cl + ar * br * cr =
      (al + ar) * (bl + br) * (cl + cr) := by ring
    rw [this, wa.sum, wb.sum, wc.sum]
    norm_num
  have eT : |t1| + FloatHist.absSum [t2, t3, t4, t5, t6, t7, t8] = |t1| + |t2| + |t3| + |t4| + |t5| + |t6| + |t7| + |t8| := by
    simp [FloatHist.absSum]
    ring
  have g3 : ((1 : ℚ) + 2 ^ (-53 : ℤ)) ^ 3 ≤ 2 := by norm_num
  have hS : |t1| + |t2| + |t3| + |t4| + |t5| + |t6| + |t7| + |t8| ≤ (1 + 2 ^ (-53 : ℤ)) ^ 3 * M := by
    generalize (1 + (2 : ℚ) ^ (-53 : ℤ)) ^ 3 * M = K at *
    have : K = K * (al * bl * cl) + K * (al * bl * cr) + K * (al * br * cl) + K * (al * br * cr) + K * (ar * bl * cl) + K * (ar * bl * cr) +
        K * (ar * br * cl) + K * (ar * br * cr) := by
      rw [← mul_add, ← mul_add, ← mul_add, ← mul_add, ← mul_add, ← mul_add, ← mul_add, W, mul_one]
    linarith
  obtain ⟨r, r1, r2, r3⟩ := FloatHist.seq_err [t2, t3, t4, t5, t6, t7, t8] (by
      intro w hw
      simp only [List.mem_cons, List.not_mem_nil, or_false] at hw
      rcases hw with rfl | rfl | rfl | rfl | rfl | rfl | rfl <;> assumption) 0 t1 t1 |t1| f1 le_rfl (by simp) (by
      rw [eT]
      have e1 : ((1 : ℚ) + 2 ^ (-53 : ℤ)) ^ (0 + [t2, t3, t4, t5, t6, t7, t8].length) ≤ 2 := by norm_num
      have e2 : (1 + (2 : ℚ) ^ (-53 : ℤ)) ^ 3 * M ≤ 2 * 2 ^ 1000 := mul_le_mul g3 hd.small M0 (by norm_num)
      have e3 : (2 : ℚ) * (2 * 2 ^ 1000) ≤ 2 ^ 1023 := by
        rw [← pow_succ', ← pow_succ']
        exact pow_le_pow_right₀ (by norm_num) (by norm_num)
      exact le_trans (mul_le_mul e1 (le_trans hS e2) (by positivity) (by norm_num)) e3)
  refine ⟨r, al, ar, bl, br, cl, cr, by rw [ev, r1], r2, wa, wb, wc, ?_⟩
  intro i' j' k' hi hj hk
  subst hi hj hk
  unfold periodic
  rw [eT] at r3
  have e7 : 0 + [t2, t3, t4, t5, t6, t7, t8].length = 7 := rfl
  rw [e7] at r3
  have es : t1 + [t2, t3, t4, t5, t6, t7, t8].sum = t1 + t2 + t3 + t4 + t5 + t6 + t7 + t8 := by simp; ring
  rw [es] at r3
  have g10 := growth_le 10 (by norm_num)
  have h7 := one_le_growth 7
  have hc48 : (2 : ℚ) ^ (-48 : ℤ) = 32 * 2 ^ (-53 : ℤ) := by norm_num
  rw [hc48]
  rw [show ((1 : ℚ) + 2 ^ (-53 : ℤ)) ^ 10 = (1 + 2 ^ (-53 : ℤ)) ^ 7 * (1 + 2 ^ (-53 : ℤ)) ^ 3 by ring] at g10
  have hu := pow_pos' (-53)
  generalize (2 : ℚ) ^ (-53 : ℤ) = u at *
  generalize (1 + u) ^ 3 = G at *
  generalize (1 + u) ^ 7 = H at *
  have r4 : |r - (t1 + t2 + t3 + t4 + t5 + t6 + t7 + t8)| ≤ (H - 1) * (G * M) := le_trans r3 (mul_le_mul_of_nonneg_left hS (by linarith))
  have key : |r - (t1 + t2 + t3 + t4 + t5 + t6 + t7 + t8)| +
      (|t1 - q (i % m.n, j % m.n, k % m.n) * (al * bl * cl)| + |t2 - q (i % m.n, j % m.n, (k + 1) % m.n) * (al * bl * cr)| +
      |t3 - q (i % m.n, (j + 1) % m.n, k % m.n) * (al * br * cl)| + |t4 - q (i % m.n, (j + 1) % m.n, (k + 1) % m.n) * (al * br * cr)| +
      |t5 - q ((i + 1) % m.n, j % m.n, k % m.n) * (ar * bl * cl)| + |t6 - q ((i + 1) % m.n, j % m.n, (k + 1) % m.n) * (ar * bl * cr)| +
      |t7 - q ((i + 1) % m.n, (j + 1) % m.n, k % m.n) * (ar * br * cl)| + |t8 - q ((i + 1) % m.n, (j + 1) % m.n, (k + 1) % m.n) * (ar * br * cr)|) ≤
      (H * G - 1) * M := by
    obtain ⟨K, hKe⟩ : ∃ K : ℚ, K = (G - 1) * M := ⟨_, rfl⟩
    rw [← hKe] at x1 x2 x3 x4 x5 x6 x7 x8
    have : K = K * (al * bl * cl) + K * (al * bl * cr) + K * (al * br * cl) + K * (al * br * cr) + K * (ar * bl * cl) + K * (ar * bl * cr) +
        K * (ar * br * cl) + K * (ar * br * cr) := by
      rw [← mul_add, ← mul_add, ← mul_add, ← mul_add, ← mul_add, ← mul_add, ← mul_add, W, mul_one]
    have hK : (H - 1) * (G * M) + K = (H * G - 1) * M := by
      rw [hKe]
      ring
    linarith
  have fin : (H * G - 1) * M ≤ 32 * u * M := mul_le_mul_of_nonneg_right (by push_cast at g10; linarith) M0
  refine le_trans ?_ (le_trans key fin)
  generalize q (i % m.n, j % m.n, k % m.n) = d1
  generalize q (i % m.n, j % m.n, (k + 1) % m.n) = d2
  generalize q (i % m.n, (j + 1) % m.n, k % m.n) = d3
  generalize q (i % m.n, (j + 1) % m.n, (k + 1) % m.n) = d4
  generalize q ((i + 1) % m.n, j % m.n, k % m.n) = d5
  generalize q ((i + 1) % m.n, j % m.n, (k + 1) % m.n) = d6
  generalize q ((i + 1) % m.n, (j + 1) % m.n, k % m.n) = d7
  generalize q ((i + 1) % m.n, (j + 1) % m.n, (k + 1) % m.n) = d8
  have a0 := abs_add_le (r - (t1 + t2 + t3 + t4 + t5 + t6 + t7 + t8)) ((t1 - d1 * (al * bl * cl)) + (t2 - d2 * (al * bl * cr)) + (t3 - d3 * (al * br * cl)) +
    (t4 - d4 * (al * br * cr)) + (t5 - d5 * (ar * bl * cl)) + (t6 - d6 * (ar * bl * cr)) + (t7 - d7 * (ar * br * cl)) + (t8 - d8 * (ar * br * cr)))
  have a7 := abs_add_le ((t1 - d1 * (al * bl * cl)) + (t2 - d2 * (al * bl * cr)) + (t3 - d3 * (al * br * cl)) +
    (t4 - d4 * (al * br * cr)) + (t5 - d5 * (ar * bl * cl)) + (t6 - d6 * (ar * bl * cr)) + (t7 - d7 * (ar * br * cl))) (t8 - d8 * (ar * br * cr))
  have a6 := abs_add_le ((t1 - d1 * (al * bl * cl)) + (t2 - d2 * (al * bl * cr)) + (t3 - d3 * (al * br * cl)) +
    (t4 - d4 * (al * br * cr)) + (t5 - d5 * (ar * bl * cl)) + (t6 - d6 * (ar * bl * cr))) (t7 - d7 * (ar * br * cl))
  have a5 := abs_add_le ((t1 - d1 * (al * bl * cl)) + (t2 - d2 * (al * bl * cr)) + (t3 - d3 * (al * br * cl)) +
    (t4 - d4 * (al * br * cr)) + (t5 - d5 * (ar * bl * cl))) (t6 - d6 * (ar * bl * cr))
  have a4 := abs_add_le ((t1 - d1 * (al * bl * cl)) + (t2 - d2 * (al * bl * cr)) + (t3 - d3 * (al * br * cl)) +
    (t4 - d4 * (al * br * cr))) (t5 - d5 * (ar * bl * cl))
  have a3 := abs_add_le ((t1 - d1 * (al * bl * cl)) + (t2 - d2 * (al * bl * cr)) + (t3 - d3 * (al * br * cl))) (t4 - d4 * (al * br * cr))
  have a2 := abs_add_le ((t1 - d1 * (al * bl * cl)) + (t2 - d2 * (al * bl * cr))) (t3 - d3 * (al * br * cl))
  have a1 := abs_add_le (t1 - d1 * (al * bl * cl)) (t2 - d2 * (al * bl * cr))
  refine le_trans (le_of_eq ?_) (le_trans a0 (by linarith))
  congr 1
  ring


theorem periodic_abs {m : Mesh} {L : ℚ} (h : Good m L) {data : Data} {q : ℤ × ℤ × ℤ → ℚ} {M : ℚ} (hd : DataOK m data q M) (i j k : ℤ) :
    |periodic m.n q i j k| ≤ M :=
  hd.le _ ⟨Neighbor.mod_range m.n h.n_pos i, Neighbor.mod_range m.n h.n_pos j, Neighbor.mod_range m.n h.n_pos k⟩

/-- C126: the interpolated value is the exact trilinear interpolation of the periodic field at the exact position `x / (L/n)`, up to
`(2^-47 + 2^-50 (|p1| + |p2| + |p3|)) M`, where `M` bounds the field and `p` is the position in units of cells. -/
theorem C126_trilinear {m : Mesh} {L : ℚ} (h : Good m L) (bad : Num → ℤ) {data : Data} {q : ℤ × ℤ × ℤ → ℚ} {M : ℚ} (hd : DataOK m data q M)
    (v : ℚ × ℚ × ℚ) (p : ℚ × ℚ × ℚ) (hp : p = (v.1 / (L / m.n), v.2.1 / (L / m.n), v.2.2 / (L / m.n)))
    (h1 : |p.1| ≤ 2 ^ 50) (h2 : |p.2.1| ≤ 2 ^ 50) (h3 : |p.2.2| ≤ 2 ^ 50) :
    ∃ r : ℚ, valueAt bad m data (.fin v.1, .fin v.2.1, .fin v.2.2) = .fin r ∧ IsF r ∧
      |r - trilinear (periodic m.n q) p| ≤ (2 ^ (-47 : ℤ) + 2 ^ (-50 : ℤ) * (|p.1| + |p.2.1| + |p.2.2|)) * M := by
  have hw := h.width_pos
  have hnear : ∀ x : ℚ, |x / (L / m.n)| ≤ 2 ^ 50 → Near m L x := by
    intro x hx
    have e : L / m.n = width m L := rfl
    rw [e, abs_div, abs_of_pos hw, div_le_iff₀ hw] at hx
    exact le_trans hx (mul_le_mul_of_nonneg_right (by norm_num) hw.le)
  have hv : NearPt m L v := by
    rw [hp] at h1 h2 h3
    exact ⟨hnear _ h1, hnear _ h2, hnear _ h3⟩
  obtain ⟨r, al, ar, bl, br, cl, cr, e1, e2, wa, wb, wc, e3⟩ := C126_weighted h bad hd hv
  refine ⟨r, e1, e2, ?_⟩
  have B := periodic_abs h hd
  have M0 : 0 ≤ M := le_trans (abs_nonneg _) (B 0 0 0)
  have k1 := e3 _ _ _ rfl rfl rfl
  have k2 := comb_trilinear (p := (posQ m L v.1, posQ m L v.2.1, posQ m L v.2.2)) B wa wb wc
  have herr : ∀ x : ℚ, |x / (L / m.n)| ≤ 2 ^ 50 → |posQ m L x - x / (L / m.n)| ≤ 2 ^ (-51 : ℤ) * |x / (L / m.n)| + 2 ^ (-60 : ℤ) ∧
      |posQ m L x - x / (L / m.n)| < 1 := by
    intro x hx
    have a := pos_err h x
    have e : L / m.n = width m L := rfl
    rw [e] at hx ⊢
    have b : (2 : ℚ) ^ (-1075 : ℤ) ≤ 2 ^ (-60 : ℤ) := zpow_le_zpow_right₀ (by norm_num) (by norm_num)
    have c : (2 : ℚ) ^ (-51 : ℤ) * |x / width m L| ≤ 2 ^ (-51 : ℤ) * 2 ^ 50 := mul_le_mul_of_nonneg_left hx (pow_pos' _).le
    have d : (2 : ℚ) ^ (-51 : ℤ) * 2 ^ 50 + 2 ^ (-60 : ℤ) < 1 := by norm_num
    generalize (2 : ℚ) ^ (-51 : ℤ) * |x / width m L| = A at *
    generalize (2 : ℚ) ^ (-51 : ℤ) * 2 ^ 50 = C at *
    generalize (2 : ℚ) ^ (-1075 : ℤ) = E at *
    generalize (2 : ℚ) ^ (-60 : ℤ) = F at *
    exact ⟨by linarith, by linarith⟩
  subst hp
  simp only at *
  obtain ⟨u1, s1⟩ := herr _ h1
  obtain ⟨u2, s2⟩ := herr _ h2
  obtain ⟨u3, s3⟩ := herr _ h3
  have k3 := trilinear_lip (p := (v.1 / (L / m.n), v.2.1 / (L / m.n), v.2.2 / (L / m.n))) (q := (posQ m L v.1, posQ m L v.2.1, posQ m L v.2.2)) B s1 s2 s3
  simp only at k2 k3
  set X := ((periodic m.n q ⌊posQ m L v.1⌋ ⌊posQ m L v.2.1⌋ ⌊posQ m L v.2.2⌋ * cl + periodic m.n q ⌊posQ m L v.1⌋ ⌊posQ m L v.2.1⌋ (⌊posQ m L v.2.2⌋ + 1) * cr) * bl +
            (periodic m.n q ⌊posQ m L v.1⌋ (⌊posQ m L v.2.1⌋ + 1) ⌊posQ m L v.2.2⌋ * cl + periodic m.n q ⌊posQ m L v.1⌋ (⌊posQ m L v.2.1⌋ + 1) (⌊posQ m L v.2.2⌋ + 1) * cr) * br) * al +
          ((periodic m.n q (⌊posQ m L v.1⌋ + 1) ⌊posQ m L v.2.1⌋ ⌊posQ m L v.2.2⌋ * cl + periodic m.n q (⌊posQ m L v.1⌋ + 1) ⌊posQ m L v.2.1⌋ (⌊posQ m L v.2.2⌋ + 1) * cr) * bl +
            (periodic m.n q (⌊posQ m L v.1⌋ + 1) (⌊posQ m L v.2.1⌋ + 1) ⌊posQ m L v.2.2⌋ * cl + periodic m.n q (⌊posQ m L v.1⌋ + 1) (⌊posQ m L v.2.1⌋ + 1) (⌊posQ m L v.2.2⌋ + 1) * cr) * br) * ar
  set Y := trilinear (periodic m.n q) (posQ m L v.1, posQ m L v.2.1, posQ m L v.2.2)
  set Z := trilinear (periodic m.n q) (v.1 / (L / m.n), v.2.1 / (L / m.n), v.2.2 / (L / m.n))
  have t1 := abs_add_le (r - X) (X - Y)
  have t2 := abs_add_le (r - Y) (Y - Z)
  rw [sub_add_sub_cancel] at t1 t2
  generalize |v.1 / (L / m.n)| = P1 at *
  generalize |v.2.1 / (L / m.n)| = P2 at *
  generalize |v.2.2 / (L / m.n)| = P3 at *
  have k4 : 2 * M * (|posQ m L v.1 - v.1 / (L / m.n)| + |posQ m L v.2.1 - v.2.1 / (L / m.n)| + |posQ m L v.2.2 - v.2.2 / (L / m.n)|) ≤
      2 * M * (2 ^ (-51 : ℤ) * (P1 + P2 + P3) + 3 * 2 ^ (-60 : ℤ)) := mul_le_mul_of_nonneg_left (by linarith) (by linarith)
  refine le_trans t2 (le_trans (add_le_add (le_trans t1 (add_le_add k1 k2)) (le_trans k3 k4)) ?_)
  have e : 2 ^ (-48 : ℤ) * M + 3 * (2 * M * 2 ^ (-53 : ℤ)) + 2 * M * (2 ^ (-51 : ℤ) * (P1 + P2 + P3) + 3 * 2 ^ (-60 : ℤ)) =
      (2 ^ (-48 : ℤ) + 6 * 2 ^ (-53 : ℤ) + 6 * 2 ^ (-60 : ℤ) + 2 * 2 ^ (-51 : ℤ) * (P1 + P2 + P3)) * M := by ring
  rw [e]
  refine mul_le_mul_of_nonneg_right ?_ M0
  have e5 : (2 : ℚ) * 2 ^ (-51 : ℤ) = 2 ^ (-50 : ℤ) := by norm_num
  rw [e5]
  have e6 : (2 : ℚ) ^ (-48 : ℤ) + 6 * 2 ^ (-53 : ℤ) + 6 * 2 ^ (-60 : ℤ) ≤ 2 ^ (-47 : ℤ) := by norm_num
  linarith

/-- C126: interpolation does not overshoot: the value lies between the smallest and the largest field value, up to 2^-48 of the largest
absolute value — at every point, however far outside the box. -/
theorem C126_between {m : Mesh} {L : ℚ} (h : Good m L) (bad : Num → ℤ) {data : Data} {q : ℤ × ℤ × ℤ → ℚ} {M : ℚ} (hd : DataOK m data q M)
    {v : ℚ × ℚ × ℚ} (hv : NearPt m L v) {lo hi : ℚ} (hlo : ∀ c, IsCell m c → lo ≤ q c) (hhi : ∀ c, IsCell m c → q c ≤ hi) :
    ∃ r : ℚ, valueAt bad m data (.fin v.1, .fin v.2.1, .fin v.2.2) = .fin r ∧ lo - 2 ^ (-48 : ℤ) * M ≤ r ∧ r ≤ hi + 2 ^ (-48 : ℤ) * M := by
  obtain ⟨r, al, ar, bl, br, cl, cr, e1, e2, wa, wb, wc, e3⟩ := C126_weighted h bad hd hv
  refine ⟨r, e1, ?_⟩
  have k1 := abs_le.mp (e3 _ _ _ rfl rfl rfl)
  have B : ∀ i j k : ℤ, lo ≤ periodic m.n q i j k ∧ periodic m.n q i j k ≤ hi := fun i j k => by
    have : IsCell m (i % m.n, j % m.n, k % m.n) := ⟨Neighbor.mod_range m.n h.n_pos i, Neighbor.mod_range m.n h.n_pos j, Neighbor.mod_range m.n h.n_pos k⟩
    exact ⟨hlo _ this, hhi _ this⟩
  have C : ∀ {x y wl wr : ℚ}, 0 ≤ wl → 0 ≤ wr → wl + wr = 1 → (lo ≤ x ∧ x ≤ hi) → (lo ≤ y ∧ y ≤ hi) → lo ≤ x * wl + y * wr ∧ x * wl + y * wr ≤ hi := by
    intro x y wl wr l0 r0 s hx hy
    have : wl = 1 - wr := by linarith
    subst this
    constructor <;> nlinarith
  have := C wa.l0 wa.r0 wa.sum
    (C wb.l0 wb.r0 wb.sum (C wc.l0 wc.r0 wc.sum (B ⌊posQ m L v.1⌋ ⌊posQ m L v.2.1⌋ ⌊posQ m L v.2.2⌋) (B ⌊posQ m L v.1⌋ ⌊posQ m L v.2.1⌋ (⌊posQ m L v.2.2⌋ + 1)))
      (C wc.l0 wc.r0 wc.sum (B ⌊posQ m L v.1⌋ (⌊posQ m L v.2.1⌋ + 1) ⌊posQ m L v.2.2⌋) (B ⌊posQ m L v.1⌋ (⌊posQ m L v.2.1⌋ + 1) (⌊posQ m L v.2.2⌋ + 1))))
    (C wb.l0 wb.r0 wb.sum (C wc.l0 wc.r0 wc.sum (B (⌊posQ m L v.1⌋ + 1) ⌊posQ m L v.2.1⌋ ⌊posQ m L v.2.2⌋) (B (⌊posQ m L v.1⌋ + 1) ⌊posQ m L v.2.1⌋ (⌊posQ m L v.2.2⌋ + 1)))
      (C wc.l0 wc.r0 wc.sum (B (⌊posQ m L v.1⌋ + 1) (⌊posQ m L v.2.1⌋ + 1) ⌊posQ m L v.2.2⌋) (B (⌊posQ m L v.1⌋ + 1) (⌊posQ m L v.2.1⌋ + 1) (⌊posQ m L v.2.2⌋ + 1))))
  constructor
  · linarith [k1.1, this.1]
  · linarith [k1.2, this.2]

/-! ### Special points and special values -/

theorem add_nan (x : Num) : Num.add x .nan = .nan ∧ Num.add .nan x = .nan := by cases x <;> exact ⟨rfl, rfl⟩

theorem term_nan (a b c : Num) : term .nan a b c = .nan := rfl

/-- C126: a NaN in any of the eight surrounding cells makes the value NaN, also where its weight is zero (on the neighbouring node itself, for
instance): recorded. -/
theorem C126_nan (bad : Num → ℤ) (m : Mesh) (data : Data) (x : Point) (i j k : ℤ)
    (hi : i = (weightsAt bad m x.1).1 ∨ i = (weightsAt bad m x.1).2.1) (hj : j = (weightsAt bad m x.2.1).1 ∨ j = (weightsAt bad m x.2.1).2.1)
    (hk : k = (weightsAt bad m x.2.2).1 ∨ k = (weightsAt bad m x.2.2).2.1) (hn : data (i, j, k) = .nan) : valueAt bad m data x = .nan := by
  unfold valueAt
  rcases hi with rfl | rfl <;> rcases hj with rfl | rfl <;> rcases hk with rfl | rfl <;>
    simp only [hn, term_nan, (add_nan _).1, (add_nan _).2]

theorem ofQ_zero : ofQ 0 = .fin 0 := by decide +kernel

theorem mul_one' {d : ℚ} (fd : IsF d) (hb : |d| < 2 ^ 1024) : Num.mul (.fin d) (.fin 1) = .fin d := by
  show ofQ (d * 1) = _
  rw [mul_one]
  unfold ofQ
  rw [fd, if_neg (not_le.mpr hb)]

theorem mul_zero' (d : ℚ) : Num.mul (.fin d) (.fin 0) = .fin 0 := by
  show ofQ (d * 0) = _
  rw [mul_zero]
  exact ofQ_zero

theorem zero_mul' (d : ℚ) : Num.mul (.fin 0) (.fin d) = .fin 0 := by
  show ofQ (0 * d) = _
  rw [zero_mul]
  exact ofQ_zero

theorem add_zero' {d : ℚ} (fd : IsF d) (hb : |d| < 2 ^ 1024) : Num.add (.fin d) (.fin 0) = .fin d := by
  show ofQ (d + 0) = _
  rw [add_zero]
  unfold ofQ
  rw [fd, if_neg (not_le.mpr hb)]

/-- C126: at a point whose computed position is a node of the mesh the value is exactly the data value of that node. -/
theorem C126_node {m : Mesh} {L : ℚ} (h : Good m L) (bad : Num → ℤ) {data : Data} {q : ℤ × ℤ × ℤ → ℚ} {M : ℚ} (hd : DataOK m data q M)
    {v : ℚ × ℚ × ℚ} (hv : NearPt m L v) (i j k : ℕ) (hi : posQ m L v.1 = i) (hj : posQ m L v.2.1 = j) (hk : posQ m L v.2.2 = k) :
    valueAt bad m data (.fin v.1, .fin v.2.1, .fin v.2.2) = data ((i : ℤ) % m.n, (j : ℤ) % m.n, (k : ℤ) % m.n) := by
  obtain ⟨al, ar, ea, wa⟩ := C124_weights h bad hv.1
  obtain ⟨bl, br, eb, wb⟩ := C124_weights h bad hv.2.1
  obtain ⟨cl, cr, ec, wc⟩ := C124_weights h bad hv.2.2
  have Z : ∀ {x wl wr : ℚ} (n : ℕ), x = n → Weights x wl wr → wl = 1 ∧ wr = 0 := by
    intro x wl wr n hx W
    have : wr = 0 := W.exact (by rw [hx]; positivity) (by rw [hx]; simp)
    exact ⟨by linarith [W.sum], this⟩
  obtain ⟨rfl, rfl⟩ := Z i hi wa
  obtain ⟨rfl, rfl⟩ := Z j hj wb
  obtain ⟨rfl, rfl⟩ := Z k hk wc
  have hm : ∀ a b c : ℤ, IsCell m (a % m.n, b % m.n, c % m.n) := fun a b c =>
    ⟨Neighbor.mod_range m.n h.n_pos a, Neighbor.mod_range m.n h.n_pos b, Neighbor.mod_range m.n h.n_pos c⟩
  have D := fun x y z : ℤ => hd.eq _ (hm x y z)
  have hB : ∀ x y z : ℤ, |q (x % m.n, y % m.n, z % m.n)| < 2 ^ 1024 := fun x y z =>
    lt_of_le_of_lt (le_trans (hd.le _ (hm x y z)) hd.small) (pow_lt_pow_right₀ (by norm_num) (by norm_num))
  have F := fun x y z : ℤ => hd.f _ (hm x y z)
  unfold valueAt term
  simp only [ea, eb, ec, D, mul_one' (F _ _ _) (hB _ _ _), mul_zero', zero_mul', add_zero' (F _ _ _) (hB _ _ _), hi, hj, hk, Int.floor_natCast]

/-- C126: an array of points is accepted exactly if it has three columns; the values are one per row, in order, each that of its own row. -/
theorem C126_rows (bad : Num → ℤ) (m : Mesh) (data : Data) (xs : List (List Num)) :
    (∀ ps : List Point, xs = ps.map (fun p => [p.1, p.2.1, p.2.2]) → valuesAt bad m data xs = .ok (ps.map (valueAt bad m data))) ∧
    ((∃ r ∈ xs, r.length ≠ 3) → valuesAt bad m data xs = .error .assertionError) := by
  constructor
  · rintro ps rfl
    have : (ps.map (fun p => [p.1, p.2.1, p.2.2])).all (fun r => r.length == 3) = true := by simp
    unfold valuesAt pyAssert
    rw [if_pos this]
    simp [bind, Except.bind, pure, Except.pure, Function.comp_def]
  · rintro ⟨r, hr, hl⟩
    have : ¬ xs.all (fun r => r.length == 3) = true := by
      simp only [List.all_eq_true, beq_iff_eq, not_forall]
      exact ⟨r, hr, hl⟩
    unfold valuesAt pyAssert
    rw [if_neg this]
    rfl

/-! ### Examples -/

/-- A field of two values on a mesh of two cells a side: 1 in the cells (0, ., .), 3 in the others. -/
def field2 : Data := fun c => if c.1 = 0 then .fin 1 else .fin 3

theorem field2_ok : DataOK (Mesh.new (.fin 100) 11) field2 (fun c => if c.1 = 0 then 1 else 3) 3 where
  eq := by intro c _; unfold field2; split <;> rfl
  f := by intro c _; split <;> (unfold IsF; decide +kernel)
  le := by intro c _; split <;> norm_num
  sz := by
    intro c _
    right
    have : (2 : ℚ) ^ (-800 : ℤ) ≤ 2 ^ (0 : ℤ) := zpow_le_zpow_right₀ (by norm_num) (by norm_num)
    rw [zpow_zero] at this
    split
    · rw [abs_one]; exact this
    · exact le_trans this (by norm_num)
  small := le_trans (show (3 : ℚ) ≤ 2 ^ 2 by norm_num) (pow_le_pow_right₀ (by norm_num) (by norm_num))

example := C126_between mesh100_good Num.x86 field2_ok (v := (1, -3, 250)) ⟨near100 (by norm_num), near100 (by norm_num), near100 (by norm_num)⟩
  (lo := 1) (hi := 3) (fun c _ => by split <;> norm_num) (fun c _ => by split <;> norm_num)

example := C126_trilinear mesh100_good Num.x86 field2_ok (1, -3, 250) _ rfl (by rw [show (mesh100.n : ℚ) = 11 from rfl]; norm_num)
  (by rw [show (mesh100.n : ℚ) = 11 from rfl]; norm_num) (by rw [show (mesh100.n : ℚ) = 11 from rfl]; norm_num)

/-- Half-way between a 1 and a 3. -/
example : valueAt Num.x86 (Mesh.new (.fin 8) 2) field2 (.fin 2, .fin 0, .fin 5) = .fin 2 := by decide +kernel

/-- On node 0, next to a NaN in node 1. -/
example : valueAt Num.x86 (Mesh.new (.fin 8) 2) (fun c => if c.1 = 1 then .nan else .fin 1) (.fin 0, .fin 0, .fin 0) = .nan := by decide +kernel

end Pyhipp.FloatMesh
