import Verif.Model.FloatNeighbour
import Verif.Props.FloatKernel
/-
C160: density estimates from neighbours in double precision.
-/
namespace Pyhipp.FloatNeighbour
open Pyhipp Pyhipp.F64 Pyhipp.FloatReduce Pyhipp.FloatHist Pyhipp.FloatHistDensity Pyhipp.FloatKernel
open Pyhipp.FloatCosmology (w_mono w_mul w_rnd w_refl npow_isF le1023)

/-! ### Sums of terms that are known up to an error -/

theorem map_sum_err {ι : Type} (l : List ι) (p t : ι → ℚ) {δ τ : ℚ} (h : ∀ i ∈ l, |t i - p i| ≤ δ * p i + τ) :
    |(l.map t).sum - (l.map p).sum| ≤ δ * (l.map p).sum + l.length * τ := by
  induction l with
  | nil => simp
  | cons i l ih =>
    have h1 := h i (by simp)
    have h2 := ih fun j hj => h j (by simp [hj])
    simp only [List.map_cons, List.sum_cons, List.length_cons]
    push_cast
    have e : t i + (l.map t).sum - (p i + (l.map p).sum) = (t i - p i) + ((l.map t).sum - (l.map p).sum) := by ring
    rw [e]
    refine le_trans (abs_add_le _ _) (le_trans (add_le_add h1 h2) (le_of_eq ?_))
    ring

theorem sum_terms {ι : Type} (sum : List Num → Num) (hs : IsSum sum) (l : List ι) (p t : ι → ℚ) {δ τ : ℚ} (d0 : 0 ≤ δ) (d1 : δ ≤ 1) (t0 : 0 ≤ τ)
    (ht : ∀ i ∈ l, IsF (t i) ∧ 0 ≤ t i ∧ t i ≤ 2 ^ 80) (hp : ∀ i ∈ l, 0 ≤ p i ∧ |t i - p i| ≤ δ * p i + τ) (hn : l.length ≤ 2 ^ 40) :
    ∃ b : ℚ, sum ((l.map t).map .fin) = .fin b ∧ IsF b ∧ 0 ≤ b ∧ b ≤ 2 ^ 121 ∧
      |b - (l.map p).sum| ≤ (l.length * 2 ^ (-51 : ℤ) + δ) * (l.map p).sum + 2 * (l.length * τ) := by
  have hB : ∀ x ∈ l.map t, IsF x ∧ 0 ≤ x ∧ x ≤ 2 ^ 80 := by
    intro x hx
    obtain ⟨i, hi, rfl⟩ := List.mem_map.mp hx
    exact ht i hi
  have nT : 0 ≤ (l.map t).sum := List.sum_nonneg fun x hx => (hB x hx).2.1
  have nP : 0 ≤ (l.map p).sum := List.sum_nonneg fun x hx => by
    obtain ⟨i, hi, rfl⟩ := List.mem_map.mp hx
    exact (hp i hi).1
  have aT : absSum (l.map t) = (l.map t).sum := FloatContrast.absSum_eq fun x hx => (hB x hx).2.1
  have leT : (l.map t).sum ≤ 2 ^ 120 := by
    have h := (sum_bounds (l.map t) 0 (2 ^ 80) (fun x hx => (hB x hx).2)).2
    rw [List.length_map] at h
    have h2 : (l.length : ℚ) ≤ 2 ^ 40 := by exact_mod_cast hn
    refine le_trans h (le_trans (mul_le_mul_of_nonneg_right h2 (by positivity)) ?_)
    rw [← pow_add]
  obtain ⟨b, e, fb, hb⟩ := FloatReduce.sum_err sum hs (l.map t) (fun x hx => (hB x hx).1) (by rw [List.length_map]; exact le_trans hn (by norm_num))
    (by rw [aT]; exact le_trans leT (pow_le_pow_right₀ (by norm_num) (by norm_num)))
  rw [aT, List.length_map] at hb
  have hE := map_sum_err l p t fun i hi => (hp i hi).2
  have hl' : ((l.length - 1 : ℕ) : ℚ) ≤ l.length := by exact_mod_cast Nat.sub_le _ _
  have hn' : (l.length : ℚ) * 2 ^ (-52 : ℤ) ≤ 1 / 4096 := by
    have h : (l.length : ℚ) ≤ 2 ^ 40 := by exact_mod_cast hn
    calc (l.length : ℚ) * 2 ^ (-52 : ℤ) ≤ 2 ^ 40 * 2 ^ (-52 : ℤ) := mul_le_mul_of_nonneg_right h (pow_pos' _).le
      _ = 1 / 4096 := by norm_num
  have hb2 : |b - (l.map t).sum| ≤ l.length * 2 ^ (-52 : ℤ) * (l.map t).sum :=
    le_trans hb (mul_le_mul_of_nonneg_right (mul_le_mul_of_nonneg_right hl' (pow_pos' _).le) nT)
  have e51 : (2 : ℚ) ^ (-51 : ℤ) = 2 * 2 ^ (-52 : ℤ) := by norm_num
  have e121 : (2 : ℚ) ^ 121 = 2 * 2 ^ 120 := by norm_num
  rw [e51, e121]
  have l0 : (0 : ℚ) ≤ l.length * 2 ^ (-52 : ℤ) := mul_nonneg (Nat.cast_nonneg _) (pow_pos' _).le
  have lt : (0 : ℚ) ≤ l.length * τ := mul_nonneg (Nat.cast_nonneg _) t0
  have er : (l.length : ℚ) * (2 * 2 ^ (-52 : ℤ)) = 2 * (l.length * 2 ^ (-52 : ℤ)) := by ring
  rw [er]
  refine ⟨b, e, fb, ?_, ?_, ?_⟩
  · have k : l.length * 2 ^ (-52 : ℤ) * (l.map t).sum ≤ 1 / 4096 * (l.map t).sum := mul_le_mul_of_nonneg_right hn' nT
    generalize (l.length : ℚ) * 2 ^ (-52 : ℤ) * (l.map t).sum = y at *
    linarith only [(abs_le.mp hb2).1, k, nT]
  · have k : l.length * 2 ^ (-52 : ℤ) * (l.map t).sum ≤ 1 / 4096 * (l.map t).sum := mul_le_mul_of_nonneg_right hn' nT
    generalize (l.length : ℚ) * 2 ^ (-52 : ℤ) * (l.map t).sum = y at *
    generalize (2 : ℚ) ^ 120 = z at *
    linarith only [(abs_le.mp hb2).2, k, nT, leT]
  · generalize (l.length : ℚ) * 2 ^ (-52 : ℤ) = y at *
    generalize (l.length : ℚ) * τ = z at *
    generalize (l.map t).sum = T at *
    generalize (l.map p).sum = P at *
    have h1 : |b - P| ≤ |b - T| + |T - P| := by
      have := abs_add_le (b - T) (T - P)
      rwa [show b - T + (T - P) = b - P by ring] at this
    have dP : δ * P ≤ P := mul_le_of_le_one_left nP d1
    have hT : T ≤ 2 * P + z := by linarith only [(abs_le.mp hE).2, dP]
    have k1 : y * T ≤ y * (2 * P + z) := mul_le_mul_of_nonneg_left hT l0
    have k2 : y * z ≤ 1 / 4096 * z := mul_le_mul_of_nonneg_right hn' lt
    have x1 : y * (2 * P + z) = 2 * (y * P) + y * z := by ring
    have x2 : (2 * y + δ) * P = 2 * (y * P) + δ * P := by ring
    rw [x1] at k1
    rw [x2]
    linarith only [h1, hb2, hE, k1, k2, lt]

/-- Dividing such a sum by a volume. -/
theorem quot {b P v V δ σ : ℚ} {k : Nat} (b0 : 0 ≤ b) (b1 : b ≤ 2 ^ 121) (P0 : 0 ≤ P) (d0 : 0 ≤ δ) (s0 : 0 ≤ σ) (h : |b - P| ≤ δ * P + σ)
    (V0 : 0 < V) (w : Within v V k) (hk : k ≤ 2 ^ 40) (hv : 2 ^ (-900 : ℤ) ≤ v) :
    ∃ r : ℚ, Num.div (.fin b) (.fin v) = .fin r ∧ IsF r ∧ 0 ≤ r ∧ (b = 0 → r = 0) ∧
      |r - P / V| ≤ (2 * δ + (k + 1) * 2 ^ (-52 : ℤ)) * (P / V) + 2 * (σ / V) + 2 ^ (-1075 : ℤ) := by
  have v0 : 0 < v := w.pos V0
  have q0 : 0 ≤ b / v := div_nonneg b0 v0.le
  have qu : b / v ≤ 2 ^ 1023 := by
    rw [div_le_iff₀ v0]
    calc b ≤ 2 ^ 121 := b1
      _ = 2 ^ 1021 * 2 ^ (-900 : ℤ) := by rw [← zpow_natCast, ← zpow_natCast, ← zpow_add₀ (by norm_num)]; norm_num
      _ ≤ 2 ^ 1023 * v := mul_le_mul (pow_le_pow_right₀ (by norm_num) (by norm_num)) hv (pow_pos' _).le (by positivity)
  refine ⟨rnd (b / v), FloatStandardize.div_fin v0.ne' (by rw [abs_of_nonneg q0]; exact qu), isF_rnd _, rnd_nonneg q0, fun h => by rw [h, zero_div, rnd_zero], ?_⟩
  have r1 := FloatMesh.rnd_err_all (b / v)
  rw [abs_of_nonneg q0] at r1
  obtain ⟨c1, c2, -⟩ := ((w_refl V).div w V0 V0).close (by rw [div_self V0.ne']; norm_num) (by omega)
  rw [div_self V0.ne', zero_add, mul_one] at c1
  have eb : b / v = b / V * (V / v) := by field_simp
  have eB : |b / V - P / V| ≤ δ * (P / V) + σ / V := by
    rw [← sub_div, abs_div, abs_of_pos V0, div_le_iff₀ V0]
    have : (δ * (P / V) + σ / V) * V = δ * P + σ := by field_simp
    rw [this]
    exact h
  have kk : (k : ℚ) * 2 ^ (-52 : ℤ) ≤ 1 / 4096 := by
    have h : (k : ℚ) ≤ 2 ^ 40 := by exact_mod_cast hk
    calc (k : ℚ) * 2 ^ (-52 : ℤ) ≤ 2 ^ 40 * 2 ^ (-52 : ℤ) := mul_le_mul_of_nonneg_right h (pow_pos' _).le
      _ = 1 / 4096 := by norm_num
  have k0 : (0 : ℚ) ≤ k * 2 ^ (-52 : ℤ) := mul_nonneg (Nat.cast_nonneg _) (pow_pos' _).le
  have e52 : ((k : ℚ) + 1) * 2 ^ (-52 : ℤ) = k * 2 ^ (-52 : ℤ) + 2 * 2 ^ (-53 : ℤ) := by rw [add_mul, one_mul]; norm_num
  rw [e52]
  have u0 := pow_pos' (-53)
  have u1 : (2 : ℚ) ^ (-53 : ℤ) ≤ 1 / 4096 := by norm_num
  have H0 : 0 ≤ P / V := div_nonneg P0 V0.le
  have S0 : 0 ≤ σ / V := div_nonneg s0 V0.le
  have B0 : 0 ≤ b / V := div_nonneg b0 V0.le
  clear h qu hv b1 w
  generalize (2 : ℚ) ^ (-1075 : ℤ) = t at *
  generalize (2 : ℚ) ^ (-53 : ℤ) = u at *
  generalize (k : ℚ) * 2 ^ (-52 : ℤ) = κ at *
  generalize rnd (b / v) = r at *
  rw [eb] at r1
  generalize b / V = B at *
  generalize P / V = H at *
  generalize V / v = ρ at *
  generalize σ / V = s at *
  obtain ⟨c3, c4⟩ := abs_le.mp c1
  have hX : |B * ρ - H| ≤ (1 + κ) * (δ * H + s) + κ * H := by
    have e : B * ρ - H = (B - H) * ρ + H * (ρ - 1) := by ring
    rw [e]
    refine le_trans (abs_add_le _ _) (add_le_add ?_ ?_)
    · rw [abs_mul, mul_comm]
      refine mul_le_mul ?_ eB (abs_nonneg _) (by linarith only [k0])
      rw [abs_le]
      constructor <;> linarith only [c3, c4, kk, k0]
    · rw [abs_mul, abs_of_nonneg H0, mul_comm]
      exact mul_le_mul_of_nonneg_right c1 H0
  have tri : |r - H| ≤ |r - B * ρ| + |B * ρ - H| := by
    have := abs_add_le (r - B * ρ) (B * ρ - H)
    rwa [show r - B * ρ + (B * ρ - H) = r - H by ring] at this
  have D0 : 0 ≤ δ * H + s := add_nonneg (mul_nonneg d0 H0) S0
  have m1 : κ * (δ * H + s) ≤ 1 / 4096 * (δ * H + s) := mul_le_mul_of_nonneg_right kk D0
  have m2 : u * (B * ρ) ≤ u * (H + ((1 + κ) * (δ * H + s) + κ * H)) := mul_le_mul_of_nonneg_left (by linarith only [(abs_le.mp hX).2]) u0.le
  have m3 : u * (δ * H + s) ≤ 1 / 4096 * (δ * H + s) := mul_le_mul_of_nonneg_right u1 D0
  have m4 : u * (κ * (δ * H + s)) ≤ 1 / 4096 * (1 / 4096 * (δ * H + s)) := mul_le_mul u1 m1 (mul_nonneg k0 D0) (by norm_num)
  have uH : 0 ≤ u * H := mul_nonneg u0.le H0
  have m5 : κ * (u * H) ≤ 1 / 4096 * (u * H) := mul_le_mul_of_nonneg_right kk uH
  have x1 : u * (H + ((1 + κ) * (δ * H + s) + κ * H)) = u * H + u * (δ * H + s) + u * (κ * (δ * H + s)) + κ * (u * H) := by ring
  have x2 : (1 + κ) * (δ * H + s) = (δ * H + s) + κ * (δ * H + s) := by ring
  have x3 : (2 * δ + (κ + 2 * u)) * H + 2 * s = 2 * (δ * H + s) + κ * H + 2 * (u * H) := by ring
  rw [x1] at m2
  rw [x2] at hX
  rw [x3]
  generalize δ * H + s = D at *
  linarith only [tri, r1, hX, m1, m2, m3, m4, m5, uH, D0]


/-! ### Kernel weights scaled to the mean 1 -/

/-- A double between 0 and 1. -/
def Unit01 (x : ℚ) : Prop := IsF x ∧ 0 ≤ x ∧ x ≤ 1

theorem sel_le {ι : Type} (l : List ι) (b : ι → Bool) (k : ι → ℚ) (h : ∀ i ∈ l, 0 ≤ k i ∧ k i ≤ 1) :
    (l.map fun i => if b i then k i else 0).sum ≤ (l.filter b).length := by
  induction l with
  | nil => simp
  | cons i l ih =>
    have := ih fun j hj => h j (by simp [hj])
    obtain ⟨h0, h1⟩ := h i (by simp)
    cases hb : b i
    · simpa [hb] using this
    · simp only [List.map_cons, List.sum_cons, hb, if_true, List.filter_cons_of_pos, List.length_cons]
      push_cast
      linarith

theorem scaled {ι : Type} (sum : List Num → Num) (hs : IsSum sum) (l : List ι) (b : ι → Bool) (k : ι → ℚ) (hk : ∀ i ∈ l, Unit01 (k i))
    (hl : l.length ≤ 2 ^ 40) (hK : 2 ^ (-30 : ℤ) ≤ (l.map fun i => if b i then k i else 0).sum) :
    ∃ f : ℚ, Num.div (ofQ ((l.filter b).length : ℚ)) (sum ((l.map fun i => if b i then k i else 0).map .fin)) = .fin f ∧ 0 ≤ f ∧ f ≤ 2 ^ 71 ∧
      |f - (l.filter b).length / (l.map fun i => if b i then k i else 0).sum| ≤
        (l.length + 1) * 2 ^ (-50 : ℤ) * ((l.filter b).length / (l.map fun i => if b i then k i else 0).sum) := by
  obtain ⟨s, e, fs, s0, -, hE⟩ := sum_terms sum hs l (fun i => if b i then k i else 0) (fun i => if b i then k i else 0) (δ := 0) (τ := 0) le_rfl (by norm_num) le_rfl
    (by
      intro i hi
      split
      · exact ⟨(hk i hi).1, (hk i hi).2.1, le_trans (hk i hi).2.2 (one_le_pow₀ (by norm_num))⟩
      · exact ⟨zero_isF, le_rfl, by positivity⟩)
    (by
      intro i hi
      split
      · exact ⟨(hk i hi).2.1, by simp⟩
      · simp) hl
  simp only [add_zero, mul_zero] at hE
  have hm : (l.filter b).length ≤ 2 ^ 40 := le_trans (List.length_filter_le _ _) hl
  have hle := sel_le l b k fun i hi => (hk i hi).2
  rw [e, nat_double (le_trans hm (by norm_num))]
  have m40 : ((l.filter b).length : ℚ) ≤ 2 ^ 40 := by exact_mod_cast hm
  have m0 : (0 : ℚ) ≤ (l.filter b).length := Nat.cast_nonneg _
  generalize ((l.filter b).length : ℚ) = m at *
  generalize (l.map fun i => if b i then k i else 0).sum = K at *
  have K0 : 0 < K := lt_of_lt_of_le (pow_pos' _) hK
  have n0 : (0 : ℚ) ≤ l.length := Nat.cast_nonneg _
  have hn' : (l.length : ℚ) * 2 ^ (-51 : ℤ) ≤ 1 / 2048 := by
    have h : (l.length : ℚ) ≤ 2 ^ 40 := by exact_mod_cast hl
    calc (l.length : ℚ) * 2 ^ (-51 : ℤ) ≤ 2 ^ 40 * 2 ^ (-51 : ℤ) := mul_le_mul_of_nonneg_right h (pow_pos' _).le
      _ = 1 / 2048 := by norm_num
  have hE' : |s - K| ≤ 1 / 2048 * K := le_trans hE (mul_le_mul_of_nonneg_right hn' K0.le)
  obtain ⟨g1, g2⟩ := abs_le.mp hE'
  have sp : 0 < s := by linarith only [g1, K0]
  have half : K ≤ 2 * s := by linarith only [g1, K0]
  have F0 : 0 ≤ m / K := div_nonneg m0 K0.le
  have F70 : m / K ≤ 2 ^ 70 := by
    rw [div_le_iff₀ K0]
    calc m ≤ 2 ^ 40 := m40
      _ = 2 ^ 70 * 2 ^ (-30 : ℤ) := by norm_num
      _ ≤ 2 ^ 70 * K := mul_le_mul_of_nonneg_left hK (by positivity)
  have q0 : 0 ≤ m / s := div_nonneg m0 sp.le
  have q1 : m / s ≤ 2 ^ 71 := by
    rw [div_le_iff₀ sp]
    rw [div_le_iff₀ K0] at F70
    have : (2 : ℚ) ^ 71 = 2 * 2 ^ 70 := by norm_num
    rw [this]
    have := mul_le_mul_of_nonneg_left half (show (0 : ℚ) ≤ 2 ^ 70 by positivity)
    linarith only [F70, this]
  refine ⟨rnd (m / s), FloatStandardize.div_fin sp.ne' (by rw [abs_of_nonneg q0]; exact le_trans q1 (pow_le_pow_right₀ (by norm_num) (by norm_num))), rnd_nonneg q0,
    rnd_le q1 (npow_isF 71), ?_⟩
  rcases eq_or_lt_of_le m0 with rfl | mp
  · simp [rnd_zero]
  have m1 : (1 : ℚ) * 2 ^ (-30 : ℤ) ≤ m := by rw [one_mul]; exact le_trans hK hle
  have qlo : (2 : ℚ) ^ (-1022 : ℤ) ≤ m / s := by
    rw [le_div_iff₀ sp]
    have : s ≤ 2 * m := by linarith only [g2, hle, K0]
    calc (2 : ℚ) ^ (-1022 : ℤ) * s ≤ 2 ^ (-1022 : ℤ) * (2 * m) := mul_le_mul_of_nonneg_left this (pow_pos' _).le
      _ = 2 ^ (-1022 : ℤ) * 2 * m := by ring
      _ ≤ 1 * m := by
        refine mul_le_mul_of_nonneg_right ?_ m0
        rw [← zpow_add_one₀ (by norm_num)]
        exact zpow_le_one_of_nonpos₀ (by norm_num) (by norm_num)
      _ = m := one_mul m
  have r1 := rnd_err (x := m / s) (by rw [abs_of_nonneg q0]; exact qlo)
  rw [abs_of_nonneg q0] at r1
  -- m / s against m / K
  have hq : |m / s - m / K| ≤ l.length * 2 ^ (-50 : ℤ) * (m / K) := by
    have e1 : m / s - m / K = (m / K) * ((K - s) / s) := by field_simp
    rw [e1, abs_mul, abs_of_nonneg F0, mul_comm]
    refine mul_le_mul_of_nonneg_right ?_ F0
    rw [abs_div, abs_of_pos sp, div_le_iff₀ sp, abs_sub_comm]
    refine le_trans hE ?_
    have : (2 : ℚ) ^ (-50 : ℤ) = 2 * 2 ^ (-51 : ℤ) := by norm_num
    rw [this]
    have := mul_le_mul_of_nonneg_left half (mul_nonneg n0 (pow_pos' (-51)).le)
    linarith only [this]
  have hn2 : (l.length : ℚ) * 2 ^ (-50 : ℤ) ≤ 1 / 1024 := by
    have : (2 : ℚ) ^ (-50 : ℤ) = 2 * 2 ^ (-51 : ℤ) := by norm_num
    rw [this]
    linarith only [hn']
  have tri : |rnd (m / s) - m / K| ≤ |rnd (m / s) - m / s| + |m / s - m / K| := by
    have := abs_add_le (rnd (m / s) - m / s) (m / s - m / K)
    rwa [show rnd (m / s) - m / s + (m / s - m / K) = rnd (m / s) - m / K by ring] at this
  have e50 : ((l.length : ℚ) + 1) * 2 ^ (-50 : ℤ) = l.length * 2 ^ (-50 : ℤ) + 8 * 2 ^ (-53 : ℤ) := by rw [add_mul, one_mul]; norm_num
  rw [e50]
  have u0 := pow_pos' (-53)
  have k1 := mul_le_mul_of_nonneg_right hn2 F0
  generalize (l.length : ℚ) * 2 ^ (-50 : ℤ) = y at *
  generalize (2 : ℚ) ^ (-53 : ℤ) = u at *
  generalize rnd (m / s) = R at *
  generalize m / s = Q at *
  generalize m / K = F at *
  have hQ : Q ≤ 2 * F := by linarith only [(abs_le.mp hq).2, k1, F0]
  have k2 := mul_le_mul_of_nonneg_left hQ u0.le
  have uF := mul_nonneg u0.le F0
  have x : (y + 8 * u) * F = y * F + 8 * (u * F) := by ring
  rw [x]
  linarith only [tri, r1, hq, k2, uF]

theorem term_err {w k f F n : ℚ} (hw : Unit01 w) (hk : Unit01 k) (f0 : 0 ≤ f) (f1 : f ≤ 2 ^ 71) (F0 : 0 ≤ F) (n0 : 0 ≤ n) (n1 : n ≤ 2 ^ 40)
    (h : |f - F| ≤ (n + 1) * 2 ^ (-50 : ℤ) * F) :
    Num.mul (.fin k) (.fin f) = .fin (rnd (k * f)) ∧ Num.mul (.fin w) (.fin (rnd (k * f))) = .fin (rnd (w * rnd (k * f))) ∧
    IsF (rnd (w * rnd (k * f))) ∧ 0 ≤ rnd (w * rnd (k * f)) ∧ rnd (w * rnd (k * f)) ≤ 2 ^ 80 ∧
    |rnd (w * rnd (k * f)) - w * k * F| ≤ (n + 3) * 2 ^ (-50 : ℤ) * (w * k * F) + 2 ^ (-1073 : ℤ) := by
  obtain ⟨-, w0, w1⟩ := hw
  obtain ⟨-, k0, k1⟩ := hk
  have kf0 : 0 ≤ k * f := mul_nonneg k0 f0
  have kf1 : k * f ≤ 2 ^ 71 := le_trans (mul_le_of_le_one_left f0 k1) f1
  have g0 : 0 ≤ rnd (k * f) := rnd_nonneg kf0
  have g1 : rnd (k * f) ≤ 2 ^ 71 := rnd_le kf1 (npow_isF 71)
  have wg0 : 0 ≤ w * rnd (k * f) := mul_nonneg w0 g0
  have wg1 : w * rnd (k * f) ≤ 2 ^ 71 := le_trans (mul_le_of_le_one_left g0 w1) g1
  have l71 : (2 : ℚ) ^ 71 ≤ 2 ^ 1023 := pow_le_pow_right₀ (by norm_num) (by norm_num)
  refine ⟨FloatStandardize.mul_fin (by rw [abs_of_nonneg kf0]; exact kf1.trans l71), FloatStandardize.mul_fin (by rw [abs_of_nonneg wg0]; exact wg1.trans l71), isF_rnd _,
    rnd_nonneg wg0, le_trans (rnd_le wg1 (npow_isF 71)) (pow_le_pow_right₀ (by norm_num) (by norm_num)), ?_⟩
  have a1 := FloatMesh.rnd_err_all (k * f)
  have a2 := FloatMesh.rnd_err_all (w * rnd (k * f))
  rw [abs_of_nonneg kf0] at a1
  rw [abs_of_nonneg wg0] at a2
  have hc : (n + 1) * 2 ^ (-50 : ℤ) ≤ 1 / 512 := by
    calc (n + 1) * 2 ^ (-50 : ℤ) ≤ (2 ^ 40 + 1) * 2 ^ (-50 : ℤ) := mul_le_mul_of_nonneg_right (by linarith only [n1]) (pow_pos' _).le
      _ ≤ 1 / 512 := by norm_num
  have e3 : (n + 3) * 2 ^ (-50 : ℤ) = (n + 1) * 2 ^ (-50 : ℤ) + 16 * 2 ^ (-53 : ℤ) := by
    have : (2 : ℚ) ^ (-50 : ℤ) = 8 * 2 ^ (-53 : ℤ) := by norm_num
    rw [this]
    ring
  have e1073 : (2 : ℚ) ^ (-1073 : ℤ) = 4 * 2 ^ (-1075 : ℤ) := by rw [show (-1073 : ℤ) = 2 + (-1075) by norm_num, zpow_add₀ (by norm_num)]; norm_num
  rw [e3, e1073]
  have u0 := pow_pos' (-53)
  have u1 : (2 : ℚ) ^ (-53 : ℤ) ≤ 1 / 512 := by norm_num
  have t0 := pow_pos' (-1075)
  have c0 : 0 ≤ (n + 1) * 2 ^ (-50 : ℤ) := mul_nonneg (by linarith only [n0]) (pow_pos' _).le
  clear l71 f1 kf1 g1 wg1
  generalize (2 : ℚ) ^ (-1075 : ℤ) = t at *
  generalize (2 : ℚ) ^ (-53 : ℤ) = u at *
  generalize (n + 1) * 2 ^ (-50 : ℤ) = c at *
  generalize rnd (w * rnd (k * f)) = T at *
  generalize rnd (k * f) = g at *
  have kF0 : 0 ≤ k * F := mul_nonneg k0 F0
  have b1 : |k * f - k * F| ≤ c * (k * F) := by
    rw [← mul_sub, abs_mul, abs_of_nonneg k0]
    have := mul_le_mul_of_nonneg_left h k0
    linarith only [this]
  have b2 : c * (k * F) ≤ 1 / 512 * (k * F) := mul_le_mul_of_nonneg_right hc kF0
  have kf2 : k * f ≤ 2 * (k * F) := by linarith only [(abs_le.mp b1).2, b2, kF0]
  have b3 : |g - k * F| ≤ (c + 2 * u) * (k * F) + t := by
    have tri : |g - k * F| ≤ |g - k * f| + |k * f - k * F| := by
      have := abs_add_le (g - k * f) (k * f - k * F)
      rwa [show g - k * f + (k * f - k * F) = g - k * F by ring] at this
    have := mul_le_mul_of_nonneg_left kf2 u0.le
    have x : (c + 2 * u) * (k * F) = c * (k * F) + u * (2 * (k * F)) := by ring
    rw [x]
    linarith only [tri, a1, b1, this]
  have P0 : 0 ≤ w * k * F := by rw [mul_assoc]; exact mul_nonneg w0 kF0
  have b4 : |w * g - w * k * F| ≤ (c + 2 * u) * (w * k * F) + t := by
    have e : w * g - w * k * F = w * (g - k * F) := by ring
    rw [e, abs_mul, abs_of_nonneg w0]
    have h1 := mul_le_mul_of_nonneg_left b3 w0
    have h2 : w * t ≤ t := mul_le_of_le_one_left t0.le w1
    have x : w * ((c + 2 * u) * (k * F) + t) = (c + 2 * u) * (w * k * F) + w * t := by ring
    rw [x] at h1
    linarith only [h1, h2]
  have cu : (c + 2 * u) * (w * k * F) ≤ 1 * (w * k * F) := mul_le_mul_of_nonneg_right (by linarith only [hc, u1]) P0
  have wg2 : w * g ≤ 2 * (w * k * F) + t := by linarith only [(abs_le.mp b4).2, cu]
  have tri : |T - w * k * F| ≤ |T - w * g| + |w * g - w * k * F| := by
    have := abs_add_le (T - w * g) (w * g - w * k * F)
    rwa [show T - w * g + (w * g - w * k * F) = T - w * k * F by ring] at this
  have h3 := mul_le_mul_of_nonneg_left wg2 u0.le
  have h4 : u * t ≤ t := mul_le_of_le_one_left t0.le (by linarith only [u1])
  have uP := mul_nonneg u0.le P0
  have x : (c + 16 * u) * (w * k * F) = (c + 2 * u) * (w * k * F) + 14 * (u * (w * k * F)) := by ring
  have x2 : u * (2 * (w * k * F) + t) = 2 * (u * (w * k * F)) + u * t := by ring
  rw [x]
  rw [x2] at h3
  linarith only [tri, a2, b4, h3, h4, uP, t0]


/-! ### The estimates -/

/-- Does a neighbour at distance `d` count? -/
def inReach (maxDx : Option Num) (d : Num) : Bool :=
  match maxDx with
  | none => true
  | some m => Num.lt d m

/-- The number of neighbours that count. -/
def count (maxDx : Option Num) (nb : List (Nat × Num)) : Nat := (nb.filter fun p => inReach maxDx p.2).length

/-- The exact weight of the neighbours that count. -/
def weightOf (weight : List ℚ) (maxDx : Option Num) (nb : List (Nat × Num)) : ℚ :=
  (nb.map fun p => if inReach maxDx p.2 then wOf weight p.1 else 0).sum

/-- The exact total of the kernel over the neighbours that count. -/
def kernelSum (k : Num → Num) (maxDx : Option Num) (nb : List (Nat × Num)) : ℚ :=
  (nb.map fun p => if inReach maxDx p.2 then val (k p.2) else 0).sum

/-- The exact weight of the neighbours that count with the kernel scaled to the mean 1 over them. -/
def kernelWeightOf (k : Num → Num) (weight : List ℚ) (maxDx : Option Num) (nb : List (Nat × Num)) : ℚ :=
  (nb.map fun p => if inReach maxDx p.2 then wOf weight p.1 * (val (k p.2) * (count maxDx nb / kernelSum k maxDx nb)) else 0).sum

theorem mask_eq (maxDx : Option Num) (nb : List (Nat × Num)) : knnMask (nb.map Prod.snd) maxDx = nb.map fun p => inReach maxDx p.2 := by
  cases maxDx <;> simp [knnMask, inReach]

theorem count_eq (maxDx : Option Num) (nb : List (Nat × Num)) : ((knnMask (nb.map Prod.snd) maxDx).filter id).length = count maxDx nb := by
  rw [mask_eq, count, List.filter_map, List.length_map]
  rfl

theorem mulL_map {ι : Type} (l : List ι) (f g : ι → Num) : mulL (l.map f) (l.map g) = l.map fun i => Num.mul (f i) (g i) := by
  unfold mulL
  rw [List.zipWith_map]
  induction l with
  | nil => rfl
  | cons i l ih => simp [ih]

theorem mul_b2f {x : ℚ} (hx : IsF x) (h : |x| < 2 ^ 1024) (b : Bool) : Num.mul (.fin x) (b2f b) = .fin (if b then x else 0) := by
  cases b with
  | false =>
    show ofQ (x * 0) = .fin 0
    rw [mul_zero]
    decide +kernel
  | true =>
    show ofQ (x * 1) = .fin x
    rw [mul_one, ofQ_self ⟨hx, h⟩]

theorem unit_lt {x : ℚ} (h0 : 0 ≤ x) (h : x ≤ 2 ^ 80) : |x| < 2 ^ 1024 := by
  rw [abs_of_nonneg h0]
  exact lt_of_le_of_lt h (pow_lt_pow_right₀ (by norm_num) (by norm_num))

theorem one80 : (1 : ℚ) ≤ 2 ^ 80 := one_le_pow₀ (by norm_num)

/-- What the theorems assume about training weights, neighbours and volume. -/
structure Setting (weight : List ℚ) (nb : List (Nat × Num)) (r : ℚ) (c n : Nat) : Prop where
  wt : ∀ x ∈ weight, Unit01 x
  ids : ∀ p ∈ nb, p.1 < weight.length
  len : nb.length ≤ 2 ^ 40
  rF : IsF r
  r1 : 2 ^ (-(c : ℤ)) ≤ r
  r2 : r ≤ 2 ^ c
  n1 : n ≤ 100
  n2 : n * (c + 5) ≤ 900

theorem Setting.wOf {weight : List ℚ} {nb : List (Nat × Num)} {r : ℚ} {c n : Nat} (S : Setting weight nb r c n) {p : Nat × Num} (hp : p ∈ nb) :
    Unit01 (wOf weight p.1) := by
  unfold FloatKernel.wOf
  rw [getD_lt _ _ _ (S.ids p hp)]
  exact S.wt _ (List.getElem_mem _)

theorem Setting.gather {weight : List ℚ} {nb : List (Nat × Num)} {r : ℚ} {c n : Nat} (S : Setting weight nb r c n) :
    gather (weight.map .fin) (nb.map Prod.fst) = nb.map fun p => Num.fin (FloatKernel.wOf weight p.1) := by
  rw [gather_weight (by
    intro i hi
    obtain ⟨p, hp, rfl⟩ := List.mem_map.mp hi
    exact S.ids p hp), List.map_map, List.map_map]
  rfl

/-- Sum and quotient. -/
theorem Setting.quot {weight : List ℚ} {nb : List (Nat × Num)} {r : ℚ} {c n : Nat} (S : Setting weight nb r c n) (sum : List Num → Num) (hs : IsSum sum)
    (p t : Nat × Num → ℚ) {δ τ : ℚ} (d0 : 0 ≤ δ) (d1 : δ ≤ 1) (t0 : 0 ≤ τ)
    (ht : ∀ i ∈ nb, IsF (t i) ∧ 0 ≤ t i ∧ t i ≤ 2 ^ 80) (hp : ∀ i ∈ nb, 0 ≤ p i ∧ |t i - p i| ≤ δ * p i + τ) :
    ∃ h : ℚ, Num.div (sum (nb.map fun i => .fin (t i))) (ballVolume (.fin r) n) = .fin h ∧ IsF h ∧ 0 ≤ h ∧ ((∀ i ∈ nb, t i = 0) → h = 0) ∧ 0 < volExact r n ∧
      |h - (nb.map p).sum / volExact r n| ≤ (2 * δ + (nb.length + n + 1) * 2 ^ (-50 : ℤ)) * ((nb.map p).sum / volExact r n) +
        (4 * (nb.length * τ) / volExact r n + 2 ^ (-1075 : ℤ)) := by
  obtain ⟨v, ev, v1, -, V0, wv⟩ := vol_core S.rF S.r1 S.r2 n S.n1 (by have := S.n2; omega)
  obtain ⟨b, eb, -, b0, b1, hb⟩ := sum_terms sum hs nb p t d0 d1 t0 ht hp S.len
  have P0 : 0 ≤ (nb.map p).sum := List.sum_nonneg fun x hx => by
    obtain ⟨i, hi, rfl⟩ := List.mem_map.mp hx
    exact (hp i hi).1
  have l0 : (0 : ℚ) ≤ nb.length := Nat.cast_nonneg _
  have v900 : (2 : ℚ) ^ (-900 : ℤ) ≤ v := le_trans (zpow_le_zpow_right₀ (by norm_num) (by have := S.n2; omega)) v1
  obtain ⟨h, eh, fh, h0, hz, hh⟩ := FloatNeighbour.quot (σ := 2 * (nb.length * τ)) b0 b1 P0 (add_nonneg (mul_nonneg l0 (pow_pos' (-51)).le) d0)
    (by have := mul_nonneg l0 t0; linarith only [this]) hb V0 wv (by have := S.n1; omega) v900
  rw [List.map_map] at eb
  refine ⟨h, ?_, fh, h0, ?_, V0, ?_⟩
  · rw [ev]
    show Num.div (sum (nb.map (Num.fin ∘ t))) _ = _
    rw [eb]
    exact eh
  · intro hzero
    refine hz ?_
    have e := sum_zeros sum hs (nb.map t) (by
      intro x hx
      obtain ⟨i, hi, rfl⟩ := List.mem_map.mp hx
      exact hzero i hi)
    rw [List.map_map, eb] at e
    exact Num.fin.inj e
  · refine le_trans hh ?_
    have H0 : 0 ≤ (nb.map p).sum / volExact r n := div_nonneg P0 V0.le
    have e1 : 2 * (2 * (nb.length * τ) / volExact r n) = 4 * (nb.length * τ) / volExact r n := by ring
    rw [e1, ← add_assoc]
    refine add_le_add (add_le_add (mul_le_mul_of_nonneg_right ?_ H0) le_rfl) le_rfl
    have e51 : (2 : ℚ) ^ (-51 : ℤ) = 2 * 2 ^ (-52 : ℤ) := by norm_num
    have e50 : (2 : ℚ) ^ (-50 : ℤ) = 4 * 2 ^ (-52 : ℤ) := by norm_num
    rw [e51, e50]
    push_cast
    have u0 := pow_pos' (-52)
    have nu : (0 : ℚ) ≤ n * 2 ^ (-52 : ℤ) := mul_nonneg (Nat.cast_nonneg _) u0.le
    generalize (2 : ℚ) ^ (-52 : ℤ) = u at *
    linarith only [u0, nu]

/-- C160 (k nearest neighbours, no kernel): the estimate is the weight of the neighbours that count over the volume, up to a relative (k + n + 1)·2^-50 and an
underflow of 2^-1075; it is exactly 0 if none counts. -/
theorem C160_knn (sum : List Num → Num) (hs : IsSum sum) {weight : List ℚ} {nb : List (Nat × Num)} {r : ℚ} {c n : Nat} (S : Setting weight nb r c n) (maxDx : Option Num)
    (hr : knnRadius (nb.map Prod.snd) maxDx = .fin r) :
    ∃ h : ℚ, knnDensity sum none (weight.map .fin) n maxDx (nb.map Prod.snd) (nb.map Prod.fst) = ⟨.fin h, count maxDx nb, .fin r⟩ ∧ IsF h ∧ 0 ≤ h ∧
      (count maxDx nb = 0 → h = 0) ∧
      |h - weightOf weight maxDx nb / volExact r n| ≤ (nb.length + n + 1) * 2 ^ (-50 : ℤ) * (weightOf weight maxDx nb / volExact r n) + 2 ^ (-1075 : ℤ) := by
  have ok : ∀ i ∈ nb, IsF (if inReach maxDx i.2 then wOf weight i.1 else 0) ∧ 0 ≤ (if inReach maxDx i.2 then wOf weight i.1 else 0) ∧
      (if inReach maxDx i.2 then wOf weight i.1 else 0) ≤ 2 ^ 80 := by
    intro i hi
    obtain ⟨a, b, c⟩ := S.wOf hi
    split
    · exact ⟨a, b, le_trans c one80⟩
    · exact ⟨zero_isF, le_rfl, by positivity⟩
  obtain ⟨h, e, fh, h0, hz, V0, hh⟩ := S.quot sum hs (fun i => if inReach maxDx i.2 then wOf weight i.1 else 0) (fun i => if inReach maxDx i.2 then wOf weight i.1 else 0)
    (δ := 0) (τ := 0) le_rfl (by norm_num) le_rfl ok (fun i hi => ⟨(ok i hi).2.1, by simp⟩)
  refine ⟨h, ?_, fh, h0, ?_, ?_⟩
  · unfold knnDensity
    simp only
    rw [hr, count_eq, mask_eq, List.map_map]
    unfold knnWeights
    simp only
    rw [S.gather, mulL_map]
    have : (nb.map fun i => Num.mul (.fin (wOf weight i.1)) ((b2f ∘ fun p => inReach maxDx p.2) i)) = nb.map fun i => .fin (if inReach maxDx i.2 then wOf weight i.1 else 0) := by
      refine List.map_congr_left fun i hi => ?_
      obtain ⟨a, b, c⟩ := S.wOf hi
      exact mul_b2f a (unit_lt b (le_trans c one80)) _
    rw [this, e]
  · intro hc
    refine hz fun i hi => ?_
    have := List.filter_eq_nil_iff.mp (List.length_eq_zero_iff.mp hc) i hi
    rw [if_neg this]
  · simp only [mul_zero, zero_add, zero_div] at hh
    exact hh

/-- C160 (fixed radius, no kernel): the same for all neighbours within the radius. -/
theorem C160_local (sum : List Num → Num) (hs : IsSum sum) {weight : List ℚ} {nb : List (Nat × Num)} {r : ℚ} {c n : Nat} (S : Setting weight nb r c n) :
    ∃ h : ℚ, (localDensity sum none (weight.map .fin) n (.fin r) (nb.map Prod.snd) (nb.map Prod.fst)).h = .fin h ∧ IsF h ∧ 0 ≤ h ∧ (nb = [] → h = 0) ∧
      (localDensity sum none (weight.map .fin) n (.fin r) (nb.map Prod.snd) (nb.map Prod.fst)).n = nb.length ∧
      |h - weightOf weight none nb / volExact r n| ≤ (nb.length + n + 1) * 2 ^ (-50 : ℤ) * (weightOf weight none nb / volExact r n) + 2 ^ (-1075 : ℤ) := by
  obtain ⟨h, e, fh, h0, hz, V0, hh⟩ := S.quot sum hs (fun i => wOf weight i.1) (fun i => wOf weight i.1) (δ := 0) (τ := 0) le_rfl (by norm_num) le_rfl
    (fun i hi => ⟨(S.wOf hi).1, (S.wOf hi).2.1, le_trans (S.wOf hi).2.2 one80⟩) (fun i hi => ⟨(S.wOf hi).2.1, by simp⟩)
  refine ⟨h, ?_, fh, h0, ?_, ?_, ?_⟩
  · show Num.div (sum (gather (weight.map .fin) (nb.map Prod.fst))) (ballVolume (.fin r) n) = _
    rw [S.gather]
    exact e
  · rintro rfl
    exact hz (by simp)
  · exact List.length_map ..
  · simp only [mul_zero, zero_add, zero_div] at hh
    unfold weightOf
    simp only [inReach, if_true]
    exact hh


/-- The kernel as the theorems need it: values between 0 and 1, not all negligible. -/
structure KernelSet (k : Num → Num) (maxDx : Option Num) (nb : List (Nat × Num)) : Prop where
  ok : ∀ p ∈ nb, ∃ v : ℚ, k p.2 = .fin v ∧ Unit01 v
  big : 2 ^ (-30 : ℤ) ≤ kernelSum k maxDx nb

theorem KernelSet.val {k : Num → Num} {maxDx : Option Num} {nb : List (Nat × Num)} (h : KernelSet k maxDx nb) {p : Nat × Num} (hp : p ∈ nb) :
    k p.2 = .fin (val (k p.2)) ∧ Unit01 (val (k p.2)) := by
  obtain ⟨v, e, u⟩ := h.ok p hp
  rw [e]
  exact ⟨rfl, u⟩

/-- The scaled kernel weights and their error. -/
theorem kernel_terms (sum : List Num → Num) (hs : IsSum sum) {weight : List ℚ} {nb : List (Nat × Num)} {r : ℚ} {c n : Nat} (S : Setting weight nb r c n) {k : Num → Num}
    {maxDx : Option Num} (hk : KernelSet k maxDx nb) :
    ∃ f : ℚ, Num.div (ofQ (count maxDx nb : ℚ)) (sum (nb.map fun p => .fin (if inReach maxDx p.2 then val (k p.2) else 0))) = .fin f ∧
      ∀ p ∈ nb, Num.mul (.fin (wOf weight p.1)) (Num.mul (k p.2) (.fin f)) = .fin (rnd (wOf weight p.1 * rnd (val (k p.2) * f))) ∧
        IsF (rnd (wOf weight p.1 * rnd (val (k p.2) * f))) ∧ 0 ≤ rnd (wOf weight p.1 * rnd (val (k p.2) * f)) ∧ rnd (wOf weight p.1 * rnd (val (k p.2) * f)) ≤ 2 ^ 80 ∧
        0 ≤ wOf weight p.1 * (val (k p.2) * (count maxDx nb / kernelSum k maxDx nb)) ∧
        |rnd (wOf weight p.1 * rnd (val (k p.2) * f)) - wOf weight p.1 * (val (k p.2) * (count maxDx nb / kernelSum k maxDx nb))| ≤
          (nb.length + 3) * 2 ^ (-50 : ℤ) * (wOf weight p.1 * (val (k p.2) * (count maxDx nb / kernelSum k maxDx nb))) + 2 ^ (-1073 : ℤ) := by
  obtain ⟨f, e, f0, f1, hf⟩ := scaled sum hs nb (fun p => inReach maxDx p.2) (fun p => val (k p.2)) (fun p hp => (hk.val hp).2) S.len hk.big
  rw [List.map_map] at e
  have K0 : 0 < kernelSum k maxDx nb := lt_of_lt_of_le (pow_pos' _) hk.big
  have F0 : (0 : ℚ) ≤ count maxDx nb / kernelSum k maxDx nb := div_nonneg (Nat.cast_nonneg _) K0.le
  refine ⟨f, e, fun p hp => ?_⟩
  obtain ⟨ek, uk⟩ := hk.val hp
  obtain ⟨a1, a2, a3, a4, a5, a6⟩ := term_err (S.wOf hp) uk f0 f1 F0 (Nat.cast_nonneg nb.length) (by exact_mod_cast S.len) hf
  rw [mul_assoc (wOf weight p.1)] at a6
  refine ⟨?_, a3, a4, a5, mul_nonneg (S.wOf hp).2.1 (mul_nonneg uk.2.1 F0), a6⟩
  rw [show Num.mul (k p.2) (.fin f) = .fin (rnd (FloatKernel.val (k p.2) * f)) by rw [← a1, ← ek]]
  exact a2

theorem kernel_bound {x V l n : ℚ} (hx : 0 ≤ x) (l0 : 0 ≤ l) (n0 : 0 ≤ n) {B : ℚ}
    (h : B ≤ (2 * ((l + 3) * 2 ^ (-50 : ℤ)) + (l + n + 1) * 2 ^ (-50 : ℤ)) * x + (4 * (l * 2 ^ (-1073 : ℤ)) / V + 2 ^ (-1075 : ℤ))) :
    B ≤ (l + n + 2) * 2 ^ (-48 : ℤ) * x + (l * 2 ^ (-1071 : ℤ) / V + 2 ^ (-1075 : ℤ)) := by
  refine le_trans h ?_
  have e1 : (4 : ℚ) * (l * 2 ^ (-1073 : ℤ)) = l * 2 ^ (-1071 : ℤ) := by
    rw [show (-1071 : ℤ) = 2 + (-1073) by norm_num, zpow_add₀ (by norm_num)]
    norm_num
    generalize (2 ^ 1073 : ℚ)⁻¹ = y
    ring
  rw [e1]
  refine add_le_add (mul_le_mul_of_nonneg_right ?_ hx) le_rfl
  have e48 : (2 : ℚ) ^ (-48 : ℤ) = 4 * 2 ^ (-50 : ℤ) := by norm_num
  rw [e48]
  have u0 := pow_pos' (-50)
  generalize (2 : ℚ) ^ (-50 : ℤ) = u at *
  have h1 := mul_nonneg l0 u0.le
  have h2 := mul_nonneg n0 u0.le
  linarith only [h1, h2, u0]

theorem len_le_one {l : Nat} (h : l ≤ 2 ^ 40) : ((l : ℚ) + 3) * 2 ^ (-50 : ℤ) ≤ 1 := by
  have h' : (l : ℚ) ≤ 2 ^ 40 := by exact_mod_cast h
  calc ((l : ℚ) + 3) * 2 ^ (-50 : ℤ) ≤ (2 ^ 40 + 3) * 2 ^ (-50 : ℤ) := mul_le_mul_of_nonneg_right (by linarith only [h']) (pow_pos' _).le
    _ ≤ 1 := by norm_num

theorem count_pos {k : Num → Num} {maxDx : Option Num} {nb : List (Nat × Num)} (h : KernelSet k maxDx nb) : count maxDx nb ≠ 0 := by
  intro hc
  have hz : kernelSum k maxDx nb = 0 := by
    unfold kernelSum
    refine List.sum_eq_zero fun x hx => ?_
    obtain ⟨p, hp, rfl⟩ := List.mem_map.mp hx
    rw [if_neg (List.filter_eq_nil_iff.mp (List.length_eq_zero_iff.mp hc) p hp)]
  have := h.big
  rw [hz] at this
  exact absurd this (not_le.mpr (pow_pos' _))

/-- C160 (k nearest neighbours with a kernel): the weights of the neighbours that count, with the kernel scaled to the mean 1 over them. -/
theorem C160_knn_kernel (sum : List Num → Num) (hs : IsSum sum) {weight : List ℚ} {nb : List (Nat × Num)} {r : ℚ} {c n : Nat} (S : Setting weight nb r c n) {k : Num → Num}
    {maxDx : Option Num} (hk : KernelSet k maxDx nb) (hr : knnRadius (nb.map Prod.snd) maxDx = .fin r) :
    ∃ h : ℚ, knnDensity sum (some k) (weight.map .fin) n maxDx (nb.map Prod.snd) (nb.map Prod.fst) = ⟨.fin h, count maxDx nb, .fin r⟩ ∧ IsF h ∧ 0 ≤ h ∧
      |h - kernelWeightOf k weight maxDx nb / volExact r n| ≤ (nb.length + n + 2) * 2 ^ (-48 : ℤ) * (kernelWeightOf k weight maxDx nb / volExact r n) +
        (nb.length * 2 ^ (-1071 : ℤ) / volExact r n + 2 ^ (-1075 : ℤ)) := by
  obtain ⟨f, ef, ht⟩ := kernel_terms sum hs S hk
  obtain ⟨h, e, fh, h0, -, V0, hh⟩ := S.quot sum hs
    (fun p => if inReach maxDx p.2 then wOf weight p.1 * (val (k p.2) * (count maxDx nb / kernelSum k maxDx nb)) else 0)
    (fun p => if inReach maxDx p.2 then rnd (wOf weight p.1 * rnd (val (k p.2) * f)) else 0)
    (δ := (nb.length + 3) * 2 ^ (-50 : ℤ)) (τ := 2 ^ (-1073 : ℤ)) (mul_nonneg (by positivity) (pow_pos' _).le) (len_le_one S.len) (pow_pos' _).le
    (by
      intro p hp
      obtain ⟨-, a, b, c, -⟩ := ht p hp
      split
      · exact ⟨a, b, c⟩
      · exact ⟨zero_isF, le_rfl, by positivity⟩)
    (by
      intro p hp
      obtain ⟨-, -, -, -, a, b⟩ := ht p hp
      split
      · exact ⟨a, b⟩
      · refine ⟨le_rfl, ?_⟩
        rw [sub_zero, abs_zero, mul_zero, zero_add]
        exact (pow_pos' _).le)
  refine ⟨h, ?_, fh, h0, kernel_bound ?_ (Nat.cast_nonneg _) (Nat.cast_nonneg _) hh⟩
  · unfold knnDensity
    simp only
    rw [hr, count_eq, mask_eq, show (nb.map fun p => inReach maxDx p.2).map b2f = nb.map (b2f ∘ fun p => inReach maxDx p.2) from List.map_map ..]
    unfold knnWeights
    simp only
    rw [show (nb.map fun p => inReach maxDx p.2).map b2f = nb.map (b2f ∘ fun p => inReach maxDx p.2) from List.map_map .., if_neg (count_pos hk), S.gather, show (nb.map Prod.snd).map k = nb.map (k ∘ Prod.snd) from List.map_map .., mulL_map]
    have e1 : (nb.map fun i => Num.mul ((k ∘ Prod.snd) i) ((b2f ∘ fun p => inReach maxDx p.2) i)) = nb.map fun p => .fin (if inReach maxDx p.2 then val (k p.2) else 0) := by
      refine List.map_congr_left fun p hp => ?_
      obtain ⟨ek, uk⟩ := hk.val hp
      show Num.mul (k p.2) (b2f (inReach maxDx p.2)) = _
      rw [ek]
      exact mul_b2f uk.1 (unit_lt uk.2.1 (le_trans uk.2.2 one80)) _
    rw [e1, ef, List.map_map, mulL_map, mulL_map]
    have e2 : (nb.map fun i => Num.mul (Num.mul (.fin (wOf weight i.1)) (((fun x => Num.mul x (.fin f)) ∘ k ∘ Prod.snd) i)) ((b2f ∘ fun p => inReach maxDx p.2) i)) =
        nb.map fun p => .fin (if inReach maxDx p.2 then rnd (wOf weight p.1 * rnd (val (k p.2) * f)) else 0) := by
      refine List.map_congr_left fun p hp => ?_
      obtain ⟨a, b, c, d, -⟩ := ht p hp
      show Num.mul (Num.mul (.fin (wOf weight p.1)) (Num.mul (k p.2) (.fin f))) (b2f (inReach maxDx p.2)) = _
      rw [a]
      exact mul_b2f b (unit_lt c d) _
    rw [e2, e]
  · refine div_nonneg (List.sum_nonneg fun x hx => ?_) V0.le
    obtain ⟨p, hp, rfl⟩ := List.mem_map.mp hx
    obtain ⟨-, -, -, -, a, -⟩ := ht p hp
    split
    · exact a
    · exact le_rfl

/-- C160 (fixed radius with a kernel). -/
theorem C160_local_kernel (sum : List Num → Num) (hs : IsSum sum) {weight : List ℚ} {nb : List (Nat × Num)} {r : ℚ} {c n : Nat} (S : Setting weight nb r c n) {k : Num → Num}
    (hk : KernelSet k none nb) :
    ∃ h : ℚ, (localDensity sum (some k) (weight.map .fin) n (.fin r) (nb.map Prod.snd) (nb.map Prod.fst)).h = .fin h ∧ IsF h ∧ 0 ≤ h ∧
      (localDensity sum (some k) (weight.map .fin) n (.fin r) (nb.map Prod.snd) (nb.map Prod.fst)).n = nb.length ∧
      |h - kernelWeightOf k weight none nb / volExact r n| ≤ (nb.length + n + 2) * 2 ^ (-48 : ℤ) * (kernelWeightOf k weight none nb / volExact r n) +
        (nb.length * 2 ^ (-1071 : ℤ) / volExact r n + 2 ^ (-1075 : ℤ)) := by
  obtain ⟨f, ef, ht⟩ := kernel_terms sum hs S hk
  have cl : count none nb = nb.length := by simp [count, inReach]
  simp only [inReach, if_true, cl] at ef
  obtain ⟨h, e, fh, h0, -, V0, hh⟩ := S.quot sum hs
    (fun p => wOf weight p.1 * (val (k p.2) * (count none nb / kernelSum k none nb)))
    (fun p => rnd (wOf weight p.1 * rnd (val (k p.2) * f)))
    (δ := (nb.length + 3) * 2 ^ (-50 : ℤ)) (τ := 2 ^ (-1073 : ℤ)) (mul_nonneg (by positivity) (pow_pos' _).le) (len_le_one S.len) (pow_pos' _).le
    (fun p hp => by obtain ⟨-, a, b, c, -⟩ := ht p hp; exact ⟨a, b, c⟩)
    (fun p hp => by obtain ⟨-, -, -, -, a, b⟩ := ht p hp; exact ⟨a, b⟩)
  have ew : kernelWeightOf k weight none nb = (nb.map fun p => wOf weight p.1 * (val (k p.2) * (count none nb / kernelSum k none nb))).sum := by
    unfold kernelWeightOf
    simp only [inReach, if_true]
  rw [← ew] at hh
  refine ⟨h, ?_, fh, h0, List.length_map .., kernel_bound ?_ (Nat.cast_nonneg _) (Nat.cast_nonneg _) hh⟩
  · show Num.div (sum (localWeights sum (some k) (gather (weight.map .fin) (nb.map Prod.fst)) (nb.map Prod.snd))) (ballVolume (.fin r) n) = _
    unfold localWeights
    simp only [List.map_map, List.length_map]
    have l0 : 0 < nb.length := Nat.pos_of_ne_zero (by rw [← cl]; exact count_pos hk)
    have e1 : nb.map (k ∘ Prod.snd) = nb.map fun p => .fin (val (k p.2)) := List.map_congr_left fun p hp => (hk.val hp).1
    rw [if_pos l0, S.gather, mulL_map]
    rw [e1, ef]
    have e2 : (nb.map fun i => Num.mul (.fin (wOf weight i.1)) (((fun x => Num.mul x (.fin f)) ∘ k ∘ Prod.snd) i)) =
        nb.map fun p => .fin (rnd (wOf weight p.1 * rnd (val (k p.2) * f))) := List.map_congr_left fun p hp => (ht p hp).1
    rw [e2, e]
  · rw [ew]
    refine div_nonneg (List.sum_nonneg fun x hx => ?_) V0.le
    obtain ⟨p, hp, rfl⟩ := List.mem_map.mp hx
    exact (ht p hp).2.2.2.2.1


/-! ### Radius -/

theorem maxNum_fin (a b : ℚ) : maxNum (.fin a) (.fin b) = .fin (max a b) := by
  unfold maxNum
  simp only [Num.lt, decide_eq_true_eq, reduceCtorEq, or_self, if_false]
  split
  · rename_i h; rw [max_eq_right h.le]
  · rename_i h; rw [max_eq_left (not_lt.mp h)]

theorem maxL_fin (q : ℚ) (qs : List ℚ) : maxL ((q :: qs).map .fin) = .fin (qs.foldl max q) := by
  show (qs.map Num.fin).foldl maxNum (.fin q) = _
  induction qs generalizing q with
  | nil => rfl
  | cons a l ih =>
    simp only [List.map_cons, List.foldl_cons]
    rw [maxNum_fin]
    exact ih _

theorem foldl_max (q : ℚ) (qs : List ℚ) : qs.foldl max q ∈ q :: qs ∧ ∀ x ∈ q :: qs, x ≤ qs.foldl max q := by
  induction qs generalizing q with
  | nil => simp
  | cons a l ih =>
    obtain ⟨h1, h2⟩ := ih (max q a)
    simp only [List.foldl_cons]
    refine ⟨?_, ?_⟩
    · rcases List.mem_cons.mp h1 with h | h
      · rw [h]
        rcases max_choice q a with e | e <;> rw [e] <;> simp
      · simp [h]
    · intro x hx
      have hm := h2 (max q a) (by simp)
      rcases List.mem_cons.mp hx with rfl | hx
      · exact le_trans (le_max_left _ _) hm
      · rcases List.mem_cons.mp hx with rfl | hx
        · exact le_trans (le_max_right _ _) hm
        · exact h2 x (by simp [hx])

/-- C160 (radius): the reported radius is the distance of the farthest neighbour, for the nearest neighbours clipped at the given radius. -/
theorem C160_radius {qs : List ℚ} (h : qs ≠ []) :
    ∃ m ∈ qs, (∀ x ∈ qs, x ≤ m) ∧ knnRadius (qs.map .fin) none = .fin m ∧ (∀ R : ℚ, knnRadius (qs.map .fin) (some (.fin R)) = .fin (min m R)) ∧
      ∀ (sum : List Num → Num) (kernel : Option (Num → Num)) (weight : List Num) (n : Nat) (r : Num) (ids : List Nat),
        (localDensity sum kernel weight n r (qs.map .fin) ids).maxDx = .fin m := by
  obtain ⟨q, l, rfl⟩ := List.exists_cons_of_ne_nil h
  obtain ⟨h1, h2⟩ := foldl_max q l
  refine ⟨_, h1, h2, maxL_fin q l, ?_, ?_⟩
  · intro R
    unfold knnRadius
    simp only [maxL_fin, reduceCtorEq, or_self, if_false, Num.lt, decide_eq_true_eq]
    split
    · rename_i h; rw [min_eq_right h.le]
    · rename_i h; rw [min_eq_left (not_lt.mp h)]
  · intro sum kernel weight n r ids
    show (if 0 < ((q :: l).map Num.fin).length then maxL ((q :: l).map .fin) else .fin 0) = _
    rw [if_pos (by simp), maxL_fin]

/-! ### Where the estimate breaks down -/

theorem vol_zero : ∀ n : Nat, n ≤ 100 → ballVolume (.fin 0) (n + 1) = .fin 0
  | 0, _ => by decide +kernel
  | 1, _ => by decide +kernel
  | n + 2, h => by
    have z : ∀ x : ℚ, Num.mul (.fin x) (.fin 0) = .fin 0 := by
      intro x
      show ofQ (x * 0) = _
      rw [mul_zero]
      decide +kernel
    show Num.mul (Num.mul (Num.mul (Num.div (Num.mul (.fin 2) (.fin pi64)) (ofQ ((n + 1 + 2 : Nat) : ℚ))) (.fin 0)) (.fin 0)) (ballVolume (.fin 0) (n + 1)) = _
    rw [(vol_step (n := n + 1) (by omega)).1, z, z, vol_zero n (by omega), z]

/-- C160 (coinciding points): when all k neighbours are at distance 0 the volume is 0 and the estimate is infinite (NaN if their weight is 0); with a maximal
distance of 0 no neighbour counts and the estimate is NaN. -/
theorem C160_coincide (sum : List Num → Num) (hs : IsSum sum) {weight : List ℚ} {nb : List (Nat × Num)} (hw : ∀ x ∈ weight, Unit01 x) (hi : ∀ p ∈ nb, p.1 < weight.length)
    (hl : nb.length ≤ 2 ^ 40) (hd : ∀ p ∈ nb, p.2 = .fin 0) (hne : nb ≠ []) {n : Nat} (hn : n ≤ 100) :
    ((∃ p ∈ nb, 0 < wOf weight p.1) →
      knnDensity sum none (weight.map .fin) (n + 1) none (nb.map Prod.snd) (nb.map Prod.fst) = ⟨.inf false, nb.length, .fin 0⟩) ∧
    ((∀ p ∈ nb, wOf weight p.1 = 0) → knnDensity sum none (weight.map .fin) (n + 1) none (nb.map Prod.snd) (nb.map Prod.fst) = ⟨.nan, nb.length, .fin 0⟩) ∧
    knnDensity sum none (weight.map .fin) (n + 1) (some (.fin 0)) (nb.map Prod.snd) (nb.map Prod.fst) = ⟨.nan, 0, .fin 0⟩ := by
  have wok : ∀ p ∈ nb, Unit01 (wOf weight p.1) := by
    intro p hp
    unfold wOf
    rw [getD_lt _ _ _ (hi p hp)]
    exact hw _ (List.getElem_mem _)
  have eg : gather (weight.map .fin) (nb.map Prod.fst) = nb.map fun p => Num.fin (wOf weight p.1) := by
    rw [gather_weight (by
      intro i h
      obtain ⟨p, hp, rfl⟩ := List.mem_map.mp h
      exact hi p hp), List.map_map, List.map_map]
    rfl
  have ed : nb.map Prod.snd = (nb.map fun _ => (0 : ℚ)).map .fin := by
    rw [List.map_map]
    exact List.map_congr_left hd
  have hne' : (nb.map fun _ => (0 : ℚ)) ≠ [] := by simpa using hne
  obtain ⟨m, hm, -, hr1, hr2, -⟩ := C160_radius hne'
  have m0 : m = 0 := by
    obtain ⟨_, _, h⟩ := List.mem_map.mp hm
    exact h.symm
  subst m0
  rw [← ed] at hr1 hr2
  have hr3 := hr2 0
  rw [min_self] at hr3
  have val : ∀ maxDx, knnRadius (nb.map Prod.snd) maxDx = .fin 0 →
      knnDensity sum none (weight.map .fin) (n + 1) maxDx (nb.map Prod.snd) (nb.map Prod.fst) =
        ⟨Num.div (sum (nb.map fun i => .fin (if inReach maxDx i.2 then wOf weight i.1 else 0))) (.fin 0), count maxDx nb, .fin 0⟩ := by
    intro maxDx hr
    unfold knnDensity
    simp only
    rw [hr, count_eq, mask_eq, List.map_map, vol_zero n hn]
    unfold knnWeights
    simp only
    rw [eg, mulL_map]
    have : (nb.map fun i => Num.mul (.fin (wOf weight i.1)) ((b2f ∘ fun p => inReach maxDx p.2) i)) = nb.map fun i => .fin (if inReach maxDx i.2 then wOf weight i.1 else 0) := by
      refine List.map_congr_left fun i hi => ?_
      obtain ⟨a, b, c⟩ := wok i hi
      exact mul_b2f a (unit_lt b (le_trans c one80)) _
    rw [this]
  have zero : ∀ t : Nat × Num → ℚ, (∀ p ∈ nb, t p = 0) → sum (nb.map fun i => .fin (t i)) = .fin 0 := by
    intro t ht
    have := sum_zeros sum hs (nb.map t) (by
      intro x hx
      obtain ⟨p, hp, rfl⟩ := List.mem_map.mp hx
      exact ht p hp)
    rwa [List.map_map] at this
  have c1 : count none nb = nb.length := by simp [count, inReach]
  have c2 : count (some (.fin 0)) nb = 0 := by
    unfold count
    rw [List.length_eq_zero_iff, List.filter_eq_nil_iff]
    intro p hp
    rw [hd p hp]
    decide
  have nn : Num.div (.fin 0) (.fin 0) = .nan := by decide +kernel
  refine ⟨fun ⟨p, hp, hpos⟩ => ?_, fun hz => ?_, ?_⟩
  · rw [val none hr1, c1]
    simp only [inReach, if_true]
    obtain ⟨b, e, -, b0, -, hb⟩ := sum_terms sum hs nb (fun i => wOf weight i.1) (fun i => wOf weight i.1) (δ := 0) (τ := 0) le_rfl (by norm_num) le_rfl
      (fun i hi => ⟨(wok i hi).1, (wok i hi).2.1, le_trans (wok i hi).2.2 one80⟩) (fun i hi => ⟨(wok i hi).2.1, by simp⟩) hl
    rw [List.map_map] at e
    have P0 : 0 < (nb.map fun i => wOf weight i.1).sum := by
      refine lt_of_lt_of_le hpos (List.single_le_sum (fun x hx => ?_) (wOf weight p.1) (List.mem_map.mpr ⟨p, hp, rfl⟩))
      obtain ⟨i, hi, rfl⟩ := List.mem_map.mp hx
      exact (wok i hi).2.1
    have hn' : (nb.length : ℚ) * 2 ^ (-51 : ℤ) ≤ 1 / 2048 := by
      have h : (nb.length : ℚ) ≤ 2 ^ 40 := by exact_mod_cast hl
      calc (nb.length : ℚ) * 2 ^ (-51 : ℤ) ≤ 2 ^ 40 * 2 ^ (-51 : ℤ) := mul_le_mul_of_nonneg_right h (pow_pos' _).le
        _ = 1 / 2048 := by norm_num
    simp only [add_zero, mul_zero] at hb
    have hb' := le_trans hb (mul_le_mul_of_nonneg_right hn' P0.le)
    have bp : 0 < b := by
      have := (abs_le.mp hb').1
      linarith only [this, P0]
    have : sum (nb.map fun i => .fin (wOf weight i.1)) = .fin b := e
    rw [this]
    have : Num.div (.fin b) (.fin 0) = .inf false := by
      show (if (0 : ℚ) = 0 then (if b = 0 then Num.nan else Num.inf (decide (b < 0))) else ofQ (b / 0)) = _
      rw [if_pos rfl, if_neg bp.ne', decide_eq_false (by linarith)]
    rw [this]
  · rw [val none hr1, c1]
    simp only [inReach, if_true]
    rw [zero _ hz, nn]
  · rw [val _ hr3, c2, zero _ (by
      intro p hp
      rw [hd p hp]
      have : inReach (some (.fin 0)) (.fin 0) = false := by decide
      rw [this]
      rfl), nn]


/-- C160 (far neighbours): with a Gaussian kernel and neighbours that are all 40 or more widths away the estimates are NaN, not 0. -/
theorem C160_far (sum : List Num → Num) (hs : IsSum sum) (exp : Num → Num) (he : IsExp exp) {s : ℚ} (h1 : 2 ^ (-500 : ℤ) ≤ |s|) (h2 : |s| ≤ 2 ^ 500)
    {weight : List ℚ} {nb : List (Nat × Num)} (hi : ∀ p ∈ nb, p.1 < weight.length) (hne : nb ≠ []) (hl : nb.length ≤ 2 ^ 40)
    (hd : ∀ p ∈ nb, ∃ q : ℚ, p.2 = .fin q ∧ 40 * |s| ≤ q) (n : Nat) (r : Num) :
    (localDensity sum (some (gaussian exp (.fin s))) (weight.map .fin) n r (nb.map Prod.snd) (nb.map Prod.fst)).h = .nan ∧
    (knnDensity sum (some (gaussian exp (.fin s))) (weight.map .fin) n none (nb.map Prod.snd) (nb.map Prod.fst)).h = .nan := by
  have eg : gather (weight.map .fin) (nb.map Prod.fst) = nb.map fun p => Num.fin (wOf weight p.1) := by
    rw [gather_weight (by
      intro i h
      obtain ⟨p, hp, rfl⟩ := List.mem_map.mp h
      exact hi p hp), List.map_map, List.map_map]
    rfl
  have ek : (nb.map Prod.snd).map (gaussian exp (.fin s)) = nb.map fun _ => Num.fin 0 := by
    rw [List.map_map]
    refine List.map_congr_left fun p hp => ?_
    obtain ⟨q, e, hq⟩ := hd p hp
    show gaussian exp (.fin s) p.2 = _
    rw [e]
    exact (C159_gaussian exp he h1 h2).2.2.1 _ (decide_eq_true hq)
  have l0 : 0 < nb.length := List.length_pos_iff.mpr hne
  have sz : sum (nb.map fun _ => Num.fin 0) = .fin 0 := by
    have := sum_zeros sum hs (nb.map fun _ => 0) (by
      intro x hx
      obtain ⟨_, _, rfl⟩ := List.mem_map.mp hx
      rfl)
    rwa [List.map_map] at this
  have fi : Num.div (ofQ (nb.length : ℚ)) (.fin 0) = .inf false := by
    rw [nat_double (le_trans hl (by norm_num))]
    have c : (0 : ℚ) < nb.length := by exact_mod_cast l0
    show (if (0 : ℚ) = 0 then (if (nb.length : ℚ) = 0 then Num.nan else Num.inf (decide ((nb.length : ℚ) < 0))) else ofQ (nb.length / 0)) = _
    rw [if_pos rfl, if_neg c.ne', decide_eq_false (by linarith)]
  have zi : Num.mul (.fin 0) (.inf false) = .nan := by decide +kernel
  have mn : ∀ x : Num, Num.mul x .nan = .nan := by intro x; cases x <;> rfl
  have nm : ∀ x : Num, Num.mul .nan x = .nan := by intro x; cases x <;> rfl
  have nd : ∀ x : Num, Num.div .nan x = .nan := by intro x; cases x <;> rfl
  obtain ⟨p, nb', rfl⟩ := List.exists_cons_of_ne_nil hne
  constructor
  · show Num.div (sum (localWeights sum (some (gaussian exp (.fin s))) (gather (weight.map .fin) ((p :: nb').map Prod.fst)) ((p :: nb').map Prod.snd))) _ = _
    unfold localWeights
    simp only
    rw [ek, List.length_map, if_pos l0, sz, fi, eg, List.map_map, mulL_map]
    rw [sum_nan sum hs _ (by
      rw [List.map_cons]
      refine List.mem_cons.mpr (.inl ?_)
      show _ = Num.mul (.fin (wOf weight p.1)) (Num.mul (.fin 0) (.inf false))
      rw [zi, mn]), nd]
  · show Num.div (sum (mulL (knnWeights sum (some (gaussian exp (.fin s))) (gather (weight.map .fin) ((p :: nb').map Prod.fst)) ((p :: nb').map Prod.snd)
      (knnMask ((p :: nb').map Prod.snd) none) ((knnMask ((p :: nb').map Prod.snd) none).filter id).length) ((knnMask ((p :: nb').map Prod.snd) none).map b2f))) _ = _
    rw [count_eq, mask_eq]
    have cl : count none (p :: nb') = (p :: nb').length := by simp [count, inReach]
    unfold knnWeights
    simp only
    have em : ((p :: nb').map fun p => inReach none p.2).map b2f = (p :: nb').map fun _ => Num.fin 1 := by
      rw [List.map_map]
      exact List.map_congr_left fun _ _ => rfl
    rw [em, ek, cl, if_neg (by simp), mulL_map]
    have ez : ((p :: nb').map fun _ => Num.mul (.fin 0) (.fin 1)) = (p :: nb').map fun _ => Num.fin 0 := by
      rw [show Num.mul (.fin 0) (.fin 1) = .fin 0 by decide +kernel]
    rw [ez, sz, fi, eg, List.map_map, mulL_map, mulL_map]
    rw [sum_nan sum hs _ (by
      rw [List.map_cons]
      refine List.mem_cons.mpr (.inl ?_)
      show _ = Num.mul (Num.mul (.fin (wOf weight p.1)) (Num.mul (.fin 0) (.inf false))) (.fin 1)
      rw [zi, mn, nm]), nd]


/-! ### Training weights -/

/-- A double that is not negative, possibly infinite. -/
def Pos (x : Num) : Prop := x = .inf false ∨ ∃ q : ℚ, x = .fin q ∧ IsF q ∧ 0 ≤ q ∧ |q| < 2 ^ 1024

theorem Pos.le {x : Num} (h : Pos x) : Num.le (.fin 0) x = true := by
  rcases h with rfl | ⟨q, rfl, -, h, -⟩
  · rfl
  · exact decide_eq_true h

theorem Pos.add {x y : Num} (hx : Pos x) (hy : Pos y) : Pos (Num.add x y) ∧ Num.le x (Num.add x y) = true ∧ Num.le y (Num.add x y) = true := by
  rcases hx with rfl | ⟨p, rfl, fp, p0, pb⟩
  · have e : Num.add (.inf false) y = .inf false := by
      rcases hy with rfl | ⟨q, rfl, -, -, -⟩ <;> rfl
    rw [e]
    refine ⟨.inl rfl, rfl, ?_⟩
    rcases hy with rfl | ⟨q, rfl, -, -, -⟩ <;> rfl
  · rcases hy with rfl | ⟨q, rfl, fq, q0, qb⟩
    · exact ⟨.inl rfl, rfl, rfl⟩
    · have e : Num.add (.fin p) (.fin q) = ofQ (p + q) := rfl
      rw [e]
      refine ⟨?_, ?_, ?_⟩
      · unfold ofQ
        split
        · rw [decide_eq_false (by linarith)]
          exact .inl rfl
        · rename_i h
          exact .inr ⟨_, rfl, isF_rnd _, rnd_nonneg (by linarith), not_le.mp h⟩
      · rw [← ofQ_self ⟨fp, pb⟩]
        exact ofQ_le (by linarith)
      · rw [← ofQ_self ⟨fq, qb⟩]
        exact ofQ_le (by linarith)

theorem eval_ge (xs : List Num) (t : Order) (h : ∀ i ∈ t.leaves, Pos (xs.getD i .nan)) :
    Pos (t.eval xs) ∧ ∀ i ∈ t.leaves, Num.le (xs.getD i .nan) (t.eval xs) = true := by
  induction t with
  | zero => exact ⟨.inr ⟨0, rfl, zero_isF, le_rfl, by rw [abs_zero]; positivity⟩, by simp [Order.leaves]⟩
  | leaf j =>
    refine ⟨h j (by simp [Order.leaves]), fun i hi => ?_⟩
    have : i = j := by simpa [Order.leaves] using hi
    subst this
    refine le_refl' ?_
    rcases h i (by simp [Order.leaves]) with e | ⟨q, e, -⟩ <;> rw [e] <;> simp
  | node l r ihl ihr =>
    obtain ⟨l1, l2⟩ := ihl (fun i hi => h i (by simp [Order.leaves, hi]))
    obtain ⟨r1, r2⟩ := ihr (fun i hi => h i (by simp [Order.leaves, hi]))
    obtain ⟨a, b, c⟩ := l1.add r1
    refine ⟨a, fun i hi => ?_⟩
    rcases List.mem_append.mp hi with hi | hi
    · exact le_trans' (l2 i hi) b
    · exact le_trans' (r2 i hi) c

/-- C160 (no training weights): every point has the weight 1/N, correctly rounded. -/
theorem C160_weights_none (sum : List Num → Num) {N : Nat} (h0 : 0 < N) (hN : N ≤ 2 ^ 53) :
    ∃ w : ℚ, fitWeight sum N none = List.replicate N (.fin w) ∧ w = rnd (1 / N) ∧ Unit01 w ∧ |w - 1 / N| ≤ 2 ^ (-53 : ℤ) * (1 / N) := by
  have n0 : (0 : ℚ) < N := by exact_mod_cast h0
  have n1 : (1 : ℚ) ≤ N := by exact_mod_cast h0
  have n53 : (N : ℚ) ≤ 2 ^ 53 := by exact_mod_cast hN
  have q0 : (0 : ℚ) < 1 / N := by positivity
  have q1 : (1 : ℚ) / N ≤ 1 := by rw [div_le_one n0]; exact n1
  refine ⟨_, ?_, rfl, ⟨isF_rnd _, rnd_nonneg q0.le, rnd_le q1 FloatLinear.one_isF⟩, ?_⟩
  · show List.replicate N (Num.div (.fin 1) (ofQ (N : ℚ))) = _
    rw [nat_double hN, FloatStandardize.div_fin n0.ne' (le1023 q0.le q1)]
  · have := rnd_err (x := 1 / (N : ℚ)) (by
      rw [abs_of_pos q0]
      refine le_trans (zpow_le_zpow_right₀ (by norm_num) (by norm_num : (-1022 : ℤ) ≤ -53)) ?_
      rw [le_div_iff₀ n0]
      calc (2 : ℚ) ^ (-53 : ℤ) * N ≤ 2 ^ (-53 : ℤ) * 2 ^ 53 := mul_le_mul_of_nonneg_left n53 (pow_pos' _).le
        _ = 1 := by norm_num)
    rwa [abs_of_pos q0] at this

/-- C160 (training weights): for N ≤ 2^40 weights from 0 to 2^480 with a total of at least 2^-500 the fitted weights are doubles between 0 and 1 (so that the
estimates above apply), zero where the given ones are, and the given ones over their total up to a relative (N + 1)·2^-51. -/
theorem C160_weights (sum : List Num → Num) (hs : IsSum sum) {xs : List ℚ} (hx : ∀ x ∈ xs, WeightOk x) (hN : xs.length ≤ 2 ^ 40) (hS : 2 ^ (-500 : ℤ) ≤ xs.sum) (N : Nat) :
    ∃ ws : List ℚ, fitWeight sum N (some (xs.map .fin)) = ws.map .fin ∧ ws.length = xs.length ∧ (∀ w ∈ ws, Unit01 w) ∧
      ∀ (i : Nat) (h : i < xs.length) (h' : i < ws.length), (xs[i] = 0 → ws[i] = 0) ∧
        |ws[i] - xs[i] / xs.sum| ≤ (xs.length + 1) * 2 ^ (-51 : ℤ) * (xs[i] / xs.sum) + 2 ^ (-1075 : ℤ) := by
  have S0 : 0 < xs.sum := lt_of_lt_of_le (pow_pos' _) hS
  have aS : absSum xs = xs.sum := FloatContrast.absSum_eq fun x h => (hx x h).2.1
  have le520 : xs.sum ≤ 2 ^ 1022 := by
    have h := (sum_bounds xs 0 (2 ^ 480) (fun x h => (hx x h).2)).2
    have h2 : (xs.length : ℚ) ≤ 2 ^ 40 := by exact_mod_cast hN
    refine le_trans h (le_trans (mul_le_mul_of_nonneg_right h2 (by positivity)) ?_)
    rw [← pow_add]
    exact pow_le_pow_right₀ (by norm_num) (by norm_num)
  obtain ⟨b, e, fb, hb⟩ := FloatReduce.sum_err sum hs xs (fun x h => (hx x h).1) (le_trans hN (by norm_num)) (by rw [aS]; exact le520)
  rw [aS] at hb
  -- the computed total is at least every weight
  have ge : ∀ x ∈ xs, x ≤ b := by
    intro x h
    obtain ⟨i, hi, rfl⟩ := List.getElem_of_mem h
    obtain ⟨t, ht, et⟩ := hs (xs.map .fin)
    rw [List.length_map] at ht
    have g : ∀ j, (hj : j < xs.length) → (xs.map Num.fin).getD j .nan = .fin xs[j] := by
      intro j hj
      rw [getD_lt _ _ _ (by rw [List.length_map]; exact hj), List.getElem_map]
    have := (eval_ge (xs.map .fin) t (by
      intro j hj
      have hj' : j < xs.length := by simpa using ht.mem_iff.mp hj
      rw [g j hj']
      have ok := hx _ (List.getElem_mem hj')
      exact .inr ⟨_, rfl, ok.1, ok.2.1, ok.dbl.2⟩)).2 i (ht.mem_iff.mpr (by simpa using hi))
    rw [← et, e, g i hi] at this
    exact of_decide_eq_true this
  have l0 : (0 : ℚ) ≤ xs.length := Nat.cast_nonneg _
  have hl' : ((xs.length - 1 : ℕ) : ℚ) ≤ xs.length := by exact_mod_cast Nat.sub_le _ _
  have hb2 : |b - xs.sum| ≤ xs.length * 2 ^ (-52 : ℤ) * xs.sum := le_trans hb (mul_le_mul_of_nonneg_right (mul_le_mul_of_nonneg_right hl' (pow_pos' _).le) S0.le)
  have hn' : (xs.length : ℚ) * 2 ^ (-52 : ℤ) ≤ 1 / 4096 := by
    have h : (xs.length : ℚ) ≤ 2 ^ 40 := by exact_mod_cast hN
    calc (xs.length : ℚ) * 2 ^ (-52 : ℤ) ≤ 2 ^ 40 * 2 ^ (-52 : ℤ) := mul_le_mul_of_nonneg_right h (pow_pos' _).le
      _ = 1 / 4096 := by norm_num
  have hb3 := le_trans hb2 (mul_le_mul_of_nonneg_right hn' S0.le)
  have b0 : 0 < b := by linarith only [(abs_le.mp hb3).1, S0]
  have bS : xs.sum * 4095 ≤ b * 4096 := by linarith only [(abs_le.mp hb3).1]
  have q0 : ∀ x ∈ xs, 0 ≤ x / b := fun x h => div_nonneg (hx x h).2.1 b0.le
  have q1 : ∀ x ∈ xs, x / b ≤ 1 := fun x h => by rw [div_le_one b0]; exact ge x h
  refine ⟨xs.map fun x => rnd (x / b), ?_, List.length_map .., ?_, ?_⟩
  · show (xs.map Num.fin).map (fun x => Num.div x (sum (xs.map .fin))) = _
    rw [e, List.map_map, List.map_map]
    refine List.map_congr_left fun x h => ?_
    exact FloatStandardize.div_fin b0.ne' (le1023 (q0 x h) (q1 x h))
  · intro w hw
    obtain ⟨x, h, rfl⟩ := List.mem_map.mp hw
    exact ⟨isF_rnd _, rnd_nonneg (q0 x h), rnd_le (q1 x h) FloatLinear.one_isF⟩
  · intro i h h'
    rw [List.getElem_map]
    have hxi := List.getElem_mem h
    have x0 := (hx _ hxi).2.1
    refine ⟨fun hz => by rw [hz, zero_div, rnd_zero], ?_⟩
    have r1 := FloatMesh.rnd_err_all (xs[i] / b)
    have Q0 := q0 _ hxi
    rw [abs_of_nonneg Q0] at r1
    have F0 : 0 ≤ xs[i] / xs.sum := div_nonneg x0 S0.le
    have half : xs[i] / b ≤ 4096 / 4095 * (xs[i] / xs.sum) := by
      rw [div_le_iff₀ b0, mul_comm, ← mul_assoc, mul_div_assoc', le_div_iff₀ S0]
      have := mul_le_mul_of_nonneg_left bS x0
      linarith only [this]
    have dq : |xs[i] / b - xs[i] / xs.sum| ≤ xs.length * 2 ^ (-52 : ℤ) * (xs[i] / b) := by
      have e1 : xs[i] / b - xs[i] / xs.sum = (xs[i] / b) * ((xs.sum - b) / xs.sum) := by
        have := S0.ne'
        field_simp
      rw [e1, abs_mul, abs_of_nonneg Q0, mul_comm]
      refine mul_le_mul_of_nonneg_right ?_ Q0
      rw [abs_div, abs_of_pos S0, div_le_iff₀ S0, abs_sub_comm]
      exact hb2
    have tri : |rnd (xs[i] / b) - xs[i] / xs.sum| ≤ |rnd (xs[i] / b) - xs[i] / b| + |xs[i] / b - xs[i] / xs.sum| := by
      have := abs_add_le (rnd (xs[i] / b) - xs[i] / b) (xs[i] / b - xs[i] / xs.sum)
      rwa [sub_add_sub_cancel] at this
    have e51 : ((xs.length : ℚ) + 1) * 2 ^ (-51 : ℤ) = 2 * (xs.length * 2 ^ (-52 : ℤ)) + 4 * 2 ^ (-53 : ℤ) := by
      have : (2 : ℚ) ^ (-51 : ℤ) = 2 * 2 ^ (-52 : ℤ) := by norm_num
      rw [add_mul, one_mul, this]
      norm_num
      ring
    rw [e51]
    have u0 := pow_pos' (-53)
    have y0 : (0 : ℚ) ≤ xs.length * 2 ^ (-52 : ℤ) := mul_nonneg l0 (pow_pos' _).le
    clear hb3 bS hn' hb2 hb
    generalize (2 : ℚ) ^ (-1075 : ℤ) = t at *
    generalize (2 : ℚ) ^ (-53 : ℤ) = u at *
    generalize (xs.length : ℚ) * 2 ^ (-52 : ℤ) = y at *
    generalize rnd (xs[i] / b) = R at *
    generalize xs[i] / b = Q at *
    generalize xs[i] / xs.sum = F at *
    have k1 := mul_le_mul_of_nonneg_left half y0
    have k2 := mul_le_mul_of_nonneg_left half u0.le
    have yF := mul_nonneg y0 F0
    have uF := mul_nonneg u0.le F0
    have x1 : y * (4096 / 4095 * F) = 4096 / 4095 * (y * F) := by ring
    have x2 : u * (4096 / 4095 * F) = 4096 / 4095 * (u * F) := by ring
    have x3 : (2 * y + 4 * u) * F = 2 * (y * F) + 4 * (u * F) := by ring
    rw [x1] at k1
    rw [x2] at k2
    rw [x3]
    linarith only [tri, r1, dq, k1, k2, yF, uF]

/-- C160 (no training weight at all): weights that are all zero become NaN. -/
theorem C160_weights_zero (sum : List Num → Num) (hs : IsSum sum) {xs : List ℚ} (hz : ∀ x ∈ xs, x = 0) (N : Nat) :
    ∀ w ∈ fitWeight sum N (some (xs.map .fin)), w = .nan := by
  intro w hw
  obtain ⟨x, h, rfl⟩ := List.mem_map.mp hw
  obtain ⟨y, hy, rfl⟩ := List.mem_map.mp h
  rw [sum_zeros sum hs xs hz, hz y hy]
  decide +kernel

/-- C160 (unweighted points): N training points without weights, m of the k neighbours count: the estimate is m/N over the volume up to a relative
(k + n + 2)·2^-50. -/
theorem C160_unweighted (sum : List Num → Num) (hs : IsSum sum) {N : Nat} (h0 : 0 < N) (hN : N ≤ 2 ^ 53) {nb : List (Nat × Num)} {r : ℚ} {c n : Nat}
    (ids : ∀ p ∈ nb, p.1 < N) (len : nb.length ≤ 2 ^ 40) (rF : IsF r) (r1 : 2 ^ (-(c : ℤ)) ≤ r) (r2 : r ≤ 2 ^ c) (n1 : n ≤ 100) (n2 : n * (c + 5) ≤ 900)
    (maxDx : Option Num) (hr : knnRadius (nb.map Prod.snd) maxDx = .fin r) :
    ∃ h : ℚ, knnDensity sum none (fitWeight sum N none) n maxDx (nb.map Prod.snd) (nb.map Prod.fst) = ⟨.fin h, count maxDx nb, .fin r⟩ ∧ 0 ≤ h ∧
      |h - count maxDx nb / N / volExact r n| ≤ (nb.length + n + 2) * 2 ^ (-50 : ℤ) * (count maxDx nb / N / volExact r n) + 2 ^ (-1075 : ℤ) := by
  obtain ⟨w, ew, -, uw, aw⟩ := C160_weights_none sum h0 hN
  have e1 : List.replicate N (Num.fin w) = (List.replicate N w).map .fin := by rw [List.map_replicate]
  have S : Setting (List.replicate N w) nb r c n :=
    ⟨fun x hx => by rw [(List.mem_replicate.mp hx).2]; exact uw, fun p hp => by rw [List.length_replicate]; exact ids p hp, len, rF, r1, r2, n1, n2⟩
  obtain ⟨h, e, -, hh0, -, hh⟩ := C160_knn sum hs S maxDx hr
  obtain ⟨v, -, -, -, V0, -⟩ := vol_core rF r1 r2 n n1 (by omega)
  refine ⟨h, by rw [ew, e1]; exact e, hh0, ?_⟩
  have eW : weightOf (List.replicate N w) maxDx nb = count maxDx nb * w := by
    unfold weightOf count
    have : ∀ l : List (Nat × Num), (∀ p ∈ l, p.1 < N) →
        (l.map fun p => if inReach maxDx p.2 then wOf (List.replicate N w) p.1 else 0).sum = ((l.filter fun p => inReach maxDx p.2).length : ℚ) * w := by
      intro l
      induction l with
      | nil => simp
      | cons p l ih =>
        intro hp
        have i1 := ih fun q hq => hp q (by simp [hq])
        have i2 : wOf (List.replicate N w) p.1 = w := by
          unfold wOf
          rw [getD_lt _ _ _ (by rw [List.length_replicate]; exact hp p (by simp)), List.getElem_replicate]
        rw [List.map_cons, List.sum_cons, i1, i2]
        cases hb : inReach maxDx p.2
        · simp [hb]
        · simp [hb]
          ring
    exact this nb ids
  rw [eW] at hh
  have n0 : (0 : ℚ) < N := by exact_mod_cast h0
  have c0 : (0 : ℚ) ≤ count maxDx nb := Nat.cast_nonneg _
  have H0 : (0 : ℚ) ≤ count maxDx nb / N / volExact r n := div_nonneg (div_nonneg c0 n0.le) V0.le
  have d : |count maxDx nb * w / volExact r n - count maxDx nb / N / volExact r n| ≤ 2 ^ (-53 : ℤ) * (count maxDx nb / N / volExact r n) := by
    have e2 : count maxDx nb * w / volExact r n - count maxDx nb / N / volExact r n = count maxDx nb / volExact r n * (w - 1 / N) := by
      have := V0.ne'
      have := n0.ne'
      field_simp
    rw [e2, abs_mul, abs_of_nonneg (div_nonneg c0 V0.le)]
    refine le_trans (mul_le_mul_of_nonneg_left aw (div_nonneg c0 V0.le)) (le_of_eq ?_)
    have := V0.ne'
    have := n0.ne'
    field_simp
  have tri : |h - count maxDx nb / N / volExact r n| ≤ |h - count maxDx nb * w / volExact r n| + |count maxDx nb * w / volExact r n - count maxDx nb / N / volExact r n| := by
    have := abs_add_le (h - count maxDx nb * w / volExact r n) (count maxDx nb * w / volExact r n - count maxDx nb / N / volExact r n)
    rwa [sub_add_sub_cancel] at this
  have hc : ((nb.length : ℚ) + n + 1) * 2 ^ (-50 : ℤ) ≤ 1 / 512 := by
    have l1 : (nb.length : ℚ) ≤ 2 ^ 40 := by exact_mod_cast len
    have l2 : (n : ℚ) ≤ 100 := by exact_mod_cast n1
    calc ((nb.length : ℚ) + n + 1) * 2 ^ (-50 : ℤ) ≤ (2 ^ 40 + 100 + 1) * 2 ^ (-50 : ℤ) := mul_le_mul_of_nonneg_right (by linarith only [l1, l2]) (pow_pos' _).le
      _ ≤ 1 / 512 := by norm_num
  have hc0 : 0 ≤ ((nb.length : ℚ) + n + 1) * 2 ^ (-50 : ℤ) := mul_nonneg (by positivity) (pow_pos' _).le
  have e50 : ((nb.length : ℚ) + n + 2) * 2 ^ (-50 : ℤ) = (nb.length + n + 1) * 2 ^ (-50 : ℤ) + 8 * 2 ^ (-53 : ℤ) := by
    have : (2 : ℚ) ^ (-50 : ℤ) = 8 * 2 ^ (-53 : ℤ) := by norm_num
    rw [this]
    ring
  rw [e50]
  have u0 := pow_pos' (-53)
  generalize (2 : ℚ) ^ (-1075 : ℤ) = t at *
  generalize (2 : ℚ) ^ (-53 : ℤ) = u at *
  generalize ((nb.length : ℚ) + n + 1) * 2 ^ (-50 : ℤ) = y at *
  generalize count maxDx nb * w / volExact r n = Q at *
  generalize count maxDx nb / (N : ℚ) / volExact r n = F at *
  have uF := mul_nonneg u0.le H0
  have k1 : Q ≤ F + u * F := by linarith only [(abs_le.mp d).2]
  have k2 := mul_le_mul_of_nonneg_left k1 hc0
  have k3 := mul_le_mul_of_nonneg_right hc uF
  have x1 : y * (F + u * F) = y * F + y * (u * F) := by ring
  have x2 : (y + 8 * u) * F = y * F + 8 * (u * F) := by ring
  rw [x1] at k2
  rw [x2]
  linarith only [tri, hh, d, k2, k3, uF]


/-! ### A concrete case: four training points on a line, the three nearest at distances 1, 2 and 3, the last out of reach -/

/-- The neighbours. -/
def nbEx : List (Nat × Num) := [(0, .fin 1), (2, .fin 2), (3, .fin 3)]

theorem settingEx : Setting [1 / 4, 1 / 8, 1 / 2, 1 / 8] nbEx (5 / 2) 2 1 where
  wt := by
    intro x hx
    simp only [List.mem_cons, List.not_mem_nil, or_false] at hx
    rcases hx with rfl | rfl | rfl | rfl <;> exact ⟨by decide +kernel, by norm_num, by norm_num⟩
  ids := by decide
  len := by decide
  rF := by decide +kernel
  r1 := by norm_num
  r2 := by norm_num
  n1 := by norm_num
  n2 := by norm_num

theorem kernelEx : KernelSet (tophat (.fin (3 / 2))) (some (.fin (5 / 2))) nbEx where
  ok := by
    intro p hp
    simp only [nbEx, List.mem_cons, List.not_mem_nil, or_false] at hp
    rcases hp with rfl | rfl | rfl
    · exact ⟨1, by decide +kernel, FloatLinear.one_isF, by norm_num, le_rfl⟩
    · exact ⟨0, by decide +kernel, zero_isF, le_rfl, by norm_num⟩
    · exact ⟨0, by decide +kernel, zero_isF, le_rfl, by norm_num⟩
  big := by
    have : kernelSum (tophat (.fin (3 / 2))) (some (.fin (5 / 2))) nbEx = 1 := by decide +kernel
    rw [this]
    norm_num

/-- Two of the three neighbours count, weight 3/4 in an interval of length 5; the kernel keeps the nearest one alone and doubles it: 1/2 in an interval of length 5. -/
example : (∃ h : ℚ, knnDensity leftSum none ([1 / 4, 1 / 8, 1 / 2, 1 / 8].map .fin) 1 (some (.fin (5 / 2))) (nbEx.map Prod.snd) (nbEx.map Prod.fst) = ⟨.fin h, 2, .fin (5 / 2)⟩ ∧
      |h - 3 / 4 / 5| ≤ 5 * 2 ^ (-50 : ℤ) * (3 / 4 / 5) + 2 ^ (-1075 : ℤ)) ∧
    weightOf [1 / 4, 1 / 8, 1 / 2, 1 / 8] (some (.fin (5 / 2))) nbEx = 3 / 4 ∧
    kernelWeightOf (tophat (.fin (3 / 2))) [1 / 4, 1 / 8, 1 / 2, 1 / 8] (some (.fin (5 / 2))) nbEx = 1 / 2 := by
  refine ⟨?_, by decide +kernel, by decide +kernel⟩
  obtain ⟨h, e, -, -, -, hh⟩ := C160_knn leftSum leftSum_isSum settingEx (some (.fin (5 / 2))) (by decide +kernel)
  have c : count (some (.fin (5 / 2))) nbEx = 2 := by decide +kernel
  have w : weightOf [1 / 4, 1 / 8, 1 / 2, 1 / 8] (some (.fin (5 / 2))) nbEx = 3 / 4 := by decide +kernel
  have v : volExact (5 / 2) 1 = 5 := by decide +kernel
  rw [w, v] at hh
  rw [c] at e
  refine ⟨h, e, ?_⟩
  have l : (nbEx.length : ℚ) + ((1 : ℕ) : ℚ) + 1 = 5 := by
    simp only [nbEx, List.length_cons, List.length_nil]
    norm_num
  rw [l] at hh
  exact hh

example := C160_knn_kernel leftSum leftSum_isSum settingEx kernelEx (by decide +kernel)
example := C160_weights leftSum leftSum_isSum (xs := [1, 2, 5]) (by
  intro x hx
  simp only [List.mem_cons, List.not_mem_nil, or_false] at hx
  have b : ∀ k : ℚ, k ≤ 5 → k ≤ 2 ^ 480 := fun k h => le_trans h (le_trans (by norm_num : (5 : ℚ) ≤ 2 ^ 3) (pow_le_pow_right₀ (by norm_num) (by norm_num)))
  rcases hx with rfl | rfl | rfl <;> exact ⟨by decide +kernel, by norm_num, b _ (by norm_num)⟩) (by decide) (by
    refine le_trans (zpow_le_one_of_nonpos₀ (by norm_num) (by norm_num)) ?_
    norm_num) 3


/-- C160 (no neighbour counts, with a kernel): the estimate is exactly 0. -/
theorem C160_none (sum : List Num → Num) (hs : IsSum sum) {weight : List ℚ} {nb : List (Nat × Num)} {r : ℚ} {c n : Nat} (S : Setting weight nb r c n) {k : Num → Num}
    (hk : ∀ p ∈ nb, ∃ v : ℚ, k p.2 = .fin v ∧ Unit01 v) :
    (nb = [] → localDensity sum (some k) (weight.map .fin) n (.fin r) (nb.map Prod.snd) (nb.map Prod.fst) = ⟨.fin 0, 0, .fin 0⟩) ∧
    ∀ maxDx, knnRadius (nb.map Prod.snd) maxDx = .fin r → count maxDx nb = 0 →
      knnDensity sum (some k) (weight.map .fin) n maxDx (nb.map Prod.snd) (nb.map Prod.fst) = ⟨.fin 0, 0, .fin r⟩ := by
  obtain ⟨h, e, -, -, hz, -⟩ := S.quot sum hs (fun _ => 0) (fun _ => 0) (δ := 0) (τ := 0) le_rfl (by norm_num) le_rfl
    (fun _ _ => ⟨zero_isF, le_rfl, by positivity⟩) (fun _ _ => ⟨le_rfl, by simp⟩)
  rw [hz fun _ _ => rfl] at e
  refine ⟨?_, ?_⟩
  · rintro rfl
    show (⟨Num.div (sum []) (ballVolume (.fin r) n), 0, .fin 0⟩ : Estimate) = _
    rw [List.map_nil] at e
    rw [e]
  · intro maxDx hr hc
    unfold knnDensity
    simp only
    rw [hr, count_eq, mask_eq, show (nb.map fun p => inReach maxDx p.2).map b2f = nb.map (b2f ∘ fun p => inReach maxDx p.2) from List.map_map .., hc]
    unfold knnWeights
    simp only
    have f0 : Num.div (ofQ ((0 : Nat) : ℚ)) (ofQ (1 / 10 ^ 10)) = .fin 0 := by decide +kernel
    rw [if_pos trivial, f0, S.gather, show (nb.map Prod.snd).map k = nb.map (k ∘ Prod.snd) from List.map_map .., List.map_map, mulL_map, mulL_map]
    have z0 : ofQ 0 = .fin 0 := by decide +kernel
    have e2 : (nb.map fun i => Num.mul (Num.mul (.fin (wOf weight i.1)) (((fun x => Num.mul x (.fin 0)) ∘ k ∘ Prod.snd) i)) ((b2f ∘ fun p => inReach maxDx p.2) i)) =
        nb.map fun _ => .fin 0 := by
      refine List.map_congr_left fun p hp => ?_
      obtain ⟨v, ek, -⟩ := hk p hp
      show Num.mul (Num.mul (.fin (wOf weight p.1)) (Num.mul (k p.2) (.fin 0))) (b2f (inReach maxDx p.2)) = _
      rw [ek]
      have a : Num.mul (.fin v) (.fin 0) = .fin 0 := by
        show ofQ (v * 0) = _
        rw [mul_zero, z0]
      have b : Num.mul (.fin (wOf weight p.1)) (.fin 0) = .fin 0 := by
        show ofQ (wOf weight p.1 * 0) = _
        rw [mul_zero, z0]
      rw [a, b, mul_b2f zero_isF (by rw [abs_zero]; positivity)]
      simp
    rw [e2, e]

end Pyhipp.FloatNeighbour
