import Verif.Model.FloatContrast
import Verif.Props.FloatReduce
import Verif.Props.FloatMesh
import Verif.Props.FloatCosmology
/-
C158: the density contrast in double precision.
-/
namespace Pyhipp.FloatContrast
open Pyhipp Pyhipp.F64 Pyhipp.FloatReduce Pyhipp.FloatHist

/-- The exact mean. -/
def avg (xs : List ℚ) : ℚ := xs.sum / xs.length

theorem low_eq : low = .fin (rnd (1 / 10 ^ 10)) := by decide +kernel

theorem low_ge : (2 : ℚ) ^ (-34 : ℤ) ≤ rnd (1 / 10 ^ 10) := by decide +kernel

theorem low_close : |rnd (1 / 10 ^ 10) - 1 / 10 ^ 10| ≤ 2 ^ (-53 : ℤ) * (1 / 10 ^ 10 : ℚ) := by decide +kernel

/-- Cells the theorems are about: doubles that are not negative, up to 2^480, at least one and up to 2^40 of them. -/
structure Grid (xs : List ℚ) : Prop where
  pos : 0 < xs.length
  size : xs.length ≤ 2 ^ 40
  dbl : ∀ x ∈ xs, IsF x
  nonneg : ∀ x ∈ xs, 0 ≤ x
  le : ∀ x ∈ xs, x ≤ 2 ^ 480

theorem absSum_eq {xs : List ℚ} (h : ∀ x ∈ xs, 0 ≤ x) : absSum xs = xs.sum := by
  induction xs with
  | nil => rfl
  | cons x t ih =>
    have := ih (fun y hy => h y (by simp [hy]))
    have h0 := h x (by simp)
    simp only [absSum, List.map_cons, List.sum_cons] at *
    rw [this, abs_of_nonneg h0]

theorem Grid.sum_le {xs : List ℚ} (g : Grid xs) : xs.sum ≤ 2 ^ 520 := by
  have h := (sum_bounds xs 0 (2 ^ 480) (fun x hx => ⟨g.nonneg x hx, g.le x hx⟩)).2
  have h2 : (xs.length : ℚ) ≤ 2 ^ 40 := by exact_mod_cast g.size
  refine le_trans h (le_trans (mul_le_mul_of_nonneg_right h2 (by positivity)) ?_)
  rw [← pow_add]

theorem Grid.sum_nonneg {xs : List ℚ} (g : Grid xs) : 0 ≤ xs.sum := List.sum_nonneg g.nonneg

/-- The mean of a grid. -/
theorem mean_grid (sum : List Num → Num) (hs : IsSum sum) {xs : List ℚ} (g : Grid xs) :
    ∃ m : ℚ, mean sum (xs.map .fin) = .fin m ∧ IsF m ∧ |m - avg xs| ≤ (xs.length : ℚ) * 2 ^ (-52 : ℤ) * avg xs + 2 ^ (-1075 : ℤ) := by
  have big : (2 : ℚ) ^ 520 ≤ 2 ^ 1022 := pow_le_pow_right₀ (by norm_num) (by norm_num)
  have big' : (2 : ℚ) ^ 480 < 2 ^ 1024 := pow_lt_pow_right₀ (by norm_num) (by norm_num)
  have sz : xs.length ≤ 2 ^ 52 := le_trans g.size (by norm_num)
  have hk : kept xs none = xs := rfl
  obtain ⟨r, s, r1, r2, -, -, -, r3⟩ := mean_core sum hs .nan xs none
    (fun x hx => ⟨g.dbl x hx, by rw [abs_of_nonneg (g.nonneg x hx)]; exact lt_of_le_of_lt (g.le x hx) big'⟩)
    (fun m h => nomatch h) sz g.pos (by rw [hk, absSum_eq g.nonneg]; exact le_trans g.sum_le big)
  rw [hk, absSum_eq g.nonneg] at r3
  refine ⟨r, ?_, r2, r3⟩
  rw [← r1]
  have hc : ¬ (xs.map Num.fin).length < 1 := by rw [List.length_map]; have := g.pos; omega
  show Num.div _ _ = if (xs.map Num.fin).length < 1 then _ else Num.div _ _
  rw [if_neg hc]
  rfl

/-- C158 (refusal): a grid is refused with ValueError exactly when the computed mean is below the double nearest to 1e-10; the computed mean is the exact mean up
to a relative n·2^-52 (and 2^-1075). -/
theorem C158_refused (sum : List Num → Num) (hs : IsSum sum) {xs : List ℚ} (g : Grid xs) :
    (normalize sum (xs.map .fin) = .error .valueError ∨ ∃ ds, normalize sum (xs.map .fin) = .ok ds) ∧
    (avg xs * (1 + xs.length * 2 ^ (-52 : ℤ)) + 2 ^ (-1075 : ℤ) < 1 / 10 ^ 10 * (1 - 2 ^ (-53 : ℤ)) → normalize sum (xs.map .fin) = .error .valueError) ∧
    (1 / 10 ^ 10 * (1 + 2 ^ (-53 : ℤ)) ≤ avg xs * (1 - xs.length * 2 ^ (-52 : ℤ)) - 2 ^ (-1075 : ℤ) → ∃ ds, normalize sum (xs.map .fin) = .ok ds) := by
  obtain ⟨m, h1, -, h2⟩ := mean_grid sum hs g
  obtain ⟨a1, a2⟩ := abs_le.mp h2
  obtain ⟨b1, b2⟩ := abs_le.mp low_close
  have e : normalize sum (xs.map .fin) = if m < rnd (1 / 10 ^ 10) then .error .valueError
      else .ok ((xs.map Num.fin).map fun r => Num.sub (Num.div r (.fin m)) (.fin 1)) := by
    unfold normalize
    simp only [h1, low_eq, Num.lt, decide_eq_true_eq]
  generalize (2 : ℚ) ^ (-1075 : ℤ) = t at *
  generalize (2 : ℚ) ^ (-52 : ℤ) = u at *
  generalize (2 : ℚ) ^ (-53 : ℤ) = v at *
  generalize rnd (1 / 10 ^ 10) = w at *
  rw [e]
  refine ⟨?_, fun h => ?_, fun h => ?_⟩
  · split
    · exact .inl rfl
    · exact .inr ⟨_, rfl⟩
  · rw [if_pos (by linarith only [h, a2, b1])]
  · rw [if_neg (by linarith only [h, a1, b2])]
    exact ⟨_, rfl⟩

/-- An empty grid (no matter anywhere) is refused. -/
theorem C158_void (sum : List Num → Num) (hs : IsSum sum) {xs : List ℚ} (g : Grid xs) (h : ∀ x ∈ xs, x = 0) :
    normalize sum (xs.map .fin) = .error .valueError := by
  refine (C158_refused sum hs g).2.1 ?_
  have : xs.sum = 0 := List.sum_eq_zero h
  unfold avg
  rw [this, zero_div, zero_mul, zero_add]
  exact lt_of_le_of_lt (zpow_le_zpow_right₀ (by norm_num) (by norm_num : (-1075 : ℤ) ≤ -53)) (by norm_num)

/-- C158 (values): an accepted grid gives, cell by cell, a finite contrast that depends on the cell's density alone (the mean fixed), never below -1, exactly -1
where nothing is, at least as large where there is more, close to ρ/mean − 1; the contrasts average to zero up to (n + 2)·2^-51. -/
theorem C158_values (sum : List Num → Num) (hs : IsSum sum) {xs : List ℚ} (g : Grid xs) {ds : List Num} (hok : normalize sum (xs.map .fin) = .ok ds) :
    ∃ D : ℚ → ℚ, ds = xs.map (fun x => .fin (D x)) ∧ D 0 = -1 ∧ (∀ x y, x ≤ y → D x ≤ D y) ∧ 0 < avg xs ∧
      (∀ x ∈ xs, -1 ≤ D x ∧ |D x - (x / avg xs - 1)| ≤ (xs.length + 1) * 2 ^ (-51 : ℤ) * (x / avg xs) + 2 ^ (-52 : ℤ)) ∧
      |(xs.map D).sum / xs.length| ≤ (xs.length + 2) * 2 ^ (-51 : ℤ) := by
  obtain ⟨m, h1, fm, h2⟩ := mean_grid sum hs g
  have e : normalize sum (xs.map .fin) = if m < rnd (1 / 10 ^ 10) then .error .valueError
      else .ok ((xs.map Num.fin).map fun r => Num.sub (Num.div r (.fin m)) (.fin 1)) := by
    unfold normalize
    simp only [h1, low_eq, Num.lt, decide_eq_true_eq]
  rw [e] at hok
  split at hok
  · cases hok
  rename_i hlo
  have hm : (2 : ℚ) ^ (-34 : ℤ) ≤ m := le_trans low_ge (not_lt.mp hlo)
  have m0 : 0 < m := lt_of_lt_of_le (pow_pos' _) hm
  have nn : (0 : ℚ) ≤ avg xs := div_nonneg g.sum_nonneg (Nat.cast_nonneg _)
  have hn : (xs.length : ℚ) * 2 ^ (-52 : ℤ) ≤ 1 / 4096 := by
    have h : (xs.length : ℚ) ≤ 2 ^ 40 := by exact_mod_cast g.size
    calc (xs.length : ℚ) * 2 ^ (-52 : ℤ) ≤ 2 ^ 40 * 2 ^ (-52 : ℤ) := mul_le_mul_of_nonneg_right h (pow_pos' _).le
      _ = 1 / 4096 := by norm_num
  have n1 : (1 : ℚ) ≤ xs.length := by exact_mod_cast g.pos
  have hnl : (xs.length : ℚ) ≠ 0 := by linarith
  have hsum : xs.sum = xs.length * avg xs := by unfold avg; field_simp
  have tiny : (2 : ℚ) ^ (-1075 : ℤ) ≤ 2 ^ (-52 : ℤ) * 2 ^ (-36 : ℤ) := by
    rw [← zpow_add₀ (by norm_num)]
    exact zpow_le_zpow_right₀ (by norm_num) (by norm_num)
  have e34 : (2 : ℚ) ^ (-34 : ℤ) = 4 * 2 ^ (-36 : ℤ) := by norm_num
  have p36 := pow_pos' (-36)
  have p52 := pow_pos' (-52)
  have e53 : (2 : ℚ) ^ (-52 : ℤ) = 2 * 2 ^ (-53 : ℤ) := by norm_num
  have e51 : (2 : ℚ) ^ (-51 : ℤ) = 2 * 2 ^ (-52 : ℤ) := by norm_num
  have s52 : (2 : ℚ) ^ (-52 : ℤ) ≤ 1 / 4096 := by norm_num
  have t1 : (2 : ℚ) ^ (-1075 : ℤ) ≤ 2 ^ (-53 : ℤ) / 4 := le_trans (zpow_le_zpow_right₀ (by norm_num) (by norm_num : (-1075 : ℤ) ≤ -55)) (by norm_num)
  obtain ⟨a1, a2⟩ := abs_le.mp h2
  have s36 : (2 : ℚ) ^ (-36 : ℤ) ≤ avg xs := by
    have : (xs.length : ℚ) * 2 ^ (-52 : ℤ) * avg xs ≤ 1 / 4096 * avg xs := mul_le_mul_of_nonneg_right hn nn
    rw [e34] at hm
    have q : (2 : ℚ) ^ (-52 : ℤ) * 2 ^ (-36 : ℤ) ≤ 1 / 4096 * 2 ^ (-36 : ℤ) := mul_le_mul_of_nonneg_right s52 p36.le
    generalize (2 : ℚ) ^ (-36 : ℤ) = a at hm q tiny p36 ⊢
    generalize (2 : ℚ) ^ (-1075 : ℤ) = b at a2 tiny
    generalize (2 : ℚ) ^ (-52 : ℤ) * a = c at q tiny
    generalize (xs.length : ℚ) * 2 ^ (-52 : ℤ) * avg xs = d at this a2
    linarith only [this, hm, a2, tiny, q, p36, nn]
  have av0 : 0 < avg xs := lt_of_lt_of_le p36 s36
  have m1 : |m - avg xs| ≤ ((xs.length : ℚ) + 1) * 2 ^ (-52 : ℤ) * avg xs := by
    have q : (2 : ℚ) ^ (-52 : ℤ) * 2 ^ (-36 : ℤ) ≤ 2 ^ (-52 : ℤ) * avg xs := mul_le_mul_of_nonneg_left s36 p52.le
    refine le_trans h2 ?_
    have ee : ((xs.length : ℚ) + 1) * 2 ^ (-52 : ℤ) * avg xs = (xs.length : ℚ) * 2 ^ (-52 : ℤ) * avg xs + 2 ^ (-52 : ℤ) * avg xs := by ring
    rw [ee]
    exact add_le_add le_rfl (le_trans tiny q)
  have mlo : 8 * avg xs ≤ 9 * m := by
    have k : ((xs.length : ℚ) + 1) * 2 ^ (-52 : ℤ) * avg xs ≤ (1 / 4096 + 1 / 4096) * avg xs :=
      mul_le_mul_of_nonneg_right (by linarith only [hn, s52]) nn
    have := (abs_le.mp m1).1
    generalize ((xs.length : ℚ) + 1) * 2 ^ (-52 : ℤ) * avg xs = d at this k
    linarith only [k, this, nn, m0]
  -- one cell
  have quo : ∀ x, 0 ≤ x → |x / m - x / avg xs| ≤ (9 / 8) * (((xs.length : ℚ) + 1) * 2 ^ (-52 : ℤ)) * (x / avg xs) ∧ x / m ≤ 9 / 8 * (x / avg xs) := by
    intro x x0
    have i1 : 1 / m ≤ 9 / 8 * (1 / avg xs) := by
      rw [show (9 : ℚ) / 8 * (1 / avg xs) = 9 / (8 * avg xs) by field_simp, div_le_div_iff₀ m0 (by linarith only [av0])]
      linarith only [mlo]
    have i0 : 0 ≤ 1 / m := (one_div_pos.mpr m0).le
    have r0 : 0 ≤ x / avg xs := div_nonneg x0 nn
    constructor
    · have ee : x / m - x / avg xs = (x / avg xs) * ((avg xs - m) * (1 / m)) := by field_simp
      rw [ee, abs_mul, abs_of_nonneg r0, abs_mul, abs_of_nonneg i0, abs_sub_comm]
      have w1 : |m - avg xs| * (1 / m) ≤ ((xs.length : ℚ) + 1) * 2 ^ (-52 : ℤ) * avg xs * (9 / 8 * (1 / avg xs)) :=
        mul_le_mul m1 i1 i0 (mul_nonneg (mul_nonneg (by linarith only [n1]) p52.le) nn)
      have w2 : ((xs.length : ℚ) + 1) * 2 ^ (-52 : ℤ) * avg xs * (9 / 8 * (1 / avg xs)) = (9 / 8) * (((xs.length : ℚ) + 1) * 2 ^ (-52 : ℤ)) := by field_simp
      rw [w2] at w1
      rw [mul_comm]
      exact mul_le_mul_of_nonneg_right w1 r0
    · have := mul_le_mul_of_nonneg_left i1 x0
      have e1 : x * (1 / m) = x / m := by ring
      have e2 : x * (9 / 8 * (1 / avg xs)) = 9 / 8 * (x / avg xs) := by ring
      rwa [e1, e2] at this
  have cell : ∀ x ∈ xs, Num.sub (Num.div (.fin x) (.fin m)) (.fin 1) = .fin (rnd (rnd (x / m) - 1)) ∧
      (-1 ≤ rnd (rnd (x / m) - 1) ∧ |rnd (rnd (x / m) - 1) - (x / avg xs - 1)| ≤ (xs.length + 1) * 2 ^ (-51 : ℤ) * (x / avg xs) + 2 ^ (-52 : ℤ)) := by
    intro x hx
    have x0 := g.nonneg x hx
    have q0 : 0 ≤ x / m := div_nonneg x0 m0.le
    have qle : x / m ≤ 2 ^ 514 := by
      rw [div_le_iff₀ m0]
      have : (2 : ℚ) ^ 514 * 2 ^ (-34 : ℤ) = 2 ^ 480 := by rw [← zpow_natCast, ← zpow_natCast, ← zpow_add₀ (by norm_num)]; norm_num
      refine le_trans (le_trans (g.le x hx) this.symm.le) ?_
      exact mul_le_mul_of_nonneg_left hm (by positivity)
    have r0 : 0 ≤ rnd (x / m) := rnd_nonneg q0
    have rle : rnd (x / m) ≤ 2 ^ 514 := rnd_le qle (FloatCosmology.npow_isF 514)
    have d1 : Num.div (.fin x) (.fin m) = .fin (rnd (x / m)) :=
      FloatStandardize.div_fin m0.ne' (by rw [abs_of_nonneg q0]; exact le_trans qle (pow_le_pow_right₀ (by norm_num) (by norm_num)))
    have d2 : Num.sub (.fin (rnd (x / m))) (.fin 1) = .fin (rnd (rnd (x / m) - 1)) :=
      FloatLinear.sub_fin (by rw [abs_of_nonneg r0]; exact le_trans rle (pow_le_pow_right₀ (by norm_num) (by norm_num))) (by rw [abs_one]; exact one_le_pow₀ (by norm_num))
    refine ⟨by rw [d1, d2], le_rnd (by linarith only [r0]) FloatLinear.one_isF.neg, ?_⟩
    obtain ⟨c1, c2⟩ := quo x x0
    have c3 := FloatMesh.rnd_err_all (x / m)
    rw [abs_of_nonneg q0] at c3
    have c4 := rnd_sub_err (isF_rnd (x / m)) FloatLinear.one_isF
    have c5 : |rnd (x / m) - 1| ≤ rnd (x / m) + 1 := by rw [abs_le]; constructor <;> linarith only [r0]
    have R0 : 0 ≤ x / avg xs := div_nonneg x0 nn
    have p53 := pow_pos' (-53)
    have k1 : (2 : ℚ) ^ (-53 : ℤ) * |rnd (x / m) - 1| ≤ 2 ^ (-53 : ℤ) * (rnd (x / m) + 1) := mul_le_mul_of_nonneg_left c5 p53.le
    have k2 : (2 : ℚ) ^ (-53 : ℤ) * (x / m) ≤ 2 ^ (-53 : ℤ) * (9 / 8 * (x / avg xs)) := mul_le_mul_of_nonneg_left c2 p53.le
    have k3 : rnd (x / m) ≤ 5 / 4 * (x / avg xs) + 1 / 2 := by
      have y1 := (abs_le.mp c3).2
      have s53 : (2 : ℚ) ^ (-53 : ℤ) ≤ 1 / 16 := by norm_num
      have y2 := mul_le_mul_of_nonneg_right s53 R0
      have y3 : (2 : ℚ) ^ (-53 : ℤ) * (9 / 8 * (x / avg xs)) = 9 / 8 * (2 ^ (-53 : ℤ) * (x / avg xs)) := by ring
      rw [y3] at k2
      generalize (2 : ℚ) ^ (-53 : ℤ) * (x / avg xs) = w at k2 y2
      generalize (2 : ℚ) ^ (-53 : ℤ) * (x / m) = w' at k2 y1
      generalize (2 : ℚ) ^ (-1075 : ℤ) = t at y1 t1
      generalize (2 : ℚ) ^ (-53 : ℤ) = v at s53 t1
      linarith only [y1, y2, k2, t1, s53, c2, R0]
    have k4 : (2 : ℚ) ^ (-53 : ℤ) * rnd (x / m) ≤ 2 ^ (-53 : ℤ) * (5 / 4 * (x / avg xs) + 1 / 2) := mul_le_mul_of_nonneg_left k3 p53.le
    have k5 : (2 : ℚ) ^ (-53 : ℤ) * (x / avg xs) * 2 ≤ ((xs.length : ℚ) + 1) * (2 ^ (-53 : ℤ) * (x / avg xs)) := by
      rw [mul_comm]
      exact mul_le_mul_of_nonneg_right (by linarith only [n1]) (mul_nonneg p53.le R0)
    rw [e51, e53]
    rw [e53] at c1
    generalize (2 : ℚ) ^ (-53 : ℤ) = v at *
    generalize (2 : ℚ) ^ (-1075 : ℤ) = t at *
    generalize x / avg xs = R at *
    generalize rnd (rnd (x / m) - 1) = d at *
    generalize rnd (x / m) = q at *
    generalize x / m = p at *
    generalize (xs.length : ℚ) = n at *
    have T : |d - (R - 1)| ≤ |d - (q - 1)| + |q - p| + |p - R| := by
      have o1 := abs_add_le (d - (q - 1)) ((q - p) + (p - R))
      have o2 := abs_add_le (q - p) (p - R)
      have ee : d - (q - 1) + ((q - p) + (p - R)) = d - (R - 1) := by ring
      rw [ee] at o1
      linarith only [o1, o2]
    have A : 9 / 8 * ((n + 1) * (2 * v)) * R = 9 / 4 * ((n + 1) * (v * R)) := by ring
    have B : (n + 1) * (2 * (2 * v)) * R = 4 * ((n + 1) * (v * R)) := by ring
    have C : v * (9 / 8 * R) = 9 / 8 * (v * R) := by ring
    have E : v * (5 / 4 * R + 1 / 2) = 5 / 4 * (v * R) + v / 2 := by ring
    rw [A] at c1
    rw [B]
    rw [C] at k2
    rw [E] at k4
    have F : 0 ≤ v * R := mul_nonneg p53.le R0
    linarith only [T, c1, c3, c4, k1, k2, k4, k5, t1, F, p53]
  injection hok with hok
  refine ⟨fun x => rnd (rnd (x / m) - 1), ?_, ?_, ?_, av0, fun x hx => (cell x hx).2, ?_⟩
  · rw [← hok, List.map_map]
    exact List.map_congr_left fun x hx => (cell x hx).1
  · show rnd (rnd (0 / m) - 1) = -1
    rw [zero_div, rnd_zero, zero_sub]
    exact FloatLinear.one_isF.neg
  · intro x y hxy
    exact rnd_mono (sub_le_sub_right (rnd_mono (div_le_div_of_nonneg_right hxy m0.le)) 1)
  · obtain ⟨D, hD⟩ : ∃ D : ℚ → ℚ, D = fun x => rnd (rnd (x / m) - 1) := ⟨_, rfl⟩
    rw [← hD]
    have tot : ∀ l : List ℚ, (∀ x ∈ l, |D x - (x / avg xs - 1)| ≤ (xs.length + 1) * 2 ^ (-51 : ℤ) * (x / avg xs) + 2 ^ (-52 : ℤ)) →
        |(l.map D).sum - (l.sum / avg xs - l.length)| ≤ (xs.length + 1) * 2 ^ (-51 : ℤ) * (l.sum / avg xs) + l.length * 2 ^ (-52 : ℤ) := by
      intro l
      induction l with
      | nil => intro _; simp
      | cons x t ih =>
        intro h
        have i1 := ih (fun y hy => h y (by simp [hy]))
        have i2 := h x (by simp)
        simp only [List.map_cons, List.sum_cons, List.length_cons]
        push_cast
        have ee : D x + (t.map D).sum - ((x + t.sum) / avg xs - (t.length + 1)) =
            (D x - (x / avg xs - 1)) + ((t.map D).sum - (t.sum / avg xs - t.length)) := by ring
        rw [ee]
        refine le_trans (abs_add_le _ _) (le_trans (add_le_add i2 i1) (le_of_eq ?_))
        ring
    have T := tot xs (fun x hx => by rw [hD]; exact (cell x hx).2.2)
    have e1 : xs.sum / avg xs = xs.length := by rw [hsum]; field_simp
    rw [e1, sub_self, sub_zero] at T
    have n0 : (0 : ℚ) < xs.length := by linarith only [n1]
    rw [abs_div, abs_of_pos n0, div_le_iff₀ n0]
    refine le_trans T ?_
    rw [e51]
    have : 0 ≤ (xs.length : ℚ) * 2 ^ (-52 : ℤ) := mul_nonneg n0.le p52.le
    generalize (2 : ℚ) ^ (-52 : ℤ) = u at *
    generalize (xs.length : ℚ) = n at *
    have : (n + 2) * (2 * u) * n = (n + 1) * (2 * u) * n + 2 * (n * u) := by ring
    linarith

/-! ### Special values -/

/-- C158 (NaN): one NaN cell makes every contrast NaN; nothing is refused. -/
theorem C158_nan (sum : List Num → Num) (hs : IsSum sum) (rho : List Num) (h : .nan ∈ rho) :
    normalize sum rho = .ok (List.replicate rho.length .nan) := by
  have hm : mean sum rho = .nan := by
    unfold mean
    rw [sum_nan sum hs rho h]
    exact div_nan_left _
  have hd : ∀ x : Num, Num.div x .nan = .nan := fun x => by cases x <;> rfl
  unfold normalize
  simp only [hm, hd, Num.lt]
  rw [if_neg (by simp)]
  refine congrArg Except.ok ?_
  rw [List.map_const']
  rfl

/-- Not negative: a number from zero up, or +∞. -/
def NonNeg : Num → Prop
  | .fin q => 0 ≤ q
  | .inf b => b = false
  | .nan => False

theorem nonneg_add {a b : Num} (ha : NonNeg a) (hb : NonNeg b) : NonNeg (Num.add a b) ∧ (a = .inf false ∨ b = .inf false → Num.add a b = .inf false) := by
  cases a with
  | nan => exact ha.elim
  | inf s =>
    cases s with
    | true => cases ha
    | false =>
      cases b with
      | nan => exact hb.elim
      | inf s =>
        cases s with
        | true => cases hb
        | false => exact ⟨rfl, fun _ => rfl⟩
      | fin y => exact ⟨rfl, fun _ => rfl⟩
  | fin x =>
    cases b with
    | nan => exact hb.elim
    | inf s =>
      cases s with
      | true => cases hb
      | false => exact ⟨rfl, fun _ => rfl⟩
    | fin y =>
      have hx : 0 ≤ x := ha
      have hy : 0 ≤ y := hb
      refine ⟨?_, fun h => by rcases h with h | h <;> cases h⟩
      show NonNeg (ofQ (x + y))
      unfold ofQ
      split
      · show decide (x + y < 0) = false
        exact decide_eq_false (by linarith)
      · exact rnd_nonneg (by linarith)

theorem eval_inf (xs : List Num) (t : Order) (hx : ∀ i ∈ t.leaves, NonNeg (xs.getD i .nan)) :
    NonNeg (t.eval xs) ∧ ((∃ i ∈ t.leaves, xs.getD i .nan = .inf false) → t.eval xs = .inf false) := by
  induction t with
  | zero => exact ⟨le_refl (0 : ℚ), fun ⟨i, h, _⟩ => by simp [Order.leaves] at h⟩
  | leaf j =>
    refine ⟨hx j (by simp [Order.leaves]), fun ⟨i, h, h2⟩ => ?_⟩
    simp only [Order.leaves, List.mem_singleton] at h
    subst h
    exact h2
  | node l r ihl ihr =>
    obtain ⟨l1, l2⟩ := ihl (fun i hi => hx i (by simp [Order.leaves, hi]))
    obtain ⟨r1, r2⟩ := ihr (fun i hi => hx i (by simp [Order.leaves, hi]))
    obtain ⟨a1, a2⟩ := nonneg_add l1 r1
    refine ⟨a1, fun ⟨i, h, h2⟩ => ?_⟩
    simp only [Order.leaves, List.mem_append] at h
    rcases h with h | h
    · exact a2 (.inl (l2 ⟨i, h, h2⟩))
    · exact a2 (.inr (r2 ⟨i, h, h2⟩))

/-- C158 (infinite cells): an infinite density is not refused; every finite cell gets the contrast of an empty one and every infinite cell gets NaN. -/
theorem C158_inf (sum : List Num → Num) (hs : IsSum sum) (rho : List Num) (hn : rho.length ≤ 2 ^ 53) (h0 : ∀ x ∈ rho, x = .inf false ∨ ∃ q : ℚ, x = .fin q ∧ 0 ≤ q)
    (h : .inf false ∈ rho) :
    normalize sum rho = .ok (rho.map fun x => if x = .inf false then .nan else .fin (-1)) := by
  have hsum : sum rho = .inf false := by
    obtain ⟨t, ht, e⟩ := hs rho
    rw [e]
    refine (eval_inf rho t fun i hi => ?_).2 ?_
    · have hi' : i < rho.length := by simpa using ht.mem_iff.mp hi
      rw [getD_lt _ _ _ hi']
      rcases h0 _ (List.getElem_mem hi') with h | ⟨q, h, hq⟩
      · rw [h]; exact rfl
      · rw [h]; exact hq
    · obtain ⟨i, hi, h2⟩ := List.getElem_of_mem h
      exact ⟨i, ht.mem_iff.mpr (by simpa using hi), by rw [getD_lt _ _ _ hi, h2]⟩
  have hm : mean sum rho = .inf false := by
    unfold mean
    rw [hsum, nat_double hn]
    show Num.inf (false != decide ((rho.length : ℚ) < 0)) = _
    rw [decide_eq_false (by have : (0 : ℚ) ≤ rho.length := Nat.cast_nonneg _
                            linarith)]
    rfl
  unfold normalize
  simp only [hm, low_eq, Num.lt]
  rw [if_neg (by simp)]
  refine congrArg Except.ok (List.map_congr_left fun x hx => ?_)
  rcases h0 x hx with rfl | ⟨q, rfl, -⟩
  · rfl
  · show Num.sub (.fin 0) (.fin 1) = _
    rw [if_neg (by simp)]
    decide +kernel

/-! ### Particle counts -/

/-- C158 (counts): for particle counts that add up to at most 2^53 the mean is the double nearest to the exact mean, and a uniform grid has contrast exactly 0. -/
theorem C158_counts (sum : List Num → Num) (hs : IsSum sum) (zs : List ℤ) (hz : ∀ z ∈ zs, 0 ≤ z) (hne : zs ≠ []) (hn : zs.length ≤ 2 ^ 53) (hb : zs.sum ≤ 2 ^ 53) :
    mean sum (zs.map fun z : ℤ => Num.fin (z : ℚ)) = .fin (rnd ((zs.sum : ℚ) / zs.length)) ∧
    ∀ c : ℤ, 0 < c → (∀ z ∈ zs, z = c) → normalize sum (zs.map fun z : ℤ => Num.fin (z : ℚ)) = .ok (zs.map fun _ => .fin 0) := by
  have habs : (zs.map fun z => |z|).sum = zs.sum := by
    refine congrArg List.sum ?_
    conv_rhs => rw [← List.map_id zs]
    exact List.map_congr_left fun z h => abs_of_nonneg (hz z h)
  have le_sum : ∀ l : List ℤ, (∀ z ∈ l, 0 ≤ z) → ∀ z ∈ l, z ≤ l.sum := by
    intro l
    induction l with
    | nil => intro _ z h; cases h
    | cons x t ih =>
      intro h z hz'
      have i0 := List.sum_nonneg (fun y hy => h y (List.mem_cons_of_mem x hy) : ∀ y ∈ t, 0 ≤ y)
      rw [List.sum_cons]
      rcases List.mem_cons.mp hz' with rfl | h2
      · linarith
      · have := ih (fun y hy => h y (by simp [hy])) z h2
        have := h x (by simp)
        linarith
  have hS := C132_integers sum hs zs none
    (fun z h => by rw [abs_of_nonneg (hz z h)]; exact le_trans (le_sum zs hz z h) hb)
    (fun m h => nomatch h) (show ((zs.map fun z => |z|).sum) ≤ 2 ^ 53 by rw [habs]; exact hb)
  have hS' : sum (zs.map fun z : ℤ => Num.fin (z : ℚ)) = .fin (zs.sum : ℤ) := by
    rw [call_ok _ _ _ _ (fun w h => by cases h) (fun m h => by cases h)] at hS
    injection hS
  have l0 : 0 < zs.length := List.length_pos_iff.mpr hne
  have l1 : (1 : ℚ) ≤ zs.length := by exact_mod_cast l0
  have S0 : (0 : ℚ) ≤ (zs.sum : ℤ) := by exact_mod_cast List.sum_nonneg hz
  have q0 : (0 : ℚ) ≤ (zs.sum : ℤ) / zs.length := div_nonneg S0 (by linarith)
  have hm : mean sum (zs.map fun z : ℤ => Num.fin (z : ℚ)) = .fin (rnd ((zs.sum : ℚ) / zs.length)) := by
    unfold mean
    rw [hS', List.length_map, nat_double hn]
    refine FloatStandardize.div_fin (by linarith) ?_
    rw [abs_of_nonneg q0]
    have h1 : ((zs.sum : ℤ) : ℚ) / zs.length ≤ (zs.sum : ℤ) := div_le_self S0 l1
    have h2 : ((zs.sum : ℤ) : ℚ) ≤ 2 ^ 53 := by exact_mod_cast hb
    exact le_trans (le_trans h1 h2) (pow_le_pow_right₀ (by norm_num) (by norm_num))
  refine ⟨hm, fun c c0 hc => ?_⟩
  have hsum : zs.sum = zs.length * c := by
    have : zs = List.replicate zs.length c := List.eq_replicate_of_mem hc
    conv_lhs => rw [this]
    simp
  have e1 : ((zs.sum : ℤ) : ℚ) / zs.length = c := by
    rw [hsum]; push_cast; field_simp
  have hcF : |c| ≤ 2 ^ 53 := by
    obtain ⟨z, t, rfl⟩ := List.exists_cons_of_ne_nil hne
    have := hc z (by simp)
    rw [abs_of_pos c0, ← this]
    exact le_trans (le_sum _ hz z (by simp)) hb
  have fc : IsF (c : ℚ) := isF_int hcF
  have c1 : (1 : ℚ) ≤ c := by exact_mod_cast c0
  rw [e1, show rnd (c : ℚ) = c from fc] at hm
  unfold normalize
  simp only [hm, low_eq, Num.lt]
  rw [if_neg]
  · rw [List.map_map]
    refine congrArg Except.ok (List.map_congr_left fun z h => ?_)
    have := hc z h
    subst this
    show Num.sub (Num.div (.fin (z : ℚ)) (.fin (z : ℚ))) (.fin 1) = _
    rw [FloatStandardize.div_fin (by linarith) (by rw [div_self (by linarith)]; exact FloatCosmology.le1023 zero_le_one le_rfl), div_self (by linarith)]
    decide +kernel
  · have : rnd (1 / 10 ^ 10) < 1 := by decide +kernel
    simp only [decide_eq_true_eq, not_lt]
    linarith

/-- C158 (uniform grids): with other values a uniform grid need not have contrast 0: eight cells of density 0.1, added from left to right, give 2^-52. -/
theorem C158_uniform : normalize leftSum (List.replicate 8 (.fin (rnd (1 / 10)))) = .ok (List.replicate 8 (.fin (2 ^ (-52 : ℤ)))) := by
  decide +kernel

/-! ### Cases -/

/-- Two cells, one empty. -/
theorem grid_two : Grid [0, 3] where
  pos := by decide
  size := by decide
  dbl := by decide +kernel
  nonneg := by decide +kernel
  le := by
    intro x hx
    simp at hx
    rcases hx with rfl | rfl
    · positivity
    · exact le_trans (by norm_num : (3 : ℚ) ≤ 2 ^ 2) (pow_le_pow_right₀ (by norm_num) (by norm_num))

example : normalize leftSum ([0, 3].map .fin) = .ok [.fin (-1), .fin 1] := by decide +kernel

/-- `C158_values` applies to it. -/
example : ∃ D : ℚ → ℚ, [Num.fin (-1), .fin 1] = [0, 3].map (fun x => .fin (D x)) ∧ D 0 = -1 :=
  (C158_values leftSum leftSum_isSum grid_two (by decide +kernel)).imp fun _ h => ⟨h.1, h.2.1⟩

/-- A thin grid is refused. -/
example : normalize leftSum [.fin 0, .fin (rnd (1 / 10 ^ 11))] = .error .valueError := by decide +kernel

end Pyhipp.FloatContrast
