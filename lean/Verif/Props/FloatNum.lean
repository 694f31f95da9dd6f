import Verif.Model.FloatNum
import Verif.Props.FloatReduce
/-
C141: safe division and normalisation of vectors in double precision.
-/
namespace Pyhipp.FloatNum
open Pyhipp Pyhipp.F64 Pyhipp.FloatReduce
open Pyhipp.FloatHist (absSum)

/-! ### Specification -/

/-- What is used of the machine's square root: it is a double that is not negative, and its square is the argument up to a relative 2^-50. -/
def IsSqrt (sq : ℚ → ℚ) : Prop := ∀ q, IsF q → 0 ≤ q → IsF (sq q) ∧ 0 ≤ sq q ∧ |sq q ^ 2 - q| ≤ 2 ^ (-50 : ℤ) * q

/-- The exact sum of squares. -/
def sumSq (v : List ℚ) : ℚ := (v.map fun x => x ^ 2).sum

/-! ### The norm -/

theorem sumSq_nonneg (v : List ℚ) : 0 ≤ sumSq v := List.sum_nonneg (by
  intro y hy
  obtain ⟨x, -, rfl⟩ := List.mem_map.mp hy
  exact sq_nonneg x)

theorem mem_le_sumSq {v : List ℚ} {x : ℚ} (h : x ∈ v) : x ^ 2 ≤ sumSq v := by
  induction v with
  | nil => simp at h
  | cons a t ih =>
    have e : sumSq (a :: t) = a ^ 2 + sumSq t := by simp [sumSq]
    rw [e]
    rcases List.mem_cons.mp h with rfl | h
    · linarith [sumSq_nonneg t]
    · linarith [ih h, sq_nonneg a]

/-- From the errors of the squares, of the sum and of the root to the error of the squared norm. -/
theorem norm_alg {S Q s n2 k z : ℚ} (hS : 0 ≤ S) (hk : 0 ≤ k) (hz : 0 ≤ z) (hk1 : k * 2 ^ (-52 : ℤ) ≤ 1 / 16)
    (h1 : |Q - S| ≤ 2 ^ (-53 : ℤ) * S + z) (h2 : |s - Q| ≤ k * 2 ^ (-52 : ℤ) * Q) (h3 : |n2 - s| ≤ 2 ^ (-50 : ℤ) * s) :
    |n2 - S| ≤ (k + 6) * 2 ^ (-52 : ℤ) * S + 2 * z := by
  have e53 : (2 : ℚ) ^ (-53 : ℤ) = 2 ^ (-52 : ℤ) / 2 := by norm_num
  have e50 : (2 : ℚ) ^ (-50 : ℤ) = 4 * 2 ^ (-52 : ℤ) := by norm_num
  have hu : (2 : ℚ) ^ (-52 : ℤ) ≤ 1 / 64 := by norm_num
  have hu0 : (0 : ℚ) < 2 ^ (-52 : ℤ) := pow_pos' _
  rw [e53] at h1
  rw [e50] at h3
  generalize (2 : ℚ) ^ (-52 : ℤ) = u at *
  clear e53 e50
  generalize hw : k * u = w at *
  have hw0 : 0 ≤ w := by rw [← hw]; exact mul_nonneg hk hu0.le
  have q1 : Q ≤ S + (u / 2 * S + z) := by linarith [(abs_le.mp h1).2]
  have wq : w * Q ≤ w * (S + (u / 2 * S + z)) := mul_le_mul_of_nonneg_left q1 hw0
  have s1 : s ≤ Q + w * Q := by linarith [(abs_le.mp h2).2]
  have us : u * s ≤ u * (Q + w * Q) := mul_le_mul_of_nonneg_left s1 hu0.le
  have t1 := abs_add_le (n2 - s) (s - Q)
  have t2 := abs_add_le (n2 - s + (s - Q)) (Q - S)
  rw [show n2 - s + (s - Q) + (Q - S) = n2 - S by ring] at t2
  have uS := mul_nonneg hu0.le hS
  have a1 : w * (u * S) ≤ 1 / 16 * (u * S) := mul_le_mul_of_nonneg_right hk1 uS
  have a2 : w * z ≤ 1 / 16 * z := mul_le_mul_of_nonneg_right hk1 hz
  have a3 : u * (u * S) ≤ 1 / 64 * (u * S) := mul_le_mul_of_nonneg_right hu uS
  have a4 : u * z ≤ 1 / 64 * z := mul_le_mul_of_nonneg_right hu hz
  have a5 : u * (w * (u * S)) ≤ 1 / 64 * (w * (u * S)) := mul_le_mul_of_nonneg_right hu (mul_nonneg hw0 uS)
  have a6 : u * (w * z) ≤ 1 / 64 * (w * z) := mul_le_mul_of_nonneg_right hu (mul_nonneg hw0 hz)
  have us2 : u * (w * Q) ≤ u * (w * (S + (u / 2 * S + z))) := mul_le_mul_of_nonneg_left wq hu0.le
  have us3 : u * Q ≤ u * (S + (u / 2 * S + z)) := mul_le_mul_of_nonneg_left q1 hu0.le
  have a7 : u * (w * S) = w * (u * S) := by ring
  have e : (k + 6) * u * S = w * S + 6 * (u * S) := by rw [← hw]; ring
  rw [e]
  nlinarith

theorem norm_spec (sum : List Num → Num) (hs : IsSum sum) (sq : ℚ → ℚ) (hq : IsSqrt sq) {v : List ℚ} (hF : ∀ x ∈ v, IsF x) (hb : ∀ x ∈ v, |x| ≤ 2 ^ 480) (hn : v.length ≤ 2 ^ 40) :
    ∃ n : ℚ, norm sum sq (v.map .fin) = .fin n ∧ IsF n ∧ 0 ≤ n ∧ |n ^ 2 - sumSq v| ≤ (v.length + 6) * 2 ^ (-52 : ℤ) * sumSq v + 2 * (v.length * 2 ^ (-1075 : ℤ)) := by
  have p480 : ∀ x ∈ v, |x * x| ≤ 2 ^ 960 := by
    intro x hx
    rw [abs_mul, show 960 = 480 + 480 from rfl, pow_add]
    exact mul_le_mul (hb x hx) (hb x hx) (abs_nonneg _) (by positivity)
  have f960 : IsF ((2 : ℚ) ^ 960) := by
    have := isF_pow (e := 960) (by norm_num)
    exact_mod_cast this
  generalize hds : v.map (fun x => rnd (x * x)) = ds
  have e1 : mulL (v.map .fin) (v.map .fin) = ds.map .fin := by
    rw [mulL_fin, List.zipWith_self, ← hds]
    · rw [List.map_map, List.map_map, List.map_map]; rfl
    · rw [List.zipWith_self]
      intro p hp
      obtain ⟨x, hx, rfl⟩ := List.mem_map.mp hp
      exact le_trans (p480 x hx) (pow_le_pow_right₀ (by norm_num) (by norm_num))
  have dsb : ∀ y ∈ ds, IsF y ∧ 0 ≤ y ∧ |y| ≤ 2 ^ 960 := by
    intro y hy
    rw [← hds] at hy
    obtain ⟨x, hx, rfl⟩ := List.mem_map.mp hy
    refine ⟨isF_rnd _, rnd_nonneg (mul_self_nonneg _), ?_⟩
    rw [rnd_abs]; exact rnd_le (p480 x hx) f960
  have lds : ds.length = v.length := by rw [← hds, List.length_map]
  have hq40 : (v.length : ℚ) ≤ 2 ^ 40 := by exact_mod_cast hn
  have ab : absSum ds = ds.sum := absSum_of_nonneg _ (fun y hy => (dsb y hy).2.1)
  have a3 : absSum ds ≤ 2 ^ 1022 := by
    have h1 := absSum_bound ds (2 ^ 960) (fun y hy => (dsb y hy).2.2)
    rw [lds] at h1
    refine le_trans h1 (le_trans (mul_le_mul_of_nonneg_right hq40 (by positivity)) ?_)
    rw [← pow_add]
    exact pow_le_pow_right₀ (by norm_num) (by norm_num)
  obtain ⟨s, es, fs, bs⟩ := sum_err sum hs ds (fun y hy => (dsb y hy).1) (by rw [lds]; exact le_trans hn (by norm_num)) a3
  have ds0 : 0 ≤ ds.sum := List.sum_nonneg (fun y hy => (dsb y hy).2.1)
  have hk : ((ds.length - 1 : ℕ) : ℚ) ≤ v.length := by rw [lds]; exact_mod_cast Nat.sub_le _ _
  have bs' : |s - ds.sum| ≤ v.length * 2 ^ (-52 : ℤ) * ds.sum := by
    rw [ab] at bs
    exact le_trans bs (mul_le_mul_of_nonneg_right (mul_le_mul_of_nonneg_right hk (pow_pos' _).le) ds0)
  have hk1 : (v.length : ℚ) * 2 ^ (-52 : ℤ) ≤ 1 / 16 := by
    refine le_trans (mul_le_mul_of_nonneg_right hq40 (pow_pos' _).le) ?_
    norm_num
  have s0 : 0 ≤ s := by
    have := mul_le_mul_of_nonneg_right hk1 ds0
    have h2 := (abs_le.mp bs').1
    clear hb p480 f960 dsb a3 bs hk1 bs'
    generalize (v.length : ℚ) * 2 ^ (-52 : ℤ) * ds.sum = X at *
    linarith
  obtain ⟨fr, r0, rr⟩ := hq s fs s0
  refine ⟨sq s, ?_, fr, r0, ?_⟩
  · unfold norm
    rw [e1, es]
    simp only [npSqrt, if_neg (not_lt.mpr s0)]
  · have l1 := list_err v (fun x => rnd (x * x)) (fun x => x ^ 2) (2 ^ (-53 : ℤ)) (2 ^ (-1075 : ℤ)) (fun x _ => by
      have := FloatMesh.rnd_err_all (x * x)
      rw [abs_of_nonneg (mul_self_nonneg x)] at this
      rw [pow_two]
      exact this)
    rw [hds] at l1
    exact norm_alg (sumSq_nonneg v) (Nat.cast_nonneg _) (mul_nonneg (Nat.cast_nonneg _) (pow_pos' _).le) hk1 l1 bs' rr


/-! ### Normalisation -/

theorem clip_alg {S n2 L d : ℚ} (hS : 0 < S) (hL : 0 < L) (d0 : 0 ≤ d) (d1 : d ≤ 1 / 16) (h : |n2 - S| ≤ d * S) :
    (L * (1 + 2 * d) ≤ S → L ≤ n2 ∧ |S / n2 - 1| ≤ 2 * d) ∧ (S ≤ L * (1 - 2 * d) → n2 ≤ L) ∧ S ≤ n2 * (1 + 2 * d) := by
  obtain ⟨h1, h2⟩ := abs_le.mp h
  have dS := mul_nonneg d0 hS.le
  have lo : S * (1 - d) ≤ n2 := by linarith
  have n0 : 0 < n2 := by nlinarith
  refine ⟨fun hl => ⟨?_, ?_⟩, fun hl => ?_, ?_⟩
  · have : L * (1 + 2 * d) * (1 - d) ≤ S * (1 - d) := mul_le_mul_of_nonneg_right hl (by linarith)
    have : L ≤ L * (1 + 2 * d) * (1 - d) := by
      have : 0 ≤ L * (d * (1 - 2 * d)) := mul_nonneg hL.le (mul_nonneg d0 (by linarith))
      nlinarith
    linarith
  · have e : S / n2 - 1 = (S - n2) / n2 := by field_simp
    rw [e, abs_div, abs_of_pos n0, div_le_iff₀ n0, abs_sub_comm]
    refine le_trans h ?_
    have : d * S ≤ d * (2 * n2) := mul_le_mul_of_nonneg_left (by nlinarith) d0
    linarith
  · have : S * (1 + d) ≤ L * (1 - 2 * d) * (1 + d) := mul_le_mul_of_nonneg_right hl (by linarith)
    have : L * (1 - 2 * d) * (1 + d) ≤ L := by
      have : 0 ≤ L * (d * (1 + 2 * d)) := mul_nonneg hL.le (mul_nonneg d0 (by linarith))
      nlinarith
    linarith
  · have : S * (1 - d) * (1 + 2 * d) ≤ n2 * (1 + 2 * d) := mul_le_mul_of_nonneg_right lo (by linarith)
    have : S ≤ S * (1 - d) * (1 + 2 * d) := by
      have : 0 ≤ S * (d * (1 - 2 * d)) := mul_nonneg hS.le (mul_nonneg d0 (by linarith))
      nlinarith
    linarith

/-- The relative error of the normalisation of a vector of `k` components: (k + 8)·2^-51. -/
def normErr (k : Nat) : ℚ := (k + 8) * 2 ^ (-51 : ℤ)

theorem clip_gen {S n lo k t : ℚ} (S0 : 0 ≤ S) (k0 : 0 ≤ k) (k40 : k ≤ 2 ^ 41) (t0 : 0 ≤ t) (t1 : t ≤ 2 ^ (-360 : ℤ)) (n0 : 0 ≤ n) (hlo : 2 ^ (-100 : ℤ) ≤ lo)
    (h : |n ^ 2 - S| ≤ (k + 6) * 2 ^ (-52 : ℤ) * S + 2 * t) :
    (lo ^ 2 * (1 + (k + 8) * 2 ^ (-51 : ℤ)) ≤ S → lo ≤ n ∧ |S / n ^ 2 - 1| ≤ (k + 8) * 2 ^ (-51 : ℤ)) ∧ (S ≤ lo ^ 2 * (1 - (k + 8) * 2 ^ (-51 : ℤ)) → n ≤ lo) ∧
      S ≤ max n lo ^ 2 * (1 + (k + 8) * 2 ^ (-51 : ℤ)) := by
  have lo0 : 0 < lo := lt_of_lt_of_le (pow_pos' _) hlo
  have L2 : (2 : ℚ) ^ (-200 : ℤ) ≤ lo ^ 2 := by
    have := pow_le_pow_left₀ (pow_pos' (-100)).le hlo 2
    refine le_trans (le_of_eq ?_) this
    norm_num
  have D0 : 0 ≤ (k + 8) * 2 ^ (-51 : ℤ) := mul_nonneg (by linarith) (pow_pos' _).le
  have eD : (k + 8) * (2 : ℚ) ^ (-51 : ℤ) = 2 * ((k + 8) * 2 ^ (-52 : ℤ)) := by
    rw [show (2 : ℚ) ^ (-51 : ℤ) = 2 * 2 ^ (-52 : ℤ) by norm_num]; ring
  have d1 : (k + 8) * (2 : ℚ) ^ (-52 : ℤ) ≤ 1 / 16 := by
    refine le_trans (mul_le_mul_of_nonneg_right (add_le_add_left k40 8) (pow_pos' _).le) ?_
    norm_num
  generalize (k + 8) * (2 : ℚ) ^ (-51 : ℤ) = D at *
  have sqle : n ^ 2 ≤ lo ^ 2 → n ≤ lo := fun h => le_of_sq_le_sq h lo0.le
  have sqle' : lo ^ 2 ≤ n ^ 2 → lo ≤ n := fun h => le_of_sq_le_sq h n0
  rcases le_or_gt (2 ^ (-210 : ℤ)) S with hl | hl
  · have t2 : t ≤ 2 ^ (-52 : ℤ) * S := by
      refine le_trans t1 (le_trans (b := (2 : ℚ) ^ (-52 : ℤ) * 2 ^ (-210 : ℤ)) ?_ (mul_le_mul_of_nonneg_left hl (pow_pos' _).le))
      rw [← zpow_add₀ (by norm_num)]
      exact zpow_le_zpow_right₀ (by norm_num) (by norm_num)
    have h' : |n ^ 2 - S| ≤ (k + 8) * 2 ^ (-52 : ℤ) * S := by
      refine le_trans h ?_
      have : (k + 8) * 2 ^ (-52 : ℤ) * S = (k + 6) * 2 ^ (-52 : ℤ) * S + 2 * (2 ^ (-52 : ℤ) * S) := by ring
      rw [this]
      linarith only [t2]
    obtain ⟨c1, c2, c3⟩ := clip_alg (L := lo ^ 2) (lt_of_lt_of_le (pow_pos' _) hl) (by positivity) (mul_nonneg (by linarith only [k0]) (pow_pos' _).le) d1 h'
    rw [← eD] at c1 c2 c3
    refine ⟨fun hh => ⟨sqle' (c1 hh).1, (c1 hh).2⟩, fun hh => sqle (c2 hh), le_trans c3 ?_⟩
    exact mul_le_mul_of_nonneg_right (pow_le_pow_left₀ n0 (le_max_left _ _) 2) (by linarith only [D0])
  · have sl : S < lo ^ 2 := lt_of_lt_of_le hl (le_trans (zpow_le_zpow_right₀ (by norm_num) (by norm_num)) L2)
    have n2 : n ^ 2 ≤ lo ^ 2 := by
      have e : (k + 6) * 2 ^ (-52 : ℤ) * S ≤ 1 * S := by
        refine mul_le_mul_of_nonneg_right ?_ S0
        refine le_trans (mul_le_mul_of_nonneg_right (add_le_add_left k40 6) (pow_pos' _).le) ?_
        norm_num
      have b : n ^ 2 ≤ S + (1 * S + 2 * t) := by linarith only [(abs_le.mp h).2, e]
      refine le_trans (le_trans b ?_) L2
      have s2 : S ≤ 2 ^ (-210 : ℤ) := hl.le
      have t3 : t ≤ 2 ^ (-210 : ℤ) := le_trans t1 (zpow_le_zpow_right₀ (by norm_num) (by norm_num))
      have e2 : (2 : ℚ) ^ (-200 : ℤ) = 1024 * 2 ^ (-210 : ℤ) := by norm_num
      rw [e2]
      have p := pow_pos' (-210)
      generalize (2 : ℚ) ^ (-210 : ℤ) = x at *
      linarith only [s2, t3, p]
    refine ⟨fun hh => ?_, fun _ => sqle n2, ?_⟩
    · exfalso
      have : 0 ≤ lo ^ 2 * D := mul_nonneg (by positivity) D0
      linarith only [this, hh, sl]
    · have a : lo ^ 2 ≤ max n lo ^ 2 := pow_le_pow_left₀ lo0.le (le_max_right _ _) 2
      have b : 0 ≤ max n lo ^ 2 * D := mul_nonneg (by positivity) D0
      linarith only [a, b, sl]

theorem clip_spec {v : List ℚ} {n lo : ℚ} (hn : v.length ≤ 2 ^ 40) (n0 : 0 ≤ n) (hlo : 2 ^ (-100 : ℤ) ≤ lo)
    (h : |n ^ 2 - sumSq v| ≤ (v.length + 6) * 2 ^ (-52 : ℤ) * sumSq v + 2 * (v.length * 2 ^ (-1075 : ℤ))) :
    (lo ^ 2 * (1 + normErr v.length) ≤ sumSq v → lo ≤ n ∧ |sumSq v / n ^ 2 - 1| ≤ normErr v.length) ∧ (sumSq v ≤ lo ^ 2 * (1 - normErr v.length) → n ≤ lo) ∧
      sumSq v ≤ max n lo ^ 2 * (1 + normErr v.length) := by
  have k0 : (0 : ℚ) ≤ v.length := Nat.cast_nonneg _
  have k40 : (v.length : ℚ) ≤ 2 ^ 40 := by exact_mod_cast hn
  have z0 : (2 : ℚ) ^ (-1075 : ℤ) ≤ 2 ^ (-400 : ℤ) := zpow_le_zpow_right₀ (by norm_num) (by norm_num)
  have t1 : (v.length : ℚ) * 2 ^ (-1075 : ℤ) ≤ 2 ^ (-360 : ℤ) := by
    refine le_trans (mul_le_mul k40 z0 (pow_pos' _).le (by positivity)) (le_of_eq ?_)
    rw [← zpow_natCast, ← zpow_add₀ (by norm_num)]; norm_num
  exact clip_gen (sumSq_nonneg v) k0 (le_trans k40 (by norm_num)) (mul_nonneg k0 (pow_pos' _).le) t1 n0 hlo h

theorem normErr_small {k : Nat} (hk : k ≤ 2 ^ 40) : 0 ≤ normErr k ∧ normErr k ≤ 1 / 64 := by
  have k0 : (0 : ℚ) ≤ k := Nat.cast_nonneg _
  have k40 : (k : ℚ) ≤ 2 ^ 40 := by exact_mod_cast hk
  refine ⟨mul_nonneg (by linarith) (pow_pos' _).le, ?_⟩
  refine le_trans (mul_le_mul_of_nonneg_right (add_le_add_left k40 8) (pow_pos' _).le) ?_
  norm_num

/-- C141: **`Num.normalize` in double precision.** For a vector of at most 2^40 doubles of at most 2^480 in size and a lower bound `lo` on the norm between
2^-100 and 2^100, every component is divided by one double `N` ≥ `lo` and rounded. If the exact norm exceeds `lo` (by the relative error of the computation), `N`
is the norm up to that error, (k + 8)·2^-51 in its square; if it is below, `N` is `lo` itself; in no case is the norm greater than `N` by more than the error. For
every order in which numpy may add the squares. -/
theorem C141_normalize (sum : List Num → Num) (hs : IsSum sum) (sq : ℚ → ℚ) (hq : IsSqrt sq) {v : List ℚ} (hF : ∀ x ∈ v, IsF x) (hb : ∀ x ∈ v, |x| ≤ 2 ^ 480)
    (hn : v.length ≤ 2 ^ 40) {lo : ℚ} (flo : IsF lo) (hlo : 2 ^ (-100 : ℤ) ≤ lo) :
    ∃ N : ℚ, IsF N ∧ lo ≤ N ∧ normalize sum sq (v.map .fin) (.fin lo) = (v.map (fun x => rnd (x / N))).map .fin ∧
      (lo ^ 2 * (1 + normErr v.length) ≤ sumSq v → |sumSq v / N ^ 2 - 1| ≤ normErr v.length) ∧
      (sumSq v ≤ lo ^ 2 * (1 - normErr v.length) → N = lo) ∧ sumSq v ≤ N ^ 2 * (1 + normErr v.length) := by
  obtain ⟨n, en, fn, n0, bn⟩ := norm_spec sum hs sq hq hF hb hn
  obtain ⟨c1, c2, c3⟩ := clip_spec hn n0 hlo bn
  have lo0 : 0 < lo := lt_of_lt_of_le (pow_pos' _) hlo
  have N0 : 0 < max n lo := lt_of_lt_of_le lo0 (le_max_right _ _)
  refine ⟨max n lo, ?_, le_max_right _ _, ?_, fun h => ?_, fun h => max_eq_right (c2 h), c3⟩
  · rcases max_choice n lo with e | e <;> rw [e]
    · exact fn
    · exact flo
  · have ec : clipLo (.fin n) (.fin lo) = .fin (max n lo) := by
      unfold clipLo
      rw [if_neg (by simp)]
      show (if decide (n < lo) = true then Num.fin lo else Num.fin n) = _
      rcases lt_or_ge n lo with h | h
      · rw [if_pos (by simpa using h), max_eq_right h.le]
      · rw [if_neg (by simpa using h), max_eq_left h]
    unfold normalize
    rw [en]
    dsimp only
    rw [ec, List.map_map, List.map_map]
    refine List.map_congr_left (fun x hx => ?_)
    show Num.div (.fin x) (.fin (max n lo)) = .fin (rnd (x / max n lo))
    have f2 : IsF (2 : ℚ) := by
      have := isF_int (m := 2) (by norm_num)
      exact_mod_cast this
    have hx2 : |x / max n lo| ≤ 2 := by
      rw [abs_div, abs_of_pos N0, div_le_iff₀ N0]
      refine abs_le_of_sq_le_sq ?_ (by linarith only [N0])
      refine le_trans (mem_le_sumSq hx) (le_trans c3 ?_)
      have := (normErr_small hn).2
      have p : 0 < max n lo ^ 2 := by positivity
      nlinarith only [this, p]
    show (if max n lo = 0 then _ else ofQ (x / max n lo)) = _
    rw [if_neg N0.ne']
    exact ofQ_fin_le hx2 f2 (lt_of_lt_of_le (by norm_num : (2 : ℚ) < 2 ^ 2) (pow_le_pow_right₀ (by norm_num) (by norm_num)))
  · obtain ⟨a, b⟩ := c1 h
    rwa [max_eq_left a]


theorem square_rnd {y u z : ℚ} {r : ℚ} (hu : 0 ≤ u) (hu1 : u ≤ 1) (hz : 0 ≤ z) (hz1 : z ≤ 1) (hy : |y| ≤ 2) (h : |r - y| ≤ u * |y| + z) : |r ^ 2 - y ^ 2| ≤ 3 * u * y ^ 2 + 9 * z := by
  have y0 := abs_nonneg y
  have e : r ^ 2 - y ^ 2 = (r - y) * (r + y) := by ring
  have b : |r + y| ≤ 2 * |y| + (u * |y| + z) := by
    have := abs_add_le (r - y) (y + y)
    rw [show r - y + (y + y) = r + y by ring, ← two_mul y, abs_mul, abs_two] at this
    linarith
  rw [e, abs_mul]
  have uy := mul_nonneg hu y0
  have m := mul_le_mul h b (abs_nonneg _) (by linarith)
  have y2 : |y| * |y| = y ^ 2 := by rw [abs_mul_abs_self]; ring
  have k1 : u * |y| * (u * |y|) ≤ 1 * (u * (|y| * |y|)) := by
    have : u * |y| * (u * |y|) = u * (u * (|y| * |y|)) := by ring
    rw [this]
    exact mul_le_mul_of_nonneg_right hu1 (mul_nonneg hu (mul_nonneg y0 y0))
  have k2 : u * |y| ≤ 2 := by nlinarith
  have k3 : z * (u * |y|) ≤ z * 2 := mul_le_mul_of_nonneg_left k2 hz
  have k4 : z * |y| ≤ z * 2 := mul_le_mul_of_nonneg_left hy hz
  have k5 : z * z ≤ z * 1 := mul_le_mul_of_nonneg_left hz1 hz
  refine le_trans m ?_
  have : 3 * u * y ^ 2 = 3 * (u * (|y| * |y|)) := by rw [y2]; ring
  rw [this]
  nlinarith

theorem sumSq_div (v : List ℚ) (N : ℚ) : sumSq (v.map fun x => x / N) = sumSq v / N ^ 2 := by
  induction v with
  | nil => simp [sumSq]
  | cons a t ih =>
    have e : ∀ a t, sumSq (a :: t) = a ^ 2 + sumSq t := fun a t => by simp [sumSq]
    rw [List.map_cons, e, e, ih, div_pow, add_div]

/-- The rounding of the quotients. -/
theorem sumSq_rnd {v : List ℚ} {N : ℚ} (hN : 0 < N) (hn : v.length ≤ 2 ^ 40) (h : sumSq v ≤ N ^ 2 * (1 + normErr v.length)) :
    |sumSq (v.map fun x => rnd (x / N)) - sumSq v / N ^ 2| ≤ 2 ^ (-50 : ℤ) := by
  have e1 : sumSq (v.map fun x => rnd (x / N)) = (v.map fun x => rnd (x / N) ^ 2).sum := by simp [sumSq, Function.comp_def]
  have e2 : sumSq v / N ^ 2 = (v.map fun x => (x / N) ^ 2).sum := by rw [← sumSq_div]; simp [sumSq, Function.comp_def]
  have s2 : sumSq v / N ^ 2 ≤ 2 := by
    rw [div_le_iff₀ (by positivity)]
    have := (normErr_small hn).2
    have p : 0 < N ^ 2 := by positivity
    nlinarith only [h, this, p]
  have z1 : (2 : ℚ) ^ (-1075 : ℤ) ≤ 2 ^ (-100 : ℤ) := zpow_le_zpow_right₀ (by norm_num) (by norm_num)
  have q : ∀ x ∈ v, |x / N| ≤ 2 := by
    intro x hx
    have h1 : (x / N) ^ 2 ≤ sumSq v / N ^ 2 := by
      rw [div_pow]
      exact div_le_div_of_nonneg_right (mem_le_sumSq hx) (by positivity)
    exact abs_le_of_sq_le_sq (by linarith only [h1, s2]) (by norm_num)
  have l := list_err v (fun x => rnd (x / N) ^ 2) (fun x => (x / N) ^ 2) (3 * 2 ^ (-53 : ℤ)) (9 * 2 ^ (-1075 : ℤ)) (fun x hx =>
    square_rnd (pow_pos' _).le (by norm_num) (pow_pos' _).le (le_trans z1 (by norm_num)) (q x hx) (FloatMesh.rnd_err_all _))
  rw [← e1, ← e2] at l
  refine le_trans l ?_
  have k40 : (v.length : ℚ) ≤ 2 ^ 40 := by exact_mod_cast hn
  have a1 : (v.length : ℚ) * (9 * 2 ^ (-1075 : ℤ)) ≤ 2 ^ 40 * (9 * 2 ^ (-100 : ℤ)) :=
    mul_le_mul k40 (mul_le_mul_of_nonneg_left z1 (by norm_num)) (mul_nonneg (by norm_num) (pow_pos' _).le) (by positivity)
  have a2 : (3 : ℚ) * 2 ^ (-53 : ℤ) * (sumSq v / N ^ 2) ≤ 3 * 2 ^ (-53 : ℤ) * 2 := mul_le_mul_of_nonneg_left s2 (by norm_num)
  refine le_trans (add_le_add a2 a1) ?_
  norm_num

/-- C141: the normalised vector has length 1 up to the error, in its square (k + 10)·2^-51, if the given one is longer than `lo`, and is never longer than that;
every component keeps its sign, and zero components stay zero. -/
theorem C141_unit (sum : List Num → Num) (hs : IsSum sum) (sq : ℚ → ℚ) (hq : IsSqrt sq) {v : List ℚ} (hF : ∀ x ∈ v, IsF x) (hb : ∀ x ∈ v, |x| ≤ 2 ^ 480)
    (hn : v.length ≤ 2 ^ 40) {lo : ℚ} (flo : IsF lo) (hlo : 2 ^ (-100 : ℤ) ≤ lo) :
    ∃ r : List ℚ, normalize sum sq (v.map .fin) (.fin lo) = r.map .fin ∧ r.length = v.length ∧
      (lo ^ 2 * (1 + normErr v.length) ≤ sumSq v → |sumSq r - 1| ≤ (v.length + 10) * 2 ^ (-51 : ℤ)) ∧
      sumSq r ≤ 1 + (v.length + 10) * 2 ^ (-51 : ℤ) ∧
      ∀ i (h : i < v.length) (h' : i < r.length), (0 ≤ v[i] → 0 ≤ r[i]) ∧ (v[i] ≤ 0 → r[i] ≤ 0) := by
  obtain ⟨N, -, hN, e, c1, -, c3⟩ := C141_normalize sum hs sq hq hF hb hn flo hlo
  have N0 : 0 < N := lt_of_lt_of_le (lt_of_lt_of_le (pow_pos' _) hlo) hN
  have d := sumSq_rnd N0 hn c3
  have eE : ((v.length : ℚ) + 10) * 2 ^ (-51 : ℤ) = normErr v.length + 2 ^ (-50 : ℤ) := by
    unfold normErr
    rw [show (2 : ℚ) ^ (-50 : ℤ) = 2 * 2 ^ (-51 : ℤ) by norm_num]; ring
  rw [eE]
  refine ⟨_, e, List.length_map _, fun h => ?_, ?_, ?_⟩
  · have := abs_add_le (sumSq (v.map fun x => rnd (x / N)) - sumSq v / N ^ 2) (sumSq v / N ^ 2 - 1)
    rw [sub_add_sub_cancel] at this
    linarith only [this, d, c1 h]
  · have : sumSq v / N ^ 2 ≤ 1 + normErr v.length := by rw [div_le_iff₀ (by positivity), mul_comm]; exact c3
    linarith only [this, (abs_le.mp d).2]
  · intro i h h'
    simp only [List.getElem_map]
    refine ⟨fun h0 => rnd_nonneg (div_nonneg h0 N0.le), fun h0 => ?_⟩
    have := rnd_mono (div_nonpos_of_nonpos_of_nonneg h0 N0.le)
    rwa [rnd_zero] at this

/-! ### Infinite, NaN and huge components -/

theorem add_pos_inf {a b : Num} (ha : a = .inf false ∨ ∃ q, a = .fin q ∧ 0 ≤ q) (hb : b = .inf false ∨ ∃ q, b = .fin q ∧ 0 ≤ q) :
    (Num.add a b = .inf false ∨ ∃ q, Num.add a b = .fin q ∧ 0 ≤ q) ∧ (a = .inf false ∨ b = .inf false → Num.add a b = .inf false) := by
  rcases ha with rfl | ⟨p, rfl, hp⟩ <;> rcases hb with rfl | ⟨q, rfl, hq⟩
  · exact ⟨.inl rfl, fun _ => rfl⟩
  · exact ⟨.inl rfl, fun _ => rfl⟩
  · exact ⟨.inl rfl, fun _ => rfl⟩
  · refine ⟨?_, fun h => by rcases h with h | h <;> exact absurd h (by simp)⟩
    show ofQ (p + q) = _ ∨ ∃ r, ofQ (p + q) = _ ∧ _
    unfold ofQ
    have h0 := rnd_nonneg (add_nonneg hp hq)
    split_ifs with h1
    · left
      rw [decide_eq_false (not_lt.mpr (add_nonneg hp hq))]
    · exact .inr ⟨_, rfl, h0⟩

theorem eval_pos_inf (xs : List Num) (t : Order) (h : ∀ i ∈ t.leaves, xs.getD i .nan = .inf false ∨ ∃ q, xs.getD i .nan = .fin q ∧ 0 ≤ q) :
    (t.eval xs = .inf false ∨ ∃ q, t.eval xs = .fin q ∧ 0 ≤ q) ∧ ((∃ i ∈ t.leaves, xs.getD i .nan = .inf false) → t.eval xs = .inf false) := by
  induction t with
  | zero => exact ⟨.inr ⟨0, rfl, le_rfl⟩, fun ⟨i, hi, _⟩ => by simp [Order.leaves] at hi⟩
  | leaf k =>
    have := h k (by simp [Order.leaves])
    refine ⟨this, fun ⟨i, hi, e⟩ => ?_⟩
    simp only [Order.leaves, List.mem_singleton] at hi
    subst hi
    exact e
  | node a b iha ihb =>
    obtain ⟨a1, a2⟩ := iha (fun i hi => h i (by simp [Order.leaves, hi]))
    obtain ⟨b1, b2⟩ := ihb (fun i hi => h i (by simp [Order.leaves, hi]))
    obtain ⟨c1, c2⟩ := add_pos_inf a1 b1
    refine ⟨c1, fun ⟨i, hi, e⟩ => c2 ?_⟩
    rcases List.mem_append.mp (by simpa [Order.leaves] using hi) with hi | hi
    · exact .inl (a2 ⟨i, hi, e⟩)
    · exact .inr (b2 ⟨i, hi, e⟩)

theorem sum_pos_inf (sum : List Num → Num) (hs : IsSum sum) (xs : List Num) (h : ∀ x ∈ xs, x = .inf false ∨ ∃ q, x = .fin q ∧ 0 ≤ q) (hi : .inf false ∈ xs) : sum xs = .inf false := by
  obtain ⟨t, ht, e⟩ := hs xs
  rw [e]
  have g : ∀ i (hi : i < xs.length), xs.getD i .nan = xs[i] := fun i hi => by rw [List.getD_eq_getElem?_getD, List.getElem?_eq_getElem hi]; rfl
  refine (eval_pos_inf xs t (fun i hi => ?_)).2 ?_
  · have hi' : i < xs.length := by simpa using ht.mem_iff.mp hi
    rw [g i hi']
    exact h _ (List.getElem_mem _)
  · obtain ⟨i, hl, ei⟩ := List.getElem_of_mem hi
    exact ⟨i, ht.mem_iff.mpr (by simpa using hl), by rw [g i hl, ei]⟩

theorem sq_pos (x : Num) (h : x ≠ .nan) : Num.mul x x = .inf false ∨ ∃ q, Num.mul x x = .fin q ∧ 0 ≤ q := by
  cases x with
  | nan => exact absurd rfl h
  | inf s => left; cases s <;> rfl
  | fin q =>
    show ofQ (q * q) = _ ∨ ∃ r, ofQ (q * q) = _ ∧ _
    unfold ofQ
    split_ifs with h1
    · left
      rw [decide_eq_false (not_lt.mpr (mul_self_nonneg q))]
    · exact .inr ⟨_, rfl, rnd_nonneg (mul_self_nonneg q)⟩

/-- C141, a finding: **a vector with a component of 2^512 (1.3e154) or more, or an infinite one, is not normalised**: its square overflows, the norm is infinite, and
all finite components become 0 and the infinite ones NaN. -/
theorem C141_huge (sum : List Num → Num) (hs : IsSum sum) (sq : ℚ → ℚ) (x : List Num) (lo : ℚ) (hx : ∀ a ∈ x, a ≠ .nan)
    (hh : ∃ a ∈ x, (∃ s, a = .inf s) ∨ ∃ q, a = .fin q ∧ 2 ^ 512 ≤ |q|) :
    normalize sum sq x (.fin lo) = x.map (fun a => match a with | .fin _ => .fin 0 | _ => .nan) := by
  have e : mulL x x = x.map (fun a => Num.mul a a) := by unfold mulL; rw [List.zipWith_self]
  have hsum : sum (mulL x x) = .inf false := by
    rw [e]
    refine sum_pos_inf sum hs _ (fun y hy => ?_) ?_
    · obtain ⟨a, ha, rfl⟩ := List.mem_map.mp hy
      exact sq_pos a (hx a ha)
    · obtain ⟨a, ha, h⟩ := hh
      refine List.mem_map.mpr ⟨a, ha, ?_⟩
      rcases h with ⟨s, rfl⟩ | ⟨q, rfl, hq⟩
      · cases s <;> rfl
      · show ofQ (q * q) = _
        unfold ofQ
        have f : IsF ((2 : ℚ) ^ 1024) := by
          have := isF_pow (e := 1024) (by norm_num)
          exact_mod_cast this
        have hb : (2 : ℚ) ^ 1024 ≤ q * q := by
          rw [← abs_mul_abs_self, show 1024 = 512 + 512 from rfl, pow_add]
          exact mul_le_mul hq hq (by positivity) (abs_nonneg _)
        rw [if_pos (le_trans (le_rnd hb f) (le_abs_self _)), decide_eq_false (not_lt.mpr (mul_self_nonneg q))]
  unfold normalize norm
  rw [hsum]
  refine List.map_congr_left (fun a ha => ?_)
  cases a with
  | nan => exact absurd rfl (hx _ ha)
  | inf s => rfl
  | fin q => rfl

/-- C141: one NaN component makes all of them NaN. -/
theorem C141_nan (sum : List Num → Num) (hs : IsSum sum) (sq : ℚ → ℚ) (x : List Num) (lo : Num) (hx : .nan ∈ x) :
    normalize sum sq x lo = x.map (fun _ => .nan) := by
  have e : mulL x x = x.map (fun a => Num.mul a a) := by unfold mulL; rw [List.zipWith_self]
  unfold normalize norm
  rw [e, sum_nan sum hs _ (List.mem_map.mpr ⟨_, hx, rfl⟩)]
  refine List.map_congr_left (fun a ha => ?_)
  show Num.div a (clipLo .nan lo) = .nan
  have : clipLo .nan lo = .nan := if_pos (.inl rfl)
  rw [this]
  cases a <;> rfl

/-! ### Safe division -/

theorem boundLo_fin (y lo : ℚ) : boundLo (.fin y) (.fin lo) = .fin (max y lo) := by
  unfold boundLo
  show (if decide (y < lo) = true then Num.fin lo else Num.fin y) = _
  rcases lt_or_ge y lo with h | h
  · rw [if_pos (by simpa using h), max_eq_right h.le]
  · rw [if_neg (by simpa using h), max_eq_left h]

/-- C141: **`Num.safe_div` in double precision.** For finite x and any denominator that is not NaN the result is a number, never NaN: the quotient x / y correctly
rounded if y ≥ lo, 0 if y is infinite, and otherwise (y < lo, be it zero, negative or −∞) x / lo correctly rounded; it is infinite only if that quotient is beyond the
range of doubles. -/
theorem C141_safe_div {x lo : ℚ} (hlo : 0 < lo) :
    (∀ y : ℚ, lo ≤ y → safeDiv (.fin x) (.fin y) (.fin lo) = ofQ (x / y)) ∧
    (∀ y : ℚ, y ≤ lo → safeDiv (.fin x) (.fin y) (.fin lo) = ofQ (x / lo)) ∧
    safeDiv (.fin x) (.inf false) (.fin lo) = .fin 0 ∧ safeDiv (.fin x) (.inf true) (.fin lo) = ofQ (x / lo) ∧
    (∀ y, y ≠ .nan → safeDiv (.fin x) y (.fin lo) ≠ .nan) ∧ (∀ a, safeDiv a .nan (.fin lo) = .nan) := by
  have nn : ∀ q, ofQ q ≠ .nan := fun q => by unfold ofQ; split_ifs <;> simp
  have d : ∀ n : ℚ, 0 < n → Num.div (.fin x) (.fin n) = ofQ (x / n) := fun n h => if_neg h.ne'
  have c1 : ∀ y : ℚ, lo ≤ y → safeDiv (.fin x) (.fin y) (.fin lo) = ofQ (x / y) := fun y h => by
    unfold safeDiv
    rw [boundLo_fin, max_eq_left h, d y (by linarith)]
  have c2 : ∀ y : ℚ, y ≤ lo → safeDiv (.fin x) (.fin y) (.fin lo) = ofQ (x / lo) := fun y h => by
    unfold safeDiv
    rw [boundLo_fin, max_eq_right h, d lo hlo]
  have c3 : safeDiv (.fin x) (.inf true) (.fin lo) = ofQ (x / lo) := d lo hlo
  refine ⟨c1, c2, rfl, c3, fun y hy => ?_, fun a => by cases a <;> rfl⟩
  cases y with
  | nan => exact absurd rfl hy
  | inf s =>
    cases s with
    | false => exact fun h => Num.noConfusion h
    | true => rw [c3]; exact nn _
  | fin y =>
    rcases le_total lo y with h | h
    · rw [c1 y h]; exact nn _
    · rw [c2 y h]; exact nn _

/-- C141, a finding: negative denominators count as `lo`: dividing 1 by −2 with the bound 2^-33 (about 1e-10) gives +2^33. -/
theorem C141_negative : safeDiv (.fin 1) (.fin (-2)) (.fin (2 ^ (-33 : ℤ))) = .fin (2 ^ 33) := by
  rw [(C141_safe_div (x := 1) (pow_pos' (-33))).2.1 (-2) (by norm_num)]
  have : (1 : ℚ) / 2 ^ (-33 : ℤ) = 2 ^ 33 := by norm_num
  rw [this]
  decide +kernel


/-! ### A square root that meets the contract -/

/-- The square root cut off after 53 bits. -/
def sqrt53 (q : ℚ) : ℚ := if q ≤ 0 then 0 else (Nat.sqrt ⌊q / 2 ^ (2 * ((Int.log 2 q - 104) / 2))⌋.toNat : ℚ) * 2 ^ ((Int.log 2 q - 104) / 2)

theorem sqrt53_isSqrt : IsSqrt sqrt53 := by
  intro q hF h0
  rcases eq_or_lt_of_le h0 with rfl | hq
  · have : sqrt53 0 = 0 := if_pos le_rfl
    rw [this]
    exact ⟨rnd_zero, le_rfl, by norm_num⟩
  · unfold sqrt53
    rw [if_neg (not_le.mpr hq)]
    have l1 : (2 : ℚ) ^ Int.log 2 q ≤ q := Int.zpow_log_le_self (b := 2) (by norm_num) hq
    have l2 : q < 2 ^ (Int.log 2 q + 1) := Int.lt_zpow_succ_log_self (b := 2) (by norm_num) q
    have lb : -1074 ≤ Int.log 2 q := by
      obtain ⟨m, em⟩ := hF.mult
      have m1 : 1 ≤ m := by
        by_contra h
        have : (m : ℚ) ≤ 0 := by exact_mod_cast (by omega : m ≤ 0)
        have := mul_nonpos_of_nonpos_of_nonneg this (pow_pos' (-1074)).le
        rw [← em] at this
        exact absurd hq (not_lt.mpr this)
      have h : (2 : ℚ) ^ (-1074 : ℤ) ≤ q := by
        rw [em]
        exact le_mul_of_one_le_left (pow_pos' _).le (by exact_mod_cast m1)
      have h2 := lt_of_le_of_lt h l2
      have := (zpow_lt_zpow_iff_right₀ (by norm_num : (1 : ℚ) < 2)).mp h2
      omega
    generalize Int.log 2 q = L at *
    generalize he : (L - 104) / 2 = e
    have e1 : L - 105 ≤ 2 * e := by omega
    have e2 : 2 * e ≤ L - 104 := by omega
    have p : (0 : ℚ) < 2 ^ (2 * e) := pow_pos' _
    have Q1 : (2 : ℚ) ^ 104 ≤ q / 2 ^ (2 * e) := by
      rw [le_div_iff₀ p, ← zpow_natCast, ← zpow_add₀ (by norm_num)]
      exact le_trans (zpow_le_zpow_right₀ (by norm_num) (by push_cast; omega)) l1
    have Q2 : q / 2 ^ (2 * e) < 2 ^ 106 := by
      rw [div_lt_iff₀ p, ← zpow_natCast, ← zpow_add₀ (by norm_num)]
      exact lt_of_lt_of_le l2 (zpow_le_zpow_right₀ (by norm_num) (by push_cast; omega))
    have eq : q = q / 2 ^ (2 * e) * 2 ^ (2 * e) := (div_mul_cancel₀ _ p.ne').symm
    generalize q / 2 ^ (2 * e) = Q at *
    have Q0 : (0 : ℚ) ≤ Q := le_trans (by positivity) Q1
    have f0 : 0 ≤ ⌊Q⌋ := Int.floor_nonneg.mpr Q0
    obtain ⟨n, hn⟩ : ∃ n : ℕ, ⌊Q⌋ = n := ⟨⌊Q⌋.toNat, by omega⟩
    have n1 : (n : ℚ) ≤ Q := by have := Int.floor_le Q; rw [hn] at this; exact_mod_cast this
    have n2 : Q < n + 1 := by have := Int.lt_floor_add_one Q; rw [hn] at this; exact_mod_cast this
    rw [hn, Int.toNat_natCast]
    have r1 : ((n.sqrt : ℕ) : ℚ) * n.sqrt ≤ n := by exact_mod_cast Nat.sqrt_le n
    have r2 : (n : ℚ) + 1 ≤ (n.sqrt + 1) * (n.sqrt + 1) := by exact_mod_cast Nat.lt_succ_sqrt n
    have r3 : n.sqrt < 2 ^ 53 := by
      rw [Nat.sqrt_lt]
      have : (n : ℚ) < 2 ^ 106 := lt_of_le_of_lt n1 Q2
      have : n < 2 ^ 106 := by exact_mod_cast this
      omega
    have r4 : 2 ^ 52 ≤ n.sqrt := by
      rw [Nat.le_sqrt]
      have : (2 : ℚ) ^ 104 < n + 1 := lt_of_le_of_lt Q1 n2
      have : 2 ^ 104 < n + 1 := by exact_mod_cast this
      omega
    have r4' : (2 : ℚ) ^ 52 ≤ n.sqrt := by exact_mod_cast r4
    generalize n.sqrt = r at *
    refine ⟨?_, by positivity, ?_⟩
    · have := isF_of (m := (r : ℤ)) (e := e) (by rw [abs_of_nonneg (by omega)]; exact_mod_cast r3.le) (by omega)
      exact_mod_cast this
    · have e3 : ((r : ℚ) * 2 ^ e) ^ 2 - q = (r * r - Q) * 2 ^ (2 * e) := by
        rw [eq, two_mul, zpow_add₀ (by norm_num)]; ring
      rw [e3, abs_mul, abs_of_pos p, eq, ← mul_assoc]
      refine mul_le_mul_of_nonneg_right ?_ p.le
      rw [abs_of_nonpos (by linarith)]
      have : (2 : ℚ) ^ (-50 : ℤ) * (r * r) ≤ 2 ^ (-50 : ℤ) * Q := mul_le_mul_of_nonneg_left (by linarith) (pow_pos' _).le
      have : (2 : ℚ) ^ (-50 : ℤ) * (2 ^ 52 * r) ≤ 2 ^ (-50 : ℤ) * (r * r) := mul_le_mul_of_nonneg_left (mul_le_mul_of_nonneg_right r4' (by linarith [show (0:ℚ) ≤ 2 ^ 52 by norm_num])) (pow_pos' _).le
      have h4 : (2 : ℚ) ^ (-50 : ℤ) * (2 ^ 52 * r) = 4 * r := by rw [← mul_assoc]; norm_num
      have r5 : (1 : ℚ) ≤ r := le_trans (by norm_num) r4'
      nlinarith

/-- The hypotheses of `C141_unit` are met: adding from left to right, the root above, the vector (3, −4, 0) and the bound 2^-33 (about 1e-10). -/
example : ∃ r : List ℚ, normalize leftSum sqrt53 ([3, -4, 0].map .fin) (.fin (2 ^ (-33 : ℤ))) = r.map .fin ∧ |sumSq r - 1| ≤ 13 * 2 ^ (-51 : ℤ) := by
  obtain ⟨r, e, -, h, -⟩ := C141_unit leftSum leftSum_isSum sqrt53 sqrt53_isSqrt (v := [3, -4, 0]) (by decide +kernel) (by
    intro x hx
    refine le_trans (b := (2 : ℚ) ^ 2) ?_ (pow_le_pow_right₀ (by norm_num) (by norm_num))
    simp only [List.mem_cons, List.not_mem_nil, or_false] at hx
    rcases hx with rfl | rfl | rfl <;> norm_num) (by norm_num) (lo := 2 ^ (-33 : ℤ)) (isF_pow (by norm_num)) (zpow_le_zpow_right₀ (by norm_num) (by norm_num))
  refine ⟨r, e, le_trans (h ?_) ?_⟩
  · norm_num [normErr, sumSq]
  · norm_num

/-- The vector (3, −4) comes out as (0.6, −0.8), both correctly rounded. -/
example : normalize leftSum sqrt53 ([3, -4].map .fin) (.fin (2 ^ (-33 : ℤ))) = [.fin (rnd (3 / 5)), .fin (rnd (-4 / 5))] := by decide +kernel
/-- A component of 2^512 makes the vector zero. -/
example : normalize leftSum sqrt53 [.fin (2 ^ 512), .fin 1] (.fin (2 ^ (-33 : ℤ))) = [.fin 0, .fin 0] :=
  C141_huge leftSum leftSum_isSum sqrt53 [.fin (2 ^ 512), .fin 1] _ (by simp) ⟨_, List.mem_cons_self, .inr ⟨_, rfl, le_abs_self _⟩⟩

end Pyhipp.FloatNum
