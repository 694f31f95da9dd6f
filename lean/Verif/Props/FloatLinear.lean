import Verif.Model.FloatLinear
import Verif.Lemmas.Interpolate
import Verif.Props.FloatMesh
/-
C128: searching and linear interpolation in double precision.
-/
namespace Pyhipp.FloatLinear
open Pyhipp F64
open Pyhipp.Interpolate (bisearch bisearchLoop bisearch_spec sorted_le sorted_lt strict_sorted)

/-- Finite numbers as doubles. -/
def fins (xs : List ℚ) : List Num := xs.map .fin

theorem fins_length (xs : List ℚ) : (fins xs).length = xs.length := List.length_map _

theorem fins_get (xs : List ℚ) (i : Int) : pyGet (fins xs) i = (match pyGet xs i with
    | .ok a => .ok (Num.fin a)
    | .error e => .error e) := by
  unfold pyGet fins
  simp only [List.length_map, List.getElem?_map]
  split_ifs
  · cases xs[i.toNat]? <;> rfl
  · cases xs[(i + xs.length).toNat]? <;> rfl
  · rfl

theorem fins_getN (xs : List ℚ) (i : Nat) (h : i < xs.length) : pyGet (fins xs) (i : Int) = .ok (.fin xs[i]) := by
  rw [fins_get, pyGet_ofNat xs i h]

/-! ### The search -/

theorem searchLoop_fin (xs : List ℚ) (v : ℚ) (l r : Nat) : searchLoop (fins xs) (.fin v) l r = bisearchLoop xs v l r := by
  fun_induction bisearchLoop xs v l r with
  | case1 l r h c xc hc hlt ih =>
      rw [searchLoop, dif_pos h]
      simp only
      rw [fins_get, hc]
      simp only [Num.lt, hlt, decide_true, if_true]
      exact ih
  | case2 l r h c xc hc hlt ih =>
      rw [searchLoop, dif_pos h]
      simp only
      rw [fins_get, hc]
      simp only [Num.lt, hlt, decide_false, Bool.false_eq_true, if_false]
      exact ih
  | case3 l r h c e hc =>
      rw [searchLoop, dif_pos h]
      simp only
      rw [fins_get, hc]
  | case4 l r h => rw [searchLoop, dif_neg h]

theorem search_fin (xs : List ℚ) (v : ℚ) : search (fins xs) (.fin v) = bisearch xs v := by
  unfold search bisearch
  rw [fins_length, fins_get]
  simp only [searchLoop_fin]
  cases h : pyGet xs 0 with
  | ok a =>
    have e : Num.lt (.fin v) (.fin a) = decide (v < a) := rfl
    simp only [bind, Except.bind, e, decide_eq_true_eq]
  | error e => rfl

theorem searchLoop_top (xs : List ℚ) (v : Num) (hv : ∀ q, Num.lt v (.fin q) = false) (l r : Nat) (hlr : l < r) (hr : r ≤ xs.length) :
    searchLoop (fins xs) v l r = .ok (r - 1) := by
  induction hk : r - l using Nat.strong_induction_on generalizing l with
  | _ k ih =>
    rw [searchLoop]
    by_cases h : r - l > 1
    · rw [dif_pos h]
      simp only
      have hc : (l + r) / 2 < xs.length := by omega
      rw [fins_getN xs _ hc]
      simp only [hv, Bool.false_eq_true, if_false]
      exact ih (r - (l + r) / 2) (by omega) _ (by omega) rfl
    · rw [dif_neg h]
      congr 1
      omega

theorem search_top (xs : List ℚ) (hne : xs ≠ []) (v : Num) (hv : ∀ q, Num.lt v (.fin q) = false) : search (fins xs) v = .ok ((xs.length - 1 : Nat) : Int) := by
  have hn : 0 < xs.length := List.length_pos_iff.mpr hne
  unfold search
  rw [fins_length]
  have h0 := fins_getN xs 0 hn
  simp only [Nat.cast_zero] at h0
  rw [h0]
  simp [pyAssert, hn, hv, bind, Except.bind, pure, Except.pure, searchLoop_top xs v hv 0 xs.length hn (le_refl _)]

theorem search_bot (xs : List ℚ) (hne : xs ≠ []) : search (fins xs) (.inf true) = .ok (-1) := by
  have hn : 0 < xs.length := List.length_pos_iff.mpr hne
  unfold search
  rw [fins_length]
  have h0 := fins_getN xs 0 hn
  simp only [Nat.cast_zero] at h0
  rw [h0]
  simp [pyAssert, hn, Num.lt, bind, Except.bind, pure, Except.pure]

/-- C128: `bisearch` on sorted finite doubles: for a finite number the index of the last element that is not larger (-1 if none); -1 for -∞; the last index
for +∞ and also for NaN. -/
theorem C128_search (xs : List ℚ) (hne : xs ≠ []) (hs : xs.Pairwise (· ≤ ·)) :
    (∀ v : ℚ, ∃ i : Int, search (fins xs) (.fin v) = .ok i ∧ -1 ≤ i ∧ i < xs.length ∧ ∀ (j : Nat) (h : j < xs.length), xs[j] ≤ v ↔ (j : Int) ≤ i) ∧
    search (fins xs) (.inf true) = .ok (-1) ∧ search (fins xs) (.inf false) = .ok ((xs.length - 1 : Nat) : Int) ∧
    search (fins xs) .nan = .ok ((xs.length - 1 : Nat) : Int) := by
  refine ⟨fun v => ?_, search_bot xs hne, search_top xs hne _ (fun _ => rfl), search_top xs hne _ (fun _ => rfl)⟩
  rw [search_fin]
  exact bisearch_spec xs v hne hs

/-! ### Specification -/

/-- Interpolation nodes: strictly increasing doubles of at most 2^1021. -/
structure Nodes (xs : List ℚ) : Prop where
  ne : xs ≠ []
  inc : xs.Pairwise (· < ·)
  isF : ∀ x ∈ xs, IsF x
  small : ∀ x ∈ xs, |x| ≤ 2 ^ 1021

/-- The straight line through (x0, y0) and (x1, y1). -/
def line (x0 x1 y0 y1 x : ℚ) : ℚ := y0 + (y1 - y0) * ((x - x0) / (x1 - x0))

/-! ### The weights -/

theorem sub_fin {x y : ℚ} (hx : |x| ≤ 2 ^ 1022) (hy : |y| ≤ 2 ^ 1022) : Num.sub (.fin x) (.fin y) = .fin (rnd (x - y)) := by
  show ofQ (x + -y) = _
  rw [← sub_eq_add_neg]
  refine ofQ_fin_le ?_ FloatBins.pow1023 FloatBins.lt1024
  have := abs_sub x y
  have e : (2 : ℚ) ^ 1023 = 2 * 2 ^ 1022 := by rw [pow_succ]; ring
  rw [e]
  linarith

theorem add_fin {x y : ℚ} (hx : |x| ≤ 2 ^ 1022) (hy : |y| ≤ 2 ^ 1022) : Num.add (.fin x) (.fin y) = .fin (rnd (x + y)) := by
  show ofQ (x + y) = _
  refine ofQ_fin_le ?_ FloatBins.pow1023 FloatBins.lt1024
  have := abs_add_le x y
  have e : (2 : ℚ) ^ 1023 = 2 * 2 ^ 1022 := by rw [pow_succ]; ring
  rw [e]
  linarith

theorem pow1022 : IsF ((2 : ℚ) ^ 1022) := by
  have := isF_pow (e := 1022) (by norm_num)
  exact_mod_cast this

theorem le22 {x : ℚ} (h : |x| ≤ 2 ^ 1021) : |x| ≤ 2 ^ 1022 := le_trans h (pow_le_pow_right₀ (by norm_num) (by norm_num))

theorem diff22 {x y : ℚ} (hx : |x| ≤ 2 ^ 1021) (hy : |y| ≤ 2 ^ 1021) : |x - y| ≤ 2 ^ 1022 := by
  have e22 : (2 : ℚ) ^ 1022 = 2 * 2 ^ 1021 := by rw [pow_succ]; ring
  rw [e22]
  generalize (2 : ℚ) ^ 1021 = B at *
  have := abs_sub x y
  linarith

/-- What the weights are. -/
structure W (b d w : ℚ) : Prop where
  isF : IsF w
  nonneg : 0 ≤ w
  le_one : w ≤ 1
  err : |w - b / d| ≤ 2 ^ (-50 : ℤ) * (b / d) + 2 ^ (-1075 : ℤ)

/-- The two distances and their sum, rounded. -/
theorem dist_bounds {x xl xr : ℚ} (fx : IsF x) (fl : IsF xl) (fr : IsF xr) (h1 : xl ≤ x) (h2 : x < xr) :
    0 ≤ rnd (x - xl) ∧ 0 < rnd (xr - x) ∧
    rnd (x - xl) ≤ (x - xl) * (1 + 2 ^ (-53 : ℤ)) ∧ (x - xl) * (1 - 2 ^ (-53 : ℤ)) ≤ rnd (x - xl) ∧
    rnd (xr - x) ≤ (xr - x) * (1 + 2 ^ (-53 : ℤ)) ∧ (xr - x) * (1 - 2 ^ (-53 : ℤ)) ≤ rnd (xr - x) ∧
    rnd (rnd (x - xl) + rnd (xr - x)) ≤ (xr - xl) * (1 + 2 ^ (-53 : ℤ)) ^ 2 ∧ (xr - xl) * (1 - 2 ^ (-53 : ℤ)) ^ 2 ≤ rnd (rnd (x - xl) + rnd (xr - x)) ∧
    rnd (x - xl) ≤ rnd (rnd (x - xl) + rnd (xr - x)) ∧ rnd (xr - x) ≤ rnd (rnd (x - xl) + rnd (xr - x)) := by
  have a := rnd_sub_err fx fl
  have b := rnd_sub_err fr fx
  rw [abs_of_nonneg (show 0 ≤ x - xl by linarith), abs_le] at a
  rw [abs_of_pos (show 0 < xr - x by linarith), abs_le] at b
  have A0 : 0 ≤ rnd (x - xl) := rnd_nonneg (by linarith)
  have B0 : 0 < rnd (xr - x) := rnd_sub_pos fr fx h2
  have c := rnd_sub_err (isF_rnd (x - xl)) (isF_rnd (xr - x)).neg
  rw [sub_neg_eq_add, abs_of_pos (show 0 < rnd (x - xl) + rnd (xr - x) by linarith), abs_le] at c
  have ge1 : rnd (x - xl) ≤ rnd (rnd (x - xl) + rnd (xr - x)) := le_rnd (by linarith) (isF_rnd _)
  have ge2 : rnd (xr - x) ≤ rnd (rnd (x - xl) + rnd (xr - x)) := le_rnd (by linarith) (isF_rnd _)
  generalize rnd (rnd (x - xl) + rnd (xr - x)) = D at *
  generalize rnd (x - xl) = A at *
  generalize rnd (xr - x) = B at *
  have hu0 := pow_pos' (-53)
  have hu1 : (2 : ℚ) ^ (-53 : ℤ) ≤ 1 / 2 := by norm_num
  generalize (2 : ℚ) ^ (-53 : ℤ) = u at *
  have s1 : A + B ≤ (xr - xl) * (1 + u) := by linarith [a.2, b.2]
  have s2 : (xr - xl) * (1 - u) ≤ A + B := by linarith [a.1, b.1]
  refine ⟨A0, B0, by linarith [a.2], by linarith [a.1], by linarith [b.2], by linarith [b.1], ?_, ?_, ge1, ge2⟩
  · have : D ≤ (A + B) * (1 + u) := by linarith [c.2]
    calc D ≤ (A + B) * (1 + u) := this
      _ ≤ (xr - xl) * (1 + u) * (1 + u) := mul_le_mul_of_nonneg_right s1 (by linarith)
      _ = _ := by ring
  · have : (A + B) * (1 - u) ≤ D := by linarith [c.1]
    calc (xr - xl) * (1 - u) ^ 2 = (xr - xl) * (1 - u) * (1 - u) := by ring
      _ ≤ (A + B) * (1 - u) := mul_le_mul_of_nonneg_right s2 (by linarith)
      _ ≤ D := this

theorem quot_W {b d B D : ℚ} (hb : 0 ≤ b) (hd : 0 < d) (hB0 : 0 ≤ B) (hD : 0 < D) (hBD : B ≤ D) (B1 : B ≤ b * (1 + 2 ^ (-53 : ℤ)))
    (B2 : b * (1 - 2 ^ (-53 : ℤ)) ≤ B) (D1 : D ≤ d * (1 + 2 ^ (-53 : ℤ)) ^ 2) (D2 : d * (1 - 2 ^ (-53 : ℤ)) ^ 2 ≤ D) : W b d (rnd (B / D)) := by
  have f1 : IsF (1 : ℚ) := by simpa using isF_pow (e := 0) (by norm_num)
  have q0 : 0 ≤ B / D := div_nonneg hB0 hD.le
  have p0 : 0 ≤ b / d := div_nonneg hb hd.le
  have eb : b / d * d = b := div_mul_cancel₀ b hd.ne'
  refine ⟨isF_rnd _, rnd_nonneg q0, rnd_le ((div_le_one hD).mpr hBD) f1, ?_⟩
  have r := FloatMesh.rnd_err_all (B / D)
  rw [abs_of_nonneg q0] at r
  have up : B / D ≤ b / d * (1 + 2 ^ (-51 : ℤ)) := by
    rw [div_le_iff₀ hD]
    calc B ≤ b * (1 + 2 ^ (-53 : ℤ)) := B1
      _ ≤ b * ((1 + 2 ^ (-51 : ℤ)) * (1 - 2 ^ (-53 : ℤ)) ^ 2) := mul_le_mul_of_nonneg_left (by norm_num) hb
      _ = b / d * (1 + 2 ^ (-51 : ℤ)) * (d * (1 - 2 ^ (-53 : ℤ)) ^ 2) := by
          have : b / d * (1 + 2 ^ (-51 : ℤ)) * (d * (1 - 2 ^ (-53 : ℤ)) ^ 2) = (b / d * d) * ((1 + 2 ^ (-51 : ℤ)) * (1 - 2 ^ (-53 : ℤ)) ^ 2) := by ring
          rw [this, eb]
      _ ≤ b / d * (1 + 2 ^ (-51 : ℤ)) * D := mul_le_mul_of_nonneg_left D2 (mul_nonneg p0 (by norm_num))
  have lo : b / d * (1 - 2 ^ (-51 : ℤ)) ≤ B / D := by
    rw [le_div_iff₀ hD]
    calc b / d * (1 - 2 ^ (-51 : ℤ)) * D ≤ b / d * (1 - 2 ^ (-51 : ℤ)) * (d * (1 + 2 ^ (-53 : ℤ)) ^ 2) :=
          mul_le_mul_of_nonneg_left D1 (mul_nonneg p0 (by norm_num))
      _ = b * ((1 - 2 ^ (-51 : ℤ)) * (1 + 2 ^ (-53 : ℤ)) ^ 2) := by
          have : b / d * (1 - 2 ^ (-51 : ℤ)) * (d * (1 + 2 ^ (-53 : ℤ)) ^ 2) = (b / d * d) * ((1 - 2 ^ (-51 : ℤ)) * (1 + 2 ^ (-53 : ℤ)) ^ 2) := by ring
          rw [this, eb]
      _ ≤ b * (1 - 2 ^ (-53 : ℤ)) := mul_le_mul_of_nonneg_left (by norm_num) hb
      _ ≤ B := B2
  rw [abs_le] at r ⊢
  generalize B / D = q at *
  generalize rnd q = w at *
  generalize b / d = p at *
  generalize (2 : ℚ) ^ (-1075 : ℤ) = z at *
  have n1 : (2 : ℚ) ^ (-53 : ℤ) * q ≤ 2 ^ (-53 : ℤ) * (p * (1 + 2 ^ (-51 : ℤ))) := mul_le_mul_of_nonneg_left up (by norm_num)
  norm_num at *
  constructor <;> linarith [r.1, r.2]

/-- The computed weights: doubles in [0, 1], the exact ones up to 2^-50 (relative) and half the smallest double. -/
theorem weight_spec {x xl xr : ℚ} (fx : IsF x) (fl : IsF xl) (fr : IsF xr) (h1 : xl ≤ x) (h2 : x < xr) (sl : |xl| ≤ 2 ^ 1021) (sr : |xr| ≤ 2 ^ 1021) :
    ∃ wl wr : ℚ, weight (.fin x) (.fin xl) (.fin xr) = .ok (.fin wl, .fin wr) ∧ W (xr - x) (xr - xl) wl ∧ W (x - xl) (xr - xl) wr ∧
      (x = xl → wl = 1 ∧ wr = 0) := by
  have sx : |x| ≤ 2 ^ 1021 := by
    rw [abs_le] at sl sr ⊢
    exact ⟨by linarith [sl.1], by linarith [sr.2]⟩
  obtain ⟨A0, B0, a1, a2, b1, b2, d1, d2, g1, g2⟩ := dist_bounds fx fl fr h1 h2
  have eA := sub_fin (x := x) (y := xl) (le22 sx) (le22 sl)
  have eB := sub_fin (x := xr) (y := x) (le22 sr) (le22 sx)
  have bA : |rnd (x - xl)| ≤ 2 ^ 1022 := by
    rw [rnd_abs]
    exact rnd_le (diff22 sx sl) pow1022
  have bB : |rnd (xr - x)| ≤ 2 ^ 1022 := by
    rw [rnd_abs]
    exact rnd_le (diff22 sr sx) pow1022
  have eD := add_fin bA bB
  have hD : 0 < rnd (rnd (x - xl) + rnd (xr - x)) := lt_of_lt_of_le B0 g2
  have f1 : IsF (1 : ℚ) := by simpa using isF_pow (e := 0) (by norm_num)
  have ediv : ∀ B : ℚ, 0 ≤ B → B ≤ rnd (rnd (x - xl) + rnd (xr - x)) →
      Num.div (.fin B) (.fin (rnd (rnd (x - xl) + rnd (xr - x)))) = .fin (rnd (B / rnd (rnd (x - xl) + rnd (xr - x)))) := by
    intro B hB hle
    simp only [Num.div, if_neg hD.ne']
    refine ofQ_fin_le (y := 1) ?_ f1 (one_lt_pow₀ (by norm_num) (by norm_num))
    rw [abs_of_nonneg (div_nonneg hB hD.le)]
    exact (div_le_one hD).mpr hle
  refine ⟨_, _, ?_, quot_W (by linarith) (by linarith) B0.le hD g2 b1 b2 d1 d2, quot_W (by linarith) (by linarith) A0 hD g1 a1 a2 d1 d2, ?_⟩
  · unfold weight pyDiv
    simp only
    rw [eA, eB, eD, ediv _ B0.le g2, ediv _ A0 g1]
    simp only [if_neg (show ¬ Num.fin (rnd (rnd (x - xl) + rnd (xr - x))) = .fin 0 from fun h => hD.ne' (Num.fin.inj h)), bind, Except.bind, pure, Except.pure]
  · rintro rfl
    rw [sub_self, rnd_zero, zero_add, rnd_rnd, div_self B0.ne', zero_div, rnd_zero]
    exact ⟨f1, rfl⟩

/-! ### Interpolated values -/

/-- The weighted sum. -/
theorem combine_err {a b d yl yr wl wr M : ℚ} (hd : 0 < d) (ha : 0 ≤ a) (hb : 0 ≤ b) (hab : a + b = d) (Wl : W b d wl) (Wr : W a d wr)
    (hl : |yl| ≤ M) (hr : |yr| ≤ M) (hM : M ≤ 2 ^ 1022) :
    ∃ r : ℚ, Num.add (Num.mul (.fin yl) (.fin wl)) (Num.mul (.fin yr) (.fin wr)) = .fin r ∧ IsF r ∧
      |r - (yl * (b / d) + yr * (a / d))| ≤ 2 ^ (-49 : ℤ) * M + 2 ^ (-1073 : ℤ) := by
  have hM0 : 0 ≤ M := le_trans (abs_nonneg _) hl
  have prod : ∀ {y w p : ℚ}, |y| ≤ M → 0 ≤ w → w ≤ 1 → 0 ≤ p → |w - p| ≤ 2 ^ (-50 : ℤ) * p + 2 ^ (-1075 : ℤ) →
      Num.mul (.fin y) (.fin w) = .fin (rnd (y * w)) ∧ |rnd (y * w)| ≤ 2 ^ 1022 ∧ |rnd (y * w)| ≤ M * (1 + 2 ^ (-52 : ℤ)) + 2 ^ (-1075 : ℤ) ∧
      |rnd (y * w) - y * p| ≤ M * (2 ^ (-53 : ℤ) * w + 2 ^ (-50 : ℤ) * p + 2 ^ (-1075 : ℤ)) + 2 ^ (-1075 : ℤ) := by
    intro y w p hy w0 w1 p0 hw
    have hyw : |y * w| ≤ M * w := by
      rw [abs_mul, abs_of_nonneg w0]
      exact mul_le_mul_of_nonneg_right hy w0
    have hywM : |y * w| ≤ M := le_trans hyw (mul_le_of_le_one_right hM0 w1)
    have r := FloatMesh.rnd_err_all (y * w)
    have hb1 : |rnd (y * w)| ≤ 2 ^ 1022 := by
      rw [rnd_abs]
      exact rnd_le (le_trans hywM hM) pow1022
    refine ⟨ofQ_fin_le (le_trans hywM hM) pow1022 (pow_lt_pow_right₀ (by norm_num) (by norm_num)), hb1, ?_, ?_⟩
    · have := abs_add_le (rnd (y * w) - y * w) (y * w)
      rw [sub_add_cancel] at this
      have h2 : (2 : ℚ) ^ (-53 : ℤ) * |y * w| ≤ 2 ^ (-53 : ℤ) * M := mul_le_mul_of_nonneg_left hywM (by norm_num)
      generalize (2 : ℚ) ^ (-1075 : ℤ) = z at *
      have h3 : (2 : ℚ) ^ (-53 : ℤ) * M ≤ 2 ^ (-52 : ℤ) * M := mul_le_mul_of_nonneg_right (by norm_num) hM0
      linarith
    · have e : rnd (y * w) - y * p = (rnd (y * w) - y * w) + y * (w - p) := by ring
      have h1 : |y * (w - p)| ≤ M * (2 ^ (-50 : ℤ) * p + 2 ^ (-1075 : ℤ)) := by
        rw [abs_mul]
        exact mul_le_mul hy hw (abs_nonneg _) hM0
      have h2 : (2 : ℚ) ^ (-53 : ℤ) * |y * w| ≤ 2 ^ (-53 : ℤ) * (M * w) := mul_le_mul_of_nonneg_left hyw (by norm_num)
      rw [e]
      have := abs_add_le (rnd (y * w) - y * w) (y * (w - p))
      generalize (2 : ℚ) ^ (-1075 : ℤ) = z at *
      linarith
  have hp : 0 ≤ b / d := div_nonneg hb hd.le
  have hq : 0 ≤ a / d := div_nonneg ha hd.le
  have hpq : b / d + a / d = 1 := by rw [← add_div, add_comm, hab, div_self hd.ne']
  obtain ⟨e1, u1, v1, k1⟩ := prod hl Wl.nonneg Wl.le_one hp Wl.err
  obtain ⟨e2, u2, v2, k2⟩ := prod hr Wr.nonneg Wr.le_one hq Wr.err
  refine ⟨rnd (rnd (yl * wl) + rnd (yr * wr)), by rw [e1, e2, add_fin u1 u2], isF_rnd _, ?_⟩
  have s := rnd_sub_err (isF_rnd (yl * wl)) (isF_rnd (yr * wr)).neg
  rw [sub_neg_eq_add] at s
  have sa := abs_add_le (rnd (yl * wl)) (rnd (yr * wr))
  have wl2 : wl + wr ≤ 1 + 2 ^ (-50 : ℤ) + 2 * 2 ^ (-1075 : ℤ) := by
    have := (abs_le.mp Wl.err).2
    have := (abs_le.mp Wr.err).2
    have : (2 : ℚ) ^ (-50 : ℤ) * (b / d) + 2 ^ (-50 : ℤ) * (a / d) = 2 ^ (-50 : ℤ) := by rw [← mul_add, hpq, mul_one]
    clear u1 u2 hM prod
    generalize (2 : ℚ) ^ (-1075 : ℤ) = z at *
    generalize (2 : ℚ) ^ (-50 : ℤ) = t at *
    linarith
  clear hM u1 u2 prod
  have e73 : (2 : ℚ) ^ (-1073 : ℤ) = 4 * 2 ^ (-1075 : ℤ) := by
    rw [show (-1073 : ℤ) = 2 + -1075 by norm_num, zpow_add₀ (by norm_num)]
    norm_num
  have tiny := FloatMesh.tiny_le
  have z0 := pow_pos' (-1075)
  have e : rnd (rnd (yl * wl) + rnd (yr * wr)) - (yl * (b / d) + yr * (a / d)) =
      (rnd (rnd (yl * wl) + rnd (yr * wr)) - (rnd (yl * wl) + rnd (yr * wr))) + ((rnd (yl * wl) - yl * (b / d)) + (rnd (yr * wr) - yr * (a / d))) := by ring
  rw [e, e73]
  have t1 := abs_add_le (rnd (rnd (yl * wl) + rnd (yr * wr)) - (rnd (yl * wl) + rnd (yr * wr))) ((rnd (yl * wl) - yl * (b / d)) + (rnd (yr * wr) - yr * (a / d)))
  have t2 := abs_add_le (rnd (yl * wl) - yl * (b / d)) (rnd (yr * wr) - yr * (a / d))
  have m1 : (2 : ℚ) ^ (-53 : ℤ) * |rnd (yl * wl) + rnd (yr * wr)| ≤ 2 ^ (-53 : ℤ) * (2 * (M * (1 + 2 ^ (-52 : ℤ)) + 2 ^ (-1075 : ℤ))) :=
    mul_le_mul_of_nonneg_left (by linarith) (by norm_num)
  have m2 : M * (2 ^ (-53 : ℤ) * wl + 2 ^ (-50 : ℤ) * (b / d) + 2 ^ (-1075 : ℤ)) + M * (2 ^ (-53 : ℤ) * wr + 2 ^ (-50 : ℤ) * (a / d) + 2 ^ (-1075 : ℤ)) ≤
      M * (2 ^ (-53 : ℤ) * (1 + 2 ^ (-50 : ℤ) + 2 * 2 ^ (-60 : ℤ)) + 2 ^ (-50 : ℤ) + 2 * 2 ^ (-60 : ℤ)) := by
    rw [← mul_add]
    refine mul_le_mul_of_nonneg_left ?_ hM0
    have x1 : (2 : ℚ) ^ (-53 : ℤ) * (wl + wr) ≤ 2 ^ (-53 : ℤ) * (1 + 2 ^ (-50 : ℤ) + 2 * 2 ^ (-60 : ℤ)) := by
      refine mul_le_mul_of_nonneg_left ?_ (by norm_num)
      clear e73 m1
      generalize (2 : ℚ) ^ (-1075 : ℤ) = z at *
      generalize (2 : ℚ) ^ (-60 : ℤ) = s6 at *
      generalize (2 : ℚ) ^ (-50 : ℤ) = t at *
      linarith
    have x2 : (2 : ℚ) ^ (-50 : ℤ) * (b / d) + 2 ^ (-50 : ℤ) * (a / d) = 2 ^ (-50 : ℤ) := by rw [← mul_add, hpq, mul_one]
    clear e73 m1
    generalize (2 : ℚ) ^ (-1075 : ℤ) = z at *
    generalize (2 : ℚ) ^ (-60 : ℤ) = s6 at *
    generalize (2 : ℚ) ^ (-50 : ℤ) = t at *
    generalize (2 : ℚ) ^ (-53 : ℤ) = u at *
    linarith
  have m3 : M * (2 ^ (-53 : ℤ) * (1 + 2 ^ (-50 : ℤ) + 2 * 2 ^ (-60 : ℤ)) + 2 ^ (-50 : ℤ) + 2 * 2 ^ (-60 : ℤ)) + 2 ^ (-53 : ℤ) * (2 * (M * (1 + 2 ^ (-52 : ℤ)))) ≤
      2 ^ (-49 : ℤ) * M := by
    have : M * ((2 : ℚ) ^ (-53 : ℤ) * (1 + 2 ^ (-50 : ℤ) + 2 * 2 ^ (-60 : ℤ)) + 2 ^ (-50 : ℤ) + 2 * 2 ^ (-60 : ℤ) + 2 ^ (-53 : ℤ) * (2 * (1 + 2 ^ (-52 : ℤ)))) ≤ M * 2 ^ (-49 : ℤ) :=
      mul_le_mul_of_nonneg_left (by norm_num) hM0
    linarith
  have m4 : (2 : ℚ) ^ (-53 : ℤ) * (2 * 2 ^ (-1075 : ℤ)) ≤ 2 * 2 ^ (-1075 : ℤ) := by
    have : (2 : ℚ) ^ (-53 : ℤ) ≤ 1 := by norm_num
    have := mul_le_mul_of_nonneg_right this (show (0 : ℚ) ≤ 2 * 2 ^ (-1075 : ℤ) by linarith)
    linarith
  clear e73
  generalize (2 : ℚ) ^ (-1075 : ℤ) = z at *
  generalize (2 : ℚ) ^ (-60 : ℤ) = s6 at *
  generalize (2 : ℚ) ^ (-50 : ℤ) = t at *
  generalize (2 : ℚ) ^ (-53 : ℤ) = u at *
  generalize (2 : ℚ) ^ (-52 : ℤ) = u2 at *
  generalize (2 : ℚ) ^ (-49 : ℤ) = u9 at *
  linarith

/-- Between two nodes: the two neighbours are weighted. -/
theorem interp_inside {xs : List ℚ} (N : Nodes xs) (ys : List Num) (hy : ys.length = xs.length) (v : ℚ) (k : Nat) (hk : k + 1 < xs.length)
    (h1 : xs[k] ≤ v) (h2 : v < xs[k + 1]) {wl wr : Num} (hw : weight (.fin v) (.fin xs[k]) (.fin xs[k + 1]) = .ok (wl, wr)) :
    interp (fins xs) ys (.fin v) = .ok (Num.add (Num.mul ys[k] wl) (Num.mul ys[k + 1] wr)) := by
  obtain ⟨i, hi, i1, i2, i3⟩ := bisearch_spec xs v N.ne (strict_sorted N.inc)
  have a := (i3 k (by omega)).mp h1
  have b : ¬ ((k + 1 : Nat) : Int) ≤ i := fun h => absurd ((i3 (k + 1) hk).mpr h) (not_le.mpr h2)
  obtain rfl : i = k := by omega
  have g1 := fins_getN xs k (by omega)
  have g2 := fins_getN xs (k + 1) hk
  have g3 := pyGet_ofNat ys k (by omega)
  have g4 := pyGet_ofNat ys (k + 1) (by omega)
  have e : ((k : Int) + 1) = ((k + 1 : Nat) : Int) := by push_cast; rfl
  unfold interp interpWeight
  rw [search_fin, hi, fins_length]
  simp only [bind, Except.bind, pure, Except.pure, if_neg (show ¬ (k : Int) < 0 by omega), if_neg (show ¬ (k : Int) + 1 > (xs.length : Int) - 1 by omega)]
  rw [e, g1, g2]
  simp only
  rw [hw]
  simp only
  rw [g3, g4]

/-- C128: **interpolated values.** Between two nodes `value_at` is the straight line through them, up to a few units in the last place of the larger node value
(and, for denormal values, a few times the smallest double); it is finite. -/
theorem C128_linear {xs ys : List ℚ} (N : Nodes xs) (hy : ys.length = xs.length) {v : ℚ} (fv : IsF v) (k : Nat) (hk : k + 1 < xs.length)
    (h1 : xs[k] ≤ v) (h2 : v < xs[k + 1]) {M : ℚ} (hl : |ys[k]| ≤ M) (hr : |ys[k + 1]| ≤ M) (hM : M ≤ 2 ^ 1022) :
    ∃ r : ℚ, Linear.valueAt ⟨fins xs, fins ys⟩ (.fin v) = .ok (.fin r) ∧ IsF r ∧
      |r - line xs[k] xs[k + 1] ys[k] ys[k + 1] v| ≤ 2 ^ (-49 : ℤ) * M + 2 ^ (-1073 : ℤ) := by
  have fl : IsF xs[k] := N.isF _ (List.getElem_mem _)
  have fr : IsF xs[k + 1] := N.isF _ (List.getElem_mem _)
  obtain ⟨wl, wr, ew, Wl, Wr, _⟩ := weight_spec fv fl fr h1 h2 (N.small _ (List.getElem_mem _)) (N.small _ (List.getElem_mem _))
  have hd : 0 < xs[k + 1] - xs[k] := by linarith
  obtain ⟨r, er, fr', br⟩ := combine_err hd (show 0 ≤ v - xs[k] by linarith) (show 0 ≤ xs[k + 1] - v by linarith) (by ring) Wl Wr hl hr hM
  refine ⟨r, ?_, fr', ?_⟩
  · show interp (fins xs) (fins ys) (.fin v) = _
    rw [interp_inside N (fins ys) (by rw [fins_length, hy]) v k hk h1 h2 ew]
    simp only [fins, List.getElem_map]
    rw [er]
  · have e : line xs[k] xs[k + 1] ys[k] ys[k + 1] v = ys[k] * ((xs[k + 1] - v) / (xs[k + 1] - xs[k])) + ys[k + 1] * ((v - xs[k]) / (xs[k + 1] - xs[k])) := by
      unfold line
      field_simp
      ring
    rw [e]
    exact br

/-- C128: hence the value never leaves the range of the two neighbouring node values by more than that. -/
theorem C128_range {xs ys : List ℚ} (N : Nodes xs) (hy : ys.length = xs.length) {v : ℚ} (fv : IsF v) (k : Nat) (hk : k + 1 < xs.length)
    (h1 : xs[k] ≤ v) (h2 : v < xs[k + 1]) {M lo hi : ℚ} (hl : |ys[k]| ≤ M) (hr : |ys[k + 1]| ≤ M) (hM : M ≤ 2 ^ 1022)
    (l1 : lo ≤ ys[k]) (l2 : lo ≤ ys[k + 1]) (u1 : ys[k] ≤ hi) (u2 : ys[k + 1] ≤ hi) :
    ∃ r : ℚ, Linear.valueAt ⟨fins xs, fins ys⟩ (.fin v) = .ok (.fin r) ∧
      lo - (2 ^ (-49 : ℤ) * M + 2 ^ (-1073 : ℤ)) ≤ r ∧ r ≤ hi + (2 ^ (-49 : ℤ) * M + 2 ^ (-1073 : ℤ)) := by
  obtain ⟨r, er, -, br⟩ := C128_linear N hy fv k hk h1 h2 hl hr hM
  refine ⟨r, er, ?_⟩
  have hd : 0 < xs[k + 1] - xs[k] := by linarith
  have t0 : 0 ≤ (v - xs[k]) / (xs[k + 1] - xs[k]) := div_nonneg (by linarith) hd.le
  have t1 : (v - xs[k]) / (xs[k + 1] - xs[k]) ≤ 1 := (div_le_one hd).mpr (by linarith)
  rw [abs_le] at br
  unfold line at br
  generalize 2 ^ (-49 : ℤ) * M + 2 ^ (-1073 : ℤ) = E at *
  generalize (v - xs[k]) / (xs[k + 1] - xs[k]) = t at *
  constructor
  · nlinarith [br.1, br.2, mul_nonneg t0 (sub_nonneg.mpr l2), mul_nonneg (sub_nonneg.mpr t1) (sub_nonneg.mpr l1)]
  · nlinarith [br.1, br.2, mul_nonneg t0 (sub_nonneg.mpr u2), mul_nonneg (sub_nonneg.mpr t1) (sub_nonneg.mpr u1)]

theorem one_isF : IsF (1 : ℚ) := by simpa using isF_pow (e := 0) (by norm_num)

/-- y·1 + z·0 = y for finite doubles. -/
theorem keep {y z : ℚ} (fy : IsF y) (hb : |y| ≤ 2 ^ 1023) : Num.add (Num.mul (.fin y) (.fin 1)) (Num.mul (.fin z) (.fin 0)) = .fin y := by
  show Num.add (ofQ (y * 1)) (ofQ (z * 0)) = _
  rw [mul_one, mul_zero, ofQ_fin_le hb FloatBins.pow1023 FloatBins.lt1024, fy]
  have z0 : ofQ 0 = .fin 0 := by decide +kernel
  rw [z0]
  show ofQ (y + 0) = _
  rw [add_zero, ofQ_fin_le hb FloatBins.pow1023 FloatBins.lt1024, fy]

theorem keep' {y z : ℚ} (fy : IsF y) (hb : |y| ≤ 2 ^ 1023) : Num.add (Num.mul (.fin z) (.fin 0)) (Num.mul (.fin y) (.fin 1)) = .fin y := by
  show Num.add (ofQ (z * 0)) (ofQ (y * 1)) = _
  rw [mul_one, mul_zero, ofQ_fin_le hb FloatBins.pow1023 FloatBins.lt1024, fy]
  have z0 : ofQ 0 = .fin 0 := by decide +kernel
  rw [z0]
  show ofQ (0 + y) = _
  rw [zero_add, ofQ_fin_le hb FloatBins.pow1023 FloatBins.lt1024, fy]

theorem interp_last {xs : List ℚ} (ys : List Num) (hy : ys.length = xs.length) (v : Num) (hn : 0 < xs.length)
    (hs : search (fins xs) v = .ok ((xs.length - 1 : Nat) : Int)) :
    interp (fins xs) ys v = .ok (Num.add (Num.mul (ys[xs.length - 1]'(by omega)) (.fin 1)) (Num.mul (ys[xs.length - 1]'(by omega)) (.fin 0))) := by
  have g := pyGet_ofNat ys (xs.length - 1) (by omega)
  have e : (xs.length : Int) - 1 = ((xs.length - 1 : Nat) : Int) := by omega
  unfold interp interpWeight
  rw [hs, fins_length]
  simp only [bind, Except.bind, pure, Except.pure]
  rw [if_neg (by omega), if_pos (by omega)]
  simp only
  rw [e, g]

theorem interp_first {xs : List ℚ} (ys : List Num) (hy : ys.length = xs.length) (v : Num) (hn : 0 < xs.length) (hs : search (fins xs) v = .ok (-1)) :
    interp (fins xs) ys v = .ok (Num.add (Num.mul (ys[0]'(by omega)) (.fin 0)) (Num.mul (ys[0]'(by omega)) (.fin 1))) := by
  have g := pyGet_ofNat ys 0 (by omega)
  simp only [Nat.cast_zero] at g
  unfold interp interpWeight
  rw [hs]
  simp only [bind, Except.bind, pure, Except.pure]
  rw [if_pos (by omega)]
  simp only
  rw [g]

theorem search_ge_last {xs : List ℚ} (hne : xs ≠ []) (hs : xs.Pairwise (· ≤ ·)) (v : ℚ) (hn : 0 < xs.length) (h : xs[xs.length - 1] ≤ v) :
    search (fins xs) (.fin v) = .ok ((xs.length - 1 : Nat) : Int) := by
  obtain ⟨i, hi, i1, i2, i3⟩ := bisearch_spec xs v hne hs
  have := (i3 (xs.length - 1) (by omega)).mp h
  rw [search_fin, hi]
  congr 1
  omega

theorem search_lt_first {xs : List ℚ} (hne : xs ≠ []) (hs : xs.Pairwise (· ≤ ·)) (v : ℚ) (hn : 0 < xs.length) (h : v < xs[0]) :
    search (fins xs) (.fin v) = .ok (-1) := by
  obtain ⟨i, hi, i1, i2, i3⟩ := bisearch_spec xs v hne hs
  have : ¬ ((0 : Nat) : Int) ≤ i := fun h' => absurd ((i3 0 hn).mpr h') (not_le.mpr h)
  rw [search_fin, hi]
  congr 1
  omega

/-- C128: at a node the value is the node's value, exactly (node values finite, of at most 2^1023). -/
theorem C128_node {xs ys : List ℚ} (N : Nodes xs) (hy : ys.length = xs.length) (k : Nat) (hk : k < xs.length) (fy : IsF (ys[k]'(by omega)))
    (by' : |ys[k]'(by omega)| ≤ 2 ^ 1023) : Linear.valueAt ⟨fins xs, fins ys⟩ (.fin xs[k]) = .ok (.fin (ys[k]'(by omega))) := by
  show interp (fins xs) (fins ys) (.fin xs[k]) = _
  by_cases h : k + 1 < xs.length
  · have hlt : xs[k] < xs[k + 1] := sorted_lt N.inc (by omega) h
    have fl : IsF xs[k] := N.isF _ (List.getElem_mem _)
    have fr : IsF xs[k + 1] := N.isF _ (List.getElem_mem _)
    obtain ⟨wl, wr, ew, -, -, hx⟩ := weight_spec fl fl fr (le_refl _) hlt (N.small _ (List.getElem_mem _)) (N.small _ (List.getElem_mem _))
    obtain ⟨rfl, rfl⟩ := hx rfl
    rw [interp_inside N (fins ys) (by rw [fins_length, hy]) _ k h (le_refl _) hlt ew]
    simp only [fins, List.getElem_map]
    rw [keep fy by']
  · obtain rfl : k = xs.length - 1 := by omega
    rw [interp_last (fins ys) (by rw [fins_length, hy]) _ (by omega) (search_ge_last N.ne (strict_sorted N.inc) _ (by omega) (le_refl _))]
    simp only [fins, List.getElem_map]
    rw [keep fy by']

/-- C128: outside the nodes the value is the one at the nearest boundary, exactly: below the first node and at -∞ the first, from the last node on and at +∞ the last. -/
theorem C128_outside {xs ys : List ℚ} (N : Nodes xs) (hy : ys.length = xs.length) (hn : 0 < xs.length) (fy : ∀ y ∈ ys, IsF y)
    (hb : ∀ y ∈ ys, |y| ≤ 2 ^ 1023) :
    (∀ v : ℚ, v < xs[0] → Linear.valueAt ⟨fins xs, fins ys⟩ (.fin v) = .ok (.fin (ys[0]'(by omega)))) ∧
    (∀ v : ℚ, xs[xs.length - 1] ≤ v → Linear.valueAt ⟨fins xs, fins ys⟩ (.fin v) = .ok (.fin (ys[xs.length - 1]'(by omega)))) ∧
    Linear.valueAt ⟨fins xs, fins ys⟩ (.inf true) = .ok (.fin (ys[0]'(by omega))) ∧
    Linear.valueAt ⟨fins xs, fins ys⟩ (.inf false) = .ok (.fin (ys[xs.length - 1]'(by omega))) := by
  have hy' : (fins ys).length = xs.length := by rw [fins_length, hy]
  have A : ∀ v, search (fins xs) v = .ok (-1) → interp (fins xs) (fins ys) v = .ok (.fin (ys[0]'(by omega))) := by
    intro v hv
    rw [interp_first (fins ys) hy' v hn hv]
    simp only [fins, List.getElem_map]
    rw [keep' (fy _ (List.getElem_mem _)) (hb _ (List.getElem_mem _))]
  have B : ∀ v, search (fins xs) v = .ok ((xs.length - 1 : Nat) : Int) → interp (fins xs) (fins ys) v = .ok (.fin (ys[xs.length - 1]'(by omega))) := by
    intro v hv
    rw [interp_last (fins ys) hy' v hn hv]
    simp only [fins, List.getElem_map]
    rw [keep (fy _ (List.getElem_mem _)) (hb _ (List.getElem_mem _))]
  exact ⟨fun v h => A _ (search_lt_first N.ne (strict_sorted N.inc) v hn h), fun v h => B _ (search_ge_last N.ne (strict_sorted N.inc) v hn h),
    A _ (search_bot xs N.ne), B _ (search_top xs N.ne _ (fun _ => rfl))⟩

/-- C128, a finding: **NaN is not propagated.** `value_at(nan)` is the last node's value: the comparisons of the search are all false. -/
theorem C128_nan {xs ys : List ℚ} (N : Nodes xs) (hy : ys.length = xs.length) (hn : 0 < xs.length) (fy : ∀ y ∈ ys, IsF y) (hb : ∀ y ∈ ys, |y| ≤ 2 ^ 1023) :
    Linear.valueAt ⟨fins xs, fins ys⟩ .nan = .ok (.fin (ys[xs.length - 1]'(by omega))) := by
  show interp (fins xs) (fins ys) .nan = _
  rw [interp_last (fins ys) (by rw [fins_length, hy]) _ hn (search_top xs N.ne _ (fun _ => rfl))]
  simp only [fins, List.getElem_map]
  rw [keep (fy _ (List.getElem_mem _)) (hb _ (List.getElem_mem _))]

/-- C128, a finding: **an infinite node value spoils exact points.** Outside the nodes an infinite boundary value gives NaN (∞·0), and at a node whose right
neighbour is infinite the value is NaN although the node's own value is finite. -/
theorem C128_inf {xs : List ℚ} (N : Nodes xs) (ys : List Num) (hy : ys.length = xs.length) (hn : 0 < xs.length) :
    (∀ v : ℚ, v < xs[0] → (∃ s, ys[0]'(by omega) = .inf s) → Linear.valueAt ⟨fins xs, ys⟩ (.fin v) = .ok .nan) ∧
    (∀ v : ℚ, xs[xs.length - 1] ≤ v → (∃ s, ys[xs.length - 1]'(by omega) = .inf s) → Linear.valueAt ⟨fins xs, ys⟩ (.fin v) = .ok .nan) ∧
    (∀ (k : Nat) (h : k + 1 < xs.length), (∃ s, ys[k + 1]'(by omega) = .inf s) → Linear.valueAt ⟨fins xs, ys⟩ (.fin xs[k]) = .ok .nan) := by
  have nan_r : ∀ a : Num, Num.add a .nan = .nan := by intro a; cases a <;> rfl
  have inf0 : ∀ s, Num.mul (.inf s) (.fin 0) = .nan := by intro s; simp [Num.mul]
  refine ⟨?_, ?_, ?_⟩
  · rintro v h ⟨s, e⟩
    show interp (fins xs) ys (.fin v) = _
    rw [interp_first ys hy _ hn (search_lt_first N.ne (strict_sorted N.inc) v hn h), e, inf0]
    rfl
  · rintro v h ⟨s, e⟩
    show interp (fins xs) ys (.fin v) = _
    rw [interp_last ys hy _ hn (search_ge_last N.ne (strict_sorted N.inc) v hn h), e, inf0, nan_r]
  · rintro k h ⟨s, e⟩
    have hlt : xs[k] < xs[k + 1] := sorted_lt N.inc (by omega) h
    have fl : IsF xs[k] := N.isF _ (List.getElem_mem _)
    have fr : IsF xs[k + 1] := N.isF _ (List.getElem_mem _)
    obtain ⟨wl, wr, ew, -, -, hx⟩ := weight_spec fl fl fr (le_refl _) hlt (N.small _ (List.getElem_mem _)) (N.small _ (List.getElem_mem _))
    obtain ⟨rfl, rfl⟩ := hx rfl
    show interp (fins xs) ys (.fin xs[k]) = _
    rw [interp_inside N ys hy _ k h (le_refl _) hlt ew, e, inf0, nan_r]

/-- C128: `bisearch_interp_fix_oob`: the given values strictly outside the nodes (also for ±∞), interpolation inside and at both ends. -/
theorem C128_fix_oob {xs ys : List ℚ} (N : Nodes xs) (hn : 0 < xs.length) (yL yR : Num) :
    (∀ v : ℚ, v < xs[0] → interpFixOob (fins xs) (fins ys) (.fin v) yL yR = .ok yL) ∧
    (∀ v : ℚ, xs[xs.length - 1] < v → interpFixOob (fins xs) (fins ys) (.fin v) yL yR = .ok yR) ∧
    (∀ v : ℚ, xs[0] ≤ v → v ≤ xs[xs.length - 1] →
      interpFixOob (fins xs) (fins ys) (.fin v) yL yR = Linear.valueAt ⟨fins xs, fins ys⟩ (.fin v)) ∧
    interpFixOob (fins xs) (fins ys) (.inf true) yL yR = .ok yL ∧ interpFixOob (fins xs) (fins ys) (.inf false) yL yR = .ok yR := by
  have g0 := fins_getN xs 0 hn
  simp only [Nat.cast_zero] at g0
  have g1 : pyGet (fins xs) (-1) = .ok (.fin xs[xs.length - 1]) := by
    have e : (-1 + (xs.length : Int)).toNat = xs.length - 1 := by omega
    rw [fins_get]
    unfold pyGet
    simp [e, hn, show xs.length - 1 < xs.length by omega, show (1 : Int) ≤ xs.length by omega]
  have hle : xs[0] ≤ xs[xs.length - 1] := sorted_le (strict_sorted N.inc) (Nat.zero_le _) (by omega)
  have L : ∀ a b : ℚ, Num.lt (.fin a) (.fin b) = decide (a < b) := fun _ _ => rfl
  unfold interpFixOob
  rw [g0, g1]
  refine ⟨fun v h => ?_, fun v h => ?_, fun v h1 h2 => ?_, ?_, ?_⟩
  · simp [L, h, bind, Except.bind, pure, Except.pure]
  · have : ¬ v < xs[0] := by linarith
    simp [L, h, this, bind, Except.bind, pure, Except.pure]
  · have a : ¬ v < xs[0] := by linarith
    have b : ¬ xs[xs.length - 1] < v := by linarith
    simp [L, a, b, bind, Except.bind, pure, Except.pure, Linear.valueAt]
  · simp [Num.lt, bind, Except.bind, pure, Except.pure]
  · simp [Num.lt, bind, Except.bind, pure, Except.pure]

/-! ### Nearest node -/

/-- C128: **the nearest node.** No node is closer than the one chosen by `bisearch_nearest`, up to a factor of 1 + 2^-51 (the two distances are rounded before they
are compared). Outside the nodes it is exactly the boundary node; for +∞ and NaN the last, for -∞ the first. -/
theorem C128_nearest {xs : List ℚ} (hne : xs ≠ []) (hs : xs.Pairwise (· ≤ ·)) (isF : ∀ x ∈ xs, IsF x) (small : ∀ x ∈ xs, |x| ≤ 2 ^ 1021) :
    (∀ v : ℚ, IsF v → ∃ j : Nat, ∃ hj : j < xs.length, nearest (fins xs) (.fin v) = .ok (j : Int) ∧
      ∀ x ∈ xs, |v - xs[j]| ≤ (1 + 2 ^ (-51 : ℤ)) * |v - x|) ∧
    nearest (fins xs) (.inf true) = .ok 0 ∧ nearest (fins xs) (.inf false) = .ok ((xs.length - 1 : Nat) : Int) ∧
    nearest (fins xs) .nan = .ok ((xs.length - 1 : Nat) : Int) := by
  have hn : 0 < xs.length := List.length_pos_iff.mpr hne
  have low : ∀ v, search (fins xs) v = .ok (-1) → nearest (fins xs) v = .ok 0 := by
    intro v hv
    unfold nearest
    simp [hv, bind, Except.bind, pure, Except.pure]
  have top : ∀ v, search (fins xs) v = .ok ((xs.length - 1 : Nat) : Int) → nearest (fins xs) v = .ok ((xs.length - 1 : Nat) : Int) := by
    intro v hv
    unfold nearest
    rw [hv, fins_length]
    simp only [bind, Except.bind, pure, Except.pure]
    rw [if_neg (by omega), if_pos (by omega)]
    congr 1
    omega
  refine ⟨?_, low _ (search_bot xs hne), top _ (search_top xs hne _ (fun _ => rfl)), top _ (search_top xs hne _ (fun _ => rfl))⟩
  intro v fv
  have weaken : ∀ a b : ℚ, 0 ≤ b → a ≤ b → a ≤ (1 + 2 ^ (-51 : ℤ)) * b := by
    intro a b hb h
    have := mul_nonneg (pow_pos' (-51)).le hb
    linarith
  obtain ⟨i, hi, i1, i2, i3⟩ := bisearch_spec xs v hne hs
  by_cases hneg : i = -1
  · refine ⟨0, hn, low _ (by rw [search_fin, hi, hneg]), fun x hx => weaken _ _ (abs_nonneg _) ?_⟩
    obtain ⟨m, hm, rfl⟩ := List.getElem_of_mem hx
    have h0 : v < xs[0] := not_le.mp (fun h => by have := (i3 0 hn).mp h; omega)
    have := sorted_le hs (Nat.zero_le m) hm
    rw [abs_of_neg (by linarith), abs_of_neg (by linarith)]
    linarith
  by_cases hlast : i = ((xs.length - 1 : Nat) : Int)
  · refine ⟨xs.length - 1, by omega, top _ (by rw [search_fin, hi, hlast]), fun x hx => weaken _ _ (abs_nonneg _) ?_⟩
    obtain ⟨m, hm, rfl⟩ := List.getElem_of_mem hx
    have h0 : xs[xs.length - 1] ≤ v := (i3 _ (by omega)).mpr (by omega)
    have := sorted_le hs (show m ≤ xs.length - 1 by omega) (by omega)
    rw [abs_of_nonneg (by linarith), abs_of_nonneg (by linarith)]
    linarith
  obtain ⟨k, rfl⟩ : ∃ k : Nat, i = k := ⟨i.toNat, by omega⟩
  have hk : k + 1 < xs.length := by omega
  have h1 : xs[k] ≤ v := (i3 k (by omega)).mpr (le_refl _)
  have h2 : v < xs[k + 1] := not_le.mp (fun h => by have := (i3 (k + 1) hk).mp h; omega)
  have sl := small xs[k] (List.getElem_mem _)
  have sr := small xs[k + 1] (List.getElem_mem _)
  have sv : |v| ≤ 2 ^ 1021 := by
    rw [abs_le] at sl sr ⊢
    exact ⟨by linarith [sl.1], by linarith [sr.2]⟩
  obtain ⟨-, -, a1, a2, b1, b2, -⟩ := dist_bounds fv (isF xs[k] (List.getElem_mem _)) (isF xs[k + 1] (List.getElem_mem _)) h1 h2
  have e : nearest (fins xs) (.fin v) = .ok (if rnd (v - xs[k]) < rnd (xs[k + 1] - v) then (k : Int) else ((k + 1 : Nat) : Int)) := by
    have g1 := fins_getN xs k (by omega)
    have g2 := fins_getN xs (k + 1) hk
    have ec : ((k : Int) + 1) = ((k + 1 : Nat) : Int) := by push_cast; rfl
    unfold nearest
    rw [search_fin, hi, fins_length]
    simp only [bind, Except.bind, pure, Except.pure, if_neg (show ¬ (k : Int) < 0 by omega), if_neg (show ¬ (k : Int) + 1 > (xs.length : Int) - 1 by omega)]
    rw [ec, g1, g2]
    simp only
    rw [sub_fin (le22 sv) (le22 sl), sub_fin (le22 sr) (le22 sv)]
    simp only [Num.lt, decide_eq_true_eq]
  -- every node is on one side
  have side : ∀ x ∈ xs, x ≤ xs[k] ∨ xs[k + 1] ≤ x := by
    intro x hx
    obtain ⟨m, hm, rfl⟩ := List.getElem_of_mem hx
    rcases Nat.lt_or_ge k m with h | h
    · exact Or.inr (sorted_le hs h hm)
    · exact Or.inl (sorted_le hs h (by omega))
  by_cases hlt : rnd (v - xs[k]) < rnd (xs[k + 1] - v)
  · rw [if_pos hlt] at e
    refine ⟨k, by omega, e, fun x hx => weaken _ _ (abs_nonneg _) ?_⟩
    have hd : v - xs[k] < xs[k + 1] - v := by
      by_contra h
      exact absurd (rnd_mono (not_lt.mp h)) (not_le.mpr hlt)
    rw [abs_of_nonneg (show 0 ≤ v - xs[k] by linarith)]
    rcases side x hx with h | h
    · rw [abs_of_nonneg (by linarith)]; linarith
    · rw [abs_of_neg (by linarith)]; linarith
  · rw [if_neg hlt] at e
    refine ⟨k + 1, hk, e, fun x hx => ?_⟩
    rw [abs_of_neg (show v - xs[k + 1] < 0 by linarith)]
    rcases side x hx with h | h
    · have key : xs[k + 1] - v ≤ (1 + 2 ^ (-51 : ℤ)) * (v - xs[k]) := by
        have h3 : (xs[k + 1] - v) * (1 - 2 ^ (-53 : ℤ)) ≤ (v - xs[k]) * (1 + 2 ^ (-53 : ℤ)) := by linarith [not_lt.mp hlt]
        have h4 : (v - xs[k]) * (1 + 2 ^ (-53 : ℤ)) ≤ (v - xs[k]) * ((1 + 2 ^ (-51 : ℤ)) * (1 - 2 ^ (-53 : ℤ))) :=
          mul_le_mul_of_nonneg_left (by norm_num) (by linarith)
        have h5 : (xs[k + 1] - v) * (1 - 2 ^ (-53 : ℤ)) ≤ ((1 + 2 ^ (-51 : ℤ)) * (v - xs[k])) * (1 - 2 ^ (-53 : ℤ)) := by linarith
        exact le_of_mul_le_mul_right h5 (by norm_num)
      rw [abs_of_nonneg (show 0 ≤ v - x by linarith)]
      have := mul_le_mul_of_nonneg_left (show v - xs[k] ≤ v - x by linarith) (show (0 : ℚ) ≤ 1 + 2 ^ (-51 : ℤ) by norm_num)
      linarith
    · refine weaken _ _ (abs_nonneg _) ?_
      rw [abs_of_neg (show v - x < 0 by linarith)]
      linarith

/-! ### Construction -/

theorem sub_zero_iff {a b : Num} (ha : a.Ok) (hb : b.Ok) : Num.sub b a = .fin 0 ↔ ∃ q, a = .fin q ∧ b = .fin q := by
  cases a with
  | nan => cases b <;> simp [Num.sub, Num.add, Num.neg]
  | inf s => cases b <;> cases s <;> simp [Num.sub, Num.add, Num.neg] <;> (try split) <;> simp_all
  | fin x =>
    cases b with
    | nan => simp [Num.sub, Num.add, Num.neg]
    | inf s => simp [Num.sub, Num.add, Num.neg]
    | fin y =>
      have e : Num.sub (.fin y) (.fin x) = ofQ (y - x) := by
        show ofQ (y + -x) = _
        rw [sub_eq_add_neg]
      rw [e]
      constructor
      · intro h
        have hr : rnd (y - x) = 0 := by
          unfold ofQ at h
          split at h
          · cases h
          · exact Num.fin.inj h
        rcases lt_trichotomy x y with l | l | l
        · have := rnd_sub_pos hb.1 ha.1 l
          linarith
        · exact ⟨x, rfl, by rw [l]⟩
        · have := rnd_sub_neg hb.1 ha.1 l
          linarith
      · rintro ⟨q, h1, h2⟩
        cases h1
        cases h2
        rw [sub_self]
        decide +kernel

theorem diffs_all (xs : List Num) (h : ∀ x ∈ xs, x.Ok) : (diffs xs).all (fun d => decide (d ≠ .fin 0)) = true ↔
    ∀ (i : Nat) (hi : i + 1 < xs.length), ¬ ∃ q, xs[i] = .fin q ∧ xs[i + 1] = .fin q := by
  induction xs with
  | nil => simp [diffs]
  | cons a t ih =>
    cases t with
    | nil => simp [diffs]
    | cons b t =>
      have h2 := ih (fun x hx => h x (List.mem_cons_of_mem _ hx))
      rw [diffs, List.all_cons, Bool.and_eq_true, h2, decide_eq_true_eq, Ne, sub_zero_iff (h a (by simp)) (h b (by simp))]
      constructor
      · rintro ⟨h0, h1⟩ i hi
        cases i with
        | zero => exact h0
        | succ i => exact h1 i (by simpa using hi)
      · intro h0
        exact ⟨h0 0 (by simp), fun i hi => h0 (i + 1) (by simpa using hi)⟩

/-- C128: **what the constructor checks.** With `check` the nodes are accepted exactly when there are at least two, as many values, and no two *adjacent finite* nodes
are equal; the order is not checked, nor NaN, nor repeated infinities. Anything else fails the assertion. Without `check` only the number of nodes counts. -/
theorem C128_init (xs ys : List Num) (h : ∀ x ∈ xs, x.Ok) :
    ((ys.length = xs.length ∧ 2 ≤ xs.length ∧ ∀ (i : Nat) (hi : i + 1 < xs.length), ¬ ∃ q, xs[i] = .fin q ∧ xs[i + 1] = .fin q) →
      Linear.init xs ys true = .ok ⟨xs, ys⟩) ∧
    (¬ (ys.length = xs.length ∧ 2 ≤ xs.length ∧ ∀ (i : Nat) (hi : i + 1 < xs.length), ¬ ∃ q, xs[i] = .fin q ∧ xs[i + 1] = .fin q) →
      Linear.init xs ys true = .error .assertionError) ∧
    (2 ≤ xs.length → Linear.init xs ys false = .ok ⟨xs, ys⟩) ∧ (xs.length < 2 → Linear.init xs ys false = .error .assertionError) := by
  rw [← diffs_all xs h]
  unfold Linear.init
  refine ⟨?_, ?_, ?_, ?_⟩
  · rintro ⟨h1, h2, h3⟩
    simp only [if_true, h1, h2, h3, ge_iff_le, pyAssert, decide_true]
    rfl
  · intro hn
    by_cases h1 : ys.length = xs.length
    · by_cases h3 : (diffs xs).all (fun d => decide (d ≠ .fin 0)) = true
      · have h2 : ¬ 2 ≤ xs.length := fun h2 => hn ⟨h1, h2, h3⟩
        simp only [if_true, h1, h2, h3, ge_iff_le, pyAssert, decide_true]
        rfl
      · simp only [if_true, h1, Bool.not_eq_true] at h3 ⊢
        simp only [h3, pyAssert]
        rfl
    · simp only [if_true, h1, pyAssert]
      rfl
  · intro h2
    simp only [h2, ge_iff_le, pyAssert]
    rfl
  · intro h2
    have : ¬ 2 ≤ xs.length := by omega
    simp only [this, ge_iff_le, pyAssert]
    rfl

/-! ### Derivative -/

/-- A rounded difference quotient. -/
theorem slope_err {y0 y1 x0 x1 : ℚ} (f0 : IsF y0) (f1 : IsF y1) (g0 : IsF x0) (g1 : IsF x1) (hx : x0 < x1) (b0 : |y0| ≤ 2 ^ 1021) (b1 : |y1| ≤ 2 ^ 1021)
    (c0 : |x0| ≤ 2 ^ 1021) (c1 : |x1| ≤ 2 ^ 1021) (hs : |(y1 - y0) / (x1 - x0)| ≤ 2 ^ 1022) :
    ∃ d : ℚ, Num.div (Num.sub (.fin y1) (.fin y0)) (Num.sub (.fin x1) (.fin x0)) = .fin d ∧
      |d - (y1 - y0) / (x1 - x0)| ≤ 2 ^ (-50 : ℤ) * |(y1 - y0) / (x1 - x0)| + 2 ^ (-1075 : ℤ) := by
  have hd : 0 < x1 - x0 := by linarith
  have D0 : 0 < rnd (x1 - x0) := rnd_sub_pos g1 g0 hx
  have n := rnd_sub_err f1 f0
  have d := rnd_sub_err g1 g0
  rw [sub_fin (le22 b1) (le22 b0), sub_fin (le22 c1) (le22 c0)]
  have es : (y1 - y0) / (x1 - x0) * (x1 - x0) = y1 - y0 := div_mul_cancel₀ _ hd.ne'
  simp only [Num.div, if_neg D0.ne']
  rw [abs_of_pos hd] at d
  generalize rnd (y1 - y0) = N at *
  generalize rnd (x1 - x0) = D at *
  generalize x1 - x0 = dx at *
  generalize y1 - y0 = dy at *
  have q : |N / D - dy / dx| ≤ 2 ^ (-51 : ℤ) * |dy / dx| := by
    have e : N / D - dy / dx = ((N - dy) + dy / dx * (dx - D)) / D := by
      rw [mul_sub, es]
      field_simp
      ring
    rw [e, abs_div, abs_of_pos D0, div_le_iff₀ D0]
    have t := abs_add_le (N - dy) (dy / dx * (dx - D))
    have m : |dy / dx * (dx - D)| ≤ |dy / dx| * (2 ^ (-53 : ℤ) * dx) := by
      rw [abs_mul, abs_sub_comm dx D]
      exact mul_le_mul_of_nonneg_left d (abs_nonneg _)
    have ady : |dy| = |dy / dx| * dx := by rw [← es, abs_mul, abs_of_pos hd, es]
    rw [ady] at n
    have lo : dx * (1 - 2 ^ (-53 : ℤ)) ≤ D := by linarith [(abs_le.mp d).1]
    have k1 : 2 ^ (-51 : ℤ) * |dy / dx| * (dx * (1 - 2 ^ (-53 : ℤ))) ≤ 2 ^ (-51 : ℤ) * |dy / dx| * D :=
      mul_le_mul_of_nonneg_left lo (mul_nonneg (by norm_num) (abs_nonneg _))
    have k2 : |dy / dx| * dx * (2 * 2 ^ (-53 : ℤ)) ≤ |dy / dx| * dx * (2 ^ (-51 : ℤ) * (1 - 2 ^ (-53 : ℤ))) :=
      mul_le_mul_of_nonneg_left (by norm_num) (mul_nonneg (abs_nonneg _) hd.le)
    linarith
  have ql : |N / D| ≤ (1 + 2 ^ (-51 : ℤ)) * |dy / dx| := by
    have := abs_add_le (N / D - dy / dx) (dy / dx)
    rw [sub_add_cancel] at this
    linarith
  have big : |N / D| ≤ 2 ^ 1023 := by
    have e : (2 : ℚ) ^ 1023 = 2 * 2 ^ 1022 := by rw [pow_succ]; ring
    rw [e]
    have s0 := abs_nonneg (dy / dx)
    have : (1 + 2 ^ (-51 : ℤ)) * |dy / dx| ≤ 2 * |dy / dx| := mul_le_mul_of_nonneg_right (by norm_num) s0
    exact le_trans ql (le_trans this (mul_le_mul_of_nonneg_left hs (by norm_num)))
  refine ⟨rnd (N / D), ofQ_fin_le big FloatBins.pow1023 FloatBins.lt1024, ?_⟩
  have r := FloatMesh.rnd_err_all (N / D)
  have t := abs_add_le (rnd (N / D) - N / D) (N / D - dy / dx)
  rw [sub_add_sub_cancel] at t
  have s0 := abs_nonneg (dy / dx)
  have k : (2 : ℚ) ^ (-53 : ℤ) * |N / D| ≤ 2 ^ (-53 : ℤ) * ((1 + 2 ^ (-51 : ℤ)) * |dy / dx|) := mul_le_mul_of_nonneg_left ql (by norm_num)
  have k3 : ((2 : ℚ) ^ (-53 : ℤ) * (1 + 2 ^ (-51 : ℤ)) + 2 ^ (-51 : ℤ)) * |dy / dx| ≤ 2 ^ (-50 : ℤ) * |dy / dx| := mul_le_mul_of_nonneg_right (by norm_num) s0
  clear big hs
  generalize (2 : ℚ) ^ (-1075 : ℤ) = z at *
  linarith

theorem slopeNodes_eq {n i : Nat} (hn : 2 ≤ n) (hi : i < n) : slopeNodes n i = (((i - 1 : Nat) : Int), ((min (i + 1) (n - 1) : Nat) : Int)) := by
  unfold slopeNodes
  split_ifs <;> (ext <;> simp <;> omega)

theorem slope_raw {xs : List ℚ} (ys : List Num) (hy : ys.length = xs.length) (hn : 2 ≤ xs.length) (i : Nat) (hi : i < xs.length) :
    slopeAt (fins xs) ys i = pyDiv (Num.sub (ys[min (i + 1) (xs.length - 1)]'(by omega)) (ys[i - 1]'(by omega)))
      (Num.sub (.fin (xs[min (i + 1) (xs.length - 1)]'(by omega))) (.fin (xs[i - 1]'(by omega)))) := by
  have g1 := fins_getN xs (i - 1) (by omega)
  have g2 := fins_getN xs (min (i + 1) (xs.length - 1)) (by omega)
  have g3 := pyGet_ofNat ys (i - 1) (by omega)
  have g4 := pyGet_ofNat ys (min (i + 1) (xs.length - 1)) (by omega)
  unfold slopeAt
  rw [fins_length, slopeNodes_eq hn hi]
  simp only
  rw [g1, g2, g3, g4]
  rfl

theorem slope_at {xs : List ℚ} (N : Nodes xs) (ys : List Num) (hy : ys.length = xs.length) (hn : 2 ≤ xs.length) (i : Nat) (hi : i < xs.length) :
    slopeAt (fins xs) ys i = .ok (Num.div (Num.sub (ys[min (i + 1) (xs.length - 1)]'(by omega)) (ys[i - 1]'(by omega)))
      (Num.sub (.fin (xs[min (i + 1) (xs.length - 1)]'(by omega))) (.fin (xs[i - 1]'(by omega))))) := by
  have hlt : xs[i - 1] < xs[min (i + 1) (xs.length - 1)] := sorted_lt N.inc (by omega) (by omega)
  have D0 := rnd_sub_pos (N.isF _ (List.getElem_mem _)) (N.isF _ (List.getElem_mem _)) hlt
  rw [slope_raw ys hy hn i hi, pyDiv, if_neg]
  rw [sub_fin (le22 (N.small _ (List.getElem_mem _))) (le22 (N.small _ (List.getElem_mem _)))]
  exact fun h => D0.ne' (Num.fin.inj h)

theorem mapM_ok {α β : Type} (f : α → PyM β) (g : α → β) (l : List α) (h : ∀ a ∈ l, f a = .ok (g a)) : l.mapM f = .ok (l.map g) := by
  induction l with
  | nil => rfl
  | cons a t ih =>
    rw [List.mapM_cons, h a (by simp), ih (fun b hb => h b (List.mem_cons_of_mem _ hb))]
    rfl

/-- C128: **the derivative.** `derivative()` is an interpolation on the same nodes; at node i its value is the slope between the two neighbouring nodes (at the ends,
between the end and its neighbour), with relative error of at most 2^-50 (plus half the smallest double) wherever the slope does not overflow. -/
theorem C128_derivative {xs ys : List ℚ} (N : Nodes xs) (hn : 2 ≤ xs.length) (hy : ys.length = xs.length) (fy : ∀ y ∈ ys, IsF y) (hb : ∀ y ∈ ys, |y| ≤ 2 ^ 1021) :
    ∃ ds : List Num, Linear.derivative ⟨fins xs, fins ys⟩ = .ok ⟨fins xs, ds⟩ ∧ ∃ hl : ds.length = xs.length,
      ∀ (i l r : Nat) (hi : i < xs.length) (hl' : l = i - 1) (hr : r = if i + 1 = xs.length then i else i + 1) (s : ℚ),
        s = ((ys[r]'(by split at hr <;> omega)) - (ys[l]'(by omega))) / ((xs[r]'(by split at hr <;> omega)) - (xs[l]'(by omega))) → |s| ≤ 2 ^ 1022 →
        ∃ d : ℚ, ds[i]'(by omega) = .fin d ∧ |d - s| ≤ 2 ^ (-50 : ℤ) * |s| + 2 ^ (-1075 : ℤ) := by
  have hy' : (fins ys).length = xs.length := by rw [fins_length, hy]
  have ok : ∀ i ∈ List.range xs.length, slopeAt (fins xs) (fins ys) i = .ok (match slopeAt (fins xs) (fins ys) i with | .ok d => d | .error _ => .nan) := by
    intro i hi
    rw [slope_at N (fins ys) hy' hn i (List.mem_range.mp hi)]
  refine ⟨(List.range xs.length).map fun i => (match slopeAt (fins xs) (fins ys) i with | .ok d => d | .error _ => .nan), ?_, by simp, ?_⟩
  · unfold Linear.derivative
    simp only [fins_length]
    rw [mapM_ok _ _ _ ok]
    have h2 : (fins xs).length ≥ 2 := by rw [fins_length]; exact hn
    simp only [bind, Except.bind, Linear.init, h2, pyAssert]
    rfl
  · intro i l r hi hl hr s hs hsb
    have er : r = min (i + 1) (xs.length - 1) := by split at hr <;> omega
    subst hl er
    simp only [List.getElem_map, List.getElem_range]
    rw [slope_at N (fins ys) hy' hn i hi]
    simp only [fins, List.getElem_map]
    rw [hs] at hsb ⊢
    have hlt : xs[i - 1] < xs[min (i + 1) (xs.length - 1)] := sorted_lt N.inc (by omega) (by omega)
    exact slope_err (fy _ (List.getElem_mem _)) (fy _ (List.getElem_mem _)) (N.isF _ (List.getElem_mem _)) (N.isF _ (List.getElem_mem _)) hlt
      (hb _ (List.getElem_mem _)) (hb _ (List.getElem_mem _)) (N.small _ (List.getElem_mem _)) (N.small _ (List.getElem_mem _)) hsb

/-! ### Concrete cases -/

theorem int_isF (m : ℤ) (h : |m| ≤ 2 ^ 53) : IsF (m : ℚ) := by
  have := isF_of (m := m) (e := 0) h (by norm_num)
  simpa using this

theorem small_abs {q : ℚ} (h : |q| ≤ 10) : |q| ≤ 2 ^ 1021 :=
  le_trans h (le_trans (show (10 : ℚ) ≤ 2 ^ 4 by norm_num) (pow_le_pow_right₀ (by norm_num) (by norm_num)))

/-- Three nodes. -/
theorem nodes3 : Nodes [0, 1, 3] := by
  refine ⟨by simp, by norm_num, ?_, ?_⟩
  · intro x hx
    simp only [List.mem_cons, List.not_mem_nil, or_false] at hx
    rcases hx with rfl | rfl | rfl
    · exact rnd_zero
    · exact one_isF
    · exact_mod_cast int_isF 3 (by norm_num)
  · intro x hx
    simp only [List.mem_cons, List.not_mem_nil, or_false] at hx
    rcases hx with rfl | rfl | rfl <;> exact small_abs (by norm_num [abs_le])

theorem two_isF : IsF (2 : ℚ) := by exact_mod_cast int_isF 2 (by norm_num)
theorem seven_isF : IsF (7 : ℚ) := by exact_mod_cast int_isF 7 (by norm_num)
theorem three_isF : IsF (3 : ℚ) := by exact_mod_cast int_isF 3 (by norm_num)

example : ∃ r : ℚ, Linear.valueAt ⟨fins [0, 1, 3], fins [5, 7, -2]⟩ (.fin 2) = .ok (.fin r) ∧ IsF r ∧
    |r - line 1 3 7 (-2) 2| ≤ 2 ^ (-49 : ℤ) * 7 + 2 ^ (-1073 : ℤ) := by
  have h := C128_linear (xs := [0, 1, 3]) (ys := [5, 7, -2]) (v := 2) (M := 7) nodes3 rfl two_isF 1 (by simp) (by norm_num) (by norm_num)
    (by norm_num) (by norm_num) (le_trans (show (7 : ℚ) ≤ 2 ^ 4 by norm_num) (pow_le_pow_right₀ (by norm_num) (by norm_num)))
  simp only [List.getElem_cons_succ, List.getElem_cons_zero] at h
  exact h

example : Linear.valueAt ⟨fins [0, 1, 3], fins [5, 7, -2]⟩ (.fin 1) = .ok (.fin 7) := by
  have h := C128_node (xs := [0, 1, 3]) (ys := [5, 7, -2]) nodes3 rfl 1 (by simp) (by simpa using seven_isF)
    (by simp only [List.getElem_cons_succ, List.getElem_cons_zero]
        exact le_trans (small_abs (by norm_num [abs_le])) (pow_le_pow_right₀ (by norm_num) (by norm_num)))
  simp only [List.getElem_cons_succ, List.getElem_cons_zero] at h
  exact h

/-- Unsorted nodes, NaN and repeated infinities pass the check. -/
example : Linear.init [.fin 3, .fin 1, .nan, .inf false, .inf false] [.fin 1, .fin 2, .fin 3, .fin 4, .fin 5] true = .ok
    ⟨[.fin 3, .fin 1, .nan, .inf false, .inf false], [.fin 1, .fin 2, .fin 3, .fin 4, .fin 5]⟩ := by
  refine (C128_init [.fin 3, .fin 1, .nan, .inf false, .inf false] [.fin 1, .fin 2, .fin 3, .fin 4, .fin 5] ?_).1 ⟨rfl, by simp, ?_⟩
  · intro x hx
    simp only [List.mem_cons, List.not_mem_nil, or_false] at hx
    rcases hx with rfl | rfl | rfl | rfl | rfl
    · exact ⟨three_isF, lt_of_le_of_lt (show |(3 : ℚ)| ≤ 2 ^ 4 by norm_num) (pow_lt_pow_right₀ (by norm_num) (by norm_num))⟩
    · exact ⟨one_isF, lt_of_le_of_lt (show |(1 : ℚ)| ≤ 2 ^ 4 by norm_num) (pow_lt_pow_right₀ (by norm_num) (by norm_num))⟩
    all_goals exact trivial
  · intro i hi
    simp only [List.length_cons, List.length_nil] at hi
    match i, hi with
    | 0, _ => simp
    | 1, _ => simp
    | 2, _ => simp
    | 3, _ => simp

example : ∃ j : Nat, ∃ hj : j < ([0, 1, 3] : List ℚ).length, nearest (fins [0, 1, 3]) (.fin 2) = .ok (j : Int) ∧
    ∀ x ∈ ([0, 1, 3] : List ℚ), |2 - ([0, 1, 3] : List ℚ)[j]| ≤ (1 + 2 ^ (-51 : ℤ)) * |2 - x| :=
  (C128_nearest nodes3.ne (strict_sorted nodes3.inc) nodes3.isF nodes3.small).1 2 two_isF

example : ∃ ds : List Num, Linear.derivative ⟨fins [0, 1, 3], fins [0, 1, 3]⟩ = .ok ⟨fins [0, 1, 3], ds⟩ ∧ ds.length = 3 := by
  obtain ⟨ds, h, hl, -⟩ := C128_derivative (xs := [0, 1, 3]) (ys := [0, 1, 3]) nodes3 (by simp) rfl nodes3.isF nodes3.small
  exact ⟨ds, h, hl⟩


/-! ### Division by zero -/

theorem mapM_error_iff {α β : Type} (f : α → PyM β) (e0 : PyErr) (l : List α) (h : ∀ a ∈ l, (∃ b, f a = .ok b) ∨ f a = .error e0) :
    l.mapM f = .error e0 ↔ ∃ a ∈ l, f a = .error e0 := by
  induction l with
  | nil => constructor
           · intro h; cases h
           · rintro ⟨a, ha, -⟩; simp at ha
  | cons a t ih =>
    rw [List.mapM_cons]
    have iht := ih (fun b hb => h b (List.mem_cons_of_mem _ hb))
    rcases h a (by simp) with ⟨b, hb⟩ | hb
    · rw [hb]
      constructor
      · intro hm
        cases ht : t.mapM f with
        | ok r => rw [ht] at hm; cases hm
        | error e =>
          rw [ht] at hm
          have he : e = e0 := Except.error.inj hm
          obtain ⟨c, hc, hce⟩ := iht.mp (by rw [ht, he])
          exact ⟨c, List.mem_cons_of_mem _ hc, hce⟩
      · rintro ⟨c, hc, hce⟩
        rcases List.mem_cons.mp hc with rfl | hc
        · rw [hb] at hce; cases hce
        · rw [iht.mpr ⟨c, hc, hce⟩]; rfl
    · rw [hb]
      exact ⟨fun _ => ⟨a, by simp, hb⟩, fun _ => rfl⟩

/-- C128: **division by zero.** On nodes in weakly increasing order `value_at` never divides by zero: it returns a value for every finite x, also when nodes
coincide.  `derivative()` raises ZeroDivisionError exactly when the two nodes around some node (at an end: the end and its neighbour) coincide - which the
constructor excludes only for nodes next to each other. -/
theorem C128_zero_division {xs : List ℚ} (ys : List Num) (hn : 2 ≤ xs.length) (hy : ys.length = xs.length) (isF : ∀ x ∈ xs, IsF x) (small : ∀ x ∈ xs, |x| ≤ 2 ^ 1021) :
    (xs.Pairwise (· ≤ ·) → ∀ v : ℚ, IsF v → ∃ r, Linear.valueAt ⟨fins xs, ys⟩ (.fin v) = .ok r) ∧
    (Linear.derivative ⟨fins xs, ys⟩ = .error .zeroDivisionError ↔
      xs[0]? = xs[1]? ∨ xs[xs.length - 2]? = xs[xs.length - 1]? ∨ ∃ i, i + 2 < xs.length ∧ xs[i]? = xs[i + 2]?) := by
  have hne : xs ≠ [] := by rintro rfl; simp at hn
  constructor
  · intro hs v fv
    show ∃ r, interp (fins xs) ys (.fin v) = .ok r
    obtain ⟨i, hi, i1, i2, i3⟩ := bisearch_spec xs v hne hs
    by_cases h0 : i < 0
    · exact ⟨_, interp_first ys hy _ (by omega) (by rw [search_fin, hi]; congr 1; omega)⟩
    by_cases h1 : i + 1 < xs.length
    · obtain ⟨k, rfl⟩ : ∃ k : Nat, i = k := ⟨i.toNat, by omega⟩
      have hk : k + 1 < xs.length := by omega
      have ha : xs[k] ≤ v := (i3 k (by omega)).mpr le_rfl
      have hb : v < xs[k + 1] := by
        rw [← not_le]
        intro h
        have := (i3 (k + 1) hk).mp h
        omega
      obtain ⟨wl, wr, ew, -, -, -⟩ := weight_spec fv (isF _ (List.getElem_mem _)) (isF _ (List.getElem_mem _)) ha hb (small _ (List.getElem_mem _)) (small _ (List.getElem_mem _))
      have g1 := fins_getN xs k (by omega)
      have g2 := fins_getN xs (k + 1) hk
      have g3 := pyGet_ofNat ys k (by omega)
      have g4 := pyGet_ofNat ys (k + 1) (by omega)
      have e : ((k : Int) + 1) = ((k + 1 : Nat) : Int) := by push_cast; rfl
      refine ⟨Num.add (Num.mul ys[k] (.fin wl)) (Num.mul ys[k + 1] (.fin wr)), ?_⟩
      unfold interp interpWeight
      rw [search_fin, hi, fins_length]
      simp only [bind, Except.bind, pure, Except.pure, if_neg (show ¬ (k : Int) < 0 by omega), if_neg (show ¬ (k : Int) + 1 > (xs.length : Int) - 1 by omega)]
      rw [e, g1, g2]
      simp only
      rw [ew]
      simp only
      rw [g3, g4]
    · exact ⟨_, interp_last ys hy _ (by omega) (by rw [search_fin, hi]; congr 1; omega)⟩
  · have key : ∀ i (hi : i < xs.length), (slopeAt (fins xs) ys i = .error .zeroDivisionError ↔ xs[i - 1]'(by omega) = xs[min (i + 1) (xs.length - 1)]'(by omega)) ∧
        ((∃ b, slopeAt (fins xs) ys i = .ok b) ∨ slopeAt (fins xs) ys i = .error .zeroDivisionError) := by
      intro i hi
      rw [slope_raw ys hy hn i hi, sub_fin (le22 (small _ (List.getElem_mem _))) (le22 (small _ (List.getElem_mem _))), pyDiv]
      have fa : IsF (xs[i - 1]'(by omega)) := isF _ (List.getElem_mem _)
      have fb : IsF (xs[min (i + 1) (xs.length - 1)]'(by omega)) := isF _ (List.getElem_mem _)
      have hz : Num.fin (rnd ((xs[min (i + 1) (xs.length - 1)]'(by omega)) - xs[i - 1]'(by omega))) = .fin 0 ↔ xs[i - 1]'(by omega) = xs[min (i + 1) (xs.length - 1)]'(by omega) := by
        constructor
        · intro h
          have h := Num.fin.inj h
          rcases lt_trichotomy (xs[i - 1]'(by omega)) (xs[min (i + 1) (xs.length - 1)]'(by omega)) with l | l | l
          · exact absurd h (rnd_sub_pos fb fa l).ne'
          · exact l
          · have := rnd_sub_pos fa fb l
            rw [← neg_sub, rnd_neg, h, neg_zero] at this
            exact absurd this (lt_irrefl _)
        · intro h
          rw [h, sub_self, rnd_zero]
      split_ifs with h
      · exact ⟨⟨fun _ => hz.mp h, fun _ => rfl⟩, .inr rfl⟩
      · exact ⟨⟨fun h' => by (cases h'), fun h' => absurd (hz.mpr h') h⟩, .inl ⟨_, rfl⟩⟩
    have hd : Linear.derivative ⟨fins xs, ys⟩ = .error .zeroDivisionError ↔ ∃ i, ∃ hi : i < xs.length, slopeAt (fins xs) ys i = .error .zeroDivisionError := by
      have hm := mapM_error_iff (slopeAt (fins xs) ys) .zeroDivisionError (List.range xs.length) (fun i hi => (key i (List.mem_range.mp hi)).2)
      unfold Linear.derivative
      simp only [fins_length]
      constructor
      · intro h
        cases hc : (List.range xs.length).mapM (slopeAt (fins xs) ys) with
        | error e =>
          rw [hc] at h
          have he : e = .zeroDivisionError := Except.error.inj h
          obtain ⟨i, hi, h⟩ := hm.mp (by rw [hc, he])
          exact ⟨i, List.mem_range.mp hi, h⟩
        | ok r =>
          rw [hc] at h
          have h2 : (fins xs).length ≥ 2 := by rw [fins_length]; exact hn
          simp only [bind, Except.bind, Linear.init, h2, pyAssert] at h
          cases h
      · rintro ⟨i, hi, h⟩
        rw [hm.mpr ⟨i, List.mem_range.mpr hi, h⟩]
        rfl
    rw [hd]
    constructor
    · rintro ⟨i, hi, h⟩
      have h := (key i hi).1.mp h
      rcases Nat.eq_zero_or_pos i with rfl | h0
      · left
        rw [List.getElem?_eq_getElem (by omega), List.getElem?_eq_getElem (by omega)]
        simpa [show min 1 (xs.length - 1) = 1 by omega] using h
      · by_cases h1 : i + 1 = xs.length
        · right; left
          rw [List.getElem?_eq_getElem (by omega), List.getElem?_eq_getElem (by omega)]
          simpa [show min (i + 1) (xs.length - 1) = xs.length - 1 by omega, show i - 1 = xs.length - 2 by omega] using h
        · right; right
          refine ⟨i - 1, by omega, ?_⟩
          rw [List.getElem?_eq_getElem (by omega), List.getElem?_eq_getElem (by omega)]
          simpa [show min (i + 1) (xs.length - 1) = i - 1 + 2 by omega] using h
    · rintro (h | h | ⟨i, hi, h⟩)
      · refine ⟨0, by omega, (key 0 (by omega)).1.mpr ?_⟩
        rw [List.getElem?_eq_getElem (by omega), List.getElem?_eq_getElem (by omega)] at h
        simpa [show min 1 (xs.length - 1) = 1 by omega] using h
      · refine ⟨xs.length - 1, by omega, (key _ (by omega)).1.mpr ?_⟩
        rw [List.getElem?_eq_getElem (by omega), List.getElem?_eq_getElem (by omega)] at h
        simpa [show min (xs.length - 1 + 1) (xs.length - 1) = xs.length - 1 by omega, show xs.length - 1 - 1 = xs.length - 2 by omega] using h
      · refine ⟨i + 1, by omega, (key _ (by omega)).1.mpr ?_⟩
        rw [List.getElem?_eq_getElem (by omega), List.getElem?_eq_getElem (by omega)] at h
        simpa [show min (i + 1 + 1) (xs.length - 1) = i + 2 by omega] using h

/-- The nodes 0, 1, 0 are accepted (no two neighbours coincide), and the derivative fails. -/
example : Linear.init [.fin 0, .fin 1, .fin 0] [.fin 5, .fin 6, .fin 7] true = .ok ⟨[.fin 0, .fin 1, .fin 0], [.fin 5, .fin 6, .fin 7]⟩ ∧
    Linear.derivative ⟨[.fin 0, .fin 1, .fin 0], [.fin 5, .fin 6, .fin 7]⟩ = .error .zeroDivisionError := by
  constructor
  · have h : (diffs [.fin 0, .fin 1, .fin 0]).all (fun d => decide (d ≠ .fin 0)) = true := by decide +kernel
    unfold Linear.init
    simp only [if_true, h]
    rfl
  · refine (C128_zero_division (xs := [0, 1, 0]) [.fin 5, .fin 6, .fin 7] (by simp) rfl ?_ ?_).2.mpr (.inr (.inr ⟨0, by simp, rfl⟩)) <;>
      (intro x hx; simp only [List.mem_cons, List.not_mem_nil, or_false] at hx)
    · rcases hx with rfl | rfl | rfl
      · exact rnd_zero
      · exact one_isF
      · exact rnd_zero
    · rcases hx with rfl | rfl | rfl <;> exact small_abs (by norm_num)

end Pyhipp.FloatLinear
