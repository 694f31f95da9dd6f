import Verif.Model.FloatCoords
import Verif.Props.Coords
import Verif.Props.FloatStandardize
/-
C143: sexagesimal angles in double precision.
-/
namespace Pyhipp.FloatCoords
open Pyhipp Pyhipp.F64
open Pyhipp.FloatLinear (add_fin)
open Pyhipp.FloatStandardize (mul_fin div_fin rnd_size rnd_add_size up)

/-! ### Specification -/

/-- The exact angle (in units of the first field). -/
def exact (d m s : ℚ) : ℚ := d + m / 60 + s / 3600

/-- The size of the three terms. -/
def size (d m s : ℚ) : ℚ := |d| + |m| / 60 + |s| / 3600

/-- A double of ordinary size. -/
def Fine (x : ℚ) : Prop := IsF x ∧ |x| ≤ 2 ^ 1000

/-! ### The rounded sum -/

/-- What the converters compute from finite fields. -/
def fl (d m s : ℚ) : ℚ := rnd (rnd (d + rnd (m / 60)) + rnd (s / 3600))

theorem part {x : ℚ} (c : ℚ) (hc : 1 ≤ c) (h : |x| ≤ 2 ^ 1001) : |x / c| ≤ 2 ^ 1001 := by
  rw [abs_div, abs_of_pos (by linarith : 0 < c)]
  exact le_trans (div_le_self (abs_nonneg _) hc) h

theorem sexa_fin {d m s : ℚ} (hd : |d| ≤ 2 ^ 1001) (hm : |m| ≤ 2 ^ 1001) (hs : |s| ≤ 2 ^ 1001) :
    sexa (.fin d) (.fin m) (.fin s) = .fin (fl d m s) ∧ |fl d m s| ≤ 2 ^ 1003 := by
  have p1 := part 60 (by norm_num) hm
  have p2 := part 3600 (by norm_num) hs
  have r1 := rnd_size p1
  have r2 := rnd_size p2
  have a1 := rnd_add_size hd r1
  have a2 := rnd_add_size a1 (up 1002 r2 (by norm_num))
  refine ⟨?_, a2⟩
  unfold sexa
  rw [div_fin (by norm_num) (up 1023 p1 (by norm_num)), div_fin (by norm_num) (up 1023 p2 (by norm_num)), add_fin (up 1022 hd (by norm_num)) (up 1022 r1 (by norm_num)),
    add_fin (up 1022 a1 (by norm_num)) (up 1022 r2 (by norm_num))]
  rfl

theorem rnd_add_err {a b : ℚ} (ha : IsF a) (hb : IsF b) : |rnd (a + b) - (a + b)| ≤ 2 ^ (-53 : ℤ) * |a + b| := by
  have := rnd_sub_err ha hb.neg
  rwa [sub_neg_eq_add] at this

theorem sexa_alg {d m s m' s' a r u z : ℚ} (hu : 0 ≤ u) (hu1 : u ≤ 1 / 64) (hz : 0 ≤ z) (e1 : |m' - m| ≤ u * |m| + z) (e2 : |s' - s| ≤ u * |s| + z)
    (e3 : |a - (d + m')| ≤ u * |d + m'|) (e4 : |r - (a + s')| ≤ u * |a + s'|) : |r - (d + m + s)| ≤ 4 * u * (|d| + |m| + |s|) + 3 * z := by
  have d0 := abs_nonneg d
  have m0 := abs_nonneg m
  have s0 := abs_nonneg s
  have bm : |m'| ≤ |m| + (u * |m| + z) := by
    have := abs_add_le (m' - m) m
    rw [sub_add_cancel] at this
    linarith
  have bs : |s'| ≤ |s| + (u * |s| + z) := by
    have := abs_add_le (s' - s) s
    rw [sub_add_cancel] at this
    linarith
  have b1 := abs_add_le d m'
  have ba : |a| ≤ |d + m'| + u * |d + m'| := by
    have := abs_add_le (a - (d + m')) (d + m')
    rw [sub_add_cancel] at this
    linarith
  have b2 := abs_add_le a s'
  have t1 := abs_add_le (r - (a + s')) (a - (d + m'))
  have t2 := abs_add_le (r - (a + s') + (a - (d + m'))) (m' - m)
  have t3 := abs_add_le (r - (a + s') + (a - (d + m')) + (m' - m)) (s' - s)
  rw [show r - (a + s') + (a - (d + m')) + (m' - m) + (s' - s) = r - (d + m + s) by ring] at t3
  have ud := mul_nonneg hu d0
  have um := mul_nonneg hu m0
  have us := mul_nonneg hu s0
  have uz := mul_nonneg hu hz
  have cz : u * z ≤ 1 / 64 * z := mul_le_mul_of_nonneg_right hu1 hz
  have cm : u * (u * |m|) ≤ 1 / 64 * (u * |m|) := mul_le_mul_of_nonneg_right hu1 um
  have cs : u * (u * |s|) ≤ 1 / 64 * (u * |s|) := mul_le_mul_of_nonneg_right hu1 us
  have f1 : u * |d + m'| ≤ u * |d| + 65 / 64 * (u * |m|) + 1 / 64 * z := by
    have := mul_le_mul_of_nonneg_left (le_trans b1 (add_le_add_right bm _)) hu
    nlinarith
  have f2 : u * (u * |d + m'|) ≤ 1 / 64 * (u * |d + m'|) := mul_le_mul_of_nonneg_right hu1 (mul_nonneg hu (abs_nonneg _))
  have f3 : u * |a| ≤ u * |d + m'| + u * (u * |d + m'|) := by rw [← mul_add]; exact mul_le_mul_of_nonneg_left ba hu
  have f4 : u * |s'| ≤ 65 / 64 * (u * |s|) + 1 / 64 * z := by
    have := mul_le_mul_of_nonneg_left bs hu
    nlinarith
  have f5 : u * |a + s'| ≤ u * |a| + u * |s'| := by rw [← mul_add]; exact mul_le_mul_of_nonneg_left b2 hu
  nlinarith

theorem fl_err {d : ℚ} (m s : ℚ) (hd : IsF d) : |fl d m s - exact d m s| ≤ 4 * 2 ^ (-53 : ℤ) * size d m s + 3 * 2 ^ (-1075 : ℤ) := by
  have e1 := FloatMesh.rnd_err_all (m / 60)
  have e2 := FloatMesh.rnd_err_all (s / 3600)
  have e3 := rnd_add_err hd (isF_rnd (m / 60))
  have e4 := rnd_add_err (isF_rnd (d + rnd (m / 60))) (isF_rnd (s / 3600))
  have := sexa_alg (pow_pos' _).le (by norm_num) (pow_pos' _).le e1 e2 e3 e4
  rw [abs_div m, abs_div s, abs_of_pos (by norm_num : (0 : ℚ) < 60), abs_of_pos (by norm_num : (0 : ℚ) < 3600)] at this
  exact this

/-- C143: the result is finite and within 2^-51 (relative to the sizes of the three terms) of the exact angle. -/
theorem C143_dms {d m s : ℚ} (hd : Fine d) (hm : Fine m) (hs : Fine s) :
    ∃ r, dms_to_deg (.tuple [.fin d, .fin m, .fin s]) = .ok (.fin r) ∧ IsF r ∧ |r - exact d m s| ≤ 2 ^ (-51 : ℤ) * size d m s + 2 ^ (-1073 : ℤ) := by
  refine ⟨fl d m s, ?_, isF_rnd _, ?_⟩
  · show Except.ok (sexa (.fin d) (.fin m) (.fin s)) = _
    rw [(sexa_fin (up 1001 hd.2 (by norm_num)) (up 1001 hm.2 (by norm_num)) (up 1001 hs.2 (by norm_num))).1]
  · refine le_trans (fl_err m s hd.1) (add_le_add (le_of_eq ?_) ?_)
    · rw [show (2 : ℚ) ^ (-51 : ℤ) = 4 * 2 ^ (-53 : ℤ) by norm_num]
    · rw [show (2 : ℚ) ^ (-1073 : ℤ) = 4 * 2 ^ (-1075 : ℤ) by rw [show (-1073 : ℤ) = 2 + -1075 by norm_num, zpow_add₀ (by norm_num)]; norm_num]
      have := (pow_pos' (-1075)).le
      generalize (2 : ℚ) ^ (-1075 : ℤ) = z at *
      linarith only [this]


theorem size_nonneg (d m s : ℚ) : 0 ≤ size d m s := by unfold size; positivity

theorem exact_le_size (d m s : ℚ) : |exact d m s| ≤ size d m s := by
  have t1 := abs_add_le d (m / 60)
  have t2 := abs_add_le (d + m / 60) (s / 3600)
  have e1 : |m / 60| = |m| / 60 := by rw [abs_div, abs_of_pos (by norm_num : (0 : ℚ) < 60)]
  have e2 : |s / 3600| = |s| / 3600 := by rw [abs_div, abs_of_pos (by norm_num : (0 : ℚ) < 3600)]
  unfold exact size
  linarith

theorem hms_alg {x f r S u z : ℚ} (hu : 0 ≤ u) (hu1 : u ≤ 1 / 64) (hz : 0 ≤ z) (hx : |x| ≤ S) (e1 : |f - x| ≤ 4 * u * S + 3 * z) (e2 : |r - f * 15| ≤ u * |f * 15| + z) :
    |r - 15 * x| ≤ 15 * (8 * u * S + 8 * z) := by
  have S0 : 0 ≤ S := le_trans (abs_nonneg _) hx
  have bf : |f| ≤ |f - x| + |x| := by
    have := abs_add_le (f - x) x
    rwa [sub_add_cancel] at this
  have t := abs_add_le (r - f * 15) (15 * (f - x))
  rw [show r - f * 15 + 15 * (f - x) = r - 15 * x by ring, abs_mul 15, abs_of_pos (by norm_num : (0 : ℚ) < 15)] at t
  rw [abs_mul f, abs_of_pos (by norm_num : (0 : ℚ) < 15)] at e2
  have uS := mul_nonneg hu S0
  have c1 : u * (u * S) ≤ 1 / 64 * (u * S) := mul_le_mul_of_nonneg_right hu1 uS
  have c2 : u * z ≤ 1 / 64 * z := mul_le_mul_of_nonneg_right hu1 hz
  have c3 : u * |f| ≤ u * (4 * u * S + 3 * z + S) := mul_le_mul_of_nonneg_left (by linarith) hu
  nlinarith

theorem hms_fin {d m s : ℚ} (hd : |d| ≤ 2 ^ 1001) (hm : |m| ≤ 2 ^ 1001) (hs : |s| ≤ 2 ^ 1001) :
    Num.mul (sexa (.fin d) (.fin m) (.fin s)) (.fin 15) = .fin (rnd (fl d m s * 15)) := by
  obtain ⟨e, b⟩ := sexa_fin hd hm hs
  rw [e]
  refine mul_fin (up 1023 (j := 1007) ?_ (by norm_num))
  rw [abs_mul, show 1007 = 1003 + 4 from rfl, pow_add]
  exact mul_le_mul b (by norm_num [abs_of_pos]) (abs_nonneg _) (by positivity)

theorem scale_const (S : ℚ) : 15 * (8 * 2 ^ (-53 : ℤ) * S + 8 * 2 ^ (-1075 : ℤ)) = 15 * (2 ^ (-50 : ℤ) * S + 2 ^ (-1072 : ℤ)) := by
  rw [show (2 : ℚ) ^ (-1072 : ℤ) = 8 * 2 ^ (-1075 : ℤ) by rw [show (-1072 : ℤ) = 3 + -1075 by norm_num, zpow_add₀ (by norm_num)]; norm_num,
    show (2 : ℚ) ^ (-50 : ℤ) = 8 * 2 ^ (-53 : ℤ) by norm_num]

/-- C143: the same for hours, minutes and seconds, of which an hour is 15 degrees. -/
theorem C143_hms {d m s : ℚ} (hd : Fine d) (hm : Fine m) (hs : Fine s) :
    ∃ r, hms_to_deg (.tuple [.fin d, .fin m, .fin s]) = .ok (.fin r) ∧ IsF r ∧ |r - 15 * exact d m s| ≤ 15 * (2 ^ (-50 : ℤ) * size d m s + 2 ^ (-1072 : ℤ)) := by
  refine ⟨rnd (fl d m s * 15), ?_, isF_rnd _, ?_⟩
  · show Except.ok (Num.mul (sexa (.fin d) (.fin m) (.fin s)) (.fin 15)) = _
    rw [hms_fin (up 1001 hd.2 (by norm_num)) (up 1001 hm.2 (by norm_num)) (up 1001 hs.2 (by norm_num))]
  · rw [← scale_const]
    exact hms_alg (pow_pos' _).le (by norm_num) (pow_pos' _).le (exact_le_size d m s) (fl_err m s hd.1) (FloatMesh.rnd_err_all _)

/-! ### Monotone in each field -/

theorem fl_mono {d d' m m' s s' : ℚ} (h1 : d ≤ d') (h2 : m ≤ m') (h3 : s ≤ s') : fl d m s ≤ fl d' m' s' := by
  refine rnd_mono (add_le_add (rnd_mono (add_le_add h1 (rnd_mono ?_))) (rnd_mono ?_)) <;> linarith

/-- C143: neither conversion ever decreases when a field increases. -/
theorem C143_monotone {d m s d' m' s' : ℚ} (hd : Fine d) (hm : Fine m) (hs : Fine s) (hd' : Fine d') (hm' : Fine m') (hs' : Fine s') (h1 : d ≤ d') (h2 : m ≤ m') (h3 : s ≤ s') :
    (∃ r r', dms_to_deg (.tuple [.fin d, .fin m, .fin s]) = .ok (.fin r) ∧ dms_to_deg (.tuple [.fin d', .fin m', .fin s']) = .ok (.fin r') ∧ r ≤ r') ∧
    (∃ r r', hms_to_deg (.tuple [.fin d, .fin m, .fin s]) = .ok (.fin r) ∧ hms_to_deg (.tuple [.fin d', .fin m', .fin s']) = .ok (.fin r') ∧ r ≤ r') := by
  have e := sexa_fin (up 1001 hd.2 (by norm_num)) (up 1001 hm.2 (by norm_num)) (up 1001 hs.2 (by norm_num))
  have e' := sexa_fin (up 1001 hd'.2 (by norm_num)) (up 1001 hm'.2 (by norm_num)) (up 1001 hs'.2 (by norm_num))
  have f := hms_fin (up 1001 hd.2 (by norm_num)) (up 1001 hm.2 (by norm_num)) (up 1001 hs.2 (by norm_num))
  have f' := hms_fin (up 1001 hd'.2 (by norm_num)) (up 1001 hm'.2 (by norm_num)) (up 1001 hs'.2 (by norm_num))
  have mono := fl_mono h1 h2 h3
  refine ⟨⟨fl d m s, fl d' m' s', congrArg Except.ok e.1, congrArg Except.ok e'.1, mono⟩, ⟨_, _, congrArg Except.ok f, congrArg Except.ok f', rnd_mono (by linarith)⟩⟩

/-! ### Range -/

theorem small {x : ℚ} (h : |x| ≤ 512) : |x| ≤ 2 ^ 1001 := up (j := 9) 1001 (by norm_num; exact h) (by norm_num)

theorem top_dms : ∀ d : Fin 360, fl ((d : Nat) : ℚ) 59 60 ≤ ((d : Nat) : ℚ) + 1 := by decide +kernel

theorem top_hms : ∀ h : Fin 24, rnd (fl ((h : Nat) : ℚ) 59 60 * 15) ≤ 15 * (((h : Nat) : ℚ) + 1) := by decide +kernel

theorem isF_nat (n : Nat) (h : n ≤ 2 ^ 53) : IsF (n : ℚ) := by
  have := isF_int (m := (n : ℤ)) (by rw [abs_of_nonneg (by positivity)]; exact_mod_cast h)
  exact_mod_cast this

theorem fl_whole (d : Nat) (h : d ≤ 2 ^ 53) : fl (d : ℚ) 0 0 = d := by
  have e := isF_nat d h
  have z : rnd 0 = 0 := by decide +kernel
  unfold fl
  rw [zero_div, zero_div, z, add_zero, add_zero, e, e]

/-- C143: an angle of whole degrees below 360, minutes in [0, 59] and seconds in [0, 60] comes out between that degree and the next. -/
theorem C143_dms_range (d : Nat) (hd : d < 360) {m s : ℚ} (hm : 0 ≤ m ∧ m ≤ 59) (hs : 0 ≤ s ∧ s ≤ 60) :
    ∃ r, dms_to_deg (.tuple [.fin d, .fin m, .fin s]) = .ok (.fin r) ∧ (d : ℚ) ≤ r ∧ r ≤ d + 1 := by
  have dq : (d : ℚ) ≤ 359 := by exact_mod_cast Nat.lt_succ_iff.mp hd
  have d0 : (0 : ℚ) ≤ d := by positivity
  refine ⟨fl d m s, congrArg Except.ok (sexa_fin (small ?_) (small ?_) (small ?_)).1, ?_, ?_⟩
  · rw [abs_of_nonneg d0]; linarith
  · rw [abs_of_nonneg hm.1]; linarith
  · rw [abs_of_nonneg hs.1]; linarith
  · have := fl_mono (le_refl (d : ℚ)) hm.1 hs.1
    rwa [fl_whole d (by omega)] at this
  · exact le_trans (fl_mono (le_refl (d : ℚ)) hm.2 hs.2) (top_dms ⟨d, hd⟩)

/-- C143: a right ascension of whole hours below 24, minutes in [0, 59] and seconds in [0, 60] comes out in the 15 degrees of its hour, so never beyond 360. -/
theorem C143_hms_range (h : Nat) (hh : h < 24) {m s : ℚ} (hm : 0 ≤ m ∧ m ≤ 59) (hs : 0 ≤ s ∧ s ≤ 60) :
    ∃ r, hms_to_deg (.tuple [.fin h, .fin m, .fin s]) = .ok (.fin r) ∧ 15 * (h : ℚ) ≤ r ∧ r ≤ 15 * (h + 1) := by
  have dq : (h : ℚ) ≤ 23 := by exact_mod_cast Nat.lt_succ_iff.mp hh
  have d0 : (0 : ℚ) ≤ h := by positivity
  refine ⟨rnd (fl h m s * 15), congrArg Except.ok (hms_fin (small ?_) (small ?_) (small ?_)), ?_, ?_⟩
  · rw [abs_of_nonneg d0]; linarith
  · rw [abs_of_nonneg hm.1]; linarith
  · rw [abs_of_nonneg hs.1]; linarith
  · have t := fl_mono (le_refl (h : ℚ)) hm.1 hs.1
    rw [fl_whole h (by omega)] at t
    refine le_rnd (by linarith) ?_
    have := isF_nat (15 * h) (by omega)
    push_cast at this
    exact this
  · exact le_trans (rnd_mono (mul_le_mul_of_nonneg_right (fl_mono (le_refl (h : ℚ)) hm.2 hs.2) (by norm_num))) (top_hms ⟨h, hh⟩)

/-- C143: the full turn is reached below it: the last double below 24h comes out as 360 degrees, and the last one below 360 degrees too. -/
theorem C143_full_turn : IsF (60 - 2 ^ (-47 : ℤ)) ∧ (60 - 2 ^ (-47 : ℤ) : ℚ) < 60 ∧
    hms_to_deg (.tuple [.fin 23, .fin 59, .fin (60 - 2 ^ (-47 : ℤ))]) = .ok (.fin 360) ∧ dms_to_deg (.tuple [.fin 359, .fin 59, .fin (60 - 2 ^ (-47 : ℤ))]) = .ok (.fin 360) := by
  refine ⟨by decide +kernel, by norm_num, ?_, ?_⟩
  · refine congrArg Except.ok ?_
    decide +kernel
  · refine congrArg Except.ok ?_
    decide +kernel

/-! ### Order -/

/-- C143: angles below a full turn that differ by more than 2^-41 degrees come out in the right order. -/
theorem C143_order {d m s d' m' s' : ℚ} (hd : Fine d) (hm : Fine m) (hs : Fine s) (hd' : Fine d') (hm' : Fine m') (hs' : Fine s') (b : size d m s ≤ 500) (b' : size d' m' s' ≤ 500)
    (h : exact d m s + 2 ^ (-41 : ℤ) ≤ exact d' m' s') :
    ∃ r r', dms_to_deg (.tuple [.fin d, .fin m, .fin s]) = .ok (.fin r) ∧ dms_to_deg (.tuple [.fin d', .fin m', .fin s']) = .ok (.fin r') ∧ r < r' := by
  obtain ⟨r, e, -, a⟩ := C143_dms hd hm hs
  obtain ⟨r', e', -, a'⟩ := C143_dms hd' hm' hs'
  refine ⟨r, r', e, e', ?_⟩
  have t : (2 : ℚ) ^ (-1073 : ℤ) ≤ 2 ^ (-60 : ℤ) := zpow_le_zpow_right₀ (by norm_num) (by norm_num)
  generalize (2 : ℚ) ^ (-1073 : ℤ) = z at *
  have c1 := (abs_le.mp a).2
  have c2 := (abs_le.mp a').1
  have k1 : (2 : ℚ) ^ (-51 : ℤ) * size d m s ≤ 2 ^ (-51 : ℤ) * 500 := mul_le_mul_of_nonneg_left b (pow_pos' _).le
  have k2 : (2 : ℚ) ^ (-51 : ℤ) * size d' m' s' ≤ 2 ^ (-51 : ℤ) * 500 := mul_le_mul_of_nonneg_left b' (pow_pos' _).le
  have k3 : 2 * ((2 : ℚ) ^ (-51 : ℤ) * 500 + 2 ^ (-60 : ℤ)) < 2 ^ (-41 : ℤ) := by norm_num
  linarith only [c1, c2, k1, k2, k3, t, h]

/-- C143: closer angles can come out in the wrong order: 0:31:59.99... is put above 0:32:00. -/
theorem C143_order_defect : ∃ s r r' : ℚ, Fine s ∧ 0 ≤ s ∧ s < 60 ∧ exact 0 31 s < exact 0 32 0 ∧
    dms_to_deg (.tuple [.fin 0, .fin 31, .fin s]) = .ok (.fin r) ∧ dms_to_deg (.tuple [.fin 0, .fin 32, .fin 0]) = .ok (.fin r') ∧ r' < r := by
  have f : Fine (60 - 2 ^ (-47 : ℤ)) := ⟨by decide +kernel, by
    rw [abs_of_pos (by norm_num)]
    exact le_trans (by norm_num) (pow_le_pow_right₀ (by norm_num : (1 : ℚ) ≤ 2) (by norm_num : 6 ≤ 1000))⟩
  refine ⟨60 - 2 ^ (-47 : ℤ), fl 0 31 (60 - 2 ^ (-47 : ℤ)), fl 0 32 0, f, by norm_num, by norm_num, by norm_num [exact], ?_, ?_, by decide +kernel⟩
  · exact congrArg Except.ok (sexa_fin (small (by norm_num)) (small (by norm_num [abs_of_pos])) (up 1001 f.2 (by norm_num))).1
  · exact congrArg Except.ok (sexa_fin (small (by norm_num)) (small (by norm_num [abs_of_pos])) (small (by norm_num))).1

/-! ### Exact angles -/

/-- C143: whole degrees, and quarters of a degree given as minutes, are exact. -/
theorem C143_exact (d : Nat) (hd : d ≤ 2 ^ 50) (k : Nat) (hk : k ≤ 3) :
    dms_to_deg (.tuple [.fin d, .fin (15 * k : Nat), .fin 0]) = .ok (.fin ((d : ℚ) + k / 4)) := by
  have big : (2 : ℚ) ^ 50 ≤ 2 ^ 1001 := pow_le_pow_right₀ (by norm_num) (by norm_num)
  have dq : |(d : ℚ)| ≤ 2 ^ 1001 := by
    have hq : (d : ℚ) ≤ 2 ^ 50 := by exact_mod_cast hd
    exact (abs_of_nonneg (Nat.cast_nonneg d)).le.trans (hq.trans big)
  have kq : |((15 * k : Nat) : ℚ)| ≤ 512 := by
    have hq : ((15 * k : Nat) : ℚ) ≤ 512 := by exact_mod_cast (by omega : 15 * k ≤ 512)
    exact (abs_of_nonneg (Nat.cast_nonneg _)).le.trans hq
  refine congrArg Except.ok ((sexa_fin dq (small kq) (small (by norm_num))).1.trans (congrArg Num.fin ?_))
  have z : rnd 0 = 0 := by decide +kernel
  have e1 : (((15 * k : Nat) : ℚ)) / 60 = k / 4 := by push_cast; ring
  have f1 : IsF ((k : ℚ) / 4) := by
    interval_cases k <;> decide +kernel
  have f2 : IsF ((d : ℚ) + k / 4) := by
    have := isF_of (m := 4 * (d : ℤ) + k) (e := -2) (by rw [abs_of_nonneg (by positivity)]; omega) (by norm_num)
    convert this using 1
    push_cast
    rw [show (2 : ℚ) ^ (-2 : ℤ) = 1 / 4 by norm_num]
    ring
  unfold fl
  rw [e1, zero_div, z, f1, add_zero, f2, f2]

/-! ### NaN, overflow and errors -/

theorem add_nan (x : Num) : Num.add x .nan = .nan := by cases x <;> rfl

/-- C143: a NaN in any field gives NaN. -/
theorem C143_nan (d m s : Num) (h : d = .nan ∨ m = .nan ∨ s = .nan) :
    dms_to_deg (.tuple [d, m, s]) = .ok .nan ∧ hms_to_deg (.tuple [d, m, s]) = .ok .nan := by
  have e : sexa d m s = .nan := by
    unfold sexa
    rcases h with rfl | rfl | rfl
    · rfl
    · show Num.add (Num.add d .nan) _ = _
      rw [add_nan]; rfl
    · exact add_nan _
  constructor
  · exact congrArg Except.ok e
  · show Except.ok (Num.mul (sexa d m s) (.fin 15)) = _
    rw [e]; rfl

/-- C143: both conversions fail (ValueError) exactly when the number of fields is not three. -/
theorem C143_fields (vs : List Num) : (vs.length ≠ 3 → dms_to_deg (.tuple vs) = .error .valueError ∧ hms_to_deg (.tuple vs) = .error .valueError) ∧
    (vs.length = 3 → (∃ r, dms_to_deg (.tuple vs) = .ok r) ∧ ∃ r, hms_to_deg (.tuple vs) = .ok r) := by
  constructor
  · intro h
    match vs, h with
    | [], _ | [_], _ | [_, _], _ | _ :: _ :: _ :: _ :: _, _ => exact ⟨rfl, rfl⟩
    | [_, _, _], h => exact absurd rfl h
  · intro h
    match vs, h with
    | [_, _, _], _ => exact ⟨⟨_, rfl⟩, ⟨_, rfl⟩⟩

/-! ### Text -/

theorem mapM_ofQ : ∀ l : List Str, l.mapM pyFloat = (l.mapM Coords.pyFloat).map (List.map ofQ) := by
  intro l
  induction l with
  | nil => rfl
  | cons a t ih =>
      rw [List.mapM_cons, List.mapM_cons, ih]
      unfold pyFloat
      cases Coords.pyFloat a <;> cases List.mapM Coords.pyFloat t <;> rfl

theorem fields_text (t : Str) : fields (.text t) = (Coords.fields (.text t)).map (fun p => (ofQ p.1, ofQ p.2.1, ofQ p.2.2)) := by
  unfold fields Coords.fields
  dsimp only
  rw [mapM_ofQ]
  cases List.mapM Coords.pyFloat (Str.split ':' t) with
  | error e => rfl
  | ok vs =>
      match vs with
      | [] | [_] | [_, _] | [_, _, _] | _ :: _ :: _ :: _ :: _ => rfl

/-- C143: text is rejected exactly when the exact conversion rejects it, with the same error. -/
theorem C143_text_error (t : Str) (e : PyErr) : (dms_to_deg (.text t) = .error e ↔ Coords.dms_to_deg (.text t) = .error e) ∧
    (hms_to_deg (.text t) = .error e ↔ Coords.hms_to_deg (.text t) = .error e) := by
  unfold dms_to_deg Coords.dms_to_deg hms_to_deg Coords.hms_to_deg
  rw [fields_text]
  cases Coords.fields (.text t) with
  | error e' => simp [bind, Except.bind, Except.map]
  | ok p => simp [bind, Except.bind, Except.map, pure, Except.pure]

theorem text_alg {d m s d' m' s' u z : ℚ} (e1 : |d' - d| ≤ u * |d| + z) (e2 : |m' - m| ≤ u * |m| + z) (e3 : |s' - s| ≤ u * |s| + z) :
    |exact d' m' s' - exact d m s| ≤ u * size d m s + (1 + 1 / 60 + 1 / 3600) * z ∧ size d' m' s' ≤ size d m s + u * size d m s + (1 + 1 / 60 + 1 / 3600) * z := by
  have b1 : |d'| ≤ |d' - d| + |d| := by
    have := abs_add_le (d' - d) d
    rwa [sub_add_cancel] at this
  have b2 : |m'| ≤ |m' - m| + |m| := by
    have := abs_add_le (m' - m) m
    rwa [sub_add_cancel] at this
  have b3 : |s'| ≤ |s' - s| + |s| := by
    have := abs_add_le (s' - s) s
    rwa [sub_add_cancel] at this
  have ex : exact d' m' s' - exact d m s = exact (d' - d) (m' - m) (s' - s) := by unfold exact; ring
  have := exact_le_size (d' - d) (m' - m) (s' - s)
  rw [ex]
  unfold size at *
  constructor <;> linarith

theorem text_const {u z E S S' : ℚ} {A : ℚ} (hu : 0 ≤ u) (hu1 : u ≤ 1 / 64) (hz : 0 ≤ z) (hS : 0 ≤ S) (h1 : A ≤ 4 * u * S' + 3 * z) (h2 : S' ≤ S + u * S + (1 + 1 / 60 + 1 / 3600) * z)
    (h3 : E ≤ u * S + (1 + 1 / 60 + 1 / 3600) * z) : A + E ≤ 8 * u * S + 8 * z := by
  have c : u * S' ≤ u * (S + u * S + (1 + 1 / 60 + 1 / 3600) * z) := mul_le_mul_of_nonneg_left h2 hu
  have uS := mul_nonneg hu hS
  have c1 : u * (u * S) ≤ 1 / 64 * (u * S) := mul_le_mul_of_nonneg_right hu1 uS
  have c2 : u * z ≤ 1 / 64 * z := mul_le_mul_of_nonneg_right hu1 hz
  nlinarith

/-- C143: text in decimal notation, of any length, comes out within 2^-50 (relative to the sizes of the three terms) of the exact angle it denotes: the rounding of each field
included. -/
theorem C143_text {t : Str} {d m s : ℚ} (ht : Coords.fields (.text t) = .ok (d, m, s)) (hd : |d| ≤ 2 ^ 1000) (hm : |m| ≤ 2 ^ 1000) (hs : |s| ≤ 2 ^ 1000) :
    Coords.dms_to_deg (.text t) = .ok (exact d m s) ∧
    ∃ r, dms_to_deg (.text t) = .ok (.fin r) ∧ IsF r ∧ |r - exact d m s| ≤ 2 ^ (-50 : ℤ) * size d m s + 2 ^ (-1072 : ℤ) := by
  have ed := FloatMesh.rnd_err_all d
  have em := FloatMesh.rnd_err_all m
  have es := FloatMesh.rnd_err_all s
  have sd := rnd_size hd
  have sm := rnd_size hm
  have ss := rnd_size hs
  have q : ∀ {x : ℚ}, |x| ≤ 2 ^ 1000 → ofQ x = .fin (rnd x) := fun h => ofQ_fin_le (up 1023 h (by norm_num)) FloatBins.pow1023 FloatBins.lt1024
  refine ⟨?_, fl (rnd d) (rnd m) (rnd s), ?_, isF_rnd _, ?_⟩
  · unfold Coords.dms_to_deg
    rw [ht]; rfl
  · unfold dms_to_deg
    rw [fields_text, ht]
    refine congrArg Except.ok ?_
    show sexa (ofQ d) (ofQ m) (ofQ s) = _
    rw [q hd, q hm, q hs]
    exact (sexa_fin (up 1001 sd (by norm_num)) (up 1001 sm (by norm_num)) (up 1001 ss (by norm_num))).1
  · have A := fl_err (rnd m) (rnd s) (isF_rnd d)
    obtain ⟨E, S⟩ := text_alg ed em es
    have c := text_const (pow_pos' _).le (by norm_num) (pow_pos' _).le (size_nonneg d m s) A S E
    have t := abs_add_le (fl (rnd d) (rnd m) (rnd s) - exact (rnd d) (rnd m) (rnd s)) (exact (rnd d) (rnd m) (rnd s) - exact d m s)
    rw [sub_add_sub_cancel] at t
    refine le_trans (le_trans t c) (le_of_eq ?_)
    rw [show (2 : ℚ) ^ (-1072 : ℤ) = 8 * 2 ^ (-1075 : ℤ) by rw [show (-1072 : ℤ) = 3 + -1075 by norm_num, zpow_add₀ (by norm_num)]; norm_num,
      show (2 : ℚ) ^ (-50 : ℤ) = 8 * 2 ^ (-53 : ℤ) by norm_num]

/-- The hypotheses are met by -12:34:56.7. -/
example : Coords.fields (.text "-12:34:56.7".toList) = .ok (-12, 34, 567 / 10) ∧ |(-12 : ℚ)| ≤ 2 ^ 1000 ∧ |(34 : ℚ)| ≤ 2 ^ 1000 ∧ |(567 / 10 : ℚ)| ≤ 2 ^ 1000 := by
  have p : (2 : ℚ) ^ 6 ≤ 2 ^ 1000 := pow_le_pow_right₀ (by norm_num) (by norm_num)
  refine ⟨by decide +kernel, le_trans ?_ p, le_trans ?_ p, le_trans ?_ p⟩ <;> norm_num [abs_of_pos, abs_of_neg]

/-- The sign of the first field does not reach the minutes (see C82): -12:30:00 comes out as -11.5 in double precision too. -/
example : dms_to_deg (.text "-12:30:00".toList) = .ok (.fin (-23 / 2)) := by decide +kernel


theorem hms_alg' {x f r S u z : ℚ} (hu : 0 ≤ u) (hu1 : u ≤ 1 / 64) (hz : 0 ≤ z) (hx : |x| ≤ S) (e1 : |f - x| ≤ 8 * u * S + 8 * z) (e2 : |r - f * 15| ≤ u * |f * 15| + z) :
    |r - 15 * x| ≤ 15 * (16 * u * S + 16 * z) := by
  have S0 : 0 ≤ S := le_trans (abs_nonneg _) hx
  have bf : |f| ≤ |f - x| + |x| := by
    have := abs_add_le (f - x) x
    rwa [sub_add_cancel] at this
  have t := abs_add_le (r - f * 15) (15 * (f - x))
  rw [show r - f * 15 + 15 * (f - x) = r - 15 * x by ring, abs_mul 15, abs_of_pos (by norm_num : (0 : ℚ) < 15)] at t
  rw [abs_mul f, abs_of_pos (by norm_num : (0 : ℚ) < 15)] at e2
  have uS := mul_nonneg hu S0
  have c1 : u * (u * S) ≤ 1 / 64 * (u * S) := mul_le_mul_of_nonneg_right hu1 uS
  have c2 : u * z ≤ 1 / 64 * z := mul_le_mul_of_nonneg_right hu1 hz
  have c3 : u * |f| ≤ u * (8 * u * S + 8 * z + S) := mul_le_mul_of_nonneg_left (by linarith) hu
  nlinarith

/-- C143: the same for hours: text comes out within 2^-49 (relative) of the exact angle it denotes. -/
theorem C143_text_hms {t : Str} {d m s : ℚ} (ht : Coords.fields (.text t) = .ok (d, m, s)) (hd : |d| ≤ 2 ^ 1000) (hm : |m| ≤ 2 ^ 1000) (hs : |s| ≤ 2 ^ 1000) :
    Coords.hms_to_deg (.text t) = .ok (exact d m s * 15) ∧
    ∃ r, hms_to_deg (.text t) = .ok (.fin r) ∧ IsF r ∧ |r - 15 * exact d m s| ≤ 15 * (2 ^ (-49 : ℤ) * size d m s + 2 ^ (-1071 : ℤ)) := by
  have ed := FloatMesh.rnd_err_all d
  have em := FloatMesh.rnd_err_all m
  have es := FloatMesh.rnd_err_all s
  have sd := rnd_size hd
  have sm := rnd_size hm
  have ss := rnd_size hs
  have q : ∀ {x : ℚ}, |x| ≤ 2 ^ 1000 → ofQ x = .fin (rnd x) := fun h => ofQ_fin_le (up 1023 h (by norm_num)) FloatBins.pow1023 FloatBins.lt1024
  refine ⟨?_, rnd (fl (rnd d) (rnd m) (rnd s) * 15), ?_, isF_rnd _, ?_⟩
  · unfold Coords.hms_to_deg
    rw [ht]; rfl
  · unfold hms_to_deg
    rw [fields_text, ht]
    refine congrArg Except.ok ?_
    show Num.mul (sexa (ofQ d) (ofQ m) (ofQ s)) (.fin 15) = _
    rw [q hd, q hm, q hs]
    exact hms_fin (up 1001 sd (by norm_num)) (up 1001 sm (by norm_num)) (up 1001 ss (by norm_num))
  · have A := fl_err (rnd m) (rnd s) (isF_rnd d)
    obtain ⟨E, S⟩ := text_alg ed em es
    have c := text_const (pow_pos' _).le (by norm_num) (pow_pos' _).le (size_nonneg d m s) A S E
    have t := abs_add_le (fl (rnd d) (rnd m) (rnd s) - exact (rnd d) (rnd m) (rnd s)) (exact (rnd d) (rnd m) (rnd s) - exact d m s)
    rw [sub_add_sub_cancel] at t
    refine le_trans (hms_alg' (pow_pos' _).le (by norm_num) (pow_pos' _).le (exact_le_size d m s) (le_trans t c) (FloatMesh.rnd_err_all _)) (le_of_eq ?_)
    rw [show (2 : ℚ) ^ (-1071 : ℤ) = 16 * 2 ^ (-1075 : ℤ) by rw [show (-1071 : ℤ) = 4 + -1075 by norm_num, zpow_add₀ (by norm_num)]; norm_num,
      show (2 : ℚ) ^ (-49 : ℤ) = 16 * 2 ^ (-53 : ℤ) by norm_num]

/-- The hypotheses of the theorems on tuples are met by 12, 34, 56.5. -/
example : Fine 12 ∧ Fine 34 ∧ Fine (113 / 2) ∧ size 12 34 (113 / 2) ≤ 500 := by
  have p : (2 : ℚ) ^ 6 ≤ 2 ^ 1000 := pow_le_pow_right₀ (by norm_num) (by norm_num)
  refine ⟨⟨by decide +kernel, le_trans ?_ p⟩, ⟨by decide +kernel, le_trans ?_ p⟩, ⟨by decide +kernel, le_trans ?_ p⟩, ?_⟩ <;> norm_num [abs_of_pos, size]

end Pyhipp.FloatCoords
