import Verif.Props.FloatMesh
import Mathlib.Algebra.BigOperators.Ring.Finset
import Mathlib.Algebra.Order.BigOperators.Group.Finset
import Mathlib.Algebra.Order.Floor.Ring
/-
C124: cloud-in-cell deposits in double precision.
-/
namespace Pyhipp.FloatMesh
open Pyhipp F64

theorem isF_one : IsF 1 := by simpa using isF_int (m := 1) (by norm_num)

/-- A double from 1/2 to 1 is a multiple of 2^-53. -/
theorem mult_half {x : ℚ} (hx : IsF x) (h0 : 1 / 2 ≤ x) (h1 : x ≤ 1) : ∃ k : ℤ, x = k * 2 ^ (-53 : ℤ) := by
  refine hx.mult_of_le ?_
  by_contra hc
  have h2 := lt_expo x
  rw [abs_of_pos (by linarith)] at h2
  have : (2 : ℚ) ^ (expo x + 53) ≤ 2 ^ (-1 : ℤ) := zpow_le_zpow_right₀ (by norm_num) (by omega)
  norm_num at this
  linarith

/-- The weights computed from a position `q` in units of cells. -/
structure Weights (q wl wr : ℚ) : Prop where
  fl : IsF wl
  fr : IsF wr
  l0 : 0 ≤ wl
  l1 : wl ≤ 1
  r0 : 0 ≤ wr
  r1 : wr ≤ 1
  sum : wl + wr = 1
  ml : ∃ k : ℤ, wl = k * 2 ^ (-53 : ℤ)
  mr : ∃ k : ℤ, wr = k * 2 ^ (-53 : ℤ)
  err : |wr - (q - ⌊q⌋)| ≤ 2 ^ (-53 : ℤ)
  exact : 0 ≤ q → q - ⌊q⌋ = 0 → wr = 0

theorem rnd_err_unit {x : ℚ} (h0 : 0 ≤ x) (h1 : x ≤ 1) : |rnd x - x| ≤ 2 ^ (-54 : ℤ) := by
  rcases eq_or_lt_of_le h1 with h | h
  · subst h
    rw [isF_one, sub_self, abs_zero]; positivity
  rcases eq_or_lt_of_le h0 with h' | h'
  · rw [← h', rnd_zero, sub_self, abs_zero]; positivity
  refine le_trans (rnd_err_ulp x) ?_
  have : expo x ≤ -53 := expo_le_of_lt (by norm_num) (by norm_num; rwa [abs_of_pos h']) h'.ne'
  have h2 : (2 : ℚ) ^ expo x ≤ 2 ^ (-53 : ℤ) := zpow_le_zpow_right₀ (by norm_num) this
  have h3 : (2 : ℚ) ^ (-54 : ℤ) = 2 ^ (-53 : ℤ) / 2 := by norm_num
  rw [h3]
  exact div_le_div_of_nonneg_right h2 (by norm_num)

theorem weights_fact {q : ℚ} (hq : IsF q) : Weights q (rnd (1 - rnd (q - ⌊q⌋))) (rnd (1 - rnd (1 - rnd (q - ⌊q⌋)))) := by
  have h0 : 0 ≤ q - ⌊q⌋ := by linarith [Int.floor_le q]
  have h1 : q - ⌊q⌋ ≤ 1 := by linarith [Int.lt_floor_add_one q]
  have f0 : 0 ≤ rnd (q - ⌊q⌋) := rnd_nonneg h0
  have f1 : rnd (q - ⌊q⌋) ≤ 1 := rnd_le h1 isF_one
  have fe := rnd_err_unit h0 h1
  have fF : IsF (rnd (q - ⌊q⌋)) := isF_rnd _
  have hex : 0 ≤ q → q - ⌊q⌋ = 0 → rnd (q - ⌊q⌋) = 0 := by intro _ h; rw [h, rnd_zero]
  generalize rnd (q - ⌊q⌋) = f at *
  have l0 : 0 ≤ rnd (1 - f) := rnd_nonneg (by linarith)
  have l1 : rnd (1 - f) ≤ 1 := rnd_le (by linarith) isF_one
  have le := rnd_err_unit (x := 1 - f) (by linarith) (by linarith)
  have lF : IsF (rnd (1 - f)) := isF_rnd _
  have key : IsF (1 - rnd (1 - f)) ∧ ∃ k : ℤ, rnd (1 - f) = k * 2 ^ (-53 : ℤ) := by
    rcases le_or_gt (1 / 2) (rnd (1 - f)) with h | h
    · refine ⟨?_, mult_half lF h l1⟩
      exact sterbenz isF_one lF (by linarith) (by linarith) (by linarith)
    · have hf : 1 / 2 < f := by
        by_contra hc
        have : (1 / 2 : ℚ) ≤ rnd (1 - f) := le_rnd (by linarith) (by
          have := isF_pow (e := -1) (by norm_num)
          norm_num at this ⊢
          exact this)
        linarith
      have he : IsF (1 - f) := sterbenz isF_one fF (by linarith) (by linarith) (by linarith)
      rw [he]
      refine ⟨by rw [sub_sub_cancel]; exact fF, ?_⟩
      obtain ⟨k, hk⟩ := mult_half fF hf.le f1
      refine ⟨2 ^ 53 - k, ?_⟩
      rw [hk]
      push_cast
      norm_num
      ring
  obtain ⟨kF, k, hk⟩ := key
  refine ⟨lF, isF_rnd _, l0, l1, rnd_nonneg (by linarith), rnd_le (by linarith) isF_one, by rw [kF]; ring, ⟨k, hk⟩, ⟨2 ^ 53 - k, ?_⟩, ?_, ?_⟩
  · rw [kF, hk]
    push_cast
    norm_num
    ring
  · rw [kF]
    have h3 : (2 : ℚ) ^ (-53 : ℤ) = 2 * 2 ^ (-54 : ℤ) := by norm_num
    rw [h3]
    have a := abs_le.mp fe
    have b := abs_le.mp le
    rw [abs_le]
    constructor <;> linarith [a.1, a.2, b.1, b.2]
  · intro hq0 hz
    have hf0 := hex hq0 hz
    rw [kF, hf0, sub_zero, isF_one, sub_self]

theorem floorF {q : ℚ} (h : |q| ≤ 2 ^ 62) : |(⌊q⌋ : ℚ)| ≤ 2 ^ 62 := by
  rw [abs_le] at h ⊢
  constructor
  · have : (-2 ^ 62 : ℤ) ≤ ⌊q⌋ := by rw [Int.le_floor]; push_cast; exact h.1
    exact_mod_cast this
  · exact le_trans (Int.floor_le q) h.2

theorem small_fin {q : ℚ} (h : |q| ≤ 1) : ofQ q = .fin (rnd q) :=
  ofQ_fin_le h isF_one (one_lt_pow₀ (by norm_num) (by norm_num))

/-- C124: the weights of a point along an axis: two neighbouring cells (periodic), both weights doubles of [0, 1] that are multiples of
2^-53 and add up to exactly 1; the weight of the upper cell is the fractional part of the computed position up to 2^-53. -/
theorem C124_weights {m : Mesh} {L : ℚ} (h : Good m L) (bad : Num → ℤ) {v : ℚ} (hv : Near m L v) :
    ∃ wl wr : ℚ, weightsAt bad m (.fin v) = (⌊posQ m L v⌋ % m.n, (⌊posQ m L v⌋ + 1) % m.n, .fin wl, .fin wr) ∧ Weights (posQ m L v) wl wr := by
  have hq : IsF (posQ m L v) := isF_rnd _
  have hb := pos_le h hv
  have hd := div_num h hv
  have ht := toInt_floor bad hb
  have W := weights_fact hq
  generalize posQ m L v = q at *
  refine ⟨_, _, ?_, W⟩
  have h0 : 0 ≤ q - ⌊q⌋ := by linarith [Int.floor_le q]
  have h1 : q - ⌊q⌋ ≤ 1 := by linarith [Int.lt_floor_add_one q]
  have e1 : Num.sub (.fin q) (Num.floor (.fin q)) = .fin (rnd (q - ⌊q⌋)) := by
    show ofQ (q + -(⌊q⌋ : ℚ)) = _
    rw [← sub_eq_add_neg]
    exact small_fin (by rw [abs_of_nonneg h0]; exact h1)
  have f0 : 0 ≤ rnd (q - ⌊q⌋) := rnd_nonneg h0
  have f1 : rnd (q - ⌊q⌋) ≤ 1 := rnd_le h1 isF_one
  have e2 : ∀ a : ℚ, 0 ≤ a → a ≤ 1 → Num.sub (.fin 1) (.fin a) = .fin (rnd (1 - a)) := by
    intro a a0 a1
    show ofQ (1 + -a) = _
    rw [← sub_eq_add_neg]
    exact small_fin (by rw [abs_of_nonneg (by linarith)]; linarith)
  unfold weightsAt
  simp only [hd, e1, ht]
  rw [e2 _ f0 f1, e2 _ W.l0 W.l1]

/-! ### Products of weights -/

/-- 0 or at least 2^e. -/
def Sz (e : ℤ) (x : ℚ) : Prop := x = 0 ∨ 2 ^ e ≤ x

theorem Sz.nonneg {e : ℤ} {x : ℚ} (h : Sz e x) : 0 ≤ x := by
  rcases h with h | h
  · exact h.ge
  · exact le_trans (pow_pos' e).le h

theorem Sz.mul {e e' : ℤ} {x y : ℚ} (h : Sz e x) (h' : Sz e' y) : Sz (e + e') (x * y) := by
  rcases h with h | h
  · left; rw [h, zero_mul]
  · rcases h' with h' | h'
    · left; rw [h', mul_zero]
    · right
      rw [zpow_add₀ (by norm_num)]
      exact mul_le_mul h h' (pow_pos' _).le (le_trans (pow_pos' e).le h)

theorem Sz.rnd {e : ℤ} {x : ℚ} (he : -1022 ≤ e) (h : Sz e x) : Sz e (rnd x) ∧ |F64.rnd x - x| ≤ 2 ^ (-53 : ℤ) * x := by
  rcases h with h | h
  · rw [h, rnd_zero]
    exact ⟨.inl rfl, by rw [sub_self, abs_zero, mul_zero]⟩
  · have hx : 0 < x := lt_of_lt_of_le (pow_pos' e) h
    refine ⟨.inr (le_rnd h (isF_pow (by omega))), ?_⟩
    have := rnd_err (x := x) (by rw [abs_of_pos hx]; exact le_trans (zpow_le_zpow_right₀ (by norm_num) he) h)
    rwa [abs_of_pos hx] at this

theorem sz_weight {x : ℚ} (h0 : 0 ≤ x) (h : ∃ k : ℤ, x = k * 2 ^ (-53 : ℤ)) : Sz (-53) x := by
  obtain ⟨k, hk⟩ := h
  have hp := pow_pos' (-53)
  rcases lt_trichotomy k 0 with h1 | h1 | h1
  · have : x < 0 := by
      rw [hk]
      have : (k : ℚ) < 0 := by exact_mod_cast h1
      exact mul_neg_of_neg_of_pos this hp
    linarith
  · left; rw [hk, h1]; simp
  · right
    rw [hk]
    have : (1 : ℚ) ≤ k := by exact_mod_cast h1
    exact le_mul_of_one_le_left hp.le this

/-- A relative error of `k` roundings. -/
def Rel (k : Nat) (x y : ℚ) : Prop := |y - x| ≤ ((1 + 2 ^ (-53 : ℤ)) ^ k - 1) * x

theorem rel_step {k : Nat} {x y z c : ℚ} (hc : 0 ≤ c) (hx : 0 ≤ x) (h : Rel k x y) (hz : |z - y * c| ≤ 2 ^ (-53 : ℤ) * (y * c)) :
    Rel (k + 1) (x * c) z := by
  unfold Rel at *
  have hu : (0 : ℚ) ≤ 2 ^ (-53 : ℤ) := (pow_pos' _).le
  rw [pow_succ]
  generalize (2 : ℚ) ^ (-53 : ℤ) = u at *
  generalize (1 + u) ^ k = a at *
  have h1 := abs_le.mp h
  have h2 : y ≤ a * x := by linarith [h1.2]
  have h3 : y * c ≤ a * (x * c) := by
    have := mul_le_mul_of_nonneg_right h2 hc
    linarith
  have h4 : |y * c - x * c| ≤ (a - 1) * (x * c) := by
    rw [← sub_mul, abs_mul, abs_of_nonneg hc, ← mul_assoc]
    exact mul_le_mul_of_nonneg_right h hc
  have h5 : |z - x * c| ≤ |z - y * c| + |y * c - x * c| := by
    have := abs_add_le (z - y * c) (y * c - x * c)
    rwa [sub_add_sub_cancel] at this
  have h6 : u * (y * c) ≤ u * (a * (x * c)) := mul_le_mul_of_nonneg_left h3 hu
  linarith

/-- The product of three weights and the mass of the point. -/
theorem product {a b c W : ℚ} (ha : Sz (-53) a) (hb : Sz (-53) b) (hc : Sz (-53) c) (a1 : a ≤ 1) (b1 : b ≤ 1) (c1 : c ≤ 1)
    (hW : Sz (-800) W) (fW : IsF W) (bW : W < 2 ^ 1024) :
    ∃ d : ℚ, Num.mul (Num.mul (Num.mul (.fin a) (.fin b)) (.fin c)) (.fin W) = .fin d ∧ IsF d ∧ 0 ≤ d ∧ d ≤ W ∧ Rel 3 (a * b * c * W) d := by
  obtain ⟨s1, e1⟩ := (ha.mul hb).rnd (by norm_num)
  have r1 : rnd (a * b) ≤ 1 := rnd_le (by nlinarith [ha.nonneg, hb.nonneg]) isF_one
  obtain ⟨s2, e2⟩ := (s1.mul hc).rnd (by norm_num)
  have r2 : rnd (rnd (a * b) * c) ≤ 1 := rnd_le (by nlinarith [s1.nonneg, hc.nonneg]) isF_one
  obtain ⟨s3, e3⟩ := (s2.mul hW).rnd (by norm_num)
  have l3 : rnd (rnd (a * b) * c) * W ≤ W := by
    have := mul_le_mul_of_nonneg_right r2 hW.nonneg
    linarith
  have n1 : Num.mul (.fin a) (.fin b) = .fin (rnd (a * b)) :=
    small_fin (by rw [abs_of_nonneg (ha.mul hb).nonneg]; nlinarith [ha.nonneg, hb.nonneg])
  have n2 : Num.mul (.fin (rnd (a * b))) (.fin c) = .fin (rnd (rnd (a * b) * c)) :=
    small_fin (by rw [abs_of_nonneg (s1.mul hc).nonneg]; nlinarith [s1.nonneg, hc.nonneg])
  have n3 : Num.mul (.fin (rnd (rnd (a * b) * c))) (.fin W) = .fin (rnd (rnd (rnd (a * b) * c) * W)) :=
    ofQ_fin_le (y := W) (by rw [abs_of_nonneg (s2.mul hW).nonneg]; exact l3) fW bW
  refine ⟨_, by rw [n1, n2, n3], isF_rnd _, s3.nonneg, rnd_le l3 fW, ?_⟩
  have R0 : Rel 0 a a := by unfold Rel; simp
  have R1 := rel_step hb.nonneg ha.nonneg R0 e1
  have R2 := rel_step hc.nonneg (mul_nonneg ha.nonneg hb.nonneg) R1 e2
  exact rel_step hW.nonneg (mul_nonneg (mul_nonneg ha.nonneg hb.nonneg) hc.nonneg) R2 e3

theorem Rel.add {k : Nat} {x y x' y' : ℚ} (h : Rel k x y) (h' : Rel k x' y') : Rel k (x + x') (y + y') := by
  unfold Rel at *
  have := abs_add_le (y - x) (y' - x')
  rw [show y + y' - (x + x') = y - x + (y' - x') by ring, mul_add]
  linarith

/-- Specification: a mass that a point can have: 0, or a double from 2^-800 to below 2^1024. -/
structure MassOK (W : ℚ) : Prop where
  sz : W = 0 ∨ 2 ^ (-800 : ℤ) ≤ W
  f : IsF W
  fin : W < 2 ^ 1024

/-- Specification: the three coordinates are within 2^61 cells of the origin. -/
def NearPt (m : Mesh) (L : ℚ) (v : ℚ × ℚ × ℚ) : Prop := Near m L v.1 ∧ Near m L v.2.1 ∧ Near m L v.2.2

/-- A cell of the mesh. -/
def IsCell (m : Mesh) (c : ℤ × ℤ × ℤ) : Prop := (0 ≤ c.1 ∧ c.1 < m.n) ∧ (0 ≤ c.2.1 ∧ c.2.1 < m.n) ∧ (0 ≤ c.2.2 ∧ c.2.2 < m.n)

/-- C124: a point of mass `W` makes eight deposits, at cells of the mesh, each a finite non-negative double; together they are the mass of the
point up to three roundings. -/
theorem C124_deposits {m : Mesh} {L : ℚ} (h : Good m L) (bad : Num → ℤ) {v : ℚ × ℚ × ℚ} (hv : NearPt m L v) {W : ℚ} (hW : MassOK W) :
    ∃ ds : List ((ℤ × ℤ × ℤ) × ℚ), deposits bad m (pt v) (.fin W) = ds.map (fun p => (p.1, .fin p.2)) ∧ ds.length = 8 ∧
      (∀ p ∈ ds, IsCell m p.1 ∧ IsF p.2 ∧ 0 ≤ p.2 ∧ p.2 ≤ W) ∧
      |(ds.map (·.2)).sum - W| ≤ ((1 + 2 ^ (-53 : ℤ)) ^ 3 - 1) * W := by
  obtain ⟨al, ar, ea, wa⟩ := C124_weights h bad hv.1
  obtain ⟨bl, br, eb, wb⟩ := C124_weights h bad hv.2.1
  obtain ⟨cl, cr, ec, wc⟩ := C124_weights h bad hv.2.2
  have sal := sz_weight wa.l0 wa.ml
  have sar := sz_weight wa.r0 wa.mr
  have sbl := sz_weight wb.l0 wb.ml
  have sbr := sz_weight wb.r0 wb.mr
  have scl := sz_weight wc.l0 wc.ml
  have scr := sz_weight wc.r0 wc.mr
  obtain ⟨d1, n1, f1, z1, u1, R1⟩ := product sal sbl scl wa.l1 wb.l1 wc.l1 hW.sz hW.f hW.fin
  obtain ⟨d2, n2, f2, z2, u2, R2⟩ := product sal sbl scr wa.l1 wb.l1 wc.r1 hW.sz hW.f hW.fin
  obtain ⟨d3, n3, f3, z3, u3, R3⟩ := product sal sbr scl wa.l1 wb.r1 wc.l1 hW.sz hW.f hW.fin
  obtain ⟨d4, n4, f4, z4, u4, R4⟩ := product sal sbr scr wa.l1 wb.r1 wc.r1 hW.sz hW.f hW.fin
  obtain ⟨d5, n5, f5, z5, u5, R5⟩ := product sar sbl scl wa.r1 wb.l1 wc.l1 hW.sz hW.f hW.fin
  obtain ⟨d6, n6, f6, z6, u6, R6⟩ := product sar sbl scr wa.r1 wb.l1 wc.r1 hW.sz hW.f hW.fin
  obtain ⟨d7, n7, f7, z7, u7, R7⟩ := product sar sbr scl wa.r1 wb.r1 wc.l1 hW.sz hW.f hW.fin
  obtain ⟨d8, n8, f8, z8, u8, R8⟩ := product sar sbr scr wa.r1 wb.r1 wc.r1 hW.sz hW.f hW.fin
  have hn := h.n_pos
  have hm := fun a : ℤ => Neighbor.mod_range m.n hn a
  set i := ⌊posQ m L v.1⌋
  set j := ⌊posQ m L v.2.1⌋
  set k := ⌊posQ m L v.2.2⌋
  refine ⟨[((i % m.n, j % m.n, k % m.n), d1), ((i % m.n, j % m.n, (k + 1) % m.n), d2), ((i % m.n, (j + 1) % m.n, k % m.n), d3),
    ((i % m.n, (j + 1) % m.n, (k + 1) % m.n), d4), (((i + 1) % m.n, j % m.n, k % m.n), d5), (((i + 1) % m.n, j % m.n, (k + 1) % m.n), d6),
    (((i + 1) % m.n, (j + 1) % m.n, k % m.n), d7), (((i + 1) % m.n, (j + 1) % m.n, (k + 1) % m.n), d8)], ?_, rfl, ?_, ?_⟩
  · unfold deposits pt
    simp only [ea, eb, ec, n1, n2, n3, n4, n5, n6, n7, n8, List.map_cons, List.map_nil]
  · intro p hp
    simp only [List.mem_cons, List.not_mem_nil, or_false] at hp
    rcases hp with rfl | rfl | rfl | rfl | rfl | rfl | rfl | rfl
    · exact ⟨⟨hm _, hm _, hm _⟩, f1, z1, u1⟩
    · exact ⟨⟨hm _, hm _, hm _⟩, f2, z2, u2⟩
    · exact ⟨⟨hm _, hm _, hm _⟩, f3, z3, u3⟩
    · exact ⟨⟨hm _, hm _, hm _⟩, f4, z4, u4⟩
    · exact ⟨⟨hm _, hm _, hm _⟩, f5, z5, u5⟩
    · exact ⟨⟨hm _, hm _, hm _⟩, f6, z6, u6⟩
    · exact ⟨⟨hm _, hm _, hm _⟩, f7, z7, u7⟩
    · exact ⟨⟨hm _, hm _, hm _⟩, f8, z8, u8⟩
  · have R := R1.add (R2.add (R3.add (R4.add (R5.add (R6.add (R7.add R8))))))
    have e : al * bl * cl * W + (al * bl * cr * W + (al * br * cl * W + (al * br * cr * W + (ar * bl * cl * W + (ar * bl * cr * W +
        (ar * br * cl * W + ar * br * cr * W)))))) = (al + ar) * (bl + br) * (cl + cr) * W := by ring
    rw [e, wa.sum, wb.sum, wc.sum] at R
    unfold Rel at R
    simpa using R

/-! ### Accumulation -/

/-- The sum of the deposits at a cell. -/
def sumAt (ds : List ((ℤ × ℤ × ℤ) × ℚ)) (c : ℤ × ℤ × ℤ) : ℚ := (ds.map (fun p => if p.1 = c then p.2 else 0)).sum

theorem one_le_growth (k : Nat) : (1 : ℚ) ≤ (1 + 2 ^ (-53 : ℤ)) ^ k := one_le_pow₀ (by have := pow_pos' (-53); linarith)

theorem growth_mono {j k : Nat} (h : j ≤ k) : ((1 : ℚ) + 2 ^ (-53 : ℤ)) ^ j ≤ (1 + 2 ^ (-53 : ℤ)) ^ k :=
  pow_le_pow_right₀ (by have := pow_pos' (-53); linarith) h

theorem Rel.mono {j k : Nat} {x y : ℚ} (h : Rel j x y) (hx : 0 ≤ x) (hjk : j ≤ k) : Rel k x y := by
  unfold Rel at *
  refine le_trans h (mul_le_mul_of_nonneg_right ?_ hx)
  linarith [growth_mono hjk]

theorem rel_add_step {k : Nat} {S v x : ℚ} (hS : 0 ≤ S) (hx : 0 ≤ x) (fv : IsF v) (fx : IsF x) (hv : 0 ≤ v) (h : Rel k S v) :
    Rel (k + 1) (S + x) (rnd (v + x)) := by
  have he := rnd_sub_err fv fx.neg
  rw [sub_neg_eq_add, abs_of_nonneg (show 0 ≤ v + x by linarith)] at he
  unfold Rel at *
  have hu : (0 : ℚ) ≤ 2 ^ (-53 : ℤ) := (pow_pos' _).le
  have h1 := one_le_growth k
  rw [pow_succ]
  generalize (2 : ℚ) ^ (-53 : ℤ) = u at *
  generalize (1 + u) ^ k = a at *
  have hh := abs_le.mp h
  have h2 : v + x ≤ a * (S + x) := by nlinarith [hh.2]
  have h3 : |rnd (v + x) - (S + x)| ≤ |rnd (v + x) - (v + x)| + |v - S| := by
    have := abs_add_le (rnd (v + x) - (v + x)) (v - S)
    rwa [show rnd (v + x) - (v + x) + (v - S) = rnd (v + x) - (S + x) by ring] at this
  have h4 : u * (v + x) ≤ u * (a * (S + x)) := mul_le_mul_of_nonneg_left h2 hu
  have h5 : (a - 1) * S ≤ (a - 1) * (S + x) := mul_le_mul_of_nonneg_left (by linarith) (by linarith)
  linarith

theorem accum (ds : List ((ℤ × ℤ × ℤ) × ℚ)) (hds : ∀ p ∈ ds, IsF p.2 ∧ 0 ≤ p.2) (d : Data) (S : ℤ × ℤ × ℤ → ℚ) (k : Nat)
    (hinv : ∀ c, ∃ v : ℚ, d c = .fin v ∧ IsF v ∧ 0 ≤ v ∧ 0 ≤ S c ∧ Rel k (S c) v)
    (hb : ∀ c, (1 + 2 ^ (-53 : ℤ)) ^ (k + ds.length) * (S c + (ds.map (·.2)).sum) ≤ 2 ^ 1023) :
    ∀ c, ∃ v : ℚ, (ds.map (fun p => (p.1, Num.fin p.2))).foldl addTo d c = .fin v ∧ IsF v ∧ 0 ≤ v ∧ Rel (k + ds.length) (S c + sumAt ds c) v := by
  induction ds generalizing d S k with
  | nil =>
      intro c
      obtain ⟨v, h1, h2, h3, -, h5⟩ := hinv c
      exact ⟨v, by simpa using h1, h2, h3, by simpa [sumAt] using h5⟩
  | cons p t ih =>
      have hp := hds p (by simp)
      have htn : ∀ q ∈ t, IsF q.2 ∧ 0 ≤ q.2 := fun q hq => hds q (by simp [hq])
      have ht0 : 0 ≤ (t.map (·.2)).sum := List.sum_nonneg (by
        intro x hx
        obtain ⟨q, hq, rfl⟩ := List.mem_map.mp hx
        exact (htn q hq).2)
      have key := ih htn (addTo d (p.1, .fin p.2)) (fun c => S c + if p.1 = c then p.2 else 0) (k + 1) ?_ ?_
      · intro c
        obtain ⟨v, h1, h2, h3, h4⟩ := key c
        refine ⟨v, by simpa using h1, h2, h3, ?_⟩
        have e : S c + sumAt (p :: t) c = S c + (if p.1 = c then p.2 else 0) + sumAt t c := by simp [sumAt]; ring
        rw [e, show k + (p :: t).length = k + 1 + t.length by simp; omega]
        exact h4
      · intro c
        obtain ⟨v, h1, h2, h3, h4, h5⟩ := hinv c
        by_cases hc : c = p.1
        · have e : addTo d (p.1, .fin p.2) c = ofQ (v + p.2) := by
            simp [addTo, hc]
            rw [← hc, h1]
            rfl
          have hv : v + p.2 ≤ 2 ^ 1023 := by
            refine le_trans ?_ (hb c)
            have g1 := growth_mono (show k ≤ k + (p :: t).length by omega)
            have g0 := one_le_growth k
            have hh := (abs_le.mp h5).2
            simp only [List.map_cons, List.sum_cons]
            generalize ((1 : ℚ) + 2 ^ (-53 : ℤ)) ^ (k + (p :: t).length) = A at *
            generalize ((1 : ℚ) + 2 ^ (-53 : ℤ)) ^ k = a at *
            have a1 : v ≤ a * S c := by linarith
            have a2 : a * S c ≤ A * S c := mul_le_mul_of_nonneg_right g1 h4
            have a3 : 1 * p.2 ≤ A * p.2 := mul_le_mul_of_nonneg_right (by linarith) hp.2
            have a4 : 0 ≤ A * (t.map (·.2)).sum := mul_nonneg (by linarith) ht0
            have : A * (S c + (p.2 + (t.map (·.2)).sum)) = A * S c + A * p.2 + A * (t.map (·.2)).sum := by ring
            rw [this]
            linarith
          have e2 : ofQ (v + p.2) = .fin (rnd (v + p.2)) :=
            ofQ_fin_le (by rw [abs_of_nonneg (by linarith [hp.2])]; exact hv) FloatBins.pow1023 FloatBins.lt1024
          refine ⟨rnd (v + p.2), by rw [e, e2], isF_rnd _, rnd_nonneg (by linarith [hp.2]), ?_, ?_⟩
          · rw [if_pos hc.symm]; linarith [hp.2]
          · rw [if_pos hc.symm]
            exact rel_add_step h4 hp.2 h2 hp.1 h3 h5
        · have hc' : ¬ p.1 = c := fun e => hc e.symm
          refine ⟨v, by simp [addTo, hc, h1], h2, h3, ?_, ?_⟩
          · rw [if_neg hc', add_zero]; exact h4
          · rw [if_neg hc', add_zero]; exact h5.mono h4 (by omega)
      · intro c
        refine le_trans ?_ (hb c)
        rw [show k + 1 + t.length = k + (p :: t).length by simp; omega]
        refine mul_le_mul_of_nonneg_left ?_ (le_trans zero_le_one (one_le_growth _))
        simp only [List.map_cons, List.sum_cons]
        have : (if p.1 = c then p.2 else 0) ≤ p.2 := by split <;> linarith [hp.2]
        linarith

/-- All cells of the mesh. -/
noncomputable def cells (m : Mesh) : Finset (ℤ × ℤ × ℤ) := Finset.Ico 0 (m.n : ℤ) ×ˢ (Finset.Ico 0 (m.n : ℤ) ×ˢ Finset.Ico 0 (m.n : ℤ))

theorem mem_cells (m : Mesh) (c : ℤ × ℤ × ℤ) : c ∈ cells m ↔ IsCell m c := by
  simp [cells, IsCell, Finset.mem_product, Finset.mem_Ico]

theorem sum_sumAt (m : Mesh) (ds : List ((ℤ × ℤ × ℤ) × ℚ)) (h : ∀ p ∈ ds, IsCell m p.1) :
    ∑ c ∈ cells m, sumAt ds c = (ds.map (·.2)).sum := by
  induction ds with
  | nil => simp [sumAt]
  | cons p t ih =>
      have e : ∀ c, sumAt (p :: t) c = (if p.1 = c then p.2 else 0) + sumAt t c := by intro c; simp [sumAt]
      simp only [e, Finset.sum_add_distrib, List.map_cons, List.sum_cons]
      rw [ih (fun q hq => h q (by simp [hq])), Finset.sum_ite_eq, if_pos ((mem_cells m p.1).mpr (h p (by simp)))]

/-- The number held by a cell. -/
def val : Num → ℚ
  | .fin q => q
  | _ => 0

/-- The field of zeros. -/
def zeros : Data := fun _ => .fin 0

/-- Specification: points with masses that can be added to the field. -/
def PointsOK (m : Mesh) (L : ℚ) (ps : List ((ℚ × ℚ × ℚ) × ℚ)) : Prop := ∀ p ∈ ps, NearPt m L p.1 ∧ MassOK p.2

/-- The total mass. -/
def mass (ps : List ((ℚ × ℚ × ℚ) × ℚ)) : ℚ := (ps.map (·.2)).sum

theorem all_deposits {m : Mesh} {L : ℚ} (h : Good m L) (bad : Num → ℤ) (ps : List ((ℚ × ℚ × ℚ) × ℚ)) (hps : PointsOK m L ps) :
    ∃ ds : List ((ℤ × ℤ × ℤ) × ℚ),
      (∀ d : Data, (ps.map (fun p => (pt p.1, Num.fin p.2))).foldl (fun d p => add1 bad m d p.1 p.2) d =
        (ds.map (fun p => (p.1, Num.fin p.2))).foldl addTo d) ∧ ds.length = 8 * ps.length ∧
      (∀ p ∈ ds, IsCell m p.1 ∧ IsF p.2 ∧ 0 ≤ p.2) ∧ |(ds.map (·.2)).sum - mass ps| ≤ ((1 + 2 ^ (-53 : ℤ)) ^ 3 - 1) * mass ps := by
  induction ps with
  | nil => exact ⟨[], fun d => rfl, rfl, by simp, by simp [mass]⟩
  | cons p t ih =>
      obtain ⟨ds, e, l, hh, hm⟩ := ih (fun q hq => hps q (by simp [hq]))
      obtain ⟨d8, e8, l8, h8, m8⟩ := C124_deposits h bad (hps p (by simp)).1 (hps p (by simp)).2
      refine ⟨d8 ++ ds, ?_, by simp [l, l8]; ring, ?_, ?_⟩
      · intro d
        rw [List.map_append, List.foldl_append, ← e]
        simp only [List.map_cons, List.foldl_cons, add1]
        rw [e8]
      · intro q hq
        rcases List.mem_append.mp hq with hq | hq
        · exact ⟨(h8 q hq).1, (h8 q hq).2.1, (h8 q hq).2.2.1⟩
        · exact hh q hq
      · rw [List.map_append, List.sum_append]
        have e1 : mass (p :: t) = p.2 + mass t := by simp [mass]
        rw [e1, mul_add, show (d8.map (·.2)).sum + (ds.map (·.2)).sum - (p.2 + mass t) = ((d8.map (·.2)).sum - p.2) + ((ds.map (·.2)).sum - mass t) by ring]
        exact le_trans (abs_add_le _ _) (by linarith)

theorem mass_nonneg {m : Mesh} {L : ℚ} (ps : List ((ℚ × ℚ × ℚ) × ℚ)) (hps : PointsOK m L ps) : 0 ≤ mass ps := by
  refine List.sum_nonneg ?_
  intro x hx
  obtain ⟨q, hq, rfl⟩ := List.mem_map.mp hx
  exact Sz.nonneg (hps q hq).2.sz

theorem growth_le (k : Nat) (hk : k * 2 ^ (-53 : ℤ) ≤ (1 / 2 : ℚ)) : ((1 : ℚ) + 2 ^ (-53 : ℤ)) ^ k ≤ 1 + 2 * (k * 2 ^ (-53 : ℤ)) := by
  have hu := pow_pos' (-53)
  generalize (2 : ℚ) ^ (-53 : ℤ) = u at *
  induction k with
  | zero => simp
  | succ j ih =>
      push_cast at hk ⊢
      have h1 := ih (by nlinarith)
      rw [pow_succ]
      have h2 : (1 + u) ^ j * (1 + u) ≤ (1 + 2 * (j * u)) * (1 + u) := mul_le_mul_of_nonneg_right h1 (by linarith)
      nlinarith

/-- C124: mass is conserved up to rounding: after adding `N` points (N ≤ 2^48, wherever they lie — periodic) of total mass `M ≤ 2^1000` to an
empty field, every cell holds a finite non-negative double, nothing is written outside the mesh, and the sum over all cells is `M` up
to `((1 + 2^-53)^(8N+3) - 1) M`, which is at most `2^-48 N M`. -/
theorem C124_conserve {m : Mesh} {L : ℚ} (h : Good m L) (bad : Num → ℤ) (ps : List ((ℚ × ℚ × ℚ) × ℚ)) (hps : PointsOK m L ps)
    (hN : ps.length ≤ 2 ^ 48) (hM : mass ps ≤ 2 ^ 1000) :
    (∀ c, ∃ v : ℚ, add bad m zeros (ps.map (fun p => pt p.1)) (some (ps.map (fun p => .fin p.2))) c = .fin v ∧ IsF v ∧ 0 ≤ v ∧
      (¬ IsCell m c → v = 0)) ∧
    |∑ c ∈ cells m, val (add bad m zeros (ps.map (fun p => pt p.1)) (some (ps.map (fun p => .fin p.2))) c) - mass ps|
      ≤ ((1 + 2 ^ (-53 : ℤ)) ^ (8 * ps.length + 3) - 1) * mass ps ∧
    ((1 + 2 ^ (-53 : ℤ)) ^ (8 * ps.length + 3) - 1) * mass ps ≤ 2 ^ (-48 : ℤ) * ps.length * mass ps := by
  have hM0 := mass_nonneg ps hps
  obtain ⟨ds, e, l, hh, hm⟩ := all_deposits h bad ps hps
  have hz : add bad m zeros (ps.map (fun p => pt p.1)) (some (ps.map (fun p => .fin p.2))) = (ds.map (fun p => (p.1, Num.fin p.2))).foldl addTo zeros := by
    rw [← e zeros]
    unfold add
    simp only [List.zip_map']
  rw [hz]
  have hNq : (ps.length : ℚ) ≤ 2 ^ 48 := by exact_mod_cast hN
  have g3 : ((1 : ℚ) + 2 ^ (-53 : ℤ)) ^ 3 ≤ 2 := by norm_num
  have hk : (((8 * ps.length : Nat)) : ℚ) * 2 ^ (-53 : ℤ) ≤ 1 / 2 := by
    push_cast
    have : (8 * (ps.length : ℚ)) * 2 ^ (-53 : ℤ) ≤ (8 * 2 ^ 48) * 2 ^ (-53 : ℤ) := mul_le_mul_of_nonneg_right (by linarith) (pow_pos' _).le
    refine le_trans this (by norm_num)
  have gk : ((1 : ℚ) + 2 ^ (-53 : ℤ)) ^ (8 * ps.length) ≤ 2 := by
    have := growth_le _ hk
    generalize ((8 * ps.length : Nat) : ℚ) * 2 ^ (-53 : ℤ) = t at hk this
    linarith
  have hsum : (ds.map (·.2)).sum ≤ 2 * mass ps := by
    have := (abs_le.mp hm).2
    have h2 : (((1 : ℚ) + 2 ^ (-53 : ℤ)) ^ 3 - 1) * mass ps ≤ 1 * mass ps := mul_le_mul_of_nonneg_right (by linarith) hM0
    linarith
  have hsum0 : 0 ≤ (ds.map (·.2)).sum := List.sum_nonneg (by
    intro x hx
    obtain ⟨q, hq, rfl⟩ := List.mem_map.mp hx
    exact (hh q hq).2.2)
  have acc := accum ds (fun p hp => (hh p hp).2) zeros (fun _ => 0) 0
    (fun c => ⟨0, rfl, rnd_zero, le_refl _, le_refl _, by simp [Rel]⟩) (by
      intro c
      rw [zero_add, zero_add, l]
      have b1 : ((1 : ℚ) + 2 ^ (-53 : ℤ)) ^ (8 * ps.length) * (ds.map (·.2)).sum ≤ 2 * (2 * mass ps) :=
        mul_le_mul gk hsum hsum0 (by norm_num)
      have b2 : (2 : ℚ) * (2 * 2 ^ 1000) = 2 ^ 1002 := by rw [← pow_succ', ← pow_succ']
      have b3 : (2 : ℚ) ^ 1002 ≤ 2 ^ 1023 := pow_le_pow_right₀ (by norm_num) (by norm_num)
      have b4 : (2 : ℚ) * (2 * mass ps) ≤ 2 * (2 * 2 ^ 1000) := by
        generalize (2 : ℚ) ^ 1000 = t at *
        linarith
      exact le_trans b1 (le_trans b4 (le_trans b2.le b3)))
  simp only [zero_add] at acc
  rw [l] at acc
  refine ⟨?_, ?_, ?_⟩
  · intro c
    obtain ⟨v, h1, h2, h3, h4⟩ := acc c
    refine ⟨v, h1, h2, h3, fun hc => ?_⟩
    have : sumAt ds c = 0 := by
      unfold sumAt
      apply List.sum_eq_zero
      intro x hx
      obtain ⟨q, hq, rfl⟩ := List.mem_map.mp hx
      rw [if_neg]
      intro e
      exact hc (e ▸ (hh q hq).1)
    unfold Rel at h4
    rw [this, mul_zero, sub_zero] at h4
    exact abs_eq_zero.mp (le_antisymm h4 (abs_nonneg v))
  · -- sum over the cells
    have hR : |∑ c ∈ cells m, val ((ds.map (fun p => (p.1, Num.fin p.2))).foldl addTo zeros c) - (ds.map (·.2)).sum| ≤
        ((1 + 2 ^ (-53 : ℤ)) ^ (8 * ps.length) - 1) * (ds.map (·.2)).sum := by
      rw [← sum_sumAt m ds (fun p hp => (hh p hp).1), ← Finset.sum_sub_distrib, Finset.mul_sum]
      refine le_trans (Finset.abs_sum_le_sum_abs _ _) (Finset.sum_le_sum fun c _ => ?_)
      obtain ⟨v, h1, -, -, h4⟩ := acc c
      rw [h1]
      exact h4
    set V := ∑ c ∈ cells m, val ((ds.map (fun p => (p.1, Num.fin p.2))).foldl addTo zeros c)
    have h1 := abs_add_le (V - (ds.map (·.2)).sum) ((ds.map (·.2)).sum - mass ps)
    rw [sub_add_sub_cancel] at h1
    rw [pow_add]
    have gk1 := one_le_growth (8 * ps.length)
    have hm2 := (abs_le.mp hm).2
    generalize ((1 : ℚ) + 2 ^ (-53 : ℤ)) ^ (8 * ps.length) = A at *
    generalize ((1 : ℚ) + 2 ^ (-53 : ℤ)) ^ 3 = B at *
    generalize (ds.map (·.2)).sum = D at *
    have : (A - 1) * D ≤ (A - 1) * (B * mass ps) := mul_le_mul_of_nonneg_left (by linarith) (by linarith)
    linarith
  · by_cases h0 : ps.length = 0
    · have : mass ps = 0 := by simp [mass, List.length_eq_zero_iff.mp h0]
      rw [this, mul_zero, mul_zero]
    · refine mul_le_mul_of_nonneg_right ?_ hM0
      have h1 : (1 : ℚ) ≤ ps.length := by exact_mod_cast Nat.one_le_iff_ne_zero.mpr h0
      have hk3 : (((8 * ps.length + 3 : Nat)) : ℚ) * 2 ^ (-53 : ℤ) ≤ 1 / 2 := by
        push_cast
        have : (8 * (ps.length : ℚ) + 3) * 2 ^ (-53 : ℤ) ≤ (8 * 2 ^ 48 + 3) * 2 ^ (-53 : ℤ) := mul_le_mul_of_nonneg_right (by linarith) (pow_pos' _).le
        refine le_trans this (by norm_num)
      have := growth_le _ hk3
      push_cast at this
      have e : (2 : ℚ) ^ (-48 : ℤ) = 32 * 2 ^ (-53 : ℤ) := by norm_num
      rw [e]
      have hu := pow_pos' (-53)
      generalize (2 : ℚ) ^ (-53 : ℤ) = u at *
      nlinarith

/-- C124: adding without weights is adding mass 1 for every point; adding in two calls is adding the concatenated points. -/
theorem C124_add (bad : Num → ℤ) (m : Mesh) (d : Data) (xs ys : List Point) :
    add bad m d xs none = add bad m d xs (some (xs.map (fun _ => .fin 1))) ∧
    add bad m d (xs ++ ys) none = add bad m (add bad m d xs none) ys none ∧
    ∀ ws vs : List Num, ws.length = xs.length → add bad m d (xs ++ ys) (some (ws ++ vs)) = add bad m (add bad m d xs (some ws)) ys (some vs) := by
  refine ⟨?_, by simp [add], ?_⟩
  · unfold add
    simp only
    induction xs generalizing d with
    | nil => rfl
    | cons x t ih => simp [ih]
  · intro ws vs hl
    unfold add
    simp only
    rw [List.zip_append hl.symm, List.foldl_append]

theorem near100 {v : ℚ} (h : |v| ≤ 1000) : Near mesh100 100 v := by
  unfold Near
  rw [mesh100_width]
  exact le_trans h (by norm_num)

/-- The hypotheses can be met. -/
theorem points100 : PointsOK mesh100 100 [((1, 99, 100), 1), ((-3, 50, 250), 1 / 2)] := by
  intro p hp
  simp only [List.mem_cons, List.not_mem_nil, or_false] at hp
  have h1 : (2 : ℚ) ^ (-800 : ℤ) ≤ 2 ^ (-1 : ℤ) := zpow_le_zpow_right₀ (by norm_num) (by norm_num)
  have h2 : (2 : ℚ) ^ (1 : ℕ) ≤ 2 ^ 1024 := pow_le_pow_right₀ (by norm_num) (by norm_num)
  have h3 : (2 : ℚ) ^ (-1 : ℤ) = 1 / 2 := by norm_num
  rw [h3] at h1
  rw [pow_one] at h2
  rcases hp with rfl | rfl
  · refine ⟨⟨near100 (by norm_num), near100 (by norm_num), near100 (by norm_num)⟩, .inr (le_trans h1 (by norm_num)), isF_one, ?_⟩
    exact lt_of_lt_of_le (by norm_num) h2
  · refine ⟨⟨near100 (by norm_num), near100 (by norm_num), near100 (by norm_num)⟩, .inr h1, ?_, ?_⟩
    · unfold IsF; decide +kernel
    · exact lt_of_lt_of_le (by norm_num) h2

example := C124_conserve mesh100_good Num.x86 _ points100 (by norm_num) (by
  have : (2 : ℚ) ^ (1 : ℕ) ≤ 2 ^ 1000 := pow_le_pow_right₀ (by norm_num) (by norm_num)
  rw [pow_one] at this
  exact le_trans (by norm_num [mass]) this)

example : (weightsAt Num.x86 mesh100 (.fin (-3))).1 = 10 ∧ (weightsAt Num.x86 mesh100 (.fin (-3))).2.1 = 0 := by decide +kernel

/-- C124: a tiny negative coordinate: the fractional part rounds up to 1, the whole mass goes to the upper cell, which is cell 0. -/
theorem C124_tiny_negative :
    weightsAt Num.x86 (Mesh.new (.fin 8) 8) (.fin (-(2 ^ (-60 : ℤ)))) = (7, 0, .fin 0, .fin 1) := by decide +kernel

end Pyhipp.FloatMesh
