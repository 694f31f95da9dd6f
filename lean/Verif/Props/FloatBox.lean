import Verif.Model.FloatBox
/-
C122: periodic boxes in double precision.
-/
namespace Pyhipp.FloatBox
open Pyhipp F64

/-- Specification: a box size that is a positive finite double. -/
structure Box (L : ℚ) : Prop where
  pos : 0 < L
  f : IsF L
  fin : L < 2 ^ 1024

/-- Specification: the distance of two points of the periodic line of period `L` is at most `d`. -/
def CloseMod (L a b d : ℚ) : Prop := ∃ k : ℤ, |a - b - k * L| ≤ d

theorem isF_zero : IsF 0 := rnd_zero

theorem ofQ_zero : ofQ 0 = .fin 0 := by
  rw [ofQ_fin (by rw [rnd_zero, abs_zero]; positivity), rnd_zero]

theorem zpow_small : (2 : ℚ) ^ (-53 : ℤ) ≤ 1 := by norm_num

/-- C122: for every double from -L to 2L (2L excluded) `shift_in` gives a double of `[0, L)`.  Nothing is lost from 0 on: the result is `x` or
`x - L` exactly.  Below 0 it is `x + L` correctly rounded, but 0 instead of `L` when that rounds up to `L`; in both cases it is the point
`x` of the periodic line up to a relative error of 2^-53 of the box. -/
theorem C122_shift_in {L x : ℚ} (hL : Box L) (hx : IsF x) (h0 : -L ≤ x) (h1 : x < 2 * L) :
    ∃ r : ℚ, shiftIn1 (.fin L) (.fin x) true = .fin r ∧ IsF r ∧ 0 ≤ r ∧ r < L ∧
      (0 ≤ x → x < L → r = x) ∧ (L ≤ x → r = x - L) ∧
      (x < 0 → r = (if rnd (x + L) < L then rnd (x + L) else 0)) ∧ CloseMod L r x (2 ^ (-53 : ℤ) * L) := by
  have hp := hL.pos
  have hc : (0 : ℚ) ≤ 2 ^ (-53 : ℤ) * L := mul_nonneg (pow_pos' _).le hp.le
  rcases lt_or_ge x 0 with hneg | hnn
  · -- below the box
    have e1 : ofQ (x + L) = .fin (rnd (x + L)) := by
      refine ofQ_fin_le (y := L) ?_ hL.f hL.fin
      rw [abs_of_nonneg (by linarith)]; linarith
    have hr0 : 0 ≤ rnd (x + L) := rnd_nonneg (by linarith)
    have hrL : rnd (x + L) ≤ L := rnd_le (by linarith) hL.f
    have herr : |rnd (x + L) - (x + L)| ≤ 2 ^ (-53 : ℤ) * L := by
      have h2 := rnd_sub_err hL.f hx.neg
      rw [show L - -x = x + L by ring, abs_of_nonneg (show 0 ≤ x + L by linarith)] at h2
      refine le_trans h2 ?_
      exact mul_le_mul_of_nonneg_left (by linarith) (pow_pos' _).le
    by_cases hlt : rnd (x + L) < L
    · refine ⟨rnd (x + L), ?_, isF_rnd _, hr0, hlt, fun h => absurd h (not_le.mpr hneg), fun h => by linarith, fun _ => by rw [if_pos hlt], 1, ?_⟩
      · simp [shiftIn1, combine, Num.lt, zero, hneg, Num.add, e1, Num.le, not_le.mpr hlt]
      · convert herr using 2; push_cast; ring
    · have heq : rnd (x + L) = L := le_antisymm hrL (not_lt.mp hlt)
      refine ⟨0, ?_, isF_zero, le_refl _, hp, fun h => absurd h (not_le.mpr hneg), fun h => by linarith, fun _ => by rw [if_neg hlt], 0, ?_⟩
      · simp [shiftIn1, combine, Num.lt, zero, hneg, Num.add, e1, Num.le, heq, Num.sub, Num.neg, ofQ_zero]
      · rw [heq] at herr
        convert herr using 2; push_cast; ring
  · rcases lt_or_ge x L with hin | hout
    · refine ⟨x, ?_, hx, hnn, hin, fun _ _ => rfl, fun h => absurd h (not_le.mpr hin), fun h => absurd h (not_lt.mpr hnn), 0, ?_⟩
      · simp [shiftIn1, combine, Num.lt, zero, not_lt.mpr hnn, Num.le, not_le.mpr hin]
      · simpa using hc
    · have hs : IsF (x - L) := sterbenz hx hL.f hp (by linarith) (by linarith)
      have e1 : ofQ (x + -L) = .fin (x - L) := by
        rw [← sub_eq_add_neg, ofQ_fin_le (y := L) _ hL.f hL.fin, hs]
        rw [abs_of_nonneg (by linarith)]; linarith
      refine ⟨x - L, ?_, hs, by linarith, by linarith, fun _ h => absurd h (not_lt.mpr hout), fun _ => rfl,
        fun h => absurd h (not_lt.mpr hnn), -1, ?_⟩
      · simp [shiftIn1, combine, Num.lt, zero, not_lt.mpr hnn, Num.le, hout, Num.sub, Num.neg, Num.add, e1]
      · have : x - L - x - ((-1 : ℤ) : ℚ) * L = 0 := by push_cast; ring
        rw [this, abs_zero]; exact hc

/-- C122: shifting again changes nothing. -/
theorem C122_shift_in_idem {L x : ℚ} (hL : Box L) (hx : IsF x) (h0 : -L ≤ x) (h1 : x < 2 * L) :
    shiftIn1 (.fin L) (shiftIn1 (.fin L) (.fin x) true) true = shiftIn1 (.fin L) (.fin x) true := by
  obtain ⟨r, hr, hf, a, b, -⟩ := C122_shift_in hL hx h0 h1
  rw [hr]
  simp [shiftIn1, combine, Num.lt, zero, not_lt.mpr a, Num.le, not_le.mpr b]

/-- C122: an element that `where` excludes is unchanged; NaN stays NaN and infinities stay (`test_bound` refuses them). -/
theorem C122_shift_in_special {L : ℚ} :
    (∀ l x, shiftIn1 l x false = x) ∧ shiftIn1 (.fin L) .nan true = .nan ∧ (∀ s, shiftIn1 (.fin L) (.inf s) true = .inf s) ∧
    testBound (.fin L) [.nan] none = false ∧ ∀ s, testBound (.fin L) [.inf s] none = false := by
  refine ⟨fun l x => by simp [shiftIn1, combine], by simp [shiftIn1, combine, Num.lt, Num.le], ?_, by simp [testBound, mask, Num.le, zero], ?_⟩
  · intro s; cases s <;> simp [shiftIn1, combine, Num.lt, Num.le, Num.add, Num.sub, Num.neg, zero]
  · intro s; cases s <;> simp [testBound, mask, Num.le, Num.lt, zero]

theorem mask_length (wh : Option (List Bool)) (n : Nat) (h : ∀ w, wh = some w → w.length = n) : (mask wh n).length = n := by
  cases wh with
  | none => simp [mask]
  | some w => simpa [mask] using h w rfl

/-- C122: the whole array: `shift_in` keeps its size and treats each element by itself. -/
theorem C122_shift_in_array (l : Num) (xs : List Num) (wh : Option (List Bool)) (h : ∀ w, wh = some w → w.length = xs.length) :
    (shiftIn l xs wh).length = xs.length ∧
    ∀ (i : Nat) (x : Num) (w : Bool), xs[i]? = some x → (mask wh xs.length)[i]? = some w → (shiftIn l xs wh)[i]? = some (shiftIn1 l x w) := by
  refine ⟨by simp [shiftIn, mask_length wh _ h], ?_⟩
  intro i x w hx hw
  simp [shiftIn, List.getElem?_zipWith, hx, hw]

theorem testBound_iff (l : Num) (xs : List Num) (wh : Option (List Bool)) :
    testBound l xs wh = true ↔
      ∀ (i : Nat) (x : Num), xs[i]? = some x → (mask wh xs.length)[i]? = some true → Num.le zero x = true ∧ Num.lt x l = true := by
  simp only [testBound, List.all_eq_true, List.mem_map, List.mem_filter, Bool.and_eq_true]
  constructor
  · intro h i x hx hw
    apply h x
    refine ⟨(x, true), ⟨?_, rfl⟩, rfl⟩
    apply List.mem_of_getElem? (i := i)
    simp [List.getElem?_zip_eq_some, hx, hw]
  · rintro h x ⟨⟨x', w⟩, ⟨hm, hw⟩, rfl⟩
    obtain ⟨i, hi⟩ := List.getElem?_of_mem hm
    rw [List.getElem?_zip_eq_some] at hi
    simp only at hw
    exact h i x' hi.1 (by rw [hi.2, hw])

/-- C122: `test_bound` is true exactly if every selected element is a finite number of `[0, L)`. -/
theorem C122_test_bound {L : ℚ} (xs : List Num) (wh : Option (List Bool)) :
    testBound (.fin L) xs wh = true ↔
      ∀ (i : Nat) (x : Num), xs[i]? = some x → (mask wh xs.length)[i]? = some true → ∃ q : ℚ, x = .fin q ∧ 0 ≤ q ∧ q < L := by
  rw [testBound_iff]
  refine forall_congr' fun i => forall_congr' fun x => imp_congr_right fun _ => imp_congr_right fun _ => ?_
  cases x with
  | nan => simp [Num.le, zero]
  | inf s => cases s <;> simp [Num.le, Num.lt, zero]
  | fin q => simp [Num.le, Num.lt, zero]

/-- C122: after `shift_in` of doubles from -L to 2L `test_bound` (with the same `where`) is true. -/
theorem C122_then_test_bound {L : ℚ} (hL : Box L) (xs : List Num) (wh : Option (List Bool)) (h : ∀ w, wh = some w → w.length = xs.length)
    (hx : ∀ (i : Nat) (x : Num), xs[i]? = some x → (mask wh xs.length)[i]? = some true → ∃ q : ℚ, x = .fin q ∧ IsF q ∧ -L ≤ q ∧ q < 2 * L) :
    testBound (.fin L) (shiftIn (.fin L) xs wh) wh = true := by
  rw [C122_test_bound]
  intro i y hy hw
  have hl := (C122_shift_in_array (.fin L) xs wh h).1
  have hi : i < xs.length := by
    rw [← hl]
    exact (List.getElem?_eq_some_iff.mp hy).1
  rw [hl] at hw
  have hg := (C122_shift_in_array (.fin L) xs wh h).2 i xs[i] true (List.getElem?_eq_getElem hi) hw
  obtain ⟨q, hq, hf, a, b⟩ := hx i xs[i] (List.getElem?_eq_getElem hi) hw
  rw [hg, hq] at hy
  obtain ⟨r, hr, -, c, d, -⟩ := C122_shift_in hL hf a b
  rw [hr] at hy
  exact ⟨r, (Option.some.inj hy).symm, c, d⟩

/-- C122: why the second step matters: a tiny negative position rounds up to the box size and ends at 0. -/
theorem C122_tiny_negative {L x : ℚ} (hL : Box L) (hx : x < 0) (h : rnd (x + L) = L) :
    shiftIn1 (.fin L) (.fin x) true = .fin 0 := by
  have e1 : ofQ (x + L) = .fin L := by
    rw [ofQ_fin (by rw [h, abs_of_pos hL.pos]; exact hL.fin), h]
  simp [shiftIn1, combine, Num.lt, zero, hx, Num.add, e1, Num.le, Num.sub, Num.neg, ofQ_zero]

example : shiftIn1 (.fin 100) (.fin (-(2 ^ (-70 : ℤ)))) true = .fin 0 := by
  refine C122_tiny_negative ⟨by norm_num, by unfold IsF; decide +kernel, lt_of_lt_of_le (b := 2 ^ 7) (by norm_num) (pow_le_pow_right₀ (by norm_num) (by norm_num))⟩ (by norm_num) (by decide +kernel)

theorem far_lo {x L M : ℚ} (hM : 0 ≤ M) (hfin : |x| < M) (h : x < -L) (hp : 0 < L) : |x + L| ≤ M := by
  rw [abs_lt] at hfin; rw [abs_le]; constructor <;> linarith

theorem far_hi {x L M : ℚ} (hM : 0 ≤ M) (hfin : |x| < M) (h : L ≤ x) (hp : 0 < L) : |x - L| ≤ M := by
  rw [abs_lt] at hfin; rw [abs_le]; constructor <;> linarith

/-- C122: farther than one box outside the result is not in the box. -/
theorem C122_far {L x : ℚ} (hL : Box L) (hx : IsF x) (hfin : |x| < 2 ^ 1023) (h : x < -L ∨ 2 * L ≤ x) :
    testBound (.fin L) (shiftIn (.fin L) [.fin x] none) none = false := by
  rw [Bool.eq_false_iff]
  intro hc
  rw [C122_test_bound] at hc
  obtain ⟨q, hq, a, b⟩ := hc 0 (shiftIn1 (.fin L) (.fin x) true) (by simp [shiftIn, mask]) (by simp [shiftIn, mask])
  have hp := hL.pos
  have hbig : (0 : ℚ) ≤ 2 ^ 1023 := pow_nonneg (by norm_num) _
  rcases h with h | h
  · have hn : rnd (x + L) < 0 := by
      have := rnd_sub_neg hx hL.f.neg h
      rwa [sub_neg_eq_add] at this
    have e1 : ofQ (x + L) = .fin (rnd (x + L)) := by
      refine ofQ_fin_le (y := 2 ^ 1023) ?_ ?_ ?_
      · exact far_lo hbig hfin h hp
      · have := isF_pow (e := 1023) (by norm_num); simpa using this
      · exact pow_lt_pow_right₀ (by norm_num) (by norm_num)
    have hx0 : x < 0 := by linarith
    have hl2 : ¬ L ≤ rnd (x + L) := by linarith
    simp [shiftIn1, combine, Num.lt, zero, hx0, Num.add, e1, Num.le, hl2] at hq
    linarith
  · have h1 : L ≤ x := by linarith
    have hx0 : ¬ x < 0 := by linarith
    have hn : L ≤ rnd (x - L) := le_rnd (by linarith) hL.f
    have e1 : ofQ (x + -L) = .fin (rnd (x - L)) := by
      rw [← sub_eq_add_neg]
      refine ofQ_fin_le (y := 2 ^ 1023) ?_ ?_ ?_
      · exact far_hi hbig hfin h1 hp
      · have := isF_pow (e := 1023) (by norm_num); simpa using this
      · exact pow_lt_pow_right₀ (by norm_num) (by norm_num)
    simp [shiftIn1, combine, Num.lt, zero, hx0, Num.add, Num.sub, Num.neg, e1, Num.le, h1] at hq
    linarith

/-! ### shift_to -/

/-- Specification: a box size away from the extremes of the number format. -/
structure NormalBox (L : ℚ) : Prop where
  f : IsF L
  lo : 2 ^ (-1021 : ℤ) ≤ L
  hi : L ≤ 2 ^ 1022

theorem NormalBox.pos {L : ℚ} (h : NormalBox L) : 0 < L := lt_of_lt_of_le (pow_pos' _) h.lo

theorem isF_half {L : ℚ} (h : IsF L) (hlo : 2 ^ (-1021 : ℤ) ≤ |L|) : IsF (1 / 2 * L) := by
  obtain ⟨m, hm, he⟩ := h.form
  have hex : -1074 < expo L := by
    by_contra hc
    have h1 : expo L = -1074 := le_antisymm (not_lt.mp hc) (expo_ge L)
    have h2 := lt_expo L
    rw [h1] at h2
    have : ((2 : ℚ) ^ (-1074 + 53 : ℤ)) = 2 ^ (-1021 : ℤ) := by norm_num
    rw [this] at h2
    exact absurd hlo (not_le.mpr h2)
  have h3 : 1 / 2 * L = m * 2 ^ (expo L - 1) := by
    rw [zpow_sub₀ (by norm_num), zpow_one]
    conv_lhs => rw [he]
    ring
  rw [h3]
  exact isF_of hm (by omega)

theorem half_num {L : ℚ} (h : NormalBox L) : Num.mul (.fin (1 / 2)) (.fin L) = .fin (L / 2) := by
  have hf := isF_half h.f (by rw [abs_of_pos h.pos]; exact h.lo)
  have hp := h.pos
  have e : ofQ (1 / 2 * L) = .fin (rnd (1 / 2 * L)) := by
    refine ofQ_fin_le (y := L) ?_ h.f (lt_of_le_of_lt h.hi (pow_lt_pow_right₀ (by norm_num) (by norm_num)))
    rw [abs_of_pos (by linarith)]; linarith
  show ofQ (1 / 2 * L) = _
  rw [e, hf]
  congr 1; ring

theorem sub_num {L x ref : ℚ} (h : NormalBox L) (hx0 : 0 ≤ x) (hxL : x ≤ L) (hr0 : 0 ≤ ref) (hrL : ref ≤ L) :
    Num.sub (.fin x) (.fin ref) = .fin (rnd (x - ref)) := by
  show ofQ (x + -ref) = _
  rw [← sub_eq_add_neg]
  refine ofQ_fin_le (y := L) ?_ h.f (lt_of_le_of_lt h.hi (pow_lt_pow_right₀ (by norm_num) (by norm_num)))
  rw [abs_le]; constructor <;> linarith

theorem pow_double : (2 : ℚ) * 2 ^ 1022 = 2 ^ 1023 := by rw [← pow_succ']

theorem add_num {L x : ℚ} (h : NormalBox L) (hx0 : 0 ≤ x) (hxL : x ≤ L) : Num.add (.fin x) (.fin L) = .fin (rnd (x + L)) := by
  show ofQ (x + L) = _
  have hp := h.pos
  refine ofQ_fin_le (y := 2 ^ 1023) ?_ (by have := isF_pow (e := 1023) (by norm_num); simpa using this) (pow_lt_pow_right₀ (by norm_num) (by norm_num))
  have h1 := h.hi
  rw [abs_of_pos (by linarith), ← pow_double]
  generalize (2 : ℚ) ^ 1022 = M at h1 ⊢
  linarith

/-- The value computed by `shift_to`, case by case. -/
theorem shiftTo1_eq {L x ref : ℚ} (h : NormalBox L) (hx : IsF x) (hx0 : 0 ≤ x) (hxL : x ≤ L) (hr0 : 0 ≤ ref) (hrL : ref ≤ L) :
    shiftTo1 (.fin L) (.fin x) (.fin ref) true = .fin (
      if rnd (x - ref) < -(L / 2) then rnd (x + L) else if L / 2 ≤ rnd (x - ref) then x - L else x) := by
  have hp := h.pos
  unfold shiftTo1
  simp only [half_num h, sub_num h hx0 hxL hr0 hrL, combine, Bool.and_true, Num.neg, Num.lt, Num.le, decide_eq_true_eq]
  by_cases h1 : rnd (x - ref) < -(L / 2)
  · have h2 : ¬ L / 2 ≤ rnd (x - ref) := by linarith
    rw [if_pos h1, if_pos h1, if_neg h2, add_num h hx0 hxL]
  · rw [if_neg h1, if_neg h1]
    by_cases h2 : L / 2 ≤ rnd (x - ref)
    · rw [if_pos h2, if_pos h2, sub_num h hx0 hxL hp.le (le_refl L)]
      congr 1
      have h3 : L / 2 ≤ x := by
        have h4 : rnd (x - ref) ≤ x := rnd_le (by linarith) hx
        linarith
      exact sterbenz hx h.f hp (by linarith) (by linarith)
    · rw [if_neg h2, if_neg h2]

/-- C122: `shift_to` of positions of the box: the result is the position moved by -1, 0 or 1 box lengths — exactly, or correctly rounded when
the box length is added — and it lies within half a box of the reference, up to 2^-52 of the box. -/
theorem C122_shift_to {L x ref : ℚ} (h : NormalBox L) (hx : IsF x) (hr : IsF ref) (hx0 : 0 ≤ x) (hxL : x ≤ L) (hr0 : 0 ≤ ref)
    (hrL : ref ≤ L) :
    ∃ r : ℚ, shiftTo1 (.fin L) (.fin x) (.fin ref) true = .fin r ∧ IsF r ∧ (r = x ∨ r = x - L ∨ r = rnd (x + L)) ∧
      |r - ref| ≤ L / 2 + 2 ^ (-52 : ℤ) * L ∧ CloseMod L r x (2 ^ (-52 : ℤ) * L) := by
  have hp := h.pos
  have herr := rnd_sub_err hx hr
  have hd : |x - ref| ≤ L := by rw [abs_le]; constructor <;> linarith
  have he : (2 : ℚ) ^ (-52 : ℤ) = 2 * 2 ^ (-53 : ℤ) := by norm_num
  have hep := pow_pos' (-53)
  have hu : 2 ^ (-53 : ℤ) * |x - ref| ≤ 2 ^ (-53 : ℤ) * L := mul_le_mul_of_nonneg_left hd hep.le
  have hepL : 0 < 2 ^ (-53 : ℤ) * L := mul_pos hep hp
  have herr2 := abs_le.mp (le_trans herr hu)
  have hadd := rnd_sub_err hx h.f.neg
  rw [sub_neg_eq_add, abs_of_nonneg (show 0 ≤ x + L by linarith)] at hadd
  have hadd2 : 2 ^ (-53 : ℤ) * (x + L) ≤ 2 ^ (-53 : ℤ) * (2 * L) := mul_le_mul_of_nonneg_left (by linarith) hep.le
  have hadd3 := abs_le.mp (le_trans hadd hadd2)
  have hm : 2 ^ (-53 : ℤ) * (2 * L) = 2 * (2 ^ (-53 : ℤ) * L) := by ring
  have hF := isF_half h.f (by rw [abs_of_pos hp]; exact h.lo)
  have hF2 : IsF (L / 2) := by rw [show L / 2 = 1 / 2 * L by ring]; exact hF
  rw [shiftTo1_eq h hx hx0 hxL hr0 hrL, he, show 2 * 2 ^ (-53 : ℤ) * L = 2 * (2 ^ (-53 : ℤ) * L) by ring]
  rw [hm] at hadd3
  generalize 2 ^ (-53 : ℤ) * L = u at *
  by_cases h1 : rnd (x - ref) < -(L / 2)
  · rw [if_pos h1]
    have h3 : x - ref < -(L / 2) := by
      by_contra hc
      have := le_rnd (not_lt.mp hc) hF2.neg
      linarith
    refine ⟨_, rfl, isF_rnd _, .inr (.inr rfl), ?_, 1, ?_⟩
    · rw [abs_le] at hd ⊢; constructor <;> linarith [hadd3.1, hadd3.2, hd.1]
    · rw [abs_le]; push_cast; constructor <;> linarith [hadd3.1, hadd3.2]
  · rw [if_neg h1]
    by_cases h2 : L / 2 ≤ rnd (x - ref)
    · rw [if_pos h2]
      have h3 : L / 2 ≤ x := by
        have h4 : rnd (x - ref) ≤ x := rnd_le (by linarith) hx
        linarith
      refine ⟨_, rfl, sterbenz hx h.f hp (by linarith) (by linarith), .inr (.inl rfl), ?_, -1, ?_⟩
      · rw [abs_le] at hd ⊢; constructor <;> linarith [herr2.1, herr2.2, hd.2]
      · rw [abs_le]; push_cast; constructor <;> linarith
    · rw [if_neg h2]
      refine ⟨_, rfl, hx, .inl rfl, ?_, 0, ?_⟩
      · rw [abs_le]; constructor <;> linarith [herr2.1, herr2.2]
      · rw [abs_le]; push_cast; constructor <;> linarith

/-- C122: the result of `shift_to` is the nearest periodic image of the position, up to 2^-50 of the box. -/
theorem C122_nearest {L x ref : ℚ} (h : NormalBox L) (hx : IsF x) (hr : IsF ref) (hx0 : 0 ≤ x) (hxL : x ≤ L) (hr0 : 0 ≤ ref)
    (hrL : ref ≤ L) :
    ∃ r : ℚ, shiftTo1 (.fin L) (.fin x) (.fin ref) true = .fin r ∧ ∀ k : ℤ, |r - ref| ≤ |x + k * L - ref| + 2 ^ (-50 : ℤ) * L := by
  have hp := h.pos
  obtain ⟨r, h1, -, -, h2, k0, h3⟩ := C122_shift_to h hx hr hx0 hxL hr0 hrL
  refine ⟨r, h1, fun k => ?_⟩
  have he : (2 : ℚ) ^ (-50 : ℤ) * L = 4 * (2 ^ (-52 : ℤ) * L) := by norm_num; ring
  have hep : 0 < 2 ^ (-52 : ℤ) * L := mul_pos (pow_pos' _) hp
  rw [he]
  generalize 2 ^ (-52 : ℤ) * L = u at *
  by_cases hk : k = k0
  · subst hk
    have : |r - ref| ≤ |r - x - k * L| + |x + k * L - ref| := by
      have := abs_add_le (r - x - k * L) (x + k * L - ref)
      rwa [show r - x - k * L + (x + k * L - ref) = r - ref by ring] at this
    linarith
  · have h4 : L ≤ |((k : ℚ) - k0) * L| := by
      rw [abs_mul, abs_of_pos hp]
      have h5 : (1 : ℚ) ≤ |(k : ℚ) - k0| := by
        have : 1 ≤ |k - k0| := Int.one_le_abs (sub_ne_zero.mpr hk)
        exact_mod_cast this
      nlinarith
    have h6 : |((k : ℚ) - k0) * L| ≤ |x + k * L - ref| + |r - x - k0 * L| + |r - ref| := by
      have a1 := abs_sub (x + k * L - ref) (r - ref)
      have a2 := abs_add_le (x + k * L - ref - (r - ref)) (r - x - k0 * L)
      rw [show x + k * L - ref - (r - ref) + (r - x - k0 * L) = ((k : ℚ) - k0) * L by ring] at a2
      linarith
    linarith

/-- C122: the whole array; elements excluded by `where` are unchanged, a NaN stays a NaN, and a NaN reference leaves the element alone. -/
theorem C122_shift_to_array (l : Num) (xs refs : List Num) (wh : Option (List Bool)) (h : ∀ w, wh = some w → w.length = xs.length)
    (hr : refs.length = xs.length) :
    (shiftTo l xs refs wh).length = xs.length ∧
    (∀ (i : Nat) (x r : Num) (w : Bool), xs[i]? = some x → refs[i]? = some r → (mask wh xs.length)[i]? = some w →
      (shiftTo l xs refs wh)[i]? = some (if w then shiftTo1 l x r true else x)) ∧
    (∀ x : Num, shiftTo1 l x .nan true = x) ∧ (∀ r : Num, shiftTo1 l .nan r true = .nan) := by
  have hn : ∀ y : Num, Num.sub y .nan = .nan := by intro y; cases y <;> rfl
  refine ⟨by simp [shiftTo, mask_length wh _ h, hr], ?_, ?_, ?_⟩
  · intro i x r w hx hri hw
    have : (xs.zip refs)[i]? = some (x, r) := by simp [List.getElem?_zip_eq_some, hx, hri]
    simp only [shiftTo, List.getElem?_zipWith, this, hw]
    cases w <;> simp [shiftTo1, combine]
  · intro x
    have h2 : ∀ y, Num.le y .nan = false := by intro y; cases y <;> rfl
    simp [shiftTo1, hn, combine, Num.lt, h2]
  · intro r
    have h1 : Num.sub .nan r = .nan := rfl
    have h2 : ∀ y, Num.le y .nan = false := by intro y; cases y <;> rfl
    simp [shiftTo1, h1, combine, Num.lt, h2]

/-! ### The hypotheses can be met -/

theorem box100 : Box 100 := ⟨by norm_num, by unfold IsF; decide +kernel,
  lt_of_lt_of_le (b := 2 ^ 7) (by norm_num) (pow_le_pow_right₀ (by norm_num) (by norm_num))⟩

theorem normal100 : NormalBox 100 := ⟨box100.f, le_trans (zpow_le_zpow_right₀ (by norm_num) (by norm_num : (-1021 : ℤ) ≤ 0)) (by norm_num),
  le_trans (b := 2 ^ 7) (by norm_num) (pow_le_pow_right₀ (by norm_num) (by norm_num))⟩

example :=
  C122_shift_in box100 (x := -1 / 4) (by unfold IsF; decide +kernel) (by norm_num) (by norm_num)
example : shiftIn1 (.fin 100) (.fin (-1 / 4)) true = .fin (399 / 4) := by decide +kernel
example : shiftIn1 (.fin 100) (.fin 130) true = .fin 30 := by decide +kernel
example : shiftTo1 (.fin 100) (.fin 10) (.fin 90) true = .fin 110 := by decide +kernel
example : shiftTo1 (.fin 100) (.fin 90) (.fin 10) true = .fin (-10) := by decide +kernel
example :=
  C122_nearest normal100 (x := 90) (ref := 10) (by unfold IsF; decide +kernel) (by unfold IsF; decide +kernel) (by norm_num) (by norm_num)
    (by norm_num) (by norm_num)
example : testBound (.fin 100) (shiftIn (.fin 100) [.fin (-1 / 4), .fin 130, .fin 500] (some [true, true, false])) (some [true, true, false])
    = true := by decide +kernel

end Pyhipp.FloatBox
