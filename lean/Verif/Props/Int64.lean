import Verif.Model.Int64
import Verif.Props.Dataproc
import Verif.Props.FloatMesh
/-
C137: offsets and cell numbers in machine integers.
-/
namespace Pyhipp.Int64
open Pyhipp F64 FloatMesh

theorem wrapS_id {z : ℤ} (h1 : -2 ^ 63 ≤ z) (h2 : z < 2 ^ 63) : wrapS z = z := by
  unfold wrapS
  rw [Int.emod_eq_of_lt (by omega) (by omega)]; omega

theorem wrapU_id {z : ℤ} (h1 : 0 ≤ z) (h2 : z < 2 ^ 64) : wrapU z = z := Int.emod_eq_of_lt h1 h2

theorem wrapS_range (z : ℤ) : -2 ^ 63 ≤ wrapS z ∧ wrapS z < 2 ^ 63 := by
  unfold wrapS; omega

theorem wrapS_congr (z : ℤ) : ∃ k, wrapS z = z + k * 2 ^ 64 := by
  refine ⟨-((z + 2 ^ 63) / 2 ^ 64), ?_⟩
  unfold wrapS
  omega

theorem cumsumW_length (w : ℤ → ℤ) (s : ℤ) (c : List ℤ) : (cumsumW w s c).length = c.length := by
  induction c generalizing s with
  | nil => rfl
  | cons a t ih => simp [cumsumW, ih]

/-- Prefix sums in a machine type, when all of them fit. -/
theorem cumsumW_exact (w : ℤ → ℤ) (s : ℤ) (c : List ℤ) (h : ∀ i, i < c.length → w (s + (c.take (i + 1)).sum) = s + (c.take (i + 1)).sum) :
    cumsumW w s c = Dataproc.cumsumFrom s c := by
  induction c generalizing s with
  | nil => rfl
  | cons a t ih =>
    have h0 := h 0 (by simp)
    simp only [List.take_succ_cons, List.take_zero, List.sum_cons, List.sum_nil, add_zero] at h0
    rw [cumsumW, Dataproc.cumsumFrom, h0, ih]
    intro i hi
    have := h (i + 1) (by simpa using hi)
    rw [List.take_succ_cons, List.sum_cons] at this
    rw [add_assoc]; exact this

/-- Entry `i` of the prefix sums is the exact one up to a multiple of 2^64. -/
theorem cumsumS_mod (s : ℤ) (c : List ℤ) (i : Nat) (a : ℤ) (h : (cumsumW wrapS s c)[i]? = some a) :
    (∃ k, a = s + (c.take (i + 1)).sum + k * 2 ^ 64) ∧ -2 ^ 63 ≤ a ∧ a < 2 ^ 63 := by
  induction c generalizing s i with
  | nil => simp [cumsumW] at h
  | cons x t ih =>
    cases i with
    | zero =>
      simp only [cumsumW, List.getElem?_cons_zero, Option.some.injEq] at h
      subst h
      obtain ⟨k, hk⟩ := wrapS_congr (s + x)
      exact ⟨⟨k, by simpa using hk⟩, wrapS_range _⟩
    | succ i =>
      simp only [cumsumW, List.getElem?_cons_succ] at h
      obtain ⟨⟨k, hk⟩, h2⟩ := ih _ _ h
      obtain ⟨k', hk'⟩ := wrapS_congr (s + x)
      refine ⟨⟨k + k', ?_⟩, h2⟩
      rw [hk, hk', List.take_succ_cons, List.sum_cons]
      ring

/-- C137: counts of a signed integer type: the offsets are int64 and exact (those of C25) whenever every partial sum fits in 64 bits. -/
theorem C137_offset_exact (count : List ℤ) (e : Bool) (h : ∀ i, i ≤ count.length → -2 ^ 63 ≤ (count.take i).sum ∧ (count.take i).sum < 2 ^ 63) :
    countToOffset true count e = .ints (Dataproc.countToOffset count e) := by
  have : cumsumW wrapS 0 count = Dataproc.cumsumFrom 0 count := cumsumW_exact wrapS 0 count (fun i hi => by
    obtain ⟨h1, h2⟩ := h (i + 1) hi
    rw [zero_add]; exact wrapS_id h1 h2)
  simp only [countToOffset, if_true, this, Dataproc.countToOffset]

theorem prefix_nonneg (count : List ℤ) (h0 : ∀ c ∈ count, 0 ≤ c) (i : Nat) : 0 ≤ (count.take i).sum ∧ (count.take i).sum ≤ count.sum := by
  constructor
  · exact List.sum_nonneg (fun x hx => h0 x (List.mem_of_mem_take hx))
  · have := List.sum_take_add_sum_drop count i
    have h2 : 0 ≤ (count.drop i).sum := List.sum_nonneg (fun x hx => h0 x (List.mem_of_mem_drop hx))
    linarith

/-- C137: in particular for counts that are not negative and add up to less than 2^63, whatever their width. -/
theorem C137_offset_total (count : List ℤ) (e : Bool) (h0 : ∀ c ∈ count, 0 ≤ c) (ht : count.sum < 2 ^ 63) :
    countToOffset true count e = .ints (Dataproc.countToOffset count e) :=
  C137_offset_exact count e (fun i _ => by
    obtain ⟨h1, h2⟩ := prefix_nonneg count h0 i
    exact ⟨le_trans (by norm_num) h1, lt_of_le_of_lt h2 ht⟩)

/-- C137 (recorded): otherwise the offsets are right only up to multiples of 2^64, and counts that are not negative, fit in 64 bits each and add up to 2^63
or more have a negative offset, without any complaint. -/
theorem C137_offset_overflow (count : List ℤ) (h0 : ∀ c ∈ count, 0 ≤ c ∧ c < 2 ^ 63) (ht : 2 ^ 63 ≤ count.sum) :
    ∃ l, countToOffset true count true = .ints l ∧ (∃ a ∈ l, a < 0) ∧
      ∀ i a, l[i]? = some a → ∃ k, a = (count.take i).sum + k * 2 ^ 64 := by
  refine ⟨0 :: cumsumW wrapS 0 count, rfl, ?_, ?_⟩
  · -- the first partial sum that is too large
    have hex : ∃ i, 2 ^ 63 ≤ (count.take i).sum := ⟨count.length, by simpa using ht⟩
    obtain ⟨hi, hmin⟩ := Nat.find_spec hex, fun m (hm : m < Nat.find hex) => Nat.find_min hex hm
    generalize Nat.find hex = i at hi hmin
    cases i with
    | zero => simp at hi
    | succ i =>
      have hlt : i < count.length := by
        by_contra hc
        have h1 := hmin i (by omega)
        rw [List.take_of_length_le (by omega)] at hi h1
        exact h1 hi
      have hprev := hmin i (by omega)
      have hg : (cumsumW wrapS 0 count)[i]? = some ((cumsumW wrapS 0 count)[i]'(by rw [cumsumW_length]; exact hlt)) := List.getElem?_eq_getElem _
      obtain ⟨⟨k, hk⟩, h1, h2⟩ := cumsumS_mod 0 count i _ hg
      refine ⟨_, List.mem_cons_of_mem _ (List.getElem_mem (by rw [cumsumW_length]; exact hlt)), ?_⟩
      have hs : (count.take (i + 1)).sum = (count.take i).sum + count[i] := by
        rw [List.take_succ_eq_append_getElem hlt, List.sum_append, List.sum_singleton]
      have hc := h0 count[i] (List.getElem_mem hlt)
      rw [zero_add] at hk
      rw [hk] at h1 h2 ⊢
      have hk' : k ≤ -1 := by
        by_contra hc'
        have : 0 ≤ k := by omega
        have : 0 ≤ k * 2 ^ 64 := Int.mul_nonneg this (by norm_num)
        omega
      omega
  · intro i a ha
    cases i with
    | zero =>
      simp only [List.getElem?_cons_zero, Option.some.injEq] at ha
      exact ⟨0, by simp [← ha]⟩
    | succ i =>
      obtain ⟨⟨k, hk⟩, -⟩ := cumsumS_mod 0 count i a (by simpa using ha)
      exact ⟨k, by rw [hk, zero_add]⟩

/-- C137 (recorded): counts of an *unsigned* type (8 bits or more) give floating-point offsets, which no slice accepts: `x[off[i]:off[i+1]]` is a TypeError for
every count. -/
theorem C137_unsigned_slice (count : List ℤ) (i n : Nat) (h : i < count.length) : sliceBy (countToOffset false count true) i n = .error .typeError := by
  have hl : ((0 :: cumsumW wrapU 0 count).map (fun z : ℤ => ofQ (z : ℚ))).length = count.length + 1 := by simp [cumsumW_length]
  simp only [countToOffset, Bool.false_eq_true, if_false, Bool.not_true, sliceBy]
  rw [if_pos (by rw [hl]; omega)]

/-- C137: the slices that signed counts give are the stretches of the sequence. -/
theorem C137_signed_slice (count : List ℤ) (h0 : ∀ c ∈ count, 0 ≤ c) (ht : count.sum < 2 ^ 63) (i n : Nat) (h : i < count.length) (hn : count.sum ≤ n) :
    ∃ a b : Nat, sliceBy (countToOffset true count true) i n = .ok (a, b) ∧ (a : ℤ) = (count.take i).sum ∧ (b : ℤ) = (a : ℤ) + count[i] := by
  rw [C137_offset_total count true h0 ht]
  obtain ⟨hl, hv⟩ := Dataproc.C25_offset_prefix_sum count
  have g : ∀ j, j ≤ count.length → (Dataproc.countToOffset count)[j]? = some ((count.take j).sum) := by
    intro j hj
    rw [List.getElem?_eq_getElem (by omega), hv]
  have cl : ∀ z : ℤ, 0 ≤ z → z ≤ n → ((pyClamp n z : Nat) : ℤ) = z := by
    intro z h1 h2
    unfold pyClamp
    split <;> omega
  have p1 := prefix_nonneg count h0 i
  have p2 := prefix_nonneg count h0 (i + 1)
  refine ⟨pyClamp n (count.take i).sum, pyClamp n (count.take (i + 1)).sum, by simp only [sliceBy, g i (by omega), g (i + 1) (by omega)], cl _ p1.1 (by omega), ?_⟩
  rw [cl _ p1.1 (by omega), cl _ p2.1 (by omega), List.take_succ_eq_append_getElem h, List.sum_append, List.sum_singleton]

/-- C137: there is one stretch per count: the slice after the last is an IndexError, whatever the counts. -/
theorem C137_slice_end (signed : Bool) (count : List ℤ) (i n : Nat) (h : count.length ≤ i) : sliceBy (countToOffset signed count true) i n = .error .indexError := by
  cases signed with
  | false =>
    have hl : ((0 :: cumsumW wrapU 0 count).map (fun z : ℤ => ofQ (z : ℚ))).length = count.length + 1 := by simp [cumsumW_length]
    simp only [countToOffset, Bool.false_eq_true, if_false, Bool.not_true, sliceBy]
    rw [if_neg (by rw [hl]; omega)]
  | true =>
    have hl : (0 :: cumsumW wrapS 0 count).length = count.length + 1 := by simp [cumsumW_length]
    simp only [countToOffset, if_true, Bool.not_true, Bool.false_eq_true, if_false, sliceBy]
    rw [List.getElem?_eq_none (i := i + 1) (by rw [hl]; omega)]
    cases (0 :: cumsumW wrapS 0 count)[i]? <;> rfl

/-- C137: the numbers themselves are exact up to 2^53 ... -/
theorem C137_unsigned_exact (count : List ℤ) (h0 : ∀ c ∈ count, 0 ≤ c) (ht : count.sum ≤ 2 ^ 53) (e : Bool) :
    countToOffset false count e = .floats ((Dataproc.countToOffset count e).map (fun z : ℤ => Num.fin (z : ℚ))) := by
  have h1 : cumsumW wrapU 0 count = Dataproc.cumsumFrom 0 count := cumsumW_exact wrapU 0 count (fun i _ => by
    obtain ⟨h1, h2⟩ := prefix_nonneg count h0 (i + 1)
    rw [zero_add]; exact wrapU_id h1 (by omega))
  have hm : ∀ z ∈ (0 : ℤ) :: Dataproc.cumsumFrom 0 count, ofQ (z : ℚ) = .fin (z : ℚ) := by
    intro z hz
    have hb : 0 ≤ z ∧ z ≤ 2 ^ 53 := by
      rcases List.mem_cons.mp hz with rfl | hz
      · norm_num
      · obtain ⟨i, hi, rfl⟩ := List.mem_iff_getElem.mp hz
        rw [Dataproc.getElem_cumsumFrom, zero_add]
        obtain ⟨h1, h2⟩ := prefix_nonneg count h0 (i + 1)
        exact ⟨h1, le_trans h2 ht⟩
    have hF : IsF (z : ℚ) := isF_int (m := z) (by rw [abs_of_nonneg hb.1]; exact hb.2)
    have hz : |(z : ℚ)| ≤ 2 ^ 53 := by
      rw [abs_of_nonneg (by exact_mod_cast hb.1)]; exact_mod_cast hb.2
    rw [ofQ_fin_le hz (by have := isF_int (m := 2 ^ 53) (by norm_num); exact_mod_cast this) (pow_lt_pow_right₀ (by norm_num) (by norm_num))]
    rw [hF]
  have hmap : ((0 : ℤ) :: Dataproc.cumsumFrom 0 count).map (fun z : ℤ => ofQ (z : ℚ)) = ((0 : ℤ) :: Dataproc.cumsumFrom 0 count).map (fun z : ℤ => Num.fin (z : ℚ)) :=
    List.map_congr_left hm
  simp only [countToOffset, Bool.false_eq_true, if_false, h1, hmap, Dataproc.countToOffset]
  cases e
  · simp only [Bool.not_false, if_true, List.map_dropLast]
  · simp

/-- C137 (recorded): ... and rounded beyond: counts 2^53 and 1 give the offsets 0, 2^53, 2^53, so that the second stretch is empty. -/
theorem C137_unsigned_rounded : countToOffset false [2 ^ 53, 1] true = .floats [.fin 0, .fin (2 ^ 53), .fin (2 ^ 53)] := by
  simp only [countToOffset, Bool.false_eq_true, if_false, Bool.not_true]
  congr 1
  decide +kernel

/-! ### Cells -/

theorem code_bound {n : ℤ} (hn : 0 < n) (hN : n ≤ 2 ^ 21) {a b c : ℤ} (ha : 0 ≤ a ∧ a < n) (hb : 0 ≤ b ∧ b < n) (hc : 0 ≤ c ∧ c < n) :
    (0 ≤ a * n ∧ a * n < 2 ^ 63) ∧ (0 ≤ a * n + b ∧ a * n + b < 2 ^ 63) ∧ (0 ≤ (a * n + b) * n ∧ (a * n + b) * n < 2 ^ 63) ∧
    (0 ≤ (a * n + b) * n + c ∧ (a * n + b) * n + c < 2 ^ 63) := by
  have a1 : 0 ≤ a * n := Int.mul_nonneg ha.1 hn.le
  have a2 : a * n + b ≤ n * n - 1 := by nlinarith
  have a3 : 0 ≤ (a * n + b) * n := Int.mul_nonneg (by omega) hn.le
  have a4 : (a * n + b) * n + c ≤ n * n * n - 1 := by nlinarith
  have a5 : n * n ≤ 2 ^ 42 := by nlinarith
  have a6 : n * n * n ≤ 2 ^ 63 := by nlinarith
  refine ⟨⟨a1, ?_⟩, ⟨?_, ?_⟩, ⟨a3, ?_⟩, ⟨?_, ?_⟩⟩ <;> omega

/-- C137: up to 2^21 cells per axis the number of every cell comes out exactly in 64 bits: `(i0 * n + i1) * n + i2`. -/
theorem C137_cell_exact (n : ℤ) (hn : 0 < n) (hN : n ≤ 2 ^ 21) (a b c : ℤ) (ha : 0 ≤ a ∧ a < n) (hb : 0 ≤ b ∧ b < n) (hc : 0 ≤ c ∧ c < n) :
    cellNumber n (a, b, c) = (a * n + b) * n + c := by
  obtain ⟨h1, h2, h3, h4⟩ := code_bound hn hN ha hb hc
  simp only [cellNumber]
  rw [wrapS_id (by omega) h1.2, wrapS_id (by omega) h2.2, wrapS_id (by omega) h3.2, wrapS_id (by omega) h4.2]

/-- C137: so that the mesh of C123, whose cells are numbered with unbounded integers, is what the machine computes, for every position (NaN and infinities
included). -/
theorem C137_mesh (bad : Num → ℤ) (m : Mesh) (hn : 0 < m.n) (hN : m.n ≤ 2 ^ 21) (x : Point) : x2xif bad m x = FloatMesh.x2xif bad m x := by
  have r := fun a : ℤ => Neighbor.mod_range m.n hn a
  exact C137_cell_exact m.n (by exact_mod_cast hn) (by exact_mod_cast hN) _ _ _ (r _) (r _) (r _)

/-- C137: `n_grids**3` is exact below 2^21 cells per axis. -/
theorem C137_total (n : ℤ) (hn : 0 < n) (hN : n < 2 ^ 21) : totalCells n = n ^ 3 := by
  have a5 : n * n ≤ 2 ^ 42 := by nlinarith
  have a6 : n * n * n < 2 ^ 63 := by nlinarith
  have a7 : 0 ≤ n * n := Int.mul_nonneg hn.le hn.le
  have a8 : 0 ≤ n * n * n := Int.mul_nonneg a7 hn.le
  have a9 : wrapS (n * n) = n * n := wrapS_id (by omega) (by omega)
  rw [totalCells, a9, wrapS_id (by omega) (by omega)]; ring

/-- C137 (recorded): from 2^21 on it is not (2^21 cells per axis are `-2^63` cells in all), and above 2^21 the last cell has a negative number. -/
theorem C137_overflow : totalCells (2 ^ 21) = -2 ^ 63 ∧ ∀ n : ℤ, 2 ^ 21 < n → n ≤ 2642245 → cellNumber n (n - 1, n - 1, n - 1) < 0 := by
  refine ⟨by decide +kernel, fun n h1 h2 => ?_⟩
  have b1 : (n - 1) * n < 2 ^ 63 := by nlinarith
  have b2 : 0 ≤ (n - 1) * n := Int.mul_nonneg (by omega) (by omega)
  have b3 : (n - 1) * n + (n - 1) = n * n - 1 := by ring
  have b4 : n * n ≤ 2642245 * 2642245 := by nlinarith
  simp only [cellNumber]
  have b5 : 0 ≤ n * n := Int.mul_nonneg (by omega) (by omega)
  have b6 : wrapS (n * n - 1) = n * n - 1 := wrapS_id (by omega) (by omega)
  have b7 : wrapS ((n - 1) * n) = (n - 1) * n := wrapS_id (by omega) b1
  rw [b7, b3, b6]
  obtain ⟨k, hk⟩ := wrapS_congr ((n * n - 1) * n)
  obtain ⟨k', hk'⟩ := wrapS_congr (wrapS ((n * n - 1) * n) + (n - 1))
  have hr := wrapS_range (wrapS ((n * n - 1) * n) + (n - 1))
  rw [hk] at hk'
  have e : (n * n - 1) * n + k * 2 ^ 64 + (n - 1) + k' * 2 ^ 64 = n * n * n - 1 + (k + k') * 2 ^ 64 := by ring
  rw [hk, hk'] at hr
  rw [hk, hk']
  rw [e] at hr ⊢
  generalize k + k' = q at *
  have c1 : (2 ^ 21 + 1) * (2 ^ 21 + 1) ≤ n * n := by nlinarith
  have c2 : 2 ^ 63 + 1 ≤ n * n * n := by nlinarith
  have c3 : n * n * n ≤ 2642245 * 2642245 * 2642245 := by nlinarith
  have hq : q ≤ -1 := by
    by_contra hc
    have : 0 ≤ q * 2 ^ 64 := Int.mul_nonneg (by omega) (by norm_num)
    omega
  omega

/-- C137: the cell to the right, `i_l + 1`, never overflows for a position that is a finite double within the range of int64. -/
theorem C137_right (bad : Num → ℤ) (n : ℤ) (q : ℚ) (hq : IsF q) (h1 : -2 ^ 63 ≤ q) (h2 : q < 2 ^ 63) : cellsAt bad n (.fin q) = (⌊q⌋ % n, (⌊q⌋ + 1) % n) := by
  have hlo : (-2 ^ 63 : ℤ) ≤ ⌊q⌋ := Int.le_floor.mpr (by push_cast; exact h1)
  have hhi : ⌊q⌋ < 2 ^ 63 := Int.floor_lt.mpr (by push_cast; exact h2)
  have hlt : ⌊q⌋ + 1 < 2 ^ 63 := by
    -- the double before 2^63 is 2^63 - 1024
    rcases lt_or_ge q (2 ^ 62) with h | h
    · have : ⌊q⌋ < 2 ^ 62 := Int.floor_lt.mpr (by push_cast; exact h)
      omega
    · have e0 : expo ((2 : ℚ) ^ 62) = 10 := by decide +kernel
      have e1 : (10 : ℤ) ≤ expo q := by
        rw [← e0]
        refine expo_mono (by norm_num) ?_
        rw [abs_of_pos (by norm_num), abs_of_nonneg (by linarith [show (0 : ℚ) ≤ 2 ^ 62 by norm_num])]; exact h
      obtain ⟨k, hk⟩ := hq.mult_of_le e1
      have hk' : q = ((k * 1024 : ℤ) : ℚ) := by rw [hk]; push_cast; norm_num
      rw [hk', Int.floor_intCast]
      rw [hk'] at h2
      have : k * 1024 < 2 ^ 63 := by exact_mod_cast h2
      omega
  have ht : Num.toInt64 bad (Num.floor (.fin q)) = ⌊q⌋ := by
    simp only [Num.floor, Num.toInt64]
    rw [if_pos ⟨by exact_mod_cast hlo, by exact_mod_cast hhi⟩]
    split <;> simp
  simp only [cellsAt, ht]
  rw [wrapS_id (by omega) hlt]

example : cellsAt Num.x86 8 (.fin (-1 / 4)) = (7, 0) := by decide +kernel

example : countToOffset true [3, 0, 2] true = .ints [0, 3, 3, 5] := rfl

end Pyhipp.Int64
