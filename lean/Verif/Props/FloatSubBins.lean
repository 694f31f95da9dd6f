import Verif.Model.FloatSubBins
import Verif.Props.FloatGrid
import Verif.Props.FloatHist
import Verif.Props.Binning
/-
C149: sub-bins, centres, widths and overlapping bins in double precision.
-/
namespace Pyhipp.FloatSubBins
open Pyhipp Pyhipp.F64
open Pyhipp.FloatLinear (fins)
open Pyhipp.Binning (BinSpec)
open Pyhipp.FloatGrid (Range)

/-! ### Adding neighbours -/

theorem combine_fold {β : Type} (add : β → β → β) (x : List β) (n m : Nat) (hm : n + m ≤ x.length) :
    ∃ hl : ((List.range m).foldl (fun xo b0 => List.zipWith add xo ((x.drop (b0 + 1)).take n)) (x.take n)).length = n,
    ∀ i (hi : i < n), ((List.range m).foldl (fun xo b0 => List.zipWith add xo ((x.drop (b0 + 1)).take n)) (x.take n))[i]'(by omega) =
      ((x.drop (i + 1)).take m).foldl add (x[i]'(by omega)) := by
  induction m with
  | zero =>
      refine ⟨by simp; omega, ?_⟩
      intro i hi
      simp only [List.range_zero, List.foldl_nil, List.getElem_take, List.take_zero]
  | succ m ih =>
      obtain ⟨hl, hg⟩ := ih (by omega)
      simp only [List.range_succ, List.foldl_append, List.foldl_cons, List.foldl_nil]
      refine ⟨by rw [List.length_zipWith, hl]; simp; omega, ?_⟩
      intro i hi
      rw [List.getElem_zipWith, hg i hi]
      have e : (x.drop (i + 1)).take (m + 1) = (x.drop (i + 1)).take m ++ [x[m + 1 + i]'(by omega)] := by
        rw [List.take_succ_eq_append_getElem (i := m) (by simp; omega)]
        congr 2
        rw [List.getElem_drop]
        congr 1
        omega
      simp only [e, List.foldl_append, List.foldl_cons, List.foldl_nil, List.getElem_take, List.getElem_drop]

theorem combineBy_ok {β : Type} (add : β → β → β) (x : List β) (m : Int) (h1 : 1 ≤ m) (h2 : m ≤ x.length) :
    ∃ r, combineBy add x m = .ok r ∧ r.length = x.length + 1 - m.toNat ∧
      ∀ i (hi : i + m.toNat ≤ x.length), r[i]? = some (((x.drop (i + 1)).take (m.toNat - 1)).foldl add (x[i]'(by omega))) := by
  obtain ⟨hl, hg⟩ := combine_fold add x ((x.length : Int) - m + 1).toNat (m.toNat - 1) (by omega)
  refine ⟨_, ?_, by rw [hl]; omega, ?_⟩
  · unfold combineBy pyAssert
    simp only [show m ≥ 1 from h1, show (x.length : Int) - m + 1 > 0 by omega, decide_true, if_true, Except.bind_ok]
    rfl
  · intro i hi
    rw [List.getElem?_eq_getElem (by omega), hg i (by omega)]

theorem combineBy_err {β : Type} (add : β → β → β) (x : List β) (m : Int) (h : ¬ (1 ≤ m ∧ m ≤ x.length)) : combineBy add x m = .error .assertionError := by
  unfold combineBy pyAssert
  by_cases h1 : m ≥ 1
  · have : ¬ ((x.length : Int) - m + 1 > 0) := by omega
    simp [h1, this, Except.bind_ok, Except.bind_error]
  · simp [h1, Except.bind_error]

/-- C149: `combine_adjacent_bins(x, m)` of floats is accepted iff `1 <= m <= len(x)` (AssertionError otherwise); it has `len(x) - m + 1` entries, the i-th
is `x[i] + x[i+1] + ... + x[i+m-1]` added from left to right, every addition rounded. -/
theorem C149_combine (x : List Num) (m : Int) :
    (¬ (1 ≤ m ∧ m ≤ x.length) → combine x m = .error .assertionError) ∧
    (∀ (h1 : 1 ≤ m) (h2 : m ≤ x.length), ∃ r, combine x m = .ok r ∧ r.length = x.length + 1 - m.toNat ∧
      ∀ i (hi : i + m.toNat ≤ x.length), r[i]? = some (((x.drop (i + 1)).take (m.toNat - 1)).foldl Num.add (x[i]'(by omega)))) :=
  ⟨combineBy_err Num.add x m, combineBy_ok Num.add x m⟩

theorem seqSum_foldl (l : List Num) : ∀ v, FloatHist.seqSum v l = l.foldl Num.add v := by
  induction l with
  | nil => intro v; rfl
  | cons w t ih => intro v; exact ih _

theorem window {β : Type} (x : List β) (i m : Nat) (hm : 1 ≤ m) (hi : i + m ≤ x.length) :
    (x.drop i).take m = x[i]'(by omega) :: ((x.drop (i + 1)).take (m - 1)) := by
  rw [List.drop_eq_getElem_cons (by omega)]
  obtain ⟨k, rfl⟩ : ∃ k, m = k + 1 := ⟨m - 1, by omega⟩
  rw [List.take_succ_cons, Nat.add_sub_cancel]

/-- C149: floats of either sign: every combined value differs from the exact sum of its `m` terms by at most `((1 + 2^-53)^(m-1) - 1)` times the sum of their
absolute values (and is finite if that sum does not overflow). -/
theorem C149_combine_error (x : List ℚ) (hF : ∀ v ∈ x, IsF v) (m : Nat) (h1 : 1 ≤ m) (h2 : m ≤ x.length)
    (hb : ∀ i, i + m ≤ x.length → (1 + 2 ^ (-53 : ℤ)) ^ (m - 1) * (((x.drop i).take m).map fun v => |v|).sum ≤ 2 ^ 1023) :
    ∃ r, combine (fins x) m = .ok (fins r) ∧ r.length = x.length + 1 - m ∧ (∀ v ∈ r, IsF v) ∧
      ∀ i (hi : i + m ≤ x.length), ∃ v, r[i]? = some v ∧
        |v - ((x.drop i).take m).sum| ≤ ((1 + 2 ^ (-53 : ℤ)) ^ (m - 1) - 1) * (((x.drop i).take m).map fun v => |v|).sum := by
  obtain ⟨r, r1, r2, r3⟩ := (C149_combine (fins x) m).2 (by omega) (by rw [FloatLinear.fins_length]; exact_mod_cast h2)
  rw [FloatLinear.fins_length, Int.toNat_natCast] at r2
  have key : ∀ i (hi : i < r.length), ∃ v, r[i] = .fin v ∧ IsF v ∧
      |v - ((x.drop i).take m).sum| ≤ ((1 + 2 ^ (-53 : ℤ)) ^ (m - 1) - 1) * (((x.drop i).take m).map fun v => |v|).sum := by
    intro i hi
    have hi' : i + m ≤ x.length := by omega
    have h3 := r3 i (by rw [FloatLinear.fins_length]; exact hi')
    rw [List.getElem?_eq_getElem hi, Option.some.injEq] at h3
    have hbi := hb i hi'
    rw [window x i m h1 hi'] at hbi ⊢
    have hsub : ∀ w ∈ (x.drop (i + 1)).take (m - 1), IsF w := fun w hw => hF w (List.mem_of_mem_drop (List.mem_of_mem_take hw))
    have hx : IsF (x[i]'(by omega)) := hF _ (List.getElem_mem _)
    have hlen : ((x.drop (i + 1)).take (m - 1)).length = m - 1 := by simp; omega
    have e : ((List.drop (i + 1) (fins x)).take (m - 1)) = ((x.drop (i + 1)).take (m - 1)).map .fin := by simp [fins, List.map_drop, List.map_take]
    have ei : (fins x)[i]'(by rw [FloatLinear.fins_length]; omega) = .fin (x[i]'(by omega)) := by simp [fins]
    simp only [Int.toNat_natCast, e, ei] at h3
    generalize (x.drop (i + 1)).take (m - 1) = t at *
    generalize (x[i]'(by omega)) = w at *
    obtain ⟨v, v1, v2, v3⟩ := FloatHist.seq_err t hsub 0 w w |w| hx le_rfl (by simp) (by
      rw [zero_add, hlen]; simpa [FloatHist.absSum] using hbi)
    refine ⟨v, ?_, v2, ?_⟩
    · rw [h3, ← seqSum_foldl]; exact v1
    · rw [zero_add, hlen] at v3
      simpa [FloatHist.absSum] using v3
  let q : List ℚ := (List.range r.length).map fun i => if h : i < r.length then (key i h).choose else 0
  have hq : ∀ i (h : i < r.length), q[i]? = some (key i h).choose := by
    intro i h
    simp only [q, List.getElem?_map, List.getElem?_range h, Option.map_some]
    rw [dif_pos h]
  have hlen : q.length = r.length := by simp [q]
  refine ⟨q, ?_, by omega, ?_, ?_⟩
  · rw [r1]
    congr 1
    refine List.ext_getElem? fun i => ?_
    by_cases h : i < r.length
    · rw [List.getElem?_eq_getElem h, (key i h).choose_spec.1]
      simp only [fins, List.getElem?_map, hq i h, Option.map_some]
    · rw [List.getElem?_eq_none (by omega), List.getElem?_eq_none (by rw [FloatLinear.fins_length]; omega)]
  · intro v hv
    obtain ⟨i, hi, rfl⟩ := List.getElem_of_mem hv
    have h := hq i (by omega)
    rw [List.getElem?_eq_getElem hi, Option.some.injEq] at h
    rw [h]
    exact (key i (by omega)).choose_spec.2.1
  · intro i hi
    exact ⟨_, hq i (by omega), (key i (by omega)).choose_spec.2.2⟩

/-- C149: integers (counts stored as floats) are combined exactly while the absolute values of every window add up to at most 2^53. -/
theorem C149_combine_integers (x : List ℤ) (m : Nat) (h1 : 1 ≤ m) (h2 : m ≤ x.length)
    (hb : ∀ i, i + m ≤ x.length → (((x.drop i).take m).map fun v => |v|).sum ≤ 2 ^ 53) :
    ∃ r, combine (x.map fun z : ℤ => .fin (z : ℚ)) m = .ok r ∧ r.length = x.length + 1 - m ∧
      ∀ i, i + m ≤ x.length → r[i]? = some (.fin ((((x.drop i).take m).sum : ℤ) : ℚ)) := by
  obtain ⟨r, r1, r2, r3⟩ := (C149_combine (x.map fun z : ℤ => .fin (z : ℚ)) m).2 (by omega) (by rw [List.length_map]; exact_mod_cast h2)
  rw [List.length_map, Int.toNat_natCast] at r2
  refine ⟨r, r1, r2, fun i hi => ?_⟩
  have h3 := r3 i (by rw [List.length_map]; exact hi)
  have hbi := hb i hi
  rw [window x i m h1 hi] at hbi ⊢
  have e : ((List.drop (i + 1) (x.map fun z : ℤ => Num.fin (z : ℚ))).take (m - 1)) = ((x.drop (i + 1)).take (m - 1)).map fun z : ℤ => Num.fin (z : ℚ) := by
    simp [List.map_drop, List.map_take]
  simp only [Int.toNat_natCast, e, List.getElem_map] at h3
  rw [h3, List.sum_cons, ← seqSum_foldl]
  have := FloatHist.seq_int ((x.drop (i + 1)).take (m - 1)) (x[i]'(by omega)) (by simpa using hbi)
  exact congrArg some this

example : combine [.fin 1, .fin 2, .fin (1 / 2), .fin 4] 2 = .ok [.fin 3, .fin (5 / 2), .fin (9 / 2)] := by decide +kernel
example : combine [.fin 1, .fin 2] 3 = .error .assertionError := rfl

/-! ### Widths and centres -/

theorem strided_get (e : List ℚ) (stride i : Nat) (hi : i + stride < e.length) :
    (strided (fins e) stride)[i]? = some (.fin (e[i]'(by omega)), .fin e[i + stride]) := by
  have hlt : i < (strided (fins e) stride).length := by simp [strided, fins]; omega
  rw [List.getElem?_eq_getElem hlt]
  simp [strided, fins, Nat.add_comm]

theorem strided_length (e : List ℚ) (stride : Nat) : (strided (fins e) stride).length = e.length - stride := by simp [strided, fins]

theorem map_strided (e : List ℚ) (stride : Nat) (f : Num × Num → Num) (g : ℚ → ℚ → ℚ)
    (h : ∀ a ∈ e, ∀ b ∈ e, f (.fin a, .fin b) = .fin (g a b)) :
    ∃ w : List ℚ, (strided (fins e) stride).map f = fins w ∧ w.length = e.length - stride ∧
      ∀ i (hi : i + stride < e.length), w[i]? = some (g (e[i]'(by omega)) e[i + stride]) := by
  let w : List ℚ := ((e.take (e.length - stride)).zip (e.drop stride)).map fun p => g p.1 p.2
  have hw : ∀ i (hi : i + stride < e.length), w[i]? = some (g (e[i]'(by omega)) e[i + stride]) := by
    intro i hi
    have hlt : i < w.length := by simp [w]; omega
    rw [List.getElem?_eq_getElem hlt]
    simp [w, Nat.add_comm]
  have hl : w.length = e.length - stride := by simp [w]
  refine ⟨w, ?_, hl, hw⟩
  refine List.ext_getElem? fun i => ?_
  by_cases hi : i + stride < e.length
  · rw [List.getElem?_map, strided_get e stride i hi, Option.map_some, h _ (List.getElem_mem _) _ (List.getElem_mem _)]
    simp only [fins, List.getElem?_map, hw i hi, Option.map_some]
  · rw [List.getElem?_eq_none (by rw [List.length_map, strided_length]; omega), List.getElem?_eq_none (by rw [FloatLinear.fins_length]; omega)]

/-- C149: `edges_to_widths(e, stride)` of increasing finite edges: entry `i` is the difference of `e[i+stride]` and `e[i]` rounded once (relative error at most 2^-53, also
for the tiniest widths); it is never negative and zero only if the two edges are equal. -/
theorem C149_widths (e : List ℚ) (hF : ∀ v ∈ e, IsF v ∧ |v| ≤ 2 ^ 1022) (hs : e.Pairwise (· ≤ ·)) (stride : Nat) :
    ∃ w : List ℚ, edgesToWidths (fins e) stride = fins w ∧ w.length = e.length - stride ∧
      ∀ i (hi : i + stride < e.length), ∃ v, w[i]? = some v ∧ IsF v ∧ 0 ≤ v ∧ (v = 0 ↔ e[i]'(by omega) = e[i + stride]) ∧
        |v - (e[i + stride] - e[i]'(by omega))| ≤ 2 ^ (-53 : ℤ) * (e[i + stride] - e[i]'(by omega)) := by
  obtain ⟨w, w1, w2, w3⟩ := map_strided e stride (fun p => Num.sub p.2 p.1) (fun a b => rnd (b - a))
    (fun a ha b hb => FloatLinear.sub_fin (hF b hb).2 (hF a ha).2)
  refine ⟨w, w1, w2, fun i hi => ⟨_, w3 i hi, isF_rnd _, ?_⟩⟩
  have fa := (hF _ (List.getElem_mem (show i < e.length by omega))).1
  have fb := (hF _ (List.getElem_mem hi)).1
  have hle : e[i]'(by omega) ≤ e[i + stride] := pw_le hs (by omega) hi
  generalize e[i]'(by omega) = a at *
  generalize e[i + stride] = b at *
  refine ⟨rnd_nonneg (sub_nonneg.mpr hle), ⟨fun h => ?_, fun h => by rw [h, sub_self, rnd_zero]⟩, ?_⟩
  · rcases eq_or_lt_of_le hle with h' | h'
    · exact h'
    · exact absurd h (rnd_sub_pos fb fa h').ne'
  · have := rnd_sub_err fb fa
    rwa [abs_of_nonneg (sub_nonneg.mpr hle)] at this

/-- C149: `edges_to_centers(e, stride)` of increasing finite edges: entry `i` is a double nearest to the exact centre of `e[i]` and `e[i+stride]`; it lies between the two, and
the centres do not decrease. -/
theorem C149_centers (e : List ℚ) (hF : ∀ v ∈ e, IsF v ∧ |v| ≤ 2 ^ 1022) (hs : e.Pairwise (· ≤ ·)) (stride : Nat) :
    ∃ c : List ℚ, edgesToCenters (fins e) stride = fins c ∧ c.length = e.length - stride ∧ c.Pairwise (· ≤ ·) ∧
      ∀ i (hi : i + stride < e.length), ∃ v, c[i]? = some v ∧ IsF v ∧ e[i]'(by omega) ≤ v ∧ v ≤ e[i + stride] ∧
        ∀ y, IsF y → |v - (e[i]'(by omega) + e[i + stride]) / 2| ≤ |y - (e[i]'(by omega) + e[i + stride]) / 2| := by
  obtain ⟨w, w1, w2, w3⟩ := map_strided e stride (fun p => Num.mul (.fin (1 / 2)) (Num.add p.1 p.2)) FloatGrid.midQ
    (fun a ha b hb => FloatGrid.mid_fin (hF a ha).2 (hF b hb).2)
  refine ⟨w, w1, w2, ?_, fun i hi => ⟨_, w3 i hi, isF_rnd _, ?_⟩⟩
  · rw [← List.isChain_iff_pairwise, List.isChain_iff_getElem]
    intro k hk
    have g0 := w3 k (by omega)
    have g1 := w3 (k + 1) (by omega)
    rw [List.getElem?_eq_getElem (by omega), Option.some.injEq] at g0 g1
    rw [g0, g1]
    exact FloatGrid.midQ_mono (pw_le hs (by omega) (by omega)) (pw_le hs (by omega) (by omega))
  · have fa := (hF _ (List.getElem_mem (show i < e.length by omega))).1
    have fb := (hF _ (List.getElem_mem hi)).1
    have hle : e[i]'(by omega) ≤ e[i + stride] := pw_le hs (by omega) hi
    obtain ⟨h1, h2⟩ := FloatGrid.midQ_between fa fb hle
    exact ⟨h1, h2, FloatGrid.midQ_nearest fa fb⟩

/-- C149: beyond half of the largest double the centre overflows: the centre of two finite edges is inf. -/
theorem C149_center_overflow : edgesToCenters [.fin (2 ^ 1023), .fin (2 ^ 1023 + 2 ^ 1022)] 1 = [.inf false] ∧
    edgesToWidths [.fin (-2 ^ 1023), .fin (2 ^ 1023)] 1 = [.inf false] := by decide +kernel

example : edgesToCenters [.fin 0, .fin 1, .fin 3] 1 = [.fin (1 / 2), .fin 2] ∧ edgesToWidths [.fin 0, .fin 1, .fin 3] 2 = [.fin 3] := by decide +kernel

/-! ### Sub-bins -/

/-- Sub-edges as computed when some step is zero. -/
def fracQ (a b : ℚ) (s j : Nat) : ℚ := rnd (rnd (rnd ((j : ℚ) / s) * rnd (b - a)) + a)

theorem quo_facts {s j : Nat} (h1 : 1 ≤ s) (h2 : s ≤ 2 ^ 50) (hj : j ≤ s) : |rnd ((j : ℚ) / s) - j / s| ≤ 2 ^ (-53 : ℤ) * (j / s) ∧ 0 ≤ rnd ((j : ℚ) / s) ∧
    rnd ((j : ℚ) / s) ≤ 1 ∧ (j = 0 ∨ 2 ^ (-50 : ℤ) ≤ rnd ((j : ℚ) / s)) := by
  have hs0 : (0 : ℚ) < s := by exact_mod_cast h1
  have hs2 : (s : ℚ) ≤ 2 ^ (50 : ℤ) := by exact_mod_cast h2
  have hq0 : (0 : ℚ) ≤ j / s := by positivity
  have hq1 : (j : ℚ) / s ≤ 1 := by rw [div_le_one hs0]; exact_mod_cast hj
  have one : IsF (1 : ℚ) := by exact_mod_cast isF_int (m := 1) (by norm_num)
  rcases Nat.eq_zero_or_pos j with hz | hp
  · subst hz
    simp [rnd_zero]
  · have hq : (2 : ℚ) ^ (-50 : ℤ) ≤ j / s := by
      rw [le_div_iff₀ hs0]
      have e : (2 : ℚ) ^ (-50 : ℤ) * 2 ^ (50 : ℤ) = 1 := by rw [← zpow_add₀ (by norm_num)]; norm_num
      have h3 : (2 : ℚ) ^ (-50 : ℤ) * s ≤ 1 := by rw [← e]; exact mul_le_mul_of_nonneg_left hs2 (pow_pos' _).le
      have h4 : (1 : ℚ) ≤ j := by exact_mod_cast hp
      exact h3.trans h4
    refine ⟨?_, rnd_nonneg hq0, rnd_le hq1 one, .inr (le_rnd hq (isF_pow (by norm_num)))⟩
    have := rnd_err (x := (j : ℚ) / s) (by
      rw [abs_of_nonneg hq0]
      exact le_trans (zpow_le_zpow_right₀ (by norm_num) (by norm_num)) hq)
    rwa [abs_of_nonneg hq0] at this

theorem frac_alg {d D F q p u : ℚ} (hq : 0 ≤ q) (hd : 0 ≤ d) (u0 : 0 ≤ u) (u1 : u ≤ 1 / 64) (e1 : |D - d| ≤ u * d)
    (e2 : |F - q| ≤ u * q) (e3 : |p - F * D| ≤ u * (F * D)) : 0 ≤ p ∧ |p - q * d| ≤ 4 * u * (q * d) := by
  obtain ⟨a1, a2⟩ := abs_le.mp e1
  obtain ⟨b1, b2⟩ := abs_le.mp e2
  obtain ⟨c1, c2⟩ := abs_le.mp e3
  have D1 : (1 - u) * d ≤ D := by linarith
  have D2 : D ≤ (1 + u) * d := by linarith
  have F1 : (1 - u) * q ≤ F := by linarith
  have F2 : F ≤ (1 + u) * q := by linarith
  have n1 : 0 ≤ (1 - u) * d := mul_nonneg (by linarith) hd
  have n2 : 0 ≤ (1 - u) * q := mul_nonneg (by linarith) hq
  have T0 : 0 ≤ q * d := mul_nonneg hq hd
  have P1 : (1 - u) * ((1 - u) * ((1 - u) * (q * d))) ≤ p := by
    have h1 : (1 - u) * q * ((1 - u) * d) ≤ F * D := mul_le_mul F1 D1 n1 (n2.trans F1)
    have h2 : (1 - u) * ((1 - u) * q * ((1 - u) * d)) ≤ (1 - u) * (F * D) := mul_le_mul_of_nonneg_left h1 (by linarith)
    have e : (1 - u) * ((1 - u) * q * ((1 - u) * d)) = (1 - u) * ((1 - u) * ((1 - u) * (q * d))) := by ring
    linarith
  have P2 : p ≤ (1 + u) * ((1 + u) * ((1 + u) * (q * d))) := by
    have h1 : F * D ≤ (1 + u) * q * ((1 + u) * d) := mul_le_mul F2 D2 (n1.trans D1) (mul_nonneg (by linarith) hq)
    have h2 : (1 + u) * (F * D) ≤ (1 + u) * ((1 + u) * q * ((1 + u) * d)) := mul_le_mul_of_nonneg_left h1 (by linarith)
    have e : (1 + u) * ((1 + u) * q * ((1 + u) * d)) = (1 + u) * ((1 + u) * ((1 + u) * (q * d))) := by ring
    linarith
  have hp : 0 ≤ p := le_trans (mul_nonneg (by linarith) (mul_nonneg (by linarith) (mul_nonneg (by linarith) T0))) P1
  refine ⟨hp, ?_⟩
  generalize q * d = T at *
  have uT : 0 ≤ u * T := mul_nonneg u0 T0
  have uuT : u * (u * T) ≤ 1 / 64 * (u * T) := mul_le_mul_of_nonneg_right u1 uT
  have uuT0 : 0 ≤ u * (u * T) := mul_nonneg u0 uT
  have uuuT : u * (u * (u * T)) ≤ 1 / 64 * (u * (u * T)) := mul_le_mul_of_nonneg_right u1 uuT0
  have uuuT0 : 0 ≤ u * (u * (u * T)) := mul_nonneg u0 uuT0
  have e4 : (1 + u) * ((1 + u) * ((1 + u) * T)) = T + 3 * (u * T) + 3 * (u * (u * T)) + u * (u * (u * T)) := by ring
  have e5 : (1 - u) * ((1 - u) * ((1 - u) * T)) = T - 3 * (u * T) + 3 * (u * (u * T)) - u * (u * (u * T)) := by ring
  rw [e4] at P2
  rw [e5] at P1
  have e6 : 4 * u * T = 4 * (u * T) := by ring
  rw [e6, abs_le]
  constructor <;> linarith


/-- Before the end nothing passes it. -/
theorem under_end {p d : ℚ} {s j : Nat} (h2 : s ≤ 2 ^ 50) (hj : j < s) (hd : 0 ≤ d)
    (hp : |p - (j : ℚ) / s * d| ≤ 4 * 2 ^ (-53 : ℤ) * ((j : ℚ) / s * d)) : p ≤ d := by
  have h1 : 1 ≤ s := by omega
  have hN0 : (0 : ℚ) < s := by exact_mod_cast h1
  have p3 := (abs_le.mp hp).2
  have hi' : (j : ℚ) ≤ s - 1 := by
    have : (j : ℚ) + 1 ≤ s := by exact_mod_cast hj
    linarith
  have hN2 : (s : ℚ) ≤ 2 ^ (50 : ℤ) := by exact_mod_cast h2
  have key : (j : ℚ) / s * d ≤ d * (1 - 2 ^ (-50 : ℤ)) := by
    rw [mul_comm]
    refine mul_le_mul_of_nonneg_left ?_ hd
    rw [div_le_iff₀ hN0]
    have e : (2 : ℚ) ^ (-50 : ℤ) * 2 ^ (50 : ℤ) = 1 := by rw [← zpow_add₀ (by norm_num)]; norm_num
    have h3 : (2 : ℚ) ^ (-50 : ℤ) * s ≤ 1 := by rw [← e]; exact mul_le_mul_of_nonneg_left hN2 (pow_pos' _).le
    linarith
  have e53 : (4 : ℚ) * 2 ^ (-53 : ℤ) = 1 / 2 * 2 ^ (-50 : ℤ) := by
    rw [show (-50 : ℤ) = -53 + 3 by norm_num, zpow_add₀ (by norm_num)]; norm_num
  rw [e53] at p3
  generalize (j : ℚ) / s * d = T at *
  have v0 : (0 : ℚ) ≤ 2 ^ (-50 : ℤ) := (pow_pos' _).le
  generalize (2 : ℚ) ^ (-50 : ℤ) = v at *
  have h5 : p ≤ (1 + 1 / 2 * v) * T := by linarith
  have h6 : (1 + 1 / 2 * v) * T ≤ (1 + 1 / 2 * v) * (d * (1 - v)) := mul_le_mul_of_nonneg_left key (by linarith)
  have h7 : (1 + 1 / 2 * v) * (d * (1 - v)) = d - 1 / 2 * (v * d) - 1 / 2 * (v * v * d) := by ring
  have h8 : 0 ≤ v * d := mul_nonneg v0 hd
  have h9 : 0 ≤ v * v * d := mul_nonneg (mul_nonneg v0 v0) hd
  linarith

theorem fprod_facts {a b : ℚ} (h : Range a b) {s j : Nat} (h1 : 1 ≤ s) (h2 : s ≤ 2 ^ 50) (hj : j ≤ s) :
    0 ≤ rnd (rnd ((j : ℚ) / s) * rnd (b - a)) ∧
    |rnd (rnd ((j : ℚ) / s) * rnd (b - a)) - (j : ℚ) / s * (b - a)| ≤ 4 * 2 ^ (-53 : ℤ) * ((j : ℚ) / s * (b - a)) := by
  obtain ⟨q1, q2, q3, q4⟩ := quo_facts h1 h2 hj
  obtain ⟨s1, s2, s3, s4, s5⟩ := FloatGrid.span_facts h
  have hd : 0 ≤ b - a := sub_nonneg.mpr h.le
  refine frac_alg (div_nonneg (Nat.cast_nonneg j) (Nat.cast_nonneg s)) hd (pow_pos' _).le FloatGrid.u64 s1 q1 ?_
  rcases q4 with hz | hq
  · subst hz; simp [rnd_zero]
  · rcases eq_or_lt_of_le h.le with he | hlt
    · rw [s5 he]; simp [rnd_zero]
    · have h3 := s4 hlt
      have hm : (2 : ℚ) ^ (-950 : ℤ) ≤ rnd ((j : ℚ) / s) * rnd (b - a) := by
        have e : (2 : ℚ) ^ (-950 : ℤ) = 2 ^ (-50 : ℤ) * 2 ^ (-900 : ℤ) := by rw [← zpow_add₀ (by norm_num)]; norm_num
        rw [e]
        exact mul_le_mul hq h3 (pow_pos' _).le q2
      have hnn : 0 ≤ rnd ((j : ℚ) / s) * rnd (b - a) := mul_nonneg q2 s2
      have := rnd_err (x := rnd ((j : ℚ) / s) * rnd (b - a)) (by
        rw [abs_of_nonneg hnn]
        exact le_trans (zpow_le_zpow_right₀ (by norm_num) (by norm_num)) hm)
      rwa [abs_of_nonneg hnn] at this

/-- A sub-edge, as computed. -/
def subQ (z : Bool) (s j : Nat) (a b : ℚ) : ℚ := if z then fracQ a b s j else FloatGrid.nodeQ a b s j

theorem subQ_zero {a b : ℚ} (h : Range a b) (z : Bool) (s : Nat) : subQ z s 0 a b = a := by
  cases z
  · exact FloatGrid.node_zero h s
  · show fracQ a b s 0 = a
    unfold fracQ
    rw [Nat.cast_zero, zero_div, rnd_zero, zero_mul, rnd_zero, zero_add]
    exact h.fa

theorem subQ_isF (z : Bool) (s j : Nat) (a b : ℚ) : IsF (subQ z s j a b) := by
  cases z <;> exact isF_rnd _

theorem subQ_mono {a b : ℚ} (h : Range a b) (z : Bool) {s i j : Nat} (h1 : 1 ≤ s) (h2 : s ≤ 2 ^ 50) (hij : i ≤ j) : subQ z s i a b ≤ subQ z s j a b := by
  cases z
  · exact FloatGrid.node_mono h h1 h2 hij
  · show fracQ a b s i ≤ fracQ a b s j
    have hN0 : (0 : ℚ) < s := by exact_mod_cast h1
    refine rnd_mono (add_le_add (rnd_mono (mul_le_mul_of_nonneg_right (rnd_mono ?_) (FloatGrid.span_facts h).2.1)) le_rfl)
    rw [div_le_div_iff_of_pos_right hN0]
    exact_mod_cast hij

theorem subQ_le {a b : ℚ} (h : Range a b) (z : Bool) {s j : Nat} (h2 : s ≤ 2 ^ 50) (hj : j < s) : subQ z s j a b ≤ b := by
  cases z
  · exact (FloatGrid.node_between h h2 hj).2
  · have := under_end h2 hj (sub_nonneg.mpr h.le) (fprod_facts h (by omega) h2 hj.le).2
    exact rnd_le (by linarith) h.fb

theorem subQ_close {a b : ℚ} (h : Range a b) (z : Bool) {s j : Nat} (h2 : s ≤ 2 ^ 50) (hj : j < s) :
    |subQ z s j a b - (a + j * (b - a) / s)| ≤ 2 ^ (-50 : ℤ) * (|a| + |b|) := by
  cases z
  · exact FloatGrid.node_close h (by omega) h2 hj.le
  · have p2 := (fprod_facts h (by omega) h2 hj.le).2
    obtain ⟨f1, f2⟩ := FloatGrid.frac_le h (N := s) (i := j) (by omega) hj.le
    rw [show (j : ℚ) / s * (b - a) = j * (b - a) / s by ring] at p2
    have := FloatGrid.node_alg (pow_pos' _).le FloatGrid.u64 h.le f1 f2 p2 (FloatCoords.rnd_add_err (isF_rnd _) h.fa)
    have e53 : (8 : ℚ) * 2 ^ (-53 : ℤ) = 2 ^ (-50 : ℤ) := by
      rw [show (-50 : ℤ) = -53 + 3 by norm_num, zpow_add₀ (by norm_num)]; norm_num
    rw [e53] at this
    exact this

theorem nat_num (k : Nat) (hk : k ≤ 2 ^ 50) : ofQ (k : ℚ) = .fin k := by
  have hk' : |((k : ℤ))| ≤ 2 ^ 53 := by
    rw [abs_of_nonneg (by positivity)]
    have : (k : ℤ) ≤ 2 ^ 50 := by exact_mod_cast hk
    omega
  have hf : IsF ((k : ℤ) : ℚ) := isF_int hk'
  rw [Int.cast_natCast] at hf
  refine FloatReduce.ofQ_self ⟨hf, ?_⟩
  rw [abs_of_nonneg (by positivity)]
  calc (k : ℚ) ≤ 2 ^ 50 := by exact_mod_cast hk
    _ < 2 ^ 1024 := pow_lt_pow_right₀ (by norm_num) (by norm_num)

theorem subEdge_fin {a b : ℚ} (h : Range a b) (z : Bool) {s j : Nat} (h2 : s ≤ 2 ^ 50) (hj : j < s) :
    subEdge z s j (.fin a) (.fin b) = .fin (subQ z s j a b) := by
  obtain ⟨d1, d2, _⟩ := FloatGrid.node_num h (N := s) (i := j) (by omega) h2 hj.le
  unfold subEdge
  cases z
  · simp only [Bool.false_eq_true, if_false]
    rw [d1, d2]; rfl
  · simp only [if_true]
    have ha22 := FloatStandardize.up 1022 h.ha (by norm_num)
    have hb22 := FloatStandardize.up 1022 h.hb (by norm_num)
    obtain ⟨q1, q2, q3, q4⟩ := quo_facts (s := s) (j := j) (by omega) h2 hj.le
    obtain ⟨s1, s2, s3, s4, s5⟩ := FloatGrid.span_facts h
    have hN0 : (0 : ℚ) < s := by have : 0 < s := by omega
                                 exact_mod_cast this
    have hdiv : Num.div (ofQ j) (ofQ s) = .fin (rnd ((j : ℚ) / s)) := by
      rw [nat_num j (by omega), nat_num s h2]
      refine FloatStandardize.div_fin hN0.ne' ?_
      rw [abs_of_nonneg (div_nonneg (Nat.cast_nonneg j) (Nat.cast_nonneg s))]
      calc (j : ℚ) / s ≤ 1 := by rw [div_le_one hN0]; exact_mod_cast hj.le
        _ ≤ 2 ^ 1023 := one_le_pow₀ (by norm_num)
    have hnn : 0 ≤ rnd ((j : ℚ) / s) * rnd (b - a) := mul_nonneg q2 s2
    have f3 : |rnd ((j : ℚ) / s) * rnd (b - a)| ≤ 2 ^ 1021 := by
      rw [abs_of_nonneg hnn]
      calc _ ≤ 1 * rnd (b - a) := mul_le_mul_of_nonneg_right q3 s2
        _ ≤ _ := by rw [one_mul]; exact s3
    have f4 := FloatStandardize.up 1022 f3 (by norm_num)
    rw [hdiv, FloatLinear.sub_fin hb22 ha22, FloatStandardize.mul_fin (FloatStandardize.up 1023 f3 (by norm_num)), FloatLinear.add_fin (FloatStandardize.rnd_size f4) ha22]
    rfl

/-- C149: `insert_sub_bins_into_edges(e, s)` for increasing edges (equal or at least 2^-900 apart, at most 2^1020 large) and `2 <= s <= 2^50`: the result has `(len(e)-1)*s + 1`
edges; the original edges are among them, unchanged, at the positions `0, s, 2s, ...`; the edges do not decrease — no sub-edge leaves its bin — and sub-edge `j` of bin `i`
is within `2^-50 (|e_i| + |e_{i+1}|)` of the exact one. -/
theorem C149_insert (e : List ℚ) (hne : e ≠ []) (hR : ∀ i (hi : i + 1 < e.length), Range (e[i]'(by omega)) e[i + 1])
    (h1F : ∀ v ∈ e, IsF v) (s : Nat) (hs : 2 ≤ s) (h2 : s ≤ 2 ^ 50) :
    ∃ r, insertSubBins (fins e) s = .ok (fins r) ∧ r.length = (e.length - 1) * s + 1 ∧ (∀ v ∈ r, IsF v) ∧ r.Pairwise (· ≤ ·) ∧
      (∀ i (hi : i < e.length), r[i * s]? = some e[i]) ∧
      ∀ i j (hi : i + 1 < e.length), j < s → ∃ v, r[i * s + j]? = some v ∧ e[i]'(by omega) ≤ v ∧ v ≤ e[i + 1] ∧
        |v - (e[i]'(by omega) + j * (e[i + 1] - e[i]'(by omega)) / s)| ≤ 2 ^ (-50 : ℤ) * (|e[i]'(by omega)| + |e[i + 1]|) := by
  have hl : 0 < e.length := List.length_pos_iff.mpr hne
  set z := anyStepZero ((fins e).zip ((fins e).drop 1)) s with hz
  set f : ℚ × ℚ → List ℚ := fun p => (List.range s).map fun j : Nat => subQ z s j p.1 p.2 with hf
  have hfl : ∀ p, (f p).length = s := by intro p; simp [hf]
  have hzl : (e.zip (e.drop 1)).length = e.length - 1 := by simp
  have hfml : ((e.zip (e.drop 1)).flatMap f).length = (e.length - 1) * s := by
    rw [List.length_flatMap]; simp [hfl]
  set r := (e.zip (e.drop 1)).flatMap f ++ [e.getLast hne] with hr
  have hrl : r.length = (e.length - 1) * s + 1 := by rw [hr, List.length_append, hfml]; simp
  have hsub : ∀ i j (hi : i + 1 < e.length), j < s → r[i * s + j]? = some (subQ z s j (e[i]'(by omega)) e[i + 1]) := by
    intro i j hi hj
    have hlt : i * s + j < ((e.zip (e.drop 1)).flatMap f).length := by
      rw [hfml]
      have : (i + 1) * s ≤ (e.length - 1) * s := Nat.mul_le_mul_right _ (by omega)
      nlinarith
    rw [hr, List.getElem?_append_left hlt, Binning.flatMap_block _ s f hfl i j (by rw [hzl]; omega) hj]
    simp [hf, hj, Nat.add_comm]
  have hkeep : ∀ i (hi : i < e.length), r[i * s]? = some e[i] := by
    intro i hi
    by_cases hlast : i + 1 < e.length
    · have := hsub i 0 hlast (by omega)
      rw [Nat.add_zero, subQ_zero (hR i hlast)] at this
      exact this
    · have hi' : i = e.length - 1 := by omega
      subst hi'
      rw [hr, List.getElem?_append_right (by rw [hfml]), hfml, Nat.sub_self, List.getElem?_cons_zero, List.getLast_eq_getElem]
  refine ⟨r, ?_, hrl, ?_, ?_, hkeep, ?_⟩
  · unfold insertSubBins
    rw [if_neg (by omega)]
    have hlast : pyGet (fins e) (-1) = .ok (.fin (e.getLast hne)) := by
      rw [FloatLinear.fins_get, pyGet_last e hne]
    dsimp only
    rw [hlast, ← hz]
    simp only [Except.bind_ok]
    have : ((fins e).zip ((fins e).drop 1)).flatMap (fun p => (List.range s).map fun j : Nat => subEdge z s j p.1 p.2) = ((e.zip (e.drop 1)).flatMap f).map .fin := by
      have ez : (fins e).zip ((fins e).drop 1) = (e.zip (e.drop 1)).map fun p => (Num.fin p.1, Num.fin p.2) := by
        simp only [fins, ← List.map_drop]
        rw [List.zip_map]
        rfl
      rw [ez, List.flatMap_map, List.map_flatMap]
      refine List.flatMap_congr fun p hp => ?_
      obtain ⟨i, hi, rfl⟩ := List.getElem_of_mem hp
      rw [hzl] at hi
      simp only [hf, List.map_map]
      refine List.map_congr_left fun j hj => ?_
      have hg : (e.zip (e.drop 1))[i]'(by rw [hzl]; exact hi) = (e[i]'(by omega), e[i + 1]'(by omega)) := by simp [Nat.add_comm]
      rw [hg]
      exact subEdge_fin (hR i (by omega)) z h2 (List.mem_range.mp hj)
    rw [this, hr]
    simp only [fins, List.map_append, List.map_cons, List.map_nil]
    rfl
  · intro v hv
    rw [hr] at hv
    rcases List.mem_append.mp hv with h | h
    · obtain ⟨p, _, hp⟩ := List.mem_flatMap.mp h
      obtain ⟨j, _, rfl⟩ := List.mem_map.mp hp
      exact subQ_isF z s j _ _
    · rw [List.mem_singleton] at h
      rw [h]
      exact h1F _ (List.getLast_mem hne)
  · rw [← List.isChain_iff_pairwise, List.isChain_iff_getElem]
    intro k hk
    rw [hrl] at hk
    have hdm := Nat.div_add_mod k s
    have hmod := Nat.mod_lt k (show 0 < s by omega)
    set i := k / s with hi
    set j := k % s with hj
    have hie : i + 1 < e.length := by
      by_contra hc
      have : (e.length - 1) * s ≤ i * s := Nat.mul_le_mul_right _ (by omega)
      nlinarith
    have hk' : k = i * s + j := by rw [Nat.mul_comm]; omega
    have g0 := hsub i j hie hmod
    rw [← hk', List.getElem?_eq_getElem (by omega), Option.some.injEq] at g0
    rw [g0]
    by_cases hjs : j + 1 < s
    · have g1 := hsub i (j + 1) hie hjs
      rw [show i * s + (j + 1) = k + 1 by omega, List.getElem?_eq_getElem (by omega), Option.some.injEq] at g1
      rw [g1]
      exact subQ_mono (hR i hie) z (by omega) h2 (Nat.le_succ j)
    · have hks : k + 1 = (i + 1) * s := by rw [Nat.add_mul]; omega
      have g1 := hkeep (i + 1) hie
      rw [← hks, List.getElem?_eq_getElem (by omega), Option.some.injEq] at g1
      rw [g1]
      exact subQ_le (hR i hie) z h2 hmod
  · intro i j hi hj
    refine ⟨_, hsub i j hi hj, ?_, subQ_le (hR i hi) z h2 hj, subQ_close (hR i hi) z h2 hj⟩
    have := subQ_mono (hR i hi) z (s := s) (by omega) h2 (Nat.zero_le j)
    rwa [subQ_zero (hR i hi)] at this

/-- C149: a single sub-bin leaves the edges as they are, whatever they are; no edges are an IndexError for every other number. -/
theorem C149_insert_one (e : List Num) (s : Nat) (hs : s ≠ 1) : insertSubBins e 1 = .ok e ∧ insertSubBins [] s = .error .indexError := by
  refine ⟨rfl, ?_⟩
  unfold insertSubBins
  rw [if_neg hs]
  rfl

/-- C149: why equal or well separated edges are needed: eight sub-bins of a bin of five smallest doubles leave the bin, so that the edges descend (np.histogram then raises
ValueError). -/
theorem C149_insert_subnormal : ∃ r, insertSubBins [.fin 0, .fin (5 * 2 ^ (-1074 : ℤ))] 8 = .ok r ∧ histEdges (.edges r) (.fin 0, .fin 1) = .error .valueError := by
  refine ⟨[.fin 0, .fin (2 ^ (-1074 : ℤ)), .fin (2 * 2 ^ (-1074 : ℤ)), .fin (3 * 2 ^ (-1074 : ℤ)), .fin (4 * 2 ^ (-1074 : ℤ)), .fin (5 * 2 ^ (-1074 : ℤ)),
    .fin (6 * 2 ^ (-1074 : ℤ)), .fin (7 * 2 ^ (-1074 : ℤ)), .fin (5 * 2 ^ (-1074 : ℤ))], ?_, ?_⟩ <;> decide +kernel

/-- C149: the sub-edges of a bin depend on the other bins: repeating the last edge (a bin of width zero) changes the sub-edges of the first bin by a rounding. -/
theorem C149_repeated_edge : ∃ v v' : ℚ, (insertSubBins [.fin 0, .fin 1] 10).map (·[3]?) = .ok (some (.fin v)) ∧
    (insertSubBins [.fin 0, .fin 1, .fin 1] 10).map (·[3]?) = .ok (some (.fin v')) ∧ v' < v ∧ v' = rnd (3 / 10) :=
  ⟨rnd (3 * rnd (1 / 10)), rnd (3 / 10), by decide +kernel⟩

example : insertSubBins [.fin 0, .fin 1, .fin 3] 2 = .ok [.fin 0, .fin (1 / 2), .fin 1, .fin 2, .fin 3] := by decide +kernel


/-! ### Counts -/

/-- Specification: the sample `x` is a number of `[a, b)`, or of `[a, b]` if closed. -/
def In (a b : ℚ) (closed : Prop) (x : Num) : Prop := ∃ v, x = .fin v ∧ a ≤ v ∧ (v < b ∨ closed ∧ v = b)

open Classical in
/-- Specification: how many samples are in the interval. -/
noncomputable def countIn (xs : List Num) (a b : ℚ) (closed : Prop) : ℤ := ((xs.countP fun x => decide (In a b closed x) : Nat) : ℤ)

theorem inBin_iff (e : List ℚ) (i : Nat) (hi : i + 1 < e.length) (x : Num) (hb : ∀ v ∈ e, IsF v) :
    inBin (fins e) i x = true ↔ In (e[i]'(by omega)) e[i + 1] (i + 2 = e.length) x := by
  unfold inBin In
  have g : ∀ k (hk : k < e.length), (fins e).getD k .nan = .fin e[k] := by
    intro k hk
    simp [fins, List.getD_eq_getElem?_getD, List.getElem?_eq_getElem hk]
  rw [g i (by omega), g (i + 1) hi, FloatLinear.fins_length]
  cases x with
  | fin v =>
      simp only [Num.le, Num.lt, Bool.and_eq_true, Bool.or_eq_true, decide_eq_true_eq, Num.fin.injEq]
      constructor
      · rintro ⟨h1, h2⟩; exact ⟨v, rfl, h1, h2⟩
      · rintro ⟨w, rfl, h1, h2⟩; exact ⟨h1, h2⟩
  | inf s => cases s <;> simp [Num.le, Num.lt]
  | nan => simp [Num.le]

theorem histCounts_length (e xs : List Num) : (histCounts e xs).length = e.length - 1 := by simp [histCounts]

theorem histCounts_get (e : List ℚ) (hb : ∀ v ∈ e, IsF v) (xs : List Num) (i : Nat) (hi : i + 1 < e.length) :
    (histCounts (fins e) xs)[i]? = some (countIn xs (e[i]'(by omega)) e[i + 1] (i + 2 = e.length)) := by
  classical
  unfold histCounts countIn
  rw [List.getElem?_map, List.getElem?_range (by rw [FloatLinear.fins_length]; omega), Option.map_some]
  congr 2
  refine List.countP_congr fun x _ => ?_
  rw [inBin_iff e i hi x hb, decide_eq_true_iff]

theorem countIn_split (xs : List Num) {a b c : ℚ} (hab : a ≤ b) (hbc : b ≤ c) (cl : Prop) :
    countIn xs a b False + countIn xs b c cl = countIn xs a c cl := by
  classical
  unfold countIn
  induction xs with
  | nil => simp
  | cons x t ih =>
      rw [List.countP_cons, List.countP_cons, List.countP_cons]
      push_cast
      have step : ((if decide (In a b False x) = true then 1 else 0 : ℤ) + (if decide (In b c cl x) = true then 1 else 0)) =
          (if decide (In a c cl x) = true then 1 else 0) := by
        simp only [decide_eq_true_eq]
        cases x with
        | fin v =>
            have e : ∀ p q : ℚ, ∀ P : Prop, In p q P (.fin v) ↔ p ≤ v ∧ (v < q ∨ P ∧ v = q) := by
              intro p q P
              constructor
              · rintro ⟨w, hw, h⟩; cases hw; exact h
              · intro h; exact ⟨v, rfl, h⟩
            simp only [e, false_and, or_false]
            by_cases h1 : a ≤ v
            · by_cases h2 : v < b
              · rw [if_pos ⟨h1, h2⟩, if_neg (fun h => absurd h.1 (not_le.mpr h2)), if_pos ⟨h1, .inl (lt_of_lt_of_le h2 hbc)⟩]; rfl
              · have h3 : b ≤ v := not_lt.mp h2
                rw [if_neg (fun h => h2 h.2)]
                simp [h1, h3]
            · have h3 : ¬ b ≤ v := fun h => h1 (hab.trans h)
              simp [h1, h3]
        | inf s => simp [In]
        | nan => simp [In]
      linarith

/-- Neighbouring bins add up to one interval. -/
theorem hist_merge (e : List ℚ) (he : e.Pairwise (· ≤ ·)) (hb : ∀ v ∈ e, IsF v) (xs : List Num) (i m : Nat) (hi : i + m + 1 < e.length) :
    (((histCounts (fins e) xs).drop i).take (m + 1)).sum = countIn xs (e[i]'(by omega)) (e[i + m + 1]) (i + m + 2 = e.length) := by
  have hl : (histCounts (fins e) xs).length = e.length - 1 := by rw [histCounts_length, FloatLinear.fins_length]
  induction m with
  | zero =>
      rw [window _ i (0 + 1) (by omega) (by omega)]
      have := histCounts_get e hb xs i (by omega)
      rw [List.getElem?_eq_getElem (by omega), Option.some.injEq] at this
      rw [this]
      simp
  | succ m ih =>
      rw [List.take_succ_eq_append_getElem (i := m + 1) (by simp [hl]; omega), List.sum_append, List.sum_singleton, ih (by omega), List.getElem_drop]
      have hg := histCounts_get e hb xs (i + m + 1) (by omega)
      rw [List.getElem?_eq_getElem (by omega), Option.some.injEq] at hg
      have hg' : (histCounts (fins e) xs)[i + (m + 1)]'(by omega) = countIn xs e[i + m + 1] (e[i + m + 1 + 1]'(by omega)) (i + m + 1 + 2 = e.length) := hg
      rw [hg']
      have hF : (i + m + 2 = e.length) = False := by simp; omega
      rw [hF]
      have e3 : (i + m + 1 + 2 = e.length) = (i + (m + 1) + 2 = e.length) := by apply propext; omega
      rw [e3]
      exact countIn_split xs (pw_le he (by omega) (by omega)) (pw_le he (by omega) (by omega)) _

theorem combine_sum (x : List ℤ) (i m : Nat) (h1 : 1 ≤ m) (hi : i + m ≤ x.length) :
    ((x.drop (i + 1)).take (m - 1)).foldl (· + ·) (x[i]'(by omega)) = ((x.drop i).take m).sum := by
  rw [window x i m h1 hi, List.sum_cons]
  generalize (x.drop (i + 1)).take (m - 1) = t
  generalize (x[i]'(by omega)) = v
  induction t generalizing v with
  | nil => simp
  | cons w t ih => rw [List.foldl_cons, ih, List.sum_cons]; ring

/-- C149: overlapping bins in double precision without weights.  With `e` the edges np.histogram uses (finite and increasing) and `1 <= s < len(e)`: entry `i` of
'h' is exactly the number of samples in `[e_i, e_{i+s})` as compared in double precision — the last interval closed; NaN and infinities are in none — 'x' and 'dx' are the
centres and widths of the same intervals.  For any other `s` the call raises AssertionError. -/
theorem C149_overlap (xs : List Num) (bins : BinSpec Num) (range : Num × Num) (e : List ℚ) (hE : histEdges bins range = .ok (fins e)) (hs : e.Pairwise (· ≤ ·))
    (hb : ∀ v ∈ e, IsF v) (s : Int) :
    (¬ (1 ≤ s ∧ s < e.length) → fromOverlappedBins xs bins s range = .error .assertionError) ∧
    (1 ≤ s → s < e.length → ∃ r, fromOverlappedBins xs bins s range = .ok r ∧ r.subE = fins e ∧ r.x = edgesToCenters (fins e) s.toNat ∧
      r.dx = edgesToWidths (fins e) s.toNat ∧ r.h.length = e.length - s.toNat ∧ r.subH = r.h ∧
      ∀ i (hi : i + s.toNat < e.length), r.h[i]? = some (countIn xs (e[i]'(by omega)) e[i + s.toNat] (i + s.toNat + 1 = e.length))) := by
  have hl : (histCounts (fins e) xs).length = e.length - 1 := by rw [histCounts_length, FloatLinear.fins_length]
  constructor
  · intro h
    unfold fromOverlappedBins
    rw [hE]
    simp only [Except.bind_ok]
    rw [combineBy_err _ _ _ (by rw [hl]; omega)]
    rfl
  · intro h1 h2
    obtain ⟨h, c1, c2, c3⟩ := combineBy_ok (β := ℤ) (· + ·) (histCounts (fins e) xs) s h1 (by rw [hl]; omega)
    refine ⟨⟨edgesToCenters (fins e) s.toNat, edgesToWidths (fins e) s.toNat, h, fins e, h⟩, ?_, rfl, rfl, rfl, ?_, rfl, ?_⟩
    · unfold fromOverlappedBins
      rw [hE]
      simp only [Except.bind_ok]
      rw [c1]
      rfl
    · show h.length = _
      rw [c2, hl]; omega
    · intro i hi
      show h[i]? = _
      rw [c3 i (by rw [hl]; omega), combine_sum _ i s.toNat (by omega) (by rw [hl]; omega)]
      have hm := hist_merge e hs hb xs i (s.toNat - 1) (by omega)
      rw [show s.toNat - 1 + 1 = s.toNat by omega] at hm
      rw [hm]
      have e2 : i + (s.toNat - 1) + 1 = i + s.toNat := by omega
      have e3 : (i + (s.toNat - 1) + 2 = e.length) = (i + s.toNat + 1 = e.length) := by apply propext; omega
      simp only [e2, e3]

/-- C149: the sub-bins of refined edges partition the samples as the bins they refine do: the counts of the `s` sub-bins of bin `i` add up exactly to the count of bin `i` of the
original edges. -/
theorem C149_refine (e : List ℚ) (hne : e ≠ []) (hR : ∀ i (hi : i + 1 < e.length), Range (e[i]'(by omega)) e[i + 1])
    (h1F : ∀ v ∈ e, IsF v) (s : Nat) (hs : 2 ≤ s) (h2 : s ≤ 2 ^ 50) (xs : List Num) :
    ∃ r, insertSubBins (fins e) s = .ok r ∧ ∀ i, i + 1 < e.length →
      (histCounts (fins e) xs)[i]? = some (((histCounts r xs).drop (i * s)).take s).sum := by
  obtain ⟨r, r1, r2, r3, r4, r5, r6⟩ := C149_insert e hne hR h1F s hs h2
  refine ⟨fins r, r1, fun i hi => ?_⟩
  rw [histCounts_get e h1F xs i hi]
  have hle : (i + 1) * s ≤ (e.length - 1) * s := Nat.mul_le_mul_right _ (by omega)
  have hk : i * s + s = (i + 1) * s := by rw [Nat.add_mul]; omega
  have hm := hist_merge r r4 r3 xs (i * s) (s - 1) (by omega)
  rw [show s - 1 + 1 = s by omega] at hm
  rw [hm]
  have a1 := r5 i (by omega)
  have a2 := r5 (i + 1) hi
  rw [List.getElem?_eq_getElem (by omega), Option.some.injEq] at a1 a2
  have e2 : i * s + (s - 1) + 1 = (i + 1) * s := by omega
  have e3 : (i * s + (s - 1) + 2 = r.length) = (i + 2 = e.length) := by
    apply propext
    rw [r2]
    constructor
    · intro h
      have : (i + 1) * s = (e.length - 1) * s := by omega
      have := Nat.eq_of_mul_eq_mul_right (by omega) this
      omega
    · intro h
      have : i + 1 = e.length - 1 := by omega
      rw [← this]; omega
  simp only [e2, e3, a1, a2]

/-- C149: which edges np.histogram uses for a number of bins: for finite `a < b` (at least 2^-900 apart, at most 2^1020 large) `n + 1` increasing edges from exactly `a` to exactly
`b`, each within `2^-50 (|a| + |b|)` of the exact one. -/
theorem C149_equal_bins {a b : ℚ} (h : Range a b) (hab : a < b) (n : Nat) (h1 : 1 ≤ n) (hn : n < 2 ^ 50) :
    ∃ e : List ℚ, histEdges (.num n) (.fin a, .fin b) = .ok (fins e) ∧ e.length = n + 1 ∧ (∀ v ∈ e, IsF v ∧ |v| ≤ 2 ^ 1020) ∧ e.Pairwise (· ≤ ·) ∧
      e[0]? = some a ∧ e[n]? = some b ∧ ∀ i (hi : i < e.length), |e[i] - (a + i * (b - a) / n)| ≤ 2 ^ (-50 : ℤ) * (|a| + |b|) := by
  obtain ⟨q1, q2, q3, q4, q5, q6⟩ := FloatGrid.linQ_facts h (n := n + 1) (by omega) (by omega)
  refine ⟨FloatGrid.linQ a b (n + 1), ?_, q1, ?_, ?_, q2, q3, ?_⟩
  · unfold histEdges
    have hlt : Num.lt (.fin b) (.fin a) = false := by simp [Num.lt]; exact h.le
    have hn1 : ¬ ((n : Int) < 1) := by omega
    have hne : ¬ (Num.fin a = Num.fin b) := fun hc => hab.ne (Num.fin.inj hc)
    simp only [hlt, isFinite, Bool.and_self, Bool.not_true, Bool.or_false, hn1, decide_false, Bool.false_eq_true, if_false, hne, Int.toNat_natCast]
    rw [FloatGrid.linspace_fin h (by omega) (by omega)]
  · intro v hv
    exact ⟨(q4 v hv).1, FloatGrid.in_range_size h (q4 v hv).2.1 (q4 v hv).2.2⟩
  · rw [← List.isChain_iff_pairwise, List.isChain_iff_getElem]
    exact q5
  · intro i hi
    have := q6 i hi
    rwa [show (((n + 1 : Nat) : ℚ) - 1) = n by push_cast; ring] at this

/-- C149: an array of edges is used as it is if it does not descend, otherwise ValueError; a number of bins below one, a range that is not finite or not ordered are
ValueErrors. -/
theorem C149_edges (e : List ℚ) (range : Num × Num) :
    (e.Pairwise (· ≤ ·) → histEdges (.edges (fins e)) range = .ok (fins e)) ∧
    (¬ e.Pairwise (· ≤ ·) → histEdges (.edges (fins e)) range = .error .valueError) ∧
    (∀ n : Int, n < 1 → histEdges (.num n) range = .error .valueError) ∧
    (∀ n : Int, (∀ p, range.1 ≠ .fin p) ∨ (∀ p, range.2 ≠ .fin p) → histEdges (.num n) range = .error .valueError) ∧
    (∀ (n : Int) (p q : ℚ), range = (.fin p, .fin q) → q < p → histEdges (.num n) range = .error .valueError) := by
  have key : noDescent (fins e) = true ↔ e.Pairwise (· ≤ ·) := by
    rw [← List.isChain_iff_pairwise]
    induction e with
    | nil => simp [noDescent, fins]
    | cons a t ih =>
        cases t with
        | nil => simp [noDescent, fins]
        | cons b t =>
            rw [List.isChain_cons_cons, ← ih]
            simp [noDescent, fins, Num.lt]
  refine ⟨fun h => ?_, fun h => ?_, ?_, ?_, ?_⟩
  · simp only [histEdges, key.mpr h, if_true]
  · have : noDescent (fins e) = false := by
      rw [← Bool.not_eq_true, key]; exact h
    simp only [histEdges, this, Bool.false_eq_true, if_false]
  · intro n hn
    simp [histEdges, hn]
  · rintro n (h | h)
    · have : isFinite range.1 = false := by
        cases hx : range.1 with
        | fin p => exact absurd hx (h p)
        | inf _ => rfl
        | nan => rfl
      simp [histEdges, this]
    · have : isFinite range.2 = false := by
        cases hx : range.2 with
        | fin p => exact absurd hx (h p)
        | inf _ => rfl
        | nan => rfl
      simp [histEdges, this]
  · rintro n p q rfl h
    simp [histEdges, Num.lt, h]

example : (fromOverlappedBins [.fin 0, .fin (1 / 2), .fin 1, .nan, .fin (3 / 2), .fin 2, .inf true] (.num 4) 2 (.fin 0, .fin 2)).map (fun r => (r.h, r.x, r.dx)) =
    .ok ([2, 2, 3], [.fin (1 / 2), .fin 1, .fin (3 / 2)], [.fin 1, .fin 1, .fin 1]) := by decide +kernel

example : ∀ i (hi : i + 1 < [(0 : ℚ), 1, 1].length), Range ([(0 : ℚ), 1, 1][i]'(by omega)) [(0 : ℚ), 1, 1][i + 1] := by
  have r11 : Range 1 1 := ⟨FloatGrid.range01.fb, FloatGrid.range01.fb, FloatGrid.range01.hb, FloatGrid.range01.hb, le_rfl, .inl rfl⟩
  intro i hi
  match i, hi with
  | 0, _ => exact FloatGrid.range01
  | 1, _ => exact r11

end Pyhipp.FloatSubBins
