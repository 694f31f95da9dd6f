import Verif.Model.FloatVolume
import Verif.Props.FloatOverlap
/-
C154: binned volume densities in double precision.
-/
namespace Pyhipp.FloatVolume
open Pyhipp F64 FloatLinear
open Pyhipp.Binning (BinSpec)
open Pyhipp.FloatSubBins (histEdges edgesToCenters edgesToWidths In countIn)
open Pyhipp.FloatHistDensity (Within within_rnd_of)
open Pyhipp.FloatOverlap (IsSort FinW weightIn absIn)

/-- One quotient `v / (V * d)` with `d` the rounded width `w`. -/
theorem quotient (v V w d : ℚ) (hV : 0 < V) (hw : 0 < w) (hd : |d - w| ≤ 2 ^ (-53 : ℤ) * w)
    (h1 : 2 ^ (-1021 : ℤ) ≤ V * w) (h2 : V * w ≤ 2 ^ 1022) (h3 : |v| / (V * w) ≤ 2 ^ 1022) :
    ∃ r, Num.div (.fin v) (Num.mul (.fin V) (.fin d)) = .fin r ∧ IsF r ∧ (v = 0 → r = 0) ∧ (0 ≤ v → 0 ≤ r) ∧
      |r - v / (V * w)| ≤ 3 * 2 ^ (-52 : ℤ) * (|v| / (V * w)) + 2 ^ (-1075 : ℤ) := by
  have hP : 0 < V * w := mul_pos hV hw
  have wd : Within d w 1 := within_rnd_of hw.le hd
  have d0 := wd.pos hw
  have wp : Within (V * d) (V * w) 1 := ⟨by rw [mul_assoc]; exact mul_le_mul_of_nonneg_left wd.1 hV.le, by rw [mul_assoc]; exact mul_le_mul_of_nonneg_left wd.2 hV.le⟩
  have p0 := wp.pos hP
  obtain ⟨-, c2, c3⟩ := wp.close hP (by norm_num)
  have hlo : (2 : ℚ) ^ (-1022 : ℤ) ≤ V * d := by
    have : (2 : ℚ) ^ (-1021 : ℤ) = 2 * 2 ^ (-1022 : ℤ) := by rw [show (-1021 : ℤ) = 1 + (-1022) by norm_num, zpow_add₀ (by norm_num)]; norm_num
    rw [this] at h1
    linarith
  have e1023 : (2 : ℚ) ^ 1023 = 2 * 2 ^ 1022 := by rw [pow_succ]; ring
  have hhi : |V * d| ≤ 2 ^ 1023 := by
    rw [abs_of_pos p0, e1023]
    linarith
  rw [FloatStandardize.mul_fin hhi]
  have wr : Within (rnd (V * d)) (V * d) 1 := by
    refine within_rnd_of p0.le ?_
    have := rnd_err (x := V * d) (by rw [abs_of_pos p0]; exact hlo)
    rwa [abs_of_pos p0] at this
  have wt := wr.trans wp
  have r0 := wt.pos hP
  have wi : Within (1 / rnd (V * d)) (1 / (V * w)) (0 + (1 + 1)) := (FloatHistDensity.Within.refl 1).div wt one_pos hP
  obtain ⟨i1, i2, -⟩ := wi.close (one_div_pos.mpr hP) (by norm_num)
  have i0 := wi.pos (one_div_pos.mpr hP)
  generalize rnd (V * d) = p at *
  have q1 : |v / p - v / (V * w)| ≤ 2 * 2 ^ (-52 : ℤ) * (|v| / (V * w)) := by
    have e : v / p - v / (V * w) = v * (1 / p - 1 / (V * w)) := by ring
    rw [e, abs_mul]
    have e' : 2 * 2 ^ (-52 : ℤ) * (|v| / (V * w)) = |v| * (((0 + (1 + 1) : Nat) : ℚ) * 2 ^ (-52 : ℤ) * (1 / (V * w))) := by push_cast; ring
    rw [e']
    exact mul_le_mul_of_nonneg_left i1 (abs_nonneg v)
  have q2 : |v / p| ≤ 2 * (|v| / (V * w)) := by
    have e : v / p = v * (1 / p) := by ring
    rw [e, abs_mul, abs_of_pos i0]
    have e' : 2 * (|v| / (V * w)) = |v| * (2 * (1 / (V * w))) := by ring
    rw [e']
    exact mul_le_mul_of_nonneg_left i2 (abs_nonneg v)
  have hdiv := FloatStandardize.div_fin (x := v) (y := p) r0.ne' (by rw [e1023]; linarith)
  refine ⟨_, hdiv, isF_rnd _, fun h => by simp [h], fun h => ?_, ?_⟩
  · exact le_rnd (div_nonneg h r0.le) (by exact_mod_cast isF_int (m := 0) (by norm_num))
  · have e := FloatMesh.rnd_err_all (v / p)
    have e2 : (2 : ℚ) ^ (-52 : ℤ) = 2 * 2 ^ (-53 : ℤ) := by norm_num
    have hu : (0 : ℚ) < 2 ^ (-53 : ℤ) := pow_pos' _
    rw [e2] at q1 ⊢
    generalize (2 : ℚ) ^ (-53 : ℤ) = u at *
    generalize (2 : ℚ) ^ (-1075 : ℤ) = t at *
    generalize |v| / (V * w) = Q at *
    generalize v / (V * w) = Q' at *
    have := mul_le_mul_of_nonneg_left q2 hu.le
    have t1 := abs_add_le (rnd (v / p) - v / p) (v / p - Q')
    rw [show rnd (v / p) - v / p + (v / p - Q') = rnd (v / p) - Q' by ring] at t1
    linarith

theorem density_get (h : List Num) (e : List ℚ) (s : Nat) (V : Num) (w : List ℚ) (hw : edgesToWidths (fins e) s = fins w) (i : Nat) (a : Num) (d : ℚ)
    (ha : h[i]? = some a) (hd : w[i]? = some d) : (density h (edgesToWidths (fins e) s) V)[i]? = some (Num.div a (Num.mul V (.fin d))) := by
  rw [hw]
  unfold density
  rw [List.getElem?_zipWith_eq_some]
  exact ⟨a, .fin d, ha, by unfold fins; rw [List.getElem?_map, hd]; rfl, rfl⟩

theorem lg_get (log10 : Num → Num) (y : List Num) (pad : Num) (i : Nat) (a : Num) (h : y[i]? = some a) :
    (safeLg log10 y pad)[i]? = some (log10 (if Num.lt a pad then pad else a)) := by
  unfold safeLg FloatNum.boundLo
  rw [List.getElem?_map, h]
  rfl


/-! ### Counts -/

/-- C154: volume densities without weights, in double precision.  With `e` the edges np.histogram uses and a positive volume `V`: 'x', 'dx', 'sub_e' are those of the overlapping
histogram, 'h' the exact numbers of samples in `[e_i, e_{i+s})`; 'y' is within a relative 3 * 2^-52 (and an underflow of 2^-1075) of the number over volume and exact width,
never negative, and zero where there are no samples; in windows of width zero it is NaN (or infinite, if samples equal the last edge); 'lg_y' is log10 of 'y', of the padding where
'y' is smaller. -/
theorem C154_counts (log10 : Num → Num) (xs : List Num) (hn : xs.length ≤ 2 ^ 53) (bins : BinSpec Num) (range : Num × Num) (e : List ℚ)
    (hE : histEdges bins range = .ok (fins e)) (hs : e.Pairwise (· ≤ ·)) (hF : ∀ v ∈ e, IsF v ∧ |v| ≤ 2 ^ 1022) (s : Nat) (h1 : 1 ≤ s) (h2 : s < e.length)
    (V : ℚ) (hV : 0 < V) (pad : Num) :
    ∃ r, hist log10 xs bins s range (.fin V) pad = .ok r ∧ r.x = edgesToCenters (fins e) s ∧ r.dx = edgesToWidths (fins e) s ∧ r.subE = fins e ∧
      r.h.length = e.length - s ∧ r.y.length = e.length - s ∧ r.lgY.length = e.length - s ∧
      ∀ i (hi : i + s < e.length) (w : ℚ) (c : ℤ), w = e[i + s] - e[i]'(by omega) → c = countIn xs (e[i]'(by omega)) e[i + s] (i + s + 1 = e.length) →
        r.h[i]? = some (.fin c) ∧ ∃ y, r.y[i]? = some y ∧ r.lgY[i]? = some (log10 (if Num.lt y pad then pad else y)) ∧
        (w = 0 → y = if c = 0 then .nan else .inf false) ∧
        (2 ^ (-1021 : ℤ) ≤ V * w → V * w ≤ 2 ^ 1022 → c / (V * w) ≤ 2 ^ 1022 → ∃ v, y = .fin v ∧ 0 ≤ v ∧ (c = 0 → v = 0) ∧
          |v - c / (V * w)| ≤ 3 * 2 ^ (-52 : ℤ) * (c / (V * w)) + 2 ^ (-1075 : ℤ)) := by
  obtain ⟨o, o1, o2, o3, o4, o5, o6, o7⟩ := (FloatSubBins.C149_overlap xs bins range e hE hs (fun v hv => (hF v hv).1) s).2 (by omega) (by omega)
  rw [Int.toNat_natCast] at o3 o4 o5
  obtain ⟨w, w1, w2, w3⟩ := FloatSubBins.C149_widths e hF hs s
  have hlen : (edgesToWidths (fins e) s).length = e.length - s := by rw [w1, fins_length, w2]
  refine ⟨⟨o.x, o.dx, o.subE, o.h.map fun z : ℤ => ofQ (z : ℚ), density (o.h.map fun z : ℤ => ofQ (z : ℚ)) o.dx (.fin V),
    safeLg log10 (density (o.h.map fun z : ℤ => ofQ (z : ℚ)) o.dx (.fin V)) pad⟩, ?_, o3, o4, o2, ?_, ?_, ?_, ?_⟩
  · unfold hist
    rw [o1]
    rfl
  · simp [o5]
  · simp [density, o4, hlen, o5]
  · simp [safeLg, density, o4, hlen, o5]
  intro i hi wd c hwd hc
  have hci := o7 i (by simpa using hi)
  have hcc : (countIn xs (e[i]'(by omega)) e[i + s] (i + s + 1 = e.length)) = c := hc.symm
  have hci' : o.h[i]? = some c := by rw [hci]; exact congrArg some hcc
  have hc0 : 0 ≤ c := by rw [hc]; unfold countIn; exact Int.natCast_nonneg _
  have hcn : c ≤ 2 ^ 53 := by
    rw [hc]; unfold countIn
    have := List.countP_le_length (l := xs) (p := fun x => @decide (In (e[i]'(by omega)) e[i + s] (i + s + 1 = e.length) x) (Classical.propDecidable _))
    exact_mod_cast le_trans this hn
  have hdbl : ofQ (c : ℚ) = .fin c := by
    obtain ⟨n, rfl⟩ := Int.eq_ofNat_of_zero_le hc0
    have := FloatReduce.nat_double (n := n) (by exact_mod_cast hcn)
    exact_mod_cast this
  have hh : (o.h.map fun z : ℤ => ofQ (z : ℚ))[i]? = some (.fin c) := by rw [List.getElem?_map, hci', Option.map_some, hdbl]
  obtain ⟨d, d1, -, d3, d4, d5⟩ := w3 i hi
  have hy := density_get (o.h.map fun z : ℤ => ofQ (z : ℚ)) e s (.fin V) w w1 i (.fin c) d hh d1
  rw [← o4] at hy
  refine ⟨hh, _, hy, lg_get log10 _ pad i _ hy, fun h0 => ?_, fun g1 g2 g3 => ?_⟩
  · have : d = 0 := d4.mpr (by rw [h0] at hwd; linarith)
    rw [this]
    have e1 : Num.mul (.fin V) (.fin 0) = .fin 0 := by
      rw [FloatStandardize.mul_fin (by simp)]; simp
    rw [e1]
    show (if (0 : ℚ) = 0 then (if (c : ℚ) = 0 then Num.nan else .inf (decide ((c : ℚ) < 0))) else ofQ ((c : ℚ) / 0)) = _
    rw [if_pos rfl]
    by_cases hz : c = 0
    · simp [hz]
    · have : ¬ ((c : ℚ) < 0) := by rw [not_lt]; exact_mod_cast hc0
      rw [if_neg (by exact_mod_cast hz), if_neg hz, decide_eq_false this]
  · have hw0 : 0 < wd := by
      have : 0 < V * wd := lt_of_lt_of_le (pow_pos' _) g1
      exact (mul_pos_iff_of_pos_left hV).mp this
    have habs : |(c : ℚ)| = c := abs_of_nonneg (by exact_mod_cast hc0)
    rw [← hwd] at d5
    obtain ⟨r, r1, -, r2, r3, r4⟩ := quotient c V wd d hV hw0 d5 g1 g2 (by rw [habs]; exact g3)
    rw [habs] at r4
    exact ⟨r, r1, r3 (by exact_mod_cast hc0), fun hz => r2 (by exact_mod_cast hz), r4⟩

/-! ### Weights -/

/-- C154: volume densities with weights follow from the overlapping histogram (C153): 'y' is h / (V w) within a relative 3 * 2^-52 and an underflow of 2^-1075, zero where
'h' is, and NaN where 'h' is. -/
theorem C154_weights (sort : List (Num × Num) → List (Num × Num)) (log10 : Num → Num) (xs ws : List Num) (bins : BinSpec Num) (range : Num × Num) (e : List ℚ)
    (hs : e.Pairwise (· ≤ ·)) (hF : ∀ v ∈ e, IsF v ∧ |v| ≤ 2 ^ 1022) (s : Nat) (V : ℚ) (hV : 0 < V) (pad : Num) (o : FloatOverlap.OverlapHist)
    (ho : FloatOverlap.fromOverlappedBins sort xs ws bins s range = .ok o) (hd : o.dx = edgesToWidths (fins e) s) :
    ∃ r, histW sort log10 xs ws bins s range (.fin V) pad = .ok r ∧ r.x = o.x ∧ r.dx = o.dx ∧ r.subE = o.subE ∧ r.h = o.h ∧
      ∀ i (hi : i + s < e.length) (w : ℚ) (h : Num), w = e[i + s] - e[i]'(by omega) → o.h[i]? = some h →
        ∃ y, r.y[i]? = some y ∧ r.lgY[i]? = some (log10 (if Num.lt y pad then pad else y)) ∧ (h = .nan → y = .nan) ∧
        ∀ v, h = .fin v → 2 ^ (-1021 : ℤ) ≤ V * w → V * w ≤ 2 ^ 1022 → |v| / (V * w) ≤ 2 ^ 1022 →
          ∃ q, y = .fin q ∧ (v = 0 → q = 0) ∧ (0 ≤ v → 0 ≤ q) ∧ |q - v / (V * w)| ≤ 3 * 2 ^ (-52 : ℤ) * (|v| / (V * w)) + 2 ^ (-1075 : ℤ) := by
  obtain ⟨w, w1, w2, w3⟩ := FloatSubBins.C149_widths e hF hs s
  refine ⟨⟨o.x, o.dx, o.subE, o.h, density o.h o.dx (.fin V), safeLg log10 (density o.h o.dx (.fin V)) pad⟩, ?_, rfl, rfl, rfl, rfl, ?_⟩
  · unfold histW
    rw [ho]
    rfl
  intro i hi wd h hwd hh
  obtain ⟨d, d1, -, d3, d4, d5⟩ := w3 i hi
  have hy := density_get o.h e s (.fin V) w w1 i h d hh d1
  rw [← hd] at hy
  refine ⟨_, hy, lg_get log10 _ pad i _ hy, fun hn => by rw [hn]; rfl, fun v hv g1 g2 g3 => ?_⟩
  have hw0 : 0 < wd := by
    have : 0 < V * wd := lt_of_lt_of_le (pow_pos' _) g1
    exact (mul_pos_iff_of_pos_left hV).mp this
  rw [← hwd] at d5
  obtain ⟨r, r1, -, r2, r3, r4⟩ := quotient v V wd d hV hw0 d5 g1 g2 g3
  rw [hv]
  exact ⟨r, r1, r2, r3, r4⟩

/-- C154: the weighted volume density for a number of bins is the weight in the window over volume and width, with error at most
((1+2^-53)^(N + N/65536 + s) (1 + 3 * 2^-52) - 1) times the absolute weights over volume and width, and an underflow of 2^-1075. -/
theorem C154_weighted_density (sort : List (Num × Num) → List (Num × Num)) (log10 : Num → Num) (x w : List Num) (hw : w.length = x.length) (nb : Int) (range : Num × Num)
    (e : List ℚ) (hE : histEdges (.num nb) range = .ok (fins e)) (hs : e.Pairwise (· ≤ ·)) (hF : ∀ v ∈ e, IsF v ∧ |v| ≤ 2 ^ 1022) (s : Nat) (h1 : 1 ≤ s)
    (h2 : s < e.length) (V : ℚ) (hV : 0 < V) (pad : Num) :
    ∃ r, histW sort log10 x w (.num nb) s range (.fin V) pad = .ok r ∧ ∀ i (hi : i + s < e.length) (d W A G : ℚ), d = e[i + s] - e[i]'(by omega) →
      W = weightIn (x.zip w) (e[i]'(by omega)) e[i + s] (i + s + 1 = e.length) → A = absIn (x.zip w) (e[i]'(by omega)) e[i + s] (i + s + 1 = e.length) →
      G = (1 + 2 ^ (-53 : ℤ)) ^ (x.length + x.length / 65536 + s) →
      (∀ p ∈ x.zip w, In (e[i]'(by omega)) e[i + s] (i + s + 1 = e.length) p.1 → FinW p.2) → G * A ≤ 2 ^ 1023 →
      2 ^ (-1021 : ℤ) ≤ V * d → V * d ≤ 2 ^ 1022 → G * A / (V * d) ≤ 2 ^ 1022 →
      ∃ y, r.y[i]? = some (.fin y) ∧ (A = 0 → y = 0) ∧ |y - W / (V * d)| ≤ (G * (1 + 3 * 2 ^ (-52 : ℤ)) - 1) * (A / (V * d)) + 2 ^ (-1075 : ℤ) := by
  obtain ⟨o, o1, -, -, o4, -, -, o7⟩ := FloatOverlap.C153_equal_bins sort x w hw nb range e hE hs (fun v hv => (hF v hv).1) s h1 h2
  obtain ⟨r, r1, -, -, -, -, r5⟩ := C154_weights sort log10 x w (.num nb) range e hs hF s V hV pad o o1 o4
  refine ⟨r, r1, fun i hi d W A G hd hW hA hG hf hb g1 g2 g3 => ?_⟩
  obtain ⟨v, v1, v2⟩ := o7 i hi hf (by rw [← hA, ← hG]; exact hb)
  rw [← hW, ← hA, ← hG] at v2
  have hP : 0 < V * d := lt_of_lt_of_le (pow_pos' _) g1
  have hWA : |W| ≤ A := by
    rw [hW, hA]
    unfold weightIn absIn
    generalize List.filter _ _ = l
    induction l with
    | nil => simp
    | cons p l ih =>
        simp only [List.map_cons, List.sum_cons]
        exact le_trans (abs_add_le _ _) (by linarith)
  have hvA : |v| ≤ G * A := by
    have := abs_add_le (v - W) W
    rw [sub_add_cancel] at this
    linarith
  obtain ⟨y, y1, -, -, y4⟩ := r5 i hi d (.fin v) hd v1
  obtain ⟨q, q1, q2, -, q4⟩ := y4 v rfl g1 g2 (le_trans (div_le_div_of_nonneg_right hvA hP.le) g3)
  refine ⟨q, by rw [y1, q1], fun h0 => q2 ?_, ?_⟩
  · rw [h0, mul_zero] at hvA
    exact abs_eq_zero.mp (le_antisymm hvA (abs_nonneg v))
  have hc : (0 : ℚ) < 3 * 2 ^ (-52 : ℤ) := mul_pos (by norm_num) (pow_pos' _)
  have k1 : |v| / (V * d) ≤ G * (A / (V * d)) := by rw [← mul_div_assoc]; exact div_le_div_of_nonneg_right hvA hP.le
  have k2 : |v / (V * d) - W / (V * d)| ≤ (G - 1) * (A / (V * d)) := by
    rw [← sub_div, abs_div, abs_of_pos hP, ← mul_div_assoc]
    exact div_le_div_of_nonneg_right v2 hP.le
  have t1 := abs_add_le (q - v / (V * d)) (v / (V * d) - W / (V * d))
  rw [sub_add_sub_cancel] at t1
  have k3 := mul_le_mul_of_nonneg_left k1 hc.le
  generalize (3 : ℚ) * 2 ^ (-52 : ℤ) = u at *
  generalize (2 : ℚ) ^ (-1075 : ℤ) = t at *
  have e1 : (G * (1 + u) - 1) * (A / (V * d)) = (G - 1) * (A / (V * d)) + u * (G * (A / (V * d))) := by ring
  rw [e1]
  linarith


/-! ### The total -/

theorem sum_err (n : Nat) (y w c : Nat → ℚ) (V η t : ℚ) (hV : 0 < V) (hw : ∀ i < n, 0 < w i) (h : ∀ i < n, |y i - c i / (V * w i)| ≤ η * (c i / (V * w i)) + t) :
    |((List.range n).map fun i => y i * (V * w i)).sum - ((List.range n).map c).sum| ≤ η * ((List.range n).map c).sum + t * (V * ((List.range n).map w).sum) := by
  induction n with
  | zero => simp
  | succ n ih =>
      have ih' := ih (fun i hi => hw i (by omega)) (fun i hi => h i (by omega))
      have hn := h n (by omega)
      have hP : 0 < V * w n := mul_pos hV (hw n (by omega))
      simp only [List.range_succ, List.map_append, List.sum_append, List.map_cons, List.map_nil, List.sum_cons, List.sum_nil, add_zero]
      generalize ((List.range n).map fun i => y i * (V * w i)).sum = S1 at *
      generalize ((List.range n).map c).sum = S2 at *
      generalize ((List.range n).map w).sum = S3 at *
      have k : |y n * (V * w n) - c n| ≤ η * c n + t * (V * w n) := by
        have e : y n * (V * w n) - c n = (y n - c n / (V * w n)) * (V * w n) := by rw [sub_mul, div_mul_cancel₀ _ hP.ne']
        rw [e, abs_mul, abs_of_pos hP]
        have := mul_le_mul_of_nonneg_right hn hP.le
        rwa [add_mul, mul_assoc, div_mul_cancel₀ _ hP.ne'] at this
      have e : S1 + y n * (V * w n) - (S2 + c n) = (S1 - S2) + (y n * (V * w n) - c n) := by ring
      rw [e]
      have t1 := abs_add_le (S1 - S2) (y n * (V * w n) - c n)
      have e2 : η * (S2 + c n) + t * (V * (S3 + w n)) = (η * S2 + t * (V * S3)) + (η * c n + t * (V * w n)) := by ring
      rw [e2]
      linarith

theorem width_sum (e : List ℚ) (n : Nat) (hn : n < e.length) : ((List.range n).map fun i => e.getD (i + 1) 0 - e.getD i 0).sum = e.getD n 0 - e.getD 0 0 := by
  induction n with
  | zero => simp
  | succ n ih =>
      rw [List.range_succ, List.map_append, List.sum_append, ih (by omega)]
      simp

/-- C154: for windows of one bin the densities times volume and width add up to the number of samples from the first to the last edge, within a relative 3 * 2^-52 (and the underflow
of every bin). -/
theorem C154_total (log10 : Num → Num) (xs : List Num) (hn : xs.length ≤ 2 ^ 53) (bins : BinSpec Num) (range : Num × Num) (e : List ℚ)
    (hE : histEdges bins range = .ok (fins e)) (hs : e.Pairwise (· < ·)) (hF : ∀ v ∈ e, IsF v ∧ |v| ≤ 2 ^ 1022) (h2 : 2 ≤ e.length)
    (V : ℚ) (hV : 0 < V) (pad : Num)
    (hr : ∀ i (hi : i + 1 < e.length), 2 ^ (-1021 : ℤ) ≤ V * (e[i + 1] - e[i]'(by omega)) ∧ V * (e[i + 1] - e[i]'(by omega)) ≤ 2 ^ 1022 ∧
      xs.length / (V * (e[i + 1] - e[i]'(by omega))) ≤ 2 ^ 1022) :
    ∃ r, ∃ y : List ℚ, hist log10 xs bins 1 range (.fin V) pad = .ok r ∧ r.y = fins y ∧ y.length = e.length - 1 ∧ (∀ v ∈ y, 0 ≤ v) ∧
      ∀ N : ℤ, N = countIn xs (e[0]'(by omega)) (e[e.length - 1]'(by omega)) True →
        |((List.range (e.length - 1)).map fun i => y.getD i 0 * (V * (e.getD (i + 1) 0 - e.getD i 0))).sum - N| ≤
          3 * 2 ^ (-52 : ℤ) * N + 2 ^ (-1075 : ℤ) * (V * (e[e.length - 1]'(by omega) - e[0]'(by omega))) := by
  have hle : e.Pairwise (· ≤ ·) := hs.imp le_of_lt
  obtain ⟨r, r1, -, -, -, -, r3, -, r4⟩ := C154_counts log10 xs hn bins range e hE hle hF 1 le_rfl (by omega) V hV pad
  have key : ∀ i (hi : i + 1 < e.length), ∃ v, r.y[i]? = some (.fin v) ∧ 0 ≤ v ∧
      |v - (countIn xs (e[i]'(by omega)) e[i + 1] (i + 1 + 1 = e.length) : ℚ) / (V * (e[i + 1] - e[i]'(by omega)))| ≤
        3 * 2 ^ (-52 : ℤ) * ((countIn xs (e[i]'(by omega)) e[i + 1] (i + 1 + 1 = e.length) : ℚ) / (V * (e[i + 1] - e[i]'(by omega)))) + 2 ^ (-1075 : ℤ) := by
    intro i hi
    obtain ⟨g1, g2, g3⟩ := hr i hi
    obtain ⟨-, y, y1, -, -, y4⟩ := r4 i hi _ _ rfl rfl
    have hcl : ((countIn xs (e[i]'(by omega)) e[i + 1] (i + 1 + 1 = e.length) : ℤ) : ℚ) ≤ xs.length := by
      unfold countIn
      have := List.countP_le_length (l := xs) (p := fun x => @decide (In (e[i]'(by omega)) e[i + 1] (i + 1 + 1 = e.length) x) (Classical.propDecidable _))
      exact_mod_cast this
    have hP : 0 < V * (e[i + 1] - e[i]'(by omega)) := lt_of_lt_of_le (pow_pos' _) g1
    obtain ⟨v, v1, v2, -, v3⟩ := y4 g1 g2 (le_trans (div_le_div_of_nonneg_right hcl hP.le) g3)
    exact ⟨v, by rw [y1, v1], v2, v3⟩
  refine ⟨r, (List.range (e.length - 1)).map fun i => FloatHistDensity.toQ (r.y.getD i .nan), r1, ?_, by simp, ?_, ?_⟩
  · refine List.ext_getElem? fun i => ?_
    by_cases hi : i + 1 < e.length
    · obtain ⟨v, v1, -⟩ := key i hi
      rw [v1]
      unfold fins
      rw [List.getElem?_map, List.getElem?_map, List.getElem?_range (by omega), Option.map_some, Option.map_some, List.getD_eq_getElem?_getD, v1]
      rfl
    · rw [List.getElem?_eq_none (by omega), List.getElem?_eq_none (by rw [fins_length]; simp; omega)]
  · intro v hv
    obtain ⟨i, hi, rfl⟩ := List.mem_map.mp hv
    rw [List.mem_range] at hi
    obtain ⟨v, v1, v2, -⟩ := key i (by omega)
    rw [List.getD_eq_getElem?_getD, v1]
    exact v2
  · intro N hN
    have hsum : (((List.range (e.length - 1)).map fun i => ((FloatSubBins.histCounts (fins e) xs).getD i 0 : ℚ))).sum = N := by
      have hm := FloatSubBins.hist_merge e hle (fun v hv => (hF v hv).1) xs 0 (e.length - 2) (by omega)
      have hl : (FloatSubBins.histCounts (fins e) xs).length = e.length - 1 := by rw [FloatSubBins.histCounts_length, fins_length]
      rw [List.drop_zero, List.take_of_length_le (by omega)] at hm
      have e1 : (0 + (e.length - 2) + 2 = e.length) = True := by simp; omega
      have e2 : 0 + (e.length - 2) + 1 = e.length - 1 := by omega
      simp only [e1, e2] at hm
      rw [← hN] at hm
      rw [← hm]
      conv_rhs => rw [show FloatSubBins.histCounts (fins e) xs = (List.range (e.length - 1)).map fun i => (FloatSubBins.histCounts (fins e) xs).getD i 0 from
        List.ext_getElem? fun i => by
          by_cases hi : i < e.length - 1
          · rw [List.getElem?_map, List.getElem?_range hi, Option.map_some, List.getD_eq_getElem?_getD, List.getElem?_eq_getElem (by omega)]; rfl
          · rw [List.getElem?_eq_none (by omega), List.getElem?_eq_none (by simp; omega)]]
      rw [Int.cast_list_sum, List.map_map]
      rfl
    have := sum_err (e.length - 1) (fun i => ((List.range (e.length - 1)).map fun i => FloatHistDensity.toQ (r.y.getD i .nan)).getD i 0)
      (fun i => e.getD (i + 1) 0 - e.getD i 0) (fun i => ((FloatSubBins.histCounts (fins e) xs).getD i 0 : ℚ)) V (3 * 2 ^ (-52 : ℤ)) (2 ^ (-1075 : ℤ)) hV (by
        intro i hi
        have hi' : i + 1 < e.length := by omega
        rw [List.getD_eq_getElem?_getD, List.getD_eq_getElem?_getD, List.getElem?_eq_getElem hi', List.getElem?_eq_getElem (by omega)]
        have := List.pairwise_iff_getElem.mp hs i (i + 1) (by omega) hi' (by omega)
        simp only [Option.getD_some]
        linarith) (by
        intro i hi
        have hi' : i + 1 < e.length := by omega
        obtain ⟨v, v1, -, v3⟩ := key i hi'
        have g1 : e.getD (i + 1) 0 = e[i + 1] := by rw [List.getD_eq_getElem?_getD, List.getElem?_eq_getElem hi']; rfl
        have g2 : e.getD i 0 = e[i]'(by omega) := by rw [List.getD_eq_getElem?_getD, List.getElem?_eq_getElem (by omega)]; rfl
        have g3 : (FloatSubBins.histCounts (fins e) xs).getD i 0 = countIn xs (e[i]'(by omega)) e[i + 1] (i + 1 + 1 = e.length) := by
          rw [List.getD_eq_getElem?_getD, FloatSubBins.histCounts_get e (fun v hv => (hF v hv).1) xs i hi']; rfl
        have g4 : ((List.range (e.length - 1)).map fun i => FloatHistDensity.toQ (r.y.getD i .nan)).getD i 0 = v := by
          rw [List.getD_eq_getElem?_getD, List.getElem?_map, List.getElem?_range (by omega), Option.map_some, Option.getD_some, List.getD_eq_getElem?_getD, v1]
          rfl
        simp only [g1, g2, g3, g4]
        exact v3)
    rw [hsum, width_sum e (e.length - 1) (by omega)] at this
    have f1 : e.getD (e.length - 1) 0 = e[e.length - 1]'(by omega) := by rw [List.getD_eq_getElem?_getD, List.getElem?_eq_getElem (by omega)]; rfl
    have f2 : e.getD 0 0 = e[0]'(by omega) := by rw [List.getD_eq_getElem?_getD, List.getElem?_eq_getElem (by omega)]; rfl
    rw [f1, f2] at this
    exact this

/-- A case of the hypotheses: three samples in two bins of different width, volume 2. -/
example : ∃ r, hist id [.fin 0, .fin 1, .fin 2, .nan, .fin 9] (.edges (fins [0, 1, 3])) 1 (.fin 0, .fin 1) (.fin 2) (.fin (1 / 1024)) = .ok r ∧
    r.h = [.fin 1, .fin 2] ∧ r.y = [.fin (1 / 2), .fin (1 / 2)] ∧ r.lgY = [.fin (1 / 2), .fin (1 / 2)] := by
  refine ⟨⟨[.fin (1 / 2), .fin 2], [.fin 1, .fin 2], fins [0, 1, 3], [.fin 1, .fin 2], [.fin (1 / 2), .fin (1 / 2)], [.fin (1 / 2), .fin (1 / 2)]⟩, ?_, rfl, rfl, rfl⟩
  decide +kernel

example : histEdges (.edges (fins [0, 1, 3])) (.fin 0, .fin 1) = .ok (fins [0, 1, 3]) ∧ ([0, 1, 3] : List ℚ).Pairwise (· < ·) ∧
    (2 : ℚ) ^ (-1021 : ℤ) ≤ 2 * (3 - 1) ∧ (2 : ℚ) * (3 - 1) ≤ 2 ^ 1022 ∧ (5 : ℚ) / (2 * (3 - 1)) ≤ 2 ^ 1022 := by decide +kernel

end Pyhipp.FloatVolume
