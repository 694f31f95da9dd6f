import Verif.Model.FloatHistDensity
import Verif.Props.HistDensity
import Verif.Props.FloatSubBins
import Verif.Props.FloatReduce
import Verif.Props.FloatHist
/-
C151: the histogram density estimate in double precision.
-/
namespace Pyhipp.FloatHistDensity
open Pyhipp F64 FloatLinear FloatReduce FloatHist Regression

/-! ### Cells -/

/-- Specification: the coordinates of a point as numbers, if all are finite. -/
def finPt : List Num → Option (List ℚ)
  | [] => some []
  | .fin v :: r => (finPt r).map (v :: ·)
  | _ :: _ => none

/-- Specification: the data points without infinities and NaN. -/
def finPts (x : List (List Num)) : List (List ℚ) := x.filterMap finPt

/-- Specification: the same with their weights. -/
def finWts (x : List (List Num)) (w : List ℚ) : List (List ℚ × ℚ) := (x.zip w).filterMap (fun p => (finPt p.1).map (fun q => (q, p.2)))

theorem slot_iff (e : List ℚ) (hs : e.Pairwise (· ≤ ·)) (x : Num) (i : Nat) (hi : i + 1 < e.length) :
    slot (fins e) x = i + 1 ↔ ∃ v, x = .fin v ∧ Binning.inBin e i v = true := by
  have hl : (fins e).length = e.length := fins_length e
  have hget : ∀ j (hj : j < e.length), (fins e)[j]'(by rw [hl]; exact hj) = .fin e[j] := by intro j hj; simp [fins]
  have hlast : (fins e).getLastD .nan = .fin (e[e.length - 1]'(by omega)) := by
    rw [List.getLastD_eq_getLast?, List.getLast?_eq_getElem?, hl, List.getElem?_eq_getElem (by rw [hl]; omega), Option.getD_some,
      hget _ (by omega)]
  unfold slot
  rw [hlast]
  cases x with
  | nan =>
      rw [if_neg (by simp), FloatGrid.all_nan, hl]
      constructor
      · intro h; omega
      · rintro ⟨v, hv, -⟩; cases hv
  | inf s =>
      rw [if_neg (by simp)]
      constructor
      · intro h
        exfalso
        have ht := FloatGrid.take_spec (FloatGrid.notAfter (.inf s)) (fins e) (by
          intro j hj hc
          rw [hl] at hj
          rw [hget j (by omega)]
          rw [hget (j + 1) hj] at hc
          cases s <;> simp_all [FloatGrid.notAfter, Num.le])
        have t1 := ht i (by rw [hl]; omega)
        have t2 := ht (i + 1) (by rw [hl]; omega)
        rw [hget i (by omega)] at t1
        rw [hget (i + 1) hi] at t2
        cases s <;> simp_all [FloatGrid.notAfter, Num.le]
      · rintro ⟨v, hv, -⟩; cases hv
  | fin v =>
      have ht := FloatGrid.take_spec (FloatGrid.notAfter (.fin v)) (fins e) (by
        intro j hj hc
        rw [hl] at hj
        rw [hget j (by omega)]
        rw [hget (j + 1) hj] at hc
        simp only [FloatGrid.notAfter, Num.le, Bool.or_eq_true, decide_eq_true_eq] at hc ⊢
        rcases hc with hc | hc
        · exact absurd hc (by simp)
        · exact Or.inr (le_trans (pw_le hs (by omega) hj) hc))
      have ht' : ∀ j (hj : j < e.length), j < ((fins e).takeWhile (FloatGrid.notAfter (.fin v))).length ↔ e[j] ≤ v := by
        intro j hj
        rw [ht j (by rw [hl]; exact hj), hget j hj]
        simp [FloatGrid.notAfter, Num.le]
      have hk : ((fins e).takeWhile (FloatGrid.notAfter (.fin v))).length ≤ e.length := by
        have := (List.takeWhile_sublist (l := fins e) (FloatGrid.notAfter (.fin v))).length_le
        omega
      generalize ((fins e).takeWhile (FloatGrid.notAfter (.fin v))).length = k at ht' hk ⊢
      have t0 := ht' i (by omega)
      have t1 := ht' (i + 1) hi
      have tl := ht' (e.length - 1) (by omega)
      simp only [ne_eq, reduceCtorEq, not_false_eq_true, true_and, Num.fin.injEq]
      have hex : (∃ w, (v = w ∧ Binning.inBin e i w = true)) ↔ Binning.inBin e i v = true :=
        ⟨fun ⟨w, h1, h2⟩ => h1 ▸ h2, fun h => ⟨v, rfl, h⟩⟩
      rw [hex]
      simp only [Binning.inBin, Bool.and_eq_true, Bool.or_eq_true, decide_eq_true_eq]
      rw [getD_lt _ _ _ (by omega), getD_lt _ _ _ hi]
      have t1' : v < e[i + 1] ↔ ¬ i + 1 < k := by rw [← not_le, t1]
      rw [t1', ← t0]
      split
      · rename_i hv
        have hkl : e.length - 1 < k := tl.mpr hv.ge
        constructor
        · intro h
          have e2 : i + 2 = e.length := by omega
          refine ⟨by omega, Or.inr ⟨e2, ?_⟩⟩
          rw [hv]
          congr 1
          omega
        · rintro ⟨h1, h2 | ⟨h2, -⟩⟩ <;> omega
      · rename_i hv
        constructor
        · intro h; exact ⟨by omega, Or.inl (by omega)⟩
        · rintro ⟨h1, h2 | ⟨h2, h3⟩⟩
          · omega
          · exfalso; apply hv; rw [h3]; congr 1; omega

/-- A point is counted in the cell exactly if its coordinates are numbers in the cell's intervals. -/
theorem inCell_fin (grids : List (List ℚ)) (hs : ∀ g ∈ grids, g.Pairwise (· ≤ ·)) (I : List Nat)
    (hI : List.Forall₂ (fun i n => i < n) I (histShape grids)) (r : List Num) (hr : r.length = grids.length) :
    inCell (grids.map fins) I r = ((finPt r).map (Regression.inCell grids I)).getD false := by
  induction grids generalizing I r with
  | nil =>
      cases r with
      | nil => simp [inCell, finPt, Regression.inCell]
      | cons a r => simp at hr
  | cons g gs ih =>
      cases I with
      | nil => simp [histShape] at hI
      | cons i I =>
          cases r with
          | nil => simp at hr
          | cons a r =>
              simp only [histShape, List.map_cons, List.forall₂_cons] at hI
              have ih' := ih (fun g' h' => hs g' (by simp [h'])) I hI.2 r (by simpa using hr)
              have hstep : inCell ((g :: gs).map fins) (i :: I) (a :: r)
                  = (decide (slot (fins g) a = i + 1) && inCell (gs.map fins) I r) := by simp [inCell]
              have hsl := slot_iff g (hs g (by simp)) a i (by omega)
              rw [hstep, ih']
              cases a with
              | fin v =>
                  have : decide (slot (fins g) (.fin v) = i + 1) = Binning.inBin g i v := by
                    rw [Bool.eq_iff_iff, decide_eq_true_eq, hsl]
                    exact ⟨fun ⟨w, h1, h2⟩ => by cases h1; exact h2, fun h => ⟨v, rfl, h⟩⟩
                  rw [this]
                  cases hp : finPt r with
                  | none => simp [finPt, hp]
                  | some p => simp [finPt, hp, inCell_cons]
              | inf s =>
                  have : decide (slot (fins g) (.inf s) = i + 1) = false := by
                    rw [decide_eq_false_iff_not, hsl]; rintro ⟨v, hv, -⟩; cases hv
                  simp [this, finPt]
              | nan =>
                  have : decide (slot (fins g) .nan = i + 1) = false := by
                    rw [decide_eq_false_iff_not, hsl]; rintro ⟨v, hv, -⟩; cases hv
                  simp [this, finPt]

/-- Exact number of data points in a cell (as a rational). -/
def cnt (grids : List (List ℚ)) (x : List (List Num)) (I : List Nat) : ℚ :=
  cellCount grids ((finPts x).map (fun p => (p, 1))) I

theorem countP_fin (grids : List (List ℚ)) (hs : ∀ g ∈ grids, g.Pairwise (· ≤ ·)) (I : List Nat)
    (hI : List.Forall₂ (fun i n => i < n) I (histShape grids)) (x : List (List Num)) (hx : ∀ r ∈ x, r.length = grids.length) :
    ((x.countP (inCell (grids.map fins) I) : Nat) : ℚ) = cnt grids x I := by
  unfold cnt finPts
  induction x with
  | nil => simp [cellCount]
  | cons r t ih =>
      have ih' := ih (fun r hr => hx r (by simp [hr]))
      have h1 := inCell_fin grids hs I hI r (hx r (by simp))
      rw [List.countP_cons, h1]
      cases hp : finPt r with
      | none => simpa [hp] using ih'
      | some p =>
          simp only [List.filterMap_cons, hp, List.map_cons]
          unfold cellCount at ih' ⊢
          by_cases hc : Regression.inCell grids I p = true
          · simp [List.filter_cons, hc, ← ih']; ring
          · simp [List.filter_cons, hc, ← ih']

/-- Left-to-right sum of the weights in a cell. -/
theorem weights_fin (grids : List (List ℚ)) (hs : ∀ g ∈ grids, g.Pairwise (· ≤ ·)) (I : List Nat)
    (hI : List.Forall₂ (fun i n => i < n) I (histShape grids)) (x : List (List Num)) (w : List ℚ)
    (hx : ∀ r ∈ x, r.length = grids.length) :
    ((x.zip (fins w)).filter (fun p => inCell (grids.map fins) I p.1)).map (fun p => p.2)
      = fins (((finWts x w).filter (fun p => Regression.inCell grids I p.1)).map (fun p => p.2)) := by
  unfold finWts
  induction x generalizing w with
  | nil => simp [fins]
  | cons r t ih =>
      cases w with
      | nil => simp [fins]
      | cons b w =>
          have ih' := ih w (fun r hr => hx r (by simp [hr]))
          have h1 := inCell_fin grids hs I hI r (hx r (by simp))
          have hf : fins (b :: w) = .fin b :: fins w := rfl
          rw [hf, List.zip_cons_cons, List.zip_cons_cons, List.filter_cons, List.filterMap_cons]
          simp only [h1]
          cases hp : finPt r with
          | none => simpa [hp] using ih'
          | some p =>
              by_cases hc : Regression.inCell grids I p = true
              · simp only [Option.map_some, Option.getD_some, hc, if_true, List.map_cons, List.filter_cons, ih']
                rfl
              · have hc' : Regression.inCell grids I p = false := by simpa using hc
                simpa [hc'] using ih'

/-! ### Relative errors of quotients -/

/-- `v` agrees with `t` up to `k` roundings. -/
def Within (v t : ℚ) (k : Nat) : Prop := t * (1 - 2 ^ (-53 : ℤ)) ^ k ≤ v ∧ v * (1 - 2 ^ (-53 : ℤ)) ^ k ≤ t

theorem u_pos : (0 : ℚ) < 1 - 2 ^ (-53 : ℤ) := by norm_num
theorem u_lt : (1 - 2 ^ (-53 : ℤ) : ℚ) ≤ 1 := by norm_num

theorem within_rnd_of {d v : ℚ} (hd : 0 ≤ d) (h : |v - d| ≤ 2 ^ (-53 : ℤ) * d) : Within v d 1 := by
  have hu : (0 : ℚ) < 2 ^ (-53 : ℤ) := pow_pos' _
  have hu1 : (2 : ℚ) ^ (-53 : ℤ) < 1 := by norm_num
  rw [abs_le] at h
  unfold Within
  rw [pow_one]
  generalize (2 : ℚ) ^ (-53 : ℤ) = u at *
  constructor
  · linarith [h.1]
  · have h1 : v * (1 - u) ≤ (d + u * d) * (1 - u) := mul_le_mul_of_nonneg_right (by linarith [h.2]) (by linarith)
    nlinarith [mul_nonneg hu.le (mul_nonneg hu.le hd)]

theorem Within.trans {a b c : ℚ} {i j : Nat} (h : Within a b i) (h' : Within b c j) : Within a c (i + j) := by
  obtain ⟨h1, h2⟩ := h
  obtain ⟨h3, h4⟩ := h'
  have p := pow_pos u_pos i
  have q := pow_pos u_pos j
  unfold Within
  rw [pow_add]
  generalize (1 - 2 ^ (-53 : ℤ) : ℚ) ^ i = P at *
  generalize (1 - 2 ^ (-53 : ℤ) : ℚ) ^ j = R at *
  constructor
  · calc c * (P * R) = (c * R) * P := by ring
      _ ≤ b * P := mul_le_mul_of_nonneg_right h3 p.le
      _ ≤ a := h1
  · calc a * (P * R) = (a * P) * R := by ring
      _ ≤ b * R := mul_le_mul_of_nonneg_right h2 q.le
      _ ≤ c := h4

theorem Within.pos {v t : ℚ} {k : Nat} (h : Within v t k) (ht : 0 < t) : 0 < v :=
  lt_of_lt_of_le (mul_pos ht (pow_pos u_pos k)) h.1

theorem Within.div {v t e d : ℚ} {a b : Nat} (h : Within v t a) (h' : Within e d b) (ht : 0 < t) (hd : 0 < d) :
    Within (v / e) (t / d) (a + b) := by
  have hv := h.pos ht
  have he := h'.pos hd
  obtain ⟨h1, h2⟩ := h
  obtain ⟨h3, h4⟩ := h'
  have p := pow_pos u_pos a
  have q := pow_pos u_pos b
  unfold Within
  rw [pow_add]
  generalize (1 - 2 ^ (-53 : ℤ) : ℚ) ^ a = P at *
  generalize (1 - 2 ^ (-53 : ℤ) : ℚ) ^ b = R at *
  constructor
  · rw [div_mul_eq_mul_div, div_le_div_iff₀ hd he]
    calc t * (P * R) * e = (t * P) * (e * R) := by ring
      _ ≤ v * d := mul_le_mul h1 h4 (by positivity) hv.le
  · rw [div_mul_eq_mul_div, div_le_div_iff₀ he hd]
    calc v * (P * R) * d = (v * P) * (d * R) := by ring
      _ ≤ t * e := mul_le_mul h2 h3 (by positivity) ht.le

theorem pow_ge_half {k : Nat} (hk : k ≤ 2 ^ 51) : 1 - (k : ℚ) * 2 ^ (-53 : ℤ) ≤ (1 - 2 ^ (-53 : ℤ)) ^ k ∧ (1 : ℚ) / 2 ≤ 1 - (k : ℚ) * 2 ^ (-53 : ℤ) := by
  constructor
  · have := one_add_mul_le_pow (a := (-(2 ^ (-53 : ℤ)) : ℚ)) (by norm_num) k
    have e : (1 + -(2 ^ (-53 : ℤ)) : ℚ) = 1 - 2 ^ (-53 : ℤ) := by ring
    rw [e] at this
    linarith
  · have h1 : (k : ℚ) ≤ 2 ^ 51 := by exact_mod_cast hk
    have h2 : (2 : ℚ) ^ 51 * 2 ^ (-53 : ℤ) = 1 / 4 := by norm_num
    have := mul_le_mul_of_nonneg_right h1 (pow_pos' (-53)).le
    rw [h2] at this
    linarith

theorem Within.close {v t : ℚ} {k : Nat} (h : Within v t k) (ht : 0 < t) (hk : k ≤ 2 ^ 51) : |v - t| ≤ k * 2 ^ (-52 : ℤ) * t ∧ v ≤ 2 * t ∧ t ≤ 2 * v := by
  obtain ⟨b1, b2⟩ := pow_ge_half hk
  have hv := h.pos ht
  obtain ⟨h1, h2⟩ := h
  have e : (2 : ℚ) ^ (-52 : ℤ) = 2 * 2 ^ (-53 : ℤ) := by norm_num
  rw [e]
  have hz : 0 ≤ (k : ℚ) * 2 ^ (-53 : ℤ) := mul_nonneg (Nat.cast_nonneg _) (pow_pos' _).le
  have e2 : (k : ℚ) * (2 * 2 ^ (-53 : ℤ)) * t = 2 * ((k : ℚ) * 2 ^ (-53 : ℤ)) * t := by ring
  rw [e2]
  generalize (k : ℚ) * 2 ^ (-53 : ℤ) = z at *
  generalize (1 - 2 ^ (-53 : ℤ) : ℚ) ^ k = P at *
  have a1 : t * (1 - z) ≤ v := le_trans (mul_le_mul_of_nonneg_left b1 ht.le) h1
  have a2 : v * (1 - z) ≤ t := le_trans (mul_le_mul_of_nonneg_left b1 hv.le) h2
  have a3 : v ≤ 2 * t := by nlinarith
  refine ⟨?_, a3, by nlinarith⟩
  rw [abs_le]
  constructor
  · nlinarith
  · nlinarith

/-- Dividing by rounded widths, one after the other. -/
theorem divs (l : List ℚ) (v t : ℚ) (k : Nat) (hW : Within v t k) (ht : 0 < t)
    (hd : ∀ d ∈ l, 0 < d ∧ |rnd d - d| ≤ 2 ^ (-53 : ℤ) * d)
    (hr : ∀ j, 0 < j → j ≤ l.length → 2 ^ (-1021 : ℤ) ≤ t / (l.take j).prod ∧ t / (l.take j).prod ≤ 2 ^ 1022)
    (hk : k + 2 * l.length ≤ 2 ^ 51) :
    ∃ r, l.foldl (fun v d => Num.div v (.fin (rnd d))) (.fin v) = .fin r ∧ Within r (t / l.prod) (k + 2 * l.length) := by
  induction l generalizing v t k with
  | nil => exact ⟨v, rfl, by simpa using hW⟩
  | cons d l ih =>
      obtain ⟨d0, d1⟩ := hd d (by simp)
      have w1 : Within (rnd d) d 1 := within_rnd_of d0.le d1
      have hq : Within (v / rnd d) (t / d) (k + 1) := hW.div w1 ht d0
      have htd : 0 < t / d := div_pos ht d0
      have hq0 := hq.pos htd
      simp only [List.length_cons] at hk
      obtain ⟨-, c2, c3⟩ := hq.close htd (by omega)
      have hr1 := hr 1 (by omega) (by simp)
      simp only [List.take_succ_cons, List.take_zero, List.prod_cons, List.prod_nil, mul_one] at hr1
      have hlo : (2 : ℚ) ^ (-1022 : ℤ) ≤ v / rnd d := by
        have : (2 : ℚ) ^ (-1021 : ℤ) = 2 * 2 ^ (-1022 : ℤ) := by rw [show (-1021 : ℤ) = 1 + (-1022) by norm_num, zpow_add₀ (by norm_num)]; norm_num
        rw [this] at hr1
        linarith [hr1.1]
      have hhi : |v / rnd d| ≤ 2 ^ 1023 := by
        rw [abs_of_pos hq0]
        have : (2 : ℚ) ^ 1023 = 2 * 2 ^ 1022 := by rw [pow_succ]; ring
        rw [this]
        linarith [hr1.2]
      have hdiv := FloatStandardize.div_fin (w1.pos d0).ne' hhi
      rw [List.foldl_cons, hdiv]
      have hrn : Within (rnd (v / rnd d)) (v / rnd d) 1 := by
        refine within_rnd_of hq0.le ?_
        have := rnd_err (x := v / rnd d) (by rw [abs_of_pos hq0]; exact hlo)
        rwa [abs_of_pos hq0] at this
      have hnew := hrn.trans hq
      obtain ⟨r, r1, r2⟩ := ih (rnd (v / rnd d)) (t / d) (1 + (k + 1)) hnew htd (fun e he => hd e (by simp [he])) (by
        intro j j0 jl
        have := hr (j + 1) (by omega) (by simpa using jl)
        rw [List.take_succ_cons, List.prod_cons, ← div_div] at this
        exact this) (by omega)
      refine ⟨r, r1, ?_⟩
      rw [List.prod_cons, ← div_div, List.length_cons]
      have e : 1 + (k + 1) + 2 * l.length = k + 2 * (l.length + 1) := by omega
      rwa [e] at r2

theorem sum_ints (sum : List Num → Num) (hs : IsSum sum) (zs : List ℤ) (hb : (zs.map fun z => |z|).sum ≤ 2 ^ 53) :
    sum (zs.map fun z : ℤ => Num.fin (z : ℚ)) = .fin ((zs.sum : ℤ) : ℚ) := by
  have em : (zs.map fun z : ℤ => Num.fin (z : ℚ)) = (zs.map (fun z : ℤ => (z : ℚ))).map Num.fin := by rw [List.map_map]; rfl
  obtain ⟨t, t1, t2⟩ := hs ((zs.map (fun z : ℤ => (z : ℚ))).map Num.fin)
  rw [List.length_map] at t1
  have hp := vals_perm _ t t1
  have ha : absSum (vals (zs.map (fun z : ℤ => (z : ℚ))) t) ≤ 2 ^ 53 := by
    rw [absSum_perm hp]
    have : absSum (zs.map (fun z : ℤ => (z : ℚ))) = (((zs.map fun z => |z|).sum : ℤ) : ℚ) := by
      rw [absSum, List.map_map, Int.cast_list_sum, List.map_map]
      congr 1
      apply List.map_congr_left
      intro z _
      simp
    rw [this]
    exact_mod_cast hb
  obtain ⟨e1, -⟩ := eval_int zs t (by
    intro i hi
    have := t1.mem_iff.mp hi
    simpa using this) ha
  rw [em, t2, e1, hp.sum_eq, Int.cast_list_sum]

/-! ### The histogram -/

/-- Specification: usable axes of doubles: at least two edges, strictly ascending, none above 2^1022 in magnitude. -/
def AxesF (grids : List (List ℚ)) : Prop := GridsOK grids ∧ ∀ g ∈ grids, ∀ v ∈ g, IsF v ∧ |v| ≤ 2 ^ 1022

/-- Specification: the number of data points in the closed box of the axes. -/
noncomputable def tot (grids : List (List ℚ)) (x : List (List Num)) : ℚ := boxWeight grids ((finPts x).map (fun p => (p, 1)))

theorem AxesF.sorted {grids : List (List ℚ)} (h : AxesF grids) : ∀ g ∈ grids, g.Pairwise (· ≤ ·) := fun g hg => pw_lt_le (h.1 g hg).2

theorem shape_eq (grids : List (List ℚ)) : (grids.map fins).map (fun g => g.length - 1) = histShape grids := by
  simp [histShape, fins]

theorem fit_eq (sum : List Num → Num) (grids : List (List ℚ)) (density : Bool) (x : List (List Num)) (w : Option (List Num))
    (hx : ∀ r ∈ x, r.length = grids.length) (hw : ∀ v, w = some v → v.length = x.length) :
    fit sum (grids.map fins) density x w = .ok
      { shape := histShape grids,
        data := if density then (Grid.indices (histShape grids)).map (fun I => norm (grids.map fins) I (cellSum (grids.map fins) x w I)
            (sum ((Grid.indices (histShape grids)).map (cellSum (grids.map fins) x w))))
          else (Grid.indices (histShape grids)).map (cellSum (grids.map fins) x w) } := by
  have hall : x.all (fun r => r.length == (grids.map fins).length) = true := by simpa using hx
  have hlen : (w.getD (x.map fun _ => .fin 1)).length = x.length := by
    rcases w with _ | v
    · simp
    · simpa using hw v rfl
  unfold fit
  simp only [hall, pyAssert, if_true, bind, Except.bind, hlen, ne_eq, not_true_eq_false, if_false, pure, Except.pure, shape_eq]

theorem cell_none (grids : List (List ℚ)) (hg : AxesF grids) (x : List (List Num)) (hx : ∀ r ∈ x, r.length = grids.length)
    (hn : x.length ≤ 2 ^ 53) (I : List Nat) (hI : List.Forall₂ (fun i n => i < n) I (histShape grids)) :
    cellSum (grids.map fins) x none I = .fin (cnt grids x I) := by
  have hc := countP_fin grids hg.sorted I hI x hx
  have hle : x.countP (inCell (grids.map fins) I) ≤ 2 ^ 53 := le_trans List.countP_le_length hn
  unfold cellSum
  rw [nat_double hle, hc]

/-- C151: without weights and `density`, every cell holds exactly the number of data points in it (up to 2^53 points), as
compared with the stored edges; points with a NaN or an infinity are in no cell. -/
theorem C151_counts (sum : List Num → Num) (grids : List (List ℚ)) (hg : AxesF grids) (x : List (List Num))
    (hx : ∀ r ∈ x, r.length = grids.length) (hn : x.length ≤ 2 ^ 53) :
    ∃ h, fit sum (grids.map fins) false x none = .ok h ∧ h.shape = histShape grids ∧
      ∀ I, List.Forall₂ (fun i n => i < n) I (histShape grids) →
        h.get? I = some (.fin (cellCount grids ((finPts x).map (fun p => (p, 1))) I)) := by
  refine ⟨_, fit_eq sum grids false x none hx (by simp), rfl, ?_⟩
  intro I hI
  simp only [Grid.NDArr.get?, hI, if_true, Bool.false_eq_true, if_false, List.getElem?_map, (Grid.indices_flatIdx _ _ hI).2,
    Option.map_some, cell_none grids hg x hx hn I hI]
  rfl

/-- C151: with weights (doubles) a cell holds their sum in the order of the data; the error is at most ((1 + 2^-53)^k - 1) times the
sum of the absolute weights of the `k` points in the cell. -/
theorem C151_weights (sum : List Num → Num) (grids : List (List ℚ)) (hg : AxesF grids) (x : List (List Num)) (w : List ℚ)
    (hx : ∀ r ∈ x, r.length = grids.length) (hw : w.length = x.length) (hF : ∀ v ∈ w, IsF v) :
    ∃ h, fit sum (grids.map fins) false x (some (fins w)) = .ok h ∧ h.shape = histShape grids ∧
      ∀ I, List.Forall₂ (fun i n => i < n) I (histShape grids) →
        let ws := ((finWts x w).filter (fun p => Regression.inCell grids I p.1)).map (fun p => p.2)
        (1 + 2 ^ (-53 : ℤ)) ^ ws.length * absSum ws ≤ 2 ^ 1023 →
        ∃ r, h.get? I = some (.fin r) ∧
          |r - cellCount grids (finWts x w) I| ≤ ((1 + 2 ^ (-53 : ℤ)) ^ ws.length - 1) * absSum ws := by
  refine ⟨_, fit_eq sum grids false x (some (fins w)) hx (by intro v hv; cases hv; simpa [fins] using hw), rfl, ?_⟩
  intro I hI ws hb
  have hwF : ∀ v ∈ ws, IsF v := by
    intro v hv
    obtain ⟨p, hp, rfl⟩ := List.mem_map.mp hv
    have hp := List.mem_of_mem_filter hp
    unfold finWts at hp
    obtain ⟨q, hq, he⟩ := List.mem_filterMap.mp hp
    obtain ⟨a, -, rfl⟩ := Option.map_eq_some_iff.mp he
    exact hF _ (List.of_mem_zip hq).2
  obtain ⟨r, r1, -, r3⟩ := seq_err ws hwF 0 0 0 0 rnd_zero (by simp) (by simp) (by simpa using hb)
  refine ⟨r, ?_, ?_⟩
  · simp only [Grid.NDArr.get?, hI, if_true, Bool.false_eq_true, if_false, List.getElem?_map, (Grid.indices_flatIdx _ _ hI).2,
      Option.map_some]
    refine congrArg some ?_
    unfold cellSum
    simp only
    rw [weights_fin grids hg.sorted I hI x w hx, ← FloatSubBins.seqSum_foldl]
    exact r1
  · simp only [zero_add] at r3
    exact r3

/-- C151: integer weights are exact while the absolute weights in the cell add up to at most 2^53. -/
theorem C151_integers (sum : List Num → Num) (grids : List (List ℚ)) (hg : AxesF grids) (x : List (List Num)) (w : List ℤ)
    (hx : ∀ r ∈ x, r.length = grids.length) (hw : w.length = x.length) (hb : (w.map fun z => |z|).sum ≤ 2 ^ 53) :
    ∃ h, fit sum (grids.map fins) false x (some (w.map fun z : ℤ => .fin (z : ℚ))) = .ok h ∧ h.shape = histShape grids ∧
      ∀ I, List.Forall₂ (fun i n => i < n) I (histShape grids) →
        h.get? I = some (.fin (cellCount grids (finWts x (w.map fun z : ℤ => (z : ℚ))) I)) := by
  have em : (w.map fun z : ℤ => Num.fin (z : ℚ)) = fins (w.map fun z : ℤ => (z : ℚ)) := by rw [fins, List.map_map]; rfl
  rw [em]
  refine ⟨_, fit_eq sum grids false x _ hx (by intro v hv; cases hv; simpa [fins] using hw), rfl, ?_⟩
  intro I hI
  simp only [Grid.NDArr.get?, hI, if_true, Bool.false_eq_true, if_false, List.getElem?_map, (Grid.indices_flatIdx _ _ hI).2,
    Option.map_some]
  congr 1
  unfold cellSum
  simp only
  rw [weights_fin grids hg.sorted I hI x _ hx, ← FloatSubBins.seqSum_foldl]
  -- the weights in the cell are a sublist of `w`
  have hsub : ∃ zs : List ℤ, zs.Sublist w ∧
      ((finWts x (w.map fun z : ℤ => (z : ℚ))).filter (fun p => Regression.inCell grids I p.1)).map (fun p => p.2) = zs.map fun z : ℤ => (z : ℚ) := by
    clear hb hx hw em
    unfold finWts
    induction x generalizing w with
    | nil => exact ⟨[], by simp, by simp⟩
    | cons r t ih =>
        cases w with
        | nil => exact ⟨[], by simp, by simp⟩
        | cons b w =>
            obtain ⟨zs, z1, z2⟩ := ih w
            simp only [List.map_cons, List.zip_cons_cons, List.filterMap_cons]
            cases hp : finPt r with
            | none => exact ⟨zs, z1.cons _, by simpa using z2⟩
            | some p =>
                by_cases hc : Regression.inCell grids I p = true
                · refine ⟨b :: zs, z1.cons_cons _, ?_⟩
                  simp only [Option.map_some, List.filter_cons, hc, if_true, List.map_cons, z2]
                · refine ⟨zs, z1.cons _, ?_⟩
                  simp only [Option.map_some, List.filter_cons, hc, z2]
                  simpa using z2
  obtain ⟨zs, z1, z2⟩ := hsub
  have hle : (zs.map fun z => |z|).sum ≤ 2 ^ 53 := by
    refine le_trans ?_ hb
    exact (z1.map _).sum_le_sum (by intro a ha; obtain ⟨z, -, rfl⟩ := List.mem_map.mp ha; exact abs_nonneg z)
  have hcc : cellCount grids (finWts x (w.map fun z : ℤ => (z : ℚ))) I = ((zs.sum : ℤ) : ℚ) := by
    unfold cellCount
    rw [z2, Int.cast_list_sum]
  have hs := seq_int zs 0 (by simpa using hle)
  rw [hcc, z2, fins, List.map_map]
  simpa [Function.comp_def] using hs

/-! ### Densities -/

/-- The true widths of a cell. -/
def widths (grids : List (List ℚ)) (I : List Nat) : List ℚ := (grids.zip I).map (fun q => q.1.getD (q.2 + 1) 0 - q.1.getD q.2 0)

theorem widths_spec (grids : List (List ℚ)) (hg : AxesF grids) (I : List Nat) (hI : List.Forall₂ (fun i n => i < n) I (histShape grids)) :
    (∀ d ∈ widths grids I, 0 < d ∧ |rnd d - d| ≤ 2 ^ (-53 : ℤ) * d) ∧ (widths grids I).length = grids.length ∧
    ∀ v, ((grids.map fins).zip I).foldl (fun v q => Num.div v (width q.1 q.2)) v = (widths grids I).foldl (fun v d => Num.div v (.fin (rnd d))) v := by
  induction grids generalizing I with
  | nil => simp [widths]
  | cons g gs ih =>
      cases I with
      | nil => simp [histShape] at hI
      | cons i I =>
          simp only [histShape, List.map_cons, List.forall₂_cons] at hI
          obtain ⟨h1, h2, h3⟩ := ih ⟨fun g' h' => hg.1 g' (by simp [h']), fun g' h' => hg.2 g' (by simp [h'])⟩ I hI.2
          have hgg := hg.1 g (by simp)
          have hv := hg.2 g (by simp)
          have hi : i + 1 < g.length := by omega
          have e : widths (g :: gs) (i :: I) = (g[i + 1] - g[i]) :: widths gs I := by
            simp only [widths, List.zip_cons_cons, List.map_cons]
            rw [getD_lt _ _ _ hi, getD_lt _ _ _ (by omega)]
          have hlt : g[i] < g[i + 1] := pw_lt hgg.2 (by omega) hi
          have hpos : 0 < g[i + 1] - g[i] := by linarith
          rw [e]
          refine ⟨?_, by simp [h2], ?_⟩
          · intro d hd
            rcases List.mem_cons.mp hd with rfl | hd
            · refine ⟨hpos, ?_⟩
              have := rnd_sub_err (hv g[i + 1] (List.getElem_mem _)).1 (hv g[i] (List.getElem_mem _)).1
              rwa [abs_of_pos hpos] at this
            · exact h1 d hd
          · intro v
            have hw : width (fins g) i = .fin (rnd (g[i + 1] - g[i])) := by
              unfold width
              have gk : ∀ k (hk : k < g.length), (fins g).getD k .nan = .fin g[k] := by
                intro k hk
                simp [fins, List.getD_eq_getElem?_getD, List.getElem?_eq_getElem hk]
              rw [gk _ hi, gk _ (by omega)]
              exact sub_fin (hv g[i + 1] (List.getElem_mem _)).2 (hv g[i] (List.getElem_mem _)).2
            simp only [List.map_cons, List.zip_cons_cons, List.foldl_cons, hw]
            exact h3 _

theorem vol_eq (grids : List (List ℚ)) (I : List Nat) : (widths grids I).prod = cellVol grids I := rfl

theorem zero_divs (l : List ℚ) (hd : ∀ d ∈ l, 0 < d ∧ |rnd d - d| ≤ 2 ^ (-53 : ℤ) * d) :
    l.foldl (fun v d => Num.div v (.fin (rnd d))) (.fin 0) = .fin 0 := by
  induction l with
  | nil => rfl
  | cons d l ih =>
      have hp := (within_rnd_of (hd d (by simp)).1.le (hd d (by simp)).2).pos (hd d (by simp)).1
      have := FloatStandardize.div_fin (x := 0) hp.ne' (by simp)
      rw [List.foldl_cons, this]
      simp only [zero_div, rnd_zero]
      exact ih (fun e he => hd e (by simp [he]))

theorem box_ones (grids : List (List ℚ)) (l : List (List ℚ)) :
    ∃ n : Nat, boxWeight grids (l.map (fun p => (p, (1 : ℚ)))) = n ∧ n ≤ l.length := by
  classical
  unfold boxWeight
  induction l with
  | nil => exact ⟨0, by simp, by simp⟩
  | cons a l ih =>
      obtain ⟨n, n1, n2⟩ := ih
      by_cases h : InBox grids a
      · refine ⟨n + 1, ?_, by simpa using n2⟩
        rw [List.map_cons, List.filter_cons, if_pos (by simpa using h), List.map_cons, List.sum_cons, n1]
        push_cast; ring
      · refine ⟨n, ?_, by simp; omega⟩
        rw [List.map_cons, List.filter_cons, if_neg (by simpa using h), n1]

theorem idx_mem (s I : List Nat) (hI : I ∈ Grid.indices s) : List.Forall₂ (fun i n => i < n) I s := by
  induction s generalizing I with
  | nil => simp [Grid.indices] at hI; simp [hI]
  | cons n s ih =>
      simp only [Grid.indices, List.mem_flatMap, List.mem_range, List.mem_map] at hI
      obtain ⟨i, hi, J, hJ, rfl⟩ := hI
      exact List.Forall₂.cons hi (ih J hJ)

theorem tot_facts (sum : List Num → Num) (hs : IsSum sum) (grids : List (List ℚ)) (hg : AxesF grids) (x : List (List Num))
    (hx : ∀ r ∈ x, r.length = grids.length) (hn : x.length ≤ 2 ^ 53) :
    sum ((Grid.indices (histShape grids)).map (cellSum (grids.map fins) x none)) = .fin (tot grids x) ∧
    ((Grid.indices (histShape grids)).map (cnt grids x)).sum = tot grids x ∧ (∃ n : Nat, tot grids x = n ∧ n ≤ x.length) ∧
    (∀ I, List.Forall₂ (fun i n => i < n) I (histShape grids) → 0 ≤ cnt grids x I ∧ cnt grids x I ≤ tot grids x ∧ ∃ n : Nat, cnt grids x I = n) := by
  classical
  have hfl : ∀ (y : List (List Num)), (∀ r ∈ y, r.length = grids.length) → ∀ p ∈ finPts y, p.length = grids.length := by
    have hlen : ∀ (r : List Num) (p : List ℚ), finPt r = some p → p.length = r.length := by
      intro r
      induction r with
      | nil => intro p hp; simp [finPt] at hp; simp [← hp]
      | cons a r ih =>
          intro p hp
          cases a with
          | fin v =>
              simp only [finPt, Option.map_eq_some_iff] at hp
              obtain ⟨q, q1, rfl⟩ := hp
              simp [ih q q1]
          | inf s => simp [finPt] at hp
          | nan => simp [finPt] at hp
    intro y hy p hp
    obtain ⟨r, r1, r2⟩ := List.mem_filterMap.mp hp
    rw [hlen r p r2, hy r r1]
  have hsum : ((Grid.indices (histShape grids)).map (cnt grids x)).sum = tot grids x := by
    have := total_eq grids hg.1 ((finPts x).map (fun p => (p, (1 : ℚ)))) (by
      intro p hp
      obtain ⟨q, hq, rfl⟩ := List.mem_map.mp hp
      exact hfl x hx q hq)
    exact this
  have htn : ∃ n : Nat, tot grids x = n ∧ n ≤ x.length := by
    obtain ⟨n, n1, n2⟩ := box_ones grids (finPts x)
    exact ⟨n, n1, le_trans n2 (List.length_filterMap_le _ _)⟩
  have hnat : ∀ I, List.Forall₂ (fun i n => i < n) I (histShape grids) → cnt grids x I = (x.countP (inCell (grids.map fins) I) : Nat) :=
    fun I hI => (countP_fin grids hg.sorted I hI x hx).symm
  have hmap : (Grid.indices (histShape grids)).map (cellSum (grids.map fins) x none)
      = ((Grid.indices (histShape grids)).map (fun I => ((x.countP (inCell (grids.map fins) I) : Nat) : ℤ))).map (fun z : ℤ => Num.fin (z : ℚ)) := by
    rw [List.map_map]
    apply List.map_congr_left
    intro I hI
    rw [cell_none grids hg x hx hn I (idx_mem _ _ hI), hnat I (idx_mem _ _ hI)]
    simp
  have hq : (((Grid.indices (histShape grids)).map (fun I => ((x.countP (inCell (grids.map fins) I) : Nat) : ℤ))).sum : ℚ) = tot grids x := by
    rw [← hsum, Int.cast_list_sum, List.map_map]
    congr 1
    apply List.map_congr_left
    intro I hI
    rw [hnat I (idx_mem _ _ hI)]
    simp
  refine ⟨?_, hsum, htn, ?_⟩
  · rw [hmap, sum_ints sum hs _ ?_, hq]
    obtain ⟨n, n1, n2⟩ := htn
    have habs : ((Grid.indices (histShape grids)).map (fun I => ((x.countP (inCell (grids.map fins) I) : Nat) : ℤ))).map (fun z => |z|)
        = (Grid.indices (histShape grids)).map (fun I => ((x.countP (inCell (grids.map fins) I) : Nat) : ℤ)) := by
      rw [List.map_map]
      apply List.map_congr_left
      intro I _
      simp
    rw [habs]
    have : (((Grid.indices (histShape grids)).map (fun I => ((x.countP (inCell (grids.map fins) I) : Nat) : ℤ))).sum : ℚ) = ((n : ℤ) : ℚ) := by
      rw [hq, n1]; simp
    have h2 := Int.cast_injective (α := ℚ) this
    rw [h2]
    have h3 : n ≤ 2 ^ 53 := le_trans n2 hn
    exact_mod_cast h3
  · intro I hI
    refine ⟨by rw [hnat I hI]; exact Nat.cast_nonneg _, ?_, _, hnat I hI⟩
    rw [← hsum]
    apply List.single_le_sum
    · intro a ha
      obtain ⟨J, hJ, rfl⟩ := List.mem_map.mp ha
      rw [hnat J (idx_mem _ _ hJ)]
      exact Nat.cast_nonneg _
    · exact List.mem_map_of_mem (List.mem_of_getElem? (Grid.indices_flatIdx _ _ hI).2)

/-- Specification: the exact quotients of the computation lie in the range of normal doubles, with a factor 2 to spare. -/
def InRange (grids : List (List ℚ)) (I : List Nat) (c N : ℚ) : Prop :=
  (∀ j, 0 < j → j ≤ grids.length → 2 ^ (-1021 : ℤ) ≤ c / cellVol (grids.take j) (I.take j) ∧ c / cellVol (grids.take j) (I.take j) ≤ 2 ^ 1022) ∧
  2 ^ (-1021 : ℤ) ≤ c / cellVol grids I / N

/-- C151: the density.  If the box holds no data, every value is NaN.  Otherwise a cell without data has density exactly 0, and a cell
with data the density count / volume / number of points in the box, with a relative error of at most (2 D + 1) 2^-52 for `D` axes. -/
theorem C151_density (sum : List Num → Num) (hs : IsSum sum) (grids : List (List ℚ)) (hg : AxesF grids) (x : List (List Num))
    (hx : ∀ r ∈ x, r.length = grids.length) (hn : x.length ≤ 2 ^ 53) (hD : 2 * grids.length + 1 ≤ 2 ^ 51) :
    ∃ h, fit sum (grids.map fins) true x none = .ok h ∧ h.shape = histShape grids ∧
      ∀ I, List.Forall₂ (fun i n => i < n) I (histShape grids) →
        (tot grids x = 0 → h.get? I = some .nan) ∧
        (tot grids x ≠ 0 → cnt grids x I = 0 → h.get? I = some (.fin 0)) ∧
        (cnt grids x I ≠ 0 → InRange grids I (cnt grids x I) (tot grids x) → ∃ v, h.get? I = some (.fin v) ∧ 0 < v ∧
          |v - cnt grids x I / cellVol grids I / tot grids x|
            ≤ ((2 * grids.length + 1 : Nat) : ℚ) * 2 ^ (-52 : ℤ) * (cnt grids x I / cellVol grids I / tot grids x)) := by
  obtain ⟨t1, -, ⟨n, n1, n2⟩, t4⟩ := tot_facts sum hs grids hg x hx hn
  refine ⟨_, fit_eq sum grids true x none hx (by simp), rfl, ?_⟩
  intro I hI
  obtain ⟨c0, c1, m, c2⟩ := t4 I hI
  obtain ⟨w1, w2, w3⟩ := widths_spec grids hg I hI
  have hIl : I.length = grids.length := by simpa [histShape] using hI.length_eq
  have hget : (({ shape := histShape grids, data := if true then (Grid.indices (histShape grids)).map (fun I => norm (grids.map fins) I
      (cellSum (grids.map fins) x none I) (sum ((Grid.indices (histShape grids)).map (cellSum (grids.map fins) x none)))) else
      (Grid.indices (histShape grids)).map (cellSum (grids.map fins) x none)} : Grid.NDArr Num).get? I)
      = some (Num.div ((widths grids I).foldl (fun v d => Num.div v (.fin (rnd d))) (.fin (cnt grids x I))) (.fin (tot grids x))) := by
    simp only [Grid.NDArr.get?, hI, if_true, List.getElem?_map, (Grid.indices_flatIdx _ _ hI).2, Option.map_some]
    rw [t1, cell_none grids hg x hx hn I hI, norm, w3]
  rw [hget]
  refine ⟨?_, ?_, ?_⟩
  · intro h0
    have hc : cnt grids x I = 0 := le_antisymm (h0 ▸ c1) c0
    rw [hc, zero_divs _ w1, h0]
    rfl
  · intro h0 hc
    rw [hc, zero_divs _ w1, FloatStandardize.div_fin (x := 0) h0 (by simp)]
    simp
  · intro hc hr
    have hcp : 0 < cnt grids x I := lt_of_le_of_ne c0 (Ne.symm hc)
    have hN : 0 < tot grids x := lt_of_lt_of_le hcp c1
    have hN1 : 1 ≤ tot grids x := by
      rw [n1] at hN ⊢
      have : 0 < n := by exact_mod_cast hN
      exact_mod_cast this
    obtain ⟨hr1, hr2⟩ := hr
    have hW0 : Within (cnt grids x I) (cnt grids x I) 0 := by simp [Within]
    have htake : ∀ j, (widths grids I).take j = widths (grids.take j) (I.take j) := by
      intro j
      simp only [widths, ← List.map_take, List.zip, List.take_zipWith]
    obtain ⟨r, r1, r2⟩ := divs (widths grids I) _ _ 0 hW0 hcp w1 (by
      intro j j0 j1
      rw [htake, vol_eq]
      exact hr1 j j0 (by rw [← w2]; exact j1)) (by rw [w2]; omega)
    have hvolp : 0 < cellVol grids I := by
      rw [← vol_eq]
      exact List.prod_pos (fun d hd => (w1 d hd).1)
    rw [vol_eq, w2, zero_add] at r2
    rw [r1]
    have hq : 0 < cnt grids x I / cellVol grids I := div_pos hcp hvolp
    have hNW : Within (tot grids x) (tot grids x) 0 := by simp [Within]
    have hdv := r2.div hNW hq hN
    have hpos : 0 < cnt grids x I / cellVol grids I / tot grids x := div_pos hq hN
    have hv0 := hdv.pos hpos
    obtain ⟨-, b2, b3⟩ := hdv.close hpos (by omega)
    have hlo : (2 : ℚ) ^ (-1022 : ℤ) ≤ r / tot grids x := by
      have : (2 : ℚ) ^ (-1021 : ℤ) = 2 * 2 ^ (-1022 : ℤ) := by rw [show (-1021 : ℤ) = 1 + (-1022) by norm_num, zpow_add₀ (by norm_num)]; norm_num
      rw [this] at hr2
      linarith
    have htop : cnt grids x I / cellVol grids I ≤ 2 ^ 1022 := by
      by_cases hl : grids.length = 0
      · have : grids = [] := List.length_eq_zero_iff.mp hl
        subst this
        have e1 : cellVol ([] : List (List ℚ)) I = 1 := by simp [cellVol]
        rw [e1, div_one]
        refine le_trans c1 (le_trans (b := (2 : ℚ) ^ 53) ?_ (pow_le_pow_right₀ (by norm_num) (by norm_num)))
        rw [n1]
        have : n ≤ 2 ^ 53 := le_trans n2 hn
        exact_mod_cast this
      · have := (hr1 grids.length (by omega) le_rfl).2
        rwa [List.take_length, List.take_of_length_le hIl.le] at this
    have hhi : |r / tot grids x| ≤ 2 ^ 1023 := by
      rw [abs_of_pos hv0]
      have e : (2 : ℚ) ^ 1023 = 2 * 2 ^ 1022 := by rw [pow_succ]; ring
      rw [e]
      have : cnt grids x I / cellVol grids I / tot grids x ≤ cnt grids x I / cellVol grids I := div_le_self hq.le hN1
      linarith
    rw [FloatStandardize.div_fin hN.ne' hhi]
    have hrn : Within (rnd (r / tot grids x)) (r / tot grids x) 1 := by
      refine within_rnd_of hv0.le ?_
      have := rnd_err (x := r / tot grids x) (by rw [abs_of_pos hv0]; exact hlo)
      rwa [abs_of_pos hv0] at this
    have hfin := hrn.trans hdv
    have e : 1 + (2 * grids.length + 0) = 2 * grids.length + 1 := by omega
    rw [e] at hfin
    exact ⟨_, rfl, hfin.pos hpos, (hfin.close hpos hD).1⟩

/-- Specification: the value of a double (0 if it is none). -/
def toQ : Num → ℚ
  | .fin v => v
  | _ => 0

theorem sum_close (ε : ℚ) (L : List (List Nat)) (a b : List Nat → ℚ) (h : ∀ I ∈ L, |a I - b I| ≤ ε * b I) :
    |(L.map a).sum - (L.map b).sum| ≤ ε * (L.map b).sum := by
  induction L with
  | nil => simp
  | cons I L ih =>
      have h1 := h I (by simp)
      have h2 := ih (fun J hJ => h J (by simp [hJ]))
      simp only [List.map_cons, List.sum_cons]
      have e : a I + (L.map a).sum - (b I + (L.map b).sum) = (a I - b I) + ((L.map a).sum - (L.map b).sum) := by ring
      rw [e]
      have := abs_add_le (a I - b I) ((L.map a).sum - (L.map b).sum)
      rw [mul_add]
      linarith

/-- C151: the densities times the cell volumes add up to 1 within (2 D + 1) 2^-52, all values being finite. -/
theorem C151_integral (sum : List Num → Num) (hs : IsSum sum) (grids : List (List ℚ)) (hg : AxesF grids) (x : List (List Num))
    (hx : ∀ r ∈ x, r.length = grids.length) (hn : x.length ≤ 2 ^ 53) (hD : 2 * grids.length + 1 ≤ 2 ^ 51) (hN : tot grids x ≠ 0)
    (hr : ∀ I, List.Forall₂ (fun i n => i < n) I (histShape grids) → cnt grids x I ≠ 0 → InRange grids I (cnt grids x I) (tot grids x)) :
    ∃ h, fit sum (grids.map fins) true x none = .ok h ∧
      (∀ I, List.Forall₂ (fun i n => i < n) I (histShape grids) → ∃ v, h.get? I = some (.fin v) ∧ 0 ≤ v) ∧
      |((Grid.indices (histShape grids)).map (fun I => ((h.get? I).map toQ).getD 0 * cellVol grids I)).sum - 1|
        ≤ ((2 * grids.length + 1 : Nat) : ℚ) * 2 ^ (-52 : ℤ) := by
  obtain ⟨h, h1, -, h3⟩ := C151_density sum hs grids hg x hx hn hD
  obtain ⟨-, t2, -, t4⟩ := tot_facts sum hs grids hg x hx hn
  have key : ∀ I, List.Forall₂ (fun i n => i < n) I (histShape grids) → ∃ v, h.get? I = some (.fin v) ∧ 0 ≤ v ∧
      |v * cellVol grids I - cnt grids x I / tot grids x| ≤ ((2 * grids.length + 1 : Nat) : ℚ) * 2 ^ (-52 : ℤ) * (cnt grids x I / tot grids x) := by
    intro I hI
    obtain ⟨-, a2, a3⟩ := h3 I hI
    obtain ⟨w1, -, -⟩ := widths_spec grids hg I hI
    have hvolp : 0 < cellVol grids I := by
      rw [← vol_eq]
      exact List.prod_pos (fun d hd => (w1 d hd).1)
    by_cases hc : cnt grids x I = 0
    · exact ⟨0, a2 hN hc, le_rfl, by simp [hc]⟩
    · obtain ⟨v, v1, v2, v3⟩ := a3 hc (hr I hI hc)
      refine ⟨v, v1, v2.le, ?_⟩
      have e1 : cnt grids x I / tot grids x = cnt grids x I / cellVol grids I / tot grids x * cellVol grids I := by field_simp
      rw [e1, ← sub_mul, abs_mul, abs_of_pos hvolp, ← mul_assoc]
      exact mul_le_mul_of_nonneg_right v3 hvolp.le
  refine ⟨h, h1, fun I hI => by obtain ⟨v, v1, v2, -⟩ := key I hI; exact ⟨v, v1, v2⟩, ?_⟩
  have hb : ((Grid.indices (histShape grids)).map (fun I => cnt grids x I / tot grids x)).sum = 1 := by
    have e : (fun I => cnt grids x I / tot grids x) = fun I => cnt grids x I * (tot grids x)⁻¹ := by funext I; rw [div_eq_mul_inv]
    rw [e, List.sum_map_mul_right, t2]
    exact mul_inv_cancel₀ hN
  have hc := sum_close (((2 * grids.length + 1 : Nat) : ℚ) * 2 ^ (-52 : ℤ)) (Grid.indices (histShape grids))
    (fun I => ((h.get? I).map toQ).getD 0 * cellVol grids I) (fun I => cnt grids x I / tot grids x) (by
      intro I hI
      obtain ⟨v, v1, -, v3⟩ := key I (idx_mem _ _ hI)
      rw [v1]
      exact v3)
  rw [hb, mul_one] at hc
  exact hc

/-! ### Evaluation -/

theorem locate_fin (g : List ℚ) (hs : g.Pairwise (· ≤ ·)) (x : Num) (h2 : 0 < g.length) :
    (-1 ≤ FloatGrid.locate (fins g) x ∧ FloatGrid.locate (fins g) x ≤ (g.length : Int) - 1) ∧
    ∀ i (hi : i + 1 < g.length), FloatGrid.locate (fins g) x = (i : Int) ↔ ∃ v, x = .fin v ∧ g[i] ≤ v ∧ v < g[i + 1] := by
  have hl : (fins g).length = g.length := fins_length g
  have hget : ∀ j (hj : j < g.length), (fins g)[j]'(by rw [hl]; exact hj) = .fin g[j] := by intro j hj; simp [fins]
  have hk := (List.takeWhile_sublist (l := fins g) (FloatGrid.notAfter x)).length_le
  rw [hl] at hk
  unfold FloatGrid.locate
  refine ⟨⟨by omega, by omega⟩, ?_⟩
  intro i hi
  cases x with
  | nan =>
      rw [FloatGrid.all_nan, hl]
      constructor
      · intro h; omega
      · rintro ⟨v, hv, -⟩; cases hv
  | inf s =>
      constructor
      · intro h
        exfalso
        have ht := FloatGrid.take_spec (FloatGrid.notAfter (.inf s)) (fins g) (by
          intro j hj hc
          rw [hl] at hj
          rw [hget j (by omega)]
          rw [hget (j + 1) hj] at hc
          cases s <;> simp_all [FloatGrid.notAfter, Num.le])
        have t1 := ht i (by rw [hl]; omega)
        have t2 := ht (i + 1) (by rw [hl]; omega)
        rw [hget i (by omega)] at t1
        rw [hget (i + 1) hi] at t2
        have e1 : FloatGrid.notAfter (.inf s) (.fin g[i]) = FloatGrid.notAfter (.inf s) (.fin g[i + 1]) := by
          cases s <;> simp [FloatGrid.notAfter, Num.le]
        rw [e1, ← t2] at t1
        omega
      · rintro ⟨v, hv, -⟩; cases hv
  | fin v =>
      have ht := FloatGrid.take_spec (FloatGrid.notAfter (.fin v)) (fins g) (by
        intro j hj hc
        rw [hl] at hj
        rw [hget j (by omega)]
        rw [hget (j + 1) hj] at hc
        simp only [FloatGrid.notAfter, Num.le, Bool.or_eq_true, decide_eq_true_eq] at hc ⊢
        rcases hc with hc | hc
        · exact absurd hc (by simp)
        · exact Or.inr (le_trans (pw_le hs (by omega) hj) hc))
      have ht' : ∀ j (hj : j < g.length), j < ((fins g).takeWhile (FloatGrid.notAfter (.fin v))).length ↔ g[j] ≤ v := by
        intro j hj
        rw [ht j (by rw [hl]; exact hj), hget j hj]
        simp [FloatGrid.notAfter, Num.le]
      have t0 := ht' i (by omega)
      have t1 := ht' (i + 1) hi
      have t1' : v < g[i + 1] ↔ ¬ i + 1 < ((fins g).takeWhile (FloatGrid.notAfter (.fin v))).length := by rw [← not_le, t1]
      constructor
      · intro h; exact ⟨v, rfl, t0.mp (by omega), t1'.mpr (by omega)⟩
      · rintro ⟨w, hw, a, b⟩
        cases hw
        have := t0.mpr a
        have := t1'.mp b
        omega

/-- Specification: the point is in the half-open cell `I`, all its coordinates being numbers. -/
def InHalfOpenF (grids : List (List ℚ)) (I : List Nat) (r : List Num) : Prop := ∃ p : List ℚ, r = fins p ∧ HistDensity.InHalfOpen grids I p

/-- C151: evaluation at a point.  Comparisons are exact: in the half-open cell `I` the stored value of that cell is returned; a point
in no cell, with a NaN or with an infinity gets `out_fill` and the flag. -/
theorem C151_eval (grids : List (List ℚ)) (hg : HistDensity.AxesOK grids) (h : Grid.NDArr Num) (hs : h.shape = histShape grids)
    (hd : h.data.length = (histShape grids).prod) (outFill : Num) (r : List Num) (hr : r.length = grids.length) :
    (∀ I, InHalfOpenF grids I r → ∃ v, h.get? I = some v ∧ eval (grids.map fins) h outFill r = .ok (v, false)) ∧
    ((¬ ∃ I, InHalfOpenF grids I r) → eval (grids.map fins) h outFill r = .ok (outFill, true)) := by
  have hrange : ∀ I, List.Forall₂ (fun i n => i < n) I (histShape grids) → ∃ v, h.get? I = some v := by
    intro I hI
    have hidx := Grid.indices_flatIdx (histShape grids) I hI
    have : Grid.flatIdx (histShape grids) I < h.data.length := by
      rw [hd, ← Grid.indices_length]
      exact (List.getElem?_eq_some_iff.mp hidx.2).1
    exact ⟨_, by simp only [Grid.NDArr.get?, hs, hI, if_true]; exact List.getElem?_eq_getElem this⟩
  have hok : ∀ k (h1 : k < grids.length), 2 ≤ grids[k].length ∧ grids[k].Pairwise (· ≤ ·) := fun k h1 => hg _ (List.getElem_mem h1)
  constructor
  · rintro I ⟨p, rfl, hl, hc⟩
    have hp : p.length = grids.length := by rw [← hr, fins_length]
    have hids : List.zipWith FloatGrid.locate (grids.map fins) (fins p) = I.map (fun i : Nat => (i : Int)) := by
      apply List.ext_getElem
      · simp [hl, fins, hp]
      · intro k k1 k2
        have h1 : k < grids.length := by simp at k1; omega
        simp only [List.getElem_zipWith, List.getElem_map]
        obtain ⟨h3, h4, c1, c2⟩ := hc k h1 (by omega)
        rw [((locate_fin grids[k] (hok k h1).2 _ (by omega)).2 _ h4)]
        exact ⟨p[k], by simp [fins], c1, c2⟩
    have hI : List.Forall₂ (fun i n => i < n) I (histShape grids) := by
      rw [List.forall₂_iff_get]
      refine ⟨by simp [histShape, hl], ?_⟩
      intro k k1 k2
      obtain ⟨h3, h4, c1, c2⟩ := hc k (by omega) k1
      simp only [List.get_eq_getElem, histShape, List.getElem_map]
      omega
    obtain ⟨v, hv⟩ := hrange I hI
    refine ⟨v, hv, ?_⟩
    have hout : ((I.map (fun i : Nat => (i : Int))).zip (grids.map fins)).any
        (fun q => decide (q.1 < 0) || decide (q.1 ≥ (q.2.length : Int) - 1)) = false := by
      rw [List.any_eq_false]
      intro q hq
      obtain ⟨k, hk, rfl⟩ := List.getElem_of_mem hq
      have h1 : k < grids.length := by simp at hk; omega
      obtain ⟨h3, h4, c1, c2⟩ := hc k h1 (by omega)
      simp only [List.getElem_zip, List.getElem_map, Bool.or_eq_true, decide_eq_true_eq, not_or, fins_length]
      constructor <;> omega
    have hclip : List.zipWith (fun id g => (Binning.clipInt id (some 0) (some ((List.length (α := Num) g : Int) - 2))).toNat)
        (I.map (fun i : Nat => (i : Int))) (grids.map fins) = I := by
      apply List.ext_getElem
      · simp [hl]
      · intro k k1 k2
        obtain ⟨h3, h4, c1, c2⟩ := hc k (by omega) k2
        simp only [List.getElem_zipWith, List.getElem_map, Binning.clipInt, fins_length]
        simp only [max_def, min_def]
        split_ifs <;> omega
    simp only [eval, hids, hout, hclip, hv]
    rfl
  · intro hno
    have hout : ((List.zipWith FloatGrid.locate (grids.map fins) r).zip (grids.map fins)).any
        (fun q => decide (q.1 < 0) || decide (q.1 ≥ (q.2.length : Int) - 1)) = true := by
      by_contra hcon
      rw [Bool.not_eq_true, List.any_eq_false] at hcon
      have hall : ∀ k (h1 : k < grids.length), ∃ i : Nat, ∃ hi : i + 1 < grids[k].length, ∃ v, r[k]'(by omega) = .fin v ∧
          grids[k][i] ≤ v ∧ v < grids[k][i + 1] := by
        intro k h1
        have hz : k < ((List.zipWith FloatGrid.locate (grids.map fins) r).zip (grids.map fins)).length := by simp; omega
        have hq := hcon _ (List.getElem_mem hz)
        simp only [List.getElem_zip, List.getElem_zipWith, List.getElem_map, Bool.or_eq_true, decide_eq_true_eq, not_or, fins_length,
          not_lt, ge_iff_le, not_le] at hq
        have h2 := (hok k h1).1
        obtain ⟨i, hi⟩ := Int.eq_ofNat_of_zero_le hq.1
        have hi1 : i + 1 < grids[k].length := by omega
        exact ⟨i, hi1, ((locate_fin grids[k] (hok k h1).2 _ (by omega)).2 i hi1).mp hi⟩
      choose f hf using hall
      refine hno ⟨List.ofFn (fun k : Fin grids.length => f k k.2), r.map toQ, ?_, by simp, ?_⟩
      · apply List.ext_getElem
        · simp [fins]
        · intro k k1 k2
          obtain ⟨hi, v, v1, -, -⟩ := hf k (by omega)
          simp [fins, v1, toQ]
      · intro k h1 h2
        obtain ⟨hi, v, v1, c1, c2⟩ := hf k h1
        refine ⟨by simp; omega, ?_⟩
        simp only [List.getElem_ofFn, List.getElem_map, v1, toQ]
        exact ⟨hi, c1, c2⟩
    have hclip : List.Forall₂ (fun i n => i < n) (List.zipWith (fun id g =>
        (Binning.clipInt id (some 0) (some ((List.length (α := Num) g : Int) - 2))).toNat)
        (List.zipWith FloatGrid.locate (grids.map fins) r) (grids.map fins)) (histShape grids) := by
      rw [List.forall₂_iff_get]
      refine ⟨by simp [histShape, hr], ?_⟩
      intro j j1 j2
      have hj : j < grids.length := by simpa [histShape] using j2
      have := (hok j hj).1
      simp only [List.get_eq_getElem, List.getElem_zipWith, histShape, List.getElem_map, Binning.clipInt, fins_length]
      simp only [max_def, min_def]
      split_ifs <;> omega
    obtain ⟨v, hv⟩ := hrange _ hclip
    simp only [eval, hout, hv]
    rfl

/-! A concrete case. -/
example : AxesF [[0, 1, 3], [0, 2]] := by
  constructor
  · intro g hg
    simp at hg
    rcases hg with rfl | rfl <;> decide +kernel
  · intro g hg v hv
    simp at hg
    have h4 : (4 : ℚ) ≤ 2 ^ 1022 := le_trans (b := (2 : ℚ) ^ 2) (by norm_num) (pow_le_pow_right₀ (by norm_num) (by norm_num))
    generalize (2 : ℚ) ^ 1022 = B at h4 ⊢
    rcases hg with rfl | rfl <;> simp at hv
    · rcases hv with rfl | rfl | rfl
      · exact ⟨by decide +kernel, by rw [abs_of_nonneg (by norm_num)]; linarith⟩
      · exact ⟨by decide +kernel, by rw [abs_of_nonneg (by norm_num)]; linarith⟩
      · exact ⟨by decide +kernel, by rw [abs_of_nonneg (by norm_num)]; linarith⟩
    · rcases hv with rfl | rfl
      · exact ⟨by decide +kernel, by rw [abs_of_nonneg (by norm_num)]; linarith⟩
      · exact ⟨by decide +kernel, by rw [abs_of_nonneg (by norm_num)]; linarith⟩
example : (fit (fun l => l.foldl Num.add (.fin 0)) [[.fin 0, .fin 1, .fin 3], [.fin 0, .fin 2]] true
    [[.fin (1/2), .fin 1], [.fin 1, .fin 0], [.fin 3, .fin 2], [.fin 9, .fin 9], [.nan, .fin 1], [.fin 1, .inf true]] none).map (fun h => (h.shape, h.data))
    = .ok ([2, 1], [.fin (rnd (1/6)), .fin (rnd (1/6))]) := by decide +kernel
example : finPts [[.fin 1, .nan], [.fin 2, .fin 3], [.inf true, .fin 0]] = [[2, 3]] := by decide +kernel

end Pyhipp.FloatHistDensity
