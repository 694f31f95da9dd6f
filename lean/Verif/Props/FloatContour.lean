import Verif.Model.FloatContour
import Verif.Props.TwoDim
import Verif.Props.FloatQuantileW
import Verif.Props.FloatStandardize
/-
C144: contour levels in double precision.
-/
namespace Pyhipp.FloatContour
open Pyhipp Pyhipp.F64 Pyhipp.FloatQuantile
open Pyhipp.FloatLinear (fins add_fin)
open Pyhipp.TwoDim (massOf)

/-! ### Specification -/

/-- Densities: doubles, not negative, not all zero, not huge. -/
structure Dens (z : List ℚ) : Prop where
  dbl : ∀ a ∈ z, IsF a ∧ 0 ≤ a
  pos : 0 < z.sum
  big : z.sum ≤ 2 ^ 1000
  few : z.length ≤ 2 ^ 44

/-- The level encloses a fraction `p` of the total, up to `e`. -/
structure Near (z : List ℚ) (p level e : ℚ) : Prop where
  /-- The level is one of the densities. -/
  mem : level ∈ z
  /-- The cells at or above it hold at least `p`. -/
  atLeast : p - e ≤ massOf z (fun a => decide (level ≤ a))
  /-- The cells above it hold at most `p`. -/
  atMost : massOf z (fun a => decide (level < a)) ≤ p + e

/-! ### Running sums -/

theorem cum_rel (vs : List ℚ) (hne : vs ≠ []) (hv : ∀ v ∈ vs, IsF v ∧ 0 ≤ v) (hn : vs.length ≤ 2 ^ 44) (hb : vs.sum ≤ 2 ^ 1000) :
    cumsum (fins vs) = fins (cumQ vs) ∧ (cumQ vs).Pairwise (· ≤ ·) ∧ (cumQ vs).length = vs.length ∧ (∀ a ∈ cumQ vs, IsF a ∧ 0 ≤ a) ∧
      ∀ i, i < vs.length → |(cumQ vs).getD i 0 - (vs.take (i + 1)).sum| ≤ (vs.length : ℚ) * 2 ^ (-52 : ℤ) * (vs.take (i + 1)).sum := by
  cases vs with
  | nil => exact absurd rfl hne
  | cons w t =>
    obtain ⟨fw, hw0⟩ := hv w (by simp)
    have ht0 : 0 ≤ t.sum := List.sum_nonneg (fun v h => (hv v (by simp [h])).2)
    rw [List.length_cons] at hn
    rw [List.sum_cons] at hb
    have gl := FloatReduce.growth_le t.length (by omega)
    have hsmall : (t.length : ℚ) * 2 ^ (-52 : ℤ) ≤ 1 := by
      have h2 : (t.length : ℚ) ≤ 2 ^ 52 := by exact_mod_cast (by omega : t.length ≤ 2 ^ 52)
      refine le_trans (mul_le_mul_of_nonneg_right h2 (pow_pos' _).le) ?_
      norm_num
    have hb' : ((1 : ℚ) + 2 ^ (-53 : ℤ)) ^ (0 + t.length) * (w + t.sum) ≤ 2 ^ 1001 := by
      rw [zero_add, show 1001 = 1 + 1000 from rfl, pow_add]
      refine mul_le_mul (le_trans gl (by linarith only [hsmall])) hb (by linarith only [hw0, ht0]) (by norm_num)
    obtain ⟨a1, a2, a3, a4, a5⟩ := accum_spec (B := 2 ^ 1001) (pow_le_pow_right₀ (by norm_num) (by norm_num)) 0 w w fw hw0 hw0 (by simp) t (fun v h => hv v (by simp [h])) hb'
    refine ⟨?_, a2, by simp [cumQ, a3], ?_, ?_⟩
    · show Num.fin w :: accum (.fin w) (fins t) = _
      rw [a1]; rfl
    · intro c hc
      rcases List.mem_cons.mp hc with rfl | hc
      · exact ⟨fw, hw0⟩
      · exact ⟨(a4 c hc).1, (a4 c hc).2.1⟩
    · intro i hi
      have hC : 0 ≤ ((w :: t).take (i + 1)).sum := List.sum_nonneg (fun v h => (hv v (List.mem_of_mem_take h)).2)
      have pos : (0 : ℚ) ≤ ((w :: t).length : ℚ) * 2 ^ (-52 : ℤ) := mul_nonneg (Nat.cast_nonneg _) (pow_pos' _).le
      cases i with
      | zero =>
        have e : (cumQ (w :: t)).getD 0 0 - (List.take (0 + 1) (w :: t)).sum = 0 := by simp [cumQ]
        rw [e, abs_zero]
        exact mul_nonneg pos hC
      | succ i =>
        have h := a5 i (by simpa using hi)
        have e : (List.take (i + 1 + 1) (w :: t)).sum = w + (t.take (i + 1)).sum := by simp
        rw [e] at hC ⊢
        refine le_trans h (mul_le_mul_of_nonneg_right ?_ hC)
        rw [zero_add]
        have l : (t.length : ℚ) * 2 ^ (-52 : ℤ) ≤ ((w :: t).length : ℚ) * 2 ^ (-52 : ℤ) :=
          mul_le_mul_of_nonneg_right (by rw [List.length_cons]; push_cast; linarith) (pow_pos' _).le
        linarith only [gl, l]

theorem ratio_alg {c C t T e : ℚ} (he0 : 0 ≤ e) (he : e ≤ 1 / 4) (hC : 0 ≤ C) (hT : 0 < T) (hCT : C ≤ T) (hc : |c - C| ≤ e * C) (ht : |t - T| ≤ e * T) :
    0 < t ∧ |c / t - C / T| ≤ 3 * e := by
  have c1 := (abs_le.mp hc).1
  have c2 := (abs_le.mp hc).2
  have t1 := (abs_le.mp ht).1
  have t2 := (abs_le.mp ht).2
  have eT : e * T ≤ 1 / 4 * T := mul_le_mul_of_nonneg_right he hT.le
  have t0 : 0 < t := by linarith
  refine ⟨t0, ?_⟩
  have e1 : c / t - C / T = (c * T - C * t) / (t * T) := by field_simp
  rw [e1, abs_div, abs_of_pos (mul_pos t0 hT), div_le_iff₀ (mul_pos t0 hT)]
  have eC : e * C ≤ e * T := mul_le_mul_of_nonneg_left hCT he0
  have k1 : |c * T - C * t| ≤ 2 * (e * C * T) := by
    rw [show c * T - C * t = (c - C) * T - C * (t - T) by ring]
    refine le_trans (abs_sub _ _) ?_
    rw [abs_mul, abs_mul, abs_of_pos hT, abs_of_nonneg hC]
    have a1 : |c - C| * T ≤ e * C * T := mul_le_mul_of_nonneg_right hc hT.le
    have a2 : C * |t - T| ≤ C * (e * T) := mul_le_mul_of_nonneg_left ht hC
    linarith
  have k2 : e * C * T ≤ e * T * T := mul_le_mul_of_nonneg_right eC hT.le
  have k3 : e * T * (3 / 4 * T) ≤ e * T * t := mul_le_mul_of_nonneg_left (by linarith) (mul_nonneg he0 hT.le)
  nlinarith

/-- The cumulated fractions. -/
def probQ (vs : List ℚ) : List ℚ := (cumQ vs).map (fun c => rnd (c / (cumQ vs).getLastD 0))

theorem getD_get {l : List ℚ} {d : ℚ} {i : Nat} (h : i < l.length) : l.getD i d = l[i] := by
  rw [List.getD_eq_getElem?_getD, List.getElem?_eq_getElem h]; rfl

theorem getD_getN {l : List Num} {d : Num} {i : Nat} (h : i < l.length) : l.getD i d = l[i] := by
  rw [List.getD_eq_getElem?_getD, List.getElem?_eq_getElem h]; rfl

theorem pair_getD {l : List ℚ} (h : l.Pairwise (· ≤ ·)) {i j : Nat} (hij : i ≤ j) (hj : j < l.length) : l.getD i 0 ≤ l.getD j 0 := by
  rw [getD_get (by omega), getD_get hj]
  exact pw_le h hij hj

theorem getLastD_getD (l : List ℚ) (h : l ≠ []) : l.getLastD 0 = l.getD (l.length - 1) 0 := by
  rw [List.getLastD_eq_getLast?, List.getLast?_eq_getElem?]
  rfl

theorem prob_spec (vs : List ℚ) (hv : ∀ v ∈ vs, IsF v ∧ 0 ≤ v) (hpos : 0 < vs.sum) (hn : vs.length ≤ 2 ^ 44) (hb : vs.sum ≤ 2 ^ 1000) :
    (∃ tot, (cumsum (fins vs)).getLast? = some tot ∧ (cumsum (fins vs)).map (fun c => Num.div c tot) = fins (probQ vs)) ∧ (probQ vs).length = vs.length ∧ (probQ vs).Pairwise (· ≤ ·) ∧
      (probQ vs).getD (vs.length - 1) 0 = 1 ∧
      ∀ i, i < vs.length → |(probQ vs).getD i 0 - (vs.take (i + 1)).sum / vs.sum| ≤ (vs.length : ℚ) * 2 ^ (-50 : ℤ) := by
  have hne : vs ≠ [] := by rintro rfl; simp at hpos
  have hl : 1 ≤ vs.length := List.length_pos_iff.mpr hne
  obtain ⟨c1, c2, c3, c4, c5⟩ := cum_rel vs hne hv hn hb
  have hcne : cumQ vs ≠ [] := by intro h; rw [h] at c3; simp at c3; omega
  have hlast := getLastD_getD (cumQ vs) hcne
  rw [c3] at hlast
  have hTl := c5 (vs.length - 1) (by omega)
  rw [Nat.sub_add_cancel hl, List.take_length, ← hlast] at hTl
  have he0 : (0 : ℚ) ≤ (vs.length : ℚ) * 2 ^ (-52 : ℤ) := mul_nonneg (Nat.cast_nonneg _) (pow_pos' _).le
  have he : (vs.length : ℚ) * 2 ^ (-52 : ℤ) ≤ 1 / 4 := by
    have h2 : (vs.length : ℚ) ≤ 2 ^ 44 := by exact_mod_cast hn
    refine le_trans (mul_le_mul_of_nonneg_right h2 (pow_pos' _).le) ?_
    norm_num
  have ratio : ∀ i, i < vs.length → 0 < (cumQ vs).getLastD 0 ∧ |(cumQ vs).getD i 0 / (cumQ vs).getLastD 0 - (vs.take (i + 1)).sum / vs.sum| ≤ 3 * ((vs.length : ℚ) * 2 ^ (-52 : ℤ)) := by
    intro i hi
    refine ratio_alg he0 he (List.sum_nonneg (fun v h => (hv v (List.mem_of_mem_take h)).2)) hpos ?_ (c5 i hi) hTl
    have := TwoDim.take_add_drop_sum vs (i + 1)
    have d0 : 0 ≤ (vs.drop (i + 1)).sum := List.sum_nonneg (fun v h => (hv v (List.mem_of_mem_drop h)).2)
    linarith
  have t0 := (ratio 0 (by omega)).1
  have quot : ∀ i, i < vs.length → 0 ≤ (cumQ vs).getD i 0 / (cumQ vs).getLastD 0 ∧ (cumQ vs).getD i 0 / (cumQ vs).getLastD 0 ≤ 1 := by
    intro i hi
    have m : (cumQ vs).getD i 0 ∈ cumQ vs := by
      rw [getD_get (by omega)]; exact List.getElem_mem _
    refine ⟨div_nonneg (c4 _ m).2 t0.le, ?_⟩
    rw [div_le_one t0, hlast]
    exact pair_getD c2 (by omega) (by omega)
  have len : (probQ vs).length = vs.length := by unfold probQ; rw [List.length_map, c3]
  have get : ∀ i, i < vs.length → (probQ vs).getD i 0 = rnd ((cumQ vs).getD i 0 / (cumQ vs).getLastD 0) := by
    intro i hi
    rw [getD_get (by omega), getD_get (by omega)]
    unfold probQ
    rw [List.getElem_map]
  refine ⟨⟨.fin ((cumQ vs).getLastD 0), ?_, ?_⟩, len, ?_, ?_, ?_⟩
  · rw [c1]
    unfold fins
    rw [List.getLast?_map, List.getLastD_eq_getLast?, List.getLast?_eq_some_getLast hcne]
    rfl
  · rw [c1]
    unfold probQ fins
    rw [List.map_map, List.map_map]
    refine List.map_congr_left (fun c hc => ?_)
    obtain ⟨i, hi, rfl⟩ := List.getElem_of_mem hc
    have q := quot i (by omega)
    rw [getD_get hi] at q
    refine FloatStandardize.div_fin t0.ne' ?_
    rw [abs_of_nonneg q.1]
    exact le_trans q.2 (one_le_pow₀ (by norm_num))
  · unfold probQ
    rw [List.pairwise_map]
    refine c2.imp (fun {a b} h => rnd_mono ?_)
    exact div_le_div_of_nonneg_right h t0.le
  · rw [get _ (by omega), ← hlast, div_self t0.ne']
    decide +kernel
  · intro i hi
    rw [get i hi]
    have r := FloatMesh.rnd_err_all ((cumQ vs).getD i 0 / (cumQ vs).getLastD 0)
    have q := quot i hi
    rw [abs_of_nonneg q.1] at r
    have hr := (ratio i hi).2
    have tri := abs_add_le (rnd ((cumQ vs).getD i 0 / (cumQ vs).getLastD 0) - (cumQ vs).getD i 0 / (cumQ vs).getLastD 0)
      ((cumQ vs).getD i 0 / (cumQ vs).getLastD 0 - (vs.take (i + 1)).sum / vs.sum)
    rw [sub_add_sub_cancel] at tri
    have hu : (2 : ℚ) ^ (-53 : ℤ) * ((cumQ vs).getD i 0 / (cumQ vs).getLastD 0) ≤ 2 ^ (-53 : ℤ) * 1 := mul_le_mul_of_nonneg_left q.2 (pow_pos' _).le
    have hz : (2 : ℚ) ^ (-1075 : ℤ) ≤ 2 ^ (-53 : ℤ) := zpow_le_zpow_right₀ (by norm_num) (by norm_num)
    have hnl : (1 : ℚ) ≤ vs.length := by exact_mod_cast hl
    rw [show (2 : ℚ) ^ (-50 : ℤ) = 8 * 2 ^ (-53 : ℤ) by norm_num]
    rw [show (2 : ℚ) ^ (-52 : ℤ) = 2 * 2 ^ (-53 : ℤ) by norm_num] at hr
    have up := pow_pos' (-53)
    have un : (2 : ℚ) ^ (-53 : ℤ) * 1 ≤ 2 ^ (-53 : ℤ) * vs.length := mul_le_mul_of_nonneg_left hnl up.le
    generalize (2 : ℚ) ^ (-1075 : ℤ) = z at *
    generalize (2 : ℚ) ^ (-53 : ℤ) = u at *
    linarith only [r, hr, tri, hu, hz, un]

/-! ### The search -/

/-- How many come before. -/
def count (l : List ℚ) (v : ℚ) : Nat := (l.takeWhile (fun c => decide (c < v))).length

theorem ssLeft_fin (l : List ℚ) (v : ℚ) : ssLeft (fins l) (.fin v) = count l v := by
  unfold ssLeft count fins
  rw [List.takeWhile_map, List.length_map]
  rfl

theorem count_le (l : List ℚ) (v : ℚ) : count l v ≤ l.length := (List.takeWhile_sublist _).length_le

theorem count_spec (l : List ℚ) (v : ℚ) : (∀ i, i < count l v → l.getD i 0 < v) ∧ (count l v < l.length → v ≤ l.getD (count l v) 0) := by
  induction l with
  | nil => simp [count]
  | cons a t ih =>
    by_cases h : a < v
    · have e : count (a :: t) v = count t v + 1 := by simp [count, h]
      rw [e]
      refine ⟨fun i hi => ?_, fun hi => ?_⟩
      · cases i with
        | zero => simpa using h
        | succ i => simpa using ih.1 i (by omega)
      · simpa using ih.2 (by simpa using hi)
    · have e : count (a :: t) v = 0 := by simp [count, h]
      rw [e]
      exact ⟨fun i hi => absurd hi (by omega), fun _ => by simpa using h⟩

theorem count_mono (l : List ℚ) {v w : ℚ} (h : v ≤ w) : count l v ≤ count l w := by
  induction l with
  | nil => simp [count]
  | cons a t ih =>
    by_cases h1 : a < v
    · have h2 : a < w := lt_of_lt_of_le h1 h
      simp only [count, List.takeWhile_cons, h1, h2, decide_true, if_true, List.length_cons] at ih ⊢
      omega
    · have e : count (a :: t) v = 0 := by simp [count, h1]
      omega

/-! ### Levels -/

/-- The level as a number. -/
def levelQ (z : List ℚ) (shift : Int) (p : ℚ) : ℚ := (Pyhipp.npSort z).getD (TwoDim.clip ((count (probQ (Pyhipp.npSort z)) (rnd (1 - p)) : Int) + shift) z.length) 0

theorem Dens.sort {z : List ℚ} (h : Dens z) : (∀ v ∈ Pyhipp.npSort z, IsF v ∧ 0 ≤ v) ∧ 0 < (Pyhipp.npSort z).sum ∧ (Pyhipp.npSort z).length ≤ 2 ^ 44 ∧ (Pyhipp.npSort z).sum ≤ 2 ^ 1000 := by
  have hp := npSort_perm z
  rw [hp.sum_eq, hp.length_eq]
  exact ⟨fun v hv => h.dbl v (hp.mem_iff.mp hv), h.pos, h.few, h.big⟩

theorem sort_nan (z : List ℚ) : npSortNan (fins z) = fins (Pyhipp.npSort z) := by
  unfold npSortNan
  have e1 : (fins z).filter (fun a => a ≠ .nan) = fins z := by
    rw [List.filter_eq_self]
    intro a ha
    obtain ⟨q, -, rfl⟩ := List.mem_map.mp ha
    simp
  have e2 : (fins z).filter (fun a => a = .nan) = [] := by
    rw [List.filter_eq_nil_iff]
    intro a ha
    obtain ⟨q, -, rfl⟩ := List.mem_map.mp ha
    simp
  rw [e1, e2, List.append_nil, sort_fin]

theorem clip_lt {n : Nat} (hn : 0 < n) (i : Int) : TwoDim.clip i n < n := by unfold TwoDim.clip; omega

theorem clip_id {k n : Nat} (h : k < n) : TwoDim.clip ((k : Int) + 0) n = k := by unfold TwoDim.clip; omega

theorem near_lower {p P F r e e' u : ℚ} (a1 : P < r) (a2 : -e ≤ P - F) (a3 : r - (1 - p) ≤ u * (1 - p)) (er : u * (1 - p) ≤ u * 1) (fc : e + u ≤ e') : p - e' ≤ 1 - F := by
  linarith

theorem near_upper {p P F r e e' u : ℚ} (a1 : r ≤ P) (a2 : P - F ≤ e) (a3 : -(u * (1 - p)) ≤ r - (1 - p)) (er : u * (1 - p) ≤ u * 1) (fc : e + u ≤ e') : 1 - F ≤ p + e' := by
  linarith

theorem one_sub {p : ℚ} (h : 0 ≤ p ∧ p ≤ 1) : Num.sub (.fin 1) (.fin p) = .fin (rnd (1 - p)) := by
  refine FloatLinear.sub_fin ?_ ?_
  · exact (abs_of_pos one_pos).le.trans (one_le_pow₀ (by norm_num))
  · exact (abs_of_nonneg h.1).le.trans (h.2.trans (one_le_pow₀ (by norm_num)))

theorem levels_eq {z : List ℚ} (h : Dens z) (shift : Int) (ps : List ℚ) (hps : ∀ p ∈ ps, 0 ≤ p ∧ p ≤ 1) : zLevels (fins z) (fins ps) shift = .ok (fins (ps.map (levelQ z shift))) := by
  obtain ⟨v1, v2, v3, v4⟩ := h.sort
  obtain ⟨⟨tot, t1, t2⟩, pl, -, -, -⟩ := prob_spec _ v1 v2 v3 v4
  have hl : 0 < z.length := by
    rcases Nat.eq_zero_or_pos z.length with e | e
    · have := h.pos; rw [List.eq_nil_of_length_eq_zero e] at this; simp at this
    · exact e
  unfold zLevels cumProbMass
  rw [sort_nan]
  dsimp only
  rw [t1]
  dsimp only
  rw [t2]
  refine congrArg Except.ok ?_
  unfold fins
  rw [List.map_map, List.map_map]
  refine List.map_congr_left (fun p hp => ?_)
  show levelAt (fins _) (fins _) shift (.fin p) = .fin (levelQ z shift p)
  unfold levelAt levelQ
  rw [one_sub (hps p hp)]
  dsimp only
  rw [ssLeft_fin, FloatLinear.fins_length, pl, npSort_length]
  have hc := clip_lt hl ((count (probQ (Pyhipp.npSort z)) (rnd (1 - p)) : Int) + shift)
  rw [getD_getN (by rw [FloatLinear.fins_length, npSort_length]; exact hc), getD_get (by rw [npSort_length]; exact hc)]
  unfold fins
  rw [List.getElem_map]

theorem mass_ge {z : List ℚ} (hnn : ∀ a ∈ z, 0 ≤ a) (hpos : 0 < z.sum) {k : Nat} (hk : k < z.length) :
    1 - ((Pyhipp.npSort z).take k).sum / z.sum ≤ massOf z (fun a => decide ((Pyhipp.npSort z).getD k 0 ≤ a)) := by
  have hperm := npSort_perm z
  have hsrt := npSort_sorted z
  have hkk : k < (Pyhipp.npSort z).length := by rw [npSort_length]; exact hk
  rw [getD_get hkk]
  unfold massOf
  rw [← (hperm.filter _).sum_eq, le_div_iff₀ hpos, sub_mul, one_mul, div_mul_cancel₀ _ hpos.ne', ← hperm.sum_eq]
  have := TwoDim.take_add_drop_sum (Pyhipp.npSort z) k
  have e : ((Pyhipp.npSort z).filter (fun a => decide ((Pyhipp.npSort z)[k] ≤ a))).sum =
      (((Pyhipp.npSort z).take k).filter (fun a => decide ((Pyhipp.npSort z)[k] ≤ a))).sum + (((Pyhipp.npSort z).drop k).filter (fun a => decide ((Pyhipp.npSort z)[k] ≤ a))).sum := by
    rw [← List.sum_append, ← List.filter_append, List.take_append_drop]
  have e2 : ((Pyhipp.npSort z).drop k).filter (fun a => decide ((Pyhipp.npSort z)[k] ≤ a)) = (Pyhipp.npSort z).drop k := by
    rw [List.filter_eq_self]
    intro a ha
    obtain ⟨i, hi, rfl⟩ := List.mem_iff_getElem.mp ha
    rw [List.getElem_drop]
    simp only [decide_eq_true_eq]
    exact pw_le hsrt (by omega) (by simp at hi; omega)
  rw [e, e2]
  have h0 : 0 ≤ (((Pyhipp.npSort z).take k).filter (fun a => decide ((Pyhipp.npSort z)[k] ≤ a))).sum :=
    List.sum_nonneg (fun a ha => hnn a (hperm.mem_iff.mp (List.mem_of_mem_take (List.mem_of_mem_filter ha))))
  linarith

theorem mass_le {z : List ℚ} (hnn : ∀ a ∈ z, 0 ≤ a) (hpos : 0 < z.sum) {k : Nat} (hk : k < z.length) :
    massOf z (fun a => decide ((Pyhipp.npSort z).getD k 0 < a)) ≤ 1 - ((Pyhipp.npSort z).take (k + 1)).sum / z.sum := by
  have hperm := npSort_perm z
  have hsrt := npSort_sorted z
  have hkk : k < (Pyhipp.npSort z).length := by rw [npSort_length]; exact hk
  rw [getD_get hkk]
  unfold massOf
  rw [← (hperm.filter _).sum_eq, div_le_iff₀ hpos, sub_mul, one_mul, div_mul_cancel₀ _ hpos.ne', ← hperm.sum_eq]
  have := TwoDim.take_add_drop_sum (Pyhipp.npSort z) (k + 1)
  have e : ((Pyhipp.npSort z).filter (fun a => decide ((Pyhipp.npSort z)[k] < a))).sum =
      (((Pyhipp.npSort z).take (k + 1)).filter (fun a => decide ((Pyhipp.npSort z)[k] < a))).sum +
        (((Pyhipp.npSort z).drop (k + 1)).filter (fun a => decide ((Pyhipp.npSort z)[k] < a))).sum := by
    rw [← List.sum_append, ← List.filter_append, List.take_append_drop]
  have e2 : ((Pyhipp.npSort z).take (k + 1)).filter (fun a => decide ((Pyhipp.npSort z)[k] < a)) = [] := by
    rw [List.filter_eq_nil_iff]
    intro a ha
    obtain ⟨i, hi, rfl⟩ := List.mem_iff_getElem.mp ha
    rw [List.getElem_take]
    simp only [decide_eq_true_eq, not_lt]
    simp at hi
    exact pw_le hsrt (by omega) hkk
  have hle := TwoDim.filter_sum_le ((Pyhipp.npSort z).drop (k + 1)) (fun a ha => hnn a (hperm.mem_iff.mp (List.mem_of_mem_drop ha))) (fun a => decide ((Pyhipp.npSort z)[k] < a))
  rw [e, e2, List.sum_nil]
  linarith

theorem levelQ_mem {z : List ℚ} (h : Dens z) (shift : Int) (p : ℚ) : levelQ z shift p ∈ z := by
  have hl : 0 < z.length := by
    rcases Nat.eq_zero_or_pos z.length with e | e
    · have := h.pos; rw [List.eq_nil_of_length_eq_zero e] at this; simp at this
    · exact e
  have hc := clip_lt hl ((count (probQ (Pyhipp.npSort z)) (rnd (1 - p)) : Int) + shift)
  unfold levelQ
  rw [getD_get (by rw [npSort_length]; exact hc)]
  exact (npSort_perm z).mem_iff.mp (List.getElem_mem _)

theorem levelQ_mono {z : List ℚ} (h : Dens z) {s s' : Int} (hs : s ≤ s') {p q : ℚ} (hpq : p ≤ q) : levelQ z s q ≤ levelQ z s' p := by
  have hl : 0 < z.length := by
    rcases Nat.eq_zero_or_pos z.length with e | e
    · have := h.pos; rw [List.eq_nil_of_length_eq_zero e] at this; simp at this
    · exact e
  have hm := count_mono (probQ (Pyhipp.npSort z)) (rnd_mono (by linarith : 1 - q ≤ 1 - p))
  have hc := clip_lt hl ((count (probQ (Pyhipp.npSort z)) (rnd (1 - p)) : Int) + s')
  unfold levelQ
  refine pair_getD (npSort_sorted z) ?_ (by rw [npSort_length]; exact hc)
  unfold TwoDim.clip
  omega

theorem few_const {n : ℚ} (hn : 1 ≤ n) : n * 2 ^ (-50 : ℤ) + 2 ^ (-53 : ℤ) ≤ n * 2 ^ (-49 : ℤ) := by
  rw [show (2 : ℚ) ^ (-50 : ℤ) = 8 * 2 ^ (-53 : ℤ) by norm_num, show (2 : ℚ) ^ (-49 : ℤ) = 16 * 2 ^ (-53 : ℤ) by norm_num]
  have up := pow_pos' (-53)
  have : (2 : ℚ) ^ (-53 : ℤ) * 1 ≤ 2 ^ (-53 : ℤ) * n := mul_le_mul_of_nonneg_left hn up.le
  linarith

/-- C144: for densities that are doubles, not negative and not all zero, and fractions in [0, 1], `z_level_at_percentile` returns for each fraction a density of the mesh
that encloses it, up to n 2^-49 of the total (n cells); a larger fraction never has a higher level, and the fraction 1 has the smallest density. -/
theorem C144_encloses {z : List ℚ} (h : Dens z) : ∃ level : ℚ → ℚ,
    (∀ ps : List ℚ, (∀ p ∈ ps, IsF p ∧ 0 ≤ p ∧ p ≤ 1) → zLevels (fins z) (fins ps) 0 = .ok (fins (ps.map level))) ∧
    (∀ p, IsF p → 0 ≤ p → p ≤ 1 → Near z p (level p) (z.length * 2 ^ (-49 : ℤ))) ∧
    (∀ p q, p ≤ q → level q ≤ level p) ∧ (∀ a ∈ z, level 1 ≤ a) := by
  obtain ⟨v1, v2, v3, v4⟩ := h.sort
  obtain ⟨-, pl, ps, p1, pe⟩ := prob_spec _ v1 v2 v3 v4
  rw [npSort_length] at pl p1 pe
  rw [(npSort_perm z).sum_eq] at pe
  have hl : 0 < z.length := by
    rcases Nat.eq_zero_or_pos z.length with e | e
    · have := h.pos; rw [List.eq_nil_of_length_eq_zero e] at this; simp at this
    · exact e
  have hnn : ∀ a ∈ z, 0 ≤ a := fun a ha => (h.dbl a ha).2
  have n1 : (1 : ℚ) ≤ z.length := by exact_mod_cast hl
  refine ⟨levelQ z 0, fun ps hps => levels_eq h 0 ps (fun p hp => (hps p hp).2), fun p fp p0 p1' => ?_, fun p q hpq => levelQ_mono h (le_refl 0) hpq, fun a ha => ?_⟩
  · -- the position
    have f1 : IsF 1 := by decide +kernel
    have er := rnd_sub_err f1 fp
    rw [abs_of_nonneg (by linarith : 0 ≤ 1 - p)] at er
    have er' : (2 : ℚ) ^ (-53 : ℤ) * (1 - p) ≤ 2 ^ (-53 : ℤ) * 1 := mul_le_mul_of_nonneg_left (by linarith) (pow_pos' _).le
    have r1 : rnd (1 - p) ≤ 1 := rnd_le (by linarith) f1
    obtain ⟨s1, s2⟩ := count_spec (probQ (Pyhipp.npSort z)) (rnd (1 - p))
    have cle := count_le (probQ (Pyhipp.npSort z)) (rnd (1 - p))
    rw [pl] at cle s2
    have kl : count (probQ (Pyhipp.npSort z)) (rnd (1 - p)) < z.length := by
      rcases Nat.lt_or_ge (count (probQ (Pyhipp.npSort z)) (rnd (1 - p))) z.length with k | k
      · exact k
      · have := s1 (z.length - 1) (by omega)
        rw [p1] at this
        linarith
    have elev : levelQ z 0 p = (Pyhipp.npSort z).getD (count (probQ (Pyhipp.npSort z)) (rnd (1 - p))) 0 := by
      unfold levelQ
      rw [clip_id kl]
    generalize count (probQ (Pyhipp.npSort z)) (rnd (1 - p)) = k at *
    have fc := few_const n1
    refine ⟨levelQ_mem h 0 p, ?_, ?_⟩
    · rw [elev]
      refine le_trans ?_ (mass_ge hnn h.pos kl)
      cases k with
      | zero =>
        rw [List.take_zero, List.sum_nil, zero_div]
        have : (0 : ℚ) ≤ z.length * 2 ^ (-49 : ℤ) := mul_nonneg (Nat.cast_nonneg _) (pow_pos' _).le
        linarith
      | succ j =>
        have a1 := s1 j (by omega)
        have a2 := (abs_le.mp (pe j (by omega))).1
        have a3 := (abs_le.mp er).2
        exact near_lower a1 a2 a3 er' fc
    · rw [elev]
      refine le_trans (mass_le hnn h.pos kl) ?_
      have a1 := s2 kl
      have a2 := (abs_le.mp (pe k kl)).2
      have a3 := (abs_le.mp er).1
      exact near_upper a1 a2 a3 er' fc
  · have hz : rnd (1 - 1) = 0 := by decide +kernel
    have hmem : ∀ i, i < z.length → 0 ≤ (probQ (Pyhipp.npSort z)).getD i 0 := by
      intro i hi
      have hne : Pyhipp.npSort z ≠ [] := by intro e; rw [e] at v2; simp at v2
      rw [getD_get (by omega)]
      unfold probQ
      rw [List.getElem_map]
      obtain ⟨-, -, c3, c4, -⟩ := cum_rel _ hne v1 v3 v4
      have hcne : cumQ (Pyhipp.npSort z) ≠ [] := by intro e; rw [e] at c3; exact hne (List.eq_nil_of_length_eq_zero c3.symm)
      refine rnd_nonneg (div_nonneg (c4 _ (List.getElem_mem _)).2 ?_)
      rw [getLastD_getD _ hcne, getD_get (by have := List.length_pos_iff.mpr hcne; omega)]
      exact (c4 _ (List.getElem_mem _)).2
    have k0 : count (probQ (Pyhipp.npSort z)) 0 = 0 := by
      rcases Nat.eq_zero_or_pos (count (probQ (Pyhipp.npSort z)) 0) with e | e
      · exact e
      · have a1 := (count_spec (probQ (Pyhipp.npSort z)) 0).1 0 e
        have a2 := hmem 0 hl
        linarith
    have elev : levelQ z 0 1 = (Pyhipp.npSort z).getD 0 0 := by
      unfold levelQ
      rw [hz, k0, clip_id hl]
    rw [elev]
    obtain ⟨i, hi, rfl⟩ := List.getElem_of_mem ((npSort_perm z).mem_iff.mpr ha)
    rw [← getD_get hi]
    exact pair_getD (npSort_sorted z) (Nat.zero_le _) hi


/-! ### Hidden points -/

theorem mass_mono {z : List ℚ} (hnn : ∀ a ∈ z, 0 ≤ a) (hpos : 0 < z.sum) {l l' : ℚ} (h : l' ≤ l) :
    massOf z (fun a => decide (l ≤ a)) ≤ massOf z (fun a => decide (l' ≤ a)) := by
  unfold massOf
  refine div_le_div_of_nonneg_right ?_ hpos.le
  have e : (z.filter (fun a => decide (l ≤ a))) = (z.filter (fun a => decide (l' ≤ a))).filter (fun a => decide (l ≤ a)) := by
    rw [List.filter_filter]
    refine List.filter_congr (fun a _ => ?_)
    by_cases h1 : l ≤ a
    · simp [h1, le_trans h h1]
    · simp [h1]
  rw [e]
  exact TwoDim.filter_sum_le _ (fun a ha => hnn a (List.mem_of_mem_filter ha)) _

/-- C144: `scatter(hidden_in_p)` draws exactly the points whose density is below a level; the level is a density of the mesh, not above the contour of the same fraction, and the
cells at or above it hold at least that fraction, up to n 2^-49.  Without `hidden_in_p` all points are drawn. -/
theorem C144_scatter {z : List ℚ} (h : Dens z) {p : ℚ} (fp : IsF p) (p0 : 0 ≤ p) (p1 : p ≤ 1) (dens : List Num) :
    shown (fins z) dens none = .ok (dens.map (fun _ => true)) ∧
    ∃ level contour : ℚ, zLevels (fins z) [.fin p] 0 = .ok [.fin contour] ∧ level ≤ contour ∧ level ∈ z ∧
      shown (fins z) dens (some (.fin p)) = .ok (dens.map (fun a => Num.lt a (.fin level))) ∧
      p - z.length * 2 ^ (-49 : ℤ) ≤ massOf z (fun a => decide (level ≤ a)) := by
  obtain ⟨L, l1, l2, -, -⟩ := C144_encloses h
  have hp : ∀ q ∈ [p], 0 ≤ q ∧ q ≤ 1 := by
    intro q hq
    rw [List.mem_singleton] at hq
    subst hq
    exact ⟨p0, p1⟩
  have e0 := levels_eq h 0 [p] hp
  have e1 := levels_eq h (-1) [p] hp
  have eL := l1 [p] (fun q hq => by rw [List.mem_singleton] at hq; subst hq; exact ⟨fp, p0, p1⟩)
  have same : L p = levelQ z 0 p := by
    rw [e0] at eL
    have := Except.ok.inj eL
    simp only [List.map_cons, List.map_nil, fins] at this
    exact (Num.fin.inj (List.cons.inj this).1).symm
  have hle := levelQ_mono h (s := -1) (s' := 0) (by omega) (le_refl p)
  refine ⟨rfl, levelQ z (-1) p, levelQ z 0 p, e0, hle, levelQ_mem h (-1) p, ?_, ?_⟩
  · have e2 : zLevels (fins z) [.fin p] (-1) = .ok [.fin (levelQ z (-1) p)] := e1
    unfold shown
    dsimp only
    rw [e2]
    rfl
  · refine le_trans ((l2 p fp p0 p1).atLeast) ?_
    rw [same]
    exact mass_mono (fun a ha => (h.dbl a ha).2) h.pos hle

/-! ### NaN, infinities, nothing -/

/-- The order of `np.sort`, NaN last. -/
def leN (a b : Num) : Bool := b = .nan || (a ≠ .nan && Num.le a b)

theorem leN_trans (a b c : Num) (h1 : leN a b = true) (h2 : leN b c = true) : leN a c = true := by
  rcases a with _ | x | x <;> rcases b with _ | y | y <;> rcases c with _ | w | w <;> simp_all [leN, Num.le]
  all_goals grind

theorem leN_total (a b : Num) : (leN a b || leN b a) = true := by
  rcases a with _ | x | x <;> rcases b with _ | y | y <;> simp [leN, Num.le]
  all_goals grind

theorem sort_head (z : List Num) (hz : ∀ a ∈ z, a ≠ .nan) : (FloatQuantile.npSort z).Perm z ∧ ∀ a ∈ z, Num.le ((FloatQuantile.npSort z).getD 0 .nan) a = true := by
  unfold FloatQuantile.npSort
  have hp : (z.mergeSort Num.le).Perm z := List.mergeSort_perm z _
  refine ⟨hp, fun a ha => ?_⟩
  have e : z.mergeSort Num.le = z.mergeSort leN := by
    have := List.map_mergeSort (r := Num.le) (s := leN) (f := id) (l := z) (fun a ha b hb => by simp [leN, hz a ha, hz b hb])
    simpa using this
  have srt : (z.mergeSort Num.le).Pairwise (fun a b => leN a b = true) := by
    rw [e]
    exact List.pairwise_mergeSort (fun a b c => leN_trans a b c) (fun a b => leN_total a b) z
  have ha' := hp.mem_iff.mpr ha
  have hm : ∀ b ∈ z.mergeSort Num.le, b ≠ .nan := fun b hb => hz b (hp.mem_iff.mp hb)
  revert ha' srt hm
  generalize z.mergeSort Num.le = s
  intro srt ha' hm
  cases s with
  | nil => simp at ha'
  | cons b t =>
    show Num.le b a = true
    rcases List.mem_cons.mp ha' with rfl | h
    · have := hm a (by simp)
      rcases a with _ | x | x <;> simp_all [Num.le]
    · have := (List.pairwise_cons.mp srt).1 a h
      have n1 := hz a ha
      have n2 := hm b (by simp)
      simpa [leN, n1, n2] using this

theorem cum_ne {s : List Num} (h : s ≠ []) : cumsum s ≠ [] := by cases s <;> simp_all [cumsum]

theorem cum_length (s : List Num) : (cumsum s).length = s.length := by
  have : ∀ (t : List Num) (a : Num), (accum a t).length = t.length := by
    intro t
    induction t with
    | nil => intro a; rfl
    | cons b t ih => intro a; simp [accum, ih]
  cases s <;> simp [cumsum, this]

/-- If no quotient is a number, all levels are the first of the ordered densities. -/
theorem levels_first {z : List Num} (hne : z ≠ []) (hq : ∀ c ∈ cumsum (npSortNan z), ∀ t, (cumsum (npSortNan z)).getLast? = some t → Num.div c t = .nan) (ps : List Num) (s : Int) (hs : s ≤ 0) :
    zLevels z ps s = .ok (ps.map (fun _ => (npSortNan z).getD 0 .nan)) := by
  have hl : 0 < z.length := List.length_pos_iff.mpr hne
  have hsl : (npSortNan z).length = z.length := by
    unfold npSortNan
    rw [List.length_append, FloatQuantile.npSort, (List.mergeSort_perm _ _).length_eq]
    have := List.length_eq_length_filter_add (l := z) (fun a => decide (a ≠ Num.nan))
    simp only [ne_eq, decide_not, Bool.not_not] at this ⊢
    omega
  have hc : cumsum (npSortNan z) ≠ [] := cum_ne (by intro e; rw [e] at hsl; simp at hsl; omega)
  have hlast := List.getLast?_eq_some_getLast hc
  unfold zLevels cumProbMass
  dsimp only
  rw [hlast]
  refine congrArg Except.ok (List.map_congr_left (fun p _ => ?_))
  show levelAt (npSortNan z) ((cumsum (npSortNan z)).map _) s p = _
  have e : (cumsum (npSortNan z)).map (fun c => Num.div c ((cumsum (npSortNan z)).getLast hc)) = (cumsum (npSortNan z)).map (fun _ => Num.nan) :=
    List.map_congr_left (fun c hcm => hq c hcm _ hlast)
  rw [e]
  unfold levelAt
  have k0 : ssLeft ((cumsum (npSortNan z)).map (fun _ => Num.nan)) (Num.sub (.fin 1) p) = 0 := by
    unfold ssLeft
    cases cumsum (npSortNan z) with
    | nil => rfl
    | cons c t => simp [Num.lt]
  dsimp only
  rw [k0, List.length_map, cum_length, hsl]
  have ec : TwoDim.clip (((0 : Nat) : Int) + s) z.length = 0 := by unfold TwoDim.clip; omega
  rw [ec]

/-- C144: a NaN in the densities makes every level, of every fraction, the smallest density of the mesh. -/
theorem C144_nan {z : List Num} (h : .nan ∈ z) (ps : List Num) (s : Int) (hs : s ≤ 0) :
    ∃ level, zLevels z ps s = .ok (ps.map (fun _ => level)) ∧ level ∈ z ∧ ∀ a ∈ z, a ≠ .nan → Num.le level a = true := by
  have hne : z ≠ [] := by rintro rfl; simp at h
  have accN : ∀ (t : List Num) (a : Num), (a = .nan ∨ .nan ∈ t) → (a :: accum a t).getLast? = some .nan := by
    intro t
    induction t with
    | nil => intro a ha; simpa [accum] using ha
    | cons b t ih =>
      intro a ha
      show (a :: Num.add a b :: accum (Num.add a b) t).getLast? = _
      rw [List.getLast?_cons_cons]
      refine ih _ ?_
      rcases ha with rfl | ha
      · left; rfl
      · rcases List.mem_cons.mp ha with e | ha
        · left; rw [← e]; cases a <;> rfl
        · right; exact ha
  have hm : Num.nan ∈ npSortNan z := by
    unfold npSortNan
    refine List.mem_append.mpr (Or.inr ?_)
    simpa using h
  have hlast : (cumsum (npSortNan z)).getLast? = some .nan := by
    revert hm
    generalize npSortNan z = t
    intro hm
    cases t with
    | nil => simp at hm
    | cons a t =>
      refine accN t a ?_
      rcases List.mem_cons.mp hm with e | e
      · left; exact e.symm
      · right; exact e
  refine ⟨_, levels_first hne (fun c _ t ht => ?_) ps s hs, ?_, ?_⟩
  · rw [hlast] at ht
    rw [← Option.some.inj ht]
    cases c <;> rfl
  · cases e : npSortNan z with
    | nil => rw [e] at hm; simp at hm
    | cons a t =>
      show a ∈ z
      have ha : a ∈ npSortNan z := by rw [e]; simp
      unfold npSortNan at ha
      rcases List.mem_append.mp ha with ha | ha
      · exact List.mem_of_mem_filter ((sort_head _ (fun b hb => by simpa using (List.mem_filter.mp hb).2)).1.mem_iff.mp ha)
      · exact List.mem_of_mem_filter ha
  · intro a ha hn
    have ha' : a ∈ z.filter (fun a => a ≠ .nan) := by simp [ha, hn]
    have := (sort_head (z.filter (fun a => a ≠ .nan)) (fun b hb => by simpa using (List.mem_filter.mp hb).2))
    have h2 := this.2 a ha'
    have hne' : FloatQuantile.npSort (z.filter (fun a => a ≠ .nan)) ≠ [] := by
      intro e
      have := this.1.length_eq
      rw [e] at this
      rw [List.eq_nil_of_length_eq_zero this.symm] at ha'
      simp at ha'
    unfold npSortNan
    revert h2 hne'
    generalize FloatQuantile.npSort (z.filter (fun a => a ≠ .nan)) = l
    intro h2 hne'
    cases l with
    | nil => exact absurd rfl hne'
    | cons b t => exact h2

theorem minus_inf_head {z : List Num} (h : .inf true ∈ z) : ∃ t, npSortNan z = .inf true :: t := by
  have ha' : Num.inf true ∈ z.filter (fun a => a ≠ .nan) := by simp [h]
  have := (sort_head (z.filter (fun a => a ≠ .nan)) (fun b hb => by simpa using (List.mem_filter.mp hb).2))
  have h2 := this.2 _ ha'
  unfold npSortNan
  have hm := this.1.mem_iff.mpr ha'
  revert h2 hm
  generalize FloatQuantile.npSort (z.filter (fun a => a ≠ .nan)) = l
  intro h2 hm
  cases l with
  | nil => simp at hm
  | cons b t =>
    refine ⟨t ++ z.filter (fun a => a = .nan), ?_⟩
    have : Num.le b (.inf true) = true := h2
    rcases b with _ | x | x
    · simp [Num.le] at this
    · cases x
      · simp [Num.le] at this
      · rfl
    · simp [Num.le] at this

/-- C144: if one of the (transformed) densities is minus infinity, as with `z_transform=np.log10` and an empty cell, every level is minus infinity, and `scatter(hidden_in_p)` draws no
point at all. -/
theorem C144_minus_inf {z : List Num} (h : .inf true ∈ z) (ps : List Num) (dens : List Num) (p : Num) :
    zLevels z ps 0 = .ok (ps.map (fun _ => .inf true)) ∧ shown z dens (some p) = .ok (dens.map (fun _ => false)) := by
  have hne : z ≠ [] := by rintro rfl; simp at h
  obtain ⟨t, et⟩ := minus_inf_head h
  have accI : ∀ (t : List Num) (a : Num), (a = .nan ∨ a = .inf true) → ∀ c ∈ a :: accum a t, c = .nan ∨ c = .inf true := by
    intro t
    induction t with
    | nil => intro a ha c hc; simp [accum] at hc; subst hc; exact ha
    | cons b t ih =>
      intro a ha c hc
      rcases List.mem_cons.mp hc with rfl | hc
      · exact ha
      · refine ih (Num.add a b) ?_ c hc
        rcases ha with rfl | rfl
        · left; rfl
        · rcases b with _ | y | y
          · left; rfl
          · cases y
            · left; rfl
            · right; rfl
          · right; rfl
  have all : ∀ c ∈ cumsum (npSortNan z), c = .nan ∨ c = .inf true := by
    rw [et]
    exact accI t _ (Or.inr rfl)
  have key : ∀ (ps : List Num) (s : Int), s ≤ 0 → zLevels z ps s = .ok (ps.map (fun _ => .inf true)) := by
    intro ps s hs
    have := levels_first hne (fun c hc t' ht => by
      have h1 := all c hc
      have h2 := all t' (List.mem_of_getLast? ht)
      rcases h1 with rfl | rfl <;> rcases h2 with rfl | rfl <;> rfl) ps s hs
    rw [this, et]
    rfl
  refine ⟨key ps 0 (le_refl 0), ?_⟩
  unfold shown
  dsimp only
  rw [key [p] (-1) (by omega)]
  refine congrArg Except.ok (List.map_congr_left (fun a _ => ?_))
  show Num.lt a (.inf true) = false
  cases a <;> simp [Num.lt]

/-- C144: a mesh without cells is an IndexError. -/
theorem C144_empty (ps : List Num) (s : Int) : zLevels [] ps s = .error .indexError := by
  have e : npSortNan [] = [] := by simp [npSortNan, FloatQuantile.npSort]
  unfold zLevels cumProbMass
  rw [e]
  rfl

/-- C144: an empty density (all cells zero) has the level 0 for every fraction, and `scatter(hidden_in_p)` draws no point. -/
theorem C144_zero (n : Nat) (ps : List Num) (dens : List Num) (p : Num) (hd : ∀ a ∈ dens, Num.lt a (.fin 0) = false) :
    zLevels (List.replicate (n + 1) (.fin 0)) ps 0 = .ok (ps.map (fun _ => .fin 0)) ∧ shown (List.replicate (n + 1) (.fin 0)) dens (some p) = .ok (dens.map (fun _ => false)) := by
  have es : npSortNan (List.replicate (n + 1) (.fin 0)) = List.replicate (n + 1) (.fin 0) := by
    have e1 : (List.replicate (n + 1) (Num.fin 0)) = fins (List.replicate (n + 1) 0) := by simp [fins]
    rw [e1, sort_nan]
    refine congrArg fins ?_
    have := List.eq_replicate_of_mem (a := (0 : ℚ)) (l := Pyhipp.npSort (List.replicate (n + 1) 0)) (fun a ha => List.eq_of_mem_replicate ((npSort_perm _).mem_iff.mp ha))
    rwa [npSort_length, List.length_replicate] at this
  have z0 : Num.add (.fin 0) (.fin 0) = .fin 0 := by decide +kernel
  have acc : ∀ m, accum (.fin 0) (List.replicate m (.fin 0)) = List.replicate m (.fin 0) := by
    intro m
    induction m with
    | zero => rfl
    | succ m ih =>
      rw [List.replicate_succ]
      show Num.add (.fin 0) (.fin 0) :: accum (Num.add (.fin 0) (.fin 0)) _ = _
      rw [z0, ih]
  have ec : cumsum (npSortNan (List.replicate (n + 1) (.fin 0))) = List.replicate (n + 1) (.fin 0) := by
    rw [es, List.replicate_succ]
    show Num.fin 0 :: accum (.fin 0) _ = _
    rw [acc]
  have key : ∀ (ps : List Num) (s : Int), s ≤ 0 → zLevels (List.replicate (n + 1) (.fin 0)) ps s = .ok (ps.map (fun _ => .fin 0)) := by
    intro ps s hs
    have := levels_first (z := List.replicate (n + 1) (.fin 0)) (by simp) (fun c hc t' ht => by
      rw [ec] at hc ht
      rw [List.eq_of_mem_replicate hc, List.eq_of_mem_replicate (List.mem_of_getLast? ht)]
      rfl) ps s hs
    rw [this, es]
    rfl
  refine ⟨key ps 0 (le_refl 0), ?_⟩
  unfold shown
  dsimp only
  rw [key [p] (-1) (by omega)]
  exact congrArg Except.ok (List.map_congr_left (fun a ha => hd a ha))

/-- The hypotheses are met by the densities 1, 0, 2, 1 with the fractions 1/2 and 1. -/
example : Dens [1, 0, 2, 1] ∧ IsF (1 / 2) ∧ IsF 1 := by
  refine ⟨⟨?_, by norm_num, ?_, by norm_num⟩, by decide +kernel, by decide +kernel⟩
  · intro a ha
    simp only [List.mem_cons, List.not_mem_nil, or_false] at ha
    rcases ha with rfl | rfl | rfl | rfl <;> exact ⟨by decide +kernel, by norm_num⟩
  · exact le_trans (by norm_num : ([1, 0, 2, 1] : List ℚ).sum ≤ 2 ^ 2) (pow_le_pow_right₀ (by norm_num) (by norm_num))

end Pyhipp.FloatContour
