import Verif.Model.Reduction
import Mathlib.Tactic.FieldSimp
/-
Facts about `np.interp`, `np.cumsum` and `np.quantile` used by several property files.
-/
set_option linter.unusedSectionVars false
namespace Pyhipp.Reduction
open Pyhipp

variable {α : Type} [Field α] [LinearOrder α] [IsStrictOrderedRing α]

/-- The three cases of `np.interp` on sorted nodes. -/
theorem npInterp_cases (p : α) (xp fp : List α) (hl : fp.length = xp.length) (hne : xp ≠ [])
    (hs : xp.Pairwise (· ≤ ·)) :
    (∃ h : 0 < fp.length, p < xp[0] ∧ npInterp p xp fp = fp[0]) ∨
    (∃ h : xp.length - 1 < fp.length, xp[xp.length - 1]'(by omega) ≤ p ∧
      npInterp p xp fp = fp[xp.length - 1]) ∨
    (∃ i, ∃ h : i + 1 < xp.length, xp[i] ≤ p ∧ p < xp[i + 1] ∧
      npInterp p xp fp = fp[i] + (p - xp[i]) * ((fp[i + 1] - fp[i]) / (xp[i + 1] - xp[i]))) := by
  have hn : 0 < xp.length := List.length_pos_iff.mpr hne
  have hb := ssRight_le_length xp p
  have spec := fun j hj => ssRight_spec xp p hs j hj
  unfold npInterp
  simp only
  by_cases h0 : ((ssRight xp p : Int) - 1) < 0
  · left
    refine ⟨by omega, ?_, ?_⟩
    · have := spec 0 hn
      apply not_le.mp; rw [this]; omega
    · rw [if_pos h0, getD_lt fp 0 0 (by omega)]
  · right
    rw [if_neg h0]
    by_cases h1 : ((ssRight xp p : Int) - 1) ≥ (xp.length : Int) - 1
    · left
      refine ⟨by omega, ?_, ?_⟩
      · rw [spec _ (by omega)]; omega
      · rw [if_pos h1, getD_lt fp _ 0 (by omega)]
    · right
      rw [if_neg h1]
      have hi : ((ssRight xp p : Int) - 1).toNat = ssRight xp p - 1 := by omega
      rw [hi]
      refine ⟨ssRight xp p - 1, by omega, ?_, ?_, ?_⟩
      · rw [spec _ (by omega)]; omega
      · apply not_le.mp; rw [spec _ (by omega)]; omega
      · rw [getD_lt fp _ 0 (by omega), getD_lt fp _ 0 (by omega), getD_lt xp _ 0 (by omega),
          getD_lt xp _ 0 (by omega)]

/-- Inside an interval the interpolated value lies between the two node values. -/
theorem seg_mem (p x0 x1 f0 f1 : α) (h0 : x0 ≤ p) (h1 : p < x1) (hf : f0 ≤ f1) :
    f0 ≤ f0 + (p - x0) * ((f1 - f0) / (x1 - x0)) ∧
      f0 + (p - x0) * ((f1 - f0) / (x1 - x0)) ≤ f1 := by
  have hd : 0 < x1 - x0 := by linarith
  have e : (p - x0) * ((f1 - f0) / (x1 - x0)) = (f1 - f0) * ((p - x0) / (x1 - x0)) := by
    field_simp
  have r0 : 0 ≤ (p - x0) / (x1 - x0) := div_nonneg (by linarith) hd.le
  have r1 : (p - x0) / (x1 - x0) ≤ 1 := by rw [div_le_one hd]; linarith
  rw [e]
  constructor <;> nlinarith

theorem npInterp_mem (p : α) (xp fp : List α) (hl : fp.length = xp.length) (hne : xp ≠ [])
    (hs : xp.Pairwise (· ≤ ·)) (hf : fp.Pairwise (· ≤ ·)) :
    ∃ h : 0 < fp.length, fp[0] ≤ npInterp p xp fp ∧
      npInterp p xp fp ≤ fp[fp.length - 1] := by
  have hn : 0 < xp.length := List.length_pos_iff.mpr hne
  refine ⟨by omega, ?_⟩
  have hle : fp[0] ≤ fp[fp.length - 1] := pw_le hf (by omega) (by omega)
  rcases npInterp_cases p xp fp hl hne hs with ⟨h, -, e⟩ | ⟨h, -, e⟩ | ⟨i, h, a, b, e⟩
  · rw [e]; exact ⟨le_refl _, hle⟩
  · rw [e]; simp only [← hl]; exact ⟨hle, le_refl _⟩
  · have := seg_mem p xp[i] xp[i + 1] fp[i] fp[i + 1] a b (pw_le hf (by omega) (by omega))
    rw [e]
    exact ⟨le_trans (pw_le hf (by omega) (by omega)) this.1,
      le_trans this.2 (pw_le hf (by omega) (by omega))⟩

/-- With non-decreasing node values `np.interp` is non-decreasing. -/
theorem npInterp_mono (p q : α) (hpq : p ≤ q) (xp fp : List α) (hl : fp.length = xp.length)
    (hne : xp ≠ []) (hs : xp.Pairwise (· ≤ ·)) (hf : fp.Pairwise (· ≤ ·)) :
    npInterp p xp fp ≤ npInterp q xp fp := by
  have hn : 0 < xp.length := List.length_pos_iff.mpr hne
  obtain ⟨h0, p0, p1⟩ := npInterp_mem p xp fp hl hne hs hf
  obtain ⟨h0q, q0, q1⟩ := npInterp_mem q xp fp hl hne hs hf
  rcases npInterp_cases p xp fp hl hne hs with ⟨h, -, e⟩ | ⟨h, a, e⟩ | ⟨i, h, a, b, e⟩
  · rw [e]; exact q0
  · -- q is beyond the last node too
    rcases npInterp_cases q xp fp hl hne hs with ⟨h', a', e'⟩ | ⟨h', a', e'⟩ | ⟨i, h', a', b', e'⟩
    · have := pw_le hs (Nat.zero_le (xp.length - 1)) (by omega)
      exact absurd (lt_of_lt_of_le a' (le_trans this (le_trans a hpq))) (lt_irrefl _)
    · rw [e, e']
    · have := pw_le hs (show i + 1 ≤ xp.length - 1 by omega) (by omega)
      exact absurd (lt_of_lt_of_le b' (le_trans this (le_trans a hpq))) (lt_irrefl _)
  · have hm := seg_mem p xp[i] xp[i + 1] fp[i] fp[i + 1] a b (pw_le hf (by omega) (by omega))
    rcases npInterp_cases q xp fp hl hne hs with ⟨h', a', e'⟩ | ⟨h', a', e'⟩ | ⟨i', h', a', b', e'⟩
    · have := pw_le hs (Nat.zero_le i) (by omega)
      exact absurd (lt_of_lt_of_le a' (le_trans this (le_trans a hpq))) (lt_irrefl _)
    · rw [e, e']
      exact le_trans hm.2 (pw_le hf (by omega) (by omega))
    · have hm' := seg_mem q xp[i'] xp[i' + 1] fp[i'] fp[i' + 1] a' b'
        (pw_le hf (by omega) (by omega))
      rw [e, e']
      rcases lt_trichotomy i i' with hlt | heq | hgt
      · exact le_trans hm.2 (le_trans (pw_le hf hlt (by omega)) hm'.1)
      · subst heq
        have hd : 0 ≤ (fp[i + 1] - fp[i]) / (xp[i + 1] - xp[i]) :=
          div_nonneg (sub_nonneg.mpr (pw_le hf (by omega) (by omega))) (by linarith)
        have := mul_le_mul_of_nonneg_right (show p - xp[i] ≤ q - xp[i] by linarith) hd
        linarith
      · have := pw_le hs (show i' + 1 ≤ i by omega) (by omega)
        exact absurd (lt_of_lt_of_le b' (le_trans this (le_trans a hpq))) (lt_irrefl _)

theorem cumsumFrom_length (s : α) (l : List α) : (cumsumFrom s l).length = l.length := by
  induction l generalizing s with
  | nil => rfl
  | cons a t ih => simp [cumsumFrom, ih]

theorem cumsumFrom_get (s : α) (l : List α) (i : Nat) (h : i < (cumsumFrom s l).length) :
    (cumsumFrom s l)[i] = s + (l.take (i + 1)).sum := by
  induction l generalizing s i with
  | nil => simp [cumsumFrom] at h
  | cons a t ih =>
      rcases i with _ | i
      · simp [cumsumFrom]
      · simp only [cumsumFrom, List.getElem_cons_succ, List.take_succ_cons, List.sum_cons]
        rw [ih]; ring

theorem cumsumFrom_strict (s : α) (l : List α) (hp : ∀ a ∈ l, 0 < a) :
    (cumsumFrom s l).Pairwise (· < ·) := by
  rw [← List.isChain_iff_pairwise, List.isChain_iff_getElem]
  intro i hi
  rw [cumsumFrom_get, cumsumFrom_get]
  rw [cumsumFrom_length] at hi
  rw [List.take_succ_eq_append_getElem (i := i + 1) hi, List.sum_append, List.sum_singleton]
  have := hp l[i + 1] (List.getElem_mem _)
  linarith

theorem cumsumFrom_sorted (s : α) (l : List α) (hp : ∀ a ∈ l, 0 ≤ a) :
    (cumsumFrom s l).Pairwise (· ≤ ·) := by
  rw [← List.isChain_iff_pairwise, List.isChain_iff_getElem]
  intro i hi
  rw [cumsumFrom_get, cumsumFrom_get]
  rw [cumsumFrom_length] at hi
  rw [List.take_succ_eq_append_getElem (i := i + 1) hi, List.sum_append, List.sum_singleton]
  have := hp l[i + 1] (List.getElem_mem _)
  linarith

/-! `np.quantile` -/

section Q
variable [FloorRing α]

theorem npQuantile_eq (x : List α) (p : α) (hne : x ≠ []) (h0 : 0 ≤ p) :
    ∃ i : Nat, (i : α) ≤ p * ((x.length : α) - 1) ∧ p * ((x.length : α) - 1) < (i : α) + 1 ∧
      npQuantile x p = (npSort x).getD (min i (x.length - 1)) 0
        + (p * ((x.length : α) - 1) - (i : α)) * ((npSort x).getD (min (i + 1) (x.length - 1)) 0
          - (npSort x).getD (min i (x.length - 1)) 0) := by
  have hn : 0 < x.length := List.length_pos_iff.mpr hne
  have h1 : (1 : α) ≤ (x.length : α) := by exact_mod_cast hn
  have hh : 0 ≤ p * ((x.length : α) - 1) := mul_nonneg h0 (by linarith)
  have hf : 0 ≤ ⌊p * ((x.length : α) - 1)⌋ := Int.floor_nonneg.mpr hh
  have hc : ((⌊p * ((x.length : α) - 1)⌋.toNat : Nat) : α) = (⌊p * ((x.length : α) - 1)⌋ : α) := by
    have : ((⌊p * ((x.length : α) - 1)⌋.toNat : Nat) : Int) = ⌊p * ((x.length : α) - 1)⌋ :=
      Int.toNat_of_nonneg hf
    exact_mod_cast congrArg (Int.cast (R := α)) this
  refine ⟨⌊p * ((x.length : α) - 1)⌋.toNat, ?_, ?_, ?_⟩
  · rw [hc]; exact Int.floor_le _
  · rw [hc]; exact Int.lt_floor_add_one _
  · unfold npQuantile
    simp only [npSort_length]

theorem npQuantile_seg (x : List α) (hne : x ≠ []) (i : Nat) (g : α) (hg0 : 0 ≤ g) (hg1 : g ≤ 1) :
    (npSort x).getD (min i (x.length - 1)) 0 ≤ (npSort x).getD (min i (x.length - 1)) 0
        + g * ((npSort x).getD (min (i + 1) (x.length - 1)) 0
          - (npSort x).getD (min i (x.length - 1)) 0) ∧
    (npSort x).getD (min i (x.length - 1)) 0
        + g * ((npSort x).getD (min (i + 1) (x.length - 1)) 0
          - (npSort x).getD (min i (x.length - 1)) 0)
      ≤ (npSort x).getD (min (i + 1) (x.length - 1)) 0 := by
  have hn : 0 < x.length := List.length_pos_iff.mpr hne
  have hl := npSort_length x
  rw [getD_lt (npSort x) (min i (x.length - 1)) 0 (by omega),
    getD_lt (npSort x) (min (i + 1) (x.length - 1)) 0 (by omega)]
  have := pw_le (npSort_sorted x) (show min i (x.length - 1) ≤ min (i + 1) (x.length - 1) by omega)
    (by omega)
  constructor <;> nlinarith

/-- `np.quantile` is non-decreasing in the probability. -/
theorem npQuantile_mono (x : List α) (hne : x ≠ []) (p q : α) (h0 : 0 ≤ p) (hpq : p ≤ q) :
    npQuantile x p ≤ npQuantile x q := by
  have hn : 0 < x.length := List.length_pos_iff.mpr hne
  have hl := npSort_length x
  have h1 : (1 : α) ≤ (x.length : α) := by exact_mod_cast hn
  obtain ⟨i, a1, a2, e1⟩ := npQuantile_eq x p hne h0
  obtain ⟨j, b1, b2, e2⟩ := npQuantile_eq x q hne (le_trans h0 hpq)
  have hpq' : p * ((x.length : α) - 1) ≤ q * ((x.length : α) - 1) :=
    mul_le_mul_of_nonneg_right hpq (by linarith)
  have hij : i ≤ j := by
    have : (i : α) < (j : α) + 1 := by linarith
    have : i < j + 1 := by exact_mod_cast this
    omega
  have s1 := npQuantile_seg x hne i (p * ((x.length : α) - 1) - (i : α)) (by linarith) (by linarith)
  have s2 := npQuantile_seg x hne j (q * ((x.length : α) - 1) - (j : α)) (by linarith) (by linarith)
  rw [e1, e2]
  rcases Nat.eq_or_lt_of_le hij with heq | hlt
  · subst heq
    have hd : (npSort x).getD (min i (x.length - 1)) 0
        ≤ (npSort x).getD (min (i + 1) (x.length - 1)) 0 := le_trans s1.1 s1.2
    nlinarith
  · refine le_trans s1.2 (le_trans ?_ s2.1)
    rw [getD_lt (npSort x) (min (i + 1) (x.length - 1)) 0 (by omega),
      getD_lt (npSort x) (min j (x.length - 1)) 0 (by omega)]
    exact pw_le (npSort_sorted x) (by omega) (by omega)

/-- `np.quantile` lies between the smallest and the largest sample. -/
theorem npQuantile_mem (x : List α) (hne : x ≠ []) (p : α) (h0 : 0 ≤ p) :
    (∃ a ∈ x, a ≤ npQuantile x p) ∧ (∃ b ∈ x, npQuantile x p ≤ b) := by
  have hn : 0 < x.length := List.length_pos_iff.mpr hne
  have hl := npSort_length x
  obtain ⟨i, a1, a2, e1⟩ := npQuantile_eq x p hne h0
  have s1 := npQuantile_seg x hne i (p * ((x.length : α) - 1) - (i : α)) (by linarith) (by linarith)
  rw [e1]
  constructor
  · refine ⟨_, ?_, s1.1⟩
    rw [getD_lt (npSort x) (min i (x.length - 1)) 0 (by omega)]
    exact (npSort_perm x).mem_iff.mp (List.getElem_mem _)
  · refine ⟨_, ?_, s1.2⟩
    rw [getD_lt (npSort x) (min (i + 1) (x.length - 1)) 0 (by omega)]
    exact (npSort_perm x).mem_iff.mp (List.getElem_mem _)

/-- At a node `p = k/(n-1)` the quantile is the k-th smallest sample. -/
theorem npQuantile_node (x : List α) (hne : x ≠ []) (p : α) (k : Nat) (hk : k < x.length)
    (hp : p * ((x.length : α) - 1) = (k : α)) (h0 : 0 ≤ p) :
    npQuantile x p = (npSort x)[k]'(by rw [npSort_length]; exact hk) := by
  have hl := npSort_length x
  obtain ⟨i, a1, a2, e1⟩ := npQuantile_eq x p hne h0
  rw [hp] at a1 a2 e1
  have : i = k := by
    have b1 : i ≤ k := by exact_mod_cast a1
    have b2 : k < i + 1 := by exact_mod_cast a2
    omega
  subst this
  rw [e1, sub_self, zero_mul, add_zero, getD_lt (npSort x) _ 0 (by omega)]
  congr 1
  omega

end Q
end Pyhipp.Reduction
