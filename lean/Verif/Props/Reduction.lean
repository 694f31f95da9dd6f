import Verif.Lemmas.NpInterp
import Mathlib.Algebra.BigOperators.Group.List.Lemmas
import Mathlib.Data.Rat.Floor
/-
C44-C46: counts, sums, means and standard deviations (src/pyhipp/stats/reduction.py).
-/
set_option linter.unusedSectionVars false
set_option linter.unusedVariables false
namespace Pyhipp.Reduction
open Pyhipp

/-! ### masks -/
section Sel
variable {α β : Type}

@[simp] theorem sel_none (x : List α) : sel x none = x := rfl

theorem sel_nil (m : List Bool) : sel ([] : List α) (some m) = [] := rfl

theorem sel_cons (a : α) (x : List α) (b : Bool) (m : List Bool) :
    sel (a :: x) (some (b :: m)) = if b then a :: sel x (some m) else sel x (some m) := by
  cases b <;> simp [sel]

theorem sel_map (f : α → β) (x : List α) (m : Option (List Bool)) :
    sel (x.map f) m = (sel x m).map f := by
  rcases m with _ | m
  · rfl
  · induction x generalizing m with
    | nil => rfl
    | cons a t ih =>
        rcases m with _ | ⟨b, m⟩
        · simp [sel]
        · rw [List.map_cons, sel_cons, sel_cons, ih]
          cases b <;> simp

theorem sel_length (x : List α) (m : List Bool) (h : m.length = x.length) :
    (sel x (some m)).length = (m.map (fun b => if b then 1 else 0)).sum := by
  induction x generalizing m with
  | nil => rcases m with _ | _ <;> simp_all [sel]
  | cons a t ih =>
      rcases m with _ | ⟨b, m⟩
      · simp at h
      · rw [sel_cons]
        have := ih m (by simpa using h)
        cases b <;> simp [this]; omega

theorem sel_mem (x : List α) (m : Option (List Bool)) (a : α) (h : a ∈ sel x m) : a ∈ x := by
  rcases m with _ | m
  · exact h
  · simp only [sel, List.mem_map, List.mem_filter] at h
    obtain ⟨p, ⟨hp, -⟩, rfl⟩ := h
    exact (List.of_mem_zip hp).1

theorem sel_length_eq (x : List α) (y : List β) (m : Option (List Bool))
    (h : x.length = y.length) : (sel x m).length = (sel y m).length := by
  rcases m with _ | m
  · exact h
  · induction x generalizing y m with
    | nil => rcases y with _ | _ <;> simp_all [sel]
    | cons a t ih =>
        rcases y with _ | ⟨c, y⟩
        · simp at h
        · rcases m with _ | ⟨b, m⟩
          · simp [sel]
          · rw [sel_cons, sel_cons]
            have := ih y (by simpa using h) m
            cases b <;> simp [this]

end Sel

/-! ### C44 -/
section C44
variable {α : Type} [Field α]

/-- C44: calls are accepted exactly when weight and mask (if given) have the length of the data;
otherwise AssertionError. -/
theorem C44_call_shape {β : Type} (impl : List α → Option (List α) → Option (List Bool) → β)
    (x : List α) (w : Option (List α)) (m : Option (List Bool)) :
    call1d impl x w m = if (∀ v, w = some v → v.length = x.length) ∧
        (∀ v, m = some v → v.length = x.length) then .ok (impl x w m)
      else .error .assertionError := by
  unfold call1d
  rcases w with _ | w <;> rcases m with _ | m <;> simp

/-- C44 for `Count`. -/
theorem C44_count (x : List α) (m : List Bool) (h : m.length = x.length) :
    count1d x (some m) = count1d (sel x (some m)) none := by
  simp only [count1d]
  rw [sel_length x m h]

theorem sum_mask (x : List α) (m : List Bool) (h : m.length = x.length) :
    (List.zipWith (fun a b => a * b) x (m.map b2n)).sum = (sel x (some m)).sum := by
  induction x generalizing m with
  | nil => rfl
  | cons a t ih =>
      rcases m with _ | ⟨b, m⟩
      · simp at h
      · rw [sel_cons]
        simp only [List.map_cons, List.zipWith_cons_cons, List.sum_cons]
        rw [ih m (by simpa using h)]
        cases b <;> simp [b2n]

theorem sum_mask_w (x w : List α) (m : List Bool) (h : m.length = x.length)
    (hw : w.length = x.length) :
    (List.zipWith (fun a b => a * b) x (List.zipWith (fun a b => a * b) w (m.map b2n))).sum
      = (List.zipWith (fun a b => a * b) (sel x (some m)) (sel w (some m))).sum := by
  induction x generalizing m w with
  | nil => rfl
  | cons a t ih =>
      rcases m with _ | ⟨b, m⟩
      · simp at h
      · rcases w with _ | ⟨v, w⟩
        · simp at hw
        · rw [sel_cons, sel_cons]
          simp only [List.map_cons, List.zipWith_cons_cons, List.sum_cons]
          rw [ih w m (by simpa using h) (by simpa using hw)]
          cases b <;> simp [b2n]

/-- C44 for `Sum` (unweighted and weighted): summing with a mask is summing the selected
elements with their weights. -/
theorem C44_sum (x : List α) (w : Option (List α)) (m : List Bool) (h : m.length = x.length)
    (hw : ∀ v, w = some v → v.length = x.length) :
    sum1d x w (some m) = sum1d (sel x (some m)) (w.map (fun v => sel v (some m))) none := by
  rcases w with _ | w
  · simp only [sum1d, wTot, Option.map_some, Option.map_none]
    exact sum_mask x m h
  · simp only [sum1d, wTot, Option.map_some]
    exact sum_mask_w x w m h (hw w rfl)

/-- C44 for `Mean`. -/
theorem C44_mean (fill : α) (x : List α) (w : Option (List α)) (m : List Bool)
    (h : m.length = x.length) (hw : ∀ v, w = some v → v.length = x.length) :
    mean1d fill x w (some m)
      = mean1d fill (sel x (some m)) (w.map (fun v => sel v (some m))) none := by
  unfold mean1d
  rw [C44_count x m h, C44_sum x w m h hw]
  rcases w with _ | w
  · rfl
  · simp only [Option.map_some]
    rw [C44_sum w none m (by rw [h, hw w rfl]) (by simp)]
    rfl

/-- C44 for `StdDev`. -/
theorem C44_stdDev (fill : ℝ) (x : List ℝ) (w : Option (List ℝ)) (m : List Bool)
    (h : m.length = x.length) (hw : ∀ v, w = some v → v.length = x.length) :
    stdDev1d fill x w (some m)
      = stdDev1d fill (sel x (some m)) (w.map (fun v => sel v (some m))) none := by
  unfold stdDev1d
  rw [C44_mean fill x w m h hw]
  simp only [List.map_map]
  rw [C44_mean fill _ w m (by simpa using h) (by simpa using hw), sel_map]

section Q
variable [LinearOrder α] [IsStrictOrderedRing α] [FloorRing α]

/-- C44 for `Quantile` and `Median` (here the code itself selects first). -/
theorem C44_quantile (srt : List (α × α) → List (α × α)) (ps : List α) (sort : Bool) (fill : α)
    (x : List α) (w : Option (List α)) (m : Option (List Bool)) :
    quantile1d srt ps sort fill x w m
      = quantile1d srt ps sort fill (sel x m) (w.map (fun v => sel v m)) none := by
  unfold quantile1d impl1d
  rcases w with _ | w <;> simp

theorem C44_median (srt : List (α × α) → List (α × α)) (sort : Bool) (fill : α)
    (x : List α) (w : Option (List α)) (m : Option (List Bool)) :
    median1d srt sort fill x w m
      = median1d srt sort fill (sel x m) (w.map (fun v => sel v m)) none := by
  unfold median1d impl1d
  rcases w with _ | w <;> simp

end Q

example : mean1d (-1) ([1, 2, 3, 4] : List ℚ) (some [1, 1, 2, 7]) (some [true, false, true, false])
    = 7 / 3 := by
  rw [C44_mean _ _ _ _ (by decide) (by simp)]
  norm_num [sel, mean1d, count1d, sum1d, wTot]

end C44

/-! NaN arithmetic, to show what C44 does not give. -/
instance : Zero (Fl ℚ) := ⟨.num 0⟩
instance : One (Fl ℚ) := ⟨.num 1⟩
instance : Add (Fl ℚ) := ⟨fun a b => match a, b with | .num a, .num b => .num (a + b) | _, _ => .nan⟩
instance : Mul (Fl ℚ) := ⟨fun a b => match a, b with | .num a, .num b => .num (a * b) | _, _ => .nan⟩

/-- C44 (limit): `Sum` multiplies by the mask instead of selecting, so with floating-point NaN
in a masked-out position the masked sum is NaN although the sum of the selected elements is a
number. -/
theorem C44_nan_masked_out :
    ∃ (x : List (Fl ℚ)) (m : List Bool), m.length = x.length ∧
      sum1d x none (some m) = .nan ∧ sum1d (sel x (some m)) none none = .num 3 :=
  ⟨[.nan, .num 3], [false, true], rfl, by decide, by decide +kernel⟩

/-! ### C45 -/
section C45
variable {α : Type} [Field α]

/-- Samples `(value, weight, selected)`; weights and masks may be switched off. -/
def xs (l : List (α × α × Bool)) : List α := l.map (fun t => t.1)
def ws (l : List (α × α × Bool)) (hasW : Bool) : Option (List α) :=
  if hasW then some (l.map (fun t => t.2.1)) else none
def ms (l : List (α × α × Bool)) (hasM : Bool) : Option (List Bool) :=
  if hasM then some (l.map (fun t => t.2.2)) else none

theorem sum1d_map (l : List (α × α × Bool)) (f : α × α × Bool → α) (hasW hasM : Bool) :
    sum1d (l.map f) (ws l hasW) (ms l hasM)
      = (l.map (fun t => f t * (if hasW then t.2.1 else 1) * (if hasM then b2n t.2.2 else 1))).sum := by
  cases hasW <;> cases hasM <;>
    simp only [sum1d, wTot, ws, ms, if_true, if_false, Bool.false_eq_true, Option.map_some,
      Option.map_none, List.map_map, List.zipWith_map, List.zipWith_self, mul_one, mul_assoc] <;>
    simp [Function.comp_def]

theorem count1d_map (l : List (α × α × Bool)) (f : α × α × Bool → α) (hasM : Bool) :
    count1d (l.map f) (ms l hasM)
      = (l.map (fun t => if hasM then (if t.2.2 then 1 else 0) else 1)).sum := by
  cases hasM
  · simp [count1d, ms]
  · simp [count1d, ms, List.map_map, Function.comp_def]

theorem mean1d_map (fill : α) (l : List (α × α × Bool)) (f : α × α × Bool → α) (hasW hasM : Bool) :
    mean1d fill (l.map f) (ws l hasW) (ms l hasM) =
      let c : Nat := (l.map (fun t => if hasM then (if t.2.2 then 1 else 0) else 1)).sum
      if c < 1 then fill else
        (l.map (fun t => f t * (if hasW then t.2.1 else 1) * (if hasM then b2n t.2.2 else 1))).sum /
        (if hasW then (l.map (fun t => t.2.1 * (if hasM then b2n t.2.2 else 1))).sum else (c : α)) := by
  unfold mean1d
  simp only [count1d_map, sum1d_map]
  cases hasW
  · simp only [ws, Bool.false_eq_true, if_false]
    by_cases hc : (l.map (fun t => if hasM = true then (if t.2.2 = true then 1 else 0) else 1)).sum < 1
    · rw [if_pos hc, if_pos hc]
    · rw [if_neg hc, if_neg hc, if_neg hc]
  · have : sum1d (l.map (fun t => t.2.1)) none (ms l hasM)
        = (l.map (fun t => t.2.1 * (if hasM then b2n t.2.2 else 1))).sum := by
      have := sum1d_map l (fun t => t.2.1) false hasM
      simpa [ws] using this
    simp only [ws, if_true, this]
    by_cases hc : (l.map (fun t => if hasM = true then (if t.2.2 = true then 1 else 0) else 1)).sum < 1
    · rw [if_pos hc, if_pos hc]
    · rw [if_neg hc, if_neg hc, if_neg hc]

/-- C45: `Count`, `Sum`, `Mean` do not depend on the order of the samples. -/
theorem C45_perm (fill : α) (l l' : List (α × α × Bool)) (hp : l.Perm l') (hasW hasM : Bool) :
    count1d (xs l) (ms l hasM) = count1d (xs l') (ms l' hasM) ∧
    sum1d (xs l) (ws l hasW) (ms l hasM) = sum1d (xs l') (ws l' hasW) (ms l' hasM) ∧
    mean1d fill (xs l) (ws l hasW) (ms l hasM) = mean1d fill (xs l') (ws l' hasW) (ms l' hasM) := by
  have hs := fun (g : α × α × Bool → α) => (hp.map g).sum_eq
  have hc := fun (g : α × α × Bool → Nat) => (hp.map g).sum_eq
  refine ⟨?_, ?_, ?_⟩
  · simp only [xs, count1d_map]; exact hc _
  · simp only [xs, sum1d_map]; exact hs _
  · simp only [xs, mean1d_map, hs, hc]

/-- C45: `StdDev` does not depend on the order of the samples. -/
theorem C45_perm_stdDev (fill : ℝ) (l l' : List (ℝ × ℝ × Bool)) (hp : l.Perm l') (hasW hasM : Bool) :
    stdDev1d fill (xs l) (ws l hasW) (ms l hasM)
      = stdDev1d fill (xs l') (ws l' hasW) (ms l' hasM) := by
  have hmean := (C45_perm fill l l' hp hasW hasM).2.2
  have hs := fun (g : ℝ × ℝ × Bool → ℝ) => (hp.map g).sum_eq
  have hc := fun (g : ℝ × ℝ × Bool → Nat) => (hp.map g).sum_eq
  simp only [stdDev1d]
  rw [hmean]
  generalize mean1d fill (xs l') (ws l' hasW) (ms l' hasM) = mu
  simp only [xs, List.map_map]
  rw [mean1d_map, mean1d_map]
  simp only [hs, hc]

example : ([(1, 2, true), (3, 4, false), (5, 6, true)] : List (ℚ × ℚ × Bool)).Perm
    [(5, 6, true), (1, 2, true), (3, 4, false)] := by decide

theorem sum1d_smul_w (c : α) (x w : List α) (m : Option (List Bool)) :
    sum1d x (some (w.map (fun a => c * a))) m = c * sum1d x (some w) m := by
  have key : ∀ (x w : List α), (List.zipWith (fun a b => a * b) x (w.map (fun a => c * a))).sum
      = c * (List.zipWith (fun a b => a * b) x w).sum := by
    intro x w
    induction x generalizing w with
    | nil => simp
    | cons a t ih =>
        rcases w with _ | ⟨v, w⟩
        · simp
        · simp only [List.map_cons, List.zipWith_cons_cons, List.sum_cons, ih]; ring
  rcases m with _ | m
  · simp only [sum1d, wTot]; exact key x w
  · simp only [sum1d, wTot]
    have : List.zipWith (fun a b => a * b) (w.map (fun a => c * a)) (m.map b2n)
        = (List.zipWith (fun a b => a * b) w (m.map b2n)).map (fun a => c * a) := by
      rw [List.map_zipWith, List.zipWith_map_left]
      congr 1; funext a b; ring
    rw [this]; exact key _ _

theorem sum1d_smul_x (c : α) (x : List α) (m : Option (List Bool)) :
    sum1d (x.map (fun a => c * a)) none m = c * sum1d x none m := by
  rcases m with _ | m
  · simp only [sum1d, wTot, Option.map_none]
    rw [List.sum_map_mul_left]; simp
  · simp only [sum1d, wTot, Option.map_some]
    rw [List.zipWith_map_left]
    generalize m.map (b2n (α := α)) = v
    induction x generalizing v with
    | nil => simp
    | cons a t ih =>
        rcases v with _ | ⟨v, w⟩
        · simp
        · simp only [List.zipWith_cons_cons, List.sum_cons, ih]; ring

/-- C45: multiplying all weights by the same `c ≠ 0` does not change the `Mean`. -/
theorem C45_mean_scale (fill : α) (c : α) (hc : c ≠ 0) (x w : List α) (m : Option (List Bool)) :
    mean1d fill x (some (w.map (fun a => c * a))) m = mean1d fill x (some w) m := by
  unfold mean1d
  simp only [sum1d_smul_w, sum1d_smul_x]
  split
  · rfl
  · exact mul_div_mul_left _ _ hc

/-- C45: ... nor the `StdDev`. -/
theorem C45_stdDev_scale (fill : ℝ) (c : ℝ) (hc : c ≠ 0) (x w : List ℝ) (m : Option (List Bool)) :
    stdDev1d fill x (some (w.map (fun a => c * a))) m = stdDev1d fill x (some w) m := by
  simp only [stdDev1d, C45_mean_scale fill c hc]

section Q
variable [LinearOrder α] [IsStrictOrderedRing α] [FloorRing α]

theorem normalize_smul (c : α) (hc : c ≠ 0) (w : List α) :
    (w.map (fun a => c * a)).map (fun a => a / (w.map (fun a => c * a)).sum)
      = w.map (fun a => a / w.sum) := by
  rw [List.sum_map_mul_left, List.map_map, List.map_id']
  apply List.map_congr_left
  intro a _
  exact mul_div_mul_left _ _ hc

/-- C45: ... nor a weighted `Quantile`. -/
theorem C45_quantile_scale (srt : List (α × α) → List (α × α)) (ps : List α) (sort : Bool) (fill : α)
    (c : α) (hc : c ≠ 0) (x w : List α) (m : Option (List Bool)) :
    quantile1d srt ps sort fill x (some (w.map (fun a => c * a))) m
      = quantile1d srt ps sort fill x (some w) m := by
  unfold quantile1d impl1d
  simp only [Option.map_some, sel_map, normalize_smul c hc]

/-- C45: ... nor a weighted `Median`. -/
theorem C45_median_scale (srt : List (α × α) → List (α × α)) (sort : Bool) (fill : α)
    (c : α) (hc : c ≠ 0) (x w : List α) (m : Option (List Bool)) :
    median1d srt sort fill x (some (w.map (fun a => c * a))) m
      = median1d srt sort fill x (some w) m := by
  unfold median1d impl1d
  simp only [Option.map_some, sel_map, normalize_smul c hc]

end Q

theorem sum1d_const_w (c : α) (x : List α) (m : Option (List Bool))
    (hm : ∀ v, m = some v → v.length = x.length) :
    sum1d x (some (x.map (fun _ => c))) m = c * sum1d x none m ∧
    sum1d (x.map (fun _ => c)) none m = c * (count1d x m : α) := by
  rcases m with _ | m
  · simp only [sum1d, wTot, count1d, Option.map_none]
    constructor
    · induction x with
      | nil => simp
      | cons a t ih =>
          simp only [List.map_cons, List.zipWith_cons_cons, List.sum_cons, ih (by simp)]; ring
    · simp; ring
  · have h := hm m rfl
    simp only [sum1d, wTot, count1d, Option.map_some]
    clear hm
    induction x generalizing m with
    | nil => rcases m with _ | _ <;> simp_all
    | cons a t ih =>
        rcases m with _ | ⟨b, m⟩
        · simp at h
        · obtain ⟨i1, i2⟩ := ih m (by simpa using h)
          simp only [List.map_cons, List.zipWith_cons_cons, List.sum_cons, i1, i2]
          cases b <;> simp [b2n]
          · constructor <;> ring

/-- C45: uniform weights reproduce the unweighted `Mean`. -/
theorem C45_uniform_mean (fill : α) (c : α) (hc : c ≠ 0) (x : List α) (m : Option (List Bool))
    (hm : ∀ v, m = some v → v.length = x.length) :
    mean1d fill x (some (x.map (fun _ => c))) m = mean1d fill x none m := by
  obtain ⟨h1, h2⟩ := sum1d_const_w c x m hm
  unfold mean1d
  simp only [h1, h2]
  split
  · rfl
  · exact mul_div_mul_left _ _ hc

/-- C45: uniform weights reproduce the unweighted `StdDev`. -/
theorem C45_uniform_stdDev (fill : ℝ) (c : ℝ) (hc : c ≠ 0) (x : List ℝ) (m : Option (List Bool))
    (hm : ∀ v, m = some v → v.length = x.length) :
    stdDev1d fill x (some (x.map (fun _ => c))) m = stdDev1d fill x none m := by
  unfold stdDev1d
  rw [C45_uniform_mean fill c hc x m hm]
  simp only [List.map_map]
  have := C45_uniform_mean fill c hc
    (x.map ((fun d => d * d) ∘ fun a => a - mean1d fill x none m)) m (by simpa using hm)
  rw [List.map_map] at this
  rw [← this]; rfl

/-- C45 (limit): uniform weights do NOT reproduce the unweighted median: for the samples 0, 1
`Median()` gives 1/2 without and 0 with equal weights, whatever sorting is used. -/
theorem C45_uniform_median_differs (srt : List (ℚ × ℚ) → List (ℚ × ℚ)) (h : IsArgsort srt) :
    median1d srt true (-1) ([0, 1] : List ℚ) none none = 1 / 2 ∧
    median1d srt true (-1) ([0, 1] : List ℚ) (some [1, 1]) none = 0 := by
  constructor
  · have e : npSort ([0, 1] : List ℚ) = [0, 1] := npSort_of_sorted _ (by decide)
    simp only [median1d, impl1d, npMedian, sel_none, e]
    norm_num
  · have hs : srt [((0 : ℚ), (1/2 : ℚ)), (1, 1/2)] = [(0, 1/2), (1, 1/2)] := by
      obtain ⟨h1, h2⟩ := h [((0 : ℚ), (1/2 : ℚ)), (1, 1/2)]
      refine h1.eq_of_pairwise (le := fun a b => a.1 ≤ b.1) ?_ (List.pairwise_map.mp h2) (by simp)
      intro a b ha hb hab hba
      have ha' := h1.mem_iff.mp ha
      simp only [List.mem_cons, List.not_mem_nil, or_false] at ha' hb
      rcases ha' with rfl | rfl <;> rcases hb with rfl | rfl <;> 
        first | rfl | (exfalso; revert hba; norm_num; done) | (exfalso; revert hab; norm_num; done)
    simp only [median1d, impl1d, sel, Option.map_some, quantileW]
    norm_num
    rw [hs]
    norm_num [cumsumFrom, npInterp, ssRight]

/-- C45 (limit): with repeated sample values the weighted quantile depends on the order in which
the (unstable) argsort puts equal samples: two correct sortings give different answers. -/
theorem C45_ties_differ :
    ∃ (s1 s2 : List (ℚ × ℚ) → List (ℚ × ℚ)) (x w : List ℚ), IsArgsort s1 ∧ IsArgsort s2 ∧
      quantile1d s1 [1/2] true 0 x (some w) none ≠ quantile1d s2 [1/2] true 0 x (some w) none := by
  have hA : ∀ (le : ℚ × ℚ → ℚ × ℚ → Bool) (ht : ∀ a b c, le a b → le b c → le a c)
      (hto : ∀ a b, (le a b || le b a) = true) (hle : ∀ a b, le a b = true → a.1 ≤ b.1),
      IsArgsort (fun l => l.mergeSort le) := by
    intro le ht hto hle l
    exact ⟨List.mergeSort_perm _ _, List.pairwise_map.mpr
      ((List.pairwise_mergeSort ht hto l).imp (fun h => hle _ _ h))⟩
  refine ⟨fun l => l.mergeSort (fun a b => decide (a.1 < b.1 ∨ (a.1 = b.1 ∧ a.2 ≤ b.2))),
    fun l => l.mergeSort (fun a b => decide (a.1 < b.1 ∨ (a.1 = b.1 ∧ b.2 ≤ a.2))),
    [0, 1, 1], [1, 1, 3], hA _ ?_ ?_ ?_, hA _ ?_ ?_ ?_, ?_⟩
  · intro a b c h1 h2
    simp only [decide_eq_true_eq] at *
    rcases h1 with h1 | ⟨h1, h1'⟩ <;> rcases h2 with h2 | ⟨h2, h2'⟩
    · exact .inl (h1.trans h2)
    · exact .inl (h2 ▸ h1)
    · exact .inl (h1 ▸ h2)
    · exact .inr ⟨h1.trans h2, h1'.trans h2'⟩
  · intro a b
    simp only [Bool.or_eq_true, decide_eq_true_eq]
    rcases lt_trichotomy a.1 b.1 with h | h | h
    · exact .inl (.inl h)
    · rcases le_total a.2 b.2 with h2 | h2
      · exact .inl (.inr ⟨h, h2⟩)
      · exact .inr (.inr ⟨h.symm, h2⟩)
    · exact .inr (.inl h)
  · intro a b h
    simp only [decide_eq_true_eq] at h
    rcases h with h | h
    · exact h.le
    · exact h.1.le
  · intro a b c h1 h2
    simp only [decide_eq_true_eq] at *
    rcases h1 with h1 | ⟨h1, h1'⟩ <;> rcases h2 with h2 | ⟨h2, h2'⟩
    · exact .inl (h1.trans h2)
    · exact .inl (h2 ▸ h1)
    · exact .inl (h1 ▸ h2)
    · exact .inr ⟨h1.trans h2, h2'.trans h1'⟩
  · intro a b
    simp only [Bool.or_eq_true, decide_eq_true_eq]
    rcases lt_trichotomy a.1 b.1 with h | h | h
    · exact .inl (.inl h)
    · rcases le_total a.2 b.2 with h2 | h2
      · exact .inr (.inr ⟨h.symm, h2⟩)
      · exact .inl (.inr ⟨h, h2⟩)
    · exact .inr (.inl h)
  · intro a b h
    simp only [decide_eq_true_eq] at h
    rcases h with h | h
    · exact h.le
    · exact h.1.le
  · simp only [quantile1d, impl1d, sel, Option.map_some, quantileW]
    norm_num [List.mergeSort, List.MergeSort.Internal.splitInTwo, List.merge]
    norm_num [cumsumFrom, npInterp, ssRight]

end C45

/-! ### C46 -/
section C46
variable {α : Type} [Field α] [LinearOrder α] [IsStrictOrderedRing α]

/-- C46: an empty selection yields the fill value. -/
theorem C46_mean_empty (fill : α) (x : List α) (w : Option (List α)) (m : Option (List Bool))
    (hm : ∀ v, m = some v → v.length = x.length) (h : sel x m = []) :
    mean1d fill x w m = fill := by
  have hc : count1d x m = 0 := by
    rcases m with _ | m
    · simp at h; simp [count1d, h]
    · have := sel_length x m (hm m rfl)
      rw [h] at this
      simp only [count1d]; rw [← this]; rfl
  unfold mean1d
  simp [hc]

/-- C46: for a non-empty selection the mean is sum(w x)/sum(w) over the selected samples. -/
theorem C46_mean_value (fill : α) (x : List α) (w : Option (List α)) (m : Option (List Bool))
    (hm : ∀ v, m = some v → v.length = x.length)
    (hw : ∀ v, w = some v → v.length = x.length) (h : sel x m ≠ []) :
    mean1d fill x w m = w.elim ((sel x m).sum / ((sel x m).length : α))
      (fun w => (List.zipWith (fun a b => a * b) (sel x m) (sel w m)).sum / (sel w m).sum) := by
  have hn : ¬ (sel x m).length < 1 := by
    have := List.length_pos_iff.mpr h; omega
  have base : ∀ (x : List α) (w : Option (List α)), ¬ x.length < 1 →
      mean1d fill x w none = w.elim (x.sum / (x.length : α))
        (fun w => (List.zipWith (fun a b => a * b) x w).sum / w.sum) := by
    intro x w hx
    unfold mean1d
    rcases w with _ | w <;> simp [count1d, sum1d, wTot, hx]
  rcases m with _ | m
  · simpa using base x w hn
  · rw [C44_mean fill x w m (hm m rfl) hw, base _ _ hn]
    rcases w with _ | w <;> simp

theorem wsum_bounds (x w : List α) (hl : w.length = x.length) (lo hi : α)
    (hw : ∀ a ∈ w, 0 ≤ a) (hx : ∀ a ∈ x, lo ≤ a ∧ a ≤ hi) :
    lo * w.sum ≤ (List.zipWith (fun a b => a * b) x w).sum ∧
      (List.zipWith (fun a b => a * b) x w).sum ≤ hi * w.sum := by
  induction x generalizing w with
  | nil => rcases w with _ | _ <;> simp_all
  | cons a t ih =>
      rcases w with _ | ⟨v, w⟩
      · simp at hl
      · obtain ⟨i1, i2⟩ := ih w (by simpa using hl) (fun a ha => hw a (by simp [ha]))
          (fun a ha => hx a (by simp [ha]))
        have hv := hw v (by simp)
        have ha := hx a (by simp)
        simp only [List.zipWith_cons_cons, List.sum_cons]
        constructor <;> nlinarith

/-- C46: with non-negative weights of positive (selected) sum the mean lies between any lower and
upper bound of the selected samples, in particular between their minimum and maximum. -/
theorem C46_mean_bounds (fill : α) (x : List α) (w : Option (List α)) (m : Option (List Bool))
    (hm : ∀ v, m = some v → v.length = x.length)
    (hw : ∀ v, w = some v → v.length = x.length ∧ (∀ a ∈ sel v m, 0 ≤ a) ∧ 0 < (sel v m).sum)
    (h : sel x m ≠ []) (lo hi : α) (hx : ∀ a ∈ sel x m, lo ≤ a ∧ a ≤ hi) :
    lo ≤ mean1d fill x w m ∧ mean1d fill x w m ≤ hi := by
  rw [C46_mean_value fill x w m hm (fun v hv => (hw v hv).1) h]
  rcases w with _ | w
  · simp only [Option.elim]
    have hn : (0 : α) < ((sel x m).length : α) := by
      exact_mod_cast List.length_pos_iff.mpr h
    have := wsum_bounds (sel x m) ((sel x m).map (fun _ => (1 : α))) (by simp) lo hi
      (by simp) hx
    have e1 : (List.zipWith (fun a b : α => a * b) (sel x m) ((sel x m).map (fun _ => 1))).sum
        = (sel x m).sum := by
      rw [List.zipWith_map_right, List.zipWith_self]; simp
    have e2 : ((sel x m).map (fun _ => (1 : α))).sum = ((sel x m).length : α) := by simp
    rw [e1, e2] at this
    exact ⟨(le_div_iff₀ hn).mpr this.1, (div_le_iff₀ hn).mpr this.2⟩
  · obtain ⟨h1, h2, h3⟩ := hw w rfl
    simp only [Option.elim]
    have := wsum_bounds (sel x m) (sel w m) (sel_length_eq _ _ _ h1) lo hi h2 hx
    exact ⟨(le_div_iff₀ h3).mpr this.1, (div_le_iff₀ h3).mpr this.2⟩

/-- C46: the mean is an affine function of the data: mean(c x + d) = c mean(x) + d. -/
theorem C46_mean_affine (fill c d : α) (x : List α) (w : Option (List α)) (m : Option (List Bool))
    (hm : ∀ v, m = some v → v.length = x.length)
    (hw : ∀ v, w = some v → v.length = x.length ∧ (sel v m).sum ≠ 0) (h : sel x m ≠ []) :
    mean1d fill (x.map (fun a => c * a + d)) w m = c * mean1d fill x w m + d := by
  have h' : sel (x.map (fun a => c * a + d)) m ≠ [] := by rw [sel_map]; simpa using h
  rw [C46_mean_value fill x w m hm (fun v hv => (hw v hv).1) h,
    C46_mean_value fill _ w m (by simpa using hm) (fun v hv => by simpa using (hw v hv).1) h',
    sel_map]
  rcases w with _ | w
  · simp only [Option.elim]
    have hn : ((sel x m).length : α) ≠ 0 := by
      have := List.length_pos_iff.mpr h
      exact_mod_cast this.ne'
    rw [List.sum_map_add, List.sum_map_mul_left, List.map_id', List.length_map]
    simp only [List.map_const', List.sum_replicate, nsmul_eq_mul]
    field_simp
  · obtain ⟨h1, h2⟩ := hw w rfl
    simp only [Option.elim]
    have e : ∀ (x w : List α), w.length = x.length →
        (List.zipWith (fun a b => a * b) (x.map (fun a => c * a + d)) w).sum
        = c * (List.zipWith (fun a b => a * b) x w).sum + d * w.sum := by
      intro x w hl
      induction x generalizing w with
      | nil => rcases w with _ | _ <;> simp_all
      | cons a t ih =>
          rcases w with _ | ⟨v, w⟩
          · simp at hl
          · simp only [List.map_cons, List.zipWith_cons_cons, List.sum_cons,
              ih w (by simpa using hl)]; ring
    rw [e _ _ (sel_length_eq _ _ _ h1), add_div, mul_div_assoc, mul_div_assoc, div_self h2, mul_one]

/-- Hypotheses of the `StdDev` statements: shapes agree, something is selected, weights are
non-negative with positive sum. -/
structure Valid (x : List α) (w : Option (List α)) (m : Option (List Bool)) : Prop where
  mask : ∀ v, m = some v → v.length = x.length
  weight : ∀ v, w = some v → v.length = x.length ∧ (∀ a ∈ sel v m, 0 ≤ a) ∧ 0 < (sel v m).sum
  nonempty : sel x m ≠ []

theorem Valid.map {x : List α} {w : Option (List α)} {m : Option (List Bool)} (h : Valid x w m)
    (f : α → α) : Valid (x.map f) w m :=
  ⟨by simpa using h.mask, by simpa using h.weight, by rw [sel_map]; simpa using h.nonempty⟩

example : Valid ([1, 2, 3] : List ℚ) (some [1, 0, 2]) (some [true, true, false]) :=
  ⟨by simp, by simp [sel], by simp [sel]⟩

/-- C46: for valid input `StdDev` is a non-negative number, namely the root of the (weighted) mean
of the squared deviations from the mean. -/
theorem C46_stdDev_value (fill : ℝ) (x : List ℝ) (w : Option (List ℝ)) (m : Option (List Bool))
    (h : Valid x w m) :
    stdDev1d fill x w m = .num (Real.sqrt (mean1d fill
      (x.map (fun a => (a - mean1d fill x w m) ^ 2)) w m)) ∧
    0 ≤ mean1d fill (x.map (fun a => (a - mean1d fill x w m) ^ 2)) w m := by
  have hnn : 0 ≤ mean1d fill (x.map (fun a => (a - mean1d fill x w m) ^ 2)) w m := by
    have hv := h.map (fun a => (a - mean1d fill x w m) ^ 2)
    obtain ⟨a0, ha0⟩ := List.exists_mem_of_ne_nil _ hv.nonempty
    -- some upper bound exists
    obtain ⟨hi, hhi⟩ : ∃ hi, ∀ a ∈ sel (x.map (fun a => (a - mean1d fill x w m) ^ 2)) m, a ≤ hi := by
      generalize sel (x.map (fun a => (a - mean1d fill x w m) ^ 2)) m = l
      induction l with
      | nil => exact ⟨0, by simp⟩
      | cons a t ih =>
          obtain ⟨b, hb⟩ := ih
          refine ⟨max a b, ?_⟩
          intro c hc
          rcases List.mem_cons.mp hc with rfl | hc
          · exact le_max_left _ _
          · exact le_trans (hb c hc) (le_max_right _ _)
    refine (C46_mean_bounds fill _ w m hv.mask hv.weight hv.nonempty 0 hi ?_).1
    intro a ha
    refine ⟨?_, hhi a ha⟩
    have := sel_mem _ _ _ ha
    simp only [List.mem_map] at this
    obtain ⟨b, -, rfl⟩ := this
    exact sq_nonneg _
  refine ⟨?_, hnn⟩
  unfold stdDev1d npSqrt
  simp only [List.map_map]
  have e : ((fun d : ℝ => d * d) ∘ fun a => a - mean1d fill x w m)
      = fun a => (a - mean1d fill x w m) ^ 2 := by funext a; simp [sq]
  rw [e, if_neg (not_lt.mpr hnn)]

/-- C46: constant data have zero standard deviation. -/
theorem C46_stdDev_const (fill c : ℝ) (x : List ℝ) (w : Option (List ℝ)) (m : Option (List Bool))
    (h : Valid x w m) (hc : ∀ a ∈ x, a = c) : stdDev1d fill x w m = .num 0 := by
  have hx : x = x.map (fun a => 0 * a + c) := by
    conv_lhs => rw [← List.map_id x]
    apply List.map_congr_left
    intro a ha; simp [hc a ha]
  have hmean : mean1d fill x w m = c := by
    have := C46_mean_affine fill 0 c x w m h.mask
      (fun v hv => ⟨(h.weight v hv).1, (h.weight v hv).2.2.ne'⟩) h.nonempty
    rw [← hx] at this; simpa using this
  rw [(C46_stdDev_value fill x w m h).1, hmean]
  have e : x.map (fun a => (a - c) ^ 2) = x.map (fun a => 0 * a + 0) := by
    apply List.map_congr_left
    intro a ha; simp [hc a ha]
  rw [e, C46_mean_affine fill 0 0 x w m h.mask
    (fun v hv => ⟨(h.weight v hv).1, (h.weight v hv).2.2.ne'⟩) h.nonempty]
  simp

/-- C46: StdDev(c x + d) = |c| StdDev(x): invariant under shifts, scales with |c|. -/
theorem C46_stdDev_affine (fill c d : ℝ) (x : List ℝ) (w : Option (List ℝ))
    (m : Option (List Bool)) (h : Valid x w m) :
    ∃ s, stdDev1d fill x w m = .num s ∧ 0 ≤ s ∧
      stdDev1d fill (x.map (fun a => c * a + d)) w m = .num (|c| * s) := by
  have hw' := fun v (hv : w = some v) =>
    (⟨(h.weight v hv).1, (h.weight v hv).2.2.ne'⟩ : v.length = x.length ∧ (sel v m).sum ≠ 0)
  obtain ⟨h1, h2⟩ := C46_stdDev_value fill x w m h
  obtain ⟨h3, h4⟩ := C46_stdDev_value fill (x.map (fun a => c * a + d)) w m (h.map _)
  refine ⟨_, h1, Real.sqrt_nonneg _, ?_⟩
  rw [h3]
  congr 1
  rw [C46_mean_affine fill c d x w m h.mask hw' h.nonempty, List.map_map]
  have e : x.map ((fun a => (a - (c * mean1d fill x w m + d)) ^ 2) ∘ fun a => c * a + d)
      = (x.map (fun a => (a - mean1d fill x w m) ^ 2)).map (fun a => c ^ 2 * a + 0) := by
    rw [List.map_map]
    apply List.map_congr_left
    intro a _; simp only [Function.comp]; ring
  rw [e, C46_mean_affine fill (c ^ 2) 0 _ w m (by simpa using h.mask) (by simpa using hw')
    (h.map _).nonempty, add_zero, Real.sqrt_mul (sq_nonneg c), Real.sqrt_sq_eq_abs]

/-- C46 (violated part): on an empty selection `StdDev` does not return its fill value but the
square root of it; for the default fill value -1e10 that is NaN. -/
theorem C46_stdDev_empty_defect (fill : ℝ) (x : List ℝ) (w : Option (List ℝ))
    (m : Option (List Bool)) (hm : ∀ v, m = some v → v.length = x.length) (h : sel x m = []) :
    stdDev1d fill x w m = npSqrt fill ∧
    stdDev1d (-(10 ^ 10)) x w m = .nan := by
  have key : ∀ f : ℝ, stdDev1d f x w m = npSqrt f := by
    intro f
    unfold stdDev1d
    simp only [List.map_map]
    rw [C46_mean_empty f _ w m (by simpa using hm) (by rw [sel_map, h]; rfl)]
  refine ⟨key fill, ?_⟩
  rw [key]
  unfold npSqrt
  rw [if_pos (by norm_num)]

end C46

/-! ### C47: quantiles -/
section C47
variable {α : Type} [Field α] [LinearOrder α] [IsStrictOrderedRing α] [FloorRing α]

/-- C47: for selected weights that are positive, `Quantile(ps, sort=True)` evaluates, entry by
entry, one function `f` of the probability; `f` is non-decreasing, stays within the range of the
selected samples, is their maximum from p = 1 on, and their minimum for every `p` not above the
normalised weight of the smallest sample(s). -/
theorem C47_weighted (srt : List (α × α) → List (α × α)) (hsrt : IsArgsort srt) (fill : α)
    (x w : List α) (m : Option (List Bool)) (hl : w.length = x.length)
    (hw : ∀ a ∈ sel w m, 0 < a) (hne : sel x m ≠ []) :
    ∃ f : α → α, (∀ ps, quantile1d srt ps true fill x (some w) m = ps.map f) ∧
      (∀ p q, p ≤ q → f p ≤ f q) ∧
      (∀ p lo hi, (∀ a ∈ sel x m, lo ≤ a ∧ a ≤ hi) → lo ≤ f p ∧ f p ≤ hi) ∧
      (∀ p, 1 ≤ p → f p ∈ sel x m ∧ ∀ a ∈ sel x m, a ≤ f p) ∧
      (∀ p, (∀ a v, (a, v) ∈ (sel x m).zip (sel w m) → (∀ b ∈ sel x m, a ≤ b) →
          p ≤ v / (sel w m).sum) → f p ∈ sel x m ∧ ∀ a ∈ sel x m, f p ≤ a) := by
  have hlen : (sel w m).length = (sel x m).length := sel_length_eq _ _ _ hl
  set X := sel x m with hX
  set W := sel w m with hW
  have hn : 0 < X.length := List.length_pos_iff.mpr hne
  set v := W.map (fun a => a / W.sum) with hv
  have hvl : v.length = X.length := by simp [hv, hlen]
  have hWpos : 0 < W.sum := by
    apply List.sum_pos _ hw
    intro h; rw [h] at hlen; simp at hlen; omega
  obtain ⟨hperm, hsorted⟩ := hsrt (X.zip v)
  set S := srt (X.zip v) with hS
  have hSl : S.length = X.length := by rw [hperm.length_eq]; simp [hvl]
  have hf1 : (S.map (fun q => q.1)).Perm X := by
    have := hperm.map (fun q : α × α => q.1)
    rwa [show (X.zip v).map (fun q : α × α => q.1) = X from List.map_fst_zip (by omega)] at this
  have hf2 : (S.map (fun q => q.2)).Perm v := by
    have := hperm.map (fun q : α × α => q.2)
    rwa [show (X.zip v).map (fun q : α × α => q.2) = v from List.map_snd_zip (by omega)] at this
  have hpos : ∀ a ∈ S.map (fun q => q.2), 0 < a := by
    intro a ha
    have := hf2.mem_iff.mp ha
    simp only [hv, List.mem_map] at this
    obtain ⟨b, hb, rfl⟩ := this
    exact div_pos (hw b hb) hWpos
  have hvs : v.sum = 1 := by
    rw [hv, show (fun a : α => a / W.sum) = (fun a => a * (W.sum)⁻¹) from funext fun a => div_eq_mul_inv _ _,
      List.sum_map_mul_right, List.map_id', mul_inv_cancel₀ hWpos.ne']
  set xp := cumsumFrom 0 (S.map (fun q => q.2)) with hxp
  set fp := S.map (fun q => q.1) with hfp
  have hxl : xp.length = X.length := by rw [hxp, cumsumFrom_length, List.length_map, hSl]
  have hfl : fp.length = X.length := by rw [hfp, List.length_map, hSl]
  have hxs : xp.Pairwise (· ≤ ·) := cumsumFrom_sorted _ _ (fun a ha => (hpos a ha).le)
  have hxne : xp ≠ [] := by intro h; rw [h] at hxl; simp at hxl; omega
  have hget : ∀ i (h : i < xp.length), xp[i] = 0 + ((S.map (fun q => q.2)).take (i + 1)).sum :=
    fun i h => cumsumFrom_get 0 _ i h
  have hstrict : xp.Pairwise (· < ·) := cumsumFrom_strict 0 _ hpos
  have hlast : xp[xp.length - 1]'(by omega) = 1 := by
    rw [hget,
      List.take_of_length_le (by rw [List.length_map]; omega), hf2.sum_eq, hvs, zero_add]
  have hmin : ∀ a ∈ X, fp[0]'(by omega) ≤ a := by
    intro a ha
    obtain ⟨i, hi, rfl⟩ := List.getElem_of_mem (hf1.mem_iff.mpr ha)
    exact pw_le hsorted (by omega) hi
  have hmax : ∀ a ∈ X, a ≤ fp[fp.length - 1]'(by omega) := by
    intro a ha
    obtain ⟨i, hi, rfl⟩ := List.getElem_of_mem (hf1.mem_iff.mpr ha)
    exact pw_le hsorted (by omega) (by omega)
  have hmem : ∀ i (h : i < fp.length), fp[i] ∈ X := fun i h => hf1.mem_iff.mp (List.getElem_mem h)
  refine ⟨fun p => npInterp p xp fp, ?_, ?_, ?_, ?_, ?_⟩
  · intro ps
    unfold quantile1d impl1d
    simp only [← hX, Option.map_some, ← hW]
    rw [if_neg (by omega)]
    apply List.map_congr_left
    intro p _
    simp [quantileW, hS, hxp, hfp, hv]
  · exact fun p q h => npInterp_mono p q h xp fp (by omega) hxne hxs hsorted
  · intro p lo hi h
    obtain ⟨h0, a, b⟩ := npInterp_mem p xp fp (by omega) hxne hxs hsorted
    exact ⟨le_trans (h _ (hmem 0 h0)).1 a, le_trans b (h _ (hmem _ (by omega))).2⟩
  · intro p hp
    have e : npInterp p xp fp = fp[fp.length - 1]'(by omega) := by
      rcases npInterp_cases p xp fp (by omega) hxne hxs with ⟨h, a, e⟩ | ⟨h, a, e⟩ | ⟨i, h, a, b, e⟩
      · exfalso
        have := pw_le hxs (i := 0) (j := xp.length - 1) (by omega) (by omega)
        rw [hlast] at this; linarith
      · rw [e]; congr 1; omega
      · exfalso
        have := pw_le hxs (i := i + 1) (j := xp.length - 1) (by omega) (by omega)
        rw [hlast] at this; linarith
    simp only [e]
    exact ⟨hmem _ _, hmax⟩
  · intro p hp
    have e : npInterp p xp fp = fp[0]'(by omega) := by
      have h0S : 0 < S.length := by omega
      have hp0 : p ≤ xp[0]'(by omega) := by
        have e0' : xp[0]'(by omega) = S[0].2 := by
          rw [hget,
            List.take_succ_eq_append_getElem (by rw [List.length_map]; omega)]
          simp
        rw [e0']
        have hm0 : S[0] ∈ X.zip v := hperm.mem_iff.mp (List.getElem_mem h0S)
        rw [hv, List.zip_map_right, List.mem_map] at hm0
        obtain ⟨⟨a, b⟩, hab, e2⟩ := hm0
        have ha : fp[0]'(by omega) = a := by simp [hfp, ← e2]
        have := hp a b hab (by rw [← ha]; exact hmin)
        rw [← e2]; exact this
      rcases npInterp_cases p xp fp (by omega) hxne hxs with ⟨h, a, e⟩ | ⟨h, a, e⟩ | ⟨i, h, a, b, e⟩
      · exact e
      · have h1 : xp.length = 1 := by
          by_contra hc
          have := pw_lt hstrict (i := 0) (j := xp.length - 1) (by omega) (by omega)
          linarith
        rw [e]; congr 1; omega
      · have hi : i = 0 := by
          by_contra hc
          have := pw_lt hstrict (i := 0) (j := i) (by omega) (by omega)
          linarith
        subst hi
        have : p = xp[0] := le_antisymm hp0 a
        rw [e, this]; ring
    simp only [e]
    exact ⟨hmem _ _, hmin⟩

example : ∃ srt : List (ℚ × ℚ) → List (ℚ × ℚ), IsArgsort srt :=
  ⟨fun l => l.mergeSort (fun a b => decide (a.1 ≤ b.1)), fun l =>
    ⟨List.mergeSort_perm _ _, by
      rw [List.pairwise_map]
      refine (List.pairwise_mergeSort (le := fun a b : ℚ × ℚ => decide (a.1 ≤ b.1)) ?_ ?_ l).imp ?_
      · intro a b c h1 h2; simp at *; exact le_trans h1 h2
      · intro a b; simp; exact le_total _ _
      · intro a b h; simpa using h⟩⟩
example : sel ([3, 1, 2] : List ℚ) (some [true, false, true]) ≠ [] ∧
    (∀ a ∈ sel ([1, -1, 4] : List ℚ) (some [true, false, true]), 0 < a) := by decide +kernel

/-- C47: without weights the same holds for probabilities in [0, 1]: one non-decreasing function
within the range of the selected samples, minimum at 0, maximum at 1. -/
theorem C47_unweighted (srt : List (α × α) → List (α × α)) (sort : Bool) (fill : α)
    (x : List α) (m : Option (List Bool)) (hne : sel x m ≠ []) :
    ∃ f : α → α, (∀ ps, quantile1d srt ps sort fill x none m = ps.map f) ∧
      (∀ p q, 0 ≤ p → p ≤ q → f p ≤ f q) ∧
      (∀ p lo hi, 0 ≤ p → (∀ a ∈ sel x m, lo ≤ a ∧ a ≤ hi) → lo ≤ f p ∧ f p ≤ hi) ∧
      (f 0 ∈ sel x m ∧ ∀ a ∈ sel x m, f 0 ≤ a) ∧ (f 1 ∈ sel x m ∧ ∀ a ∈ sel x m, a ≤ f 1) := by
  have hn : 0 < (sel x m).length := List.length_pos_iff.mpr hne
  have hlen := npSort_length (sel x m)
  have hp := npSort_perm (sel x m)
  have hs := npSort_sorted (sel x m)
  refine ⟨npQuantile (sel x m), ?_, fun p q h0 h => npQuantile_mono _ hne p q h0 h, ?_, ?_, ?_⟩
  · intro ps
    unfold quantile1d impl1d
    simp only [Option.map_none]
    rw [if_neg (by omega)]
  · intro p lo hi h0 h
    obtain ⟨⟨a, ha, ha'⟩, ⟨b, hb, hb'⟩⟩ := npQuantile_mem _ hne p h0
    exact ⟨le_trans (h a ha).1 ha', le_trans hb' (h b hb).2⟩
  · rw [npQuantile_node _ hne 0 0 hn (by simp) le_rfl]
    refine ⟨hp.mem_iff.mp (List.getElem_mem _), fun a ha => ?_⟩
    obtain ⟨i, hi, rfl⟩ := List.getElem_of_mem (hp.mem_iff.mpr ha)
    exact pw_le hs (by omega) hi
  · rw [npQuantile_node _ hne 1 ((sel x m).length - 1) (by omega)
      (by rw [one_mul, Nat.cast_sub (by omega)]; simp) zero_le_one]
    refine ⟨hp.mem_iff.mp (List.getElem_mem _), fun a ha => ?_⟩
    obtain ⟨i, hi, rfl⟩ := List.getElem_of_mem (hp.mem_iff.mpr ha)
    exact pw_le hs (by omega) (by omega)

/-- C47: `Median()` is `Quantile(0.5)`, with and without weights (of non-zero sum). -/
theorem C47_median (srt : List (α × α) → List (α × α)) (sort : Bool) (fill : α)
    (x : List α) (w : Option (List α)) (m : Option (List Bool))
    (hw : ∀ v, w = some v → (sel v m).sum ≠ 0) :
    quantile1d srt [1 / 2] sort fill x w m = [median1d srt sort fill x w m] := by
  unfold quantile1d median1d impl1d
  simp only [sel_none]
  by_cases h : (sel x m).length = 0
  · rw [if_pos h, if_pos h]; rfl
  · rw [if_neg h, if_neg h]
    rcases w with _ | w
    · simp only [Option.map_none, List.map_cons, List.map_nil, List.cons.injEq, and_true]
      have hne : sel x m ≠ [] := fun e => h (by rw [e]; rfl)
      have hn : 0 < (sel x m).length := by omega
      have hl := npSort_length (sel x m)
      change npQuantile (sel x m) (1 / 2) = npMedian (sel x m)
      unfold npMedian
      simp only [hl]
      rcases Nat.even_or_odd' (sel x m).length with ⟨k, hk | hk⟩
      · rw [if_neg (by omega)]
        obtain ⟨i, a1, a2, e⟩ := npQuantile_eq (sel x m) (1 / 2) hne (by norm_num)
        have hc : ((sel x m).length : α) = 2 * (k : α) := by rw [hk]; push_cast; ring
        rw [hc] at a1 a2 e
        have hi : i = k - 1 := by
          have h1 : (i : α) < (k : α) := by linarith
          have h2 : ((k : α)) < (i : α) + 2 := by linarith
          have h1' : i < k := by exact_mod_cast h1
          have h2' : k < i + 2 := by exact_mod_cast h2
          omega
        have hik : (i : α) = (k : α) - 1 := by
          rw [hi, Nat.cast_sub (by omega)]; simp
        rw [e, hik, show min i ((sel x m).length - 1) = (sel x m).length / 2 - 1 by omega,
          show min (i + 1) ((sel x m).length - 1) = (sel x m).length / 2 by omega]
        ring
      · rw [if_pos (by omega)]
        rw [npQuantile_node _ hne (1 / 2) k (by omega) (by rw [hk]; push_cast; ring) (by norm_num),
          getD_lt _ _ _ (by omega)]
        congr 1; omega
    · have hs := hw w rfl
      have hvs : ((sel w m).map (fun a => a / (sel w m).sum)).sum = 1 := by
        rw [show (fun a : α => a / (sel w m).sum) = (fun a => a * ((sel w m).sum)⁻¹) from
          funext fun a => div_eq_mul_inv _ _,
          List.sum_map_mul_right, List.map_id', mul_inv_cancel₀ hs]
      change [quantileW srt sort (1 / 2) (sel x m) ((sel w m).map (fun a => a / (sel w m).sum))] =
        [if (sel x m).length = 0 then fill else quantileW srt sort (1 / 2) (sel x m)
          (((sel w m).map (fun a => a / (sel w m).sum)).map (fun a => a /
            ((sel w m).map (fun a => a / (sel w m).sum)).sum))]
      rw [if_neg h, hvs]
      simp only [div_one, List.map_id']

example : (sel ([1, 2, 4] : List ℚ) (some [true, true, false])).sum ≠ 0 := by decide +kernel
end C47

/-! ### C48: error bars -/
section C48
variable {α : Type} [Field α] [LinearOrder α] [IsStrictOrderedRing α] [FloorRing α]

/-- The three-value interval names and their (lower, centre, upper) probabilities. -/
def interval3 : List (String × α × α × α) :=
  [("median+1sigma", 16 / 100, 1 / 2, 84 / 100), ("median+2sigma", 25 / 1000, 1 / 2, 975 / 1000),
   ("median+3sigma", 5 / 1000, 1 / 2, 995 / 1000), ("lower_3sigmas", 68 / 100, 95 / 100, 99 / 100),
   ("upper_3sigmas", 1 / 100, 5 / 100, 32 / 100)]

/-- C48: for the interval names with three probabilities the error bar is
`[q_mid, q_mid - q_lo, q_hi - q_mid]` with both errors non-negative, and centre minus/plus the
errors gives back the two quantiles. -/
theorem C48_quantile (srt : List (α × α) → List (α × α)) (hsrt : IsArgsort srt) (fill : α)
    (x : List α) (w : Option (List α)) (m : Option (List Bool))
    (hw : ∀ v, w = some v → v.length = x.length ∧ ∀ a ∈ sel v m, 0 < a) (hne : sel x m ≠ [])
    (name : String) (pl pm ph : α) (hname : (name, pl, pm, ph) ∈ (interval3 : List (String × α × α × α))) :
    ∃ c lo hi, errorbarQ srt name fill x w m = .ok [c, lo, hi] ∧ 0 ≤ lo ∧ 0 ≤ hi ∧
      quantile1d srt [pl, pm, ph] true fill x w m = [c - lo, c, c + hi] := by
  have hlook : (psMap : List (String × List α)).lookup name = some [pl, pm, ph] ∧
      0 ≤ pl ∧ pl ≤ pm ∧ pm ≤ ph := by
    simp only [interval3, List.mem_cons, Prod.mk.injEq, List.not_mem_nil, or_false] at hname
    rcases hname with ⟨rfl, rfl, rfl, rfl⟩ | ⟨rfl, rfl, rfl, rfl⟩ | ⟨rfl, rfl, rfl, rfl⟩ |
      ⟨rfl, rfl, rfl, rfl⟩ | ⟨rfl, rfl, rfl, rfl⟩ <;>
    exact ⟨by simp [psMap, List.lookup], by norm_num, by norm_num, by norm_num⟩
  obtain ⟨hlook, h0, h1, h2⟩ := hlook
  obtain ⟨f, hf, hmono⟩ : ∃ f : α → α, (∀ ps, quantile1d srt ps true fill x w m = ps.map f) ∧
      ∀ p q, 0 ≤ p → p ≤ q → f p ≤ f q := by
    rcases w with _ | w
    · obtain ⟨f, h1, h2, -⟩ := C47_unweighted srt true fill x m hne
      exact ⟨f, h1, h2⟩
    · obtain ⟨f, h1, h2, -⟩ := C47_weighted srt hsrt fill x w m (hw w rfl).1 (hw w rfl).2 hne
      exact ⟨f, h1, fun p q _ h => h2 p q h⟩
  refine ⟨f pm, f pm - f pl, f ph - f pm, ?_, ?_, ?_, ?_⟩
  · simp only [errorbarQ, hlook, hf, List.map_cons, List.map_nil]
  · linarith [hmono pl pm h0 h1]
  · linarith [hmono pm ph (le_trans h0 h1) h2]
  · rw [hf]; simp

/-- C48 (recorded): on an empty selection the errors are zero and the centre is the fill value. -/
theorem C48_empty (srt : List (α × α) → List (α × α)) (fill : α)
    (x : List α) (w : Option (List α)) (m : Option (List Bool)) (he : sel x m = [])
    (name : String) (pl pm ph : α) (hname : (name, pl, pm, ph) ∈ (interval3 : List (String × α × α × α))) :
    errorbarQ srt name fill x w m = .ok [fill, 0, 0] := by
  have hlook : (psMap : List (String × List α)).lookup name = some [pl, pm, ph] := by
    simp only [interval3, List.mem_cons, Prod.mk.injEq, List.not_mem_nil, or_false] at hname
    rcases hname with ⟨rfl, rfl, rfl, rfl⟩ | ⟨rfl, rfl, rfl, rfl⟩ | ⟨rfl, rfl, rfl, rfl⟩ |
      ⟨rfl, rfl, rfl, rfl⟩ | ⟨rfl, rfl, rfl, rfl⟩ <;>
    simp [psMap, List.lookup]
  simp [errorbarQ, hlook, quantile1d, impl1d, he]

/-- C48 (recorded): the two-value names of the quantile table and unknown names do not give an
error bar: ValueError (unpacking) and KeyError, for every input. -/
theorem C48_reject (srt : List (α × α) → List (α × α)) (fill : α)
    (x : List α) (w : Option (List α)) (m : Option (List Bool)) :
    (∀ name ∈ ["1sigma", "2sigma", "3sigma"], errorbarQ srt name fill x w m = .error .valueError) ∧
    (∀ name, name ∉ ["1sigma", "2sigma", "3sigma"] →
      name ∉ (interval3 : List (String × α × α × α)).map (fun q => q.1) →
      errorbarQ srt name fill x w m = .error .keyError) := by
  constructor
  · intro name hname
    have key : ∀ p q : α, ∃ a b, quantile1d srt [p, q] true fill x w m = [a, b] := by
      intro p q
      unfold quantile1d impl1d
      simp only
      split
      · exact ⟨_, _, rfl⟩
      · split <;> exact ⟨_, _, rfl⟩
    simp only [List.mem_cons, List.not_mem_nil, or_false] at hname
    rcases hname with rfl | rfl | rfl
    all_goals
      simp only [errorbarQ, psMap, List.lookup]
      simp only [String.reduceBEq]
      obtain ⟨a, b, e⟩ := key _ _
      rw [e]
  · intro name h1 h2
    simp [interval3] at h1 h2
    have : (psMap : List (String × List α)).lookup name = none := by
      rw [List.lookup_eq_none_iff]
      simp only [psMap, List.mem_cons, List.not_mem_nil, or_false]
      rintro p (rfl | rfl | rfl | rfl | rfl | rfl | rfl | rfl) <;> simp_all
    simp [errorbarQ, this]

/-- C48: `errorbar(x, 'mean+sd')` is (mean, sd, sd) with sd >= 0 (no NaN) on valid input. -/
theorem C48_mean_sd (fill : ℝ) (x : List ℝ) (w : Option (List ℝ)) (m : Option (List Bool))
    (h : Valid x w m) :
    ∃ sd : ℝ, 0 ≤ sd ∧ stdDev1d fill x w m = .num sd ∧
      errorbarMeanSd fill x w m = (.num (mean1d fill x w m), .num sd, .num sd) := by
  obtain ⟨e, h0⟩ := C46_stdDev_value fill x w m h
  exact ⟨_, Real.sqrt_nonneg _, e, by simp only [errorbarMeanSd, e]⟩
end C48

/-! ### C49: 2-d input -/
section C49
variable {α : Type}

/-- A (weight or mask) argument fits a matrix `x`: same number of rows, rows of the same lengths. -/
def Fits {β : Type} (x : List (List α)) (y : Option (List (List β))) : Prop :=
  ∀ v, y = some v → v.length = x.length ∧
    ∀ i (h : i < x.length) (h' : i < v.length), v[i].length = x[i].length

/-- Row `i` of an optional argument. -/
def row {β : Type} (y : Option (List (List β))) (i : Nat) : Option (List β) :=
  y.map (fun v => v.getD i [])

/-- C49: the row-by-row implementation (Quantile, Median, ...) gives as entry `i` the 1-d
reduction of row `i`, with row `i` of the weights and of the mask, one entry per row. -/
theorem C49_impl2d {β : Type} (impl : List α → Option (List α) → Option (List Bool) → β)
    (x : List (List α)) (w : Option (List (List α))) (m : Option (List (List Bool))) :
    (impl2d impl x w m).length = x.length ∧
    ∀ i (h : i < x.length), (impl2d impl x w m)[i]? = some (impl x[i] (row w i) (row m i)) := by
  unfold impl2d
  refine ⟨by simp, fun i h => ?_⟩
  rw [List.getElem?_mapIdx, List.getElem?_eq_getElem h]
  rfl

variable [Field α]

/-- C49: `Sum` of a matrix. -/
theorem C49_sum (x : List (List α)) (w : Option (List (List α))) (m : Option (List (List Bool)))
    (hw : Fits x w) (hm : Fits x m) :
    (sum2d x w m).length = x.length ∧
    ∀ i (h : i < x.length), (sum2d x w m)[i]? = some (sum1d x[i] (row w i) (row m i)) := by
  rcases w with _ | w <;> rcases m with _ | m
  · refine ⟨by simp [sum2d], fun i h => ?_⟩
    simp [sum2d, sum1d, wTot, row, h]
  · obtain ⟨h1, h2⟩ := hm m rfl
    refine ⟨by simp [sum2d, h1], fun i h => ?_⟩
    have h' : i < m.length := by omega
    simp [sum2d, sum1d, wTot, row, h, h', List.getElem?_zipWith]
  · obtain ⟨h1, h2⟩ := hw w rfl
    refine ⟨by simp [sum2d, h1], fun i h => ?_⟩
    have h' : i < w.length := by omega
    simp [sum2d, sum1d, wTot, row, h, h', List.getElem?_zipWith]
  · obtain ⟨h1, h2⟩ := hw w rfl
    obtain ⟨h3, h4⟩ := hm m rfl
    refine ⟨by simp [sum2d, h1, h3], fun i h => ?_⟩
    have h' : i < w.length := by omega
    have h'' : i < m.length := by omega
    simp [sum2d, sum1d, wTot, row, h, h', h'', List.getElem?_zipWith]

/-- C49: `Mean` of a matrix whose rows have length `n` (numpy arrays are rectangular). -/
theorem C49_mean (fill : α) (n : Nat) (x : List (List α)) (w : Option (List (List α)))
    (m : Option (List (List Bool))) (hx : ∀ r ∈ x, r.length = n) (hw : Fits x w) (hm : Fits x m) :
    (mean2d fill n x w m).length = x.length ∧
    ∀ i (h : i < x.length), (mean2d fill n x w m)[i]? =
      some (mean1d fill x[i] (row w i) (row m i)) := by
  obtain ⟨sl, sv⟩ := C49_sum x w m hw hm
  have key : ∀ i (h : i < x.length), (sum2d x w m)[i]'(by omega) = sum1d x[i] (row w i) (row m i) := by
    intro i h
    have := sv i h
    rw [List.getElem?_eq_getElem (by omega)] at this
    simpa using this
  have hrow : ∀ i (h : i < x.length), (x[i]).length = n := fun i h => hx _ (List.getElem_mem h)
  rcases w with _ | w <;> rcases m with _ | m
  · refine ⟨by simp [mean2d, count2d, Bc.map, Bc.setWhere, Bc.divL, sl], fun i h => ?_⟩
    have kk := key i h
    simp only [mean2d, count2d, Bc.map, Bc.setWhere, Bc.divL, List.getElem?_map, mean1d, row,
      Option.map_none, count1d, hrow i h]
    rw [List.getElem?_eq_getElem (by omega), kk]
    simp [row]
  · obtain ⟨h3, h4⟩ := hm m rfl
    refine ⟨by simp [mean2d, count2d, Bc.map, Bc.setWhere, Bc.divL, sl, h3], fun i h => ?_⟩
    have h'' : i < m.length := by omega
    have kk := key i h
    simp only [mean2d, count2d, Bc.map, Bc.setWhere, Bc.divL, List.getElem?_map, mean1d, row,
      Option.map_none, Option.map_some, count1d, List.getElem?_zipWith]
    rw [List.getElem?_eq_getElem (by omega), kk, List.getElem?_eq_getElem h'']
    simp [row, h'']
  · obtain ⟨h1, h2⟩ := hw w rfl
    have hfw : Fits w (none : Option (List (List Bool))) := by intro v hv; simp at hv
    obtain ⟨tl, tv⟩ := C49_sum w none none (by intro v hv; simp at hv) hfw
    refine ⟨by simp [mean2d, count2d, Bc.map, Bc.setWhere, Bc.divL, sl, tl, h1], fun i h => ?_⟩
    have h' : i < w.length := by omega
    have kk := key i h
    have tt := tv i h'
    simp only [mean2d, count2d, Bc.map, Bc.setWhere, Bc.divL, List.getElem?_map, mean1d, row,
      Option.map_none, Option.map_some, count1d, List.getElem?_zipWith, hrow i h]
    rw [List.getElem?_eq_getElem (by omega), kk, tt]
    simp [row, h']
  · obtain ⟨h1, h2⟩ := hw w rfl
    obtain ⟨h3, h4⟩ := hm m rfl
    obtain ⟨tl, tv⟩ := C49_sum w none (some m) (by intro v hv; simp at hv) (by
      intro v hv; cases hv
      exact ⟨by omega, fun i a b => by rw [h4 i (by omega) b, h2 i (by omega) a]⟩)
    refine ⟨by simp [mean2d, count2d, Bc.map, Bc.setWhere, Bc.divL, sl, tl, h1, h3], fun i h => ?_⟩
    have h' : i < w.length := by omega
    have h'' : i < m.length := by omega
    have kk := key i h
    have tt := tv i h'
    simp only [mean2d, count2d, Bc.map, Bc.setWhere, Bc.divL, List.getElem?_map, mean1d, row,
      Option.map_none, Option.map_some, count1d, List.getElem?_zipWith]
    rw [List.getElem?_eq_getElem (by omega), kk, tt, List.getElem?_eq_getElem h'']
    simp [row, h', h'']

example : (∀ r ∈ ([[1, 2], [3, 4]] : List (List ℚ)), r.length = 2) ∧
    Fits ([[1, 2], [3, 4]] : List (List ℚ)) (some [[true, false], [false, false]]) := by
  refine ⟨by decide, ?_⟩
  intro v hv
  cases hv
  refine ⟨rfl, ?_⟩
  intro i h h'
  rcases i with _ | _ | i
  · rfl
  · rfl
  · simp at h

/-- C49: `StdDev` of a matrix. -/
theorem C49_stdDev (fill : ℝ) (n : Nat) (x : List (List ℝ)) (w : Option (List (List ℝ)))
    (m : Option (List (List Bool))) (hx : ∀ r ∈ x, r.length = n) (hw : Fits x w) (hm : Fits x m) :
    (stdDev2d fill n x w m).length = x.length ∧
    ∀ i (h : i < x.length), (stdDev2d fill n x w m)[i]? =
      some (stdDev1d fill x[i] (row w i) (row m i)) := by
  obtain ⟨ml, mv⟩ := C49_mean fill n x w m hx hw hm
  set dx := (List.zipWith (fun (r : List ℝ) mu => r.map (fun a => a - mu)) x
    (mean2d fill n x w m)).map (fun r => r.map (fun d => d * d)) with hdx
  have dl : dx.length = x.length := by simp [hdx, ml]
  have dget : ∀ i (h : i < dx.length), dx[i] = ((x[i]'(by omega)).map
      (fun a => a - mean1d fill (x[i]'(by omega)) (row w i) (row m i))).map (fun d => d * d) := by
    intro i h
    have hi : i < x.length := by omega
    have := mv i hi
    rw [List.getElem?_eq_getElem (by omega)] at this
    have e : (mean2d fill n x w m)[i]'(by omega) = mean1d fill x[i] (row w i) (row m i) := by
      simpa using this
    simp only [hdx, List.getElem_map, List.getElem_zipWith, e]
  have hfit : ∀ {β : Type} (y : Option (List (List β))), Fits x y → Fits dx y := by
    intro β y hy v hv
    obtain ⟨h1, h2⟩ := hy v hv
    refine ⟨by omega, fun i h h' => ?_⟩
    rw [dget i h, List.length_map, List.length_map]
    exact h2 i (by omega) h'
  obtain ⟨sl, sv⟩ := C49_mean fill n dx w m (by
    intro r hr
    obtain ⟨i, hi, rfl⟩ := List.getElem_of_mem hr
    rw [dget i hi, List.length_map, List.length_map]
    exact hx _ (List.getElem_mem _)) (hfit w hw) (hfit m hm)
  have e : stdDev2d fill n x w m = (mean2d fill n dx w m).map npSqrt := rfl
  rw [e]
  refine ⟨by rw [List.length_map]; omega, fun i h => ?_⟩
  rw [List.getElem?_map, sv i (by omega), dget i (by omega)]
  rfl

/-- C49: `Count` of a matrix: with a mask one count per row; without a mask ONE number, the row
length (recorded: not one entry per row). -/
theorem C49_count (n : Nat) (x : List (List α)) (hx : ∀ r ∈ x, r.length = n)
    (m : List (List Bool)) (hm : Fits x (some m)) :
    (∃ l, count2d n (some m) = .rows l ∧ l.length = x.length ∧
      ∀ i (h : i < x.length), l[i]? = some (count1d x[i] (row (some m) i))) ∧
    count2d n none = .scalar n ∧ ∀ r ∈ x, count1d r none = n := by
  obtain ⟨h1, -⟩ := hm m rfl
  refine ⟨⟨_, rfl, by simpa using h1, fun i h => ?_⟩, rfl, hx⟩
  have h' : i < m.length := by omega
  simp [count1d, row, h']
end C49

section C49b
variable {α : Type} [Field α] [LinearOrder α] [IsStrictOrderedRing α] [FloorRing α]

theorem quantile1d_length (srt : List (α × α) → List (α × α)) (ps : List α) (fill : α) (x : List α) (w : Option (List α)) (m : Option (List Bool)) :
    (quantile1d srt ps true fill x w m).length = ps.length := by
  unfold quantile1d impl1d
  dsimp only
  split
  · simp
  · split <;> simp

/-- C49: `Errorbar` with quantiles of a matrix with at least one row: row by row the 1-d error bar, one entry per row, or the error that the
1-d error bar raises. -/
theorem C49_errorbar (srt : List (α × α) → List (α × α)) (name : String) (fill : α) (x : List (List α)) (hx : x ≠ []) (w : Option (List (List α)))
    (m : Option (List (List Bool))) :
    (∀ l, errorbarQ2d srt name fill x w m = .ok l →
      l.length = x.length ∧ ∀ i (h : i < x.length), ∃ v, l[i]? = some v ∧ errorbarQ srt name fill x[i] (row w i) (row m i) = .ok v) ∧
    (∀ e, errorbarQ2d srt name fill x w m = .error e → ∀ i (h : i < x.length), errorbarQ srt name fill x[i] (row w i) (row m i) = .error e) := by
  have hlen : x.length ≠ 0 := by
    intro h
    exact hx (List.length_eq_zero_iff.mp h)
  cases hl : (psMap : List (String × List α)).lookup name with
  | none =>
    refine ⟨fun l h => ?_, fun e h i hi => ?_⟩
    · simp only [errorbarQ2d, hl] at h
      cases h
    · simp only [errorbarQ2d, hl] at h
      cases h
      simp only [errorbarQ, hl]
  | some ps =>
    obtain ⟨a, b⟩ := C49_impl2d (quantile1d srt ps true fill) x w m
    refine ⟨fun l h => ?_, fun e h i hi => ?_⟩
    · simp only [errorbarQ2d, hl] at h
      split at h
      · cases h
      · rename_i hc
        have hp : ps.length = 3 := by
          by_contra h3
          exact hc (.inr h3)
        have h := Except.ok.inj h
        subst h
        refine ⟨by rw [List.length_map, a], fun i hi => ?_⟩
        rw [List.getElem?_map, b i hi]
        have ql := quantile1d_length srt ps fill x[i] (row w i) (row m i)
        rw [hp] at ql
        obtain ⟨q0, q1, q2, hq⟩ := List.length_eq_three.mp ql
        simp only [errorbarQ, hl, Option.map_some, hq]
        exact ⟨_, rfl, rfl⟩
    · simp only [errorbarQ2d, hl] at h
      split at h
      · rename_i hc
        cases h
        have hp : ps.length ≠ 3 := by
          rcases hc with h0 | h0
          · rw [a] at h0
            exact absurd h0 hlen
          · exact h0
        have ql := quantile1d_length srt ps fill x[i] (row w i) (row m i)
        simp only [errorbarQ, hl]
        split
        · rename_i hq
          rw [hq] at ql
          exact absurd ql.symm hp
        · rfl
      · cases h

/-- C49 (recorded): the quantile error bars of a matrix without rows are a ValueError for every known name, although `Mean`, `StdDev`, `Quantile` and
`Errorbar('mean+sd')` accept such a matrix. -/
theorem C49_errorbar_no_rows (srt : List (α × α) → List (α × α)) (fill : α) (w : Option (List (List α))) (m : Option (List (List Bool))) (ps qs : List α) :
    (∀ name, (psMap : List (String × List α)).lookup name = some ps → errorbarQ2d srt name fill [] w m = .error .valueError) ∧
    impl2d (quantile1d srt qs true fill) [] w m = [] := by
  refine ⟨fun name h => ?_, rfl⟩
  simp only [errorbarQ2d, h]
  exact if_pos (.inl rfl)

/-- C49: `Errorbar('mean+sd')` of a matrix, row by row. -/
theorem C49_errorbar_mean_sd (fill : ℝ) (n : Nat) (x : List (List ℝ)) (w : Option (List (List ℝ)))
    (m : Option (List (List Bool))) (hx : ∀ r ∈ x, r.length = n) (hw : Fits x w) (hm : Fits x m) :
    (errorbarMeanSd2d fill n x w m).length = x.length ∧
    ∀ i (h : i < x.length), (errorbarMeanSd2d fill n x w m)[i]? = some (errorbarMeanSd fill x[i] (row w i) (row m i)) := by
  obtain ⟨a, b⟩ := C49_mean fill n x w m hx hw hm
  obtain ⟨c, d⟩ := C49_stdDev fill n x w m hx hw hm
  refine ⟨by simp [errorbarMeanSd2d, a, c], fun i h => ?_⟩
  simp only [errorbarMeanSd2d, List.getElem?_zipWith, b i h, d i h]
  rfl
end C49b

/-- Two rows, the second one masked out. -/
example : errorbarQ2d id "median+1sigma" (7 : ℚ) [[1, 2, 3], [4, 5, 6]] (some [[1, 1, 2], [1, 1, 1]]) (some [[true, true, true], [false, false, false]]) =
    .ok [[2, 1, 17 / 25], [7, 0, 0]] := by decide +kernel

end Pyhipp.Reduction
