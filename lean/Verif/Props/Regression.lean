import Verif.Model.Regression
import Verif.Props.Reduction
import Verif.Props.Grid
import Verif.Props.Stats
/-
C54 (neighbour regression), C55 (histogram density), C96 (neighbour densities).
-/
namespace Pyhipp.Regression
open Pyhipp Reduction Stats

/-! ### C54 -/
section C54

/-- Specification: the neighbours of a query point that count, as (distance, index): those the
tree returned, and with `max_dx` only those nearer than it. -/
noncomputable def neigh (maxDx : Option ℝ) (d : List ℝ) (id : List Nat) : List (ℝ × Nat) :=
  (d.zip id).filter (fun p => maxDx.elim true (fun m => decide (p.1 < m)))

/-- Specification: the weight of a neighbour: training weight (1 if none) times kernel value (1 if no
kernel). -/
noncomputable def wt (wTr : Option (List ℝ)) (kernel : Option Kernel) (p : ℝ × Nat) : ℝ :=
  wTr.elim 1 (fun w => w.getD p.2 0) * kernel.elim 1 (fun k => k.eval p.1)

/-- Weight row of one query point. -/
noncomputable def rowW (wTr : Option (List ℝ)) (kernel : Option Kernel) (d : List ℝ) (id : List Nat) :
    Option (List ℝ) :=
  if wTr = none ∧ kernel = none then none
  else some (List.zipWith (fun a i => wt wTr kernel (a, i)) d id)

noncomputable def rowM (maxDx : Option ℝ) (d : List ℝ) : Option (List Bool) :=
  maxDx.map (fun m => d.map (fun a => decide (a < m)))

theorem zw_right {β γ δ : Type} (f : γ → δ) (a : List β) (b : List γ) (h : a.length = b.length) :
    List.zipWith (fun _ y => f y) a b = b.map f := by
  apply List.ext_getElem
  · simp [h]
  · intro i h1 h2; simp

theorem getD_ge {β : Type} (l : List β) (i : Nat) (d : β) (h : l.length ≤ i) : l.getD i d = d := by
  simp [List.getD_eq_getElem?_getD, List.getElem?_eq_none h]

theorem zw_left {β γ δ : Type} (f : β → δ) (a : List β) (b : List γ) (h : a.length = b.length) :
    List.zipWith (fun x _ => f x) a b = a.map f := by
  apply List.ext_getElem
  · simp [h]
  · intro i h1 h2; simp

theorem row_knnWeight (wTr : Option (List ℝ)) (ds : List (List ℝ)) (ids : List (List Nat))
    (kernel : Option Kernel) (q : Nat) (h1 : q < ds.length) (h2 : q < ids.length)
    (hl : ds[q].length = ids[q].length) :
    row (knnWeight wTr ds ids kernel) q = rowW wTr kernel ds[q] ids[q] := by
  rcases wTr with _ | w <;> rcases kernel with _ | k
  · simp [knnWeight, row, rowW]
  · simp only [knnWeight, row, rowW, Option.map_none, Option.map_some, wt, Option.elim, one_mul]
    rw [if_neg (by simp), zw_left (fun a => k.eval a) _ _ hl]
    simp [h1]
  · simp only [knnWeight, row, rowW, Option.map_some, wt, Option.elim, mul_one, gather]
    rw [if_neg (by simp), zw_right (fun i => w.getD i 0) _ _ hl]
    simp [h2]
  · simp only [knnWeight, row, rowW, Option.map_some, wt, Option.elim, gather, mul2]
    rw [if_neg (by simp)]
    congr 1
    rw [getD_lt _ _ _ (by simp; omega)]
    apply List.ext_getElem
    · simp [hl]
    · intro i h1 h2; simp

theorem row_knnMask (ds : List (List ℝ)) (maxDx : Option ℝ) (q : Nat) (h1 : q < ds.length) :
    row (knnMask ds maxDx) q = rowM maxDx ds[q] := by
  rcases maxDx with _ | m <;> simp [knnMask, row, rowM, h1]

theorem sum_some (maxDx : Option ℝ) (f : Nat → ℝ) (g : ℝ → Nat → ℝ) (d : List ℝ) (id : List Nat)
    (hl : d.length = id.length) :
    sum1d (id.map f) (some (List.zipWith g d id)) (rowM maxDx d)
      = ((neigh maxDx d id).map (fun p => f p.2 * g p.1 p.2)).sum := by
  induction d generalizing id with
  | nil =>
      cases id with
      | nil => rcases maxDx with _ | m <;> simp [sum1d, wTot, neigh, rowM]
      | cons _ _ => simp at hl
  | cons a t ih =>
      cases id with
      | nil => simp at hl
      | cons i is =>
          have := ih is (by simpa using hl)
          rcases maxDx with _ | m
          · simp only [sum1d, wTot, neigh, rowM, Option.map_none, Option.elim, List.filter_true] at this ⊢
            simp [this]
          · simp only [sum1d, wTot, neigh, rowM, Option.map_some, Option.elim] at this ⊢
            by_cases hm : a < m <;>
              simp only [List.map_cons, List.zipWith_cons_cons, List.sum_cons, List.zip_cons_cons,
                List.filter_cons, hm, decide_true, decide_false, b2n, if_true, if_false, mul_one, mul_zero,
                zero_add, Bool.false_eq_true] <;> rw [← this] <;> rfl

theorem sum_none (maxDx : Option ℝ) (f : Nat → ℝ) (d : List ℝ) (id : List Nat)
    (hl : d.length = id.length) :
    sum1d (id.map f) none (rowM maxDx d) = ((neigh maxDx d id).map (fun p => f p.2)).sum := by
  induction d generalizing id with
  | nil =>
      cases id with
      | nil => rcases maxDx with _ | m <;> simp [sum1d, wTot, neigh, rowM]
      | cons _ _ => simp at hl
  | cons a t ih =>
      cases id with
      | nil => simp at hl
      | cons i is =>
          have := ih is (by simpa using hl)
          rcases maxDx with _ | m
          · simp only [sum1d, wTot, neigh, rowM, Option.map_none, Option.elim, List.filter_true] at this ⊢
            simp [this]
          · simp only [sum1d, wTot, neigh, rowM, Option.map_some, Option.elim] at this ⊢
            by_cases hm : a < m <;>
              simp only [List.map_cons, List.zipWith_cons_cons, List.sum_cons, List.zip_cons_cons,
                List.filter_cons, hm, decide_true, decide_false, b2n, if_true, if_false, mul_one, mul_zero,
                zero_add, Bool.false_eq_true] <;> rw [← this] <;> rfl

theorem sum_w (maxDx : Option ℝ) (g : ℝ → Nat → ℝ) (d : List ℝ) (id : List Nat)
    (hl : d.length = id.length) :
    sum1d (List.zipWith g d id) none (rowM maxDx d)
      = ((neigh maxDx d id).map (fun p => g p.1 p.2)).sum := by
  induction d generalizing id with
  | nil =>
      cases id with
      | nil => rcases maxDx with _ | m <;> simp [sum1d, wTot, neigh, rowM]
      | cons _ _ => simp at hl
  | cons a t ih =>
      cases id with
      | nil => simp at hl
      | cons i is =>
          have := ih is (by simpa using hl)
          rcases maxDx with _ | m
          · simp only [sum1d, wTot, neigh, rowM, Option.map_none, Option.elim, List.filter_true] at this ⊢
            simp [this]
          · simp only [sum1d, wTot, neigh, rowM, Option.map_some, Option.elim] at this ⊢
            by_cases hm : a < m <;>
              simp only [List.map_cons, List.zipWith_cons_cons, List.sum_cons, List.zip_cons_cons,
                List.filter_cons, hm, decide_true, decide_false, b2n, if_true, if_false, mul_one, mul_zero,
                zero_add, Bool.false_eq_true] <;> rw [← this] <;> rfl

theorem count_neigh {β : Type} (maxDx : Option ℝ) (d : List ℝ) (id : List Nat) (x : List β)
    (hl : d.length = id.length) (hx : x.length = d.length) :
    count1d x (rowM maxDx d) = (neigh maxDx d id).length := by
  rcases maxDx with _ | m
  · simp [count1d, rowM, neigh, hl, hx]
  · simp only [count1d, rowM, Option.map_some, neigh, Option.elim]
    clear hx
    induction d generalizing id with
    | nil => simp
    | cons a t ih =>
        cases id with
        | nil => simp at hl
        | cons i is =>
            have := ih is (by simpa using hl)
            by_cases hm : a < m
            · simp only [List.map_cons, List.sum_cons, List.zip_cons_cons, List.filter_cons, hm,
                decide_true, if_true, List.length_cons]
              rw [this, add_comm]
            · simp only [List.map_cons, List.sum_cons, List.zip_cons_cons, List.filter_cons, hm,
                decide_false, if_false, Bool.false_eq_true, zero_add]
              exact this

/-- The arrays a query of `k` neighbours returns: as many rows as query points, `k` columns. -/
def Query (k : Nat) (ds : List (List ℝ)) (ids : List (List Nat)) : Prop :=
  ds.length = ids.length ∧ (∀ r ∈ ds, r.length = k) ∧ (∀ r ∈ ids, r.length = k)

theorem fits (k : Nat) (yTr : List ℝ) (wTr : Option (List ℝ)) (ds : List (List ℝ))
    (ids : List (List Nat)) (maxDx : Option ℝ) (kernel : Option Kernel) (hq : Query k ds ids) :
    (∀ r ∈ gather yTr ids, r.length = k) ∧ Fits (gather yTr ids) (knnWeight wTr ds ids kernel) ∧
    Fits (gather yTr ids) (knnMask ds maxDx) := by
  obtain ⟨h1, h2, h3⟩ := hq
  have gi : ∀ i (h : i < ids.length), ids[i].length = k := fun i h => h3 _ (List.getElem_mem h)
  have gd : ∀ i (h : i < ds.length), ds[i].length = k := fun i h => h2 _ (List.getElem_mem h)
  refine ⟨?_, ?_, ?_⟩
  · intro r hr
    obtain ⟨s, hs, rfl⟩ := List.mem_map.mp hr
    simpa using h3 s hs
  · intro v hv
    have hrow : ∀ q, q < ids.length → row (some v) q = rowW wTr kernel (ds.getD q []) (ids.getD q []) := by
      intro q hq
      rw [← hv, row_knnWeight wTr ds ids kernel q (by omega) hq (by rw [gi q hq, gd q (by omega)]),
        getD_lt _ _ _ hq, getD_lt _ _ _ (by omega)]
    have hvl : v.length = ids.length := by
      rcases wTr with _ | w <;> rcases kernel with _ | kk <;>
        simp [knnWeight, gather, mul2] at hv <;> simp [← hv, h1]
    refine ⟨by simpa [gather] using hvl, fun i h h' => ?_⟩
    have hi : i < ids.length := by omega
    have := hrow i hi
    simp only [row, Option.map_some, rowW] at this
    split at this
    · simp at this
    · rw [getD_lt _ _ _ h'] at this
      simp only [Option.some.injEq] at this
      rw [this, getD_lt _ _ _ hi, getD_lt _ _ _ (by omega)]
      simp [gather, gi i hi, gd i (by omega)]
  · intro v hv
    rcases maxDx with _ | m
    · simp [knnMask] at hv
    · simp only [knnMask, Option.map_some, Option.some.injEq] at hv
      subst hv
      refine ⟨by simp [gather, h1], fun i h h' => ?_⟩
      simp [gather, gi i (by simpa [gather] using h), gd i (by simpa using h')]

/-- C54: the `mean` prediction at query point `q` is the weighted mean of the targets of the
neighbours that count, and the fill value if there is none. -/
theorem C54_mean (fill : ℝ) (k : Nat) (yTr : List ℝ) (wTr : Option (List ℝ)) (ds : List (List ℝ))
    (ids : List (List Nat)) (maxDx : Option ℝ) (kernel : Option Kernel) (hq : Query k ds ids)
    (q : Nat) (h1 : q < ds.length) (h2 : q < ids.length) :
    (mean2d fill k (gather yTr ids) (knnWeight wTr ds ids kernel) (knnMask ds maxDx)).length = ids.length ∧
    (mean2d fill k (gather yTr ids) (knnWeight wTr ds ids kernel) (knnMask ds maxDx))[q]? =
      some (if neigh maxDx ds[q] ids[q] = [] then fill else
        ((neigh maxDx ds[q] ids[q]).map (fun p => yTr.getD p.2 0 * wt wTr kernel p)).sum /
        ((neigh maxDx ds[q] ids[q]).map (wt wTr kernel)).sum) := by
  obtain ⟨f1, f2, f3⟩ := fits k yTr wTr ds ids maxDx kernel hq
  obtain ⟨m1, m2⟩ := C49_mean fill k (gather yTr ids) _ _ f1 f2 f3
  refine ⟨by simpa [gather] using m1, ?_⟩
  have hl : ds[q].length = ids[q].length := by
    rw [hq.2.1 _ (List.getElem_mem h1), hq.2.2 _ (List.getElem_mem h2)]
  have hg : (gather yTr ids)[q]'(by simpa [gather] using h2) = ids[q].map (fun i => yTr.getD i 0) := by
    simp [gather]
  rw [m2 q (by simpa [gather] using h2), hg, row_knnWeight wTr ds ids kernel q h1 h2 hl,
    row_knnMask ds maxDx q h1]
  congr 1
  unfold mean1d
  rw [count_neigh maxDx _ ids[q] _ hl (by simp [hl])]
  by_cases hn : neigh maxDx ds[q] ids[q] = []
  · simp [hn]
  · have hp : ¬ (neigh maxDx ds[q] ids[q]).length < 1 := by
      have := List.length_pos_iff.mpr hn; omega
    simp only [hp, if_false, hn]
    unfold rowW
    by_cases hc : wTr = none ∧ kernel = none
    · obtain ⟨rfl, rfl⟩ := hc
      simp only [and_self, if_true]
      rw [sum_none maxDx _ _ _ hl]
      have hone : (neigh maxDx ds[q] ids[q]).map (wt none none) = (neigh maxDx ds[q] ids[q]).map (fun _ => 1) :=
        List.map_congr_left (fun p _ => by simp [wt])
      rw [hone]
      simp [wt]
    · simp only [hc, if_false]
      rw [sum_some maxDx _ _ _ _ hl, sum_w maxDx _ _ _ hl]

/-- C54: a constant target is predicted as that constant wherever the weights of the counted
neighbours do not cancel. -/
theorem C54_constant (fill : ℝ) (k : Nat) (c : ℝ) (yTr : List ℝ) (wTr : Option (List ℝ))
    (ds : List (List ℝ)) (ids : List (List Nat)) (maxDx : Option ℝ) (kernel : Option Kernel)
    (hq : Query k ds ids) (q : Nat) (h1 : q < ds.length) (h2 : q < ids.length)
    (hy : ∀ i ∈ ids[q], yTr[i]? = some c)
    (hw : ((neigh maxDx ds[q] ids[q]).map (wt wTr kernel)).sum ≠ 0) :
    (mean2d fill k (gather yTr ids) (knnWeight wTr ds ids kernel) (knnMask ds maxDx))[q]? = some c := by
  rw [(C54_mean fill k yTr wTr ds ids maxDx kernel hq q h1 h2).2]
  have hn : neigh maxDx ds[q] ids[q] ≠ [] := by intro h; simp [h] at hw
  rw [if_neg hn]
  have : (neigh maxDx ds[q] ids[q]).map (fun p => yTr.getD p.2 0 * wt wTr kernel p)
      = (neigh maxDx ds[q] ids[q]).map (fun p => c * wt wTr kernel p) := by
    apply List.map_congr_left
    intro p hp
    have : p.2 ∈ ids[q] := (List.of_mem_zip (List.mem_of_mem_filter hp)).2
    simp [List.getD_eq_getElem?_getD, hy _ this]
  rw [this, List.sum_map_mul_left, mul_div_assoc, div_self hw, mul_one]

/-- C54: with non-negative weights not all zero, the `mean` prediction lies between the smallest and
the largest target of the counted neighbours. -/
theorem C54_bounds (fill lo hi : ℝ) (k : Nat) (yTr : List ℝ) (wTr : Option (List ℝ))
    (ds : List (List ℝ)) (ids : List (List Nat)) (maxDx : Option ℝ) (kernel : Option Kernel)
    (hq : Query k ds ids) (q : Nat) (h1 : q < ds.length) (h2 : q < ids.length)
    (hy : ∀ p ∈ neigh maxDx ds[q] ids[q], lo ≤ yTr.getD p.2 0 ∧ yTr.getD p.2 0 ≤ hi)
    (hnn : ∀ p ∈ neigh maxDx ds[q] ids[q], 0 ≤ wt wTr kernel p)
    (hw : ((neigh maxDx ds[q] ids[q]).map (wt wTr kernel)).sum ≠ 0) :
    ∃ v, (mean2d fill k (gather yTr ids) (knnWeight wTr ds ids kernel) (knnMask ds maxDx))[q]? = some v
      ∧ lo ≤ v ∧ v ≤ hi := by
  refine ⟨_, (C54_mean fill k yTr wTr ds ids maxDx kernel hq q h1 h2).2, ?_⟩
  have hn : neigh maxDx ds[q] ids[q] ≠ [] := by intro h; simp [h] at hw
  rw [if_neg hn]
  generalize neigh maxDx ds[q] ids[q] = l at hy hnn hw ⊢
  have hpos : 0 < (l.map (wt wTr kernel)).sum := by
    refine lt_of_le_of_ne (List.sum_nonneg ?_) (Ne.symm hw)
    intro a ha
    obtain ⟨p, hp, rfl⟩ := List.mem_map.mp ha
    exact hnn p hp
  clear hw
  have key : lo * (l.map (wt wTr kernel)).sum ≤ (l.map (fun p => yTr.getD p.2 0 * wt wTr kernel p)).sum ∧
      (l.map (fun p => yTr.getD p.2 0 * wt wTr kernel p)).sum ≤ hi * (l.map (wt wTr kernel)).sum := by
    rw [← List.sum_map_mul_left, ← List.sum_map_mul_left]
    constructor
    · apply List.sum_le_sum
      intro p hp
      exact mul_le_mul_of_nonneg_right (hy p hp).1 (hnn p hp)
    · apply List.sum_le_sum
      intro p hp
      exact mul_le_mul_of_nonneg_right (hy p hp).2 (hnn p hp)
  exact ⟨(le_div_iff₀ hpos).mpr key.1, (div_le_iff₀ hpos).mpr key.2⟩

theorem eval_nonneg (k : Kernel) (d : ℝ) : 0 ≤ k.eval d := by
  cases k with
  | gaussian s => exact (Real.exp_pos _).le
  | tophat r => simp only [Kernel.eval, tophat]; split <;> norm_num

/-- C54: `masked_fraction_by_knn` returns one value per query point: the kernel-weighted fraction of
the weight that is masked (with the total clipped from below at 1e-10), which for non-negative
weights lies in [0, 1]. -/
theorem C54_masked_fraction (k : Nat) (weight : List ℝ) (mask : List Bool) (ds : List (List ℝ))
    (ids : List (List Nat)) (maxDx : Option ℝ) (kernel : Option Kernel) (minCount : Int)
    (hq : Query k ds ids) (hml : mask.length = weight.length) (hw : ∀ a ∈ weight, 0 ≤ a)
    (q : Nat) (h1 : q < ds.length) (h2 : q < ids.length) :
    (maskedFraction k weight mask ds ids maxDx kernel minCount).1.length = ids.length ∧
    ∃ v, (maskedFraction k weight mask ds ids maxDx kernel minCount).1[q]? = some v ∧ 0 ≤ v ∧ v ≤ 1 ∧
      v = ((neigh maxDx ds[q] ids[q]).map (fun p => if mask.getD p.2 false then
            weight.getD p.2 0 * wt none kernel p else 0)).sum /
          max ((neigh maxDx ds[q] ids[q]).map (fun p => weight.getD p.2 0 * wt none kernel p)).sum
            (1 / 10 ^ 10) := by
  have hl : ds[q].length = ids[q].length := by
    rw [hq.2.1 _ (List.getElem_mem h1), hq.2.2 _ (List.getElem_mem h2)]
  have S : ∀ y : List ℝ,
      (sum2d (gather y ids) (knnWeight none ds ids kernel) (knnMask ds maxDx)).length = ids.length ∧
      (sum2d (gather y ids) (knnWeight none ds ids kernel) (knnMask ds maxDx))[q]? =
      some ((neigh maxDx ds[q] ids[q]).map (fun p => y.getD p.2 0 * wt none kernel p)).sum := by
    intro y
    obtain ⟨f1, f2, f3⟩ := fits k y none ds ids maxDx kernel hq
    obtain ⟨s1, s2⟩ := C49_sum (gather y ids) _ _ f2 f3
    refine ⟨by simpa [gather] using s1, ?_⟩
    rw [s2 q (by simpa [gather] using h2), row_knnWeight none ds ids kernel q h1 h2 hl,
      row_knnMask ds maxDx q h1]
    have hg : (gather y ids)[q]'(by simpa [gather] using h2) = ids[q].map (fun i => y.getD i 0) := by
      simp [gather]
    rw [hg]
    unfold rowW
    by_cases hc : kernel = none
    · subst hc
      simp only [and_self, if_true]
      rw [sum_none maxDx _ _ _ hl]
      simp [wt]
    · rw [if_neg (by simp [hc])]
      rw [sum_some maxDx _ _ _ _ hl]
  obtain ⟨a1, a2⟩ := S weight
  obtain ⟨b1, b2⟩ := S (List.zipWith (fun (m : Bool) w => b2n m * w) mask weight)
  have hmw : ∀ i, (List.zipWith (fun (m : Bool) w => b2n m * w) mask weight).getD i 0
      = if mask.getD i false then weight.getD i 0 else 0 := by
    intro i
    rcases lt_or_ge i weight.length with h | h
    · rw [getD_lt _ _ _ (by simp; omega), getD_lt _ _ _ (by omega), getD_lt _ _ _ h]
      simp only [List.getElem_zipWith, b2n]
      split <;> simp
    · rw [getD_ge _ _ _ (by simp; omega), getD_ge _ _ _ (by omega : mask.length ≤ i)]
      simp
  refine ⟨by simp [maskedFraction, a1, b1], _, by
    simp only [maskedFraction, List.getElem?_zipWith, a2, b2]; rfl, ?_⟩
  have hgnn : ∀ i, 0 ≤ weight.getD i 0 := by
    intro i
    rcases lt_or_ge i weight.length with h | h
    · rw [getD_lt _ _ _ h]; exact hw _ (List.getElem_mem h)
    · rw [getD_ge _ _ _ h]
  have hwnn : ∀ p, 0 ≤ wt none kernel p := by
    intro p
    rcases kernel with _ | kk
    · simp [wt]
    · simp [wt, eval_nonneg]
  have hmul : ∀ p : ℝ × Nat, (List.zipWith (fun (m : Bool) w => b2n m * w) mask weight).getD p.2 0 * wt none kernel p
      = if mask.getD p.2 false then weight.getD p.2 0 * wt none kernel p else 0 := by
    intro p; rw [hmw]; split <;> simp
  simp only [hmul]
  generalize neigh maxDx ds[q] ids[q] = l
  have h0 : 0 ≤ (l.map (fun p => if mask.getD p.2 false then weight.getD p.2 0 * wt none kernel p else 0)).sum := by
    apply List.sum_nonneg
    intro a ha
    obtain ⟨p, -, rfl⟩ := List.mem_map.mp ha
    split
    · exact mul_nonneg (hgnn _) (hwnn _)
    · exact le_rfl
  have h1 : (l.map (fun p => if mask.getD p.2 false then weight.getD p.2 0 * wt none kernel p else 0)).sum
      ≤ (l.map (fun p => weight.getD p.2 0 * wt none kernel p)).sum := by
    apply List.sum_le_sum
    intro p _
    split
    · exact le_rfl
    · exact mul_nonneg (hgnn _) (hwnn _)
  have hm : (0:ℝ) < max (l.map (fun p => weight.getD p.2 0 * wt none kernel p)).sum (1 / 10 ^ 10) :=
    lt_of_lt_of_le (by norm_num) (le_max_right _ _)
  exact ⟨div_nonneg h0 hm.le, (div_le_one hm).mpr (le_trans h1 (le_max_left _ _)), trivial⟩

/-- C54: with `max_dx` a query point is flagged invalid exactly if fewer than `min_count` of its
neighbours are nearer than `max_dx`; without `max_dx` there is ONE flag, `k < min_count`. -/
theorem C54_invalid (k : Nat) (weight : List ℝ) (mask : List Bool) (ds : List (List ℝ))
    (ids : List (List Nat)) (kernel : Option Kernel) (minCount : Int) (hq : Query k ds ids) :
    (maskedFraction k weight mask ds ids none kernel minCount).2 = .scalar (decide ((k : Int) < minCount)) ∧
    ∀ maxDx, ∃ fl, (maskedFraction k weight mask ds ids (some maxDx) kernel minCount).2 = .rows fl ∧
      fl.length = ids.length ∧ ∀ q (h1 : q < ds.length) (h2 : q < ids.length),
        fl[q]? = some (decide (((neigh (some maxDx) ds[q] ids[q]).length : Int) < minCount)) := by
  refine ⟨rfl, fun maxDx => ⟨_, rfl, by simp [hq.1], fun q h1 h2 => ?_⟩⟩
  have hl : ds[q].length = ids[q].length := by
    rw [hq.2.1 _ (List.getElem_mem h1), hq.2.2 _ (List.getElem_mem h2)]
  rw [← count_neigh (some maxDx) ds[q] ids[q] ds[q] hl rfl]
  simp [count1d, rowM, h1]

/-- C54: `out['y']` lists the reductions in the order given, all applied to the same arrays;
`out['y_<name>']` is the last entry with that name. -/
theorem C54_order {γ : Type} (yTr : List ℝ) (wTr : Option (List ℝ)) (ds : List (List ℝ))
    (ids : List (List Nat)) (reduce : List (String × Red2 γ)) (maxDx : Option ℝ) (kernel : Option Kernel) :
    (knnCall yTr wTr ds ids reduce maxDx kernel).1 = reduce.map (fun r => r.2 (gather yTr ids)
        (knnWeight wTr ds ids kernel) (knnMask ds maxDx)) ∧
    ∀ n, (knnCall yTr wTr ds ids reduce maxDx kernel).2.get? ("y_" ++ n) =
      (reduce.reverse.find? (fun r => r.1 = n)).map (fun r => r.2 (gather yTr ids)
        (knnWeight wTr ds ids kernel) (knnMask ds maxDx)) := by
  unfold knnCall
  simp only
  induction reduce using List.reverseRecOn with
  | nil => simp
  | append_singleton l r ih =>
      rw [List.foldl_append]
      obtain ⟨i1, i2⟩ := ih
      refine ⟨by simp [i1], fun n => ?_⟩
      simp only [List.foldl_cons, List.foldl_nil, List.reverse_append, List.reverse_cons,
        List.reverse_nil, List.nil_append, List.singleton_append, List.find?_cons]
      rw [PyDict.get?_set, i2]
      by_cases h : r.1 = n
      · simp [h]
      · have : ¬ ("y_" ++ n = "y_" ++ r.1) := by
          intro e; exact h (String.append_right_inj _ |>.mp e).symm
        simp [h, this]

/-- C54: the local-kernel regression with a reusable collection of reductions: entry `i` of `out['y']`
has one value per query point, in order: reduction `i` of the targets and weights of that point's
neighbours. -/
theorem C54_local {γ : Type} (yTr : List ℝ) (wTr : Option (List ℝ)) (ds : List (List ℝ))
    (ids : List (List Nat)) (reduce : List (String × Red1 γ)) (kernel : Option Kernel)
    (hl : ∀ q ∈ ds.zip ids, q.1.length = q.2.length) :
    ∃ named, localCall yTr wTr ds ids (.seq reduce) kernel =
      .ok (reduce.map (fun r => List.zipWith (fun d id => r.2 (id.map (fun i => yTr.getD i 0))
        (rowW wTr kernel d id)) ds ids), named) ∧
      ∀ n, named.get? ("y_" ++ n) = (reduce.reverse.find? (fun r => r.1 = n)).map (fun r =>
        List.zipWith (fun d id => r.2 (id.map (fun i => yTr.getD i 0)) (rowW wTr kernel d id)) ds ids) := by
  have hp : List.zipWith (fun d id => localPred yTr wTr kernel (reduce.map (fun r => r.2)) d id) ds ids
      = List.zipWith (fun d id => reduce.map (fun r => r.2 (id.map (fun i => yTr.getD i 0))
        (rowW wTr kernel d id))) ds ids := by
    apply List.ext_getElem
    · simp
    · intro q h1 h2
      simp only [List.getElem_zipWith]
      have hz := hl (ds[q]'(by simp at h1; omega), ids[q]'(by simp at h1; omega)) (by
        rw [← List.getElem_zip (h := by simp at h1 ⊢; omega)]; exact List.getElem_mem _)
      simp only at hz
      simp only [localPred, List.map_map]
      apply List.map_congr_left
      intro r _
      simp only [Function.comp]
      congr 1
      rcases wTr with _ | w <;> rcases kernel with _ | k
      · simp [rowW]
      · simp only [rowW, Option.map_none, wt, Option.elim, one_mul]
        rw [if_neg (by simp), zw_left (fun a => k.eval a) _ _ hz]
      · simp only [rowW, Option.map_some, wt, Option.elim, mul_one]
        rw [if_neg (by simp), zw_right (fun i => w.getD i 0) _ _ hz]
      · simp only [rowW, Option.map_some, wt, Option.elim]
        rw [if_neg (by simp)]
        have e : List.zipWith (fun a b => a * b) (List.map (fun i => w.getD i 0) (ids[q]'(by simp at h1; omega)))
            (List.map k.eval (ds[q]'(by simp at h1; omega))) = List.zipWith (fun a i => w.getD i 0 * k.eval a)
            (ds[q]'(by simp at h1; omega)) (ids[q]'(by simp at h1; omega)) := by
          apply List.ext_getElem
          · simp [hz]
          · intro i h1 h2; simp
        rw [e]
  have hm : ∀ i (hi : i < reduce.length), (List.zipWith (fun d id => reduce.map (fun r =>
        r.2 (id.map (fun i => yTr.getD i 0)) (rowW wTr kernel d id))) ds ids).mapM
        (fun p => pyGet p (i : Int)) = (.ok (List.zipWith (fun d id => reduce[i].2
        (id.map (fun i => yTr.getD i 0)) (rowW wTr kernel d id)) ds ids) : PyM (List γ)) := by
    intro i hi
    clear hp hl
    induction ds generalizing ids with
    | nil => simp [pure, Except.pure]
    | cons d t ih =>
        cases ids with
        | nil => simp [pure, Except.pure]
        | cons a as =>
            simp only [List.zipWith_cons_cons, List.mapM_cons, ih as]
            rw [pyGet_ofNat _ _ (by simpa using hi)]
            simp [bind, Except.bind, pure, Except.pure]
  have hy : (List.range reduce.length).mapM (fun i : Nat => (List.zipWith (fun d id => reduce.map (fun r =>
        r.2 (id.map (fun i => yTr.getD i 0)) (rowW wTr kernel d id))) ds ids).mapM
        (fun p => pyGet p (i : Int))) = (.ok (reduce.map (fun r => List.zipWith (fun d id => r.2
        (id.map (fun i => yTr.getD i 0)) (rowW wTr kernel d id)) ds ids)) : PyM (List (List γ))) := by
    rw [mapM_ok_of _ (fun i => (reduce.map (fun r => List.zipWith (fun d id => r.2
        (id.map (fun i => yTr.getD i 0)) (rowW wTr kernel d id)) ds ids)).getD i []) _ (by
      intro i hi
      rw [hm i (by simpa using hi), getD_lt _ _ _ (by simpa using hi)]
      simp)]
    congr 1
    apply List.ext_getElem
    · simp
    · intro i h1 h2
      simp only [List.getElem_map, List.getElem_range]
      rw [getD_lt _ _ _ (by simpa using h1)]
      simp
  refine ⟨_, by
    simp only [localCall, twoPasses, Src.read, List.length_map, hp, hy, bind, Except.bind, pure, Except.pure]
    rfl, ?_⟩
  intro n
  generalize hF : (fun r : String × Red1 γ => List.zipWith (fun d id => r.2
        (id.map (fun i => yTr.getD i 0)) (rowW wTr kernel d id)) ds ids) = F
  have hz : (reduce.map (fun r => r.1)).zip (reduce.map F) = reduce.map (fun r => (r.1, F r)) := by
    rw [List.zip_map']
  rw [hz]
  clear hp hm hy hz
  induction reduce using List.reverseRecOn with
  | nil => simp
  | append_singleton l r ih =>
      rw [List.map_append, List.foldl_append]
      simp only [List.map_cons, List.map_nil, List.foldl_cons, List.foldl_nil, List.reverse_append,
        List.reverse_cons, List.reverse_nil, List.nil_append, List.singleton_append, List.find?_cons]
      rw [PyDict.get?_set, ih]
      by_cases h : r.1 = n
      · simp [h]
      · have : ¬ ("y_" ++ n = "y_" ++ r.1) := by
          intro e; exact h (String.append_right_inj _ |>.mp e).symm
        simp [h, this]

/-- C54 (defect): with a one-shot iterator of reductions (e.g. a generator) the second pass over it
finds nothing, and every call with at least one query point fails with IndexError. -/
theorem C54_local_one_shot_defect {γ : Type} (yTr : List ℝ) (wTr : Option (List ℝ)) (ds : List (List ℝ))
    (ids : List (List Nat)) (reduce : List (String × Red1 γ)) (kernel : Option Kernel)
    (h1 : ds ≠ []) (h2 : ids ≠ []) (h3 : reduce ≠ []) :
    localCall yTr wTr ds ids (.oneShot reduce) kernel = .error .indexError := by
  obtain ⟨d, dt, rfl⟩ := List.exists_cons_of_ne_nil h1
  obtain ⟨i, it, rfl⟩ := List.exists_cons_of_ne_nil h2
  obtain ⟨r, rt, rfl⟩ := List.exists_cons_of_ne_nil h3
  simp only [localCall, twoPasses, Src.read, List.map_nil, List.zipWith_cons_cons, localPred,
    List.map_cons, List.length_cons, List.range_succ_eq_map, List.mapM_cons]
  simp [pyGet, bind, Except.bind]

/-- Two query points, k = 2, a kernel and a cut: the hypotheses are met and the cut matters. -/
example : Query 2 [[0, 1], [0, 5]] [[0, 1], [2, 0]] := by simp [Query]
example : neigh (some 2) [0, 5] [2, 0] = [(0, 2)] := by norm_num [neigh, List.filter]
example : ((neigh (some 2) [0, 5] [2, 0]).map (wt (some [1, 2, 3]) (some (.tophat 1)))).sum ≠ 0 := by
  norm_num [neigh, List.filter, wt, Kernel.eval, tophat]
example : ∀ q ∈ ([[0, 1], []] : List (List ℝ)).zip ([[4, 7], []] : List (List Nat)), q.1.length = q.2.length := by
  simp
end C54

/-! ### C55 -/
section C55
variable {α : Type} [Field α] [LinearOrder α] [IsStrictOrderedRing α]

/-- Specification: `x` lies in cell `I`: in every dimension `k`, edge `I k` ≤ x k < edge `I k + 1`,
the last bin including its upper edge. -/
def InCell (grids : List (List α)) (I : List Nat) (x : List α) : Prop :=
  ∀ k (h1 : k < grids.length) (h2 : k < I.length) (h3 : k < x.length) (h4 : I[k] + 1 < grids[k].length),
    grids[k][I[k]] ≤ x[k] ∧ (x[k] < grids[k][I[k] + 1] ∨
      (I[k] + 2 = grids[k].length ∧ x[k] = grids[k][I[k] + 1]))

/-- Specification: `x` lies in the closed box spanned by the grids. -/
def InBox (grids : List (List α)) (x : List α) : Prop :=
  List.Forall₂ (fun g a => ∃ lo hi, g.head? = some lo ∧ g.getLast? = some hi ∧ lo ≤ a ∧ a ≤ hi) grids x

/-- Usable grids: at least one bin each, edges strictly increasing. -/
def GridsOK (grids : List (List α)) : Prop := ∀ g ∈ grids, 2 ≤ g.length ∧ g.Pairwise (· < ·)

theorem inCell_cons (g : List α) (gs : List (List α)) (i : Nat) (I : List Nat) (a : α) (x : List α) :
    inCell (g :: gs) (i :: I) (a :: x) = (Binning.inBin g i a && inCell gs I x) := by
  simp [inCell]

theorem inCell_iff (grids : List (List α)) (I : List Nat) (x : List α)
    (hI : List.Forall₂ (fun i n => i < n) I (histShape grids)) (hx : x.length = grids.length) :
    inCell grids I x = true ↔ InCell grids I x := by
  induction grids generalizing I x with
  | nil => simp [inCell, InCell]
  | cons g gs ih =>
      cases x with
      | nil => simp at hx
      | cons a x =>
          cases I with
          | nil => simp [histShape] at hI
          | cons i I =>
              simp only [histShape, List.map_cons, List.forall₂_cons] at hI
              have hi : i + 1 < g.length := by omega
              rw [inCell_cons, Bool.and_eq_true, ih I x hI.2 (by simpa using hx)]
              simp only [Binning.inBin, Bool.and_eq_true, Bool.or_eq_true, decide_eq_true_eq]
              rw [getD_lt _ _ _ (by omega), getD_lt _ _ _ hi]
              constructor
              · rintro ⟨h1, h2⟩ k k1 k2 k3 k4
                cases k with
                | zero => exact h1
                | succ k => exact h2 k (by simpa using k1) (by simpa using k2) (by simpa using k3) k4
              · intro h
                refine ⟨h 0 (by simp) (by simp) (by simp) (by simpa using hi), ?_⟩
                intro k k1 k2 k3 k4
                exact h (k + 1) (by simpa using k1) (by simpa using k2) (by simpa using k3) k4

/-- One dimension: the bins partition the closed interval between the first and the last edge. -/
theorem bins_partition (e : List α) (he : e.Pairwise (· ≤ ·)) (a : α) (m : Nat) (hm : m + 1 ≤ e.length) :
    (List.range m).countP (fun i => Binning.inBin e i a) =
      if e.getD 0 0 ≤ a ∧ (a < e.getD m 0 ∨ (1 ≤ m ∧ m + 1 = e.length ∧ a = e.getD m 0)) then 1 else 0 := by
  induction m with
  | zero =>
      have : ¬ (e.getD 0 0 ≤ a ∧ a < e.getD 0 0) := fun h => absurd h.2 (not_lt.mpr h.1)
      simp [List.range_zero]
  | succ m ih =>
      have g0 : e.getD 0 0 ≤ e.getD m 0 := by
        rw [getD_lt _ _ _ (by omega), getD_lt _ _ _ (by omega)]; exact pw_le he (by omega) (by omega)
      have g1 : e.getD m 0 ≤ e.getD (m + 1) 0 := by
        rw [getD_lt _ _ _ (by omega), getD_lt _ _ _ (by omega)]; exact pw_le he (by omega) (by omega)
      rw [List.range_succ, List.countP_append, ih (by omega), List.countP_singleton]
      have hne : ¬ (m + 1 = e.length) := by omega
      simp only [hne, false_and, and_false, or_false, Binning.inBin, Bool.and_eq_true, Bool.or_eq_true,
        decide_eq_true_eq, Nat.le_add_left, true_and]
      have h2 : (m + 2 = e.length) ↔ (m + 1 + 1 = e.length) := by omega
      simp only [h2]
      generalize e.getD 0 0 = u at *
      generalize e.getD m 0 = v at *
      generalize e.getD (m + 1) 0 = t at *
      by_cases c0 : u ≤ a
      · by_cases c1 : a < v
        · have c2 : ¬ (v ≤ a) := not_le.mpr c1
          have c3 : a < t := lt_of_lt_of_le c1 g1
          simp [c0, c1, c2, c3]
        · have c2 : v ≤ a := not_lt.mp c1
          simp [c0, c1, c2]
      · have c2 : ¬ (v ≤ a) := fun h => c0 (le_trans g0 h)
        simp [c0, c2]

theorem countP_flatMap_cons (n : Nat) (L : List (List Nat)) (p : Nat → Bool) (r : List Nat → Bool)
    (f : List Nat → Bool) (hf : ∀ i I, f (i :: I) = (p i && r I)) :
    ((List.range n).flatMap (fun i => L.map (fun I => i :: I))).countP f
      = (List.range n).countP p * L.countP r := by
  induction n with
  | zero => simp
  | succ n ih =>
      rw [List.range_succ, List.flatMap_append, List.countP_append, ih, List.countP_append,
        List.countP_singleton, Nat.add_mul]
      congr 1
      simp only [List.flatMap_cons, List.flatMap_nil, List.append_nil, List.countP_map]
      by_cases hp : p n
      · simp only [hp, if_true, one_mul]
        congr 1
        funext I
        simp [Function.comp, hf, hp]
      · simp only [hp, if_false, zero_mul, Bool.false_eq_true]
        rw [List.countP_eq_zero]
        intro I _
        simp [hf, hp]

open Classical in
/-- Every point of the box lies in exactly one cell, every other point in none. -/
theorem cells_partition (grids : List (List α)) (hg : GridsOK grids) (x : List α)
    (hx : x.length = grids.length) :
    (Grid.indices (histShape grids)).countP (fun I => inCell grids I x) =
      if InBox grids x then 1 else 0 := by
  induction grids generalizing x with
  | nil =>
      cases x with
      | nil => simp [Grid.indices, histShape, inCell, InBox]
      | cons _ _ => simp at hx
  | cons g gs ih =>
      cases x with
      | nil => simp at hx
      | cons a x =>
          obtain ⟨hl, hp⟩ := hg g (by simp)
          have ihx := ih (fun g' h' => hg g' (by simp [h'])) x (by simpa using hx)
          simp only [histShape, List.map_cons, Grid.indices]
          rw [countP_flatMap_cons _ _ (fun i => Binning.inBin g i a) (fun I => inCell gs I x) _
            (fun i I => inCell_cons g gs i I a x)]
          simp only [histShape] at ihx
          rw [ihx, bins_partition g (pw_lt_le hp) a (g.length - 1) (by omega)]
          have h0 : g.head? = some (g.getD 0 0) := by
            rw [getD_lt _ _ _ (by omega), List.head?_eq_getElem?, List.getElem?_eq_getElem]
          have h1 : g.getLast? = some (g.getD (g.length - 1) 0) := by
            rw [getD_lt _ _ _ (by omega), List.getLast?_eq_getElem?, List.getElem?_eq_getElem]
          have hb : InBox (g :: gs) (a :: x) ↔ (g.getD 0 0 ≤ a ∧ a ≤ g.getD (g.length - 1) 0) ∧ InBox gs x := by
            simp only [InBox, List.forall₂_cons, h0, h1, Option.some.injEq]
            constructor
            · rintro ⟨⟨lo, hi, rfl, rfl, hh⟩, h⟩; exact ⟨hh, h⟩
            · rintro ⟨hh, h⟩; exact ⟨⟨_, _, rfl, rfl, hh⟩, h⟩
          have hc : (a < g.getD (g.length - 1) 0 ∨ (1 ≤ g.length - 1 ∧ g.length - 1 + 1 = g.length ∧
              a = g.getD (g.length - 1) 0)) ↔ a ≤ g.getD (g.length - 1) 0 := by
            have e1 : 1 ≤ g.length - 1 := by omega
            have e2 : g.length - 1 + 1 = g.length := by omega
            rw [le_iff_lt_or_eq (a := a)]
            simp only [e1, e2, true_and]
          simp only [hc]
          by_cases c1 : g.getD 0 0 ≤ a ∧ a ≤ g.getD (g.length - 1) 0 <;> by_cases c2 : InBox gs x <;>
            simp [hb, c1, c2]

open Classical in
/-- Specification: total weight of the points in the closed box. -/
noncomputable def boxWeight (grids : List (List α)) (xw : List (List α × α)) : α :=
  ((xw.filter (fun p => InBox grids p.1)).map (fun p => p.2)).sum

theorem total_eq (grids : List (List α)) (hg : GridsOK grids) (xw : List (List α × α))
    (hx : ∀ p ∈ xw, p.1.length = grids.length) :
    ((Grid.indices (histShape grids)).map (cellCount grids xw)).sum = boxWeight grids xw := by
  classical
  induction xw with
  | nil =>
      have : ∀ L : List (List Nat), (L.map (cellCount grids [])).sum = 0 := by
        intro L
        induction L with
        | nil => rfl
        | cons I L ih => simp [ih, cellCount]
      rw [this]
      simp [boxWeight]
  | cons p t ih =>
      have ih' := ih (fun q hq => hx q (by simp [hq]))
      have hc := cells_partition grids hg p.1 (hx p (by simp))
      have : ∀ L : List (List Nat), (L.map (cellCount grids (p :: t))).sum
          = (L.countP (fun I => inCell grids I p.1) : α) * p.2 + (L.map (cellCount grids t)).sum := by
        intro L
        induction L with
        | nil => simp
        | cons I L ihL =>
            simp only [List.map_cons, List.sum_cons, ihL, List.countP_cons]
            by_cases h : inCell grids I p.1
            · simp [cellCount, List.filter_cons, h]; ring
            · simp [cellCount, List.filter_cons, h]; ring
      rw [this, ih', hc]
      unfold boxWeight
      by_cases h : InBox grids p.1 <;> simp [List.filter_cons, h]

/-- Density stored in cell `I`. -/
theorem C55_fit (grids : List (List α)) (hg : GridsOK grids) (density : Bool) (x : List (List α))
    (w : Option (List α)) (hx : ∀ r ∈ x, r.length = grids.length)
    (hw : ∀ v, w = some v → v.length = x.length) :
    ∃ h, histFit grids density x w = .ok h ∧ h.shape = histShape grids ∧
    ∀ I, List.Forall₂ (fun i n => i < n) I (histShape grids) → h.get? I = some (
      let cnt := cellCount grids (x.zip (w.getD (x.map (fun _ => 1)))) I
      if density then cnt / cellVol grids I / boxWeight grids (x.zip (w.getD (x.map (fun _ => 1)))) else cnt) := by
  have hlen : (w.getD (x.map (fun _ => 1))).length = x.length := by
    rcases w with _ | v
    · simp
    · simpa using hw v rfl
  have hall : x.all (fun r => r.length == grids.length) = true := by simpa using hx
  have ht := total_eq grids hg (x.zip (w.getD (x.map (fun _ => 1)))) (by
    intro p hp; exact hx _ (List.of_mem_zip hp).1)
  refine ⟨_, by
    simp only [histFit, hall, pyAssert, if_true, bind, Except.bind, hlen, ne_eq, not_true_eq_false, if_false,
      pure, Except.pure]
    rfl, rfl, ?_⟩
  intro I hI
  have hidx := Grid.indices_flatIdx (histShape grids) I hI
  simp only [Grid.NDArr.get?, hI, if_true]
  have hidx := hidx.2
  cases density
  · simp [List.getElem?_map, hidx]
  · simp only [if_true, List.getElem?_map, hidx, Option.map_some, ht]

/-- C55: points with another number of columns than the grid has axes are an AssertionError, weights of another number than the points a ValueError. -/
theorem C55_refused (grids : List (List α)) (density : Bool) (x : List (List α)) (w : List α) :
    ((∃ r ∈ x, r.length ≠ grids.length) → ∀ v, histFit grids density x v = .error .assertionError) ∧
    ((∀ r ∈ x, r.length = grids.length) → w.length ≠ x.length → histFit grids density x (some w) = .error .valueError) := by
  constructor
  · rintro ⟨r, hr, hne⟩ v
    have hall : x.all (fun r => r.length == grids.length) = false := by
      rw [List.all_eq_false]; exact ⟨r, hr, by simpa using hne⟩
    simp [histFit, hall, pyAssert, bind, Except.bind]
  · intro hx hw
    have hall : x.all (fun r => r.length == grids.length) = true := by simpa using hx
    simp [histFit, hall, pyAssert, bind, Except.bind, hw]

/-- C55: the density integrates to 1: cell values times cell volumes sum to 1 whenever the box holds
weight. -/
theorem C55_integral (grids : List (List α)) (hg : GridsOK grids) (x : List (List α))
    (w : Option (List α)) (hx : ∀ r ∈ x, r.length = grids.length)
    (hw : ∀ v, w = some v → v.length = x.length)
    (hb : boxWeight grids (x.zip (w.getD (x.map (fun _ => 1)))) ≠ 0) (h : Grid.NDArr α)
    (hf : histFit grids true x w = .ok h) :
    ((Grid.indices (histShape grids)).map (fun I => (h.get? I).getD 0 * cellVol grids I)).sum = 1 := by
  obtain ⟨h', e, -, hget⟩ := C55_fit grids hg true x w hx hw
  rw [hf] at e
  obtain rfl : h = h' := by simpa using e
  have hmem : ∀ s I, I ∈ Grid.indices s → List.Forall₂ (fun i n => i < n) I s := by
    intro s
    induction s with
    | nil => intro I hI; simp [Grid.indices] at hI; simp [hI]
    | cons n s ih =>
        intro I hI
        simp only [Grid.indices, List.mem_flatMap, List.mem_range, List.mem_map] at hI
        obtain ⟨i, hi, J, hJ, rfl⟩ := hI
        exact List.Forall₂.cons hi (ih J hJ)
  have hvol : ∀ (gs : List (List α)) I, (∀ g ∈ gs, 2 ≤ g.length ∧ g.Pairwise (· < ·)) →
      List.Forall₂ (fun i n => i < n) I (histShape gs) → cellVol gs I ≠ 0 := by
    intro gs
    induction gs with
    | nil => intro I _ _; simp [cellVol]
    | cons g gs ih =>
        intro I hg' hI
        cases I with
        | nil => simp [histShape] at hI
        | cons i I =>
            simp only [histShape, List.map_cons, List.forall₂_cons] at hI
            have := ih I (fun g' h' => hg' g' (by simp [h'])) hI.2
            simp only [cellVol, List.zip_cons_cons, List.map_cons, List.prod_cons]
            refine mul_ne_zero ?_ this
            rw [getD_lt _ _ _ (by omega), getD_lt _ _ _ (by omega)]
            have := pw_lt (hg' g (by simp)).2 (show i < i + 1 by omega) (by omega)
            exact (sub_pos.mpr this).ne'
  have : (Grid.indices (histShape grids)).map (fun I => (h.get? I).getD 0 * cellVol grids I)
      = (Grid.indices (histShape grids)).map (fun I => cellCount grids (x.zip (w.getD (x.map (fun _ => 1)))) I
        * (boxWeight grids (x.zip (w.getD (x.map (fun _ => 1)))))⁻¹) := by
    apply List.map_congr_left
    intro I hI
    have hI' := hmem _ _ hI
    rw [hget I hI']
    have := hvol grids I hg hI'
    simp only [if_true, Option.getD_some]
    field_simp
  rw [this, List.sum_map_mul_right, total_eq grids hg _ (by
    intro p hp; exact hx _ (List.of_mem_zip hp).1)]
  exact mul_inv_cancel₀ hb

/-- C55: evaluation.  At a point inside the half-open cell `I` the value stored for that cell is
returned; a point in no half-open cell gets `out_fill` and the flag `is_out`. -/
theorem C55_eval (grids : List (List α)) (hg : GridsOK grids) (h : Grid.NDArr α)
    (hs : h.shape = histShape grids) (hd : h.data.length = (histShape grids).prod)
    (outFill : α) (x : List α) (hx : x.length = grids.length) :
    (∀ I, List.Forall₂ (fun i n => i < n) I (histShape grids) →
      (∀ k (h1 : k < grids.length) (h2 : k < I.length) (h3 : k < x.length) (h4 : I[k] + 1 < grids[k].length),
        grids[k][I[k]] ≤ x[k] ∧ x[k] < grids[k][I[k] + 1]) →
      ∃ v, h.get? I = some v ∧ histEval grids h outFill x = .ok (v, false)) ∧
    ((∃ k, ∃ h1 : k < grids.length, ∃ h3 : k < x.length,
        ¬ ∃ i, ∃ h4 : i + 1 < grids[k].length, grids[k][i] ≤ x[k] ∧ x[k] < grids[k][i + 1]) →
      histEval grids h outFill x = .ok (outFill, true)) := by
  have hrange : ∀ I, List.Forall₂ (fun i n => i < n) I (histShape grids) → ∃ v, h.get? I = some v := by
    intro I hI
    have hidx := Grid.indices_flatIdx (histShape grids) I hI
    have : Grid.flatIdx (histShape grids) I < h.data.length := by
      rw [hd, ← Grid.indices_length]
      exact (List.getElem?_eq_some_iff.mp hidx.2).1
    exact ⟨_, by simp only [Grid.NDArr.get?, hs, hI, if_true]; exact List.getElem?_eq_getElem this⟩
  have hok : ∀ k (h1 : k < grids.length), 2 ≤ grids[k].length ∧ grids[k].Pairwise (· < ·) :=
    fun k h1 => hg _ (List.getElem_mem h1)
  constructor
  · intro I hI hc
    have hIl : I.length = grids.length := by simpa [histShape] using hI.length_eq
    have hIb : ∀ k (h1 : k < grids.length), I[k]'(by omega) + 1 < grids[k].length := by
      intro k h1
      have := List.Forall₂.get hI (i := k) (by omega) (by simpa [histShape] using h1)
      simp [histShape] at this
      have := (hok k h1).1
      omega
    have hloc : ∀ k (h1 : k < grids.length), Grid.locate grids[k] (x[k]'(by omega)) = (I[k]'(by omega) : Int) := by
      intro k h1
      have hb := hIb k h1
      obtain ⟨c1, c2⟩ := hc k h1 (by omega) (by omega) hb
      have hsrt := (hok k h1).2
      apply Grid.C37_locate_unique _ (pw_lt_le hsrt) _ _ (by omega) (by omega)
      intro j hj
      constructor
      · intro hle
        by_contra hcon
        have : grids[k][I[k]'(by omega) + 1] ≤ grids[k][j] := pw_le (pw_lt_le hsrt) (by omega) hj
        exact absurd (lt_of_lt_of_le c2 (le_trans this hle)) (lt_irrefl _)
      · intro hle
        exact le_trans (pw_le (pw_lt_le hsrt) (by omega) (by omega)) c1
    have hids : List.zipWith (fun g a => Grid.locate g a) grids x = I.map (fun i : Nat => (i : Int)) := by
      apply List.ext_getElem
      · simp [hx, hIl]
      · intro k h1 h2
        simp only [List.getElem_zipWith, List.getElem_map]
        exact hloc k (by simp at h1; omega)
    obtain ⟨v, hv⟩ := hrange I hI
    refine ⟨v, hv, ?_⟩
    have hout : ((I.map (fun i : Nat => (i : Int))).zip grids).any
        (fun q => decide (q.1 < 0) || decide (q.1 ≥ (q.2.length : Int) - 1)) = false := by
      rw [List.any_eq_false]
      intro q hq
      obtain ⟨k, hk, rfl⟩ := List.getElem_of_mem hq
      have hk' : k < grids.length := by simp at hk; omega
      have := hIb k hk'
      simp only [List.getElem_zip, List.getElem_map, Bool.or_eq_true, decide_eq_true_eq, not_or]
      constructor <;> omega
    have hclip : List.zipWith (fun id g => (Binning.clipInt id (some 0) (some ((List.length (α := α) g : Int) - 2))).toNat)
        (I.map (fun i : Nat => (i : Int))) grids = I := by
      apply List.ext_getElem
      · simp [hIl]
      · intro k h1 h2
        have := hIb k (by simp at h1; omega)
        simp only [List.getElem_zipWith, List.getElem_map, Binning.clipInt]
        simp only [max_def, min_def]
        split_ifs <;> omega
    simp only [histEval, hids, hout, hclip, hv]
    rfl
  · rintro ⟨k, h1, h3, hno⟩
    obtain ⟨hl, hsrt⟩ := hok k h1
    obtain ⟨b0, b1, hb⟩ := Grid.C37_locate grids[k] (pw_lt_le hsrt) x[k]
    have hout : ((List.zipWith (fun g a => Grid.locate g a) grids x).zip grids).any
        (fun q => decide (q.1 < 0) || decide (q.1 ≥ (q.2.length : Int) - 1)) = true := by
      rw [List.any_eq_true]
      refine ⟨(Grid.locate grids[k] x[k], grids[k]), ?_, ?_⟩
      · have hz : k < ((List.zipWith (fun g a => Grid.locate g a) grids x).zip grids).length := by
          simp; omega
        have : ((List.zipWith (fun g a => Grid.locate g a) grids x).zip grids)[k] =
            (Grid.locate grids[k] x[k], grids[k]) := by simp
        rw [← this]; exact List.getElem_mem hz
      · simp only [Bool.or_eq_true, decide_eq_true_eq]
        by_contra hcon
        push Not at hcon
        obtain ⟨c0, c1⟩ := hcon
        obtain ⟨i, hi⟩ := Int.eq_ofNat_of_zero_le c0
        rw [hi] at c1 hb
        refine hno ⟨i, by omega, (hb i (by omega)).mpr (by omega), ?_⟩
        rw [← not_le]
        intro hle
        have := (hb (i + 1) (by omega)).mp hle
        omega
    have hclip : List.Forall₂ (fun i n => i < n) (List.zipWith (fun id g =>
        (Binning.clipInt id (some 0) (some ((List.length (α := α) g : Int) - 2))).toNat)
        (List.zipWith (fun g a => Grid.locate g a) grids x) grids) (histShape grids) := by
      rw [List.forall₂_iff_get]
      refine ⟨by simp [histShape, hx], ?_⟩
      intro j j1 j2
      have hj : j < grids.length := by simpa [histShape] using j2
      have := (hok j hj).1
      simp only [List.get_eq_getElem, List.getElem_zipWith, histShape, List.getElem_map, Binning.clipInt]
      simp only [max_def, min_def]
      split_ifs <;> omega
    obtain ⟨v, hv⟩ := hrange _ hclip
    simp only [histEval, hout, hv]
    rfl

/-- C55: fit and evaluation together: `by_histogram` returns at a point of the half-open cell `I` the
weight of the data in that cell (over cell volume and total weight in the box if `density`), and
`out_fill` at a point of no half-open cell. -/
theorem C55_value (grids : List (List α)) (hg : GridsOK grids) (density : Bool) (x : List (List α))
    (w : Option (List α)) (hx : ∀ r ∈ x, r.length = grids.length)
    (hw : ∀ v, w = some v → v.length = x.length) (outFill : α) (p : List α)
    (hp : p.length = grids.length) :
    ∃ h, histFit grids density x w = .ok h ∧
    (∀ I, List.Forall₂ (fun i n => i < n) I (histShape grids) →
      (∀ k (h1 : k < grids.length) (h2 : k < I.length) (h3 : k < p.length) (h4 : I[k] + 1 < grids[k].length),
        grids[k][I[k]] ≤ p[k] ∧ p[k] < grids[k][I[k] + 1]) →
      histEval grids h outFill p = .ok (
        let cnt := cellCount grids (x.zip (w.getD (x.map (fun _ => 1)))) I
        if density then cnt / cellVol grids I / boxWeight grids (x.zip (w.getD (x.map (fun _ => 1)))) else cnt,
        false)) ∧
    ((∃ k, ∃ h1 : k < grids.length, ∃ h3 : k < p.length,
        ¬ ∃ i, ∃ h4 : i + 1 < grids[k].length, grids[k][i] ≤ p[k] ∧ p[k] < grids[k][i + 1]) →
      histEval grids h outFill p = .ok (outFill, true)) := by
  obtain ⟨h, e, hs, hget⟩ := C55_fit grids hg density x w hx hw
  have hd : h.data.length = (histShape grids).prod := by
    have e' := e
    unfold histFit at e'
    have hlen : (w.getD (x.map (fun _ => 1))).length = x.length := by
      rcases w with _ | v
      · simp
      · simpa using hw v rfl
    have hall : x.all (fun r => r.length == grids.length) = true := by simpa using hx
    simp only [hall, pyAssert, if_true, bind, Except.bind, hlen, ne_eq, not_true_eq_false, if_false,
      pure, Except.pure, Except.ok.injEq] at e'
    rw [← e']
    cases density <;> simp [Grid.indices_length]
  obtain ⟨p1, p2⟩ := C55_eval grids hg h hs hd outFill p hp
  refine ⟨h, e, ?_, p2⟩
  intro I hI hc
  obtain ⟨v, hv, hev⟩ := p1 I hI hc
  rw [hget I hI] at hv
  rw [hev, ← Option.some.inj hv]

/-- C55: with non-negative weights every value returned is non-negative (for `out_fill` ≥ 0). -/
theorem C55_nonneg (grids : List (List α)) (hg : GridsOK grids) (density : Bool) (x : List (List α))
    (w : Option (List α)) (hx : ∀ r ∈ x, r.length = grids.length)
    (hw : ∀ v, w = some v → v.length = x.length) (hnn : ∀ v, w = some v → ∀ a ∈ v, 0 ≤ a)
    (h : Grid.NDArr α) (hf : histFit grids density x w = .ok h) (outFill : α) (ho : 0 ≤ outFill)
    (p : List α) (r : α × Bool) (he : histEval grids h outFill p = .ok r) : 0 ≤ r.1 := by
  classical
  have hxw : ∀ q ∈ x.zip (w.getD (x.map (fun _ => 1))), 0 ≤ q.2 := by
    intro q hq
    have := (List.of_mem_zip hq).2
    rcases w with _ | v
    · simp only [Option.getD_none, List.mem_map] at this
      obtain ⟨_, _, h⟩ := this
      rw [← h]; exact zero_le_one
    · exact hnn v rfl _ this
  have hsum : ∀ (l : List (List α × α)), (∀ q ∈ l, 0 ≤ q.2) → 0 ≤ (l.map (fun q => q.2)).sum := by
    intro l hl
    apply List.sum_nonneg
    intro a ha
    obtain ⟨q, hq, rfl⟩ := List.mem_map.mp ha
    exact hl q hq
  have hcnt : ∀ I, 0 ≤ cellCount grids (x.zip (w.getD (x.map (fun _ => 1)))) I :=
    fun I => hsum _ (fun q hq => hxw q (List.mem_of_mem_filter hq))
  have hbox : 0 ≤ boxWeight grids (x.zip (w.getD (x.map (fun _ => 1)))) :=
    hsum _ (fun q hq => hxw q (List.mem_of_mem_filter hq))
  obtain ⟨h', e, hshape, hget⟩ := C55_fit grids hg density x w hx hw
  rw [hf] at e
  obtain rfl : h = h' := by simpa using e
  have hvol : ∀ (gs : List (List α)) I, (∀ g ∈ gs, 2 ≤ g.length ∧ g.Pairwise (· < ·)) →
      List.Forall₂ (fun i n => i < n) I (histShape gs) → 0 ≤ cellVol gs I := by
    intro gs
    induction gs with
    | nil => intro I _ _; simp [cellVol]
    | cons g gs ih =>
        intro I hg' hI
        cases I with
        | nil => simp [histShape] at hI
        | cons i I =>
            simp only [histShape, List.map_cons, List.forall₂_cons] at hI
            have := ih I (fun g' h' => hg' g' (by simp [h'])) hI.2
            simp only [cellVol, List.zip_cons_cons, List.map_cons, List.prod_cons]
            refine mul_nonneg ?_ this
            rw [getD_lt _ _ _ (by omega), getD_lt _ _ _ (by omega)]
            have := pw_lt (hg' g (by simp)).2 (show i < i + 1 by omega) (by omega)
            exact (sub_pos.mpr this).le
  have hv : ∀ I v, h.get? I = some v → 0 ≤ v := by
    intro I v hv
    have hI : List.Forall₂ (fun i n => i < n) I (histShape grids) := by
      by_contra hcon
      simp [Grid.NDArr.get?, hshape, hcon] at hv
    rw [hget I hI] at hv
    simp only [Option.some.injEq] at hv
    subst hv
    split
    · exact div_nonneg (div_nonneg (hcnt I) (hvol grids I hg hI)) hbox
    · exact hcnt I
  unfold histEval at he
  simp only [bind, Except.bind, pure, Except.pure] at he
  split at he
  · rename_i v hv'
    simp only [Except.ok.injEq] at he
    subst he
    simp only
    split
    · exact ho
    · exact hv _ _ hv'
  · simp at he

/-- C55 (mismatch): a point on the last edge of a grid is counted by `fit` (in the last bin) but
reported outside by the evaluation. -/
theorem C55_last_edge_defect (g : List α) (h2 : 2 ≤ g.length) (hs : g.Pairwise (· < ·)) (h : Grid.NDArr α)
    (hsh : h.shape = histShape [g]) (hd : h.data.length = (histShape [g]).prod) (outFill : α) :
    inCell [g] [g.length - 2] [g.getLast (by intro e; simp [e] at h2)] = true ∧
    histEval [g] h outFill [g.getLast (by intro e; simp [e] at h2)] = .ok (outFill, true) := by
  have hgo : GridsOK [g] := by
    intro g' hg'
    simp at hg'
    subst hg'
    exact ⟨h2, hs⟩
  have hlast : g.getLast (by intro e; simp [e] at h2) = g[g.length - 1] := List.getLast_eq_getElem _
  constructor
  · rw [inCell_iff [g] _ _ (by simp [histShape]; omega) (by simp)]
    intro k k1 k2 k3 k4
    have : k = 0 := by simpa using k1
    subst this
    simp only [List.getElem_cons_zero]
    have e : g.length - 2 + 1 = g.length - 1 := by omega
    rw [hlast]
    refine ⟨pw_le (pw_lt_le hs) (by omega) (by omega), Or.inr ⟨by omega, ?_⟩⟩
    simp [e]
  · refine (C55_eval [g] hgo h hsh hd outFill _ (by simp)).2 ⟨0, by simp, by simp, ?_⟩
    rintro ⟨i, h4, -, hlt⟩
    simp only [List.getElem_cons_zero] at hlt h4
    rw [hlast] at hlt
    exact absurd (lt_of_lt_of_le hlt (pw_le (pw_lt_le hs) (by omega) (by omega))) (lt_irrefl _)

example : GridsOK ([[0, 1, 3], [0, 2]] : List (List ℚ)) := by
  intro g hg
  simp at hg
  rcases hg with rfl | rfl <;> decide +kernel
example : (histFit ([[0, 1, 3], [0, 2]] : List (List ℚ)) true [[1/2, 1], [1, 0], [3, 2], [9, 9]] none).map (fun h => (h.shape, h.data)) = .ok ([2, 1], [1/6, 1/6]) := by decide +kernel
example : boxWeight ([[0, 1, 3]] : List (List ℚ)) [([1/2], 1)] ≠ 0 := by
  have : InBox ([[0, 1, 3]] : List (List ℚ)) [1/2] := by
    refine List.Forall₂.cons ⟨0, 3, rfl, rfl, by norm_num, by norm_num⟩ List.Forall₂.nil
  simp only [boxWeight, List.filter_cons, this]
  simp
end C55

/-! ### C96 -/
section C96

/-- The training weights are normalised: they sum to 1. -/
theorem C96_fit_weight (n : Nat) (hn : 0 < n) :
    (fitWeight n none).sum = 1 ∧ (fitWeight n none).length = n ∧
    ∀ w : List ℝ, w.sum ≠ 0 → (fitWeight n (some w)).sum = 1 ∧ (fitWeight n (some w)).length = w.length := by
  have : (n : ℝ) ≠ 0 := by positivity
  refine ⟨by simp [fitWeight, this], by simp [fitWeight], fun w hw => ⟨?_, by simp [fitWeight]⟩⟩
  simp only [fitWeight]
  rw [show w.map (fun a => a / w.sum) = w.map (fun a => a * (w.sum)⁻¹) from
    List.map_congr_left (fun a _ => div_eq_mul_inv _ _), List.sum_map_mul_right]
  simpa using mul_inv_cancel₀ hw

/-- C96: the local estimate: sum of the normalised weights of the neighbours over the ball volume;
with a kernel the weights are averaged with the kernel values, times the number of neighbours. -/
theorem C96_local (wTr : List ℝ) (vol : ℝ) (d : List ℝ) (id : List Nat) (hl : d.length = id.length) :
    localDensity wTr vol none d id = (id.map (fun i => wTr.getD i 0)).sum / vol ∧
    ∀ k : Kernel, id ≠ [] → localDensity wTr vol (some k) d id =
      ((d.zip id).map (fun p => wTr.getD p.2 0 * k.eval p.1)).sum / (d.map k.eval).sum * id.length / vol := by
  refine ⟨rfl, fun k hne => ?_⟩
  have hpos : 0 < id.length := List.length_pos_iff.mpr hne
  simp only [localDensity, List.length_map, hl, hpos, if_true]
  congr 1
  generalize (d.map k.eval).sum = S
  clear hne hpos
  generalize (id.length : ℝ) = n
  induction d generalizing id with
  | nil =>
      cases id with
      | nil => simp
      | cons _ _ => simp at hl
  | cons a t ih =>
      cases id with
      | nil => simp at hl
      | cons i is =>
          have := ih is (by simpa using hl)
          simp only [List.map_cons, List.zipWith_cons_cons, List.sum_cons, List.zip_cons_cons]
          rw [this]
          ring

/-- C96: without training weights the kernel has no effect at all on the local estimate: it is
(number of neighbours) / (N volume) for every kernel that does not vanish on all neighbours. -/
theorem C96_kernel_no_effect (N : Nat) (vol : ℝ) (d : List ℝ) (id : List Nat) (hl : d.length = id.length)
    (hid : ∀ i ∈ id, i < N) (k : Kernel) (hk : (d.map k.eval).sum ≠ 0) :
    localDensity (fitWeight N none) vol (some k) d id = localDensity (fitWeight N none) vol none d id ∧
    localDensity (fitWeight N none) vol none d id = (id.length : ℝ) / N / vol := by
  have hw : ∀ i ∈ id, (fitWeight N none).getD i 0 = 1 / (N : ℝ) := by
    intro i hi
    rw [getD_lt _ _ _ (by simpa [fitWeight] using hid i hi)]
    simp [fitWeight]
  have hne : id ≠ [] := by
    rintro rfl
    have : d = [] := List.eq_nil_of_length_eq_zero (by simpa using hl)
    simp [this] at hk
  obtain ⟨h1, h2⟩ := C96_local (fitWeight N none) vol d id hl
  have e1 : (id.map (fun i => (fitWeight N none).getD i 0)) = id.map (fun _ => 1 / (N : ℝ)) :=
    List.map_congr_left hw
  have e2 : (d.zip id).map (fun p => (fitWeight N none).getD p.2 0 * k.eval p.1)
      = (d.zip id).map (fun p => 1 / (N : ℝ) * k.eval p.1) :=
    List.map_congr_left (fun p hp => by rw [hw _ (List.of_mem_zip hp).2])
  have e3 : (d.zip id).map (fun p => k.eval p.1) = d.map k.eval := by
    have : (d.zip id).map (fun p => k.eval p.1) = ((d.zip id).map Prod.fst).map k.eval := by
      rw [List.map_map]; rfl
    rw [this, List.map_fst_zip (by omega)]
  rw [h1, h2 k hne, e1, e2, List.sum_map_mul_left, e3]
  constructor
  · simp
    field_simp
  · simp
    ring

theorem knn_sum (wTr : List ℝ) (c : ℝ) (g : ℝ → ℝ) (P : ℝ → Bool) (ds : List ℝ) (id : List Nat)
    (hl : ds.length = id.length) :
    (List.zipWith (fun a b => a * b) (List.zipWith (fun a b => a * b) (id.map (fun i => wTr.getD i 0))
      ((ds.map g).map (fun a => a * c))) ((ds.map P).map b2n)).sum =
    (((ds.zip id).filter (fun p => P p.1)).map (fun p => wTr.getD p.2 0 * g p.1)).sum * c := by
  induction ds generalizing id with
  | nil => simp
  | cons a t ih =>
      cases id with
      | nil => simp at hl
      | cons i is =>
          have := ih is (by simpa using hl)
          simp only [List.map_cons, List.zipWith_cons_cons, List.sum_cons, List.zip_cons_cons,
            List.filter_cons, this]
          by_cases hp : P a
          · simp only [hp, b2n, if_true, List.map_cons, List.sum_cons]; ring
          · simp [hp, b2n]

theorem knn_sum0 (wTr : List ℝ) (P : ℝ → Bool) (ds : List ℝ) (id : List Nat)
    (hl : ds.length = id.length) :
    (List.zipWith (fun a b => a * b) (id.map (fun i => wTr.getD i 0)) ((ds.map P).map b2n)).sum =
    (((ds.zip id).filter (fun p => P p.1)).map (fun p => wTr.getD p.2 0)).sum := by
  induction ds generalizing id with
  | nil => simp
  | cons a t ih =>
      cases id with
      | nil => simp at hl
      | cons i is =>
          have := ih is (by simpa using hl)
          simp only [List.map_cons, List.zipWith_cons_cons, List.sum_cons, List.zip_cons_cons,
            List.filter_cons, this]
          by_cases hp : P a
          · simp only [hp, b2n, if_true, List.map_cons, List.sum_cons]; ring
          · simp [hp, b2n]

theorem knn_count (P : ℝ → Bool) (ds : List ℝ) (id : List Nat) (hl : ds.length = id.length) :
    ((ds.map P).map (fun b => if b then 1 else 0)).sum = ((ds.zip id).filter (fun p => P p.1)).length := by
  induction ds generalizing id with
  | nil => simp
  | cons a t ih =>
      cases id with
      | nil => simp at hl
      | cons i is =>
          have := ih is (by simpa using hl)
          simp only [List.map_cons, List.sum_cons, List.zip_cons_cons, List.filter_cons, this]
          by_cases hp : P a
          · simp only [hp, if_true, List.length_cons]; omega
          · simp [hp]

theorem knn_ksum (g : ℝ → ℝ) (P : ℝ → Bool) (ds : List ℝ) (id : List Nat) (hl : ds.length = id.length) :
    (List.zipWith (fun a b => a * b) (ds.map g) ((ds.map P).map b2n)).sum =
    (((ds.zip id).filter (fun p => P p.1)).map (fun p => g p.1)).sum := by
  induction ds generalizing id with
  | nil => simp
  | cons a t ih =>
      cases id with
      | nil => simp at hl
      | cons i is =>
          have := ih is (by simpa using hl)
          simp only [List.map_cons, List.zipWith_cons_cons, List.sum_cons, List.zip_cons_cons,
            List.filter_cons, this]
          by_cases hp : P a
          · simp only [hp, b2n, if_true, List.map_cons, List.sum_cons]; ring
          · simp [hp, b2n]

/-- Specification: largest of a list of distances, at least 0. -/
theorem foldl_max_spec (l : List ℝ) (a : ℝ) :
    a ≤ l.foldl max a ∧ (∀ x ∈ l, x ≤ l.foldl max a) ∧ (l.foldl max a = a ∨ l.foldl max a ∈ l) := by
  induction l generalizing a with
  | nil => simp
  | cons b t ih =>
      obtain ⟨h1, h2, h3⟩ := ih (max a b)
      simp only [List.foldl_cons]
      refine ⟨le_trans (le_max_left _ _) h1, ?_, ?_⟩
      · intro x hx
        rcases List.mem_cons.mp hx with rfl | hx
        · exact le_trans (le_max_right _ _) h1
        · exact h2 x hx
      · rcases h3 with h3 | h3
        · rw [h3]
          rcases max_choice a b with h | h <;> simp [h]
        · right; simp [h3]

/-- C96: the k-nearest-neighbour estimate counts the neighbours nearer than `max_dx` (all `k` without
it); the radius is the distance of the furthest neighbour returned, cut at `max_dx`; the density is
the (kernel-averaged) weight of the counted neighbours over the volume of that ball. -/
theorem C96_knn (wTr : List ℝ) (nDims : Nat) (maxDx : Option ℝ) (kernel : Option Kernel) (ds : List ℝ)
    (id : List Nat) (hl : ds.length = id.length) (hne : ds ≠ []) (hd : ∀ a ∈ ds, 0 ≤ a) :
    ∃ h r, knnDensity wTr nDims maxDx kernel ds id = (h, (neigh maxDx ds id).length, r) ∧
      (∃ far ∈ ds, (∀ a ∈ ds, a ≤ far) ∧ r = maxDx.elim far (fun m => min far m)) ∧
      (kernel = none → h = ((neigh maxDx ds id).map (fun p => wTr.getD p.2 0)).sum / ballVolumeNat r nDims) ∧
      ∀ k, kernel = some k → neigh maxDx ds id ≠ [] →
        h = ((neigh maxDx ds id).map (fun p => wTr.getD p.2 0 * k.eval p.1)).sum *
          ((neigh maxDx ds id).length / ((neigh maxDx ds id).map (fun p => k.eval p.1)).sum)
          / ballVolumeNat r nDims := by
  obtain ⟨m1, m2, m3⟩ := foldl_max_spec ds 0
  have hfar : ∃ far ∈ ds, (∀ a ∈ ds, a ≤ far) ∧ ds.foldl max 0 = far := by
    rcases m3 with h | h
    · obtain ⟨a, t, rfl⟩ := List.exists_cons_of_ne_nil hne
      have ha := m2 a (by simp)
      rw [h] at ha
      have : a = 0 := le_antisymm ha (hd a (by simp))
      exact ⟨a, by simp, fun b hb => by rw [this]; have := m2 b hb; rwa [h] at this, by rw [h, this]⟩
    · exact ⟨_, h, m2, rfl⟩
  obtain ⟨far, f1, f2, f3⟩ := hfar
  set P : ℝ → Bool := fun a => maxDx.elim true (fun m => decide (a < m)) with hP
  have hmask : maxDx.elim (ds.map (fun _ => true)) (fun m => ds.map (fun d => decide (d < m)))
      = ds.map P := by
    rcases maxDx with _ | m <;> rfl
  have hneigh : (ds.zip id).filter (fun p => P p.1) = neigh maxDx ds id := rfl
  have hr : maxDx.elim (ds.foldl max 0) (fun m => min (ds.foldl max 0) m) = maxDx.elim far (fun m => min far m) := by
    rw [f3]
  have hcnt := knn_count P ds id hl
  rw [hneigh] at hcnt
  refine ⟨_, maxDx.elim far (fun m => min far m), by
    simp only [knnDensity]
    rw [hmask, hr, hcnt], ⟨far, f1, f2, rfl⟩, ?_, ?_⟩
  · rintro rfl
    simp only
    rw [knn_sum0 wTr P ds id hl, hneigh]
  · rintro k rfl hnn
    simp only
    have h0 : ¬ (neigh maxDx ds id).length = 0 := by
      have := List.length_pos_iff.mpr hnn; omega
    rw [if_neg h0, knn_sum wTr _ k.eval P ds id hl, knn_ksum k.eval P ds id hl, hneigh]

example : knnDensity [1/2, 1/2] 1 (some 2) none [1, 3] [1, 0] = (1/8, 1, 2) := by
  norm_num [knnDensity, ballVolumeNat, b2n, List.foldl]
example : (([0, 1] : List ℝ).map (Kernel.gaussian 1).eval).sum ≠ 0 := by
  simp only [List.map_cons, List.map_nil, List.sum_cons, List.sum_nil, Kernel.eval, gaussian]
  positivity
end C96
end Pyhipp.Regression
