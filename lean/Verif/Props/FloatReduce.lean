import Verif.Model.FloatReduce
import Verif.Props.FloatLinear
import Verif.Props.FloatHist
/-
C132: sums and means in double precision, for every order of summation (src/pyhipp/stats/reduction.py).
-/
set_option linter.unusedSectionVars false
namespace Pyhipp.FloatReduce
open Pyhipp Pyhipp.F64 Pyhipp.FloatHist

/-- The values at the leaves, in the order of the tree. -/
def vals (xs : List ℚ) (t : Order) : List ℚ := t.leaves.map (fun i => xs.getD i 0)

theorem range_getD (xs : List ℚ) : (List.range xs.length).map (fun i => xs.getD i 0) = xs := by
  apply List.ext_getElem
  · simp
  · intro i h1 h2
    simp only [List.getElem_map, List.getElem_range]
    exact getD_lt xs i 0 h2

theorem vals_perm (xs : List ℚ) (t : Order) (h : t.leaves.Perm (List.range xs.length)) : (vals xs t).Perm xs := by
  have := h.map (fun i => xs.getD i 0)
  rw [range_getD] at this
  exact this

theorem absSum_append (a b : List ℚ) : absSum (a ++ b) = absSum a + absSum b := by simp [absSum]

theorem absSum_perm {a b : List ℚ} (h : a.Perm b) : absSum a = absSum b := (h.map _).sum_eq

theorem sum_le_absSum (a : List ℚ) : |a.sum| ≤ absSum a := by
  induction a with
  | nil => simp [absSum]
  | cons x t ih =>
    rw [List.sum_cons, absSum_cons]
    exact le_trans (abs_add_le _ _) (by linarith)

theorem getD_fin (xs : List ℚ) (i : Nat) (hi : i < xs.length) : (xs.map Num.fin).getD i .nan = .fin (xs.getD i 0) := by
  rw [getD_lt _ _ _ (by simpa using hi), getD_lt _ _ _ hi]; simp

theorem val_le {a S T v : ℚ} (hS : |S| ≤ T) (h : |v - S| ≤ (a - 1) * T) : |v| ≤ a * T := by
  have := abs_add_le (v - S) S
  rw [sub_add_cancel] at this
  linarith

/-- Adding two partial results. -/
theorem node_step {a b u S T v S' T' v' r : ℚ} (hu : 0 ≤ u) (ha : 1 ≤ a) (hb : 1 ≤ b) (hS : |S| ≤ T) (hS' : |S'| ≤ T')
    (h : |v - S| ≤ (a - 1) * T) (h' : |v' - S'| ≤ (b - 1) * T') (hr : |r - (v + v')| ≤ u * |v + v'|) :
    |r - (S + S')| ≤ (a * b * (1 + u) - 1) * (T + T') ∧ |v + v'| ≤ a * b * (T + T') := by
  have hT : 0 ≤ T := le_trans (abs_nonneg _) hS
  have hT' : 0 ≤ T' := le_trans (abs_nonneg _) hS'
  have h1 : |v| ≤ a * T := by
    have := abs_add_le (v - S) S
    rw [sub_add_cancel] at this
    linarith
  have h1' : |v'| ≤ b * T' := by
    have := abs_add_le (v' - S') S'
    rw [sub_add_cancel] at this
    linarith
  have ab : a ≤ a * b := le_mul_of_one_le_right (by linarith) hb
  have ba : b ≤ a * b := le_mul_of_one_le_left (by linarith) ha
  have h2 : |v + v'| ≤ a * b * (T + T') := by
    have := abs_add_le v v'
    have := mul_le_mul_of_nonneg_right ab hT
    have := mul_le_mul_of_nonneg_right ba hT'
    linarith
  refine ⟨?_, h2⟩
  have h3 : |r - (S + S')| ≤ |r - (v + v')| + |v - S| + |v' - S'| := by
    have := abs_add_le (r - (v + v') + (v - S)) (v' - S')
    have := abs_add_le (r - (v + v')) (v - S)
    rw [show r - (v + v') + (v - S) + (v' - S') = r - (S + S') by ring] at *
    linarith
  have h4 : u * |v + v'| ≤ u * (a * b * (T + T')) := mul_le_mul_of_nonneg_left h2 hu
  have h5 : (a - 1) * T ≤ (a * b - 1) * T := mul_le_mul_of_nonneg_right (by linarith) hT
  have h6 : (b - 1) * T' ≤ (a * b - 1) * T' := mul_le_mul_of_nonneg_right (by linarith) hT'
  linarith

/-- Rounding error of any order of summation with `k` elements. -/
theorem eval_err (xs : List ℚ) (hF : ∀ x ∈ xs, IsF x) (t : Order) (hi : ∀ i ∈ t.leaves, i < xs.length)
    (hb : (1 + 2 ^ (-53 : ℤ)) ^ (t.leaves.length - 1) * absSum (vals xs t) ≤ 2 ^ 1023) :
    ∃ r : ℚ, t.eval (xs.map .fin) = .fin r ∧ IsF r ∧ (t.leaves = [] → r = 0) ∧
      |r - (vals xs t).sum| ≤ ((1 + 2 ^ (-53 : ℤ)) ^ (t.leaves.length - 1) - 1) * absSum (vals xs t) := by
  induction t with
  | zero =>
    refine ⟨0, rfl, by simpa using isF_int (m := 0) (by norm_num), fun _ => rfl, ?_⟩
    simp [vals, Order.leaves, absSum]
  | leaf i =>
    have h := hi i (by simp [Order.leaves])
    refine ⟨xs.getD i 0, getD_fin xs i h, ?_, by simp [Order.leaves], ?_⟩
    · rw [getD_lt _ _ _ h]; exact hF _ (List.getElem_mem h)
    · simp [vals, Order.leaves, absSum]
  | node l r ihl ihr =>
    have el : vals xs (.node l r) = vals xs l ++ vals xs r := by simp [vals, Order.leaves]
    have ln : (Order.node l r).leaves.length = l.leaves.length + r.leaves.length := by simp [Order.leaves]
    rw [el, absSum_append, ln] at hb
    have nl := absSum_nonneg (vals xs l)
    have nr := absSum_nonneg (vals xs r)
    have hg : ∀ (k : Nat) (T : ℚ), k ≤ l.leaves.length + r.leaves.length - 1 → 0 ≤ T →
        T ≤ absSum (vals xs l) + absSum (vals xs r) → (1 + 2 ^ (-53 : ℤ)) ^ k * T ≤ (2 : ℚ) ^ 1023 := by
      intro k T hk hT hT2
      refine le_trans ?_ hb
      exact mul_le_mul (FloatMesh.growth_mono hk) hT2 hT (le_trans zero_le_one (FloatMesh.one_le_growth _))
    obtain ⟨v, v1, v2, v3, v4⟩ := ihl (fun i h => hi i (by simp [Order.leaves, h])) (hg _ _ (by omega) nl (by linarith))
    obtain ⟨w, w1, w2, w3, w4⟩ := ihr (fun i h => hi i (by simp [Order.leaves, h])) (hg _ _ (by omega) nr (by linarith))
    have hr := rnd_sub_err v2 w2.neg
    rw [sub_neg_eq_add] at hr
    have eadd : (Order.node l r).eval (xs.map .fin) = ofQ (v + w) := by
      simp only [Order.eval, v1, w1]; rfl
    rw [el, absSum_append, ln, List.sum_append, eadd]
    by_cases cl : l.leaves = []
    · have hw : |w| ≤ 2 ^ 1023 := le_trans (val_le (sum_le_absSum _) w4) (hg _ _ (by omega) nr (by linarith))
      have sl : vals xs l = [] := by simp [vals, cl]
      clear hb hg
      have v0 := v3 cl
      subst v0
      rw [sl] at *
      simp only [cl, List.length_nil, zero_add, List.sum_nil] at *
      have : absSum ([] : List ℚ) = 0 := by simp [absSum]
      rw [this, zero_add] at *
      refine ⟨w, ?_, w2, ?_, w4⟩
      · rw [ofQ_fin_le hw FloatBins.pow1023 FloatBins.lt1024, w2]
      · intro h
        apply w3
        exact (List.append_eq_nil_iff.mp h).2
    · by_cases cr : r.leaves = []
      · have hw : |v| ≤ 2 ^ 1023 := le_trans (val_le (sum_le_absSum _) v4) (hg _ _ (by omega) nl (by linarith))
        have sr : vals xs r = [] := by simp [vals, cr]
        clear hb hg
        have w0 := w3 cr
        subst w0
        rw [sr] at *
        simp only [cr, List.length_nil, add_zero, List.sum_nil] at *
        have : absSum ([] : List ℚ) = 0 := by simp [absSum]
        rw [this, add_zero] at *
        refine ⟨v, ?_, v2, ?_, v4⟩
        · rw [ofQ_fin_le hw FloatBins.pow1023 FloatBins.lt1024, v2]
        · intro h
          apply v3
          exact (List.append_eq_nil_iff.mp h).1
      · have pl : 0 < l.leaves.length := List.length_pos_iff.mpr cl
        have pr : 0 < r.leaves.length := List.length_pos_iff.mpr cr
        obtain ⟨s1, s2⟩ := node_step (pow_pos' (-53)).le (FloatMesh.one_le_growth _) (FloatMesh.one_le_growth _)
          (sum_le_absSum _) (sum_le_absSum _) v4 w4 hr
        rw [← pow_add] at s1 s2
        have e1 : l.leaves.length + r.leaves.length - 1 = l.leaves.length - 1 + (r.leaves.length - 1) + 1 := by omega
        refine ⟨rnd (v + w), ?_, isF_rnd _, ?_, ?_⟩
        · refine ofQ_fin_le (le_trans s2 ?_) FloatBins.pow1023 FloatBins.lt1024
          exact hg _ _ (by omega) (by linarith) le_rfl
        · intro h
          simp [Order.leaves, cl] at h
        · rw [e1, pow_succ]; exact s1

/-- `(1 + 2^-53)^k - 1` in readable form. -/
theorem growth_le (k : Nat) (hk : k ≤ 2 ^ 52) : ((1 : ℚ) + 2 ^ (-53 : ℤ)) ^ k ≤ 1 + k * 2 ^ (-52 : ℤ) := by
  induction k with
  | zero => simp
  | succ k ih =>
    have h := ih (by omega)
    rw [pow_succ]
    have e : (2 : ℚ) ^ (-52 : ℤ) = 2 * 2 ^ (-53 : ℤ) := by
      rw [show (-52 : ℤ) = 1 + -53 by norm_num, zpow_add₀ (by norm_num), zpow_one]
    have hu : (0 : ℚ) < 2 ^ (-53 : ℤ) := pow_pos' _
    have hk1 : (k : ℚ) * 2 ^ (-52 : ℤ) ≤ 1 := by
      have h2 : (k : ℚ) ≤ 2 ^ 52 := by exact_mod_cast (by omega : k ≤ 2 ^ 52)
      have h3 : ((2 : ℚ) ^ 52) * 2 ^ (-52 : ℤ) = 1 := by norm_num
      rw [← h3]
      exact mul_le_mul_of_nonneg_right h2 (pow_pos' _).le
    push_cast
    generalize (2 : ℚ) ^ (-52 : ℤ) = w at *
    generalize (2 : ℚ) ^ (-53 : ℤ) = u at *
    subst e
    nlinarith

/-- The sum of finite doubles, readable bound. -/
theorem sum_err (sum : List Num → Num) (hs : IsSum sum) (xs : List ℚ) (hF : ∀ x ∈ xs, IsF x) (hn : xs.length ≤ 2 ^ 52)
    (hb : absSum xs ≤ 2 ^ 1022) :
    ∃ r : ℚ, sum (xs.map .fin) = .fin r ∧ IsF r ∧ |r - xs.sum| ≤ ((xs.length - 1 : ℕ) : ℚ) * 2 ^ (-52 : ℤ) * absSum xs := by
  obtain ⟨t, ht, e⟩ := hs (xs.map .fin)
  rw [List.length_map] at ht
  have hp := vals_perm xs t ht
  have hl : t.leaves.length = xs.length := by rw [ht.length_eq, List.length_range]
  have g := growth_le (xs.length - 1) (by omega)
  have nn := absSum_nonneg xs
  have hk1 : ((xs.length - 1 : ℕ) : ℚ) * 2 ^ (-52 : ℤ) ≤ 1 := by
    have h2 : ((xs.length - 1 : ℕ) : ℚ) ≤ 2 ^ 52 := by exact_mod_cast (by omega : xs.length - 1 ≤ 2 ^ 52)
    have h3 : ((2 : ℚ) ^ 52) * 2 ^ (-52 : ℤ) = 1 := by norm_num
    rw [← h3]
    exact mul_le_mul_of_nonneg_right h2 (pow_pos' _).le
  obtain ⟨r, r1, r2, _, r3⟩ := eval_err xs hF t (fun i h => by simpa using ht.mem_iff.mp h) (by
    rw [absSum_perm hp, hl]
    have e : (2 : ℚ) ^ 1023 = 2 * 2 ^ 1022 := by rw [pow_succ]; ring
    rw [e]
    exact mul_le_mul (by linarith) hb nn (by norm_num))
  refine ⟨r, by rw [e, r1], r2, ?_⟩
  rw [absSum_perm hp, hp.sum_eq, hl] at r3
  exact le_trans r3 (mul_le_mul_of_nonneg_right (by linarith) nn)


/-! ### Masks -/

/-- The entries a mask keeps (all of them without a mask). -/
def kept {α : Type} (xs : List α) : Option (List Bool) → List α
  | none => xs
  | some m => ((xs.zip m).filter (fun p => p.2)).map (·.1)

/-- With zeros in place of the others. -/
def maskedQ (xs : List ℚ) : Option (List Bool) → List ℚ
  | none => xs
  | some m => List.zipWith (fun x b => if b then x else 0) xs m

/-- The mask, if any, has the length of the data. -/
def Fits (mask : Option (List Bool)) (n : Nat) : Prop := ∀ m, mask = some m → m.length = n

theorem maskedQ_length (xs : List ℚ) (mask : Option (List Bool)) (h : Fits mask xs.length) : (maskedQ xs mask).length = xs.length := by
  cases mask with
  | none => rfl
  | some m => simp [maskedQ, h m rfl]

theorem maskedQ_sum (xs : List ℚ) (mask : Option (List Bool)) : (maskedQ xs mask).sum = (kept xs mask).sum := by
  cases mask with
  | none => rfl
  | some m =>
    simp only [maskedQ, kept]
    induction xs generalizing m with
    | nil => simp
    | cons x t ih =>
      cases m with
      | nil => simp
      | cons b m =>
        have := ih m
        cases b <;> simp_all [List.zip_cons_cons, List.filter_cons]

theorem maskedQ_abs (xs : List ℚ) (mask : Option (List Bool)) : absSum (maskedQ xs mask) = absSum (kept xs mask) := by
  cases mask with
  | none => rfl
  | some m =>
    simp only [maskedQ, kept, absSum]
    induction xs generalizing m with
    | nil => simp
    | cons x t ih =>
      cases m with
      | nil => simp
      | cons b m =>
        have := ih m
        cases b <;> simp_all [List.zip_cons_cons, List.filter_cons]

theorem maskedQ_mem (xs : List ℚ) (mask : Option (List Bool)) (x : ℚ) (h : x ∈ maskedQ xs mask) : x ∈ kept xs mask ∨ x = 0 := by
  cases mask with
  | none => exact .inl h
  | some m =>
    simp only [maskedQ, kept] at *
    induction xs generalizing m with
    | nil => simp at h
    | cons y t ih =>
      cases m with
      | nil => simp at h
      | cons b m =>
        cases b <;> simp only [List.zipWith_cons_cons, List.mem_cons, List.zip_cons_cons, List.filter_cons, Bool.false_eq_true,
          if_false, if_true, List.map_cons] at *
        · rcases h with h | h
          · exact .inr h
          · exact ih m h
        · rcases h with h | h
          · exact .inl (.inl h)
          · exact (ih m h).imp_left .inr

theorem kept_mem {α : Type} (xs : List α) (mask : Option (List Bool)) (x : α) (h : x ∈ kept xs mask) : x ∈ xs := by
  cases mask with
  | none => exact h
  | some m =>
    simp only [kept, List.mem_map, List.mem_filter] at h
    obtain ⟨p, ⟨h1, _⟩, rfl⟩ := h
    exact (List.of_mem_zip h1).1

theorem zero_isF : IsF (0 : ℚ) := rnd_zero

/-- Every element is a finite double. -/
def Doubles (xs : List ℚ) : Prop := ∀ x ∈ xs, IsF x ∧ |x| < 2 ^ 1024

theorem maskedQ_doubles {xs : List ℚ} (mask : Option (List Bool)) (h : Doubles xs) : Doubles (maskedQ xs mask) := by
  intro x hx
  rcases maskedQ_mem xs mask x hx with hx | rfl
  · exact h x (kept_mem xs mask x hx)
  · exact ⟨zero_isF, by simp⟩

theorem ofQ_self {x : ℚ} (h : IsF x ∧ |x| < 2 ^ 1024) : ofQ x = .fin x := by
  have e : rnd x = x := h.1
  rw [ofQ_fin (by rw [e]; exact h.2), e]

theorem mul_b2f {x : ℚ} (h : IsF x ∧ |x| < 2 ^ 1024) (b : Bool) : Num.mul (.fin x) (b2f b) = .fin (if b then x else 0) := by
  cases b
  · show ofQ (x * 0) = _
    rw [mul_zero]; exact ofQ_self ⟨zero_isF, by simp⟩
  · show ofQ (x * 1) = _
    rw [mul_one]; exact ofQ_self h

theorem mulL_mask {xs : List ℚ} (m : List Bool) (h : Doubles xs) :
    mulL (xs.map .fin) (m.map b2f) = (maskedQ xs (some m)).map .fin := by
  induction xs generalizing m with
  | nil => simp [mulL, maskedQ]
  | cons x t ih =>
    cases m with
    | nil => simp [mulL, maskedQ]
    | cons b m =>
      have := ih m (fun y hy => h y (by simp [hy]))
      simp only [mulL, maskedQ, List.map_cons, List.zipWith_cons_cons] at *
      rw [this, mul_b2f (h x (by simp))]

theorem sum1_unweighted (sum : List Num → Num) {xs : List ℚ} (mask : Option (List Bool)) (h : Doubles xs) :
    sum1 sum (xs.map .fin) none mask = sum ((maskedQ xs mask).map .fin) := by
  cases mask with
  | none => rfl
  | some m =>
    simp only [sum1, wTot, Option.map_some]
    rw [mulL_mask m h]

theorem call_ok (impl : List Num → Option (List Num) → Option (List Bool) → Num) (x : List Num) (weight : Option (List Num))
    (mask : Option (List Bool)) (hw : ∀ w, weight = some w → w.length = x.length) (hm : Fits mask x.length) :
    call impl x weight mask = .ok (impl x weight mask) := by
  unfold call
  cases weight with
  | none => cases mask with
    | none => rfl
    | some m => simp [pyAssert, hm m rfl, bind, Except.bind, pure, Except.pure]
  | some w => cases mask with
    | none => simp [pyAssert, hw w rfl, bind, Except.bind, pure, Except.pure]
    | some m => simp [pyAssert, hw w rfl, hm m rfl, bind, Except.bind, pure, Except.pure]

/-! ### C132 -/

/-- C132: a weight or mask of another length is refused. -/
theorem C132_shapes (impl : List Num → Option (List Num) → Option (List Bool) → Num) (x : List Num) (weight : Option (List Num))
    (mask : Option (List Bool)) :
    (∃ r, call impl x weight mask = .ok r) ∨ call impl x weight mask = .error .assertionError := by
  unfold call
  cases weight with
  | none => cases mask with
    | none => exact .inl ⟨_, rfl⟩
    | some m => by_cases h : m.length = x.length <;> simp [pyAssert, h, bind, Except.bind, pure, Except.pure]
  | some w => cases mask with
    | none => by_cases h : w.length = x.length <;> simp [pyAssert, h, bind, Except.bind, pure, Except.pure]
    | some m => by_cases h : w.length = x.length <;> by_cases h' : m.length = x.length <;>
        simp [pyAssert, h, h', bind, Except.bind, pure, Except.pure]

/-- C132: a weight or mask of another length is refused, and nothing else is. -/
theorem C132_refused (impl : List Num → Option (List Num) → Option (List Bool) → Num) (x : List Num) (weight : Option (List Num))
    (mask : Option (List Bool)) :
    call impl x weight mask = .error .assertionError ↔
      (∃ w, weight = some w ∧ w.length ≠ x.length) ∨ (∃ m, mask = some m ∧ m.length ≠ x.length) := by
  unfold call
  cases weight with
  | none => cases mask with
    | none => simp [pure, Except.pure]
    | some m => by_cases h : m.length = x.length <;> simp [pyAssert, h, bind, Except.bind, pure, Except.pure]
  | some w => cases mask with
    | none => by_cases h : w.length = x.length <;> simp [pyAssert, h, bind, Except.bind, pure, Except.pure]
    | some m => by_cases h : w.length = x.length <;> by_cases h' : m.length = x.length <;>
        simp [pyAssert, h, h', bind, Except.bind, pure, Except.pure]

/-- C132: the sum of finite doubles, whatever the order of the additions. -/
theorem C132_sum (sum : List Num → Num) (hs : IsSum sum) (xs : List ℚ) (mask : Option (List Bool)) (hF : Doubles xs)
    (hm : Fits mask xs.length) (hn : xs.length ≤ 2 ^ 52) (hb : ((kept xs mask).map fun x => |x|).sum ≤ 2 ^ 1022) :
    ∃ r : ℚ, call (sum1 sum) (xs.map .fin) none mask = .ok (.fin r) ∧ IsF r ∧
      |r - (kept xs mask).sum| ≤ ((xs.length - 1 : ℕ) : ℚ) * 2 ^ (-52 : ℤ) * ((kept xs mask).map fun x => |x|).sum := by
  obtain ⟨r, r1, r2, r3⟩ := sum_err sum hs (maskedQ xs mask) (fun x h => (maskedQ_doubles mask hF x h).1)
    (by rw [maskedQ_length _ _ hm]; exact hn) (by rw [maskedQ_abs]; exact hb)
  rw [maskedQ_sum, maskedQ_abs, maskedQ_length _ _ hm] at r3
  refine ⟨r, ?_, r2, r3⟩
  rw [call_ok _ _ _ _ (by simp) (by simpa using hm), sum1_unweighted sum mask hF, r1]

/-- Integers with a small total: every order is exact. -/
theorem eval_int (zs : List ℤ) (t : Order) (hi : ∀ i ∈ t.leaves, i < zs.length)
    (hb : absSum (vals (zs.map (fun z : ℤ => (z : ℚ))) t) ≤ 2 ^ 53) :
    t.eval ((zs.map (fun z : ℤ => (z : ℚ))).map .fin) = .fin (vals (zs.map (fun z : ℤ => (z : ℚ))) t).sum ∧
      ∃ z : ℤ, (vals (zs.map (fun z : ℤ => (z : ℚ))) t).sum = z := by
  induction t with
  | zero => exact ⟨by simp [Order.eval, vals, Order.leaves], 0, by simp [vals, Order.leaves]⟩
  | leaf i =>
    have h := hi i (by simp [Order.leaves])
    refine ⟨?_, zs[i], ?_⟩
    · show ((zs.map (fun z : ℤ => (z : ℚ))).map Num.fin).getD i .nan = _
      rw [getD_fin _ i (by simpa using h)]
      simp [vals, Order.leaves]
    · simp [vals, Order.leaves, h]
  | node l r ihl ihr =>
    have el : vals (zs.map (fun z : ℤ => (z : ℚ))) (.node l r) = vals (zs.map (fun z : ℤ => (z : ℚ))) l ++ vals (zs.map (fun z : ℤ => (z : ℚ))) r := by
      simp [vals, Order.leaves]
    have nl := absSum_nonneg (vals (zs.map (fun z : ℤ => (z : ℚ))) l)
    have nr := absSum_nonneg (vals (zs.map (fun z : ℤ => (z : ℚ))) r)
    have sa := sum_le_absSum (vals (zs.map (fun z : ℤ => (z : ℚ))) (.node l r))
    have hb0 := hb
    rw [el, absSum_append] at hb
    obtain ⟨v1, a, ha⟩ := ihl (fun i h => hi i (by simp [Order.leaves, h])) (by linarith)
    obtain ⟨w1, b, hb'⟩ := ihr (fun i h => hi i (by simp [Order.leaves, h])) (by linarith)
    refine ⟨?_, a + b, by rw [el, List.sum_append, ha, hb']; push_cast; rfl⟩
    have : (Order.node l r).eval ((zs.map (fun z : ℤ => (z : ℚ))).map .fin) = ofQ ((a : ℚ) + b) := by
      simp only [Order.eval, v1, w1, ha, hb']; rfl
    rw [this, el, List.sum_append, ha, hb']
    have hab : |((a + b : ℤ) : ℚ)| ≤ 2 ^ 53 := by
      have := le_trans sa hb0
      rw [el, List.sum_append, ha, hb'] at this
      push_cast
      exact this
    rw [show (a : ℚ) + b = ((a + b : ℤ) : ℚ) by push_cast; rfl]
    refine ofQ_self ⟨FloatLinear.int_isF _ (by exact_mod_cast hab), lt_of_le_of_lt hab ?_⟩
    exact pow_lt_pow_right₀ (by norm_num) (by norm_num)

theorem kept_map {α β : Type} (f : α → β) (xs : List α) (mask : Option (List Bool)) : kept (xs.map f) mask = (kept xs mask).map f := by
  cases mask with
  | none => rfl
  | some m =>
    simp only [kept]
    induction xs generalizing m with
    | nil => simp
    | cons x t ih =>
      cases m with
      | nil => simp
      | cons b m => cases b <;> simp_all [List.filter_cons]

/-- C132: integers whose absolute values add up to at most 2^53 are summed exactly, whatever the order. -/
theorem C132_integers (sum : List Num → Num) (hs : IsSum sum) (zs : List ℤ) (mask : Option (List Bool)) (hz : ∀ z ∈ zs, |z| ≤ 2 ^ 53)
    (hm : Fits mask zs.length) (hb : ((kept zs mask).map fun z => |z|).sum ≤ 2 ^ 53) :
    call (sum1 sum) (zs.map (fun z : ℤ => Num.fin (z : ℚ))) none mask = .ok (.fin ((kept zs mask).sum : ℤ)) := by
  have hD : Doubles (zs.map (fun z : ℤ => (z : ℚ))) := by
    intro x hx
    obtain ⟨z, h1, rfl⟩ := List.mem_map.mp hx
    have := hz z h1
    refine ⟨FloatLinear.int_isF _ this, ?_⟩
    have h2 : |(z : ℚ)| ≤ 2 ^ 53 := by exact_mod_cast this
    exact lt_of_le_of_lt h2 (pow_lt_pow_right₀ (by norm_num) (by norm_num))
  let mz : List ℤ := match mask with
    | none => zs
    | some m => List.zipWith (fun x b => if b then x else 0) zs m
  have emz : maskedQ (zs.map (fun z : ℤ => (z : ℚ))) mask = mz.map (fun z : ℤ => (z : ℚ)) := by
    cases mask with
    | none => rfl
    | some m =>
      simp only [maskedQ, mz]
      rw [List.map_zipWith, List.zipWith_map_left]
      congr 1
      funext a b
      cases b <;> simp
  have e0 : zs.map (fun z : ℤ => Num.fin (z : ℚ)) = (zs.map (fun z : ℤ => (z : ℚ))).map .fin := by simp
  rw [e0, call_ok _ _ _ _ (by simp) (by simpa using hm), sum1_unweighted sum mask hD, emz]
  obtain ⟨t, ht, e⟩ := hs ((mz.map (fun z : ℤ => (z : ℚ))).map .fin)
  simp only [List.length_map] at ht
  have hp := vals_perm (mz.map (fun z : ℤ => (z : ℚ))) t (by simpa using ht)
  obtain ⟨h1, _⟩ := eval_int mz t (fun i h => by simpa using ht.mem_iff.mp h) (by
    rw [absSum_perm hp, ← emz, maskedQ_abs, kept_map]
    have : absSum ((kept zs mask).map (fun z : ℤ => (z : ℚ))) = (((kept zs mask).map fun z => |z|).sum : ℤ) := by
      generalize kept zs mask = l
      induction l with
      | nil => simp [absSum]
      | cons x t ih => rw [List.map_cons, absSum_cons, ih, List.map_cons, List.sum_cons]; push_cast; rfl
    rw [this]
    exact_mod_cast hb)
  rw [e, h1, hp.sum_eq, ← emz, maskedQ_sum, kept_map]
  congr 2
  generalize kept zs mask = l
  induction l with
  | nil => simp
  | cons x t ih => rw [List.map_cons, List.sum_cons, ih, List.sum_cons]; push_cast; rfl


/-! ### NaN -/

theorem add_nan_left (x : Num) : Num.add .nan x = .nan := by cases x <;> rfl
theorem add_nan_right (x : Num) : Num.add x .nan = .nan := by cases x <;> rfl
theorem mul_nan_left (x : Num) : Num.mul .nan x = .nan := by cases x <;> rfl
theorem div_nan_left (x : Num) : Num.div .nan x = .nan := by cases x <;> rfl

theorem eval_nan (xs : List Num) (t : Order) (i : Nat) (hi : i ∈ t.leaves) (h : xs.getD i .nan = .nan) : t.eval xs = .nan := by
  induction t with
  | zero => simp [Order.leaves] at hi
  | leaf j =>
    simp only [Order.leaves, List.mem_singleton] at hi
    subst hi
    exact h
  | node l r ihl ihr =>
    simp only [Order.leaves, List.mem_append] at hi
    rcases hi with hi | hi
    · simp only [Order.eval, ihl hi, add_nan_left]
    · simp only [Order.eval, ihr hi, add_nan_right]

theorem sum_nan (sum : List Num → Num) (hs : IsSum sum) (xs : List Num) (h : .nan ∈ xs) : sum xs = .nan := by
  obtain ⟨t, ht, e⟩ := hs xs
  obtain ⟨i, hi, h2⟩ := List.getElem_of_mem h
  rw [e]
  refine eval_nan xs t i (ht.mem_iff.mpr (by simpa using hi)) ?_
  rw [getD_lt _ _ _ hi, h2]

theorem count_kept {α : Type} (x : List Num) (y : List α) (hxy : y.length = x.length) (mask : Option (List Bool)) (hm : Fits mask x.length) :
    count1 x mask = (kept y mask).length := by
  cases mask with
  | none => exact hxy.symm
  | some m =>
    have hl := hm m rfl
    simp only [count1, kept, List.length_map]
    clear hm
    rw [← hxy] at hl
    clear hxy
    induction y generalizing m with
    | nil => cases m <;> simp_all
    | cons y t ih =>
      cases m with
      | nil => simp at hl
      | cons b m =>
        have := ih m (by simpa using hl)
        cases b <;> simp_all [List.filter_cons]

/-- C132: a NaN anywhere, kept or masked out, weighted or not, makes the sum and (unless nothing is kept) the mean NaN; so does an
infinity that the mask leaves out. -/
theorem C132_nan (sum : List Num → Num) (hs : IsSum sum) (fill : Num) (x : List Num) (weight : Option (List Num))
    (mask : Option (List Bool)) (hw : ∀ w, weight = some w → w.length = x.length) (hm : Fits mask x.length) :
    (.nan ∈ x ∨ (weight = none ∧ ∃ (m : List Bool) (i : Nat) (b : Bool), mask = some m ∧ x[i]? = some (Num.inf b) ∧ m[i]? = some false)) →
      call (sum1 sum) x weight mask = .ok .nan ∧
        (0 < (kept x mask).length → call (mean1 sum fill) x weight mask = .ok .nan) := by
  intro h
  have key : sum1 sum x weight mask = .nan := by
    rcases h with h | ⟨rfl, m, i, b, rfl, h1, h2⟩
    · obtain ⟨i, hi, e⟩ := List.getElem_of_mem h
      have mulN : ∀ w : List Num, w.length = x.length → .nan ∈ mulL x w := by
        intro w hw'
        have hl : i < (mulL x w).length := by simp [mulL, hw', hi]
        have : (mulL x w)[i] = .nan := by simp [mulL, e, mul_nan_left]
        rw [← this]; exact List.getElem_mem hl
      have : ∀ w, wTot weight mask = some w → w.length = x.length := by
        intro w hw'
        cases weight with
        | none =>
          cases mask with
          | none => simp [wTot] at hw'
          | some m => simp only [wTot, Option.map_some, Option.some.injEq] at hw'; subst hw'; simpa using hm m rfl
        | some v =>
          cases mask with
          | none => simp only [wTot, Option.some.injEq] at hw'; subst hw'; exact hw v rfl
          | some m =>
            simp only [wTot, Option.some.injEq] at hw'; subst hw'
            simp [mulL, hw v rfl, hm m rfl]
      unfold sum1
      cases hc : wTot weight mask with
      | none => exact sum_nan sum hs x h
      | some w => exact sum_nan sum hs _ (mulN w (this w hc))
    · simp only [sum1, wTot, Option.map_some]
      apply sum_nan sum hs
      obtain ⟨hi, e1⟩ := List.getElem?_eq_some_iff.mp h1
      obtain ⟨hi2, e2⟩ := List.getElem?_eq_some_iff.mp h2
      have hl : i < (mulL x (m.map b2f)).length := by simp [mulL, hi, hi2]
      have : (mulL x (m.map b2f))[i] = .nan := by simp [mulL, e1, e2, b2f, Num.mul]
      rw [← this]; exact List.getElem_mem hl
  refine ⟨by rw [call_ok _ _ _ _ hw hm, key], fun hk => ?_⟩
  rw [call_ok _ _ _ _ hw hm]
  have hc := count_kept x x rfl mask hm
  simp only [mean1, key, hc, div_nan_left]
  rw [if_neg (by omega)]

/-- C132: when nothing is kept the mean and the standard deviation use the fill value; the sum is 0. -/
theorem C132_empty (sum : List Num → Num) (hs : IsSum sum) (sq : ℚ → ℚ) (fill : Num) (x : List Num) (weight : Option (List Num))
    (mask : Option (List Bool)) (hw : ∀ w, weight = some w → w.length = x.length) (hm : Fits mask x.length) (h : kept x mask = []) :
    call (mean1 sum fill) x weight mask = .ok fill ∧
      call (stdDev1 sum sq fill) x weight mask = .ok (npSqrt sq fill) ∧ sum [] = .fin 0 := by
  have hc := count_kept x x rfl mask hm
  rw [h] at hc
  refine ⟨?_, ?_, ?_⟩
  · rw [call_ok _ _ _ _ hw hm]; simp [mean1, hc]
  · rw [call_ok _ _ _ _ hw hm]
    have hc2 : ∀ y : List Num, y.length = x.length → count1 y mask = 0 := by
      intro y hy
      rw [count_kept y x hy.symm mask (by rw [hy]; exact hm), h]; rfl
    simp only [stdDev1]
    have : ∀ z : Num, (mulL (x.map (fun a => Num.sub a z)) (x.map (fun a => Num.sub a z))).length = x.length := by
      intro z; simp [mulL]
    simp [mean1, hc, hc2 _ (this fill)]
  · obtain ⟨t, ht, e⟩ := hs []
    rw [e]
    have h0 : t.leaves = [] := by simpa using ht
    clear e ht
    induction t with
    | zero => rfl
    | leaf i => simp [Order.leaves] at h0
    | node l r ihl ihr =>
      simp only [Order.leaves, List.append_eq_nil_iff] at h0
      simp only [Order.eval, ihl h0.1, ihr h0.2]
      show ofQ (0 + 0) = _
      rw [add_zero]; exact ofQ_self ⟨zero_isF, by simp⟩

/-- C132 (defect): with the default fill value -1e10 the standard deviation of nothing is NaN, the square root of the fill value, and not the
fill value. -/
theorem C132_empty_sd (sum : List Num → Num) (hs : IsSum sum) (sq : ℚ → ℚ) (x : List Num) (weight : Option (List Num))
    (mask : Option (List Bool)) (hw : ∀ w, weight = some w → w.length = x.length) (hm : Fits mask x.length) (h : kept x mask = []) :
    call (stdDev1 sum sq (.fin (-10000000000))) x weight mask = .ok .nan := by
  rw [(C132_empty sum hs sq _ x weight mask hw hm h).2.1]
  simp [npSqrt]


/-! ### Means -/

/-- Dividing an approximate sum by an exact positive number and rounding. -/
theorem quot_err {r S A c k : ℚ} (hc : 0 < c) (hS : |S| ≤ A) (hk : 0 ≤ k) (hk1 : k ≤ 1) (h : |r - S| ≤ k * A) :
    |rnd (r / c) - S / c| ≤ (k + 2 ^ (-52 : ℤ)) * (A / c) + 2 ^ (-1075 : ℤ) ∧ |r / c| ≤ 2 * (A / c) := by
  have hA : 0 ≤ A := le_trans (abs_nonneg _) hS
  have hq0 : 0 ≤ A / c := div_nonneg hA hc.le
  have e := FloatMesh.rnd_err_all (r / c)
  have h1 : |r / c - S / c| ≤ k * (A / c) := by
    rw [← sub_div, abs_div, abs_of_pos hc, div_le_iff₀ hc]
    rw [mul_assoc, div_mul_cancel₀ _ hc.ne']
    exact h
  have h2 : |S / c| ≤ A / c := by
    rw [abs_div, abs_of_pos hc]; exact div_le_div_of_nonneg_right hS hc.le
  have h3 : |r / c| ≤ 2 * (A / c) := by
    have := abs_add_le (r / c - S / c) (S / c)
    rw [sub_add_cancel] at this
    have : k * (A / c) ≤ 1 * (A / c) := mul_le_mul_of_nonneg_right hk1 hq0
    linarith
  refine ⟨?_, h3⟩
  have h4 : (2 : ℚ) ^ (-53 : ℤ) * |r / c| ≤ 2 ^ (-53 : ℤ) * (2 * (A / c)) := mul_le_mul_of_nonneg_left h3 (pow_pos' _).le
  have e52 : (2 : ℚ) ^ (-52 : ℤ) = 2 * 2 ^ (-53 : ℤ) := by
    rw [show (-52 : ℤ) = 1 + -53 by norm_num, zpow_add₀ (by norm_num), zpow_one]
  have h5 := abs_add_le (rnd (r / c) - r / c) (r / c - S / c)
  rw [show rnd (r / c) - r / c + (r / c - S / c) = rnd (r / c) - S / c by ring] at h5
  rw [e52]
  linarith

theorem eps_le_one {n : Nat} (hn : n ≤ 2 ^ 52) : (n : ℚ) * 2 ^ (-52 : ℤ) ≤ 1 := by
  have h2 : (n : ℚ) ≤ 2 ^ 52 := by exact_mod_cast hn
  have h3 : ((2 : ℚ) ^ 52) * 2 ^ (-52 : ℤ) = 1 := by norm_num
  rw [← h3]
  exact mul_le_mul_of_nonneg_right h2 (pow_pos' _).le

theorem kept_length_le {α : Type} (xs : List α) (mask : Option (List Bool)) : (kept xs mask).length ≤ xs.length := by
  cases mask with
  | none => exact le_rfl
  | some m =>
    simp only [kept, List.length_map]
    refine le_trans (List.length_filter_le _ _) ?_
    simp

theorem nat_double {n : Nat} (hn : n ≤ 2 ^ 53) : ofQ (n : ℚ) = .fin n := by
  have h : |((n : ℤ) : ℚ)| ≤ 2 ^ 53 := by
    rw [abs_of_nonneg (by positivity)]
    exact_mod_cast hn
  have := ofQ_self (x := ((n : ℤ) : ℚ)) ⟨FloatLinear.int_isF _ (by exact_mod_cast h), lt_of_le_of_lt h (pow_lt_pow_right₀ (by norm_num) (by norm_num))⟩
  simpa using this

/-- The mean, before the statement with the exact mean. -/
theorem mean_core (sum : List Num → Num) (hs : IsSum sum) (fill : Num) (xs : List ℚ) (mask : Option (List Bool)) (hF : Doubles xs)
    (hm : Fits mask xs.length) (hn : xs.length ≤ 2 ^ 52) (hk : 0 < (kept xs mask).length)
    (hb : absSum (kept xs mask) ≤ 2 ^ 1022) :
    ∃ r s : ℚ, mean1 sum fill (xs.map .fin) none mask = .fin r ∧ IsF r ∧ IsF s ∧ sum ((maskedQ xs mask).map .fin) = .fin s ∧
      r = rnd (s / (kept xs mask).length) ∧
      |r - (kept xs mask).sum / (kept xs mask).length| ≤
        (xs.length : ℚ) * 2 ^ (-52 : ℤ) * (absSum (kept xs mask) / (kept xs mask).length) + 2 ^ (-1075 : ℤ) := by
  obtain ⟨s, r1, r2, r3⟩ := sum_err sum hs (maskedQ xs mask) (fun x h => (maskedQ_doubles mask hF x h).1)
    (by rw [maskedQ_length _ _ hm]; exact hn) (by rw [maskedQ_abs]; exact hb)
  rw [maskedQ_sum, maskedQ_abs, maskedQ_length _ _ hm] at r3
  have hle := kept_length_le xs mask
  have hc : (0 : ℚ) < (kept xs mask).length := by exact_mod_cast hk
  have hc1 : (1 : ℚ) ≤ (kept xs mask).length := by exact_mod_cast hk
  have nn := absSum_nonneg (kept xs mask)
  obtain ⟨q1, q2⟩ := quot_err hc (sum_le_absSum (kept xs mask)) (mul_nonneg (Nat.cast_nonneg _) (pow_pos' _).le) (eps_le_one (by omega)) r3
  refine ⟨rnd (s / (kept xs mask).length), s, ?_, isF_rnd _, r2, r1, rfl, ?_⟩
  · have hcount := count_kept (xs.map .fin) xs (by simp) mask (by simpa using hm)
    simp only [mean1, hcount]
    rw [if_neg (by omega), sum1_unweighted sum mask hF, r1, nat_double (by omega)]
    show (if ((kept xs mask).length : ℚ) = 0 then _ else ofQ _) = _
    rw [if_neg hc.ne']
    refine ofQ_fin_le (le_trans q2 ?_) FloatBins.pow1023 FloatBins.lt1024
    have : absSum (kept xs mask) / (kept xs mask).length ≤ absSum (kept xs mask) := div_le_self nn hc1
    have e : (2 : ℚ) ^ 1023 = 2 * 2 ^ 1022 := by rw [pow_succ]; ring
    rw [e]
    exact mul_le_mul_of_nonneg_left (le_trans this hb) (by norm_num)
  · refine le_trans q1 ?_
    have e : ((xs.length - 1 : ℕ) : ℚ) * 2 ^ (-52 : ℤ) + 2 ^ (-52 : ℤ) = (xs.length : ℚ) * 2 ^ (-52 : ℤ) := by
      have : xs.length = xs.length - 1 + 1 := by omega
      conv_rhs => rw [this]
      push_cast
      ring
    rw [e]

/-- C132: the mean of the kept finite doubles is close to the exact mean, whatever the order of the additions. -/
theorem C132_mean (sum : List Num → Num) (hs : IsSum sum) (fill : Num) (xs : List ℚ) (mask : Option (List Bool)) (hF : Doubles xs)
    (hm : Fits mask xs.length) (hn : xs.length ≤ 2 ^ 52) (hk : 0 < (kept xs mask).length)
    (hb : ((kept xs mask).map fun x => |x|).sum ≤ 2 ^ 1022) :
    ∃ r : ℚ, call (mean1 sum fill) (xs.map .fin) none mask = .ok (.fin r) ∧ IsF r ∧
      |r - (kept xs mask).sum / (kept xs mask).length| ≤
        (xs.length : ℚ) * 2 ^ (-52 : ℤ) * (((kept xs mask).map fun x => |x|).sum / (kept xs mask).length) + 2 ^ (-1075 : ℤ) := by
  obtain ⟨r, _, r1, r2, _, _, _, r3⟩ := mean_core sum hs fill xs mask hF hm hn hk hb
  refine ⟨r, ?_, r2, r3⟩
  rw [call_ok _ _ _ _ (by simp) (by simpa using hm), r1]

theorem sum_bounds (l : List ℚ) (lo hi : ℚ) (h : ∀ x ∈ l, lo ≤ x ∧ x ≤ hi) : l.length * lo ≤ l.sum ∧ l.sum ≤ l.length * hi := by
  induction l with
  | nil => simp
  | cons x t ih =>
    obtain ⟨h1, h2⟩ := ih (fun y hy => h y (by simp [hy]))
    obtain ⟨h3, h4⟩ := h x (by simp)
    simp only [List.length_cons, List.sum_cons]
    push_cast
    constructor <;> linarith

theorem absSum_bound (l : List ℚ) (M : ℚ) (h : ∀ x ∈ l, |x| ≤ M) : absSum l ≤ l.length * M := by
  have := (sum_bounds (l.map fun x => |x|) 0 M (by
    intro x hx
    obtain ⟨y, hy, rfl⟩ := List.mem_map.mp hx
    exact ⟨abs_nonneg _, h y hy⟩)).2
  simpa [absSum] using this

/-- C132: the mean of values between `lo` and `hi` leaves the interval by at most `n * 2^-52` times the largest absolute value (and 2^-1075). -/
theorem C132_range (sum : List Num → Num) (hs : IsSum sum) (fill : Num) (xs : List ℚ) (mask : Option (List Bool)) (hF : Doubles xs)
    (hm : Fits mask xs.length) (hn : xs.length ≤ 2 ^ 52) (hk : 0 < (kept xs mask).length) (lo hi M : ℚ)
    (hr : ∀ x ∈ kept xs mask, lo ≤ x ∧ x ≤ hi ∧ |x| ≤ M) (hM : xs.length * M ≤ 2 ^ 1022) :
    ∃ r : ℚ, call (mean1 sum fill) (xs.map .fin) none mask = .ok (.fin r) ∧
      lo - (xs.length * 2 ^ (-52 : ℤ) * M + 2 ^ (-1075 : ℤ)) ≤ r ∧ r ≤ hi + (xs.length * 2 ^ (-52 : ℤ) * M + 2 ^ (-1075 : ℤ)) := by
  have hc : (0 : ℚ) < (kept xs mask).length := by exact_mod_cast hk
  have ab := absSum_bound (kept xs mask) M (fun x hx => (hr x hx).2.2)
  have hM0 : 0 ≤ M := by
    obtain ⟨x, hx⟩ := List.exists_mem_of_length_pos hk
    exact le_trans (abs_nonneg _) (hr x hx).2.2
  have hle : ((kept xs mask).length : ℚ) ≤ xs.length := by exact_mod_cast kept_length_le xs mask
  obtain ⟨r, h1, _, h2⟩ := C132_mean sum hs fill xs mask hF hm hn hk
    (le_trans (le_trans ab (mul_le_mul_of_nonneg_right hle hM0)) hM)
  have h2 : |r - (kept xs mask).sum / (kept xs mask).length| ≤
      (xs.length : ℚ) * 2 ^ (-52 : ℤ) * (absSum (kept xs mask) / (kept xs mask).length) + 2 ^ (-1075 : ℤ) := h2
  obtain ⟨b1, b2⟩ := sum_bounds (kept xs mask) lo hi (fun x hx => ⟨(hr x hx).1, (hr x hx).2.1⟩)
  have l1 : lo ≤ (kept xs mask).sum / (kept xs mask).length := by rw [le_div_iff₀ hc]; linarith
  have l2 : (kept xs mask).sum / (kept xs mask).length ≤ hi := by rw [div_le_iff₀ hc]; linarith
  have l3 : absSum (kept xs mask) / (kept xs mask).length ≤ M := by rw [div_le_iff₀ hc]; linarith
  have l4 : (xs.length : ℚ) * 2 ^ (-52 : ℤ) * (absSum (kept xs mask) / (kept xs mask).length) ≤ xs.length * 2 ^ (-52 : ℤ) * M :=
    mul_le_mul_of_nonneg_left l3 (mul_nonneg (Nat.cast_nonneg _) (pow_pos' _).le)
  obtain ⟨t1, t2⟩ := abs_le.mp (le_trans h2 (add_le_add l4 le_rfl))
  generalize (xs.length : ℚ) * 2 ^ (-52 : ℤ) * M = z at *
  generalize (2 : ℚ) ^ (-1075 : ℤ) = z' at *
  exact ⟨r, h1, by linarith, by linarith⟩

theorem eval_nonneg (xs : List ℚ) (h0 : ∀ x ∈ xs, 0 ≤ x) (t : Order) (hi : ∀ i ∈ t.leaves, i < xs.length) :
    t.eval (xs.map .fin) = .inf false ∨ ∃ q : ℚ, 0 ≤ q ∧ t.eval (xs.map .fin) = .fin q := by
  induction t with
  | zero => exact .inr ⟨0, le_rfl, rfl⟩
  | leaf i =>
    have h := hi i (by simp [Order.leaves])
    refine .inr ⟨xs.getD i 0, ?_, getD_fin xs i h⟩
    rw [getD_lt _ _ _ h]; exact h0 _ (List.getElem_mem h)
  | node l r ihl ihr =>
    have cl := ihl (fun i h => hi i (by simp [Order.leaves, h]))
    have cr := ihr (fun i h => hi i (by simp [Order.leaves, h]))
    rcases cl with cl | ⟨a, ha, cl⟩ <;> rcases cr with cr | ⟨b, hb, cr⟩ <;> simp only [Order.eval, cl, cr]
    · exact .inl rfl
    · exact .inl rfl
    · exact .inl rfl
    · have : Num.add (.fin a) (.fin b) = ofQ (a + b) := rfl
      rw [this]
      unfold ofQ
      split
      · left
        have : ¬ a + b < 0 := by linarith
        simp [this]
      · exact .inr ⟨_, rnd_nonneg (by linarith), rfl⟩

/-- C132: the mean of values that are not negative is not negative. -/
theorem C132_nonneg (sum : List Num → Num) (hs : IsSum sum) (fill : Num) (xs : List ℚ) (mask : Option (List Bool)) (hF : Doubles xs)
    (hm : Fits mask xs.length) (hn : xs.length ≤ 2 ^ 52) (hk : 0 < (kept xs mask).length)
    (hb : ((kept xs mask).map fun x => |x|).sum ≤ 2 ^ 1022) (h0 : ∀ x ∈ kept xs mask, 0 ≤ x) :
    ∃ r : ℚ, call (mean1 sum fill) (xs.map .fin) none mask = .ok (.fin r) ∧ 0 ≤ r := by
  obtain ⟨r, s, r1, _, _, s1, e, _⟩ := mean_core sum hs fill xs mask hF hm hn hk hb
  refine ⟨r, by rw [call_ok _ _ _ _ (by simp) (by simpa using hm), r1], ?_⟩
  obtain ⟨t, ht, et⟩ := hs ((maskedQ xs mask).map .fin)
  rw [List.length_map] at ht
  have := eval_nonneg (maskedQ xs mask) (by
    intro x hx
    rcases maskedQ_mem _ _ _ hx with h | rfl
    · exact h0 x h
    · exact le_rfl) t (fun i h => by simpa using ht.mem_iff.mp h)
  rw [← et, s1] at this
  rcases this with h | ⟨q, hq, h⟩
  · exact absurd h (by simp)
  · rw [Num.fin.injEq] at h
    rw [e, h]
    exact rnd_nonneg (div_nonneg hq (Nat.cast_nonneg _))


/-! ### Weights -/

theorem kept_zip_sum (f : ℚ × ℚ → ℚ) (hf : ∀ x, f (x, 0) = 0) (xs ws : List ℚ) (mask : Option (List Bool)) :
    (List.zipWith (fun x w => f (x, w)) xs (maskedQ ws mask)).sum = ((kept (xs.zip ws) mask).map f).sum := by
  cases mask with
  | none =>
    simp only [maskedQ, kept]
    rw [List.zip, List.map_zipWith]
  | some m =>
    simp only [maskedQ, kept]
    induction xs generalizing ws m with
    | nil => simp
    | cons x t ih =>
      cases ws with
      | nil => simp
      | cons w ws =>
        cases m with
        | nil => simp
        | cons b m =>
          have := ih ws m
          cases b <;> simp_all [List.filter_cons]

/-- Rounding each of the products. -/
theorem rnd_list_err (l : List ℚ) (h : ∀ p ∈ l, |rnd p - p| ≤ 2 ^ (-53 : ℤ) * |p|) :
    |(l.map rnd).sum - l.sum| ≤ 2 ^ (-53 : ℤ) * absSum l ∧ absSum (l.map rnd) ≤ (1 + 2 ^ (-53 : ℤ)) * absSum l := by
  induction l with
  | nil => simp [absSum]
  | cons p t ih =>
    obtain ⟨h1, h2⟩ := ih (fun q hq => h q (by simp [hq]))
    have h3 := h p (by simp)
    simp only [List.map_cons, List.sum_cons, absSum_cons]
    have h4 := abs_add_le (rnd p - p) ((t.map rnd).sum - t.sum)
    rw [show rnd p - p + ((t.map rnd).sum - t.sum) = rnd p + (t.map rnd).sum - (p + t.sum) by ring] at h4
    have h5 := abs_add_le (rnd p - p) p
    rw [sub_add_cancel] at h5
    constructor <;> linarith

theorem mem_le_absSum (l : List ℚ) (p : ℚ) (h : p ∈ l) : |p| ≤ absSum l := by
  induction l with
  | nil => simp at h
  | cons x t ih =>
    rw [absSum_cons]
    have := absSum_nonneg t
    rcases List.mem_cons.mp h with rfl | h
    · linarith
    · linarith [ih h, abs_nonneg x]

theorem mulL_fin (xs ws : List ℚ) (h : ∀ p ∈ List.zipWith (· * ·) xs ws, |p| ≤ 2 ^ 1023) :
    mulL (xs.map .fin) (ws.map .fin) = ((List.zipWith (· * ·) xs ws).map rnd).map .fin := by
  induction xs generalizing ws with
  | nil => simp [mulL]
  | cons x t ih =>
    cases ws with
    | nil => simp [mulL]
    | cons w ws =>
      have := ih ws (fun p hp => h p (by simp [hp]))
      simp only [mulL, List.map_cons, List.zipWith_cons_cons] at *
      rw [this]
      congr 1
      exact ofQ_fin_le (h (x * w) (by simp)) FloatBins.pow1023 FloatBins.lt1024

/-- An approximate ratio. -/
theorem ratio_err {N P A D W a b : ℚ} (hW : 0 < W) (hP : |P| ≤ A) (ha : 0 ≤ a) (hb : 0 ≤ b) (hb2 : b ≤ 1 / 2)
    (h1 : |N - P| ≤ a * A) (h2 : |D - W| ≤ b * W) : 0 < D ∧ |N / D - P / W| ≤ 2 * (a + b) * (A / W) := by
  have hA : 0 ≤ A := le_trans (abs_nonneg _) hP
  have hD : W / 2 ≤ D := by
    have := (abs_le.mp h2).1
    have : b * W ≤ 1 / 2 * W := mul_le_mul_of_nonneg_right hb2 hW.le
    linarith
  have hD0 : 0 < D := by linarith
  refine ⟨hD0, ?_⟩
  have e : N / D - P / W = ((N - P) * W - P * (D - W)) / (D * W) := by
    field_simp
    ring
  rw [e, abs_div, abs_of_pos (mul_pos hD0 hW), div_le_iff₀ (mul_pos hD0 hW)]
  have t1 : |(N - P) * W - P * (D - W)| ≤ |N - P| * W + |P| * |D - W| := by
    have := abs_sub ((N - P) * W) (P * (D - W))
    rw [abs_mul, abs_mul, abs_of_pos hW] at this
    exact this
  have t2 : |N - P| * W ≤ a * A * W := mul_le_mul_of_nonneg_right h1 hW.le
  have t3 : |P| * |D - W| ≤ A * (b * W) := mul_le_mul hP h2 (abs_nonneg _) hA
  have t4 : 2 * (a + b) * (A / W) * (D * W) = 2 * (a + b) * A * D := by field_simp
  rw [t4]
  have t5 : (a + b) * A * W ≤ (a + b) * A * (2 * D) := mul_le_mul_of_nonneg_left (by linarith) (mul_nonneg (by linarith) hA)
  linarith

theorem sum1_weight (sum : List Num → Num) (xs ws : List ℚ) (mask : Option (List Bool)) (hW : Doubles ws) :
    sum1 sum (xs.map .fin) (some (ws.map .fin)) mask = sum (mulL (xs.map .fin) ((maskedQ ws mask).map .fin)) := by
  cases mask with
  | none => rfl
  | some m => simp only [sum1, wTot, mulL_mask m hW]

theorem kept_snd (xs ws : List ℚ) (hl : ws.length = xs.length) (mask : Option (List Bool)) :
    (kept (xs.zip ws) mask).map (fun p => p.2) = kept ws mask := by
  rw [← kept_map]
  congr 1
  exact List.map_snd_zip hl.le

theorem kept_zip_len (xs ws : List ℚ) (hl : ws.length = xs.length) (mask : Option (List Bool)) :
    (kept (xs.zip ws) mask).length = (kept ws mask).length := by
  rw [← kept_snd xs ws hl, List.length_map]

/-- The products that are summed: those of the kept entries, or zero. -/
theorem prod_mem (xs ws : List ℚ) (mask : Option (List Bool)) (p : ℚ) (h : p ∈ List.zipWith (· * ·) xs (maskedQ ws mask)) :
    p = 0 ∨ ∃ q ∈ kept (xs.zip ws) mask, p = q.1 * q.2 := by
  cases mask with
  | none =>
    right
    simp only [maskedQ, kept] at *
    have e : List.zipWith (· * ·) xs ws = (xs.zip ws).map (fun q => q.1 * q.2) := by rw [List.zip, List.map_zipWith]
    rw [e] at h
    obtain ⟨q, hq, rfl⟩ := List.mem_map.mp h
    exact ⟨q, hq, rfl⟩
  | some m =>
    simp only [maskedQ, kept] at *
    induction xs generalizing ws m with
    | nil => simp at h
    | cons x t ih =>
      cases ws with
      | nil => simp at h
      | cons w ws =>
        cases m with
        | nil => simp at h
        | cons b m =>
          simp only [List.zipWith_cons_cons, List.mem_cons] at h
          rcases h with h | h
          · cases b
            · left; simpa using h
            · right; exact ⟨(x, w), by simp, by simpa using h⟩
          · rcases ih ws m h with h | ⟨q, hq, e⟩
            · exact .inl h
            · right
              refine ⟨q, ?_, e⟩
              cases b <;> simp_all [List.filter_cons]

/-- Numerator and denominator of the weighted mean. -/
theorem weighted_core (sum : List Num → Num) (hs : IsSum sum) (xs ws : List ℚ) (mask : Option (List Bool))
    (hW : Doubles ws) (hl : ws.length = xs.length) (hm : Fits mask xs.length) (hn : xs.length ≤ 2 ^ 50)
    (h0 : ∀ p ∈ kept (xs.zip ws) mask, 0 ≤ p.2 ∧ (p.1 * p.2 = 0 ∨ 2 ^ (-1022 : ℤ) ≤ |p.1 * p.2|))
    (hA : ((kept (xs.zip ws) mask).map fun p => |p.1 * p.2|).sum ≤ 2 ^ 1021)
    (hWt : (kept ws mask).sum ≤ 2 ^ 1021) :
    ∃ N D : ℚ, sum1 sum (xs.map .fin) (some (ws.map .fin)) mask = .fin N ∧ sum1 sum (ws.map .fin) none mask = .fin D ∧
      |N - ((kept (xs.zip ws) mask).map fun p => p.1 * p.2).sum| ≤
        (xs.length : ℚ) * 2 ^ (-52 : ℤ) * ((kept (xs.zip ws) mask).map fun p => |p.1 * p.2|).sum ∧
      |D - (kept ws mask).sum| ≤ ((xs.length - 1 : ℕ) : ℚ) * 2 ^ (-52 : ℤ) * (kept ws mask).sum := by
  have ew : absSum (kept ws mask) = (kept ws mask).sum := by
    rw [← kept_snd xs ws hl]
    generalize hk : kept (xs.zip ws) mask = l at *
    have h0' : ∀ p ∈ l, 0 ≤ p.2 := fun p hp => (h0 p hp).1
    clear hk h0 hA hWt
    induction l with
    | nil => simp [absSum]
    | cons p t ih =>
      rw [List.map_cons, absSum_cons, ih (fun q hq => h0' q (by simp [hq])), List.sum_cons, abs_of_nonneg (h0' p (by simp))]
  have ep : (List.zipWith (· * ·) xs (maskedQ ws mask)).sum = ((kept (xs.zip ws) mask).map fun p => p.1 * p.2).sum :=
    kept_zip_sum (fun p => p.1 * p.2) (by simp) xs ws mask
  have ea : absSum (List.zipWith (· * ·) xs (maskedQ ws mask)) = ((kept (xs.zip ws) mask).map fun p => |p.1 * p.2|).sum := by
    rw [← kept_zip_sum (fun p => |p.1 * p.2|) (by simp) xs ws mask, absSum, List.map_zipWith]
  have p52 : (2 : ℕ) ^ 50 ≤ 2 ^ 52 := by norm_num
  -- the denominator
  obtain ⟨D, d1, d2, d3⟩ := sum_err sum hs (maskedQ ws mask) (fun x h => (maskedQ_doubles mask hW x h).1)
    (by rw [maskedQ_length _ _ (by rw [hl]; exact hm), hl]; omega)
    (by rw [maskedQ_abs, ew]; exact le_trans hWt (pow_le_pow_right₀ (by norm_num) (by norm_num)))
  rw [maskedQ_sum, maskedQ_abs, maskedQ_length _ _ (by rw [hl]; exact hm), ew, hl] at d3
  -- the numerator
  generalize hL : List.zipWith (· * ·) xs (maskedQ ws mask) = L at *
  have hLlen : L.length = xs.length := by
    rw [← hL, List.length_zipWith, maskedQ_length _ _ (by rw [hl]; exact hm), hl, min_self]
  have hsmall : ∀ p ∈ L, |p| ≤ 2 ^ 1023 := fun p hp =>
    le_trans (mem_le_absSum L p hp) (by rw [ea]; exact le_trans hA (pow_le_pow_right₀ (by norm_num) (by norm_num)))
  have hrel : ∀ p ∈ L, |rnd p - p| ≤ 2 ^ (-53 : ℤ) * |p| := by
    intro p hp
    rw [← hL] at hp
    rcases prod_mem xs ws mask p hp with rfl | ⟨q, hq, rfl⟩
    · simp
    · rcases (h0 q hq).2 with h | h
      · simp [h]
      · exact rnd_err h
  obtain ⟨e1, e2⟩ := rnd_list_err L hrel
  have nn := absSum_nonneg L
  have hu1 : (2 : ℚ) ^ (-53 : ℤ) ≤ 1 := by norm_num
  have hu0 : (0 : ℚ) < 2 ^ (-53 : ℤ) := pow_pos' _
  obtain ⟨N, n1, n2, n3⟩ := sum_err sum hs (L.map rnd) (fun x h => by
      obtain ⟨y, _, rfl⟩ := List.mem_map.mp h
      exact isF_rnd y) (by rw [List.length_map, hLlen]; omega) (by
      have e : (2 : ℚ) ^ 1022 = 2 * 2 ^ 1021 := by rw [pow_succ]; ring
      rw [e]
      refine le_trans e2 (mul_le_mul (by linarith) (by rw [ea]; exact hA) nn (by norm_num)))
  rw [List.length_map, hLlen] at n3
  refine ⟨N, D, ?_, ?_, ?_, ?_⟩
  · rw [sum1_weight sum xs ws mask hW, mulL_fin xs _ (by rw [hL]; exact hsmall), hL, n1]
  · rw [sum1_unweighted sum mask hW, d1]
  · rw [← ep, ← ea]
    have k1 := eps_le_one (n := xs.length - 1) (by omega)
    have k0 : 0 ≤ ((xs.length - 1 : ℕ) : ℚ) * 2 ^ (-52 : ℤ) := mul_nonneg (Nat.cast_nonneg _) (pow_pos' _).le
    have e52 : (2 : ℚ) ^ (-52 : ℤ) = 2 * 2 ^ (-53 : ℤ) := by
      rw [show (-52 : ℤ) = 1 + -53 by norm_num, zpow_add₀ (by norm_num), zpow_one]
    have h3 := abs_add_le (N - (L.map rnd).sum) ((L.map rnd).sum - L.sum)
    rw [show N - (L.map rnd).sum + ((L.map rnd).sum - L.sum) = N - L.sum by ring] at h3
    by_cases hx : xs.length = 0
    · have : L = [] := List.eq_nil_of_length_eq_zero (by omega)
      subst this
      simp only [List.map_nil, List.sum_nil, absSum, mul_zero] at *
      linarith
    · have e : (xs.length : ℚ) = ((xs.length - 1 : ℕ) : ℚ) + 1 := by
        have : xs.length = xs.length - 1 + 1 := by omega
        exact_mod_cast this
      rw [e, add_mul, one_mul]
      have q1 := mul_le_mul_of_nonneg_left e2 k0
      have q2 := mul_le_mul_of_nonneg_right k1 (mul_nonneg hu0.le nn)
      generalize ((xs.length - 1 : ℕ) : ℚ) * 2 ^ (-52 : ℤ) = k at *
      rw [e52]
      have : k * ((1 + 2 ^ (-53 : ℤ)) * absSum L) = k * absSum L + k * (2 ^ (-53 : ℤ) * absSum L) := by ring
      linarith
  · exact d3

/-- C132: the weighted mean, weights not negative and with a positive total. -/
theorem C132_weighted (sum : List Num → Num) (hs : IsSum sum) (fill : Num) (xs ws : List ℚ) (mask : Option (List Bool))
    (hW : Doubles ws) (hl : ws.length = xs.length) (hm : Fits mask xs.length) (hn : xs.length ≤ 2 ^ 50)
    (h0 : ∀ p ∈ kept (xs.zip ws) mask, 0 ≤ p.2 ∧ |p.1| ≤ 2 ^ 1022 ∧ (p.1 * p.2 = 0 ∨ 2 ^ (-1022 : ℤ) ≤ |p.1 * p.2|))
    (hA : ((kept (xs.zip ws) mask).map fun p => |p.1 * p.2|).sum ≤ 2 ^ 1021)
    (hpos : 0 < (kept ws mask).sum) (hWt : (kept ws mask).sum ≤ 2 ^ 1021) :
    ∃ r : ℚ, call (mean1 sum fill) (xs.map .fin) (some (ws.map .fin)) mask = .ok (.fin r) ∧
      |r - ((kept (xs.zip ws) mask).map fun p => p.1 * p.2).sum / (kept ws mask).sum| ≤
        (xs.length : ℚ) * 2 ^ (-50 : ℤ) * (((kept (xs.zip ws) mask).map fun p => |p.1 * p.2|).sum / (kept ws mask).sum) + 2 ^ (-1075 : ℤ) := by
  obtain ⟨N, D, n1, d1, n2, d2⟩ := weighted_core sum hs xs ws mask hW hl hm hn (fun p hp => ⟨(h0 p hp).1, (h0 p hp).2.2⟩) hA hWt
  have hk0 : 0 < (kept ws mask).length := by
    rcases Nat.eq_zero_or_pos (kept ws mask).length with h | h
    · rw [List.eq_nil_of_length_eq_zero h] at hpos; simp at hpos
    · exact h
  have hAM : ((kept (xs.zip ws) mask).map fun p => |p.1 * p.2|).sum ≤ 2 ^ 1022 * (kept ws mask).sum := by
    rw [← kept_snd xs ws hl]
    have h0' : ∀ p ∈ kept (xs.zip ws) mask, 0 ≤ p.2 ∧ |p.1| ≤ 2 ^ 1022 := fun p hp => ⟨(h0 p hp).1, (h0 p hp).2.1⟩
    revert h0'
    generalize kept (xs.zip ws) mask = l
    generalize (2 : ℚ) ^ 1022 = M
    intro h0'
    induction l with
    | nil => simp
    | cons p t ih =>
      have := ih (fun q hq => h0' q (by simp [hq]))
      obtain ⟨a1, a2⟩ := h0' p (by simp)
      simp only [List.map_cons, List.sum_cons]
      rw [abs_mul, abs_of_nonneg a1]
      have := mul_le_mul_of_nonneg_right a2 a1
      linarith
  have hPA : |((kept (xs.zip ws) mask).map fun p => p.1 * p.2).sum| ≤ ((kept (xs.zip ws) mask).map fun p => |p.1 * p.2|).sum := by
    have := sum_le_absSum ((kept (xs.zip ws) mask).map fun p => p.1 * p.2)
    simpa [absSum, Function.comp_def] using this
  have hcount : count1 (xs.map .fin) mask = (kept ws mask).length := count_kept _ ws (by simp [hl]) mask (by simpa using hm)
  generalize ((kept (xs.zip ws) mask).map fun p => p.1 * p.2).sum = P at *
  generalize ((kept (xs.zip ws) mask).map fun p => |p.1 * p.2|).sum = A at *
  generalize (kept ws mask).sum = W at *
  have hA0 : 0 ≤ A := le_trans (abs_nonneg _) hPA
  have hQ0 : 0 ≤ A / W := div_nonneg hA0 hpos.le
  have k0 : 0 ≤ (xs.length : ℚ) * 2 ^ (-52 : ℤ) := mul_nonneg (Nat.cast_nonneg _) (pow_pos' _).le
  have k1 : (xs.length : ℚ) * 2 ^ (-52 : ℤ) ≤ 1 / 4 := by
    have h2 : (xs.length : ℚ) ≤ 2 ^ 50 := by exact_mod_cast hn
    have h3 : ((2 : ℚ) ^ 50) * 2 ^ (-52 : ℤ) = 1 / 4 := by norm_num
    rw [← h3]
    exact mul_le_mul_of_nonneg_right h2 (pow_pos' _).le
  have e50 : (xs.length : ℚ) * 2 ^ (-50 : ℤ) = 4 * ((xs.length : ℚ) * 2 ^ (-52 : ℤ)) := by
    rw [show (-50 : ℤ) = 2 + -52 by norm_num, zpow_add₀ (by norm_num)]; ring
  have hl1 : 1 ≤ xs.length := by
    have := kept_length_le ws mask
    omega
  have en : ((xs.length - 1 : ℕ) : ℚ) * 2 ^ (-52 : ℤ) = (xs.length : ℚ) * 2 ^ (-52 : ℤ) - 2 ^ (-52 : ℤ) := by
    rw [Nat.cast_sub hl1]; push_cast; ring
  have k2 : 0 ≤ ((xs.length - 1 : ℕ) : ℚ) * 2 ^ (-52 : ℤ) := mul_nonneg (Nat.cast_nonneg _) (pow_pos' _).le
  have p52 : (0 : ℚ) < 2 ^ (-52 : ℤ) := pow_pos' _
  obtain ⟨hD, hr⟩ := ratio_err hpos hPA k0 k2 (by rw [en]; linarith) n2 d2
  rw [en] at hr
  have hq : |N / D| ≤ 2 * (A / W) := by
    have h1 := abs_add_le (N / D - P / W) (P / W)
    rw [sub_add_cancel] at h1
    have h2 : |P / W| ≤ A / W := by rw [abs_div, abs_of_pos hpos]; exact div_le_div_of_nonneg_right hPA hpos.le
    have h3 := mul_le_mul_of_nonneg_right k1 hQ0
    have h4 := mul_nonneg p52.le hQ0
    linarith
  have hAW : A / W ≤ 2 ^ 1022 := by rw [div_le_iff₀ hpos]; exact hAM
  refine ⟨rnd (N / D), ?_, ?_⟩
  · rw [call_ok _ _ _ _ (by intro w hw; cases hw; simp [hl]) (by simpa using hm)]
    simp only [mean1, hcount, n1, d1]
    rw [if_neg (by omega)]
    show Except.ok (if D = 0 then _ else ofQ _) = _
    rw [if_neg hD.ne', ofQ_fin_le (le_trans hq ?_) FloatBins.pow1023 FloatBins.lt1024]
    have e : (2 : ℚ) ^ 1023 = 2 * 2 ^ 1022 := by rw [pow_succ]; ring
    rw [e]
    exact mul_le_mul_of_nonneg_left hAW (by norm_num)
  · have h1 := FloatMesh.rnd_err_all (N / D)
    have h2 : (2 : ℚ) ^ (-53 : ℤ) * |N / D| ≤ 2 ^ (-53 : ℤ) * (2 * (A / W)) := mul_le_mul_of_nonneg_left hq (pow_pos' _).le
    have e52 : (2 : ℚ) ^ (-52 : ℤ) = 2 * 2 ^ (-53 : ℤ) := by
      rw [show (-52 : ℤ) = 1 + -53 by norm_num, zpow_add₀ (by norm_num), zpow_one]
    have h3 := abs_add_le (rnd (N / D) - N / D) (N / D - P / W)
    rw [show rnd (N / D) - N / D + (N / D - P / W) = rnd (N / D) - P / W by ring] at h3
    rw [e50]
    generalize (xs.length : ℚ) * 2 ^ (-52 : ℤ) = k at *
    generalize A / W = Q at *
    have e1 : 2 * (k + (k - 2 ^ (-52 : ℤ))) * Q = 4 * k * Q - 2 * (2 ^ (-52 : ℤ) * Q) := by ring
    have e2 : (2 : ℚ) ^ (-53 : ℤ) * (2 * Q) = 2 ^ (-52 : ℤ) * Q := by rw [e52]; ring
    have := mul_nonneg p52.le hQ0
    rw [e1] at hr
    rw [e2] at h2
    linarith


theorem sum_zeros (sum : List Num → Num) (hs : IsSum sum) (l : List ℚ) (h : ∀ x ∈ l, x = 0) : sum (l.map .fin) = .fin 0 := by
  obtain ⟨t, ht, e⟩ := hs (l.map .fin)
  rw [List.length_map] at ht
  rw [e]
  have hi : ∀ i ∈ t.leaves, i < l.length := fun i hi => by simpa using ht.mem_iff.mp hi
  clear e ht
  induction t with
  | zero => rfl
  | leaf i =>
    have := hi i (by simp [Order.leaves])
    show (l.map Num.fin).getD i .nan = _
    rw [getD_fin l i this, getD_lt _ _ _ this, h _ (List.getElem_mem this)]
  | node a b iha ihb =>
    simp only [Order.eval, iha (fun i h => hi i (by simp [Order.leaves, h])), ihb (fun i h => hi i (by simp [Order.leaves, h]))]
    show ofQ (0 + 0) = _
    rw [add_zero]; exact ofQ_self ⟨zero_isF, by simp⟩

/-- C132: when the kept weights are all zero the mean of finite data is NaN, not the fill value. -/
theorem C132_zero_weights (sum : List Num → Num) (hs : IsSum sum) (fill : Num) (xs ws : List ℚ) (mask : Option (List Bool))
    (hW : Doubles ws) (hl : ws.length = xs.length) (hm : Fits mask xs.length) (hk : 0 < (kept ws mask).length)
    (h0 : ∀ w ∈ kept ws mask, w = 0) :
    call (mean1 sum fill) (xs.map .fin) (some (ws.map .fin)) mask = .ok .nan := by
  have hz : ∀ w ∈ maskedQ ws mask, w = 0 := by
    intro w hw
    rcases maskedQ_mem _ _ _ hw with h | h
    · exact h0 w h
    · exact h
  have hp : ∀ p ∈ List.zipWith (· * ·) xs (maskedQ ws mask), p = 0 := by
    intro p hp
    obtain ⟨i, hi, rfl⟩ := List.getElem_of_mem hp
    simp only [List.length_zipWith] at hi
    simp only [List.getElem_zipWith]
    rw [hz _ (List.getElem_mem (by omega)), mul_zero]
  rw [call_ok _ _ _ _ (by intro w hw; cases hw; simp [hl]) (by simpa using hm)]
  have hcount : count1 (xs.map .fin) mask = (kept ws mask).length := count_kept _ ws (by simp [hl]) mask (by simpa using hm)
  simp only [mean1, hcount]
  rw [if_neg (by omega), sum1_weight sum xs ws mask hW, sum1_unweighted sum mask hW, sum_zeros sum hs _ hz,
    mulL_fin xs _ (fun p h => by rw [hp p h]; simp),
    sum_zeros sum hs _ (by
      intro x hx
      obtain ⟨y, hy, rfl⟩ := List.mem_map.mp hx
      rw [hp y hy, rnd_zero])]
  rfl

/-! ### Larger data, larger sums -/

/-- Order of two results; an overflowed sum counts as infinite. -/
def Le : Num → Num → Prop
  | .inf true, .inf _ => True
  | .inf true, .fin _ => True
  | .fin a, .fin b => a ≤ b
  | .fin _, .inf false => True
  | .inf false, .inf false => True
  | _, _ => False

theorem ofQ_mono {a b : ℚ} (h : a ≤ b) : Le (ofQ a) (ofQ b) := by
  have hr := rnd_mono h
  have pos : ∀ q : ℚ, 2 ^ 1024 ≤ |rnd q| → (q < 0 → rnd q ≤ -2 ^ 1024) ∧ (¬ q < 0 → 2 ^ 1024 ≤ rnd q) := by
    intro q hq
    constructor
    · intro h0
      have : rnd q ≤ 0 := by have := rnd_nonneg (x := -q) (by linarith); rw [rnd_neg] at this; linarith
      rw [abs_of_nonpos this] at hq
      linarith
    · intro h0
      rw [abs_of_nonneg (rnd_nonneg (by linarith))] at hq
      exact hq
  have hp : (0 : ℚ) < 2 ^ 1024 := by positivity
  unfold ofQ
  split <;> rename_i ha <;> split <;> rename_i hb
  · by_cases a0 : a < 0
    · simp only [a0, decide_true, Le]
    · have b0 : ¬ b < 0 := by linarith
      simp only [a0, b0, decide_false, Le]
  · by_cases a0 : a < 0
    · simp only [a0, decide_true, Le]
    · have := (pos a ha).2 a0
      have := le_abs_self (rnd b)
      exact absurd (by linarith) hb
  · by_cases b0 : b < 0
    · have h1 := (pos b hb).1 b0
      have := neg_abs_le (rnd a)
      exact absurd (by linarith) ha
    · simp only [b0, decide_false, Le]
  · exact hr

/-- Adding in the same order keeps the order, as long as no partial sum is NaN. -/
theorem add_mono {a b c d : Num} (h1 : Le a b) (h2 : Le c d) (n1 : Num.add a c ≠ .nan) (n2 : Num.add b d ≠ .nan) :
    Le (Num.add a c) (Num.add b d) := by
  have fi : ∀ q : ℚ, Le (ofQ q) (.inf false) := by
    intro q; unfold ofQ; split
    · by_cases h : q < 0 <;> simp [h, Le]
    · simp [Le]
  have inf : ∀ q : ℚ, Le (.inf true) (ofQ q) := by
    intro q; unfold ofQ; split <;> simp [Le]
  rcases a with _ | (_ | _) | a <;> rcases b with _ | (_ | _) | b <;> simp only [Le] at h1 <;>
    rcases c with _ | (_ | _) | c <;> rcases d with _ | (_ | _) | d <;> simp only [Le] at h2 <;>
    first
    | exact ofQ_mono (add_le_add h1 h2)
    | exact fi _
    | exact inf _
    | trivial
    | exact absurd rfl n1
    | exact absurd rfl n2

theorem eval_mono (xs ys : List ℚ) (hl : ys.length = xs.length) (h : ∀ i (hi : i < xs.length), xs[i] ≤ ys[i]) (t : Order)
    (hi : ∀ i ∈ t.leaves, i < xs.length) (n1 : t.eval (xs.map .fin) ≠ .nan) (n2 : t.eval (ys.map .fin) ≠ .nan) :
    Le (t.eval (xs.map .fin)) (t.eval (ys.map .fin)) := by
  induction t with
  | zero => simp [Order.eval, Le]
  | leaf i =>
    have h' := hi i (by simp [Order.leaves])
    show Le ((xs.map Num.fin).getD i .nan) ((ys.map Num.fin).getD i .nan)
    rw [getD_fin xs i h', getD_fin ys i (by omega), getD_lt _ _ _ h', getD_lt _ _ _ (by omega)]
    exact h i h'
  | node a b iha ihb =>
    simp only [Order.eval] at *
    refine add_mono (iha (fun i h => hi i (by simp [Order.leaves, h])) ?_ ?_) (ihb (fun i h => hi i (by simp [Order.leaves, h])) ?_ ?_) n1 n2
    · intro h; rw [h, add_nan_left] at n1; exact n1 rfl
    · intro h; rw [h, add_nan_left] at n2; exact n2 rfl
    · intro h; rw [h, add_nan_right] at n1; exact n1 rfl
    · intro h; rw [h, add_nan_right] at n2; exact n2 rfl

/-- C132: if the order of the additions depends only on the number of elements, larger data have a sum that is not smaller. -/
theorem C132_monotone (sum : List Num → Num) (hs : ∀ n, ∃ t : Order, t.leaves.Perm (List.range n) ∧ ∀ xs, xs.length = n → sum xs = t.eval xs)
    (xs ys : List ℚ) (hl : ys.length = xs.length) (h : ∀ i (hi : i < xs.length), xs[i] ≤ ys[i])
    (n1 : sum (xs.map .fin) ≠ .nan) (n2 : sum (ys.map .fin) ≠ .nan) :
    ∃ a b, call (sum1 sum) (xs.map .fin) none none = .ok a ∧ call (sum1 sum) (ys.map .fin) none none = .ok b ∧ Num.le a b = true := by
  obtain ⟨t, ht, e⟩ := hs xs.length
  refine ⟨sum (xs.map .fin), sum (ys.map .fin), rfl, rfl, ?_⟩
  have e1 := e (xs.map .fin) (by simp)
  have e2 := e (ys.map .fin) (by simp [hl])
  rw [e1] at n1
  rw [e2] at n2
  rw [e1, e2]
  have := eval_mono xs ys hl h t (fun i h => by simpa using ht.mem_iff.mp h) n1 n2
  revert this
  generalize t.eval (xs.map .fin) = a
  generalize t.eval (ys.map .fin) = b
  intro this
  rcases a with _ | (_ | _) | a <;> rcases b with _ | (_ | _) | b <;> simp_all [Le, Num.le]


/-! ### Standard deviations -/

/-- The average of a list. -/
def avg (l : List ℚ) : ℚ := l.sum / l.length

theorem avg_shift (l : List ℚ) (hl : 0 < l.length) (r : ℚ) :
    avg (l.map fun x => (x - r) ^ 2) = avg (l.map fun x => (x - avg l) ^ 2) + (r - avg l) ^ 2 := by
  have hc : (l.length : ℚ) ≠ 0 := by exact_mod_cast hl.ne'
  have key : ∀ s : ℚ, (l.map fun x => (x - s) ^ 2).sum = (l.map fun x => x ^ 2).sum - 2 * s * l.sum + l.length * s ^ 2 := by
    intro s
    clear hl hc
    induction l with
    | nil => simp
    | cons x t ih => simp only [List.map_cons, List.sum_cons, ih, List.length_cons]; push_cast; ring
  have e : l.sum = l.length * avg l := by unfold avg; field_simp
  have h1 : avg (l.map fun x => (x - r) ^ 2) = ((l.map fun x => x ^ 2).sum - 2 * r * (l.length * avg l) + l.length * r ^ 2) / l.length := by
    rw [← e, ← key]; simp [avg]
  have h2 : avg (l.map fun x => (x - avg l) ^ 2) = ((l.map fun x => x ^ 2).sum - 2 * avg l * (l.length * avg l) + l.length * avg l ^ 2) / l.length := by
    rw [← e, ← key]; simp [avg]
  rw [h1, h2]
  generalize avg l = m
  field_simp
  ring

/-- The square of a rounded difference. -/
theorem square_err {x r : ℚ} (hx : IsF x) (hr : IsF r) :
    |rnd (rnd (x - r) * rnd (x - r)) - (x - r) ^ 2| ≤ 2 * 2 ^ (-52 : ℤ) * (x - r) ^ 2 + 2 ^ (-1075 : ℤ) := by
  have h1 := rnd_sub_err hx hr
  have h2 := FloatMesh.rnd_err_all (rnd (x - r) * rnd (x - r))
  have e52 : (2 : ℚ) ^ (-52 : ℤ) = 2 * 2 ^ (-53 : ℤ) := by
    rw [show (-52 : ℤ) = 1 + -53 by norm_num, zpow_add₀ (by norm_num), zpow_one]
  have hu0 : (0 : ℚ) < 2 ^ (-53 : ℤ) := pow_pos' _
  have hu1 : (2 : ℚ) ^ (-53 : ℤ) ≤ 1 / 10 := by norm_num
  rw [e52]
  rw [abs_of_nonneg (mul_self_nonneg (rnd (x - r)))] at h2
  generalize rnd (x - r) = d at *
  generalize x - r = y at *
  generalize (2 : ℚ) ^ (-53 : ℤ) = u at *
  generalize (2 : ℚ) ^ (-1075 : ℤ) = v at *
  have h3 : |d + y| ≤ (2 + u) * |y| := by
    have := abs_add_le (d - y) (2 * y)
    rw [show d - y + 2 * y = d + y by ring, abs_mul, abs_of_pos (by norm_num : (0 : ℚ) < 2)] at this
    linarith
  have h4 : |d * d - y ^ 2| ≤ u * (2 + u) * y ^ 2 := by
    rw [show d * d - y ^ 2 = (d - y) * (d + y) by ring, abs_mul, ← sq_abs y]
    calc |d - y| * |d + y| ≤ (u * |y|) * ((2 + u) * |y|) := mul_le_mul h1 h3 (abs_nonneg _) (by positivity)
      _ = u * (2 + u) * |y| ^ 2 := by ring
  have h5 : d * d ≤ (1 + u * (2 + u)) * y ^ 2 := by
    have := le_abs_self (d * d - y ^ 2)
    linarith
  have h6 := abs_add_le (rnd (d * d) - d * d) (d * d - y ^ 2)
  rw [show rnd (d * d) - d * d + (d * d - y ^ 2) = rnd (d * d) - y ^ 2 by ring] at h6
  have h7 : u * (d * d) ≤ u * ((1 + u * (2 + u)) * y ^ 2) := mul_le_mul_of_nonneg_left h5 hu0.le
  have hy : 0 ≤ y ^ 2 := sq_nonneg y
  have h8 : (u * (1 + u * (2 + u)) + u * (2 + u)) * y ^ 2 ≤ 2 * (2 * u) * y ^ 2 := by
    refine mul_le_mul_of_nonneg_right ?_ hy
    nlinarith [mul_pos hu0 hu0]
  linarith

theorem list_err (l : List ℚ) (f g : ℚ → ℚ) (a b : ℚ) (h : ∀ x ∈ l, |f x - g x| ≤ a * g x + b) :
    |(l.map f).sum - (l.map g).sum| ≤ a * (l.map g).sum + l.length * b := by
  induction l with
  | nil => simp
  | cons x t ih =>
    have h1 := ih (fun y hy => h y (by simp [hy]))
    have h2 := h x (by simp)
    simp only [List.map_cons, List.sum_cons, List.length_cons]
    have h3 := abs_add_le (f x - g x) ((t.map f).sum - (t.map g).sum)
    rw [show f x - g x + ((t.map f).sum - (t.map g).sum) = f x + (t.map f).sum - (g x + (t.map g).sum) by ring] at h3
    push_cast
    linarith

theorem absSum_of_nonneg (l : List ℚ) (h : ∀ x ∈ l, 0 ≤ x) : absSum l = l.sum := by
  induction l with
  | nil => simp [absSum]
  | cons x t ih => rw [absSum_cons, ih (fun y hy => h y (by simp [hy])), List.sum_cons, abs_of_nonneg (h x (by simp))]

theorem avg_nonneg (l : List ℚ) (h : ∀ x ∈ l, 0 ≤ x) : 0 ≤ avg l := div_nonneg (List.sum_nonneg h) (Nat.cast_nonneg _)

/-- The computed mean `r` and the number `V` under the square root of the standard deviation. -/
theorem sd_core (sum : List Num → Num) (hs : IsSum sum) (sq : ℚ → ℚ) (fill : Num) (xs : List ℚ) (mask : Option (List Bool)) (hF : ∀ x ∈ xs, IsF x)
    (hsm : ∀ x ∈ xs, |x| ≤ 2 ^ 480) (hm : Fits mask xs.length) (hn : xs.length ≤ 2 ^ 40) (hk : 0 < (kept xs mask).length) :
    ∃ V r : ℚ, mean1 sum fill (xs.map .fin) none mask = .fin r ∧ IsF r ∧ |r| ≤ 2 ^ 482 ∧ IsF V ∧
      stdDev1 sum sq fill (xs.map .fin) none mask = .fin (sq V) ∧ 0 ≤ V ∧
      |r - avg (kept xs mask)| ≤ xs.length * 2 ^ (-52 : ℤ) * avg ((kept xs mask).map fun x => |x|) + 2 ^ (-1075 : ℤ) ∧
      |V - avg ((kept xs mask).map fun x => (x - r) ^ 2)| ≤
        (xs.length + 3) * 2 ^ (-52 : ℤ) * avg ((kept xs mask).map fun x => (x - r) ^ 2) + 2 ^ (-1073 : ℤ) := by
  have p480 : (2 : ℚ) ^ 480 < 2 ^ 1024 := pow_lt_pow_right₀ (by norm_num) (by norm_num)
  have hD : Doubles xs := fun x hx => ⟨hF x hx, lt_of_le_of_lt (hsm x hx) p480⟩
  have hle := kept_length_le xs mask
  have hq : ((kept xs mask).length : ℚ) ≤ 2 ^ 40 := by exact_mod_cast le_trans hle hn
  have hc : (0 : ℚ) < (kept xs mask).length := by exact_mod_cast hk
  have n52 : xs.length ≤ 2 ^ 52 := le_trans hn (by norm_num)
  have a1 : absSum (kept xs mask) ≤ (kept xs mask).length * 2 ^ 480 := absSum_bound _ _ (fun x hx => hsm x (kept_mem _ _ _ hx))
  have a2 : absSum (kept xs mask) ≤ 2 ^ 520 := by
    refine le_trans a1 (le_trans (mul_le_mul_of_nonneg_right hq (by positivity)) ?_)
    rw [← pow_add]
  obtain ⟨r, s, m1, m2, _, _, m3, m4⟩ := mean_core sum hs fill xs mask hD hm n52 hk
    (le_trans a2 (pow_le_pow_right₀ (by norm_num) (by norm_num)))
  -- size of the mean
  have qa : absSum (kept xs mask) / (kept xs mask).length ≤ 2 ^ 480 := by rw [div_le_iff₀ hc]; linarith
  have qa0 : 0 ≤ absSum (kept xs mask) / (kept xs mask).length := div_nonneg (absSum_nonneg _) hc.le
  have hr : |r| ≤ 2 ^ 482 := by
    have k1 := eps_le_one n52
    have k2 := mul_le_mul_of_nonneg_right k1 qa0
    have k3 : |(kept xs mask).sum / (kept xs mask).length| ≤ absSum (kept xs mask) / (kept xs mask).length := by
      rw [abs_div, abs_of_pos hc]; exact div_le_div_of_nonneg_right (sum_le_absSum _) hc.le
    have k4 := abs_add_le (r - (kept xs mask).sum / (kept xs mask).length) ((kept xs mask).sum / (kept xs mask).length)
    rw [sub_add_cancel] at k4
    have k5 : (2 : ℚ) ^ (-1075 : ℤ) ≤ 1 := by
      have := zpow_le_zpow_right₀ (by norm_num : (1 : ℚ) ≤ 2) (by norm_num : (-1075 : ℤ) ≤ 0)
      simpa using this
    have k6 : (1 : ℚ) ≤ 2 ^ 480 := one_le_pow₀ (by norm_num)
    have k7 : (2 : ℚ) ^ 482 = 4 * 2 ^ 480 := by rw [show 482 = 480 + 2 by norm_num, pow_add]; ring
    rw [k7]
    generalize (2 : ℚ) ^ 480 = z at *
    generalize (2 : ℚ) ^ (-1075 : ℤ) = z' at *
    linarith
  have sub1 : ∀ x ∈ xs, Num.sub (.fin x) (.fin r) = .fin (rnd (x - r)) ∧ |rnd (x - r)| ≤ 2 ^ 484 := by
    intro x hx
    have h1 := hsm x hx
    have h2 : |x - r| ≤ 2 ^ 484 := by
      have := abs_sub x r
      have k7 : (2 : ℚ) ^ 482 = 4 * 2 ^ 480 := by rw [show 482 = 480 + 2 by norm_num, pow_add]; ring
      have k8 : (2 : ℚ) ^ 484 = 16 * 2 ^ 480 := by rw [show 484 = 480 + 4 by norm_num, pow_add]; ring
      have k6 : (0 : ℚ) < 2 ^ 480 := by positivity
      rw [k7] at hr
      rw [k8]
      generalize (2 : ℚ) ^ 480 = z at *
      linarith
    have f484 : IsF ((2 : ℚ) ^ 484) := by
      have := isF_pow (e := 484) (by norm_num)
      exact_mod_cast this
    refine ⟨?_, ?_⟩
    · refine FloatLinear.sub_fin (le_trans h1 ?_) (le_trans hr ?_) <;> exact pow_le_pow_right₀ (by norm_num) (by norm_num)
    · rw [rnd_abs]; exact rnd_le h2 f484
  generalize hds : xs.map (fun x => rnd (rnd (x - r) * rnd (x - r))) = ds
  have sqb : ∀ x ∈ xs, |rnd (x - r) * rnd (x - r)| ≤ 2 ^ 968 := by
    intro x hx
    rw [abs_mul, show 968 = 484 + 484 by norm_num, pow_add]
    exact mul_le_mul (sub1 x hx).2 (sub1 x hx).2 (abs_nonneg _) (by positivity)
  have f968 : IsF ((2 : ℚ) ^ 968) := by
    have := isF_pow (e := 968) (by norm_num)
    exact_mod_cast this
  have dsb : ∀ y ∈ ds, IsF y ∧ 0 ≤ y ∧ |y| ≤ 2 ^ 968 := by
    intro y hy
    rw [← hds] at hy
    obtain ⟨x, hx, rfl⟩ := List.mem_map.mp hy
    refine ⟨isF_rnd _, rnd_nonneg (mul_self_nonneg _), ?_⟩
    rw [rnd_abs]; exact rnd_le (sqb x hx) f968
  have edx : mulL ((xs.map .fin).map (fun a => Num.sub a (.fin r))) ((xs.map .fin).map (fun a => Num.sub a (.fin r))) = ds.map .fin := by
    have h1 : (xs.map Num.fin).map (fun a => Num.sub a (.fin r)) = (xs.map (fun x => rnd (x - r))).map .fin := by
      rw [List.map_map, List.map_map]
      exact List.map_congr_left (fun x hx => (sub1 x hx).1)
    have h2 : List.zipWith (· * ·) (xs.map (fun x => rnd (x - r))) (xs.map (fun x => rnd (x - r))) = xs.map (fun x => rnd (x - r) * rnd (x - r)) := by
      rw [List.zipWith_map, List.zipWith_self]
    rw [h1, mulL_fin, h2, ← hds]
    · rw [List.map_map, List.map_map, List.map_map]; rfl
    · rw [h2]
      intro p hp
      obtain ⟨x, hx, rfl⟩ := List.mem_map.mp hp
      exact le_trans (sqb x hx) (pow_le_pow_right₀ (by norm_num) (by norm_num))
  have lds : ds.length = xs.length := by rw [← hds, List.length_map]
  have kds : kept ds mask = (kept xs mask).map (fun x => rnd (rnd (x - r) * rnd (x - r))) := by rw [← hds, kept_map]
  have kl : (kept ds mask).length = (kept xs mask).length := by rw [kds, List.length_map]
  have a3 : absSum (kept ds mask) ≤ 2 ^ 1022 := by
    have h1 := absSum_bound (kept ds mask) (2 ^ 968) (fun y hy => (dsb y (kept_mem _ _ _ hy)).2.2)
    rw [kl] at h1
    refine le_trans h1 (le_trans (mul_le_mul_of_nonneg_right hq (by positivity)) ?_)
    rw [← pow_add]
    exact pow_le_pow_right₀ (by norm_num) (by norm_num)
  obtain ⟨V, _, v1, v2, _, _, _, v4⟩ := mean_core sum hs fill ds mask (fun y hy => ⟨(dsb y hy).1, lt_of_le_of_lt (dsb y hy).2.2 (pow_lt_pow_right₀ (by norm_num) (by norm_num))⟩)
    (by rw [lds]; exact hm) (by rw [lds]; exact n52) (by rw [kl]; exact hk) a3
  obtain ⟨V', v1', v0⟩ := C132_nonneg sum hs fill ds mask (fun y hy => ⟨(dsb y hy).1, lt_of_le_of_lt (dsb y hy).2.2 (pow_lt_pow_right₀ (by norm_num) (by norm_num))⟩)
    (by rw [lds]; exact hm) (by rw [lds]; exact n52) (by rw [kl]; exact hk) a3 (fun y hy => (dsb y (kept_mem _ _ _ hy)).2.1)
  rw [call_ok _ _ _ _ (by simp) (by simpa [lds] using hm), v1] at v1'
  obtain rfl : V = V' := by simpa using v1'
  refine ⟨V, r, m1, m2, hr, v2, ?_, v0, ?_, ?_⟩
  · simp only [stdDev1]
    rw [m1, edx, v1]
    simp [npSqrt, not_lt.mpr v0]
  · have : avg ((kept xs mask).map fun x => |x|) = absSum (kept xs mask) / (kept xs mask).length := by simp [avg, absSum]
    rw [this]
    exact m4
  · have hT : avg ((kept xs mask).map fun x => (x - r) ^ 2) = ((kept xs mask).map fun x => (x - r) ^ 2).sum / (kept xs mask).length := by simp [avg]
    have hT0 : 0 ≤ avg ((kept xs mask).map fun x => (x - r) ^ 2) := avg_nonneg _ (by
      intro y hy; obtain ⟨x, _, rfl⟩ := List.mem_map.mp hy; exact sq_nonneg _)
    have l1 := list_err (kept xs mask) (fun x => rnd (rnd (x - r) * rnd (x - r))) (fun x => (x - r) ^ 2) (2 * 2 ^ (-52 : ℤ)) (2 ^ (-1075 : ℤ))
      (fun x hx => square_err (hF x (kept_mem _ _ _ hx)) m2)
    rw [← kds] at l1
    have l2 : |(kept ds mask).sum / (kept xs mask).length - avg ((kept xs mask).map fun x => (x - r) ^ 2)| ≤
        2 * 2 ^ (-52 : ℤ) * avg ((kept xs mask).map fun x => (x - r) ^ 2) + 2 ^ (-1075 : ℤ) := by
      rw [hT, ← sub_div, abs_div, abs_of_pos hc, div_le_iff₀ hc]
      refine le_trans l1 (le_of_eq ?_)
      generalize (2 : ℚ) ^ (-1075 : ℤ) = z'
      generalize (2 : ℚ) ^ (-52 : ℤ) = z
      rw [add_mul, mul_assoc (2 * z), div_mul_cancel₀ _ hc.ne']
      ring
    have ab : absSum (kept ds mask) = (kept ds mask).sum := by
      exact absSum_of_nonneg _ (fun y hy => (dsb y (kept_mem _ _ _ hy)).2.1)
    rw [ab, kl, lds] at v4
    have h3 := abs_add_le (V - (kept ds mask).sum / (kept xs mask).length) ((kept ds mask).sum / (kept xs mask).length - avg ((kept xs mask).map fun x => (x - r) ^ 2))
    rw [sub_add_sub_cancel] at h3
    have h4 := le_abs_self ((kept ds mask).sum / (kept xs mask).length - avg ((kept xs mask).map fun x => (x - r) ^ 2))
    generalize avg ((kept xs mask).map fun x => (x - r) ^ 2) = T at *
    generalize (kept ds mask).sum / ((kept xs mask).length : ℚ) = Q at *
    have k1 := eps_le_one n52
    have k0 : 0 ≤ (xs.length : ℚ) * 2 ^ (-52 : ℤ) := mul_nonneg (Nat.cast_nonneg _) (pow_pos' _).le
    have k2 : (xs.length : ℚ) * 2 ^ (-52 : ℤ) ≤ 1 / 2 := by
      have h2 : (xs.length : ℚ) ≤ 2 ^ 40 := by exact_mod_cast hn
      refine le_trans (mul_le_mul_of_nonneg_right h2 (pow_pos' _).le) ?_
      norm_num
    have e73 : (2 : ℚ) ^ (-1073 : ℤ) = 4 * 2 ^ (-1075 : ℤ) := by
      rw [show (-1073 : ℤ) = 2 + -1075 by norm_num, zpow_add₀ (by norm_num)]; norm_num
    have p1075 : (0 : ℚ) < 2 ^ (-1075 : ℤ) := pow_pos' _
    have p52 : (0 : ℚ) < 2 ^ (-52 : ℤ) := pow_pos' _
    rw [e73, add_mul]
    generalize (xs.length : ℚ) * 2 ^ (-52 : ℤ) = k at *
    generalize (2 : ℚ) ^ (-1075 : ℤ) = v at *
    generalize (2 : ℚ) ^ (-52 : ℤ) = e at *
    have q1 : Q ≤ T + 2 * e * T + v := by linarith
    have q2 : k * Q ≤ k * (T + 2 * e * T + v) := mul_le_mul_of_nonneg_left q1 k0
    have q3 : k * (2 * (e * T)) ≤ 1 / 2 * (2 * (e * T)) := mul_le_mul_of_nonneg_right k2 (by positivity)
    have q4 : k * v ≤ 1 * v := mul_le_mul_of_nonneg_right k1 p1075.le
    nlinarith

/-- C132: the standard deviation of the kept finite doubles (at most 2^480 in size, at most 2^40 of them) is the square root of a number `V` that is not
negative and is close to the exact mean of the squared differences from the computed mean: the exact variance plus the square of the error of the mean. -/
theorem C132_sd (sum : List Num → Num) (hs : IsSum sum) (sq : ℚ → ℚ) (fill : Num) (xs : List ℚ) (mask : Option (List Bool)) (hF : ∀ x ∈ xs, IsF x)
    (hsm : ∀ x ∈ xs, |x| ≤ 2 ^ 480) (hm : Fits mask xs.length) (hn : xs.length ≤ 2 ^ 40) (hk : 0 < (kept xs mask).length) :
    ∃ V d : ℚ, call (stdDev1 sum sq fill) (xs.map .fin) none mask = .ok (.fin (sq V)) ∧ 0 ≤ V ∧
      |d| ≤ xs.length * 2 ^ (-52 : ℤ) * avg ((kept xs mask).map fun x => |x|) + 2 ^ (-1075 : ℤ) ∧
      |V - (avg ((kept xs mask).map fun x => (x - avg (kept xs mask)) ^ 2) + d ^ 2)| ≤
        (xs.length + 3) * 2 ^ (-52 : ℤ) * (avg ((kept xs mask).map fun x => (x - avg (kept xs mask)) ^ 2) + d ^ 2) + 2 ^ (-1073 : ℤ) := by
  obtain ⟨V, r, -, -, -, -, e, v0, dr, dv⟩ := sd_core sum hs sq fill xs mask hF hsm hm hn hk
  refine ⟨V, r - avg (kept xs mask), ?_, v0, dr, ?_⟩
  · rw [call_ok _ _ _ _ (by simp) (by simpa using hm), e]
  · rw [← avg_shift _ hk]
    exact dv

/-! ### A concrete order -/

/-- Adding from left to right, which numpy does for up to seven elements. -/
def leftSum (xs : List Num) : Num := xs.foldl Num.add (.fin 0)

/-- The order of `leftSum`. -/
def leftOrder (n : Nat) : Order := (List.range n).foldl (fun t i => .node t (.leaf i)) .zero

theorem leftSum_isSum : IsSum leftSum := by
  intro xs
  refine ⟨leftOrder xs.length, ?_, ?_⟩
  · have : ∀ (l : List Nat) (t : Order), (l.foldl (fun t i => Order.node t (.leaf i)) t).leaves = t.leaves ++ l := by
      intro l
      induction l with
      | nil => intro t; simp
      | cons i l ih => intro t; rw [List.foldl_cons, ih]; simp [Order.leaves]
    unfold leftOrder
    rw [this]
    simp [Order.leaves]
  · have : ∀ (l : List Nat) (t : Order), (l.foldl (fun t i => Order.node t (.leaf i)) t).eval xs =
        (l.map (fun i => xs.getD i .nan)).foldl Num.add (t.eval xs) := by
      intro l
      induction l with
      | nil => intro t; rfl
      | cons i l ih => intro t; rw [List.foldl_cons, ih, List.map_cons, List.foldl_cons]; rfl
    unfold leftOrder leftSum
    rw [this]
    congr 1
    apply List.ext_getElem
    · simp
    · intro i h1 h2
      simp [h1]

/-- The double nearest to 0.1. -/
def tenth : ℚ := rnd (1 / 10)

/-- C132 (recorded): three times 0.1 has a mean above 0.1 and a positive variance: the mean can leave the range of the data and constant data can have a
standard deviation that is not zero (by the bounds of `C132_range` and `C132_sd`). -/
theorem C132_constant (sq : ℚ → ℚ) (hsq : ∀ q, 0 < q → 0 < sq q) (fill : Num) :
    (∃ r, call (mean1 leftSum fill) [.fin tenth, .fin tenth, .fin tenth] none none = .ok (.fin r) ∧ tenth < r) ∧
    ∃ s, call (stdDev1 leftSum sq fill) [.fin tenth, .fin tenth, .fin tenth] none none = .ok (.fin s) ∧ 0 < s := by
  have e1 : mean1 leftSum fill [.fin tenth, .fin tenth, .fin tenth] none none = Num.div (leftSum [.fin tenth, .fin tenth, .fin tenth]) (ofQ 3) := by
    simp [mean1, count1, sum1, wTot]
  have e2 : Num.div (leftSum [.fin tenth, .fin tenth, .fin tenth]) (ofQ 3) = .fin (tenth + 2 ^ (-56 : ℤ)) := by decide +kernel
  refine ⟨⟨tenth + 2 ^ (-56 : ℤ), by rw [call_ok _ _ _ _ (by simp) (by intro m h; simp at h), e1, e2], by linarith [pow_pos' (-56)]⟩, ?_⟩
  let y : List Num := [.fin (2 ^ (-112 : ℤ)), .fin (2 ^ (-112 : ℤ)), .fin (2 ^ (-112 : ℤ))]
  have e3 : mulL ([Num.fin tenth, .fin tenth, .fin tenth].map (fun a => Num.sub a (.fin (tenth + 2 ^ (-56 : ℤ)))))
      ([Num.fin tenth, .fin tenth, .fin tenth].map (fun a => Num.sub a (.fin (tenth + 2 ^ (-56 : ℤ))))) = y := by decide +kernel
  have e4 : mean1 leftSum fill y none none = Num.div (leftSum y) (ofQ 3) := by
    simp [mean1, count1, sum1, wTot, y]
  have e5 : Num.div (leftSum y) (ofQ 3) = .fin (2 ^ (-112 : ℤ)) := by decide +kernel
  refine ⟨sq (2 ^ (-112 : ℤ)), ?_, hsq _ (pow_pos' _)⟩
  rw [call_ok _ _ _ _ (by simp) (by intro m h; simp at h)]
  simp only [stdDev1, e1, e2]
  rw [e3, e4, e5]
  simp [npSqrt, not_lt.mpr (pow_pos' (-112)).le]

/-- The hypotheses of the theorems above are met: four doubles, one of them masked out. -/
def exData : List ℚ := [1, tenth, -3, 1 / 4]
def exMask : Option (List Bool) := some [true, true, false, true]
def exWeights : List ℚ := [2, 1, 5, 0]

theorem exData_doubles : Doubles exData := by
  intro x hx
  simp only [exData, List.mem_cons, List.not_mem_nil, or_false] at hx
  rcases hx with rfl | rfl | rfl | rfl <;> exact ⟨by decide +kernel, lt_trans (by decide +kernel : _ < (2 : ℚ) ^ 3) (pow_lt_pow_right₀ (by norm_num) (by norm_num))⟩

theorem exWeights_doubles : Doubles exWeights := by
  intro x hx
  simp only [exWeights, List.mem_cons, List.not_mem_nil, or_false] at hx
  rcases hx with rfl | rfl | rfl | rfl <;> exact ⟨by decide +kernel, lt_trans (by decide +kernel : _ < (2 : ℚ) ^ 3) (pow_lt_pow_right₀ (by norm_num) (by norm_num))⟩

theorem exMask_fits : Fits exMask 4 := by
  intro m hm
  simp only [exMask, Option.some.injEq] at hm
  subst hm
  rfl

example : ∃ r : ℚ, call (mean1 leftSum .nan) (exData.map .fin) none exMask = .ok (.fin r) ∧ IsF r ∧ |r - (1 + tenth + 1 / 4) / 3| ≤ 2 ^ (-50 : ℤ) := by
  have hk : kept exData exMask = [1, tenth, 1 / 4] := rfl
  have ht : |tenth| ≤ 1 := by decide +kernel
  obtain ⟨r, h1, h2, h3⟩ := C132_mean leftSum leftSum_isSum .nan exData exMask exData_doubles exMask_fits (by simp [exData]) (by rw [hk]; simp) (by
    rw [hk]
    refine le_trans (b := (2 : ℚ) ^ 2) ?_ (pow_le_pow_right₀ (by norm_num) (by norm_num))
    simp only [List.map_cons, List.map_nil, List.sum_cons, List.sum_nil]
    norm_num at *
    linarith)
  refine ⟨r, h1, h2, ?_⟩
  rw [hk] at h3
  simp only [List.sum_cons, List.sum_nil, add_zero, List.length_cons, List.length_nil, List.map_cons, List.map_nil, exData] at h3
  have e1 : (2 : ℚ) ^ (-1075 : ℤ) ≤ 2 ^ (-60 : ℤ) := zpow_le_zpow_right₀ (by norm_num) (by norm_num)
  rw [show (1 : ℚ) + (tenth + 1 / 4) = 1 + tenth + 1 / 4 by ring] at h3
  norm_num at *
  refine le_trans h3 ?_
  linarith

example : ∃ r : ℚ, call (mean1 leftSum .nan) (exData.map .fin) (some (exWeights.map .fin)) exMask = .ok (.fin r) := by
  have hz : exData.zip exWeights = [(1, 2), (tenth, 1), (-3, 5), (1 / 4, 0)] := rfl
  have hk : kept (exData.zip exWeights) exMask = [(1, 2), (tenth, 1), (1 / 4, 0)] := rfl
  have hw : kept exWeights exMask = [2, 1, 0] := rfl
  have ht : |tenth| ≤ 1 := by decide +kernel
  have ht2 : (2 : ℚ) ^ (-10 : ℤ) ≤ |tenth| := by decide +kernel
  have b1 : (2 : ℚ) ^ 3 ≤ 2 ^ 1021 := pow_le_pow_right₀ (by norm_num) (by norm_num)
  have b2 : (2 : ℚ) ^ 3 ≤ 2 ^ 1022 := pow_le_pow_right₀ (by norm_num) (by norm_num)
  have b3 : (2 : ℚ) ^ (-1022 : ℤ) ≤ 2 ^ (-10 : ℤ) := zpow_le_zpow_right₀ (by norm_num) (by norm_num)
  obtain ⟨r, h1, _⟩ := C132_weighted leftSum leftSum_isSum .nan exData exWeights exMask exWeights_doubles rfl exMask_fits (by simp [exData])
    (by
      rw [hk]
      intro p hp
      simp only [List.mem_cons, List.not_mem_nil, or_false] at hp
      rcases hp with rfl | rfl | rfl
      · refine ⟨by norm_num, le_trans (by norm_num) b2, .inr (le_trans b3 (by norm_num))⟩
      · refine ⟨by norm_num, le_trans ht (le_trans (by norm_num) b2), .inr (le_trans b3 (by simpa using ht2))⟩
      · refine ⟨by norm_num, le_trans (by norm_num [abs_of_pos]) b2, .inl (by norm_num)⟩)
    (by
      rw [hk]
      refine le_trans ?_ b1
      simp only [List.map_cons, List.map_nil, List.sum_cons, List.sum_nil, mul_one, mul_zero, abs_zero]
      norm_num at *
      linarith)
    (by rw [hw]; norm_num) (by rw [hw]; exact le_trans (by norm_num) b1)
  exact ⟨r, h1⟩

example : ∃ s : ℚ, call (stdDev1 leftSum id .nan) (exData.map .fin) none exMask = .ok (.fin s) ∧ 0 ≤ s := by
  obtain ⟨V, d, h1, h2, _⟩ := C132_sd leftSum leftSum_isSum id .nan exData exMask (fun x hx => (exData_doubles x hx).1)
    (by
      intro x hx
      have : |x| ≤ 2 ^ 3 := by
        simp only [exData, List.mem_cons, List.not_mem_nil, or_false] at hx
        rcases hx with rfl | rfl | rfl | rfl <;> decide +kernel
      exact le_trans this (pow_le_pow_right₀ (by norm_num) (by norm_num)))
    exMask_fits (by simp [exData]) (by simp [exData, exMask, kept])
  exact ⟨V, h1, h2⟩

end Pyhipp.FloatReduce
