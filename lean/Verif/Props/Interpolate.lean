import Verif.Lemmas.Interpolate
/-
Property theorems C57-C62 (numerical/interpolate.py).
-/
namespace Pyhipp.Interpolate
set_option linter.unusedSectionVars false
set_option linter.unusedVariables false
open Pyhipp

section C57
variable {α : Type} [LinearOrder α]

/-- C57: on a non-empty sorted array `bisearch` terminates without leaving the array and
returns the index `i ∈ [-1, n)` with `x[j] ≤ v` exactly for `j ≤ i`. -/
theorem C57_bisearch (xs : List α) (v : α) (hne : xs ≠ []) (hs : xs.Pairwise (· ≤ ·)) :
    ∃ i : Int, bisearch xs v = .ok i ∧ -1 ≤ i ∧ i < xs.length ∧
      ∀ j (h : j < xs.length), xs[j] ≤ v ↔ (j : Int) ≤ i :=
  bisearch_spec xs v hne hs

/-- C57: the documented bracketing `x[i] ≤ v < x[i+1]` (each half only where the index
exists). -/
theorem C57_bisearch_bracket (xs : List α) (v : α) (hne : xs ≠ [])
    (hs : xs.Pairwise (· ≤ ·)) (i : Int) (hi : bisearch xs v = .ok i) :
    (∀ h : i.toNat < xs.length, 0 ≤ i → xs[i.toNat] ≤ v) ∧
    (∀ h : (i + 1).toNat < xs.length, v < xs[(i + 1).toNat]) := by
  obtain ⟨i', h0, h1, h2, h3⟩ := bisearch_spec xs v hne hs
  rw [h0] at hi; cases hi
  constructor
  · intro h h0; exact (h3 _ h).mpr (by omega)
  · intro h
    by_contra hc
    have := (h3 _ h).mp (not_lt.mp hc)
    omega

/-- C57: there is only one such index, so the bracketing determines the result. -/
theorem C57_bisearch_unique (xs : List α) (v : α) (i i' : Int)
    (h : -1 ≤ i ∧ i < xs.length ∧ ∀ j (h : j < xs.length), xs[j] ≤ v ↔ (j : Int) ≤ i)
    (h' : -1 ≤ i' ∧ i' < xs.length ∧ ∀ j (h : j < xs.length), xs[j] ≤ v ↔ (j : Int) ≤ i') :
    i = i' := by
  obtain ⟨a1, a2, a3⟩ := h
  obtain ⟨b1, b2, b3⟩ := h'
  by_contra hne
  rcases lt_or_gt_of_ne hne with hlt | hlt
  · have hb := (b3 i'.toNat (by omega)).mpr (by omega)
    have := (a3 i'.toNat (by omega)).mp hb
    omega
  · have hb := (a3 i.toNat (by omega)).mpr (by omega)
    have := (b3 i.toNat (by omega)).mp hb
    omega

/-- C57: agreement with `numpy.searchsorted(x, v, side='right') - 1`, i.e. the number of
entries `≤ v` minus one. -/
theorem C57_bisearch_eq_searchsorted (xs : List α) (v : α) (hne : xs ≠ [])
    (hs : xs.Pairwise (· ≤ ·)) :
    bisearch xs v = .ok (((xs.filter (fun x => decide (x ≤ v))).length : Int) - 1) := by
  obtain ⟨i, h0, h1, h2, h3⟩ := bisearch_spec xs v hne hs
  rw [h0]
  have key : ∀ (ys : List α) (m : Nat), m ≤ ys.length →
      (∀ j (h : j < ys.length), ys[j] ≤ v ↔ j < m) →
      (ys.filter (fun x => decide (x ≤ v))).length = m := by
    intro ys
    induction ys with
    | nil => intro m hm _; simp at hm; simp [hm]
    | cons y ys ih =>
        intro m hm hj
        have hy := hj 0 (by simp)
        simp only [List.getElem_cons_zero] at hy
        rcases m with _ | m
        · have hny : ¬ y ≤ v := by intro h; exact absurd (hy.mp h) (by omega)
          have := ih 0 (by omega) (fun j h => by
            have := hj (j + 1) (by simpa using h)
            simp only [List.getElem_cons_succ] at this
            constructor
            · intro h'; have := this.mp h'; omega
            · intro h'; omega)
          simpa [List.filter_cons, hny] using this
        · have hyy : y ≤ v := hy.mpr (by omega)
          have := ih m (by simpa using hm) (fun j h => by
            have := hj (j + 1) (by simpa using h)
            simp only [List.getElem_cons_succ] at this
            rw [this]; omega)
          simp [hyy, this]
  have := key xs (i + 1).toNat (by omega) (fun j h => by rw [h3 j h]; omega)
  rw [this]
  congr 1
  omega

/-- C57: an empty array is refused with AssertionError. -/
theorem C57_bisearch_empty (v : α) : bisearch ([] : List α) v = .error .assertionError := by
  simp [bisearch, pyAssert]

example : ([1, 3, 3, 7] : List Int) ≠ [] ∧ ([1, 3, 3, 7] : List Int).Pairwise (· ≤ ·) := by
  decide
example : bisearch ([1, 3, 3, 7] : List Int) 4 = .ok 2 := by
  rw [C57_bisearch_eq_searchsorted _ _ (by decide) (by decide)]; decide

end C57

section C58
variable {α : Type} [Field α] [LinearOrder α] [IsStrictOrderedRing α]

/-- C58: `bisearch_nearest` returns a valid index whose entry is at minimal distance to the
target. -/
theorem C58_nearest (xs : List α) (v : α) (hne : xs ≠ []) (hs : xs.Pairwise (· ≤ ·)) :
    ∃ i : Nat, ∃ hi : i < xs.length, bisearchNearest xs v = .ok (i : Int) ∧
      (∀ j (h : j < xs.length), |v - xs[i]| ≤ |v - xs[j]|) := by
  have hn : 0 < xs.length := List.length_pos_iff.mpr hne
  obtain ⟨i, h0, h1, h2, h3⟩ := bisearch_spec xs v hne hs
  by_cases hneg : i < 0
  · refine ⟨0, hn, by simp [bisearchNearest, h0, hneg], ?_⟩
    intro j hj
    have hv : v < xs[0] := by
      by_contra hc
      have := (h3 0 hn).mp (not_lt.mp hc); omega
    have hle := sorted_le hs (Nat.zero_le j) hj
    rw [abs_of_nonpos (by linarith), abs_of_nonpos (by linarith)]
    linarith
  · obtain ⟨k, rfl⟩ : ∃ k : Nat, i = k := ⟨i.toNat, by omega⟩
    have hk : xs[k]'(by omega) ≤ v := (h3 k (by omega)).mpr (le_refl _)
    by_cases hlast : k + 1 < xs.length
    · have hk1 : v < xs[k + 1] := by
        by_contra hc
        have := (h3 (k + 1) hlast).mp (not_lt.mp hc); omega
      have e1 : pyGet xs (k : Int) = .ok xs[k] := pyGet_ofNat xs k (by omega)
      have e2 : pyGet xs ((k : Int) + 1) = .ok xs[k + 1] := by
        simpa using pyGet_ofNat xs (k + 1) hlast
      have hc : ¬ ((k : Int) + 1 > (xs.length : Int) - 1) := by omega
      have hval : bisearchNearest xs v
          = .ok (if v - xs[k] < xs[k + 1] - v then (k : Int) else (k : Int) + 1) := by
        simp only [bisearchNearest, h0, Except.bind_ok, hneg, if_neg hc, e1, e2, if_false,
          Except.pure_ok]
      have far : ∀ j (h : j < xs.length), (xs[j] ≤ xs[k]) ∨ (xs[k + 1] ≤ xs[j]) := by
        intro j hj
        rcases Nat.lt_or_ge k j with h | h
        · right; exact sorted_le hs h hj
        · left; exact sorted_le hs h (by omega)
      by_cases hd : v - xs[k] < xs[k + 1] - v
      · refine ⟨k, by omega, by rw [hval, if_pos hd], ?_⟩
        intro j hj
        rw [abs_of_nonneg (by linarith)]
        rcases far j hj with h | h
        · rw [abs_of_nonneg (by linarith)]; linarith
        · rw [abs_of_nonpos (by linarith)]; linarith
      · refine ⟨k + 1, hlast, by rw [hval, if_neg hd]; simp, ?_⟩
        intro j hj
        rw [abs_of_nonpos (by linarith)]
        rcases far j hj with h | h
        · rw [abs_of_nonneg (by linarith)]; linarith
        · rw [abs_of_nonpos (by linarith)]; linarith
    · have hkn : k = xs.length - 1 := by omega
      refine ⟨xs.length - 1, by omega, ?_, ?_⟩
      · have hc : ((k : Int) + 1 > (xs.length : Int) - 1) := by omega
        have e : ((xs.length : Int) - 1) = ((xs.length - 1 : Nat) : Int) := by omega
        simp only [bisearchNearest, h0, Except.bind_ok, hneg, if_pos hc, if_false,
          Except.pure_ok]
        rw [e]
      · intro j hj
        have hle := sorted_le hs (i := j) (j := xs.length - 1) (by omega) (by omega)
        have hk' : xs[xs.length - 1]'(by omega) ≤ v := by simpa [hkn] using hk
        rw [abs_of_nonneg (by linarith), abs_of_nonneg (by linarith)]
        linarith

omit [IsStrictOrderedRing α] in
/-- C58: the array version is the scalar version applied to every target, in order. -/
theorem C58_nearest_array (xs vs : List α) (is : List Int)
    (h : bisearchNearestArray xs vs = .ok is) :
    is.length = vs.length ∧
    ∀ t (h1 : t < vs.length) (h2 : t < is.length), bisearchNearest xs vs[t] = .ok is[t] := by
  induction vs generalizing is with
  | nil => simp [bisearchNearestArray] at h; subst h; simp
  | cons v vs ih =>
      simp only [bisearchNearestArray, List.mapM_cons] at h ih
      cases h1 : bisearchNearest xs v with
      | error e => rw [h1] at h; simp at h
      | ok i =>
          rw [h1] at h
          simp only [Except.bind_ok] at h
          cases h2 : vs.mapM (bisearchNearest xs) with
          | error e => rw [h2] at h; simp at h
          | ok js =>
              rw [h2] at h
              simp only [Except.bind_ok, Except.pure_ok, Except.ok.injEq] at h
              subst h
              obtain ⟨ha, hb⟩ := ih js h2
              refine ⟨by simp [ha], ?_⟩
              intro t ht1 ht2
              cases t with
              | zero => simpa using h1
              | succ t => simpa using hb t (by simpa using ht1) (by simpa using ht2)

/-- C58: the array version succeeds for every list of targets. -/
theorem C58_nearest_array_total (xs vs : List α) (hne : xs ≠ []) (hs : xs.Pairwise (· ≤ ·)) :
    ∃ is, bisearchNearestArray xs vs = .ok is := by
  induction vs with
  | nil => exact ⟨[], by simp [bisearchNearestArray]⟩
  | cons v vs ih =>
      obtain ⟨is, h⟩ := ih
      obtain ⟨i, _, h1, _⟩ := C58_nearest xs v hne hs
      refine ⟨(i : Int) :: is, ?_⟩
      simp only [bisearchNearestArray, List.mapM_cons] at h ⊢
      simp [h1, h]

example : ([0, 1/2, 2] : List ℚ) ≠ [] ∧ ([0, 1/2, 2] : List ℚ).Pairwise (· ≤ ·) := by
  constructor
  · simp
  · norm_num

end C58

section C59
variable {α : Type} [Field α] [LinearOrder α] [IsStrictOrderedRing α]

/-- C59: the interpolation weights are non-negative and sum to one, and both indices are
valid, for every query point. -/
theorem C59_weights (xs : List α) (v : α) (hne : xs ≠ []) (hs : xs.Pairwise (· < ·)) :
    ∃ l r : Nat, ∃ wl wr : α,
      bisearchInterpWeight xs v = .ok ((l : Int), (r : Int), wl, wr) ∧
      l < xs.length ∧ r < xs.length ∧ 0 ≤ wl ∧ 0 ≤ wr ∧ wl + wr = 1 := by
  rcases interpWeight_cases xs v hne (strict_sorted hs) with
    ⟨h, h1, h2⟩ | ⟨h, h1, h2⟩ | ⟨k, h, h1, h1', h2⟩
  · exact ⟨0, 0, 0, 1, h2, h, h, le_refl _, zero_le_one, by simp⟩
  · exact ⟨_, _, 1, 0, h2, h, h, zero_le_one, le_refl _, by simp⟩
  · have hpos : 0 < v - xs[k] + (xs[k + 1] - v) := by
      have := sorted_lt hs (Nat.lt_succ_self k) h
      linarith
    refine ⟨k, k + 1, _, _, h2, by omega, h, ?_, ?_, ?_⟩
    · exact div_nonneg (by linarith) hpos.le
    · exact div_nonneg (by linarith) hpos.le
    · rw [← add_div, add_comm, div_self hpos.ne']

/-- C59: node values are reproduced. -/
theorem C59_at_node (f : Linear α) (hs : f.xNodes.Pairwise (· < ·))
    (hlen : f.yNodes.length = f.xNodes.length) (i : Nat) (hi : i < f.xNodes.length) :
    f.valueAt f.xNodes[i] = .ok (f.yNodes[i]'(by omega)) := by
  obtain ⟨xs, ys⟩ := f
  simp only at hs hlen hi ⊢
  have hne : xs ≠ [] := by rintro rfl; simp at hi
  unfold Linear.valueAt
  rcases interp_cases xs ys xs[i] hne (strict_sorted hs) hlen with
    ⟨h, h1, h2⟩ | ⟨h, h1, h2⟩ | ⟨k, h, h1, h1', h2⟩
  · exact absurd h1 (not_lt.mpr (sorted_le (strict_sorted hs) (Nat.zero_le i) hi))
  · have : i = xs.length - 1 := by
      by_contra hc
      exact absurd h1 (not_le.mpr (sorted_lt hs (show i < xs.length - 1 by omega) h))
    subst this
    exact h2
  · have hik : i = k := by
      rcases Nat.lt_trichotomy i k with hlt | heq | hgt
      · exact absurd h1 (not_le.mpr (sorted_lt hs hlt (by omega)))
      · exact heq
      · exact absurd h1' (not_lt.mpr (sorted_le (strict_sorted hs) hgt hi))
    subst hik
    rw [show bisearchInterp xs ys xs[i] = _ from h2]
    have hpos : xs[i + 1] - xs[i] ≠ 0 := by
      have := sorted_lt hs (Nat.lt_succ_self i) h
      exact (sub_pos.mpr this).ne'
    rw [sub_self, zero_div, mul_zero, add_zero, div_self hpos, mul_one]

/-- C59: left of the first node the first value, at or right of the last node the last value. -/
theorem C59_outside (f : Linear α) (hs : f.xNodes.Pairwise (· < ·))
    (hlen : f.yNodes.length = f.xNodes.length) (hx : f.xNodes ≠ []) (hy : f.yNodes ≠ []) (v : α) :
    (v ≤ f.xNodes.head hx → f.valueAt v = .ok (f.yNodes.head hy)) ∧
    (f.xNodes.getLast hx ≤ v → f.valueAt v = .ok (f.yNodes.getLast hy)) := by
  have hn : 0 < f.xNodes.length := List.length_pos_iff.mpr hx
  constructor
  · intro hv
    rcases eq_or_lt_of_le hv with h | h
    · have := C59_at_node f hs hlen 0 hn
      rw [h, List.head_eq_getElem, this, List.head_eq_getElem]
    · rcases interp_cases f.xNodes f.yNodes v hx (strict_sorted hs) hlen with
        ⟨_, _, h2⟩ | ⟨hl, h1, _⟩ | ⟨k, hk, h1, _, _⟩
      · unfold Linear.valueAt; rw [h2, List.head_eq_getElem]
      · have := sorted_le (strict_sorted hs) (Nat.zero_le _) hl
        rw [List.head_eq_getElem] at h
        exact absurd (lt_of_lt_of_le h this) (not_lt.mpr h1)
      · have := sorted_le (strict_sorted hs) (Nat.zero_le k) (by omega : k < f.xNodes.length)
        rw [List.head_eq_getElem] at h
        exact absurd (lt_of_lt_of_le h this) (not_lt.mpr h1)
  · intro hv
    rw [List.getLast_eq_getElem] at hv
    rcases interp_cases f.xNodes f.yNodes v hx (strict_sorted hs) hlen with
      ⟨hl, h1, h2⟩ | ⟨hl, h1, h2⟩ | ⟨k, hk, h1, h1', _⟩
    · have := sorted_le (strict_sorted hs) (Nat.zero_le (f.xNodes.length - 1)) (by omega)
      exact absurd (le_trans this hv) (not_le.mpr h1)
    · unfold Linear.valueAt; rw [h2, List.getLast_eq_getElem]
      simp only [hlen]
    · have := sorted_le (strict_sorted hs) (show k + 1 ≤ f.xNodes.length - 1 by omega) (by omega)
      exact absurd (le_trans this hv) (not_le.mpr h1')

/-- C59: inside, the value is the chord through the two bracketing nodes. -/
theorem C59_inside (f : Linear α) (hs : f.xNodes.Pairwise (· < ·))
    (hlen : f.yNodes.length = f.xNodes.length) (k : Nat) (hk : k + 1 < f.xNodes.length) (v : α)
    (h0 : f.xNodes[k] ≤ v) (h1 : v ≤ f.xNodes[k + 1]) :
    f.valueAt v = .ok (f.yNodes[k]'(by omega) + (f.yNodes[k + 1]'(by omega) - f.yNodes[k]'(by omega))
        * (v - f.xNodes[k]) / (f.xNodes[k + 1] - f.xNodes[k])) := by
  have hpos : 0 < f.xNodes[k + 1] - f.xNodes[k] :=
    sub_pos.mpr (sorted_lt hs (Nat.lt_succ_self k) hk)
  rcases eq_or_lt_of_le h1 with h | h
  · rw [h, C59_at_node f hs hlen (k + 1) hk, mul_div_assoc, div_self hpos.ne']
    congr 1; ring
  · have hx : f.xNodes ≠ [] := by intro h; simp [h] at hk
    rcases interp_cases f.xNodes f.yNodes v hx (strict_sorted hs) hlen with
      ⟨_, g1, _⟩ | ⟨hl, g1, _⟩ | ⟨k', hk', g1, g1', g2⟩
    · have := sorted_le (strict_sorted hs) (Nat.zero_le k) (by omega : k < f.xNodes.length)
      exact absurd (le_trans this h0) (not_le.mpr g1)
    · have := sorted_le (strict_sorted hs) (show k + 1 ≤ f.xNodes.length - 1 by omega) (by omega)
      exact absurd (lt_of_lt_of_le h this) (not_lt.mpr g1)
    · have hkk : k = k' := by
        rcases Nat.lt_trichotomy k k' with hlt | heq | hgt
        · have := sorted_le (strict_sorted hs) hlt (by omega : k' < f.xNodes.length)
          exact absurd (lt_of_lt_of_le h this) (not_lt.mpr g1)
        · exact heq
        · have := sorted_le (strict_sorted hs) hgt (by omega : k < f.xNodes.length)
          exact absurd (le_trans this h0) (not_le.mpr g1')
      subst hkk
      unfold Linear.valueAt
      rw [g2]
      congr 1
      field_simp
      ring

/-- C59: between two neighbouring nodes the value lies between the two node values. -/
theorem C59_between_neighbours (f : Linear α) (hs : f.xNodes.Pairwise (· < ·))
    (hlen : f.yNodes.length = f.xNodes.length) (k : Nat) (hk : k + 1 < f.xNodes.length) (v : α)
    (h0 : f.xNodes[k] ≤ v) (h1 : v ≤ f.xNodes[k + 1]) :
    ∃ r, f.valueAt v = .ok r ∧
      min (f.yNodes[k]'(by omega)) (f.yNodes[k + 1]'(by omega)) ≤ r ∧
      r ≤ max (f.yNodes[k]'(by omega)) (f.yNodes[k + 1]'(by omega)) := by
  refine ⟨_, C59_inside f hs hlen k hk v h0 h1, ?_⟩
  have hpos : 0 < f.xNodes[k + 1] - f.xNodes[k] :=
    sub_pos.mpr (sorted_lt hs (Nat.lt_succ_self k) hk)
  have w2 : 0 ≤ (v - f.xNodes[k]) / (f.xNodes[k + 1] - f.xNodes[k]) :=
    div_nonneg (by linarith) hpos.le
  have w1 : (v - f.xNodes[k]) / (f.xNodes[k + 1] - f.xNodes[k]) ≤ 1 :=
    (div_le_one hpos).mpr (by linarith)
  have := convex_mem (a := f.yNodes[k]'(by omega)) (b := f.yNodes[k + 1]'(by omega))
    (sub_nonneg.mpr w1) w2 (by ring) ⟨min_le_left _ _, le_max_left _ _⟩
    ⟨min_le_right _ _, le_max_right _ _⟩
  rw [mul_div_assoc]
  constructor
  · refine le_trans this.1 (le_of_eq ?_); ring
  · refine le_trans (le_of_eq ?_) this.2; ring

/-- C59: the value never leaves the range of the data, inside or outside the nodes. -/
theorem C59_between (f : Linear α) (hs : f.xNodes.Pairwise (· < ·)) (hx : f.xNodes ≠ [])
    (hlen : f.yNodes.length = f.xNodes.length) (v lo hi : α)
    (hb : ∀ y ∈ f.yNodes, lo ≤ y ∧ y ≤ hi) :
    ∃ r, f.valueAt v = .ok r ∧ lo ≤ r ∧ r ≤ hi := by
  rcases interp_cases f.xNodes f.yNodes v hx (strict_sorted hs) hlen with
    ⟨_, _, h2⟩ | ⟨_, _, h2⟩ | ⟨k, hk, g1, g1', g2⟩
  · exact ⟨_, h2, (hb _ (List.getElem_mem _)).1, (hb _ (List.getElem_mem _)).2⟩
  · exact ⟨_, h2, (hb _ (List.getElem_mem _)).1, (hb _ (List.getElem_mem _)).2⟩
  · refine ⟨_, g2, ?_⟩
    have hpos : 0 < f.xNodes[k + 1] - f.xNodes[k] :=
      sub_pos.mpr (sorted_lt hs (Nat.lt_succ_self k) hk)
    obtain ⟨a1, a2⟩ := hb (f.yNodes[k]'(by omega)) (List.getElem_mem _)
    obtain ⟨b1, b2⟩ := hb (f.yNodes[k + 1]'(by omega)) (List.getElem_mem _)
    have w1 : 0 ≤ (f.xNodes[k + 1] - v) / (f.xNodes[k + 1] - f.xNodes[k]) :=
      div_nonneg (by linarith) hpos.le
    have w2 : 0 ≤ (v - f.xNodes[k]) / (f.xNodes[k + 1] - f.xNodes[k]) :=
      div_nonneg (by linarith) hpos.le
    have ws : (f.xNodes[k + 1] - v) / (f.xNodes[k + 1] - f.xNodes[k]) +
        (v - f.xNodes[k]) / (f.xNodes[k + 1] - f.xNodes[k]) = 1 := by
      rw [← add_div]; rw [show f.xNodes[k + 1] - v + (v - f.xNodes[k])
        = f.xNodes[k + 1] - f.xNodes[k] by ring, div_self hpos.ne']
    generalize (f.xNodes[k + 1] - v) / (f.xNodes[k + 1] - f.xNodes[k]) = p at *
    generalize (v - f.xNodes[k]) / (f.xNodes[k + 1] - f.xNodes[k]) = q at *
    exact convex_mem w1 w2 ws ⟨a1, a2⟩ ⟨b1, b2⟩

/-- C59: data sampled from an affine function is reproduced exactly within the node range. -/
theorem C59_affine (f : Linear α) (hs : f.xNodes.Pairwise (· < ·)) (hx : f.xNodes ≠ [])
    (a b : α) (hy : f.yNodes = f.xNodes.map (fun x => a * x + b)) (v : α)
    (h0 : f.xNodes.head hx ≤ v) (h1 : v ≤ f.xNodes.getLast hx) :
    f.valueAt v = .ok (a * v + b) := by
  have hlen : f.yNodes.length = f.xNodes.length := by simp [hy]
  have hn : 0 < f.xNodes.length := List.length_pos_iff.mpr hx
  rcases interp_cases f.xNodes f.yNodes v hx (strict_sorted hs) hlen with
    ⟨_, g1, _⟩ | ⟨_, g1, g2⟩ | ⟨k, hk, g1, g1', g2⟩
  · rw [List.head_eq_getElem] at h0; exact absurd h0 (not_le.mpr g1)
  · rw [List.getLast_eq_getElem] at h1
    have hv := le_antisymm h1 g1
    unfold Linear.valueAt; rw [g2]
    simp [hy, hv]
  · have hpos : 0 < f.xNodes[k + 1] - f.xNodes[k] :=
      sub_pos.mpr (sorted_lt hs (Nat.lt_succ_self k) hk)
    unfold Linear.valueAt; rw [g2]
    simp only [hy, List.getElem_map]
    congr 1
    field_simp
    ring

/-- C59: non-decreasing data give a non-decreasing interpolant. -/
theorem C59_monotone (f : Linear α) (hs : f.xNodes.Pairwise (· < ·)) (hx : f.xNodes ≠ [])
    (hlen : f.yNodes.length = f.xNodes.length) (hy : f.yNodes.Pairwise (· ≤ ·)) (u v a b : α)
    (huv : u ≤ v) (hu : f.valueAt u = .ok a) (hv : f.valueAt v = .ok b) : a ≤ b := by
  have hn : 0 < f.xNodes.length := List.length_pos_iff.mpr hx
  -- a value lies between the bracketing node values
  have br : ∀ k (hk : k + 1 < f.xNodes.length) (t : α), f.xNodes[k] ≤ t → t < f.xNodes[k + 1] →
      f.yNodes[k]'(by omega) ≤ f.yNodes[k]'(by omega) *
          ((f.xNodes[k + 1] - t) / (f.xNodes[k + 1] - f.xNodes[k])) +
         f.yNodes[k + 1]'(by omega) * ((t - f.xNodes[k]) / (f.xNodes[k + 1] - f.xNodes[k])) ∧
      f.yNodes[k]'(by omega) * ((f.xNodes[k + 1] - t) / (f.xNodes[k + 1] - f.xNodes[k])) +
         f.yNodes[k + 1]'(by omega) * ((t - f.xNodes[k]) / (f.xNodes[k + 1] - f.xNodes[k]))
         ≤ f.yNodes[k + 1]'(by omega) := by
    intro k hk t h1 h2
    have hpos : 0 < f.xNodes[k + 1] - f.xNodes[k] :=
      sub_pos.mpr (sorted_lt hs (Nat.lt_succ_self k) hk)
    have hyy : f.yNodes[k]'(by omega) ≤ f.yNodes[k + 1]'(by omega) :=
      sorted_le hy (Nat.le_succ k) (by omega)
    have w1 : 0 ≤ (f.xNodes[k + 1] - t) / (f.xNodes[k + 1] - f.xNodes[k]) :=
      div_nonneg (by linarith) hpos.le
    have w2 : 0 ≤ (t - f.xNodes[k]) / (f.xNodes[k + 1] - f.xNodes[k]) :=
      div_nonneg (by linarith) hpos.le
    have ws : (f.xNodes[k + 1] - t) / (f.xNodes[k + 1] - f.xNodes[k]) +
        (t - f.xNodes[k]) / (f.xNodes[k + 1] - f.xNodes[k]) = 1 := by
      rw [← add_div]; rw [show f.xNodes[k + 1] - t + (t - f.xNodes[k])
        = f.xNodes[k + 1] - f.xNodes[k] by ring, div_self hpos.ne']
    generalize (f.xNodes[k + 1] - t) / (f.xNodes[k + 1] - f.xNodes[k]) = p at *
    generalize (t - f.xNodes[k]) / (f.xNodes[k + 1] - f.xNodes[k]) = q at *
    exact convex_mem w1 w2 ws ⟨le_refl _, hyy⟩ ⟨hyy, le_refl _⟩
  unfold Linear.valueAt at hu hv
  rcases interp_cases f.xNodes f.yNodes u hx (strict_sorted hs) hlen with
    ⟨_, u1, u2⟩ | ⟨_, u1, u2⟩ | ⟨k, hk, u1, u1', u2⟩ <;>
  rcases interp_cases f.xNodes f.yNodes v hx (strict_sorted hs) hlen with
    ⟨_, v1, v2⟩ | ⟨_, v1, v2⟩ | ⟨m, hm, v1, v1', v2⟩ <;>
  rw [u2] at hu <;> rw [v2] at hv <;> cases hu <;> cases hv
  · exact le_refl _
  · exact sorted_le hy (Nat.zero_le _) _
  · exact le_trans (sorted_le hy (Nat.zero_le m) (by omega)) (br m hm v v1 v1').1
  · have := sorted_le (strict_sorted hs) (Nat.zero_le (f.xNodes.length - 1)) (by omega)
    exact absurd (le_trans this (le_trans u1 huv)) (not_le.mpr v1)
  · exact le_refl _
  · have := sorted_le (strict_sorted hs) (show m + 1 ≤ f.xNodes.length - 1 by omega) (by omega)
    exact absurd (le_trans this (le_trans u1 huv)) (not_le.mpr v1')
  · have := sorted_le (strict_sorted hs) (Nat.zero_le k) (by omega : k < f.xNodes.length)
    exact absurd (le_trans this (le_trans u1 huv)) (not_le.mpr v1)
  · exact le_trans (br k hk u u1 u1').2 (sorted_le hy (show k + 1 ≤ f.xNodes.length - 1 by omega) (by omega))
  · rcases Nat.lt_trichotomy k m with h | h | h
    · exact le_trans (br k hk u u1 u1').2 (le_trans (sorted_le hy h (by omega)) (br m hm v v1 v1').1)
    · subst h
      have hpos : 0 < f.xNodes[k + 1] - f.xNodes[k] :=
        sub_pos.mpr (sorted_lt hs (Nat.lt_succ_self k) hk)
      have hyy : f.yNodes[k]'(by omega) ≤ f.yNodes[k + 1]'(by omega) :=
        sorted_le hy (Nat.le_succ k) (by omega)
      rw [← mul_div_assoc, ← mul_div_assoc, ← add_div, ← mul_div_assoc, ← mul_div_assoc, ← add_div]
      apply div_le_div_of_nonneg_right _ hpos.le
      nlinarith [mul_nonneg (sub_nonneg.mpr huv) (sub_nonneg.mpr hyy)]
    · have := sorted_le (strict_sorted hs) (show m + 1 ≤ k from h) (by omega : k < f.xNodes.length)
      exact absurd (le_trans this (le_trans u1 huv)) (not_le.mpr v1')

/-- A concrete strictly increasing node set with monotone data. -/
example : ([0, 1, 3] : List ℚ).Pairwise (· < ·) ∧ ([0, 1, 3] : List ℚ) ≠ [] ∧
    ([2, 5, 5] : List ℚ).Pairwise (· ≤ ·) ∧ ([2, 5, 5] : List ℚ).length = ([0, 1, 3] : List ℚ).length := by
  refine ⟨by norm_num, by simp, by norm_num, rfl⟩

end C59

section C60
variable {α : Type} [Field α] [LinearOrder α]

/-- Slope of the data between nodes `i` and `j`. -/
def slope (xs ys : List α) (i j : Nat) (hi : i < xs.length) (hj : j < xs.length)
    (hi' : i < ys.length) (hj' : j < ys.length) : α :=
  (ys[j] - ys[i]) / (xs[j] - xs[i])

/-- C60: the derivative has the same nodes, one value per node: a one-sided slope at the two
ends and the central slope at inner nodes. -/
theorem C60_derivative (f : Linear α) (hn : 2 ≤ f.xNodes.length)
    (hlen : f.yNodes.length = f.xNodes.length) :
    ∃ g, f.derivative = .ok g ∧ g.xNodes = f.xNodes ∧
      ∃ hg : g.yNodes.length = f.xNodes.length,
      (g.yNodes[0]'(by omega) = slope f.xNodes f.yNodes 0 1 (by omega) (by omega) (by omega) (by omega)) ∧
      (g.yNodes[f.xNodes.length - 1]'(by omega)
        = slope f.xNodes f.yNodes (f.xNodes.length - 2) (f.xNodes.length - 1)
            (by omega) (by omega) (by omega) (by omega)) ∧
      (∀ i (h0 : 0 < i) (h : i + 1 < f.xNodes.length), g.yNodes[i]'(by omega)
        = slope f.xNodes f.yNodes (i - 1) (i + 1) (by omega) (by omega) (by omega) (by omega)) := by
  obtain ⟨xs, ys⟩ := f
  simp only at hn hlen ⊢
  -- value of the loop body at every index
  let val : Nat → α := fun i =>
    if h : i < xs.length then
      if i = 0 then slope xs ys 0 1 (by omega) (by omega) (by omega) (by omega)
      else if h' : i + 1 = xs.length then
        slope xs ys (xs.length - 2) (xs.length - 1) (by omega) (by omega) (by omega) (by omega)
      else slope xs ys (i - 1) (i + 1) (by omega) (by omega) (by omega) (by omega)
    else 0
  have body : ∀ i, i < xs.length → derivAt xs ys xs.length i = .ok (val i) := by
    intro i hi
    have gx : ∀ j (h : j < xs.length), pyGet xs (j : Int) = .ok xs[j] := fun j h => pyGet_ofNat _ _ h
    have gy : ∀ j (h : j < ys.length), pyGet ys (j : Int) = .ok ys[j] := fun j h => pyGet_ofNat _ _ h
    by_cases h0 : i = 0
    · subst h0
      have a := gx 0 (by omega); have b := gx 1 (by omega)
      have c := gy 0 (by omega); have d := gy 1 (by omega)
      simp only [Nat.cast_zero, Nat.cast_one] at a b c d
      simp [derivAt, val, hi, a, b, c, d, slope]
    · by_cases h1 : i + 1 = xs.length
      · have a := gx (xs.length - 2) (by omega); have b := gx (xs.length - 1) (by omega)
        have c := gy (xs.length - 2) (by omega); have d := gy (xs.length - 1) (by omega)
        have e2 : ((xs.length - 2 : Nat) : Int) = (xs.length : Int) - 2 := by omega
        have e1 : ((xs.length - 1 : Nat) : Int) = (xs.length : Int) - 1 := by omega
        rw [e2] at a c; rw [e1] at b d
        have hc1 : ¬ ((i : Int) - 1 = -1) := by omega
        have hc2 : ((i : Int) + 1 = (xs.length : Int)) := by omega
        simp only [derivAt, if_neg hc1, if_pos hc2, a, b, c, d, Except.bind_ok, Except.pure_ok]
        simp [val, hi, h0, h1, slope]
      · have a := gx (i - 1) (by omega); have b := gx (i + 1) (by omega)
        have c := gy (i - 1) (by omega); have d := gy (i + 1) (by omega)
        have e2 : ((i - 1 : Nat) : Int) = (i : Int) - 1 := by omega
        have e1 : ((i + 1 : Nat) : Int) = (i : Int) + 1 := by omega
        rw [e2] at a c; rw [e1] at b d
        have hc1 : ¬ ((i : Int) - 1 = -1) := by omega
        have hc2 : ¬ ((i : Int) + 1 = (xs.length : Int)) := by omega
        simp only [derivAt, if_neg hc1, if_neg hc2, a, b, c, d, Except.bind_ok, Except.pure_ok]
        simp [val, hi, h0, h1, slope]
  have hmap : ∀ l : List Nat, (∀ i ∈ l, i < xs.length) →
      l.mapM (derivAt xs ys xs.length) = .ok (l.map val) := by
    intro l
    induction l with
    | nil => intro _; rfl
    | cons i l ih =>
        intro h
        simp only [List.mapM_cons, body i (h i (by simp)), Except.bind_ok,
          ih (fun j hj => h j (by simp [hj])), Except.pure_ok, List.map_cons]
  refine ⟨⟨xs, (List.range xs.length).map val⟩, ?_, rfl, by simp, ?_, ?_, ?_⟩
  · simp only [Linear.derivative, hmap (List.range xs.length) (by simp), Except.bind_ok]
    simp [Linear.init, pyAssert, hn]
  · simp only [List.getElem_map, List.getElem_range]
    have : 0 < xs.length := by omega
    simp [val, this]
  · simp only [List.getElem_map, List.getElem_range]
    have h1 : xs.length - 1 < xs.length := by omega
    have h2 : ¬ (xs.length - 1 = 0) := by omega
    have h3 : xs.length - 1 + 1 = xs.length := by omega
    simp only [val, h1, h2, h3, dif_pos, if_false]
  · intro i h0 h
    simp only [List.getElem_map, List.getElem_range]
    have h1 : i < xs.length := by omega
    have h2 : ¬ (i = 0) := by omega
    have h3 : ¬ (i + 1 = xs.length) := by omega
    simp [val, h1, h2, h3]

/-- C60: for affine data every derivative value is the slope. -/
theorem C60_derivative_affine [IsStrictOrderedRing α] (f : Linear α) (hn : 2 ≤ f.xNodes.length)
    (hs : f.xNodes.Pairwise (· < ·)) (a b : α)
    (hy : f.yNodes = f.xNodes.map (fun x => a * x + b)) (v : α) :
    ∃ g, f.derivative = .ok g ∧ (∀ y ∈ g.yNodes, y = a) ∧ g.valueAt v = .ok a := by
  have hlen : f.yNodes.length = f.xNodes.length := by simp [hy]
  obtain ⟨g, h1, h2, h3, h4, h5, h6⟩ := C60_derivative f hn hlen
  have hsl : ∀ i j (hi : i < f.xNodes.length) (hj : j < f.xNodes.length), i < j →
      slope f.xNodes f.yNodes i j hi hj (by omega) (by omega) = a := by
    intro i j hi hj hij
    have hpos := sub_pos.mpr (sorted_lt hs hij hj)
    simp only [slope, hy, List.getElem_map]
    field_simp
    ring
  have hall : ∀ y ∈ g.yNodes, y = a := by
    intro y hmem
    obtain ⟨i, hi, rfl⟩ := List.getElem_of_mem hmem
    by_cases c0 : i = 0
    · subst c0; rw [h4, hsl _ _ _ _ (by omega)]
    · by_cases c1 : i + 1 = f.xNodes.length
      · have : i = f.xNodes.length - 1 := by omega
        subst this; rw [h5, hsl _ _ _ _ (by omega)]
      · rw [h6 i (by omega) (by omega), hsl _ _ _ _ (by omega)]
  refine ⟨g, h1, hall, ?_⟩
  have hx : g.xNodes ≠ [] := by rw [h2]; intro h; rw [h] at hn; simp at hn
  obtain ⟨r, hr, hlo, hhi⟩ := C59_between g (by rw [h2]; exact hs) hx (by rw [h3, h2]) v a a
    (fun y hy => by rw [hall y hy]; exact ⟨le_refl _, le_refl _⟩)
  rw [hr, le_antisymm hhi hlo]

example : ∃ f : Linear ℚ, 2 ≤ f.xNodes.length ∧ f.xNodes.Pairwise (· < ·) ∧
    f.yNodes = f.xNodes.map (fun x => 3 * x + 1) :=
  ⟨⟨[0, 1, 4], [1, 4, 13]⟩, by simp, by norm_num, by norm_num⟩

end C60

section C61
variable {α : Type} [Field α] [LinearOrder α]

theorem get2_ok (y : List (List α)) (i j : Nat) (hi : i < y.length) (hj : j < y[i].length) :
    get2 y (i : Int) (j : Int) = .ok y[i][j] := by
  simp [get2, pyGet_ofNat _ _ hi, pyGet_ofNat _ _ hj]

/-- The weights as natural-number indices (helper). -/
theorem weight_nat (xs : List α) (v : α) (hne : xs ≠ []) (hs : xs.Pairwise (· < ·)) :
    ∃ l r : Nat, ∃ wl wr : α,
      bisearchInterpWeight xs v = .ok ((l : Int), (r : Int), wl, wr) ∧
      l < xs.length ∧ r < xs.length := by
  rcases interpWeight_cases xs v hne (strict_sorted hs) with
    ⟨h, h1, h2⟩ | ⟨h, h1, h2⟩ | ⟨k, h, h1, h1', h2⟩
  · exact ⟨0, 0, 0, 1, h2, h, h⟩
  · exact ⟨_, _, 1, 0, h2, h, h⟩
  · exact ⟨k, k + 1, _, _, h2, by omega, h⟩

/-- C61: 2-d interpolation equals interpolating every row along the second axis and then the
resulting column along the first axis. -/
theorem C61_rows_first (xs1 xs2 : List α) (y : List (List α)) (v1 v2 : α)
    (hne1 : xs1 ≠ []) (hs1 : xs1.Pairwise (· < ·)) (hne2 : xs2 ≠ []) (hs2 : xs2.Pairwise (· < ·))
    (hy : y.length = xs1.length) (hrow : ∀ row ∈ y, row.length = xs2.length) :
    ∃ col : List α, y.mapM (fun row => bisearchInterp xs2 row v2) = .ok col ∧
      bisearchInterp2d xs1 xs2 y v1 v2 = bisearchInterp xs1 col v1 := by
  obtain ⟨l1, r1, w1l, w1r, e1, hl1, hr1⟩ := weight_nat xs1 v1 hne1 hs1
  obtain ⟨l2, r2, w2l, w2r, e2, hl2, hr2⟩ := weight_nat xs2 v2 hne2 hs2
  have hri : ∀ i (h : i < y.length), y[i].length = xs2.length := fun i h => hrow _ (List.getElem_mem h)
  have rowval : ∀ row ∈ y, bisearchInterp xs2 row v2
      = .ok (row.getD l2 0 * w2l + row.getD r2 0 * w2r) := by
    intro row hr
    have hl := hrow row hr
    have a := pyGet_ofNat row l2 (by omega)
    have b := pyGet_ofNat row r2 (by omega)
    simp only [bisearchInterp, e2, Except.bind_ok, a, b, Except.pure_ok]
    rw [getD_lt _ _ _ (by omega), getD_lt _ _ _ (by omega)]
  have hmap : ∀ l : List (List α), (∀ row ∈ l, row ∈ y) →
      l.mapM (fun row => bisearchInterp xs2 row v2)
        = .ok (l.map (fun row => row.getD l2 0 * w2l + row.getD r2 0 * w2r)) := by
    intro l
    induction l with
    | nil => intro _; rfl
    | cons i l ih =>
        intro h
        simp only [List.mapM_cons, rowval i (h i (by simp)), Except.bind_ok,
          ih (fun j hj => h j (by simp [hj])), Except.pure_ok, List.map_cons]
  refine ⟨_, hmap y (fun _ h => h), ?_⟩
  have c1 : ∀ k (h : k < y.length), pyGet (y.map (fun row => row.getD l2 0 * w2l + row.getD r2 0 * w2r)) (k : Int)
      = .ok (y[k].getD l2 0 * w2l + y[k].getD r2 0 * w2r) := by
    intro k h
    rw [pyGet_ofNat _ _ (by simpa using h)]; simp
  have g := fun i j (hi : i < xs1.length) (hj : j < xs2.length) =>
    get2_ok y i j (by omega) (by rw [hri]; exact hj)
  simp only [bisearchInterp2d, e1, e2, Except.bind_ok, bisearchInterp, c1 l1 (by omega),
    c1 r1 (by omega), g l1 l2 hl1 hl2, g l1 r2 hl1 hr2, g r1 l2 hr1 hl2, g r1 r2 hr1 hr2,
    Except.pure_ok]
  have hA := hri l1 (by omega)
  have hB := hri r1 (by omega)
  rw [getD_lt _ _ _ (by omega), getD_lt _ _ _ (by omega),
    getD_lt _ _ _ (by omega), getD_lt _ _ _ (by omega)]
  congr 1
  ring

/-- C61: it is also the interpolation along the first axis of every column followed by the second
axis: transposing the table and swapping the axes gives the same value. -/
theorem C61_transpose (xs1 xs2 : List α) (y yt : List (List α)) (v1 v2 : α)
    (hne1 : xs1 ≠ []) (hs1 : xs1.Pairwise (· < ·)) (hne2 : xs2 ≠ []) (hs2 : xs2.Pairwise (· < ·))
    (hy : y.length = xs1.length) (hrow : ∀ row ∈ y, row.length = xs2.length)
    (hyt : yt.length = xs2.length) (hrowt : ∀ row ∈ yt, row.length = xs1.length)
    (htr : ∀ i j (_ : i < xs1.length) (_ : j < xs2.length),
      get2 y (i : Int) (j : Int) = get2 yt (j : Int) (i : Int)) :
    bisearchInterp2d xs1 xs2 y v1 v2 = bisearchInterp2d xs2 xs1 yt v2 v1 := by
  obtain ⟨l1, r1, w1l, w1r, e1, hl1, hr1⟩ := weight_nat xs1 v1 hne1 hs1
  obtain ⟨l2, r2, w2l, w2r, e2, hl2, hr2⟩ := weight_nat xs2 v2 hne2 hs2
  have hri : ∀ i (h : i < yt.length), yt[i].length = xs1.length :=
    fun i h => hrowt _ (List.getElem_mem h)
  have g := fun j i (hj : j < xs2.length) (hi : i < xs1.length) =>
    get2_ok yt j i (by omega) (by rw [hri]; exact hi)
  simp only [bisearchInterp2d, e1, e2, Except.bind_ok, htr _ _ hl1 hl2, htr _ _ hl1 hr2,
    htr _ _ hr1 hl2, htr _ _ hr1 hr2, g l2 l1 hl2 hl1, g r2 l1 hr2 hl1, g l2 r1 hl2 hr1,
    g r2 r1 hr2 hr1, Except.pure_ok]
  congr 1
  ring

/-- C61: node values of the table are reproduced. -/
theorem C61_at_node [IsStrictOrderedRing α] (xs1 xs2 : List α) (y : List (List α))
    (hs1 : xs1.Pairwise (· < ·)) (hs2 : xs2.Pairwise (· < ·))
    (hy : y.length = xs1.length) (hrow : ∀ row ∈ y, row.length = xs2.length) (i j : Nat)
    (hi : i < xs1.length) (hj : j < xs2.length) :
    bisearchInterp2d xs1 xs2 y xs1[i] xs2[j] = .ok ((y[i]'(by omega))[j]'(by
      rw [hrow _ (List.getElem_mem _)]; exact hj)) := by
  have hne1 : xs1 ≠ [] := by rintro rfl; simp at hi
  have hne2 : xs2 ≠ [] := by rintro rfl; simp at hj
  obtain ⟨col, h1, h2⟩ := C61_rows_first xs1 xs2 y xs1[i] xs2[j] hne1 hs1 hne2 hs2 hy hrow
  have hrowval : ∀ row ∈ y, ∀ h : j < row.length, bisearchInterp xs2 row xs2[j] = .ok row[j] :=
    fun row hr h => C59_at_node ⟨xs2, row⟩ hs2 (hrow row hr) j hj
  -- column entries are the node values
  have hcol : ∀ (l : List (List α)) (c : List α), (∀ row ∈ l, row ∈ y) →
      l.mapM (fun row => bisearchInterp xs2 row xs2[j]) = .ok c →
      c = l.map (fun row => row.getD j 0) := by
    intro l
    induction l with
    | nil => intro c _ h; simp at h; simp [h]
    | cons r l ih =>
        intro c h hc
        have hrl := hrow r (h r (by simp))
        simp only [List.mapM_cons, hrowval r (h r (by simp)) (by omega), Except.bind_ok] at hc
        cases hm : l.mapM (fun row => bisearchInterp xs2 row xs2[j]) with
        | error e => rw [hm] at hc; simp at hc
        | ok c' =>
            rw [hm] at hc
            simp only [Except.bind_ok, Except.pure_ok, Except.ok.injEq] at hc
            rw [← hc, ih c' (fun q hq => h q (by simp [hq])) hm]
            simp only [List.map_cons]
            rw [getD_lt _ _ _ (by omega)]
  have hc := hcol y col (fun _ h => h) h1
  rw [h2]
  have := C59_at_node ⟨xs1, col⟩ hs1 (by simp [hc, hy]) i hi
  unfold Linear.valueAt at this
  simp only at this
  rw [this]
  subst hc
  have hl : (y[i]'(by omega)).length = xs2.length := hrow _ (List.getElem_mem _)
  simp only [List.getElem_map]
  rw [getD_lt _ _ _ (by omega)]

/-- C61: the 2-d value never leaves the range of the table. -/
theorem C61_between [IsStrictOrderedRing α] (xs1 xs2 : List α) (y : List (List α)) (v1 v2 lo hi : α)
    (hne1 : xs1 ≠ []) (hs1 : xs1.Pairwise (· < ·)) (hne2 : xs2 ≠ []) (hs2 : xs2.Pairwise (· < ·))
    (hy : y.length = xs1.length) (hrow : ∀ row ∈ y, row.length = xs2.length)
    (hb : ∀ row ∈ y, ∀ a ∈ row, lo ≤ a ∧ a ≤ hi) :
    ∃ r, bisearchInterp2d xs1 xs2 y v1 v2 = .ok r ∧ lo ≤ r ∧ r ≤ hi := by
  obtain ⟨col, h1, h2⟩ := C61_rows_first xs1 xs2 y v1 v2 hne1 hs1 hne2 hs2 hy hrow
  have hcol : ∀ (l : List (List α)) (c : List α), (∀ row ∈ l, row ∈ y) →
      l.mapM (fun row => bisearchInterp xs2 row v2) = .ok c →
      c.length = l.length ∧ ∀ a ∈ c, lo ≤ a ∧ a ≤ hi := by
    intro l
    induction l with
    | nil => intro c _ h; simp at h; subst h; simp
    | cons r l ih =>
        intro c h hc
        have hr := h r (by simp)
        obtain ⟨q, hq, hq1⟩ := C59_between ⟨xs2, r⟩ hs2 hne2 (hrow r hr) v2 lo hi (hb r hr)
        unfold Linear.valueAt at hq
        simp only at hq
        simp only [List.mapM_cons, hq, Except.bind_ok] at hc
        cases hm : l.mapM (fun row => bisearchInterp xs2 row v2) with
        | error e => rw [hm] at hc; simp at hc
        | ok c' =>
            rw [hm] at hc
            simp only [Except.bind_ok, Except.pure_ok, Except.ok.injEq] at hc
            obtain ⟨ih1, ih2⟩ := ih c' (fun q hq => h q (by simp [hq])) hm
            rw [← hc]
            refine ⟨by simp [ih1], ?_⟩
            intro a ha
            rcases List.mem_cons.mp ha with rfl | ha
            · exact hq1
            · exact ih2 a ha
  obtain ⟨hc1, hc2⟩ := hcol y col (fun _ h => h) h1
  rw [h2]
  exact C59_between ⟨xs1, col⟩ hs1 hne1 (by simp only; omega) v1 lo hi hc2

/-- C61: `bisearch_interp_fix_oob` uses the given values strictly outside the nodes and the
interpolant inside (both ends included). -/
theorem C61_fix_oob (xs ys : List α) (v yl yr : α) (hne : xs ≠ []) (hs : xs.Pairwise (· ≤ ·)) :
    (v < xs.head hne → bisearchInterpFixOob xs ys v yl yr = .ok yl) ∧
    (xs.getLast hne < v → bisearchInterpFixOob xs ys v yl yr = .ok yr) ∧
    (xs.head hne ≤ v → v ≤ xs.getLast hne →
      bisearchInterpFixOob xs ys v yl yr = bisearchInterp xs ys v) := by
  have hn : 0 < xs.length := List.length_pos_iff.mpr hne
  have a : pyGet xs 0 = .ok (xs.head hne) := by
    have := pyGet_ofNat xs 0 hn
    rw [List.head_eq_getElem]
    simpa using this
  have b := pyGet_last xs hne
  have hle : xs.head hne ≤ xs.getLast hne := by
    rw [List.head_eq_getElem, List.getLast_eq_getElem]
    exact sorted_le hs (Nat.zero_le _) _
  refine ⟨?_, ?_, ?_⟩
  · intro h; simp [bisearchInterpFixOob, a, h]
  · intro h
    have h1 : ¬ v < xs.head hne := not_lt.mpr (le_trans hle h.le)
    simp [bisearchInterpFixOob, a, b, h, h1]
  · intro h1 h2
    simp [bisearchInterpFixOob, a, b, not_lt.mpr h1, not_lt.mpr h2]

example : ([0, 2] : List ℚ).Pairwise (· < ·) ∧ ([0, 1, 3] : List ℚ).Pairwise (· < ·) ∧
    (∀ row ∈ ([[1, 2, 3], [4, 5, 6]] : List (List ℚ)), row.length = 3) := by
  refine ⟨by norm_num, by norm_num, by simp⟩

end C61

section C62
variable {α : Type} [Field α] [LinearOrder α]

theorem mem_diffs (xs : List α) (d : α) :
    d ∈ diffs xs ↔ ∃ i, ∃ h : i + 1 < xs.length, d = xs[i + 1] - xs[i] := by
  induction xs with
  | nil => simp [diffs]
  | cons a t ih =>
      cases t with
      | nil => simp [diffs]
      | cons b t =>
          rw [diffs, List.mem_cons, ih]
          constructor
          · rintro (h | ⟨i, h, e⟩)
            · exact ⟨0, by simp, by simpa using h⟩
            · exact ⟨i + 1, by simpa using h, by simpa using e⟩
          · rintro ⟨i, h, e⟩
            cases i with
            | zero => left; simpa using e
            | succ i => right; exact ⟨i, by simpa using h, by simpa using e⟩

/-- C62: exact acceptance condition of the checked constructor: equal lengths, at least two
nodes, and no two *equal neighbours*.  Anything else raises AssertionError. -/
theorem C62_init_iff (xs ys : List α) :
    (Linear.init xs ys = .ok ⟨xs, ys⟩ ∨ Linear.init xs ys = .error .assertionError) ∧
    (Linear.init xs ys = .ok ⟨xs, ys⟩ ↔ ys.length = xs.length ∧ 2 ≤ xs.length ∧
      ∀ i (h : i + 1 < xs.length), xs[i + 1] ≠ xs[i]) := by
  have hd : (diffs xs).all (fun d => decide (d ≠ 0)) = true ↔
      ∀ i (h : i + 1 < xs.length), xs[i + 1] ≠ xs[i] := by
    rw [List.all_eq_true]
    constructor
    · intro h i hi heq
      have := h (xs[i + 1] - xs[i]) ((mem_diffs xs _).mpr ⟨i, hi, rfl⟩)
      simp [heq] at this
    · intro h d hdm
      obtain ⟨i, hi, rfl⟩ := (mem_diffs xs d).mp hdm
      simpa [sub_eq_zero] using h i hi
  rw [← hd]
  clear hd
  unfold Linear.init
  generalize (diffs xs).all (fun d => decide (d ≠ 0)) = b
  by_cases h1 : ys.length = xs.length <;> cases b <;> by_cases h3 : 2 ≤ xs.length <;>
  simp [pyAssert, h1, h3]

/-- C62 (violated part): the documented requirement "x_nodes must be sorted" is not enforced:
unsorted nodes are accepted, and interpolation at a node then returns another node's value. -/
theorem C62_unsorted_accepted :
    ∃ xs ys : List ℚ, ¬ xs.Pairwise (· ≤ ·) ∧ Linear.init xs ys = .ok ⟨xs, ys⟩ ∧
      ∃ i, ∃ h : i < xs.length, ∃ h' : i < ys.length,
        (⟨xs, ys⟩ : Linear ℚ).valueAt xs[i] ≠ .ok ys[i] := by
  refine ⟨[1, 0], [5, 7], by norm_num, ?_, 1, by simp, by simp, ?_⟩
  · rw [(C62_init_iff _ _).2]
    refine ⟨rfl, by simp, ?_⟩
    intro i hi
    have : i = 0 := by simp at hi; omega
    subst this
    norm_num
  · have : bisearch ([1, 0] : List ℚ) 0 = .ok (-1) := by
      simp [bisearch, pyAssert, pyGet]
    simp [Linear.valueAt, bisearchInterp, bisearchInterpWeight, this, pyGet]

end C62

end Pyhipp.Interpolate
