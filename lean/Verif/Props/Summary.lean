import Verif.Model.Summary
import Verif.Props.Repr
import Verif.Props.Reduction
/-
C110: summaries of arrays.
-/
namespace Pyhipp.Summary
open Pyhipp Pyhipp.Reduction Pyhipp.Repr

theorem run_append (s : Obj) (l m : List Op) : s.run (l ++ m) = (s.run l).run m := by simp [Obj.run]

theorem get_cached (s : Obj) (k : Key) (v : SV) (h : s.cache k = some v) : (s.get k).1 = v := by unfold Obj.get; rw [h]

theorem get_fresh (s : Obj) (k : Key) (h : s.cache k = none) : (s.get k).1 = compute s.a k := by unfold Obj.get; rw [h]

theorem get_stores (s : Obj) (k : Key) : (s.get k).2.cache k = some (s.get k).1 := by
  unfold Obj.get
  cases h : s.cache k with
  | some v => exact h
  | none => simp

theorem get_other (s : Obj) (k k' : Key) (h : k' ≠ k) : (s.get k).2.cache k' = s.cache k' := by
  unfold Obj.get
  cases s.cache k with
  | some v => rfl
  | none => simp [h]

theorem get_a (s : Obj) (k : Key) : (s.get k).2.a = s.a := by
  unfold Obj.get
  cases s.cache k <;> rfl

theorem getAll_a : ∀ (ks : List Key) (s : Obj), (getAll ks s).a = s.a := by
  intro ks
  induction ks with
  | nil => intro s; rfl
  | cons k ks ih => intro s; rw [getAll, ih, get_a]

theorem getAll_keeps : ∀ (ks : List Key) (s : Obj) (k : Key) (v : SV), s.cache k = some v → (getAll ks s).cache k = some v := by
  intro ks
  induction ks with
  | nil => intro s k v h; exact h
  | cons k' ks ih =>
      intro s k v h
      rw [getAll]
      apply ih
      by_cases hk : k = k'
      · subst hk; rw [get_stores, get_cached s k v h]
      · rw [get_other s k' k hk, h]

theorem getAll_stores : ∀ (ks : List Key) (s : Obj) (k : Key), k ∈ ks → (getAll ks s).cache k = some (s.get k).1 := by
  intro ks
  induction ks with
  | nil => intro s k h; cases h
  | cons k' ks ih =>
      intro s k h
      rw [getAll]
      by_cases hk : k = k'
      · subst hk; exact getAll_keeps ks _ k _ (get_stores s k)
      · have hm : k ∈ ks := by simpa [hk] using h
        rw [ih _ k hm]
        congr 1
        have h1 := get_other s k' k hk
        have h2 := get_a s k'
        generalize (s.get k').2 = s' at h1 h2
        cases hc : s.cache k with
        | some v => rw [get_cached s k v hc, get_cached s' k v (h1.trans hc)]
        | none => rw [get_fresh s k hc, get_fresh s' k (h1.trans hc), h2]

theorem step_keeps (s : Obj) (o : Op) (k : Key) (v : SV) (h : s.cache k = some v) (ho : o ≠ .del k) : (s.step o).cache k = some v := by
  cases o with
  | change a => exact h
  | read k' =>
      by_cases hk : k = k'
      · subst hk; rw [Obj.step, get_stores, get_cached s k v h]
      · rw [Obj.step, get_other s k' k hk, h]
  | del k' =>
      have : k ≠ k' := fun e => ho (by rw [e])
      simp [Obj.step, this, h]
  | repr => exact getAll_keeps _ s k v h

theorem run_keeps (ops : List Op) : ∀ (s : Obj) (k : Key) (v : SV), s.cache k = some v → (∀ o ∈ ops, o ≠ .del k) → (s.run ops).cache k = some v := by
  induction ops with
  | nil => intro s k v h _; exact h
  | cons o ops ih =>
      intro s k v h ho
      exact ih (s.step o) k v (step_keeps s o k v h (ho o (by simp))) (fun o' ho' => ho o' (by simp [ho']))

/-- C110: once read (directly or through the representation), a statistic keeps its value, however the array changes afterwards, until it
is deleted. -/
theorem C110_frozen (a : List ℝ) (pre post : List Op) (k : Key) (o : Op) (ho : o = .read k ∨ o = .repr) (hd : ∀ o' ∈ post, o' ≠ .del k) :
    (((Obj.new a).run (pre ++ o :: post)).get k).1 = (((Obj.new a).run pre).get k).1 := by
  rw [run_append]
  have hk : k ∈ reprKeys := by cases k <;> decide
  have hc : (((Obj.new a).run pre).step o).cache k = some (((Obj.new a).run pre).get k).1 := by
    rcases ho with rfl | rfl
    · exact get_stores _ k
    · exact getAll_stores reprKeys _ k hk
  exact get_cached _ k _ (run_keeps post _ k _ hc hd)

/-- C110: a statistic that has not been read yet (or has been deleted) is that of the array as it is now. -/
theorem C110_fresh (a : List ℝ) (pre post : List Op) (k : Key) (h : ∀ o ∈ post, o ≠ .read k ∧ o ≠ .repr)
    (hpre : pre = [] ∨ ∃ l, pre = l ++ [.del k]) :
    (((Obj.new a).run (pre ++ post)).get k).1 = compute ((Obj.new a).run (pre ++ post)).a k := by
  apply get_fresh
  rw [run_append]
  have h0 : ((Obj.new a).run pre).cache k = none := by
    rcases hpre with rfl | ⟨l, rfl⟩
    · rfl
    · rw [run_append]; simp [Obj.run, Obj.step]
  generalize (Obj.new a).run pre = s at h0
  induction post generalizing s with
  | nil => exact h0
  | cons o post ih =>
      refine ih (fun o' ho' => h o' (by simp [ho'])) (s.step o) ?_
      have ho := h o (by simp)
      cases o with
      | change b => exact h0
      | read k' =>
          have : k ≠ k' := fun e => ho.1 (by rw [e])
          rw [Obj.step, get_other s k' k this, h0]
      | del k' =>
          simp only [Obj.step]
          split
          · rfl
          · exact h0
      | repr => exact absurd rfl ho.2

/-- Specification: the array after some steps is the last one assigned, else the initial one. -/
inductive LastArray (a0 : List ℝ) : List Op → List ℝ → Prop
  | initial (ops : List Op) (h : ∀ o ∈ ops, ∀ b, o ≠ .change b) : LastArray a0 ops a0
  | changed (pre post : List Op) (b : List ℝ) (h : ∀ o ∈ post, ∀ b', o ≠ .change b') : LastArray a0 (pre ++ .change b :: post) b

theorem LastArray.unique_of {a0 b b' : List ℝ} {ops : List Op} (h : LastArray a0 ops b) (h' : LastArray a0 ops b') : b = b' := by
  have key : ∀ (ops : List Op) (s : Obj) (b : List ℝ), s.a = a0 → LastArray a0 ops b → (s.run ops).a = b := by
    have none : ∀ (ops : List Op) (s : Obj), (∀ o ∈ ops, ∀ b, o ≠ .change b) → (s.run ops).a = s.a := by
      intro ops
      induction ops with
      | nil => intro s _; rfl
      | cons o ops ih =>
          intro s ho
          have h1 : (s.step o).a = s.a := by
            cases o with
            | change b => exact absurd rfl (ho (.change b) (by simp) b)
            | read k => exact get_a s k
            | del k => rfl
            | repr => exact getAll_a _ s
          have := ih (s.step o) (fun o' ho' => ho o' (by simp [ho']))
          rw [h1] at this
          exact this
    intro ops s b hs hl
    cases hl with
    | initial _ h => rw [none ops s h, hs]
    | changed pre post _ h =>
        rw [run_append]
        exact none post _ h
  have e := key ops (Obj.new a0) b rfl h
  have e' := key ops (Obj.new a0) b' rfl h'
  rw [← e, ← e']

/-- C110: the array is the one last assigned, and `size` is always its current length, whatever has been read. -/
theorem C110_size (a : List ℝ) (ops : List Op) :
    LastArray a ops ((Obj.new a).run ops).a ∧ ∀ b, LastArray a ops b → ((Obj.new a).run ops).size = b.length := by
  have h1 : LastArray a ops ((Obj.new a).run ops).a := by
    induction ops using List.reverseRecOn with
    | nil => exact .initial _ (by simp)
    | append_singleton ops o ih =>
        rw [run_append]
        have keep : (∀ b, o ≠ .change b) → (((Obj.new a).run ops).step o).a = ((Obj.new a).run ops).a → LastArray a (ops ++ [o]) (((Obj.new a).run ops).step o).a := by
          intro hne he
          rw [he]
          have ext : ∀ post : List Op, (∀ o ∈ post, ∀ b, o ≠ .change b) → ∀ o' ∈ post ++ [o], ∀ b, o' ≠ .change b := by
            intro post hp o' ho'
            simp only [List.mem_append, List.mem_singleton] at ho'
            rcases ho' with h | rfl
            · exact hp o' h
            · exact hne
          generalize ((Obj.new a).run ops).a = b at ih
          cases ih with
          | initial _ h => exact .initial _ (ext _ h)
          | changed pre post _ h => have := LastArray.changed (a0 := a) pre (post ++ [o]) b (ext _ h); simpa using this
        show LastArray a (ops ++ [o]) (((Obj.new a).run ops).step o).a
        cases o with
        | change b => exact .changed ops [] b (by simp)
        | read k => exact keep (by simp) (get_a _ k)
        | del k => exact keep (by simp) rfl
        | repr => exact keep (by simp) (getAll_a _ _)
  refine ⟨h1, ?_⟩
  intro b hb
  rw [← h1.unique_of hb]
  rfl

/-- Specification: the arithmetic mean. -/
noncomputable def meanOf (a : List ℝ) : ℝ := a.sum / a.length

/-- C110: for a non-empty array the statistics are numbers: the mean, the root mean squared deviation, the median, and three pairs around
the median, nested: 3 sigma around 2 sigma around 1 sigma, all within the range of the data. -/
theorem C110_nested (a : List ℝ) (hne : a ≠ []) :
    ∃ l1 u1 l2 u2 l3 u3 med : ℝ, compute a .s1 = .arr [l1, u1] ∧ compute a .s2 = .arr [l2, u2] ∧ compute a .s3 = .arr [l3, u3] ∧
      compute a .median = .num (.num med) ∧ l3 ≤ l2 ∧ l2 ≤ l1 ∧ l1 ≤ med ∧ med ≤ u1 ∧ u1 ≤ u2 ∧ u2 ≤ u3 ∧
      (∀ lo, (∀ x ∈ a, lo ≤ x) → lo ≤ l3) ∧ (∀ hi, (∀ x ∈ a, x ≤ hi) → u3 ≤ hi) := by
  have hl : a.length ≠ 0 := fun h => hne (List.length_eq_zero_iff.1 h)
  have hq : ∀ ps : List ℝ, quantile1d id ps true (-10 ^ 10) a none none = ps.map (npQuantile a) := by
    intro ps
    unfold quantile1d impl1d
    exact if_neg hl
  have hmed : npQuantile a (1 / 2) = npMedian a := by
    have := C47_median (α := ℝ) id true (-10 ^ 10) a none none (by simp)
    rw [hq] at this
    have h2 : median1d id true (-10 ^ 10) a none none = npMedian a := by
      unfold median1d impl1d
      exact if_neg hl
    rw [h2] at this
    simpa using this
  have m := npQuantile_mono a hne
  refine ⟨npQuantile a (16 / 100), npQuantile a (84 / 100), npQuantile a (25 / 1000), npQuantile a (975 / 1000), npQuantile a (5 / 1000),
    npQuantile a (995 / 1000), npQuantile a (1 / 2), ?_, ?_, ?_, ?_, m _ _ (by norm_num) (by norm_num), m _ _ (by norm_num) (by norm_num),
    m _ _ (by norm_num) (by norm_num), m _ _ (by norm_num) (by norm_num), m _ _ (by norm_num) (by norm_num), m _ _ (by norm_num) (by norm_num), ?_, ?_⟩
  · simp [compute, quantile, psMap, List.lookup, hq]
  · simp [compute, quantile, psMap, List.lookup, hq]
  · simp [compute, quantile, psMap, List.lookup, hq]
  · simp only [compute, median]; rw [if_neg hl, hmed]
  · intro lo hlo
    obtain ⟨⟨x, hx, hle⟩, -⟩ := npQuantile_mem a hne (5 / 1000) (by norm_num)
    exact le_trans (hlo x hx) hle
  · intro hi hhi
    obtain ⟨-, ⟨x, hx, hle⟩⟩ := npQuantile_mem a hne (995 / 1000) (by norm_num)
    exact le_trans hle (hhi x hx)

/-- C110: mean and standard deviation of a non-empty array: the mean is within the range, the standard deviation is non-negative, its square is
the mean square minus the squared mean, and it vanishes exactly for constant data. -/
theorem C110_moments (a : List ℝ) (hne : a ≠ []) :
    ∃ sd : ℝ, compute a .mean = .num (.num (meanOf a)) ∧ compute a .stddev = .num (.num sd) ∧ 0 ≤ sd ∧
      sd ^ 2 = meanOf (a.map (fun x => x ^ 2)) - (meanOf a) ^ 2 ∧ (sd = 0 ↔ ∀ x ∈ a, x = meanOf a) ∧
      (∀ lo, (∀ x ∈ a, lo ≤ x) → lo ≤ meanOf a) ∧ (∀ hi, (∀ x ∈ a, x ≤ hi) → meanOf a ≤ hi) := by
  have hl : a.length ≠ 0 := fun h => hne (List.length_eq_zero_iff.1 h)
  have hn : (0 : ℝ) < a.length := by
    have : 0 < a.length := Nat.pos_of_ne_zero hl
    exact_mod_cast this
  have dev : ∀ (l : List ℝ) (c : ℝ), (l.map (fun x => (x - c) ^ 2)).sum = (l.map (fun x => x ^ 2)).sum - 2 * c * l.sum + l.length * c ^ 2 := by
    intro l c
    induction l with
    | nil => simp
    | cons x l ih => simp only [List.map_cons, List.sum_cons, List.length_cons, ih]; push_cast; ring
  have nn : ∀ (l : List ℝ) (c : ℝ), 0 ≤ (l.map (fun x => (x - c) ^ 2)).sum ∧ ((l.map (fun x => (x - c) ^ 2)).sum = 0 ↔ ∀ x ∈ l, x = c) := by
    intro l c
    induction l with
    | nil => simp
    | cons x l ih =>
        simp only [List.map_cons, List.sum_cons, List.mem_cons, forall_eq_or_imp]
        refine ⟨add_nonneg (sq_nonneg _) ih.1, ?_⟩
        rw [add_eq_zero_iff_of_nonneg (sq_nonneg _) ih.1, ih.2, sq_eq_zero_iff, sub_eq_zero]
  have bnd : ∀ (l : List ℝ) (c : ℝ), ((∀ x ∈ l, c ≤ x) → l.length * c ≤ l.sum) ∧ ((∀ x ∈ l, x ≤ c) → l.sum ≤ l.length * c) := by
    intro l c
    induction l with
    | nil => simp
    | cons x l ih =>
        simp only [List.mem_cons, forall_eq_or_imp, List.sum_cons, List.length_cons]
        push_cast
        constructor
        · rintro ⟨h1, h2⟩; have := ih.1 h2; linarith
        · rintro ⟨h1, h2⟩; have := ih.2 h2; linarith
  have hv := nn a (meanOf a)
  have hvar : (0 : ℝ) ≤ (a.map (fun x => (x - meanOf a) ^ 2)).sum / a.length := div_nonneg hv.1 hn.le
  refine ⟨Real.sqrt ((a.map (fun x => (x - meanOf a) ^ 2)).sum / a.length), ?_, ?_, Real.sqrt_nonneg _, ?_, ?_, ?_, ?_⟩
  · simp only [compute, npMean]; rw [if_neg hl]; rfl
  · simp only [compute, npStd]; rw [if_neg hl]; rfl
  · rw [Real.sq_sqrt hvar, dev]
    unfold meanOf
    rw [List.length_map]
    field_simp
    ring
  · rw [Real.sqrt_eq_zero hvar, div_eq_zero_iff, or_iff_left hn.ne', hv.2]
  · intro lo hlo
    have := (bnd a lo).1 hlo
    unfold meanOf
    rw [le_div_iff₀ hn]; linarith
  · intro hi hhi
    have := (bnd a hi).2 hhi
    unfold meanOf
    rw [div_le_iff₀ hn]; linarith

/-- C110: for an empty array mean, standard deviation and median are NaN, and the intervals are filled with -1e10. -/
theorem C110_empty : compute [] .mean = .num .nan ∧ compute [] .stddev = .num .nan ∧ compute [] .median = .num .nan ∧
    compute [] .s1 = .arr [-10 ^ 10, -10 ^ 10] ∧ compute [] .s2 = .arr [-10 ^ 10, -10 ^ 10] ∧ compute [] .s3 = .arr [-10 ^ 10, -10 ^ 10] := by
  refine ⟨by simp [compute, npMean], by simp [compute, npStd], by simp [compute, median], ?_, ?_, ?_⟩ <;>
    simp [compute, quantile, psMap, List.lookup, quantile1d, impl1d, sel]

/-- C110: the representation lists type, size and the six statistics, with the values that reading them gives; because the intervals are arrays,
`to_json` raises TypeError, always. -/
theorem C110_repr (s : Obj) :
    simple s.val = .ok (.dict [("type".toList, .str "SummaryFloatArray1D".toList), ("size".toList, .leaf (.int s.size)),
      ("mean".toList, .leaf (s.get .mean).1), ("stddev".toList, .leaf (s.get .stddev).1), ("median".toList, .leaf (s.get .median).1),
      ("_1sigma".toList, .leaf (s.get .s1).1), ("_2sigma".toList, .leaf (s.get .s2).1), ("_3sigma".toList, .leaf (s.get .s3).1)]) := by
  simp only [Obj.val, reprKeys, List.map_cons, List.map_nil, Key.name, simple, simpleAttrs]
  rfl

theorem C110_json_defect (a : List ℝ) (ops : List Op) : toJson jsonOk ((Obj.new a).run ops).val = .error .typeError := by
  have harr : ∀ (ops : List Op) (s : Obj), (s.cache .s1 = none ∨ ∃ l, s.cache .s1 = some (.arr l)) →
      ((s.run ops).cache .s1 = none ∨ ∃ l, (s.run ops).cache .s1 = some (.arr l)) := by
    intro ops
    have gstep : ∀ (s : Obj) (k : Key), (s.cache .s1 = none ∨ ∃ l, s.cache .s1 = some (.arr l)) →
        ((s.get k).2.cache .s1 = none ∨ ∃ l, (s.get k).2.cache .s1 = some (.arr l)) := by
      intro s k h
      by_cases hk : Key.s1 = k
      · subst hk
        right
        rw [get_stores]
        rcases h with h | ⟨l, h⟩
        · rw [get_fresh s _ h]; exact ⟨_, rfl⟩
        · rw [get_cached s _ _ h]; exact ⟨_, rfl⟩
      · rw [get_other s k _ hk]; exact h
    have gall : ∀ (ks : List Key) (s : Obj), (s.cache .s1 = none ∨ ∃ l, s.cache .s1 = some (.arr l)) →
        ((getAll ks s).cache .s1 = none ∨ ∃ l, (getAll ks s).cache .s1 = some (.arr l)) := by
      intro ks
      induction ks with
      | nil => intro s h; exact h
      | cons k ks ih => intro s h; exact ih _ (gstep s k h)
    induction ops with
    | nil => intro s h; exact h
    | cons o ops ih =>
        intro s h
        refine ih (s.step o) ?_
        cases o with
        | change b => exact h
        | read k => exact gstep s k h
        | del k =>
            simp only [Obj.step]
            split
            · exact .inl rfl
            · exact h
        | repr => exact gall _ s h
  have hs := harr ops (Obj.new a) (.inl rfl)
  generalize (Obj.new a).run ops = s at hs
  refine (C108_json jsonOk _ _ (C110_repr s)).2.2 ?_
  rintro ⟨j, hj⟩
  cases hj with
  | dict _ js hl hk hall =>
      have := hall 5 (by simp) (by rw [← hl]; simp)
      simp only [List.getElem_cons_succ, List.getElem_cons_zero] at this
      generalize (js[5]'(by rw [← hl]; simp)).2 = j' at this
      have hg : ∃ l, (s.get .s1).1 = .arr l := by
        rcases hs with h | ⟨l, h⟩
        · rw [get_fresh s _ h]; exact ⟨_, rfl⟩
        · rw [get_cached s _ _ h]; exact ⟨_, rfl⟩
      obtain ⟨l, hl⟩ := hg
      rw [hl] at this
      cases this with
      | leaf _ h => cases h

example : compute [3, 1, 2] .median = .num (.num 2) := by
  have hs : npSort ([3, 1, 2] : List ℝ) = [1, 2, 3] := by
    refine List.Perm.eq_of_pairwise (le := (· ≤ ·)) (fun a b _ _ h1 h2 => le_antisymm h1 h2) (npSort_sorted _) ?_ ((npSort_perm _).trans ?_)
    · simp; norm_num
    · exact (List.Perm.swap 1 3 [2]).trans (List.Perm.cons 1 (List.Perm.swap 2 3 []))
  simp [compute, median, npMedian, hs]

end Pyhipp.Summary
