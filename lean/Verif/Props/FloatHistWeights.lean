import Verif.Props.FloatHistDensity
/-
C151, continued: weighted density estimates in double precision.
-/
namespace Pyhipp.FloatHistDensity
open Pyhipp F64 FloatLinear FloatReduce FloatHist Regression

theorem Within.refl (t : ℚ) : Within t t 0 := by simp [Within]

theorem Within.mono {v t : ℚ} {i j : Nat} (h : Within v t i) (ht : 0 ≤ t) (hij : i ≤ j) : Within v t j := by
  obtain ⟨h1, h2⟩ := h
  have p := pow_le_pow_of_le_one u_pos.le u_lt hij
  have hv : 0 ≤ v := le_trans (mul_nonneg ht (pow_pos u_pos i).le) h1
  exact ⟨le_trans (mul_le_mul_of_nonneg_left p ht) h1, le_trans (mul_le_mul_of_nonneg_left p hv) h2⟩

theorem Within.nonneg {v t : ℚ} {k : Nat} (h : Within v t k) (ht : 0 ≤ t) : 0 ≤ v :=
  le_trans (mul_nonneg ht (pow_pos u_pos k).le) h.1

theorem Within.zero {v : ℚ} {k : Nat} (h : Within v 0 k) : v = 0 := by
  have h1 := h.nonneg le_rfl
  have h2 := h.2
  by_contra hc
  have : 0 < v := lt_of_le_of_ne h1 (Ne.symm hc)
  exact absurd h2 (not_le.mpr (mul_pos this (pow_pos u_pos k)))

theorem Within.add {v t w s : ℚ} {k : Nat} (h : Within v t k) (h' : Within w s k) : Within (v + w) (t + s) k := by
  obtain ⟨a, b⟩ := h
  obtain ⟨c, d⟩ := h'
  exact ⟨by rw [add_mul]; linarith, by rw [add_mul]; linarith⟩

theorem Within.le_two {v t : ℚ} {k : Nat} (h : Within v t k) (ht : 0 ≤ t) (hk : k ≤ 2 ^ 51) : v ≤ 2 * t := by
  rcases eq_or_lt_of_le ht with h0 | h0
  · subst h0
    rw [h.zero]; simp
  · exact (h.close h0 hk).2.1

theorem add_step {v t w s : ℚ} {k : Nat} (h : Within v t k) (h' : Within w s k) (ht : 0 ≤ t) (hs : 0 ≤ s) (hv : IsF v) (hw : IsF w)
    (hk : k + 1 ≤ 2 ^ 51) (hb : t + s ≤ 2 ^ 1022) :
    Num.add (.fin v) (.fin w) = .fin (rnd (v + w)) ∧ Within (rnd (v + w)) (t + s) (k + 1) := by
  have hW := h.add h'
  have h0 := hW.nonneg (add_nonneg ht hs)
  have hle := hW.le_two (add_nonneg ht hs) (by omega)
  constructor
  · refine ofQ_fin_le ?_ FloatBins.pow1023 FloatBins.lt1024
    rw [abs_of_nonneg h0]
    have e : (2 : ℚ) ^ 1023 = 2 * 2 ^ 1022 := by rw [pow_succ]; ring
    rw [e]
    linarith
  · have hr := FloatCoords.rnd_add_err hv hw
    rw [abs_of_nonneg h0] at hr
    have := (within_rnd_of h0 hr).trans hW
    rwa [Nat.add_comm] at this

/-- Non-negative doubles added one after the other. -/
theorem seq_within (ws : List ℚ) (hF : ∀ w ∈ ws, IsF w ∧ 0 ≤ w) (k : Nat) (v t : ℚ) (h : Within v t k) (ht : 0 ≤ t) (hv : IsF v)
    (hk : k + ws.length ≤ 2 ^ 51) (hb : t + ws.sum ≤ 2 ^ 1022) :
    ∃ r, (fins ws).foldl Num.add (.fin v) = .fin r ∧ IsF r ∧ Within r (t + ws.sum) (k + ws.length) := by
  induction ws generalizing k v t with
  | nil => exact ⟨v, rfl, hv, by simpa using h⟩
  | cons w ws ih =>
      obtain ⟨w1, w2⟩ := hF w (by simp)
      have hp : 0 ≤ ws.sum := List.sum_nonneg (fun a ha => (hF a (by simp [ha])).2)
      rw [List.sum_cons] at hb
      simp only [List.length_cons] at hk
      obtain ⟨s1, s2⟩ := add_step h ((Within.refl w).mono w2 (Nat.zero_le k)) ht w2 hv w1 (by omega) (by linarith)
      obtain ⟨r, r1, r2, r3⟩ := ih (fun a ha => hF a (by simp [ha])) (k + 1) _ (t + w) s2 (by linarith) (isF_rnd _) (by omega) (by linarith)
      refine ⟨r, ?_, r2, ?_⟩
      · have e : fins (w :: ws) = .fin w :: fins ws := rfl
        rw [e, List.foldl_cons, s1]
        exact r1
      · rw [List.sum_cons, List.length_cons, ← add_assoc]
        have e : k + (ws.length + 1) = k + 1 + ws.length := by omega
        rw [e]
        exact r3

/-- Any order of adding up values known to within `k` roundings. -/
theorem tree_within (k : Nat) (f t : List Nat → ℚ) (L : List (List Nat)) (hL : ∀ I ∈ L, IsF (f I) ∧ 0 ≤ t I ∧ Within (f I) (t I) k)
    (o : Order) (ho : ∀ i ∈ o.leaves, i < L.length) (hk : k + o.leaves.length ≤ 2 ^ 51)
    (hb : (vals (L.map t) o).sum ≤ 2 ^ 1022) :
    0 ≤ (vals (L.map t) o).sum ∧ ∃ r, o.eval ((L.map f).map .fin) = .fin r ∧ IsF r ∧ (o.leaves = [] → r = 0) ∧
      Within r (vals (L.map t) o).sum (k + o.leaves.length) := by
  have hnn : ∀ o : Order, (∀ i ∈ o.leaves, i < L.length) → 0 ≤ (vals (L.map t) o).sum := by
    intro o ho
    apply List.sum_nonneg
    intro a ha
    simp only [vals, List.mem_map] at ha
    obtain ⟨i, hi, rfl⟩ := ha
    have := ho i hi
    rw [getD_lt _ _ _ (by simpa using this), List.getElem_map]
    exact (hL _ (List.getElem_mem this)).2.1
  refine ⟨hnn o ho, ?_⟩
  induction o with
  | zero => exact ⟨0, rfl, by simpa using isF_int (m := 0) (by norm_num), fun _ => rfl, by simp [vals, Order.leaves, Within]⟩
  | leaf i =>
      have hi := ho i (by simp [Order.leaves])
      obtain ⟨h1, h2, h3⟩ := hL _ (List.getElem_mem hi)
      refine ⟨f L[i], ?_, h1, by simp [Order.leaves], ?_⟩
      · show ((L.map f).map Num.fin).getD i .nan = _
        rw [getD_lt _ _ _ (by simpa using hi)]
        simp
      · have e : (vals (L.map t) (.leaf i)).sum = t L[i] := by
          simp only [vals, Order.leaves, List.map_cons, List.map_nil, List.sum_cons, List.sum_nil, add_zero]
          rw [getD_lt _ _ _ (by simpa using hi), List.getElem_map]
        rw [e]
        exact h3.mono h2 (by omega)
  | node l r ihl ihr =>
      have hl : ∀ i ∈ l.leaves, i < L.length := fun i h => ho i (by simp [Order.leaves, h])
      have hr : ∀ i ∈ r.leaves, i < L.length := fun i h => ho i (by simp [Order.leaves, h])
      have el : (vals (L.map t) (.node l r)).sum = (vals (L.map t) l).sum + (vals (L.map t) r).sum := by simp [vals, Order.leaves]
      have ln : (Order.node l r).leaves.length = l.leaves.length + r.leaves.length := by simp [Order.leaves]
      have nl := hnn l hl
      have nr := hnn r hr
      rw [el] at hb
      rw [ln] at hk
      obtain ⟨v, v1, v2, v3, v4⟩ := ihl hl (by omega) (by linarith)
      obtain ⟨w, w1, w2, w3, w4⟩ := ihr hr (by omega) (by linarith)
      have eadd : (Order.node l r).eval ((L.map f).map .fin) = Num.add (.fin v) (.fin w) := by
        simp only [Order.eval, v1, w1]
      rw [eadd, el, ln]
      by_cases el0 : l.leaves = []
      · have z := v3 el0
        subst z
        have es : (vals (L.map t) l).sum = 0 := by simp [vals, el0]
        have ew : Num.add (.fin 0) (.fin w) = .fin w := by
          show ofQ (0 + w) = _
          rw [zero_add]
          have h2 := w4.le_two nr (by omega)
          have h3 := w4.nonneg nr
          have e : (2 : ℚ) ^ 1023 = 2 * 2 ^ 1022 := by rw [pow_succ]; ring
          have := ofQ_fin_le (q := w) (y := 2 ^ 1023) (by rw [abs_of_nonneg h3, e]; linarith) FloatBins.pow1023 FloatBins.lt1024
          rw [this, w2]
        refine ⟨w, ew, w2, ?_, ?_⟩
        · intro h
          exact w3 (by simpa [Order.leaves, el0] using h)
        · rw [es, zero_add, el0]
          simpa using w4
      · by_cases er0 : r.leaves = []
        · have z := w3 er0
          subst z
          have es : (vals (L.map t) r).sum = 0 := by simp [vals, er0]
          have ew : Num.add (.fin v) (.fin 0) = .fin v := by
            show ofQ (v + 0) = _
            rw [add_zero]
            have h2 := v4.le_two nl (by omega)
            have h3 := v4.nonneg nl
            have e : (2 : ℚ) ^ 1023 = 2 * 2 ^ 1022 := by rw [pow_succ]; ring
            have := ofQ_fin_le (q := v) (y := 2 ^ 1023) (by rw [abs_of_nonneg h3, e]; linarith) FloatBins.pow1023 FloatBins.lt1024
            rw [this, v2]
          refine ⟨v, ew, v2, ?_, ?_⟩
          · intro h
            exact v3 (by simpa [Order.leaves, er0] using h)
          · rw [es, add_zero, er0]
            simpa using v4
        · have p1 : 0 < l.leaves.length := List.length_pos_of_ne_nil el0
          have p2 : 0 < r.leaves.length := List.length_pos_of_ne_nil er0
          obtain ⟨s1, s2⟩ := add_step (k := k + (l.leaves.length + r.leaves.length) - 1) (v4.mono nl (by omega)) (w4.mono nr (by omega)) nl nr v2 w2
            (by omega) hb
          refine ⟨_, s1, isF_rnd _, ?_, ?_⟩
          · intro h
            exfalso
            simp [Order.leaves] at h
            exact el0 h.1
          · have e : k + (l.leaves.length + r.leaves.length) - 1 + 1 = k + (l.leaves.length + r.leaves.length) := by omega
            rwa [e] at s2

/-- The divisions of a cell: by the widths, then by the total. -/
theorem norm_within (grids : List (List ℚ)) (hg : AxesF grids) (I : List Nat) (hI : List.Forall₂ (fun i n => i < n) I (histShape grids))
    (c t S T : ℚ) (a b : Nat) (hc : Within c t a) (hS : Within S T b) (ht : 0 < t) (hT : 0 < T) (hr : InRange grids I t T)
    (htop : t / cellVol grids I / T ≤ 2 ^ 1022) (hk : a + b + 2 * grids.length + 1 ≤ 2 ^ 51) :
    ∃ v, norm (grids.map fins) I (.fin c) (.fin S) = .fin v ∧ Within v (t / cellVol grids I / T) (a + b + 2 * grids.length + 1) := by
  obtain ⟨w1, w2, w3⟩ := widths_spec grids hg I hI
  obtain ⟨hr1, hr2⟩ := hr
  have htake : ∀ j, (widths grids I).take j = widths (grids.take j) (I.take j) := by
    intro j
    simp only [widths, ← List.map_take, List.zip, List.take_zipWith]
  obtain ⟨r, r1, r2⟩ := divs (widths grids I) _ _ a hc ht w1 (by
    intro j j0 j1
    rw [htake, vol_eq]
    exact hr1 j j0 (by rw [← w2]; exact j1)) (by rw [w2]; omega)
  have hvolp : 0 < cellVol grids I := by
    rw [← vol_eq]
    exact List.prod_pos (fun d hd => (w1 d hd).1)
  rw [vol_eq, w2] at r2
  have hq : 0 < t / cellVol grids I := div_pos ht hvolp
  have hdv := r2.div hS hq hT
  have hpos : 0 < t / cellVol grids I / T := div_pos hq hT
  have hv0 := hdv.pos hpos
  obtain ⟨-, b2, b3⟩ := hdv.close hpos (by omega)
  have hlo : (2 : ℚ) ^ (-1022 : ℤ) ≤ r / S := by
    have : (2 : ℚ) ^ (-1021 : ℤ) = 2 * 2 ^ (-1022 : ℤ) := by rw [show (-1021 : ℤ) = 1 + (-1022) by norm_num, zpow_add₀ (by norm_num)]; norm_num
    rw [this] at hr2
    linarith
  have hhi : |r / S| ≤ 2 ^ 1023 := by
    rw [abs_of_pos hv0]
    have e : (2 : ℚ) ^ 1023 = 2 * 2 ^ 1022 := by rw [pow_succ]; ring
    rw [e]
    linarith
  have hrn : Within (rnd (r / S)) (r / S) 1 := by
    refine within_rnd_of hv0.le ?_
    have := rnd_err (x := r / S) (by rw [abs_of_pos hv0]; exact hlo)
    rwa [abs_of_pos hv0] at this
  have hfin := hrn.trans hdv
  have e : 1 + (a + 2 * grids.length + b) = a + b + 2 * grids.length + 1 := by omega
  rw [e] at hfin
  refine ⟨_, ?_, hfin⟩
  rw [norm, w3, r1, FloatStandardize.div_fin (hS.pos hT).ne' hhi]

/-- The weights of a cell are among the weights given. -/
theorem wts_sublist (grids : List (List ℚ)) (x : List (List Num)) (w : List ℚ) (q : List ℚ × ℚ → Bool) :
    (((finWts x w).filter q).map (fun p => p.2)).Sublist w := by
  unfold finWts
  induction x generalizing w with
  | nil => simp
  | cons r t ih =>
      cases w with
      | nil => simp
      | cons b w =>
          simp only [List.zip_cons_cons, List.filterMap_cons]
          cases hp : finPt r with
          | none => exact (ih w).cons _
          | some p =>
              by_cases hc : q (p, b) = true
              · simp only [Option.map_some, List.filter_cons, hc, if_true, List.map_cons]
                exact (ih w).cons_cons _
              · simp only [Option.map_some, List.filter_cons, hc, if_false, Bool.false_eq_true]
                exact (ih w).cons _

theorem wts_len (grids : List (List ℚ)) (x : List (List Num)) (w : List ℚ) (hx : ∀ r ∈ x, r.length = grids.length) :
    ∀ p ∈ finWts x w, p.1.length = grids.length := by
  have hlen : ∀ (r : List Num) (p : List ℚ), finPt r = some p → p.length = r.length := by
    intro r
    induction r with
    | nil => intro p hp; simp [finPt] at hp; simp [← hp]
    | cons a r ih =>
        intro p hp
        cases a with
        | fin v =>
            simp only [finPt, Option.map_eq_some_iff] at hp
            obtain ⟨q, q1, rfl⟩ := hp
            simp [ih q q1]
        | inf s => simp [finPt] at hp
        | nan => simp [finPt] at hp
  intro p hp
  unfold finWts at hp
  obtain ⟨q, hq, he⟩ := List.mem_filterMap.mp hp
  obtain ⟨a, ha, rfl⟩ := Option.map_eq_some_iff.mp he
  rw [hlen _ _ ha, hx _ (List.of_mem_zip hq).1]

/-- The cells and their total for non-negative weights. -/
theorem weight_facts (sum : List Num → Num) (hs : IsSum sum) (grids : List (List ℚ)) (hg : AxesF grids) (x : List (List Num)) (w : List ℚ)
    (hx : ∀ r ∈ x, r.length = grids.length) (hw : w.length = x.length) (hF : ∀ v ∈ w, IsF v ∧ 0 ≤ v) (hb : w.sum ≤ 2 ^ 1022)
    (hK : x.length + (histShape grids).prod ≤ 2 ^ 51) :
    (∃ f : List Nat → ℚ, ∀ I, List.Forall₂ (fun i n => i < n) I (histShape grids) →
      cellSum (grids.map fins) x (some (fins w)) I = .fin (f I) ∧ Within (f I) (cellCount grids (finWts x w) I) x.length ∧
      0 ≤ cellCount grids (finWts x w) I ∧ cellCount grids (finWts x w) I ≤ boxWeight grids (finWts x w)) ∧
    (∃ S, sum ((Grid.indices (histShape grids)).map (cellSum (grids.map fins) x (some (fins w)))) = .fin S ∧
      Within S (boxWeight grids (finWts x w)) (x.length + (histShape grids).prod)) ∧ 0 ≤ boxWeight grids (finWts x w) ∧
    ((Grid.indices (histShape grids)).map (cellCount grids (finWts x w))).sum = boxWeight grids (finWts x w) := by
  classical
  have hsub := fun (I : List Nat) => wts_sublist grids x w (fun p => Regression.inCell grids I p.1)
  have hcell : ∀ I, List.Forall₂ (fun i n => i < n) I (histShape grids) → ∃ r, cellSum (grids.map fins) x (some (fins w)) I = .fin r ∧ IsF r ∧
      Within r (cellCount grids (finWts x w) I) x.length ∧ 0 ≤ cellCount grids (finWts x w) I := by
    intro I hI
    have hnn : ∀ v ∈ ((finWts x w).filter (fun p => Regression.inCell grids I p.1)).map (fun p => p.2), IsF v ∧ 0 ≤ v :=
      fun v hv => hF v ((hsub I).subset hv)
    have hlen := (hsub I).length_le
    have hsum : (((finWts x w).filter (fun p => Regression.inCell grids I p.1)).map (fun p => p.2)).sum ≤ w.sum :=
      (hsub I).sum_le_sum (fun a ha => (hF a ha).2)
    have hc0 : 0 ≤ cellCount grids (finWts x w) I := List.sum_nonneg (fun a ha => (hnn a ha).2)
    obtain ⟨r, r1, r2, r3⟩ := seq_within _ hnn 0 0 0 (Within.refl 0) le_rfl rnd_zero (by omega) (by rw [zero_add]; linarith)
    refine ⟨r, ?_, r2, ?_, hc0⟩
    · unfold cellSum
      simp only
      rw [weights_fin grids hg.sorted I hI x w hx]
      exact r1
    · rw [zero_add] at r3
      exact r3.mono hc0 (by omega)
  have htot : ((Grid.indices (histShape grids)).map (cellCount grids (finWts x w))).sum = boxWeight grids (finWts x w) :=
    total_eq grids hg.1 _ (wts_len grids x w hx)
  have hbox : boxWeight grids (finWts x w) ≤ w.sum := by
    unfold boxWeight
    exact (wts_sublist grids x w _).sum_le_sum (fun a ha => (hF a ha).2)
  have hbox0 : 0 ≤ boxWeight grids (finWts x w) := by
    unfold boxWeight
    exact List.sum_nonneg (fun a ha => (hF a ((wts_sublist grids x w _).subset ha)).2)
  choose! f f1 f2 f3 f4 using hcell
  refine ⟨⟨f, fun I hI => ⟨f1 I hI, f3 I hI, f4 I hI, ?_⟩⟩, ?_, hbox0, htot⟩
  · rw [← htot]
    apply List.single_le_sum
    · intro a ha
      obtain ⟨J, hJ, rfl⟩ := List.mem_map.mp ha
      exact f4 J (idx_mem _ _ hJ)
    · exact List.mem_map_of_mem (List.mem_of_getElem? (Grid.indices_flatIdx _ _ hI).2)
  · have em : (Grid.indices (histShape grids)).map (cellSum (grids.map fins) x (some (fins w)))
        = ((Grid.indices (histShape grids)).map f).map .fin := by
      rw [List.map_map]
      apply List.map_congr_left
      intro I hI
      exact f1 I (idx_mem _ _ hI)
    obtain ⟨o, o1, o2⟩ := hs (((Grid.indices (histShape grids)).map f).map .fin)
    have hl : (((Grid.indices (histShape grids)).map f).map Num.fin).length = (histShape grids).prod := by simp [Grid.indices_length]
    have hol : o.leaves.length = (histShape grids).prod := by rw [o1.length_eq, List.length_range, hl]
    have hov : (vals ((Grid.indices (histShape grids)).map (cellCount grids (finWts x w))) o).sum = boxWeight grids (finWts x w) := by
      rw [(vals_perm _ o (by simpa using o1)).sum_eq, htot]
    obtain ⟨-, S, S1, -, -, S4⟩ := tree_within x.length f (cellCount grids (finWts x w)) (Grid.indices (histShape grids))
      (fun I hI => ⟨f2 I (idx_mem _ _ hI), f4 I (idx_mem _ _ hI), f3 I (idx_mem _ _ hI)⟩) o
      (fun i hi => by have := o1.mem_iff.mp hi; simpa using this) (by rw [hol]; exact hK) (by rw [hov]; linarith)
    refine ⟨S, ?_, ?_⟩
    · rw [em, o2, S1]
    · rwa [hov, hol] at S4

/-- C151: the density with non-negative weights (doubles).  If no weight is in the box, every value is NaN; otherwise a cell of weight 0
has density exactly 0, and another cell its weight / volume / weight in the box, with a relative error of at most (2 n + C + 2 D + 1) 2^-52
for `n` data points, `C` cells and `D` axes, whatever the order in which `hist.sum()` adds. -/
theorem C151_weighted_density (sum : List Num → Num) (hs : IsSum sum) (grids : List (List ℚ)) (hg : AxesF grids) (x : List (List Num))
    (w : List ℚ) (hx : ∀ r ∈ x, r.length = grids.length) (hw : w.length = x.length) (hF : ∀ v ∈ w, IsF v ∧ 0 ≤ v) (hb : w.sum ≤ 2 ^ 1022)
    (hK : 2 * x.length + (histShape grids).prod + 2 * grids.length + 1 ≤ 2 ^ 51) :
    ∃ h, fit sum (grids.map fins) true x (some (fins w)) = .ok h ∧ h.shape = histShape grids ∧
      ∀ I, List.Forall₂ (fun i n => i < n) I (histShape grids) →
        let c := cellCount grids (finWts x w) I
        let T := boxWeight grids (finWts x w)
        (T = 0 → h.get? I = some .nan) ∧
        (T ≠ 0 → c = 0 → h.get? I = some (.fin 0)) ∧
        (c ≠ 0 → InRange grids I c T → c / cellVol grids I / T ≤ 2 ^ 1022 → ∃ v, h.get? I = some (.fin v) ∧ 0 < v ∧
          |v - c / cellVol grids I / T|
            ≤ ((2 * x.length + (histShape grids).prod + 2 * grids.length + 1 : Nat) : ℚ) * 2 ^ (-52 : ℤ) * (c / cellVol grids I / T)) := by
  obtain ⟨⟨f, hf⟩, ⟨S, S1, S2⟩, hT0, -⟩ := weight_facts sum hs grids hg x w hx hw hF hb (by omega)
  refine ⟨_, fit_eq sum grids true x _ hx (by intro v hv; cases hv; simpa [fins] using hw), rfl, ?_⟩
  intro I hI c T
  obtain ⟨f1, f2, f3, f4⟩ := hf I hI
  obtain ⟨w1, w2, w3⟩ := widths_spec grids hg I hI
  have hget : (({ shape := histShape grids, data := if true then (Grid.indices (histShape grids)).map (fun I => norm (grids.map fins) I
      (cellSum (grids.map fins) x (some (fins w)) I) (sum ((Grid.indices (histShape grids)).map (cellSum (grids.map fins) x (some (fins w)))))) else
      (Grid.indices (histShape grids)).map (cellSum (grids.map fins) x (some (fins w)))} : Grid.NDArr Num).get? I)
      = some (norm (grids.map fins) I (.fin (f I)) (.fin S)) := by
    simp only [Grid.NDArr.get?, hI, if_true, List.getElem?_map, (Grid.indices_flatIdx _ _ hI).2, Option.map_some]
    rw [S1, f1]
  rw [hget]
  refine ⟨?_, ?_, ?_⟩
  · intro h0
    have hc : cellCount grids (finWts x w) I = 0 := le_antisymm (h0 ▸ f4) f3
    rw [hc] at f2
    have h0' : boxWeight grids (finWts x w) = 0 := h0
    rw [h0'] at S2
    rw [f2.zero, S2.zero, norm, w3, zero_divs _ w1]
    rfl
  · intro h0 hc
    have hc' : cellCount grids (finWts x w) I = 0 := hc
    rw [hc'] at f2
    have hSp := S2.pos (lt_of_le_of_ne hT0 (Ne.symm h0))
    rw [f2.zero, norm, w3, zero_divs _ w1, FloatStandardize.div_fin (x := 0) hSp.ne' (by simp)]
    simp
  · intro hc hr htop
    have hcp : 0 < cellCount grids (finWts x w) I := lt_of_le_of_ne f3 (Ne.symm hc)
    have hTp : 0 < boxWeight grids (finWts x w) := lt_of_lt_of_le hcp f4
    obtain ⟨v, v1, v2⟩ := norm_within grids hg I hI _ _ _ _ _ _ f2 S2 hcp hTp hr htop (by omega)
    have hvolp : 0 < cellVol grids I := by
      rw [← vol_eq]
      exact List.prod_pos (fun d hd => (w1 d hd).1)
    have hpos := div_pos (div_pos hcp hvolp) hTp
    have e : x.length + (x.length + (histShape grids).prod) + 2 * grids.length + 1 = 2 * x.length + (histShape grids).prod + 2 * grids.length + 1 := by
      omega
    rw [e] at v2
    exact ⟨v, congrArg some v1, v2.pos hpos, (v2.close hpos hK).1⟩

/-- C151: the weighted densities times the cell volumes add up to 1 within the same bound. -/
theorem C151_weighted_integral (sum : List Num → Num) (hs : IsSum sum) (grids : List (List ℚ)) (hg : AxesF grids) (x : List (List Num))
    (w : List ℚ) (hx : ∀ r ∈ x, r.length = grids.length) (hw : w.length = x.length) (hF : ∀ v ∈ w, IsF v ∧ 0 ≤ v) (hb : w.sum ≤ 2 ^ 1022)
    (hK : 2 * x.length + (histShape grids).prod + 2 * grids.length + 1 ≤ 2 ^ 51) (hN : boxWeight grids (finWts x w) ≠ 0)
    (hr : ∀ I, List.Forall₂ (fun i n => i < n) I (histShape grids) → cellCount grids (finWts x w) I ≠ 0 →
      InRange grids I (cellCount grids (finWts x w) I) (boxWeight grids (finWts x w)) ∧
      cellCount grids (finWts x w) I / cellVol grids I / boxWeight grids (finWts x w) ≤ 2 ^ 1022) :
    ∃ h, fit sum (grids.map fins) true x (some (fins w)) = .ok h ∧
      (∀ I, List.Forall₂ (fun i n => i < n) I (histShape grids) → ∃ v, h.get? I = some (.fin v) ∧ 0 ≤ v) ∧
      |((Grid.indices (histShape grids)).map (fun I => ((h.get? I).map toQ).getD 0 * cellVol grids I)).sum - 1|
        ≤ ((2 * x.length + (histShape grids).prod + 2 * grids.length + 1 : Nat) : ℚ) * 2 ^ (-52 : ℤ) := by
  obtain ⟨h, h1, -, h3⟩ := C151_weighted_density sum hs grids hg x w hx hw hF hb hK
  obtain ⟨-, -, -, t2⟩ := weight_facts sum hs grids hg x w hx hw hF hb (by omega)
  generalize hKK : ((2 * x.length + (histShape grids).prod + 2 * grids.length + 1 : Nat) : ℚ) * 2 ^ (-52 : ℤ) = ε at *
  generalize hTT : boxWeight grids (finWts x w) = T at *
  have key : ∀ I, List.Forall₂ (fun i n => i < n) I (histShape grids) → ∃ v, h.get? I = some (.fin v) ∧ 0 ≤ v ∧
      |v * cellVol grids I - cellCount grids (finWts x w) I / T| ≤ ε * (cellCount grids (finWts x w) I / T) := by
    intro I hI
    obtain ⟨-, a2, a3⟩ := h3 I hI
    obtain ⟨w1, -, -⟩ := widths_spec grids hg I hI
    have hvolp : 0 < cellVol grids I := by
      rw [← vol_eq]
      exact List.prod_pos (fun d hd => (w1 d hd).1)
    by_cases hc : cellCount grids (finWts x w) I = 0
    · exact ⟨0, a2 hN hc, le_rfl, by simp [hc]⟩
    · obtain ⟨v, v1, v2, v3⟩ := a3 hc (hr I hI hc).1 (hr I hI hc).2
      refine ⟨v, v1, v2.le, ?_⟩
      have e1 : cellCount grids (finWts x w) I / T = cellCount grids (finWts x w) I / cellVol grids I / T * cellVol grids I := by field_simp
      rw [e1, ← sub_mul, abs_mul, abs_of_pos hvolp, ← mul_assoc]
      exact mul_le_mul_of_nonneg_right v3 hvolp.le
  refine ⟨h, h1, fun I hI => by obtain ⟨v, v1, v2, -⟩ := key I hI; exact ⟨v, v1, v2⟩, ?_⟩
  have hb : ((Grid.indices (histShape grids)).map (fun I => cellCount grids (finWts x w) I / T)).sum = 1 := by
    have e : (fun I => cellCount grids (finWts x w) I / T) = fun I => cellCount grids (finWts x w) I * T⁻¹ := by funext I; rw [div_eq_mul_inv]
    rw [e, List.sum_map_mul_right, t2]
    exact mul_inv_cancel₀ hN
  have hc := sum_close ε (Grid.indices (histShape grids))
    (fun I => ((h.get? I).map toQ).getD 0 * cellVol grids I) (fun I => cellCount grids (finWts x w) I / T) (by
      intro I hI
      obtain ⟨v, v1, -, v3⟩ := key I (idx_mem _ _ hI)
      rw [v1]
      exact v3)
  rw [hb, mul_one] at hc
  exact hc

/-! A concrete case: weights 1/2, 1/4 and 3 in the two cells, 7 outside. -/
example : (fit (fun l => l.foldl Num.add (.fin 0)) [[.fin 0, .fin 1, .fin 3], [.fin 0, .fin 2]] true
    [[.fin (1/2), .fin 1], [.fin (1/4), .fin 0], [.fin 3, .fin 2], [.fin 9, .fin 9]] (some [.fin (1/2), .fin (1/4), .fin 3, .fin 7])).map (fun h => (h.shape, h.data))
    = .ok ([2, 1], [.fin (rnd (3/8 / (15/4))), .fin (rnd (3/4 / (15/4)))]) := by decide +kernel

end Pyhipp.FloatHistDensity
