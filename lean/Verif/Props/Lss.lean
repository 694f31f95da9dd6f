import Verif.Model.Lss
import Verif.Props.Binning
import Verif.Props.Stats
import Verif.Props.Frame
import Verif.Lemmas.NpInterp
import Mathlib.Tactic.Ring
import Mathlib.Tactic.Linarith
/-
C105: `BinnedVolumeDensity.from_raw` (src/pyhipp/astro/stats/lss.py).
-/
set_option linter.unusedSectionVars false
namespace Pyhipp.Lss
open Pyhipp Pyhipp.Binning Pyhipp.Stats

variable {σ : Type}

/-! ### Specification -/

/-- `q` is the linearly interpolated quantile of `x` at probability `p`: with the values in
increasing order, position `p (n-1)`. -/
def IsQuantile (x : List ℝ) (p q : ℝ) : Prop :=
  0 ≤ p ∧ p ≤ 1 ∧ ∃ l : List ℝ, l.Perm x ∧ l.Pairwise (· ≤ ·) ∧ ∃ i : Nat,
    (i : ℝ) ≤ p * ((x.length : ℝ) - 1) ∧ p * ((x.length : ℝ) - 1) < (i : ℝ) + 1 ∧
    ∃ a b, l[min i (x.length - 1)]? = some a ∧ l[min (i + 1) (x.length - 1)]? = some b ∧
      q = a + (p * ((x.length : ℝ) - 1) - (i : ℝ)) * (b - a)

/-- The range used for a number of bins: the extremes of the data, its quantiles, the given range,
or the intersection of the given range with the quantiles. -/
def IsRange (x : List ℝ) (range p_range : Option (ℝ × ℝ)) (lo hi : ℝ) : Prop :=
  match range, p_range with
  | none, none => (lo ∈ x ∧ ∀ v ∈ x, lo ≤ v) ∧ (hi ∈ x ∧ ∀ v ∈ x, v ≤ hi)
  | none, some (p, q) => IsQuantile x p lo ∧ IsQuantile x q hi
  | some (a, b), none => lo = a ∧ hi = b
  | some (a, b), some (p, q) => ∃ a' b', IsQuantile x p a' ∧ IsQuantile x q b' ∧
      lo = max a a' ∧ hi = min b b'

/-- The window within which points are used, and the fine edges `e` of the histogram. -/
def IsGrid (x : List ℝ) (bins : BinSpec ℝ) (s : Int) (range p_range : Option (ℝ × ℝ)) (lo hi : ℝ)
    (e : List ℝ) : Prop :=
  match bins with
  | .num n => IsRange x range p_range lo hi ∧ lo ≤ hi ∧ 1 ≤ n * s ∧ (e.length : Int) = n * s + 1 ∧
      ∀ (i : Nat) (h : i < e.length),
        (lo < hi → e[i] = lo + (i : ℝ) * ((hi - lo) / ((n * s : Int) : ℝ))) ∧
        (lo = hi → e[i] = lo - 1 / 2 + (i : ℝ) * (1 / ((n * s : Int) : ℝ)))
  | .edges e0 => range = none ∧ e0.head? = some lo ∧ e0.getLast? = some hi ∧
      e.length = (e0.length - 1) * s.toNat + 1 ∧ e.getLast? = e0.getLast? ∧
      ∀ (i j : Nat) (h : i + 1 < e0.length), j < s.toNat →
        e[i * s.toNat + j]? = some (e0[i] + (j : ℝ) * ((e0[i + 1] - e0[i]) / (s : ℝ)))

/-- One resample: rows of the input drawn among those whose value lies in `[lo, hi)`, as many as
there are (or the maximum size asked for), each value with its own weight (1 if there are none);
noise may have been added to the values. -/
def IsResample (noise : Noise σ) (x : List ℝ) (w : Option (List ℝ)) (lo hi : ℝ) (maxN : Int)
    (pts : List (ℝ × ℝ)) : Prop :=
  ∃ (js : List Nat) (s : σ),
    (∀ j ∈ js, ∃ v, x[j]? = some v ∧ lo ≤ v ∧ v < hi) ∧
    (js.length : Int) = min ((x.filter (fun v => decide (lo ≤ v ∧ v < hi))).length : Int) maxN ∧
    pts.map (fun p => p.1) = (applyNoise noise (js.map (fun j => x.getD j 0)) s).1 ∧
    pts.map (fun p => p.2) = js.map (fun j => match w with | none => 1 | some w => w.getD j 0)

/-- The three arrays of one resample: in each (coarse) bin `[e_i, e_{i+s})` (closed for the last) the
total weight `h`, the density `y = h / (volume width)` and its logarithm bounded from below. -/
def IsSample (pts : List (ℝ × ℝ)) (e : List ℝ) (s : Nat) (volume pad : ℝ) (h y lg_y : List ℝ) : Prop :=
  h.length = e.length - s ∧ y.length = h.length ∧ lg_y.length = h.length ∧
  ∀ (i : Nat) (hi : i + s < e.length), ∃ hh,
    hh = weightOf pts (InInterval e[i] e[i + s] (i + s + 1 = e.length)) ∧
    h[i]? = some hh ∧
    y[i]? = some (hh / (volume * (e[i + s] - e[i]))) ∧
    lg_y[i]? = some (Real.logb 10 (max (hh / (volume * (e[i + s] - e[i]))) pad))

/-! ### Lemmas -/

theorem quantileE_ok (x : List ℝ) (p q : ℝ) (h : quantileE x p = .ok q) : IsQuantile x p q := by
  unfold quantileE at h
  split at h
  · cases h
  · rename_i hp
    push Not at hp
    split at h
    · cases h
    · rename_i hne
      cases h
      have h0 : 0 ≤ p ∧ p ≤ 1 := by tauto
      obtain ⟨i, a, b, c⟩ := Reduction.npQuantile_eq x p hne h0.1
      have hn : 0 < x.length := List.length_pos_iff.mpr hne
      have hl := npSort_length x
      refine ⟨h0.1, h0.2, npSort x, npSort_perm x, npSort_sorted x, i, a, b, _, _,
        List.getElem?_eq_getElem (by omega), List.getElem?_eq_getElem (by omega), ?_⟩
      rw [c, getD_lt _ _ _ (by omega), getD_lt _ _ _ (by omega)]

theorem npExtremes_ok (x : List ℝ) (r : ℝ × ℝ) (h : npExtremes x = .ok r) :
    (r.1 ∈ x ∧ ∀ v ∈ x, r.1 ≤ v) ∧ (r.2 ∈ x ∧ ∀ v ∈ x, v ≤ r.2) := by
  unfold npExtremes at h
  split at h
  · rename_i a b ha hb
    cases h
    rw [List.min?_eq_some_iff] at ha
    rw [List.max?_eq_some_iff] at hb
    exact ⟨ha, hb⟩
  · cases h

theorem parsePRange_ok (x : List ℝ) (range p : Option (ℝ × ℝ)) (r : ℝ × ℝ)
    (h : parsePRange (some x) range p = .ok r) : IsRange x range p r.1 r.2 := by
  rcases range with _ | ⟨a, b⟩ <;> rcases p with _ | ⟨p, q⟩ <;>
    simp only [parsePRange, bind, Except.bind, pure, Except.pure] at h
  · exact npExtremes_ok x r h
  · split at h
    · cases h
    · rename_i h1
      split at h
      · cases h
      · rename_i h2
        cases h
        exact ⟨quantileE_ok _ _ _ h1, quantileE_ok _ _ _ h2⟩
  · cases h; exact ⟨rfl, rfl⟩
  · split at h
    · cases h
    · rename_i h1
      split at h
      · cases h
      · rename_i h2
        cases h
        exact ⟨_, _, quantileE_ok _ _ _ h1, quantileE_ok _ _ _ h2, rfl, rfl⟩

/-- The indices of the rows in the window. -/
noncomputable def idxs (x : List ℝ) (lo hi : ℝ) : List Nat :=
  (List.range x.length).filter (fun j => decide (lo ≤ x.getD j 0 ∧ x.getD j 0 < hi))

theorem idxs_mem (x : List ℝ) (lo hi : ℝ) (j : Nat) (h : j ∈ idxs x lo hi) :
    ∃ v, x[j]? = some v ∧ lo ≤ v ∧ v < hi := by
  unfold idxs at h
  rw [List.mem_filter, List.mem_range, decide_eq_true_iff] at h
  obtain ⟨h1, h2⟩ := h
  rw [getD_lt _ _ _ h1] at h2
  exact ⟨x[j], List.getElem?_eq_getElem h1, h2⟩

theorem map_range_getD (x : List ℝ) : (List.range x.length).map (fun j => x.getD j 0) = x := by
  apply List.ext_getElem
  · simp
  · intro i h1 h2
    simp [h2]

theorem idxs_length (x : List ℝ) (lo hi : ℝ) :
    (idxs x lo hi).length = (x.filter (fun v => decide (lo ≤ v ∧ v < hi))).length := by
  conv_rhs => rw [← map_range_getD x, List.filter_map, List.length_map]
  rfl

theorem maskSel_ok (x v : List ℝ) (lo hi : ℝ) (r : List ℝ)
    (h : maskSel v (x.map (fun a => decide (a ≥ lo) && decide (a < hi))) = .ok r) :
    v.length = x.length ∧ r = (idxs x lo hi).map (fun j => v.getD j 0) := by
  unfold maskSel at h
  split at h
  · rename_i hl
    rw [List.length_map] at hl
    cases h
    refine ⟨hl, ?_⟩
    have e : v.zip (x.map (fun a => decide (a ≥ lo) && decide (a < hi)))
        = (List.range x.length).map (fun j =>
          (v.getD j 0, decide (lo ≤ x.getD j 0 ∧ x.getD j 0 < hi))) := by
      apply List.ext_getElem
      · simp [hl]
      · intro i h1 h2
        simp only [List.length_map, List.length_range] at h2
        have h3 : i < v.length := by omega
        simp [h2, h3]
    rw [e, List.filterMap_map, idxs, ← List.filterMap_eq_filter, List.map_filterMap]
    congr 1
    funext j
    simp only [Function.comp, Option.guard]
    split <;> rfl
  · cases h

theorem histDict_ok (x : List ℝ) (bins : BinSpec ℝ) (s : Int) (range : ℝ × ℝ) (w : Option (List ℝ))
    (volume pad : ℝ) (o : PyDict String (List ℝ)) (h : histDict x bins s range w volume pad = .ok o) :
    ∃ (e xc dx hh y lgy : List ℝ),
      o = [("x", xc), ("dx", dx), ("sub_e", e), ("h", hh), ("y", y), ("lg_y", lgy)] ∧
      1 ≤ s ∧ s + 1 ≤ e.length ∧ histEdges bins range = .ok e ∧ e.Pairwise (· ≤ ·) ∧
      xc.length = e.length - s.toNat ∧ dx.length = e.length - s.toNat ∧
      (w.getD (x.map (fun _ => 1))).length = x.length ∧
      (∀ (i : Nat) (hi : i + s.toNat < e.length), xc[i]? = some ((1 / 2) * (e[i] + e[i + s.toNat])) ∧
        dx[i]? = some (e[i + s.toNat] - e[i])) ∧
      IsSample (x.zip (w.getD (x.map (fun _ => 1)))) e s.toNat volume pad hh y lgy := by
  unfold histDict at h
  cases hf : fromOverlappedBins x bins s range w with
  | error q => rw [hf] at h; cases h
  | ok r =>
    rw [hf] at h
    simp only [bind, Except.bind, pure, Except.pure] at h
    cases h
    obtain ⟨h1, h2, h3, h4, h5, h6, h7, h8⟩ := C43_overlap x bins s range w r hf
    have hw : (w.getD (x.map (fun _ => 1))).length = x.length := by
      unfold fromOverlappedBins at hf
      simp only at hf
      split at hf
      · cases hf
      · rename_i hh; push Not at hh; exact hh
    refine ⟨r.subE, r.x, r.dx, r.h, _, _, rfl, h1, h4, h2, h3, by omega, by omega, hw,
      fun i hi => ⟨(h8 i hi).1, (h8 i hi).2.1⟩, by omega, by simp [h7], by simp [h7], ?_⟩
    intro i hi
    obtain ⟨-, d2, d3⟩ := h8 i hi
    refine ⟨_, rfl, d3, ?_, ?_⟩
    · simp [List.getElem?_zipWith, d2, d3]
    · simp [List.getElem?_zipWith, d2, d3, Frame.safeLg, Frame.lg, Frame.boundLo_eq]

/-- The weights column of the data set, if there are weights. -/
noncomputable def wCol (x : List ℝ) (w : Option (List ℝ)) (lo hi : ℝ) : PyDict String (List ℝ) :=
  match w with
  | none => []
  | some w => [("weights", (idxs x lo hi).map (fun j => w.getD j 0))]

theorem dsetIn_ok (x : List ℝ) (w : Option (List ℝ)) (lo hi : ℝ) (d : PyDict String (List ℝ))
    (h : dsetIn x w (x.map (fun v => decide (v ≥ lo) && decide (v < hi))) = .ok d) :
    d = ("x_to_bin", (idxs x lo hi).map (fun j => x.getD j 0)) ::
      wCol x w lo hi ∧
    ∀ w', w = some w' → w'.length = x.length := by
  unfold dsetIn at h
  simp only [bind, Except.bind, pure, Except.pure] at h
  split at h
  · cases h
  · rename_i xs hx
    obtain ⟨-, rfl⟩ := maskSel_ok x x lo hi xs hx
    rcases w with _ | w
    · cases h; exact ⟨rfl, by simp⟩
    · simp only at h
      split at h
      · cases h
      · rename_i ws hws
        obtain ⟨hl, rfl⟩ := maskSel_ok x w lo hi ws hws
        cases h
        refine ⟨rfl, ?_⟩
        rintro _ ⟨⟩
        exact hl

theorem map_some_inj {γ : Type} (a b : List γ) (h : a.map some = b.map some) : a = b := by
  have := congrArg (List.filterMap id) h
  simpa [List.filterMap_map] using this

theorem drawn (v : Nat → ℝ) (ix ids : List Nat) (hids : ∀ j ∈ ids, j < ix.length) (col : List ℝ)
    (h : col.map some = ids.map (fun j => (ix.map v)[j]?)) :
    col = (ids.map (fun j => ix.getD j 0)).map v := by
  apply map_some_inj
  rw [h, List.map_map, List.map_map]
  apply List.map_congr_left
  intro j hj
  simp [hids j hj]

theorem loop_ok (choice : Nat → Nat → σ → List Nat × σ) (hc : ChoiceOK choice) (noise : Noise σ)
    (hnoise : ∀ f, noise = some f → ∀ x s, (f x s).1.length = x.length)
    (stat : List ℝ → Option (List ℝ) → PyM (PyDict String (List ℝ)))
    (x : List ℝ) (w : Option (List ℝ)) (lo hi : ℝ) (d : PyDict String (List ℝ))
    (hd : d = ("x_to_bin", (idxs x lo hi).map (fun j => x.getD j 0)) ::
      wCol x w lo hi)
    (maxs : Option (List Int)) (hm : ∀ l, maxs = some l → ∃ m, l = [m] ∧ 0 ≤ m)
    (n : Nat) (s : σ) (outs : List (PyDict String (List ℝ)))
    (h : volumeLoop choice noise stat d maxs n s = .ok outs) :
    outs.length = n ∧ ∀ o ∈ outs, ∃ (js : List Nat) (s0 : σ),
      (∀ j ∈ js, ∃ v, x[j]? = some v ∧ lo ≤ v ∧ v < hi) ∧
      (js.length : Int) = min ((x.filter (fun v => decide (lo ≤ v ∧ v < hi))).length : Int)
        (maxs.elim (2 ^ 60) (fun l => l.getD 0 0)) ∧
      stat (applyNoise noise (js.map (fun j => x.getD j 0)) s0).1
        (w.map (fun w => js.map (fun j => w.getD j 0))) = .ok o := by
  induction n generalizing s outs with
  | zero => cases h; simp
  | succ n ih =>
      rw [volumeLoop] at h
      obtain ⟨out, s', ids, r1, r2, r3, r4⟩ := C50_resample choice hc [d] maxs s
        (by intro l hl; obtain ⟨m, rfl, h0⟩ := hm l hl; simpa using h0)
        (by
          intro d' hd'
          rw [List.mem_singleton] at hd'
          subst hd'
          refine ⟨(idxs x lo hi).length, ?_⟩
          subst hd
          rcases w with _ | w <;> simp [wCol])
        (by subst hd; rcases w with _ | w <;> simp [wCol])
      obtain ⟨c0, c1, col, c2, c3⟩ := r4 0 (by simp) (by simp at r2; omega) "x_to_bin"
        ((idxs x lo hi).map (fun j => x.getD j 0)) (by simp [hd])
      set id0 := ids[0]'(by simp at r2; omega) with hid0
      have hids : ∀ j ∈ id0, j < (idxs x lo hi).length := by
        intro j hj; simpa using c1 j hj
      have hcol := drawn _ _ _ hids col c3
      have hwts : out.get? "weights" = w.map (fun w => (id0.map (fun j => (idxs x lo hi).getD j 0)).map
          (fun j => w.getD j 0)) := by
        rcases w with _ | w
        · rw [Option.map_none, PyDict.get?_eq_none_iff]
          show "weights" ∉ out.map (fun kv => kv.1)
          rw [r3, hd]
          simp [wCol]
        · obtain ⟨-, -, col', d2, d3⟩ := r4 0 (by simp) (by simp at r2; omega) "weights"
            ((idxs x lo hi).map (fun j => w.getD j 0)) (by simp [hd, wCol])
          rw [d2, drawn _ _ _ hids col' d3, Option.map_some]
      simp only [r1, bind, Except.bind, getItem, c2] at h
      split at h
      · cases h
      · rename_i o ho
        split at h
        · cases h
        · rename_i rest hrest
          cases h
          obtain ⟨i1, i2⟩ := ih _ _ hrest
          refine ⟨by simp [i1], ?_⟩
          intro o' ho'
          rcases List.mem_cons.mp ho' with rfl | ho'
          · refine ⟨id0.map (fun j => (idxs x lo hi).getD j 0), s', ?_, ?_, ?_⟩
            · intro j hj
              obtain ⟨k, hk, rfl⟩ := List.mem_map.mp hj
              rw [getD_lt _ _ _ (hids k hk)]
              exact idxs_mem x lo hi _ (List.getElem_mem _)
            · rw [List.length_map, c0, List.length_map, idxs_length]
            · rw [← hcol, ← hwts]; exact ho
          · exact i2 o' ho'

theorem applyNoise_length (noise : Noise σ)
    (hnoise : ∀ f, noise = some f → ∀ x s, (f x s).1.length = x.length) (x : List ℝ) (s : σ) :
    (applyNoise noise x s).1.length = x.length := by
  rcases noise with _ | f
  · rfl
  · exact hnoise f rfl x s

/-! ### C105 -/

theorem rangeFor_ok (x : List ℝ) (bins : BinSpec ℝ) (s : Int) (range p : Option (ℝ × ℝ))
    (r : Option (ℝ × ℝ)) (hr : rangeFor x bins range p = .ok r) (b' : BinSpec ℝ) (s' : Int) (lo hi : ℝ)
    (hp : parseSubBinSpec bins s r = .ok (b', s', (lo, hi))) (e : List ℝ)
    (he : histEdges b' (r.getD (lo, hi)) = .ok e) :
    s' = s ∧ 1 ≤ s ∧ IsGrid x bins s range p lo hi e := by
  by_cases hs : 1 ≤ s
  swap
  · exfalso
    simp [parseSubBinSpec, pyAssert, hs, bind, Except.bind] at hp
  rcases bins with n | e0
  · simp only [rangeFor, bind, Except.bind, pure, Except.pure] at hr
    split at hr
    · cases hr
    · rename_i q hq
      cases hr
      rw [(C42_parse_num n s q hs).1] at hp
      cases hp
      refine ⟨rfl, hs, ?_⟩
      have hR := parsePRange_ok x range p (lo, hi) hq
      simp only [Option.getD_some, histEdges] at he
      split at he
      · cases he
      · rename_i h1
        split at he
        · cases he
        · rename_i h2
          have hns : ((n * s).toNat : ℝ) = ((n * s : Int) : ℝ) := by
            exact_mod_cast congrArg (Int.cast (R := ℝ)) (Int.toNat_of_nonneg (show 0 ≤ n * s by omega))
          split at he
          · rename_i h3
            cases he
            refine ⟨hR, not_lt.mp h1, by omega, by rw [linspace_length]; omega, fun i h => ?_⟩
            rw [linspace_get]
            refine ⟨fun hlt => absurd h3 hlt.ne, fun _ => ?_⟩
            have h3' : hi = lo := h3.symm
            rw [hns, h3']
            ring
          · rename_i h3
            cases he
            refine ⟨hR, not_lt.mp h1, by omega, by rw [linspace_length]; omega, fun i h => ?_⟩
            rw [linspace_get]
            exact ⟨fun _ => by rw [hns], fun heq => absurd heq h3⟩
  · cases hr
    have hne : e0 ≠ [] := by
      rintro rfl
      have hg : ∀ i : Int, pyGet ([] : List ℝ) i = .error .indexError := by
        intro i; unfold pyGet; split
        · simp
        · split
          · simp
          · rfl
      by_cases h1 : s.toNat = 1
      · cases range <;>
          simp [parseSubBinSpec, insertSubBins, pyAssert, hs, bind, Except.bind, h1, hg] at hp
      · cases range <;>
          simp [parseSubBinSpec, insertSubBins, pyAssert, hs, bind, Except.bind, h1, hg] at hp
    obtain ⟨⟨q, lo', hi', q1, q2, q3, q4⟩, q5⟩ := C42_parse_edges e0 hne s hs
    rcases range with _ | range
    swap
    · rw [q5] at hp; cases hp
    rw [q1] at hp
    cases hp
    refine ⟨rfl, hs, rfl, q3, q4, ?_⟩
    obtain ⟨r', r1, r2, r3, r4⟩ := C42_insert e0 s.toNat (by omega) hne
    rw [q2] at r1
    cases r1
    simp only [histEdges] at he
    split at he
    · cases he
      refine ⟨r2, r4, fun i j h hj => ?_⟩
      rw [r3 i j h hj]
      have : ((s.toNat : Nat) : ℝ) = ((s : Int) : ℝ) := by
        exact_mod_cast congrArg (Int.cast (R := ℝ)) (Int.toNat_of_nonneg (show 0 ≤ s by omega))
      rw [this]
    · cases he

/-- A sample: the drawn points and the three arrays. -/
structure Sample where
  pts : List (ℝ × ℝ)
  h : List ℝ
  y : List ℝ
  lg_y : List ℝ

theorem collect_forms {γ δ : Type} (outs : List δ) (f : γ → δ) (P : γ → Prop)
    (h : ∀ o ∈ outs, ∃ q, o = f q ∧ P q) : ∃ S : List γ, outs = S.map f ∧ ∀ q ∈ S, P q := by
  induction outs with
  | nil => exact ⟨[], rfl, by simp⟩
  | cons o t ih =>
      obtain ⟨S, h1, h2⟩ := ih (fun o ho => h o (by simp [ho]))
      obtain ⟨q, q1, q2⟩ := h o (by simp)
      refine ⟨q :: S, by simp [h1, q1], ?_⟩
      intro q' hq'
      rcases List.mem_cons.mp hq' with rfl | h'
      · exact q2
      · exact h2 q' h'

theorem ext_of_entries (a b : List ℝ) (n : Nat) (ha : a.length = n) (hb : b.length = n)
    (h : ∀ i < n, a[i]? = b[i]?) : a = b := by
  apply List.ext_getElem?
  intro i
  by_cases hi : i < n
  · exact h i hi
  · rw [List.getElem?_eq_none (by omega), List.getElem?_eq_none (by omega)]

/-- The names in the result. -/
def outNames : List String :=
  ["x", "dx", "sub_e", "h", "h_sd", "h_samples", "y", "y_sd", "y_samples", "lg_y", "lg_y_sd", "lg_y_samples"]

/-- Entry-wise mean and (population) standard deviation of the arrays `rows`, under two names of a
result. -/
def IsMeanSd (res : PyDict String BVal) (key keySd : String) (m : Nat) (rows : List (List ℝ)) : Prop :=
  ∃ mean sd, res.get? key = some (.vec mean) ∧ res.get? keySd = some (.vec sd) ∧
    mean.length = m ∧ sd.length = m ∧ ∀ j < m, ∃ vals : List ℝ,
      vals = rows.map (fun r => r.getD j 0) ∧
      mean[j]? = some (vals.sum / (vals.length : ℝ)) ∧
      sd[j]? = some (Real.sqrt ((vals.map (fun a => (a - vals.sum / (vals.length : ℝ)) ^ 2)).sum
        / (vals.length : ℝ)))

/-- C105: the whole result.  A successful call has used a window `[lo, hi)` and fine edges `e` that
the arguments determine (`IsGrid`); there is one sample per resample (at least one), each made of
rows inside the window with their own weights (`IsResample`), binned and divided by volume times bin
width (`IsSample`); the result holds the samples, their entry-wise mean and standard deviation, the
edges, the bin centres and the widths, and nothing else. -/
theorem C105_density (choice : Nat → Nat → σ → List Nat × σ) (hc : ChoiceOK choice) (noise : Noise σ)
    (hnoise : ∀ f, noise = some f → ∀ x s, (f x s).1.length = x.length)
    (x : List ℝ) (volume : ℝ) (bins : BinSpec ℝ) (sub_bins : Int) (range p_range : Option (ℝ × ℝ))
    (w : Option (List ℝ)) (nb : Int) (pad : ℝ) (maxs : Option (List Int))
    (hm : ∀ l, maxs = some l → ∃ m, l = [m] ∧ 0 ≤ m) (s : σ) (res : PyDict String BVal)
    (h : fromRaw choice x volume bins sub_bins range p_range w nb noise pad maxs s = .ok res) :
    ∃ (lo hi : ℝ) (e : List ℝ) (S : List Sample),
      1 ≤ sub_bins ∧ sub_bins + 1 ≤ e.length ∧ e.Pairwise (· ≤ ·) ∧
      IsGrid x bins sub_bins range p_range lo hi e ∧
      (∀ w', w = some w' → w'.length = x.length) ∧
      1 ≤ nb ∧ (S.length : Int) = nb ∧
      (∀ q ∈ S, IsResample noise x w lo hi (maxs.elim (2 ^ 60) (fun l => l.getD 0 0)) q.pts ∧
        IsSample q.pts e sub_bins.toNat volume pad q.h q.y q.lg_y) ∧
      res.get? "h_samples" = some (.mat (S.map Sample.h)) ∧
      res.get? "y_samples" = some (.mat (S.map Sample.y)) ∧
      res.get? "lg_y_samples" = some (.mat (S.map Sample.lg_y)) ∧
      IsMeanSd res "h" "h_sd" (e.length - sub_bins.toNat) (S.map Sample.h) ∧
      IsMeanSd res "y" "y_sd" (e.length - sub_bins.toNat) (S.map Sample.y) ∧
      IsMeanSd res "lg_y" "lg_y_sd" (e.length - sub_bins.toNat) (S.map Sample.lg_y) ∧
      res.get? "sub_e" = some (.vec e) ∧
      (∃ xc dx, res.get? "x" = some (.vec xc) ∧ res.get? "dx" = some (.vec dx) ∧
        xc.length = e.length - sub_bins.toNat ∧ dx.length = e.length - sub_bins.toNat ∧
        ∀ (i : Nat) (hi : i + sub_bins.toNat < e.length),
          xc[i]? = some ((1 / 2) * (e[i] + e[i + sub_bins.toNat])) ∧
          dx[i]? = some (e[i + sub_bins.toNat] - e[i])) ∧
      ∀ k, k ∉ outNames → res.get? k = none := by
  unfold fromRaw at h
  simp only [bind, Except.bind] at h
  split at h
  · cases h
  rename_i r hr
  split at h
  · cases h
  rename_i q hq
  obtain ⟨b', s', lo, hi⟩ := q
  simp only at h
  split at h
  · cases h
  rename_i d hd
  split at h
  · cases h
  rename_i outs houts
  obtain ⟨hd1, hd2⟩ := dsetIn_ok x w lo hi d hd
  obtain ⟨hl, hall⟩ := loop_ok choice hc noise hnoise _ x w lo hi d hd1 maxs hm _ s outs houts
  have hne : outs ≠ [] := by
    rintro rfl
    have : ∀ res, ∃ r, ["h", "y", "lg_y"].foldlM (fun res key => collectKey true [] key res) res = .ok r := by
      intro res; exact ⟨_, rfl⟩
    obtain ⟨r', hr'⟩ := this []
    simp [collect, hr', bind, Except.bind] at h
  have hnb : 1 ≤ nb := by
    have : outs.length ≠ 0 := by simpa using hne
    omega
  -- the grid
  obtain ⟨o0, ho0⟩ := List.exists_mem_of_ne_nil _ hne
  obtain ⟨js0, s00, -, -, hst0⟩ := hall o0 ho0
  obtain ⟨e, xc, dx, hh0, y0, lg0, -, g1, g2, g3, g4, g5, g6, -, g7, -⟩ := histDict_ok _ _ _ _ _ _ _ _ hst0
  obtain ⟨rfl, hs1, hgrid⟩ := rangeFor_ok x bins sub_bins range p_range r hr b' s' lo hi hq e g3
  obtain ⟨S, hS1, hS2⟩ := collect_forms outs
    (fun q : Sample => [("x", xc), ("dx", dx), ("sub_e", e), ("h", q.h), ("y", q.y), ("lg_y", q.lg_y)])
    (fun q => IsResample noise x w lo hi (maxs.elim (2 ^ 60) (fun l => l.getD 0 0)) q.pts ∧
        IsSample q.pts e s'.toNat volume pad q.h q.y q.lg_y) (by
      intro o ho
      obtain ⟨js, s0, j1, j2, hst⟩ := hall o ho
      obtain ⟨e', xc', dx', hh, y, lg, k0, -, -, k3, -, k5, k6, kw, k7, k8⟩ := histDict_ok _ _ _ _ _ _ _ _ hst
      rw [g3] at k3
      cases k3
      have e1 : xc' = xc := ext_of_entries _ _ _ k5 g5 fun i hi => by
        rw [(k7 i (by omega)).1, (g7 i (by omega)).1]
      have e2 : dx' = dx := ext_of_entries _ _ _ k6 g6 fun i hi => by
        rw [(k7 i (by omega)).2, (g7 i (by omega)).2]
      subst e1 e2
      refine ⟨⟨_, hh, y, lg⟩, k0, ⟨js, s0, j1, j2, ?_, ?_⟩, k8⟩
      · exact List.map_fst_zip (by rw [kw])
      · refine Eq.trans (List.map_snd_zip (by rw [kw])) ?_
        · rcases w with _ | w
          · have := applyNoise_length noise hnoise (js.map (fun j => x.getD j 0)) s0
            simp only [Option.map_none, Option.getD_none]
            apply List.ext_getElem
            · simpa using this
            · intro i h1 h2; simp
          · rfl)
  subst hS1
  rcases S with _ | ⟨q0, t⟩
  · simp at hne
  have hlen : ∀ q ∈ q0 :: t, q.h.length = e.length - s'.toNat ∧ q.y.length = e.length - s'.toNat ∧
      q.lg_y.length = e.length - s'.toNat := by
    intro q hq
    obtain ⟨-, a, b, c, -⟩ := hS2 q hq
    omega
  obtain ⟨res', c1, c2, c3⟩ := C50_output ["h", "y", "lg_y"] true
    [("x", xc), ("dx", dx), ("sub_e", e), ("h", q0.h), ("y", q0.y), ("lg_y", q0.lg_y)]
    (t.map (fun q : Sample => [("x", xc), ("dx", dx), ("sub_e", e), ("h", q.h), ("y", q.y), ("lg_y", q.lg_y)]))
    (by show ["x", "dx", "sub_e", "h", "y", "lg_y"].Nodup; decide) (fun _ => e.length - s'.toNat)
    (by
      intro key hkey d hd
      have hd' : d ∈ (q0 :: t).map (fun q : Sample =>
          ([("x", xc), ("dx", dx), ("sub_e", e), ("h", q.h), ("y", q.y), ("lg_y", q.lg_y)] : PyDict String (List ℝ))) := hd
      obtain ⟨q, hq, rfl⟩ := List.mem_map.mp hd'
      obtain ⟨a, b, c⟩ := hlen q hq
      simp only [List.mem_cons, List.not_mem_nil, or_false] at hkey
      rcases hkey with rfl | rfl | rfl
      · exact ⟨q.h, by simp [PyDict.get?], a⟩
      · exact ⟨q.y, by simp [PyDict.get?], b⟩
      · exact ⟨q.lg_y, by simp [PyDict.get?], c⟩)
    (by decide)
  rw [List.map_cons, c1] at h
  cases h
  have hother : ∀ k, k ∉ ["h", "y", "lg_y"].flatMap (namesOf true) → res.get? k =
      (PyDict.get? [("x", xc), ("dx", dx), ("sub_e", e), ("h", q0.h), ("y", q0.y), ("lg_y", q0.lg_y)] k).map BVal.vec := c3
  obtain ⟨m1, sd1, a1, a2, a3, a4, a5, a6⟩ := c2 "h" (by simp)
  obtain ⟨m2, sd2, b1, b2, b3, b4, b5, b6⟩ := c2 "y" (by simp)
  obtain ⟨m3, sd3, d1, d2, d3, d4, d5, d6⟩ := c2 "lg_y" (by simp)
  refine ⟨lo, hi, e, q0 :: t, hs1, g2, g4, hgrid, hd2, hnb, by rw [List.length_map] at hl; omega, hS2,
    ?_, ?_, ?_, ?_, ?_, ?_, ?_, ⟨xc, dx, ?_, ?_, g5, g6, g7⟩, ?_⟩
  · have := a6 rfl
    simpa [PyDict.get?, Function.comp_def] using this
  · have := b6 rfl
    simpa [PyDict.get?, Function.comp_def] using this
  · have := d6 rfl
    simpa [PyDict.get?, Function.comp_def] using this
  · refine ⟨m1, sd1, a1, a2, a3, a4, fun j hj => ?_⟩
    obtain ⟨vals, v1, v2, v3⟩ := a5 j hj
    exact ⟨vals, by rw [v1]; simp [PyDict.get?, Function.comp_def], v2, v3⟩
  · refine ⟨m2, sd2, b1, b2, b3, b4, fun j hj => ?_⟩
    obtain ⟨vals, v1, v2, v3⟩ := b5 j hj
    exact ⟨vals, by rw [v1]; simp [PyDict.get?, Function.comp_def], v2, v3⟩
  · refine ⟨m3, sd3, d1, d2, d3, d4, fun j hj => ?_⟩
    obtain ⟨vals, v1, v2, v3⟩ := d5 j hj
    exact ⟨vals, by rw [v1]; simp [PyDict.get?, Function.comp_def], v2, v3⟩
  · rw [hother _ (by decide)]; simp [PyDict.get?]
  · rw [hother _ (by decide)]; simp [PyDict.get?]
  · rw [hother _ (by decide)]; simp [PyDict.get?]
  · intro k hk
    have hk' : k ∉ ["h", "y", "lg_y"].flatMap (namesOf true) := fun hmem => hk (by
      have : ["h", "y", "lg_y"].flatMap (namesOf true) = ["h", "h_sd", "h_samples", "y", "y_sd",
        "y_samples", "lg_y", "lg_y_sd", "lg_y_samples"] := by decide
      rw [this] at hmem
      simp only [outNames, List.mem_cons, List.not_mem_nil, or_false] at hmem ⊢
      tauto)
    rw [hother k hk']
    simp only [outNames, List.mem_cons, List.not_mem_nil, or_false, not_or] at hk
    obtain ⟨n1, n2, n3, n4, -, -, n5, -, -, n6, -, -⟩ := hk
    simp [PyDict.get?, Ne.symm n1, Ne.symm n2, Ne.symm n3, Ne.symm n4, Ne.symm n5, Ne.symm n6]

/-- Coarse bins `0, s, 2s, ...` tile the fine edges: their total weight is that of the points between
the first edge and the last of them. -/
theorem tiles (pts : List (ℝ × ℝ)) (e : List ℝ) (he : e.Pairwise (· ≤ ·)) (s : Nat) (hs : 1 ≤ s)
    (volume pad : ℝ) (h y lg : List ℝ) (hS : IsSample pts e s volume pad h y lg) (m : Nat) (hm : 1 ≤ m)
    (hl : m * s < e.length) :
    ((List.range m).map (fun k => h.getD (k * s) 0)).sum
      = weightOf pts (InInterval (e[0]'(by omega)) e[m * s] (m * s + 1 = e.length)) := by
  have hent : ∀ k, (hk : (k + 1) * s < e.length) →
      h.getD (k * s) 0 = weightOf pts (InInterval (e[k * s]'(by nlinarith)) e[(k + 1) * s]
        ((k + 1) * s + 1 = e.length)) := by
    intro k hk
    have e0 : k * s + s = (k + 1) * s := by ring
    obtain ⟨hh, h1, h2, -⟩ := hS.2.2.2 (k * s) (by omega)
    rw [List.getD_eq_getElem?_getD, h2, Option.getD_some, h1]
    simp only [e0]
  induction m with
  | zero => omega
  | succ m ih =>
      rcases Nat.eq_zero_or_pos m with rfl | hm'
      · simp only [Nat.zero_add, List.range_one, List.map_cons, List.map_nil, List.sum_cons,
          List.sum_nil, add_zero]
        have := hent 0 (by simpa using hl)
        simpa using this
      · have hms : m * s < e.length := by nlinarith
        rw [List.range_succ, List.map_append, List.sum_append, ih hm' hms]
        simp only [List.map_cons, List.map_nil, List.sum_cons, List.sum_nil, add_zero]
        rw [hent m hl, weightOf_or]
        · apply weightOf_congr
          intro v
          have h1 : e[0]'(by omega) ≤ e[m * s] := pw_le he (by omega) hms
          have h2 : e[m * s] ≤ e[(m + 1) * s] := pw_le he (by nlinarith) hl
          have hne : ¬ (m * s + 1 = e.length) := by nlinarith
          simp only [InInterval, hne, false_and, or_false]
          constructor
          · rintro (⟨a, b⟩ | ⟨a, b⟩)
            · exact ⟨a, Or.inl (lt_of_lt_of_le b h2)⟩
            · exact ⟨le_trans h1 a, b⟩
          · rintro ⟨a, b⟩
            by_cases hv : v < e[m * s]
            · exact Or.inl ⟨a, hv⟩
            · exact Or.inr ⟨not_lt.mp hv, b⟩
        · rintro v ⟨⟨a, b⟩, c, d⟩
          rcases b with b | ⟨b, -⟩
          · exact absurd b (not_lt.mpr c)
          · have : ¬ (m * s + 1 = e.length) := by nlinarith
            exact this b

theorem weightOf_all (pts : List (ℝ × ℝ)) (P : ℝ → Prop) (h : ∀ p ∈ pts, P p.1) :
    weightOf pts P = (pts.map (fun p => p.2)).sum := by
  classical
  unfold weightOf
  rw [List.filter_eq_self.mpr]
  intro p hp
  exact decide_eq_true (h p hp)

/-- The window lies within the edges, and the edges are a whole number of coarse bins. -/
theorem grid_ends (x : List ℝ) (bins : BinSpec ℝ) (s : Int) (hs : 1 ≤ s) (range p : Option (ℝ × ℝ))
    (lo hi : ℝ) (e : List ℝ) (hlen : s + 1 ≤ e.length) (hg : IsGrid x bins s range p lo hi e) :
    e[0]'(by omega) ≤ lo ∧ hi ≤ e[e.length - 1]'(by omega) ∧
      ∃ m : Nat, 1 ≤ m ∧ e.length = m * s.toNat + 1 := by
  rcases bins with n | e0
  · obtain ⟨-, h1, h2, h3, h4⟩ := hg
    have hnp : 1 ≤ n := by nlinarith
    have hlast : ((e.length - 1 : Nat) : ℝ) = ((n * s : Int) : ℝ) := by
      have : ((e.length - 1 : Nat) : Int) = n * s := by omega
      exact_mod_cast congrArg (Int.cast (R := ℝ)) this
    have hpos : (0 : ℝ) < ((n * s : Int) : ℝ) := by exact_mod_cast h2
    refine ⟨?_, ?_, n.toNat, by omega, ?_⟩
    · rcases lt_or_eq_of_le h1 with h | h
      · rw [(h4 0 (by omega)).1 h]; simp
      · rw [(h4 0 (by omega)).2 h]; simp
    · rcases lt_or_eq_of_le h1 with h | h
      · rw [(h4 _ (by omega)).1 h, hlast, mul_div_cancel₀ _ hpos.ne']; linarith
      · rw [(h4 _ (by omega)).2 h, hlast, mul_div_cancel₀ _ hpos.ne']; linarith
    · have : ((n.toNat * s.toNat : Nat) : Int) = n * s := by
        push_cast
        rw [Int.toNat_of_nonneg (by omega), Int.toNat_of_nonneg (by omega)]
      omega
  · obtain ⟨-, h1, h2, h3, h4, h5⟩ := hg
    have hne : e ≠ [] := by rintro rfl; simp at hlen; omega
    have hm : 1 ≤ e0.length - 1 := by
      by_contra hcon
      have : e0.length - 1 = 0 := by omega
      rw [this] at h3
      omega
    refine ⟨?_, ?_, e0.length - 1, hm, h3⟩
    · have := h5 0 0 (by omega) (by omega)
      rw [Nat.zero_mul, Nat.add_zero, List.getElem?_eq_getElem (by omega)] at this
      rw [Option.some.inj this]
      rw [List.head?_eq_getElem?, List.getElem?_eq_getElem (by omega)] at h1
      rw [Option.some.inj h1]; simp
    · rw [h2, List.getLast?_eq_getElem?, List.getElem?_eq_getElem (by omega)] at h4
      rw [Option.some.inj h4]

/-- C105: no point is lost and none is counted twice.  Without noise, in every resample the
non-overlapping coarse bins `0, s, 2s, ...` together hold the total weight of the points drawn. -/
theorem C105_total (choice : Nat → Nat → σ → List Nat × σ) (hc : ChoiceOK choice)
    (x : List ℝ) (volume : ℝ) (bins : BinSpec ℝ) (sub_bins : Int) (range p_range : Option (ℝ × ℝ))
    (w : Option (List ℝ)) (nb : Int) (pad : ℝ) (maxs : Option (List Int))
    (hm : ∀ l, maxs = some l → ∃ m, l = [m] ∧ 0 ≤ m) (s : σ) (res : PyDict String BVal)
    (h : fromRaw choice x volume bins sub_bins range p_range w nb none pad maxs s = .ok res) :
    ∃ (lo hi : ℝ) (e : List ℝ) (m : Nat) (S : List Sample),
      IsGrid x bins sub_bins range p_range lo hi e ∧ e.length = m * sub_bins.toNat + 1 ∧
      res.get? "h_samples" = some (.mat (S.map Sample.h)) ∧ (S.length : Int) = nb ∧
      ∀ q ∈ S, IsResample (none : Noise σ) x w lo hi (maxs.elim (2 ^ 60) (fun l => l.getD 0 0)) q.pts ∧
        ((List.range m).map (fun k => q.h.getD (k * sub_bins.toNat) 0)).sum
          = (q.pts.map (fun p => p.2)).sum := by
  obtain ⟨lo, hi, e, S, h1, h2, h3, h4, -, -, h5, h6, h7, -⟩ :=
    C105_density choice hc none (by simp) x volume bins sub_bins range p_range w nb pad maxs hm s res h
  obtain ⟨g1, g2, m, g3, g4⟩ := grid_ends x bins sub_bins h1 range p_range lo hi e h2 h4
  refine ⟨lo, hi, e, m, S, h4, g4, h7, h5, fun q hq => ⟨(h6 q hq).1, ?_⟩⟩
  rw [tiles q.pts e h3 sub_bins.toNat (by omega) volume pad _ _ _ (h6 q hq).2 m g3 (by omega)]
  apply weightOf_all
  intro p hp
  obtain ⟨js, s0, j1, -, j3, -⟩ := (h6 q hq).1
  have : p.1 ∈ q.pts.map (fun p => p.1) := List.mem_map_of_mem hp
  rw [j3] at this
  simp only [applyNoise, List.mem_map] at this
  obtain ⟨j, hj, hjp⟩ := this
  obtain ⟨v, v1, v2, v3⟩ := j1 j hj
  rw [List.getD_eq_getElem?_getD, v1, Option.getD_some] at hjp
  subst hjp
  have e1 : e.length - 1 = m * sub_bins.toNat := by omega
  simp only [e1] at g2
  exact ⟨le_trans g1 v2, Or.inl (lt_of_lt_of_le v3 g2)⟩

theorem sum_ones (l : List ℝ) (js : List Nat) (h : l = js.map (fun _ => 1)) : l.sum = (js.length : ℝ) := by
  subst h
  induction js with
  | nil => simp
  | cons a t ih => simp [ih]; ring

/-- C105 (recorded): with neither a range nor quantiles the window is `[min, max)`, so the largest
value is never drawn: unweighted and without noise, the coarse bins of every resample sum to the
number of values strictly below the maximum, not to the number of values. -/
theorem C105_maximum_dropped (choice : Nat → Nat → σ → List Nat × σ) (hc : ChoiceOK choice)
    (x : List ℝ) (hx : x.length ≤ 2 ^ 60) (volume : ℝ) (n sub_bins nb : Int) (pad : ℝ) (s : σ)
    (res : PyDict String BVal)
    (h : fromRaw choice x volume (.num n) sub_bins none none none nb none pad none s = .ok res) :
    ∃ (M : ℝ) (H : List (List ℝ)), (M ∈ x ∧ ∀ v ∈ x, v ≤ M) ∧
      res.get? "h_samples" = some (.mat H) ∧ (H.length : Int) = nb ∧
      (x.filter (fun v => decide (v < M))).length < x.length ∧
      ∀ r ∈ H, ((List.range n.toNat).map (fun k => r.getD (k * sub_bins.toNat) 0)).sum
        = ((x.filter (fun v => decide (v < M))).length : ℝ) := by
  obtain ⟨lo, hi, e, m, S, h1, h2, h3, h4, h5⟩ :=
    C105_total choice hc x volume _ sub_bins none none none nb pad none (by simp) s res h
  obtain ⟨⟨⟨a1, a2⟩, b1, b2⟩, g1, g2, g3, -⟩ := h1
  have hmn : m = n.toNat := by
    have hs : 1 ≤ sub_bins := by
      by_contra hcon
      have : sub_bins.toNat = 0 := by omega
      rw [this] at h2
      omega
    have : (m : Int) * sub_bins = n * sub_bins := by
      have : ((m * sub_bins.toNat : Nat) : Int) = (m : Int) * sub_bins := by
        push_cast; rw [Int.toNat_of_nonneg (by omega)]
      omega
    have := mul_right_cancel₀ (by omega) this
    omega
  subst hmn
  have hlt : (x.filter (fun v => decide (v < hi))).length < x.length := by
    rw [List.length_filter_lt_length_iff_exists]
    exact ⟨hi, b1, by simp⟩
  refine ⟨hi, S.map Sample.h, ⟨b1, b2⟩, h3, by simpa using h4, hlt, ?_⟩
  intro r hr
  obtain ⟨q, hq, rfl⟩ := List.mem_map.mp hr
  obtain ⟨⟨js, s0, -, j2, -, j4⟩, hsum⟩ := h5 q hq
  rw [hsum, sum_ones _ js j4]
  have hf : x.filter (fun v => decide (lo ≤ v ∧ v < hi)) = x.filter (fun v => decide (v < hi)) := by
    apply List.filter_congr
    intro v hv
    have := a2 v hv
    simp [this]
  rw [hf] at j2
  have : js.length = (x.filter (fun v => decide (v < hi))).length := by
    simp only [Option.elim_none] at j2
    omega
  rw [this]

/-- C105: what is rejected.  A refinement below 1 and edges together with a range are AssertionErrors,
a number of bins for no data at all and without a range is a ValueError, weights that do not have one
entry per point are an IndexError, quantile probabilities outside [0, 1] are a ValueError. -/
theorem C105_reject (choice : Nat → Nat → σ → List Nat × σ) (x : List ℝ) (volume : ℝ)
    (range p_range : Option (ℝ × ℝ)) (w : Option (List ℝ)) (nb : Int) (noise : Noise σ) (pad : ℝ)
    (maxs : Option (List Int)) (s : σ) (n sub_bins : Int) (e : List ℝ) (lo hi : ℝ) :
    (sub_bins < 1 → fromRaw choice x volume (.edges e) sub_bins range p_range w nb noise pad maxs s
      = .error .assertionError) ∧
    (sub_bins < 1 → fromRaw choice x volume (.num n) sub_bins (some (lo, hi)) none w nb noise pad maxs s
      = .error .assertionError) ∧
    (e ≠ [] → fromRaw choice x volume (.edges e) sub_bins (some (lo, hi)) p_range w nb noise pad maxs s
      = .error .assertionError) ∧
    (fromRaw choice [] volume (.num n) sub_bins none none w nb noise pad maxs s = .error .valueError) ∧
    (∀ p q, ¬ (0 ≤ p ∧ p ≤ 1) →
      fromRaw choice x volume (.num n) sub_bins range (some (p, q)) w nb noise pad maxs s
        = .error .valueError) ∧
    (∀ w', w'.length ≠ x.length → 1 ≤ sub_bins →
      fromRaw choice x volume (.num n) sub_bins (some (lo, hi)) none (some w') nb noise pad maxs s
        = .error .indexError) := by
  refine ⟨?_, ?_, ?_, ?_, ?_, ?_⟩
  · intro hs
    have : ¬ (1 ≤ sub_bins) := by omega
    simp [fromRaw, rangeFor, parseSubBinSpec, pyAssert, this, bind, Except.bind]
  · intro hs
    have : ¬ (1 ≤ sub_bins) := by omega
    simp [fromRaw, rangeFor, parsePRange, parseSubBinSpec, pyAssert, this, bind, Except.bind, pure, Except.pure]
  · intro hne
    by_cases hs : 1 ≤ sub_bins
    · have := (C42_parse_edges e hne sub_bins hs).2 (lo, hi)
      simp [fromRaw, rangeFor, this, bind, Except.bind]
    · simp [fromRaw, rangeFor, parseSubBinSpec, pyAssert, hs, bind, Except.bind]
  · simp [fromRaw, rangeFor, parsePRange, npExtremes, bind, Except.bind]
  · intro p q hp
    have : quantileE x p = .error .valueError := by unfold quantileE; rw [if_pos hp]
    rcases range with _ | ⟨a, b⟩ <;> simp [fromRaw, rangeFor, parsePRange, this, bind, Except.bind]
  · intro w' hw hs
    have h1 : ∀ sel : List Bool, sel.length = x.length → maskSel w' sel = .error .indexError := by
      intro sel hsel; unfold maskSel; rw [if_neg (by omega)]
    have h2 : ∀ sel : List Bool, sel.length = x.length → ∃ r, maskSel x sel = .ok r := by
      intro sel hsel; unfold maskSel; rw [if_pos (by omega)]; exact ⟨_, rfl⟩
    have h3 : ∀ sel : List Bool, sel.length = x.length → dsetIn x (some w') sel = .error .indexError := by
      intro sel hsel
      obtain ⟨r, hr⟩ := h2 sel hsel
      simp [dsetIn, hr, h1 sel hsel, bind, Except.bind]
    simp [fromRaw, rangeFor, parsePRange, (C42_parse_num n sub_bins (lo, hi) hs).1, bind, Except.bind,
      pure, Except.pure, h3]

/-- C105: with explicit edges the quantile range is not looked at. -/
theorem C105_edges_ignore_quantiles (choice : Nat → Nat → σ → List Nat × σ) (x : List ℝ) (volume : ℝ)
    (e : List ℝ) (sub_bins : Int) (range p p' : Option (ℝ × ℝ)) (w : Option (List ℝ)) (nb : Int)
    (noise : Noise σ) (pad : ℝ) (maxs : Option (List Int)) (s : σ) :
    fromRaw choice x volume (.edges e) sub_bins range p w nb noise pad maxs s
      = fromRaw choice x volume (.edges e) sub_bins range p' w nb noise pad maxs s := by
  rfl

theorem maskSel_pairs (l : List (ℝ × ℝ)) (g : ℝ × ℝ → ℝ) (P : ℝ → Bool) :
    maskSel (l.map g) ((l.map (fun p => p.1)).map P)
      = .ok ((l.filter (fun p => P p.1)).map g) := by
  unfold maskSel
  rw [if_pos (by simp)]
  congr 1
  induction l with
  | nil => rfl
  | cons p t ih =>
      simp only [List.map_cons, List.zip_cons_cons, List.filterMap_cons, List.filter_cons]
      cases P p.1
      · simpa using ih
      · simpa using ih

/-- C105: points outside the window `[lo, hi)` do not matter.  With a range given (or explicit edges
running from `lo` to `hi`), removing them, together with their weights, changes nothing at all, and
neither does their order relative to the others. -/
theorem C105_outside_ignored (choice : Nat → Nat → σ → List Nat × σ) (l : List (ℝ × ℝ)) (volume : ℝ)
    (n sub_bins : Int) (e : List ℝ) (lo hi : ℝ) (he : e.head? = some lo) (he' : e.getLast? = some hi)
    (hw : Bool) (nb : Int) (noise : Noise σ) (pad : ℝ) (maxs : Option (List Int)) (s : σ) :
    let x := fun l : List (ℝ × ℝ) => l.map (fun p => p.1)
    let w := fun l : List (ℝ × ℝ) => if hw then some (l.map (fun p => p.2)) else none
    let l' := l.filter (fun p => decide (lo ≤ p.1 ∧ p.1 < hi))
    fromRaw choice (x l) volume (.num n) sub_bins (some (lo, hi)) none (w l) nb noise pad maxs s
      = fromRaw choice (x l') volume (.num n) sub_bins (some (lo, hi)) none (w l') nb noise pad maxs s ∧
    fromRaw choice (x l) volume (.edges e) sub_bins none none (w l) nb noise pad maxs s
      = fromRaw choice (x l') volume (.edges e) sub_bins none none (w l') nb noise pad maxs s := by
  intro x w l'
  have hd : dsetIn (x l) (w l) ((x l).map (fun v => decide (v ≥ lo) && decide (v < hi)))
      = dsetIn (x l') (w l') ((x l').map (fun v => decide (v ≥ lo) && decide (v < hi))) := by
    have hf : l.filter (fun p => decide (p.1 ≥ lo) && decide (p.1 < hi)) = l' := by
      apply List.filter_congr; intro p _; simp
    have hf' : l'.filter (fun p => decide (p.1 ≥ lo) && decide (p.1 < hi)) = l' := by
      rw [List.filter_eq_self]
      intro p hp
      have := (List.mem_filter.mp hp).2
      simpa using this
    simp only [dsetIn, x, w, maskSel_pairs l (fun p => p.1) (fun v => decide (v ≥ lo) && decide (v < hi)),
      maskSel_pairs l' (fun p => p.1) (fun v => decide (v ≥ lo) && decide (v < hi)), hf, hf']
    cases hw
    · rfl
    · simp only [if_true, maskSel_pairs l (fun p => p.2) (fun v => decide (v ≥ lo) && decide (v < hi)),
        maskSel_pairs l' (fun p => p.2) (fun v => decide (v ≥ lo) && decide (v < hi)), hf, hf']
  constructor
  · by_cases hs : 1 ≤ sub_bins
    · simp only [fromRaw, rangeFor, parsePRange, (C42_parse_num n sub_bins (lo, hi) hs).1, bind, Except.bind,
        pure, Except.pure, hd]
    · simp [fromRaw, rangeFor, parsePRange, parseSubBinSpec, pyAssert, hs, bind, Except.bind, pure, Except.pure]
  · by_cases hs : 1 ≤ sub_bins
    · have hne : e ≠ [] := by rintro rfl; simp at he
      obtain ⟨⟨r, lo', hi', r1, -, r3, r4⟩, -⟩ := C42_parse_edges e hne sub_bins hs
      rw [he] at r3; cases r3
      rw [he'] at r4; cases r4
      simp only [fromRaw, rangeFor, r1, bind, Except.bind, hd]
    · simp [fromRaw, rangeFor, parseSubBinSpec, pyAssert, hs, bind, Except.bind]

/-- C105: the loop is that of `Bootstrap.resampled_call` (C50): without noise the two models give the
same samples. -/
theorem C105_is_bootstrap (choice : Nat → Nat → σ → List Nat × σ)
    (stat : List ℝ → Option (List ℝ) → PyM (PyDict String (List ℝ)))
    (d : PyDict String (List ℝ)) (maxs : Option (List Int)) (n : Nat) (s : σ) :
    volumeLoop choice none stat d maxs n s
      = resampleLoop choice (κ := Unit) (fun args => do
          let x ← getItem (args.filterMap (fun p => match p.2 with
            | .col l => some (p.1, l) | .kw _ => none)) "x_to_bin"
          stat x (PyDict.get? (args.filterMap (fun p => match p.2 with
            | .col l => some (p.1, l) | .kw _ => none)) "weights")) [] n (.seq [d]) (maxs.map Src.seq) s := by
  induction n generalizing s with
  | zero => rfl
  | succ n ih =>
      have hs : readOpt (maxs.map Src.seq) = (maxs, maxs.map Src.seq) := by
        rcases maxs with _ | m <;> rfl
      have hcols : ∀ inp : PyDict String (List ℝ),
          (PyDict.update (inp.map (fun p => (p.1, (Arg.col p.2 : Arg ℝ Unit))))
            (([] : PyDict String Unit).map (fun p => (p.1, Arg.kw p.2)))).filterMap
            (fun p => match p.2 with | .col l => some (p.1, l) | .kw _ => none) = inp := by
        intro inp
        simp [PyDict.update, List.filterMap_map, Function.comp_def]
      simp only [volumeLoop, resampleLoop, Src.read, hs, bind, Except.bind, hcols, applyNoise, ih]
      split
      · rfl
      · rename_i q hq
        cases getItem q.1 "x_to_bin" <;> rfl

theorem loop_succeeds (choice : Nat → Nat → σ → List Nat × σ) (hc : ChoiceOK choice) (noise : Noise σ)
    (hnoise : ∀ f, noise = some f → ∀ x s, (f x s).1.length = x.length)
    (stat : List ℝ → Option (List ℝ) → PyM (PyDict String (List ℝ)))
    (hstat : ∀ x w, (∀ w', w = some w' → w'.length = x.length) → ∃ o, stat x w = .ok o)
    (x : List ℝ) (w : Option (List ℝ)) (lo hi : ℝ)
    (maxs : Option (List Int)) (hm : ∀ l, maxs = some l → ∃ m, l = [m] ∧ 0 ≤ m) (n : Nat) (s : σ) :
    ∃ outs, volumeLoop choice noise stat
      (("x_to_bin", (idxs x lo hi).map (fun j => x.getD j 0)) :: wCol x w lo hi) maxs n s = .ok outs := by
  induction n generalizing s with
  | zero => exact ⟨[], rfl⟩
  | succ n ih =>
      rw [volumeLoop]
      obtain ⟨out, s', ids, r1, r2, r3, r4⟩ := C50_resample choice hc
        [("x_to_bin", (idxs x lo hi).map (fun j => x.getD j 0)) :: wCol x w lo hi] maxs s
        (by intro l hl; obtain ⟨m, rfl, h0⟩ := hm l hl; simpa using h0)
        (by
          intro d' hd'
          rw [List.mem_singleton] at hd'
          subst hd'
          refine ⟨(idxs x lo hi).length, ?_⟩
          rcases w with _ | w <;> simp [wCol])
        (by rcases w with _ | w <;> simp [wCol])
      obtain ⟨c0, c1, col, c2, c3⟩ := r4 0 (by simp) (by simp at r2; omega) "x_to_bin"
        ((idxs x lo hi).map (fun j => x.getD j 0)) (by simp)
      obtain ⟨o, ho⟩ := hstat (applyNoise noise col s').1 (out.get? "weights") (by
        intro w' hw'
        rw [applyNoise_length noise hnoise]
        rcases w with _ | w
        · have : out.get? "weights" = none := by
            rw [PyDict.get?_eq_none_iff]
            show "weights" ∉ out.map (fun kv => kv.1)
            rw [r3]
            simp [wCol]
          rw [this] at hw'; cases hw'
        · obtain ⟨-, -, col', d2, d3⟩ := r4 0 (by simp) (by simp at r2; omega) "weights"
            ((idxs x lo hi).map (fun j => w.getD j 0)) (by simp [wCol])
          rw [d2] at hw'
          cases hw'
          have e1 := congrArg List.length d3
          have e2 := congrArg List.length c3
          simp only [List.length_map] at e1 e2
          omega)
      obtain ⟨rest, hrest⟩ := ih (applyNoise noise col s').2
      exact ⟨o :: rest, by
        simp only [r1, bind, Except.bind, getItem, c2, ho, hrest, pure, Except.pure]⟩

theorem histDict_succeeds (bins : BinSpec ℝ) (s : Int) (range : ℝ × ℝ) (e : List ℝ) (volume pad : ℝ)
    (he : histEdges bins range = .ok e) (hs : 1 ≤ s) (hl : s + 1 ≤ e.length) (x : List ℝ)
    (w : Option (List ℝ)) (hw : ∀ w', w = some w' → w'.length = x.length) :
    ∃ o, histDict x bins s range w volume pad = .ok o := by
  have hlen : (w.getD (x.map (fun _ => 1))).length = x.length := by
    rcases w with _ | w
    · simp
    · exact hw w rfl
  obtain ⟨q, hq, -⟩ := (C42_combine (histCounts e (x.zip (w.getD (x.map (fun _ => 1))))) s).1
    (by rw [histCounts_length]; omega)
  simp only [histDict, fromOverlappedBins, hlen, ne_eq, not_true_eq_false, if_false, he, hq, bind,
    Except.bind, pure, Except.pure]
  exact ⟨_, rfl⟩

theorem maskSel_window (x v : List ℝ) (lo hi : ℝ) (h : v.length = x.length) :
    maskSel v (x.map (fun a => decide (a ≥ lo) && decide (a < hi)))
      = .ok ((idxs x lo hi).map (fun j => v.getD j 0)) := by
  cases hm : maskSel v (x.map (fun a => decide (a ≥ lo) && decide (a < hi))) with
  | error q => unfold maskSel at hm; rw [if_pos (by simpa using h)] at hm; cases hm
  | ok r => rw [(maskSel_ok x v lo hi r hm).2]

theorem fromRaw_succeeds (choice : Nat → Nat → σ → List Nat × σ) (hc : ChoiceOK choice) (noise : Noise σ)
    (hnoise : ∀ f, noise = some f → ∀ x s, (f x s).1.length = x.length)
    (x : List ℝ) (volume : ℝ) (bins : BinSpec ℝ) (sub_bins : Int) (range p_range : Option (ℝ × ℝ))
    (w : Option (List ℝ)) (hw : ∀ w', w = some w' → w'.length = x.length) (nb : Int) (hnb : 1 ≤ nb)
    (pad : ℝ) (maxs : Option (List Int)) (hm : ∀ l, maxs = some l → ∃ m, l = [m] ∧ 0 ≤ m) (s : σ)
    (r : Option (ℝ × ℝ)) (b' : BinSpec ℝ) (lo hi : ℝ) (e : List ℝ)
    (h1 : rangeFor x bins range p_range = .ok r)
    (h2 : parseSubBinSpec bins sub_bins r = .ok (b', sub_bins, (lo, hi)))
    (h3 : histEdges b' (r.getD (lo, hi)) = .ok e) (hs : 1 ≤ sub_bins) (hl : sub_bins + 1 ≤ e.length) :
    ∃ res, fromRaw choice x volume bins sub_bins range p_range w nb noise pad maxs s = .ok res := by
  have hd : dsetIn x w (x.map (fun v => decide (v ≥ lo) && decide (v < hi)))
      = .ok (("x_to_bin", (idxs x lo hi).map (fun j => x.getD j 0)) :: wCol x w lo hi) := by
    rcases w with _ | w
    · simp only [dsetIn, maskSel_window x x lo hi rfl, bind, Except.bind, pure, Except.pure, wCol]
    · simp only [dsetIn, maskSel_window x x lo hi rfl, maskSel_window x w lo hi (hw w rfl), bind,
        Except.bind, pure, Except.pure, wCol]
  obtain ⟨outs, ho⟩ := loop_succeeds choice hc noise hnoise
    (fun x w => histDict x b' sub_bins (r.getD (lo, hi)) w volume pad)
    (fun x w hxw => histDict_succeeds b' sub_bins _ e volume pad h3 hs hl x w hxw) x w lo hi maxs hm
    nb.toNat s
  obtain ⟨hlen, hall⟩ := loop_ok choice hc noise hnoise _ x w lo hi _ rfl maxs hm _ s outs ho
  rcases outs with _ | ⟨o0, t⟩
  · simp at hlen; omega
  have hform : ∀ o ∈ o0 :: t, ∃ (e' xc dx hh y lgy : List ℝ),
      o = [("x", xc), ("dx", dx), ("sub_e", e'), ("h", hh), ("y", y), ("lg_y", lgy)] ∧
      hh.length = e.length - sub_bins.toNat ∧ y.length = e.length - sub_bins.toNat ∧
      lgy.length = e.length - sub_bins.toNat := by
    intro o hoo
    obtain ⟨js, s0, -, -, hst⟩ := hall o hoo
    obtain ⟨e', xc, dx, hh, y, lg, k0, -, -, k3, -, -, -, -, -, k8⟩ := histDict_ok _ _ _ _ _ _ _ _ hst
    rw [h3] at k3
    cases k3
    obtain ⟨a, b, c, -⟩ := k8
    exact ⟨e, xc, dx, hh, y, lg, k0, a, by omega, by omega⟩
  obtain ⟨res, c1, -⟩ := C50_output ["h", "y", "lg_y"] true o0 t
    (by
      obtain ⟨e', xc, dx, hh, y, lg, k0, -⟩ := hform o0 (by simp)
      subst k0
      show ["x", "dx", "sub_e", "h", "y", "lg_y"].Nodup
      decide) (fun _ => e.length - sub_bins.toNat)
    (by
      intro key hkey d hd
      obtain ⟨e', xc, dx, hh, y, lg, k0, a, b, c⟩ := hform d hd
      subst k0
      simp only [List.mem_cons, List.not_mem_nil, or_false] at hkey
      rcases hkey with rfl | rfl | rfl
      · exact ⟨hh, by simp [PyDict.get?], a⟩
      · exact ⟨y, by simp [PyDict.get?], b⟩
      · exact ⟨lg, by simp [PyDict.get?], c⟩)
    (by decide)
  refine ⟨res, ?_⟩
  simp only [fromRaw, h1, h2, hd, ho, c1, bind, Except.bind]

/-- C105: when the call succeeds.  With at least one bin, a refinement of at least 1, at least one
resample and weights (if any) for every point, a range `lo <= hi`, and likewise sorted edges (at
least two), are always accepted, whatever the data and the noise; so is non-empty data without any
range. -/
theorem C105_succeeds (choice : Nat → Nat → σ → List Nat × σ) (hc : ChoiceOK choice) (noise : Noise σ)
    (hnoise : ∀ f, noise = some f → ∀ x s, (f x s).1.length = x.length)
    (x : List ℝ) (volume : ℝ) (n sub_bins nb : Int) (hn : 1 ≤ n) (hs : 1 ≤ sub_bins) (hnb : 1 ≤ nb)
    (w : Option (List ℝ)) (hw : ∀ w', w = some w' → w'.length = x.length)
    (pad : ℝ) (maxs : Option (List Int)) (hm : ∀ l, maxs = some l → ∃ m, l = [m] ∧ 0 ≤ m) (s : σ) :
    (∀ lo hi : ℝ, lo ≤ hi → ∃ res,
      fromRaw choice x volume (.num n) sub_bins (some (lo, hi)) none w nb noise pad maxs s = .ok res) ∧
    (x ≠ [] → ∃ res,
      fromRaw choice x volume (.num n) sub_bins none none w nb noise pad maxs s = .ok res) ∧
    (∀ e : List ℝ, 2 ≤ e.length → e.Pairwise (· ≤ ·) → ∃ res,
      fromRaw choice x volume (.edges e) sub_bins none none w nb noise pad maxs s = .ok res) := by
  have hns : 1 ≤ n * sub_bins := by nlinarith
  have hns' : sub_bins ≤ n * sub_bins := by nlinarith
  have hnum : ∀ (range : Option (ℝ × ℝ)) (lo hi : ℝ), lo ≤ hi →
      parsePRange (some x) range none = .ok (lo, hi) → ∃ res,
      fromRaw choice x volume (.num n) sub_bins range none w nb noise pad maxs s = .ok res := by
    intro range lo hi hlh hr
    have he : ∃ e, histEdges (.num (n * sub_bins)) (lo, hi) = .ok e ∧ (e.length : Int) = n * sub_bins + 1 := by
      unfold histEdges
      simp only
      rw [if_neg (not_lt.mpr hlh), if_neg (by omega)]
      split
      · exact ⟨_, rfl, by rw [linspace_length]; omega⟩
      · exact ⟨_, rfl, by rw [linspace_length]; omega⟩
    obtain ⟨e, he, hel⟩ := he
    exact fromRaw_succeeds choice hc noise hnoise x volume (.num n) sub_bins range none w hw nb hnb pad
      maxs hm s (some (lo, hi)) (.num (n * sub_bins)) lo hi e
      (by simp only [rangeFor, hr, bind, Except.bind, pure, Except.pure])
      (C42_parse_num n sub_bins (lo, hi) hs).1 he hs (by omega)
  refine ⟨fun lo hi hlh => hnum (some (lo, hi)) lo hi hlh rfl, fun hx => ?_, fun e he2 hsort => ?_⟩
  · have ha : ∃ a, x.min? = some a := by
      rcases x with _ | ⟨a, t⟩
      · exact absurd rfl hx
      · exact ⟨_, List.min?_cons⟩
    have hb : ∃ b, x.max? = some b := by
      rcases x with _ | ⟨a, t⟩
      · exact absurd rfl hx
      · exact ⟨_, List.max?_cons⟩
    obtain ⟨a, ha⟩ := ha
    obtain ⟨b, hb⟩ := hb
    have hab : a ≤ b := by
      rw [List.min?_eq_some_iff] at ha
      rw [List.max?_eq_some_iff] at hb
      exact hb.2 a ha.1
    exact hnum none a b hab (by simp only [parsePRange, npExtremes, ha, hb])
  · have hne : e ≠ [] := by rintro rfl; simp at he2
    obtain ⟨⟨q, lo, hi, q1, q2, -⟩, -⟩ := C42_parse_edges e hne sub_bins hs
    obtain ⟨q', r1, r2, -⟩ := C42_insert e sub_bins.toNat (by omega) hne
    rw [q2] at r1
    cases r1
    have hsq := C42_insert_sorted e sub_bins.toNat (by omega) hne hsort q q2
    have hlq : sub_bins.toNat ≤ (e.length - 1) * sub_bins.toNat := Nat.le_mul_of_pos_left _ (by omega)
    refine fromRaw_succeeds choice hc noise hnoise x volume (.edges e) sub_bins none none w hw nb hnb pad
      maxs hm s none (.edges q) lo hi q rfl q1 ?_ hs (by omega)
    unfold histEdges
    simp only
    rw [if_pos]
    rw [List.all_eq_true]
    intro d hd
    obtain ⟨i, hi, rfl⟩ := List.getElem_of_mem hd
    rw [npDiff_getElem]
    rw [npDiff_length] at hi
    simpa using pw_le hsq (show i ≤ i + 1 by omega) (by omega)

/-- The default arguments: 15 bins refined 3 times, unit volume, 10 resamples, floor 1e-8. -/
theorem C105_defaults (choice : Nat → Nat → σ → List Nat × σ) (hc : ChoiceOK choice) (x : List ℝ)
    (hx : x ≠ []) (s : σ) : ∃ (res : PyDict String BVal) (e : List ℝ) (S : List Sample),
    fromRaw choice x (s := s) = .ok res ∧ e.length = 46 ∧ S.length = 10 ∧
    res.get? "sub_e" = some (.vec e) ∧ res.get? "lg_y_samples" = some (.mat (S.map Sample.lg_y)) ∧
    ∀ q ∈ S, IsSample q.pts e 3 1 (1 / 10 ^ 8) q.h q.y q.lg_y := by
  obtain ⟨res, hres⟩ := (C105_succeeds choice hc none (by simp) x 1 15 3 10 (by norm_num) (by norm_num)
    (by norm_num) none (by simp) (1 / 10 ^ 8) none (by simp) s).2.1 hx
  obtain ⟨lo, hi, e, S, -, -, -, h1, -, -, h2, h3, -, -, h4, -, -, -, h5, -⟩ :=
    C105_density choice hc none (by simp) x 1 (.num 15) 3 none none none 10 (1 / 10 ^ 8) none (by simp) s
      res hres
  obtain ⟨-, -, -, h6, -⟩ := h1
  exact ⟨res, e, S, hres, by omega, by omega, h5, h4, fun q hq => (h3 q hq).2⟩

/-- The hypotheses are met: four points, two bins, one resample with a generator that draws the rows
in order. -/
example : ∃ res, fromRaw (σ := Unit) (fun _ k s => (List.range k, s)) [0, 1 / 2, 3 / 2, 2] 1 (.num 2) 1
    (some (0, 2)) none (some [1, 2, 3, 4]) 1 none (1 / 10 ^ 8) none () = .ok res :=
  (C105_succeeds (fun _ k s => (List.range k, s)) (fun n k s h => ⟨by simp, fun i hi => by
    have := List.mem_range.mp hi; omega⟩) none (by simp) [0, 1 / 2, 3 / 2, 2] 1 2 1 1 (by norm_num)
    (by norm_num) (by norm_num) (some [1, 2, 3, 4]) (by simp) (1 / 10 ^ 8) none (by simp) ()).1 0 2
    (by norm_num)

/-- C105: `Bin.parse_p_range_spec`.  Without data it returns the range as it is and insists on getting
one and no quantiles; with data the range it returns is the one described by `IsRange`. -/
theorem C105_range (x : List ℝ) (range p : Option (ℝ × ℝ)) (r : ℝ × ℝ) :
    (parsePRange none range p = .ok r ↔ range = some r ∧ p = none) ∧
    (¬ (range.isSome ∧ p = none) → parsePRange none range p = .error .assertionError) ∧
    (parsePRange (some x) range p = .ok r → IsRange x range p r.1 r.2) := by
  refine ⟨?_, ?_, parsePRange_ok x range p r⟩ <;>
  rcases range with _ | range <;> rcases p with _ | p <;>
    simp [parsePRange, pyAssert, bind, Except.bind, pure, Except.pure]

example : parsePRange none (some (0, 1)) none = .ok (0, 1) := (C105_range [] _ _ _).1.mpr ⟨rfl, rfl⟩

end Pyhipp.Lss
