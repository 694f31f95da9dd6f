import Verif.Model.Frame
/-
Property theorems C32-C36 (core/dataproc/{frame,num}.py).
-/
namespace Pyhipp.Frame
open Pyhipp
set_option linter.unusedSectionVars false
set_option linter.unusedVariables false

/-! ### C32, C33 -/
section Box
variable {α : Type} [Field α] [LinearOrder α] [IsStrictOrderedRing α]

/-- Is element `i` selected by `where`? (`where=None` selects all.) -/
def selected (wh : Option (List Bool)) (i : Nat) : Bool :=
  match wh with
  | none => true
  | some w => w.getD i false

theorem combineMask_getElem (mask : List Bool) (wh : Option (List Bool))
    (hw : ∀ w, wh = some w → w.length = mask.length) :
    (combineMask mask wh).length = mask.length ∧
    ∀ i (h : i < mask.length) (h' : i < (combineMask mask wh).length),
      (combineMask mask wh)[i] = (mask[i] && selected wh i) := by
  cases wh with
  | none => simp [combineMask, selected]
  | some w =>
      have := hw w rfl
      refine ⟨by simp [combineMask, this], ?_⟩
      intro i h h'
      simp only [combineMask, List.getElem_zipWith, selected]
      rw [getD_lt _ _ _ (by omega)]

theorem addMasked_getElem (x : List α) (m : List Bool) (d : α) (hm : m.length = x.length) :
    (addMasked x m d).length = x.length ∧
    ∀ i (h : i < x.length) (h' : i < (addMasked x m d).length),
      (addMasked x m d)[i] = if m[i]'(by omega) then x[i] + d else x[i] := by
  refine ⟨by simp [addMasked, hm], ?_⟩
  intro i h h'
  simp [addMasked]

/-- Element-wise meaning of `shift_in`. -/
theorem shiftIn_getElem (x : List α) (L : α) (wh : Option (List Bool)) (copy : Bool)
    (hw : ∀ w, wh = some w → w.length = x.length) :
    (shiftIn x L wh copy).2.length = x.length ∧
    ∀ i (h : i < x.length) (h' : i < (shiftIn x L wh copy).2.length),
      (shiftIn x L wh copy).2[i] =
        if selected wh i then
          (let y := if x[i] < 0 then x[i] + L else x[i]
           if L ≤ y then y - L else y)
        else x[i] := by
  obtain ⟨a1, a2⟩ := combineMask_getElem (x.map (fun a => decide (a < 0))) wh (by simpa using hw)
  obtain ⟨b1, b2⟩ := addMasked_getElem x _ L (show _ = _ by rw [a1]; simp)
  obtain ⟨c1, c2⟩ := combineMask_getElem ((addMasked x (combineMask (x.map (fun a => decide (a < 0))) wh) L).map
    (fun a => decide (a ≥ L))) wh (by intro w h; rw [hw w h]; simp [b1])
  obtain ⟨d1, d2⟩ := addMasked_getElem (addMasked x (combineMask (x.map (fun a => decide (a < 0))) wh) L) _ (-L)
    (show _ = _ by rw [c1]; simp)
  refine ⟨by simp only [shiftIn]; rw [d1, b1], ?_⟩
  intro i h h'
  simp only [shiftIn]
  rw [d2 i (by omega), c2 i (by simp; omega), List.getElem_map]
  rw [b2 i h (by omega), a2 i (by simpa using h), List.getElem_map]
  cases selected wh i <;> simp [sub_eq_add_neg]

/-- C32: with every coordinate in `[-L, 2L)`, each selected coordinate of the result is in `[0, L)`
and is the original or its image by exactly one box length; coordinates already inside and
unselected ones are unchanged. -/
theorem C32_shift_in (x : List α) (L : α) (hL : 0 < L) (wh : Option (List Bool)) (copy : Bool)
    (hw : ∀ w, wh = some w → w.length = x.length) :
    (shiftIn x L wh copy).2.length = x.length ∧
    ∀ i (h : i < x.length) (h' : i < (shiftIn x L wh copy).2.length),
      (selected wh i = false → (shiftIn x L wh copy).2[i] = x[i]) ∧
      (0 ≤ x[i] → x[i] < L → (shiftIn x L wh copy).2[i] = x[i]) ∧
      (selected wh i = true → -L ≤ x[i] → x[i] < 2 * L →
        0 ≤ (shiftIn x L wh copy).2[i] ∧ (shiftIn x L wh copy).2[i] < L ∧
        ((shiftIn x L wh copy).2[i] = x[i] ∨ (shiftIn x L wh copy).2[i] = x[i] + L ∨
          (shiftIn x L wh copy).2[i] = x[i] - L)) := by
  obtain ⟨h1, h2⟩ := shiftIn_getElem x L wh copy hw
  refine ⟨h1, ?_⟩
  intro i h h'
  rw [h2 i h h']
  refine ⟨?_, ?_, ?_⟩
  · intro hs; simp [hs]
  · intro a b
    cases selected wh i <;> simp [not_lt.mpr a, not_le.mpr b]
  · intro hs a b
    simp only [hs, if_true]
    by_cases c : x[i] < 0
    · simp only [c, if_true]
      by_cases d : L ≤ x[i] + L
      · exact absurd c (by linarith)
      · simp only [d, if_false]
        exact ⟨by linarith, by linarith, by simp⟩
    · simp only [c, if_false]
      by_cases d : L ≤ x[i]
      · simp only [d, if_true]
        exact ⟨by linarith, by linarith, by simp⟩
      · simp only [d, if_false]
        exact ⟨by linarith, by linarith, by simp⟩

/-- C32: with copy=True the caller's array keeps its contents, with copy=False it receives the
result. -/
theorem C32_copy (x : List α) (L : α) (wh : Option (List Bool)) :
    (shiftIn x L wh true).1 = x ∧ (shiftIn x L wh false).1 = (shiftIn x L wh false).2 ∧
    (shiftIn x L wh true).2 = (shiftIn x L wh false).2 := ⟨rfl, rfl, rfl⟩

theorem all_masked (x : List α) (w : List Bool) (L : α) :
    (((x.zip w).filter (fun p => p.2)).map (fun p => p.1)).all
        (fun a => decide (a ≥ 0) && decide (a < L)) = true ↔
      ∀ i (h : i < x.length) (h' : i < w.length), w[i] = true → 0 ≤ x[i] ∧ x[i] < L := by
  rw [List.all_eq_true]
  constructor
  · intro h i hi hi' hw
    have := h x[i] (List.mem_map.mpr ⟨(x[i], w[i]), List.mem_filter.mpr
      ⟨List.mem_iff_getElem.mpr ⟨i, by simp; omega, by simp⟩, hw⟩, rfl⟩)
    simpa using this
  · intro h a ha
    obtain ⟨p, hp, rfl⟩ := List.mem_map.mp ha
    obtain ⟨hp1, hp2⟩ := List.mem_filter.mp hp
    obtain ⟨i, hi, rfl⟩ := List.mem_iff_getElem.mp hp1
    simp only [List.length_zip] at hi
    simp only [List.getElem_zip] at hp2 ⊢
    simpa using h i (by omega) (by omega) hp2

/-- C32: `test_bound` is true exactly when every selected coordinate is in `[0, L)`. -/
theorem C32_test_bound_iff (x : List α) (L : α) (wh : Option (List Bool))
    (hw : ∀ w, wh = some w → w.length = x.length) :
    testBound x L wh = true ↔
      ∀ i (h : i < x.length), selected wh i = true → 0 ≤ x[i] ∧ x[i] < L := by
  cases wh with
  | none =>
      simp only [testBound, selected, List.all_eq_true]
      constructor
      · intro h i hi _; simpa using h x[i] (List.getElem_mem hi)
      · intro h a ha
        obtain ⟨i, hi, rfl⟩ := List.getElem_of_mem ha
        simpa using h i hi trivial
  | some w =>
      have hl := hw w rfl
      have h1 : testBound x L (some w) = (((x.zip w).filter (fun p => p.2)).map (fun p => p.1)).all
        (fun a => decide (a ≥ 0) && decide (a < L)) := rfl
      rw [h1, all_masked]
      constructor
      · intro h i hi hs
        exact h i hi (by omega) (by
          simp only [selected] at hs; rwa [getD_lt _ _ _ (show i < w.length by omega)] at hs)
      · intro h i hi hi' hs
        exact h i hi (by simp only [selected]; rwa [getD_lt _ _ _ hi'])

/-- C32: after `shift_in` the bound test succeeds (coordinates initially in `[-L, 2L)`). -/
theorem C32_then_test_bound (x : List α) (L : α) (hL : 0 < L) (wh : Option (List Bool))
    (copy : Bool) (hw : ∀ w, wh = some w → w.length = x.length)
    (hr : ∀ a ∈ x, -L ≤ a ∧ a < 2 * L) : testBound (shiftIn x L wh copy).2 L wh = true := by
  obtain ⟨h1, h2⟩ := C32_shift_in x L hL wh copy hw
  rw [C32_test_bound_iff _ _ _ (by intro w h; rw [h1]; exact hw w h)]
  intro i hi hs
  have hix : i < x.length := by omega
  obtain ⟨a, b⟩ := hr x[i] (List.getElem_mem hix)
  obtain ⟨c, d, _⟩ := (h2 i hix hi).2.2 hs a b
  exact ⟨c, d⟩

/-- C32 (limit of the contract): farther than one box length outside, the result is *not* inside. -/
theorem C32_far_outside :
    (shiftIn [(-3/2 : ℚ), 5/2] 1).2 = [-1/2, 3/2] ∧
    testBound (shiftIn [(-3/2 : ℚ), 5/2] 1).2 1 = false := by
  constructor <;> norm_num [shiftIn, addMasked, combineMask, testBound]

example : ∃ x : List ℚ, x.length = 3 ∧ (∀ a ∈ x, -1 ≤ a ∧ a < 2 * 1) ∧
    (shiftIn x 1).2 ≠ x := by
  refine ⟨[-1/2, 0, 3/2], rfl, by simp; norm_num, ?_⟩
  norm_num [shiftIn, addMasked, combineMask]

/-- Element-wise meaning of `shift_to`. -/
theorem shiftTo_getElem (x xr : List α) (L : α) (wh : Option (List Bool)) (copy : Bool)
    (hr : xr.length = x.length) (hw : ∀ w, wh = some w → w.length = x.length) :
    (shiftTo x xr L wh copy).2.length = x.length ∧
    ∀ i (h : i < x.length) (h' : i < (shiftTo x xr L wh copy).2.length),
      (shiftTo x xr L wh copy).2[i] =
        if selected wh i then
          (let d := x[i] - xr[i]'(by omega)
           let y := if d < -(1 / 2 * L) then x[i] + L else x[i]
           if 1 / 2 * L ≤ d then y - L else y)
        else x[i] := by
  have hdl : (List.zipWith (fun a b => a - b) x xr).length = x.length := by simp [hr]
  obtain ⟨a1, a2⟩ := combineMask_getElem ((List.zipWith (fun a b => a - b) x xr).map
    (fun a => decide (a < -(1 / 2 * L)))) wh (by intro w h; simp [hw w h, hr])
  obtain ⟨b1, b2⟩ := addMasked_getElem x (combineMask ((List.zipWith (fun a b => a - b) x xr).map
    (fun a => decide (a < -(1 / 2 * L)))) wh) L (by rw [a1]; simp [hr])
  obtain ⟨c1, c2⟩ := combineMask_getElem ((List.zipWith (fun a b => a - b) x xr).map
    (fun a => decide (a ≥ (1 / 2 * L)))) wh (by intro w h; simp [hw w h, hr])
  obtain ⟨d1, d2⟩ := addMasked_getElem (addMasked x (combineMask ((List.zipWith (fun a b => a - b) x xr).map
    (fun a => decide (a < -(1 / 2 * L)))) wh) L) (combineMask ((List.zipWith (fun a b => a - b) x xr).map
    (fun a => decide (a ≥ (1 / 2 * L)))) wh) (-L) (by rw [c1, b1]; simp [hr])
  refine ⟨by simp only [shiftTo]; rw [d1, b1], ?_⟩
  intro i h h'
  simp only [shiftTo]
  rw [d2 i (by omega), c2 i (by simp; omega), List.getElem_map, List.getElem_zipWith]
  rw [b2 i h (by omega), a2 i (by simp; omega), List.getElem_map, List.getElem_zipWith]
  cases selected wh i <;> simp [sub_eq_add_neg]

/-- C33: for `x, x_ref ∈ [0, L)` every selected result is the original or an image by one box
length, lies in `[x_ref - L/2, x_ref + L/2)`, and no periodic image `x + k L` is closer to the
reference; unselected entries are unchanged. -/
theorem C33_shift_to (x xr : List α) (L : α) (hL : 0 < L) (wh : Option (List Bool)) (copy : Bool)
    (hr : xr.length = x.length) (hw : ∀ w, wh = some w → w.length = x.length) :
    (shiftTo x xr L wh copy).2.length = x.length ∧
    ∀ i (h : i < x.length) (h' : i < (shiftTo x xr L wh copy).2.length),
      (selected wh i = false → (shiftTo x xr L wh copy).2[i] = x[i]) ∧
      (selected wh i = true → 0 ≤ x[i] → x[i] < L → 0 ≤ xr[i]'(by omega) → xr[i]'(by omega) < L →
        ((shiftTo x xr L wh copy).2[i] = x[i] ∨ (shiftTo x xr L wh copy).2[i] = x[i] + L ∨
          (shiftTo x xr L wh copy).2[i] = x[i] - L) ∧
        xr[i]'(by omega) - L / 2 ≤ (shiftTo x xr L wh copy).2[i] ∧
        (shiftTo x xr L wh copy).2[i] < xr[i]'(by omega) + L / 2 ∧
        ∀ k : Int, |(shiftTo x xr L wh copy).2[i] - xr[i]'(by omega)| ≤
          |x[i] + k * L - xr[i]'(by omega)|) := by
  obtain ⟨h1, h2⟩ := shiftTo_getElem x xr L wh copy hr hw
  refine ⟨h1, ?_⟩
  intro i h h'
  rw [h2 i h h']
  constructor
  · intro hs; simp [hs]
  · intro hs p1 p2 q1 q2
    simp only [hs, if_true]
    -- the result is an image within half a box
    have main : ∃ m : Int, (if 1 / 2 * L ≤ x[i] - xr[i]'(by omega)
        then (if x[i] - xr[i]'(by omega) < -(1 / 2 * L) then x[i] + L else x[i]) - L
        else (if x[i] - xr[i]'(by omega) < -(1 / 2 * L) then x[i] + L else x[i])) = x[i] + m * L ∧
        (m = 0 ∨ m = 1 ∨ m = -1) ∧ xr[i]'(by omega) - L / 2 ≤ x[i] + m * L ∧
        x[i] + m * L < xr[i]'(by omega) + L / 2 := by
      by_cases c : x[i] - xr[i]'(by omega) < -(1 / 2 * L)
      · have d : ¬ (1 / 2 * L ≤ x[i] - xr[i]'(by omega)) := by intro d; linarith
        exact ⟨1, by simp only [c, d, if_true, if_false]; push_cast; ring, by simp,
          by push_cast; linarith, by push_cast; linarith⟩
      · by_cases d : 1 / 2 * L ≤ x[i] - xr[i]'(by omega)
        · exact ⟨-1, by simp only [c, d, if_true, if_false]; push_cast; ring, by simp,
            by push_cast; linarith, by push_cast; linarith⟩
        · exact ⟨0, by simp only [c, d, if_false]; push_cast; ring, by simp,
            by push_cast; linarith, by push_cast; linarith⟩
    obtain ⟨m, e, hm, hlo, hhi⟩ := main
    rw [e]
    refine ⟨?_, hlo, hhi, ?_⟩
    · rcases hm with rfl | rfl | rfl
      · left; push_cast; ring
      · right; left; push_cast; ring
      · right; right; push_cast; ring
    · intro k
      rcases lt_trichotomy k m with hk | hk | hk
      · have hk' : (k : α) + 1 ≤ m := by exact_mod_cast hk
        have : (k : α) * L + L ≤ m * L := by nlinarith
        rw [abs_of_nonpos (show x[i] + k * L - xr[i]'(by omega) ≤ 0 by linarith)]
        rw [abs_le]
        constructor <;> linarith
      · rw [hk]
      · have hk' : (m : α) + 1 ≤ k := by exact_mod_cast hk
        have : (m : α) * L + L ≤ k * L := by nlinarith
        rw [abs_of_nonneg (show 0 ≤ x[i] + k * L - xr[i]'(by omega) by linarith)]
        rw [abs_le]
        constructor <;> linarith

/-- C33: the caller's array is untouched with copy=True. -/
theorem C33_copy (x xr : List α) (L : α) (wh : Option (List Bool)) :
    (shiftTo x xr L wh true).1 = x ∧ (shiftTo x xr L wh false).1 = (shiftTo x xr L wh false).2 ∧
    (shiftTo x xr L wh true).2 = (shiftTo x xr L wh false).2 := ⟨rfl, rfl, rfl⟩

example : (shiftTo [(9/10 : ℚ), 1/10, 1/2] [1/10, 9/10, 0] 1).2 = [-1/10, 11/10, -1/2] := by
  norm_num [shiftTo, addMasked, combineMask]

end Box

/-! ### C34 -/
section Bound
variable {α : Type} [LinearOrder α]

/-- C34: clamping of a number, for every combination of present bounds; `hi` wins when the bounds
cross. -/
theorem C34_clamp (x : α) (lo hi : Option α) :
    boundScalar (.num x) (lo.map Fl.num) (hi.map Fl.num) = .num
      (match lo, hi with
        | none, none => x
        | some l, none => max x l
        | none, some h => min x h
        | some l, some h => min (max x l) h) := by
  rcases lo with _ | l <;> rcases hi with _ | h
  · simp [boundScalar]
  · simp only [boundScalar, Option.map, Fl.lt_num, decide_eq_true_eq]
    split
    · rw [min_eq_right (le_of_lt ‹_›)]
    · rw [min_eq_left (not_lt.mp ‹_›)]
  · simp only [boundScalar, Option.map, Fl.gt_num, decide_eq_true_eq]
    split
    · rw [max_eq_right (le_of_lt ‹_›)]
    · rw [max_eq_left (not_lt.mp ‹_›)]
  · simp only [boundScalar, Option.map, Fl.gt_num, decide_eq_true_eq]
    by_cases c : x < l
    · rw [if_pos c, max_eq_right (le_of_lt c)]
      simp only [Fl.lt_num, decide_eq_true_eq]
      split
      · rw [min_eq_right (le_of_lt ‹_›)]
      · rw [min_eq_left (not_lt.mp ‹_›)]
    · rw [if_neg c, max_eq_left (not_lt.mp c)]
      simp only [Fl.lt_num, decide_eq_true_eq]
      split
      · rw [min_eq_right (le_of_lt ‹_›)]
      · rw [min_eq_left (not_lt.mp ‹_›)]

/-- C34: the documented cases for proper bounds: inside unchanged, below -> lo, above -> hi. -/
theorem C34_cases (x l h : α) (hlh : l ≤ h) :
    (l ≤ x → x ≤ h → boundScalar (.num x) (some (.num l)) (some (.num h)) = .num x) ∧
    (x < l → boundScalar (.num x) (some (.num l)) (some (.num h)) = .num l) ∧
    (h < x → boundScalar (.num x) (some (.num l)) (some (.num h)) = .num h) := by
  have := C34_clamp x (some l) (some h)
  simp only [Option.map] at this
  rw [this]
  refine ⟨?_, ?_, ?_⟩
  · intro a b; rw [max_eq_left a, min_eq_left b]
  · intro a; rw [max_eq_right a.le, min_eq_left hlh]
  · intro a; rw [max_eq_left (le_trans hlh a.le), min_eq_right a.le]

/-- C34: NaN passes through unchanged, whatever the bounds. -/
theorem C34_nan (lo hi : Option (Fl α)) : boundScalar .nan lo hi = (.nan : Fl α) := by
  rcases lo with _ | l <;> rcases hi with _ | h <;> simp [boundScalar]

/-- C34: NaN bounds are no bounds. -/
theorem C34_nan_bound (x : Fl α) : boundScalar x (some .nan) (some .nan) = x := by
  simp [boundScalar]

/-- A bound that is really a number. -/
def realBound : Option (Fl α) → Option α
  | some (.num a) => some a
  | _ => none

theorem boundScalar_realBound (x : Fl α) (lo hi : Option (Fl α)) :
    boundScalar x lo hi
      = boundScalar x ((realBound lo).map Fl.num) ((realBound hi).map Fl.num) := by
  rcases lo with _ | (_ | l) <;> rcases hi with _ | (_ | h) <;> simp [boundScalar, realBound] <;>
    rfl

/-- C34: idempotent. -/
theorem C34_idempotent (x : Fl α) (lo hi : Option (Fl α)) :
    boundScalar (boundScalar x lo hi) lo hi = boundScalar x lo hi := by
  rcases x with _ | x
  · simp [C34_nan]
  · rw [boundScalar_realBound (.num x) lo hi, boundScalar_realBound _ lo hi]
    generalize realBound lo = l
    generalize realBound hi = h
    rw [C34_clamp x l h, C34_clamp _ l h]
    rcases l with _ | l <;> rcases h with _ | h
    · rfl
    · simp
    · simp
    · simp only [Fl.num.injEq]
      rcases le_total l h with hlh | hlh
      · rw [max_eq_left (le_min (le_max_right _ _) hlh)]; simp
      · have e : ∀ t : α, min (max t l) h = h := fun t => min_eq_right (le_trans hlh (le_max_right _ _))
        rw [e, e]

/-- C34: monotone on numbers. -/
theorem C34_monotone (x y : α) (lo hi : Option α) (hxy : x ≤ y) :
    ∃ a b, boundScalar (.num x) (lo.map Fl.num) (hi.map Fl.num) = .num a ∧
      boundScalar (.num y) (lo.map Fl.num) (hi.map Fl.num) = .num b ∧ a ≤ b := by
  refine ⟨_, _, C34_clamp x lo hi, C34_clamp y lo hi, ?_⟩
  rcases lo with _ | l <;> rcases hi with _ | h
  · exact hxy
  · exact min_le_min_right h hxy
  · exact max_le_max_right l hxy
  · exact min_le_min_right h (max_le_max_right l hxy)

/-- C34: the array version is the scalar version on every element; copy=True leaves the caller's
array alone, copy=False writes the result into it. -/
theorem C34_array (x : List (Fl α)) (lo hi : Option (Fl α)) (copy : Bool) :
    (boundArray x lo hi copy).2 = x.map (fun a => boundScalar a lo hi) ∧
    (boundArray x lo hi true).1 = x ∧
    (boundArray x lo hi false).1 = (boundArray x lo hi false).2 := by
  refine ⟨?_, rfl, rfl⟩
  rcases lo with _ | l <;> rcases hi with _ | h
  · simp [boundArray, boundScalar]
  · simp only [boundArray, boundScalar, Fl.gt]; rfl
  · simp only [boundArray, boundScalar, Fl.gt]; rfl
  · simp only [boundArray, boundScalar, Fl.gt, List.map_map]
    rfl

example : (boundArray [.num 5, .nan, .num (-1)] (some (.num 0)) (some (.num (3 : Int)))).2
    = [.num 3, .nan, .num 0] := by decide

end Bound

/-! ### C35 -/
section Real
open Real

theorem boundLo_eq (x lo : ℝ) : boundLo x lo = max x lo := by
  unfold boundLo
  split
  · rw [max_eq_right (le_of_lt ‹_›)]
  · rw [max_eq_left (not_lt.mp ‹_›)]

theorem sumSq_nonneg (v : List ℝ) : 0 ≤ (v.map (fun a => a ^ 2)).sum := by
  apply List.sum_nonneg
  intro a ha
  obtain ⟨b, _, rfl⟩ := List.mem_map.mp ha
  positivity

theorem norm_scale (v : List ℝ) (c : ℝ) : norm (v.map (fun a => a / c)) = norm v / |c| := by
  unfold norm
  have : (v.map (fun a => a / c)).map (fun a => a ^ 2) = (v.map (fun a => a ^ 2)).map (fun a => a / c ^ 2) := by
    simp only [List.map_map]
    congr 1; funext a; simp [div_pow]
  rw [this]
  have hs : ∀ l : List ℝ, (l.map (fun a => a / c ^ 2)).sum = l.sum / c ^ 2 := by
    intro l
    induction l with
    | nil => simp
    | cons a l ih => simp only [List.map_cons, List.sum_cons, ih]; ring
  rw [hs, Real.sqrt_div (sumSq_nonneg v), Real.sqrt_sq_eq_abs]

/-- C35: a normalised vector has norm at most 1, exactly 1 if the input norm is at least `lo`, and
is a non-negative multiple of the input. -/
theorem C35_normalize (v : List ℝ) (lo : ℝ) (hlo : 0 < lo) :
    norm (normalize v lo) ≤ 1 ∧ (lo ≤ norm v → norm (normalize v lo) = 1) ∧
    ∃ c, 0 < c ∧ normalize v lo = v.map (fun a => c * a) := by
  have hn : norm (normalize v lo) = norm v / max (norm v) lo := by
    unfold normalize
    rw [norm_scale, abs_of_pos (lt_of_lt_of_le hlo (le_max_right _ _))]
  have hpos : 0 < max (norm v) lo := lt_of_lt_of_le hlo (le_max_right _ _)
  refine ⟨?_, ?_, ?_⟩
  · rw [hn, div_le_one hpos]; exact le_max_left _ _
  · intro h; rw [hn, max_eq_left h, div_self]; linarith
  · refine ⟨1 / max (norm v) lo, by positivity, ?_⟩
    unfold normalize
    simp only
    congr 1; funext a; ring

/-- C35: `safe_div` divides by `max(y, lo)`: never by less than `lo`, and exactly by `y` when
`y ≥ lo`; so it is bounded by |x|/lo. -/
theorem C35_safe_div (x y lo : ℝ) (hlo : 0 < lo) :
    safeDiv x y lo = x / max y lo ∧ (lo ≤ y → safeDiv x y lo = x / y) ∧
    |safeDiv x y lo| ≤ |x| / lo := by
  have e : safeDiv x y lo = x / max y lo := by unfold safeDiv; rw [boundLo_eq]
  have hpos : 0 < max y lo := lt_of_lt_of_le hlo (le_max_right _ _)
  refine ⟨e, ?_, ?_⟩
  · intro h; rw [e, max_eq_left h]
  · rw [e, abs_div, abs_of_pos hpos]
    exact div_le_div_of_nonneg_left (abs_nonneg x) hlo (le_max_right _ _)

/-- C35: `safe_lg`/`safe_ln` are monotone, bounded below by the log of `lo`, and equal the plain
logarithm from `lo` on. -/
theorem C35_safe_log (x y lo : ℝ) (hlo : 0 < lo) :
    (x ≤ y → safeLg x lo ≤ safeLg y lo ∧ safeLn x lo ≤ safeLn y lo) ∧
    lg lo ≤ safeLg x lo ∧ Real.log lo ≤ safeLn x lo ∧
    (lo ≤ x → safeLg x lo = lg x ∧ safeLn x lo = Real.log x) := by
  have hp : ∀ t : ℝ, 0 < max t lo := fun t => lt_of_lt_of_le hlo (le_max_right _ _)
  unfold safeLg safeLn lg
  simp only [boundLo_eq]
  refine ⟨?_, ?_, ?_, ?_⟩
  · intro h
    have := max_le_max_right lo h
    exact ⟨Real.logb_le_logb_of_le (by norm_num) (hp x) this, Real.log_le_log (hp x) this⟩
  · exact Real.logb_le_logb_of_le (by norm_num) hlo (le_max_right _ _)
  · exact Real.log_le_log hlo (le_max_right _ _)
  · intro h; rw [max_eq_left h]; exact ⟨rfl, rfl⟩

example : (0 : ℝ) < 1 / 10 ^ 10 ∧ (1 / 10 ^ 10 : ℝ) ≤ norm [3, 4] := by
  refine ⟨by norm_num, ?_⟩
  have : norm [3, 4] = 5 := by
    unfold norm
    rw [show ((([3, 4] : List ℝ)).map (fun a => a ^ 2)).sum = 5 ^ 2 by norm_num]
    exact Real.sqrt_sq (by norm_num)
  rw [this]; norm_num

/-! ### C36 -/

/-- distance of `x` from the polar axis -/
noncomputable def rho (x : V3) : ℝ := Real.sqrt (x.x ^ 2 + x.y ^ 2)
/-- length of `x` -/
noncomputable def len (x : V3) : ℝ := Real.sqrt (x.x ^ 2 + x.y ^ 2 + x.z ^ 2)

/-- Explicit components away from the axis. -/
theorem rtToCart_eq (x v : V3) (h1 : 1 / 10 ^ 10 ≤ rho x) (h2 : 1 / 10 ^ 10 ≤ rho x * len x)
    (h3 : 1 / 10 ^ 10 ≤ len x) :
    rtToCart x v =
      ⟨-x.y / rho x * v.x - x.x * x.z / (rho x * len x) * v.y + x.x / len x * v.z,
       x.x / rho x * v.x - x.y * x.z / (rho x * len x) * v.y + x.y / len x * v.z,
       rho x / len x * v.y + x.z / len x * v.z⟩ := by
  have hr : 0 ≤ x.x ^ 2 + x.y ^ 2 := by positivity
  have hl : 0 ≤ x.x ^ 2 + x.y ^ 2 + x.z ^ 2 := by positivity
  have n1 : Real.sqrt ((0 * x.z - 1 * x.y) ^ 2 + (1 * x.x - 0 * x.z) ^ 2 + (0 * x.y - 0 * x.x) ^ 2) = rho x := by
    unfold rho; congr 1; ring
  have rpos : 0 < rho x := lt_of_lt_of_le (by norm_num) h1
  have lpos : 0 < len x := lt_of_lt_of_le (by norm_num) h3
  have rsq : rho x ^ 2 = x.x ^ 2 + x.y ^ 2 := Real.sq_sqrt hr
  have lsq : len x ^ 2 = x.x ^ 2 + x.y ^ 2 + x.z ^ 2 := Real.sq_sqrt hl
  have n2 : Real.sqrt ((x.y * (0 * x.y - 0 * x.x) - x.z * (1 * x.x - 0 * x.z)) ^ 2 +
      (x.z * (0 * x.z - 1 * x.y) - x.x * (0 * x.y - 0 * x.x)) ^ 2 +
      (x.x * (1 * x.x - 0 * x.z) - x.y * (0 * x.z - 1 * x.y)) ^ 2) = rho x * len x := by
    rw [show ((x.y * (0 * x.y - 0 * x.x) - x.z * (1 * x.x - 0 * x.z)) ^ 2 +
      (x.z * (0 * x.z - 1 * x.y) - x.x * (0 * x.y - 0 * x.x)) ^ 2 +
      (x.x * (1 * x.x - 0 * x.z) - x.y * (0 * x.z - 1 * x.y)) ^ 2) = (rho x * len x) ^ 2 by
        rw [mul_pow, rsq, lsq]; ring]
    exact Real.sqrt_sq (by positivity)
  have n3 : Real.sqrt (x.x ^ 2 + x.y ^ 2 + x.z ^ 2) = len x := rfl
  unfold rtToCart V3.normalize V3.cross
  simp only [n1, n2, n3, max_eq_left h1, max_eq_left h2, max_eq_left h3, V3.smul, V3.add]
  apply V3.ext'
  · simp only; field_simp; ring
  · simp only; field_simp; ring
  · simp only
    have e : x.x * (1 * x.x - 0 * x.z) - x.y * (0 * x.z - 1 * x.y) = rho x ^ 2 := by rw [rsq]; ring
    rw [e]; field_simp; ring

/-- C36: away from the polar axis the transformation preserves all inner products, hence lengths and
angles. -/
theorem C36_isometry (x v w : V3) (h1 : 1 / 10 ^ 10 ≤ rho x) (h2 : 1 / 10 ^ 10 ≤ rho x * len x)
    (h3 : 1 / 10 ^ 10 ≤ len x) :
    (rtToCart x v).dot (rtToCart x w) = v.dot w := by
  have hr : 0 ≤ x.x ^ 2 + x.y ^ 2 := by positivity
  have hl : 0 ≤ x.x ^ 2 + x.y ^ 2 + x.z ^ 2 := by positivity
  have rpos : 0 < rho x := lt_of_lt_of_le (by norm_num) h1
  have lpos : 0 < len x := lt_of_lt_of_le (by norm_num) h3
  have rsq : rho x ^ 2 = x.x ^ 2 + x.y ^ 2 := Real.sq_sqrt hr
  have lsq : len x ^ 2 = x.x ^ 2 + x.y ^ 2 + x.z ^ 2 := Real.sq_sqrt hl
  rw [rtToCart_eq x v h1 h2 h3, rtToCart_eq x w h1 h2 h3]
  simp only [V3.dot]
  generalize rho x = r at *
  generalize len x = l at *
  have lsq' : l ^ 2 = r ^ 2 + x.z ^ 2 := by rw [lsq, rsq]
  have hy : x.y ^ 2 = r ^ 2 - x.x ^ 2 := by linarith
  have hz : x.z ^ 2 = l ^ 2 - r ^ 2 := by linarith
  field_simp
  ring_nf
  simp only [show x.y ^ 2 = r ^ 2 - x.x ^ 2 from hy, show x.z ^ 2 = l ^ 2 - r ^ 2 from hz]
  ring

/-- C36: the transformation is linear in the vector. -/
theorem C36_linear (x v w : V3) (a : ℝ) :
    rtToCart x (v.add w) = (rtToCart x v).add (rtToCart x w) ∧
    rtToCart x (v.smul a) = (rtToCart x v).smul a := by
  constructor <;> (simp only [rtToCart, V3.add, V3.smul]; apply V3.ext' <;> simp only <;> ring)

/-- C36: the radial component is mapped to the unit radial direction. -/
theorem C36_radial (x : V3) (h3 : 1 / 10 ^ 10 ≤ len x) :
    rtToCart x ⟨0, 0, 1⟩ = ⟨x.x / len x, x.y / len x, x.z / len x⟩ := by
  have n3 : Real.sqrt (x.x ^ 2 + x.y ^ 2 + x.z ^ 2) = len x := rfl
  simp only [rtToCart, V3.add, V3.smul, V3.normalize, n3, max_eq_left h3]
  apply V3.ext' <;> simp only <;> ring

/-- C36 (violated on the axis): for a position on the polar axis tangential components are lost. -/
theorem C36_axis_degenerate (z a b : ℝ) : rtToCart ⟨0, 0, z⟩ ⟨a, b, 0⟩ = ⟨0, 0, 0⟩ := by
  simp [rtToCart, V3.cross, V3.normalize, V3.smul, V3.add]

/-- C36: `unit_vec_to_cart` always gives a unit vector. -/
theorem C36_unit_vec (theta phi : ℝ) :
    (unitVecToCart theta phi).dot (unitVecToCart theta phi) = 1 := by
  simp only [unitVecToCart, V3.dot]
  have h1 := Real.sin_sq_add_cos_sq theta
  have h2 := Real.sin_sq_add_cos_sq phi
  nlinarith [h1, h2, congrArg (fun t => sin theta ^ 2 * t) h2]

example : 1 / 10 ^ 10 ≤ rho ⟨3, 4, 12⟩ ∧ 1 / 10 ^ 10 ≤ rho ⟨3, 4, 12⟩ * len ⟨3, 4, 12⟩ ∧
    1 / 10 ^ 10 ≤ len ⟨3, 4, 12⟩ := by
  have h1 : rho ⟨3, 4, 12⟩ = 5 := by
    unfold rho; simp only
    rw [show (3 : ℝ) ^ 2 + 4 ^ 2 = 5 ^ 2 by norm_num]; exact Real.sqrt_sq (by norm_num)
  have h2 : len ⟨3, 4, 12⟩ = 13 := by
    unfold len; simp only
    rw [show (3 : ℝ) ^ 2 + 4 ^ 2 + 12 ^ 2 = 13 ^ 2 by norm_num]; exact Real.sqrt_sq (by norm_num)
  rw [h1, h2]; norm_num

end Real
end Pyhipp.Frame
