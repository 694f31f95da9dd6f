import Verif.Model.Grid
/-
C37, C38: grids (src/pyhipp/core/dataproc/grid.py).
-/
set_option linter.unusedSectionVars false
namespace Pyhipp.Grid
open Pyhipp

section G
variable {α : Type} [Field α] [LinearOrder α] [IsStrictOrderedRing α]

/-- np.diff >= 0 everywhere is the same as sorted. -/
theorem npDiff_nonneg_iff (xs : List α) :
    (∀ d ∈ npDiff xs, d ≥ 0) ↔ xs.Pairwise (· ≤ ·) := by
  constructor
  · intro h
    rw [← List.isChain_iff_pairwise, List.isChain_iff_getElem]
    intro i hi
    have hl : i < (npDiff xs).length := by rw [npDiff_length]; omega
    have := h _ (List.getElem_mem hl)
    rw [npDiff_getElem] at this
    linarith
  · intro h d hd
    obtain ⟨i, hi, rfl⟩ := List.getElem_of_mem hd
    rw [npDiff_getElem]
    have hl := hi
    rw [npDiff_length] at hl
    have := pw_le h (Nat.le_succ i) (by omega)
    exact sub_nonneg.mpr this

/-- C37: a grid can be built exactly from the non-empty sorted location lists (repetitions
allowed) and stores them unchanged; anything else is an AssertionError. -/
theorem C37_init (locs : List α) :
    grid1dInit locs = if locs ≠ [] ∧ locs.Pairwise (· ≤ ·) then .ok locs
      else .error .assertionError := by
  unfold grid1dInit pyAssert
  have h1 : (npDiff locs).all (fun d => decide (d ≥ 0)) = true ↔ locs.Pairwise (· ≤ ·) := by
    rw [← npDiff_nonneg_iff]; simp
  have h2 : locs.length ≥ 1 ↔ locs ≠ [] := by
    rw [ne_eq, ← List.length_eq_zero_iff]; omega
  by_cases ha : locs ≠ [] ∧ locs.Pairwise (· ≤ ·)
  · simp only [h2.mpr ha.1, h1.mpr ha.2]; simp [ha.1, ha.2, Except.bind_ok]
  · rw [if_neg ha]
    have : (decide (locs.length ≥ 1) && (npDiff locs).all (fun d => decide (d ≥ 0))) = false := by
      by_contra hc
      rw [Bool.not_eq_false, Bool.and_eq_true, decide_eq_true_iff, h1, h2] at hc
      exact ha hc
    rw [this]; rfl

example : grid1dInit ([0, 1, 1, 3] : List ℚ) = .ok [0, 1, 1, 3] := by
  rw [C37_init, if_pos (by decide)]
example : grid1dInit ([0, 2, 1] : List ℚ) = .error .assertionError := by
  rw [C37_init, if_neg (by decide)]

/-- C37: `locate(x)` is the index `i` in `[-1, n-1]` such that exactly the locations `0..i` are
at or below `x`. -/
theorem C37_locate (locs : List α) (hs : locs.Pairwise (· ≤ ·)) (x : α) :
    -1 ≤ locate locs x ∧ locate locs x ≤ (locs.length : Int) - 1 ∧
      ∀ j (hj : j < locs.length), locs[j] ≤ x ↔ (j : Int) ≤ locate locs x := by
  have hb := ssRight_le_length locs x
  refine ⟨by unfold locate; omega, by unfold locate; omega, ?_⟩
  intro j hj
  rw [ssRight_spec locs x hs j hj]
  unfold locate
  omega

/-- C37: ... and it is the only one. -/
theorem C37_locate_unique (locs : List α) (hs : locs.Pairwise (· ≤ ·)) (x : α) (i : Int)
    (h0 : -1 ≤ i) (h1 : i < locs.length)
    (h : ∀ j (hj : j < locs.length), locs[j] ≤ x ↔ (j : Int) ≤ i) : locate locs x = i :=
  ssRight_unique locs x hs i h0 h1 h

/-- C37: the documented cases: -1 below the first location, `n-1` at or above the last one, and
otherwise `locs[i] <= x < locs[i+1]`. -/
theorem C37_locate_cases (locs : List α) (hne : locs ≠ []) (hs : locs.Pairwise (· ≤ ·)) (x : α) :
    (x < locs.head hne → locate locs x = -1) ∧
    (locs.getLast hne ≤ x → locate locs x = (locs.length : Int) - 1) ∧
    (locs.head hne ≤ x → x < locs.getLast hne →
      ∃ i : Nat, ∃ h : i + 1 < locs.length, locate locs x = i ∧ locs[i] ≤ x ∧ x < locs[i + 1]) := by
  obtain ⟨h0, h1, h⟩ := C37_locate locs hs x
  have hl : 0 < locs.length := List.length_pos_iff.mpr hne
  rw [List.head_eq_getElem, List.getLast_eq_getElem]
  have hfirst := h 0 hl
  have hlast := h (locs.length - 1) (by omega)
  refine ⟨fun hx => ?_, fun hx => ?_, fun hx hy => ?_⟩
  · have : ¬ locs[0] ≤ x := not_le.mpr hx
    rw [hfirst] at this; omega
  · have := hlast.mp hx; omega
  · have a := hfirst.mp hx
    have b : ¬ ((locs.length - 1 : Nat) : Int) ≤ locate locs x := by
      rw [← hlast]; exact not_le.mpr hy
    refine ⟨(locate locs x).toNat, by omega, by omega, ?_, ?_⟩
    · exact (h _ (by omega)).mpr (by omega)
    · apply not_le.mp
      rw [h _ (by omega)]; omega

example : locate ([0, 1, 1, 3] : List ℚ) 1 = 2 ∧ locate ([0, 1, 1, 3] : List ℚ) (-1) = -1
    ∧ locate ([0, 1, 1, 3] : List ℚ) 7 = 3 := by decide

/-- C37: the multi-dimensional version: entry `r` of the list for dimension `k` is the 1-d
`locate` of component `k` of point `r` on grid `k`. -/
theorem C37_locateMd (grids : List (List α)) (x : List (List α)) :
    (locateMd grids x).length = grids.length ∧
    ∀ k (hk : k < grids.length) r (hr : r < x.length) (hc : k < x[r].length),
      ∃ h1 : k < (locateMd grids x).length, ∃ h2 : r < ((locateMd grids x)[k]).length,
        ((locateMd grids x)[k])[r] = locate grids[k] (x[r][k]) := by
  refine ⟨by simp [locateMd], ?_⟩
  intro k hk r hr hc
  refine ⟨by simpa [locateMd] using hk, by simpa [locateMd] using hr, ?_⟩
  simp [locateMd, hc]

example : locateMd [[0, 1, 2], [0, 10]] [[(1 : ℚ) / 2, 12], [5, -1]] = [[0, 2], [1, -1]] := by
  simp only [locateMd, List.mapIdx_cons, List.mapIdx_nil, List.map_cons, List.map_nil]
  decide +kernel

/-- C37: a multi-dimensional grid is accepted iff there is at least one axis and every axis is
non-empty and sorted. -/
theorem C37_initMd (grids : List (List α)) :
    gridMdInit grids = .ok grids ↔
      grids ≠ [] ∧ ∀ g ∈ grids, g ≠ [] ∧ g.Pairwise (· ≤ ·) := by
  have key : ∀ gs : List (List α), gs.mapM grid1dInit
      = if ∀ g ∈ gs, g ≠ [] ∧ g.Pairwise (· ≤ ·) then .ok gs else .error .assertionError := by
    intro gs
    induction gs with
    | nil => rfl
    | cons g t ih =>
        rw [List.mapM_cons, ih, C37_init]
        by_cases hg : g ≠ [] ∧ g.Pairwise (· ≤ ·)
        · by_cases ht : ∀ g ∈ t, g ≠ [] ∧ g.Pairwise (· ≤ ·)
          · rw [if_pos hg, if_pos ht, if_pos (by simpa using ⟨hg, ht⟩)]; rfl
          · rw [if_pos hg, if_neg ht, if_neg (by
              intro hc; exact ht (fun g hg => hc g (List.mem_cons_of_mem _ hg)))]; rfl
        · rw [if_neg hg, if_neg (c := ∀ g_1 ∈ g :: t, _) (by
            intro hc; exact hg (hc g (List.mem_cons_self)))]; rfl
  unfold gridMdInit
  rw [key]
  by_cases hc : ∀ g ∈ grids, g ≠ [] ∧ g.Pairwise (· ≤ ·)
  · rw [if_pos hc, Except.bind_ok]
    by_cases hn : grids = []
    · simp [hn, pyAssert, Except.bind_error]
    · have : decide (grids.length ≥ 1) = true := by
        have := List.length_pos_iff.mpr hn
        simp; omega
      simp only [this, pyAssert, if_true, Except.bind_ok]
      simp only [ne_eq, hn, not_false_eq_true, true_and]
      exact ⟨fun _ => hc, fun _ => rfl⟩
  · rw [if_neg hc, Except.bind_error]
    simp only [reduceCtorEq, false_iff]
    exact fun h => hc h.2

/-- C38: for a valid grid with at least two locations the grid of centers exists, has one
location fewer, each center is the midpoint of (and lies between) two neighbouring locations,
and the centers are sorted again. -/
theorem C38_centers (locs : List α) (hs : locs.Pairwise (· ≤ ·)) (h2 : 2 ≤ locs.length) :
    ∃ c, centers locs = .ok c ∧ c.Pairwise (· ≤ ·) ∧ ∃ hl : c.length + 1 = locs.length,
      ∀ i (hi : i < c.length), 2 * c[i] = locs[i] + locs[i + 1] ∧
        locs[i] ≤ c[i] ∧ c[i] ≤ locs[i + 1] := by
  set c := List.zipWith (fun lo hi : α => (1 / 2) * (lo + hi)) locs.dropLast (locs.drop 1) with hc
  have hlen : c.length + 1 = locs.length := by simp [hc]; omega
  have hget : ∀ i (hi : i < c.length), c[i] = (1 / 2) * (locs[i] + locs[i + 1]) := by
    intro i hi; simp [hc]
  have hsorted : c.Pairwise (· ≤ ·) := by
    rw [List.pairwise_iff_getElem]
    intro i j hi hj hij
    rw [hget i hi, hget j hj]
    have a : locs[i] ≤ locs[j] := pw_le hs (by omega) (by omega)
    have b : locs[i + 1] ≤ locs[j + 1] := pw_le hs (by omega) (by omega)
    linarith
  refine ⟨c, ?_, hsorted, hlen, ?_⟩
  · have : centers locs = grid1dInit c := rfl
    have hne : c ≠ [] := by
      intro h0
      have : c.length = 0 := by rw [h0]; rfl
      omega
    rw [this, C37_init, if_pos ⟨hne, hsorted⟩]
  · intro i hi
    rw [hget i hi]
    have a : locs[i] ≤ locs[i + 1] := pw_le hs (by omega) (by omega)
    refine ⟨by ring, by linarith, by linarith⟩

/-- C38: a grid with a single location has no centers (AssertionError). -/
theorem C38_centers_single (a : α) : centers [a] = .error .assertionError := by
  have : centers [a] = grid1dInit [] := rfl
  rw [this, C37_init, if_neg (by simp)]

/-- C38: the centres of a grid of several dimensions are the centres of each dimension, in order; AssertionError if one has a single location. -/
theorem C38_centers_md (grids : List (List α)) (hne : grids ≠ []) (hs : ∀ g ∈ grids, g.Pairwise (· ≤ ·)) :
    ((∀ g ∈ grids, 2 ≤ g.length) → ∃ cs, centersMd grids = .ok cs ∧ cs.length = grids.length ∧
      ∀ (k : Nat) (g c : List α), grids[k]? = some g → cs[k]? = some c → centers g = .ok c) ∧
    ((∃ g ∈ grids, g.length < 2) → centersMd grids = .error .assertionError) := by
  have hshort : ∀ g : List α, g.length < 2 → centers g = .error .assertionError := by
    intro g hg
    match g, hg with
    | [], _ => exact (C37_init []).trans (if_neg (by simp))
    | [a], _ => exact C38_centers_single a
  have key : ∀ gs : List (List α), (∀ g ∈ gs, g.Pairwise (· ≤ ·)) →
      ((∀ g ∈ gs, 2 ≤ g.length) → ∃ cs, gs.mapM centers = .ok cs ∧ cs.length = gs.length ∧ (∀ c ∈ cs, c ≠ [] ∧ c.Pairwise (· ≤ ·)) ∧
        ∀ (k : Nat) (g c : List α), gs[k]? = some g → cs[k]? = some c → centers g = .ok c) ∧
      ((∃ g ∈ gs, g.length < 2) → gs.mapM centers = .error .assertionError) := by
    intro gs
    induction gs with
    | nil => intro _; exact ⟨fun _ => ⟨[], rfl, rfl, by simp, by simp⟩, by simp⟩
    | cons g gs ih =>
      intro h
      obtain ⟨ih1, ih2⟩ := ih (fun g' hg' => h g' (by simp [hg']))
      rw [List.mapM_cons]
      by_cases hg : 2 ≤ g.length
      · obtain ⟨c, e, hp, hl, -⟩ := C38_centers g (h g (by simp)) hg
        rw [e]
        constructor
        · intro h2
          obtain ⟨cs, e1, e2, e3, e4⟩ := ih1 (fun g' hg' => h2 g' (by simp [hg']))
          rw [e1]
          refine ⟨c :: cs, rfl, by simp [e2], ?_, ?_⟩
          · intro c' hc'
            rcases List.mem_cons.mp hc' with rfl | hc'
            · exact ⟨by rintro rfl; simp at hl; omega, hp⟩
            · exact e3 c' hc'
          · intro k g' c' h1 h2
            cases k with
            | zero => simp at h1 h2; subst h1; subst h2; exact e
            | succ k => exact e4 k g' c' (by simpa using h1) (by simpa using h2)
        · rintro ⟨g', hg', hlt⟩
          rcases List.mem_cons.mp hg' with rfl | hg'
          · omega
          · rw [ih2 ⟨g', hg', hlt⟩]; rfl
      · constructor
        · intro h2; exact absurd (h2 g (by simp)) hg
        · intro _
          rw [hshort g (by omega)]; rfl
  obtain ⟨k1, k2⟩ := key grids hs
  constructor
  · intro h2
    obtain ⟨cs, e1, e2, e3, e4⟩ := k1 h2
    refine ⟨cs, ?_, e2, e4⟩
    unfold centersMd
    rw [e1]
    exact (C37_initMd cs).mpr ⟨by rintro rfl; simp at e2; exact hne (List.length_eq_zero_iff.mp e2.symm), e3⟩
  · intro h2
    unfold centersMd
    rw [k2 h2]
    rfl

example : centers ([0, 1, 1, 3] : List ℚ) = .ok [1 / 2, 1, 2] := by
  obtain ⟨c, h, -, hl, hc⟩ := C38_centers ([0, 1, 1, 3] : List ℚ) (by decide) (by decide)
  rcases c with _ | ⟨a, _ | ⟨b, _ | ⟨d, _ | _⟩⟩⟩ <;> simp at hl
  have h0 := (hc 0 (by simp)).1
  have h1 := (hc 1 (by simp)).1
  have h2 := (hc 2 (by simp)).1
  simp at h0 h1 h2
  rw [h]
  congr
  · linarith
  · linarith
  · linarith

/-- C38: `extent` is (first, last), i.e. the smallest and the largest location. -/
theorem C38_extent (locs : List α) (hne : locs ≠ []) (hs : locs.Pairwise (· ≤ ·)) :
    ∃ a b, extent locs = .ok (a, b) ∧ a ∈ locs ∧ b ∈ locs ∧ ∀ x ∈ locs, a ≤ x ∧ x ≤ b := by
  have hl : 0 < locs.length := List.length_pos_iff.mpr hne
  refine ⟨locs[0], locs[locs.length - 1], ?_, List.getElem_mem _, List.getElem_mem _, ?_⟩
  · have h0 : pyGet locs 0 = .ok locs[0] := pyGet_ofNat locs 0 hl
    unfold extent
    rw [h0, pyGet_last locs hne]
    simp [Except.bind_ok, List.getLast_eq_getElem]
  · intro x hx
    obtain ⟨i, hi, rfl⟩ := List.getElem_of_mem hx
    exact ⟨pw_le hs (by omega) hi, pw_le hs (by omega) (by omega)⟩

end G

section A

theorem indices_length (s : List Nat) : (indices s).length = s.prod := by
  induction s with
  | nil => rfl
  | cons n t ih => simp [indices, ih, List.length_flatMap]

theorem flatMap_block {β : Type} (n m : Nat) (f : Nat → List β) (hf : ∀ i, (f i).length = m)
    (i j : Nat) (hi : i < n) (hj : j < m) :
    ((List.range n).flatMap f)[i * m + j]? = (f i)[j]? := by
  induction n with
  | zero => omega
  | succ n ih =>
      rw [List.range_succ, List.flatMap_append]
      have hlen : ((List.range n).flatMap f).length = n * m := by
        simp [List.length_flatMap, hf]
      by_cases h : i < n
      · rw [List.getElem?_append_left (by rw [hlen]; nlinarith), ih h]
      · have : i = n := by omega
        subst this
        rw [List.getElem?_append_right (by rw [hlen]; omega), hlen]
        simp

theorem indices_flatIdx (s I : List Nat) (h : List.Forall₂ (fun i n => i < n) I s) :
    flatIdx s I < s.prod ∧ (indices s)[flatIdx s I]? = some I := by
  induction h with
  | nil => simp [flatIdx, indices]
  | @cons i n I s hi _ ih =>
      obtain ⟨hlt, hget⟩ := ih
      constructor
      · simp only [flatIdx, List.prod_cons]
        have : (i + 1) * s.prod ≤ n * s.prod := Nat.mul_le_mul_right _ hi
        nlinarith
      · simp only [flatIdx, indices]
        rw [flatMap_block n s.prod (fun i => (indices s).map (fun I => i :: I))
          (by intro i; simp [indices_length]) i _ hi hlt]
        simp [List.getElem?_map, hget]

/-- The row-major offset is a bijection between multi-indices and `[0, prod shape)`, as numpy
promises: distinct multi-indices have distinct offsets. -/
theorem flatIdx_inj (s I J : List Nat) (hI : List.Forall₂ (fun i n => i < n) I s)
    (hJ : List.Forall₂ (fun i n => i < n) J s) (h : flatIdx s I = flatIdx s J) : I = J := by
  have a := (indices_flatIdx s I hI).2
  have b := (indices_flatIdx s J hJ).2
  rw [h, b] at a
  exact (Option.some.inj a).symm

variable {α β : Type} [Inhabited α]

theorem swap01_swap01 {γ : Type} (l : List γ) : swap01 (swap01 l) = l := by
  rcases l with _ | ⟨a, _ | ⟨b, t⟩⟩ <;> rfl

theorem swap01_length {γ : Type} (l : List γ) : (swap01 l).length = l.length := by
  rcases l with _ | ⟨a, _ | ⟨b, t⟩⟩ <;> rfl

theorem forall₂_swap01 {γ δ : Type} (R : γ → δ → Prop) (l : List γ) (m : List δ)
    (h : List.Forall₂ R l m) : List.Forall₂ R (swap01 l) (swap01 m) := by
  cases h with
  | nil => exact .nil
  | cons h1 h2 => cases h2 with
    | nil => exact .cons h1 .nil
    | cons h3 h4 => exact .cons h3 (.cons h1 h4)

/-- The grid point with multi-index `J` (`J[k]` counts along axis `k`). -/
def gridPoint (grids : List (List α)) (J : List Nat) : List α :=
  List.zipWith (fun g j => g.getD j default) grids J

/-- Core of `applied`: for a function acting point by point, the array entry at array index `I`
is the function at the grid point whose axis indices are `I` ('ij') resp. `I` with the first
two entries exchanged ('xy'). -/
theorem applied_get (grids : List (List α)) (hne : grids ≠ []) (g : List α → β) (xy : Bool) :
    ∃ a, applied grids (fun pts => pts.map g) xy = .ok a ∧
      a.shape = (if xy then swap01 (grids.map List.length) else grids.map List.length) ∧
      ∀ I, List.Forall₂ (fun i n => i < n) I a.shape →
        a.get? I = some (g (gridPoint grids (if xy then swap01 I else I))) := by
  set n := grids.map List.length with hn
  set shape := (if xy then swap01 n else n) with hshape
  have hlocs : (meshgrid grids xy).length = grids.length := by simp [meshgrid]
  obtain ⟨g0, gt, hg⟩ : ∃ g0 gt, grids = g0 :: gt := by
    rcases grids with _ | ⟨a, b⟩
    · exact absurd rfl hne
    · exact ⟨_, _, rfl⟩
  have hsh : ((meshgrid grids xy).map (fun l => l.shape)).headD [] = shape := by
    subst hg; simp [meshgrid, hshape, hn]
  have hrows : (((meshgrid grids xy).map (fun l => l.data)).headD []).length = shape.prod := by
    subst hg; simp [meshgrid, hshape, hn, indices_length]
  refine ⟨{ shape := shape, data := ((List.range shape.prod).map (fun r =>
      ((meshgrid grids xy).map (fun l => l.data)).map (fun l => l.getD r default))).map g },
      ?_, rfl, ?_⟩
  · unfold applied
    simp only [hsh, hrows]
    rw [if_pos (by simp)]
  · intro I hI
    simp only at hI
    unfold NDArr.get?
    simp only [hI, if_true]
    obtain ⟨hlt, hget⟩ := indices_flatIdx shape I hI
    rw [List.getElem?_map, List.getElem?_map, List.getElem?_range hlt]
    simp only [Option.map_some, Option.some.injEq]
    congr 1
    apply List.ext_getElem?
    intro k
    have hJlen : (if xy = true then swap01 I else I).length = grids.length := by
      have h1 := hI.length_eq
      rw [hshape, hn] at h1
      by_cases hx : xy = true
      · simp only [hx, if_true, swap01_length, List.length_map] at h1 ⊢; exact h1
      · simp only [hx] at h1 ⊢; simpa using h1
    by_cases hk : k < grids.length
    · rw [List.getElem?_eq_getElem (by simpa [meshgrid] using hk),
        List.getElem?_eq_getElem (by simp [gridPoint, hJlen, hk])]
      simp only [meshgrid, List.getElem_map, List.getElem_mapIdx, gridPoint, List.getElem_zipWith,
        Option.some.injEq]
      have hget' : (indices (if xy = true then swap01 (List.map List.length grids)
          else List.map List.length grids))[flatIdx shape I]? = some I := hget
      rw [List.getD_eq_getElem?_getD (i := flatIdx shape I), List.getElem?_map, hget']
      simp only [Option.map_some, Option.getD_some]
      rw [getD_lt (if xy = true then swap01 I else I) k 0 (by rw [hJlen]; exact hk)]
    · rw [List.getElem?_eq_none (by simpa [meshgrid] using hk),
        List.getElem?_eq_none (by simp [gridPoint]; omega)]

/-- C38: `applied(f)` with `xy_indexing=False` ('ij'): the entry at multi-index `I` is `f` at the
grid point `(locs_0[I_0], ..., locs_{d-1}[I_{d-1}])`, and the shape is the tuple of axis
lengths. -/
theorem C38_applied_ij (grids : List (List α)) (hne : grids ≠ []) (f : List α → β) :
    ∃ a, applied grids (fun pts => pts.map f) false = .ok a ∧
      a.shape = grids.map List.length ∧
      ∀ I, List.Forall₂ (fun i n => i < n) I (grids.map List.length) →
        a.get? I = some (f (gridPoint grids I)) := by
  obtain ⟨a, h1, h2, h3⟩ := applied_get grids hne f false
  simp only [Bool.false_eq_true, if_false] at h2 h3
  exact ⟨a, h1, h2, fun I hI => h3 I (by rw [h2]; exact hI)⟩

/-- C38: `applied(f)` with the default 'xy' indexing in two or more dimensions: entry
`[i, j, rest]` is `f` at the point with axis-0 index `j` and axis-1 index `i`. -/
theorem C38_applied_xy (g0 g1 : List α) (gs : List (List α)) (f : List α → β) :
    ∃ a, applied (g0 :: g1 :: gs) (fun pts => pts.map f) true = .ok a ∧
      a.shape = g1.length :: g0.length :: gs.map List.length ∧
      ∀ i j I, i < g1.length → j < g0.length →
        List.Forall₂ (fun i n => i < n) I (gs.map List.length) →
        a.get? (i :: j :: I) = some (f (gridPoint (g0 :: g1 :: gs) (j :: i :: I))) := by
  obtain ⟨a, h1, h2, h3⟩ := applied_get (g0 :: g1 :: gs) (by simp) f true
  simp only [if_true, List.map_cons, swap01] at h2 h3
  exact ⟨a, h1, h2, fun i j I hi hj hI => h3 _ (by rw [h2]; exact .cons hi (.cons hj hI))⟩

/-- C38: in one dimension both indexings agree. -/
theorem C38_applied_1d (g0 : List α) (f : List (List α) → List β) :
    applied [g0] f true = applied [g0] f false := by
  have : meshgrid [g0] true = meshgrid [g0] false := by
    have hi : ∀ n : Nat, ∀ I ∈ indices [n], swap01 I = I := by
      intro n I hI
      simp only [indices, List.mem_flatMap, List.mem_map] at hI
      obtain ⟨i, -, J, hJ, rfl⟩ := hI
      simp at hJ; subst hJ; rfl
    simp only [meshgrid, List.map_cons, List.map_nil, if_true]
    simp only [Bool.false_eq_true, if_false]
    rw [show swap01 [g0.length] = [g0.length] from rfl]
    simp only [List.mapIdx_cons, List.mapIdx_nil]
    congr 2
    apply List.map_congr_left
    intro I hI
    exact congrArg (fun J : List Nat => g0.getD (J.getD 0 0) default) (hi _ I hI)
  unfold applied
  rw [this]

/-- C38: a function that returns the wrong number of values is a ValueError. -/
theorem C38_applied_bad_length (grids : List (List α)) (hne : grids ≠ [])
    (f : List (List α) → List β) (hf : ∀ pts, (f pts).length ≠ (grids.map List.length).prod) :
    applied grids f false = .error .valueError := by
  obtain ⟨g0, gt, rfl⟩ : ∃ g0 gt, grids = g0 :: gt := by
    rcases grids with _ | ⟨a, b⟩
    · exact absurd rfl hne
    · exact ⟨_, _, rfl⟩
  unfold applied
  rw [if_neg]
  have : ((meshgrid (g0 :: gt) false).map (fun l => l.shape)).headD []
      = (g0 :: gt).map List.length := by simp [meshgrid]
  simp only [this]
  exact hf _

example : ∃ a, applied [[10, 20], [1, 2, 3]] (fun pts => pts.map List.sum) true
    = Except.ok a ∧ a.shape = [3, 2] ∧ a.data = [11, 21, 12, 22, (13 : Nat), 23] := by
  refine ⟨_, rfl, ?_, ?_⟩ <;> decide

end A
end Pyhipp.Grid
