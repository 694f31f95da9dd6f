import Verif.Model.GridMake
import Verif.Props.Grid
import Verif.Lemmas.NpInterp
/-
C131: making grids (src/pyhipp/core/dataproc/grid.py).
-/
set_option linter.unusedSectionVars false
namespace Pyhipp.GridMake
open Pyhipp Pyhipp.Grid Pyhipp.Reduction

section G
variable {α : Type} [Field α] [LinearOrder α] [IsStrictOrderedRing α] [FloorRing α]

/-- Specification: `n` equally spaced locations starting at `a`, `d` apart. -/
def steps (a d : α) (n : Nat) : List α := (List.range n).map (fun i : Nat => a + (i : α) * d)

theorem steps_sorted (a d : α) (n : Nat) (hd : 0 ≤ d) : (steps a d n).Pairwise (· ≤ ·) := by
  unfold steps
  rw [List.pairwise_map]
  refine List.pairwise_lt_range.imp ?_
  intro i j h
  have : (i : α) ≤ (j : α) := by exact_mod_cast h.le
  have := mul_le_mul_of_nonneg_right this hd
  linarith

theorem steps_unsorted (a d : α) (n : Nat) (hn : 2 ≤ n) (hd : d < 0) :
    ¬ (steps a d n).Pairwise (· ≤ ·) := by
  obtain ⟨k, rfl⟩ : ∃ k, n = k + 2 := ⟨n - 2, by omega⟩
  intro h
  have := List.pairwise_iff_getElem.mp h 0 1 (by simp [steps]) (by simp [steps]) (by omega)
  simp only [steps, List.getElem_map, List.getElem_range] at this
  push_cast at this
  linarith

theorem steps_ne (a d : α) (n : Nat) (hn : 1 ≤ n) : steps a d n ≠ [] := by
  intro h
  have := congrArg List.length h
  simp [steps] at this; omega

theorem floor_nat (k : Nat) (c : α) (hc : |c| = (k : α)) : (Int.floor |c|).toNat = k := by
  rw [hc, Int.floor_natCast]; simp

theorem steps_eq (a d : α) (n : Nat) :
    (List.range n).map (fun i : Nat => (i : α) * d + a) = steps a d n := by
  unfold steps
  apply List.map_congr_left
  intro i _; ring

/-- C131: `start:stop:n j` with at least two points and `start <= stop` gives exactly `n`
equally spaced locations, `(stop - start)/(n - 1)` apart, starting at `start` ... ; a step
`-n j` means the same, and a missing start means 0. -/
theorem C131_complex (start : Option α) (stop c : α) (n : Nat) (hc : |c| = (n : α)) (hn : 2 ≤ n)
    (hle : start.getD 0 ≤ stop) :
    grid1d (.slice start stop (.imag c))
      = .ok (steps (start.getD 0) ((stop - start.getD 0) / ((n : α) - 1)) n) := by
  have hn1 : (0 : α) < (n : α) - 1 := by
    have : (2 : α) ≤ (n : α) := by exact_mod_cast hn
    linarith
  have h0 : 0 ≤ (stop - start.getD 0) / ((n : α) - 1) :=
    div_nonneg (sub_nonneg.mpr hle) hn1.le
  simp only [grid1d, mgrid, mgridImag, floor_nat n c hc, bind, Except.bind]
  rw [if_pos (by omega), steps_eq, C37_init, if_pos ⟨steps_ne _ _ _ (by omega), steps_sorted _ _ _ h0⟩]

/-- C131: ... and ending exactly at `stop`: both ends are included. -/
theorem C131_complex_ends (a b : α) (n : Nat) (hn : 2 ≤ n) :
    (steps a ((b - a) / ((n : α) - 1)) n).length = n ∧
    (steps a ((b - a) / ((n : α) - 1)) n).head? = some a ∧
    (steps a ((b - a) / ((n : α) - 1)) n).getLast? = some b := by
  have hn1 : ((n : α) - 1) ≠ 0 := by
    have : (2 : α) ≤ (n : α) := by exact_mod_cast hn
    intro h; linarith
  refine ⟨by simp [steps], ?_, ?_⟩
  · obtain ⟨k, rfl⟩ : ∃ k, n = k + 1 := ⟨n - 1, by omega⟩
    rw [List.head?_eq_getElem?]
    simp [steps]
  · rw [List.getLast?_eq_getElem?]
    simp only [steps, List.length_map, List.length_range, List.getElem?_map]
    rw [List.getElem?_range (by omega)]
    simp only [Option.map_some, Option.some.injEq]
    rw [Nat.cast_sub (by omega), Nat.cast_one, mul_div_cancel₀ _ hn1]
    ring

example : grid1d (.slice (some 0) 1 (.imag 4) : Axis ℚ) = .ok [0, 1/3, 2/3, 1] := by
  rw [C131_complex (some 0) (1 : ℚ) 4 4 (by norm_num) (by omega) (by norm_num)]
  decide +kernel

/-- C131: one point is just the start, whatever the stop; zero points or a decreasing range of
two or more points are AssertionErrors. -/
theorem C131_complex_bad (start : Option α) (stop c : α) (n : Nat) (hc : |c| = (n : α)) :
    (n = 1 → grid1d (.slice start stop (.imag c)) = .ok [start.getD 0]) ∧
    (n = 0 → grid1d (.slice start stop (.imag c)) = .error .assertionError) ∧
    (2 ≤ n → stop < start.getD 0 →
      grid1d (.slice start stop (.imag c)) = .error .assertionError) := by
  refine ⟨?_, ?_, ?_⟩
  · intro h
    simp only [grid1d, mgrid, mgridImag, floor_nat n c hc, bind, Except.bind]
    subst h
    rw [if_neg (by simp), C37_init, if_pos (by simp)]
    simp
  · intro h
    simp only [grid1d, mgrid, mgridImag, floor_nat n c hc, bind, Except.bind]
    subst h
    rw [C37_init, if_neg (by simp)]
  · intro hn hlt
    have hn1 : (0 : α) < (n : α) - 1 := by
      have : (2 : α) ≤ (n : α) := by exact_mod_cast hn
      linarith
    simp only [grid1d, mgrid, mgridImag, floor_nat n c hc, bind, Except.bind]
    rw [if_pos (by omega), steps_eq, C37_init, if_neg ?_]
    intro hh
    exact steps_unsorted _ _ _ hn (div_neg_of_neg_of_pos (by linarith) hn1) hh.2

example : grid1d (.slice (some 5) 1 (.imag (-1)) : Axis ℚ) = .ok [5] :=
  (C131_complex_bad (some 5) (1 : ℚ) (-1) 1 (by norm_num)).1 rfl
example : grid1d (.slice (some 5) 1 (.imag 3) : Axis ℚ) = .error .assertionError :=
  (C131_complex_bad (some 5) (1 : ℚ) 3 3 (by norm_num)).2.2 (by omega) (by norm_num)

/-- C131: a fractional imaginary step is cut to an integer. -/
theorem C131_complex_fraction (start : Option α) (stop c c' : α)
    (h : Int.floor |c| = Int.floor |c'|) :
    grid1d (.slice start stop (.imag c)) = grid1d (.slice start stop (.imag c')) := by
  simp only [grid1d, mgrid, mgridImag, h]

/-- The locations of `start:stop:d` with a positive step: exactly the `start + i*d` below
`stop`. -/
theorem arange_mem (a b d : α) (hd : 0 < d) (i : Nat) :
    i < (Int.ceil ((b - a) / d)).toNat ↔ a + (i : α) * d < b := by
  rw [Int.lt_toNat, Int.lt_ceil, lt_div_iff₀ hd]
  push_cast
  constructor <;> intro h <;> linarith

/-- C131: `start:stop:d` with a positive real step (1 if left out) and `start < stop` gives the
locations `start + i*d` for exactly those `i` for which this is below `stop`, in order: the
start is included and the stop is not. -/
theorem C131_real (start : Option α) (stop d : α) (hd : 0 < d) (hlt : start.getD 0 < stop) :
    ∃ n : Nat, 1 ≤ n ∧ (∀ i : Nat, i < n ↔ start.getD 0 + (i : α) * d < stop) ∧
      grid1d (.slice start stop (.real d)) = .ok (steps (start.getD 0) d n) ∧
      (d = 1 → grid1d (.slice start stop .none) = .ok (steps (start.getD 0) 1 n)) := by
  have hm := arange_mem (start.getD 0) stop d hd
  refine ⟨(Int.ceil ((stop - start.getD 0) / d)).toNat, ?_, hm, ?_, ?_⟩
  · have := (hm 0).mpr (by simpa using hlt); omega
  · have h1 : 1 ≤ (Int.ceil ((stop - start.getD 0) / d)).toNat := by
      have := (hm 0).mpr (by simpa using hlt); omega
    simp only [grid1d, mgrid, npArange, if_neg hd.ne', bind, Except.bind]
    rw [C37_init]
    exact if_pos ⟨steps_ne _ _ _ h1, steps_sorted _ _ _ hd.le⟩
  · rintro rfl
    have h1 : 1 ≤ (Int.ceil ((stop - start.getD 0) / 1)).toNat := by
      have := (hm 0).mpr (by simpa using hlt); omega
    simp only [grid1d, mgrid, npArange, if_neg hd.ne', bind, Except.bind]
    rw [C37_init]
    exact if_pos ⟨steps_ne _ _ _ h1, steps_sorted _ _ _ hd.le⟩

example : ∃ n : Nat, 1 ≤ n ∧ (∀ i : Nat, i < n ↔ (some (0 : ℚ)).getD 0 + (i : ℚ) * (1/2) < 2) ∧
    grid1d (.slice (some 0) 2 (.real (1/2)) : Axis ℚ)
      = .ok (steps ((some (0 : ℚ)).getD 0) (1/2) n) := by
  obtain ⟨n, a, b, c, _⟩ := C131_real (some 0) (2 : ℚ) (1/2) (by norm_num) (by norm_num)
  exact ⟨n, a, b, c⟩

/-- C131: an empty range (`stop <= start`) is an AssertionError, a step of zero a
ZeroDivisionError. -/
theorem C131_real_bad (start : Option α) (stop d : α) :
    (0 < d → stop ≤ start.getD 0 →
      grid1d (.slice start stop (.real d)) = .error .assertionError) ∧
    (stop ≤ start.getD 0 → grid1d (.slice start stop .none) = .error .assertionError) ∧
    grid1d (.slice start stop (.real 0)) = .error .zeroDivisionError := by
  have key : ∀ d : α, 0 < d → stop ≤ start.getD 0 →
      grid1d (.slice start stop (.real d)) = .error .assertionError := by
    intro d hd hle
    have h0 : (Int.ceil ((stop - start.getD 0) / d)).toNat = 0 := by
      have := (arange_mem (start.getD 0) stop d hd 0).not.mpr (by simpa using hle)
      omega
    simp only [grid1d, mgrid, npArange, if_neg hd.ne', bind, Except.bind, h0]
    rw [C37_init, if_neg (by simp)]
  refine ⟨key d, fun h => ?_, ?_⟩
  · exact key 1 one_pos h
  · simp [grid1d, mgrid, npArange, bind, Except.bind]

/-- C131: a negative step is an AssertionError, unless the range has a single location (the
start): `start + d <= stop < start`. -/
theorem C131_real_negative (start : Option α) (stop d : α) (hd : d < 0) :
    grid1d (.slice start stop (.real d)) =
      if stop < start.getD 0 ∧ start.getD 0 + d ≤ stop then .ok [start.getD 0]
      else .error .assertionError := by
  have hm : ∀ i : Nat, i < (Int.ceil ((stop - start.getD 0) / d)).toNat ↔
      stop < start.getD 0 + (i : α) * d := by
    intro i
    rw [Int.lt_toNat, Int.lt_ceil, lt_div_iff_of_neg hd]
    push_cast
    constructor <;> intro h <;> linarith
  have e : grid1d (.slice start stop (.real d))
      = grid1dInit (steps (start.getD 0) d (Int.ceil ((stop - start.getD 0) / d)).toNat) := by
    simp only [grid1d, mgrid, npArange, if_neg hd.ne, bind, Except.bind]
    rfl
  rw [e, C37_init]
  have h0 := hm 0
  have h1 := hm 1
  generalize (Int.ceil ((stop - start.getD 0) / d)).toNat = n at h0 h1
  simp only [Nat.cast_zero, zero_mul, add_zero, Nat.cast_one, one_mul] at h0 h1
  by_cases hc : stop < start.getD 0 ∧ start.getD 0 + d ≤ stop
  · have hn : n = 1 := by
      have a := h0.mpr hc.1
      have b : ¬ 1 < n := fun h => absurd (h1.mp h) (not_lt.mpr hc.2)
      omega
    subst hn
    rw [if_pos (by simp [steps]), if_pos hc]
    simp [steps]
  · rw [if_neg hc, if_neg ?_]
    rintro ⟨hne, hp⟩
    have hpos : 0 < n := by
      rcases Nat.eq_zero_or_pos n with h | h
      · subst h; exact absurd rfl hne
      · exact h
    by_cases h2 : 2 ≤ n
    · exact steps_unsorted _ _ _ h2 hd hp
    · exact hc ⟨h0.mp hpos, not_lt.mp (fun h => h2 (h1.mpr h))⟩

example : grid1d (.slice (some 5) 1 (.real (-1)) : Axis ℚ) = .error .assertionError := by
  rw [C131_real_negative _ _ _ (by norm_num), if_neg (by norm_num)]
example : grid1d (.slice (some 5) 1 (.real (-7)) : Axis ℚ) = .ok [5] := by
  rw [C131_real_negative _ _ _ (by norm_num), if_pos (by norm_num)]; rfl

/-- C131: making a grid from a grid keeps its locations. -/
theorem C131_copy (a : Axis α) (l : List α) (h : grid1d a = .ok l) :
    grid1d (.grid l) = .ok l ∧ grid1d (.locs l) = .ok l := by
  have key : ∀ l' : List α, grid1dInit l' = .ok l → grid1dInit l = .ok l := by
    intro l' h'
    rw [C37_init] at h'
    split at h'
    · rename_i hc
      obtain rfl := Except.ok.inj h'
      rw [C37_init, if_pos hc]
    · simp at h'
  have : grid1dInit l = .ok l := by
    cases a with
    | locs l' => exact key l' h
    | grid l' => exact key l' h
    | slice x y s =>
      simp only [grid1d, bind, Except.bind] at h
      cases hm : mgrid x y s with
      | error e => rw [hm] at h; simp at h
      | ok l' => rw [hm] at h; exact key l' h
  exact ⟨this, this⟩

theorem mapM_grid1d (axes : List (Axis α)) (gs : List (List α)) :
    axes.mapM grid1d = .ok gs ↔ List.Forall₂ (fun a g => grid1d a = .ok g) axes gs := by
  induction axes generalizing gs with
  | nil =>
    simp only [List.mapM_nil, pure, Except.pure]
    constructor
    · intro h; obtain rfl := Except.ok.inj h; exact .nil
    · intro h; cases h; rfl
  | cons a t ih =>
    rw [List.mapM_cons]
    constructor
    · intro h
      cases ha : grid1d a with
      | error e => rw [ha] at h; simp [bind, Except.bind] at h
      | ok g =>
        cases ht : t.mapM grid1d with
        | error e => rw [ha, ht] at h; simp [bind, Except.bind] at h
        | ok gs' =>
          rw [ha, ht] at h
          obtain rfl := Except.ok.inj h
          exact .cons ha ((ih gs').mp ht)
    · intro h
      cases h with
      | cons ha ht =>
        rw [ha, (ih _).mpr ht]; rfl

/-- C131: `GridMd(...)` is made exactly when there is at least one axis and every axis makes a
1-d grid, and its axes are these grids, in order; `GridMd.at[...]` is the same, with one
subscript meaning one axis, so `GridMd.at[()]` is an AssertionError. -/
theorem C131_at (axes : List (Axis α)) (a : Axis α) (gs : List (List α)) :
    (gridMd axes = .ok gs ↔
      axes ≠ [] ∧ List.Forall₂ (fun a g => grid1d a = .ok g) axes gs) ∧
    gridAt (.tuple axes) = gridMd axes ∧
    (gridAt (.one a) = .ok gs ↔ ∃ g, grid1d a = .ok g ∧ gs = [g]) ∧
    gridAt (.tuple ([] : List (Axis α))) = .error .assertionError := by
  have main : ∀ (axes : List (Axis α)) (gs : List (List α)), gridMd axes = .ok gs ↔
      axes ≠ [] ∧ List.Forall₂ (fun a g => grid1d a = .ok g) axes gs := by
    intro axes gs
    rw [← mapM_grid1d]
    unfold gridMd
    cases hm : axes.mapM grid1d with
    | error e => simp [bind, Except.bind]
    | ok gs' =>
      have hl := ((mapM_grid1d axes gs').mp hm).length_eq
      simp only [bind, Except.bind, pyAssert]
      by_cases hne : axes = []
      · subst hne
        have : gs'.length = 0 := by simpa using hl.symm
        simp [this]
      · have h1 : gs'.length ≥ 1 := by
          have := List.length_pos_iff.mpr hne; omega
        simp [h1, hne, pure, Except.pure]
  refine ⟨main axes gs, rfl, ?_, rfl⟩
  show gridMd [a] = .ok gs ↔ _
  rw [main]
  constructor
  · rintro ⟨_, h⟩
    cases h with
    | cons ha ht => cases ht; exact ⟨_, ha, rfl⟩
  · rintro ⟨g, ha, rfl⟩
    exact ⟨by simp, .cons ha .nil⟩

end G

/-! Grids from the range of data -/

section D
variable {α : Type} [Field α] [LinearOrder α] [IsStrictOrderedRing α] [FloorRing α]

theorem linspace_steps (a b : α) (k : Nat) :
    linspace a b (k + 1) = steps a ((b - a) / (((k + 2 : Nat) : α) - 1)) (k + 2) := by
  unfold linspace steps
  have : (((k + 2 : Nat) : α) - 1) = ((k + 1 : Nat) : α) := by push_cast; ring
  rw [this]

/-- Specification: `n` equally spaced locations from the `p_lo` to the `p_hi` quantile. -/
def rangeSpec (pLo pHi : α) (data : List α) (n : Nat) : List α :=
  steps (npQuantile data pLo)
    ((npQuantile data pHi - npQuantile data pLo) / ((n : α) - 1)) n

theorem rangeAxis_ok (data : List α) (hne : data ≠ []) (pLo pHi : α) (h0 : 0 ≤ pLo)
    (h01 : pLo ≤ 1) (hh0 : 0 ≤ pHi) (h1 : pHi ≤ 1) (n : Nat) :
    rangeAxis pLo pHi data (n : Int) = .ok (rangeSpec pLo pHi data n) := by
  have hl : data.length ≠ 0 := fun h => hne (List.length_eq_zero_iff.mp h)
  unfold rangeAxis npQuantile2
  rw [if_neg (not_not_intro ⟨h0, h01, hh0, h1⟩), if_neg hl]
  simp only [bind, Except.bind, npLinspace]
  rw [if_neg (by omega), Int.toNat_natCast]
  match n with
  | 0 => simp [rangeSpec, steps]
  | 1 => simp [rangeSpec, steps]
  | k + 2 =>
    simp only [linspace_steps, rangeSpec]

theorem rangeSpec_ok (data : List α) (hne : data ≠ []) (pLo pHi : α) (h0 : 0 ≤ pLo)
    (hle : pLo ≤ pHi) (n : Nat) (hn : 1 ≤ n) :
    rangeSpec pLo pHi data n ≠ [] ∧ (rangeSpec pLo pHi data n).Pairwise (· ≤ ·) := by
  refine ⟨steps_ne _ _ _ hn, steps_sorted _ _ _ (div_nonneg ?_ ?_)⟩
  · exact sub_nonneg.mpr (npQuantile_mono data hne pLo pHi h0 hle)
  · have : (1 : α) ≤ (n : α) := by exact_mod_cast hn
    linarith

theorem mapM_range (pLo pHi : α) (h0 : 0 ≤ pLo) (h01 : pLo ≤ 1) (hh0 : 0 ≤ pHi) (h1 : pHi ≤ 1)
    (data : List (List α)) (ns : List Nat) (hd : ∀ d ∈ data, d ≠ []) :
    (data.zip (ns.map (fun n : Nat => (n : Int)))).mapM (fun d => rangeAxis pLo pHi d.1 d.2)
      = .ok (List.zipWith (rangeSpec pLo pHi) data ns) := by
  induction data generalizing ns with
  | nil => simp [pure, Except.pure]
  | cons d t ih =>
    cases ns with
    | nil => simp [pure, Except.pure]
    | cons n ns =>
      simp only [List.map_cons, List.zip_cons_cons, List.mapM_cons, List.zipWith_cons_cons]
      rw [rangeAxis_ok d (hd d (by simp)) pLo pHi h0 h01 hh0 h1, ih ns (fun x hx => hd x (by simp [hx]))]
      rfl

/-- C131: `from_data_range` with `0 <= p_lo <= p_hi <= 1`, non-empty data and positive numbers
of points: axis `k` has `n[k]` equally spaced locations from the `p_lo` to the `p_hi` quantile of
the `k`-th data array.  Finding: the two lists are zipped, so an `n` shorter than the number of
data arrays silently makes a grid of fewer dimensions and a longer one is cut. -/
theorem C131_range (data : List (List α)) (hd : ∀ d ∈ data, d ≠ []) (pLo pHi : α) (h0 : 0 ≤ pLo)
    (hle : pLo ≤ pHi) (h1 : pHi ≤ 1) (ns : List Nat) (hn : ∀ n ∈ ns, 1 ≤ n)
    (hdne : data ≠ []) (hnne : ns ≠ []) :
    fromDataRange data pLo pHi (.array (ns.map (fun n : Nat => (n : Int))))
      = .ok (List.zipWith (rangeSpec pLo pHi) data ns) ∧
    (List.zipWith (rangeSpec pLo pHi) data ns).length = min data.length ns.length := by
  refine ⟨?_, List.length_zipWith⟩
  unfold fromDataRange
  simp only
  rw [mapM_range pLo pHi h0 (hle.trans h1) (h0.trans hle) h1 data ns hd]
  simp only [bind, Except.bind]
  rw [C37_initMd]
  constructor
  · cases data with
    | nil => exact absurd rfl hdne
    | cons a t => cases ns with
      | nil => exact absurd rfl hnne
      | cons b u => simp
  · intro g hg
    obtain ⟨i, hi, rfl⟩ := List.getElem_of_mem hg
    rw [List.getElem_zipWith]
    rw [List.length_zipWith] at hi
    exact rangeSpec_ok _ (hd _ (List.getElem_mem _)) pLo pHi h0 hle _ (hn _ (List.getElem_mem _))

/-- C131: a scalar `n` is used for every data array, so the grid has one axis per array. -/
theorem C131_range_scalar (data : List (List α)) (hd : ∀ d ∈ data, d ≠ []) (pLo pHi : α)
    (h0 : 0 ≤ pLo) (hle : pLo ≤ pHi) (h1 : pHi ≤ 1) (n : Nat) (hn : 1 ≤ n) (hdne : data ≠ []) :
    fromDataRange data pLo pHi (.scalar n)
      = .ok (data.map (fun d => rangeSpec pLo pHi d n)) := by
  have hr : List.replicate data.length n ≠ [] := by
    intro h
    have := congrArg List.length h
    rw [List.length_replicate] at this
    exact hdne (List.length_eq_zero_iff.mp this)
  have := (C131_range data hd pLo pHi h0 hle h1 (List.replicate data.length n)
    (fun m hm => by rw [(List.mem_replicate.mp hm).2]; exact hn) hdne hr).1
  rw [List.map_replicate] at this
  have e : fromDataRange data pLo pHi (.scalar n)
      = fromDataRange data pLo pHi (.array (List.replicate data.length ((n : Nat) : Int))) := rfl
  rw [e, this]
  congr 1
  clear e this hr hdne hd
  induction data with
  | nil => rfl
  | cons a t ih => simp [List.replicate_succ, ih]

/-- C131: the 0- and 1-quantiles are the smallest and the largest value, so with the defaults
the axis runs from the minimum to the maximum of the data and contains every data point: with
two or more locations, `locate` of a data point is between `0` and `n - 1`. -/
theorem C131_range_covers (data : List α) (hne : data ≠ []) (n : Nat) (hn : 2 ≤ n) :
    ∃ lo ∈ data, ∃ hi ∈ data, (∀ x ∈ data, lo ≤ x ∧ x ≤ hi) ∧
      fromDataRange [data] (n := .scalar n) = .ok [steps lo ((hi - lo) / ((n : α) - 1)) n] ∧
      ∀ x ∈ data, 0 ≤ locate (steps lo ((hi - lo) / ((n : α) - 1)) n) x ∧
        locate (steps lo ((hi - lo) / ((n : α) - 1)) n) x ≤ (n : Int) - 1 ∧
        (locate (steps lo ((hi - lo) / ((n : α) - 1)) n) x = (n : Int) - 1 ↔ x = hi) := by
  have hlen : 0 < data.length := List.length_pos_iff.mpr hne
  have hperm := npSort_perm data
  have hsl : (npSort data).length = data.length := hperm.length_eq
  have hsorted := npSort_sorted data
  have q0 : npQuantile data 0 = (npSort data)[0]'(by omega) := by
    have := npQuantile_node data hne 0 0 hlen (by simp)
    simpa using this
  have q1 : npQuantile data 1 = (npSort data)[data.length - 1]'(by omega) := by
    have := npQuantile_node data hne 1 (data.length - 1) (by omega) (by
      rw [Nat.cast_sub (by omega)]; simp)
    simpa using this
  have hb : ∀ x ∈ data, (npSort data)[0]'(by omega) ≤ x ∧
      x ≤ (npSort data)[data.length - 1]'(by omega) := by
    intro x hx
    obtain ⟨i, hi, rfl⟩ := List.getElem_of_mem (hperm.mem_iff.mpr hx)
    exact ⟨pw_le hsorted (Nat.zero_le _) _, pw_le hsorted (by omega) _⟩
  have hmin : (npSort data)[0]'(by omega) ∈ data := hperm.mem_iff.mp (List.getElem_mem _)
  have hmax : (npSort data)[data.length - 1]'(by omega) ∈ data :=
    hperm.mem_iff.mp (List.getElem_mem _)
  refine ⟨_, hmin, _, hmax, hb, ?_, ?_⟩
  · have := C131_range_scalar [data] (by simpa using hne) 0 1 le_rfl zero_le_one le_rfl n
      (by omega) (by simp)
    rw [this]
    simp only [List.map_cons, List.map_nil, rangeSpec, q0, q1]
  · intro x hx
    generalize (npSort data)[0]'(by omega) = lo at *
    generalize (npSort data)[data.length - 1]'(by omega) = hi at *
    obtain ⟨hl, hh, ht⟩ := C131_complex_ends lo hi n hn
    have hlh : lo ≤ hi := (hb x hx).1.trans (hb x hx).2
    have hn1 : (0 : α) < (n : α) - 1 := by
      have : (2 : α) ≤ (n : α) := by exact_mod_cast hn
      linarith
    have hs : (steps lo ((hi - lo) / ((n : α) - 1)) n).Pairwise (· ≤ ·) :=
      steps_sorted _ _ _ (div_nonneg (sub_nonneg.mpr hlh) hn1.le)
    generalize steps lo ((hi - lo) / ((n : α) - 1)) n = g at *
    obtain ⟨a, b, c⟩ := C37_locate g hs x
    have hg0 : g[0]'(by omega) = lo := by
      rw [List.head?_eq_getElem?, List.getElem?_eq_getElem (by omega)] at hh
      exact Option.some.inj hh
    have hg1 : g[n - 1]'(by omega) = hi := by
      rw [List.getLast?_eq_getElem?, hl, List.getElem?_eq_getElem (by omega)] at ht
      exact Option.some.inj ht
    refine ⟨?_, by omega, ?_⟩
    · have := (c 0 (by omega)).mp (by rw [hg0]; exact (hb x hx).1); omega
    · have := c (n - 1) (by omega)
      rw [hg1] at this
      constructor
      · intro h
        exact le_antisymm (hb x hx).2 (this.mpr (by omega))
      · rintro rfl
        have := this.mp le_rfl
        omega

example : ∃ lo ∈ ([3, 1, 2] : List ℚ), ∃ hi ∈ ([3, 1, 2] : List ℚ),
    (∀ x ∈ ([3, 1, 2] : List ℚ), lo ≤ x ∧ x ≤ hi) ∧
    fromDataRange [([3, 1, 2] : List ℚ)] (n := .scalar 5)
      = .ok [steps lo ((hi - lo) / (((5 : Nat) : ℚ) - 1)) 5] := by
  obtain ⟨lo, a, hi, b, c, d, _⟩ := C131_range_covers ([3, 1, 2] : List ℚ) (by simp) 5 (by omega)
  exact ⟨lo, a, hi, b, c, d⟩

/-- C131: what is refused.  A probability outside [0, 1] or a negative number of points is a
ValueError; no data arrays, zero points, or `p_lo > p_hi` with two or more points and different
quantiles are AssertionErrors. -/
theorem C131_range_bad (data : List α) (hne : data ≠ []) (rest : List (List α)) (pLo pHi : α)
    (n : Num) :
    (¬ (0 ≤ pLo ∧ pLo ≤ 1 ∧ 0 ≤ pHi ∧ pHi ≤ 1) → n ≠ .array [] →
      fromDataRange (data :: rest) pLo pHi n = .error .valueError) ∧
    (0 ≤ pLo → pLo ≤ 1 → 0 ≤ pHi → pHi ≤ 1 → ∀ k : Int, k < 0 →
      fromDataRange (data :: rest) pLo pHi (.scalar k) = .error .valueError) ∧
    (0 ≤ pLo → pLo ≤ 1 → 0 ≤ pHi → pHi ≤ 1 →
      fromDataRange [data] pLo pHi (.scalar 0) = .error .assertionError) ∧
    fromDataRange [] pLo pHi n = .error .assertionError ∧
    (0 ≤ pLo → pLo ≤ 1 → 0 ≤ pHi → pHi ≤ 1 → npQuantile data pHi < npQuantile data pLo →
      ∀ k : Nat, 2 ≤ k → fromDataRange [data] pLo pHi (.scalar k) = .error .assertionError) := by
  have bad1 : ∀ g : List α, ¬ (g ≠ [] ∧ g.Pairwise (· ≤ ·)) →
      gridMdInit [g] = .error .assertionError := by
    intro g hg
    unfold gridMdInit
    rw [List.mapM_cons, C37_init, if_neg hg]; rfl
  refine ⟨?_, ?_, ?_, ?_, ?_⟩
  · intro hp hn
    have key : ∀ (k : Int) (t : List (List α × Int)),
        ((data, k) :: t).mapM (fun d => rangeAxis pLo pHi d.1 d.2) = .error .valueError := by
      intro k t
      rw [List.mapM_cons]
      simp [rangeAxis, npQuantile2, hp, bind, Except.bind]
    unfold fromDataRange
    cases n with
    | scalar k =>
      simp only [List.length_cons, List.replicate_succ, List.zip_cons_cons, key]
      rfl
    | array l =>
      cases l with
      | nil => exact absurd rfl hn
      | cons k l =>
        simp only [List.zip_cons_cons, key]
        rfl
  · intro a b c d k hk
    have hl : data.length ≠ 0 := fun h => hne (List.length_eq_zero_iff.mp h)
    unfold fromDataRange
    simp only [List.length_cons, List.replicate_succ, List.zip_cons_cons, List.mapM_cons]
    have : rangeAxis pLo pHi data k = .error .valueError := by
      unfold rangeAxis npQuantile2
      rw [if_neg (not_not_intro ⟨a, b, c, d⟩), if_neg hl]
      simp [bind, Except.bind, npLinspace, hk]
    rw [this]; rfl
  · intro a b c d
    unfold fromDataRange
    simp only [List.length_cons, List.length_nil, List.replicate, List.zip_cons_cons,
      List.zip_nil_left, List.mapM_cons, List.mapM_nil]
    have := rangeAxis_ok data hne pLo pHi a b c d 0
    rw [Nat.cast_zero] at this
    rw [this]
    exact bad1 (rangeSpec pLo pHi data 0) (by simp [rangeSpec, steps])
  · unfold fromDataRange
    simp [bind, Except.bind, pure, Except.pure, gridMdInit, pyAssert]
  · intro a b c d hq k hk
    unfold fromDataRange
    simp only [List.length_cons, List.length_nil, List.replicate, List.zip_cons_cons,
      List.zip_nil_left, List.mapM_cons, List.mapM_nil]
    rw [rangeAxis_ok data hne pLo pHi a b c d k]
    refine bad1 (rangeSpec pLo pHi data k) (fun h => steps_unsorted _ _ _ hk ?_ h.2)
    refine div_neg_of_neg_of_pos (by linarith) ?_
    have : (2 : α) ≤ (k : α) := by exact_mod_cast hk
    linarith

example : fromDataRange [([1, 2] : List ℚ)] (-1) 1 (.scalar 3) = .error .valueError :=
  (C131_range_bad ([1, 2] : List ℚ) (by simp) [] (-1) 1 (.scalar 3)).1 (by norm_num) (by simp)

/-- C131: `locate` of an array of points with `m` columns on a grid of `D` axes: `min m D` lists
of indices; list `k` holds, for every point, its 1-d location on axis `k`.  Finding: with a wrong
number of columns nothing is raised; surplus columns are ignored and missing ones give a shorter
result. -/
theorem C131_locate (grids : List (List α)) (m : Nat) (x : List (List α))
    (hx : ∀ row ∈ x, row.length = m) :
    (locateRect grids m x).length = min m grids.length ∧
    ∀ k (hk : k < min m grids.length) r (hr : r < x.length),
      ∃ h1 : k < (locateRect grids m x).length, ∃ h2 : r < ((locateRect grids m x)[k]).length,
        ∃ hc : k < x[r].length, ∃ hg : k < grids.length,
          ((locateRect grids m x)[k])[r] = locate grids[k] (x[r][k]) := by
  have hlen : (locateRect grids m x).length = min m grids.length := by simp [locateRect]
  refine ⟨hlen, ?_⟩
  intro k hk r hr
  have hrow := hx _ (List.getElem_mem hr)
  refine ⟨by omega, by simp [locateRect, hr], by omega, by omega, ?_⟩
  simp only [locateRect, List.getElem_map, List.getElem_zip, List.getElem_range]
  rw [getD_lt _ _ _ (by omega)]

example : locateRect [[0, 1, 2], [0, 10]] 3 [[(1 : ℚ) / 2, 12, 7], [5, -1, 7]] = [[0, 2], [1, -1]] := by
  decide +kernel

end D
end Pyhipp.GridMake
