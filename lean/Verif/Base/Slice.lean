import Verif.Base.Py
import Mathlib.Tactic.Ring
/-
Python slices `start:stop:step` of a sequence of a given length.
-/
namespace Pyhipp

/-- The positions `start, start + step, …` before `stop` (Python's `range`), all inside `0 … n-1`. -/
def rangePos (start stop step : Int) : List Nat :=
  if 0 < step then (List.range ((stop - start + step - 1) / step).toNat).map (fun k : Nat => (start + k * step).toNat)
  else (List.range ((start - stop - step - 1) / (-step)).toNat).map (fun k : Nat => (start + k * step).toNat)

/-- A bound of a slice, counted from the end if negative and cut off at `lower` and `upper`. -/
def sliceClip (n : Nat) (lower upper x : Int) : Int := if x < 0 then max (x + n) lower else min x upper

/-- First position of a slice with step `st`. -/
def sliceStart (n : Nat) (st : Int) : Option Int → Int
  | none => if st < 0 then n - 1 else 0
  | some x => if st < 0 then sliceClip n (-1) (n - 1) x else sliceClip n 0 n x

/-- End of a slice with step `st`, excluded. -/
def sliceStop (n : Nat) (st : Int) : Option Int → Int
  | none => if st < 0 then -1 else n
  | some x => if st < 0 then sliceClip n (-1) (n - 1) x else sliceClip n 0 n x

/-- Python's `slice.indices(n)`. -/
def slicePos (n : Nat) (start stop step : Option Int) : PyM (List Nat) :=
  if step.getD 1 = 0 then .error .valueError
  else .ok (rangePos (sliceStart n (step.getD 1) start) (sliceStop n (step.getD 1) stop) (step.getD 1))

theorem rangePos_mem {b e st : Int} (hst : st ≠ 0) {p : Nat} (h : p ∈ rangePos b e st) :
    ∃ k : Nat, p = (b + k * st).toNat ∧ (0 < st → b + k * st < e) ∧ (st < 0 → e < b + k * st) := by
  unfold rangePos at h
  split at h <;> rename_i h0
  · simp only [List.mem_map, List.mem_range] at h
    obtain ⟨k, hk, rfl⟩ := h
    refine ⟨k, rfl, fun _ => ?_, fun h => by omega⟩
    have h1 : (k : Int) + 1 ≤ (e - b + st - 1) / st := by omega
    have h2 : ((k : Int) + 1) * st ≤ e - b + st - 1 := (Int.le_ediv_iff_mul_le h0).mp h1
    have h3 : ((k : Int) + 1) * st = k * st + st := by ring
    omega
  · simp only [List.mem_map, List.mem_range] at h
    obtain ⟨k, hk, rfl⟩ := h
    have h0' : 0 < -st := by omega
    refine ⟨k, rfl, fun h => by omega, fun _ => ?_⟩
    have h1 : (k : Int) + 1 ≤ (b - e - st - 1) / (-st) := by omega
    have h2 : ((k : Int) + 1) * (-st) ≤ b - e - st - 1 := (Int.le_ediv_iff_mul_le h0').mp h1
    have h3 : ((k : Int) + 1) * (-st) = -(k * st) - st := by ring
    omega

theorem sliceStart_bound (n : Nat) (st : Int) (b : Option Int) :
    (st < 0 → sliceStart n st b ≤ n - 1) ∧ (¬ st < 0 → 0 ≤ sliceStart n st b) := by
  cases b with
  | none => exact ⟨fun h => by simp [sliceStart, h], fun h => by simp [sliceStart, h]⟩
  | some x =>
    refine ⟨fun h => ?_, fun h => ?_⟩
    · simp only [sliceStart, h, if_true, sliceClip]
      split <;> omega
    · simp only [sliceStart, h, if_false, sliceClip]
      split <;> omega

theorem sliceStop_bound (n : Nat) (st : Int) (b : Option Int) :
    (st < 0 → -1 ≤ sliceStop n st b) ∧ (¬ st < 0 → sliceStop n st b ≤ n) := by
  cases b with
  | none => exact ⟨fun h => by simp [sliceStop, h], fun h => by simp [sliceStop, h]⟩
  | some x =>
    refine ⟨fun h => ?_, fun h => ?_⟩
    · simp only [sliceStop, h, if_true, sliceClip]
      split <;> omega
    · simp only [sliceStop, h, if_false, sliceClip]
      split <;> omega

theorem slicePos_ok {n : Nat} {b e s : Option Int} {ps : List Nat} (h : slicePos n b e s = .ok ps) : ∀ p ∈ ps, p < n := by
  unfold slicePos at h
  split at h
  · exact absurd h (by simp)
  · rename_i h0
    have h := Except.ok.inj h
    subst h
    intro p hp
    obtain ⟨k, rfl, h1, h2⟩ := rangePos_mem h0 hp
    generalize s.getD 1 = st at *
    have b1 := sliceStart_bound n st b
    have e1 := sliceStop_bound n st e
    generalize sliceStart n st b = B at *
    generalize sliceStop n st e = E at *
    rcases lt_or_gt_of_ne h0 with hs | hs
    · have h2 := h2 hs
      have hk : (k : Int) * st ≤ 0 := Int.mul_nonpos_of_nonneg_of_nonpos (by omega) (by omega)
      have := b1.1 hs
      have := e1.1 hs
      omega
    · have h1 := h1 hs
      have hs' : ¬ st < 0 := by omega
      have hk : 0 ≤ (k : Int) * st := Int.mul_nonneg (by omega) (by omega)
      have := b1.2 hs'
      have := e1.2 hs'
      omega

/-- A bound `x` of a slice, counted from the end if negative, moved into `lo … hi`. -/
def clamp (n : Nat) (lo hi x : Int) : Int := max lo (min hi (if x < 0 then x + n else x))

theorem slicePos_step (n : Nat) (b e s : Option Int) (h0 : s.getD 1 ≠ 0) (B E : Int)
    (hB : B = match b with | none => (if s.getD 1 < 0 then n - 1 else 0) | some x => (if s.getD 1 < 0 then clamp n (-1) (n - 1) x else clamp n 0 n x))
    (hE : E = match e with | none => (if s.getD 1 < 0 then -1 else n) | some x => (if s.getD 1 < 0 then clamp n (-1) (n - 1) x else clamp n 0 n x)) :
    ∃ ps : List Nat, slicePos n b e s = .ok ps ∧
      ∀ k p : Nat, ps[k]? = some p ↔ (p : Int) = B + k * s.getD 1 ∧ (0 < s.getD 1 → B + k * s.getD 1 < E) ∧ (s.getD 1 < 0 → E < B + k * s.getD 1) := by
  unfold slicePos
  generalize s.getD 1 = st at *
  have c1 : ∀ x : Int, sliceClip n (-1) (n - 1) x = clamp n (-1) (n - 1) x := by
    intro x; unfold sliceClip clamp; split <;> omega
  have c2 : ∀ x : Int, sliceClip n 0 n x = clamp n 0 n x := by
    intro x; unfold sliceClip clamp; split <;> omega
  have b0 := sliceStart_bound n st b
  have e0 := sliceStop_bound n st e
  have hB' : sliceStart n st b = B := by
    rw [hB]; cases b <;> simp [sliceStart, c1, c2]
  have hE' : sliceStop n st e = E := by
    rw [hE]; cases e <;> simp [sliceStop, c1, c2]
  rw [hB'] at b0
  rw [hE'] at e0
  refine ⟨rangePos B E st, by simp [slicePos, h0, hB', hE'], ?_⟩
  clear hB hE hB' hE' c1 c2
  intro k p
  rcases lt_or_gt_of_ne h0 with hs | hs
  · have h1 := b0.1 hs
    have h2 := e0.1 hs
    rw [rangePos, if_neg (by omega)]
    have hk : (k < ((B - E - st - 1) / (-st)).toNat) ↔ E < B + k * st := by
      have h3 : ((k : Int) + 1 ≤ (B - E - st - 1) / (-st)) ↔ ((k : Int) + 1) * (-st) ≤ B - E - st - 1 := Int.le_ediv_iff_mul_le (by omega)
      have h4 : ((k : Int) + 1) * (-st) = -(k * st) - st := by ring
      rw [h4] at h3
      omega
    rw [List.getElem?_map]
    by_cases hc : k < ((B - E - st - 1) / (-st)).toNat
    · rw [List.getElem?_range hc]
      have := hk.mp hc
      simp only [Option.map_some, Option.some.injEq]
      omega
    · rw [List.getElem?_eq_none (by simpa using hc)]
      have := mt hk.mpr hc
      simp only [Option.map_none]
      constructor
      · intro h; exact absurd h (by simp)
      · intro h; exact absurd (h.2.2 hs) this
  · have hs' : ¬ st < 0 := by omega
    have h1 := b0.2 hs'
    have h2 := e0.2 hs'
    rw [rangePos, if_pos hs]
    have hk : (k < ((E - B + st - 1) / st).toNat) ↔ B + k * st < E := by
      have h3 : ((k : Int) + 1 ≤ (E - B + st - 1) / st) ↔ ((k : Int) + 1) * st ≤ E - B + st - 1 := Int.le_ediv_iff_mul_le (by omega)
      have h4 : ((k : Int) + 1) * st = k * st + st := by ring
      rw [h4] at h3
      omega
    have hnn : 0 ≤ (k : Int) * st := Int.mul_nonneg (by omega) (by omega)
    rw [List.getElem?_map]
    by_cases hc : k < ((E - B + st - 1) / st).toNat
    · rw [List.getElem?_range hc]
      have := hk.mp hc
      simp only [Option.map_some, Option.some.injEq]
      omega
    · rw [List.getElem?_eq_none (by simpa using hc)]
      have := mt hk.mpr hc
      simp only [Option.map_none]
      constructor
      · intro h; exact absurd h (by simp)
      · intro h; exact absurd (h.2.1 hs) this

theorem slicePos_head (N n : Nat) (h : n ≤ N) : slicePos N (some 0) (some n) none = .ok (List.range' 0 n) := by
  have h0 : ¬ (n : Int) < 0 := by omega
  simp only [slicePos, sliceStart, sliceStop, sliceClip, rangePos, Option.getD_none, show ¬ ((1 : Int) = 0) by decide,
    show ¬ ((1 : Int) < 0) by decide, show ((0 : Int) < 1) by decide, show ¬ ((0 : Int) < 0) by decide, h0, if_true, if_false, Int.ediv_one]
  congr 1
  apply List.ext_getElem
  · simp; omega
  · intro i h1 h2
    simp at h1 h2
    simp

theorem slicePos_tail (N n : Nat) (h : n ≤ N) : slicePos N (some n) none none = .ok (List.range' n (N - n)) := by
  have h0 : ¬ (n : Int) < 0 := by omega
  simp only [slicePos, sliceStart, sliceStop, sliceClip, rangePos, Option.getD_none, show ¬ ((1 : Int) = 0) by decide,
    show ¬ ((1 : Int) < 0) by decide, show ((0 : Int) < 1) by decide, h0, if_true, if_false, Int.ediv_one]
  congr 1
  apply List.ext_getElem
  · simp; omega
  · intro i h1 h2
    simp at h1 h2
    simp; omega

end Pyhipp
