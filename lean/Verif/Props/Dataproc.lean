import Verif.Model.Dataproc
import Verif.Base.Num
import Mathlib.Tactic.Ring
/-
Property theorems C25-C31 (core/dataproc/{data_structs,iter,mask,filter}.py).
-/
namespace Pyhipp.Dataproc
open Pyhipp
set_option linter.unusedSectionVars false

/-! ### C25 -/

theorem length_cumsumFrom (s : Int) (c : List Int) : (cumsumFrom s c).length = c.length := by
  induction c generalizing s with
  | nil => rfl
  | cons a t ih => simp [cumsumFrom, ih]

theorem getElem_cumsumFrom (s : Int) (c : List Int) (i : Nat) (h : i < (cumsumFrom s c).length) :
    (cumsumFrom s c)[i] = s + (c.take (i + 1)).sum := by
  induction c generalizing s i with
  | nil => simp [cumsumFrom] at h
  | cons a t ih =>
      cases i with
      | zero => simp [cumsumFrom]
      | succ i =>
          simp only [cumsumFrom, List.getElem_cons_succ]
          rw [ih (s + a) i (by simpa [cumsumFrom] using h)]
          simp only [List.take_succ_cons, List.sum_cons]
          ring

/-- C25: one entry more than counts; entry `i` is the sum of the first `i` counts. -/
theorem C25_offset_prefix_sum (c : List Int) :
    (countToOffset c).length = c.length + 1 ∧
    ∀ i (h : i < (countToOffset c).length), (countToOffset c)[i] = (c.take i).sum := by
  refine ⟨by simp [countToOffset, length_cumsumFrom], ?_⟩
  intro i h
  cases i with
  | zero => simp [countToOffset]
  | succ i =>
      simp only [countToOffset, Bool.not_true, Bool.false_eq_true, if_false, List.getElem_cons_succ]
      rw [getElem_cumsumFrom]; simp

/-- C25: starts at 0, ends at the total, consecutive differences give the counts back. -/
theorem C25_offset_diff (c : List Int) :
    (countToOffset c)[0]? = some 0 ∧ (countToOffset c)[c.length]? = some c.sum ∧
    ∀ i (h : i < c.length), ∃ a b, (countToOffset c)[i]? = some a ∧
      (countToOffset c)[i + 1]? = some b ∧ b - a = c[i] := by
  obtain ⟨hl, hv⟩ := C25_offset_prefix_sum c
  have g : ∀ i, i ≤ c.length → (countToOffset c)[i]? = some ((c.take i).sum) := by
    intro i hi
    rw [List.getElem?_eq_getElem (by omega), hv]
  refine ⟨by simpa using g 0 (by omega), by simpa using g c.length (le_refl _), ?_⟩
  intro i h
  refine ⟨_, _, g i (by omega), g (i + 1) (by omega), ?_⟩
  rw [List.take_succ_eq_append_getElem h, List.sum_append, List.sum_singleton]
  ring

/-- C25: without the end entry exactly the last entry is dropped. -/
theorem C25_offset_no_end (c : List Int) :
    countToOffset c ++ [] = countToOffset c false ++ [c.sum] ∧
    (countToOffset c false).length = c.length := by
  have hl := (C25_offset_prefix_sum c).1
  have hne : countToOffset c ≠ [] := by intro h; rw [h] at hl; simp at hl
  have e : countToOffset c false = (countToOffset c).dropLast := by simp [countToOffset]
  have hlast : (countToOffset c).getLast hne = c.sum := by
    rw [List.getLast_eq_getElem, (C25_offset_prefix_sum c).2]
    simp [hl]
  refine ⟨?_, by rw [e]; simp [hl]⟩
  rw [e, ← hlast, List.dropLast_append_getLast]; simp

/-- C25: the pairs are consecutive offsets. -/
theorem C25_pairs (c : List Int) :
    (countToOffsetPairs c).length = c.length ∧
    ∀ i (h : i < (countToOffsetPairs c).length),
      (countToOffsetPairs c)[i] = ((c.take i).sum, (c.take (i + 1)).sum) := by
  obtain ⟨hl, hv⟩ := C25_offset_prefix_sum c
  have hlen : (countToOffsetPairs c).length = c.length := by
    simp [countToOffsetPairs, hl]
  refine ⟨hlen, ?_⟩
  intro i h
  simp only [countToOffsetPairs, List.getElem_zip, List.getElem_dropLast, List.getElem_drop]
  rw [hv, hv]
  simp [Nat.add_comm]

/-- C25: for non-negative counts every position below the total lies in exactly one range. -/
theorem C25_pairs_tile (c : List Int) (hc : ∀ a ∈ c, 0 ≤ a) (p : Int) (h0 : 0 ≤ p)
    (h1 : p < c.sum) :
    ∃ i, ∃ h : i < (countToOffsetPairs c).length,
      ((countToOffsetPairs c)[i].1 ≤ p ∧ p < (countToOffsetPairs c)[i].2) ∧
      ∀ j (h' : j < (countToOffsetPairs c).length),
        (countToOffsetPairs c)[j].1 ≤ p → p < (countToOffsetPairs c)[j].2 → j = i := by
  obtain ⟨hl, hv⟩ := C25_pairs c
  have mono : ∀ a b, a ≤ b → (c.take a).sum ≤ (c.take b).sum := by
    intro a b hab
    have : ∀ (l : List Int) (n m : Nat), (∀ x ∈ l, 0 ≤ x) → n ≤ m → (l.take n).sum ≤ (l.take m).sum := by
      intro l
      induction l with
      | nil => intro n m _ _; simp
      | cons x l ih =>
          intro n m hx hnm
          have hx0 := hx x (by simp)
          cases n with
          | zero =>
              cases m with
              | zero => simp
              | succ m =>
                  have := ih 0 m (fun y hy => hx y (by simp [hy])) (by omega)
                  simp only [List.take_zero, List.sum_nil] at this
                  simp only [List.take_zero, List.sum_nil, List.take_succ_cons, List.sum_cons]
                  omega
          | succ n =>
              cases m with
              | zero => omega
              | succ m =>
                  have := ih n m (fun y hy => hx y (by simp [hy])) (by omega)
                  simp only [List.take_succ_cons, List.sum_cons]
                  omega
    exact this c a b hc hab
  have ex : ∃ i, i < c.length ∧ (c.take i).sum ≤ p ∧ p < (c.take (i + 1)).sum := by
    have : ∀ n, n ≤ c.length → p < (c.take n).sum →
        ∃ i, i < n ∧ (c.take i).sum ≤ p ∧ p < (c.take (i + 1)).sum := by
      intro n
      induction n with
      | zero => intro _ h; simp at h; omega
      | succ n ih =>
          intro hn h
          by_cases hp : p < (c.take n).sum
          · obtain ⟨i, a, b, d⟩ := ih (by omega) hp
            exact ⟨i, by omega, b, d⟩
          · exact ⟨n, by omega, by omega, h⟩
    obtain ⟨i, a, b, d⟩ := this c.length (le_refl _) (by simpa using h1)
    exact ⟨i, a, b, d⟩
  obtain ⟨i, hi, ha, hb⟩ := ex
  refine ⟨i, by omega, by rw [hv]; exact ⟨ha, hb⟩, ?_⟩
  intro j hj h1 h2
  rw [hv] at h1 h2
  simp only at h1 h2
  rcases Nat.lt_trichotomy i j with h | h | h
  · have := mono (i + 1) j h; omega
  · exact h.symm
  · have := mono (j + 1) i h; omega

example : (∀ a ∈ ([2, 0, 3] : List Int), 0 ≤ a) ∧ countToOffset [2, 0, 3] = [0, 2, 2, 5] ∧
    (0 : Int) ≤ 2 ∧ (2 : Int) < ([2, 0, 3] : List Int).sum := by decide

/-! ### C26 -/

theorem rangesFrom_eq (b : Int) (sizes : List Int) :
    (rangesFrom b sizes).length = sizes.length ∧
    ∀ i (h : i < (rangesFrom b sizes).length),
      (rangesFrom b sizes)[i] = (b + (sizes.take i).sum, b + (sizes.take (i + 1)).sum) := by
  induction sizes generalizing b with
  | nil => simp [rangesFrom]
  | cons a t ih =>
      obtain ⟨h1, h2⟩ := ih (b + a)
      refine ⟨by simp [rangesFrom, h1], ?_⟩
      intro i h
      cases i with
      | zero => simp [rangesFrom]
      | succ i =>
          simp only [rangesFrom, List.getElem_cons_succ]
          rw [h2 i (by simpa [rangesFrom] using h)]
          simp only [List.take_succ_cons, List.sum_cons, Prod.mk.injEq]
          constructor <;> ring

/-- C26: the chunk ranges are exactly the offset pairs of the sizes. -/
theorem C26_ranges_eq_offset_pairs (sizes : List Int) :
    rangesBySizes sizes = countToOffsetPairs sizes := by
  obtain ⟨a1, a2⟩ := rangesFrom_eq 0 sizes
  obtain ⟨b1, b2⟩ := C25_pairs sizes
  apply List.ext_getElem
  · rw [b1]; exact a1
  · intro i h h'
    rw [b2 i h']
    have := a2 i h
    simp only [Int.zero_add] at this
    exact this

theorem pySlice_nat {α : Type _} (s : List α) (b e : Nat) (hb : b ≤ s.length) :
    pySlice s (b : Int) (e : Int) = (s.drop b).take (e - b) := by
  have h1 : pyClamp s.length (b : Int) = b := by simp [pyClamp, hb]
  have h2 : pyClamp s.length (e : Int) = min e s.length := by
    have : ¬ ((e : Int) < 0) := by omega
    simp [pyClamp]
  unfold pySlice
  rw [h1, h2]
  rcases Nat.le_total e s.length with h | h
  · rw [Nat.min_eq_left h]
  · rw [Nat.min_eq_right h]
    rw [List.take_of_length_le (by simp), List.take_of_length_le (by simp; omega)]

/-- C26: with non-negative sizes that fit, slice `i` of every sequence has length `sizes[i]`, the
slices of each sequence concatenate to its first `sum sizes` elements (so to the whole sequence
when the sizes sum to its length), and all sequences are cut at the same positions. -/
theorem C26_slices {α : Type _} (sizes : List Nat) (seqs : List (List α)) (hne : seqs ≠ [])
    (hfit : ∀ s ∈ seqs, sizes.sum ≤ s.length) :
    ∃ out, slicesBySizes (sizes.map (fun n : Nat => (n : Int))) seqs = .ok out ∧
      out.length = sizes.length ∧
      (∀ i (h : i < out.length), out[i].length = seqs.length) ∧
      ∀ k (hk : k < seqs.length),
        (∀ i (h : i < sizes.length) (h1 : i < out.length) (h2 : k < out[i].length),
            out[i][k] = (seqs[k].drop (sizes.take i).sum).take sizes[i] ∧
            out[i][k].length = sizes[i]) ∧
        (out.map (fun chunk => chunk.getD k [])).flatten = seqs[k].take sizes.sum := by
  have hpos : 0 < seqs.length := List.length_pos_iff.mpr hne
  refine ⟨_, by simp [slicesBySizes, hpos]; rfl, ?_⟩
  obtain ⟨a1, a2⟩ := rangesFrom_eq 0 (sizes.map (fun n : Nat => (n : Int)))
  have hcast : ∀ i, ((sizes.map (fun n : Nat => (n : Int))).take i).sum = ((sizes.take i).sum : Int) := by
    intro i
    rw [← List.map_take]
    induction sizes.take i with
    | nil => rfl
    | cons x l ih => simp only [List.map_cons, List.sum_cons, ih, Nat.cast_add]
  have htake : ∀ i, (sizes.take i).sum ≤ sizes.sum := by
    intro i
    conv_rhs => rw [← List.take_append_drop i sizes]
    rw [List.sum_append]; omega
  have hlen : (rangesBySizes (sizes.map (fun n : Nat => (n : Int)))).length = sizes.length := by
    unfold rangesBySizes; rw [a1]; simp
  have hr : ∀ i (h : i < sizes.length), (rangesBySizes (sizes.map (fun n : Nat => (n : Int))))[i]'(by omega)
      = (((sizes.take i).sum : Int), (((sizes.take i).sum + sizes[i] : Nat) : Int)) := by
    intro i h
    have := a2 i (by rw [a1]; simpa using h)
    unfold rangesBySizes
    rw [this, hcast, hcast, List.take_succ_eq_append_getElem h, List.sum_append,
      List.sum_singleton]
    simp
  refine ⟨by simp [hlen], by simp, ?_⟩
  intro k hk
  have hs := hfit seqs[k] (List.getElem_mem hk)
  have slice_eq : ∀ i (h : i < sizes.length),
      pySlice seqs[k] ((sizes.take i).sum : Int) (((sizes.take i).sum + sizes[i] : Nat) : Int)
        = (seqs[k].drop (sizes.take i).sum).take sizes[i] := by
    intro i h
    rw [pySlice_nat _ _ _ (le_trans (htake i) hs)]
    congr 1; omega
  constructor
  · intro i h h1 h2
    have e : ((rangesBySizes (sizes.map (fun n : Nat => (n : Int)))).map
        (fun be => seqs.map (fun s => pySlice s be.1 be.2)))[i][k]
        = (seqs[k].drop (sizes.take i).sum).take sizes[i] := by
      simp only [List.getElem_map, hr i h]
      exact slice_eq i h
    refine ⟨e, ?_⟩
    rw [e]
    have := htake (i + 1)
    rw [List.take_succ_eq_append_getElem h, List.sum_append] at this
    simp at this ⊢
    omega
  · -- concatenation
    have hmap : ((rangesBySizes (sizes.map (fun n : Nat => (n : Int)))).map
        (fun be => seqs.map (fun s => pySlice s be.1 be.2))).map (fun chunk => chunk.getD k [])
        = (List.range sizes.length).map (fun i => (seqs[k].drop (sizes.take i).sum).take (sizes.getD i 0)) := by
      apply List.ext_getElem
      · simp [hlen]
      · intro i h h'
        have hi : i < sizes.length := by simpa using h'
        simp only [List.getElem_map, List.getElem_range, hr i hi]
        rw [getD_lt _ _ _ (by simpa using hk), getD_lt _ _ _ hi]
        simp only [List.getElem_map]
        exact slice_eq i hi
    rw [hmap]
    have key : ∀ n, n ≤ sizes.length →
        ((List.range n).map (fun i => (seqs[k].drop (sizes.take i).sum).take (sizes.getD i 0))).flatten
          = seqs[k].take (sizes.take n).sum := by
      intro n
      induction n with
      | zero => simp
      | succ n ih =>
          intro hn
          rw [List.range_succ, List.map_append, List.flatten_append, ih (by omega)]
          rw [List.take_succ_eq_append_getElem (show n < sizes.length by omega), List.sum_append]
          simp only [List.map_cons, List.map_nil, List.flatten_cons, List.flatten_nil,
            List.append_nil, List.sum_cons, List.sum_nil, Nat.add_zero]
          rw [getD_lt _ _ _ (by omega), List.take_add]
    simpa using key sizes.length (le_refl _)

/-- C26: no sequence at all is an AssertionError. -/
theorem C26_no_seq {α : Type _} (sizes : List Int) :
    slicesBySizes sizes ([] : List (List α)) = .error .assertionError := by
  simp [slicesBySizes]

example : slicesBySizes [2, 0, 1] [[1, 2, 3], [4, 5, 6]]
    = .ok [[[1, 2], [4, 5]], [[], []], [[3], [6]]] := by decide

theorem pySlice_any {α : Type _} (s : List α) (b e : Nat) : pySlice s (b : Int) (e : Int) = (s.drop b).take (e - b) := by
  rcases Nat.le_total b s.length with h | h
  · exact pySlice_nat s b e h
  · have h1 : pyClamp s.length (b : Int) = s.length := by simp [pyClamp, h]
    unfold pySlice
    rw [h1]
    simp [List.drop_eq_nil_of_le h]

/-- The chunk ranges of natural sizes. -/
theorem ranges_nat (sizes : List Nat) : rangesBySizes (sizes.map (fun n : Nat => (n : Int))) =
    (List.range sizes.length).map fun (i : Nat) => ((((sizes.take i).sum : Nat) : Int), (((sizes.take (i + 1)).sum : Nat) : Int)) := by
  obtain ⟨a1, a2⟩ := rangesFrom_eq 0 (sizes.map (fun n : Nat => (n : Int)))
  have hcast : ∀ i, ((sizes.map (fun n : Nat => (n : Int))).take i).sum = (((sizes.take i).sum : Nat) : Int) := by
    intro i
    rw [← List.map_take]
    induction sizes.take i with
    | nil => rfl
    | cons x l ih => simp only [List.map_cons, List.sum_cons, ih, Nat.cast_add]
  unfold rangesBySizes
  apply List.ext_getElem
  · rw [a1]; simp
  · intro i h h'
    rw [a2 i h, hcast, hcast]
    simp

/-- C26: whatever the (non-negative) sizes add up to, chunk `i` starts where the sizes before it end and has `sizes[i]` elements, or the fewer that are left: sizes
that add up to more than a sequence has are not refused, its last chunks are short or empty, and elements beyond the last chunk are left out.  One sequence gives
bare slices, several give tuples with one slice of each, cut at the same places. -/
theorem C26_chunks {α : Type _} (sizes : List Nat) (seqs : List (List α)) (hne : seqs ≠ []) :
    ∃ out, chunks (sizes.map (fun n : Nat => (n : Int))) seqs = .ok out ∧ out.length = sizes.length ∧
      ∀ i (h : i < sizes.length),
        (∀ s, seqs = [s] → out[i]? = some (.bare ((s.drop (sizes.take i).sum).take sizes[i]))) ∧
        (2 ≤ seqs.length → out[i]? = some (.tuple (seqs.map fun s => (s.drop (sizes.take i).sum).take sizes[i]))) := by
  have cut : ∀ (i : Nat) (h : i < sizes.length) (s : List α),
      pySlice s (((sizes.take i).sum : Nat) : Int) (((sizes.take (i + 1)).sum : Nat) : Int) = (s.drop (sizes.take i).sum).take sizes[i] := by
    intro i h s
    rw [pySlice_any, List.take_succ_eq_append_getElem h, List.sum_append, List.sum_singleton, Nat.add_sub_cancel_left]
  match seqs, hne with
  | [s], _ =>
    refine ⟨_, rfl, by rw [ranges_nat]; simp, fun i h => ⟨?_, fun h2 => by simp at h2⟩⟩
    rintro s' ⟨rfl⟩
    rw [ranges_nat]
    simp only [List.map_map, List.getElem?_map, List.getElem?_range h, Option.map_some, Function.comp]
    rw [cut i h]
  | s :: s' :: t, _ =>
    refine ⟨_, rfl, by rw [ranges_nat]; simp, fun i h => ⟨fun x hx => (by cases hx), fun _ => ?_⟩⟩
    rw [ranges_nat]
    simp only [List.map_map, List.getElem?_map, List.getElem?_range h, Option.map_some, Function.comp]
    simp only [cut i h]

/-- C26: the number of elements of a chunk, and what all chunks of a sequence make up. -/
theorem C26_chunk_lengths {α : Type _} (sizes : List Nat) (s : List α) :
    ∃ out : List (List α), chunks (sizes.map (fun n : Nat => (n : Int))) [s] = .ok (out.map .bare) ∧ out.flatten = s.take sizes.sum ∧
      ∀ i (h : i < sizes.length), (out[i]?.map List.length) = some (min sizes[i] (s.length - (sizes.take i).sum)) := by
  refine ⟨(List.range sizes.length).map fun i => (s.drop (sizes.take i).sum).take (sizes.getD i 0), ?_, ?_, ?_⟩
  · simp only [chunks]
    rw [ranges_nat, List.map_map, List.map_map]
    refine congrArg Except.ok (List.map_congr_left fun i hi => ?_)
    have h : i < sizes.length := List.mem_range.mp hi
    show Chunk.bare (pySlice s _ _) = _
    rw [pySlice_any, List.take_succ_eq_append_getElem h, List.sum_append, List.sum_singleton, Nat.add_sub_cancel_left]
    show _ = Chunk.bare ((s.drop (sizes.take i).sum).take (sizes.getD i 0))
    rw [getD_lt _ _ _ h]
  · have key : ∀ n, n ≤ sizes.length →
        ((List.range n).map (fun i => (s.drop (sizes.take i).sum).take (sizes.getD i 0))).flatten = s.take (sizes.take n).sum := by
      intro n
      induction n with
      | zero => simp
      | succ n ih =>
          intro hn
          rw [List.range_succ, List.map_append, List.flatten_append, ih (by omega)]
          rw [List.take_succ_eq_append_getElem (show n < sizes.length by omega), List.sum_append]
          simp only [List.map_cons, List.map_nil, List.flatten_cons, List.flatten_nil,
            List.append_nil, List.sum_cons, List.sum_nil, Nat.add_zero]
          rw [getD_lt _ _ _ (by omega), List.take_add]
    simpa using key sizes.length (le_refl _)
  · intro i h
    rw [List.getElem?_map, List.getElem?_range h, Option.map_some, Option.map_some, List.length_take, List.length_drop, getD_lt _ _ _ h]

/-- C26: a negative size is not refused: its chunk is empty and the next one starts that much earlier, so elements come out twice. -/
theorem C26_negative {α : Type _} (s : List α) (a b c : Nat) (hb : b < a) :
    chunks [(a : Int), -(b : Int), (c : Int)] [s] = .ok [.bare (s.take a), .bare [], .bare ((s.drop (a - b)).take c)] := by
  have e1 : (a : Int) + -(b : Int) = ((a - b : Nat) : Int) := by omega
  have e2 : ((a - b : Nat) : Int) + (c : Int) = ((a - b + c : Nat) : Int) := by omega
  have h1 := pySlice_any s 0 a
  have h2 := pySlice_any s a (a - b)
  have h3 := pySlice_any s (a - b) (a - b + c)
  simp only [chunks, rangesBySizes, rangesFrom, List.map_cons, List.map_nil, Int.zero_add, e1, e2]
  rw [h3, h2]
  have : pySlice s 0 (a : Int) = s.take a := by simpa using h1
  rw [this]
  have z : a - b - a = 0 := by omega
  rw [z, Nat.add_sub_cancel_left, List.take_zero]

/-- C26: no sequence at all is an AssertionError, several sequences are cut as in `C26_slices`. -/
theorem C26_chunks_forms {α : Type _} (sizes : List Int) (seqs : List (List α)) :
    chunks sizes ([] : List (List α)) = .error .assertionError ∧
    (2 ≤ seqs.length → chunks sizes seqs = (slicesBySizes sizes seqs).map fun l => l.map .tuple) := by
  refine ⟨rfl, fun h => ?_⟩
  match seqs, h with
  | s :: s' :: t, _ => simp [chunks, slicesBySizes, Except.map]

example : chunks [2, 0, 4] [[1, 2, 3]] = .ok [.bare [1, 2], .bare [], .bare [3]] ∧
    chunks [2, 1] [[1, 2, 3], [4, 5, 6]] = .ok [.tuple [[1, 2], [4, 5]], .tuple [[3], [6]]] := by decide

/-! ### C27 -/

section C27
variable {κ : Type u} {β : Type v} [DecidableEq κ]

/-- The specification: look up in the last mapping that has the key. -/
def lastWins (ds : List (PyDict κ β)) (k : κ) : Option β :=
  (ds.reverse.findSome? (fun d => d.get? k))

theorem combine_fold (dicts : List (Option (PyDict κ β))) (acc : PyDict κ β) (k : κ)
    (hd : ∀ d, some d ∈ dicts → PyDict.WF d) :
    PyDict.get? (dicts.foldl combineStep acc) k
      = (lastWins (dicts.filterMap id) k).or (acc.get? k) := by
  induction dicts generalizing acc with
  | nil => simp [lastWins]
  | cons d? t ih =>
      simp only [List.foldl_cons]
      rw [ih _ (fun d h => hd d (by simp [h]))]
      cases d? with
      | none => simp [combineStep]
      | some d =>
          simp only [combineStep, PyDict.get?_update _ _ _ (hd d (by simp)), lastWins, List.filterMap_cons, id,
            List.reverse_cons, List.findSome?_append, List.findSome?_cons, List.findSome?_nil,
            Option.or_assoc]
          congr 1
          cases d.get? k <;> simp

/-- C27: keyword items win, then the last non-None dict that has the key. -/
theorem C27_combine_lookup (dicts : List (Option (PyDict κ β))) (items : PyDict κ β) (k : κ)
    (hd : ∀ d, some d ∈ dicts → PyDict.WF d) (hi : PyDict.WF items) :
    PyDict.get? (combineDicts dicts items) k = lastWins (dicts.filterMap id ++ [items]) k := by
  unfold combineDicts
  simp only [PyDict.get?_update _ _ _ hi]
  rw [combine_fold dicts [] k hd]
  simp only [lastWins, List.reverse_append, List.reverse_cons, List.reverse_nil, List.nil_append,
    List.cons_append, List.findSome?_cons, PyDict.get?_nil, Option.or_none]
  cases items.get? k <;> simp

/-- C27: every key occurs once, and keys appear in the order of their first occurrence. -/
theorem C27_combine_keys (dicts : List (Option (PyDict κ β))) (items : PyDict κ β)
    (hd : ∀ d, some d ∈ dicts → PyDict.WF d) (hi : PyDict.WF items) :
    (combineDicts dicts items).keys =
      (dicts.filterMap id ++ [items]).foldl
        (fun ks d => ks ++ d.keys.filter (fun k => decide (k ∉ ks))) [] ∧
    (combineDicts dicts items).keys.Nodup := by
  have fold_keys : ∀ (acc : PyDict κ β),
      (∀ d, some d ∈ dicts → PyDict.WF d) →
      PyDict.keys (dicts.foldl combineStep acc) = (dicts.filterMap id).foldl
        (fun ks d => ks ++ d.keys.filter (fun k => decide (k ∉ ks))) acc.keys := by
    clear hd
    induction dicts with
    | nil => intro acc _; simp
    | cons d? t ih =>
        intro acc h
        simp only [List.foldl_cons]
        rw [ih _ (fun d hd => h d (by simp [hd]))]
        cases d? with
        | none => simp [combineStep]
        | some d =>
            simp only [combineStep, List.filterMap_cons, id, List.foldl_cons,
              PyDict.keys_update _ _ (h d (by simp))]
  have fold_wf : ∀ (acc : PyDict κ β), acc.WF →
      PyDict.WF (dicts.foldl combineStep acc) := by
    clear hd fold_keys
    induction dicts with
    | nil => intro acc h; exact h
    | cons d? t ih =>
        intro acc h
        simp only [List.foldl_cons]
        apply ih
        cases d? with
        | none => exact h
        | some d => exact PyDict.WF_update _ _ h
  constructor
  · unfold combineDicts
    simp only [PyDict.keys_update _ _ hi, fold_keys [] hd, List.foldl_append, List.foldl_cons,
      List.foldl_nil, PyDict.keys_nil]
  · exact PyDict.WF_update _ _ (fold_wf [] PyDict.WF_nil)

example : combineDicts [some [("a", 1), ("b", 2)], none, some [("b", 3), ("c", 4)]] [("a", 9)]
    = [("a", 9), ("b", 3), ("c", 4)] := by decide

end C27

/-! ### C28 -/

theorem mem_boolToIdxFrom (i : Nat) (b : List Bool) (j : Nat) :
    j ∈ boolToIdxFrom i b ↔ i ≤ j ∧ b[j - i]? = some true := by
  induction b generalizing i with
  | nil => simp [boolToIdxFrom]
  | cons a t ih =>
      have key : j ∈ boolToIdxFrom (i + 1) t ↔ i + 1 ≤ j ∧ (a :: t)[j - i]? = some true := by
        rw [ih]
        constructor
        · rintro ⟨h1, h2⟩
          refine ⟨h1, ?_⟩
          rw [show j - i = (j - (i + 1)) + 1 by omega]; simpa using h2
        · rintro ⟨h1, h2⟩
          refine ⟨h1, ?_⟩
          rw [show j - i = (j - (i + 1)) + 1 by omega] at h2; simpa using h2
      cases a with
      | true =>
          simp only [boolToIdxFrom, if_true, List.mem_cons, key]
          constructor
          · rintro (rfl | ⟨h1, h2⟩)
            · simp
            · exact ⟨by omega, h2⟩
          · rintro ⟨h1, h2⟩
            rcases Nat.eq_or_lt_of_le h1 with h | h
            · exact Or.inl h.symm
            · exact Or.inr ⟨h, h2⟩
      | false =>
          simp only [boolToIdxFrom, Bool.false_eq_true, if_false, key]
          constructor
          · rintro ⟨h1, h2⟩; exact ⟨by omega, h2⟩
          · rintro ⟨h1, h2⟩
            rcases Nat.eq_or_lt_of_le h1 with h | h
            · subst h; simp at h2
            · exact ⟨h, h2⟩

theorem sorted_boolToIdxFrom (i : Nat) (b : List Bool) :
    (boolToIdxFrom i b).Pairwise (· < ·) := by
  induction b generalizing i with
  | nil => simp [boolToIdxFrom]
  | cons a t ih =>
      cases a with
      | true =>
          simp only [boolToIdxFrom, if_true, List.pairwise_cons]
          refine ⟨?_, ih (i + 1)⟩
          intro j hj
          have := (mem_boolToIdxFrom _ _ _).mp hj
          omega
      | false => simpa [boolToIdxFrom] using ih (i + 1)

/-- C28: the index list of a mask is strictly increasing and holds exactly the true positions. -/
theorem C28_boolToIdx (b : List Bool) :
    (boolToIdx b).Pairwise (· < ·) ∧ ∀ j, j ∈ boolToIdx b ↔ b[j]? = some true := by
  refine ⟨sorted_boolToIdxFrom 0 b, ?_⟩
  intro j
  have := mem_boolToIdxFrom 0 b j
  simp only [Nat.zero_le, true_and, Nat.sub_zero] at this
  exact this

theorem foldl_set_getElem? (is : List Nat) (acc : List Bool) (j : Nat) :
    (is.foldl (fun b i => b.set i true) acc)[j]? =
      if j < acc.length then some (decide (j ∈ is) || acc.getD j false) else none := by
  induction is generalizing acc with
  | nil =>
      simp only [List.foldl_nil]
      split
      · rename_i h; simp [h]
      · rename_i h; simp; omega
  | cons i t ih =>
      simp only [List.foldl_cons, ih, List.length_set]
      split
      · rename_i h
        congr 1
        rw [getD_lt _ _ _ (by simpa using h), getD_lt _ _ _ h, List.getElem_set]
        by_cases hij : i = j
        · simp [hij]
        · simp [hij, Ne.symm hij]
      · rfl

theorem wrapIdx_ok (n : Nat) (i : Int) (h : -(n : Int) ≤ i ∧ i < n) :
    wrapIdx n i = .ok (i % n).toNat := by
  unfold wrapIdx
  by_cases h0 : 0 ≤ i
  · rw [if_pos ⟨h0, h.2⟩, Int.emod_eq_of_lt h0 h.2]
  · rw [if_neg (by omega), if_pos ⟨h.1, by omega⟩]
    have : (i + n) % n = i + n := Int.emod_eq_of_lt (by omega) (by omega)
    rw [← this]; simp

/-- C28: exact meaning of `idx_to_bool`: position `j` is true iff some given index denotes it
(negative ones counted from the end); an index outside `[-n, n)` raises IndexError. -/
theorem C28_idxToBool (n : Nat) (idx : List Int) :
    ((∀ i ∈ idx, -(n : Int) ≤ i ∧ i < n) →
      ∃ b, idxToBool n idx = .ok b ∧ b.length = n ∧
        ∀ j, j < n → (b[j]? = some true ↔ (j : Int) ∈ idx ∨ ((j : Int) - n) ∈ idx)) ∧
    ((∃ i ∈ idx, i < -(n : Int) ∨ (n : Int) ≤ i) → idxToBool n idx = .error .indexError) := by
  constructor
  · intro h
    have hm : ∀ l : List Int, (∀ i ∈ l, -(n : Int) ≤ i ∧ i < n) →
        l.mapM (wrapIdx n) = .ok (l.map (fun i : Int => (i % (n : Int)).toNat)) := by
      intro l
      induction l with
      | nil => intro _; rfl
      | cons a t ih =>
          intro h
          simp only [List.mapM_cons, wrapIdx_ok n a (h a (by simp)), Except.bind_ok,
            ih (fun i hi => h i (by simp [hi])), Except.pure_ok, List.map_cons]
    refine ⟨_, by simp only [idxToBool, hm idx h, Except.bind_ok, Except.pure_ok]; rfl, ?_, ?_⟩
    · have hlen : ∀ (is : List Nat) (acc : List Bool),
          (is.foldl (fun b i => b.set i true) acc).length = acc.length := by
        intro is
        induction is with
        | nil => intro acc; rfl
        | cons i t ih => intro acc; simp [ih]
      rw [hlen]; simp
    · intro j hj
      rw [foldl_set_getElem?]
      simp only [List.length_replicate, hj, if_true, Option.some.injEq]
      rw [getD_lt _ _ _ (by simpa using hj)]
      simp only [List.getElem_replicate, Bool.or_false, decide_eq_true_eq, List.mem_map]
      constructor
      · rintro ⟨i, hi, he⟩
        have hb := h i hi
        by_cases h0 : 0 ≤ i
        · rw [Int.emod_eq_of_lt h0 hb.2] at he
          left; rw [← he, Int.toNat_of_nonneg h0]; exact hi
        · right
          have : (i + (n : Int)) % (n : Int) = i + n := Int.emod_eq_of_lt (by omega) (by omega)
          rw [Int.add_emod_right] at this
          rw [this] at he
          have : (j : Int) - n = i := by omega
          rw [this]; exact hi
      · rintro (hi | hi)
        · exact ⟨_, hi, by rw [Int.emod_eq_of_lt (by omega) (by omega)]; simp⟩
        · refine ⟨_, hi, ?_⟩
          have : ((j : Int) - n + n) % n = (j : Int) - n + n := Int.emod_eq_of_lt (by omega) (by omega)
          rw [Int.add_emod_right] at this
          rw [this]; omega
  · rintro ⟨i, hi, hbad⟩
    have hm : ∀ l : List Int, i ∈ l → l.mapM (wrapIdx n) = .error .indexError := by
      intro l
      induction l with
      | nil => intro h; simp at h
      | cons a t ih =>
          intro h
          rw [List.mapM_cons]
          have herr : ∀ x : Int, wrapIdx n x = .error .indexError ∨ ∃ y, wrapIdx n x = .ok y := by
            intro x; unfold wrapIdx; split
            · exact Or.inr ⟨_, rfl⟩
            · split
              · exact Or.inr ⟨_, rfl⟩
              · exact Or.inl rfl
          rcases List.mem_cons.mp h with rfl | h
          · have : wrapIdx n i = .error .indexError := by
              unfold wrapIdx; rw [if_neg (by omega), if_neg (by omega)]
            rw [this]; rfl
          · rcases herr a with h1 | ⟨y, h1⟩ <;> rw [h1]
            · rfl
            · rw [Except.bind_ok, ih h]; rfl
    simp [idxToBool, hm idx hi]

/-- C28: converting a mask to indices and back is the identity. -/
theorem C28_roundtrip_bool (b : List Bool) :
    idxToBool b.length ((boolToIdx b).map (fun i : Nat => (i : Int))) = .ok b := by
  have hmem := (C28_boolToIdx b).2
  have hbound : ∀ i ∈ (boolToIdx b).map (fun i : Nat => (i : Int)), -(b.length : Int) ≤ i ∧ i < b.length := by
    intro i hi
    obtain ⟨k, hk, rfl⟩ := List.mem_map.mp hi
    have := (hmem k).mp hk
    have : k < b.length := by
      by_contra hc
      rw [List.getElem?_eq_none (by omega)] at this; cases this
    omega
  obtain ⟨b', h1, h2, h3⟩ := (C28_idxToBool b.length _).1 hbound
  rw [h1]
  congr 1
  apply List.ext_getElem h2
  intro j hj hj'
  have h := h3 j hj'
  have e : ((j : Int) ∈ (boolToIdx b).map (fun i : Nat => (i : Int)) ∨
      ((j : Int) - b.length) ∈ (boolToIdx b).map (fun i : Nat => (i : Int))) ↔ b[j]? = some true := by
    rw [← hmem j]
    constructor
    · rintro (hh | hh)
      · obtain ⟨k, hk, hkk⟩ := List.mem_map.mp hh
        have : k = j := by omega
        exact this ▸ hk
      · obtain ⟨k, hk, hkk⟩ := List.mem_map.mp hh
        omega
    · intro hh; left; exact List.mem_map.mpr ⟨j, hh, rfl⟩
  rw [e, List.getElem?_eq_getElem hj, List.getElem?_eq_getElem hj'] at h
  cases h1 : b'[j] <;> cases h2 : b[j] <;> simp_all

/-- C28: converting indices to a mask and back sorts them and removes repetitions. -/
theorem C28_roundtrip_idx (n : Nat) (idx : List Int) (h : ∀ i ∈ idx, -(n : Int) ≤ i ∧ i < n) :
    ∃ b, idxToBool n idx = .ok b ∧ (boolToIdx b).Pairwise (· < ·) ∧
      ∀ j, j ∈ boolToIdx b ↔ j < n ∧ ((j : Int) ∈ idx ∨ ((j : Int) - n) ∈ idx) := by
  obtain ⟨b, h1, h2, h3⟩ := (C28_idxToBool n idx).1 h
  refine ⟨b, h1, (C28_boolToIdx b).1, ?_⟩
  intro j
  rw [(C28_boolToIdx b).2]
  constructor
  · intro hj
    have hlt : j < n := by
      by_contra hc
      rw [List.getElem?_eq_none (by omega)] at hj; cases hj
    exact ⟨hlt, (h3 j hlt).mp hj⟩
  · rintro ⟨hlt, hj⟩; exact (h3 j hlt).mpr hj

example : idxToBool 4 [3, -4, 3] = .ok [true, false, false, true] := by decide
example : idxToBool 4 [4] = .error .indexError := by decide

end Pyhipp.Dataproc
