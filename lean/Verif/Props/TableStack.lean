import Verif.Model.TableStack
/-
C130: DataTable.col_stacked and row_stacked.
-/
namespace Pyhipp.TableStack
open Pyhipp

variable {α : Type}

/-- Spec: a column of a table with `n` rows: plain numbers (`w = none`) or vectors of `w` components; `val i c` is component `c` of row `i`. -/
inductive IsColumn (n : Nat) : Nd α → Nat → (Nat → Nat → α) → Prop where
  | plain (a : Nd α) (h : a.shape = [n]) : IsColumn n a 1 (fun i _ => a.get [i])
  | vec (a : Nd α) (w : Nat) (h : a.shape = [n, w]) : IsColumn n a w (fun i c => a.get [i, c])

theorem asCol_spec {n w : Nat} {a : Nd α} {v : Nat → Nat → α} (h : IsColumn n a w v) :
    (asCol a).shape = [n, w] ∧ ∀ i c, c < w → (asCol a).get [i, c] = v i c := by
  cases h with
  | plain h =>
    unfold asCol
    rw [h]
    exact ⟨rfl, fun i c hc => rfl⟩
  | vec _ h =>
    unfold asCol
    rw [h]
    exact ⟨h, fun i c hc => rfl⟩

/-- Where block `j` is. -/
theorem blockAt_spec (axis : Nat) (ix : List Nat) (as : List (Nd α)) : ∀ (a : Nd α) (j c : Nat) (b : Nd α), (a :: as)[j]? = some b → c < b.shape.getD axis 0 →
    blockAt axis ix ((((a :: as).take j).map (fun a => a.shape.getD axis 0)).sum + c) a as = b.get (ix.set axis c) := by
  induction as with
  | nil =>
    intro a j c b hb hc
    cases j with
    | zero => simp at hb; subst hb; simp [blockAt]
    | succ j => simp at hb
  | cons a' t ih =>
    intro a j c b hb hc
    cases j with
    | zero =>
      simp at hb
      subst hb
      simp only [List.take_zero, List.map_nil, List.sum_nil, Nat.zero_add, blockAt]
      rw [if_pos hc]
    | succ j =>
      have hb' : (a' :: t)[j]? = some b := by simpa using hb
      have := ih a' j c b hb' hc
      simp only [List.take_succ_cons, List.map_cons, List.sum_cons, blockAt]
      rw [if_neg (by omega)]
      rw [← this]
      congr 1
      omega

/-- Spec: a table of n rows whose j-th column has `w j` components with values `v j`. -/
def Rows (n : Nat) (t : PyDict Str (Nd α)) (w : Nat → Nat) (v : Nat → Nat → Nat → α) : Prop :=
  ∀ (j : Nat) (p : Str × Nd α), t[j]? = some p → IsColumn n p.2 (w j) (v j)

/-- C130: **`col_stacked()`** of a table with n rows and at least one column, the j-th of w j components (1 for plain numbers): a two-dimensional array of n rows, each row the
components of the table's row side by side in the order of the columns. -/
theorem C130_col_stacked (n : Nat) (t : PyDict Str (Nd α)) (w : Nat → Nat) (v : Nat → Nat → Nat → α) (hne : t ≠ []) (h : Rows n t w v) :
    ∃ r : Nd α, colStacked t = .ok r ∧ r.shape = [n, ((List.range t.length).map w).sum] ∧
      ∀ i j c : Nat, i < n → j < t.length → c < w j → r.get [i, ((List.range j).map w).sum + c] = v j i c := by
  have hw : ∀ j : Nat, j ≤ t.length → ((t.take j).map (fun p => (asCol p.2).shape.getD 1 0)) = (List.range j).map w := by
    intro j hj
    refine List.ext_getElem (by simp [hj]) ?_
    intro k h1 h2
    simp only [List.length_map, List.length_range] at h2
    simp only [List.getElem_map, List.getElem_take, List.getElem_range]
    have := (asCol_spec (h k _ (List.getElem?_eq_getElem (by omega)))).1
    rw [this]
    rfl
  cases t with
  | nil => exact absurd rfl hne
  | cons p t =>
    have h0 := (asCol_spec (h 0 p (by simp))).1
    have hall : (t.map (fun p => asCol p.2)).all (fun b => decide (b.shape.length = (asCol p.2).shape.length ∧ b.shape.eraseIdx 1 = (asCol p.2).shape.eraseIdx 1)) = true := by
      rw [List.all_eq_true]
      intro b hb
      obtain ⟨q, hq, rfl⟩ := List.mem_map.mp hb
      obtain ⟨k, hk, rfl⟩ := List.getElem_of_mem hq
      have := (asCol_spec (h (k + 1) t[k] (by simp [hk]))).1
      rw [this, h0]
      simp
    refine ⟨_, by unfold colStacked concatenate; simp only [List.map_cons]; rw [if_pos hall], ?_, ?_⟩
    · simp only
      rw [h0]
      have := hw (p :: t).length (Nat.le_refl _)
      rw [List.take_length] at this
      rw [← this]
      simp [total, Function.comp_def]
    · intro i j c hi hj hc
      simp only
      have hcol := h j _ (List.getElem?_eq_getElem hj)
      have hspec := asCol_spec hcol
      have hb := blockAt_spec 1 [i, ((List.range j).map w).sum + c] (t.map (fun p => asCol p.2)) (asCol p.2) j c (asCol ((p :: t)[j]'hj).2)
        (by
          have : asCol p.2 :: t.map (fun p => asCol p.2) = (p :: t).map (fun p => asCol p.2) := rfl
          rw [this, List.getElem?_map, List.getElem?_eq_getElem hj]
          rfl)
        (by rw [hspec.1]; exact hc)
      have e : (((asCol p.2 :: t.map (fun p => asCol p.2)).take j).map (fun a => a.shape.getD 1 0)).sum = ((List.range j).map w).sum := by
        rw [← hw j (by omega)]
        have : asCol p.2 :: t.map (fun p => asCol p.2) = (p :: t).map (fun p => asCol p.2) := rfl
        rw [this, ← List.map_take, List.map_map]
        rfl
      rw [e] at hb
      have e2 : [i, ((List.range j).map w).sum + c].getD 1 0 = ((List.range j).map w).sum + c := rfl
      rw [e2, hb]
      simp only [List.set_cons_succ, List.set_cons_zero]
      exact hspec.2 i c hc

/-- C130: `col_stacked()` of an empty table, or of one with two columns of different numbers of rows, is a ValueError. -/
theorem C130_col_stacked_errors (t : PyDict Str (Nd α)) :
    (t = [] → colStacked t = .error .valueError) ∧
    (∀ (p q : Str × Nd α) (n m w w' : Nat) (v v' : Nat → Nat → α), p ∈ t → q ∈ t → IsColumn n p.2 w v → IsColumn m q.2 w' v' → n ≠ m → colStacked t = .error .valueError) := by
  refine ⟨by rintro rfl; rfl, ?_⟩
  intro p q n m w w' v v' hp hq hcp hcq hnm
  have sp := (asCol_spec hcp).1
  have sq := (asCol_spec hcq).1
  cases t with
  | nil => simp at hp
  | cons r t =>
    unfold colStacked concatenate
    simp only [List.map_cons]
    rw [if_neg]
    rw [List.all_eq_true]
    intro hall
    -- every column has the head's shape without the second axis
    have key : ∀ x ∈ r :: t, (asCol x.2).shape.eraseIdx 1 = (asCol r.2).shape.eraseIdx 1 := by
      intro x hx
      rcases List.mem_cons.mp hx with rfl | hx
      · rfl
      · have := hall (asCol x.2) (List.mem_map.mpr ⟨x, hx, rfl⟩)
        exact (decide_eq_true_eq.mp this).2
    have e1 := key p hp
    have e2 := key q hq
    rw [sp] at e1
    rw [sq] at e2
    rw [← e2] at e1
    simp at e1
    exact hnm e1

theorem asRow_plain {n : Nat} {a : Nd α} (h : a.shape = [n]) : (asRow a).shape = [1, n] ∧ ∀ i c, (asRow a).get [i, c] = a.get [c] := by
  unfold asRow
  rw [h]
  exact ⟨rfl, fun _ _ => rfl⟩

theorem asRow_vec {n w : Nat} {a : Nd α} (h : a.shape = [n, w]) : asRow a = a := by
  unfold asRow
  rw [h]

/-- C130: **`row_stacked()`** of a table whose columns are plain numbers, n each: a two-dimensional array with one row for each column, in order: the transpose of `col_stacked()`. -/
theorem C130_row_stacked (n : Nat) (t : PyDict Str (Nd α)) (hne : t ≠ []) (h : ∀ p ∈ t, p.2.shape = [n]) :
    ∃ r c : Nd α, rowStacked t = .ok r ∧ colStacked t = .ok c ∧ r.shape = [t.length, n] ∧ c.shape = [n, t.length] ∧
      (∀ (j : Nat) (p : Str × Nd α), t[j]? = some p → ∀ i, i < n → r.get [j, i] = p.2.get [i]) ∧
      (∀ i j : Nat, i < n → j < t.length → r.get [j, i] = c.get [i, j]) := by
  have hrows : Rows n t (fun _ => 1) (fun j i _ => ((t[j]?).getD (t.head hne)).2.get [i]) := by
    intro j p hp
    simp only [hp, Option.getD_some]
    exact .plain p.2 (h p (List.mem_of_getElem? hp))
  obtain ⟨c, hc1, hc2, hc3⟩ := C130_col_stacked n t _ _ hne hrows
  have hlen : ∀ k : Nat, ((List.range k).map (fun _ => 1)).sum = k := by
    intro k
    induction k with
    | zero => rfl
    | succ k ih => rw [List.range_succ, List.map_append, List.sum_append, ih]; rfl
  rw [hlen] at hc2
  have hone : ∀ (s : PyDict Str (Nd α)), (∀ p ∈ s, p.2.shape = [n]) → (s.map (fun p => (asRow p.2).shape.getD 0 0)).sum = s.length := by
    intro s hs
    induction s with
    | nil => rfl
    | cons p s ih =>
      simp only [List.map_cons, List.sum_cons, List.length_cons]
      rw [ih (fun q hq => hs q (by simp [hq])), (asRow_plain (hs p (by simp))).1]
      simp; omega
  have main : ∃ r : Nd α, rowStacked t = .ok r ∧ r.shape = [t.length, n] ∧ ∀ (j : Nat) (p : Str × Nd α), t[j]? = some p → ∀ i, i < n → r.get [j, i] = p.2.get [i] := by
    cases ht : t with
    | nil => exact absurd ht hne
    | cons p t' =>
      rw [ht] at h
      have h0 := (asRow_plain (h p (by simp))).1
      have hall : (t'.map (fun p => asRow p.2)).all (fun b => decide (b.shape.length = (asRow p.2).shape.length ∧ b.shape.eraseIdx 0 = (asRow p.2).shape.eraseIdx 0)) = true := by
        rw [List.all_eq_true]
        intro b hb
        obtain ⟨q, hq, rfl⟩ := List.mem_map.mp hb
        rw [(asRow_plain (h q (by simp [hq]))).1, h0]
        simp
      refine ⟨_, by unfold rowStacked concatenate; simp only [List.map_cons]; rw [if_pos hall], ?_, ?_⟩
      · simp only
        rw [h0]
        have := hone (p :: t') h
        simp only [total, List.set_cons_zero, List.map_map, List.map_cons]
        congr 1
      · intro j q hq i hi
        have hj : j < (p :: t').length := (List.getElem?_eq_some_iff.mp hq).1
        have hqm : q ∈ p :: t' := List.mem_of_getElem? hq
        have hb := blockAt_spec 0 [j, i] (t'.map (fun p => asRow p.2)) (asRow p.2) j 0 (asRow q.2)
          (by
            have : asRow p.2 :: t'.map (fun p => asRow p.2) = (p :: t').map (fun p => asRow p.2) := rfl
            rw [this, List.getElem?_map, hq]
            rfl)
          (by rw [(asRow_plain (h q hqm)).1]; exact Nat.one_pos)
        have e : (((asRow p.2 :: t'.map (fun p => asRow p.2)).take j).map (fun a => a.shape.getD 0 0)).sum = j := by
          have : asRow p.2 :: t'.map (fun p => asRow p.2) = (p :: t').map (fun p => asRow p.2) := rfl
          rw [this, ← List.map_take, List.map_map]
          have := hone ((p :: t').take j) (fun x hx => h x (List.mem_of_mem_take hx))
          rw [List.length_take] at this
          rw [show (List.map ((fun a : Nd α => a.shape.getD 0 0) ∘ fun p : Str × Nd α => asRow p.2) ((p :: t').take j)).sum = min j (p :: t').length from this]
          omega
        rw [e] at hb
        simp only [Nat.add_zero] at hb
        show blockAt 0 [j, i] ([j, i].getD 0 0) (asRow p.2) _ = _
        have e2 : [j, i].getD 0 0 = j := rfl
        rw [e2, hb]
        simp only [List.set_cons_zero]
        exact (asRow_plain (h q hqm)).2 0 i
  obtain ⟨r, hr1, hr2, hr3⟩ := main
  refine ⟨r, c, hr1, hc1, hr2, hc2, hr3, ?_⟩
  intro i j hi hj
  have := hc3 i j 0 hi hj (by omega)
  rw [hlen, Nat.add_zero] at this
  rw [this, hr3 j _ (List.getElem?_eq_getElem hj) i hi, List.getElem?_eq_getElem hj]
  rfl

/-- C130 (recorded hazard): with a column of vectors, `row_stacked()` is no transpose of the table: besides a column of n plain numbers, vectors of w ≠ n components raise
ValueError, although `col_stacked()` works. -/
theorem C130_row_stacked_mixed (n w : Nat) (hw : w ≠ n) (k k' : Str) (a b : Nd α) (ha : a.shape = [n]) (hb : b.shape = [n, w]) :
    rowStacked [(k, a), (k', b)] = .error .valueError ∧ rowStacked [(k', b), (k, a)] = .error .valueError ∧ ∃ r, colStacked [(k, a), (k', b)] = .ok r ∧ r.shape = [n, 1 + w] := by
  have ra := (asRow_plain ha).1
  have rb := asRow_vec hb
  refine ⟨?_, ?_, ?_⟩
  · unfold rowStacked concatenate
    simp only [List.map_cons, List.map_nil, List.all_cons, List.all_nil, Bool.and_true]
    rw [if_neg]
    rw [decide_eq_true_eq, rb, ra, hb]
    simpa using hw
  · unfold rowStacked concatenate
    simp only [List.map_cons, List.map_nil, List.all_cons, List.all_nil, Bool.and_true]
    rw [if_neg]
    rw [decide_eq_true_eq, rb, ra, hb]
    simpa using Ne.symm hw
  · obtain ⟨r, h1, h2, -⟩ := C130_col_stacked n [(k, a), (k', b)] (fun j => if j = 0 then 1 else w)
      (fun j i c => if j = 0 then a.get [i] else b.get [i, c]) (by simp) (by
        intro j p hp
        match j with
        | 0 => simp at hp; subst hp; exact .plain a ha
        | 1 => simp at hp; subst hp; exact .vec b w hb
        | j + 2 => simp at hp)
    exact ⟨r, h1, by rw [h2]; rfl⟩

/-- C130 (recorded hazard): if the vectors have as many components as the table has rows, `row_stacked()` gives no error, but its rows mix columns and rows: row 0 is the plain
column, row 1 + i is the vector of row i. -/
theorem C130_row_stacked_mixes (n : Nat) (k k' : Str) (a b : Nd α) (ha : a.shape = [n]) (hb : b.shape = [n, n]) :
    ∃ r, rowStacked [(k, a), (k', b)] = .ok r ∧ r.shape = [1 + n, n] ∧ (∀ i, r.get [0, i] = a.get [i]) ∧ (∀ i c, r.get [1 + i, c] = b.get [i, c]) := by
  have ra := asRow_plain ha
  have rb := asRow_vec hb
  refine ⟨_, by
    unfold rowStacked concatenate
    simp only [List.map_cons, List.map_nil, List.all_cons, List.all_nil, Bool.and_true]
    rw [if_pos (by rw [decide_eq_true_eq, rb, ra.1, hb]; simp)], ?_, ?_, ?_⟩
  · simp [ra.1, rb, hb, total]
  · intro i
    simp only [blockAt]
    rw [ra.1]
    simp [ra.2]
  · intro i c
    simp only [blockAt]
    rw [ra.1]
    simp [rb]

/-- Two plain columns and one of vectors. -/
def exTable : PyDict Str (Nd Nat) := [("a".toList, ⟨[3], fun ix => ix.getD 0 0⟩), ("v".toList, ⟨[3, 2], fun ix => 10 * ix.getD 0 0 + ix.getD 1 0⟩), ("b".toList, ⟨[3], fun ix => 100 + ix.getD 0 0⟩)]

example : ∃ r, colStacked exTable = .ok r ∧ r.shape = [3, 4] ∧ (List.range 3).map (fun i => (List.range 4).map (fun j => r.get [i, j])) = [[0, 0, 1, 100], [1, 10, 11, 101], [2, 20, 21, 102]] :=
  ⟨_, rfl, rfl, by decide⟩

example : ∃ (w : Nat → Nat) (v : Nat → Nat → Nat → Nat), Rows 3 exTable w v := by
  refine ⟨fun j => if j = 1 then 2 else 1, fun j i c => if j = 0 then i else if j = 1 then 10 * i + c else 100 + i, ?_⟩
  intro j p hp
  match j with
  | 0 => simp [exTable] at hp; subst hp; exact .plain _ rfl
  | 1 => simp [exTable] at hp; subst hp; exact .vec _ 2 rfl
  | 2 => simp [exTable] at hp; subst hp; exact .plain _ rfl
  | j + 3 => simp [exTable] at hp

end Pyhipp.TableStack
