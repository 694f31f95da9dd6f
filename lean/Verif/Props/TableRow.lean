import Verif.Model.TableRow
import Verif.Props.DataTable
/-
C08 for one-row selections (`t.iloc[i]`, `t.subset(i)`).
-/
namespace Pyhipp.TableRow
open Pyhipp Pyhipp.DataTable

variable {ρ : Type} [Inhabited ρ]

theorem rowPos_err (n : Nat) (i : Int) (h : i < -(n : Int) ∨ (n : Int) ≤ i) : rowPos n i = .error .indexError := by
  unfold rowPos
  rw [if_neg (by omega), if_neg (by omega)]

theorem rowPos_in (n : Nat) (i : Int) (h1 : -(n : Int) ≤ i) (h2 : i < n) : ∃ p, rowPos n i = .ok p ∧ p < n ∧
    (p : Int) = if 0 ≤ i then i else i + n := by
  unfold rowPos
  by_cases h : 0 ≤ i
  · exact ⟨i.toNat, by rw [if_pos ⟨h, h2⟩], by omega, by rw [if_pos h]; omega⟩
  · exact ⟨(i + n).toNat, by rw [if_neg (by omega), if_pos ⟨h1, by omega⟩], by omega, by rw [if_neg h]; omega⟩

/-- What `v[i]` must be, for the column (k, a): the row's own cell, as a value if the column is 1-D. -/
def Sel1 (m : Mem ρ) (flat : Str → Bool) (i : Int) (q : Str × Arr) (r : Str × Item ρ) : Prop :=
  r.1 = q.1 ∧ ∃ p : Nat, p < q.2.idx.length ∧ (p : Int) = (if 0 ≤ i then i else i + q.2.idx.length) ∧
    ∃ c : Nat, q.2.idx[p]? = some c ∧ r.2 = if flat q.1 then .scalar (m.cell q.2.buf c) else .view q.2.buf c

theorem items_spec (m : Mem ρ) (flat : Str → Bool) (i : Int) (t : PyDict Str Arr) :
    ((∃ q ∈ t, i < -(q.2.idx.length : Int) ∨ (q.2.idx.length : Int) ≤ i) → items m flat i t = .error .indexError) ∧
    ((∀ q ∈ t, -(q.2.idx.length : Int) ≤ i ∧ i < (q.2.idx.length : Int)) →
      ∃ d, items m flat i t = .ok d ∧ List.Forall₂ (Sel1 m flat i) t d) := by
  induction t with
  | nil => exact ⟨(fun ⟨q, hq, _⟩ => by cases hq), fun _ => ⟨[], rfl, .nil⟩⟩
  | cons q t ih =>
      obtain ⟨k, a⟩ := q
      by_cases hk : i < -(a.idx.length : Int) ∨ (a.idx.length : Int) ≤ i
      · constructor
        · intro _
          simp [items, item, rowPos_err _ _ hk, bind, Except.bind]
        · intro h
          have := h (k, a) (by simp)
          simp only at this
          omega
      · have hk' : -(a.idx.length : Int) ≤ i ∧ i < a.idx.length := by omega
        obtain ⟨p, hp, hlt, hpi⟩ := rowPos_in _ _ hk'.1 hk'.2
        constructor
        · rintro ⟨q, hq, hbad⟩
          have : q ∈ t := by
            rcases List.mem_cons.mp hq with rfl | h
            · exact absurd hbad hk
            · exact h
          simp [items, item, hp, ih.1 ⟨q, this, hbad⟩, bind, Except.bind, pure, Except.pure]
        · intro h
          obtain ⟨d, hd, hF⟩ := ih.2 (fun q hq => h q (by simp [hq]))
          refine ⟨(k, if flat k then .scalar (m.cell a.buf (a.idx.getD p 0)) else .view a.buf (a.idx.getD p 0)) :: d, ?_, .cons ?_ hF⟩
          · simp [items, item, hp, hd, bind, Except.bind, pure, Except.pure]
          · refine ⟨rfl, p, hlt, hpi, a.idx.getD p 0, ?_, rfl⟩
            simp [List.getD_eq_getElem?_getD, List.getElem?_eq_getElem hlt]

/-- `c` is a new one-row array with the given value. -/
def Val1 (m : Mem ρ) (flat : Str → Bool) (i : Int) (q : Str × Arr) (x : Str × ρ) : Prop :=
  x.1 = q.1 ∧ ∃ p : Nat, p < q.2.idx.length ∧ (p : Int) = (if 0 ≤ i then i else i + q.2.idx.length) ∧ (read m q.2)[p]? = some x.2

/-- The value of an item. -/
def itemVal (m : Mem ρ) : Item ρ → ρ
  | .scalar x => x
  | .view b c => m.cell b c

/-- The memory an item refers to exists. -/
def itemAlive (m : Mem ρ) : Item ρ → Prop
  | .scalar _ => True
  | .view b _ => b < m.next

theorem newCell_ext (m : Mem ρ) (x : ρ) : Ext m (newCell m x).2 :=
  ⟨by simp [newCell], fun b hb => by funext j; simp [newCell, Nat.ne_of_lt hb]⟩

theorem itemVal_ext {m m' : Mem ρ} (h : Ext m m') (x : Item ρ) (hx : itemAlive m x) : itemVal m' x = itemVal m x := by
  cases x with
  | scalar => rfl
  | view b c => simp only [itemVal]; rw [h.cell b hx]

theorem itemAlive_ext {m m' : Mem ρ} (h : Ext m m') (x : Item ρ) (hx : itemAlive m x) : itemAlive m' x := by
  cases x with
  | scalar => trivial
  | view b c => exact Nat.lt_of_lt_of_le hx h.le

/-- All new arrays live in buffers of their own that did not exist before. -/
structure FreshRow (m m' : Mem ρ) (r : PyDict Str Cell) : Prop where
  lo : ∀ p ∈ r, m.next ≤ p.2.buf
  hi : ∀ p ∈ r, p.2.buf < m'.next
  own : (r.map (fun p => p.2.buf)).Nodup

theorem rowArrays_new (strict : Bool) (copy : Bool) (d : PyDict Str (Item ρ)) (m : Mem ρ) (ha : ∀ p ∈ d, itemAlive m p.2)
    (hc : copy = true ∨ strict = false ∧ ∀ p ∈ d, ∃ x, p.2 = Item.scalar x) :
    ∃ r m', rowArrays strict m copy d = .ok (r, m') ∧ Ext m m' ∧ FreshRow m m' r ∧
      r.map (fun p => (p.1, readCell m' p.2)) = d.map (fun p => (p.1, itemVal m p.2)) := by
  induction d generalizing m with
  | nil => exact ⟨[], m, rfl, Ext.refl m, ⟨by simp, by simp, by simp⟩, rfl⟩
  | cons q d ih =>
      obtain ⟨k, x⟩ := q
      have hx : rowArray strict m copy x = .ok (newCell m (itemVal m x)) := by
        rcases hc with rfl | ⟨rfl, hs⟩
        · cases x <;> simp [rowArray, itemVal]
        · obtain ⟨y, hy⟩ := hs (k, x) (by simp)
          simp only at hy
          subst hy
          simp [rowArray, itemVal]
      have hE := newCell_ext m (itemVal m x)
      obtain ⟨r, m', hr, hE', hF, hv⟩ := ih (newCell m (itemVal m x)).2
        (fun p hp => itemAlive_ext hE _ (ha p (by simp [hp])))
        (by
          rcases hc with h | ⟨h, hs⟩
          · exact .inl h
          · exact .inr ⟨h, fun p hp => hs p (by simp [hp])⟩)
      have hn : (newCell m (itemVal m x)).2.next = m.next + 1 := rfl
      refine ⟨(k, (newCell m (itemVal m x)).1) :: r, m', ?_, hE.trans hE', ⟨?_, ?_, ?_⟩, ?_⟩
      · simp [rowArrays, hx, hr, bind, Except.bind, pure, Except.pure]
      · intro p hp
        rcases List.mem_cons.mp hp with rfl | hp
        · simp [newCell]
        · have := hF.lo p hp; omega
      · intro p hp
        rcases List.mem_cons.mp hp with rfl | hp
        · have := hE'.le; simp only [newCell] at *; omega
        · exact hF.hi p hp
      · simp only [List.map_cons, List.nodup_cons]
        refine ⟨?_, hF.own⟩
        intro hm
        obtain ⟨p, hp, he⟩ := List.mem_map.mp hm
        have := hF.lo p hp
        simp only [newCell] at he this
        omega
      · simp only [List.map_cons, hv]
        congr 1
        · congr 1
          unfold readCell
          rw [hE'.cell _ (by simp [newCell])]
          simp [newCell]
        · apply List.map_congr_left
          intro p hp
          rw [itemVal_ext hE _ (ha p (by simp [hp]))]

theorem sel_alive {m : Mem ρ} {flat : Str → Bool} {i : Int} {t : PyDict Str Arr} {d : PyDict Str (Item ρ)} (ha : Alive m t)
    (hF : List.Forall₂ (Sel1 m flat i) t d) : ∀ p ∈ d, itemAlive m p.2 := by
  induction hF with
  | nil => intro p hp; cases hp
  | @cons q x t d hq _ ih =>
      intro p hp
      rcases List.mem_cons.mp hp with rfl | hp
      · obtain ⟨_, _, _, _, c, _, he⟩ := hq
        rw [he]
        split
        · trivial
        · exact ha q (by simp)
      · exact ih (fun q hq => ha q (by simp [hq])) p hp

theorem sel_vals {m : Mem ρ} {flat : Str → Bool} {i : Int} {t : PyDict Str Arr} {d : PyDict Str (Item ρ)}
    (hF : List.Forall₂ (Sel1 m flat i) t d) : List.Forall₂ (Val1 m flat i) t (d.map (fun p => (p.1, itemVal m p.2))) := by
  induction hF with
  | nil => exact .nil
  | @cons q x t d hq _ ih =>
      refine .cons ?_ ih
      obtain ⟨h1, p, hp, hpi, c, hc, he⟩ := hq
      refine ⟨h1, p, hp, hpi, ?_⟩
      show (read m q.2)[p]? = some (itemVal m x.2)
      rw [he]
      simp only [DataTable.read, List.getElem?_map, hc, Option.map_some]
      split <;> rfl

/-- What a view must be: the very cell of the column's row. -/
def View1 (i : Int) (q : Str × Arr) (r : Str × Cell) : Prop :=
  r.1 = q.1 ∧ r.2.buf = q.2.buf ∧ ∃ p : Nat, p < q.2.idx.length ∧
    (p : Int) = (if 0 ≤ i then i else i + q.2.idx.length) ∧ q.2.idx[p]? = some r.2.pos

theorem rowArrays_view (strict : Bool) {m : Mem ρ} {flat : Str → Bool} {i : Int} {t : PyDict Str Arr} {d : PyDict Str (Item ρ)}
    (hv : ∀ q ∈ t, flat q.1 = false) (hF : List.Forall₂ (Sel1 m flat i) t d) :
    ∃ r, rowArrays strict m false d = .ok (r, m) ∧ List.Forall₂ (View1 i) t r := by
  induction hF with
  | nil => exact ⟨[], rfl, .nil⟩
  | @cons q x t d hq _ ih =>
      obtain ⟨r, hr, hR⟩ := ih (fun q hq => hv q (by simp [hq]))
      obtain ⟨h1, p, hp, hpi, c, hc, he⟩ := hq
      obtain ⟨k, y⟩ := x
      rw [hv q (by simp)] at he
      simp only [Bool.false_eq_true, if_false] at h1 he
      subst h1 he
      refine ⟨(q.1, ⟨q.2.buf, c⟩) :: r, ?_, .cons ⟨rfl, rfl, p, hp, hpi, hc⟩ hR⟩
      simp [rowArrays, rowArray, hr, bind, Except.bind, pure, Except.pure]

theorem rowArrays_strict {m : Mem ρ} {flat : Str → Bool} {i : Int} {t : PyDict Str Arr} {d : PyDict Str (Item ρ)}
    (hv : ∃ q ∈ t, flat q.1 = true) (hF : List.Forall₂ (Sel1 m flat i) t d) :
    rowArrays true m false d = .error .valueError := by
  induction hF with
  | nil => obtain ⟨q, hq, _⟩ := hv; cases hq
  | @cons q x t d hq _ ih =>
      obtain ⟨h1, p, hp, hpi, c, hc, he⟩ := hq
      obtain ⟨k, y⟩ := x
      simp only at h1 he
      subst h1 he
      cases hf : flat q.1 with
      | true => simp [rowArrays, rowArray, bind, Except.bind]
      | false =>
          have : ∃ q ∈ t, flat q.1 = true := by
            obtain ⟨q', hq', hf'⟩ := hv
            rcases List.mem_cons.mp hq' with rfl | h
            · rw [hf] at hf'; cases hf'
            · exact ⟨q', h, hf'⟩
          simp [rowArrays, rowArray, ih this, bind, Except.bind]

/-- C08: `t.iloc[i]` (`t.subset(i)`) with an int.
1. It raises IndexError exactly when some column has no row `i`.
2. Else, with copy=True, it is a table with the same keys in the same order, whose value under each key is
   that column's row `i` (counted from the end if negative), each in memory of its own; nothing that existed
   changes.
3. With copy=False on a table of M-D columns, every value is that very row of the column, so that writing to
   one is seen in the other; nothing is allocated.
4. With copy=False and a 1-D column, numpy 2 refuses with ValueError. -/
theorem C08_row (m : Mem ρ) (t : PyDict Str Arr) (ha : Alive m t) (flat : Str → Bool) (strict : Bool) (i : Int) :
    ((∃ q ∈ t, i < -(q.2.idx.length : Int) ∨ (q.2.idx.length : Int) ≤ i) →
      ∀ copy, subsetRow strict flat m t i copy = .error .indexError) ∧
    ((∀ q ∈ t, -(q.2.idx.length : Int) ≤ i ∧ i < (q.2.idx.length : Int)) →
      (∃ r m', subsetRow strict flat m t i true = .ok (r, m') ∧ Ext m m' ∧ FreshRow m m' r ∧
        List.Forall₂ (fun (q : Str × Arr) (x : Str × Cell) => x.1 = q.1 ∧ ∃ p : Nat, p < q.2.idx.length ∧
          (p : Int) = (if 0 ≤ i then i else i + q.2.idx.length) ∧ (read m q.2)[p]? = some (readCell m' x.2)) t r) ∧
      ((∀ q ∈ t, flat q.1 = false) → ∃ r, subsetRow strict flat m t i false = .ok (r, m) ∧
        List.Forall₂ (fun (q : Str × Arr) (x : Str × Cell) => x.1 = q.1 ∧ x.2.buf = q.2.buf ∧ ∃ p : Nat, p < q.2.idx.length ∧
          (p : Int) = (if 0 ≤ i then i else i + q.2.idx.length) ∧ q.2.idx[p]? = some x.2.pos) t r) ∧
      ((∃ q ∈ t, flat q.1 = true) → subsetRow true flat m t i false = .error .valueError)) := by
  obtain ⟨h1, h2⟩ := items_spec m flat i t
  constructor
  · intro h copy
    simp [subsetRow, h1 h, bind, Except.bind]
  · intro h
    obtain ⟨d, hd, hF⟩ := h2 h
    have e : ∀ s c, subsetRow s flat m t i c = rowArrays s m c d := fun s c => by
      simp [subsetRow, hd, bind, Except.bind]
    refine ⟨?_, ?_, ?_⟩
    · obtain ⟨r, m', hr, hE, hFr, hv⟩ := rowArrays_new strict true d m (sel_alive ha hF) (.inl rfl)
      refine ⟨r, m', by rw [e, hr], hE, hFr, ?_⟩
      have := sel_vals hF
      rw [← hv, List.forall₂_map_right_iff] at this
      exact this
    · intro hv
      obtain ⟨r, hr, hR⟩ := rowArrays_view strict hv hF
      exact ⟨r, by rw [e, hr], hR⟩
    · intro hv
      rw [e]; exact rowArrays_strict hv hF

/-- Row -1 of a two-column table (one 1-D, one M-D column of 2 rows). -/
example : ∃ (r : PyDict Str Cell) (m' : Mem Nat), subsetRow true (fun k => k == ['a'])
    { next := 2, cell := fun b i => 10 * b + i } [(['a'], ⟨0, [0, 1]⟩), (['b'], ⟨1, [3, 4]⟩)] (-1) true = .ok (r, m') ∧
    r.map (fun p => (p.1, readCell m' p.2)) = [(['a'], 1), (['b'], 14)] := ⟨_, _, rfl, rfl⟩

/-- Its copy=False form is refused because of the 1-D column; row 2 does not exist. -/
example : subsetRow true (fun k => k == ['a']) { next := 2, cell := fun b i => 10 * b + i }
    [(['a'], ⟨0, [0, 1]⟩), (['b'], ⟨1, [3, 4]⟩)] (-1) false = .error .valueError ∧
    subsetRow true (fun k => k == ['a']) { next := 2, cell := fun b i => 10 * b + i }
    [(['a'], ⟨0, [0, 1]⟩), (['b'], ⟨1, [3, 4]⟩)] 2 true = .error .indexError := ⟨rfl, rfl⟩

end Pyhipp.TableRow
