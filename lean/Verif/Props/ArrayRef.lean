import Verif.Model.ArrayRef
/-
C119: copies are independent, references are shared.
-/
namespace Pyhipp.ArrayRef
open Pyhipp

/-- Two arrays share memory. -/
def Shares (a b : Arr) : Prop := a.blk = b.blk

/-- A well-formed array of a memory: existing positions of an existing block, each at most once, as many as the shape says. -/
def Valid (m : Mem) (a : Arr) : Prop :=
  a.blk < m.length ∧ (∀ i ∈ a.idx, i < (m.getD a.blk []).length) ∧ a.idx.Nodup ∧ a.idx.length = a.shape.prod

/-- `r` is a new array with the contents `vs` and shape `sh`: it shares memory with no array of `m`, and no array of `m` has changed. -/
def Fresh (m : Mem) (r : Mem × Arr) (vs : List ℝ) (sh : List Nat) : Prop :=
  Valid r.1 r.2 ∧ read r.1 r.2 = vs ∧ r.2.shape = sh ∧ ∀ b, Valid m b → ¬ Shares b r.2 ∧ Valid r.1 b ∧ read r.1 b = read m b

theorem getD_append_left (m : Mem) (x : List ℝ) (k : Nat) (h : k < m.length) : (m ++ [x]).getD k [] = m.getD k [] := by
  simp [List.getD_eq_getElem?_getD, List.getElem?_append_left h]

theorem getD_append_new (m : Mem) (x : List ℝ) : (m ++ [x]).getD m.length [] = x := by
  simp [List.getD_eq_getElem?_getD]

theorem map_range_getD (vs : List ℝ) : (List.range vs.length).map (fun i => vs.getD i 0) = vs := by
  apply List.ext_getElem
  · simp
  · intro i h1 h2
    simp [h2]

theorem alloc_fresh (m : Mem) (vs : List ℝ) (sh : List Nat) (h : vs.length = sh.prod) : Fresh m (alloc m vs sh) vs sh := by
  refine ⟨⟨by simp [alloc], ?_, List.nodup_range, by simpa [alloc] using h⟩, ?_, rfl, ?_⟩
  · intro i hi
    simp only [alloc] at *
    rw [getD_append_new]
    simpa using hi
  · simp only [read, alloc]
    rw [getD_append_new]
    exact map_range_getD vs
  · intro b hb
    have hne : b.blk ≠ m.length := by have := hb.1; omega
    refine ⟨by simpa [Shares, alloc] using hne, ⟨?_, ?_, hb.2.2⟩, ?_⟩
    · simp only [alloc, List.length_append, List.length_singleton]; have := hb.1; omega
    · simp only [alloc]
      rw [getD_append_left m vs _ hb.1]
      exact hb.2.1
    · simp only [read, alloc]
      rw [getD_append_left m vs _ hb.1]

theorem read_length (m : Mem) (a : Arr) : (read m a).length = a.idx.length := by simp [read]

/-- C119: `HasValue(x)`, `Array(x)`, `Array.copied()`, `Array.flatten()` and `Array.sorted()` make new arrays: same contents (in
C order, sorted for `sorted`), no memory shared with any existing array, and every existing array unchanged. -/
theorem C119_copy (strict : Bool) (m : Mem) (a : Arr) (h : Valid m a) :
    (∃ r, hasValue strict m (.arr a) = .ok r ∧ Fresh m r (read m a) a.shape) ∧
    (∃ r, mkArray strict m (.arr a) = .ok r ∧ Fresh m r (read m a) a.shape) ∧
    Fresh m (copied m a) (read m a) a.shape ∧
    Fresh m (flatten m a) (read m a) [a.shape.prod] ∧
    ∃ vs, Fresh m (sorted m a) vs [a.shape.prod] ∧ vs.Perm (read m a) ∧ vs.Pairwise (· ≤ ·) := by
  have hl : (read m a).length = a.shape.prod := by rw [read_length]; exact h.2.2.2
  refine ⟨⟨_, rfl, alloc_fresh m _ _ hl⟩, ⟨_, rfl, alloc_fresh m _ _ hl⟩, alloc_fresh m _ _ hl, ?_, ?_⟩
  · have := alloc_fresh m (read m a) [a.shape.prod] (by simpa using hl)
    simp only [flatten, if_true]
    rw [h.2.2.2]
    exact this
  · have hp : (npSort (read m a)).Perm (read m a) := List.mergeSort_perm _ _
    refine ⟨npSort (read m a), ?_, hp, ?_⟩
    · simp only [sorted]
      have e : (npSort (read m a)).length = a.shape.prod := by rw [hp.length_eq, hl]
      rw [e]
      exact alloc_fresh m _ _ (by simpa using e)
    · have := List.pairwise_mergeSort (le := fun a b : ℝ => decide (a ≤ b))
        (fun a b c h1 h2 => by simp only [decide_eq_true_eq] at *; exact le_trans h1 h2)
        (fun a b => by simp only [Bool.or_eq_true, decide_eq_true_eq]; exact le_total _ _) (read m a)
      exact this.imp (by intro a b h; simpa using h)

/-- C119: data that is no array is copied, or refused under numpy 2 with `copy=False`. -/
theorem C119_sequence (strict copy : Bool) (m : Mem) (l : List ℝ) (x : ℝ) :
    (strict = true → copy = false → npArray strict copy m (.seq l) = .error .valueError ∧ npArray strict copy m (.num x) = .error .valueError) ∧
    (¬ (strict = true ∧ copy = false) → (∃ r, npArray strict copy m (.seq l) = .ok r ∧ Fresh m r l [l.length]) ∧
      ∃ r, npArray strict copy m (.num x) = .ok r ∧ Fresh m r [x] []) := by
  constructor
  · rintro rfl rfl
    exact ⟨rfl, rfl⟩
  · intro h
    have hb : (strict && !copy) = false := by
      cases strict <;> cases copy <;> simp_all
    simp only [npArray, hb]
    exact ⟨⟨_, rfl, alloc_fresh m l _ (by simp)⟩, ⟨_, rfl, alloc_fresh m [x] _ (by simp)⟩⟩

/-- C119: `Array.zeros` and `Array.ones` are new arrays of the given shape. -/
theorem C119_full (m : Mem) (sh : List Nat) (v : ℝ) : Fresh m (full m sh v) (List.replicate sh.prod v) sh :=
  alloc_fresh m _ _ (by simp)

/-- C119: with `copy=False` an array is used itself (`HasValue`, `Array`); `flatten(copy=False)` of a C-contiguous array is a view
of the same elements in the same order, of any other array a new one. -/
theorem C119_reference (strict : Bool) (m : Mem) (a : Arr) (h : Valid m a) :
    hasValue strict m (.arr a) false = .ok (m, a) ∧ mkArray strict m (.arr a) false = .ok (m, a) ∧
    (contiguous a = true → (flatten m a false).1 = m ∧ Shares (flatten m a false).2 a ∧ (flatten m a false).2.idx = a.idx ∧
      (flatten m a false).2.shape = [a.shape.prod]) ∧
    (contiguous a = false → Fresh m (flatten m a false) (read m a) [a.shape.prod]) := by
  refine ⟨rfl, rfl, fun hc => ?_, fun hc => ?_⟩
  · have hlen := h.2.2.2
    simp [flatten, hc, Shares, hlen]
  · simp only [flatten, hc, if_false, Bool.false_eq_true]
    rw [h.2.2.2]
    exact alloc_fresh m _ _ (by rw [read_length]; simpa using h.2.2.2)

/-! ### Assignment -/

theorem store_length (b : List ℝ) (ps : List (Nat × ℝ)) : (store b ps).length = b.length := by
  induction ps generalizing b with
  | nil => rfl
  | cons p t ih => simp [store, ih]

theorem store_other (b : List ℝ) (ps : List (Nat × ℝ)) (i : Nat) (h : ∀ p ∈ ps, p.1 ≠ i) : (store b ps).getD i 0 = b.getD i 0 := by
  induction ps generalizing b with
  | nil => rfl
  | cons p t ih =>
      simp only [store]
      rw [ih _ (fun q hq => h q (by simp [hq]))]
      have := h p (by simp)
      simp [List.getD_eq_getElem?_getD, List.getElem?_set, this]

theorem store_at (b : List ℝ) (ps : List (Nat × ℝ)) (hn : (ps.map (fun p => p.1)).Nodup) (hv : ∀ p ∈ ps, p.1 < b.length)
    (p : Nat × ℝ) (hp : p ∈ ps) : (store b ps).getD p.1 0 = p.2 := by
  induction ps generalizing b with
  | nil => simp at hp
  | cons q t ih =>
      simp only [List.map_cons, List.nodup_cons] at hn
      simp only [store]
      rcases List.mem_cons.mp hp with rfl | hp'
      · rw [store_other _ _ _ (fun r hr e => hn.1 (List.mem_map.mpr ⟨r, hr, e⟩))]
        have := hv p (by simp)
        simp [List.getD_eq_getElem?_getD, this]
      · exact ih _ hn.2 (fun r hr => by simpa using hv r (by simp [hr])) hp'

theorem assign_blk (m : Mem) (a : Arr) (vs : List ℝ) (h : a.blk < m.length) :
    (assign m a vs).getD a.blk [] = store (m.getD a.blk []) (a.idx.zip vs) := by
  simp [assign, List.getD_eq_getElem?_getD, h]

theorem assign_other (m : Mem) (a : Arr) (vs : List ℝ) (k : Nat) (h : k ≠ a.blk) : (assign m a vs).getD k [] = m.getD k [] := by
  simp [assign, List.getD_eq_getElem?_getD, List.getElem?_set, h.symm]

theorem assign_valid (m : Mem) (a b : Arr) (vs : List ℝ) (ha : a.blk < m.length) (hb : Valid m b) : Valid (assign m a vs) b := by
  refine ⟨by simpa [assign] using hb.1, ?_, hb.2.2⟩
  intro i hi
  by_cases e : b.blk = a.blk
  · rw [e, assign_blk m a vs ha, store_length, ← e]
    exact hb.2.1 i hi
  · rw [assign_other m a vs _ e]
    exact hb.2.1 i hi

/-- The values an assignment stores, read before it. -/
def srcVals (m : Mem) (a : Arr) : Like → List ℝ
  | .num v => List.replicate a.idx.length v
  | .seq l => l
  | .arr b => read m b

theorem setValue_eq (m m' : Mem) (a : Arr) (x : Like) (ha : Valid m a) (hx : ∀ b, x = .arr b → Valid m b)
    (h : setValue m a x = .ok m') : m' = assign m a (srcVals m a x) ∧ (srcVals m a x).length = a.idx.length := by
  cases x with
  | num v =>
      simp only [setValue] at h
      refine ⟨?_, by simp [srcVals]⟩
      rw [← Except.ok.inj h]
      simp [srcVals]
  | seq l =>
      simp only [setValue] at h
      split_ifs at h with hs
      refine ⟨(Except.ok.inj h).symm, ?_⟩
      simp only [srcVals]
      rw [ha.2.2.2, hs]
      simp
  | arr b =>
      simp only [setValue] at h
      split_ifs at h with hs
      refine ⟨(Except.ok.inj h).symm, ?_⟩
      simp only [srcVals]
      rw [read_length, (hx b rfl).2.2.2, ha.2.2.2, hs]

theorem assign_elem (m : Mem) (a b : Arr) (vs : List ℝ) (ha : Valid m a) (hl : vs.length = a.idx.length) (hs : Shares b a)
    (k : Nat) (hk : k < b.idx.length) :
    (∀ j, ∀ hj : j < a.idx.length, b.idx[k] = a.idx[j] → (read (assign m a vs) b)[k]? = some (vs[j]'(by omega))) ∧
    (b.idx[k] ∉ a.idx → (read (assign m a vs) b)[k]? = (read m b)[k]?) := by
  unfold Shares at hs
  have hb : (assign m a vs).getD b.blk [] = store (m.getD a.blk []) (a.idx.zip vs) := by rw [hs]; exact assign_blk m a vs ha.1
  have hz : ((a.idx.zip vs).map (fun p => p.1)) = a.idx := by
    have := List.map_fst_zip (l₁ := a.idx) (l₂ := vs) (by omega)
    exact this
  constructor
  · intro j hj e
    simp only [read, hb, List.getElem?_map, List.getElem?_eq_getElem hk, Option.map_some]
    congr 1
    rw [e]
    have hm : (a.idx[j], vs[j]'(by omega)) ∈ a.idx.zip vs := by
      rw [List.mem_iff_getElem]
      exact ⟨j, by simp; omega, by simp⟩
    exact store_at _ _ (by rw [hz]; exact ha.2.2.1) (fun p hp => ha.2.1 _ (List.of_mem_zip hp).1) _ hm
  · intro hn
    simp only [read, hb, List.getElem?_map, List.getElem?_eq_getElem hk, Option.map_some]
    congr 1
    rw [store_other _ _ _ (fun p hp e => hn (by rw [← e]; exact (List.of_mem_zip hp).1)), hs]

/-- C119: after `set_value(x)` the array holds the values `x` had before the call (also when `x` overlaps the array); an array
that shares no memory with it is unchanged; an array that does changes exactly at the elements they have in common. -/
theorem C119_set_value (m m' : Mem) (a : Arr) (x : Like) (ha : Valid m a) (hx : ∀ b, x = .arr b → Valid m b)
    (h : setValue m a x = .ok m') :
    read m' a = srcVals m a x ∧
    ∀ b, Valid m b → Valid m' b ∧ (¬ Shares b a → read m' b = read m b) ∧
      (Shares b a → ∀ k, ∀ hk : k < b.idx.length,
        (∀ j, ∀ hj : j < a.idx.length, b.idx[k] = a.idx[j] → (read m' b)[k]? = (srcVals m a x)[j]?) ∧
        (b.idx[k] ∉ a.idx → (read m' b)[k]? = (read m b)[k]?)) := by
  obtain ⟨rfl, hl⟩ := setValue_eq m m' a x ha hx h
  refine ⟨?_, fun b hb => ⟨assign_valid m a b _ ha.1 hb, fun hs => ?_, fun hs k hk => ?_⟩⟩
  · apply List.ext_getElem?
    intro k
    by_cases hk : k < a.idx.length
    · rw [(assign_elem m a a _ ha hl rfl k hk).1 k hk rfl, List.getElem?_eq_getElem (by omega)]
    · rw [List.getElem?_eq_none (by rw [read_length]; omega), List.getElem?_eq_none (by omega)]
  · simp only [read]
    rw [assign_other m a _ _ hs]
  · refine ⟨fun j hj e => ?_, (assign_elem m a b _ ha hl hs k hk).2⟩
    rw [(assign_elem m a b _ ha hl hs k hk).1 j hj e, List.getElem?_eq_getElem (by omega)]

/-- C119: an assignment of another shape is refused (ValueError) and nothing is changed. -/
theorem C119_set_value_shape (m : Mem) (a b : Arr) (l : List ℝ) :
    (a.shape ≠ b.shape → setValue m a (.arr b) = .error .valueError) ∧
    (a.shape ≠ [l.length] → setValue m a (.seq l) = .error .valueError) := by
  constructor <;> intro h <;> simp [setValue, h]

/-! ### Histories -/

/-- Every array of the program is well formed. -/
def St.OK (s : St) : Prop := ∀ a ∈ s.arrs, Valid s.mem a

/-- The statement assigns to an array that shares memory with `a`. -/
def Touches (s : St) (a : Arr) : Cmd → Prop
  | .setValue i _ => ∃ b, s.arrs[i]? = some b ∧ Shares b a
  | _ => False

/-- Some statement of the program does, at the time it runs. -/
def TouchesRun (a : Arr) : St → List Cmd → Prop
  | _, [] => False
  | s, c :: cs => Touches s a c ∨ TouchesRun a (s.exec c) cs

theorem push_fresh (s : St) (hs : s.OK) (r : Mem × Arr) (vs : List ℝ) (sh : List Nat) (h : Fresh s.mem r vs sh) :
    (s.push r).OK ∧ (∀ b, Valid s.mem b → Valid (s.push r).mem b ∧ read (s.push r).mem b = read s.mem b) ∧
    ∀ (i : Nat) (a : Arr), s.arrs[i]? = some a → (s.push r).arrs[i]? = some a := by
  refine ⟨?_, fun b hb => (h.2.2.2 b hb).2, ?_⟩
  · intro a ha
    rcases List.mem_append.mp ha with h1 | h1
    · exact (h.2.2.2 a (hs a h1)).2.1
    · rw [List.mem_singleton.mp h1]
      exact h.1
  · intro i a hi
    have : i < s.arrs.length := by
      by_contra hc
      rw [List.getElem?_eq_none (by omega)] at hi
      cases hi
    simp only [St.push]
    rw [List.getElem?_append_left this, hi]

theorem push_same (s : St) (hs : s.OK) (a : Arr) (ha : Valid s.mem a) :
    (s.push (s.mem, a)).OK ∧ (∀ b, Valid s.mem b → Valid (s.push (s.mem, a)).mem b ∧ read (s.push (s.mem, a)).mem b = read s.mem b) ∧
    ∀ (i : Nat) (b : Arr), s.arrs[i]? = some b → (s.push (s.mem, a)).arrs[i]? = some b := by
  refine ⟨?_, fun b hb => ⟨hb, rfl⟩, ?_⟩
  · intro b hb
    rcases List.mem_append.mp hb with h1 | h1
    · exact hs b h1
    · rw [List.mem_singleton.mp h1]
      exact ha
  · intro i b hi
    have : i < s.arrs.length := by
      by_contra hc
      rw [List.getElem?_eq_none (by omega)] at hi
      cases hi
    simp only [St.push]
    rw [List.getElem?_append_left this, hi]

/-- One statement keeps the program well formed, and changes an array only by assigning to one it shares memory with. -/
theorem exec_spec (s : St) (hs : s.OK) (c : Cmd) :
    (s.exec c).OK ∧ (∀ a, Valid s.mem a → Valid (s.exec c).mem a ∧ (¬ Touches s a c → read (s.exec c).mem a = read s.mem a)) ∧
    ∀ (i : Nat) (a : Arr), s.arrs[i]? = some a → (s.exec c).arrs[i]? = some a := by
  have lift : ∀ t : St, (t.OK ∧ (∀ b, Valid s.mem b → Valid t.mem b ∧ read t.mem b = read s.mem b) ∧
      ∀ (i : Nat) (a : Arr), s.arrs[i]? = some a → t.arrs[i]? = some a) → t.OK ∧ (∀ a, Valid s.mem a → Valid t.mem a ∧
      (¬ Touches s a c → read t.mem a = read s.mem a)) ∧ ∀ (i : Nat) (a : Arr), s.arrs[i]? = some a → t.arrs[i]? = some a := by
    intro t ht
    exact ⟨ht.1, fun a ha => ⟨(ht.2.1 a ha).1, fun _ => (ht.2.1 a ha).2⟩, ht.2.2⟩
  have same : s.OK ∧ (∀ b, Valid s.mem b → Valid s.mem b ∧ read s.mem b = read s.mem b) ∧ ∀ (i : Nat) (a : Arr), s.arrs[i]? = some a → s.arrs[i]? = some a :=
    ⟨hs, fun b hb => ⟨hb, rfl⟩, fun i a h => h⟩
  have vld : ∀ (i : Nat) (a : Arr), s.arrs[i]? = some a → Valid s.mem a := fun i a h => hs a (List.mem_of_getElem? h)
  cases c with
  | hasValue i copy =>
      apply lift
      simp only [St.exec]
      cases e : s.arrs[i]? with
      | none => exact same
      | some a =>
          cases copy with
          | true => exact push_fresh s hs _ _ _ (alloc_fresh s.mem _ _ (by rw [read_length]; exact (vld i a e).2.2.2))
          | false => exact push_same s hs a (vld i a e)
  | new l => exact lift _ (push_fresh s hs _ _ _ (alloc_fresh s.mem l _ (by simp)))
  | setValue i x =>
      cases e : s.arrs[i]? with
      | none =>
          apply lift
          have : s.exec (.setValue i x) = s := by simp only [St.exec, e]
          rw [this]
          exact same
      | some a =>
          have ha := vld i a e
          simp only [St.exec, e]
          cases hsrc : s.source x with
          | none => exact lift _ same
          | some y =>
              have hy : ∀ b, y = .arr b → Valid s.mem b := by
                rintro b rfl
                cases x with
                | inl j =>
                    simp only [St.source] at hsrc
                    cases e2 : s.arrs[j]? with
                    | none => rw [e2] at hsrc; simp at hsrc
                    | some d =>
                        rw [e2] at hsrc
                        simp only [Option.map_some, Option.some.injEq, Like.arr.injEq] at hsrc
                        subst hsrc
                        exact vld j d e2
                | inr v => simp [St.source] at hsrc
              simp only
              cases e3 : ArrayRef.setValue s.mem a y with
              | error err => exact lift _ same
              | ok m' =>
                  obtain ⟨_, h2⟩ := C119_set_value s.mem m' a y ha hy e3
                  refine ⟨fun b hb => (h2 b (hs b hb)).1, fun b hb => ⟨(h2 b hb).1, fun ht => (h2 b hb).2.1 fun hsh => ?_⟩, fun _ _ h => h⟩
                  exact ht ⟨a, e, hsh.symm⟩
  | copied i =>
      apply lift
      simp only [St.exec]
      cases e : s.arrs[i]? with
      | none => exact same
      | some a => exact push_fresh s hs _ _ _ (C119_copy true s.mem a (vld i a e)).2.2.1
  | flatten i copy =>
      apply lift
      simp only [St.exec]
      cases e : s.arrs[i]? with
      | none => exact same
      | some a =>
          have ha := vld i a e
          cases copy with
          | true => exact push_fresh s hs _ _ _ (C119_copy true s.mem a ha).2.2.2.1
          | false =>
              cases hc : contiguous a with
              | false => exact push_fresh s hs _ _ _ ((C119_reference true s.mem a ha).2.2.2 hc)
              | true =>
                  have : flatten s.mem a false = (s.mem, { a with shape := [a.idx.length] }) := by simp [flatten, hc]
                  simp only [this]
                  exact push_same s hs _ ⟨ha.1, ha.2.1, ha.2.2.1, by simp⟩
  | sorted i =>
      apply lift
      simp only [St.exec]
      cases e : s.arrs[i]? with
      | none => exact same
      | some a =>
          obtain ⟨vs, h, _⟩ := (C119_copy true s.mem a (vld i a e)).2.2.2.2
          exact push_fresh s hs _ _ _ h
  | full sh v => exact lift _ (push_fresh s hs _ _ _ (C119_full s.mem sh v))

/-- C119: in every program, the contents of an array change only by a `set_value` on an array that shares memory with it.  With
`C119_copy`, a copy therefore keeps its contents for ever unless it, or a reference made from it, is assigned to - whatever
happens to the original - and the other way round. -/
theorem C119_history (s : St) (hs : s.OK) (cs : List Cmd) (a : Arr) (ha : Valid s.mem a) :
    (s.run cs).OK ∧ Valid (s.run cs).mem a ∧ (¬ TouchesRun a s cs → read (s.run cs).mem a = read s.mem a) := by
  induction cs generalizing s with
  | nil => exact ⟨hs, ha, fun _ => rfl⟩
  | cons c cs ih =>
      obtain ⟨h1, h2, _⟩ := exec_spec s hs c
      obtain ⟨i1, i2, i3⟩ := ih (s.exec c) h1 (h2 a ha).1
      refine ⟨i1, i2, fun ht => ?_⟩
      simp only [TouchesRun, not_or] at ht
      have := i3 ht.2
      rw [(h2 a ha).2 ht.1] at this
      exact this

/-- C119: two references to the same elements read the same after every program. -/
theorem C119_alias (s : St) (cs : List Cmd) (a b : Arr) (hs : Shares a b) (hi : a.idx = b.idx) :
    read (s.run cs).mem a = read (s.run cs).mem b := by
  unfold Shares at hs
  simp only [read, hs, hi]

/-! ### as_array -/

theorem asArrayLoop_ref (strict : Bool) (m : Mem) (xs : List (Option Arr)) :
    asArrayLoop strict false m (xs.map (fun x => x.map Like.arr)) = .ok (m, xs) := by
  induction xs with
  | nil => rfl
  | cons x t ih =>
      cases x with
      | none => simp [asArrayLoop, asArrayOne, ih, bind, Except.bind, pure, Except.pure]
      | some a => simp [asArrayLoop, asArrayOne, npArray, ih, bind, Except.bind, pure, Except.pure]

/-- One by one equal contents, none where there was none. -/
def SameContents (m m' : Mem) (x y : Option Arr) : Prop :=
  (x = none ∧ y = none) ∨ ∃ a b, x = some a ∧ y = some b ∧ read m' b = read m a ∧ b.shape = a.shape ∧ m.length ≤ b.blk

theorem asArrayLoop_copy (strict : Bool) (m : Mem) (xs : List (Option Arr)) (hv : ∀ a, some a ∈ xs → Valid m a) :
    ∃ m' ys, asArrayLoop strict true m (xs.map (fun x => x.map Like.arr)) = .ok (m', ys) ∧ ys.length = xs.length ∧
      (∀ b, Valid m b → Valid m' b ∧ read m' b = read m b) ∧ m.length ≤ m'.length ∧
      ∀ k, ∀ h : k < xs.length, SameContents m m' (xs[k]) (ys.getD k none) := by
  induction xs generalizing m with
  | nil => exact ⟨m, [], rfl, rfl, fun b hb => ⟨hb, rfl⟩, le_refl _, fun k h => absurd h (by simp)⟩
  | cons x t ih =>
      cases x with
      | none =>
          obtain ⟨m', ys, e, l, p, q, c⟩ := ih m (fun a ha => hv a (by simp [ha]))
          refine ⟨m', none :: ys, by simp [asArrayLoop, asArrayOne, e, bind, Except.bind, pure, Except.pure], by simp [l], p, q, ?_⟩
          intro k hk
          cases k with
          | zero => exact Or.inl ⟨rfl, rfl⟩
          | succ k => simpa using c k (by simpa using hk)
      | some a =>
          have ha := hv a (by simp)
          have hf := alloc_fresh m (read m a) a.shape (by rw [read_length]; exact ha.2.2.2)
          have hml : (alloc m (read m a) a.shape).1.length = m.length + 1 := by simp [alloc]
          obtain ⟨m', ys, e, l, p, q, c⟩ := ih (alloc m (read m a) a.shape).1
            (fun b hb => (hf.2.2.2 b (hv b (by simp [hb]))).2.1)
          refine ⟨m', some (alloc m (read m a) a.shape).2 :: ys, by
            simp [asArrayLoop, asArrayOne, npArray, e, bind, Except.bind, pure, Except.pure], by simp [l], ?_, by omega, ?_⟩
          · intro b hb
            obtain ⟨_, h1, h2⟩ := hf.2.2.2 b hb
            obtain ⟨h3, h4⟩ := p b h1
            exact ⟨h3, by rw [h4, h2]⟩
          · intro k hk
            cases k with
            | zero =>
                refine Or.inr ⟨a, _, rfl, rfl, ?_, rfl, by simp [alloc]⟩
                rw [(p _ hf.1).2]
                exact hf.2.1
            | succ k =>
                have hk' : k < t.length := by simpa using hk
                have := c k hk'
                simp only [List.getElem_cons_succ, List.getD_cons_succ]
                rcases this with ⟨h1, h2⟩ | ⟨a', b', h1, h2, h3, h4, h5⟩
                · exact Or.inl ⟨h1, h2⟩
                · refine Or.inr ⟨a', b', h1, h2, ?_, h4, by omega⟩
                  rw [h3]
                  exact (hf.2.2.2 a' (hv a' (by rw [← h1]; simp))).2.2

/-- C119: `as_array` gives one result per argument, in order (a single one for a single argument, AssertionError for none): None for
None; with `copy=True` new arrays of the same contents, with `copy=False` the arrays themselves. -/
theorem C119_as_array (strict : Bool) (m : Mem) (x : Option Arr) (xs : List (Option Arr)) (h2 : 2 ≤ xs.length)
    (hv : ∀ a, some a ∈ xs → Valid m a) :
    asArray strict true m [] = .error .assertionError ∧
    asArray strict false m [x.map Like.arr] = .ok (m, .inl x) ∧
    asArray strict false m (xs.map (fun x => x.map Like.arr)) = .ok (m, .inr xs) ∧
    ∃ m' ys, asArray strict true m (xs.map (fun x => x.map Like.arr)) = .ok (m', .inr ys) ∧ ys.length = xs.length ∧
      (∀ b, Valid m b → read m' b = read m b) ∧ ∀ k, ∀ h : k < xs.length, SameContents m m' (xs[k]) (ys.getD k none) := by
  have big : ∀ (copy : Bool) (L : List (Option Like)), 2 ≤ L.length → asArray strict copy m L
      = (asArrayLoop strict copy m L).map (fun r => (r.1, .inr r.2)) := by
    intro copy L hL
    match L, hL with
    | a :: b :: t, _ =>
        simp only [asArray, bind, Except.bind]
        cases asArrayLoop strict copy m (a :: b :: t) <;> rfl
  obtain ⟨m', ys, e, l, p, _, c⟩ := asArrayLoop_copy strict m xs hv
  refine ⟨rfl, ?_, ?_, m', ys, ?_, l, fun b hb => (p b hb).2, c⟩
  · cases x <;> rfl
  · rw [big false _ (by simpa using h2), asArrayLoop_ref]
    rfl
  · rw [big true _ (by simpa using h2), e]
    rfl

/-! ### Fields -/

/-- C120: a field is accepted exactly for a cube matching its mesh; it refers to the given data and mesh, and the shape it reports (read
off the mesh) is the shape of its data. -/
theorem C120_field (id : Nat) (a : Arr) (ms : Option Mesh) (f : Field) :
    (mkField id a ms = .ok f → ∃ n, a.shape = [n, n, n] ∧ f.data = a ∧ f.mesh.nGrids = n ∧ f.shape = a.shape ∧
      (∀ x, ms = some x → f.mesh = x) ∧ (ms = none → f.mesh = { id := id, nGrids := n, lBox := 1 })) ∧
    ((∀ n, a.shape = [n, n, n] → ∃ x, ms = some x ∧ x.nGrids ≠ n) → mkField id a ms = .error .assertionError) := by
  constructor
  · intro h
    unfold mkField at h
    split at h
    · rename_i n0 n1 n2 hs
      split_ifs at h with hc
      · obtain ⟨rfl, rfl⟩ := hc
        cases ms with
        | none =>
            have := Except.ok.inj h
            subst this
            exact ⟨n0, hs, rfl, rfl, by simp [Field.shape, hs], by simp, fun _ => rfl⟩
        | some x =>
            simp only at h
            split_ifs at h with hx
            have := Except.ok.inj h
            subst this
            refine ⟨n0, hs, rfl, hx, by simp [Field.shape, hs, hx], ?_, by simp⟩
            intro y hy
            exact Option.some.inj hy
    · cases h
  · intro h
    unfold mkField
    split
    · rename_i n0 n1 n2 hs
      by_cases hc : n0 = n1 ∧ n1 = n2
      · obtain ⟨rfl, rfl⟩ := hc
        obtain ⟨x, rfl, hx⟩ := h n0 hs
        simp [hx]
      · rw [if_neg hc]
    · rfl

/-- C120: `copied()` of a field always succeeds; the copy has new data of the same contents, on the same mesh. -/
theorem C120_copied (m : Mem) (f : Field) (hf : ∃ id a ms, mkField id a ms = .ok f) (hv : Valid m f.data) :
    ∃ r, f.copied m = .ok r ∧ Fresh m (r.1, r.2.data) (read m f.data) f.data.shape ∧ r.2.mesh = f.mesh := by
  obtain ⟨id, a, ms, h⟩ := hf
  obtain ⟨n, h1, h2, h3, _⟩ := (C120_field id a ms f).1 h
  have hs : f.data.shape = [n, n, n] := by rw [h2]; exact h1
  have := alloc_fresh m (read m f.data) f.data.shape (by rw [read_length]; exact hv.2.2.2)
  refine ⟨((alloc m (read m f.data) f.data.shape).1, { data := (alloc m (read m f.data) f.data.shape).2, mesh := f.mesh }), ?_, this, rfl⟩
  simp only [Field.copied, newByData, mkField, alloc, hs, h3, bind, Except.bind, pure, Except.pure]
  simp

/-- C120: `new_zeros` is a new field of zeros on the given mesh. -/
theorem C120_zeros (m : Mem) (ms : Mesh) :
    ∃ r, newZeros m ms = .ok r ∧ r.2.mesh = ms ∧
      Fresh m (r.1, r.2.data) (List.replicate (ms.nGrids ^ 3) 0) [ms.nGrids, ms.nGrids, ms.nGrids] := by
  refine ⟨((full m [ms.nGrids, ms.nGrids, ms.nGrids] 0).1, { data := (full m [ms.nGrids, ms.nGrids, ms.nGrids] 0).2, mesh := ms }), ?_, rfl, ?_⟩
  · simp only [newZeros, newByData, mkField, full, alloc, bind, Except.bind, pure, Except.pure]
    simp
  · have := C119_full m [ms.nGrids, ms.nGrids, ms.nGrids] 0
    have e : [ms.nGrids, ms.nGrids, ms.nGrids].prod = ms.nGrids ^ 3 := by simp; ring
    rw [e] at this
    exact this

/-! A block of four numbers, an array on all of it, its reversed view, and a copy: a write through the view is seen by the array
and not by the copy. -/
def exS : St := { mem := [[1, 2, 3, 4]], arrs := [⟨0, [0, 1, 2, 3], [4]⟩, ⟨0, [3, 2, 1, 0], [4]⟩] }
theorem exS_ok : exS.OK := by
  intro a ha
  simp only [exS, List.mem_cons, List.not_mem_nil, or_false] at ha
  rcases ha with rfl | rfl
  · exact ⟨by decide, by simp [exS], by decide, by decide⟩
  · exact ⟨by decide, by simp [exS], by decide, by decide⟩
example : contiguous ⟨0, [3, 2, 1, 0], [4]⟩ = false ∧ contiguous ⟨0, [0, 1, 2, 3], [4]⟩ = true := by decide
example : read (exS.run [.copied 0, .setValue 0 (.inl 1)]).mem ⟨0, [0, 1, 2, 3], [4]⟩ = [4, 3, 2, 1] ∧
    read (exS.run [.copied 0, .setValue 0 (.inl 1)]).mem ⟨1, [0, 1, 2, 3], [4]⟩ = [1, 2, 3, 4] := by
  constructor <;> simp [St.run, St.exec, St.source, exS, St.push, copied, alloc, read, setValue, assign, store, List.range_succ]
example : ¬ TouchesRun ⟨1, [0, 1, 2, 3], [4]⟩ (exS.exec (.copied 0)) [.setValue 0 (.inl 1), .flatten 1 false] := by
  simp [TouchesRun, Touches, exS, St.exec, St.push, copied, alloc, Shares]

/-- C119: what C-contiguous means: the elements lie at consecutive positions of the buffer. -/
theorem C119_contiguous (a : Arr) :
    contiguous a = true ↔ ∃ s, a.idx = (List.range a.idx.length).map (fun k => s + k) := by
  unfold contiguous
  rw [beq_iff_eq]
  constructor
  · intro h
    exact ⟨_, h⟩
  · rintro ⟨s, h⟩
    cases hi : a.idx with
    | nil => simp
    | cons x t =>
        rw [hi] at h
        have hx : x = s := by
          have := congrArg (fun l => l.headD 0) h
          simpa [List.range_succ_eq_map] using this
        rw [List.headD_cons, hx, ← hx]
        rw [hx]
        rw [hx] at h
        exact h

end Pyhipp.ArrayRef
