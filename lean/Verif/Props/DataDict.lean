import Verif.Model.DataDict
/-
C01-C06, C97: DataDict.
-/
namespace Pyhipp.DataDict
open Pyhipp

local notation "Ref" => Nat

variable {A : Type}

/-! ### Well-formed heaps (every reachable heap is one, see `C04_wf`) -/

structure Heap.WF (h : Heap A) : Prop where
  fresh : ∀ r, h.next ≤ r → h.obj r = none
  keys : ∀ r es, h.obj r = some (.dict es) → es.WF
  inner : ∀ r i, h.obj r = some (.dataDict i) → ∃ es, h.obj i = some (.dict es)

theorem resolve_dict (h : Heap A) (hw : h.WF) (v : Val A) (r : Ref) (hr : resolve h v = .ok r) :
    ∃ es, h.obj r = some (.dict es) := by
  unfold resolve at hr
  split at hr
  · split at hr
    · rename_i es he; cases hr; exact ⟨es, he⟩
    · rename_i i he; cases hr; exact hw.inner _ _ he
    · cases hr
  · cases hr

theorem resolve_put (h : Heap A) (r : Ref) (es : PyDict Str (Val A)) (hr : ∃ es, h.obj r = some (.dict es)) (v : Val A) :
    resolve (h.put r es) v = resolve h v := by
  obtain ⟨es0, h0⟩ := hr
  unfold resolve
  cases v with
  | ref x =>
      simp only [Heap.put]
      by_cases hx : x = r
      · subst hx; simp [h0]
      · simp [hx]
  | _ => rfl

theorem entries_put (h : Heap A) (r x : Ref) (es : PyDict Str (Val A)) :
    (h.put r es).entries x = if x = r then es else h.entries x := by
  unfold Heap.entries Heap.put
  by_cases hx : x = r <;> simp [hx]

theorem WF_put (h : Heap A) (hw : h.WF) (r : Ref) (hr : ∃ es, h.obj r = some (.dict es)) (es : PyDict Str (Val A))
    (he : es.WF) : (h.put r es).WF := by
  obtain ⟨es0, h0⟩ := hr
  refine ⟨?_, ?_, ?_⟩
  · intro x hx
    have hx' : h.obj x = none := hw.fresh x hx
    simp only [Heap.put]
    rw [if_neg]
    · exact hx'
    · rintro rfl; rw [h0] at hx'; cases hx'
  · intro x es' h'
    simp only [Heap.put] at h'
    split at h'
    · cases h'; exact he
    · exact hw.keys x es' h'
  · intro x i h'
    simp only [Heap.put] at h' ⊢
    split at h'
    · cases h'
    · obtain ⟨e, hi⟩ := hw.inner x i h'
      by_cases hir : i = r
      · exact ⟨es, by simp [hir]⟩
      · exact ⟨e, by simp [hir, hi]⟩

theorem WF_entries (h : Heap A) (hw : h.WF) (r : Ref) : (h.entries r).WF := by
  unfold Heap.entries
  split
  · exact hw.keys _ _ (by assumption)
  · exact PyDict.WF_nil

/-! ### The slots a look-up reads -/

/-- Specification: the places (dict object, key) that `v[k0][k1]...` reads, in order, up to and
including the first missing one. -/
def slots (h : Heap A) (v : Val A) : List Str → List (Ref × Str)
  | [] => []
  | k :: ks =>
      match resolve h v with
      | .error _ => []
      | .ok r =>
          (r, k) :: (match (h.entries r).get? k with
            | some x => slots h x ks
            | none => [])

/-- Specification: the sequence of plain keys that a string key stands for. -/
def pathOf (s : Str) : List Str := if '/' ∈ s then Str.comps '/' s else [s]

theorem getStr_eq (h : Heap A) (d : Ref) (s : Str) :
    getStr h d s = if pathOf s = [] then .error .assertionError else walk h (.ref d) (pathOf s) := by
  unfold getStr pathOf splitKey
  by_cases hs : '/' ∈ s
  · simp only [hs, not_true_eq_false, if_false, if_true]
    cases Str.comps '/' s with
    | nil => rfl
    | cons k0 rest =>
        simp only [reduceCtorEq, if_false, walk]
  · simp only [hs, not_false_eq_true, if_true, if_false, List.cons_ne_nil, walk]
    cases step h (.ref d) s <;> rfl

/-- `setStr` in terms of the path. -/
theorem setStr_eq (h : Heap A) (d : Ref) (s : Str) (val : Val A) :
    setStr h d s val = match (pathOf s).getLast? with
      | none => (.error .assertionError, h)
      | some last => match walk h (.ref d) (pathOf s).dropLast with
        | .ok v => store h v last val
        | .error e => (.error e, h) := by
  unfold setStr pathOf splitKey
  by_cases hs : '/' ∈ s
  · simp only [hs, not_true_eq_false, if_false, if_true]
    rfl
  · simp [hs, walk]

theorem delStr_eq (h : Heap A) (d : Ref) (s : Str) :
    delStr h d s = match (pathOf s).getLast? with
      | none => (.error .assertionError, h)
      | some last => match walk h (.ref d) (pathOf s).dropLast with
        | .ok v => remove h v last
        | .error e => (.error e, h) := by
  unfold delStr pathOf splitKey
  by_cases hs : '/' ∈ s
  · simp only [hs, not_true_eq_false, if_false, if_true]
    rfl
  · simp [hs, walk]

/-- Two heaps that differ at most in the contents of one slot. -/
structure AgreeExcept (h h' : Heap A) (r0 : Ref) (k0 : Str) : Prop where
  res : ∀ v, resolve h' v = resolve h v
  get : ∀ r k, (r, k) ≠ (r0, k0) → (h'.entries r).get? k = (h.entries r).get? k

theorem walk_frame {h h' : Heap A} {r0 : Ref} {k0 : Str} (ha : AgreeExcept h h' r0 k0) (v : Val A) (ks : List Str)
    (hn : (r0, k0) ∉ slots h v ks) : walk h' v ks = walk h v ks ∧ slots h' v ks = slots h v ks := by
  induction ks generalizing v with
  | nil => exact ⟨rfl, rfl⟩
  | cons k ks ih =>
      unfold slots at hn
      simp only [walk, step, slots, ha.res, bind, Except.bind]
      cases hr : resolve h v with
      | error e => exact ⟨rfl, rfl⟩
      | ok r =>
          rw [hr] at hn
          simp only [List.mem_cons, not_or] at hn
          simp only [ha.get r k (Ne.symm hn.1)]
          cases hg : (h.entries r).get? k with
          | none => exact ⟨rfl, rfl⟩
          | some x =>
              rw [hg] at hn
              obtain ⟨h1, h2⟩ := ih x hn.2
              simp only [pure, Except.pure, h1, h2, and_self]

theorem walk_append (h : Heap A) (v : Val A) (ks ls : List Str) :
    walk h v (ks ++ ls) = (walk h v ks).bind (fun x => walk h x ls) := by
  induction ks generalizing v with
  | nil => rfl
  | cons k ks ih =>
      simp only [List.cons_append, walk, bind, Except.bind]
      cases step h v k with
      | error e => rfl
      | ok x => exact ih x

theorem dropLast_getLast (ks : List Str) (last : Str) (h : ks.getLast? = some last) : ks = ks.dropLast ++ [last] := by
  have hne : ks ≠ [] := by rintro rfl; simp at h
  rw [List.getLast?_eq_some_getLast hne] at h
  cases h
  exact (List.dropLast_concat_getLast hne).symm

/-- Slots read by the prefix of a path are slots read by the path. -/
theorem slots_prefix (h : Heap A) (v : Val A) (ks ls : List Str) (p : Ref × Str) (hp : p ∈ slots h v ks) :
    p ∈ slots h v (ks ++ ls) := by
  induction ks generalizing v with
  | nil => simp [slots] at hp
  | cons k ks ih =>
      simp only [List.cons_append, slots] at hp ⊢
      cases hr : resolve h v with
      | error e => rw [hr] at hp; simp at hp
      | ok r =>
          rw [hr] at hp
          simp only [List.mem_cons] at hp ⊢
          rcases hp with hp | hp
          · exact Or.inl hp
          · right
            cases hg : (h.entries r).get? k with
            | none => rw [hg] at hp; simp at hp
            | some x => rw [hg] at hp; exact ih x hp

/-- Specification of "no mapping contains itself, directly or indirectly". -/
def Acyclic (h : Heap A) : Prop := ∃ rank : Ref → Nat,
  (∀ r i, h.obj r = some (.dataDict i) → rank i < rank r) ∧
  (∀ r es k x, h.obj r = some (.dict es) → es.get? k = some (.ref x) → rank x < rank r)

theorem resolve_rank (h : Heap A) (rank : Ref → Nat) (h1 : ∀ r i, h.obj r = some (.dataDict i) → rank i < rank r)
    (x r : Ref) (hr : resolve h (.ref x) = .ok r) : rank r ≤ rank x := by
  unfold resolve at hr
  simp only at hr
  split at hr
  · cases hr; exact Nat.le_refl _
  · rename_i i he; cases hr; exact Nat.le_of_lt (h1 _ _ he)
  · cases hr

/-- In an acyclic heap the dict object reached by a walk is not among the slots read on the way. -/
theorem acyclic_slots (h : Heap A) (hw : h.WF) (ha : Acyclic h) (v par : Val A) (ks : List Str) (r : Ref) (k : Str)
    (hwalk : walk h v ks = .ok par) (hr : resolve h par = .ok r) : (r, k) ∉ slots h v ks := by
  obtain ⟨rank, h1, h2⟩ := ha
  have key : ∀ v ks, walk h v ks = .ok par → ∀ p ∈ slots h v ks, rank r < rank p.1 := by
    intro v ks
    induction ks generalizing v with
    | nil => intro _ p hp; simp [slots] at hp
    | cons k ks ih =>
        intro hwk p hp
        simp only [walk, step, bind, Except.bind, slots] at hwk hp
        cases hv : resolve h v with
        | error e => rw [hv] at hp; simp at hp
        | ok r1 =>
            rw [hv] at hp hwk
            simp only at hp hwk
            obtain ⟨es, hes⟩ := resolve_dict h hw v r1 hv
            have hent : h.entries r1 = es := by unfold Heap.entries; rw [hes]
            cases hg : (h.entries r1).get? k with
            | none => rw [hg] at hwk; cases hwk
            | some x =>
                rw [hg] at hwk hp
                simp only [pure, Except.pure] at hwk
                rcases List.mem_cons.mp hp with rfl | hp
                · -- the first slot: r is reached from x
                  show rank r < rank r1
                  cases ks with
                  | nil =>
                      simp only [walk] at hwk
                      cases hwk
                      cases par with
                      | ref y =>
                          have := resolve_rank h rank h1 y r hr
                          have := h2 r1 es k y hes (hent ▸ hg)
                          omega
                      | atom a => simp [resolve] at hr
                      | tup vs => simp [resolve] at hr
                  | cons k2 ks2 =>
                      cases hx : resolve h x with
                      | error e =>
                          simp [walk, step, bind, Except.bind, hx] at hwk
                      | ok rx =>
                          have hlt := ih x hwk (rx, k2) (by simp [slots, hx])
                          cases x with
                          | ref y =>
                              have := resolve_rank h rank h1 y rx hx
                              have := h2 r1 es k y hes (hent ▸ hg)
                              simp only at hlt
                              omega
                          | atom a => simp [resolve] at hx
                          | tup vs => simp [resolve] at hx
                · exact ih x hwk p hp
  intro hmem
  exact absurd (key v ks hwalk (r, k) hmem) (Nat.lt_irrefl _)

/-- The slot that an assignment or deletion through `s` touches. -/
def Touches (h : Heap A) (d : Ref) (s : Str) (r : Ref) (k : Str) : Prop :=
  ∃ par, (pathOf s).getLast? = some k ∧ walk h (.ref d) (pathOf s).dropLast = .ok par ∧ resolve h par = .ok r

theorem setStr_ok (h : Heap A) (hw : h.WF) (d : Ref) (s : Str) (val : Val A) (h' : Heap A)
    (hs : setStr h d s val = (.ok (), h')) :
    ∃ r k, Touches h d s r k ∧ h' = h.put r ((h.entries r).set k val) ∧ (∃ es, h.obj r = some (.dict es)) := by
  rw [setStr_eq] at hs
  cases hl : (pathOf s).getLast? with
  | none => rw [hl] at hs; simp at hs
  | some last =>
      rw [hl] at hs
      simp only at hs
      cases hwk : walk h (.ref d) (pathOf s).dropLast with
      | error e => rw [hwk] at hs; simp at hs
      | ok par =>
          rw [hwk] at hs
          simp only [store] at hs
          cases hr : resolve h par with
          | error e => rw [hr] at hs; simp at hs
          | ok r =>
              rw [hr] at hs
              simp only [Prod.mk.injEq, true_and] at hs
              exact ⟨r, last, ⟨par, hl, hwk, hr⟩, hs.symm, resolve_dict h hw par r hr⟩

theorem delStr_ok (h : Heap A) (hw : h.WF) (d : Ref) (s : Str) (h' : Heap A)
    (hs : delStr h d s = (.ok (), h')) :
    ∃ r k, Touches h d s r k ∧ h' = h.put r ((h.entries r).del k) ∧ (∃ es, h.obj r = some (.dict es)) ∧
      (h.entries r).has k = true := by
  rw [delStr_eq] at hs
  cases hl : (pathOf s).getLast? with
  | none => rw [hl] at hs; simp at hs
  | some last =>
      rw [hl] at hs
      simp only at hs
      cases hwk : walk h (.ref d) (pathOf s).dropLast with
      | error e => rw [hwk] at hs; simp at hs
      | ok par =>
          rw [hwk] at hs
          simp only [remove] at hs
          cases hr : resolve h par with
          | error e => rw [hr] at hs; simp at hs
          | ok r =>
              rw [hr] at hs
              simp only at hs
              split at hs
              · simp only [Prod.mk.injEq, true_and] at hs
                exact ⟨r, last, ⟨par, hl, hwk, hr⟩, hs.symm, resolve_dict h hw par r hr, by assumption⟩
              · simp at hs

theorem agree_set (h : Heap A) (r : Ref) (k : Str) (val : Val A) (hr : ∃ es, h.obj r = some (.dict es)) :
    AgreeExcept h (h.put r ((h.entries r).set k val)) r k := by
  refine ⟨resolve_put h r _ hr, ?_⟩
  intro r' k' hne
  rw [entries_put]
  by_cases e : r' = r
  · subst e
    rw [if_pos rfl, PyDict.get?_set_ne _ _ _ _ (by rintro rfl; exact hne rfl)]
  · rw [if_neg e]

theorem agree_del (h : Heap A) (hw : h.WF) (r : Ref) (k : Str) (hr : ∃ es, h.obj r = some (.dict es)) :
    AgreeExcept h (h.put r ((h.entries r).del k)) r k := by
  refine ⟨resolve_put h r _ hr, ?_⟩
  intro r' k' hne
  rw [entries_put]
  by_cases e : r' = r
  · subst e
    rw [if_pos rfl, PyDict.get?_del _ _ _ (WF_entries h hw _), if_neg (by rintro rfl; exact hne rfl)]
  · rw [if_neg e]

theorem read_last (h h' : Heap A) (d : Ref) (s : Str) (r : Ref) (k : Str) (ht : Touches h d s r k)
    (ha : AgreeExcept h h' r k) (hn : (r, k) ∉ slots h (.ref d) (pathOf s).dropLast) :
    getStr h' d s = match (h'.entries r).get? k with | some x => .ok x | none => .error .keyError := by
  obtain ⟨par, hl, hwk, hr⟩ := ht
  have hp := dropLast_getLast _ _ hl
  have hne : pathOf s ≠ [] := by rintro e; rw [e] at hl; simp at hl
  rw [getStr_eq, if_neg hne, hp, walk_append, (walk_frame ha _ _ hn).1, hwk]
  simp only [Except.bind, walk, step, bind, ha.res, hr]
  cases (h'.entries r).get? k <;> rfl

/-- C01: in a heap without self-containing mappings, after a successful `d[s] = val` the expression
`d[s]` yields `val`, for every key with any number of slashes. -/
theorem C01_get_after_set (h : Heap A) (hw : h.WF) (ha : Acyclic h) (d : Ref) (s : Str) (val : Val A) (h' : Heap A)
    (hs : setStr h d s val = (.ok (), h')) : getStr h' d s = .ok val := by
  obtain ⟨r, k, ht, rfl, hr⟩ := setStr_ok h hw d s val h' hs
  have hn : (r, k) ∉ slots h (.ref d) (pathOf s).dropLast := by
    obtain ⟨par, -, hwk, hrr⟩ := ht
    exact acyclic_slots h hw ha _ _ _ _ _ hwk hrr
  rw [read_last h _ d s r k ht (agree_set h r k val hr) hn, entries_put, if_pos rfl, PyDict.get?_set_self]

/-- C01: after a successful `del d[s]`, `d[s]` raises KeyError. -/
theorem C01_get_after_del (h : Heap A) (hw : h.WF) (ha : Acyclic h) (d : Ref) (s : Str) (h' : Heap A)
    (hs : delStr h d s = (.ok (), h')) : getStr h' d s = .error .keyError := by
  obtain ⟨r, k, ht, rfl, hr, -⟩ := delStr_ok h hw d s h' hs
  have hn : (r, k) ∉ slots h (.ref d) (pathOf s).dropLast := by
    obtain ⟨par, -, hwk, hrr⟩ := ht
    exact acyclic_slots h hw ha _ _ _ _ _ hwk hrr
  rw [read_last h _ d s r k ht (agree_del h hw r k hr) hn, entries_put, if_pos rfl,
    PyDict.get?_del _ _ _ (WF_entries h hw _), if_pos rfl]

/-- C01: a successful assignment or deletion touches one slot, and every look-up - from any DataDict
object, by any key - that does not read that slot has the same outcome as before (value or
error).  In an arbitrary heap, cyclic or not. -/
theorem C01_frame (h : Heap A) (hw : h.WF) (d : Ref) (s : Str) (val : Val A) (h' : Heap A)
    (hs : setStr h d s val = (.ok (), h') ∨ delStr h d s = (.ok (), h')) :
    ∃ r k, Touches h d s r k ∧ ∀ d2 s2, (r, k) ∉ slots h (.ref d2) (pathOf s2) → getStr h' d2 s2 = getStr h d2 s2 := by
  rcases hs with hs | hs
  · obtain ⟨r, k, ht, rfl, hr⟩ := setStr_ok h hw d s val h' hs
    refine ⟨r, k, ht, fun d2 s2 hn => ?_⟩
    rw [getStr_eq, getStr_eq, (walk_frame (agree_set h r k val hr) _ _ hn).1]
  · obtain ⟨r, k, ht, rfl, hr, -⟩ := delStr_ok h hw d s h' hs
    refine ⟨r, k, ht, fun d2 s2 hn => ?_⟩
    rw [getStr_eq, getStr_eq, (walk_frame (agree_del h hw r k hr) _ _ hn).1]

/-- C01: an assignment or deletion through a string key that fails changes nothing. -/
theorem C01_failure_atomic (h : Heap A) (d : Ref) (s : Str) (val : Val A) (e : PyErr) (h' : Heap A)
    (hs : setStr h d s val = (.error e, h') ∨ delStr h d s = (.error e, h')) : h' = h := by
  rcases hs with hs | hs
  · rw [setStr_eq] at hs
    split at hs
    · simp only [Prod.mk.injEq] at hs; exact hs.2.symm
    · split at hs
      · unfold store at hs
        split at hs
        · simp at hs
        · simp only [Prod.mk.injEq] at hs; exact hs.2.symm
      · simp only [Prod.mk.injEq] at hs; exact hs.2.symm
  · rw [delStr_eq] at hs
    split at hs
    · simp only [Prod.mk.injEq] at hs; exact hs.2.symm
    · split at hs
      · unfold remove at hs
        split at hs
        · split at hs
          · simp at hs
          · simp only [Prod.mk.injEq] at hs; exact hs.2.symm
        · simp only [Prod.mk.injEq] at hs; exact hs.2.symm
      · simp only [Prod.mk.injEq] at hs; exact hs.2.symm

/-- C01: an assignment succeeds exactly when the parent path can be looked up and is a mapping; a
deletion needs the key to be present as well. -/
theorem C01_succeeds_iff (h : Heap A) (d : Ref) (s : Str) (val : Val A) :
    ((setStr h d s val).1 = .ok () ↔ ∃ r k, Touches h d s r k) ∧
    ((delStr h d s).1 = .ok () ↔ ∃ r k, Touches h d s r k ∧ k ∈ (h.entries r).keys) := by
  rw [setStr_eq, delStr_eq]
  unfold Touches
  cases hl : (pathOf s).getLast? with
  | none => simp
  | some last =>
      simp only
      cases hwk : walk h (.ref d) (pathOf s).dropLast with
      | error e => simp
      | ok par =>
          simp only [store, remove]
          cases hr : resolve h par with
          | error e => simp [hr]
          | ok r =>
              simp only [true_iff]
              refine ⟨⟨r, last, par, rfl, rfl, hr⟩, ?_⟩
              constructor
              · intro hh
                split at hh
                · rename_i hb
                  exact ⟨r, last, ⟨par, rfl, rfl, hr⟩, (PyDict.has_iff _ _).mp hb⟩
                · simp at hh
              · rintro ⟨r', k', ⟨par', e1, e2, e3⟩, hk⟩
                cases e1; cases e2
                rw [hr] at e3; cases e3
                rw [if_pos ((PyDict.has_iff _ _).mpr hk)]

/-- A small heap used in the examples: `d = DataDict({'a': {'b': 1}, 'c': 2})`; object 0 is the inner
dict of `d`, 1 is `d`, 2 the plain dict `{'b': 1}`. -/
def exHeap : Heap Nat where
  next := 3
  obj := fun r => if r = 0 then some (.dict [("a".toList, .ref 2), ("c".toList, .atom 2)])
    else if r = 1 then some (.dataDict 0)
    else if r = 2 then some (.dict [("b".toList, .atom 1)]) else none

theorem exHeap_WF : exHeap.WF := by
  refine ⟨?_, ?_, ?_⟩
  · intro r hr
    simp only [exHeap] at hr ⊢
    rw [if_neg (by omega), if_neg (by omega), if_neg (by omega)]
  · intro r es he
    simp only [exHeap] at he
    split at he
    · cases he; unfold PyDict.WF; decide
    · split at he
      · cases he
      · split at he
        · cases he; unfold PyDict.WF; decide
        · cases he
  · intro r i he
    simp only [exHeap] at he ⊢
    split at he
    · cases he
    · split at he
      · cases he; exact ⟨_, if_pos rfl⟩
      · split at he <;> cases he

theorem exHeap_acyclic : Acyclic exHeap := by
  refine ⟨fun r => if r = 1 then 2 else if r = 0 then 1 else 0, ?_, ?_⟩
  · intro r i he
    simp only [exHeap] at he
    split at he
    · cases he
    · split at he
      · rename_i h1; cases he; simp [h1]
      · split at he <;> cases he
  · intro r es k x he hg
    simp only [exHeap] at he
    split at he
    · rename_i h0
      cases he
      simp only [PyDict.get?] at hg
      split at hg
      · cases hg; simp [h0]
      · split at hg <;> simp at hg
    · split at he
      · cases he
      · split at he
        · cases he
          simp only [PyDict.get?] at hg
          split at hg <;> simp at hg
        · cases he

/-- The hypotheses of C01 hold for `d['/a//b/'] = 7`, and the new key `a/z`. -/
example : exHeap.WF ∧ Acyclic exHeap ∧ (setStr exHeap 1 "/a//b/".toList (.atom 7)).1 = .ok () ∧
    (setStr exHeap 1 "a/z".toList (.atom 7)).1 = .ok () ∧ (delStr exHeap 1 "a/b".toList).1 = .ok () :=
  ⟨exHeap_WF, exHeap_acyclic, rfl, rfl, rfl⟩

/-- C01 (recorded): without the acyclicity hypothesis read-your-write is false: after `d['a'] = d` the
assignment `d['a/a'] = 5` succeeds, but `d['a/a']` then raises TypeError. -/
theorem C01_cyclic_counterexample : ∃ (h : Heap Nat) (h' : Heap Nat), h.WF ∧
    setStr h 1 "a/a".toList (.atom 5) = (.ok (), h') ∧ getStr h' 1 "a/a".toList = .error .typeError := by
  refine ⟨⟨2, fun r => if r = 0 then some (.dict [("a".toList, .ref 1)]) else if r = 1 then some (.dataDict 0) else none⟩,
    _, ⟨?_, ?_, ?_⟩, rfl, ?_⟩
  · intro r hr
    simp only at hr ⊢
    rw [if_neg (by omega), if_neg (by omega)]
  · intro r es he
    simp only at he
    split at he
    · cases he; unfold PyDict.WF; decide
    · split at he <;> cases he
  · intro r i he
    simp only at he ⊢
    split at he
    · cases he
    · split at he
      · cases he; exact ⟨_, if_pos rfl⟩
      · cases he
  · rfl

/-! ### C02: tuple keys -/

theorem getItems_mapM (h : Heap A) (d : Ref) (ks : List Key) : getItems h d ks = ks.mapM (getItem h d) := by
  induction ks with
  | nil => simp [getItems, pure, Except.pure]
  | cons k ks ih => simp [getItems, ih, List.mapM_cons]

/-- C02: `d[k1, ..., kn]` is the tuple of the `d[ki]`, or the error of the first one that fails; the
components may be tuples again. -/
theorem C02_get (h : Heap A) (d : Ref) (ks : List Key) :
    getItem h d (.tup ks) = (ks.mapM (getItem h d)).map Val.tup := by
  rw [getItem, getItems_mapM]
  cases ks.mapM (getItem h d) <;> rfl

/-- Specification: perform state changes one after another; the first error ends the sequence and keeps
the heap as it is then. -/
def inOrder {γ : Type} (f : Heap A → γ → PyM Unit × Heap A) (h : Heap A) : List γ → PyM Unit × Heap A
  | [] => (.ok (), h)
  | x :: xs =>
      match f h x with
      | (.ok (), h') => inOrder f h' xs
      | (.error e, h') => (.error e, h')

theorem inOrder_append {γ : Type} (f : Heap A → γ → PyM Unit × Heap A) (h : Heap A) (xs ys : List γ) :
    inOrder f h (xs ++ ys) = match inOrder f h xs with
      | (.ok (), h') => inOrder f h' ys
      | (.error e, h') => (.error e, h') := by
  induction xs generalizing h with
  | nil => simp [inOrder]
  | cons x xs ih =>
      simp only [List.cons_append, inOrder]
      rcases f h x with ⟨r, h'⟩
      cases r with
      | ok u => exact ih _
      | error e => rfl

theorem setItems_inOrder (h : Heap A) (d : Ref) (ks : List Key) (vs : List (Val A)) :
    setItems h d ks vs = inOrder (fun h kv => setItem h d kv.1 kv.2) h (ks.zip vs) := by
  induction ks generalizing h vs with
  | nil => cases vs <;> simp [setItems, inOrder]
  | cons k ks ih =>
      cases vs with
      | nil => simp [setItems, inOrder]
      | cons v vs =>
          simp only [setItems, List.zip_cons_cons, inOrder]
          rcases setItem h d k v with ⟨r, h'⟩
          cases r with
          | ok u => exact ih _ _
          | error e => rfl

/-- C02: `d[k1..kn] = (v1..vn)` performs the single assignments from left to right; different lengths
raise AssertionError without any change. -/
theorem C02_set (h : Heap A) (d : Ref) (ks : List Key) (vs : List (Val A)) :
    (ks.length = vs.length → setItem h d (.tup ks) (.tup vs) =
      inOrder (fun h kv => setItem h d kv.1 kv.2) h (ks.zip vs)) ∧
    (ks.length ≠ vs.length → setItem h d (.tup ks) (.tup vs) = (.error .assertionError, h)) := by
  constructor
  · intro hl; rw [setItem, if_pos hl, setItems_inOrder]
  · intro hl; rw [setItem, if_neg hl]

/-- C02: `del d[k1..kn]` deletes from left to right. -/
theorem C02_del (h : Heap A) (d : Ref) (ks : List Key) :
    delItem h d (.tup ks) = inOrder (fun h k => delItem h d k) h ks := by
  rw [delItem]
  induction ks generalizing h with
  | nil => simp [delItems, inOrder]
  | cons k ks ih =>
      simp only [delItems, inOrder]
      rcases delItem h d k with ⟨r, h'⟩
      cases r with
      | ok u => exact ih _
      | error e => rfl

/-- C02: if the keys before `s` are deleted (or assigned) successfully and `s` fails, the whole
operation fails with that error and the earlier changes stay. -/
theorem C02_partial_effect (h : Heap A) (d : Ref) (pre post : List Key) (s : Str) (h1 : Heap A) (e : PyErr)
    (hpre : delItem h d (.tup pre) = (.ok (), h1)) (hs : (delItem h1 d (.str s)).1 = .error e) :
    delItem h d (.tup (pre ++ .str s :: post)) = (.error e, h1) := by
  rw [C02_del] at hpre ⊢
  rw [inOrder_append, hpre]
  simp only [inOrder]
  have : delStr h1 d s = (.error e, (delStr h1 d s).2) := by
    rw [delItem] at hs; rw [← hs]
  rw [delItem, this]
  simp only
  rw [C01_failure_atomic h1 d s (.tup []) e _ (Or.inr this)]

example : getItem exHeap 1 (.tup [.str "a/b".toList, .tup [.str "c".toList]]) = .ok (.tup [.atom 1, .tup [.atom 2]]) := rfl

/-- `del d['c', 'zz', 'a']` removes 'c', fails at 'zz' and keeps 'a'. -/
example : ∃ h1, delItem exHeap 1 (.tup [.str "c".toList]) = (.ok (), h1) ∧ (delItem h1 1 (.str "zz".toList)).1 = .error .keyError ∧
    getItem h1 1 (.str "a/b".toList) = .ok (.atom 1) := ⟨_, rfl, rfl, rfl⟩

/-! ### C03: slash normalisation -/

/-- Specification: `s` is written as the components `cs` separated by runs of slashes, with optional
slashes at both ends. -/
inductive Spells : List Str → Str → Prop
  | slashes (n : Nat) : Spells [] (List.replicate n '/')
  | last (n : Nat) (c : Str) (hc : c ≠ [] ∧ '/' ∉ c) (m : Nat) : Spells [c] (List.replicate n '/' ++ c ++ List.replicate m '/')
  | cons (n : Nat) (c : Str) (hc : c ≠ [] ∧ '/' ∉ c) (cs : List Str) (s : Str) (hs : Spells cs s) :
      Spells (c :: cs) (List.replicate n '/' ++ c ++ '/' :: s)

theorem comps_of_spells (cs : List Str) (s : Str) (h : Spells cs s) : Str.comps '/' s = cs := by
  induction h with
  | slashes n =>
      have := Str.comps_replicate '/' n []
      rw [List.append_nil] at this
      rw [this]; rfl
  | last n c hc m =>
      rw [List.append_assoc, Str.comps_replicate]
      cases m with
      | zero => simp [Str.comps_nosep '/' c hc.2 hc.1]
      | succ m =>
          rw [List.replicate_succ, Str.comps_append_sep, Str.comps_nosep '/' c hc.2 hc.1]
          have := Str.comps_replicate '/' m []
          rw [List.append_nil] at this
          rw [this]; rfl
  | cons n c hc cs s hs ih =>
      rw [List.append_assoc, Str.comps_replicate, Str.comps_append_sep, Str.comps_nosep '/' c hc.2 hc.1, ih]
      rfl

theorem path_of_spells (cs : List Str) (s : Str) (h : Spells cs s) (hok : '/' ∈ s ∨ cs ≠ []) : pathOf s = cs := by
  unfold pathOf
  split
  · exact comps_of_spells cs s h
  · rename_i hs
    cases h with
    | slashes n =>
        rcases hok with h' | h'
        · exact absurd h' hs
        · exact absurd rfl h'
    | last n c hc m =>
        have hn : n = 0 := by
          cases n with
          | zero => rfl
          | succ n => exact absurd (by simp [List.replicate_succ]) hs
        have hm : m = 0 := by
          cases m with
          | zero => rfl
          | succ m => exact absurd (by simp [List.replicate_succ]) hs
        subst hn; subst hm; simp
    | cons n c hc cs s hs' => exact absurd (by simp) hs

/-- C03: two keys with the same components (a plain key counts as one component) are interchangeable in
get, set and del: the results and the resulting heaps are identical. -/
theorem C03_normalise (h : Heap A) (d : Ref) (cs : List Str) (s s' : Str) (hs : Spells cs s) (hs' : Spells cs s')
    (hok : '/' ∈ s ∨ cs ≠ []) (hok' : '/' ∈ s' ∨ cs ≠ []) :
    getStr h d s = getStr h d s' ∧ (∀ val, setStr h d s val = setStr h d s' val) ∧ delStr h d s = delStr h d s' := by
  have e : pathOf s = pathOf s' := by rw [path_of_spells cs s hs hok, path_of_spells cs s' hs' hok']
  refine ⟨?_, ?_, ?_⟩
  · rw [getStr_eq, getStr_eq, e]
  · intro val; rw [setStr_eq, setStr_eq, e]
  · rw [delStr_eq, delStr_eq, e]

/-- C03: a leading and a trailing slash are irrelevant for a plain non-empty key. -/
theorem C03_leading (h : Heap A) (d : Ref) (c : Str) (hc : c ≠ [] ∧ '/' ∉ c) :
    getStr h d ('/' :: c) = getStr h d c ∧ getStr h d (c ++ ['/']) = getStr h d c := by
  have h0 : Spells [c] c := by simpa using Spells.last 0 c hc 0
  have h1 : Spells [c] ('/' :: c) := by simpa using Spells.last 1 c hc 0
  have h2 : Spells [c] (c ++ ['/']) := by simpa using Spells.last 0 c hc 1
  exact ⟨(C03_normalise h d [c] _ _ h1 h0 (by simp) (by simp)).1, (C03_normalise h d [c] _ _ h2 h0 (by simp) (by simp)).1⟩

/-- C03: every string key is a spelling of some components. -/
theorem C03_total (s : Str) : Spells (Str.comps '/' s) s := by
  have key : ∀ n (s : Str), s.length ≤ n → ∃ cs, Spells cs s := by
    intro n
    induction n with
    | zero =>
        intro s hs
        have : s = [] := List.length_eq_zero_iff.mp (by omega)
        subst this
        exact ⟨[], Spells.slashes 0⟩
    | succ n ih =>
        intro s hs
        -- leading slashes
        cases s with
        | nil => exact ⟨[], Spells.slashes 0⟩
        | cons c t =>
            by_cases hc : c = '/'
            · subst hc
              obtain ⟨cs, h⟩ := ih t (by simp at hs; omega)
              cases h with
              | slashes m => exact ⟨[], Spells.slashes (m + 1)⟩
              | last m c hc k => exact ⟨[c], by simpa [List.replicate_succ] using Spells.last (m + 1) c hc k⟩
              | cons m c hc cs s hs' => exact ⟨c :: cs, by simpa [List.replicate_succ] using Spells.cons (m + 1) c hc cs s hs'⟩
            · obtain ⟨cs, h⟩ := ih t (by simp at hs; omega)
              cases h with
              | slashes m =>
                  exact ⟨[[c]], by simpa using Spells.last 0 [c] ⟨by simp, by simpa using Ne.symm hc⟩ m⟩
              | last m c' hc' k =>
                  cases m with
                  | zero =>
                      have := Spells.last 0 (c :: c') ⟨by simp, by
                        simp only [List.mem_cons, not_or]; exact ⟨Ne.symm hc, hc'.2⟩⟩ k
                      exact ⟨[c :: c'], by simpa using this⟩
                  | succ m =>
                      have := Spells.cons 0 [c] ⟨by simp, by simpa using Ne.symm hc⟩ _ _ (Spells.last m c' hc' k)
                      exact ⟨_, by simpa [List.replicate_succ] using this⟩
              | cons m c' hc' cs s hs' =>
                  cases m with
                  | zero =>
                      have := Spells.cons 0 (c :: c') ⟨by simp, by
                        simp only [List.mem_cons, not_or]; exact ⟨Ne.symm hc, hc'.2⟩⟩ cs s hs'
                      exact ⟨_, by simpa using this⟩
                  | succ m =>
                      have := Spells.cons 0 [c] ⟨by simp, by simpa using Ne.symm hc⟩ _ _ (Spells.cons m c' hc' cs s hs')
                      exact ⟨_, by simpa [List.replicate_succ] using this⟩
  obtain ⟨cs, h⟩ := key s.length s (Nat.le_refl _)
  rw [comps_of_spells cs s h]
  exact h

/-- C03: a key consisting of one or more slashes raises AssertionError in get, set and del, and changes nothing. -/
theorem C03_only_slashes (h : Heap A) (d : Ref) (n : Nat) (val : Val A) :
    getStr h d (List.replicate (n + 1) '/') = .error .assertionError ∧
    setStr h d (List.replicate (n + 1) '/') val = (.error .assertionError, h) ∧
    delStr h d (List.replicate (n + 1) '/') = (.error .assertionError, h) := by
  have e : pathOf (List.replicate (n + 1) '/') = [] :=
    path_of_spells [] _ (Spells.slashes _) (Or.inl (by simp [List.replicate_succ]))
  rw [getStr_eq, setStr_eq, delStr_eq, e]
  simp

example : Spells ["a".toList, "b".toList] "//a///b/".toList ∧ Spells ["a".toList, "b".toList] "a/b".toList :=
  ⟨C03_total "//a///b/".toList, C03_total "a/b".toList⟩

/-! ### Well-formedness is preserved -/

theorem WF_store (h : Heap A) (hw : h.WF) (v : Val A) (k : Str) (val : Val A) : (store h v k val).2.WF := by
  unfold store
  split
  · rename_i r hr
    exact WF_put h hw r (resolve_dict h hw v r hr) _ (PyDict.WF_set _ _ _ (WF_entries h hw r))
  · exact hw

theorem WF_remove (h : Heap A) (hw : h.WF) (v : Val A) (k : Str) : (remove h v k).2.WF := by
  unfold remove
  split
  · rename_i r hr
    split
    · exact WF_put h hw r (resolve_dict h hw v r hr) _ (PyDict.WF_del _ _ (WF_entries h hw r))
    · exact hw
  · exact hw

theorem WF_setStr (h : Heap A) (hw : h.WF) (d : Ref) (s : Str) (val : Val A) : (setStr h d s val).2.WF := by
  rw [setStr_eq]
  split
  · exact hw
  · split
    · exact WF_store h hw _ _ _
    · exact hw

theorem WF_delStr (h : Heap A) (hw : h.WF) (d : Ref) (s : Str) : (delStr h d s).2.WF := by
  rw [delStr_eq]
  split
  · exact hw
  · split
    · exact WF_remove h hw _ _
    · exact hw

mutual
theorem WF_setItem (d : Ref) : ∀ (k : Key) (h : Heap A) (val : Val A), h.WF → (setItem h d k val).2.WF
  | .str s, h, val, hw => by rw [setItem]; exact WF_setStr h hw d s val
  | .tup ks, h, .tup vs, hw => by
      rw [setItem]
      split
      · exact WF_setItems d ks h vs hw
      · exact hw
  | .tup ks, h, .atom a, hw => by rw [setItem]; exact hw; simp
  | .tup ks, h, .ref r, hw => by rw [setItem]; exact hw; simp
theorem WF_setItems (d : Ref) : ∀ (ks : List Key) (h : Heap A) (vs : List (Val A)), h.WF → (setItems h d ks vs).2.WF
  | [], h, vs, hw => by cases vs <;> simpa [setItems] using hw
  | k :: ks, h, [], hw => by simpa [setItems] using hw
  | k :: ks, h, v :: vs, hw => by
      have h1 := WF_setItem d k h v hw
      rw [setItems]
      split
      · rename_i h' he; rw [he] at h1; exact WF_setItems d ks h' vs h1
      · rename_i e h' he; rw [he] at h1; exact h1
end

mutual
theorem WF_delItem (d : Ref) : ∀ (k : Key) (h : Heap A), h.WF → (delItem h d k).2.WF
  | .str s, h, hw => by rw [delItem]; exact WF_delStr h hw d s
  | .tup ks, h, hw => by rw [delItem]; exact WF_delItems d ks h hw
theorem WF_delItems (d : Ref) : ∀ (ks : List Key) (h : Heap A), h.WF → (delItems h d ks).2.WF
  | [], h, hw => by simpa [delItems] using hw
  | k :: ks, h, hw => by
      have h1 := WF_delItem d k h hw
      rw [delItems]
      split
      · rename_i h' he; rw [he] at h1; exact WF_delItems d ks h' h1
      · rename_i e h' he; rw [he] at h1; exact h1
end

theorem WF_alloc_dict (h : Heap A) (hw : h.WF) (es : PyDict Str (Val A)) (he : es.WF) : (h.alloc (.dict es)).2.WF := by
  refine ⟨?_, ?_, ?_⟩
  · intro r hr
    simp only [Heap.alloc] at hr ⊢
    rw [if_neg (by omega)]; exact hw.fresh r (by omega)
  · intro r es' h'
    simp only [Heap.alloc] at h'
    split at h'
    · cases h'; exact he
    · exact hw.keys r es' h'
  · intro r i h'
    simp only [Heap.alloc] at h' ⊢
    split at h'
    · cases h'
    · obtain ⟨e, hi⟩ := hw.inner r i h'
      refine ⟨e, ?_⟩
      rw [if_neg, hi]
      rintro rfl
      rw [hw.fresh _ (Nat.le_refl _)] at hi; cases hi

theorem WF_alloc_dd (h : Heap A) (hw : h.WF) (i : Ref) (hi : ∃ es, h.obj i = some (.dict es)) : (h.alloc (.dataDict i)).2.WF := by
  have hlt : i ≠ h.next := by
    rintro rfl
    obtain ⟨es, hi⟩ := hi
    rw [hw.fresh _ (Nat.le_refl _)] at hi; cases hi
  refine ⟨?_, ?_, ?_⟩
  · intro r hr
    simp only [Heap.alloc] at hr ⊢
    rw [if_neg (by omega)]; exact hw.fresh r (by omega)
  · intro r es' h'
    simp only [Heap.alloc] at h'
    split at h'
    · cases h'
    · exact hw.keys r es' h'
  · intro r j h'
    simp only [Heap.alloc] at h' ⊢
    split at h'
    · cases h'
      obtain ⟨es, hi⟩ := hi
      exact ⟨es, by rw [if_neg hlt]; exact hi⟩
    · obtain ⟨e, hj⟩ := hw.inner r j h'
      refine ⟨e, ?_⟩
      rw [if_neg, hj]
      rintro rfl
      rw [hw.fresh _ (Nat.le_refl _)] at hj; cases hj

/-- A freshly built DataDict with entries `es`: what the heap looks like. -/
def newHeap (h : Heap A) (es : PyDict Str (Val A)) : Heap A where
  next := h.next + 2
  obj := fun x => if x = h.next + 1 then some (.dataDict h.next) else if x = h.next then some (.dict es) else h.obj x

theorem new_some (h : Heap A) (v : Val A) (es : PyDict Str (Val A)) (he : items? h v = some es) :
    new h (some v) = (.ok (h.next + 1), newHeap h es) := by
  simp only [new, he, Heap.alloc, newHeap]
  rfl

theorem new_none (h : Heap A) : new h none = (.ok (h.next + 1), newHeap h []) := by
  simp only [new, Heap.alloc, newHeap]
  rfl

theorem WF_newHeap (h : Heap A) (hw : h.WF) (es : PyDict Str (Val A)) (he : es.WF) : (newHeap h es).WF := by
  have h1 := WF_alloc_dict h hw es he
  have h2 := WF_alloc_dd _ h1 h.next ⟨es, by simp [Heap.alloc]⟩
  exact h2

theorem items?_WF (h : Heap A) (hw : h.WF) (v : Val A) (es : PyDict Str (Val A)) (he : items? h v = some es) : es.WF := by
  unfold items? at he
  split at he
  · cases he; exact WF_entries h hw _
  · cases he

theorem WF_new (h : Heap A) (hw : h.WF) (src : Option (Val A)) : (new h src).2.WF := by
  cases src with
  | none => rw [new_none]; exact WF_newHeap h hw [] PyDict.WF_nil
  | some v =>
      cases he : items? h v with
      | none => simpa [new, he] using hw
      | some es => rw [new_some h v es he]; exact WF_newHeap h hw es (items?_WF h hw v es he)

theorem WF_update (h : Heap A) (hw : h.WF) (d : Ref) (other : Val A) : (update h d other).2.WF := by
  unfold update
  split
  · exact hw
  · split
    · rename_i r hr
      exact WF_put h hw r (resolve_dict h hw _ r hr) _ (PyDict.WF_update _ _ (WF_entries h hw r))
    · exact hw

theorem WF_clear (h : Heap A) (hw : h.WF) (d : Ref) : (clear h d).2.WF := by
  unfold clear
  split
  · rename_i r hr
    exact WF_put h hw r (resolve_dict h hw _ r hr) _ PyDict.WF_nil
  · exact hw

/-- C04: every operation keeps the heap well formed: dictionaries never hold a key twice and a
DataDict always owns a dict (starting from the empty heap, whatever the history). -/
theorem C04_wf (h : Heap A) (hw : h.WF) (d : Ref) (k : Key) (val : Val A) (src : Option (Val A)) :
    (setItem h d k val).2.WF ∧ (delItem h d k).2.WF ∧ (new h src).2.WF ∧ (update h d val).2.WF ∧ (clear h d).2.WF ∧
    (copy h d).2.WF ∧ (ior h d val).2.WF ∧ (or h d val).2.WF ∧ (pop h d k).2.WF ∧ (setdefault h d k val).2.WF := by
  have hior : ∀ (h : Heap A) (d : Ref), h.WF → (ior h d val).2.WF := by
    intro h d hw
    have := WF_update h hw d val
    unfold ior
    split <;> (rename_i he; rw [he] at this; exact this)
  have hcopy : (copy h d).2.WF := by
    unfold copy
    split
    · exact WF_new h hw _
    · exact hw
  refine ⟨WF_setItem d k h val hw, WF_delItem d k h hw, WF_new h hw src, WF_update h hw d val, WF_clear h hw d,
    hcopy, hior h d hw, ?_, ?_, ?_⟩
  · unfold or
    split
    · rename_i c h' he; rw [he] at hcopy; exact hior h' c hcopy
    · rename_i he; rw [he] at hcopy; exact hcopy
  · unfold pop
    split
    · exact hw
    · have := WF_delItem d k h hw
      split <;> (rename_i he; rw [he] at this; exact this)
  · unfold setdefault
    split
    · exact hw
    · have := WF_setItem d k h val hw
      split <;> (rename_i he; rw [he] at this; exact this)
    · exact hw

/-- The empty heap is well formed. -/
example : (⟨0, fun _ => none⟩ : Heap Nat).WF := 
  ⟨fun _ _ => rfl, (by intro _ _ h; cases h), (by intro _ _ h; cases h)⟩

/-! ### C04: a DataDict is an insertion-ordered map -/

/-- One operation with plain keys on a fixed DataDict. -/
inductive Op (A : Type) where
  | set (k : Str) (v : Val A)
  | del (k : Str)
  | update (other : Val A)
  | clear

/-- Keys of an operation contain no slash. -/
def Op.Plain : Op A → Prop
  | .set k _ => '/' ∉ k
  | .del k => '/' ∉ k
  | _ => True

/-- Run an operation through the API. -/
def Op.run (d : Ref) (h : Heap A) : Op A → PyM Unit × Heap A
  | .set k v => setItem h d (.str k) v
  | .del k => delItem h d (.str k)
  | .update o => DataDict.update h d o
  | .clear => DataDict.clear h d

/-- Run a history, ignoring exceptions (each is caught by the caller). -/
def runAll (d : Ref) (h : Heap A) : List (Op A) → Heap A
  | [] => h
  | op :: ops => runAll d (op.run d h).2 ops

/-- Specification: the abstract state: the keys in order and a total function. -/
structure Abs (A : Type) where
  order : List Str
  val : Str → Option (Val A)

def Abs.set (s : Abs A) (k : Str) (v : Val A) : Abs A where
  order := if (s.val k).isSome then s.order else s.order ++ [k]
  val := fun x => if x = k then some v else s.val x

def Abs.del (s : Abs A) (k : Str) : Abs A where
  order := s.order.filter (fun x => decide (x ≠ k))
  val := fun x => if x = k then none else s.val x

/-- Specification of a history on the abstract map.  `mapping h` gives the items of a mapping argument
(or none if the argument is not a mapping); arguments are read when the operation runs, so the heap is
threaded through. -/
def Abs.step (d : Ref) (h : Heap A) (s : Abs A) : Op A → Abs A
  | .set k v => s.set k v
  | .del k => s.del k
  | .update o => ((items? h o).getD []).foldl (fun s kv => s.set kv.1 kv.2) s
  | .clear => ⟨[], fun _ => none⟩

def Abs.run (d : Ref) (h : Heap A) (s : Abs A) : List (Op A) → Abs A
  | [] => s
  | op :: ops => Abs.run d (op.run d h).2 (s.step d h op) ops

/-- What the API shows of the DataDict `d`. -/
structure Shows (h : Heap A) (d : Ref) (s : Abs A) : Prop where
  order : (items h d).keys = s.order
  nodup : s.order.Nodup
  get : ∀ k, '/' ∉ k → getItem h d (.str k) = match s.val k with | some v => .ok v | none => .error .keyError
  lookup : ∀ k, (items h d).get? k = s.val k
  contains : ∀ k, contains h d k = (s.val k).isSome
  iter : ∀ k, k ∈ s.order ↔ (s.val k).isSome

/-- `d` is a DataDict object. -/
def IsDD (h : Heap A) (d : Ref) : Prop := ∃ i, h.obj d = some (.dataDict i)

theorem isDD_resolve (h : Heap A) (hw : h.WF) (d i : Ref) (hi : h.obj d = some (.dataDict i)) :
    resolve h (.ref d) = .ok i := by
  simp [resolve, hi]

theorem items_eq (h : Heap A) (d i : Ref) (hi : h.obj d = some (.dataDict i)) : items h d = h.entries i := by
  simp [items, items?, resolve, hi]

/-- The state that a well-formed DataDict shows. -/
def absOf (h : Heap A) (d : Ref) : Abs A := ⟨(items h d).keys, (items h d).get?⟩

theorem shows_abs (h : Heap A) (hw : h.WF) (d : Ref) (hd : IsDD h d) : Shows h d (absOf h d) := by
  obtain ⟨i, hi⟩ := hd
  have hres := isDD_resolve h hw d i hi
  have hit := items_eq h d i hi
  refine ⟨rfl, ?_, ?_, fun _ => rfl, fun _ => rfl, ?_⟩
  · show (items h d).keys.Nodup
    rw [hit]; exact WF_entries h hw i
  · intro k hk
    rw [getItem, getStr_eq]
    simp only [pathOf, hk, if_false, List.cons_ne_nil, walk, step, hres, bind, Except.bind, absOf, hit]
    cases (h.entries i).get? k <;> rfl
  · intro k
    exact (PyDict.get?_isSome_iff _ _).symm

theorem set_abs (es : PyDict Str (Val A)) (k : Str) (v : Val A) :
    (⟨(es.set k v).keys, (es.set k v).get?⟩ : Abs A) = (⟨es.keys, es.get?⟩ : Abs A).set k v := by
  unfold Abs.set
  simp only [Abs.mk.injEq]
  constructor
  · by_cases hk : k ∈ es.keys
    · rw [PyDict.keys_set_of_mem _ _ _ hk, if_pos ((PyDict.get?_isSome_iff _ _).mpr hk)]
    · rw [PyDict.keys_set_of_not_mem _ _ _ hk, if_neg (fun h => hk ((PyDict.get?_isSome_iff _ _).mp h))]
  · funext x
    rw [PyDict.get?_set]

theorem update_abs (es m : PyDict Str (Val A)) :
    (⟨(es.update m).keys, (es.update m).get?⟩ : Abs A) =
      m.foldl (fun s kv => s.set kv.1 kv.2) (⟨es.keys, es.get?⟩ : Abs A) := by
  unfold PyDict.update
  induction m generalizing es with
  | nil => rfl
  | cons p t ih => simp only [List.foldl_cons]; rw [ih, set_abs]

theorem put_isDD (h : Heap A) (r : Ref) (es : PyDict Str (Val A)) (hr : ∃ es, h.obj r = some (.dict es)) (d i : Ref)
    (hd : h.obj d = some (.dataDict i)) : (h.put r es).obj d = some (.dataDict i) := by
  simp only [Heap.put]
  rw [if_neg, hd]
  rintro rfl
  obtain ⟨_, hr⟩ := hr
  rw [hd] at hr; cases hr

theorem step_abs (h : Heap A) (hw : h.WF) (d i : Ref) (hd : h.obj d = some (.dataDict i)) (op : Op A) (hp : op.Plain) :
    (op.run d h).2.obj d = some (.dataDict i) ∧ absOf (op.run d h).2 d = (absOf h d).step d h op := by
  have hres := isDD_resolve h hw d i hd
  have hit := items_eq h d i hd
  have hdict := resolve_dict h hw _ _ hres
  have hput : ∀ es, absOf (h.put i es) d = ⟨es.keys, es.get?⟩ := by
    intro es
    unfold absOf
    rw [items_eq _ d i (put_isDD h i es hdict d i hd), entries_put, if_pos rfl]
  have habs : absOf h d = ⟨(h.entries i).keys, (h.entries i).get?⟩ := by unfold absOf; rw [hit]
  cases op with
  | set k v =>
      simp only [Op.run, setItem, setStr, Op.Plain] at hp ⊢
      simp only [hp, not_false_eq_true, if_true, store, hres]
      exact ⟨put_isDD h i _ hdict d i hd, by rw [hput, set_abs, ← habs]; rfl⟩
  | del k =>
      simp only [Op.run, delItem, delStr, Op.Plain] at hp ⊢
      simp only [hp, not_false_eq_true, if_true, remove, hres]
      split
      · refine ⟨put_isDD h i _ hdict d i hd, ?_⟩
        rw [hput, habs]
        simp only [Abs.step, Abs.del, Abs.mk.injEq]
        exact ⟨PyDict.keys_del _ _ (WF_entries h hw i), funext fun x => PyDict.get?_del _ _ _ (WF_entries h hw i)⟩
      · rename_i hh
        refine ⟨hd, ?_⟩
        rw [habs]
        simp only [Abs.step, Abs.del, Abs.mk.injEq]
        have hk : k ∉ (h.entries i).keys := fun hk => hh ((PyDict.has_iff _ _).mpr hk)
        constructor
        · symm
          rw [List.filter_eq_self]
          intro x hx
          simp only [ne_eq, decide_not, Bool.not_eq_true', decide_eq_false_iff_not]
          rintro rfl; exact hk hx
        · funext x
          split
          · rename_i e; subst e; exact (PyDict.get?_eq_none_iff _ _).mpr hk
          · rfl
  | update o =>
      simp only [Op.run, DataDict.update, Abs.step]
      cases ho : items? h o with
      | none => exact ⟨hd, rfl⟩
      | some m =>
          simp only [hres, Option.getD_some]
          exact ⟨put_isDD h i _ hdict d i hd, by rw [hput, update_abs, ← habs]⟩
  | clear =>
      simp only [Op.run, DataDict.clear, hres]
      exact ⟨put_isDD h i _ hdict d i hd, by rw [hput]; rfl⟩

theorem run_WF (h : Heap A) (hw : h.WF) (d : Ref) (op : Op A) : (op.run d h).2.WF := by
  cases op with
  | set k v => exact WF_setItem d _ h v hw
  | del k => exact WF_delItem d _ h hw
  | update o => exact WF_update h hw d o
  | clear => exact WF_clear h hw d

/-- C04: after any history of assignments, deletions, updates and clears with plain keys (failing
operations included), look-up, `in`, iteration order and length of the DataDict are those of the
abstract insertion-ordered map that went through the same history. -/
theorem C04_history (ops : List (Op A)) (h : Heap A) (hw : h.WF) (d : Ref) (hd : IsDD h d)
    (hp : ∀ op ∈ ops, op.Plain) (s : Abs A) (hs : Shows h d s) :
    Shows (runAll d h ops) d (Abs.run d h s ops) := by
  have hs' : s = absOf h d := by
    obtain ⟨o, v⟩ := s
    unfold absOf
    rw [Abs.mk.injEq]
    exact ⟨hs.order.symm, (funext hs.lookup).symm⟩
  subst hs'
  clear hs
  induction ops generalizing h with
  | nil => exact shows_abs h hw d hd
  | cons op ops ih =>
      obtain ⟨i, hi⟩ := hd
      obtain ⟨h1, h2⟩ := step_abs h hw d i hi op (hp op (by simp))
      simp only [runAll, Abs.run]
      rw [← h2]
      exact ih _ (run_WF h hw d op) ⟨i, h1⟩ (fun o ho => hp o (by simp [ho]))

/-- C04: which operations raise: deleting an absent key (KeyError), updating from a non-mapping
(AssertionError); nothing else, and a failing operation changes nothing. -/
theorem C04_errors (h : Heap A) (hw : h.WF) (d : Ref) (hd : IsDD h d) (k : Str) (hk : '/' ∉ k) (v : Val A) :
    (Op.run d h (.set k v)).1 = .ok () ∧
    (Op.run d h (.del k)).1 = (if contains h d k then .ok () else .error .keyError) ∧
    (Op.run d h (.update v)).1 = (if (items? h v).isSome then .ok () else .error .assertionError) ∧
    (Op.run d h .clear).1 = .ok () ∧
    (∀ op : Op A, (op.run d h).1 ≠ .ok () → op.Plain → (op.run d h).2 = h) := by
  obtain ⟨i, hi⟩ := hd
  have hres := isDD_resolve h hw d i hi
  have hit := items_eq h d i hi
  refine ⟨?_, ?_, ?_, ?_, ?_⟩
  · simp [Op.run, setItem, setStr, hk, store, hres]
  · simp only [Op.run, delItem, delStr, hk, not_false_eq_true, if_true, remove, hres, contains, hit]
    split <;> rfl
  · simp only [Op.run, update]
    cases items? h v <;> simp [hres]
  · simp [Op.run, clear, hres]
  · intro op hne hpl
    cases op with
    | set k v => simp only [Op.Plain] at hpl; simp [Op.run, setItem, setStr, hpl, store, hres] at hne
    | del k =>
        simp only [Op.Plain] at hpl
        simp only [Op.run, delItem, delStr, hpl, not_false_eq_true, if_true, remove, hres] at hne ⊢
        split
        · rename_i hh; rw [if_pos hh] at hne; exact absurd rfl hne
        · rfl
    | update o =>
        simp only [Op.run, update] at hne ⊢
        cases ho : items? h o with
        | none => rfl
        | some m => simp [ho, hres] at hne
    | clear => simp [Op.run, clear, hres] at hne

/-- A non-trivial history: re-assignment keeps the position, a deleted key goes to the end. -/
example : (items (runAll 1 exHeap [.set "z".toList (.atom 3), .set "a".toList (.atom 4), .del "c".toList,
    .set "c".toList (.atom 5), .del "nope".toList]) 1).keys = ["a".toList, "z".toList, "c".toList] := by decide

/-! ### C05: copies and unions -/

/-- An operation through plain keys on `x` changes only the dict object owned by `x`. -/
theorem run_only_inner (h : Heap A) (hw : h.WF) (x i : Ref) (hx : h.obj x = some (.dataDict i)) (op : Op A) (hp : op.Plain)
    (r : Ref) (hr : r ≠ i) : (op.run x h).2.obj r = h.obj r := by
  have hres := isDD_resolve h hw x i hx
  have hput : ∀ es, (h.put i es).obj r = h.obj r := by intro es; simp [Heap.put, hr]
  cases op with
  | set k v =>
      simp only [Op.Plain] at hp
      simp only [Op.run, setItem, setStr, hp, not_false_eq_true, if_true, store, hres, hput]
  | del k =>
      simp only [Op.Plain] at hp
      simp only [Op.run, delItem, delStr, hp, not_false_eq_true, if_true, remove, hres]
      split
      · exact hput _
      · rfl
  | update o =>
      simp only [Op.run, DataDict.update]
      cases items? h o with
      | none => rfl
      | some m => simp only [hres, hput]
  | clear => simp only [Op.run, DataDict.clear, hres, hput]

theorem runAll_only_inner (ops : List (Op A)) (h : Heap A) (hw : h.WF) (x i : Ref) (hx : h.obj x = some (.dataDict i))
    (hp : ∀ op ∈ ops, op.Plain) (r : Ref) (hr : r ≠ i) : (runAll x h ops).obj r = h.obj r := by
  induction ops generalizing h with
  | nil => rfl
  | cons op ops ih =>
      simp only [runAll]
      rw [ih _ (run_WF h hw x op) ((step_abs h hw x i hx op (hp op (by simp))).1) (fun o ho => hp o (by simp [ho]))]
      exact run_only_inner h hw x i hx op (hp op (by simp)) r hr

theorem copy_eq (h : Heap A) (hw : h.WF) (d : Ref) (hd : IsDD h d) :
    copy h d = (.ok (h.next + 1), newHeap h (items h d)) := by
  obtain ⟨i, hi⟩ := hd
  obtain ⟨es, hes⟩ := hw.inner d i hi
  have hres : resolve h (.ref i) = .ok i := by simp [resolve, hes]
  simp only [copy, isDD_resolve h hw d i hi]
  rw [new_some h (.ref i) (h.entries i) (by simp [items?, hres]), items_eq h d i hi]

theorem newHeap_old (h : Heap A) (es : PyDict Str (Val A)) (r : Ref) (hr : r < h.next) : (newHeap h es).obj r = h.obj r := by
  simp only [newHeap]
  rw [if_neg (by omega), if_neg (by omega)]

theorem lt_next (h : Heap A) (hw : h.WF) (r : Ref) (o : Obj A) (hr : h.obj r = some o) : r < h.next := by
  by_cases hlt : r < h.next
  · exact hlt
  · rw [hw.fresh r (by omega)] at hr; cases hr

theorem newHeap_items (h : Heap A) (es : PyDict Str (Val A)) : items (newHeap h es) (h.next + 1) = es := by
  rw [items_eq _ _ h.next (by simp [newHeap])]
  simp [Heap.entries, newHeap]

theorem newHeap_items_old (h : Heap A) (hw : h.WF) (es : PyDict Str (Val A)) (d : Ref) (hd : IsDD h d) :
    items (newHeap h es) d = items h d := by
  obtain ⟨i, hi⟩ := hd
  obtain ⟨es', hes⟩ := hw.inner d i hi
  have h1 := newHeap_old h es d (lt_next h hw _ _ hi)
  have h2 := newHeap_old h es i (lt_next h hw _ _ hes)
  rw [items_eq h d i hi, items_eq _ d i (h1.trans hi)]
  unfold Heap.entries
  rw [h2]

/-- C05: `d.copy()` is a new object with the same items, no existing object changes, and the two never
influence each other through plain keys: any history on the copy leaves every object that existed
before (in particular `d`) as it was, and any history on `d` leaves the copy's items as they were. -/
theorem C05_copy (h : Heap A) (hw : h.WF) (d : Ref) (hd : IsDD h d) :
    ∃ c h', copy h d = (.ok c, h') ∧ h.obj c = none ∧ IsDD h' c ∧ items h' c = items h d ∧
      (∀ r o, h.obj r = some o → h'.obj r = some o) ∧
      (∀ ops : List (Op A), (∀ op ∈ ops, op.Plain) →
        (∀ r o, h.obj r = some o → (runAll c h' ops).obj r = some o) ∧
        items (runAll d h' ops) c = items h d) := by
  have hw' := WF_newHeap h hw (items h d) (by
    obtain ⟨i, hi⟩ := hd; rw [items_eq h d i hi]; exact WF_entries h hw i)
  refine ⟨h.next + 1, newHeap h (items h d), copy_eq h hw d hd, hw.fresh _ (by omega), ⟨h.next, by simp [newHeap]⟩,
    newHeap_items h _, ?_, ?_⟩
  · intro r o ho
    rw [newHeap_old h _ r (lt_next h hw r o ho), ho]
  · intro ops hp
    constructor
    · intro r o ho
      have hlt := lt_next h hw r o ho
      rw [runAll_only_inner ops _ hw' (h.next + 1) h.next (by simp [newHeap]) hp r (by omega), newHeap_old h _ r hlt, ho]
    · obtain ⟨i, hi⟩ := hd
      obtain ⟨es, hes⟩ := hw.inner d i hi
      have hlt := lt_next h hw i _ hes
      have hd' : (newHeap h (items h d)).obj d = some (.dataDict i) := by
        rw [newHeap_old h _ d (lt_next h hw d _ hi), hi]
      have e1 := runAll_only_inner ops _ hw' d i hd' hp (h.next + 1) (by omega)
      have e2 := runAll_only_inner ops _ hw' d i hd' hp h.next (by omega)
      rw [items_eq _ (h.next + 1) h.next (by rw [e1]; simp [newHeap])]
      unfold Heap.entries
      rw [e2]
      simp [newHeap]

/-- C05: `d | m` is a new DataDict: `m`'s value wherever `m` has the key, otherwise `d`'s; `d`'s keys
first in their order, then the new keys of `m`; no existing object changes.  A non-mapping raises
AssertionError. -/
theorem C05_or (h : Heap A) (hw : h.WF) (d : Ref) (hd : IsDD h d) (m : Val A) :
    (∀ es, items? h m = some es → ∃ c h', or h d m = (.ok c, h') ∧ h.obj c = none ∧
      (∀ k, (items h' c).get? k = (es.get? k).or ((items h d).get? k)) ∧
      (items h' c).keys = (items h d).keys ++ es.keys.filter (fun k => decide (k ∉ (items h d).keys)) ∧
      (∀ r o, h.obj r = some o → h'.obj r = some o)) ∧
    (items? h m = none → (∀ x, m = .ref x → (h.obj x).isSome) → (or h d m).1 = .error .assertionError) := by
  have hwi : (items h d).WF := by
    obtain ⟨i, hi⟩ := hd; rw [items_eq h d i hi]; exact WF_entries h hw i
  -- the argument denotes the same items in the extended heap
  have hsame : ∀ es, items? h m = some es → items? (newHeap h (items h d)) m = some es := by
    intro es he
    cases m with
    | ref x =>
        simp only [items?, resolve] at he ⊢
        cases hx : h.obj x with
        | none => simp [hx] at he
        | some o =>
            rw [newHeap_old h _ x (lt_next h hw x o hx), hx]
            rw [hx] at he
            cases o with
            | dict es' =>
                simp only [Option.some.injEq] at he ⊢
                rw [← he]; unfold Heap.entries
                rw [newHeap_old h _ x (lt_next h hw x _ hx)]
            | dataDict i =>
                obtain ⟨es', hes⟩ := hw.inner x i hx
                simp only [Option.some.injEq] at he ⊢
                rw [← he]; unfold Heap.entries
                rw [newHeap_old h _ i (lt_next h hw i _ hes)]
    | atom a => simp [items?, resolve] at he
    | tup vs => simp [items?, resolve] at he
  constructor
  · intro es he
    have hem := items?_WF h hw m es he
    have hres : resolve (newHeap h (items h d)) (.ref (h.next + 1)) = .ok h.next := by simp [resolve, newHeap]
    have hent : (newHeap h (items h d)).entries h.next = items h d := by simp [Heap.entries, newHeap]
    refine ⟨h.next + 1, (newHeap h (items h d)).put h.next ((items h d).update es), ?_, hw.fresh _ (by omega), ?_, ?_, ?_⟩
    · simp only [or, copy_eq h hw d hd, ior, update, hsame es he, hres, hent]
    · intro k
      rw [items_eq _ _ h.next (by simp [Heap.put, newHeap]), entries_put, if_pos rfl, PyDict.get?_update _ _ _ hem]
    · rw [items_eq _ _ h.next (by simp [Heap.put, newHeap]), entries_put, if_pos rfl, PyDict.keys_update _ _ hem]
      congr 1
      apply List.filter_congr
      intro k _
      simp only [decide_eq_decide]
    · intro r o ho
      have hlt := lt_next h hw r o ho
      simp only [Heap.put]
      rw [if_neg (by omega), newHeap_old h _ r hlt, ho]
  · intro he hlive
    have h1 : items? (newHeap h (items h d)) m = none := by
      cases m with
      | ref x =>
          exfalso
          have := hlive x rfl
          simp only [items?, resolve] at he
          cases hx : h.obj x with
          | none => rw [hx] at this; cases this
          | some o => cases o <;> simp [hx] at he
      | atom a => rfl
      | tup vs => rfl
    simp only [or, copy_eq h hw d hd, ior, update, h1]

/-- C05: `d |= m` does exactly what `d.update(m)` does and evaluates to `d`. -/
theorem C05_ior (h : Heap A) (d : Ref) (m : Val A) :
    (ior h d m).2 = (update h d m).2 ∧ (ior h d m).1 = (update h d m).1.map (fun _ => d) := by
  unfold ior
  rcases update h d m with ⟨r, h'⟩
  cases r <;> exact ⟨rfl, rfl⟩

/-- C05: the copy is shallow: if `d[k]` is a mapping, then storing through the copy at `k/x` is visible
through `d` at `k/x`. -/
theorem C05_shared (h : Heap A) (hw : h.WF) (ha : Acyclic h) (d : Ref) (hd : IsDD h d) (k x : Str)
    (hk : k ≠ [] ∧ '/' ∉ k) (hx : x ≠ [] ∧ '/' ∉ x) (y r : Ref) (hy : getStr h d k = .ok (.ref y))
    (hr : resolve h (.ref y) = .ok r) (val : Val A) :
    ∃ c h1 h2, copy h d = (.ok c, h1) ∧ setStr h1 c (k ++ '/' :: x) val = (.ok (), h2) ∧
      getStr h2 d (k ++ '/' :: x) = .ok val ∧ getStr h2 c (k ++ '/' :: x) = .ok val := by
  have hpath : pathOf (k ++ '/' :: x) = [k, x] := by
    have hsp := Spells.cons 0 k hk [x] x (by simpa using Spells.last 0 x hx 0)
    exact path_of_spells [k, x] _ (by simpa using hsp) (by simp)
  have hpk : pathOf k = [k] := by unfold pathOf; rw [if_neg hk.2]
  obtain ⟨i, hi⟩ := hd
  obtain ⟨es, hes⟩ := hw.inner d i hi
  have hitems := items_eq h d i hi
  have hgetk : (h.entries i).get? k = some (.ref y) := by
    rw [getStr_eq, hpk] at hy
    simp only [List.cons_ne_nil, if_false, walk, step, isDD_resolve h hw d i hi, bind, Except.bind] at hy
    cases hg : (h.entries i).get? k with
    | none => rw [hg] at hy; cases hy
    | some v => rw [hg] at hy; cases hy; rfl
  have hri : r ≠ i := by
    obtain ⟨rank, h1, h2⟩ := ha
    have e1 := resolve_rank h rank h1 y r hr
    have hent : h.entries i = es := by unfold Heap.entries; rw [hes]
    have e2 := h2 i es k y hes (hent ▸ hgetk)
    rintro rfl; omega
  obtain ⟨er, her⟩ := resolve_dict h hw _ _ hr
  have hrlt := lt_next h hw r _ her
  have hilt := lt_next h hw i _ hes
  have hdlt := lt_next h hw d _ hi
  obtain ⟨oy, hoy⟩ : ∃ o, h.obj y = some o := by
    simp only [resolve] at hr
    cases hh : h.obj y with
    | none => rw [hh] at hr; cases hr
    | some o => exact ⟨o, rfl⟩
  have hylt := lt_next h hw y _ hoy
  -- abbreviations for the two heaps
  let h1 := newHeap h (items h d)
  have hre : ∀ z, z < h.next → resolve h1 (.ref z) = resolve h (.ref z) := by
    intro z hz
    simp only [resolve, h1]
    rw [newHeap_old h _ z hz]
  have hen : ∀ z, z < h.next → h1.entries z = h.entries z := by
    intro z hz
    unfold Heap.entries
    rw [newHeap_old h _ z hz]
  have hc : resolve h1 (.ref (h.next + 1)) = .ok h.next := by simp [resolve, h1, newHeap]
  have hec : h1.entries h.next = items h d := by simp [Heap.entries, h1, newHeap]
  have hwalkc : walk h1 (.ref (h.next + 1)) [k] = .ok (.ref y) := by
    simp only [walk, step, hc, hec, hitems, bind, Except.bind, hgetk]
    rfl
  have hset : setStr h1 (h.next + 1) (k ++ '/' :: x) val = (.ok (), h1.put r ((h1.entries r).set x val)) := by
    rw [setStr_eq, hpath]
    simp only [List.getLast?_cons_cons, List.getLast?_singleton, List.dropLast, hwalkc, store, hre y hylt, hr]
  have hobj : ∃ es, h1.obj r = some (.dict es) := ⟨er, by simp only [h1]; rw [newHeap_old h _ r hrlt, her]⟩
  have hagree := agree_set h1 r x val hobj
  refine ⟨h.next + 1, h1, _, copy_eq h hw d ⟨i, hi⟩, hset, ?_, ?_⟩
  · rw [getStr_eq, hpath]
    simp only [List.cons_ne_nil, if_false, walk, step, hagree.res, hre d hdlt, isDD_resolve h hw d i hi, bind, Except.bind]
    rw [entries_put, if_neg hri.symm, hen i hilt, hgetk]
    simp only [pure, Except.pure, hagree.res, hre y hylt, hr]
    rw [entries_put, if_pos rfl, PyDict.get?_set_self]
  · rw [getStr_eq, hpath]
    simp only [List.cons_ne_nil, if_false, walk, step, hagree.res, hc, bind, Except.bind]
    rw [entries_put, if_neg (by omega), hec, hitems, hgetk]
    simp only [pure, Except.pure, hagree.res, hre y hylt, hr]
    rw [entries_put, if_pos rfl, PyDict.get?_set_self]

example : IsDD exHeap 1 ∧ getStr exHeap 1 "a".toList = .ok (.ref 2) ∧ resolve exHeap (.ref 2) = .ok 2 :=
  ⟨⟨0, rfl⟩, rfl, rfl⟩

/-! ### C06: literal keys -/

/-- C06: the constructor stores the items of its argument verbatim (keys with slashes included), in
order, in a new object; `None` gives an empty one; a non-mapping raises AssertionError. -/
theorem C06_constructor (h : Heap A) (v : Val A) :
    (∀ es, items? h v = some es → ∃ h', new h (some v) = (.ok (h.next + 1), h') ∧ items h' (h.next + 1) = es) ∧
    (items? h v = none → new h (some v) = (.error .assertionError, h)) ∧
    (∃ h', new h none = (.ok (h.next + 1), h') ∧ items h' (h.next + 1) = []) := by
  refine ⟨?_, ?_, ?_⟩
  · intro es he
    exact ⟨_, new_some h v es he, newHeap_items h es⟩
  · intro he; simp [new, he]
  · exact ⟨_, new_none h, newHeap_items h []⟩

/-- C06: `update` (and `|=`) inserts the keys of its argument literally: after `d.update(m)` every key of
`m`, with or without slashes, is `in d` and stored with `m`'s value. -/
theorem C06_update (h : Heap A) (hw : h.WF) (d : Ref) (hd : IsDD h d) (m : Val A) (es : PyDict Str (Val A))
    (he : items? h m = some es) :
    ∃ h', update h d m = (.ok (), h') ∧ (∀ k, (items h' d).get? k = (es.get? k).or ((items h d).get? k)) ∧
      (∀ k, contains h' d k = (decide (k ∈ es.keys) || contains h d k)) := by
  obtain ⟨i, hi⟩ := hd
  have hres := isDD_resolve h hw d i hi
  have hdict := resolve_dict h hw _ _ hres
  have hem := items?_WF h hw m es he
  refine ⟨h.put i ((h.entries i).update es), by simp [update, he, hres], ?_, ?_⟩
  · intro k
    rw [items_eq _ d i (put_isDD h i _ hdict d i hi), entries_put, if_pos rfl, items_eq h d i hi, PyDict.get?_update _ _ _ hem]
  · intro k
    unfold contains PyDict.has
    rw [items_eq _ d i (put_isDD h i _ hdict d i hi), entries_put, if_pos rfl, items_eq h d i hi, PyDict.get?_update _ _ _ hem]
    have := PyDict.get?_isSome_iff es k
    cases hg : es.get? k with
    | none => rw [hg] at this; simp at this; simp [this]
    | some w => rw [hg] at this; simp at this; simp [this]

/-- C06: `in` tells exactly whether the literal key is among the direct keys. -/
theorem C06_contains (h : Heap A) (d : Ref) (k : Str) : contains h d k = true ↔ k ∈ (items h d).keys :=
  PyDict.has_iff _ _

theorem slots_noslash (h : Heap A) (v : Val A) (ks : List Str) (hk : ∀ k ∈ ks, '/' ∉ k) :
    ∀ p ∈ slots h v ks, '/' ∉ p.2 := by
  induction ks generalizing v with
  | nil => intro p hp; simp [slots] at hp
  | cons k ks ih =>
      intro p hp
      unfold slots at hp
      split at hp
      · simp at hp
      · rcases List.mem_cons.mp hp with rfl | hp
        · exact hk k (by simp)
        · split at hp
          · exact ih _ (fun k' hk' => hk k' (by simp [hk'])) p hp
          · simp at hp

/-- C06: the value stored under a literal key with a slash is invisible to `[]`: whatever is stored
there, no `d[s]`, for any `s`, depends on it. -/
theorem C06_literal_slash_unreachable (h : Heap A) (hw : h.WF) (d i : Ref) (hd : h.obj d = some (.dataDict i)) (key : Str)
    (hk : '/' ∈ key) (val : Val A) (d2 : Ref) (s : Str) :
    getStr (h.put i ((h.entries i).set key val)) d2 s = getStr h d2 s := by
  have hdict := hw.inner d i hd
  rw [getStr_eq, getStr_eq, (walk_frame (agree_set h i key val hdict) _ _ _).1]
  intro hmem
  refine slots_noslash h _ (pathOf s) ?_ _ hmem hk
  intro c hc
  unfold pathOf at hc
  split at hc
  · exact (Str.mem_comps '/' s c hc).1
  · simp at hc; subst hc; assumption

/-- C06 (recorded): `DataDict({'a/b': 1})` has 'a/b' among its keys, but `d['a/b']` raises KeyError. -/
theorem C06_unreachable_example :
    let h0 : Heap Nat := ⟨1, fun r => if r = 0 then some (.dict [("a/b".toList, .atom 1)]) else none⟩
    contains (new h0 (some (.ref 0))).2 2 "a/b".toList = true ∧
    getStr (new h0 (some (.ref 0))).2 2 "a/b".toList = .error .keyError := ⟨rfl, rfl⟩

/-! ### C97: inherited get / pop / setdefault -/

/-- C97: `d.get(key, default)` is `d[key]`, except that a KeyError (and only a KeyError) is turned into
the default; in particular it follows slashes. -/
theorem C97_get (h : Heap A) (d : Ref) (key : Key) (dflt : Val A) :
    (∀ v, getItem h d key = .ok v → get h d key dflt = .ok v) ∧
    (getItem h d key = .error .keyError → get h d key dflt = .ok dflt) ∧
    (∀ e, e ≠ .keyError → getItem h d key = .error e → get h d key dflt = .error e) := by
  unfold get
  refine ⟨?_, ?_, ?_⟩
  · intro v hv; rw [hv]
  · intro hv; rw [hv]
  · intro e he hv; rw [hv]; cases e <;> first | exact absurd rfl he | rfl

/-- The deletion of a key that can be looked up succeeds. -/
theorem del_of_get (h : Heap A) (d : Ref) (s : Str) (v : Val A) (hg : getStr h d s = .ok v) :
    (delStr h d s).1 = .ok () := by
  rw [getStr_eq] at hg
  split at hg
  · cases hg
  · rename_i hne
    rw [delStr_eq]
    have hl : (pathOf s).getLast? = some ((pathOf s).getLast hne) := List.getLast?_eq_some_getLast hne
    rw [hl]
    simp only
    rw [dropLast_getLast _ _ hl, walk_append] at hg
    cases hwk : walk h (.ref d) (pathOf s).dropLast with
    | error e => rw [hwk] at hg; cases hg
    | ok par =>
        rw [hwk] at hg
        simp only [Except.bind, walk, step, bind] at hg
        simp only [remove]
        cases hr : resolve h par with
        | error e => rw [hr] at hg; cases hg
        | ok r =>
            rw [hr] at hg
            simp only at hg ⊢
            cases hgg : (h.entries r).get? ((pathOf s).getLast hne) with
            | none => rw [hgg] at hg; cases hg
            | some x => rw [if_pos (by unfold PyDict.has; rw [hgg]; rfl)]

/-- C97: `d.pop(s)` for a string key returns `d[s]` and removes it (`d[s]` then raises KeyError); if `d[s]` raises,
it raises the same and changes nothing. -/
theorem C97_pop (h : Heap A) (hw : h.WF) (ha : Acyclic h) (d : Ref) (s : Str) :
    (∀ v, getStr h d s = .ok v → ∃ h', pop h d (.str s) = (.ok v, h') ∧ getStr h' d s = .error .keyError ∧
      h' = (delStr h d s).2) ∧
    (∀ e, getStr h d s = .error e → pop h d (.str s) = (.error e, h)) := by
  constructor
  · intro v hv
    have hd := del_of_get h d s v hv
    have heq : delStr h d s = (.ok (), (delStr h d s).2) := by rw [← hd]
    refine ⟨_, ?_, C01_get_after_del h hw ha d s _ heq, rfl⟩
    simp only [pop, getItem, hv, delItem]
    rw [heq]
  · intro e he
    simp only [pop, getItem, he]

/-- C97: `d.setdefault(s, v)` returns the existing value without any change, or stores `v` under the
path and returns it. -/
theorem C97_setdefault (h : Heap A) (hw : h.WF) (ha : Acyclic h) (d : Ref) (s : Str) (dflt : Val A) :
    (∀ v, getStr h d s = .ok v → setdefault h d (.str s) dflt = (.ok v, h)) ∧
    (getStr h d s = .error .keyError → ∀ v h', setdefault h d (.str s) dflt = (.ok v, h') → v = dflt ∧ getStr h' d s = .ok dflt) := by
  constructor
  · intro v hv; simp only [setdefault, getItem, hv]
  · intro hk v h' hs
    simp only [setdefault, getItem, hk, setItem] at hs
    split at hs
    · rename_i h1 hset
      simp only [Prod.mk.injEq, Except.ok.injEq] at hs
      obtain ⟨rfl, rfl⟩ := hs
      exact ⟨rfl, C01_get_after_set h hw ha d s dflt _ hset⟩
    · simp at hs

example : (pop exHeap 1 (.str "a/b".toList)).1 = .ok (.atom 1) ∧ (setdefault exHeap 1 (.str "a/q".toList) (.atom 9)).1 = .ok (.atom 9) ∧
    (setdefault exHeap 1 (.str "zz/q".toList) (.atom 9)).1 = .error .keyError := ⟨rfl, rfl, rfl⟩

end Pyhipp.DataDict
