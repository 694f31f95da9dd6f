import Verif.Model.MaskMemory
import Verif.Props.DataTable
/-
C156: `Mask.on_array`, `on_arrays`, `on_dict`: values, and what shares memory with what.
-/
namespace Pyhipp.MaskMemory
open Pyhipp Pyhipp.DataTable

variable {ρ : Type} [Inhabited ρ]

/-- Specification: when the result has memory of its own: `copy=True`, or a selection that is not a slice. -/
def Owns (s : Sel) (copy : Bool) : Prop := copy = true ∨ ∀ lo hi st, s ≠ .slice lo hi st

/-- C156 (values): `Mask.on_array(mask, a)` holds the selected rows of `a`, in the order of the selection, and fails exactly
as indexing fails; no existing array changes.  With `copy=True`, or with an index array or a boolean mask, the result is a
new array; with a slice and `copy=False` nothing is allocated. -/
theorem C156_on_array (m : Mem ρ) (s : Sel) (a : Arr) (ha : a.buf < m.next) (copy : Bool) :
    (∀ e, s.positions (read m a).length = .error e → onArray m s a copy = .error e) ∧
    (∀ ps, s.positions (read m a).length = .ok ps → ∃ b m', onArray m s a copy = .ok (b, m') ∧ Ext m m' ∧ b.buf < m'.next ∧
      read m' b = rowsAt (read m a) ps ∧ (Owns s copy → m.next ≤ b.buf) ∧
      (¬ Owns s copy → m' = m ∧ b.buf = a.buf ∧ b.idx = ps.map (fun p => a.idx.getD p 0))) := by
  have hl : (read m a).length = a.idx.length := by simp [DataTable.read]
  rw [hl]
  obtain ⟨h1, h2⟩ := index_spec m a s ha
  refine ⟨fun e he => by simp [onArray, h1 e he, bind, Except.bind], fun ps hps => ?_⟩
  obtain ⟨b, m1, hi, hE, hb, hr⟩ := h2 ps hps
  cases copy with
  | true =>
    refine ⟨(alloc m1 (read m1 b)).1, (alloc m1 (read m1 b)).2, ?_, hE.trans (alloc_ext m1 _), Nat.lt_succ_self _, ?_, ?_, ?_⟩
    · simp only [onArray, hi, bind, Except.bind, pure, Except.pure, npArray, if_true]
    · rw [read_alloc, hr]
    · intro _; exact hE.le
    · intro h; exact absurd (Or.inl rfl) h
  | false =>
    refine ⟨b, m1, ?_, hE, hb, hr, ?_, ?_⟩
    · simp only [onArray, hi, bind, Except.bind, pure, Except.pure, npArray, Bool.false_eq_true, if_false]
    · rintro (h | h)
      · cases h
      · cases s with
        | slice lo hi' st => exact absurd rfl (h lo hi' st)
        | ints is =>
          simp only [index, hps, bind, Except.bind, pure, Except.pure, Except.ok.injEq] at hi
          have e := congrArg Prod.fst hi; simp only at e; rw [← e]; exact Nat.le_refl _
        | mask bs =>
          simp only [index, hps, bind, Except.bind, pure, Except.pure, Except.ok.injEq] at hi
          have e := congrArg Prod.fst hi; simp only at e; rw [← e]; exact Nat.le_refl _
    · intro h
      cases s with
      | slice lo hi' st =>
        simp only [index, hps, bind, Except.bind, pure, Except.pure, Except.ok.injEq, Prod.mk.injEq] at hi
        obtain ⟨rfl, rfl⟩ := hi
        exact ⟨rfl, rfl, rfl⟩
      | ints is => exact absurd (Or.inr (fun _ _ _ => by simp)) h
      | mask bs => exact absurd (Or.inr (fun _ _ _ => by simp)) h

/-- C156 (isolation): with `copy=True`, or with an index array or a boolean mask, no sequence of in-place changes of existing arrays
changes the result, and no sequence of in-place changes of the result changes an existing array. -/
theorem C156_isolated (m : Mem ρ) (s : Sel) (a : Arr) (ha : a.buf < m.next) (copy : Bool) (ho : Owns s copy)
    (b : Arr) (m' : Mem ρ) (h : onArray m s a copy = .ok (b, m')) :
    (∀ ws : List (Arr × Nat × ρ), (∀ w ∈ ws, w.1.buf < m.next) → read (writes m' ws) b = read m' b) ∧
    (∀ ws : List (Arr × Nat × ρ), (∀ w ∈ ws, w.1 = b) → ∀ c : Arr, c.buf < m.next → read (writes m' ws) c = read m c) := by
  obtain ⟨h1, h2⟩ := C156_on_array m s a ha copy
  cases hp : s.positions (read m a).length with
  | error e => rw [h1 e hp] at h; cases h
  | ok ps =>
    obtain ⟨b', m'', he, hE, _, _, hf, _⟩ := h2 ps hp
    rw [h] at he
    simp only [Except.ok.injEq, Prod.mk.injEq] at he
    obtain ⟨rfl, rfl⟩ := he
    have hf := hf ho
    refine ⟨fun ws hw => read_writes_ne _ _ _ ?_, fun ws hw c hc => ?_⟩
    · intro w hm
      have := hw w hm
      omega
    · rw [read_writes_ne _ _ _ ?_, read_ext hE c hc]
      intro w hm
      rw [hw w hm]
      omega

/-- The positions of a slice are pairwise different. -/
theorem slice_nodup (n : Nat) (lo hi st : Option Int) (ps : List Nat) (h : Sel.positions n (.slice lo hi st) = .ok ps) : ps.Nodup := by
  by_cases h0 : st.getD 1 = 0
  · simp [Sel.positions, slicePos, h0] at h
  · obtain ⟨qs, hq, hx⟩ := (C08_positions n).2.1 lo hi st (st.getD 1) _ _ rfl h0 rfl rfl
    rw [h] at hq
    cases hq
    rw [List.nodup_iff_injective_getElem]
    intro i j hij
    have e1 := ((hx i.1 ps[i.1]).mp (List.getElem?_eq_getElem i.2)).1
    have e2 := ((hx j.1 ps[j.1]).mp (List.getElem?_eq_getElem j.2)).1
    have hij' : ps[i.1] = ps[j.1] := hij
    rw [hij', e2] at e1
    have e3 : (j.1 : Int) * st.getD 1 = (i.1 : Int) * st.getD 1 := by omega
    have := Int.eq_of_mul_eq_mul_right h0 e3
    exact Fin.ext (by omega)

/-- C156 (sharing): with a slice and `copy=False` the result is a view: changing its element `j` changes the element of `a` it was
selected from, and no other; changing an element of `a` changes exactly the element of the result selected from it, and nothing if it
was not selected. -/
theorem C156_shared (m : Mem ρ) (lo hi st : Option Int) (a : Arr) (ha : a.buf < m.next) (hnd : a.idx.Nodup) (ps : List Nat)
    (hps : Sel.positions (read m a).length (.slice lo hi st) = .ok ps) (b : Arr) (m' : Mem ρ)
    (h : onArray m (.slice lo hi st) a false = .ok (b, m')) :
    m' = m ∧
    (∀ (j p : Nat) (x : ρ), ps[j]? = some p →
      read (write m b j x) a = (read m a).set p x ∧ read (write m a p x) b = (read m b).set j x) ∧
    (∀ (p : Nat) (x : ρ), p ∉ ps → p < (read m a).length → read (write m a p x) b = read m b) := by
  have hno : ¬ Owns (.slice lo hi st) false := by
    rintro (h | h)
    · cases h
    · exact h _ _ _ rfl
  have hl : (read m a).length = a.idx.length := by simp [DataTable.read]
  obtain ⟨_, h2⟩ := C156_on_array m (.slice lo hi st) a ha false
  obtain ⟨b', m'', he, _, _, _, _, hs⟩ := h2 ps hps
  rw [h] at he
  simp only [Except.ok.injEq, Prod.mk.injEq] at he
  obtain ⟨rfl, rfl⟩ := he
  obtain ⟨rfl, hbuf, hidx⟩ := hs hno
  have hpn := slice_nodup _ _ _ _ _ hps
  have hlt := positions_lt _ _ _ hps
  rw [hl] at hlt
  have hb : ∀ (j p : Nat), ps[j]? = some p → b.idx[j]? = a.idx[p]? := by
    intro j p hj
    have hp := hlt p (List.mem_of_getElem? hj)
    rw [hidx, List.getElem?_map, hj]
    simp [List.getD, List.getElem?_eq_getElem hp]
  have hlb : b.idx.length = ps.length := by rw [hidx]; simp
  refine ⟨rfl, ?_, ?_⟩
  · intro j p x hj
    have hp := hlt p (List.mem_of_getElem? hj)
    have hjl : j < ps.length := (List.getElem?_eq_some_iff.mp hj).1
    have hcell : b.idx[j]? = some (a.idx[p]'hp) := by rw [hb j p hj, List.getElem?_eq_getElem hp]
    constructor
    · unfold DataTable.read write
      apply List.ext_getElem
      · simp
      · intro i h1 h3
        have hi : i < a.idx.length := by simpa using h1
        simp only [List.getElem_map, List.getElem_set, hbuf, true_and, hcell, Option.some.injEq]
        by_cases hpi : p = i
        · subst hpi; simp
        · rw [if_neg hpi, if_neg]
          intro hh
          exact hpi ((List.Nodup.getElem_inj_iff hnd).mp hh.symm)
    · unfold DataTable.read write
      apply List.ext_getElem
      · simp
      · intro i h1 h3
        have hi : i < b.idx.length := by simpa using h1
        have hip : i < ps.length := by omega
        have hpi := hlt ps[i] (List.getElem_mem hip)
        have hbi : b.idx[i] = a.idx[ps[i]]'hpi := by
          have := hb i ps[i] (List.getElem?_eq_getElem hip)
          rw [List.getElem?_eq_getElem hi, List.getElem?_eq_getElem hpi] at this
          exact Option.some.inj this
        simp only [List.getElem_map, List.getElem_set, hbuf, true_and, hbi, List.getElem?_eq_getElem hp, Option.some.injEq]
        have hpj : ps[j] = p := (List.getElem?_eq_some_iff.mp hj).2
        by_cases hji : j = i
        · subst hji; simp [hpj]
        · rw [if_neg hji, if_neg]
          intro hh
          have := (List.Nodup.getElem_inj_iff hnd).mp hh
          rw [← hpj] at this
          exact hji ((List.Nodup.getElem_inj_iff hpn).mp this.symm)
  · intro p x hp hpl
    rw [hl] at hpl
    unfold DataTable.read write
    apply List.map_congr_left
    intro i hi
    rw [hidx] at hi
    obtain ⟨q, hq, rfl⟩ := List.mem_map.mp hi
    simp only [hbuf, true_and]
    have hql := hlt q hq
    rw [if_neg]
    intro hh
    simp only [List.getD, List.getElem?_eq_getElem hql, List.getElem?_eq_getElem hpl, Option.getD_some, Option.some.injEq] at hh
    have := (List.Nodup.getElem_inj_iff hnd).mp hh
    subst this
    exact hp hq

/-- The arrays `r` are the selections of the arrays `l`, one each, in the same order, read in memory `m'`. -/
structure Selected (s : Sel) (copy : Bool) (m m' : Mem ρ) (l r : List Arr) : Prop where
  ext : Ext m m'
  alive : ∀ b ∈ r, b.buf < m'.next
  len : r.length = l.length
  rows : ∀ (i : Nat) (a b : Arr), l[i]? = some a → r[i]? = some b →
    (s.positions (read m a).length).map (rowsAt (read m a)) = .ok (read m' b)
  fresh : Owns s copy → (∀ b ∈ r, m.next ≤ b.buf) ∧ (r.map Arr.buf).Nodup
  view : ¬ Owns s copy → m' = m ∧ ∀ (i : Nat) (a b : Arr), l[i]? = some a → r[i]? = some b → onArray m s a copy = .ok (b, m)

theorem onOthers_spec (s : Sel) (copy : Bool) (l : List Arr) : ∀ (m : Mem ρ), (∀ a ∈ l, a.buf < m.next) →
    (∀ r m', onOthers m s copy l = .ok (r, m') → Selected s copy m m' l r) ∧
    ((∃ r m', onOthers m s copy l = .ok (r, m')) ↔ ∀ a ∈ l, ∃ ps, s.positions (read m a).length = .ok ps) := by
  induction l with
  | nil =>
    intro m _
    refine ⟨?_, by simp [onOthers]⟩
    intro r m' h
    simp only [onOthers, Except.ok.injEq, Prod.mk.injEq] at h
    obtain ⟨rfl, rfl⟩ := h
    exact ⟨Ext.refl _, by simp, rfl, by simp, by simp, by simp⟩
  | cons a t ih =>
    intro m hm
    have ha := hm a (by simp)
    obtain ⟨o1, o2⟩ := C156_on_array m s a ha copy
    cases hp : s.positions (read m a).length with
    | error e =>
      have := o1 e hp
      refine ⟨?_, ?_⟩
      · intro r m' h; simp [onOthers, this, bind, Except.bind] at h
      · constructor
        · rintro ⟨r, m', h⟩; simp [onOthers, this, bind, Except.bind] at h
        · intro h
          obtain ⟨ps, hps⟩ := h a (by simp)
          rw [hp] at hps; cases hps
    | ok ps =>
      obtain ⟨b, m1, he, hE, hb, hr, hf, hv⟩ := o2 ps hp
      have ht1 : ∀ a ∈ t, a.buf < m1.next := fun c hc => Nat.lt_of_lt_of_le (hm c (by simp [hc])) hE.le
      obtain ⟨i1, i2⟩ := ih m1 ht1
      have hrd : ∀ c ∈ t, read m1 c = read m c := fun c hc => read_ext hE c (hm c (by simp [hc]))
      refine ⟨?_, ?_⟩
      · intro r m' h
        simp only [onOthers, he, bind, Except.bind, pure, Except.pure] at h
        cases ho : onOthers m1 s copy t with
        | error e => rw [ho] at h; cases h
        | ok q =>
          obtain ⟨r', m2⟩ := q
          rw [ho] at h
          simp only [Except.ok.injEq, Prod.mk.injEq] at h
          obtain ⟨rfl, rfl⟩ := h
          have S := i1 r' m2 ho
          refine ⟨hE.trans S.ext, ?_, by simp [S.len], ?_, ?_, ?_⟩
          · intro c hc
            rcases List.mem_cons.mp hc with rfl | hc
            · exact Nat.lt_of_lt_of_le hb S.ext.le
            · exact S.alive c hc
          · intro i x y hx hy
            cases i with
            | zero =>
              simp only [List.getElem?_cons_zero, Option.some.injEq] at hx hy
              subst hx hy
              rw [hp, read_ext S.ext _ hb, hr]
              rfl
            | succ i =>
              simp only [List.getElem?_cons_succ] at hx hy
              have := S.rows i x y hx hy
              rwa [hrd x (List.mem_of_getElem? hx)] at this
          · intro how
            obtain ⟨f1, f2⟩ := S.fresh how
            refine ⟨?_, ?_⟩
            · intro c hc
              rcases List.mem_cons.mp hc with rfl | hc
              · exact hf how
              · exact Nat.le_trans hE.le (f1 c hc)
            · rw [List.map_cons, List.nodup_cons]
              refine ⟨?_, f2⟩
              intro hmem
              obtain ⟨c, hc, hce⟩ := List.mem_map.mp hmem
              have := f1 c hc
              omega
          · intro how
            obtain ⟨rfl, _, _⟩ := hv how
            obtain ⟨v1, v2⟩ := S.view how
            subst v1
            refine ⟨rfl, ?_⟩
            intro i x y hx hy
            cases i with
            | zero =>
              simp only [List.getElem?_cons_zero, Option.some.injEq] at hx hy
              subst hx hy
              exact he
            | succ i =>
              simp only [List.getElem?_cons_succ] at hx hy
              exact v2 i x y hx hy
      · constructor
        · rintro ⟨r, m', h⟩
          simp only [onOthers, he, bind, Except.bind, pure, Except.pure] at h
          cases ho : onOthers m1 s copy t with
          | error e => rw [ho] at h; cases h
          | ok q =>
            intro c hc
            rcases List.mem_cons.mp hc with rfl | hc
            · exact ⟨ps, hp⟩
            · have := i2.mp ⟨q.1, q.2, by rw [ho]⟩ c hc
              rwa [hrd c hc] at this
        · intro h
          obtain ⟨r', m2, ho⟩ := i2.mpr (fun c hc => by rw [hrd c hc]; exact h c (by simp [hc]))
          exact ⟨b :: r', m2, by simp only [onOthers, he, ho, bind, Except.bind, pure, Except.pure]⟩

/-- Specification: the arrays in a result of `Mask.on_arrays`. -/
def Out.arrays : Out → List Arr
  | .array a => [a]
  | .tuple l => l

/-- C156 (several arrays): `Mask.on_arrays(mask, a, *others)` succeeds exactly if the selection fits every array.  The result for one
array is that array itself, not a tuple; otherwise it is a tuple with one array per argument, in the same order, each with the
selected rows; with `copy=True` (or no slice) all have memory of their own and of each other, otherwise all are views. -/
theorem C156_on_arrays (m : Mem ρ) (s : Sel) (a : Arr) (others : List Arr) (copy : Bool) (hm : ∀ c ∈ a :: others, c.buf < m.next) :
    (∀ r m', onArrays m s a others copy = .ok (r, m') →
      ((∃ b, r = .array b) ↔ others = []) ∧ Selected s copy m m' (a :: others) r.arrays) ∧
    ((∃ r m', onArrays m s a others copy = .ok (r, m')) ↔ ∀ c ∈ a :: others, ∃ ps, s.positions (read m c).length = .ok ps) := by
  have hspec := onOthers_spec s copy (a :: others) m hm
  have hrel : ∀ r m', onArrays m s a others copy = .ok (r, m') → onOthers m s copy (a :: others) = .ok (r.arrays, m') ∧
      ((∃ b, r = .array b) ↔ others = []) := by
    intro r m' h
    unfold onArrays at h
    cases ho : onArray m s a copy with
    | error e => simp [ho, bind, Except.bind] at h
    | ok q =>
      obtain ⟨b, m1⟩ := q
      simp only [ho, bind, Except.bind, pure, Except.pure] at h
      cases others with
      | nil =>
        simp only [List.length_nil, if_true, Except.ok.injEq, Prod.mk.injEq] at h
        obtain ⟨rfl, rfl⟩ := h
        exact ⟨by simp [onOthers, ho, bind, Except.bind, pure, Except.pure, Out.arrays], by simp⟩
      | cons c t =>
        rw [if_neg (by simp)] at h
        cases hoo : onOthers m1 s copy (c :: t) with
        | error e => rw [hoo] at h; cases h
        | ok q =>
          rw [hoo] at h
          simp only [Except.ok.injEq, Prod.mk.injEq] at h
          obtain ⟨rfl, rfl⟩ := h
          refine ⟨?_, by simp⟩
          rw [onOthers]
          simp only [ho, hoo, bind, Except.bind, pure, Except.pure, Out.arrays]
  have hrel2 : ∀ l m', onOthers m s copy (a :: others) = .ok (l, m') → ∃ r, onArrays m s a others copy = .ok (r, m') := by
    intro l m' h
    rw [onOthers] at h
    unfold onArrays
    cases ho : onArray m s a copy with
    | error e => simp [ho, bind, Except.bind] at h
    | ok q =>
      obtain ⟨b, m1⟩ := q
      simp only [ho, bind, Except.bind, pure, Except.pure] at h ⊢
      cases hoo : onOthers m1 s copy others with
      | error e => rw [hoo] at h; cases h
      | ok q =>
        rw [hoo] at h
        simp only [Except.ok.injEq, Prod.mk.injEq] at h
        obtain ⟨_, rfl⟩ := h
        cases others with
        | nil =>
          simp only [onOthers, Except.ok.injEq] at hoo
          subst hoo
          exact ⟨_, rfl⟩
        | cons c t => exact ⟨.tuple (b :: q.1), by rw [if_neg (by simp)]⟩
  refine ⟨fun r m' h => ⟨(hrel r m' h).2, hspec.1 _ _ (hrel r m' h).1⟩, ?_⟩
  rw [← hspec.2]
  constructor
  · rintro ⟨r, m', h⟩; exact ⟨_, _, (hrel r m' h).1⟩
  · rintro ⟨l, m', h⟩
    obtain ⟨r, hr⟩ := hrel2 l m' h
    exact ⟨r, m', hr⟩

theorem onDictLoop_spec (table : Bool) (s : Sel) (copy : Bool) (d : PyDict Str Arr) : ∀ (m : Mem ρ) (out : PyDict Str Arr),
    Alive m d → (out.keys ++ d.keys).Nodup →
    (∀ e, selRows s (vals m d) = .error e → onDictLoop table s copy m out d = .error e) ∧
    (∀ v, selRows s (vals m d) = .ok v → ∃ r m', onDictLoop table s copy m out d = .ok (out ++ r, m') ∧ Ext m m' ∧ Alive m' r ∧
      vals m' r = v ∧ (table = true ∨ Owns s copy → Fresh m m' r) ∧
      (¬ (table = true ∨ Owns s copy) → m' = m ∧ ∀ (i : Nat) (k : Str) (a b : Arr), d[i]? = some (k, a) → r[i]? = some (k, b) →
        onArray m s a copy = .ok (b, m))) := by
  induction d with
  | nil =>
    intro m out _ _
    refine ⟨fun e he => by simp [selRows, vals, pure, Except.pure] at he, fun v hv => ?_⟩
    simp only [selRows, vals, List.map_nil, List.mapM_nil, pure, Except.pure, Except.ok.injEq] at hv
    subst hv
    exact ⟨[], m, by simp [onDictLoop], Ext.refl m, fun p hp => by simp at hp, rfl,
      fun _ => ⟨fun p hp => by simp at hp, fun p hp => by simp at hp, by simp⟩, fun _ => ⟨rfl, by simp⟩⟩
  | cons p t ih =>
    obtain ⟨k, a⟩ := p
    intro m out hal hnd
    have ha : a.buf < m.next := hal (k, a) (by simp)
    have hk : k ∉ out.keys := by
      intro hk
      rw [List.nodup_append] at hnd
      exact hnd.2.2 k hk k (by simp) rfl
    have hset : ∀ b : Arr, out.set k b = out ++ [(k, b)] := fun b => PyDict.set_of_not_mem out k b hk
    have hnd' : ∀ b : Arr, ((out ++ [(k, b)] : PyDict Str Arr).keys ++ PyDict.keys t).Nodup := by
      intro b
      have : (out ++ [(k, b)] : PyDict Str Arr).keys ++ PyDict.keys t = out.keys ++ PyDict.keys ((k, a) :: t) := by
        simp [PyDict.keys]
      rw [this]; exact hnd
    obtain ⟨o1, o2⟩ := C156_on_array m s a ha copy
    have hv0 : selRows s (vals m ((k, a) :: t)) = (do
        let q ← (s.positions (read m a).length).map (fun ps => (k, rowsAt (read m a) ps))
        let r ← selRows s (vals m t)
        return q :: r) := by
      unfold selRows vals
      rw [List.map_cons, List.mapM_cons]
    rw [hv0]
    cases hp : s.positions (read m a).length with
    | error e0 =>
      refine ⟨fun e he => ?_, fun v hv => by simp [Except.map, bind, Except.bind] at hv⟩
      simp [Except.map, bind, Except.bind] at he
      subst he
      simp [onDictLoop, o1 e0 hp, bind, Except.bind]
    | ok ps =>
      obtain ⟨b, m1, he, hE, hb, hr, hf, hv⟩ := o2 ps hp
      -- the stored array and the memory after storing it
      obtain ⟨c, m2, hc, hE2, hcb, hcr, hcf, hcv⟩ : ∃ (c : Arr) (m2 : Mem ρ),
          onDictLoop table s copy m out ((k, a) :: t) = onDictLoop table s copy m2 (out ++ [(k, c)]) t ∧ Ext m m2 ∧ c.buf < m2.next ∧
          read m2 c = rowsAt (read m a) ps ∧ (table = true ∨ Owns s copy → m.next ≤ c.buf) ∧
          (¬ (table = true ∨ Owns s copy) → m2 = m ∧ onArray m s a copy = .ok (c, m)) := by
        cases table with
        | true =>
          refine ⟨(alloc m1 (read m1 b)).1, (alloc m1 (read m1 b)).2, ?_, hE.trans (alloc_ext m1 _), Nat.lt_succ_self _, by rw [read_alloc, hr],
            fun _ => hE.le, fun h => absurd (Or.inl rfl) h⟩
          rw [onDictLoop]
          simp only [he, bind, Except.bind, if_true, setItem, npArray, hset]
        | false =>
          refine ⟨b, m1, ?_, hE, hb, hr, fun h => hf (by simpa using h), fun h => ?_⟩
          · rw [onDictLoop]
            simp only [he, bind, Except.bind, Bool.false_eq_true, if_false, hset]
          · obtain ⟨rfl, _, _⟩ := hv (by simpa using h)
            exact ⟨rfl, he⟩
      rw [hc]
      have halt : Alive m t := fun q hq => hal q (by simp [hq])
      have hal2 : Alive m2 t := fun q hq => Nat.lt_of_lt_of_le (halt q hq) hE2.le
      obtain ⟨i1, i2⟩ := ih m2 (out ++ [(k, c)]) hal2 (hnd' c)
      rw [vals_ext hE2 t halt] at i1 i2
      refine ⟨fun e hh => ?_, fun v hh => ?_⟩
      · simp only [Except.map, bind, Except.bind] at hh
        cases hs : selRows s (vals m t) with
        | error e1 => rw [hs] at hh; cases hh; exact i1 e hs
        | ok r => rw [hs] at hh; cases hh
      · simp only [Except.map, bind, Except.bind] at hh
        cases hs : selRows s (vals m t) with
        | error e1 => rw [hs] at hh; cases hh
        | ok w =>
          rw [hs] at hh; cases hh
          obtain ⟨r, m3, hd, hE3, hal3, hvv, hfr, hvw⟩ := i2 w hs
          refine ⟨(k, c) :: r, m3, by rw [hd]; simp, hE2.trans hE3, ?_, ?_, ?_, ?_⟩
          · intro q hq
            rcases List.mem_cons.mp hq with rfl | hq
            · exact Nat.lt_of_lt_of_le hcb hE3.le
            · exact hal3 q hq
          · have : vals m3 ((k, c) :: r) = (k, read m3 c) :: vals m3 r := rfl
            rw [this, hvv, read_ext hE3 c hcb, hcr]
          · intro how
            have F := hfr how
            refine ⟨?_, ?_, ?_⟩
            · intro q hq
              rcases List.mem_cons.mp hq with rfl | hq
              · exact hcf how
              · exact Nat.le_trans hE2.le (F.lo q hq)
            · intro q hq
              rcases List.mem_cons.mp hq with rfl | hq
              · exact Nat.lt_of_lt_of_le hcb hE3.le
              · exact F.hi q hq
            · rw [List.map_cons, List.nodup_cons]
              refine ⟨?_, F.own⟩
              intro hmem
              obtain ⟨q, hq, hqe⟩ := List.mem_map.mp hmem
              have := F.lo q hq
              simp only at hqe
              omega
          · intro how
            obtain ⟨rfl, hon⟩ := hcv how
            obtain ⟨rfl, hvw⟩ := hvw how
            refine ⟨rfl, ?_⟩
            intro i k' x y hx hy
            cases i with
            | zero =>
              simp only [List.getElem?_cons_zero, Option.some.injEq, Prod.mk.injEq] at hx hy
              obtain ⟨rfl, rfl⟩ := hx
              obtain ⟨_, rfl⟩ := hy
              exact hon
            | succ i =>
              simp only [List.getElem?_cons_succ] at hx hy
              exact hvw i k' x y hx hy

/-- C156 (mappings): `Mask.on_dict(d, mask)` applies the selection to every value, keeping the keys and their order; it fails as
the first failing value does; no existing array changes.  For a DataTable (which copies what it stores), with `copy=True`, and for index
arrays or boolean masks, every value of the result has memory of its own (`C07_isolation` says what that means); for a dict with a
slice and `copy=False` every value is the view that `Mask.on_array` gives (`C156_shared`). -/
theorem C156_on_dict (table : Bool) (m : Mem ρ) (d : PyDict Str Arr) (hwf : d.WF) (hal : Alive m d) (s : Sel) (copy : Bool) :
    (∀ e, selRows s (vals m d) = .error e → onDict table m d s copy = .error e) ∧
    (∀ v, selRows s (vals m d) = .ok v → ∃ r m', onDict table m d s copy = .ok (r, m') ∧ Ext m m' ∧ Alive m' r ∧
      vals m' r = v ∧ r.keys = d.keys ∧ (table = true ∨ Owns s copy → Fresh m m' r) ∧
      (¬ (table = true ∨ Owns s copy) → m' = m ∧ ∀ (k : Str) (a b : Arr), d.get? k = some a → r.get? k = some b →
        onArray m s a copy = .ok (b, m))) := by
  obtain ⟨h1, h2⟩ := onDictLoop_spec table s copy d m [] hal (by simpa [PyDict.WF] using hwf)
  refine ⟨h1, fun v hv => ?_⟩
  obtain ⟨r, m', hr, hE, ha, hvv, hf, hvw⟩ := h2 v hv
  have hkeys : r.keys = d.keys := by
    have e1 : (vals m' r).keys = r.keys := vals_keys m' r
    have e2 : ∀ (w u : PyDict Str (List ρ)), selRows s w = .ok u → u.keys = w.keys := by
      intro w
      induction w with
      | nil => intro u hu; simp [selRows, pure, Except.pure] at hu; subst hu; rfl
      | cons q w ih =>
        intro u hu
        unfold selRows at hu
        rw [List.mapM_cons] at hu
        simp only [bind, Except.bind, pure, Except.pure] at hu
        cases hq : (s.positions q.2.length) with
        | error e => simp [hq, Except.map] at hu
        | ok ps =>
          simp only [hq, Except.map] at hu
          cases hw : selRows s w with
          | error e => unfold selRows at hw; simp only [Except.map] at hw; rw [hw] at hu; cases hu
          | ok u' =>
            have := ih u' hw
            unfold selRows at hw; simp only [Except.map] at hw
            rw [hw] at hu
            cases hu
            simp [PyDict.keys_cons, this]
    rw [← e1, hvv, e2 _ _ hv, vals_keys]
  refine ⟨r, m', by simpa [onDict] using hr, hE, ha, hvv, hkeys, hf, fun how => ?_⟩
  obtain ⟨e, hx⟩ := hvw how
  refine ⟨e, fun k a b hk hb => ?_⟩
  have hma := PyDict.mem_of_get? d k a hk
  have hmb := PyDict.mem_of_get? r k b hb
  obtain ⟨i, hi, hia⟩ := List.getElem_of_mem hma
  obtain ⟨j, hj, hjb⟩ := List.getElem_of_mem hmb
  have hwr : r.keys.Nodup := by rw [hkeys]; exact hwf
  have hki : d.keys[i]? = some k := by
    unfold PyDict.keys; rw [List.getElem?_map, List.getElem?_eq_getElem hi, hia]; rfl
  have hkj : r.keys[j]? = some k := by
    unfold PyDict.keys; rw [List.getElem?_map, List.getElem?_eq_getElem hj, hjb]; rfl
  rw [← hkeys] at hki
  have hij : i = j := by
    obtain ⟨hi', ei⟩ := List.getElem?_eq_some_iff.mp hki
    obtain ⟨hj', ej⟩ := List.getElem?_eq_some_iff.mp hkj
    exact (List.Nodup.getElem_inj_iff hwr).mp (ei.trans ej.symm)
  subst hij
  exact hx i k a b (by rw [List.getElem?_eq_getElem hi, hia]) (by rw [List.getElem?_eq_getElem hj, hjb])

/-- C156 (with tables): `Mask.on_dict(t, mask)` of a DataTable holds the same values as `t.subset(mask)`. -/
theorem C156_subset (m : Mem ρ) (t : PyDict Str Arr) (hwf : t.WF) (hal : Alive m t) (s : Sel) (copy copy' : Bool) :
    ((onDict true m t s copy).map (fun r => vals r.2 r.1)) = ((subset m t s copy').map (fun r => vals r.2 r.1)) := by
  obtain ⟨a1, a2⟩ := C156_on_dict true m t hwf hal s copy
  obtain ⟨b1, b2⟩ := C08_subset m t hal s copy'
  cases hs : selRows s (vals m t) with
  | error e => rw [a1 e hs, b1 e hs]
  | ok v =>
    obtain ⟨r, m', h1, _, _, h2, _⟩ := a2 v hs
    obtain ⟨r', m'', h3, _, _, h4, _⟩ := b2 v hs
    rw [h1, h3]
    simp [Except.map, h2, h4]

/-- The hypotheses are met: in a memory with the arrays `[10, 11, 12]` and `[20, 21, 22]`, the slice `::-2` of both as
views, and a write through the first view. -/
example : let m : Mem Int := ⟨2, fun b i => 10 * (b + 1) + i⟩
    let a : Arr := ⟨0, [0, 1, 2]⟩
    let b : Arr := ⟨1, [0, 1, 2]⟩
    (onArrays m (.slice none none (some (-2))) a [b] false).map (fun r => r.1) = .ok (.tuple [⟨0, [2, 0]⟩, ⟨1, [2, 0]⟩]) ∧
    read (write m ⟨0, [2, 0]⟩ 0 99) a = [10, 11, 99] ∧
    (onArrays m (.ints [0, -1]) a [] false).map (fun r => (r.1, r.2.next)) = .ok (.array ⟨2, [0, 1]⟩, 3) := by
  refine ⟨?_, ?_, ?_⟩ <;> decide +kernel

end Pyhipp.MaskMemory
