import Verif.Model.DataTable
import Mathlib.Data.List.Nodup
/-
C07-C09: DataTable.
-/
namespace Pyhipp.DataTable
open Pyhipp

variable {ρ : Type} [Inhabited ρ]

/-- Specification: what a table (or any mapping of arrays) holds, by value. -/
def vals (m : Mem ρ) (t : PyDict Str Arr) : PyDict Str (List ρ) := t.map (fun p => (p.1, read m p.2))

/-- All columns are arrays that exist in `m`. -/
def Alive (m : Mem ρ) (t : PyDict Str Arr) : Prop := ∀ p ∈ t, p.2.buf < m.next

/-- Nothing that existed in `m` was changed. -/
structure Ext (m m' : Mem ρ) : Prop where
  le : m.next ≤ m'.next
  cell : ∀ b, b < m.next → m'.cell b = m.cell b

/-- All columns live in buffers of their own that did not exist in `m`. -/
structure Fresh (m m' : Mem ρ) (t : PyDict Str Arr) : Prop where
  lo : ∀ p ∈ t, m.next ≤ p.2.buf
  hi : ∀ p ∈ t, p.2.buf < m'.next
  own : (t.map (fun p => p.2.buf)).Nodup

omit [Inhabited ρ] in
theorem Ext.refl (m : Mem ρ) : Ext m m := ⟨Nat.le_refl _, fun _ _ => rfl⟩
omit [Inhabited ρ] in
theorem Ext.trans {m m' m'' : Mem ρ} (h1 : Ext m m') (h2 : Ext m' m'') : Ext m m'' :=
  ⟨Nat.le_trans h1.le h2.le, fun b hb => (h2.cell b (Nat.lt_of_lt_of_le hb h1.le)).trans (h1.cell b hb)⟩

omit [Inhabited ρ] in
theorem read_ext {m m' : Mem ρ} (h : Ext m m') (a : Arr) (ha : a.buf < m.next) : read m' a = read m a := by
  unfold read; rw [h.cell _ ha]

omit [Inhabited ρ] in
theorem vals_ext {m m' : Mem ρ} (h : Ext m m') (t : PyDict Str Arr) (ha : Alive m t) : vals m' t = vals m t := by
  unfold vals
  apply List.map_congr_left
  intro p hp
  rw [read_ext h p.2 (ha p hp)]

theorem alloc_ext (m : Mem ρ) (rows : List ρ) : Ext m (alloc m rows).2 := by
  refine ⟨Nat.le_succ _, ?_⟩
  intro b hb
  funext i
  simp only [alloc]
  rw [if_neg (Nat.ne_of_lt hb)]

theorem read_alloc (m : Mem ρ) (rows : List ρ) : read (alloc m rows).2 (alloc m rows).1 = rows := by
  unfold read alloc
  simp only [if_true]
  apply List.ext_getElem
  · simp
  · intro i h1 h2
    simp [List.getD, List.getElem?_eq_getElem h2]

theorem npArrays_true (m : Mem ρ) (t : PyDict Str Arr) (ha : Alive m t) :
    Ext m (npArrays m true t).2 ∧ Fresh m (npArrays m true t).2 (npArrays m true t).1 ∧
    vals (npArrays m true t).2 (npArrays m true t).1 = vals m t := by
  induction t generalizing m with
  | nil =>
      refine ⟨Ext.refl m, ⟨?_, ?_, ?_⟩, rfl⟩
      · intro p hp; simp [npArrays] at hp
      · intro p hp; simp [npArrays] at hp
      · simp [npArrays]
  | cons p t ih =>
      obtain ⟨k, a⟩ := p
      have hE := alloc_ext m (read m a)
      have ha' : Alive (alloc m (read m a)).2 t := fun q hq =>
        Nat.lt_of_lt_of_le (ha q (by simp [hq])) hE.le
      obtain ⟨h1, h2, h3⟩ := ih _ ha'
      have e : npArrays m true ((k, a) :: t) = ((k, (alloc m (read m a)).1) :: (npArrays (alloc m (read m a)).2 true t).1,
          (npArrays (alloc m (read m a)).2 true t).2) := rfl
      rw [e]
      have hbuf : (alloc m (read m a)).1.buf = m.next := rfl
      have hnext : (alloc m (read m a)).2.next = m.next + 1 := rfl
      refine ⟨hE.trans h1, ⟨?_, ?_, ?_⟩, ?_⟩
      · intro q hq
        rcases List.mem_cons.mp hq with rfl | hq
        · exact Nat.le_refl _
        · exact Nat.le_trans hE.le (h2.lo q hq)
      · intro q hq
        rcases List.mem_cons.mp hq with rfl | hq
        · show m.next < (npArrays (alloc m (read m a)).2 true t).2.next
          have := h1.le; omega
        · exact h2.hi q hq
      · rw [List.map_cons, List.nodup_cons]
        refine ⟨?_, h2.own⟩
        intro hmem
        obtain ⟨q, hq, he⟩ := List.mem_map.mp hmem
        have := h2.lo q hq
        simp only [hbuf] at he
        omega
      · unfold vals at h3 ⊢
        rw [List.map_cons, List.map_cons, h3]
        congr 1
        · rw [read_ext h1 _ (by rw [hbuf, hnext]; omega), read_alloc]
        · apply List.map_congr_left
          intro q hq
          rw [read_ext hE _ (ha q (by simp [hq]))]

omit [Inhabited ρ] in
theorem npArrays_false (m : Mem ρ) [Inhabited ρ] (t : PyDict Str Arr) : npArrays m false t = (t, m) := by
  induction t generalizing m with
  | nil => rfl
  | cons p t ih =>
      obtain ⟨k, a⟩ := p
      simp only [npArrays, npArray, Bool.false_eq_true, if_false, ih]

/-! ### C07: isolation -/

omit [Inhabited ρ] in
theorem read_write_ne (m : Mem ρ) (a b : Arr) (j : Nat) (x : ρ) (h : a.buf ≠ b.buf) : read (write m a j x) b = read m b := by
  unfold read write
  apply List.map_congr_left
  intro i _
  simp only
  rw [if_neg (fun hh => h hh.1.symm)]

/-- Perform any number of in-place row changes. -/
def writes (m : Mem ρ) : List (Arr × Nat × ρ) → Mem ρ
  | [] => m
  | (a, j, x) :: ws => writes (write m a j x) ws

omit [Inhabited ρ] in
theorem read_writes_ne (m : Mem ρ) (ws : List (Arr × Nat × ρ)) (b : Arr) (h : ∀ w ∈ ws, w.1.buf ≠ b.buf) :
    read (writes m ws) b = read m b := by
  induction ws generalizing m with
  | nil => rfl
  | cons w ws ih =>
      obtain ⟨a, j, x⟩ := w
      rw [writes, ih _ (fun w hw => h w (by simp [hw])), read_write_ne _ _ _ _ _ (h (a, j, x) (by simp))]

/-- C07 (meaning of `Fresh`): if a table's columns are fresh with respect to `m`, then no sequence of in-place
changes to arrays that existed in `m` changes the table, and no sequence of in-place changes through
the table's columns changes an array that existed in `m`. -/
theorem C07_isolation {m m' : Mem ρ} (hE : Ext m m') (t : PyDict Str Arr) (hF : Fresh m m' t) (ws : List (Arr × Nat × ρ)) :
    ((∀ w ∈ ws, w.1.buf < m.next) → vals (writes m' ws) t = vals m' t) ∧
    ((∀ w ∈ ws, ∃ k, (k, w.1) ∈ t) → ∀ a : Arr, a.buf < m.next → read (writes m' ws) a = read m a) := by
  constructor
  · intro h
    unfold vals
    apply List.map_congr_left
    intro p hp
    rw [read_writes_ne]
    intro w hw
    have h1 := h w hw
    have h2 := hF.lo p hp
    omega
  · intro h a ha
    rw [read_writes_ne, read_ext hE a ha]
    intro w hw
    obtain ⟨k, hk⟩ := h w hw
    have := hF.lo _ hk
    simp only at this
    omega

/-- C07: construction (copy=True), `copy()` and `to_dict()` give the same columns by value, in fresh buffers, one per
column, and change no existing array; with copy=False the arrays themselves are used. -/
theorem C07_construct (m : Mem ρ) (data : PyDict Str Arr) (ha : Alive m data) :
    (Ext m (new m data true).2 ∧ Fresh m (new m data true).2 (new m data true).1 ∧
      vals (new m data true).2 (new m data true).1 = vals m data) ∧
    copyT m data = new m data true ∧ toDict m data true = new m data true ∧
    new m data false = (data, m) ∧ toDict m data false = (data, m) :=
  ⟨npArrays_true m data ha, rfl, rfl, npArrays_false m data, npArrays_false m data⟩

/-- C07: `t[key] = a` stores a fresh copy under `key` (existing key: same position; new key: last),
keeps every other column as the same array, and changes no existing array. -/
theorem C07_setitem (m : Mem ρ) (t : PyDict Str Arr) (k : Str) (a : Arr) (ha : a.buf < m.next) :
    ∃ b, (setItem m t k a).1 = t.set k b ∧ m.next ≤ b.buf ∧ b.buf < (setItem m t k a).2.next ∧
      Ext m (setItem m t k a).2 ∧ getItem (setItem m t k a).1 k = .ok b ∧ read (setItem m t k a).2 b = read m a ∧
      (∀ k', k' ≠ k → getItem (setItem m t k a).1 k' = getItem t k') := by
  have e : setItem m t k a = (t.set k (alloc m (read m a)).1, (alloc m (read m a)).2) := rfl
  rw [e]
  refine ⟨_, rfl, Nat.le_refl _, Nat.lt_succ_self _, alloc_ext m _, ?_, read_alloc m _, ?_⟩
  · simp [getItem, PyDict.get?_set_self]
  · intro k' hk'
    simp only [getItem]
    rw [PyDict.get?_set_ne _ _ _ _ hk']

/-- C07: `t.update(other)` (and `|=`) puts fresh copies of other's columns into `t`; with copy=False the
arrays themselves; `t | other` leaves `t` alone and is made of fresh copies only. -/
theorem C07_update (m : Mem ρ) (t other : PyDict Str Arr) (hto : Alive m other) (htt : Alive m t) :
    (∃ o, (update m t other true).1 = t.update o ∧ Fresh m (update m t other true).2 o ∧
      Ext m (update m t other true).2 ∧ vals (update m t other true).2 o = vals m other) ∧
    update m t other false = (t.update other, m) ∧
    (Ext m (orT m t other).2 ∧ (∀ p ∈ (orT m t other).1, m.next ≤ p.2.buf)) := by
  obtain ⟨h1, h2, h3⟩ := npArrays_true m other hto
  refine ⟨⟨_, rfl, h2, h1, h3⟩, ?_, ?_⟩
  · unfold update; rw [npArrays_false]
  · obtain ⟨g1, g2, g3⟩ := npArrays_true m t htt
    have hal : Alive (npArrays m true t).2 other := fun p hp => Nat.lt_of_lt_of_le (hto p hp) g1.le
    obtain ⟨f1, f2, f3⟩ := npArrays_true _ other hal
    have e : orT m t other = ((npArrays m true t).1.update (npArrays (npArrays m true t).2 true other).1,
      (npArrays (npArrays m true t).2 true other).2) := rfl
    rw [e]
    refine ⟨g1.trans f1, ?_⟩
    have key : ∀ (d u : PyDict Str Arr), (∀ p ∈ d, m.next ≤ p.2.buf) → (∀ p ∈ u, m.next ≤ p.2.buf) →
        ∀ p ∈ d.update u, m.next ≤ p.2.buf := by
      intro d u hd hu
      unfold PyDict.update
      induction u generalizing d with
      | nil => exact hd
      | cons q u ih =>
          simp only [List.foldl_cons]
          apply ih
          · intro p hp
            have hset : ∀ (d : PyDict Str Arr), (∀ p ∈ d, m.next ≤ p.2.buf) → ∀ p ∈ d.set q.1 q.2, m.next ≤ p.2.buf := by
              intro d
              induction d with
              | nil => intro _ p hp; simp [PyDict.set] at hp; rw [hp]; exact hu q (by simp)
              | cons r d ihd =>
                  intro hd' p hp
                  obtain ⟨rk, rv⟩ := r
                  unfold PyDict.set at hp
                  split at hp
                  · rcases List.mem_cons.mp hp with rfl | hp
                    · exact hu q (by simp)
                    · exact hd' p (by simp [hp])
                  · rcases List.mem_cons.mp hp with rfl | hp
                    · exact hd' _ (by simp)
                    · exact ihd (fun p hp => hd' p (by simp [hp])) p hp
            exact hset d hd p hp
          · exact fun p hp => hu p (by simp [hp])
    exact key _ _ g2.lo (fun p hp => Nat.le_trans g1.le (f2.lo p hp))

/-- C07: `t[key]` is the stored array itself, so `t[key][j] = x` changes row `j` of the column (and
nothing else in it), and no column stored in another buffer. -/
theorem C07_reference (m : Mem ρ) (t : PyDict Str Arr) (k : Str) (a : Arr) (hk : getItem t k = .ok a)
    (hnd : a.idx.Nodup) (j : Nat) (hj : j < a.idx.length) (x : ρ) :
    (vals (write m a j x) t).get? k = some ((read m a).set j x) ∧
    (∀ k' a', getItem t k' = .ok a' → a'.buf ≠ a.buf → (vals (write m a j x) t).get? k' = some (read m a')) := by
  have hget : ∀ (m : Mem ρ) k a, getItem t k = .ok a → (vals m t).get? k = some (read m a) := by
    intro m k a h
    unfold vals
    rw [PyDict.get?_map]
    unfold getItem at h
    cases hg : t.get? k with
    | none => rw [hg] at h; cases h
    | some b => rw [hg] at h; cases h; rfl
  constructor
  · rw [hget _ k a hk]
    congr 1
    unfold read write
    apply List.ext_getElem
    · simp
    · intro i h1 h2
      simp only [List.getElem_map, List.getElem_set, true_and]
      have hi : i < a.idx.length := by simpa using h1
      have e : some a.idx[i] = a.idx[j]? ↔ j = i := by
        rw [List.getElem?_eq_getElem hj]
        constructor
        · intro he; exact (List.Nodup.getElem_inj_iff hnd).mp (Option.some.inj he).symm
        · rintro rfl; rfl
      simp only [e]
  · intro k' a' hk' hne
    rw [hget _ k' a' hk', read_write_ne _ _ _ _ _ (Ne.symm hne)]

/-! #### Value semantics over a history -/

/-- A step of a program that owns a table and some arrays of its own and never keeps a column it read
from the table. -/
inductive Step (ρ : Type) where
  | assign (k : Str) (a : Arr)
  | assignMany (ks : List Str) (vs : List Arr)
  | del (k : Str)
  | update (other : PyDict Str Arr)
  | clear
  | poke (a : Arr) (j : Nat) (x : ρ)

/-- The arrays mentioned in a step belong to the program: they existed before the table was created. -/
def Step.Own (n0 : Nat) : Step ρ → Prop
  | .assign _ a => a.buf < n0
  | .assignMany _ vs => ∀ a ∈ vs, a.buf < n0
  | .update o => ∀ p ∈ o, p.2.buf < n0
  | .poke a _ _ => a.buf < n0
  | _ => True

/-- The implementation. -/
def Step.run (m : Mem ρ) (t : PyDict Str Arr) : Step ρ → PyDict Str Arr × Mem ρ
  | .assign k a => setItem m t k a
  | .assignMany ks vs => match setItems m t ks vs with | .ok r => r | .error _ => (t, m)
  | .del k => ((delItems t [k]).2, m)
  | .update o => DataTable.update m t o true
  | .clear => ([], m)
  | .poke a j x => (t, write m a j x)

/-- The specification: columns are values; the program's own memory is separate and only `poke` changes it. -/
def Step.spec (m : Mem ρ) (t : PyDict Str (List ρ)) : Step ρ → PyDict Str (List ρ) × Mem ρ
  | .assign k a => (t.set k (read m a), m)
  | .assignMany ks vs => if ks.length = vs.length then
      ((ks.zip vs).foldl (fun t kv => t.set kv.1 (read m kv.2)) t, m) else (t, m)
  | .del k => (t.del k, m)
  | .update o => (t.update (vals m o), m)
  | .clear => ([], m)
  | .poke a j x => (t, write m a j x)

def runSteps (m : Mem ρ) (t : PyDict Str Arr) : List (Step ρ) → PyDict Str Arr × Mem ρ
  | [] => (t, m)
  | s :: ss => runSteps (s.run m t).2 (s.run m t).1 ss

def specSteps (m : Mem ρ) (t : PyDict Str (List ρ)) : List (Step ρ) → PyDict Str (List ρ) × Mem ρ
  | [] => (t, m)
  | s :: ss => specSteps (s.spec m t).2 (s.spec m t).1 ss

omit [Inhabited ρ] in
theorem vals_set (m : Mem ρ) (t : PyDict Str Arr) (k : Str) (b : Arr) : vals m (t.set k b) = (vals m t).set k (read m b) := by
  unfold vals
  induction t with
  | nil => rfl
  | cons p t ih =>
      obtain ⟨k', v⟩ := p
      simp only [PyDict.set, List.map_cons]
      split
      · rfl
      · rw [List.map_cons, ih]

omit [Inhabited ρ] in
theorem vals_del (m : Mem ρ) (t : PyDict Str Arr) (k : Str) : vals m (t.del k) = (vals m t).del k := by
  unfold vals
  induction t with
  | nil => rfl
  | cons p t ih =>
      obtain ⟨k', v⟩ := p
      simp only [PyDict.del, List.map_cons]
      split
      · rfl
      · rw [List.map_cons, ih]

omit [Inhabited ρ] in
theorem vals_update (m : Mem ρ) (t o : PyDict Str Arr) : vals m (t.update o) = (vals m t).update (vals m o) := by
  unfold PyDict.update
  induction o generalizing t with
  | nil => rfl
  | cons p o ih =>
      have : vals m (p :: o) = (p.1, read m p.2) :: vals m o := rfl
      rw [this, List.foldl_cons, List.foldl_cons, ih, vals_set]

omit [Inhabited ρ] in
theorem mem_set {β : Type} (t : PyDict Str β) (k : Str) (b : β) (p : Str × β) (hp : p ∈ t.set k b) : p ∈ t ∨ p.2 = b := by
  induction t with
  | nil => simp [PyDict.set] at hp; right; rw [hp]
  | cons q t ih =>
      obtain ⟨k', v⟩ := q
      unfold PyDict.set at hp
      split at hp
      · rcases List.mem_cons.mp hp with rfl | hp
        · exact Or.inr rfl
        · exact Or.inl (by simp [hp])
      · rcases List.mem_cons.mp hp with rfl | hp
        · exact Or.inl (by simp)
        · rcases ih hp with h | h
          · exact Or.inl (by simp [h])
          · exact Or.inr h

omit [Inhabited ρ] in
theorem mem_del {β : Type} (t : PyDict Str β) (k : Str) (p : Str × β) (hp : p ∈ t.del k) : p ∈ t := by
  induction t with
  | nil => simp [PyDict.del] at hp
  | cons q t ih =>
      obtain ⟨k', v⟩ := q
      unfold PyDict.del at hp
      split at hp
      · simp [hp]
      · rcases List.mem_cons.mp hp with rfl | hp
        · simp
        · simp [ih hp]

omit [Inhabited ρ] in
theorem mem_update {β : Type} (t o : PyDict Str β) (p : Str × β) (hp : p ∈ t.update o) : p ∈ t ∨ ∃ q ∈ o, q.2 = p.2 := by
  unfold PyDict.update at hp
  induction o generalizing t with
  | nil => exact Or.inl hp
  | cons q o ih =>
      simp only [List.foldl_cons] at hp
      rcases ih _ hp with h | ⟨r, hr, he⟩
      · rcases mem_set _ _ _ _ h with h | h
        · exact Or.inl h
        · exact Or.inr ⟨q, by simp, h.symm⟩
      · exact Or.inr ⟨r, by simp [hr], he⟩

/-- The simulation invariant: the program's arrays hold the same values in both worlds, table columns live
in buffers the program does not own, and their values agree. -/
structure Sim (n0 : Nat) (m : Mem ρ) (t : PyDict Str Arr) (m' : Mem ρ) (t' : PyDict Str (List ρ)) : Prop where
  le : n0 ≤ m.next
  own : ∀ b, b < n0 → m.cell b = m'.cell b
  lo : ∀ p ∈ t, n0 ≤ p.2.buf ∧ p.2.buf < m.next
  vals : vals m t = t'

omit [Inhabited ρ] in
theorem Sim.read {n0 : Nat} {m : Mem ρ} {t : PyDict Str Arr} {m' : Mem ρ} {t' : PyDict Str (List ρ)} (h : Sim n0 m t m' t')
    (a : Arr) (ha : a.buf < n0) : DataTable.read m a = DataTable.read m' a := by
  unfold DataTable.read; rw [h.own _ ha]

theorem sim_assign {n0 : Nat} {m : Mem ρ} {t : PyDict Str Arr} {m' : Mem ρ} {t' : PyDict Str (List ρ)} (h : Sim n0 m t m' t')
    (k : Str) (a : Arr) (ha : a.buf < n0) :
    Sim n0 (setItem m t k a).2 (setItem m t k a).1 m' (t'.set k (read m' a)) := by
  have hE := alloc_ext m (read m a)
  have e : setItem m t k a = (t.set k (alloc m (read m a)).1, (alloc m (read m a)).2) := rfl
  rw [e]
  refine ⟨Nat.le_trans h.le hE.le, ?_, ?_, ?_⟩
  · intro b hb
    exact (hE.cell b (Nat.lt_of_lt_of_le hb h.le)).trans (h.own b hb)
  · intro p hp
    rcases mem_set _ _ _ _ hp with hp | hp
    · have := h.lo p hp
      exact ⟨this.1, Nat.lt_of_lt_of_le this.2 hE.le⟩
    · rw [hp]; exact ⟨h.le, Nat.lt_succ_self _⟩
  · simp only
    rw [vals_set, read_alloc, vals_ext hE t (fun p hp => (h.lo p hp).2), h.vals, h.read a ha]

theorem sim_loop {n0 : Nat} (kvs : List (Str × Arr)) {m : Mem ρ} {t : PyDict Str Arr} {m' : Mem ρ} {t' : PyDict Str (List ρ)}
    (h : Sim n0 m t m' t') (ho : ∀ kv ∈ kvs, kv.2.buf < n0) :
    Sim n0 (setLoop m t kvs).2 (setLoop m t kvs).1 m' (kvs.foldl (fun t kv => t.set kv.1 (read m' kv.2)) t') := by
  induction kvs generalizing m t t' with
  | nil => exact h
  | cons kv kvs ih =>
      obtain ⟨k, a⟩ := kv
      simp only [setLoop, List.foldl_cons]
      exact ih (sim_assign h k a (ho (k, a) (by simp))) (fun kv hkv => ho kv (by simp [hkv]))

theorem sim_step {n0 : Nat} {m : Mem ρ} {t : PyDict Str Arr} {m' : Mem ρ} {t' : PyDict Str (List ρ)} (h : Sim n0 m t m' t')
    (s : Step ρ) (hs : s.Own n0) : Sim n0 (s.run m t).2 (s.run m t).1 (s.spec m' t').2 (s.spec m' t').1 := by
  cases s with
  | assign k a => exact sim_assign h k a hs
  | assignMany ks vs =>
      simp only [Step.run, Step.spec, setItems]
      by_cases hl : ks.length = vs.length
      · simp only [hl, if_true]
        refine sim_loop (ks.zip vs) h ?_
        intro kv hkv
        exact hs _ (List.of_mem_zip hkv).2
      · simp only [hl, if_false]; exact h
  | del k =>
      simp only [Step.run, Step.spec, delItems]
      have hk : t.has k = true ∨ t.del k = t := by
        by_cases hk : k ∈ t.keys
        · exact Or.inl ((PyDict.has_iff _ _).mpr hk)
        · exact Or.inr (PyDict.del_of_not_mem _ _ hk)
      have : (if t.has k then ((.ok () : PyM Unit), t.del k) else (.error .keyError, t)).2 = t.del k := by
        rcases hk with hk | hk
        · rw [if_pos hk]
        · split
          · rfl
          · exact hk.symm
      rw [this]
      refine ⟨h.le, h.own, fun p hp => h.lo p (mem_del _ _ _ hp), ?_⟩
      rw [vals_del, h.vals]
  | update o =>
      have hal : Alive m o := fun p hp => Nat.lt_of_lt_of_le (hs p hp) h.le
      obtain ⟨h1, h2, h3⟩ := npArrays_true m o hal
      have e : (Step.update o).run m t = (t.update (npArrays m true o).1, (npArrays m true o).2) := rfl
      rw [e]
      simp only [Step.spec]
      refine ⟨Nat.le_trans h.le h1.le, ?_, ?_, ?_⟩
      · intro b hb
        exact (h1.cell b (Nat.lt_of_lt_of_le hb h.le)).trans (h.own b hb)
      · intro p hp
        rcases mem_update _ _ _ hp with hp | ⟨q, hq, he⟩
        · have := h.lo p hp
          exact ⟨this.1, Nat.lt_of_lt_of_le this.2 h1.le⟩
        · rw [← he]; exact ⟨Nat.le_trans h.le (h2.lo q hq), h2.hi q hq⟩
      · rw [vals_update, h3, vals_ext h1 t (fun p hp => (h.lo p hp).2), h.vals]
        congr 1
        unfold DataTable.vals
        apply List.map_congr_left
        intro p hp
        rw [h.read p.2 (hs p hp)]
  | clear => exact ⟨h.le, h.own, by intro p hp; simp [Step.run] at hp, rfl⟩
  | poke a j x =>
      simp only [Step.run, Step.spec]
      refine ⟨h.le, ?_, h.lo, ?_⟩
      · intro b hb
        funext i
        simp only [write]
        rw [h.own b hb]
      · rw [← h.vals]
        unfold DataTable.vals
        apply List.map_congr_left
        intro p hp
        rw [read_write_ne]
        have := (h.lo p hp).1
        simp only [Step.Own] at hs
        omega

/-- C07: whatever a program does with a table (assignments, deletions, updates, clears) interleaved with
in-place changes to its own arrays, the table's columns are what they would be if columns were
immutable values: later changes of the program's arrays never show. -/
theorem C07_value_semantics (m : Mem ρ) (ss : List (Step ρ)) (hs : ∀ s ∈ ss, s.Own m.next) :
    vals (runSteps m [] ss).2 (runSteps m [] ss).1 = (specSteps m [] ss).1 ∧
    ∀ a : Arr, a.buf < m.next → read (runSteps m [] ss).2 a = read (specSteps m [] ss).2 a := by
  have key : ∀ (ss : List (Step ρ)) (m0 : Mem ρ) (t : PyDict Str Arr) (m' : Mem ρ) (t' : PyDict Str (List ρ)) (n0 : Nat),
      (∀ s ∈ ss, s.Own n0) → Sim n0 m0 t m' t' →
      Sim n0 (runSteps m0 t ss).2 (runSteps m0 t ss).1 (specSteps m' t' ss).2 (specSteps m' t' ss).1 := by
    intro ss
    induction ss with
    | nil => intro m0 t m' t' n0 _ h; exact h
    | cons s ss ih =>
        intro m0 t m' t' n0 ho h
        exact ih _ _ _ _ n0 (fun s hs => ho s (by simp [hs])) (sim_step h s (ho s (by simp)))
  have := key ss m [] m [] m.next hs ⟨Nat.le_refl _, fun _ _ => rfl, by simp, rfl⟩
  exact ⟨this.vals, fun a ha => this.read a ha⟩

/-- A concrete history: assign, change the caller's array, assign again under another key. -/
example : let m : Mem Nat := ⟨1, fun _ i => i⟩
    let a : Arr := ⟨0, [0, 1]⟩
    let ss : List (Step Nat) := [.assign "x".toList a, .poke a 0 9, .assign "y".toList a]
    (∀ s ∈ ss, s.Own m.next) ∧ vals (runSteps m [] ss).2 (runSteps m [] ss).1 = [("x".toList, [0, 1]), ("y".toList, [9, 1])] := by
  refine ⟨?_, rfl⟩
  intro s hs
  simp at hs
  rcases hs with rfl | rfl | rfl <;> simp [Step.Own]

/-- C07: a tuple assignment with different lengths raises AssertionError; `del t[k1..kn]` deletes from
left to right, a missing key raises KeyError and keeps the earlier deletions; attribute access is
`[]` with KeyError turned into AttributeError. -/
theorem C07_errors (m : Mem ρ) (t : PyDict Str Arr) (ks : List Str) (vs : List Arr) (k : Str) :
    (ks.length ≠ vs.length → setItems m t ks vs = .error .assertionError) ∧
    (∀ pre post t1, delItems t pre = (.ok (), t1) → k ∉ t1.keys → delItems t (pre ++ k :: post) = (.error .keyError, t1)) ∧
    (∀ a, getAttr t k = .ok a ↔ getItem t k = .ok a) ∧ (getAttr t k = .error .attributeError ↔ k ∉ t.keys) := by
  refine ⟨?_, ?_, ?_, ?_⟩
  · intro h; unfold setItems; rw [if_neg h]
  · intro pre post t1 h hk
    induction pre generalizing t with
    | nil =>
        simp only [delItems, Prod.mk.injEq, true_and] at h
        subst h
        simp only [List.nil_append, delItems]
        rw [if_neg (fun hh => hk ((PyDict.has_iff _ _).mp hh))]
    | cons q pre ih =>
        simp only [delItems, List.cons_append] at h ⊢
        split at h
        · rename_i hq; rw [if_pos hq]; exact ih _ h
        · simp at h
  · intro a
    unfold getAttr getItem
    cases t.get? k <;> simp
  · rw [← PyDict.get?_eq_none_iff]
    unfold getAttr getItem
    cases t.get? k <;> simp

/-! ### C08: rows stay aligned -/

/-- Specification: the rows `ps` of a list. -/
def rowsAt (l : List ρ) (ps : List Nat) : List ρ := ps.map (fun p => l.getD p default)

/-- Specification: a row selection applied to every column. -/
def selRows (s : Sel) (v : PyDict Str (List ρ)) : PyM (PyDict Str (List ρ)) :=
  v.mapM (fun p => (s.positions p.2.length).map (fun ps => (p.1, rowsAt p.2 ps)))

/-- C08: which rows a selection means: a slice `lo:hi:step` the rows `start`, `start + step`, … strictly before `stop`, in this order (bounds count from the end if
negative, are moved into the table, and default to the whole table in the direction of the step; step 0: ValueError), an
integer array the given rows (negative counted from the end; out of range: IndexError), a mask the
rows with True (wrong length: IndexError). -/
theorem C08_positions (n : Nat) :
    (∀ lo hi : Option Int, Sel.positions n (.slice lo hi (some 0)) = .error .valueError) ∧
    (∀ (lo hi step : Option Int) (st B E : Int), st = step.getD 1 → st ≠ 0 →
      B = (match lo with | none => (if st < 0 then n - 1 else 0) | some x => (if st < 0 then clamp n (-1) (n - 1) x else clamp n 0 n x)) →
      E = (match hi with | none => (if st < 0 then -1 else n) | some x => (if st < 0 then clamp n (-1) (n - 1) x else clamp n 0 n x)) →
      ∃ ps, Sel.positions n (.slice lo hi step) = .ok ps ∧
        ∀ k p : Nat, ps[k]? = some p ↔ (p : Int) = B + k * st ∧ (0 < st → B + k * st < E) ∧ (st < 0 → E < B + k * st)) ∧
    (∀ is ps, Sel.positions n (.ints is) = .ok ps ↔ ps.length = is.length ∧
      ∀ (j : Nat) (p : Nat) (i : Int), ps[j]? = some p → is[j]? = some i → p < n ∧ ((p : Int) = i ∨ (p : Int) = i + n)) ∧
    (∀ bs ps, Sel.positions n (.mask bs) = .ok ps → bs.length = n ∧ ps.Pairwise (· < ·) ∧ ∀ p, p ∈ ps ↔ bs[p]? = some true) ∧
    (∀ bs : List Bool, bs.length ≠ n → Sel.positions n (.mask bs) = .error .indexError) := by
  refine ⟨fun lo hi => rfl, ?_, ?_, ?_, ?_⟩
  · intro lo hi step st B E hst h0 hB hE
    subst hst
    exact slicePos_step n lo hi step h0 B E (by cases lo <;> exact hB) (by cases hi <;> exact hE)
  · intro is
    simp only [Sel.positions]
    induction is with
    | nil =>
        intro ps
        simp only [List.mapM_nil, pure, Except.pure, Except.ok.injEq]
        constructor
        · rintro rfl; simp
        · intro h; cases ps with
          | nil => rfl
          | cons => simp at h
    | cons i is ih =>
        intro ps
        rw [List.mapM_cons]
        simp only [bind, Except.bind, pure, Except.pure]
        constructor
        · intro h
          split at h
          · cases h
          · rename_i p hp
            split at h
            · cases h
            · rename_i qs hq
              cases h
              obtain ⟨h1, h2⟩ := (ih qs).mp hq
              refine ⟨by simp [h1], ?_⟩
              intro j p' i' hj1 hj2
              cases j with
              | zero =>
                  simp at hj1 hj2; subst hj1; subst hj2
                  split at hp
                  · cases hp; omega
                  · split at hp
                    · cases hp; omega
                    · cases hp
              | succ j => exact h2 j p' i' (by simpa using hj1) (by simpa using hj2)
        · rintro ⟨hl, h⟩
          cases ps with
          | nil => simp at hl
          | cons p ps =>
              have h0 := h 0 p i rfl rfl
              have ht : is.mapM (fun (i : Int) => if 0 ≤ i ∧ i < n then (.ok i.toNat : PyM Nat) else
                  if -(n : Int) ≤ i ∧ i < 0 then .ok (i + n).toNat else .error .indexError) = .ok ps :=
                (ih ps).mpr ⟨by simpa using hl, fun j p' i' h1 h2 => h (j + 1) p' i' (by simpa using h1) (by simpa using h2)⟩
              rw [ht]
              by_cases hi : 0 ≤ i ∧ i < n
              · rw [if_pos hi]; simp only [Except.ok.injEq, List.cons.injEq, and_true]; omega
              · rw [if_neg hi, if_pos (by omega)]; simp only [Except.ok.injEq, List.cons.injEq, and_true]; omega
  · intro bs ps h
    simp only [Sel.positions] at h
    split at h
    · rename_i hl
      cases h
      refine ⟨hl, List.Pairwise.filter _ List.pairwise_lt_range, ?_⟩
      intro p
      simp only [List.mem_filter, List.mem_range, List.getD]
      constructor
      · rintro ⟨h1, h2⟩
        rw [List.getElem?_eq_getElem (by omega)] at h2 ⊢
        simpa using h2
      · intro h
        rw [List.getElem?_eq_some_iff] at h
        obtain ⟨h1, h2⟩ := h
        exact ⟨by omega, by rw [List.getElem?_eq_getElem h1]; simpa using h2⟩
    · cases h
  · intro bs h
    simp [Sel.positions, h]

example : Sel.positions 5 (.slice none none (some (-2))) = .ok [4, 2, 0] ∧ Sel.positions 5 (.slice (some 1) (some (-1)) none) = .ok [1, 2, 3] ∧
    Sel.positions 5 (.slice (some 9) (some 1) (some (-1))) = .ok [4, 3, 2] := by decide

theorem positions_lt (n : Nat) (s : Sel) (ps : List Nat) (h : s.positions n = .ok ps) : ∀ p ∈ ps, p < n := by
  intro p hp
  obtain ⟨-, -, c2, c3, -⟩ := C08_positions n
  cases s with
  | slice lo hi step => exact slicePos_ok h p hp
  | ints is =>
      obtain ⟨j, hj, he⟩ := List.getElem_of_mem hp
      obtain ⟨hl, hh⟩ := (c2 is ps).mp h
      exact (hh j p is[j] (by rw [List.getElem?_eq_getElem hj, he]) (List.getElem?_eq_getElem (by omega))).1
  | mask bs =>
      obtain ⟨hl, -, hh⟩ := c3 bs ps h
      have := (hh p).mp hp
      rw [List.getElem?_eq_some_iff] at this
      obtain ⟨h1, _⟩ := this
      omega

theorem index_spec (m : Mem ρ) (a : Arr) (s : Sel) (ha : a.buf < m.next) :
    (∀ e, s.positions a.idx.length = .error e → index m a s = .error e) ∧
    (∀ ps, s.positions a.idx.length = .ok ps → ∃ b m1, index m a s = .ok (b, m1) ∧ Ext m m1 ∧ b.buf < m1.next ∧
      read m1 b = rowsAt (read m a) ps) := by
  constructor
  · intro e he; simp [index, he, bind, Except.bind]
  · intro ps hps
    have hlt := positions_lt _ s ps hps
    cases s with
    | slice lo hi step =>
        refine ⟨⟨a.buf, ps.map (fun p => a.idx.getD p 0)⟩, m, by simp only [index, hps, bind, Except.bind, pure, Except.pure], Ext.refl m, ha, ?_⟩
        unfold read rowsAt
        rw [List.map_map]
        apply List.map_congr_left
        intro p hp
        have := hlt p hp
        simp [List.getD, List.getElem?_eq_getElem this]
    | ints is =>
        exact ⟨_, _, by simp only [index, hps, bind, Except.bind, pure, Except.pure]; rfl, alloc_ext m _, Nat.lt_succ_self _, read_alloc m _⟩
    | mask bs =>
        exact ⟨_, _, by simp only [index, hps, bind, Except.bind, pure, Except.pure]; rfl, alloc_ext m _, Nat.lt_succ_self _, read_alloc m _⟩

theorem indexCols_spec (s : Sel) (t : PyDict Str Arr) (m : Mem ρ) (ha : Alive m t) :
    (∀ e, selRows s (vals m t) = .error e → indexCols m s t = .error e) ∧
    (∀ v, selRows s (vals m t) = .ok v → ∃ d m1, indexCols m s t = .ok (d, m1) ∧ Ext m m1 ∧ Alive m1 d ∧ vals m1 d = v) := by
  induction t generalizing m with
  | nil =>
      constructor
      · intro e he; simp [selRows, vals, pure, Except.pure] at he
      · intro v hv
        simp [selRows, vals, pure, Except.pure] at hv
        subst hv
        exact ⟨[], m, rfl, Ext.refl m, by intro p hp; simp at hp, rfl⟩
  | cons p t ih =>
      obtain ⟨k, a⟩ := p
      have hlen : (read m a).length = a.idx.length := by simp [read]
      obtain ⟨i1, i2⟩ := index_spec m a s (ha (k, a) (by simp))
      have hv0 : selRows s (vals m ((k, a) :: t)) = (do
          let q ← (s.positions a.idx.length).map (fun ps => (k, rowsAt (read m a) ps))
          let r ← selRows s (vals m t)
          return q :: r) := by
        unfold selRows vals
        rw [List.map_cons, List.mapM_cons]
        simp only [hlen]
      rw [hv0]
      cases hps : s.positions a.idx.length with
      | error e0 =>
          constructor
          · intro e he
            simp [Except.map, bind, Except.bind] at he
            subst he
            simp [indexCols, i1 e0 hps, bind, Except.bind]
          · intro v hv; simp [Except.map, bind, Except.bind] at hv
      | ok ps =>
          obtain ⟨b, m1, hi, hE, hb, hrd⟩ := i2 ps hps
          have ha1 : Alive m1 t := fun q hq => Nat.lt_of_lt_of_le (ha q (by simp [hq])) hE.le
          obtain ⟨r1, r2⟩ := ih m1 ha1
          rw [vals_ext hE t (fun q hq => ha q (by simp [hq]))] at r1 r2
          constructor
          · intro e he
            simp only [Except.map, bind, Except.bind] at he
            cases hr : selRows s (vals m t) with
            | error e1 =>
                rw [hr] at he; cases he
                simp [indexCols, hi, r1 e hr, bind, Except.bind]
            | ok r => rw [hr] at he; cases he
          · intro v hv
            simp only [Except.map, bind, Except.bind] at hv
            cases hr : selRows s (vals m t) with
            | error e1 => rw [hr] at hv; cases hv
            | ok r =>
                rw [hr] at hv; cases hv
                obtain ⟨d, m2, hd, hE2, hal, hvv⟩ := r2 r hr
                refine ⟨(k, b) :: d, m2, by simp [indexCols, hi, hd, bind, Except.bind, pure, Except.pure], hE.trans hE2, ?_, ?_⟩
                · intro q hq
                  rcases List.mem_cons.mp hq with rfl | hq
                  · exact Nat.lt_of_lt_of_le hb hE2.le
                  · exact hal q hq
                · have : vals m2 ((k, b) :: d) = (k, read m2 b) :: vals m2 d := rfl
                  rw [this, hvv, read_ext hE2 b hb, hrd]

/-- C08: `t.subset(s)` / `t.iloc[s]`: the same selection is applied to every column, in the same column
order; it fails exactly when it fails for some column (first such column's error).  With copy=True
the result is fresh; existing arrays never change. -/
theorem C08_subset (m : Mem ρ) (t : PyDict Str Arr) (ha : Alive m t) (s : Sel) (copy : Bool) :
    (∀ e, selRows s (vals m t) = .error e → subset m t s copy = .error e) ∧
    (∀ v, selRows s (vals m t) = .ok v → ∃ r m', subset m t s copy = .ok (r, m') ∧ Ext m m' ∧ Alive m' r ∧ vals m' r = v ∧
      (copy = true → Fresh m m' r)) := by
  obtain ⟨h1, h2⟩ := indexCols_spec s t m ha
  constructor
  · intro e he; simp [subset, h1 e he, bind, Except.bind]
  · intro v hv
    obtain ⟨d, m1, hd, hE, hal, hvv⟩ := h2 v hv
    cases copy with
    | true =>
        obtain ⟨n1, n2, n3⟩ := npArrays_true m1 d hal
        refine ⟨_, _, by simp only [subset, hd, bind, Except.bind, pure, Except.pure]; rfl, hE.trans n1, n2.hi, n3.trans hvv, ?_⟩
        intro _
        exact ⟨fun p hp => Nat.le_trans hE.le (n2.lo p hp), n2.hi, n2.own⟩
    | false =>
        have e : new m1 d false = (d, m1) := npArrays_false m1 d
        refine ⟨d, m1, by simp only [subset, hd, bind, Except.bind, pure, Except.pure, e], hE, hal, hvv, ?_⟩
        intro h; cases h

omit [Inhabited ρ] in
theorem mapM_ok_iff {β γ : Type} (f : β → PyM γ) (l : List β) (r : List γ) :
    l.mapM f = .ok r ↔ r.length = l.length ∧ ∀ (j : Nat) (b : β) (c : γ), l[j]? = some b → r[j]? = some c → f b = .ok c := by
  induction l generalizing r with
  | nil =>
      simp only [List.mapM_nil, pure, Except.pure, Except.ok.injEq]
      constructor
      · rintro rfl; simp
      · intro h; cases r with
        | nil => rfl
        | cons => simp at h
  | cons b l ih =>
      rw [List.mapM_cons]
      simp only [bind, Except.bind, pure, Except.pure]
      constructor
      · intro h
        split at h
        · cases h
        · rename_i c hc
          split at h
          · cases h
          · rename_i cs hcs
            cases h
            obtain ⟨h1, h2⟩ := (ih cs).mp hcs
            refine ⟨by simp [h1], ?_⟩
            intro j b' c' hb' hc'
            cases j with
            | zero => simp at hb' hc'; subst hb'; subst hc'; exact hc
            | succ j => exact h2 j b' c' (by simpa using hb') (by simpa using hc')
      · rintro ⟨hl, h⟩
        cases r with
        | nil => simp at hl
        | cons c cs =>
            have h0 := h 0 b c rfl rfl
            rw [h0]
            simp only
            rw [(ih cs).mpr ⟨by simpa using hl, fun j b' c' h1 h2 => h (j + 1) b' c' (by simpa using h1) (by simpa using h2)⟩]

/-- (By value; used below.) in a table whose columns all have `n` rows, row `j` of the selection is row `ps[j]` of the table
in every column, all columns of the result have equal length again, and the keys keep their order. -/
theorem rows_aligned_vals (v : PyDict Str (List ρ)) (n : Nat) (hn : ∀ p ∈ v, p.2.length = n) (s : Sel) (ps : List Nat)
    (hps : s.positions n = .ok ps) :
    ∃ w, selRows s v = .ok w ∧ w.keys = v.keys ∧ (∀ p ∈ w, p.2.length = ps.length) ∧
      (∀ k l, v.get? k = some l → ∃ l', w.get? k = some l' ∧ ∀ (j i : Nat), ps[j]? = some i → l'[j]? = l[i]?) := by
  refine ⟨v.map (fun p => (p.1, rowsAt p.2 ps)), ?_, PyDict.keys_map (fun l => rowsAt l ps) v, ?_, ?_⟩
  · unfold selRows
    rw [mapM_ok_iff]
    refine ⟨by simp, ?_⟩
    intro j b c hb hc
    rw [List.getElem?_map, hb] at hc
    cases hc
    have : b ∈ v := List.mem_of_getElem? hb
    rw [hn b this, hps]; rfl
  · intro p hp
    obtain ⟨q, hq, rfl⟩ := List.mem_map.mp hp
    simp [rowsAt]
  · intro k l hl
    refine ⟨rowsAt l ps, (PyDict.get?_map (fun l => rowsAt l ps) v k).trans (by rw [hl]; rfl), ?_⟩
    intro j i hj
    have hlt := positions_lt n s ps hps i (List.mem_of_getElem? hj)
    have hln : l.length = n := hn (k, l) (PyDict.mem_of_get? _ _ _ hl)
    unfold rowsAt
    rw [List.getElem?_map, hj]
    simp [List.getD, List.getElem?_eq_getElem (hln ▸ hlt : i < l.length)]

/-- Specification of concatenation by value: for each column of the first table, in order, the rows of
that column in all tables one after another; KeyError if some table lacks it. -/
def catVals (v : PyDict Str (List ρ)) (others : List (PyDict Str (List ρ))) : PyM (PyDict Str (List ρ)) :=
  v.mapM (fun (p : Str × List ρ) => (others.mapM (fun (o : PyDict Str (List ρ)) =>
    match o.get? p.1 with | some l => (.ok l : PyM (List ρ)) | none => .error .keyError)).map
    (fun (ls : List (List ρ)) => (p.1, p.2 ++ ls.flatten)))

theorem getItem_mapM (m : Mem ρ) (ts : List (PyDict Str Arr)) (k : Str) :
    (ts.mapM (fun t => getItem t k)).map (fun as => as.map (read m)) =
      (ts.map (vals m)).mapM (fun (o : PyDict Str (List ρ)) => match o.get? k with | some l => (.ok l : PyM (List ρ)) | none => .error .keyError) := by
  induction ts with
  | nil => rfl
  | cons t ts ih =>
      rw [List.map_cons, List.mapM_cons, List.mapM_cons, ← ih]
      have e : (vals m t).get? k = (t.get? k).map (read m) := PyDict.get?_map _ _ _
      rw [e]
      unfold getItem
      cases t.get? k with
      | none => rfl
      | some a =>
          simp only [bind, Except.bind, Option.map_some]
          cases ts.mapM (fun t => match t.get? k with | some a => (Except.ok a : PyM Arr) | none => .error .keyError) with
          | error e => rfl
          | ok as => rfl

theorem concatCols_spec (t : PyDict Str Arr) (hwf : t.WF) (others : List (PyDict Str Arr)) (t0 : PyDict Str Arr)
    (hsub : ∀ p ∈ t, t0.get? p.1 = some p.2) (m : Mem ρ) (m0 : Mem ρ) (hE0 : Ext m0 m)
    (ha : Alive m0 t0) (hao : ∀ o ∈ others, Alive m0 o) :
    (∀ e, catVals (vals m0 t) (others.map (vals m0)) = .error e → concatCols m (t0 :: others) t.keys = .error e) ∧
    (∀ v, catVals (vals m0 t) (others.map (vals m0)) = .ok v →
      ∃ d m1, concatCols m (t0 :: others) t.keys = .ok (d, m1) ∧ Ext m m1 ∧ Alive m1 d ∧ vals m1 d = v) := by
  induction t generalizing m with
  | nil =>
      constructor
      · intro e he; simp [catVals, vals, pure, Except.pure] at he
      · intro v hv
        simp [catVals, vals, pure, Except.pure] at hv
        subst hv
        exact ⟨[], m, rfl, Ext.refl m, by intro p hp; simp at hp, rfl⟩
  | cons p t ih =>
      obtain ⟨k, a⟩ := p
      have hwf' : PyDict.WF t := by unfold PyDict.WF at hwf ⊢; simp only [PyDict.keys_cons, List.nodup_cons] at hwf; exact hwf.2
      have h0 : t0.get? k = some a := hsub (k, a) (by simp)
      have hga : getItem t0 k = .ok a := by unfold getItem; rw [h0]
      have ha0 : a.buf < m0.next := ha (k, a) (PyDict.mem_of_get? _ _ _ h0)
      have hspec : catVals (vals m0 ((k, a) :: t)) (others.map (vals m0)) = (do
          let q ← ((others.map (vals m0)).mapM (fun (o : PyDict Str (List ρ)) => match o.get? k with | some l => (.ok l : PyM (List ρ)) | none => .error .keyError)).map
            (fun (ls : List (List ρ)) => (k, read m0 a ++ ls.flatten))
          let r ← catVals (vals m0 t) (others.map (vals m0))
          return q :: r) := by
        unfold catVals
        have : vals m0 ((k, a) :: t) = (k, read m0 a) :: vals m0 t := rfl
        rw [this, List.mapM_cons]
      rw [hspec, ← getItem_mapM]
      have hcols : (t0 :: others).mapM (fun t => getItem t k) = (do
          let as ← others.mapM (fun t => getItem t k)
          return a :: as) := by
        rw [List.mapM_cons, hga]; rfl
      simp only [PyDict.keys_cons, concatCols, hcols]
      cases hm : others.mapM (fun t => getItem t k) with
      | error e0 =>
          constructor
          · intro e he
            simp only [Except.map, bind, Except.bind] at he ⊢
            cases he; rfl
          · intro v hv; simp [Except.map, bind, Except.bind] at hv
      | ok as =>
          have hread : ∀ b ∈ as, read m b = read m0 b := by
            intro b hb
            obtain ⟨hl, hh⟩ := (mapM_ok_iff _ _ _).mp hm
            obtain ⟨j, hj, he⟩ := List.getElem_of_mem hb
            have hjo : j < others.length := by omega
            have := hh j others[j] b (List.getElem?_eq_getElem hjo) (by rw [List.getElem?_eq_getElem hj, he])
            unfold getItem at this
            split at this
            · rename_i b' hb'
              cases this
              exact read_ext hE0 b (hao _ (List.getElem_mem hjo) _ (PyDict.mem_of_get? _ _ _ hb'))
            · cases this
          have hflat : (a :: as).flatMap (read m) = read m0 a ++ (as.map (read m0)).flatten := by
            rw [List.flatMap_cons, read_ext hE0 a ha0, List.flatMap_def]
            congr 2
            exact List.map_congr_left hread
          have hE1 := alloc_ext m ((a :: as).flatMap (read m))
          obtain ⟨r1, r2⟩ := ih hwf' (fun p hp => hsub p (by simp [hp])) _ (hE0.trans hE1)
          constructor
          · intro e he
            simp only [Except.map, bind, Except.bind, pure, Except.pure] at he ⊢
            cases hr : catVals (vals m0 t) (others.map (vals m0)) with
            | error e1 => rw [hr] at he; cases he; rw [r1 e hr]
            | ok r => rw [hr] at he; cases he
          · intro v hv
            simp only [Except.map, bind, Except.bind, pure, Except.pure] at hv ⊢
            cases hr : catVals (vals m0 t) (others.map (vals m0)) with
            | error e1 => rw [hr] at hv; cases hv
            | ok r =>
                rw [hr] at hv; cases hv
                obtain ⟨d, m2, hd, hE2, hal, hvv⟩ := r2 r hr
                refine ⟨(k, (alloc m ((a :: as).flatMap (read m))).1) :: d, m2, by rw [hd], hE1.trans hE2, ?_, ?_⟩
                · intro q hq
                  rcases List.mem_cons.mp hq with rfl | hq
                  · exact Nat.lt_of_lt_of_le (Nat.lt_succ_self _) hE2.le
                  · exact hal q hq
                · have : ∀ b, vals m2 ((k, b) :: d) = (k, read m2 b) :: vals m2 d := fun _ => rfl
                  rw [this, hvv, read_ext hE2 _ (Nat.lt_succ_self _), read_alloc, hflat]

/-- C08: `t.concat(u, ...)` has exactly the columns of `t` in order, each the rows of that column of all
tables stacked; a column missing in a later table raises KeyError, extra columns are ignored; the
result is fresh and no existing array changes. -/
theorem C08_concat (m : Mem ρ) (t : PyDict Str Arr) (hwf : t.WF) (ha : Alive m t) (others : List (PyDict Str Arr))
    (hao : ∀ o ∈ others, Alive m o) :
    (∀ e, catVals (vals m t) (others.map (vals m)) = .error e → concat m t others = .error e) ∧
    (∀ v, catVals (vals m t) (others.map (vals m)) = .ok v → ∃ r m', concat m t others = .ok (r, m') ∧ Ext m m' ∧
      Fresh m m' r ∧ vals m' r = v) := by
  obtain ⟨h1, h2⟩ := concatCols_spec t hwf others t (fun p hp => PyDict.get?_of_mem t hwf _ _ hp) m m (Ext.refl m) ha hao
  constructor
  · intro e he; simp [concat, h1 e he, bind, Except.bind]
  · intro v hv
    obtain ⟨d, m1, hd, hE, hal, hvv⟩ := h2 v hv
    obtain ⟨n1, n2, n3⟩ := npArrays_true m1 d hal
    refine ⟨_, _, by simp only [concat, hd, bind, Except.bind, pure, Except.pure]; rfl, hE.trans n1, ?_, n3.trans hvv⟩
    exact ⟨fun p hp => Nat.le_trans hE.le (n2.lo p hp), n2.hi, n2.own⟩

/-- (By value; used below.) by value, concatenation succeeds iff every later table has all columns of the first, and then
column `k` is the stack of the columns `k`. -/
theorem concat_rows_vals (v : PyDict Str (List ρ)) (us : List (PyDict Str (List ρ))) :
    ((∀ u ∈ us, ∀ k ∈ v.keys, k ∈ u.keys) → catVals v us =
      .ok (v.map (fun p => (p.1, p.2 ++ us.flatMap (fun u => (u.get? p.1).getD []))))) ∧
    (∀ u ∈ us, ∀ k ∈ v.keys, k ∉ u.keys → catVals v us = .error .keyError) := by
  have inner : ∀ (us : List (PyDict Str (List ρ))) (k : Str),
      us.mapM (fun (o : PyDict Str (List ρ)) => match o.get? k with | some l => (.ok l : PyM (List ρ)) | none => .error .keyError) =
      if ∀ u ∈ us, k ∈ u.keys then .ok (us.map (fun u => (u.get? k).getD [])) else .error .keyError := by
    intro us k
    induction us with
    | nil => simp [pure, Except.pure]
    | cons u us ih =>
        rw [List.mapM_cons, ih]
        by_cases hu : k ∈ u.keys
        · have hs := (PyDict.get?_isSome_iff u k).mpr hu
          cases hg : u.get? k with
          | none => rw [hg] at hs; cases hs
          | some l =>
              by_cases hall : ∀ u ∈ us, k ∈ u.keys
              · have hall' : ∀ u' ∈ u :: us, k ∈ u'.keys := by
                  intro u' hu'
                  rcases List.mem_cons.mp hu' with rfl | h
                  · exact hu
                  · exact hall u' h
                rw [if_pos hall, if_pos hall']
                simp only [bind, Except.bind, pure, Except.pure, List.map_cons, hg, Option.getD_some]
              · have : ¬ ∀ u' ∈ u :: us, k ∈ u'.keys := fun h => hall (fun u' hu' => h u' (by simp [hu']))
                rw [if_neg hall, if_neg this]; rfl
        · have : ¬ ∀ u' ∈ u :: us, k ∈ u'.keys := fun h => hu (h u (by simp))
          rw [if_neg this, (PyDict.get?_eq_none_iff u k).mpr hu]
          rfl
  constructor
  · intro h
    unfold catVals
    rw [mapM_ok_iff]
    refine ⟨by simp, ?_⟩
    intro j b c hb hc
    rw [List.getElem?_map, hb] at hc
    cases hc
    have hk : b.1 ∈ v.keys := List.mem_map.mpr ⟨b, List.mem_of_getElem? hb, rfl⟩
    rw [inner, if_pos (fun u hu => h u hu b.1 hk)]
    simp only [Except.map, List.flatMap_def]
  · intro u hu k hk hku
    unfold catVals
    induction v with
    | nil => simp at hk
    | cons p v ih =>
        rw [List.mapM_cons]
        rcases List.mem_cons.mp hk with rfl | hk
        · rw [inner, if_neg (fun h => hku (h u hu))]; rfl
        · have ih := ih hk
          rw [ih, inner]
          split
          · rfl
          · rfl

example : catVals [("a".toList, [1, 2]), ("b".toList, [3, 4])] [[("b".toList, [5]), ("z".toList, [7]), ("a".toList, [6])]] =
    .ok [("a".toList, [1, 2, 6]), ("b".toList, [3, 4, 5])] := rfl

/-! ### C09 -/

/-- (By value; used below.) concatenation is associative: `t.concat(u).concat(w)`, `t.concat(u, w)` and (when `w` has all
columns of `u`) `t.concat(u.concat(w))` hold the same columns. -/
theorem assoc_vals (v u w : PyDict Str (List ρ)) (hu : ∀ k ∈ v.keys, k ∈ u.keys) (hw : ∀ k ∈ u.keys, k ∈ w.keys) :
    ∃ vu uw r, catVals v [u] = .ok vu ∧ catVals u [w] = .ok uw ∧ catVals vu [w] = .ok r ∧ catVals v [uw] = .ok r ∧
      catVals v [u, w] = .ok r := by
  have h1 := (concat_rows_vals v [u]).1 (by simpa using hu)
  have h2 := (concat_rows_vals u [w]).1 (by simpa using hw)
  have hk1 : ∀ f : Str × List ρ → List ρ, PyDict.keys (v.map (fun p => (p.1, f p))) = v.keys := by
    intro f; simp [PyDict.keys]
  have hk2 : ∀ f : Str × List ρ → List ρ, PyDict.keys (u.map (fun p => (p.1, f p))) = u.keys := by
    intro f; simp [PyDict.keys]
  have h3 := (concat_rows_vals (v.map (fun p => (p.1, p.2 ++ [u].flatMap (fun u => (u.get? p.1).getD [])))) [w]).1 (by
    intro x hx; simp at hx; subst hx
    rw [hk1]; exact fun k hk => hw k (hu k hk))
  have h4 := (concat_rows_vals v [u.map (fun p => (p.1, p.2 ++ [w].flatMap (fun u => (u.get? p.1).getD [])))]).1 (by
    intro x hx; simp only [List.mem_singleton] at hx; subst hx
    rw [hk2]; exact hu)
  have h5 := (concat_rows_vals v [u, w]).1 (by
    intro x hx; simp only [List.mem_cons, List.not_mem_nil, or_false] at hx
    rcases hx with rfl | rfl
    · exact hu
    · exact fun k hk => hw k (hu k hk))
  have hgm : ∀ (d : PyDict Str (List ρ)) (f : Str × List ρ → List ρ) (k : Str),
      PyDict.get? (d.map (fun p => (p.1, f p))) k = (d.get? k).map (fun l => f (k, l)) := by
    intro d f k
    induction d with
    | nil => rfl
    | cons p d ih =>
        obtain ⟨k', l⟩ := p
        by_cases h : k' = k
        · subst h; simp [PyDict.get?]
        · simp only [List.map_cons, PyDict.get?, h, if_false]; exact ih
  refine ⟨_, _, _, h1, h2, h3, ?_, ?_⟩
  · rw [h4, List.map_map]
    congr 1
    apply List.map_congr_left
    intro p hp
    simp only [Function.comp, List.flatMap_cons, List.flatMap_nil, List.append_nil]
    rw [hgm]
    have hk : p.1 ∈ u.keys := hu p.1 (List.mem_map.mpr ⟨p, hp, rfl⟩)
    have hs := (PyDict.get?_isSome_iff u p.1).mpr hk
    cases hg : u.get? p.1 with
    | none => rw [hg] at hs; cases hs
    | some l => simp
  · rw [h5, List.map_map]
    congr 1
    apply List.map_congr_left
    intro p _
    simp

/-- (By value; used below.) for a table whose columns have `n` rows, the first `n` rows of `t.concat(u)` are `t`, and the
rows from `n` on are `u`'s columns restricted to `t`'s keys, in `t`'s order. -/
theorem split_vals (v u : PyDict Str (List ρ)) (n : Nat) (hn : ∀ p ∈ v, p.2.length = n) (hu : ∀ k ∈ v.keys, k ∈ u.keys) :
    ∃ c, catVals v [u] = .ok c ∧ selRows (.slice (some 0) (some n) none) c = .ok v ∧
      selRows (.slice (some n) none none) c = .ok (v.map (fun p => (p.1, (u.get? p.1).getD []))) := by
  have h1 := (concat_rows_vals v [u]).1 (by simpa using hu)
  refine ⟨_, h1, ?_, ?_⟩
  · unfold selRows
    rw [mapM_ok_iff]
    refine ⟨by simp, ?_⟩
    intro j b c hb hc
    rw [List.getElem?_map, hc] at hb
    cases hb
    have hl := hn c (List.mem_of_getElem? hc)
    simp only [Sel.positions]
    rw [slicePos_head _ n (by rw [List.length_append]; omega)]
    simp only [Except.map, Except.ok.injEq]
    obtain ⟨k, l⟩ := c
    simp only [Prod.mk.injEq, true_and] at hl ⊢
    unfold rowsAt
    apply List.ext_getElem
    · simp [hl]
    · intro i h1 h2
      simp only [List.getElem_map, List.getElem_range', List.getD, Nat.one_mul]
      simp [hl] at h1
      rw [List.getElem?_append_left (by simp; omega)]
      simp [List.getElem?_eq_getElem h2]
  · unfold selRows
    rw [mapM_ok_iff]
    refine ⟨by simp, ?_⟩
    intro j b c hb hc
    rw [List.getElem?_map] at hb hc
    cases hv : v[j]? with
    | none => rw [hv] at hb; cases hb
    | some p =>
        rw [hv] at hb hc
        cases hb; cases hc
        have hl := hn p (List.mem_of_getElem? hv)
        simp only [Sel.positions]
        rw [slicePos_tail _ n (by rw [List.length_append]; omega)]
        simp only [Except.map, Except.ok.injEq]
        obtain ⟨k, l⟩ := p
        simp only [Prod.mk.injEq, true_and, List.flatMap_cons, List.flatMap_nil, List.append_nil] at hl ⊢
        unfold rowsAt
        apply List.ext_getElem
        · simp [hl]
        · intro i h1 h2
          simp only [List.getElem_map, List.getElem_range', List.getD, Nat.one_mul]
          rw [List.getElem?_append_right (by simp [hl])]
          simp [hl, List.getElem?_eq_getElem h2]

/-- Specification of `subcol` by value. -/
def pickVals (v : PyDict Str (List ρ)) (ks : List Str) : PyM (PyDict Str (List ρ)) :=
  ks.foldlM (fun d k => match v.get? k with | some l => .ok (d.set k l) | none => .error .keyError) []

theorem pick_spec (m : Mem ρ) (t : PyDict Str Arr) (ks : List Str) : (pick t ks).map (vals m) = pickVals (vals m t) ks := by
  have key : ∀ (ks : List Str) (d : PyDict Str Arr),
      (ks.foldlM (fun d k => (do let a ← getItem t k; return d.set k a : PyM (PyDict Str Arr))) d).map (vals m) =
      ks.foldlM (fun d k => match (vals m t).get? k with | some l => (.ok (d.set k l) : PyM _) | none => .error .keyError) (vals m d) := by
    intro ks
    induction ks with
    | nil => intro d; rfl
    | cons k ks ih =>
        intro d
        rw [List.foldlM_cons, List.foldlM_cons]
        have e : (vals m t).get? k = (t.get? k).map (read m) := PyDict.get?_map _ _ _
        rw [e]
        unfold getItem
        cases t.get? k with
        | none => rfl
        | some a =>
            simp only [bind, Except.bind, pure, Except.pure, Option.map_some]
            rw [← vals_set]
            exact ih _
  exact key ks []

/-- C09: `t.subcol(keys)` holds exactly the requested columns by value (KeyError for a missing one);
fresh when copied. -/
theorem C09_subcol (m : Mem ρ) (t : PyDict Str Arr) (ha : Alive m t) (ks : List Str) (copy : Bool) :
    (∀ e, pickVals (vals m t) ks = .error e → subcol m t ks copy = .error e) ∧
    (∀ v, pickVals (vals m t) ks = .ok v → ∃ r m', subcol m t ks copy = .ok (r, m') ∧ Ext m m' ∧ Alive m' r ∧ vals m' r = v ∧
      (copy = true → Fresh m m' r)) := by
  have hp := pick_spec m t ks
  cases hpk : pick t ks with
  | error e0 =>
      rw [hpk] at hp
      simp only [Except.map] at hp
      rw [← hp]
      constructor
      · intro e he; cases he; simp [subcol, hpk, bind, Except.bind]
      · intro v hv; cases hv
  | ok d =>
      rw [hpk] at hp
      simp only [Except.map] at hp
      rw [← hp]
      have hal : Alive m d := by
        have key : ∀ (ks : List Str) (d0 d : PyDict Str Arr), Alive m d0 →
            ks.foldlM (fun d k => (do let a ← getItem t k; return d.set k a : PyM (PyDict Str Arr))) d0 = .ok d → Alive m d := by
          intro ks
          induction ks with
          | nil => intro d0 d h0 h; cases h; exact h0
          | cons k ks ih =>
              intro d0 d h0 h
              rw [List.foldlM_cons] at h
              simp only [bind, Except.bind] at h
              unfold getItem at h
              cases hg : t.get? k with
              | none => rw [hg] at h; cases h
              | some a =>
                  rw [hg] at h
                  refine ih (d0.set k a) d ?_ h
                  intro p hp
                  rcases mem_set _ _ _ _ hp with hp | hp
                  · exact h0 p hp
                  · rw [hp]; exact ha (k, a) (PyDict.mem_of_get? _ _ _ hg)
        exact key ks [] d (by intro p hp; simp at hp) hpk
      constructor
      · intro e he; cases he
      · intro v hv
        cases hv
        cases copy with
        | true =>
            obtain ⟨n1, n2, n3⟩ := npArrays_true m d hal
            exact ⟨_, _, by simp only [subcol, hpk, bind, Except.bind, pure, Except.pure]; rfl, n1, n2.hi, n3, fun _ => n2⟩
        | false =>
            have e : new m d false = (d, m) := npArrays_false m d
            exact ⟨d, m, by simp only [subcol, hpk, bind, Except.bind, pure, Except.pure, e], Ext.refl m, hal, rfl, fun h => by cases h⟩

/-- (By value; used below.) column selection commutes with row selection (for tables with columns of equal length and
keys that exist): selecting rows then columns or columns then rows gives the same table. -/
theorem commute_vals (v : PyDict Str (List ρ)) (n : Nat) (hn : ∀ p ∈ v, p.2.length = n) (ks : List Str)
    (hks : ∀ k ∈ ks, k ∈ v.keys) (s : Sel) (ps : List Nat) (hps : s.positions n = .ok ps) :
    ∃ a b r, selRows s v = .ok a ∧ pickVals v ks = .ok b ∧ pickVals a ks = .ok r ∧ selRows s b = .ok r := by
  have hsel : ∀ w : PyDict Str (List ρ), (∀ p ∈ w, p.2.length = n) → selRows s w = .ok (w.map (fun p => (p.1, rowsAt p.2 ps))) := by
    intro w hw
    unfold selRows
    rw [mapM_ok_iff]
    refine ⟨by simp, ?_⟩
    intro j b c hb hc
    rw [List.getElem?_map, hb] at hc
    cases hc
    rw [hw b (List.mem_of_getElem? hb), hps]; rfl
  have hset : ∀ (d : PyDict Str (List ρ)) k l, (d.set k l).map (fun p => (p.1, rowsAt p.2 ps)) =
      PyDict.set (d.map (fun p => (p.1, rowsAt p.2 ps))) k (rowsAt l ps) := by
    intro d k l
    induction d with
    | nil => rfl
    | cons p d ih =>
        obtain ⟨k', l'⟩ := p
        simp only [PyDict.set, List.map_cons]
        split
        · rfl
        · rw [List.map_cons, ih]
  have key : ∀ (ks : List Str) (d : PyDict Str (List ρ)), (∀ k ∈ ks, k ∈ v.keys) → (∀ p ∈ d, p.2.length = n) →
      ∃ b, ks.foldlM (fun (d : PyDict Str (List ρ)) k => match v.get? k with | some l => (.ok (d.set k l) : PyM (PyDict Str (List ρ))) | none => .error .keyError) d = .ok b ∧
        (∀ p ∈ b, p.2.length = n) ∧
        ks.foldlM (fun (d : PyDict Str (List ρ)) k => match PyDict.get? (v.map (fun (p : Str × List ρ) => (p.1, rowsAt p.2 ps))) k with
          | some l => (.ok (d.set k l) : PyM (PyDict Str (List ρ))) | none => .error .keyError) (d.map (fun p => (p.1, rowsAt p.2 ps))) =
          .ok (b.map (fun p => (p.1, rowsAt p.2 ps))) := by
    intro ks
    induction ks with
    | nil => intro d _ hd; exact ⟨d, rfl, hd, rfl⟩
    | cons k ks ih =>
        intro d hk hd
        rw [List.foldlM_cons]
        have hs := (PyDict.get?_isSome_iff v k).mpr (hk k (by simp))
        cases hg : v.get? k with
        | none => rw [hg] at hs; cases hs
        | some l =>
            simp only [bind, Except.bind]
            obtain ⟨b, h1, h2, h3⟩ := ih (d.set k l) (fun k hk' => hk k (by simp [hk'])) (by
              intro p hp
              rcases mem_set _ _ _ _ hp with hp | hp
              · exact hd p hp
              · rw [hp]; exact hn (k, l) (PyDict.mem_of_get? _ _ _ hg))
            refine ⟨b, h1, h2, ?_⟩
            rw [List.foldlM_cons, PyDict.get?_map (fun l => rowsAt l ps) v k, hg]
            simp only [Option.map_some, bind, Except.bind]
            rw [← hset]
            exact h3
  obtain ⟨b, h1, h2, h3⟩ := key ks [] hks (by intro p hp; simp at hp)
  exact ⟨_, b, _, hsel v hn, h1, h3, hsel b h2⟩

theorem vals_keys (m : Mem ρ) (t : PyDict Str Arr) : (vals m t).keys = t.keys := PyDict.keys_map (read m) t

theorem vals_len {m : Mem ρ} {t : PyDict Str Arr} {n : Nat} (hn : ∀ p ∈ t, (read m p.2).length = n) :
    ∀ p ∈ vals m t, p.2.length = n := by
  intro p hp
  obtain ⟨q, hq, rfl⟩ := List.mem_map.mp hp
  exact hn q hq

theorem of_vals_eq {m : Mem ρ} {t : PyDict Str Arr} {v : PyDict Str (List ρ)} (h : vals m t = v) (k : Str) (l : List ρ)
    (hl : v.get? k = some l) : ∃ b, t.get? k = some b ∧ read m b = l := by
  subst h
  unfold vals at hl
  rw [PyDict.get?_map] at hl
  cases hg : t.get? k with
  | none => rw [hg] at hl; cases hl
  | some b => rw [hg] at hl; exact ⟨b, rfl, Option.some.inj hl⟩

/-- C08: in a table whose columns all have `n` rows, `t.subset(s)` has the same columns in the same order,
its row `j` is row `ps[j]` of `t` in every column (`ps`: the rows the selection means), and all
its columns have the same number of rows again. -/
theorem C08_rows_aligned (m : Mem ρ) (t : PyDict Str Arr) (ha : Alive m t) (n : Nat) (hn : ∀ p ∈ t, (read m p.2).length = n)
    (s : Sel) (ps : List Nat) (hps : s.positions n = .ok ps) (copy : Bool) :
    ∃ r m', subset m t s copy = .ok (r, m') ∧ r.keys = t.keys ∧ (∀ p ∈ r, (read m' p.2).length = ps.length) ∧
      (∀ k a, t.get? k = some a → ∃ b, r.get? k = some b ∧ ∀ (j i : Nat), ps[j]? = some i → (read m' b)[j]? = (read m a)[i]?) := by
  obtain ⟨w, h1, h2, h3, h4⟩ := rows_aligned_vals (vals m t) n (vals_len hn) s ps hps
  obtain ⟨r, m', e1, -, -, e4, -⟩ := (C08_subset m t ha s copy).2 w h1
  refine ⟨r, m', e1, ?_, ?_, ?_⟩
  · rw [← vals_keys m' r, e4, h2, vals_keys]
  · intro p hp
    exact h3 (p.1, read m' p.2) (by rw [← e4]; exact List.mem_map.mpr ⟨p, hp, rfl⟩)
  · intro k a hk
    obtain ⟨l', hl', hj⟩ := h4 k (read m a) (by unfold vals; rw [PyDict.get?_map, hk]; rfl)
    obtain ⟨b, hb, hrb⟩ := of_vals_eq (m := m') e4 k l' hl'
    exact ⟨b, hb, by rw [hrb]; exact hj⟩

/-- C08: `t.concat(u, ...)` succeeds iff every later table has all columns of `t` (otherwise KeyError), and
then it has the columns of `t` in order and column `k` is the stack of the columns `k` of `t, u, ...`
(extra columns of later tables are ignored). -/
theorem C08_concat_rows (m : Mem ρ) (t : PyDict Str Arr) (hwf : t.WF) (ha : Alive m t) (us : List (PyDict Str Arr))
    (hau : ∀ u ∈ us, Alive m u) :
    ((∀ u ∈ us, ∀ k ∈ t.keys, k ∈ u.keys) → ∃ r m', concat m t us = .ok (r, m') ∧ r.keys = t.keys ∧
      ∀ k a, t.get? k = some a → ∃ b, r.get? k = some b ∧
        read m' b = read m a ++ us.flatMap (fun u => match u.get? k with | some c => read m c | none => [])) ∧
    (∀ u ∈ us, ∀ k ∈ t.keys, k ∉ u.keys → concat m t us = .error .keyError) := by
  obtain ⟨c1, c2⟩ := C08_concat m t hwf ha us hau
  obtain ⟨v1, v2⟩ := concat_rows_vals (vals m t) (us.map (vals m))
  constructor
  · intro h
    obtain ⟨r, m', e1, -, -, e4⟩ := c2 _ (v1 (by
      intro u hu k hk
      obtain ⟨u0, hu0, rfl⟩ := List.mem_map.mp hu
      rw [vals_keys] at hk ⊢
      exact h u0 hu0 k hk))
    refine ⟨r, m', e1, ?_, ?_⟩
    · rw [← vals_keys m' r, e4]
      simp [PyDict.keys, vals]
    · intro k a hk
      have hmem := PyDict.mem_of_get? _ _ _ hk
      have : ((k, read m a ++ (us.map (vals m)).flatMap (fun u => (u.get? k).getD [])) : Str × List ρ) ∈ vals m' r := by
        rw [e4]
        exact List.mem_map.mpr ⟨(k, read m a), List.mem_map.mpr ⟨(k, a), hmem, rfl⟩, rfl⟩
      have hrw : PyDict.WF (vals m' r) := by
        unfold PyDict.WF at hwf ⊢
        rw [e4]
        unfold PyDict.keys vals at *
        rw [List.map_map, List.map_map]
        exact hwf
      obtain ⟨b, hb, hrb⟩ := of_vals_eq (m := m') rfl k _ (PyDict.get?_of_mem _ hrw _ _ this)
      refine ⟨b, hb, ?_⟩
      rw [hrb]
      congr 1
      rw [List.flatMap_map]
      congr 1
      funext u
      unfold vals
      rw [PyDict.get?_map]
      cases u.get? k <;> rfl
  · intro u hu k hk hku
    refine c1 _ (v2 (vals m u) (List.mem_map.mpr ⟨u, hu, rfl⟩) k ?_ ?_)
    · rw [vals_keys]; exact hk
    · rw [vals_keys]; exact hku

theorem concat_vals (m : Mem ρ) (t : PyDict Str Arr) (hwf : t.WF) (ha : Alive m t) (us : List (PyDict Str Arr))
    (hau : ∀ u ∈ us, Alive m u) (v : PyDict Str (List ρ)) (hv : catVals (vals m t) (us.map (vals m)) = .ok v) :
    ∃ r m', concat m t us = .ok (r, m') ∧ Ext m m' ∧ Alive m' r ∧ vals m' r = v := by
  obtain ⟨r, m', e1, e2, e3, e4⟩ := (C08_concat m t hwf ha us hau).2 v hv
  exact ⟨r, m', e1, e2, e3.hi, e4⟩

theorem alive_ext {m m' : Mem ρ} (hE : Ext m m') {t : PyDict Str Arr} (ha : Alive m t) : Alive m' t :=
  fun p hp => Nat.lt_of_lt_of_le (ha p hp) hE.le

theorem wf_of_vals {m' : Mem ρ} {r : PyDict Str Arr} {v : PyDict Str (List ρ)} (h : vals m' r = v) (hv : v.WF) : r.WF := by
  unfold PyDict.WF at hv ⊢
  rw [← vals_keys m' r, h]; exact hv

theorem catVals_keys (v : PyDict Str (List ρ)) (us : List (PyDict Str (List ρ))) (w : PyDict Str (List ρ)) (h : catVals v us = .ok w) :
    w.keys = v.keys := by
  unfold catVals at h
  rw [mapM_ok_iff] at h
  obtain ⟨hl, hh⟩ := h
  unfold PyDict.keys
  apply List.ext_getElem
  · simp [hl]
  · intro i h1 h2
    simp only [List.length_map] at h1 h2
    have := hh i v[i] w[i] (List.getElem?_eq_getElem h2) (List.getElem?_eq_getElem h1)
    simp only [List.getElem_map]
    cases hm : us.mapM (fun (o : PyDict Str (List ρ)) => match o.get? (v[i]).1 with | some l => (.ok l : PyM (List ρ)) | none => .error .keyError) with
    | error e => rw [hm] at this; cases this
    | ok ls => rw [hm] at this; simp only [Except.map, Except.ok.injEq] at this; rw [← this]

/-- C09: concatenation is associative: `t.concat(u).concat(w)`, `t.concat(u.concat(w))` and `t.concat(u, w)`
hold the same columns, in the same order (for tables where `u` has the columns of `t` and `w` those of `u`). -/
theorem C09_assoc (m : Mem ρ) (t u w : PyDict Str Arr) (ht : t.WF) (hu : u.WF) (hat : Alive m t) (hau : Alive m u) (haw : Alive m w)
    (htu : ∀ k ∈ t.keys, k ∈ u.keys) (huw : ∀ k ∈ u.keys, k ∈ w.keys) :
    ∃ tu m1 r1 m2 uw m3 r2 m4 r3 m5,
      concat m t [u] = .ok (tu, m1) ∧ concat m1 tu [w] = .ok (r1, m2) ∧
      concat m2 u [w] = .ok (uw, m3) ∧ concat m3 t [uw] = .ok (r2, m4) ∧
      concat m4 t [u, w] = .ok (r3, m5) ∧
      vals m5 r1 = vals m5 r3 ∧ vals m5 r2 = vals m5 r3 ∧ r3.keys = t.keys := by
  obtain ⟨vu, uw, r, h1, h2, h3, h4, h5⟩ := assoc_vals (vals m t) (vals m u) (vals m w)
    (by rw [vals_keys, vals_keys]; exact htu) (by rw [vals_keys, vals_keys]; exact huw)
  obtain ⟨a, m1, e1, x1, l1, q1⟩ := concat_vals m t ht hat [u] (by simpa using hau) vu h1
  have wa : a.WF := wf_of_vals q1 (by
    have := catVals_keys _ _ _ h1
    unfold PyDict.WF at ht ⊢; rw [this, vals_keys]; exact ht)
  obtain ⟨b, m2, e2, x2, l2, q2⟩ := concat_vals m1 a wa l1 [w] (by simpa using alive_ext x1 haw) r (by
    simp only [List.map_cons, List.map_nil, q1, vals_ext x1 w haw]; exact h3)
  have x12 := x1.trans x2
  obtain ⟨c, m3, e3, x3, l3, q3⟩ := concat_vals m2 u hu (alive_ext x12 hau) [w] (by simpa using alive_ext x12 haw) uw (by
    simp only [List.map_cons, List.map_nil, vals_ext x12 u hau, vals_ext x12 w haw]; exact h2)
  have x13 := x12.trans x3
  obtain ⟨d, m4, e4, x4, l4, q4⟩ := concat_vals m3 t ht (alive_ext x13 hat) [c] (by simpa using l3) r (by
    simp only [List.map_cons, List.map_nil, vals_ext x13 t hat, q3]; exact h4)
  have x14 := x13.trans x4
  obtain ⟨e, m5, e5, x5, l5, q5⟩ := concat_vals m4 t ht (alive_ext x14 hat) [u, w]
    (by intro o ho; simp only [List.mem_cons, List.not_mem_nil, or_false] at ho; rcases ho with rfl | rfl
        · exact alive_ext x14 hau
        · exact alive_ext x14 haw) r (by
    simp only [List.map_cons, List.map_nil, vals_ext x14 t hat, vals_ext x14 u hau, vals_ext x14 w haw]; exact h5)
  refine ⟨a, m1, b, m2, c, m3, d, m4, e, m5, e1, e2, e3, e4, e5, ?_, ?_, ?_⟩
  · rw [vals_ext ((x3.trans x4).trans x5) b l2, q2, q5]
  · rw [vals_ext x5 d l4, q4, q5]
  · rw [← vals_keys m5 e, q5, catVals_keys _ _ _ h5, vals_keys]

/-- C09: for a table whose columns have `n` rows, the first `n` rows of `t.concat(u)` are `t`, and the
rows from `n` on are `u`'s columns restricted to `t`'s keys, in `t`'s order. -/
theorem C09_split (m : Mem ρ) (t u : PyDict Str Arr) (ht : t.WF) (hat : Alive m t) (hau : Alive m u) (n : Nat)
    (hn : ∀ p ∈ t, (read m p.2).length = n) (htu : ∀ k ∈ t.keys, k ∈ u.keys) (copy : Bool) :
    ∃ c m1 a m2 b m3, concat m t [u] = .ok (c, m1) ∧ subset m1 c (.slice (some 0) (some n) none) copy = .ok (a, m2) ∧
      subset m2 c (.slice (some n) none none) copy = .ok (b, m3) ∧
      vals m3 a = vals m t ∧ b.keys = t.keys ∧
      ∀ k x y, b.get? k = some x → u.get? k = some y → read m3 x = read m y := by
  obtain ⟨c0, h1, h2, h3⟩ := split_vals (vals m t) (vals m u) n (vals_len hn) (by rw [vals_keys, vals_keys]; exact htu)
  obtain ⟨c, m1, e1, x1, l1, q1⟩ := concat_vals m t ht hat [u] (by simpa using hau) c0 h1
  obtain ⟨a, m2, e2, x2, l2, q2, -⟩ := (C08_subset m1 c l1 (.slice (some 0) (some n) none) copy).2 _ (by rw [q1]; exact h2)
  obtain ⟨b, m3, e3, x3, l3, q3, -⟩ := (C08_subset m2 c (alive_ext x2 l1) (.slice (some n) none none) copy).2 _
    (by rw [vals_ext x2 c l1, q1]; exact h3)
  refine ⟨c, m1, a, m2, b, m3, e1, e2, e3, ?_, ?_, ?_⟩
  · rw [vals_ext x3 a l2, q2]
  · rw [← vals_keys m3 b, q3]; simp [PyDict.keys, vals]
  · intro k x y hx hy
    have hx' : ((k, read m3 x) : Str × List ρ) ∈ vals m3 b := List.mem_map.mpr ⟨(k, x), PyDict.mem_of_get? _ _ _ hx, rfl⟩
    rw [q3] at hx'
    obtain ⟨p, hp, he⟩ := List.mem_map.mp hx'
    obtain ⟨rfl, he2⟩ := Prod.mk.inj he
    rw [← he2]
    unfold vals
    rw [PyDict.get?_map, hy]; rfl

/-- C09: column selection commutes with row selection: for a table with columns of equal length and
keys that exist, `t.subset(s).subcol(ks)` and `t.subcol(ks).subset(s)` hold the same table. -/
theorem C09_commute (m : Mem ρ) (t : PyDict Str Arr) (ha : Alive m t) (n : Nat) (hn : ∀ p ∈ t, (read m p.2).length = n)
    (ks : List Str) (hks : ∀ k ∈ ks, k ∈ t.keys) (s : Sel) (ps : List Nat) (hps : s.positions n = .ok ps) (c1 c2 c3 c4 : Bool) :
    ∃ a m1 r m2 b m3 r' m4, subset m t s c1 = .ok (a, m1) ∧ subcol m1 a ks c2 = .ok (r, m2) ∧
      subcol m2 t ks c3 = .ok (b, m3) ∧ subset m3 b s c4 = .ok (r', m4) ∧ vals m4 r = vals m4 r' := by
  obtain ⟨a0, b0, r0, h1, h2, h3, h4⟩ := commute_vals (vals m t) n (vals_len hn) ks (by rw [vals_keys]; exact hks) s ps hps
  obtain ⟨a, m1, e1, x1, l1, q1, -⟩ := (C08_subset m t ha s c1).2 _ h1
  obtain ⟨r, m2, e2, x2, l2, q2, -⟩ := (C09_subcol m1 a l1 ks c2).2 _ (by rw [q1]; exact h3)
  have x12 := x1.trans x2
  obtain ⟨b, m3, e3, x3, l3, q3, -⟩ := (C09_subcol m2 t (alive_ext x12 ha) ks c3).2 _ (by rw [vals_ext x12 t ha]; exact h2)
  obtain ⟨r', m4, e4, x4, l4, q4, -⟩ := (C08_subset m3 b l3 s c4).2 _ (by rw [q3]; exact h4)
  exact ⟨a, m1, r, m2, b, m3, r', m4, e1, e2, e3, e4, by rw [vals_ext (x3.trans x4) r l2, q2, q4]⟩

/-- The hypotheses of the C08/C09 theorems are met: two tables of two and one rows in a memory with three
arrays, and the concatenation has the stacked columns. -/
example :
    let m : Mem Nat := { next := 4, cell := fun b i => 10 * b + i }
    let t : PyDict Str Arr := [("a".toList, ⟨0, [0, 1]⟩), ("b".toList, ⟨1, [0, 1]⟩)]
    let u : PyDict Str Arr := [("b".toList, ⟨2, [0]⟩), ("a".toList, ⟨3, [0]⟩)]
    t.WF ∧ Alive m t ∧ Alive m u ∧ (∀ p ∈ t, (read m p.2).length = 2) ∧ (∀ k ∈ t.keys, k ∈ u.keys) ∧
    (concat m t [u]).map (fun r => vals r.2 r.1) = .ok [("a".toList, [0, 1, 30]), ("b".toList, [10, 11, 20])] := by
  refine ⟨?_, ?_, ?_, ?_, ?_, rfl⟩
  · unfold PyDict.WF; decide
  · intro p hp; simp at hp; rcases hp with rfl | rfl <;> decide
  · intro p hp; simp at hp; rcases hp with rfl | rfl <;> decide
  · intro p hp; simp at hp; rcases hp with rfl | rfl <;> rfl
  · decide

/-- The hypotheses are met by a two-column table, rows selected by a mask. -/
example : Sel.positions 3 (.mask [true, false, true]) = .ok [0, 2] ∧
    selRows (.mask [true, false, true]) [("a".toList, [1, 2, 3]), ("b".toList, [4, 5, 6])] =
      .ok [("a".toList, [1, 3]), ("b".toList, [4, 6])] ∧
    Sel.positions 3 (.ints [-1, 0]) = .ok [2, 0] ∧ Sel.positions 3 (.ints [3]) = .error .indexError := ⟨rfl, rfl, rfl, rfl⟩

/-- C07: `t[k1, ..., kn]` is the columns in the order of the keys (references, as with one key); KeyError if and only if one of the keys is missing. -/
theorem C07_get_many (t : PyDict Str Arr) (ks : List Str) :
    (∀ as, getItems t ks = .ok as ↔ as.length = ks.length ∧ ∀ (i : Nat) (k : Str) (a : Arr), ks[i]? = some k → as[i]? = some a → t.get? k = some a) ∧
    (getItems t ks = .error .keyError ↔ ∃ k ∈ ks, k ∉ t.keys) := by
  unfold getItems
  induction ks with
  | nil =>
    refine ⟨?_, by simp [pure, Except.pure]⟩
    intro as
    simp only [List.mapM_nil, pure, Except.pure, List.length_nil]
    constructor
    · intro h
      cases h
      exact ⟨rfl, by simp⟩
    · rintro ⟨h, -⟩
      rw [List.length_eq_zero_iff] at h
      rw [h]
  | cons k ks ih =>
    obtain ⟨ih1, ih2⟩ := ih
    rw [List.mapM_cons]
    cases hk : t.get? k with
    | none =>
      have : getItem t k = .error .keyError := by unfold getItem; rw [hk]
      rw [this]
      have hnot : k ∉ t.keys := (PyDict.get?_eq_none_iff t k).mp hk
      refine ⟨?_, ?_⟩
      · intro as
        constructor
        · intro h; cases h
        · rintro ⟨hl, h⟩
          cases as with
          | nil => simp at hl
          | cons a as =>
            have := h 0 k a (by simp) (by simp)
            rw [hk] at this
            cases this
      · exact ⟨fun _ => ⟨k, by simp, hnot⟩, fun _ => rfl⟩
    | some a0 =>
      have : getItem t k = .ok a0 := by unfold getItem; rw [hk]
      rw [this]
      have hin : k ∈ t.keys := by
        rw [← PyDict.get?_isSome_iff, hk]; rfl
      cases hrest : List.mapM (getItem t) ks with
      | error e =>
        rw [hrest] at ih1 ih2
        refine ⟨?_, ?_⟩
        · intro as
          constructor
          · intro h; cases h
          · rintro ⟨hl, h⟩
            cases as with
            | nil => simp at hl
            | cons a as =>
              have := (ih1 as).mpr ⟨by simpa using hl, fun i k' a' h1 h2 => h (i + 1) k' a' (by simpa using h1) (by simpa using h2)⟩
              cases this
        · constructor
          · intro h
            have h' : (Except.error e : PyM (List Arr)) = .error .keyError := by
              simp only [bind, Except.bind] at h
              cases h
              rfl
            obtain ⟨k', hk', hn⟩ := ih2.mp h'
            exact ⟨k', by simp [hk'], hn⟩
          · rintro ⟨k', hk', hn⟩
            rcases List.mem_cons.mp hk' with rfl | hk'
            · exact absurd hin hn
            · have := ih2.mpr ⟨k', hk', hn⟩
              cases this
              rfl
      | ok as0 =>
        rw [hrest] at ih1 ih2
        refine ⟨?_, ?_⟩
        · intro as
          constructor
          · intro h
            have h' : a0 :: as0 = as := by
              simp only [bind, Except.bind, pure, Except.pure] at h
              exact Except.ok.inj h
            subst h'
            obtain ⟨hl, hh⟩ := (ih1 as0).mp rfl
            refine ⟨by simp [hl], ?_⟩
            intro i k' a' h1 h2
            cases i with
            | zero => simp at h1 h2; subst h1; subst h2; exact hk
            | succ i => exact hh i k' a' (by simpa using h1) (by simpa using h2)
          · rintro ⟨hl, h⟩
            cases as with
            | nil => simp at hl
            | cons a as =>
              have e1 := h 0 k a (by simp) (by simp)
              rw [hk] at e1
              cases e1
              have e2 := (ih1 as).mpr ⟨by simpa using hl, fun i k' a' h1 h2 => h (i + 1) k' a' (by simpa using h1) (by simpa using h2)⟩
              cases e2
              rfl
        · constructor
          · intro h; cases h
          · rintro ⟨k', hk', hn⟩
            rcases List.mem_cons.mp hk' with rfl | hk'
            · exact absurd hin hn
            · have := ih2.mpr ⟨k', hk', hn⟩
              cases this

end Pyhipp.DataTable
