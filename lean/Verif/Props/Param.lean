import Verif.Model.Param
import Mathlib.Data.List.Basic
import Mathlib.Data.List.Induction
/-
C83: name look-up in a ParamList.
-/
namespace Pyhipp.Param
open Pyhipp

local notation "Ref" => Nat
variable {V : Type}

/-! ### Specification -/

/-- The slot a Python index denotes in a list of length `n`. -/
def slot (n : Nat) (i : Int) : Option Nat :=
  if 0 ≤ i then (if i.toNat < n then some i.toNat else none) else (if 0 ≤ i + n then some (i + n).toNat else none)

/-- What has been stored, oldest first: at construction every parameter in its slot, then the accepted assignments. -/
def stores (h : Heap V) (ps : List Ref) (ops : List (Op V)) : List (Str × Nat) :=
  (ps.zipIdx.map (fun x => ((h x.1).name, x.2))) ++
  ops.filterMap (fun op => match op with
    | .assign i r => (slot ps.length i).map (fun k => ((h r).name, k))
    | .setValues _ => none)

/-- The slot in which a name was stored last. -/
def lastSlot (log : List (Str × Nat)) (n : Str) : Option Nat := ((log.filter (fun x => x.1 = n)).getLast?).map (·.2)

/-- The contents of the slots after a history of assignments. -/
def occupants (ps : List Ref) (ops : List (Op V)) : List Ref :=
  ops.foldl (fun acc op => match op with
    | .assign i r => match slot ps.length i with
        | some k => acc.set k r
        | none => acc
    | .setValues _ => acc) ps

/-- The value, or the exception if there is none. -/
def orErr {α : Type} (e : PyErr) : Option α → PyM α
  | some a => .ok a
  | none => .error e

/-! ### Lemmas -/

theorem pyGet_slot {α : Type} (xs : List α) (i : Int) : pyGet xs i = orErr .indexError ((slot xs.length i).bind (fun k => xs[k]?)) := by
  unfold pyGet slot
  by_cases h0 : 0 ≤ i
  · simp only [h0, if_true]
    by_cases h : i.toNat < xs.length
    · simp [h, orErr]
    · simp [h, orErr]
  · simp only [h0, if_false]
    by_cases h : 0 ≤ i + (xs.length : Int)
    · simp only [h, if_true, Option.bind_some]; cases xs[(i + (xs.length : Int)).toNat]? <;> rfl
    · simp [h, orErr]

theorem slot_lt {n : Nat} {i : Int} {k : Nat} (h : slot n i = some k) : k < n := by
  unfold slot at h
  split at h
  · split at h
    · injection h; omega
    · simp at h
  · split at h
    · injection h; omega
    · simp at h

theorem pySet_slot {α : Type} (xs : List α) (i : Int) (v : α) : pySet xs i v = match slot xs.length i with
    | some k => .ok (xs.set k v)
    | none => .error .indexError := by
  unfold pySet slot
  by_cases h0 : 0 ≤ i
  · simp only [h0, if_true]; by_cases h : i.toNat < xs.length <;> simp [h]
  · simp only [h0, if_false]; by_cases h : 0 ≤ i + (xs.length : Int) <;> simp [h]

theorem setValue_name (h : Heap V) (r : Ref) (v : List V) (x : Ref) : ((setValue h r v).2 x).name = (h x).name := by
  unfold setValue
  dsimp only
  split
  · dsimp only; split <;> simp_all
  · split
    · dsimp only; split <;> simp_all
    · rfl

theorem setAll_name (rs : List Ref) (vs : List (List V)) (h : Heap V) (x : Ref) : ((setAll h rs vs).2 x).name = (h x).name := by
  induction rs generalizing vs h with
  | nil => cases vs <;> rfl
  | cons r rs ih =>
      cases vs with
      | nil => rfl
      | cons v vs =>
          rw [setAll]
          have := setValue_name h r v x
          split
          · rename_i h' heq; rw [heq] at this; rw [ih, this]
          · rename_i e h' heq; rw [heq] at this; exact this

/-! ### Theorems -/

/-- C83: an integer picks the parameter in that place (negative numbers count from the end), an integer out of range is an IndexError. -/
theorem C83_index (h : Heap V) (ps : List Ref) (i : Int) :
    (PList.new h ps).getItem (.int i) = orErr .indexError ((slot ps.length i).bind (fun k => ps[k]?)) := pyGet_slot ps i

/-- The names recorded are those of the log. -/
def Tracks (d : PyDict Str Int) (n : Nat) (log : List (Str × Nat)) : Prop :=
  ∀ s, (d.get? s = none ↔ lastSlot log s = none) ∧ ∀ i, d.get? s = some i → slot n i = lastSlot log s

theorem lastSlot_append (log : List (Str × Nat)) (s t : Str) (k : Nat) :
    lastSlot (log ++ [(t, k)]) s = if t = s then some k else lastSlot log s := by
  unfold lastSlot
  rw [List.filter_append]
  by_cases h : t = s
  · simp [h]
  · simp [h]

theorem Tracks.set {d : PyDict Str Int} {n : Nat} {log : List (Str × Nat)} (T : Tracks d n log) {i : Int} {k : Nat} (hk : slot n i = some k) (t : Str) :
    Tracks (d.set t i) n (log ++ [(t, k)]) := by
  intro s
  rw [PyDict.get?_set, lastSlot_append]
  by_cases hs : s = t
  · subst hs; simp [hk]
  · rw [if_neg hs, if_neg (Ne.symm hs)]; exact T s

theorem slot_nat {n k : Nat} (h : k < n) : slot n (k : Int) = some k := by simp [slot, h]

theorem indexNames_tracks (h : Heap V) (n : Nat) (ps : List Ref) (i : Nat) (d : PyDict Str Int) (log : List (Str × Nat)) (T : Tracks d n log) (hn : i + ps.length ≤ n) :
    Tracks (indexNames h i ps d) n (log ++ (ps.zipIdx i).map (fun x => ((h x.1).name, x.2))) := by
  induction ps generalizing i d log with
  | nil => simpa [indexNames] using T
  | cons r rs ih =>
      rw [indexNames, List.zipIdx_cons, List.map_cons]
      simp only [List.length_cons] at hn
      have := ih (i + 1) _ _ (T.set (slot_nat (show i < n by omega)) (h r).name) (by omega)
      simpa using this

/-- All that matters of the state: names never change, the list keeps its length, the slots hold the last assigned parameters and
every name points to the slot where it was last stored. -/
theorem run_inv (h : Heap V) (ps : List Ref) (ops : List (Op V)) :
    let s := run (h, PList.new h ps) ops
    (∀ x, (s.1 x).name = (h x).name) ∧ s.2.params = occupants ps ops ∧ s.2.params.length = ps.length ∧ Tracks s.2.name2idx ps.length (stores h ps ops) := by
  induction ops using List.reverseRecOn with
  | nil =>
      refine ⟨fun _ => rfl, rfl, rfl, ?_⟩
      have := indexNames_tracks h ps.length ps 0 [] [] (by intro s; simp [PyDict.get?, lastSlot]) (by omega)
      simpa [stores, run, PList.new] using this
  | append_singleton ops op ih =>
      obtain ⟨h1, h2, h3, h4⟩ := ih
      simp only [run, List.foldl_append, List.foldl_cons, List.foldl_nil] at h1 h2 h3 h4 ⊢
      generalize List.foldl step (h, PList.new h ps) ops = s at h1 h2 h3 h4 ⊢
      have hs : stores h ps (ops ++ [op]) = stores h ps ops ++ (match op with
          | .assign i r => match slot ps.length i with
              | some k => [((h r).name, k)]
              | none => []
          | .setValues _ => []) := by
        unfold stores
        rw [List.filterMap_append, List.append_assoc]
        congr 2
        cases op with
        | assign i r => simp only [List.filterMap_cons, List.filterMap_nil]; cases slot ps.length i <;> simp
        | setValues vs => rfl
      have ho : occupants ps (ops ++ [op]) = match (generalizing := false) op with
          | .assign i r => match slot ps.length i with
              | some k => (occupants ps ops).set k r
              | none => occupants ps ops
          | .setValues _ => occupants ps ops := by
        unfold occupants; rw [List.foldl_append]; cases op <;> rfl
      rw [hs, ho]
      cases op with
      | setValues vs =>
          refine ⟨?_, h2, h3, by simpa [step] using h4⟩
          intro x
          rw [← h1 x]
          simp only [step, PList.setValues]
          split
          · exact setAll_name _ _ _ _
          · rfl
      | assign i r =>
          simp only [step, PList.setItem]
          rw [pySet_slot, h3]
          cases hk : slot ps.length i with
          | none => exact ⟨h1, h2, h3, by simpa using h4⟩
          | some k =>
              refine ⟨h1, by simp [h2], by simp [h3], ?_⟩
              dsimp only
              rw [h1 r]
              exact h4.set hk _

/-- C83: after any history of assignments and value updates, `p[name]` is the parameter now in the slot in which that name was last
stored; a name that was never stored raises KeyError. -/
theorem C83_history (h : Heap V) (ps : List Ref) (ops : List (Op V)) (n : Str) :
    (run (h, PList.new h ps) ops).2.getItem (.str n) = orErr .keyError ((lastSlot (stores h ps ops) n).bind (fun k => (occupants ps ops)[k]?)) := by
  obtain ⟨-, h2, h3, h4⟩ := run_inv h ps ops
  rw [PList.getItem]
  cases hd : (run (h, PList.new h ps) ops).2.name2idx.get? n with
  | none => rw [((h4 n).1.mp hd)]; rfl
  | some i =>
      dsimp only
      have hsl := (h4 n).2 i hd
      rw [pyGet_slot, h3, hsl, h2]
      cases hl : lastSlot (stores h ps ops) n with
      | none => exact absurd ((h4 n).1.mpr hl) (by rw [hd]; simp)
      | some k =>
          rw [hl] at hsl
          have hlt : k < (occupants ps ops).length := by rw [← h2, h3]; exact slot_lt hsl
          simp [hlt, orErr]

/-- C83: the look-up of a stored name never fails: the slot always holds a parameter. -/
theorem C83_found (h : Heap V) (ps : List Ref) (ops : List (Op V)) (n : Str) :
    (∃ r, (run (h, PList.new h ps) ops).2.getItem (.str n) = .ok r) ↔ ∃ x ∈ stores h ps ops, x.1 = n := by
  obtain ⟨-, h2, h3, h4⟩ := run_inv h ps ops
  rw [C83_history]
  have hl : lastSlot (stores h ps ops) n = none ↔ ¬ ∃ x ∈ stores h ps ops, x.1 = n := by
    simp only [lastSlot, Option.map_eq_none_iff, List.getLast?_eq_none_iff, List.filter_eq_nil_iff, decide_eq_true_eq, not_exists, not_and]
  cases hk : lastSlot (stores h ps ops) n with
  | none => simp only [Option.bind_none, orErr, reduceCtorEq, exists_false, false_iff]; exact hl.mp hk
  | some k =>
      have : ∃ x ∈ stores h ps ops, x.1 = n := by by_contra hc; rw [hl.mpr hc] at hk; simp at hk
      have hlt : k < (occupants ps ops).length := by
        rw [← h2, h3]
        cases hd : (run (h, PList.new h ps) ops).2.name2idx.get? n with
        | none => rw [(h4 n).1.mp hd] at hk; simp at hk
        | some i => exact slot_lt (((h4 n).2 i hd).trans hk)
      simp only [this, iff_true]; exact ⟨(occupants ps ops)[k], by simp [hlt, orErr]⟩

/-- C83: in a new list a name finds the last parameter of that name, and names of no parameter raise KeyError. -/
theorem C83_new (h : Heap V) (ps : List Ref) (n : Str) :
    (PList.new h ps).getItem (.str n) = orErr .keyError (ps.filter (fun r => (h r).name = n)).getLast? := by
  have key : ∀ (l : List Ref) , lastSlot (l.zipIdx.map (fun x => ((h x.1).name, x.2))) n = none ∧ (l.filter (fun r => (h r).name = n)).getLast? = none ∨
      ∃ k r, lastSlot (l.zipIdx.map (fun x => ((h x.1).name, x.2))) n = some k ∧ l[k]? = some r ∧ (l.filter (fun r => (h r).name = n)).getLast? = some r := by
    intro l
    induction l using List.reverseRecOn with
    | nil => left; simp [lastSlot]
    | append_singleton l r ih =>
        have hz : (l ++ [r]).zipIdx.map (fun x => ((h x.1).name, x.2)) = l.zipIdx.map (fun x => ((h x.1).name, x.2)) ++ [((h r).name, l.length)] := by
          rw [List.zipIdx_append]; simp
        rw [hz, lastSlot_append, List.filter_append]
        by_cases hr : (h r).name = n
        · right; exact ⟨l.length, r, by simp [hr], by simp, by simp [hr]⟩
        · rw [if_neg hr]
          simp only [hr, decide_false, Bool.false_eq_true, not_false_eq_true, List.filter_cons_of_neg, List.filter_nil, List.append_nil]
          rcases ih with ih | ⟨k, q, e1, e2, e3⟩
          · exact Or.inl ih
          · right
            refine ⟨k, q, e1, ?_, e3⟩
            have : k < l.length := by
              by_contra hc; rw [List.getElem?_eq_none (by omega)] at e2; simp at e2
            rw [List.getElem?_append_left this]; exact e2
  have := C83_history h ps [] n
  simp only [run, List.foldl_nil] at this
  rw [this]
  have hst : stores h ps [] = ps.zipIdx.map (fun x => ((h x.1).name, x.2)) := by simp [stores]
  have hoc : occupants ps ([] : List (Op V)) = ps := rfl
  rw [hst, hoc]
  rcases key ps with ⟨e1, e2⟩ | ⟨k, r, e1, e2, e3⟩
  · rw [e1, e2]; rfl
  · rw [e1, e3]; simp [e2]

/-- C83: after an accepted `p[i] = q`, both `p[i]` and `p[q.name]` are `q`, the other slots and the length are unchanged; an index out
of range is an IndexError. -/
theorem C83_assign (h : Heap V) (p : PList) (i : Int) (q : Ref) :
    match slot p.len i with
    | some k => ∃ p', p.setItem h (.int i) q = .ok p' ∧ p'.getItem (.int i) = .ok q ∧ p'.getItem (.str (h q).name) = .ok q ∧ p'.len = p.len ∧
        p'.params = p.params.set k q ∧ (∀ n, n ≠ (h q).name → p'.name2idx.get? n = p.name2idx.get? n)
    | none => p.setItem h (.int i) q = .error .indexError := by
  have hp := pySet_slot p.params i q
  unfold PList.len
  cases hk : slot p.params.length i with
  | none => rw [hk] at hp; simp [PList.setItem, hp]
  | some k =>
      rw [hk] at hp
      have hlt := slot_lt hk
      have hg : pyGet (p.params.set k q) i = .ok q := by
        rw [pyGet_slot, List.length_set, hk]; simp [hlt, orErr]
      refine ⟨⟨p.params.set k q, p.name2idx.set (h q).name i⟩, by simp [PList.setItem, hp], hg, ?_, by simp, rfl, ?_⟩
      · simp [PList.getItem, PyDict.get?_set_self, hg]
      · intro n hn; exact PyDict.get?_set_ne _ _ _ _ hn

/-- C83 (defect): replacing the parameter of a slot by one with another name leaves the old name in the table: if the old name was
only stored there, `p[old]` returns the new parameter instead of raising KeyError. -/
theorem C83_stale (h : Heap V) (ps : List Ref) (k : Nat) (hk : k < ps.length) (q : Ref) (hq : (h q).name ≠ (h ps[k]).name)
    (hu : ∀ j (hj : j < ps.length), (h ps[j]).name = (h ps[k]).name → j = k) :
    (run (h, PList.new h ps) [.assign k q]).2.getItem (.str (h ps[k]).name) = .ok q ∧
    ∀ r ∈ (run (h, PList.new h ps) [.assign k q]).2.params, (h r).name ≠ (h ps[k]).name := by
  obtain ⟨-, h2, -, -⟩ := run_inv h ps [.assign k q]
  have hoc : occupants ps [Op.assign (V := V) (k : Int) q] = ps.set k q := by simp [occupants, slot_nat hk]
  constructor
  · rw [C83_history]
    have hst : stores h ps [.assign (k : Int) q] = ps.zipIdx.map (fun x => ((h x.1).name, x.2)) ++ [((h q).name, k)] := by
      simp [stores, slot_nat hk]
    rw [hst, lastSlot_append, if_neg hq, hoc]
    have : lastSlot (ps.zipIdx.map (fun x => ((h x.1).name, x.2))) (h ps[k]).name = some k := by
      have hmem : ((h ps[k]).name, k) ∈ ps.zipIdx.map (fun x => ((h x.1).name, x.2)) := by
        rw [List.mem_map]
        exact ⟨(ps[k], k), by rw [List.mem_zipIdx_iff_getElem?]; simp [hk], rfl⟩
      unfold lastSlot
      cases hl : ((ps.zipIdx.map (fun x => ((h x.1).name, x.2))).filter (fun x => x.1 = (h ps[k]).name)).getLast? with
      | none =>
          rw [List.getLast?_eq_none_iff] at hl
          have : ((h ps[k]).name, k) ∈ (ps.zipIdx.map (fun x => ((h x.1).name, x.2))).filter (fun x => x.1 = (h ps[k]).name) := by
            simp only [List.mem_filter, decide_true, and_true]; exact hmem
          rw [hl] at this; simp at this
      | some x =>
          have hx := List.mem_of_getLast? hl
          simp only [List.mem_filter, decide_eq_true_eq] at hx
          obtain ⟨hx1, hx2⟩ := hx
          rw [List.mem_map] at hx1
          obtain ⟨y, hy, rfl⟩ := hx1
          rw [List.mem_zipIdx_iff_getElem?] at hy
          obtain ⟨hj, hy'⟩ := List.getElem?_eq_some_iff.mp hy
          have := hu y.2 hj (by rw [hy']; exact hx2)
          simp [this]
    rw [this]
    simp [hk, orErr]
  · rw [h2, hoc]
    intro r hr
    rw [List.mem_iff_getElem] at hr
    obtain ⟨j, hj, rfl⟩ := hr
    rw [List.length_set] at hj
    rw [List.getElem_set]
    split
    · exact hq
    · rename_i hne
      intro e
      exact hne (hu j hj e).symm

/-- Example: ['h','om'] with 'h' replaced by 'ns': the name 'h' still resolves, to 'ns'. -/
example : let h : Heap Nat := fun r => ⟨[['h'], ['o', 'm'], ['n', 's']].getD r [], []⟩
    let p := (run (h, PList.new h [0, 1]) [.assign 0 2]).2
    p.getItem (.str ['h']) = .ok 2 ∧ p.getItem (.str ['n', 's']) = .ok 2 ∧ p.getItem (.str ['x']) = .error .keyError ∧ p.getItem (.int (-1)) = .ok 1 := by
  decide

/-! ### set_values -/

theorem setAll_frame (rs : List Ref) (vs : List (List V)) (h : Heap V) (x : Ref) (hx : x ∉ rs) : (setAll h rs vs).2 x = h x := by
  induction rs generalizing vs h with
  | nil => cases vs <;> rfl
  | cons r rs ih =>
      cases vs with
      | nil => rfl
      | cons v vs =>
          have hne : x ≠ r := fun e => hx (by simp [e])
          have : (setValue h r v).2 x = h x := by
            unfold setValue; dsimp only; split
            · simp [hne]
            · split <;> simp [hne]
          rw [setAll]
          split
          · rename_i h' heq; rw [heq] at this; rw [ih _ _ (fun e => hx (by simp [e]))]; exact this
          · rename_i e h' heq; rw [heq] at this; exact this

/-- C83: `set_values` with one value per parameter, each of the parameter's length, succeeds, and `values` then returns exactly those
values; parameters that are not in the list are untouched. -/
theorem C83_set_values (h : Heap V) (p : PList) (hnd : p.params.Nodup) (vs : List (List V))
    (hv : vs.map List.length = (p.values h).map List.length) :
    (p.setValues h vs).1 = .ok () ∧ p.values (p.setValues h vs).2 = vs ∧ ∀ x, x ∉ p.params → (p.setValues h vs).2 x = h x := by
  have hlen : vs.length = p.len := by simpa [PList.values, PList.len] using congrArg List.length hv
  unfold PList.setValues
  rw [if_pos hlen]
  refine ⟨?_, ?_, fun x hx => setAll_frame _ _ _ _ hx⟩
  all_goals
    unfold PList.values at *
    unfold PList.len at hlen
    generalize p.params = rs at *
    clear hlen
    induction rs generalizing h vs with
    | nil => cases vs <;> simp_all [setAll]
    | cons r rs ih =>
        cases vs with
        | nil => simp at hv
        | cons v vs =>
            simp only [List.map_cons, List.cons.injEq] at hv
            obtain ⟨hv1, hv2⟩ := hv
            have hnd' := List.nodup_cons.mp hnd
            have hs : setValue h r v = (.ok (), fun x => if x = r then { h r with value := v } else h x) := by simp [setValue, hv1]
            have hsame : List.map (fun x => List.length ((if x = r then ({ h r with value := v } : Param V) else h x).value)) rs = List.map (fun x => (h x).value.length) rs := by
              apply List.map_congr_left
              intro x hx
              have : x ≠ r := fun e => hnd'.1 (e ▸ hx)
              simp [this]
            have := ih (fun x => if x = r then { h r with value := v } else h x) vs hnd'.2 (by
              rw [List.map_map]; rw [hv2, List.map_map]; exact hsame.symm)
            rw [setAll, hs]
            first
            | exact this
            | (simp only [List.map_cons, this]
               rw [setAll_frame _ _ _ _ hnd'.1]
               simp)

/-- C83: a wrong number of values raises AssertionError and changes nothing. -/
theorem C83_set_values_count (h : Heap V) (p : PList) (vs : List (List V)) (hv : vs.length ≠ p.len) :
    p.setValues h vs = (.error .assertionError, h) := by simp [PList.setValues, hv]

/-- C83: one value that does not fit raises ValueError after the earlier parameters were already set (the list is left half-updated). -/
theorem C83_set_values_partial_write (h : Heap V) (r r' : Ref) (v v' : List V) (hne : r ≠ r') (hv : v.length = (h r).value.length)
    (hv' : v'.length ≠ (h r').value.length) (h1 : v'.length ≠ 1) :
    let s := (PList.new h [r, r']).setValues h [v, v']
    s.1 = .error .valueError ∧ (s.2 r).value = v ∧ (s.2 r').value = (h r').value := by
  have hs : setValue h r v = (.ok (), fun x => if x = r then { h r with value := v } else h x) := by simp [setValue, hv]
  have hs' : setValue (fun x => if x = r then { h r with value := v } else h x) r' v' = (.error .valueError, fun x => if x = r then { h r with value := v } else h x) := by
    unfold setValue
    simp only [if_neg (Ne.symm hne)]
    rw [if_neg hv']
    match v', h1 with
    | [], _ => rfl
    | [_], h1 => simp at h1
    | _ :: _ :: _, _ => rfl
  simp only [PList.setValues, PList.len, PList.new, List.length_cons, List.length_nil]
  simp [setAll, hs, hs', Ne.symm hne]

example : let h : Heap Nat := fun r => ⟨[['a'], ['b']].getD r [], [[1, 2], [3]].getD r []⟩
    let p := PList.new h [0, 1]
    (p.setValues h [[5, 6], [7]]).1 = .ok () ∧ p.values (p.setValues h [[5, 6], [7]]).2 = [[5, 6], [7]] ∧
    (p.setValues h [[5, 6], [7, 8]]).1 = .error .valueError := by
  decide


/-- C83: a single value given to a parameter of any length n ≠ 1 fills all its n entries; the length never changes, and no other parameter does. -/
theorem C83_set_scalar (h : Heap V) (r : Ref) (a : V) :
    let s := (PList.new h [r]).setValues h [[a]]
    s.1 = .ok () ∧ (s.2 r).value = List.replicate (h r).value.length a ∧ (s.2 r).name = (h r).name ∧ ∀ x, x ≠ r → s.2 x = h x := by
  simp only [PList.setValues, PList.len, PList.new, List.length_cons, List.length_nil, if_true, setAll, setValue]
  by_cases h1 : 1 = (h r).value.length
  · simp only [Nat.zero_add, if_pos h1]
    refine ⟨by trivial, ?_, by simp, fun x hx => by simp [hx]⟩
    rw [← h1]; simp
  · simp only [Nat.zero_add, if_neg h1]
    refine ⟨by trivial, by simp [List.map_const'], by simp, fun x hx => by simp [hx]⟩

/-- C83: whatever is assigned, accepted or not, the number of entries of every parameter stays the same. -/
theorem C83_length_kept (h : Heap V) (p : PList) (vs : List (List V)) (x : Ref) : ((p.setValues h vs).2 x).value.length = (h x).value.length := by
  have one : ∀ (h : Heap V) (r : Ref) (v : List V) (x : Ref), ((setValue h r v).2 x).value.length = (h x).value.length := by
    intro h r v x
    unfold setValue
    dsimp only
    split
    · dsimp only; split
      · rename_i hv e; subst e; exact hv
      · rfl
    · split
      · dsimp only; split
        · rename_i e; subst e; simp
        · rfl
      · rfl
  unfold PList.setValues
  split
  · rename_i hlen; clear hlen
    generalize p.params = rs
    induction rs generalizing h vs with
    | nil => cases vs <;> rfl
    | cons r rs ih =>
        cases vs with
        | nil => rfl
        | cons v vs =>
            have := one h r v x
            rw [setAll]
            split
            · rename_i h' heq; rw [heq] at this; rw [ih]; exact this
            · rename_i e h' heq; rw [heq] at this; exact this
  · rfl

end Pyhipp.Param
