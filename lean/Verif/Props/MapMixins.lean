import Verif.Model.MapMixins
import Verif.Props.DataDict
import Mathlib.Data.List.Perm.Subperm
import Mathlib.Tactic.ByContra
/-
C136: what DataDict and DataTable inherit from MutableMapping: popitem, ==, and for DataTable get, pop and setdefault.
-/
namespace Pyhipp.DataDict
open Pyhipp

local notation "Ref" => Nat

variable {A : Type}

/-! ### popitem -/

theorem del_head (k : Str) (v : Val A) (rest : PyDict Str (Val A)) : PyDict.del ((k, v) :: rest) k = rest := by
  simp [PyDict.del]

theorem del_cons_ne (k k2 : Str) (v : Val A) (rest : PyDict Str (Val A)) (h : k ≠ k2) : PyDict.del ((k, v) :: rest) k2 = (k, v) :: PyDict.del rest k2 := by
  simp [PyDict.del, h]

/-- C136: `popitem()` of a DataDict whose first key has no slash returns the *first* item (a built-in dict: the last) and removes exactly it. -/
theorem C136_popitem (h : Heap A) (hw : h.WF) (d i : Ref) (hd : h.obj d = some (.dataDict i)) (k : Str) (v : Val A) (rest : PyDict Str (Val A))
    (hi : items h d = (k, v) :: rest) (hk : '/' ∉ k) :
    ∃ h', popitem h d = (.ok (k, v), h') ∧ items h' d = rest ∧ h'.WF ∧ h'.obj d = some (.dataDict i) ∧ ∀ r, r ≠ i → h'.obj r = h.obj r := by
  have hres := isDD_resolve h hw d i hd
  have he : h.entries i = (k, v) :: rest := by rw [← items_eq h d i hd, hi]
  obtain ⟨es, hes⟩ := hw.inner d i hd
  have hdi : d ≠ i := by rintro rfl; rw [hd] at hes; cases hes
  have hg : PyDict.get? ((k, v) :: rest) k = some v := by simp [PyDict.get?]
  have hwf := WF_put h hw i ⟨es, hes⟩ rest (by
    have := WF_entries h hw i; rw [he] at this
    exact (List.nodup_cons.mp this).2)
  have hd' : (h.put i rest).obj d = some (.dataDict i) := by simp [Heap.put, hdi, hd]
  refine ⟨h.put i rest, ?_, ?_, hwf, hd', ?_⟩
  · have hh : (items h d).keys.head? = some k := by rw [hi]; rfl
    simp only [popitem, hh, getItem, delItem, getStr, delStr, hk, not_false_eq_true, if_true, step, remove, hres, he, hg, bind, Except.bind, pure,
      Except.pure, PyDict.has, Option.isSome, del_head]
  · rw [items_eq _ d i hd', entries_put, if_pos rfl]
  · intro r hr; simp [Heap.put, hr]

/-- C136: nothing to pop: KeyError, and nothing changes. -/
theorem C136_popitem_empty (h : Heap A) (d : Ref) (hi : items h d = []) : popitem h d = (.error .keyError, h) := by
  simp [popitem, hi]

/-- C136: popping as often as there are items, with no slash in any key, gives the items in the order of insertion and empties the DataDict; every other
object keeps its contents. -/
theorem C136_popitem_all (n : Nat) (h : Heap A) (hw : h.WF) (d i : Ref) (hd : h.obj d = some (.dataDict i)) (hn : (items h d).length = n)
    (hk : ∀ k ∈ (items h d).keys, '/' ∉ k) :
    (popitems h d n).1 = items h d ∧ (popitems h d n).2.1 = none ∧ items (popitems h d n).2.2 d = [] ∧ ∀ r, r ≠ i → (popitems h d n).2.2.obj r = h.obj r := by
  induction n generalizing h with
  | zero =>
    have := List.length_eq_zero_iff.mp hn
    exact ⟨this.symm, rfl, this, fun _ _ => rfl⟩
  | succ n ih =>
    cases hi : items h d with
    | nil => rw [hi] at hn; cases hn
    | cons kv rest =>
      obtain ⟨k, v⟩ := kv
      rw [hi] at hn hk
      obtain ⟨h', h1, h2, h3, h4, h5⟩ := C136_popitem h hw d i hd k v rest hi (hk k (by simp))
      obtain ⟨i1, i2, i3, i4⟩ := ih h' h3 h4 (by rw [h2]; simpa using hn) (by
        rw [h2]; intro k hk'; exact hk k (by simp [hk']))
      simp only [popitems, h1]
      exact ⟨by rw [i1, h2], i2, i3, fun r hr => by rw [i4 r hr, h5 r hr]⟩

/-- C136: one call too many is a KeyError and returns the items all the same (those popped before). -/
theorem C136_popitem_too_many (n : Nat) (h : Heap A) (hw : h.WF) (d i : Ref) (hd : h.obj d = some (.dataDict i)) (hn : (items h d).length = n)
    (hk : ∀ k ∈ (items h d).keys, '/' ∉ k) : (popitems h d (n + 1)).1 = items h d ∧ (popitems h d (n + 1)).2.1 = some .keyError := by
  induction n generalizing h with
  | zero =>
    have := List.length_eq_zero_iff.mp hn
    simp [popitems, C136_popitem_empty h d this, this]
  | succ n ih =>
    cases hi : items h d with
    | nil => rw [hi] at hn; cases hn
    | cons kv rest =>
      obtain ⟨k, v⟩ := kv
      rw [hi] at hn hk
      obtain ⟨h', h1, h2, h3, h4, h5⟩ := C136_popitem h hw d i hd k v rest hi (hk k (by simp))
      obtain ⟨i1, i2⟩ := ih h' h3 h4 (by rw [h2]; simpa using hn) (by
        rw [h2]; intro k hk'; exact hk k (by simp [hk']))
      rw [popitems, h1]
      exact ⟨by simp [i1, h2], i2⟩

theorem pathOf_noslash (s c : Str) (h : c ∈ pathOf s) : '/' ∉ c := by
  unfold pathOf at h
  split at h
  · exact (Str.mem_comps _ _ _ h).1
  · rename_i hs
    rw [List.mem_singleton] at h; rw [h]; exact hs

/-- What a deletion through a string key does to the dict objects: it removes one entry, whose key has no slash, or nothing. -/
theorem delStr_effect (h : Heap A) (d : Ref) (s : Str) :
    (delStr h d s).2 = h ∨ ∃ r k, '/' ∉ k ∧ (delStr h d s).2 = h.put r ((h.entries r).del k) ∧ ∃ v, resolve h v = .ok r := by
  rw [delStr_eq]
  cases hl : (pathOf s).getLast? with
  | none => exact Or.inl rfl
  | some last =>
    simp only
    cases walk h (.ref d) (pathOf s).dropLast with
    | error e => exact Or.inl rfl
    | ok v =>
      simp only [remove]
      cases hr : resolve h v with
      | error e => exact Or.inl rfl
      | ok r =>
        simp only
        split
        · exact Or.inr ⟨r, last, pathOf_noslash s last (List.mem_of_getLast? hl), rfl, v, hr⟩
        · exact Or.inl rfl

theorem setStr_effect (h : Heap A) (d : Ref) (s : Str) (val : Val A) :
    (setStr h d s val).2 = h ∨ ∃ r k, '/' ∉ k ∧ (setStr h d s val).2 = h.put r ((h.entries r).set k val) ∧ ∃ v, resolve h v = .ok r := by
  rw [setStr_eq]
  cases hl : (pathOf s).getLast? with
  | none => exact Or.inl rfl
  | some last =>
    simp only
    cases walk h (.ref d) (pathOf s).dropLast with
    | error e => exact Or.inl rfl
    | ok v =>
      simp only [store]
      cases hr : resolve h v with
      | error e => exact Or.inl rfl
      | ok r => exact Or.inr ⟨r, last, pathOf_noslash s last (List.mem_of_getLast? hl), rfl, v, hr⟩

/-- The heaps agree on every DataDict object and on every entry whose key has a slash; objects keep their kind. -/
structure KeepsSlash (h h' : Heap A) : Prop where
  dd : ∀ d i, h.obj d = some (.dataDict i) → h'.obj d = some (.dataDict i)
  get : ∀ r k, '/' ∈ k → (h'.entries r).get? k = (h.entries r).get? k

theorem KeepsSlash.refl (h : Heap A) : KeepsSlash h h := ⟨fun _ _ h => h, fun _ _ _ => rfl⟩

theorem KeepsSlash.trans {h1 h2 h3 : Heap A} (a : KeepsSlash h1 h2) (b : KeepsSlash h2 h3) : KeepsSlash h1 h3 :=
  ⟨fun d i h => b.dd d i (a.dd d i h), fun r k hk => (b.get r k hk).trans (a.get r k hk)⟩

theorem keeps_put (h : Heap A) (hw : h.WF) (r : Ref) (es : PyDict Str (Val A)) (hr : ∃ v, resolve h v = .ok r)
    (he : ∀ k, '/' ∈ k → es.get? k = (h.entries r).get? k) : KeepsSlash h (h.put r es) := by
  obtain ⟨v, hr⟩ := hr
  obtain ⟨es0, h0⟩ := resolve_dict h hw v r hr
  refine ⟨fun d i hd => ?_, fun x k hk => ?_⟩
  · have : d ≠ r := by rintro rfl; rw [hd] at h0; cases h0
    simp [Heap.put, this, hd]
  · rw [entries_put]
    split
    · rename_i hx; rw [hx]; exact he k hk
    · rfl

theorem keeps_delStr (h : Heap A) (hw : h.WF) (d : Ref) (s : Str) : KeepsSlash h (delStr h d s).2 := by
  rcases delStr_effect h d s with e | ⟨r, k, hk, e, hr⟩
  · rw [e]; exact .refl h
  · rw [e]
    refine keeps_put h hw r _ hr (fun k' hk' => ?_)
    rw [PyDict.get?_del _ _ _ (WF_entries h hw r), if_neg]
    rintro rfl; exact hk hk'

theorem keeps_setStr (h : Heap A) (hw : h.WF) (d : Ref) (s : Str) (val : Val A) : KeepsSlash h (setStr h d s val).2 := by
  rcases setStr_effect h d s val with e | ⟨r, k, hk, e, hr⟩
  · rw [e]; exact .refl h
  · rw [e]
    refine keeps_put h hw r _ hr (fun k' hk' => ?_)
    rw [PyDict.get?_set, if_neg]
    rintro rfl; exact hk hk'

mutual
theorem keeps_delItem (d : Ref) : ∀ (k : Key) (h : Heap A), h.WF → KeepsSlash h (delItem h d k).2
  | .str s, h, hw => by simp only [delItem]; exact keeps_delStr h hw d s
  | .tup ks, h, hw => by simp only [delItem]; exact keeps_delItems d ks h hw
theorem keeps_delItems (d : Ref) : ∀ (ks : List Key) (h : Heap A), h.WF → KeepsSlash h (delItems h d ks).2
  | [], h, _ => by simp only [delItems]; exact .refl h
  | k :: ks, h, hw => by
      have h1 := keeps_delItem d k h hw
      have h2 := WF_delItem d k h hw
      simp only [delItems]
      split
      · rename_i h' e
        rw [e] at h1 h2
        exact h1.trans (keeps_delItems d ks h' h2)
      · rename_i e' h' e
        rw [e] at h1
        exact h1
end

mutual
theorem keeps_setItem (d : Ref) : ∀ (k : Key) (h : Heap A) (val : Val A), h.WF → KeepsSlash h (setItem h d k val).2
  | .str s, h, val, hw => by simp only [setItem]; exact keeps_setStr h hw d s val
  | .tup ks, h, val, hw => by
      cases val with
      | tup vs =>
        simp only [setItem]
        split
        · exact keeps_setItems d ks h vs hw
        · exact .refl h
      | atom a => simp only [setItem]; exact .refl h
      | ref r => simp only [setItem]; exact .refl h
theorem keeps_setItems (d : Ref) : ∀ (ks : List Key) (h : Heap A) (vs : List (Val A)), h.WF → KeepsSlash h (setItems h d ks vs).2
  | [], h, _, _ => by simp only [setItems]; exact .refl h
  | _ :: _, h, [], _ => by simp only [setItems]; exact .refl h
  | k :: ks, h, v :: vs, hw => by
      have h1 := keeps_setItem d k h v hw
      have h2 := WF_setItem d k h v hw
      simp only [setItems]
      split
      · rename_i h' e
        rw [e] at h1 h2
        exact h1.trans (keeps_setItems d ks h' vs h2)
      · rename_i e' h' e
        rw [e] at h1
        exact h1
end

/-- C136 (recorded): an item whose key contains a slash (the constructor and `update` take keys literally) cannot be reached by `d[key] = v` or `del d[key]`,
on whatever object and with whatever key (a string or nested tuples of strings): it stays as it is. -/
theorem C136_slash_untouched (h : Heap A) (hw : h.WF) (d e : Ref) (hd : IsDD h d) (k : Str) (hk : '/' ∈ k) (key : Key) (val : Val A) :
    (items (delItem h e key).2 d).get? k = (items h d).get? k ∧ (items (setItem h e key val).2 d).get? k = (items h d).get? k := by
  obtain ⟨i, hi⟩ := hd
  have a := keeps_delItem e key h hw
  have b := keeps_setItem e key h val hw
  exact ⟨by rw [items_eq _ d i (a.dd d i hi), items_eq h d i hi, a.get i k hk], by rw [items_eq _ d i (b.dd d i hi), items_eq h d i hi, b.get i k hk]⟩

/-- The state after `popitem`. -/
theorem popitem_state (h : Heap A) (d : Ref) : (popitem h d).2 = h ∨ ∃ k, (items h d).keys.head? = some k ∧ (popitem h d).2 = (delStr h d k).2 := by
  unfold popitem
  cases (items h d).keys.head? with
  | none => exact Or.inl rfl
  | some k =>
    simp only
    cases getItem h d (.str k) with
    | error e => exact Or.inl rfl
    | ok v =>
      right
      refine ⟨k, rfl, ?_⟩
      simp only [delItem]
      split <;> (rename_i e; rw [e])

/-- C136 (recorded): while a DataDict has a key with a slash it cannot be emptied by `popitem()`: however often it is called, that item is still there
(`while d: d.popitem()` ends in an exception or never). -/
theorem C136_popitem_slash (n : Nat) (h : Heap A) (hw : h.WF) (d : Ref) (hd : IsDD h d) (k : Str) (hk : '/' ∈ k) (hm : k ∈ (items h d).keys) :
    (items (popitems h d n).2.2 d).get? k = (items h d).get? k ∧ items (popitems h d n).2.2 d ≠ [] := by
  have main : KeepsSlash h (popitems h d n).2.2 := by
    clear hm
    induction n generalizing h with
    | zero => exact .refl h
    | succ n ih =>
      have h1 : KeepsSlash h (popitem h d).2 ∧ (popitem h d).2.WF := by
        rcases popitem_state h d with e | ⟨k, -, e⟩
        · rw [e]; exact ⟨.refl h, hw⟩
        · rw [e]; exact ⟨keeps_delStr h hw d k, WF_delStr h hw d k⟩
      simp only [popitems]
      split
      · rename_i kv h' e
        rw [e] at h1
        obtain ⟨i, hi⟩ := hd
        exact h1.1.trans (ih h' h1.2 ⟨i, h1.1.dd d i hi⟩)
      · rename_i er h' e
        rw [e] at h1
        exact h1.1
  obtain ⟨i, hi⟩ := hd
  have e : (items (popitems h d n).2.2 d).get? k = (items h d).get? k := by
    rw [items_eq _ d i (main.dd d i hi), items_eq h d i hi, main.get i k hk]
  refine ⟨e, fun h0 => ?_⟩
  rw [h0] at e
  exact (PyDict.get?_eq_none_iff _ _).mp e.symm hm

/-- C136 (recorded): if the first key contains a slash, `popitem()` answers with what the *path* leads to, and removes that. -/
theorem C136_popitem_path (h : Heap A) (d : Ref) (k : Str) (hk : (items h d).keys.head? = some k) :
    (∀ v, getStr h d k = .ok v → popitem h d = (.ok (k, v), (delStr h d k).2)) ∧ (∀ e, getStr h d k = .error e → popitem h d = (.error e, h)) := by
  constructor
  · intro v hv
    have hd := del_of_get h d k v hv
    have heq : delStr h d k = (.ok (), (delStr h d k).2) := by rw [← hd]
    simp only [popitem, hk, getItem, hv, delItem]
    rw [heq]
  · intro e he
    simp only [popitem, hk, getItem, he]

/-- `d = DataDict({'a/b': 1, 'a': {'b': 2}})`: the first pop gives `('a/b', 2)`, the second raises KeyError, and both items are still there. -/
def slashHeap : Heap Nat where
  next := 3
  obj := fun r => if r = 0 then some (.dict [("a/b".toList, .atom 1), ("a".toList, .ref 2)])
    else if r = 1 then some (.dataDict 0)
    else if r = 2 then some (.dict [("b".toList, .atom 2)]) else none

example : (popitem slashHeap 1).1 = .ok ("a/b".toList, .atom 2) ∧ (popitem (popitem slashHeap 1).2 1).1 = .error .keyError ∧
    (items (popitem slashHeap 1).2 1).keys = ["a/b".toList, "a".toList] := ⟨rfl, rfl, rfl⟩

example : (popitems exHeap 1 2).1.map Prod.fst = ["a".toList, "c".toList] ∧ (popitem (popitems exHeap 1 2).2.2 1).1 = .error .keyError := ⟨rfl, rfl⟩

/-! ### == -/

/-- Specification: the values have the same contents.  Mappings (DataDicts and built-in dicts alike): the same keys, in any order, with the same
contents. -/
inductive Same (h : Heap A) : Val A → Val A → Prop
  | refl (v : Val A) : Same h v v
  | tup (vs ws : List (Val A)) : vs.length = ws.length → (∀ (i : Nat) (v w : Val A), vs[i]? = some v → ws[i]? = some w → Same h v w) →
      Same h (.tup vs) (.tup ws)
  | map (v w : Val A) (es fs : PyDict Str (Val A)) : items? h v = some es → items? h w = some fs → (∀ k, k ∈ es.keys ↔ k ∈ fs.keys) →
      (∀ (k : Str) (x y : Val A), es.get? k = some x → fs.get? k = some y → Same h x y) → Same h v w

/-- The value is nested at most `n` deep. -/
def DepthLE (h : Heap A) : Nat → Val A → Prop
  | 0, _ => False
  | _ + 1, .atom _ => True
  | n + 1, .tup vs => ∀ v ∈ vs, DepthLE h n v
  | n + 1, .ref r => ∃ es, items? h (.ref r) = some es ∧ ∀ (k : Str) (x : Val A), es.get? k = some x → DepthLE h n x

theorem DepthLE.mono {h : Heap A} {n m : Nat} {v : Val A} (hv : DepthLE h n v) (hnm : n ≤ m) : DepthLE h m v := by
  induction n generalizing m v with
  | zero => exact hv.elim
  | succ n ih =>
    obtain ⟨m, rfl⟩ : ∃ k, m = k + 1 := ⟨m - 1, by omega⟩
    cases v with
    | atom a => trivial
    | tup vs => exact fun v hm => ih (hv v hm) (by omega)
    | ref r => exact ⟨hv.choose, hv.choose_spec.1, fun k x hx => ih (hv.choose_spec.2 k x hx) (by omega)⟩

section Eq
variable [DecidableEq A]

theorem ident_eq {v w : Val A} (h : ident v w = true) : v = w := by
  cases v <;> cases w <;> simp_all [ident]

theorem length_of_keys (es fs : PyDict Str (Val A)) (he : es.WF) (hf : fs.WF) (h : ∀ k, k ∈ es.keys ↔ k ∈ fs.keys) : es.length = fs.length := by
  have := ((List.perm_ext_iff_of_nodup he hf).mpr h).length_eq
  simpa [PyDict.keys] using this

theorem keys_of_length (es fs : PyDict Str (Val A)) (he : es.WF) (hl : es.length = fs.length) (h : ∀ k ∈ es.keys, k ∈ fs.keys) :
    ∀ k, k ∈ es.keys ↔ k ∈ fs.keys := by
  have hsub : es.keys.Subperm fs.keys := List.subperm_of_subset he h
  have hp : es.keys.Perm fs.keys := hsub.perm_of_length_le (by simp [PyDict.keys, hl])
  exact fun k => hp.mem_iff

theorem eqEntries_true (eq : Val A → Val A → PyM Bool) (fs es : PyDict Str (Val A)) (h : eqEntries eq fs es = .ok true) :
    ∀ k v, (k, v) ∈ es → ∃ w, fs.get? k = some w ∧ (v = w ∨ eq v w = .ok true) := by
  induction es with
  | nil => intro k v hm; cases hm
  | cons kv es ih =>
    obtain ⟨k, v⟩ := kv
    simp only [eqEntries] at h
    cases hg : fs.get? k with
    | none => rw [hg] at h; cases h
    | some w =>
      rw [hg] at h
      simp only at h
      cases hi : identOrEq eq v w with
      | error e => rw [hi] at h; cases h
      | ok b =>
        rw [hi] at h
        cases b with
        | false => cases h
        | true =>
          intro k' v' hm
          rcases List.mem_cons.mp hm with e | hm
          · cases e
            refine ⟨w, hg, ?_⟩
            unfold identOrEq at hi
            split at hi
            · exact Or.inl (ident_eq (by assumption))
            · exact Or.inr hi
          · exact ih h k' v' hm

theorem eqEntries_false (eq : Val A → Val A → PyM Bool) (fs es : PyDict Str (Val A)) (h : eqEntries eq fs es = .ok false) :
    ∃ k v, (k, v) ∈ es ∧ (fs.get? k = none ∨ ∃ w, fs.get? k = some w ∧ eq v w = .ok false) := by
  induction es with
  | nil => cases h
  | cons kv es ih =>
    obtain ⟨k, v⟩ := kv
    simp only [eqEntries] at h
    cases hg : fs.get? k with
    | none => exact ⟨k, v, by simp, Or.inl hg⟩
    | some w =>
      rw [hg] at h
      simp only at h
      cases hi : identOrEq eq v w with
      | error e => rw [hi] at h; cases h
      | ok b =>
        rw [hi] at h
        cases b with
        | false =>
          refine ⟨k, v, by simp, Or.inr ⟨w, hg, ?_⟩⟩
          unfold identOrEq at hi
          split at hi
          · cases hi
          · exact hi
        | true =>
          obtain ⟨k', v', hm, hc⟩ := ih h
          exact ⟨k', v', by simp [hm], hc⟩

theorem eqEntries_ok (eq : Val A → Val A → PyM Bool) (fs es : PyDict Str (Val A))
    (h : ∀ k v w, (k, v) ∈ es → fs.get? k = some w → ∃ b, eq v w = .ok b) : ∃ b, eqEntries eq fs es = .ok b := by
  induction es with
  | nil => exact ⟨_, rfl⟩
  | cons kv es ih =>
    obtain ⟨k, v⟩ := kv
    simp only [eqEntries]
    cases hg : fs.get? k with
    | none => exact ⟨_, rfl⟩
    | some w =>
      simp only
      have : ∃ b, identOrEq eq v w = .ok b := by
        unfold identOrEq
        split
        · exact ⟨_, rfl⟩
        · exact h k v w (by simp) hg
      obtain ⟨b, hb⟩ := this
      rw [hb]
      cases b with
      | false => exact ⟨_, rfl⟩
      | true => exact ih (fun k v w hm => h k v w (by simp [hm]))

theorem eqTuple_true (eq : Val A → Val A → PyM Bool) (vs ws : List (Val A)) (h : eqTuple eq vs ws = .ok true) :
    vs.length = ws.length ∧ ∀ (i : Nat) (v w : Val A), vs[i]? = some v → ws[i]? = some w → v = w ∨ eq v w = .ok true := by
  induction vs generalizing ws with
  | nil => cases ws with
    | nil => exact ⟨rfl, fun i v w hv => by cases hv⟩
    | cons w ws => cases h
  | cons v vs ih => cases ws with
    | nil => cases h
    | cons w ws =>
      simp only [eqTuple] at h
      cases hi : identOrEq eq v w with
      | error e => rw [hi] at h; cases h
      | ok b =>
        rw [hi] at h
        cases b with
        | false => cases h
        | true =>
          obtain ⟨h1, h2⟩ := ih ws h
          refine ⟨by simp [h1], fun i v' w' hv hw => ?_⟩
          cases i with
          | zero =>
            simp only [List.getElem?_cons_zero, Option.some.injEq] at hv hw
            subst hv; subst hw
            unfold identOrEq at hi
            split at hi
            · exact Or.inl (ident_eq (by assumption))
            · exact Or.inr hi
          | succ i => exact h2 i v' w' (by simpa using hv) (by simpa using hw)

theorem eqTuple_false (eq : Val A → Val A → PyM Bool) (vs ws : List (Val A)) (h : eqTuple eq vs ws = .ok false) :
    vs.length ≠ ws.length ∨ ∃ (i : Nat) (v w : Val A), vs[i]? = some v ∧ ws[i]? = some w ∧ eq v w = .ok false := by
  induction vs generalizing ws with
  | nil => cases ws with
    | nil => cases h
    | cons w ws => left; simp
  | cons v vs ih => cases ws with
    | nil => left; simp
    | cons w ws =>
      simp only [eqTuple] at h
      cases hi : identOrEq eq v w with
      | error e => rw [hi] at h; cases h
      | ok b =>
        rw [hi] at h
        cases b with
        | false =>
          refine Or.inr ⟨0, v, w, rfl, rfl, ?_⟩
          unfold identOrEq at hi
          split at hi
          · cases hi
          · exact hi
        | true =>
          rcases ih ws h with h1 | ⟨i, v', w', h1, h2, h3⟩
          · left; simpa using h1
          · exact Or.inr ⟨i + 1, v', w', by simpa using h1, by simpa using h2, h3⟩

theorem eqTuple_ok (eq : Val A → Val A → PyM Bool) (vs ws : List (Val A))
    (h : ∀ (v w : Val A), v ∈ vs → w ∈ ws → ∃ b, eq v w = .ok b) : ∃ b, eqTuple eq vs ws = .ok b := by
  induction vs generalizing ws with
  | nil => cases ws with
    | nil => exact ⟨_, rfl⟩
    | cons w ws => exact ⟨_, rfl⟩
  | cons v vs ih => cases ws with
    | nil => exact ⟨_, rfl⟩
    | cons w ws =>
      simp only [eqTuple]
      have : ∃ b, identOrEq eq v w = .ok b := by
        unfold identOrEq
        split
        · exact ⟨_, rfl⟩
        · exact h v w (by simp) (by simp)
      obtain ⟨b, hb⟩ := this
      rw [hb]
      cases b with
      | false => exact ⟨_, rfl⟩
      | true => exact ih ws (fun v w hv hw => h v w (by simp [hv]) (by simp [hw]))

/-- The comparison of two mapping objects is that of their entries, in one order or the other. -/
theorem eqV_ref (h : Heap A) (n : Nat) (r s : Ref) :
    (∃ es fs, items? h (.ref r) = some es ∧ items? h (.ref s) = some fs ∧
      (eqV h (n + 1) (.ref r) (.ref s) = eqDict (eqV h n) es fs ∨ eqV h (n + 1) (.ref r) (.ref s) = eqDict (eqV h n) fs es)) ∨
    ((items? h (.ref r) = none ∨ items? h (.ref s) = none) ∧ eqV h (n + 1) (.ref r) (.ref s) = .error .runtimeError) := by
  simp only [eqV, items?, resolve]
  cases hr : h.obj r with
  | none => right; simp
  | some o =>
    cases hs : h.obj s with
    | none => right; simp
    | some p =>
      left
      cases o <;> cases p <;> simp [eqObj, Heap.entries, hr, hs]

theorem items?_tup (h : Heap A) (vs : List (Val A)) : items? h (.tup vs) = none := rfl

theorem items?_atom (h : Heap A) (a : A) : items? h (.atom a) = none := rfl

theorem Same.symm {h : Heap A} {v w : Val A} (hs : Same h v w) : Same h w v := by
  induction hs with
  | refl v => exact .refl v
  | tup vs ws hl _ ih => exact .tup ws vs hl.symm (fun i w v hw hv => ih i v w hv hw)
  | map v w es fs h1 h2 hk _ ih => exact .map w v fs es h2 h1 (fun k => (hk k).symm) (fun k y x hy hx => ih k x y hx hy)

theorem Same.trans {h : Heap A} {v w u : Val A} (hs : Same h v w) (ht : Same h w u) : Same h v u := by
  induction hs generalizing u with
  | refl v => exact ht
  | tup vs ws hl hr ih =>
    cases ht with
    | refl => exact .tup vs ws hl hr
    | tup _ us hl' hr' =>
      refine .tup vs us (hl.trans hl') (fun i v u hv hu => ?_)
      have hi : i < ws.length := by
        obtain ⟨hi, -⟩ := List.getElem?_eq_some_iff.mp hv; omega
      exact ih i v ws[i] hv (List.getElem?_eq_getElem hi) (hr' i ws[i] u (List.getElem?_eq_getElem hi) hu)
    | map _ _ es fs h1 => rw [items?_tup] at h1; cases h1
  | map v w es fs h1 h2 hk hr ih =>
    cases ht with
    | refl => exact .map v _ es fs h1 h2 hk hr
    | tup ws us => rw [items?_tup] at h2; cases h2
    | map _ u fs' gs h3 h4 hk' hr' =>
      rw [h2] at h3; cases h3
      refine .map v u es gs h1 h4 (fun k => (hk k).trans (hk' k)) (fun k x z hx hz => ?_)
      have : k ∈ fs.keys := (hk k).mp ((PyDict.get?_isSome_iff _ _).mp (by rw [hx]; rfl))
      obtain ⟨y, hy⟩ := Option.isSome_iff_exists.mp ((PyDict.get?_isSome_iff _ _).mpr this)
      exact ih k x y hx hy (hr' k y z hy hz)

/-- C136: "the same contents" is an equivalence. -/
theorem C136_equivalence (h : Heap A) : Equivalence (Same h) := ⟨Same.refl, Same.symm, Same.trans⟩

theorem eqDict_true (h : Heap A) (eq : Val A → Val A → PyM Bool) (he : ∀ v w, eq v w = .ok true → Same h v w) (v w : Val A) (es fs : PyDict Str (Val A))
    (h1 : items? h v = some es) (h2 : items? h w = some fs) (wf : es.WF) (hd : eqDict eq es fs = .ok true) : Same h v w := by
  unfold eqDict at hd
  split at hd
  · rename_i hl
    have hm := eqEntries_true eq fs es hd
    refine .map v w es fs h1 h2 (keys_of_length es fs wf hl (fun k hk => ?_)) (fun k x y hx hy => ?_)
    · obtain ⟨⟨k', v'⟩, hmem, rfl⟩ := List.mem_map.mp hk
      obtain ⟨w', hw', -⟩ := hm k' v' hmem
      exact (PyDict.get?_isSome_iff _ _).mp (by rw [hw']; rfl)
    · obtain ⟨w', hw', e⟩ := hm k x (PyDict.mem_of_get? _ _ _ hx)
      rw [hy] at hw'; cases hw'
      rcases e with rfl | e
      · exact .refl x
      · exact he x y e
  · cases hd

theorem eqDict_false (eq : Val A → Val A → PyM Bool) (es fs : PyDict Str (Val A)) (wf : es.WF) (wf' : fs.WF) (hd : eqDict eq es fs = .ok false) :
    (∃ k, ¬ (k ∈ es.keys ↔ k ∈ fs.keys)) ∨ ∃ k x y, es.get? k = some x ∧ fs.get? k = some y ∧ eq x y = .ok false := by
  unfold eqDict at hd
  split at hd
  · obtain ⟨k, v, hm, hc⟩ := eqEntries_false eq fs es hd
    have hk : k ∈ es.keys := List.mem_map.mpr ⟨_, hm, rfl⟩
    rcases hc with hc | ⟨w, hw, hc⟩
    · left
      exact ⟨k, fun h => (PyDict.get?_eq_none_iff _ _).mp hc (h.mp hk)⟩
    · exact Or.inr ⟨k, v, w, PyDict.get?_of_mem es wf k v hm, hw, hc⟩
  · rename_i hl
    left
    by_contra hc
    have hc' : ∀ k, k ∈ es.keys ↔ k ∈ fs.keys := fun k => by
      by_contra h; exact hc ⟨k, h⟩
    exact hl (length_of_keys es fs wf wf' hc')

theorem eqV_true (h : Heap A) (hw : h.WF) (n : Nat) : ∀ v w, eqV h n v w = .ok true → Same h v w := by
  induction n with
  | zero => intro v w he; cases he
  | succ n ih =>
    intro v w he
    cases v with
    | atom a => cases w with
      | atom b =>
        simp only [eqV, Except.ok.injEq, decide_eq_true_eq] at he
        subst he; exact .refl _
      | tup _ => cases he
      | ref _ => cases he
    | tup vs => cases w with
      | tup ws =>
        obtain ⟨h1, h2⟩ := eqTuple_true _ vs ws he
        refine .tup vs ws h1 (fun i v w hv hw => ?_)
        rcases h2 i v w hv hw with rfl | e
        · exact .refl _
        · exact ih v w e
      | atom _ => cases he
      | ref _ => cases he
    | ref r => cases w with
      | ref s =>
        rcases eqV_ref h n r s with ⟨es, fs, h1, h2, e | e⟩ | ⟨-, e⟩
        · rw [e] at he
          exact eqDict_true h _ ih _ _ es fs h1 h2 (items?_WF h hw _ _ h1) he
        · rw [e] at he
          exact (eqDict_true h _ ih _ _ fs es h2 h1 (items?_WF h hw _ _ h2) he).symm
        · rw [e] at he; cases he
      | atom _ => cases he
      | tup _ => cases he

theorem eqV_self (h : Heap A) (hw : h.WF) (n : Nat) : ∀ v, eqV h n v v ≠ .ok false := by
  induction n with
  | zero => intro v he; cases he
  | succ n ih =>
    intro v he
    cases v with
    | atom a => simp [eqV] at he
    | tup vs =>
      rcases eqTuple_false _ vs vs he with h1 | ⟨i, v, w, h1, h2, h3⟩
      · exact h1 rfl
      · rw [h1] at h2; cases h2; exact ih v h3
    | ref r =>
      rcases eqV_ref h n r r with ⟨es, fs, h1, h2, e⟩ | ⟨-, e⟩
      · rw [h1] at h2; cases h2
        have e' : eqDict (eqV h n) es es = .ok false := by rcases e with e | e <;> rw [← e, he]
        have wf := items?_WF h hw _ _ h1
        rcases eqDict_false _ es es wf wf e' with ⟨k, hk⟩ | ⟨k, x, y, hx, hy, hc⟩
        · exact hk Iff.rfl
        · rw [hx] at hy; cases hy; exact ih x hc
      · rw [e] at he; cases he

theorem eqV_false (h : Heap A) (hw : h.WF) {v w : Val A} (hs : Same h v w) : ∀ n, eqV h n v w ≠ .ok false ∧ eqV h n w v ≠ .ok false := by
  induction hs with
  | refl v => exact fun n => ⟨eqV_self h hw n v, eqV_self h hw n v⟩
  | tup vs ws hl _ ih =>
    intro n
    cases n with
    | zero => exact ⟨by simp [eqV], by simp [eqV]⟩
    | succ n =>
      constructor
      · intro he
        rcases eqTuple_false _ vs ws he with h1 | ⟨i, v, w, h1, h2, h3⟩
        · exact h1 hl
        · exact (ih i v w h1 h2 n).1 h3
      · intro he
        rcases eqTuple_false _ ws vs he with h1 | ⟨i, v, w, h1, h2, h3⟩
        · exact h1 hl.symm
        · exact (ih i w v h2 h1 n).2 h3
  | map v w es fs h1 h2 hk _ ih =>
    have wf := items?_WF h hw _ _ h1
    have wf' := items?_WF h hw _ _ h2
    have no : ∀ n, eqDict (eqV h n) es fs ≠ .ok false ∧ eqDict (eqV h n) fs es ≠ .ok false := by
      intro n
      constructor
      · intro he
        rcases eqDict_false _ es fs wf wf' he with ⟨k, hk'⟩ | ⟨k, x, y, hx, hy, hc⟩
        · exact hk' (hk k)
        · exact (ih k x y hx hy n).1 hc
      · intro he
        rcases eqDict_false _ fs es wf' wf he with ⟨k, hk'⟩ | ⟨k, x, y, hx, hy, hc⟩
        · exact hk' (hk k).symm
        · exact (ih k y x hy hx n).2 hc
    intro n
    cases n with
    | zero => exact ⟨by simp [eqV], by simp [eqV]⟩
    | succ n =>
      cases v with
      | atom a => rw [items?_atom] at h1; cases h1
      | tup a => rw [items?_tup] at h1; cases h1
      | ref r => cases w with
        | atom a => rw [items?_atom] at h2; cases h2
        | tup a => rw [items?_tup] at h2; cases h2
        | ref s =>
          constructor
          · rcases eqV_ref h n r s with ⟨es', fs', g1, g2, e | e⟩ | ⟨-, e⟩
            · rw [h1] at g1; rw [h2] at g2; cases g1; cases g2; rw [e]; exact (no n).1
            · rw [h1] at g1; rw [h2] at g2; cases g1; cases g2; rw [e]; exact (no n).2
            · rw [e]; exact fun h => by cases h
          · rcases eqV_ref h n s r with ⟨es', fs', g1, g2, e | e⟩ | ⟨-, e⟩
            · rw [h2] at g1; rw [h1] at g2; cases g1; cases g2; rw [e]; exact (no n).2
            · rw [h2] at g1; rw [h1] at g2; cases g1; cases g2; rw [e]; exact (no n).1
            · rw [e]; exact fun h => by cases h

theorem eqV_ok (h : Heap A) (hw : h.WF) (n : Nat) : ∀ v w, DepthLE h n v → DepthLE h n w → ∃ b, eqV h n v w = .ok b := by
  induction n with
  | zero => intro v w hv; exact hv.elim
  | succ n ih =>
    intro v w hv hw'
    cases v with
    | atom a => cases w <;> exact ⟨_, rfl⟩
    | tup vs => cases w with
      | atom a => exact ⟨_, rfl⟩
      | ref r => exact ⟨_, rfl⟩
      | tup ws => exact eqTuple_ok _ vs ws (fun v w h1 h2 => ih v w (hv v h1) (hw' w h2))
    | ref r => cases w with
      | atom a => exact ⟨_, rfl⟩
      | tup ws => exact ⟨_, rfl⟩
      | ref s =>
        obtain ⟨es, e1, e2⟩ := hv
        obtain ⟨fs, f1, f2⟩ := hw'
        have wf := items?_WF h hw _ _ e1
        have wf' := items?_WF h hw _ _ f1
        have ok1 : ∃ b, eqDict (eqV h n) es fs = .ok b := by
          unfold eqDict
          split
          · exact eqEntries_ok _ fs es (fun k v w h1 h2 => ih v w (e2 k v (PyDict.get?_of_mem es wf k v h1)) (f2 k w h2))
          · exact ⟨_, rfl⟩
        have ok2 : ∃ b, eqDict (eqV h n) fs es = .ok b := by
          unfold eqDict
          split
          · exact eqEntries_ok _ es fs (fun k v w h1 h2 => ih v w (f2 k v (PyDict.get?_of_mem fs wf' k v h1)) (e2 k w h2))
          · exact ⟨_, rfl⟩
        rcases eqV_ref h n r s with ⟨es', fs', g1, g2, e | e⟩ | ⟨g | g, -⟩
        · rw [e1] at g1; rw [f1] at g2; cases g1; cases g2; rw [e]; exact ok1
        · rw [e1] at g1; rw [f1] at g2; cases g1; cases g2; rw [e]; exact ok2
        · rw [e1] at g; cases g
        · rw [f1] at g; cases g

/-- C136: `v == w` of DataDicts, dicts and anything inside them, nested at most as deep as the recursion limit allows, answers whether they have the same
contents; the order of the keys and the kind of the mappings (DataDict or dict) make no difference. -/
theorem C136_eq (h : Heap A) (hw : h.WF) (n : Nat) (v w : Val A) (hv : DepthLE h n v) (hw' : DepthLE h n w) :
    ∃ b, eqV h n v w = .ok b ∧ (b = true ↔ Same h v w) := by
  obtain ⟨b, hb⟩ := eqV_ok h hw n v w hv hw'
  refine ⟨b, hb, ?_⟩
  cases b with
  | true => exact ⟨fun _ => eqV_true h hw n v w hb, fun _ => rfl⟩
  | false => exact ⟨fun h => by (cases h), fun hs => absurd hb (eqV_false h hw hs n).1⟩

/-- C136: two mappings with the very same values (atoms or objects) under the same keys are equal without looking into the values, so there is an answer
even if the values contain themselves and only one level of recursion is left. -/
theorem C136_eq_shared (h : Heap A) (hw : h.WF) (d e i j : Ref) (hd : h.obj d = some (.dataDict i)) (he : h.obj e = some (.dataDict j))
    (hs : items h d = items h e) (hv : ∀ kv ∈ items h d, ∀ vs, kv.2 ≠ .tup vs) (n : Nat) : eqV h (n + 1) (.ref d) (.ref e) = .ok true := by
  rw [items_eq _ d i hd, items_eq _ e j he] at hs
  rw [items_eq _ d i hd] at hv
  have hwf : (h.entries i).WF := WF_entries h hw i
  simp only [eqV, hd, he, eqObj, eqDict, ← hs, if_true]
  have : ∀ l : PyDict Str (Val A), (∀ kv ∈ l, kv ∈ h.entries i) → eqEntries (eqV h n) (h.entries i) l = .ok true := by
    intro l
    induction l with
    | nil => intro _; rfl
    | cons kv l ih =>
      intro hl
      obtain ⟨k, v⟩ := kv
      have hm := hl _ (List.mem_cons_self)
      have hi : ident v v = true := by
        cases v with
        | atom a => simp [ident]
        | ref r => simp [ident]
        | tup vs => exact absurd rfl (hv _ hm vs)
      simp only [eqEntries, PyDict.get?_of_mem _ hwf _ _ hm, identOrEq, hi, if_true]
      exact ih (fun kv hkv => hl kv (List.mem_cons_of_mem _ hkv))
  exact this _ (fun _ h => h)

/-- C136: also for mappings that contain themselves: an answer, if there is one (and not a RecursionError), is right; and then `v == w` and `w == v` agree. -/
theorem C136_eq_cyclic (h : Heap A) (hw : h.WF) (n m : Nat) (v w : Val A) (b c : Bool) (hb : eqV h n v w = .ok b) (hc : eqV h m w v = .ok c) :
    (b = true ↔ Same h v w) ∧ b = c := by
  have e : ∀ (n : Nat) (v w : Val A) (b : Bool), eqV h n v w = .ok b → (b = true ↔ Same h v w) := by
    intro n v w b hb
    cases b with
    | true => exact ⟨fun _ => eqV_true h hw n v w hb, fun _ => rfl⟩
    | false => exact ⟨fun h => by (cases h), fun hs => absurd hb (eqV_false h hw hs n).1⟩
  refine ⟨e n v w b hb, ?_⟩
  rw [Bool.eq_iff_iff, e n v w b hb, e m w v c hc]
  exact ⟨Same.symm, Same.symm⟩

/-- C136: a copy is equal to the original: `d.copy() == d`. -/
theorem C136_copy_equal (h : Heap A) (hw : h.WF) (d : Ref) (hd : IsDD h d) (c : Ref) (h' : Heap A) (hc : copy h d = (.ok c, h')) :
    Same h' (.ref c) (.ref d) ∧ ∀ n, eqV h' n (.ref c) (.ref d) ≠ .ok false := by
  have hwi : (items h d).WF := by obtain ⟨i, hi⟩ := hd; rw [items_eq h d i hi]; exact WF_entries h hw i
  rw [copy_eq h hw d hd] at hc
  obtain ⟨rfl, rfl⟩ : h.next + 1 = c ∧ newHeap h (items h d) = h' := by simpa using hc
  have hw' := WF_newHeap h hw (items h d) hwi
  have i1 : items? (newHeap h (items h d)) (.ref (h.next + 1)) = some (items h d) := by
    have h0 : (newHeap h (items h d)).obj (h.next + 1) = some (.dataDict h.next) := by simp [newHeap]
    have := newHeap_items h (items h d)
    rw [items_eq _ _ _ h0] at this
    simp [items?, resolve, h0, this]
  have i2 : items? (newHeap h (items h d)) (.ref d) = some (items h d) := by
    have := newHeap_items_old h hw (items h d) d hd
    obtain ⟨i, hi⟩ := hd
    have h1 := newHeap_old h (items h d) d (lt_next h hw _ _ hi)
    rw [hi] at h1
    rw [items_eq _ d i h1] at this
    simp [items?, resolve, h1, this]
  have hs : Same (newHeap h (items h d)) (.ref (h.next + 1)) (.ref d) :=
    .map _ _ _ _ i1 i2 (fun _ => Iff.rfl) (fun k x y hx hy => by rw [hx] at hy; cases hy; exact .refl x)
  exact ⟨hs, fun n => (eqV_false _ hw' hs n).1⟩

/-- `DataDict({'a': {'b': 1}, 'c': 2}) == {'c': 2, 'a': DataDict({'b': 1})}`, and a difference deep inside is seen. -/
def eqHeap (x : Nat) : Heap Nat where
  next := 6
  obj := fun r => if r = 0 then some (.dict [("a".toList, .ref 2), ("c".toList, .atom 2)])
    else if r = 1 then some (.dataDict 0)
    else if r = 2 then some (.dict [("b".toList, .atom 1)])
    else if r = 3 then some (.dict [("c".toList, .atom 2), ("a".toList, .ref 5)])
    else if r = 4 then some (.dict [("b".toList, .atom x)])
    else if r = 5 then some (.dataDict 4) else none

example : eqV (eqHeap 1) 3 (.ref 1) (.ref 3) = .ok true ∧ eqV (eqHeap 1) 3 (.ref 3) (.ref 1) = .ok true ∧ eqV (eqHeap 7) 3 (.ref 1) (.ref 3) = .ok false := by
  refine ⟨?_, ?_, ?_⟩ <;> rfl

end Eq
end Pyhipp.DataDict

namespace Pyhipp.DataTable
open Pyhipp

variable {ρ : Type} [Inhabited ρ]

theorem delItems_head (k : Str) (a : Arr) (t : PyDict Str Arr) : delItems ((k, a) :: t) [k] = (.ok (), t) := by
  simp [delItems, PyDict.has, PyDict.get?, PyDict.del]

/-- C136: `popitem()` of a DataTable returns and removes the first column, whatever its name; an empty table is a KeyError. -/
theorem C136_table_popitem (t : PyDict Str Arr) :
    (∀ k a rest, t = (k, a) :: rest → popitem t = (.ok (k, a), rest)) ∧ (t = [] → popitem t = (.error .keyError, t)) := by
  constructor
  · rintro k a rest rfl
    have : getItem ((k, a) :: rest) k = .ok a := by simp [getItem, PyDict.get?]
    simp [popitem, this, delItems_head]
  · rintro rfl; rfl

/-- C136: popping them all gives the columns in their order and leaves nothing. -/
theorem C136_table_popitem_all (t : PyDict Str Arr) : popitems t t.length = (t, none, []) := by
  induction t with
  | nil => rfl
  | cons kv t ih =>
    obtain ⟨k, a⟩ := kv
    have h1 := (C136_table_popitem ((k, a) :: t)).1 k a t rfl
    simp only [List.length_cons, popitems, h1, ih]

/-- C136: one call more is a KeyError. -/
theorem C136_table_popitem_too_many (t : PyDict Str Arr) : popitems t (t.length + 1) = (t, some .keyError, []) := by
  induction t with
  | nil => rfl
  | cons kv t ih =>
    obtain ⟨k, a⟩ := kv
    have h1 := (C136_table_popitem ((k, a) :: t)).1 k a t rfl
    rw [List.length_cons, popitems, h1]
    simp only [ih]

/-- C136: `get` and `pop` of a DataTable: the column itself (a reference) if it is there, else the default, or KeyError without any change. -/
theorem C136_table_get_pop (t : PyDict Str Arr) (hw : t.WF) (k : Str) (dflt : Arr) :
    (∀ a, t.get? k = some a → get t k dflt = .ok a ∧ ∃ t', pop t k = (.ok a, t') ∧ t'.get? k = none ∧ t'.keys = t.keys.filter (· ≠ k) ∧ ∀ k', k' ≠ k → t'.get? k' = t.get? k') ∧
    (t.get? k = none → get t k dflt = .ok dflt ∧ pop t k = (.error .keyError, t)) := by
  constructor
  · intro a ha
    have hg : getItem t k = .ok a := by simp [getItem, ha]
    refine ⟨by simp [get, hg], t.del k, ?_, ?_, PyDict.keys_del t k hw, ?_⟩
    · simp [pop, hg, delItems, PyDict.has, ha]
    · rw [PyDict.get?_del _ _ _ hw, if_pos rfl]
    · intro k' hk'; rw [PyDict.get?_del _ _ _ hw, if_neg hk']
  · intro ha
    have hg : getItem t k = .error .keyError := by simp [getItem, ha]
    exact ⟨by simp [get, hg], by simp [pop, hg]⟩

/-- C136: `setdefault` of a DataTable: an existing column is returned as it is and nothing changes.  Otherwise the new column has the values of the default
(recorded: but the returned array is the default, not the column: whatever is written through it does not reach the table). -/
theorem C136_table_setdefault (m : Mem ρ) (t : PyDict Str Arr) (k : Str) (dflt : Arr) (hd : dflt.buf < m.next) :
    (∀ a, t.get? k = some a → setdefault m t k dflt = (a, t, m)) ∧
    (t.get? k = none → ∃ b m', setdefault m t k dflt = (dflt, t.set k b, m') ∧ read m' b = read m dflt ∧ read m' dflt = read m dflt ∧
      ∀ j x, read (write m' dflt j x) b = read m dflt) := by
  constructor
  · intro a ha; simp [setdefault, getItem, ha]
  · intro ha
    have rd : ∀ (f : Nat → Nat → ρ) (rows : List ρ), (∀ i, i < rows.length → f m.next i = rows.getD i default) → (List.range rows.length).map (f m.next) = rows := by
      intro f rows hf
      apply List.ext_getElem
      · simp
      · intro i h1 h2
        simp only [List.getElem_map, List.getElem_range]
        rw [hf i (by simpa using h1)]
        simp [List.getD_eq_getElem?_getD, h2]
    refine ⟨⟨m.next, List.range (read m dflt).length⟩, (alloc m (read m dflt)).2, ?_, ?_, ?_, ?_⟩
    · simp [setdefault, getItem, ha, setItem, npArray, alloc]
    · exact rd _ _ (fun i _ => by simp [alloc])
    · simp only [read]
      refine List.map_congr_left (fun i _ => ?_)
      have : dflt.buf ≠ m.next := by omega
      simp [alloc, this]
    · intro j x
      refine rd _ _ (fun i _ => ?_)
      have : m.next ≠ dflt.buf := by omega
      simp [write, alloc, this]

variable {K : Type} [DecidableEq K]

theorem truthEq_many (empty : PyM Bool) (a b : List K) (h : 2 ≤ a.length) : truthEq empty a b = .error .valueError := by
  unfold truthEq
  split
  · rename_i hc
    have : ∃ p q r, (if a.length = 1 then b.map (fun y => decide (a.head? = some y)) else if b.length = 1 then a.map (fun x => decide (some x = b.head?))
      else List.zipWith (fun x y => decide (x = y)) a b) = p :: q :: r := by
      rw [if_neg (by omega)]
      match a, h with
      | x :: y :: a, _ =>
        split
        · exact ⟨_, _, _, rfl⟩
        · match b, hc with
          | [], hc => simp at hc
          | [z], hc => simp at *
          | u :: v :: b, _ => exact ⟨_, _, _, rfl⟩
    obtain ⟨p, q, r, e⟩ := this
    rw [e]
  · rfl

/-- C136 (recorded): `t == u` of tables with the same names of columns, whose first column has two or more rows and is not the same object, is a ValueError:
in particular `t == t.copy()` for every table with two or more rows. -/
theorem C136_table_eq_defect (empty : PyM Bool) (k : Str) (a b : Col K) (t u : PyDict Str (Col K)) (hl : t.length + 1 = u.length) (hk : u.get? k = some b)
    (hid : a.id ≠ b.id) (h2 : 2 ≤ a.data.length) : eqT empty ((k, a) :: t) u = .error .valueError := by
  simp [eqT, hl, eqCols, hk, hid, truthEq_many empty a.data b.data h2]

/-- C136: but `t == t` is True whatever is in the columns (the identity of the arrays decides), and tables with different numbers of columns are unequal. -/
theorem C136_table_eq_self (empty : PyM Bool) (t : PyDict Str (Col K)) (hw : t.WF) :
    eqT empty t t = .ok true ∧ ∀ u : PyDict Str (Col K), u.length ≠ t.length → eqT empty t u = .ok false := by
  constructor
  · have : ∀ es : PyDict Str (Col K), (∀ kv ∈ es, kv ∈ t) → eqCols empty t es = .ok true := by
      intro es
      induction es with
      | nil => intro _; rfl
      | cons kv es ih =>
        intro hm
        obtain ⟨k, a⟩ := kv
        simp only [eqCols, PyDict.get?_of_mem t hw k a (hm _ (by simp)), if_true]
        exact ih (fun kv h => hm kv (by simp [h]))
    simp only [eqT, if_true]
    exact this t (fun _ h => h)
  · intro u hu
    simp [eqT, Ne.symm hu]

/-- C136: tables with one row and one-element columns: True exactly if the columns have the same names and numbers. -/
theorem C136_table_eq_one_row (empty : PyM Bool) (t u : PyDict Str (Col K)) (hw : t.WF) (hu : u.WF) (h1 : ∀ kv ∈ t, kv.2.data.length = 1) (h2 : ∀ kv ∈ u, kv.2.data.length = 1)
    (hid : ∀ kv ∈ t, ∀ kv' ∈ u, kv.2.id = kv'.2.id → kv.2.data = kv'.2.data) :
    ∃ b, eqT empty t u = .ok b ∧ (b = true ↔ ∀ k, (t.get? k).map Col.data = (u.get? k).map Col.data) := by
  have one : ∀ a b : List K, a.length = 1 → b.length = 1 → truthEq empty a b = .ok (decide (a = b)) := by
    intro a b ha hb
    obtain ⟨x, rfl⟩ := List.length_eq_one_iff.mp ha
    obtain ⟨y, rfl⟩ := List.length_eq_one_iff.mp hb
    simp [truthEq]
  have loop : ∀ es : PyDict Str (Col K), (∀ kv ∈ es, kv ∈ t) →
      ∃ b, eqCols empty u es = .ok b ∧ (b = true ↔ ∀ kv ∈ es, (u.get? kv.1).map Col.data = some kv.2.data) := by
    intro es
    induction es with
    | nil => intro _; exact ⟨true, rfl, by simp⟩
    | cons kv es ih =>
      intro hm
      obtain ⟨k, a⟩ := kv
      obtain ⟨b, ib, ih⟩ := ih (fun kv h => hm kv (by simp [h]))
      simp only [eqCols]
      cases hg : u.get? k with
      | none => exact ⟨false, rfl, by simp [hg]⟩
      | some c =>
        simp only
        have hc := PyDict.mem_of_get? _ _ _ hg
        have hmt : (k, a) ∈ t := hm _ (List.mem_cons_self ..)
        have e : (if a.id = c.id then (.ok true : PyM Bool) else truthEq empty a.data c.data) = .ok (decide (a.data = c.data)) := by
          split
          · rename_i hi
            have : a.data = c.data := hid _ hmt _ hc hi
            simp [this]
          · exact one _ _ (h1 _ hmt) (h2 _ hc)
        rw [e]
        by_cases hd : a.data = c.data
        · simp only [hd, decide_true]
          refine ⟨b, ib, ih.trans ?_⟩
          simp [hg, hd]
        · simp only [hd, decide_false]
          refine ⟨false, rfl, ?_⟩
          simp only [Bool.false_eq_true, false_iff]
          intro hall
          have := hall (k, a) (by simp)
          simp only [hg, Option.map_some, Option.some.injEq] at this
          exact hd this.symm
  unfold eqT
  split
  · rename_i hl
    obtain ⟨b, hb, hiff⟩ := loop t (fun _ h => h)
    refine ⟨b, hb, hiff.trans ⟨fun h k => ?_, fun h kv hm => ?_⟩⟩
    · have hsub : t.keys.Subperm u.keys := List.subperm_of_subset hw (fun k hk => by
        obtain ⟨kv, hm, rfl⟩ := List.mem_map.mp hk
        have := h kv hm
        refine (PyDict.get?_isSome_iff _ _).mp ?_
        cases hg : u.get? kv.1 with
        | none => rw [hg] at this; cases this
        | some c => rfl)
      have hp : t.keys.Perm u.keys := hsub.perm_of_length_le (by simp [PyDict.keys, hl])
      cases hg : t.get? k with
      | none =>
        have : k ∉ u.keys := fun hk => (PyDict.get?_eq_none_iff _ _).mp hg (hp.mem_iff.mpr hk)
        rw [(PyDict.get?_eq_none_iff _ _).mpr this]
      | some a =>
        rw [h (k, a) (PyDict.mem_of_get? _ _ _ hg)]; rfl
    · rw [← h kv.1, PyDict.get?_of_mem t hw kv.1 kv.2 hm]; rfl
  · rename_i hl
    refine ⟨false, rfl, ?_⟩
    simp only [Bool.false_eq_true, false_iff]
    intro h
    have hk : ∀ k, k ∈ t.keys ↔ k ∈ u.keys := fun k => by
      rw [← PyDict.get?_isSome_iff, ← PyDict.get?_isSome_iff]
      have := congrArg Option.isSome (h k)
      simp only [Option.isSome_map] at this
      rw [this]
    have := ((List.perm_ext_iff_of_nodup hw hu).mpr hk).length_eq
    simp only [PyDict.keys, List.length_map] at this
    exact hl this

example : eqT (K := Nat) (.ok false) [("a".toList, ⟨0, [1, 2]⟩)] [("a".toList, ⟨1, [1, 2]⟩)] = .error .valueError ∧
    eqT (K := Nat) (.ok false) [("a".toList, ⟨0, [1]⟩)] [("a".toList, ⟨1, [1]⟩)] = .ok true := ⟨rfl, rfl⟩

end Pyhipp.DataTable
