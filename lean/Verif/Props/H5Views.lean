import Verif.Model.H5Views
import Verif.Props.H5Objs
/-
C135: the HDF5 wrappers as containers.
-/
namespace Pyhipp.H5
open Pyhipp

variable {DT E β : Type}

/-- Every listed item is found under its name, and names are listed once. -/
def View.Ok (v : View β) : Prop := (v.items.map (·.1)).Nodup ∧ ∀ p ∈ v.items, v.look p.1 = .ok p.2

/-- C135: the brackets with a string look it up; with a tuple or list of keys (of any depth) they give the tuple of the results in the order of the keys, or the first error, and
`()` for no keys; anything that is neither a string nor iterable is a TypeError. -/
theorem C135_get (v : View β) :
    (∀ s x, v.look s = .ok x → v.get (.str s) = .ok (.one x)) ∧
    (∀ s e, v.look s = .error e → v.get (.str s) = .error e) ∧
    v.get .atom = .error .typeError ∧ v.get (.seq []) = .ok (.tup []) ∧
    (∀ (ks : List AnyKey) (xs : List (Res β)), List.Forall₂ (fun k x => v.get k = .ok x) ks xs → v.get (.seq ks) = .ok (.tup xs)) ∧
    (∀ (pre post : List AnyKey) (k : AnyKey) (e : PyErr), (∀ j ∈ pre, ∃ x, v.get j = .ok x) → v.get k = .error e →
      v.get (.seq (pre ++ k :: post)) = .error e) := by
  refine ⟨?_, ?_, by simp [View.get], by simp [View.get, View.gets, bind, Except.bind, pure, Except.pure], ?_, ?_⟩
  · intro s x h; simp [View.get, h, bind, Except.bind, pure, Except.pure]
  · intro s e h; simp [View.get, h, bind, Except.bind]
  · intro ks xs h
    have : v.gets ks = .ok xs := by
      induction h with
      | nil => simp [View.gets]
      | cons h _ ih => simp [View.gets, h, ih, bind, Except.bind, pure, Except.pure]
    simp [View.get, this, bind, Except.bind, pure, Except.pure]
  · intro pre post k e hp hk
    have : v.gets (pre ++ k :: post) = .error e := by
      induction pre with
      | nil => simp [View.gets, hk, bind, Except.bind]
      | cons j pre ih =>
        obtain ⟨x, hx⟩ := hp j (by simp)
        simp [View.gets, hx, ih (fun j hj => hp j (by simp [hj])), bind, Except.bind]
    simp [View.get, this, bind, Except.bind]

/-- C135 (recorded): iterating over a Group, a DatasetManager or an AttrManager (`for`, `list`, `set`, `sorted`, unpacking) is a TypeError, even if it is empty. -/
theorem C135_iterate (v : View β) (fuel : Nat) : v.iterate (fuel + 1) 0 = .error .typeError := by
  simp [View.iterate, View.get]

theorem dictOf_items (v : View β) (h : v.Ok) : v.toDict = .ok v.items := by
  obtain ⟨hn, hl⟩ := h
  have : ∀ (l : List (Str × β)) (d : PyDict Str β), (∀ p ∈ l, v.look p.1 = .ok p.2) → (l.map (·.1)).Nodup → (∀ k ∈ l.map (·.1), k ∉ PyDict.keys d) →
      (l.map (·.1)).foldlM (fun d k => do let x ← v.look k; return PyDict.set d k x) d = (.ok (d ++ l) : PyM (PyDict Str β)) := by
    intro l
    induction l with
    | nil => intro d _ _ _; simp [pure, Except.pure]
    | cons p l ih =>
      intro d h1 h2 h3
      have hnd : p.1 ∉ l.map (·.1) ∧ (l.map (·.1)).Nodup := by simpa using h2
      have hs : ∀ d : PyDict Str β, p.1 ∉ PyDict.keys d → PyDict.set d p.1 p.2 = d ++ [p] := by
        intro d hd
        induction d with
        | nil => rfl
        | cons q d ihd =>
          obtain ⟨qk, qv⟩ := q
          simp only [PyDict.keys_cons, List.mem_cons, not_or] at hd
          simp [PyDict.set, Ne.symm hd.1, ihd hd.2]
      simp only [List.map_cons, List.foldlM_cons, h1 p (by simp), bind, Except.bind, pure, Except.pure]
      rw [hs d (h3 p.1 (by simp))]
      have := ih (d ++ [p]) (fun q hq => h1 q (by simp [hq])) hnd.2 (by
        intro k hk hc
        simp only [PyDict.keys, List.map_append, List.mem_append] at hc
        rcases hc with hc | hc
        · exact h3 k (by simp only [List.map_cons, List.mem_cons]; exact Or.inr hk) hc
        · have : k = p.1 := by simpa using hc
          exact hnd.1 (this ▸ hk))
      simp only [bind, Except.bind, pure, Except.pure] at this
      rw [this]
      simp
  have := this v.items [] hl hn (by simp)
  simpa [View.toDict, dictOf, View.keys] using this

/-- C135: `dict(x)` (and `{**x}`) holds exactly the items, in the order of `x.items()`, which pairs `x.keys()` with `x.values()`. -/
theorem C135_dict (v : View β) (h : v.Ok) : v.toDict = .ok v.items ∧ v.items = v.keys.zip v.values := by
  refine ⟨dictOf_items v h, ?_⟩
  unfold View.keys View.values
  generalize v.items = l
  induction l with
  | nil => rfl
  | cons p l ih => simp [← ih]

/-- C135: this applies to the three wrappers: in a file whose groups have distinct proper names every listed child, dataset and attribute is found under its name. -/
theorem C135_ok (ch : List (Str × Node DT E)) (a : List (Str × Dset DT E)) (hwf : PyDict.WF ch) (hn : ∀ k ∈ PyDict.keys ch, IsName k) (ha : PyDict.WF a) :
    (groupView (.grp ch a)).Ok ∧ (dsView (.grp ch a)).Ok ∧ (attrView a).Ok := by
  have hmem : ∀ {γ : Type} (l : List (Str × γ)), PyDict.WF l → ∀ p ∈ sortNames l, PyDict.get? l p.1 = some p.2 := by
    intro γ l hl p hp
    have hp' : p ∈ l := (sortNames_perm l).mem_iff.mp hp
    exact PyDict.get?_of_mem _ hl _ _ hp'
  have hnd : ∀ {γ : Type} (l : List (Str × γ)), PyDict.WF l → ((sortNames l).map (·.1)).Nodup := fun l hl => wf_perm (sortNames_perm l).symm hl
  refine ⟨⟨hnd ch hwf, ?_⟩, ⟨?_, ?_⟩, ⟨hnd a ha, ?_⟩⟩
  · intro p hp
    have hk : p.1 ∈ PyDict.keys ch := List.mem_map.mpr ⟨p, (sortNames_perm ch).mem_iff.mp hp, rfl⟩
    simp only [groupView, pathOf_name (hn _ hk), lookup, hmem ch hwf p hp]
  · have hsub : List.Sublist ((dsItems (.grp ch a)).map (·.1)) ((sortNames ch).map (·.1)) := by
      simp only [dsItems]
      generalize sortNames ch = l
      induction l with
      | nil => simp
      | cons p l ih =>
        obtain ⟨k, x⟩ := p
        cases x with
        | dset d b => simpa [List.filterMap_cons] using ih
        | grp c b => simpa [List.filterMap_cons] using ih.cons k
    exact hsub.nodup (hnd ch hwf)
  · intro p hp
    simp only [dsView, dsItems, List.mem_filterMap] at hp
    obtain ⟨q, hq, e⟩ := hp
    obtain ⟨k, x⟩ := q
    cases x with
    | grp c b => simp at e
    | dset d b =>
      have e : (k, d) = p := by simpa using e
      subst e
      have hk : k ∈ PyDict.keys ch := List.mem_map.mpr ⟨_, (sortNames_perm ch).mem_iff.mp hq, rfl⟩
      have := hmem ch hwf _ hq
      simp only at this
      simp only [dsView, dsGet, pathOf_name (hn _ hk), lookup, this]
  · intro p hp
    simp only [attrView, attrGet, hmem a ha p hp]

/-- C135: and a name that is not listed is a KeyError in all three. -/
theorem C135_missing (ch : List (Str × Node DT E)) (a : List (Str × Dset DT E)) (k : Str) (hk : IsName k) :
    (k ∉ (groupView (.grp ch a)).keys → (groupView (.grp ch a)).get (.str k) = .error .keyError) ∧
    (k ∉ (groupView (.grp ch a)).keys → (dsView (.grp ch a)).get (.str k) = .error .keyError) ∧
    (k ∉ (attrView a).keys → (attrView a).get (.str k) = .error .keyError) := by
  have hn : ∀ {γ : Type} (l : List (Str × γ)), k ∉ (sortNames l).map (·.1) → PyDict.get? l k = none := by
    intro γ l h
    rw [PyDict.get?_eq_none_iff]
    intro h'
    exact h (((sortNames_perm l).map _).mem_iff.mpr h')
  refine ⟨fun h => ?_, fun h => ?_, fun h => ?_⟩
  · have := hn ch h
    simp [groupView, View.get, pathOf_name hk, lookup, this, bind, Except.bind]
  · have := hn ch h
    simp [dsView, dsGet, View.get, pathOf_name hk, lookup, this, bind, Except.bind]
  · have := hn a h
    simp [attrView, attrGet, View.get, this, bind, Except.bind]

/-- C135: `len` of a group or of attributes is their number, and `bool` tells whether there are any. -/
theorem C135_len (ch : List (Str × Node DT E)) (a : List (Str × Dset DT E)) :
    (groupView (.grp ch a)).len = .ok ch.length ∧ (attrView a).len = .ok a.length ∧
    (groupView (.grp ch a)).truth = decide (ch ≠ []) ∧ (attrView a).truth = decide (a ≠ []) := by
  have hl : ∀ {γ : Type} (l : List (Str × γ)), (sortNames l).length = l.length := fun l => (sortNames_perm l).length_eq
  refine ⟨by simp [View.len, groupView, hl], by simp [View.len, attrView, attrItems, hl], ?_, ?_⟩
  · cases ch with
    | nil => rfl
    | cons p t => simp [View.truth, groupView, hl]
  · cases a with
    | nil => rfl
    | cons p t => simp [View.truth, attrView, attrItems, hl]

/-- C135 (defect): the dataset view has no length: `len(g.datasets)` is a TypeError, `g.datasets` counts as true even if there is no dataset, and `g.datasets.what()` and
`g.datasets.ls()` always fail with TypeError. -/
theorem C135_datasets_defect (n : Node DT E) :
    (dsView n).len = .error .typeError ∧ (dsView n).truth = true ∧ dsWhat n = .error .typeError := by
  refine ⟨rfl, rfl, ?_⟩
  simp [dsWhat, View.len, dsView, bind, Except.bind]

/-! ### KeyList -/

theorem klIndexFrom_spec (l : List Str) (k : Str) (i : Nat) :
    (k ∉ l → klIndexFrom l k i = .error .valueError) ∧
    ∀ j (hj : j < l.length), l[j] = k → (∀ j', j' < j → l[j']? ≠ some k) → klIndexFrom l k i = .ok (i + j) := by
  induction l generalizing i with
  | nil => simp [klIndexFrom]
  | cons x t ih =>
    refine ⟨fun h => ?_, fun j hj hx hmin => ?_⟩
    · simp only [List.mem_cons, not_or] at h
      simp [klIndexFrom, Ne.symm h.1, (ih (i + 1)).1 h.2]
    · cases j with
      | zero =>
        have hx : x = k := by simpa using hx
        simp [klIndexFrom, hx]
      | succ j =>
        have h0 : x ≠ k := by simpa using hmin 0 (by omega)
        simp only [klIndexFrom, h0, if_false]
        rw [(ih (i + 1)).2 j (by simpa using hj) (by simpa using hx) (fun j' hj' => by simpa using hmin (j' + 1) (by omega))]
        congr 1
        omega

/-- C135: a key list is the sequence of its keys: `kl[i]` counts from the end if `i` is negative and is an IndexError outside, `k in kl` and `kl.count(k)` look for the very key,
`kl.index(k)` is its first position (ValueError if there is none), `reversed` is the reverse. -/
theorem C135_keylist (keys : List Str) (k : Str) :
    (∀ i (h : i < keys.length), klGet keys i = .ok keys[i] ∧ klGet keys (i - keys.length) = .ok keys[i]) ∧
    (∀ i : Int, (i < -keys.length ∨ (keys.length : Int) ≤ i) → klGet keys i = .error .indexError) ∧
    (klHas keys k = true ↔ k ∈ keys) ∧ klCount keys k = keys.count k ∧
    (k ∉ keys → klIndex keys k = .error .valueError) ∧
    (∀ j (hj : j < keys.length), keys[j] = k → (∀ j', j' < j → keys[j']? ≠ some k) → klIndex keys k = .ok j) ∧
    (∀ i (h : i < keys.length), (klRev keys)[keys.length - 1 - i]? = some keys[i]) := by
  refine ⟨fun i h => ⟨?_, ?_⟩, fun i h => ?_, by simp [klHas], ?_, (klIndexFrom_spec keys k 0).1, ?_, ?_⟩
  · simp [klGet, pyGet, h]
  · have h0 : ¬ (0 : Int) ≤ (i : Int) - keys.length := by omega
    have h1 : (0 : Int) ≤ (i : Int) - keys.length + keys.length := by omega
    simp only [klGet, pyGet, h0, if_false, h1, if_true]
    have : ((i : Int) - keys.length + keys.length).toNat = i := by omega
    simp [this, h]
  · by_cases h0 : 0 ≤ i
    · have : keys[i.toNat]? = none := List.getElem?_eq_none (by omega)
      simp [klGet, pyGet, h0, this]
    · have h1 : ¬ (0 : Int) ≤ i + keys.length := by omega
      simp [klGet, pyGet, h0, h1]
  · simp only [klCount, List.count_eq_length_filter]
    congr 2
    funext x
    by_cases h : x = k <;> simp [h]
  · intro j hj hx hm
    have := (klIndexFrom_spec keys k 0).2 j hj hx hm
    simpa [klIndex] using this
  · intro i h
    rw [klRev, List.getElem?_reverse (by omega)]
    have : keys.length - 1 - (keys.length - 1 - i) = i := by omega
    simp [this, h]

/-! Non-vacuity: a group with a dataset `x`, a group `g` and an attribute. -/
example : (dsView (.grp [("x".toList, .dset ⟨0, [], [5]⟩ []), ("g".toList, .grp [] [])] [("u".toList, ⟨0, [], [7]⟩)] : Node Nat Nat)).keys = ["x".toList] := by
  decide +kernel
example : (groupView (.grp [("x".toList, .dset ⟨0, [], [5]⟩ []), ("g".toList, .grp [] [])] [("u".toList, ⟨0, [], [7]⟩)] : Node Nat Nat)).keys = ["g".toList, "x".toList] := by
  decide +kernel
example : ∀ k ∈ PyDict.keys ([("x".toList, .dset ⟨0, [], [5]⟩ []), ("g".toList, .grp [] [])] : List (Str × Node Nat Nat)), IsName k := by
  intro k hk
  simp only [PyDict.keys, List.map_cons, List.map_nil, List.mem_cons, List.not_mem_nil, or_false] at hk
  rcases hk with rfl | rfl <;> exact ⟨by decide, by decide⟩
example : klIndex ["a".toList, "b".toList, "a".toList] "a".toList = .ok 0 := rfl

end Pyhipp.H5
