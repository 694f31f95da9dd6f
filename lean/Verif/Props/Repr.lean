import Verif.Model.Repr
import Mathlib.Tactic.Tauto
import Mathlib.Data.List.Induction
/-
C108: simple representations and their JSON.  C109: names and logging.
-/
namespace Pyhipp.Repr
open Pyhipp

variable {X : Type}

theorem get?_simpleAttrs (attrs : List (Str × Val X)) (k : Str) :
    PyDict.get? (simpleAttrs attrs) k = (PyDict.get? attrs k).map simple := by
  induction attrs with
  | nil => rw [simpleAttrs]; rfl
  | cons p rest ih =>
      obtain ⟨k', v⟩ := p
      rw [simpleAttrs]
      by_cases h : k' = k
      · subst h; simp [PyDict.get?]
      · simp only [PyDict.get?, h, if_false]; exact ih

/-- Specification: reading attribute `k` and converting it gives `r`. -/
inductive Attr (attrs : List (Str × Val X)) (bad : List (Str × PyErr)) (k : Str) : PyM (Val X) → Prop
  | has (v : Val X) (h : PyDict.get? attrs k = some v) : Attr attrs bad k (simple v)
  | raises (e : PyErr) (hn : PyDict.get? attrs k = none) (h : PyDict.get? bad k = some e) : Attr attrs bad k (.error e)
  | missing (hn : PyDict.get? attrs k = none) (h : PyDict.get? bad k = none) : Attr attrs bad k (.error .attributeError)

theorem attr_spec (attrs : List (Str × Val X)) (bad : List (Str × PyErr)) (k : Str) : Attr attrs bad k (attr (simpleAttrs attrs) bad k) := by
  unfold attr
  rw [get?_simpleAttrs]
  cases h : PyDict.get? attrs k with
  | some v => exact .has v h
  | none =>
      cases hb : PyDict.get? bad k with
      | some e => exact .raises e h hb
      | none => exact .missing h hb

theorem Attr.unique {attrs : List (Str × Val X)} {bad : List (Str × PyErr)} {k : Str} {r r' : PyM (Val X)} (h : Attr attrs bad k r)
    (h' : Attr attrs bad k r') : r = r' := by
  cases h <;> cases h' <;> simp_all

theorem dictLoop_ok (get : Str → PyM (Val X)) : ∀ (ks : List Str) (out d : PyDict Str (Val X)), dictLoop get ks out = .ok d →
    (∀ k ∈ ks, ∃ v, get k = .ok v ∧ PyDict.get? d k = some v) ∧ (∀ k, k ∉ ks → PyDict.get? d k = PyDict.get? out k) ∧
    (PyDict.WF out → PyDict.WF d) ∧ (∀ k, k ∈ PyDict.keys d ↔ k ∈ PyDict.keys out ∨ k ∈ ks) ∧
    (ks.Nodup → (∀ k ∈ ks, k ∉ PyDict.keys out) → PyDict.keys d = PyDict.keys out ++ ks) := by
  intro ks
  induction ks with
  | nil =>
      intro out d h
      cases h
      exact ⟨by simp, by simp, id, by simp, by simp⟩
  | cons k ks ih =>
      intro out d h
      rw [dictLoop] at h
      cases hk : get k with
      | error e => rw [hk] at h; cases h
      | ok v =>
          rw [hk] at h
          obtain ⟨h1, h2, h3, h4, h5⟩ := ih _ d h
          refine ⟨?_, ?_, ?_, ?_, ?_⟩
          · intro k' hk'
            by_cases hm : k' ∈ ks
            · exact h1 k' hm
            · have : k' = k := by simpa [hm] using hk'
              subst this
              exact ⟨v, hk, by rw [h2 k' hm, PyDict.get?_set_self]⟩
          · intro k' hk'
            simp only [List.mem_cons, not_or] at hk'
            rw [h2 k' hk'.2, PyDict.get?_set_ne _ _ _ _ hk'.1]
          · intro hw; exact h3 (PyDict.WF_set _ _ _ hw)
          · intro k'
            rw [h4 k', PyDict.mem_keys_set]
            simp only [List.mem_cons]
            tauto
          · intro hn hd
            simp only [List.nodup_cons] at hn
            rw [h5 hn.2, PyDict.keys_set_of_not_mem _ _ _ (hd k (by simp))]
            · simp
            · intro k' hk' hm
              rcases (PyDict.mem_keys_set _ _ _ _).1 hm with rfl | hm
              · exact hn.1 hk'
              · exact hd k' (by simp [hk']) hm

theorem dictLoop_error (get : Str → PyM (Val X)) (e : PyErr) : ∀ (ks : List Str) (out : PyDict Str (Val X)),
    dictLoop get ks out = .error e ↔ ∃ l k r, ks = l ++ k :: r ∧ get k = .error e ∧ ∀ k' ∈ l, ∃ v, get k' = .ok v := by
  intro ks
  induction ks with
  | nil => intro out; simp [dictLoop]
  | cons k ks ih =>
      intro out
      rw [dictLoop]
      cases hk : get k with
      | error e' =>
          constructor
          · intro h; cases h; exact ⟨[], k, ks, rfl, hk, by simp⟩
          · rintro ⟨l, k', r, hl, he, hall⟩
            cases l with
            | nil => simp only [List.nil_append, List.cons.injEq] at hl; rw [← hl.1, hk] at he; cases he; rfl
            | cons a l =>
                simp only [List.cons_append, List.cons.injEq] at hl
                obtain ⟨v, hv⟩ := hall a (by simp)
                rw [← hl.1, hk] at hv; cases hv
      | ok v =>
          simp only
          rw [ih]
          constructor
          · rintro ⟨l, k', r, hl, he, hall⟩
            refine ⟨k :: l, k', r, by simp [hl], he, ?_⟩
            intro a ha
            simp only [List.mem_cons] at ha
            rcases ha with rfl | ha
            · exact ⟨v, hk⟩
            · exact hall a ha
          · rintro ⟨l, k', r, hl, he, hall⟩
            cases l with
            | nil => simp only [List.nil_append, List.cons.injEq] at hl; rw [← hl.1, hk] at he; cases he
            | cons a l =>
                simp only [List.cons_append, List.cons.injEq] at hl
                exact ⟨l, k', r, hl.2, he, fun b hb => hall b (by simp [hb])⟩

theorem listLoop_ok (get : Str → PyM (Val X)) : ∀ (ks : List Str) (out l : List (Val X)), listLoop get ks out = .ok l →
    ∃ vs : List (Val X), l = out ++ vs ∧ vs.length = ks.length ∧ ∀ (i : Nat) (k : Str), ks[i]? = some k → ∃ v, vs[i]? = some v ∧ get k = .ok v := by
  intro ks
  induction ks with
  | nil => intro out l h; cases h; exact ⟨[], by simp, rfl, by simp⟩
  | cons k ks ih =>
      intro out l h
      rw [listLoop] at h
      cases hk : get k with
      | error e => rw [hk] at h; cases h
      | ok v =>
          rw [hk] at h
          obtain ⟨vs, h1, h2, h3⟩ := ih _ l h
          refine ⟨v :: vs, by simp [h1], by simp [h2], ?_⟩
          intro i k' hi
          cases i with
          | zero => simp only [List.getElem?_cons_zero, Option.some.injEq] at hi; subst hi; exact ⟨v, rfl, hk⟩
          | succ i => exact h3 i k' (by simpa using hi)

theorem listLoop_error (get : Str → PyM (Val X)) (e : PyErr) : ∀ (ks : List Str) (out : List (Val X)),
    listLoop get ks out = .error e ↔ ∃ l k r, ks = l ++ k :: r ∧ get k = .error e ∧ ∀ k' ∈ l, ∃ v, get k' = .ok v := by
  intro ks
  induction ks with
  | nil => intro out; simp [listLoop]
  | cons k ks ih =>
      intro out
      rw [← dictLoop_error get e (k :: ks) [], listLoop, dictLoop]
      cases get k with
      | error e' => simp
      | ok v => simp only; rw [ih, dictLoop_error]

/-- C108: a HasDictRepr object is represented by a dictionary that has exactly the listed attributes (and 'type' if enabled), each with the
converted value of the attribute; 'type' is the class name unless the class lists an attribute of that name. -/
theorem C108_dict (cls : Str) (typed : Bool) (keys : List Str) (attrs : List (Str × Val X)) (bad : List (Str × PyErr)) (r : Val X)
    (h : simple (.obj cls (.dict typed keys) attrs bad []) = .ok r) :
    ∃ d : PyDict Str (Val X), r = .dict d ∧ PyDict.WF d ∧
      (∀ k ∈ keys, ∃ v v', PyDict.get? attrs k = some v ∧ simple v = .ok v' ∧ PyDict.get? d k = some v') ∧
      (typed = true → "type".toList ∉ keys → PyDict.get? d "type".toList = some (.str cls)) ∧
      (∀ k, k ∈ PyDict.keys d ↔ (typed = true ∧ k = "type".toList) ∨ k ∈ keys) := by
  rw [simple] at h
  simp only [build, dictRepr] at h
  cases hd : dictLoop (attr (simpleAttrs attrs) bad) keys (if typed then PyDict.set [] "type".toList (Val.str cls) else []) with
  | error e => rw [hd] at h; cases h
  | ok d =>
      rw [hd] at h
      cases h
      obtain ⟨h1, h2, h3, h4, -⟩ := dictLoop_ok _ _ _ _ hd
      refine ⟨d, rfl, ?_, ?_, ?_, ?_⟩
      · apply h3
        cases typed
        · exact PyDict.WF_nil
        · exact PyDict.WF_set _ _ _ PyDict.WF_nil
      · intro k hk
        obtain ⟨v, hv, hg⟩ := h1 k hk
        have ha := attr_spec attrs bad k
        rw [hv] at ha
        generalize hr : (Except.ok v : PyM (Val X)) = r at ha
        cases ha with
        | has w hw => exact ⟨w, v, hw, hr.symm, hg⟩
        | raises e hn hb => cases hr
        | missing hn hb => cases hr
      · rintro rfl hn
        rw [h2 _ hn]
        exact PyDict.get?_set_self _ _ _
      · intro k
        rw [h4 k]
        cases typed
        · simp [PyDict.keys]
        · rw [if_pos rfl, PyDict.mem_keys_set]; simp [PyDict.keys]

/-- C108: the entries come in the order 'type', then the listed attributes. -/
theorem C108_order (cls : Str) (typed : Bool) (keys : List Str) (attrs : List (Str × Val X)) (bad : List (Str × PyErr)) (d : PyDict Str (Val X))
    (hn : keys.Nodup) (ht : "type".toList ∉ keys) (h : simple (.obj cls (.dict typed keys) attrs bad []) = .ok (.dict d)) :
    PyDict.keys d = (if typed then ["type".toList] else []) ++ keys := by
  rw [simple] at h
  simp only [build, dictRepr] at h
  cases hd : dictLoop (attr (simpleAttrs attrs) bad) keys (if typed then PyDict.set [] "type".toList (Val.str cls) else []) with
  | error e => rw [hd] at h; cases h
  | ok d' =>
      rw [hd] at h
      cases h
      obtain ⟨-, -, -, -, h5⟩ := dictLoop_ok _ _ _ _ hd
      cases typed
      · exact h5 hn (by simp [PyDict.keys])
      · refine h5 hn ?_
        rw [if_pos rfl]
        intro k hk hm
        rcases (PyDict.mem_keys_set _ _ _ _).1 hm with rfl | hm
        · exact ht hk
        · exact absurd hm (by simp [PyDict.keys])

/-- C108: if an attribute named 'type' is listed, it replaces the class name, at the front. -/
theorem C108_type_shadowed (cls : Str) (keys : List Str) (attrs : List (Str × Val X)) (bad : List (Str × PyErr)) (d : PyDict Str (Val X))
    (hk : "type".toList ∈ keys) (h : simple (.obj cls (.dict true keys) attrs bad []) = .ok (.dict d)) :
    ∃ v v', PyDict.get? attrs "type".toList = some v ∧ simple v = .ok v' ∧ PyDict.get? d "type".toList = some v' := by
  obtain ⟨d', hd, -, h1, -⟩ := C108_dict cls true keys attrs bad _ h
  cases hd
  exact h1 _ hk

/-- C108: a HasListRepr object is represented by a tuple (never a list, whatever the annotation says): the class name if enabled, then the
converted values of the listed attributes, one per listed name. -/
theorem C108_tuple (cls : Str) (typed : Bool) (keys : List Str) (attrs : List (Str × Val X)) (bad : List (Str × PyErr)) (extra : List (Str × Val X))
    (r : Val X) (h : simple (.obj cls (.list typed keys) attrs bad extra) = .ok r) :
    ∃ vs : List (Val X), r = .tuple ((if typed then [Val.str cls] else []) ++ vs) ∧ vs.length = keys.length ∧
      ∀ (i : Nat) (k : Str), keys[i]? = some k → ∃ v v', PyDict.get? attrs k = some v ∧ simple v = .ok v' ∧ vs[i]? = some v' := by
  rw [simple] at h
  simp only [build, listRepr] at h
  cases hd : listLoop (attr (simpleAttrs attrs) bad) keys (if typed then [Val.str cls] else []) with
  | error e => rw [hd] at h; cases h
  | ok l =>
      rw [hd] at h
      cases h
      obtain ⟨vs, h1, h2, h3⟩ := listLoop_ok _ _ _ _ hd
      refine ⟨vs, by rw [h1], h2, ?_⟩
      intro i k hi
      obtain ⟨v, hv, hg⟩ := h3 i k hi
      have ha := attr_spec attrs bad k
      rw [hg] at ha
      generalize hr : (Except.ok v : PyM (Val X)) = r at ha
      cases ha with
      | has w hw => exact ⟨w, v, hw, hr.symm, hv⟩
      | raises e hn hb => cases hr
      | missing hn hb => cases hr

/-- C108: the representation fails exactly when reading or converting a listed attribute fails; the error is that of the first such attribute in
the listed order (a missing attribute is an AttributeError). -/
theorem C108_error (cls : Str) (asList typed : Bool) (keys : List Str) (attrs : List (Str × Val X)) (bad : List (Str × PyErr))
    (extra : List (Str × Val X)) (e : PyErr) :
    simple (.obj cls (if asList then .list typed keys else .dict typed keys) attrs bad extra) = .error e ↔
      ∃ l k r, keys = l ++ k :: r ∧ Attr attrs bad k (.error e) ∧ ∀ k' ∈ l, ∃ v, Attr attrs bad k' (.ok v) := by
  have key : ∀ (k : Str) (r : PyM (Val X)), attr (simpleAttrs attrs) bad k = r ↔ Attr attrs bad k r := by
    intro k r
    exact ⟨fun h => h ▸ attr_spec attrs bad k, fun h => (attr_spec attrs bad k).unique h⟩
  simp only [← key]
  rw [simple]
  cases asList
  · rw [← dictLoop_error _ e keys (if typed then PyDict.set [] "type".toList (Val.str cls) else [])]
    simp only [build, dictRepr, Bool.false_eq_true, if_false]
    cases dictLoop (attr (simpleAttrs attrs) bad) keys (if typed then PyDict.set [] "type".toList (Val.str cls) else []) <;> simp
  · rw [← listLoop_error _ e keys (if typed then [Val.str cls] else [])]
    simp only [build, listRepr, if_true]
    cases listLoop (attr (simpleAttrs attrs) bad) keys (if typed then [Val.str cls] else []) <;> simp

/-- C108: an override `super().to_simple_repr() | {...}` keeps the entries of the base class and adds (or replaces) those of the override. -/
theorem C108_extra (cls : Str) (typed : Bool) (keys : List Str) (attrs : List (Str × Val X)) (bad : List (Str × PyErr))
    (extra : List (Str × Val X)) (hw : PyDict.WF extra) (d : PyDict Str (Val X))
    (h : simple (.obj cls (.dict typed keys) attrs bad []) = .ok (.dict d)) :
    ∃ d' : PyDict Str (Val X), simple (.obj cls (.dict typed keys) attrs bad extra) = .ok (.dict d') ∧
      (∀ k v, PyDict.get? extra k = some v → PyDict.get? d' k = some v) ∧
      (∀ k, PyDict.get? extra k = none → PyDict.get? d' k = PyDict.get? d k) ∧
      PyDict.keys d' = PyDict.keys d ++ (PyDict.keys extra).filter (fun k => decide (k ∉ PyDict.keys d)) := by
  rw [simple] at h ⊢
  simp only [build] at h ⊢
  cases hd : dictRepr (attr (simpleAttrs attrs) bad) cls typed keys with
  | error e => rw [hd] at h; cases h
  | ok d0 =>
      rw [hd] at h
      have : d0 = d := by cases h; rfl
      subst this
      refine ⟨PyDict.update d0 extra, rfl, ?_, ?_, ?_⟩
      · intro k v hk; rw [PyDict.get?_update _ _ _ hw, hk]; rfl
      · intro k hk; rw [PyDict.get?_update _ _ _ hw, hk]; rfl
      · rw [PyDict.keys_update _ _ hw]; congr 1; exact List.filter_congr (fun k _ => by congr)

/-- Specification: no HasSimpleRepr object occurs in the value. -/
inductive Clean : Val X → Prop
  | leaf (x : X) : Clean (.leaf x)
  | str (s : Str) : Clean (.str s)
  | list (vs : List (Val X)) (h : ∀ v ∈ vs, Clean v) : Clean (.list vs)
  | tuple (vs : List (Val X)) (h : ∀ v ∈ vs, Clean v) : Clean (.tuple vs)
  | dict (kvs : List (Str × Val X)) (h : ∀ p ∈ kvs, Clean p.2) : Clean (.dict kvs)

/-- Specification: objects occur only as attributes of objects (not inside Python lists, tuples or dictionaries). -/
inductive Direct : Val X → Prop
  | clean (v : Val X) (h : Clean v) : Direct v
  | obj (cls : Str) (how : How X) (attrs : List (Str × Val X)) (bad : List (Str × PyErr)) (extra : List (Str × Val X))
      (h : ∀ p ∈ attrs, Direct p.2) (he : ∀ p ∈ extra, Clean p.2) : Direct (.obj cls how attrs bad extra)

theorem simple_of_clean (v : Val X) (h : Clean v) : simple v = .ok v := by
  cases h <;> rw [simple]

theorem dictLoop_vals (P : Val X → Prop) (get : Str → PyM (Val X)) (hg : ∀ k v, get k = .ok v → P v) : ∀ (ks : List Str)
    (out d : PyDict Str (Val X)), (∀ p ∈ out, P p.2) → PyDict.WF out → dictLoop get ks out = .ok d → ∀ p ∈ d, P p.2 := by
  intro ks
  induction ks with
  | nil => intro out d ho _ h; cases h; exact ho
  | cons k ks ih =>
      intro out d ho hw h
      rw [dictLoop] at h
      cases hk : get k with
      | error e => rw [hk] at h; cases h
      | ok v =>
          rw [hk] at h
          refine ih _ d ?_ (PyDict.WF_set _ _ _ hw) h
          intro p hp
          have hgp := PyDict.get?_of_mem _ (PyDict.WF_set out k v hw) p.1 p.2 hp
          by_cases hpk : p.1 = k
          · rw [hpk, PyDict.get?_set_self] at hgp
            have := Option.some.inj hgp
            rw [← this]; exact hg k v hk
          · rw [PyDict.get?_set_ne _ _ _ _ hpk] at hgp
            exact ho _ (PyDict.mem_of_get? _ _ _ hgp)

theorem listLoop_vals (P : Val X → Prop) (get : Str → PyM (Val X)) (hg : ∀ k v, get k = .ok v → P v) : ∀ (ks : List Str)
    (out l : List (Val X)), (∀ p ∈ out, P p) → listLoop get ks out = .ok l → ∀ p ∈ l, P p := by
  intro ks
  induction ks with
  | nil => intro out d ho h; cases h; exact ho
  | cons k ks ih =>
      intro out d ho h
      rw [listLoop] at h
      cases hk : get k with
      | error e => rw [hk] at h; cases h
      | ok v =>
          rw [hk] at h
          refine ih _ d ?_ h
          intro p hp
          simp only [List.mem_append, List.mem_singleton] at hp
          rcases hp with hp | rfl
          · exact ho _ hp
          · exact hg k _ hk

theorem update_vals (P : Val X → Prop) (d m : PyDict Str (Val X)) (hd : ∀ p ∈ d, P p.2) (hwd : PyDict.WF d) (hm : ∀ p ∈ m, P p.2) :
    ∀ p ∈ PyDict.update d m, P p.2 := by
  induction m generalizing d with
  | nil => exact hd
  | cons q m ih =>
      obtain ⟨k, v⟩ := q
      refine ih (PyDict.set d k v) ?_ (PyDict.WF_set _ _ _ hwd) (fun p hp => hm p (by simp [hp]))
      intro p hp
      have hgp := PyDict.get?_of_mem _ (PyDict.WF_set d k v hwd) p.1 p.2 hp
      by_cases hpk : p.1 = k
      · rw [hpk, PyDict.get?_set_self] at hgp
        have := Option.some.inj hgp
        rw [← this]; exact hm (k, v) (by simp)
      · rw [PyDict.get?_set_ne _ _ _ _ hpk] at hgp
        exact hd _ (PyDict.mem_of_get? _ _ _ hgp)

/-- C108: if objects occur only as attributes of objects, the representation contains no object, at any depth. -/
theorem C108_plain (v r : Val X) (hd : Direct v) (h : simple v = .ok r) : Clean r := by
  induction hd generalizing r with
  | clean v hc => rw [simple_of_clean v hc] at h; cases h; exact hc
  | obj cls how attrs bad extra ha he ih =>
      have hg : ∀ k v, attr (simpleAttrs attrs) bad k = .ok v → Clean v := by
        intro k v hk
        have hs := attr_spec attrs bad k
        rw [hk] at hs
        generalize hr : (Except.ok v : PyM (Val X)) = r at hs
        cases hs with
        | has w hw => exact ih _ (PyDict.mem_of_get? _ _ _ hw) v hr.symm
        | raises e hn hb => cases hr
        | missing hn hb => cases hr
      rw [simple] at h
      cases how with
      | base t => simp only [build] at h; cases h; exact .str t
      | dict typed keys =>
          simp only [build, dictRepr] at h
          have hw0 : PyDict.WF (if typed then PyDict.set [] "type".toList (Val.str cls) else ([] : PyDict Str (Val X))) := by
            cases typed
            · exact PyDict.WF_nil
            · exact PyDict.WF_set _ _ _ PyDict.WF_nil
          have hc0 : ∀ p ∈ (if typed then PyDict.set [] "type".toList (Val.str cls) else ([] : PyDict Str (Val X))), Clean p.2 := by
            cases typed
            · simp
            · intro p hp
              have : p = ("type".toList, Val.str cls) := by simpa [PyDict.set] using hp
              rw [this]; exact .str cls
          cases hl : dictLoop (attr (simpleAttrs attrs) bad) keys (if typed then PyDict.set [] "type".toList (Val.str cls) else []) with
          | error e => rw [hl] at h; cases h
          | ok d =>
              rw [hl] at h
              cases h
              exact .dict _ (update_vals Clean d extra (dictLoop_vals Clean _ hg _ _ _ hc0 hw0 hl) ((dictLoop_ok _ _ _ _ hl).2.2.1 hw0) he)
      | list typed keys =>
          simp only [build, listRepr] at h
          cases hl : listLoop (attr (simpleAttrs attrs) bad) keys (if typed then [Val.str cls] else []) with
          | error e => rw [hl] at h; cases h
          | ok l =>
              rw [hl] at h
              cases h
              refine .tuple _ (listLoop_vals Clean _ hg _ _ _ ?_ hl)
              cases typed
              · simp
              · intro p hp
                have : p = Val.str cls := by simpa using hp
                rw [this]; exact .str cls

/-- Specification: the value consists of texts, numbers, None, lists, tuples and dictionaries only, i.e. it is a JSON document up to tuples. -/
inductive IsJson (ok : X → Bool) : Val X → Json X → Prop
  | leaf (x : X) (h : ok x = true) : IsJson ok (.leaf x) (.leaf x)
  | str (s : Str) : IsJson ok (.str s) (.str s)
  | list (vs : List (Val X)) (js : List (Json X)) (hl : vs.length = js.length)
      (h : ∀ (i : Nat) (hv : i < vs.length) (hj : i < js.length), IsJson ok vs[i] js[i]) : IsJson ok (.list vs) (.arr js)
  | tuple (vs : List (Val X)) (js : List (Json X)) (hl : vs.length = js.length)
      (h : ∀ (i : Nat) (hv : i < vs.length) (hj : i < js.length), IsJson ok vs[i] js[i]) : IsJson ok (.tuple vs) (.arr js)
  | dict (kvs : List (Str × Val X)) (js : List (Str × Json X)) (hl : kvs.length = js.length)
      (hk : ∀ (i : Nat) (hv : i < kvs.length) (hj : i < js.length), kvs[i].1 = js[i].1)
      (h : ∀ (i : Nat) (hv : i < kvs.length) (hj : i < js.length), IsJson ok kvs[i].2 js[i].2) : IsJson ok (.dict kvs) (.obj js)

theorem dumpsAll_spec (ok : X → Bool) (R : Val X → PyM (Json X) → Prop) : ∀ vs : List (Val X), (∀ v ∈ vs, R v (dumps ok v)) →
    (∀ v j, R v (.ok j) → IsJson ok v j) → (∀ v e, R v (.error e) → e = .typeError ∧ ¬ ∃ j, IsJson ok v j) →
    (∀ js, dumpsAll ok vs = .ok js → ∃ hl : vs.length = js.length, ∀ (i : Nat) (hv : i < vs.length) (hj : i < js.length), IsJson ok vs[i] js[i]) ∧
    (∀ e, dumpsAll ok vs = .error e → e = .typeError ∧ ∃ v ∈ vs, ¬ ∃ j, IsJson ok v j) := by
  intro vs
  induction vs with
  | nil => intro _ _ _; rw [dumpsAll]; exact ⟨fun js h => (by cases h; exact ⟨rfl, by simp⟩), fun e h => (by cases h)⟩
  | cons v vs ih =>
      intro hR ho he
      obtain ⟨i1, i2⟩ := ih (fun w hw => hR w (by simp [hw])) ho he
      have hv := hR v (by simp)
      rw [dumpsAll]
      cases hd : dumps ok v with
      | error e' =>
          rw [hd] at hv
          refine ⟨fun js h => (by cases h), fun e h => ?_⟩
          cases h
          exact ⟨(he v e' hv).1, v, by simp, (he v e' hv).2⟩
      | ok j =>
          rw [hd] at hv
          cases hds : dumpsAll ok vs with
          | error e' =>
              refine ⟨fun js h => (by cases h), fun e h => ?_⟩
              cases h
              obtain ⟨a, w, hw, b⟩ := i2 e' hds
              exact ⟨a, w, by simp [hw], b⟩
          | ok js0 =>
              refine ⟨fun js h => ?_, fun e h => (by cases h)⟩
              cases h
              obtain ⟨hl, hall⟩ := i1 js0 hds
              refine ⟨by simp [hl], ?_⟩
              intro i hvi hji
              cases i with
              | zero => exact ho v j hv
              | succ i => exact hall i (by simpa using hvi) (by simpa using hji)

theorem dumpsItems_all (ok : X → Bool) : ∀ kvs : List (Str × Val X), dumpsItems ok kvs =
    (match dumpsAll ok (kvs.map (·.2)) with
      | .ok js => .ok ((kvs.map (·.1)).zip js)
      | .error e => .error e) := by
  intro kvs
  induction kvs with
  | nil => rw [dumpsItems]; simp [dumpsAll]
  | cons p kvs ih =>
      obtain ⟨k, v⟩ := p
      rw [dumpsItems]
      simp only [List.map_cons]
      rw [dumpsAll, ih]
      cases dumps ok v with
      | error e => rfl
      | ok j => cases dumpsAll ok (kvs.map (·.2)) <;> rfl

theorem IsJson.notObj (ok : X → Bool) {cls : Str} {how : How X} {attrs : List (Str × Val X)} {bad : List (Str × PyErr)}
    {extra : List (Str × Val X)} : ¬ ∃ j, IsJson ok (.obj cls how attrs bad extra) j := by
  rintro ⟨j, h⟩; cases h

/-- Recursion over values through their sub-values. -/
theorem val_rec (P : Val X → Prop) (hleaf : ∀ x, P (.leaf x)) (hstr : ∀ s, P (.str s)) (hlist : ∀ vs, (∀ v ∈ vs, P v) → P (.list vs))
    (htuple : ∀ vs, (∀ v ∈ vs, P v) → P (.tuple vs)) (hdict : ∀ kvs, (∀ p ∈ kvs, P p.2) → P (.dict kvs))
    (hobj : ∀ cls how attrs bad extra, P (.obj cls how attrs bad extra)) : ∀ v, P v := by
  intro v
  refine Val.rec (motive_1 := P) (motive_2 := fun vs => ∀ v ∈ vs, P v) (motive_3 := fun kvs => ∀ p ∈ kvs, P p.2)
    (motive_4 := fun p => P p.2) hleaf hstr hlist htuple hdict (fun cls how attrs bad extra _ _ => hobj cls how attrs bad extra) ?_ ?_ ?_ ?_ ?_ v
  · intro v h; cases h
  · intro a l ha hl v hv
    rcases List.mem_cons.1 hv with rfl | hv
    · exact ha
    · exact hl v hv
  · intro p h; cases h
  · intro a l ha hl v hv
    rcases List.mem_cons.1 hv with rfl | hv
    · exact ha
    · exact hl v hv
  · intro k v hv; exact hv

theorem dumps_spec (ok : X → Bool) (v : Val X) :
    (∀ j, dumps ok v = .ok j → IsJson ok v j) ∧ (∀ e, dumps ok v = .error e → e = .typeError ∧ ¬ ∃ j, IsJson ok v j) := by
  revert v
  let P : Val X → Prop := fun v => (∀ j, dumps ok v = .ok j → IsJson ok v j) ∧ (∀ e, dumps ok v = .error e → e = .typeError ∧ ¬ ∃ j, IsJson ok v j)
  have seq : ∀ vs : List (Val X), (∀ v ∈ vs, P v) →
      (∀ js, dumpsAll ok vs = .ok js → ∃ hl : vs.length = js.length, ∀ (i : Nat) (hv : i < vs.length) (hj : i < js.length), IsJson ok vs[i] js[i]) ∧
      (∀ e, dumpsAll ok vs = .error e → e = .typeError ∧ ∃ v ∈ vs, ¬ ∃ j, IsJson ok v j) := by
    intro vs hvs
    refine dumpsAll_spec ok (fun v r => r = dumps ok v ∧ P v) vs (fun v hv => ⟨rfl, hvs v hv⟩) ?_ ?_
    · rintro v j ⟨h, hP⟩; exact hP.1 j h.symm
    · rintro v e ⟨h, hP⟩; exact hP.2 e h.symm
  refine val_rec P ?_ ?_ ?_ ?_ ?_ ?_
  · intro x
    show (∀ j, dumps ok (.leaf x) = .ok j → _) ∧ (∀ e, dumps ok (.leaf x) = .error e → _)
    rw [dumps]
    by_cases h : ok x = true
    · rw [if_pos h]; exact ⟨fun j hj => (by cases hj; exact .leaf x h), fun e he => (by cases he)⟩
    · rw [if_neg h]
      refine ⟨fun j hj => (by cases hj), fun e he => ?_⟩
      cases he
      exact ⟨rfl, by rintro ⟨j, hj⟩; cases hj with | leaf _ h' => exact h h'⟩
  · intro s
    show (∀ j, dumps ok (.str s) = .ok j → _) ∧ (∀ e, dumps ok (.str s) = .error e → _)
    rw [dumps]
    exact ⟨fun j hj => (by cases hj; exact .str s), fun e he => (by cases he)⟩
  · intro vs hvs
    obtain ⟨s1, s2⟩ := seq vs hvs
    show (∀ j, dumps ok (.list vs) = .ok j → _) ∧ (∀ e, dumps ok (.list vs) = .error e → _)
    rw [dumps]
    cases hd : dumpsAll ok vs with
    | ok js =>
        refine ⟨fun j hj => ?_, fun e he => (by cases he)⟩
        cases hj
        obtain ⟨hl, hall⟩ := s1 js hd
        exact .list vs js hl hall
    | error e0 =>
        refine ⟨fun j hj => (by cases hj), fun e he => ?_⟩
        cases he
        obtain ⟨ht, w, hw, hn⟩ := s2 e0 hd
        refine ⟨ht, ?_⟩
        rintro ⟨j, hj⟩
        cases hj with
        | list _ js hl hall =>
            obtain ⟨i, hi, rfl⟩ := List.getElem_of_mem hw
            exact hn ⟨_, hall i hi (by omega)⟩
  · intro vs hvs
    obtain ⟨s1, s2⟩ := seq vs hvs
    show (∀ j, dumps ok (.tuple vs) = .ok j → _) ∧ (∀ e, dumps ok (.tuple vs) = .error e → _)
    rw [dumps]
    cases hd : dumpsAll ok vs with
    | ok js =>
        refine ⟨fun j hj => ?_, fun e he => (by cases he)⟩
        cases hj
        obtain ⟨hl, hall⟩ := s1 js hd
        exact .tuple vs js hl hall
    | error e0 =>
        refine ⟨fun j hj => (by cases hj), fun e he => ?_⟩
        cases he
        obtain ⟨ht, w, hw, hn⟩ := s2 e0 hd
        refine ⟨ht, ?_⟩
        rintro ⟨j, hj⟩
        cases hj with
        | tuple _ js hl hall =>
            obtain ⟨i, hi, rfl⟩ := List.getElem_of_mem hw
            exact hn ⟨_, hall i hi (by omega)⟩
  · intro kvs hvs
    obtain ⟨s1, s2⟩ := seq (kvs.map (·.2)) (by
      intro v hv
      obtain ⟨p, hp, rfl⟩ := List.mem_map.1 hv
      exact hvs p hp)
    show (∀ j, dumps ok (.dict kvs) = .ok j → _) ∧ (∀ e, dumps ok (.dict kvs) = .error e → _)
    rw [dumps, dumpsItems_all]
    cases hd : dumpsAll ok (kvs.map (·.2)) with
    | ok js =>
        refine ⟨fun j hj => ?_, fun e he => (by cases he)⟩
        cases hj
        obtain ⟨hl, hall⟩ := s1 js hd
        simp only [List.length_map] at hl
        refine .dict kvs _ (by simp [hl]) ?_ ?_
        · intro i hv hj; simp
        · intro i hv hj
          have := hall i (by simpa using hv) (by omega)
          simpa using this
    | error e0 =>
        refine ⟨fun j hj => (by cases hj), fun e he => ?_⟩
        cases he
        obtain ⟨ht, w, hw, hn⟩ := s2 e0 hd
        refine ⟨ht, ?_⟩
        rintro ⟨j, hj⟩
        cases hj with
        | dict _ js hl hk hall =>
            obtain ⟨p, hp, rfl⟩ := List.mem_map.1 hw
            obtain ⟨i, hi, rfl⟩ := List.getElem_of_mem hp
            exact hn ⟨_, hall i hi (by omega)⟩
  · intro cls how attrs bad extra
    show (∀ j, dumps ok (.obj cls how attrs bad extra) = .ok j → _) ∧ (∀ e, dumps ok (.obj cls how attrs bad extra) = .error e → _)
    rw [dumps]
    exact ⟨fun j hj => (by cases hj), fun e he => (by cases he; exact ⟨rfl, IsJson.notObj ok⟩)⟩

/-- C108: `to_json` gives the document of the representation if the representation is made of texts, accepted leaves and containers of these;
otherwise, and only then, it raises TypeError (an error of the representation itself is passed on). -/
theorem C108_json (ok : X → Bool) (v r : Val X) (h : simple v = .ok r) :
    (∀ j, toJson ok v = .ok j → IsJson ok r j) ∧ ((∃ j, IsJson ok r j) → ∃ j, toJson ok v = .ok j) ∧
    ((¬ ∃ j, IsJson ok r j) → toJson ok v = .error .typeError) := by
  unfold toJson
  rw [h]
  obtain ⟨h1, h2⟩ := dumps_spec ok r
  refine ⟨h1, ?_, ?_⟩
  · rintro hj
    show ∃ j, dumps ok r = .ok j
    cases hd : dumps ok r with
    | ok j => exact ⟨j, rfl⟩
    | error e => exact absurd hj (h2 e hd).2
  · intro hn
    show dumps ok r = .error .typeError
    cases hd : dumps ok r with
    | ok j => exact absurd ⟨j, h1 j hd⟩ hn
    | error e => rw [(h2 e hd).1]

/-- C108: a representation that fails makes `to_json` fail with the same error. -/
theorem C108_json_error (ok : X → Bool) (v : Val X) (e : PyErr) (h : simple v = .error e) : toJson ok v = .error e := by
  unfold toJson; rw [h]

/-- C108: objects inside a Python list (tuple, dictionary) attribute are NOT converted, and make `to_json` fail, whatever they are. -/
theorem C108_container_defect (ok : X → Bool) (cls k : Str) (typed : Bool) (o : Val X) (ho : ∃ c h a b x, o = .obj c h a b x)
    (pre post : List (Val X)) :
    ∃ d, simple (.obj cls (.dict typed [k]) [(k, .list (pre ++ o :: post))] [] []) = .ok (.dict d) ∧
      PyDict.get? d k = some (.list (pre ++ o :: post)) ∧
      toJson ok (.obj cls (.dict typed [k]) [(k, .list (pre ++ o :: post))] [] []) = .error .typeError := by
  obtain ⟨c, hw, a, b, x, rfl⟩ := ho
  have hs : ∃ d, simple (.obj cls (.dict typed [k]) [(k, .list (pre ++ .obj c hw a b x :: post))] [] []) = .ok (.dict d) ∧
      PyDict.get? d k = some (.list (pre ++ .obj c hw a b x :: post)) := by
    rw [simple, simpleAttrs, simple, simpleAttrs]
    simp only [build, dictRepr, dictLoop, attr, PyDict.get?, if_true]
    exact ⟨_, rfl, PyDict.get?_set_self _ _ _⟩
  obtain ⟨d, h1, h2⟩ := hs
  refine ⟨d, h1, h2, ?_⟩
  refine (C108_json ok _ _ h1).2.2 ?_
  rintro ⟨j, hj⟩
  cases hj with
  | dict _ js hl hk hall =>
      obtain ⟨i, hi, he⟩ := List.getElem_of_mem (PyDict.mem_of_get? _ _ _ h2)
      have := hall i hi (by omega)
      rw [he] at this
      generalize hjs : (js[i]'(by omega)).2 = j' at this
      cases this with
      | list _ js' hl' hall' =>
          have hlt : pre.length < (pre ++ Val.obj c hw a b x :: post).length := by simp
          have := hall' pre.length hlt (by omega)
          rw [List.getElem_append_right (by omega)] at this
          simp only [Nat.sub_self, List.getElem_cons_zero] at this
          exact IsJson.notObj ok ⟨_, this⟩

/-- A nested object: an attribute that is an object is converted, and the list representation is a tuple. -/
def exVal : Val Nat := .obj "Tree".toList (.dict true ["n".toList, "child".toList])
  [("child".toList, .obj "Leaf".toList (.list true ["x".toList]) [("x".toList, .leaf 7)] [] []), ("n".toList, .leaf 3)] [] []

theorem C108_example : simple exVal = .ok (.dict [("type".toList, .str "Tree".toList), ("n".toList, .leaf 3),
    ("child".toList, .tuple [.str "Leaf".toList, .leaf 7])]) := by
  simp only [exVal, simple, simpleAttrs]; rfl

example : Direct exVal := by
  refine .obj _ _ _ _ _ ?_ (by simp)
  intro p hp
  simp only [List.mem_cons, List.not_mem_nil, or_false] at hp
  rcases hp with rfl | rfl
  · refine .obj _ _ _ _ _ ?_ (by simp)
    intro p hp
    simp only [List.mem_cons, List.not_mem_nil, or_false] at hp
    subst hp
    exact .clean _ (.leaf 7)
  · exact .clean _ (.leaf 3)

/-! ### C109 -/

/-- C109: the name is the class name exactly when no name (None) is given; an empty name is kept. -/
theorem C109_name (cls : Str) (verbose : Bool) :
    (Logger.new cls none verbose).name = cls ∧ (∀ s, (Logger.new cls (some s) verbose).name = s) ∧
    (∀ n, (Logger.new cls n verbose).verbose = verbose ∧ (Logger.new cls n verbose).out = []) := ⟨rfl, fun _ => rfl, fun _ => ⟨rfl, rfl⟩⟩

/-- Specification: the verbosity after some calls: that set by the last verbose_on / verbose_off, else the initial one. -/
inductive VerbAfter (v0 : Bool) : List LogOp → Bool → Prop
  | initial (ops : List LogOp) (h : ∀ o ∈ ops, o ≠ .on ∧ o ≠ .off) : VerbAfter v0 ops v0
  | on (pre post : List LogOp) (h : ∀ o ∈ post, o ≠ .on ∧ o ≠ .off) : VerbAfter v0 (pre ++ .on :: post) true
  | off (pre post : List LogOp) (h : ∀ o ∈ post, o ≠ .on ∧ o ≠ .off) : VerbAfter v0 (pre ++ .off :: post) false

/-- Specification: the name after some calls: the last assigned one, else the initial one. -/
inductive NameAfter (n0 : Str) : List LogOp → Str → Prop
  | initial (ops : List LogOp) (h : ∀ o ∈ ops, ∀ s, o ≠ .rename s) : NameAfter n0 ops n0
  | set (pre post : List LogOp) (s : Str) (h : ∀ o ∈ post, ∀ s', o ≠ .rename s') : NameAfter n0 (pre ++ .rename s :: post) s

theorem VerbAfter.snoc {v0 v : Bool} {ops : List LogOp} (h : VerbAfter v0 ops v) (o : LogOp) (ho : o ≠ .on ∧ o ≠ .off) :
    VerbAfter v0 (ops ++ [o]) v := by
  have ext : ∀ post : List LogOp, (∀ o ∈ post, o ≠ .on ∧ o ≠ .off) → ∀ o' ∈ post ++ [o], o' ≠ .on ∧ o' ≠ .off := by
    intro post hp o' ho'
    simp only [List.mem_append, List.mem_singleton] at ho'
    rcases ho' with h | rfl
    · exact hp o' h
    · exact ho
  cases h with
  | initial _ h => exact .initial _ (ext _ h)
  | on pre post h => have := VerbAfter.on (v0 := v0) pre (post ++ [o]) (ext _ h); simpa using this
  | off pre post h => have := VerbAfter.off (v0 := v0) pre (post ++ [o]) (ext _ h); simpa using this

theorem NameAfter.snoc {n0 n : Str} {ops : List LogOp} (h : NameAfter n0 ops n) (o : LogOp) (ho : ∀ s, o ≠ .rename s) :
    NameAfter n0 (ops ++ [o]) n := by
  have ext : ∀ post : List LogOp, (∀ o ∈ post, ∀ s, o ≠ .rename s) → ∀ o' ∈ post ++ [o], ∀ s, o' ≠ .rename s := by
    intro post hp o' ho'
    simp only [List.mem_append, List.mem_singleton] at ho'
    rcases ho' with h | rfl
    · exact hp o' h
    · exact ho
  cases h with
  | initial _ h => exact .initial _ (ext _ h)
  | set pre post _ h => have := NameAfter.set (n0 := n0) pre (post ++ [o]) n (ext _ h); simpa using this

theorem run_snoc (l : Logger) (ops : List LogOp) (o : LogOp) : l.run (ops ++ [o]) = (l.run ops).step o := by
  simp [Logger.run]

/-- C109: the object's verbosity and name at any moment are those last set. -/
theorem C109_state (l : Logger) (ops : List LogOp) : VerbAfter l.verbose ops (l.run ops).verbose ∧ NameAfter l.name ops (l.run ops).name := by
  induction ops using List.reverseRecOn with
  | nil => exact ⟨.initial _ (by simp), .initial _ (by simp)⟩
  | append_singleton ops o ih =>
      rw [run_snoc]
      cases o with
      | on => exact ⟨.on ops [] (by simp), ih.2.snoc _ (by simp)⟩
      | off => exact ⟨.off ops [] (by simp), ih.2.snoc _ (by simp)⟩
      | rename s => exact ⟨ih.1.snoc _ (by simp), .set ops [] s (by simp)⟩
      | log t kw args =>
          have e : ((l.run ops).step (.log t kw args)).verbose = (l.run ops).verbose ∧ ((l.run ops).step (.log t kw args)).name = (l.run ops).name := by
            rw [Logger.step]; split <;> exact ⟨rfl, rfl⟩
          rw [e.1, e.2]
          exact ⟨ih.1.snoc _ (by simp), ih.2.snoc _ (by simp)⟩

/-- C109: the text added to the standard output by a call: nothing unless it is `log` while the object is verbose, and then the prefix,
a blank, the arguments, separated by `sep`, and `end`. -/
theorem C109_output (l : Logger) (ops : List LogOp) (o : LogOp) :
    ∃ added, (l.run (ops ++ [o])).out = (l.run ops).out ++ added ∧
      (added = [] ∨ ∃ t kw args, o = .log t kw args ∧ VerbAfter l.verbose ops true) ∧
      (∀ t kw args, o = .log t kw args → (l.run ops).verbose = true →
        added = (if kw.named then kw.sep.intercalate (('[' :: (l.run ops).name ++ ']' :: (if kw.timed then '[' :: t ++ [']'] else [])) :: [' '] :: args)
          else if kw.timed then kw.sep.intercalate (('[' :: t ++ [']']) :: [' '] :: args) else kw.sep.intercalate args) ++ kw.end_) := by
  rw [run_snoc]
  have hst := (C109_state l ops).1
  cases o with
  | on => exact ⟨[], by simp [Logger.step], .inl rfl, by simp⟩
  | off => exact ⟨[], by simp [Logger.step], .inl rfl, by simp⟩
  | rename s => exact ⟨[], by simp [Logger.step], .inl rfl, by simp⟩
  | log t kw args =>
      cases hv : (l.run ops).verbose with
      | false =>
          refine ⟨[], by simp [Logger.step, hv], .inl rfl, ?_⟩
          simp
      | true =>
          rw [hv] at hst
          refine ⟨logText (l.run ops).name t kw args, by simp [Logger.step, hv], .inr ⟨t, kw, args, rfl, hst⟩, ?_⟩
          intro t' kw' args' ho _
          cases ho
          unfold logText logPrefix printText
          cases kw.named <;> cases kw.timed <;> simp

/-- C109: while the object is not verbose nothing is printed, by any number of calls. -/
theorem C109_silent (l : Logger) (hv : l.verbose = false) (ops : List LogOp) (h : ∀ o ∈ ops, o ≠ .on) : (l.run ops).out = l.out := by
  have : (l.run ops).out = l.out ∧ (l.run ops).verbose = false := by
    induction ops using List.reverseRecOn with
    | nil => exact ⟨rfl, hv⟩
    | append_singleton ops o ih =>
        obtain ⟨i1, i2⟩ := ih (fun o ho => h o (by simp [ho]))
        rw [run_snoc]
        cases o with
        | on => exact absurd rfl (h .on (by simp))
        | off => exact ⟨i1, rfl⟩
        | rename s => exact ⟨i1, i2⟩
        | log t kw args => rw [Logger.step, if_neg (by simp [i2])]; exact ⟨i1, i2⟩
  exact this.1

/-- C109: with the default keywords a message is one line `[name] ` followed by the arguments without separators; a given separator also
surrounds the blank after the prefix. -/
theorem C109_line (l : Logger) (hv : l.verbose = true) (t : Str) (args : List Str) (sep : Str) :
    (l.step (.log t {} args)).out = l.out ++ ('[' :: l.name ++ "] ".toList ++ args.flatten ++ ['\n']) ∧
    (l.step (.log t { sep := sep } args)).out = l.out ++ (sep.intercalate (('[' :: l.name ++ [']']) :: [' '] :: args) ++ ['\n']) := by
  have hnil : ∀ xs : List Str, List.intercalate ([] : Str) xs = xs.flatten := by
    intro xs
    induction xs with
    | nil => rfl
    | cons a xs ih =>
        cases xs with
        | nil => simp [List.intercalate]
        | cons b xs =>
            have : List.intercalate ([] : Str) (a :: b :: xs) = a ++ List.intercalate ([] : Str) (b :: xs) := by
              simp [List.intercalate, List.intersperse]
            rw [this, ih]; simp
  constructor
  · rw [Logger.step, if_pos hv]
    unfold logText logPrefix printText
    simp [hnil]
  · rw [Logger.step, if_pos hv]
    unfold logText logPrefix printText
    simp

example : ((Logger.new "Job".toList none false).run [.log [] {} ["a".toList], .on, .log [] {} ["x = ".toList, "1".toList], .off,
    .log [] {} ["b".toList]]).out = "[Job] x = 1\n".toList := by decide

end Pyhipp.Repr
