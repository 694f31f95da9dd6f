import Verif.Model.AttrAccess
import Mathlib.Tactic.ByContra
/-
C134: attribute access to columns, datasets and HDF5 attributes.
-/
namespace Pyhipp.AttrAccess
open Pyhipp

variable {β : Type}

/-- The object holds its container, as after `__init__`. -/
def Init (c : Cls) (o : Obj β) : Prop := c.store ∉ c.props ∧ o.inst.get? c.store = some .store

theorem attr_store {c : Cls} {o : Obj β} (h : Init c o) (n : Nat) : attr c o n c.store = .ok .store := by
  have hn : normal c o c.store = some .store := by simp [normal, h.1, h.2]
  match n with
  | 0 => simp [attr, hn]
  | 1 => simp [attr, hn]
  | n + 2 => simp [attr, hn]

/-- C134: on an object after `__init__`, for a name that neither the class nor the instance has, `o.name` is `o[name]`, with AttributeError in place of KeyError;
for a name that they have it is that, and the item of this name can only be reached as `o[name]`.  (Two stack frames are enough.) -/
theorem C134_access (c : Cls) (o : Obj β) (h : Init c o) (n : Nat) (name : Str) :
    (∀ v, o.items.get? name = some v → getItem c o (n + 1) name = .ok (.item v)) ∧
    (o.items.get? name = none → getItem c o (n + 1) name = .error .keyError) ∧
    (name ∉ c.props → name ∉ c.names → o.inst.get? name = none →
      (∀ v, o.items.get? name = some v → attr c o (n + 2) name = .ok (.item v)) ∧
      (o.items.get? name = none → attr c o (n + 2) name = .error .attributeError)) ∧
    (name ∈ c.props → attr c o n name = .ok (.member name)) ∧
    (name ∉ c.props → ∀ v, o.inst.get? name = some v → attr c o n name = .ok v) ∧
    (name ∈ c.names → name ∉ c.props → o.inst.get? name = none → attr c o n name = .ok (.member name)) := by
  have hs := attr_store h n
  have some_ok : ∀ v, normal c o name = some v → attr c o n name = .ok v := by
    intro v hv
    match n with
    | 0 => simp [attr, hv]
    | 1 => simp [attr, hv]
    | n + 2 => simp [attr, hv]
  refine ⟨?_, ?_, ?_, ?_, ?_, ?_⟩
  · intro v hv; simp [getItem, hs, index, hv, bind, Except.bind]
  · intro hv; simp [getItem, hs, index, hv, bind, Except.bind]
  · intro h1 h2 h3
    have hn : normal c o name = none := by simp [normal, h1, h2, h3]
    refine ⟨fun v hv => ?_, fun hv => ?_⟩
    · simp [attr, hn, hs, index, hv, bind, Except.bind, keyToAttr]
    · simp [attr, hn, hs, index, hv, bind, Except.bind, keyToAttr]
  · intro h1; exact some_ok _ (by simp [normal, h1])
  · intro h1 v hv; exact some_ok _ (by simp [normal, h1, hv])
  · intro h1 h2 h3; exact some_ok _ (by simp [normal, h1, h2, h3])

/-- C134: `hasattr` tells whether the name is in `dir()`: names of the class, instance variables and items, and nothing else. -/
theorem C134_dir (c : Cls) (o : Obj β) (h : Init c o) (n : Nat) (name : Str) :
    hasAttr c o (n + 2) name = .ok (decide (name ∈ dirNames c o)) := by
  obtain ⟨-, -, a3, a4, a5, a6⟩ := C134_access c o h (n + 2) name
  obtain ⟨-, -, a3, -⟩ := C134_access c o h n name
  by_cases h1 : name ∈ c.props
  · simp [hasAttr, a4 h1, dirNames, h1]
  · cases h3 : o.inst.get? name with
    | some v =>
      have : name ∈ o.inst.keys := by
        by_contra hc
        rw [(PyDict.get?_eq_none_iff _ _).mpr hc] at h3
        exact absurd h3 (by simp)
      simp [hasAttr, a5 h1 v h3, dirNames, this]
    | none =>
      have hk : name ∉ o.inst.keys := (PyDict.get?_eq_none_iff _ _).mp h3
      by_cases h2 : name ∈ c.names
      · simp [hasAttr, a6 h2 h1 h3, dirNames, h2]
      · obtain ⟨b1, b2⟩ := a3 h1 h2 h3
        cases h4 : o.items.get? name with
        | some v =>
          have : name ∈ o.items.keys := by
            by_contra hc
            rw [(PyDict.get?_eq_none_iff _ _).mpr hc] at h4
            exact absurd h4 (by simp)
          simp [hasAttr, b1 v h4, dirNames, this]
        | none =>
          have : name ∉ o.items.keys := (PyDict.get?_eq_none_iff _ _).mp h4
          simp [hasAttr, b2 h4, dirNames, this, hk, h1, h2]


/-- C134: the three classes never define their own container, nor `__setstate__`; so after `__init__` the container is found. -/
theorem C134_classes : ∀ c ∈ [dataTable, attrManager, datasetManager],
    c.store ∉ c.props ∧ c.store ∉ c.names ∧ "__setstate__".toList ∉ c.props ∧ "__setstate__".toList ∉ c.names ∧ c.store ≠ "__setstate__".toList := by
  decide +kernel

theorem C134_init (c : Cls) (hc : c ∈ [dataTable, attrManager, datasetManager]) (items : PyDict Str β) : Init c (fresh c items) := by
  have h := C134_classes c hc
  exact ⟨h.1, by simp [fresh, PyDict.get?]⟩

/-- C134: `t.x = v` writes no column, dataset or HDF5 attribute: the items stay as they are, `t['x']` is what it was, and only `t.x` is `v` from now on.
`t.iloc = v` is refused. -/
theorem C134_setattr (c : Cls) (o : Obj β) (h : Init c o) (name : Str) (hn : name ≠ c.store) (v : β) (n : Nat) :
    (setAttr c o name v).2.items = o.items ∧ Init c (setAttr c o name v).2 ∧
    (∀ k, getItem c (setAttr c o name v).2 (n + 1) k = getItem c o (n + 1) k) ∧
    (name ∉ c.props → (setAttr c o name v).1 = .ok () ∧ attr c (setAttr c o name v).2 n name = .ok (.other v) ∧
      ∀ k, k ≠ name → attr c (setAttr c o name v).2 n k = attr c o n k) ∧
    (name ∈ c.props → setAttr c o name v = (.error .attributeError, o)) := by
  have hitems : (setAttr c o name v).2.items = o.items := by
    unfold setAttr; split <;> rfl
  have hinit : Init c (setAttr c o name v).2 := by
    refine ⟨h.1, ?_⟩
    unfold setAttr
    split
    · exact h.2
    · rw [PyDict.get?_set_ne _ _ _ _ (by first | exact hn | exact hn.symm)]
      exact h.2
  refine ⟨hitems, hinit, fun k => ?_, fun hp => ?_, fun hp => by simp [setAttr, hp]⟩
  · simp only [getItem, attr_store hinit, attr_store h, bind, Except.bind, index, hitems]
  · have e : setAttr c o name v = (.ok (), { o with inst := o.inst.set name (.other v) }) := by simp [setAttr, hp]
    rw [e] at hinit ⊢
    refine ⟨rfl, ?_, ?_⟩
    · exact ((C134_access c _ hinit n name).2.2.2.2.1) hp _ (PyDict.get?_set_self _ _ _)
    · intro k hk
      have hnk : normal c { o with inst := o.inst.set name (.other v) } k = normal c o k := by
        simp only [normal]
        rw [PyDict.get?_set_ne _ _ _ _ (by first | exact hk | exact hk.symm)]
      match n with
      | 0 => simp only [attr, hnk]
      | 1 => simp only [attr, hnk]
      | n + 2 => simp only [attr, hnk, attr_store hinit, attr_store h, bind, Except.bind, index]

theorem blank_attr (c : Cls) (items : PyDict Str β) (hs : c.store ∉ c.props) (hs' : c.store ∉ c.names) (n : Nat) (name : Str)
    (h1 : name ∉ c.props) (h2 : name ∉ c.names) : attr c (blank items) n name = .error .runtimeError := by
  induction n using Nat.strongRecOn generalizing name with
  | ind n ih =>
    have hn : normal c (blank items) name = none := by simp [normal, blank, h1, h2]
    match n with
    | 0 => simp [attr, hn]
    | 1 => simp [attr, hn]
    | n + 2 =>
      simp only [attr, hn]
      rw [ih n (by omega) c.store hs hs']
      rfl

/-- C134 (defect): before `__init__` has run, every look-up of a name the class does not have ends in RecursionError, whatever the recursion limit: `__getattr__` needs the
container, which is looked up through `__getattr__`. -/
theorem C134_recursion (c : Cls) (hc : c ∈ [dataTable, attrManager, datasetManager]) (items : PyDict Str β) (n : Nat) (name : Str)
    (h1 : name ∉ c.props) (h2 : name ∉ c.names) :
    attr c (blank items) n name = .error .runtimeError ∧ hasAttr c (blank items) n name = .error .runtimeError := by
  have h := C134_classes c hc
  have e := blank_attr c items h.1 h.2.1 n name h1 h2
  exact ⟨e, by simp [hasAttr, e]⟩

/-- C134 (defect): hence no DataTable can be copied with `copy.copy` or `copy.deepcopy`, or come back from a pickle (so none can be sent to another process), whatever it holds
and whatever the recursion limit: RecursionError.  `DataTable.copy()` is not affected (C07). -/
theorem C134_copy_defect (o : Obj β) (n : Nat) : rebuild dataTable o n = .error .runtimeError := by
  have h := C134_classes dataTable (by simp)
  obtain ⟨-, e⟩ := C134_recursion dataTable (by simp) o.items n "__setstate__".toList h.2.2.1 h.2.2.2.1
  simp only [rebuild, e, bind, Except.bind]

/-- C134 (recorded): columns and datasets named like a method cannot be reached as attributes: `t.keys` of a table with a column `keys` is the method. -/
theorem C134_shadow (items : PyDict Str β) (n : Nat) :
    attr dataTable (fresh dataTable items) n "keys".toList = .ok (.member "keys".toList) ∧
    attr dataTable (fresh dataTable items) n "_data".toList = .ok .store ∧
    attr datasetManager (fresh datasetManager items) n "load".toList = .ok (.member "load".toList) ∧
    attr attrManager (fresh attrManager items) n "items".toList = .ok (.member "items".toList) := by
  have d := C134_init dataTable (by simp) items
  have m := C134_init datasetManager (by simp) items
  have a := C134_init attrManager (by simp) items
  refine ⟨?_, attr_store d n, ?_, ?_⟩
  · exact (C134_access _ _ d n _).2.2.2.2.2 (by decide +kernel) (by decide +kernel) (by simp [fresh, PyDict.get?, dataTable])
  · exact (C134_access _ _ m n _).2.2.2.2.2 (by decide +kernel) (by decide +kernel) (by simp [fresh, PyDict.get?, datasetManager])
  · exact (C134_access _ _ a n _).2.2.2.2.2 (by decide +kernel) (by decide +kernel) (by simp [fresh, PyDict.get?, attrManager])

/-- The names without a leading underscore that the documentation of each class shows: its methods and properties. -/
def publicNames : List (Cls × List String) :=
  [(dataTable, ["iloc", "clear", "get", "items", "keys", "pop", "popitem", "setdefault", "update", "values", "copy", "to_simple_repr", "to_dict",
      "to_dict_of_list", "col_stacked", "row_stacked", "concat", "subset", "subcol", "to_yaml", "to_json"]),
   (attrManager, ["Raw", "create", "create_empty", "keys", "values", "items", "load", "dump", "what", "ls"]),
   (datasetManager, ["Raw", "CreateFlag", "create", "create_empty", "keys", "values", "items", "load", "dump", "what", "ls"])]

/-- C134: so exactly the columns, datasets and HDF5 attributes with these names, or with a leading underscore, can be hidden: with any other name the item is
the attribute, on a freshly made object. -/
theorem C134_hidden (c : Cls) (l : List String) (hc : (c, l) ∈ publicNames) (items : PyDict Str β) (n : Nat) (name : Str) (hu : name.head? ≠ some '_') :
    (name ∈ l.map String.toList → ∃ m, attr c (fresh c items) n name = .ok m ∧ ∀ v, m ≠ .item v) ∧
    (name ∉ l.map String.toList → ∀ v, items.get? name = some v → attr c (fresh c items) (n + 2) name = .ok (.item v)) := by
  have hcl : c ∈ [dataTable, attrManager, datasetManager] := by
    simp only [publicNames, List.mem_cons, List.not_mem_nil, or_false, Prod.mk.injEq] at hc
    rcases hc with ⟨rfl, -⟩ | ⟨rfl, -⟩ | ⟨rfl, -⟩ <;> simp
  have key : ∀ cl ∈ publicNames, (cl.1.props ++ cl.1.names).filter (fun n => n.head? ≠ some '_') = cl.2.map String.toList ∧ cl.1.store.head? = some '_' := by
    decide +kernel
  obtain ⟨k1, k2⟩ := key _ hc
  have hmem : name ∈ l.map String.toList ↔ name ∈ c.props ∨ name ∈ c.names := by
    rw [← k1]; simp [hu]
  have hi := C134_init c hcl items
  have hs : name ≠ c.store := by rintro rfl; exact hu k2
  have hg : (fresh c items).inst.get? name = none := by
    simp [fresh, PyDict.get?, Ne.symm hs]
  obtain ⟨-, -, -, a4, -, a6⟩ := C134_access c (fresh c items) hi n name
  obtain ⟨-, -, a3, -⟩ := C134_access c (fresh c items) hi n name
  constructor
  · intro h
    by_cases h1 : name ∈ c.props
    · exact ⟨_, a4 h1, fun v e => by cases e⟩
    · exact ⟨_, a6 ((hmem.mp h).resolve_left h1) h1 hg, fun v e => by cases e⟩
  · intro h v hv
    exact (a3 (fun h1 => h (hmem.mpr (.inl h1))) (fun h1 => h (hmem.mpr (.inr h1))) hg).1 v hv

/-- C134: `len()` is defined for tables and attributes but not for datasets. -/
theorem C134_len : "__len__".toList ∈ dataTable.names ∧ "__len__".toList ∈ attrManager.names ∧ "__len__".toList ∉ datasetManager.names ∧
    "__iter__".toList ∈ dataTable.names ∧ "__iter__".toList ∉ attrManager.names ∧ "__iter__".toList ∉ datasetManager.names := by
  decide +kernel

/-! Non-vacuity: a table with the columns `mass` and `keys`. -/
example : attr dataTable (fresh dataTable [("mass".toList, 1), ("keys".toList, 2)]) 1000 "mass".toList = .ok (.item (1 : Nat)) := rfl
example : attr dataTable (fresh dataTable [("mass".toList, 1), ("keys".toList, 2)]) 1000 "vel".toList = (.error .attributeError : PyM (Val Nat)) := rfl
example : getItem dataTable (fresh dataTable [("mass".toList, 1), ("keys".toList, 2)]) 1000 "keys".toList = .ok (.item (2 : Nat)) := rfl
example : hasAttr dataTable (fresh dataTable [("mass".toList, 1), ("keys".toList, 2)]) 2 "mass".toList = .ok true := rfl
example : rebuild dataTable (fresh dataTable [("mass".toList, 1)]) 1000 = (.error .runtimeError : PyM (Obj Nat)) := by
  exact C134_copy_defect _ _

end Pyhipp.AttrAccess
