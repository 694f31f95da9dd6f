import Verif.Model.H5File
import Verif.Props.H5Objs
/-
C17, C18: opening files, dump_to, load_from.
-/
namespace Pyhipp.H5
open Pyhipp

variable {DT E : Type}

theorem FS.put_self (fs : FS DT E) (path : Str) (n : Node DT E) (h : fs path = some (.hdf n)) : fs.put path n = fs := by
  funext q
  unfold FS.put
  split
  · rename_i hq; rw [hq, h]
  · rfl

theorem FS.put_put (fs : FS DT E) (path : Str) (n n' : Node DT E) : (fs.put path n).put path n' = fs.put path n' := by
  funext q
  unfold FS.put
  split <;> rfl

theorem FS.put_at (fs : FS DT E) (path : Str) (n : Node DT E) : fs.put path n path = some (.hdf n) := by simp [FS.put]

theorem FS.put_ne (fs : FS DT E) (path q : Str) (n : Node DT E) (h : q ≠ path) : fs.put path n q = fs q := by simp [FS.put, h]

/-! ### C17 -/

/-- C17: 'r' and 'a' on a missing path fail; on an existing HDF5 file they give its contents; the file system never changes.
Only 'r' is read-only. -/
theorem C17_open_existing (fs : FS DT E) (path : Str) :
    (openFile fs path "r").2 = fs ∧ (openFile fs path "a").2 = fs ∧
    (fs path = none → (openFile fs path "r").1 = .error .fileNotFoundError ∧ (openFile fs path "a").1 = .error .fileNotFoundError) ∧
    (∀ n, fs path = some (.hdf n) → (openFile fs path "r").1 = .ok (n, false) ∧ (openFile fs path "a").1 = .ok (n, true)) := by
  have hr : rawMode "r" = some .r := rfl
  have ha : rawMode "a" = some .rw := rfl
  unfold openFile
  rw [hr, ha]
  simp only
  cases h : fs path with
  | none => simp [h5pyOpen, h]
  | some f => cases f <;> simp [h5pyOpen, h]

/-- C17: 'x' on an existing path fails and changes nothing; on a free path it creates an empty file. -/
theorem C17_open_x (fs : FS DT E) (path : Str) :
    (fs path ≠ none → openFile fs path "x" = (.error .fileExistsError, fs)) ∧
    (fs path = none → (openFile fs path "x").1 = .ok (.grp [] [], true) ∧ (openFile fs path "x").2 path = some (.hdf (.grp [] [])) ∧
      ∀ q, q ≠ path → (openFile fs path "x").2 q = fs q) := by
  have hx : rawMode "x" = some .x := rfl
  unfold openFile
  rw [hx]
  simp only
  cases h : fs path with
  | none => simpa [h5pyOpen, h, FS.put_at] using fun q hq => FS.put_ne fs path q _ hq
  | some f => simp [h5pyOpen, h]

/-- C17: 'ac' and 'ca' open an existing HDF5 file unchanged, or create an empty one. -/
theorem C17_open_ac (fs : FS DT E) (path : Str) (flag : String) (hf : flag = "ac" ∨ flag = "ca") :
    (∀ n, fs path = some (.hdf n) → openFile fs path flag = (.ok (n, true), fs)) ∧
    (fs path = none → (openFile fs path flag).1 = .ok (.grp [] [], true) ∧ (openFile fs path flag).2 path = some (.hdf (.grp [] [])) ∧
      ∀ q, q ≠ path → (openFile fs path flag).2 q = fs q) := by
  have hx : rawMode flag = some .a := by rcases hf with rfl | rfl <;> rfl
  unfold openFile
  rw [hx]
  simp only
  cases h : fs path with
  | none => simpa [h5pyOpen, h, FS.put_at] using fun q hq => FS.put_ne fs path q _ hq
  | some f => cases f <;> simp [h5pyOpen, h]

/-- C17: 'w' always gives an empty writable file. -/
theorem C17_open_w (fs : FS DT E) (path : Str) :
    (openFile fs path "w").1 = .ok (.grp [] [], true) ∧ (openFile fs path "w").2 path = some (.hdf (.grp [] [])) ∧
      ∀ q, q ≠ path → (openFile fs path "w").2 q = fs q := by
  have hx : rawMode "w" = some .w := rfl
  unfold openFile
  rw [hx]
  have hop : h5pyOpen fs path .w = (.ok (.grp [] [], true), fs.put path (.grp [] [])) := by
    unfold h5pyOpen; rfl
  simp only [hop]
  exact ⟨trivial, FS.put_at _ _ _, fun q hq => FS.put_ne fs path q _ hq⟩

/-- C17: any other flag raises ValueError before the file system is touched, whatever the body is. -/
theorem C17_unknown_flag {α : Type} (env : Env DT E) (fs : FS DT E) (path : Str) (flag : String) (body : Env DT E → Node DT E → PyM α × Node DT E)
    (h : flag ∉ ["r", "a", "x", "ac", "ca", "w"]) :
    openFile fs path flag = (.error .valueError, fs) ∧ withFile env fs path flag body = (.error .valueError, fs) := by
  have hx : rawMode flag = none := by
    simp only [List.mem_cons, List.not_mem_nil, or_false, not_or] at h
    simp [rawMode, h]
  simp [withFile, openFile, hx]

theorem rawCreateDataset_ro (env : Env DT E) (hw : env.writable = false) (obj : PyM (Dset DT E)) (n : Node DT E) (p : List Str) :
    ∃ e, rawCreateDataset env obj n p = (.error e, n) := by
  match n, p with
  | .dset _ _, [] => exact ⟨_, rfl⟩
  | .grp _ _, [] => exact ⟨_, rfl⟩
  | .dset _ _, [_] => exact ⟨_, rfl⟩
  | .dset _ _, _ :: _ :: _ => exact ⟨_, rfl⟩
  | .grp _ _, [_] => exact ⟨.valueError, by simp [rawCreateDataset, hw]⟩
  | .grp _ _, _ :: _ :: _ => exact ⟨.valueError, by simp [rawCreateDataset, hw]⟩

theorem rawCreateGroup_ro (env : Env DT E) (hw : env.writable = false) (n : Node DT E) (p : List Str) :
    ∃ e, rawCreateGroup env n p = (.error e, n) := by
  match n, p with
  | .dset _ _, [] => exact ⟨_, rfl⟩
  | .grp _ _, [] => exact ⟨_, rfl⟩
  | .dset _ _, _ :: _ => exact ⟨_, rfl⟩
  | .grp _ _, _ :: _ => exact ⟨.valueError, by simp [rawCreateGroup, hw]⟩

theorem modifyAt_id {α : Type} (f : Node DT E → PyM α × Node DT E) (p : List Str) (hf : ∀ c, (f c).2 = c) : ∀ n, (modifyAt f n p).2 = n := by
  induction p with
  | nil => intro n; simpa [modifyAt] using hf n
  | cons k ks ih =>
      intro n
      cases n with
      | dset d a => rfl
      | grp ch a =>
          simp only [modifyAt]
          cases hg : PyDict.get? ch k with
          | none => rfl
          | some c => simp only [ih c, PyDict.set_get?_self _ _ _ hg]

theorem createGroup_ro (env : Env DT E) (hw : env.writable = false) (n : Node DT E) (key : Str) (flag : String) : (createGroup env n key flag).2 = n := by
  unfold createGroup
  split
  · rfl
  · split
    · split
      · rfl
      · split <;> rfl
    · obtain ⟨e, he⟩ := rawCreateGroup_ro env hw n (pathOf key); rw [he]

theorem assign_ro (env : Env DT E) (hw : env.writable = false) (l : Leaf DT E) (c : Node DT E) : ∃ e, assign env l c = (.error e, c) := by
  cases c with
  | grp ch a => exact ⟨_, rfl⟩
  | dset d a => exact ⟨.osError, by simp [assign, hw]⟩

theorem modifyAt_assign_ro (env : Env DT E) (hw : env.writable = false) (l : Leaf DT E) (p : List Str) :
    ∀ n, ∃ e, modifyAt (assign env l) n p = (.error e, n) := by
  induction p with
  | nil => intro n; simpa [modifyAt] using assign_ro env hw l n
  | cons k ks ih =>
      intro n
      cases n with
      | dset d a => exact ⟨_, rfl⟩
      | grp ch a =>
          simp only [modifyAt]
          cases hg : PyDict.get? ch k with
          | none => exact ⟨_, rfl⟩
          | some c =>
              obtain ⟨e, he⟩ := ih c
              simp only [he, PyDict.set_get?_self _ _ _ hg]
              exact ⟨e, rfl⟩

theorem dsCreate_ro (env : Env DT E) (hw : env.writable = false) (n : Node DT E) (key : Str) (l : Leaf DT E) (flag : String) :
    ∃ e, dsCreate env n key l flag = (.error e, n) := by
  unfold dsCreate
  split
  · exact ⟨_, rfl⟩
  · split
    · split
      · exact ⟨_, rfl⟩
      · split
        · exact modifyAt_assign_ro env hw l _ n
        · exact ⟨_, rfl⟩
    · exact rawCreateDataset_ro env hw _ n _

theorem dumpItems_ro (env : Env DT E) (hw : env.writable = false) (flag : String) (kvs : List (KeyObj × Val DT E)) :
    ∀ n, (dumpItems env flag kvs n).2 = n := by
  intro n
  match kvs with
  | [] => simp only [dumpItems]
  | (.other, _) :: _ => simp only [dumpItems]
  | (.str k, .leaf l) :: rest =>
      obtain ⟨e, he⟩ := dsCreate_ro env hw n k l flag
      rw [dumpItems, he]
  | (.str k, .map kvs') :: rest =>
      have h1 := createGroup_ro env hw n k flag
      rw [dumpItems]
      cases hc : createGroup env n k flag with
      | mk r n1 =>
          rw [hc] at h1
          simp only at h1
          subst h1
          cases r with
          | error e => rfl
          | ok u =>
              have h2 := modifyAt_id (dump env flag (.map kvs')) (pathOf k) (fun c => by
                rw [dump]
                split
                · exact dumpItems_ro env hw flag kvs' c
                · rfl) n1
              simp only
              cases hm : modifyAt (dump env flag (.map kvs')) n1 (pathOf k) with
              | mk r2 n2 =>
                  rw [hm] at h2
                  simp only at h2
                  subst h2
                  cases r2 with
                  | error e => rfl
                  | ok u => exact dumpItems_ro env hw flag rest n2

theorem dump_ro (env : Env DT E) (hw : env.writable = false) (flag : String) (v : Val DT E) (n : Node DT E) : (dump env flag v n).2 = n := by
  cases v with
  | leaf l => rw [dump]
  | map kvs =>
      rw [dump]
      split
      · exact dumpItems_ro env hw flag kvs n
      · rfl

theorem delItem_ro (env : Env DT E) (hw : env.writable = false) (p : List Str) : ∀ n : Node DT E, ∃ e, delItem env n p = (.error e, n) := by
  induction p with
  | nil => intro n; cases n <;> exact ⟨_, rfl⟩
  | cons k ks ih =>
      intro n
      cases n with
      | dset d a => cases ks <;> exact ⟨_, rfl⟩
      | grp ch a =>
          cases ks with
          | nil => simp only [delItem, hw]; split <;> exact ⟨_, rfl⟩
          | cons k' ks =>
              simp only [delItem]
              cases hg : PyDict.get? ch k with
              | none => exact ⟨_, rfl⟩
              | some c =>
                  obtain ⟨e, he⟩ := ih c
                  simp only [he, PyDict.set_get?_self _ _ _ hg]
                  exact ⟨e, rfl⟩

/-- C17: a file opened with 'r' refuses writes: creating, assigning and deleting raise, and no operation (dump included)
changes anything. -/
theorem C17_read_only (env : Env DT E) (hw : env.writable = false) (n : Node DT E) (at' : List (Str × Dset DT E)) (key : Str) (l : Leaf DT E)
    (shape : List Nat) (dt : DT) (flag : String) (v : Val DT E) (p : List Str) :
    (∃ e, dsCreate env n key l flag = (.error e, n)) ∧ (∃ e, dsSet env n key l = (.error e, n)) ∧ (∃ e, delItem env n p = (.error e, n)) ∧
    (∃ e, attrSet env at' key l = (.error e, at')) ∧ (∃ e, attrCreate env at' key l flag = (.error e, at')) ∧
    (createGroup env n key flag).2 = n ∧ (lookup n (pathOf key) = none → ∃ e, createGroup env n key flag = (.error e, n)) ∧
    (dsCreateEmpty env n key shape dt flag).2 = n ∧ (attrCreateEmpty env at' key shape dt flag).2 = at' ∧ (dump env flag v n).2 = n := by
  have hmod : ∀ old, attrModify env old l = .error .osError := by
    intro old; simp only [attrModify, hw]; rfl
  have hnew : ∀ obj, attrNew env obj = .error .osError := by
    intro obj; simp only [attrNew, hw]; rfl
  refine ⟨dsCreate_ro env hw n key l flag, ?_, delItem_ro env hw p n, ?_, ?_, createGroup_ro env hw n key flag, ?_, ?_, ?_, dump_ro env hw flag v n⟩
  · unfold dsSet
    split
    · exact modifyAt_assign_ro env hw l _ n
    · exact ⟨_, rfl⟩
  · unfold attrSet
    split
    · exact ⟨_, rfl⟩
    · rw [hmod]; exact ⟨_, rfl⟩
  · unfold attrCreate
    split
    · exact ⟨_, rfl⟩
    · split
      · split
        · exact ⟨_, rfl⟩
        · rw [hmod]; exact ⟨_, rfl⟩
      · rw [hnew]; exact ⟨_, rfl⟩
  · intro hl
    unfold createGroup
    split
    · exact ⟨_, rfl⟩
    · have hc : contains n (pathOf key) = false := by unfold contains; rw [hl]; rfl
      rw [hc]
      exact rawCreateGroup_ro env hw n _
  · unfold dsCreateEmpty
    split
    · rfl
    · split
      · split <;> rfl
      · have h : ∀ obj : PyM (Dset DT E), (rawCreateDataset env obj n (pathOf key)).2 = n := by
          intro obj
          obtain ⟨e, he⟩ := rawCreateDataset_ro env hw obj n (pathOf key)
          rw [he]
        exact h _
  · unfold attrCreateEmpty
    split
    · rfl
    · split
      · split <;> rfl
      · rw [hnew]; rfl

theorem dumpAt_ro (env : Env DT E) (hw : env.writable = false) (data : Val DT E) (g d : String) (c : Bool) (ks : List Str) :
    ∀ n, (dumpAt env data g d c ks n).2 = n := by
  induction ks with
  | nil => intro n; simp only [dumpAt]; exact dump_ro env hw d data n
  | cons k ks ih =>
      intro n
      cases ks with
      | nil =>
          simp only [dumpAt]
          cases data with
          | leaf l => obtain ⟨e, he⟩ := dsCreate_ro env hw n k l d; simp only [he]
          | map kvs =>
              simp only
              have h1 := createGroup_ro env hw n k g
              cases hc : createGroup env n k g with
              | mk r n1 =>
                  rw [hc] at h1
                  simp only at h1
                  subst h1
                  cases r with
                  | error e => rfl
                  | ok u => exact modifyAt_id _ _ (dump_ro env hw d (.map kvs)) _
      | cons k' ks =>
          simp only [dumpAt]
          split
          · have h1 := createGroup_ro env hw n k "ac"
            cases hc : createGroup env n k "ac" with
            | mk r n1 =>
                rw [hc] at h1
                simp only at h1
                subst h1
                cases r with
                | error e => rfl
                | ok u => exact modifyAt_id _ _ ih _
          · split
            · rfl
            · rfl
            · exact modifyAt_id _ _ ih _

/-- C17: `load_from`, and `dump_to` with file flag 'r', never change the file system. -/
theorem C17_files_unchanged (env : Env DT E) (fs : FS DT E) (path : Str) (key : Option Str) (data : Val DT E) (g d : String) (c : Bool) :
    (loadFrom env fs path key).2 = fs ∧ (dumpTo env fs path data key "r" g d c).2 = fs := by
  have hopen := C17_open_existing fs path
  have gen : ∀ {α : Type} (body : Env DT E → Node DT E → PyM α × Node DT E), (∀ env : Env DT E, env.writable = false → ∀ n, (body env n).2 = n) →
      (withFile env fs path "r" body).2 = fs := by
    intro α body hb
    unfold withFile
    cases h : fs path with
    | none =>
        have : openFile fs path "r" = (.error .fileNotFoundError, fs) := Prod.ext (hopen.2.2.1 h).1 hopen.1
        rw [this]
    | some f =>
        cases f with
        | junk =>
            have : openFile fs path "r" = (.error .osError, fs) := by
              have hr : rawMode "r" = some .r := rfl
              simp [openFile, hr, h5pyOpen, h]
            rw [this]
        | hdf n =>
            have : openFile fs path "r" = (.ok (n, false), fs) := Prod.ext (hopen.2.2.2 n h).1 hopen.1
            rw [this]
            simp only
            rw [hb _ rfl n, FS.put_self fs path n h]
  constructor
  · refine gen _ (fun env _ n => ?_)
    cases key with
    | none => rfl
    | some k => simp only; split <;> rfl
  · refine gen _ (fun env hw n => ?_)
    cases key with
    | none => exact dump_ro env hw d data n
    | some k => exact dumpAt_ro env hw data g d c _ n

/-- The open flags on a file system with one file. -/
example :
    let n : Node Nat Nat := .grp [("d".toList, .dset ⟨1, [], [3]⟩ [])] []
    let fs : FS Nat Nat := FS.put (fun _ => none) "p".toList n
    (openFile fs "p".toList "a").1 = .ok (n, true) ∧ (openFile fs "q".toList "a").1 = .error .fileNotFoundError ∧
    (openFile fs "p".toList "x").1 = .error .fileExistsError ∧ (openFile fs "p".toList "w").2 "p".toList = some (.hdf (.grp [] [])) :=
  ⟨rfl, rfl, rfl, rfl⟩

/-! ### C18 -/

/-- Specification: `L` is what loading the dumped data `v` must give, at every path of names. -/
def Loaded (env : Env DT E) (v : Val DT E) (L : LVal DT E) : Prop :=
  ∀ p, (∀ x, Val.at v p = some x → ∃ y, LVal.at L p = some y ∧ IsLoaded env x y) ∧ (Val.at v p = none → LVal.at L p = none)

/-- Specification: from `n` to `n'` nothing outside `ks` has changed, except that missing groups on the way to `ks` were
created. -/
def Outside (ks : List Str) (n n' : Node DT E) : Prop :=
  ∀ q, ¬ ks <+: q →
    (∀ d a, lookup n' q = some (.dset d a) ↔ lookup n q = some (.dset d a)) ∧
    (∀ ch a, lookup n q = some (.grp ch a) → ∃ ch', lookup n' q = some (.grp ch' a)) ∧
    (∀ ch a, lookup n' q = some (.grp ch a) → (∃ ch', lookup n q = some (.grp ch' a)) ∨ (lookup n q = none ∧ q <+: ks ∧ a = []))

/-- No dataset is in the way of the path. -/
def NoDset (ks : List Str) (n : Node DT E) : Prop := ∀ q, q <+: ks → ∀ d a, lookup n q ≠ some (.dset d a)

theorem noDset_grp {ks : List Str} {n : Node DT E} (h : NoDset ks n) : ∃ ch a, n = .grp ch a := by
  cases n with
  | dset d a => exact absurd rfl (h [] List.nil_prefix d a)
  | grp ch a => exact ⟨ch, a, rfl⟩

theorem noDset_child {k : Str} {ks : List Str} {ch : List (Str × Node DT E)} {a : List (Str × Dset DT E)} (h : NoDset (k :: ks) (.grp ch a))
    (c : Node DT E) (hc : PyDict.get? ch k = some c) : NoDset ks c := by
  intro q hq d a' hl
  refine h (k :: q) (by rw [List.cons_prefix_cons]; exact ⟨rfl, hq⟩) d a' ?_
  rw [lookup, hc]; exact hl

theorem outside_set (k : Str) (ks : List Str) (ch : List (Str × Node DT E)) (a : List (Str × Dset DT E)) (c' : Node DT E)
    (h : ∀ c, PyDict.get? ch k = some c → Outside ks c c') (h0 : PyDict.get? ch k = none → Outside ks (.grp [] []) c' ∧ (ks ≠ [] → ∃ x, c' = .grp x [])) :
    Outside (k :: ks) (.grp ch a) (.grp (PyDict.set ch k c') a) := by
  intro q hq
  cases q with
  | nil =>
      refine ⟨by simp [lookup], fun ch0 a0 h => ?_, fun ch0 a0 h => ?_⟩
      · simp only [lookup, Option.some.injEq, Node.grp.injEq] at h
        exact ⟨_, by rw [lookup, h.2]⟩
      · simp only [lookup, Option.some.injEq, Node.grp.injEq] at h
        exact Or.inl ⟨_, by rw [lookup, h.2]⟩
  | cons k' q' =>
      simp only [lookup, PyDict.get?_set]
      by_cases hk : k' = k
      · subst hk
        rw [if_pos rfl]
        have hq' : ¬ ks <+: q' := fun hh => hq (by rw [List.cons_prefix_cons]; exact ⟨rfl, hh⟩)
        cases hg : PyDict.get? ch k' with
        | some c =>
            obtain ⟨h1, h2, h3⟩ := h c hg q' hq'
            refine ⟨h1, h2, fun ch0 a0 h' => ?_⟩
            rcases h3 ch0 a0 h' with h3 | ⟨e1, e2, e3⟩
            · exact Or.inl h3
            · exact Or.inr ⟨e1, by rw [List.cons_prefix_cons]; exact ⟨rfl, e2⟩, e3⟩
        | none =>
            obtain ⟨h0, hx⟩ := h0 hg
            obtain ⟨h1, h2, h3⟩ := h0 q' hq'
            have hlook : ∀ x q'', lookup (.grp [] [] : Node DT E) (x :: q'') = none := by intro x q''; simp [lookup, PyDict.get?]
            refine ⟨fun d a' => ?_, fun ch0 a0 h' => by simp at h', fun ch0 a0 h' => ?_⟩
            · rw [h1]
              cases q' with
              | nil => simp [lookup]
              | cons x q'' => simp [hlook]
            · right
              refine ⟨rfl, ?_⟩
              cases q' with
              | nil =>
                  obtain ⟨x, rfl⟩ := hx (fun e => hq' (e ▸ List.nil_prefix))
                  simp only [lookup, Option.some.injEq, Node.grp.injEq] at h'
                  exact ⟨by rw [List.cons_prefix_cons]; exact ⟨rfl, List.nil_prefix⟩, h'.2.symm⟩
              | cons x q'' =>
                  rcases h3 ch0 a0 h' with ⟨c, hc⟩ | ⟨-, e2, e3⟩
                  · rw [hlook] at hc; cases hc
                  · exact ⟨by rw [List.cons_prefix_cons]; exact ⟨rfl, e2⟩, e3⟩
      · rw [if_neg hk]
        exact ⟨fun d a' => Iff.rfl, fun ch0 a0 h => ⟨ch0, h⟩, fun ch0 a0 h => Or.inl ⟨ch0, h⟩⟩

/-- The object at `ks`, or a new empty group. -/
def objAt (ks : List Str) (n : Node DT E) : Node DT E := (lookup n ks).getD (.grp [] [])

theorem createGroup_ac (env : Env DT E) (hw : env.writable = true) (k : Str) (hk : IsName k) (ch : List (Str × Node DT E)) (a : List (Str × Dset DT E))
    (h : ∀ d at', PyDict.get? ch k ≠ some (.dset d at')) :
    createGroup env (.grp ch a) k "ac" = (.ok (), .grp (PyDict.set ch k ((PyDict.get? ch k).getD (.grp [] []))) a) := by
  unfold createGroup
  rw [pathOf_name hk, contains_single, lookup_single, PyDict.has]
  cases hg : PyDict.get? ch k with
  | none =>
      simp only [Option.isSome_none, rawCreateGroup, hw, hg, Option.getD_none, List.foldr_nil]
      rfl
  | some c =>
      cases c with
      | dset d at' => exact absurd hg (h d at')
      | grp c1 c2 =>
          simp only [Option.getD_some, PyDict.set_get?_self _ _ _ hg]
          rfl

/-- The parents are opened or created, and the last component is handled in the last of them. -/
theorem dumpAt_parents (env : Env DT E) (hw : env.writable = true) (data : Val DT E) (g d : String) (last : Str) (ks : List Str)
    (hn : ∀ k ∈ ks, IsName k) : ∀ (n : Node DT E), NoDset ks n →
    (dumpAt env data g d true (ks ++ [last]) n).1 = (dumpAt env data g d true [last] (objAt ks n)).1 ∧
    lookup (dumpAt env data g d true (ks ++ [last]) n).2 ks = some (dumpAt env data g d true [last] (objAt ks n)).2 ∧
    ((∃ x, (dumpAt env data g d true [last] (objAt ks n)).2 = .grp x (objAt ks n).attrs) →
      (∃ x, (dumpAt env data g d true (ks ++ [last]) n).2 = .grp x n.attrs) ∧
      (Outside [last] (objAt ks n) (dumpAt env data g d true [last] (objAt ks n)).2 →
        Outside (ks ++ [last]) n (dumpAt env data g d true (ks ++ [last]) n).2)) := by
  induction ks with
  | nil =>
      intro n _
      refine ⟨rfl, rfl, fun hx => ⟨hx, fun ho => ho⟩⟩
  | cons k ks ih =>
      intro n hd
      obtain ⟨ch, a, rfl⟩ := noDset_grp hd
      have hk : IsName k := hn k (by simp)
      have hnd : ∀ d at', PyDict.get? ch k ≠ some (.dset d at') := by
        intro d at' hh
        refine hd [k] (by rw [List.cons_prefix_cons]; exact ⟨rfl, List.nil_prefix⟩) d at' ?_
        rw [lookup_single]; exact hh
      have hstep : ∃ k' ks', ks ++ [last] = k' :: ks' := by
        cases ks with
        | nil => exact ⟨_, _, rfl⟩
        | cons x xs => exact ⟨_, _, rfl⟩
      obtain ⟨k', ks', hks⟩ := hstep
      let c := (PyDict.get? ch k).getD (.grp [] [])
      have hcdef : c = (PyDict.get? ch k).getD (.grp [] []) := rfl
      have heq : dumpAt env data g d true (k :: ks ++ [last]) (.grp ch a) =
          ((dumpAt env data g d true (ks ++ [last]) c).1, .grp (PyDict.set ch k (dumpAt env data g d true (ks ++ [last]) c).2) a) := by
        rw [List.cons_append, hks]
        simp only [dumpAt, if_true]
        rw [createGroup_ac env hw k hk ch a hnd, pathOf_name hk]
        simp only
        rw [modifyAt_eq _ k _ a c (PyDict.get?_set_self _ _ _), PyDict.set_set]
      have hobj : objAt (k :: ks) (.grp ch a) = objAt ks c := by
        unfold objAt
        simp only [lookup, hcdef]
        cases hg : PyDict.get? ch k with
        | some c0 => rfl
        | none =>
            cases ks with
            | nil => rfl
            | cons x xs => rfl
      have hdc : NoDset ks c := by
        rw [hcdef]
        cases hg : PyDict.get? ch k with
        | some c0 => exact noDset_child hd c0 hg
        | none =>
            intro q hq d a' hl
            cases q with
            | nil => simp [lookup] at hl
            | cons x q => simp [lookup, PyDict.get?] at hl
      obtain ⟨h1, h2, h3⟩ := ih (fun x hx => hn x (by simp [hx])) c hdc
      rw [heq, hobj]
      refine ⟨h1, ?_, fun hx => ?_⟩
      · simp only [lookup, PyDict.get?_set_self]; exact h2
      · obtain ⟨⟨x, hx'⟩, h4⟩ := h3 hx
        refine ⟨⟨_, rfl⟩, fun ho => ?_⟩
        have h5 := h4 ho
        simp only [List.cons_append]
        refine outside_set k (ks ++ [last]) ch a _ (fun c0 hc0 => ?_) (fun hn => ?_)
        · have : c = c0 := by rw [hcdef, hc0]; rfl
          rw [← this]; exact h5
        · have : c = .grp [] [] := by rw [hcdef, hn]; rfl
          rw [this] at h5 hx'
          exact ⟨by rw [this]; exact h5, fun _ => ⟨x, by rw [this]; exact hx'⟩⟩

theorem dumpAt_last (env : Env DT E) (hw : env.writable = true) (data : Val DT E) (hg : Good (Storable env) data) (g d : String)
    (hgf : flagOk g = true) (hdf : flagOk d = true) (c : Bool) (last : Str) (hl : IsName last) (ch : List (Str × Node DT E)) (a : List (Str × Dset DT E))
    (hnone : PyDict.get? ch last = none) :
    dumpAt env data g d c [last] (.grp ch a) = (.ok (), .grp (PyDict.set ch last (build env data)) a) := by
  simp only [dumpAt]
  cases data with
  | leaf l =>
      obtain ⟨x, hx⟩ := (show Storable env l by simpa [Good] using hg)
      simp only [dsCreate, hdf, pathOf_name hl, contains_single, PyDict.has, hnone, Option.isSome_none, rawCreateDataset, hw, hx, build, buildLeaf]
      rfl
  | map kvs =>
      have hc : createGroup env (.grp ch a) last g = (.ok (), .grp (PyDict.set ch last (.grp [] [])) a) := by
        simp only [createGroup, hgf, pathOf_name hl, contains_single, PyDict.has, hnone, Option.isSome_none, rawCreateGroup, hw, List.foldr_nil]
        rfl
      have hgi : GoodItems (Storable env) kvs := by simpa [Good] using hg
      simp only [hc, pathOf_name hl]
      rw [modifyAt_eq _ last _ a _ (PyDict.get?_set_self _ _ _), PyDict.set_set, dump, scanItems_good (fun l hl => storable_leafOk hl) kvs hgi, if_pos rfl,
        dumpItems_build env hw d hdf kvs hgi [] [] (by intro k _; simp [PyDict.keys]), List.nil_append, build]

theorem pathOf_names (key : Str) : ∀ k ∈ pathOf key, IsName k := fun k hk => ⟨(Str.mem_comps '/' key k hk).2, (Str.mem_comps '/' key k hk).1⟩

theorem withFile_ac {α : Type} (env : Env DT E) (fs : FS DT E) (path : Str) (flag : String) (hf : flag = "ac" ∨ flag = "ca") (root : Node DT E)
    (hfs : fs path = some (.hdf root) ∨ (fs path = none ∧ root = .grp [] [])) (body : Env DT E → Node DT E → PyM α × Node DT E) :
    withFile env fs path flag body = ((body { env with writable := true } root).1, fs.put path (body { env with writable := true } root).2) := by
  unfold withFile
  have h := C17_open_ac fs path flag hf
  rcases hfs with hfs | ⟨hfs, rfl⟩
  · rw [h.1 root hfs]
  · have hop : openFile fs path flag = (.ok (.grp [] [], true), fs.put path (.grp [] [])) := by
      have hx : rawMode flag = some .a := by rcases hf with rfl | rfl <;> rfl
      simp [openFile, hx, h5pyOpen, hfs]
    rw [hop]
    simp only [FS.put_put]

theorem loadFrom_eq (env : Env DT E) (fs : FS DT E) (path : Str) (root : Node DT E) (h : fs path = some (.hdf root)) (key : Option Str) :
    loadFrom env fs path key = ((match key with
      | none => .ok (load root)
      | some k => match lookup root (pathOf k) with
          | none => .error .keyError
          | some g => .ok (load g)), fs) := by
  have ho := C17_open_existing fs path
  have hop : openFile fs path "r" = (.ok (root, false), fs) := Prod.ext (ho.2.2.2 root h).1 ho.1
  unfold loadFrom withFile
  rw [hop]
  simp only
  cases key with
  | none => simp only; rw [FS.put_self fs path root h]
  | some k =>
      simp only
      cases lookup root (pathOf k) <;> (simp only; rw [FS.put_self fs path root h])

/-- C18: `dump_to` under a new key of any depth, in a file that exists or not, followed by `load_from` with that key, returns
the data; other files are unchanged, and in the file nothing outside the key is changed except that missing parent
groups are created. -/
theorem C18_round_trip (env : Env DT E) (fs : FS DT E) (path : Str) (root : Node DT E)
    (hfs : fs path = some (.hdf root) ∨ (fs path = none ∧ root = .grp [] [])) (data : Val DT E) (hg : Good (Storable env) data) (key : Str)
    (hkey : pathOf key ≠ []) (hnone : lookup root (pathOf key) = none) (hnd : NoDset (pathOf key) root) (f g d : String) (hf : f = "ac" ∨ f = "ca")
    (hgf : flagOk g = true) (hdf : flagOk d = true) :
    ∃ fs' root' L, dumpTo env fs path data (some key) f g d true = (.ok (), fs') ∧ loadFrom env fs' path (some key) = (.ok L, fs') ∧
      Loaded env data L ∧ fs' path = some (.hdf root') ∧ Outside (pathOf key) root root' ∧ ∀ q, q ≠ path → fs' q = fs q := by
  obtain ⟨ks, last, hks⟩ : ∃ ks last, pathOf key = ks ++ [last] := ⟨_, _, (List.dropLast_append_getLast hkey).symm⟩
  have hnames := pathOf_names key
  rw [hks] at hnames hnone hnd
  have hd1 : NoDset ks root := fun q hq => hnd q (hq.trans (List.prefix_append ks [last]))
  obtain ⟨p1, p2, p3⟩ := dumpAt_parents { env with writable := true } rfl data g d last ks (fun k hk => hnames k (by simp [hk])) root hd1
  have hobj : ∃ ch a, objAt ks root = .grp ch a ∧ PyDict.get? ch last = none := by
    unfold objAt
    cases hl : lookup root ks with
    | none => exact ⟨[], [], rfl, rfl⟩
    | some c =>
        cases c with
        | dset x y => exact absurd hl (hd1 ks (List.prefix_refl ks) x y)
        | grp ch a =>
            refine ⟨ch, a, rfl, ?_⟩
            rw [lookup_append ks [last] root _ hl, lookup_single] at hnone
            exact hnone
  obtain ⟨ch, a, ho, hn⟩ := hobj
  have hlast := dumpAt_last { env with writable := true } rfl data (by exact hg) g d hgf hdf true last (hnames last (by simp)) ch a hn
  rw [ho, hlast] at p1 p2 p3
  have hout : Outside [last] (.grp ch a) (.grp (PyDict.set ch last (build { env with writable := true } data)) a) :=
    outside_set last [] ch a _ (fun c hc => by rw [hn] at hc; cases hc)
      (fun _ => ⟨fun q hq => absurd List.nil_prefix hq, fun h => absurd rfl h⟩)
  obtain ⟨-, p4⟩ := p3 ⟨_, rfl⟩
  have p5 := p4 hout
  have hlook : lookup (dumpAt { env with writable := true } data g d true (ks ++ [last]) root).2 (ks ++ [last]) = some (build { env with writable := true } data) := by
    rw [lookup_append ks [last] _ _ p2, lookup_single, PyDict.get?_set_self]
  have hto : dumpTo env fs path data (some key) f g d true =
      (.ok (), fs.put path (dumpAt { env with writable := true } data g d true (ks ++ [last]) root).2) := by
    unfold dumpTo
    rw [withFile_ac env fs path f hf root hfs]
    simp only [hks, p1]
  refine ⟨_, _, load (build { env with writable := true } data), hto, ?_, ?_, FS.put_at _ _ _, ?_, fun q hq => FS.put_ne _ _ _ _ hq⟩
  · rw [loadFrom_eq env _ path _ (FS.put_at _ _ _)]
    simp only [hks, hlook]
  · intro p
    exact load_build_at { env with writable := true } p data (by exact hg)
  · rw [hks]; exact p5

/-- C18: without a key, or with the key '/' (no component), the root group is used. -/
theorem C18_root (env : Env DT E) (fs : FS DT E) (path : Str) (data : Val DT E) (key : Str) (hkey : pathOf key = []) (f g d : String) (c : Bool) :
    dumpTo env fs path data (some key) f g d c = withFile env fs path f (fun env root => dump env d data root) ∧
    dumpTo env fs path data none f g d c = withFile env fs path f (fun env root => dump env d data root) ∧
    loadFrom env fs path (some key) = loadFrom env fs path none := by
  refine ⟨?_, rfl, ?_⟩
  · unfold dumpTo; simp only [hkey, dumpAt]
  · unfold loadFrom; simp only [hkey, lookup]

/-- C18: dumping a mapping at the root of a file that has none of its names (a new file, for instance), then loading: every
item comes back under its name, and everything else in the file is as before. -/
theorem C18_root_round_trip (env : Env DT E) (fs : FS DT E) (path : Str) (ch : List (Str × Node DT E)) (a : List (Str × Dset DT E))
    (hfs : fs path = some (.hdf (.grp ch a)) ∨ (fs path = none ∧ ch = [] ∧ a = [])) (kvs : List (KeyObj × Val DT E))
    (hg : GoodItems (Storable env) kvs) (hd : ∀ k ∈ names kvs, k ∉ PyDict.keys ch) (f g d : String) (hf : f = "ac" ∨ f = "ca") (hdf : flagOk d = true) (c : Bool) :
    ∃ fs' root', dumpTo env fs path (.map kvs) none f g d c = (.ok (), fs') ∧ fs' path = some (.hdf root') ∧
      (∀ k v, (KeyObj.str k, v) ∈ kvs → ∃ L, loadFrom env fs' path (some k) = (.ok L, fs') ∧ Loaded env v L) ∧
      (∀ k q, k ∉ names kvs → lookup root' (k :: q) = lookup (.grp ch a) (k :: q)) ∧ root'.attrs = a ∧
      (fs path = none → ∃ L, loadFrom env fs' path none = (.ok L, fs') ∧ Loaded env (.map kvs) L) ∧
      (∀ q, q ≠ path → fs' q = fs q) := by
  have hfs' : fs path = some (.hdf (.grp ch a)) ∨ (fs path = none ∧ Node.grp ch a = .grp [] []) := by
    rcases hfs with h | ⟨h, rfl, rfl⟩
    · exact Or.inl h
    · exact Or.inr ⟨h, rfl⟩
  have hdump : dump { env with writable := true } d (.map kvs) (.grp ch a) = (.ok (), .grp (ch ++ buildItems { env with writable := true } kvs) a) := by
    rw [dump, scanItems_good (fun l hl => storable_leafOk hl) kvs hg, if_pos rfl]
    exact dumpItems_build { env with writable := true } rfl d hdf kvs (by exact hg) ch a hd
  have hto : dumpTo env fs path (.map kvs) none f g d c = (.ok (), fs.put path (.grp (ch ++ buildItems { env with writable := true } kvs) a)) := by
    unfold dumpTo
    rw [withFile_ac env fs path f hf _ hfs']
    simp only [hdump]
  have hget : ∀ k v, (KeyObj.str k, v) ∈ kvs → PyDict.get? (ch ++ buildItems { env with writable := true } kvs) k = some (build { env with writable := true } v) := by
    intro k v hm
    have hkn : k ∈ names kvs := (mem_names kvs k).mpr ⟨v, hm⟩
    rw [PyDict.get?_append, (PyDict.get?_eq_none_iff ch k).mpr (hd k hkn), Option.none_or]
    have hwf : PyDict.WF (buildItems { env with writable := true } kvs) := by
      unfold PyDict.WF; rw [keys_buildItems]; exact names_nodup kvs hg
    refine PyDict.get?_of_mem _ hwf _ _ ?_
    clear hdump hto hd hkn hwf hg
    induction kvs with
    | nil => simp at hm
    | cons p rest ih =>
        obtain ⟨ko, w⟩ := p
        rcases List.mem_cons.mp hm with he | hm'
        · obtain ⟨rfl, rfl⟩ := Prod.mk.inj he
          simp [buildItems]
        · cases ko with
          | other => simpa [buildItems] using ih hm'
          | str s => simp only [buildItems, List.mem_cons]; exact Or.inr (ih hm')
  refine ⟨_, _, hto, FS.put_at _ _ _, ?_, ?_, rfl, ?_, fun q hq => FS.put_ne _ _ _ _ hq⟩
  · intro k v hm
    have hk : IsName k := by
      have : ∀ kvs : List (KeyObj × Val DT E), GoodItems (Storable env) kvs → (KeyObj.str k, v) ∈ kvs → IsName k := by
        intro kvs
        induction kvs with
        | nil => intro _ h; simp at h
        | cons p rest ih =>
            intro hg hm
            obtain ⟨ko, w⟩ := p
            cases ko with
            | other => simp [GoodItems] at hg
            | str s =>
                simp only [GoodItems] at hg
                rcases List.mem_cons.mp hm with he | hm
                · have h1 := (Prod.mk.inj he).1
                  cases h1; exact hg.1
                · exact ih hg.2.2.2 hm
      exact this kvs hg hm
    refine ⟨load (build { env with writable := true } v), ?_, fun p => ?_⟩
    · rw [loadFrom_eq env _ path _ (FS.put_at _ _ _)]
      simp only [pathOf_name hk, lookup_single, hget k v hm]
    · exact load_build_at { env with writable := true } p v (goodItems_find kvs hg _ hm)
  · intro k q hk
    simp only [lookup, PyDict.get?_append]
    have : PyDict.get? (buildItems { env with writable := true } kvs) k = none := by
      rw [PyDict.get?_eq_none_iff, keys_buildItems]; exact hk
    rw [this]
    cases PyDict.get? ch k <;> rfl
  · intro hnone
    rcases hfs with h | ⟨-, rfl, rfl⟩
    · rw [h] at hnone; cases hnone
    · refine ⟨_, loadFrom_eq env _ path _ (FS.put_at _ _ _) none, fun p => ?_⟩
      have := load_build_at { env with writable := true } p (.map kvs) (by rw [Good]; exact hg)
      rw [build] at this
      exact this

/-- C18: with `create_parent=False` and a missing parent (no dataset in the way), KeyError, and the file system is unchanged;
with a dataset in the way, ValueError (also with `create_parent=True`), and the file system is unchanged; if all the parents
exist, `create_parent` makes no difference. -/
theorem C18_parents (env : Env DT E) (fs : FS DT E) (path : Str) (ch : List (Str × Node DT E)) (a : List (Str × Dset DT E))
    (hfs : fs path = some (.hdf (.grp ch a))) (data : Val DT E) (key : Str)
    (ks : List Str) (last : Str) (hks : pathOf key = ks ++ [last]) (f g d : String) (hf : f = "ac" ∨ f = "ca") :
    (lookup (.grp ch a) ks = none → NoDset ks (.grp ch a) → dumpTo env fs path data (some key) f g d false = (.error .keyError, fs)) ∧
    (¬ NoDset ks (.grp ch a) → ∀ c, dumpTo env fs path data (some key) f g d c = (.error .valueError, fs)) ∧
    ((∃ c b, lookup (.grp ch a) ks = some (.grp c b)) →
      dumpTo env fs path data (some key) f g d false = dumpTo env fs path data (some key) f g d true) := by
  have hnames := pathOf_names key
  rw [hks] at hnames
  have hto : ∀ c, dumpTo env fs path data (some key) f g d c =
      ((dumpAt { env with writable := true } data g d c (ks ++ [last]) (.grp ch a)).1,
        fs.put path (dumpAt { env with writable := true } data g d c (ks ++ [last]) (.grp ch a)).2) := by
    intro c
    unfold dumpTo
    rw [withFile_ac env fs path f hf _ (Or.inl hfs)]
    simp only [hks]
  have hw : ({ env with writable := true } : Env DT E).writable = true := rfl
  generalize hE : ({ env with writable := true } : Env DT E) = env' at hto hw
  have hcons : ∀ (k : Str) (ks : List Str), ∃ k' ks', ks ++ [last] = k' :: ks' := by
    intro k ks
    cases ks with
    | nil => exact ⟨_, _, rfl⟩
    | cons x xs => exact ⟨_, _, rfl⟩
  have h1 : ∀ (ks : List Str), (∀ k ∈ ks, IsName k) → ∀ n : Node DT E, lookup n ks = none → NoDset ks n →
      dumpAt env' data g d false (ks ++ [last]) n = (.error .keyError, n) := by
    intro ks
    induction ks with
    | nil => intro _ n h; simp [lookup] at h
    | cons k ks ih =>
        intro hn n hl hd
        obtain ⟨ch, a, rfl⟩ := noDset_grp hd
        have hk := hn k (by simp)
        obtain ⟨k', ks', e⟩ := hcons k ks
        rw [List.cons_append, e]
        simp only [dumpAt, Bool.false_eq_true, if_false, pathOf_name hk, lookup_single]
        simp only [lookup] at hl
        cases hg : PyDict.get? ch k with
        | none => rfl
        | some c =>
            rw [hg] at hl
            have hdc := noDset_child hd c hg
            have := ih (fun x hx => hn x (by simp [hx])) c hl hdc
            obtain ⟨c1, c2, rfl⟩ := noDset_grp hdc
            simp only
            rw [modifyAt_eq _ k _ a _ hg, ← e, this, PyDict.set_get?_self _ _ _ hg]
  have h2 : ∀ (ks : List Str), (∀ k ∈ ks, IsName k) → ∀ (ch : List (Str × Node DT E)) (a : List (Str × Dset DT E)), ¬ NoDset ks (.grp ch a) → ∀ c,
      dumpAt env' data g d c (ks ++ [last]) (.grp ch a) = (.error .valueError, .grp ch a) := by
    intro ks
    induction ks with
    | nil =>
        intro _ ch a h c
        refine absurd ?_ h
        intro q hq x y
        rw [List.prefix_nil.mp hq]; simp [lookup]
    | cons k ks ih =>
        intro hn ch a hd c
        have hk := hn k (by simp)
        obtain ⟨k', ks', e⟩ := hcons k ks
        have hex : ∃ c0, PyDict.get? ch k = some c0 ∧ ¬ NoDset ks c0 := by
          by_contra hno
          refine hd (fun q hq x y hl => hno ?_)
          cases q with
          | nil => simp [lookup] at hl
          | cons k0 q =>
              rw [List.cons_prefix_cons] at hq
              obtain ⟨rfl, hq⟩ := hq
              simp only [lookup] at hl
              cases hg : PyDict.get? ch k0 with
              | none => rw [hg] at hl; cases hl
              | some c0 => rw [hg] at hl; exact ⟨c0, rfl, fun hh => hh q hq x y hl⟩
        obtain ⟨c0, hg, hnd⟩ := hex
        rw [List.cons_append, e]
        have hl1 : lookup (.grp ch a : Node DT E) (pathOf k) = some c0 := by rw [pathOf_name hk, lookup_single, hg]
        cases c0 with
        | dset x y =>
            have hcg := ((C16_create_group_existing env' (.grp ch a) _ k hl1).2 "ac" (Or.inl rfl)).2 x y rfl
            cases c <;> simp [dumpAt, hcg, hl1]
        | grp c1 c2 =>
            have hcg := ((C16_create_group_existing env' (.grp ch a) _ k hl1).2 "ac" (Or.inl rfl)).1 c1 c2 rfl
            have hih := ih (fun x hx => hn x (by simp [hx])) c1 c2 hnd c
            rw [e] at hih
            have hmod : modifyAt (dumpAt env' data g d c (k' :: ks')) (.grp ch a) (pathOf k) = (.error .valueError, .grp ch a) := by
              rw [pathOf_name hk, modifyAt_eq _ k _ a _ hg, hih, PyDict.set_get?_self _ _ _ hg]
            cases c
            · simp only [dumpAt, Bool.false_eq_true, if_false, hl1]; exact hmod
            · simp only [dumpAt, if_true, hcg]; exact hmod
  have h3 : ∀ (ks : List Str), (∀ k ∈ ks, IsName k) → ∀ n : Node DT E, (∃ ch a, lookup n ks = some (.grp ch a)) →
      dumpAt env' data g d false (ks ++ [last]) n = dumpAt env' data g d true (ks ++ [last]) n := by
    intro ks
    induction ks with
    | nil => intro _ n _; rfl
    | cons k ks ih =>
        rintro hn n ⟨ch0, a0, hl⟩
        have hk := hn k (by simp)
        cases n with
        | dset x y => simp [lookup] at hl
        | grp ch a =>
            obtain ⟨k', ks', e⟩ := hcons k ks
            simp only [lookup] at hl
            cases hg : PyDict.get? ch k with
            | none => rw [hg] at hl; cases hl
            | some c0 =>
                rw [hg] at hl
                have hih := ih (fun x hx => hn x (by simp [hx])) c0 ⟨ch0, a0, hl⟩
                have hl1 : lookup (.grp ch a : Node DT E) (pathOf k) = some c0 := by rw [pathOf_name hk, lookup_single, hg]
                have hc0 : ∃ c1 c2, c0 = .grp c1 c2 := by
                  cases c0 with
                  | grp c1 c2 => exact ⟨c1, c2, rfl⟩
                  | dset x y => cases ks <;> simp [lookup] at hl
                obtain ⟨c1, c2, rfl⟩ := hc0
                have hcg := ((C16_create_group_existing env' (.grp ch a) _ k hl1).2 "ac" (Or.inl rfl)).1 c1 c2 rfl
                rw [List.cons_append, e]
                rw [e] at hih
                simp only [dumpAt, Bool.false_eq_true, if_false, if_true, hl1, hcg]
                rw [pathOf_name hk, modifyAt_eq _ k _ a _ hg, modifyAt_eq _ k _ a _ hg, hih]
  refine ⟨?_, ?_, ?_⟩
  · intro hl hd
    rw [hto, h1 ks (fun k hk => hnames k (by simp [hk])) (.grp ch a) hl hd]
    simp only [FS.put_self fs path _ hfs]
  · intro hd c
    rw [hto, h2 ks (fun k hk => hnames k (by simp [hk])) ch a hd c]
    simp only [FS.put_self fs path _ hfs]
  · intro h
    rw [hto, hto, h3 ks (fun k hk => hnames k (by simp [hk])) (.grp ch a) h]

/-- The hypotheses of C18 are met: dumping under "a/b" into a file that has "a" with a dataset; the result. -/
example :
    let root : Node Nat Nat := .grp [("a".toList, .grp [("x".toList, .dset ⟨1, [], [3]⟩ [])] [])] []
    let fs : FS Nat Nat := FS.put (fun _ => none) "p".toList root
    let data : Val Nat Nat := .map [(.str "y".toList, .leaf (.str "uvw".toList))]
    lookup root (pathOf "a/b".toList) = none ∧ Good (Storable exEnv) data ∧
    (dumpTo exEnv fs "p".toList data (some "a/b".toList) "ac" "x" "x" true).2 "p".toList =
      some (.hdf (.grp [("a".toList, .grp [("x".toList, .dset ⟨1, [], [3]⟩ []), ("b".toList, .grp [("y".toList, .dset ⟨7, [], [3]⟩ [])] [])] [])] [])) ∧
    (loadFrom exEnv (dumpTo exEnv fs "p".toList data (some "a/b".toList) "ac" "x" "x" true).2 "p".toList (some "a/b".toList)).1 =
      .ok (.map [("y".toList, .dat ⟨7, [], [3]⟩)]) ∧
    (dumpTo exEnv fs "p".toList data (some "c/b".toList) "ac" "x" "x" false).1 = .error .keyError ∧
    (dumpTo exEnv fs "p".toList data (some "a/x/b".toList) "ac" "x" "x" true).1 = .error .valueError := by
  refine ⟨rfl, ?_, rfl, rfl, rfl, rfl⟩
  simp only [Good, GoodItems, names, Storable, IsName]
  exact ⟨by decide, by decide, ⟨_, rfl⟩, trivial⟩

end Pyhipp.H5
