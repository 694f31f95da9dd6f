import Verif.Model.H5Txt
import Verif.Props.H5Objs
import Verif.Props.H5File
/-
C107: `txt_to_h5`.
-/
namespace Pyhipp.H5
open Pyhipp

variable {DT E : Type}

/-- Specification: `d` is column number `i` of the table, with the dtype of the field: one element per record, in the order of
the records; an array of shape (n,), or a scalar if there is exactly one record. -/
def IsColumn (rows : List (List E)) (i : Nat) (dt : DT) (d : Dset DT E) : Prop :=
  d.dt = dt ∧ d.elems.length = rows.length ∧ (∀ (j : Nat) (r : List E), rows[j]? = some r → d.elems[j]? = r[i]?) ∧
  (rows.length = 1 → d.shape = []) ∧ (rows.length ≠ 1 → d.shape = [rows.length])

/-- Specification: every record has a value for every field (`np.loadtxt` raises otherwise). -/
def Rect (fs : List (Str × DT)) (rows : List (List E)) : Prop := ∀ r ∈ rows, r.length = fs.length

theorem column_isColumn (env : Env DT E) (t : Table DT E) (fs : List (Str × DT)) (hr : Rect fs t.rows) (i : Nat) (hi : i < fs.length) (dt : DT) :
    IsColumn t.rows i dt (t.column env i dt) := by
  refine ⟨rfl, by simp [Table.column], ?_, ?_, ?_⟩
  · intro j r hj
    have hl := hr r (List.mem_of_getElem? hj)
    simp only [Table.column, List.getElem?_map, hj, Option.map_some]
    rw [List.getElem?_eq_getElem (by omega)]
    rfl
  · intro h; simp [Table.column, h]
  · intro h; simp [Table.column, h]

theorem columns_getElem? (env : Env DT E) (t : Table DT E) (fs : List (Str × DT)) : ∀ (s i : Nat),
    (t.columns env fs s)[i]? = (fs[i]?).map (fun p => (p.1, Leaf.dat (t.column env (s + i) p.2))) := by
  induction fs with
  | nil => intro s i; simp [Table.columns]
  | cons p rest ih =>
      intro s i
      obtain ⟨k, dt⟩ := p
      cases i with
      | zero => simp [Table.columns]
      | succ i => simp only [Table.columns, List.getElem?_cons_succ, ih]; rw [show s + 1 + i = s + (i + 1) by omega]

theorem columns_keys (env : Env DT E) (t : Table DT E) (fs : List (Str × DT)) : ∀ s, (t.columns env fs s).map (·.1) = fs.map (·.1) := by
  induction fs with
  | nil => intro s; rfl
  | cons p rest ih => intro s; obtain ⟨k, dt⟩ := p; simp [Table.columns, ih]

theorem columns_take (env : Env DT E) (t : Table DT E) (fs : List (Str × DT)) (m : Nat) : ∀ s, (t.columns env fs s).take m = t.columns env (fs.take m) s := by
  induction fs generalizing m with
  | nil => intro s; simp [Table.columns]
  | cons p rest ih =>
      intro s
      obtain ⟨k, dt⟩ := p
      cases m with
      | zero => simp [Table.columns]
      | succ m => simp [Table.columns, ih]

theorem columns_rows (env : Env DT E) (t t' : Table DT E) (h : t.rows = t'.rows) (fs : List (Str × DT)) : ∀ s, t.columns env fs s = t'.columns env fs s := by
  induction fs with
  | nil => intro s; rfl
  | cons p rest ih => intro s; obtain ⟨k, dt⟩ := p; simp only [Table.columns, ih, Table.column, h]

/-- Creating datasets under new names appends them in order. -/
theorem dsDump_new (env : Env DT E) (hw : env.writable = true) (flag : String) (hf : flagOk flag = true) (kls : List (Str × Leaf DT E)) :
    ∀ (ds : List (Str × Node DT E)) (_ : List.Forall₂ (fun (p : Str × Leaf DT E) (q : Str × Node DT E) => p.1 = q.1 ∧ ∃ d, newDset env p.2 = .ok d ∧ q.2 = .dset d []) kls ds)
      (ch : List (Str × Node DT E)) (a : List (Str × Dset DT E)) (_ : ∀ p ∈ kls, IsName p.1) (_ : (kls.map (·.1)).Nodup) (_ : ∀ p ∈ kls, p.1 ∉ PyDict.keys ch),
    dsDump env flag kls (.grp ch a) = (.ok (), .grp (ch ++ ds) a) := by
  induction kls with
  | nil => intro ds h ch a _ _ _; cases h; simp [dsDump]
  | cons p rest ih =>
      intro ds h ch a hk hn hc
      cases h with
      | @cons _ q _ qs hpq hrest =>
          obtain ⟨k, l⟩ := p
          obtain ⟨k', c⟩ := q
          obtain ⟨hkk, d, hd, hcd⟩ := hpq
          simp only at hkk hd hcd
          subst hkk; subst hcd
          have hkc : k ∉ PyDict.keys ch := hc (k, l) (by simp)
          have hhas : PyDict.has ch k = false := by
            cases hh : PyDict.has ch k with
            | false => rfl
            | true => exact absurd ((PyDict.has_iff ch k).mp hh) hkc
          have h1 : dsCreate env (.grp ch a) k l flag = (.ok (), .grp (ch ++ [(k, .dset d [])]) a) := by
            unfold dsCreate
            rw [hf, pathOf_name (hk (k, l) (by simp)), contains_single, hhas]
            simp only [Bool.not_true, Bool.false_eq_true, if_false, rawCreateDataset, hw, if_true, hd, hhas]
            rw [PyDict.set_of_not_mem ch k _ hkc]
          have h2 := ih qs hrest (ch ++ [(k, .dset d [])]) a (fun q hq => hk q (by simp [hq])) (List.nodup_cons.mp hn).2 (by
            intro q hq
            have hne : q.1 ≠ k := fun e => (List.nodup_cons.mp hn).1 (List.mem_map.mpr ⟨q, hq, e⟩)
            have := hc q (by simp [hq])
            simp only [PyDict.keys, List.map_append, List.map_cons, List.map_nil, List.mem_append, List.mem_singleton, not_or]
            exact ⟨this, hne⟩)
          simp only [dsDump, h1, h2, List.append_assoc, List.singleton_append]

/-- The datasets made of the columns. -/
def colNodes (env : Env DT E) (t : Table DT E) : List (Str × DT) → Nat → List (Str × Node DT E)
  | [], _ => []
  | (k, dt) :: rest, i => (k, .dset (t.column env i dt) []) :: colNodes env t rest (i + 1)

theorem colNodes_keys (env : Env DT E) (t : Table DT E) (fs : List (Str × DT)) : ∀ s, PyDict.keys (colNodes env t fs s) = fs.map (·.1) := by
  induction fs with
  | nil => intro s; rfl
  | cons p rest ih => intro s; obtain ⟨k, dt⟩ := p; simp only [colNodes, PyDict.keys_cons, ih, List.map_cons]

theorem colNodes_mem (env : Env DT E) (t : Table DT E) (fs : List (Str × DT)) : ∀ (s i : Nat) (k : Str) (dt : DT), fs[i]? = some (k, dt) →
    (k, Node.dset (t.column env (s + i) dt) []) ∈ colNodes env t fs s := by
  induction fs with
  | nil => intro s i k dt h; simp at h
  | cons p rest ih =>
      intro s i k dt h
      obtain ⟨k', dt'⟩ := p
      cases i with
      | zero =>
          simp only [List.getElem?_cons_zero, Option.some.injEq, Prod.mk.injEq] at h
          obtain ⟨rfl, rfl⟩ := h
          simp [colNodes]
      | succ i =>
          have := ih (s + 1) i k dt (by simpa using h)
          rw [show s + 1 + i = s + (i + 1) by omega] at this
          simp only [colNodes, List.mem_cons]
          exact Or.inr this

theorem colNodes_forall (env : Env DT E) (t : Table DT E) (fs : List (Str × DT)) : ∀ s,
    (∀ (i : Nat) (k : Str) (dt : DT), fs[i]? = some (k, dt) → env.storeErr (t.column env (s + i) dt) = none) →
    List.Forall₂ (fun (p : Str × Leaf DT E) (q : Str × Node DT E) => p.1 = q.1 ∧ ∃ d, newDset env p.2 = .ok d ∧ q.2 = .dset d [])
      (t.columns env fs s) (colNodes env t fs s) := by
  induction fs with
  | nil => intro s _; exact .nil
  | cons p rest ih =>
      intro s h
      obtain ⟨k, dt⟩ := p
      refine .cons ⟨rfl, t.column env s dt, ?_, rfl⟩ (ih (s + 1) fun i k' dt' hi => ?_)
      · have := h 0 k dt rfl
        simp only [Nat.add_zero] at this
        simp [newDset, leafDset, this, bind, Except.bind, pure, Except.pure]
      · have := h (i + 1) k' dt' (by simpa using hi)
        rwa [show s + (i + 1) = s + 1 + i by omega] at this

theorem txtToGroup_new (env : Env DT E) (hw : env.writable = true) (flag : String) (hf : flagOk flag = true) (fs : List (Str × DT)) (rows : List (List E))
    (hname : ∀ p ∈ fs, IsName p.1) (hn : (fs.map (·.1)).Nodup) (hs : ∀ (i : Nat) (k : Str) (dt : DT), fs[i]? = some (k, dt) → env.storeErr (Table.column env ⟨some fs, rows⟩ i dt) = none)
    (ch : List (Str × Node DT E)) (a : List (Str × Dset DT E)) (hnew : ∀ p ∈ fs, p.1 ∉ PyDict.keys ch) :
    txtToGroup env (.ok ⟨some fs, rows⟩) flag (.grp ch a) = (.ok (), .grp (ch ++ colNodes env ⟨some fs, rows⟩ fs 0) a) := by
  have hkeys := columns_keys env ⟨some fs, rows⟩ fs 0
  have hmem : ∀ p ∈ Table.columns env ⟨some fs, rows⟩ fs 0, ∃ q ∈ fs, q.1 = p.1 := by
    intro p hp
    have : p.1 ∈ fs.map (·.1) := by rw [← hkeys]; exact List.mem_map_of_mem hp
    exact List.mem_map.mp this
  exact dsDump_new env hw flag hf _ _ (colNodes_forall env ⟨some fs, rows⟩ fs 0 fun i k dt hi => by rw [Nat.zero_add]; exact hs i k dt hi) ch a
    (fun p hp => by obtain ⟨q, hq, e⟩ := hmem p hp; rw [← e]; exact hname q hq)
    (by rw [hkeys]; exact hn)
    (fun p hp => by obtain ⟨q, hq, e⟩ := hmem p hp; rw [← e]; exact hnew q hq)

/-- What a group holds after the columns are appended. -/
theorem holds_columns (env : Env DT E) (fs : List (Str × DT)) (rows : List (List E)) (hn : (fs.map (·.1)).Nodup) (hr : Rect fs rows)
    (ch : List (Str × Node DT E)) (hnew : ∀ p ∈ fs, p.1 ∉ PyDict.keys ch) :
    (∀ (i : Nat) (k : Str) (dt : DT), fs[i]? = some (k, dt) → ∃ d, PyDict.get? (ch ++ colNodes env ⟨some fs, rows⟩ fs 0) k = some (.dset d []) ∧ IsColumn rows i dt d) ∧
    ∀ k, k ∉ fs.map (·.1) → PyDict.get? (ch ++ colNodes env ⟨some fs, rows⟩ fs 0) k = PyDict.get? ch k := by
  have hk := colNodes_keys env ⟨some fs, rows⟩ fs 0
  constructor
  · intro i k dt hi
    have hm := colNodes_mem env ⟨some fs, rows⟩ fs 0 i k dt hi
    have hwf : PyDict.WF (colNodes env ⟨some fs, rows⟩ fs 0) := by unfold PyDict.WF; rw [hk]; exact hn
    have hg := PyDict.get?_of_mem _ hwf _ _ hm
    have hnone := (PyDict.get?_eq_none_iff ch k).mpr (hnew (k, dt) (List.mem_of_getElem? hi))
    refine ⟨_, by rw [PyDict.get?_append, hnone]; exact hg, ?_⟩
    rw [Nat.zero_add]
    exact column_isColumn env ⟨some fs, rows⟩ fs hr i (List.getElem?_eq_some_iff.mp hi).1 dt
  · intro k hkn
    rw [PyDict.get?_append, (PyDict.get?_eq_none_iff (colNodes env ⟨some fs, rows⟩ fs 0) k).mpr (by rw [hk]; exact hkn)]
    cases PyDict.get? ch k <;> rfl

/-- C107: `txt_to_h5(f_in, group, dtype, d_flag)` into names that do not exist: one dataset per field, named after it, holding
that column of the table; whatever else is in the group stays as it was, and no file is touched. -/
theorem C107_group (env : Env DT E) (hw : env.writable = true) (sys : FS DT E) (dFlag fFlag : String) (hf : dFlag = "x" ∨ dFlag = "ac" ∨ dFlag = "ca")
    (fs : List (Str × DT)) (rows : List (List E)) (hname : ∀ p ∈ fs, IsName p.1) (hn : (fs.map (·.1)).Nodup) (hr : Rect fs rows)
    (hs : ∀ (i : Nat) (k : Str) (dt : DT) (d : Dset DT E), fs[i]? = some (k, dt) → IsColumn rows i dt d → env.storeErr d = none) (ch : List (Str × Node DT E)) (a : List (Str × Dset DT E)) (hnew : ∀ p ∈ fs, p.1 ∉ PyDict.keys ch) :
    ∃ ch', txtToH5 env sys (.ok ⟨some fs, rows⟩) dFlag fFlag (.group (.grp ch a)) = (.ok (), sys, .group (.grp ch' a)) ∧
      (∀ (i : Nat) (k : Str) (dt : DT), fs[i]? = some (k, dt) → ∃ d, PyDict.get? ch' k = some (.dset d []) ∧ IsColumn rows i dt d) ∧
      ∀ k, k ∉ fs.map (·.1) → PyDict.get? ch' k = PyDict.get? ch k := by
  have hok : flagOk dFlag = true := by rcases hf with rfl | rfl | rfl <;> decide
  refine ⟨_, ?_, holds_columns env fs rows hn hr ch hnew⟩
  rw [txtToH5, txtToGroup_new env hw dFlag hok fs rows hname hn
    (fun i k dt hi => hs i k dt _ hi (column_isColumn env ⟨some fs, rows⟩ fs hr i (List.getElem?_eq_some_iff.mp hi).1 dt)) ch a hnew]

theorem withFile_w {α : Type} (env : Env DT E) (fs : FS DT E) (path : Str) (body : Env DT E → Node DT E → PyM α × Node DT E) :
    withFile env fs path "w" body = ((body { env with writable := true } (.grp [] [])).1, fs.put path (body { env with writable := true } (.grp [] [])).2) := by
  have hop : openFile fs path "w" = (.ok (.grp [] [], true), fs.put path (.grp [] [])) := by
    have hx : rawMode "w" = some .w := rfl
    unfold openFile
    rw [hx]
    unfold h5pyOpen
    rfl
  unfold withFile
  rw [hop]
  simp only [FS.put_put]

/-- C107: `txt_to_h5(f_in, path, dtype)` (f_flag 'w'), whatever was at the path: the file holds exactly one dataset per field,
in the order of the fields, each that column of the table; other files stay as they were. -/
theorem C107_file (env : Env DT E) (sys : FS DT E) (path : Str) (dFlag : String)
    (fs : List (Str × DT)) (rows : List (List E)) (hname : ∀ p ∈ fs, IsName p.1) (hn : (fs.map (·.1)).Nodup) (hr : Rect fs rows)
    (hs : ∀ (i : Nat) (k : Str) (dt : DT) (d : Dset DT E), fs[i]? = some (k, dt) → IsColumn rows i dt d → env.storeErr d = none) :
    ∃ sys' ch', txtToH5 env sys (.ok ⟨some fs, rows⟩) dFlag "w" (.path path) = (.ok (), sys', .path path) ∧
      sys' path = some (.hdf (.grp ch' [])) ∧ (∀ q, q ≠ path → sys' q = sys q) ∧ PyDict.keys ch' = fs.map (·.1) ∧
      ∀ (i : Nat) (k : Str) (dt : DT), fs[i]? = some (k, dt) → ∃ d, PyDict.get? ch' k = some (.dset d []) ∧ IsColumn rows i dt d := by
  have hb := txtToGroup_new { env with writable := true } rfl "ac" (by decide) fs rows hname hn
    (fun i k dt hi => hs i k dt _ hi (column_isColumn { env with writable := true } ⟨some fs, rows⟩ fs hr i (List.getElem?_eq_some_iff.mp hi).1 dt)) [] [] (by intro p _; simp [PyDict.keys])
  refine ⟨sys.put path (.grp ([] ++ colNodes { env with writable := true } ⟨some fs, rows⟩ fs 0) []), _, ?_, FS.put_at _ _ _,
    fun q hq => FS.put_ne _ _ _ _ hq, ?_, (holds_columns _ fs rows hn hr [] (by intro p _; simp [PyDict.keys])).1⟩
  · simp only [txtToH5, txtToFile, withFile_w, hb]
  · simpa using colNodes_keys { env with writable := true } ⟨some fs, rows⟩ fs 0

/-- C107: if the table cannot be read, or its dtype has no fields (TypeError), a group is left unchanged; a file given by name
has been opened before: with f_flag 'w' its old contents are gone and it is left empty, with 'a', 'ac' and 'ca' it is unchanged. -/
theorem C107_unreadable (env : Env DT E) (sys : FS DT E) (table : PyM (Table DT E)) (e : PyErr)
    (h : table = .error e ∨ (e = .typeError ∧ ∃ rows, table = .ok ⟨none, rows⟩)) (dFlag fFlag : String) :
    (∀ n, txtToH5 env sys table dFlag fFlag (.group n) = (.error e, sys, .group n)) ∧
    (∀ path, ∃ sys', txtToH5 env sys table dFlag "w" (.path path) = (.error e, sys', .path path) ∧
      sys' path = some (.hdf (.grp [] [])) ∧ ∀ q, q ≠ path → sys' q = sys q) ∧
    ∀ path n, sys path = some (.hdf n) → (fFlag = "a" ∨ fFlag = "ac" ∨ fFlag = "ca") →
      txtToH5 env sys table dFlag fFlag (.path path) = (.error e, sys, .path path) := by
  have hb : ∀ (env : Env DT E) (n : Node DT E) (fl : String), txtToGroup env table fl n = (.error e, n) := by
    intro env n fl
    rcases h with rfl | ⟨rfl, rows, rfl⟩ <;> rfl
  refine ⟨fun n => by simp only [txtToH5, hb], fun path => ⟨sys.put path (.grp [] []), ?_, FS.put_at _ _ _, fun q hq => FS.put_ne _ _ _ _ hq⟩, ?_⟩
  · simp only [txtToH5, txtToFile, withFile_w, hb]
  · intro path n hn hf
    rcases hf with rfl | hf
    · have ho := C17_open_existing sys path
      have hop : openFile sys path "a" = (.ok (n, true), sys) := Prod.ext (ho.2.2.2 n hn).2 ho.2.1
      simp only [txtToH5, txtToFile, withFile, hop, hb, FS.put_self sys path n hn]
    · simp only [txtToH5, txtToFile, withFile_ac env sys path fFlag hf n (Or.inl hn), hb, FS.put_self sys path n hn]

/-- C107: if a column cannot be written, the columns before it have been: the group is as a call with only these fields would
have left it. -/
theorem C107_prefix (env : Env DT E) (dFlag : String) (fs : List (Str × DT)) (rows : List (List E)) (hname : ∀ p ∈ fs, IsName p.1)
    (n n' : Node DT E) (e : PyErr) (h : txtToGroup env (.ok ⟨some fs, rows⟩) dFlag n = (.error e, n')) :
    ∃ m, m < fs.length ∧ txtToGroup env (.ok ⟨some (fs.take m), rows⟩) dFlag n = (.ok (), n') := by
  have key : ∀ (kls : List (Str × Leaf DT E)) (n n' : Node DT E), (∀ p ∈ kls, IsName p.1) → dsDump env dFlag kls n = (.error e, n') →
      ∃ m, m < kls.length ∧ dsDump env dFlag (kls.take m) n = (.ok (), n') := by
    intro kls
    induction kls with
    | nil => intro n n' _ h; simp [dsDump] at h
    | cons p rest ih =>
        intro n n' hk h
        obtain ⟨k, l⟩ := p
        rw [dsDump] at h
        cases hc : dsCreate env n k l dFlag with
        | mk r n1 =>
            rw [hc] at h
            cases r with
            | error e' =>
                simp only [Prod.mk.injEq, Except.error.injEq] at h
                obtain ⟨rfl, rfl⟩ := h
                have := dsCreate_error env n n1 k (hk (k, l) (by simp)) l dFlag e' hc
                exact ⟨0, by simp, by simp [dsDump, this]⟩
            | ok u =>
                obtain ⟨m, hm, h2⟩ := ih n1 n' (fun q hq => hk q (by simp [hq])) h
                exact ⟨m + 1, by simpa using hm, by simp only [List.take_succ_cons, dsDump, hc, h2]⟩
  have hkeys := columns_keys env ⟨some fs, rows⟩ fs 0
  obtain ⟨m, hm, h2⟩ := key (Table.columns env ⟨some fs, rows⟩ fs 0) n n' (by
    intro p hp
    have : p.1 ∈ fs.map (·.1) := by rw [← hkeys]; exact List.mem_map_of_mem hp
    obtain ⟨q, hq, e⟩ := List.mem_map.mp this
    rw [← e]; exact hname q hq) h
  have hlen : (Table.columns env ⟨some fs, rows⟩ fs 0).length = fs.length := by simpa using congrArg List.length hkeys
  refine ⟨m, by omega, ?_⟩
  rw [columns_take, columns_rows env ⟨some fs, rows⟩ ⟨some (fs.take m), rows⟩ rfl] at h2
  exact h2

/-- C107 (defect): given a file name, `d_flag` is not used: whatever it is, known or not, the datasets are written as with 'ac'
into the opened file. -/
theorem C107_d_flag_ignored (env : Env DT E) (sys : FS DT E) (table : PyM (Table DT E)) (path : Str) (dFlag fFlag : String) :
    txtToH5 env sys table dFlag fFlag (.path path) = txtToH5 env sys table "ac" fFlag (.path path) ∧
    ∀ n, sys path = some (.hdf n) → ∃ n', (txtToH5 env sys table dFlag "a" (.path path)).2.1 path = some (.hdf n') ∧
      txtToH5 { env with writable := true } sys table "ac" "a" (.group n) = ((txtToH5 env sys table dFlag "a" (.path path)).1, sys, .group n') := by
  refine ⟨rfl, fun n hn => ?_⟩
  have ho := C17_open_existing sys path
  have hop : openFile sys path "a" = (.ok (n, true), sys) := Prod.ext (ho.2.2.2 n hn).2 ho.2.1
  refine ⟨(txtToGroup { env with writable := true } table "ac" n).2, ?_, ?_⟩
  · simp only [txtToH5, txtToFile, withFile, hop, FS.put_at]
  · simp only [txtToH5, txtToFile, withFile, hop]

/-- C107 (defect): so `d_flag='x'` does not protect an existing dataset when a file name is given: with f_flag 'a' a dataset of
the same dtype and shape as the column is silently overwritten.  The same call on the open file raises ValueError and changes
nothing. -/
theorem C107_x_overwrites (env : Env DT E) (hl : env.Lawful) (sys : FS DT E) (path : Str) (k : Str) (hk : IsName k) (dt : DT) (rows : List (List E))
    (ch : List (Str × Node DT E)) (a at' : List (Str × Dset DT E)) (old : Dset DT E) (hfile : sys path = some (.hdf (.grp ch a)))
    (hold : PyDict.get? ch k = some (.dset old at')) (hdt : old.dt = dt) (hrows : rows.length ≠ 1) (hsh : old.shape = [rows.length])
    (hr : Rect [(k, dt)] rows) :
    (∃ sys' ch' d, txtToH5 env sys (.ok ⟨some [(k, dt)], rows⟩) "x" "a" (.path path) = (.ok (), sys', .path path) ∧
      sys' path = some (.hdf (.grp ch' a)) ∧ PyDict.get? ch' k = some (.dset d at') ∧ IsColumn rows 0 dt d) ∧
    txtToH5 env sys (.ok ⟨some [(k, dt)], rows⟩) "x" "a" (.group (.grp ch a)) = (.error .valueError, sys, .group (.grp ch a)) := by
  have ho := C17_open_existing sys path
  have hop : openFile sys path "a" = (.ok (.grp ch a, true), sys) := Prod.ext (ho.2.2.2 _ hfile).2 ho.2.1
  have hhas : PyDict.has ch k = true := by simp [PyDict.has, hold]
  obtain ⟨env1, he⟩ : ∃ env1 : Env DT E, env1 = { env with writable := true } := ⟨_, rfl⟩
  obtain ⟨d, hd⟩ : ∃ d, d = Table.column env1 ⟨some [(k, dt)], rows⟩ 0 dt := ⟨_, rfl⟩
  have hcol : IsColumn rows 0 dt d := by rw [hd]; exact column_isColumn env1 ⟨some [(k, dt)], rows⟩ [(k, dt)] hr 0 (by simp) dt
  have hov : overwrite env1 old d = .ok d := by
    have hdt' : d.dt = old.dt := by rw [hdt]; exact hcol.1
    have hsh' : d.shape = old.shape := by rw [hsh]; exact hcol.2.2.2.2 hrows
    have hlen : d.elems.length = d.shape.prod := by rw [hcol.2.1, hcol.2.2.2.2 hrows]; simp
    exact (C13_overwrite env1 (by rw [he]; exact hl) old d).1 hdt' hsh' hlen
  refine ⟨⟨sys.put path (.grp (PyDict.set ch k (.dset d at')) a), _, d, ?_, FS.put_at _ _ _, PyDict.get?_set_self _ _ _, hcol⟩, ?_⟩
  · have hbody : txtToGroup env1 (.ok ⟨some [(k, dt)], rows⟩) "ac" (.grp ch a) = (.ok (), .grp (PyDict.set ch k (.dset d at')) a) := by
      have hw : env1.writable = true := by rw [he]
      have hfl : flagOk "ac" = true := by decide
      have hfx : ("ac" == "x") = false := by decide
      have hcr : dsCreate env1 (.grp ch a) k (.dat d) "ac" = (.ok (), .grp (PyDict.set ch k (.dset d at')) a) := by
        unfold dsCreate
        rw [hfl, hfx, pathOf_name hk, contains_single, hhas, lookup_single, hold]
        simp only [Bool.not_true, Bool.false_eq_true, if_false, if_true]
        rw [modifyAt_eq _ k ch a _ hold]
        simp [assign, hw, leafDset, hov, bind, Except.bind]
      simp only [txtToGroup, Table.columns, ← hd, dsDump, hcr]
    rw [he] at hbody
    simp only [txtToH5, txtToFile, withFile, hop, hbody]
  · have hfl : flagOk "x" = true := by decide
    simp [txtToH5, txtToGroup, Table.columns, dsDump, dsCreate, hfl, pathOf_name hk, contains_single, hhas]

/-- C107: anything that is neither a path nor a group is refused with AssertionError; an unknown d_flag on a group, or an unknown
f_flag, raises ValueError.  Nothing changes. -/
theorem C107_reject (env : Env DT E) (sys : FS DT E) (table : PyM (Table DT E)) (dFlag fFlag : String) :
    txtToH5 env sys table dFlag fFlag .other = (.error .assertionError, sys, .other) ∧
    (∀ path, fFlag ∉ ["r", "a", "x", "ac", "ca", "w"] → txtToH5 env sys table dFlag fFlag (.path path) = (.error .valueError, sys, .path path)) ∧
    (∀ fs rows n, table = .ok ⟨some fs, rows⟩ → fs ≠ [] → dFlag ∉ ["x", "ac", "ca"] →
      txtToH5 env sys table dFlag fFlag (.group n) = (.error .valueError, sys, .group n)) ∧
    (∀ path, fFlag = "x" → sys path ≠ none → txtToH5 env sys table dFlag fFlag (.path path) = (.error .fileExistsError, sys, .path path)) ∧
    ∀ path, fFlag = "a" → sys path = none → txtToH5 env sys table dFlag fFlag (.path path) = (.error .fileNotFoundError, sys, .path path) := by
  refine ⟨rfl, fun path h => ?_, fun fs rows n ht hne h => ?_, fun path hx h => ?_, fun path hx h => ?_⟩
  · simp only [txtToH5, txtToFile, (C17_unknown_flag env sys path fFlag _ h).2]
  · subst ht
    cases fs with
    | nil => exact absurd rfl hne
    | cons p rest =>
        have hfl : flagOk dFlag = false := by
          simp only [List.mem_cons, List.not_mem_nil, or_false, not_or] at h
          simp [flagOk, h]
        simp [txtToH5, txtToGroup, Table.columns, dsDump, dsCreate, hfl]
  · subst hx
    simp only [txtToH5, txtToFile, withFile, (C17_open_x sys path).1 h]
  · subst hx
    have ho := C17_open_existing sys path
    have hop : openFile sys path "a" = (.error .fileNotFoundError, sys) := Prod.ext (ho.2.2.1 h).2 ho.2.1
    simp only [txtToH5, txtToFile, withFile, hop]

/-- Two records with two fields, then one record: columns, and scalars. -/
example :
    let t : Table Nat Nat := ⟨some [("x".toList, 1), ("y".toList, 2)], [[10, 20], [11, 21]]⟩
    txtToGroup exEnv (.ok t) "x" (.grp [] []) =
      (.ok (), .grp [("x".toList, .dset ⟨1, [2], [10, 11]⟩ []), ("y".toList, .dset ⟨2, [2], [20, 21]⟩ [])] []) ∧
    txtToGroup exEnv (.ok ⟨some [("x".toList, 1)], [[10]]⟩) "x" (.grp [] []) = (.ok (), .grp [("x".toList, .dset ⟨1, [], [10]⟩ [])] []) ∧
    Rect [("x".toList, 1), ("y".toList, 2)] [[10, 20], [11, 21]] ∧
    (txtToGroup exEnv (.ok t) "x" (.grp [("y".toList, .grp [] [])] [])) =
      (.error .valueError, .grp [("y".toList, .grp [] []), ("x".toList, .dset ⟨1, [2], [10, 11]⟩ [])] []) :=
  ⟨rfl, rfl, by simp [Rect], rfl⟩

/-- C107: whether or not the call succeeds, everything in the group that is not named by a field is as it was, and so are the
attributes of the group. -/
theorem C107_frame (env : Env DT E) (dFlag : String) (fs : List (Str × DT)) (rows : List (List E)) (hname : ∀ p ∈ fs, IsName p.1)
    (ch : List (Str × Node DT E)) (a : List (Str × Dset DT E)) :
    ∃ ch', (txtToGroup env (.ok ⟨some fs, rows⟩) dFlag (.grp ch a)).2 = .grp ch' a ∧ ∀ k, k ∉ fs.map (·.1) → PyDict.get? ch' k = PyDict.get? ch k := by
  have key : ∀ (kls : List (Str × Leaf DT E)) (ch : List (Str × Node DT E)), (∀ p ∈ kls, IsName p.1) →
      ∃ ch', (dsDump env dFlag kls (.grp ch a)).2 = .grp ch' a ∧ ∀ k, k ∉ kls.map (·.1) → PyDict.get? ch' k = PyDict.get? ch k := by
    intro kls
    induction kls with
    | nil => intro ch _; exact ⟨ch, rfl, fun _ _ => rfl⟩
    | cons p rest ih =>
        intro ch hk
        obtain ⟨k0, l⟩ := p
        obtain ⟨r, ch1, h1, h2⟩ := dsCreate_grp env ch a k0 (hk (k0, l) (by simp)) l dFlag
        rw [dsDump, h1]
        cases r with
        | error e => exact ⟨ch1, rfl, fun k hkn => h2 k (fun e => hkn (by simp [e]))⟩
        | ok u =>
            obtain ⟨ch2, h3, h4⟩ := ih ch1 (fun q hq => hk q (by simp [hq]))
            refine ⟨ch2, h3, fun k hkn => ?_⟩
            simp only [List.map_cons, List.mem_cons, not_or] at hkn
            rw [h4 k hkn.2, h2 k hkn.1]
  have hkeys := columns_keys env ⟨some fs, rows⟩ fs 0
  obtain ⟨ch', h1, h2⟩ := key (Table.columns env ⟨some fs, rows⟩ fs 0) ch (by
    intro p hp
    have : p.1 ∈ fs.map (·.1) := by rw [← hkeys]; exact List.mem_map_of_mem hp
    obtain ⟨q, hq, e⟩ := List.mem_map.mp this
    rw [← e]; exact hname q hq)
  rw [hkeys] at h2
  exact ⟨ch', h1, h2⟩

end Pyhipp.H5
