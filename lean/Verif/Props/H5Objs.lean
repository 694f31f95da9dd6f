import Verif.Props.H5
/-
C15, C16, C19, C20, C21: creation flags, existing names, the dataset view, attributes, selective load.
-/
namespace Pyhipp.H5
open Pyhipp

variable {DT E : Type}

/-! ### C15 -/

theorem flagOk_false {flag : String} (h : flag ≠ "x" ∧ flag ≠ "ac" ∧ flag ≠ "ca") : flagOk flag = false := by
  simp [flagOk, h.1, h.2.1, h.2.2]

/-- C15: a flag other than 'x', 'ac', 'ca' makes each creating function raise ValueError and change nothing. -/
theorem C15_unknown_flag (env : Env DT E) (n : Node DT E) (at' : List (Str × Dset DT E)) (key : Str) (data : Leaf DT E) (shape : List Nat) (dt : DT)
    (flag : String) (h : flag ≠ "x" ∧ flag ≠ "ac" ∧ flag ≠ "ca") :
    createGroup env n key flag = (.error .valueError, n) ∧
    dsCreate env n key data flag = (.error .valueError, n) ∧
    dsCreateEmpty env n key shape dt flag = (.error .valueError, n) ∧
    attrCreate env at' key data flag = (.error .valueError, at') ∧
    attrCreateEmpty env at' key shape dt flag = (.error .valueError, at') := by
  have hf := flagOk_false h
  simp [createGroup, dsCreate, dsCreateEmpty, attrCreate, attrCreateEmpty, hf]

/-- C15: the bulk operations check the flag at the first item: with at least one item they raise ValueError (TypeError
if the data are not supported) and change nothing. -/
theorem C15_unknown_flag_dump (env : Env DT E) (n : Node DT E) (at' : List (Str × Dset DT E)) (flag : String)
    (h : flag ≠ "x" ∧ flag ≠ "ac" ∧ flag ≠ "ca") :
    (∀ kvs, kvs ≠ [] → (dump env flag (.map kvs) n).2 = n ∧
      ((dump env flag (.map kvs) n).1 = .error .valueError ∨ (dump env flag (.map kvs) n).1 = .error .typeError)) ∧
    (∀ kls, kls ≠ [] → dsDump env flag kls n = (.error .valueError, n)) ∧
    (∀ kls, kls ≠ [] → attrDump env flag kls at' = (.error .valueError, at')) := by
  have hf := flagOk_false h
  refine ⟨?_, ?_, ?_⟩
  · intro kvs hne
    rw [dump]
    split
    · cases kvs with
      | nil => exact absurd rfl hne
      | cons p rest =>
          obtain ⟨ko, v⟩ := p
          cases ko with
          | other => rw [dumpItems]; exact ⟨rfl, Or.inr rfl⟩
          | str k =>
              cases v with
              | leaf l => rw [dumpItems]; simp [dsCreate, hf]
              | map kvs' => rw [dumpItems]; simp [createGroup, hf]
    · exact ⟨rfl, Or.inr rfl⟩
  · intro kls hne
    cases kls with
    | nil => exact absurd rfl hne
    | cons p rest => simp [dsDump, dsCreate, hf]
  · intro kls hne
    cases kls with
    | nil => exact absurd rfl hne
    | cons p rest => simp [attrDump, attrCreate, hf]

/-- C15 (recorded): dumping an empty mapping accepts any flag. -/
theorem C15_empty_dump_accepts (env : Env DT E) (n : Node DT E) (flag : String) : dump env flag (.map []) n = (.ok (), n) := by
  simp [dump, scanItems, dumpItems]

/-- The flags that are accepted do create. -/
example : createGroup exEnv (.grp [] []) "g".toList "ca" = (.ok (), .grp [("g".toList, .grp [] [])] []) ∧
    createGroup exEnv (.grp [] []) "g".toList "a" = (.error .valueError, .grp [] []) := ⟨rfl, rfl⟩

/-! ### C16 -/

/-- C16: `create_group` for a name that exists: 'x' raises ValueError; 'ac' succeeds on a group and raises ValueError on
a dataset; in no case does anything change. -/
theorem C16_create_group_existing (env : Env DT E) (n c : Node DT E) (key : Str) (h : lookup n (pathOf key) = some c) :
    createGroup env n key "x" = (.error .valueError, n) ∧
    ∀ flag, flag = "ac" ∨ flag = "ca" →
      (∀ ch a, c = .grp ch a → createGroup env n key flag = (.ok (), n)) ∧
      (∀ d a, c = .dset d a → createGroup env n key flag = (.error .valueError, n)) := by
  have hc : contains n (pathOf key) = true := by unfold contains; rw [h]; rfl
  refine ⟨?_, ?_⟩
  · unfold createGroup; rw [hc]; rfl
  · intro flag hf
    obtain ⟨f1, f2⟩ := flag_ac hf
    refine ⟨?_, ?_⟩
    · rintro ch a rfl
      unfold createGroup
      rw [hc, f1, f2, h]
      rfl
    · rintro d a rfl
      unfold createGroup
      rw [hc, f1, f2, h]
      rfl

/-- C16: `create_group` for a name that does not exist creates an empty group there, or (a dataset is in the way, or
the file is read-only) raises ValueError and changes nothing. -/
theorem C16_create_group_new (env : Env DT E) (n : Node DT E) (key : Str) (flag : String) (hf : flagOk flag = true)
    (h : lookup n (pathOf key) = none) :
    ((createGroup env n key flag).1 = .ok () ∧ lookup (createGroup env n key flag).2 (pathOf key) = some (.grp [] [])) ∨
    createGroup env n key flag = (.error .valueError, n) := by
  have hc : contains n (pathOf key) = false := by unfold contains; rw [h]; rfl
  have he : createGroup env n key flag = rawCreateGroup env n (pathOf key) := by
    unfold createGroup; rw [hf, hc]; rfl
  rw [he]
  cases hr : rawCreateGroup env n (pathOf key) with
  | mk r n' =>
      cases r with
      | ok u => exact Or.inl ⟨rfl, rawCreateGroup_ok env _ n n' u hr⟩
      | error e =>
          right
          have h2 := rawCreateGroup_error env _ n n' e hr
          have h1 : ∀ (p : List Str) (n n' : Node DT E) (e : PyErr), rawCreateGroup env n p = (.error e, n') → e = .valueError := by
            intro p
            induction p with
            | nil => intro n n' e h; cases n <;> (cases h; rfl)
            | cons k ks ih =>
                intro n n' e h
                cases n with
                | dset d a => cases h; rfl
                | grp ch a =>
                    simp only [rawCreateGroup] at h
                    split at h
                    · split at h
                      · exact ih _ _ e (Prod.ext (Prod.mk.inj h).1 rfl)
                      · cases (Prod.mk.inj h).1
                    · cases h; rfl
          rw [h2, h1 _ _ _ _ hr]

/-- C16: on a writable file, `create_group` of a missing name fails only if a proper prefix of the path is a dataset. -/
theorem C16_create_group_succeeds (env : Env DT E) (hw : env.writable = true) (n : Node DT E) (key : Str) (flag : String) (hf : flagOk flag = true)
    (h : lookup n (pathOf key) = none) :
    (createGroup env n key flag).1 = .ok () ↔ ∀ q d a, q <+: pathOf key → lookup n q ≠ some (.dset d a) := by
  have hc : contains n (pathOf key) = false := by unfold contains; rw [h]; rfl
  have he : createGroup env n key flag = rawCreateGroup env n (pathOf key) := by
    unfold createGroup; rw [hf, hc]; rfl
  rw [he]
  clear he hc
  generalize pathOf key = p at h
  induction p generalizing n with
  | nil => simp [lookup] at h
  | cons k ks ih =>
      cases n with
      | dset d a =>
          simp only [rawCreateGroup, reduceCtorEq, false_iff, not_forall]
          exact ⟨[], d, a, List.nil_prefix, by simp [lookup]⟩
      | grp ch a =>
          simp only [rawCreateGroup, hw, if_true]
          cases hg : PyDict.get? ch k with
          | none =>
              simp only [true_iff]
              intro q d a' hq
              cases q with
              | nil => simp [lookup]
              | cons k' q' =>
                  rw [List.cons_prefix_cons] at hq
                  rw [hq.1, lookup, hg]; simp
          | some c =>
              simp only [lookup, hg] at h
              refine (ih c h).trans ?_
              constructor
              · intro hh q d a' hq
                cases q with
                | nil => simp [lookup]
                | cons k' q' =>
                    rw [List.cons_prefix_cons] at hq
                    rw [hq.1, lookup, hg]
                    exact hh q' d a' hq.2
              · intro hh q d a' hq
                have := hh (k :: q) d a' (by rw [List.cons_prefix_cons]; exact ⟨rfl, hq⟩)
                rw [lookup, hg] at this
                exact this

/-- C16: `datasets.create` and `create_empty` for a name that exists: 'x' raises ValueError; with 'ac', a group makes
`create` raise ValueError and `create_empty` raise; a dataset makes `create_empty` a no-op.  Nothing changes. -/
theorem C16_create_dataset_existing (env : Env DT E) (n c : Node DT E) (key : Str) (l : Leaf DT E) (shape : List Nat) (dt : DT)
    (h : lookup n (pathOf key) = some c) :
    dsCreate env n key l "x" = (.error .valueError, n) ∧
    ((∃ d a, c = .dset d a) → dsCreateEmpty env n key shape dt "x" = (.error .valueError, n)) ∧
    ∀ flag, flagOk flag = true →
      (∀ ch a, c = .grp ch a → dsCreate env n key l flag = (.error .valueError, n) ∧
        ∃ e, dsCreateEmpty env n key shape dt flag = (.error e, n)) ∧
      (∀ d a, c = .dset d a → flag = "ac" ∨ flag = "ca" → dsCreateEmpty env n key shape dt flag = (.ok (), n)) := by
  have hc : contains n (pathOf key) = true := by unfold contains; rw [h]; rfl
  have hraw : ∀ (obj : PyM (Dset DT E)) (p : List Str) (n : Node DT E) (ch : List (Str × Node DT E)) (a : List (Str × Dset DT E)),
      lookup n p = some (.grp ch a) → ∃ e, rawCreateDataset env obj n p = (.error e, n) := by
    intro obj p
    induction p with
    | nil => intro n ch a _; exact ⟨.valueError, by cases n <;> rfl⟩
    | cons k ks ih =>
        intro n ch a hl
        cases n with
        | dset d a => simp [lookup] at hl
        | grp ch0 a0 =>
            simp only [lookup] at hl
            cases hg : PyDict.get? ch0 k with
            | none => rw [hg] at hl; cases hl
            | some c0 =>
                rw [hg] at hl
                cases ks with
                | nil =>
                    simp only [rawCreateDataset]
                    split
                    · split
                      · exact ⟨_, rfl⟩
                      · rw [PyDict.has, hg]; exact ⟨_, rfl⟩
                    · exact ⟨_, rfl⟩
                | cons k' ks' =>
                    simp only [rawCreateDataset]
                    split
                    · obtain ⟨e, he⟩ := ih c0 ch a hl
                      rw [hg]
                      simp only [Option.getD_some, he]
                      rw [PyDict.set_get?_self _ _ _ hg]
                      exact ⟨e, rfl⟩
                    · exact ⟨_, rfl⟩
  refine ⟨?_, ?_, ?_⟩
  · unfold dsCreate; rw [hc]; rfl
  · rintro ⟨d, a, rfl⟩
    unfold dsCreateEmpty dsContains; rw [h]; rfl
  · intro flag hf
    refine ⟨?_, ?_⟩
    · rintro ch a rfl
      refine ⟨?_, ?_⟩
      · unfold dsCreate; rw [hc, hf, h]
        simp
      · unfold dsCreateEmpty dsContains
        rw [h, hf]
        exact hraw _ _ n ch a h
    · rintro d a rfl hac
      obtain ⟨f1, f2⟩ := flag_ac hac
      unfold dsCreateEmpty dsContains
      rw [h, f1, f2]; rfl

/-- Specification: every dataset of `n` is in `n'` with the same dtype, shape and attributes (its values may differ), every
group of `n` is in `n'` with the same attributes. -/
def SameKind (n n' : Node DT E) : Prop :=
  ∀ p, (∀ d a, lookup n p = some (.dset d a) → ∃ d', lookup n' p = some (.dset d' a) ∧ d'.dt = d.dt ∧ d'.shape = d.shape) ∧
    (∀ ch a, lookup n p = some (.grp ch a) → ∃ ch', lookup n' p = some (.grp ch' a))

theorem Keeps.sameKind {n n' : Node DT E} (h : Keeps n n') : SameKind n n' :=
  fun p => ⟨fun d a hd => ⟨d, (h p).1 d a hd, rfl, rfl⟩, (h p).2⟩

theorem SameKind.refl (n : Node DT E) : SameKind n n := (Keeps.refl n).sameKind

theorem SameKind.trans {n n1 n2 : Node DT E} (h : SameKind n n1) (h' : SameKind n1 n2) : SameKind n n2 := by
  intro p
  refine ⟨fun d a hd => ?_, fun ch a hg => ?_⟩
  · obtain ⟨d1, h1, e1, e2⟩ := (h p).1 d a hd
    obtain ⟨d2, h2, e3, e4⟩ := (h' p).1 d1 a h1
    exact ⟨d2, h2, e3.trans e1, e4.trans e2⟩
  · obtain ⟨ch1, h1⟩ := (h p).2 ch a hg
    exact (h' p).2 ch1 a h1

theorem sameKind_set (ch : List (Str × Node DT E)) (a : List (Str × Dset DT E)) (k : Str) (c' : Node DT E)
    (h : ∀ c, PyDict.get? ch k = some c → SameKind c c') : SameKind (.grp ch a) (.grp (PyDict.set ch k c') a) := by
  intro p
  cases p with
  | nil =>
      refine ⟨fun d a h => ?_, fun ch0 a0 h => ?_⟩
      · simp [lookup] at h
      · simp only [lookup, Option.some.injEq, Node.grp.injEq] at h
        obtain ⟨rfl, rfl⟩ := h
        exact ⟨_, rfl⟩
  | cons k' ks =>
      simp only [lookup, PyDict.get?_set]
      by_cases hk : k' = k
      · subst hk
        rw [if_pos rfl]
        cases hg : PyDict.get? ch k' with
        | none => simp
        | some c => exact h c hg ks
      · rw [if_neg hk]
        exact SameKind.refl (.grp ch a) (k' :: ks)

theorem sameKind_modifyAt {α : Type} (f : Node DT E → PyM α × Node DT E) (hf : ∀ c, SameKind c (f c).2) (p : List Str) :
    ∀ n : Node DT E, SameKind n (modifyAt f n p).2 := by
  induction p with
  | nil => intro n; simpa [modifyAt] using hf n
  | cons k ks ih =>
      intro n
      cases n with
      | dset d a => exact SameKind.refl _
      | grp ch a =>
          simp only [modifyAt]
          cases hg : PyDict.get? ch k with
          | none => exact SameKind.refl _
          | some c => exact sameKind_set ch a k _ (fun c0 hc0 => by rw [hg] at hc0; cases hc0; exact ih c)

theorem overwrite_same {env : Env DT E} {old d d' : Dset DT E} (h : overwrite env old d = .ok d') : d'.dt = old.dt ∧ d'.shape = old.shape := by
  unfold overwrite at h
  split at h
  · cases h
  · split at h
    · cases h
    · cases h; exact ⟨rfl, rfl⟩

theorem sameKind_assign (env : Env DT E) (l : Leaf DT E) (c : Node DT E) : SameKind c (assign env l c).2 := by
  cases c with
  | grp ch a => exact SameKind.refl _
  | dset old a =>
      simp only [assign]
      split
      · split
        · rename_i d hd
          have hs : d.dt = old.dt ∧ d.shape = old.shape := by
            simp only [bind, Except.bind] at hd
            split at hd
            · cases hd
            · exact overwrite_same hd
          intro p
          cases p with
          | nil =>
              simp only [lookup, Option.some.injEq, Node.dset.injEq, reduceCtorEq, false_implies, implies_true, and_true]
              rintro d0 a0 ⟨rfl, rfl⟩
              exact ⟨d, ⟨rfl, rfl⟩, hs⟩
          | cons k ks => simp [lookup]
        · exact SameKind.refl _
      · exact SameKind.refl _

theorem sameKind_dsCreate (env : Env DT E) (n : Node DT E) (key : Str) (l : Leaf DT E) (flag : String) :
    SameKind n (dsCreate env n key l flag).2 := by
  by_cases hf : flag ≠ "ac" ∧ flag ≠ "ca"
  · exact (keeps_dsCreate env n key l flag hf).sameKind
  · unfold dsCreate
    split
    · exact SameKind.refl _
    · split
      · split
        · exact SameKind.refl _
        · split
          · exact sameKind_modifyAt _ (sameKind_assign env l) _ n
          · exact SameKind.refl _
      · rename_i hc
        exact (keeps_rawCreateDataset env _ _ n (by simpa using hc)).sameKind

theorem keeps_dsCreateEmpty (env : Env DT E) (n : Node DT E) (key : Str) (shape : List Nat) (dt : DT) (flag : String) :
    Keeps n (dsCreateEmpty env n key shape dt flag).2 := by
  cases hl : lookup n (pathOf key) with
  | none =>
      unfold dsCreateEmpty dsContains
      rw [hl]
      simp only
      split
      · exact Keeps.refl _
      · exact keeps_rawCreateDataset env _ _ n (by unfold contains; rw [hl]; rfl)
  | some c =>
      by_cases hf : flagOk flag = true
      · obtain ⟨h1, h2, h3⟩ := C16_create_dataset_existing env n c key .bad shape dt hl
        cases c with
        | grp ch a => obtain ⟨-, e, he⟩ := (h3 flag hf).1 ch a rfl; rw [he]; exact Keeps.refl _
        | dset d a =>
            unfold dsCreateEmpty dsContains
            rw [hl, hf]
            simp only [Bool.not_true, Bool.false_eq_true, if_false, if_true]
            split <;> exact Keeps.refl _
      · unfold dsCreateEmpty
        simp [hf]
        exact Keeps.refl _

theorem sameKind_dumpItems (env : Env DT E) (flag : String) (kvs : List (KeyObj × Val DT E)) :
    ∀ n, SameKind n (dumpItems env flag kvs n).2 := by
  intro n
  match kvs with
  | [] => simp only [dumpItems]; exact SameKind.refl _
  | (.other, _) :: _ => simp only [dumpItems]; exact SameKind.refl _
  | (.str k, .leaf l) :: rest =>
      have h1 := sameKind_dsCreate env n k l flag
      rw [dumpItems]
      cases hc : dsCreate env n k l flag with
      | mk r n1 =>
          rw [hc] at h1
          cases r with
          | error e => exact h1
          | ok u => exact h1.trans (sameKind_dumpItems env flag rest n1)
  | (.str k, .map kvs') :: rest =>
      have h1 := (keeps_createGroup env n k flag).sameKind
      rw [dumpItems]
      cases hc : createGroup env n k flag with
      | mk r n1 =>
          rw [hc] at h1
          cases r with
          | error e => exact h1
          | ok u =>
              have h2 := sameKind_modifyAt (dump env flag (.map kvs')) (fun c => by
                rw [dump]
                split
                · exact sameKind_dumpItems env flag kvs' c
                · exact SameKind.refl _) (pathOf k) n1
              simp only
              cases hm : modifyAt (dump env flag (.map kvs')) n1 (pathOf k) with
              | mk r2 n2 =>
                  rw [hm] at h2
                  cases r2 with
                  | error e => exact h1.trans h2
                  | ok u => exact (h1.trans h2).trans (sameKind_dumpItems env flag rest n2)

/-- C16: whatever the flag and whether the call succeeds, `create_group`, `datasets.create`, `datasets.create_empty`,
`datasets[k] = v` and `dump` never turn a dataset into a group or a group into a dataset, never remove either, and
never change the dtype, shape or attributes of what was there; `create_group` and `create_empty` do not even change
values. -/
theorem C16_never_replaces (env : Env DT E) (n : Node DT E) (key : Str) (l : Leaf DT E) (shape : List Nat) (dt : DT) (flag : String) (v : Val DT E) :
    Keeps n (createGroup env n key flag).2 ∧ Keeps n (dsCreateEmpty env n key shape dt flag).2 ∧
    SameKind n (dsCreate env n key l flag).2 ∧ SameKind n (dsSet env n key l).2 ∧ SameKind n (dump env flag v n).2 := by
  refine ⟨keeps_createGroup env n key flag, keeps_dsCreateEmpty env n key shape dt flag, sameKind_dsCreate env n key l flag, ?_, ?_⟩
  · unfold dsSet
    split
    · exact sameKind_modifyAt _ (sameKind_assign env l) _ n
    · exact SameKind.refl _
  · cases v with
    | leaf l => rw [dump]; exact SameKind.refl _
    | map kvs =>
        rw [dump]
        split
        · exact sameKind_dumpItems env flag kvs n
        · exact SameKind.refl _

/-- A file with one dataset and one group: the four cases of C16. -/
example :
    let n : Node Nat Nat := .grp [("d".toList, .dset ⟨1, [], [3]⟩ []), ("g".toList, .grp [] [])] []
    createGroup exEnv n "d".toList "ac" = (.error .valueError, n) ∧ createGroup exEnv n "g".toList "ac" = (.ok (), n) ∧
    dsCreate exEnv n "g".toList (.str "x".toList) "ac" = (.error .valueError, n) ∧
    createGroup exEnv n "h".toList "x" = (.ok (), .grp [("d".toList, .dset ⟨1, [], [3]⟩ []), ("g".toList, .grp [] []), ("h".toList, .grp [] [])] []) :=
  ⟨rfl, rfl, rfl, rfl⟩

/-! ### C19 -/

/-- C19: keys/items/values of the dataset view: exactly the children that are datasets, each with its value, in increasing
order of names. -/
theorem C19_items (ch : List (Str × Node DT E)) (a : List (Str × Dset DT E)) (hwf : PyDict.WF ch) :
    (∀ k d, (k, d) ∈ dsItems (.grp ch a) ↔ ∃ at', PyDict.get? ch k = some (.dset d at')) ∧
    ((dsItems (.grp ch a)).map (·.1)).Pairwise (· < ·) := by
  constructor
  · intro k d
    simp only [dsItems, List.mem_filterMap]
    constructor
    · rintro ⟨⟨k', c⟩, hm, hc⟩
      cases c with
      | grp c1 c2 => simp at hc
      | dset d' at' =>
          simp only [Option.some.injEq, Prod.mk.injEq] at hc
          obtain ⟨rfl, rfl⟩ := hc
          exact ⟨at', PyDict.get?_of_mem ch hwf _ _ ((sortNames_perm ch).mem_iff.mp hm)⟩
    · rintro ⟨at', h⟩
      exact ⟨(k, .dset d at'), (sortNames_perm ch).mem_iff.mpr (PyDict.mem_of_get? ch _ _ h), rfl⟩
  · have h := keys_sorted ch hwf
    have hsub : List.Sublist ((dsItems (.grp ch a)).map (·.1)) (PyDict.keys (sortNames ch)) := by
      simp only [dsItems, PyDict.keys]
      generalize sortNames ch = l
      induction l with
      | nil => simp
      | cons p l ih =>
          obtain ⟨k, c⟩ := p
          cases c with
          | dset d at' => simpa using ih
          | grp c1 c2 =>
              simp only [List.filterMap_cons, List.map_cons]
              exact ih.cons _
    exact h.sublist hsub

/-- C19: `k in g.datasets` iff `g.datasets[k]` succeeds; otherwise it raises KeyError, also for a group. -/
theorem C19_contains_iff_get (n : Node DT E) (key : Str) :
    (dsContains n key = true ↔ ∃ d, dsGet n key = .ok d) ∧
    (dsContains n key = false ↔ dsGet n key = .error .keyError) ∧
    (dsContains n key = true ↔ ∃ d a, lookup n (pathOf key) = some (.dset d a)) ∧
    (∀ d a, lookup n (pathOf key) = some (.dset d a) → dsGet n key = .ok d) := by
  unfold dsContains dsGet
  cases h : lookup n (pathOf key) with
  | none => simp
  | some c => cases c <;> simp

/-- C19: indexing with several keys returns their values in order, or raises KeyError if one of them is not a dataset. -/
theorem C19_gets (n : Node DT E) (keys : List Str) :
    (∀ ds, dsGets n keys = .ok ds ↔ List.Forall₂ (fun k d => dsGet n k = .ok d) keys ds) ∧
    ((∃ k ∈ keys, dsContains n k = false) → dsGets n keys = .error .keyError) := by
  unfold dsGets
  induction keys with
  | nil =>
      refine ⟨fun ds => ?_, fun h => by simp at h⟩
      simp [pure, Except.pure, eq_comm]
  | cons k ks ih =>
      have hget := C19_contains_iff_get n k
      simp only [List.mapM_cons, bind, Except.bind, pure, Except.pure] at ih ⊢
      cases hk : dsGet n k with
      | error e =>
          have he : e = .keyError := by
            unfold dsGet at hk
            split at hk
            · cases hk
            · cases hk; rfl
          refine ⟨fun ds => ?_, fun _ => by rw [he]⟩
          simp only [reduceCtorEq, false_iff]
          intro hf
          cases hf with
          | cons h1 h2 => rw [hk] at h1; cases h1
      | ok d =>
          simp only
          refine ⟨fun ds => ?_, fun h => ?_⟩
          · cases hm : ks.mapM (dsGet n) with
            | error e =>
                simp only [reduceCtorEq, false_iff]
                intro hf
                cases hf with
                | cons h1 h2 => rw [(ih.1 _).mpr h2] at hm; cases hm
            | ok ds' =>
                simp only [Except.ok.injEq]
                constructor
                · rintro rfl
                  exact .cons hk ((ih.1 _).mp hm)
                · intro hf
                  cases hf with
                  | cons h1 h2 =>
                      rw [hk] at h1; cases h1
                      rw [(ih.1 _).mpr h2] at hm; cases hm; rfl
          · obtain ⟨k', hk', hc⟩ := h
            rcases List.mem_cons.mp hk' with rfl | hk'
            · rw [hget.2.1.mp hc] at hk; cases hk
            · rw [ih.2 ⟨k', hk', hc⟩]

theorem lookup_append (p q : List Str) : ∀ (n c : Node DT E), lookup n p = some c → lookup n (p ++ q) = lookup c q := by
  induction p with
  | nil => intro n c h; simp only [lookup, Option.some.injEq] at h; rw [h]; rfl
  | cons k ks ih =>
      intro n c h
      cases n with
      | dset d a => simp [lookup] at h
      | grp ch a =>
          simp only [lookup] at h
          simp only [List.cons_append, lookup]
          cases hg : PyDict.get? ch k with
          | none => rw [hg] at h; cases h
          | some c0 => rw [hg] at h; exact ih c0 c h

theorem modifyAt_at {α : Type} (f : Node DT E → PyM α × Node DT E) (p : List Str) : ∀ (n c : Node DT E), lookup n p = some c →
    (modifyAt f n p).1 = (f c).1 ∧ (∀ q, lookup (modifyAt f n p).2 (p ++ q) = lookup (f c).2 q) ∧
    (∀ q, ¬ p <+: q → ¬ q <+: p → lookup (modifyAt f n p).2 q = lookup n q) ∧
    (∀ q, q <+: p → q ≠ p → ∃ ch ch' a, lookup n q = some (.grp ch a) ∧ lookup (modifyAt f n p).2 q = some (.grp ch' a)) := by
  induction p with
  | nil =>
      intro n c h
      simp only [lookup, Option.some.injEq] at h
      subst h
      refine ⟨by simp [modifyAt], by simp [modifyAt], fun q h => absurd List.nil_prefix h, fun q h hne => ?_⟩
      exact absurd (List.prefix_nil.mp h) hne
  | cons k ks ih =>
      intro n c h
      cases n with
      | dset d a => simp [lookup] at h
      | grp ch a =>
          simp only [lookup] at h
          cases hg : PyDict.get? ch k with
          | none => rw [hg] at h; cases h
          | some c0 =>
              rw [hg] at h
              obtain ⟨h1, h2, h3, h4⟩ := ih c0 c h
              simp only [modifyAt, hg]
              refine ⟨h1, ?_, ?_, ?_⟩
              · intro q
                simp only [List.cons_append, lookup, PyDict.get?_set_self, h2]
              · intro q hq hq'
                cases q with
                | nil => exact absurd List.nil_prefix hq'
                | cons k' q' =>
                    simp only [lookup, PyDict.get?_set]
                    by_cases hk : k' = k
                    · subst hk
                      rw [if_pos rfl, hg]
                      simp only
                      refine h3 q' (fun hh => hq ?_) (fun hh => hq' ?_)
                      · rw [List.cons_prefix_cons]; exact ⟨rfl, hh⟩
                      · rw [List.cons_prefix_cons]; exact ⟨rfl, hh⟩
                    · rw [if_neg hk]
              · intro q hq hne
                cases q with
                | nil => exact ⟨ch, _, a, rfl, rfl⟩
                | cons k' q' =>
                    rw [List.cons_prefix_cons] at hq
                    obtain ⟨rfl, hq⟩ := hq
                    simp only [lookup, PyDict.get?_set_self, hg]
                    exact h4 q' hq (fun hh => hne (by rw [hh]))

/-- C19: `g.datasets[k] = v`: KeyError and no change if k is missing or a group; otherwise it succeeds exactly if the file is
writable and the value can be written into the dataset; then the dataset holds the value and keeps its attributes, and every
other dataset and every group stays as it was. -/
theorem C19_set (env : Env DT E) (n : Node DT E) (key : Str) (l : Leaf DT E) :
    (dsContains n key = false → dsSet env n key l = (.error .keyError, n)) ∧
    ∀ old a, lookup n (pathOf key) = some (.dset old a) →
      ((dsSet env n key l).1 = .ok () ↔ env.writable = true ∧ ∃ d d', leafDset env l = .ok d ∧ overwrite env old d = .ok d') ∧
      (∀ e, (dsSet env n key l).1 = .error e → (dsSet env n key l).2 = n) ∧
      (∀ d d', env.writable = true → leafDset env l = .ok d → overwrite env old d = .ok d' →
        lookup (dsSet env n key l).2 (pathOf key) = some (.dset d' a)) ∧
      (∀ q, q ≠ pathOf key → ∀ d at', lookup (dsSet env n key l).2 q = some (.dset d at') ↔ lookup n q = some (.dset d at')) ∧
      (∀ q at', (∃ c, lookup (dsSet env n key l).2 q = some (.grp c at')) ↔ (∃ c, lookup n q = some (.grp c at'))) := by
  constructor
  · intro h; unfold dsSet; rw [h]; rfl
  · intro old a hl
    have hc : dsContains n key = true := (C19_contains_iff_get n key).2.2.1.mpr ⟨old, a, hl⟩
    have hs : dsSet env n key l = modifyAt (assign env l) n (pathOf key) := by unfold dsSet; rw [hc]; rfl
    rw [hs]
    obtain ⟨h1, h2, h3, h4⟩ := modifyAt_at (assign env l) (pathOf key) n _ hl
    have hdset : ∃ d', (assign env l (.dset old a)).2 = .dset d' a := by
      simp only [assign]
      split
      · split
        · exact ⟨_, rfl⟩
        · exact ⟨_, rfl⟩
      · exact ⟨_, rfl⟩
    obtain ⟨d', hd'⟩ := hdset
    refine ⟨?_, ?_, ?_, ?_, ?_⟩
    · rw [h1]
      simp only [assign]
      by_cases hw : env.writable = true
      · rw [if_pos hw]
        simp only [hw, true_and, bind, Except.bind]
        cases hd : leafDset env l with
        | error e => simp
        | ok d =>
            simp only
            cases ho : overwrite env old d with
            | error e =>
                constructor
                · intro h; cases h
                · rintro ⟨d1, d2, e1, e2⟩
                  cases e1
                  rw [ho] at e2; cases e2
            | ok d' => exact ⟨fun _ => ⟨d, d', rfl, ho⟩, fun _ => rfl⟩
      · rw [if_neg hw]
        simp [hw]
    · intro e he
      exact modifyAt_error _ (assign_error env l) _ n _ e (Prod.ext he rfl)
    · intro d d' hw hd ho
      have := h2 []
      rw [List.append_nil] at this
      rw [this]
      simp [assign, hw, hd, ho, bind, Except.bind, lookup]
    · intro q hq d at'
      by_cases hp : pathOf key <+: q
      · obtain ⟨r, rfl⟩ := hp
        rw [h2 r, hd']
        cases r with
        | nil => exact absurd (List.append_nil _) hq
        | cons x r =>
            have : lookup n (pathOf key ++ x :: r) = none := by
              rw [lookup_append _ _ n _ hl]; simp [lookup]
            rw [this]; simp [lookup]
      · by_cases hp' : q <+: pathOf key
        · obtain ⟨c, c', a0, e1, e2⟩ := h4 q hp' hq
          rw [e1, e2]; simp
        · rw [h3 q hp hp']
    · intro q at'
      by_cases hp : pathOf key <+: q
      · obtain ⟨r, rfl⟩ := hp
        rw [h2 r, hd']
        rw [lookup_append _ _ n _ hl]
        cases r <;> simp [lookup]
      · by_cases hp' : q <+: pathOf key
        · obtain ⟨c, c', a0, e1, e2⟩ := h4 q hp' (fun e => hp (e ▸ List.prefix_refl _))
          rw [e1, e2]; simp
        · rw [h3 q hp hp']

/-- A group with a dataset and a sub-group, seen through `datasets`. -/
example :
    let n : Node Nat Nat := .grp [("g".toList, .grp [("x".toList, .dset ⟨1, [], [3]⟩ [])] []), ("d".toList, .dset ⟨1, [2], [3, 4]⟩ [])] []
    dsItems n = [("d".toList, ⟨1, [2], [3, 4]⟩)] ∧ dsGet n "g".toList = .error .keyError ∧ dsGet n "g/x".toList = .ok ⟨1, [], [3]⟩ ∧
    dsSet exEnv n "d".toList (.dat ⟨1, [2], [8, 9]⟩) =
      (.ok (), .grp [("g".toList, .grp [("x".toList, .dset ⟨1, [], [3]⟩ [])] []), ("d".toList, .dset ⟨1, [2], [8, 9]⟩ [])] []) :=
  ⟨rfl, rfl, rfl, rfl⟩

/-! ### C21 -/

/-- Specification: the distinct elements of a list in the order of their first occurrence. -/
def firsts (keys : List Str) : List Str := keys.foldl (fun acc k => if k ∈ acc then acc else acc ++ [k]) []

theorem dictOf_aux {β : Type} (get : Str → PyM β) (keys : List Str) : ∀ d : PyDict Str β,
    (∀ k ∈ keys, ∃ v, get k = .ok v) →
    ∃ m, keys.foldlM (fun d k => do let v ← get k; return PyDict.set d k v) d = .ok m ∧
      PyDict.keys m = keys.foldl (fun acc k => if k ∈ acc then acc else acc ++ [k]) (PyDict.keys d) ∧
      ∀ k, PyDict.get? m k = if k ∈ keys then (get k).toOption else PyDict.get? d k := by
  induction keys with
  | nil => intro d _; exact ⟨d, rfl, rfl, by simp⟩
  | cons k ks ih =>
      intro d h
      obtain ⟨v, hv⟩ := h k (by simp)
      obtain ⟨m, h1, h2, h3⟩ := ih (PyDict.set d k v) (fun k' hk' => h k' (by simp [hk']))
      refine ⟨m, ?_, ?_, ?_⟩
      · rw [List.foldlM_cons]
        simp only [hv, bind, Except.bind, pure, Except.pure] at h1 ⊢
        exact h1
      · rw [h2, List.foldl_cons]
        congr 1
        split
        · rename_i hm; exact PyDict.keys_set_of_mem d k v hm
        · rename_i hm; exact PyDict.keys_set_of_not_mem d k v hm
      · intro k'
        rw [h3 k', PyDict.get?_set]
        by_cases hk : k' = k
        · subst hk
          simp [hv, Except.toOption]
        · simp [hk]

theorem dictOf_error {β : Type} (get : Str → PyM β) (hget : ∀ k e, get k = .error e → e = .keyError) (keys : List Str) : ∀ d : PyDict Str β,
    (∃ k ∈ keys, ∀ v, get k ≠ .ok v) →
    keys.foldlM (fun d k => do let v ← get k; return PyDict.set d k v) d = (.error .keyError : PyM (PyDict Str β)) := by
  induction keys with
  | nil => intro d h; simp at h
  | cons k ks ih =>
      intro d h
      rw [List.foldlM_cons]
      cases hv : get k with
      | error e => simp only [bind, Except.bind]; rw [hget k e hv]
      | ok v =>
          simp only [bind, Except.bind, pure, Except.pure]
          obtain ⟨k', hk', hn⟩ := h
          rcases List.mem_cons.mp hk' with rfl | hk'
          · exact absurd hv (hn v)
          · exact ih (PyDict.set d k v) ⟨k', hk', hn⟩

/-- The two possible outcomes of loading `keys`. -/
theorem dictOf_spec {β : Type} (get : Str → PyM β) (hget : ∀ k e, get k = .error e → e = .keyError) (keys : List Str) :
    ((∃ k ∈ keys, ∀ v, get k ≠ .ok v) → dictOf get keys = .error .keyError) ∧
    ((∀ k ∈ keys, ∃ v, get k = .ok v) → ∃ m, dictOf get keys = .ok m ∧ PyDict.keys m = firsts keys ∧
      ∀ k v, PyDict.get? m k = some v ↔ k ∈ keys ∧ get k = .ok v) := by
  refine ⟨dictOf_error get hget keys [], fun h => ?_⟩
  obtain ⟨m, h1, h2, h3⟩ := dictOf_aux get keys [] h
  refine ⟨m, h1, h2, fun k v => ?_⟩
  rw [h3 k]
  split
  · rename_i hk
    cases hv : get k with
    | error e => obtain ⟨w, hw⟩ := h k hk; rw [hw] at hv; cases hv
    | ok w => simp [Except.toOption, hk]
  · rename_i hk; simp [hk]

theorem attrGet_key (at' : List (Str × Dset DT E)) (k : Str) (e : PyErr) (h : attrGet at' k = .error e) : e = .keyError := by
  unfold attrGet at h
  split at h
  · cases h
  · cases h; rfl

theorem dsGet_key (n : Node DT E) (k : Str) (e : PyErr) (h : dsGet n k = .error e) : e = .keyError := by
  unfold dsGet at h
  split at h
  · cases h
  · cases h; rfl

/-- Specification: the keys to load: those requested (default: all of `all`) that match the pattern. -/
def requested (all : List Str) (pat : Option (Str → Bool)) (keys : Option (List Str)) (k : Str) : Prop :=
  k ∈ keys.getD all ∧ ∀ f, pat = some f → f k = true

theorem mem_matched (all : List Str) (pat : Option (Str → Bool)) (keys : Option (List Str)) (k : Str) :
    k ∈ matched pat (keys.getD all) ↔ requested all pat keys k := by
  unfold matched requested
  cases pat with
  | none => simp
  | some f => simp

/-- C21: `datasets.load(key_re, keys)`: if every requested key that matches is a dataset, a dict with exactly these keys, in
the requested order, each with the value of the dataset; if one is not, KeyError. -/
theorem C21_dataset_load (n : Node DT E) (pat : Option (Str → Bool)) (keys : Option (List Str)) :
    ((∃ k, requested ((dsItems n).map (·.1)) pat keys k ∧ dsContains n k = false) → dsLoad n pat keys = .error .keyError) ∧
    ((∀ k, requested ((dsItems n).map (·.1)) pat keys k → dsContains n k = true) →
      ∃ m, dsLoad n pat keys = .ok m ∧ (∀ k d, PyDict.get? m k = some d ↔ requested ((dsItems n).map (·.1)) pat keys k ∧ dsGet n k = .ok d) ∧
        PyDict.keys m = firsts (match pat with | none => keys.getD ((dsItems n).map (·.1)) | some f => (keys.getD ((dsItems n).map (·.1))).filter f)) := by
  obtain ⟨h1, h2⟩ := dictOf_spec (dsGet n) (dsGet_key n) (matched pat (keys.getD ((dsItems n).map (·.1))))
  refine ⟨?_, ?_⟩
  · rintro ⟨k, hk, hc⟩
    refine h1 ⟨k, (mem_matched _ _ _ _).mpr hk, fun v hv => ?_⟩
    rw [(C19_contains_iff_get n k).2.1.mp hc] at hv; cases hv
  · intro h
    obtain ⟨m, e1, e2, e3⟩ := h2 (fun k hk => (C19_contains_iff_get n k).1.mp (h k ((mem_matched _ _ _ _).mp hk)))
    refine ⟨m, e1, fun k d => ?_, ?_⟩
    · rw [e3, mem_matched]
    · rw [e2]; rfl

/-- C21: the same for `attrs.load`. -/
theorem C21_attr_load (at' : List (Str × Dset DT E)) (pat : Option (Str → Bool)) (keys : Option (List Str)) :
    ((∃ k, requested ((attrItems at').map (·.1)) pat keys k ∧ PyDict.get? at' k = none) → attrLoad at' pat keys = .error .keyError) ∧
    ((∀ k, requested ((attrItems at').map (·.1)) pat keys k → PyDict.get? at' k ≠ none) →
      ∃ m, attrLoad at' pat keys = .ok m ∧
        (∀ k d, PyDict.get? m k = some d ↔ requested ((attrItems at').map (·.1)) pat keys k ∧ PyDict.get? at' k = some d) ∧
        PyDict.keys m = firsts (match pat with | none => keys.getD ((attrItems at').map (·.1)) | some f => (keys.getD ((attrItems at').map (·.1))).filter f)) := by
  obtain ⟨h1, h2⟩ := dictOf_spec (attrGet at') (attrGet_key at') (matched pat (keys.getD ((attrItems at').map (·.1))))
  have hg : ∀ k v, attrGet at' k = .ok v ↔ PyDict.get? at' k = some v := by
    intro k v
    unfold attrGet
    cases PyDict.get? at' k <;> simp
  refine ⟨?_, ?_⟩
  · rintro ⟨k, hk, hc⟩
    refine h1 ⟨k, (mem_matched _ _ _ _).mpr hk, fun v hv => ?_⟩
    rw [hg, hc] at hv; cases hv
  · intro h
    obtain ⟨m, e1, e2, e3⟩ := h2 (fun k hk => by
      obtain ⟨v, hv⟩ := Option.ne_none_iff_exists'.mp (h k ((mem_matched _ _ _ _).mp hk))
      exact ⟨v, (hg k v).mpr hv⟩)
    refine ⟨m, e1, fun k d => ?_, ?_⟩
    · rw [e3, mem_matched, hg]
    · rw [e2]; rfl

/-- C21: the default key list: without `keys` and `key_re`, `load` never fails and returns every dataset (every attribute). -/
theorem C21_load_all (ch : List (Str × Node DT E)) (a : List (Str × Dset DT E)) (hwf : PyDict.WF ch) (hn : ∀ k ∈ PyDict.keys ch, IsName k) :
    ∃ m, dsLoad (.grp ch a) none none = .ok m ∧ ∀ k d, PyDict.get? m k = some d ↔ ∃ at', PyDict.get? ch k = some (.dset d at') := by
  have hmem : ∀ k, k ∈ (dsItems (.grp ch a)).map (·.1) ↔ ∃ d at', PyDict.get? ch k = some (.dset d at') := by
    intro k
    simp only [List.mem_map, Prod.exists, exists_and_right, exists_eq_right]
    exact exists_congr (fun d => (C19_items ch a hwf).1 k d)
  have hget : ∀ k d at', PyDict.get? ch k = some (.dset d at') → lookup (.grp ch a) (pathOf k) = some (.dset d at') := by
    intro k d at' h
    have : k ∈ PyDict.keys ch := (PyDict.get?_isSome_iff ch k).mp (by rw [h]; rfl)
    rw [pathOf_name (hn k this), lookup_single, h]
  obtain ⟨m, h1, h2, -⟩ := (C21_dataset_load (.grp ch a) none none).2 (fun k hk => by
    obtain ⟨d, at', h⟩ := (hmem k).mp hk.1
    exact (C19_contains_iff_get _ k).2.2.1.mpr ⟨d, at', hget k d at' h⟩)
  refine ⟨m, h1, fun k d => ?_⟩
  rw [h2]
  constructor
  · rintro ⟨hr, hd⟩
    obtain ⟨d', at', h⟩ := (hmem k).mp hr.1
    rw [(C19_contains_iff_get _ k).2.2.2 _ _ (hget k d' at' h)] at hd
    cases hd
    exact ⟨at', h⟩
  · rintro ⟨at', h⟩
    exact ⟨⟨(hmem k).mpr ⟨d, at', h⟩, fun f hf => by cases hf⟩, (C19_contains_iff_get _ k).2.2.2 _ _ (hget k d at' h)⟩

/-- Loading the datasets whose name starts with "p", in a given order; a missing key that does not match is ignored. -/
example :
    let n : Node Nat Nat := .grp [("px".toList, .dset ⟨1, [], [3]⟩ []), ("py".toList, .dset ⟨1, [], [4]⟩ []), ("v".toList, .dset ⟨1, [], [5]⟩ [])] []
    let pat : Option (Str → Bool) := some (fun k => k.head? == some 'p')
    dsLoad n pat (some ["py".toList, "nope".toList, "px".toList, "py".toList]) = .ok [("py".toList, ⟨1, [], [4]⟩), ("px".toList, ⟨1, [], [3]⟩)] ∧
    dsLoad n pat (some ["pz".toList]) = .error .keyError ∧
    dsLoad n pat none = .ok [("px".toList, ⟨1, [], [3]⟩), ("py".toList, ⟨1, [], [4]⟩)] := ⟨rfl, rfl, rfl⟩

/-! ### C20 -/

theorem attrPut_ne (at' : List (Str × Dset DT E)) (key k : Str) (hk : k ≠ key) (r : PyM (Dset DT E)) :
    attrGet (attrPut at' key r).2 k = attrGet at' k := by
  cases r with
  | ok d => simp only [attrPut, attrGet, PyDict.get?_set_ne _ _ _ _ hk]
  | error e => rfl

/-- C20: `attrs.create`: with 'x' an existing key raises ValueError and nothing changes; a new key is created (on a writable
file, for a value h5py can store), with the value; with 'ac' an existing key is modified; a failing call changes nothing;
other attributes never change. -/
theorem C20_create (env : Env DT E) (at' : List (Str × Dset DT E)) (key : Str) (l : Leaf DT E) (flag : String) :
    (PyDict.get? at' key ≠ none → attrCreate env at' key l "x" = (.error .valueError, at')) ∧
    (PyDict.get? at' key = none → flagOk flag = true → env.writable = true → ∀ d, leafAttr env l = .ok d → env.storeErr d = none →
      (attrCreate env at' key l flag).1 = .ok () ∧ attrGet (attrCreate env at' key l flag).2 key = .ok d) ∧
    (∀ old, PyDict.get? at' key = some old → flag = "ac" ∨ flag = "ca" → env.writable = true → env.Lawful → ∀ d, leafAttr env l = .ok d →
      d.dt = old.dt → d.shape = old.shape →
      (attrCreate env at' key l flag).1 = .ok () ∧ attrGet (attrCreate env at' key l flag).2 key = .ok d) ∧
    (∀ e, (attrCreate env at' key l flag).1 = .error e → (attrCreate env at' key l flag).2 = at') ∧
    (∀ k, k ≠ key → attrGet (attrCreate env at' key l flag).2 k = attrGet at' k) := by
  refine ⟨?_, ?_, ?_, ?_, ?_⟩
  · intro h
    obtain ⟨old, hold⟩ := Option.ne_none_iff_exists'.mp h
    unfold attrCreate; rw [hold]; rfl
  · intro h hf hw d hd hs
    unfold attrCreate
    rw [hf, h]
    simp [attrNew, hw, hd, hs, attrPut, attrGet, PyDict.get?_set_self, bind, Except.bind, pure, Except.pure]
  · intro old h hf hw hl d hd h1 h2
    obtain ⟨f1, f2⟩ := flag_ac hf
    unfold attrCreate
    rw [f1, f2, h]
    have := hl old.dt
    obtain ⟨x, y, z⟩ := d
    obtain ⟨x', y', z'⟩ := old
    simp only at h1 h2 this
    subst h1; subst h2
    simp [attrModify, hw, hd, this, attrPut, attrGet, PyDict.get?_set_self, bind, Except.bind, pure, Except.pure]
  · intro e
    unfold attrCreate
    split
    · intro _; rfl
    · split
      · split
        · intro _; rfl
        · cases attrModify env _ l with
          | ok d => intro h; cases h
          | error e => intro _; rfl
      · cases attrNew env (leafAttr env l) with
        | ok d => intro h; cases h
        | error e => intro _; rfl
  · intro k hk
    unfold attrCreate
    split
    · rfl
    · split
      · split
        · rfl
        · exact attrPut_ne _ _ _ hk _
      · exact attrPut_ne _ _ _ hk _

/-- C20: `attrs[key] = value`: KeyError for a missing key; for an existing one it keeps dtype and shape, and with a value of
the same dtype and shape reading returns the value; a failing call changes nothing; other attributes never change. -/
theorem C20_set (env : Env DT E) (at' : List (Str × Dset DT E)) (key : Str) (l : Leaf DT E) :
    (PyDict.get? at' key = none → attrSet env at' key l = (.error .keyError, at')) ∧
    (∀ old, PyDict.get? at' key = some old →
      (∀ d', attrGet (attrSet env at' key l).2 key = .ok d' → d'.dt = old.dt ∧ d'.shape = old.shape) ∧
      (env.writable = true → env.Lawful → ∀ d, leafAttr env l = .ok d → d.dt = old.dt → d.shape = old.shape →
        (attrSet env at' key l).1 = .ok () ∧ attrGet (attrSet env at' key l).2 key = .ok d)) ∧
    (∀ e, (attrSet env at' key l).1 = .error e → (attrSet env at' key l).2 = at') ∧
    (∀ k, k ≠ key → attrGet (attrSet env at' key l).2 k = attrGet at' k) := by
  refine ⟨?_, ?_, ?_, ?_⟩
  · intro h; unfold attrSet; rw [h]
  · intro old h
    refine ⟨?_, ?_⟩
    · intro d'
      unfold attrSet
      rw [h]
      simp only
      cases hm : attrModify env old l with
      | error e =>
          simp only [attrPut, attrGet, h, Except.ok.injEq]
          rintro rfl; exact ⟨rfl, rfl⟩
      | ok d =>
          simp only [attrPut, attrGet, PyDict.get?_set_self, Except.ok.injEq]
          rintro rfl
          unfold attrModify at hm
          simp only [bind, Except.bind, pure, Except.pure] at hm
          split at hm
          · cases hm
          · split at hm
            · cases hm
            · split at hm
              · cases hm
              · split at hm
                · cases hm; exact ⟨rfl, rfl⟩
                · cases hm
    · intro hw hl d hd h1 h2
      unfold attrSet
      rw [h]
      have := hl old.dt
      obtain ⟨x, y, z⟩ := d
      obtain ⟨x', y', z'⟩ := old
      simp only at h1 h2 this
      subst h1; subst h2
      simp [attrModify, hw, hd, this, attrPut, attrGet, PyDict.get?_set_self, bind, Except.bind, pure, Except.pure]
  · intro e
    unfold attrSet
    split
    · intro _; rfl
    · cases attrModify env _ l with
      | ok d => intro h; cases h
      | error e => intro _; rfl
  · intro k hk
    unfold attrSet
    split
    · rfl
    · exact attrPut_ne _ _ _ hk _

/-- C20: `attrs.create_empty`: an existing key: 'x' raises ValueError, 'ac' succeeds, nothing changes; a new key gets the
given shape and dtype. -/
theorem C20_create_empty (env : Env DT E) (at' : List (Str × Dset DT E)) (key : Str) (shape : List Nat) (dt : DT) (flag : String) :
    (PyDict.get? at' key ≠ none → attrCreateEmpty env at' key shape dt "x" = (.error .valueError, at') ∧
      (flag = "ac" ∨ flag = "ca" → attrCreateEmpty env at' key shape dt flag = (.ok (), at'))) ∧
    (PyDict.get? at' key = none → ∀ u, (attrCreateEmpty env at' key shape dt flag).1 = .ok u →
      ∃ d, attrGet (attrCreateEmpty env at' key shape dt flag).2 key = .ok d ∧ d.dt = dt ∧ d.shape = shape) ∧
    (∀ e, (attrCreateEmpty env at' key shape dt flag).1 = .error e → (attrCreateEmpty env at' key shape dt flag).2 = at') ∧
    (∀ k, k ≠ key → attrGet (attrCreateEmpty env at' key shape dt flag).2 k = attrGet at' k) := by
  refine ⟨?_, ?_, ?_, ?_⟩
  · intro h
    obtain ⟨old, hold⟩ := Option.ne_none_iff_exists'.mp h
    refine ⟨by unfold attrCreateEmpty; rw [hold]; rfl, fun hf => ?_⟩
    obtain ⟨f1, f2⟩ := flag_ac hf
    unfold attrCreateEmpty; rw [hold, f1, f2]; rfl
  · intro h u
    unfold attrCreateEmpty
    split
    · intro h; cases h
    · rw [h]
      simp only
      cases hn : attrNew env (.ok ⟨dt, shape, List.replicate shape.prod (env.zero dt)⟩) with
      | error e => intro h; cases h
      | ok d =>
          intro _
          refine ⟨d, by simp only [attrPut, attrGet, PyDict.get?_set_self], ?_⟩
          unfold attrNew at hn
          simp only [bind, Except.bind, pure, Except.pure] at hn
          split at hn
          · cases hn
          · split at hn
            · cases hn; exact ⟨rfl, rfl⟩
            · cases hn
  · intro e
    unfold attrCreateEmpty
    split
    · intro _; rfl
    · split
      · split
        · intro _; rfl
        · intro _; rfl
      · cases attrNew env _ with
        | ok d => intro h; cases h
        | error e => intro _; rfl
  · intro k hk
    unfold attrCreateEmpty
    split
    · rfl
    · split
      · split <;> rfl
      · exact attrPut_ne _ _ _ hk _

/-- The operations on an attribute manager. -/
inductive AttrOp (DT E : Type) where
  | set (key : Str) (l : Leaf DT E)
  | create (key : Str) (l : Leaf DT E) (flag : String)
  | createEmpty (key : Str) (shape : List Nat) (dt : DT) (flag : String)

/-- Run one operation (an exception leaves the state of the failing call). -/
def AttrOp.run (env : Env DT E) (at' : List (Str × Dset DT E)) : AttrOp DT E → List (Str × Dset DT E)
  | .set k l => (attrSet env at' k l).2
  | .create k l f => (attrCreate env at' k l f).2
  | .createEmpty k s t f => (attrCreateEmpty env at' k s t f).2

/-- The operation may change the value of an existing attribute `k`: only an assignment, or `create` with 'ac'/'ca'. -/
def AttrOp.writes (k : Str) : AttrOp DT E → Prop
  | .set k' _ => k' = k
  | .create k' _ f => k' = k ∧ (f = "ac" ∨ f = "ca")
  | .createEmpty _ _ _ _ => False

theorem attrOp_keeps (env : Env DT E) (at' : List (Str × Dset DT E)) (k : Str) (d : Dset DT E) (h : attrGet at' k = .ok d) (op : AttrOp DT E)
    (hw : ¬ op.writes k) : attrGet (op.run env at') k = .ok d := by
  have hk : PyDict.get? at' k = some d := by
    unfold attrGet at h
    cases hg : PyDict.get? at' k with
    | none => rw [hg] at h; cases h
    | some d' => rw [hg] at h; cases h; rfl
  cases op with
  | set k' l =>
      simp only [AttrOp.writes] at hw
      exact ((C20_set env at' k' l).2.2.2 k (Ne.symm hw)).trans h
  | create k' l f =>
      simp only [AttrOp.writes, not_and] at hw
      by_cases hkk : k' = k
      · subst hkk
        have hf := hw rfl
        by_cases hx : f = "x"
        · subst hx
          simp only [AttrOp.run, (C20_create env at' k' l "x").1 (by rw [hk]; simp)]
          exact h
        · have := (C15_unknown_flag env (.grp [] []) at' k' l [] env.strDT f ⟨hx, fun e => hf (Or.inl e), fun e => hf (Or.inr e)⟩).2.2.2.1
          simp only [AttrOp.run, this]
          exact h
      · exact ((C20_create env at' k' l f).2.2.2.2 k (Ne.symm hkk)).trans h
  | createEmpty k' s t f =>
      by_cases hkk : k' = k
      · subst hkk
        simp only [AttrOp.run]
        by_cases hx : f = "x"
        · subst hx
          rw [((C20_create_empty env at' k' s t "x").1 (by rw [hk]; simp)).1]; exact h
        · by_cases hf : f = "ac" ∨ f = "ca"
          · rw [((C20_create_empty env at' k' s t f).1 (by rw [hk]; simp)).2 hf]; exact h
          · have := (C15_unknown_flag env (.grp [] []) at' k' (.bad : Leaf DT E) s t f ⟨hx, fun e => hf (Or.inl e), fun e => hf (Or.inr e)⟩).2.2.2.2
            rw [this]; exact h
      · exact ((C20_create_empty env at' k' s t f).2.2.2 k (Ne.symm hkk)).trans h

/-- C20: over any sequence of operations, failing or not, an attribute keeps its value as long as no operation assigns to it
or creates it with 'ac'/'ca'. -/
theorem C20_history (env : Env DT E) (ops : List (AttrOp DT E)) (at' : List (Str × Dset DT E)) (k : Str) (d : Dset DT E)
    (h : attrGet at' k = .ok d) (hw : ∀ op ∈ ops, ¬ op.writes k) : attrGet (ops.foldl (AttrOp.run env) at') k = .ok d := by
  induction ops generalizing at' with
  | nil => exact h
  | cons op ops ih =>
      rw [List.foldl_cons]
      exact ih _ (attrOp_keeps env at' k d h op (hw op (by simp))) (fun o ho => hw o (by simp [ho]))

theorem attrDump_aux (env : Env DT E) (hw : env.writable = true) (flag : String) (hf : flagOk flag = true) (kls : List (Str × Leaf DT E)) :
    ∀ (at' : List (Str × Dset DT E)), (PyDict.keys at' ++ kls.map (·.1)).Nodup →
    (∀ p ∈ kls, ∃ d, leafAttr env p.2 = .ok d ∧ env.storeErr d = none) →
    ∃ ds, List.Forall₂ (fun p q => q.1 = p.1 ∧ leafAttr env p.2 = .ok q.2) kls ds ∧ attrDump env flag kls at' = (.ok (), at' ++ ds) := by
  induction kls with
  | nil => intro at' _ _; exact ⟨[], .nil, by simp [attrDump]⟩
  | cons p kls ih =>
      intro at' hn hs
      obtain ⟨k, l⟩ := p
      obtain ⟨d, hd, hst⟩ := hs (k, l) (by simp)
      have hk : k ∉ PyDict.keys at' := by
        rw [List.map_cons, List.nodup_append] at hn
        intro hk
        exact hn.2.2 k hk k (by simp) rfl
      have hg : PyDict.get? at' k = none := (PyDict.get?_eq_none_iff at' k).mpr hk
      have hc : attrCreate env at' k l flag = (.ok (), at' ++ [(k, d)]) := by
        unfold attrCreate
        rw [hf, hg]
        simp only [attrNew, hw, hd, hst, attrPut, bind, Except.bind, pure, Except.pure, Bool.not_true, Bool.false_eq_true, if_false]
        rw [PyDict.set_of_not_mem at' k d hk]
      obtain ⟨ds, h1, h2⟩ := ih (at' ++ [(k, d)]) (by simpa [PyDict.keys] using hn) (fun q hq => hs q (by simp [hq]))
      refine ⟨(k, d) :: ds, .cons ⟨rfl, hd⟩ h1, ?_⟩
      simp only [attrDump, hc, h2, List.append_assoc, List.singleton_append]

/-- C20: `attrs.dump(d)` on an object without attributes, then `attrs.load()`: a dict with exactly the keys of `d`, each
with its value, in increasing order of keys. -/
theorem C20_dump_load (env : Env DT E) (hw : env.writable = true) (flag : String) (hf : flagOk flag = true) (kls : List (Str × Leaf DT E))
    (hn : (kls.map (·.1)).Nodup) (hs : ∀ p ∈ kls, ∃ d, leafAttr env p.2 = .ok d ∧ env.storeErr d = none) :
    ∃ at' m, attrDump env flag kls [] = (.ok (), at') ∧ attrLoad at' none none = .ok m ∧
      (∀ k d, PyDict.get? m k = some d ↔ ∃ l, (k, l) ∈ kls ∧ leafAttr env l = .ok d) ∧ (PyDict.keys m).Pairwise (· < ·) := by
  obtain ⟨ds, h1, h2⟩ := attrDump_aux env hw flag hf kls [] (by simpa using hn) hs
  have hkeys : ds.map (·.1) = kls.map (·.1) := by
    clear h2 hn hs
    induction h1 with
    | nil => rfl
    | cons h _ ih => simp [h.1, ih]
  have hwf : PyDict.WF ds := by unfold PyDict.WF PyDict.keys; rw [hkeys]; exact hn
  have hmem : ∀ k d, (k, d) ∈ ds ↔ ∃ l, (k, l) ∈ kls ∧ leafAttr env l = .ok d := by
    intro k d
    clear h2 hn hs hkeys hwf
    induction h1 with
    | nil => simp
    | @cons p q ps qs h _ ih =>
        obtain ⟨k1, l1⟩ := p
        obtain ⟨k2, d2⟩ := q
        simp only at h
        obtain ⟨rfl, hd⟩ := h
        simp only [List.mem_cons, Prod.mk.injEq, ih]
        constructor
        · rintro (⟨rfl, rfl⟩ | ⟨l, hl, hd'⟩)
          · exact ⟨l1, Or.inl ⟨rfl, rfl⟩, hd⟩
          · exact ⟨l, Or.inr hl, hd'⟩
        · rintro ⟨l, ⟨rfl, rfl⟩ | hl, hd'⟩
          · rw [hd] at hd'; cases hd'; exact Or.inl ⟨rfl, rfl⟩
          · exact Or.inr ⟨l, hl, hd'⟩
  have hget : ∀ k d, PyDict.get? ds k = some d ↔ (k, d) ∈ ds :=
    fun k d => ⟨PyDict.mem_of_get? ds k d, PyDict.get?_of_mem ds hwf k d⟩
  have hall : ∀ k, k ∈ (attrItems ds).map (·.1) ↔ k ∈ PyDict.keys ds := by
    intro k
    exact ((sortNames_perm ds).map (·.1)).mem_iff
  obtain ⟨m, e1, e2, e3⟩ := (C21_attr_load ds none none).2 (fun k hk h => by
    have := (hall k).mp hk.1
    exact (PyDict.get?_eq_none_iff ds k).mp h this)
  refine ⟨ds, m, by simpa using h2, e1, fun k d => ?_, ?_⟩
  · rw [e2, hget, ← hmem]
    refine ⟨fun h => h.2, fun h => ⟨⟨(hall k).mpr ?_, fun f hf => by cases hf⟩, h⟩⟩
    exact List.mem_map.mpr ⟨(k, d), h, rfl⟩
  · rw [e3]
    have hsort : ((attrItems ds).map (·.1)).Pairwise (· < ·) := keys_sorted ds hwf
    have hnd : ((attrItems ds).map (·.1)).Nodup := wf_perm (sortNames_perm ds).symm hwf
    have hfirst : ∀ (l acc : List Str), (acc ++ l).Nodup → l.foldl (fun acc k => if k ∈ acc then acc else acc ++ [k]) acc = acc ++ l := by
      intro l
      induction l with
      | nil => intro acc _; simp
      | cons x l ih =>
          intro acc h
          have hx : x ∉ acc := by
            rw [List.nodup_append] at h
            intro hx
            exact h.2.2 x hx x (by simp) rfl
          rw [List.foldl_cons, if_neg hx, ih _ (by simpa using h)]
          simp
    have : firsts ((attrItems ds).map (·.1)) = (attrItems ds).map (·.1) := by
      have := hfirst _ [] (by simpa using hnd)
      simpa [firsts] using this
    simp only [Option.getD_none, this]
    exact hsort

/-- Attributes: dump, load, modify. -/
example :
    attrDump exEnv "x" [("b".toList, .dat ⟨1, [], [3]⟩), ("a".toList, .str "xyz".toList)] [] =
      (.ok (), [("b".toList, ⟨1, [], [3]⟩), ("a".toList, ⟨7, [], [3]⟩)]) ∧
    attrLoad [("b".toList, (⟨1, [], [3]⟩ : Dset Nat Nat)), ("a".toList, ⟨7, [], [3]⟩)] none none =
      .ok [("a".toList, ⟨7, [], [3]⟩), ("b".toList, ⟨1, [], [3]⟩)] ∧
    attrSet exEnv [("b".toList, ⟨1, [], [3]⟩)] "b".toList (.dat ⟨1, [], [8]⟩) = (.ok (), [("b".toList, ⟨1, [], [8]⟩)]) := ⟨rfl, rfl, rfl⟩

end Pyhipp.H5
