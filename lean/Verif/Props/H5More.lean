import Verif.Props.H5What
/-
More about C13, C19, C20, C23, C24: deletion in files without links, data h5py cannot store, string attributes, broadcasting, attribute text.
-/
namespace Pyhipp.H5
open Pyhipp

variable {DT E : Type}

/-! ### C24: deletion -/

/-- What an object is, apart from its children: a dataset with its contents and attributes, or a group with its attributes. -/
def Node.tag : Node DT E → (Dset DT E × List (Str × Dset DT E)) ⊕ List (Str × Dset DT E)
  | .dset d a => .inl (d, a)
  | .grp _ a => .inr a

theorem lookup_grp (ch : List (Str × Node DT E)) (a : List (Str × Dset DT E)) (k : Str) (ks : List Str) :
    lookup (.grp ch a) (k :: ks) = (PyDict.get? ch k).bind (fun c => lookup c ks) := by
  simp only [lookup]
  cases PyDict.get? ch k <;> rfl

theorem delItem_here (env : Env DT E) (hw : env.writable = true) (ch : List (Str × Node DT E)) (a : List (Str × Dset DT E)) (k : Str) (c : Node DT E)
    (h : PyDict.get? ch k = some c) : delItem env (.grp ch a) [k] = (.ok (), .grp (PyDict.del ch k) a) := by
  have : PyDict.has ch k = true := by
    rw [PyDict.has_iff]
    by_contra hn
    rw [(PyDict.get?_eq_none_iff ch k).mpr hn] at h
    cases h
  simp [delItem, this, hw]

/-- C24: **`del g[path]` in a file without links.** If the path exists (and is not the group itself) the object and everything below it disappear, and every other object
is as before: datasets with contents and attributes, groups with attributes. -/
theorem C24_plain_del (env : Env DT E) (hw : env.writable = true) (p : List Str) (hp : p ≠ []) :
    ∀ (n c : Node DT E), TreeWF n → lookup n p = some c →
      ∃ n', delItem env n p = (.ok (), n') ∧ ∀ q, (lookup n' q).map Node.tag = if p <+: q then none else (lookup n q).map Node.tag := by
  induction p with
  | nil => exact absurd rfl hp
  | cons k ks ih =>
    intro n c wf hl
    cases n with
    | dset d a => simp [lookup] at hl
    | grp ch a =>
      rw [lookup_grp] at hl
      cases hg : PyDict.get? ch k with
      | none => simp [hg] at hl
      | some ck =>
        rw [hg] at hl
        simp only [Option.bind_some] at hl
        have wch : PyDict.WF ch := wf [] ch a rfl
        cases ks with
        | nil =>
          refine ⟨_, delItem_here env hw ch a k ck hg, ?_⟩
          intro q
          cases q with
          | nil => simp [lookup, Node.tag]
          | cons k2 q2 =>
            rw [lookup_grp, lookup_grp, PyDict.get?_del ch k k2 wch]
            by_cases hk : k2 = k
            · subst hk; simp
            · have : ¬ [k] <+: k2 :: q2 := by
                rw [List.cons_prefix_cons]
                exact fun h => hk h.1.symm
              simp [hk, this]
        | cons k' ks' =>
          obtain ⟨c', hc', hq⟩ := ih (by simp) ck c (treeWF_child wf hg) hl
          refine ⟨.grp (PyDict.set ch k c') a, ?_, ?_⟩
          · simp only [delItem, hg, hc']
          · intro q
            cases q with
            | nil => simp [lookup, Node.tag]
            | cons k2 q2 =>
              rw [lookup_grp, lookup_grp]
              by_cases hk : k2 = k
              · subst hk
                rw [PyDict.get?_set_self, hg]
                simp only [Option.bind_some, hq q2, List.cons_prefix_cons, true_and]
              · have : ¬ k :: k' :: ks' <+: k2 :: q2 := by
                  rw [List.cons_prefix_cons]
                  exact fun h => hk h.1.symm
                rw [PyDict.get?_set_ne _ _ _ _ hk, if_neg this]

theorem set_same (ch : List (Str × Node DT E)) (k : Str) (c : Node DT E) (h : PyDict.get? ch k = some c) : PyDict.set ch k c = ch := by
  induction ch with
  | nil => simp at h
  | cons p t ih =>
    obtain ⟨k', v⟩ := p
    simp only [PyDict.get?] at h
    simp only [PyDict.set]
    split at h
    · rename_i hk
      cases h
      subst hk
      simp
    · rename_i hk
      rw [if_neg hk, ih h]

/-- C24: deleting what does not exist, or the group itself, is a KeyError and changes nothing. -/
theorem C24_plain_del_missing (env : Env DT E) (p : List Str) : ∀ n : Node DT E, p = [] ∨ lookup n p = none → delItem env n p = (.error .keyError, n) := by
  induction p with
  | nil => intro n _; cases n <;> rfl
  | cons k ks ih =>
    intro n h
    have h := h.resolve_left (by simp)
    cases n with
    | dset d a => cases ks <;> rfl
    | grp ch a =>
      rw [lookup_grp] at h
      cases hg : PyDict.get? ch k with
      | none =>
        have : PyDict.has ch k = false := by
          rw [Bool.eq_false_iff, ne_eq, PyDict.has_iff]
          exact (PyDict.get?_eq_none_iff ch k).mp hg
        cases ks with
        | nil => simp [delItem, this]
        | cons k' ks' => simp [delItem, hg]
      | some c =>
        rw [hg] at h
        simp only [Option.bind_some] at h
        cases ks with
        | nil => simp [lookup] at h
        | cons k' ks' =>
          simp only [delItem, hg, ih c (Or.inr h)]
          rw [set_same ch k c hg]

/-! ### C19: data that cannot be stored -/

/-- C19: an object without an array form: TypeError, both when a dataset is assigned and when one is created under a free name, and nothing changes. -/
theorem C19_unsupported (env : Env DT E) (hw : env.writable = true) (n : Node DT E) (key : Str) :
    (∀ old a, lookup n (pathOf key) = some (.dset old a) → (dsSet env n key .bad).1 = .error .typeError) ∧
    (∀ ch a k, n = .grp ch a → pathOf key = [k] → PyDict.get? ch k = none → ∀ flag, flagOk flag = true →
      dsCreate env n key .bad flag = (.error .typeError, n)) := by
  constructor
  · intro old a hl
    have hc : dsContains n key = true := by unfold dsContains; rw [hl]
    have hs : dsSet env n key .bad = modifyAt (assign env .bad) n (pathOf key) := by unfold dsSet; rw [hc]; rfl
    rw [hs, (modifyAt_at (assign env .bad) (pathOf key) n _ hl).1]
    simp [assign, hw, leafDset, bind, Except.bind]
  · rintro ch a k rfl hk hg flag hf
    have hcn : contains (.grp ch a) (pathOf key) = false := by
      unfold contains
      rw [hk, lookup_grp, hg]
      rfl
    unfold dsCreate
    rw [hf, hcn, hk]
    simp [rawCreateDataset, hw, newDset, leafDset, bind, Except.bind]

/-! ### C20: string attributes -/

/-- C20: a string stored as an attribute is read back as the text (not as the bytes a string dataset gives). -/
theorem C20_string (env : Env DT E) (hw : env.writable = true) (at' : List (Str × Dset DT E)) (key s : Str) (flag : String) (hf : flagOk flag = true)
    (hk : PyDict.get? at' key = none) (hs : env.storeErr ⟨env.strDT, [], [env.strOf s]⟩ = none) :
    ∃ at'', attrCreate env at' key (.str s) flag = (.ok (), at'') ∧ attrGet at'' key = .ok ⟨env.strDT, [], [env.strOf s]⟩ := by
  have h := (C20_create env at' key (.str s) flag).2.1 hk hf hw ⟨env.strDT, [], [env.strOf s]⟩ rfl hs
  exact ⟨_, Prod.ext h.1 rfl, h.2⟩

/-! ### C13: broadcasting -/

/-- Shapes that `dset[...] = data` accepts, counted from the last dimension: equal, or 1 in the data; dimensions the dataset does not have must be at most 1. -/
def Fits (src tgt : List Nat) : Prop :=
  ∀ (i s : Nat), src.reverse[i]? = some s → match tgt.reverse[i]? with
    | some t => s = 1 ∨ s = t
    | none => s ≤ 1

/-- C13: **which shapes can be written over a dataset.** -/
theorem C13_shapes (env : Env DT E) (old d : Dset DT E) (f : E → E) (hc : env.cast d.dt old.dt = some f) :
    (Fits d.shape old.shape → ∃ d', overwrite env old d = .ok d' ∧ d'.shape = old.shape ∧ d'.dt = old.dt) ∧
    (¬ Fits d.shape old.shape → overwrite env old d = .error .typeError) := by
  have key : Fits d.shape old.shape ↔ (matchShape d.shape old.shape).isSome := by
    generalize d.shape = src
    generalize old.shape = tgt
    unfold matchShape
    simp only
    have hz : ∀ P : Nat × Nat → Bool, ((List.replicate (tgt.length - src.length) 1 ++ src.drop (src.length - tgt.length)).zip tgt).all P = true ↔
        ∀ (i : Nat) (h : i < tgt.length), P (if h2 : i < src.length then src[src.length - 1 - i] else 1, tgt[tgt.length - 1 - i]) = true := by
      intro P
      rw [List.all_eq_true]
      have hlen : (List.replicate (tgt.length - src.length) 1 ++ src.drop (src.length - tgt.length)).length = tgt.length := by
        simp only [List.length_append, List.length_replicate, List.length_drop]
        omega
      have hget : ∀ (j : Nat) (h : j < tgt.length), (List.replicate (tgt.length - src.length) 1 ++ src.drop (src.length - tgt.length))[j]'(by omega) =
          if h2 : tgt.length - 1 - j < src.length then src[src.length - 1 - (tgt.length - 1 - j)] else 1 := by
        intro j h
        rw [List.getElem_append]
        simp only [List.length_replicate]
        split
        · rw [dif_neg (by omega), List.getElem_replicate]
        · rw [dif_pos (by omega), List.getElem_drop]
          congr 1
          omega
      constructor
      · intro h i hi
        have := h _ (List.getElem_mem (l := (List.replicate (tgt.length - src.length) 1 ++ src.drop (src.length - tgt.length)).zip tgt) (n := tgt.length - 1 - i)
          (by rw [List.length_zip, hlen]; omega))
        rw [List.getElem_zip, hget _ (by omega)] at this
        have e : tgt.length - 1 - (tgt.length - 1 - i) = i := by omega
        simp only [e] at this
        exact this
      · intro h x hx
        obtain ⟨j, hj, rfl⟩ := List.getElem_of_mem hx
        have hj' : j < tgt.length := by rw [List.length_zip, hlen] at hj; omega
        rw [List.getElem_zip, hget _ hj']
        have := h (tgt.length - 1 - j) (by omega)
        have e : tgt.length - 1 - (tgt.length - 1 - j) = j := by omega
        simp only [e] at this
        exact this
    have hx : (src.take (src.length - tgt.length)).all (fun n => decide (n ≤ 1)) = true ↔
        ∀ (i : Nat) (h : i < src.length), tgt.length ≤ i → src[src.length - 1 - i] ≤ 1 := by
      rw [List.all_eq_true]
      constructor
      · intro h i hi ht
        have := h (src[src.length - 1 - i]) (by
          rw [List.mem_take_iff_getElem]
          exact ⟨src.length - 1 - i, by omega, rfl⟩)
        simpa using this
      · intro h x hx
        rw [List.mem_take_iff_getElem] at hx
        obtain ⟨j, hj, rfl⟩ := hx
        have := h (src.length - 1 - j) (by omega) (by omega)
        have e : src.length - 1 - (src.length - 1 - j) = j := by omega
        simp only [e] at this
        simpa using this
    have hF : Fits src tgt ↔ (∀ (i : Nat) (h : i < src.length), tgt.length ≤ i → src[src.length - 1 - i] ≤ 1) ∧
        ∀ (i : Nat) (h : i < src.length) (h' : i < tgt.length), src[src.length - 1 - i] = 1 ∨ src[src.length - 1 - i] = tgt[tgt.length - 1 - i] := by
      unfold Fits
      constructor
      · intro h
        refine ⟨fun i hi ht => ?_, fun i hi ht => ?_⟩
        · have := h i _ (List.getElem?_eq_getElem (by simpa using hi))
          rw [List.getElem?_eq_none (by simpa using ht)] at this
          simpa using this
        · have := h i _ (List.getElem?_eq_getElem (by simpa using hi))
          rw [List.getElem?_eq_getElem (by simpa using ht)] at this
          simpa using this
      · rintro ⟨h1, h2⟩ i s hs
        obtain ⟨hi, rfl⟩ := List.getElem?_eq_some_iff.mp hs
        have hi' : i < src.length := by simpa using hi
        by_cases ht : i < tgt.length
        · rw [List.getElem?_eq_getElem (by simpa using ht)]
          simpa using h2 i hi' ht
        · rw [List.getElem?_eq_none (by simpa using ht)]
          simpa using h1 i hi' (by omega)
    rw [hF]
    have hz' := hz (fun p => decide (p.1 = 1 ∨ p.1 = p.2))
    have e2 : (∀ (i : Nat) (h : i < src.length) (h' : i < tgt.length), src[src.length - 1 - i] = 1 ∨ src[src.length - 1 - i] = tgt[tgt.length - 1 - i]) ↔
        ((List.replicate (tgt.length - src.length) 1 ++ src.drop (src.length - tgt.length)).zip tgt).all (fun p => decide (p.1 = 1 ∨ p.1 = p.2)) = true := by
      rw [hz']
      constructor
      · intro h i hi
        by_cases h2 : i < src.length
        · simpa [h2] using h i h2 hi
        · simp [h2]
      · intro h i h2 hi
        simpa [h2] using h i hi
    rw [e2, ← hx]
    generalize (src.take (src.length - tgt.length)).all (fun n => decide (n ≤ 1)) = A
    generalize ((List.replicate (tgt.length - src.length) 1 ++ src.drop (src.length - tgt.length)).zip tgt).all (fun p => decide (p.1 = 1 ∨ p.1 = p.2)) = B
    cases A <;> cases B <;> simp
  unfold overwrite
  rw [hc]
  simp only
  constructor
  · intro h
    obtain ⟨ps, hps⟩ := Option.isSome_iff_exists.mp (key.mp h)
    rw [hps]
    exact ⟨_, rfl, rfl, rfl⟩
  · intro h
    have : matchShape d.shape old.shape = none := by
      cases hm : matchShape d.shape old.shape with
      | none => rfl
      | some ps => exact absurd (key.mpr (by rw [hm]; rfl)) h
    rw [this]

/-! ### C23: the attributes in the listing -/

/-- C23: the attributes are shown in brackets as name=value in the order of names, separated by a comma and a space; nothing is shown if there are none. -/
theorem C23_attrs (fmt : Fmt DT E) (at' : List (Str × Dset DT E)) :
    attrWhat fmt at' = if at' = [] then [] else
      "[".toList ++ (", ".toList).intercalate ((sortNames at').map (fun p => p.1 ++ "=".toList ++ fmt.attr p.2)) ++ "]".toList := by
  have hj : ∀ l : List Str, commaJoin l = (", ".toList).intercalate l := by
    intro l
    induction l with
    | nil => rfl
    | cons a t ih =>
      cases t with
      | nil => simp [commaJoin, List.intercalate]
      | cons b t => rw [commaJoin, ih]; simp [List.intercalate, List.intersperse]
  unfold attrWhat attrItems
  rw [hj]
  cases at' <;> simp

/-! ### Concrete cases -/

example : delItem exEnv (.grp [("a".toList, .grp [("x".toList, .dset ⟨1, [], [3]⟩ []), ("y".toList, .dset ⟨1, [], [4]⟩ [])] []), ("b".toList, .dset ⟨1, [], [5]⟩ [])] []) ["a".toList, "x".toList] =
    (.ok (), .grp [("a".toList, .grp [("y".toList, .dset ⟨1, [], [4]⟩ [])] []), ("b".toList, .dset ⟨1, [], [5]⟩ [])] []) := rfl

example : Fits [1, 2] [3, 2] ∧ Fits [2] [3, 2] ∧ ¬ Fits [2, 1] [1] := by
  refine ⟨?_, ?_, ?_⟩
  · intro i s h
    match i with
    | 0 => simp at h; subst h; simp
    | 1 => simp at h; subst h; simp
    | i + 2 => simp at h
  · intro i s h
    match i with
    | 0 => simp at h; subst h; simp
    | i + 1 => simp at h
  · intro h
    have := h 1 2 rfl
    simp at this

end Pyhipp.H5
