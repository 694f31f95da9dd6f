import Verif.Model.H5
import Mathlib.Data.List.Basic
/-
C10-C16, C19-C21: HDF5 groups, dump and load.
-/
namespace Pyhipp.H5
open Pyhipp

variable {DT E : Type}

/-- A name of one object: not empty, no slash. -/
def IsName (k : Str) : Prop := k ≠ [] ∧ '/' ∉ k

theorem pathOf_name {k : Str} (h : IsName k) : pathOf k = [k] := Str.comps_nosep '/' k h.2 h.1

/-! ### Looking things up -/

/-- Specification: the value under a path of names in the data. -/
def Val.at : Val DT E → List Str → Option (Val DT E)
  | v, [] => some v
  | .leaf _, _ :: _ => none
  | .map kvs, k :: ks => match kvs.find? (fun p => match p.1 with | .str s => decide (s = k) | .other => false) with
      | some p => Val.at p.2 ks
      | none => none

/-- Specification: the value under a path of names in what was loaded. -/
def LVal.at : LVal DT E → List Str → Option (LVal DT E)
  | v, [] => some v
  | .dat _, _ :: _ => none
  | .map kvs, k :: ks => match PyDict.get? kvs k with
      | some v => LVal.at v ks
      | none => none

/-- The string keys of a mapping. -/
def names : List (KeyObj × Val DT E) → List Str
  | [] => []
  | (.str k, _) :: rest => k :: names rest
  | (.other, _) :: rest => names rest

theorem mem_names (kvs : List (KeyObj × Val DT E)) (k : Str) : k ∈ names kvs ↔ ∃ v, (KeyObj.str k, v) ∈ kvs := by
  induction kvs with
  | nil => simp [names]
  | cons p rest ih =>
      obtain ⟨ko, v⟩ := p
      cases ko with
      | other =>
          simp only [names, ih, List.mem_cons, Prod.mk.injEq, reduceCtorEq, false_and, false_or]
      | str s =>
          simp only [names, ih, List.mem_cons, Prod.mk.injEq, KeyObj.str.injEq]
          constructor
          · rintro (rfl | ⟨w, hw⟩)
            · exact ⟨v, Or.inl ⟨rfl, rfl⟩⟩
            · exact ⟨w, Or.inr hw⟩
          · rintro ⟨w, ⟨rfl, rfl⟩ | hw⟩
            · exact Or.inl rfl
            · exact Or.inr ⟨w, hw⟩

mutual
/-- Every mapping in the data has distinct str keys that are names, and every leaf satisfies `P`. -/
def Good (P : Leaf DT E → Prop) : Val DT E → Prop
  | .leaf l => P l
  | .map kvs => GoodItems P kvs
/-- The same for the entries of a mapping. -/
def GoodItems (P : Leaf DT E → Prop) : List (KeyObj × Val DT E) → Prop
  | [] => True
  | (.other, _) :: _ => False
  | (.str k, v) :: rest => IsName k ∧ k ∉ names rest ∧ Good P v ∧ GoodItems P rest
end

/-- The leaf can be stored by h5py as a new dataset. -/
def Storable (env : Env DT E) (l : Leaf DT E) : Prop := ∃ d, newDset env l = .ok d

theorem storable_leafOk {env : Env DT E} {l : Leaf DT E} (h : Storable env l) : leafOk l = true := by
  obtain ⟨d, hd⟩ := h
  cases l with
  | bad => cases hd
  | str s => rfl
  | dat d => rfl

/-! ### C10 -/

/-- Specification: the array of a leaf (a str as its bytes). -/
def leafVal (env : Env DT E) : Leaf DT E → Option (Dset DT E)
  | .str s => some ⟨env.strDT, [], [env.bytesOf s]⟩
  | .dat d => some d
  | .bad => none

theorem newDset_val {env : Env DT E} {l : Leaf DT E} {d : Dset DT E} (h : newDset env l = .ok d) : leafVal env l = some d := by
  unfold newDset at h
  cases l with
  | bad => cases h
  | str s =>
      simp only [leafDset, bind, Except.bind, pure, Except.pure] at h
      split at h
      · cases h; rfl
      · cases h
  | dat d' =>
      simp only [leafDset, bind, Except.bind, pure, Except.pure] at h
      split at h
      · cases h; rfl
      · cases h

/-- The object made of a leaf. -/
def buildLeaf (env : Env DT E) (l : Leaf DT E) : Node DT E :=
  match newDset env l with
  | .ok d => .dset d []
  | .error _ => .grp [] []

mutual
/-- The subtree that represents the data. -/
def build (env : Env DT E) : Val DT E → Node DT E
  | .leaf l => buildLeaf env l
  | .map kvs => .grp (buildItems env kvs) []
/-- The same for the entries of a mapping. -/
def buildItems (env : Env DT E) : List (KeyObj × Val DT E) → List (Str × Node DT E)
  | [] => []
  | (.other, _) :: rest => buildItems env rest
  | (.str k, v) :: rest => (k, build env v) :: buildItems env rest
end

theorem keys_buildItems (env : Env DT E) (kvs : List (KeyObj × Val DT E)) : PyDict.keys (buildItems env kvs) = names kvs := by
  induction kvs with
  | nil => simp [buildItems, names, PyDict.keys]
  | cons p rest ih =>
      obtain ⟨ko, v⟩ := p
      cases ko with
      | other => simpa [buildItems, names] using ih
      | str s => simp only [buildItems, names, PyDict.keys, List.map_cons] at ih ⊢; rw [ih]

theorem lookup_single (ch : List (Str × Node DT E)) (a : List (Str × Dset DT E)) (k : Str) :
    lookup (.grp ch a) [k] = PyDict.get? ch k := by
  simp only [lookup]
  cases PyDict.get? ch k <;> simp [lookup]

theorem contains_single (ch : List (Str × Node DT E)) (a : List (Str × Dset DT E)) (k : Str) :
    contains (.grp ch a) [k] = PyDict.has ch k := by
  unfold contains PyDict.has
  rw [lookup_single]

theorem scanItems_good {P : Leaf DT E → Prop} (hP : ∀ l, P l → leafOk l = true) (kvs : List (KeyObj × Val DT E)) (h : GoodItems P kvs) :
    scanItems kvs = true := by
  match kvs with
  | [] => simp [scanItems]
  | (.other, _) :: _ => simp [GoodItems] at h
  | (.str k, .leaf l) :: rest =>
      simp only [GoodItems, Good] at h
      simp [scanItems, hP l h.2.2.1, scanItems_good hP rest h.2.2.2]
  | (.str k, .map kvs') :: rest =>
      simp only [GoodItems, Good] at h
      simp [scanItems, scan, scanItems_good hP kvs' h.2.2.1, scanItems_good hP rest h.2.2.2]

theorem dumpItems_build (env : Env DT E) (hw : env.writable = true) (flag : String) (hf : flagOk flag = true)
    (kvs : List (KeyObj × Val DT E)) (hg : GoodItems (Storable env) kvs) (ch : List (Str × Node DT E)) (a : List (Str × Dset DT E))
    (hd : ∀ k ∈ names kvs, k ∉ PyDict.keys ch) :
    dumpItems env flag kvs (.grp ch a) = (.ok (), .grp (ch ++ buildItems env kvs) a) := by
  match kvs with
  | [] => simp [dumpItems, buildItems]
  | (.other, _) :: _ => simp [GoodItems] at hg
  | (.str k, .leaf l) :: rest =>
      simp only [GoodItems, Good] at hg
      obtain ⟨hk, hkr, ⟨d, hl⟩, hr⟩ := hg
      have hkc : k ∉ PyDict.keys ch := hd k (by simp [names])
      have hh : PyDict.has ch k = false := by
        cases h : PyDict.has ch k with
        | false => rfl
        | true => exact absurd ((PyDict.has_iff ch k).mp h) hkc
      have h1 : dsCreate env (.grp ch a) k l flag = (.ok (), .grp (ch ++ [(k, .dset d [])]) a) := by
        unfold dsCreate
        rw [pathOf_name hk, contains_single, hh]
        simp [hf, rawCreateDataset, hw, hl, hh, PyDict.set_of_not_mem _ _ _ hkc]
      have hb : buildLeaf env l = .dset d [] := by unfold buildLeaf; rw [hl]
      rw [dumpItems, h1]
      simp only
      rw [dumpItems_build env hw flag hf rest hr (ch ++ [(k, Node.dset d [])]) a (by
        intro k' hk'
        have h1 := hd k' (by simp [names, hk'])
        simp only [PyDict.keys, List.map_append, List.map_cons, List.map_nil, List.mem_append, List.mem_singleton, not_or] at h1 ⊢
        exact ⟨h1, fun e => hkr (e ▸ hk')⟩)]
      simp [buildItems, build, hb]
  | (.str k, .map kvs') :: rest =>
      simp only [GoodItems, Good] at hg
      obtain ⟨hk, hkr, hv, hr⟩ := hg
      have hkc : k ∉ PyDict.keys ch := hd k (by simp [names])
      have hh : PyDict.has ch k = false := by
        cases h : PyDict.has ch k with
        | false => rfl
        | true => exact absurd ((PyDict.has_iff ch k).mp h) hkc
      have hgn : PyDict.get? ch k = none := (PyDict.get?_eq_none_iff ch k).mpr hkc
      have h1 : createGroup env (.grp ch a) k flag = (.ok (), .grp (ch ++ [(k, .grp [] [])]) a) := by
        unfold createGroup
        rw [pathOf_name hk, contains_single, hh]
        simp [hf, rawCreateGroup, hw, hgn, PyDict.set_of_not_mem _ _ _ hkc]
      have hsub := dumpItems_build env hw flag hf kvs' hv [] [] (by intro k' _; simp [PyDict.keys])
      have h2 : modifyAt (dump env flag (.map kvs')) (.grp (ch ++ [(k, .grp [] [])]) a) [k] =
          (.ok (), .grp (ch ++ [(k, build env (.map kvs'))]) a) := by
        have hget : PyDict.get? (ch ++ [(k, (.grp [] [] : Node DT E))]) k = some (.grp [] []) := by
          rw [PyDict.get?_append, hgn]; simp [PyDict.get?]
        have hset : PyDict.set (ch ++ [(k, (.grp [] [] : Node DT E))]) k (build env (.map kvs')) = ch ++ [(k, build env (.map kvs'))] := by
          rw [← PyDict.set_of_not_mem ch k _ hkc, PyDict.set_set, PyDict.set_of_not_mem _ _ _ hkc]
        simp only [modifyAt, hget, dump, scanItems_good (fun l hl => storable_leafOk hl) kvs' hv, if_true, hsub, List.nil_append]
        rw [build] at hset
        rw [hset, build]
      rw [dumpItems, h1, pathOf_name hk]
      simp only [h2]
      rw [dumpItems_build env hw flag hf rest hr _ a (by
        intro k' hk'
        have h1 := hd k' (by simp [names, hk'])
        simp only [PyDict.keys, List.map_append, List.map_cons, List.map_nil, List.mem_append, List.mem_singleton, not_or] at h1 ⊢
        exact ⟨h1, fun e => hkr (e ▸ hk')⟩)]
      simp [buildItems]

theorem sortNames_perm {β : Type} (l : List (Str × β)) : (sortNames l).Perm l := List.perm_insertionSort _ _

theorem wf_perm {β : Type} {l l' : List (Str × β)} (hp : l.Perm l') (hwf : PyDict.WF l) : PyDict.WF l' := by
  unfold PyDict.WF PyDict.keys at *
  exact (hp.map (fun p => p.1)).nodup_iff.mp hwf

theorem get?_perm {β : Type} {l l' : List (Str × β)} (hp : l.Perm l') (hwf : PyDict.WF l) (k : Str) :
    PyDict.get? l' k = PyDict.get? l k := by
  have hwf' : PyDict.WF l' := wf_perm hp hwf
  cases h : PyDict.get? l k with
  | none =>
      rw [PyDict.get?_eq_none_iff] at h ⊢
      exact fun hk => h ((hp.map (fun p => p.1)).mem_iff.mpr hk)
  | some v => exact PyDict.get?_of_mem l' hwf' k v (hp.mem_iff.mp (PyDict.mem_of_get? l k v h))

theorem get?_sortNames {β : Type} (l : List (Str × β)) (hwf : PyDict.WF l) (k : Str) :
    PyDict.get? (sortNames l) k = PyDict.get? l k := get?_perm (sortNames_perm l).symm hwf k

theorem loadItems_map (ch : List (Str × Node DT E)) : loadItems ch = ch.map (fun p => (p.1, load p.2)) := by
  induction ch with
  | nil => simp [loadItems]
  | cons p rest ih => obtain ⟨k, n⟩ := p; simp [loadItems, ih]

theorem names_nodup {P : Leaf DT E → Prop} : (kvs : List (KeyObj × Val DT E)) → GoodItems P kvs → (names kvs).Nodup
  | [], _ => by simp [names]
  | (.other, _) :: _, h => by simp [GoodItems] at h
  | (.str k, v) :: rest, h => by
      simp only [GoodItems] at h
      simp only [names, List.nodup_cons]
      exact ⟨h.2.1, names_nodup rest h.2.2.2⟩

theorem get?_buildItems (env : Env DT E) (kvs : List (KeyObj × Val DT E)) (k : Str) :
    PyDict.get? (buildItems env kvs) k =
      (kvs.find? (fun p => match p.1 with | .str s => decide (s = k) | .other => false)).map (fun p => build env p.2) := by
  induction kvs with
  | nil => simp [buildItems, PyDict.get?]
  | cons p rest ih =>
      obtain ⟨ko, v⟩ := p
      cases ko with
      | other => simp [buildItems, ih]
      | str s =>
          by_cases h : s = k
          · subst h; simp [buildItems, PyDict.get?]
          · simp [buildItems, PyDict.get?, h, ih]

theorem goodItems_find {P : Leaf DT E → Prop} : (kvs : List (KeyObj × Val DT E)) → GoodItems P kvs → ∀ p ∈ kvs, Good P p.2
  | [], _, p, hp => by simp at hp
  | (.other, _) :: _, h, _, _ => by simp [GoodItems] at h
  | (.str k, v) :: rest, h, p, hp => by
      simp only [GoodItems] at h
      rcases List.mem_cons.mp hp with rfl | hp
      · exact h.2.2.1
      · exact goodItems_find rest h.2.2.2 p hp

/-- What loading a leaf of the data back must give. -/
def IsLoaded (env : Env DT E) : Val DT E → LVal DT E → Prop
  | .leaf l, .dat d => leafVal env l = some d
  | .map kvs, .map lvs => (∀ k, k ∈ PyDict.keys lvs ↔ k ∈ names kvs) ∧ (PyDict.keys lvs).Pairwise (· < ·)
  | _, _ => False

theorem keys_sorted {β : Type} (l : List (Str × β)) (hwf : PyDict.WF l) : (PyDict.keys (sortNames l)).Pairwise (· < ·) := by
  have h1 : (sortNames l).Pairwise (fun a b => a.1 ≤ b.1) := by
    haveI : Std.Total (fun a b : Str × β => a.1 ≤ b.1) := ⟨fun a b => List.le_total a.1 b.1⟩
    haveI : IsTrans (Str × β) (fun a b => a.1 ≤ b.1) := ⟨fun a b c h1 h2 => List.le_trans h1 h2⟩
    exact List.pairwise_insertionSort _ l
  have h2 : (PyDict.keys (sortNames l)).Nodup := wf_perm (sortNames_perm l).symm hwf
  unfold PyDict.keys at h2 ⊢
  rw [List.pairwise_map]
  have h3 : (sortNames l).Pairwise (fun a b => a.1 ≠ b.1) := by
    rw [List.Nodup, List.pairwise_map] at h2; exact h2
  refine (h1.and h3).imp ?_
  rintro a b ⟨hle, hne⟩
  exact (List.le_iff_lt_or_eq.mp hle).resolve_right hne

theorem load_build_at (env : Env DT E) (p : List Str) : ∀ v : Val DT E, Good (Storable env) v →
    (∀ x, Val.at v p = some x → ∃ y, LVal.at (load (build env v)) p = some y ∧ IsLoaded env x y) ∧
    (Val.at v p = none → LVal.at (load (build env v)) p = none) := by
  induction p with
  | nil =>
      intro v hv
      refine ⟨?_, by simp [Val.at]⟩
      intro x hx
      simp only [Val.at, Option.some.injEq] at hx
      subst hx
      refine ⟨_, rfl, ?_⟩
      cases v with
      | leaf l =>
          obtain ⟨d, hd⟩ := (show Storable env l by simpa [Good] using hv)
          have : build env (.leaf l) = .dset d [] := by rw [build, buildLeaf, hd]
          rw [this, load]
          exact newDset_val hd
      | map kvs =>
          have hg : GoodItems (Storable env) kvs := by simpa [Good] using hv
          rw [build, load, loadItems_map]
          have hwf : PyDict.WF ((buildItems env kvs).map (fun p => (p.1, load p.2))) := by
            unfold PyDict.WF
            rw [PyDict.keys_map load, keys_buildItems]
            exact names_nodup kvs hg
          refine ⟨?_, keys_sorted _ hwf⟩
          intro k
          rw [← keys_buildItems env kvs, ← PyDict.keys_map load]
          exact ((sortNames_perm _).map (fun p => p.1)).mem_iff
  | cons k ks ih =>
      intro v hv
      cases v with
      | leaf l =>
          obtain ⟨d, hd⟩ := (show Storable env l by simpa [Good] using hv)
          have : build env (.leaf l) = .dset d [] := by rw [build, buildLeaf, hd]
          rw [this, load]
          simp [Val.at, LVal.at]
      | map kvs =>
          have hg : GoodItems (Storable env) kvs := by simpa [Good] using hv
          rw [build, load, loadItems_map]
          have hwf : PyDict.WF ((buildItems env kvs).map (fun p => (p.1, load p.2))) := by
            unfold PyDict.WF
            rw [PyDict.keys_map load, keys_buildItems]
            exact names_nodup kvs hg
          simp only [Val.at, LVal.at, get?_sortNames _ hwf, PyDict.get?_map load, get?_buildItems]
          cases hfind : kvs.find? (fun p => match p.1 with | .str s => decide (s = k) | .other => false) with
          | none => simp
          | some q =>
              have hq : Good (Storable env) q.2 := goodItems_find kvs hg q (List.mem_of_find?_eq_some hfind)
              simpa using ih q.2 hq

/-- C10: dumping a nested mapping (distinct slash-free names, leaves h5py can store) into an empty group
succeeds with each of the flags, and loading the group gives, at every path of names and no other, the
same thing: a mapping with the same keys (now in increasing order), or the array that was dumped (a
str as its bytes). -/
theorem C10_round_trip (env : Env DT E) (hw : env.writable = true) (flag : String) (hf : flagOk flag = true)
    (kvs : List (KeyObj × Val DT E)) (hg : GoodItems (Storable env) kvs) (a : List (Str × Dset DT E)) :
    ∃ n', dump env flag (.map kvs) (.grp [] a) = (.ok (), n') ∧
      ∀ p, (∀ x, Val.at (.map kvs) p = some x → ∃ y, LVal.at (load n') p = some y ∧ IsLoaded env x y) ∧
        (Val.at (.map kvs) p = none → LVal.at (load n') p = none) := by
  refine ⟨.grp (buildItems env kvs) a, ?_, ?_⟩
  · rw [dump, scanItems_good (fun l hl => storable_leafOk hl) kvs hg, if_pos rfl,
      dumpItems_build env hw flag hf kvs hg [] a (by intro k _; simp [PyDict.keys]), List.nil_append]
  · intro p
    have := load_build_at env p (.map kvs) (by simpa [Good] using hg)
    rw [build, load] at this
    rw [load]
    exact this

/-- A library for the examples: arrays of numbers, strings stored as their length, everything storable. -/
def exEnv : Env Nat Nat := ⟨true, 7, fun s => s.length, fun s => s.length, fun _ => 0, fun d => if d.dt = 9 then some .typeError else none,
  fun a b => if a = b then some id else none⟩

/-- The hypotheses of C10 are met by a nested mapping with an array, a str and a sub-mapping. -/
example : GoodItems (Storable exEnv) [(.str "b".toList, .leaf (.dat ⟨1, [2], [5, 6]⟩)),
      (.str "a".toList, .map [(.str "s".toList, .leaf (.str "xyz".toList))])] ∧
    load (dump exEnv "x" (.map [(.str "b".toList, .leaf (.dat ⟨1, [2], [5, 6]⟩)),
      (.str "a".toList, .map [(.str "s".toList, .leaf (.str "xyz".toList))])]) (.grp [] [])).2 =
      .map [("a".toList, .map [("s".toList, .dat ⟨7, [], [3]⟩)]), ("b".toList, .dat ⟨1, [2], [5, 6]⟩)] := by
  constructor
  · simp only [GoodItems, Good, names, Storable, IsName]
    exact ⟨by decide, by decide, ⟨_, rfl⟩, by decide, by decide, ⟨by decide, by decide, ⟨_, rfl⟩, trivial⟩, trivial⟩
  · rfl

/-! ### C11 -/

/-- Specification: the mapping `v'` occurs in the data `v`. -/
inductive Sub : Val DT E → Val DT E → Prop where
  | refl (v) : Sub v v
  | item (kvs : List (KeyObj × Val DT E)) (k : KeyObj) (v v' : Val DT E) : (k, v) ∈ kvs → Sub v v' → Sub (.map kvs) v'

/-- Specification: somewhere in the data there is a key that is not a str, or a leaf that is neither str, bytes,
ndarray nor scalar. -/
def Offending (v : Val DT E) : Prop :=
  ∃ kvs k x, Sub v (.map kvs) ∧ (k, x) ∈ kvs ∧ (k = .other ∨ x = .leaf .bad)

theorem offending_cons (k : Str) (v : Val DT E) (rest : List (KeyObj × Val DT E)) :
    Offending (.map ((.str k, v) :: rest)) ↔ v = .leaf .bad ∨ Offending v ∨ Offending (.map rest) := by
  constructor
  · rintro ⟨kvs, k', x, hs, hm, ho⟩
    cases hs with
    | refl =>
        rcases List.mem_cons.mp hm with h | h
        · obtain ⟨rfl, rfl⟩ := Prod.mk.inj h
          rcases ho with ho | ho
          · cases ho
          · exact Or.inl ho
        · exact Or.inr (Or.inr ⟨rest, k', x, .refl _, h, ho⟩)
    | item _ k'' v'' _ hm' hs' =>
        rcases List.mem_cons.mp hm' with h | h
        · obtain ⟨rfl, rfl⟩ := Prod.mk.inj h
          exact Or.inr (Or.inl ⟨kvs, k', x, hs', hm, ho⟩)
        · exact Or.inr (Or.inr ⟨kvs, k', x, .item _ _ _ _ h hs', hm, ho⟩)
  · rintro (rfl | ⟨kvs, k', x, hs, hm, ho⟩ | ⟨kvs, k', x, hs, hm, ho⟩)
    · exact ⟨_, .str k, .leaf .bad, .refl _, by simp, Or.inr rfl⟩
    · exact ⟨kvs, k', x, .item _ (.str k) _ _ (by simp) hs, hm, ho⟩
    · cases hs with
      | refl => exact ⟨_, k', x, .refl _, List.mem_cons_of_mem _ hm, ho⟩
      | item _ k'' v'' _ hm' hs' => exact ⟨kvs, k', x, .item _ _ _ _ (List.mem_cons_of_mem _ hm') hs', hm, ho⟩

theorem scanItems_iff (kvs : List (KeyObj × Val DT E)) : scanItems kvs = true ↔ ¬ Offending (.map kvs) := by
  match kvs with
  | [] =>
      simp only [scanItems, true_iff]
      rintro ⟨kvs, k, x, hs, hm, _⟩
      cases hs with
      | refl => simp at hm
      | item _ _ _ _ h _ => simp at h
  | (.other, v) :: rest =>
      simp only [scanItems, Bool.false_eq_true, false_iff, not_not]
      exact ⟨_, .other, v, .refl _, by simp, Or.inl rfl⟩
  | (.str k, .leaf l) :: rest =>
      rw [offending_cons]
      have hl : ¬ Offending (.leaf l : Val DT E) := by rintro ⟨_, _, _, hs, _, _⟩; cases hs
      simp only [scanItems, Bool.and_eq_true, scanItems_iff rest]
      cases l with
      | bad => simp [leafOk]
      | str s => simp [leafOk, hl]
      | dat d => simp [leafOk, hl]
  | (.str k, .map kvs') :: rest =>
      rw [offending_cons]
      simp only [scanItems, scan, Bool.and_eq_true, scanItems_iff rest, scanItems_iff kvs', reduceCtorEq, false_or, not_or]

/-- C11: `dump` of data with an offending key or leaf anywhere (or of something that is not a mapping) raises
TypeError and leaves the file as it was, whatever the flag. -/
theorem C11_rejected (env : Env DT E) (flag : String) (v : Val DT E) (n : Node DT E) (h : Offending v ∨ ∃ l, v = .leaf l) :
    dump env flag v n = (.error .typeError, n) := by
  cases v with
  | leaf l => simp [dump]
  | map kvs =>
      have ho : Offending (.map kvs) := by
        rcases h with h | ⟨l, hl⟩
        · exact h
        · cases hl
      have : scanItems kvs = false := by
        cases hs : scanItems kvs with
        | false => rfl
        | true => exact absurd ho ((scanItems_iff kvs).mp hs)
      simp [dump, this]

/-- C11: otherwise the scan raises nothing: an empty mapping, and a mapping whose first item can be written, get
past it. -/
theorem C11_accepted (kvs : List (KeyObj × Val DT E)) (h : ¬ Offending (.map kvs)) (env : Env DT E) (flag : String) (n : Node DT E) :
    dump env flag (.map kvs) n = dumpItems env flag kvs n := by
  rw [dump, (scanItems_iff kvs).mpr h, if_pos rfl]

/-- An offending leaf two levels down, after an item that could be written: nothing is written. -/
example : dump exEnv "ac" (.map [(.str "a".toList, .leaf (.str "x".toList)), (.str "g".toList, .map [(.str "b".toList, .leaf .bad)])])
    (.grp [("q".toList, .dset ⟨1, [], [4]⟩ [])] []) = (.error .typeError, .grp [("q".toList, .dset ⟨1, [], [4]⟩ [])] []) ∧
    Offending (.map [(.str "a".toList, .leaf (.str "x".toList)), (.str "g".toList, .map [(.str "b".toList, .leaf .bad)])] : Val Nat Nat) :=
  ⟨rfl, ⟨[(.str "b".toList, .leaf .bad)], .str "b".toList, .leaf .bad, .item _ (.str "g".toList) _ _ (by simp) (.refl _), by simp, Or.inr rfl⟩⟩

/-! ### C12 -/

/-- Specification: `n'` still has every dataset of `n`, with the same contents and attributes, and every group of
`n`, with the same attributes. -/
def Keeps (n n' : Node DT E) : Prop :=
  ∀ p, (∀ d a, lookup n p = some (.dset d a) → lookup n' p = some (.dset d a)) ∧
    (∀ ch a, lookup n p = some (.grp ch a) → ∃ ch', lookup n' p = some (.grp ch' a))

theorem Keeps.refl (n : Node DT E) : Keeps n n := fun _ => ⟨fun _ _ h => h, fun ch _ h => ⟨ch, h⟩⟩

theorem Keeps.trans {n n1 n2 : Node DT E} (h : Keeps n n1) (h' : Keeps n1 n2) : Keeps n n2 := by
  intro p
  refine ⟨fun d a hd => (h' p).1 d a ((h p).1 d a hd), fun ch a hg => ?_⟩
  obtain ⟨ch1, h1⟩ := (h p).2 ch a hg
  exact (h' p).2 ch1 a h1

theorem Keeps.contains {n n' : Node DT E} (h : Keeps n n') (p : List Str) (hc : contains n p = true) : contains n' p = true := by
  unfold H5.contains at *
  cases hl : lookup n p with
  | none => rw [hl] at hc; cases hc
  | some c =>
      cases c with
      | dset d a => rw [(h p).1 d a hl]; rfl
      | grp ch a => obtain ⟨ch', h'⟩ := (h p).2 ch a hl; rw [h']; rfl

/-- Replacing one child by a child that keeps everything. -/
theorem keeps_set (ch : List (Str × Node DT E)) (a : List (Str × Dset DT E)) (k : Str) (c' : Node DT E)
    (h : ∀ c, PyDict.get? ch k = some c → Keeps c c') : Keeps (.grp ch a) (.grp (PyDict.set ch k c') a) := by
  intro p
  cases p with
  | nil =>
      refine ⟨fun d a h => ?_, fun ch0 a0 h => ?_⟩
      · simp [lookup] at h
      · simp only [lookup, Option.some.injEq, Node.grp.injEq] at h
        obtain ⟨rfl, rfl⟩ := h
        exact ⟨_, rfl⟩
  | cons k' ks =>
      simp only [lookup, PyDict.get?_set]
      by_cases hk : k' = k
      · subst hk
        rw [if_pos rfl]
        cases hg : PyDict.get? ch k' with
        | none => simp
        | some c => exact h c hg ks
      · rw [if_neg hk]
        exact Keeps.refl (.grp ch a) (k' :: ks)

theorem keeps_rawCreateGroup (env : Env DT E) (p : List Str) : ∀ n : Node DT E, Keeps n (rawCreateGroup env n p).2 := by
  induction p with
  | nil => intro n; cases n <;> exact Keeps.refl _
  | cons k ks ih =>
      intro n
      cases n with
      | dset d a => exact Keeps.refl _
      | grp ch a =>
          simp only [rawCreateGroup]
          split
          · cases hg : PyDict.get? ch k with
            | none => exact keeps_set ch a k _ (fun c hc => by rw [hg] at hc; cases hc)
            | some c => exact keeps_set ch a k _ (fun c0 hc => by rw [hg] at hc; cases hc; exact ih c)
          · exact Keeps.refl _

theorem keeps_rawCreateDataset (env : Env DT E) (obj : PyM (Dset DT E)) (p : List Str) :
    ∀ n : Node DT E, contains n p = false → Keeps n (rawCreateDataset env obj n p).2 := by
  induction p with
  | nil => intro n _; cases n <;> exact Keeps.refl _
  | cons k ks ih =>
      intro n hc
      cases ks with
      | nil =>
          cases n with
          | dset d a => exact Keeps.refl _
          | grp ch a =>
              simp only [rawCreateDataset]
              split
              · split
                · exact Keeps.refl _
                · split
                  · exact Keeps.refl _
                  · rename_i hh
                    refine keeps_set ch a k _ (fun c hc => ?_)
                    exact absurd (by unfold PyDict.has; rw [hc]; rfl) hh
              · exact Keeps.refl _
      | cons k' ks =>
          cases n with
          | dset d a => exact Keeps.refl _
          | grp ch a =>
              simp only [rawCreateDataset]
              split
              · refine keeps_set ch a k _ (fun c hg => ?_)
                rw [hg]
                refine ih c ?_
                unfold contains at hc ⊢
                rw [lookup, hg] at hc
                exact hc
              · exact Keeps.refl _

theorem keeps_modifyAt {α : Type} (f : Node DT E → PyM α × Node DT E) (p : List Str) :
    ∀ n : Node DT E, (∀ c, lookup n p = some c → Keeps c (f c).2) → Keeps n (modifyAt f n p).2 := by
  induction p with
  | nil => intro n h; simpa [modifyAt] using h n rfl
  | cons k ks ih =>
      intro n h
      cases n with
      | dset d a => exact Keeps.refl _
      | grp ch a =>
          simp only [modifyAt]
          cases hg : PyDict.get? ch k with
          | none => exact Keeps.refl _
          | some c =>
              refine keeps_set ch a k _ (fun c0 hc0 => ?_)
              rw [hg] at hc0; cases hc0
              refine ih c (fun c1 hc1 => h c1 ?_)
              rw [lookup, hg]; exact hc1

theorem keeps_createGroup (env : Env DT E) (n : Node DT E) (key : Str) (flag : String) : Keeps n (createGroup env n key flag).2 := by
  unfold createGroup
  split
  · exact Keeps.refl _
  · split
    · split
      · exact Keeps.refl _
      · split <;> exact Keeps.refl _
    · exact keeps_rawCreateGroup env _ n

theorem keeps_dsCreate (env : Env DT E) (n : Node DT E) (key : Str) (l : Leaf DT E) (flag : String) (hf : flag ≠ "ac" ∧ flag ≠ "ca") :
    Keeps n (dsCreate env n key l flag).2 := by
  unfold dsCreate
  split
  · exact Keeps.refl _
  · rename_i hfo
    have hx : flag = "x" := by
      have hfo : flagOk flag = true := by cases h : flagOk flag <;> simp [h] at hfo ⊢
      simp only [flagOk, Bool.or_eq_true, beq_iff_eq] at hfo
      rcases hfo with (h | h) | h
      · exact h
      · exact absurd h hf.1
      · exact absurd h hf.2
    split
    · rw [hx]; exact Keeps.refl _
    · rename_i hc
      exact keeps_rawCreateDataset env _ _ n (by simpa using hc)

theorem keeps_dumpItems (env : Env DT E) (flag : String) (hf : flag ≠ "ac" ∧ flag ≠ "ca") (kvs : List (KeyObj × Val DT E)) :
    ∀ n, Keeps n (dumpItems env flag kvs n).2 := by
  intro n
  match kvs with
  | [] => simp only [dumpItems]; exact Keeps.refl _
  | (.other, _) :: _ => simp only [dumpItems]; exact Keeps.refl _
  | (.str k, .leaf l) :: rest =>
      have h1 := keeps_dsCreate env n k l flag hf
      rw [dumpItems]
      cases hc : dsCreate env n k l flag with
      | mk r n1 =>
          rw [hc] at h1
          cases r with
          | error e => exact h1
          | ok u => exact h1.trans (keeps_dumpItems env flag hf rest n1)
  | (.str k, .map kvs') :: rest =>
      have h1 := keeps_createGroup env n k flag
      rw [dumpItems]
      cases hc : createGroup env n k flag with
      | mk r n1 =>
          rw [hc] at h1
          cases r with
          | error e => exact h1
          | ok u =>
              have h2 := keeps_modifyAt (dump env flag (.map kvs')) (pathOf k) n1 (fun c _ => by
                rw [dump]
                split
                · exact keeps_dumpItems env flag hf kvs' c
                · exact Keeps.refl _)
              simp only
              cases hm : modifyAt (dump env flag (.map kvs')) n1 (pathOf k) with
              | mk r2 n2 =>
                  rw [hm] at h2
                  cases r2 with
                  | error e => exact h1.trans h2
                  | ok u => exact (h1.trans h2).trans (keeps_dumpItems env flag hf rest n2)

/-- C12: a dump with flag 'x' (or any flag other than 'ac' and 'ca'), whether it succeeds or fails at any point, leaves
every dataset that was in the file with the same contents and attributes, and every group in
place with the same attributes. -/
theorem C12_keeps (env : Env DT E) (flag : String) (hf : flag ≠ "ac" ∧ flag ≠ "ca") (v : Val DT E) (n : Node DT E) :
    Keeps n (dump env flag v n).2 := by
  cases v with
  | leaf l => rw [dump]; exact Keeps.refl _
  | map kvs =>
      rw [dump]
      split
      · exact keeps_dumpItems env flag hf kvs n
      · exact Keeps.refl _

theorem dumpItems_ok_absent (env : Env DT E) (kvs : List (KeyObj × Val DT E)) : ∀ n n', dumpItems env "x" kvs n = (.ok (), n') →
    ∀ k v, (KeyObj.str k, v) ∈ kvs → contains n (pathOf k) = false := by
  induction kvs with
  | nil => intro n n' _ k v hm; simp at hm
  | cons p rest ih =>
      intro n n' h k v hm
      have hkeep : ∀ n1, Keeps n n1 → contains n1 (pathOf k) = false → contains n (pathOf k) = false := by
        intro n1 hk1 hc1
        cases hc : contains n (pathOf k) with
        | false => rfl
        | true => rw [hk1.contains _ hc] at hc1; cases hc1
      obtain ⟨ko, w⟩ := p
      cases ko with
      | other => rw [dumpItems] at h; cases (Prod.mk.inj h).1
      | str s =>
          cases w with
          | leaf l =>
              rw [dumpItems] at h
              cases hc : dsCreate env n s l "x" with
              | mk r n1 =>
                  rw [hc] at h
                  cases r with
                  | error e => cases (Prod.mk.inj h).1
                  | ok u =>
                      rcases List.mem_cons.mp hm with he | hm
                      · obtain ⟨he1, he2⟩ := Prod.mk.inj he
                        cases he1; cases he2
                        cases hcn : contains n (pathOf k) with
                        | false => rfl
                        | true => simp [dsCreate, hcn, flagOk] at hc
                      · have := keeps_dsCreate env n s l "x" (by decide)
                        rw [hc] at this
                        exact hkeep n1 this (ih n1 n' h k v hm)
          | map kvs' =>
              rw [dumpItems] at h
              cases hc : createGroup env n s "x" with
              | mk r n1 =>
                  rw [hc] at h
                  cases r with
                  | error e => cases (Prod.mk.inj h).1
                  | ok u =>
                      rcases List.mem_cons.mp hm with he | hm
                      · obtain ⟨he1, he2⟩ := Prod.mk.inj he
                        cases he1; cases he2
                        cases hcn : contains n (pathOf k) with
                        | false => rfl
                        | true => simp [createGroup, hcn, flagOk] at hc
                      · have k1 := keeps_createGroup env n s "x"
                        rw [hc] at k1
                        simp only at h
                        have k2 := keeps_modifyAt (dump env "x" (.map kvs')) (pathOf s) n1 (fun c _ => C12_keeps env "x" (by decide) _ c)
                        cases hm2 : modifyAt (dump env "x" (.map kvs')) n1 (pathOf s) with
                        | mk r2 n2 =>
                            rw [hm2] at h k2
                            cases r2 with
                            | error e => cases (Prod.mk.inj h).1
                            | ok u => exact hkeep n2 (k1.trans k2) (ih n2 n' h k v hm)

/-- C12: if a top-level key of the data already exists in the group, a dump with flag 'x' raises. -/
theorem C12_existing_raises (env : Env DT E) (kvs : List (KeyObj × Val DT E)) (n : Node DT E) (k : Str) (v : Val DT E)
    (hm : (.str k, v) ∈ kvs) (hc : contains n (pathOf k) = true) : ∃ e, (dump env "x" (.map kvs) n).1 = .error e := by
  cases hr : (dump env "x" (.map kvs) n) with
  | mk r n' =>
      cases r with
      | error e => exact ⟨e, rfl⟩
      | ok u =>
          rw [dump] at hr
          split at hr
          · rw [dumpItems_ok_absent env kvs n n' hr k v hm] at hc; cases hc
          · cases (Prod.mk.inj hr).1

/-- C12: for data with distinct slash-free names and storable leaves, on a writable file: a dump with 'x' into a group
succeeds iff none of the top-level names exists in the group; otherwise it raises ValueError. -/
theorem C12_succeeds_iff (env : Env DT E) (hw : env.writable = true) (kvs : List (KeyObj × Val DT E)) (hg : GoodItems (Storable env) kvs)
    (ch : List (Str × Node DT E)) (a : List (Str × Dset DT E)) :
    ((∀ k ∈ names kvs, k ∉ PyDict.keys ch) → (dump env "x" (.map kvs) (.grp ch a)).1 = .ok ()) ∧
    ((∃ k ∈ names kvs, k ∈ PyDict.keys ch) → (dump env "x" (.map kvs) (.grp ch a)).1 = .error .valueError) := by
  have hscan := scanItems_good (fun l hl => storable_leafOk hl) kvs hg
  constructor
  · intro h
    rw [dump, hscan, if_pos rfl, dumpItems_build env hw "x" (by decide) kvs hg ch a h]
  · intro h
    rw [dump, hscan, if_pos rfl]
    clear hscan
    induction kvs generalizing ch with
    | nil => obtain ⟨k, hk, _⟩ := h; simp [names] at hk
    | cons p rest ih =>
        obtain ⟨ko, w⟩ := p
        cases ko with
        | other => simp [GoodItems] at hg
        | str s =>
            simp only [GoodItems] at hg
            obtain ⟨hs, hsr, hgv, hgr⟩ := hg
            by_cases hsc : s ∈ PyDict.keys ch
            · have hc : contains (.grp ch a) (pathOf s) = true := by
                rw [pathOf_name hs, contains_single]; exact (PyDict.has_iff ch s).mpr hsc
              cases w with
              | leaf l => simp [dumpItems, dsCreate, flagOk, hc]
              | map kvs' => simp [dumpItems, createGroup, flagOk, hc]
            · obtain ⟨k, hk, hkc⟩ := h
              have hkr : k ∈ names rest := by
                simp only [names, List.mem_cons] at hk
                rcases hk with rfl | hk
                · exact absurd hkc hsc
                · exact hk
              have h1 := dumpItems_build env hw "x" (by decide) [(.str s, w)] (by simp only [GoodItems]; exact ⟨hs, by simp [names], hgv, trivial⟩) ch a
                (by intro k' hk'; simp only [names, List.mem_singleton] at hk'; rw [hk']; exact hsc)
              have hsplit : dumpItems env "x" ((.str s, w) :: rest) (.grp ch a) =
                  dumpItems env "x" rest (.grp (ch ++ buildItems env [(.str s, w)]) a) := by
                cases w with
                | leaf l =>
                    rw [dumpItems] at h1 ⊢
                    cases hc : dsCreate env (.grp ch a) s l "x" with
                    | mk r n1 =>
                        rw [hc] at h1
                        cases r with
                        | error e => cases (Prod.mk.inj h1).1
                        | ok u => simp only [dumpItems] at h1; rw [(Prod.mk.inj h1).2]
                | map kvs' =>
                    rw [dumpItems] at h1 ⊢
                    cases hc : createGroup env (.grp ch a) s "x" with
                    | mk r n1 =>
                        rw [hc] at h1
                        cases r with
                        | error e => cases (Prod.mk.inj h1).1
                        | ok u =>
                            simp only at h1 ⊢
                            cases hm2 : modifyAt (dump env "x" (.map kvs')) n1 (pathOf s) with
                            | mk r2 n2 =>
                                rw [hm2] at h1
                                cases r2 with
                                | error e => cases (Prod.mk.inj h1).1
                                | ok u => simp only [dumpItems] at h1; rw [(Prod.mk.inj h1).2]
              rw [hsplit]
              refine ih hgr _ ⟨k, hkr, ?_⟩
              simp only [PyDict.keys, List.map_append, List.mem_append] at hkc ⊢
              exact Or.inl hkc

/-- A dump that fails half-way in a sub-mapping: what existed is unchanged, the items before the failing one are there. -/
example : dump exEnv "x" (.map [(.str "a".toList, .leaf (.str "xy".toList)), (.str "q".toList, .leaf (.str "z".toList))])
    (.grp [("q".toList, .dset ⟨1, [], [4]⟩ [])] []) =
    (.error .valueError, .grp [("q".toList, .dset ⟨1, [], [4]⟩ []), ("a".toList, .dset ⟨7, [], [2]⟩ [])] []) := rfl

/-! ### C14 -/

/-- Specification: `kvs'` is `kvs` cut off at one item: either just before it, or, if the item is a sub-mapping,
somewhere inside it. -/
inductive Trunc : List (KeyObj × Val DT E) → List (KeyObj × Val DT E) → Prop where
  | here (pre : List (KeyObj × Val DT E)) (item : KeyObj × Val DT E) (post : List (KeyObj × Val DT E)) : Trunc (pre ++ item :: post) pre
  | inside (pre : List (KeyObj × Val DT E)) (k : KeyObj) (inner inner' post : List (KeyObj × Val DT E)) :
      Trunc inner inner' → Trunc (pre ++ (k, .map inner) :: post) (pre ++ [(k, .map inner')])

theorem rawCreateGroup_error (env : Env DT E) (p : List Str) : ∀ (n n' : Node DT E) (e : PyErr),
    rawCreateGroup env n p = (.error e, n') → n' = n := by
  induction p with
  | nil => intro n n' e h; cases n <;> exact (Prod.mk.inj h).2.symm
  | cons k ks ih =>
      intro n n' e h
      cases n with
      | dset d a => exact (Prod.mk.inj h).2.symm
      | grp ch a =>
          simp only [rawCreateGroup] at h
          split at h
          · cases hg : PyDict.get? ch k with
            | none => rw [hg] at h; cases (Prod.mk.inj h).1
            | some c =>
                rw [hg] at h
                obtain ⟨h1, h2⟩ := Prod.mk.inj h
                have := ih c (rawCreateGroup env c ks).2 e (Prod.ext h1 rfl)
                rw [← h2, this, PyDict.set_get?_self _ _ _ hg]
          · exact (Prod.mk.inj h).2.symm

theorem lookup_chain (ks : List Str) :
    lookup (ks.foldr (fun k n => Node.grp [(k, n)] []) (.grp [] [] : Node DT E)) ks = some (.grp [] []) := by
  induction ks with
  | nil => rfl
  | cons k ks ih => simp only [List.foldr_cons, lookup, PyDict.get?, if_true, ih]

theorem rawCreateGroup_ok (env : Env DT E) (p : List Str) : ∀ (n n' : Node DT E) (u : Unit),
    rawCreateGroup env n p = (.ok u, n') → lookup n' p = some (.grp [] []) := by
  induction p with
  | nil => intro n n' u h; cases n <;> cases (Prod.mk.inj h).1
  | cons k ks ih =>
      intro n n' u h
      cases n with
      | dset d a => cases (Prod.mk.inj h).1
      | grp ch a =>
          simp only [rawCreateGroup] at h
          split at h
          · cases hg : PyDict.get? ch k with
            | none =>
                rw [hg] at h
                rw [← (Prod.mk.inj h).2]
                simp only [lookup, PyDict.get?_set_self, lookup_chain]
            | some c =>
                rw [hg] at h
                obtain ⟨h1, h2⟩ := Prod.mk.inj h
                rw [← h2]
                simp only [lookup, PyDict.get?_set_self]
                exact ih c _ u (Prod.ext h1 rfl)
          · cases (Prod.mk.inj h).1

theorem createGroup_error (env : Env DT E) (n n' : Node DT E) (key : Str) (flag : String) (e : PyErr)
    (h : createGroup env n key flag = (.error e, n')) : n' = n := by
  unfold createGroup at h
  split at h
  · exact (Prod.mk.inj h).2.symm
  · split at h
    · split at h
      · exact (Prod.mk.inj h).2.symm
      · split at h
        · cases (Prod.mk.inj h).1
        · exact (Prod.mk.inj h).2.symm
    · exact rawCreateGroup_error env _ n n' e h

theorem createGroup_ok (env : Env DT E) (n n' : Node DT E) (key : Str) (flag : String) (u : Unit)
    (h : createGroup env n key flag = (.ok u, n')) : ∃ ch a, lookup n' (pathOf key) = some (.grp ch a) ∧
      (n' = n ∨ (contains n (pathOf key) = false ∧ ch = [] ∧ a = [])) := by
  unfold createGroup at h
  split at h
  · cases (Prod.mk.inj h).1
  · split at h
    · split at h
      · cases (Prod.mk.inj h).1
      · split at h
        · rename_i ch a hl
          rw [← (Prod.mk.inj h).2]
          exact ⟨ch, a, hl, Or.inl rfl⟩
        · cases (Prod.mk.inj h).1
    · rename_i hc
      exact ⟨[], [], rawCreateGroup_ok env _ n n' u h, Or.inr ⟨by simpa using hc, rfl, rfl⟩⟩

theorem modifyAt_eq {α : Type} (f : Node DT E → PyM α × Node DT E) (k : Str) (ch : List (Str × Node DT E)) (a : List (Str × Dset DT E))
    (c : Node DT E) (h : PyDict.get? ch k = some c) :
    modifyAt f (.grp ch a) [k] = ((f c).1, .grp (PyDict.set ch k (f c).2) a) := by
  simp only [modifyAt, h]

theorem modifyAt_error {α : Type} (f : Node DT E → PyM α × Node DT E) (hf : ∀ c c' e, f c = (.error e, c') → c' = c) (p : List Str) :
    ∀ (n n' : Node DT E) (e : PyErr), modifyAt f n p = (.error e, n') → n' = n := by
  induction p with
  | nil => intro n n' e h; exact hf n n' e (by simpa [modifyAt] using h)
  | cons k ks ih =>
      intro n n' e h
      cases n with
      | dset d a => exact (Prod.mk.inj h).2.symm
      | grp ch a =>
          simp only [modifyAt] at h
          cases hg : PyDict.get? ch k with
          | none => rw [hg] at h; exact (Prod.mk.inj h).2.symm
          | some c =>
              rw [hg] at h
              obtain ⟨h1, h2⟩ := Prod.mk.inj h
              rw [← h2, ih c (modifyAt f c ks).2 e (Prod.ext h1 rfl), PyDict.set_get?_self _ _ _ hg]

theorem assign_error (env : Env DT E) (l : Leaf DT E) (c c' : Node DT E) (e : PyErr) (h : assign env l c = (.error e, c')) : c' = c := by
  cases c with
  | grp ch a => exact (Prod.mk.inj h).2.symm
  | dset d a =>
      simp only [assign] at h
      split at h
      · split at h
        · cases (Prod.mk.inj h).1
        · exact (Prod.mk.inj h).2.symm
      · exact (Prod.mk.inj h).2.symm

theorem dsCreate_error (env : Env DT E) (n n' : Node DT E) (key : Str) (hk : IsName key) (l : Leaf DT E) (flag : String) (e : PyErr)
    (h : dsCreate env n key l flag = (.error e, n')) : n' = n := by
  unfold dsCreate at h
  split at h
  · exact (Prod.mk.inj h).2.symm
  · split at h
    · split at h
      · exact (Prod.mk.inj h).2.symm
      · split at h
        · exact modifyAt_error _ (assign_error env l) _ n n' e h
        · exact (Prod.mk.inj h).2.symm
    · rw [pathOf_name hk] at h
      cases n with
      | dset d a => exact (Prod.mk.inj h).2.symm
      | grp ch a =>
          simp only [rawCreateDataset] at h
          split at h
          · split at h
            · exact (Prod.mk.inj h).2.symm
            · split at h
              · exact (Prod.mk.inj h).2.symm
              · cases (Prod.mk.inj h).1
          · exact (Prod.mk.inj h).2.symm

theorem scanItems_trunc {kvs kvs' : List (KeyObj × Val DT E)} (h : Trunc kvs kvs') (hs : scanItems kvs = true) : scanItems kvs' = true := by
  induction h with
  | here pre item post =>
      rw [scanItems_iff] at hs ⊢
      rintro ⟨x, k, v, hsub, hm, ho⟩
      refine hs ?_
      cases hsub with
      | refl => exact ⟨_, k, v, .refl _, by simp [hm], ho⟩
      | item _ k' v' _ hm' hs' => exact ⟨x, k, v, .item _ k' v' _ (by simp [hm']) hs', hm, ho⟩
  | inside pre k inner inner' post ht ih =>
      have hin : scanItems inner = true := by
        rw [scanItems_iff] at hs ⊢
        rintro ⟨x, k', v, hsub, hm, ho⟩
        exact hs ⟨x, k', v, .item _ k (.map inner) _ (by simp) hsub, hm, ho⟩
      have hin' := ih hin
      rw [scanItems_iff] at hs hin' ⊢
      rintro ⟨x, k', v, hsub, hm, ho⟩
      cases hsub with
      | refl =>
          rcases List.mem_append.mp hm with hm | hm
          · exact hs ⟨_, k', v, .refl _, by simp [hm], ho⟩
          · simp only [List.mem_singleton, Prod.mk.injEq] at hm
            obtain ⟨rfl, rfl⟩ := hm
            rcases ho with ho | ho
            · exact hs ⟨_, k', .map inner, .refl _, by simp, Or.inl ho⟩
            · cases ho
      | item _ k2 v2 _ hm' hs' =>
          rcases List.mem_append.mp hm' with hm' | hm'
          · exact hs ⟨x, k', v, .item _ k2 v2 _ (by simp [hm']) hs', hm, ho⟩
          · simp only [List.mem_singleton, Prod.mk.injEq] at hm'
            obtain ⟨rfl, rfl⟩ := hm'
            exact hin' ⟨x, k', v, hs', hm, ho⟩

theorem trunc_cons (p : KeyObj × Val DT E) {kvs kvs' : List (KeyObj × Val DT E)} (h : Trunc kvs kvs') : Trunc (p :: kvs) (p :: kvs') := by
  cases h with
  | here pre item post => exact .here (p :: kvs') item post
  | inside pre k inner inner' post ht => exact .inside (p :: pre) k inner inner' post ht

theorem dumpItems_trunc (env : Env DT E) (flag : String) (P : Leaf DT E → Prop) (kvs : List (KeyObj × Val DT E)) (hg : GoodItems P kvs)
    (n n' : Node DT E) (e : PyErr) (h : dumpItems env flag kvs n = (.error e, n')) :
    ∃ kvs', Trunc kvs kvs' ∧ dumpItems env flag kvs' n = (.ok (), n') := by
  match kvs with
  | [] => rw [dumpItems] at h; cases (Prod.mk.inj h).1
  | (.other, _) :: _ => simp [GoodItems] at hg
  | (.str k, .leaf l) :: rest =>
      simp only [GoodItems] at hg
      rw [dumpItems] at h
      cases hc : dsCreate env n k l flag with
      | mk r n1 =>
          rw [hc] at h
          cases r with
          | error e1 =>
              refine ⟨[], .here [] _ rest, ?_⟩
              rw [dumpItems, ← (Prod.mk.inj h).2, dsCreate_error env n n1 k hg.1 l flag e1 hc]
          | ok u =>
              obtain ⟨kvs', h1, h2⟩ := dumpItems_trunc env flag P rest hg.2.2.2 n1 n' e h
              refine ⟨_, trunc_cons _ h1, ?_⟩
              rw [dumpItems, hc]; exact h2
  | (.str k, .map inner) :: rest =>
      simp only [GoodItems, Good] at hg
      obtain ⟨hk, -, hgi, hgr⟩ := hg
      rw [dumpItems] at h
      cases hc : createGroup env n k flag with
      | mk r n1 =>
          rw [hc] at h
          cases r with
          | error e1 =>
              refine ⟨[], .here [] _ rest, ?_⟩
              rw [dumpItems, ← (Prod.mk.inj h).2, createGroup_error env n n1 k flag e1 hc]
          | ok u =>
              simp only at h
              obtain ⟨ch1, a1, hl1, -⟩ := createGroup_ok env n n1 k flag u hc
              rw [pathOf_name hk] at hl1
              cases n1 with
              | dset d a => simp [lookup] at hl1
              | grp ch a =>
                  rw [lookup_single] at hl1
                  rw [pathOf_name hk, modifyAt_eq _ k ch a _ hl1] at h
                  cases hd : dump env flag (.map inner) (.grp ch1 a1) with
                  | mk r2 c2 =>
                      rw [hd] at h
                      cases r2 with
                      | ok u2 =>
                          obtain ⟨kvs', h1, h2⟩ := dumpItems_trunc env flag P rest hgr _ n' e h
                          refine ⟨_, trunc_cons _ h1, ?_⟩
                          rw [dumpItems, hc]
                          simp only
                          rw [pathOf_name hk, modifyAt_eq _ k ch a _ hl1, hd]
                          exact h2
                      | error e2 =>
                          have hn' := (Prod.mk.inj h).2
                          rw [dump] at hd
                          by_cases hs : scanItems inner = true
                          · rw [if_pos hs] at hd
                            obtain ⟨inner', h1, h2⟩ := dumpItems_trunc env flag P inner hgi _ c2 e2 hd
                            refine ⟨[(.str k, .map inner')], .inside [] _ _ _ rest h1, ?_⟩
                            rw [dumpItems, hc]
                            simp only
                            rw [pathOf_name hk, modifyAt_eq _ k ch a _ hl1, dump, if_pos (scanItems_trunc h1 hs), h2]
                            simp only [dumpItems]
                            rw [← hn']
                          · rw [if_neg hs] at hd
                            have hne : ∃ item post, inner = item :: post := by
                              cases inner with
                              | nil => simp [scanItems] at hs
                              | cons i p => exact ⟨i, p, rfl⟩
                            obtain ⟨item, post, rfl⟩ := hne
                            refine ⟨[(.str k, .map [])], .inside [] _ _ _ rest (.here [] item post), ?_⟩
                            rw [dumpItems, hc]
                            simp only
                            rw [pathOf_name hk, modifyAt_eq _ k ch a _ hl1, dump]
                            simp only [scanItems, if_true, dumpItems]
                            rw [← hn', ← (Prod.mk.inj hd).2]

/-- C14: if a dump of supported data with slash-free names fails, with any flag and for any reason, then the file is
exactly what a successful dump of the data cut off at the failing item leaves: all items before it,
recursively, and nothing after. -/
theorem C14_prefix (env : Env DT E) (flag : String) (kvs : List (KeyObj × Val DT E)) (hg : GoodItems (fun l => leafOk l = true) kvs)
    (n n' : Node DT E) (e : PyErr) (h : dump env flag (.map kvs) n = (.error e, n')) :
    ∃ kvs', Trunc kvs kvs' ∧ dump env flag (.map kvs') n = (.ok (), n') := by
  have hs := scanItems_good (fun l hl => hl) kvs hg
  rw [dump, if_pos hs] at h
  obtain ⟨kvs', h1, h2⟩ := dumpItems_trunc env flag _ kvs hg n n' e h
  exact ⟨kvs', h1, by rw [dump, if_pos (scanItems_trunc h1 hs)]; exact h2⟩

theorem createGroup_grp (env : Env DT E) (ch : List (Str × Node DT E)) (a : List (Str × Dset DT E)) (k : Str) (hk : IsName k) (flag : String) :
    ∃ r ch', createGroup env (.grp ch a) k flag = (r, .grp ch' a) ∧ ∀ k', k' ≠ k → PyDict.get? ch' k' = PyDict.get? ch k' := by
  unfold createGroup
  rw [pathOf_name hk]
  split
  · exact ⟨_, ch, rfl, fun _ _ => rfl⟩
  · split
    · split
      · exact ⟨_, ch, rfl, fun _ _ => rfl⟩
      · split <;> exact ⟨_, ch, rfl, fun _ _ => rfl⟩
    · simp only [rawCreateGroup]
      split
      · split <;> exact ⟨_, _, rfl, fun k' hk' => PyDict.get?_set_ne _ _ _ _ hk'⟩
      · exact ⟨_, ch, rfl, fun _ _ => rfl⟩

theorem modifyAt_grp {α : Type} (f : Node DT E → PyM α × Node DT E) (ch : List (Str × Node DT E)) (a : List (Str × Dset DT E)) (k : Str) :
    ∃ r ch', modifyAt f (.grp ch a) [k] = (r, .grp ch' a) ∧ ∀ k', k' ≠ k → PyDict.get? ch' k' = PyDict.get? ch k' := by
  simp only [modifyAt]
  split
  · exact ⟨_, _, rfl, fun k' hk' => PyDict.get?_set_ne _ _ _ _ hk'⟩
  · exact ⟨_, ch, rfl, fun _ _ => rfl⟩

theorem dsCreate_grp (env : Env DT E) (ch : List (Str × Node DT E)) (a : List (Str × Dset DT E)) (k : Str) (hk : IsName k) (l : Leaf DT E) (flag : String) :
    ∃ r ch', dsCreate env (.grp ch a) k l flag = (r, .grp ch' a) ∧ ∀ k', k' ≠ k → PyDict.get? ch' k' = PyDict.get? ch k' := by
  unfold dsCreate
  rw [pathOf_name hk]
  split
  · exact ⟨_, ch, rfl, fun _ _ => rfl⟩
  · split
    · split
      · exact ⟨_, ch, rfl, fun _ _ => rfl⟩
      · split
        · exact modifyAt_grp _ ch a k
        · exact ⟨_, ch, rfl, fun _ _ => rfl⟩
    · simp only [rawCreateDataset]
      split
      · split
        · exact ⟨_, ch, rfl, fun _ _ => rfl⟩
        · split
          · exact ⟨_, ch, rfl, fun _ _ => rfl⟩
          · exact ⟨_, _, rfl, fun k' hk' => PyDict.get?_set_ne _ _ _ _ hk'⟩
      · exact ⟨_, ch, rfl, fun _ _ => rfl⟩

theorem dumpItems_grp (env : Env DT E) (flag : String) (P : Leaf DT E → Prop) (kvs : List (KeyObj × Val DT E)) :
    ∀ (_ : GoodItems P kvs) (ch : List (Str × Node DT E)) (a : List (Str × Dset DT E)),
    ∃ r ch', dumpItems env flag kvs (.grp ch a) = (r, .grp ch' a) ∧ ∀ k', k' ∉ names kvs → PyDict.get? ch' k' = PyDict.get? ch k' := by
  induction kvs with
  | nil => intro _ ch a; exact ⟨.ok (), ch, by rw [dumpItems], fun _ _ => rfl⟩
  | cons p rest ih =>
      intro hg ch a
      obtain ⟨ko, v⟩ := p
      cases ko with
      | other => simp [GoodItems] at hg
      | str k =>
          simp only [GoodItems] at hg
          obtain ⟨hk, -, -, hr⟩ := hg
          cases v with
          | leaf l =>
              obtain ⟨r, ch1, h1, h2⟩ := dsCreate_grp env ch a k hk l flag
              rw [dumpItems, h1]
              cases r with
              | error e => exact ⟨_, ch1, rfl, fun k' hk' => h2 k' (fun e => hk' (by simp [names, e]))⟩
              | ok u =>
                  obtain ⟨r', ch2, h3, h4⟩ := ih hr ch1 a
                  refine ⟨r', ch2, h3, fun k' hk' => ?_⟩
                  simp only [names, List.mem_cons, not_or] at hk'
                  rw [h4 k' hk'.2, h2 k' hk'.1]
          | map kvs' =>
              obtain ⟨r, ch1, h1, h2⟩ := createGroup_grp env ch a k hk flag
              rw [dumpItems, h1, pathOf_name hk]
              cases r with
              | error e => exact ⟨_, ch1, rfl, fun k' hk' => h2 k' (fun e => hk' (by simp [names, e]))⟩
              | ok u =>
                  simp only
                  obtain ⟨r2, ch2, h3, h4⟩ := modifyAt_grp (dump env flag (.map kvs')) ch1 a k
                  rw [h3]
                  cases r2 with
                  | error e =>
                      refine ⟨_, ch2, rfl, fun k' hk' => ?_⟩
                      simp only [names, List.mem_cons, not_or] at hk'
                      rw [h4 k' hk'.1, h2 k' hk'.1]
                  | ok u =>
                      obtain ⟨r', ch3, h5, h6⟩ := ih hr ch2 a
                      refine ⟨r', ch3, h5, fun k' hk' => ?_⟩
                      simp only [names, List.mem_cons, not_or] at hk'
                      rw [h6 k' hk'.2, h4 k' hk'.1, h2 k' hk'.1]

/-- C14: nothing of the items after the failing one is written: a path that starts with a name not in the part that was
dumped looks up what it did before. -/
theorem C14_later_untouched (env : Env DT E) (flag : String) (kvs' : List (KeyObj × Val DT E)) (P : Leaf DT E → Prop) (hg : GoodItems P kvs')
    (ch : List (Str × Node DT E)) (a : List (Str × Dset DT E)) (k : Str) (hk : k ∉ names kvs') (ks : List Str) :
    lookup (dump env flag (.map kvs') (.grp ch a)).2 (k :: ks) = lookup (.grp ch a) (k :: ks) := by
  rw [dump]
  split
  · obtain ⟨r, ch', h1, h2⟩ := dumpItems_grp env flag P kvs' hg ch a
    rw [h1]
    simp only [lookup, h2 k hk]
  · rfl

/-- A failure inside a sub-mapping (an array h5py cannot store): the items before it are there, the later ones not. -/
example :
    let kvs : List (KeyObj × Val Nat Nat) := [(.str "a".toList, .leaf (.str "xy".toList)),
      (.str "g".toList, .map [(.str "u".toList, .leaf (.dat ⟨1, [], [8]⟩)), (.str "v".toList, .leaf (.dat ⟨9, [], [8]⟩))]),
      (.str "z".toList, .leaf (.str "z".toList))]
    (dump exEnv "x" (.map kvs) (.grp [] [])).1 = .error .typeError ∧
    (dump exEnv "x" (.map kvs) (.grp [] [])).2 = (dump exEnv "x" (.map [(.str "a".toList, .leaf (.str "xy".toList)),
      (.str "g".toList, .map [(.str "u".toList, .leaf (.dat ⟨1, [], [8]⟩))])]) (.grp [] [])).2 ∧
    GoodItems (fun l => leafOk l = true) kvs := by
  refine ⟨rfl, rfl, ?_⟩
  simp only [GoodItems, Good, names, IsName]
  exact ⟨by decide, by decide, rfl, by decide, by decide, ⟨by decide, by decide, rfl, by decide, by decide, rfl, trivial⟩,
    by decide, by decide, rfl, trivial⟩

/-! ### C13 -/

/-- What a successful dump with 'ac' did with one item: `before` and `after` are the objects of that name. -/
def ItemOK (env : Env DT E) (flag : String) : Val DT E → Option (Node DT E) → Option (Node DT E) → Prop
  | .leaf l, none, after => ∃ d, newDset env l = .ok d ∧ after = some (.dset d [])
  | .leaf l, some (.dset old at'), after => ∃ d d', leafDset env l = .ok d ∧ overwrite env old d = .ok d' ∧ after = some (.dset d' at')
  | .leaf _, some (.grp _ _), _ => False
  | .map kvs, before, after => ∃ ch at' ch', (before = some (.grp ch at') ∨ (before = none ∧ ch = [] ∧ at' = [])) ∧
      after = some (.grp ch' at') ∧ dump env flag (.map kvs) (.grp ch at') = (.ok (), .grp ch' at')

theorem dump_grp (env : Env DT E) (flag : String) (P : Leaf DT E → Prop) (kvs : List (KeyObj × Val DT E)) (hg : GoodItems P kvs)
    (ch : List (Str × Node DT E)) (a : List (Str × Dset DT E)) :
    ∃ r ch', dump env flag (.map kvs) (.grp ch a) = (r, .grp ch' a) ∧ ∀ k', k' ∉ names kvs → PyDict.get? ch' k' = PyDict.get? ch k' := by
  rw [dump]
  split
  · exact dumpItems_grp env flag P kvs hg ch a
  · exact ⟨_, ch, rfl, fun _ _ => rfl⟩

theorem flag_ac {flag : String} (hf : flag = "ac" ∨ flag = "ca") : flagOk flag = true ∧ (flag == "x") = false := by
  rcases hf with rfl | rfl <;> decide

theorem item_leaf (env : Env DT E) (flag : String) (hf : flag = "ac" ∨ flag = "ca") (ch ch' : List (Str × Node DT E))
    (a : List (Str × Dset DT E)) (k : Str) (hk : IsName k) (l : Leaf DT E) (u : Unit)
    (h : dsCreate env (.grp ch a) k l flag = (.ok u, .grp ch' a)) : ItemOK env flag (.leaf l) (PyDict.get? ch k) (PyDict.get? ch' k) := by
  obtain ⟨f1, f2⟩ := flag_ac hf
  unfold dsCreate at h
  rw [pathOf_name hk, contains_single, lookup_single, f1, f2] at h
  simp only [Bool.not_true, Bool.false_eq_true, if_false, PyDict.has] at h
  cases hg : PyDict.get? ch k with
  | none =>
      rw [hg] at h
      simp only [Option.isSome_none, Bool.false_eq_true, if_false, rawCreateDataset, PyDict.has, hg] at h
      split at h
      · split at h
        · cases (Prod.mk.inj h).1
        · rename_i d hd
          have := (Prod.mk.inj h).2
          simp only [Node.grp.injEq, and_true] at this
          rw [← this, PyDict.get?_set_self]
          exact ⟨d, hd, rfl⟩
      · cases (Prod.mk.inj h).1
  | some c =>
      rw [hg] at h
      simp only [Option.isSome_some, if_true] at h
      cases c with
      | grp c1 c2 => cases (Prod.mk.inj h).1
      | dset old at' =>
          simp only at h
          rw [modifyAt_eq _ k ch a _ hg] at h
          obtain ⟨h1, h2⟩ := Prod.mk.inj h
          simp only [Node.grp.injEq, and_true] at h2
          rw [← h2, PyDict.get?_set_self]
          simp only [assign] at h1 ⊢
          split at h1
          · rename_i hw
            split at h1
            · rename_i d' hd'
              simp only [hw, if_true, hd']
              simp only [bind, Except.bind] at hd'
              split at hd'
              · cases hd'
              · rename_i d hd
                exact ⟨d, d', hd, hd', rfl⟩
            · cases h1
          · cases h1

theorem dumpItems_ac (env : Env DT E) (flag : String) (hf : flag = "ac" ∨ flag = "ca") (P : Leaf DT E → Prop) (kvs : List (KeyObj × Val DT E)) :
    ∀ (_ : GoodItems P kvs) (ch ch' : List (Str × Node DT E)) (a : List (Str × Dset DT E)) (u : Unit),
    dumpItems env flag kvs (.grp ch a) = (.ok u, .grp ch' a) →
    ∀ k v, (KeyObj.str k, v) ∈ kvs → ItemOK env flag v (PyDict.get? ch k) (PyDict.get? ch' k) := by
  obtain ⟨f1, f2⟩ := flag_ac hf
  induction kvs with
  | nil => intro _ ch ch' a u _ k v hm; simp at hm
  | cons p rest ih =>
      intro hg ch ch' a u h k v hm
      obtain ⟨ko, w⟩ := p
      cases ko with
      | other => simp [GoodItems] at hg
      | str s =>
          simp only [GoodItems] at hg
          obtain ⟨hs, hsr, hgw, hr⟩ := hg
          have hne : (KeyObj.str k, v) ∈ rest → k ≠ s := fun hm e => hsr ((mem_names rest s).mpr ⟨v, e ▸ hm⟩)
          cases w with
          | leaf l =>
              obtain ⟨r1, ch1, h1, h2⟩ := dsCreate_grp env ch a s hs l flag
              rw [dumpItems, h1] at h
              cases r1 with
              | error e => cases (Prod.mk.inj h).1
              | ok u1 =>
                  simp only at h
                  obtain ⟨r3, ch3, h3, h4⟩ := dumpItems_grp env flag P rest hr ch1 a
                  rcases List.mem_cons.mp hm with he | hm
                  · obtain ⟨he1, he2⟩ := Prod.mk.inj he
                    cases he1; cases he2
                    rw [h3] at h
                    have := (Prod.mk.inj h).2
                    simp only [Node.grp.injEq, and_true] at this
                    rw [← this, h4 k hsr]
                    exact item_leaf env flag hf ch ch1 a k hs l u1 h1
                  · rw [← h2 k (hne hm)]
                    exact ih hr ch1 ch' a u h k v hm
          | map kvs' =>
              obtain ⟨r1, ch1, h1, h2⟩ := createGroup_grp env ch a s hs flag
              rw [dumpItems, h1, pathOf_name hs] at h
              cases r1 with
              | error e => cases (Prod.mk.inj h).1
              | ok u1 =>
                  simp only at h
                  obtain ⟨c1, a1, hl1, hor⟩ := createGroup_ok env _ _ s flag u1 h1
                  rw [pathOf_name hs, lookup_single] at hl1
                  rw [pathOf_name hs] at hor
                  rw [modifyAt_eq _ s ch1 a _ hl1] at h
                  obtain ⟨r2, c2, hd1, -⟩ := dump_grp env flag P kvs' (by simpa [Good] using hgw) c1 a1
                  rw [hd1] at h
                  cases r2 with
                  | error e => cases (Prod.mk.inj h).1
                  | ok u2 =>
                      simp only at h
                      obtain ⟨r3, ch3, h3, h4⟩ := dumpItems_grp env flag P rest hr (PyDict.set ch1 s (.grp c2 a1)) a
                      rcases List.mem_cons.mp hm with he | hm
                      · obtain ⟨he1, he2⟩ := Prod.mk.inj he
                        cases he1; cases he2
                        rw [h3] at h
                        have := (Prod.mk.inj h).2
                        simp only [Node.grp.injEq, and_true] at this
                        rw [← this, h4 k hsr, PyDict.get?_set_self]
                        refine ⟨c1, a1, c2, ?_, rfl, hd1⟩
                        rcases hor with hsame | ⟨hc, e1, e2⟩
                        · simp only [Node.grp.injEq, and_true] at hsame
                          rw [hsame] at hl1
                          exact Or.inl hl1
                        · right
                          rw [contains_single, PyDict.has] at hc
                          refine ⟨?_, e1, e2⟩
                          cases hg : PyDict.get? ch k with
                          | none => rfl
                          | some c => rw [hg] at hc; cases hc
                      · have : PyDict.get? (PyDict.set ch1 s (Node.grp c2 a1)) k = PyDict.get? ch k := by
                          rw [PyDict.get?_set_ne _ _ _ _ (hne hm), h2 k (hne hm)]
                        rw [← this]
                        exact ih hr _ ch' a u h k v hm

theorem find_mem {P : Leaf DT E → Prop} (kvs : List (KeyObj × Val DT E)) (k : Str) (q : KeyObj × Val DT E)
    (h : kvs.find? (fun p => match p.1 with | .str s => decide (s = k) | .other => false) = some q) (_ : GoodItems P kvs) :
    q ∈ kvs ∧ q.1 = .str k := by
  refine ⟨List.mem_of_find?_eq_some h, ?_⟩
  have := List.find?_some h
  obtain ⟨ko, v⟩ := q
  cases ko with
  | other => simp at this
  | str s => simp at this; simp [this]

theorem find_none {kvs : List (KeyObj × Val DT E)} {k : Str}
    (h : kvs.find? (fun p => match p.1 with | .str s => decide (s = k) | .other => false) = none) : k ∉ names kvs := by
  intro hk
  obtain ⟨v, hv⟩ := (mem_names kvs k).mp hk
  have := List.find?_eq_none.mp h (.str k, v) hv
  simp at this

theorem dump_ok_items {env : Env DT E} {flag : String} {kvs : List (KeyObj × Val DT E)} {n n' : Node DT E} {u : Unit}
    (h : dump env flag (.map kvs) n = (.ok u, n')) : dumpItems env flag kvs n = (.ok u, n') := by
  rw [dump] at h
  split at h
  · exact h
  · cases (Prod.mk.inj h).1

theorem lookup_ne_nil (n : Node DT E) (k : Str) (ks : List Str) (c : Node DT E) (h : lookup n (k :: ks) = some c) :
    ∃ ch a, n = .grp ch a := by
  cases n with
  | dset d a => simp [lookup] at h
  | grp ch a => exact ⟨ch, a, rfl⟩

/-- C13: after a successful dump with 'ac' (or 'ca') every leaf of the data is there: where there was nothing, a new
dataset with the leaf's value; where there was a dataset, that dataset (its attributes, dtype and shape unchanged)
with the leaf's value written into it; and there was no group. -/
theorem C13_leaves (env : Env DT E) (flag : String) (hf : flag = "ac" ∨ flag = "ca") (P : Leaf DT E → Prop) (l : Leaf DT E) (p : List Str) :
    ∀ (kvs : List (KeyObj × Val DT E)) (_ : GoodItems P kvs) (ch : List (Str × Node DT E)) (a : List (Str × Dset DT E)) (n' : Node DT E) (u : Unit),
    dump env flag (.map kvs) (.grp ch a) = (.ok u, n') → Val.at (.map kvs) p = some (.leaf l) →
    (lookup (.grp ch a) p = none → ∃ d, newDset env l = .ok d ∧ lookup n' p = some (.dset d [])) ∧
    (∀ old at', lookup (.grp ch a) p = some (.dset old at') →
      ∃ d d', leafDset env l = .ok d ∧ overwrite env old d = .ok d' ∧ lookup n' p = some (.dset d' at')) ∧
    (∀ c at', lookup (.grp ch a) p ≠ some (.grp c at')) := by
  induction p with
  | nil => intro kvs _ ch a n' u _ hat; simp [Val.at] at hat
  | cons k ks ih =>
      intro kvs hg ch a n' u h hat
      simp only [Val.at] at hat
      cases hfd : kvs.find? (fun p => match p.1 with | .str s => decide (s = k) | .other => false) with
      | none => rw [hfd] at hat; cases hat
      | some q =>
          rw [hfd] at hat
          obtain ⟨hq, hq1⟩ := find_mem kvs k q hfd hg
          obtain ⟨ko, v⟩ := q
          cases hq1
          have hgv := goodItems_find kvs hg _ hq
          obtain ⟨r, ch', h1, -⟩ := dump_grp env flag P kvs hg ch a
          rw [h1] at h
          obtain ⟨rfl, rfl⟩ := Prod.mk.inj h
          have hitem := dumpItems_ac env flag hf P kvs hg ch ch' a u (dump_ok_items h1) k v hq
          simp only [lookup]
          cases v with
          | leaf l0 =>
              cases ks with
              | cons k2 ks2 => simp [Val.at] at hat
              | nil =>
                  simp only [Val.at, Option.some.injEq, Val.leaf.injEq] at hat
                  subst hat
                  cases hgk : PyDict.get? ch k with
                  | none =>
                      rw [hgk] at hitem
                      obtain ⟨d, e1, e2⟩ := hitem
                      rw [e2]
                      simp [lookup, e1]
                  | some c =>
                      rw [hgk] at hitem
                      cases c with
                      | grp c1 c2 => exact absurd hitem (by simp [ItemOK])
                      | dset old at' =>
                          obtain ⟨d, d', e1, e2, e3⟩ := hitem
                          rw [e3]
                          simp only [lookup, reduceCtorEq, false_implies, true_and, Option.some.injEq, Node.dset.injEq, ne_eq, not_false_eq_true,
                            implies_true, and_true]
                          rintro old0 at0 ⟨rfl, rfl⟩
                          exact ⟨d, d', e1, e2, rfl, rfl⟩
          | map kvs' =>
              obtain ⟨c, at0, c', hb, ha', hd⟩ := hitem
              have := ih kvs' (by simpa [Good] using hgv) c at0 _ () hd hat
              rw [ha']
              rcases hb with hb | ⟨hb, rfl, rfl⟩
              · rw [hb]; exact this
              · rw [hb]
                refine ⟨fun _ => this.1 ?_, fun old at' h => by simp at h, fun c at' h => by simp at h⟩
                cases ks with
                | nil => simp [Val.at] at hat
                | cons k2 ks2 => simp [lookup, PyDict.get?]

/-- C13: the frame of a successful dump with 'ac': a dataset that is not a leaf of the data is unchanged; every group
keeps its place and attributes; whatever is new is named in the data. -/
theorem C13_frame (env : Env DT E) (flag : String) (hf : flag = "ac" ∨ flag = "ca") (P : Leaf DT E → Prop) (p : List Str) :
    ∀ (kvs : List (KeyObj × Val DT E)) (_ : GoodItems P kvs) (ch : List (Str × Node DT E)) (a : List (Str × Dset DT E)) (n' : Node DT E) (u : Unit),
    dump env flag (.map kvs) (.grp ch a) = (.ok u, n') →
    (∀ d at', lookup (.grp ch a) p = some (.dset d at') → (∀ l, Val.at (.map kvs) p ≠ some (.leaf l)) → lookup n' p = some (.dset d at')) ∧
    (∀ c at', lookup (.grp ch a) p = some (.grp c at') → ∃ c', lookup n' p = some (.grp c' at')) ∧
    (∀ x, lookup (.grp ch a) p = none → lookup n' p = some x → ∃ v, Val.at (.map kvs) p = some v) := by
  induction p with
  | nil =>
      intro kvs hg ch a n' u h
      obtain ⟨r, ch', h1, -⟩ := dump_grp env flag P kvs hg ch a
      rw [h1] at h
      obtain ⟨rfl, rfl⟩ := Prod.mk.inj h
      simp only [lookup]
      refine ⟨fun d at' h => by simp at h, fun c at' h => ?_, fun x h => by simp at h⟩
      simp only [Option.some.injEq, Node.grp.injEq] at h
      exact ⟨ch', by rw [h.2]⟩
  | cons k ks ih =>
      intro kvs hg ch a n' u h
      obtain ⟨r, ch', h1, h2⟩ := dump_grp env flag P kvs hg ch a
      rw [h1] at h
      obtain ⟨rfl, rfl⟩ := Prod.mk.inj h
      simp only [lookup, Val.at]
      cases hfd : kvs.find? (fun p => match p.1 with | .str s => decide (s = k) | .other => false) with
      | none =>
          rw [h2 k (find_none hfd)]
          refine ⟨fun d at' h _ => h, fun c at' h => ⟨c, h⟩, fun x h h' => ?_⟩
          rw [h] at h'; cases h'
      | some q =>
          obtain ⟨hq, hq1⟩ := find_mem kvs k q hfd hg
          obtain ⟨ko, v⟩ := q
          cases hq1
          have hgv := goodItems_find kvs hg _ hq
          have hitem := dumpItems_ac env flag hf P kvs hg ch ch' a u (dump_ok_items h1) k v hq
          simp only
          cases v with
          | leaf l =>
              cases hgk : PyDict.get? ch k with
              | none =>
                  rw [hgk] at hitem
                  obtain ⟨d, e1, e2⟩ := hitem
                  rw [e2]
                  cases ks with
                  | nil => simp [Val.at]
                  | cons k2 ks2 => simp [lookup]
              | some c =>
                  rw [hgk] at hitem
                  cases c with
                  | grp c1 c2 => exact absurd hitem (by simp [ItemOK])
                  | dset old at' =>
                      obtain ⟨d, d', e1, e2, e3⟩ := hitem
                      rw [e3]
                      cases ks with
                      | nil => simp [Val.at, lookup]
                      | cons k2 ks2 => simp [lookup]
          | map kvs' =>
              obtain ⟨c, at0, c', hb, ha', hd⟩ := hitem
              have := ih kvs' (by simpa [Good] using hgv) c at0 _ () hd
              rw [ha']
              rcases hb with hb | ⟨hb, rfl, rfl⟩
              · rw [hb]; exact this
              · rw [hb]
                refine ⟨fun d at' h => by simp at h, fun c at' h => by simp at h, fun x _ h => ?_⟩
                cases ks with
                | nil => exact ⟨_, rfl⟩
                | cons k2 ks2 => exact this.2.2 x (by simp [lookup, PyDict.get?]) h

theorem matchShape_self (s : List Nat) : matchShape s s = some (s.zip s) := by
  have h : ∀ s : List Nat, (s.zip s).all (fun p => decide (p.1 = 1 ∨ p.1 = p.2)) = true := by
    intro s
    induction s with
    | nil => rfl
    | cons x s ih => simp only [List.zip_cons_cons, List.all_cons, ih, Bool.and_true, decide_eq_true_eq]; exact Or.inr trivial
  unfold matchShape
  simp only [Nat.sub_self, List.take_zero, List.replicate_zero, List.drop_zero, List.nil_append, List.all_nil, Bool.true_and, h s, if_true]

theorem zip_self_fst (s : List Nat) : (s.zip s).map (·.1) = s := by
  induction s with
  | nil => rfl
  | cons x s ih => simp [ih]

theorem flatMap_chunks {α : Type} (c : Nat) (s : Nat) : ∀ (xs : List α), xs.length = s * c →
    (List.range s).flatMap (fun i => (xs.drop (i * c)).take c) = xs := by
  induction s with
  | zero => intro xs h; simp at h; simp [h]
  | succ s ih =>
      intro xs h
      rw [List.range_succ_eq_map, List.flatMap_cons, List.flatMap_map]
      have h1 := ih (xs.drop c) (by rw [List.length_drop, h, Nat.succ_mul]; omega)
      have : (List.range s).flatMap (fun a => List.take c (List.drop (a.succ * c) xs)) =
          (List.range s).flatMap (fun i => ((xs.drop c).drop (i * c)).take c) := by
        congr 1; funext i; rw [List.drop_drop, Nat.succ_mul, Nat.add_comm]
      rw [this, h1]
      simp

theorem expand_self (s : List Nat) : ∀ (xs : List E), xs.length = s.prod → expand (s.zip s) xs = xs := by
  induction s with
  | nil => intro xs _; rfl
  | cons n s ih =>
      intro xs h
      simp only [List.zip_cons_cons, expand, if_true, zip_self_fst]
      rw [List.prod_cons] at h
      conv_rhs => rw [← flatMap_chunks s.prod n xs h]
      simp only [List.flatMap_def]
      congr 1
      apply List.map_congr_left
      intro i hi
      refine ih _ ?_
      rw [List.length_take, List.length_drop, h]
      have hi' : i < n := by simpa using hi
      have : (i + 1) * s.prod ≤ n * s.prod := Nat.mul_le_mul_right _ hi'
      rw [Nat.succ_mul] at this
      omega

/-- Casting an array to its own dtype changes nothing. -/
def Env.Lawful (env : Env DT E) : Prop := ∀ dt, env.cast dt dt = some id

/-- C13: writing an array into a dataset of the same dtype and shape makes the dataset equal to the array; in any case
the dataset keeps its dtype and shape. -/
theorem C13_overwrite (env : Env DT E) (hl : env.Lawful) (old d : Dset DT E) :
    (d.dt = old.dt → d.shape = old.shape → d.elems.length = d.shape.prod → overwrite env old d = .ok d) ∧
    (∀ d', overwrite env old d = .ok d' → d'.dt = old.dt ∧ d'.shape = old.shape ∧ overwrite env d' d = .ok d') := by
  constructor
  · intro h1 h2 h3
    unfold overwrite
    rw [h1, hl, ← h2, matchShape_self]
    simp only [expand_self _ _ h3, List.map_id]
    obtain ⟨x, y, z⟩ := d
    obtain ⟨x', y', z'⟩ := old
    simp only at h1 h2
    subst h1; subst h2
    rfl
  · intro d' h
    unfold overwrite at h ⊢
    split at h
    · cases h
    · rename_i f hf
      split at h
      · cases h
      · rename_i ps hps
        cases h
        refine ⟨rfl, rfl, ?_⟩
        simp only [hf, hps]

/-- What one item must look like for a dump with 'ac' to change nothing. -/
def Stable (env : Env DT E) (flag : String) : Val DT E → Option (Node DT E) → Prop
  | .leaf l, some (.dset d _) => ∃ d0, leafDset env l = .ok d0 ∧ overwrite env d d0 = .ok d
  | .map kvs, some (.grp c at') => dump env flag (.map kvs) (.grp c at') = (.ok (), .grp c at')
  | _, _ => False

theorem dumpItems_stable (env : Env DT E) (hw : env.writable = true) (flag : String) (hf : flag = "ac" ∨ flag = "ca") (P : Leaf DT E → Prop)
    (kvs : List (KeyObj × Val DT E)) (hg : GoodItems P kvs) (ch : List (Str × Node DT E)) (a : List (Str × Dset DT E))
    (h : ∀ k v, (KeyObj.str k, v) ∈ kvs → Stable env flag v (PyDict.get? ch k)) :
    dumpItems env flag kvs (.grp ch a) = (.ok (), .grp ch a) := by
  obtain ⟨f1, f2⟩ := flag_ac hf
  induction kvs with
  | nil => rw [dumpItems]
  | cons p rest ih =>
      obtain ⟨ko, v⟩ := p
      cases ko with
      | other => simp [GoodItems] at hg
      | str k =>
          simp only [GoodItems] at hg
          obtain ⟨hk, -, -, hr⟩ := hg
          have hs := h k v (by simp)
          have hrest := ih hr (fun k v hm => h k v (by simp [hm]))
          cases hgk : PyDict.get? ch k with
          | none => rw [hgk] at hs; cases v <;> exact absurd hs (by simp [Stable])
          | some c =>
              rw [hgk] at hs
              cases v with
              | leaf l =>
                  cases c with
                  | grp c1 c2 => exact absurd hs (by simp [Stable])
                  | dset d at' =>
                      obtain ⟨d0, e1, e2⟩ := hs
                      have : dsCreate env (.grp ch a) k l flag = (.ok (), .grp ch a) := by
                        unfold dsCreate
                        rw [pathOf_name hk, contains_single, lookup_single, f1, f2, PyDict.has, hgk]
                        simp only [Bool.not_true, Bool.false_eq_true, if_false, Option.isSome_some, if_true]
                        rw [modifyAt_eq _ k ch a _ hgk]
                        simp only [assign, hw, if_true, e1, e2, bind, Except.bind]
                        rw [PyDict.set_get?_self _ _ _ hgk]
                      rw [dumpItems, this]
                      exact hrest
              | map kvs' =>
                  cases c with
                  | dset d at' => exact absurd hs (by simp [Stable])
                  | grp c1 c2 =>
                      have hs : dump env flag (.map kvs') (.grp c1 c2) = (.ok (), .grp c1 c2) := hs
                      have : createGroup env (.grp ch a) k flag = (.ok (), .grp ch a) := by
                        unfold createGroup
                        rw [pathOf_name hk, contains_single, lookup_single, f1, f2, PyDict.has, hgk]
                        simp only [Bool.not_true, Bool.false_eq_true, if_false, Option.isSome_some, if_true]
                      rw [dumpItems, this, pathOf_name hk]
                      simp only
                      rw [modifyAt_eq _ k ch a _ hgk, hs]
                      simp only
                      rw [PyDict.set_get?_self _ _ _ hgk]
                      exact hrest

/-- A leaf whose array has as many elements as its shape says. -/
def LeafWF : Leaf DT E → Prop
  | .dat d => d.elems.length = d.shape.prod
  | _ => True

theorem leafDset_wf {env : Env DT E} {l : Leaf DT E} (hl : LeafWF l) {d : Dset DT E} (h : leafDset env l = .ok d) : d.elems.length = d.shape.prod := by
  cases l with
  | bad => cases h
  | str s => cases h; rfl
  | dat d' => cases h; exact hl

theorem newDset_leafDset {env : Env DT E} {l : Leaf DT E} {d : Dset DT E} (h : newDset env l = .ok d) : leafDset env l = .ok d := by
  unfold newDset at h
  simp only [bind, Except.bind, pure, Except.pure] at h
  split at h
  · cases h
  · rename_i d' hd'
    split at h
    · cases h; exact hd'
    · cases h

theorem dump_idem (env : Env DT E) (hl : env.Lawful) (hw : env.writable = true) (flag : String) (hf : flag = "ac" ∨ flag = "ca")
    (kvs : List (KeyObj × Val DT E)) (hg : GoodItems LeafWF kvs) (ch : List (Str × Node DT E)) (a : List (Str × Dset DT E))
    (n' : Node DT E) (h : dump env flag (.map kvs) (.grp ch a) = (.ok (), n')) : dump env flag (.map kvs) n' = (.ok (), n') := by
  obtain ⟨r, ch', h1, -⟩ := dump_grp env flag LeafWF kvs hg ch a
  rw [h1] at h
  obtain ⟨rfl, rfl⟩ := Prod.mk.inj h
  have hs : scanItems kvs = true := by
    rw [dump] at h1
    by_cases hs : scanItems kvs = true
    · exact hs
    · rw [if_neg hs] at h1; cases (Prod.mk.inj h1).1
  rw [dump, if_pos hs]
  refine dumpItems_stable env hw flag hf LeafWF kvs hg ch' a ?_
  intro k v hm
  have hitem := dumpItems_ac env flag hf LeafWF kvs hg ch ch' a () (dump_ok_items h1) k v hm
  have hgv := goodItems_find kvs hg _ hm
  cases v with
  | leaf l =>
      have hlw : LeafWF l := by simpa [Good] using hgv
      cases hgk : PyDict.get? ch k with
      | none =>
          rw [hgk] at hitem
          obtain ⟨d, e1, e2⟩ := hitem
          rw [e2]
          have := newDset_leafDset e1
          exact ⟨d, this, (C13_overwrite env hl d d).1 rfl rfl (leafDset_wf hlw this)⟩
      | some c =>
          rw [hgk] at hitem
          cases c with
          | grp c1 c2 => exact absurd hitem (by simp [ItemOK])
          | dset old at' =>
              obtain ⟨d, d', e1, e2, e3⟩ := hitem
              rw [e3]
              exact ⟨d, e1, ((C13_overwrite env hl old d).2 d' e2).2.2⟩
  | map kvs' =>
      obtain ⟨c, at0, c', -, ha', hd⟩ := hitem
      rw [ha']
      have hsz : sizeOf kvs' < sizeOf kvs := by
        have := List.sizeOf_lt_of_mem hm
        simp only [Prod.mk.sizeOf_spec, Val.map.sizeOf_spec] at this
        omega
      exact dump_idem env hl hw flag hf kvs' (by simpa [Good] using hgv) c at0 _ hd
termination_by sizeOf kvs

/-- C13: repeating a successful dump with 'ac' changes nothing. -/
theorem C13_idempotent (env : Env DT E) (hl : env.Lawful) (hw : env.writable = true) (flag : String) (hf : flag = "ac" ∨ flag = "ca")
    (kvs : List (KeyObj × Val DT E)) (hg : GoodItems LeafWF kvs) (ch : List (Str × Node DT E)) (a : List (Str × Dset DT E))
    (n' : Node DT E) (h : dump env flag (.map kvs) (.grp ch a) = (.ok (), n')) : dump env flag (.map kvs) n' = (.ok (), n') :=
  dump_idem env hl hw flag hf kvs hg ch a n' h

/-- C13 (recorded): without equal shapes 'ac' does not store the dumped value: a scalar is broadcast over the existing
array, which keeps its shape. -/
theorem C13_broadcast_example :
    dump exEnv "ac" (.map [(.str "q".toList, .leaf (.dat ⟨1, [], [9]⟩))]) (.grp [("q".toList, .dset ⟨1, [3], [4, 5, 6]⟩ [])] []) =
    (.ok (), .grp [("q".toList, .dset ⟨1, [3], [9, 9, 9]⟩ [])] []) := rfl

/-- The hypotheses of C13 are met: overwriting one dataset in a sub-group and adding another. -/
example : exEnv.Lawful ∧ exEnv.writable = true ∧
    GoodItems LeafWF [(.str "g".toList, .map [(.str "u".toList, .leaf (.dat ⟨1, [2], [8, 9]⟩)), (.str "w".toList, .leaf (.str "s".toList))])] ∧
    dump exEnv "ac" (.map [(.str "g".toList, .map [(.str "u".toList, .leaf (.dat ⟨1, [2], [8, 9]⟩)), (.str "w".toList, .leaf (.str "s".toList))])])
      (.grp [("g".toList, .grp [("u".toList, .dset ⟨1, [2], [1, 2]⟩ [("t".toList, ⟨1, [], [0]⟩)]), ("o".toList, .dset ⟨1, [], [3]⟩ [])] [])] []) =
      (.ok (), .grp [("g".toList, .grp [("u".toList, .dset ⟨1, [2], [8, 9]⟩ [("t".toList, ⟨1, [], [0]⟩)]), ("o".toList, .dset ⟨1, [], [3]⟩ []),
        ("w".toList, .dset ⟨7, [], [1]⟩ [])] [])] []) := by
  refine ⟨?_, rfl, ?_, rfl⟩
  · intro dt; simp [exEnv]
  · simp only [GoodItems, Good, names, IsName, LeafWF]
    exact ⟨by decide, by decide, ⟨by decide, by decide, rfl, by decide, by decide, trivial, trivial⟩, trivial⟩

end Pyhipp.H5
