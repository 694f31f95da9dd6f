import Verif.Model.H5Like
import Verif.Props.H5File
/-
C22: GroupLike objects survive `to_h5_group`/`from_h5_group` and `to_h5_file`/`from_h5_file`.
-/
namespace Pyhipp.H5
open Pyhipp

variable {DT E : Type}

/-! ### Specification -/

/-- Two pieces of plain data are equal as nested mappings: under every path both have nothing, or equal arrays, or mappings. -/
def SameData (v w : LVal DT E) : Prop :=
  ∀ q, match LVal.at v q, LVal.at w q with
    | none, none => True
    | some (.dat d), some (.dat d') => d = d'
    | some (.map _), some (.map _) => True
    | _, _ => False

mutual
/-- The object is of the declared type at every level: each declared field exists and is of its type; field names are proper
names without repetition; everything that has to be stored can be stored. -/
def Conforms (env : Env DT E) : Tp → Obj DT E → Prop
  | .str, .str s => Storable env (.str s)
  | .plain, .plain v => Good (Storable env) v.toVal
  | .table, .table cols => PyDict.WF cols ∧ ∀ p ∈ cols, IsName p.1 ∧ ∃ d, p.2 = .dat d ∧ Storable env (.dat d)
  | .cls td, .inst td' attrs => td' = td ∧ ConformsAll env td attrs
  | _, _ => False
/-- The same for the fields of a class. -/
def ConformsAll (env : Env DT E) : List (Str × Tp) → List (Str × Obj DT E) → Prop
  | [], _ => True
  | (k, t) :: rest, attrs => IsName k ∧ k ∉ PyDict.keys rest ∧ (∃ o, PyDict.get? attrs k = some o ∧ Conforms env t o) ∧ ConformsAll env rest attrs
end

mutual
/-- The two objects have equal declared fields at every nesting level.  A DataTable has equal columns, but those of the second are in
alphabetical order. -/
def Same : Tp → Obj DT E → Obj DT E → Prop
  | .str, .str s, .str s' => s = s'
  | .plain, .plain v, .plain v' => SameData v v'
  | .table, .table cols, .table cols' => cols'.Perm cols ∧ (PyDict.keys cols').Pairwise (· < ·)
  | .cls td, .inst td1 attrs, .inst td2 attrs' => td1 = td ∧ td2 = td ∧ SameAll td attrs attrs'
  | _, _, _ => False
/-- The same for the fields of a class. -/
def SameAll : List (Str × Tp) → List (Str × Obj DT E) → List (Str × Obj DT E) → Prop
  | [], _, _ => True
  | (k, t) :: rest, a, b => (∃ o o', PyDict.get? a k = some o ∧ PyDict.get? b k = some o' ∧ Same t o o') ∧ SameAll rest a b
end

/-! ### Proofs -/

theorem toVals_map (kvs : List (Str × LVal DT E)) : LVal.toVals kvs = kvs.map (fun p => (KeyObj.str p.1, p.2.toVal)) := by
  induction kvs with
  | nil => simp [LVal.toVals]
  | cons p rest ih => obtain ⟨k, v⟩ := p; simp [LVal.toVals, ih]

theorem at_toVal (q : List Str) : ∀ v : LVal DT E, Val.at v.toVal q = (LVal.at v q).map LVal.toVal := by
  induction q with
  | nil => intro v; simp [Val.at, LVal.at]
  | cons k ks ih =>
      intro v
      cases v with
      | dat d => simp [LVal.toVal, Val.at, LVal.at]
      | map kvs =>
          rw [LVal.toVal]
          simp only [Val.at, LVal.at]
          have h : (LVal.toVals kvs).find? (fun p => match p.1 with | .str s => decide (s = k) | .other => false)
              = (PyDict.get? kvs k).map (fun v => (KeyObj.str k, v.toVal)) := by
            clear ih
            induction kvs with
            | nil => simp [LVal.toVals]
            | cons p rest ih =>
                obtain ⟨k', v⟩ := p
                rw [LVal.toVals, List.find?_cons, PyDict.get?]
                by_cases hk : k' = k
                · subst hk; simp
                · simp only [hk, decide_false, if_false]; exact ih
          have h' : ∀ (x : Option (KeyObj × Val DT E)) (y : Option (LVal DT E)), x = y.map (fun v => (KeyObj.str k, v.toVal)) →
              (match x with | some p => Val.at p.2 ks | none => none) = Option.map LVal.toVal (match y with | some v => LVal.at v ks | none => none) := by
            rintro x y rfl
            cases y with
            | none => rfl
            | some v => exact ih v
          exact h' _ _ h

theorem sameData_load (env : Env DT E) (v : LVal DT E) (hg : Good (Storable env) v.toVal) : SameData v (load (build env v.toVal)) := by
  intro q
  have h := load_build_at env q v.toVal hg
  rw [at_toVal] at h
  cases hv : LVal.at v q with
  | none =>
      rw [hv] at h
      rw [h.2 rfl]; trivial
  | some w =>
      rw [hv] at h
      obtain ⟨y, hy, hl⟩ := h.1 w.toVal rfl
      rw [hy]
      cases w with
      | dat d =>
          cases y with
          | dat d' => simpa [LVal.toVal, IsLoaded, leafVal] using hl
          | map m => simp [LVal.toVal, IsLoaded] at hl
      | map m =>
          cases y with
          | dat d' => simp [LVal.toVal, IsLoaded] at hl
          | map m => trivial

theorem sameAll_congr (td : List (Str × Tp)) (a b b' : List (Str × Obj DT E))
    (h : ∀ k ∈ PyDict.keys td, PyDict.get? b' k = PyDict.get? b k) (hs : SameAll td a b) : SameAll td a b' := by
  induction td with
  | nil => simp [SameAll]
  | cons p rest ih =>
      obtain ⟨k, t⟩ := p
      simp only [SameAll] at hs ⊢
      refine ⟨?_, ih (fun k hk => h k (by simp [hk])) hs.2⟩
      rw [h k (by simp)]; exact hs.1

theorem get?_attrData (attrs : List (Str × Obj DT E)) (k : Str) : PyDict.get? (attrData attrs) k = (PyDict.get? attrs k).map toH5Data := by
  induction attrs with
  | nil => simp [attrData]
  | cons p rest ih =>
      obtain ⟨k', o⟩ := p
      rw [attrData]
      simp only [PyDict.get?]
      split
      · rfl
      · exact ih

theorem mem_buildItems (env : Env DT E) (items : List (KeyObj × Val DT E)) (k : Str) (v : Val DT E) (h : (KeyObj.str k, v) ∈ items) :
    (k, build env v) ∈ buildItems env items := by
  induction items with
  | nil => simp at h
  | cons p rest ih =>
      obtain ⟨ko, w⟩ := p
      rcases List.mem_cons.mp h with he | hm
      · obtain ⟨rfl, rfl⟩ := Prod.mk.inj he
        simp [buildItems]
      · cases ko with
        | other => simpa [buildItems] using ih hm
        | str s => simp only [buildItems, List.mem_cons]; exact Or.inr (ih hm)

theorem tableItems_ok (env : Env DT E) : ∀ (cols : List (Str × LVal DT E)), PyDict.WF cols → (∀ p ∈ cols, IsName p.1 ∧ ∃ d, p.2 = .dat d ∧ Storable env (.dat d)) →
    ∃ items, tableItems cols = .ok items ∧ GoodItems (Storable env) items ∧ names items = PyDict.keys cols ∧ loadItems (buildItems env items) = cols := by
  intro cols
  induction cols with
  | nil => intro _ _; exact ⟨[], rfl, by simp [GoodItems], by simp [names], by simp [buildItems, loadItems]⟩
  | cons p rest ih =>
      intro hwf h
      obtain ⟨k, v⟩ := p
      obtain ⟨hk, d, hv, hd⟩ := h (k, v) (by simp)
      simp only at hk hv
      subst hv
      have hwf' : k ∉ PyDict.keys rest ∧ PyDict.WF rest := by
        unfold PyDict.WF PyDict.keys at *
        simpa using hwf
      obtain ⟨items, h1, h2, h3, h4⟩ := ih hwf'.2 (fun q hq => h q (by simp [hq]))
      obtain ⟨d', hd'⟩ := hd
      have hv := newDset_val hd'
      simp only [leafVal, Option.some.injEq] at hv
      subst hv
      refine ⟨(.str k, .leaf (.dat d)) :: items, ?_, ?_, ?_, ?_⟩
      · unfold tableItems at h1 ⊢
        rw [List.mapM_cons]
        simp only [bind, Except.bind, pure, Except.pure] at h1 ⊢
        rw [h1]
      · simp only [GoodItems]
        exact ⟨hk, by rw [h3]; exact hwf'.1, by rw [Good]; exact ⟨_, hd'⟩, h2⟩
      · simp [names, h3]
      · rw [buildItems, loadItems, h4, build, buildLeaf, hd', load]

mutual
theorem round_trip (env : Env DT E) (decode : Dset DT E → PyM Str) (hdec : ∀ s, decode ⟨env.strDT, [], [env.bytesOf s]⟩ = .ok s) (t : Tp)
    (o : Obj DT E) (h : Conforms env t o) :
    ∃ v, toH5Data o = .ok v ∧ Good (Storable env) v ∧ ∃ o', fromH5Data decode t (load (build env v)) = .ok o' ∧ Same t o o' := by
  match t, o with
  | .str, .str s =>
      rw [Conforms] at h
      obtain ⟨d, hd⟩ := h
      have hv := newDset_val hd
      simp only [leafVal, Option.some.injEq] at hv
      subst hv
      refine ⟨_, by rw [toH5Data], by rw [Good]; exact ⟨_, hd⟩, .str s, ?_, by simp [Same]⟩
      have hb : load (build env (.leaf (.str s))) = .dat ⟨env.strDT, [], [env.bytesOf s]⟩ := by
        rw [build, buildLeaf, hd, load]
      rw [hb, fromH5Data, hdec]
      rfl
  | .plain, .plain v =>
      rw [Conforms] at h
      refine ⟨_, by rw [toH5Data], h, .plain (load (build env v.toVal)), by rw [fromH5Data], ?_⟩
      rw [Same]; exact sameData_load env v h
  | .table, .table cols =>
      rw [Conforms] at h
      obtain ⟨items, h1, h2, h3, h4⟩ := tableItems_ok env cols h.1 h.2
      refine ⟨.map items, ?_, by rw [Good]; exact h2, .table (sortNames cols), ?_, ?_⟩
      · rw [toH5Data, h1]; rfl
      · rw [build, load, h4, fromH5Data, tableOf]
      · rw [Same]; exact ⟨sortNames_perm cols, keys_sorted cols h.1⟩
  | .cls td, .inst td' attrs =>
      rw [Conforms] at h
      obtain ⟨rfl, h⟩ := h
      obtain ⟨items, h1, h2, h3, h4⟩ := round_trip_all env decode hdec td' attrs h
      have hwf : PyDict.WF (loadItems (buildItems env items)) := by
        rw [loadItems_map]
        unfold PyDict.WF PyDict.keys
        rw [List.map_map]
        have := names_nodup items h2
        rw [← keys_buildItems env] at this
        exact this
      obtain ⟨kw, h5, h6, h7⟩ := h4 (sortNames (loadItems (buildItems env items))) (wf_perm (sortNames_perm _).symm hwf) (by
        intro k v hm
        rw [get?_sortNames _ hwf]
        refine PyDict.get?_of_mem _ hwf _ _ ?_
        rw [loadItems_map]
        refine List.mem_map.mpr ⟨(k, build env v), mem_buildItems env items k v hm, rfl⟩)
      refine ⟨.map items, ?_, by rw [Good]; exact h2, .inst td' kw, ?_, ?_⟩
      · rw [toH5Data]; simp only [bind, Except.bind, pure, Except.pure, h1]
      · rw [build, load, fromH5Data]; simp only [bind, Except.bind, pure, Except.pure, h5]
      · rw [Same]; exact ⟨rfl, rfl, h7⟩
  | .str, .plain _ => simp [Conforms] at h
  | .str, .inst _ _ => simp [Conforms] at h
  | .plain, .str _ => simp [Conforms] at h
  | .plain, .inst _ _ => simp [Conforms] at h
  | .cls _, .str _ => simp [Conforms] at h
  | .cls _, .plain _ => simp [Conforms] at h
  | .str, .table _ => simp [Conforms] at h
  | .plain, .table _ => simp [Conforms] at h
  | .cls _, .table _ => simp [Conforms] at h
  | .table, .str _ => simp [Conforms] at h
  | .table, .plain _ => simp [Conforms] at h
  | .table, .inst _ _ => simp [Conforms] at h
theorem round_trip_all (env : Env DT E) (decode : Dset DT E → PyM Str) (hdec : ∀ s, decode ⟨env.strDT, [], [env.bytesOf s]⟩ = .ok s)
    (td : List (Str × Tp)) (attrs : List (Str × Obj DT E)) (h : ConformsAll env td attrs) :
    ∃ items, (td.map (·.1)).mapM (fieldItem (attrData attrs)) = .ok items ∧ GoodItems (Storable env) items ∧ names items = PyDict.keys td ∧
      ∀ data, PyDict.WF data → (∀ k v, (KeyObj.str k, v) ∈ items → PyDict.get? data k = some (load (build env v))) →
        ∃ kw, fromFields decode td data = .ok kw ∧ PyDict.keys kw = PyDict.keys td ∧ SameAll td attrs kw := by
  match td with
  | [] =>
      refine ⟨[], rfl, by simp [GoodItems], by simp [names], fun data _ _ => ⟨[], by rw [fromFields], rfl, by simp [SameAll]⟩⟩
  | (k, t) :: rest =>
      simp only [ConformsAll] at h
      obtain ⟨hk, hnk, ⟨o, ho, hc⟩, hr⟩ := h
      obtain ⟨v, h1, h2, o', h3, h4⟩ := round_trip env decode hdec t o hc
      obtain ⟨items, g1, g2, g3, g4⟩ := round_trip_all env decode hdec rest attrs hr
      have hitem : fieldItem (attrData attrs) k = .ok (.str k, v) := by
        unfold fieldItem; rw [get?_attrData, ho]; simp only [Option.map_some, h1]
      refine ⟨(.str k, v) :: items, ?_, ?_, ?_, ?_⟩
      · rw [List.map_cons, List.mapM_cons, hitem]
        simp only [bind, Except.bind, pure, Except.pure] at g1 ⊢
        rw [g1]
      · simp only [GoodItems]; exact ⟨hk, by rw [g3]; exact hnk, h2, g2⟩
      · simp [names, g3]
      · intro data hwf hget
        obtain ⟨kw, e1, e2, e3⟩ := g4 (PyDict.del data k) (PyDict.WF_del data k hwf) (by
          intro k' v' hm
          have : k' ≠ k := by
            rintro rfl
            exact hnk (g3 ▸ (mem_names items k').mpr ⟨v', hm⟩)
          rw [PyDict.get?_del data k k' hwf, if_neg this]
          exact hget k' v' (by simp [hm]))
        refine ⟨(k, o') :: kw, ?_, by simp [e2], ?_⟩
        · rw [fromFields, hget k v (by simp)]
          simp only [h3, e1, bind, Except.bind, pure, Except.pure]
        · rw [SameAll]
          refine ⟨⟨o, o', ho, by simp [PyDict.get?], h4⟩, sameAll_congr rest attrs kw _ ?_ e3⟩
          intro k' hk'
          have : k ≠ k' := by rintro rfl; exact hnk hk'
          simp [PyDict.get?, this]
end


theorem fromGroup_of (env : Env DT E) (decode : Dset DT E → PyM Str) (hdec : ∀ s, decode ⟨env.strDT, [], [env.bytesOf s]⟩ = .ok s)
    (hw : env.writable = true) (td : List (Str × Tp)) (obj : Obj DT E) (hc : Conforms env (.cls td) obj) (ch : List (Str × Node DT E))
    (a : List (Str × Dset DT E)) (hwf : PyDict.WF ch) (hd : ∀ k ∈ PyDict.keys td, k ∉ PyDict.keys ch) (flag : String) (hf : flagOk flag = true) :
    ∃ ch' obj', toH5Group env obj flag (.grp ch a) = (.ok (), .grp ch' a) ∧ (∀ k, k ∉ PyDict.keys td → PyDict.get? ch' k = PyDict.get? ch k) ∧
      PyDict.WF ch' ∧ (∀ a', fromH5Group decode td [] (.grp ch' a') = .ok obj') ∧ Same (.cls td) obj obj' := by
  cases obj with
  | str s => simp [Conforms] at hc
  | plain v => simp [Conforms] at hc
  | table cols => simp [Conforms] at hc
  | inst td' attrs =>
      rw [Conforms] at hc
      obtain ⟨rfl, hc⟩ := hc
      obtain ⟨items, h1, h2, h3, h4⟩ := round_trip_all env decode hdec td' attrs hc
      have hto : toH5Data (.inst td' attrs) = .ok (.map items) := by
        rw [toH5Data]; simp only [bind, Except.bind, pure, Except.pure, h1]
      have hnd := names_nodup items h2
      have hwf' : PyDict.WF (ch ++ buildItems env items) := by
        unfold PyDict.WF PyDict.keys at *
        rw [List.map_append, List.nodup_append]
        refine ⟨hwf, ?_, ?_⟩
        · have := keys_buildItems env items; unfold PyDict.keys at this; rw [this]; exact hnd
        · intro x hx y hy hxy
          subst hxy
          have := keys_buildItems env items; unfold PyDict.keys at this; rw [this, h3] at hy
          exact hd x hy hx
      have hwfl : PyDict.WF (loadItems (ch ++ buildItems env items)) := by
        rw [loadItems_map]; unfold PyDict.WF; rw [PyDict.keys_map load]; exact hwf'
      obtain ⟨kw, h5, h6, h7⟩ := h4 (sortNames (loadItems (ch ++ buildItems env items))) (wf_perm (sortNames_perm _).symm hwfl) (by
        intro k v hm
        rw [get?_sortNames _ hwfl]
        refine PyDict.get?_of_mem _ hwfl _ _ ?_
        rw [loadItems_map]
        exact List.mem_map.mpr ⟨(k, build env v), List.mem_append_right _ (mem_buildItems env items k v hm), rfl⟩)
      refine ⟨ch ++ buildItems env items, .inst td' kw, ?_, ?_, hwf', ?_, ?_⟩
      · unfold toH5Group
        rw [hto]
        simp only
        rw [dump, scanItems_good (fun l hl => storable_leafOk hl) items h2, if_pos rfl]
        exact dumpItems_build env hw flag hf items h2 ch a (by rw [h3]; exact hd)
      · intro k hk
        rw [PyDict.get?_append, (PyDict.get?_eq_none_iff (buildItems env items) k).mpr (by rw [keys_buildItems, h3]; exact hk), Option.or_none]
      · intro a'
        unfold fromH5Group
        simp only [h5, bind, Except.bind, pure, Except.pure, PyDict.update, List.foldl_nil]
      · rw [Same]; exact ⟨rfl, rfl, h7⟩

/-- C22: an object of a GroupLike class (fields str, plain data, DataTables or objects of GroupLike classes, nested to any depth) is
written by `to_h5_group` into a group that has no child with the name of a field, and `from_h5_group` rebuilds an object
with equal fields at every level.  Other children of the group and its attributes are not touched. -/
theorem C22_round_trip (env : Env DT E) (hw : env.writable = true) (decode : Dset DT E → PyM Str)
    (hdec : ∀ s, decode ⟨env.strDT, [], [env.bytesOf s]⟩ = .ok s) (td : List (Str × Tp)) (obj : Obj DT E) (hc : Conforms env (.cls td) obj)
    (ch : List (Str × Node DT E)) (a : List (Str × Dset DT E)) (hwf : PyDict.WF ch) (hd : ∀ k ∈ PyDict.keys td, k ∉ PyDict.keys ch)
    (flag : String) (hf : flag = "x" ∨ flag = "ac" ∨ flag = "ca") :
    ∃ ch' obj', toH5Group env obj flag (.grp ch a) = (.ok (), .grp ch' a) ∧ fromH5Group decode td [] (.grp ch' a) = .ok obj' ∧
      Same (.cls td) obj obj' ∧ ∀ k, k ∉ PyDict.keys td → PyDict.get? ch' k = PyDict.get? ch k := by
  obtain ⟨ch', obj', h1, h2, -, h3, h4⟩ := fromGroup_of env decode hdec hw td obj hc ch a hwf hd flag (by rcases hf with rfl | rfl | rfl <;> rfl)
  exact ⟨ch', obj', h1, h3 a, h4, h2⟩

/-- C22: keyword arguments given to `from_h5_group` replace the loaded fields of the same name, and leave the others. -/
theorem C22_init_kw (decode : Dset DT E → PyM Str) (td : List (Str × Tp)) (n : Node DT E) (kw initKw : List (Str × Obj DT E)) (hkw : PyDict.WF initKw)
    (h : fromH5Group decode td [] n = .ok (.inst td kw)) :
    ∃ kw', fromH5Group decode td initKw n = .ok (.inst td kw') ∧
      (∀ k o, PyDict.get? initKw k = some o → PyDict.get? kw' k = some o) ∧ (∀ k, PyDict.get? initKw k = none → PyDict.get? kw' k = PyDict.get? kw k) := by
  cases n with
  | dset d a => cases h
  | grp ch a =>
      simp only [fromH5Group] at h ⊢
      cases hk : fromFields decode td (sortNames (loadItems ch)) with
      | error e => rw [hk] at h; cases h
      | ok kw0 =>
          rw [hk] at h
          simp only [bind, Except.bind, pure, Except.pure, PyDict.update, List.foldl_nil, Except.ok.injEq, Obj.inst.injEq, true_and] at h
          subst h
          refine ⟨PyDict.update kw0 initKw, rfl, fun k o ho => ?_, fun k ho => ?_⟩
          · rw [PyDict.get?_update _ _ _ hkw, ho]; rfl
          · rw [PyDict.get?_update _ _ _ hkw, ho]; rfl

theorem fromFields_missing (decode : Dset DT E → PyM Str) (k : Str) : ∀ (td : List (Str × Tp)) (data : List (Str × LVal DT E)), PyDict.WF data → k ∈ PyDict.keys td →
    k ∉ PyDict.keys data → ∃ e, fromFields decode td data = .error e := by
  intro td
  induction td with
  | nil => intro data _ h; simp at h
  | cons p rest ih =>
      intro data hwf hk hn
      obtain ⟨k', t⟩ := p
      rw [fromFields]
      cases hg : PyDict.get? data k' with
      | none => exact ⟨_, rfl⟩
      | some v =>
          simp only
          cases fromH5Data decode t v with
          | error e => exact ⟨e, rfl⟩
          | ok o =>
              have hne : k ≠ k' := by
                rintro rfl
                rw [(PyDict.get?_eq_none_iff data k).mpr hn] at hg; cases hg
              have hk' : k ∈ PyDict.keys rest := by
                rcases List.mem_cons.mp hk with h | h
                · exact absurd h hne
                · exact h
              obtain ⟨e, he⟩ := ih (PyDict.del data k') (PyDict.WF_del data k' hwf) hk' (by
                rw [← PyDict.get?_eq_none_iff, PyDict.get?_del data k' k hwf, if_neg hne]
                exact (PyDict.get?_eq_none_iff data k).mpr hn)
              exact ⟨e, by rw [he]; rfl⟩

/-- C22: no object is built from a group in which a declared field is missing, even if a keyword argument would override it. -/
theorem C22_missing (decode : Dset DT E → PyM Str) (td : List (Str × Tp)) (initKw : List (Str × Obj DT E)) (ch : List (Str × Node DT E))
    (a : List (Str × Dset DT E)) (hwf : PyDict.WF ch) (k : Str) (hk : k ∈ PyDict.keys td) (hn : k ∉ PyDict.keys ch) :
    ∃ e, fromH5Group decode td initKw (.grp ch a) = .error e := by
  have hkeys : PyDict.keys (loadItems ch) = PyDict.keys ch := by rw [loadItems_map, PyDict.keys_map load]
  have hwfl : PyDict.WF (loadItems ch) := by unfold PyDict.WF; rw [hkeys]; exact hwf
  obtain ⟨e, he⟩ := fromFields_missing decode k td (sortNames (loadItems ch)) (wf_perm (sortNames_perm _).symm hwfl) hk (by
    rw [← PyDict.get?_eq_none_iff, get?_sortNames _ hwfl, PyDict.get?_eq_none_iff, hkeys]; exact hn)
  exact ⟨e, by simp only [fromH5Group]; rw [he]; rfl⟩

mutual
theorem conforms_writable (env : Env DT E) (t : Tp) (o : Obj DT E) (h : Conforms env t o) : Conforms { env with writable := true } t o := by
  match t, o with
  | .str, .str s => rw [Conforms] at h ⊢; exact h
  | .plain, .plain v => rw [Conforms] at h ⊢; exact h
  | .table, .table cols => rw [Conforms] at h ⊢; exact h
  | .cls td, .inst td' attrs => rw [Conforms] at h ⊢; exact ⟨h.1, conformsAll_writable env td attrs h.2⟩
  | .str, .plain _ => simp [Conforms] at h
  | .str, .inst _ _ => simp [Conforms] at h
  | .plain, .str _ => simp [Conforms] at h
  | .plain, .inst _ _ => simp [Conforms] at h
  | .cls _, .str _ => simp [Conforms] at h
  | .cls _, .plain _ => simp [Conforms] at h
  | .str, .table _ => simp [Conforms] at h
  | .plain, .table _ => simp [Conforms] at h
  | .cls _, .table _ => simp [Conforms] at h
  | .table, .str _ => simp [Conforms] at h
  | .table, .plain _ => simp [Conforms] at h
  | .table, .inst _ _ => simp [Conforms] at h
theorem conformsAll_writable (env : Env DT E) (td : List (Str × Tp)) (attrs : List (Str × Obj DT E)) (h : ConformsAll env td attrs) :
    ConformsAll { env with writable := true } td attrs := by
  match td with
  | [] => simp [ConformsAll]
  | (k, t) :: rest =>
      simp only [ConformsAll] at h ⊢
      obtain ⟨h1, h2, ⟨o, ho, hc⟩, hr⟩ := h
      exact ⟨h1, h2, ⟨o, ho, conforms_writable env t o hc⟩, conformsAll_writable env rest attrs hr⟩
end

theorem withFile_r {α : Type} (env : Env DT E) (fs : FS DT E) (path : Str) (root : Node DT E) (h : fs path = some (.hdf root))
    (body : Env DT E → Node DT E → PyM α × Node DT E) :
    withFile env fs path "r" body = ((body { env with writable := false } root).1, fs.put path (body { env with writable := false } root).2) := by
  have ho := C17_open_existing fs path
  have hop : openFile fs path "r" = (.ok (root, false), fs) := Prod.ext (ho.2.2.2 root h).1 ho.1
  unfold withFile
  rw [hop]

/-- C22: the same through files: if the file can be opened for writing (a new file with 'x', for instance) and `group` is a group
in it without a child named like a field, `to_h5_file` writes the object, `from_h5_file` rebuilds it, and no other
file, and no other object of this file that is not below `group`, changes. -/
theorem C22_file_round_trip (env : Env DT E) (decode : Dset DT E → PyM Str) (hdec : ∀ s, decode ⟨env.strDT, [], [env.bytesOf s]⟩ = .ok s)
    (td : List (Str × Tp)) (obj : Obj DT E) (hc : Conforms env (.cls td) obj) (fs fs1 : FS DT E) (path group : Str) (fFlag flag : String)
    (root : Node DT E) (ho : openFile fs path fFlag = (.ok (root, true), fs1))
    (ch : List (Str × Node DT E)) (a : List (Str × Dset DT E)) (hg : lookup root (pathOf group) = some (.grp ch a)) (hwf : PyDict.WF ch)
    (hd : ∀ k ∈ PyDict.keys td, k ∉ PyDict.keys ch) (hf : flag = "x" ∨ flag = "ac" ∨ flag = "ca") :
    ∃ fs' root' obj', toH5File env fs obj path group fFlag flag = (.ok (), fs') ∧
      fromH5File env decode fs' td path group [] = (.ok obj', fs') ∧ Same (.cls td) obj obj' ∧
      (∀ q, q ≠ path → fs' q = fs1 q) ∧ fs' path = some (.hdf root') ∧
      (∀ q, ¬ pathOf group <+: q → ¬ q <+: pathOf group → lookup root' q = lookup root q) := by
  obtain ⟨ch', obj', h1, h2, -, h3, h4⟩ := fromGroup_of { env with writable := true } decode (by exact hdec) rfl td obj (conforms_writable env _ _ hc) ch a hwf hd flag (by rcases hf with rfl | rfl | rfl <;> rfl)
  obtain ⟨m1, m2, m3, -⟩ := modifyAt_at (toH5Group { env with writable := true } obj flag) (pathOf group) root _ hg
  have hto : toH5File env fs obj path group fFlag flag =
      (.ok (), fs1.put path (modifyAt (toH5Group { env with writable := true } obj flag) root (pathOf group)).2) := by
    unfold toH5File withFile
    rw [ho]
    simp only [hg]
    rw [m1, h1]
  have hl := m2 []
  rw [List.append_nil, h1] at hl
  refine ⟨_, _, obj', hto, ?_, h4, fun q hq => FS.put_ne _ _ _ _ hq, FS.put_at _ _ _, m3⟩
  unfold fromH5File
  rw [withFile_r env _ path _ (FS.put_at _ _ _)]
  simp only [hl, lookup]
  rw [h3 a, FS.put_self _ _ _ (FS.put_at _ _ _)]

/-- An object with a str, an array, a mapping and a nested object: the hypotheses of C22 are met, and a new file is written and read. -/
example :
    let env : Env Nat Str := ⟨true, 7, id, id, fun _ => [], fun _ => none, fun _ _ => none⟩
    let td : List (Str × Tp) := [("s".toList, .str), ("x".toList, .plain), ("o".toList, .cls [("t".toList, .str), ("m".toList, .plain)])]
    let obj : Obj Nat Str := .inst td [("extra".toList, .str []), ("x".toList, .plain (.dat ⟨1, [2], ["a".toList, "b".toList]⟩)), ("s".toList, .str "hello".toList),
      ("o".toList, .inst [("t".toList, .str), ("m".toList, .plain)] [("t".toList, .str "u".toList), ("m".toList, .plain (.map [("z".toList, .dat ⟨2, [], ["1".toList]⟩)]))])]
    let decode : Dset Nat Str → PyM Str := fun d => match d.elems with | [s] => .ok s | _ => .error .attributeError
    Conforms env (.cls td) obj ∧
    (fromH5File env decode (toH5File env (fun _ => none) obj "f.h5".toList "/".toList "x" "x").2 td "f.h5".toList "/".toList [("s".toList, .str "new".toList)]).1 =
      .ok (.inst td [("s".toList, .str "new".toList), ("x".toList, .plain (.dat ⟨1, [2], ["a".toList, "b".toList]⟩)),
        ("o".toList, .inst [("t".toList, .str), ("m".toList, .plain)] [("t".toList, .str "u".toList), ("m".toList, .plain (.map [("z".toList, .dat ⟨2, [], ["1".toList]⟩)]))])]) := by
  refine ⟨?_, rfl⟩
  have hst : ∀ l : Leaf Nat Str, leafOk l = true →
      Storable (⟨true, 7, id, id, fun _ => [], fun _ => none, fun _ _ => none⟩ : Env Nat Str) l := by
    intro l hl
    cases l with
    | bad => cases hl
    | str s => exact ⟨_, rfl⟩
    | dat d => exact ⟨_, rfl⟩
  have hn : ∀ c : Char, c ≠ '/' → IsName [c] := fun c hc => ⟨by simp, by simp [Ne.symm hc]⟩
  rw [Conforms, ConformsAll, ConformsAll, ConformsAll, ConformsAll]
  refine ⟨rfl, hn _ (by decide), by decide, ⟨_, rfl, ?_⟩, hn _ (by decide), by decide, ⟨_, rfl, ?_⟩, hn _ (by decide), by decide, ⟨_, rfl, ?_⟩, trivial⟩
  · rw [Conforms]; exact hst _ rfl
  · rw [Conforms, LVal.toVal, Good]; exact hst _ rfl
  · rw [Conforms, ConformsAll, ConformsAll, ConformsAll]
    refine ⟨rfl, hn _ (by decide), by decide, ⟨_, rfl, ?_⟩, hn _ (by decide), by decide, ⟨_, rfl, ?_⟩, trivial⟩
    · rw [Conforms]; exact hst _ rfl
    · rw [Conforms, LVal.toVal, LVal.toVals, LVal.toVals, LVal.toVal, Good, GoodItems, GoodItems, Good]
      exact ⟨hn _ (by decide), by simp [names], hst _ rfl, trivial⟩


/-- C22: a DataTable as a field: it is stored as the group of its columns, and the table that is read has the same columns in alphabetical order (the order of the
columns is lost); a field declared as DataTable that was stored as an array is refused with AssertionError. -/
theorem C22_table (env : Env DT E) (decode : Dset DT E → PyM Str) (cols : List (Str × LVal DT E)) (hwf : PyDict.WF cols)
    (hc : ∀ p ∈ cols, IsName p.1 ∧ ∃ d, p.2 = .dat d ∧ Storable env (.dat d)) (d : Dset DT E) :
    (∃ v, toH5Data (.table cols : Obj DT E) = .ok v ∧ fromH5Data decode .table (load (build env v)) = .ok (.table (cols.insertionSort (fun a b => a.1 ≤ b.1))) ∧
      ∀ k, PyDict.get? (cols.insertionSort (fun a b => a.1 ≤ b.1)) k = PyDict.get? cols k) ∧
    fromH5Data decode .table (.dat d) = .error .assertionError := by
  obtain ⟨items, h1, h2, h3, h4⟩ := tableItems_ok env cols hwf hc
  refine ⟨⟨.map items, ?_, ?_, fun k => get?_sortNames cols hwf k⟩, by rw [fromH5Data, tableOf]⟩
  · rw [toH5Data, h1]; rfl
  · rw [build, load, h4, fromH5Data, tableOf]; rfl

/-- Columns written in the order b, a are read in the order a, b. -/
example : let env : Env Nat Str := ⟨true, 7, id, id, fun _ => [], fun _ => none, fun _ _ => none⟩
    let cols : List (Str × LVal Nat Str) := [("b".toList, .dat ⟨1, [2], ["x".toList, "y".toList]⟩), ("a".toList, .dat ⟨1, [2], ["u".toList, "v".toList]⟩)]
    (toH5Data (.table cols : Obj Nat Str)).bind (fun v => fromH5Data (fun _ => .error .attributeError) .table (load (build env v))) = .ok (.table cols.reverse) := rfl

/-- C22 (recorded): a str in a field that is not declared as str comes back as bytes. -/
theorem C22_undeclared_str (env : Env DT E) (decode : Dset DT E → PyM Str) (s : Str) (hs : Storable env (.str s)) :
    ∃ v, toH5Data (.str s : Obj DT E) = .ok v ∧
      fromH5Data decode .plain (load (build env v)) = .ok (.plain (.dat ⟨env.strDT, [], [env.bytesOf s]⟩)) := by
  obtain ⟨d, hd⟩ := hs
  have hv := newDset_val hd
  simp only [leafVal, Option.some.injEq] at hv
  subst hv
  refine ⟨_, by rw [toH5Data], ?_⟩
  rw [fromH5Data, build, buildLeaf, hd, load]


/-- C22: if the object lacks a declared attribute (at the top level), nothing is written: the call fails and the group is unchanged. -/
theorem C22_missing_attr (env : Env DT E) (td : List (Str × Tp)) (attrs : List (Str × Obj DT E)) (k : Str) (hk : k ∈ PyDict.keys td) (hn : k ∉ PyDict.keys attrs)
    (flag : String) (n : Node DT E) : ∃ e, toH5Group env (.inst td attrs) flag n = (.error e, n) := by
  have hm : ∀ ks : List Str, k ∈ ks → ∃ e, ks.mapM (fieldItem (attrData attrs)) = .error e := by
    intro ks
    induction ks with
    | nil => intro h; simp at h
    | cons x ks ih =>
        intro h
        rw [List.mapM_cons]
        cases hx : fieldItem (attrData attrs) x with
        | error e => exact ⟨e, rfl⟩
        | ok p =>
            have hne : k ≠ x := by
              rintro rfl
              unfold fieldItem at hx
              rw [get?_attrData, (PyDict.get?_eq_none_iff attrs k).mpr hn] at hx
              cases hx
            obtain ⟨e, he⟩ := ih (by rcases List.mem_cons.mp h with h | h; exact absurd h hne; exact h)
            exact ⟨e, by simp only [bind, Except.bind]; rw [he]⟩
  obtain ⟨e, he⟩ := hm _ hk
  refine ⟨e, ?_⟩
  have hto : toH5Data (.inst td attrs) = .error e := by
    rw [toH5Data]
    have he' : (td.map (·.1)).mapM (fieldItem (attrData attrs)) = .error e := he
    simp only [bind, Except.bind, he']
  unfold toH5Group
  rw [hto]


/-- C22: a table with a column that is not a regular array (an object array, e.g. of mappings) cannot be stored: TypeError, and nothing is written. -/
theorem C22_table_object_column (env : Env DT E) (cols : List (Str × LVal DT E)) (k : Str) (m : List (Str × LVal DT E)) (h : (k, .map m) ∈ cols) :
    toH5Data (.table cols : Obj DT E) = .error .typeError ∧ ∀ (flag : String) (n : Node DT E), toH5Group env (.table cols) flag n = (.error .typeError, n) := by
  have hc : ∀ l : List (Str × LVal DT E), (k, .map m) ∈ l → tableItems l = .error .typeError := by
    intro l
    induction l with
    | nil => intro h; simp at h
    | cons x l ih =>
        intro h
        unfold tableItems at ih ⊢
        rw [List.mapM_cons]
        obtain ⟨x, c⟩ := x
        cases c with
        | map _ => rfl
        | dat d =>
            rw [ih (by rcases List.mem_cons.mp h with h | h; cases h; exact h)]
            rfl
  have h1 : toH5Data (.table cols : Obj DT E) = .error .typeError := by
    rw [toH5Data, hc cols h]; rfl
  exact ⟨h1, fun flag n => by unfold toH5Group; rw [h1]⟩

end Pyhipp.H5
