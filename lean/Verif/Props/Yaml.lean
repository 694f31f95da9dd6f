import Verif.Model.Yaml
import Mathlib.Data.List.Basic
/-
C85: configuration files: inner nodes override outer ones.
-/
namespace Pyhipp.Yaml
open Pyhipp

variable {A : Type}

/-! ### Specification -/

/-- `Path v ks w`: following the keys `ks` from the value `v` through mappings leads to `w`. -/
inductive Path : Y A → List Str → Y A → Prop where
  | here (v : Y A) : Path v [] v
  | step {es : PyDict Str (Y A)} {k : Str} {v w : Y A} {ks : List Str} (h : es.get? k = some v) (p : Path v ks w) : Path (.map es) (k :: ks) w

/-- `Nodes root init nested ns`: the mappings visited, outermost first: the one at `init`, then one per nested node. -/
def Nodes (root : Y A) (init nestedNodes : List Str) (ns : List (PyDict Str (Y A))) : Prop :=
  ns.length = nestedNodes.length + 1 ∧ ∀ i (h : i < ns.length), Path root (init ++ nestedNodes.take i) (.map ns[i])

/-- The value of the innermost mapping that defines `k`. -/
def innermost (ns : List (PyDict Str (Y A))) (k : Str) : Option (Y A) := ns.reverse.findSome? (fun n => n.get? k)

/-! ### Lemmas -/

theorem tryParse_map (es : PyDict Str (Y A)) (keys : List Str) (d : PyDict Str (Y A)) : ∃ d', tryParse (.map es) keys d = .ok d' ∧
    (d.WF → d'.WF) ∧ ∀ k, d'.get? k = if k ∈ keys then (match es.get? k with | some v => some v | none => d.get? k) else d.get? k := by
  induction keys generalizing d with
  | nil => exact ⟨d, rfl, id, by simp⟩
  | cons a t ih =>
      cases ha : es.get? a with
      | none =>
          obtain ⟨d', h1, h2, h3⟩ := ih d
          refine ⟨d', ?_, h2, ?_⟩
          · simp [tryParse, contains, PyDict.has, ha, bind, Except.bind, h1]
          · intro k
            rw [h3 k]
            by_cases e : k = a
            · subst e; simp [ha]
            · simp [e]
      | some v =>
          obtain ⟨d', h1, h2, h3⟩ := ih (d.set a v)
          refine ⟨d', ?_, fun hw => h2 (PyDict.WF_set _ _ _ hw), ?_⟩
          · simp [tryParse, contains, item, PyDict.has, ha, bind, Except.bind, h1]
          · intro k
            rw [h3 k, PyDict.get?_set]
            by_cases e : k = a
            · subst e; simp [ha]
            · simp [e]

theorem descend_path {v w : Y A} {ks : List Str} (p : Path v ks w) : descend v ks = .ok w := by
  induction p with
  | here v => rfl
  | step h p ih => simp [descend, item, h, bind, Except.bind, ih]

theorem Path.append {v w : Y A} {a b : List Str} (p : Path v (a ++ b) w) : ∃ u, Path v a u ∧ Path u b w := by
  induction a generalizing v with
  | nil => exact ⟨v, .here v, p⟩
  | cons k t ih =>
      cases p with
      | step h p => obtain ⟨u, p1, p2⟩ := ih p; exact ⟨u, .step h p1, p2⟩

theorem Path.unique {v w w' : Y A} {ks : List Str} (p : Path v ks w) (q : Path v ks w') : w = w' := by
  have := (descend_path p).symm.trans (descend_path q)
  injection this

theorem Path.trans {v u w : Y A} {a b : List Str} (p : Path v a u) (q : Path u b w) : Path v (a ++ b) w := by
  induction p with
  | here v => exact q
  | step h _ ih => exact .step h (ih q)

/-- The nested loop visits the mappings one after the other. -/
theorem nested_nodes (keys : List Str) (ks : List Str) (n0 : PyDict Str (Y A)) (ns : List (PyDict Str (Y A))) (hl : ns.length = ks.length)
    (hp : ∀ i (h : i < ns.length), Path (.map n0) (ks.take (i + 1)) (.map ns[i])) (d : PyDict Str (Y A)) :
    ∃ d', nested keys (.map n0) ks d = .ok d' ∧ (d.WF → d'.WF) ∧
      ∀ k, d'.get? k = if k ∈ keys then (match innermost ns k with | some v => some v | none => d.get? k) else d.get? k := by
  induction ks generalizing n0 ns d with
  | nil =>
      have : ns = [] := by simpa using hl
      subst this
      exact ⟨d, rfl, id, by intro k; simp [innermost]⟩
  | cons a t ih =>
      cases ns with
      | nil => simp at hl
      | cons n ns =>
          have h0 : Path (.map n0) [a] (.map n) := hp 0 (by simp)
          have hg : n0.get? a = some (.map n) := by
            cases h0 with
            | step h p => cases p; exact h
          obtain ⟨d1, e1, w1, g1⟩ := tryParse_map n keys d
          obtain ⟨d2, e2, w2, g2⟩ := ih n ns (by simpa using hl) (by
            intro i h
            have := hp (i + 1) (by simpa using h)
            simp only [List.take_succ_cons, List.getElem_cons_succ] at this
            have hx : Path (.map n0) ([a] ++ t.take (i + 1)) (.map ns[i]) := this
            obtain ⟨u, p1, p2⟩ := hx.append
            rw [h0.unique p1]; exact p2) d1
          refine ⟨d2, ?_, fun h => w2 (w1 h), ?_⟩
          · simp [nested, item, hg, bind, Except.bind, e1, e2]
          · intro k
            rw [g2 k, g1 k]
            by_cases hk : k ∈ keys
            · simp only [hk, if_true, innermost, List.reverse_cons, List.findSome?_append]
              cases ns.reverse.findSome? (fun n => n.get? k) with
              | some v => simp
              | none => simp
            · simp [hk]

theorem get_nodes {root : Y A} {init nestedNodes : List Str} {ns : List (PyDict Str (Y A))} (h : Nodes root init nestedNodes ns) (keys : List Str) :
    ∃ d : PyDict Str (Y A), d.WF ∧ (∀ k, d.get? k = if k ∈ keys then innermost ns k else none) ∧
      get (.ok root) init nestedNodes keys = if keys.all (fun k => d.has k) then .ok d else .error .keyError := by
  obtain ⟨hl, hp⟩ := h
  cases ns with
  | nil => simp at hl
  | cons n0 ns =>
      have p0 : Path root init (.map n0) := by
        have := hp 0 (by simp)
        rwa [List.take_zero, List.append_nil] at this
      obtain ⟨d1, e1, w1, g1⟩ := tryParse_map n0 keys []
      obtain ⟨d2, e2, w2, g2⟩ := nested_nodes keys nestedNodes n0 ns (by simpa using hl) (by
        intro i hi
        have := hp (i + 1) (by simpa using hi)
        simp only [List.getElem_cons_succ] at this
        obtain ⟨u, p1, p2⟩ := this.append
        rw [p0.unique p1]; exact p2) d1
      refine ⟨d2, w2 (w1 PyDict.WF_nil), ?_, ?_⟩
      · intro k
        rw [g2 k, g1 k]
        by_cases hk : k ∈ keys
        · simp only [hk, if_true, innermost, List.reverse_cons, List.findSome?_append]
          cases ns.reverse.findSome? (fun n => n.get? k) with
          | some v => simp
          | none =>
              cases hn0 : PyDict.get? n0 k with
              | some v => simp [hn0]
              | none => simp [hn0, PyDict.get?]
        · simp [hk, PyDict.get?]
      · simp [get, bind, Except.bind, descend_path p0, e1, e2, pure, Except.pure]

/-! ### Theorems -/

/-- C85: if every requested key is defined in a visited mapping, `get` returns exactly the requested keys, each with the value of the
innermost visited mapping that defines it. -/
theorem C85_get {root : Y A} {init nestedNodes : List Str} {ns : List (PyDict Str (Y A))} (h : Nodes root init nestedNodes ns) (keys : List Str)
    (hk : ∀ k ∈ keys, ∃ n ∈ ns, k ∈ n.keys) :
    ∃ d : PyDict Str (Y A), get (.ok root) init nestedNodes keys = .ok d ∧ d.WF ∧ (∀ k, k ∈ d.keys ↔ k ∈ keys) ∧
      ∀ k ∈ keys, ∃ v, d.get? k = some v ∧ innermost ns k = some v := by
  obtain ⟨d, w, g, e⟩ := get_nodes h keys
  have hi : ∀ k ∈ keys, ∃ v, innermost ns k = some v := by
    intro k hk'
    obtain ⟨n, hn, hkn⟩ := hk k hk'
    rw [← Option.isSome_iff_exists]
    unfold innermost
    rw [List.findSome?_isSome_iff]
    exact ⟨n, List.mem_reverse.mpr hn, (PyDict.get?_isSome_iff n k).mpr hkn⟩
  have hall : keys.all (fun k => d.has k) = true := by
    rw [List.all_eq_true]
    intro k hk'
    obtain ⟨v, hv⟩ := hi k hk'
    simp [PyDict.has, g k, hk', hv]
  refine ⟨d, by rw [e, if_pos hall], w, ?_, ?_⟩
  · intro k
    rw [← PyDict.get?_isSome_iff, g k]
    by_cases hk' : k ∈ keys
    · obtain ⟨v, hv⟩ := hi k hk'; simp [hk', hv]
    · simp [hk']
  · intro k hk'
    obtain ⟨v, hv⟩ := hi k hk'
    exact ⟨v, by rw [g k, if_pos hk', hv], hv⟩

/-- C85: a requested key that no visited mapping defines raises KeyError. -/
theorem C85_undefined {root : Y A} {init nestedNodes : List Str} {ns : List (PyDict Str (Y A))} (h : Nodes root init nestedNodes ns) (keys : List Str)
    (k : Str) (hk : k ∈ keys) (hn : ∀ n ∈ ns, k ∉ n.keys) : get (.ok root) init nestedNodes keys = .error .keyError := by
  obtain ⟨d, w, g, e⟩ := get_nodes h keys
  rw [e, if_neg]
  simp only [List.all_eq_true, not_forall]
  refine ⟨k, hk, ?_⟩
  have : innermost ns k = none := by
    unfold innermost
    rw [List.findSome?_eq_none_iff]
    intro n hn'
    exact (PyDict.get?_eq_none_iff n k).mpr (hn n (List.mem_reverse.mp hn'))
  simp [PyDict.has, g k, hk, this]

/-- C85: a missing node raises KeyError, even if all requested keys are defined further out. -/
theorem C85_missing_node {root : Y A} {init nestedNodes : List Str} {ns : List (PyDict Str (Y A))} (h : Nodes root init nestedNodes ns) (keys : List Str)
    (k : Str) (rest : List Str) (hk : ∃ n, ns.getLast? = some n ∧ k ∉ n.keys) : get (.ok root) init (nestedNodes ++ k :: rest) keys = .error .keyError := by
  have aux : ∀ (ks : List Str) (n0 : PyDict Str (Y A)) (ns : List (PyDict Str (Y A))), ns.length = ks.length →
      (∀ i (h : i < ns.length), Path (.map n0) (ks.take (i + 1)) (.map ns[i])) → (∃ n, (n0 :: ns).getLast? = some n ∧ k ∉ n.keys) →
      ∀ d, nested keys (.map n0) (ks ++ k :: rest) d = .error .keyError := by
    intro ks
    induction ks with
    | nil =>
        intro n0 ns hl _ ⟨n, hn, hk⟩ d
        have : ns = [] := by simpa using hl
        subst this
        simp at hn; subst hn
        simp [nested, item, (PyDict.get?_eq_none_iff n0 k).mpr hk, bind, Except.bind]
    | cons a t ih =>
        intro n0 ns hl hp ⟨n', hn', hk⟩ d
        cases ns with
        | nil => simp at hl
        | cons n ns =>
            have h0 : Path (.map n0) [a] (.map n) := hp 0 (by simp)
            have hg : n0.get? a = some (.map n) := by
              cases h0 with
              | step h p => cases p; exact h
            obtain ⟨d1, e1, -, -⟩ := tryParse_map n keys d
            have := ih n ns (by simpa using hl) (by
              intro i h
              have := hp (i + 1) (by simpa using h)
              simp only [List.take_succ_cons, List.getElem_cons_succ] at this
              have hx : Path (.map n0) ([a] ++ t.take (i + 1)) (.map ns[i]) := this
              obtain ⟨u, p1, p2⟩ := hx.append
              rw [h0.unique p1]; exact p2) ⟨n', by simpa using hn', hk⟩ d1
            simp [nested, item, hg, bind, Except.bind, e1, this]
  obtain ⟨hl, hp⟩ := h
  cases ns with
  | nil => simp at hl
  | cons n0 ns =>
      have p0 : Path root init (.map n0) := by
        have := hp 0 (by simp)
        rwa [List.take_zero, List.append_nil] at this
      obtain ⟨d1, e1, -, -⟩ := tryParse_map n0 keys []
      have := aux nestedNodes n0 ns (by simpa using hl) (by
        intro i hi
        have := hp (i + 1) (by simpa using hi)
        simp only [List.getElem_cons_succ] at this
        obtain ⟨u, p1, p2⟩ := this.append
        rw [p0.unique p1]; exact p2) hk d1
      simp [get, bind, Except.bind, descend_path p0, e1, this]

/-- C85: the same for the init nodes. -/
theorem C85_missing_init {root : Y A} {init : List Str} {n : PyDict Str (Y A)} (p : Path root init (.map n)) (k : Str) (hk : k ∉ n.keys)
    (rest nestedNodes keys : List Str) : get (.ok root) (init ++ k :: rest) nestedNodes keys = .error .keyError := by
  have : descend root (init ++ k :: rest) = .error .keyError := by
    generalize hm : Y.map n = m at p
    induction p with
    | here v => subst hm; simp [descend, item, (PyDict.get?_eq_none_iff n k).mpr hk, bind, Except.bind]
    | step h _ ih => simp [descend, item, h, bind, Except.bind, ih hm]
  simp [get, bind, Except.bind, this]

/-- C85: a node without contents (`None` in YAML) or with a number is a TypeError as soon as a key is requested. -/
theorem C85_empty_node {root : Y A} {init : List Str} {a : A} (p : Path root init (.atom a)) (k : Str) (keys nestedNodes : List Str) :
    get (.ok root) init nestedNodes (k :: keys) = .error .typeError := by
  simp [get, bind, Except.bind, descend_path p, tryParse, contains]

/-- C85: a file that cannot be read gives the error of reading it. -/
theorem C85_no_file (e : PyErr) (init nestedNodes keys : List Str) : get (.error e : PyM (Y A)) init nestedNodes keys = .error e := rfl

/-- Example: with the nodes main -> sub, the inner `x` overrides the outer one and `y` is inherited. -/
example : let root : Y Nat := .map [("main".toList, .map [("x".toList, .atom 1), ("y".toList, .atom 2), ("sub".toList, .map [("x".toList, .atom 3)])])]
    Nodes root ["main".toList] ["sub".toList] [[("x".toList, .atom 1), ("y".toList, .atom 2), ("sub".toList, .map [("x".toList, .atom 3)])], [("x".toList, .atom 3)]] ∧
    get (.ok root) ["main".toList] ["sub".toList] ["x".toList, "y".toList] = .ok [("x".toList, .atom 3), ("y".toList, .atom 2)] := by
  refine ⟨⟨rfl, ?_⟩, rfl⟩
  intro i h
  match i, h with
  | 0, _ => exact .step rfl (.here _)
  | 1, _ => exact .step rfl (.step rfl (.here _))


theorem subText_iff (k s : Str) : subText k s = true ↔ k <:+: s := by
  induction s with
  | nil => cases k <;> simp [subText]
  | cons c t ih => rw [subText, Bool.or_eq_true, ih, List.isPrefixOf_iff_prefix, List.infix_cons_iff]

/-- C85: a node that is plain text: a requested key that occurs as a piece of that text is a TypeError, otherwise the key is missing (KeyError). -/
theorem C85_text_node {root : Y A} {init : List Str} {s : Str} (p : Path root init (.str s)) (k : Str) :
    get (.ok root) init [] [k] = if k <:+: s then .error .typeError else .error .keyError := by
  by_cases h : k <:+: s
  · simp [get, bind, Except.bind, descend_path p, tryParse, contains, (subText_iff k s).mpr h, item, h]
  · have : subText k s = false := by
      cases hs : subText k s with
      | false => rfl
      | true => exact absurd ((subText_iff k s).mp hs) h
    simp [get, bind, Except.bind, descend_path p, tryParse, contains, this, nested, h, PyDict.has]

/-- C85: a node that is a sequence: a requested key that is one of its elements is a TypeError, otherwise the key is missing. -/
theorem C85_list_node {root : Y A} {init : List Str} {l : List (Y A)} (p : Path root init (.seq l)) (k : Str) :
    (Y.str k ∈ l → get (.ok root) init [] [k] = .error .typeError) ∧ (Y.str k ∉ l → get (.ok root) init [] [k] = .error .keyError) := by
  have e : ∀ y : Y A, isText k y = true ↔ y = .str k := by
    intro y; cases y <;> simp [isText]
  constructor
  · intro h
    have : l.any (isText k) = true := by rw [List.any_eq_true]; exact ⟨_, h, (e _).mpr rfl⟩
    simp [get, bind, Except.bind, descend_path p, tryParse, contains, this, item]
  · intro h
    have : l.any (isText k) = false := by
      rw [List.any_eq_false]; intro y hy hh; exact h ((e y).mp hh ▸ hy)
    simp [get, bind, Except.bind, descend_path p, tryParse, contains, this, nested, PyDict.has]

end Pyhipp.Yaml
