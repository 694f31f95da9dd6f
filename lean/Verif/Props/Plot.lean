import Verif.Model.Plot
import Mathlib.Tactic.NormNum
/-
C88: formatter settings.  C89: layout arguments.
-/
namespace Pyhipp.Plot
open Pyhipp

/-! ### C88 -/

/-- Something a user does to a formatter. -/
inductive Op where
  | setItem (key : Str) (v : PV)
  | ior (m : PyDict Str PV)
  | update (dicts : List (PyDict Str PV)) (kw : PyDict Str PV)
  | fc (c a : PV)
  | ec (c a : PV)
  | cFaceEdge (c a : PV)
  | cLine (c a : PV)

/-- The operation on the formatter. -/
def Op.run (d : Fmt) : Op → PyM Unit × Fmt
  | .setItem k v => d.setItem k v
  | .ior m => d.ior m
  | .update ds kw => d.update ds kw
  | .fc c a => d.fc c a
  | .ec c a => d.ec c a
  | .cFaceEdge c a => d.cFaceEdge c a
  | .cLine c a => d.cLine c a

/-- A given component is an assignment, None is not. -/
def given (k : String) (v : PV) : List (Str × PV) := match v with
  | .none => []
  | v => [(k.toList, v)]

/-- Spec: the assignments an operation asks for, in order. -/
def Op.asks : Op → List (Str × PV)
  | .setItem k v => [(k, v)]
  | .ior m => m
  | .update ds kw => ds.flatten ++ kw
  | .fc c a => given "fc" c ++ given "fa" a
  | .ec c a => given "ec" c ++ given "ea" a
  | .cFaceEdge c a => given "fc" c ++ given "fa" a ++ (given "ec" c ++ given "ea" a)
  | .cLine c a => given "c" c ++ given "a" a

/-- Spec: those before the first unknown name. -/
def accepted (names : List Str) (l : List (Str × PV)) : List (Str × PV) := l.takeWhile (fun p : Str × PV => decide (p.1 ∈ names))

/-- Spec: the last value a log gives to a name. -/
def lastVal (log : List (Str × PV)) (k : Str) : Option PV := (log.reverse.find? (fun p : Str × PV => decide (p.1 = k))).map Prod.snd

theorem ior_append (a b : PyDict Str PV) (d : Fmt) : d.ior (a ++ b) = andThen (d.ior a) (fun d => d.ior b) := by
  induction a generalizing d with
  | nil => rfl
  | cons p a ih =>
      obtain ⟨k, v⟩ := p
      rw [List.cons_append, Fmt.ior, Fmt.ior]
      split
      · exact ih _
      · rfl

theorem iors_eq (ms : List (PyDict Str PV)) (d : Fmt) : d.iors ms = d.ior ms.flatten := by
  induction ms generalizing d with
  | nil => rfl
  | cons m ms ih =>
      rw [Fmt.iors, List.flatten_cons, ior_append]
      rcases h : d.ior m with ⟨⟨⟩ | ⟨⟩, d'⟩
      · rfl
      · simp only [andThen]; exact ih d'

theorem update_eq (d : Fmt) (ms : List (PyDict Str PV)) (kw : PyDict Str PV) : d.update ms kw = d.ior (ms.flatten ++ kw) := by
  rw [Fmt.update, iors_eq, ior_append]
  rcases d.ior ms.flatten with ⟨⟨⟩ | ⟨⟩, d'⟩ <;> rfl

theorem setIf_eq (d : Fmt) (k : String) (c : PV) : d.setIf k.toList c = d.ior (given k c) := by
  cases c <;> simp [Fmt.setIf, PV.isNone, given, update_eq, Fmt.ior]

theorem setItem_eq (d : Fmt) (k : Str) (v : PV) : d.setItem k v = d.ior [(k, v)] := by
  simp [Fmt.setItem, Fmt.ior]

theorem run_eq (d : Fmt) (op : Op) : op.run d = d.ior op.asks := by
  cases op with
  | setItem k v => exact setItem_eq d k v
  | ior m => rfl
  | update ds kw => exact update_eq d ds kw
  | fc c a => simp only [Op.run, Fmt.fc, Op.asks, setIf_eq, ior_append]
  | ec c a => simp only [Op.run, Fmt.ec, Op.asks, setIf_eq, ior_append]
  | cFaceEdge c a => simp only [Op.run, Fmt.cFaceEdge, Fmt.fc, Fmt.ec, Op.asks, setIf_eq, ior_append]
  | cLine c a => simp only [Op.run, Fmt.cLine, Op.asks, setIf_eq, ior_append]

theorem ior_spec (m : List (Str × PV)) (d : Fmt) :
    (d.ior m).2.keys = d.keys ∧
    (∀ k, PyDict.get? (d.ior m).2 k = (lastVal (accepted d.keys m) k).or (PyDict.get? d k)) ∧
    (d.ior m).1 = (if ∀ p ∈ m, p.1 ∈ d.keys then .ok () else .error .keyError) := by
  induction m generalizing d with
  | nil => simp [Fmt.ior, accepted, lastVal]
  | cons p m ih =>
      obtain ⟨k, v⟩ := p
      rw [Fmt.ior]
      by_cases hk : k ∈ d.keys
      · rw [if_pos ((PyDict.has_iff d k).mpr hk)]
        obtain ⟨h1, h2, h3⟩ := ih (d.set k v)
        have hkeys : PyDict.keys (PyDict.set d k v) = d.keys := PyDict.keys_set_of_mem d k v hk
        refine ⟨h1.trans hkeys, fun k' => ?_, ?_⟩
        · rw [h2, hkeys, PyDict.get?_set]
          have hacc : accepted d.keys ((k, v) :: m) = (k, v) :: accepted d.keys m := by simp [accepted, hk]
          rw [hacc]
          unfold lastVal
          rw [List.reverse_cons, List.find?_append]
          cases hf : (accepted d.keys m).reverse.find? (fun p : Str × PV => decide (p.1 = k')) with
          | some q => simp
          | none =>
              by_cases hkk : k' = k
              · simp [hkk]
              · have : ¬ (k = k') := fun e => hkk e.symm
                simp [hkk, this]
        · rw [h3, hkeys]
          have : (∀ p ∈ (k, v) :: m, p.1 ∈ d.keys) ↔ (∀ p ∈ m, p.1 ∈ d.keys) := by simp [hk]
          by_cases hm : ∀ p ∈ m, p.1 ∈ d.keys
          · rw [if_pos hm, if_pos (this.mpr hm)]
          · rw [if_neg hm, if_neg (fun h => hm (this.mp h))]
      · have : ¬ (d.has k = true) := by rw [PyDict.has_iff]; exact hk
        rw [if_neg this]
        refine ⟨rfl, fun k' => by simp [accepted, hk, lastVal], by simp [hk]⟩

/-- A history of operations; exceptions are caught by the caller. -/
def history (d : Fmt) (ops : List Op) : Fmt := ops.foldl (fun d op => (op.run d).2) d

theorem history_spec (ops : List Op) (d : Fmt) : (history d ops).keys = d.keys ∧
    ∀ k, PyDict.get? (history d ops) k = (lastVal (ops.flatMap (fun op => accepted d.keys op.asks)) k).or (PyDict.get? d k) := by
  induction ops generalizing d with
  | nil => simp [history, lastVal]
  | cons op ops ih =>
      obtain ⟨h1, h2⟩ := ih (op.run d).2
      have hs := ior_spec op.asks d
      rw [run_eq] at h1 h2
      refine ⟨?_, fun k => ?_⟩
      · show (history (op.run d).2 ops).keys = _
        rw [run_eq, h1, hs.1]
      · show PyDict.get? (history (op.run d).2 ops) k = _
        rw [run_eq, h2, hs.1, hs.2.1, List.flatMap_cons]
        unfold lastVal
        rw [List.reverse_append, List.find?_append]
        cases List.find? (fun p : Str × PV => decide (p.1 = k)) (List.flatMap (fun op => accepted d.keys op.asks) ops).reverse <;> simp

/-- C88: over any history, with any exceptions caught, the set of names (and their order) never changes, and every name reads as the last
value accepted for it (an operation's assignments up to its first unknown name are accepted), or as its initial value. -/
theorem C88_history (d : Fmt) (ops : List Op) (k : Str) (hk : '/' ∉ k) :
    (history d ops).keys = d.keys ∧
    (history d ops).getItem k = match (lastVal (ops.flatMap (fun op => accepted d.keys op.asks)) k).or (PyDict.get? d k) with
      | some v => .ok v
      | none => .error .keyError := by
  refine ⟨(history_spec ops d).1, ?_⟩
  rw [Fmt.getItem, if_pos hk, Fmt.direct, (history_spec ops d).2]
  cases (lastVal (ops.flatMap (fun op => accepted d.keys op.asks)) k).or (PyDict.get? d k) <;> rfl

/-- C88: an operation succeeds exactly if every name it assigns is a setting of this formatter; otherwise it raises KeyError. -/
theorem C88_raises (d : Fmt) (op : Op) :
    (op.run d).1 = (if ∀ p ∈ op.asks, p.1 ∈ d.keys then .ok () else .error .keyError) := by
  rw [run_eq]; exact (ior_spec op.asks d).2.2

/-- C88: a successful operation has assigned all it was asked to: each name reads as its last requested value, other names are unchanged. -/
theorem C88_success (d : Fmt) (op : Op) (h : (op.run d).1 = .ok ()) (k : Str) :
    PyDict.get? (op.run d).2 k = (lastVal op.asks k).or (PyDict.get? d k) := by
  have hs := ior_spec op.asks d
  rw [run_eq] at h ⊢
  rw [hs.2.1]
  have hall : ∀ p ∈ op.asks, p.1 ∈ d.keys := by
    by_contra hn
    rw [hs.2.2, if_neg hn] at h; cases h
  have : accepted d.keys op.asks = op.asks := by
    unfold accepted
    have aux : ∀ l : List (Str × PV), (∀ p ∈ l, p.1 ∈ d.keys) → l.takeWhile (fun p : Str × PV => decide (p.1 ∈ d.keys)) = l := by
      intro l hl
      induction l with
      | nil => rfl
      | cons p l ih => rw [List.takeWhile_cons_of_pos (by simpa using hl p (by simp)), ih (fun q hq => hl q (by simp [hq]))]
    exact aux _ hall
  rw [this]

/-- C88: the settings of each formatter. -/
theorem C88_names (a b c d e f g : PV) :
    (Fmt.marker a b c d e f g).keys = ["style", "ec", "fc", "ea", "fa", "s", "elw"].map String.toList ∧
    (Fmt.line a b c d).keys = ["c", "a", "lw", "ls"].map String.toList ∧
    (Fmt.errorbar a b c d e).keys = ["c", "a", "lw", "capsize", "capthick"].map String.toList ∧
    (Fmt.fill a b c d e f).keys = ["fc", "ec", "fa", "ea", "lw", "ls"].map String.toList ∧
    (Fmt.text a b c d).keys = ["use_tex", "c", "a", "s"].map String.toList ∧
    (Fmt.frame a b c d e f g).keys = ["lim", "label", "scale", "ticks", "ticklabels", "tick_params", "label_outer"].map String.toList ∧
    (Fmt.subplots a b c d e f).keys = ["n", "share", "extent", "space", "ratios", "margin"].map String.toList ∧
    (Fmt.subfigures a b c).keys = ["n", "space", "ratios"].map String.toList := ⟨rfl, rfl, rfl, rfl, rfl, rfl, rfl, rfl⟩

/-- C88: the initial values: each constructor argument is the setting of its name. -/
theorem C88_initial (style s ec fc ea fa elw c a lw ls capsize capthick tex : PV) :
    (Fmt.marker style s ec fc ea fa elw).getItems (["style", "s", "ec", "fc", "ea", "fa", "elw"].map String.toList) = .ok [style, s, ec, fc, ea, fa, elw] ∧
    (Fmt.line c a lw ls).getItems (["c", "a", "lw", "ls"].map String.toList) = .ok [c, a, lw, ls] ∧
    (Fmt.errorbar c a lw capsize capthick).getItems (["c", "a", "lw", "capsize", "capthick"].map String.toList) = .ok [c, a, lw, capsize, capthick] ∧
    (Fmt.fill fc ec fa ea lw ls).getItems (["fc", "ec", "fa", "ea", "lw", "ls"].map String.toList) = .ok [fc, ec, fa, ea, lw, ls] ∧
    (Fmt.text tex c a s).getItems (["use_tex", "c", "a", "s"].map String.toList) = .ok [tex, c, a, s] := ⟨rfl, rfl, rfl, rfl, rfl⟩

/-- "v, unless it is None; then what was there" -/
def orKeep (v old : PV) : PV := match v with
  | .none => old
  | v => v

theorem setIf_present (d : Fmt) (k : Str) (c old : PV) (h : PyDict.get? d k = some old) : d.setIf k c = (.ok (), PyDict.set d k (orKeep c old)) := by
  have hk : PyDict.has d k = true := by simp [PyDict.has, h]
  cases c with
  | none => simp only [Fmt.setIf, PV.isNone, if_true, orKeep]; rw [PyDict.set_get?_self d k old h]
  | _ => simp [Fmt.setIf, PV.isNone, orKeep, update_eq, Fmt.ior, hk]

/-- C88: `c(c, a)` of a marker or fill formatter (any formatter with the four settings) sets face and edge together, `fc` and `ec` only one of them;
components passed as None keep their values, and no other setting changes. -/
theorem C88_face_edge (d : Fmt) (fc0 ec0 fa0 ea0 c a : PV) (h1 : PyDict.get? d "fc".toList = some fc0) (h2 : PyDict.get? d "ec".toList = some ec0)
    (h3 : PyDict.get? d "fa".toList = some fa0) (h4 : PyDict.get? d "ea".toList = some ea0) :
    ((d.cFaceEdge c a).1 = .ok () ∧ (d.fc c a).1 = .ok () ∧ (d.ec c a).1 = .ok ()) ∧
    (∀ k, PyDict.get? (d.cFaceEdge c a).2 k = if k = "fc".toList then some (orKeep c fc0) else if k = "ec".toList then some (orKeep c ec0)
      else if k = "fa".toList then some (orKeep a fa0) else if k = "ea".toList then some (orKeep a ea0) else PyDict.get? d k) ∧
    (∀ k, PyDict.get? (d.fc c a).2 k = if k = "fc".toList then some (orKeep c fc0) else if k = "fa".toList then some (orKeep a fa0) else PyDict.get? d k) ∧
    (∀ k, PyDict.get? (d.ec c a).2 k = if k = "ec".toList then some (orKeep c ec0) else if k = "ea".toList then some (orKeep a ea0) else PyDict.get? d k) := by
  have n12 : "fa".toList ≠ "fc".toList := by decide
  have n13 : "ec".toList ≠ "fc".toList := by decide
  have n14 : "ea".toList ≠ "fc".toList := by decide
  have n23 : "ec".toList ≠ "fa".toList := by decide
  have n24 : "ea".toList ≠ "fa".toList := by decide
  have n34 : "ea".toList ≠ "ec".toList := by decide
  have e1 : d.fc c a = (.ok (), PyDict.set (PyDict.set d "fc".toList (orKeep c fc0)) "fa".toList (orKeep a fa0)) := by
    rw [Fmt.fc, setIf_present d _ _ _ h1]
    exact setIf_present _ _ _ _ (by rw [PyDict.get?_set_ne _ _ _ _ n12]; exact h3)
  have e2 : ∀ d : Fmt, PyDict.get? d "ec".toList = some ec0 → PyDict.get? d "ea".toList = some ea0 →
      d.ec c a = (.ok (), PyDict.set (PyDict.set d "ec".toList (orKeep c ec0)) "ea".toList (orKeep a ea0)) := by
    intro d h2 h4
    rw [Fmt.ec, setIf_present d _ _ _ h2]
    exact setIf_present _ _ _ _ (by rw [PyDict.get?_set_ne _ _ _ _ n34]; exact h4)
  have e3 : d.cFaceEdge c a = (.ok (), PyDict.set (PyDict.set (PyDict.set (PyDict.set d "fc".toList (orKeep c fc0)) "fa".toList (orKeep a fa0)) "ec".toList (orKeep c ec0)) "ea".toList (orKeep a ea0)) := by
    rw [Fmt.cFaceEdge, e1]
    exact e2 _ (by rw [PyDict.get?_set_ne _ _ _ _ n23, PyDict.get?_set_ne _ _ _ _ n13]; exact h2)
      (by rw [PyDict.get?_set_ne _ _ _ _ n24, PyDict.get?_set_ne _ _ _ _ n14]; exact h4)
  rw [e1, e2 d h2 h4, e3]
  refine ⟨⟨rfl, rfl, rfl⟩, fun k => ?_, fun k => ?_, fun k => ?_⟩
  · simp only [PyDict.get?_set]
    generalize "fc".toList = kfc at *
    generalize "ec".toList = kec at *
    generalize "fa".toList = kfa at *
    generalize "ea".toList = kea at *
    by_cases q1 : k = kfc
    · subst q1; simp [n12.symm, n13.symm, n14.symm]
    · by_cases q2 : k = kec
      · subst q2; simp [n13, n34.symm]
      · by_cases q3 : k = kfa
        · subst q3; simp [n12, n23.symm, n24.symm]
        · simp [q1, q2, q3]
  · simp only [PyDict.get?_set]
    generalize "fc".toList = kfc at *
    generalize "fa".toList = kfa at *
    by_cases q1 : k = kfc
    · subst q1; simp [n12.symm]
    · simp [q1]
  · simp only [PyDict.get?_set]
    generalize "ec".toList = kec at *
    generalize "ea".toList = kea at *
    by_cases q1 : k = kec
    · subst q1; simp [n34.symm]
    · simp [q1]

/-- C88: `c(c, a)` of a line, error bar or text formatter. -/
theorem C88_line_color (d : Fmt) (c0 a0 c a : PV) (h1 : PyDict.get? d "c".toList = some c0) (h2 : PyDict.get? d "a".toList = some a0) :
    (d.cLine c a).1 = .ok () ∧
    ∀ k, PyDict.get? (d.cLine c a).2 k = if k = "c".toList then some (orKeep c c0) else if k = "a".toList then some (orKeep a a0) else PyDict.get? d k := by
  have n : "a".toList ≠ "c".toList := by decide
  have e : d.cLine c a = (.ok (), PyDict.set (PyDict.set d "c".toList (orKeep c c0)) "a".toList (orKeep a a0)) := by
    rw [Fmt.cLine, setIf_present d _ _ _ h1]
    exact setIf_present _ _ _ _ (by rw [PyDict.get?_set_ne _ _ _ _ n]; exact h2)
  rw [e]
  refine ⟨rfl, fun k => ?_⟩
  simp only [PyDict.get?_set]
  generalize "c".toList = kc at *
  generalize "a".toList = ka at *
  by_cases q1 : k = kc
  · subst q1; simp [n.symm]
  · simp [q1]

/-- C88: the colour of a face, an edge or a line has the red, green and blue of the colour setting; its alpha is the alpha setting, or that of
the colour itself if the alpha setting is None.  An invalid colour is only noticed when it is used. -/
theorem C88_color (toRgba : PV → PyM (PV × PV × PV × PV)) (d : Fmt) (ck ak : Str) (hc : '/' ∉ ck) (ha : '/' ∉ ak) (c a : PV)
    (h1 : PyDict.get? d ck = some c) (h2 : PyDict.get? d ak = some a) :
    (∀ r g b alpha, toRgba c = .ok (r, g, b, alpha) → d.color toRgba ck ak = .ok (.seq [r, g, b, orKeep a alpha])) ∧
    (∀ e, toRgba c = .error e → d.color toRgba ck ak = .error e) := by
  constructor
  · intro r g b alpha h
    simp only [Fmt.color, Fmt.getItem, hc, ha, not_false_eq_true, if_true, Fmt.direct, h1, h2, rgba, h, bind, Except.bind, pure, Except.pure]
    cases a <;> rfl
  · intro e h
    simp only [Fmt.color, Fmt.getItem, hc, ha, not_false_eq_true, if_true, Fmt.direct, h1, h2, rgba, h, bind, Except.bind]

/-- C88: text is put between dollar signs exactly if `use_tex` is true. -/
theorem C88_wrap (c a s : PV) (b : Bool) (text : Str) :
    (Fmt.text (.bool b) c a s).wrapText text = .ok (if b then "$".toList ++ text ++ "$".toList else text) := by
  cases b <;> rfl

/-- C88: a slash-separated name reads inside a setting that is a mapping, but cannot be assigned. -/
theorem C88_nested (d : Fmt) (k sub : Str) (hk : '/' ∉ k) (hs : '/' ∉ sub) (hk0 : k ≠ []) (hs0 : sub ≠ []) (es : PyDict Str PV)
    (h : PyDict.get? d k = some (.map es)) (hnames : ∀ n ∈ d.keys, '/' ∉ n) (w : PV) :
    d.getItem (k ++ '/' :: sub) = (match es.get? sub with | some v => .ok v | none => .error .keyError) ∧
    d.setItem (k ++ '/' :: sub) w = (.error .keyError, d) := by
  constructor
  · have hc : Str.comps '/' (k ++ '/' :: sub) = [k, sub] := by
      rw [Str.comps_append_sep, Str.comps_nosep _ _ hk hk0, Str.comps_nosep _ _ hs hs0]; rfl
    rw [Fmt.getItem, if_neg (by simp), hc]
    simp only [Fmt.direct, h, bind, Except.bind, PV.walk, PV.item]
    cases es.get? sub <;> rfl
  · have : ¬ (PyDict.has d (k ++ '/' :: sub) = true) := by
      rw [PyDict.has_iff]; intro hm; exact hnames _ hm (by simp)
    simp only [Fmt.setItem, if_neg this]

/-- What is found along a list of names inside a value. -/
inductive Inside : PV → List Str → PV → Prop
  | here (v : PV) : Inside v [] v
  | step (es : List (Str × PV)) (k : Str) (ks : List Str) (v w : PV) (h : PyDict.get? es k = some v) (hr : Inside v ks w) : Inside (.map es) (k :: ks) w

theorem walk_iff (ks : List Str) : ∀ (v w : PV), v.walk ks = .ok w ↔ Inside v ks w := by
  induction ks with
  | nil =>
      intro v w
      constructor
      · intro h; cases h; exact .here _
      · intro h; cases h; rfl
  | cons k ks ih =>
      intro v w
      constructor
      · intro h
        cases v with
        | map es =>
            simp only [PV.walk, PV.item, bind, Except.bind] at h
            cases hg : PyDict.get? es k with
            | none => rw [hg] at h; cases h
            | some u => rw [hg] at h; exact .step es k ks u w hg ((ih u w).1 h)
        | _ => simp only [PV.walk, PV.item, bind, Except.bind] at h; cases h
      · intro h
        cases h with
        | step es _ _ u _ hg hr =>
            simp only [PV.walk, PV.item, hg, bind, Except.bind]
            exact (ih u w).2 hr

/-- C88: a name with any number of components reads the value at that place inside the mappings, however deep; a name of slashes only is an AssertionError. -/
theorem C88_nested_deep (d : Fmt) (k : Str) (ks : List Str) (hks : ks ≠ []) (hn : ∀ c ∈ k :: ks, '/' ∉ c ∧ c ≠ []) (w : PV) :
    (d.getItem (Str.join '/' (k :: ks)) = .ok w ↔ ∃ v, PyDict.get? d k = some v ∧ Inside v ks w) ∧
    (∀ n : Nat, d.getItem (List.replicate (n + 1) '/') = .error .assertionError) := by
  constructor
  · have hs : ¬ ('/' ∉ Str.join '/' (k :: ks)) := by
      obtain ⟨c, cs, rfl⟩ : ∃ c cs, ks = c :: cs := by cases ks with | nil => exact absurd rfl hks | cons c cs => exact ⟨c, cs, rfl⟩
      simp [Str.join]
    rw [Fmt.getItem, if_neg hs, Str.comps_join _ _ hn]
    simp only [Fmt.direct, bind, Except.bind]
    cases hg : PyDict.get? d k with
    | none => simp
    | some v => simp [walk_iff]
  · intro n
    have hc : Str.comps '/' (List.replicate (n + 1) '/') = [] := by
      have := Str.comps_replicate '/' (n + 1) []
      rw [List.append_nil] at this
      rw [this]; rfl
    rw [Fmt.getItem, if_neg (by simp [List.replicate_succ]), hc]

/-- The false values of Python. -/
inductive Falsy : PV → Prop
  | none : Falsy .none
  | bool : Falsy (.bool false)
  | zero : Falsy (.num 0)
  | str : Falsy (.str [])
  | seq : Falsy (.seq [])
  | map : Falsy (.map [])

theorem truth_iff (v : PV) : v.truth = false ↔ Falsy v := by
  constructor
  · intro h
    cases v with
    | none => exact .none
    | bool b => simp only [PV.truth] at h; subst h; exact .bool
    | num q =>
        simp only [PV.truth, ne_eq, decide_not, Bool.not_eq_false', decide_eq_true_eq] at h
        subst h; exact .zero
    | str s =>
        simp only [PV.truth, ne_eq, decide_not, Bool.not_eq_false', decide_eq_true_eq] at h
        subst h; exact .str
    | seq l => cases l with | nil => exact .seq | cons a l => simp [PV.truth] at h
    | map l => cases l with | nil => exact .map | cons a l => simp [PV.truth] at h
    | obj o => simp [PV.truth] at h
  · intro h; cases h <;> rfl

/-- C88: `use_tex` may be any value: the text is put between dollar signs unless it is None, False, 0 or empty. -/
theorem C88_wrap_any (tex c a s : PV) (text : Str) :
    (Falsy tex → (Fmt.text tex c a s).wrapText text = .ok text) ∧ (¬ Falsy tex → (Fmt.text tex c a s).wrapText text = .ok ("$".toList ++ text ++ "$".toList)) := by
  have e : (Fmt.text tex c a s).wrapText text = .ok (if tex.truth then '$' :: text ++ ['$'] else text) := rfl
  rw [e]
  constructor
  · intro h; rw [(truth_iff tex).2 h]; rfl
  · intro h
    have : tex.truth = true := by
      cases ht : tex.truth with
      | true => rfl
      | false => exact absurd ((truth_iff tex).1 ht) h
    rw [this]; rfl

/-- C88: the documented defaults of the formatters. -/
theorem C88_defaults : let k := PV.str "k".toList
    Fmt.marker = Fmt.marker (.str "o".toList) (.num 10) k k (.num 1) (.num (3 / 10)) (.num 1) ∧
    Fmt.line = Fmt.line k (.num 1) (.num (5 / 2)) (.str "-".toList) ∧
    Fmt.errorbar = Fmt.errorbar k (.num 1) (.num 1) (.num 4) (.num 1) ∧
    Fmt.fill = Fmt.fill k k (.num (1 / 5)) (.num 1) (.num 1) (.str "-".toList) ∧
    Fmt.text = Fmt.text (.bool true) k (.num 1) (.num 15) := ⟨rfl, rfl, rfl, rfl, rfl⟩

/-- Example: an update with an unknown name keeps the assignments before it. -/
example : let d := Fmt.line
    (d.update [[("lw".toList, .num 4), ("width".toList, .num 5), ("ls".toList, .str ":".toList)]] []).1 = .error .keyError ∧
    PyDict.get? (d.update [[("lw".toList, .num 4), ("width".toList, .num 5), ("ls".toList, .str ":".toList)]] []).2 "lw".toList = some (.num 4) ∧
    PyDict.get? (d.update [[("lw".toList, .num 4), ("width".toList, .num 5), ("ls".toList, .str ":".toList)]] []).2 "ls".toList = some (.str "-".toList) := ⟨rfl, rfl, rfl⟩

/-- Example: the hypotheses of `C88_face_edge` hold for the marker and the fill formatter. -/
example : PyDict.get? Fmt.marker "fc".toList = some (.str "k".toList) ∧ PyDict.get? Fmt.fill "ea".toList = some (.num 1) := ⟨rfl, rfl⟩

/-! ### C89 -/

/-- Spec: a value for the four sides, in the order top, right, bottom, left: one value for all, (bottom-left, top-right), or all four. -/
inductive IsSides : PV → PV → PV → PV → PV → Prop
  | none : IsSides .none .none .none .none .none
  | num (q : ℚ) : IsSides (.num q) (.num q) (.num q) (.num q) (.num q)
  | two (e1 e2 : PV) : IsSides (.seq [e1, e2]) e2 e2 e1 e1
  | four (t r b l : PV) : IsSides (.seq [t, r, b, l]) t r b l

/-- Spec: one value for both directions or a pair. -/
inductive IsPair : PV → PV → PV → Prop
  | none : IsPair .none .none .none
  | num (q : ℚ) : IsPair (.num q) (.num q) (.num q)
  | bool (b : Bool) : IsPair (.bool b) (.bool b) (.bool b)
  | str (s : Str) : IsPair (.str s) (.str s) (.str s)
  | two (a b : PV) : IsPair (.seq [a, b]) a b

/-- Spec: a number of columns, or (rows, columns). -/
inductive IsGrid : PV → PV → PV → Prop
  | row (q : ℚ) : IsGrid (.num q) (.num 1) (.num q)
  | two (a b : PV) : IsGrid (.seq [a, b]) a b

/-- Spec: nothing or a pair. -/
inductive IsOptPair : PV → PV → PV → Prop
  | none : IsOptPair .none .none .none
  | two (a b : PV) : IsOptPair (.seq [a, b]) a b

theorem extentSides_of {v t r b l : PV} (h : IsSides v t r b l) : extentSides v = .ok (t, r, b, l) := by
  cases h <;> rfl

/-- The keyword arguments, as they are handed to matplotlib. -/
def layout (nr nc sx sy t r b l ws hs wr hr : PV) : SubplotsKw where
  kw := [("nrows".toList, nr), ("ncols".toList, nc), ("sharex".toList, sx), ("sharey".toList, sy)]
  gridspec := [("wspace".toList, ws), ("hspace".toList, hs), ("width_ratios".toList, wr), ("height_ratios".toList, hr),
    ("top".toList, t), ("right".toList, r), ("bottom".toList, b), ("left".toList, l)]
  subplot := []

theorem rowsCols_of {n nr nc : PV} (h : IsGrid n nr nc) : rowsCols n = .ok (nr, nc) := by cases h <;> rfl
theorem shareXY_of {v a b : PV} (h : IsPair v a b) (hn : v ≠ .none) : shareXY v = .ok (a, b) := by cases h <;> first | rfl | exact absurd rfl hn
theorem spaceWH_of {v a b : PV} (h : IsPair v a b) : spaceWH v = .ok (a, b) := by cases h <;> rfl
theorem ratiosWH_of {v a b : PV} (h : IsOptPair v a b) : ratiosWH v = .ok (a, b) := by cases h <;> rfl

theorem getSubplotsKw_eq (n share extent space ratios margin : PV) : (Fmt.subplots n share extent space ratios margin).getSubplotsKw = do
    let (nrows, ncols) ← rowsCols n
    let (sharex, sharey) ← shareXY share
    let (top, right, bottom, left) ← sides extent margin
    let (wspace, hspace) ← spaceWH space
    let (width_ratios, height_ratios) ← ratiosWH ratios
    return layout nrows ncols sharex sharey top right bottom left wspace hspace width_ratios height_ratios := rfl

/-- C89: without a margin, every form of the arguments gives the layout it stands for. -/
theorem C89_extent {n nr nc share sx sy extent t r b l space ws hs ratios wr hr : PV} (hn : IsGrid n nr nc) (hsh : IsPair share sx sy) (hs0 : share ≠ .none)
    (he : IsSides extent t r b l) (hsp : IsPair space ws hs) (hra : IsOptPair ratios wr hr) :
    (Fmt.subplots n share extent space ratios .none).getSubplotsKw = .ok (layout nr nc sx sy t r b l ws hs wr hr) := by
  rw [getSubplotsKw_eq, rowsCols_of hn, shareXY_of hsh hs0, spaceWH_of hsp, ratiosWH_of hra]
  simp [sides, extentSides_of he, PV.isNone, bind, Except.bind, pure, Except.pure]

theorem sides_margin {extent t r b l margin mb ml : PV} {mt mr : ℚ} (he : IsSides extent t r b l) (hm : IsSides margin (.num mt) (.num mr) mb ml) :
    sides extent margin = .ok (.num (1 - mt), .num (1 - mr), mb, ml) := by
  generalize ht : PV.num mt = vt at hm
  generalize hr : PV.num mr = vr at hm
  cases hm with
  | none => cases ht
  | num q => cases ht; cases hr; simp [sides, extentSides_of he, PV.isNone, marginSides, PV.isScalar, PV.oneMinus, bind, Except.bind, pure, Except.pure]
  | two e1 e2 =>
      subst ht
      cases hr
      simp [sides, extentSides_of he, PV.isNone, marginSides, PV.isScalar, PV.oneMinus, PV.len, PV.unpack2, PV.iter, bind, Except.bind, pure, Except.pure]
  | four =>
      subst ht; subst hr
      simp [sides, extentSides_of he, PV.isNone, marginSides, PV.isScalar, PV.oneMinus, PV.len, PV.unpack4, PV.iter, bind, Except.bind, pure, Except.pure]

/-- C89: with a margin, top and right are one minus the margin there, bottom and left are the margin; the extent plays no role. -/
theorem C89_margin {n nr nc share sx sy extent t r b l space ws hs ratios wr hr margin mb ml : PV} {mt mr : ℚ} (hn : IsGrid n nr nc) (hsh : IsPair share sx sy)
    (hs0 : share ≠ .none) (he : IsSides extent t r b l) (hsp : IsPair space ws hs) (hra : IsOptPair ratios wr hr) (hm : IsSides margin (.num mt) (.num mr) mb ml) :
    (Fmt.subplots n share extent space ratios margin).getSubplotsKw = .ok (layout nr nc sx sy (.num (1 - mt)) (.num (1 - mr)) mb ml ws hs wr hr) := by
  rw [getSubplotsKw_eq, rowsCols_of hn, shareXY_of hsh hs0, spaceWH_of hsp, ratiosWH_of hra, sides_margin he hm]
  rfl

/-- C89: a margin is the same as the extent (1 - top, 1 - right, bottom, left). -/
theorem C89_margin_is_extent (n share space ratios extent t r b l : PV) (he : IsSides extent t r b l) (margin mb ml : PV) (mt mr : ℚ)
    (hm : IsSides margin (.num mt) (.num mr) mb ml) :
    (Fmt.subplots n share extent space ratios margin).getSubplotsKw =
    (Fmt.subplots n share (.seq [.num (1 - mt), .num (1 - mr), mb, ml]) space ratios .none).getSubplotsKw := by
  rw [getSubplotsKw_eq, getSubplotsKw_eq, sides_margin he hm]
  rfl

/-- C89: margins that are not numbers at the top or right are refused, and sequences of a length other than two or four raise ValueError - for the
extent even when a margin is given. -/
theorem C89_invalid (n nr nc space ratios : PV) (l : List PV) (h2 : l.length ≠ 2) (h4 : l.length ≠ 4) (hn : IsGrid n nr nc) (margin : PV) (text : Str) :
    (Fmt.subplots n (.bool false) (.seq l) space ratios margin).getSubplotsKw = .error .valueError ∧
    (Fmt.subplots n (.bool false) .none space ratios (.seq l)).getSubplotsKw = .error .valueError ∧
    (Fmt.subplots n (.bool false) .none space ratios (.seq [.num 0, .str text]) ).getSubplotsKw = .error .typeError := by
  have hs : extentSides (.seq l) = .error .valueError := by
    simp only [extentSides, PV.isNone, PV.isScalar, PV.len, PV.iter, PV.unpack4, bind, Except.bind, pure, Except.pure, Bool.or_self, Bool.false_eq_true, if_false, h2]
    split
    · rename_i heq; simp at h4
    · rfl
  have hm : marginSides (.seq l) = .error .valueError := by
    simp only [marginSides, PV.isScalar, PV.len, PV.iter, PV.unpack4, bind, Except.bind, pure, Except.pure, Bool.false_eq_true, if_false, h2]
    split
    · rename_i heq; simp at h4
    · rfl
  refine ⟨?_, ?_, ?_⟩
  · rw [getSubplotsKw_eq, rowsCols_of hn]
    simp [shareXY, PV.isScalar, sides, hs, bind, Except.bind]
  · rw [getSubplotsKw_eq, rowsCols_of hn]
    simp [shareXY, PV.isScalar, sides, hm, extentSides_of .none, PV.isNone, bind, Except.bind]
  · rw [getSubplotsKw_eq, rowsCols_of hn]
    rfl

/-- C89: the same forms for subfigures. -/
theorem C89_subfigures {n nr nc space ws hs ratios wr hr : PV} (hn : IsGrid n nr nc) (hsp : IsPair space ws hs) (hra : IsOptPair ratios wr hr) :
    (Fmt.subfigures n space ratios).getSubfiguresKw = .ok [("nrows".toList, nr), ("ncols".toList, nc), ("wspace".toList, ws), ("hspace".toList, hs),
      ("width_ratios".toList, wr), ("height_ratios".toList, hr)] := by
  have : (Fmt.subfigures n space ratios).getSubfiguresKw = (do
      let (nrows, ncols) ← rowsCols n
      let (wspace, hspace) ← spaceWH space
      let (width_ratios, height_ratios) ← ratiosWH ratios
      return [("nrows".toList, nrows), ("ncols".toList, ncols), ("wspace".toList, wspace), ("hspace".toList, hspace),
        ("width_ratios".toList, width_ratios), ("height_ratios".toList, height_ratios)]) := rfl
  rw [this, rowsCols_of hn, spaceWH_of hsp, ratiosWH_of hra]
  rfl

/-- Example: margin 0.1 and margin (0.1, 0.05). -/
example : IsSides (.num (1 / 10)) (.num (1 / 10)) (.num (1 / 10)) (.num (1 / 10)) (.num (1 / 10)) ∧
    IsSides (.seq [.num (1 / 10), .num (1 / 20)]) (.num (1 / 20)) (.num (1 / 20)) (.num (1 / 10)) (.num (1 / 10)) ∧
    (do let s ← sides .none (.seq [.num (1 / 10), .num (1 / 20)]); return s.1) = (.ok (.num (1 - 1 / 20)) : PyM PV) := ⟨.num _, .two _ _, rfl⟩

end Pyhipp.Plot
