import Verif.Model.ConcreteRepr
import Verif.Props.LambdaCDM
import Verif.Props.Repr
/-
C148: what the simple representations of parameters, cosmologies, bins and symmetry groups hold, when they can be written as JSON, and what
can be rebuilt from them.
-/
namespace Pyhipp.ConcreteRepr
open Pyhipp Pyhipp.Repr

variable {α : Type}

/-! ### Documents -/

theorem dumpsAll_map {B : Type} (f : B → Val (Lf α)) (g : B → Json (Lf α)) (l : List B) (h : ∀ b ∈ l, json (f b) = .ok (g b)) :
    dumpsAll Lf.jsonOk (l.map f) = .ok (l.map g) := by
  induction l with
  | nil => rfl
  | cons b t ih =>
    have h1 : dumps Lf.jsonOk (f b) = .ok (g b) := h b (by simp)
    simp only [List.map_cons, dumpsAll, h1, ih (fun c hc => h c (by simp [hc]))]

theorem json_list {B : Type} (f : B → Val (Lf α)) (g : B → Json (Lf α)) (l : List B) (h : ∀ b ∈ l, json (f b) = .ok (g b)) :
    json (.list (l.map f)) = .ok (.arr (l.map g)) := by
  simp only [json, dumps, dumpsAll_map f g l h]

theorem dumpsItems_map {B : Type} (f : B → Val (Lf α)) (g : B → Json (Lf α)) (l : List (Str × B)) (h : ∀ p ∈ l, json (f p.2) = .ok (g p.2)) :
    dumpsItems Lf.jsonOk (l.map fun p => (p.1, f p.2)) = .ok (l.map fun p => (p.1, g p.2)) := by
  induction l with
  | nil => rfl
  | cons b t ih =>
    have h1 : dumps Lf.jsonOk (f b.2) = .ok (g b.2) := h b (by simp)
    simp only [List.map_cons, dumpsItems, h1, ih (fun c hc => h c (by simp [hc]))]

/-- The first entry that cannot be written makes the dictionary fail; only TypeErrors occur. -/
theorem dumpsItems_error (l : List (Str × Val (Lf α))) (p : Str × Val (Lf α)) (hp : p ∈ l) (h : json p.2 = .error .typeError) :
    dumpsItems Lf.jsonOk l = .error .typeError := by
  induction l with
  | nil => simp at hp
  | cons b t ih =>
    simp only [dumpsItems]
    rcases hd : dumps Lf.jsonOk b.2 with e | j
    · have := ((dumps_spec Lf.jsonOk b.2).2 e hd).1
      rw [this]
    · rcases List.mem_cons.mp hp with rfl | hp
      · rw [json] at h; rw [h] at hd; cases hd
      · rw [ih hp]

theorem json_dict_error (l : List (Str × Val (Lf α))) (p : Str × Val (Lf α)) (hp : p ∈ l) (h : json p.2 = .error .typeError) :
    json (.dict l) = .error .typeError := by
  simp only [json, dumps, dumpsItems_error l p hp h]

/-- A dictionary with four entries. -/
theorem json_four (k1 k2 k3 k4 : Str) (v1 v2 v3 v4 : Val (Lf α)) (doc : Json (Lf α)) :
    json (.dict [(k1, v1), (k2, v2), (k3, v3), (k4, v4)]) = .ok doc ↔ ∃ j1 j2 j3 j4, json v1 = .ok j1 ∧ json v2 = .ok j2 ∧ json v3 = .ok j3 ∧
      json v4 = .ok j4 ∧ doc = .obj [(k1, j1), (k2, j2), (k3, j3), (k4, j4)] := by
  unfold json
  rw [dumps]
  simp only [dumpsItems]
  rcases dumps Lf.jsonOk v1 with e | j1
  · simp
  rcases dumps Lf.jsonOk v2 with e | j2
  · simp
  rcases dumps Lf.jsonOk v3 with e | j3
  · simp
  rcases dumps Lf.jsonOk v4 with e | j4
  · simp
  simp [eq_comm]

theorem get?_four {B : Type} (k1 k2 k3 k4 k : Str) (a b c d : B) (h1 : k1 ≠ k) (h2 : k2 ≠ k) (h3 : k3 ≠ k) (h4 : k4 ≠ k) :
    PyDict.get? [(k1, a), (k2, b), (k3, c), (k4, d)] k = none := by
  simp only [PyDict.get?, if_neg h1, if_neg h2, if_neg h3, if_neg h4]

/-! ### Parameters -/

/-- C148: `to_json` of a ParamList, at any time, is the list of the names and current values of its parameters, in order. -/
theorem C148_params (h : Param.Heap α) (p : Param.PList) :
    json (plistRepr h p) = .ok (.arr (p.params.map fun r =>
      .obj [("name".toList, .str (h r).name), ("value".toList, .arr ((h r).value.map fun x => .leaf (.num x)))])) := by
  unfold plistRepr
  refine json_list _ _ _ (fun r _ => ?_)
  have := dumpsAll_map (α := α) (fun x : α => .leaf (.num x)) (fun x => .leaf (.num x)) (h r).value (fun x _ => rfl)
  simp only [json, paramRepr, dumps, dumpsItems, this]

/-! ### Cosmologies -/

section
open LCDM
variable {X : Type} (P : Phys)

/-- The document of the meta data. -/
def metaJson (g : X → Json (Lf ℝ)) : Option (PyDict Str X) → Json (Lf ℝ)
  | none => .leaf .none
  | some d => .obj (d.map fun p => (p.1, g p.2))

/-- C148: if the meta data can be written, `to_json` of a cosmology is the document with its name, data directory, meta data and all its
parameters (name and current value) in order. -/
theorem C148_lcdm (sh : X → Val (Lf ℝ)) (g : X → Json (Lf ℝ)) (m : LCDM.Model X) (hm : ∀ d, m.info = some d → ∀ p ∈ d, json (sh p.2) = .ok (g p.2)) :
    json (lcdmRepr sh m) = .ok (.obj [("name".toList, .str m.name), ("data_dir".toList, .str m.dataDir), ("meta".toList, metaJson g m.info),
      ("params".toList, .arr (m.params.map fun p => .obj [("name".toList, .str p.1), ("value".toList, .leaf (.num p.2))]))]) := by
  have h1 : json (metaRepr sh m.info) = .ok (metaJson g m.info) := by
    rcases hi : m.info with _ | d
    · rfl
    · simp only [json, metaRepr, metaJson, dumps, dumpsItems_map sh g d (hm d hi)]
  have h2 : json (.list (m.params.map scalarRepr)) =
      .ok (.arr (m.params.map fun p => .obj [("name".toList, .str p.1), ("value".toList, .leaf (.num p.2))])) :=
    json_list _ _ _ (fun p _ => rfl)
  exact (json_four _ _ _ _ _ _ _ _ _).mpr ⟨_, _, _, _, rfl, rfl, h1, h2, rfl⟩

/-- C148: and it fails, with a TypeError, exactly if some value of the meta data cannot be written. -/
theorem C148_lcdm_error (sh : X → Val (Lf ℝ)) (m : LCDM.Model X) :
    (∃ e, json (lcdmRepr sh m) = .error e) ↔ ∃ d, m.info = some d ∧ ∃ p ∈ d, json (sh p.2) = .error .typeError := by
  constructor
  · rintro ⟨e, he⟩
    by_contra hn
    have hg : ∀ x, ∃ j, (∃ d, m.info = some d ∧ ∃ p ∈ d, p.2 = x) → json (sh x) = .ok j := by
      intro x
      rcases hd : json (sh x) with e' | j
      · refine ⟨.leaf .none, ?_⟩
        rintro ⟨d, hi, p, hp, rfl⟩
        have := ((dumps_spec Lf.jsonOk (sh p.2)).2 e' hd).1
        subst this
        exact absurd ⟨d, hi, p, hp, hd⟩ hn
      · exact ⟨j, fun _ => rfl⟩
    choose g hg using hg
    have := C148_lcdm sh g m (fun d hi p hp => hg p.2 ⟨d, hi, p, hp, rfl⟩)
    rw [this] at he
    cases he
  · rintro ⟨d, hi, p, hp, h⟩
    refine ⟨.typeError, json_dict_error _ ("meta".toList, metaRepr sh m.info) (by simp) ?_⟩
    rw [hi]
    exact json_dict_error _ (p.1, sh p.2) (List.mem_map.mpr ⟨p, hp, rfl⟩) h

/-- C148: the document determines the model: `from_parameters` with the name, data directory, meta data and parameters in it makes the same
model, if the model was made by any of the constructors (with meta data that are a dictionary) and not changed since. -/
theorem C148_lcdm_restore (cwd : Str) (ps : List (Str × ℝ)) (dir name : Option Str) (d : PyDict Str X) (m : LCDM.Model X)
    (h : LCDM.Model.new P ps dir (some d) name = .ok m) :
    LCDM.fromParameters P cwd m.params (some m.name) (some m.dataDir) m.info = .ok m := by
  cases dir with
  | none => cases h
  | some dir =>
    unfold LCDM.Model.new at h
    unfold LCDM.fromParameters LCDM.Model.new
    simp only [bind, Except.bind] at h ⊢
    rcases LCDM.param_cases ps "hubble".toList with ⟨v1, h1⟩ | h1 <;> rw [h1] at h
    swap; · cases h
    rcases LCDM.param_cases ps "omega_m0".toList with ⟨v2, h2⟩ | h2 <;> rw [h2] at h
    swap; · cases h
    rcases LCDM.param_cases ps "t_cmb".toList with ⟨v3, h3⟩ | h3 <;> rw [h3] at h
    swap; · cases h
    rcases LCDM.param_cases ps "omega_b0".toList with ⟨v4, h4⟩ | h4 <;> rw [h4] at h
    swap; · cases h
    simp only at h
    rcases hf : FLRW.new (v1 * 100.0) v2 v3 v4 with e | a
    · rw [hf] at h; cases h
    · rw [hf] at h
      cases h
      simp only [h1, h2, h3, h4, hf]
      rfl

/-- C148: after a parameter has been changed in place, the document holds the new value, and the model rebuilt from it is the consistent one:
its astropy model and unit system are those of the new values. -/
theorem C148_lcdm_changed (cwd : Str) (m m' : LCDM.Model X)
    (h : LCDM.fromParameters P cwd m.params (some m.name) (some m.dataDir) m.info = .ok m') :
    ModelOf P m.params m.name m.dataDir (some (m.info.getD [])) m' := by
  have := LCDM.new_ok P m.params _ _ _ m' h
  cases hi : m.info <;> rw [hi] at this <;> exact this

/-- C148 (recorded): a file that holds `to_json()` of a cosmology is no configuration file: `from_conf_file` raises KeyError, whatever the
cosmology (the parameters are stored under 'params', not 'parameters'). -/
theorem C148_lcdm_conf_defect (sh : X → Val (Lf ℝ)) (m : LCDM.Model X) (doc : Json (Lf ℝ)) (hj : json (lcdmRepr sh m) = .ok doc)
    (showOther : CV (Json (Lf ℝ)) → Str) (fs : Str → Option (File (Json (Lf ℝ)))) (s parent : Str) (hf : fs (s ++ ".json".toList) = some (fileOf doc)) :
    fromConfFile P showOther fs (.path (s ++ ".json".toList) parent) = .error .keyError := by
  obtain ⟨a, b, c, d, -, -, -, -, rfl⟩ := (json_four _ _ _ _ _ _ _ _ _).mp hj
  rw [fileOf] at hf
  simp only [List.map_cons, List.map_nil] at hf
  have hw : PyDict.WF [("name".toList, cvOf a), ("data_dir".toList, cvOf b), ("meta".toList, cvOf c), ("params".toList, cvOf d)] := by
    show ["name".toList, "data_dir".toList, "meta".toList, "params".toList].Nodup
    decide
  generalize cvOf a = a at *
  generalize cvOf b = b at *
  generalize cvOf c = c at *
  generalize cvOf d = d at *
  have hg : PyDict.get? [("name".toList, a), ("data_dir".toList, b), ("meta".toList, c), ("params".toList, d)] "parameters".toList = none := by
    exact get?_four _ _ _ _ _ _ _ _ _ (by decide) (by decide) (by decide) (by decide)
  have key := (LCDM.C111_conf_errors P showOther fs (.path (s ++ ".json".toList) parent)).2 ⟨s, rfl⟩
  generalize hC : [("name".toList, a), ("data_dir".toList, b), ("meta".toList, c), ("params".toList, d)] = conf at *
  exact (key.2.2 conf hw hf).1 hg

/-- C148: the representation of the predefined cosmologies names the models loaded so far, in the order of loading. -/
theorem C148_predefined (sh : CV X → Val (Lf ℝ)) (g : CV X → Json (Lf ℝ)) (dir : Str) (c : Predef X)
    (hm : ∀ q ∈ c, ∀ d, q.2.info = some d → ∀ p ∈ d, json (sh p.2) = .ok (g p.2)) :
    ∃ ms, json (predefRepr sh dir c) = .ok (.obj [("data_dir".toList, .str dir), ("models".toList, .obj ms)]) ∧
      ms.map (·.1) = PyDict.keys c ∧ ∀ i (hi : i < c.length) (hi' : i < ms.length), json (lcdmRepr sh c[i].2) = .ok ms[i].2 := by
  have hl : ∀ m : LCDM.Model (CV X), ∃ j, (∃ q ∈ c, q.2 = m) → json (lcdmRepr sh m) = .ok j := by
    intro m
    rcases hd : json (lcdmRepr sh m) with e | j
    · refine ⟨.leaf .none, ?_⟩
      rintro ⟨q, hq, rfl⟩
      rw [C148_lcdm sh g q.2 (hm q hq)] at hd
      cases hd
    · exact ⟨j, fun _ => rfl⟩
  choose G hG using hl
  refine ⟨c.map fun p => (p.1, G p.2), ?_, ?_, ?_⟩
  · have := dumpsItems_map (lcdmRepr sh) G c (fun q hq => hG q.2 ⟨q, hq, rfl⟩)
    simp only [json, predefRepr, dumps, dumpsItems, this]
  · rw [List.map_map]; rfl
  · intro i hi hi'
    rw [List.getElem_map]
    exact hG _ ⟨c[i], List.getElem_mem hi, rfl⟩

end

/-! ### Bins -/

section
variable [Field α] [LinearOrder α] [IsStrictOrderedRing α]

/-- The value stored under a key of a dictionary. -/
def entry (v : Val (Lf α)) (k : String) : Option (Val (Lf α)) :=
  match v with
  | .dict kvs => PyDict.get? kvs k.toList
  | _ => none

/-- C148: EqualSpaceBins can be written unless the range was given as an array (TypeError); the constructor with the range and number of bins in
the representation makes the same bins. -/
theorem C148_equal (b e : α) (n : Int) (bs : Binning.Bins α) (how : RangeArg) (h : Binning.equalSpaceInit b e n = .ok bs) :
    ((∃ j, json (binsRepr how bs) = .ok j) ↔ how ≠ .array) ∧ (how = .array → json (binsRepr how bs) = .error .typeError) ∧
    entry (binsRepr how bs) "x_range" = some (rangeVal b e how) ∧ entry (binsRepr how bs) "n_bins" = some (.leaf (.int n)) ∧
    entry (binsRepr how bs) "x_span" = some (.leaf (.num (e - b))) ∧ entry (binsRepr how bs) "x_step" = some (.leaf (.num ((e - b) / n))) := by
  unfold Binning.equalSpaceInit at h
  simp only [bind, Except.bind, pyAssert] at h
  by_cases h1 : b < e
  swap; · simp [h1] at h
  by_cases h2 : n > 0
  swap; · simp [h1, h2] at h
  simp only [h1, h2, decide_true, if_true] at h
  cases h
  have hn : ((n.toNat : ℕ) : Int) = n := Int.toNat_of_nonneg h2.le
  refine ⟨?_, ?_, ?_, ?_, ?_, ?_⟩
  · cases how
    · exact ⟨fun _ => (by simp), fun _ => ⟨_, rfl⟩⟩
    · exact ⟨fun _ => (by simp), fun _ => ⟨_, rfl⟩⟩
    · refine ⟨?_, fun h => absurd rfl h⟩
      rintro ⟨j, hj⟩
      cases hj
  · rintro rfl; rfl
  · rfl
  · show some (Val.leaf (Lf.int ((n.toNat : ℕ) : Int))) = _
    rw [hn]
  · rfl
  · rfl

/-- C148: the documents of the two ways that can be written are the same: a tuple becomes a list. -/
theorem C148_equal_tuple (bs : Binning.Bins α) : json (binsRepr .tuple bs) = json (binsRepr .list bs) := by
  cases bs <;> rfl

/-- C148: the constructor of BiSearchBins with the edges in the representation makes the same bins; the mean step is the span divided by the
number of bins; they cannot be written (TypeError), nor can BinnedData with any bins. -/
theorem C148_bisearch (edges : List α) (bs : Binning.Bins α) (how : RangeArg) (h : Binning.biSearchInit edges = .ok bs) :
    ∃ s : List α, s.Perm edges ∧ s.Pairwise (· ≤ ·) ∧ entry (binsRepr how bs) "x_edges" = some (.leaf (.arr [edges.length] s)) ∧
      Binning.biSearchInit s = .ok bs ∧ entry (binsRepr how bs) "n_bins" = some (.leaf (.int (edges.length - 1 : Nat))) ∧
      (∀ lo hi, lo ∈ s → hi ∈ s → (∀ x ∈ s, lo ≤ x ∧ x ≤ hi) →
        entry (binsRepr how bs) "x_span" = some (.leaf (.num (hi - lo))) ∧
        entry (binsRepr how bs) "x_step_mean" = some (.leaf (.num ((hi - lo) / (edges.length - 1 : Nat))))) ∧
      json (binsRepr how bs) = .error .typeError := by
  unfold Binning.biSearchInit at h
  simp only [bind, Except.bind, pyAssert] at h
  by_cases h1 : (npSort edges).length ≥ 2
  swap; · simp [h1] at h
  simp only [h1, decide_true, if_true] at h
  cases h
  have hs := npSort_sorted edges
  refine ⟨npSort edges, npSort_perm edges, hs, ?_, ?_, ?_, ?_, ?_⟩
  · show some (Val.leaf (Lf.arr [(npSort edges).length] _)) = _
    rw [npSort_length]
  · unfold Binning.biSearchInit
    simp only [bind, Except.bind, pyAssert]
    rw [npSort_of_sorted _ hs]
    simp only [h1, decide_true, if_true]
    rfl
  · show some (Val.leaf (Lf.int (((npSort edges).length - 1 : ℕ) : Int))) = _
    rw [npSort_length]
  · intro lo hi hlo hhi hall
    rw [← npSort_length edges]
    generalize npSort edges = s at *
    rcases s with _ | ⟨a, t⟩
    · simp at h1
    have e1 : a = lo := by
      apply le_antisymm _ (hall a (by simp)).1
      rcases List.mem_cons.mp hlo with rfl | h
      · exact le_rfl
      · exact (List.pairwise_cons.mp hs).1 lo h
    have e2 : (a :: t).getLastD 0 = hi := by
      have hl : (a :: t).getLastD 0 = (a :: t).getLast (by simp) := by simp [List.getLastD_eq_getLast?, List.getLast?_eq_some_getLast]
      rw [hl]
      apply le_antisymm (hall _ (List.getLast_mem _)).2
      have := hs.rel_getLast hhi
      exact this
    have e3 : (List.zipWith (· - ·) (a :: t).tail (a :: t).dropLast).sum = (a :: t).getLastD 0 - a := by
      clear hs hall hlo hhi e1 e2 h1
      induction t generalizing a with
      | nil => simp
      | cons b u ih =>
        have := ih b
        simp only [List.tail_cons, List.dropLast_cons_cons, List.zipWith_cons_cons, List.sum_cons] at *
        rw [this]
        simp only [List.getLastD_cons]
        ring
    constructor
    · show some (Val.leaf (Lf.num ((a :: t).getLastD 0 - a))) = _
      rw [e2, e1]
    · show some (Val.leaf (Lf.num (stepMean (a :: t)))) = _
      rw [stepMean, e3, e2, e1]
  · rfl

/-- C148: BinnedData hold their bins and the counts; they cannot be written, whatever the bins. -/
theorem C148_binned (how : RangeArg) (bs : Binning.Bins α) (data : List α) :
    entry (binnedRepr how bs data) "bins" = some (binsRepr how bs) ∧ entry (binnedRepr how bs data) "data" = some (.leaf (.arr [data.length] data)) ∧
    json (binnedRepr how bs data) = .error .typeError := by
  refine ⟨rfl, rfl, ?_⟩
  exact json_dict_error _ ("data".toList, .leaf (.arr [data.length] data)) (by simp) rfl

end

/-! ### Groups -/

/-- C148: the representation of a group has one entry per operation, in order, with its matrix row by row; it can be written only if the group is
empty. -/
theorem C148_group {n : Nat} (ops : List (PointGroup.Mat n α)) :
    (∃ l, groupRepr ops = .list l ∧ l.length = ops.length ∧ ∀ k (h : k < ops.length) (h' : k < l.length), ∃ data,
      l[k] = .dict [("mat".toList, .leaf (.arr [n, n] data))] ∧ ∀ i j : Fin n, data[i.val * n + j.val]? = some (ops[k] i j)) ∧
    (ops = [] → json (groupRepr ops) = .ok (.arr [])) ∧ (ops ≠ [] → json (groupRepr ops) = .error .typeError) := by
  refine ⟨⟨ops.map opRepr, rfl, by simp, ?_⟩, ?_, ?_⟩
  · intro k h h'
    refine ⟨_, by rw [List.getElem_map]; rfl, ?_⟩
    intro i j
    have key : ∀ (l : List (Fin n)) (f : Fin n → Fin n → α) (r : Nat) (hr : r < l.length),
        (l.flatMap (fun i => (List.finRange n).map (fun j => f i j)))[r * n + j.val]? = some (f l[r] j) := by
      intro l f
      induction l with
      | nil => intro r hr; simp at hr
      | cons a t ih =>
        intro r hr
        rw [List.flatMap_cons]
        cases r with
        | zero =>
          rw [List.getElem?_append_left (by simp)]
          simp
        | succ r =>
          rw [List.getElem?_append_right (by simp; rw [Nat.add_mul]; omega)]
          have e : (r + 1) * n + j.val - ((List.finRange n).map (fun j => f a j)).length = r * n + j.val := by
            simp only [List.length_map, List.length_finRange]
            rw [Nat.add_mul]; omega
          rw [e, ih r (by simpa using hr)]
          rfl
    rw [key (List.finRange n) (fun i j => ops[k] i j) i.val (by simp)]
    simp
  · rintro rfl; rfl
  · intro h
    rcases ops with _ | ⟨a, t⟩
    · exact absurd rfl h
    · have h1 : dumps Lf.jsonOk (opRepr a) = .error .typeError := rfl
      simp only [json, groupRepr, List.map_cons, dumps, dumpsAll, h1]

/-! ### Examples -/



/-- A cosmology with meta data meets the hypotheses: its document can be written and determines it. -/
example (P : LCDM.Phys) : ∃ m : LCDM.Model Unit, LCDM.Model.new P LCDM.exParams (some "/data".toList) (some [("note".toList, ())]) (some "737".toList) = .ok m ∧
    (∃ j, json (lcdmRepr (fun _ => .leaf .none) m) = .ok j) ∧
    LCDM.fromParameters P "/home".toList m.params (some m.name) (some m.dataDir) m.info = .ok m := by
  have hw : PyDict.WF LCDM.exParams := by
    show (LCDM.exParams.map (·.1)).Nodup
    simp only [LCDM.exParams, List.map_cons, List.map_nil]
    decide
  have h1 := (LCDM.param_of_wf _ hw "hubble".toList 0.7).2 (by simp [LCDM.exParams])
  have h2 := (LCDM.param_of_wf _ hw "omega_m0".toList 0.3).2 (by simp [LCDM.exParams])
  have h3 := (LCDM.param_of_wf _ hw "t_cmb".toList 2.7255).2 (by simp [LCDM.exParams])
  have h4 := (LCDM.param_of_wf _ hw "omega_b0".toList 0.045).2 (by simp [LCDM.exParams])
  obtain ⟨m, hm⟩ := ((LCDM.new_error (X := Unit) P LCDM.exParams "/data".toList (some [("note".toList, ())]) (some "737".toList)).2 _ _ _ _ h1 h2 h3 h4).2
    (by norm_num)
  refine ⟨m, hm, ⟨_, C148_lcdm (fun _ => .leaf .none) (fun _ => .leaf .none) m (fun d hd p hp => rfl)⟩, C148_lcdm_restore P _ _ _ _ _ m hm⟩

example : json (binsRepr .tuple (.equal (0 : ℚ) 10 5 2)) = .ok (.obj [("type".toList, .str "EqualSpaceBins".toList),
    ("x_range".toList, .arr [.leaf (.num 0), .leaf (.num 10)]), ("n_bins".toList, .leaf (.int 5)), ("x_span".toList, .leaf (.num (10 - 0))),
    ("x_step".toList, .leaf (.num 2))]) := rfl
example : ∃ bs, Binning.equalSpaceInit (0 : ℚ) 10 5 = .ok bs := ⟨_, rfl⟩
example : ∃ bs, Binning.biSearchInit [(3 : ℚ), 1, 7] = .ok bs := ⟨_, (by unfold Binning.biSearchInit; simp only [bind, Except.bind, pyAssert]; rw [npSort_length]; rfl)⟩
example : json (groupRepr [PointGroup.opCopied (!![1, 0; 0, 1] : PointGroup.Mat 2 ℤ)]) = .error .typeError := (C148_group _).2.2 (by simp)
example : json (plistRepr (fun r => ⟨if r = 0 then "a".toList else "b".toList, [(r : ℚ)]⟩) ⟨[1, 0], []⟩) =
    .ok (.arr [.obj [("name".toList, .str "b".toList), ("value".toList, .arr [.leaf (.num 1)])],
      .obj [("name".toList, .str "a".toList), ("value".toList, .arr [.leaf (.num 0)])]]) := by
  rw [C148_params]; norm_num

end Pyhipp.ConcreteRepr
