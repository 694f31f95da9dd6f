import Verif.Model.LambdaCDM
import Verif.Props.Cosmology
import Verif.Props.Frame
import Mathlib.Analysis.SpecialFunctions.ImproperIntegrals
/-
C111: construction of LambdaCDM.  C112: derived quantities.  C113: distances, times, redshifts.
-/
namespace Pyhipp.LCDM
open Pyhipp Pyhipp.Cosmology

variable {X : Type} (P : Phys)

/-! ### C111 -/

theorem param_of_wf (ps : List (Str × ℝ)) (hw : PyDict.WF ps) (k : Str) (v : ℝ) : param ps k = .ok v ↔ (k, v) ∈ ps := by
  have hr : PyDict.WF (ps.reverse : PyDict Str ℝ) := by
    show (ps.reverse.map (·.1)).Nodup
    rw [List.map_reverse]
    exact List.nodup_reverse.2 hw
  unfold param
  constructor
  · intro h
    cases hg : PyDict.get? ps.reverse k with
    | none => rw [hg] at h; cases h
    | some w =>
        rw [hg] at h
        cases h
        exact List.mem_reverse.1 (PyDict.mem_of_get? _ _ _ hg)
  · intro h
    rw [PyDict.get?_of_mem _ hr k v (List.mem_reverse.2 h)]

theorem param_missing (ps : List (Str × ℝ)) (k : Str) : param ps k = .error .keyError ↔ k ∉ PyDict.keys ps := by
  have hk : k ∈ PyDict.keys (ps.reverse : PyDict Str ℝ) ↔ k ∈ PyDict.keys ps := by
    simp [PyDict.keys]
  rw [← hk, ← PyDict.get?_eq_none_iff]
  unfold param
  cases PyDict.get? ps.reverse k <;> simp

theorem param_cases (ps : List (Str × ℝ)) (k : Str) : (∃ v, param ps k = .ok v) ∨ param ps k = .error .keyError := by
  unfold param
  cases PyDict.get? ps.reverse k
  · exact .inr rfl
  · exact .inl ⟨_, rfl⟩

/-- The names that the construction needs. -/
def needed : List Str := ["hubble".toList, "omega_m0".toList, "t_cmb".toList, "omega_b0".toList]

/-- Specification: `m` is the model of the given parameters. -/
def ModelOf (ps : List (Str × ℝ)) (name dir : Str) (info : Option (PyDict Str X)) (m : Model X) : Prop :=
  ∃ h om t ob, param ps "hubble".toList = .ok h ∧ param ps "omega_m0".toList = .ok om ∧ param ps "t_cmb".toList = .ok t ∧
    param ps "omega_b0".toList = .ok ob ∧ 0 ≤ om ∧ 0 ≤ ob ∧ ob ≤ om ∧
    (∀ k, m.get k = param ps k) ∧ m.name = name ∧ m.dataDir = dir ∧ m.info = info ∧
    m.ap.H0 = 100 * h ∧ m.ap.Om0 = om ∧ m.ap.Tcmb0 = t ∧ m.ap.Ob0 = ob ∧ m.us = UnitSys.forCosmology P.toAstropy h

theorem new_ok (ps : List (Str × ℝ)) (d : Str) (info : Option (PyDict Str X)) (name : Option Str) (m : Model X)
    (h : Model.new P ps (some d) info name = .ok m) :
    ModelOf P ps (name.getD "LambdaCDM".toList) d info m := by
  unfold Model.new at h
  simp only [bind, Except.bind] at h
  rcases param_cases ps "hubble".toList with ⟨v1, h1⟩ | h1 <;> rw [h1] at h
  swap; · cases h
  rcases param_cases ps "omega_m0".toList with ⟨v2, h2⟩ | h2 <;> rw [h2] at h
  swap; · cases h
  rcases param_cases ps "t_cmb".toList with ⟨v3, h3⟩ | h3 <;> rw [h3] at h
  swap; · cases h
  rcases param_cases ps "omega_b0".toList with ⟨v4, h4⟩ | h4 <;> rw [h4] at h
  swap; · cases h
  simp only [FLRW.new] at h
  by_cases hc : v2 < 0 ∨ v4 < 0 ∨ v2 < v4
  · rw [if_pos hc] at h; cases h
  · rw [if_neg hc] at h
    simp only [not_or, not_lt] at hc
    cases h
    exact ⟨v1, v2, v3, v4, h1, h2, h3, h4, hc.1, hc.2.1, hc.2.2, fun k => rfl, rfl, rfl, rfl, by simp only; norm_num; ring, rfl, rfl, rfl, rfl⟩

theorem new_error (ps : List (Str × ℝ)) (d : Str) (info : Option (PyDict Str X)) (name : Option Str) :
    ((∃ k ∈ needed, k ∉ PyDict.keys ps) → Model.new P ps (some d) info name = .error .keyError) ∧
    (∀ h om t ob, param ps "hubble".toList = .ok h → param ps "omega_m0".toList = .ok om → param ps "t_cmb".toList = .ok t →
      param ps "omega_b0".toList = .ok ob → (¬ (0 ≤ om ∧ 0 ≤ ob ∧ ob ≤ om) → Model.new P ps (some d) info name = .error .valueError) ∧
        (0 ≤ om ∧ 0 ≤ ob ∧ ob ≤ om → ∃ m, Model.new P ps (some d) info name = .ok m)) := by
  constructor
  · rintro ⟨k, hk, hm⟩
    unfold Model.new
    simp only [bind, Except.bind]
    rw [← param_missing] at hm
    rcases param_cases ps "hubble".toList with ⟨v1, h1⟩ | h1 <;> rw [h1]
    rcases param_cases ps "omega_m0".toList with ⟨v2, h2⟩ | h2 <;> rw [h2]
    rcases param_cases ps "t_cmb".toList with ⟨v3, h3⟩ | h3 <;> rw [h3]
    rcases param_cases ps "omega_b0".toList with ⟨v4, h4⟩ | h4 <;> rw [h4]
    exfalso
    simp only [needed, List.mem_cons, List.not_mem_nil, or_false] at hk
    rcases hk with rfl | rfl | rfl | rfl
    · rw [h1] at hm; cases hm
    · rw [h2] at hm; cases hm
    · rw [h3] at hm; cases hm
    · rw [h4] at hm; cases hm
  · intro h om t ob h1 h2 h3 h4
    unfold Model.new
    simp only [bind, Except.bind, h1, h2, h3, h4, FLRW.new]
    constructor
    · intro hn
      have hc : om < 0 ∨ ob < 0 ∨ om < ob := by
        by_contra hcon
        simp only [not_or, not_lt] at hcon
        exact hn hcon
      rw [if_pos hc]
    · intro hn
      rw [if_neg (by simp only [not_or, not_lt]; exact hn)]
      exact ⟨_, rfl⟩

/-- C111: `from_parameters` succeeds exactly if hubble, omega_m0, t_cmb and omega_b0 are given and 0 ≤ omega_b0 ≤ omega_m0: a missing one is a
KeyError, an unphysical one a ValueError. -/
theorem C111_accepts (cwd : Str) (ps : PyDict Str ℝ) (name dir : Option Str) (info : Option (PyDict Str X)) :
    ((∃ k ∈ needed, k ∉ PyDict.keys ps) → fromParameters P cwd ps name dir info = .error .keyError) ∧
    (∀ h om t ob, param ps "hubble".toList = .ok h → param ps "omega_m0".toList = .ok om → param ps "t_cmb".toList = .ok t →
      param ps "omega_b0".toList = .ok ob →
        (¬ (0 ≤ om ∧ 0 ≤ ob ∧ ob ≤ om) → fromParameters P cwd ps name dir info = .error .valueError) ∧
        (0 ≤ om ∧ 0 ≤ ob ∧ ob ≤ om → ∃ m, fromParameters P cwd ps name dir info = .ok m)) := new_error P ps _ _ _

/-- C111: the model then has these parameters (every given name reads its value, every other name is a KeyError), the given name (or ''), data
directory (or the current one) and meta data (or {}), H0 = 100 h and the unit system of h. -/
theorem C111_parameters (cwd : Str) (ps : PyDict Str ℝ) (hw : PyDict.WF ps) (name dir : Option Str) (info : Option (PyDict Str X)) (m : Model X)
    (h : fromParameters P cwd ps name dir info = .ok m) :
    ModelOf P ps (name.getD []) (dir.getD cwd) (some (info.getD [])) m ∧ (∀ k v, (k, v) ∈ ps → m.get k = .ok v) ∧
    (∀ k, k ∉ PyDict.keys ps → m.get k = .error .keyError) := by
  have hm := new_ok P ps _ _ _ m h
  have hm' : ModelOf P ps (name.getD []) (dir.getD cwd) (some (info.getD [])) m := by
    cases name <;> cases dir <;> cases info <;> exact hm
  obtain ⟨_, _, _, _, -, -, -, -, -, -, -, hg, -⟩ := hm
  refine ⟨hm', ?_, ?_⟩
  · intro k v hk; rw [hg]; exact (param_of_wf ps hw k v).2 hk
  · intro k hk; rw [hg]; exact (param_missing ps k).2 hk

/-- C111: a model made from an astropy model with physical densities has the same astropy model inside, and then omega_l0 is omega_l(0). -/
theorem C111_astropy (cwd : Str) (a : FLRW) (hok : 0 ≤ a.Om0 ∧ 0 ≤ a.Ob0 ∧ a.Ob0 ≤ a.Om0) (name dir : Option Str) (info : Option (PyDict Str X)) :
    ∃ m : Model X, fromAstropy P cwd a name dir info = .ok m ∧ m.ap = a ∧ m.get "omega_l0".toList = .ok (m.omegaL P 0) := by
  unfold fromAstropy fromParameters Model.new
  have hp : ∀ ps : List (Str × ℝ), ps = [("hubble".toList, a.H0 / 100), ("omega_m0".toList, a.Om0), ("omega_l0".toList, a.Ode0 P), ("omega_b0".toList, a.Ob0),
      ("t_cmb".toList, a.Tcmb0)] → PyDict.WF ps := by rintro ps rfl; show ["hubble".toList, "omega_m0".toList, "omega_l0".toList, "omega_b0".toList, "t_cmb".toList].Nodup; decide
  have hw := hp _ rfl
  have h1 := (param_of_wf _ hw "hubble".toList (a.H0 / 100)).2 (by simp)
  have h2 := (param_of_wf _ hw "omega_m0".toList a.Om0).2 (by simp)
  have h3 := (param_of_wf _ hw "t_cmb".toList a.Tcmb0).2 (by simp)
  have h4 := (param_of_wf _ hw "omega_b0".toList a.Ob0).2 (by simp)
  have h5 := (param_of_wf _ hw "omega_l0".toList (a.Ode0 P)).2 (by simp)
  simp only [bind, Except.bind, h1, h2, h3, h4, FLRW.new]
  rw [if_neg (by simp only [not_or, not_lt]; exact hok)]
  refine ⟨_, rfl, ?_, ?_⟩
  · have : a.H0 / 100 * 100.0 = a.H0 := by norm_num
    rw [this]
  · rw [Model.get, h5, Model.omegaL, FLRW.Ode]
    have : a.H0 / 100 * 100.0 = a.H0 := by norm_num
    rw [this]
    have e : (⟨a.H0, a.Om0, a.Tcmb0, a.Ob0⟩ : FLRW) = a := rfl
    rw [e]
    have : a.E2 P 0 = 1 := by simp [FLRW.E2, FLRW.Ode0]
    rw [this, div_one]

/-- C111: reading a configuration file: 'parameters', 'name' and 'data_dir' (relative to the directory of the file unless absolute) are taken out,
everything else is the meta data, in order. -/
theorem C111_conf (showOther : CV X → Str) (fs : Str → Option (File X)) (path parent : Str) (hp : ∃ s, path = s ++ ".json".toList)
    (conf : PyDict Str (CV X)) (hw : PyDict.WF conf) (hf : fs path = some (.conf conf)) (ps : List (Str × ℝ)) (name : CV X) (d : Str)
    (h1 : PyDict.get? conf "parameters".toList = some (.params ps)) (h2 : PyDict.get? conf "name".toList = some name)
    (h3 : PyDict.get? conf "data_dir".toList = some (.text d)) :
    ∃ rest : PyDict Str (CV X),
      fromConfFile P showOther fs (.path path parent) = Model.new P ps (some (joinPath parent d)) (some rest) (nameArg showOther name) ∧
      PyDict.keys rest = (PyDict.keys conf).filter (fun k => decide (k ≠ "parameters".toList ∧ k ≠ "name".toList ∧ k ≠ "data_dir".toList)) ∧
      (∀ k ∈ PyDict.keys rest, PyDict.get? rest k = PyDict.get? conf k) := by
  obtain ⟨s, rfl⟩ := hp
  have hw1 := PyDict.WF_del conf "parameters".toList hw
  have hw2 := PyDict.WF_del _ "name".toList hw1
  have g2 : PyDict.get? (PyDict.del conf "parameters".toList) "name".toList = some name := by
    rw [PyDict.get?_del _ _ _ hw, if_neg (by decide), h2]
  have g3 : PyDict.get? (PyDict.del (PyDict.del conf "parameters".toList) "name".toList) "data_dir".toList = some (.text d) := by
    rw [PyDict.get?_del _ _ _ hw1, if_neg (by decide), PyDict.get?_del _ _ _ hw, if_neg (by decide), h3]
  refine ⟨PyDict.del (PyDict.del (PyDict.del conf "parameters".toList) "name".toList) "data_dir".toList, ?_, ?_, ?_⟩
  · unfold fromConfFile
    have ha : pyAssert (decide ((PathArg.path (s ++ ".json".toList) parent).text.drop ((PathArg.path (s ++ ".json".toList) parent).text.length - 5) = ".json".toList)) = .ok () := by
      simp only [PathArg.text, List.length_append]
      have : s.length + ".json".toList.length - 5 = s.length := by simp
      rw [this, List.drop_left]
      rfl
    simp only [bind, Except.bind, ha]
    have hf' : fs (PathArg.path (s ++ ".json".toList) parent).text = some (.conf conf) := hf
    simp only [hf', pop, h1, g2, g3]
  · rw [PyDict.keys_del _ _ hw2, PyDict.keys_del _ _ hw1, PyDict.keys_del _ _ hw, List.filter_filter, List.filter_filter]
    apply List.filter_congr
    intro k _
    generalize "parameters".toList = p
    generalize "name".toList = q
    generalize "data_dir".toList = r
    by_cases a : k = p <;> by_cases b : k = q <;> by_cases c : k = r <;> simp only [a, b, c, ne_eq, not_true, not_false_iff, and_true, and_false, true_and, false_and, decide_true, decide_false, Bool.and_true, Bool.and_false, Bool.false_and, Bool.true_and, Bool.and_self]
  · intro k hk
    rw [PyDict.keys_del _ _ hw2, PyDict.keys_del _ _ hw1, PyDict.keys_del _ _ hw] at hk
    simp only [List.mem_filter, decide_eq_true_eq, ne_eq] at hk
    rw [PyDict.get?_del _ _ _ hw2, if_neg hk.2, PyDict.get?_del _ _ _ hw1, if_neg hk.1.2, PyDict.get?_del _ _ _ hw, if_neg hk.1.1.2]

/-- C111: the failures of `from_conf_file`, in the order in which they are found: not a '.json' name (AssertionError), no file, invalid JSON
(ValueError), no 'parameters' (KeyError), parameters that are no object (AttributeError), no 'name' (KeyError), a path given as text instead of a
Path (AttributeError, whatever the file holds), no 'data_dir' (KeyError), a 'data_dir' that is no text (TypeError). -/
theorem C111_conf_errors (showOther : CV X → Str) (fs : Str → Option (File X)) (path : PathArg) :
    ((¬ ∃ s, path.text = s ++ ".json".toList) → fromConfFile P showOther fs path = .error .assertionError) ∧
    ((∃ s, path.text = s ++ ".json".toList) →
      (fs path.text = none → fromConfFile P showOther fs path = .error .fileNotFoundError) ∧
      (fs path.text = some .broken → fromConfFile P showOther fs path = .error .valueError) ∧
      ∀ conf, PyDict.WF conf → fs path.text = some (.conf conf) →
        (PyDict.get? conf "parameters".toList = none → fromConfFile P showOther fs path = .error .keyError) ∧
        (∀ v, PyDict.get? conf "parameters".toList = some v → (¬ ∃ ps, v = .params ps) → fromConfFile P showOther fs path = .error .attributeError) ∧
        (∀ ps, PyDict.get? conf "parameters".toList = some (.params ps) →
          (PyDict.get? conf "name".toList = none → fromConfFile P showOther fs path = .error .keyError) ∧
          (∀ n, PyDict.get? conf "name".toList = some n →
            (∀ s, path = .str s → fromConfFile P showOther fs path = .error .attributeError) ∧
            (∀ s parent, path = .path s parent →
              (PyDict.get? conf "data_dir".toList = none → fromConfFile P showOther fs path = .error .keyError) ∧
              (∀ v, PyDict.get? conf "data_dir".toList = some v → (¬ ∃ d, v = .text d) → fromConfFile P showOther fs path = .error .typeError))))) := by
  have hassert : (∃ s, path.text = s ++ ".json".toList) ↔ path.text.drop (path.text.length - 5) = ".json".toList := by
    constructor
    · rintro ⟨s, hs⟩
      rw [hs, List.length_append]
      have : s.length + ".json".toList.length - 5 = s.length := by simp
      rw [this, List.drop_left]
    · intro h
      exact ⟨path.text.take (path.text.length - 5), by rw [← h, List.take_append_drop]⟩
  constructor
  · intro hn
    rw [hassert] at hn
    unfold fromConfFile
    simp only [bind, Except.bind, pyAssert, hn, decide_false, Bool.false_eq_true, if_false]
  · intro hy
    rw [hassert] at hy
    have ha : pyAssert (decide (path.text.drop (path.text.length - 5) = ".json".toList)) = .ok () := by
      rw [decide_eq_true hy]; rfl
    refine ⟨?_, ?_, ?_⟩
    · intro h
      unfold fromConfFile
      simp only [bind, Except.bind, ha, h]; rfl
    · intro h
      unfold fromConfFile
      simp only [bind, Except.bind, ha, h]; rfl
    · intro conf hw hf
      refine ⟨?_, ?_, ?_⟩
      · intro h
        unfold fromConfFile
        simp only [bind, Except.bind, ha, hf, pop, h]
      · intro v h hn
        unfold fromConfFile
        simp only [bind, Except.bind, ha, hf, pop, h]
        cases v with
        | params ps => exact absurd ⟨ps, rfl⟩ hn
        | text s => rfl
        | null => rfl
        | other x => rfl
      · intro ps h
        have g : ∀ k, k ≠ "parameters".toList → PyDict.get? (PyDict.del conf "parameters".toList) k = PyDict.get? conf k := by
          intro k hk; rw [PyDict.get?_del _ _ _ hw, if_neg hk]
        have gn := g "name".toList (by decide)
        have hw1 := PyDict.WF_del conf "parameters".toList hw
        have gd : PyDict.get? (PyDict.del (PyDict.del conf "parameters".toList) "name".toList) "data_dir".toList = PyDict.get? conf "data_dir".toList := by
          rw [PyDict.get?_del _ _ _ hw1, if_neg (by decide), g _ (by decide)]
        refine ⟨?_, ?_⟩
        · intro h2
          rw [h2] at gn
          unfold fromConfFile
          simp only [bind, Except.bind, ha, hf, pop, h, gn]
        · intro n h2
          rw [h2] at gn
          refine ⟨?_, ?_⟩
          · rintro s rfl
            unfold fromConfFile
            simp only [bind, Except.bind, ha, hf, pop, h, gn]; rfl
          · rintro s parent rfl
            refine ⟨?_, ?_⟩
            · intro h3
              rw [h3] at gd
              unfold fromConfFile
              simp only [bind, Except.bind, ha, hf, pop, h, gn, gd]
            · intro v h3 hn
              rw [h3] at gd
              unfold fromConfFile
              simp only [bind, Except.bind, ha, hf, pop, h, gn, gd]
              cases v with
              | text d => exact absurd ⟨d, rfl⟩ hn
              | params ps => rfl
              | null => rfl
              | other x => rfl

/-- C111: an absolute data directory replaces the directory of the file; a relative one is below it. -/
theorem C111_data_dir (parent d : Str) : joinPath parent ('/' :: d) = '/' :: d ∧ (d.head? ≠ some '/' → joinPath parent d = parent ++ '/' :: d) := by
  refine ⟨rfl, fun h => ?_⟩
  cases d with
  | nil => rfl
  | cons c d =>
      by_cases hc : c = '/'
      · subst hc; simp at h
      · unfold joinPath
        split
        · rename_i heq; simp only [List.cons.injEq] at heq; exact absurd heq.1 hc
        · rfl

/-- C111: a model that comes from a configuration file has the parameters of the file, its name (the class name for null), the data directory
relative to the file, and the remaining entries as meta data; without a data directory no model can be made at all (TypeError). -/
theorem C111_conf_model (showOther : CV X → Str) (fs : Str → Option (File X)) (path parent : Str) (hp : ∃ s, path = s ++ ".json".toList)
    (conf : PyDict Str (CV X)) (hw : PyDict.WF conf) (hf : fs path = some (.conf conf)) (ps : List (Str × ℝ)) (d : Str)
    (h1 : PyDict.get? conf "parameters".toList = some (.params ps)) (h3 : PyDict.get? conf "data_dir".toList = some (.text d))
    (m : Model (CV X)) (hm : fromConfFile P showOther fs (.path path parent) = .ok m) :
    (∀ s, PyDict.get? conf "name".toList = some (.text s) → ∃ rest, ModelOf P ps s (joinPath parent d) (some rest) m) ∧
    (PyDict.get? conf "name".toList = some .null → ∃ rest, ModelOf P ps "LambdaCDM".toList (joinPath parent d) (some rest) m) ∧
    (∀ ps' (info : Option (PyDict Str X)) name, Model.new P ps' none info name = .error .typeError) := by
  refine ⟨fun s h2 => ?_, fun h2 => ?_, fun _ _ _ => rfl⟩
  · obtain ⟨rest, e, _⟩ := C111_conf P showOther fs path parent hp conf hw hf ps _ d h1 h2 h3
    rw [e] at hm
    exact ⟨rest, new_ok P ps _ _ _ m hm⟩
  · obtain ⟨rest, e, _⟩ := C111_conf P showOther fs path parent hp conf hw hf ps _ d h1 h2 h3
    rw [e] at hm
    exact ⟨rest, new_ok P ps _ _ _ m hm⟩

/-- C111: changing a parameter of an existing model in place changes the value that is read but not the expansion history or the units: the model then
contradicts itself (the class is declared immutable, but nothing prevents it). -/
theorem C111_stale (m : Model X) (hw : PyDict.WF m.params) (k : Str) (v : ℝ) (hk : k ∈ PyDict.keys m.params) :
    (m.setParam k v).get k = .ok v ∧ (m.setParam k v).ap = m.ap ∧ (m.setParam k v).us = m.us ∧ (∀ k', k' ≠ k → (m.setParam k v).get k' = m.get k') ∧
    (∀ z, (m.setParam k v).bigHubble P z = m.bigHubble P z ∧ (m.setParam k v).rhoMatter P z = m.rhoMatter P z) := by
  have hkeys : PyDict.keys (m.setParam k v).params = PyDict.keys m.params := by
    show (m.params.map (fun p => if p.1 = k then (k, v) else p)).map (·.1) = m.params.map (·.1)
    rw [List.map_map]
    apply List.map_congr_left
    intro p _
    simp only [Function.comp]
    split
    · rename_i h; exact h.symm
    · rfl
  have hw' : PyDict.WF (m.setParam k v).params := by
    show (PyDict.keys (m.setParam k v).params).Nodup
    rw [hkeys]; exact hw
  have hmem : ∀ (k' : Str) (w : ℝ), k' ≠ k → ((k', w) ∈ (m.setParam k v).params ↔ (k', w) ∈ m.params) := by
    intro k' w hk'
    show (k', w) ∈ m.params.map (fun p => if p.1 = k then (k, v) else p) ↔ _
    rw [List.mem_map]
    constructor
    · rintro ⟨p, hp, he⟩
      split at he
      · cases he; exact absurd rfl hk'
      · rw [← he]; exact hp
    · intro hp
      exact ⟨(k', w), hp, by simp [hk']⟩
  refine ⟨?_, rfl, rfl, ?_, fun z => ⟨rfl, rfl⟩⟩
  · refine (param_of_wf _ hw' k v).2 ?_
    obtain ⟨p, hp, rfl⟩ := List.mem_map.1 hk
    exact List.mem_map.2 ⟨p, hp, by simp⟩
  · intro k' hk'
    show param (m.setParam k v).params k' = param m.params k'
    rcases param_cases m.params k' with ⟨w, hc⟩ | hc
    · rw [hc]
      exact (param_of_wf _ hw' k' w).2 ((hmem k' w hk').2 ((param_of_wf _ hw k' w).1 hc))
    · rw [hc, param_missing, hkeys]
      exact (param_missing _ _).1 hc

/-- C111: a predefined model is read from its file the first time only: afterwards the same object is returned, whatever the files hold then; a name that
cannot be loaded raises the error of the loading and is not remembered, and other names are not affected. -/
theorem C111_predefined (showOther : CV X → Str) (fs : Str → Option (File X)) (dir : Str) (c : Predef X) (name : Str) :
    (∀ m, PyDict.get? c name = some m → Predef.getItem P showOther fs dir c name = (.ok m, c)) ∧
    (PyDict.get? c name = none →
      (∀ m, loadNamed P showOther fs dir name = .ok m → ∃ c', Predef.getItem P showOther fs dir c name = (.ok m, c') ∧
        (∀ fs', Predef.getItem P showOther fs' dir c' name = (.ok m, c')) ∧ (∀ n, n ≠ name → PyDict.get? c' n = PyDict.get? c n)) ∧
      (∀ e, loadNamed P showOther fs dir name = .error e → Predef.getItem P showOther fs dir c name = (.error e, c))) := by
  refine ⟨?_, ?_⟩
  · intro m h; unfold Predef.getItem; rw [h]
  · intro h
    refine ⟨?_, ?_⟩
    · intro m hl
      refine ⟨PyDict.set c name m, by unfold Predef.getItem; rw [h, hl], ?_, fun n hn => PyDict.get?_set_ne _ _ _ _ hn⟩
      intro fs'
      unfold Predef.getItem
      rw [PyDict.get?_set_self]
    · intro e hl; unfold Predef.getItem; rw [h, hl]

/-- C111: importing the package loads 'tng' and 'eagle'; if one of them cannot be loaded the import fails with that error. -/
theorem C111_import (showOther : CV X → Str) (fs : Str → Option (File X)) (dir : Str) :
    (∀ c, Predef.new P showOther fs dir = .ok c → ∃ t e, c = [("tng".toList, t), ("eagle".toList, e)] ∧
      loadNamed P showOther fs dir "tng".toList = .ok t ∧ loadNamed P showOther fs dir "eagle".toList = .ok e) ∧
    (∀ err, Predef.new P showOther fs dir = .error err ↔ (loadNamed P showOther fs dir "tng".toList = .error err ∨
      (∃ t, loadNamed P showOther fs dir "tng".toList = .ok t) ∧ loadNamed P showOther fs dir "eagle".toList = .error err)) := by
  unfold Predef.new
  simp only [Predef.init]
  cases h1 : loadNamed P showOther fs dir "tng".toList with
  | error e1 => simp
  | ok t =>
      cases h2 : loadNamed P showOther fs dir "eagle".toList with
      | error e2 => simp
      | ok e =>
          simp only [Except.ok.injEq, reduceCtorEq, and_false, or_self, iff_self, implies_true, and_true]
          intro c hc
          subst hc
          exact ⟨t, e, rfl, rfl, rfl⟩

/-- The parameters of data/cosmologies/tng.json. -/
noncomputable def tngParams : List (Str × ℝ) := [("hubble".toList, 0.6774), ("omega_m0".toList, 0.3089), ("omega_l0".toList, 0.6911), ("omega_b0".toList, 0.0486),
  ("sigma_8".toList, 0.8159), ("n_spec".toList, 0.9667), ("t_cmb".toList, 2.7255)]

/-- The file is accepted: the hypotheses above are met by a real one. -/
theorem C111_tng (showOther : CV X → Str) (dir : Str) : ∃ m, loadNamed P showOther (fun p => if p = dir ++ '/' :: "tng".toList ++ ".json".toList then
      some (.conf [("name".toList, .text "tng".toList), ("measurement".toList, .text "Planck2015".toList), ("data_dir".toList, .text "tng".toList),
        ("parameters".toList, .params tngParams)]) else none) dir "tng".toList = .ok m ∧ m.name = "tng".toList ∧ m.dataDir = dir ++ "/tng".toList ∧
      m.info = some [("measurement".toList, .text "Planck2015".toList)] ∧ m.ap.H0 = 67.74 := by
  have hw : PyDict.WF tngParams := by
    show ["hubble".toList, "omega_m0".toList, "omega_l0".toList, "omega_b0".toList, "sigma_8".toList, "n_spec".toList, "t_cmb".toList].Nodup
    decide
  have h1 := (param_of_wf _ hw "hubble".toList 0.6774).2 (by simp [tngParams])
  have h2 := (param_of_wf _ hw "omega_m0".toList 0.3089).2 (by simp [tngParams])
  have h3 := (param_of_wf _ hw "t_cmb".toList 2.7255).2 (by simp [tngParams])
  have h4 := (param_of_wf _ hw "omega_b0".toList 0.0486).2 (by simp [tngParams])
  have hcw : PyDict.WF ([("name".toList, CV.text "tng".toList), ("measurement".toList, .text "Planck2015".toList), ("data_dir".toList, .text "tng".toList),
        ("parameters".toList, .params tngParams)] : PyDict Str (CV X)) := by
    show ["name".toList, "measurement".toList, "data_dir".toList, "parameters".toList].Nodup
    decide
  obtain ⟨rest, he, hk, hg⟩ := C111_conf P showOther (fun p => if p = dir ++ '/' :: "tng".toList ++ ".json".toList then
      some (.conf [("name".toList, .text "tng".toList), ("measurement".toList, .text "Planck2015".toList), ("data_dir".toList, .text "tng".toList),
        ("parameters".toList, .params tngParams)]) else none) (dir ++ '/' :: "tng".toList ++ ".json".toList) dir ⟨_, rfl⟩ _ hcw (if_pos rfl) tngParams
      (.text "tng".toList) "tng".toList rfl rfl rfl
  have hrest : rest = [("measurement".toList, .text "Planck2015".toList)] := by
    have hk' : PyDict.keys rest = ["measurement".toList] := by rw [hk]; rfl
    match rest, hk' with
    | [(a, b)], hk' =>
        have ha : a = "measurement".toList := by simpa [PyDict.keys] using hk'
        subst ha
        have := hg "measurement".toList (by simp [PyDict.keys])
        have hb : PyDict.get? ([("measurement".toList, b)] : PyDict Str (CV X)) "measurement".toList = some b := rfl
        rw [hb] at this
        have hv := Option.some.inj (this.trans (show _ = some (CV.text "Planck2015".toList) from rfl))
        rw [hv]
  unfold loadNamed
  rw [he]
  unfold Model.new
  simp only [bind, Except.bind, h1, h2, h3, h4, FLRW.new]
  rw [if_neg (by norm_num)]
  refine ⟨_, rfl, rfl, ?_, by rw [hrest], by simp only; norm_num⟩
  show joinPath dir "tng".toList = dir ++ "/tng".toList
  rfl

/-! ### C112 -/

/-- The constants are positive (astropy's are). -/
structure PhysOK : Prop where
  G : 0 < P.G
  c : 0 < P.c
  mpc : 0 < P.mpc
  gyr : 0 < P.gyr
  msun : 0 < P.msun
  aB : 0 < P.aB

/-- `m` is a model that was made by one of the constructors, its hubble parameter is `h`, positive. -/
structure Made (m : Model X) (h : ℝ) : Prop where
  made : ∃ (ps : List (Str × ℝ)) (d : Str) (info : Option (PyDict Str X)) (name : Option Str), Model.new P ps (some d) info name = .ok m
  hubble : m.get "hubble".toList = .ok h
  pos : 0 < h

variable {P} {m : Model X} {h : ℝ}

theorem Made.facts (g : Made P m h) : m.ap.H0 = 100 * h ∧ m.us = UnitSys.forCosmology P.toAstropy h ∧ 0 ≤ m.ap.Om0 ∧ 0 ≤ m.ap.Ob0 ∧ m.ap.Ob0 ≤ m.ap.Om0 ∧
    m.get "omega_m0".toList = .ok m.ap.Om0 ∧ m.get "omega_b0".toList = .ok m.ap.Ob0 ∧ m.get "t_cmb".toList = .ok m.ap.Tcmb0 := by
  obtain ⟨ps, d, info, name, hn⟩ := g.made
  obtain ⟨h', om, t, ob, h1, h2, h3, h4, p1, p2, p3, hg, -, -, -, e1, e2, e3, e4, e5⟩ := new_ok P ps d info name m hn
  have hh := g.hubble
  rw [hg, h1] at hh
  cases hh
  refine ⟨e1, e5, e2 ▸ p1, e4 ▸ p2, by rw [e2, e4]; exact p3, ?_, ?_, ?_⟩
  · rw [hg, h2, e2]
  · rw [hg, h4, e4]
  · rw [hg, h3, e3]

theorem FLRW.crit0_pos (hP : PhysOK P) (a : FLRW) (hH : 0 < a.H0) : 0 < a.crit0 P := by
  have := hP.G; have := hP.mpc; have := Real.pi_pos
  unfold FLRW.crit0 FLRW.H0si
  positivity

theorem FLRW.Or0_nonneg (hP : PhysOK P) (a : FLRW) (hH : 0 < a.H0) : 0 ≤ a.Or0 P ∧ (a.Or0 P = 0 ↔ a.Tcmb0 = 0) := by
  have hc := a.crit0_pos hP hH
  have hB := hP.aB
  unfold FLRW.Or0
  constructor
  · have : 0 ≤ a.Tcmb0 ^ 4 := by positivity
    positivity
  · constructor
    · intro h
      by_contra hn
      have h4 : 0 < a.Tcmb0 ^ 4 := by positivity
      have : 0 < P.aB * a.Tcmb0 ^ 4 / a.crit0 P * (1 + 0.22710731766 * 3.04) := by positivity
      linarith
    · intro h; rw [h]; simp

theorem FLRW.E2_eq (a : FLRW) (z : ℝ) : a.E2 P z = 1 + a.Om0 * ((1 + z) ^ 3 - 1) + a.Or0 P * ((1 + z) ^ 4 - 1) := by
  unfold FLRW.E2 FLRW.Ode0; ring

theorem FLRW.E2_mono (a : FLRW) (h1 : 0 ≤ a.Om0) (h2 : 0 ≤ a.Or0 P) {z w : ℝ} (hz : 0 ≤ z) (hw : z ≤ w) : a.E2 P z ≤ a.E2 P w := by
  rw [a.E2_eq, a.E2_eq]
  have h3 : (1 + z) ^ 3 ≤ (1 + w) ^ 3 := pow_le_pow_left₀ (by linarith) (by linarith) 3
  have h4 : (1 + z) ^ 4 ≤ (1 + w) ^ 4 := pow_le_pow_left₀ (by linarith) (by linarith) 4
  nlinarith [mul_le_mul_of_nonneg_left h3 h1, mul_le_mul_of_nonneg_left h4 h2]

theorem FLRW.E2_strict (a : FLRW) (h1 : 0 < a.Om0) (h2 : 0 ≤ a.Or0 P) {z w : ℝ} (hz : 0 ≤ z) (hw : z < w) : a.E2 P z < a.E2 P w := by
  rw [a.E2_eq, a.E2_eq]
  have h3 : (1 + z) ^ 3 < (1 + w) ^ 3 := pow_lt_pow_left₀ (by linarith) (by linarith) (by norm_num)
  have h4 : (1 + z) ^ 4 ≤ (1 + w) ^ 4 := pow_le_pow_left₀ (by linarith) (by linarith) 4
  nlinarith [mul_lt_mul_of_pos_left h3 h1, mul_le_mul_of_nonneg_left h4 h2]

theorem FLRW.E2_zero (a : FLRW) : a.E2 P 0 = 1 := by rw [a.E2_eq]; norm_num

theorem FLRW.one_le_E2 (a : FLRW) (h1 : 0 ≤ a.Om0) (h2 : 0 ≤ a.Or0 P) {z : ℝ} (hz : 0 ≤ z) : 1 ≤ a.E2 P z := by
  rw [← a.E2_zero (P := P)]; exact a.E2_mono h1 h2 le_rfl hz

theorem Made.E2 (hP : PhysOK P) (g : Made P m h) {z : ℝ} (hz : 0 ≤ z) : 1 ≤ m.ap.E2 P z ∧ 0 ≤ m.ap.Om0 ∧ 0 ≤ m.ap.Or0 P ∧ 0 < m.ap.H0 := by
  obtain ⟨e1, -, p1, -⟩ := g.facts
  have hH : 0 < m.ap.H0 := by rw [e1]; have := g.pos; linarith
  have h2 := (m.ap.Or0_nonneg hP hH).1
  exact ⟨m.ap.one_le_E2 p1 h2 hz, p1, h2, hH⟩

/-- The radiation: what matter and dark energy leave to a flat universe. -/
noncomputable def radiation (P : Phys) (m : Model X) (z : ℝ) : ℝ := 1 - m.omegaM P z - m.omegaL P z

theorem Made.rad (hP : PhysOK P) (g : Made P m h) {z : ℝ} (hz : 0 ≤ z) : radiation P m z = m.ap.Or0 P * (1 + z) ^ 4 / m.ap.E2 P z := by
  have h1 : m.ap.E2 P z ≠ 0 := by linarith [(g.E2 hP hz).1]
  unfold radiation Model.omegaM Model.omegaL FLRW.Om FLRW.Ode
  field_simp
  unfold FLRW.E2
  ring

/-- C112: at every redshift z ≥ 0 the fractions of matter, baryons and radiation are between 0 and 1, baryons do not exceed matter, and there is no
radiation exactly if the CMB temperature is 0. -/
theorem C112_budget (hP : PhysOK P) (g : Made P m h) {z : ℝ} (hz : 0 ≤ z) :
    m.omegaM P z + m.omegaL P z + radiation P m z = 1 ∧ 0 ≤ radiation P m z ∧ (radiation P m z = 0 ↔ m.get "t_cmb".toList = .ok 0) ∧
    0 ≤ m.omegaB P z ∧ m.omegaB P z ≤ m.omegaM P z := by
  obtain ⟨h1, p1, p2, pH⟩ := g.E2 hP hz
  obtain ⟨-, -, -, b1, b2, -, -, ht⟩ := g.facts
  have hE : 0 < m.ap.E2 P z := by linarith
  have hz1 : 0 < 1 + z := by linarith
  refine ⟨by unfold radiation; ring, ?_, ?_, ?_, ?_⟩
  · rw [g.rad hP hz]; positivity
  · rw [g.rad hP hz, div_eq_zero_iff, mul_eq_zero]
    have h4 : (1 + z) ^ 4 ≠ 0 := by positivity
    simp only [hE.ne', h4, or_false]
    rw [(m.ap.Or0_nonneg hP pH).2, ht]
    constructor
    · intro h; rw [h]
    · intro h; exact Except.ok.inj h
  · unfold Model.omegaB FLRW.Ob; positivity
  · unfold Model.omegaB Model.omegaM FLRW.Ob FLRW.Om
    apply div_le_div_of_nonneg_right _ hE.le
    exact mul_le_mul_of_nonneg_right b2 (by positivity)

/-- C112: today's values are the parameters omega_m0 and omega_b0; baryon_fraction0 is the baryon fraction at every redshift (if there is matter). -/
theorem C112_today (hP : PhysOK P) (g : Made P m h) : m.get "omega_m0".toList = .ok (m.omegaM P 0) ∧ m.get "omega_b0".toList = .ok (m.omegaB P 0) ∧
    (m.omegaM P 0 ≠ 0 → ∀ z, 0 ≤ z → m.baryonFraction0 = .ok (m.omegaB P z / m.omegaM P z)) := by
  obtain ⟨-, -, -, -, -, h1, h2, -⟩ := g.facts
  have e1 : m.omegaM P 0 = m.ap.Om0 := by unfold Model.omegaM FLRW.Om; rw [m.ap.E2_zero]; norm_num
  have e2 : m.omegaB P 0 = m.ap.Ob0 := by unfold Model.omegaB FLRW.Ob; rw [m.ap.E2_zero]; norm_num
  refine ⟨by rw [h1, e1], by rw [h2, e2], ?_⟩
  intro hm z hz
  rw [e1] at hm
  unfold Model.baryonFraction0
  simp only [bind, Except.bind, pure, Except.pure, h1, h2]
  have hE : m.ap.E2 P z ≠ 0 := by linarith [(g.E2 hP hz).1]
  have hz1 : (1 + z) ≠ 0 := by linarith
  congr 1
  unfold Model.omegaM Model.omegaB FLRW.Om FLRW.Ob
  field_simp

/-- C112: the parameter omega_l0 does not enter: dark energy today is 1 - omega_m0 - radiation, so the two agree exactly if omega_l0 was chosen that way. -/
theorem C112_dark_energy (hP : PhysOK P) (g : Made P m h) (om : ℝ) (hom : m.get "omega_m0".toList = .ok om) :
    m.omegaL P 0 = 1 - om - radiation P m 0 ∧ (∀ l, m.get "omega_l0".toList = .ok l → (m.omegaL P 0 = l ↔ l = 1 - om - radiation P m 0)) := by
  have h1 := (C112_today hP g).1
  rw [hom] at h1
  have e : om = m.omegaM P 0 := by cases h1; rfl
  have : m.omegaL P 0 = 1 - om - radiation P m 0 := by rw [e]; unfold radiation; ring
  refine ⟨this, fun l _ => ?_⟩
  rw [this]
  exact eq_comm

/-- The parameters of the documented example. -/
noncomputable def exParams : List (Str × ℝ) := [("hubble".toList, 0.7), ("omega_m0".toList, 0.3), ("omega_l0".toList, 0.7), ("omega_b0".toList, 0.045),
  ("t_cmb".toList, 2.7255)]

/-- C112: in the documented example ("737" with the CMB temperature 2.7255) the model is made, and its omega_l(0) is less than its omega_l0. -/
theorem C112_example (hP : PhysOK P) (cwd : Str) : ∃ m : Model X, fromParameters P cwd exParams none none none = .ok m ∧ Made P m 0.7 ∧
    m.get "omega_l0".toList = .ok 0.7 ∧ m.omegaL P 0 < 0.7 := by
  have hw : PyDict.WF exParams := by
    show ["hubble".toList, "omega_m0".toList, "omega_l0".toList, "omega_b0".toList, "t_cmb".toList].Nodup
    decide
  have h1 := (param_of_wf _ hw "hubble".toList 0.7).2 (by simp [exParams])
  have h2 := (param_of_wf _ hw "omega_m0".toList 0.3).2 (by simp [exParams])
  have h3 := (param_of_wf _ hw "t_cmb".toList 2.7255).2 (by simp [exParams])
  have h4 := (param_of_wf _ hw "omega_b0".toList 0.045).2 (by simp [exParams])
  have h5 := (param_of_wf _ hw "omega_l0".toList 0.7).2 (by simp [exParams])
  obtain ⟨m, hm⟩ := ((C111_accepts (X := X) P cwd exParams none none none).2 _ _ _ _ h1 h2 h3 h4).2 (by norm_num)
  have hg := (C111_parameters P cwd exParams hw none none none m hm).1
  obtain ⟨_, _, _, _, -, -, -, -, -, -, -, hget, -⟩ := hg
  have gm : Made P m 0.7 := ⟨⟨_, _, _, _, hm⟩, by rw [hget, h1], by norm_num⟩
  refine ⟨m, hm, gm, by rw [hget, h5], ?_⟩
  have hl := (C112_dark_energy hP gm 0.3 (by rw [hget, h2])).1
  obtain ⟨-, hr, hr0, -⟩ := C112_budget hP gm (le_refl (0 : ℝ))
  have : radiation P m 0 ≠ 0 := by
    intro h0
    have := hr0.1 h0
    rw [hget, h3] at this
    norm_num at this
  have hr' : 0 < radiation P m 0 := lt_of_le_of_ne hr (Ne.symm this)
  rw [hl]
  norm_num at hr' ⊢
  linarith

/-- C112: dilution: the density of matter and of baryons grows as (1+z)^3, of radiation as (1+z)^4, dark energy is constant. -/
theorem C112_dilution (hP : PhysOK P) (g : Made P m h) {z : ℝ} (hz : 0 ≤ z) :
    m.rhoMatter P z = m.rhoMatter P 0 * (1 + z) ^ 3 ∧ m.rhoCrit P z * m.omegaB P z = m.rhoCrit P 0 * m.omegaB P 0 * (1 + z) ^ 3 ∧
    m.rhoCrit P z * radiation P m z = m.rhoCrit P 0 * radiation P m 0 * (1 + z) ^ 4 ∧ m.rhoCrit P z * m.omegaL P z = m.rhoCrit P 0 * m.omegaL P 0 := by
  have hE : m.ap.E2 P z ≠ 0 := by linarith [(g.E2 hP hz).1]
  have e0 := m.ap.E2_zero (P := P)
  rw [g.rad hP hz, g.rad hP le_rfl]
  unfold Model.rhoMatter Model.rhoCrit Model.omegaM Model.omegaB Model.omegaL FLRW.crit FLRW.Om FLRW.Ob FLRW.Ode
  rw [e0]
  refine ⟨?_, ?_, ?_, ?_⟩ <;> field_simp <;> ring

/-- C112: so the comoving virial density relative to the mean density does not depend on the redshift. -/
theorem C112_virial (hP : PhysOK P) (g : Made P m h) {z : ℝ} (hz : 0 ≤ z) (f : ℝ) :
    (m.halo P).rho_vir_mean f z = f * m.rhoMatter P 0 ∧ (m.halo P).rho_matter z = m.rhoMatter P z := by
  refine ⟨?_, rfl⟩
  have h1 : (m.halo P).rho_matter z = m.rhoMatter P 0 * (1 + z) ^ 3 := (C112_dilution hP g hz).1
  unfold HaloModel.rho_vir_mean
  simp only [h1]
  have hz1 : (1 + z) ≠ 0 := by linarith
  norm_num
  left
  field_simp

theorem Made.bigHubble (hP : PhysOK P) (g : Made P m h) (z : ℝ) : m.bigHubble P z = 100000 * P.gyr / P.mpc * Real.sqrt (m.ap.E2 P z) := by
  obtain ⟨e1, e2, -⟩ := g.facts
  have := g.pos; have := hP.mpc; have := hP.gyr
  unfold Model.bigHubble FLRW.H FLRW.H0si FLRW.E
  rw [e1, e2]
  simp only [UnitSys.forCosmology, UnitSys.new]
  field_simp
  ring

/-- C112: the expansion rate in h/Gyr: today's value is 100 km/s/Mpc in 1/Gyr, whatever h is; it is positive and grows with redshift; it obeys the Friedmann
equation H^2 = 8 pi G rho_crit / 3 in the unit system of the model. -/
theorem C112_hubble (hP : PhysOK P) (g : Made P m h) {z : ℝ} (hz : 0 ≤ z) :
    m.bigHubble P 0 = 100 * 1000 / P.mpc * P.gyr ∧ 0 < m.bigHubble P z ∧ (∀ w, z ≤ w → m.bigHubble P z ≤ m.bigHubble P w) ∧
    (m.omegaM P 0 ≠ 0 → ∀ w, z < w → m.bigHubble P z < m.bigHubble P w) ∧
    m.bigHubble P z ^ 2 = 8 * Real.pi * m.us.c_gravity / 3 * m.rhoCrit P z := by
  obtain ⟨h1, p1, p2, pH⟩ := g.E2 hP hz
  have := hP.mpc; have := hP.gyr; have := hP.G; have := hP.msun; have hpi := Real.pi_pos; have := g.pos
  have hk : 0 < 100000 * P.gyr / P.mpc := by positivity
  refine ⟨?_, ?_, ?_, ?_, ?_⟩
  · rw [g.bigHubble hP, m.ap.E2_zero, Real.sqrt_one]; ring
  · rw [g.bigHubble hP]
    exact mul_pos hk (Real.sqrt_pos.2 (by linarith))
  · intro w hw
    rw [g.bigHubble hP, g.bigHubble hP]
    exact mul_le_mul_of_nonneg_left (Real.sqrt_le_sqrt (m.ap.E2_mono p1 p2 hz hw)) hk.le
  · intro hm w hw
    have e1 : m.omegaM P 0 = m.ap.Om0 := by unfold Model.omegaM FLRW.Om; rw [m.ap.E2_zero]; norm_num
    rw [e1] at hm
    rw [g.bigHubble hP, g.bigHubble hP]
    exact mul_lt_mul_of_pos_left (Real.sqrt_lt_sqrt (by linarith) (m.ap.E2_strict (lt_of_le_of_ne p1 (Ne.symm hm)) p2 hz hw)) hk
  · rw [g.bigHubble hP, mul_pow, Real.sq_sqrt (by linarith)]
    obtain ⟨e1, e2, -⟩ := g.facts
    unfold Model.rhoCrit FLRW.crit FLRW.crit0 FLRW.H0si
    rw [e1, e2]
    simp only [UnitSys.forCosmology, UnitSys.new, convCoef]
    field_simp
    norm_num

/-- C112: with astropy's values of the megaparsec and the year that is `big_hubble0`, up to 2e-17. -/
theorem C112_big_hubble0 (hP : PhysOK P) (g : Made P m h) (h1 : P.mpc = 3.085677581491367e22) (h2 : P.gyr = 3.15576e16) :
    |m.bigHubble P 0 - bigHubble0| ≤ 2e-17 := by
  rw [(C112_hubble hP g (le_refl (0 : ℝ))).1, h1, h2, bigHubble0, abs_le]
  constructor <;> norm_num

/-! ### C113 -/

open MeasureTheory Set

theorem FLRW.E_cont (a : FLRW) : Continuous (a.E P) := by
  unfold FLRW.E FLRW.E2
  fun_prop

theorem Made.E_ge (hP : PhysOK P) (g : Made P m h) {z : ℝ} (hz : 0 ≤ z) : 1 ≤ m.ap.E P z := by
  unfold FLRW.E
  rw [Real.one_le_sqrt]
  exact (g.E2 hP hz).1

theorem Made.int1 (hP : PhysOK P) (g : Made P m h) {a b : ℝ} (ha : 0 ≤ a) (hb : 0 ≤ b) : IntervalIntegrable (fun x => 1 / m.ap.E P x) volume a b := by
  apply ContinuousOn.intervalIntegrable
  apply ContinuousOn.div continuousOn_const m.ap.E_cont.continuousOn
  intro x hx
  have : 0 ≤ x := le_trans (le_min ha hb) (by simpa [uIcc] using hx.1)
  have := g.E_ge hP this
  linarith

theorem Made.cont2 (hP : PhysOK P) (g : Made P m h) : ContinuousOn (fun x => 1 / ((1 + x) * m.ap.E P x)) (Ici 0) := by
  apply ContinuousOn.div continuousOn_const
  · exact (by fun_prop : Continuous fun x : ℝ => 1 + x).continuousOn.mul m.ap.E_cont.continuousOn
  · intro x hx
    have hx' : (0 : ℝ) ≤ x := hx
    have := g.E_ge hP hx'
    have : 0 < (1 + x) * m.ap.E P x := by positivity
    linarith

theorem Made.int2 (hP : PhysOK P) (g : Made P m h) {a b : ℝ} (ha : 0 ≤ a) (hb : 0 ≤ b) :
    IntervalIntegrable (fun x => 1 / ((1 + x) * m.ap.E P x)) volume a b := by
  apply ContinuousOn.intervalIntegrable
  refine (g.cont2 hP).mono ?_
  intro x hx
  exact le_trans (le_min ha hb) (by simpa [uIcc] using hx.1)

theorem Made.intIoi (hP : PhysOK P) (g : Made P m h) (hm : 0 < m.ap.Om0) {a : ℝ} (ha : 0 ≤ a) :
    IntegrableOn (fun x => 1 / ((1 + x) * m.ap.E P x)) (Ioi a) := by
  have hdom : IntegrableOn (fun x : ℝ => (1 / Real.sqrt (min 1 m.ap.Om0)) * (x + 1) ^ (-2 : ℝ)) (Ioi a) :=
    (integrableOn_add_rpow_Ioi_of_lt (by norm_num) (by linarith)).const_mul _
  refine Integrable.mono' hdom ?_ ?_
  · refine ContinuousOn.aestronglyMeasurable ?_ measurableSet_Ioi
    refine (g.cont2 hP).mono ?_
    intro x hx
    exact le_trans ha (le_of_lt hx)
  · refine (ae_restrict_iff' measurableSet_Ioi).2 (Filter.Eventually.of_forall ?_)
    intro x hx
    have hx0 : 0 ≤ x := le_trans ha (le_of_lt hx)
    obtain ⟨hE2, p1, p2, -⟩ := g.E2 hP hx0
    have hE := g.E_ge hP hx0
    have hc : 0 < min 1 m.ap.Om0 := lt_min one_pos hm
    have hs : 0 < Real.sqrt (min 1 m.ap.Om0) := Real.sqrt_pos.2 hc
    have key : Real.sqrt (min 1 m.ap.Om0) * (1 + x) ≤ m.ap.E P x := by
      unfold FLRW.E
      have e : Real.sqrt (min 1 m.ap.Om0) * (1 + x) = Real.sqrt (min 1 m.ap.Om0 * (1 + x) ^ 2) := by
        rw [Real.sqrt_mul hc.le, Real.sqrt_sq (by linarith)]
      rw [e]
      apply Real.sqrt_le_sqrt
      rw [m.ap.E2_eq]
      have h23 : (1 + x) ^ 2 ≤ (1 + x) ^ 3 := pow_le_pow_right₀ (by linarith) (by norm_num)
      have h3 : 1 ≤ (1 + x) ^ 3 := one_le_pow₀ (by linarith)
      have h4 : 1 ≤ (1 + x) ^ 4 := one_le_pow₀ (by linarith)
      have hr : 0 ≤ m.ap.Or0 P * ((1 + x) ^ 4 - 1) := mul_nonneg p2 (by linarith)
      rcases le_total 1 m.ap.Om0 with h1 | h1
      · rw [min_eq_left h1]
        nlinarith [mul_nonneg (sub_nonneg.2 h1) (sub_nonneg.2 h3)]
      · rw [min_eq_right h1]
        nlinarith [mul_le_mul_of_nonneg_left h23 p1]
    have hpos : 0 < (1 + x) * m.ap.E P x := by positivity
    rw [Real.norm_of_nonneg (by positivity)]
    rw [Real.rpow_neg (by linarith), show ((2 : ℝ)) = ((2 : ℕ) : ℝ) by norm_num, Real.rpow_natCast, ← one_div, one_div_mul_one_div, add_comm x 1]
    apply one_div_le_one_div_of_le (by positivity)
    nlinarith [mul_le_mul_of_nonneg_left key (show (0 : ℝ) ≤ 1 + x by linarith)]

theorem Made.comoving_raw (hP : PhysOK P) (g : Made P m h) (z : ℝ) : m.ap.comoving P z / P.mpc * h = P.c / 100000 * ∫ x in (0 : ℝ)..z, 1 / m.ap.E P x := by
  obtain ⟨e1, -⟩ := g.facts
  have := g.pos; have := hP.mpc
  unfold FLRW.comoving FLRW.H0si
  rw [e1]
  field_simp
  ring

theorem Made.comoving (hP : PhysOK P) (g : Made P m h) (z : ℝ) : m.comovingAt P z = .ok (P.c / 100000 * ∫ x in (0 : ℝ)..z, 1 / m.ap.E P x) := by
  unfold Model.comovingAt
  simp only [bind, Except.bind, pure, Except.pure, g.hubble]
  rw [g.comoving_raw hP]

/-- C113: the comoving distance in Mpc/h is the integral of c/H(z), in the units of the model; it does not depend on h. -/
theorem C113_comoving (hP : PhysOK P) (g : Made P m h) (z : ℝ) : m.comovingAt P z = .ok (m.us.c_light_speed * ∫ x in (0 : ℝ)..z, 1 / m.bigHubble P x) := by
  rw [g.comoving hP]
  have hf : (fun x => 1 / m.bigHubble P x) = fun x => (P.mpc / (100000 * P.gyr)) * (1 / m.ap.E P x) := by
    funext x
    rw [g.bigHubble hP]
    unfold FLRW.E
    have := hP.mpc; have := hP.gyr
    rw [one_div, mul_inv, inv_div, one_div]
  rw [hf, intervalIntegral.integral_const_mul]
  obtain ⟨-, e2, -⟩ := g.facts
  have := g.pos; have := hP.mpc; have := hP.gyr
  congr 1
  rw [e2]
  simp only [UnitSys.forCosmology, UnitSys.new, convCoef]
  field_simp

/-- C113: the lookback time in Gyr/h is the integral of 1/((1+z) H(z)) from 0 to z, the age the integral from z to infinity. -/
theorem C113_times (hP : PhysOK P) (g : Made P m h) (z : ℝ) : m.lookbackAt P z = .ok (∫ x in (0 : ℝ)..z, 1 / ((1 + x) * m.bigHubble P x)) ∧
    m.age P z = ∫ x in Ioi z, 1 / ((1 + x) * m.bigHubble P x) := by
  have hf : (fun x => 1 / ((1 + x) * m.bigHubble P x)) = fun x => (P.mpc / (100000 * P.gyr)) * (1 / ((1 + x) * m.ap.E P x)) := by
    funext x
    rw [g.bigHubble hP]
    unfold FLRW.E
    rw [show (1 + x) * (100000 * P.gyr / P.mpc * Real.sqrt (m.ap.E2 P x)) = (100000 * P.gyr / P.mpc) * ((1 + x) * Real.sqrt (m.ap.E2 P x)) by ring]
    rw [one_div, mul_inv, inv_div, one_div]
  obtain ⟨e1, e2, -⟩ := g.facts
  have := g.pos; have := hP.mpc; have := hP.gyr
  rw [hf, intervalIntegral.integral_const_mul, integral_const_mul]
  constructor
  · unfold Model.lookbackAt
    simp only [bind, Except.bind, pure, Except.pure, g.hubble]
    congr 1
    unfold FLRW.lookback FLRW.H0si
    rw [e1]
    field_simp
    ring
  · unfold Model.age FLRW.age FLRW.H0si
    rw [e1, e2]
    simp only [UnitSys.forCosmology, UnitSys.new]
    field_simp
    ring

/-- C113: the comoving distance is 0 today, strictly increasing with redshift, and at most c z / H0 (Hubble's law bounds it). -/
theorem C113_monotone (hP : PhysOK P) (g : Made P m h) {z w : ℝ} (hz : 0 ≤ z) (hw : z < w) :
    ∃ d e : ℝ, m.comovingAt P 0 = .ok 0 ∧ m.comovingAt P z = .ok d ∧ m.comovingAt P w = .ok e ∧ 0 ≤ d ∧ d < e ∧
      d ≤ m.us.c_light_speed * z / m.bigHubble P 0 := by
  have hw0 : 0 ≤ w := by linarith
  have hc := hP.c
  have hk : 0 < P.c / 100000 := by positivity
  refine ⟨_, _, by rw [g.comoving hP]; simp, g.comoving hP z, g.comoving hP w, ?_, ?_, ?_⟩
  · apply mul_nonneg hk.le
    apply intervalIntegral.integral_nonneg hz
    intro x hx
    have := g.E_ge hP hx.1
    positivity
  · apply mul_lt_mul_of_pos_left _ hk
    rw [← sub_pos, intervalIntegral.integral_interval_sub_left (g.int1 hP le_rfl hw0) (g.int1 hP le_rfl hz)]
    apply intervalIntegral.intervalIntegral_pos_of_pos_on (g.int1 hP hz hw0) _ hw
    intro x hx
    have := g.E_ge hP (le_trans hz hx.1.le)
    positivity
  · have h1 : (∫ x in (0 : ℝ)..z, 1 / m.ap.E P x) ≤ ∫ _ in (0 : ℝ)..z, (1 : ℝ) := by
      apply intervalIntegral.integral_mono_on hz (g.int1 hP le_rfl hz) intervalIntegrable_const
      intro x hx
      have := g.E_ge hP hx.1
      rw [div_le_one (by linarith)]
      exact this
    have h2 : (∫ _ in (0 : ℝ)..z, (1 : ℝ)) = z := by simp
    have h3 : m.us.c_light_speed * z / m.bigHubble P 0 = P.c / 100000 * z := by
      rw [g.bigHubble hP, m.ap.E2_zero, Real.sqrt_one]
      obtain ⟨-, e2, -⟩ := g.facts
      have := g.pos; have := hP.mpc; have := hP.gyr
      rw [e2]
      simp only [UnitSys.forCosmology, UnitSys.new, convCoef]
      field_simp
    rw [h3]
    apply mul_le_mul_of_nonneg_left _ hk.le
    linarith

/-- C113: Etherington's relations: luminosity distance = (1+z) comoving = (1+z)^2 angular diameter distance; the distance modulus is that of the
luminosity distance in Mpc (not Mpc/h). -/
theorem C113_distances (hP : PhysOK P) (g : Made P m h) {z : ℝ} (hz : 0 < z) : ∃ d a l : ℝ, m.comovingAt P z = .ok d ∧ m.angularAt P z = .ok a ∧
    m.luminosityAt P z = .ok l ∧ d = (1 + z) * a ∧ l = (1 + z) * d ∧ l = (1 + z) ^ 2 * a ∧ 0 < a ∧
    m.distModAt P z = 5 * (Real.log (l / h) / Real.log 10) + 25 := by
  obtain ⟨d0, d, h0, h1, h2, h3, h4, -⟩ := C113_monotone hP g (le_refl (0 : ℝ)) hz
  have hd : 0 < d := by linarith
  have hz1 : 0 < 1 + z := by linarith
  have hh := g.pos
  have hmpc := hP.mpc
  have hraw : m.ap.comoving P z / P.mpc * h = d := by
    unfold Model.comovingAt at h2
    simp only [bind, Except.bind, pure, Except.pure, g.hubble] at h2
    exact Except.ok.inj h2
  have ea : m.angularAt P z = .ok (d / (1 + z)) := by
    unfold Model.angularAt
    simp only [bind, Except.bind, pure, Except.pure, g.hubble]
    rw [← hraw]
    unfold FLRW.angular
    congr 1
    field_simp
  have el : m.luminosityAt P z = .ok ((1 + z) * d) := by
    unfold Model.luminosityAt
    simp only [bind, Except.bind, pure, Except.pure, g.hubble]
    rw [← hraw]
    unfold FLRW.luminosity
    congr 1
    field_simp
  refine ⟨d, d / (1 + z), (1 + z) * d, h2, ea, el, by field_simp, rfl, by field_simp, by positivity, ?_⟩
  unfold Model.distModAt FLRW.distmod FLRW.luminosity
  have e : (1 + z) * m.ap.comoving P z / P.mpc = (1 + z) * d / h := by rw [← hraw]; field_simp
  rw [e, abs_of_pos (by positivity)]

/-- C113: a universe with matter has a finite age, and lookback time and age add up to the age today; the lookback time grows with redshift, the age
decreases and is positive. -/
theorem C113_age (hP : PhysOK P) (g : Made P m h) (hm : m.omegaM P 0 ≠ 0) {z w : ℝ} (hz : 0 ≤ z) (hw : z < w) :
    ∃ t u : ℝ, m.lookbackAt P z = .ok t ∧ m.lookbackAt P w = .ok u ∧ t + m.age P z = m.age P 0 ∧ 0 ≤ t ∧ t < u ∧ m.age P w < m.age P z ∧ 0 ≤ m.age P w := by
  have e1 : m.omegaM P 0 = m.ap.Om0 := by unfold Model.omegaM FLRW.Om; rw [m.ap.E2_zero]; norm_num
  obtain ⟨-, p1, -⟩ := g.E2 hP (le_refl (0 : ℝ))
  have hm' : 0 < m.ap.Om0 := lt_of_le_of_ne p1 (by rw [e1] at hm; exact Ne.symm hm)
  have hw0 : 0 ≤ w := by linarith
  have hk : 0 < P.mpc / (100000 * P.gyr) := by have := hP.mpc; have := hP.gyr; positivity
  have hf : (fun x => 1 / ((1 + x) * m.bigHubble P x)) = fun x => (P.mpc / (100000 * P.gyr)) * (1 / ((1 + x) * m.ap.E P x)) := by
    funext x
    rw [g.bigHubble hP]
    unfold FLRW.E
    rw [show (1 + x) * (100000 * P.gyr / P.mpc * Real.sqrt (m.ap.E2 P x)) = (100000 * P.gyr / P.mpc) * ((1 + x) * Real.sqrt (m.ap.E2 P x)) by ring]
    rw [one_div, mul_inv, inv_div, one_div]
  have hI : ∀ a, 0 ≤ a → IntegrableOn (fun x => 1 / ((1 + x) * m.bigHubble P x)) (Ioi a) := by
    intro a ha
    rw [hf]
    exact (g.intIoi hP hm' ha).const_mul _
  have hi : ∀ a b, 0 ≤ a → 0 ≤ b → IntervalIntegrable (fun x => 1 / ((1 + x) * m.bigHubble P x)) volume a b := by
    intro a b ha hb
    rw [hf]
    exact (g.int2 hP ha hb).const_mul _
  have hpos : ∀ x, 0 ≤ x → 0 < 1 / ((1 + x) * m.bigHubble P x) := by
    intro x hx
    have := (C112_hubble hP g hx).2.1
    positivity
  have hzw : 0 < ∫ x in z..w, 1 / ((1 + x) * m.bigHubble P x) :=
    intervalIntegral.intervalIntegral_pos_of_pos_on (hi _ _ hz hw0) (fun x hx => hpos x (le_trans hz hx.1.le)) hw
  refine ⟨_, _, (C113_times hP g z).1, (C113_times hP g w).1, ?_, ?_, ?_, ?_, ?_⟩
  · rw [(C113_times hP g z).2, (C113_times hP g 0).2]
    exact intervalIntegral.integral_interval_add_Ioi (hI 0 le_rfl) (hI z hz)
  · apply intervalIntegral.integral_nonneg hz
    intro x hx
    exact (hpos x hx.1).le
  · rw [← sub_pos, intervalIntegral.integral_interval_sub_left (hi _ _ le_rfl hw0) (hi _ _ le_rfl hz)]
    exact hzw
  · rw [(C113_times hP g z).2, (C113_times hP g w).2, ← intervalIntegral.integral_interval_add_Ioi (hI z hz) (hI w hw0)]
    linarith
  · rw [(C113_times hP g w).2]
    apply setIntegral_nonneg measurableSet_Ioi
    intro x hx
    exact (hpos x (le_trans hw0 (le_of_lt hx))).le

/-- Specification of the solver (astropy's `z_at_value`): what it returns is a redshift ≥ 0 at which the function has the value. -/
def SolverSpec (solve : (ℝ → ℝ) → ℝ → PyM ℝ) : Prop := ∀ f d z, solve f d = .ok z → 0 ≤ z ∧ f z = d

/-- C113: `redshifts.at_comoving` inverts `distances.comoving_at` for distances of at least 1e-4 Mpc/h: whatever redshift it returns is the only one with that
distance; smaller (and negative) distances are treated as 1e-4. -/
theorem C113_inverse (hP : PhysOK P) (g : Made P m h) (solve : (ℝ → ℝ) → ℝ → PyM ℝ) (hs : SolverSpec solve) (d z : ℝ)
    (hz : m.atComoving P solve d = .ok z) : 0 ≤ z ∧ m.comovingAt P z = .ok (max d (1 / 10000)) ∧
    (∀ w, 0 ≤ w → m.comovingAt P w = .ok (max d (1 / 10000)) → w = z) ∧ (d ≤ 1 / 10000 → m.atComoving P solve d = m.atComoving P solve (1 / 10000)) := by
  have hh := g.pos
  have hmpc := hP.mpc
  have hlo : (1.0e-4 : ℝ) = 1 / 10000 := by norm_num
  have hspec : ∀ d', m.atComoving P solve d' = solve (m.ap.comoving P) (max d' (1 / 10000) / h * P.mpc) := by
    intro d'
    unfold Model.atComoving
    simp only [bind, Except.bind, g.hubble, Frame.boundLo_eq, hlo]
  rw [hspec] at hz
  obtain ⟨h0, he⟩ := hs _ _ _ hz
  have hc : m.comovingAt P z = .ok (max d (1 / 10000)) := by
    unfold Model.comovingAt
    simp only [bind, Except.bind, pure, Except.pure, g.hubble]
    rw [he]
    congr 1
    field_simp
  refine ⟨h0, hc, ?_, ?_⟩
  · intro w hw0 hw
    rcases lt_trichotomy w z with hlt | heq | hgt
    · obtain ⟨a, b, -, ha, hb, -, hab, -⟩ := C113_monotone hP g hw0 hlt
      rw [hw] at ha; rw [hc] at hb
      have e1 := Except.ok.inj ha; have e2 := Except.ok.inj hb
      linarith
    · exact heq
    · obtain ⟨a, b, -, ha, hb, -, hab, -⟩ := C113_monotone hP g h0 hgt
      rw [hc] at ha; rw [hw] at hb
      have e1 := Except.ok.inj ha; have e2 := Except.ok.inj hb
      linarith
  · intro hd
    rw [hspec, hspec, max_eq_right hd, max_self]

/-- C113: and with a solver that finds every redshift that exists, the redshift is recovered from its distance. -/
theorem C113_roundtrip (hP : PhysOK P) (g : Made P m h) (solve : (ℝ → ℝ) → ℝ → PyM ℝ) (hs : SolverSpec solve)
    (hc : ∀ f d, (∃ z, 0 ≤ z ∧ f z = d) → ∃ z, solve f d = .ok z) (z d : ℝ) (hz : 0 ≤ z) (hd : m.comovingAt P z = .ok d) (hd' : 1 / 10000 ≤ d) :
    m.atComoving P solve d = .ok z := by
  have hh := g.pos
  have hmpc := hP.mpc
  have hlo : (1.0e-4 : ℝ) = 1 / 10000 := by norm_num
  have hspec : m.atComoving P solve d = solve (m.ap.comoving P) (d / h * P.mpc) := by
    unfold Model.atComoving
    simp only [bind, Except.bind, g.hubble, Frame.boundLo_eq, hlo, max_eq_left hd']
  have hraw : m.ap.comoving P z / P.mpc * h = d := by
    unfold Model.comovingAt at hd
    simp only [bind, Except.bind, pure, Except.pure, g.hubble] at hd
    exact Except.ok.inj hd
  obtain ⟨w, hw⟩ := hc (m.ap.comoving P) (d / h * P.mpc) ⟨z, hz, by rw [← hraw]; field_simp⟩
  rw [← hspec] at hw
  obtain ⟨-, -, hu, -⟩ := C113_inverse hP g solve hs d w hw
  rw [max_eq_left hd'] at hu
  rw [hw, hu z hz hd]

/-- Such a solver exists. -/
example : ∃ solve : (ℝ → ℝ) → ℝ → PyM ℝ, SolverSpec solve ∧ ∀ f d, (∃ z, 0 ≤ z ∧ f z = d) → ∃ z, solve f d = .ok z := by
  classical
  refine ⟨fun f d => if hz : ∃ z, 0 ≤ z ∧ f z = d then .ok hz.choose else .error .valueError, ?_, ?_⟩
  · intro f d z hz
    by_cases he : ∃ z, 0 ≤ z ∧ f z = d
    · simp only [he, dif_pos] at hz
      have := Except.ok.inj hz
      rw [← this]
      exact he.choose_spec
    · simp only [he, dif_neg, not_false_iff] at hz
      cases hz
  · intro f d he
    exact ⟨he.choose, by simp only [he, dif_pos]⟩

/-- Positive constants exist: astropy's values. -/
example : PhysOK ⟨⟨6.6743e-11, 299792458, 1.67262192369e-27, 6.62607015e-34, 1.988409870698051e30, 3.085677581491367e22, 3.085677581491367e16, 3.15576e16,
    31557600⟩, 8.418e-33⟩ := by
  constructor <;> norm_num

end Pyhipp.LCDM
