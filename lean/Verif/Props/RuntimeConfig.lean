import Verif.Model.RuntimeConfig
/-
C90: runtime configuration.
-/
namespace Pyhipp.RuntimeConfig
open Pyhipp Pyhipp.Plot

local notation "Ref" => Nat

variable {V : Type}

/-- The instance an operation works on. -/
def Op.target : Op → Option Nat
  | .create _ => none
  | .update i _ => some i
  | .setGlobal i => some i
  | .style i _ _ => some i

theorem rcOnly (valid : Str → V → Bool) (w : World V) (i : Nat) :
    (setGlobal valid w i).2.sections = w.sections ∧ (setGlobal valid w i).2.defaults = w.defaults ∧ (setGlobal valid w i).2.sheets = w.sheets ∧
    (setGlobal valid w i).2.insts = w.insts := ⟨rfl, rfl, rfl, rfl⟩

theorem step_class (valid : Str → V → Bool) (w : World V) (op : Op) :
    (step valid w op).sections = w.sections ∧ (step valid w op).defaults = w.defaults ∧ (step valid w op).sheets = w.sheets := by
  cases op with
  | create c => exact ⟨rfl, rfl, rfl⟩
  | update i c => exact ⟨rfl, rfl, rfl⟩
  | setGlobal i => exact ⟨rfl, rfl, rfl⟩
  | style i names g =>
      simp only [step, useStylesheets]
      split
      · exact ⟨rfl, rfl, rfl⟩
      · split <;> exact ⟨rfl, rfl, rfl⟩

/-- C90: no history of constructing, updating, styling or applying configurations changes the contents of any section, the class defaults or the style
sheets. -/
theorem C90_class_untouched (valid : Str → V → Bool) (w : World V) (ops : List Op) :
    (run valid w ops).sections = w.sections ∧ (run valid w ops).defaults = w.defaults ∧ (run valid w ops).sheets = w.sheets := by
  induction ops generalizing w with
  | nil => exact ⟨rfl, rfl, rfl⟩
  | cons op ops ih =>
      obtain ⟨h1, h2, h3⟩ := ih (step valid w op)
      obtain ⟨g1, g2, g3⟩ := step_class valid w op
      exact ⟨h1.trans g1, h2.trans g2, h3.trans g3⟩

theorem step_other (valid : Str → V → Bool) (w : World V) (op : Op) (j : Nat) (hj : j < w.insts.length) (h : op.target ≠ some j) :
    (step valid w op).insts[j]? = w.insts[j]? ∧ w.insts.length ≤ (step valid w op).insts.length := by
  have set_other : ∀ (i : Nat) (c : Config), some i ≠ some j → (w.insts.set i c)[j]? = w.insts[j]? := by
    intro i c hi
    rw [List.getElem?_set_ne (by simpa using hi)]
  cases op with
  | create c => exact ⟨by simp [step, create, List.getElem?_append_left hj], by simp [step, create]⟩
  | update i c => exact ⟨set_other i _ h, by simp [step, setInst]⟩
  | setGlobal i => exact ⟨rfl, Nat.le_refl _⟩
  | style i names g =>
      simp only [step, useStylesheets]
      split
      · exact ⟨set_other i _ h, by simp [setInst]⟩
      · split
        · exact ⟨set_other i _ h, by simp [setGlobal, setInst]⟩
        · exact ⟨set_other i _ h, by simp [setInst]⟩

/-- C90: an instance keeps its configuration through any history of operations on other instances, however many. -/
theorem C90_isolation (valid : Str → V → Bool) (w : World V) (ops : List Op) (j : Nat) (hj : j < w.insts.length)
    (h : ∀ op ∈ ops, op.target ≠ some j) : (run valid w ops).insts[j]? = w.insts[j]? := by
  induction ops generalizing w with
  | nil => rfl
  | cons op ops ih =>
      obtain ⟨h1, h2⟩ := step_other valid w op j hj (h op (by simp))
      exact (ih (step valid w op) (by omega) (fun o ho => h o (by simp [ho]))).trans h1

/-- C90: a new instance has the defaults' sections, replaced or extended by the sections given. -/
theorem C90_create (valid : Str → V → Bool) (w : World V) (config : Config) (hw : config.WF) :
    (step valid w (.create none)).insts = w.insts ++ [w.defaults] ∧
    ∃ c, (step valid w (.create (some config))).insts = w.insts ++ [c] ∧ ∀ k, c.get? k = (config.get? k).or (w.defaults.get? k) :=
  ⟨rfl, _, rfl, fun k => by rw [updateConfig, PyDict.get?_update _ _ _ hw]⟩

/-- C90: `update` replaces whole sections: a section that is given becomes exactly the given one (settings the new section does not mention are gone, not
merged), all others stay; None changes nothing; `set_global` is a separate step, matplotlib is untouched. -/
theorem C90_update (valid : Str → V → Bool) (w : World V) (i : Nat) (c : Config) (hi : w.insts[i]? = some c) (config : Config) (hw : config.WF) :
    (step valid w (.update i none)).insts[i]? = some c ∧
    (∃ c', (step valid w (.update i (some config))).insts[i]? = some c' ∧ ∀ k, c'.get? k = (config.get? k).or (c.get? k)) ∧
    (step valid w (.update i (some config))).rc = w.rc := by
  have hlt : i < w.insts.length := by
    by_contra hn
    rw [List.getElem?_eq_none (by omega)] at hi; cases hi
  have hg : w.insts.getD i [] = c := by rw [List.getD_eq_getElem?_getD, hi]; rfl
  refine ⟨?_, ⟨PyDict.update c config, ?_, fun k => ?_⟩, rfl⟩
  · simp only [step, setInst, updateConfig, hg]; rw [List.getElem?_set_self hlt]
  · simp only [step, setInst, updateConfig, hg]; rw [List.getElem?_set_self hlt]
  · rw [PyDict.get?_update _ _ _ hw]

/-- Spec: the section `k` after style sheets are laid over `c` one after the other: the last sheet that has it. -/
def overlay (c : Config) (ds : List Config) (k : Str) : Option Ref := (ds.reverse.findSome? (fun s : Config => s.get? k)).or (c.get? k)

/-- Spec: the style sheet of a name. -/
def named (w : World V) (n : Str) : Option Config := if n = "default".toList then some w.defaults else w.sheets.get? n

theorem sheet_named (w : World V) (n : Str) : sheet w n = match named w n with | some c => .ok c | none => .error .keyError := by
  unfold sheet named
  split
  · rfl
  · cases w.sheets.get? n <;> rfl

theorem overlay_eq (c : Config) (ds : List Config) (k : Str) : overlay c ds k = (ds.reverse.findSome? (fun s : Config => s.get? k)).or (c.get? k) := rfl

theorem applySheets_ok (w : World V) (names : List Str) (ds : List Config) (h : names.map (named w) = ds.map some) (hwf : ∀ d ∈ ds, d.WF) (c : Config) :
    (applySheets w c names).1 = .ok () ∧ ∀ k, (applySheets w c names).2.get? k = overlay c ds k := by
  induction names generalizing ds c with
  | nil =>
      cases ds with
      | nil => exact ⟨rfl, fun k => rfl⟩
      | cons => simp at h
  | cons n ns ih =>
      cases ds with
      | nil => simp at h
      | cons d ds =>
          simp only [List.map_cons, List.cons.injEq] at h
          obtain ⟨g1, g2⟩ := ih ds h.2 (fun x hx => hwf x (by simp [hx])) (PyDict.update c d)
          have e : applySheets w c (n :: ns) = applySheets w (PyDict.update c d) ns := by
            rw [applySheets, sheet_named, h.1]; rfl
          rw [e]
          refine ⟨g1, fun k => ?_⟩
          rw [g2, overlay_eq, overlay_eq, PyDict.get?_update _ _ _ (hwf d (by simp)), List.reverse_cons, List.findSome?_append]
          cases List.findSome? (fun s : Config => s.get? k) ds.reverse with
          | some r => rfl
          | none => cases hd : PyDict.get? d k <;> simp [hd]

/-- C90: style sheets are laid over the configuration in the order of their names; then matplotlib is updated if asked for. -/
theorem C90_styles (valid : Str → V → Bool) (w : World V) (i : Nat) (c : Config) (hi : w.insts[i]? = some c) (names : List Str) (ds : List Config)
    (h : names.map (named w) = ds.map some) (hwf : ∀ d ∈ ds, d.WF) :
    let r := useStylesheets valid w i names false
    r.1 = .ok () ∧ r.2.rc = w.rc ∧ (∃ c', r.2.insts[i]? = some c' ∧ ∀ k, c'.get? k = overlay c ds k) ∧
    useStylesheets valid w i names true = setGlobal valid r.2 i := by
  have hlt : i < w.insts.length := by
    by_contra hn
    rw [List.getElem?_eq_none (by omega)] at hi; cases hi
  have hg : w.insts.getD i [] = c := by rw [List.getD_eq_getElem?_getD, hi]; rfl
  obtain ⟨g1, g2⟩ := applySheets_ok w names ds h hwf c
  have e : applySheets w c names = (.ok (), (applySheets w c names).2) := by rw [← g1]
  dsimp only
  have e1 : useStylesheets valid w i names false = (.ok (), setInst w i (applySheets w c names).2) := by
    unfold useStylesheets; rw [hg, e]; rfl
  have e2 : useStylesheets valid w i names true = setGlobal valid (setInst w i (applySheets w c names).2) i := by
    unfold useStylesheets; rw [hg, e]; rfl
  rw [e1, e2]
  exact ⟨rfl, rfl, ⟨_, by simp only [setInst]; rw [List.getElem?_set_self hlt], g2⟩, rfl⟩

/-- C90: an unknown name raises KeyError: the sheets named before it stay applied, those after it are not, and matplotlib is not updated. -/
theorem C90_unknown_style (valid : Str → V → Bool) (w : World V) (i : Nat) (c : Config) (hi : w.insts[i]? = some c) (names : List Str) (ds : List Config)
    (h : names.map (named w) = ds.map some) (hwf : ∀ d ∈ ds, d.WF) (bad : Str) (hbad : named w bad = none) (rest : List Str) (g : Bool) :
    let r := useStylesheets valid w i (names ++ bad :: rest) g
    r.1 = .error .keyError ∧ r.2.rc = w.rc ∧ ∃ c', r.2.insts[i]? = some c' ∧ ∀ k, c'.get? k = overlay c ds k := by
  have hlt : i < w.insts.length := by
    by_contra hn
    rw [List.getElem?_eq_none (by omega)] at hi; cases hi
  have hg : w.insts.getD i [] = c := by rw [List.getD_eq_getElem?_getD, hi]; rfl
  obtain ⟨g1, g2⟩ := applySheets_ok w names ds h hwf c
  have app : ∀ (ns : List Str) (c : Config), (applySheets w c ns).1 = .ok () → applySheets w c (ns ++ bad :: rest) = (.error .keyError, (applySheets w c ns).2) := by
    intro ns
    induction ns with
    | nil => intro c _; simp [applySheets, sheet_named, hbad]
    | cons n ns ih =>
        intro c hc
        rw [applySheets] at hc
        rw [List.cons_append, applySheets]
        rw [applySheets]
        cases hs : sheet w n with
        | error e => rw [hs] at hc; cases hc
        | ok d => rw [hs] at hc; exact ih _ hc
  dsimp only
  have e : useStylesheets valid w i (names ++ bad :: rest) g = (.error .keyError, setInst w i (applySheets w c names).2) := by
    unfold useStylesheets; rw [hg, app names c g1]
  rw [e]
  exact ⟨rfl, rfl, ⟨_, by simp only [setInst]; rw [List.getElem?_set_self hlt], g2⟩⟩

/-! ### set_global -/

/-- Spec: the assignments to matplotlib's parameters, section by section. -/
def assignments (sections : Ref → PyDict Str V) (c : Config) : List (Str × V) :=
  c.flatMap (fun kv => (sections kv.2).map (fun p => (kv.1 ++ ".".toList ++ p.1, p.2)))

/-- Spec: the last assignment to a name. -/
def lastOf (log : List (Str × V)) (n : Str) : Option V := (log.reverse.find? (fun p : Str × V => decide (p.1 = n))).map Prod.snd

/-- Assignments until one is rejected. -/
def assignAll (valid : Str → V → Bool) : List (Str × V) → PyDict Str V → PyM Unit × PyDict Str V
  | [], rc => (.ok (), rc)
  | (n, v) :: t, rc => if valid n v then assignAll valid t (rc.set n v) else (.error .keyError, rc)

theorem assignAll_append (valid : Str → V → Bool) (a b : List (Str × V)) (rc : PyDict Str V) :
    assignAll valid (a ++ b) rc = match assignAll valid a rc with | (.ok (), rc') => assignAll valid b rc' | (.error e, rc') => (.error e, rc') := by
  induction a generalizing rc with
  | nil => rfl
  | cons p a ih =>
      obtain ⟨n, v⟩ := p
      rw [List.cons_append, assignAll, assignAll]
      split
      · exact ih _
      · rfl

theorem mplRc_eq (valid : Str → V → Bool) (g : Str) (d rc : PyDict Str V) :
    mplRc valid g d rc = assignAll valid (d.map (fun p => (g ++ ".".toList ++ p.1, p.2))) rc := by
  have e : ∀ k : Str, g ++ ".".toList ++ k = g ++ '.' :: k := by intro k; simp
  induction d generalizing rc with
  | nil => rfl
  | cons p d ih =>
      obtain ⟨k, v⟩ := p
      rw [mplRc, List.map_cons, assignAll]
      dsimp only
      rw [e k]
      split
      · exact ih _
      · rfl

theorem rcAll_eq (valid : Str → V → Bool) (sections : Ref → PyDict Str V) (c : Config) (rc : PyDict Str V) :
    rcAll valid sections c rc = assignAll valid (assignments sections c) rc := by
  induction c generalizing rc with
  | nil => rfl
  | cons p c ih =>
      obtain ⟨k, d⟩ := p
      have : assignments sections ((k, d) :: c) = (sections d).map (fun p => (k ++ ".".toList ++ p.1, p.2)) ++ assignments sections c := rfl
      rw [this, assignAll_append, rcAll, mplRc_eq]
      cases h : assignAll valid ((sections d).map (fun p => (k ++ ".".toList ++ p.1, p.2))) rc with
      | mk r rc' => cases r with
          | ok u => exact ih _
          | error e => rfl

theorem assignAll_get (valid : Str → V → Bool) (l : List (Str × V)) (rc : PyDict Str V) (n : Str) :
    (assignAll valid l rc).2.get? n = (lastOf (l.takeWhile (fun p : Str × V => valid p.1 p.2)) n).or (rc.get? n) ∧
    (assignAll valid l rc).1 = (if l.all (fun p => valid p.1 p.2) then .ok () else .error .keyError) := by
  induction l generalizing rc with
  | nil => simp [assignAll, lastOf]
  | cons p l ih =>
      obtain ⟨k, v⟩ := p
      rw [assignAll]
      by_cases hv : valid k v = true
      · rw [if_pos hv, List.takeWhile_cons_of_pos (p := fun p : Str × V => valid p.1 p.2) hv]
        refine ⟨?_, by rw [(ih _).2, List.all_cons]; simp only [hv, Bool.true_and]⟩
        rw [(ih _).1, PyDict.get?_set]
        unfold lastOf
        rw [List.reverse_cons, List.find?_append]
        cases List.find? (fun p : Str × V => decide (p.1 = n)) (List.takeWhile (fun p : Str × V => valid p.1 p.2) l).reverse with
        | some q => rfl
        | none =>
            by_cases hn : n = k
            · subst hn; simp
            · have : ¬ (k = n) := fun e => hn e.symm
              simp [hn, this]
      · rw [if_neg hv, List.takeWhile_cons_of_neg (p := fun p : Str × V => valid p.1 p.2) (by simpa using hv)]
        simp [lastOf, hv]

/-- C90: `set_global` assigns every setting of every section of this instance, in order; a parameter addressed twice (e.g. "figure" with "subplot.wspace"
and "figure.subplot" with "wspace") has the later value, a parameter not mentioned keeps what it was, and no configuration changes.  A setting that
matplotlib rejects raises KeyError after the earlier ones took effect. -/
theorem C90_set_global (valid : Str → V → Bool) (w : World V) (i : Nat) (c : Config) (hi : w.insts[i]? = some c) :
    (∀ n, (setGlobal valid w i).2.rc.get? n = (lastOf ((assignments w.sections c).takeWhile (fun p : Str × V => valid p.1 p.2)) n).or (w.rc.get? n)) ∧
    (setGlobal valid w i).1 = (if (assignments w.sections c).all (fun p => valid p.1 p.2) then .ok () else .error .keyError) ∧
    (setGlobal valid w i).2.insts = w.insts := by
  have hg : w.insts.getD i [] = c := by rw [List.getD_eq_getElem?_getD, hi]; rfl
  have e : setGlobal valid w i = ((assignAll valid (assignments w.sections c) w.rc).1, { w with rc := (assignAll valid (assignments w.sections c) w.rc).2 }) := by
    unfold setGlobal; rw [hg, rcAll_eq]
  rw [e]
  exact ⟨fun n => (assignAll_get valid _ _ n).1, (assignAll_get valid _ _ []).2, rfl⟩

/-! ### Sharing of sections -/

/-- C90 (hazard): a section of an instance is the very object of the class defaults, unless it was replaced: editing it in place (as in
`config.config_dict['axes']['grid'] = False`) changes the defaults, hence every other instance, existing or created later. -/
theorem C90_shared_sections (w : World V) (s : Str) (r : Ref) (h : w.defaults.get? s = some r) (k : Str) (v : V) :
    ∃ c, (create w none).insts.getLast? = some c ∧ c.get? s = some r ∧
    let w' := editSection (create w none) r k v
    w'.defaults.get? s = some r ∧ (w'.sections r).get? k = some v ∧ (create w' none).insts.getLast? = some w'.defaults := by
  refine ⟨w.defaults, by simp [create, updateConfig], h, ?_⟩
  refine ⟨h, ?_, by simp [create, updateConfig]⟩
  simp [editSection, create, PyDict.get?_set_self]

/-! ### The shipped style sheets -/

theorem shipped_wf (rc : PyDict Str PV) : (shipped rc).defaults.WF ∧ ∀ c ∈ (shipped rc).sheets, c.2.WF := by
  constructor
  · show (number 0 shippedSections).WF
    unfold PyDict.WF; decide
  · intro c hc
    simp only [shipped, List.mem_singleton] at hc
    subst hc; unfold PyDict.WF; decide

/-- C90: the style sheet 'mathtext-it', on an instance with the shipped defaults: the section "mathtext" has only the setting `default = 'it'`; the setting
`fontset` of the defaults is no longer part of the configuration, so `set_global` leaves matplotlib's "mathtext.fontset" as it is. -/
theorem C90_mathtext_it (valid : Str → PV → Bool) (rc : PyDict Str PV) :
    let w := (useStylesheets valid (create (shipped rc) none) 0 ["mathtext-it".toList] true).2
    (∃ c, w.insts[0]? = some c ∧ c.get? "mathtext".toList = some 16) ∧ w.sections 16 = [("default".toList, .str "it".toList)] ∧
    w.rc.get? "mathtext.fontset".toList = rc.get? "mathtext.fontset".toList := by
  have hs := C90_styles valid (create (shipped rc) none) 0 (shipped rc).defaults rfl ["mathtext-it".toList] [[("mathtext".toList, 16)]] rfl
    (by intro d hd; simp only [List.mem_singleton] at hd; subst hd; unfold PyDict.WF; decide)
  obtain ⟨-, h2, ⟨c', h3, h4⟩, h5⟩ := hs
  dsimp only
  rw [h5]
  have h6 := C90_set_global valid (useStylesheets valid (create (shipped rc) none) 0 ["mathtext-it".toList] false).2 0 c' h3
  refine ⟨⟨c', by rw [h6.2.2]; exact h3, by rw [h4]; rfl⟩, rfl, ?_⟩
  rw [h6.1]
  have hc' : c' = PyDict.set (shipped rc).defaults "mathtext".toList 16 := by
    have e : (useStylesheets valid (create (shipped rc) none) 0 ["mathtext-it".toList] false).2.insts[0]? =
      some (PyDict.set (shipped rc).defaults "mathtext".toList 16) := rfl
    rw [e] at h3; exact (Option.some.inj h3).symm
  have hnone : ∀ p ∈ assignments (shipped rc).sections c', p.1 ≠ "mathtext.fontset".toList := by
    rw [hc']
    have e : (assignments (shipped rc).sections (PyDict.set (shipped rc).defaults "mathtext".toList 16)).map Prod.fst =
      (assignments (shipped []).sections (PyDict.set (shipped []).defaults "mathtext".toList 16)).map Prod.fst := rfl
    have d : ∀ n ∈ (assignments (shipped []).sections (PyDict.set (shipped []).defaults "mathtext".toList 16)).map Prod.fst, n ≠ "mathtext.fontset".toList := by decide +kernel
    intro p hp
    exact d p.1 (by rw [← e]; exact List.mem_map_of_mem hp)
  have : lastOf ((assignments (shipped rc).sections c').takeWhile (fun p : Str × PV => valid p.1 p.2)) "mathtext.fontset".toList = none := by
    unfold lastOf
    rw [Option.map_eq_none_iff, List.find?_eq_none]
    intro p hp
    have := hnone p (List.takeWhile_subset _ (List.mem_reverse.mp hp))
    simp only [decide_eq_true_eq]
    exact this
  show (lastOf ((assignments (shipped rc).sections c').takeWhile _) _).or _ = _
  rw [this, h2]; rfl

/-- The colour (0, 0, 0, 0.8) of frames and ticks. -/
def darkFrame : PV := .seq [.num 0, .num 0, .num 0, .num (4 / 5)]

/-- What the documentation of the defaults promises: matplotlib parameter names and values. -/
def promised : List (String × PV) := [
  ("font.family", .str "serif".toList), ("font.weight", .str "normal".toList), ("font.size", .num 15),
  ("mathtext.fontset", .str "cm".toList), ("mathtext.default", .str "rm".toList),
  ("figure.dpi", .num 96), ("figure.figsize", .seq [.num 6, .num 6]), ("figure.subplot.wspace", .num (1 / 4)), ("figure.subplot.hspace", .num (1 / 4)),
  ("axes.labelsize", .num 16), ("axes.labelweight", .str "normal".toList), ("axes.linewidth", .num 1), ("axes.edgecolor", darkFrame), ("axes.grid", .bool true),
  ("xtick.color", darkFrame), ("xtick.labelsize", .num 13), ("xtick.direction", .str "in".toList), ("xtick.top", .bool true),
  ("xtick.major.width", .num (9 / 5)), ("xtick.major.size", .num 9), ("xtick.minor.width", .num 1), ("xtick.minor.size", .num 4), ("xtick.minor.visible", .bool true),
  ("ytick.color", darkFrame), ("ytick.labelsize", .num 13), ("ytick.direction", .str "in".toList), ("ytick.right", .bool true),
  ("ytick.major.width", .num (9 / 5)), ("ytick.major.size", .num 9), ("ytick.minor.width", .num 1), ("ytick.minor.size", .num 4), ("ytick.minor.visible", .bool true),
  ("grid.color", .str "gray".toList), ("grid.alpha", .num (1 / 2)), ("grid.linestyle", .seq [.num 0, .seq [.num (8 / 5), .num (8 / 5)]]), ("grid.linewidth", .num (4 / 5)),
  ("patch.edgecolor", darkFrame), ("lines.linewidth", .num (5 / 2)), ("errorbar.capsize", .num 4),
  ("legend.numpoints", .num 2), ("legend.scatterpoints", .num 3), ("legend.markerscale", .num 1), ("legend.fontsize", .num 15), ("legend.title_fontsize", .num 16),
  ("legend.loc", .str "best".toList), ("legend.handlelength", .num 2), ("legend.handleheight", .num (1 / 2)), ("legend.labelspacing", .num (1 / 10)),
  ("legend.handletextpad", .num (1 / 2)), ("legend.borderpad", .num (1 / 4)), ("legend.borderaxespad", .num (1 / 2)), ("legend.columnspacing", .num 1),
  ("legend.shadow", .bool false), ("legend.labelcolor", .none), ("legend.frameon", .bool false), ("legend.framealpha", .num (4 / 5))]

theorem shipped_assignments (rc : PyDict Str PV) :
    assignments (shipped rc).sections (shipped rc).defaults = promised.map (fun p => (p.1.toList, p.2)) := rfl

/-- C90: after `RuntimeConfig().set_global()` on a matplotlib that accepts the settings, every promised parameter has the promised value and every other
parameter is as before. -/
theorem C90_shipped (rc : PyDict Str PV) :
    let r := setGlobal (fun _ _ => true) (create (shipped rc) none) 0
    r.1 = .ok () ∧ (∀ p ∈ promised, r.2.rc.get? p.1.toList = some p.2) ∧
    ∀ n : String, n ∉ promised.map Prod.fst → r.2.rc.get? n.toList = rc.get? n.toList := by
  have h := C90_set_global (fun _ _ => true) (create (shipped rc) none) 0 (shipped rc).defaults rfl
  have hs : assignments (create (shipped rc) none).sections (shipped rc).defaults = promised.map (fun p => (p.1.toList, p.2)) := shipped_assignments rc
  rw [hs] at h
  have ht : ∀ l : List (Str × PV), l.takeWhile (fun _ : Str × PV => true) = l := by
    intro l; induction l <;> simp_all
  refine ⟨by rw [h.2.1]; simp, ?_, ?_⟩
  · intro p hp
    rw [h.1, ht]
    have : ∀ p ∈ promised, lastOf (promised.map (fun p => (p.1.toList, p.2))) p.1.toList = some p.2 := by
      unfold promised
      simp only [List.forall_mem_cons]
      repeat' constructor
      all_goals first | rfl | (intro p hp; cases hp)
    rw [this p hp]; rfl
  · intro n hn
    rw [h.1, ht]
    have : lastOf (promised.map (fun p => (p.1.toList, p.2))) n.toList = none := by
      unfold lastOf
      rw [Option.map_eq_none_iff, List.find?_eq_none]
      intro q hq
      obtain ⟨q', hq', rfl⟩ := List.mem_map.mp (List.mem_reverse.mp hq)
      simp only [decide_eq_true_eq]
      intro e
      apply hn
      rw [← String.toList_injective e]
      exact List.mem_map_of_mem hq'
    rw [this]; rfl

/-- C90: with the shipped defaults, `set_global` on an accepting matplotlib sets, for example, "axes.grid" to True and "figure.subplot.wspace" to 0.25. -/
example (rc : PyDict Str PV) :
    (setGlobal (fun _ _ => true) (create (shipped rc) none) 0).2.rc.get? "axes.grid".toList = some (.bool true) ∧
    (setGlobal (fun _ _ => true) (create (shipped rc) none) 0).1 = .ok () := by
  have h := C90_set_global (fun _ _ => true) (create (shipped rc) none) 0 (shipped rc).defaults rfl
  refine ⟨by rw [h.1]; rfl, by rw [h.2.1]; rfl⟩

end Pyhipp.RuntimeConfig
