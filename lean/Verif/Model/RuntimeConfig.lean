import Verif.Model.Plot
/-
Model of src/pyhipp/plot/runtime_config.py.

The sections (inner dictionaries) are objects: they are shared between the class defaults, instances and the dictionaries passed by users.
The outer dictionaries are never shared: `copy()` and `dict.update` copy their entries.  matplotlib's global parameters are one dictionary
with names "group.name"; which assignments it accepts is a parameter (`valid`), a rejected one raises KeyError.
-/
namespace Pyhipp.RuntimeConfig
open Pyhipp Pyhipp.Plot

local notation "Ref" => Nat

variable {V : Type}

/-- A configuration dictionary: section names to section objects. -/
abbrev Config := PyDict Str Ref

/-- The objects of the program: the contents of the sections, the class defaults (runtime_config.py:10-80), the style sheets other than 'default'
(runtime_config.py:82-89; 'default' is the defaults object itself), the instances and matplotlib's parameters. -/
structure World (V : Type) where
  sections : Ref → PyDict Str V
  defaults : Config
  sheets : PyDict Str Config
  insts : List Config
  rc : PyDict Str V

/-- runtime_config.py:95-110 `update`: `self.config_dict.update(config_dict)`. -/
def updateConfig (c : Config) : Option Config → Config
  | none => c
  | some d => PyDict.update c d

/-- runtime_config.py:91-93 `__init__`: a copy of the defaults, updated. -/
def create (w : World V) (config : Option Config) : World V := { w with insts := w.insts ++ [updateConfig w.defaults config] }

/-- Replace an instance's dictionary. -/
def setInst (w : World V) (i : Nat) (c : Config) : World V := { w with insts := w.insts.set i c }

/-- `mpl.rc(group, **detail)`: assignments in order until one is rejected. -/
def mplRc (valid : Str → V → Bool) (group : Str) : PyDict Str V → PyDict Str V → PyM Unit × PyDict Str V
  | [], rc => (.ok (), rc)
  | (k, v) :: rest, rc =>
      let name := group ++ '.' :: k
      if valid name v then mplRc valid group rest (rc.set name v) else (.error .keyError, rc)

/-- runtime_config.py:113-114: the loop of `set_global`. -/
def rcAll (valid : Str → V → Bool) (sections : Ref → PyDict Str V) : Config → PyDict Str V → PyM Unit × PyDict Str V
  | [], rc => (.ok (), rc)
  | (k, detail) :: rest, rc => match mplRc valid k (sections detail) rc with
      | (.ok (), rc') => rcAll valid sections rest rc'
      | (.error e, rc') => (.error e, rc')

/-- runtime_config.py:112-115 `set_global` of instance `i`. -/
def setGlobal (valid : Str → V → Bool) (w : World V) (i : Nat) : PyM Unit × World V :=
  match rcAll valid w.sections (w.insts.getD i []) w.rc with
  | (r, rc') => (r, { w with rc := rc' })

/-- `RuntimeConfig.stylesheets[name]` -/
def sheet (w : World V) (name : Str) : PyM Config :=
  if name = "default".toList then .ok w.defaults
  else match w.sheets.get? name with
    | some c => .ok c
    | none => .error .keyError

/-- runtime_config.py:122-123: the loop of `use_stylesheets`. -/
def applySheets (w : World V) (c : Config) : List Str → PyM Unit × Config
  | [] => (.ok (), c)
  | n :: ns => match sheet w n with
      | .ok d => applySheets w (updateConfig c (some d)) ns
      | .error e => (.error e, c)

/-- runtime_config.py:117-126 `use_stylesheets`. -/
def useStylesheets (valid : Str → V → Bool) (w : World V) (i : Nat) (names : List Str) (set_global : Bool) : PyM Unit × World V :=
  match applySheets w (w.insts.getD i []) names with
  | (.error e, c) => (.error e, setInst w i c)
  | (.ok (), c) => if set_global then setGlobal valid (setInst w i c) i else (.ok (), setInst w i c)

/-- Something the program does with configurations. -/
inductive Op where
  | create (config : Option Config)
  | update (i : Nat) (config : Option Config)
  | setGlobal (i : Nat)
  | style (i : Nat) (names : List Str) (set_global : Bool)

/-- One operation on an existing instance (or a creation); its exception is caught by the caller. -/
def step (valid : Str → V → Bool) (w : World V) : Op → World V
  | .create c => create w c
  | .update i c => setInst w i (updateConfig (w.insts.getD i []) c)
  | .setGlobal i => (setGlobal valid w i).2
  | .style i names g => (useStylesheets valid w i names g).2

/-- A history. -/
def run (valid : Str → V → Bool) (w : World V) (ops : List Op) : World V := ops.foldl (step valid) w

/-- `rc.config_dict[section][k] = v`: an edit of a section object by a user. -/
def editSection (w : World V) (r : Ref) (k : Str) (v : V) : World V :=
  { w with sections := fun x => if x = r then (w.sections r).set k v else w.sections x }

/-! ### The shipped defaults -/

/-- runtime_config.py:9 -/
def frameColor : PV := .seq [.num 0, .num 0, .num 0, .num (4 / 5)]

/-- runtime_config.py:10-80: the sections of the defaults, in order (the key written twice under 'axes' counts once). -/
def shippedSections : List (Str × PyDict Str PV) := [
  ("font".toList, [("family".toList, .str "serif".toList), ("weight".toList, .str "normal".toList), ("size".toList, .num 15)]),
  ("mathtext".toList, [("fontset".toList, .str "cm".toList), ("default".toList, .str "rm".toList)]),
  ("figure".toList, [("dpi".toList, .num 96), ("figsize".toList, .seq [.num 6, .num 6])]),
  ("figure.subplot".toList, [("wspace".toList, .num (1 / 4)), ("hspace".toList, .num (1 / 4))]),
  ("axes".toList, [("labelsize".toList, .num 16), ("labelweight".toList, .str "normal".toList), ("linewidth".toList, .num 1), ("edgecolor".toList, frameColor),
    ("grid".toList, .bool true)]),
  ("xtick".toList, [("color".toList, frameColor), ("labelsize".toList, .num 13), ("direction".toList, .str "in".toList), ("top".toList, .bool true)]),
  ("xtick.major".toList, [("width".toList, .num (9 / 5)), ("size".toList, .num 9)]),
  ("xtick.minor".toList, [("width".toList, .num 1), ("size".toList, .num 4), ("visible".toList, .bool true)]),
  ("ytick".toList, [("color".toList, frameColor), ("labelsize".toList, .num 13), ("direction".toList, .str "in".toList), ("right".toList, .bool true)]),
  ("ytick.major".toList, [("width".toList, .num (9 / 5)), ("size".toList, .num 9)]),
  ("ytick.minor".toList, [("width".toList, .num 1), ("size".toList, .num 4), ("visible".toList, .bool true)]),
  ("grid".toList, [("color".toList, .str "gray".toList), ("alpha".toList, .num (1 / 2)), ("linestyle".toList, .seq [.num 0, .seq [.num (8 / 5), .num (8 / 5)]]),
    ("linewidth".toList, .num (4 / 5))]),
  ("patch".toList, [("edgecolor".toList, frameColor)]),
  ("lines".toList, [("linewidth".toList, .num (5 / 2))]),
  ("errorbar".toList, [("capsize".toList, .num 4)]),
  ("legend".toList, [("numpoints".toList, .num 2), ("scatterpoints".toList, .num 3), ("markerscale".toList, .num 1), ("fontsize".toList, .num 15),
    ("title_fontsize".toList, .num 16), ("loc".toList, .str "best".toList), ("handlelength".toList, .num 2), ("handleheight".toList, .num (1 / 2)),
    ("labelspacing".toList, .num (1 / 10)), ("handletextpad".toList, .num (1 / 2)), ("borderpad".toList, .num (1 / 4)), ("borderaxespad".toList, .num (1 / 2)),
    ("columnspacing".toList, .num 1), ("shadow".toList, .bool false), ("labelcolor".toList, .none), ("frameon".toList, .bool false), ("framealpha".toList, .num (4 / 5))])]

/-- Numbering of the section objects. -/
def number : Nat → List (Str × PyDict Str PV) → Config
  | _, [] => []
  | n, (k, _) :: t => (k, n) :: number (n + 1) t

/-- The class as it is after import, for given matplotlib parameters: the sections of the defaults are the objects 0, 1, ...; object 16 is the section of
the style sheet 'mathtext-it' (runtime_config.py:84-88). -/
def shipped (rc : PyDict Str PV) : World PV where
  sections r := if r = 16 then [("default".toList, .str "it".toList)] else ((shippedSections[r]?).map Prod.snd).getD []
  defaults := number 0 shippedSections
  sheets := [("mathtext-it".toList, [("mathtext".toList, 16)])]
  insts := []
  rc := rc

end Pyhipp.RuntimeConfig
