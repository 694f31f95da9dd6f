import Verif.Base.Py
import Verif.Base.Dict
import Verif.Base.Str
/-
Model of src/pyhipp/io/yaml.py: ConfigFileParser.

Simplifications: the keys of YAML mappings are text and contain no '/' (so the resulting DataDict is a plain dictionary);
logging is left out.
-/
namespace Pyhipp.Yaml
open Pyhipp

/-- A value loaded from YAML: number, boolean, date or None; text; sequence; mapping. -/
inductive Y (A : Type) where
  | atom (a : A)
  | str (s : Str)
  | seq (l : List (Y A))
  | map (es : List (Str × Y A))

variable {A : Type}

/-- Is this value the text `k`?  (`==` with a `str`) -/
def isText (k : Str) : Y A → Bool
  | .str s => s == k
  | _ => false

/-- `k in s` for text: some suffix of `s` starts with `k`. -/
def subText (k : Str) : Str → Bool
  | [] => k.isEmpty
  | c :: t => k.isPrefixOf (c :: t) || subText k t

/-- `k in data`. -/
def contains (k : Str) : Y A → PyM Bool
  | .atom _ => .error .typeError
  | .str s => .ok (subText k s)
  | .seq l => .ok (l.any (isText k))
  | .map es => .ok (PyDict.has es k)

/-- `data[k]`. -/
def item (data : Y A) (k : Str) : PyM (Y A) := match data with
  | .map es => match PyDict.get? es k with
      | some v => .ok v
      | none => .error .keyError
  | _ => .error .typeError

/-- io/yaml.py:41-44 `__try_parse`. -/
def tryParse (data : Y A) : List Str → PyDict Str (Y A) → PyM (PyDict Str (Y A))
  | [], d => .ok d
  | k :: ks, d => do
      let c ← contains k data
      if c then do
        let v ← item data k
        tryParse data ks (d.set k v)
      else tryParse data ks d

/-- io/yaml.py:22-23: the loop over the init nodes. -/
def descend (data : Y A) : List Str → PyM (Y A)
  | [] => .ok data
  | k :: ks => do
      let v ← item data k
      descend v ks

/-- io/yaml.py:28-30: the loop over the nested nodes. -/
def nested (keys : List Str) (data : Y A) : List Str → PyDict Str (Y A) → PyM (PyDict Str (Y A))
  | [], d => .ok d
  | k :: ks, d => do
      let v ← item data k
      let d' ← tryParse v keys d
      nested keys v ks d'

/-- io/yaml.py:17-39 `get`, on the contents of the file. -/
def get (file : PyM (Y A)) (initNodes nestedNodes keys : List Str) : PyM (PyDict Str (Y A)) := do
  let data ← file
  let data ← descend data initNodes
  let d ← tryParse data keys []
  let d ← nested keys data nestedNodes d
  if keys.all (fun k => d.has k) then return d else .error .keyError

end Pyhipp.Yaml
