import Verif.Base.Py
import Verif.Base.Dict
import Verif.Base.Str
/-
Model of src/pyhipp/io/excel/__init__.py.

A workbook is the ordered mapping of sheet names to tables; pandas' reading and writing of the cells of one table is taken as
exact.  Writing a sheet of an existing name replaces it (pandas writes over the cells of the existing sheet; for tables of one
shape the result is the same).  Which sheet names the Excel engine accepts is a parameter.
-/
namespace Pyhipp.Excel
open Pyhipp

/-- What `dump_file` takes: a DataFrame or a dict of such values. -/
inductive Tree (D : Type) where
  | df (d : D)
  | dict (es : List (Str × Tree D))

variable {D : Type}

/-- The sheets written so far. -/
abbrev Book (D : Type) := PyDict Str D

/-- `d.to_excel(writer, sheet_name=...)`: the engine rejects names it does not accept. -/
def toExcel (accepts : Str → Bool) (w : Book D) (name : Str) (d : D) : PyM (Book D) :=
  if accepts name then .ok (w.set name d) else .error .valueError

/-- excel/__init__.py:69: `sheet_prefix + '.' + k if len(sheet_prefix) > 0 else k`. -/
def sheetName (pre k : Str) : Str := if pre.length > 0 then pre ++ '.' :: k else k

mutual
/-- excel/__init__.py:64-70 `dump_file` with a writer. -/
def dumpTree (accepts : Str → Bool) (pre : Str) : Tree D → Book D → PyM (Book D)
  | .df d, w => toExcel accepts w pre d
  | .dict es, w => dumpItems accepts pre es w
/-- excel/__init__.py:68-70: the loop over the items. -/
def dumpItems (accepts : Str → Bool) (pre : Str) : List (Str × Tree D) → Book D → PyM (Book D)
  | [], w => .ok w
  | (k, v) :: es, w => match dumpTree accepts (sheetName pre k) v w with
      | .ok w' => dumpItems accepts pre es w'
      | .error e => .error e
end

/-- excel/__init__.py:59-63: with a file name; a workbook without sheets cannot be saved (openpyxl: IndexError). -/
def dumpFile (accepts : Str → Bool) (pre : Str) (t : Tree D) : PyM (Book D) :=
  match dumpTree accepts pre t [] with
  | .error e => .error e
  | .ok [] => .error .indexError
  | .ok (s :: ss) => .ok (s :: ss)

/-- excel/__init__.py:93-97: the walk for one sheet; a DataFrame met on the way is not a dict: it has no `setdefault`, and assigning to it
sets a column (`setCol`, pandas). -/
def insertAt (setCol : D → Str → D → PyM D) : List Str → Str → D → List (Str × Tree D) → PyM (List (Str × Tree D))
  | [], last, v, es => .ok (PyDict.set es last (.df v))
  | k :: ks, last, v, es => match PyDict.get? es k with
      | none => match insertAt setCol ks last v [] with
          | .ok sub => .ok (PyDict.set es k (.dict sub))
          | .error e => .error e
      | some (.dict sub) => match insertAt setCol ks last v sub with
          | .ok sub' => .ok (PyDict.set es k (.dict sub'))
          | .error e => .error e
      | some (.df d) => match ks with
          | [] => match setCol d last v with
              | .ok d' => .ok (PyDict.set es k (.df d'))
              | .error e => .error e
          | _ :: _ => .error .attributeError

/-- excel/__init__.py:85-98 `__reorder_input`. -/
def reorder (setCol : D → Str → D → PyM D) : List (Str × D) → List (Str × Tree D) → PyM (List (Str × Tree D))
  | [], out => .ok out
  | (key, val) :: rest, out =>
      if '.' ∉ key then reorder setCol rest (PyDict.set out key (.df val))
      else
        let keys := Str.split '.' key
        match insertAt setCol keys.dropLast (keys.getLast?.getD []) val out with
        | .ok out' => reorder setCol rest out'
        | .error e => .error e

/-- excel/__init__.py:72-82 `load_file`; `to_dict(orient='series', index=False)` is a ValueError of pandas for every table. -/
def loadFile (setCol : D → Str → D → PyM D) (book : Book D) (asDatatables doReorder : Bool) : PyM (List (Str × Tree D)) :=
  if asDatatables && !book.isEmpty then .error .valueError
  else if doReorder then reorder setCol book []
  else .ok (book.map (fun kv => (kv.1, .df kv.2)))

end Pyhipp.Excel
