import Verif.Model.H5File
/-
Model of src/pyhipp/io/h5/abc.py: objects that are stored as groups.

A class is its `h5_data_typedict`; an object is its class and its attributes.  The constructor `cls(**kw)` is modelled as
storing each keyword argument as an attribute (what a dataclass does).  Keys of a typedict are unique (it is a dict) and
contain no slash (they are attribute names).  Plain data are arrays, scalars, bytes, or mappings from names to plain data.
-/
namespace Pyhipp.H5
open Pyhipp

variable {DT E : Type}

/-- A type in `h5_data_typedict`: str, a type without `_from_h5_data` (arrays, dicts, numbers), DataTable, or a GroupLike class. -/
inductive Tp where
  | str
  | plain
  | table
  | cls (typedict : List (Str × Tp))

/-- A Python object: a str, plain data (in the form in which h5 loads them), a DataTable with its columns (a column that is not a
plain array is an object array that holds a mapping), or an instance of a GroupLike class. -/
inductive Obj (DT E : Type) where
  | str (s : Str)
  | plain (v : LVal DT E)
  | table (cols : List (Str × LVal DT E))
  | inst (typedict : List (Str × Tp)) (attrs : List (Str × Obj DT E))

mutual
/-- Plain data as the argument of `Group.dump`. -/
def LVal.toVal : LVal DT E → Val DT E
  | .dat d => .leaf (.dat d)
  | .map kvs => .map (LVal.toVals kvs)
/-- the same for the entries of a mapping -/
def LVal.toVals : List (Str × LVal DT E) → List (KeyObj × Val DT E)
  | [] => []
  | (k, v) :: rest => (.str k, v.toVal) :: LVal.toVals rest
end

/-- One item of abc.py:12-15, given what `to_h5_data` returns for each attribute: AttributeError if there is no such attribute. -/
def fieldItem (ds : List (Str × PyM (Val DT E))) (k : Str) : PyM (KeyObj × Val DT E) :=
  match PyDict.get? ds k with
  | some (.ok v) => .ok (.str k, v)
  | some (.error e) => .error e
  | none => .error .attributeError

/-- core/containers/data_table.py:167-168 `DataTable._to_h5_data`: the columns.  An object array cannot be stored: h5py raises TypeError when the
column is written (here: before anything is written). -/
def tableItems (cols : List (Str × LVal DT E)) : PyM (List (KeyObj × Val DT E)) :=
  cols.mapM fun p => match p.2 with
    | .dat d => .ok (.str p.1, .leaf (.dat d))
    | .map _ => .error .typeError

/-- core/containers/data_table.py:170-176 `DataTable._from_h5_data` (with 46-56 `__init__`): the loaded mapping gives the columns; anything else
fails the assertion. -/
def tableOf : LVal DT E → PyM (Obj DT E)
  | .dat _ => .error .assertionError
  | .map data => .ok (.table data)

mutual
/-- io/h5/abc.py:44-51 `to_h5_data`, with 11-15 `_to_h5_data` for instances. -/
def toH5Data : Obj DT E → PyM (Val DT E)
  | .str s => .ok (.leaf (.str s))
  | .plain v => .ok v.toVal
  | .table cols => do
      let items ← tableItems cols
      return .map items
  | .inst typedict attrs => do
      let items ← (typedict.map (·.1)).mapM (fieldItem (attrData attrs))
      return .map items
/-- what `to_h5_data(getattr(self, k))` gives for each attribute (evaluated for the keys of the typedict only) -/
def attrData : List (Str × Obj DT E) → List (Str × PyM (Val DT E))
  | [] => []
  | (k, o) :: rest => (k, toH5Data o) :: attrData rest
end

mutual
/-- io/h5/abc.py:53-63 `from_h5_data` (`init_kw` empty) and, for a class, 17-23 `_from_h5_data`.  `decode` is
`data.decode()` for loaded data. -/
def fromH5Data (decode : Dset DT E → PyM Str) : Tp → LVal DT E → PyM (Obj DT E)
  | .str, .dat d => do
      let s ← decode d
      return .str s
  | .str, .map _ => .error .attributeError
  | .plain, v => .ok (.plain v)
  | .table, v => tableOf v
  | .cls _, .dat _ => .error .attributeError
  | .cls typedict, .map data => do
      let kw ← fromFields decode typedict data
      return .inst typedict kw
/-- the comprehension of abc.py:19-22: `data.pop(k)` for each field, in order -/
def fromFields (decode : Dset DT E → PyM Str) : List (Str × Tp) → List (Str × LVal DT E) → PyM (List (Str × Obj DT E))
  | [], _ => .ok []
  | (k, t) :: rest, data => match PyDict.get? data k with
      | none => .error .keyError
      | some v => do
          let o ← fromH5Data decode t v
          let os ← fromFields decode rest (PyDict.del data k)
          return (k, o) :: os
end

/-- io/h5/abc.py:25-27 `to_h5_group`. -/
def toH5Group (env : Env DT E) (obj : Obj DT E) (flag : String) (n : Node DT E) : PyM Unit × Node DT E :=
  match toH5Data obj with
  | .error e => (.error e, n)
  | .ok v => dump env flag v n

/-- io/h5/abc.py:33-36 `from_h5_group` with 17-23 (`|` is `update`); only groups have `load`. -/
def fromH5Group (decode : Dset DT E → PyM Str) (typedict : List (Str × Tp)) (initKw : List (Str × Obj DT E)) : Node DT E → PyM (Obj DT E)
  | .dset _ _ => .error .attributeError
  | .grp ch _ => do
      let kw ← fromFields decode typedict (sortNames (loadItems ch))
      return .inst typedict (PyDict.update kw initKw)

/-- io/h5/abc.py:29-31 `to_h5_file`. -/
def toH5File (env : Env DT E) (fs : FS DT E) (obj : Obj DT E) (path group : Str) (fFlag flag : String) : PyM Unit × FS DT E :=
  withFile env fs path fFlag (fun env root => match lookup root (pathOf group) with
    | none => (.error .keyError, root)
    | some (.dset _ _) => (.error .attributeError, root)
    | some (.grp _ _) => modifyAt (toH5Group env obj flag) root (pathOf group))

/-- io/h5/abc.py:38-42 `from_h5_file`. -/
def fromH5File (env : Env DT E) (decode : Dset DT E → PyM Str) (fs : FS DT E) (typedict : List (Str × Tp)) (path group : Str)
    (initKw : List (Str × Obj DT E)) : PyM (Obj DT E) × FS DT E :=
  withFile env fs path "r" (fun _ root => match lookup root (pathOf group) with
    | none => (.error .keyError, root)
    | some g => (fromH5Group decode typedict initKw g, root))

end Pyhipp.H5
