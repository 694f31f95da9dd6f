import Verif.Model.H5File
/-
Model of src/pyhipp/io/h5/shortcuts.py `txt_to_h5`: write the columns of a text table as datasets.

`np.loadtxt(f_in, dtype=dtype)` is external: its outcome (a table or an error) is an argument.  Assumed of it: for a dtype with
fields it gives one record per line, an array of shape (n,), squeezed to shape () when there is exactly one record; for a dtype
without fields `dtype.names` is None.
-/
namespace Pyhipp.H5
open Pyhipp

variable {DT E : Type}

/-- What `np.loadtxt` returns: the fields of its dtype in order (None for a plain dtype) and the records. -/
structure Table (DT E : Type) where
  fields : Option (List (Str × DT))
  rows : List (List E)

/-- `dsets[k]` for the field number `i`: the values of this field of all records; 0-dimensional for exactly one record. -/
def Table.column (env : Env DT E) (t : Table DT E) (i : Nat) (dt : DT) : Dset DT E :=
  ⟨dt, if t.rows.length = 1 then [] else [t.rows.length], t.rows.map (fun r => (r[i]?).getD (env.zero dt))⟩

/-- The pairs `(k, dsets[k])` for `k in dsets.dtype.names`. -/
def Table.columns (env : Env DT E) (t : Table DT E) : List (Str × DT) → Nat → List (Str × Leaf DT E)
  | [], _ => []
  | (k, dt) :: rest, i => (k, .dat (t.column env i dt)) :: t.columns env rest (i + 1)

/-- io/h5/shortcuts.py:21-24: the call on a group; `table` is the outcome of `np.loadtxt`. -/
def txtToGroup (env : Env DT E) (table : PyM (Table DT E)) (dFlag : String) (n : Node DT E) : PyM Unit × Node DT E :=
  match table with
  | .error e => (.error e, n)
  | .ok t => match t.fields with
      | none => (.error .typeError, n)
      | some fs => dsDump env dFlag (t.columns env fs 0) n

/-- io/h5/shortcuts.py:17-20: the call on a file name.  The inner call does not pass `d_flag` on: the default 'ac' is used. -/
def txtToFile (env : Env DT E) (fs : FS DT E) (table : PyM (Table DT E)) (path : Str) (_dFlag fFlag : String) : PyM Unit × FS DT E :=
  withFile env fs path fFlag (fun env root => txtToGroup env table "ac" root)

/-- The argument `f_out`. -/
inductive TxtOut (DT E : Type) where
  | path (p : Str)
  | group (n : Node DT E)
  | other

/-- io/h5/shortcuts.py:9-24 `txt_to_h5`: the outcome, the file system, and the group if one was given. -/
def txtToH5 (env : Env DT E) (fs : FS DT E) (table : PyM (Table DT E)) (dFlag fFlag : String) : TxtOut DT E → PyM Unit × FS DT E × TxtOut DT E
  | .path p => let (r, fs') := txtToFile env fs table p dFlag fFlag; (r, fs', .path p)
  | .group n => let (r, n') := txtToGroup env table dFlag n; (r, fs, .group n')
  | .other => (.error .assertionError, fs, .other)

end Pyhipp.H5
