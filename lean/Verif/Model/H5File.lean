import Verif.Model.H5
/-
Model of src/pyhipp/io/h5/named_objs.py:479-640 `File`: opening files, `dump_to`, `load_from`.

The file system maps a path to what is there.  What is assumed of h5py: mode 'r' and 'r+' need an existing HDF5 file, 'x' a
free path, 'a' opens or creates, 'w' creates or truncates; only 'r' is read-only; what was written before an exception
stays in the file.  Buffering, locking and crashes of the process are not modelled.
-/
namespace Pyhipp.H5
open Pyhipp

variable {DT E : Type}

/-- What a path refers to: an HDF5 file or something else (a directory, another format). -/
inductive FileEntry (DT E : Type) where
  | hdf (root : Node DT E)
  | junk

/-- The file system. -/
abbrev FS (DT E : Type) := Str → Option (FileEntry DT E)

/-- Change the entry of one path. -/
def FS.put (fs : FS DT E) (path : Str) (root : Node DT E) : FS DT E := fun q => if q = path then some (.hdf root) else fs q

/-- The modes of h5py.File. -/
inductive RawMode where
  | r | rw | x | a | w
  deriving DecidableEq

/-- io/h5/named_objs.py:483-490 `_flag_to_raw_flag`. -/
def rawMode (flag : String) : Option RawMode :=
  if flag == "r" then some .r
  else if flag == "a" then some .rw
  else if flag == "x" then some .x
  else if flag == "ac" then some .a
  else if flag == "ca" then some .a
  else if flag == "w" then some .w
  else none

/-- `h5py.File(path, mode)`: the root group and whether the file may be written, and the new file system. -/
def h5pyOpen (fs : FS DT E) (path : Str) (m : RawMode) : PyM (Node DT E × Bool) × FS DT E :=
  match m, fs path with
  | .r, none => (.error .fileNotFoundError, fs)
  | .r, some .junk => (.error .osError, fs)
  | .r, some (.hdf n) => (.ok (n, false), fs)
  | .rw, none => (.error .fileNotFoundError, fs)
  | .rw, some .junk => (.error .osError, fs)
  | .rw, some (.hdf n) => (.ok (n, true), fs)
  | .x, some _ => (.error .fileExistsError, fs)
  | .x, none => (.ok (.grp [] [], true), fs.put path (.grp [] []))
  | .a, some .junk => (.error .osError, fs)
  | .a, some (.hdf n) => (.ok (n, true), fs)
  | .a, none => (.ok (.grp [] [], true), fs.put path (.grp [] []))
  | .w, _ => (.ok (.grp [] [], true), fs.put path (.grp [] []))

/-- io/h5/named_objs.py:494-517 `File.__init__` (path given). -/
def openFile (fs : FS DT E) (path : Str) (flag : String) : PyM (Node DT E × Bool) × FS DT E :=
  match rawMode flag with
  | none => (.error .valueError, fs)
  | some m => h5pyOpen fs path m

/-- `with File(path, flag) as f: body` (named_objs.py:631-640): the file is closed whether or not the body raises. -/
def withFile {α : Type} (env : Env DT E) (fs : FS DT E) (path : Str) (flag : String) (body : Env DT E → Node DT E → PyM α × Node DT E) :
    PyM α × FS DT E :=
  match openFile fs path flag with
  | (.error e, fs1) => (.error e, fs1)
  | (.ok (root, w), fs1) =>
      let (r, root') := body { env with writable := w } root
      (r, fs1.put path root')

/-- io/h5/named_objs.py:524-550 `File.load_from`. -/
def loadFrom (env : Env DT E) (fs : FS DT E) (path : Str) (key : Option Str) : PyM (LVal DT E) × FS DT E :=
  withFile env fs path "r" (fun _ root =>
    match key with
    | none => (.ok (load root), root)
    | some k => match lookup root (pathOf k) with
        | none => (.error .keyError, root)
        | some g => (.ok (load g), root))

/-- io/h5/named_objs.py:608-624: the loop over the parents `ks[:-1]`, then the last component. -/
def dumpAt (env : Env DT E) (data : Val DT E) (gFlag dFlag : String) (createParent : Bool) : List Str → Node DT E → PyM Unit × Node DT E
  | [], n => dump env dFlag data n
  | [k], n => match data with
      | .map kvs => match createGroup env n k gFlag with
          | (.error e, n1) => (.error e, n1)
          | (.ok (), n1) => modifyAt (dump env dFlag (.map kvs)) n1 (pathOf k)
      | .leaf l => dsCreate env n k l dFlag
  | k :: k' :: ks, n =>
      if createParent then
        match createGroup env n k "ac" with
        | (.error e, n1) => (.error e, n1)
        | (.ok (), n1) => modifyAt (dumpAt env data gFlag dFlag createParent (k' :: ks)) n1 (pathOf k)
      else
        match lookup n (pathOf k) with
        | none => (.error .keyError, n)
        | some (.dset _ _) => (.error .valueError, n)
        | some (.grp _ _) => modifyAt (dumpAt env data gFlag dFlag createParent (k' :: ks)) n (pathOf k)

/-- io/h5/named_objs.py:552-624 `File.dump_to`. -/
def dumpTo (env : Env DT E) (fs : FS DT E) (path : Str) (data : Val DT E) (key : Option Str) (fFlag gFlag dFlag : String) (createParent : Bool) :
    PyM Unit × FS DT E :=
  withFile env fs path fFlag (fun env root =>
    match key with
    | none => dump env dFlag data root
    | some k => dumpAt env data gFlag dFlag createParent (pathOf k) root)

end Pyhipp.H5
