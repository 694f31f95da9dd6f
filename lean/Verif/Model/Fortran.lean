import Verif.Base.Py
/-
Model of src/pyhipp/io/binary/fortran.py: reading Fortran unformatted files.

A file is its bytes and the current position.  Items of a dtype are `size` bytes each, decoded by a function.
-/
namespace Pyhipp.Fortran
open Pyhipp

/-- An open file. -/
structure File where
  bytes : List (Fin 256)
  pos : Nat

/-- What a caller passes as `dtype`: `np.dtype(...)`, a scalar type such as `np.int32`, or a name such as 'i4'.  numpy's readers take all of
them; only an `np.dtype` object has an `itemsize` number. -/
inductive Form where
  | dtype
  | scalarType
  | name

/-- A dtype: how it is passed, its item size and the decoding of one item. -/
structure DType (V : Type) where
  form : Form
  size : Nat
  decode : List (Fin 256) → V

variable {V : Type}

/-- The bytes from the current position on. -/
def File.rest (f : File) : List (Fin 256) := f.bytes.drop f.pos

/-- `n` consecutive items of `size` bytes. -/
def chunks (size : Nat) : Nat → List (Fin 256) → List (List (Fin 256))
  | 0, _ => []
  | n + 1, bs => bs.take size :: chunks size n (bs.drop size)

/-- `np.fromfile(file, dtype, count)`: as many items as asked for and available; all if count is negative.  If items are missing, the
position ends at the end of the file (never before the current position). -/
def fromfile (f : File) (dt : DType V) (count : Int) : List V × File :=
  let avail := f.rest.length / dt.size
  if count < 0 then ((chunks dt.size avail f.rest).map dt.decode, { f with pos := f.pos + avail * dt.size })
  else
    let n := count.toNat
    if n ≤ avail then ((chunks dt.size n f.rest).map dt.decode, { f with pos := f.pos + n * dt.size })
    else ((chunks dt.size avail f.rest).map dt.decode, { f with pos := f.pos + f.rest.length })

/-- fortran.py:30-31 `seek(offset, 1)`: relative; before the start of the file is an OSError. -/
def seekRel (f : File) (offset : Int) : PyM Unit × File :=
  if 0 ≤ f.pos + offset then (.ok (), { f with pos := (f.pos + offset).toNat }) else (.error .osError, f)

/-- fortran.py:30-31 `seek(offset)`: absolute. -/
def seekAbs (f : File) (offset : Int) : PyM Unit × File :=
  if 0 ≤ offset then (.ok (), { f with pos := offset.toNat }) else (.error .valueError, f)

/-- fortran.py:33-34 `load_bytes`. -/
def loadBytes (f : File) (n : Int) : List (Fin 256) × File :=
  if n < 0 then (f.rest, { f with pos := f.pos + f.rest.length })
  else (f.rest.take n.toNat, { f with pos := f.pos + min n.toNat f.rest.length })

/-- fortran.py:57-66 `_rec_size`; `n` is None for a scalar.  `dtype.itemsize` of a scalar type is a descriptor (TypeError when
multiplied), a name has none. -/
def recSize (dt : DType V) (n : Option Int) : PyM Int := match dt.form with
  | .dtype => .ok (dt.size * n.getD 1)
  | .scalarType => .error .typeError
  | .name => .error .attributeError

/-- fortran.py:36-37 `skip_rec`. -/
def skipRec (f : File) (dt : DType V) (n : Option Int) : PyM Unit × File := match recSize dt n with
  | .ok k => seekRel f k
  | .error e => (.error e, f)

/-- What `load_rec` returns: an array, or a scalar for n = None. -/
inductive Rec (V : Type) where
  | array (vs : List V)
  | scalar (v : V)

/-- fortran.py:39-42 `load_rec`. -/
def loadRec (f : File) (dt : DType V) (n : Option Int) : PyM (Rec V) × File := match n with
  | some k => match fromfile f dt k with
      | (vs, f') => (.ok (.array vs), f')
  | none => match fromfile f dt 1 with
      | (v :: _, f') => (.ok (.scalar v), f')
      | ([], f') => (.error .indexError, f')

/-- Two's complement: the signed value of a 32-bit number. -/
def signed32 (u : Nat) : Int := if u < 2147483648 then (u : Int) else (u : Int) - 4294967296

/-- The number written by four bytes, little endian. -/
def le4 : List (Fin 256) → Nat
  | [a, b, c, d] => a.val + 256 * b.val + 65536 * c.val + 16777216 * d.val
  | _ => 0

/-- `np.int32`, little endian. -/
def int32 : DType Int where
  form := .scalarType
  size := 4
  decode bs := signed32 (le4 bs)

/-- fortran.py:45,47,51,53 `self.load_rec(np.int32)`. -/
def loadMark (f : File) : PyM Int × File := match fromfile f int32 1 with
  | (v :: _, f') => (.ok v, f')
  | ([], f') => (.error .indexError, f')

/-- fortran.py:44-48 `skip_sect`. -/
def skipSect (f : File) (dt : DType V) (n : Option Int) : PyM Unit × File := match loadMark f with
  | (.error e, f1) => (.error e, f1)
  | (.ok n1, f1) => match skipRec f1 dt n with
      | (.error e, f2) => (.error e, f2)
      | (.ok (), f2) => match loadMark f2 with
          | (.error e, f3) => (.error e, f3)
          | (.ok n2, f3) => (pyAssert (n1 == n2), f3)

/-- fortran.py:50-55 `load_sect`. -/
def loadSect (f : File) (dt : DType V) (n : Option Int) : PyM (Rec V) × File := match loadMark f with
  | (.error e, f1) => (.error e, f1)
  | (.ok n1, f1) => match loadRec f1 dt n with
      | (.error e, f2) => (.error e, f2)
      | (.ok data, f2) => match loadMark f2 with
          | (.error e, f3) => (.error e, f3)
          | (.ok n2, f3) => match pyAssert (n1 == n2) with
              | .error e => (.error e, f3)
              | .ok () => (.ok data, f3)

end Pyhipp.Fortran
