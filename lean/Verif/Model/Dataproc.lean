import Verif.Base.Py
import Verif.Base.Slice
import Verif.Base.Dict
import Verif.Base.Nan
import Mathlib.Algebra.BigOperators.Group.List.Basic
/-
Model of src/pyhipp/core/dataproc/{data_structs,iter,mask,filter}.py.
1-d arrays are lists; shapes of higher rank are not modelled in this file.
-/
namespace Pyhipp.Dataproc
open Pyhipp

/-! ### data_structs.py -/

/-- `np.cumsum`, with the running sum as first argument. -/
def cumsumFrom (s : Int) : List Int → List Int
  | [] => []
  | c :: t => (s + c) :: cumsumFrom (s + c) t

/-- core/dataproc/data_structs.py:51-62 `Array.count_to_offset`. -/
def countToOffset (count : List Int) (hasEnd : Bool := true) : List Int :=
  let off := 0 :: cumsumFrom 0 count
  if !hasEnd then off.dropLast else off

/-- core/dataproc/data_structs.py:65-67 `Array.count_to_offset_pairs`
(`np.stack((off[:-1], off[1:]), axis=-1)`: one pair per row). -/
def countToOffsetPairs (count : List Int) : List (Int × Int) :=
  let off := countToOffset count
  (off.dropLast).zip (off.drop 1)

/-- core/dataproc/data_structs.py:12-13, loop body of `combine_dicts`. -/
def combineStep {κ : Type u} {β : Type v} [DecidableEq κ] (out : PyDict κ β)
    (d? : Option (PyDict κ β)) : PyDict κ β :=
  match d? with
  | some d => PyDict.update out d
  | none => out

/-- core/dataproc/data_structs.py:9-15 `Dict.combine_dicts`.  The result is a new dict; the
arguments are only read. -/
def combineDicts {κ : Type u} {β : Type v} [DecidableEq κ] (dicts : List (Option (PyDict κ β)))
    (items : PyDict κ β) : PyDict κ β :=
  let out : PyDict κ β := dicts.foldl combineStep []
  PyDict.update out items

/-! ### iter.py -/

/-- core/dataproc/iter.py:10-15 `Chunks.ranges_by_sizes` (generator as the list it yields);
first argument is the running `b`. -/
def rangesFrom (b : Int) : List Int → List (Int × Int)
  | [] => []
  | size :: t => let e := b + size; (b, e) :: rangesFrom e t

/-- core/dataproc/iter.py:10-15. -/
def rangesBySizes (sizes : List Int) : List (Int × Int) := rangesFrom 0 sizes

/-- core/dataproc/iter.py:18-27 `Chunks.slices_by_sizes`: the list of yielded tuples, one entry
per sequence; a single sequence gives a 1-tuple here and the bare slice in `chunks` below.  Raises on first iteration when no sequence is given. -/
def slicesBySizes {α : Type _} (sizes : List Int) (seqs : List (List α)) :
    PyM (List (List (List α))) :=
  if seqs.length > 0 then
    .ok ((rangesBySizes sizes).map (fun be => seqs.map (fun s => pySlice s be.1 be.2)))
  else .error .assertionError

/-- What `slices_by_sizes` yields: a bare slice or a tuple of slices. -/
inductive Chunk (α : Type _) where
  | bare (s : List α)
  | tuple (ss : List (List α))
  deriving DecidableEq

/-- core/dataproc/iter.py:17-30 `Chunks.slices_by_sizes`, all that it yields. -/
def chunks {α : Type _} (sizes : List Int) (seqs : List (List α)) : PyM (List (Chunk α)) :=
  match seqs with
  | [] => .error .assertionError
  | [seq] => .ok ((rangesBySizes sizes).map fun be => .bare (pySlice seq be.1 be.2))
  | seqs => .ok ((rangesBySizes sizes).map fun be => .tuple (seqs.map fun s => pySlice s be.1 be.2))

/-! ### mask.py -/

/-- core/dataproc/mask.py:25-29 `Mask.bool_to_idx` (1-d input): `nonzero()[0]`. -/
def boolToIdxFrom (i : Nat) : List Bool → List Nat
  | [] => []
  | b :: t => if b then i :: boolToIdxFrom (i + 1) t else boolToIdxFrom (i + 1) t

/-- core/dataproc/mask.py:25-29. -/
def boolToIdx (b : List Bool) : List Nat := boolToIdxFrom 0 b

/-- numpy index wrap: valid indices are `[-n, n)`. -/
def wrapIdx (n : Nat) (i : Int) : PyM Nat :=
  if 0 ≤ i ∧ i < n then .ok i.toNat
  else if -(n : Int) ≤ i ∧ i < 0 then .ok (i + n).toNat
  else .error .indexError

/-- core/dataproc/mask.py:31-39 `Mask.idx_to_bool`: numpy checks all indices before writing. -/
def idxToBool (n : Nat) (idx : List Int) : PyM (List Bool) := do
  let is ← idx.mapM (wrapIdx n)
  return is.foldl (fun b i => b.set i true) (List.replicate n false)

/-- One pass `np.copyto(result, choice, where=cond)`. -/
def copyWhere {α : Type _} (res choice : List α) (cond : List Bool) : List α :=
  List.zipWith (fun r cc => if cc.2 then cc.1 else r) res (choice.zip cond)

/-- core/dataproc/mask.py:13-23 `Mask.zip` = `np.select(masks, arrays, default)`; numpy fills with
the default and then copies the choices from the last to the first.  Inputs are 1-d and of
one common length `n` (numpy broadcasting of other shapes is not modelled: ValueError);
`np.select` itself raises ValueError for differing numbers of masks and arrays or for none. -/
def maskZip {α : Type _} (masks : List (List Bool)) (arrays : List (List α)) (default? : Option α)
    (zero : α) : PyM (List α) :=
  let default := default?.getD zero
  if masks.length ≠ arrays.length then .error .valueError else
  match masks with
  | [] => .error .valueError
  | m0 :: _ =>
    let n := m0.length
    if masks.all (fun m => m.length == n) && arrays.all (fun a => a.length == n) then
      .ok ((masks.zip arrays).foldr (fun ma res => copyWhere res ma.2 ma.1)
        (List.replicate n default))
    else .error .valueError

/-- core/dataproc/mask.py:6-11 `Mask.put` = `np.putmask(x_dst, mask, x_src)`: new contents of
`x_dst`.  numpy requires the mask to have the size of `x_dst` (the docstring's "mask is
repeated" is about `x_src`), repeats `x_src` by position, and does nothing for an empty one. -/
def maskPut {α : Type _} (dst src : List α) (mask : List Bool) : PyM (List α) :=
  if mask.length ≠ dst.length then .error .valueError
  else if src.length = 0 then .ok dst
  else .ok ((dst.zip mask).mapIdx (fun i dm =>
    if dm.2 then (src[i % src.length]?).getD dm.1 else dm.1))

/-- Kinds of row selector accepted by `a[mask]` for a 1-d array: boolean array, integer array,
slice `b:e:s` (any part may be absent). -/
inductive Sel
  | mask (b : List Bool)
  | idx (i : List Int)
  | slice (b e s : Option Int)

/-- `a[mask]` of a 1-d array. -/
def Sel.apply {α : Type _} (s : Sel) (a : List α) : PyM (List α) :=
  match s with
  | .mask b => if b.length ≠ a.length then .error .indexError
      else .ok (((a.zip b).filter (fun p => p.2)).map (fun p => p.1))
  | .idx is => is.mapM (fun i => pyGet a i)
  | .slice b e s => do
      let ps ← slicePos a.length b e s
      return ps.filterMap (fun i => a[i]?)

/-- core/dataproc/mask.py:48-50 `Mask.on_array` (value of the result; aliasing of slices
with copy=False: Model/MaskMemory). -/
def onArray {α : Type _} (mask : Sel) (a : List α) : PyM (List α) := mask.apply a

/-- core/dataproc/mask.py:52-62 `Mask.on_arrays` with at least one array. -/
def onArrays {α : Type _} (mask : Sel) (a : List α) (others : List (List α)) :
    PyM (List (List α)) := do
  let out ← onArray mask a
  let rest ← others.mapM (onArray mask)
  return out :: rest

/-- core/dataproc/mask.py:41-46 `Mask.on_dict` (for a dict type whose `out_d[k] = v` stores under
`k`). -/
def onDict {κ α : Type} [DecidableEq κ] (d : PyDict κ (List α)) (mask : Sel) :
    PyM (PyDict κ (List α)) :=
  d.foldlM (fun (out : PyDict κ (List α)) (kv : κ × List α) => do
    let v ← onArray mask kv.2
    return out.set kv.1 v) []

/-! ### filter.py -/

/-- core/dataproc/filter.py:21-37 `Range`: the boolean mask of one element. -/
def rangeKeep {α : Type _} [LinearOrder α] (min max : Option (Fl α)) (x : Fl α) : Bool :=
  let mask := true
  let mask := match min with
    | some lo => mask && x.ge lo
    | none => mask
  match max with
    | some hi => mask && x.lt hi
    | none => mask

/-- core/dataproc/filter.py:12-15,20-36: `Range(min, max)(x)` = `x[mask]`. -/
def rangeFilter {α : Type _} [LinearOrder α] (min max : Option (Fl α)) (xs : List (Fl α)) :
    List (Fl α) := xs.filter (rangeKeep min max)

end Pyhipp.Dataproc
