import Verif.Model.Repr
import Verif.Model.Reduction
/-
Model of src/pyhipp/stats/summary.py.  Numbers are real numbers; the array may be changed in place or replaced between the calls.
-/
namespace Pyhipp.Summary
open Pyhipp Pyhipp.Reduction Pyhipp.Repr

/-- A statistic: a number (or NaN), an array, an integer. -/
inductive SV
  | num (v : Fl ℝ)
  | arr (l : List ℝ)
  | int (n : Nat)

/-- The cached statistics. -/
inductive Key
  | mean | stddev | median | s1 | s2 | s3
  deriving DecidableEq

/-- `a.mean()`: NaN for an empty array. -/
noncomputable def npMean (a : List ℝ) : Fl ℝ := if a.length = 0 then .nan else .num (a.sum / a.length)

/-- `a.std()`: the root of the mean squared deviation, NaN for an empty array. -/
noncomputable def npStd (a : List ℝ) : Fl ℝ :=
  if a.length = 0 then .nan
  else .num (Real.sqrt ((a.map (fun x => (x - a.sum / a.length) ^ 2)).sum / a.length))

/-- `np.median(a)`: NaN for an empty array. -/
noncomputable def median (a : List ℝ) : Fl ℝ := if a.length = 0 then .nan else .num (npMedian a)

/-- `Quantile(name)(a)`: reduction.py:188-205 with the default fill value -1e10. -/
noncomputable def quantile (name : String) (a : List ℝ) : List ℝ :=
  match psMap.lookup name with
  | some ps => quantile1d id ps true (-10 ^ 10) a none none
  | none => []

/-- summary.py:19-41: the bodies of the cached properties. -/
noncomputable def compute (a : List ℝ) : Key → SV
  | .mean => .num (npMean a)
  | .stddev => .num (npStd a)
  | .median => .num (median a)
  | .s1 => .arr (quantile "1sigma" a)
  | .s2 => .arr (quantile "2sigma" a)
  | .s3 => .arr (quantile "3sigma" a)

/-- The object: its array and the values that `cached_property` has stored in the instance. -/
structure Obj where
  a : List ℝ
  cache : Key → Option SV

/-- summary.py:12-13 `__init__`. -/
def Obj.new (a : List ℝ) : Obj := ⟨a, fun _ => none⟩

/-- summary.py:15-17 `size`: not cached. -/
def Obj.size (s : Obj) : Nat := s.a.length

/-- `functools.cached_property.__get__`: the stored value, or compute and store it. -/
noncomputable def Obj.get (s : Obj) (k : Key) : SV × Obj :=
  match s.cache k with
  | some v => (v, s)
  | none => (compute s.a k, { s with cache := fun k' => if k' = k then some (compute s.a k) else s.cache k' })

/-- What can happen to the object: the array changes (in place, or another array is assigned to `a`), a statistic is read, a stored
statistic is deleted (`del s.mean`), the representation is taken. -/
inductive Op
  | change (a : List ℝ)
  | read (k : Key)
  | del (k : Key)
  | repr

/-- summary.py:9-10 `repr_attr_keys` (after 'size'). -/
def reprKeys : List Key := [.mean, .stddev, .median, .s1, .s2, .s3]

/-- core/abc.py:48-53 with summary.py:9-10: the attributes are read in order. -/
noncomputable def getAll : List Key → Obj → Obj
  | [], s => s
  | k :: ks, s => getAll ks (s.get k).2

/-- One step. -/
noncomputable def Obj.step (s : Obj) : Op → Obj
  | .change a => { s with a := a }
  | .read k => (s.get k).2
  | .del k => { s with cache := fun k' => if k' = k then none else s.cache k' }
  | .repr => getAll reprKeys s

/-- A history. -/
noncomputable def Obj.run (s : Obj) (ops : List Op) : Obj := ops.foldl Obj.step s

/-- The names of the statistics. -/
def Key.name : Key → Str
  | .mean => "mean".toList
  | .stddev => "stddev".toList
  | .median => "median".toList
  | .s1 => "_1sigma".toList
  | .s2 => "_2sigma".toList
  | .s3 => "_3sigma".toList

/-- The object as seen by the representation (core/abc.py:45-54): the attributes with the values that reading them gives. -/
noncomputable def Obj.val (s : Obj) : Val SV :=
  .obj "SummaryFloatArray1D".toList (.dict true ("size".toList :: reprKeys.map Key.name))
    (("size".toList, .leaf (.int s.size)) :: reprKeys.map (fun k => (k.name, .leaf (s.get k).1))) [] []

/-- Which statistics `json` accepts: numpy's float64 is a float; arrays are not. -/
def jsonOk : SV → Bool
  | .num _ => true
  | .int _ => true
  | .arr _ => false

end Pyhipp.Summary
