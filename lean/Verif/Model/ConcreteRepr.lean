import Verif.Model.Repr
import Verif.Model.Param
import Verif.Model.LambdaCDM
import Verif.Model.Binning
import Verif.Model.PointGroup
/-
Model of the `to_simple_repr` methods of the concrete classes: astro/cosmology/param.py (Param, ParamList), astro/cosmology/model.py
(LambdaCDM, _Predefined), stats/binning.py (EqualSpaceBins, BiSearchBins, BinnedData) and group_theory/point_group.py (Op, Group), with
`to_json` of core/abc.py:33-37 on top.

Numbers are exact.  Representations are values, so the fact that the `meta` dictionary, the edges, the counts and the matrices in them are
the very objects of the represented object (and not copies) is not expressed.
-/
namespace Pyhipp.ConcreteRepr
open Pyhipp Pyhipp.Repr

/-- Leaves: None, a float, an int, an array. -/
inductive Lf (α : Type)
  | none
  | num (x : α)
  | int (n : Int)
  | arr (shape : List Nat) (data : List α)

variable {α : Type}

/-- Which leaves `json.dumps` accepts: arrays are refused. -/
def Lf.jsonOk : Lf α → Bool
  | .arr _ _ => false
  | _ => true

/-- core/abc.py:33-37 `to_json` of an object with the representation `v`. -/
def json (v : Val (Lf α)) : PyM (Json (Lf α)) := dumps Lf.jsonOk v

/-! ### Parameters -/

/-- astro/cosmology/param.py:9-13 `Param.to_simple_repr`; `tolist` of a one-dimensional array. -/
def paramRepr (p : Param.Param α) : Val (Lf α) :=
  .dict [("name".toList, .str p.name), ("value".toList, .list (p.value.map (fun x => .leaf (.num x))))]

/-- astro/cosmology/param.py:49-50 `ParamList.to_simple_repr`. -/
def plistRepr (h : Param.Heap α) (p : Param.PList) : Val (Lf α) := .list (p.params.map (fun r => paramRepr (h r)))

/-! ### Cosmologies -/

/-- astro/cosmology/param.py:9-13 for a scalar parameter: `tolist` of a zero-dimensional array is a float. -/
noncomputable def scalarRepr (p : Str × ℝ) : Val (Lf ℝ) := .dict [("name".toList, .str p.1), ("value".toList, .leaf (.num p.2))]

/-- `self.meta`: None or a dictionary; `sh` gives its values. -/
def metaRepr {X : Type} (sh : X → Val (Lf ℝ)) : Option (PyDict Str X) → Val (Lf ℝ)
  | none => .leaf .none
  | some d => .dict (d.map (fun p => (p.1, sh p.2)))

/-- astro/cosmology/model.py:100-106 `LambdaCDM.to_simple_repr`. -/
noncomputable def lcdmRepr {X : Type} (sh : X → Val (Lf ℝ)) (m : LCDM.Model X) : Val (Lf ℝ) :=
  .dict [("name".toList, .str m.name), ("data_dir".toList, .str m.dataDir), ("meta".toList, metaRepr sh m.info),
    ("params".toList, .list (m.params.map scalarRepr))]

/-- astro/cosmology/model.py:271-280 `_Predefined.to_simple_repr`; `dir` is the directory of the package data. -/
noncomputable def predefRepr {X : Type} (sh : LCDM.CV X → Val (Lf ℝ)) (dir : Str) (c : LCDM.Predef X) : Val (Lf ℝ) :=
  .dict [("data_dir".toList, .str dir), ("models".toList, .dict (c.map (fun p => (p.1, lcdmRepr sh p.2))))]

/-- A parsed document as the content of a configuration file: an object of numbers is read as the parameters. -/
noncomputable def cvOf : Json (Lf ℝ) → LCDM.CV (Json (Lf ℝ))
  | .str s => .text s
  | .leaf .none => .null
  | .obj kvs => match kvs.mapM (fun p => match p.2 with | .leaf (.num x) => some (p.1, x) | _ => none) with
      | some ps => .params ps
      | none => .other (.obj kvs)
  | j => .other j

/-- A file that holds the text of a document: `json.load` gives the dictionary (other documents are no dictionaries). -/
noncomputable def fileOf : Json (Lf ℝ) → LCDM.File (Json (Lf ℝ))
  | .obj kvs => .conf (kvs.map (fun p => (p.1, cvOf p.2)))
  | _ => .broken

/-! ### Bins -/

/-- How `x_range` was given: a tuple, a list or an array. -/
inductive RangeArg
  | tuple | list | array

/-- `self._x_range`: the very argument. -/
def rangeVal (b e : α) : RangeArg → Val (Lf α)
  | .tuple => .tuple [.leaf (.num b), .leaf (.num e)]
  | .list => .list [.leaf (.num b), .leaf (.num e)]
  | .array => .leaf (.arr [2] [b, e])

section
variable [Field α]

/-- `(x_edges[1:] - x_edges[:-1]).mean()` -/
def stepMean (edges : List α) : α :=
  (List.zipWith (· - ·) edges.tail edges.dropLast).sum / (edges.length - 1 : Nat)

/-- stats/binning.py:196-203 `EqualSpaceBins.to_simple_repr` (`how` tells how the range was given) and
246-253 `BiSearchBins.to_simple_repr`. -/
def binsRepr (how : RangeArg) : Binning.Bins α → Val (Lf α)
  | .equal b e n step => .dict [("type".toList, .str "EqualSpaceBins".toList), ("x_range".toList, rangeVal b e how), ("n_bins".toList, .leaf (.int n)),
      ("x_span".toList, .leaf (.num (e - b))), ("x_step".toList, .leaf (.num step))]
  | .bisearch edges => .dict [("type".toList, .str "BiSearchBins".toList), ("x_edges".toList, .leaf (.arr [edges.length] edges)),
      ("n_bins".toList, .leaf (.int (edges.length - 1 : Nat))), ("x_span".toList, .leaf (.num (edges.getLastD 0 - edges.headD 0))),
      ("x_step_mean".toList, .leaf (.num (stepMean edges)))]

/-- stats/binning.py:277-282 `BinnedData.to_simple_repr`. -/
def binnedRepr (how : RangeArg) (bs : Binning.Bins α) (data : List α) : Val (Lf α) :=
  .dict [("type".toList, .str "BinnedData".toList), ("bins".toList, binsRepr how bs), ("data".toList, .leaf (.arr [data.length] data))]

end

/-! ### Symmetry operations -/

/-- group_theory/point_group.py:28-31 `Op.to_simple_repr`. -/
def opRepr {n : Nat} (m : PointGroup.Mat n α) : Val (Lf α) :=
  .dict [("mat".toList, .leaf (.arr [n, n] ((List.finRange n).flatMap (fun i => (List.finRange n).map (fun j => m i j)))))]

/-- group_theory/point_group.py:86-87 `Group.to_simple_repr`. -/
def groupRepr {n : Nat} (ops : List (PointGroup.Mat n α)) : Val (Lf α) := .list (ops.map opRepr)

end Pyhipp.ConcreteRepr
