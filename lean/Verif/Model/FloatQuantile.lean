import Verif.Base.Py
import Verif.Base.Float64
import Verif.Model.FloatReduce
/-
Model of `Quantile`, `Median` and the quantile branch of `Errorbar` of src/pyhipp/stats/reduction.py on one-dimensional float64 arrays, in double
precision (Model/Reduction has the same code over exact numbers).

`np.quantile` (method 'linear'), `np.median`, `np.cumsum` and `np.interp` are written out as numpy computes them; the total of the weights may be added
up in any order (`FloatReduce.IsSum`).
-/
namespace Pyhipp.FloatQuantile
open Pyhipp Pyhipp.F64 Pyhipp.FloatReduce

variable {α : Type}

/-- `x[mask]`; the whole array without a mask. -/
def sel (x : List α) : Option (List Bool) → List α
  | none => x
  | some m => ((x.zip m).filter (fun p => p.2)).map (·.1)

/-! ### Without weights -/

/-- The elements in order, if there is no NaN. -/
def npSort (xs : List Num) : List Num := xs.mergeSort Num.le

/-- numpy's `_lerp(a, b, t)`: from `a` below the middle, from `b` above. -/
def lerp (a b t : Num) : Num :=
  let d := Num.sub b a
  if Num.le (.fin (1 / 2)) t then Num.sub b (Num.mul d (Num.sub (.fin 1) t)) else Num.add a (Num.mul d t)

/-- The index of a whole number. -/
def toIdx : Num → Nat
  | .fin q => ⌊q⌋.toNat
  | _ => 0

/-- `np.quantile(x, p)` of a non-empty array for one `p`: ValueError outside [0, 1]; the position is (n - 1)p, rounded; from the last position on, the last
element; a NaN makes the result NaN. -/
def npQuantile (xs : List Num) (p : Num) : PyM Num :=
  if Num.le (.fin 0) p && Num.le p (.fin 1) then
    if .nan ∈ xs then .ok .nan
    else
      let s := npSort xs
      let v := Num.mul (ofQ ((xs.length : ℚ) - 1)) p
      if Num.le (ofQ ((xs.length : ℚ) - 1)) v then
        .ok (lerp (s.getLastD .nan) (s.getLastD .nan) (Num.add v (.fin 1)))
      else
        let k := toIdx (Num.floor v)
        .ok (lerp (s.getD k .nan) (s.getD (k + 1) .nan) (Num.sub v (Num.floor v)))
  else .error .valueError

/-- `np.median(x)` of a non-empty array: the middle element, or the mean of the two middle ones. -/
def npMedian (xs : List Num) : Num :=
  if .nan ∈ xs then .nan
  else
    let s := npSort xs
    let n := xs.length
    if n % 2 = 1 then Num.div (s.getD (n / 2) .nan) (.fin 1)
    else Num.div (Num.add (s.getD (n / 2 - 1) .nan) (s.getD (n / 2) .nan)) (.fin 2)

/-! ### With weights -/

/-- Running sums after the first element. -/
def accum (s : Num) : List Num → List Num
  | [] => []
  | w :: t => Num.add s w :: accum (Num.add s w) t

/-- `np.cumsum`: from left to right. -/
def cumsum : List Num → List Num
  | [] => []
  | w :: t => w :: accum w t

/-- `np.interp(p, xp, fp)` for one `p`, with the search as a parameter: it returns -1 to the left of the nodes, their number to the right of them, and else the
position of the last node that is not larger. -/
def npInterp (find : Num → List Num → Int) (p : Num) (xp fp : List Num) : Num :=
  if xp.length = 1 then fp.headD .nan
  else if p = .nan then .nan
  else
    let j := find p xp
    if j < 0 then fp.headD .nan
    else if (xp.length : Int) - 1 ≤ j then fp.getLastD .nan
    else
      let i := j.toNat
      if xp.getD i .nan = p then fp.getD i .nan
      else
        let slope := Num.div (Num.sub (fp.getD (i + 1) .nan) (fp.getD i .nan)) (Num.sub (xp.getD (i + 1) .nan) (xp.getD i .nan))
        let r := Num.add (Num.mul slope (Num.sub p (xp.getD i .nan))) (fp.getD i .nan)
        if r = .nan then
          let r' := Num.add (Num.mul slope (Num.sub p (xp.getD (i + 1) .nan))) (fp.getD (i + 1) .nan)
          if r' = .nan ∧ fp.getD i .nan = fp.getD (i + 1) .nan then fp.getD i .nan else r'
        else r

/-- `x[idx]` -/
def takeAt (x : List Num) (idx : List Nat) : List Num := idx.map (fun i : Nat => x.getD i .nan)

/-- stats/reduction.py:207-214 `Quantile._impl_with_weight` for one `p`. -/
def withWeight (argsort : List Num → List Nat) (find : Num → List Num → Int) (sort : Bool) (x w : List Num) (p : Num) : Num :=
  if sort then npInterp find p (cumsum (takeAt w (argsort x))) (takeAt x (argsort x))
  else npInterp find p (cumsum w) x

/-- stats/reduction.py:80: `weight / weight.sum()` -/
def normalise (sum : List Num → Num) (w : List Num) : List Num := w.map (fun a => Num.div a (sum w))

/-- The parts of numpy whose details are not fixed here. -/
structure Np where
  /-- `weight.sum()` -/
  sum : List Num → Num
  /-- `np.argsort` -/
  argsort : List Num → List Nat
  /-- the search in `np.interp` -/
  find : Num → List Num → Int

/-- stats/reduction.py:69-82 `Reduce._impl_1d` with 203-214 of `Quantile`. -/
def quantile1 (np : Np) (ps : List Num) (sort : Bool) (fill : Num) (x : List Num) (weight : Option (List Num)) (mask : Option (List Bool)) : PyM (List Num) :=
  if (sel x mask).length = 0 then .ok (ps.map (fun _ => fill))
  else match weight with
    | none => ps.mapM (npQuantile (sel x mask))
    | some w => .ok (ps.map (withWeight np.argsort np.find sort (sel x mask) (normalise np.sum (sel w mask))))

/-- stats/reduction.py:69-82 `Reduce._impl_1d` with 262-268 of `Median`: with weights, `Quantile(0.5)` is called with the normalised weights and normalises
them again. -/
def median1 (np : Np) (sort : Bool) (fill : Num) (x : List Num) (weight : Option (List Num)) (mask : Option (List Bool)) : Num :=
  if (sel x mask).length = 0 then fill
  else match weight with
    | none => npMedian (sel x mask)
    | some w => withWeight np.argsort np.find sort (sel x mask) (normalise np.sum (normalise np.sum (sel w mask))) (.fin (1 / 2))

/-- stats/reduction.py:177-186 `Quantile.ps_map` as doubles. -/
def psMap : List (String × List Num) :=
  let f : List ℚ → List Num := fun l => l.map ofQ
  [("1sigma", f [16 / 100, 84 / 100]), ("2sigma", f [25 / 1000, 975 / 1000]), ("3sigma", f [5 / 1000, 995 / 1000]),
   ("median+1sigma", f [16 / 100, 1 / 2, 84 / 100]), ("median+2sigma", f [25 / 1000, 1 / 2, 975 / 1000]),
   ("median+3sigma", f [5 / 1000, 1 / 2, 995 / 1000]), ("lower_3sigmas", f [68 / 100, 95 / 100, 99 / 100]),
   ("upper_3sigmas", f [1 / 100, 5 / 100, 32 / 100])]

/-- stats/reduction.py:232-247 `Errorbar._impl`, the quantile branch: (centre, lower error, upper error); unpacking anything but three values is a
ValueError. -/
def errorbar (np : Np) (reduce : String) (fill : Num) (x : List Num) (weight : Option (List Num)) (mask : Option (List Bool)) : PyM (Num × Num × Num) :=
  match psMap.lookup reduce with
  | none => .error .keyError
  | some ps => match quantile1 np ps true fill x weight mask with
    | .ok [lo, med, hi] => .ok (med, Num.sub med lo, Num.sub hi med)
    | .ok _ => .error .valueError
    | .error e => .error e

end Pyhipp.FloatQuantile
