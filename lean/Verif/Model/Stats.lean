import Verif.Base.Dict
import Verif.Base.Sorted
import Verif.Model.Reduction
import Mathlib.Analysis.SpecialFunctions.Trigonometric.Inverse
import Mathlib.Analysis.SpecialFunctions.Pow.Real
/-
Model of src/pyhipp/stats/{random,sampling,stacking,preprocessing,prob_dist,kernel}.py.
-/
namespace Pyhipp.Stats
open Pyhipp

/-! ### stats/random.py -/
section Rng
variable {σ Op Out : Type}

/-- A numpy Generator: what `default_rng(seed)` starts from, and what one method call (`Op` =
method with its arguments) returns and leaves behind.  Numpy's algorithms are not modelled. -/
structure NpGen (σ Op Out : Type) where
  seeded : Int → σ
  step : Op → σ → Out × σ

/-- The objects of a session: the states of all numpy Generators and, for every `Rng` created so
far, the index of the Generator it holds (`_np_rng`). -/
structure World (σ : Type) where
  gens : List σ
  rngs : List Nat

/-- The argument of `Rng(...)` (stats/random.py:68, `Initializer`).  `entropy` is the state a
Generator seeded from the operating system (`None`) happens to get; `other` is any other object. -/
inductive Seed (σ : Type)
  | none (entropy : σ)
  | int (n : Int)
  | gen (g : Nat)
  | rng (r : Nat)
  | other

/-- stats/random.py:70-80 `Rng.__init__`.  References to objects that do not exist cannot be written
down in Python; they are a TypeError here. -/
def World.newRng (G : NpGen σ Op Out) (w : World σ) (seed : Seed σ) : PyM (World σ) :=
  match seed with
  | .gen g => if g < w.gens.length then .ok { w with rngs := w.rngs ++ [g] } else .error .typeError
  | .rng r => match w.rngs[r]? with
      | some g => .ok { w with rngs := w.rngs ++ [g] }
      | none => .error .typeError
  | .int n => .ok { gens := w.gens ++ [G.seeded n], rngs := w.rngs ++ [w.gens.length] }
  | .none e => .ok { gens := w.gens ++ [e], rngs := w.rngs ++ [w.gens.length] }
  | .other => .error .assertionError

/-- A step of a session: create an `Rng`, call a method of one (stats/random.py:82-111, all of them
delegate to `_np_rng`), or call a method of a Generator the user holds. -/
inductive Cmd (σ Op : Type)
  | new (s : Seed σ)
  | call (r : Nat) (op : Op)
  | genCall (g : Nat) (op : Op)

/-- One delegated call: which Generator was used, the operation, the value returned. -/
structure Event (Op Out : Type) where
  gen : Nat
  op : Op
  out : Out

/-- Call on generator `g`. -/
def World.callGen (G : NpGen σ Op Out) (w : World σ) (g : Nat) (op : Op) :
    World σ × List (Event Op Out) :=
  match w.gens[g]? with
  | some s =>
      let r := G.step op s
      ({ w with gens := w.gens.set g r.2 }, [⟨g, op, r.1⟩])
  | none => (w, [])

/-- stats/random.py:70-111: one step; a failing constructor leaves everything unchanged. -/
def World.exec (G : NpGen σ Op Out) (w : World σ) : Cmd σ Op → World σ × List (Event Op Out)
  | .new s => match w.newRng G s with
      | .ok w' => (w', [])
      | .error _ => (w, [])
  | .call r op => match w.rngs[r]? with
      | some g => w.callGen G g op
      | none => (w, [])
  | .genCall g op => w.callGen G g op

/-- A whole session. -/
def World.run (G : NpGen σ Op Out) (w : World σ) : List (Cmd σ Op) → World σ × List (Event Op Out)
  | [] => (w, [])
  | c :: t =>
      let (w1, e1) := w.exec G c
      let (w2, e2) := w1.run G t
      (w2, e1 ++ e2)

end Rng

/-- stats/random.py:113-127 `Rng.uniform_sphere(cartesian=True)` (same formulas in `_Rng`,
stats/random.py:44-64) from the drawn `cos_theta` and `phi`; core/dataproc/frame.py:6-15. -/
noncomputable def uniformSphereCart (cosTheta phi : List ℝ) : List (ℝ × ℝ × ℝ) :=
  List.zipWith (fun c p =>
    let theta := Real.arccos c
    (Real.sin theta * Real.cos p, Real.sin theta * Real.sin p, Real.cos theta)) cosTheta phi

/-- stats/random.py:113-127 `uniform_sphere(cartesian=False)`: (theta, phi) pairs. -/
noncomputable def uniformSpherePolar (cosTheta phi : List ℝ) : List (ℝ × ℝ) :=
  List.zipWith (fun c p => (Real.arccos c, p)) cosTheta phi

/-- stats/random.py:129-133 `uniform_circle`; core/dataproc/frame.py:17-22. -/
noncomputable def uniformCircleCart (theta : List ℝ) : List (ℝ × ℝ) :=
  theta.map (fun t => (Real.cos t, Real.sin t))

/-! ### stats/stacking.py, stats/sampling.py -/
section Boot
variable {σ β : Type}

/-- `x.mean()` of a 1-d array. -/
noncomputable def npMean (x : List ℝ) : ℝ := x.sum / (x.length : ℝ)

/-- `x.std()` of a 1-d array (population standard deviation). -/
noncomputable def npStd (x : List ℝ) : ℝ := Real.sqrt (npMean (x.map (fun a => (a - npMean x) ^ 2)))

/-- Column `j` of a 2-d array given by rows. -/
def column (rows : List (List ℝ)) (j : Nat) : List ℝ := rows.map (fun r => r.getD j 0)

/-- stats/stacking.py:5-7 `Stack.mean_and_sd` of an (n, m) array: `x.mean(0), x.std(0)`. -/
noncomputable def meanAndSd (m : Nat) (rows : List (List ℝ)) : List ℝ × List ℝ :=
  ((List.range m).map (fun j => npMean (column rows j)), (List.range m).map (fun j => npStd (column rows j)))

/-- An `Iterable` argument: a sequence can be iterated again and again, a generator only once. -/
inductive Src (γ : Type)
  | seq (l : List γ)
  | oneShot (l : List γ)

/-- `list(src)`, and the iterable afterwards. -/
def Src.read {γ : Type} : Src γ → List γ × Src γ
  | .seq l => (l, .seq l)
  | .oneShot l => (l, .oneShot [])

/-- `None`, or `list(src)`, and the argument afterwards. -/
def readOpt : Option (Src Int) → Option (List Int) × Option (Src Int)
  | none => (none, none)
  | some m => (some m.read.1, some m.read.2)

/-- `v[ids]` for a 1-d integer index array of non-negative entries; IndexError if one is too
large. -/
def takeIds (v : List β) (ids : List Nat) : PyM (List β) :=
  ids.mapM (fun i => match v[i]? with | some b => .ok b | none => .error .indexError)

/-- stats/sampling.py:62-68: the loop over the columns of one data set.  `choice n size` is
`rng.choice(n, size=size)`: drawn indices and the new generator state; numpy raises ValueError for a
negative size.  Keys of the data sets are assumed to contain no '/'. -/
def resampleCols (choice : Nat → Nat → σ → List Nat × σ) (maxN : Int) :
    Option (List Nat) → List (String × List β) → PyDict String (List β) × σ →
      PyM (PyDict String (List β) × σ)
  | _, [], st => .ok st
  | ids?, (k, v) :: t, (out, s) => do
      let (ids, s) ← match ids? with
        | some ids => .ok (ids, s)
        | none =>
            let n : Int := v.length
            let reN := min n maxN
            if reN < 0 then .error .valueError else .ok (choice n.toNat reN.toNat s)
      let col ← takeIds v ids
      resampleCols choice maxN (some ids) t (out.set k col, s)

/-- stats/sampling.py:60-69: the loop over the data sets. -/
def resampleSets (choice : Nat → Nat → σ → List Nat × σ) :
    List (PyDict String (List β) × Int) → PyDict String (List β) × σ →
      PyM (PyDict String (List β) × σ)
  | [], st => .ok st
  | (d, maxN) :: t, st => do
      let st ← resampleCols choice maxN none d st
      resampleSets choice t st

/-- stats/sampling.py:50-69 `Bootstrap.__resample` on the lists read from the iterables;
`max_sizes = None` stands for 2**60 everywhere. -/
def resample (choice : Nat → Nat → σ → List Nat × σ) (dsets : List (PyDict String (List β)))
    (maxSizes : Option (List Int)) (s : σ) : PyM (PyDict String (List β) × σ) := do
  let maxNs := maxSizes.getD (dsets.map (fun _ => 2 ^ 60))
  pyAssert (maxNs.length == dsets.length)
  resampleSets choice (dsets.zip maxNs) ([], s)

/-- An argument of `stats_fn`: a resampled column or an entry of `stats_kw`. -/
inductive Arg (β κ : Type)
  | col (l : List β)
  | kw (v : κ)

/-- An entry of the result of `resampled_call`. -/
inductive BVal
  | vec (l : List ℝ)
  | mat (l : List (List ℝ))

/-- stats/sampling.py:27-33: the resampling loop.  The outputs of `stats_fn` are flattened arrays. -/
def resampleLoop {κ : Type} (choice : Nat → Nat → σ → List Nat × σ)
    (statsFn : PyDict String (Arg β κ) → PyM (PyDict String (List ℝ))) (kw : PyDict String κ) :
    Nat → Src (PyDict String (List β)) → Option (Src Int) → σ → PyM (List (PyDict String (List ℝ)))
  | 0, _, _, _ => .ok []
  | n + 1, dsets, maxs, s => do
      let (ds, dsets) := dsets.read
      let (ms, maxs) := readOpt maxs
      let (inp, s) ← resample choice ds ms s
      let args := PyDict.update (inp.map (fun p => (p.1, Arg.col p.2))) (kw.map (fun p => (p.1, Arg.kw p.2)))
      let out ← statsFn args
      let rest ← resampleLoop choice statsFn kw n dsets maxs s
      return out :: rest

/-- `d[key]` of a mapping: KeyError if absent. -/
def getItem {γ : Type} (d : PyDict String γ) (key : String) : PyM γ :=
  match d.get? key with
  | some v => .ok v
  | none => .error .keyError

/-- stats/sampling.py:36-43: one iteration of the loop over `keys_out`.  ValueError of `np.array`
when the samples do not have one common shape. -/
noncomputable def collectKey (keep : Bool) (outs : List (PyDict String (List ℝ))) (key : String)
    (res : PyDict String BVal) : PyM (PyDict String BVal) := do
  let vals ← outs.mapM (fun d => getItem d key)
  let m := (vals.headD []).length
  if vals.all (fun v => v.length == m) then
    let (mean, sd) := meanAndSd m vals
    let res := PyDict.update res [(key, .vec mean), (key ++ "_sd", .vec sd)]
    return if keep then res.set (key ++ "_samples") (.mat vals) else res
  else .error .valueError

/-- stats/sampling.py:35-47: the collection of the results. -/
noncomputable def collect (keysOut : List String) (keep : Bool)
    (outs : List (PyDict String (List ℝ))) : PyM (PyDict String BVal) := do
  let res ← keysOut.foldlM (fun res key => collectKey keep outs key res) []
  match outs with
  | [] => .error .indexError
  | first :: _ =>
      return first.foldl (fun res kv => if res.has kv.1 then res else res.set kv.1 (.vec kv.2)) res

/-- stats/sampling.py:14-47 `Bootstrap.resampled_call`; `s` is the state of the generator. -/
noncomputable def resampledCall {κ : Type} (choice : Nat → Nat → σ → List Nat × σ)
    (statsFn : PyDict String (Arg β κ) → PyM (PyDict String (List ℝ)))
    (dsets : Src (PyDict String (List β))) (keysOut : List String) (kw : PyDict String κ)
    (nResample : Int) (keep : Bool) (maxs : Option (Src Int)) (s : σ) : PyM (PyDict String BVal) := do
  let outs ← resampleLoop choice statsFn kw nResample.toNat dsets maxs s
  collect keysOut keep outs

end Boot

/-- stats/sampling.py:84-97 `RandomNoise.add_to` given the drawn standard normals `z`
(`n_repeats` rows of `len(x)`): the (n_repeats, n) result; for `n_repeats = 1` Python returns the
single row `out[0]`. -/
noncomputable def addNoise (sigma : ℝ) (inLg : Bool) (x : List ℝ) (z : List (List ℝ)) : List (List ℝ) :=
  z.map (fun row => List.zipWith (fun a dz =>
    let dx := dz * sigma
    if inLg then a * (10 : ℝ) ^ dx else a + dx) x row)

/-! ### stats/preprocessing.py -/

/-- stats/preprocessing.py:30-41 `Standardize.__init__`: (mean, sd) per column of an (n, d) training
array, n >= 1; `sd.clip(sd_lb)`. -/
noncomputable def standardizeInit (d : Nat) (train : List (List ℝ)) (sdLb : ℝ) : List ℝ × List ℝ :=
  ((List.range d).map (fun j => npMean (column train j)),
   (List.range d).map (fun j => max (npStd (column train j)) sdLb))

/-- stats/preprocessing.py:43-44 `_impl_forward` of one row. -/
noncomputable def standardizeFwd (ms : List ℝ × List ℝ) (x : List ℝ) : List ℝ :=
  List.zipWith (fun a q => (a - q.1) / q.2) x (ms.1.zip ms.2)

/-- stats/preprocessing.py:46-47 `_impl_backward` of one row. -/
noncomputable def standardizeBwd (ms : List ℝ × List ℝ) (x : List ℝ) : List ℝ :=
  List.zipWith (fun a q => a * q.2 + q.1) x (ms.1.zip ms.2)

/-! ### stats/prob_dist.py -/
section Prob
variable {α : Type} [Field α] [LinearOrder α]

/-- `scipy.interpolate.interp1d(xp, fp, kind='slinear')(x)`: piecewise linear, ValueError outside
the range of the nodes. -/
def interp1d (xp fp : List α) (x : α) : PyM α :=
  if x < xp.headD 0 ∨ xp.getLastD 0 < x then .error .valueError
  else .ok (Reduction.npInterp x xp fp)

/-- stats/prob_dist.py:11-26 `ProbTransToNorm.__init__`: (xs_sorted, cum_ps).  The minimum of an
empty difference array is a ValueError. -/
def probInit (xs : List α) : PyM (List α × List α) := do
  let s := npSort xs
  let n := xs.length
  if n ≤ 1 then .error .valueError else
  pyAssert ((npDiff s).all (fun d => decide (0 < d)))
  let ps := (List.range n).map (fun i : Nat => (i : α) / ((n : α) - 1))
  return (s, ps)

/-- stats/prob_dist.py:28-32 `forw` of one value; `ppf` is the inverse normal CDF. -/
def probForw (t : List α × List α) (ppf : α → α) (withNorm : Bool) (x : α) : PyM α := do
  let y ← interp1d t.1 t.2 x
  return if withNorm then ppf y else y

/-- stats/prob_dist.py:34-38 `back` of one value; `cdf` is the normal CDF. -/
def probBack (t : List α × List α) (cdf : α → α) (withNorm : Bool) (y : α) : PyM α :=
  interp1d t.2 t.1 (if withNorm then cdf y else y)

end Prob

/-! ### stats/kernel.py -/

/-- stats/kernel.py:32-36 `Gaussian._impl`, one element. -/
noncomputable def gaussian (sigma d : ℝ) : ℝ := Real.exp (-(1 / 2) * (d * d) / (sigma * sigma))

/-- stats/kernel.py:48-51 `Tophat._impl`, one element. -/
noncomputable def tophat (radius d : ℝ) : ℝ := if d < radius then 1 else 0

/-- stats/kernel.py:58-68 `Tophat._ball_volume`; a negative dimension is an AssertionError. -/
noncomputable def ballVolumeNat (r : ℝ) : Nat → ℝ
  | 0 => 1
  | 1 => 2 * r
  | n + 2 => 2 * Real.pi / ((n + 2 : Nat) : ℝ) * r * r * ballVolumeNat r n

/-- stats/kernel.py:58-68, with the assertion. -/
noncomputable def ballVolume (n : Int) (r : ℝ) : PyM ℝ := do
  pyAssert (decide (0 ≤ n))
  return ballVolumeNat r n.toNat

/-- stats/kernel.py:53-56 `Tophat.volume`; with `max_radius=None` the recursion multiplies by None
(TypeError) unless n_dims = 0 (or < 0: AssertionError first). -/
noncomputable def tophatVolume (radius : ℝ) (n : Int) (maxRadius : Option ℝ) : PyM ℝ :=
  match maxRadius with
  | some r => ballVolume n (min r radius)
  | none => if n < 0 then .error .assertionError else if n = 0 then .ok 1 else .error .typeError

/-- The kernels of stats/kernel.py. -/
inductive Kernel
  | gaussian (sigma : ℝ)
  | tophat (radius : ℝ)

/-- Evaluation of a kernel object (stats/kernel.py:14-16). -/
noncomputable def Kernel.eval : Kernel → ℝ → ℝ
  | .gaussian s => Stats.gaussian s
  | .tophat r => Stats.tophat r

/-- stats/kernel.py:71 `KernelSpec`: an object, a name, a number, or a name with its one keyword
argument. -/
inductive KernelSpec
  | obj (k : Kernel)
  | name (s : String)
  | scalar (x : ℝ)
  | pair (s : String) (kwName : String) (x : ℝ)

/-- `self[name](**kw)` (stats/kernel.py:79-82, 95): KeyError for an unknown name (names are assumed to
contain no '/'), TypeError for an unknown keyword. -/
noncomputable def construct (name : String) (kw : Option (String × ℝ)) : PyM Kernel :=
  if name = "gaussian" then
    match kw with
    | none => .ok (.gaussian 1)
    | some (k, x) => if k = "sigma" then .ok (.gaussian x) else .error .typeError
  else if name = "tophat" then
    match kw with
    | none => .ok (.tophat 1)
    | some (k, x) => if k = "radius" then .ok (.tophat x) else .error .typeError
  else .error .keyError

/-- `kernel.key` -/
def Kernel.key : Kernel → String
  | .gaussian _ => "gaussian"
  | .tophat _ => "tophat"

/-- stats/kernel.py:84-95 `_Predefined.create`. -/
noncomputable def create (spec : KernelSpec) : PyM (String × Kernel) :=
  match spec with
  | .obj k => .ok (k.key, k)
  | .name s => do let k ← construct s none; return (s, k)
  | .scalar x => do let k ← construct "gaussian" (some ("sigma", x)); return ("gaussian", k)
  | .pair s kn x => do let k ← construct s (some (kn, x)); return (s, k)

end Pyhipp.Stats
