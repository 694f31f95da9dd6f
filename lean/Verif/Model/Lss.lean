import Verif.Model.Binning
import Verif.Model.Stats
import Verif.Model.Frame
/-
Model of src/pyhipp/astro/stats/lss.py (`BinnedVolumeDensity`) and of
`Bin.parse_p_range_spec` (src/pyhipp/stats/binning.py:9-33).  Arrays are lists of exact reals.
-/
namespace Pyhipp.Lss
open Pyhipp Pyhipp.Binning Pyhipp.Stats

variable {σ : Type}

/-- `np.quantile(x, p)` for one `p`: ValueError outside [0, 1]; for an empty array numpy's result
depends on its version and is an IndexError here. -/
noncomputable def quantileE (x : List ℝ) (p : ℝ) : PyM ℝ :=
  if ¬ (0 ≤ p ∧ p ≤ 1) then .error .valueError
  else if x = [] then .error .indexError
  else .ok (Reduction.npQuantile x p)

/-- `x.min()` / `x.max()`: ValueError for an empty array. -/
noncomputable def npExtremes (x : List ℝ) : PyM (ℝ × ℝ) :=
  match x.min?, x.max? with
  | some a, some b => .ok (a, b)
  | _, _ => .error .valueError

/-- stats/binning.py:10-33 `Bin.parse_p_range_spec`. -/
noncomputable def parsePRange (x : Option (List ℝ)) (range p_range : Option (ℝ × ℝ)) : PyM (ℝ × ℝ) :=
  match x with
  | none => do
      pyAssert range.isSome
      pyAssert p_range.isNone
      match range with
      | some r => .ok r
      | none => .error .assertionError
  | some x =>
      match range with
      | none =>
          match p_range with
          | none => npExtremes x
          | some p => do
              let x_min ← quantileE x p.1
              let x_max ← quantileE x p.2
              return (x_min, x_max)
      | some (x_min, x_max) =>
          match p_range with
          | none => .ok (x_min, x_max)
          | some p => do
              let x_min1 ← quantileE x p.1
              let x_max1 ← quantileE x p.2
              return (max x_min x_min1, min x_max x_max1)

/-- astro/stats/lss.py:67-81 `BinnedVolumeDensity.__hist` after the noise was added.  Division by
`volume * dx` is exact real division (numpy yields inf or nan for a zero divisor: the theorems
exclude it). -/
noncomputable def histDict (x : List ℝ) (bins : BinSpec ℝ) (sub_bins : Int) (range : ℝ × ℝ)
    (weights : Option (List ℝ)) (volume lg_y_pad : ℝ) : PyM (PyDict String (List ℝ)) := do
  let out ← fromOverlappedBins x bins sub_bins range weights
  let y := List.zipWith (fun h dx => h / (volume * dx)) out.h out.dx
  let lg_y := y.map (fun y => Frame.safeLg y lg_y_pad)
  return [("x", out.x), ("dx", out.dx), ("sub_e", out.subE), ("h", out.h), ("y", y), ("lg_y", lg_y)]

/-- The noise argument: `RandomNoise.add_to` (stats/sampling.py:84-97) as a function of the values
and of the state of its generator, or `None`. -/
abbrev Noise (σ : Type) := Option (List ℝ → σ → List ℝ × σ)

/-- astro/stats/lss.py:68-69: `if noise is not None: x_to_bin = noise.add_to(x_to_bin)`. -/
def applyNoise (noise : Noise σ) (x : List ℝ) (s : σ) : List ℝ × σ :=
  match noise with
  | none => (x, s)
  | some f => f x s

/-- stats/sampling.py:27-33 with `stats_fn = __hist`: the resampling loop.  The generators of the
bootstrap and of the noise live in one state `σ` (they may be the same object).  `Bootstrap` merges
`stats_kw` into the resampled columns; none of those names is a column name. -/
noncomputable def volumeLoop (choice : Nat → Nat → σ → List Nat × σ) (noise : Noise σ)
    (stat : List ℝ → Option (List ℝ) → PyM (PyDict String (List ℝ)))
    (dset : PyDict String (List ℝ)) (maxs : Option (List Int)) :
    Nat → σ → PyM (List (PyDict String (List ℝ)))
  | 0, _ => .ok []
  | n + 1, s => do
      let (inp, s) ← resample choice [dset] maxs s
      let x ← getItem inp "x_to_bin"
      let (x, s) := applyNoise noise x s
      let out ← stat x (inp.get? "weights")
      let rest ← volumeLoop choice noise stat dset maxs n s
      return out :: rest

/-- `v[sel]` for a boolean mask: IndexError when the lengths differ. -/
def maskSel (v : List ℝ) (sel : List Bool) : PyM (List ℝ) :=
  if v.length = sel.length then .ok ((v.zip sel).filterMap (fun q => if q.2 then some q.1 else none))
  else .error .indexError

/-- astro/stats/lss.py:42-43: `if np.isscalar(bins): range = Bin.parse_p_range_spec(...)`. -/
noncomputable def rangeFor (x : List ℝ) (bins : BinSpec ℝ) (range p_range : Option (ℝ × ℝ)) :
    PyM (Option (ℝ × ℝ)) :=
  match bins with
  | .num _ => do
      let r ← parsePRange (some x) range p_range
      return some r
  | .edges _ => .ok range

/-- astro/stats/lss.py:48, 52-53: the data set handed to the bootstrap. -/
noncomputable def dsetIn (x : List ℝ) (weights : Option (List ℝ)) (sel : List Bool) :
    PyM (PyDict String (List ℝ)) := do
  let xs ← maskSel x sel
  match weights with
  | none => return [("x_to_bin", xs)]
  | some w =>
      let ws ← maskSel w sel
      return [("x_to_bin", xs), ("weights", ws)]

/-- astro/stats/lss.py:18-65 `BinnedVolumeDensity.from_raw`.  `bins` is an int or an array of edges;
`dsets_max_sizes` of `resample_kw` is `maxs`; the initial states of the generators are `s`.  For an
array of edges `np.histogram` gets `range=None`, which `fromOverlappedBins` does not look at. -/
noncomputable def fromRaw (choice : Nat → Nat → σ → List Nat × σ) (x : List ℝ) (volume : ℝ := 1)
    (bins : BinSpec ℝ := .num 15) (sub_bins : Int := 3) (range : Option (ℝ × ℝ) := none)
    (p_range : Option (ℝ × ℝ) := none) (weights : Option (List ℝ) := none) (n_bootstrap : Int := 10)
    (noise : Noise σ := none) (lg_y_pad : ℝ := 1 / 10 ^ 8) (maxs : Option (List Int) := none) (s : σ) :
    PyM (PyDict String BVal) := do
  let range ← rangeFor x bins range p_range
  let (bins, sub_bins, (x_min, x_max)) ← parseSubBinSpec bins sub_bins range
  let sel := x.map (fun v => decide (v ≥ x_min) && decide (v < x_max))
  let dset ← dsetIn x weights sel
  let outs ← volumeLoop choice noise
    (fun x w => histDict x bins sub_bins (range.getD (x_min, x_max)) w volume lg_y_pad)
    dset maxs n_bootstrap.toNat s
  collect ["h", "y", "lg_y"] true outs

end Pyhipp.Lss
