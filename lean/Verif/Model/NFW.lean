import Verif.Model.PowerSpectrum
import Mathlib.Data.List.Sort
/-
Model of src/pyhipp/astro/cosmology/halo_theory.py: the NFW profile calculator and the tabulated functions (scipy's interp1d).
-/
namespace Pyhipp.Cosmology
open Pyhipp

open Classical in
/-- scipy.interpolate.interp1d(x, y, kind='slinear'): the nodes sorted by x. -/
noncomputable def interp1dNodes (x y : List ℝ) : List (ℝ × ℝ) := (x.zip y).insertionSort (fun a b => a.1 ≤ b.1)

open Classical in
/-- Calling the interpolator: ValueError outside the range of the nodes, otherwise the chord between the bracketing nodes. -/
noncomputable def interp1d (x y : List ℝ) (v : ℝ) : PyM ℝ :=
  let ns := interp1dNodes x y
  match ns.head?, ns.getLast? with
  | some lo, some hi =>
      if v < lo.1 then .error .valueError
      else if v > hi.1 then .error .valueError
      else Interpolate.Linear.valueAt ⟨ns.map Prod.fst, ns.map Prod.snd⟩ v
  | _, _ => .error .valueError

/-- cosmology/halo_theory.py:49-51 `mu`. -/
noncomputable def nfwMu (x : ℝ) : ℝ := Real.log (1.0 + x) - x / (1.0 + x)

/-- cosmology/halo_theory.py:53-57 `c_to_v_max2vir`. -/
noncomputable def c_to_v (c : ℝ) : ℝ := Real.sqrt (0.216217 * c / nfwMu c)

/-- cosmology/halo_theory.py:65-69: the concentrations tabulated (n_interp ≥ 1). -/
noncomputable def nfwNodes (n : Nat) : List ℝ := linspaceR 2.1626 50.0 n ++ linspaceR 51 100.0 n ++ linspaceR 101 1000.0 n

/-- cosmology/halo_theory.py:59-60 and 62-72 `v_max2vir_to_c`. -/
noncomputable def v_to_c (n : Nat) (v : ℝ) : PyM ℝ :=
  let c := nfwNodes n
  let v_max2vir := c.map c_to_v
  interp1d v_max2vir c v

end Pyhipp.Cosmology
