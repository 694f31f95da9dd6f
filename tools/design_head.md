# Formal model of pyhipp in Lean 4 — design

## What is checked and what is trusted

* Lean 4.33.0's kernel checks every theorem. Theorems depend on at most the standard
  axioms `propext`, `Classical.choice`, `Quot.sound` (see `#print axioms`; the check is
  run by `vcheck`). No axiom is added, nothing is left unproved, no compiled evaluation is used.
* The theorems are about the model in `lean/Verif/Model/*.lean`. The model was written by
  reading `/repo`; every definition cites the file and lines it models. Nothing ties the
  model to the running Python code except that reading.
* Floating point: numbers are elements of an arbitrary linearly ordered field (with floor
  where needed), or of ℝ when square roots / exp / log / sin occur. Where only comparisons are
  used the carrier is an arbitrary linear order, which float64 without NaN satisfies
  exactly; a few definitions carry an explicit NaN. In these chapters rounding is not modelled. In the
  double-precision chapters (C121 onwards: `Base/Float64`, `Model/Float*`) every operation is rounded
  as in IEEE 754 binary64 (nearest, ties to even, gradual underflow, infinities, NaN; the sign of zero
  is not represented); `C121_rounding` states what the rounding function is independently of its
  definition. What a machine gives for the conversion of NaN, infinities and out-of-range values to
  int64 is a parameter. Not modelled there: fused multiply-add, extended precision, float32 arithmetic (conversion to float32 is modelled in Base/Float32, C127).
* int64 overflow, memory layout, numba compilation and parallel FFT workers are not modelled.
* numpy / h5py / scipy / pandas / yaml primitives are modelled by their documented behaviour
  (`searchsorted`, `cumsum`, boolean and integer indexing, `select`, `putmask`, `interp`,
  `histogram`, `meshgrid`, `h5py` link and dataset creation, ...). kd-trees, random number
  generators, FFT and quadrature are parameters of the model with the assumed behaviour stated in
  the hypotheses of the theorems.

## Layout

* `lean/Verif/Base/*`  — python exceptions, ordered dictionaries, list/sequence helpers.
* `lean/Verif/Model/*` — the model, function by function, each definition citing its source.
* `lean/Verif/Props/*` — property theorems (`C01_...`), each followed by `example`s showing that a
  concrete non-trivial case meets the hypotheses, and helper lemmas in `lean/Verif/Lemmas/*`.
* `tools/registry.py` — single source for `properties.jsonl`, `MANIFEST.json` and the list below
  (`python3 tools/gen.py`).
* `seeded/LOG.jsonl` — log of seeded wrong programs and the theorems that rejected them.
