import Verif.Base.Py
import Verif.Base.Dict
/-
Model of HasCache and HasMultiCache of src/pyhipp/core/abc.py.

The fallback is an arbitrary program that may itself use the cache: `Prog` is any sequence of cache calls whose further course
depends on the results (and exceptions) of the earlier ones.  Every run of a fallback is recorded in a log with its outcome.
-/
namespace Pyhipp.Cache
open Pyhipp

/-- A program using the cache: return, raise, `get_cache_or(k, fallback)` (the continuation sees the value or the exception, so
it may catch it), `put_cache(k, v)`. -/
inductive Prog (K V : Type) where
  | ret (v : V)
  | raise (e : PyErr)
  | getOr (k : K) (fallback : Prog K V) (cont : PyM V → Prog K V)
  | put (k : K) (v : V) (cont : Prog K V)

/-- The fallbacks that were run to an end, oldest first, with their outcomes. -/
abbrev Log (K V : Type) := List (K × PyM V)

variable {K V : Type} [DecidableEq K]

/-- core/abc.py:133-141 `HasCache.get_cache_or`; `run` runs the fallback on the object. -/
def getCacheOr (key : K) (run : PyDict K V × Log K V → PyM V × PyDict K V × Log K V) (s : PyDict K V × Log K V) : PyM V × PyDict K V × Log K V :=
  match s.1.get? key with
  | some out => (.ok out, s)
  | none => match run s with
      | (.ok out, c, log) => (.ok out, c.set key out, log ++ [(key, .ok out)])
      | (.error e, c, log) => (.error e, c, log ++ [(key, .error e)])

/-- core/abc.py:143-144 `put_cache`. -/
def putCache (key : K) (value : V) (s : PyDict K V × Log K V) : PyDict K V × Log K V := (s.1.set key value, s.2)

/-- Running a program on a `HasCache` object. -/
def exec : Prog K V → PyDict K V × Log K V → PyM V × PyDict K V × Log K V
  | .ret v, s => (.ok v, s)
  | .raise e, s => (.error e, s)
  | .getOr k fallback cont, s => match getCacheOr k (exec fallback) s with
      | (r, s') => exec (cont r) s'
  | .put k v cont, s => exec cont (putCache k v s)

/-! ### Two levels -/

variable {S : Type} [DecidableEq S]

/-- core/abc.py:158-159: `if key not in self.cache: self.cache[key] = {}`. -/
def touch (cache : PyDict K (PyDict S V)) (key : K) : PyDict K (PyDict S V) := match cache.get? key with
  | some _ => cache
  | none => cache.set key []

/-- core/abc.py:151-162 `HasMultiCache.get_cache_or`.  The inner dictionary is looked up again when storing: no method removes
or replaces one, so it is the object `c` that the code holds. -/
def multiGetOr (key : K) (subkey : S) (run : PyDict K (PyDict S V) × Log (K × S) V → PyM V × PyDict K (PyDict S V) × Log (K × S) V)
    (s : PyDict K (PyDict S V) × Log (K × S) V) : PyM V × PyDict K (PyDict S V) × Log (K × S) V :=
  let cache := touch s.1 key
  match ((cache.get? key).getD []).get? subkey with
  | some out => (.ok out, cache, s.2)
  | none => match run (cache, s.2) with
      | (.ok out, cache', log) => (.ok out, cache'.set key (((cache'.get? key).getD []).set subkey out), log ++ [((key, subkey), .ok out)])
      | (.error e, cache', log) => (.error e, cache', log ++ [((key, subkey), .error e)])

/-- Running a program on a `HasMultiCache` object (it has no `put_cache`: AttributeError). -/
def multiExec : Prog (K × S) V → PyDict K (PyDict S V) × Log (K × S) V → PyM V × PyDict K (PyDict S V) × Log (K × S) V
  | .ret v, s => (.ok v, s)
  | .raise e, s => (.error e, s)
  | .getOr k fallback cont, s => match multiGetOr k.1 k.2 (multiExec fallback) s with
      | (r, s') => multiExec (cont r) s'
  | .put _ _ _, s => (.error .attributeError, s)

end Pyhipp.Cache
