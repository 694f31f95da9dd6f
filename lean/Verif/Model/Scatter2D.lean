import Verif.Model.TwoDim
import Verif.Base.Dict
/-
What `Scatter2D.mesh` and `Scatter2D.contour` (src/pyhipp/plot/two_dim.py:168-208) hand to matplotlib, and matplotlib's own checks of it.

Numbers are elements of an ordered field; `z_transform` acts element by element.  `α` is the type of other objects (colour maps, norms, user values).
-/
namespace Pyhipp.TwoDim
open Pyhipp

variable {K α : Type} [Field K] [LinearOrder K] [IsStrictOrderedRing K]

/-- A line style: `(0, (seg, 3))` or `'-'`. -/
inductive Style (K : Type) where
  | dash (seg : K)
  | solid
deriving DecidableEq

/-- A keyword value. -/
inductive KV (K α : Type) where
  | none
  | str (s : String)
  | nums (l : List K)
  | styles (l : List (Style K))
  | obj (a : α)
deriving DecidableEq

/-- A call of a matplotlib drawing method. -/
structure Call (K α : Type) where
  fn : String
  x : List K
  y : List K
  z : List (List K)
  kw : PyDict String (KV K α)

/-- two_dim.py:168-176: the named arguments of `mesh`. -/
structure MeshArgs (K α : Type) where
  cmap : KV K α := .str "jet"
  vmin : KV K α := .none
  vmax : KV K α := .none
  norm : KV K α := .none
  alpha : KV K α := .none
  edgecolors : KV K α := .str "none"

/-- two_dim.py:171-176: the call of `mesh`; `t` is the transform (identity if none is given). -/
def Scatter.meshCall (s : Scatter K) (t : K → K) (m : MeshArgs K α) (user : PyDict String (KV K α)) : Call K α :=
  let kw : PyDict String (KV K α) := [("cmap", m.cmap), ("vmin", m.vmin), ("vmax", m.vmax), ("norm", m.norm), ("alpha", m.alpha), ("edgecolors", m.edgecolors)]
  ⟨"pcolormesh", s.xe, s.ye, s.onMesh t, kw.update user⟩

/-- `np.linspace(a, b, n)`, n points. -/
def npLinspace (a b : K) : Nat → List K
  | 0 => []
  | 1 => [a]
  | n + 2 => linspace a b (n + 1)

/-- two_dim.py:180-183: the named arguments of `contour`. -/
structure ContourArgs (K α : Type) where
  colors : KV K α := .str "k"
  cmap : KV K α := .none
  vmin : KV K α := .none
  vmax : KV K α := .none
  norm : KV K α := .none
  lw : KV K α := .none
  ls : KV K α := .none

/-- two_dim.py:184-185: the default fractions. -/
def defaultPs : List K := [99 / 100, 95 / 100, 68 / 100]

/-- two_dim.py:189-190 -/
def lwOf (lw : KV K α) (n : Nat) : KV K α := match lw with
  | .none => .nums (npLinspace 1 3 n)
  | v => v

/-- two_dim.py:191-193; `np.linspace(3, 6, -1)` is a ValueError. -/
def lsOf (ls : KV K α) (n : Nat) : PyM (KV K α) := match ls with
  | .none => match n with
      | 0 => .error .valueError
      | n + 1 => .ok (.styles ((npLinspace 3 6 n).map Style.dash ++ [.solid]))
  | v => .ok v

/-- two_dim.py:184-206: the call of `contour`. -/
def Scatter.contourCall (s : Scatter K) (t : K → K) (ps : Option (List K)) (useFill : Bool) (m : ContourArgs K α) (user : PyDict String (KV K α)) : PyM (Call K α) := do
  let ps := ps.getD defaultPs
  let levels ← zLevels (s.onMesh t).flatten ps 0
  let lw := lwOf m.lw ps.length
  let ls ← lsOf m.ls ps.length
  let kw : PyDict String (KV K α) := [("levels", .nums levels), ("colors", m.colors), ("cmap", m.cmap), ("vmin", m.vmin), ("vmax", m.vmax), ("norm", m.norm),
    ("linewidths", lw), ("linestyles", ls)]
  let kw := kw.update user
  if useFill then return ⟨"contourf", centers s.xe, centers s.ye, s.onMesh t, kw.del "linewidths"⟩
  else return ⟨"contour", centers s.xe, centers s.ye, s.onMesh t, kw⟩

/-- Is the value there and not None? -/
def given (kw : PyDict String (KV K α)) (k : String) : Bool := match kw.get? k with
  | some .none => false
  | some _ => true
  | none => false

/-- Strictly increasing? -/
def strictInc : List K → Bool
  | a :: b :: t => decide (a < b) && strictInc (b :: t)
  | _ => true

/-- matplotlib `ContourSet.__init__`/`_process_contour_level_args`: either `colors` or `cmap`; `z` at least 2 x 2; `contourf` needs two levels; levels strictly
increasing. (Other checks of matplotlib are left out.) -/
def contourErr (c : Call K α) : Option PyErr :=
  if given c.kw "colors" && given c.kw "cmap" then some .valueError
  else if c.z.length < 2 ∨ (c.z.headD []).length < 2 then some .typeError
  else match c.kw.get? "levels" with
    | some (.nums l) =>
        if c.fn == "contourf" && decide (l.length < 2) then some .valueError
        else if strictInc l then none else some .valueError
    | _ => none

/-- What matplotlib checks. -/
def mplErr (c : Call K α) : Option PyErr := if c.fn == "pcolormesh" then none else contourErr c

/-- Hand a call to matplotlib; `self.plot_outs.append(o)` (177, 207) on success. -/
def draw (outs : List (Call K α)) (c : Call K α) : PyM Unit × List (Call K α) := match mplErr c with
  | some e => (.error e, outs)
  | none => (.ok (), outs ++ [c])

/-- two_dim.py:168-178 `mesh`. -/
def Scatter.mesh (s : Scatter K) (t : K → K) (outs : List (Call K α)) (m : MeshArgs K α) (user : PyDict String (KV K α)) : PyM Unit × List (Call K α) :=
  draw outs (s.meshCall t m user)

/-- two_dim.py:180-208 `contour`. -/
def Scatter.contour (s : Scatter K) (t : K → K) (outs : List (Call K α)) (ps : Option (List K)) (useFill : Bool) (m : ContourArgs K α)
    (user : PyDict String (KV K α)) : PyM Unit × List (Call K α) :=
  match s.contourCall t ps useFill m user with
  | .error e => (.error e, outs)
  | .ok c => draw outs c

end Pyhipp.TwoDim
