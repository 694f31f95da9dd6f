import Verif.Model.Axes
/-
Model of src/pyhipp/plot/figure.py (FigureBase.subplots, subfigures, colorbar), src/pyhipp/plot/shortcut.py (figure, subplots, subfigures)
and src/pyhipp/plot/color.py (Color, ColorSeq).

matplotlib creates figures (a numbered list) and the cells of a grid; a grid of rows × columns is returned squeezed.  Whole numbers stand for ints.
-/
namespace Pyhipp.Plot
open Pyhipp

/-! ### Figures and grids -/

/-- What matplotlib was asked of one figure. -/
inductive FigCall where
  | subplots (nr nc : Nat) (kw gridspec subplot : PyDict Str PV)
  | subfigures (nr nc : Nat) (kw : PyDict Str PV)

/-- A figure: the arguments of its creation and the calls made on it. -/
structure Fig where
  kw : PyDict Str PV
  calls : List FigCall

/-- A positive integer; matplotlib raises ValueError for other numbers, `None * k` is a TypeError (figure.py:35, 50).  Simplification: the class of the
exception for values that are not numbers. -/
def PV.posInt : PV → PyM Nat
  | .num q => if q.den = 1 ∧ 0 < q.num then .ok q.num.toNat else .error .valueError
  | _ => .error .typeError

/-- matplotlib `Figure.subplots(squeeze=True)`: the cells in C order, numbered from `k`; one cell alone, one row or one column as a one-dimensional array. -/
def squeezed (k nr nc : Nat) : AxArr :=
  if nr * nc = 1 then .one k
  else if nr = 1 ∨ nc = 1 then .sub ((List.range (nr * nc)).map (fun i : Nat => .one (k + i)))
  else .sub ((List.range nr).map (fun r : Nat => .sub ((List.range nc).map (fun c : Nat => .one (k + r * nc + c)))))

/-- What the user gets: one `Axes` (`SubFigure`), or an `AxesArray` (`SubFigureArray`) of the array matplotlib returned. -/
inductive Cells where
  | one (a : AxArr)
  | array (a : AxArr)

/-- figure.py:35-40: `out_n == 1` decides what wraps matplotlib's result. -/
def wrapCells (nr nc : Nat) (raw : AxArr) : Cells := if nr * nc = 1 then .one raw else .array raw

/-- A dictionary's entry, None if missing. -/
def entry (d : PyDict Str PV) (k : String) : PV := (d.get? k.toList).getD .none

/-- figure.py:25-42 `FigureBase.subplots`; `k` numbers the new axes. -/
def Fig.subplots (fig : Fig) (k : Nat) (n share extent space ratios : PV) (mpl_subplot_kw : Option (PyDict Str PV)) (margin : PV)
    (mpl_gridspec_kw : PyDict Str PV) : PyM (Cells × Fig) := do
  let kw ← (Fmt.subplots n share extent space ratios margin).getSubplotsKw
  let subplot := match mpl_subplot_kw with
    | some m => kw.subplot.update m
    | none => kw.subplot
  let gridspec := kw.gridspec.update mpl_gridspec_kw
  let nr ← (entry kw.kw "nrows").posInt
  let nc ← (entry kw.kw "ncols").posInt
  return (wrapCells nr nc (squeezed k nr nc), { fig with calls := fig.calls ++ [.subplots nr nc kw.kw gridspec subplot] })

/-- figure.py:44-58 `FigureBase.subfigures`; the user's keywords may replace everything, also `nrows` and `ncols`. -/
def Fig.subfigures (fig : Fig) (k : Nat) (n space ratios : PV) (mpl_subfigures_kw : PyDict Str PV) : PyM (Cells × Fig) := do
  let kw ← (Fmt.subfigures n space ratios).getSubfiguresKw
  let kw := kw.update mpl_subfigures_kw
  let nr ← (entry kw "nrows").posInt
  let nc ← (entry kw "ncols").posInt
  return (wrapCells nr nc (squeezed k nr nc), { fig with calls := fig.calls ++ [.subfigures nr nc kw] })

/-! ### The shortcuts -/

/-- shortcut.py:8-9: one number is both. -/
def sizePair (v : PV) : PV := if v.isScalar then .seq [v, v] else v

/-- shortcut.py:6-12 `figure(figsize=None, dpi=None, layout='tight', **mpl_figure_kw)` called with `**kw`: the new figure is the last of the list. -/
def newFigure (figs : List Fig) (kw : PyDict Str PV) : List Fig :=
  figs ++ [{ kw := PyDict.update [("figsize".toList, sizePair (entry kw "figsize")), ("dpi".toList, entry kw "dpi"),
                       ("layout".toList, (kw.get? "layout".toList).getD (.str "tight".toList))]
                     (((kw.del "figsize".toList).del "dpi".toList).del "layout".toList),
             calls := [] }]

/-- `a * b` for numbers. -/
def PV.mul : PV → PV → PyM PV
  | .num a, .num b => .ok (.num (a * b))
  | _, _ => .error .typeError

/-- shortcut.py:29-33, 62-66: `figsize` or one sub-figure's size times the numbers of columns and rows. -/
def autoSize (figsize subsize nr nc : PV) : PyM PV :=
  if figsize.isNone then do
    let (w, h) ← (sizePair subsize).unpack2
    let fw ← w.mul nc
    let fh ← h.mul nr
    return .seq [fw, fh]
  else .ok figsize

/-- `if figure_kw is not None: kw |= figure_kw` -/
def withKw (kw : PyDict Str PV) : Option (PyDict Str PV) → PyDict Str PV
  | none => kw
  | some m => kw.update m

/-- shortcut.py:14-47 `subplots`: the figures afterwards and the outcome (the new figure is the last).  The new figure stays if its grid is refused. -/
def subplots (figs : List Fig) (k : Nat) (n share extent space ratios figsize layout subsize : PV) (figure_kw mpl_subplot_kw : Option (PyDict Str PV)) (margin : PV)
    (mpl_gridspec_kw : PyDict Str PV) : PyM Cells × List Fig :=
  match (do
    let (nr, nc) ← rowsCols n
    autoSize figsize subsize nr nc) with
  | .error e => (.error e, figs)
  | .ok figsize =>
      let layout := if layout.isNone && space.isNone then .str "tight".toList else layout
      let figs1 := newFigure figs (withKw [("figsize".toList, figsize), ("layout".toList, layout)] figure_kw)
      match figs1.getLast? with
      | none => (.error .indexError, figs1)
      | some fig => match fig.subplots k n share extent space ratios mpl_subplot_kw margin mpl_gridspec_kw with
          | .error e => (.error e, figs1)
          | .ok (cells, fig) => (.ok cells, figs1.dropLast ++ [fig])

/-- shortcut.py:49-73 `subfigures`: `layout` is passed on as it is. -/
def subfigures (figs : List Fig) (k : Nat) (n space ratios figsize layout subsize facecolor : PV) (figure_kw : Option (PyDict Str PV)) (mpl_subfigures_kw : PyDict Str PV) :
    PyM Cells × List Fig :=
  match (do
    let (nr, nc) ← rowsCols n
    autoSize figsize subsize nr nc) with
  | .error e => (.error e, figs)
  | .ok figsize =>
      let figs1 := newFigure figs (withKw [("figsize".toList, figsize), ("layout".toList, layout)] figure_kw)
      match figs1.getLast? with
      | none => (.error .indexError, figs1)
      | some fig => match fig.subfigures k n space ratios (("facecolor".toList, facecolor) :: mpl_subfigures_kw) with
          | .error e => (.error e, figs1)
          | .ok (cells, fig) => (.ok cells, figs1.dropLast ++ [fig])

/-! ### The axes of a colour bar -/

/-- What may be passed as `ax` to `colorbar`: nothing, a pyhipp `Axes`, a pyhipp `AxesArray`, a raw matplotlib object, an iterable of such. -/
inductive AxArg where
  | none
  | axes (i : Nat)
  | arr (a : AxArr)
  | raw (id : Nat)
  | items (l : List AxArg)

/-- What matplotlib receives: raw axes, other raw objects, pyhipp objects it cannot use. -/
inductive MplArg where
  | none
  | axes (i : Nat)
  | raw (id : Nat)
  | list (l : List MplArg)
  | notRaw

/-- figure.py:76: an element of the iterable. -/
def AxArg.elem : AxArg → MplArg
  | .axes i => .axes i
  | .raw id => .raw id
  | .none => .none
  | .arr _ => .notRaw
  | .items _ => .notRaw

/-- figure.py:71-76: the axes of `colorbar`.  (An `AxesArray` inside an iterable stays what it is.) -/
def AxArg.unwrap : AxArg → MplArg
  | .none => .none
  | .axes i => .axes i
  | .arr a => .list (a.flat.map .axes)
  | .raw id => .raw id
  | .items l => .list (l.map AxArg.elem)

/-! ### Colours -/

/-- Red, green, blue, alpha. -/
abbrev Rgba := ℚ × ℚ × ℚ × ℚ

/-- What a colour is made of: a matplotlib specification or another `Color` object. -/
inductive ColorSpec where
  | spec (v : PV)
  | ref (r : Nat)

/-- The `Color` objects, in the order of creation. -/
abbrev Colors := List Rgba

/-- color.py:28-34 `Color.to_rgba`; a reference to no object does not occur. -/
def toRgbaSpec (mpl : PV → PyM Rgba) (h : Colors) : ColorSpec → PyM Rgba
  | .spec v => mpl v
  | .ref r => match h[r]? with
      | some c => .ok c
      | none => .error .attributeError

/-- color.py:18-20 `alpha(value)` of object `r`. -/
def setAlpha (h : Colors) (r : Nat) (a : ℚ) : Colors := match h[r]? with
  | some (x, y, z, _) => h.set r (x, y, z, a)
  | none => h

/-- color.py:13-16 `Color(c, a)`: the new object is the last. -/
def newColor (mpl : PV → PyM Rgba) (h : Colors) (c : ColorSpec) (a : Option ℚ) : PyM Colors := do
  let rgba ← toRgbaSpec mpl h c
  let h' := h ++ [rgba]
  return match a with
    | none => h'
    | some a => setAlpha h' h.length a

/-- color.py:64-65 `ColorSeq(colors)`: one new `Color` per element; their numbers. -/
def newSeq (mpl : PV → PyM Rgba) (h : Colors) : List ColorSpec → PyM (List Nat × Colors)
  | [] => .ok ([], h)
  | c :: cs => do
      let h' ← newColor mpl h c none
      let (rs, h'') ← newSeq mpl h' cs
      return (h.length :: rs, h'')

/-- color.py:79-80 `ColorSeq.get_rgba`. -/
def seqRgba (h : Colors) (rs : List Nat) : List Rgba := rs.filterMap (fun r : Nat => h[r]?)

/-- A colour given by four numbers. -/
def rgbaPV (c : Rgba) : PV := .seq [.num c.1, .num c.2.1, .num c.2.2.1, .num c.2.2.2]

/-- color.py:67-70 `ColorSeq.predefined(name)`. -/
def predefined (mpl : PV → PyM Rgba) (table : PyDict Str (List PV)) (h : Colors) (name : Str) : PyM (List Nat × Colors) := match table.get? name with
  | none => .error .keyError
  | some cs => newSeq mpl h (cs.map .spec)

/-- The levels of `from_cmap`: a number of levels, or the levels. -/
inductive Levels where
  | count (n : Int)
  | list (l : List ℚ)

/-- color.py:76-77: `np.linspace(0., 1., levels)`; a negative number is a ValueError. -/
def Levels.values : Levels → PyM (List ℚ)
  | .list l => .ok l
  | .count n => if n < 0 then .error .valueError
      else if n = 1 then .ok [0]
      else .ok ((List.range n.toNat).map (fun i : Nat => (i : ℚ) / ((n.toNat - 1 : ℕ) : ℚ)))

/-- color.py:71-77 `ColorSeq.from_cmap(cmap, levels, alpha)`; `cmap` gives the colour of a level (a float), `alpha` replaces its transparency. -/
def fromCmap (mpl : PV → PyM Rgba) (cmap : ℚ → Rgba) (h : Colors) (levels : Levels) (alpha : Option ℚ) : PyM (List Nat × Colors) := do
  let ls ← levels.values
  newSeq mpl h (ls.map (fun x : ℚ =>
    let c := cmap x
    .spec (rgbaPV (c.1, c.2.1, c.2.2.1, alpha.getD c.2.2.2))))

end Pyhipp.Plot
