import Verif.Model.Plot
/-
Model of src/pyhipp/plot/axes.py: Axes (formatters, frame, drawing methods) and AxesArray.

An `Axes` is its six formatters, the calls that matplotlib accepted (in order), and the calls whose results are in `_last_draw`.
`toRgba` is matplotlib's colour conversion, `accepts` says which calls matplotlib accepts (a rejected one raises ValueError).
-/
namespace Pyhipp.Plot
open Pyhipp

/-- axes.py:12-38 `PlotFmts` and the attributes of `Axes`. -/
structure Ax where
  line : Fmt
  marker : Fmt
  errorbar : Fmt
  fill : Fmt
  text : Fmt
  frame : Fmt
  sent : List Call
  draws : List Call

/-- axes.py:14-19, 31-38 `Axes.__init__`. -/
def Ax.new : Ax := { line := Fmt.line, marker := Fmt.marker (style := .none), errorbar := Fmt.errorbar, fill := Fmt.fill, text := Fmt.text, frame := Fmt.frame,
                     sent := [], draws := [] }

/-- The outcome of a method: its exception, if any, and the axes afterwards. -/
abbrev AxR := PyM Unit × Ax

/-- Two steps; the second is not reached if the first raises. -/
def axThen (r : AxR) (f : Ax → AxR) : AxR := match r with
  | (.ok (), ax) => f ax
  | (.error e, ax) => (.error e, ax)

/-- axes.py:158-162 `fmt_line(**kw)` -/
def Ax.fmtLine (ax : Ax) (kw : PyDict Str PV) : AxR :=
  let r := ax.line.update [kw] []
  (r.1, { ax with line := r.2 })

/-- axes.py:164-168 `fmt_errorbar` -/
def Ax.fmtErrorbar (ax : Ax) (kw : PyDict Str PV) : AxR :=
  let r := ax.errorbar.update [kw] []
  (r.1, { ax with errorbar := r.2 })

/-- axes.py:170-174 `fmt_text` -/
def Ax.fmtText (ax : Ax) (kw : PyDict Str PV) : AxR :=
  let r := ax.text.update [kw] []
  (r.1, { ax with text := r.2 })

/-- axes.py:138-146 `fmt_marker(style=None, c=None, a=None, **kw)`: the style is assigned even if it is not given. -/
def Ax.fmtMarker (ax : Ax) (style c a : PV) (kw : PyDict Str PV) : AxR :=
  let r := andThen (andThen (ax.marker.cFaceEdge c a) (fun d => d.ior [("style".toList, style)])) (fun d => d.update [kw] [])
  (r.1, { ax with marker := r.2 })

/-- axes.py:148-156 `fmt_fill(c=None, a=None, **kw)` -/
def Ax.fmtFill (ax : Ax) (c a : PV) (kw : PyDict Str PV) : AxR :=
  let r := andThen (ax.fill.cFaceEdge c a) (fun d => d.update [kw] [])
  (r.1, { ax with fill := r.2 })

/-- axes.py:72-76 `c(c, a)`: line, marker, error bar, fill. -/
def Ax.c (ax : Ax) (c a : PV) : AxR :=
  let r1 := ax.line.cLine c a
  axThen (r1.1, { ax with line := r1.2 }) (fun ax =>
    let r2 := ax.marker.cFaceEdge c a
    axThen (r2.1, { ax with marker := r2.2 }) (fun ax =>
      let r3 := ax.errorbar.cLine c a
      axThen (r3.1, { ax with errorbar := r3.2 }) (fun ax =>
        let r4 := ax.fill.cFaceEdge c a
        (r4.1, { ax with fill := r4.2 }))))

/-- axes.py:132-136 `fmt_frame(**kw)`: update, then apply all settings. -/
def Ax.fmtFrame (accepts : Call → Bool) (ax : Ax) (kw : PyDict Str PV) : AxR :=
  let r := ax.frame.update [kw] []
  axThen (r.1, { ax with frame := r.2 }) (fun ax =>
    let r := ax.frame.apply accepts ax.sent
    (r.1, { ax with sent := r.2 }))

/-- `{'x': x, 'y': y}` -/
def xy (x y : PV) : PV := .map [("x".toList, x), ("y".toList, y)]

/-- axes.py:78-81 `lim` -/
def Ax.lim (accepts : Call → Bool) (ax : Ax) (x y : PV) : AxR := ax.fmtFrame accepts [("lim".toList, xy x y)]

/-- axes.py:85-91: a given label is wrapped, None stays. -/
def wrapOpt (text : Fmt) : Option Str → PyM PV
  | none => .ok .none
  | some s => do
      let w ← text.wrapText s
      return .str w

/-- axes.py:83-94 `label`; labels are text. -/
def Ax.label (accepts : Call → Bool) (ax : Ax) (x y : Option Str) : AxR := match wrapOpt ax.text x with
  | .error e => (.error e, ax)
  | .ok x => match wrapOpt ax.text y with
      | .error e => (.error e, ax)
      | .ok y => ax.fmtFrame accepts [("label".toList, xy x y)]

/-- axes.py:96-97 `scale` -/
def Ax.scale (accepts : Call → Bool) (ax : Ax) (x y : PV) : AxR := ax.fmtFrame accepts [("scale".toList, xy x y)]

/-- axes.py:99-107 `tick_params(x, y, both, **kw)` -/
def Ax.tickParams (accepts : Call → Bool) (ax : Ax) (x y both : PV) (kw : PyDict Str PV) : AxR :=
  ax.fmtFrame accepts [("tick_params".toList, .map ([("x".toList, x), ("y".toList, y), ("both".toList, both)] ++ kw))]

/-- axes.py:109-111 `label_outer` -/
def Ax.labelOuter (accepts : Call → Bool) (ax : Ax) : AxR := ax.fmtFrame accepts [("label_outer".toList, .bool true)]

/-- The value of a keyword argument, None if not given. -/
def kwVal (kw : PyDict Str PV) (k : Str) : PV := (kw.get? k).getD .none

/-- `self.fmt_marker(**m)` -/
def Ax.fmtMarkerKw (ax : Ax) (m : PyDict Str PV) : AxR :=
  ax.fmtMarker (kwVal m "style".toList) (kwVal m "c".toList) (kwVal m "a".toList) (((m.del "style".toList).del "c".toList).del "a".toList)

/-- `self.fmt_fill(**m)` -/
def Ax.fmtFillKw (ax : Ax) (m : PyDict Str PV) : AxR :=
  ax.fmtFill (kwVal m "c".toList) (kwVal m "a".toList) ((m.del "c".toList).del "a".toList)

/-- `if m is not None: f(**m)` -/
def optStep (m : Option (PyDict Str PV)) (f : Ax → PyDict Str PV → AxR) (ax : Ax) : AxR := match m with
  | none => (.ok (), ax)
  | some m => f ax m

/-- axes.py:113-129 `fmt(frame, marker, fill, line, errorbar, text)` -/
def Ax.fmt (accepts : Call → Bool) (ax : Ax) (frame marker fill line errorbar text : Option (PyDict Str PV)) : AxR :=
  axThen (optStep frame (Ax.fmtFrame accepts) ax) (fun ax =>
    axThen (optStep marker Ax.fmtMarkerKw ax) (fun ax =>
      axThen (optStep fill Ax.fmtFillKw ax) (fun ax =>
        axThen (optStep line Ax.fmtLine ax) (fun ax =>
          axThen (optStep errorbar Ax.fmtErrorbar ax) (fun ax =>
            optStep text Ax.fmtText ax)))))

/-! ### Drawing -/

/-- `self._last_draw.append(self._raw.f(...))` -/
def Ax.draw (accepts : Call → Bool) (ax : Ax) (c : Call) : AxR :=
  if accepts c then (.ok (), { ax with sent := ax.sent ++ [c], draws := ax.draws ++ [c] }) else (.error .valueError, ax)

/-- The styles are collected first; then the call with the user's keywords on top (`kw |= mpl_kw`). -/
def Ax.drawWith (accepts : Call → Bool) (ax : Ax) (name : String) (args : List PV) (base : PyM (PyDict Str PV)) (user : PyDict Str PV) : AxR := match base with
  | .error e => (.error e, ax)
  | .ok kw => ax.draw accepts ⟨name.toList, args, PyDict.update kw user⟩

section
variable (toRgba : PV → PyM (PV × PV × PV × PV))

/-- axes.py:184-188: line and marker colours and sizes. -/
def markerKw (ax : Ax) : PyM (PyDict Str PV) := do
  let marker ← ax.marker.getItem "style".toList
  let ms ← ax.marker.getItem "s".toList
  let mew ← ax.marker.getItem "elw".toList
  let mec ← ax.marker.color toRgba "ec".toList "ea".toList
  let mfc ← ax.marker.color toRgba "fc".toList "fa".toList
  return [("marker".toList, marker), ("ms".toList, ms), ("mew".toList, mew), ("mec".toList, mec), ("mfc".toList, mfc)]

/-- axes.py:182-184: c, lw, ls of the line formatter. -/
def lineKw (ax : Ax) : PyM (PyDict Str PV) := do
  let c ← ax.line.color toRgba "c".toList "a".toList
  let lw ← ax.line.getItem "lw".toList
  let ls ← ax.line.getItem "ls".toList
  return [("c".toList, c), ("lw".toList, lw), ("ls".toList, ls)]

/-- axes.py:282-284: ec, fc, lw, ls of the fill formatter. -/
def fillKw (ax : Ax) : PyM (PyDict Str PV) := do
  let ec ← ax.fill.color toRgba "ec".toList "ea".toList
  let fc ← ax.fill.color toRgba "fc".toList "fa".toList
  let lw ← ax.fill.getItem "lw".toList
  let ls ← ax.fill.getItem "ls".toList
  return [("ec".toList, ec), ("fc".toList, fc), ("lw".toList, lw), ("ls".toList, ls)]

/-- axes.py:176-199 `plot`. -/
def Ax.plot (accepts : Call → Bool) (ax : Ax) (x y label : PV) (user : PyDict Str PV) : AxR :=
  ax.drawWith accepts "plot" [x, y] (do
    let l ← lineKw toRgba ax
    let m ← markerKw toRgba ax
    return l ++ m ++ [("label".toList, label)]) user

/-- axes.py:201-223 `scatter`. -/
def Ax.scatter (accepts : Call → Bool) (ax : Ax) (x y label : PV) (user : PyDict Str PV) : AxR :=
  ax.drawWith accepts "scatter" [x, y] (do
    let marker ← ax.marker.getItem "style".toList
    let s ← ax.marker.getItem "s".toList
    let linewidths ← ax.marker.getItem "elw".toList
    let edgecolors ← ax.marker.color toRgba "ec".toList "ea".toList
    let facecolors ← ax.marker.color toRgba "fc".toList "fa".toList
    return [("s".toList, s), ("linewidths".toList, linewidths), ("marker".toList, marker), ("edgecolors".toList, edgecolors), ("facecolors".toList, facecolors),
      ("label".toList, label)]) user

/-- The limits flags of `errorbar`. -/
structure Lims where
  lo : PV := .bool false
  up : PV := .bool false
  xlo : PV := .bool false
  xup : PV := .bool false

/-- axes.py:234-271 `errorbar`; `yerr` and `xerr` are passed by keyword besides `kw` (they are parameters, so never among the user's keywords). -/
def Ax.errorbarDraw (accepts : Call → Bool) (ax : Ax) (x y yerr xerr label : PV) (lims : Lims) (user : PyDict Str PV) : AxR :=
  ax.drawWith accepts "errorbar" [x, y] (do
    let l ← lineKw toRgba ax
    let ecolor ← ax.errorbar.color toRgba "c".toList "a".toList
    let elinewidth ← ax.errorbar.getItem "lw".toList
    let capsize ← ax.errorbar.getItem "capsize".toList
    let capthick ← ax.errorbar.getItem "capthick".toList
    let m ← markerKw toRgba ax
    return [("yerr".toList, yerr), ("xerr".toList, xerr)] ++ l ++ [("ecolor".toList, ecolor), ("elinewidth".toList, elinewidth), ("capsize".toList, capsize),
      ("capthick".toList, capthick)] ++ m ++ [("label".toList, label), ("lolims".toList, lims.lo), ("uplims".toList, lims.up), ("xlolims".toList, lims.xlo),
      ("xuplims".toList, lims.xup)]) user

/-- axes.py:273-291 `fill_between`; `y2` is passed by keyword. -/
def Ax.fillBetween (accepts : Call → Bool) (ax : Ax) (x y1 y2 whr interpolate label step : PV) (user : PyDict Str PV) : AxR :=
  ax.drawWith accepts "fill_between" [x, y1] (do
    let f ← fillKw toRgba ax
    return [("y2".toList, y2)] ++ f ++ [("where".toList, whr), ("interpolate".toList, interpolate), ("step".toList, step), ("label".toList, label)]) user

/-- axes.py:324-344 `stairs`. -/
def Ax.stairs (accepts : Call → Bool) (ax : Ax) (values edges orientation baseline fill label : PV) (user : PyDict Str PV) : AxR :=
  ax.drawWith accepts "stairs" [values, edges] (do
    let f ← fillKw toRgba ax
    return [("orientation".toList, orientation), ("baseline".toList, baseline), ("fill".toList, fill), ("label".toList, label)] ++ f) user

/-- axes.py:346-372 `hist`; `opts` are bins, range, density, weights, histtype, log, align, rwidth, orientation. -/
def Ax.hist (accepts : Call → Bool) (ax : Ax) (x bins range density weights histtype log align rwidth orientation : PV) (user : PyDict Str PV) : AxR :=
  ax.drawWith accepts "hist" [x] (do
    let f ← fillKw toRgba ax
    return [("bins".toList, bins), ("range".toList, range), ("density".toList, density), ("weights".toList, weights)] ++ f ++
      [("histtype".toList, histtype), ("log".toList, log), ("align".toList, align), ("rwidth".toList, rwidth), ("orientation".toList, orientation)]) user

/-- axes.py:373-392 `text(content, coords)`; `transAxes` is the axes' transform. -/
def Ax.textDraw (accepts : Call → Bool) (transAxes : PV) (ax : Ax) (content : Str) (coords va ha : PV) (user : PyDict Str PV) : AxR :=
  match (do
    let color ← ax.text.color toRgba "c".toList "a".toList
    let fontsize ← ax.text.getItem "s".toList
    let w ← ax.text.wrapText content
    let cs ← coords.iter
    return (cs ++ [.str w], [("transform".toList, transAxes), ("color".toList, color), ("fontsize".toList, fontsize), ("va".toList, va), ("ha".toList, ha)])
      : PyM (List PV × PyDict Str PV)) with
  | .error e => (.error e, ax)
  | .ok (args, kw) => ax.draw accepts ⟨"text".toList, args, PyDict.update kw user⟩

/-! ### errorfill -/

/-- The forms of `yerr`: None, a number, a one-dimensional array, a two-dimensional one (its rows). -/
inductive YErr where
  | none
  | scalar (q : ℚ)
  | arr1 (l : List ℚ)
  | arr2 (rows : List (List ℚ))

/-- numpy broadcasting of two one-dimensional arrays. -/
def bcast (f : ℚ → ℚ → ℚ) (a b : List ℚ) : PyM (List ℚ) :=
  if a.length = b.length then .ok (List.zipWith f a b)
  else match a, b with
    | [p], b => .ok (b.map (f p))
    | a, [q] => .ok (a.map (fun p => f p q))
    | _, _ => .error .valueError

/-- axes.py:307-319: the lower and the upper edge of the band; `y - None` is a TypeError, a two-dimensional error that has not two rows a ValueError. -/
def band (y : List ℚ) : YErr → PyM (List ℚ × List ℚ)
  | .none => .error .typeError
  | .scalar q => .ok (y.map (fun v => v - q), y.map (fun v => v + q))
  | .arr1 l => do
      let lo ← bcast (fun v e => v - e) y l
      let hi ← bcast (fun v e => v + e) y l
      return (lo, hi)
  | .arr2 [l, u] => do
      let lo ← bcast (fun v e => v - e) y l
      let hi ← bcast (fun v e => v + e) y u
      return (lo, hi)
  | .arr2 _ => .error .valueError

/-- An array of numbers as a value. -/
def numsPV (l : List ℚ) : PV := .seq (l.map .num)

/-- axes.py:293-322 `errorfill`: `fill_between(x, ylo, yhi, **({'label': fill_label} | fill_between_kw))` where the label and the other parameters
of `fill_between` (where, interpolate, step) may be among the keywords. -/
def Ax.errorfill (accepts : Call → Bool) (ax : Ax) (x : PV) (y : List ℚ) (yerr : YErr) (label fill_label : PV) (fill_kw plot_kw : PyDict Str PV) : AxR :=
  match band y yerr with
  | .error e => (.error e, ax)
  | .ok (lo, hi) => axThen (ax.plot toRgba accepts x (numsPV y) label plot_kw) (fun ax =>
      let kw := PyDict.update [("label".toList, fill_label)] fill_kw
      ax.fillBetween toRgba accepts x (numsPV lo) (numsPV hi) (kwVal kw "where".toList) ((kw.get? "interpolate".toList).getD (.bool false))
        (kwVal kw "label".toList) (kwVal kw "step".toList)
        ((((kw.del "where".toList).del "interpolate".toList).del "label".toList).del "step".toList))

end

/-- axes.py:404-409 `loc_map` -/
def locMap : PyDict Str Str :=
  [("r", "right"), ("lr", "lower right"), ("ll", "lower left"), ("cl", "center left"), ("ur", "upper right"), ("ul", "upper left"), ("uc", "upper center"),
    ("center left", "cl"), ("center right", "cr"), ("c", "center")].map (fun p : String × String => (p.1.toList, p.2.toList))

/-- axes.py:410 `loc_map.get(loc, loc)` -/
def legLoc (loc : Str) : Str := (locMap.get? loc).getD loc

/-- axes.py:394-432 `leg`; `opts` are the named options in the order of the code, with their names. -/
def Ax.leg (accepts : Call → Bool) (ax : Ax) (args : List PV) (loc : Str) (opts user : PyDict Str PV) : AxR :=
  ax.draw accepts ⟨"legend".toList, args, PyDict.update (("loc".toList, .str (legLoc loc)) :: opts) user⟩

/-- axes.py:50-52 `last_draw`: IndexError if nothing has been drawn. -/
def Ax.lastDraw (ax : Ax) : PyM Call := match ax.draws.getLast? with
  | some c => .ok c
  | none => .error .indexError

/-! ### Arrays of axes -/

/-- An array of axes: a 0-dimensional one holds one axes object; the others a list of sub-arrays of the next lower dimension.  Axes are numbered. -/
inductive AxArr where
  | one (i : Nat)
  | sub (l : List AxArr)

/-- axes.py:464-476 `__getitem__`, `__iter__`: the elements of the first dimension (an `Axes`, or an `AxesArray`); `len` of a 0-dimensional array is a TypeError. -/
def AxArr.items : AxArr → PyM (List AxArr)
  | .one _ => .error .typeError
  | .sub l => .ok l

mutual
/-- axes.py:494-588: the body of a method for one item of `for ax in self`: an `Axes` runs `f`, an `AxesArray` loops over its items. -/
def AxArr.visit (f : Nat → (Nat → Ax) → PyM Unit × (Nat → Ax)) : AxArr → (Nat → Ax) → PyM Unit × (Nat → Ax)
  | .one i, w => f i w
  | .sub l, w => AxArr.visitList f l w
/-- The loop. -/
def AxArr.visitList (f : Nat → (Nat → Ax) → PyM Unit × (Nat → Ax)) : List AxArr → (Nat → Ax) → PyM Unit × (Nat → Ax)
  | [], w => (.ok (), w)
  | a :: t, w => match AxArr.visit f a w with
      | (.ok (), w') => AxArr.visitList f t w'
      | (.error e, w') => (.error e, w')
end

/-- A method of one axes object. -/
def onAx (m : Ax → AxR) (i : Nat) (w : Nat → Ax) : PyM Unit × (Nat → Ax) :=
  let r := m (w i)
  (r.1, fun j => if j = i then r.2 else w j)

/-- axes.py:494-588: a method of an `AxesArray` (grid, c, lim, label, scale, tick_params, label_outer, fmt, fmt_*, leg). -/
def AxArr.all (m : Ax → AxR) (a : AxArr) (w : Nat → Ax) : PyM Unit × (Nat → Ax) := match a.items with
  | .error e => (.error e, w)
  | .ok l => AxArr.visitList (onAx m) l w

/-- axes.py:478-480 `flat`, 458-462 `to_list()`: the axes in C order. -/
def AxArr.flat : AxArr → List Nat
  | .one i => [i]
  | .sub l => (l.map AxArr.flat).flatten

end Pyhipp.Plot
