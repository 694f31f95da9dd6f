import Verif.Base.Py
import Verif.Base.Dict
import Verif.Base.Str
import Mathlib.Algebra.Order.Field.Rat
/-
Model of src/pyhipp/plot/artist_formatter.py: the formatters, the frame of an axes and the layout arguments of subplots.

The values a user passes are None, booleans, numbers, text, sequences, mappings with text keys, and other objects.  Numbers are
rational.  Calls to matplotlib are recorded; matplotlib may reject a call (`accepts`), which is an exception of the caller.
-/
namespace Pyhipp.Plot
open Pyhipp

/-- A Python value handed to the plotting functions. -/
inductive PV where
  | none
  | bool (b : Bool)
  | num (q : ℚ)
  | str (s : Str)
  | seq (l : List PV)
  | map (es : List (Str × PV))
  | obj (id : Nat)

/-- `v is None` -/
def PV.isNone : PV → Bool
  | .none => true
  | _ => false

/-- `np.isscalar`: numbers, booleans and text; not None. -/
def PV.isScalar : PV → Bool
  | .bool _ => true
  | .num _ => true
  | .str _ => true
  | _ => false

/-- `isinstance(v, Mapping)`; gives the items. -/
def PV.asMap : PV → Option (List (Str × PV))
  | .map es => some es
  | _ => Option.none

/-- `list(v)`: sequences, text (its characters), mappings (their keys). -/
def PV.iter : PV → PyM (List PV)
  | .seq l => .ok l
  | .str s => .ok (s.map (fun c : Char => .str [c]))
  | .map es => .ok (es.map (fun kv => .str kv.1))
  | _ => .error .typeError

/-- `len(v)` -/
def PV.len (v : PV) : PyM Nat := do
  let l ← v.iter
  return l.length

/-- `a, b = v` -/
def PV.unpack2 (v : PV) : PyM (PV × PV) := do
  let l ← v.iter
  match l with
  | [a, b] => return (a, b)
  | _ => .error .valueError

/-- `a, b, c, d = v` -/
def PV.unpack4 (v : PV) : PyM (PV × PV × PV × PV) := do
  let l ← v.iter
  match l with
  | [a, b, c, d] => return (a, b, c, d)
  | _ => .error .valueError

/-- Truth of a value. -/
def PV.truth : PV → Bool
  | .none => false
  | .bool b => b
  | .num q => q ≠ 0
  | .str s => s ≠ []
  | .seq l => !l.isEmpty
  | .map es => !es.isEmpty
  | .obj _ => true

/-- `1.0 - v` -/
def PV.oneMinus : PV → PyM PV
  | .num q => .ok (.num (1 - q))
  | .bool b => .ok (.num (1 - (if b then 1 else 0)))
  | _ => .error .typeError

/-! ### Formatters -/

/-- artist_formatter.py:10-13 `ArtistFormatter`: the dictionary of settings (insertion-ordered). -/
abbrev Fmt := PyDict Str PV

/-- artist_formatter.py:15-21 `__ior__`: items are set one by one; an unknown key raises.  (`d[k] = v` of DataDict is a plain
assignment as no setting's name contains '/'.) -/
def Fmt.ior (d : Fmt) : PyDict Str PV → PyM Unit × Fmt
  | [] => (.ok (), d)
  | (k, v) :: rest => if d.has k then Fmt.ior (d.set k v) rest else (.error .keyError, d)

/-- artist_formatter.py:23-27 `__setitem__`. -/
def Fmt.setItem (d : Fmt) (key : Str) (value : PV) : PyM Unit × Fmt :=
  if d.has key then (.ok (), d.set key value) else (.error .keyError, d)

/-- artist_formatter.py:30-31: `for d in fmt_dicts: self |= d`. -/
def Fmt.iors (d : Fmt) : List (PyDict Str PV) → PyM Unit × Fmt
  | [] => (.ok (), d)
  | m :: ms => match d.ior m with
      | (.ok (), d') => Fmt.iors d' ms
      | (.error e, d') => (.error e, d')

/-- artist_formatter.py:29-33 `update`. -/
def Fmt.update (d : Fmt) (dicts : List (PyDict Str PV)) (kw : PyDict Str PV) : PyM Unit × Fmt :=
  match d.iors dicts with
  | (.ok (), d') => d'.ior kw
  | (.error e, d') => (.error e, d')

/-- `v[k]` for text `k` on the way of a slash-separated name. -/
def PV.item (v : PV) (k : Str) : PyM PV := match v with
  | .map es => match PyDict.get? es k with
      | some w => .ok w
      | Option.none => .error .keyError
  | _ => .error .typeError

/-- core/containers/data_dict.py:49-54: the walk along the components. -/
def PV.walk (v : PV) : List Str → PyM PV
  | [] => .ok v
  | k :: ks => do
      let w ← v.item k
      w.walk ks

/-- A lookup of a plain name. -/
def Fmt.direct (d : Fmt) (key : Str) : PyM PV := match PyDict.get? d key with
  | some v => .ok v
  | Option.none => .error .keyError

/-- artist_formatter.py:35-36 `__getitem__` with text, through DataDict.__getitem__ (data_dict.py:41-55). -/
def Fmt.getItem (d : Fmt) (key : Str) : PyM PV :=
  if '/' ∉ key then d.direct key
  else match Str.comps '/' key with
    | [] => .error .assertionError
    | k :: ks => do
        let v ← d.direct k
        v.walk ks

/-- `self[k1, k2, ...]`: a tuple of values. -/
def Fmt.getItems (d : Fmt) (keys : List Str) : PyM (List PV) := keys.mapM d.getItem

/-- `if c is not None: self.update(key=c)` (artist_formatter.py:47-50 etc.). -/
def Fmt.setIf (d : Fmt) (key : Str) (c : PV) : PyM Unit × Fmt :=
  if c.isNone then (.ok (), d) else d.update [] [(key, c)]

/-- Two steps; the second is not reached if the first raises. -/
def andThen (r : PyM Unit × Fmt) (f : Fmt → PyM Unit × Fmt) : PyM Unit × Fmt := match r with
  | (.ok (), d) => f d
  | (.error e, d) => (.error e, d)

/-- artist_formatter.py:39-43 `MarkerFormatter.__init__`. -/
def Fmt.marker (style : PV := .str "o".toList) (s : PV := .num 10) (ec : PV := .str "k".toList) (fc : PV := .str "k".toList)
    (ea : PV := .num 1) (fa : PV := .num (3 / 10)) (elw : PV := .num 1) : Fmt :=
  [("style".toList, style), ("ec".toList, ec), ("fc".toList, fc), ("ea".toList, ea), ("fa".toList, fa), ("s".toList, s), ("elw".toList, elw)]

/-- artist_formatter.py:72-75 `LineFormatter.__init__`. -/
def Fmt.line (c : PV := .str "k".toList) (a : PV := .num 1) (lw : PV := .num (5 / 2)) (ls : PV := .str "-".toList) : Fmt :=
  [("c".toList, c), ("a".toList, a), ("lw".toList, lw), ("ls".toList, ls)]

/-- artist_formatter.py:89-93 `ErrorBarFormatter.__init__`. -/
def Fmt.errorbar (c : PV := .str "k".toList) (a : PV := .num 1) (lw : PV := .num 1) (capsize : PV := .num 4) (capthick : PV := .num 1) : Fmt :=
  [("c".toList, c), ("a".toList, a), ("lw".toList, lw), ("capsize".toList, capsize), ("capthick".toList, capthick)]

/-- artist_formatter.py:108-110 `FillFormatter.__init__`. -/
def Fmt.fill (fc : PV := .str "k".toList) (ec : PV := .str "k".toList) (fa : PV := .num (1 / 5)) (ea : PV := .num 1) (lw : PV := .num 1)
    (ls : PV := .str "-".toList) : Fmt :=
  [("fc".toList, fc), ("ec".toList, ec), ("fa".toList, fa), ("ea".toList, ea), ("lw".toList, lw), ("ls".toList, ls)]

/-- artist_formatter.py:141-142 `TextFormatter.__init__`. -/
def Fmt.text (use_tex : PV := .bool true) (c : PV := .str "k".toList) (a : PV := .num 1) (s : PV := .num 15) : Fmt :=
  [("use_tex".toList, use_tex), ("c".toList, c), ("a".toList, a), ("s".toList, s)]

/-- artist_formatter.py:45-50 and 113-118 `fc` of the marker and the fill formatter. -/
def Fmt.fc (d : Fmt) (c a : PV) : PyM Unit × Fmt := andThen (d.setIf "fc".toList c) (fun d => d.setIf "fa".toList a)

/-- artist_formatter.py:52-57 and 120-125 `ec`. -/
def Fmt.ec (d : Fmt) (c a : PV) : PyM Unit × Fmt := andThen (d.setIf "ec".toList c) (fun d => d.setIf "ea".toList a)

/-- artist_formatter.py:59-63 and 127-131 `c` of the marker and the fill formatter. -/
def Fmt.cFaceEdge (d : Fmt) (c a : PV) : PyM Unit × Fmt := andThen (d.fc c a) (fun d => d.ec c a)

/-- artist_formatter.py:77-83, 96-102, 149-155 `c` of the line, the error bar and the text formatter. -/
def Fmt.cLine (d : Fmt) (c a : PV) : PyM Unit × Fmt := andThen (d.setIf "c".toList c) (fun d => d.setIf "a".toList a)

/-- artist_formatter.py:144-147 `wrap_text`. -/
def Fmt.wrapText (d : Fmt) (text : Str) : PyM Str := do
  let t ← d.getItem "use_tex".toList
  return if t.truth then '$' :: text ++ ['$'] else text

/-- plot/color.py:8-16, 28-35 `Color(c, a)` and `get_rgba`: `toRgba` is matplotlib's conversion of a colour specification to (r, g, b, alpha)
(for a `Color` object its own four components); a given alpha replaces the fourth component. -/
def rgba (toRgba : PV → PyM (PV × PV × PV × PV)) (c a : PV) : PyM PV := do
  let (r, g, b, alpha) ← toRgba c
  return .seq [r, g, b, if a.isNone then alpha else a]

/-- artist_formatter.py:65-69, 133-137 `get_ec`, `get_fc`; 85-86, 104-105, 157-158 `get_c` with `.get_rgba()`: the colour of two settings. -/
def Fmt.color (toRgba : PV → PyM (PV × PV × PV × PV)) (d : Fmt) (ck ak : Str) : PyM PV := do
  let c ← d.getItem ck
  let a ← d.getItem ak
  rgba toRgba c a

/-! ### Calls to matplotlib -/

/-- A call of a method of a matplotlib object: name, positional arguments, keyword arguments. -/
structure Call where
  name : Str
  args : List PV
  kw : PyDict Str PV

/-- One call; a rejected one raises (ValueError). -/
def call (accepts : Call → Bool) (c : Call) (done : List Call) : PyM Unit × List Call :=
  if accepts c then (.ok (), done ++ [c]) else (.error .valueError, done)

/-- Calls in order, until one is rejected. -/
def calls (accepts : Call → Bool) : List Call → List Call → PyM Unit × List Call
  | [], done => (.ok (), done)
  | c :: cs, done => match call accepts c done with
      | (.ok (), done') => calls accepts cs done'
      | (.error e, done') => (.error e, done')

/-! ### The frame -/

/-- artist_formatter.py:162-168 `FrameFormatter.__init__`. -/
def Fmt.frame (lim label scale ticks ticklabels tick_params label_outer : PV := .none) : Fmt :=
  [("lim".toList, lim), ("label".toList, label), ("scale".toList, scale), ("ticks".toList, ticks), ("ticklabels".toList, ticklabels),
    ("tick_params".toList, tick_params), ("label_outer".toList, label_outer)]

/-- `m.pop(k, None)`: the value and the rest. -/
def popNone (m : PyDict Str PV) (k : Str) : PV × PyDict Str PV := ((m.get? k).getD .none, m.del k)

/-- artist_formatter.py:201-208 etc.: the x part, the y part and the further keywords of a setting: a mapping (copied) or a pair. -/
def splitXY (v : PV) : PyM (PV × PV × PyDict Str PV) := match v.asMap with
  | some m =>
      let (x, m1) := popNone m "x".toList
      let (y, m2) := popNone m1 "y".toList
      .ok (x, y, m2)
  | Option.none => do
      let (x, y) ← v.unpack2
      return (x, y, [])

/-- artist_formatter.py:210-214 etc.: the calls for one setting; `what` is "lim", "label", "scale", "ticks" or "ticklabels". -/
def xyCalls (what : Str) (v : PV) : PyM (List Call) := do
  let (x, y, kw) ← splitXY v
  return (if x.isNone then [] else [⟨"set_x".toList ++ what, [x], kw⟩]) ++ (if y.isNone then [] else [⟨"set_y".toList ++ what, [y], kw⟩])

/-- `f(axis=axis, **x, **kw)`: `x` must be a mapping, and no keyword may occur twice (TypeError). -/
def tickCall (axis : Str) (x : PV) (kw : PyDict Str PV) : PyM Call := match x.asMap with
  | some m =>
      if m.any (fun p => p.1 == "axis".toList || kw.has p.1) || kw.has "axis".toList then .error .typeError
      else .ok ⟨"tick_params".toList, [], (("axis".toList, .str axis) :: m) ++ kw⟩
  | Option.none => .error .typeError

/-- One of the three calls of `__apply_tick_params`. -/
def tickPart (accepts : Call → Bool) (axis : Str) (x : PV) (kw : PyDict Str PV) (done : List Call) : PyM Unit × List Call :=
  if x.isNone then (.ok (), done)
  else match tickCall axis x kw with
    | .ok c => call accepts c done
    | .error e => (.error e, done)

/-- Two steps of a sequence of calls. -/
def seqCalls (r : PyM Unit × List Call) (f : List Call → PyM Unit × List Call) : PyM Unit × List Call := match r with
  | (.ok (), done) => f done
  | (.error e, done) => (.error e, done)

/-- artist_formatter.py:280-294 `__apply_tick_params`; a value that is not a mapping leaves `x` unbound (NameError). -/
def applyTickParams (accepts : Call → Bool) (v : PV) (done : List Call) : PyM Unit × List Call := match v.asMap with
  | Option.none => (.error .nameError, done)
  | some m =>
      let (x, m1) := popNone m "x".toList
      let (y, m2) := popNone m1 "y".toList
      let (both, kw) := popNone m2 "both".toList
      seqCalls (tickPart accepts "x".toList x kw done) (fun done =>
        seqCalls (tickPart accepts "y".toList y kw done) (fun done =>
          tickPart accepts "both".toList both kw done))

/-- artist_formatter.py:200-278 `__apply_lim`, ..., `__apply_ticklabels`. -/
def applyXY (accepts : Call → Bool) (what : Str) (v : PV) (done : List Call) : PyM Unit × List Call :=
  match xyCalls what v with
  | .ok cs => calls accepts cs done
  | .error e => (.error e, done)

/-- artist_formatter.py:195-198: `label_outer`. -/
def applyLabelOuter (accepts : Call → Bool) (v : PV) (done : List Call) : PyM Unit × List Call :=
  if v.truth then call accepts ⟨"label_outer".toList, [], []⟩ done else (.ok (), done)

/-- artist_formatter.py:171-173 etc.: one setting of the frame, skipped if None. -/
def applyOne (accepts : Call → Bool) (d : Fmt) (key : Str) (done : List Call) : PyM Unit × List Call :=
  match d.getItem key with
  | .error e => (.error e, done)
  | .ok v =>
      if v.isNone then (.ok (), done)
      else if key = "tick_params".toList then applyTickParams accepts v done
      else if key = "label_outer".toList then applyLabelOuter accepts v done
      else applyXY accepts key v done

/-- artist_formatter.py:170-198: the settings in the order they are applied. -/
def frameKeys : List Str :=
  ["lim".toList, "label".toList, "scale".toList, "ticks".toList, "ticklabels".toList, "tick_params".toList, "label_outer".toList]

/-- Settings applied one after the other. -/
def applyKeys (accepts : Call → Bool) (d : Fmt) : List Str → List Call → PyM Unit × List Call
  | [], done => (.ok (), done)
  | k :: ks, done => seqCalls (applyOne accepts d k done) (applyKeys accepts d ks)

/-- artist_formatter.py:170-198 `FrameFormatter.apply`. -/
def Fmt.apply (accepts : Call → Bool) (d : Fmt) (done : List Call) : PyM Unit × List Call := applyKeys accepts d frameKeys done

/-! ### Layout of subplots -/

/-- artist_formatter.py:306-308: the numbers of rows and columns. -/
def rowsCols (n : PV) : PyM (PV × PV) := if n.isScalar then .ok (.num 1, n) else n.unpack2

/-- artist_formatter.py:310-312. -/
def shareXY (share : PV) : PyM (PV × PV) := if share.isScalar then .ok (share, share) else share.unpack2

/-- artist_formatter.py:314-319: top, right, bottom, left of `extent`. -/
def extentSides (extent : PV) : PyM (PV × PV × PV × PV) :=
  if extent.isNone || extent.isScalar then .ok (extent, extent, extent, extent)
  else do
    let n ← extent.len
    if n = 2 then
      let (e1, e2) ← extent.unpack2
      return (e2, e2, e1, e1)
    else extent.unpack4

/-- artist_formatter.py:322-327: top, right, bottom, left of `margin`. -/
def marginSides (margin : PV) : PyM (PV × PV × PV × PV) :=
  if margin.isScalar then .ok (margin, margin, margin, margin)
  else do
    let n ← margin.len
    if n = 2 then
      let (m1, m2) ← margin.unpack2
      return (m2, m2, m1, m1)
    else margin.unpack4

/-- artist_formatter.py:321-328: a margin replaces the extent. -/
def sides (extent margin : PV) : PyM (PV × PV × PV × PV) := do
  let e ← extentSides extent
  if margin.isNone then return e
  else
    let (top, right, bottom, left) ← marginSides margin
    let top ← top.oneMinus
    let right ← right.oneMinus
    return (top, right, bottom, left)

/-- artist_formatter.py:330-332: wspace and hspace. -/
def spaceWH (space : PV) : PyM (PV × PV) := if space.isNone || space.isScalar then .ok (space, space) else space.unpack2

/-- artist_formatter.py:334-336: width and height ratios. -/
def ratiosWH (ratios : PV) : PyM (PV × PV) := if ratios.isNone then .ok (.none, .none) else ratios.unpack2

/-- The dictionaries returned by `get_subplots_kw`. -/
structure SubplotsKw where
  kw : PyDict Str PV
  gridspec : PyDict Str PV
  subplot : PyDict Str PV

/-- artist_formatter.py:297-300 `SubplotsFormatter.__init__`. -/
def Fmt.subplots (n : PV := .num 1) (share : PV := .bool false) (extent space ratios margin : PV := .none) : Fmt :=
  [("n".toList, n), ("share".toList, share), ("extent".toList, extent), ("space".toList, space), ("ratios".toList, ratios), ("margin".toList, margin)]

/-- artist_formatter.py:302-350 `get_subplots_kw`; the two inner dictionaries are kept apart from the outer one. -/
def Fmt.getSubplotsKw (d : Fmt) : PyM SubplotsKw := do
  let n ← d.getItem "n".toList
  let share ← d.getItem "share".toList
  let extent ← d.getItem "extent".toList
  let space ← d.getItem "space".toList
  let ratios ← d.getItem "ratios".toList
  let margin ← d.getItem "margin".toList
  let (nrows, ncols) ← rowsCols n
  let (sharex, sharey) ← shareXY share
  let (top, right, bottom, left) ← sides extent margin
  let (wspace, hspace) ← spaceWH space
  let (width_ratios, height_ratios) ← ratiosWH ratios
  return { kw := [("nrows".toList, nrows), ("ncols".toList, ncols), ("sharex".toList, sharex), ("sharey".toList, sharey)],
           gridspec := [("wspace".toList, wspace), ("hspace".toList, hspace), ("width_ratios".toList, width_ratios), ("height_ratios".toList, height_ratios),
             ("top".toList, top), ("right".toList, right), ("bottom".toList, bottom), ("left".toList, left)],
           subplot := [] }

/-- artist_formatter.py:353-354 `SubFiguresFormatter.__init__`. -/
def Fmt.subfigures (n : PV := .num 1) (space ratios : PV := .none) : Fmt := [("n".toList, n), ("space".toList, space), ("ratios".toList, ratios)]

/-- artist_formatter.py:356-376 `get_subfigures_kw`. -/
def Fmt.getSubfiguresKw (d : Fmt) : PyM (PyDict Str PV) := do
  let n ← d.getItem "n".toList
  let space ← d.getItem "space".toList
  let ratios ← d.getItem "ratios".toList
  let (nrows, ncols) ← rowsCols n
  let (wspace, hspace) ← spaceWH space
  let (width_ratios, height_ratios) ← ratiosWH ratios
  return [("nrows".toList, nrows), ("ncols".toList, ncols), ("wspace".toList, wspace), ("hspace".toList, hspace),
    ("width_ratios".toList, width_ratios), ("height_ratios".toList, height_ratios)]

end Pyhipp.Plot
