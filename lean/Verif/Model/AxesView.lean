import Verif.Base.Py
import Verif.Base.Slice
/-
Model of the arrays of axes and sub-figures of src/pyhipp/plot/axes.py (AxesArray) and src/pyhipp/plot/figure.py
(SubFigureArray): which objects they hold, not what is drawn.

A numpy array is its shape and its elements in C order.  An element is an `Axes` object (a number, its identity) or a raw
matplotlib object; `heap` lists, for every `Axes` object made so far, the raw object it wraps.  The same model serves
sub-figures.
-/
namespace Pyhipp.AxesView
open Pyhipp

variable {α β σ : Type}

/-- A numpy array: shape and elements in C order. -/
structure Nd (α : Type) where
  shape : List Nat
  data : List α

/-- Position of a multi-index in C order. -/
def ravel : List Nat → List Nat → Nat
  | _ :: s, i :: t => i * s.prod + ravel s t
  | _, _ => 0

/-- All multi-indices in C order. -/
def indices : List Nat → List (List Nat)
  | [] => [[]]
  | n :: s => (List.range n).flatMap (fun i => (indices s).map (fun t => i :: t))

/-- The element at a multi-index. -/
def Nd.at (a : Nd α) (idx : List Nat) : Option α := a.data[ravel a.shape idx]?

/-- An element of the array given to the constructor. -/
inductive Cell where
  | ax (id : Nat)
  | raw (r : Nat)

/-- plot/axes.py:449-450 `[(ax if isinstance(ax, Axes) else Axes(ax)) for ax in arr.flat]` (plot/figure.py:119-120 for
sub-figures): `Axes(raw)` is a new object. -/
def wrapList : List Nat → List Cell → List Nat × List Nat
  | h, [] => (h, [])
  | h, .ax i :: t => let r := wrapList h t; (r.1, i :: r.2)
  | h, .raw x :: t => let r := wrapList (h ++ [x]) t; (r.1, h.length :: r.2)

/-- plot/axes.py:439-453 `AxesArray.__init__`, plot/figure.py:109-123 `SubFigureArray.__init__`: from an array. -/
def newArray (h : List Nat) (a : Nd Cell) : List Nat × Nd Nat :=
  let r := wrapList h a.data
  (r.1, ⟨a.shape, r.2⟩)

/-- The array of an `AxesArray` seen as an argument of the constructor. -/
def cells (a : Nd Nat) : Nd Cell := ⟨a.shape, a.data.map .ax⟩

/-- plot/axes.py:444-445: the constructor on another `AxesArray`. -/
def ofArray (h : List Nat) (a : Nd Nat) : List Nat × Nd Nat := newArray h (cells a)

/-- A component of an index: an integer or a slice. -/
inductive Comp where
  | int (i : Int)
  | slice (start stop step : Option Int)

/-- What an index selects in one dimension: one position (the dimension disappears) or several. -/
inductive Dim where
  | one (p : Nat)
  | many (ps : List Nat)

/-- One component in a dimension of length `n`. -/
def comp (n : Nat) : Comp → PyM Dim
  | .int i =>
      let j := if i < 0 then i + n else i
      if 0 ≤ j ∧ j < n then .ok (.one j.toNat) else .error .indexError
  | .slice b e s => do
      let ps ← slicePos n b e s
      return .many ps

/-- numpy's basic indexing: one component per dimension from the left, the other dimensions in full. -/
def resolve : List Nat → List Comp → PyM (List Dim)
  | s, [] => .ok (s.map (fun n => .many (List.range n)))
  | [], _ :: _ => .error .indexError
  | n :: s, c :: cs => do
      let d ← comp n c
      let ds ← resolve s cs
      return d :: ds

/-- Shape of the result. -/
def dimShape : List Dim → List Nat
  | [] => []
  | .one _ :: t => dimShape t
  | .many ps :: t => ps.length :: dimShape t

/-- The multi-indices selected, in C order of the result. -/
def picks : List Dim → List (List Nat)
  | [] => [[]]
  | .one p :: t => (picks t).map (fun j => p :: j)
  | .many ps :: t => ps.flatMap (fun p => (picks t).map (fun j => p :: j))

/-- `arr[key]` as an array. -/
def npIndex [Inhabited α] (a : Nd α) (key : List Comp) : PyM (Nd α) := do
  let ds ← resolve a.shape key
  return ⟨dimShape ds, (picks ds).map (fun idx => (a.at idx).getD default)⟩

/-- The result of indexing: an `Axes`, or an `AxesArray`. -/
inductive Item where
  | one (id : Nat)
  | arr (a : Nd Nat)

/-- plot/axes.py:464-468 `AxesArray.__getitem__`, plot/figure.py:134-138 `SubFigureArray.__getitem__`: numpy returns the
element itself when no dimension is left. -/
def getItem (h : List Nat) (a : Nd Nat) (key : List Comp) : PyM (List Nat × Item) := do
  let v ← npIndex a key
  match v.shape, v.data with
    | [], i :: _ => return (h, .one i)
    | _, _ =>
      let r := newArray h (cells v)
      return (r.1, .arr r.2)

/-- plot/axes.py:470-471 `AxesArray.__len__`, plot/figure.py:140-141 `SubFigureArray.__len__`. -/
def len (a : Nd Nat) : PyM Nat := match a.shape with
  | [] => .error .typeError
  | n :: _ => .ok n

/-- `f(0), f(1), …`, handing on the heap. -/
def loop (f : List Nat → Nat → PyM (List Nat × Item)) : List Nat → List Nat → PyM (List Nat × List Item)
  | h, [] => .ok (h, [])
  | h, i :: t => do
      let r ← f h i
      let rs ← loop f r.1 t
      return (rs.1, r.2 :: rs.2)

/-- plot/axes.py:473-476 `AxesArray.__iter__`, plot/figure.py:143-145 `SubFigureArray.__iter__`: the list of what is yielded. -/
def iter (h : List Nat) (a : Nd Nat) : PyM (List Nat × List Item) := do
  let n ← len a
  loop (fun h i => getItem h a [.int i]) h (List.range n)

/-- plot/axes.py:478-480 `AxesArray.flat`. -/
def flat (h : List Nat) (a : Nd Nat) : List Nat × Nd Nat := newArray h ⟨[a.data.length], a.data.map .ax⟩

/-- numpy's `.T`. -/
def transpose [Inhabited α] (a : Nd α) : Nd α :=
  ⟨a.shape.reverse, (indices a.shape.reverse).map (fun idx => (a.at idx.reverse).getD default)⟩

/-- plot/axes.py:482-484 `AxesArray.T`. -/
def T (h : List Nat) (a : Nd Nat) : List Nat × Nd Nat := newArray h (cells (transpose a))

/-- plot/axes.py:486-488 `AxesArray.size`. -/
def size (a : Nd Nat) : Nat := a.data.length

/-- Nested lists. -/
inductive Nest (α : Type) where
  | leaf (x : α)
  | node (l : List (Nest α))

/-- numpy's `.tolist()`: nested lists, the element itself without dimensions. -/
def toNest : List Nat → List α → Option (Nest α)
  | [], x :: _ => some (.leaf x)
  | [], [] => none
  | n :: s, l => do
      let ts ← (List.range n).mapM (fun i => toNest s ((l.drop (i * s.prod)).take s.prod))
      return .node ts

/-- plot/axes.py:458-462 `AxesArray.to_list(flat=True)`. -/
def toList (a : Nd Nat) : List Nat := a.data

/-- plot/axes.py:455-456 `AxesArray.to_simple_repr` and 458-462 `to_list(flat=False)`. -/
def toListNested (a : Nd Nat) : Option (Nest Nat) := toNest a.shape a.data

/-- One call after the other; an exception stops them and keeps what was done. -/
def each (f : Nat → σ → PyM β × σ) : List Nat → σ → PyM (List β) × σ
  | [], w => (.ok [], w)
  | i :: t, w => match f i w with
      | (.error e, w') => (.error e, w')
      | (.ok y, w') => match each f t w' with
          | (.error e, w'') => (.error e, w'')
          | (.ok ys, w'') => (.ok (y :: ys), w'')

/-- The same for calls that yield lists, joined. -/
def eachJoin (f : Nat → σ → PyM (List β) × σ) : List Nat → σ → PyM (List β) × σ
  | [], w => (.ok [], w)
  | i :: t, w => match f i w with
      | (.error e, w') => (.error e, w')
      | (.ok y, w') => match eachJoin f t w' with
          | (.error e, w'') => (.error e, w'')
          | (.ok ys, w'') => (.ok (y ++ ys), w'')

/-- plot/figure.py:125-132 `SubFigureArray.subplots`, the elements of the result in C order; `f` is `SubFigure.subplots`,
whose result (an `Axes` or an `AxesArray`) is one element: the assignment to an object array of known dimension does not
look further.  Without a first dimension the empty list is broadcast to the shape, which fails if the last dimension is not
empty too. -/
def subplotsData (f : Nat → σ → PyM β × σ) : List Nat → List Nat → σ → PyM (List β) × σ
  | [], _, w => (.error .typeError, w)
  | [n], l, w => each (fun i => f (l.getD i 0)) (List.range n) w
  | n :: s, l, w => if n = 0 ∧ s.getLastD 0 ≠ 0 then (.error .valueError, w) else eachJoin (fun i => subplotsData f s ((l.drop (i * s.prod)).take s.prod)) (List.range n) w

/-- plot/figure.py:125-132 `SubFigureArray.subplots`. -/
def subplots (f : Nat → σ → PyM β × σ) (a : Nd Nat) (w : σ) : PyM (Nd β) × σ :=
  match subplotsData f a.shape a.data w with
  | (.error e, w') => (.error e, w')
  | (.ok l, w') => (.ok ⟨a.shape, l⟩, w')

end Pyhipp.AxesView
