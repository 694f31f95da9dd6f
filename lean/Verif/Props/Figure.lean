import Verif.Model.Figure
import Verif.Props.Plot
import Verif.Props.Axes
import Mathlib.Data.List.Induction
import Mathlib.Tactic.Ring
import Mathlib.Tactic.FieldSimp
/-
C103: figures and grids of axes.  C104: colours.
-/
namespace Pyhipp.Plot
open Pyhipp

/-! ### C103 -/

/-- Spec: indexing with one index per dimension. -/
def AxArr.at? : AxArr → List Nat → Option Nat
  | .one i, [] => some i
  | .sub l, j :: js => (l[j]?).bind (fun a => a.at? js)
  | _, _ => none

/-- Spec: what `subplots` hands back for `nr` rows and `nc` columns whose cells are numbered from `k`. -/
structure GridOf (k nr nc : Nat) (c : Cells) : Prop where
  /-- One cell: the axes itself. -/
  single : nr * nc = 1 → c = .one (.one k)
  /-- One row or one column: a one-dimensional array of all cells. -/
  line : nr * nc ≠ 1 → (nr = 1 ∨ nc = 1) → ∃ a, c = .array a ∧ (∀ (i : Nat), a.at? [i] = if i < nr * nc then some (k + i) else none)
  /-- Otherwise a two-dimensional array, row by row. -/
  grid : nr ≠ 1 → nc ≠ 1 → ∃ a, c = .array a ∧ (∀ (i j : Nat), a.at? [i, j] = if i < nr ∧ j < nc then some (k + i * nc + j) else none)
  /-- Each new cell once. -/
  all : ∃ a, (c = .one a ∨ c = .array a) ∧ a.flat = (List.range (nr * nc)).map (fun i : Nat => k + i)

theorem flat_line (k n : Nat) : (AxArr.sub ((List.range n).map (fun i : Nat => .one (k + i)))).flat = (List.range n).map (fun i : Nat => k + i) := by
  rw [AxArr.flat, List.map_map]
  have : (AxArr.flat ∘ fun i : Nat => AxArr.one (k + i)) = fun i : Nat => [k + i] := by funext i; simp [AxArr.flat]
  rw [this]
  induction (List.range n) with
  | nil => rfl
  | cons a t ih => simp [ih]

theorem range_mul (k nr nc : Nat) : ((List.range nr).map (fun r : Nat => (List.range nc).map (fun c : Nat => k + r * nc + c))).flatten =
    (List.range (nr * nc)).map (fun i : Nat => k + i) := by
  induction nr with
  | zero => simp
  | succ n ih =>
      rw [List.range_succ, List.map_append, List.flatten_append, ih, Nat.succ_mul, List.range_add, List.map_append]
      simp [Function.comp_def, Nat.add_assoc]

theorem grid_of (k nr nc : Nat) : GridOf k nr nc (wrapCells nr nc (squeezed k nr nc)) := by
  constructor
  · intro h
    simp [wrapCells, squeezed, h]
  · intro h h1
    refine ⟨squeezed k nr nc, by simp [wrapCells, h], fun i => ?_⟩
    rw [squeezed, if_neg h, if_pos h1, AxArr.at?, List.getElem?_map]
    by_cases hi : i < nr * nc
    · simp [hi, AxArr.at?]
    · rw [List.getElem?_eq_none (by simpa using hi)]; simp [hi]
  · intro h1 h2
    have hne : nr * nc ≠ 1 := fun h => h1 (Nat.eq_one_of_mul_eq_one_right h)
    refine ⟨squeezed k nr nc, by simp [wrapCells, hne], fun i j => ?_⟩
    rw [squeezed, if_neg hne, if_neg (by simp [h1, h2]), AxArr.at?, List.getElem?_map]
    by_cases hi : i < nr
    · simp only [List.getElem?_range hi, Option.map_some, Option.bind_some, AxArr.at?, List.getElem?_map]
      by_cases hj : j < nc
      · simp [hi, hj, AxArr.at?]
      · rw [List.getElem?_eq_none (by simpa using hj)]; simp [hj]
    · rw [List.getElem?_eq_none (by simpa using hi)]; simp [hi]
  · refine ⟨squeezed k nr nc, by unfold wrapCells; split <;> simp, ?_⟩
    unfold squeezed
    split
    · rename_i h; rw [h]; simp [AxArr.flat]
    · split
      · exact flat_line k _
      · rw [← range_mul, AxArr.flat, List.map_map]
        congr 1
        refine List.map_congr_left fun r _ => ?_
        exact flat_line (k + r * nc) nc

theorem posInt_nat (n : Nat) (h : 0 < n) : (PV.num (n : ℚ)).posInt = .ok n := by
  simp [PV.posInt, h]

/-- C103: `Figure.subplots` makes one grid of the requested rows and columns, laid out as requested (C89), the user's grid and subplot keywords on top;
it returns the axes itself for one cell, else an array that numbers the cells row by row. -/
theorem C103_subplots (fig : Fig) (k : Nat) {nr nc : Nat} (h1 : 0 < nr) (h2 : 0 < nc) {n share sx sy extent t r b l space ws hs ratios wr hr : PV}
    (hn : IsGrid n (.num nr) (.num nc)) (hsh : IsPair share sx sy) (hs0 : share ≠ .none) (he : IsSides extent t r b l) (hsp : IsPair space ws hs)
    (hra : IsOptPair ratios wr hr) (msk : Option (PyDict Str PV)) (hms : ∀ m ∈ msk, m.WF) (gkw : PyDict Str PV) (hg : gkw.WF) :
    ∃ cells gs sp, fig.subplots k n share extent space ratios msk .none gkw = .ok (cells, { fig with calls := fig.calls ++
        [.subplots nr nc [("nrows".toList, .num nr), ("ncols".toList, .num nc), ("sharex".toList, sx), ("sharey".toList, sy)] gs sp] }) ∧
      GridOf k nr nc cells ∧
      (∀ key, PyDict.get? sp key = msk.bind (fun m => m.get? key)) ∧
      (∀ key, PyDict.get? gs key = (gkw.get? key).or ((layout (.num nr) (.num nc) sx sy t r b l ws hs wr hr).gridspec.get? key)) := by
  have hk := C89_extent hn hsh hs0 he hsp hra
  unfold Fig.subplots
  rw [hk]
  have e1 : entry (layout (.num nr) (.num nc) sx sy t r b l ws hs wr hr).kw "nrows" = .num nr := rfl
  have e2 : entry (layout (.num nr) (.num nc) sx sy t r b l ws hs wr hr).kw "ncols" = .num nc := rfl
  simp only [e1, e2, posInt_nat nr h1, posInt_nat nc h2, bind, Except.bind, pure, Except.pure]
  refine ⟨_, _, _, rfl, grid_of k nr nc, ?_, fun key => PyDict.get?_update _ _ _ hg⟩
  intro key
  cases msk with
  | none => rfl
  | some m =>
      simp only [Option.bind_some]
      rw [PyDict.get?_update _ _ _ (hms m rfl)]
      show (m.get? key).or none = _
      simp

/-- C103: the same with a margin instead of the extent. -/
theorem C103_subplots_margin (fig : Fig) (k : Nat) (n share extent space ratios t r b l : PV) (he : IsSides extent t r b l) (msk : Option (PyDict Str PV))
    (margin mb ml : PV) (mt mr : ℚ) (hm : IsSides margin (.num mt) (.num mr) mb ml) (gkw : PyDict Str PV) :
    fig.subplots k n share extent space ratios msk margin gkw =
    fig.subplots k n share (.seq [.num (1 - mt), .num (1 - mr), mb, ml]) space ratios msk .none gkw := by
  unfold Fig.subplots
  rw [C89_margin_is_extent n share space ratios extent t r b l he margin mb ml mt mr hm]

/-- C103: numbers of rows and columns that are not positive integers are refused. -/
theorem C103_not_positive (fig : Fig) (k : Nat) (q : ℚ) (hq : ¬ (q.den = 1 ∧ 0 < q.num)) {nc : ℚ} {share sx sy space ws hs ratios wr hr : PV} (hsh : IsPair share sx sy)
    (hs0 : share ≠ .none) (hsp : IsPair space ws hs) (hra : IsOptPair ratios wr hr) (msk : Option (PyDict Str PV)) (gkw : PyDict Str PV) :
    fig.subplots k (.num q) share .none space ratios msk .none gkw = .error .valueError ∧
    fig.subplots k (.seq [.num q, .num nc]) share .none space ratios msk .none gkw = .error .valueError := by
  constructor
  · unfold Fig.subplots
    rw [C89_extent (.row q) hsh hs0 .none hsp hra]
    have e1 : entry (layout (.num 1) (.num q) sx sy .none .none .none .none ws hs wr hr).kw "nrows" = .num 1 := rfl
    have e2 : entry (layout (.num 1) (.num q) sx sy .none .none .none .none ws hs wr hr).kw "ncols" = .num q := rfl
    have h1 : (PV.num 1).posInt = .ok 1 := by simp [PV.posInt]
    have h2 : (PV.num q).posInt = .error .valueError := by rw [PV.posInt, if_neg hq]
    simp only [e1, e2, h1, h2, bind, Except.bind]
  · unfold Fig.subplots
    rw [C89_extent (.two (.num q) (.num nc)) hsh hs0 .none hsp hra]
    have e1 : entry (layout (.num q) (.num nc) sx sy .none .none .none .none ws hs wr hr).kw "nrows" = .num q := rfl
    have h2 : (PV.num q).posInt = .error .valueError := by rw [PV.posInt, if_neg hq]
    simp only [e1, h2, bind, Except.bind]

/-- C103: `Figure.subfigures`: the same for sub-figures; the user's keywords replace the layout's. -/
theorem C103_subfigures (fig : Fig) (k : Nat) {nr nc : Nat} (h1 : 0 < nr) (h2 : 0 < nc) {n space ws hs ratios wr hr : PV}
    (hn : IsGrid n (.num nr) (.num nc)) (hsp : IsPair space ws hs) (hra : IsOptPair ratios wr hr) (user : PyDict Str PV) (hu : user.WF)
    (hnr : "nrows".toList ∉ user.keys) (hnc : "ncols".toList ∉ user.keys) :
    ∃ cells kw, fig.subfigures k n space ratios user = .ok (cells, { fig with calls := fig.calls ++ [.subfigures nr nc kw] }) ∧ GridOf k nr nc cells ∧
      ∀ key, PyDict.get? kw key = (user.get? key).or (PyDict.get? [("nrows".toList, .num nr), ("ncols".toList, .num nc), ("wspace".toList, ws), ("hspace".toList, hs),
        ("width_ratios".toList, wr), ("height_ratios".toList, hr)] key) := by
  unfold Fig.subfigures
  rw [C89_subfigures hn hsp hra]
  simp only [bind, Except.bind]
  generalize hd : ([("nrows".toList, PV.num nr), ("ncols".toList, PV.num nc), ("wspace".toList, ws), ("hspace".toList, hs), ("width_ratios".toList, wr),
    ("height_ratios".toList, hr)] : PyDict Str PV) = d
  have e1 : entry (PyDict.update d user) "nrows" = .num nr := by
    rw [entry, PyDict.get?_update _ _ _ hu, (PyDict.get?_eq_none_iff _ _).mpr hnr, ← hd]; rfl
  have e2 : entry (PyDict.update d user) "ncols" = .num nc := by
    rw [entry, PyDict.get?_update _ _ _ hu, (PyDict.get?_eq_none_iff _ _).mpr hnc, ← hd]; rfl
  rw [e1, e2, posInt_nat nr h1, posInt_nat nc h2]
  exact ⟨_, _, rfl, grid_of k nr nc, fun key => PyDict.get?_update _ _ _ hu⟩

/-- Spec: the size of the new figure: the given one (a number is both sides), else that of one cell times the columns and the rows. -/
inductive FigSize (nr nc : ℚ) : PV → PV → PV → Prop
  | num (q : ℚ) (sub : PV) : FigSize nr nc (.num q) sub (.seq [.num q, .num q])
  | pair (a b sub : PV) : FigSize nr nc (.seq [a, b]) sub (.seq [a, b])
  | auto (q : ℚ) : FigSize nr nc .none (.num q) (.seq [.num (q * nc), .num (q * nr)])
  | auto2 (w h : ℚ) : FigSize nr nc .none (.seq [.num w, .num h]) (.seq [.num (w * nc), .num (h * nr)])

theorem autoSize_of {nr nc : ℚ} {figsize sub size : PV} (h : FigSize nr nc figsize sub size) :
    ∃ v, autoSize figsize sub (.num nr) (.num nc) = .ok v ∧ sizePair v = size := by
  cases h <;> exact ⟨_, rfl, rfl⟩

/-- The arguments of the creation of a figure. -/
theorem newFigure_kw (figs : List Fig) (kw : PyDict Str PV) (hkw : kw.WF) : ∃ fig, newFigure figs kw = figs ++ [fig] ∧ fig.calls = [] ∧
    ∀ key, fig.kw.get? key = if key = "figsize".toList then some (sizePair (entry kw "figsize")) else if key = "layout".toList then
      some ((kw.get? "layout".toList).getD (.str "tight".toList)) else if key = "dpi".toList then some (entry kw "dpi") else kw.get? key := by
  refine ⟨_, rfl, rfl, fun key => ?_⟩
  have w1 := PyDict.WF_del kw "figsize".toList hkw
  have w2 := PyDict.WF_del _ "dpi".toList w1
  have w3 := PyDict.WF_del _ "layout".toList w2
  rw [PyDict.get?_update _ _ _ w3, PyDict.get?_del _ _ _ w2, PyDict.get?_del _ _ _ w1, PyDict.get?_del _ _ _ hkw]
  by_cases k1 : key = "figsize".toList
  · subst k1; rfl
  by_cases k2 : key = "layout".toList
  · subst k2; rfl
  by_cases k3 : key = "dpi".toList
  · subst k3; rfl
  simp only [k1, k2, k3, if_false]
  have : ∀ a b c : PV, PyDict.get? [("figsize".toList, a), ("dpi".toList, b), ("layout".toList, c)] key = none := by
    intro a b c
    simp only [PyDict.get?, if_neg (fun e => k1 (Eq.symm e)), if_neg (fun e => k2 (Eq.symm e)), if_neg (fun e => k3 (Eq.symm e))]
  rw [this]; simp

/-- Spec: the arguments of the creation of the new figure: the user's `figure_kw` first (a number for its size is both sides), then the size and the layout. -/
def FigureMade (size layout : PV) (fkw : Option (PyDict Str PV)) (kw : PyDict Str PV) : Prop := ∀ key, kw.get? key =
  match fkw.bind (fun m => m.get? key) with
  | some v => some (if key = "figsize".toList then sizePair v else v)
  | none => if key = "figsize".toList then some size else if key = "layout".toList then some layout else if key = "dpi".toList then some .none else none

theorem made_of (figs : List Fig) (v layout : PV) (fkw : Option (PyDict Str PV)) (hf : ∀ m ∈ fkw, m.WF) :
    ∃ fig, newFigure figs (withKw [("figsize".toList, v), ("layout".toList, layout)] fkw) = figs ++ [fig] ∧ fig.calls = [] ∧ FigureMade (sizePair v) layout fkw fig.kw := by
  have hb : PyDict.WF [("figsize".toList, v), ("layout".toList, layout)] := by
    show ["figsize".toList, "layout".toList].Nodup
    decide
  have hw : (withKw [("figsize".toList, v), ("layout".toList, layout)] fkw).WF := by
    cases fkw with
    | none => exact hb
    | some m => exact PyDict.WF_update _ _ hb
  obtain ⟨fig, h1, h2, h3⟩ := newFigure_kw figs _ hw
  have hget : ∀ key, (withKw [("figsize".toList, v), ("layout".toList, layout)] fkw).get? key =
      (fkw.bind (fun m => m.get? key)).or (PyDict.get? [("figsize".toList, v), ("layout".toList, layout)] key) := by
    intro key
    cases fkw with
    | none => rfl
    | some m => exact PyDict.get?_update _ _ _ (hf m rfl)
  refine ⟨fig, h1, h2, fun key => ?_⟩
  rw [h3 key]
  simp only [entry, hget]
  by_cases k1 : key = "figsize".toList
  · subst k1
    rw [if_pos rfl]
    cases fkw.bind (fun m => m.get? "figsize".toList) <;> rfl
  by_cases k2 : key = "layout".toList
  · subst k2
    rw [if_neg (by decide), if_pos rfl]
    cases fkw.bind (fun m => m.get? "layout".toList) <;> rfl
  by_cases k3 : key = "dpi".toList
  · subst k3
    rw [if_neg (by decide), if_neg (by decide), if_pos rfl]
    cases fkw.bind (fun m => m.get? "dpi".toList) <;> rfl
  have : PyDict.get? [("figsize".toList, v), ("layout".toList, layout)] key = none := by
    simp only [PyDict.get?, if_neg (fun e => k1 (Eq.symm e)), if_neg (fun e => k2 (Eq.symm e))]
  simp only [k1, k2, k3, if_false, this, Option.or_none]
  cases fkw.bind (fun m => m.get? key) <;> rfl

/-- C103: `plot.subplots` makes one new figure and one grid in it.  The figure is as large as asked, or one cell's size times the number of columns and of rows;
its layout is the given one, and `'tight'` if neither a layout nor a spacing is given; `figure_kw` has the last word.  The result and the grid are those of
`Figure.subplots`; if the grid is refused the new figure stays, without axes. -/
theorem C103_shortcut (figs : List Fig) (k : Nat) {nr nc : ℚ} {n figsize subsize size : PV} (hn : IsGrid n (.num nr) (.num nc)) (hs : FigSize nr nc figsize subsize size)
    (share extent space ratios margin lay : PV) (fkw msk : Option (PyDict Str PV)) (hf : ∀ m ∈ fkw, m.WF) (gkw : PyDict Str PV) :
    ∃ fig : Fig, fig.calls = [] ∧ FigureMade size (if lay.isNone ∧ space.isNone then .str "tight".toList else lay) fkw fig.kw ∧
      (∀ cells fig', fig.subplots k n share extent space ratios msk margin gkw = .ok (cells, fig') →
        subplots figs k n share extent space ratios figsize lay subsize fkw msk margin gkw = (.ok cells, figs ++ [fig'])) ∧
      (∀ e, fig.subplots k n share extent space ratios msk margin gkw = .error e →
        subplots figs k n share extent space ratios figsize lay subsize fkw msk margin gkw = (.error e, figs ++ [fig])) := by
  obtain ⟨v, hv, rfl⟩ := autoSize_of hs
  obtain ⟨fig, h1, h2, h3⟩ := made_of figs v (if (lay.isNone && space.isNone) = true then .str "tight".toList else lay) fkw hf
  refine ⟨fig, h2, by simpa using h3, ?_, ?_⟩
  · intro cells fig' hok
    unfold subplots
    simp only [rowsCols_of hn, hv, bind, Except.bind]
    simp only [h1, List.getLast?_concat, List.dropLast_concat, hok]
  · intro e herr
    unfold subplots
    simp only [rowsCols_of hn, hv, bind, Except.bind]
    simp only [h1, List.getLast?_concat, herr]

/-- C103: `plot.subfigures`: the same with sub-figures; the layout is the given one (None, not `'tight'`, by default), the sub-figures' face colour is passed on. -/
theorem C103_shortcut_subfigures (figs : List Fig) (k : Nat) {nr nc : ℚ} {n figsize subsize size : PV} (hn : IsGrid n (.num nr) (.num nc))
    (hs : FigSize nr nc figsize subsize size) (space ratios lay fc : PV) (fkw : Option (PyDict Str PV)) (hf : ∀ m ∈ fkw, m.WF) (user : PyDict Str PV) :
    ∃ fig : Fig, fig.calls = [] ∧ FigureMade size lay fkw fig.kw ∧
      (∀ cells fig', fig.subfigures k n space ratios (("facecolor".toList, fc) :: user) = .ok (cells, fig') →
        subfigures figs k n space ratios figsize lay subsize fc fkw user = (.ok cells, figs ++ [fig'])) ∧
      (∀ e, fig.subfigures k n space ratios (("facecolor".toList, fc) :: user) = .error e →
        subfigures figs k n space ratios figsize lay subsize fc fkw user = (.error e, figs ++ [fig])) := by
  obtain ⟨v, hv, rfl⟩ := autoSize_of hs
  obtain ⟨fig, h1, h2, h3⟩ := made_of figs v lay fkw hf
  refine ⟨fig, h2, h3, ?_, ?_⟩
  · intro cells fig' hok
    unfold subfigures
    simp only [rowsCols_of hn, hv, bind, Except.bind]
    simp only [h1, List.getLast?_concat, List.dropLast_concat, hok]
  · intro e herr
    unfold subfigures
    simp only [rowsCols_of hn, hv, bind, Except.bind]
    simp only [h1, List.getLast?_concat, herr]

/-- C103: `figure(figsize=s)`: the layout is `'tight'` unless one is given, a number is both sides. -/
theorem C103_figure (figs : List Fig) (kw : PyDict Str PV) (hkw : kw.WF) : ∃ fig, newFigure figs kw = figs ++ [fig] ∧ fig.calls = [] ∧
    fig.kw.get? "layout".toList = some ((kw.get? "layout".toList).getD (.str "tight".toList)) ∧
    (∀ q : ℚ, kw.get? "figsize".toList = some (.num q) → fig.kw.get? "figsize".toList = some (.seq [.num q, .num q])) ∧
    (∀ l, kw.get? "figsize".toList = some (.seq l) → fig.kw.get? "figsize".toList = some (.seq l)) ∧
    ∀ key, key ≠ "figsize".toList → key ≠ "layout".toList → key ≠ "dpi".toList → fig.kw.get? key = kw.get? key := by
  obtain ⟨fig, h1, h2, h3⟩ := newFigure_kw figs kw hkw
  refine ⟨fig, h1, h2, ?_, ?_, ?_, ?_⟩
  · rw [h3, if_neg (by decide), if_pos rfl]
  · intro q hq
    rw [h3, if_pos rfl, entry, hq]; rfl
  · intro l hq
    rw [h3, if_pos rfl, entry, hq]; rfl
  · intro key a b c
    rw [h3, if_neg a, if_neg b, if_neg c]

/-- C103: `colorbar` hands raw axes to matplotlib: of an `Axes` its own, of an `AxesArray` those of all its axes in C order, of an iterable those of its elements; an
`AxesArray` inside an iterable is handed over as it is, which matplotlib cannot use (recorded). -/
theorem C103_colorbar (i : Nat) (a : AxArr) (l : List Nat) (before after : List AxArg) :
    (AxArg.axes i).unwrap = .axes i ∧ (AxArg.arr a).unwrap = .list (a.flat.map .axes) ∧ (AxArg.items (l.map .axes)).unwrap = .list (l.map .axes) ∧
    ∃ out, (AxArg.items (before ++ .arr a :: after)).unwrap = .list out ∧ MplArg.notRaw ∈ out := by
  refine ⟨rfl, rfl, ?_, ⟨_, rfl, ?_⟩⟩
  · simp [AxArg.unwrap, AxArg.elem, Function.comp_def]
  · simp [AxArg.elem]

/-- Example: `subplots((2, 3))` is a figure of size (12, 8) with a 2 × 3 array. -/
example : IsGrid (.seq [.num 2, .num 3]) (.num 2) (.num 3) ∧ FigSize 2 3 .none (.num 4) (.seq [.num (4 * 3), .num (4 * 2)]) ∧
    GridOf 0 2 3 (wrapCells 2 3 (squeezed 0 2 3)) ∧ IsPair (.bool false) (.bool false) (.bool false) ∧ IsSides .none .none .none .none .none :=
  ⟨.two _ _, .auto 4, grid_of 0 2 3, .bool _, .none⟩

/-! ### C104 -/

/-- One step of a history of colours. -/
inductive ColorOp where
  | new (c : ColorSpec) (a : Option ℚ)
  | alpha (r : Nat) (a : ℚ)
  | seq (cs : List ColorSpec)

/-- Runs one step; a failed one changes nothing. -/
def ColorOp.run (mpl : PV → PyM Rgba) (h : Colors) : ColorOp → Colors
  | .new c a => match newColor mpl h c a with
      | .ok h' => h'
      | .error _ => h
  | .alpha r a => setAlpha h r a
  | .seq cs => match newSeq mpl h cs with
      | .ok (_, h') => h'
      | .error _ => h

theorem setAlpha_get (h : Colors) (r j : Nat) (a : ℚ) : (setAlpha h r a)[j]? = if j = r then (h[r]?).map (fun c : Rgba => (c.1, c.2.1, c.2.2.1, a)) else h[j]? := by
  unfold setAlpha
  cases hr : h[r]? with
  | none =>
      by_cases hj : j = r
      · rw [if_pos hj, hj]; simpa using hr
      · rw [if_neg hj]
  | some c =>
      obtain ⟨x, y, z, w⟩ := c
      simp only [List.getElem?_set]
      have hl : r < h.length := (List.getElem?_eq_some_iff.mp hr).1
      by_cases hj : j = r
      · subst hj; simp [hl]
      · rw [if_neg (fun e => hj e.symm), if_neg hj]

theorem setAlpha_length (h : Colors) (r : Nat) (a : ℚ) : (setAlpha h r a).length = h.length := by
  unfold setAlpha; split <;> simp

/-- C104: a new colour has the colour of its specification (the current one of a `Color` it copies), with the given alpha if any; all others are unchanged. -/
theorem C104_new (mpl : PV → PyM Rgba) (h : Colors) (c : ColorSpec) (a : Option ℚ) (rgba : Rgba) (hc : (∃ v, c = .spec v ∧ mpl v = .ok rgba) ∨ ∃ r : Nat, c = .ref r ∧ h[r]? = some rgba) :
    newColor mpl h c a = .ok (h ++ [(rgba.1, rgba.2.1, rgba.2.2.1, a.getD rgba.2.2.2)]) := by
  have : toRgbaSpec mpl h c = .ok rgba := by
    rcases hc with ⟨v, rfl, hv⟩ | ⟨r, rfl, hr⟩
    · exact hv
    · simp [toRgbaSpec, hr]
  unfold newColor
  rw [this]
  obtain ⟨x, y, z, w⟩ := rgba
  cases a with
  | none => rfl
  | some a => simp [bind, Except.bind, pure, Except.pure, setAlpha]

theorem newColor_grow {mpl : PV → PyM Rgba} {h h' : Colors} {c : ColorSpec} {a : Option ℚ} (e : newColor mpl h c a = .ok h') : ∃ x, h' = h ++ [x] := by
  unfold newColor at e
  cases hr : toRgbaSpec mpl h c with
  | error er => rw [hr] at e; cases e
  | ok rgba =>
      rw [hr] at e
      obtain ⟨x, y, z, w⟩ := rgba
      cases a with
      | none => cases e; exact ⟨_, rfl⟩
      | some a =>
          simp [bind, Except.bind, pure, Except.pure, setAlpha] at e
          exact ⟨_, e.symm⟩

theorem newSeq_grow {mpl : PV → PyM Rgba} (cs : List ColorSpec) {h h' : Colors} {rs : List Nat} (e : newSeq mpl h cs = .ok (rs, h')) :
    ∃ xs : List Rgba, h' = h ++ xs ∧ xs.length = cs.length ∧ rs = (List.range cs.length).map (fun i : Nat => h.length + i) := by
  induction cs generalizing h rs h' with
  | nil => cases e; exact ⟨[], by simp, rfl, rfl⟩
  | cons c cs ih =>
      unfold newSeq at e
      cases h1 : newColor mpl h c none with
      | error er => rw [h1] at e; cases e
      | ok hh =>
          rw [h1] at e
          simp only [bind, Except.bind] at e
          cases h2 : newSeq mpl hh cs with
          | error er => rw [h2] at e; cases e
          | ok p =>
              obtain ⟨rs', h''⟩ := p
              rw [h2] at e
              simp only [pure, Except.pure, Except.ok.injEq, Prod.mk.injEq] at e
              obtain ⟨rfl, rfl⟩ := e
              obtain ⟨x, rfl⟩ := newColor_grow h1
              obtain ⟨xs, h3, h4, h5⟩ := ih h2
              refine ⟨x :: xs, by rw [h3]; simp, by simp [h4], ?_⟩
              rw [h5, List.length_cons, List.range_succ_eq_map]
              simp [Function.comp_def, Nat.add_assoc, Nat.add_comm 1]

/-- Spec: the alphas set on colour `r` by a history. -/
def alphasOf (r : Nat) (ops : List ColorOp) : List ℚ := ops.filterMap (fun op => match op with
  | .alpha j a => if j = r then some a else none
  | _ => none)

/-- C104: colours are independent objects: after any history of new colours (also copies of others), new sequences and alphas, a colour has the red, green and blue it
had, and the last alpha set on itself. -/
theorem C104_history (mpl : PV → PyM Rgba) (ops : List ColorOp) (h : Colors) (r : Nat) (c : Rgba) (hc : h[r]? = some c) :
    (ops.foldl (ColorOp.run mpl) h)[r]? = some (c.1, c.2.1, c.2.2.1, ((alphasOf r ops).getLast?).getD c.2.2.2) := by
  induction ops generalizing h c with
  | nil => exact hc
  | cons op ops ih =>
      have grow : ∀ xs : List Rgba, (h ++ xs)[r]? = some c := by
        intro xs
        rw [List.getElem?_append_left (List.getElem?_eq_some_iff.mp hc).1, hc]
      cases op with
      | new s a =>
          rw [List.foldl_cons, show alphasOf r (.new s a :: ops) = alphasOf r ops from rfl]
          refine ih _ c ?_
          rw [ColorOp.run]
          cases e : newColor mpl h s a with
          | error _ => exact hc
          | ok h' => obtain ⟨x, rfl⟩ := newColor_grow e; exact grow [x]
      | seq cs =>
          rw [List.foldl_cons, show alphasOf r (.seq cs :: ops) = alphasOf r ops from rfl]
          refine ih _ c ?_
          rw [ColorOp.run]
          cases e : newSeq mpl h cs with
          | error _ => exact hc
          | ok p => obtain ⟨rs, h'⟩ := p; obtain ⟨xs, rfl, _⟩ := newSeq_grow cs e; exact grow xs
      | alpha j a =>
          rw [List.foldl_cons]
          by_cases hj : j = r
          · subst hj
            have hs : (setAlpha h j a)[j]? = some (c.1, c.2.1, c.2.2.1, a) := by rw [setAlpha_get, if_pos rfl, hc]; rfl
            rw [ColorOp.run, ih _ _ hs]
            have : alphasOf j (.alpha j a :: ops) = a :: alphasOf j ops := by simp [alphasOf]
            rw [this]
            cases hl : alphasOf j ops with
            | nil => rfl
            | cons b t => simp [List.getLast?_cons_cons]; rw [List.getLast?_eq_some_getLast (by simp)]; simp
          · have hs : (setAlpha h j a)[r]? = some c := by rw [setAlpha_get, if_neg (fun e => hj e.symm), hc]
            rw [ColorOp.run, ih _ _ hs]
            have : alphasOf r (.alpha j a :: ops) = alphasOf r ops := by simp [alphasOf, hj]
            rw [this]

/-- C104: a sequence of colours holds one new colour per element, in order, with the colours of the elements; a bad element is its exception. -/
theorem C104_seq (mpl : PV → PyM Rgba) (h : Colors) (vs : List PV) (cs : List Rgba) (hv : vs.length = cs.length) (hm : ∀ (i : Nat) (v : PV), vs[i]? = some v → ∃ c, cs[i]? = some c ∧ mpl v = .ok c) :
    newSeq mpl h (vs.map .spec) = .ok ((List.range cs.length).map (fun i : Nat => h.length + i), h ++ cs) := by
  induction vs generalizing h cs with
  | nil =>
      have : cs = [] := List.length_eq_zero_iff.mp hv.symm
      subst this; simp [newSeq]
  | cons v vs ih =>
      obtain ⟨c, hc, hmv⟩ := hm 0 v rfl
      cases cs with
      | nil => cases hc
      | cons c' cs =>
          simp only [List.getElem?_cons_zero, Option.some.injEq] at hc
          subst hc
          have h1 : newColor mpl h (.spec v) none = .ok (h ++ [c']) := C104_new mpl h (.spec v) none c' (.inl ⟨v, rfl, hmv⟩)
          have h2 := ih (h ++ [c']) cs (by simpa using hv) (fun i w hw => hm (i + 1) w hw)
          simp only [List.map_cons]
          unfold newSeq
          rw [h1]
          simp only [bind, Except.bind]
          rw [h2]
          simp only [pure, Except.pure, List.length_append, List.length_cons, List.length_nil, Except.ok.injEq, Prod.mk.injEq, List.append_assoc, List.singleton_append, and_true]
          rw [List.range_succ_eq_map]
          simp [Function.comp_def, Nat.add_assoc, Nat.add_comm 1]

/-- The colours of a new sequence. -/
theorem seqRgba_new (h : Colors) (cs : List Rgba) : seqRgba (h ++ cs) ((List.range cs.length).map (fun i : Nat => h.length + i)) = cs := by
  unfold seqRgba
  rw [List.filterMap_map]
  induction cs using List.reverseRecOn with
  | nil => rfl
  | append_singleton t c ih =>
      rw [List.length_append, List.length_singleton, List.range_succ, List.filterMap_append]
      congr 1
      · refine Eq.trans ?_ ih
        refine List.filterMap_congr (fun i hi => ?_)
        have hi : i < t.length := by simpa using hi
        simp only [Function.comp]
        have e : ∀ ys : List Rgba, (h ++ ys)[List.length h + i]? = ys[i]? := fun ys => by
          rw [List.getElem?_append_right (Nat.le_add_right _ _), Nat.add_sub_cancel_left]
        rw [e, e, List.getElem?_append_left hi]
      · simp

/-- C104: a predefined sequence is the same every time: whatever has been done to colours before (also to those of an earlier predefined sequence), it holds new
colours with the values of the table; an unknown name is a KeyError. -/
theorem C104_predefined (mpl : PV → PyM Rgba) (table : PyDict Str (List PV)) (h : Colors) (name : Str) :
    (table.get? name = none → predefined mpl table h name = .error .keyError) ∧
    (∀ vs cs, table.get? name = some vs → vs.length = cs.length → (∀ (i : Nat) (v : PV), vs[i]? = some v → ∃ c, cs[i]? = some c ∧ mpl v = .ok c) →
      ∃ rs h', predefined mpl table h name = .ok (rs, h') ∧ seqRgba h' rs = cs ∧ (∀ r ∈ rs, h.length ≤ r) ∧ ∀ (j : Nat), j < h.length → h'[j]? = h[j]?) := by
  constructor
  · intro hn; simp [predefined, hn]
  · intro vs cs ht hl hm
    have := C104_seq mpl h vs cs hl hm
    refine ⟨_, _, by simp only [predefined, ht, this], seqRgba_new h cs, ?_, ?_⟩
    · intro r hr
      obtain ⟨i, _, rfl⟩ := List.mem_map.mp hr
      omega
    · intro j hj
      rw [List.getElem?_append_left hj]

/-- C104: with a number n of levels the colours are those of n equally spaced levels, the first 0 and (n ≥ 2) the last 1; `alpha` replaces the transparency of all. -/
theorem C104_from_cmap (mpl : PV → PyM Rgba) (hmpl : ∀ r g b a : ℚ, mpl (.seq [.num r, .num g, .num b, .num a]) = .ok (r, g, b, a)) (cmap : ℚ → Rgba) (h : Colors) (n : Nat) (alpha : Option ℚ) :
    ∃ (rs : List Nat) (h' : Colors) (ls : List ℚ), fromCmap mpl cmap h (.count n) alpha = .ok (rs, h') ∧ ls.length = n ∧
      (∀ (i : Nat), i < n → ∃ x : ℚ, ls[i]? = some x ∧ x * ((n : ℚ) - 1) = i) ∧ (∀ x, ls[0]? = some x → x = 0) ∧ (2 ≤ n → ls[n - 1]? = some (1 : ℚ)) ∧
      seqRgba h' rs = ls.map (fun x : ℚ => ((cmap x).1, (cmap x).2.1, (cmap x).2.2.1, alpha.getD (cmap x).2.2.2)) := by
  replace hmpl : ∀ c : Rgba, mpl (rgbaPV c) = .ok c := fun c => hmpl c.1 c.2.1 c.2.2.1 c.2.2.2
  have hls : ∃ ls : List ℚ, (Levels.count n).values = .ok ls ∧ ls.length = n ∧ (∀ (i : Nat), i < n → ∃ x : ℚ, ls[i]? = some x ∧ x * ((n : ℚ) - 1) = i) ∧
      (∀ x, ls[0]? = some x → x = 0) ∧ (2 ≤ n → ls[n - 1]? = some (1 : ℚ)) := by
    by_cases h1 : n = 1
    · subst h1
      refine ⟨[0], rfl, rfl, ?_, ?_, by omega⟩
      · intro i hi
        have : i = 0 := by omega
        subst this
        exact ⟨0, rfl, by simp⟩
      · intro x hx; simpa using hx.symm
    · refine ⟨(List.range n).map (fun i : Nat => (i : ℚ) / ((n - 1 : ℕ) : ℚ)), ?_, by simp, ?_, ?_, ?_⟩
      · have : ¬ ((n : Int) < 0) := by omega
        have h1' : ¬ ((n : Int) = 1) := by omega
        simp [Levels.values, this, h1, h1']
      · intro i hi
        refine ⟨(i : ℚ) / ((n - 1 : ℕ) : ℚ), by simp [hi], ?_⟩
        have hn : (n : ℚ) - 1 = ((n - 1 : ℕ) : ℚ) := by rw [Nat.cast_sub (by omega)]; simp
        rw [hn]
        have : ((n - 1 : ℕ) : ℚ) ≠ 0 := by
          have : n - 1 ≠ 0 := by omega
          exact_mod_cast this
        field_simp
      · intro x hx
        simp only [List.getElem?_map] at hx
        cases hh : (List.range n)[0]? with
        | none => rw [hh] at hx; cases hx
        | some v =>
            have : v = 0 := by
              have := (List.getElem?_eq_some_iff.mp hh).2
              simpa using this.symm
            rw [hh, this] at hx
            simpa using hx.symm
      · intro h2
        have : n - 1 < n := by omega
        simp only [List.getElem?_map, List.getElem?_range this, Option.map_some, Option.some.injEq]
        have : ((n - 1 : ℕ) : ℚ) ≠ 0 := by
          have : n - 1 ≠ 0 := by omega
          exact_mod_cast this
        exact div_self this
  obtain ⟨ls, e, hl, hp, h0, hlast⟩ := hls
  have hseq := C104_seq mpl h (ls.map (fun x : ℚ => rgbaPV ((cmap x).1, (cmap x).2.1, (cmap x).2.2.1, alpha.getD (cmap x).2.2.2)))
    (ls.map (fun x : ℚ => ((cmap x).1, (cmap x).2.1, (cmap x).2.2.1, alpha.getD (cmap x).2.2.2))) (by simp) (by
      intro i v hv
      simp only [List.getElem?_map] at hv ⊢
      cases hx : ls[i]? with
      | none => rw [hx] at hv; cases hv
      | some x =>
          rw [hx] at hv
          simp only [Option.map_some, Option.some.injEq] at hv
          exact ⟨_, rfl, by rw [← hv]; exact hmpl _⟩)
  refine ⟨_, _, ls, ?_, hl, hp, h0, hlast, seqRgba_new h _⟩
  unfold fromCmap
  rw [e]
  simp only [bind, Except.bind]
  rw [List.map_map] at hseq
  exact hseq

/-- C104: a negative number of levels is a ValueError; given levels are used as they are. -/
theorem C104_levels (n : Int) (hn : n < 0) (l : List ℚ) : (Levels.count n).values = .error .valueError ∧ (Levels.list l).values = .ok l := by
  simp [Levels.values, hn]

/-- Example: a copy of a colour, made transparent, leaves the original. -/
example : ([ColorOp.new (.spec .none) none, .new (.ref 0) (some (1 / 2)), .alpha 1 (1 / 4)].foldl (ColorOp.run (fun _ => .ok (0, 0, 0, 1))) []) =
    [(0, 0, 0, 1), (0, 0, 0, 1 / 4)] := by decide +kernel

end Pyhipp.Plot
