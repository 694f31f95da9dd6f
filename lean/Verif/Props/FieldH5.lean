import Verif.Model.FieldH5
import Verif.Props.Field
import Verif.Props.H5Like
/-
C68: dump, load and joining of density fields on HDF5 groups.
-/
namespace Pyhipp.CubicBox
open Pyhipp Pyhipp.H5

variable {α : Type} [Field α] [LinearOrder α]

theorem getElem?_flatMap_range {β : Type} (f : Nat → List β) (c : Nat) (hf : ∀ i, (f i).length = c) (n i r : Nat) (hi : i < n) (hr : r < c) :
    ((List.range n).flatMap f)[i * c + r]? = (f i)[r]? := by
  induction n with
  | zero => omega
  | succ n ih =>
      have hlen : ∀ m, ((List.range m).flatMap f).length = m * c := by
        intro m
        induction m with
        | zero => simp
        | succ m ih => rw [List.range_succ, List.flatMap_append, List.length_append, ih]; simp [hf, Nat.succ_mul]
      rw [List.range_succ, List.flatMap_append]
      by_cases hin : i < n
      · rw [List.getElem?_append_left (by rw [hlen]; nlinarith), ih hin]
      · have : i = n := by omega
        subst this
        rw [List.getElem?_append_right (by rw [hlen]; omega), hlen]
        simp

theorem cells_getElem? (n i j k : Nat) (hi : i < n) (hj : j < n) (hk : k < n) :
    (cells n)[(i * n + j) * n + k]? = some ((i : Int), (j : Int), (k : Int)) := by
  unfold cells
  have hl1 : ∀ i : Nat, ((List.range n).flatMap (fun j : Nat => (List.range n).map (fun k : Nat => ((i : Int), (j : Int), (k : Int))))).length = n * n := by
    intro i; simp [List.length_flatMap]
  have e : (i * n + j) * n + k = i * (n * n) + (j * n + k) := by ring
  rw [e, getElem?_flatMap_range _ (n * n) hl1 n i (j * n + k) hi (by nlinarith),
    getElem?_flatMap_range _ n (fun j => by simp) n j k hj hk]
  simp [hk]

theorem arrAt_cube (n : Nat) (d : Cube α) (i j k : Int) (hi : 0 ≤ i ∧ i < n) (hj : 0 ≤ j ∧ j < n) (hk : 0 ≤ k ∧ k < n) :
    arrAt ⟨.f64, [n, n, n], cubeElems n d⟩ i j k = d i j k := by
  have h := cells_getElem? n i.toNat j.toNat k.toNat (by omega) (by omega) (by omega)
  simp only [arrAt, cubeElems, List.getElem?_map, h, Option.map_some]
  rw [Int.toNat_of_nonneg hi.1, Int.toNat_of_nonneg hj.1, Int.toNat_of_nonneg hk.1]

/-- The three datasets of a dump. -/
def fieldNodes (g : Dump α) : List (Str × Node FDT (Cell α)) :=
  [("data".toList, .dset ⟨.f64, [g.nGrids, g.nGrids, g.nGrids], cubeElems g.nGrids g.data⟩ []),
    ("l_box".toList, .dset ⟨.f64, [], [.flt g.lBox]⟩ []), ("n_grids".toList, .dset ⟨.i64, [], [.int g.nGrids]⟩ [])]

theorem fieldDump_eq (env : Env FDT (Cell α)) (hw : env.writable = true) (hst : ∀ d, d.dt ≠ .other → env.storeErr d = none) (g : Dump α) (flag : String)
    (hf : flagOk flag = true) (ch : List (Str × Node FDT (Cell α))) (a : List (Str × Dset FDT (Cell α)))
    (hd : ∀ k ∈ ["data".toList, "l_box".toList, "n_grids".toList], k ∉ PyDict.keys ch) :
    fieldDump env g flag (.grp ch a) = (.ok (), .grp (ch ++ fieldNodes g) a) := by
  have hnew : ∀ d : Dset FDT (Cell α), d.dt ≠ .other → newDset env (.dat d) = .ok d := by
    intro d hd
    simp only [newDset, leafDset, bind, Except.bind, hst d hd]; rfl
  have h1 := hnew ⟨.f64, [g.nGrids, g.nGrids, g.nGrids], cubeElems g.nGrids g.data⟩ (by simp)
  have h2 := hnew ⟨.f64, [], [.flt g.lBox]⟩ (by simp)
  have h3 := hnew ⟨.i64, [], [.int g.nGrids]⟩ (by simp)
  unfold fieldDump fieldDict
  have hgood : GoodItems (Storable env) [(KeyObj.str "data".toList, Val.leaf (.dat ⟨.f64, [g.nGrids, g.nGrids, g.nGrids], cubeElems g.nGrids g.data⟩)),
      (.str "l_box".toList, .leaf (.dat ⟨.f64, [], [.flt g.lBox]⟩)), (.str "n_grids".toList, .leaf (.dat ⟨.i64, [], [.int g.nGrids]⟩))] := by
    simp only [GoodItems, Good, names]
    exact ⟨⟨by decide, by decide⟩, by decide, ⟨_, h1⟩, ⟨by decide, by decide⟩, by decide, ⟨_, h2⟩, ⟨by decide, by decide⟩, by decide, ⟨_, h3⟩, trivial⟩
  rw [dump, scanItems_good (fun l hl => storable_leafOk hl) _ hgood, if_pos rfl, dumpItems_build env hw flag hf _ hgood ch a (by simpa [names] using hd)]
  simp only [buildItems, build, buildLeaf, h1, h2, h3]
  rfl

theorem fieldLoad_eq (g : Dump α) (ch : List (Str × Node FDT (Cell α))) (a : List (Str × Dset FDT (Cell α)))
    (hd : ∀ k ∈ ["data".toList, "l_box".toList, "n_grids".toList], k ∉ PyDict.keys ch) :
    fieldLoad (.grp (ch ++ fieldNodes g) a) =
      .ok { data := arrAt ⟨.f64, [g.nGrids, g.nGrids, g.nGrids], cubeElems g.nGrids g.data⟩, lBox := g.lBox, nGrids := g.nGrids } := by
  have hget : ∀ k d, k ∈ ["data".toList, "l_box".toList, "n_grids".toList] → pathOf k = [k] → PyDict.get? (fieldNodes g) k = some (.dset d []) →
      dsGet (.grp (ch ++ fieldNodes g) a) k = .ok d := by
    intro k d hk hp hg
    have hn : PyDict.get? ch k = none := (PyDict.get?_eq_none_iff ch k).mpr (hd k hk)
    unfold dsGet
    rw [hp, lookup_single, PyDict.get?_append, hn, Option.none_or, hg]
  unfold fieldLoad
  rw [hget "data".toList _ (by simp) (by decide) rfl, hget "l_box".toList _ (by simp) (by decide) rfl, hget "n_grids".toList _ (by simp) (by decide) rfl]
  simp [bind, Except.bind, pure, Except.pure, asFloat, asInt]

/-- C68: `dump` into a group that has none of the three names, followed by `load`, gives a field with the same box, number of
grids and value at every grid point. -/
theorem C68_dump_load (env : Env FDT (Cell α)) (hw : env.writable = true) (hst : ∀ d, d.dt ≠ .other → env.storeErr d = none) (g : Dump α) (flag : String)
    (hf : flag = "x" ∨ flag = "ac" ∨ flag = "ca") (ch : List (Str × Node FDT (Cell α))) (a : List (Str × Dset FDT (Cell α)))
    (hd : ∀ k ∈ ["data".toList, "l_box".toList, "n_grids".toList], k ∉ PyDict.keys ch) :
    ∃ n' g', fieldDump env g flag (.grp ch a) = (.ok (), n') ∧ fieldLoad n' = .ok g' ∧ g'.lBox = g.lBox ∧ g'.nGrids = g.nGrids ∧
      ∀ i j k : Int, (0 ≤ i ∧ i < g.nGrids) → (0 ≤ j ∧ j < g.nGrids) → (0 ≤ k ∧ k < g.nGrids) → g'.data i j k = g.data i j k :=
  ⟨_, _, fieldDump_eq env hw hst g flag (by rcases hf with rfl | rfl | rfl <;> rfl) ch a hd, fieldLoad_eq g ch a hd, rfl, rfl,
    fun i j k hi hj hk => arrAt_cube g.nGrids g.data i j k hi hj hk⟩

theorem load_fieldNodes (g : Dump α) (a : List (Str × Dset FDT (Cell α))) :
    load (.grp (fieldNodes g) a) = .map [("data".toList, .dat ⟨.f64, [g.nGrids, g.nGrids, g.nGrids], cubeElems g.nGrids g.data⟩),
      ("l_box".toList, .dat ⟨.f64, [], [.flt g.lBox]⟩), ("n_grids".toList, .dat ⟨.i64, [], [.int g.nGrids]⟩)] := by
  rw [load]
  rfl

theorem iadd_cube (n : Nat) (d e : Cube α) :
    iadd ⟨.f64, [n, n, n], cubeElems n d⟩ ⟨.f64, [n, n, n], cubeElems n e⟩ = .ok ⟨.f64, [n, n, n], cubeElems n (fun i j k => d i j k + e i j k)⟩ := by
  unfold iadd
  rw [if_pos (Nat.le_refl _), matchShape_self]
  simp only
  rw [expand_self [n, n, n] _ (by simp [cubeElems, cells_length]; ring)]
  congr 2
  unfold cubeElems
  rw [List.zipWith_map, List.zipWith_self]
  rfl

/-- C68: joining the dumps of fields on the same grid writes a dump that loads as the sum of the fields, with the box and grid of
the first; a single input is copied. -/
theorem C68_join_files (env : Env FDT (Cell α)) (hw : env.writable = true) (hst : ∀ d, d.dt ≠ .other → env.storeErr d = none)
    (first : Dump α) (rest : List (Dump α)) (hn : ∀ g ∈ rest, g.nGrids = first.nGrids) (flag : String) (hf : flag = "x" ∨ flag = "ac" ∨ flag = "ca")
    (ch : List (Str × Node FDT (Cell α))) (a : List (Str × Dset FDT (Cell α)))
    (hd : ∀ k ∈ ["data".toList, "l_box".toList, "n_grids".toList], k ∉ PyDict.keys ch) :
    ∃ ins out g', (first :: rest).map (fun g => fieldDump env g "x" (.grp [] [])) = ins.map (fun n => (.ok (), n)) ∧
      joinDumpsH5 env ins flag (.grp ch a) = (.ok (), out) ∧ fieldLoad out = .ok g' ∧ g'.lBox = first.lBox ∧ g'.nGrids = first.nGrids ∧
      ∀ i j k : Int, (0 ≤ i ∧ i < first.nGrids) → (0 ≤ j ∧ j < first.nGrids) → (0 ≤ k ∧ k < first.nGrids) →
        g'.data i j k = ((first :: rest).map (fun g => g.data i j k)).sum := by
  have hdump : ∀ g : Dump α, fieldDump env g "x" (.grp [] []) = (.ok (), .grp (fieldNodes g) []) := fun g =>
    fieldDump_eq env hw hst g "x" rfl [] [] (by simp)
  have hfold : ∀ (rest : List (Dump α)) (cur : Dump α), (∀ g ∈ rest, g.nGrids = cur.nGrids) →
      (rest.map (fun g => Node.grp (fieldNodes g) [])).foldlM joinStep
        [("data".toList, .dat ⟨.f64, [cur.nGrids, cur.nGrids, cur.nGrids], cubeElems cur.nGrids cur.data⟩),
          ("l_box".toList, .dat ⟨.f64, [], [.flt cur.lBox]⟩), ("n_grids".toList, .dat ⟨.i64, [], [.int cur.nGrids]⟩)] =
      .ok [("data".toList, .dat ⟨.f64, [cur.nGrids, cur.nGrids, cur.nGrids],
            cubeElems cur.nGrids (fun i j k => ((cur :: rest).map (fun g => g.data i j k)).sum)⟩),
          ("l_box".toList, .dat ⟨.f64, [], [.flt cur.lBox]⟩), ("n_grids".toList, .dat ⟨.i64, [], [.int cur.nGrids]⟩)] := by
    intro rest
    induction rest with
    | nil => intro cur _; simp [pure, Except.pure]
    | cons g rest ih =>
        intro cur hn
        have hstep : joinStep [("data".toList, LVal.dat ⟨.f64, [cur.nGrids, cur.nGrids, cur.nGrids], cubeElems cur.nGrids cur.data⟩),
            ("l_box".toList, .dat ⟨.f64, [], [.flt cur.lBox]⟩), ("n_grids".toList, .dat ⟨.i64, [], [.int cur.nGrids]⟩)] (Node.grp (fieldNodes g) []) =
            .ok [("data".toList, LVal.dat ⟨.f64, [cur.nGrids, cur.nGrids, cur.nGrids], cubeElems cur.nGrids (fun i j k => cur.data i j k + g.data i j k)⟩),
              ("l_box".toList, .dat ⟨.f64, [], [.flt cur.lBox]⟩), ("n_grids".toList, .dat ⟨.i64, [], [.int cur.nGrids]⟩)] := by
          have hget : dsGet (Node.grp (fieldNodes g) []) "data".toList = .ok ⟨.f64, [cur.nGrids, cur.nGrids, cur.nGrids], cubeElems cur.nGrids g.data⟩ := by
            rw [← hn g (by simp)]; rfl
          have hi := iadd_cube cur.nGrids cur.data g.data
          unfold joinStep
          simp only [PyDict.get?, if_true, hget, hi, bind, Except.bind, pure, Except.pure]
          rfl
        rw [List.map_cons, List.foldlM_cons, hstep]
        have := ih { cur with data := fun i j k => cur.data i j k + g.data i j k } (fun g' hg' => hn g' (by simp [hg']))
        simp only [bind, Except.bind]
        simp only [List.map_cons, List.sum_cons] at this ⊢
        rw [this]
        simp only [add_assoc]
  let g' : Dump α := { first with data := fun i j k => ((first :: rest).map (fun g => g.data i j k)).sum }
  have hjoin : joinDumpsH5 env ((first :: rest).map (fun g => Node.grp (fieldNodes g) [])) flag (.grp ch a) = (.ok (), .grp (ch ++ fieldNodes g') a) := by
    have hj : joinData ((first :: rest).map (fun g => Node.grp (fieldNodes g) [])) =
        .ok [("data".toList, .dat ⟨.f64, [first.nGrids, first.nGrids, first.nGrids], cubeElems first.nGrids g'.data⟩),
          ("l_box".toList, .dat ⟨.f64, [], [.flt first.lBox]⟩), ("n_grids".toList, .dat ⟨.i64, [], [.int first.nGrids]⟩)] := by
      rw [List.map_cons, joinData, load_fieldNodes]
      exact hfold rest first hn
    unfold joinDumpsH5
    rw [hj]
    exact fieldDump_eq env hw hst g' flag (by rcases hf with rfl | rfl | rfl <;> rfl) ch a hd
  refine ⟨_, _, _, ?_, hjoin, fieldLoad_eq g' ch a hd, rfl, rfl, fun i j k hi hj hk => arrAt_cube first.nGrids g'.data i j k hi hj hk⟩
  rw [List.map_map]
  exact List.map_congr_left (fun g _ => hdump g)

/-- C68: without an input, NameError, and nothing is written. -/
theorem C68_join_nothing (env : Env FDT (Cell α)) (flag : String) (out : Node FDT (Cell α)) : joinDumpsH5 env [] flag out = (.error .nameError, out) := rfl

/-- Two fields on a 2-cell grid, joined. -/
example :
    let env : Env FDT (Cell ℚ) := ⟨true, .other, fun _ => .int 0, fun _ => .int 0, fun _ => .int 0, fun d => if d.dt = .other then some .typeError else none, fun _ _ => none⟩
    let g : Dump ℚ := ⟨fun i j k => i + 2 * j + 4 * k, 10, 2⟩
    (match fieldLoad (joinDumpsH5 env [(fieldDump env g "x" (.grp [] [])).2, (fieldDump env g "x" (.grp [] [])).2] "x" (.grp [] [])).2 with
      | .ok g' => decide (g'.data 1 0 1 = 10 ∧ g'.lBox = 10 ∧ g'.nGrids = 2)
      | .error _ => false) = true := by decide +kernel


/-- A group that holds datasets of the given contents under the three names (a stored dump, possibly of another program). -/
def storedField (data l n : Dset FDT (Cell α)) : Node FDT (Cell α) :=
  .grp [("data".toList, .dset data []), ("l_box".toList, .dset l []), ("n_grids".toList, .dset n [])] []

/-- C68: `load` accepts exactly a float64 array of shape (n, n, n) with n the stored number of grids and scalar box size and number of grids. -/
theorem C68_load_accepts (data l n : Dset FDT (Cell α)) (g : Dump α) (h : fieldLoad (storedField data l n) = .ok g) :
    data.dt = .f64 ∧ data.shape = [g.nGrids, g.nGrids, g.nGrids] ∧ l.shape = [] ∧ l.elems = [.flt g.lBox] ∧ n.shape = [] ∧ n.elems = [.int g.nGrids] := by
  have h1 : dsGet (storedField data l n) "data".toList = .ok data := rfl
  have h2 : dsGet (storedField data l n) "l_box".toList = .ok l := rfl
  have h3 : dsGet (storedField data l n) "n_grids".toList = .ok n := rfl
  unfold fieldLoad at h
  rw [h1, h2, h3] at h
  simp only [bind, Except.bind] at h
  have fl : ∀ x, asFloat l = .ok x → l.shape = [] ∧ l.elems = [.flt x] := by
    intro x hx
    unfold asFloat at hx
    split at hx
    · rename_i hs he; cases hx; exact ⟨hs, he⟩
    · cases hx
  have nt : ∀ x, asInt n = .ok x → n.shape = [] ∧ n.elems = [.int x] := by
    intro x hx
    unfold asInt at hx
    split at hx
    · rename_i hs he; cases hx; exact ⟨hs, he⟩
    · cases hx
  cases hl : asFloat l with
  | error e => rw [hl] at h; cases h
  | ok x =>
      rw [hl] at h
      cases hn : asInt n with
      | error e => rw [hn] at h; cases h
      | ok m =>
          rw [hn] at h
          simp only at h
          by_cases hc : data.shape.length = 3 ∧ data.dt = .f64
          · rw [if_pos hc] at h
            by_cases hs : data.shape = [m, m, m]
            · rw [if_pos hs] at h
              cases h
              exact ⟨hc.2, hs, (fl x hl).1, (fl x hl).2, (nt m hn).1, (nt m hn).2⟩
            · rw [if_neg hs] at h; cases h
          · rw [if_neg hc] at h; cases h

theorem matchShape_cube_none (m n : Nat) (hmn : m ≠ n) (h1 : m ≠ 1) : matchShape [m, m, m] [n, n, n] = none := by
  simp [matchShape, hmn, h1]

/-- The dict that `load` gives for a dump. -/
def fieldVals (g : Dump α) : List (Str × LVal FDT (Cell α)) :=
  [("data".toList, .dat ⟨.f64, [g.nGrids, g.nGrids, g.nGrids], cubeElems g.nGrids g.data⟩),
    ("l_box".toList, .dat ⟨.f64, [], [.flt g.lBox]⟩), ("n_grids".toList, .dat ⟨.i64, [], [.int g.nGrids]⟩)]

theorem joinStep_eq (cur : Dump α) (g : Node FDT (Cell α)) (new : Dset FDT (Cell α)) (hget : dsGet g "data".toList = .ok new) :
    joinStep (fieldVals cur) g = (match iadd ⟨.f64, [cur.nGrids, cur.nGrids, cur.nGrids], cubeElems cur.nGrids cur.data⟩ new with
      | .ok d => .ok [("data".toList, .dat d), ("l_box".toList, .dat ⟨.f64, [], [.flt cur.lBox]⟩), ("n_grids".toList, .dat ⟨.i64, [], [.int cur.nGrids]⟩)]
      | .error e => .error e) := by
  unfold joinStep fieldVals
  simp only [PyDict.get?, if_true, hget, bind, Except.bind, pure, Except.pure]
  split <;> rename_i h <;> simp only [h] <;> rfl

theorem joinStep_cube (cur g : Dump α) (hg : g.nGrids = cur.nGrids) :
    joinStep (fieldVals cur) (Node.grp (fieldNodes g) []) = .ok (fieldVals { cur with data := fun i j k => cur.data i j k + g.data i j k }) := by
  have hget : dsGet (Node.grp (fieldNodes g) []) "data".toList = .ok ⟨.f64, [cur.nGrids, cur.nGrids, cur.nGrids], cubeElems cur.nGrids g.data⟩ := by
    rw [← hg]; rfl
  rw [joinStep_eq cur _ _ hget, iadd_cube]
  rfl

theorem joinStep_bad (cur bad : Dump α) (hb : bad.nGrids ≠ cur.nGrids) (h1 : bad.nGrids ≠ 1) :
    joinStep (fieldVals cur) (Node.grp (fieldNodes bad) []) = .error .valueError := by
  have hget : dsGet (Node.grp (fieldNodes bad) []) "data".toList = .ok ⟨.f64, [bad.nGrids, bad.nGrids, bad.nGrids], cubeElems bad.nGrids bad.data⟩ := rfl
  have hi : iadd (⟨.f64, [cur.nGrids, cur.nGrids, cur.nGrids], cubeElems cur.nGrids cur.data⟩ : Dset FDT (Cell α))
      ⟨.f64, [bad.nGrids, bad.nGrids, bad.nGrids], cubeElems bad.nGrids bad.data⟩ = .error .valueError := by
    unfold iadd
    rw [if_pos (by simp), matchShape_cube_none _ _ hb h1]
  rw [joinStep_eq cur _ _ hget, hi]

/-- C68: adding a field on another grid (not a single cell) is a ValueError, at any position in the sequence, and nothing is written. -/
theorem C68_join_mismatch (env : Env FDT (Cell α)) (first : Dump α) (good : List (Dump α)) (hn : ∀ g ∈ good, g.nGrids = first.nGrids) (bad : Dump α)
    (hb : bad.nGrids ≠ first.nGrids) (h1 : bad.nGrids ≠ 1) (more : List (Node FDT (Cell α))) (flag : String) (out : Node FDT (Cell α)) :
    joinDumpsH5 env ((first :: good).map (fun g => Node.grp (fieldNodes g) []) ++ Node.grp (fieldNodes bad) [] :: more) flag out = (.error .valueError, out) := by
  have hfold : ∀ (good : List (Dump α)) (cur : Dump α), cur.nGrids = first.nGrids → (∀ g ∈ good, g.nGrids = first.nGrids) →
      (good.map (fun g => Node.grp (fieldNodes g) []) ++ Node.grp (fieldNodes bad) [] :: more).foldlM joinStep (fieldVals cur) = .error .valueError := by
    intro good
    induction good with
    | nil =>
        intro cur hc _
        rw [List.map_nil, List.nil_append, List.foldlM_cons, joinStep_bad cur bad (by rw [hc]; exact hb) h1]
        rfl
    | cons g good ih =>
        intro cur hc hn
        rw [List.map_cons, List.cons_append, List.foldlM_cons, joinStep_cube cur g (by rw [hc]; exact hn g (by simp))]
        exact ih _ hc (fun g' hg' => hn g' (by simp [hg']))
  unfold joinDumpsH5
  rw [List.map_cons, List.cons_append, joinData, load_fieldNodes]
  have := hfold good first rfl hn
  unfold fieldVals at this
  simp only
  rw [this]

example : (2 : Nat) ≠ 3 ∧ (2 : Nat) ≠ 1 := by decide

/-- C68: a one-dimensional or four-dimensional 'data' in a later input: the former may be broadcast, one of more dimensions is a ValueError. -/
theorem C68_iadd_reject (old new : Dset FDT (Cell α)) :
    (old.shape.length < new.shape.length → iadd old new = .error .valueError) ∧
    (∀ d, iadd old new = .ok d → d.shape = old.shape ∧ d.dt = old.dt) := by
  constructor
  · intro h
    unfold iadd
    rw [if_neg (by omega)]
  · intro d h
    unfold iadd at h
    split at h
    · split at h
      · cases h; exact ⟨rfl, rfl⟩
      · cases h
    · cases h

/-- C68: if the first input has no 'data' and there is another input, or a later input has no dataset 'data', it is a KeyError and nothing is written. -/
theorem C68_join_missing (env : Env FDT (Cell α)) (ch : List (Str × Node FDT (Cell α))) (a : List (Str × Dset FDT (Cell α))) (first : Dump α)
    (g : Node FDT (Cell α)) (more : List (Node FDT (Cell α))) (flag : String) (out : Node FDT (Cell α)) :
    (PyDict.get? ch "data".toList = none → joinDumpsH5 env (.grp ch a :: g :: more) flag out = (.error .keyError, out)) ∧
    (dsGet g "data".toList = .error .keyError → joinDumpsH5 env (.grp (fieldNodes first) [] :: g :: more) flag out = (.error .keyError, out)) := by
  constructor
  · intro h
    have hl : ∃ kvs, load (Node.grp ch a) = .map kvs ∧ PyDict.get? kvs "data".toList = none := by
      rw [load]
      refine ⟨_, rfl, ?_⟩
      rw [PyDict.get?_eq_none_iff]
      intro hm
      rw [PyDict.keys, ((sortNames_perm _).map (fun p : Str × LVal FDT (Cell α) => p.1)).mem_iff] at hm
      revert hm
      show ¬ ("data".toList ∈ PyDict.keys (loadItems ch))
      rw [← PyDict.get?_eq_none_iff]
      induction ch with
      | nil => rw [loadItems]; rfl
      | cons p rest ih =>
          obtain ⟨k, nd⟩ := p
          rw [loadItems]
          by_cases hk : k = "data".toList
          · subst hk; simp [PyDict.get?] at h
          · simp only [PyDict.get?, hk, if_false] at h ⊢
            exact ih h
    obtain ⟨kvs, h1, h2⟩ := hl
    unfold joinDumpsH5
    rw [joinData, h1]
    simp only
    rw [List.foldlM_cons]
    unfold joinStep
    rw [h2]
    rfl
  · intro h
    unfold joinDumpsH5
    rw [joinData, load_fieldNodes]
    simp only
    rw [List.foldlM_cons]
    unfold joinStep
    simp only [PyDict.get?, if_true, h, bind, Except.bind]

end Pyhipp.CubicBox
