import Verif.Model.Scatter2D
import Verif.Props.TwoDim
/-
C129: what Scatter2D.mesh and Scatter2D.contour draw.
-/
namespace Pyhipp.TwoDim
open Pyhipp

variable {K α : Type} [Field K] [LinearOrder K] [IsStrictOrderedRing K]

theorem centers_length (e : List K) : (centers e).length = e.length - 1 := by
  unfold centers
  rw [List.length_zipWith, List.length_drop]
  omega

theorem onMesh_rows (s : Scatter K) (t : K → K) : (s.onMesh t).length = s.ye.length - 1 ∧ ∀ r ∈ s.onMesh t, r.length = s.xe.length - 1 := by
  unfold Scatter.onMesh onMeshgrid
  refine ⟨by simp [centers_length], ?_⟩
  intro r hr
  simp only [List.map_map, List.mem_map] at hr
  obtain ⟨b, _, rfl⟩ := hr
  simp [centers_length]

/-- C129: **`mesh`** never fails, draws exactly one pcolormesh more, on the edges of the histogram, with one row for each y bin and one column for each x bin;
every keyword of the caller reaches matplotlib with the caller's value, the named ones with theirs. -/
theorem C129_mesh (s : Scatter K) (t : K → K) (outs : List (Call K α)) (m : MeshArgs K α) (user : PyDict String (KV K α)) (hu : user.WF) :
    ∃ c : Call K α, s.mesh t outs m user = (.ok (), outs ++ [c]) ∧ c.fn = "pcolormesh" ∧ c.x = s.xe ∧ c.y = s.ye ∧ c.z = s.onMesh t ∧
      c.z.length = s.ye.length - 1 ∧ (∀ r ∈ c.z, r.length = s.xe.length - 1) ∧
      (∀ k v, user.get? k = some v → c.kw.get? k = some v) ∧
      (user.get? "cmap" = none → c.kw.get? "cmap" = some m.cmap) ∧ (user.get? "vmin" = none → c.kw.get? "vmin" = some m.vmin) ∧
      (user.get? "vmax" = none → c.kw.get? "vmax" = some m.vmax) ∧ (user.get? "norm" = none → c.kw.get? "norm" = some m.norm) ∧
      (user.get? "alpha" = none → c.kw.get? "alpha" = some m.alpha) ∧ (user.get? "edgecolors" = none → c.kw.get? "edgecolors" = some m.edgecolors) := by
  obtain ⟨r1, r2⟩ := onMesh_rows s t
  refine ⟨s.meshCall t m user, rfl, rfl, rfl, rfl, rfl, r1, r2, ?_, ?_, ?_, ?_, ?_, ?_, ?_⟩
  · intro k v h
    unfold Scatter.meshCall
    simp only
    rw [PyDict.get?_update _ _ _ hu, h]
    rfl
  all_goals
    intro h
    unfold Scatter.meshCall
    simp only
    rw [PyDict.get?_update _ _ _ hu, h]
    rfl

/-- C129: the cell in row j and column i shows the (transformed) density of the histogram's bin (i, j). -/
theorem C129_mesh_cells (pts : List (Pt K)) (xb yb : Nat) (hxb : 0 < xb) (hyb : 0 < yb) (s : Scatter K) (hs : Scatter.new pts none xb yb = .ok s)
    (p q p' q' : Pt K) (hp : p ∈ pts) (hq : q ∈ pts) (hpq : p.x < q.x) (hp' : p' ∈ pts) (hq' : q' ∈ pts) (hpq' : p'.y < q'.y) (t : K → K)
    (outs : List (Call K α)) (m : MeshArgs K α) (user : PyDict String (KV K α)) (i j : Nat) (hi : i < xb) (hj : j < yb) :
    ∃ (c : Call K α) (a : K), s.mesh t outs m user = (.ok (), outs ++ [c]) ∧ entry s.est.z i j = some a ∧ entry c.z j i = some (t a) := by
  obtain ⟨a, h1, h2⟩ := C92_mesh pts xb yb hxb hyb s hs p q p' q' hp hq hpq hp' hq' hpq' t i j hi hj
  exact ⟨s.meshCall t m user, a, rfl, h1, h2⟩

/-! ### Contours -/

theorem strictInc_iff (l : List K) : strictInc l = true ↔ l.Pairwise (· < ·) := by
  induction l with
  | nil => simp [strictInc]
  | cons a t ih =>
    cases t with
    | nil => simp [strictInc]
    | cons b t =>
      rw [strictInc, Bool.and_eq_true, ih, decide_eq_true_eq]
      constructor
      · rintro ⟨h1, h2⟩
        rw [List.pairwise_cons]
        refine ⟨fun c hc => ?_, h2⟩
        rcases List.mem_cons.mp hc with rfl | hc
        · exact h1
        · exact lt_trans h1 (List.rel_of_pairwise_cons h2 hc)
      · intro h
        exact ⟨List.rel_of_pairwise_cons h (by simp), (List.pairwise_cons.mp h).2⟩

/-- The levels do not depend on the other fractions asked for. -/
theorem zLevels_eq (z : List K) (hz : z ≠ []) : ∃ f : K → K, ∀ ps, zLevels z ps 0 = .ok (ps.map f) := by
  obtain ⟨prob, h1, -, -⟩ := cumProbMass_ok z hz
  exact ⟨levelAt (npSort z) prob 0, fun ps => by simp [zLevels, h1]⟩

/-- The call that `contour` makes. -/
theorem contourCall_ok (s : Scatter K) (t : K → K) (ps : List K) (hps : ps ≠ []) (fill : Bool) (m : ContourArgs K α) (hls : m.ls = .none) (user : PyDict String (KV K α))
    (ls : List K) (hl : zLevels (s.onMesh t).flatten ps 0 = .ok ls) :
    s.contourCall t (some ps) fill m user = .ok ⟨if fill then "contourf" else "contour", centers s.xe, centers s.ye, s.onMesh t,
      let kw : PyDict String (KV K α) := PyDict.update [("levels", .nums ls), ("colors", m.colors), ("cmap", m.cmap), ("vmin", m.vmin), ("vmax", m.vmax), ("norm", m.norm),
        ("linewidths", lwOf m.lw ps.length), ("linestyles", .styles ((npLinspace 3 6 (ps.length - 1)).map Style.dash ++ [.solid]))] user
      if fill then kw.del "linewidths" else kw⟩ := by
  have hn : ∃ n, ps.length = n + 1 := ⟨ps.length - 1, by have := List.length_pos_iff.mpr hps; omega⟩
  obtain ⟨n, hn⟩ := hn
  unfold Scatter.contourCall
  simp only [Option.getD_some, hl, hls, hn, lsOf, bind, Except.bind, pure, Except.pure, Nat.add_sub_cancel]
  cases fill <;> rfl

/-- The outcome of `contour`, given the levels. -/
theorem contour_given (s : Scatter K) (t : K → K) (hx : 3 ≤ s.xe.length) (hy : 3 ≤ s.ye.length) (ps : List K) (hne : ps ≠ []) (outs : List (Call K α)) (ls : List K)
    (h1 : zLevels (s.onMesh t).flatten ps 0 = .ok ls) (h2 : ls.length = ps.length) :
    (ls.Pairwise (· < ·) → ∃ c : Call K α, s.contour t outs (some ps) false {} [] = (.ok (), outs ++ [c]) ∧ c.fn = "contour" ∧ c.x = centers s.xe ∧
      c.y = centers s.ye ∧ c.z = s.onMesh t ∧ c.kw.get? "levels" = some (.nums ls) ∧ c.kw.get? "colors" = some (.str "k") ∧
      c.kw.get? "linewidths" = some (.nums (npLinspace 1 3 ls.length))) ∧
    (¬ ls.Pairwise (· < ·) → s.contour (α := α) t outs (some ps) false {} [] = (.error .valueError, outs)) := by
  obtain ⟨r1, r2⟩ := onMesh_rows s t
  have hz : ¬ ((s.onMesh t).length < 2 ∨ ((s.onMesh t).headD []).length < 2) := by
    rintro (h | h)
    · omega
    · cases hm : s.onMesh t with
      | nil => rw [hm] at r1; simp at r1; omega
      | cons r rs =>
        rw [hm] at h
        have := r2 r (by rw [hm]; simp)
        simp at h
        omega
  have hc := contourCall_ok (α := α) s t ps hne false {} rfl [] ls h1
  simp only [Bool.false_eq_true, if_false, PyDict.update, List.foldl_nil] at hc
  refine ⟨?_, ?_⟩
  · intro hlt
    refine ⟨_, by
      unfold Scatter.contour
      rw [hc]
      simp only
      unfold draw mplErr
      simp only [show ("contour" == "pcolormesh") = false from rfl, Bool.false_eq_true, if_false]
      unfold contourErr
      simp only [if_neg hz]
      have e1 : given (α := α) [("levels", KV.nums ls), ("colors", KV.str "k"), ("cmap", KV.none), ("vmin", KV.none), ("vmax", KV.none), ("norm", KV.none),
        ("linewidths", lwOf KV.none ps.length), ("linestyles", KV.styles ((npLinspace 3 6 (ps.length - 1)).map Style.dash ++ [.solid]))] "cmap" = false := rfl
      rw [e1]
      simp only [Bool.and_false, Bool.false_eq_true, if_false, PyDict.get?, if_true, show ("contour" == "contourf") = false from rfl, Bool.false_and, (strictInc_iff ls).mpr hlt]
      rfl, rfl, rfl, rfl, rfl, rfl, rfl, ?_⟩
    rw [h2]
    rfl
  · intro hlt
    have hf : strictInc ls = false := by rw [Bool.eq_false_iff, ne_eq, strictInc_iff]; exact hlt
    unfold Scatter.contour
    rw [hc]
    simp only
    unfold draw mplErr
    simp only [show ("contour" == "pcolormesh") = false from rfl, Bool.false_eq_true, if_false]
    unfold contourErr
    simp only [if_neg hz]
    have e1 : given (α := α) [("levels", KV.nums ls), ("colors", KV.str "k"), ("cmap", KV.none), ("vmin", KV.none), ("vmax", KV.none), ("norm", KV.none),
        ("linewidths", lwOf KV.none ps.length), ("linestyles", KV.styles ((npLinspace 3 6 (ps.length - 1)).map Style.dash ++ [.solid]))] "cmap" = false := rfl
    rw [e1]
    simp only [Bool.and_false, Bool.false_eq_true, if_false, PyDict.get?, if_true, show ("contour" == "contourf") = false from rfl, Bool.false_and, hf]

/-- C129: **`contour`.** For a density of at least 2 x 2 cells and fractions in [0, 1] (with the default colours and line styles): the levels enclose the fractions (as in
C91), and the contours are drawn if and only if the levels are strictly increasing; otherwise ValueError and nothing is drawn. What is drawn: the levels, on the
centres of the bins, with as many line widths (from 1 to 3) as levels. -/
theorem C129_contour (s : Scatter K) (t : K → K) (hx : 3 ≤ s.xe.length) (hy : 3 ≤ s.ye.length) (hnn : ∀ a ∈ (s.onMesh t).flatten, 0 ≤ a)
    (hsum : 0 < (s.onMesh t).flatten.sum) (ps : List K) (hne : ps ≠ []) (hps : ∀ p ∈ ps, 0 ≤ p ∧ p ≤ 1) (outs : List (Call K α)) :
    ∃ ls : List K, ls.length = ps.length ∧
      (∀ (i : Nat) (p level : K), ps[i]? = some p → ls[i]? = some level → Encloses (s.onMesh t).flatten p level) ∧
      (ls.Pairwise (· < ·) → ∃ c : Call K α, s.contour t outs (some ps) false {} [] = (.ok (), outs ++ [c]) ∧ c.fn = "contour" ∧ c.x = centers s.xe ∧
        c.y = centers s.ye ∧ c.z = s.onMesh t ∧ c.kw.get? "levels" = some (.nums ls) ∧ c.kw.get? "colors" = some (.str "k") ∧
        c.kw.get? "linewidths" = some (.nums (npLinspace 1 3 ls.length))) ∧
      (¬ ls.Pairwise (· < ·) → s.contour (α := α) t outs (some ps) false {} [] = (.error .valueError, outs)) := by
  obtain ⟨ls, h1, h2, h3⟩ := C91_encloses (s.onMesh t).flatten hnn hsum ps hps
  obtain ⟨g1, g2⟩ := contour_given s t hx hy ps hne outs ls h1 h2
  exact ⟨ls, h2, h3, g1, g2⟩

/-- C129: the fractions must be given in strictly decreasing order: in any other order (for instance 68 %, 95 %) `contour` always raises ValueError and draws nothing. -/
theorem C129_order (s : Scatter K) (t : K → K) (hx : 3 ≤ s.xe.length) (hy : 3 ≤ s.ye.length) (hnn : ∀ a ∈ (s.onMesh t).flatten, 0 ≤ a)
    (hsum : 0 < (s.onMesh t).flatten.sum) (ps : List K) (outs : List (Call K α)) (i j : Nat) (p q : K) (hij : i < j) (hi : ps[i]? = some p) (hj : ps[j]? = some q)
    (hpq : p ≤ q) : s.contour (α := α) t outs (some ps) false {} [] = (.error .valueError, outs) := by
  have hz : (s.onMesh t).flatten ≠ [] := by intro h; rw [h] at hsum; simp at hsum
  obtain ⟨f, hf⟩ := zLevels_eq (s.onMesh t).flatten hz
  have hne : ps ≠ [] := by rintro rfl; simp at hi
  refine (contour_given s t hx hy ps hne outs (ps.map f) (hf ps) (by simp)).2 ?_
  intro hpw
  obtain ⟨lp, lq, e, hle⟩ := C91_nested (s.onMesh t).flatten hnn hsum p q hpq 0
  rw [hf] at e
  have e' := Except.ok.inj e
  simp only [List.map_cons, List.map_nil, List.cons.injEq, and_true] at e'
  obtain ⟨li, hpi⟩ := List.getElem?_eq_some_iff.mp hi
  obtain ⟨lj, hpj⟩ := List.getElem?_eq_some_iff.mp hj
  have := List.pairwise_iff_getElem.mp hpw i j (by simpa using li) (by simpa using lj) hij
  simp only [List.getElem_map, hpi, hpj] at this
  rw [e'.1, e'.2] at this
  exact absurd hle (not_le.mpr this)

/-- C129: **the default levels.** Without arguments `contour` encloses 99 %, 95 % and 68 %, in this order: the three levels ascend, and the contours are drawn exactly if
they are different; otherwise ValueError and nothing is drawn. -/
theorem C129_default (s : Scatter K) (t : K → K) (hx : 3 ≤ s.xe.length) (hy : 3 ≤ s.ye.length) (hnn : ∀ a ∈ (s.onMesh t).flatten, 0 ≤ a)
    (hsum : 0 < (s.onMesh t).flatten.sum) (outs : List (Call K α)) :
    ∃ l99 l95 l68 : K, l99 ≤ l95 ∧ l95 ≤ l68 ∧ Encloses (s.onMesh t).flatten (99 / 100) l99 ∧ Encloses (s.onMesh t).flatten (95 / 100) l95 ∧
      Encloses (s.onMesh t).flatten (68 / 100) l68 ∧
      (l99 ≠ l95 ∧ l95 ≠ l68 → ∃ c : Call K α, s.contour t outs none false {} [] = (.ok (), outs ++ [c]) ∧ c.fn = "contour" ∧ c.x = centers s.xe ∧
        c.y = centers s.ye ∧ c.z = s.onMesh t ∧ c.kw.get? "levels" = some (.nums [l99, l95, l68]) ∧ c.kw.get? "linewidths" = some (.nums (npLinspace 1 3 3))) ∧
      (¬ (l99 ≠ l95 ∧ l95 ≠ l68) → s.contour (α := α) t outs none false {} [] = (.error .valueError, outs)) := by
  have hz : (s.onMesh t).flatten ≠ [] := by intro h; rw [h] at hsum; simp at hsum
  obtain ⟨f, hf⟩ := zLevels_eq (s.onMesh t).flatten hz
  have hp : ∀ p ∈ ([99 / 100, 95 / 100, 68 / 100] : List K), 0 ≤ p ∧ p ≤ 1 := by
    intro p hp
    simp only [List.mem_cons, List.not_mem_nil, or_false] at hp
    rcases hp with rfl | rfl | rfl <;> constructor <;> norm_num
  obtain ⟨ls, h1, h2, h3⟩ := C91_encloses (s.onMesh t).flatten hnn hsum [99 / 100, 95 / 100, 68 / 100] hp
  have e := hf [99 / 100, 95 / 100, 68 / 100]
  rw [h1] at e
  obtain rfl := Except.ok.inj e
  obtain ⟨g1, g2⟩ := contour_given (α := α) s t hx hy [99 / 100, 95 / 100, 68 / 100] (by simp) outs _ h1 h2
  have hmono : ∀ p q : K, p ≤ q → f q ≤ f p := by
    intro p q hpq
    obtain ⟨lp, lq, e, hle⟩ := C91_nested (s.onMesh t).flatten hnn hsum p q hpq 0
    rw [hf] at e
    have e' := Except.ok.inj e
    simp only [List.map_cons, List.map_nil, List.cons.injEq, and_true] at e'
    rw [e'.1, e'.2]; exact hle
  have m1 := hmono (95 / 100) (99 / 100) (by norm_num)
  have m2 := hmono (68 / 100) (95 / 100) (by norm_num)
  have hpw : (([99 / 100, 95 / 100, 68 / 100] : List K).map f).Pairwise (· < ·) ↔ f (99 / 100) ≠ f (95 / 100) ∧ f (95 / 100) ≠ f (68 / 100) := by
    simp only [List.map_cons, List.map_nil, List.pairwise_cons, List.mem_cons, List.not_mem_nil, or_false, forall_eq_or_imp, forall_eq, false_implies,
      implies_true, List.Pairwise.nil, and_true]
    constructor
    · rintro ⟨⟨a, -⟩, b⟩; exact ⟨a.ne, b.ne⟩
    · rintro ⟨a, b⟩
      have a' := lt_of_le_of_ne m1 a
      have b' := lt_of_le_of_ne m2 b
      exact ⟨⟨a', a'.trans b'⟩, b'⟩
  refine ⟨f (99 / 100), f (95 / 100), f (68 / 100), m1, m2, h3 0 _ _ rfl rfl, h3 1 _ _ rfl rfl, h3 2 _ _ rfl rfl, ?_, ?_⟩
  · intro h
    obtain ⟨c, c1, c2, c3, c4, c5, c6, c7, c8⟩ := g1 (hpw.mpr h)
    exact ⟨c, c1, c2, c3, c4, c5, c6, c8⟩
  · intro h
    exact g2 (fun h' => h (hpw.mp h'))

/-- C129, a finding: **a peaked density cannot be contoured.** If a single cell holds more than the fraction q, all levels up to q are the density of that cell, and
asking for two of them raises ValueError: with the default fractions, whenever one cell holds more than 95 %. -/
theorem C129_peak (s : Scatter K) (t : K → K) (hx : 3 ≤ s.xe.length) (hy : 3 ≤ s.ye.length) (hnn : ∀ a ∈ (s.onMesh t).flatten, 0 ≤ a)
    (hsum : 0 < (s.onMesh t).flatten.sum) (ps : List K) (hps : ∀ p ∈ ps, 0 ≤ p ∧ p ≤ 1) (outs : List (Call K α)) (i j : Nat) (p q peak : K) (hij : i ≠ j) (hi : ps[i]? = some p)
    (hj : ps[j]? = some q) (hm : peak ∈ (s.onMesh t).flatten) (h1 : p * (s.onMesh t).flatten.sum < peak) (h2 : q * (s.onMesh t).flatten.sum < peak) :
    s.contour (α := α) t outs (some ps) false {} [] = (.error .valueError, outs) := by
  generalize hZ : (s.onMesh t).flatten = z at *
  have hne : ps ≠ [] := by rintro rfl; simp at hi
  obtain ⟨ls, e, hlen, henc⟩ := C91_encloses z hnn hsum ps hps
  refine (contour_given s t hx hy ps hne outs ls (by rw [hZ]; exact e) hlen).2 ?_
  intro hpw
  obtain ⟨li, hpi⟩ := List.getElem?_eq_some_iff.mp hi
  obtain ⟨lj, hpj⟩ := List.getElem?_eq_some_iff.mp hj
  -- the level of a fraction below the peak's is at least the peak
  have key : ∀ (r level : K), r * z.sum < peak → Encloses z r level → level ∈ z ∧ peak ≤ level := by
    intro r level hr he
    refine ⟨he.mem, ?_⟩
    by_contra hlt
    rw [not_le] at hlt
    have hsub : peak ≤ (z.filter (fun a => decide (level < a))).sum := by
      have hmem : peak ∈ z.filter (fun a => decide (level < a)) := List.mem_filter.mpr ⟨hm, by simpa using hlt⟩
      exact List.single_le_sum (fun a ha => hnn a (List.mem_filter.mp ha).1) peak hmem
    have h3 := he.atMost
    unfold massOf at h3
    rw [div_le_iff₀ hsum] at h3
    linarith
  -- and there is no larger cell that would differ: both levels are the largest density
  have big : ∀ (r level : K), r * z.sum < peak → Encloses z r level → ∀ a ∈ z, a ≤ level := by
    intro r level hr he a ha
    by_contra hlt
    rw [not_le] at hlt
    have hp := (key r level hr he).2
    have hsub : a ≤ (z.filter (fun b => decide (level < b))).sum := by
      have hmem : a ∈ z.filter (fun b => decide (level < b)) := List.mem_filter.mpr ⟨ha, by simpa using hlt⟩
      exact List.single_le_sum (fun b hb => hnn b (List.mem_filter.mp hb).1) a hmem
    have h3 := he.atMost
    unfold massOf at h3
    rw [div_le_iff₀ hsum] at h3
    linarith
  have ei := henc i p (ls[i]'(by omega)) hi (List.getElem?_eq_getElem _)
  have ej := henc j q (ls[j]'(by omega)) hj (List.getElem?_eq_getElem _)
  have eq : ls[i]'(by omega) = ls[j]'(by omega) := le_antisymm (big q _ h2 ej _ (key p _ h1 ei).1) (big p _ h1 ei _ (key q _ h2 ej).1)
  rcases Nat.lt_or_ge i j with h | h
  · have := List.pairwise_iff_getElem.mp hpw i j (by omega) (by omega) h
    rw [eq] at this
    exact lt_irrefl _ this
  · have := List.pairwise_iff_getElem.mp hpw j i (by omega) (by omega) (by omega)
    rw [eq] at this
    exact lt_irrefl _ this

theorem given_of (kw : PyDict String (KV K α)) (k : String) (v : KV K α) (h : kw.get? k = some v) (hv : v ≠ .none) : given kw k = true := by
  unfold given
  rw [h]
  cases v <;> simp_all

/-- C129, a finding: **a colour map without `colors=None` never works:** the default colour 'k' is passed along with the colour map, which matplotlib refuses. -/
theorem C129_cmap (s : Scatter K) (t : K → K) (ps : Option (List K)) (fill : Bool) (m : ContourArgs K α) (hc : m.colors ≠ .none) (hm : m.cmap ≠ .none)
    (user : PyDict String (KV K α)) (hu : user.WF) (h1 : user.get? "colors" = none) (h2 : user.get? "cmap" = none) (outs : List (Call K α)) :
    ∃ e, s.contour t outs ps fill m user = (.error e, outs) ∧ ((s.onMesh t).flatten ≠ [] → (ps ≠ some []) → e = .valueError) := by
  unfold Scatter.contour
  cases hcall : s.contourCall t ps fill m user with
  | error e =>
    refine ⟨e, rfl, ?_⟩
    intro hz hps
    obtain ⟨f, hf⟩ := zLevels_eq (s.onMesh t).flatten hz
    unfold Scatter.contourCall at hcall
    simp only [hf, bind, Except.bind, pure, Except.pure] at hcall
    cases hls : lsOf m.ls (ps.getD defaultPs).length with
    | error e' =>
      rw [hls] at hcall
      simp only [Except.error.injEq] at hcall
      subst hcall
      unfold lsOf at hls
      split at hls
      · split at hls
        · exact (Except.error.inj hls).symm
        · cases hls
      · cases hls
    | ok v =>
      rw [hls] at hcall
      simp only at hcall
      split at hcall <;> cases hcall
  | ok c =>
    have gk : given c.kw "colors" = true ∧ given c.kw "cmap" = true := by
      unfold Scatter.contourCall at hcall
      simp only [bind, Except.bind, pure, Except.pure] at hcall
      cases hl : zLevels (s.onMesh t).flatten (ps.getD defaultPs) 0 with
      | error e => rw [hl] at hcall; cases hcall
      | ok ls =>
        rw [hl] at hcall
        simp only at hcall
        cases hls : lsOf m.ls (ps.getD defaultPs).length with
        | error e => rw [hls] at hcall; cases hcall
        | ok v =>
          rw [hls] at hcall
          simp only at hcall
          generalize hkw : ([("levels", KV.nums ls), ("colors", m.colors), ("cmap", m.cmap), ("vmin", m.vmin), ("vmax", m.vmax), ("norm", m.norm),
            ("linewidths", lwOf m.lw (ps.getD defaultPs).length), ("linestyles", v)] : PyDict String (KV K α)) = kw at hcall
          have hwf : PyDict.WF kw := by
            rw [← hkw]
            unfold PyDict.WF PyDict.keys
            simp only [List.map_cons, List.map_nil]
            decide
          have e1 : PyDict.get? (PyDict.update kw user) "colors" = some m.colors := by rw [PyDict.get?_update _ _ _ hu, h1, ← hkw]; rfl
          have e2 : PyDict.get? (PyDict.update kw user) "cmap" = some m.cmap := by rw [PyDict.get?_update _ _ _ hu, h2, ← hkw]; rfl
          have hwf' := PyDict.WF_update kw user hwf
          cases fill with
          | true =>
            simp only [if_true, Except.ok.injEq] at hcall
            subst hcall
            exact ⟨given_of _ _ m.colors (by rw [PyDict.get?_del _ _ _ hwf', if_neg (by decide)]; exact e1) hc,
              given_of _ _ m.cmap (by rw [PyDict.get?_del _ _ _ hwf', if_neg (by decide)]; exact e2) hm⟩
          | false =>
            simp only [Bool.false_eq_true, if_false, Except.ok.injEq] at hcall
            subst hcall
            exact ⟨given_of _ _ m.colors e1 hc, given_of _ _ m.cmap e2 hm⟩
    have hfn : c.fn = "contourf" ∨ c.fn = "contour" := by
      unfold Scatter.contourCall at hcall
      simp only [bind, Except.bind, pure, Except.pure] at hcall
      cases hl : zLevels (s.onMesh t).flatten (ps.getD defaultPs) 0 with
      | error e => rw [hl] at hcall; cases hcall
      | ok ls =>
        rw [hl] at hcall
        simp only at hcall
        cases hls : lsOf m.ls (ps.getD defaultPs).length with
        | error e => rw [hls] at hcall; cases hcall
        | ok v =>
          rw [hls] at hcall
          simp only at hcall
          cases fill with
          | true => simp only [if_true, Except.ok.injEq] at hcall; subst hcall; exact Or.inl rfl
          | false => simp only [Bool.false_eq_true, if_false, Except.ok.injEq] at hcall; subst hcall; exact Or.inr rfl
    have hne : (c.fn == "pcolormesh") = false := by rcases hfn with h | h <;> rw [h] <;> rfl
    refine ⟨.valueError, ?_, fun _ _ => rfl⟩
    unfold draw mplErr contourErr
    simp [hne, gk.1, gk.2]

/-! ### Line widths and styles -/

/-- C129: n line widths, from 1 to 3, evenly spaced (one fraction: just the width 1). -/
theorem C129_widths (n : Nat) : (npLinspace (1 : K) 3 n).length = n ∧ ((npLinspace (1 : K) 3 n).head? = if n = 0 then none else some 1) ∧
    (2 ≤ n → (npLinspace (1 : K) 3 n).getLast? = some 3) ∧
    (∀ i : Nat, i < n → (npLinspace (1 : K) 3 n)[i]? = some (1 + (i : K) * (2 / ((n - 1 : Nat) : K)))) := by
  match n with
  | 0 => exact ⟨rfl, rfl, by omega, by omega⟩
  | 1 =>
    refine ⟨rfl, rfl, by omega, ?_⟩
    intro i hi
    obtain rfl : i = 0 := by omega
    simp [npLinspace]
  | n + 2 =>
    refine ⟨linspace_len 1 3 (n + 1), by rw [if_neg (by omega)]; exact linspace_head (1 : K) 3 (n + 1), fun _ => linspace_last 1 3 (n + 1) (by omega), ?_⟩
    intro i hi
    have := linspace_get (1 : K) 3 (n + 1) i (by omega)
    unfold npLinspace
    rw [this]
    norm_num

/-- C129: n line styles for n fractions: n - 1 dashed ones, the dashes from 3 to 6, then a solid one; no fractions at all: ValueError. -/
theorem C129_styles (n : Nat) : (lsOf (K := K) (α := α) .none 0 = .error .valueError) ∧
    ∃ l : List (Style K), lsOf (K := K) (α := α) .none (n + 1) = .ok (.styles l) ∧ l.length = n + 1 ∧ l[n]? = some .solid ∧
      (∀ i : Nat, i < n → l[i]? = some (.dash (3 + (i : K) * (3 / ((n - 1 : Nat) : K))))) := by
  have hlen : (npLinspace (3 : K) 6 n).length = n := by
    match n with
    | 0 => rfl
    | 1 => rfl
    | n + 2 => exact linspace_len 3 6 (n + 1)
  refine ⟨rfl, _, rfl, by simp [hlen], ?_, ?_⟩
  · rw [List.getElem?_append_right (by simp [hlen])]
    simp [hlen]
  · intro i hi
    rw [List.getElem?_append_left (by simp [hlen]; exact hi), List.getElem?_map]
    match n with
    | 0 => omega
    | 1 =>
      obtain rfl : i = 0 := by omega
      simp [npLinspace]
    | n + 2 =>
      have := linspace_get (3 : K) 6 (n + 1) i (by omega)
      unfold npLinspace
      rw [this]
      norm_num

/-- C129: no fractions: ValueError, nothing drawn. -/
theorem C129_no_fractions (s : Scatter K) (t : K → K) (hz : (s.onMesh t).flatten ≠ []) (fill : Bool) (m : ContourArgs K α) (hls : m.ls = .none)
    (user : PyDict String (KV K α)) (outs : List (Call K α)) : s.contour t outs (some []) fill m user = (.error .valueError, outs) := by
  obtain ⟨f, hf⟩ := zLevels_eq (s.onMesh t).flatten hz
  unfold Scatter.contour Scatter.contourCall
  simp only [Option.getD_some, hf, hls, lsOf, List.length_nil, bind, Except.bind]

/-! ### Filled contours -/

/-- The base dictionary has no repeated key. -/
theorem base_wf (a b c d e f g h : KV K α) : PyDict.WF ([("levels", a), ("colors", b), ("cmap", c), ("vmin", d), ("vmax", e), ("norm", f), ("linewidths", g), ("linestyles", h)] :
    PyDict String (KV K α)) := by
  unfold PyDict.WF PyDict.keys
  simp only [List.map_cons, List.map_nil]
  decide

/-- C129: **`use_fill`.** What is drawn is a contourf with the caller's keywords, except "linewidths", which is dropped even if the caller passes it. -/
theorem C129_fill (s : Scatter K) (t : K → K) (ps : List K) (hps : ps ≠ []) (m : ContourArgs K α) (hls : m.ls = .none) (user : PyDict String (KV K α)) (hu : user.WF)
    (outs outs' : List (Call K α)) (h : s.contour t outs (some ps) true m user = (.ok (), outs')) :
    ∃ c : Call K α, outs' = outs ++ [c] ∧ c.fn = "contourf" ∧ c.kw.get? "linewidths" = none ∧ (∀ k v, k ≠ "linewidths" → user.get? k = some v → c.kw.get? k = some v) := by
  cases hl : zLevels (s.onMesh t).flatten ps 0 with
  | error e =>
    unfold Scatter.contour Scatter.contourCall at h
    simp [hl, bind, Except.bind] at h
  | ok ls =>
    unfold Scatter.contour at h
    rw [contourCall_ok s t ps hps true m hls user ls hl] at h
    simp only [if_true] at h
    unfold draw at h
    split at h
    · cases h
    · simp only [Prod.mk.injEq, true_and] at h
      have hwf' := PyDict.WF_update _ user (base_wf (.nums ls) m.colors m.cmap m.vmin m.vmax m.norm (lwOf m.lw ps.length)
        (.styles ((npLinspace 3 6 (ps.length - 1)).map Style.dash ++ [.solid])))
      refine ⟨_, h.symm, rfl, ?_, ?_⟩
      · simp only
        rw [PyDict.get?_del _ _ _ hwf', if_pos rfl]
      · intro k v hk hv
        simp only
        rw [PyDict.get?_del _ _ _ hwf', if_neg (by simpa using hk), PyDict.get?_update _ _ _ hu, hv]
        rfl

/-- C129, a finding: **filling a single contour is impossible:** one level is not enough for contourf (no upper bound is added), so ValueError. -/
theorem C129_fill_one (s : Scatter K) (t : K → K) (hx : 3 ≤ s.xe.length) (hy : 3 ≤ s.ye.length) (p : K) (outs : List (Call K α)) :
    s.contour (α := α) t outs (some [p]) true {} [] = (.error .valueError, outs) := by
  obtain ⟨r1, r2⟩ := onMesh_rows s t
  cases hm : s.onMesh t with
  | nil => rw [hm] at r1; simp at r1; omega
  | cons r rs =>
    have hr := r2 r (by rw [hm]; simp)
    have hz : (s.onMesh t).flatten ≠ [] := by
      rw [hm]
      intro h
      have : r = [] := by simpa using (List.flatten_eq_nil_iff.mp h) r (by simp)
      rw [this] at hr; simp at hr; omega
    have hbig : ¬ ((s.onMesh t).length < 2 ∨ ((s.onMesh t).headD []).length < 2) := by
      rw [hm] at r1 ⊢
      simp only [List.headD_cons]
      omega
    obtain ⟨f, hf⟩ := zLevels_eq (s.onMesh t).flatten hz
    unfold Scatter.contour
    rw [contourCall_ok s t [p] (by simp) true {} rfl [] _ (hf [p])]
    simp only [if_true, PyDict.update, List.foldl_nil]
    unfold draw mplErr
    simp only [show ("contourf" == "pcolormesh") = false from rfl, Bool.false_eq_true, if_false]
    unfold contourErr
    simp only [if_neg hbig]
    rfl

/-- C129: **fewer than two bins** in a direction: TypeError from matplotlib, nothing drawn. -/
theorem C129_small (s : Scatter K) (t : K → K) (hx : 2 ≤ s.xe.length) (hy : 2 ≤ s.ye.length) (hsmall : s.xe.length = 2 ∨ s.ye.length = 2) (ps : List K) (hps : ps ≠ [])
    (fill : Bool) (outs : List (Call K α)) : s.contour (α := α) t outs (some ps) fill {} [] = (.error .typeError, outs) := by
  obtain ⟨r1, r2⟩ := onMesh_rows s t
  cases hm : s.onMesh t with
  | nil => rw [hm] at r1; simp at r1; omega
  | cons r rs =>
    have hr := r2 r (by rw [hm]; simp)
    have hz : (s.onMesh t).flatten ≠ [] := by
      rw [hm]
      intro h
      have : r = [] := by simpa using (List.flatten_eq_nil_iff.mp h) r (by simp)
      rw [this] at hr; simp at hr; omega
    have hbig : (s.onMesh t).length < 2 ∨ ((s.onMesh t).headD []).length < 2 := by
      rw [hm] at r1 ⊢
      simp only [List.headD_cons]
      omega
    obtain ⟨f, hf⟩ := zLevels_eq (s.onMesh t).flatten hz
    unfold Scatter.contour
    rw [contourCall_ok s t ps hps fill {} rfl [] _ (hf ps)]
    cases fill
    · simp only [Bool.false_eq_true, if_false, PyDict.update, List.foldl_nil]
      unfold draw mplErr
      simp only [show ("contour" == "pcolormesh") = false from rfl, Bool.false_eq_true, if_false]
      unfold contourErr
      simp only [if_pos hbig]
      rfl
    · simp only [if_true, PyDict.update, List.foldl_nil]
      unfold draw mplErr
      simp only [show ("contourf" == "pcolormesh") = false from rfl, Bool.false_eq_true, if_false]
      unfold contourErr
      simp only [if_pos hbig]
      rfl

/-! ### Histories -/

/-- A user's call on a Scatter2D. -/
inductive Cmd (K α : Type) where
  | mesh (m : MeshArgs K α) (user : PyDict String (KV K α))
  | contour (ps : Option (List K)) (fill : Bool) (m : ContourArgs K α) (user : PyDict String (KV K α))

/-- Spec: run one call, catching its error. -/
def runCmd (s : Scatter K) (t : K → K) (outs : List (Call K α)) : Cmd K α → PyM Unit × List (Call K α)
  | .mesh m u => s.mesh t outs m u
  | .contour ps f m u => s.contour t outs ps f m u

/-- Spec: run a sequence of calls, catching errors. -/
def runCmds (s : Scatter K) (t : K → K) (outs : List (Call K α)) : List (Cmd K α) → List (Call K α)
  | [] => outs
  | c :: cs => runCmds s t (runCmd s t outs c).2 cs

theorem runCmd_step (s : Scatter K) (t : K → K) (outs : List (Call K α)) (c : Cmd K α) :
    (∃ e, runCmd s t outs c = (.error e, outs)) ∨ (∃ d : Call K α, runCmd s t outs c = (.ok (), outs ++ [d]) ∧ d.z = s.onMesh t) := by
  cases c with
  | mesh m u => exact Or.inr ⟨_, rfl, rfl⟩
  | contour ps f m u =>
    simp only [runCmd]
    unfold Scatter.contour
    cases hc : s.contourCall t ps f m u with
    | error e => exact Or.inl ⟨e, rfl⟩
    | ok d =>
      simp only
      have hz : d.z = s.onMesh t := by
        unfold Scatter.contourCall at hc
        simp only [bind, Except.bind, pure, Except.pure] at hc
        cases hl : zLevels (s.onMesh t).flatten (ps.getD defaultPs) 0 with
        | error e => rw [hl] at hc; cases hc
        | ok ls =>
          rw [hl] at hc
          simp only at hc
          cases hls : lsOf m.ls (ps.getD defaultPs).length with
          | error e => rw [hls] at hc; cases hc
          | ok v =>
            rw [hls] at hc
            simp only at hc
            cases f with
            | true => simp only [if_true, Except.ok.injEq] at hc; subst hc; rfl
            | false => simp only [Bool.false_eq_true, if_false, Except.ok.injEq] at hc; subst hc; rfl
      unfold draw
      cases mplErr d with
      | some e => exact Or.inl ⟨e, rfl⟩
      | none => exact Or.inr ⟨d, rfl, hz⟩

/-- C129: over any history of calls (failed ones included) the list of drawn objects only grows, by at most one for each call, and everything added shows the same density. -/
theorem C129_history (s : Scatter K) (t : K → K) (cmds : List (Cmd K α)) (outs : List (Call K α)) :
    ∃ new : List (Call K α), runCmds s t outs cmds = outs ++ new ∧ new.length ≤ cmds.length ∧ ∀ d ∈ new, d.z = s.onMesh t := by
  induction cmds generalizing outs with
  | nil => exact ⟨[], by simp [runCmds], le_refl _, by simp⟩
  | cons c cs ih =>
    rcases runCmd_step s t outs c with ⟨e, h⟩ | ⟨d, h, hz⟩
    · obtain ⟨new, h1, h2, h3⟩ := ih outs
      exact ⟨new, by rw [runCmds, h]; exact h1, by simp; omega, h3⟩
    · obtain ⟨new, h1, h2, h3⟩ := ih (outs ++ [d])
      refine ⟨d :: new, by rw [runCmds, h]; simp only; rw [h1]; simp, by simp; omega, ?_⟩
      intro x hx
      rcases List.mem_cons.mp hx with rfl | hx
      · exact hz
      · exact h3 x hx

/-! ### A concrete case -/

/-- Four points in 2 x 2 bins. -/
def exScatter : Scatter ℚ := match Scatter.new [⟨0, 0, 1⟩, ⟨1, 1, 1⟩, ⟨2, 2, 1⟩, ⟨1 / 2, 3 / 2, 1⟩] none 2 2 with
  | .ok s => s
  | .error _ => ⟨[], [], [], ⟨[], [], [], .zero⟩⟩

example : exScatter.xe.length = 3 ∧ exScatter.ye.length = 3 ∧ exScatter.onMesh id = [[1 / 4, 0], [1 / 4, 1 / 2]] ∧ 0 < (exScatter.onMesh id).flatten.sum ∧
    ∀ a ∈ (exScatter.onMesh id).flatten, 0 ≤ a := by decide +kernel

/-- 90 % and 30 %: drawn, with levels 1/4 and 1/2. -/
example : ∃ c : Call ℚ String, exScatter.contour id [] (some [9 / 10, 3 / 10]) false {} [] = (.ok (), [c]) ∧ c.kw.get? "levels" = some (.nums [1 / 4, 1 / 2]) := by
  have hm : (exScatter.onMesh id).flatten = [1 / 4, 0, 1 / 4, 1 / 2] := by decide +kernel
  have hs : npSort ([1 / 4, 0, 1 / 4, 1 / 2] : List ℚ) = [0, 1 / 4, 1 / 4, 1 / 2] := by
    have hp : (npSort ([1 / 4, 0, 1 / 4, 1 / 2] : List ℚ)).Perm [0, 1 / 4, 1 / 4, 1 / 2] := (npSort_perm _).trans (by decide +kernel)
    exact hp.eq_of_pairwise (le := (· ≤ ·)) (fun _ _ _ _ h1 h2 => le_antisymm h1 h2) (npSort_sorted _) (by decide +kernel)
  have h1 : zLevels (exScatter.onMesh id).flatten [9 / 10, 3 / 10] 0 = .ok [1 / 4, 1 / 2] := by
    rw [hm]
    simp only [zLevels, cumProbMass, hs]
    decide +kernel
  obtain ⟨c, h2, -, -, -, -, h3, -⟩ := (contour_given (α := String) exScatter id (by decide +kernel) (by decide +kernel) [9 / 10, 3 / 10] (by simp) [] _ h1 rfl).1 (by decide +kernel)
  exact ⟨c, h2, h3⟩

end Pyhipp.TwoDim
