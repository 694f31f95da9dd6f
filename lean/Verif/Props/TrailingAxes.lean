import Verif.Model.TrailingAxes
import Verif.Props.Binning
import Verif.Props.Interpolate
/-
C155: arrays with trailing axes are treated entry by entry.
-/
namespace Pyhipp.TrailingAxes
open Pyhipp Binning Interpolate

section
variable {α : Type} [Field α] [LinearOrder α] [FloorRing α]

/-- Specification: the one-dimensional array `a[:, J]`, `J` being entry `j` of the rows in C order. -/
def col (j : Nat) (a : List (List α)) : List α := a.map (fun r => r.getD j 0)

/-- Specification: every row has `m` entries. -/
def Rows (m : Nat) (a : List (List α)) : Prop := ∀ r ∈ a, r.length = m

theorem pyGet_map {β γ : Type} (f : β → γ) (l : List β) (i : Int) : pyGet (l.map f) i = (pyGet l i).map f := by
  unfold pyGet
  simp only [List.length_map, List.getElem?_map]
  split
  · cases l[i.toNat]? <;> rfl
  · split
    · cases l[(i + (l.length : Int)).toNat]? <;> rfl
    · rfl

theorem pyGet_mem {β : Type} {l : List β} {i : Int} {a : β} (h : pyGet l i = .ok a) : a ∈ l := by
  unfold pyGet at h
  split at h
  · split at h
    · rename_i _ b hb
      cases h
      exact List.mem_of_getElem? hb
    · exact absurd h (by simp)
  · split at h
    · split at h
      · rename_i _ b hb
        cases h
        exact List.mem_of_getElem? hb
      · exact absurd h (by simp)
    · exact absurd h (by simp)

theorem scale_get (r : List α) (w : α) (j : Nat) (h : j < r.length) : (scale r w).length = r.length ∧ (scale r w).getD j 0 = r.getD j 0 * w := by
  refine ⟨by simp [scale], ?_⟩
  simp [scale, List.getD_eq_getElem?_getD, h]

theorem addRows_get (a b : List α) (m j : Nat) (ha : a.length = m) (hb : b.length = m) (h : j < m) :
    (addRows a b).length = m ∧ (addRows a b).getD j 0 = a.getD j 0 + b.getD j 0 := by
  subst ha
  refine ⟨by simp [addRows, hb], ?_⟩
  have h' : j < b.length := by omega
  simp [addRows, List.getD_eq_getElem?_getD, h, h', List.getElem?_zipWith]

/-- C155: interpolation of an array of values with trailing axes is the scalar interpolation of each of its entries, and fails where that fails. -/
theorem C155_interp (xs : List α) (y : List (List α)) (m j : Nat) (hy : Rows m y) (hj : j < m) (v : α) :
    (interp xs y v).map (fun r => r.getD j 0) = bisearchInterp xs (col j y) v ∧ ∀ r, interp xs y v = .ok r → r.length = m := by
  unfold interp bisearchInterp col
  cases bisearchInterpWeight xs v with
  | error e => exact ⟨rfl, fun r h => absurd h (by simp)⟩
  | ok q =>
      obtain ⟨l, r, wl, wr⟩ := q
      simp only [Except.bind_ok, pyGet_map]
      cases h1 : pyGet y l with
      | error e => exact ⟨rfl, fun r h => absurd h (by simp)⟩
      | ok yl =>
          simp only [Except.bind_ok, Except.map]
          cases h2 : pyGet y r with
          | error e => exact ⟨rfl, fun r h => absurd h (by simp)⟩
          | ok yr =>
              have l1 := hy _ (pyGet_mem h1)
              have l2 := hy _ (pyGet_mem h2)
              obtain ⟨a1, a2⟩ := scale_get yl wl j (by omega)
              obtain ⟨b1, b2⟩ := scale_get yr wr j (by omega)
              obtain ⟨c1, c2⟩ := addRows_get (scale yl wl) (scale yr wr) m j (by omega) (by omega) hj
              refine ⟨?_, fun r h => ?_⟩
              · show Except.ok ((addRows (scale yl wl) (scale yr wr)).getD j 0) = Except.ok (yl.getD j 0 * wl + yr.getD j 0 * wr)
                rw [c2, a2, b2]
              · have : addRows (scale yl wl) (scale yr wr) = r := Except.ok.inj h
                rw [← this, c1]


theorem get2_col (y : List (List (List α))) (i j : Int) (k : Nat) :
    Interpolate.get2 (y.map (col k)) i j = (get2 y i j).map (fun r => r.getD k 0) := by
  unfold Interpolate.get2 get2
  rw [pyGet_map]
  cases pyGet y i with
  | error e => rfl
  | ok row =>
      show pyGet (col k row) j = _
      unfold col
      rw [pyGet_map]
      rfl

theorem get2_mem {y : List (List (List α))} {m : Nat} (hy : ∀ p ∈ y, Rows m p) {i j : Int} {r : List α} (h : get2 y i j = .ok r) : r.length = m := by
  unfold get2 at h
  cases h1 : pyGet y i with
  | error e => rw [h1] at h; exact absurd h (by simp)
  | ok row =>
      rw [h1] at h
      exact hy row (pyGet_mem h1) r (pyGet_mem h)

/-- C155: interpolation in two variables along the first two axes of `y` is the scalar one for each entry of the trailing axes, and fails where that fails. -/
theorem C155_interp_2d (xs1 xs2 : List α) (y : List (List (List α))) (m j : Nat) (hy : ∀ p ∈ y, Rows m p) (hj : j < m) (v1 v2 : α) :
    (interp2d xs1 xs2 y v1 v2).map (fun r => r.getD j 0) = bisearchInterp2d xs1 xs2 (y.map (col j)) v1 v2 ∧
    ∀ r, interp2d xs1 xs2 y v1 v2 = .ok r → r.length = m := by
  unfold interp2d bisearchInterp2d
  cases bisearchInterpWeight xs1 v1 with
  | error e => exact ⟨rfl, fun r h => absurd h (by simp)⟩
  | ok q =>
  cases bisearchInterpWeight xs2 v2 with
  | error e => exact ⟨rfl, fun r h => absurd h (by simp)⟩
  | ok q2 =>
      obtain ⟨l, r, wl, wr⟩ := q
      obtain ⟨l2, r2, wl2, wr2⟩ := q2
      simp only [Except.bind_ok, get2_col]
      cases h1 : get2 y l l2 with
      | error e => exact ⟨rfl, fun r h => absurd h (by simp)⟩
      | ok a =>
      simp only [Except.bind_ok, Except.map]
      cases h2 : get2 y l r2 with
      | error e => exact ⟨rfl, fun r h => absurd h (by simp)⟩
      | ok b =>
      simp only [Except.bind_ok]
      cases h3 : get2 y r l2 with
      | error e => exact ⟨rfl, fun r h => absurd h (by simp)⟩
      | ok c =>
      simp only [Except.bind_ok]
      cases h4 : get2 y r r2 with
      | error e => exact ⟨rfl, fun r h => absurd h (by simp)⟩
      | ok d =>
      have la := get2_mem hy h1
      have lb := get2_mem hy h2
      have lc := get2_mem hy h3
      have ld := get2_mem hy h4
      obtain ⟨a1, a2⟩ := scale_get a (wl * wl2) j (by omega)
      obtain ⟨b1, b2⟩ := scale_get b (wl * wr2) j (by omega)
      obtain ⟨c1, c2⟩ := scale_get c (wr * wl2) j (by omega)
      obtain ⟨d1, d2⟩ := scale_get d (wr * wr2) j (by omega)
      obtain ⟨s1, s2⟩ := addRows_get (scale a (wl * wl2)) (scale b (wl * wr2)) m j (by omega) (by omega) hj
      obtain ⟨t1, t2⟩ := addRows_get (addRows (scale a (wl * wl2)) (scale b (wl * wr2))) (scale c (wr * wl2)) m j s1 (by omega) hj
      obtain ⟨u1, u2⟩ := addRows_get (addRows (addRows (scale a (wl * wl2)) (scale b (wl * wr2))) (scale c (wr * wl2))) (scale d (wr * wr2)) m j t1 (by omega) hj
      refine ⟨?_, fun r h => ?_⟩
      · refine congrArg Except.ok ?_
        rw [u2, t2, s2, a2, b2, c2, d2]
      · rw [← Except.ok.inj h, u1]

theorem rows_zip (m j : Nat) (hj : j < m) (a b : List (List α)) (ha : Rows m a) (hb : Rows m b) :
    Rows m (List.zipWith addRows a b) ∧ col j (List.zipWith addRows a b) = List.zipWith (fun u v => u + v) (col j a) (col j b) := by
  induction a generalizing b with
  | nil => exact ⟨fun r h => absurd h (by simp), rfl⟩
  | cons u a ih =>
      cases b with
      | nil => exact ⟨fun r h => absurd h (by simp), rfl⟩
      | cons v b =>
          obtain ⟨i1, i2⟩ := ih b (fun r h => ha r (List.mem_cons_of_mem _ h)) (fun r h => hb r (List.mem_cons_of_mem _ h))
          obtain ⟨g1, g2⟩ := addRows_get u v m j (ha u (by simp)) (hb v (by simp)) hj
          refine ⟨?_, ?_⟩
          · intro r h
            rcases List.mem_cons.mp h with rfl | h
            · exact g1
            · exact i1 r h
          · show (addRows u v).getD j 0 :: col j (List.zipWith addRows a b) = (u.getD j 0 + v.getD j 0) :: _
            rw [g2, i2]
            rfl

/-- C155: combining adjacent bins of an array with trailing axes combines each of its entries along the first axis; the number of bins accepted is the same. -/
theorem C155_combine (x : List (List α)) (m j : Nat) (hx : Rows m x) (hj : j < m) (n : Int) :
    (combine x n).map (col j) = combineAdjacent (col j x) n ∧ ∀ r, combine x n = .ok r → Rows m r := by
  unfold combine combineAdjacent
  have hl : (col j x).length = x.length := by simp [col]
  rw [hl]
  by_cases h1 : n ≥ 1
  · by_cases h2 : (x.length : Int) - n + 1 > 0
    · simp only [pyAssert, h1, h2, decide_true, if_true, Except.bind_ok]
      have key : ∀ (bs : List Nat) (xo : List (List α)), Rows m xo →
          Rows m (bs.foldl (fun xo b0 => List.zipWith addRows xo ((x.drop (b0 + 1)).take ((x.length : Int) - n + 1).toNat)) xo) ∧
          col j (bs.foldl (fun xo b0 => List.zipWith addRows xo ((x.drop (b0 + 1)).take ((x.length : Int) - n + 1).toNat)) xo) =
            bs.foldl (fun xo b0 => List.zipWith (fun a b => a + b) xo (((col j x).drop (b0 + 1)).take ((x.length : Int) - n + 1).toNat)) (col j xo) := by
        intro bs
        induction bs with
        | nil => exact fun xo h => ⟨h, rfl⟩
        | cons b bs ih =>
            intro xo hxo
            have hsub : Rows m ((x.drop (b + 1)).take ((x.length : Int) - n + 1).toNat) := fun r h => hx r (List.mem_of_mem_drop (List.mem_of_mem_take h))
            obtain ⟨g1, g2⟩ := rows_zip m j hj xo _ hxo hsub
            obtain ⟨i1, i2⟩ := ih _ g1
            refine ⟨i1, ?_⟩
            rw [List.foldl_cons, List.foldl_cons, i2, g2]
            simp only [col, List.map_take, List.map_drop]
      obtain ⟨k1, k2⟩ := key (List.range (n.toNat - 1)) (x.take ((x.length : Int) - n + 1).toNat) (fun r h => hx r (List.mem_of_mem_take h))
      refine ⟨?_, fun r h => ?_⟩
      · refine congrArg Except.ok ?_
        rw [k2]
        simp only [col, List.map_take]
      · rw [← Except.ok.inj h]
        exact k1
    · simp only [pyAssert, h1, h2, decide_true, decide_false, if_true, Except.bind_ok]
      exact ⟨by first | trivial | rfl, fun r h => absurd h (by simp)⟩
  · simp only [pyAssert, h1, decide_false]
    exact ⟨by first | trivial | rfl, fun r h => absurd h (by simp)⟩

/-! ### BinnedData -/

theorem addOne_col (m j : Nat) (hj : j < m) (data : List (List α)) (hd : Rows m data) (id : Int) (w : List α) (hw : w.length = m) :
    Rows m (addOne data id w) ∧ (addOne data id w).length = data.length ∧ col j (addOne data id w) = Binning.addOne (col j data) id (w.getD j 0) := by
  unfold addOne Binning.addOne
  have hl : (col j data).length = data.length := by simp [col]
  rw [hl]
  by_cases h : 0 ≤ id ∧ id < data.length
  · simp only [if_pos h]
    refine ⟨?_, by simp, ?_⟩
    · intro r hr
      obtain ⟨i, hi, rfl⟩ := List.getElem_of_mem hr
      rw [List.getElem_modify]
      rw [List.length_modify] at hi
      split
      · exact (addRows_get _ w m j (hd _ (List.getElem_mem hi)) hw hj).1
      · exact hd _ (List.getElem_mem hi)
    · refine List.ext_getElem (by simp [col]) fun i h1 h2 => ?_
      have hi : i < data.length := by simpa [col] using h1
      simp only [col, List.getElem_map, List.getElem_modify]
      split
      · exact (addRows_get _ w m j (hd _ (List.getElem_mem hi)) hw hj).2
      · rfl
  · simp only [if_neg h]
    exact ⟨hd, trivial, trivial⟩

/-- Specification: entry `j` of the weights. -/
def Weights.col (j : Nat) : Weights α → List α
  | .numbers w => w
  | .rows w => TrailingAxes.col j w

/-- Specification: rows of weights have the shape of the data. -/
def Weights.Fits (m : Nat) : Weights α → Prop
  | .numbers _ => True
  | .rows w => Rows m w

theorem replicate_getD (m j : Nat) (hj : j < m) (v : α) : (List.replicate m v).getD j 0 = v := by
  simp [List.getD_eq_getElem?_getD, hj]

theorem perSample_col (m j : Nat) (hj : j < m) (w : Weights α) (hw : w.Fits m) : Rows m (w.perSample m) ∧ col j (w.perSample m) = w.col j ∧
    (w.perSample m).length = (w.col j).length := by
  cases w with
  | numbers w =>
      refine ⟨?_, ?_, by simp [Weights.perSample, Weights.col]⟩
      · intro r hr
        obtain ⟨v, -, rfl⟩ := List.mem_map.mp hr
        simp
      · simp only [Weights.perSample, Weights.col, col, List.map_map]
        conv_rhs => rw [← List.map_id w]
        refine List.map_congr_left fun v _ => ?_
        simp only [Function.comp]
        exact replicate_getD m j hj v
  | rows w => exact ⟨hw, rfl, by simp [Weights.perSample, Weights.col, col]⟩

theorem fold_col (m j : Nat) (hj : j < m) (ps : List (Int × List α)) (hp : ∀ p ∈ ps, p.2.length = m) (data : List (List α)) (hd : Rows m data) :
    Rows m (ps.foldl (fun d p => addOne d p.1 p.2) data) ∧ (ps.foldl (fun d p => addOne d p.1 p.2) data).length = data.length ∧
    col j (ps.foldl (fun d p => addOne d p.1 p.2) data) = (ps.map fun p => (p.1, p.2.getD j 0)).foldl (fun d p => Binning.addOne d p.1 p.2) (col j data) := by
  induction ps generalizing data with
  | nil => exact ⟨hd, rfl, rfl⟩
  | cons p ps ih =>
      obtain ⟨a1, a2, a3⟩ := addOne_col m j hj data hd p.1 p.2 (hp p (by simp))
      obtain ⟨b1, b2, b3⟩ := ih (fun q h => hp q (by simp [h])) _ a1
      refine ⟨b1, by rw [List.foldl_cons, b2, a2], ?_⟩
      rw [List.foldl_cons, b3, List.map_cons, List.foldl_cons, a3]

/-- C155: one call of `add`: every entry of the trailing axes is accumulated like one-dimensional data, a weight given as a number (or 1) counting for all of them; the call
fails for no entry or for all. -/
theorem C155_add (bs : Bins α) (m j : Nat) (hj : j < m) (data : List (List α)) (hd : Rows m data) (x : List α) (w : Option (Weights α))
    (hw : ∀ v, w = some v → v.Fits m) :
    (addPoints bs m data x w).map (col j) = Binning.addPoints bs (col j data) x (w.map (Weights.col j)) ∧
    ∀ r, addPoints bs m data x w = .ok r → Rows m r ∧ r.length = data.length := by
  unfold addPoints Binning.addPoints
  cases w with
  | none =>
      have e1 : ∀ (ids : List Int) (d : List (List α)), ids.foldl (fun d id => addOne d id (List.replicate m 1)) d =
          (ids.map fun id => (id, List.replicate m (1 : α))).foldl (fun d p => addOne d p.1 p.2) d := by
        intro ids d; rw [List.foldl_map]
      obtain ⟨g1, g2, g3⟩ := fold_col m j hj ((x.map bs.locate).map fun id => (id, List.replicate m (1 : α))) (by
        intro p hp
        obtain ⟨i, -, rfl⟩ := List.mem_map.mp hp
        simp) data hd
      refine ⟨?_, fun r h => ?_⟩
      · refine congrArg Except.ok ?_
        rw [e1, g3, List.map_map, List.foldl_map]
        simp only [Function.comp, replicate_getD m j hj]
      · have h' := Except.ok.inj h
        rw [e1] at h'
        rw [← h']
        exact ⟨g1, g2⟩
  | some w =>
      obtain ⟨p1, p2, p3⟩ := perSample_col m j hj w (hw w rfl)
      simp only [Option.map_some]
      rw [← p3]
      by_cases hl : (x.map bs.locate).length = (w.perSample m).length
      · simp only [if_pos hl]
        obtain ⟨g1, g2, g3⟩ := fold_col m j hj ((x.map bs.locate).zip (w.perSample m)) (fun p hp => p1 _ (List.of_mem_zip hp).2) data hd
        refine ⟨?_, fun r h => ?_⟩
        · refine congrArg Except.ok ?_
          rw [g3, ← p2]
          refine congrArg (fun l => List.foldl _ _ l) ?_
          unfold col
          rw [List.zip_map_right]
          rfl
        · rw [← Except.ok.inj h]
          exact ⟨g1, g2⟩
      · simp only [if_neg hl]
        exact ⟨rfl, fun r h => absurd h (by simp)⟩

theorem runAdds_col (bs : Bins α) (m j : Nat) (hj : j < m) (hist : List (List α × Option (Weights α))) (hw : ∀ c ∈ hist, ∀ v, c.2 = some v → v.Fits m)
    (data : List (List α)) (hd : Rows m data) :
    Rows m (runAdds bs m data hist) ∧ (runAdds bs m data hist).length = data.length ∧
    col j (runAdds bs m data hist) = Binning.runAdds bs (col j data) (hist.map fun c => (c.1, c.2.map (Weights.col j))) := by
  induction hist generalizing data with
  | nil => exact ⟨hd, rfl, rfl⟩
  | cons c hist ih =>
      obtain ⟨x, w⟩ := c
      obtain ⟨a1, a2⟩ := C155_add bs m j hj data hd x w (hw (x, w) (by simp))
      simp only [runAdds, List.map_cons, Binning.runAdds]
      rw [← a1]
      cases h : addPoints bs m data x w with
      | error e => exact ih (fun c hc => hw c (by simp [hc])) data hd
      | ok d =>
          obtain ⟨r1, r2⟩ := a2 d h
          obtain ⟨i1, i2, i3⟩ := ih (fun c hc => hw c (by simp [hc])) d r1
          exact ⟨i1, by rw [i2, r2], i3⟩

/-- C155: binned data with a shape.  After any history of `add` calls on a fresh object, entry `(b, J)` is the total of the weights (entry J of them, 1 if none were given) of all
samples ever added that lie in bin `b`. -/
theorem C155_histogram [IsStrictOrderedRing α] (bs : Bins α) (m : Nat) (hist : List (List α × Option (Weights α))) (hw : ∀ c ∈ hist, ∀ v, c.2 = some v → v.Fits m) (hm : 0 < m) :
    (runAdds bs m (newData bs m) hist).length = bs.nBins ∧ Rows m (runAdds bs m (newData bs m) hist) ∧
    ∀ b : Nat, b < bs.nBins → ∀ j, j < m → ∃ r, (runAdds bs m (newData bs m) hist)[b]? = some r ∧
      r[j]? = some (Binning.weightIn bs b ((hist.map fun c => (c.1, c.2.map (Weights.col j))).flatMap pointsOf)) := by
  have hd : Rows m (newData bs m) := by
    intro r hr
    rw [List.eq_of_mem_replicate hr]
    simp
  obtain ⟨a1, a2, -⟩ := runAdds_col bs m 0 hm hist hw (newData bs m) hd
  have hn : (newData bs m).length = bs.nBins := by simp [newData]
  refine ⟨by rw [a2, hn], a1, fun b hb j hj => ?_⟩
  obtain ⟨-, -, a3⟩ := runAdds_col bs m j hj hist hw (newData bs m) hd
  have hz : col j (newData bs m) = Binning.newData bs := by
    simp [col, newData, Binning.newData, hj, List.getD_eq_getElem?_getD]
  rw [hz] at a3
  obtain ⟨-, g⟩ := C41_histogram bs (hist.map fun c => (c.1, c.2.map (Weights.col j)))
  have gb := g b hb
  rw [← a3] at gb
  have hlt : b < (runAdds bs m (newData bs m) hist).length := by omega
  refine ⟨_, List.getElem?_eq_getElem hlt, ?_⟩
  unfold col at gb
  rw [List.getElem?_map, List.getElem?_eq_getElem hlt, Option.map_some, Option.some.injEq] at gb
  have hr := a1 _ (List.getElem_mem hlt)
  rw [List.getD_eq_getElem?_getD, List.getElem?_eq_getElem (by omega), Option.getD_some] at gb
  rw [List.getElem?_eq_getElem (by omega), gb]

end

/-! ### Cases -/

example : interp ([0, 1] : List ℚ) [[0, 10], [2, 20]] (1 / 2) = .ok [1, 15] := by decide +kernel
example : combine ([[1, 10], [2, 20], [4, 40]] : List (List ℚ)) 2 = .ok [[3, 30], [6, 60]] := by decide +kernel
example : runAdds (.bisearch [0, 1, 2] : Bins ℚ) 2 [[0, 0], [0, 0]] [([0, 1, 5], some (.rows [[1, 2], [3, 4], [5, 6]])), ([1], none), ([1], some (.numbers [1, 2]))] =
    [[1, 2], [4, 5]] := by decide +kernel

end Pyhipp.TrailingAxes
