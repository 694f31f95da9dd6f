import Verif.Model.Field
import Mathlib.Tactic.Ring
import Mathlib.Data.Rat.Floor
import Mathlib.Tactic.Linarith
import Mathlib.Tactic.FieldSimp
import Mathlib.Tactic.Positivity
/-
C63-C68, C71: mass assignment, interpolation, mesh, joining of dumps, cosmic web.
-/
namespace Pyhipp.CubicBox
open Pyhipp

section
variable {α : Type} [Field α] [LinearOrder α] [IsStrictOrderedRing α] [FloorRing α]

/-- A usable mesh. -/
def Mesh.OK (m : Mesh α) : Prop := 0 < m.nGrids ∧ 0 < m.lBox

theorem Mesh.OK.lGrid_pos {m : Mesh α} (h : m.OK) : 0 < m.lGrid :=
  div_pos h.2 (by exact_mod_cast h.1)

/-- Specification: sum of a field over all grid nodes. -/
def total (n : Nat) (d : Cube α) : α :=
  ∑ i ∈ Finset.range n, ∑ j ∈ Finset.range n, ∑ k ∈ Finset.range n, d (i : Int) (j : Int) (k : Int)

/-! ### C65 -/

/-- C65: `weights_at` gives two indices of the grid and two weights in [0, 1] that sum to 1; the
weights are the triangular shape function at the distances of `x` to two neighbouring nodes, the
left one at or below `x` within one spacing, and the indices are those nodes modulo the grid. -/
theorem C65_weights (m : Mesh α) (hm : m.OK) (x : α) :
    0 ≤ (weightsAt m x).il ∧ (weightsAt m x).il < m.nGrids ∧
    0 ≤ (weightsAt m x).ir ∧ (weightsAt m x).ir < m.nGrids ∧
    0 ≤ (weightsAt m x).wl ∧ (weightsAt m x).wl ≤ 1 ∧ 0 ≤ (weightsAt m x).wr ∧ (weightsAt m x).wr ≤ 1 ∧
    (weightsAt m x).wl + (weightsAt m x).wr = 1 ∧
    ∃ i : Int, (i : α) * m.lGrid ≤ x ∧ x < ((i : α) + 1) * m.lGrid ∧
      (weightsAt m x).il = i % m.nGrids ∧ (weightsAt m x).ir = (i + 1) % m.nGrids ∧
      (weightsAt m x).wl = shapeAtX m (x - (i : α) * m.lGrid) ∧
      (weightsAt m x).wr = shapeAtX m (x - ((i : α) + 1) * m.lGrid) := by
  have hn : (0 : Int) < m.nGrids := by exact_mod_cast hm.1
  have hl := hm.lGrid_pos
  have h1 := Int.floor_le (x / m.lGrid)
  have h2 := Int.lt_floor_add_one (x / m.lGrid)
  refine ⟨Int.emod_nonneg _ hn.ne', Int.emod_lt_of_pos _ hn, Int.emod_nonneg _ hn.ne',
    Int.emod_lt_of_pos _ hn, ?_, ?_, ?_, ?_, ?_, ⌊x / m.lGrid⌋, ?_, ?_, rfl, rfl, ?_, ?_⟩
  · simp only [weightsAt]; linarith
  · simp only [weightsAt]; linarith
  · simp only [weightsAt]; linarith
  · simp only [weightsAt]; linarith
  · simp only [weightsAt]; ring
  · exact (le_div_iff₀ hl).mp h1
  · exact (div_lt_iff₀ hl).mp h2
  · have e : (x - (⌊x / m.lGrid⌋ : α) * m.lGrid) / m.lGrid = x / m.lGrid - (⌊x / m.lGrid⌋ : α) := by
      field_simp
    simp only [weightsAt, shapeAtX, shapeAtXi]
    rw [e, abs_of_nonneg (by linarith), max_eq_left (by linarith)]
  · have e : (x - ((⌊x / m.lGrid⌋ : α) + 1) * m.lGrid) / m.lGrid
        = x / m.lGrid - ((⌊x / m.lGrid⌋ : α) + 1) := by
      field_simp
    simp only [weightsAt, shapeAtX, shapeAtXi]
    rw [e, abs_of_nonpos (by linarith), max_eq_left (by linarith)]
    ring

/-- C65: a point on a node puts everything there. -/
theorem C65_node (m : Mesh α) (hm : m.OK) (i : Int) :
    (weightsAt m ((i : α) * m.lGrid)).wl = 1 ∧ (weightsAt m ((i : α) * m.lGrid)).wr = 0 ∧
    (weightsAt m ((i : α) * m.lGrid)).il = i % m.nGrids := by
  have hl := hm.lGrid_pos
  have e : (i : α) * m.lGrid / m.lGrid = i := by field_simp
  refine ⟨?_, ?_, ?_⟩ <;> simp [weightsAt, e]

/-- Shifting by whole boxes changes nothing. -/
theorem weightsAt_periodic (m : Mesh α) (hm : m.OK) (x : α) (s : Int) :
    weightsAt m (x + (s : α) * m.lBox) = weightsAt m x := by
  have hl := hm.lGrid_pos
  have hn : (m.nGrids : α) ≠ 0 := by exact_mod_cast hm.1.ne'
  have hb : m.lBox ≠ 0 := hm.2.ne'
  have e : (x + (s : α) * m.lBox) / m.lGrid = x / m.lGrid + ((s * m.nGrids : Int) : α) := by
    unfold Mesh.lGrid; push_cast; field_simp
  simp only [weightsAt, e, Int.floor_add_intCast]
  push_cast
  have e1 : (⌊x / m.lGrid⌋ + s * (m.nGrids : Int)) % (m.nGrids : Int) = ⌊x / m.lGrid⌋ % (m.nGrids : Int) := by
    simp
  have e2 : (⌊x / m.lGrid⌋ + s * (m.nGrids : Int) + 1) % (m.nGrids : Int)
      = (⌊x / m.lGrid⌋ + 1) % (m.nGrids : Int) := by
    rw [show ⌊x / m.lGrid⌋ + s * (m.nGrids : Int) + 1 = ⌊x / m.lGrid⌋ + 1 + s * (m.nGrids : Int) by ring]
    simp
  rw [e1, e2]
  congr 1 <;> ring

example : (⟨4, 8⟩ : Mesh ℚ).OK := by constructor <;> norm_num
example : (weightsAt (⟨4, 8⟩ : Mesh ℚ) 7).il = 3 ∧ (weightsAt (⟨4, 8⟩ : Mesh ℚ) 7).ir = 0 ∧
    (weightsAt (⟨4, 8⟩ : Mesh ℚ) 7).wl = 1/2 := by decide +kernel

/-! ### assignment -/

/-- Weight given to index `i` along one axis. -/
def W.coef (w : W α) (i : Int) : α := (if i = w.il then w.wl else 0) + (if i = w.ir then w.wr else 0)

theorem addAt_eq (d : Cube α) (a b c : Int) (v : α) (i j k : Int) :
    addAt d a b c v i j k = d i j k +
      (if i = a then 1 else 0) * (if j = b then 1 else 0) * (if k = c then 1 else 0) * v := by
  unfold addAt
  by_cases h1 : i = a <;> by_cases h2 : j = b <;> by_cases h3 : k = c <;> simp [h1, h2, h3]

theorem W.coef_eq (w : W α) (i : Int) :
    w.coef i = (if i = w.il then 1 else 0) * w.wl + (if i = w.ir then 1 else 0) * w.wr := by
  simp [W.coef]

theorem add1_eq (m : Mesh α) (d : Cube α) (x : Vec3 α) (w : α) (i j k : Int) :
    add1 m d x w i j k = d i j k + (weightsAt m x.1).coef i * (weightsAt m x.2.1).coef j *
      (weightsAt m x.2.2).coef k * w := by
  simp only [add1, addAt_eq, W.coef_eq]
  ring

/-- Contribution of one point to a cell. -/
def contrib (m : Mesh α) (i j k : Int) (p : Vec3 α × α) : α :=
  (weightsAt m p.1.1).coef i * (weightsAt m p.1.2.1).coef j * (weightsAt m p.1.2.2).coef k * p.2

theorem addPairs_eq (m : Mesh α) (d : Cube α) (ps : List (Vec3 α × α)) (i j k : Int) :
    addPairs m d ps i j k = d i j k + (ps.map (contrib m i j k)).sum := by
  unfold addPairs
  induction ps generalizing d with
  | nil => simp
  | cons p t ih =>
      rw [List.foldl_cons, ih, add1_eq, List.map_cons, List.sum_cons]
      unfold contrib
      ring

/-- Specification: the points of a history of `add` calls with their weights (1 if none given). -/
def points (calls : List (List (Vec3 α) × Option (List α))) : List (Vec3 α × α) :=
  calls.flatMap (fun c => c.1.zip (c.2.getD (c.1.map (fun _ => 1))))

/-- Specification: the calls that are accepted. -/
def CallsOK (calls : List (List (Vec3 α) × Option (List α))) : Prop :=
  ∀ c ∈ calls, ∀ w, c.2 = some w → w.length = c.1.length

theorem densityRun_eq (m : Mesh α) (calls : List (List (Vec3 α) × Option (List α))) (hc : CallsOK calls) :
    ∃ d, densityRun m calls = .ok d ∧ ∀ i j k, d i j k = ((points calls).map (contrib m i j k)).sum := by
  have : ∀ (d0 : Cube α), ∃ d, calls.foldlM (fun d c => densityAdd m d c.1 c.2) d0 = .ok d ∧
      ∀ i j k, d i j k = d0 i j k + ((points calls).map (contrib m i j k)).sum := by
    induction calls with
    | nil => intro d0; exact ⟨d0, rfl, by simp [points]⟩
    | cons c t ih =>
        intro d0
        obtain ⟨xs, w⟩ := c
        have hstep : densityAdd m d0 xs w = .ok (addPairs m d0 (xs.zip (w.getD (xs.map (fun _ => 1))))) := by
          rcases w with _ | w
          · simp only [densityAdd, Option.getD_none]
            congr 2
            clear hc ih
            induction xs with
            | nil => rfl
            | cons a t ih => simp [ih]
          · have := hc (xs, some w) (by simp) w rfl
            simp only at this
            simp [densityAdd, this]
        obtain ⟨d, h1, h2⟩ := ih (fun c hc' => hc c (by simp [hc'])) (addPairs m d0 (xs.zip (w.getD (xs.map (fun _ => 1)))))
        refine ⟨d, ?_, ?_⟩
        · rw [List.foldlM_cons, hstep]; exact h1
        · intro i j k
          rw [h2, addPairs_eq]
          simp only [points, List.flatMap_cons, List.map_append, List.sum_append]
          ring
  obtain ⟨d, h1, h2⟩ := this (fun _ _ _ => 0)
  exact ⟨d, h1, fun i j k => by rw [h2]; simp⟩

theorem coef_sum (m : Mesh α) (hm : m.OK) (x : α) :
    ∑ i ∈ Finset.range m.nGrids, (weightsAt m x).coef (i : Int) = 1 := by
  obtain ⟨a1, a2, b1, b2, -, -, -, -, hs, -⟩ := C65_weights m hm x
  have key : ∀ (a : Int) (v : α), 0 ≤ a → a < m.nGrids →
      ∑ i ∈ Finset.range m.nGrids, (if (i : Int) = a then v else 0) = v := by
    intro a v h1 h2
    obtain ⟨n, rfl⟩ := Int.eq_ofNat_of_zero_le h1
    have : ∀ i : Nat, ((i : Int) = (n : Int)) ↔ i = n := fun i => by omega
    simp only [Int.ofNat_eq_natCast, this]
    rw [Finset.sum_ite_eq']
    simp [show n < m.nGrids by omega]
  unfold W.coef
  rw [Finset.sum_add_distrib, key _ _ a1 a2, key _ _ b1 b2, hs]

theorem coef_nonneg (m : Mesh α) (hm : m.OK) (x : α) (i : Int) : 0 ≤ (weightsAt m x).coef i := by
  obtain ⟨-, -, -, -, c1, -, c2, -⟩ := C65_weights m hm x
  unfold W.coef
  by_cases h1 : i = (weightsAt m x).il <;> by_cases h2 : i = (weightsAt m x).ir <;>
    simp only [if_pos, if_neg, h1, h2, not_false_eq_true] <;> (try split_ifs) <;> linarith

theorem contrib_total (m : Mesh α) (hm : m.OK) (p : Vec3 α × α) :
    total m.nGrids (fun i j k => contrib m i j k p) = p.2 := by
  unfold total contrib
  simp only [← Finset.sum_mul, ← Finset.mul_sum, coef_sum m hm]
  ring

theorem total_add (n : Nat) (d e : Cube α) :
    total n (fun i j k => d i j k + e i j k) = total n d + total n e := by
  simp [total, Finset.sum_add_distrib]

theorem total_list (m : Mesh α) (hm : m.OK) (ps : List (Vec3 α × α)) :
    total m.nGrids (fun i j k => (ps.map (contrib m i j k)).sum) = (ps.map (fun p => p.2)).sum := by
  induction ps with
  | nil => simp [total]
  | cons p t ih =>
      simp only [List.map_cons, List.sum_cons]
      rw [total_add m.nGrids (fun i j k => contrib m i j k p), contrib_total m hm, ih]

/-- C63: after any history of accepted `add` calls the field sums to the total weight added, whatever
the positions; with non-negative weights every cell is non-negative. -/
theorem C63_mass (m : Mesh α) (hm : m.OK) (calls : List (List (Vec3 α) × Option (List α)))
    (hc : CallsOK calls) :
    ∃ d, densityRun m calls = .ok d ∧ total m.nGrids d = ((points calls).map (fun p => p.2)).sum ∧
      ((∀ p ∈ points calls, 0 ≤ p.2) → ∀ i j k, 0 ≤ d i j k) := by
  obtain ⟨d, h1, h2⟩ := densityRun_eq m calls hc
  refine ⟨d, h1, ?_, ?_⟩
  · have : d = fun i j k => ((points calls).map (contrib m i j k)).sum := by
      funext i j k; exact h2 i j k
    rw [this, total_list m hm]
  · intro hp i j k
    rw [h2]
    apply List.sum_nonneg
    intro a ha
    obtain ⟨p, hp', rfl⟩ := List.mem_map.mp ha
    unfold contrib
    exact mul_nonneg (mul_nonneg (mul_nonneg (coef_nonneg m hm _ _) (coef_nonneg m hm _ _))
      (coef_nonneg m hm _ _)) (hp p hp')

/-- C63: a call whose weights have the wrong length fails and the history with it. -/
theorem C63_reject (m : Mesh α) (d : Cube α) (xs : List (Vec3 α)) (w : List α) (h : w.length ≠ xs.length) :
    densityAdd m d xs (some w) = .error .assertionError := by
  simp [densityAdd, h]

/-- C64: the field depends only on the multiset of points with weights: any order, any split into
calls. -/
theorem C64_order_free (m : Mesh α) (c1 c2 : List (List (Vec3 α) × Option (List α)))
    (h1 : CallsOK c1) (h2 : CallsOK c2) (hp : (points c1).Perm (points c2)) (d1 d2 : Cube α)
    (e1 : densityRun m c1 = .ok d1) (e2 : densityRun m c2 = .ok d2) : d1 = d2 := by
  obtain ⟨d1', f1, g1⟩ := densityRun_eq m c1 h1
  obtain ⟨d2', f2, g2⟩ := densityRun_eq m c2 h2
  rw [e1] at f1; rw [e2] at f2
  obtain rfl : d1 = d1' := by simpa using f1
  obtain rfl : d2 = d2' := by simpa using f2
  funext i j k
  rw [g1, g2]
  exact (hp.map _).sum_eq

/-- C64: the field is linear: points split over two fields add up, scaling the weights scales it. -/
theorem C64_linear (m : Mesh α) (c1 c2 c3 : List (List (Vec3 α) × Option (List α))) (s : α)
    (h1 : CallsOK c1) (h2 : CallsOK c2) (h3 : CallsOK c3) (d1 d2 d3 : Cube α)
    (e1 : densityRun m c1 = .ok d1) (e2 : densityRun m c2 = .ok d2) (e3 : densityRun m c3 = .ok d3) :
    ((points c3).Perm (points c1 ++ points c2) → ∀ i j k, d3 i j k = d1 i j k + d2 i j k) ∧
    (points c3 = (points c1).map (fun p => (p.1, s * p.2)) → ∀ i j k, d3 i j k = s * d1 i j k) := by
  obtain ⟨d1', f1, g1⟩ := densityRun_eq m c1 h1
  obtain ⟨d2', f2, g2⟩ := densityRun_eq m c2 h2
  obtain ⟨d3', f3, g3⟩ := densityRun_eq m c3 h3
  rw [e1] at f1; rw [e2] at f2; rw [e3] at f3
  obtain rfl : d1 = d1' := by simpa using f1
  obtain rfl : d2 = d2' := by simpa using f2
  obtain rfl : d3 = d3' := by simpa using f3
  constructor
  · intro hp i j k
    rw [g1, g2, g3, (hp.map _).sum_eq, List.map_append, List.sum_append]
  · intro hp i j k
    rw [g1, g3, hp, List.map_map, ← List.sum_map_mul_left]
    congr 1
    apply List.map_congr_left
    intro p _
    simp only [Function.comp, contrib]
    ring

/-- C64: periodic: moving any point by whole box lengths along any axes changes nothing. -/
theorem C64_periodic (m : Mesh α) (hm : m.OK) (d : Cube α) (x : Vec3 α) (w : α) (s : Int × Int × Int) :
    add1 m d (x.1 + (s.1 : α) * m.lBox, x.2.1 + (s.2.1 : α) * m.lBox, x.2.2 + (s.2.2 : α) * m.lBox) w
      = add1 m d x w := by
  simp only [add1, weightsAt_periodic m hm]

example : CallsOK ([([(0, 1, 2)], none), ([(5, -1, 2), (0, 0, 0)], some [2, 3])] :
    List (List (Vec3 ℚ) × Option (List ℚ))) := by
  intro c hc w hw
  simp at hc
  rcases hc with rfl | rfl
  · simp at hw
  · simp at hw; simp [← hw]

/-! ### C66 -/

theorem valueAt_eq (m : Mesh α) (hm : m.OK) (data : Cube α) (x : Vec3 α) :
    valueAt m data x = total m.nGrids (fun i j k => data i j k * contrib m i j k (x, 1)) := by
  obtain ⟨a1, a2, a3, a4, -⟩ := C65_weights m hm x.1
  obtain ⟨b1, b2, b3, b4, -⟩ := C65_weights m hm x.2.1
  obtain ⟨c1, c2, c3, c4, -⟩ := C65_weights m hm x.2.2
  have key : ∀ (w : W α) (_ : 0 ≤ w.il) (_ : w.il < m.nGrids) (_ : 0 ≤ w.ir) (_ : w.ir < m.nGrids)
      (f : Int → α), ∑ i ∈ Finset.range m.nGrids, f (i : Int) * w.coef (i : Int)
        = f w.il * w.wl + f w.ir * w.wr := by
    intro w h1 h2 h3 h4 f
    have one : ∀ (a : Int) (v : α), 0 ≤ a → a < m.nGrids →
        ∑ i ∈ Finset.range m.nGrids, f (i : Int) * (if (i : Int) = a then v else 0) = f a * v := by
      intro a v h1 h2
      obtain ⟨n, rfl⟩ := Int.eq_ofNat_of_zero_le h1
      rw [Finset.sum_eq_single n]
      · simp
      · intro b _ hb
        rw [if_neg (by simp; omega), mul_zero]
      · intro hb
        simp only [Finset.mem_range] at hb
        omega
    simp only [W.coef, mul_add, Finset.sum_add_distrib]
    rw [one _ _ h1 h2, one _ _ h3 h4]
  unfold total contrib
  have e1 : ∀ i j : Nat, ∑ k ∈ Finset.range m.nGrids, data i j k * ((weightsAt m x.1).coef i *
      (weightsAt m x.2.1).coef j * (weightsAt m x.2.2).coef k * 1) =
      ((data i j (weightsAt m x.2.2).il * (weightsAt m x.2.2).wl +
        data i j (weightsAt m x.2.2).ir * (weightsAt m x.2.2).wr) *
      (weightsAt m x.1).coef i) * (weightsAt m x.2.1).coef j := by
    intro i j
    rw [← key _ c1 c2 c3 c4 (fun k => data i j k), Finset.sum_mul, Finset.sum_mul]
    apply Finset.sum_congr rfl
    intro k _
    ring
  simp only [e1]
  have e2 : ∀ i : Nat, ∑ j ∈ Finset.range m.nGrids,
      ((data i j (weightsAt m x.2.2).il * (weightsAt m x.2.2).wl +
        data i j (weightsAt m x.2.2).ir * (weightsAt m x.2.2).wr) *
      (weightsAt m x.1).coef i) * (weightsAt m x.2.1).coef j = _ := fun i =>
    key _ b1 b2 b3 b4 (fun j => (data i j (weightsAt m x.2.2).il * (weightsAt m x.2.2).wl +
        data i j (weightsAt m x.2.2).ir * (weightsAt m x.2.2).wr) * (weightsAt m x.1).coef i)
  simp only [e2]
  have e3 : ∀ i : Nat, (data i (weightsAt m x.2.1).il (weightsAt m x.2.2).il * (weightsAt m x.2.2).wl +
        data i (weightsAt m x.2.1).il (weightsAt m x.2.2).ir * (weightsAt m x.2.2).wr) *
        (weightsAt m x.1).coef i * (weightsAt m x.2.1).wl +
      (data i (weightsAt m x.2.1).ir (weightsAt m x.2.2).il * (weightsAt m x.2.2).wl +
        data i (weightsAt m x.2.1).ir (weightsAt m x.2.2).ir * (weightsAt m x.2.2).wr) *
        (weightsAt m x.1).coef i * (weightsAt m x.2.1).wr =
      (fun i : Int => (data i (weightsAt m x.2.1).il (weightsAt m x.2.2).il * (weightsAt m x.2.2).wl +
        data i (weightsAt m x.2.1).il (weightsAt m x.2.2).ir * (weightsAt m x.2.2).wr) * (weightsAt m x.2.1).wl +
      (data i (weightsAt m x.2.1).ir (weightsAt m x.2.2).il * (weightsAt m x.2.2).wl +
        data i (weightsAt m x.2.1).ir (weightsAt m x.2.2).ir * (weightsAt m x.2.2).wr) *
        (weightsAt m x.2.1).wr) (i : Int) * (weightsAt m x.1).coef i := by
    intro i; ring
  simp only [e3]
  have e4 := key _ a1 a2 a3 a4 (fun i : Int => (data i (weightsAt m x.2.1).il (weightsAt m x.2.2).il * (weightsAt m x.2.2).wl +
        data i (weightsAt m x.2.1).il (weightsAt m x.2.2).ir * (weightsAt m x.2.2).wr) * (weightsAt m x.2.1).wl +
      (data i (weightsAt m x.2.1).ir (weightsAt m x.2.2).il * (weightsAt m x.2.2).wl +
        data i (weightsAt m x.2.1).ir (weightsAt m x.2.2).ir * (weightsAt m x.2.2).wr) *
        (weightsAt m x.2.1).wr)
  rw [e4]
  simp only [valueAt]
  ring

/-- C66: interpolation is the adjoint of mass assignment: for any field `data`, the weighted sum of
the interpolated values at the points equals the sum over the grid of `data` times the field
assigned from these points. -/
theorem C66_adjoint (m : Mesh α) (hm : m.OK) (data : Cube α) (ps : List (Vec3 α × α)) :
    (ps.map (fun p => p.2 * valueAt m data p.1)).sum =
      total m.nGrids (fun i j k => data i j k * addPairs m (fun _ _ _ => 0) ps i j k) := by
  induction ps with
  | nil => simp [total, addPairs_eq]
  | cons p t ih =>
      rw [List.map_cons, List.sum_cons, ih, valueAt_eq m hm]
      have e : (fun i j k => data i j k * addPairs m (fun _ _ _ => 0) (p :: t) i j k) =
          fun i j k => p.2 * (data i j k * contrib m i j k (p.1, 1)) +
            data i j k * addPairs m (fun _ _ _ => 0) t i j k := by
        funext i j k
        rw [addPairs_eq, addPairs_eq, List.map_cons, List.sum_cons]
        unfold contrib
        ring
      rw [e, total_add m.nGrids (fun i j k => p.2 * (data i j k * contrib m i j k (p.1, 1)))]
      congr 1
      simp only [total, Finset.mul_sum]

/-- C66: interpolated values lie between the smallest and the largest value of the field; in
particular a constant field is reproduced. -/
theorem C66_bounds (m : Mesh α) (hm : m.OK) (data : Cube α) (lo hi : α)
    (hd : ∀ i j k : Nat, i < m.nGrids → j < m.nGrids → k < m.nGrids →
      lo ≤ data i j k ∧ data i j k ≤ hi) (x : Vec3 α) :
    lo ≤ valueAt m data x ∧ valueAt m data x ≤ hi := by
  have hone := contrib_total m hm (x, 1)
  have hnn : ∀ i j k, 0 ≤ contrib m i j k (x, 1) := by
    intro i j k
    unfold contrib
    exact mul_nonneg (mul_nonneg (mul_nonneg (coef_nonneg m hm _ _) (coef_nonneg m hm _ _))
      (coef_nonneg m hm _ _)) zero_le_one
  rw [valueAt_eq m hm]
  have hmono : ∀ f g : Cube α, (∀ i j k : Nat, i < m.nGrids → j < m.nGrids → k < m.nGrids →
      f i j k ≤ g i j k) → total m.nGrids f ≤ total m.nGrids g := by
    intro f g h
    unfold total
    apply Finset.sum_le_sum; intro i hi
    apply Finset.sum_le_sum; intro j hj
    apply Finset.sum_le_sum; intro k hk
    simp only [Finset.mem_range] at hi hj hk
    exact h i j k hi hj hk
  have hc : ∀ c : α, total m.nGrids (fun i j k => c * contrib m i j k (x, 1)) = c := by
    intro c
    have : total m.nGrids (fun i j k => c * contrib m i j k (x, 1)) =
        c * total m.nGrids (fun i j k => contrib m i j k (x, 1)) := by
      simp only [total, Finset.mul_sum]
    rw [this, hone, mul_one]
  constructor
  · calc lo = _ := (hc lo).symm
      _ ≤ _ := hmono _ _ (fun i j k h1 h2 h3 => mul_le_mul_of_nonneg_right (hd i j k h1 h2 h3).1 (hnn _ _ _))
  · calc _ ≤ _ := hmono _ (fun i j k => hi * contrib m i j k (x, 1))
          (fun i j k h1 h2 h3 => mul_le_mul_of_nonneg_right (hd i j k h1 h2 h3).2 (hnn _ _ _))
      _ = hi := hc hi

/-- C66: at a node the value is the value stored there (indices modulo the grid). -/
theorem C66_node (m : Mesh α) (hm : m.OK) (data : Cube α) (i j k : Int) :
    valueAt m data ((i : α) * m.lGrid, (j : α) * m.lGrid, (k : α) * m.lGrid) =
      data (i % m.nGrids) (j % m.nGrids) (k % m.nGrids) := by
  obtain ⟨a1, a2, a3⟩ := C65_node m hm i
  obtain ⟨b1, b2, b3⟩ := C65_node m hm j
  obtain ⟨c1, c2, c3⟩ := C65_node m hm k
  simp only [valueAt, a1, a2, a3, b1, b2, b3, c1, c2, c3]
  ring

/-- C66: periodic. -/
theorem C66_periodic (m : Mesh α) (hm : m.OK) (data : Cube α) (x : Vec3 α) (s : Int × Int × Int) :
    valueAt m data (x.1 + (s.1 : α) * m.lBox, x.2.1 + (s.2.1 : α) * m.lBox, x.2.2 + (s.2.2 : α) * m.lBox)
      = valueAt m data x := by
  simp only [valueAt, weightsAt_periodic m hm]

/-! ### C67 -/

/-- C67: the node index of a position is in the grid, and that node, moved by a whole number of box
lengths, is at most half a spacing away. -/
theorem C67_nearest (m : Mesh α) (hm : m.OK) (x : α) :
    0 ≤ m.xToXi x ∧ m.xToXi x < m.nGrids ∧
    ∃ s : Int, |x - ((m.xToXi x : α) * m.lGrid + (s : α) * m.lBox)| ≤ m.lGrid / 2 := by
  have hn : (0 : Int) < m.nGrids := by exact_mod_cast hm.1
  have hl := hm.lGrid_pos
  have hnz : (m.nGrids : α) ≠ 0 := by exact_mod_cast hm.1.ne'
  refine ⟨Int.emod_nonneg _ hn.ne', Int.emod_lt_of_pos _ hn, ⌊x / m.lGrid + 1 / 2⌋ / (m.nGrids : Int), ?_⟩
  have e : (m.xToXi x : α) * m.lGrid + ((⌊x / m.lGrid + 1 / 2⌋ / (m.nGrids : Int) : Int) : α) * m.lBox
      = (⌊x / m.lGrid + 1 / 2⌋ : α) * m.lGrid := by
    have h := Int.emod_add_mul_ediv ⌊x / m.lGrid + 1 / 2⌋ (m.nGrids : Int)
    have h' : (⌊x / m.lGrid + 1 / 2⌋ : α) = (m.xToXi x : α) + (m.nGrids : α) *
        ((⌊x / m.lGrid + 1 / 2⌋ / (m.nGrids : Int) : Int) : α) := by
      unfold Mesh.xToXi
      rw [← h]
      push_cast
      rw [h]
    rw [h']
    have hb : m.lBox = m.nGrids * m.lGrid := by unfold Mesh.lGrid; field_simp
    rw [hb]
    ring
  rw [e]
  have h1 := Int.floor_le (x / m.lGrid + 1 / 2)
  have h2 := Int.lt_floor_add_one (x / m.lGrid + 1 / 2)
  have hx : x = x / m.lGrid * m.lGrid := by field_simp
  rw [abs_le]
  constructor
  · nlinarith
  · nlinarith

/-- C67: periodic. -/
theorem C67_periodic (m : Mesh α) (hm : m.OK) (x : α) (s : Int) :
    m.xToXi (x + (s : α) * m.lBox) = m.xToXi x := by
  have hl := hm.lGrid_pos
  have hn : (m.nGrids : α) ≠ 0 := by exact_mod_cast hm.1.ne'
  have hb : m.lBox ≠ 0 := hm.2.ne'
  have e : (x + (s : α) * m.lBox) / m.lGrid + 1 / 2 = (x / m.lGrid + 1 / 2) + ((s * m.nGrids : Int) : α) := by
    unfold Mesh.lGrid; push_cast; field_simp; ring
  unfold Mesh.xToXi
  rw [e, Int.floor_add_intCast]
  simp

/-- C67: a node is its own index. -/
theorem C67_node (m : Mesh α) (hm : m.OK) (i : Int) : m.xToXi ((i : α) * m.lGrid) = i % m.nGrids := by
  have hl := hm.lGrid_pos
  have e : (i : α) * m.lGrid / m.lGrid = i := by field_simp
  unfold Mesh.xToXi
  rw [e, add_comm, Int.floor_add_intCast]
  have : ⌊(1 / 2 : α)⌋ = 0 := by
    rw [Int.floor_eq_zero_iff]
    constructor <;> norm_num
  rw [this, zero_add]

/-- C67: cell volumes fill the box. -/
theorem C67_volume (m : Mesh α) (hm : m.OK) : (m.totalNGrids : α) * m.cellVolume = m.volume := by
  have hn : (m.nGrids : α) ≠ 0 := by exact_mod_cast hm.1.ne'
  simp only [Mesh.totalNGrids, Mesh.cellVolume, Mesh.volume, Mesh.lGrid]
  push_cast
  field_simp

/-! ### C68 -/

/-- C68: joining the dumps of fields built from parts of a point set gives the field of the whole set,
with the box and grid of the first. -/
theorem C68_join (m : Mesh α) (first : List (List (Vec3 α) × Option (List α)))
    (rest : List (List (List (Vec3 α) × Option (List α)))) (hf : CallsOK first)
    (hr : ∀ c ∈ rest, CallsOK c) :
    ∃ dumps : List (Dump α), (first :: rest).mapM (fun c => (densityRun m c).map
        (fun d => ({ data := d, lBox := m.lBox, nGrids := m.nGrids } : Dump α))) = .ok dumps ∧
    ∃ d, densityRun m (first ++ rest.flatten) = .ok d ∧
      joinDumps dumps = .ok { data := d, lBox := m.lBox, nGrids := m.nGrids } := by
  have base : ∀ c, CallsOK c → ∃ d, (densityRun m c).map
      (fun d => ({ data := d, lBox := m.lBox, nGrids := m.nGrids } : Dump α)) =
        .ok { data := d, lBox := m.lBox, nGrids := m.nGrids } ∧
      ∀ i j k, d i j k = ((points c).map (contrib m i j k)).sum := by
    intro c hc
    obtain ⟨d, h1, h2⟩ := densityRun_eq m c hc
    exact ⟨d, by rw [h1]; rfl, h2⟩
  have hall : CallsOK (first ++ rest.flatten) := by
    intro c hc w hw
    rcases List.mem_append.mp hc with h | h
    · exact hf c h w hw
    · obtain ⟨l, hl, hc'⟩ := List.mem_flatten.mp h
      exact hr l hl c hc' w hw
  obtain ⟨d, hd1, hd2⟩ := densityRun_eq m (first ++ rest.flatten) hall
  obtain ⟨d0, hd0, hv0⟩ := base first hf
  -- the rest of the inputs, folded onto any start
  have fold : ∀ (rest : List (List (List (Vec3 α) × Option (List α)))), (∀ c ∈ rest, CallsOK c) →
      ∃ dumps : List (Dump α), rest.mapM (fun c => (densityRun m c).map
        (fun d => ({ data := d, lBox := m.lBox, nGrids := m.nGrids } : Dump α))) = .ok dumps ∧
      ∀ s : Cube α, ∃ e, (dumps.foldlM (fun (out : Dump α) g =>
          if g.nGrids = out.nGrids then
            (.ok { out with data := fun i j k => out.data i j k + g.data i j k } : PyM (Dump α))
          else if g.nGrids = 1 then
            .ok { out with data := fun i j k => out.data i j k + g.data 0 0 0 }
          else .error .valueError) { data := s, lBox := m.lBox, nGrids := m.nGrids }) =
          .ok { data := e, lBox := m.lBox, nGrids := m.nGrids } ∧
        ∀ i j k, e i j k = s i j k + ((points rest.flatten).map (contrib m i j k)).sum := by
    intro rest
    induction rest with
    | nil => intro _; exact ⟨[], rfl, fun s => ⟨s, rfl, by simp [points]⟩⟩
    | cons c t ih =>
        intro hr
        obtain ⟨dc, h1, h2⟩ := base c (hr c (by simp))
        obtain ⟨ds, h3, h4⟩ := ih (fun c' h' => hr c' (by simp [h']))
        refine ⟨{ data := dc, lBox := m.lBox, nGrids := m.nGrids } :: ds, ?_, ?_⟩
        · rw [List.mapM_cons, h1, h3]; rfl
        · intro s
          obtain ⟨e, he1, he2⟩ := h4 (fun i j k => s i j k + dc i j k)
          refine ⟨e, ?_, ?_⟩
          · rw [List.foldlM_cons]
            simp only [if_true]
            exact he1
          · intro i j k
            rw [he2, h2, List.flatten_cons]
            simp only [points, List.flatMap_append, List.map_append, List.sum_append]
            ring
  obtain ⟨ds, h3, h4⟩ := fold rest hr
  obtain ⟨e, he1, he2⟩ := h4 d0
  refine ⟨{ data := d0, lBox := m.lBox, nGrids := m.nGrids } :: ds, ?_, d, hd1, ?_⟩
  · rw [List.mapM_cons, hd0, h3]; rfl
  · have : d = e := by
      funext i j k
      rw [hd2, he2, hv0]
      simp only [points, List.flatMap_append, List.map_append, List.sum_append]
    rw [this]
    exact he1

/-- C68: no input is an error, a single input is copied. -/
theorem C68_edge (g : Dump α) :
    joinDumps ([] : List (Dump α)) = .error .nameError ∧ joinDumps [g] = .ok g := ⟨rfl, rfl⟩

/-- C68 (unchecked): the box sizes of the inputs are never compared, and a one-cell field is silently
broadcast over the whole grid. -/
theorem C68_unchecked (g h : Dump α) :
    (h.nGrids = g.nGrids → ∃ out, joinDumps [g, h] = .ok out ∧ out.lBox = g.lBox) ∧
    (h.nGrids = 1 → g.nGrids ≠ 1 → joinDumps [g, h] =
      .ok { g with data := fun i j k => g.data i j k + h.data 0 0 0 }) ∧
    (h.nGrids ≠ g.nGrids → h.nGrids ≠ 1 → joinDumps [g, h] = .error .valueError) := by
  refine ⟨fun e => ?_, fun e hne => ?_, fun e hne => ?_⟩
  · simp [joinDumps, e, bind, Except.bind, pure, Except.pure]
  · have : ¬ (1 = g.nGrids) := fun h => hne h.symm
    simp [joinDumps, e, this, bind, Except.bind, pure, Except.pure]
  · simp [joinDumps, e, hne, bind, Except.bind, pure, Except.pure]

/-! ### C71 -/

theorem mem_cells (n : Nat) (c : Int × Int × Int) :
    c ∈ cells n ↔ (0 ≤ c.1 ∧ c.1 < n) ∧ (0 ≤ c.2.1 ∧ c.2.1 < n) ∧ (0 ≤ c.2.2 ∧ c.2.2 < n) := by
  obtain ⟨a, b, d⟩ := c
  simp only [cells, List.mem_flatMap, List.mem_range, List.mem_map, Prod.mk.injEq]
  constructor
  · rintro ⟨i, hi, j, hj, k, hk, rfl, rfl, rfl⟩
    exact ⟨⟨by omega, by omega⟩, ⟨by omega, by omega⟩, by omega, by omega⟩
  · rintro ⟨⟨h1, h2⟩, ⟨h3, h4⟩, h5, h6⟩
    exact ⟨a.toNat, by omega, b.toNat, by omega, d.toNat, by omega, by omega, by omega, by omega⟩

theorem cells_length (n : Nat) : (cells n).length = n ^ 3 := by
  simp [cells, List.length_flatMap]
  ring

/-- C71: construction succeeds exactly when the array fits the mesh and the eigenvalues of every cell
are sorted. -/
theorem C71_init (lam : Cube (α × α × α)) (nLam : Nat) (mesh : Mesh α) (th : α) :
    ((∃ c, classifierInit lam nLam mesh th = .ok c) ↔ nLam = mesh.nGrids ∧
      ∀ i j k : Nat, i < mesh.nGrids → j < mesh.nGrids → k < mesh.nGrids →
        (lam i j k).1 ≤ (lam i j k).2.1 ∧ (lam i j k).2.1 ≤ (lam i j k).2.2) ∧
    ((∃ c, classifierInit lam nLam mesh th = .ok c) ∨ classifierInit lam nLam mesh th = .error .assertionError) ∧
    ∀ c, classifierInit lam nLam mesh th = .ok c → c.mesh = mesh ∧ c.lam = lam ∧
      ∀ i j k, c.nLams i j k = countAbove (lam i j k) th := by
  have hp : ∀ P : (α × α × α) → Prop, [DecidablePred P] →
      ((cells mesh.nGrids).all (fun c => decide (P (lam c.1 c.2.1 c.2.2))) = true ↔
      ∀ i j k : Nat, i < mesh.nGrids → j < mesh.nGrids → k < mesh.nGrids → P (lam i j k)) := by
    intro P _
    rw [List.all_eq_true]
    constructor
    · intro h i j k hi hj hk
      have := h ((i : Int), (j : Int), (k : Int)) ((mem_cells _ _).mpr ⟨by simp; omega, by simp; omega, by simp; omega⟩)
      simpa using this
    · intro h c hc
      obtain ⟨⟨a1, a2⟩, ⟨b1, b2⟩, c1, c2⟩ := (mem_cells _ _).mp hc
      have := h c.1.toNat c.2.1.toNat c.2.2.toNat (by omega) (by omega) (by omega)
      rw [Int.toNat_of_nonneg a1, Int.toNat_of_nonneg b1, Int.toNat_of_nonneg c1] at this
      simpa using this
  have h1 := hp (fun l => l.1 ≤ l.2.1)
  have h2 := hp (fun l => l.2.1 ≤ l.2.2)
  unfold classifierInit
  by_cases c0 : nLam = mesh.nGrids
  · by_cases c1 : (cells mesh.nGrids).all (fun c => decide ((lam c.1 c.2.1 c.2.2).1 ≤ (lam c.1 c.2.1 c.2.2).2.1)) = true
    · by_cases c2 : (cells mesh.nGrids).all (fun c => decide ((lam c.1 c.2.1 c.2.2).2.1 ≤ (lam c.1 c.2.1 c.2.2).2.2)) = true
      · simp only [pyAssert, c0, beq_self_eq_true, if_true, c1, c2, bind, Except.bind, pure, Except.pure]
        refine ⟨⟨fun _ => ⟨trivial, fun i j k hi hj hk => ⟨h1.mp c1 i j k hi hj hk, h2.mp c2 i j k hi hj hk⟩⟩,
          fun _ => ⟨_, rfl⟩⟩, Or.inl ⟨_, rfl⟩, ?_⟩
        intro c hc
        simp only [Except.ok.injEq] at hc
        subst hc
        exact ⟨rfl, rfl, fun _ _ _ => rfl⟩
      · simp only [pyAssert, c0, beq_self_eq_true, if_true, c1, c2, bind, Except.bind, if_false, Bool.false_eq_true]
        refine ⟨⟨fun ⟨c, hc⟩ => by simp at hc, fun h => absurd (h2.mpr (fun i j k hi hj hk => (h.2 i j k hi hj hk).2)) c2⟩,
          Or.inr trivial, fun c hc => by simp at hc⟩
    · simp only [pyAssert, c0, beq_self_eq_true, if_true, c1, bind, Except.bind, if_false, Bool.false_eq_true]
      refine ⟨⟨fun ⟨c, hc⟩ => by simp at hc, fun h => absurd (h1.mpr (fun i j k hi hj hk => (h.2 i j k hi hj hk).1)) c1⟩,
        Or.inr trivial, fun c hc => by simp at hc⟩
  · have : (nLam == mesh.nGrids) = false := by simpa using c0
    simp only [pyAssert, this, bind, Except.bind, if_false, Bool.false_eq_true]
    exact ⟨⟨fun ⟨c, hc⟩ => by simp at hc, fun h => absurd h.1 c0⟩, Or.inr trivial, fun c hc => by simp at hc⟩

/-- C71: for sorted eigenvalues the type of a cell is 3 (knot) iff all three exceed the threshold, 2
(filament) iff exactly the upper two do, 1 (sheet) iff only the largest does, 0 (void) iff none does;
it never increases with the threshold. -/
theorem C71_type (l : α × α × α) (h1 : l.1 ≤ l.2.1) (h2 : l.2.1 ≤ l.2.2) (th : α) :
    countAbove l th ≤ 3 ∧
    (countAbove l th = 3 ↔ th < l.1) ∧ (countAbove l th = 2 ↔ l.1 ≤ th ∧ th < l.2.1) ∧
    (countAbove l th = 1 ↔ l.2.1 ≤ th ∧ th < l.2.2) ∧ (countAbove l th = 0 ↔ l.2.2 ≤ th) ∧
    ∀ th', th ≤ th' → countAbove l th' ≤ countAbove l th := by
  have e : ∀ t, countAbove l t = if t < l.1 then 3 else if t < l.2.1 then 2 else if t < l.2.2 then 1 else 0 := by
    intro t
    unfold countAbove
    simp only [gt_iff_lt]
    by_cases a : t < l.1
    · have b : t < l.2.1 := lt_of_lt_of_le a h1
      have c : t < l.2.2 := lt_of_lt_of_le b h2
      simp [a, b, c]
    · by_cases b : t < l.2.1
      · have c : t < l.2.2 := lt_of_lt_of_le b h2
        simp [a, b, c]
      · by_cases c : t < l.2.2 <;> simp [a, b, c]
  refine ⟨?_, ?_, ?_, ?_, ?_, ?_⟩
  · rw [e]; split_ifs <;> omega
  · rw [e]
    by_cases a : th < l.1
    · simp [a]
    · simp only [a, if_false, iff_false]; split_ifs <;> simp
  · rw [e]
    by_cases a : th < l.1
    · simp [a]
    · by_cases b : th < l.2.1
      · simp [a, b, not_lt.mp a]
      · simp only [a, b, if_false, and_false, iff_false]; split_ifs <;> simp
  · rw [e]
    by_cases a : th < l.1
    · have := lt_of_lt_of_le a h1
      simp [a, this]
    · by_cases b : th < l.2.1
      · simp [a, b]
      · by_cases c : th < l.2.2
        · simp [a, b, c, not_lt.mp b]
        · simp [a, b, c]
  · rw [e]
    by_cases c : th < l.2.2
    · simp only [c, if_true, not_le.mpr c, iff_false]; split_ifs <;> simp
    · have b : ¬ th < l.2.1 := fun h => c (lt_of_lt_of_le h h2)
      have a : ¬ th < l.1 := fun h => b (lt_of_lt_of_le h h1)
      simp [a, b, c, not_lt.mp c]
  · intro th' hle
    unfold countAbove
    simp only [gt_iff_lt]
    have m1 : th' < l.1 → th < l.1 := fun h => lt_of_le_of_lt hle h
    have m2 : th' < l.2.1 → th < l.2.1 := fun h => lt_of_le_of_lt hle h
    have m3 : th' < l.2.2 → th < l.2.2 := fun h => lt_of_le_of_lt hle h
    split_ifs <;> first | omega | tauto

/-- C71: `grid_points_of_web_type` lists, for each of the eight names, exactly the nodes that
`web_type_at` gives that type; any other name is a KeyError. -/
theorem C71_grid_points (c : Classifier α) (hm : c.mesh.OK) (name : String) (t : Nat) (ht : webTypes name = .ok t) :
    ∃ pts, gridPoints c name = .ok pts ∧
      (∀ x ∈ pts, webTypeAt c x = t) ∧
      ∀ i j k : Nat, i < c.mesh.nGrids → j < c.mesh.nGrids → k < c.mesh.nGrids →
        (((i : α) * c.mesh.lGrid, (j : α) * c.mesh.lGrid, (k : α) * c.mesh.lGrid) ∈ pts ↔
          webTypeAt c ((i : α) * c.mesh.lGrid, (j : α) * c.mesh.lGrid, (k : α) * c.mesh.lGrid) = t) := by
  have hl := hm.lGrid_pos
  have hnode : ∀ i : Int, 0 ≤ i → i < c.mesh.nGrids → c.mesh.xToXi ((i : α) * c.mesh.lGrid) = i := by
    intro i h0 h1
    rw [C67_node c.mesh hm, Int.emod_eq_of_lt h0 h1]
  refine ⟨_, by simp only [gridPoints, ht, bind, Except.bind, pure, Except.pure]; rfl, ?_, ?_⟩
  · intro x hx
    obtain ⟨q, hq, rfl⟩ := List.mem_map.mp hx
    obtain ⟨hq1, hq2⟩ := List.mem_filter.mp hq
    obtain ⟨⟨a1, a2⟩, ⟨b1, b2⟩, c1, c2⟩ := (mem_cells _ _).mp hq1
    simp only [webTypeAt, hnode _ a1 a2, hnode _ b1 b2, hnode _ c1 c2]
    simpa using hq2
  · intro i j k hi hj hk
    have ni := hnode (i : Int) (by omega) (by omega)
    have nj := hnode (j : Int) (by omega) (by omega)
    have nk := hnode (k : Int) (by omega) (by omega)
    simp only [Int.cast_natCast] at ni nj nk
    simp only [webTypeAt, ni, nj, nk]
    constructor
    · intro hx
      obtain ⟨q, hq, he⟩ := List.mem_map.mp hx
      obtain ⟨hq1, hq2⟩ := List.mem_filter.mp hq
      obtain ⟨⟨a1, a2⟩, ⟨b1, b2⟩, c1, c2⟩ := (mem_cells _ _).mp hq1
      simp only [Prod.mk.injEq] at he
      have e1 := hnode _ a1 a2
      have e2 := hnode _ b1 b2
      have e3 := hnode _ c1 c2
      rw [he.1, ni] at e1
      rw [he.2.1, nj] at e2
      rw [he.2.2, nk] at e3
      rw [e1, e2, e3]
      simpa using hq2
    · intro h
      refine List.mem_map.mpr ⟨((i : Int), (j : Int), (k : Int)), List.mem_filter.mpr ⟨?_, by simpa using h⟩, by simp⟩
      exact (mem_cells _ _).mpr ⟨by simp; omega, by simp; omega, by simp; omega⟩

/-- C71: at any position, `lam_at` gives the eigenvalues of the nearest node (C67) along each axis, and
the web type there is the number of these eigenvalues above the threshold. -/
theorem C71_lam_at (lam : Cube (α × α × α)) (nLam : Nat) (mesh : Mesh α) (th : α) (c : Classifier α)
    (hc : classifierInit lam nLam mesh th = .ok c) (x : Vec3 α) :
    lamAt c x = lam (mesh.xToXi x.1) (mesh.xToXi x.2.1) (mesh.xToXi x.2.2) ∧
    webTypeAt c x = countAbove (lamAt c x) th := by
  obtain ⟨h1, h2, h3⟩ := (C71_init lam nLam mesh th).2.2 c hc
  simp only [lamAt, webTypeAt, h1, h2, h3]
  exact ⟨trivial, trivial⟩

/-- C71: names. -/
theorem C71_names (name : String) :
    (webTypes name = .ok 3 ↔ name = "knot" ∨ name = "k") ∧ (webTypes name = .ok 2 ↔ name = "filament" ∨ name = "f") ∧
    (webTypes name = .ok 1 ↔ name = "sheet" ∨ name = "s") ∧ (webTypes name = .ok 0 ↔ name = "void" ∨ name = "v") ∧
    ((∀ t, webTypes name ≠ .ok t) → webTypes name = .error .keyError) := by
  unfold webTypes
  split_ifs <;> simp_all

/-- C71: the four fractions sum to 1. -/
theorem C71_fractions (lam : Cube (α × α × α)) (nLam : Nat) (mesh : Mesh α) (hm : mesh.OK) (th : α)
    (c : Classifier α) (hc : classifierInit lam nLam mesh th = .ok c) :
    fraction c 3 + fraction c 2 + fraction c 1 + fraction c 0 = 1 ∧
    ∀ t, 0 ≤ fraction c t ∧ fraction c t ≤ 1 := by
  obtain ⟨hmesh, hlam, hn⟩ := (C71_init lam nLam mesh th).2.2 c hc
  have hle : ∀ i j k, c.nLams i j k ≤ 3 := by
    intro i j k
    rw [hn]; unfold countAbove; split_ifs <;> omega
  have hN : (0 : α) < ((c.mesh.nGrids ^ 3 : Nat) : α) := by
    rw [hmesh]; exact_mod_cast pow_pos hm.1 3
  have key : ∀ L : List (Int × Int × Int), L.countP (fun q => c.nLams q.1 q.2.1 q.2.2 == 3) +
      L.countP (fun q => c.nLams q.1 q.2.1 q.2.2 == 2) + L.countP (fun q => c.nLams q.1 q.2.1 q.2.2 == 1) +
      L.countP (fun q => c.nLams q.1 q.2.1 q.2.2 == 0) = L.length := by
    intro L
    induction L with
    | nil => rfl
    | cons q t ih =>
        have h := hle q.1 q.2.1 q.2.2
        simp only [List.countP_cons, List.length_cons, beq_iff_eq]
        generalize c.nLams q.1 q.2.1 q.2.2 = v at h
        have : v = 0 ∨ v = 1 ∨ v = 2 ∨ v = 3 := by omega
        rcases this with rfl | rfl | rfl | rfl <;> simp <;> omega
  constructor
  · unfold fraction
    rw [← add_div, ← add_div, ← add_div, div_eq_one_iff_eq hN.ne']
    have := key (cells c.mesh.nGrids)
    rw [cells_length] at this
    exact_mod_cast this
  · intro t
    unfold fraction
    refine ⟨div_nonneg (by positivity) hN.le, (div_le_one hN).mpr ?_⟩
    have := List.countP_le_length (p := fun q => c.nLams q.1 q.2.1 q.2.2 == t) (l := cells c.mesh.nGrids)
    rw [cells_length] at this
    exact_mod_cast this

example : ∃ c, classifierInit (fun _ _ _ => ((-1 : ℚ), 0, 2)) 2 ⟨2, 1⟩ 0 = .ok c ∧ c.nLams 0 1 1 = 1 := ⟨_, rfl, by decide +kernel⟩
example : webTypes "f" = .ok 2 := by rfl
end
end Pyhipp.CubicBox
