import Verif.Model.FloatMesh
import Verif.Props.Neighbor
import Verif.Props.FloatBins
import Verif.Props.FloatBox
/-
C123, C124: meshes, neighbour search and cloud-in-cell weights in double precision.
-/
namespace Pyhipp.FloatMesh
open Pyhipp F64
open Pyhipp.Neighbor (scan firstsFrom pyRange slice SortOK countP_split firstsFrom_eq code code_inj code_range mod_range getD_map_lt
  map_getD_perm sum_map_ite flatten_flatMap' mem_pyRange countP_pyRange_le_one)

/-! ### The cell table -/

/-- C123: cell numbers are valid for every double, whatever the machine does with NaN and infinities: `x_to_xi` is an index of the mesh,
and the cell code is one of the n³ cells. -/
theorem C123_index (bad : Num → ℤ) (m : Mesh) (hn : 0 < m.n) :
    (∀ x, 0 ≤ xToXi bad m x ∧ xToXi bad m x < m.n) ∧ ∀ x, 0 ≤ x2xif bad m x ∧ x2xif bad m x < ((m.n ^ 3 : Nat) : Int) :=
  ⟨fun _ => mod_range _ hn _, fun _ => code_range _ _ _ _ (mod_range _ hn _) (mod_range _ hn _) (mod_range _ hn _)⟩

theorem build_facts (bad : Num → ℤ) (asort : List Int → List Nat) (ha : SortOK asort) (m : Mesh) (hn : 0 < m.n) (xs : List Point) :
    (build bad asort m xs).xs.Perm xs ∧ ((build bad asort m xs).xs.map (x2xif bad m)).Pairwise (· ≤ ·) ∧
    (build bad asort m xs).cellFirsts = (List.range (m.n ^ 3 + 1)).map (fun (c : Nat) =>
      (build bad asort m xs).xs.countP (fun x => decide (x2xif bad m x < (c : Int)))) := by
  obtain ⟨hp, hsrt⟩ := ha (xs.map (x2xif bad m))
  rw [List.length_map] at hp
  have hkey : (asort (xs.map (x2xif bad m))).map (fun a => (xs.map (x2xif bad m)).getD a 0) =
      ((asort (xs.map (x2xif bad m))).map (fun a => xs.getD a origin)).map (x2xif bad m) := by
    rw [List.map_map]
    apply List.map_congr_left
    intro a hma
    have hlt : a < xs.length := by simpa using hp.subset hma
    exact getD_map_lt _ _ _ _ _ hlt
  rw [hkey] at hsrt
  refine ⟨map_getD_perm xs _ _ hp, hsrt, ?_⟩
  simp only [build]
  rw [hkey]
  set xs' := (asort (xs.map (x2xif bad m))).map (fun a => xs.getD a origin) with hxs'
  rw [List.range_eq_range', firstsFrom_eq _ hsrt _ _ _ (Nat.zero_le _)]
  have hz : xs'.countP (fun x => decide (x2xif bad m x < ((0 : Nat) : Int))) = 0 := by
    rw [List.countP_eq_zero]
    intro x _
    have := ((C123_index bad m hn).2 x).1
    simp; omega
  rw [List.range_succ_eq_map, List.map_cons, hz]
  congr 1
  clear_value xs'
  rw [← List.range_eq_range']
  conv_rhs => rw [List.map_map]
  apply List.map_congr_left
  intro c _
  rw [List.countP_map]
  simp [Function.comp_def]

theorem slice_cell (bad : Num → ℤ) (asort : List Int → List Nat) (ha : SortOK asort) (m : Mesh) (hn : 0 < m.n) (xs : List Point)
    (c : Int) (h0 : 0 ≤ c) (h1 : c < ((m.n ^ 3 : Nat) : Int)) :
    cellPoints (build bad asort m xs) c = (build bad asort m xs).xs.filter (fun x => decide (x2xif bad m x = c)) := by
  obtain ⟨-, hs, hf⟩ := build_facts bad asort ha m hn xs
  set t := build bad asort m xs
  have hget : ∀ k : Nat, k < m.n ^ 3 + 1 → t.cellFirsts.getD k 0 = t.xs.countP (fun x => decide (x2xif bad m x < (k : Int))) := by
    intro k hk
    rw [hf, getD_map_lt _ _ _ 0 _ (by simpa using hk)]
    simp [List.getD, List.getElem?_range hk]
  unfold cellPoints slice
  rw [hget _ (by omega), hget _ (by omega)]
  have e0 : ((c.toNat : Nat) : Int) = c := Int.toNat_of_nonneg h0
  have e1 : (((c.toNat + 1 : Nat)) : Int) = c + 1 := by omega
  rw [e0, e1]
  rw [(countP_split (x2xif bad m) (c + 1) t.xs hs).1]
  have hs2 : ((t.xs.filter (fun x => decide (x2xif bad m x < c + 1))).map (x2xif bad m)).Pairwise (· ≤ ·) :=
    hs.sublist (List.filter_sublist.map _)
  have := (countP_split (x2xif bad m) c _ hs2).2
  have hc : (t.xs.filter (fun x => decide (x2xif bad m x < c + 1))).countP (fun x => decide (x2xif bad m x < c)) =
      t.xs.countP (fun x => decide (x2xif bad m x < c)) := by
    rw [List.countP_filter]
    congr 1
    funext x
    by_cases h : x2xif bad m x < c
    · have : x2xif bad m x < c + 1 := by omega
      simp [h, this]
    · simp [h]
  rw [hc] at this
  rw [this, List.filter_filter]
  congr 1
  funext x
  by_cases h : x2xif bad m x = c
  · simp [h]
  · by_cases h2 : x2xif bad m x < c + 1
    · have : ¬ c ≤ x2xif bad m x := by omega
      simp [h, this]
    · simp [h, h2]

/-- C123: the table built from any points — NaN and infinities included, on any machine, with any sorting permutation: the stored points are a
rearrangement of the input, and the slice of every cell holds exactly the points of that cell. -/
theorem C123_table (bad : Num → ℤ) (asort : List Int → List Nat) (ha : SortOK asort) (m : Mesh) (hn : 0 < m.n) (xs : List Point) :
    (build bad asort m xs).xs.Perm xs ∧ (build bad asort m xs).cellFirsts.length = m.n ^ 3 + 1 ∧
    (∀ c : Nat, c < m.n ^ 3 → (cellPoints (build bad asort m xs) c).Perm (xs.filter (fun x => decide (x2xif bad m x = (c : Int))))) := by
  obtain ⟨hp, -, hf⟩ := build_facts bad asort ha m hn xs
  refine ⟨hp, by rw [hf]; simp, fun c hc => ?_⟩
  rw [slice_cell bad asort ha m hn xs c (by omega) (by exact_mod_cast hc)]
  exact hp.filter _

/-! ### Queries -/

/-- All points passed to `q.on` for query `i`, over all its calls. -/
def reports (calls : List (Nat × List Point)) (i : Nat) : List Point := (calls.filter (fun c => decide (c.1 = i))).flatMap (·.2)

theorem filter_idx (f : Nat → List (List Point)) (i : Nat) (l : List Nat) (hn : l.Nodup) :
    (l.flatMap (fun j => (f j).map (fun c => (j, c)))).filter (fun c => decide (c.1 = i)) =
      if i ∈ l then (f i).map (fun c => (i, c)) else [] := by
  induction l with
  | nil => simp
  | cons a t ih =>
      rw [List.nodup_cons] at hn
      rw [List.flatMap_cons, List.filter_append, ih hn.2]
      by_cases h : a = i
      · subst h
        have : ((f a).map (fun c => (a, c))).filter (fun c => decide (c.1 = a)) = (f a).map (fun c => (a, c)) := by
          rw [List.filter_eq_self]; intro c hc
          obtain ⟨_, _, rfl⟩ := List.mem_map.mp hc
          simp
        simp [this, hn.1]
      · have : ((f a).map (fun c => (a, c))).filter (fun c => decide (c.1 = i)) = [] := by
          rw [List.filter_eq_nil_iff]; intro c hc
          obtain ⟨_, _, rfl⟩ := List.mem_map.mp hc
          simp [h]
        rw [this, List.nil_append]
        have h' : ¬ i = a := fun e => h e.symm
        simp [h']

theorem reports_eq (bad : Num → ℤ) (asort : List Int → List Nat) (ha : SortOK asort) (t : PE3) (qs : List Point) (rs : List Num)
    (i : Nat) : reports (queryPoints bad asort t qs rs) i =
      if i < qs.length then (query1 bad t (qs.getD i origin) (rs.getD i (.fin 0))).flatten else [] := by
  obtain ⟨hp, -⟩ := ha (qs.map (x2xif bad t.mesh))
  unfold reports queryPoints
  rw [filter_idx (fun i => query1 bad t (qs.getD i origin) (rs.getD i (.fin 0))) i _ (hp.nodup_iff.mpr List.nodup_range)]
  simp only [hp.mem_iff, List.length_map, List.mem_range]
  split_ifs
  · rw [List.flatMap_map]
    simp [List.flatMap_id']
  · rfl

/-- The number of cells of a window that wrap to the cell of `y`. -/
def hits (bad : Num → ℤ) (m : Mesh) (x r y : Num) : Nat :=
  (window bad m x r).countP (fun k => decide (k % m.n = x2xi bad m y % m.n))

theorem query1_count (bad : Num → ℤ) (asort : List Int → List Nat) (ha : SortOK asort) (m : Mesh) (hn : 0 < m.n) (xs : List Point)
    (x : Point) (r : Num) (y : Point) :
    (query1 bad (build bad asort m xs) x r).flatten.count y = xs.count y *
      (hits bad m x.1 r y.1 * hits bad m x.2.1 r y.2.1 * hits bad m x.2.2 r y.2.2) := by
  obtain ⟨hp, -, -⟩ := build_facts bad asort ha m hn xs
  have hcell : ∀ i0 i1 i2 : Int, (cellPoints (build bad asort m xs)
      ((i0 % m.n * m.n + i1 % m.n) * m.n + i2 % m.n)).count y =
      if decide (i0 % m.n = x2xi bad m y.1 % m.n) then
        (if decide (i1 % m.n = x2xi bad m y.2.1 % m.n) then
          (if decide (i2 % m.n = x2xi bad m y.2.2 % m.n) then xs.count y else 0) else 0) else 0 := by
    intro i0 i1 i2
    have hr := code_range m.n _ _ _ (mod_range _ hn i0) (mod_range _ hn i1) (mod_range _ hn i2)
    have := slice_cell bad asort ha m hn xs _ hr.1 hr.2
    rw [show (i0 % m.n * m.n + i1 % m.n) * m.n + i2 % m.n =
      code m.n (i0 % m.n) (i1 % m.n) (i2 % m.n) from rfl, this]
    have hiff := code_inj m.n _ _ _ (i0 % m.n) _ _ (mod_range _ hn (x2xi bad m y.1)) (mod_range _ hn (x2xi bad m y.2.1))
      (mod_range _ hn (x2xi bad m y.2.2)) (mod_range _ hn i1) (mod_range _ hn i2)
    rw [show code m.n (x2xi bad m y.1 % m.n) (x2xi bad m y.2.1 % m.n) (x2xi bad m y.2.2 % m.n) = x2xif bad m y from rfl] at hiff
    by_cases hy : x2xif bad m y = code m.n (i0 % m.n) (i1 % m.n) (i2 % m.n)
    · rw [List.count_filter (by simpa using hy), hp.count_eq]
      obtain ⟨e0, e1, e2⟩ := hiff.mp hy
      simp [e0, e1, e2]
    · rw [List.count_eq_zero.mpr (by
        intro hmem
        exact hy (by simpa using (List.mem_filter.mp hmem).2))]
      split_ifs with h0 h1 h2
      · exact absurd (hiff.mpr ⟨by simpa using (of_decide_eq_true h0).symm, by simpa using (of_decide_eq_true h1).symm, by simpa using (of_decide_eq_true h2).symm⟩) hy
      all_goals rfl
  unfold query1 hits
  have hmesh : (build bad asort m xs).mesh = m := rfl
  simp only [hmesh]
  rw [flatten_flatMap', List.count_flatMap]
  simp only [Function.comp_def, flatten_flatMap', List.count_flatMap, List.count_flatten, List.map_map, hcell]
  have s2 : ∀ (P Q : Bool) (l : List Int) (p : Int → Bool) (k : Nat),
      (l.map (fun b => if P then (if Q then (if p b then k else 0) else 0) else 0)).sum =
        if P then (if Q then l.countP p * k else 0) else 0 := by
    intro P Q l p k
    cases P <;> cases Q <;> simp [sum_map_ite]
  have s1 : ∀ (P : Bool) (l : List Int) (p : Int → Bool) (k : Nat),
      (l.map (fun b => if P then (if p b then k else 0) else 0)).sum =
        if P then l.countP p * k else 0 := by
    intro P l p k
    cases P <;> simp [sum_map_ite]
  simp only [s2, s1, sum_map_ite]
  ring

/-! ### Rounding of cell numbers -/

/-- Specification: a mesh of `n` cells (at most 2^20, so that n³ cells can be counted) on a box whose size `L` is a double, neither overflowing nor
with cells below 2^-1021. -/
structure Good (m : Mesh) (L : ℚ) : Prop where
  made : m = Mesh.new (.fin L) m.n
  n_pos : 0 < m.n
  n_le : m.n ≤ 2 ^ 20
  f : IsF L
  lo : m.n * 2 ^ (-1021 : ℤ) ≤ L
  hi : L ≤ 2 ^ 1023

/-- The exact width of a cell. -/
def width (m : Mesh) (L : ℚ) : ℚ := L / m.n

/-- The computed width of a cell. -/
def gridQ (m : Mesh) (L : ℚ) : ℚ := rnd (L / m.n)

variable {m : Mesh} {L : ℚ}

theorem Good.nq (h : Good m L) : (0 : ℚ) < m.n := by exact_mod_cast h.n_pos

theorem Good.width_ge (h : Good m L) : 2 ^ (-1021 : ℤ) ≤ width m L := by
  unfold width
  rw [le_div_iff₀ h.nq, mul_comm]
  exact h.lo

theorem Good.width_pos (h : Good m L) : 0 < width m L := lt_of_lt_of_le (pow_pos' _) h.width_ge

theorem Good.L_eq (h : Good m L) : L = m.n * width m L := by
  have := h.nq.ne'
  unfold width; field_simp

theorem Good.L_pos (h : Good m L) : 0 < L := by rw [h.L_eq]; exact mul_pos h.nq h.width_pos

theorem Good.grid_pos (h : Good m L) : 0 < gridQ m L :=
  lt_of_lt_of_le (pow_pos' (-1021)) (le_rnd h.width_ge (isF_pow (by norm_num)))

theorem Good.grid_bounds (h : Good m L) :
    width m L * (1 - 2 ^ (-53 : ℤ)) ≤ gridQ m L ∧ gridQ m L ≤ width m L * (1 + 2 ^ (-53 : ℤ)) := by
  refine FloatBins.rel_bounds (rnd_err ?_) h.width_pos.le
  show _ ≤ |width m L|
  rw [abs_of_pos h.width_pos]
  exact le_trans (zpow_le_zpow_right₀ (by norm_num) (by norm_num)) h.width_ge

theorem Good.n_num (h : Good m L) : ofQ m.n = .fin m.n := by
  have h1 : |((m.n : ℤ))| ≤ 2 ^ 53 := by
    have := h.n_le
    rw [abs_of_nonneg (by omega)]
    norm_num at this ⊢
    omega
  have h2 : IsF (m.n : ℚ) := by simpa using isF_int h1
  rw [ofQ_fin_le (y := m.n) (by rw [abs_of_pos h.nq]) h2, h2]
  have : (m.n : ℚ) ≤ 2 ^ 20 := by exact_mod_cast h.n_le
  exact lt_of_le_of_lt this (pow_lt_pow_right₀ (by norm_num) (by norm_num))

theorem Good.grid (h : Good m L) : m.lGrid = .fin (gridQ m L) := by
  rw [h.made]
  show Num.div (.fin L) (ofQ m.n) = .fin (gridQ m L)
  rw [h.n_num]
  simp only [Num.div, if_neg h.nq.ne']
  refine ofQ_fin_le (y := L) ?_ h.f (lt_of_le_of_lt h.hi FloatBins.lt1024)
  have : 0 < L / m.n := h.width_pos
  rw [abs_of_pos this, div_le_iff₀ h.nq]
  have h1 : (1 : ℚ) ≤ m.n := by exact_mod_cast h.n_pos
  exact le_mul_of_one_le_right h.L_pos.le h1

/-- One rounding: relative error 2^-53 plus half the smallest double. -/
theorem rnd_err_all (q : ℚ) : |rnd q - q| ≤ 2 ^ (-53 : ℤ) * |q| + 2 ^ (-1075 : ℤ) := by
  have hp := pow_pos' (-1075)
  rcases le_or_gt (2 ^ (-1022 : ℤ)) |q| with h | h
  · linarith [rnd_err h]
  · by_cases h0 : q = 0
    · subst h0; rw [rnd_zero, sub_self, abs_zero, mul_zero, zero_add]; exact hp.le
    · have he : expo q ≤ -1074 := expo_le_of_lt (by norm_num) (by
        refine lt_of_lt_of_le h (zpow_le_zpow_right₀ (by norm_num) (by norm_num))) h0
      have h2 := rnd_err_ulp q
      have h3 : (2 : ℚ) ^ expo q ≤ 2 ^ (-1074 : ℤ) := zpow_le_zpow_right₀ (by norm_num) he
      have h4 : (2 : ℚ) ^ (-1074 : ℤ) = 2 * 2 ^ (-1075 : ℤ) := by
        rw [show (-1074 : ℤ) = 1 + -1075 by norm_num, zpow_add₀ (by norm_num), zpow_one]
      have h5 : 0 ≤ 2 ^ (-53 : ℤ) * |q| := mul_nonneg (pow_pos' _).le (abs_nonneg _)
      linarith

theorem quot_err (h : Good m L) (v : ℚ) : |v / gridQ m L - v / width m L| ≤ 2 ^ (-52 : ℤ) * |v / width m L| := by
  have hg := h.grid_pos
  have hw := h.width_pos
  obtain ⟨b1, b2⟩ := h.grid_bounds
  have e : v / gridQ m L - v / width m L = (v / width m L) * ((width m L - gridQ m L) / gridQ m L) := by field_simp
  rw [e, abs_mul, mul_comm]
  refine mul_le_mul_of_nonneg_right ?_ (abs_nonneg _)
  rw [abs_div, abs_of_pos hg, div_le_iff₀ hg, abs_le]
  have he : (2 : ℚ) ^ (-52 : ℤ) = 2 * 2 ^ (-53 : ℤ) := by norm_num
  have hu : (2 : ℚ) ^ (-53 : ℤ) ≤ 1 / 2 := by norm_num
  have hu0 := pow_pos' (-53)
  rw [he]
  generalize (2 : ℚ) ^ (-53 : ℤ) = u at *
  have h1 : width m L * (u * (1 / 2)) ≤ u * gridQ m L := by
    have : u * (width m L * (1 - u)) ≤ u * gridQ m L := mul_le_mul_of_nonneg_left b1 hu0.le
    have h3 : width m L * u * (1 / 2) ≤ width m L * u * (1 - u) := mul_le_mul_of_nonneg_left (by linarith) (mul_pos hw hu0).le
    linarith
  constructor <;> nlinarith

/-- The computed position in units of cells. -/
def posQ (m : Mesh) (L v : ℚ) : ℚ := rnd (v / gridQ m L)

/-- The computed position differs from the exact one by at most 2^-51 of it, plus half the smallest double. -/
theorem pos_err (h : Good m L) (v : ℚ) : |posQ m L v - v / width m L| ≤ 2 ^ (-51 : ℤ) * |v / width m L| + 2 ^ (-1075 : ℤ) := by
  have h1 := quot_err h v
  have h2 := rnd_err_all (v / gridQ m L)
  unfold posQ
  generalize v / gridQ m L = q at *
  generalize v / width m L = p at *
  have h3 : |q| ≤ |p| + 2 ^ (-52 : ℤ) * |p| := by
    have := abs_add_le (q - p) p
    rw [sub_add_cancel] at this
    linarith
  have h4 : |rnd q - p| ≤ |rnd q - q| + |q - p| := by
    have := abs_add_le (rnd q - q) (q - p)
    rwa [sub_add_sub_cancel] at this
  have hp := abs_nonneg p
  have e1 : (2 : ℚ) ^ (-53 : ℤ) * |q| ≤ 2 ^ (-53 : ℤ) * (|p| + 2 ^ (-52 : ℤ) * |p|) := mul_le_mul_of_nonneg_left h3 (pow_pos' _).le
  have e2 : (2 : ℚ) ^ (-53 : ℤ) * (|p| + 2 ^ (-52 : ℤ) * |p|) + 2 ^ (-52 : ℤ) * |p| ≤ 2 ^ (-51 : ℤ) * |p| := by
    have : (2 : ℚ) ^ (-53 : ℤ) * (1 + 2 ^ (-52 : ℤ)) + 2 ^ (-52 : ℤ) ≤ 2 ^ (-51 : ℤ) := by norm_num
    have := mul_le_mul_of_nonneg_right this hp
    linarith
  generalize (2 : ℚ) ^ (-1075 : ℤ) = t at *
  linarith

theorem posQ_mono (h : Good m L) {x y : ℚ} (hxy : x ≤ y) : posQ m L x ≤ posQ m L y :=
  rnd_mono (div_le_div_of_nonneg_right hxy h.grid_pos.le)

/-- `v` is at most 2^61 cells from 0. -/
def Near (m : Mesh) (L v : ℚ) : Prop := |v| ≤ 2 ^ 61 * width m L

theorem near_quot (h : Good m L) {v : ℚ} (hv : Near m L v) : |v / gridQ m L| ≤ 2 ^ 62 := by
  obtain ⟨b1, -⟩ := h.grid_bounds
  have hw := h.width_pos
  rw [abs_div, abs_of_pos h.grid_pos, div_le_iff₀ h.grid_pos]
  have h1 : width m L * (1 / 2) ≤ width m L * (1 - 2 ^ (-53 : ℤ)) := mul_le_mul_of_nonneg_left (by norm_num) hw.le
  unfold Near at hv
  generalize width m L * (1 - 2 ^ (-53 : ℤ)) = c at *
  linarith

theorem pow62 : IsF ((2 : ℚ) ^ 62) := by
  have := isF_pow (e := 62) (by norm_num)
  exact_mod_cast this

theorem div_num (h : Good m L) {v : ℚ} (hv : Near m L v) : Num.div (.fin v) m.lGrid = .fin (posQ m L v) := by
  rw [h.grid]
  simp only [Num.div, if_neg h.grid_pos.ne']
  exact ofQ_fin_le (near_quot h hv) pow62 (pow_lt_pow_right₀ (by norm_num) (by norm_num))

theorem pos_le (h : Good m L) {v : ℚ} (hv : Near m L v) : |posQ m L v| ≤ 2 ^ 62 := by
  unfold posQ
  rw [rnd_abs]
  exact rnd_le (near_quot h hv) pow62

theorem toInt_floor (bad : Num → ℤ) {q : ℚ} (hq : |q| ≤ 2 ^ 62) : Num.toInt64 bad (Num.floor (.fin q)) = ⌊q⌋ := by
  rw [abs_le] at hq
  have h1 : (-2 ^ 62 : ℤ) ≤ ⌊q⌋ := by rw [Int.le_floor]; push_cast; exact hq.1
  have h2 : (⌊q⌋ : ℤ) ≤ 2 ^ 62 := by
    have := Int.floor_le q
    have : (⌊q⌋ : ℚ) ≤ 2 ^ 62 := le_trans this hq.2
    exact_mod_cast this
  have h3 : -2 ^ 63 ≤ ((⌊q⌋ : ℤ) : ℚ) ∧ ((⌊q⌋ : ℤ) : ℚ) < 2 ^ 63 := by
    constructor
    · have : (-2 ^ 63 : ℤ) ≤ ⌊q⌋ := by norm_num at h1 ⊢; omega
      exact_mod_cast this
    · have : (⌊q⌋ : ℤ) < 2 ^ 63 := by norm_num at h2 ⊢; omega
      exact_mod_cast this
  simp only [Num.floor, Num.toInt64, if_pos h3, Int.floor_intCast, Int.ceil_intCast, ite_self]

/-- The cell number of a double. -/
theorem x2xi_eq (h : Good m L) (bad : Num → ℤ) {v : ℚ} (hv : Near m L v) : x2xi bad m (.fin v) = ⌊posQ m L v⌋ := by
  unfold x2xi
  rw [div_num h hv, toInt_floor bad (pos_le h hv)]

/-- C123: cell numbers are monotone in the coordinate, in spite of rounding. -/
theorem C123_monotone (h : Good m L) (bad : Num → ℤ) {x y : ℚ} (hxy : x ≤ y) (hx : Near m L x) (hy : Near m L y) :
    x2xi bad m (.fin x) ≤ x2xi bad m (.fin y) := by
  rw [x2xi_eq h bad hx, x2xi_eq h bad hy]
  exact Int.floor_le_floor (posQ_mono h hxy)

/-- Specification: finite doubles: a query coordinate `x`, a radius `r` and a stored coordinate `y` within 2^60 cells. -/
structure AxisOK (m : Mesh) (L x r y : ℚ) : Prop where
  fx : IsF x
  fr : IsF r
  fy : IsF y
  r_nonneg : 0 ≤ r
  near_x : |x| + r ≤ 2 ^ 60 * width m L
  near_y : |y| ≤ 2 ^ 60 * width m L
  fin_x : |x| + r ≤ 2 ^ 1023

theorem end_num {x r M : ℚ} (hr : 0 ≤ r) (hM : IsF M) (hM2 : M < 2 ^ 1024) (h : |x| + r ≤ M) :
    Num.sub (.fin x) (.fin r) = .fin (rnd (x - r)) ∧ Num.add (.fin x) (.fin r) = .fin (rnd (x + r)) := by
  have h1 := abs_le.mp (le_refl |x|)
  constructor
  · show ofQ (x + -r) = _
    rw [← sub_eq_add_neg]
    refine ofQ_fin_le (y := M) ?_ hM hM2
    rw [abs_le]; constructor <;> linarith
  · show ofQ (x + r) = _
    refine ofQ_fin_le (y := M) ?_ hM hM2
    rw [abs_le]; constructor <;> linarith

theorem near_rnd (h : Good m L) {d : ℚ} (he : |rnd d - d| ≤ 2 ^ (-53 : ℤ) * |d|) (hd : |d| ≤ 2 ^ 60 * width m L) : Near m L (rnd d) := by
  unfold Near
  have h1 : |rnd d| ≤ |rnd d - d| + |d| := by
    have := abs_add_le (rnd d - d) d
    rwa [sub_add_cancel] at this
  have h2 : (2 : ℚ) ^ (-53 : ℤ) * |d| ≤ 1 * |d| := mul_le_mul_of_nonneg_right (by norm_num) (abs_nonneg _)
  linarith

/-- The computed position of an end of the window. -/
theorem end_err (h : Good m L) {d : ℚ} (he : |rnd d - d| ≤ 2 ^ (-53 : ℤ) * |d|) :
    |posQ m L (rnd d) - d / width m L| ≤ 6 * 2 ^ (-53 : ℤ) * (|d| / width m L) + 2 ^ (-1075 : ℤ) := by
  have hw := h.width_pos
  have h1 := pos_err h (rnd d)
  have h2 : |rnd d / width m L - d / width m L| ≤ 2 ^ (-53 : ℤ) * (|d| / width m L) := by
    rw [← sub_div, abs_div, abs_of_pos hw, ← mul_div_assoc]
    exact div_le_div_of_nonneg_right he hw.le
  have h3 : |rnd d / width m L| ≤ |d| / width m L + 2 ^ (-53 : ℤ) * (|d| / width m L) := by
    have := abs_add_le (rnd d / width m L - d / width m L) (d / width m L)
    rw [sub_add_cancel, abs_div d, abs_of_pos hw] at this
    linarith
  have h4 : |posQ m L (rnd d) - d / width m L| ≤ |posQ m L (rnd d) - rnd d / width m L| + |rnd d / width m L - d / width m L| := by
    have := abs_add_le (posQ m L (rnd d) - rnd d / width m L) (rnd d / width m L - d / width m L)
    rwa [sub_add_sub_cancel] at this
  have hp : 0 ≤ |d| / width m L := div_nonneg (abs_nonneg _) hw.le
  generalize |d| / width m L = p at *
  have h5 : (2 : ℚ) ^ (-51 : ℤ) * |rnd d / width m L| ≤ 2 ^ (-51 : ℤ) * (p + 2 ^ (-53 : ℤ) * p) :=
    mul_le_mul_of_nonneg_left h3 (pow_pos' _).le
  have h6 : (2 : ℚ) ^ (-51 : ℤ) * (p + 2 ^ (-53 : ℤ) * p) + 2 ^ (-53 : ℤ) * p ≤ 6 * 2 ^ (-53 : ℤ) * p := by
    have : (2 : ℚ) ^ (-51 : ℤ) * (1 + 2 ^ (-53 : ℤ)) + 2 ^ (-53 : ℤ) ≤ 6 * 2 ^ (-53 : ℤ) := by norm_num
    have := mul_le_mul_of_nonneg_right this hp
    linarith
  generalize (2 : ℚ) ^ (-1075 : ℤ) = t at *
  linarith

theorem ends (h : Good m L) (bad : Num → ℤ) {x r y : ℚ} (hA : AxisOK m L x r y) :
    x2xi bad m (Num.sub (.fin x) (.fin r)) = ⌊posQ m L (rnd (x - r))⌋ ∧
    x2xi bad m (Num.add (.fin x) (.fin r)) = ⌊posQ m L (rnd (x + r))⌋ ∧ x2xi bad m (.fin y) = ⌊posQ m L y⌋ ∧
    |rnd (x - r) - (x - r)| ≤ 2 ^ (-53 : ℤ) * |x - r| ∧ |rnd (x + r) - (x + r)| ≤ 2 ^ (-53 : ℤ) * |x + r| ∧
    |x - r| ≤ |x| + r ∧ |x + r| ≤ |x| + r := by
  obtain ⟨e1, e2⟩ := end_num hA.r_nonneg FloatBins.pow1023 FloatBins.lt1024 hA.fin_x
  have a1 := rnd_sub_err hA.fx hA.fr
  have a2 := rnd_sub_err hA.fx hA.fr.neg
  rw [sub_neg_eq_add] at a2
  have h1 := abs_le.mp (le_refl |x|)
  have h2 := hA.r_nonneg
  have b1 : |x - r| ≤ |x| + r := by rw [abs_le]; constructor <;> linarith
  have b2 : |x + r| ≤ |x| + r := by rw [abs_le]; constructor <;> linarith
  have hw := h.width_pos
  refine ⟨?_, ?_, ?_, a1, a2, b1, b2⟩
  · rw [e1, x2xi_eq h bad (near_rnd h a1 (le_trans b1 hA.near_x))]
  · rw [e2, x2xi_eq h bad (near_rnd h a2 (le_trans b2 hA.near_x))]
  · refine x2xi_eq h bad ?_
    have := hA.near_y
    unfold Near
    linarith

/-- A coordinate within `r` is covered by the window, with no margin. -/
theorem hit_direct (h : Good m L) (bad : Num → ℤ) {x r y : ℚ} (hA : AxisOK m L x r y) (hd : |x - y| ≤ r) :
    0 < hits bad m (.fin x) (.fin r) (.fin y) := by
  obtain ⟨e1, e2, e3, -⟩ := ends h bad hA
  rw [abs_le] at hd
  unfold hits
  rw [List.countP_pos_iff]
  refine ⟨x2xi bad m (.fin y), ?_, by simp⟩
  unfold window
  rw [mem_pyRange, e1, e2, e3]
  have m1 := Int.floor_le_floor (posQ_mono h (rnd_le (show x - r ≤ y by linarith) hA.fy))
  have m2 := Int.floor_le_floor (posQ_mono h (le_rnd (show y ≤ x + r by linarith) hA.fy))
  omega

/-- Specification: the margin lost to rounding. -/
def margin (x r y : ℚ) : ℚ := 2 ^ (-50 : ℤ) * (|x| + |y| + r)

theorem scale_lo {a b d w t u e1 e2 p1 p2 : ℚ} (hw : 0 < w) (h1 : |p1 - d / w| ≤ 6 * u * (a / w) + t) (h2 : |p2 - e1 / w| ≤ 4 * u * (b / w) + t)
    (h : d + 6 * u * a + 4 * u * b + 2 * t * w ≤ e1 + e2 * w) : p1 ≤ p2 + e2 := by
  have h3 := (abs_le.mp h1).2
  have h4 := (abs_le.mp h2).1
  have h5 : d / w + 6 * u * (a / w) + 4 * u * (b / w) + 2 * t ≤ e1 / w + e2 := by
    have e : d / w + 6 * u * (a / w) + 4 * u * (b / w) + 2 * t = (d + 6 * u * a + 4 * u * b + 2 * t * w) / w := by field_simp
    have e' : e1 / w + e2 = (e1 + e2 * w) / w := by field_simp
    rw [e, e']
    exact div_le_div_of_nonneg_right h hw.le
  linarith

theorem scale_hi {a b d w t u e1 e2 p1 p2 : ℚ} (hw : 0 < w) (h1 : |p1 - d / w| ≤ 6 * u * (a / w) + t) (h2 : |p2 - e1 / w| ≤ 4 * u * (b / w) + t)
    (h : e1 + e2 * w + 6 * u * a + 4 * u * b + 2 * t * w ≤ d) : p2 + e2 ≤ p1 := by
  have h3 := (abs_le.mp h1).1
  have h4 := (abs_le.mp h2).2
  have h5 : e1 / w + e2 + 6 * u * (a / w) + 4 * u * (b / w) + 2 * t ≤ d / w := by
    have e : e1 / w + e2 + 6 * u * (a / w) + 4 * u * (b / w) + 2 * t = (e1 + e2 * w + 6 * u * a + 4 * u * b + 2 * t * w) / w := by field_simp
    rw [e]
    exact div_le_div_of_nonneg_right h hw.le
  linarith

theorem pos_err4 (h : Good m L) (v : ℚ) : |posQ m L v - v / width m L| ≤ 4 * 2 ^ (-53 : ℤ) * (|v| / width m L) + 2 ^ (-1075 : ℤ) := by
  have := pos_err h v
  rw [abs_div, abs_of_pos h.width_pos, show (2 : ℚ) ^ (-51 : ℤ) = 4 * 2 ^ (-53 : ℤ) by norm_num] at this
  exact this

theorem tiny_split : (2 : ℚ) ^ (-1075 : ℤ) = 2 ^ (-55 : ℤ) * 2 ^ (-1020 : ℤ) := by rw [← zpow_add₀ (by norm_num)]; norm_num

/-- An image within `r` minus the margin is covered by the window. -/
theorem hit_wrap (h : Good m L) (bad : Num → ℤ) {x r y : ℚ} (hA : AxisOK m L x r y) (hr : 2 ^ (-1020 : ℤ) * width m L ≤ r) (s : ℤ)
    (hd : |x - (y + s * L)| + margin x r y ≤ r) : 0 < hits bad m (.fin x) (.fin r) (.fin y) := by
  obtain ⟨e1, e2, e3, a1, a2, b1, b2⟩ := ends h bad hA
  have hw := h.width_pos
  have hy0 := abs_nonneg y
  have hx0 := abs_nonneg x
  have hr0 := hA.r_nonneg
  unfold margin at hd
  have hd1 := abs_le.mp (show |x - (y + s * L)| ≤ r - 2 ^ (-50 : ℤ) * (|x| + |y| + r) by linarith)
  have hL : (s : ℚ) * L = (s * m.n) * width m L := by
    conv_lhs => rw [h.L_eq]
    ring
  have ht : 2 * (2 : ℚ) ^ (-1075 : ℤ) * width m L ≤ 2 ^ (-53 : ℤ) * r := by
    rw [tiny_split]
    have : (2 : ℚ) ^ (-55 : ℤ) * (2 ^ (-1020 : ℤ) * width m L) ≤ 2 ^ (-55 : ℤ) * r := mul_le_mul_of_nonneg_left hr (pow_pos' _).le
    have h2 : (2 : ℚ) ^ (-55 : ℤ) * r * 2 ≤ 2 ^ (-53 : ℤ) * r := by
      have : (2 : ℚ) ^ (-55 : ℤ) * 2 ≤ 2 ^ (-53 : ℤ) := by norm_num
      have := mul_le_mul_of_nonneg_right this hr0
      linarith
    linarith
  have hu := pow_pos' (-53)
  have e50 : (2 : ℚ) ^ (-50 : ℤ) = 8 * 2 ^ (-53 : ℤ) := by norm_num
  rw [e50] at hd1
  have p1 := end_err h a1
  have p2 := end_err h a2
  have p3 := pos_err4 h y
  have hb1 : 2 ^ (-53 : ℤ) * |x - r| ≤ 2 ^ (-53 : ℤ) * (|x| + r) := mul_le_mul_of_nonneg_left b1 hu.le
  have hb2 : 2 ^ (-53 : ℤ) * |x + r| ≤ 2 ^ (-53 : ℤ) * (|x| + r) := mul_le_mul_of_nonneg_left b2 hu.le
  have hux : 0 ≤ 2 ^ (-53 : ℤ) * |x| := mul_nonneg hu.le hx0
  have huy : 0 ≤ 2 ^ (-53 : ℤ) * |y| := mul_nonneg hu.le hy0
  have hur : 0 ≤ 2 ^ (-53 : ℤ) * r := mul_nonneg hu.le hr0
  rw [hL] at hd1
  have lo := scale_lo (e2 := ((s * m.n : ℤ) : ℚ)) hw p1 p3 (by
    push_cast
    generalize 2 * (2 : ℚ) ^ (-1075 : ℤ) * width m L = t at *
    generalize (2 : ℚ) ^ (-53 : ℤ) = u at *
    linarith [hd1.1, hd1.2])
  have hi := scale_hi (e2 := ((s * m.n : ℤ) : ℚ)) hw p2 p3 (by
    push_cast
    generalize 2 * (2 : ℚ) ^ (-1075 : ℤ) * width m L = t at *
    generalize (2 : ℚ) ^ (-53 : ℤ) = u at *
    linarith [hd1.1, hd1.2])
  unfold hits
  rw [List.countP_pos_iff]
  refine ⟨x2xi bad m (.fin y) + s * m.n, ?_, by simp⟩
  unfold window
  rw [mem_pyRange, e1, e2, e3]
  have f1 := Int.floor_le_floor lo
  have f2 := Int.floor_le_floor hi
  rw [Int.floor_add_intCast] at f1 f2
  omega

/-- What is covered is within `r` and one cell and the margin. -/
theorem hit_near (h : Good m L) (bad : Num → ℤ) {x r y : ℚ} (hA : AxisOK m L x r y)
    (hh : 0 < hits bad m (.fin x) (.fin r) (.fin y)) :
    ∃ s : ℤ, |x - (y + s * L)| < r + width m L + margin x r y + 2 ^ (-1074 : ℤ) * width m L := by
  obtain ⟨e1, e2, e3, a1, a2, b1, b2⟩ := ends h bad hA
  have hw := h.width_pos
  unfold hits at hh
  rw [List.countP_pos_iff] at hh
  obtain ⟨k, hk, e⟩ := hh
  unfold window at hk
  rw [mem_pyRange, e1, e2] at hk
  have e : k % m.n = x2xi bad m (.fin y) % m.n := by simpa using e
  have hdv : ((m.n : Nat) : Int) ∣ k - x2xi bad m (.fin y) := Int.ModEq.dvd (Int.ModEq.symm e)
  obtain ⟨s, hs⟩ := hdv
  refine ⟨s, ?_⟩
  have hy0 := abs_nonneg y
  have hx0 := abs_nonneg x
  have hr0 := hA.r_nonneg
  have hL : (s : ℚ) * L = (s * m.n) * width m L := by
    conv_lhs => rw [h.L_eq]
    ring
  have hu := pow_pos' (-53)
  have hb1 : 2 ^ (-53 : ℤ) * |x - r| ≤ 2 ^ (-53 : ℤ) * (|x| + r) := mul_le_mul_of_nonneg_left b1 hu.le
  have hb2 : 2 ^ (-53 : ℤ) * |x + r| ≤ 2 ^ (-53 : ℤ) * (|x| + r) := mul_le_mul_of_nonneg_left b2 hu.le
  have hux : 0 ≤ 2 ^ (-53 : ℤ) * |x| := mul_nonneg hu.le hx0
  have huy : 0 ≤ 2 ^ (-53 : ℤ) * |y| := mul_nonneg hu.le hy0
  have hur : 0 ≤ 2 ^ (-53 : ℤ) * r := mul_nonneg hu.le hr0
  have e50 : (2 : ℚ) ^ (-50 : ℤ) = 8 * 2 ^ (-53 : ℤ) := by norm_num
  have h4 : (2 : ℚ) ^ (-1074 : ℤ) = 2 * 2 ^ (-1075 : ℤ) := by
    rw [show (-1074 : ℤ) = 1 + -1075 by norm_num, zpow_add₀ (by norm_num), zpow_one]
  rw [e3] at hs
  have k1 : posQ m L (rnd (x - r)) < posQ m L y + ((s * m.n + 1 : ℤ) : ℚ) := by
    have g1 := Int.lt_floor_add_one (posQ m L (rnd (x - r)))
    have g2 := Int.floor_le (posQ m L y)
    have g3 : ((⌊posQ m L (rnd (x - r))⌋ : ℤ) : ℚ) ≤ ((⌊posQ m L y⌋ + s * m.n : ℤ) : ℚ) := by exact_mod_cast (by linarith : _ ≤ ⌊posQ m L y⌋ + s * m.n)
    push_cast at g3 ⊢
    linarith
  have k2 : posQ m L y + ((s * m.n - 1 : ℤ) : ℚ) < posQ m L (rnd (x + r)) := by
    have g1 := Int.lt_floor_add_one (posQ m L y)
    have g2 := Int.floor_le (posQ m L (rnd (x + r)))
    have g3 : ((⌊posQ m L y⌋ + s * m.n : ℤ) : ℚ) ≤ ((⌊posQ m L (rnd (x + r))⌋ : ℤ) : ℚ) := by exact_mod_cast (by linarith : ⌊posQ m L y⌋ + s * m.n ≤ _)
    push_cast at g3 ⊢
    linarith
  by_contra hc
  rw [not_lt] at hc
  unfold margin at hc
  rw [e50, h4, hL] at hc
  rcases le_abs.mp hc with hc | hc
  · refine absurd (scale_hi (e2 := ((s * m.n + 1 : ℤ) : ℚ)) hw (end_err h a1) (pos_err4 h y) ?_) (not_le.mpr k1)
    push_cast
    generalize 2 * (2 : ℚ) ^ (-1075 : ℤ) = t at *
    generalize (2 : ℚ) ^ (-53 : ℤ) = u at *
    linarith
  · refine absurd (scale_lo (e2 := ((s * m.n - 1 : ℤ) : ℚ)) hw (end_err h a2) (pos_err4 h y) ?_) (not_le.mpr k2)
    push_cast
    generalize 2 * (2 : ℚ) ^ (-1075 : ℤ) = t at *
    generalize (2 : ℚ) ^ (-53 : ℤ) = u at *
    linarith

/-! ### Neighbour search -/

/-- A position made of three finite numbers. -/
def pt (a : ℚ × ℚ × ℚ) : Point := (.fin a.1, .fin a.2.1, .fin a.2.2)

/-- Specification: squared distance from `x` to the periodic image of `y` shifted by `s` boxes. -/
def imgDist2 (L : ℚ) (x y : ℚ × ℚ × ℚ) (s : ℤ × ℤ × ℤ) : ℚ :=
  (x.1 - (y.1 + s.1 * L)) ^ 2 + (x.2.1 - (y.2.1 + s.2.1 * L)) ^ 2 + (x.2.2 - (y.2.2 + s.2.2 * L)) ^ 2

/-- Specification: the three coordinates are admissible. -/
def AllOK (m : Mesh) (L : ℚ) (x : ℚ × ℚ × ℚ) (r : ℚ) (y : ℚ × ℚ × ℚ) : Prop :=
  AxisOK m L x.1 r y.1 ∧ AxisOK m L x.2.1 r y.2.1 ∧ AxisOK m L x.2.2 r y.2.2

/-- Specification: rounding margin of a query: 2^-50 of the coordinates and the radius. -/
def margin3 (x : ℚ × ℚ × ℚ) (r : ℚ) (y : ℚ × ℚ × ℚ) : ℚ :=
  2 ^ (-50 : ℤ) * (|x.1| + |x.2.1| + |x.2.2| + |y.1| + |y.2.1| + |y.2.2| + r)

theorem sq_axis {a b c r : ℚ} (hr : 0 ≤ r) (h : a ^ 2 + b ^ 2 + c ^ 2 ≤ r ^ 2) : |a| ≤ r ∧ |b| ≤ r ∧ |c| ≤ r := by
  refine ⟨abs_le_of_sq_le_sq ?_ hr, abs_le_of_sq_le_sq ?_ hr, abs_le_of_sq_le_sq ?_ hr⟩ <;>
    nlinarith [sq_nonneg a, sq_nonneg b, sq_nonneg c]

theorem mem_reports (bad : Num → ℤ) (asort : List Int → List Nat) (ha : SortOK asort) (hn : 0 < m.n) (xs qs : List Point)
    (rs : List Num) (i : Nat) (y : Point) :
    y ∈ reports (queryPoints bad asort (build bad asort m xs) qs rs) i ↔ i < qs.length ∧ y ∈ xs ∧
      0 < hits bad m (qs.getD i origin).1 (rs.getD i (.fin 0)) y.1 ∧ 0 < hits bad m (qs.getD i origin).2.1 (rs.getD i (.fin 0)) y.2.1 ∧
      0 < hits bad m (qs.getD i origin).2.2 (rs.getD i (.fin 0)) y.2.2 := by
  rw [reports_eq bad asort ha]
  by_cases hi : i < qs.length
  · rw [if_pos hi, ← List.count_pos_iff, query1_count bad asort ha m hn, Nat.pos_iff_ne_zero, Nat.mul_ne_zero_iff, Nat.mul_ne_zero_iff, Nat.mul_ne_zero_iff,
      ← Nat.pos_iff_ne_zero, ← Nat.pos_iff_ne_zero, ← Nat.pos_iff_ne_zero, ← Nat.pos_iff_ne_zero, List.count_pos_iff]
    tauto
  · simp [hi]

/-- C123: rounding loses nothing as long as no periodic image is involved: every stored point within distance `r_i` of query point `i` is
reported for `i`, whatever the sort order. -/
theorem C123_complete (h : Good m L) (bad : Num → ℤ) (asort : List Int → List Nat) (ha : SortOK asort) (xs qs : List Point) (rs : List Num)
    (i : Nat) (x y : ℚ × ℚ × ℚ) (r : ℚ) (hx : qs[i]? = some (pt x)) (hr : rs[i]? = some (.fin r)) (hy : pt y ∈ xs) (hok : AllOK m L x r y)
    (hd : imgDist2 L x y (0, 0, 0) ≤ r ^ 2) : pt y ∈ reports (queryPoints bad asort (build bad asort m xs) qs rs) i := by
  have hi : i < qs.length := (List.getElem?_eq_some_iff.mp hx).1
  have ex : qs.getD i origin = pt x := by simp [List.getD_eq_getElem?_getD, hx]
  have er : rs.getD i (.fin 0) = .fin r := by simp [List.getD_eq_getElem?_getD, hr]
  rw [mem_reports bad asort ha h.n_pos, ex, er]
  have hr0 : 0 ≤ r := hok.1.r_nonneg
  simp only [imgDist2, Int.cast_zero, zero_mul, add_zero] at hd
  obtain ⟨d1, d2, d3⟩ := sq_axis hr0 hd
  exact ⟨hi, hy, hit_direct h bad hok.1 d1, hit_direct h bad hok.2.1 d2, hit_direct h bad hok.2.2 d3⟩

/-- C123: with periodic images: every stored point one of whose images is within `r_i`, less 2^-50 of the coordinates and the radius, is
reported. -/
theorem C123_complete_periodic (h : Good m L) (bad : Num → ℤ) (asort : List Int → List Nat) (ha : SortOK asort) (xs qs : List Point)
    (rs : List Num) (i : Nat) (x y : ℚ × ℚ × ℚ) (r : ℚ) (hx : qs[i]? = some (pt x)) (hr : rs[i]? = some (.fin r)) (hy : pt y ∈ xs)
    (hok : AllOK m L x r y) (hr1 : 2 ^ (-1020 : ℤ) * width m L ≤ r) (s : ℤ × ℤ × ℤ) (hm : margin3 x r y ≤ r)
    (hd : imgDist2 L x y s ≤ (r - margin3 x r y) ^ 2) : pt y ∈ reports (queryPoints bad asort (build bad asort m xs) qs rs) i := by
  have hi : i < qs.length := (List.getElem?_eq_some_iff.mp hx).1
  have ex : qs.getD i origin = pt x := by simp [List.getD_eq_getElem?_getD, hx]
  have er : rs.getD i (.fin 0) = .fin r := by simp [List.getD_eq_getElem?_getD, hr]
  rw [mem_reports bad asort ha h.n_pos, ex, er]
  obtain ⟨d1, d2, d3⟩ := sq_axis (by linarith) hd
  have hp := pow_pos' (-50)
  have mm : ∀ a b : ℚ, |a| + |b| ≤ |x.1| + |x.2.1| + |x.2.2| + |y.1| + |y.2.1| + |y.2.2| → margin a r b ≤ margin3 x r y := by
    intro a b hab
    unfold margin margin3
    exact mul_le_mul_of_nonneg_left (by linarith) hp.le
  have x1 := abs_nonneg x.1
  have x2 := abs_nonneg x.2.1
  have x3 := abs_nonneg x.2.2
  have y1 := abs_nonneg y.1
  have y2 := abs_nonneg y.2.1
  have y3 := abs_nonneg y.2.2
  have m1 := mm x.1 y.1 (by linarith)
  have m2 := mm x.2.1 y.2.1 (by linarith)
  have m3 := mm x.2.2 y.2.2 (by linarith)
  exact ⟨hi, hy, hit_wrap h bad hok.1 hr1 s.1 (by linarith), hit_wrap h bad hok.2.1 hr1 s.2.1 (by linarith),
    hit_wrap h bad hok.2.2 hr1 s.2.2 (by linarith)⟩

/-- C123: everything reported is a stored point; along every axis one of its images is nearer than `r_i` plus one cell (and the
rounding margin). -/
theorem C123_sound (h : Good m L) (bad : Num → ℤ) (asort : List Int → List Nat) (ha : SortOK asort) (xs qs : List Point) (rs : List Num)
    (i : Nat) (x y : ℚ × ℚ × ℚ) (r : ℚ) (hx : qs[i]? = some (pt x)) (hr : rs[i]? = some (.fin r)) (hok : AllOK m L x r y)
    (hrep : pt y ∈ reports (queryPoints bad asort (build bad asort m xs) qs rs) i) :
    pt y ∈ xs ∧
    (∃ s : ℤ, |x.1 - (y.1 + s * L)| < r + width m L + margin x.1 r y.1 + 2 ^ (-1074 : ℤ) * width m L) ∧
    (∃ s : ℤ, |x.2.1 - (y.2.1 + s * L)| < r + width m L + margin x.2.1 r y.2.1 + 2 ^ (-1074 : ℤ) * width m L) ∧
    (∃ s : ℤ, |x.2.2 - (y.2.2 + s * L)| < r + width m L + margin x.2.2 r y.2.2 + 2 ^ (-1074 : ℤ) * width m L) := by
  have ex : qs.getD i origin = pt x := by simp [List.getD_eq_getElem?_getD, hx]
  have er : rs.getD i (.fin 0) = .fin r := by simp [List.getD_eq_getElem?_getD, hr]
  rw [mem_reports bad asort ha h.n_pos, ex, er] at hrep
  obtain ⟨-, hy, h1, h2, h3⟩ := hrep
  exact ⟨hy, hit_near h bad hok.1 h1, hit_near h bad hok.2.1 h2, hit_near h bad hok.2.2 h3⟩

/-- C123: no report for an index that is not a query, and only stored points are ever reported — for all doubles. -/
theorem C123_stored (bad : Num → ℤ) (asort : List Int → List Nat) (ha : SortOK asort) (hn : 0 < m.n) (xs qs : List Point) (rs : List Num)
    (i : Nat) (y : Point) (hrep : y ∈ reports (queryPoints bad asort (build bad asort m xs) qs rs) i) : i < qs.length ∧ y ∈ xs := by
  rw [mem_reports bad asort ha hn] at hrep
  exact ⟨hrep.1, hrep.2.1⟩

/-- The mesh of 11 cells on a box of size 100. -/
def mesh100 : Mesh := Mesh.new (.fin 100) 11

theorem mesh100_good : Good mesh100 100 := by
  refine ⟨rfl, by decide, by decide, by unfold IsF; decide +kernel, ?_, ?_⟩
  · have : (2 : ℚ) ^ (-1021 : ℤ) ≤ 2 ^ (0 : ℤ) := zpow_le_zpow_right₀ (by norm_num) (by norm_num)
    rw [zpow_zero] at this
    have e : ((mesh100.n : ℕ) : ℚ) = 11 := by norm_num [mesh100, Mesh.new]
    rw [e]
    linarith
  · exact le_trans (b := 2 ^ 7) (by norm_num) (pow_le_pow_right₀ (by norm_num) (by norm_num))

theorem mesh100_width : width mesh100 100 = 100 / 11 := by norm_num [width, mesh100, Mesh.new]

theorem axis100 {x r y : ℚ} (fx : IsF x) (fr : IsF r) (fy : IsF y) (h0 : 0 ≤ r) (h1 : |x| + r ≤ 1000) (h2 : |y| ≤ 1000) :
    AxisOK mesh100 100 x r y := by
  have hb : (1000 : ℚ) ≤ 2 ^ 60 * width mesh100 100 := by rw [mesh100_width]; norm_num
  exact ⟨fx, fr, fy, h0, le_trans h1 hb, le_trans h2 hb,
    le_trans h1 (le_trans (b := 2 ^ 10) (by norm_num) (pow_le_pow_right₀ (by norm_num) (by norm_num)))⟩

/-- C123 (defect): a point of the box at distance exactly `r` (through the periodic boundary) is not reported: on a box of 100 with 11
cells, the query at 90 with radius 10 misses the point at 0, because 90 + 10 is put into cell 10 and not into cell 11 = 0.  The
documentation promises all points within the distance. -/
theorem C123_periodic_defect (bad : Num → ℤ) (asort : List Int → List Nat) (ha : SortOK asort) :
    imgDist2 100 (90, 50, 50) (0, 50, 50) (1, 0, 0) = 10 ^ 2 ∧
    pt (0, 50, 50) ∉ reports (queryPoints bad asort (build bad asort mesh100 [pt (0, 50, 50)]) [pt (90, 50, 50)] [.fin 10]) 0 := by
  refine ⟨by norm_num [imgDist2], ?_⟩
  rw [mem_reports bad asort ha (by decide)]
  rintro ⟨-, -, h1, -⟩
  have ok : AxisOK mesh100 100 90 10 0 := axis100 (by unfold IsF; decide +kernel) (by unfold IsF; decide +kernel)
    (by unfold IsF; decide +kernel) (by norm_num) (by norm_num) (by norm_num)
  obtain ⟨e1, e2, e3, -⟩ := ends mesh100_good bad ok
  have n1 : ⌊posQ mesh100 100 (rnd (90 - 10))⌋ = 8 := by decide +kernel
  have n2 : ⌊posQ mesh100 100 (rnd (90 + 10))⌋ = 10 := by decide +kernel
  have n3 : ⌊posQ mesh100 100 0⌋ = 0 := by decide +kernel
  rw [n1] at e1
  rw [n2] at e2
  rw [n3] at e3
  unfold hits at h1
  rw [List.countP_pos_iff] at h1
  obtain ⟨k, hk, hk2⟩ := h1
  change k ∈ window bad mesh100 (.fin 90) (.fin 10) at hk
  change decide (k % (mesh100.n : ℤ) = x2xi bad mesh100 (.fin 0) % (mesh100.n : ℤ)) = true at hk2
  unfold window at hk
  rw [mem_pyRange, e1, e2] at hk
  have hk2 := of_decide_eq_true hk2
  rw [e3] at hk2
  simp only [mesh100, Mesh.new] at hk2
  omega

/-- The hypotheses of the completeness theorems can be met: the same query finds the point at 0 with a radius a little larger, and a point at 95. -/
example : pt (95, 50, 50) ∈ reports (queryPoints Num.x86 (fun k => (List.range k.length).mergeSort
      (fun a b => decide (k.getD a 0 ≤ k.getD b 0))) (build Num.x86 (fun k => (List.range k.length).mergeSort
      (fun a b => decide (k.getD a 0 ≤ k.getD b 0))) mesh100 [pt (95, 50, 50)]) [pt (90, 50, 50)] [.fin 10]) 0 :=
  C123_complete mesh100_good _ _ Neighbor.SortOK_mergeSort _ _ _ 0 (90, 50, 50) (95, 50, 50) 10 rfl rfl (by simp)
    ⟨axis100 (by unfold IsF; decide +kernel) (by unfold IsF; decide +kernel) (by unfold IsF; decide +kernel) (by norm_num) (by norm_num) (by norm_num),
     axis100 (by unfold IsF; decide +kernel) (by unfold IsF; decide +kernel) (by unfold IsF; decide +kernel) (by norm_num) (by norm_num) (by norm_num),
     axis100 (by unfold IsF; decide +kernel) (by unfold IsF; decide +kernel) (by unfold IsF; decide +kernel) (by norm_num) (by norm_num) (by norm_num)⟩
    (by norm_num [imgDist2])

example (bad : Num → ℤ) (asort : List Int → List Nat) (ha : SortOK asort) :
    pt (0, 50, 50) ∈ reports (queryPoints bad asort (build bad asort mesh100 [pt (0, 50, 50)]) [pt (90, 50, 50)] [.fin 11]) 0 :=
  C123_complete_periodic mesh100_good bad asort ha _ _ _ 0 (90, 50, 50) (0, 50, 50) 11 rfl rfl (by simp)
    ⟨axis100 (by unfold IsF; decide +kernel) (by unfold IsF; decide +kernel) (by unfold IsF; decide +kernel) (by norm_num) (by norm_num) (by norm_num),
     axis100 (by unfold IsF; decide +kernel) (by unfold IsF; decide +kernel) (by unfold IsF; decide +kernel) (by norm_num) (by norm_num) (by norm_num),
     axis100 (by unfold IsF; decide +kernel) (by unfold IsF; decide +kernel) (by unfold IsF; decide +kernel) (by norm_num) (by norm_num) (by norm_num)⟩
    (by
      rw [mesh100_width]
      have : (2 : ℚ) ^ (-1020 : ℤ) ≤ 2 ^ (0 : ℤ) := zpow_le_zpow_right₀ (by norm_num) (by norm_num)
      rw [zpow_zero] at this
      linarith)
    (1, 0, 0) (by norm_num [margin3]) (by norm_num [imgDist2, margin3])

theorem tiny_le : (2 : ℚ) ^ (-1075 : ℤ) ≤ 2 ^ (-60 : ℤ) := zpow_le_zpow_right₀ (by norm_num) (by norm_num)

/-- C123: `x_to_xi` gives (periodically) a grid node nearest to the coordinate, up to 2^-50 (relative and absolute) of a cell. -/
theorem C123_nearest_node (h : Good m L) (bad : Num → ℤ) {v : ℚ} (hv : Near m L v) :
    ∃ k : ℤ, xToXi bad m (.fin v) = k % m.n ∧ |v / width m L - k| ≤ 1 / 2 + 2 ^ (-50 : ℤ) * (|v / width m L| + 1) := by
  have hp := pos_le h hv
  have hd := div_num h hv
  have he := pos_err h v
  generalize posQ m L v = p at *
  generalize v / width m L = t at *
  have hb : |p + 1 / 2| ≤ 2 ^ 62 + 1 / 2 := le_trans (abs_add_le _ _) (by rw [abs_of_pos (show (0 : ℚ) < 1 / 2 by norm_num)]; linarith)
  have pow63 : IsF ((2 : ℚ) ^ 63) := by
    have := isF_pow (e := 63) (by norm_num)
    exact_mod_cast this
  have e1 : Num.add (.fin p) (.fin (1 / 2)) = .fin (rnd (p + 1 / 2)) :=
    ofQ_fin_le (le_trans hb (by norm_num)) pow63 (pow_lt_pow_right₀ (by norm_num) (by norm_num))
  have hr := rnd_err_all (p + 1 / 2)
  have hi : Num.toInt64 bad (Num.floor (.fin (rnd (p + 1 / 2)))) = ⌊rnd (p + 1 / 2)⌋ := by
    have l62 : |rnd (p + 1 / 2)| ≤ 2 ^ 62 + 2048 := by
      rw [rnd_abs]
      refine rnd_le (le_trans hb (by norm_num)) ?_
      have := isF_of (m := 2 ^ 51 + 1) (e := 11) (by norm_num) (by norm_num)
      norm_num at this ⊢
      exact this
    rw [abs_le] at l62
    have h1 : (-2 ^ 62 - 2048 : ℤ) ≤ ⌊rnd (p + 1 / 2)⌋ := by rw [Int.le_floor]; push_cast; linarith [l62.1]
    have h2 : (⌊rnd (p + 1 / 2)⌋ : ℤ) ≤ 2 ^ 62 + 2048 := by
      have := le_trans (Int.floor_le (rnd (p + 1 / 2))) l62.2
      exact_mod_cast this
    have h3 : -2 ^ 63 ≤ ((⌊rnd (p + 1 / 2)⌋ : ℤ) : ℚ) ∧ ((⌊rnd (p + 1 / 2)⌋ : ℤ) : ℚ) < 2 ^ 63 := by
      constructor
      · have : (-2 ^ 63 : ℤ) ≤ ⌊rnd (p + 1 / 2)⌋ := by norm_num at h1 ⊢; omega
        exact_mod_cast this
      · have : (⌊rnd (p + 1 / 2)⌋ : ℤ) < 2 ^ 63 := by norm_num at h2 ⊢; omega
        exact_mod_cast this
    simp only [Num.floor, Num.toInt64, if_pos h3, Int.floor_intCast, Int.ceil_intCast, ite_self]
  refine ⟨⌊rnd (p + 1 / 2)⌋, ?_, ?_⟩
  · unfold xToXi
    rw [hd, e1, hi]
  · have f1 := Int.floor_le (rnd (p + 1 / 2))
    have f2 := Int.lt_floor_add_one (rnd (p + 1 / 2))
    have a1 : |p| ≤ |t| + (2 ^ (-51 : ℤ) * |t| + 2 ^ (-1075 : ℤ)) := by
      have := abs_add_le (p - t) t
      rw [sub_add_cancel] at this
      linarith
    have a2 : |p + 1 / 2| ≤ |p| + 1 / 2 := le_trans (abs_add_le _ _) (by rw [abs_of_pos (show (0 : ℚ) < 1 / 2 by norm_num)])
    have ht := tiny_le
    have ht0 := pow_pos' (-1075)
    have h0 := abs_nonneg t
    generalize (2 : ℚ) ^ (-1075 : ℤ) = z at *
    have a3 : (2 : ℚ) ^ (-53 : ℤ) * |p + 1 / 2| ≤ 2 ^ (-53 : ℤ) * (|t| + (2 ^ (-51 : ℤ) * |t| + 2 ^ (-60 : ℤ)) + 1 / 2) :=
      mul_le_mul_of_nonneg_left (by
        generalize (2 : ℚ) ^ (-51 : ℤ) * |t| = s1 at *
        generalize (2 : ℚ) ^ (-60 : ℤ) = s2 at *
        linarith) (pow_pos' _).le
    have b1 := abs_le.mp he
    have b2 := abs_le.mp hr
    norm_num at a3 b1 b2 ht ⊢
    rw [abs_le]
    constructor <;> linarith [b1.1, b1.2, b2.1, b2.2]

example := C123_nearest_node mesh100_good Num.x86 (v := 42) (by
  unfold Near; rw [mesh100_width]; norm_num)
example : xToXi Num.x86 mesh100 (.fin 42) = 5 ∧ xToXi Num.x86 mesh100 (.fin 97) = 0 ∧ xToXi Num.x86 mesh100 (.fin (-40)) = 7 := by decide +kernel

end Pyhipp.FloatMesh
