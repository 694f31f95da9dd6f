import Verif.Model.Neighbor
import Verif.Props.Field
import Mathlib.Tactic.Ring
import Mathlib.Tactic.Linarith
import Mathlib.Tactic.FieldSimp
import Mathlib.Tactic.Positivity
import Mathlib.Data.Rat.Floor
import Mathlib.Data.List.Count
import Mathlib.Data.List.Perm.Basic
/-
C72-C75: neighbour search.
-/
namespace Pyhipp.Neighbor
open Pyhipp Pyhipp.CubicBox

section
variable {α : Type} [Field α] [LinearOrder α] [IsStrictOrderedRing α] [FloorRing α]

/-- Specification of `np.argsort`: a permutation of the indices that sorts the keys (ties in any
order). -/
def SortOK (asort : List Int → List Nat) : Prop :=
  ∀ keys : List Int, (asort keys).Perm (List.range keys.length) ∧
    ((asort keys).map (fun a => keys.getD a 0)).Pairwise (· ≤ ·)

theorem countP_split {β : Type} (f : β → Int) (c : Int) (l : List β) (hs : (l.map f).Pairwise (· ≤ ·)) :
    l.take (l.countP (fun b => decide (f b < c))) = l.filter (fun b => decide (f b < c)) ∧
    l.drop (l.countP (fun b => decide (f b < c))) = l.filter (fun b => decide (c ≤ f b)) := by
  induction l with
  | nil => simp
  | cons a t ih =>
      rw [List.map_cons, List.pairwise_cons] at hs
      obtain ⟨ih1, ih2⟩ := ih hs.2
      by_cases h : f a < c
      · simp [List.countP_cons, h, ih1, ih2, not_le.mpr h]
      · have hall : ∀ b ∈ t, ¬ f b < c := by
          intro b hb hlt
          have := hs.1 (f b) (List.mem_map.mpr ⟨b, hb, rfl⟩)
          omega
        have hz : t.countP (fun b => decide (f b < c)) = 0 := by
          rw [List.countP_eq_zero]; intro b hb; simpa using hall b hb
        have hf : t.filter (fun b => decide (f b < c)) = [] := by
          rw [List.filter_eq_nil_iff]; intro b hb; simpa using hall b hb
        have hg : t.filter (fun b => decide (c ≤ f b)) = t := by
          rw [List.filter_eq_self]; intro b hb; simpa using hall b hb
        simp [h, hz, hf, hg, not_lt.mp h]

theorem scan_eq (xi : List Int) (hs : xi.Pairwise (· ≤ ·)) (i : Int) (e : Nat)
    (he : e ≤ xi.countP (fun b => decide (b < i + 1))) :
    scan xi i e = xi.countP (fun b => decide (b < i + 1)) := by
  set L := xi.countP (fun b => decide (b < i + 1)) with hL
  have hle : L ≤ xi.length := List.countP_le_length
  obtain ⟨h1, h2⟩ := countP_split (fun b : Int => b) (i + 1) xi (by simpa using hs)
  have small : ∀ k (h : k < xi.length), k < L → xi[k] ≤ i := by
    intro k h hk
    have : xi[k] ∈ xi.take L := by
      rw [List.mem_take_iff_getElem]
      exact ⟨k, by omega, rfl⟩
    rw [h1] at this
    have := List.mem_filter.mp this
    simp at this
    omega
  have large : ∀ k (h : k < xi.length), L ≤ k → i < xi[k] := by
    intro k h hk
    have : xi[k] ∈ xi.drop L := by
      rw [List.mem_drop_iff_getElem]
      exact ⟨k - L, by omega, by congr 1; omega⟩
    rw [h2] at this
    have := List.mem_filter.mp this
    simp at this
    omega
  have : ∀ d e, d = xi.length - e → e ≤ L → scan xi i e = L := by
    intro d
    induction d with
    | zero =>
        intro e hd hel
        unfold scan
        rw [dif_neg (by omega)]
        omega
    | succ d ih =>
        intro e hd hel
        unfold scan
        rw [dif_pos (by omega)]
        split_ifs with hc
        · by_contra hne
          have := small e (by omega) (by omega)
          omega
        · apply ih
          · omega
          · by_contra hgt
            have := large e (by omega) (by omega)
            omega
  exact this _ e rfl he

theorem firstsFrom_eq (xi : List Int) (hs : xi.Pairwise (· ≤ ·)) (k s b : Nat)
    (hb : b ≤ xi.countP (fun a => decide (a < (s : Int) + 1))) :
    firstsFrom xi (List.range' s k) b = (List.range' s k).map (fun (i : Nat) => xi.countP (fun a => decide (a < (i : Int) + 1))) := by
  induction k generalizing s b with
  | zero => simp [firstsFrom]
  | succ k ih =>
      rw [List.range'_succ]
      simp only [firstsFrom, List.map_cons]
      rw [scan_eq xi hs _ _ hb]
      congr 1
      apply ih
      apply List.countP_mono_left
      intro a _ h
      simp at h ⊢
      omega

/-- Specification: the number of the cell with coordinates `a`, `b`, `d` on an `n`-grid. -/
def code (n : Nat) (a b d : Int) : Int := (a * n + b) * n + d

theorem x2xif_eq (m : Mesh α) (x : Vec3 α) : x2xif m x = code m.nGrids (x2xi1 m x.1 % m.nGrids)
    (x2xi1 m x.2.1 % m.nGrids) (x2xi1 m x.2.2 % m.nGrids) := rfl

theorem div_code (n q r : Int) (hn : 0 < n) (hr : 0 ≤ r ∧ r < n) : (q * n + r) / n = q := by
  rw [Int.add_comm, Int.add_mul_ediv_right _ _ hn.ne', Int.ediv_eq_zero_of_lt hr.1 hr.2, zero_add]

theorem code_inj (n : Nat) (a b d a' b' d' : Int) (ha : 0 ≤ a ∧ a < n) (hb : 0 ≤ b ∧ b < n) (hd : 0 ≤ d ∧ d < n)
    (hb' : 0 ≤ b' ∧ b' < n) (hd' : 0 ≤ d' ∧ d' < n) :
    code n a b d = code n a' b' d' ↔ a = a' ∧ b = b' ∧ d = d' := by
  unfold code
  constructor
  · intro h
    have hn : (0 : Int) < n := by omega
    have e1 : a * n + b = a' * n + b' := by
      have := congrArg (fun z : Int => z / (n : Int)) h
      beta_reduce at this
      rwa [div_code _ _ _ hn hd, div_code _ _ _ hn hd'] at this
    have e2 : a = a' := by
      have := congrArg (fun z : Int => z / (n : Int)) e1
      beta_reduce at this
      rwa [div_code _ _ _ hn hb, div_code _ _ _ hn hb'] at this
    subst e2
    rw [e1] at h
    omega
  · rintro ⟨rfl, rfl, rfl⟩; rfl

theorem code_range (n : Nat) (a b d : Int) (ha : 0 ≤ a ∧ a < n) (hb : 0 ≤ b ∧ b < n) (hd : 0 ≤ d ∧ d < n) :
    0 ≤ code n a b d ∧ code n a b d < ((n ^ 3 : Nat) : Int) := by
  unfold code
  have hn : (0 : Int) ≤ n := by omega
  constructor
  · have := mul_nonneg (add_nonneg (mul_nonneg ha.1 hn) hb.1) hn
    omega
  · have h1 : a * n + b ≤ (n : Int) * n - 1 := by nlinarith
    have h2 : (a * n + b) * n ≤ ((n : Int) * n - 1) * n := mul_le_mul_of_nonneg_right h1 hn
    push_cast
    have : ((n : Int) * n - 1) * n = (n : Int) ^ 3 - n := by ring
    omega

theorem mod_range (n : Nat) (hn : 0 < n) (a : Int) : 0 ≤ a % n ∧ a % n < n :=
  ⟨Int.emod_nonneg _ (by omega), Int.emod_lt_of_pos _ (by omega)⟩

theorem x2xif_range (m : Mesh α) (hm : m.OK) (x : Vec3 α) :
    0 ≤ x2xif m x ∧ x2xif m x < ((m.nGrids ^ 3 : Nat) : Int) :=
  code_range _ _ _ _ (mod_range _ hm.1 _) (mod_range _ hm.1 _) (mod_range _ hm.1 _)

/-- The spatial meaning of the index along one axis. -/
theorem axis_spec (m : Mesh α) (hm : m.OK) (x : α) :
    ∃ s : Int, ((x2xi1 m x % m.nGrids : Int) : α) * m.lGrid ≤ x - (s : α) * m.lBox ∧
      x - (s : α) * m.lBox < (((x2xi1 m x % m.nGrids : Int) : α) + 1) * m.lGrid := by
  have hl := hm.lGrid_pos
  have hn : (m.nGrids : α) ≠ 0 := by exact_mod_cast hm.1.ne'
  refine ⟨x2xi1 m x / m.nGrids, ?_⟩
  have e : (x2xi1 m x : α) = ((x2xi1 m x % m.nGrids : Int) : α) + (m.nGrids : α) * ((x2xi1 m x / m.nGrids : Int) : α) := by
    have := Int.emod_add_mul_ediv (x2xi1 m x) m.nGrids
    exact_mod_cast this.symm
  have hb : m.lBox = m.nGrids * m.lGrid := by unfold Mesh.lGrid; field_simp
  have h1 : (x2xi1 m x : α) * m.lGrid ≤ x := by
    have := Int.floor_le (x / m.lGrid)
    rw [le_div_iff₀ hl] at this
    exact this
  have h2 : x < ((x2xi1 m x : α) + 1) * m.lGrid := by
    have := Int.lt_floor_add_one (x / m.lGrid)
    rw [div_lt_iff₀ hl] at this
    exact this
  rw [e] at h1 h2
  rw [hb]
  constructor
  · have : ∀ p q s l : α, (p + q * s) * l = p * l + s * (q * l) := by intros; ring
    rw [this] at h1
    linarith
  · have : ∀ p q s l : α, (p + q * s + 1) * l = (p + 1) * l + s * (q * l) := by intros; ring
    rw [this] at h2
    linarith

/-- C72: the cell number of a point is `(a n + b) n + d` with `a, b, d` in `[0, n)` such that some
periodic image of the point lies in the cell `[a l, (a+1) l) x [b l, (b+1) l) x [d l, (d+1) l)`. -/
theorem C72_cell (m : Mesh α) (hm : m.OK) (x : Vec3 α) :
    ∃ a b d : Int, (0 ≤ a ∧ a < m.nGrids) ∧ (0 ≤ b ∧ b < m.nGrids) ∧ (0 ≤ d ∧ d < m.nGrids) ∧
      x2xif m x = (a * m.nGrids + b) * m.nGrids + d ∧
      (∃ s : Int, (a : α) * m.lGrid ≤ x.1 - (s : α) * m.lBox ∧ x.1 - (s : α) * m.lBox < ((a : α) + 1) * m.lGrid) ∧
      (∃ s : Int, (b : α) * m.lGrid ≤ x.2.1 - (s : α) * m.lBox ∧ x.2.1 - (s : α) * m.lBox < ((b : α) + 1) * m.lGrid) ∧
      (∃ s : Int, (d : α) * m.lGrid ≤ x.2.2 - (s : α) * m.lBox ∧ x.2.2 - (s : α) * m.lBox < ((d : α) + 1) * m.lGrid) :=
  ⟨_, _, _, mod_range _ hm.1 _, mod_range _ hm.1 _, mod_range _ hm.1 _, rfl, axis_spec m hm _, axis_spec m hm _,
    axis_spec m hm _⟩

theorem getD_map_lt {β γ : Type} (f : β → γ) (l : List β) (i : Nat) (d : β) (d' : γ) (h : i < l.length) :
    (l.map f).getD i d' = f (l.getD i d) := by
  simp [List.getD, List.getElem?_map, List.getElem?_eq_getElem h]

theorem map_getD_perm {β : Type} (l : List β) (d : β) (args : List Nat) (h : args.Perm (List.range l.length)) :
    (args.map (fun a => l.getD a d)).Perm l := by
  have h1 := h.map (fun a => l.getD a d)
  refine h1.trans (List.Perm.of_eq ?_)
  apply List.ext_getElem
  · simp
  · intro i h1 h2
    simp [List.getD, List.getElem?_eq_getElem h2]

/-- Facts about a built table. -/
theorem build_facts (asort : List Int → List Nat) (ha : SortOK asort) (m : Mesh α) (hm : m.OK) (xs : List (Vec3 α)) :
    (build asort m xs).xs.Perm xs ∧ ((build asort m xs).xs.map (x2xif m)).Pairwise (· ≤ ·) ∧
    (build asort m xs).cellFirsts = (List.range (m.nGrids ^ 3 + 1)).map (fun (c : Nat) =>
      (build asort m xs).xs.countP (fun x => decide (x2xif m x < (c : Int)))) := by
  obtain ⟨hp, hsrt⟩ := ha (xs.map (x2xif m))
  rw [List.length_map] at hp
  have hkey : (asort (xs.map (x2xif m))).map (fun a => (xs.map (x2xif m)).getD a 0) =
      ((asort (xs.map (x2xif m))).map (fun a => xs.getD a (0, 0, 0))).map (x2xif m) := by
    rw [List.map_map]
    apply List.map_congr_left
    intro a hma
    have hlt : a < xs.length := by simpa using hp.subset hma
    exact getD_map_lt _ _ _ _ _ hlt
  rw [hkey] at hsrt
  refine ⟨map_getD_perm xs _ _ hp, hsrt, ?_⟩
  simp only [build]
  rw [hkey]
  set xs' := (asort (xs.map (x2xif m))).map (fun a => xs.getD a (0, 0, 0)) with hxs'
  rw [List.range_eq_range', firstsFrom_eq _ hsrt _ _ _ (Nat.zero_le _)]
  have hz : xs'.countP (fun x => decide (x2xif m x < ((0 : Nat) : Int))) = 0 := by
    rw [List.countP_eq_zero]
    intro x _
    have := (x2xif_range m hm x).1
    simp; omega
  rw [List.range_succ_eq_map, List.map_cons, hz]
  congr 1
  clear_value xs'
  rw [← List.range_eq_range']
  conv_rhs => rw [List.map_map]
  apply List.map_congr_left
  intro c _
  rw [List.countP_map]
  simp [Function.comp_def]

theorem slice_cell (asort : List Int → List Nat) (ha : SortOK asort) (m : Mesh α) (hm : m.OK) (xs : List (Vec3 α))
    (c : Int) (h0 : 0 ≤ c) (h1 : c < ((m.nGrids ^ 3 : Nat) : Int)) :
    cellPoints (build asort m xs) c = (build asort m xs).xs.filter (fun x => decide (x2xif m x = c)) := by
  obtain ⟨-, hs, hf⟩ := build_facts asort ha m hm xs
  set t := build asort m xs
  have hget : ∀ k : Nat, k < m.nGrids ^ 3 + 1 → t.cellFirsts.getD k 0 = t.xs.countP (fun x => decide (x2xif m x < (k : Int))) := by
    intro k hk
    rw [hf, getD_map_lt _ _ _ 0 _ (by simpa using hk)]
    simp [List.getD, List.getElem?_range hk]
  unfold cellPoints slice
  rw [hget _ (by omega), hget _ (by omega)]
  have e0 : ((c.toNat : Nat) : Int) = c := Int.toNat_of_nonneg h0
  have e1 : (((c.toNat + 1 : Nat)) : Int) = c + 1 := by omega
  rw [e0, e1]
  rw [(countP_split (x2xif m) (c + 1) t.xs hs).1]
  have hs2 : ((t.xs.filter (fun x => decide (x2xif m x < c + 1))).map (x2xif m)).Pairwise (· ≤ ·) :=
    hs.sublist (List.filter_sublist.map _)
  have := (countP_split (x2xif m) c _ hs2).2
  have hc : (t.xs.filter (fun x => decide (x2xif m x < c + 1))).countP (fun x => decide (x2xif m x < c)) =
      t.xs.countP (fun x => decide (x2xif m x < c)) := by
    rw [List.countP_filter]
    congr 1
    funext x
    by_cases h : x2xif m x < c
    · have : x2xif m x < c + 1 := by omega
      simp [h, this]
    · simp [h]
  rw [hc] at this
  rw [this, List.filter_filter]
  congr 1
  funext x
  by_cases h : x2xif m x = c
  · simp [h]
  · by_cases h2 : x2xif m x < c + 1
    · have : ¬ c ≤ x2xif m x := by omega
      simp [h, this]
    · simp [h, h2]

/-- C72: the table built from any points, with any sorting permutation: the stored points are a
rearrangement of the input, the table has `n^3 + 1` non-decreasing entries from 0 to the number of
points, and the slice of every cell holds exactly the points of that cell (with multiplicity). -/
theorem C72_table (asort : List Int → List Nat) (ha : SortOK asort) (m : Mesh α) (hm : m.OK) (xs : List (Vec3 α)) :
    (build asort m xs).xs.Perm xs ∧ (build asort m xs).cellFirsts.length = m.nGrids ^ 3 + 1 ∧
    (build asort m xs).cellFirsts.getD 0 1 = 0 ∧
    (build asort m xs).cellFirsts.getD (m.nGrids ^ 3) 0 = xs.length ∧
    (build asort m xs).cellFirsts.Pairwise (· ≤ ·) ∧
    (∀ c : Nat, c < m.nGrids ^ 3 → (cellPoints (build asort m xs) c).Perm
      (xs.filter (fun x => decide (x2xif m x = (c : Int))))) ∧
    ((List.range (m.nGrids ^ 3)).flatMap (fun (c : Nat) => cellPoints (build asort m xs) (c : Int))) =
      (build asort m xs).xs := by
  obtain ⟨hp, hs, hf⟩ := build_facts asort ha m hm xs
  have hcell := slice_cell asort ha m hm xs
  set t := build asort m xs with ht
  refine ⟨hp, by rw [hf]; simp, rfl, ?_, ?_, ?_, ?_⟩
  · rw [hf, getD_map_lt _ _ _ 0 _ (by simp)]
    simp only [List.getD, List.getElem?_range (Nat.lt_succ_self _), Option.getD_some]
    rw [List.countP_eq_length.mpr, hp.length_eq]
    intro x _
    simpa using (x2xif_range m hm x).2
  · rw [hf]
    rw [List.pairwise_map]
    refine List.pairwise_lt_range.imp ?_
    intro a b hab
    apply List.countP_mono_left
    intro x _ h
    simp at h ⊢
    omega
  · intro c hc
    rw [hcell c (by omega) (by exact_mod_cast hc)]
    exact hp.filter _
  · have key : ∀ k : Nat, k ≤ m.nGrids ^ 3 → (List.range k).flatMap (fun (c : Nat) => cellPoints t (c : Int)) =
        t.xs.filter (fun x => decide (x2xif m x < (k : Int))) := by
      intro k
      induction k with
      | zero =>
          intro _
          symm
          rw [List.range_zero, List.flatMap_nil, List.filter_eq_nil_iff]
          intro x _
          have := (x2xif_range m hm x).1
          simp; omega
      | succ k ih =>
          intro hk
          rw [List.range_succ, List.flatMap_append, ih (by omega)]
          simp only [List.flatMap_cons, List.flatMap_nil, List.append_nil]
          rw [hcell k (by omega) (by exact_mod_cast (by omega : k < m.nGrids ^ 3))]
          obtain ⟨h1, -⟩ := countP_split (x2xif m) (((k + 1 : Nat) : Int)) t.xs hs
          have hs2 : ((t.xs.filter (fun x => decide (x2xif m x < ((k + 1 : Nat) : Int)))).map (x2xif m)).Pairwise (· ≤ ·) :=
            hs.sublist (List.filter_sublist.map _)
          obtain ⟨h3, h4⟩ := countP_split (x2xif m) (k : Int) _ hs2
          conv_rhs => rw [← List.take_append_drop (List.countP (fun b => decide (x2xif m b < (k : Int)))
            (t.xs.filter (fun x => decide (x2xif m x < ((k + 1 : Nat) : Int))))) (t.xs.filter (fun x => decide (x2xif m x < ((k + 1 : Nat) : Int))))]
          rw [h3, h4, List.filter_filter, List.filter_filter]
          congr 1
          · congr 1
            funext x
            by_cases h : x2xif m x < (k : Int)
            · have : x2xif m x < ((k + 1 : Nat) : Int) := by omega
              simp only [h, this, decide_true, Bool.and_self]
            · simp [h]
          · congr 1
            funext x
            by_cases h : x2xif m x = (k : Int)
            · simp [h]
            · by_cases h2 : x2xif m x < ((k + 1 : Nat) : Int)
              · have : ¬ (k : Int) ≤ x2xif m x := by omega
                simp [h, this]
              · simp only [h, h2, decide_false, Bool.and_false]
    rw [key _ le_rfl, List.filter_eq_self]
    intro x _
    simpa using (x2xif_range m hm x).2

/-- The hypotheses of `C72_table` are met: sorting by insertion satisfies `SortOK`-like behaviour on
these points and the table of a 2-grid with 3 points (one outside the box) is as computed here. -/
example : (build (α := ℚ) (fun _ => [1, 2, 0]) ⟨2, 4⟩ [(3, 3, 3), (1, 0, 0), (-3, 0, 5)]).cellFirsts =
    [0, 2, 2, 2, 2, 2, 2, 2, 3] := by decide +kernel

/-! ### Queries -/

/-- All points passed to `q.on` for query `i`, over all its calls. -/
def reports (calls : List (Nat × List (Vec3 α))) (i : Nat) : List (Vec3 α) :=
  (calls.filter (fun c => decide (c.1 = i))).flatMap (·.2)

theorem filter_idx (f : Nat → List (List (Vec3 α))) (i : Nat) (l : List Nat) (hn : l.Nodup) :
    (l.flatMap (fun j => (f j).map (fun c => (j, c)))).filter (fun c => decide (c.1 = i)) =
      if i ∈ l then (f i).map (fun c => (i, c)) else [] := by
  induction l with
  | nil => simp
  | cons a t ih =>
      rw [List.nodup_cons] at hn
      rw [List.flatMap_cons, List.filter_append, ih hn.2]
      by_cases h : a = i
      · subst h
        have : ((f a).map (fun c => (a, c))).filter (fun c => decide (c.1 = a)) = (f a).map (fun c => (a, c)) := by
          rw [List.filter_eq_self]; intro c hc
          obtain ⟨_, _, rfl⟩ := List.mem_map.mp hc
          simp
        simp [this, hn.1]
      · have : ((f a).map (fun c => (a, c))).filter (fun c => decide (c.1 = i)) = [] := by
          rw [List.filter_eq_nil_iff]; intro c hc
          obtain ⟨_, _, rfl⟩ := List.mem_map.mp hc
          simp [h]
        rw [this, List.nil_append]
        have h' : ¬ i = a := fun e => h e.symm
        simp [h']

theorem reports_eq (asort : List Int → List Nat) (ha : SortOK asort) (t : PE3 α) (qs : List (Vec3 α)) (rs : List α)
    (i : Nat) : reports (queryPoints asort t qs rs) i =
      if i < qs.length then (query1 t (qs.getD i (0, 0, 0)) (rs.getD i 0)).flatten else [] := by
  obtain ⟨hp, -⟩ := ha (qs.map (x2xif t.mesh))
  unfold reports queryPoints
  rw [filter_idx (fun i => query1 t (qs.getD i (0, 0, 0)) (rs.getD i 0)) i _
    (hp.nodup_iff.mpr List.nodup_range)]
  simp only [hp.mem_iff, List.length_map, List.mem_range]
  split_ifs
  · rw [List.flatMap_map]
    simp [List.flatMap_id']
  · rfl

theorem sum_map_ite {β : Type} (p : β → Bool) (k : Nat) (l : List β) :
    (l.map (fun b => if p b then k else 0)).sum = l.countP p * k := by
  induction l with
  | nil => simp
  | cons a t ih =>
      rw [List.map_cons, List.sum_cons, ih, List.countP_cons]
      split_ifs <;> ring

theorem flatten_flatMap' {β γ : Type} (f : β → List (List γ)) (l : List β) :
    (l.flatMap f).flatten = l.flatMap (fun b => (f b).flatten) := by
  induction l with
  | nil => rfl
  | cons a t ih => simp [List.flatMap_cons, ih]

theorem build_mesh (asort : List Int → List Nat) (m : Mesh α) (xs : List (Vec3 α)) :
    (build asort m xs).mesh = m := rfl

/-- The exact number of times a stored point is handed over. -/
theorem query1_count (asort : List Int → List Nat) (ha : SortOK asort) (m : Mesh α) (hm : m.OK) (xs : List (Vec3 α))
    (x : Vec3 α) (r : α) (y : Vec3 α) :
    (query1 (build asort m xs) x r).flatten.count y = xs.count y *
      ((pyRange (x2xi1 m (x.1 - r)) (x2xi1 m (x.1 + r) + 1)).countP (fun k => decide (k % m.nGrids = x2xi1 m y.1 % m.nGrids)) *
       (pyRange (x2xi1 m (x.2.1 - r)) (x2xi1 m (x.2.1 + r) + 1)).countP (fun k => decide (k % m.nGrids = x2xi1 m y.2.1 % m.nGrids)) *
       (pyRange (x2xi1 m (x.2.2 - r)) (x2xi1 m (x.2.2 + r) + 1)).countP (fun k => decide (k % m.nGrids = x2xi1 m y.2.2 % m.nGrids))) := by
  obtain ⟨hp, -, -⟩ := build_facts asort ha m hm xs
  have hcell : ∀ i0 i1 i2 : Int, (cellPoints (build asort m xs)
      ((i0 % m.nGrids * m.nGrids + i1 % m.nGrids) * m.nGrids + i2 % m.nGrids)).count y =
      if decide (i0 % m.nGrids = x2xi1 m y.1 % m.nGrids) then
        (if decide (i1 % m.nGrids = x2xi1 m y.2.1 % m.nGrids) then
          (if decide (i2 % m.nGrids = x2xi1 m y.2.2 % m.nGrids) then xs.count y else 0) else 0) else 0 := by
    intro i0 i1 i2
    have hr := code_range m.nGrids _ _ _ (mod_range _ hm.1 i0) (mod_range _ hm.1 i1) (mod_range _ hm.1 i2)
    have := slice_cell asort ha m hm xs _ hr.1 hr.2
    rw [show (i0 % m.nGrids * m.nGrids + i1 % m.nGrids) * m.nGrids + i2 % m.nGrids =
      code m.nGrids (i0 % m.nGrids) (i1 % m.nGrids) (i2 % m.nGrids) from rfl, this]
    have hiff := code_inj m.nGrids _ _ _ (i0 % m.nGrids) _ _ (mod_range _ hm.1 (x2xi1 m y.1)) (mod_range _ hm.1 (x2xi1 m y.2.1))
      (mod_range _ hm.1 (x2xi1 m y.2.2)) (mod_range _ hm.1 i1) (mod_range _ hm.1 i2)
    rw [← x2xif_eq] at hiff
    by_cases hy : x2xif m y = code m.nGrids (i0 % m.nGrids) (i1 % m.nGrids) (i2 % m.nGrids)
    · rw [List.count_filter (by simpa using hy), hp.count_eq]
      obtain ⟨e0, e1, e2⟩ := hiff.mp hy
      simp [e0, e1, e2]
    · rw [List.count_eq_zero.mpr (by
        intro hmem
        exact hy (by simpa using (List.mem_filter.mp hmem).2))]
      split_ifs with h0 h1 h2
      · exact absurd (hiff.mpr ⟨by simpa using (of_decide_eq_true h0).symm, by simpa using (of_decide_eq_true h1).symm, by simpa using (of_decide_eq_true h2).symm⟩) hy
      all_goals rfl
  unfold query1
  simp only [build_mesh]
  rw [flatten_flatMap', List.count_flatMap]
  simp only [Function.comp_def, flatten_flatMap', List.count_flatMap, List.count_flatten, List.map_map, hcell]
  have s2 : ∀ (P Q : Bool) (l : List Int) (p : Int → Bool) (k : Nat),
      (l.map (fun b => if P then (if Q then (if p b then k else 0) else 0) else 0)).sum =
        if P then (if Q then l.countP p * k else 0) else 0 := by
    intro P Q l p k
    cases P <;> cases Q <;> simp [sum_map_ite]
  have s1 : ∀ (P : Bool) (l : List Int) (p : Int → Bool) (k : Nat),
      (l.map (fun b => if P then (if p b then k else 0) else 0)).sum =
        if P then l.countP p * k else 0 := by
    intro P l p k
    cases P <;> simp [sum_map_ite]
  simp only [s2, s1, sum_map_ite]
  ring

theorem mem_pyRange (lb ub k : Int) : k ∈ pyRange lb ub ↔ lb ≤ k ∧ k < ub := by
  unfold pyRange
  simp only [List.mem_map, List.mem_range]
  constructor
  · rintro ⟨j, hj, rfl⟩; omega
  · intro h; exact ⟨(k - lb).toNat, by omega, by omega⟩

/-- Shifting a coordinate by whole boxes shifts the cell index by whole grids. -/
theorem x2xi1_shift (m : Mesh α) (hm : m.OK) (y : α) (s : Int) :
    x2xi1 m (y + s * m.lBox) = x2xi1 m y + s * m.nGrids := by
  have hl := hm.lGrid_pos
  have hn : (m.nGrids : α) ≠ 0 := by exact_mod_cast hm.1.ne'
  unfold x2xi1
  have hb : m.lBox = m.nGrids * m.lGrid := by unfold Mesh.lGrid; field_simp
  have : (y + s * m.lBox) / m.lGrid = y / m.lGrid + ((s * m.nGrids : Int) : α) := by
    rw [hb]; push_cast; field_simp
  rw [this, Int.floor_add_intCast]

theorem x2xi1_mono (m : Mesh α) (hm : m.OK) {a b : α} (h : a ≤ b) : x2xi1 m a ≤ x2xi1 m b := by
  unfold x2xi1
  have := hm.lGrid_pos
  gcongr

theorem axis_hit (m : Mesh α) (hm : m.OK) (x y r : α) (s : Int) (h : |x - (y + s * m.lBox)| ≤ r) :
    0 < (pyRange (x2xi1 m (x - r)) (x2xi1 m (x + r) + 1)).countP (fun k => decide (k % m.nGrids = x2xi1 m y % m.nGrids)) := by
  rw [List.countP_pos_iff]
  rw [abs_le] at h
  refine ⟨x2xi1 m (y + s * m.lBox), ?_, ?_⟩
  · rw [mem_pyRange]
    have h1 := x2xi1_mono m hm (show x - r ≤ y + s * m.lBox by linarith)
    have h2 := x2xi1_mono m hm (show y + s * m.lBox ≤ x + r by linarith)
    omega
  · rw [x2xi1_shift m hm]; simp

theorem axis_near (m : Mesh α) (hm : m.OK) (x y r : α)
    (h : 0 < (pyRange (x2xi1 m (x - r)) (x2xi1 m (x + r) + 1)).countP (fun k => decide (k % m.nGrids = x2xi1 m y % m.nGrids))) :
    ∃ s : Int, |x - (y + s * m.lBox)| < r + m.lGrid := by
  rw [List.countP_pos_iff] at h
  obtain ⟨k, hk, e⟩ := h
  rw [mem_pyRange] at hk
  have hl := hm.lGrid_pos
  have e : k % m.nGrids = x2xi1 m y % m.nGrids := by simpa using e
  have hd : ((m.nGrids : Nat) : Int) ∣ k - x2xi1 m y := by
    exact Int.ModEq.dvd (Int.ModEq.symm e)
  obtain ⟨s, hs⟩ := hd
  refine ⟨s, ?_⟩
  have hk' : x2xi1 m (y + s * m.lBox) = k := by rw [x2xi1_shift m hm]; linarith
  set z := y + s * m.lBox
  have f : ∀ w : α, (x2xi1 m w : α) * m.lGrid ≤ w ∧ w < ((x2xi1 m w : α) + 1) * m.lGrid := by
    intro w
    have h1 := Int.floor_le (w / m.lGrid)
    have h2 := Int.lt_floor_add_one (w / m.lGrid)
    rw [le_div_iff₀ hl] at h1
    rw [div_lt_iff₀ hl] at h2
    exact ⟨h1, h2⟩
  obtain ⟨a1, a2⟩ := f z
  obtain ⟨b1, b2⟩ := f (x - r)
  obtain ⟨c1, c2⟩ := f (x + r)
  rw [hk'] at a1 a2
  have k1 : (x2xi1 m (x - r) : α) ≤ (k : α) := by exact_mod_cast hk.1
  have k2 : (k : α) ≤ (x2xi1 m (x + r) : α) := by exact_mod_cast (by omega : k ≤ x2xi1 m (x + r))
  have p1 := mul_le_mul_of_nonneg_right k1 hl.le
  have p2 := mul_le_mul_of_nonneg_right k2 hl.le
  rw [add_mul, one_mul] at a2 b2 c2
  rw [abs_lt]
  constructor <;> linarith

/-- The squared distance from `x` to the periodic image of `y` shifted by `s` boxes. -/
def imgDist2 (l : α) (x y : Vec3 α) (s : Int × Int × Int) : α :=
  (x.1 - (y.1 + s.1 * l)) ^ 2 + (x.2.1 - (y.2.1 + s.2.1 * l)) ^ 2 + (x.2.2 - (y.2.2 + s.2.2 * l)) ^ 2

/-- C73: whatever the sort order, every stored point one of whose periodic images lies within `r_i` of
query point `i` is reported for `i`. -/
theorem C73_complete (asort : List Int → List Nat) (ha : SortOK asort) (m : Mesh α) (hm : m.OK) (xs : List (Vec3 α))
    (qs : List (Vec3 α)) (rs : List α) (i : Nat) (hi : i < qs.length) (y : Vec3 α) (hy : y ∈ xs)
    (hr : 0 ≤ rs.getD i 0) (s : Int × Int × Int)
    (hd : imgDist2 m.lBox (qs.getD i (0, 0, 0)) y s ≤ (rs.getD i 0) ^ 2) :
    y ∈ reports (queryPoints asort (build asort m xs) qs rs) i := by
  rw [reports_eq asort ha, if_pos hi, ← List.count_pos_iff, query1_count asort ha m hm]
  unfold imgDist2 at hd
  set x := qs.getD i (0, 0, 0)
  set r := rs.getD i 0
  have sq : ∀ a b c : α, a ^ 2 + b ^ 2 + c ^ 2 ≤ r ^ 2 → |a| ≤ r := by
    intro a b c h
    apply abs_le_of_sq_le_sq _ hr
    nlinarith [sq_nonneg b, sq_nonneg c]
  have h0 := sq _ _ _ hd
  have h1 := sq _ _ _ (show _ from (by linarith : (x.2.1 - (y.2.1 + s.2.1 * m.lBox)) ^ 2 +
    (x.1 - (y.1 + s.1 * m.lBox)) ^ 2 + (x.2.2 - (y.2.2 + s.2.2 * m.lBox)) ^ 2 ≤ r ^ 2))
  have h2 := sq _ _ _ (show _ from (by linarith : (x.2.2 - (y.2.2 + s.2.2 * m.lBox)) ^ 2 +
    (x.1 - (y.1 + s.1 * m.lBox)) ^ 2 + (x.2.1 - (y.2.1 + s.2.1 * m.lBox)) ^ 2 ≤ r ^ 2))
  exact Nat.mul_pos (List.count_pos_iff.mpr hy) (Nat.mul_pos (Nat.mul_pos (axis_hit m hm _ _ _ _ h0)
    (axis_hit m hm _ _ _ _ h1)) (axis_hit m hm _ _ _ _ h2))

/-- C73: everything reported is a stored point, and along every axis one of its images is nearer than
`r_i` plus one cell; a query index out of range gets no report. -/
theorem C73_sound (asort : List Int → List Nat) (ha : SortOK asort) (m : Mesh α) (hm : m.OK) (xs : List (Vec3 α))
    (qs : List (Vec3 α)) (rs : List α) (i : Nat) (y : Vec3 α)
    (h : y ∈ reports (queryPoints asort (build asort m xs) qs rs) i) :
    i < qs.length ∧ y ∈ xs ∧
    (∃ s : Int, |(qs.getD i (0, 0, 0)).1 - (y.1 + s * m.lBox)| < rs.getD i 0 + m.lGrid) ∧
    (∃ s : Int, |(qs.getD i (0, 0, 0)).2.1 - (y.2.1 + s * m.lBox)| < rs.getD i 0 + m.lGrid) ∧
    (∃ s : Int, |(qs.getD i (0, 0, 0)).2.2 - (y.2.2 + s * m.lBox)| < rs.getD i 0 + m.lGrid) := by
  rw [reports_eq asort ha] at h
  split_ifs at h with hi
  · rw [← List.count_pos_iff, query1_count asort ha m hm] at h
    refine ⟨hi, List.count_pos_iff.mp ?_, axis_near m hm _ _ _ ?_, axis_near m hm _ _ _ ?_, axis_near m hm _ _ _ ?_⟩ <;>
    (by_contra hz; simp only [Nat.not_lt, Nat.le_zero] at hz; rw [hz] at h; simp at h)
  · simp at h

/-- A query near the box edge finds the point across the boundary. -/
example : imgDist2 (4 : ℚ) (1/2, 2, 2) (7/2, 2, 2) (-1, 0, 0) ≤ 1 ^ 2 ∧
    ((7/2, 2, 2) : Vec3 ℚ) ∈ reports (queryPoints (fun k => List.range k.length)
      (build (fun k => List.range k.length) ⟨2, 4⟩ [(7/2, 2, 2)]) [(1/2, 2, 2)] [1]) 0 := by decide +kernel

theorem countP_pyRange_le_one (n : Nat) (lb ub c : Int) (hw : ub - lb ≤ n) :
    (pyRange lb ub).countP (fun k => decide (k % n = c)) ≤ 1 := by
  rw [List.countP_eq_length_filter]
  have hnd : ((pyRange lb ub).filter (fun k => decide (k % n = c))).Nodup := by
    apply List.Nodup.filter
    unfold pyRange
    apply List.Nodup.map _ List.nodup_range
    intro a b h
    simpa using h
  by_contra hgt
  push Not at hgt
  match hl : (pyRange lb ub).filter (fun k => decide (k % n = c)) with
  | [] => rw [hl] at hgt; simp at hgt
  | [a] => rw [hl] at hgt; simp at hgt
  | a :: b :: t =>
      rw [hl] at hnd
      have ha : a ∈ (pyRange lb ub).filter (fun k => decide (k % n = c)) := by rw [hl]; simp
      have hb : b ∈ (pyRange lb ub).filter (fun k => decide (k % n = c)) := by rw [hl]; simp
      rw [List.mem_filter, mem_pyRange] at ha hb
      have hne : a ≠ b := by
        rw [List.nodup_cons] at hnd
        intro e; subst e; simp at hnd
      have e : a % n = b % n := by
        have h1 := of_decide_eq_true ha.2
        have h2 := of_decide_eq_true hb.2
        rw [h1, h2]
      have hd : (n : Int) ∣ a - b := Int.ModEq.dvd (Int.ModEq.symm e)
      obtain ⟨k, hk⟩ := hd
      rcases lt_trichotomy k 0 with h | h | h
      · have : (n : Int) * k ≤ (n : Int) * (-1) := mul_le_mul_of_nonneg_left (by omega) (by omega)
        omega
      · subst h; omega
      · have : (n : Int) * 1 ≤ (n : Int) * k := mul_le_mul_of_nonneg_left (by omega) (by omega)
        omega

/-- C74: the exact number of reports of a stored point: its multiplicity in the input times, per axis,
the number of (unwrapped) cells of the query window that wrap to the point's cell. -/
theorem C74_multiplicity (asort : List Int → List Nat) (ha : SortOK asort) (m : Mesh α) (hm : m.OK) (xs : List (Vec3 α))
    (qs : List (Vec3 α)) (rs : List α) (i : Nat) (hi : i < qs.length) (y : Vec3 α) :
    (reports (queryPoints asort (build asort m xs) qs rs) i).count y = xs.count y *
      ((pyRange (x2xi1 m ((qs.getD i (0, 0, 0)).1 - rs.getD i 0)) (x2xi1 m ((qs.getD i (0, 0, 0)).1 + rs.getD i 0) + 1)).countP
          (fun k => decide (k % m.nGrids = x2xi1 m y.1 % m.nGrids)) *
       (pyRange (x2xi1 m ((qs.getD i (0, 0, 0)).2.1 - rs.getD i 0)) (x2xi1 m ((qs.getD i (0, 0, 0)).2.1 + rs.getD i 0) + 1)).countP
          (fun k => decide (k % m.nGrids = x2xi1 m y.2.1 % m.nGrids)) *
       (pyRange (x2xi1 m ((qs.getD i (0, 0, 0)).2.2 - rs.getD i 0)) (x2xi1 m ((qs.getD i (0, 0, 0)).2.2 + rs.getD i 0) + 1)).countP
          (fun k => decide (k % m.nGrids = x2xi1 m y.2.2 % m.nGrids))) := by
  rw [reports_eq asort ha, if_pos hi, query1_count asort ha m hm]

/-- C74: if the diameter of the query sphere plus one cell fits into the box, no stored point is
reported twice (a point occurring `c` times in the input is reported at most `c` times). -/
theorem C74_at_most_once (asort : List Int → List Nat) (ha : SortOK asort) (m : Mesh α) (hm : m.OK) (xs : List (Vec3 α))
    (qs : List (Vec3 α)) (rs : List α) (i : Nat) (hi : i < qs.length) (hr : 2 * rs.getD i 0 + m.lGrid ≤ m.lBox)
    (y : Vec3 α) :
    (reports (queryPoints asort (build asort m xs) qs rs) i).count y ≤ xs.count y := by
  rw [C74_multiplicity asort ha m hm xs qs rs i hi]
  set r := rs.getD i 0
  have hl := hm.lGrid_pos
  have hn : (m.nGrids : α) ≠ 0 := by exact_mod_cast hm.1.ne'
  have hb : m.lBox = m.nGrids * m.lGrid := by unfold Mesh.lGrid; field_simp
  have hw : ∀ x : α, x2xi1 m (x + r) + 1 - x2xi1 m (x - r) ≤ m.nGrids := by
    intro x
    have h1 := Int.floor_le ((x + r) / m.lGrid)
    have h2 := Int.lt_floor_add_one ((x - r) / m.lGrid)
    rw [le_div_iff₀ hl] at h1
    rw [div_lt_iff₀ hl] at h2
    have : ((x2xi1 m (x + r) - x2xi1 m (x - r) : Int) : α) * m.lGrid < (m.nGrids : α) * m.lGrid := by
      unfold x2xi1; push_cast
      rw [hb] at hr
      rw [add_mul, one_mul] at h2
      rw [sub_mul]
      linarith
    have := lt_of_mul_lt_mul_right this hl.le
    have : x2xi1 m (x + r) - x2xi1 m (x - r) < m.nGrids := by exact_mod_cast this
    omega
  have h0 := fun x c => countP_pyRange_le_one m.nGrids (x2xi1 m (x - r)) (x2xi1 m (x + r) + 1) c (hw x)
  calc _ ≤ xs.count y * (1 * 1 * 1) := by gcongr <;> exact h0 _ _
    _ = _ := by ring

/-- C74 (recorded): for larger radii the same point is reported several times: with one cell and `r` equal to the
box size a single stored point is reported 27 times. -/
theorem C74_duplicates : (reports (queryPoints (fun k => List.range k.length)
      (build (fun k => List.range k.length) ⟨1, 1⟩ [((1/2, 1/2, 1/2) : Vec3 ℚ)]) [(1/2, 1/2, 1/2)] [1]) 0).count (1/2, 1/2, 1/2) = 27 := by
  decide +kernel

/-- The hypothesis of `C74_at_most_once` is satisfiable. -/
example : 2 * ([1] : List ℚ).getD 0 0 + (⟨8, 8⟩ : Mesh ℚ).lGrid ≤ (⟨8, 8⟩ : Mesh ℚ).lBox := by decide +kernel

/-- `SortOK` is satisfiable: merge sort of the indices by key. -/
theorem SortOK_mergeSort : SortOK (fun keys => (List.range keys.length).mergeSort
    (fun a b => decide (keys.getD a 0 ≤ keys.getD b 0))) := by
  intro keys
  refine ⟨List.mergeSort_perm _ _, ?_⟩
  rw [List.pairwise_map]
  have := List.pairwise_mergeSort (le := fun a b => decide (keys.getD a 0 ≤ keys.getD b 0))
    (by intro a b c h1 h2; simp only [decide_eq_true_eq] at *; omega)
    (by intro a b; simp only [Bool.or_eq_true, decide_eq_true_eq]; omega) (List.range keys.length)
  exact this.imp (by intro a b h; simpa using h)

end

/-! ### Periodic distance (kd_tree) -/

theorem wrap_spec (l : ℝ) (hl : 0 < l) (dx : ℝ) (h : |dx| < l) :
    (∃ s : ℤ, wrap l dx = dx + s * l) ∧ |wrap l dx| ≤ l / 2 := by
  rw [abs_lt] at h
  unfold wrap
  simp only
  split_ifs with h1 h2 h2
  · linarith
  · refine ⟨⟨-1, by push_cast; ring⟩, ?_⟩
    rw [abs_le]; constructor <;> linarith
  · refine ⟨⟨1, by push_cast; ring⟩, ?_⟩
    rw [abs_le]; constructor <;> linarith
  · refine ⟨⟨0, by simp⟩, ?_⟩
    rw [abs_le]; constructor <;> linarith

theorem wrap_min (l : ℝ) (hl : 0 < l) (dx : ℝ) (h : |dx| < l) (s : ℤ) : |wrap l dx| ≤ |dx + s * l| := by
  obtain ⟨⟨t, ht⟩, hle⟩ := wrap_spec l hl dx h
  by_cases e : s = t
  · rw [ht, e]
  · have h1 : (1 : ℝ) ≤ |((s - t : ℤ) : ℝ)| := by
      rw [← Int.cast_abs]; exact_mod_cast Int.one_le_abs (sub_ne_zero.mpr e)
    have h2 : dx + s * l = wrap l dx + ((s - t : ℤ) : ℝ) * l := by rw [ht]; push_cast; ring
    have h3 : l ≤ |((s - t : ℤ) : ℝ) * l| := by
      rw [abs_mul, abs_of_pos hl]; nlinarith
    have h4 : |((s - t : ℤ) : ℝ) * l| ≤ |dx + s * l| + |wrap l dx| := by
      rw [h2]
      have := abs_sub (wrap l dx + ((s - t : ℤ) : ℝ) * l) (wrap l dx)
      simpa using this
    linarith

/-- Specification: the squared distance from `x` to the image of `y` shifted by `s` boxes per axis. -/
def imgSum (l : ℝ) : List ℝ → List ℝ → List ℤ → ℝ
  | a :: x, b :: y, s :: ss => (b + s * l - a) ^ 2 + imgSum l x y ss
  | _, _, _ => 0

theorem inBox_abs {l a b : ℝ} (ha : 0 ≤ a ∧ a < l) (hb : 0 ≤ b ∧ b < l) : |b - a| < l := by
  rw [abs_lt]; constructor <;> linarith

/-- C75: for points of the same dimension in the box, the reported distance is attained by one periodic
image and no image is nearer. -/
theorem C75_minimum_image (l : ℝ) (hl : 0 < l) (x y : List ℝ) (hlen : x.length = y.length)
    (hx : ∀ a ∈ x, 0 ≤ a ∧ a < l) (hy : ∀ a ∈ y, 0 ≤ a ∧ a < l) :
    (∃ s : List ℤ, s.length = x.length ∧ peDist l x y = Real.sqrt (imgSum l x y s)) ∧
    (∀ s : List ℤ, s.length = x.length → peDist l x y ≤ Real.sqrt (imgSum l x y s)) := by
  suffices h : (∃ s : List ℤ, s.length = x.length ∧
      ((List.zipWith (fun a b => wrap l (b - a)) x y).map (fun d => d ^ 2)).sum = imgSum l x y s) ∧
      (∀ s : List ℤ, s.length = x.length →
        ((List.zipWith (fun a b => wrap l (b - a)) x y).map (fun d => d ^ 2)).sum ≤ imgSum l x y s) by
    obtain ⟨⟨s, h1, h2⟩, h3⟩ := h
    exact ⟨⟨s, h1, by unfold peDist; rw [h2]⟩, fun s hs => Real.sqrt_le_sqrt (h3 s hs)⟩
  induction x generalizing y with
  | nil =>
      cases y with
      | nil => exact ⟨⟨[], rfl, by simp [imgSum]⟩, fun s hs => by simp [imgSum]⟩
      | cons => simp at hlen
  | cons a x ih =>
      cases y with
      | nil => simp at hlen
      | cons b y =>
          obtain ⟨⟨s, h1, h2⟩, h3⟩ := ih y (by simpa using hlen) (fun c hc => hx c (by simp [hc])) (fun c hc => hy c (by simp [hc]))
          have hab := inBox_abs (hx a (by simp)) (hy b (by simp))
          obtain ⟨⟨t, ht⟩, -⟩ := wrap_spec l hl (b - a) hab
          simp only [List.zipWith_cons_cons, List.map_cons, List.sum_cons]
          refine ⟨⟨t :: s, by simp [h1], ?_⟩, ?_⟩
          · simp only [imgSum]
            rw [h2, ht]; ring
          · intro ss hss
            cases ss with
            | nil => simp at hss
            | cons u us =>
                simp only [imgSum]
                have h4 := h3 us (by simpa using hss)
                have h5 := wrap_min l hl (b - a) hab u
                have h6 : (wrap l (b - a)) ^ 2 ≤ (b + u * l - a) ^ 2 := by
                  rw [show b + u * l - a = b - a + u * l by ring]
                  exact sq_le_sq.mpr h5
                linarith

theorem wrap_neg_sq (l : ℝ) (hl : 0 < l) (dx : ℝ) : (wrap l (-dx)) ^ 2 = (wrap l dx) ^ 2 := by
  unfold wrap
  simp only
  split_ifs <;> first | (exfalso; linarith) | ring

/-- C75: the distance is symmetric. -/
theorem C75_symmetric (l : ℝ) (hl : 0 < l) (x y : List ℝ) : peDist l x y = peDist l y x := by
  unfold peDist
  congr 1
  induction x generalizing y with
  | nil => simp
  | cons a x ih =>
      cases y with
      | nil => simp
      | cons b y =>
          simp only [List.zipWith_cons_cons, List.map_cons, List.sum_cons]
          rw [ih y, ← wrap_neg_sq l hl (b - a), neg_sub]

/-- C75: the distance is at most `sqrt(d) L / 2`, and it vanishes only for equal points. -/
theorem C75_bounds (l : ℝ) (hl : 0 < l) (x y : List ℝ) (hlen : x.length = y.length)
    (hx : ∀ a ∈ x, 0 ≤ a ∧ a < l) (hy : ∀ a ∈ y, 0 ≤ a ∧ a < l) :
    peDist l x y ≤ Real.sqrt x.length * (l / 2) ∧ 0 ≤ peDist l x y ∧ (peDist l x y = 0 ↔ x = y) := by
  suffices h : ((List.zipWith (fun a b => wrap l (b - a)) x y).map (fun d => d ^ 2)).sum ≤ x.length * (l / 2) ^ 2 ∧
      0 ≤ ((List.zipWith (fun a b => wrap l (b - a)) x y).map (fun d => d ^ 2)).sum ∧
      (((List.zipWith (fun a b => wrap l (b - a)) x y).map (fun d => d ^ 2)).sum = 0 ↔ x = y) by
    obtain ⟨h1, h2, h3⟩ := h
    refine ⟨?_, Real.sqrt_nonneg _, ?_⟩
    · unfold peDist
      refine (Real.sqrt_le_sqrt h1).trans_eq ?_
      rw [Real.sqrt_mul (by positivity), Real.sqrt_sq (by positivity)]
    · unfold peDist
      rw [Real.sqrt_eq_zero h2, h3]
  induction x generalizing y with
  | nil => cases y with
    | nil => simp
    | cons => simp at hlen
  | cons a x ih =>
      cases y with
      | nil => simp at hlen
      | cons b y =>
          obtain ⟨h1, h2, h3⟩ := ih y (by simpa using hlen) (fun c hc => hx c (by simp [hc])) (fun c hc => hy c (by simp [hc]))
          have ha := hx a (by simp)
          have hb := hy b (by simp)
          obtain ⟨⟨t, ht⟩, hle⟩ := wrap_spec l hl (b - a) (inBox_abs ha hb)
          simp only [List.zipWith_cons_cons, List.map_cons, List.sum_cons, List.length_cons]
          have hq : (wrap l (b - a)) ^ 2 ≤ (l / 2) ^ 2 := by
            rw [sq_le_sq, abs_of_pos (show 0 < l / 2 by linarith)]; exact hle
          refine ⟨by push_cast; linarith, by positivity, ?_⟩
          have hz : (wrap l (b - a)) ^ 2 = 0 ↔ a = b := by
            rw [sq_eq_zero_iff]
            constructor
            · intro h0
              have hmin := inBox_abs ha hb
              rw [ht] at h0
              have : |(t : ℝ)| * l < 1 * l := by
                have : (t : ℝ) * l = -(b - a) := by linarith
                rw [one_mul, ← abs_of_pos hl, ← abs_mul, this, abs_neg, abs_of_pos hl]
                exact hmin
              have := lt_of_mul_lt_mul_right this hl.le
              rw [← Int.cast_abs] at this
              have : |t| < 1 := by exact_mod_cast this
              have : t = 0 := by simpa using Int.abs_lt_one_iff.mp this
              subst this
              simp at h0; linarith
            · rintro rfl
              unfold wrap; simp only [sub_self]
              have g1 : ¬ (0 : ℝ) > 1 / 2 * l := by linarith
              have g2 : ¬ (0 : ℝ) < -(1 / 2 * l) := by linarith
              rw [if_neg g1, if_neg g2]
          rw [List.cons.injEq, ← hz, ← h3]
          constructor
          · intro h; constructor <;> nlinarith [sq_nonneg (wrap l (b - a))]
          · rintro ⟨h4, h5⟩; rw [h4, h5, add_zero]

/-- C75: data outside `[0, L)` is refused at construction, and a query point outside the box is refused
with AssertionError before the tree is searched. -/
theorem C75_reject (l : ℝ) (xs : List (List ℝ)) (ball : List ℝ → ℝ → List Nat) (x : List ℝ) (r : ℝ) :
    (peNew xs l = .error .valueError ↔ ∃ p ∈ xs, ∃ a ∈ p, ¬ (0 ≤ a ∧ a < l)) ∧
    (queryR1 xs l ball x r = .error .assertionError ↔ ∃ a ∈ x, ¬ (0 ≤ a ∧ a < l)) := by
  constructor
  · unfold peNew
    split_ifs with h
    · simp only [List.all_eq_true, Bool.and_eq_true, decide_eq_true_eq] at h
      simp only [reduceCtorEq, false_iff]
      rintro ⟨p, hp, a, ha, hn⟩
      exact hn (h p hp a ha)
    · simp only [true_iff]
      simpa only [List.all_eq_true, Bool.and_eq_true, decide_eq_true_eq, not_forall, exists_prop] using h
  · unfold queryR1 pyAssert
    by_cases h : ∀ a ∈ x, 0 ≤ a ∧ a < l
    · have e : (x.all (fun a => decide (0 ≤ a)) && x.all (fun a => decide (a < l))) = true := by
        simp only [Bool.and_eq_true, List.all_eq_true, decide_eq_true_eq]
        exact ⟨fun a ha => (h a ha).1, fun a ha => (h a ha).2⟩
      simp only [e, if_true, bind, Except.bind, pure, Except.pure, reduceCtorEq, false_iff]
      rintro ⟨a, ha, hn⟩
      exact hn (h a ha)
    · have e : (x.all (fun a => decide (0 ≤ a)) && x.all (fun a => decide (a < l))) = false := by
        rw [Bool.eq_false_iff]
        intro h'
        simp only [Bool.and_eq_true, List.all_eq_true, decide_eq_true_eq] at h'
        exact h fun a ha => ⟨h'.1 a ha, h'.2 a ha⟩
      simp only [e, bind, Except.bind, Bool.false_eq_true, if_false, true_iff]
      push Not at h
      obtain ⟨a, ha, hn⟩ := h
      exact ⟨a, ha, by push Not; exact hn⟩

/-- C75: if the tree's ball search returns exactly the indices whose nearest periodic image is within `r`,
then the returned distances are, in order, the minimum-image distances, and all are `≤ r`. -/
theorem C75_query (l : ℝ) (hl : 0 < l) (data : List (List ℝ)) (ball : List ℝ → ℝ → List Nat) (x : List ℝ) (r : ℝ)
    (hx : ∀ a ∈ x, 0 ≤ a ∧ a < l) (hdata : ∀ p ∈ data, p.length = x.length ∧ ∀ a ∈ p, 0 ≤ a ∧ a < l)
    (hball : ∀ i, i ∈ ball x r ↔ i < data.length ∧
      ∃ s : List ℤ, s.length = x.length ∧ Real.sqrt (imgSum l x (data.getD i []) s) ≤ r) :
    ∃ ids ds, queryR1 data l ball x r = .ok (ids, ds) ∧ ids = ball x r ∧
      ds = ids.map (fun i => peDist l x (data.getD i [])) ∧ (∀ d ∈ ds, 0 ≤ d ∧ d ≤ r) ∧
      (∀ i, i < data.length → (i ∈ ids ↔ peDist l x (data.getD i []) ≤ r)) := by
  have e : (x.all (fun a => decide (0 ≤ a)) && x.all (fun a => decide (a < l))) = true := by
    simp only [Bool.and_eq_true, List.all_eq_true, decide_eq_true_eq]
    exact ⟨fun a ha => (hx a ha).1, fun a ha => (hx a ha).2⟩
  have key : ∀ i, i < data.length → (i ∈ ball x r ↔ peDist l x (data.getD i []) ≤ r) := by
    intro i hi
    have hmem : data.getD i [] ∈ data := by
      rw [show data.getD i [] = data[i] by simp [List.getD, List.getElem?_eq_getElem hi]]
      exact List.getElem_mem hi
    obtain ⟨hlen, hin⟩ := hdata _ hmem
    obtain ⟨⟨s0, hs0, he⟩, hmin⟩ := C75_minimum_image l hl x _ hlen.symm hx hin
    rw [hball]
    constructor
    · rintro ⟨_, s, hs, hle⟩
      exact (hmin s hs).trans hle
    · intro h; exact ⟨hi, s0, hs0, he ▸ h⟩
  refine ⟨ball x r, _, ?_, rfl, rfl, ?_, key⟩
  · unfold queryR1 pyAssert
    simp only [e, if_true, bind, Except.bind, pure, Except.pure]
  · intro d hd
    obtain ⟨i, hi, rfl⟩ := List.mem_map.mp hd
    exact ⟨Real.sqrt_nonneg _, (key i ((hball i).mp hi).1).mp hi⟩

/-- Across the boundary: in a box of size 10, the points 1 and 9 are 2 apart. -/
example : peDist 10 [1] [9] = 2 := by
  unfold peDist wrap
  norm_num
  rw [show (4 : ℝ) = 2 ^ 2 by norm_num, Real.sqrt_sq (by norm_num)]

end Pyhipp.Neighbor
