import Verif.Base.Py
import Verif.Base.Num
import Mathlib.Data.List.Sort
/-
Sorted lists and numpy primitives on them (`np.searchsorted`, `np.diff`, `np.sort`).
-/
namespace Pyhipp

section Order
variable {α : Type _} [LinearOrder α]

/-- `np.searchsorted(xs, v, side='right')` for sorted `xs`: number of entries `<= v`. -/
def ssRight (xs : List α) (v : α) : Nat := xs.countP (fun a => decide (a ≤ v))

/-- `np.searchsorted(xs, v, side='left')` for sorted `xs`: number of entries `< v`. -/
def ssLeft (xs : List α) (v : α) : Nat := xs.countP (fun a => decide (a < v))

/-- `np.sort` -/
def npSort (xs : List α) : List α := xs.mergeSort (fun a b => decide (a ≤ b))

theorem pw_le {xs : List α} (hs : xs.Pairwise (· ≤ ·)) {i j : Nat} (hij : i ≤ j)
    (hj : j < xs.length) : xs[i]'(by omega) ≤ xs[j] := by
  rcases Nat.eq_or_lt_of_le hij with h | h
  · subst h; exact le_refl _
  · exact List.pairwise_iff_getElem.mp hs i j (by omega) hj h

theorem pw_lt {xs : List α} (hs : xs.Pairwise (· < ·)) {i j : Nat} (hij : i < j)
    (hj : j < xs.length) : xs[i]'(by omega) < xs[j] :=
  List.pairwise_iff_getElem.mp hs i j (by omega) hj hij

theorem pw_lt_le {xs : List α} (hs : xs.Pairwise (· < ·)) : xs.Pairwise (· ≤ ·) :=
  hs.imp (fun h => le_of_lt h)

theorem countP_prefix (xs : List α) (p : α → Bool)
    (hs : xs.Pairwise (fun a b => p b = true → p a = true)) (j : Nat) (hj : j < xs.length) :
    p xs[j] = true ↔ j < xs.countP p := by
  induction xs generalizing j with
  | nil => simp at hj
  | cons a t ih =>
      rw [List.pairwise_cons] at hs
      rw [List.countP_cons]
      by_cases ha : p a = true
      · rcases j with _ | j
        · simp [ha]
        · have := ih hs.2 j (by simpa using hj)
          simp only [List.getElem_cons_succ, ha, if_true]
          rw [this]; omega
      · have hz : t.countP p = 0 := by
          rw [List.countP_eq_zero]
          intro b hb hpb
          exact ha (hs.1 b hb hpb)
        rcases j with _ | j
        · simp [ha, hz]
        · have hj' : j < t.length := by simpa using hj
          have h2 : ¬ p t[j] = true := fun h => ha (hs.1 _ (List.getElem_mem _) h)
          simp [ha, hz, h2]

/-- Meaning of `searchsorted(side='right')` on a sorted array. -/
theorem ssRight_spec (xs : List α) (v : α) (hs : xs.Pairwise (· ≤ ·)) (j : Nat)
    (hj : j < xs.length) : xs[j] ≤ v ↔ j < ssRight xs v := by
  have := countP_prefix xs (fun a => decide (a ≤ v))
    (hs.imp (fun {a b} hab => by simpa using fun h => le_trans hab h)) j hj
  simpa [ssRight] using this

/-- Meaning of `searchsorted(side='left')` on a sorted array. -/
theorem ssLeft_spec (xs : List α) (v : α) (hs : xs.Pairwise (· ≤ ·)) (j : Nat)
    (hj : j < xs.length) : xs[j] < v ↔ j < ssLeft xs v := by
  have := countP_prefix xs (fun a => decide (a < v))
    (hs.imp (fun {a b} hab => by simpa using fun h => lt_of_le_of_lt hab h)) j hj
  simpa [ssLeft] using this

theorem ssRight_le_length (xs : List α) (v : α) : ssRight xs v ≤ xs.length :=
  List.countP_le_length
theorem ssLeft_le_length (xs : List α) (v : α) : ssLeft xs v ≤ xs.length :=
  List.countP_le_length

/-- `searchsorted(side='right') - 1` is the only index with this property. -/
theorem ssRight_unique (xs : List α) (v : α) (hs : xs.Pairwise (· ≤ ·)) (i : Int)
    (h0 : -1 ≤ i) (h1 : i < xs.length)
    (h : ∀ j (hj : j < xs.length), xs[j] ≤ v ↔ (j : Int) ≤ i) :
    (ssRight xs v : Int) - 1 = i := by
  have hb := ssRight_le_length xs v
  by_contra hne
  rcases lt_or_gt_of_ne hne with hlt | hgt
  · have hk : (i.toNat) < xs.length := by omega
    have := h i.toNat hk
    rw [ssRight_spec xs v hs i.toNat hk] at this
    omega
  · have hk : (i + 1).toNat < xs.length := by omega
    have := h (i + 1).toNat hk
    rw [ssRight_spec xs v hs _ hk] at this
    omega

theorem npSort_perm (xs : List α) : (npSort xs).Perm xs := List.mergeSort_perm xs _

theorem npSort_sorted (xs : List α) : (npSort xs).Pairwise (· ≤ ·) := by
  have := List.pairwise_mergeSort (le := fun a b : α => decide (a ≤ b))
    (fun a b c h1 h2 => by simp at *; exact le_trans h1 h2)
    (fun a b => by simp; exact le_total a b) xs
  exact this.imp (fun h => by simpa using h)

theorem npSort_length (xs : List α) : (npSort xs).length = xs.length := (npSort_perm xs).length_eq

theorem npSort_of_sorted (xs : List α) (h : xs.Pairwise (· ≤ ·)) : npSort xs = xs :=
  (npSort_perm xs).eq_of_pairwise (le := (· ≤ ·)) (fun _ _ _ _ h1 h2 => le_antisymm h1 h2)
    (npSort_sorted xs) h

end Order

/-- `np.diff` -/
def npDiff {α : Type _} [Sub α] (xs : List α) : List α :=
  List.zipWith (fun hi lo => hi - lo) (xs.drop 1) xs

theorem npDiff_length {α : Type _} [Sub α] (xs : List α) :
    (npDiff xs).length = xs.length - 1 := by
  simp [npDiff]

theorem npDiff_getElem {α : Type _} [Sub α] (xs : List α) (i : Nat) (h : i < (npDiff xs).length) :
    (npDiff xs)[i] = xs[i + 1]'(by rw [npDiff_length] at h; omega)
      - xs[i]'(by rw [npDiff_length] at h; omega) := by
  simp [npDiff]

/-- `np.linspace(b, e, n + 1)` -/
def linspace {α : Type _} [Field α] (b e : α) (n : Nat) : List α :=
  (List.range (n + 1)).map (fun i : Nat => b + (i : α) * ((e - b) / (n : α)))

end Pyhipp
