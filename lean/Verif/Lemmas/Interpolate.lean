import Verif.Model.Interpolate
namespace Pyhipp.Interpolate
open Pyhipp

section Order
variable {α : Type _} [LinearOrder α]

theorem sorted_le {xs : List α} (hs : xs.Pairwise (· ≤ ·)) {i j : Nat} (hij : i ≤ j)
    (hj : j < xs.length) : xs[i]'(by omega) ≤ xs[j] := by
  rcases Nat.eq_or_lt_of_le hij with h | h
  · subst h; exact le_refl _
  · exact List.pairwise_iff_getElem.mp hs i j (by omega) hj h

theorem sorted_lt {xs : List α} (hs : xs.Pairwise (· < ·)) {i j : Nat} (hij : i < j)
    (hj : j < xs.length) : xs[i]'(by omega) < xs[j] :=
  List.pairwise_iff_getElem.mp hs i j (by omega) hj hij

theorem strict_sorted {xs : List α} (hs : xs.Pairwise (· < ·)) : xs.Pairwise (· ≤ ·) :=
  hs.imp (fun h => le_of_lt h)

theorem bisearchLoop_spec (xs : List α) (v : α) (l r : Nat) (hlr : l < r)
    (hr : r ≤ xs.length) (hl : xs[l]'(by omega) ≤ v)
    (hv : ∀ h : r < xs.length, v < xs[r]) :
    ∃ k, ∃ hk : k < xs.length, bisearchLoop xs v l r = .ok k ∧ xs[k] ≤ v ∧
      ∀ h : k + 1 < xs.length, v < xs[k + 1] := by
  fun_induction bisearchLoop xs v l r with
  | case1 l r h c xc hc hlt ih =>
      have hcl : c < xs.length := by omega
      rw [pyGet_ofNat xs c hcl] at hc
      cases hc
      exact ih (by omega) (by omega) hl (fun _ => hlt)
  | case2 l r h c xc hc hlt ih =>
      have hcl : c < xs.length := by omega
      rw [pyGet_ofNat xs c hcl] at hc
      cases hc
      exact ih (by omega) hr (not_lt.mp hlt) hv
  | case3 l r h c e hc =>
      have hcl : c < xs.length := by omega
      rw [pyGet_ofNat xs c hcl] at hc
      cases hc
  | case4 l r h =>
      have e : r = l + 1 := by omega
      subst e
      exact ⟨l, by omega, rfl, hl, hv⟩

/-- Full description of `bisearch` on a non-empty sorted array. -/
theorem bisearch_spec (xs : List α) (v : α) (hne : xs ≠ []) (hs : xs.Pairwise (· ≤ ·)) :
    ∃ i : Int, bisearch xs v = .ok i ∧ -1 ≤ i ∧ i < xs.length ∧
      ∀ j (h : j < xs.length), xs[j] ≤ v ↔ (j : Int) ≤ i := by
  have hn : 0 < xs.length := List.length_pos_iff.mpr hne
  have h0 : pyGet xs 0 = .ok xs[0] := pyGet_ofNat xs 0 hn
  by_cases hlt : v < xs[0]
  · refine ⟨-1, ?_, by omega, by omega, ?_⟩
    · simp [bisearch, pyAssert, hn, h0, hlt, Except.bind_ok]
    · intro j hj
      have : xs[0] ≤ xs[j] := sorted_le hs (Nat.zero_le j) hj
      constructor
      · intro h; exact absurd (lt_of_lt_of_le hlt this) (not_lt.mpr h)
      · intro h; omega
  · obtain ⟨k, hk, hok, hle, hgt⟩ := bisearchLoop_spec xs v 0 xs.length hn (le_refl _)
      (not_lt.mp hlt) (fun h => absurd h (lt_irrefl _))
    refine ⟨k, ?_, by omega, by omega, ?_⟩
    · simp [bisearch, pyAssert, hn, h0, hlt, Except.bind_ok, hok]
    · intro j hj
      constructor
      · intro h
        by_contra hc
        have hk1 : k + 1 < xs.length := by omega
        have := hgt hk1
        have h2 := sorted_le hs (i := k + 1) (j := j) (by omega) hj
        exact absurd h (not_le.mpr (lt_of_lt_of_le this h2))
      · intro h
        exact le_trans (sorted_le hs (by omega) hk) hle

end Order

/-- A convex combination stays in the range of its arguments. -/
theorem convex_mem {α : Type} [Field α] [LinearOrder α] [IsStrictOrderedRing α]
    {a b p q lo hi : α} (hp : 0 ≤ p) (hq : 0 ≤ q) (hpq : p + q = 1) (ha : lo ≤ a ∧ a ≤ hi)
    (hb : lo ≤ b ∧ b ≤ hi) : lo ≤ a * p + b * q ∧ a * p + b * q ≤ hi := by
  have e : q = 1 - p := by linarith
  have h1 := mul_nonneg hp (sub_nonneg.mpr ha.1)
  have h2 := mul_nonneg hp (sub_nonneg.mpr ha.2)
  have h3 := mul_nonneg hq (sub_nonneg.mpr hb.1)
  have h4 := mul_nonneg hq (sub_nonneg.mpr hb.2)
  subst e
  constructor <;> linarith

section Field
variable {α : Type _} [Field α] [LinearOrder α]

/-- The three outcomes of `bisearch_interp_weight` on strictly increasing nodes. -/
theorem interpWeight_cases (xs : List α) (v : α) (hne : xs ≠ []) (hs : xs.Pairwise (· ≤ ·)) :
    (∃ h : 0 < xs.length, v < xs[0] ∧ bisearchInterpWeight xs v = .ok (0, 0, 0, 1)) ∨
    (∃ h : xs.length - 1 < xs.length, xs[xs.length - 1] ≤ v ∧ bisearchInterpWeight xs v
        = .ok (((xs.length - 1 : Nat) : Int), ((xs.length - 1 : Nat) : Int), 1, 0)) ∨
    (∃ k, ∃ h : k + 1 < xs.length, xs[k] ≤ v ∧ v < xs[k + 1] ∧
      bisearchInterpWeight xs v = .ok ((k : Int), ((k + 1 : Nat) : Int),
        (xs[k + 1] - v) / ((v - xs[k]) + (xs[k + 1] - v)),
        (v - xs[k]) / ((v - xs[k]) + (xs[k + 1] - v)))) := by
  have hn : 0 < xs.length := List.length_pos_iff.mpr hne
  obtain ⟨i, hi, h1, h2, h3⟩ := bisearch_spec xs v hne hs
  by_cases hneg : i < 0
  · left
    refine ⟨hn, ?_, ?_⟩
    · by_contra hc
      have := (h3 0 hn).mp (not_lt.mp hc)
      omega
    · simp [bisearchInterpWeight, hi, Except.bind_ok, hneg]
  · right
    obtain ⟨k, rfl⟩ : ∃ k : Nat, i = k := ⟨i.toNat, by omega⟩
    by_cases hlast : k + 1 < xs.length
    · right
      have hk : xs[k] ≤ v := (h3 k (by omega)).mpr (le_refl _)
      have hk1 : v < xs[k + 1] := by
        by_contra hc
        have := (h3 (k + 1) hlast).mp (not_lt.mp hc)
        omega
      refine ⟨k, hlast, hk, hk1, ?_⟩
      have e1 : pyGet xs (k : Int) = .ok xs[k] := pyGet_ofNat xs k (by omega)
      have e2 : pyGet xs ((k : Int) + 1) = .ok xs[k + 1] := by
        have := pyGet_ofNat xs (k + 1) hlast
        simpa using this
      have hc : ¬ ((k : Int) + 1 > (xs.length : Int) - 1) := by omega
      simp only [bisearchInterpWeight, hi, Except.bind_ok, hneg, hc, e1, e2, linearInterpWeight,
        if_false, Except.pure_ok]
      simp
    · left
      have hkn : k = xs.length - 1 := by omega
      refine ⟨by omega, ?_, ?_⟩
      · exact (h3 _ (by omega)).mpr (by omega)
      · have hc : ((k : Int) + 1 > (xs.length : Int) - 1) := by omega
        have e : ((xs.length : Int) - 1) = ((xs.length - 1 : Nat) : Int) := by omega
        simp only [bisearchInterpWeight, hi, Except.bind_ok, hneg, if_pos hc, if_false,
          Except.pure_ok]
        rw [e]

/-- The three outcomes of `bisearch_interp`. -/
theorem interp_cases (xs ys : List α) (v : α) (hne : xs ≠ []) (hs : xs.Pairwise (· ≤ ·))
    (hlen : ys.length = xs.length) :
    (∃ h : 0 < xs.length, v < xs[0] ∧ bisearchInterp xs ys v = .ok (ys[0]'(by omega))) ∨
    (∃ h : xs.length - 1 < xs.length, xs[xs.length - 1] ≤ v ∧
        bisearchInterp xs ys v = .ok (ys[xs.length - 1]'(by omega))) ∨
    (∃ k, ∃ h : k + 1 < xs.length, xs[k] ≤ v ∧ v < xs[k + 1] ∧
      bisearchInterp xs ys v = .ok
        (ys[k]'(by omega) * ((xs[k + 1] - v) / (xs[k + 1] - xs[k])) +
         ys[k + 1]'(by omega) * ((v - xs[k]) / (xs[k + 1] - xs[k])))) := by
  rcases interpWeight_cases xs v hne hs with ⟨h, h1, h2⟩ | ⟨h, h1, h2⟩ | ⟨k, h, h1, h1', h2⟩
  · left
    refine ⟨h, h1, ?_⟩
    have e := pyGet_ofNat ys 0 (by omega)
    simp only [Nat.cast_zero] at e
    simp only [bisearchInterp, h2, Except.bind_ok, Except.pure_ok]
    rw [show pyGet ys 0 = _ from e]
    simp [Except.bind_ok]
  · right; left
    refine ⟨h, h1, ?_⟩
    have e := pyGet_ofNat ys (xs.length - 1) (by omega)
    simp only [bisearchInterp, h2, Except.bind_ok, Except.pure_ok, e]
    simp
  · right; right
    refine ⟨k, h, h1, h1', ?_⟩
    have e := pyGet_ofNat ys k (by omega)
    have e1 := pyGet_ofNat ys (k + 1) (by omega)
    simp only [bisearchInterp, h2, Except.bind_ok, Except.pure_ok, e, e1]
    have hx : v - xs[k] + (xs[k + 1] - v) = xs[k + 1] - xs[k] := by ring
    rw [hx]

end Field
end Pyhipp.Interpolate
