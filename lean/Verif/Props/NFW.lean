import Verif.Model.NFW
import Verif.Props.Interpolate
import Mathlib.Analysis.Calculus.Deriv.MeanValue
import Mathlib.Analysis.SpecialFunctions.Log.Deriv
import Mathlib.Analysis.Complex.ExponentialBounds
import Mathlib.Tactic.FieldSimp
/-
C98: concentration of an NFW halo from the ratio of maximum to virial velocity.
-/
namespace Pyhipp.Cosmology
open Pyhipp Set

theorem nfwMu_eq (x : ℝ) : nfwMu x = Real.log (1 + x) - x / (1 + x) := by unfold nfwMu; norm_num

theorem hasDeriv_mu {x : ℝ} (hx : 0 ≤ x) : HasDerivAt (fun x : ℝ => Real.log (1 + x) - x / (1 + x)) (x / (1 + x) ^ 2) x := by
  have h1 : HasDerivAt (fun x : ℝ => 1 + x) 1 x := (hasDerivAt_id x).const_add 1
  have h2 := h1.log (by linarith)
  have h3 := (hasDerivAt_id x).fun_div h1 (by linarith)
  refine (h2.fun_sub h3).congr_deriv ?_
  have : 1 + x ≠ 0 := by linarith
  simp only [id]
  field_simp
  ring

/-- C98: the mass function of the NFW profile is positive and strictly increasing. -/
theorem C98_mu {x y : ℝ} (hx : 0 ≤ x) (hxy : x < y) : nfwMu 0 = 0 ∧ nfwMu x < nfwMu y ∧ 0 < nfwMu y := by
  have hm : StrictMonoOn (fun x : ℝ => Real.log (1 + x) - x / (1 + x)) (Ici 0) := by
    refine strictMonoOn_of_deriv_pos (convex_Ici 0) (fun t ht => (hasDeriv_mu ht).continuousAt.continuousWithinAt) ?_
    intro t ht
    rw [interior_Ici] at ht
    have ht' : (0 : ℝ) < t := ht
    rw [(hasDeriv_mu (le_of_lt ht')).deriv]
    positivity
  have h0 : nfwMu 0 = 0 := by rw [nfwMu_eq]; simp
  simp only [nfwMu_eq] at *
  have a := hm (show x ∈ Ici 0 from hx) (show y ∈ Ici 0 from le_of_lt (lt_of_le_of_lt hx hxy)) hxy
  have b := hm (show (0 : ℝ) ∈ Ici 0 from le_refl (0 : ℝ)) (show y ∈ Ici 0 from le_of_lt (lt_of_le_of_lt hx hxy)) (lt_of_le_of_lt hx hxy)
  refine ⟨h0, a, ?_⟩
  simp only at b
  rw [h0] at b
  exact b

/-- 2.1626 is just beyond the concentration where v_max = v_vir. -/
theorem nfw_start : (2 * (2.1626 : ℝ) ^ 2 + 2.1626) / (1 + 2.1626) ^ 2 < Real.log (1 + 2.1626) := by
  rw [Real.lt_log_iff_exp_lt (by norm_num)]
  have e : (2 * (2.1626 : ℝ) ^ 2 + 2.1626) / (1 + 2.1626) ^ 2 = 1 + (2 * (2.1626 : ℝ) ^ 2 + 2.1626 - (1 + 2.1626) ^ 2) / (1 + 2.1626) ^ 2 := by norm_num
  rw [e, Real.exp_add]
  have h1 := Real.exp_one_lt_d9
  have h2 := Real.exp_bound' (x := (2 * (2.1626 : ℝ) ^ 2 + 2.1626 - (1 + 2.1626) ^ 2) / (1 + 2.1626) ^ 2) (by norm_num) (by norm_num) (n := 8) (by norm_num)
  have h3 : Real.exp ((2 * (2.1626 : ℝ) ^ 2 + 2.1626 - (1 + 2.1626) ^ 2) / (1 + 2.1626) ^ 2) ≤ 1.163454 := by
    refine le_trans h2 ?_
    simp only [Finset.sum_range_succ, Finset.sum_range_zero, Nat.factorial]
    norm_num
  have h4 : (0 : ℝ) < Real.exp ((2 * (2.1626 : ℝ) ^ 2 + 2.1626 - (1 + 2.1626) ^ 2) / (1 + 2.1626) ^ 2) := Real.exp_pos _
  calc Real.exp 1 * Real.exp ((2 * (2.1626 : ℝ) ^ 2 + 2.1626 - (1 + 2.1626) ^ 2) / (1 + 2.1626) ^ 2) ≤ 2.7182818286 * 1.163454 :=
        mul_le_mul (le_of_lt h1) h3 (le_of_lt h4) (by norm_num)
    _ < 1 + 2.1626 := by norm_num


theorem nfw_pos {c : ℝ} (hc : 2.1626 ≤ c) : (2 * c ^ 2 + c) / (1 + c) ^ 2 < Real.log (1 + c) := by
  have hd : ∀ x : ℝ, 1 ≤ x → HasDerivAt (fun x : ℝ => Real.log (1 + x) - (2 * x ^ 2 + x) / (1 + x) ^ 2) ((x ^ 2 - x) / (1 + x) ^ 3) x := by
    intro x hx
    have h1 : HasDerivAt (fun x : ℝ => 1 + x) 1 x := (hasDerivAt_id x).const_add 1
    have h2 := h1.log (by linarith)
    have h4 : HasDerivAt (fun x : ℝ => 2 * x ^ 2 + x) (2 * (2 * x) + 1) x := by
      have := ((hasDerivAt_pow 2 x).const_mul 2).fun_add (hasDerivAt_id' x)
      refine this.congr_deriv ?_
      norm_num
    have h5 : HasDerivAt (fun x : ℝ => (1 + x) ^ 2) (2 * (1 + x)) x := by
      have := h1.fun_pow 2
      refine this.congr_deriv ?_
      norm_num
    have h0 : 1 + x ≠ 0 := by linarith
    refine (h2.fun_sub (h4.fun_div h5 (pow_ne_zero 2 h0))).congr_deriv ?_
    field_simp
    ring
  have hm : MonotoneOn (fun x : ℝ => Real.log (1 + x) - (2 * x ^ 2 + x) / (1 + x) ^ 2) (Ici 1) := by
    refine monotoneOn_of_deriv_nonneg (convex_Ici 1) (fun t ht => (hd t ht).continuousAt.continuousWithinAt)
      (fun t ht => (hd t (interior_subset ht)).differentiableAt.differentiableWithinAt) ?_
    intro t ht
    have ht' : (1 : ℝ) ≤ t := interior_subset ht
    rw [(hd t ht').deriv]
    exact div_nonneg (by nlinarith) (by positivity)
  have h1 := hm (show (2.1626 : ℝ) ∈ Ici 1 by simp only [mem_Ici]; norm_num) (show c ∈ Ici 1 by
    simp only [mem_Ici]; refine le_trans ?_ hc; norm_num) hc
  have h2 := nfw_start
  simp only at h1
  generalize Real.log (1 + 2.1626) = L at *
  generalize (2 * (2.1626 : ℝ) ^ 2 + 2.1626) / (1 + 2.1626) ^ 2 = M at *
  clear hc
  linarith

/-- C98: beyond c = 2.1626 the velocity ratio increases strictly with the concentration, so it determines the concentration. -/
theorem C98_increasing {c c' : ℝ} (hc : 2.1626 ≤ c) (h : c < c') : c_to_v c < c_to_v c' ∧ 0 < c_to_v c := by
  have hc0 : 0 < c := lt_of_lt_of_le (by norm_num) hc
  have hm : StrictAntiOn (fun x : ℝ => (Real.log (1 + x) - x / (1 + x)) / x) (Ici 2.1626) := by
    have hd : ∀ x : ℝ, x ∈ Ici 2.1626 → HasDerivAt (fun x : ℝ => (Real.log (1 + x) - x / (1 + x)) / x)
        ((x / (1 + x) ^ 2 * x - (Real.log (1 + x) - x / (1 + x)) * 1) / x ^ 2) x := by
      intro x hx
      have hx0 : (0 : ℝ) < x := lt_of_lt_of_le (by norm_num) hx
      exact (hasDeriv_mu (le_of_lt hx0)).fun_div (hasDerivAt_id x) (ne_of_gt hx0)
    refine strictAntiOn_of_deriv_neg (convex_Ici _) (fun t ht => (hd t ht).continuousAt.continuousWithinAt) ?_
    intro t ht
    have ht' : t ∈ Ici (2.1626 : ℝ) := interior_subset ht
    have ht0 : (0 : ℝ) < t := lt_of_lt_of_le (by norm_num) ht'
    rw [(hd t ht').deriv]
    refine div_neg_of_neg_of_pos ?_ (by positivity)
    have h1 := nfw_pos ht'
    have e : (2 * t ^ 2 + t) / (1 + t) ^ 2 = t / (1 + t) ^ 2 * t + t / (1 + t) := by field_simp; ring
    rw [e] at h1
    clear ht ht'
    linarith
  have h1 := hm (show c ∈ Ici 2.1626 from hc) (show c' ∈ Ici 2.1626 from le_trans hc (le_of_lt h)) h
  simp only [← nfwMu_eq] at h1
  have hp := (C98_mu le_rfl hc0).2.2
  have hc0' : 0 < c' := lt_trans hc0 h
  have hp' := (C98_mu le_rfl hc0').2.2
  unfold c_to_v
  have e : ∀ x : ℝ, 0.216217 * x / nfwMu x = 0.216217 * (nfwMu x / x)⁻¹ := by intro x; rw [inv_div, mul_div_assoc]
  refine ⟨Real.sqrt_lt_sqrt (by positivity) ?_, Real.sqrt_pos.mpr (by positivity)⟩
  rw [e, e]
  refine mul_lt_mul_of_pos_left ?_ (by norm_num)
  exact inv_strictAnti₀ (by positivity) h1

theorem linspaceR_sorted {a b : ℝ} (h : a < b) (n : Nat) : (linspaceR a b n).Pairwise (· < ·) := by
  unfold linspaceR
  rw [List.pairwise_map, List.pairwise_iff_getElem]
  intro i j hi hj hij
  simp only [List.length_range] at hi hj
  simp only [List.getElem_range]
  have hn : (0 : ℝ) < (n : ℝ) - 1 := by
    have : (2 : ℝ) ≤ n := by exact_mod_cast (show 2 ≤ n by omega)
    linarith
  have hst : 0 < (b - a) / (n - 1 : ℝ) := div_pos (by linarith) hn
  have : (i : ℝ) < j := by exact_mod_cast hij
  have := mul_lt_mul_of_pos_right this hst
  linarith

theorem linspaceR_range {a b : ℝ} (h : a < b) (n : Nat) : ∀ x ∈ linspaceR a b n, a ≤ x ∧ x ≤ b := by
  intro x hx
  unfold linspaceR at hx
  obtain ⟨i, hi, rfl⟩ := List.mem_map.mp hx
  rw [List.mem_range] at hi
  by_cases h1 : n = 1
  · subst h1
    have : i = 0 := by omega
    subst this
    simp; linarith
  have hn : (0 : ℝ) < (n : ℝ) - 1 := by
    have : (2 : ℝ) ≤ n := by exact_mod_cast (show 2 ≤ n by omega)
    linarith
  have hi' : (i : ℝ) ≤ (n : ℝ) - 1 := by
    have : (i : ℝ) + 1 ≤ n := by exact_mod_cast hi
    linarith
  have hst : 0 < (b - a) / (n - 1 : ℝ) := div_pos (by linarith) hn
  have e : ((n : ℝ) - 1) * ((b - a) / (n - 1 : ℝ)) = b - a := by field_simp
  have h2 := mul_le_mul_of_nonneg_right hi' (le_of_lt hst)
  rw [e] at h2
  have : 0 ≤ (i : ℝ) * ((b - a) / (n - 1 : ℝ)) := by positivity
  constructor <;> linarith

theorem nfwNodes_sorted (n : Nat) : (nfwNodes n).Pairwise (· < ·) ∧ ∀ c ∈ nfwNodes n, 2.1626 ≤ c ∧ c ≤ 1000 := by
  have r1 := linspaceR_range (show (2.1626 : ℝ) < 50.0 by norm_num) n
  have r2 := linspaceR_range (show (51 : ℝ) < 100.0 by norm_num) n
  have r3 := linspaceR_range (show (101 : ℝ) < 1000.0 by norm_num) n
  constructor
  · unfold nfwNodes
    rw [List.pairwise_append, List.pairwise_append]
    refine ⟨⟨linspaceR_sorted (by norm_num) n, linspaceR_sorted (by norm_num) n, ?_⟩, linspaceR_sorted (by norm_num) n, ?_⟩
    · intro a ha b hb
      exact lt_of_le_of_lt (r1 a ha).2 (lt_of_lt_of_le (by norm_num) (r2 b hb).1)
    · intro a ha b hb
      rcases List.mem_append.mp ha with h | h
      · exact lt_of_le_of_lt (r1 a h).2 (lt_of_lt_of_le (by norm_num) (r3 b hb).1)
      · exact lt_of_le_of_lt (r2 a h).2 (lt_of_lt_of_le (by norm_num) (r3 b hb).1)
  · intro c hc
    unfold nfwNodes at hc
    rcases List.mem_append.mp hc with h | h
    · rcases List.mem_append.mp h with h | h
      · exact ⟨(r1 c h).1, le_trans (r1 c h).2 (by norm_num)⟩
      · exact ⟨le_trans (by norm_num) (r2 c h).1, le_trans (r2 c h).2 (by norm_num)⟩
    · exact ⟨le_trans (by norm_num) (r3 c h).1, le_trans (r3 c h).2 (by norm_num)⟩

/-- With strictly increasing x, interp1d is the piecewise linear function through the points, and raises outside. -/
theorem interp1d_sorted (x y : List ℝ) (hl : y.length = x.length) (hs : x.Pairwise (· < ·)) (hx : x ≠ []) (v : ℝ) :
    interp1d x y v = if v < x.head hx ∨ x.getLast hx < v then .error .valueError else Interpolate.Linear.valueAt ⟨x, y⟩ v := by
  have hz : (x.zip y).map Prod.fst = x := List.map_fst_zip (le_of_eq hl.symm)
  have hz2 : (x.zip y).map Prod.snd = y := List.map_snd_zip (le_of_eq hl)
  have hsz : (x.zip y).Pairwise (fun a b => a.1 ≤ b.1) := by
    have : ((x.zip y).map Prod.fst).Pairwise (· ≤ ·) := by rw [hz]; exact hs.imp le_of_lt
    exact List.pairwise_map.mp this
  have hn : interp1dNodes x y = x.zip y := by
    unfold interp1dNodes
    exact List.Pairwise.insertionSort_eq hsz
  have hne : x.zip y ≠ [] := by
    intro e; rw [e] at hz; exact hx (by simpa using hz.symm)
  unfold interp1d
  rw [hn]
  simp only
  rw [List.head?_eq_some_head hne, List.getLast?_eq_some_getLast hne]
  simp only
  have h1 : ((x.zip y).head hne).1 = x.head hx := by
    have : (x.zip y).map Prod.fst ≠ [] := by rw [hz]; exact hx
    have e := List.head_map (f := Prod.fst) (l := x.zip y) this
    rw [← e]; congr 1
  have h2 : ((x.zip y).getLast hne).1 = x.getLast hx := by
    have : (x.zip y).map Prod.fst ≠ [] := by rw [hz]; exact hx
    have e := List.getLast_map (f := Prod.fst) (l := x.zip y) this
    rw [← e]; congr 1
  rw [h1, h2, hz, hz2]
  by_cases a : v < x.head hx
  · rw [if_pos a, if_pos (Or.inl a)]
  · rw [if_neg a]
    by_cases b : x.getLast hx < v
    · rw [if_pos b, if_pos (Or.inr b)]
    · rw [if_neg b, if_neg (by tauto)]

/-- C98: at the tabulated concentrations the inversion is exact; elsewhere in the range the concentration returned lies between the
two tabulated values that bracket the true one, so it is off by less than their distance; other velocity ratios raise ValueError. -/
theorem C98_invert (n : Nat) (hn : 1 ≤ n) :
    (∀ c ∈ nfwNodes n, v_to_c n (c_to_v c) = .ok c) ∧
    (∀ k (hk : k + 1 < (nfwNodes n).length) (c : ℝ), (nfwNodes n)[k] ≤ c → c ≤ (nfwNodes n)[k + 1] →
      ∃ c', v_to_c n (c_to_v c) = .ok c' ∧ (nfwNodes n)[k] ≤ c' ∧ c' ≤ (nfwNodes n)[k + 1]) ∧
    ∀ v, (∀ c ∈ nfwNodes n, v < c_to_v c) ∨ (∀ c ∈ nfwNodes n, c_to_v c < v) → v_to_c n v = .error .valueError := by
  obtain ⟨hs, hr⟩ := nfwNodes_sorted n
  have hne : nfwNodes n ≠ [] := by
    intro e
    have : (nfwNodes n).length = 0 := by rw [e]; rfl
    simp [nfwNodes, linspaceR] at this
    omega
  have hvs : ((nfwNodes n).map c_to_v).Pairwise (· < ·) := by
    rw [List.pairwise_map]
    rw [List.pairwise_iff_getElem] at hs ⊢
    intro i j hi hj hij
    exact (C98_increasing (hr _ (List.getElem_mem hi)).1 (hs i j hi hj hij)).1
  have hvne : (nfwNodes n).map c_to_v ≠ [] := by simpa using hne
  have hmono : ∀ a b, 2.1626 ≤ a → a ≤ b → c_to_v a ≤ c_to_v b := by
    intro a b ha hab
    rcases eq_or_lt_of_le hab with rfl | h
    · exact le_refl _
    · exact le_of_lt (C98_increasing ha h).1
  have hv : ∀ v, v_to_c n v = if v < ((nfwNodes n).map c_to_v).head hvne ∨ ((nfwNodes n).map c_to_v).getLast hvne < v then .error .valueError
      else Interpolate.Linear.valueAt ⟨(nfwNodes n).map c_to_v, nfwNodes n⟩ v :=
    fun v => interp1d_sorted _ _ (by simp) hvs hvne v
  have hin : ∀ i (hi : i < (nfwNodes n).length) j (hj : j < (nfwNodes n).length), ∀ c, (nfwNodes n)[i] ≤ c → c ≤ (nfwNodes n)[j] →
      v_to_c n (c_to_v c) = Interpolate.Linear.valueAt ⟨(nfwNodes n).map c_to_v, nfwNodes n⟩ (c_to_v c) := by
    intro i hi j hj c h1 h2
    have hc := le_trans (hr _ (List.getElem_mem hi)).1 h1
    rw [hv, if_neg]
    rw [List.head_map, List.getLast_map]
    push Not
    constructor
    · refine hmono _ _ (hr _ (List.head_mem hne)).1 (le_trans ?_ h1)
      rw [← List.getElem_zero_eq_head (List.length_pos_iff.mpr hne)]
      rcases Nat.eq_zero_or_pos i with rfl | h0
      · exact le_refl _
      · exact le_of_lt (List.pairwise_iff_getElem.mp hs 0 i _ hi h0)
    · refine hmono _ _ hc (le_trans h2 ?_)
      rw [List.getLast_eq_getElem]
      rcases Nat.lt_or_ge j ((nfwNodes n).length - 1) with h0 | h0
      · exact le_of_lt (List.pairwise_iff_getElem.mp hs j _ hj (by omega) h0)
      · have : j = (nfwNodes n).length - 1 := by omega
        subst this; exact le_refl _
  refine ⟨?_, ?_, ?_⟩
  · intro c hc
    obtain ⟨i, hi, rfl⟩ := List.getElem_of_mem hc
    rw [hin i hi i hi _ le_rfl le_rfl]
    have := Interpolate.C59_at_node ⟨(nfwNodes n).map c_to_v, nfwNodes n⟩ hvs (by simp) i (by simpa using hi)
    simpa using this
  · intro k hk c h1 h2
    rw [hin k (by omega) (k + 1) hk c h1 h2]
    have hc := le_trans (hr _ (List.getElem_mem (show k < (nfwNodes n).length by omega))).1 h1
    have h0 := hr _ (List.getElem_mem (show k < (nfwNodes n).length by omega))
    have := Interpolate.C59_between_neighbours ⟨(nfwNodes n).map c_to_v, nfwNodes n⟩ hvs (by simp) k (by simpa using hk) (c_to_v c)
      (by simpa using hmono _ _ h0.1 h1) (by simpa using hmono _ _ hc h2)
    obtain ⟨r, hr1, hr2, hr3⟩ := this
    have hlt := List.pairwise_iff_getElem.mp hs k (k + 1) (by omega) hk (by omega)
    simp only [min_eq_left (le_of_lt hlt), max_eq_right (le_of_lt hlt)] at hr2 hr3
    exact ⟨r, hr1, hr2, hr3⟩
  · intro v h
    rw [hv, if_pos]
    rw [List.head_map, List.getLast_map]
    rcases h with h | h
    · exact Or.inl (h _ (List.head_mem hne))
    · exact Or.inr (h _ (List.getLast_mem hne))

/-- C98: a larger velocity ratio never gives a smaller concentration, and all concentrations returned are in [2.1626, 1000]. -/
theorem C98_monotone (n : Nat) (hn : 1 ≤ n) (u v a b : ℝ) (huv : u ≤ v) (hu : v_to_c n u = .ok a) (hv : v_to_c n v = .ok b) :
    a ≤ b ∧ 2.1626 ≤ a ∧ b ≤ 1000 := by
  obtain ⟨hs, hr⟩ := nfwNodes_sorted n
  have hne : nfwNodes n ≠ [] := by
    intro e
    have : (nfwNodes n).length = 0 := by rw [e]; rfl
    simp [nfwNodes, linspaceR] at this
    omega
  have hvs : ((nfwNodes n).map c_to_v).Pairwise (· < ·) := by
    rw [List.pairwise_map]
    rw [List.pairwise_iff_getElem] at hs ⊢
    intro i j hi hj hij
    exact (C98_increasing (hr _ (List.getElem_mem hi)).1 (hs i j hi hj hij)).1
  have hvne : (nfwNodes n).map c_to_v ≠ [] := by simpa using hne
  have key : ∀ v a, v_to_c n v = .ok a → Interpolate.Linear.valueAt ⟨(nfwNodes n).map c_to_v, nfwNodes n⟩ v = .ok a := by
    intro v a h
    have hi : v_to_c n v = _ := interp1d_sorted _ (nfwNodes n) (by simp) hvs hvne v
    rw [hi] at h
    split at h
    · cases h
    · exact h
  have hb := fun v => Interpolate.C59_between ⟨(nfwNodes n).map c_to_v, nfwNodes n⟩ hvs hvne (by simp) v 2.1626 1000 hr
  refine ⟨Interpolate.C59_monotone _ hvs hvne (by simp) (hs.imp le_of_lt) u v a b huv (key u a hu) (key v b hv), ?_, ?_⟩
  · obtain ⟨r, h1, h2, h3⟩ := hb u
    rw [key u a hu] at h1
    cases h1
    exact h2
  · obtain ⟨r, h1, h2, h3⟩ := hb v
    rw [key v b hv] at h1
    cases h1
    exact h3

/-- Non-vacuity: the default table contains c = 101. -/
example : v_to_c 256 (c_to_v 101) = .ok 101 := by
  refine (C98_invert 256 (by norm_num)).1 101 ?_
  unfold nfwNodes linspaceR
  refine List.mem_append_right _ (List.mem_map.mpr ⟨0, by simp, by simp⟩)

end Pyhipp.Cosmology
