import Verif.Model.FloatGrid
import Verif.Props.FloatCoords
import Verif.Props.FloatStandardize
import Verif.Props.FloatQuantile
/-
C146: grids in double precision.
-/
namespace Pyhipp.FloatGrid
open Pyhipp Pyhipp.F64
open Pyhipp.FloatLinear (fins)

/-! ### Which arrays are grids -/

/-- Specification: neighbours are in order, and not the same infinity. -/
def InOrder (a b : Num) : Prop := Num.le a b = true ∧ ¬ ∃ s, a = .inf s ∧ b = .inf s

theorem diff_le {a b : Num} (ha : a.Ok) (hb : b.Ok) : Num.le (.fin 0) (Num.sub b a) = true ↔ InOrder a b := by
  unfold InOrder
  cases a with
  | nan => cases b <;> simp [Num.sub, Num.neg, Num.add, Num.le]
  | inf s =>
      cases b with
      | nan => simp [Num.sub, Num.neg, Num.add, Num.le]
      | inf t => cases s <;> cases t <;> simp [Num.sub, Num.neg, Num.add, Num.le]
      | fin y => cases s <;> simp [Num.sub, Num.neg, Num.add, Num.le]
  | fin x =>
      cases b with
      | nan => simp [Num.sub, Num.neg, Num.add, Num.le]
      | inf t => cases t <;> simp [Num.sub, Num.neg, Num.add, Num.le]
      | fin y =>
          have e : Num.sub (.fin y) (.fin x) = ofQ (y - x) := by
            show ofQ (y + -x) = _
            rw [← sub_eq_add_neg]
          have key : (0 : ℚ) ≤ rnd (y - x) ↔ x ≤ y := by
            constructor
            · intro h
              by_contra hc
              exact absurd (rnd_sub_neg hb.1 ha.1 (not_le.mp hc)) (not_lt.mpr h)
            · intro h; exact rnd_nonneg (sub_nonneg.mpr h)
          rw [e]
          unfold ofQ
          split_ifs with h
          · simp only [Num.le, Bool.not_eq_true', decide_eq_false_iff_not, decide_eq_true_eq, not_lt, sub_nonneg]
            simp
          · simp only [Num.le, decide_eq_true_eq]
            rw [key]
            simp

theorem diffsOk_iff : ∀ {locs : List Num}, (∀ a ∈ locs, a.Ok) →
    (diffsOk locs = true ↔ ∀ i (h : i + 1 < locs.length), InOrder locs[i] locs[i + 1])
  | [], _ => by simp [diffsOk]
  | [a], _ => by simp [diffsOk]
  | a :: b :: rest, hok => by
      have ih := diffsOk_iff (locs := b :: rest) (fun x hx => hok x (List.mem_cons_of_mem _ hx))
      rw [diffsOk, Bool.and_eq_true, ih, diff_le (hok a (by simp)) (hok b (by simp))]
      constructor
      · rintro ⟨h1, h2⟩ i hi
        cases i with
        | zero => exact h1
        | succ i => exact h2 i (by simpa using hi)
      · intro h
        exact ⟨h 0 (by simp), fun i hi => h (i + 1) (by simpa using hi)⟩

/-- C146: an array of doubles is accepted as a grid exactly if it is not empty and every two neighbours are in order (so there is no NaN among two or
more) and not the same infinity; otherwise AssertionError. -/
theorem C146_accepted (locs : List Num) (hok : ∀ a ∈ locs, a.Ok) :
    (mk locs = .ok locs ↔ locs ≠ [] ∧ ∀ i (h : i + 1 < locs.length), InOrder locs[i] locs[i + 1]) ∧
    (mk locs = .ok locs ∨ mk locs = .error .assertionError) := by
  have hd := diffsOk_iff hok
  have hl : decide (1 ≤ locs.length) = true ↔ locs ≠ [] := by
    rw [decide_eq_true_eq, Nat.succ_le_iff, List.length_pos_iff]
  have e : mk locs = if (decide (1 ≤ locs.length) && diffsOk locs) = true then .ok locs else .error .assertionError := by
    unfold mk pyAssert
    cases (decide (1 ≤ locs.length) && diffsOk locs) <;> rfl
  rw [e]
  constructor
  · rw [← hd, ← hl, ← Bool.and_eq_true]
    by_cases h : (decide (1 ≤ locs.length) && diffsOk locs) = true
    · rw [if_pos h]; exact ⟨fun _ => h, fun _ => rfl⟩
    · rw [if_neg h]; exact ⟨fun h' => (by cases h'), fun h' => absurd h' h⟩
  · split_ifs
    · exact .inl rfl
    · exact .inr rfl

/-- C146 (recorded): one NaN alone is accepted as a grid. -/
theorem C146_single_nan : mk [.nan] = .ok [.nan] := rfl

/-! ### Locating -/

theorem le_trans' {a b c : Num} (h1 : Num.le a b = true) (h2 : Num.le b c = true) : Num.le a c = true := by
  cases a with
  | nan => cases b <;> simp [Num.le] at h1
  | inf s =>
      cases b with
      | nan => simp [Num.le] at h1
      | inf t => cases c <;> cases s <;> cases t <;> simp_all [Num.le]
      | fin y => cases c <;> cases s <;> simp_all [Num.le]
  | fin x =>
      cases b with
      | nan => simp [Num.le] at h1
      | inf t => cases c <;> cases t <;> simp_all [Num.le]
      | fin y =>
          cases c with
          | nan => simp [Num.le] at h2
          | inf t => simp_all [Num.le]
          | fin z => simp only [Num.le, decide_eq_true_eq] at *; exact h1.trans h2

theorem take_spec (f : Num → Bool) : ∀ (locs : List Num), (∀ i (h : i + 1 < locs.length), f locs[i + 1] = true → f locs[i] = true) →
    ∀ i (h : i < locs.length), i < (locs.takeWhile f).length ↔ f locs[i] = true := by
  intro locs
  induction locs with
  | nil => intro _ i h; simp at h
  | cons a rest ih =>
      intro hm i hi
      have ih' := ih (fun j hj => hm (j + 1) (by simpa using hj))
      by_cases hf : f a = true
      · rw [List.takeWhile_cons, if_pos hf]
        cases i with
        | zero => simp [hf]
        | succ i =>
            have := ih' i (by simpa using hi)
            simpa using this
      · rw [List.takeWhile_cons, if_neg hf]
        have none : ∀ j (hj : j < (a :: rest).length), ¬ f (a :: rest)[j] = true := by
          intro j
          induction j with
          | zero => intro _; exact hf
          | succ j ihj => intro hj hc; exact ihj (by omega) (hm j hj hc)
        simp only [List.length_nil, Nat.not_lt_zero, false_iff]
        exact none i hi

theorem all_nan : ∀ l : List Num, l.takeWhile (notAfter .nan) = l
  | [] => rfl
  | a :: l => by rw [List.takeWhile_cons, if_pos (show notAfter .nan a = true from rfl), all_nan l]

/-- C146: for every grid (without NaN) and every number that is not NaN, infinities included, `locate` is exact: location `i` is at or below `x` exactly if
i ≤ locate(x); the result is between -1 and n - 1.  NaN is located in the last bin, n - 1. -/
theorem C146_locate (locs : List Num) (hok : ∀ a ∈ locs, a.Ok) (hg : mk locs = .ok locs) (hn : ∀ a ∈ locs, a ≠ .nan) (x : Num) :
    (x ≠ .nan → ∀ i (h : i < locs.length), (i : Int) ≤ locate locs x ↔ Num.le locs[i] x = true) ∧
    -1 ≤ locate locs x ∧ locate locs x ≤ (locs.length : Int) - 1 ∧ locate locs .nan = (locs.length : Int) - 1 := by
  have hord := ((C146_accepted locs hok).1.mp hg).2
  refine ⟨?_, ?_, ?_, ?_⟩
  · intro hx i hi
    have hf : ∀ a, notAfter x a = Num.le a x := by intro a; simp [notAfter, hx]
    have hs := take_spec (notAfter x) locs (fun j hj hc => by
      rw [hf] at hc ⊢
      exact le_trans' (hord j hj).1 hc) i hi
    rw [hf] at hs
    rw [← hs]
    unfold locate
    omega
  · unfold locate; omega
  · unfold locate
    have := (List.takeWhile_sublist (l := locs) (notAfter x)).length_le
    omega
  · unfold locate
    rw [all_nan]

/-! ### Centres -/

theorem two_isF {y : ℚ} (h : IsF y) : IsF (2 * y) := by
  obtain ⟨m, hm, e⟩ := h.form
  rw [e]
  have := isF_of (m := m) (e := expo y + 1) hm (by have := expo_ge y; omega)
  rw [zpow_add_one₀ (by norm_num)] at this
  have e2 : 2 * ((m : ℚ) * 2 ^ expo y) = m * (2 ^ expo y * 2) := by ring
  rwa [e2]

theorem half_isF {y : ℚ} (h : IsF y) (hy : 2 ^ (-1021 : ℤ) ≤ |y|) : IsF (1 / 2 * y) := by
  obtain ⟨m, hm, e⟩ := h.form
  have hex : -1074 < expo y := by
    have h7 : -1021 ≤ Int.log 2 |y| :=
      (Int.zpow_le_iff_le_log (by norm_num) (lt_of_lt_of_le (pow_pos' _) hy)).mp (by exact_mod_cast hy)
    have : Int.log 2 |y| - 52 ≤ expo y := le_max_left _ _
    omega
  rw [e]
  have := isF_of (m := m) (e := expo y - 1) hm (by omega)
  rw [zpow_sub_one₀ (by norm_num)] at this
  have e2 : 1 / 2 * ((m : ℚ) * 2 ^ expo y) = m * (2 ^ expo y * 2⁻¹) := by ring
  rwa [e2]

/-- The centre of two doubles, as computed. -/
def midQ (a b : ℚ) : ℚ := rnd (1 / 2 * rnd (a + b))

theorem mid_fin {a b : ℚ} (ha : |a| ≤ 2 ^ 1022) (hb : |b| ≤ 2 ^ 1022) : mid (.fin a) (.fin b) = .fin (midQ a b) := by
  unfold mid
  rw [FloatLinear.add_fin ha hb]
  refine FloatStandardize.mul_fin ?_
  have h1 := FloatStandardize.rnd_add_size ha hb
  have h2 : (0 : ℚ) ≤ |rnd (a + b)| := abs_nonneg _
  have e : |1 / 2 * rnd (a + b)| = 1 / 2 * |rnd (a + b)| := by rw [abs_mul]; norm_num
  rw [e]
  have h3 : |rnd (a + b)| ≤ 2 ^ 1023 := h1
  generalize (2 : ℚ) ^ 1023 = B at *
  linarith

/-- The computed centre is a double nearest to the exact one. -/
theorem midQ_nearest {a b : ℚ} (ha : IsF a) (hb : IsF b) (y : ℚ) (hy : IsF y) : |midQ a b - (a + b) / 2| ≤ |y - (a + b) / 2| := by
  unfold midQ
  rcases le_or_gt (2 ^ (-1021 : ℤ)) |a + b| with h | h
  · have h1 : (2 : ℚ) ^ (-1021 : ℤ) ≤ |rnd (a + b)| := by
      rw [rnd_abs]
      exact le_rnd h (isF_pow (by norm_num))
    have e : rnd (1 / 2 * rnd (a + b)) = 1 / 2 * rnd (a + b) := half_isF (isF_rnd _) h1
    rw [e]
    have h2 := (FloatBins.C121_rounding (a + b)).2.2.1 (2 * y) (two_isF hy)
    have e1 : 1 / 2 * rnd (a + b) - (a + b) / 2 = 1 / 2 * (rnd (a + b) - (a + b)) := by ring
    have e2 : y - (a + b) / 2 = 1 / 2 * (2 * y - (a + b)) := by ring
    rw [e1, e2, abs_mul, abs_mul]
    exact mul_le_mul_of_nonneg_left h2 (abs_nonneg _)
  · have hs : rnd (a + b) = a + b := by
      have := isF_sub_small ha hb.neg (by rw [sub_neg_eq_add]; exact h.le)
      rw [sub_neg_eq_add] at this
      exact this
    rw [hs]
    have := (FloatBins.C121_rounding (1 / 2 * (a + b))).2.2.1 y hy
    have e : 1 / 2 * (a + b) = (a + b) / 2 := by ring
    rw [e] at this ⊢
    exact this

theorem midQ_mono {a b a' b' : ℚ} (h1 : a ≤ a') (h2 : b ≤ b') : midQ a b ≤ midQ a' b' := by
  unfold midQ
  refine rnd_mono ?_
  have := rnd_mono (add_le_add h1 h2)
  linarith

theorem midQ_between {a b : ℚ} (ha : IsF a) (hb : IsF b) (h : a ≤ b) : a ≤ midQ a b ∧ midQ a b ≤ b := by
  have h1 := midQ_nearest ha hb a ha
  have h2 := midQ_nearest ha hb b hb
  have e1 : |a - (a + b) / 2| = (b - a) / 2 := by
    rw [abs_of_nonpos (by linarith)]; ring
  rw [e1] at h1
  have := abs_le.mp h1
  constructor <;> linarith [this.1, this.2]

/-- C146: the centre of two neighbours `a ≤ b` is a double nearest to the exact centre; it is between them, and strictly between them whenever there is a
double strictly between them. -/
theorem C146_center {a b : ℚ} (ha : IsF a) (hb : IsF b) (ha' : |a| ≤ 2 ^ 1022) (hb' : |b| ≤ 2 ^ 1022) (hle : a ≤ b) :
    ∃ c, mid (.fin a) (.fin b) = .fin c ∧ IsF c ∧ a ≤ c ∧ c ≤ b ∧ (∀ y, IsF y → |c - (a + b) / 2| ≤ |y - (a + b) / 2|) ∧
      ((∃ y, IsF y ∧ a < y ∧ y < b) → a < c ∧ c < b) := by
  obtain ⟨h1, h2⟩ := midQ_between ha hb hle
  have hn := midQ_nearest ha hb
  refine ⟨midQ a b, mid_fin ha' hb', isF_rnd _, h1, h2, hn, ?_⟩
  rintro ⟨y, hy, h3, h4⟩
  have h5 := hn y hy
  constructor
  · refine lt_of_le_of_ne h1 fun he => ?_
    rw [← he] at h5
    have e1 : |a - (a + b) / 2| = (b - a) / 2 := by rw [abs_of_nonpos (by linarith)]; ring
    rw [e1] at h5
    have : |y - (a + b) / 2| < (b - a) / 2 := by rw [abs_lt]; constructor <;> linarith
    linarith
  · refine lt_of_le_of_ne h2 fun he => ?_
    rw [he] at h5
    have e1 : |b - (a + b) / 2| = (b - a) / 2 := by rw [abs_of_nonneg (by linarith)]; ring
    rw [e1] at h5
    have : |y - (a + b) / 2| < (b - a) / 2 := by rw [abs_lt]; constructor <;> linarith
    linarith

theorem mids_length : ∀ l : List Num, (mids l).length = l.length - 1
  | [] => rfl
  | [a] => rfl
  | a :: b :: rest => by
      have := mids_length (b :: rest)
      simp only [mids, List.length_cons] at this ⊢
      omega

theorem mids_get : ∀ (l : List Num) (i : Nat) (h : i + 1 < l.length) (h' : i < (mids l).length), (mids l)[i] = mid l[i] l[i + 1]
  | [], i, h, _ => by simp at h
  | [a], i, h, _ => by simp at h
  | a :: b :: rest, 0, _, _ => rfl
  | a :: b :: rest, i + 1, h, h' => by
      have := mids_get (b :: rest) i (by simpa using h) (by simpa [mids] using h')
      simpa [mids] using this

/-- C146: the centres of a grid of two or more doubles up to 2^1022 are again a grid, one location less, each a double nearest to the exact centre of its
neighbours and between them. -/
theorem C146_centers (xs : List ℚ) (hF : ∀ x ∈ xs, IsF x ∧ |x| ≤ 2 ^ 1022) (hs : ∀ i (h : i + 1 < xs.length), xs[i] ≤ xs[i + 1]) (h2 : 2 ≤ xs.length) :
    ∃ cs : List ℚ, centers (fins xs) = .ok (fins cs) ∧ cs.length + 1 = xs.length ∧
      ∀ i (h : i < cs.length) (h1 : i + 1 < xs.length), IsF cs[i] ∧ xs[i] ≤ cs[i] ∧ cs[i] ≤ xs[i + 1] ∧
        ∀ y, IsF y → |cs[i] - (xs[i] + xs[i + 1]) / 2| ≤ |y - (xs[i] + xs[i + 1]) / 2| := by
  let cs : List ℚ := (List.range (xs.length - 1)).map fun i : Nat => midQ (xs.getD i 0) (xs.getD (i + 1) 0)
  have hlen : cs.length = xs.length - 1 := by simp [cs]
  have hget : ∀ i (h : i < cs.length) (h1 : i + 1 < xs.length), cs[i] = midQ xs[i] xs[i + 1] := by
    intro i h h1
    simp only [cs, List.getElem_map, List.getElem_range]
    rw [List.getD_eq_getElem?_getD, List.getD_eq_getElem?_getD, List.getElem?_eq_getElem (by omega), List.getElem?_eq_getElem h1]
    rfl
  have hm : mids (fins xs) = fins cs := by
    apply List.ext_getElem
    · rw [mids_length]; simp [fins, hlen]
    · intro i hi hi'
      have h1 : i + 1 < xs.length := by
        rw [mids_length] at hi; simp [fins] at hi; omega
      rw [mids_get _ _ (by simpa [fins] using h1)]
      simp only [fins, List.getElem_map]
      rw [hget i (by omega) h1]
      exact mid_fin (hF _ (List.getElem_mem _)).2 (hF _ (List.getElem_mem _)).2
  refine ⟨cs, ?_, by omega, ?_⟩
  · have hok : ∀ a ∈ fins cs, a.Ok := by
      intro a ha
      rw [← hm] at ha
      obtain ⟨i, hi, rfl⟩ := List.getElem_of_mem ha
      have h1 : i + 1 < xs.length := by
        rw [mids_length] at hi; simp [fins] at hi; omega
      rw [mids_get _ _ (by simpa [fins] using h1)]
      simp only [fins, List.getElem_map]
      have ga := hF _ (List.getElem_mem (l := xs) (n := i) (by omega))
      have gb := hF _ (List.getElem_mem (l := xs) (n := i + 1) h1)
      rw [mid_fin ga.2 gb.2]
      refine ⟨isF_rnd _, ?_⟩
      obtain ⟨q1, q2⟩ := midQ_between ga.1 gb.1 (hs i h1)
      have : |midQ xs[i] xs[i + 1]| ≤ 2 ^ 1022 := by
        have a1 := abs_le.mp ga.2
        have a2 := abs_le.mp gb.2
        generalize (2 : ℚ) ^ 1022 = B at *
        rw [abs_le]; constructor <;> linarith [a1.1, a2.2]
      exact lt_of_le_of_lt this (pow_lt_pow_right₀ (by norm_num) (by norm_num))
    unfold centers
    rw [hm]
    refine (C146_accepted (fins cs) hok).1.mpr ⟨?_, ?_⟩
    · intro h
      have := congrArg List.length h
      simp [fins, hlen] at this
      omega
    · intro i hi
      have hi2 : i + 1 < cs.length := by simpa [fins] using hi
      simp only [fins, List.getElem_map]
      refine ⟨?_, by rintro ⟨s, h, _⟩; cases h⟩
      rw [hget i (by omega) (by omega), hget (i + 1) hi2 (by omega)]
      simp only [Num.le, decide_eq_true_eq]
      exact midQ_mono (hs i (by omega)) (hs (i + 1) (by omega))
  · intro i h h1
    have ga := hF _ (List.getElem_mem (l := xs) (n := i) (by omega))
    have gb := hF _ (List.getElem_mem (l := xs) (n := i + 1) h1)
    rw [hget i h h1]
    obtain ⟨q1, q2⟩ := midQ_between ga.1 gb.1 (hs i h1)
    exact ⟨isF_rnd _, q1, q2, midQ_nearest ga.1 gb.1⟩

/-- C146 (recorded): a single location has no centres: AssertionError. -/
theorem C146_no_centers (a : Num) : centers [a] = .error .assertionError := rfl

/-- C146 (recorded): three locations from 2^1023 on overflow: their centres are infinite and are refused. -/
theorem C146_centers_overflow (a b c : ℚ) (ha : 2 ^ 1023 ≤ a) (hb : 2 ^ 1023 ≤ b) (hc : 2 ^ 1023 ≤ c) :
    centers [.fin a, .fin b, .fin c] = .error .assertionError := by
  have big : ∀ x y : ℚ, 2 ^ 1023 ≤ x → 2 ^ 1023 ≤ y → mid (.fin x) (.fin y) = .inf false := by
    intro x y hx hy
    have h1 : (2 : ℚ) ^ 1024 ≤ x + y := by
      have e : (2 : ℚ) ^ 1024 = 2 * 2 ^ 1023 := by rw [pow_succ]; ring
      rw [e]
      generalize (2 : ℚ) ^ 1023 = B at *
      linarith
    have h2 : (2 : ℚ) ^ 1024 ≤ rnd (x + y) := le_rnd h1 (FloatStandardize.pow_isF 1024)
    have h0 : (0 : ℚ) < 2 ^ 1024 := by positivity
    have h3 : Num.add (.fin x) (.fin y) = .inf false := by
      show ofQ (x + y) = _
      unfold ofQ
      rw [if_pos (h2.trans (le_abs_self _))]
      have : ¬ (x + y < 0) := not_lt.mpr (h0.le.trans h1)
      rw [decide_eq_false this]
    unfold mid
    rw [h3]
    show (if (1 / 2 : ℚ) = 0 then Num.nan else .inf (decide ((1 / 2 : ℚ) < 0) != false)) = _
    rw [if_neg (by norm_num), decide_eq_false (by norm_num)]
    rfl
  unfold centers
  rw [show mids [.fin a, .fin b, .fin c] = [mid (.fin a) (.fin b), mid (.fin b) (.fin c)] from rfl, big a b ha hb, big b c hb hc]
  rfl

/-! ### Equally spaced locations -/

theorem lin_alg {d D s p u N i : ℚ} (hN : 0 < N) (hi : 0 ≤ i) (hd : 0 ≤ d) (u0 : 0 ≤ u) (u1 : u ≤ 1 / 64) (e1 : |D - d| ≤ u * d)
    (e2 : |s - D / N| ≤ u * (D / N)) (e3 : |p - i * s| ≤ u * (i * s)) :
    0 ≤ p ∧ |p - i * d / N| ≤ 4 * u * (i * d / N) := by
  obtain ⟨a1, a2⟩ := abs_le.mp e1
  obtain ⟨b1, b2⟩ := abs_le.mp e2
  obtain ⟨c1, c2⟩ := abs_le.mp e3
  have hT : 0 ≤ i * d / N := by positivity
  have hX : i * (D / N) = i * d / N + i * ((D - d) / N) := by field_simp; ring
  have hX2 : i * ((D - d) / N) ≤ u * (i * d / N) := by
    have : i * ((D - d) / N) ≤ i * ((u * d) / N) := mul_le_mul_of_nonneg_left (div_le_div_of_nonneg_right a2 hN.le) hi
    calc _ ≤ _ := this
      _ = u * (i * d / N) := by ring
  have hX1 : -(u * (i * d / N)) ≤ i * ((D - d) / N) := by
    have : i * ((-(u * d)) / N) ≤ i * ((D - d) / N) := mul_le_mul_of_nonneg_left (div_le_div_of_nonneg_right a1 hN.le) hi
    calc _ = i * ((-(u * d)) / N) := by ring
      _ ≤ _ := this
  have hS2 : i * s ≤ (1 + u) * (i * (D / N)) := by
    have : i * s ≤ i * (D / N + u * (D / N)) := mul_le_mul_of_nonneg_left (by linarith) hi
    calc _ ≤ _ := this
      _ = _ := by ring
  have hS1 : (1 - u) * (i * (D / N)) ≤ i * s := by
    have : i * (D / N - u * (D / N)) ≤ i * s := mul_le_mul_of_nonneg_left (by linarith) hi
    calc _ = i * (D / N - u * (D / N)) := by ring
      _ ≤ _ := this
  generalize i * (D / N) = X at *
  generalize i * d / N = T at *
  generalize i * s = S at *
  generalize i * ((D - d) / N) = E at *
  have X0 : 0 ≤ X := by nlinarith
  have S0 : 0 ≤ S := by nlinarith
  have hX' : X ≤ (1 + u) * T := by linarith
  have hX'' : (1 - u) * T ≤ X := by linarith
  have S2 : S ≤ (1 + u) * ((1 + u) * T) := hS2.trans (mul_le_mul_of_nonneg_left hX' (by linarith))
  have S1 : (1 - u) * ((1 - u) * T) ≤ S := (mul_le_mul_of_nonneg_left hX'' (by linarith)).trans hS1
  have P2 : p ≤ (1 + u) * ((1 + u) * ((1 + u) * T)) := by
    have : p ≤ (1 + u) * S := by linarith
    exact this.trans (mul_le_mul_of_nonneg_left S2 (by linarith))
  have P1 : (1 - u) * ((1 - u) * ((1 - u) * T)) ≤ p := by
    have : (1 - u) * S ≤ p := by linarith
    exact (mul_le_mul_of_nonneg_left S1 (by linarith)).trans this
  have uT : 0 ≤ u * T := mul_nonneg u0 hT
  have uuT : u * (u * T) ≤ 1 / 64 * (u * T) := mul_le_mul_of_nonneg_right u1 uT
  have uuT0 : 0 ≤ u * (u * T) := mul_nonneg u0 uT
  have uuuT : u * (u * (u * T)) ≤ 1 / 64 * (u * (u * T)) := mul_le_mul_of_nonneg_right u1 uuT0
  have uuuT0 : 0 ≤ u * (u * (u * T)) := mul_nonneg u0 uuT0
  have e4 : (1 + u) * ((1 + u) * ((1 + u) * T)) = T + 3 * (u * T) + 3 * (u * (u * T)) + u * (u * (u * T)) := by ring
  have e5 : (1 - u) * ((1 - u) * ((1 - u) * T)) = T - 3 * (u * T) + 3 * (u * (u * T)) - u * (u * (u * T)) := by ring
  rw [e4] at P2
  rw [e5] at P1
  have e6 : 4 * u * T = 4 * (u * T) := by ring
  have uT1 : u * T ≤ 1 / 64 * T := mul_le_mul_of_nonneg_right u1 hT
  constructor
  · linarith
  · rw [e6, abs_le]; constructor <;> linarith

/-- The ranges considered: doubles, not absurdly large, equal or not absurdly close. -/
structure Range (a b : ℚ) : Prop where
  fa : IsF a
  fb : IsF b
  ha : |a| ≤ 2 ^ 1020
  hb : |b| ≤ 2 ^ 1020
  le : a ≤ b
  gap : a = b ∨ 2 ^ (-900 : ℤ) ≤ b - a

/-- The step, as computed. -/
def stepQ (a b : ℚ) (N : Nat) : ℚ := rnd (rnd (b - a) / N)

/-- A location, as computed. -/
def nodeQ (a b : ℚ) (N i : Nat) : ℚ := rnd (rnd (i * stepQ a b N) + a)

theorem size_diff {a b : ℚ} (h : Range a b) : b - a ≤ 2 ^ 1021 := by
  have e : (2 : ℚ) ^ 1021 = 2 * 2 ^ 1020 := by rw [pow_succ]; ring
  have h1 := abs_le.mp h.ha
  have h2 := abs_le.mp h.hb
  rw [e]
  generalize (2 : ℚ) ^ 1020 = B at *
  linarith [h1.1, h2.2]

theorem span_facts {a b : ℚ} (h : Range a b) : |rnd (b - a) - (b - a)| ≤ 2 ^ (-53 : ℤ) * (b - a) ∧ 0 ≤ rnd (b - a) ∧ rnd (b - a) ≤ 2 ^ 1021 ∧
    (a < b → 2 ^ (-900 : ℤ) ≤ rnd (b - a)) ∧ (a = b → rnd (b - a) = 0) := by
  have hd : 0 ≤ b - a := sub_nonneg.mpr h.le
  refine ⟨?_, rnd_nonneg hd, rnd_le (size_diff h) (FloatStandardize.pow_isF 1021), ?_, ?_⟩
  · have := rnd_sub_err h.fb h.fa
    rwa [abs_of_nonneg hd] at this
  · intro hlt
    rcases h.gap with he | hg
    · exact absurd he hlt.ne
    · exact le_rnd hg (isF_pow (by norm_num))
  · intro he; rw [he, sub_self, rnd_zero]

theorem u64 : (2 : ℚ) ^ (-53 : ℤ) ≤ 1 / 64 := by norm_num

theorem step_facts {a b : ℚ} (h : Range a b) {N : Nat} (h1 : 1 ≤ N) (h2 : N ≤ 2 ^ 50) :
    |stepQ a b N - rnd (b - a) / N| ≤ 2 ^ (-53 : ℤ) * (rnd (b - a) / N) ∧ 0 ≤ stepQ a b N ∧ (a < b → 2 ^ (-951 : ℤ) ≤ stepQ a b N) ∧ (a = b → stepQ a b N = 0) := by
  obtain ⟨s1, s2, s3, s4, s5⟩ := span_facts h
  have hN : (1 : ℚ) ≤ N := by exact_mod_cast h1
  have hN2 : (N : ℚ) ≤ 2 ^ (50 : ℤ) := by exact_mod_cast h2
  have hN0 : (0 : ℚ) < N := lt_of_lt_of_le one_pos hN
  unfold stepQ
  refine ⟨?_, rnd_nonneg (div_nonneg s2 hN0.le), ?_, ?_⟩
  · rcases eq_or_lt_of_le h.le with he | hlt
    · rw [s5 he, zero_div, rnd_zero, sub_self, abs_zero, mul_zero]
    · have h3 := s4 hlt
      have h4 : (2 : ℚ) ^ (-1022 : ℤ) ≤ rnd (b - a) / N := by
        rw [le_div_iff₀ hN0]
        calc (2 : ℚ) ^ (-1022 : ℤ) * N ≤ 2 ^ (-1022 : ℤ) * 2 ^ (50 : ℤ) := mul_le_mul_of_nonneg_left hN2 (pow_pos' _).le
          _ = 2 ^ (-972 : ℤ) := by rw [← zpow_add₀ (by norm_num)]; norm_num
          _ ≤ 2 ^ (-900 : ℤ) := zpow_le_zpow_right₀ (by norm_num) (by norm_num)
          _ ≤ _ := h3
      have h5 := rnd_err (x := rnd (b - a) / N) (h4.trans (le_abs_self _))
      rwa [abs_of_nonneg (div_nonneg s2 hN0.le)] at h5
  · intro hlt
    refine le_rnd ?_ (isF_pow (by norm_num))
    rw [le_div_iff₀ hN0]
    calc (2 : ℚ) ^ (-951 : ℤ) * N ≤ 2 ^ (-951 : ℤ) * 2 ^ (50 : ℤ) := mul_le_mul_of_nonneg_left hN2 (pow_pos' _).le
      _ = 2 ^ (-901 : ℤ) := by rw [← zpow_add₀ (by norm_num)]; norm_num
      _ ≤ 2 ^ (-900 : ℤ) := zpow_le_zpow_right₀ (by norm_num) (by norm_num)
      _ ≤ _ := s4 hlt
  · intro he; rw [s5 he, zero_div, rnd_zero]

theorem prod_facts {a b : ℚ} (h : Range a b) {N : Nat} (h1 : 1 ≤ N) (h2 : N ≤ 2 ^ 50) (i : Nat) :
    |rnd (i * stepQ a b N) - i * stepQ a b N| ≤ 2 ^ (-53 : ℤ) * (i * stepQ a b N) := by
  obtain ⟨t1, t2, t3, t4⟩ := step_facts h h1 h2
  rcases Nat.eq_zero_or_pos i with rfl | hi
  · simp
  · rcases eq_or_lt_of_le h.le with he | hlt
    · rw [t4 he]; simp
    · have hi' : (1 : ℚ) ≤ i := by exact_mod_cast hi
      have h3 : (2 : ℚ) ^ (-1022 : ℤ) ≤ i * stepQ a b N := by
        calc (2 : ℚ) ^ (-1022 : ℤ) ≤ 2 ^ (-951 : ℤ) := zpow_le_zpow_right₀ (by norm_num) (by norm_num)
          _ ≤ stepQ a b N := t3 hlt
          _ = 1 * stepQ a b N := (one_mul _).symm
          _ ≤ i * stepQ a b N := mul_le_mul_of_nonneg_right hi' t2
      have h4 := rnd_err (h3.trans (le_abs_self _))
      rwa [abs_of_nonneg (mul_nonneg (by positivity) t2)] at h4

/-- The product of number and step. -/
theorem p_facts {a b : ℚ} (h : Range a b) {N : Nat} (h1 : 1 ≤ N) (h2 : N ≤ 2 ^ 50) (i : Nat) :
    0 ≤ rnd (i * stepQ a b N) ∧ |rnd (i * stepQ a b N) - i * (b - a) / N| ≤ 4 * 2 ^ (-53 : ℤ) * (i * (b - a) / N) := by
  have hN0 : (0 : ℚ) < N := by exact_mod_cast h1
  exact lin_alg hN0 (by positivity) (sub_nonneg.mpr h.le) (pow_pos' _).le u64 (span_facts h).1 (step_facts h h1 h2).1 (prod_facts h h1 h2 i)

theorem frac_le {a b : ℚ} (h : Range a b) {N i : Nat} (h1 : 1 ≤ N) (hi : i ≤ N) : 0 ≤ i * (b - a) / (N : ℚ) ∧ i * (b - a) / (N : ℚ) ≤ b - a := by
  have hN0 : (0 : ℚ) < N := by exact_mod_cast h1
  have hd : 0 ≤ b - a := sub_nonneg.mpr h.le
  have hi' : (i : ℚ) ≤ N := by exact_mod_cast hi
  constructor
  · positivity
  · rw [div_le_iff₀ hN0, mul_comm]
    exact mul_le_mul_of_nonneg_left hi' hd

/-- Below the last location nothing passes the end. -/
theorem p_le {a b : ℚ} (h : Range a b) {N i : Nat} (h2 : N ≤ 2 ^ 50) (hi : i < N) : rnd (i * stepQ a b N) ≤ b - a := by
  have h1 : 1 ≤ N := by omega
  obtain ⟨_, p2⟩ := p_facts h h1 h2 i
  have hd : 0 ≤ b - a := sub_nonneg.mpr h.le
  have hN0 : (0 : ℚ) < N := by exact_mod_cast h1
  have p3 := (abs_le.mp p2).2
  have hi' : (i : ℚ) ≤ N - 1 := by
    have : i + 1 ≤ N := hi
    have : (i : ℚ) + 1 ≤ N := by exact_mod_cast this
    linarith
  have hN2 : (N : ℚ) ≤ 2 ^ (50 : ℤ) := by exact_mod_cast h2
  have key : i * (b - a) / (N : ℚ) ≤ (b - a) * (1 - 2 ^ (-50 : ℤ)) := by
    rw [div_le_iff₀ hN0]
    have e : (2 : ℚ) ^ (-50 : ℤ) * 2 ^ (50 : ℤ) = 1 := by rw [← zpow_add₀ (by norm_num)]; norm_num
    have h3 : (2 : ℚ) ^ (-50 : ℤ) * N ≤ 1 := by
      rw [← e]; exact mul_le_mul_of_nonneg_left hN2 (pow_pos' _).le
    have h4 : (i : ℚ) ≤ (1 - 2 ^ (-50 : ℤ)) * N := by linarith
    calc i * (b - a) = (b - a) * i := mul_comm _ _
      _ ≤ (b - a) * ((1 - 2 ^ (-50 : ℤ)) * N) := mul_le_mul_of_nonneg_left h4 hd
      _ = _ := by ring
  have e53 : (4 : ℚ) * 2 ^ (-53 : ℤ) = 1 / 2 * 2 ^ (-50 : ℤ) := by
    rw [show (-50 : ℤ) = -53 + 3 by norm_num, zpow_add₀ (by norm_num)]; norm_num
  rw [e53] at p3
  generalize i * (b - a) / (N : ℚ) = T at *
  have v0 : (0 : ℚ) ≤ 2 ^ (-50 : ℤ) := (pow_pos' _).le
  generalize (2 : ℚ) ^ (-50 : ℤ) = v at *
  generalize b - a = d at *
  have h5 : rnd (↑i * stepQ a b N) ≤ (1 + 1 / 2 * v) * T := by linarith
  have h6 : (1 + 1 / 2 * v) * T ≤ (1 + 1 / 2 * v) * (d * (1 - v)) := mul_le_mul_of_nonneg_left key (by linarith)
  have h7 : (1 + 1 / 2 * v) * (d * (1 - v)) = d - 1 / 2 * (v * d) - 1 / 2 * (v * v * d) := by ring
  have h8 : 0 ≤ v * d := mul_nonneg v0 hd
  have h9 : 0 ≤ v * v * d := mul_nonneg (mul_nonneg v0 v0) hd
  linarith

theorem node_alg {a b p T u y : ℚ} (hu : 0 ≤ u) (hu1 : u ≤ 1 / 64) (hab : a ≤ b) (hT0 : 0 ≤ T) (hT1 : T ≤ b - a) (hp : |p - T| ≤ 4 * u * T)
    (hy : |y - (p + a)| ≤ u * |p + a|) : |y - (a + T)| ≤ 8 * u * (|a| + |b|) := by
  have hd : b - a ≤ |a| + |b| := by linarith [neg_abs_le a, le_abs_self b]
  have hu2 : 4 * u * T ≤ 4 * u * (|a| + |b|) := mul_le_mul_of_nonneg_left (hT1.trans hd) (by linarith)
  have h1 : |a + T| ≤ |a| + |b| := by
    rw [abs_le]
    constructor
    · linarith [neg_abs_le a, abs_nonneg b]
    · linarith [le_abs_self b, abs_nonneg a]
  have h2 : |p + a| ≤ 2 * (|a| + |b|) := by
    have e : p + a = (p - T) + (a + T) := by ring
    rw [e]
    have h3 : 4 * u * (|a| + |b|) ≤ 1 * (|a| + |b|) := mul_le_mul_of_nonneg_right (by linarith) (by positivity)
    calc _ ≤ |p - T| + |a + T| := abs_add_le _ _
      _ ≤ _ := by linarith
  have h4 : u * |p + a| ≤ u * (2 * (|a| + |b|)) := mul_le_mul_of_nonneg_left h2 hu
  have e : y - (a + T) = (y - (p + a)) + (p - T) := by ring
  have h5 : 0 ≤ u * (|a| + |b|) := by positivity
  rw [e]
  calc _ ≤ |y - (p + a)| + |p - T| := abs_add_le _ _
    _ ≤ _ := by linarith

theorem node_close {a b : ℚ} (h : Range a b) {N i : Nat} (h1 : 1 ≤ N) (h2 : N ≤ 2 ^ 50) (hi : i ≤ N) :
    |nodeQ a b N i - (a + i * (b - a) / N)| ≤ 2 ^ (-50 : ℤ) * (|a| + |b|) := by
  obtain ⟨_, p2⟩ := p_facts h h1 h2 i
  obtain ⟨f1, f2⟩ := frac_le h h1 hi
  have := node_alg (pow_pos' _).le u64 h.le f1 f2 p2 (FloatCoords.rnd_add_err (isF_rnd _) h.fa)
  have e53 : (8 : ℚ) * 2 ^ (-53 : ℤ) = 2 ^ (-50 : ℤ) := by
    rw [show (-50 : ℤ) = -53 + 3 by norm_num, zpow_add₀ (by norm_num)]; norm_num
  rw [e53] at this
  exact this

theorem node_mono {a b : ℚ} (h : Range a b) {N : Nat} (h1 : 1 ≤ N) (h2 : N ≤ 2 ^ 50) {i j : Nat} (hij : i ≤ j) : nodeQ a b N i ≤ nodeQ a b N j := by
  unfold nodeQ
  refine rnd_mono (add_le_add (rnd_mono ?_) le_rfl)
  exact mul_le_mul_of_nonneg_right (by exact_mod_cast hij) (step_facts h h1 h2).2.1

theorem node_zero {a b : ℚ} (h : Range a b) (N : Nat) : nodeQ a b N 0 = a := by
  unfold nodeQ
  rw [Nat.cast_zero, zero_mul, rnd_zero, zero_add]
  exact h.fa

theorem node_between {a b : ℚ} (h : Range a b) {N i : Nat} (h2 : N ≤ 2 ^ 50) (hi : i < N) : a ≤ nodeQ a b N i ∧ nodeQ a b N i ≤ b := by
  constructor
  · have := node_mono h (N := N) (by omega) h2 (Nat.zero_le i)
    rwa [node_zero h N] at this
  · exact rnd_le (by linarith [p_le h h2 hi]) h.fb

/-- What is computed. -/
theorem node_num {a b : ℚ} (h : Range a b) {N i : Nat} (h1 : 1 ≤ N) (h2 : N ≤ 2 ^ 50) (hi : i ≤ N) :
    Num.div (Num.sub (.fin b) (.fin a)) (ofQ N) = .fin (stepQ a b N) ∧ Num.add (Num.mul (ofQ i) (.fin (stepQ a b N))) (.fin a) = .fin (nodeQ a b N i) ∧
    Num.add (Num.mul (Num.div (ofQ i) (ofQ N)) (Num.sub (.fin b) (.fin b))) (.fin b) = .fin b := by
  have hN0 : (0 : ℚ) < N := by exact_mod_cast h1
  have hN1 : (1 : ℚ) ≤ N := by exact_mod_cast h1
  have oN : ∀ k : Nat, k ≤ 2 ^ 50 → ofQ (k : ℚ) = .fin k := by
    intro k hk
    have hk' : |((k : ℤ))| ≤ 2 ^ 53 := by
      rw [abs_of_nonneg (by positivity)]
      have : (k : ℤ) ≤ 2 ^ 50 := by exact_mod_cast hk
      omega
    have hf : IsF ((k : ℤ) : ℚ) := isF_int hk'
    rw [Int.cast_natCast] at hf
    refine FloatReduce.ofQ_self ⟨hf, ?_⟩
    rw [abs_of_nonneg (by positivity)]
    calc (k : ℚ) ≤ 2 ^ 50 := by exact_mod_cast hk
      _ < 2 ^ 1024 := pow_lt_pow_right₀ (by norm_num) (by norm_num)
  have ha22 := FloatStandardize.up 1022 h.ha (by norm_num)
  have hb22 := FloatStandardize.up 1022 h.hb (by norm_num)
  obtain ⟨s1, s2, s3, s4, s5⟩ := span_facts h
  have d1 : Num.div (Num.sub (.fin b) (.fin a)) (ofQ N) = .fin (stepQ a b N) := by
    rw [FloatLinear.sub_fin hb22 ha22, oN N h2]
    refine FloatStandardize.div_fin hN0.ne' ?_
    rw [abs_of_nonneg (div_nonneg s2 hN0.le)]
    calc rnd (b - a) / N ≤ rnd (b - a) := div_le_self s2 hN1
      _ ≤ 2 ^ 1021 := s3
      _ ≤ 2 ^ 1023 := pow_le_pow_right₀ (by norm_num) (by norm_num)
  have f2 : stepQ a b N * i ≤ 2 ^ 1022 := by
    obtain ⟨t1, t2, _, _⟩ := step_facts h h1 h2
    have t3 := (abs_le.mp t1).2
    have hi' : (i : ℚ) ≤ N := by exact_mod_cast hi
    have hq : rnd (b - a) / N * N = rnd (b - a) := div_mul_cancel₀ _ hN0.ne'
    have u1 : (2 : ℚ) ^ (-53 : ℤ) ≤ 1 := u64.trans (by norm_num)
    have q0 : 0 ≤ rnd (b - a) / N := div_nonneg s2 hN0.le
    have t4 : stepQ a b N ≤ 2 * (rnd (b - a) / N) := by
      have : (2 : ℚ) ^ (-53 : ℤ) * (rnd (b - a) / N) ≤ 1 * (rnd (b - a) / N) := mul_le_mul_of_nonneg_right u1 q0
      linarith
    calc stepQ a b N * i ≤ stepQ a b N * N := mul_le_mul_of_nonneg_left hi' t2
      _ ≤ 2 * (rnd (b - a) / N) * N := mul_le_mul_of_nonneg_right t4 hN0.le
      _ = 2 * rnd (b - a) := by rw [mul_assoc, hq]
      _ ≤ 2 * 2 ^ 1021 := by linarith
      _ = 2 ^ 1022 := (pow_succ' 2 1021).symm
  have f0 : 0 ≤ (i : ℚ) * stepQ a b N := mul_nonneg (Nat.cast_nonneg i) (step_facts h h1 h2).2.1
  have f3 : |(i : ℚ) * stepQ a b N| ≤ 2 ^ 1022 := by rw [abs_of_nonneg f0, mul_comm]; exact f2
  refine ⟨d1, ?_, ?_⟩
  · rw [oN i (by omega), FloatStandardize.mul_fin (FloatStandardize.up 1023 f3 (by norm_num)), FloatLinear.add_fin (FloatStandardize.rnd_size f3) ha22]
    rfl
  · have e0 : Num.sub (.fin b) (.fin b) = .fin 0 := by rw [FloatLinear.sub_fin hb22 hb22, sub_self, rnd_zero]
    have hdiv : Num.div (ofQ i) (ofQ N) = .fin (rnd (i / N)) := by
      rw [oN i (by omega), oN N h2]
      refine FloatStandardize.div_fin hN0.ne' ?_
      rw [abs_of_nonneg (div_nonneg (Nat.cast_nonneg i) hN0.le)]
      calc (i : ℚ) / N ≤ 1 := by rw [div_le_one hN0]; exact_mod_cast hi
        _ ≤ 2 ^ 1023 := one_le_pow₀ (by norm_num)
    rw [e0, hdiv, FloatStandardize.mul_fin (by rw [mul_zero, abs_zero]; positivity), mul_zero, rnd_zero, FloatLinear.add_fin (by rw [abs_zero]; positivity) hb22,
      zero_add]
    exact congrArg Num.fin h.fb

/-- The locations of `np.linspace`, as computed. -/
def linQ (a b : ℚ) (n : Nat) : List ℚ := (List.range n).map fun i : Nat => if i + 1 = n then b else nodeQ a b (n - 1) i

theorem linspace_fin {a b : ℚ} (h : Range a b) {n : Nat} (h2 : 2 ≤ n) (hn : n ≤ 2 ^ 50) : linspace (.fin a) (.fin b) n = fins (linQ a b n) := by
  have hN : ((n : ℚ) - 1) = ((n - 1 : Nat) : ℚ) := by rw [Nat.cast_sub (by omega)]; simp
  unfold linspace linQ fins
  dsimp only
  rw [if_neg (by omega), List.map_map]
  refine List.map_congr_left fun i hi => ?_
  have hi' : i < n := List.mem_range.mp hi
  rw [hN]
  obtain ⟨d1, d2, d3⟩ := node_num h (N := n - 1) (i := i) (by omega) (by omega) (by omega)
  show _ = Num.fin (if i + 1 = n then b else nodeQ a b (n - 1) i)
  by_cases he : i + 1 = n
  · rw [if_pos he, if_pos he]
  · rw [if_neg he, if_neg he, d1, d2]
    by_cases hs : (Num.fin (stepQ a b (n - 1))) = .fin 0
    · rw [if_pos hs]
      have hs0 : stepQ a b (n - 1) = 0 := Num.fin.inj hs
      have hab : a = b := by
        rcases eq_or_lt_of_le h.le with he | hlt
        · exact he
        · have := (step_facts h (N := n - 1) (by omega) (by omega)).2.2.1 hlt
          rw [hs0] at this
          exact absurd this (not_le.mpr (pow_pos' _))
      have hnode : nodeQ a b (n - 1) i = b := by
        unfold nodeQ
        rw [hs0, mul_zero, rnd_zero, zero_add, hab]
        exact h.fb
      rw [hnode]
      rw [hab]
      exact d3
    · rw [if_neg hs]

theorem linQ_facts {a b : ℚ} (h : Range a b) {n : Nat} (h2 : 2 ≤ n) (hn : n ≤ 2 ^ 50) :
    (linQ a b n).length = n ∧ (linQ a b n)[0]? = some a ∧ (linQ a b n)[n - 1]? = some b ∧
    (∀ y ∈ linQ a b n, IsF y ∧ a ≤ y ∧ y ≤ b) ∧ (∀ i (hi : i + 1 < (linQ a b n).length), (linQ a b n)[i] ≤ (linQ a b n)[i + 1]) ∧
    (∀ i (hi : i < (linQ a b n).length), |(linQ a b n)[i] - (a + i * (b - a) / (n - 1))| ≤ 2 ^ (-50 : ℤ) * (|a| + |b|)) := by
  have hN : ((n : ℚ) - 1) = ((n - 1 : Nat) : ℚ) := by rw [Nat.cast_sub (by omega)]; simp
  have hlen : (linQ a b n).length = n := by simp [linQ]
  have hget : ∀ i (hi : i < (linQ a b n).length), (linQ a b n)[i] = if i + 1 = n then b else nodeQ a b (n - 1) i := by
    intro i hi; simp [linQ]
  refine ⟨hlen, ?_, ?_, ?_, ?_, ?_⟩
  · rw [List.getElem?_eq_getElem (by omega), hget, if_neg (by omega), node_zero h]
  · rw [List.getElem?_eq_getElem (by omega), hget, if_pos (by omega)]
  · intro y hy
    obtain ⟨i, hi, rfl⟩ := List.getElem_of_mem hy
    rw [hget i hi]
    split_ifs with he
    · exact ⟨h.fb, h.le, le_rfl⟩
    · obtain ⟨q1, q2⟩ := node_between h (N := n - 1) (i := i) (by omega) (by omega)
      exact ⟨isF_rnd _, q1, q2⟩
  · intro i hi
    rw [hget i (by omega), hget (i + 1) hi, if_neg (by omega)]
    split_ifs with he
    · exact (node_between h (N := n - 1) (i := i) (by omega) (by omega)).2
    · exact node_mono h (by omega) (by omega) (Nat.le_succ i)
  · intro i hi
    rw [hget i hi, hN]
    split_ifs with he
    · have : (i : ℚ) = ((n - 1 : Nat) : ℚ) := by
        have : i = n - 1 := by omega
        rw [this]
      rw [this]
      have hN0 : ((n - 1 : Nat) : ℚ) ≠ 0 := by
        have : 0 < n - 1 := by omega
        exact_mod_cast this.ne'
      rw [mul_div_assoc, mul_div_cancel₀ _ hN0, add_sub_cancel, sub_self, abs_zero]
      exact mul_nonneg (pow_pos' _).le (by positivity)
    · exact node_close h (by omega) (by omega) (by omega)

theorem mk_fins {xs : List ℚ} (hne : xs ≠ []) (hF : ∀ x ∈ xs, IsF x ∧ |x| ≤ 2 ^ 1023) (hs : ∀ i (h : i + 1 < xs.length), xs[i] ≤ xs[i + 1]) :
    mk (fins xs) = .ok (fins xs) := by
  refine (C146_accepted (fins xs) ?_).1.mpr ⟨?_, ?_⟩
  · intro a ha
    obtain ⟨x, hx, rfl⟩ := List.mem_map.mp ha
    exact ⟨(hF x hx).1, lt_of_le_of_lt (hF x hx).2 (pow_lt_pow_right₀ (by norm_num) (by norm_num))⟩
  · intro h
    exact hne (List.map_eq_nil_iff.mp h)
  · intro i hi
    have hi2 : i + 1 < xs.length := by simpa [fins] using hi
    simp only [fins, List.getElem_map]
    refine ⟨?_, by rintro ⟨s, h, _⟩; cases h⟩
    simp only [Num.le, decide_eq_true_eq]
    exact hs i hi2

theorem in_range_size {a b y : ℚ} (h : Range a b) (h1 : a ≤ y) (h2 : y ≤ b) : |y| ≤ 2 ^ 1020 := by
  have a1 := (abs_le.mp h.ha).1
  have b1 := (abs_le.mp h.hb).2
  rw [abs_le]
  exact ⟨a1.trans h1, h2.trans b1⟩

theorem lin_one {a b : ℚ} (h : Range a b) : linspace (.fin a) (.fin b) 1 = [.fin a] := by
  have ha22 := FloatStandardize.up 1022 h.ha (by norm_num)
  have hb22 := FloatStandardize.up 1022 h.hb (by norm_num)
  unfold linspace
  dsimp only
  rw [if_pos rfl, FloatLinear.sub_fin hb22 ha22, FloatStandardize.mul_fin (by rw [zero_mul, abs_zero]; exact (pow_pos (by norm_num) _).le), zero_mul, rnd_zero,
    FloatLinear.add_fin (by rw [abs_zero]; exact (pow_pos (by norm_num) _).le) ha22, zero_add]
  exact congrArg (fun q => [Num.fin q]) h.fa

/-- Specification: `xs` are `n` doubles in order from `a` to `b`, the first one `a`, the last of two or more `b`, and each one of them within 2^-50(|a|+|b|)
of its place in an exactly equal division. -/
structure Even (a b : ℚ) (n : Nat) (xs : List ℚ) : Prop where
  len : xs.length = n
  first : xs[0]? = some a
  last : 2 ≤ n → xs[n - 1]? = some b
  inside : ∀ y ∈ xs, IsF y ∧ a ≤ y ∧ y ≤ b
  sorted : ∀ i (_ : i + 1 < xs.length), xs[i] ≤ xs[i + 1]
  close : ∀ i (_ : i < xs.length), |xs[i] - (a + i * (b - a) / (n - 1))| ≤ 2 ^ (-50 : ℤ) * (|a| + |b|)

/-- C146: `np.linspace(a, b, n)` of `n ≥ 1` locations is a grid that spans exactly `[a, b]`, for every range of doubles up to 2^1020 that is a point or at
least 2^-900 wide: the first location is exactly `a`, the last exactly `b`, none is outside, they never decrease, and each is at most 2^-50(|a|+|b|) off. -/
theorem C146_linspace {a b : ℚ} (h : Range a b) {n : Nat} (h1 : 1 ≤ n) (hn : n ≤ 2 ^ 50) :
    ∃ xs, mk (linspace (.fin a) (.fin b) n) = .ok (fins xs) ∧ Even a b n xs := by
  by_cases he : n = 1
  · subst he
    refine ⟨[a], ?_, ?_⟩
    · rw [lin_one h]
      rfl
    · refine ⟨rfl, rfl, by omega, ?_, ?_, ?_⟩
      · intro y hy
        rw [List.mem_singleton.mp hy]
        exact ⟨h.fa, le_rfl, h.le⟩
      · intro i hi
        simp at hi
      · intro i hi
        have hi0 : i = 0 := by simpa using hi
        subst hi0
        rw [Nat.cast_zero, zero_mul, zero_div, add_zero]
        show |a - a| ≤ _
        rw [sub_self, abs_zero]
        exact mul_nonneg (pow_pos' _).le (add_nonneg (abs_nonneg _) (abs_nonneg _))
  · have h2 : 2 ≤ n := by omega
    obtain ⟨f1, f2, f3, f4, f5, f6⟩ := linQ_facts h h2 hn
    refine ⟨linQ a b n, ?_, ⟨f1, f2, fun _ => f3, f4, f5, f6⟩⟩
    rw [linspace_fin h h2 hn]
    refine mk_fins ?_ (fun x hx => ⟨(f4 x hx).1, FloatStandardize.up 1023 (in_range_size h (f4 x hx).2.1 (f4 x hx).2.2) (by norm_num)⟩) f5
    rw [← List.length_pos_iff]
    omega

theorem range01 : Range 0 1 :=
  ⟨rnd_zero, (by have := isF_int (m := 1) (by norm_num); exact_mod_cast this), (by rw [abs_zero]; exact (pow_pos (by norm_num) _).le),
    (by rw [abs_one]; exact one_le_pow₀ (by norm_num)), (by norm_num), .inr (by
      rw [sub_zero]
      exact zpow_le_one_of_nonpos₀ (by norm_num) (by norm_num))⟩

example : ∃ xs, mk (linspace (.fin 0) (.fin 1) 50) = .ok (fins xs) ∧ Even 0 1 50 xs := C146_linspace range01 (by norm_num) (by norm_num)

/-- C146 (recorded): a range as narrow as 9 times the smallest positive double cannot be divided into 6: the step is rounded up to twice that double, and the
location before the last is past the end, so the array is not in order and is refused. -/
theorem C146_linspace_subnormal : mk (linspace (.fin 0) (.fin (9 * 2 ^ (-1074 : ℤ))) 7) = .error .assertionError := by decide +kernel

/-- C146 (recorded): a range whose width is not representable is refused too: the step is infinite and the first location `0*inf + a` is NaN. -/
theorem C146_linspace_overflow : mk (linspace (.fin (-(2 ^ 1023))) (.fin (2 ^ 1023)) 3) = .error .assertionError := by decide +kernel

/-! ### Complex steps -/

theorem node_size {a b : ℚ} (h : Range a b) {N i : Nat} (h1 : 1 ≤ N) (h2 : N ≤ 2 ^ 50) (hi : i ≤ N) : |nodeQ a b N i| ≤ 2 ^ 1023 := by
  have c := node_close h h1 h2 hi
  obtain ⟨t1, t2⟩ := frac_le h h1 hi
  have hy := in_range_size h (y := a + i * (b - a) / N) (by linarith only [t1]) (by linarith only [t2])
  have hu : (2 : ℚ) ^ (-50 : ℤ) * (|a| + |b|) ≤ 1 * (|a| + |b|) :=
    mul_le_mul_of_nonneg_right (zpow_le_one_of_nonpos₀ (by norm_num) (by norm_num)) (add_nonneg (abs_nonneg _) (abs_nonneg _))
  have e : (2 : ℚ) ^ 1023 = 8 * 2 ^ 1020 := by
    rw [show 1023 = 3 + 1020 from rfl, pow_add]; norm_num
  have e0 : (0 : ℚ) < 2 ^ 1020 := pow_pos (by norm_num) _
  rw [e]
  have c2 := c.trans hu
  have g1 := h.ha
  have g2 := h.hb
  clear c hu e
  generalize (2 : ℚ) ^ 1020 = B at *
  generalize a + i * (b - a) / (N : ℚ) = T at *
  have e1 : nodeQ a b N i = (nodeQ a b N i - T) + T := by ring
  rw [e1]
  calc _ ≤ |nodeQ a b N i - T| + |T| := abs_add_le _ _
    _ ≤ _ := by linarith only [c2, g1, g2, hy, e0]

/-- C146: a slice with a complex step, `start:stop:n*1j`, gives a grid of `n` locations that starts exactly at `start`, each within 2^-50(|a|+|b|) of its place in
an exactly equal division; only the last can be past `stop`. -/
theorem C146_mgrid {a b : ℚ} (h : Range a b) {n : Nat} (h1 : 1 ≤ n) (hn : n ≤ 2 ^ 50) :
    ∃ xs, mk (mgridImag (.fin a) (.fin b) n) = .ok (fins xs) ∧ xs.length = n ∧ xs[0]? = some a ∧ (∀ y ∈ xs, IsF y ∧ a ≤ y) ∧
      (∀ i (_ : i + 1 < xs.length), xs[i] ≤ xs[i + 1] ∧ xs[i] ≤ b) ∧
      (∀ i (_ : i < xs.length), |xs[i] - (a + i * (b - a) / (n - 1))| ≤ 2 ^ (-50 : ℤ) * (|a| + |b|)) := by
  by_cases he : n = 1
  · subst he
    have ha22 := FloatStandardize.up 1022 h.ha (by norm_num)
    have o0 : ofQ ((0 : ℕ) : ℚ) = .fin 0 := by decide +kernel
    have e : mgridImag (.fin a) (.fin b) 1 = [.fin a] := by
      unfold mgridImag
      dsimp only
      rw [if_pos rfl]
      show [Num.add (Num.mul (ofQ ((0 : ℕ) : ℚ)) (.fin 1)) (.fin a)] = _
      rw [o0, FloatStandardize.mul_fin (by rw [zero_mul, abs_zero]; exact (pow_pos (by norm_num) _).le), zero_mul, rnd_zero,
        FloatLinear.add_fin (by rw [abs_zero]; exact (pow_pos (by norm_num) _).le) ha22, zero_add]
      exact congrArg (fun q => [Num.fin q]) h.fa
    refine ⟨[a], ?_, rfl, rfl, ?_, ?_, ?_⟩
    · rw [e]; rfl
    · intro y hy
      rw [List.mem_singleton.mp hy]
      exact ⟨h.fa, le_rfl⟩
    · intro i hi
      simp at hi
    · intro i hi
      have hi0 : i = 0 := by simpa using hi
      subst hi0
      rw [Nat.cast_zero, zero_mul, zero_div, add_zero]
      show |a - a| ≤ _
      rw [sub_self, abs_zero]
      exact mul_nonneg (pow_pos' _).le (add_nonneg (abs_nonneg _) (abs_nonneg _))
  · have hN1 : 1 ≤ n - 1 := by omega
    have hN2 : n - 1 ≤ 2 ^ 50 := by omega
    have hN : ((n : ℚ) - 1) = ((n - 1 : Nat) : ℚ) := by rw [Nat.cast_sub (by omega)]; simp
    let xs : List ℚ := (List.range n).map fun i : Nat => nodeQ a b (n - 1) i
    have hlen : xs.length = n := by simp [xs]
    have hget : ∀ i (hi : i < xs.length), xs[i] = nodeQ a b (n - 1) i := by
      intro i hi; simp [xs]
    have e : mgridImag (.fin a) (.fin b) n = fins xs := by
      unfold mgridImag fins
      dsimp only [xs]
      rw [if_neg he, List.map_map, hN]
      refine List.map_congr_left fun i hi => ?_
      have hi' : i < n := List.mem_range.mp hi
      obtain ⟨d1, d2, -⟩ := node_num h (N := n - 1) (i := i) hN1 hN2 (by omega)
      rw [d1, d2]
      rfl
    refine ⟨xs, ?_, hlen, ?_, ?_, ?_, ?_⟩
    · rw [e]
      refine mk_fins ?_ ?_ ?_
      · rw [← List.length_pos_iff]
        omega
      · intro x hx
        obtain ⟨i, hi, rfl⟩ := List.getElem_of_mem hx
        rw [hget i hi]
        exact ⟨isF_rnd _, node_size h hN1 hN2 (by omega)⟩
      · intro i hi
        rw [hget i (by omega), hget (i + 1) hi]
        exact node_mono h hN1 hN2 (Nat.le_succ i)
    · rw [List.getElem?_eq_getElem (by omega), hget, node_zero h]
    · intro y hy
      obtain ⟨i, hi, rfl⟩ := List.getElem_of_mem hy
      rw [hget i hi]
      refine ⟨isF_rnd _, ?_⟩
      have := node_mono h hN1 hN2 (Nat.zero_le i)
      rwa [node_zero h] at this
    · intro i hi
      rw [hget i (by omega), hget (i + 1) hi]
      exact ⟨node_mono h hN1 hN2 (Nat.le_succ i), (node_between h hN2 (by omega)).2⟩
    · intro i hi
      rw [hget i hi, hN]
      exact node_close h hN1 hN2 (by omega)

/-- C146 (recorded): the extent of `0:1:50j` does not end at 1 but at the double below it, and 1.0 is located past
the last bin. -/
theorem C146_mgrid_short : (extent (mgridImag (.fin 0) (.fin 1) 50)) = (.fin 0, .fin (1 - 2 ^ (-53 : ℤ))) ∧
    (extent (linspace (.fin 0) (.fin 1) 50)) = (.fin 0, .fin 1) := by decide +kernel

/-! ### From the range of data -/

theorem value_size {s : List ℚ} (hne : s ≠ []) (hs : s.Pairwise (· ≤ ·)) (hF : FloatQuantile.Moderate s) (hn : s.length ≤ 2 ^ 53) (hb : ∀ x ∈ s, |x| ≤ 2 ^ 1020)
    {p : ℚ} (h0 : 0 ≤ p) (h1 : p ≤ 1) : IsF (FloatQuantile.valueQ s p) ∧ |FloatQuantile.valueQ s p| ≤ 2 ^ 1020 := by
  obtain ⟨f, c⟩ := FloatQuantile.value_bracket hne hs hF hn h0 h1
  have hl : 0 < s.length := List.length_pos_iff.mpr hne
  refine ⟨f, ?_⟩
  rcases c with ⟨_, c2⟩ | ⟨_, c2, c3, c4⟩
  · rw [c2]
    exact hb _ (FloatQuantile.getD_mem s _ (by omega))
  · rw [abs_le]
    exact ⟨(abs_le.mp (hb _ (FloatQuantile.getD_mem s _ (by omega)))).1.trans c3, c4.trans (abs_le.mp (hb _ (FloatQuantile.getD_mem s _ c2))).2⟩

/-- C146: for a non-empty sample of doubles up to 2^1020 and probabilities 0 ≤ p_lo ≤ p_hi ≤ 1, `from_data_range` is the evenly divided grid between the two
quantiles (those of `np.quantile`: C138), whenever they are equal or at least 2^-900 apart. -/
theorem C146_from_data_range (xs : List ℚ) (hne : xs ≠ []) (hF : ∀ x ∈ xs, IsF x ∧ |x| ≤ 2 ^ 1020) (hl : xs.length ≤ 2 ^ 53) {pLo pHi : ℚ} (h0 : 0 ≤ pLo)
    (hle : pLo ≤ pHi) (h1 : pHi ≤ 1) {n : Nat} (hn : 1 ≤ n) (hn2 : n ≤ 2 ^ 50) :
    ∃ lo hi, FloatQuantile.npQuantile (fins xs) (.fin pLo) = .ok (.fin lo) ∧ FloatQuantile.npQuantile (fins xs) (.fin pHi) = .ok (.fin hi) ∧ lo ≤ hi ∧
      (lo = hi ∨ 2 ^ (-900 : ℤ) ≤ hi - lo → ∃ ys, fromDataRange (fins xs) (.fin pLo) (.fin pHi) n = .ok (fins ys) ∧ Even lo hi n ys) := by
  have hM : FloatQuantile.Moderate xs := fun x hx => ⟨(hF x hx).1, FloatStandardize.up 1021 (hF x hx).2 (by norm_num)⟩
  have e1 := FloatQuantile.npQuantile_fin hne hM hl h0 (hle.trans h1)
  have e2 := FloatQuantile.npQuantile_fin hne hM hl (h0.trans hle) h1
  have hmem : ∀ x, x ∈ Pyhipp.npSort xs ↔ x ∈ xs := fun x => (npSort_perm xs).mem_iff
  have sl : (Pyhipp.npSort xs).length = xs.length := (npSort_perm xs).length_eq
  have sne : Pyhipp.npSort xs ≠ [] := by
    rw [← List.length_pos_iff, sl]; exact List.length_pos_iff.mpr hne
  have sM : FloatQuantile.Moderate (Pyhipp.npSort xs) := fun x hx => hM x ((hmem x).mp hx)
  have sB : ∀ x ∈ Pyhipp.npSort xs, |x| ≤ 2 ^ 1020 := fun x hx => (hF x ((hmem x).mp hx)).2
  have sS := npSort_sorted xs
  have hl' : (Pyhipp.npSort xs).length ≤ 2 ^ 53 := by rw [sl]; exact hl
  obtain ⟨f1, g1⟩ := value_size sne sS sM hl' sB h0 (hle.trans h1)
  obtain ⟨f2, g2⟩ := value_size sne sS sM hl' sB (h0.trans hle) h1
  have hm := FloatQuantile.value_mono sne sS sM hl' h0 hle h1
  refine ⟨_, _, e1, e2, hm, fun hgap => ?_⟩
  obtain ⟨ys, q1, q2⟩ := C146_linspace (Range.mk f1 f2 g1 g2 hm hgap) hn hn2
  refine ⟨ys, ?_, q2⟩
  unfold fromDataRange
  rw [e1, e2]
  exact q1

/-- C146: with the default probabilities 0 and 1 and at least two locations the grid covers the data: it goes exactly from the minimum to the maximum, every datum
is located in 0 … n - 1, and the last index belongs to the maximum alone. -/
theorem C146_from_data_range_covers (xs : List ℚ) (hF : ∀ x ∈ xs, IsF x ∧ |x| ≤ 2 ^ 1020) (hl : xs.length ≤ 2 ^ 53) {lo hi : ℚ}
    (hlo : lo ∈ xs ∧ ∀ x ∈ xs, lo ≤ x) (hhi : hi ∈ xs ∧ ∀ x ∈ xs, x ≤ hi) (hgap : lo = hi ∨ 2 ^ (-900 : ℤ) ≤ hi - lo) {n : Nat} (hn : 2 ≤ n) (hn2 : n ≤ 2 ^ 50) :
    ∃ ys, fromDataRange (fins xs) (.fin 0) (.fin 1) n = .ok (fins ys) ∧ Even lo hi n ys ∧ extent (fins ys) = (.fin lo, .fin hi) ∧
      ∀ x ∈ xs, 0 ≤ locate (fins ys) (.fin x) ∧ locate (fins ys) (.fin x) ≤ (n : Int) - 1 ∧ (locate (fins ys) (.fin x) = (n : Int) - 1 ↔ x = hi) := by
  have hne : xs ≠ [] := List.ne_nil_of_mem hlo.1
  obtain ⟨l, h, e1, e2, -, hres⟩ := C146_from_data_range xs hne hF hl (pLo := 0) (pHi := 1) le_rfl (by norm_num) le_rfl (n := n) (by omega) hn2
  have hM : FloatQuantile.Moderate xs := fun x hx => ⟨(hF x hx).1, FloatStandardize.up 1021 (hF x hx).2 (by norm_num)⟩
  have q1 := FloatQuantile.npQuantile_fin hne hM hl (p := 0) le_rfl (by norm_num)
  have q2 := FloatQuantile.npQuantile_fin hne hM hl (p := 1) (by norm_num) le_rfl
  have hmem : ∀ x, x ∈ Pyhipp.npSort xs ↔ x ∈ xs := fun x => (npSort_perm xs).mem_iff
  have sl : (Pyhipp.npSort xs).length = xs.length := (npSort_perm xs).length_eq
  have sp : 0 < xs.length := List.length_pos_iff.mpr hne
  have sne : Pyhipp.npSort xs ≠ [] := by rw [← List.length_pos_iff, sl]; exact sp
  have sM : FloatQuantile.Moderate (Pyhipp.npSort xs) := fun x hx => hM x ((hmem x).mp hx)
  have sS := npSort_sorted xs
  have hl' : (Pyhipp.npSort xs).length ≤ 2 ^ 53 := by rw [sl]; exact hl
  have w1 := FloatQuantile.value_whole sne sS sM hl' (p := 0) le_rfl (by norm_num) 0 (by omega) (by simp)
  have w2 := FloatQuantile.value_whole sne sS sM hl' (p := 1) (by norm_num) le_rfl ((Pyhipp.npSort xs).length - 1) (by omega)
    (by rw [Nat.cast_sub (by omega)]; simp)
  have getD_get : ∀ k (hk : k < (Pyhipp.npSort xs).length), (Pyhipp.npSort xs).getD k 0 = (Pyhipp.npSort xs)[k] := by
    intro k hk
    rw [List.getD_eq_getElem?_getD, List.getElem?_eq_getElem hk]
    rfl
  have pw := List.pairwise_iff_getElem.mp sS
  have le_of : ∀ i j (hi : i < (Pyhipp.npSort xs).length) (hj : j < (Pyhipp.npSort xs).length), i ≤ j → (Pyhipp.npSort xs)[i] ≤ (Pyhipp.npSort xs)[j] := by
    intro i j hi hj hij
    rcases Nat.eq_or_lt_of_le hij with h | h
    · subst h; exact le_rfl
    · exact pw i j hi hj h
  have elo : l = lo := by
    have el : l = FloatQuantile.valueQ (Pyhipp.npSort xs) 0 := Num.fin.inj (Except.ok.inj (e1.symm.trans q1))
    rw [el, w1, getD_get 0 (by omega)]
    refine le_antisymm ?_ (hlo.2 _ ((hmem _).mp (List.getElem_mem _)))
    obtain ⟨k, hk, he⟩ := List.getElem_of_mem ((hmem lo).mpr hlo.1)
    rw [← he]
    exact le_of 0 k (by omega) hk (Nat.zero_le _)
  have ehi : h = hi := by
    have el : h = FloatQuantile.valueQ (Pyhipp.npSort xs) 1 := Num.fin.inj (Except.ok.inj (e2.symm.trans q2))
    rw [el, w2, getD_get _ (by omega)]
    refine le_antisymm (hhi.2 _ ((hmem _).mp (List.getElem_mem _))) ?_
    obtain ⟨k, hk, he⟩ := List.getElem_of_mem ((hmem hi).mpr hhi.1)
    rw [← he]
    exact le_of k _ hk (by omega) (by omega)
  subst elo ehi
  obtain ⟨ys, y1, y2⟩ := hres hgap
  have hlen : (fins ys).length = n := by rw [← y2.len]; simp [fins]
  have hfirst : ys[0]'(by have := y2.len; omega) = l := by
    have := y2.first
    rw [List.getElem?_eq_getElem (by have := y2.len; omega)] at this
    exact Option.some.inj this
  have hlast : ys[n - 1]'(by have := y2.len; omega) = h := by
    have := y2.last hn
    rw [List.getElem?_eq_getElem (by have := y2.len; omega)] at this
    exact Option.some.inj this
  have hmk : mk (fins ys) = .ok (fins ys) := by
    have : ∃ zs, mk zs = .ok (fins ys) := by
      unfold fromDataRange at y1
      rw [e1, e2] at y1
      exact ⟨_, y1⟩
    obtain ⟨zs, hz⟩ := this
    have : zs = fins ys := by
      unfold mk pyAssert at hz
      split at hz
      · exact Except.ok.inj hz
      · cases hz
    rw [this] at hz
    exact hz
  have hb : ∀ y ∈ ys, |y| ≤ 2 ^ 1020 := by
    intro y hy
    have := y2.inside y hy
    rw [abs_le]
    exact ⟨(abs_le.mp (hF l hlo.1).2).1.trans this.2.1, this.2.2.trans (abs_le.mp (hF h hhi.1).2).2⟩
  have hok : ∀ a ∈ fins ys, a.Ok := by
    intro a ha
    obtain ⟨y, hy, rfl⟩ := List.mem_map.mp ha
    exact ⟨(y2.inside y hy).1, lt_of_le_of_lt (hb y hy) (pow_lt_pow_right₀ (by norm_num) (by norm_num))⟩
  have hnn : ∀ a ∈ fins ys, a ≠ .nan := by
    intro a ha
    obtain ⟨y, hy, rfl⟩ := List.mem_map.mp ha
    exact fun h => (by cases h)
  refine ⟨ys, y1, y2, ?_, ?_⟩
  · unfold extent
    have hys : ys ≠ [] := by rw [← List.length_pos_iff, y2.len]; omega
    have g1 : (fins ys).headD .nan = .fin l := by
      rw [← hfirst]
      cases ys with
      | nil => exact absurd rfl hys
      | cons y ys => rfl
    have g2 : (fins ys).getLastD .nan = .fin h := by
      rw [List.getLastD_eq_getLast?, List.getLast?_eq_getElem?, hlen, List.getElem?_eq_getElem (by omega)]
      simp only [fins, List.getElem_map, Option.getD_some]
      rw [hlast]
    rw [g1, g2]
  · intro x hx
    obtain ⟨c1, c2, c3, -⟩ := C146_locate (fins ys) hok hmk hnn (.fin x)
    have c1 := c1 (fun h => (by cases h))
    rw [hlen] at c3
    have t0 := c1 0 (by omega)
    have tl := c1 (n - 1) (by omega)
    simp only [fins, List.getElem_map, Num.le, decide_eq_true_eq] at t0 tl
    rw [hfirst] at t0
    rw [hlast] at tl
    refine ⟨t0.mpr (hlo.2 x hx), c3, ?_⟩
    constructor
    · intro he
      exact le_antisymm (hhi.2 x hx) (tl.mp (by
        have he' : locate (List.map Num.fin ys) (.fin x) = (n : Int) - 1 := he
        rw [he']; omega))
    · intro he
      have := tl.mpr he.symm.le
      show locate (fins ys) (.fin x) = _
      have c3' : locate (fins ys) (.fin x) ≤ (n : Int) - 1 := c3
      have this' : ((n - 1 : ℕ) : Int) ≤ locate (fins ys) (.fin x) := this
      omega

/-- C146: a NaN in the data makes both ends NaN, and two or more locations are refused (AssertionError). -/
theorem C146_from_nan (data : List Num) (h : .nan ∈ data) {pLo pHi : ℚ} (h0 : 0 ≤ pLo ∧ pLo ≤ 1) (h1 : 0 ≤ pHi ∧ pHi ≤ 1) {n : Nat} (hn : 2 ≤ n) :
    fromDataRange data (.fin pLo) (.fin pHi) n = .error .assertionError := by
  have e : ∀ p : ℚ, 0 ≤ p ∧ p ≤ 1 → FloatQuantile.npQuantile data (.fin p) = .ok .nan := by
    intro p hp
    have hc : (Num.le (.fin 0) (.fin p) && Num.le (.fin p) (.fin 1)) = true := by simp [Num.le, hp.1, hp.2]
    unfold FloatQuantile.npQuantile
    rw [if_pos hc, if_pos h]
  have el : ∃ rest, linspace .nan .nan n = .nan :: rest ∧ rest ≠ [] := by
    obtain ⟨m, rfl⟩ : ∃ m, n = m + 2 := ⟨n - 2, by omega⟩
    unfold linspace
    dsimp only
    rw [if_neg (by omega), List.range_succ_eq_map, List.map_cons, if_neg (by omega)]
    refine ⟨_, congrArg₂ List.cons ?_ rfl, ?_⟩
    · have hadd : ∀ y : Num, Num.add y .nan = .nan := fun y => by cases y <;> rfl
      split
      · exact hadd _
      · exact hadd _
    · simp [List.range_succ_eq_map]
  obtain ⟨rest, er, hr⟩ := el
  unfold fromDataRange
  rw [e pLo h0, e pHi h1]
  show mk (linspace .nan .nan n) = _
  rw [er]
  obtain ⟨c, cs, rfl⟩ := List.exists_cons_of_ne_nil hr
  have hd : diffsOk (.nan :: c :: cs) = false := by
    rw [diffsOk]
    have : Num.le (.fin 0) (Num.sub c .nan) = false := by cases c <;> rfl
    rw [this]
    rfl
  unfold mk
  rw [hd, Bool.and_false]
  rfl

example : fromDataRange [.fin 1, .nan, .fin 3] (.fin 0) (.fin 1) 32 = .error .assertionError := C146_from_nan _ (by simp) (by norm_num) (by norm_num) (by norm_num)

/-- C146 (recorded): ends in the wrong order are refused: the locations decrease. -/
theorem C146_reversed : mk (linspace (.fin 3) (.fin 1) 3) = .error .assertionError := by decide +kernel

example : ∃ ys, fromDataRange (fins [3, 1, 2]) (.fin 0) (.fin 1) 32 = .ok (fins ys) ∧ Even 1 3 32 ys := by
  have i : ∀ k : ℤ, |k| ≤ 3 → IsF (k : ℚ) ∧ |(k : ℚ)| ≤ 2 ^ 1020 := by
    intro k hk
    refine ⟨isF_int (hk.trans (by norm_num)), ?_⟩
    calc |(k : ℚ)| ≤ 3 := by exact_mod_cast hk
      _ ≤ 2 ^ 2 := by norm_num
      _ ≤ 2 ^ 1020 := pow_le_pow_right₀ (by norm_num) (by norm_num)
  obtain ⟨ys, h1, h2, -⟩ := C146_from_data_range_covers [3, 1, 2] (by
    intro x hx
    simp only [List.mem_cons, List.not_mem_nil, or_false] at hx
    rcases hx with rfl | rfl | rfl
    · exact_mod_cast i 3 (by norm_num)
    · exact_mod_cast i 1 (by norm_num)
    · exact_mod_cast i 2 (by norm_num)) (by norm_num) (lo := 1) (hi := 3) ⟨by simp, by simp⟩ ⟨by simp, by norm_num⟩
    (.inr (le_trans (zpow_le_one_of_nonpos₀ (by norm_num) (by norm_num)) (by norm_num))) (n := 32) (by norm_num) (by norm_num)
  exact ⟨ys, h1, h2⟩

/-! ### Real steps -/

/-- A whole multiple of a double is rounded with a small relative error, even below the normal range. -/
theorem nat_mul_err {y : ℚ} (hy : IsF y) (i : Nat) : |rnd (i * y) - i * y| ≤ 2 ^ (-53 : ℤ) * |i * y| := by
  rcases le_or_gt (2 ^ (-1022 : ℤ)) |(i : ℚ) * y| with h | h
  · exact rnd_err h
  · obtain ⟨m, e1⟩ := hy.mult
    have h2 : |(i : ℚ) * y| ≤ 2 ^ ((-1074 : ℤ) + 53) := h.le.trans (zpow_le_zpow_right₀ (by norm_num) (by norm_num))
    have : IsF ((i : ℚ) * y) := isF_of_mult (e := -1074) (k := i * m) (le_refl _) (by rw [e1]; push_cast; ring) h2
    rw [this, sub_self, abs_zero]
    exact mul_nonneg (pow_pos' _).le (abs_nonneg _)

/-- The second location, the difference and the locations, as computed. -/
def nextQ (a d : ℚ) : ℚ := rnd (a + d)
def dltQ (a d : ℚ) : ℚ := rnd (nextQ a d - a)
def arQ (a d : ℚ) (i : Nat) : ℚ := if i = 0 then a else if i = 1 then nextQ a d else rnd (a + rnd (i * dltQ a d))

theorem next_facts {a d : ℚ} (ha : IsF a) (hd : IsF d) (h : 0 < d) :
    a ≤ nextQ a d ∧ nextQ a d - a ≤ 2 * d ∧ |nextQ a d - (a + d)| ≤ 2 ^ (-53 : ℤ) * |a + d| := by
  refine ⟨le_rnd (by linarith) ha, ?_, FloatCoords.rnd_add_err ha hd⟩
  have := (FloatBins.C121_rounding (a + d)).2.2.1 a ha
  have e : |a - (a + d)| = d := by rw [show a - (a + d) = -d by ring, abs_neg, abs_of_pos h]
  rw [e] at this
  have := (abs_le.mp this).2
  unfold nextQ
  linarith

theorem dlt_facts {a d : ℚ} (ha : IsF a) (hd : IsF d) (h : 0 < d) :
    0 ≤ dltQ a d ∧ dltQ a d ≤ 2 * d ∧ |dltQ a d - (nextQ a d - a)| ≤ 2 ^ (-53 : ℤ) * (nextQ a d - a) := by
  obtain ⟨h1, h2, -⟩ := next_facts ha hd h
  refine ⟨rnd_nonneg (by linarith), rnd_le h2 (two_isF hd), ?_⟩
  have := rnd_sub_err (isF_rnd (a + d)) ha
  rw [show rnd (a + d) - a = nextQ a d - a from rfl, abs_of_nonneg (sub_nonneg.mpr h1)] at this
  exact this

theorem ar_alg {a d δ u P y i : ℚ} (hu : 0 ≤ u) (hu1 : u ≤ 1 / 64) (hi : 1 ≤ i) (hd : 0 < d) (h0 : 0 ≤ δ) (h1 : δ ≤ 2 * d)
    (h2 : |δ - d| ≤ u * |a| + 3 * u * d) (hP : |P - i * δ| ≤ u * (i * δ)) (hy : |y - (a + P)| ≤ u * |a + P|) :
    |y - (a + i * d)| ≤ i * (8 * u * (|a| + d)) := by
  have D1 : i * δ ≤ 2 * (i * d) := by nlinarith
  have D0 : 0 ≤ i * δ := by positivity
  have W0 : 0 < i * d := by positivity
  have A0 : |a| ≤ i * |a| := by nlinarith [abs_nonneg a]
  have DW : |i * δ - i * d| ≤ u * (i * |a|) + 3 * u * (i * d) := by
    rw [← mul_sub, abs_mul, abs_of_pos (by linarith)]
    calc i * |δ - d| ≤ i * (u * |a| + 3 * u * d) := mul_le_mul_of_nonneg_left h2 (by linarith)
      _ = _ := by ring
  have e8 : i * (8 * u * (|a| + d)) = 8 * (u * (i * |a|)) + 8 * (u * (i * d)) := by ring
  have e0 : y - (a + i * d) = (y - (a + P)) + (P - i * δ) + (i * δ - i * d) := by ring
  have uA := mul_nonneg hu ((abs_nonneg a).trans A0)
  have uW := mul_nonneg hu W0.le
  have uD : u * (i * δ) ≤ 2 * (u * (i * d)) := by
    calc u * (i * δ) ≤ u * (2 * (i * d)) := mul_le_mul_of_nonneg_left D1 hu
      _ = _ := by ring
  have uW1 : u * (i * d) ≤ 1 / 64 * (i * d) := mul_le_mul_of_nonneg_right hu1 W0.le
  have P1 : |P| ≤ 3 * (i * d) := by
    have : |P| ≤ |P - i * δ| + |i * δ| := by
      calc |P| = |(P - i * δ) + i * δ| := by rw [sub_add_cancel]
        _ ≤ _ := abs_add_le _ _
    rw [abs_of_nonneg D0] at this
    linarith
  have aP : u * |a + P| ≤ u * (i * |a|) + 3 * (u * (i * d)) := by
    have : |a + P| ≤ i * |a| + 3 * (i * d) := (abs_add_le a P).trans (by linarith)
    calc u * |a + P| ≤ u * (i * |a| + 3 * (i * d)) := mul_le_mul_of_nonneg_left this hu
      _ = _ := by ring
  have three : 3 * u * (i * d) = 3 * (u * (i * d)) := by ring
  rw [three] at DW
  rw [e0, e8]
  generalize u * (i * |a|) = X at *
  generalize u * (i * d) = Y at *
  generalize u * (i * δ) = Z at *
  generalize u * |a + P| = V at *
  calc _ ≤ |y - (a + P) + (P - i * δ)| + |i * δ - i * d| := abs_add_le _ _
    _ ≤ |y - (a + P)| + |P - i * δ| + |i * δ - i * d| := by linarith [abs_add_le (y - (a + P)) (P - i * δ)]
    _ ≤ _ := by linarith

theorem dlt_close_alg {a d n δ u : ℚ} (hu : 0 ≤ u) (hd : 0 < d) (h1 : n - a ≤ 2 * d) (h2 : |n - (a + d)| ≤ u * |a + d|) (h3 : |δ - (n - a)| ≤ u * (n - a)) :
    |δ - d| ≤ u * |a| + 3 * u * d := by
  have e : δ - d = (δ - (n - a)) + (n - (a + d)) := by ring
  have g1 : u * (n - a) ≤ 2 * (u * d) := by
    calc u * (n - a) ≤ u * (2 * d) := mul_le_mul_of_nonneg_left h1 hu
      _ = _ := by ring
  have g2 : u * |a + d| ≤ u * |a| + u * d := by
    have : |a + d| ≤ |a| + d := (abs_add_le a d).trans (by rw [abs_of_pos hd])
    calc u * |a + d| ≤ u * (|a| + d) := mul_le_mul_of_nonneg_left this hu
      _ = _ := by ring
  rw [e]
  calc _ ≤ |δ - (n - a)| + |n - (a + d)| := abs_add_le _ _
    _ ≤ _ := by linarith

theorem ar_close {a d : ℚ} (ha : IsF a) (hd : IsF d) (h : 0 < d) (i : Nat) : |arQ a d i - (a + i * d)| ≤ i * (2 ^ (-50 : ℤ) * (|a| + d)) := by
  obtain ⟨n1, n2, n3⟩ := next_facts ha hd h
  obtain ⟨d1, d2, d3⟩ := dlt_facts ha hd h
  have e53 : (8 : ℚ) * 2 ^ (-53 : ℤ) = 2 ^ (-50 : ℤ) := by
    rw [show (-50 : ℤ) = -53 + 3 by norm_num, zpow_add₀ (by norm_num)]; norm_num
  have hu : (0 : ℚ) ≤ 2 ^ (-53 : ℤ) := (pow_pos' _).le
  unfold arQ
  split_ifs with h0 h1
  · subst h0
    rw [Nat.cast_zero, zero_mul, add_zero, sub_self, abs_zero, zero_mul]
  · subst h1
    rw [Nat.cast_one, one_mul, one_mul, ← e53]
    have : |a + d| ≤ |a| + d := (abs_add_le a d).trans (by rw [abs_of_pos h])
    generalize (2 : ℚ) ^ (-53 : ℤ) = u at *
    calc _ ≤ u * |a + d| := n3
      _ ≤ u * (|a| + d) := mul_le_mul_of_nonneg_left this hu
      _ ≤ 8 * u * (|a| + d) := mul_le_mul_of_nonneg_right (by linarith) (by positivity)
  · have hc := dlt_close_alg hu h n2 n3 d3
    have hm := nat_mul_err (isF_rnd (nextQ a d - a)) i
    rw [show rnd (nextQ a d - a) = dltQ a d from rfl, abs_of_nonneg (a := (i : ℚ) * dltQ a d) (mul_nonneg (Nat.cast_nonneg i) d1)] at hm
    have := ar_alg hu u64 (i := i) (by exact_mod_cast (by omega : 1 ≤ i)) h d1 d2 hc hm (FloatCoords.rnd_add_err ha (isF_rnd _))
    rw [e53] at this
    exact this

theorem ar_mono {a d : ℚ} (ha : IsF a) (hd : IsF d) (h : 0 < d) (i : Nat) : arQ a d i ≤ arQ a d (i + 1) := by
  obtain ⟨n1, n2, n3⟩ := next_facts ha hd h
  obtain ⟨d1, d2, d3⟩ := dlt_facts ha hd h
  unfold arQ
  by_cases h0 : i = 0
  · subst h0
    exact n1
  by_cases h1 : i = 1
  · subst h1
    rw [if_neg (by omega), if_pos rfl, if_neg (by omega), if_neg (by omega)]
    have e : rnd (((1 + 1 : ℕ) : ℚ) * dltQ a d) = 2 * dltQ a d := by
      have : ((1 + 1 : ℕ) : ℚ) = 2 := by norm_num
      rw [this]
      exact two_isF (isF_rnd _)
    rw [e]
    refine le_rnd ?_ (isF_rnd _)
    have hx : 0 ≤ nextQ a d - a := by linarith
    have hu : (2 : ℚ) ^ (-53 : ℤ) * (nextQ a d - a) ≤ 1 / 64 * (nextQ a d - a) := mul_le_mul_of_nonneg_right u64 hx
    have := (abs_le.mp d3).1
    show nextQ a d ≤ _
    generalize (2 : ℚ) ^ (-53 : ℤ) * (nextQ a d - a) = Z at *
    linarith only [this, hu, hx]
  · rw [if_neg h0, if_neg h1, if_neg (by omega), if_neg (by omega)]
    refine rnd_mono (add_le_add le_rfl (rnd_mono (mul_le_mul_of_nonneg_right ?_ d1)))
    push_cast
    linarith

theorem ar_ge {a d : ℚ} (ha : IsF a) (hd : IsF d) (h : 0 < d) : ∀ i : Nat, a ≤ arQ a d i
  | 0 => le_rfl
  | i + 1 => (ar_ge ha hd h i).trans (ar_mono ha hd h i)

theorem ar_isF {a d : ℚ} (ha : IsF a) (i : Nat) : IsF (arQ a d i) := by
  unfold arQ
  split_ifs
  · exact ha
  · exact isF_rnd _
  · exact isF_rnd _

/-- The quotient that decides the number of locations, as computed. -/
def quoQ (a b d : ℚ) : ℚ := rnd (rnd (b - a) / d)

theorem quo_alg {w W d q q' u : ℚ} (hu : u = 2 ^ (-53 : ℤ)) (hd : 0 < d) (hw : 0 ≤ w) (hwd : w ≤ 2 ^ 50 * d) (h1 : |W - w| ≤ u * w) (hq : q = W / d)
    (h2 : |q' - q| ≤ u * |q| + 2 ^ (-1075 : ℤ)) : |q' - w / d| < 1 ∧ q ≤ 2 ^ 51 := by
  have z : (2 : ℚ) ^ (-1075 : ℤ) ≤ 1 / 8 := by
    calc (2 : ℚ) ^ (-1075 : ℤ) ≤ 2 ^ (-3 : ℤ) := zpow_le_zpow_right₀ (by norm_num) (by norm_num)
      _ = 1 / 8 := by norm_num
  have hu0 : 0 ≤ u := by rw [hu]; exact (pow_pos' _).le
  have hx : w / d ≤ 2 ^ 50 := by rw [div_le_iff₀ hd]; exact hwd
  have hx0 : 0 ≤ w / d := div_nonneg hw hd.le
  have h3 : |q - w / d| ≤ u * (w / d) := by
    rw [hq, ← sub_div, abs_div, abs_of_pos hd, ← mul_div_assoc]
    exact div_le_div_of_nonneg_right h1 hd.le
  have ux : u * (w / d) ≤ 1 / 8 := by
    calc u * (w / d) ≤ u * 2 ^ 50 := mul_le_mul_of_nonneg_left hx hu0
      _ = 1 / 8 := by rw [hu]; norm_num
  generalize w / d = x at *
  have hq1 : |q| ≤ x + 1 / 8 := by
    calc |q| = |(q - x) + x| := by rw [sub_add_cancel]
      _ ≤ |q - x| + |x| := abs_add_le _ _
      _ ≤ _ := by rw [abs_of_nonneg hx0]; linarith
  have uq : u * |q| ≤ 1 / 8 + 1 / 8 := by
    have u1 : u * (1 / 8) ≤ 1 / 8 := by rw [hu]; norm_num
    calc u * |q| ≤ u * (x + 1 / 8) := mul_le_mul_of_nonneg_left hq1 hu0
      _ = u * x + u * (1 / 8) := by ring
      _ ≤ _ := by linarith
  constructor
  · calc |q' - x| = |(q' - q) + (q - x)| := by rw [sub_add_sub_cancel]
      _ ≤ |q' - q| + |q - x| := abs_add_le _ _
      _ < 1 := by linarith only [h2, uq, z, h3, ux]
  · calc q ≤ |q| := le_abs_self _
      _ ≤ x + 1 / 8 := hq1
      _ ≤ 2 ^ 51 := by norm_num at hx ⊢; linarith

theorem ceil_near {q q' : ℚ} (h : |q' - q| < 1) : |⌈q'⌉ - ⌈q⌉| ≤ 1 := by
  obtain ⟨h1, h2⟩ := abs_lt.mp h
  rw [abs_le]
  constructor
  · have : ⌈q⌉ ≤ ⌈q' + 1⌉ := Int.ceil_mono (by linarith)
    rw [Int.ceil_add_one] at this
    omega
  · have : ⌈q'⌉ ≤ ⌈q + 1⌉ := Int.ceil_mono (by linarith)
    rw [Int.ceil_add_one] at this
    omega

/-- The ranges and steps considered. -/
structure Steps (a b d : ℚ) : Prop where
  fa : IsF a
  fb : IsF b
  fd : IsF d
  ha : |a| ≤ 2 ^ 900
  hb : |b| ≤ 2 ^ 900
  hd : d ≤ 2 ^ 900
  pos : 0 < d
  lt : a < b
  many : b - a ≤ 2 ^ 50 * d

theorem quo_facts {a b d : ℚ} (h : Steps a b d) : 0 ≤ quoQ a b d ∧ |quoQ a b d - (b - a) / d| < 1 ∧ rnd (b - a) / d ≤ 2 ^ 51 ∧ quoQ a b d ≤ 2 ^ 51 := by
  have hw : 0 ≤ b - a := by linarith [h.lt]
  have e1 := rnd_sub_err h.fb h.fa
  rw [abs_of_nonneg hw] at e1
  obtain ⟨c1, c2⟩ := quo_alg rfl h.pos hw h.many e1 rfl (FloatMesh.rnd_err_all (rnd (b - a) / d))
  refine ⟨rnd_nonneg (div_nonneg (rnd_nonneg hw) h.pos.le), c1, c2, rnd_le c2 ?_⟩
  have := isF_int (m := 2 ^ 51) (by norm_num)
  push_cast at this
  exact this

theorem up9 {x : ℚ} (h : |x| ≤ 2 ^ 900) : |x| ≤ 2 ^ 1022 := FloatStandardize.up 1022 h (by norm_num)

theorem len_fin {a b d : ℚ} (h : Steps a b d) : ∃ n : Nat, arangeLen (.fin a) (.fin b) (.fin d) = .ok n ∧ 1 ≤ n ∧ n ≤ 2 ^ 51 ∧
    |(n : ℤ) - ⌈(b - a) / d⌉| ≤ 1 := by
  obtain ⟨q0, q1, q2, q3⟩ := quo_facts h
  have hw : 0 < b - a := by linarith [h.lt]
  have ediv : Num.div (Num.sub (.fin b) (.fin a)) (.fin d) = .fin (quoQ a b d) := by
    rw [FloatLinear.sub_fin (up9 h.hb) (up9 h.ha)]
    refine FloatStandardize.div_fin h.pos.ne' ?_
    rw [abs_of_nonneg (div_nonneg (rnd_nonneg hw.le) h.pos.le)]
    exact q2.trans (pow_le_pow_right₀ (by norm_num) (by norm_num))
  have c := ceil_near q1
  have c1 : 1 ≤ ⌈(b - a) / d⌉ := Int.one_le_ceil_iff.mpr (div_pos hw h.pos)
  have hd0 : ¬ ((Num.fin d) = .fin 0) := fun e => h.pos.ne' (Num.fin.inj e)
  unfold arangeLen
  dsimp only
  rw [if_neg hd0, ediv]
  dsimp only
  have es : Num.sub (.fin b) (.fin a) = .fin (rnd (b - a)) := FloatLinear.sub_fin (up9 h.hb) (up9 h.ha)
  have hs := rnd_sub_pos h.fb h.fa h.lt
  by_cases hz : quoQ a b d = 0
  · rw [if_pos ⟨hz, by rw [es]; exact fun e => hs.ne' (Num.fin.inj e)⟩, es]
    have l1 : Num.lt (.fin 0) (.fin (rnd (b - a))) = true := by simp [Num.lt, hs]
    have l2 : Num.lt (.fin 0) (.fin d) = true := by simp [Num.lt, h.pos]
    rw [l1, l2, if_pos rfl]
    refine ⟨1, rfl, le_rfl, by norm_num, ?_⟩
    rw [hz, Int.ceil_zero] at c
    have := abs_le.mp c
    rw [abs_le]
    push_cast
    constructor <;> omega
  · rw [if_neg (fun e => hz e.1)]
    have p : 0 < quoQ a b d := lt_of_le_of_ne q0 (Ne.symm hz)
    have p1 : 1 ≤ ⌈quoQ a b d⌉ := Int.one_le_ceil_iff.mpr p
    have p2 : ⌈quoQ a b d⌉ ≤ 2 ^ 51 := Int.ceil_le.mpr (by push_cast; exact q3)
    refine ⟨_, rfl, by omega, by omega, ?_⟩
    rw [Int.toNat_of_nonneg (by omega)]
    exact c

theorem ar_size {a b d : ℚ} (h : Steps a b d) {i : Nat} (hi : i ≤ 2 ^ 51) : |(i : ℚ) * dltQ a d| ≤ 2 ^ 1000 ∧ |arQ a d i| ≤ 2 ^ 1023 := by
  obtain ⟨d1, d2, d3⟩ := dlt_facts h.fa h.fd h.pos
  obtain ⟨n1, n2, n3⟩ := next_facts h.fa h.fd h.pos
  have i0 : (0 : ℚ) ≤ i := Nat.cast_nonneg i
  have i1 : (i : ℚ) ≤ 2 ^ 51 := by exact_mod_cast hi
  have k : (i : ℚ) * dltQ a d ≤ 2 ^ 1000 := by
    have hd := h.hd
    have e : (2 : ℚ) ^ 1000 = 2 ^ 52 * (2 ^ 48 * 2 ^ 900) := by rw [← pow_add, ← pow_add]
    have p9 : (0 : ℚ) < 2 ^ 900 := pow_pos (by norm_num) _
    have p48 : (1 : ℚ) ≤ 2 ^ 48 := one_le_pow₀ (by norm_num)
    rw [e]
    generalize (2 : ℚ) ^ 900 = B at *
    calc (i : ℚ) * dltQ a d ≤ 2 ^ 51 * (2 * d) := mul_le_mul i1 d2 d1 (by norm_num)
      _ = 2 ^ 52 * d := by ring
      _ ≤ 2 ^ 52 * (2 ^ 48 * B) := mul_le_mul_of_nonneg_left (hd.trans (le_mul_of_one_le_left p9.le p48)) (by norm_num)
  have k' : |(i : ℚ) * dltQ a d| ≤ 2 ^ 1000 := by rw [abs_of_nonneg (mul_nonneg i0 d1)]; exact k
  refine ⟨k', ?_⟩
  have hd9 : |d| ≤ 2 ^ 900 := by rw [abs_of_pos h.pos]; exact h.hd
  unfold arQ
  split_ifs
  · exact FloatStandardize.up 1023 h.ha (by norm_num)
  · exact FloatStandardize.rnd_add_size (up9 h.ha) (up9 hd9)
  · exact FloatStandardize.rnd_add_size (up9 h.ha) (FloatStandardize.up 1022 (FloatStandardize.rnd_size k') (by norm_num))

theorem arange_fin {a b d : ℚ} (h : Steps a b d) {n : Nat} (hn : arangeLen (.fin a) (.fin b) (.fin d) = .ok n) (h51 : n ≤ 2 ^ 51) :
    arange (.fin a) (.fin b) (.fin d) = .ok (fins ((List.range n).map (arQ a d))) := by
  have hd9 : |d| ≤ 2 ^ 900 := by rw [abs_of_pos h.pos]; exact h.hd
  obtain ⟨n1, n2, n3⟩ := next_facts h.fa h.fd h.pos
  have e1 : Num.add (.fin a) (.fin d) = .fin (nextQ a d) := FloatLinear.add_fin (up9 h.ha) (up9 hd9)
  have sz : |nextQ a d| ≤ 2 ^ 1022 := by
    refine FloatStandardize.rnd_size ?_
    have e : (2 : ℚ) ^ 1022 = 2 ^ 122 * 2 ^ 900 := by rw [← pow_add]
    rw [e]
    have p9 : (0 : ℚ) < 2 ^ 900 := pow_pos (by norm_num) _
    have p48 : (2 : ℚ) ≤ 2 ^ 122 := by norm_num
    have ha := h.ha
    generalize (2 : ℚ) ^ 900 = B at *
    calc |a + d| ≤ |a| + |d| := abs_add_le _ _
      _ ≤ 2 * B := by linarith only [ha, hd9]
      _ ≤ 2 ^ 122 * B := mul_le_mul_of_nonneg_right p48 p9.le
  have e2 : Num.sub (.fin (nextQ a d)) (.fin a) = .fin (dltQ a d) := FloatLinear.sub_fin sz (up9 h.ha)
  unfold arange
  rw [hn]
  show Except.ok _ = _
  refine congrArg Except.ok ?_
  rw [e1, e2]
  unfold fins
  rw [List.map_map]
  refine List.map_congr_left fun i hi => ?_
  have hi' : i < n := List.mem_range.mp hi
  show _ = Num.fin (arQ a d i)
  unfold arQ
  split_ifs
  · rfl
  · rfl
  · have hk : |((i : ℤ))| ≤ 2 ^ 53 := by
      rw [abs_of_nonneg (by positivity)]
      have : (i : ℤ) ≤ 2 ^ 51 := by exact_mod_cast (by omega : i ≤ 2 ^ 51)
      omega
    have hf : IsF ((i : ℤ) : ℚ) := isF_int hk
    rw [Int.cast_natCast] at hf
    have oi : ofQ (i : ℚ) = .fin i := by
      refine FloatReduce.ofQ_self ⟨hf, ?_⟩
      rw [abs_of_nonneg (Nat.cast_nonneg i)]
      calc (i : ℚ) ≤ 2 ^ 51 := by exact_mod_cast (by omega : i ≤ 2 ^ 51)
        _ < 2 ^ 1024 := pow_lt_pow_right₀ (by norm_num) (by norm_num)
    have k := (ar_size h (i := i) (by omega)).1
    rw [oi, FloatStandardize.mul_fin (FloatStandardize.up 1023 k (by norm_num)),
      FloatLinear.add_fin (up9 h.ha) (FloatStandardize.up 1022 (FloatStandardize.rnd_size k) (by norm_num))]

/-- C146: a slice with a positive real step, `start:stop:step` with start < stop, is always a grid: it starts exactly at `start`, its locations never decrease, their
number is ⌈(stop-start)/step⌉ or one more or one less, and location `i` is at most i·2^-50(|start|+step) off. -/
theorem C146_arange {a b d : ℚ} (h : Steps a b d) :
    ∃ xs, (arange (.fin a) (.fin b) (.fin d) >>= mk) = .ok (fins xs) ∧ xs[0]? = some a ∧ |(xs.length : ℤ) - ⌈(b - a) / d⌉| ≤ 1 ∧
      (∀ i (_ : i + 1 < xs.length), xs[i] ≤ xs[i + 1]) ∧ ∀ i (_ : i < xs.length), IsF xs[i] ∧ |xs[i] - (a + i * d)| ≤ i * (2 ^ (-50 : ℤ) * (|a| + d)) := by
  obtain ⟨n, e, n1, n2, n3⟩ := len_fin h
  have hl : ((List.range n).map (arQ a d)).length = n := by simp
  have hget : ∀ i (hi : i < ((List.range n).map (arQ a d)).length), ((List.range n).map (arQ a d))[i] = arQ a d i := by
    intro i hi; simp
  refine ⟨(List.range n).map (arQ a d), ?_, ?_, ?_, ?_, ?_⟩
  · rw [arange_fin h e n2]
    refine mk_fins ?_ ?_ ?_
    · rw [← List.length_pos_iff, hl]
      omega
    · intro x hx
      obtain ⟨i, hi, rfl⟩ := List.getElem_of_mem hx
      rw [hget i hi]
      exact ⟨ar_isF h.fa i, (ar_size h (by omega)).2⟩
    · intro i hi
      rw [hget i (by omega), hget (i + 1) hi]
      exact ar_mono h.fa h.fd h.pos i
  · rw [List.getElem?_eq_getElem (by omega), hget]
    rfl
  · rw [hl]; exact n3
  · intro i hi
    rw [hget i (by omega), hget (i + 1) hi]
    exact ar_mono h.fa h.fd h.pos i
  · intro i hi
    rw [hget i hi]
    exact ⟨ar_isF h.fa i, ar_close h.fa h.fd h.pos i⟩

/-- 0.1 and 1.3 as doubles. -/
def tenth : ℚ := 3602879701896397 / 36028797018963968
def d13 : ℚ := 5854679515581645 / 4503599627370496

/-- C146 (recorded): the slice 1.0:1.3:0.1 has four locations, and the last is past the excluded end 1.3. -/
theorem C146_arange_past_stop : ∃ x y z w, arange (.fin 1) (.fin d13) (.fin tenth) = .ok [.fin x, .fin y, .fin z, .fin w] ∧ d13 < w :=
  ⟨1, 2476979795053773 / 2251799813685248, 5404319552844596 / 4503599627370496, 5854679515581646 / 4503599627370496, by decide +kernel, by decide +kernel⟩

/-- C146 (recorded): a step of zero is a ZeroDivisionError, and an empty slice is refused. -/
theorem C146_arange_empty (a b : Num) : arange a b (.fin 0) = .error .zeroDivisionError ∧
    (arange (.fin 1) (.fin 1) (.fin 1) >>= mk) = .error .assertionError ∧ (arange (.fin 2) (.fin 1) (.fin 1) >>= mk) = .error .assertionError := by
  refine ⟨rfl, by decide +kernel, by decide +kernel⟩

example : Steps 1 2 tenth := by
  have i : ∀ k : ℤ, |k| ≤ 2 → IsF (k : ℚ) ∧ |(k : ℚ)| ≤ 2 ^ 900 := by
    intro k hk
    refine ⟨isF_int (hk.trans (by norm_num)), ?_⟩
    calc |(k : ℚ)| ≤ 2 := by exact_mod_cast hk
      _ ≤ 2 ^ 1 := by norm_num
      _ ≤ 2 ^ 900 := pow_le_pow_right₀ (by norm_num) (by norm_num)
  have i1 : IsF (1 : ℚ) ∧ |(1 : ℚ)| ≤ 2 ^ 900 := by exact_mod_cast i 1 (by norm_num)
  have i2 : IsF (2 : ℚ) ∧ |(2 : ℚ)| ≤ 2 ^ 900 := by exact_mod_cast i 2 (by norm_num)
  exact ⟨i1.1, i2.1, by decide +kernel, i1.2, i2.2, le_trans (by norm_num [tenth] : tenth ≤ 1) (one_le_pow₀ (by norm_num)), by norm_num [tenth], by norm_num,
    by norm_num [tenth]⟩

end Pyhipp.FloatGrid
