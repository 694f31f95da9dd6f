import Verif.Model.FloatProb
import Verif.Props.FloatUnits
/-
C52 in double precision: the samples that `ProbTransToNorm` accepts, and its table of probabilities.
-/
namespace Pyhipp.FloatProb
open Pyhipp Pyhipp.F64

/-- What is used of numpy's sort: the same numbers, none followed by a smaller one, NaN only before NaN. -/
def IsSort (sort : List Num → List Num) : Prop :=
  ∀ l, (sort l).Perm l ∧ (sort l).Pairwise (fun a b => Num.lt b a = false ∧ (a = .nan → b = .nan))

theorem lt_trans' {a b c : Num} (h : Num.lt a b = true) (h' : Num.lt b c = true) : Num.lt a c = true := by
  cases a with
  | nan => simp [Num.lt] at h
  | inf s => cases b with
    | nan => simp [Num.lt] at h
    | inf s' => cases c with
      | nan => simp [Num.lt] at h'
      | inf s'' => revert h h'; cases s <;> cases s' <;> cases s'' <;> simp [Num.lt]
      | fin z => revert h h'; cases s <;> cases s' <;> simp [Num.lt]
    | fin y => cases c with
      | nan => simp [Num.lt] at h'
      | inf s'' => revert h h'; cases s <;> cases s'' <;> simp [Num.lt]
      | fin z => revert h h'; cases s <;> simp [Num.lt]
  | fin x => cases b with
    | nan => simp [Num.lt] at h
    | inf s' => cases c with
      | nan => simp [Num.lt] at h'
      | inf s'' => revert h h'; cases s' <;> cases s'' <;> simp [Num.lt]
      | fin z => revert h h'; cases s' <;> simp [Num.lt]
    | fin y => cases c with
      | nan => simp [Num.lt] at h'
      | inf s'' => revert h h'; cases s'' <;> simp [Num.lt]
      | fin z => simp only [Num.lt, decide_eq_true_eq] at *; exact lt_trans h h'

instance : Trans (fun a b : Num => Num.lt a b = true) (fun a b : Num => Num.lt a b = true) (fun a b : Num => Num.lt a b = true) := ⟨lt_trans'⟩

theorem lt_irrefl' (a : Num) : Num.lt a a ≠ true := by
  cases a with
  | nan => simp [Num.lt]
  | inf s => cases s <;> simp [Num.lt]
  | fin x => simp [Num.lt]

theorem lt_of_not {a b : Num} (ha : a ≠ .nan) (hb : b ≠ .nan) (h : Num.lt b a = false) (hn : a ≠ b) : Num.lt a b = true := by
  cases a with
  | nan => exact absurd rfl ha
  | inf s => cases b with
    | nan => exact absurd rfl hb
    | inf s' => revert h hn; cases s <;> cases s' <;> simp [Num.lt]
    | fin y => revert h; cases s <;> simp [Num.lt]
  | fin x => cases b with
    | nan => exact absurd rfl hb
    | inf s' => revert h; cases s' <;> simp [Num.lt]
    | fin y =>
        simp only [Num.lt, decide_eq_true_eq, decide_eq_false_iff_not, not_lt] at *
        exact lt_of_le_of_ne h (fun e => hn (by rw [e]))

/-- A computed difference of doubles is positive exactly if the numbers are in order (gradual underflow; an overflow is +∞). -/
theorem sub_pos_iff {a b : Num} (ha : a.Ok) (hb : b.Ok) : Num.lt (.fin 0) (Num.sub b a) = true ↔ Num.lt a b = true := by
  cases a with
  | nan => cases b <;> simp [Num.lt, Num.sub, Num.neg, Num.add]
  | inf s => cases b with
    | nan => simp [Num.lt, Num.sub, Num.neg, Num.add]
    | inf s' => cases s <;> cases s' <;> simp [Num.lt, Num.sub, Num.neg, Num.add]
    | fin y => cases s <;> simp [Num.lt, Num.sub, Num.neg, Num.add]
  | fin x => cases b with
    | nan => simp [Num.lt, Num.sub, Num.neg, Num.add]
    | inf s' => cases s' <;> simp [Num.lt, Num.sub, Num.neg, Num.add]
    | fin y =>
        have e : Num.sub (.fin y) (.fin x) = ofQ (y - x) := by
          show ofQ (y + -x) = _
          rw [← sub_eq_add_neg]
        have r : Num.lt (.fin x) (.fin y) = decide (x < y) := rfl
        rw [e, r]
        simp only [decide_eq_true_eq]
        unfold ofQ
        constructor
        · intro h
          by_contra hc
          have hle : y - x ≤ 0 := by linarith
          have hr : rnd (y - x) ≤ 0 := rnd_le hle (by decide +kernel)
          split at h
          · rename_i hb
            have hne : y - x < 0 := by
              rcases eq_or_lt_of_le hle with h0 | h0
              · rw [h0] at hb
                have : rnd 0 = 0 := by decide +kernel
                rw [this, abs_zero] at hb
                exact absurd hb (not_le.mpr (pow_pos (by norm_num) _))
              · exact h0
            rw [decide_eq_true hne] at h
            simp [Num.lt] at h
          · simp only [Num.lt, decide_eq_true_eq] at h
            linarith
        · intro h
          have hr := rnd_sub_pos hb.1 ha.1 h
          split
          · rw [decide_eq_false (by linarith)]; rfl
          · simp only [Num.lt, decide_eq_true_eq]; exact hr

theorem diff_all (s : List Num) (hok : ∀ x ∈ s, x.Ok) :
    (diff s).all (fun d => Num.lt (.fin 0) d) = true ↔ s.Pairwise (fun a b => Num.lt a b = true) := by
  rw [← List.isChain_iff_pairwise]
  induction s with
  | nil => simp [diff]
  | cons a s ih =>
      cases s with
      | nil => simp [diff]
      | cons b s =>
          have h := ih (fun x hx => hok x (by simp [hx]))
          have e : diff (a :: b :: s) = Num.sub b a :: diff (b :: s) := rfl
          rw [e, List.all_cons, Bool.and_eq_true, h, List.isChain_cons_cons, sub_pos_iff (hok a (by simp)) (hok b (by simp))]

/-- C52: **with rounding and special values**, a sample of doubles passes the constructor's check if and only if it has at least two values, none is NaN and no two are equal (infinities
pass, one of each sign); one with fewer than two values is refused with ValueError, any other with AssertionError. -/
theorem C52_accept_double {sort : List Num → List Num} (hs : IsSort sort) (xs : List Num) (hok : ∀ x ∈ xs, x.Ok) :
    ((∃ t, probInit sort xs = .ok t) ↔ 2 ≤ xs.length ∧ Num.nan ∉ xs ∧ xs.Nodup) ∧
    (xs.length < 2 → probInit sort xs = .error .valueError) ∧
    (2 ≤ xs.length → (Num.nan ∈ xs ∨ ¬ xs.Nodup) → probInit sort xs = .error .assertionError) := by
  obtain ⟨hp, hw⟩ := hs xs
  have hl := hp.length_eq
  have hd : (diff (sort xs)).length = xs.length - 1 := by
    simp only [diff, List.length_zipWith, List.length_tail, hl]; omega
  have key : 2 ≤ xs.length → ((diff (sort xs)).all (fun d => Num.lt (.fin 0) d) = true ↔ Num.nan ∉ xs ∧ xs.Nodup) := by
    intro h2
    rw [diff_all _ (fun x hx => hok x (hp.mem_iff.mp hx))]
    constructor
    · intro h
      refine ⟨?_, hp.nodup_iff.mp (List.Pairwise.imp (fun {a b} (h : Num.lt a b = true) (e : a = b) => lt_irrefl' b (by rw [e] at h; exact h)) h : (sort xs).Pairwise (· ≠ ·))⟩
      intro hn
      have hn' := hp.mem_iff.mpr hn
      obtain ⟨i, hi, e⟩ := List.mem_iff_getElem.mp hn'
      rw [List.pairwise_iff_getElem] at h
      by_cases h0 : i = 0
      · have := h i (i + 1) hi (by omega) (by omega)
        rw [e] at this
        simp [Num.lt] at this
      · have := h 0 i (by omega) hi (by omega)
        rw [e] at this
        revert this
        cases (sort xs)[0]'(by omega) <;> simp [Num.lt]
    · rintro ⟨hn, hnd⟩
      have hnd' : (sort xs).Pairwise (· ≠ ·) := hp.nodup_iff.mpr hnd
      have nn : ∀ x ∈ sort xs, x ≠ .nan := fun x hx e => hn (e ▸ hp.mem_iff.mp hx)
      have := hw.and hnd'
      refine List.Pairwise.imp_of_mem ?_ this
      intro a b ha hb h
      exact lt_of_not (nn a ha) (nn b hb) h.1.1 h.2
  have big : ∀ b : Bool, 2 ≤ xs.length → (diff (sort xs)).all (fun d => Num.lt (.fin 0) d) = b →
      probInit sort xs = if b = true then .ok (sort xs, (List.range xs.length).map (fun i : Nat => Num.div (ofQ i) (Num.sub (ofQ xs.length) (.fin 1))))
        else .error .assertionError := by
    intro b h2 hb
    unfold probInit
    simp only [hd, hb]
    rw [if_neg (by omega)]
    cases b <;> simp [pyAssert, bind, Except.bind, pure, Except.pure]
  have small : xs.length < 2 → probInit sort xs = .error .valueError := by
    intro h
    unfold probInit
    simp only [hd]
    rw [if_pos (by omega)]
  refine ⟨⟨?_, ?_⟩, small, ?_⟩
  · rintro ⟨t, ht⟩
    have h2 : 2 ≤ xs.length := by
      by_contra hc
      rw [small (by omega)] at ht
      cases ht
    refine ⟨h2, (key h2).mp ?_⟩
    by_contra hc
    have := big false h2 (by simpa using hc)
    rw [ht] at this
    cases this
  · rintro ⟨h2, h⟩
    exact ⟨_, by rw [big true h2 ((key h2).mpr h)]; rfl⟩
  · intro h2 h
    have : (diff (sort xs)).all (fun d => Num.lt (.fin 0) d) = false := by
      rw [Bool.eq_false_iff]
      intro hc
      obtain ⟨a, b⟩ := (key h2).mp hc
      rcases h with h | h
      · exact a h
      · exact h b
    rw [big false h2 this]
    rfl

/-- C52: **the table** of an accepted sample of n < 2^52 values: the values in order against n strictly increasing probabilities from exactly 0 to exactly 1, the i-th
within half a unit of rounding of i / (n - 1). -/
theorem C52_table_double {sort : List Num → List Num} (hs : IsSort sort) (xs : List Num) (hn : xs.length < 2 ^ 52) (t : List Num × List Num)
    (ht : probInit sort xs = .ok t) :
    t.1 = sort xs ∧ ∃ f : Nat → ℚ, t.2 = (List.range xs.length).map (fun i : Nat => Num.fin (f i)) ∧ f 0 = 0 ∧ f (xs.length - 1) = 1 ∧
      (∀ i j : Nat, i < j → j < xs.length → f i < f j) ∧
      ∀ i : Nat, i < xs.length → |f i - (i : ℚ) / ((xs.length : ℚ) - 1)| ≤ 2 ^ (-53 : ℤ) * ((i : ℚ) / ((xs.length : ℚ) - 1)) := by
  obtain ⟨hp, -⟩ := hs xs
  have hl := hp.length_eq
  have hd : (diff (sort xs)).length = xs.length - 1 := by
    simp only [diff, List.length_zipWith, List.length_tail, hl]; omega
  obtain ⟨n, hne⟩ : ∃ n, n = xs.length := ⟨_, rfl⟩
  have h2 : 2 ≤ n := by
    by_contra hc
    unfold probInit at ht
    simp only [hd] at ht
    rw [if_pos (by omega)] at ht
    cases ht
  have ht' : t = (sort xs, (List.range n).map (fun i : Nat => Num.div (ofQ i) (Num.sub (ofQ n) (.fin 1)))) := by
    unfold probInit at ht
    simp only [hd] at ht
    rw [if_neg (by omega)] at ht
    unfold pyAssert at ht
    split at ht
    · simp only [bind, Except.bind, pure, Except.pure, Except.ok.injEq] at ht
      rw [← ht, hne]
    · simp only [bind, Except.bind] at ht
      cases ht
  rw [← hne] at hn ⊢
  have hn : n < 4503599627370496 := lt_of_lt_of_eq hn (by norm_num)
  subst ht'
  have big : (4503599627370496 : ℚ) < 2 ^ 1024 := lt_of_le_of_lt (by norm_num : (4503599627370496 : ℚ) ≤ 2 ^ 52) (pow_lt_pow_right₀ (by norm_num) (by norm_num))
  have p52 : IsF (4503599627370496 : ℚ) := by decide +kernel
  have int : ∀ m : Nat, m ≤ n → ofQ (m : ℚ) = .fin m := by
    intro m hm
    have hb : (m : ℚ) ≤ 4503599627370496 := by
      have : ((m : Nat) : ℚ) ≤ ((4503599627370496 : Nat) : ℚ) := Nat.cast_le.mpr (by omega)
      simpa using this
    have hF : IsF (m : ℚ) := by
      have := isF_int (m := (m : ℤ)) (by
        rw [abs_of_nonneg (Int.natCast_nonneg m)]
        have h9 : (4503599627370496 : ℤ) ≤ 2 ^ 53 := by norm_num
        have h8 : ((m : Nat) : ℤ) ≤ 4503599627370496 := by omega
        exact le_trans h8 h9)
      simpa using this
    rw [ofQ_fin_le (y := 4503599627370496) (by rw [abs_of_nonneg (Nat.cast_nonneg m)]; exact hb) p52 big, hF]
  have m0 : (0 : ℚ) < (n : ℚ) - 1 := by
    have : (2 : ℚ) ≤ n := by exact_mod_cast h2
    linarith
  have hsub : Num.sub (ofQ (n : ℚ)) (.fin 1) = .fin ((n : ℚ) - 1) := by
    rw [int n le_rfl]
    show ofQ ((n : ℚ) + -1) = _
    have := int (n - 1) (by omega)
    rw [Nat.cast_sub (by omega), Nat.cast_one] at this
    rw [← sub_eq_add_neg, this]
  have q01 : ∀ i : Nat, i < n → 0 ≤ (i : ℚ) / ((n : ℚ) - 1) ∧ (i : ℚ) / ((n : ℚ) - 1) ≤ 1 := by
    intro i hi
    refine ⟨div_nonneg (Nat.cast_nonneg i) m0.le, ?_⟩
    rw [div_le_one m0]
    have : ((i + 1 : Nat) : ℚ) ≤ n := by exact_mod_cast hi
    push_cast at this
    linarith
  have err : ∀ i : Nat, i < n → |rnd ((i : ℚ) / ((n : ℚ) - 1)) - (i : ℚ) / ((n : ℚ) - 1)| ≤ 2 ^ (-53 : ℤ) * ((i : ℚ) / ((n : ℚ) - 1)) := by
    intro i hi
    obtain ⟨a, b⟩ := q01 i hi
    by_cases h0 : i = 0
    · subst h0
      have : rnd 0 = 0 := by decide +kernel
      simp [this]
    · have hi1 : (1 : ℚ) ≤ i := by exact_mod_cast Nat.one_le_iff_ne_zero.mpr h0
      have hnb : (n : ℚ) ≤ 4503599627370496 := by
        have : ((n : Nat) : ℚ) ≤ ((4503599627370496 : Nat) : ℚ) := Nat.cast_le.mpr (by omega)
        simpa using this
      have lo : (2 : ℚ) ^ (-52 : ℤ) ≤ (i : ℚ) / ((n : ℚ) - 1) := by
        rw [le_div_iff₀ m0]
        have e : (2 : ℚ) ^ (-52 : ℤ) * 4503599627370496 = 1 := by norm_num
        have : (2 : ℚ) ^ (-52 : ℤ) * ((n : ℚ) - 1) ≤ 2 ^ (-52 : ℤ) * 4503599627370496 := mul_le_mul_of_nonneg_left (by linarith) (pow_pos' _).le
        linarith
      have := rnd_err (x := (i : ℚ) / ((n : ℚ) - 1)) (by
        rw [abs_of_nonneg a]
        exact le_trans (zpow_le_zpow_right₀ (by norm_num) (by norm_num)) lo)
      rwa [abs_of_nonneg a] at this
  refine ⟨rfl, fun i => rnd ((i : ℚ) / ((n : ℚ) - 1)), ?_, ?_, ?_, ?_, err⟩
  · apply List.map_congr_left
    intro i hi
    have hi' : i < n := List.mem_range.mp hi
    rw [hsub, int i hi'.le]
    show (if (n : ℚ) - 1 = 0 then _ else ofQ ((i : ℚ) / ((n : ℚ) - 1))) = _
    rw [if_neg m0.ne']
    obtain ⟨a, b⟩ := q01 i hi'
    exact ofQ_fin_le (y := 4503599627370496) (by rw [abs_of_nonneg a]; exact le_trans b (by norm_num)) p52 big
  · have : rnd 0 = 0 := by decide +kernel
    simp [this]
  · have h1 : rnd 1 = 1 := by decide +kernel
    show rnd (((n - 1 : Nat) : ℚ) / ((n : ℚ) - 1)) = 1
    rw [Nat.cast_sub (by omega), Nat.cast_one, div_self m0.ne', h1]
  · intro i j hij hj
    obtain ⟨a, b⟩ := q01 i (by omega)
    obtain ⟨c, d⟩ := q01 j hj
    have e1 := err i (by omega)
    have e2 := err j hj
    have gap : (i : ℚ) / ((n : ℚ) - 1) + 1 / ((n : ℚ) - 1) ≤ (j : ℚ) / ((n : ℚ) - 1) := by
      rw [← add_div]
      refine div_le_div_of_nonneg_right ?_ m0.le
      exact_mod_cast hij
    have step : (2 : ℚ) ^ (-52 : ℤ) < 1 / ((n : ℚ) - 1) := by
      rw [lt_div_iff₀ m0]
      have hnb : (n : ℚ) ≤ 4503599627370496 := by
        have : ((n : Nat) : ℚ) ≤ ((4503599627370496 : Nat) : ℚ) := Nat.cast_le.mpr (by omega)
        simpa using this
      have e : (2 : ℚ) ^ (-52 : ℤ) * 4503599627370496 = 1 := by norm_num
      have : (2 : ℚ) ^ (-52 : ℤ) * ((n : ℚ) - 1) < 2 ^ (-52 : ℤ) * 4503599627370496 := mul_lt_mul_of_pos_left (by linarith) (pow_pos' _)
      linarith
    have e52 : (2 : ℚ) ^ (-52 : ℤ) = 2 * 2 ^ (-53 : ℤ) := by norm_num
    have u0 : (0 : ℚ) < 2 ^ (-53 : ℤ) := pow_pos' _
    rw [e52] at step
    generalize (2 : ℚ) ^ (-53 : ℤ) = u at *
    have f1 : u * ((i : ℚ) / ((n : ℚ) - 1)) ≤ u := mul_le_of_le_one_right u0.le b
    have f2 : u * ((j : ℚ) / ((n : ℚ) - 1)) ≤ u := mul_le_of_le_one_right u0.le d
    rw [abs_le] at e1 e2
    show rnd _ < rnd _
    linarith [e1.2, e2.1]

/-- A sort that is one: insertion, in the order of numpy (NaN last). -/
def isort : List Num → List Num := List.insertionSort (fun a b => Num.lt b a = false ∧ (a = .nan → b = .nan))

/-- A sample of three accepted, with its table; one with a repeated value and one with a NaN refused; one with a single value refused otherwise. -/
example : probInit isort [.fin 3, .inf true, .fin (1 / 2)] = .ok ([.inf true, .fin (1 / 2), .fin 3], [.fin 0, .fin (1 / 2), .fin 1]) ∧
    probInit isort [.fin 3, .fin 2, .fin 3] = .error .assertionError ∧ probInit isort [.fin 3, .nan, .fin 1] = .error .assertionError ∧
    probInit isort [.fin 3] = .error .valueError := by
  decide +kernel

/-- That sort meets the hypothesis of the theorems. -/
example : IsSort isort := by
  haveI : Std.Total (fun a b : Num => Num.lt b a = false ∧ (a = .nan → b = .nan)) := ⟨fun a b => by
    cases a <;> cases b <;> simp [Num.lt] <;> (try (rename_i s t; cases s <;> cases t <;> simp)) <;> (try (rename_i s t; cases s <;> simp)) <;>
      (try exact le_total _ _)⟩
  haveI : IsTrans Num (fun a b : Num => Num.lt b a = false ∧ (a = .nan → b = .nan)) := ⟨fun a b c h h' => by
    refine ⟨?_, fun e => h'.2 (h.2 e)⟩
    by_contra hc
    have hc' : Num.lt c a = true := by simpa using hc
    by_cases hb : b = .nan
    · rw [h'.2 hb] at hc'
      cases a <;> simp [Num.lt] at hc'
    · by_cases e : b = c
      · rw [e] at h; exact absurd hc' (by rw [h.1]; simp)
      · by_cases hcn : c = .nan
        · rw [hcn] at hc'; cases a <;> simp [Num.lt] at hc'
        · have := lt_trans' (lt_of_not hb hcn h'.1 e) hc'
          rw [h.1] at this; cases this⟩
  intro l
  exact ⟨List.perm_insertionSort _ l, List.pairwise_insertionSort _ l⟩

end Pyhipp.FloatProb
