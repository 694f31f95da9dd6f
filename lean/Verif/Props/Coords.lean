import Verif.Model.Coords
import Mathlib.Tactic.Linarith
import Mathlib.Tactic.Ring
import Mathlib.Tactic.FieldSimp
import Mathlib.Tactic.NormNum
import Mathlib.Data.Nat.Digits.Defs
import Mathlib.Tactic.IntervalCases
/-
C82: sexagesimal conversion.
-/
namespace Pyhipp.Coords
open Pyhipp

/-- C82: three numbers are degrees, minutes (1/60) and seconds (1/3600); hours are 15 degrees. -/
theorem C82_tuple (d m s : ℚ) :
    dms_to_deg (.tuple [d, m, s]) = .ok (d + m / 60 + s / 3600) ∧
    hms_to_deg (.tuple [d, m, s]) = .ok (15 * d + m / 4 + s / 240) := by
  constructor
  · simp [dms_to_deg, fields, unpack3, bind, Except.bind, pure, Except.pure]
  · simp only [hms_to_deg, fields, unpack3, bind, Except.bind, pure, Except.pure]
    congr 1; ring

/-- C82: for both converters and any argument, hours are worth 15 times degrees, and they fail on the same arguments. -/
theorem C82_hms (a : Arg) : hms_to_deg a = (dms_to_deg a).map (fun x => 15 * x) := by
  unfold hms_to_deg dms_to_deg
  cases h : fields a with
  | error e => rfl
  | ok t => obtain ⟨d, m, s⟩ := t; simp only [bind, Except.bind, pure, Except.pure, Except.map]; congr 1; ring

/-- C82: any other number of fields, in a tuple or a text, raises ValueError. -/
theorem C82_fields (vs : List ℚ) (h : vs.length ≠ 3) : dms_to_deg (.tuple vs) = .error .valueError ∧ hms_to_deg (.tuple vs) = .error .valueError := by
  have : unpack3 vs = .error .valueError := by
    match vs, h with
    | [], _ | [_], _ | [_, _], _ | _ :: _ :: _ :: _ :: _, _ => rw [unpack3]; simp
    | [_, _, _], h => simp at h
  simp [dms_to_deg, hms_to_deg, fields, this, bind, Except.bind]

theorem mapM_error_valueError {β : Type} (f : β → PyM ℚ) (hf : ∀ b e, f b = .error e → e = .valueError) :
    ∀ (l : List β) e, l.mapM f = .error e → e = .valueError := by
  intro l
  induction l with
  | nil => intro e h; simp [pure, Except.pure] at h
  | cons a t ih =>
      intro e h
      rw [List.mapM_cons] at h
      cases ha : f a with
      | error e' => rw [ha] at h; simp [bind, Except.bind] at h; subst h; exact hf a e' ha
      | ok v =>
          rw [ha] at h
          cases ht : t.mapM f with
          | error e' => rw [ht] at h; simp [bind, Except.bind] at h; subst h; exact ih e' ht
          | ok vs => rw [ht] at h; simp [bind, Except.bind, pure, Except.pure] at h

theorem pyFloat_error (s : Str) (e : PyErr) (h : pyFloat s = .error e) : e = .valueError := by
  unfold pyFloat at h; split at h <;> simp_all

/-- C82: whatever the argument, the converters either succeed or raise ValueError. -/
theorem C82_only_valueError (a : Arg) (e : PyErr) (h : dms_to_deg a = .error e) : e = .valueError := by
  have ht : ∀ vs e, unpack3 vs = .error e → e = .valueError := by
    intro vs e h
    match vs, h with
    | [], h | [_], h | [_, _], h | _ :: _ :: _ :: _ :: _, h => rw [unpack3] at h <;> simp_all
    | [_, _, _], h => simp [unpack3] at h
  have hf : fields a = .error e := by
    unfold dms_to_deg at h
    cases hf : fields a with
    | error e' => rw [hf] at h; simpa [bind, Except.bind] using h
    | ok t => rw [hf] at h; simp [bind, Except.bind, pure, Except.pure] at h
  cases a with
  | tuple vs => exact ht vs e hf
  | text s =>
      rw [fields] at hf
      cases hm : (Str.split ':' s).mapM pyFloat with
      | error e' =>
          rw [hm] at hf; simp [bind, Except.bind] at hf; subst hf
          exact mapM_error_valueError pyFloat pyFloat_error _ _ hm
      | ok vs => rw [hm] at hf; exact ht vs e (by simpa [bind, Except.bind] using hf)

/-- C82: text is its three fields, separated by colons, converted one by one. -/
theorem C82_text (a b c : Str) (x y z : ℚ) (ha : ':' ∉ a) (hb : ':' ∉ b) (hc : ':' ∉ c)
    (h1 : pyFloat a = .ok x) (h2 : pyFloat b = .ok y) (h3 : pyFloat c = .ok z) :
    dms_to_deg (.text (a ++ ':' :: b ++ ':' :: c)) = .ok (x + y / 60 + z / 3600) := by
  have : Str.split ':' (a ++ ':' :: b ++ ':' :: c) = [a, b, c] := by
    rw [List.append_assoc, List.cons_append, Str.split_append_sep, Str.split_append_sep, Str.split_nosep _ _ ha, Str.split_nosep _ _ hb, Str.split_nosep _ _ hc]
    rfl
  rw [dms_to_deg, fields, this]
  simp [unpack3, h1, h2, h3, bind, Except.bind, pure, Except.pure]

/-- C82: a text with fewer or more than two colons is rejected. -/
theorem C82_text_fields (s : Str) (h : s.count ':' ≠ 2) : dms_to_deg (.text s) = .error .valueError := by
  have hlen : ∀ s : Str, (Str.split ':' s).length = s.count ':' + 1 := by
    intro s
    induction s with
    | nil => rfl
    | cons c t ih =>
        unfold Str.split
        by_cases hc : c = ':'
        · rw [if_pos hc]; subst hc; simp [ih]
        · rw [if_neg hc]
          cases hs : Str.split ':' t with
          | nil => exact absurd hs (Str.split_ne_nil ':' t)
          | cons x r => rw [hs] at ih; simp at ih ⊢; rw [List.count_cons_of_ne hc]; omega
  have : ∃ e, dms_to_deg (.text s) = .error e := by
    unfold dms_to_deg
    rw [fields]
    cases hm : (Str.split ':' s).mapM pyFloat with
    | error e' => exact ⟨e', by simp [bind, Except.bind]⟩
    | ok vs =>
        have hl : vs.length = (Str.split ':' s).length := by
          clear h hlen
          generalize Str.split ':' s = l at hm ⊢
          induction l generalizing vs with
          | nil => simp [pure, Except.pure] at hm; subst hm; rfl
          | cons a t ih =>
              rw [List.mapM_cons] at hm
              cases ha : pyFloat a with
              | error e' => rw [ha] at hm; simp [bind, Except.bind] at hm
              | ok v =>
                  cases ht : t.mapM pyFloat with
                  | error e' => rw [ha, ht] at hm; simp [bind, Except.bind] at hm
                  | ok ws =>
                      rw [ha, ht] at hm; simp [bind, Except.bind, pure, Except.pure] at hm
                      subst hm; simp [ih _ ht]
        have := (C82_fields vs (by rw [hl, hlen]; omega)).1
        refine ⟨.valueError, ?_⟩
        unfold dms_to_deg fields at this
        simpa [bind, Except.bind] using this
  obtain ⟨e, he⟩ := this
  rw [he, C82_only_valueError _ _ he]

theorem digit?_ofDigit (d : Nat) (h : d < 10) : digit? (Nat.digitChar d) = some d := by
  interval_cases d <;> decide

theorem digitsFrom_digits (ds : List Nat) (h : ∀ d ∈ ds, d < 10) (acc : Nat) :
    digitsFrom acc (ds.map Nat.digitChar) = some (ds.foldl (fun a d => 10 * a + d) acc) := by
  induction ds generalizing acc with
  | nil => rfl
  | cons d t ih =>
      rw [List.map_cons, digitsFrom, digit?_ofDigit d (h d (by simp))]
      exact ih (fun x hx => h x (by simp [hx])) _

/-- The digits of a number, most significant first, as text. -/
def showNat (n : Nat) : Str := if n = 0 then ['0'] else (Nat.digits 10 n).reverse.map Nat.digitChar

theorem foldl_digits (n : Nat) : (Nat.digits 10 n).reverse.foldl (fun a d => 10 * a + d) 0 = n := by
  rw [List.foldl_reverse]
  have : ∀ l : List Nat, l.foldr (fun d a => 10 * a + d) 0 = Nat.ofDigits 10 l := by
    intro l
    induction l with
    | nil => rfl
    | cons d t ih => rw [List.foldr_cons, ih, Nat.ofDigits_cons]; omega
  rw [this, Nat.ofDigits_digits]

theorem digitChar_ne (d : Nat) (h : d < 10) : Nat.digitChar d ≠ '.' ∧ Nat.digitChar d ≠ ' ' ∧ Nat.digitChar d ≠ '-' ∧ Nat.digitChar d ≠ '+' ∧ Nat.digitChar d ≠ ':' := by
  interval_cases d <;> decide

theorem showNat_chars (n : Nat) : showNat n ≠ [] ∧ ∀ c ∈ showNat n, c ≠ '.' ∧ c ≠ ' ' ∧ c ≠ '-' ∧ c ≠ '+' ∧ c ≠ ':' := by
  unfold showNat
  split
  · simp
  · rename_i h
    refine ⟨by simp [Nat.digits_ne_nil_iff_ne_zero.mpr h], ?_⟩
    intro c hc
    simp only [List.mem_map, List.mem_reverse] at hc
    obtain ⟨d, hd, rfl⟩ := hc
    exact digitChar_ne d (Nat.digits_lt_base (by norm_num) hd)

theorem digitsFrom_showNat (n : Nat) : digitsFrom 0 (showNat n) = some n := by
  unfold showNat
  split
  · rename_i h; subst h; rfl
  · rw [digitsFrom_digits _ (by intro d hd; exact Nat.digits_lt_base (by norm_num) (List.mem_reverse.mp hd)), foldl_digits]

theorem strip_noblank (s : Str) (h : ∀ c ∈ s, c ≠ ' ') : strip s = s := by
  have : ∀ l : Str, (∀ c ∈ l, c ≠ ' ') → l.dropWhile (· = ' ') = l := by
    intro l hl
    cases l with
    | nil => rfl
    | cons c t => rw [List.dropWhile_cons_of_neg]; simpa using hl c (by simp)
  unfold strip
  rw [this s h, this s.reverse (by intro c hc; exact h c (List.mem_reverse.mp hc)), List.reverse_reverse]

theorem signed_plain (s : Str) (h : ∀ c ∈ s, c ≠ '-' ∧ c ≠ '+') : signed s = unsigned s := by
  cases s with
  | nil => rfl
  | cons c t =>
      have := h c (by simp)
      unfold signed
      split
      · rename_i heq; exact absurd (List.cons.inj heq).1 this.1
      · rename_i heq; exact absurd (List.cons.inj heq).1 this.2
      · rfl

theorem pyFloat_showNat (n : Nat) : pyFloat (showNat n) = .ok (n : ℚ) := by
  obtain ⟨hne, hc⟩ := showNat_chars n
  unfold pyFloat
  rw [strip_noblank _ (fun c h => (hc c h).2.1), signed_plain _ (fun c h => ⟨(hc c h).2.2.1, (hc c h).2.2.2.1⟩)]
  have hd : '.' ∉ showNat n := fun h => (hc _ h).1 rfl
  simp [unsigned, Str.split_nosep _ _ hd, hne, digitsFrom_showNat]

theorem pyFloat_neg_showNat (n : Nat) : pyFloat ('-' :: showNat n) = .ok (-(n : ℚ)) := by
  obtain ⟨hne, hc⟩ := showNat_chars n
  unfold pyFloat
  rw [strip_noblank _ (by intro c h; rcases List.mem_cons.mp h with rfl | h; decide; exact (hc c h).2.1)]
  have hd : '.' ∉ showNat n := fun h => (hc _ h).1 rfl
  simp [signed, unsigned, Str.split_nosep _ _ hd, hne, digitsFrom_showNat]

/-- C82: "D:M:S" written with whole numbers, whatever their number of digits, is the angle it writes. -/
theorem C82_whole (d m s : Nat) :
    dms_to_deg (.text (showNat d ++ ':' :: showNat m ++ ':' :: showNat s)) = .ok ((d : ℚ) + (m : ℚ) / 60 + (s : ℚ) / 3600) :=
  C82_text _ _ _ _ _ _ (fun h => ((showNat_chars d).2 _ h).2.2.2.2 rfl) (fun h => ((showNat_chars m).2 _ h).2.2.2.2 rfl)
    (fun h => ((showNat_chars s).2 _ h).2.2.2.2 rfl) (pyFloat_showNat d) (pyFloat_showNat m) (pyFloat_showNat s)

/-- Example: "12:30:36" is 12.51 degrees and "12:30:36" hours 187.65 degrees. -/
example : dms_to_deg (.text "12:30:36".toList) = .ok (1251 / 100) ∧ hms_to_deg (.text " 12 :30:36.0".toList) = .ok (3753 / 20) := by decide +kernel

/-- C82: with minutes and seconds below 60 the conversion respects the order of the fields (degrees, then minutes, then seconds),
so it never confuses two different angles. -/
theorem C82_order (d d' m m' : Nat) (s s' : ℚ) (hm : m < 60) (hs : 0 ≤ s ∧ s < 60) (hs' : 0 ≤ s' ∧ s' < 60)
    (h : d < d' ∨ d = d' ∧ (m < m' ∨ m = m' ∧ s < s')) (x y : ℚ)
    (hx : dms_to_deg (.tuple [d, m, s]) = .ok x) (hy : dms_to_deg (.tuple [d', m', s']) = .ok y) : x < y := by
  rw [(C82_tuple _ _ _).1] at hx hy
  injection hx with hx; injection hy with hy
  have hm1 : (m : ℚ) + 1 ≤ 60 := by exact_mod_cast hm
  have hm0 : (0 : ℚ) ≤ m' := Nat.cast_nonneg m'
  obtain ⟨s0, s1⟩ := hs; obtain ⟨t0, t1⟩ := hs'
  rw [← hx, ← hy]
  rcases h with h | ⟨rfl, h | ⟨rfl, h⟩⟩
  · have : (d : ℚ) + 1 ≤ d' := by exact_mod_cast h
    linarith
  · have : (m : ℚ) + 1 ≤ m' := by exact_mod_cast h
    linarith
  · linarith

example : (0 : ℚ) ≤ 1 ∧ (1 : ℚ) < 60 ∧ (3 : Nat) < 4 := by norm_num

/-- C82: hours below 24 give angles in [0, 360). -/
theorem C82_circle (h m : Nat) (s : ℚ) (hh : h < 24) (hm : m < 60) (hs : 0 ≤ s ∧ s < 60) (x : ℚ)
    (hx : hms_to_deg (.tuple [(h : ℚ), (m : ℚ), s]) = .ok x) : 0 ≤ x ∧ x < 360 := by
  rw [(C82_tuple _ _ _).2] at hx
  injection hx with hx
  have h1 : (h : ℚ) + 1 ≤ 24 := by exact_mod_cast hh
  have m1 : (m : ℚ) + 1 ≤ 60 := by exact_mod_cast hm
  have h0 : (0 : ℚ) ≤ h := Nat.cast_nonneg h
  have m0 : (0 : ℚ) ≤ m := Nat.cast_nonneg m
  obtain ⟨s0, s1⟩ := hs
  constructor <;> linarith

example : ∃ x, hms_to_deg (.tuple [((23 : Nat) : ℚ), ((59 : Nat) : ℚ), 59]) = .ok x := ⟨_, (C82_tuple _ _ _).2⟩

/-- C82 (defect): a negative angle "-D:M:S" is not minus the angle "D:M:S" whenever M or S is not zero: the sign only applies
to the degrees; for D = 0 it is lost. -/
theorem C82_sign_defect (d m s : Nat) (h : 0 < m ∨ 0 < s) (x y : ℚ)
    (hx : dms_to_deg (.text ('-' :: showNat d ++ ':' :: showNat m ++ ':' :: showNat s)) = .ok x)
    (hy : dms_to_deg (.text (showNat d ++ ':' :: showNat m ++ ':' :: showNat s)) = .ok y) :
    x = y - 2 * (d : ℚ) ∧ x ≠ -y ∧ (d = 0 → x = y) := by
  rw [C82_whole] at hy
  rw [C82_text _ _ _ (-(d : ℚ)) m s
    (by intro hc; rcases List.mem_cons.mp hc with h | h; exact absurd h (by decide); exact ((showNat_chars d).2 _ h).2.2.2.2 rfl)
    (fun h => ((showNat_chars m).2 _ h).2.2.2.2 rfl) (fun h => ((showNat_chars s).2 _ h).2.2.2.2 rfl)
    (pyFloat_neg_showNat d) (pyFloat_showNat m) (pyFloat_showNat s)] at hx
  injection hx with hx; injection hy with hy
  have m0 : (0 : ℚ) ≤ m := Nat.cast_nonneg m
  have s0 : (0 : ℚ) ≤ s := Nat.cast_nonneg s
  have pos : (0 : ℚ) < m / 60 + s / 3600 := by
    rcases h with h | h
    · have : (0 : ℚ) < m := by exact_mod_cast h
      linarith
    · have : (0 : ℚ) < s := by exact_mod_cast h
      linarith
  refine ⟨by rw [← hx, ← hy]; ring, ?_, ?_⟩
  · intro e
    rw [← hx, ← hy] at e
    linarith
  · intro e; subst e; rw [← hx, ← hy]; simp

example : dms_to_deg (.text "-10:30:0".toList) = .ok (-19 / 2) ∧ dms_to_deg (.text "-0:30:0".toList) = .ok (1 / 2) := by decide +kernel


/-- The value of digits after the decimal point. -/
def fracValue : List Nat → ℚ
  | [] => 0
  | d :: t => ((d : ℚ) + fracValue t) / 10

theorem foldl_frac (ds : List Nat) (a : Nat) :
    ((ds.foldl (fun a d => 10 * a + d) a : Nat) : ℚ) / 10 ^ ds.length = (a : ℚ) + fracValue ds := by
  induction ds generalizing a with
  | nil => simp [fracValue]
  | cons d t ih =>
      have h := ih (10 * a + d)
      rw [List.foldl_cons, List.length_cons, pow_succ, ← div_div, h, fracValue]
      push_cast; ring

/-- C82: decimal fields: the digits after the point have the values 1/10, 1/100, ... -/
theorem C82_decimal (n : Nat) (ds : List Nat) (hds : ∀ d ∈ ds, d < 10) :
    pyFloat (showNat n ++ '.' :: ds.map Nat.digitChar) = .ok ((n : ℚ) + fracValue ds) ∧
    pyFloat ('-' :: (showNat n ++ '.' :: ds.map Nat.digitChar)) = .ok (-((n : ℚ) + fracValue ds)) := by
  obtain ⟨hne, hc⟩ := showNat_chars n
  have hd : '.' ∉ showNat n := fun h => (hc _ h).1 rfl
  have hfc : ∀ c ∈ ds.map Nat.digitChar, c ≠ '.' ∧ c ≠ ' ' ∧ c ≠ '-' ∧ c ≠ '+' ∧ c ≠ ':' := by
    intro c h
    obtain ⟨d, hd, rfl⟩ := List.mem_map.mp h
    exact digitChar_ne d (hds d hd)
  have hd' : '.' ∉ ds.map Nat.digitChar := fun h => (hfc _ h).1 rfl
  have hall : ∀ c ∈ showNat n ++ '.' :: ds.map Nat.digitChar, c ≠ ' ' ∧ c ≠ '-' ∧ c ≠ '+' := by
    intro c h
    rcases List.mem_append.mp h with h | h
    · exact ⟨(hc c h).2.1, (hc c h).2.2.1, (hc c h).2.2.2.1⟩
    · rcases List.mem_cons.mp h with rfl | h
      · decide
      · exact ⟨(hfc c h).2.1, (hfc c h).2.2.1, (hfc c h).2.2.2.1⟩
  have hu : unsigned (showNat n ++ '.' :: ds.map Nat.digitChar) = some ((n : ℚ) + fracValue ds) := by
    unfold unsigned
    rw [Str.split_append_sep, Str.split_nosep _ _ hd, Str.split_nosep _ _ hd']
    have hf := foldl_frac ds 0
    simp only [List.singleton_append, hne, false_and, if_false, digitsFrom_showNat, digitsFrom_digits ds hds, List.length_map]
    simp only [Nat.cast_zero, zero_add] at hf
    rw [hf]
  constructor
  · unfold pyFloat
    rw [strip_noblank _ (fun c h => (hall c h).1), signed_plain _ (fun c h => (hall c h).2), hu]
  · unfold pyFloat
    rw [strip_noblank _ (by intro c h; rcases List.mem_cons.mp h with rfl | h; decide; exact (hall c h).1)]
    simp only [signed, hu, Option.map]

/-- C82: "D:M:S.f" with a fraction of a second. -/
theorem C82_fraction (d m s : Nat) (ds : List Nat) (hds : ∀ x ∈ ds, x < 10) :
    dms_to_deg (.text (showNat d ++ ':' :: showNat m ++ ':' :: (showNat s ++ '.' :: ds.map Nat.digitChar))) =
      .ok ((d : ℚ) + (m : ℚ) / 60 + ((s : ℚ) + fracValue ds) / 3600) := by
  refine C82_text _ _ _ _ _ _ (fun h => ((showNat_chars d).2 _ h).2.2.2.2 rfl) (fun h => ((showNat_chars m).2 _ h).2.2.2.2 rfl)
    (fun h => ?_) (pyFloat_showNat d) (pyFloat_showNat m) (C82_decimal s ds hds).1
  rcases List.mem_append.mp h with h | h
  · exact ((showNat_chars s).2 _ h).2.2.2.2 rfl
  · rcases List.mem_cons.mp h with h | h
    · exact absurd h (by decide)
    · obtain ⟨x, hx, he⟩ := List.mem_map.mp h
      exact (digitChar_ne x (hds x hx)).2.2.2.2 he

/-- Example: 36.25 seconds. -/
example : dms_to_deg (.text "12:30:36.25".toList) = .ok (12 + 30 / 60 + (36 + fracValue [2, 5]) / 3600) := by decide +kernel

end Pyhipp.Coords
