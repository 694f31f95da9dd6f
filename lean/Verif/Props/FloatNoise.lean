import Verif.Model.FloatNoise
import Verif.Props.FloatKernel
import Verif.Props.FloatMesh
/-
C95 in double precision: what `RandomNoise.add_to` does to the values.
-/
namespace Pyhipp.FloatNoise
open Pyhipp Pyhipp.F64

/-- C95: **with rounding and special values**, without noise (sigma = 0) every value comes back exactly, infinities and NaN included, additive or logarithmic. -/
theorem C95_zero_double {pow10 : Num → Num} (h1 : pow10 (.fin 0) = .fin 1) (inLg : Bool) (x : Num) (hx : x.Ok) (z : ℚ) :
    noisy pow10 (.fin 0) inLg x (.fin z) = x := by
  have r0 : ofQ 0 = .fin 0 := by decide +kernel
  have e : Num.mul (.fin z) (.fin 0) = .fin 0 := by
    show ofQ (z * 0) = _
    rw [mul_zero, r0]
  have self : ∀ q : ℚ, (Num.fin q).Ok → ofQ q = .fin q := by
    intro q h
    rw [ofQ_fin (by rw [show rnd q = q from h.1]; exact h.2), show rnd q = q from h.1]
  unfold noisy
  simp only [e, h1]
  cases inLg with
  | true =>
      cases x with
      | nan => rfl
      | inf s => cases s <;> decide +kernel
      | fin q => show ofQ (q * 1) = _; rw [mul_one]; exact self q hx
  | false =>
      cases x with
      | nan => rfl
      | inf s => rfl
      | fin q => show ofQ (q + 0) = _; rw [add_zero]; exact self q hx

/-- C95: additive noise on finite values up to 2^1000 is x + sigma z to two roundings. -/
theorem C95_add_double (pow10 : Num → Num) {x s z : ℚ} (hx : |x| ≤ 2 ^ 1000) (hs : |z * s| ≤ 2 ^ 1000) :
    ∃ o : ℚ, noisy pow10 (.fin s) false (.fin x) (.fin z) = .fin o ∧
      |o - (x + s * z)| ≤ 2 ^ (-53 : ℤ) * |x| + 2 ^ (-51 : ℤ) * |s * z| + 2 ^ (-1073 : ℤ) := by
  have b : ((2 : ℚ) ^ 1000) < 2 ^ 1024 := pow_lt_pow_right₀ (by norm_num) (by norm_num)
  have p : IsF ((2 : ℚ) ^ 1000) := by
    have := isF_pow (e := 1000) (by norm_num)
    exact_mod_cast this
  have b' : ((2 : ℚ) ^ 1001) < 2 ^ 1024 := pow_lt_pow_right₀ (by norm_num) (by norm_num)
  have p' : IsF ((2 : ℚ) ^ 1001) := by
    have := isF_pow (e := 1001) (by norm_num)
    exact_mod_cast this
  have hd : |rnd (z * s)| ≤ 2 ^ 1000 := by rw [rnd_abs]; exact rnd_le hs p
  have e1 : Num.mul (.fin z) (.fin s) = .fin (rnd (z * s)) := ofQ_fin_le hs p b
  refine ⟨rnd (x + rnd (z * s)), ?_, ?_⟩
  · unfold noisy
    simp only [e1, Bool.false_eq_true, if_false]
    refine ofQ_fin_le (y := 2 ^ 1001) ?_ p' b'
    calc |x + rnd (z * s)| ≤ |x| + |rnd (z * s)| := abs_add_le _ _
      _ ≤ 2 ^ 1000 + 2 ^ 1000 := add_le_add hx hd
      _ = 2 ^ 1001 := by rw [← two_mul, ← pow_succ']
  · have a1 := FloatMesh.rnd_err_all (z * s)
    have a2 := FloatMesh.rnd_err_all (x + rnd (z * s))
    rw [mul_comm s z]
    generalize z * s = w at *
    have a3 : |x + rnd w| ≤ |x| + |rnd w| := abs_add_le _ _
    have a4 : |rnd w| ≤ |rnd w - w| + |w| := by
      have := abs_add_le (rnd w - w) w
      rwa [sub_add_cancel] at this
    have a5 : |rnd (x + rnd w) - (x + w)| ≤ |rnd (x + rnd w) - (x + rnd w)| + |rnd w - w| := by
      have := abs_add_le (rnd (x + rnd w) - (x + rnd w)) (rnd w - w)
      rwa [show rnd (x + rnd w) - (x + rnd w) + (rnd w - w) = rnd (x + rnd w) - (x + w) by ring] at this
    have c1 : (2 : ℚ) ^ (-51 : ℤ) = 4 * 2 ^ (-53 : ℤ) := by norm_num
    have c2 : (2 : ℚ) ^ (-1073 : ℤ) = 4 * 2 ^ (-1075 : ℤ) := by
      rw [show (-1073 : ℤ) = 2 + -1075 by norm_num, zpow_add₀ (by norm_num)]; norm_num
    have u0 : (0 : ℚ) < 2 ^ (-53 : ℤ) := pow_pos' _
    have u1 : (2 : ℚ) ^ (-53 : ℤ) ≤ 1 := by norm_num
    have t0 : (0 : ℚ) < 2 ^ (-1075 : ℤ) := pow_pos' _
    rw [c1, c2]
    generalize (2 : ℚ) ^ (-53 : ℤ) = u at *
    generalize (2 : ℚ) ^ (-1075 : ℤ) = t at *
    have w0 := abs_nonneg w
    have d1 : u * |rnd w| ≤ u * ((u * |w| + t) + |w|) := mul_le_mul_of_nonneg_left (by linarith) u0.le
    have d2 : u * (u * |w| + t) ≤ 1 * (u * |w| + t) := mul_le_mul_of_nonneg_right u1 (by positivity)
    have d3 : u * |x + rnd w| ≤ u * (|x| + |rnd w|) := mul_le_mul_of_nonneg_left a3 u0.le
    have d4 : 0 ≤ u * |w| := by positivity
    nlinarith

/-- C95: the same additive draw keeps the order of two values, whatever their sizes. -/
theorem C95_order_double (pow10 : Num → Num) {s z x y : ℚ} (h : x ≤ y) (hd : Num.mul (.fin z) (.fin s) ≠ .inf true ∧ Num.mul (.fin z) (.fin s) ≠ .inf false) :
    Num.le (noisy pow10 (.fin s) false (.fin x) (.fin z)) (noisy pow10 (.fin s) false (.fin y) (.fin z)) = true := by
  unfold noisy
  simp only [Bool.false_eq_true, if_false]
  have : Num.mul (.fin z) (.fin s) = ofQ (z * s) := rfl
  rw [this] at hd ⊢
  cases e : ofQ (z * s) with
  | nan => exact absurd e (FloatKernel.ofQ_ne_nan _)
  | inf b => cases b with
    | true => exact absurd e hd.1
    | false => exact absurd e hd.2
  | fin d => exact FloatKernel.ofQ_le (add_le_add_left h d)

/-- C95: logarithmic noise never changes the sign of a finite value: if the factor is finite and not negative, a nonnegative value stays so, a nonpositive one too,
zero stays zero, and no NaN comes up; a zero under an infinite factor becomes NaN. -/
theorem C95_sign_double {pow10 : Num → Num} (s z : Num) {x : ℚ} :
    (∀ f : ℚ, pow10 (Num.mul z s) = .fin f → 0 ≤ f → noisy pow10 s true (.fin x) z ≠ .nan ∧
      (0 ≤ x → Num.le (.fin 0) (noisy pow10 s true (.fin x) z) = true) ∧ (x ≤ 0 → Num.le (noisy pow10 s true (.fin x) z) (.fin 0) = true) ∧
      (x = 0 → noisy pow10 s true (.fin x) z = .fin 0)) ∧
    (pow10 (Num.mul z s) = .inf false → x = 0 → noisy pow10 s true (.fin x) z = .nan) := by
  have r0 : ofQ 0 = .fin 0 := by decide +kernel
  constructor
  · intro f hf f0
    have e : noisy pow10 s true (.fin x) z = ofQ (x * f) := by
      unfold noisy
      simp only [hf, if_true]
      rfl
    rw [e]
    refine ⟨FloatKernel.ofQ_ne_nan _, fun h => ?_, fun h => ?_, fun h => ?_⟩
    · have := FloatKernel.ofQ_le (mul_nonneg h f0)
      rwa [r0] at this
    · have := FloatKernel.ofQ_le (mul_nonpos_of_nonpos_of_nonneg h f0)
      rwa [r0] at this
    · rw [h, zero_mul, r0]
  · intro hf h
    unfold noisy
    simp only [hf, if_true, h]
    rfl

/-- C95: **the shape**: one repeat gives one row of the length of the input, any other number that many rows of it, a negative number is refused; element (i, j) is the
j-th value under the draw (i, j). -/
theorem C95_shape_double (pow10 : Num → Num) (s : Num) (inLg : Bool) (draws : Nat → Nat → Num) (x : List Num) (n : Int) :
    (n < 0 → addTo pow10 s inLg draws x n = .error .valueError) ∧
    (n = 1 → ∃ r, addTo pow10 s inLg draws x n = .ok (.row r) ∧ r.length = x.length ∧
      ∀ j, (h : j < x.length) → r[j]? = some (noisy pow10 s inLg x[j] (draws 0 j))) ∧
    (0 ≤ n → n ≠ 1 → ∃ rs, addTo pow10 s inLg draws x n = .ok (.rows rs) ∧ (rs.length : Int) = n ∧ (∀ r ∈ rs, r.length = x.length) ∧
      ∀ i j : Nat, (i : Int) < n → (h : j < x.length) → ∃ r, rs[i]? = some r ∧ r[j]? = some (noisy pow10 s inLg x[j] (draws i j))) := by
  refine ⟨fun h => ?_, fun h => ?_, fun h0 h1 => ?_⟩
  · unfold addTo
    rw [if_pos h]
  · subst h
    refine ⟨x.mapIdx fun j a => noisy pow10 s inLg a (draws 0 j), rfl, by simp, ?_⟩
    intro j h
    simp [h]
  · obtain ⟨k, rfl⟩ := Int.eq_ofNat_of_zero_le h0
    refine ⟨(List.range k).map fun i : Nat => x.mapIdx fun j a => noisy pow10 s inLg a (draws i j), ?_, by simp, ?_, ?_⟩
    · unfold addTo
      rw [if_neg (by omega)]
      have hk : k ≠ 1 := by omega
      simp only [Int.toNat_natCast]
      split
      · rename_i r e
        have := congrArg List.length e
        simp at this
        exact absurd this hk
      · rfl
    · intro r hr
      obtain ⟨i, -, rfl⟩ := List.mem_map.mp hr
      simp
    · intro i j hi h
      refine ⟨x.mapIdx fun j a => noisy pow10 s inLg a (draws i j), ?_, ?_⟩
      · have : i < k := by omega
        simp [this]
      · simp [h]

/-- A value, sigma and draw inside the hypotheses: 1/2 with sigma 1/4 and the draw -3 gives -1/4; and a two-row result. -/
example : noisy id (.fin (1 / 4)) false (.fin (1 / 2)) (.fin (-3)) = .fin (-1 / 4) ∧ |(1 / 2 : ℚ)| ≤ 2 ^ 10 ∧ |(-3 : ℚ) * (1 / 4)| ≤ 2 ^ 10 ∧
    addTo id (.fin (1 / 4)) false (fun i j => .fin ((i + 2 * j : Nat) : ℚ)) [.fin 1, .inf true] 2 =
      .ok (.rows [[.fin 1, .inf true], [.fin (5 / 4), .inf true]]) ∧
    Num.mul (.fin (-3)) (.fin (1 / 4)) = .fin (-3 / 4) ∧ noisy (fun _ => .fin 2) (.fin 1) true (.fin (-3)) (.fin 1) = .fin (-6) := by
  decide +kernel

end Pyhipp.FloatNoise
