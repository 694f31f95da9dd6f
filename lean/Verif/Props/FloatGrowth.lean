import Verif.Model.FloatGrowth
import Verif.Props.FloatUnits
/-
C81 in double precision: the growth factor.
-/
namespace Pyhipp.FloatGrowth
open Pyhipp Pyhipp.F64 Pyhipp.FloatLinear Pyhipp.FloatCosmology Pyhipp.FloatUnits Pyhipp.FloatHistDensity Pyhipp.FloatStandardize

/-- Specification: the divisor of Carroll et al. 1992, given Ω_m, Ω_Λ and Ω_m^(4/7). -/
def F (m l p : ℚ) : ℚ := p - l + (1 + m / 2) * (1 + l / 70)

/-- The divisor is accurate: rounding errors of the parts. -/
theorem f2_err {m l p : ℚ} (p0 : 0 ≤ p) (p1 : p ≤ 1) (m0 : 0 ≤ m) (m1 : m ≤ 1) (l0 : 0 ≤ l) (l1 : l ≤ 1) :
    |rnd (rnd (p - l) + rnd (rnd (1 + rnd (m / 2)) * rnd (1 + rnd (l / 70)))) - F m l p| ≤ 64 * 2 ^ (-53 : ℤ) := by
  have F1 : IsF (1 : ℚ) := by decide +kernel
  have F0 : IsF (0 : ℚ) := by decide +kernel
  have F2 : IsF (2 : ℚ) := by decide +kernel
  have F4 : IsF (4 : ℚ) := by decide +kernel
  have t1 : (2 : ℚ) ^ (-1075 : ℤ) ≤ 2 ^ (-53 : ℤ) := zpow_le_zpow_right₀ (by norm_num) (by norm_num)
  have u0 : (0 : ℚ) < 2 ^ (-53 : ℤ) := pow_pos' _
  have E : ∀ q B : ℚ, |q| ≤ B → |rnd q - q| ≤ 2 ^ (-53 : ℤ) * (B + 1) := by
    intro q B h
    have a := FloatMesh.rnd_err_all q
    have b := mul_le_mul_of_nonneg_left h u0.le
    linarith
  unfold F
  have e1 := E (p - l) 1 (abs_le.mpr ⟨by linarith, by linarith⟩)
  have e2 := E (m / 2) 1 (abs_le.mpr ⟨by linarith, by linarith⟩)
  have a0 : 0 ≤ rnd (m / 2) := rnd_nonneg (by linarith)
  have a1 : rnd (m / 2) ≤ 1 := rnd_le (by linarith) F1
  have e3 := E (1 + rnd (m / 2)) 2 (abs_le.mpr ⟨by linarith, by linarith⟩)
  have c0 : 0 ≤ rnd (1 + rnd (m / 2)) := rnd_nonneg (by linarith)
  have c1 : rnd (1 + rnd (m / 2)) ≤ 2 := rnd_le (by linarith) F2
  have e4 := E (l / 70) 1 (abs_le.mpr ⟨by linarith, by linarith⟩)
  have g0 : 0 ≤ rnd (l / 70) := rnd_nonneg (by linarith)
  have g1 : rnd (l / 70) ≤ 1 := rnd_le (by linarith) F1
  have e5 := E (1 + rnd (l / 70)) 2 (abs_le.mpr ⟨by linarith, by linarith⟩)
  have h0 : 0 ≤ rnd (1 + rnd (l / 70)) := rnd_nonneg (by linarith)
  have h1 : rnd (1 + rnd (l / 70)) ≤ 2 := rnd_le (by linarith) F2
  generalize rnd (m / 2) = a at *
  generalize rnd (l / 70) = g at *
  generalize rnd (1 + a) = C at *
  generalize rnd (1 + g) = H at *
  have s0 : -1 ≤ rnd (p - l) := le_rnd (by linarith) (by decide +kernel)
  have s1 : rnd (p - l) ≤ 1 := rnd_le (by linarith) F1
  generalize rnd (p - l) = S at *
  have q0 : 0 ≤ C * H := mul_nonneg c0 h0
  have q1 : C * H ≤ 4 := by
    have := mul_le_mul c1 h1 h0 (by norm_num : (0 : ℚ) ≤ 2)
    linarith
  have e6 := E (C * H) 4 (abs_le.mpr ⟨by linarith, by linarith⟩)
  have r1 : rnd (C * H) ≤ 4 := rnd_le q1 F4
  have r0 : 0 ≤ rnd (C * H) := rnd_nonneg q0
  generalize rnd (C * H) = P at *
  have e7 := E (S + P) 5 (abs_le.mpr ⟨by linarith, by linarith⟩)
  generalize (2 : ℚ) ^ (-53 : ℤ) = u at *
  rw [abs_le] at *
  have dC0 : -(5 * u) ≤ C - (1 + m / 2) := by linarith
  have dC1 : C - (1 + m / 2) ≤ 5 * u := by linarith
  have dH0 : -(5 * u) ≤ H - (1 + l / 70) := by linarith
  have dH1 : H - (1 + l / 70) ≤ 5 * u := by linarith
  have x1 : (C - (1 + m / 2)) * H ≤ 5 * u * 2 := by
    have := mul_le_mul_of_nonneg_right dC1 h0
    have := mul_le_mul_of_nonneg_left h1 (by linarith : 0 ≤ 5 * u)
    linarith
  have x0 : -(5 * u * 2) ≤ (C - (1 + m / 2)) * H := by
    have := mul_le_mul_of_nonneg_right dC0 h0
    have := mul_le_mul_of_nonneg_left h1 (by linarith : 0 ≤ 5 * u)
    linarith
  have y1 : (1 + m / 2) * (H - (1 + l / 70)) ≤ 2 * (5 * u) := by
    have := mul_le_mul_of_nonneg_left dH1 (by linarith : 0 ≤ 1 + m / 2)
    have := mul_le_mul_of_nonneg_right (by linarith : 1 + m / 2 ≤ 2) (by linarith : 0 ≤ 5 * u)
    linarith
  have y0 : -(2 * (5 * u)) ≤ (1 + m / 2) * (H - (1 + l / 70)) := by
    have := mul_le_mul_of_nonneg_left dH0 (by linarith : 0 ≤ 1 + m / 2)
    have := mul_le_mul_of_nonneg_right (by linarith : 1 + m / 2 ≤ 2) (by linarith : 0 ≤ 5 * u)
    linarith
  have id : C * H - (1 + m / 2) * (1 + l / 70) = (C - (1 + m / 2)) * H + (1 + m / 2) * (H - (1 + l / 70)) := by ring
  constructor <;> linarith [e7.1, e7.2, e6.1, e6.2, e1.1, e1.2]

/-- The divisor is finite and not small, whatever the matter fraction. -/
theorem f2_box {pw : Num → Num} {m l p : ℚ} (hp : pw (.fin m) = .fin p) (p0 : 0 ≤ p) (p1 : p ≤ 1) (m0 : 0 ≤ m) (m1 : m ≤ 1) (l0 : 0 ≤ l) (l1 : l ≤ 1) :
    ∃ v : ℚ, f2 pw (.fin m) (.fin l) = .fin v ∧ 2 ^ (-8 : ℤ) ≤ v ∧ v ≤ 2 ^ (3 : ℤ) ∧ |v - F m l p| ≤ 64 * 2 ^ (-53 : ℤ) := by
  have acc := f2_err p0 p1 m0 m1 l0 l1
  have b : ((8 : ℚ)) < 2 ^ 1024 := lt_of_le_of_lt (by norm_num : (8 : ℚ) ≤ 2 ^ 3) (pow_lt_pow_right₀ (by norm_num) (by norm_num))
  have p8 : IsF (8 : ℚ) := by decide +kernel
  have fl : ∀ q : ℚ, |q| ≤ 8 → ofQ q = .fin (rnd q) := fun q h => ofQ_fin_le h p8 b
  have le_int : ∀ q c : ℚ, IsF c → q ≤ c → rnd q ≤ c := fun q c hc h => rnd_le h hc
  have ge_int : ∀ q c : ℚ, IsF c → c ≤ q → c ≤ rnd q := fun q c hc h => le_rnd h hc
  have F0 : IsF (0 : ℚ) := by decide +kernel
  have F1 : IsF (1 : ℚ) := by decide +kernel
  have F1n : IsF (-1 : ℚ) := by decide +kernel
  have F2 : IsF (2 : ℚ) := by decide +kernel
  have F4 : IsF (4 : ℚ) := by decide +kernel
  have Fe : IsF (1 / 256 : ℚ) := by decide +kernel
  have Fe1 : IsF (257 / 256 : ℚ) := by decide +kernel
  -- p - l
  have s1 := le_int (p - l) 1 F1 (by linarith)
  have s0 := ge_int (p - l) (-1) F1n (by linarith)
  have eS : Num.sub (.fin p) (.fin l) = .fin (rnd (p - l)) := by
    show ofQ (p + -l) = _
    rw [← sub_eq_add_neg]
    exact fl _ (abs_le.mpr ⟨by linarith, by linarith⟩)
  -- 1 + m / 2
  have a0 := ge_int (m / 2) 0 F0 (by linarith)
  have a1 := le_int (m / 2) 1 F1 (by linarith)
  have eA : Num.div (.fin m) (.fin 2) = .fin (rnd (m / 2)) := by
    show (if (2 : ℚ) = 0 then (if m = 0 then Num.nan else Num.inf (decide (m < 0))) else ofQ (m / 2)) = _
    rw [if_neg (by norm_num)]
    exact fl _ (abs_le.mpr ⟨by linarith, by linarith⟩)
  have c0 := ge_int (1 + rnd (m / 2)) 1 F1 (by linarith)
  have c1 := le_int (1 + rnd (m / 2)) 2 F2 (by linarith)
  have eC : Num.add (.fin 1) (.fin (rnd (m / 2))) = .fin (rnd (1 + rnd (m / 2))) := fl _ (abs_le.mpr ⟨by linarith, by linarith⟩)
  -- 1 + l / 70
  have g0 := ge_int (l / 70) 0 F0 (by linarith)
  have g1 := le_int (l / 70) 1 F1 (by linarith)
  have eG : Num.div (.fin l) (.fin 70) = .fin (rnd (l / 70)) := by
    show (if (70 : ℚ) = 0 then (if l = 0 then Num.nan else Num.inf (decide (l < 0))) else ofQ (l / 70)) = _
    rw [if_neg (by norm_num)]
    exact fl _ (abs_le.mpr ⟨by linarith, by linarith⟩)
  have h0 := ge_int (1 + rnd (l / 70)) 1 F1 (by linarith)
  have h1 := le_int (1 + rnd (l / 70)) 2 F2 (by linarith)
  have eH : Num.add (.fin 1) (.fin (rnd (l / 70))) = .fin (rnd (1 + rnd (l / 70))) := fl _ (abs_le.mpr ⟨by linarith, by linarith⟩)
  have hbig : 1 / 2 ≤ l → 257 / 256 ≤ rnd (1 + rnd (l / 70)) := by
    intro h
    have := ge_int (l / 70) (1 / 256) Fe (by linarith)
    exact ge_int _ _ Fe1 (by linarith)
  unfold f2
  rw [hp, eS, eA, eC, eG, eH]
  generalize rnd (1 + rnd (m / 2)) = C at *
  generalize rnd (1 + rnd (l / 70)) = H at *
  have q0 : H ≤ C * H := le_mul_of_one_le_left (by linarith) c0
  have q1 : C * H ≤ 4 := by
    have := mul_le_mul c1 h1 (by linarith) (by norm_num : (0 : ℚ) ≤ 2)
    linarith
  have eP : Num.mul (.fin C) (.fin H) = .fin (rnd (C * H)) := fl _ (abs_le.mpr ⟨by linarith, by linarith⟩)
  have r1 := le_int (C * H) 4 F4 q1
  have r0 := ge_int (C * H) 1 F1 (by linarith)
  have rbig : 1 / 2 ≤ l → 257 / 256 ≤ rnd (C * H) := fun h => ge_int _ _ Fe1 (le_trans (hbig h) q0)
  have sbig : l ≤ 1 / 2 → -1 / 2 ≤ rnd (p - l) := fun h => ge_int _ _ (by decide +kernel) (by linarith)
  rw [eP]
  have tot : 1 / 256 ≤ rnd (p - l) + rnd (C * H) := by
    rcases le_total l (1 / 2) with h | h
    · linarith [sbig h]
    · linarith [rbig h]
  refine ⟨_, fl _ (abs_le.mpr ⟨by linarith, by linarith⟩), ?_, ?_, acc⟩
  · exact le_trans (by norm_num) (ge_int _ _ Fe tot)
  · exact le_trans (le_int _ 8 p8 (by linarith)) (by norm_num)

/-- C81: **with rounding**, a new growth factor at redshift 0 is 1 up to 9·2^-52 and the critical overdensity there 1.686 up to 11·2^-52, for every double Ω_m0 from
2^-100 to 1 and any power function with values between 0 and 1 there. -/
theorem C81_today_double {pw : Num → Num} {om p : ℚ} (fo : IsF om) (o0 : 2 ^ (-100 : ℤ) ≤ om) (o1 : om ≤ 1) (hp : pw (.fin om) = .fin p) (p0 : 0 ≤ p)
    (p1 : p ≤ 1) (ob H0 : Num) :
    (∃ g : ℚ, growth pw (Cosm.new (.fin om) ob H0) (.fin 0) = .ok (.fin g) ∧ |g - 1| ≤ 9 * 2 ^ (-52 : ℤ)) ∧
    ∃ d : ℚ, deltaCrit pw (Cosm.new (.fin om) ob H0) (.fin 0) = .ok (.fin d) ∧ |d - 843 / 500| ≤ 11 * 2 ^ (-52 : ℤ) * (843 / 500) := by
  have om0 : 0 ≤ om := le_trans (pow_pos' _).le o0
  obtain ⟨hE, hM, hL⟩ := efunc_today fo om0 o1 ob H0
  have today := C157_today fo om0 o1 ob (H0 := 0) (by decide +kernel) (by simp) (fun _ => 1) rfl (rho := 0) (by decide +kernel) (by simp)
  have em : (Cosm.new (.fin om) ob H0).omegaMScalar (.fin 0) = .ok (.fin om) := by
    rw [(C157_scalar _ _ (.fin 1)).1, hE, if_neg (by decide)]
    exact congrArg _ today.2.2.2.1
  have el : (Cosm.new (.fin om) ob H0).omegaLScalar (.fin 0) = .ok (.fin (rnd (1 - om))) := by
    rw [(C157_scalar _ _ (.fin 1)).2.1, hE, if_neg (by decide)]
    exact congrArg _ today.2.2.2.2.1
  have e1 : Num.add (.fin 1) (.fin 0) = .fin 1 := by decide +kernel
  obtain ⟨v, ev, v0, v1, va⟩ := f2_box hp p0 p1 om0 o1 (rnd_nonneg (by linarith : 0 ≤ 1 - om)) (rnd_le (by linarith : 1 - om ≤ 1) (by decide +kernel))
  have bo : Box (.fin om) om (-100) 0 0 := box_fin _ _ o0 (by simpa using o1)
  have b1 : Box (.fin 1) 1 0 0 0 := box_fin _ _ (by norm_num) (by norm_num)
  have b5 : Box (.fin (5 / 2)) (5 / 2) 1 2 0 := box_fin _ _ (by norm_num) (by norm_num)
  have bv : Box (.fin v) v (-8) 3 0 := box_fin _ _ v0 v1
  have at0 : ∀ {n : Num} {t : ℚ} {lo hi : ℤ} {k : Nat}, Box n t lo hi k → -500 ≤ lo → hi ≤ 500 → ∃ g, growthAt pw (Cosm.new (.fin om) ob H0) n (.fin 0) = .ok g ∧
      Box g (t * (5 / 2) * om / 1 / v) (lo + 1 + -100 - 0 - 3) (hi + 2 + 0 - 0 - -8) (k + 0 + 1 + 0 + 1 + 0 + 1 + 0 + 1) := by
    intro n t lo hi k h hl hh
    have hle := h.le
    have a := (h.mul b5 (by omega) (by omega)).mul bo (by omega) (by omega)
    obtain ⟨f, ef, bf⟩ := a.div b1 (by omega) (by omega)
    obtain ⟨g, eg, bg⟩ := bf.div bv (by omega) (by omega)
    refine ⟨g, ?_, bg⟩
    unfold growthAt
    simp only [em, el, bind, Except.bind, e1, ef, ev, eg]
  obtain ⟨d, ed, bd⟩ := at0 b1 (by norm_num) (by norm_num)
  obtain ⟨n, en, bn⟩ := b1.div bd (by norm_num) (by norm_num)
  have eN : newNorm pw (Cosm.new (.fin om) ob H0) = .ok n := by
    unfold newNorm
    simp only [ed, bind, Except.bind, en]
  obtain ⟨g, eg, bg⟩ := at0 bn (by norm_num) (by norm_num)
  have eG : growth pw (Cosm.new (.fin om) ob H0) (.fin 0) = .ok g := by
    unfold growth
    simp only [eN, bind, Except.bind, eg]
  have v0' : (0 : ℚ) < v := lt_of_lt_of_le (pow_pos' _) v0
  have om0' : (0 : ℚ) < om := lt_of_lt_of_le (pow_pos' _) o0
  have one : 1 / (1 * (5 / 2) * om / 1 / v) * (5 / 2) * om / 1 / v = 1 := by
    field_simp
  rw [one] at bg
  have bs := box_lit (q := 843 / 500) 0 1 (by norm_num) (by norm_num) (by norm_num) (by norm_num)
  obtain ⟨c, ec, bc⟩ := bs.div bg (by norm_num) (by norm_num)
  have eD : deltaCrit pw (Cosm.new (.fin om) ob H0) (.fin 0) = .ok c := by
    unfold deltaCrit
    simp only [eG, bind, Except.bind, ec]
  obtain ⟨g', rfl, -, hg⟩ := bg.close (by norm_num)
  obtain ⟨c', rfl, -, hc⟩ := bc.close (by norm_num)
  refine ⟨⟨g', eG, ?_⟩, ⟨c', eD, ?_⟩⟩
  · norm_num at hg ⊢
    exact hg
  · norm_num at hc ⊢
    exact hc

/-- C81: at redshift -1 the growth factor raises ZeroDivisionError. -/
theorem C81_future_double {pw : Num → Num} {om p : ℚ} (fo : IsF om) (o0 : 2 ^ (-100 : ℤ) ≤ om) (o1 : om ≤ 1) (hp : pw (.fin om) = .fin p) (p0 : 0 ≤ p)
    (p1 : p ≤ 1) (ob H0 : Num) : growth pw (Cosm.new (.fin om) ob H0) (.fin (-1)) = .error .zeroDivisionError := by
  obtain ⟨⟨g, eg, -⟩, -⟩ := C81_today_double fo o0 o1 hp p0 p1 ob H0
  unfold growth at eg ⊢
  cases hn : newNorm pw (Cosm.new (.fin om) ob H0) with
  | error e => rw [hn] at eg; cases eg
  | ok n =>
      simp only [bind, Except.bind]
      have e1 : Num.add (.fin 1) (.fin (-1)) = .fin 0 := by decide +kernel
      unfold growthAt
      rw [(C157_scalar _ _ (.fin 1)).1, (C157_scalar _ _ (.fin 1)).2.1]
      split
      · rfl
      · simp only [bind, Except.bind, e1, pyDiv, if_true]

/-- The constant of normalisation is a positive double of moderate size. -/
theorem norm_box {pw : Num → Num} {om p : ℚ} (fo : IsF om) (o0 : 2 ^ (-100 : ℤ) ≤ om) (o1 : om ≤ 1) (hp : pw (.fin om) = .fin p) (p0 : 0 ≤ p)
    (p1 : p ≤ 1) (ob H0 : Num) : ∃ n w : ℚ, newNorm pw (Cosm.new (.fin om) ob H0) = .ok (.fin n) ∧ 2 ^ (-8 : ℤ) ≤ w ∧
      |w - F om (rnd (1 - om)) p| ≤ 64 * 2 ^ (-53 : ℤ) ∧ Box (.fin n) (1 / (1 * (5 / 2) * om / 1 / w)) (-10) 102 5 := by
  have om0 : 0 ≤ om := le_trans (pow_pos' _).le o0
  obtain ⟨hE, hM, hL⟩ := efunc_today fo om0 o1 ob H0
  have today := C157_today fo om0 o1 ob (H0 := 0) (by decide +kernel) (by simp) (fun _ => 1) rfl (rho := 0) (by decide +kernel) (by simp)
  have em : (Cosm.new (.fin om) ob H0).omegaMScalar (.fin 0) = .ok (.fin om) := by
    rw [(C157_scalar _ _ (.fin 1)).1, hE, if_neg (by decide)]
    exact congrArg _ today.2.2.2.1
  have el : (Cosm.new (.fin om) ob H0).omegaLScalar (.fin 0) = .ok (.fin (rnd (1 - om))) := by
    rw [(C157_scalar _ _ (.fin 1)).2.1, hE, if_neg (by decide)]
    exact congrArg _ today.2.2.2.2.1
  have e1 : Num.add (.fin 1) (.fin 0) = .fin 1 := by decide +kernel
  obtain ⟨v, ev, v0, v1, va⟩ := f2_box hp p0 p1 om0 o1 (rnd_nonneg (by linarith : 0 ≤ 1 - om)) (rnd_le (by linarith : 1 - om ≤ 1) (by decide +kernel))
  have bo : Box (.fin om) om (-100) 0 0 := box_fin _ _ o0 (by simpa using o1)
  have b1 : Box (.fin 1) 1 0 0 0 := box_fin _ _ (by norm_num) (by norm_num)
  have b5 : Box (.fin (5 / 2)) (5 / 2) 1 2 0 := box_fin _ _ (by norm_num) (by norm_num)
  have bv : Box (.fin v) v (-8) 3 0 := box_fin _ _ v0 v1
  have a := (b1.mul b5 (by norm_num) (by norm_num)).mul bo (by norm_num) (by norm_num)
  obtain ⟨f, ef, bf⟩ := a.div b1 (by norm_num) (by norm_num)
  obtain ⟨g, eg, bg⟩ := bf.div bv (by norm_num) (by norm_num)
  obtain ⟨n, en, bn⟩ := b1.div bg (by norm_num) (by norm_num)
  obtain ⟨n', rfl, bn'⟩ := bn
  refine ⟨n', v, ?_, v0, va, ⟨n', rfl, bn'⟩⟩
  unfold newNorm growthAt
  simp only [em, el, bind, Except.bind, e1, ef, ev, eg, en]

/-- Specification: the growth factor given Ω_m and Ω_Λ at the redshift and the powers, relative to today. -/
def D (om z m l p p0 : ℚ) : ℚ := (m / (1 + z) / F m l p) / (om / F om (rnd (1 - om)) p0)

/-- A relative error of the divisors and the roundings of the rest. -/
theorem combine {x v w F G g c : ℚ} (x0 : 0 < x) (v0 : 2 ^ (-8 : ℤ) ≤ v) (w0 : 2 ^ (-8 : ℤ) ≤ w) (va : |v - F| ≤ 64 * 2 ^ (-53 : ℤ))
    (wa : |w - G| ≤ 64 * 2 ^ (-53 : ℤ)) (c0 : c ≤ 2 ^ (-46 : ℤ)) (h : |g - x * (w / v)| ≤ c * (x * (w / v))) :
    0 < F ∧ 0 < G ∧ |g - x * (G / F)| ≤ 2 ^ (-36 : ℤ) * (x * (G / F)) := by
  have e : 64 * (2 : ℚ) ^ (-53 : ℤ) = 2 ^ (-39 : ℤ) * 2 ^ (-8 : ℤ) := by norm_num
  have k0 : (0 : ℚ) < 2 ^ (-39 : ℤ) := pow_pos' _
  rw [e] at va wa
  have v1 : 0 < v := lt_of_lt_of_le (pow_pos' _) v0
  have w1 : 0 < w := lt_of_lt_of_le (pow_pos' _) w0
  have va' : |v - F| ≤ 2 ^ (-39 : ℤ) * v := le_trans va (mul_le_mul_of_nonneg_left v0 k0.le)
  have wa' : |w - G| ≤ 2 ^ (-39 : ℤ) * w := le_trans wa (mul_le_mul_of_nonneg_left w0 k0.le)
  rw [abs_le] at va' wa' h
  have k1 : (0 : ℚ) < 1 - 2 ^ (-39 : ℤ) := by norm_num
  have k2 : (0 : ℚ) < 1 + 2 ^ (-39 : ℤ) := by norm_num
  have F1 : (1 - 2 ^ (-39 : ℤ)) * v ≤ F := by linarith
  have F2 : F ≤ (1 + 2 ^ (-39 : ℤ)) * v := by linarith
  have G1 : (1 - 2 ^ (-39 : ℤ)) * w ≤ G := by linarith
  have G2 : G ≤ (1 + 2 ^ (-39 : ℤ)) * w := by linarith
  have Fp : 0 < F := lt_of_lt_of_le (mul_pos k1 v1) F1
  have Gp : 0 < G := lt_of_lt_of_le (mul_pos k1 w1) G1
  refine ⟨Fp, Gp, ?_⟩
  have r0 : 0 < w / v := div_pos w1 v1
  have R0 : 0 < G / F := div_pos Gp Fp
  -- the ratio of the two quotients
  have a1 : (1 - 2 ^ (-39 : ℤ)) * (w / v) ≤ (1 + 2 ^ (-39 : ℤ)) * (G / F) := by
    rw [← mul_div_assoc, ← mul_div_assoc, div_le_div_iff₀ v1 Fp]
    calc (1 - 2 ^ (-39 : ℤ)) * w * F ≤ G * ((1 + 2 ^ (-39 : ℤ)) * v) := mul_le_mul G1 F2 Fp.le Gp.le
      _ = (1 + 2 ^ (-39 : ℤ)) * G * v := by ring
  have a2 : (1 - 2 ^ (-39 : ℤ)) * (G / F) ≤ (1 + 2 ^ (-39 : ℤ)) * (w / v) := by
    rw [← mul_div_assoc, ← mul_div_assoc, div_le_div_iff₀ Fp v1]
    calc (1 - 2 ^ (-39 : ℤ)) * G * v = (1 - 2 ^ (-39 : ℤ)) * v * G := by ring
      _ ≤ F * ((1 + 2 ^ (-39 : ℤ)) * w) := mul_le_mul F1 G2 Gp.le Fp.le
      _ = (1 + 2 ^ (-39 : ℤ)) * w * F := by ring
  generalize w / v = r at *
  generalize G / F = R at *
  have b1 : r ≤ (1 + 2 ^ (-37 : ℤ)) * R := by
    have : (1 + 2 ^ (-39 : ℤ)) * R ≤ (1 - 2 ^ (-39 : ℤ)) * ((1 + 2 ^ (-37 : ℤ)) * R) := by
      rw [← mul_assoc]
      exact mul_le_mul_of_nonneg_right (by norm_num) R0.le
    exact le_of_mul_le_mul_left (le_trans a1 this) k1
  have b2 : (1 - 2 ^ (-37 : ℤ)) * R ≤ r := by
    have : (1 + 2 ^ (-39 : ℤ)) * ((1 - 2 ^ (-37 : ℤ)) * R) ≤ (1 - 2 ^ (-39 : ℤ)) * R := by
      rw [← mul_assoc]
      exact mul_le_mul_of_nonneg_right (by norm_num) R0.le
    exact le_of_mul_le_mul_left (le_trans this a2) k2
  have xr : c * (x * r) ≤ 2 ^ (-46 : ℤ) * (x * r) := mul_le_mul_of_nonneg_right c0 (mul_pos x0 r0).le
  have m1 := mul_le_mul_of_nonneg_left b1 x0.le
  have m2 := mul_le_mul_of_nonneg_left b2 x0.le
  have xR : 0 < x * R := mul_pos x0 R0
  have n1 : x * ((1 + 2 ^ (-37 : ℤ)) * R) = (1 + 2 ^ (-37 : ℤ)) * (x * R) := by ring
  have n2 : x * ((1 - 2 ^ (-37 : ℤ)) * R) = (1 - 2 ^ (-37 : ℤ)) * (x * R) := by ring
  rw [n1] at m1
  rw [n2] at m2
  generalize x * R = Y at *
  generalize x * r = y at *
  norm_num at xr m1 m2 ⊢
  rw [abs_le]
  constructor <;> linarith [h.1, h.2]

/-- C81: at **every** double redshift above -1 (up to 2^100) the growth factor and the critical overdensity are positive finite doubles (nothing overflows, underflows
to zero or raises): the growth factor is, to a relative 2^-36, Ω_m / (1 + z) / F at the redshift over the same today, and the overdensity 1.686 over that, F being the
divisor of Carroll et al. 1992, for the computed Ω_m and Ω_Λ at the redshift (which C157 compares with the exact ones). -/
theorem C81_growth_double {pw : Num → Num} (hp : ∀ m : ℚ, 0 ≤ m → m ≤ 1 → ∃ p, pw (.fin m) = .fin p ∧ 0 ≤ p ∧ p ≤ 1) {om z : ℚ} (fo : IsF om)
    (o0 : 2 ^ (-100 : ℤ) ≤ om) (o1 : om ≤ 1) (fz : IsF z) (z0 : -1 < z) (z1 : z ≤ 2 ^ 100) (ob H0 : Num) :
    ∃ m l p p0 g d : ℚ, (Cosm.new (.fin om) ob H0).omegaM (.fin z) = .fin m ∧ (Cosm.new (.fin om) ob H0).omegaL (.fin z) = .fin l ∧ pw (.fin m) = .fin p ∧
      pw (.fin om) = .fin p0 ∧ growth pw (Cosm.new (.fin om) ob H0) (.fin z) = .ok (.fin g) ∧ 0 < g ∧
      deltaCrit pw (Cosm.new (.fin om) ob H0) (.fin z) = .ok (.fin d) ∧ 0 < d ∧ 0 < D om z m l p p0 ∧
      |g - D om z m l p p0| ≤ 2 ^ (-36 : ℤ) * D om z m l p p0 ∧ |d - 843 / 500 / D om z m l p p0| ≤ 2 ^ (-36 : ℤ) * (843 / 500 / D om z m l p p0) := by
  obtain ⟨p, ep, p0, p1⟩ := hp om (le_trans (pow_pos' _).le o0) o1
  obtain ⟨n, w, en, w0, wa, bn⟩ := norm_box fo o0 o1 ep p0 p1 ob H0
  obtain ⟨m, l, em, el, m0, m1, l0, l1, -⟩ := C157_budget fo o0 o1 fz z0 z1 ob H0
  obtain ⟨sm, sl, -, -⟩ := C157_scalar_ok fo o0 o1 fz z0 z1 ob H0
  obtain ⟨q, eq, q0, q1⟩ := hp m m0 m1
  obtain ⟨v, ev, v0, v1, va⟩ := f2_box eq q0 q1 m0 m1 l0 l1
  obtain ⟨L, Z, c, P, E, h⟩ := parts fo o0 o1 fz z0 z1
  have em' : (Cosm.new (.fin om) ob H0).omegaM (.fin z) = Num.div (.fin P) (.fin E) := by
    unfold Cosm.omegaM
    rw [efunc_eq h ob H0]
    show Num.div (Num.mul (Num.fin om) (cube (Num.add (Num.fin z) (Num.fin 1)))) _ = _
    rw [h.eZ, h.ec, h.eP]
  have bP : Box (.fin P) P (-259) 303 0 := box_fin _ _ h.P1 (le_trans h.P2 (by rw [← zpow_natCast]; norm_num))
  have bE : Box (.fin E) E (-259) 304 0 := box_fin _ _ (le_trans h.P1 h.E1) (le_trans h.E2 (by rw [← zpow_natCast]; norm_num))
  obtain ⟨m', hm', m2, -⟩ := bP.ndiv bE (by norm_num) (by norm_num)
  have : m' = m := by
    rw [em', hm'] at em
    exact Num.fin.inj em
  subst this
  have bm : Box (.fin m') m' (-563) 0 0 := box_fin _ _ (by simpa using m2) (by simpa using m1)
  have zz := zp1_ge fz z0
  have zu : z + 1 ≤ 2 ^ (101 : ℤ) := by
    have e : (2 : ℚ) ^ (101 : ℤ) = 2 * 2 ^ 100 := by norm_num
    have one100 : (1 : ℚ) ≤ 2 ^ 100 := by norm_num
    rw [e]; linarith
  have bZ := box_lit (q := z + 1) (-53) 101 zz zu (by norm_num) (by norm_num)
  have eZ : Num.add (.fin 1) (.fin z) = ofQ (z + 1) := by
    show ofQ (1 + z) = _
    rw [add_comm]
  have b5 : Box (.fin (5 / 2)) (5 / 2) 1 2 0 := box_fin _ _ (by norm_num) (by norm_num)
  have bv : Box (.fin v) v (-8) 3 0 := box_fin _ _ v0 v1
  obtain ⟨f, ef, bf⟩ := ((bn.mul b5 (by norm_num) (by norm_num)).mul bm (by norm_num) (by norm_num)).div bZ (by norm_num) (by norm_num)
  obtain ⟨g, eg, bg⟩ := bf.div bv (by norm_num) (by norm_num)
  have bs := box_lit (q := 843 / 500) 0 1 (by norm_num) (by norm_num) (by norm_num) (by norm_num)
  obtain ⟨d, ed, bd⟩ := bs.div bg (by norm_num) (by norm_num)
  have eG : growth pw (Cosm.new (.fin om) ob H0) (.fin z) = .ok g := by
    unfold growth growthAt
    simp only [en, sm, sl, em, el, bind, Except.bind, eZ, ef, ev, eg]
  have eD : deltaCrit pw (Cosm.new (.fin om) ob H0) (.fin z) = .ok d := by
    unfold deltaCrit
    simp only [eG, bind, Except.bind, ed]
  obtain ⟨g', rfl, gp, hg⟩ := bg.close (by norm_num)
  obtain ⟨d', rfl, dp, hd⟩ := bd.close (by norm_num)
  have mp : 0 < m' := lt_of_lt_of_le (pow_pos' _) m2
  have omp : 0 < om := lt_of_lt_of_le (pow_pos' _) o0
  have zp : 0 < z + 1 := by linarith
  have vp : 0 < v := lt_of_lt_of_le (pow_pos' _) v0
  have wp : 0 < w := lt_of_lt_of_le (pow_pos' _) w0
  have xp : 0 < m' / (1 + z) / om := div_pos (div_pos mp (by linarith)) omp
  have t1 : 1 / (1 * (5 / 2) * om / 1 / w) * (5 / 2) * m' / (z + 1) / v = m' / (1 + z) / om * (w / v) := by
    rw [add_comm z 1] at zp ⊢
    field_simp
  rw [t1] at hg hd
  obtain ⟨Fp, Gp, acc⟩ := combine xp v0 w0 va wa (by norm_num) hg
  have t2 : 843 / 500 / (m' / (1 + z) / om * (w / v)) = 843 / 500 / (m' / (1 + z) / om) * (v / w) := by
    field_simp
  rw [t2] at hd
  obtain ⟨-, -, acc'⟩ := combine (div_pos (by norm_num) xp) w0 v0 wa va (by norm_num) hd
  have eD1 : D om z m' l q p = m' / (1 + z) / om * (F om (rnd (1 - om)) p / F m' l q) := by
    unfold D
    have : 0 < 1 + z := by linarith
    field_simp
  have eD2 : 843 / 500 / D om z m' l q p = 843 / 500 / (m' / (1 + z) / om) * (F m' l q / F om (rnd (1 - om)) p) := by
    rw [eD1]
    have : 0 < 1 + z := by linarith
    field_simp
  refine ⟨m', l, q, p, g', d', em, el, eq, ep, eG, gp, eD, dp, ?_, ?_, ?_⟩
  · rw [eD1]
    exact mul_pos xp (div_pos Gp Fp)
  · rw [eD1]; exact acc
  · rw [eD2]; exact acc'

/-- A cosmology of matter alone (Einstein-de Sitter) with the power 1 at 1. -/
example : IsF (1 : ℚ) ∧ (2 : ℚ) ^ (-100 : ℤ) ≤ 1 ∧ growth id (Cosm.new (.fin 1) (.fin 0) (.fin 1)) (.fin 0) = .ok (.fin 1) := by
  refine ⟨by decide +kernel, by norm_num, ?_⟩
  decide +kernel

/-- The hypotheses on the power and the redshift are met: a quarter of matter at redshift 3. -/
example : (∀ m : ℚ, 0 ≤ m → m ≤ 1 → ∃ p, id (Num.fin m) = .fin p ∧ 0 ≤ p ∧ p ≤ 1) ∧ IsF (1 / 4 : ℚ) ∧ (2 : ℚ) ^ (-100 : ℤ) ≤ 1 / 4 ∧ IsF (3 : ℚ) ∧ (3 : ℚ) ≤ 2 ^ 100 := by
  refine ⟨fun m h0 h1 => ⟨m, rfl, h0, h1⟩, by decide +kernel, by norm_num, by decide +kernel, ?_⟩
  exact le_trans (show (3 : ℚ) ≤ 2 ^ 2 by norm_num) (pow_le_pow_right₀ (by norm_num) (by norm_num))

end Pyhipp.FloatGrowth
