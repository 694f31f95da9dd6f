import Verif.Model.FloatUnits
import Verif.Props.FloatCosmology
import Mathlib.Analysis.Real.Pi.Bounds
/-
C161: units, critical density and mass-radius conversion in double precision.
-/
namespace Pyhipp.FloatUnits
open Pyhipp Pyhipp.F64 Pyhipp.FloatReduce Pyhipp.FloatHistDensity Pyhipp.FloatLinear Pyhipp.FloatStandardize Pyhipp.FloatCosmology Pyhipp.FloatKernel

/-- The specification: a finite positive double within `k` units of 2^-52 (relative) of the exact value `t`. -/
def Close (x : Num) (t : ℚ) (k : Nat) : Prop := ∃ v : ℚ, x = .fin v ∧ 0 < v ∧ |v - t| ≤ k * 2 ^ (-52 : ℤ) * t

/-! ### Calculus -/

/-- A double between two powers of 2, within `k` roundings of the exact value `t`. -/
def Box (x : Num) (t : ℚ) (lo hi : ℤ) (k : Nat) : Prop := ∃ v : ℚ, x = .fin v ∧ (2 : ℚ) ^ lo ≤ v ∧ v ≤ 2 ^ hi ∧ 0 < t ∧ Within v t k

theorem Box.close {x : Num} {t : ℚ} {lo hi : ℤ} {k : Nat} (h : Box x t lo hi k) (hk : k ≤ 100) : Close x t k := by
  obtain ⟨v, e, l, -, t0, w⟩ := h
  exact ⟨v, e, lt_of_lt_of_le (pow_pos' _) l, (w.close t0 (le_trans hk (by norm_num))).1⟩

theorem Box.le {x : Num} {t : ℚ} {lo hi : ℤ} {k : Nat} (h : Box x t lo hi k) : lo ≤ hi := by
  obtain ⟨v, -, l, u, -, -⟩ := h
  exact (zpow_le_zpow_iff_right₀ (by norm_num : (1 : ℚ) < 2)).mp (le_trans l u)

theorem le_1023 {x : ℚ} {e : ℤ} (h : x ≤ 2 ^ e) (he : e ≤ 1023) : x ≤ 2 ^ (1023 : Nat) := by
  have : (2 : ℚ) ^ e ≤ 2 ^ (1023 : ℤ) := zpow_le_zpow_right₀ (by norm_num) he
  rw [← zpow_natCast]
  exact le_trans h this

theorem rnd_box {q t : ℚ} {lo hi : ℤ} {k : Nat} (l : (2 : ℚ) ^ lo ≤ q) (u : q ≤ 2 ^ hi) (h1 : -1022 ≤ lo) (h2 : hi ≤ 1023) (t0 : 0 < t) (w : Within q t k) :
    ofQ q = .fin (rnd q) ∧ (2 : ℚ) ^ lo ≤ rnd q ∧ rnd q ≤ 2 ^ hi ∧ Within (rnd q) t (k + 1) := by
  have q0 : 0 < q := lt_of_lt_of_le (pow_pos' _) l
  have lh : lo ≤ hi := (zpow_le_zpow_iff_right₀ (by norm_num : (1 : ℚ) < 2)).mp (le_trans l u)
  have b := le_1023 u h2
  refine ⟨ofQ_fin_le (by rw [abs_of_pos q0]; exact b) FloatBins.pow1023 FloatBins.lt1024, le_rnd l (isF_pow (by omega)), rnd_le u (isF_pow (by omega)), ?_⟩
  have : Within (rnd q) q 1 := w_rnd (le_trans (zpow_le_zpow_right₀ (by norm_num) h1) l)
  rw [add_comm]
  exact this.trans w

theorem Box.mul {x y : Num} {t s : ℚ} {a b c d : ℤ} {k j : Nat} (h : Box x t a c k) (h' : Box y s b d j) (h1 : -1022 ≤ a + b) (h2 : c + d ≤ 1023) :
    Box (Num.mul x y) (t * s) (a + b) (c + d) (k + j + 1) := by
  obtain ⟨v, rfl, l, u, t0, w⟩ := h
  obtain ⟨v', rfl, l', u', s0, w'⟩ := h'
  have v0 : 0 < v := lt_of_lt_of_le (pow_pos' _) l
  have v0' : 0 < v' := lt_of_lt_of_le (pow_pos' _) l'
  have lo : (2 : ℚ) ^ (a + b) ≤ v * v' := by
    rw [zpow_add₀ (by norm_num)]
    exact mul_le_mul l l' (pow_pos' _).le v0.le
  have hi : v * v' ≤ 2 ^ (c + d) := by
    rw [zpow_add₀ (by norm_num)]
    exact mul_le_mul u u' v0'.le (pow_pos' _).le
  obtain ⟨e, r1, r2, r3⟩ := rnd_box lo hi h1 h2 (mul_pos t0 s0) (w_mul w w' v0.le t0.le v0'.le s0.le)
  exact ⟨_, e, r1, r2, mul_pos t0 s0, r3⟩

theorem Box.ndiv {x y : Num} {t s : ℚ} {a b c d : ℤ} {k j : Nat} (h : Box x t a c k) (h' : Box y s b d j) (h1 : -1022 ≤ a - d) (h2 : c - b ≤ 1023) :
    Box (Num.div x y) (t / s) (a - d) (c - b) (k + j + 1) := by
  obtain ⟨v, rfl, l, u, t0, w⟩ := h
  obtain ⟨v', rfl, l', u', s0, w'⟩ := h'
  have v0 : 0 < v := lt_of_lt_of_le (pow_pos' _) l
  have v0' : 0 < v' := lt_of_lt_of_le (pow_pos' _) l'
  have lo : (2 : ℚ) ^ (a - d) ≤ v / v' := by
    rw [zpow_sub₀ (by norm_num)]
    exact div_le_div₀ v0.le l v0' u'
  have hi : v / v' ≤ 2 ^ (c - b) := by
    rw [zpow_sub₀ (by norm_num)]
    exact div_le_div₀ (pow_pos' _).le u (pow_pos' _) l'
  obtain ⟨e, r1, r2, r3⟩ := rnd_box lo hi h1 h2 (div_pos t0 s0) (w.div w' t0 s0)
  refine ⟨rnd (v / v'), ?_, r1, r2, div_pos t0 s0, r3⟩
  show (if v' = 0 then _ else ofQ (v / v')) = _
  rw [if_neg v0'.ne', e]

theorem Box.div {x y : Num} {t s : ℚ} {a b c d : ℤ} {k j : Nat} (h : Box x t a c k) (h' : Box y s b d j) (h1 : -1022 ≤ a - d) (h2 : c - b ≤ 1023) :
    ∃ z, pyDiv x y = .ok z ∧ Box z (t / s) (a - d) (c - b) (k + j + 1) := by
  refine ⟨Num.div x y, ?_, h.ndiv h' h1 h2⟩
  obtain ⟨v', rfl, l', -, -, -⟩ := h'
  rw [pyDiv, if_neg]
  exact fun e => (lt_of_lt_of_le (pow_pos' _) l').ne' (Num.fin.inj e)

theorem Box.cube {x : Num} {t : ℚ} {a c : ℤ} {k : Nat} (h : Box x t a c k) (h1 : -1022 ≤ a + (a + a)) (h2 : c + (c + c) ≤ 1023) (h3 : -1022 ≤ a + a) (h4 : c + c ≤ 1023) :
    Box (cube x) (t ^ 3) (a + (a + a)) (c + (c + c)) (k + (k + k + 1) + 1) := by
  have := h.mul (h.mul h h3 h4) h1 h2
  rwa [show t * (t * t) = t ^ 3 by ring] at this

theorem box_lit {q : ℚ} (lo hi : ℤ) (h1 : (2 : ℚ) ^ lo ≤ q) (h2 : q ≤ 2 ^ hi) (h3 : -1022 ≤ lo) (h4 : hi ≤ 1023) : Box (ofQ q) q lo hi 1 := by
  have q0 : 0 < q := lt_of_lt_of_le (pow_pos' _) h1
  obtain ⟨e, r1, r2, r3⟩ := rnd_box h1 h2 h3 h4 q0 (w_refl q)
  exact ⟨_, e, r1, r2, q0, r3⟩

theorem box_fin {q : ℚ} (lo hi : ℤ) (h1 : (2 : ℚ) ^ lo ≤ q) (h2 : q ≤ 2 ^ hi) : Box (.fin q) q lo hi 0 :=
  ⟨q, rfl, h1, h2, lt_of_lt_of_le (pow_pos' _) h1, w_refl q⟩

/-! ### The constants -/

theorem box_mpc : Box constants.mpc_to_m (3085677581491367 * 10 ^ 7) 74 75 1 := box_lit 74 75 (by norm_num) (by norm_num) (by norm_num) (by norm_num)
theorem box_gyr : Box constants.gyr_to_s (315576 * 10 ^ 11) 54 55 0 := by
  have e : constants.gyr_to_s = .fin (315576 * 10 ^ 11) := by decide +kernel
  rw [e]; exact box_fin 54 55 (by norm_num) (by norm_num)
theorem box_sun : Box constants.solar_mass (1988409870698051 * 10 ^ 15) 100 101 1 := box_lit 100 101 (by norm_num) (by norm_num) (by norm_num) (by norm_num)
theorem box_light : Box constants.light_speed 299792458 28 29 0 := box_fin 28 29 (by norm_num) (by norm_num)
theorem box_proton : Box constants.proton_mass (167262192369 / 10 ^ 38) (-89) (-88) 1 := box_lit _ _ (by norm_num) (by norm_num) (by norm_num) (by norm_num)
theorem box_G : Box constants.gravity_constant (66743 / 10 ^ 15) (-34) (-33) 1 := box_lit _ _ (by norm_num) (by norm_num) (by norm_num) (by norm_num)
theorem box_pc : Box constants.pc_to_m (3085677581491367 * 10) 54 56 2 := by
  have := box_mpc.ndiv (box_fin (q := 1000000) 19 20 (by norm_num) (by norm_num)) (by norm_num) (by norm_num)
  norm_num at this ⊢
  exact this
theorem box_yr : Box constants.yr_to_s 31557600 24 26 1 := by
  have := box_gyr.ndiv (box_fin (q := 1000000000) 29 30 (by norm_num) (by norm_num)) (by norm_num) (by norm_num)
  norm_num at this ⊢
  exact this
theorem box_salpeter : Box constants.salpeter_time (45049 / 100 * (315576 * 10 ^ 8)) 52 55 4 := by
  have a := box_gyr.mul (box_lit (q := 1 / 1000) (-10) (-9) (by norm_num) (by norm_num) (by norm_num) (by norm_num)) (by norm_num) (by norm_num)
  have b := (box_lit (q := 45049 / 100) 8 9 (by norm_num) (by norm_num) (by norm_num) (by norm_num)).mul a (by norm_num) (by norm_num)
  norm_num at b ⊢
  exact b


/-! ### The unit system -/

/-- The fields of a unit system against their exact values. -/
structure Fields (u : Units) (L T M : ℚ) (kl kt km : Nat) : Prop where
  g : Box u.u_gravity_constant (L ^ 3 / T ^ 2 / M) (-960) 960 (3 * kl + 2 * kt + km + 5)
  rho : Box u.u_density (M / L ^ 3) (-640) 640 (3 * kl + km + 3)
  h : Box u.u_big_hubble (1 / T) (-160) 160 (kt + 1)
  v : Box u.u_velocity (L / T) (-320) 320 (kl + kt + 1)
  kmps : Box u.u_velocity_in_kmps (L / T / 1000) (-330) 311 (kl + kt + 2)
  proton : Box u.proton_mass (167262192369 / 10 ^ 38 / M) (-249) 72 (km + 2)
  sun : Box u.solar_mass (1988409870698051 * 10 ^ 15 / M) (-60) 261 (km + 2)
  pc : Box u.pc (3085677581491367 * 10 / L) (-106) 216 (kl + 3)
  yr : Box u.yr (31557600 / T) (-136) 186 (kt + 2)
  sal : Box u.salpeter_time (45049 / 100 * (315576 * 10 ^ 8) / T) (-108) 215 (kt + 5)
  light : Box u.light_speed (299792458 / (L / T)) (-292) 349 (kl + kt + 2)
  G : Box u.gravity_constant (66743 / 10 ^ 15 / (L ^ 3 / T ^ 2 / M)) (-994) 927 (3 * kl + 2 * kt + km + 7)

theorem Box.cast {x : Num} {t t' : ℚ} {a b a' b' : ℤ} {k k' : Nat} (h : Box x t a b k) (ht : t = t') (ha : a = a') (hb : b = b') (hk : k = k') : Box x t' a' b' k' := by
  subst ht ha hb hk; exact h

theorem core {l t m : Num} {L T M : ℚ} {kl kt km : Nat} (hl : Box l L (-160) 160 kl) (ht : Box t T (-160) 160 kt) (hm : Box m M (-160) 160 km) (θ : Num) :
    ∃ u, Units.new l t m θ = .ok u ∧ u.u_length = l ∧ u.u_time = t ∧ u.u_mass = m ∧ u.u_temperature = θ ∧ Fields u L T M kl kt km := by
  have l3 := hl.cube (by norm_num) (by norm_num) (by norm_num) (by norm_num)
  have t2 := ht.mul ht (by norm_num) (by norm_num)
  obtain ⟨g1, e1, b1⟩ := l3.div t2 (by norm_num) (by norm_num)
  obtain ⟨ug, e2, b2⟩ := b1.div hm (by norm_num) (by norm_num)
  obtain ⟨ur, e3, b3⟩ := hm.div l3 (by norm_num) (by norm_num)
  obtain ⟨uh, e4, b4⟩ := (box_fin (q := 1) 0 0 (by norm_num) (by norm_num)).div ht (by norm_num) (by norm_num)
  obtain ⟨uv, e5, b5⟩ := hl.div ht (by norm_num) (by norm_num)
  obtain ⟨uk, e6, b6⟩ := b5.div (box_fin (q := 1000) 9 10 (by norm_num) (by norm_num)) (by norm_num) (by norm_num)
  obtain ⟨mp, e7, b7⟩ := box_proton.div hm (by norm_num) (by norm_num)
  obtain ⟨ms, e8, b8⟩ := box_sun.div hm (by norm_num) (by norm_num)
  obtain ⟨pc, e9, b9⟩ := box_pc.div hl (by norm_num) (by norm_num)
  obtain ⟨yr, e10, b10⟩ := box_yr.div ht (by norm_num) (by norm_num)
  obtain ⟨sa, e11, b11⟩ := box_salpeter.div ht (by norm_num) (by norm_num)
  obtain ⟨c, e12, b12⟩ := box_light.div b5 (by norm_num) (by norm_num)
  obtain ⟨g, e13, b13⟩ := box_G.div b2 (by norm_num) (by norm_num)
  refine ⟨{ u_length := l, u_time := t, u_mass := m, u_temperature := θ, u_gravity_constant := ug, u_density := ur, u_big_hubble := uh, u_velocity := uv, u_velocity_in_kmps := uk, proton_mass := mp, solar_mass := ms, pc := pc, yr := yr, salpeter_time := sa, light_speed := c, gravity_constant := g },
    ?_, ?_, ?_, ?_, ?_, ?_⟩
  · unfold Units.new
    simp only [bind, Except.bind, pure, Except.pure, e1, e2, e3, e4, e5, e6, e7, e8, e9, e10, e11, e12, e13]
  · rfl
  · rfl
  · rfl
  · rfl
  have e : T * T = T ^ 2 := by ring
  exact {
    g := b2.cast (by rw [e]) (by norm_num) (by norm_num) (by ring)
    rho := b3.cast rfl (by norm_num) (by norm_num) (by ring)
    h := b4.cast rfl (by norm_num) (by norm_num) (by ring)
    v := b5.cast rfl (by norm_num) (by norm_num) (by ring)
    kmps := b6.cast rfl (by norm_num) (by norm_num) (by ring)
    proton := b7.cast rfl (by norm_num) (by norm_num) (by ring)
    sun := b8.cast rfl (by norm_num) (by norm_num) (by ring)
    pc := b9.cast rfl (by norm_num) (by norm_num) (by ring)
    yr := b10.cast rfl (by norm_num) (by norm_num) (by ring)
    sal := b11.cast rfl (by norm_num) (by norm_num) (by ring)
    light := b12.cast rfl (by norm_num) (by norm_num) (by ring)
    G := b13.cast (by rw [e]) (by norm_num) (by norm_num) (by ring) }

/-- C161: **the unit system.** For base units between 2^-160 and 2^160 (in m, s, kg) every field is a finite positive double within a few units of 2^-52 of its
exact value in terms of the base units and of the decimal constants of the source. -/
theorem C161_units {L T M : ℚ} (l1 : 2 ^ (-160 : ℤ) ≤ L) (l2 : L ≤ 2 ^ (160 : ℤ)) (t1 : 2 ^ (-160 : ℤ) ≤ T) (t2 : T ≤ 2 ^ (160 : ℤ)) (m1 : 2 ^ (-160 : ℤ) ≤ M)
    (m2 : M ≤ 2 ^ (160 : ℤ)) (θ : Num) :
    ∃ u, Units.new (.fin L) (.fin T) (.fin M) θ = .ok u ∧ u.u_length = .fin L ∧ u.u_time = .fin T ∧ u.u_mass = .fin M ∧ u.u_temperature = θ ∧
      Close u.u_gravity_constant (L ^ 3 / T ^ 2 / M) 5 ∧ Close u.u_density (M / L ^ 3) 3 ∧ Close u.u_big_hubble (1 / T) 1 ∧ Close u.u_velocity (L / T) 1 ∧
      Close u.u_velocity_in_kmps (L / T / 1000) 2 ∧ Close u.proton_mass (167262192369 / 10 ^ 38 / M) 2 ∧ Close u.solar_mass (1988409870698051 * 10 ^ 15 / M) 2 ∧
      Close u.pc (3085677581491367 * 10 / L) 3 ∧ Close u.yr (31557600 / T) 2 ∧ Close u.salpeter_time (45049 / 100 * (315576 * 10 ^ 8) / T) 5 ∧
      Close u.light_speed (299792458 / (L / T)) 2 ∧ Close u.gravity_constant (66743 / 10 ^ 15 / (L ^ 3 / T ^ 2 / M)) 7 := by
  obtain ⟨u, e, e1, e2, e3, e4, f⟩ := core (box_fin _ _ l1 l2) (box_fin _ _ t1 t2) (box_fin _ _ m1 m2) θ
  exact ⟨u, e, e1, e2, e3, e4, f.g.close (by norm_num), f.rho.close (by norm_num), f.h.close (by norm_num), f.v.close (by norm_num), f.kmps.close (by norm_num),
    f.proton.close (by norm_num), f.sun.close (by norm_num), f.pc.close (by norm_num), f.yr.close (by norm_num), f.sal.close (by norm_num), f.light.close (by norm_num),
    f.G.close (by norm_num)⟩

/-- SI units. -/
example : ∃ u, Units.new (.fin 1) (.fin 1) (.fin 1) (.fin 1) = .ok u ∧ Close u.light_speed 299792458 2 := by
  obtain ⟨u, e, -, -, -, -, -, -, -, -, -, -, -, -, -, -, h, -⟩ := C161_units (L := 1) (T := 1) (M := 1) (by norm_num) (by norm_num) (by norm_num) (by norm_num) (by norm_num) (by norm_num) (.fin 1)
  exact ⟨u, e, by norm_num at h; exact h⟩


/-- C161: the time units are exact multiples of each other, the mass fields agree, a parsec is within 2 units of 2^-52 of 3.085677581491367e16 m; the kiloparsec is
recorded to be wrong: it is 1000 megaparsec. -/
theorem C161_constants :
    constants.gyr_to_s = .fin 31557600000000000 ∧ constants.myr_to_s = .fin 31557600000000 ∧ constants.kyr_to_s = .fin 31557600000 ∧ constants.yr_to_s = .fin 31557600 ∧
    constants.msun_to_kg = constants.solar_mass ∧ Close constants.mpc_to_m (3085677581491367 * 10 ^ 7) 1 ∧ Close constants.pc_to_m (3085677581491367 * 10) 2 ∧
    constants.kpc_to_m = Num.mul constants.mpc_to_m (.fin 1000) ∧ Close constants.kpc_to_m (3085677581491367 * 10 ^ 10) 2 ∧
    Close constants.salpeter_time (45049 / 100 * (315576 * 10 ^ 8)) 4 := by
  have k := box_mpc.mul (box_fin (q := 1000) 9 10 (by norm_num) (by norm_num)) (by norm_num) (by norm_num)
  have k' : Box constants.kpc_to_m (3085677581491367 * 10 ^ 10) 83 85 2 := by
    norm_num at k ⊢
    exact k
  exact ⟨by decide +kernel, by decide +kernel, by decide +kernel, by decide +kernel, rfl, box_mpc.close (by norm_num), box_pc.close (by norm_num), rfl,
    k'.close (by norm_num), box_salpeter.close (by norm_num)⟩

theorem Box.widen {x : Num} {t : ℚ} {a b : ℤ} {k : Nat} (h : Box x t a b k) (a' b' : ℤ) (ha : a' ≤ a) (hb : b ≤ b') : Box x t a' b' k := by
  obtain ⟨v, e, l, u, t0, w⟩ := h
  exact ⟨v, e, le_trans (zpow_le_zpow_right₀ (by norm_num) ha) l, le_trans u (zpow_le_zpow_right₀ (by norm_num) hb), t0, w⟩

/-- The gravity constant in (Mpc/h)³ (Gyr/h)^-2 (10^10 Msun/h)^-1: it does not depend on h. -/
def gCosm : ℚ := 66743 / 10 ^ 15 / ((3085677581491367 * 10 ^ 7) ^ 3 / (315576 * 10 ^ 11) ^ 2 / (1988409870698051 * 10 ^ 25))

theorem makeUs_core {h : ℚ} (h1 : 2 ^ (-20 : ℤ) ≤ h) (h2 : h ≤ 2 ^ (20 : ℤ)) :
    ∃ u, makeUs (.fin h) = .ok u ∧ Box u.u_length (3085677581491367 * 10 ^ 7 / h) (-160) 160 2 ∧ Box u.u_time (315576 * 10 ^ 11 / h) (-160) 160 1 ∧
      Box u.u_mass (1988409870698051 * 10 ^ 25 / h) (-160) 160 3 ∧ u.u_temperature = .fin 1 ∧
      Fields u (3085677581491367 * 10 ^ 7 / h) (315576 * 10 ^ 11 / h) (1988409870698051 * 10 ^ 25 / h) 2 1 3 ∧ Box u.gravity_constant gCosm (-60) 20 18 := by
  have h0 : 0 < h := lt_of_lt_of_le (pow_pos' _) h1
  have bh := box_fin _ _ h1 h2
  have sun : Box (Num.mul constants.msun_to_kg (.fin (10 ^ 10))) (1988409870698051 * 10 ^ 25) 133 135 2 := by
    have := box_sun.mul (box_fin (q := 10 ^ 10) 33 34 (by norm_num) (by norm_num)) (by norm_num) (by norm_num)
    norm_num at this ⊢
    exact this
  obtain ⟨l, e1, b1⟩ := box_mpc.div bh (by norm_num) (by norm_num)
  obtain ⟨t, e2, b2⟩ := box_gyr.div bh (by norm_num) (by norm_num)
  obtain ⟨m, e3, b3⟩ := sun.div bh (by norm_num) (by norm_num)
  have bl := b1.widen (-160) 160 (by norm_num) (by norm_num)
  have bt := b2.widen (-160) 160 (by norm_num) (by norm_num)
  have bm := b3.widen (-160) 160 (by norm_num) (by norm_num)
  obtain ⟨u, e, ul, ut, um, uθ, f⟩ := core bl bt bm (.fin 1)
  refine ⟨u, ?_, ul ▸ bl, ut ▸ bt, um ▸ bm, uθ, f, ?_⟩
  · unfold makeUs
    simp only [bind, Except.bind, e1, e2, e3, e]
  · -- tighter bounds for the gravity constant
    obtain ⟨v, ev, -, -, t0, w⟩ := f.G
    have eg : 66743 / 10 ^ 15 / ((3085677581491367 * 10 ^ 7 / h) ^ 3 / (315576 * 10 ^ 11 / h) ^ 2 / (1988409870698051 * 10 ^ 25 / h)) = gCosm := by
      unfold gCosm
      field_simp
    rw [eg] at t0 w
    have c := w.close t0 (by norm_num)
    have g1 : (2 : ℚ) ^ (-59 : ℤ) ≤ gCosm := by unfold gCosm; norm_num
    have g2 : gCosm ≤ 2 ^ (19 : ℤ) := by unfold gCosm; norm_num
    have p1 : (2 : ℚ) ^ (-59 : ℤ) = 2 * 2 ^ (-60 : ℤ) := by norm_num
    have p2 : (2 : ℚ) ^ (20 : ℤ) = 2 * 2 ^ (19 : ℤ) := by norm_num
    exact ⟨v, ev, by linarith only [c.2.2, g1, p1], by linarith only [c.2.1, g2, p2], t0, w⟩

/-- C161: **the units of the cosmology** (`_make_us_for_cosmology`), for a Hubble parameter h between 2^-20 and 2^20: Mpc/h, Gyr/h and 10^10 Msun/h within 2, 1 and 3
units of 2^-52; the gravity constant, which does not depend on h exactly, is within 18 units of 2^-52 of the same number for every h (0.0000449850...). -/
theorem C161_cosmology {h : ℚ} (h1 : 2 ^ (-20 : ℤ) ≤ h) (h2 : h ≤ 2 ^ (20 : ℤ)) :
    ∃ u, makeUs (.fin h) = .ok u ∧ Close u.u_length (3085677581491367 * 10 ^ 7 / h) 2 ∧ Close u.u_time (315576 * 10 ^ 11 / h) 1 ∧
      Close u.u_mass (1988409870698051 * 10 ^ 25 / h) 3 ∧ u.u_temperature = .fin 1 ∧ Close u.gravity_constant gCosm 18 ∧ |gCosm - 449850215 / 10 ^ 13| ≤ 1 / 10 ^ 13 := by
  obtain ⟨u, e, bl, bt, bm, uθ, -, bg⟩ := makeUs_core h1 h2
  exact ⟨u, e, bl.close (by norm_num), bt.close (by norm_num), bm.close (by norm_num), uθ, bg.close (by norm_num), by unfold gCosm; norm_num [abs_le]⟩

example : ∃ u, makeUs (.fin (1 / 2)) = .ok u ∧ Close u.gravity_constant gCosm 18 := by
  obtain ⟨u, e, -, -, -, -, h, -⟩ := C161_cosmology (h := 1 / 2) (by norm_num) (by norm_num)
  exact ⟨u, e, h⟩

/-- The exact critical density of today, from the literals of the source and the double nearest to π. -/
def rhoCrit : ℚ := 3 * (1022712165045695 / 10 ^ 16) ^ 2 / (8 * pi64 * gCosm)

theorem crit0_core {h : ℚ} (h1 : 2 ^ (-20 : ℤ) ≤ h) (h2 : h ≤ 2 ^ (20 : ℤ)) :
    ∃ u r, makeUs (.fin h) = .ok u ∧ crit0 u bigHubble0 = .ok r ∧ Box r rhoCrit (-32) 52 25 := by
  obtain ⟨u, e, -, -, -, -, -, bg⟩ := makeUs_core h1 h2
  have bH : Box bigHubble0 (1022712165045695 / 10 ^ 16) (-4) (-3) 1 := box_lit _ _ (by norm_num) (by norm_num) (by norm_num) (by norm_num)
  have n := (box_fin (q := 3) 1 2 (by norm_num) (by norm_num)).mul (bH.mul bH (by norm_num) (by norm_num)) (by norm_num) (by norm_num)
  have bp : Box (.fin pi64) pi64 1 2 0 := box_fin _ _ (by unfold pi64; norm_num) (by unfold pi64; norm_num)
  have d := ((box_fin (q := 8) 3 3 (by norm_num) (by norm_num)).mul bp (by norm_num) (by norm_num)).mul bg (by norm_num) (by norm_num)
  obtain ⟨r, er, br⟩ := n.div d (by norm_num) (by norm_num)
  exact ⟨u, r, e, er, br.cast (by unfold rhoCrit; ring) (by norm_num) (by norm_num) (by norm_num)⟩

/-- C161: **the critical density of today**: 27.753662... in 10^10 Msun/h (Mpc/h)^-3, within 25 units of 2^-52 for every h. -/
theorem C161_crit0 {h : ℚ} (h1 : 2 ^ (-20 : ℤ) ≤ h) (h2 : h ≤ 2 ^ (20 : ℤ)) :
    ∃ u r, makeUs (.fin h) = .ok u ∧ crit0 u bigHubble0 = .ok r ∧ Close r rhoCrit 25 ∧ |rhoCrit - 27753662724 / 10 ^ 9| ≤ 1 / 10 ^ 9 := by
  obtain ⟨u, r, e, er, b⟩ := crit0_core h1 h2
  exact ⟨u, r, e, er, b.close (by norm_num), by unfold rhoCrit gCosm pi64; norm_num [abs_le]⟩

theorem box_43 : Box (Num.mul (Num.div (.fin 4) (.fin 3)) (.fin pi64)) (4 / 3 * pi64) 1 3 2 :=
  (((box_fin (q := 4) 2 2 (by norm_num) (by norm_num)).ndiv (box_fin (q := 3) 1 2 (by norm_num) (by norm_num)) (by norm_num) (by norm_num)).mul
    (box_fin (q := pi64) 1 2 (by unfold pi64; norm_num) (by unfold pi64; norm_num)) (by norm_num) (by norm_num)).cast rfl (by norm_num) (by norm_num) (by norm_num)

/-- C161: **mass in a sphere**: `r_to_m` is 4/3 π r³ ρ_crit Ω_m within 32 units of 2^-52, for 2^-100 ≤ r ≤ 2^100 and a matter fraction between 2^-100 and 2^100;
`m_to_r` hands the volume over 4/3 π, m / (ρ_crit Ω_m) / (4/3 π) within 30 units of 2^-52, to the cube root of the C library. -/
theorem C161_mass {h om r m : ℚ} (h1 : 2 ^ (-20 : ℤ) ≤ h) (h2 : h ≤ 2 ^ (20 : ℤ)) (o1 : 2 ^ (-100 : ℤ) ≤ om) (o2 : om ≤ 2 ^ (100 : ℤ))
    (r1 : 2 ^ (-100 : ℤ) ≤ r) (r2 : r ≤ 2 ^ (100 : ℤ)) (m1 : 2 ^ (-300 : ℤ) ≤ m) (m2 : m ≤ 2 ^ (300 : ℤ)) (pow13 : Num → Num) :
    ∃ u M V, makeUs (.fin h) = .ok u ∧ rToM u bigHubble0 (.fin om) (.fin r) = .ok M ∧ Close M (4 / 3 * pi64 * r ^ 3 * (rhoCrit * om)) 32 ∧
      mToR pow13 u bigHubble0 (.fin om) (.fin m) = .ok (pow13 V) ∧ Close V (m / (rhoCrit * om) / (4 / 3 * pi64)) 30 := by
  obtain ⟨u, c, e, ec, b⟩ := crit0_core h1 h2
  have bo := b.mul (box_fin _ _ o1 o2) (by norm_num) (by norm_num)
  have b3 := (box_fin _ _ r1 r2).cube (by norm_num) (by norm_num) (by norm_num) (by norm_num)
  have bM := (box_43.mul b3 (by norm_num) (by norm_num)).mul bo (by norm_num) (by norm_num)
  obtain ⟨v, ev, bv⟩ := (box_fin _ _ m1 m2).div bo (by norm_num) (by norm_num)
  obtain ⟨w, ew, bw⟩ := bv.div box_43 (by norm_num) (by norm_num)
  refine ⟨u, _, w, e, ?_, bM.close (by norm_num), ?_, bw.close (by norm_num)⟩
  · unfold rToM
    simp only [bind, Except.bind, ec, pure, Except.pure]
  · unfold mToR
    simp only [bind, Except.bind, ec, ev, ew, pure, Except.pure]

example : ∃ u M, makeUs (.fin 1) = .ok u ∧ rToM u bigHubble0 (.fin (1 / 4)) (.fin 8) = .ok M ∧ Close M (4 / 3 * pi64 * 8 ^ 3 * (rhoCrit * (1 / 4))) 32 := by
  obtain ⟨u, M, V, e, eM, h, -⟩ := C161_mass (h := 1) (om := 1 / 4) (r := 8) (m := 8) (by norm_num) (by norm_num) (by norm_num) (by norm_num) (by norm_num) (by norm_num)
    (le_trans (zpow_le_zpow_right₀ (by norm_num) (by norm_num : (-300 : ℤ) ≤ 3)) (by norm_num)) (le_trans (by norm_num : (8 : ℚ) ≤ 2 ^ (3 : ℤ)) (zpow_le_zpow_right₀ (by norm_num) (by norm_num))) id
  exact ⟨u, M, e, eM, h⟩


/-- C161: **there and back.** If the cube of what the C library returns for the cube root of V is within K roundings of V, the mass in the sphere of the radius of a mass m is within
62 + K units of 2^-52 of m (radius between 2^-100 and 2^100). -/
theorem C161_round_trip {h om m : ℚ} (h1 : 2 ^ (-20 : ℤ) ≤ h) (h2 : h ≤ 2 ^ (20 : ℤ)) (o1 : 2 ^ (-100 : ℤ) ≤ om) (o2 : om ≤ 2 ^ (100 : ℤ))
    (m1 : 2 ^ (-300 : ℤ) ≤ m) (m2 : m ≤ 2 ^ (300 : ℤ)) (pow13 : Num → Num) (K : Nat) (hK : K ≤ 2 ^ 50)
    (hp : ∀ V : ℚ, 0 < V → ∃ R : ℚ, pow13 (.fin V) = .fin R ∧ V * (1 - 2 ^ (-53 : ℤ)) ^ K ≤ R ^ 3 ∧ R ^ 3 * (1 - 2 ^ (-53 : ℤ)) ^ K ≤ V) :
    ∃ u R, makeUs (.fin h) = .ok u ∧ mToR pow13 u bigHubble0 (.fin om) (.fin m) = .ok (.fin R) ∧
      (2 ^ (-100 : ℤ) ≤ R → R ≤ 2 ^ (100 : ℤ) → ∃ M, rToM u bigHubble0 (.fin om) (.fin R) = .ok M ∧ Close M m (62 + K)) := by
  obtain ⟨u, c, e, ec, b⟩ := crit0_core h1 h2
  have bo := b.mul (box_fin _ _ o1 o2) (by norm_num) (by norm_num)
  obtain ⟨v, ev, bv⟩ := (box_fin _ _ m1 m2).div bo (by norm_num) (by norm_num)
  obtain ⟨w, ew, bw⟩ := bv.div box_43 (by norm_num) (by norm_num)
  obtain ⟨V, rfl, V1, V2, t0, wV⟩ := bw
  have V0 : 0 < V := lt_of_lt_of_le (pow_pos' _) V1
  obtain ⟨R, eR, q1, q2⟩ := hp V V0
  refine ⟨u, R, e, ?_, fun r1 r2 => ?_⟩
  · unfold mToR
    simp only [bind, Except.bind, ec, ev, ew, pure, Except.pure, eR]
  have b3 := (box_fin _ _ r1 r2).cube (by norm_num) (by norm_num) (by norm_num) (by norm_num)
  have bM := (box_43.mul b3 (by norm_num) (by norm_num)).mul bo (by norm_num) (by norm_num)
  refine ⟨_, by unfold rToM; simp only [bind, Except.bind, ec, pure, Except.pure]; rfl, ?_⟩
  obtain ⟨M, eM, M1, -, s0, wM⟩ := bM
  have M0 : 0 < M := lt_of_lt_of_le (pow_pos' _) M1
  rw [eM]
  have R0 : 0 < R := lt_of_lt_of_le (pow_pos' _) r1
  have R3 : 0 < R ^ 3 := pow_pos R0 3
  have wR : Within (R ^ 3) (m / (rhoCrit * om) / (4 / 3 * pi64)) (K + 30) := Within.trans ⟨q1, q2⟩ wV
  have c0 : 0 < rhoCrit := by unfold rhoCrit gCosm pi64; norm_num
  have om0 : 0 < om := lt_of_lt_of_le (pow_pos' _) o1
  have p0 : 0 < pi64 := by unfold pi64; norm_num
  have f0 : 0 ≤ 4 / 3 * pi64 * (rhoCrit * om) := by positivity
  have wm := w_mul (w_refl (4 / 3 * pi64 * (rhoCrit * om))) wR f0 f0 R3.le t0.le
  rw [show 4 / 3 * pi64 * (rhoCrit * om) * R ^ 3 = 4 / 3 * pi64 * R ^ 3 * (rhoCrit * om) by ring,
    show 4 / 3 * pi64 * (rhoCrit * om) * (m / (rhoCrit * om) / (4 / 3 * pi64)) = m by field_simp] at wm
  have wt := wM.trans wm
  have m0 : 0 < m := lt_of_lt_of_le (pow_pos' _) m1
  refine ⟨M, rfl, M0, ?_⟩
  have := (wt.close m0 (by
    have : (2 : ℕ) ^ 51 = 2 * 2 ^ 50 := by norm_num
    have h : 100 ≤ (2 : ℕ) ^ 50 := by norm_num
    omega)).1
  refine le_trans this (mul_le_mul_of_nonneg_right (mul_le_mul_of_nonneg_right ?_ (pow_pos' _).le) m0.le)
  norm_cast
  omega

/-! ### Division by zero and overflow -/

/-- The computation raises nothing but ZeroDivisionError. -/
def OnlyZero {α : Type} (p : PyM α) : Prop := ∀ e, p = .error e → e = .zeroDivisionError

theorem only_bind {α β : Type} {p : PyM α} {f : α → PyM β} (h : OnlyZero p) (hf : ∀ a, OnlyZero (f a)) : OnlyZero (p >>= f) := by
  intro e he
  cases hp : p with
  | error e' =>
    rw [hp] at he
    have : e' = e := Except.error.inj he
    rw [← this]; exact h e' hp
  | ok a => rw [hp] at he; exact hf a e he

theorem only_div (x y : Num) : OnlyZero (pyDiv x y) := by
  intro e he
  unfold pyDiv at he
  split_ifs at he
  exact (Except.error.inj he).symm

theorem only_pure {α : Type} (a : α) : OnlyZero (pure a : PyM α) := by
  intro e he
  cases he

theorem pyDiv_ok {x y z : Num} (h : pyDiv x y = .ok z) : y ≠ .fin 0 ∧ z = Num.div x y := by
  unfold pyDiv at h
  split_ifs at h with h0
  exact ⟨h0, (Except.ok.inj h).symm⟩

/-- C161: **what the constructor refuses**: ZeroDivisionError if and only if a mass, length or time unit is zero, or the square of the time, the cube of the length, their
ratio (the velocity) or the unit of the gravity constant is rounded to zero; no other exception, whatever the arguments (infinities and NaN pass). -/
theorem C161_zero (l t m θ : Num) :
    (∀ e, Units.new l t m θ = .error e → e = .zeroDivisionError) ∧
    ((∃ u, Units.new l t m θ = .ok u) ↔ l ≠ .fin 0 ∧ t ≠ .fin 0 ∧ m ≠ .fin 0 ∧ Num.mul t t ≠ .fin 0 ∧ Num.mul l (Num.mul l l) ≠ .fin 0 ∧ Num.div l t ≠ .fin 0 ∧
      Num.div (Num.div (Num.mul l (Num.mul l l)) (Num.mul t t)) m ≠ .fin 0) := by
  constructor
  · show OnlyZero (Units.new l t m θ)
    unfold Units.new
    repeat' (first | exact only_pure _ | (apply only_bind (only_div _ _); intro _))
  constructor
  · rintro ⟨u, h⟩
    unfold Units.new at h
    have step : ∀ {α β : Type} {p : PyM α} {f : α → PyM β} {b : β}, (p >>= f) = .ok b → ∃ a, p = .ok a ∧ f a = .ok b := by
      intro α β p f b h
      cases p with
      | error e => cases h
      | ok a => exact ⟨a, rfl, h⟩
    obtain ⟨g1, e1, h⟩ := step h
    obtain ⟨ug, e2, h⟩ := step h
    obtain ⟨ur, e3, h⟩ := step h
    obtain ⟨uh, e4, h⟩ := step h
    obtain ⟨uv, e5, h⟩ := step h
    obtain ⟨uk, e6, h⟩ := step h
    obtain ⟨mp, e7, h⟩ := step h
    obtain ⟨ms, e8, h⟩ := step h
    obtain ⟨pc, e9, h⟩ := step h
    obtain ⟨yr, e10, h⟩ := step h
    obtain ⟨sa, e11, h⟩ := step h
    obtain ⟨c, e12, h⟩ := step h
    obtain ⟨g, e13, h⟩ := step h
    obtain ⟨a1, rfl⟩ := pyDiv_ok e1
    obtain ⟨a2, rfl⟩ := pyDiv_ok e2
    obtain ⟨a5, rfl⟩ := pyDiv_ok e5
    exact ⟨(pyDiv_ok e9).1, (pyDiv_ok e4).1, a2, a1, (pyDiv_ok e3).1, (pyDiv_ok e12).1, (pyDiv_ok e13).1⟩
  · rintro ⟨hl, ht, hm, ht2, hl3, hv, hg⟩
    have d : ∀ {x y : Num}, y ≠ .fin 0 → pyDiv x y = .ok (Num.div x y) := fun h => if_neg h
    have hk : Num.fin 1000 ≠ .fin 0 := by decide +kernel
    have hc : cube l = Num.mul l (Num.mul l l) := rfl
    unfold Units.new
    simp only [hc, d ht2, d hm, d hl3, d ht, d hl, d hv, d hg, d hk, bind, Except.bind, pure, Except.pure]
    exact ⟨_, rfl⟩

theorem rnd_tiny {x : ℚ} (h : |x| ≤ 2 ^ (-1076 : ℤ)) : rnd x = 0 := by
  have e : rnd (2 ^ (-1076 : ℤ)) = 0 := by decide +kernel
  have := rnd_mono h
  rw [e, ← rnd_abs] at this
  exact abs_nonpos_iff.mp this

theorem ofQ_tiny {x : ℚ} (h : |x| ≤ 2 ^ (-1076 : ℤ)) : ofQ x = .fin 0 := by
  rw [ofQ_fin (by rw [rnd_tiny h]; norm_num), rnd_tiny h]

/-- C161: in particular a time unit below 2^-538 s or a length unit below 2^-360 m is refused, although it is not zero. -/
theorem C161_tiny (q : ℚ) (x m θ : Num) :
    (|q| ≤ 2 ^ (-538 : ℤ) → Units.new x (.fin q) m θ = .error .zeroDivisionError) ∧ (|q| ≤ 2 ^ (-360 : ℤ) → Units.new (.fin q) x m θ = .error .zeroDivisionError) := by
  have raise : ∀ l t : Num, (Num.mul t t = .fin 0 ∨ Num.mul l (Num.mul l l) = .fin 0) → Units.new l t m θ = .error .zeroDivisionError := by
    intro l t h
    obtain ⟨h1, h2⟩ := C161_zero l t m θ
    cases hc : Units.new l t m θ with
    | error e => rw [h1 e hc]
    | ok u =>
      have := h2.mp ⟨u, hc⟩
      rcases h with h | h
      · exact absurd h this.2.2.2.1
      · exact absurd h this.2.2.2.2.1
  constructor
  · intro h
    refine raise _ _ (.inl (ofQ_tiny ?_))
    rw [abs_mul, show (2 : ℚ) ^ (-1076 : ℤ) = 2 ^ (-538 : ℤ) * 2 ^ (-538 : ℤ) by rw [← zpow_add₀ (by norm_num)]; norm_num]
    exact mul_le_mul h h (abs_nonneg _) (pow_pos' _).le
  · intro h
    refine raise _ _ (.inr ?_)
    have hq : |q * q| ≤ 2 ^ (-720 : ℤ) := by
      rw [abs_mul, show (2 : ℚ) ^ (-720 : ℤ) = 2 ^ (-360 : ℤ) * 2 ^ (-360 : ℤ) by rw [← zpow_add₀ (by norm_num)]; norm_num]
      exact mul_le_mul h h (abs_nonneg _) (pow_pos' _).le
    have p1 : (2 : ℚ) ^ (-720 : ℤ) < 2 ^ (1024 : ℕ) := by
      rw [← zpow_natCast]; exact zpow_lt_zpow_right₀ (by norm_num) (by norm_num)
    have f : IsF ((2 : ℚ) ^ (-720 : ℤ)) := isF_pow (by norm_num)
    have e : Num.mul (.fin q) (.fin q) = .fin (rnd (q * q)) := ofQ_fin_le hq f p1
    rw [e]
    refine ofQ_tiny ?_
    have hr : |rnd (q * q)| ≤ 2 ^ (-720 : ℤ) := by rw [rnd_abs]; exact rnd_le hq f
    rw [abs_mul]
    refine le_trans (mul_le_mul h hr (abs_nonneg _) (pow_pos' _).le) ?_
    rw [← zpow_add₀ (by norm_num)]
    exact zpow_le_zpow_right₀ (by norm_num) (by norm_num)

/-- 1e-170 s, or 1e-110 m. -/
example : Units.new (.fin 1) (.fin (2 ^ (-565 : ℤ))) (.fin 1) (.fin 1) = .error .zeroDivisionError :=
  (C161_tiny (2 ^ (-565 : ℤ)) (.fin 1) (.fin 1) (.fin 1)).1 (by rw [abs_of_pos (pow_pos' _)]; exact zpow_le_zpow_right₀ (by norm_num) (by norm_num))

/-- C161, recorded: a length unit of 2^342 m or more overflows silently: the unit of the gravity constant is infinite, the density unit and the gravity constant are 0,
and the critical density (which divides by the gravity constant) raises ZeroDivisionError. -/
theorem C161_overflow {L T M : ℚ} (l1 : 2 ^ (342 : ℤ) ≤ L) (l2 : L ≤ 2 ^ (700 : ℤ)) (t1 : 2 ^ (-160 : ℤ) ≤ T) (t2 : T ≤ 2 ^ (160 : ℤ)) (m1 : 2 ^ (-160 : ℤ) ≤ M)
    (m2 : M ≤ 2 ^ (160 : ℤ)) (θ h0 : Num) :
    ∃ u, Units.new (.fin L) (.fin T) (.fin M) θ = .ok u ∧ u.u_gravity_constant = .inf false ∧ u.u_density = .fin 0 ∧ u.gravity_constant = .fin 0 ∧
      crit0 u h0 = .error .zeroDivisionError := by
  have L0 : 0 < L := lt_of_lt_of_le (pow_pos' _) l1
  have M0 : 0 < M := lt_of_lt_of_le (pow_pos' _) m1
  have T0 : 0 < T := lt_of_lt_of_le (pow_pos' _) t1
  have big : ∀ x : ℚ, (2 : ℚ) ^ (1024 : ℤ) ≤ x → ofQ x = .inf false := by
    intro x hx
    have x0 : 0 < x := lt_of_lt_of_le (pow_pos' _) hx
    have : (2 : ℚ) ^ (1024 : ℕ) ≤ rnd x := by
      have := le_rnd hx (isF_pow (by norm_num))
      rwa [← zpow_natCast]
    unfold ofQ
    rw [if_pos (le_trans this (le_abs_self _))]
    have hn : ¬ x < 0 := not_lt.mpr x0.le
    simp [hn]
  have c : cube (.fin L) = .inf false := by
    have sq : (2 : ℚ) ^ (684 : ℤ) ≤ L * L := by
      rw [show (2 : ℚ) ^ (684 : ℤ) = 2 ^ (342 : ℤ) * 2 ^ (342 : ℤ) by rw [← zpow_add₀ (by norm_num)]; norm_num]
      exact mul_le_mul l1 l1 (pow_pos' _).le L0.le
    show Num.mul (.fin L) (ofQ (L * L)) = _
    unfold ofQ
    split_ifs with hb
    · have hn : ¬ L * L < 0 := not_lt.mpr (mul_pos L0 L0).le
      simp only [hn, decide_false, Num.mul, if_neg L0.ne', not_lt.mpr L0.le, decide_false]
      rfl
    · refine big _ ?_
      have r := le_rnd sq (isF_pow (by norm_num))
      refine le_trans ?_ (mul_le_mul l1 r (pow_pos' _).le L0.le)
      rw [← zpow_add₀ (by norm_num)]
      exact zpow_le_zpow_right₀ (by norm_num) (by norm_num)
  obtain ⟨v, ev, v1, v2, -, -⟩ := (box_fin _ _ t1 t2).mul (box_fin _ _ t1 t2) (by norm_num) (by norm_num)
  have v0 : 0 < v := lt_of_lt_of_le (pow_pos' _) v1
  obtain ⟨w, ew, w1, -, -, -⟩ := (box_fin _ _ l1 l2).ndiv (box_fin _ _ t1 t2) (by norm_num) (by norm_num)
  have w0 : 0 < w := lt_of_lt_of_le (pow_pos' _) w1
  have d1 : Num.div (.inf false) (Num.mul (.fin T) (.fin T)) = .inf false := by
    rw [ev]; simp [Num.div, not_lt.mpr v0.le]
  have d2 : Num.div (.inf false) (.fin M) = .inf false := by simp [Num.div, not_lt.mpr M0.le]
  have c' : Num.mul (.fin L) (Num.mul (.fin L) (.fin L)) = .inf false := c
  obtain ⟨u, hu⟩ := (C161_zero (.fin L) (.fin T) (.fin M) θ).2.mpr ⟨fun h => L0.ne' (Num.fin.inj h), fun h => T0.ne' (Num.fin.inj h), fun h => M0.ne' (Num.fin.inj h),
    by rw [ev]; exact fun h => v0.ne' (Num.fin.inj h), by rw [c']; exact (fun h => by cases h), by rw [ew]; exact fun h => w0.ne' (Num.fin.inj h),
    by rw [c', d1, d2]; exact (fun h => by cases h)⟩
  refine ⟨u, hu, ?_⟩
  have d : ∀ {x y : Num}, y ≠ .fin 0 → pyDiv x y = .ok (Num.div x y) := fun h => if_neg h
  have hT2 : Num.mul (.fin T) (.fin T) ≠ .fin 0 := by rw [ev]; exact fun h => v0.ne' (Num.fin.inj h)
  have hM : Num.fin M ≠ .fin 0 := fun h => M0.ne' (Num.fin.inj h)
  have hL : Num.fin L ≠ .fin 0 := fun h => L0.ne' (Num.fin.inj h)
  have hT : Num.fin T ≠ .fin 0 := fun h => T0.ne' (Num.fin.inj h)
  have hw : Num.fin w ≠ .fin 0 := fun h => w0.ne' (Num.fin.inj h)
  have hi : Num.inf false ≠ .fin 0 := fun h => by cases h
  have hk : Num.fin 1000 ≠ .fin 0 := by decide +kernel
  have gi : Num.div constants.gravity_constant (.inf false) = .fin 0 := by
    obtain ⟨v, e, -⟩ := box_G
    rw [e]; rfl
  have mi : Num.div (.fin M) (.inf false) = .fin 0 := rfl
  unfold Units.new at hu
  simp only [c, d hT2, d1, d hM, d2, d hi, d hT, d hL, d hk, ew, d hw, gi, mi, bind, Except.bind, pure, Except.pure] at hu
  have hu := Except.ok.inj hu
  subst hu
  refine ⟨rfl, rfl, rfl, ?_⟩
  have z : Num.mul (Num.mul (.fin 8) (.fin pi64)) (.fin 0) = .fin 0 := by decide +kernel
  unfold crit0
  rw [z]
  exact if_pos rfl

example : ∃ u, Units.new (.fin (2 ^ (400 : ℤ))) (.fin 1) (.fin 1) (.fin 1) = .ok u ∧ u.gravity_constant = .fin 0 := by
  obtain ⟨u, e, -, -, h, -⟩ := C161_overflow (L := 2 ^ (400 : ℤ)) (T := 1) (M := 1) (zpow_le_zpow_right₀ (by norm_num) (by norm_num)) (zpow_le_zpow_right₀ (by norm_num) (by norm_num))
    (by norm_num) (by norm_num) (by norm_num) (by norm_num) (.fin 1) (.fin 1)
  exact ⟨u, e, h⟩


/-- C161: the π of the formulas is within 2^-52 of π. -/
theorem C161_pi : |(pi64 : ℝ) - Real.pi| ≤ 2 ^ (-52 : ℤ) := by
  have h1 := Real.pi_gt_d20
  have h2 := Real.pi_lt_d20
  unfold pi64
  push_cast
  rw [abs_le]
  norm_num
  constructor <;> linarith

end Pyhipp.FloatUnits
