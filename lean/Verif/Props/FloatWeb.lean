import Verif.Model.FloatWeb
import Verif.Props.FloatMesh
import Verif.Props.FloatInterp
/-
C127: the cosmic-web classification with its float32 eigenvalues.
-/
namespace Pyhipp.FloatWeb
open Pyhipp F64 FloatMesh

/-! ### Conversion to single precision -/

theorem le_nan {x y : Num} (h : Num.le x y = true) : x ≠ .nan ∧ y ≠ .nan := by
  cases x <;> cases y <;> simp_all [Num.le]

theorem cast_nan_iff (x : Num) : F32.cast x = .nan ↔ x = .nan := by
  cases x with
  | nan => simp [F32.cast]
  | inf s => simp [F32.cast]
  | fin q => simp only [F32.cast]; split_ifs <;> simp

/-- Conversion keeps the order. -/
theorem cast_mono {x y : Num} (h : Num.le x y = true) : Num.le (F32.cast x) (F32.cast y) = true := by
  have P : ∀ q : ℚ, 2 ^ 128 ≤ |F32.rnd q| → (q < 0 → F32.rnd q ≤ -2 ^ 128) ∧ (¬ q < 0 → 2 ^ 128 ≤ F32.rnd q) := by
    intro q hq
    constructor
    · intro h0
      have := F32.rnd_nonneg (x := -q) (by linarith)
      rw [F32.rnd_neg] at this
      rw [abs_of_nonpos (by linarith)] at hq
      linarith
    · intro h0
      rwa [abs_of_nonneg (F32.rnd_nonneg (by linarith))] at hq
  have N : (0 : ℚ) < 2 ^ 128 := by norm_num
  cases x with
  | nan => simp [Num.le] at h
  | inf a =>
    cases y with
    | nan => simp [Num.le] at h
    | inf b => exact h
    | fin q =>
      simp only [Num.le] at h
      subst h
      simp only [F32.cast]
      split_ifs <;> simp [Num.le]
  | fin p =>
    cases y with
    | nan => simp [Num.le] at h
    | inf b =>
      simp only [Num.le, Bool.not_eq_true'] at h
      subst h
      simp only [F32.cast]
      split_ifs <;> simp [Num.le]
    | fin q =>
      simp only [Num.le, decide_eq_true_eq] at h
      have hm := F32.rnd_mono h
      simp only [F32.cast]
      generalize hB : (2 : ℚ) ^ 128 = B at *
      split_ifs with h1 h2 h2
      · simp only [Num.le, Bool.or_eq_true, decide_eq_true_eq, Bool.not_eq_true', decide_eq_false_iff_not, not_lt]
        by_contra hc
        push Not at hc
        linarith [hc.1, hc.2]
      · simp only [Num.le, decide_eq_true_eq]
        by_contra hc
        have := (P p h1).2 hc
        have := (abs_lt.mp (not_le.mp h2)).2
        linarith
      · simp only [Num.le, Bool.not_eq_true', decide_eq_false_iff_not]
        intro hc
        have := (P q h2).1 hc
        have := (abs_lt.mp (not_le.mp h1)).1
        linarith
      · simp only [Num.le, decide_eq_true_eq]
        exact hm

theorem lt_iff {x y : Num} (hx : x ≠ .nan) (hy : y ≠ .nan) : Num.lt x y = true ↔ ¬ Num.le y x = true := by
  cases x with
  | nan => exact absurd rfl hx
  | inf a => cases y with
    | nan => exact absurd rfl hy
    | inf b => cases a <;> cases b <;> simp [Num.le, Num.lt]
    | fin q => cases a <;> simp [Num.le, Num.lt]
  | fin p => cases y with
    | nan => exact absurd rfl hy
    | inf b => cases b <;> simp [Num.le, Num.lt]
    | fin q => simp [Num.le, Num.lt]

/-! ### Construction -/

theorem at4_cast (a : Arr) (n : Nat) (p : Node3) (c : Nat) : (a.toF32).at4 n p c = F32.cast (a.at4 n p c) := by
  unfold Arr.at4 Arr.toF32
  rw [List.getD_eq_getElem?_getD, List.getD_eq_getElem?_getD, List.getElem?_map]
  cases a.elems[(((p.1.toNat * n) + p.2.1.toNat) * n + p.2.2.toNat) * 3 + c]? <;> rfl

theorem mem_nodes (n : Nat) (c : Node3) :
    c ∈ nodes n ↔ (0 ≤ c.1 ∧ c.1 < n) ∧ (0 ≤ c.2.1 ∧ c.2.1 < n) ∧ (0 ≤ c.2.2 ∧ c.2.2 < n) := by
  obtain ⟨a, b, d⟩ := c
  simp only [nodes, List.mem_flatMap, List.mem_range, List.mem_map, Prod.mk.injEq]
  constructor
  · rintro ⟨i, hi, j, hj, k, hk, rfl, rfl, rfl⟩
    exact ⟨⟨by omega, by omega⟩, ⟨by omega, by omega⟩, by omega, by omega⟩
  · rintro ⟨⟨h1, h2⟩, ⟨h3, h4⟩, h5, h6⟩
    exact ⟨a.toNat, by omega, b.toNat, by omega, d.toNat, by omega, by omega, by omega, by omega⟩

theorem nodes_length (n : Nat) : (nodes n).length = n ^ 3 := by
  simp [nodes, List.length_flatMap]
  ring

/-- `p` is a node of an n³ mesh. -/
def IsNode (n : Nat) (p : Node3) : Prop := (0 ≤ p.1 ∧ p.1 < n) ∧ (0 ≤ p.2.1 ∧ p.2.1 < n) ∧ (0 ≤ p.2.2 ∧ p.2.2 < n)

/-- C127: construction succeeds exactly when the array has the shape of the mesh and the eigenvalues of every node, rounded to single precision, are sorted
(so none is NaN); otherwise AssertionError.  The object holds the rounded eigenvalues, and the count of those above the threshold. -/
theorem C127_init (lam : Arr) (mesh : Mesh) (th : Th) :
    ((∃ c, init lam mesh th = .ok c) ↔ lam.shape = [mesh.n, mesh.n, mesh.n, 3] ∧ ∀ p, IsNode mesh.n p →
      Num.le (F32.cast (lam.at4 mesh.n p 0)) (F32.cast (lam.at4 mesh.n p 1)) = true ∧
      Num.le (F32.cast (lam.at4 mesh.n p 1)) (F32.cast (lam.at4 mesh.n p 2)) = true) ∧
    ((∃ c, init lam mesh th = .ok c) ∨ init lam mesh th = .error .assertionError) ∧
    ∀ c, init lam mesh th = .ok c → c.mesh = mesh ∧ ∀ p,
      c.lam p = (F32.cast (lam.at4 mesh.n p 0), F32.cast (lam.at4 mesh.n p 1), F32.cast (lam.at4 mesh.n p 2)) ∧
      c.nLams p = countAbove (c.lam p) th.value := by
  have hp : ∀ a b : Nat, ((nodes mesh.n).all (fun p => Num.le (lam.toF32.at4 mesh.n p a) (lam.toF32.at4 mesh.n p b)) = true ↔
      ∀ p, IsNode mesh.n p → Num.le (F32.cast (lam.at4 mesh.n p a)) (F32.cast (lam.at4 mesh.n p b)) = true) := by
    intro a b
    rw [List.all_eq_true]
    constructor
    · intro h p hp
      have := h p ((mem_nodes _ _).mpr hp)
      rwa [at4_cast, at4_cast] at this
    · intro h p hp
      rw [at4_cast, at4_cast]
      exact h p ((mem_nodes _ _).mp hp)
  have h1 := hp 0 1
  have h2 := hp 1 2
  have hs : lam.toF32.shape = lam.shape := rfl
  unfold init
  simp only [hs]
  by_cases c0 : lam.shape = [mesh.n, mesh.n, mesh.n, 3]
  · by_cases c1 : (nodes mesh.n).all (fun p => Num.le (lam.toF32.at4 mesh.n p 0) (lam.toF32.at4 mesh.n p 1)) = true
    · by_cases c2 : (nodes mesh.n).all (fun p => Num.le (lam.toF32.at4 mesh.n p 1) (lam.toF32.at4 mesh.n p 2)) = true
      · simp only [pyAssert, c0, beq_self_eq_true, if_true, c1, c2, bind, Except.bind, pure, Except.pure]
        refine ⟨⟨fun _ => ⟨trivial, fun p hp => ⟨h1.mp c1 p hp, h2.mp c2 p hp⟩⟩, fun _ => ⟨_, rfl⟩⟩, Or.inl ⟨_, rfl⟩, ?_⟩
        intro c hc
        simp only [Except.ok.injEq] at hc
        subst hc
        refine ⟨rfl, fun p => ⟨?_, rfl⟩⟩
        simp only [Arr.lamAt, at4_cast]
      · have : ¬ ∀ p, IsNode mesh.n p → Num.le (F32.cast (lam.at4 mesh.n p 1)) (F32.cast (lam.at4 mesh.n p 2)) = true := fun h => c2 (h2.mpr h)
        simp only [pyAssert, c0, beq_self_eq_true, if_true, c1, c2, bind, Except.bind, pure, Except.pure]
        refine ⟨⟨fun h => ?_, fun h => absurd (fun p hp => (h.2 p hp).2) this⟩, Or.inr (by simp), fun c hc => ?_⟩
        · simp at h
        · simp at hc
    · have : ¬ ∀ p, IsNode mesh.n p → Num.le (F32.cast (lam.at4 mesh.n p 0)) (F32.cast (lam.at4 mesh.n p 1)) = true := fun h => c1 (h1.mpr h)
      simp only [pyAssert, c0, beq_self_eq_true, if_true, c1, bind, Except.bind, pure, Except.pure]
      refine ⟨⟨fun h => ?_, fun h => absurd (fun p hp => (h.2 p hp).1) this⟩, Or.inr (by simp), fun c hc => ?_⟩
      · simp at h
      · simp at hc
  · have e : (lam.shape == [mesh.n, mesh.n, mesh.n, 3]) = false := by simpa using c0
    simp only [pyAssert, e, bind, Except.bind]
    refine ⟨⟨fun h => ?_, fun h => absurd h.1 c0⟩, Or.inr (by simp), fun c hc => ?_⟩
    · simp at h
    · simp at hc

/-- C127: rounding never makes a sorted table unacceptable: eigenvalues that are sorted as doubles are accepted, whatever their magnitudes. -/
theorem C127_accepts (lam : Arr) (mesh : Mesh) (th : Th) (hs : lam.shape = [mesh.n, mesh.n, mesh.n, 3])
    (h : ∀ p, IsNode mesh.n p → Num.le (lam.at4 mesh.n p 0) (lam.at4 mesh.n p 1) = true ∧ Num.le (lam.at4 mesh.n p 1) (lam.at4 mesh.n p 2) = true) :
    ∃ c, init lam mesh th = .ok c :=
  (C127_init lam mesh th).1.mpr ⟨hs, fun p hp => ⟨cast_mono (h p hp).1, cast_mono (h p hp).2⟩⟩

/-- C127: a NaN eigenvalue anywhere is refused. -/
theorem C127_nan (lam : Arr) (mesh : Mesh) (th : Th) (p : Node3) (hp : IsNode mesh.n p) (c : Nat) (hc : c < 3) (hn : lam.at4 mesh.n p c = .nan) :
    init lam mesh th = .error .assertionError := by
  rcases (C127_init lam mesh th).2.1 with h | h
  · have := ((C127_init lam mesh th).1.mp h).2 p hp
    have a := le_nan this.1
    have b := le_nan this.2
    simp only [ne_eq, cast_nan_iff] at a b
    have : c = 0 ∨ c = 1 ∨ c = 2 := by omega
    rcases this with rfl | rfl | rfl
    · exact absurd hn a.1
    · exact absurd hn a.2
    · exact absurd hn b.2
  · exact h

/-- C127: the largest eigenvalues count: an eigenvalue is above the threshold exactly when its place (0, 1, 2 in ascending order) is at least 3 minus the
type.  So a knot has all three, a filament exactly the two largest, a sheet only the largest, a void none above the threshold. -/
theorem C127_largest (lam : Arr) (mesh : Mesh) (th : Th) (c : Classifier) (hc : init lam mesh th = .ok c) (p : Node3) (hp : IsNode mesh.n p) :
    c.nLams p ≤ 3 ∧ (Num.lt th.value (c.lam p).1 = true ↔ 3 - c.nLams p ≤ 0) ∧ (Num.lt th.value (c.lam p).2.1 = true ↔ 3 - c.nLams p ≤ 1) ∧
      (Num.lt th.value (c.lam p).2.2 = true ↔ 3 - c.nLams p ≤ 2) := by
  obtain ⟨h1, -, h2⟩ := C127_init lam mesh th
  have hsrt := (h1.mp ⟨c, hc⟩).2 p hp
  obtain ⟨e1, e2⟩ := (h2 c hc).2 p
  rw [e2, e1]
  unfold countAbove
  simp only
  have T : ∀ {t x y : Num}, Num.le x y = true → Num.lt t x = true → Num.lt t y = true := by
    intro t x y h h'
    cases t with
    | nan => simp [Num.lt] at h'
    | inf a => cases x with
      | nan => simp [Num.lt] at h'
      | inf b => cases y with
        | nan => simp [Num.le] at h
        | inf d => cases a <;> cases b <;> cases d <;> simp_all [Num.lt, Num.le]
        | fin q => cases a <;> cases b <;> simp_all [Num.lt, Num.le]
      | fin q => cases y with
        | nan => simp [Num.le] at h
        | inf d => cases a <;> cases d <;> simp_all [Num.lt, Num.le]
        | fin q => cases a <;> simp_all [Num.lt]
    | fin s => cases x with
      | nan => simp [Num.lt] at h'
      | inf b => cases y with
        | nan => simp [Num.le] at h
        | inf d => cases b <;> cases d <;> simp_all [Num.lt, Num.le]
        | fin q => cases b <;> simp_all [Num.lt, Num.le]
      | fin q => cases y with
        | nan => simp [Num.le] at h
        | inf d => cases d <;> simp_all [Num.lt, Num.le]
        | fin r =>
          simp only [Num.lt, Num.le, decide_eq_true_eq] at *
          linarith
  have t1 := T (t := th.value) hsrt.1
  have t2 := T (t := th.value) hsrt.2
  cases a1 : Num.lt th.value (F32.cast (lam.at4 mesh.n p 0)) <;> cases a2 : Num.lt th.value (F32.cast (lam.at4 mesh.n p 1)) <;>
    cases a3 : Num.lt th.value (F32.cast (lam.at4 mesh.n p 2)) <;> simp_all

/-! ### The threshold -/

/-- Specification: how many of three eigenvalues satisfy `P`. -/
def howMany (P : Num → Prop) [DecidablePred P] (a b c : Num) : Nat := (if P a then 1 else 0) + (if P b then 1 else 0) + (if P c then 1 else 0)

theorem cast_le_top {t : ℚ} (ht : |t| ≤ 2 ^ 127) : F32.cast (.fin t) = .fin (F32.rnd t) := by
  have h127 : F32.IsF ((2 : ℚ) ^ 127) := by
    have := F32.isF_pow (e := 127) (by norm_num)
    exact_mod_cast this
  have : |F32.rnd t| ≤ 2 ^ 127 := by rw [F32.rnd_abs]; exact F32.rnd_le ht h127
  have h : ¬ 2 ^ 128 ≤ |F32.rnd t| := by
    rw [not_le]
    exact lt_of_le_of_lt this (by norm_num)
  simp only [F32.cast, if_neg h]

/-- An eigenvalue at most the threshold is never counted. -/
theorem not_counted {t : ℚ} {x : Num} (h : Num.le x (.fin t) = true) : Num.lt (F32.cast (.fin t)) (F32.cast x) = false := by
  have h1 := cast_mono h
  have h2 := le_nan h1
  rw [← Bool.not_eq_true, lt_iff h2.2 h2.1, not_not]
  exact h1

/-- An eigenvalue above the threshold by more than the rounding is counted. -/
theorem counted {t q : ℚ} (ht : |t| ≤ 2 ^ 127) (h : t + 2 ^ (-24 : ℤ) * (|t| + |q|) + 2 ^ (-149 : ℤ) < q) :
    Num.lt (F32.cast (.fin t)) (F32.cast (.fin q)) = true := by
  rw [cast_le_top ht]
  have a := (abs_le.mp (F32.rnd_err_all t)).2
  have b := (abs_le.mp (F32.rnd_err_all q)).1
  have e : (2 : ℚ) ^ (-149 : ℤ) = 2 * 2 ^ (-150 : ℤ) := by norm_num
  rw [e] at h
  generalize (2 : ℚ) ^ (-150 : ℤ) = z at *
  have hlt : F32.rnd t < F32.rnd q := by linarith
  simp only [F32.cast]
  split_ifs with h1
  · simp only [Num.lt, Bool.not_eq_true', decide_eq_false_iff_not]
    intro hq
    have h0 := F32.rnd_nonneg (x := -q) (by linarith)
    rw [F32.rnd_neg] at h0
    rw [abs_of_nonpos (by linarith)] at h1
    have h3 : |F32.rnd t| ≤ 2 ^ 127 := by
      rw [F32.rnd_abs]
      refine F32.rnd_le ht ?_
      have := F32.isF_pow (e := 127) (by norm_num)
      exact_mod_cast this
    have := (abs_le.mp h3).1
    have h4 : (2 : ℚ) ^ 127 < 2 ^ 128 := by norm_num
    linarith
  · simp only [Num.lt, decide_eq_true_eq]
    exact hlt

/-- Specification: above `t`. -/
def Above (t : ℚ) : Num → Prop
  | .nan => False
  | .inf neg => neg = false
  | .fin q => t < q

/-- Specification: above `t` by more than the single-precision rounding of the two numbers. -/
def ClearlyAbove (t : ℚ) : Num → Prop
  | .nan => False
  | .inf neg => neg = false
  | .fin q => t + 2 ^ (-24 : ℤ) * (|t| + |q|) + 2 ^ (-149 : ℤ) < q

instance (t : ℚ) : DecidablePred (Above t) := fun x => match x with
  | .nan => inferInstanceAs (Decidable False)
  | .inf neg => inferInstanceAs (Decidable (neg = false))
  | .fin q => inferInstanceAs (Decidable (t < q))

instance (t : ℚ) : DecidablePred (ClearlyAbove t) := fun x => match x with
  | .nan => inferInstanceAs (Decidable False)
  | .inf neg => inferInstanceAs (Decidable (neg = false))
  | .fin q => inferInstanceAs (Decidable (t + 2 ^ (-24 : ℤ) * (|t| + |q|) + 2 ^ (-149 : ℤ) < q))

/-- C127: with a Python float as the threshold, an eigenvalue at most the threshold is never counted, and one that exceeds it by more than the
single-precision rounding of the two numbers (2^-24 of them) always is. -/
theorem C127_threshold (lam : Arr) (mesh : Mesh) (t : ℚ) (ht : |t| ≤ 2 ^ 127) (c : Classifier) (hc : init lam mesh (.pyFloat (.fin t)) = .ok c)
    (p : Node3) :
    howMany (ClearlyAbove t) (lam.at4 mesh.n p 0) (lam.at4 mesh.n p 1) (lam.at4 mesh.n p 2) ≤ c.nLams p ∧
    c.nLams p ≤ howMany (Above t) (lam.at4 mesh.n p 0) (lam.at4 mesh.n p 1) (lam.at4 mesh.n p 2) := by
  obtain ⟨e1, e2⟩ := ((C127_init lam mesh _).2.2 c hc).2 p
  rw [e2, e1]
  have key : ∀ x : Num, (if ClearlyAbove t x then 1 else 0) ≤ (Num.lt (F32.cast (.fin t)) (F32.cast x)).toNat ∧
      (Num.lt (F32.cast (.fin t)) (F32.cast x)).toNat ≤ if Above t x then 1 else 0 := by
    intro x
    constructor
    · by_cases h : ClearlyAbove t x
      · have : Num.lt (F32.cast (.fin t)) (F32.cast x) = true := by
          cases x with
          | nan => exact absurd h id
          | inf b =>
            have hb : b = false := h
            subst hb
            rw [cast_le_top ht]
            rfl
          | fin q => exact counted ht h
        rw [this, if_pos h]
        decide
      · rw [if_neg h]
        exact Nat.zero_le _
    · by_cases h : Above t x
      · rw [if_pos h]
        exact Bool.toNat_le _
      · have : Num.lt (F32.cast (.fin t)) (F32.cast x) = false := by
          cases x with
          | nan => rw [cast_le_top ht]; rfl
          | inf b =>
            have hb : b = true := by
              cases b
              · exact absurd rfl h
              · rfl
            subst hb
            rw [cast_le_top ht]
            rfl
          | fin q => exact not_counted (by simpa [Num.le] using not_lt.mp h)
        rw [this, if_neg h]
        decide
  have k0 := key (lam.at4 mesh.n p 0)
  have k1 := key (lam.at4 mesh.n p 1)
  have k2 := key (lam.at4 mesh.n p 2)
  unfold countAbove howMany Th.value
  simp only
  omega

/-- Specification: positive as far as single precision can tell — larger than half the smallest positive single. -/
def Positive : Num → Prop
  | .nan => False
  | .inf neg => neg = false
  | .fin q => (2 : ℚ) ^ (-150 : ℤ) < q

instance : DecidablePred Positive := fun x => match x with
  | .nan => inferInstanceAs (Decidable False)
  | .inf neg => inferInstanceAs (Decidable (neg = false))
  | .fin q => inferInstanceAs (Decidable ((2 : ℚ) ^ (-150 : ℤ) < q))

theorem rnd_tiny : F32.rnd ((2 : ℚ) ^ (-150 : ℤ)) = 0 := by decide +kernel

theorem rnd_pos_iff (q : ℚ) : 0 < F32.rnd q ↔ (2 : ℚ) ^ (-150 : ℤ) < q := by
  constructor
  · intro h
    by_contra hc
    have := F32.rnd_mono (not_lt.mp hc)
    rw [rnd_tiny] at this
    linarith
  · intro h
    have hq : 0 < q := lt_trans (pow_pos' _) h
    by_contra hc
    have h0 : F32.rnd q = 0 := le_antisymm (not_lt.mp hc) (F32.rnd_nonneg hq.le)
    have hb : F32.expo q = -149 := by
      by_contra he
      have hgt : -149 < F32.expo q := lt_of_le_of_ne (F32.expo_ge q) (Ne.symm he)
      have := F32.pow_le_rnd hq hgt
      rw [h0] at this
      exact absurd this (not_le.mpr (pow_pos' _))
    have he := F32.rnd_err_ulp q
    rw [h0, hb, zero_sub, abs_neg, abs_of_pos hq] at he
    have e : (2 : ℚ) ^ (-149 : ℤ) / 2 = 2 ^ (-150 : ℤ) := by norm_num
    rw [e] at he
    linarith

/-- C127: with the default threshold 0.0 the type is exactly the number of eigenvalues that are larger than 2^-150 (half the smallest positive single). -/
theorem C127_default (lam : Arr) (mesh : Mesh) (c : Classifier) (hc : init lam mesh (.pyFloat (.fin 0)) = .ok c) (p : Node3) :
    c.nLams p = howMany Positive (lam.at4 mesh.n p 0) (lam.at4 mesh.n p 1) (lam.at4 mesh.n p 2) := by
  obtain ⟨e1, e2⟩ := ((C127_init lam mesh _).2.2 c hc).2 p
  rw [e2, e1]
  have h0 : Th.value (.pyFloat (.fin 0)) = .fin 0 := by
    show F32.cast (.fin 0) = _
    rw [cast_le_top (by norm_num), F32.rnd_zero]
  rw [h0]
  have key : ∀ x : Num, (Num.lt (.fin 0) (F32.cast x)).toNat = if Positive x then 1 else 0 := by
    intro x
    cases x with
    | nan => simp [F32.cast, Num.lt, Positive]
    | inf b => cases b <;> simp [F32.cast, Num.lt, Positive]
    | fin q =>
      by_cases hb : 2 ^ 128 ≤ |F32.rnd q|
      · simp only [F32.cast, if_pos hb, Num.lt, Positive, ← rnd_pos_iff]
        by_cases hq : q < 0
        · have h1 := F32.rnd_nonneg (x := -q) (by linarith)
          rw [F32.rnd_neg] at h1
          have : ¬ 0 < F32.rnd q := by rw [not_lt]; linarith
          simp [hq, this]
        · have h1 := F32.rnd_nonneg (x := q) (by linarith)
          rw [abs_of_nonneg h1] at hb
          have : 0 < F32.rnd q := lt_of_lt_of_le (by norm_num) hb
          simp [hq, this]
      · simp only [F32.cast, if_neg hb, Num.lt, Positive, ← rnd_pos_iff]
        by_cases h : 0 < F32.rnd q <;> simp [h]
  unfold countAbove howMany
  simp only [key]

/-! ### Queries -/

/-- C127: a point is looked up at a node of the mesh, whatever its coordinates (NaN and infinities included, whatever the machine makes of them);
`web_type_at` and `lam_at` use the same node, and the type is the number of the reported eigenvalues above the threshold.  Arrays that do not have three columns
are refused. -/
theorem C127_at (bad : Num → ℤ) (lam : Arr) (mesh : Mesh) (hn : 0 < mesh.n) (th : Th) (c : Classifier) (hc : init lam mesh th = .ok c) (xs : List (List Num)) :
    (∃ ps : List Node3, ps = xs.map (fun r => nodeOf bad mesh (row3 r)) ∧ (∀ p ∈ ps, IsNode mesh.n p) ∧
      webTypeAt bad c 3 xs = .ok (ps.map c.nLams) ∧ lamAt bad c 3 xs = .ok (ps.map c.lam) ∧
      (∀ ls, lamAt bad c 3 xs = .ok ls → webTypeAt bad c 3 xs = .ok (ls.map (fun l => countAbove l th.value)))) ∧
    ∀ cols, cols ≠ 3 → webTypeAt bad c cols xs = .error .assertionError ∧ lamAt bad c cols xs = .error .assertionError := by
  have em : c.mesh = mesh := ((C127_init lam mesh th).2.2 c hc).1
  have en : ∀ p, c.nLams p = countAbove (c.lam p) th.value := fun p => (((C127_init lam mesh th).2.2 c hc).2 p).2
  have w : webTypeAt bad c 3 xs = .ok ((xs.map (fun r => nodeOf bad mesh (row3 r))).map c.nLams) := by
    unfold webTypeAt pyAssert
    rw [em]
    simp [bind, Except.bind, pure, Except.pure, Function.comp_def]
  have l : lamAt bad c 3 xs = .ok ((xs.map (fun r => nodeOf bad mesh (row3 r))).map c.lam) := by
    unfold lamAt pyAssert
    rw [em]
    simp [bind, Except.bind, pure, Except.pure, Function.comp_def]
  refine ⟨⟨_, rfl, ?_, w, l, ?_⟩, ?_⟩
  · intro p hp
    obtain ⟨r, -, rfl⟩ := List.mem_map.mp hp
    have := (C123_index bad mesh hn).1
    exact ⟨this _, this _, this _⟩
  · intro ls hls
    rw [l] at hls
    obtain rfl := Except.ok.inj hls
    rw [w, List.map_map (g := fun l => countAbove l th.value)]
    congr 1
    exact List.map_congr_left (fun p _ => en p)
  · intro cols hcols
    have e : (cols == 3) = false := by simpa using hcols
    unfold webTypeAt lamAt pyAssert
    rw [e]
    exact ⟨rfl, rfl⟩

/-- C127: the node is the nearest one along each axis (periodically), up to 2^-50 of a cell. -/
theorem C127_nearest {m : Mesh} {L : ℚ} (h : Good m L) (bad : Num → ℤ) {v : ℚ × ℚ × ℚ} (hv : Near m L v.1 ∧ Near m L v.2.1 ∧ Near m L v.2.2) :
    ∃ i j k : ℤ, nodeOf bad m (.fin v.1, .fin v.2.1, .fin v.2.2) = (i % m.n, j % m.n, k % m.n) ∧
      |v.1 / (L / m.n) - i| ≤ 1 / 2 + 2 ^ (-50 : ℤ) * (|v.1 / (L / m.n)| + 1) ∧
      |v.2.1 / (L / m.n) - j| ≤ 1 / 2 + 2 ^ (-50 : ℤ) * (|v.2.1 / (L / m.n)| + 1) ∧
      |v.2.2 / (L / m.n) - k| ≤ 1 / 2 + 2 ^ (-50 : ℤ) * (|v.2.2 / (L / m.n)| + 1) := by
  obtain ⟨i, e1, h1⟩ := C123_nearest_node h bad hv.1
  obtain ⟨j, e2, h2⟩ := C123_nearest_node h bad hv.2.1
  obtain ⟨k, e3, h3⟩ := C123_nearest_node h bad hv.2.2
  exact ⟨i, j, k, by unfold nodeOf; rw [e1, e2, e3], h1, h2, h3⟩

/-! ### Nodes of a type -/

/-- C127: the names of the types; any other name is a KeyError. -/
theorem C127_names :
    webTypes "knot".toList = .ok 3 ∧ webTypes "k".toList = .ok 3 ∧ webTypes "filament".toList = .ok 2 ∧ webTypes "f".toList = .ok 2 ∧
    webTypes "sheet".toList = .ok 1 ∧ webTypes "s".toList = .ok 1 ∧ webTypes "void".toList = .ok 0 ∧ webTypes "v".toList = .ok 0 ∧
    ∀ name : Str, (∀ s ∈ ["knot", "k", "filament", "f", "sheet", "s", "void", "v"], name ≠ s.toList) → webTypes name = .error .keyError := by
  refine ⟨rfl, rfl, rfl, rfl, rfl, rfl, rfl, rfl, fun name h => ?_⟩
  unfold webTypes
  have : PyDict.get? [("knot".toList, 3), ("filament".toList, 2), ("sheet".toList, 1), ("void".toList, 0), ("k".toList, 3), ("f".toList, 2),
      ("s".toList, 1), ("v".toList, 0)] name = (none : Option Nat) := by
    rw [PyDict.get?_eq_none_iff]
    intro hm
    simp only [PyDict.keys, List.map_cons, List.map_nil, List.mem_cons, List.not_mem_nil, or_false] at hm
    rcases hm with e | e | e | e | e | e | e | e
    · exact h "knot" (by decide) e
    · exact h "filament" (by decide) e
    · exact h "sheet" (by decide) e
    · exact h "void" (by decide) e
    · exact h "k" (by decide) e
    · exact h "f" (by decide) e
    · exact h "s" (by decide) e
    · exact h "v" (by decide) e
  rw [this]

/-- The coordinate of a node in single precision. -/
theorem coord_eq {m : Mesh} {L : ℚ} (h : Good m L) (hlo : m.n * 2 ^ (-120 : ℤ) ≤ L) (hhi : L ≤ 2 ^ 126) (i : ℤ) (h0 : 0 ≤ i) (h1 : i < m.n) :
    ∃ v : ℚ, coord m.lGrid i = .fin v ∧ F32.IsF v ∧ |v - i * (L / m.n)| ≤ 2 ^ (-23 : ℤ) * (i * (L / m.n)) := by
  have hw : 2 ^ (-120 : ℤ) ≤ width m L := by
    unfold width
    rw [le_div_iff₀ h.nq, mul_comm]
    exact hlo
  have hwp := h.width_pos
  have hg := h.grid_bounds
  have hgp := h.grid_pos
  have hi0 : (0 : ℚ) ≤ i := by exact_mod_cast h0
  have hn20 : (m.n : ℚ) ≤ 2 ^ 20 := by exact_mod_cast h.n_le
  have hin : (i : ℚ) < m.n := by exact_mod_cast h1
  have hii : IsF (i : ℚ) := isF_int (by
    have := h.n_le
    rw [abs_of_nonneg h0]
    norm_num at this ⊢
    omega)
  have eo : ofQ (i : ℚ) = .fin i := by
    rw [ofQ_fin_le (y := i) (by rw [abs_of_nonneg hi0]) hii, hii]
    exact lt_of_lt_of_le (lt_of_lt_of_le hin hn20) (pow_le_pow_right₀ (by norm_num) (by norm_num))
  have hiw : i * width m L ≤ L := by
    have := mul_le_mul_of_nonneg_right hin.le hwp.le
    rwa [← h.L_eq] at this
  have hb : |(i : ℚ) * gridQ m L| ≤ 2 ^ 127 := by
    rw [abs_of_nonneg (mul_nonneg hi0 hgp.le)]
    have : gridQ m L ≤ 2 * width m L := by
      have : (2 : ℚ) ^ (-53 : ℤ) ≤ 1 := by norm_num
      nlinarith [hg.2]
    calc (i : ℚ) * gridQ m L ≤ i * (2 * width m L) := mul_le_mul_of_nonneg_left this hi0
      _ = 2 * (i * width m L) := by ring
      _ ≤ 2 * 2 ^ 126 := by linarith
      _ = 2 ^ 127 := by norm_num
  have f127 : IsF ((2 : ℚ) ^ 127) := by
    have := isF_pow (e := 127) (by norm_num)
    exact_mod_cast this
  have em : Num.mul (ofQ i) m.lGrid = .fin (rnd (i * gridQ m L)) := by
    rw [eo, h.grid]
    exact ofQ_fin_le hb f127 (pow_lt_pow_right₀ (by norm_num) (by norm_num))
  have hb2 : |rnd (i * gridQ m L)| ≤ 2 ^ 127 := by rw [rnd_abs]; exact rnd_le hb f127
  refine ⟨F32.rnd (rnd (i * gridQ m L)), ?_, F32.isF_rnd _, ?_⟩
  · unfold coord
    rw [em, cast_le_top hb2]
  · show |_ - i * width m L| ≤ _ * (i * width m L)
    rcases eq_or_lt_of_le h0 with rfl | hpos
    · simp
    have h1i : (1 : ℚ) ≤ i := by exact_mod_cast hpos
    have c1 : 2 ^ (-121 : ℤ) ≤ (i : ℚ) * gridQ m L := by
      have : (2 : ℚ) ^ (-121 : ℤ) ≤ gridQ m L := by
        have e : (2 : ℚ) ^ (-121 : ℤ) = 2 ^ (-120 : ℤ) * (1 / 2) := by norm_num
        have h2 : (1 / 2 : ℚ) ≤ 1 - 2 ^ (-53 : ℤ) := by norm_num
        rw [e]
        refine le_trans ?_ hg.1
        exact mul_le_mul hw h2 (by norm_num) hwp.le
      calc (2 : ℚ) ^ (-121 : ℤ) ≤ gridQ m L := this
        _ ≤ i * gridQ m L := le_mul_of_one_le_left hgp.le h1i
    have hpp : 0 < (i : ℚ) * gridQ m L := lt_of_lt_of_le (pow_pos' _) c1
    have r1 := rnd_err (x := i * gridQ m L) (by
      rw [abs_of_pos hpp]
      exact le_trans (zpow_le_zpow_right₀ (by norm_num) (by norm_num)) c1)
    have c2 : 2 ^ (-121 : ℤ) ≤ rnd (i * gridQ m L) := le_rnd c1 (isF_pow (by norm_num))
    have hrp : 0 < rnd (i * gridQ m L) := lt_of_lt_of_le (pow_pos' _) c2
    have r2 := F32.rnd_err (x := rnd (i * gridQ m L)) (by
      rw [abs_of_pos hrp]
      exact le_trans (zpow_le_zpow_right₀ (by norm_num) (by norm_num)) c2)
    rw [abs_of_pos hpp] at r1
    rw [abs_of_pos hrp] at r2
    have g1 : (i : ℚ) * gridQ m L ≤ i * width m L * (1 + 2 ^ (-53 : ℤ)) := by
      rw [mul_assoc]; exact mul_le_mul_of_nonneg_left hg.2 hi0
    have g2 : (i : ℚ) * width m L * (1 - 2 ^ (-53 : ℤ)) ≤ i * gridQ m L := by
      rw [mul_assoc]; exact mul_le_mul_of_nonneg_left hg.1 hi0
    have hiwp : 0 < (i : ℚ) * width m L := mul_pos (by linarith) hwp
    rw [abs_le] at r1 r2 ⊢
    generalize (i : ℚ) * gridQ m L = a at *
    generalize (i : ℚ) * width m L = b at *
    norm_num at r1 r2 g1 g2 ⊢
    constructor <;> linarith [r1.1, r1.2, r2.1, r2.2]

/-- A node's coordinate is found at that node. -/
theorem coord_node {m : Mesh} {L : ℚ} (h : Good m L) (hlo : m.n * 2 ^ (-120 : ℤ) ≤ L) (hhi : L ≤ 2 ^ 126) (bad : Num → ℤ) (i : ℤ) (h0 : 0 ≤ i) (h1 : i < m.n) :
    xToXi bad m (coord m.lGrid i) = i := by
  obtain ⟨v, ev, -, hv⟩ := coord_eq h hlo hhi i h0 h1
  have hwp := h.width_pos
  have hi0 : (0 : ℚ) ≤ i := by exact_mod_cast h0
  have hn20 : (m.n : ℚ) ≤ 2 ^ 20 := by exact_mod_cast h.n_le
  have hin : (i : ℚ) < m.n := by exact_mod_cast h1
  have hd : |v / width m L - i| ≤ 2 ^ (-23 : ℤ) * i := by
    have e : v / width m L - i = (v - i * width m L) / width m L := by field_simp
    rw [e, abs_div, abs_of_pos hwp, div_le_iff₀ hwp, mul_assoc]
    exact hv
  have hi20 : (i : ℚ) ≤ 2 ^ 20 := by linarith
  have hd2 : |v / width m L - i| ≤ 1 / 8 := by
    refine le_trans hd ?_
    norm_num at hi20 ⊢
    linarith
  have hq : |v / width m L| ≤ 2 ^ 21 := by
    rw [abs_le] at hd2 ⊢
    norm_num at hi20 ⊢
    constructor <;> linarith [hd2.1, hd2.2]
  have hnear : Near m L v := by
    unfold Near
    rw [abs_div, abs_of_pos hwp, div_le_iff₀ hwp] at hq
    exact le_trans hq (mul_le_mul_of_nonneg_right (by norm_num) hwp.le)
  obtain ⟨k, ek, hk⟩ := C123_nearest_node h bad hnear
  have hk2 : |v / width m L - k| ≤ 1 / 2 + 1 / 8 := by
    refine le_trans hk ?_
    norm_num at hq ⊢
    linarith
  have : |((k - i : ℤ) : ℚ)| < 1 := by
    push_cast
    rw [abs_le] at hd2 hk2
    rw [abs_lt]
    constructor <;> linarith [hd2.1, hd2.2, hk2.1, hk2.2]
  have hki : |k - i| < 1 := by exact_mod_cast this
  have : k = i := by
    have := Int.abs_lt_one_iff.mp hki
    omega
  rw [ev, ek, this]
  exact Int.emod_eq_of_lt h0 h1

/-- C127: the points reported for a type are, in C order and each once, exactly the nodes of that type: looked up again (in spite of their rounding to single
precision), each is found at its own node, so `web_type_at` of them gives that type throughout; the coordinates are those of the nodes up to 2^-23. -/
theorem C127_grid_points {m : Mesh} {L : ℚ} (h : Good m L) (hlo : m.n * 2 ^ (-120 : ℤ) ≤ L) (hhi : L ≤ 2 ^ 126) (bad : Num → ℤ) (c : Classifier) (hm : c.mesh = m)
    (name : Str) (t : Nat) (ht : webTypes name = .ok t) :
    ∃ rows, gridPoints c name = .ok rows ∧
      rows.map (fun r => nodeOf bad m (row3 r)) = (nodes m.n).filter (fun p => c.nLams p == t) ∧
      webTypeAt bad c 3 rows = .ok (List.replicate rows.length t) ∧
      ∀ (a : Nat) (r : List Num) (p : Node3), rows[a]? = some r → ((nodes m.n).filter (fun p => c.nLams p == t))[a]? = some p →
        ∃ x y z : ℚ, r = [.fin x, .fin y, .fin z] ∧ |x - p.1 * (L / m.n)| ≤ 2 ^ (-23 : ℤ) * (p.1 * (L / m.n)) ∧
          |y - p.2.1 * (L / m.n)| ≤ 2 ^ (-23 : ℤ) * (p.2.1 * (L / m.n)) ∧ |z - p.2.2 * (L / m.n)| ≤ 2 ^ (-23 : ℤ) * (p.2.2 * (L / m.n)) := by
  subst hm
  set m := c.mesh with hm
  have e1 : gridPoints c name = .ok (((nodes m.n).filter (fun p => c.nLams p == t)).map
      (fun p => [coord m.lGrid p.1, coord m.lGrid p.2.1, coord m.lGrid p.2.2])) := by
    unfold gridPoints
    rw [ht]
    rfl
  have e2 : (((nodes m.n).filter (fun p => c.nLams p == t)).map (fun p => [coord m.lGrid p.1, coord m.lGrid p.2.1, coord m.lGrid p.2.2])).map
      (fun r => nodeOf bad m (row3 r)) = (nodes m.n).filter (fun p => c.nLams p == t) := by
    rw [List.map_map]
    conv_rhs => rw [← List.map_id ((nodes m.n).filter (fun p => c.nLams p == t))]
    refine List.map_congr_left (fun p hp => ?_)
    obtain ⟨⟨a1, a2⟩, ⟨b1, b2⟩, c1, c2⟩ := (mem_nodes _ _).mp (List.mem_filter.mp hp).1
    show nodeOf bad m (coord m.lGrid p.1, coord m.lGrid p.2.1, coord m.lGrid p.2.2) = p
    unfold nodeOf
    rw [coord_node h hlo hhi bad p.1 a1 a2, coord_node h hlo hhi bad p.2.1 b1 b2, coord_node h hlo hhi bad p.2.2 c1 c2]
  refine ⟨_, e1, e2, ?_, ?_⟩
  · have : webTypeAt bad c 3 (((nodes m.n).filter (fun p => c.nLams p == t)).map (fun p => [coord m.lGrid p.1, coord m.lGrid p.2.1, coord m.lGrid p.2.2])) =
        .ok (((((nodes m.n).filter (fun p => c.nLams p == t)).map (fun p => [coord m.lGrid p.1, coord m.lGrid p.2.1, coord m.lGrid p.2.2])).map
          (fun r => nodeOf bad m (row3 r))).map c.nLams) := by
      rw [List.map_map]
      rfl
    rw [this, e2, List.length_map]
    congr 1
    rw [List.eq_replicate_iff]
    refine ⟨List.length_map _, fun b hb => ?_⟩
    obtain ⟨p, hp, rfl⟩ := List.mem_map.mp hb
    simpa using (List.mem_filter.mp hp).2
  · intro a r p hr hp
    rw [List.getElem?_map, hp] at hr
    obtain rfl := Option.some.inj hr
    have hmem := List.mem_of_getElem? hp
    obtain ⟨⟨a1, a2⟩, ⟨b1, b2⟩, c1, c2⟩ := (mem_nodes _ _).mp (List.mem_filter.mp hmem).1
    obtain ⟨x, ex, -, hx⟩ := coord_eq h hlo hhi p.1 a1 a2
    obtain ⟨y, ey, -, hy⟩ := coord_eq h hlo hhi p.2.1 b1 b2
    obtain ⟨z, ez, -, hz⟩ := coord_eq h hlo hhi p.2.2 c1 c2
    exact ⟨x, y, z, by rw [← ex, ← ey, ← ez], hx, hy, hz⟩

/-! ### Fractions -/

/-- C127: every node has one of the four types, and the reported fraction of a type is the count over n³ up to 2^-53 of it, between 0 and 1; it is exactly 0 only
if no node and exactly 1 only if every node has that type. -/
theorem C127_fraction (lam : Arr) (mesh : Mesh) (hn : 0 < mesh.n) (hn2 : mesh.n ≤ 2 ^ 16) (th : Th) (c : Classifier) (hc : init lam mesh th = .ok c)
    (cnt : Nat → Nat) (hcnt : ∀ t, cnt t = ((nodes mesh.n).filter (fun p => decide (c.nLams p = t))).length) :
    cnt 0 + cnt 1 + cnt 2 + cnt 3 = mesh.n ^ 3 ∧
    ∀ t, ∃ f : ℚ, fraction c t = .fin f ∧ |f - (cnt t : ℚ) / (mesh.n : ℚ) ^ 3| ≤ 2 ^ (-53 : ℤ) * ((cnt t : ℚ) / (mesh.n : ℚ) ^ 3) ∧ 0 ≤ f ∧ f ≤ 1 ∧
      (f = 0 ↔ cnt t = 0) ∧ (f = 1 ↔ cnt t = mesh.n ^ 3) := by
  have em : c.mesh = mesh := ((C127_init lam mesh th).2.2 c hc).1
  have hcp : ∀ t, cnt t = (nodes mesh.n).countP (fun p => c.nLams p == t) := by
    intro t
    rw [hcnt, List.countP_eq_length_filter]
    congr 1
  constructor
  · have hle : ∀ p ∈ nodes mesh.n, c.nLams p ≤ 3 := fun p hp => (C127_largest lam mesh th c hc p ((mem_nodes _ _).mp hp)).1
    rw [← nodes_length, hcp, hcp, hcp, hcp]
    generalize nodes mesh.n = l at hle
    induction l with
    | nil => rfl
    | cons a l ih =>
      have ih := ih (fun p hp => hle p (List.mem_cons_of_mem _ hp))
      have ha := hle a (List.mem_cons_self ..)
      simp only [List.countP_cons, List.length_cons, beq_iff_eq]
      have : c.nLams a = 0 ∨ c.nLams a = 1 ∨ c.nLams a = 2 ∨ c.nLams a = 3 := by omega
      rcases this with e | e | e | e <;> simp only [e] <;> simp <;> omega
  · intro t
    have hN0 : 0 < mesh.n ^ 3 := Nat.pow_pos hn
    have hN : mesh.n ^ 3 ≤ 2 ^ 48 := by
      calc mesh.n ^ 3 ≤ (2 ^ 16) ^ 3 := Nat.pow_le_pow_left hn2 3
        _ = 2 ^ 48 := by norm_num
    have hkN : cnt t ≤ mesh.n ^ 3 := by
      rw [hcp, ← nodes_length]
      exact List.countP_le_length
    have eN : ((mesh.n : ℚ)) ^ 3 = ((mesh.n ^ 3 : Nat) : ℚ) := by push_cast; ring
    have ef : fraction c t = Num.div (ofQ (cnt t : Nat)) (ofQ (mesh.n ^ 3 : Nat)) := by
      unfold fraction
      rw [em, hcp]
    rw [eN, ef]
    generalize cnt t = k at *
    generalize mesh.n ^ 3 = N at *
    have toN : ∀ j : Nat, j ≤ 2 ^ 48 → ofQ (j : ℚ) = .fin j := by
      intro j hj
      have h1 : IsF ((j : ℤ) : ℚ) := isF_int (by rw [abs_of_nonneg (by omega)]; norm_num at hj ⊢; omega)
      have h2 : IsF (j : ℚ) := by simpa using h1
      have h3 : (j : ℚ) ≤ 2 ^ 48 := by exact_mod_cast hj
      rw [ofQ_fin_le (y := j) (by rw [abs_of_nonneg (by positivity)]) h2 (lt_of_le_of_lt h3 (pow_lt_pow_right₀ (by norm_num) (by norm_num))), h2]
    have hNq : (0 : ℚ) < N := by exact_mod_cast hN0
    have hkq : (0 : ℚ) ≤ k := by positivity
    have hq0 : 0 ≤ (k : ℚ) / N := by positivity
    have hq1 : (k : ℚ) / N ≤ 1 := by
      rw [div_le_one hNq]
      exact_mod_cast hkN
    have f1 : IsF (1 : ℚ) := by simpa using isF_pow (e := 0) (by norm_num)
    have e : Num.div (ofQ (k : ℚ)) (ofQ (N : ℚ)) = .fin (rnd ((k : ℚ) / N)) := by
      rw [toN k (by omega), toN N hN]
      simp only [Num.div, if_neg hNq.ne']
      exact ofQ_fin_le (by rw [abs_of_nonneg hq0]; exact hq1) f1 (one_lt_pow₀ (by norm_num) (by norm_num))
    have hNq48 : (N : ℚ) ≤ 2 ^ 48 := by exact_mod_cast hN
    have err : |rnd ((k : ℚ) / N) - (k : ℚ) / N| ≤ 2 ^ (-53 : ℤ) * ((k : ℚ) / N) := by
      rcases Nat.eq_zero_or_pos k with rfl | hk
      · simp
      · have hk1 : (1 : ℚ) ≤ k := by exact_mod_cast hk
        have hbig : (2 : ℚ) ^ (-48 : ℤ) ≤ (k : ℚ) / N := by
          rw [le_div_iff₀ hNq]
          have : (2 : ℚ) ^ (-48 : ℤ) * N ≤ 2 ^ (-48 : ℤ) * 2 ^ 48 := mul_le_mul_of_nonneg_left hNq48 (by norm_num)
          have e1 : (2 : ℚ) ^ (-48 : ℤ) * 2 ^ 48 = 1 := by norm_num
          linarith
        have := rnd_err (x := (k : ℚ) / N) (by
          rw [abs_of_nonneg hq0]
          exact le_trans (zpow_le_zpow_right₀ (by norm_num) (by norm_num)) hbig)
        rwa [abs_of_nonneg hq0] at this
    refine ⟨_, e, err, rnd_nonneg hq0, rnd_le hq1 f1, ⟨fun h0 => ?_, ?_⟩, ⟨fun h1 => ?_, ?_⟩⟩
    · rw [h0, zero_sub, abs_neg, abs_of_nonneg hq0] at err
      by_contra hk
      have hk1 : (0 : ℚ) < k := by exact_mod_cast Nat.pos_of_ne_zero hk
      have hqp : 0 < (k : ℚ) / N := div_pos hk1 hNq
      generalize (k : ℚ) / N = q at *
      norm_num at err
      linarith
    · rintro rfl
      simp
    · by_contra hk
      have hlt : k + 1 ≤ N := by omega
      have hltq : (k : ℚ) + 1 ≤ N := by exact_mod_cast hlt
      have hq : (k : ℚ) / N ≤ 1 - 2 ^ (-48 : ℤ) := by
        rw [div_le_iff₀ hNq]
        have : (2 : ℚ) ^ (-48 : ℤ) * N ≤ 1 := by
          have : (2 : ℚ) ^ (-48 : ℤ) * N ≤ 2 ^ (-48 : ℤ) * 2 ^ 48 := mul_le_mul_of_nonneg_left hNq48 (by norm_num)
          have e1 : (2 : ℚ) ^ (-48 : ℤ) * 2 ^ 48 = 1 := by norm_num
          linarith
        generalize (2 : ℚ) ^ (-48 : ℤ) = u at *
        nlinarith
      rw [h1, abs_of_nonneg (by linarith)] at err
      generalize (k : ℚ) / N = q at *
      norm_num at err hq
      linarith
    · rintro rfl
      rw [div_self hNq.ne']
      exact f1

/-! ### From a file -/

/-- Specification: the group has a dataset with that name (a plain name, without slashes) and contents. -/
def HasData (g : H5.Node DT Elem) (key : String) (d : H5.Dset DT Elem) : Prop := H5.dsGet g key.toList = .ok d

/-- C127: `new_from_file` is the constructor applied to the stored eigenvalues on the mesh of the stored size, whatever the storage order of the three datasets. -/
theorem C127_from_file (g : H5.Node DT Elem) (th : Th) (n : Nat) (hn : 0 < n) (L : Num) (dn dl : DT) (lam : H5.Dset DT Elem)
    (h1 : HasData g "n_grids" ⟨dn, [], [.int n]⟩) (h2 : HasData g "l_box" ⟨dl, [], [.flt L]⟩) (h3 : HasData g "lam" lam) :
    newFromFile g th = init { shape := lam.shape, elems := lam.elems.map Elem.num } (Mesh.new L n) th := by
  have h0 : (0 : ℤ) < n := by omega
  unfold newFromFile HasData at *
  rw [h1, h2, h3]
  simp only [bind, Except.bind, scalarInt, scalarNum, meshOf, if_pos h0, Elem.num, Int.toNat_natCast]

/-- C127: integers stored in the file are read as the doubles nearest to them. -/
theorem C127_from_file_integers (g : H5.Node DT Elem) (th : Th) (n : Nat) (hn : 0 < n) (K : ℤ) (dn dl dt : DT) (shape : List Nat) (ks : List ℤ)
    (h1 : HasData g "n_grids" ⟨dn, [], [.int n]⟩) (h2 : HasData g "l_box" ⟨dl, [], [.int K]⟩) (h3 : HasData g "lam" ⟨dt, shape, ks.map .int⟩) :
    newFromFile g th = init { shape := shape, elems := ks.map (fun k : ℤ => ofQ (k : ℚ)) } (Mesh.new (ofQ (K : ℚ)) n) th := by
  have h0 : (0 : ℤ) < n := by omega
  unfold newFromFile HasData at *
  rw [h1, h2, h3]
  simp only [bind, Except.bind, scalarInt, scalarNum, meshOf, if_pos h0, Elem.num, Int.toNat_natCast, List.map_map]
  rfl

/-- C127: a number of grids or a box size that is not a scalar, or a number of grids that is not an integer, is a TypeError. -/
theorem C127_from_file_scalars (g : H5.Node DT Elem) (th : Th) (dn dl lam : H5.Dset DT Elem)
    (h1 : HasData g "n_grids" dn) (h2 : HasData g "l_box" dl) (h3 : HasData g "lam" lam)
    (h : dn.shape ≠ [] ∨ dl.shape ≠ [] ∨ ∃ x, dn.elems = [.flt x]) : newFromFile g th = .error .typeError := by
  obtain ⟨t1, s1, e1⟩ := dn
  obtain ⟨t2, s2, e2⟩ := dl
  unfold newFromFile HasData at *
  rw [h1, h2, h3]
  simp only [bind, Except.bind, scalarInt, scalarNum]
  rcases h with h | h | ⟨x, h⟩
  · rcases s1 with _ | ⟨a, s⟩
    · exact absurd rfl h
    · rfl
  · rcases s2 with _ | ⟨a, s⟩
    · exact absurd rfl h
    · rcases s1 with _ | ⟨b, s'⟩
      · rcases e1 with _ | ⟨_ | k, _ | ⟨y, t⟩⟩ <;> rfl
      · rfl
  · simp only at h
    subst h
    rcases s1 with _ | ⟨a, s⟩ <;> rfl

/-- C127: a group without one of the datasets is refused with KeyError. -/
theorem C127_from_file_missing (g : H5.Node DT Elem) (th : Th) (key : String) (hk : key = "n_grids" ∨ key = "l_box" ∨ key = "lam")
    (h : H5.dsGet g key.toList = .error .keyError)
    (hall : ∀ k : String, (∃ d, HasData g k d) ∨ H5.dsGet g k.toList = .error .keyError) : newFromFile g th = .error .keyError := by
  unfold newFromFile
  rcases hall "n_grids" with ⟨d1, h1⟩ | h1
  · unfold HasData at h1
    rw [h1]
    rcases hall "l_box" with ⟨d2, h2⟩ | h2
    · unfold HasData at h2
      rw [h2]
      rcases hall "lam" with ⟨d3, h3⟩ | h3
      · unfold HasData at h3
        rcases hk with rfl | rfl | rfl
        · rw [h1] at h; cases h
        · rw [h2] at h; cases h
        · rw [h3] at h; cases h
      · rw [h3]; rfl
    · rw [h2]; rfl
  · rw [h1]; rfl

/-- C127: `new_density_field_from_file` gives a field on the stored mesh whose value at every node is one plus the stored overdensity (rounded); an array that is
not a cube, or not of the stored number of grids, is an AssertionError. -/
theorem C127_density_from_file (g : H5.Node DT Elem) (key : String) (n : Nat) (hn : 0 < n) (L : Num) (dn dl : DT) (a b c : Nat) (elems : List Num)
    (h1 : HasData g "n_grids" ⟨dn, [], [.int n]⟩) (h2 : HasData g "l_box" ⟨dl, [], [.flt L]⟩) (h3 : HasData g key ⟨.f64, [a, b, c], elems.map .flt⟩)
    (hl : elems.length = a * b * c) :
    ((a = n ∧ b = n ∧ c = n) → ∃ data, newDensityFromFile g key.toList = .ok (Mesh.new L n, data) ∧
      ∀ i j k : Nat, i < n → j < n → k < n → ∃ x, elems[(i * n + j) * n + k]? = some x ∧ data ((i : ℤ), (j : ℤ), (k : ℤ)) = Num.add x (.fin 1)) ∧
    (¬ (a = n ∧ b = n ∧ c = n) → newDensityFromFile g key.toList = .error .assertionError) := by
  have h0 : (0 : ℤ) < n := by omega
  unfold newDensityFromFile HasData at *
  rw [h1, h2, h3]
  have em : (elems.map Elem.flt).map (fun e => Num.add e.num (.fin 1)) = elems.map (fun x => Num.add x (.fin 1)) := by
    rw [List.map_map]; rfl
  simp only [bind, Except.bind, scalarInt, scalarNum, meshOf, if_pos h0, Elem.num, Int.toNat_natCast, em, newField]
  have hm : (Mesh.new L n).n = n := rfl
  constructor
  · rintro ⟨rfl, rfl, rfl⟩
    simp only [pyAssert, hm]
    refine ⟨at3 (elems.map (fun x => Num.add x (.fin 1))) c, by simp [pure, Except.pure, bind, Except.bind, hm, Function.comp_def, Elem.num], ?_⟩
    intro i j k hi hj hk
    have hlt : (i * c + j) * c + k < elems.length := by
      rw [hl]
      have : i * c + j + 1 ≤ c * c := by nlinarith
      nlinarith
    refine ⟨_, List.getElem?_eq_getElem hlt, ?_⟩
    unfold at3
    simp only [Int.toNat_natCast]
    rw [List.getD_eq_getElem?_getD, List.getElem?_map, List.getElem?_eq_getElem hlt]
    rfl
  · intro h
    simp only [pyAssert, hm]
    by_cases hab : a = b
    · by_cases hbc : b = c
      · subst hab; subst hbc
        have : n ≠ a := by rintro rfl; exact h ⟨rfl, rfl, rfl⟩
        simp [bind, Except.bind, this]
      · simp [bind, Except.bind, hbc]
    · simp [bind, Except.bind, hab]

/-! ### Examples -/

/-- A mesh of one cell. -/
def mesh1 : Mesh := Mesh.new (.fin 1) 1

/-- Eigenvalues for the mesh of one cell. -/
def lam1 (a b c : ℚ) : Arr := ⟨[1, 1, 1, 3], [.fin a, .fin b, .fin c]⟩

theorem node1 {p : Node3} (hp : IsNode mesh1.n p) : p = (0, 0, 0) := by
  obtain ⟨a, b, c⟩ := p
  have e : mesh1.n = 1 := rfl
  rw [e] at hp
  obtain ⟨⟨h1, h2⟩, ⟨h3, h4⟩, h5, h6⟩ := hp
  simp only at h1 h2 h3 h4 h5 h6
  have a0 : a = 0 := by omega
  have b0 : b = 0 := by omega
  have c0 : c = 0 := by omega
  rw [a0, b0, c0]

/-- C127: three eigenvalues that are all positive as doubles but below the range of single precision are a void; and a table that is not sorted as doubles is
accepted if rounding makes the values equal. -/
theorem C127_tiny :
    (∃ c, init (lam1 (2 ^ (-160 : ℤ)) (2 ^ (-160 : ℤ)) (2 ^ (-151 : ℤ))) mesh1 (.pyFloat (.fin 0)) = .ok c ∧ c.nLams (0, 0, 0) = 0) ∧
    ∃ c, init (lam1 (1 + 2 ^ (-30 : ℤ)) 1 2) mesh1 (.pyFloat (.fin 0)) = .ok c ∧ c.nLams (0, 0, 0) = 3 := by
  constructor
  · obtain ⟨c, hc⟩ := C127_accepts (lam1 (2 ^ (-160 : ℤ)) (2 ^ (-160 : ℤ)) (2 ^ (-151 : ℤ))) mesh1 (.pyFloat (.fin 0)) rfl
      (fun p hp => by rw [node1 hp]; decide +kernel)
    refine ⟨c, hc, ?_⟩
    rw [C127_default _ _ c hc]
    decide +kernel
  · obtain ⟨c, hc⟩ := (C127_init (lam1 (1 + 2 ^ (-30 : ℤ)) 1 2) mesh1 (.pyFloat (.fin 0))).1.mpr ⟨rfl, fun p hp => by rw [node1 hp]; decide +kernel⟩
    refine ⟨c, hc, ?_⟩
    rw [C127_default _ _ c hc]
    decide +kernel

/-- A filament: the threshold bounds agree and determine the count. -/
example : ∃ c, init (lam1 (-1) (1 / 2) 3) mesh1 (.pyFloat (.fin (1 / 5))) = .ok c ∧ c.nLams (0, 0, 0) = 2 := by
  obtain ⟨c, hc⟩ := C127_accepts (lam1 (-1) (1 / 2) 3) mesh1 (.pyFloat (.fin (1 / 5))) rfl (fun p hp => by rw [node1 hp]; decide +kernel)
  refine ⟨c, hc, ?_⟩
  have h := C127_threshold _ mesh1 (1 / 5) (by norm_num [abs_of_pos]) c hc (0, 0, 0)
  have h1 : howMany (ClearlyAbove (1 / 5)) ((lam1 (-1) (1 / 2) 3).at4 mesh1.n (0, 0, 0) 0) ((lam1 (-1) (1 / 2) 3).at4 mesh1.n (0, 0, 0) 1)
      ((lam1 (-1) (1 / 2) 3).at4 mesh1.n (0, 0, 0) 2) = 2 := by decide +kernel
  have h2 : howMany (Above (1 / 5)) ((lam1 (-1) (1 / 2) 3).at4 mesh1.n (0, 0, 0) 0) ((lam1 (-1) (1 / 2) 3).at4 mesh1.n (0, 0, 0) 1)
      ((lam1 (-1) (1 / 2) 3).at4 mesh1.n (0, 0, 0) 2) = 2 := by decide +kernel
  omega

example (bad : Num → ℤ) (c : Classifier) (hm : c.mesh = mesh100) :
    ∃ rows, gridPoints c "f".toList = .ok rows ∧ webTypeAt bad c 3 rows = .ok (List.replicate rows.length 2) := by
  have hlo : (mesh100.n : ℚ) * 2 ^ (-120 : ℤ) ≤ 100 := by
    show ((11 : Nat) : ℚ) * _ ≤ _
    norm_num
  obtain ⟨rows, h1, -, h2, -⟩ := C127_grid_points mesh100_good hlo (by norm_num) bad c hm "f".toList 2 rfl
  exact ⟨rows, h1, h2⟩

/-- A group with the three datasets. -/
def group1 : H5.Node DT Elem :=
  .grp [("l_box".toList, .dset ⟨.f64, [], [.flt (.fin 1)]⟩ []), ("lam".toList, .dset ⟨.f64, [1, 1, 1, 3], [.flt (.fin (-1)), .flt (.fin 2), .flt (.fin 3)]⟩ []),
    ("n_grids".toList, .dset ⟨.i64, [], [.int 1]⟩ [])] []

example : newFromFile group1 (.pyFloat (.fin 0)) = init (lam1 (-1) 2 3) mesh1 (.pyFloat (.fin 0)) :=
  C127_from_file group1 _ 1 (by norm_num) (.fin 1) .i64 .f64 _ rfl rfl rfl

end Pyhipp.FloatWeb
