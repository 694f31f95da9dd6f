import Verif.Model.PointGroup
import Mathlib.LinearAlgebra.Matrix.Determinant.Basic
import Mathlib.LinearAlgebra.Matrix.NonsingularInverse
import Mathlib.Tactic.FinCases
import Mathlib.Tactic.IntervalCases
import Mathlib.Tactic.LinearCombination
/-
C76, C77: point groups.
-/
namespace Pyhipp.PointGroup
open Pyhipp Matrix

variable {R : Type} [CommRing R] {n : Nat}

/-! ### C77 -/

/-- C77: combining operations and then applying the result is applying them one after the other, the last one first. -/
theorem C77_call (m : Mat n R) (ops : List (Mat n R)) (x : Fin n → R) :
    opCall (opCombined m ops) x = opCall m (ops.foldr opCall x) := by
  have h2 : ∀ (a b : Mat n R) (x : Fin n → R), opCall (a * b) x = opCall a (opCall b x) := by
    intro a b x
    unfold opCall
    rw [Matrix.transpose_mul, Matrix.vecMul_vecMul]
  induction ops generalizing m with
  | nil => rfl
  | cons op ops ih =>
      have : opCombined m (op :: ops) = opCombined (m * op) ops := rfl
      rw [this, ih, List.foldr_cons, h2]

/-- C77: on an array of vectors the operation acts on each. -/
theorem C77_calls (a b : Mat n R) (xs : List (Fin n → R)) : opCalls (opCombined a [b]) xs = opCalls a (opCalls b xs) := by
  unfold opCalls
  rw [List.map_map]
  exact List.map_congr_left (fun x _ => C77_call a [b] x)

/-- C77: component i of the result is the sum over j of mat[i, j] * x[j]. -/
theorem C77_components (m : Mat n R) (x : Fin n → R) (i : Fin n) : opCall m x i = ∑ j, m i j * x j := by
  unfold opCall
  simp only [Matrix.vecMul, dotProduct, Matrix.transpose_apply]
  exact Finset.sum_congr rfl (fun j _ => mul_comm _ _)

/-- All choices of one element from each list, in lexicographic order. -/
def choices {β : Type} : List (List β) → List (List β)
  | [] => [[]]
  | l :: ls => l.flatMap (fun x => (choices ls).map (fun c => x :: c))

/-- C77: `Group.combined` lists the products of one operation from each group, once per choice, in lexicographic order. -/
theorem C77_combined_groups (g0 : List (Mat n R)) (gs : List (List (Mat n R))) :
    groupCombined g0 gs = g0.flatMap (fun a => (choices gs).map (fun c => opCombined a c)) := by
  induction gs generalizing g0 with
  | nil =>
      have : ∀ l : List (Mat n R), l = l.flatMap (fun a => [a]) := fun l => by simp
      simp only [groupCombined, groupCopied, choices, List.map_cons, List.map_nil]
      have e : ∀ a : Mat n R, opCombined a [] = a := fun _ => rfl
      simp only [e]
      rw [← this]
      exact List.map_id g0
  | cons g1 gs ih =>
      simp only [groupCombined]
      rw [ih]
      simp only [choices, List.flatMap_assoc, List.flatMap_map, List.map_flatMap, List.map_map]
      rfl

/-- C77: the number of operations is the product of the sizes. -/
theorem C77_size (g0 : List (Mat n R)) (gs : List (List (Mat n R))) : (groupCombined g0 gs).length = g0.length * (gs.map List.length).prod := by
  have h : ∀ ls : List (List (Mat n R)), (choices ls).length = (ls.map List.length).prod := by
    intro ls
    induction ls with
    | nil => rfl
    | cons l ls ih => simp [choices, List.length_flatMap, ih]
  rw [C77_combined_groups, List.length_flatMap]
  simp [h]

/-- C77: an orthogonal operation preserves scalar products, so lengths and angles; those of the predefined groups are orthogonal
(C76). -/
theorem C77_isometry (m : Mat n R) (h : mᵀ * m = 1) (x y : Fin n → R) : (opCall m x) ⬝ᵥ (opCall m y) = x ⬝ᵥ y := by
  unfold opCall
  rw [Matrix.vecMul_transpose, Matrix.vecMul_transpose, Matrix.dotProduct_mulVec, Matrix.vecMul_mulVec, h, Matrix.vecMul_one]

/-! ### C76 -/

/-- The integer unit vectors. -/
def units3 : List (Int × Int × Int) := [(1, 0, 0), (-1, 0, 0), (0, 1, 0), (0, -1, 0), (0, 0, 1), (0, 0, -1)]

theorem unit_row3 (a b c : Int) (h : a * a + b * b + c * c = 1) : (a, b, c) ∈ units3 := by
  have ha : -1 ≤ a ∧ a ≤ 1 := by constructor <;> nlinarith [mul_self_nonneg b, mul_self_nonneg c, mul_self_nonneg a]
  have hb : -1 ≤ b ∧ b ≤ 1 := by constructor <;> nlinarith [mul_self_nonneg b, mul_self_nonneg c, mul_self_nonneg a]
  have hc : -1 ≤ c ∧ c ≤ 1 := by constructor <;> nlinarith [mul_self_nonneg b, mul_self_nonneg c, mul_self_nonneg a]
  obtain ⟨ha1, ha2⟩ := ha
  obtain ⟨hb1, hb2⟩ := hb
  obtain ⟨hc1, hc2⟩ := hc
  interval_cases a <;> interval_cases b <;> interval_cases c <;> simp_all [units3]

/-- The cubic group over the integers. -/
def cubicZ : List (Mat 3 Int) := groupCombined rotationOther [rotationXY, reflectionX]

theorem cubic_complete : ∀ r0 ∈ units3, ∀ r1 ∈ units3, ∀ r2 ∈ units3,
    r0.1 * r1.1 + r0.2.1 * r1.2.1 + r0.2.2 * r1.2.2 = 0 → r0.1 * r2.1 + r0.2.1 * r2.2.1 + r0.2.2 * r2.2.2 = 0 →
    r1.1 * r2.1 + r1.2.1 * r2.2.1 + r1.2.2 * r2.2.2 = 0 →
    (!![r0.1, r0.2.1, r0.2.2; r1.1, r1.2.1, r1.2.2; r2.1, r2.2.1, r2.2.2] : Mat 3 Int) ∈ cubicZ := by
  decide +kernel

theorem cubic_orth : ∀ M ∈ cubicZ, M * Mᵀ = 1 := by decide +kernel

/-- C76: 'cubic' (and '3d') gives 48 different operations: exactly the orthogonal integer matrices. -/
theorem C76_cubic : ∃ ops : List (Mat 3 Int), create "cubic" = .ok (.three ops) ∧ create "3d" = .ok (.three ops) ∧
    ops.length = 48 ∧ ops.Nodup ∧ ∀ M : Mat 3 Int, M ∈ ops ↔ M * Mᵀ = 1 := by
  refine ⟨cubicZ, rfl, rfl, by decide +kernel, by decide +kernel, fun M => ⟨cubic_orth M, fun h => ?_⟩⟩
  have he : ∀ i j, (M * Mᵀ) i j = (1 : Mat 3 Int) i j := fun i j => by rw [h]
  simp only [Matrix.mul_apply, Fin.sum_univ_three, Matrix.transpose_apply] at he
  have h00 := he 0 0
  have h11 := he 1 1
  have h22 := he 2 2
  have h01 := he 0 1
  have h02 := he 0 2
  have h12 := he 1 2
  simp at h00 h11 h22 h01 h02 h12
  have hM : M = !![M 0 0, M 0 1, M 0 2; M 1 0, M 1 1, M 1 2; M 2 0, M 2 1, M 2 2] := by
    ext i j; fin_cases i <;> fin_cases j <;> rfl
  rw [hM]
  exact cubic_complete _ (unit_row3 _ _ _ h00) _ (unit_row3 _ _ _ h11) _ (unit_row3 _ _ _ h22) h01 h02 h12

/-- The integer unit vectors of the plane. -/
def units2 : List (Int × Int) := [(1, 0), (-1, 0), (0, 1), (0, -1)]

theorem unit_row2 (a b : Int) (h : a * a + b * b = 1) : (a, b) ∈ units2 := by
  have ha : -1 ≤ a ∧ a ≤ 1 := by constructor <;> nlinarith [mul_self_nonneg b, mul_self_nonneg a]
  have hb : -1 ≤ b ∧ b ≤ 1 := by constructor <;> nlinarith [mul_self_nonneg b, mul_self_nonneg a]
  obtain ⟨ha1, ha2⟩ := ha
  obtain ⟨hb1, hb2⟩ := hb
  interval_cases a <;> interval_cases b <;> simp_all [units2]

/-- The square group over the integers. -/
def squareZ : List (Mat 2 Int) := groupCombined rotation2DXY [reflection2DX]

theorem square_complete : ∀ r0 ∈ units2, ∀ r1 ∈ units2, r0.1 * r1.1 + r0.2 * r1.2 = 0 →
    (!![r0.1, r0.2; r1.1, r1.2] : Mat 2 Int) ∈ squareZ := by
  decide +kernel

theorem square_orth : ∀ M ∈ squareZ, M * Mᵀ = 1 := by decide +kernel

/-- C76: 'square' (and '2d') gives 8 different operations: exactly the orthogonal integer matrices of the plane. -/
theorem C76_square : ∃ ops : List (Mat 2 Int), create "square" = .ok (.two ops) ∧ create "2d" = .ok (.two ops) ∧
    ops.length = 8 ∧ ops.Nodup ∧ ∀ M : Mat 2 Int, M ∈ ops ↔ M * Mᵀ = 1 := by
  refine ⟨squareZ, rfl, rfl, by decide +kernel, by decide +kernel, fun M => ⟨square_orth M, fun h => ?_⟩⟩
  have he : ∀ i j, (M * Mᵀ) i j = (1 : Mat 2 Int) i j := fun i j => by rw [h]
  simp only [Matrix.mul_apply, Fin.sum_univ_two, Matrix.transpose_apply] at he
  have h00 := he 0 0
  have h11 := he 1 1
  have h01 := he 0 1
  simp at h00 h11 h01
  have hM : M = !![M 0 0, M 0 1; M 1 0, M 1 1] := by
    ext i j; fin_cases i <;> fin_cases j <;> rfl
  rw [hM]
  exact square_complete _ (unit_row2 _ _ h00) _ (unit_row2 _ _ h11) h01

/-- C76: a set of matrices that consists of all orthogonal integer matrices is a group: it has the identity, and with A and B the
product (as `combined` computes it) and the inverse, which is the transpose. -/
theorem C76_group (ops : List (Mat n Int)) (h : ∀ M : Mat n Int, M ∈ ops ↔ M * Mᵀ = 1) :
    (1 : Mat n Int) ∈ ops ∧ (∀ A ∈ ops, ∀ B ∈ ops, opCombined A [B] ∈ ops) ∧
    ∀ A ∈ ops, Aᵀ ∈ ops ∧ opCombined A [Aᵀ] = 1 ∧ opCombined Aᵀ [A] = 1 := by
  have hc : ∀ A B : Mat n Int, opCombined A [B] = A * B := fun _ _ => rfl
  refine ⟨(h 1).mpr (by simp), fun A hA B hB => ?_, fun A hA => ?_⟩
  · rw [h, hc, Matrix.transpose_mul, Matrix.mul_assoc, ← Matrix.mul_assoc B, (h B).mp hB, Matrix.one_mul, (h A).mp hA]
  · have h1 := (h A).mp hA
    have h2 : Aᵀ * A = 1 := mul_eq_one_comm.mp h1
    refine ⟨(h _).mpr (by rw [Matrix.transpose_transpose]; exact h2), ?_, ?_⟩
    · rw [hc]; exact h1
    · rw [hc]; exact h2

/-- C76: both groups contain exactly the signed permutation matrices: one entry 1 or -1 in each row and column, else 0. -/
theorem C76_signed_permutations (M : Mat n Int) : M * Mᵀ = 1 ↔
    ∃ (σ : Equiv.Perm (Fin n)) (s : Fin n → Int), (∀ i, s i = 1 ∨ s i = -1) ∧ ∀ i j, M i j = if σ i = j then s i else 0 := by
  constructor
  · intro h
    have hrow : ∀ i, ∑ j, M i j * M i j = 1 := by
      intro i
      have := congrFun (congrFun h i) i
      simpa [Matrix.mul_apply, Matrix.transpose_apply] using this
    have hex : ∀ i, ∃ j, (M i j = 1 ∨ M i j = -1) ∧ ∀ j', j' ≠ j → M i j' = 0 := by
      intro i
      have hne : ∃ j, M i j ≠ 0 := by
        by_contra hcon
        push Not at hcon
        have := hrow i
        simp [hcon] at this
      obtain ⟨j, hj⟩ := hne
      have hle : ∀ j', j' ≠ j → M i j * M i j + M i j' * M i j' ≤ 1 := by
        intro j' hj'
        rw [← hrow i, ← Finset.add_sum_erase _ _ (Finset.mem_univ j)]
        have := Finset.single_le_sum (f := fun j => M i j * M i j) (s := Finset.univ.erase j) (fun k _ => mul_self_nonneg _)
          (Finset.mem_erase.mpr ⟨hj', Finset.mem_univ j'⟩)
        linarith
      have hsq : M i j * M i j ≤ 1 := by
        rw [← hrow i]
        exact Finset.single_le_sum (f := fun j => M i j * M i j) (fun k _ => mul_self_nonneg _) (Finset.mem_univ j)
      have hone : M i j = 1 ∨ M i j = -1 := by
        have h1 : M i j ≤ 1 := by nlinarith
        have h2 : -1 ≤ M i j := by nlinarith
        omega
      refine ⟨j, hone, fun j' hj' => ?_⟩
      have h3 := hle j' hj'
      have h4 : M i j * M i j = 1 := by rcases hone with e | e <;> rw [e] <;> rfl
      have h5 : M i j' * M i j' = 0 := by nlinarith [mul_self_nonneg (M i j')]
      exact mul_self_eq_zero.mp h5
    choose f hf1 hf2 using hex
    have hinj : Function.Injective f := by
      intro i k hik
      by_contra hne
      have h0 := congrFun (congrFun h i) k
      rw [Matrix.mul_apply, Matrix.one_apply_ne hne, ← Finset.add_sum_erase _ _ (Finset.mem_univ (f i)), Finset.sum_eq_zero] at h0
      · simp only [Matrix.transpose_apply, add_zero] at h0
        have hk := hf1 k
        rw [← hik] at hk
        rcases hf1 i with e | e <;> rcases hk with e' | e' <;> rw [e, e'] at h0 <;> simp at h0
      · intro j hj
        rw [hf2 i j (Finset.ne_of_mem_erase hj), zero_mul]
    have hbij : Function.Bijective f := (Finite.injective_iff_bijective).mp hinj
    refine ⟨Equiv.ofBijective f hbij, fun i => M i (f i), hf1, fun i j => ?_⟩
    simp only [Equiv.ofBijective_apply]
    split
    · rename_i e; rw [e]
    · rename_i e; exact hf2 i j (Ne.symm e)
  · rintro ⟨σ, s, hs, hM⟩
    ext i k
    rw [Matrix.mul_apply]
    simp only [Matrix.transpose_apply, hM]
    rw [Finset.sum_eq_single (σ i)]
    · rw [if_pos rfl]
      by_cases hik : i = k
      · subst hik
        rw [if_pos rfl, Matrix.one_apply_eq]
        rcases hs i with e | e <;> rw [e] <;> rfl
      · rw [if_neg (fun e => hik (σ.injective e.symm)), Matrix.one_apply_ne hik, mul_zero]
    · intro j _ hj
      rw [if_neg (Ne.symm hj), zero_mul]
    · intro hn; exact absurd (Finset.mem_univ _) hn

/-- C76: any other name raises KeyError. -/
theorem C76_unknown (name : String) (h : name ≠ "cubic" ∧ name ≠ "3d" ∧ name ≠ "square" ∧ name ≠ "2d") :
    create (R := R) name = .error .keyError := by
  simp [create, h.1, h.2.1, h.2.2.1, h.2.2.2]

theorem map_cast_mul (f : Int →+* R) (a b : Mat n Int) : (a * b).map f = a.map f * b.map f := Matrix.map_mul

theorem groupCombined_map (f : Int →+* R) (gs : List (List (Mat n Int))) : ∀ g0 : List (Mat n Int),
    (groupCombined g0 gs).map (fun m => m.map f) = groupCombined (g0.map (fun m => m.map f)) (gs.map (List.map (fun m => m.map f))) := by
  induction gs with
  | nil => intro g0; simp [groupCombined, groupCopied, opCopied]
  | cons g1 gs ih =>
      intro g0
      simp only [groupCombined, List.map_cons]
      rw [ih]
      congr 1
      simp only [List.map_flatMap, List.flatMap_map, List.map_map]
      congr 1
      funext a
      congr 1
      funext b
      simp [opCombined, opCopied, map_cast_mul]

/-- C76: over any commutative ring (the reals, say) the operations are those integer matrices. -/
theorem C76_over_ring : ∃ ops : List (Mat 3 Int), create "cubic" = .ok (.three ops) ∧ create (R := R) "cubic" = .ok (.three (ops.map (fun m => m.map (Int.castRingHom R)))) := by
  refine ⟨cubicZ, rfl, ?_⟩
  have h1 : (rotationOther (R := Int)).map (fun m => m.map (Int.castRingHom R)) = rotationOther := by
    simp [rotationOther, ← Matrix.ext_iff, Fin.forall_fin_succ]
  have h2 : (rotationXY (R := Int)).map (fun m => m.map (Int.castRingHom R)) = rotationXY := by
    simp [rotationXY, ← Matrix.ext_iff, Fin.forall_fin_succ]
  have h3 : (reflectionX (R := Int)).map (fun m => m.map (Int.castRingHom R)) = reflectionX := by
    simp [reflectionX, ← Matrix.ext_iff, Fin.forall_fin_succ]
  have h4 := groupCombined_map (Int.castRingHom R) [rotationXY, reflectionX] rotationOther
  simp only [List.map_cons, List.map_nil, h1, h2, h3] at h4
  unfold cubicZ
  rw [h4]
  rfl

/-- C76: so each operation of the cubic group preserves lengths and angles over any commutative ring. -/
theorem C76_isometries : ∃ ops : List (Mat 3 R), create "cubic" = .ok (.three ops) ∧ ops.length = 48 ∧
    ∀ m ∈ ops, ∀ x y : Fin 3 → R, (opCall m x) ⬝ᵥ (opCall m y) = x ⬝ᵥ y := by
  obtain ⟨ops, h1, h2⟩ := C76_over_ring (R := R)
  obtain ⟨ops', h1', -, h3, -, h4⟩ := C76_cubic
  rw [h1] at h1'
  cases h1'
  refine ⟨_, h2, by rw [List.length_map]; exact h3, ?_⟩
  intro m hm x y
  obtain ⟨M, hM, rfl⟩ := List.mem_map.mp hm
  refine C77_isometry _ ?_ x y
  have h5 : Mᵀ * M = 1 := mul_eq_one_comm.mp ((h4 M).mp hM)
  have h6 := congrArg (fun m : Mat 3 Int => m.map (Int.castRingHom R)) h5
  simp only [Matrix.map_mul] at h6
  rw [Matrix.map_one (Int.castRingHom R) (map_zero _) (map_one _)] at h6
  exact h6

/-- C76 (recorded defect): `len(group)` always raises AttributeError. -/
theorem C76_len_broken (ops : List (Mat n R)) : groupLen ops = .error .attributeError := rfl


/-- C76: the operations of 'cubic' form a group. -/
theorem C76_cubic_group : ∃ ops : List (Mat 3 Int), create "cubic" = .ok (.three ops) ∧ (1 : Mat 3 Int) ∈ ops ∧
    (∀ A ∈ ops, ∀ B ∈ ops, opCombined A [B] ∈ ops) ∧ ∀ A ∈ ops, ∃ B ∈ ops, opCombined A [B] = 1 ∧ opCombined B [A] = 1 := by
  obtain ⟨ops, h1, -, -, -, h2⟩ := C76_cubic
  obtain ⟨h3, h4, h5⟩ := C76_group ops h2
  exact ⟨ops, h1, h3, h4, fun A hA => ⟨Aᵀ, (h5 A hA).1, (h5 A hA).2⟩⟩

/-- C76: the operations of 'square' form a group. -/
theorem C76_square_group : ∃ ops : List (Mat 2 Int), create "square" = .ok (.two ops) ∧ (1 : Mat 2 Int) ∈ ops ∧
    (∀ A ∈ ops, ∀ B ∈ ops, opCombined A [B] ∈ ops) ∧ ∀ A ∈ ops, ∃ B ∈ ops, opCombined A [B] = 1 ∧ opCombined B [A] = 1 := by
  obtain ⟨ops, h1, -, -, -, h2⟩ := C76_square
  obtain ⟨h3, h4, h5⟩ := C76_group ops h2
  exact ⟨ops, h1, h3, h4, fun A hA => ⟨Aᵀ, (h5 A hA).1, (h5 A hA).2⟩⟩

/-- C76: over any commutative ring the operations of 'square' are those integer matrices. -/
theorem C76_square_over_ring : ∃ ops : List (Mat 2 Int), create "square" = .ok (.two ops) ∧
    create (R := R) "square" = .ok (.two (ops.map (fun m => m.map (Int.castRingHom R)))) := by
  refine ⟨squareZ, rfl, ?_⟩
  have h1 : (rotation2DXY (R := Int)).map (fun m => m.map (Int.castRingHom R)) = rotation2DXY := by
    simp [rotation2DXY, ← Matrix.ext_iff, Fin.forall_fin_succ]
  have h2 : (reflection2DX (R := Int)).map (fun m => m.map (Int.castRingHom R)) = reflection2DX := by
    simp [reflection2DX, ← Matrix.ext_iff, Fin.forall_fin_succ]
  have h4 := groupCombined_map (Int.castRingHom R) [reflection2DX] rotation2DXY
  simp only [List.map_cons, List.map_nil, h1, h2] at h4
  unfold squareZ
  rw [h4]
  rfl

/-- A quarter turn about z followed (first) by a mirror x → -x, on the vector (1, 2, 3). -/
example : opCall (opCombined (!![0, -1, 0; 1, 0, 0; 0, 0, 1] : Mat 3 Int) [!![-1, 0, 0; 0, 1, 0; 0, 0, 1]]) ![1, 2, 3] = ![-2, -1, 3] := by
  decide +kernel

/-- The hypothesis of `C77_isometry` holds for that quarter turn. -/
example : (!![0, -1, 0; 1, 0, 0; 0, 0, 1] : Mat 3 Int)ᵀ * !![0, -1, 0; 1, 0, 0; 0, 0, 1] = 1 := by decide +kernel

/-- C76: the order of the operations of 'cubic': the first is the identity, those at even positions are rotations (determinant 1), each followed by
itself after the reflection of x. -/
theorem C76_cubic_order : ∃ ops : List (Mat 3 Int), create "cubic" = .ok (.three ops) ∧ ops[0]? = some 1 ∧
    ∀ k, k < 24 → ∃ m, ops[2 * k]? = some m ∧ m.det = 1 ∧ ops[2 * k + 1]? = some (m * !![-1, 0, 0; 0, 1, 0; 0, 0, 1]) := by
  refine ⟨cubicZ, rfl, by decide +kernel, fun k hk => ?_⟩
  have h : ∀ j : Fin 24, cubicZ[2 * j.val]?.any (fun m => decide (m.det = 1) && decide (cubicZ[2 * j.val + 1]? = some (m * !![-1, 0, 0; 0, 1, 0; 0, 0, 1]))) = true := by
    simp only [Matrix.det_fin_three]
    decide +kernel
  have h1 := h ⟨k, hk⟩
  rw [Option.any_eq_true] at h1
  obtain ⟨m, h2, h3⟩ := h1
  simp only [Bool.and_eq_true, decide_eq_true_eq] at h3
  exact ⟨m, h2, h3.1, h3.2⟩

/-- C76: the order of the operations of 'square': the four turns by a multiple of a quarter (counter-clockwise), each followed by itself after the
reflection of x. -/
theorem C76_square_order : ∃ ops : List (Mat 2 Int), create "square" = .ok (.two ops) ∧
    ∀ k, k < 4 → ops[2 * k]? = some (!![0, -1; 1, 0] ^ k) ∧ ops[2 * k + 1]? = some (!![0, -1; 1, 0] ^ k * !![-1, 0; 0, 1]) := by
  refine ⟨squareZ, rfl, fun k hk => ?_⟩
  have : ∀ j : Fin 4, squareZ[2 * j.val]? = some (!![0, -1; 1, 0] ^ j.val) ∧ squareZ[2 * j.val + 1]? = some (!![0, -1; 1, 0] ^ j.val * !![-1, 0; 0, 1]) := by
    decide +kernel
  exact this ⟨k, hk⟩

/-- C76: in 'cubic' the operations 8i, 8i+2, 8i+4, 8i+6 are operation 8i after 0, 1, 2, 3 quarter turns of the x-y plane. -/
theorem C76_cubic_turns : ∃ ops : List (Mat 3 Int), create "cubic" = .ok (.three ops) ∧
    ∀ i k, i < 6 → k < 4 → ∃ m, ops[8 * i]? = some m ∧ ops[8 * i + 2 * k]? = some (m * !![0, -1, 0; 1, 0, 0; 0, 0, 1] ^ k) := by
  refine ⟨cubicZ, rfl, fun i k hi hk => ?_⟩
  have h : ∀ (i : Fin 6) (k : Fin 4), cubicZ[8 * i.val]?.any (fun m => decide (cubicZ[8 * i.val + 2 * k.val]? = some (m * !![0, -1, 0; 1, 0, 0; 0, 0, 1] ^ k.val))) = true := by
    decide +kernel
  have h1 := h ⟨i, hi⟩ ⟨k, hk⟩
  rw [Option.any_eq_true] at h1
  obtain ⟨m, h2, h3⟩ := h1
  exact ⟨m, h2, by simpa using h3⟩

/-- `C76_unknown` applies to the name 'hexagonal'. -/
example : create (R := Int) "hexagonal" = .error .keyError := C76_unknown _ (by decide)

end Pyhipp.PointGroup
