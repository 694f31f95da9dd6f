import Verif.Model.RngArrays
import Verif.Props.Grid
import Verif.Props.Stats
/-
C152: arrays drawn by `Rng` and `_Rng`.
-/
namespace Pyhipp.RngArrays
open Pyhipp Stats Grid

variable {σ : Type}

theorem flatIdx_snoc (s I : List Nat) (k j : Nat) (h : List.Forall₂ (fun i n => i < n) I s) :
    flatIdx (s ++ [k]) (I ++ [j]) = flatIdx s I * k + j := by
  induction h with
  | nil => simp [flatIdx]
  | @cons i n I s hi _ ih =>
      simp only [List.cons_append, flatIdx, ih, List.prod_append, List.prod_cons, List.prod_nil, mul_one]
      ring

theorem flatMap_get {β : Type} (k : Nat) (f : Nat → List β) (hf : ∀ i, (f i).length = k) (n i j : Nat) (hi : i < n) (hj : j < k) :
    ((List.range n).flatMap f)[i * k + j]? = (f i)[j]? := by
  induction n generalizing i with
  | zero => omega
  | succ n ih =>
      rw [List.range_succ, List.flatMap_append]
      have hl : ((List.range n).flatMap f).length = n * k := by
        rw [List.length_flatMap]
        simp [hf]
      rcases Nat.lt_or_ge i n with h | h
      · rw [List.getElem?_append_left (by rw [hl]; nlinarith), ih i h]
      · obtain rfl : i = n := by omega
        rw [List.getElem?_append_right (by rw [hl]; omega), hl]
        simp

/-- Stacking: element (I, j) of the stacked array is element I of the j-th array. -/
theorem stack_get (arrs : List Arr) (shape : List Nat) (hs : ∀ a ∈ arrs, a.shape = shape ∧ a.data.length = shape.prod) (hne : arrs ≠ []) :
    (stackLast arrs).shape = shape ++ [arrs.length] ∧
    ∀ I, List.Forall₂ (fun i n => i < n) I shape → ∀ j (hj : j < arrs.length), (stackLast arrs).get? (I ++ [j]) = arrs[j].get? I := by
  have hh : (arrs.head?.map (fun a => a.shape)).getD [] = shape := by
    rcases arrs with _ | ⟨a, t⟩
    · exact absurd rfl hne
    · exact (hs a (by simp)).1
  constructor
  · simp [stackLast, hh]
  · intro I hI j hj
    obtain ⟨a1, a2⟩ := hs arrs[j] (List.getElem_mem hj)
    have hlt := (indices_flatIdx shape I hI).1
    have hI' : List.Forall₂ (fun i n => i < n) (I ++ [j]) (shape ++ [arrs.length]) := List.rel_append hI (by simp [hj])
    unfold NDArr.get?
    simp only [stackLast, hh, hI', if_true, a1, hI]
    rw [flatIdx_snoc _ _ _ _ hI, flatMap_get _ _ (by simp) _ _ _ hlt hj, List.getElem?_map, List.getElem?_eq_getElem hj, Option.map_some,
      List.getD_eq_getElem?_getD, List.getElem?_eq_getElem (by rw [a2]; exact hlt), Option.getD_some]

theorem amap_get (f : ℝ → ℝ) (a : Arr) (I : List Nat) : (amap f a).get? I = (a.get? I).map f := by
  unfold NDArr.get? amap
  simp only
  split <;> simp

theorem amap2_get (f : ℝ → ℝ → ℝ) (a b : Arr) (h : b.shape = a.shape) (I : List Nat) (x y : ℝ) (hx : a.get? I = some x) (hy : b.get? I = some y) :
    (amap2 f a b).get? I = some (f x y) := by
  unfold NDArr.get? amap2 at *
  simp only [h] at *
  split at hx
  · rename_i hI
    simp only [hI, if_true] at hy ⊢
    rw [List.getElem?_zipWith, hx, hy]
  · cases hx

/-- Specification: a full array of the given shape. -/
def Full (a : Arr) (shape : List Nat) : Prop := a.shape = shape ∧ a.data.length = shape.prod

theorem Full.some {a : Arr} {shape : List Nat} (h : Full a shape) (I : List Nat) (hI : List.Forall₂ (fun i n => i < n) I shape) :
    ∃ v, a.get? I = some v ∧ v ∈ a.data := by
  have := (indices_flatIdx shape I hI).1
  have hl : flatIdx shape I < a.data.length := by rw [h.2]; exact this
  refine ⟨a.data[flatIdx shape I], ?_, List.getElem_mem hl⟩
  unfold NDArr.get?
  simp only [h.1, hI, if_true]
  exact List.getElem?_eq_getElem hl

/-- C152: `lg_normal` draws exactly what `normal` draws with the same arguments (and leaves the generator in the same state); the result
has the same shape and its elements are 10 to the power of the normal numbers: positive, with the normal number as decimal logarithm. -/
theorem C152_lg_normal (G : Gen σ) (hG : Contract G) (loc scale : ℝ) (size : Option (List Nat)) (s : σ) :
    (lgNormal G loc scale size s).2 = (normal G loc scale size s).2 ∧ (lgNormal G loc scale size s).1.shape = size.getD [] ∧
    ∀ I, List.Forall₂ (fun i n => i < n) I (size.getD []) →
      ∃ v n, (lgNormal G loc scale size s).1.get? I = some v ∧ (normal G loc scale size s).1.get? I = some n ∧ v = 10 ^ n ∧ 0 < v ∧
        Real.logb 10 v = n := by
  have hs := hG.shape (.normal loc scale size) s
  have hF : Full (normal G loc scale size s).1 (size.getD []) := ⟨hs.2, by rw [← hs.2]; exact hs.1⟩
  refine ⟨rfl, hs.2, ?_⟩
  intro I hI
  obtain ⟨n, hn, -⟩ := hF.some I hI
  refine ⟨10 ^ n, n, ?_, hn, rfl, Real.rpow_pos_of_pos (by norm_num) n, Real.logb_rpow (by norm_num) (by norm_num)⟩
  show (amap _ (normal G loc scale size s).1).get? I = _
  rw [amap_get, hn]
  rfl

/-- The numbers drawn for points on the sphere. -/
theorem sphere_draws (G : Gen σ) (hG : Contract G) (size : Option (List Nat)) (s : σ) :
    Full (uniform G (-1) 1 size s).1 (size.getD []) ∧ Full (uniform G 0 (2 * Real.pi) size (uniform G (-1) 1 size s).2).1 (size.getD []) ∧
    (∀ v ∈ (uniform G (-1) 1 size s).1.data, -1 ≤ v ∧ v ≤ 1) ∧
    (∀ v ∈ (uniform G 0 (2 * Real.pi) size (uniform G (-1) 1 size s).2).1.data, 0 ≤ v ∧ v ≤ 2 * Real.pi) := by
  have h1 := hG.shape (.uniform (-1) 1 size) s
  have h2 := hG.shape (.uniform 0 (2 * Real.pi) size) (uniform G (-1) 1 size s).2
  exact ⟨⟨h1.2, by rw [← h1.2]; exact h1.1⟩, ⟨h2.2, by rw [← h2.2]; exact h2.1⟩, hG.unif _ _ _ _ (by norm_num), hG.unif _ _ _ _ (by positivity)⟩

/-- C152: whatever `stack` and `cartesian` are, `uniform_sphere` draws `size` numbers from [-1, 1], then `size` numbers from [0, 2 pi], and
nothing else: the generator is left in the same state. -/
theorem C152_draws (G : Gen σ) (size : Option (List Nat)) (stack cartesian : Bool) (s : σ) :
    (uniformSphere G size stack cartesian s).2 = (G.step (.uniform 0 (2 * Real.pi) size) (G.step (.uniform (-1) 1 size) s).2).2 ∧
    (uniformCircle G size stack cartesian s).2 = (G.step (.uniform 0 (2 * Real.pi) size) s).2 ∧
    (jitSpherePolar G size s).2 = (uniformSphere G size stack cartesian s).2 ∧ (jitSphereCart G size s).2 = (uniformSphere G size stack cartesian s).2 :=
  ⟨rfl, rfl, rfl, rfl⟩

/-- C152: the jitted class gives the same numbers as the ordinary one, from the same state of the generator. -/
theorem C152_jit (G : Gen σ) (size : Option (List Nat)) (s : σ) :
    (∃ theta phi s', jitSpherePolar G size s = ((theta, phi), s') ∧ uniformSphere G size false false s = (.tuple [theta, phi], s')) ∧
    (∃ x y z s', jitSphereCart G size s = ((x, y, z), s') ∧ uniformSphere G size false true s = (.tuple [x, y, z], s')) :=
  ⟨⟨_, _, _, rfl, rfl⟩, ⟨_, _, _, _, rfl, rfl⟩⟩

/-- C152: **points on the sphere.** `uniform_sphere(stack=False)` gives three arrays x, y, z of shape `size`; `stack=True` one array of shape
`size + (3,)` with the same numbers, [..., 0] being x, [..., 1] y and [..., 2] z.  With `cartesian=False` the arrays are theta in [0, pi] and
phi in [0, 2 pi].  From the same state: cos(theta) = z is the first number drawn, phi the second, x = sin(theta) cos(phi),
y = sin(theta) sin(phi), and x^2 + y^2 + z^2 = 1. -/
theorem C152_sphere (G : Gen σ) (hG : Contract G) (size : Option (List Nat)) (s : σ) :
    ∃ x y z theta phi xyz tp s', uniformSphere G size false true s = (.tuple [x, y, z], s') ∧ uniformSphere G size false false s = (.tuple [theta, phi], s') ∧
      uniformSphere G size true true s = (.one xyz, s') ∧ uniformSphere G size true false s = (.one tp, s') ∧
      xyz.shape = size.getD [] ++ [3] ∧ tp.shape = size.getD [] ++ [2] ∧
      (∀ a ∈ [x, y, z, theta, phi], a.shape = size.getD []) ∧
      ∀ I, List.Forall₂ (fun i n => i < n) I (size.getD []) → ∃ c p t vx vy : ℝ,
        (G.step (.uniform (-1) 1 size) s).1.get? I = some c ∧
        (G.step (.uniform 0 (2 * Real.pi) size) (G.step (.uniform (-1) 1 size) s).2).1.get? I = some p ∧
        theta.get? I = some t ∧ phi.get? I = some p ∧ x.get? I = some vx ∧ y.get? I = some vy ∧ z.get? I = some c ∧
        xyz.get? (I ++ [0]) = some vx ∧ xyz.get? (I ++ [1]) = some vy ∧ xyz.get? (I ++ [2]) = some c ∧
        tp.get? (I ++ [0]) = some t ∧ tp.get? (I ++ [1]) = some p ∧
        0 ≤ t ∧ t ≤ Real.pi ∧ 0 ≤ p ∧ p ≤ 2 * Real.pi ∧ Real.cos t = c ∧
        vx = Real.sin t * Real.cos p ∧ vy = Real.sin t * Real.sin p ∧ vx ^ 2 + vy ^ 2 + c ^ 2 = 1 := by
  obtain ⟨F1, F2, r1, r2⟩ := sphere_draws G hG size s
  refine ⟨_, _, _, _, _, _, _, _, rfl, rfl, rfl, rfl, ?_, ?_, ?_, ?_⟩
  · simp [stackLast, unitVecToCart, amap2, amap]
    exact F1.1
  · simp [stackLast, amap]
    exact F1.1
  · intro a ha
    simp only [List.mem_cons, List.not_mem_nil, or_false] at ha
    rcases ha with rfl | rfl | rfl | rfl | rfl
    · exact F1.1
    · exact F1.1
    · exact F1.1
    · exact F1.1
    · exact F2.1
  · intro I hI
    obtain ⟨c, hc, hcm⟩ := F1.some I hI
    obtain ⟨p, hp, hpm⟩ := F2.some I hI
    have c1 := r1 c hcm
    have p1 := r2 p hpm
    generalize hC : (uniform G (-1) 1 size s).1 = C at hc hcm F1 r1
    generalize hP : (uniform G 0 (2 * Real.pi) size (uniform G (-1) 1 size s).2).1 = P at hp hpm F2 r2
    have hc' : (G.step (.uniform (-1) 1 size) s).1 = C := hC
    have hp' : (G.step (.uniform 0 (2 * Real.pi) size) (G.step (.uniform (-1) 1 size) s).2).1 = P := hP
    simp only [hc', hp', if_true, Bool.false_eq_true, if_false]
    have hcos : Real.cos (Real.arccos c) = c := Real.cos_arccos c1.1 c1.2
    have hth : (amap Real.arccos C).get? I = some (Real.arccos c) := by rw [amap_get, hc]; rfl
    have fth : Full (amap Real.arccos C) (size.getD []) := ⟨F1.1, by simp [amap, F1.2]⟩
    have hs : (amap Real.sin (amap Real.arccos C)).get? I = some (Real.sin (Real.arccos c)) := by rw [amap_get, hth]; rfl
    have hx : (amap2 (· * ·) (amap Real.sin (amap Real.arccos C)) (amap Real.cos P)).get? I = some (Real.sin (Real.arccos c) * Real.cos p) :=
      amap2_get _ _ _ (by simp [amap, F1.1, F2.1]) I _ _ hs (by rw [amap_get, hp]; rfl)
    have hy : (amap2 (· * ·) (amap Real.sin (amap Real.arccos C)) (amap Real.sin P)).get? I = some (Real.sin (Real.arccos c) * Real.sin p) :=
      amap2_get _ _ _ (by simp [amap, F1.1, F2.1]) I _ _ hs (by rw [amap_get, hp]; rfl)
    have hz : (amap Real.cos (amap Real.arccos C)).get? I = some c := by rw [amap_get, hth, Option.map_some, hcos]
    have st3 := (stack_get (unitVecToCart (amap Real.arccos C) P) (size.getD []) (by
      intro a ha
      simp only [unitVecToCart, List.mem_cons, List.not_mem_nil, or_false] at ha
      rcases ha with rfl | rfl | rfl
      · exact ⟨F1.1, by simp [amap2, amap, F1.2, F2.2]⟩
      · exact ⟨F1.1, by simp [amap2, amap, F1.2, F2.2]⟩
      · exact ⟨F1.1, by simp [amap, F1.2]⟩) (by simp [unitVecToCart])).2 I hI
    have st2 := (stack_get [amap Real.arccos C, P] (size.getD []) (by
      intro a ha
      simp only [List.mem_cons, List.not_mem_nil, or_false] at ha
      rcases ha with rfl | rfl
      · exact fth
      · exact F2) (by simp)).2 I hI
    refine ⟨c, p, Real.arccos c, _, _, hc, hp, hth, hp, hx, hy, hz, ?_, ?_, ?_, ?_, ?_, Real.arccos_nonneg c, Real.arccos_le_pi c, p1.1, p1.2, hcos, rfl, rfl, ?_⟩
    · exact (st3 0 (by simp [unitVecToCart])).trans hx
    · exact (st3 1 (by simp [unitVecToCart])).trans hy
    · exact (st3 2 (by simp [unitVecToCart])).trans hz
    · exact (st2 0 (by simp)).trans hth
    · exact (st2 1 (by simp)).trans hp
    · have h1 := Real.sin_sq_add_cos_sq (Real.arccos c)
      have h2 := Real.sin_sq_add_cos_sq p
      rw [hcos] at h1
      calc (Real.sin (Real.arccos c) * Real.cos p) ^ 2 + (Real.sin (Real.arccos c) * Real.sin p) ^ 2 + c ^ 2
          = Real.sin (Real.arccos c) ^ 2 * (Real.sin p ^ 2 + Real.cos p ^ 2) + c ^ 2 := by ring
        _ = 1 := by rw [h2, mul_one, h1]

/-- C152: **points on the circle:** (cos theta, sin theta) for the drawn theta in [0, 2 pi], which `cartesian=False` returns as it is (even with
`stack=True`). -/
theorem C152_circle (G : Gen σ) (hG : Contract G) (size : Option (List Nat)) (s : σ) :
    ∃ x y theta xy s', uniformCircle G size false true s = (.tuple [x, y], s') ∧ uniformCircle G size true true s = (.one xy, s') ∧
      (∀ stack, uniformCircle G size stack false s = (.one theta, s')) ∧ xy.shape = size.getD [] ++ [2] ∧ theta.shape = size.getD [] ∧
      ∀ I, List.Forall₂ (fun i n => i < n) I (size.getD []) → ∃ t : ℝ, (G.step (.uniform 0 (2 * Real.pi) size) s).1.get? I = some t ∧
        theta.get? I = some t ∧ 0 ≤ t ∧ t ≤ 2 * Real.pi ∧ x.get? I = some (Real.cos t) ∧ y.get? I = some (Real.sin t) ∧
        xy.get? (I ++ [0]) = some (Real.cos t) ∧ xy.get? (I ++ [1]) = some (Real.sin t) := by
  have h2 := hG.shape (.uniform 0 (2 * Real.pi) size) s
  have F : Full (G.step (.uniform 0 (2 * Real.pi) size) s).1 (size.getD []) := ⟨h2.2, by rw [← h2.2]; exact h2.1⟩
  refine ⟨_, _, _, _, _, rfl, rfl, fun stack => rfl, ?_, F.1, ?_⟩
  · simp [stackLast, unitVecToCart2d, amap]
    exact F.1
  · intro I hI
    obtain ⟨t, ht, htm⟩ := F.some I hI
    have t1 := hG.unif 0 (2 * Real.pi) size s (by positivity) t htm
    have hx : (amap Real.cos (uniform G 0 (2 * Real.pi) size s).1).get? I = some (Real.cos t) := by
      rw [amap_get]; exact congrArg (Option.map Real.cos) ht
    have hy : (amap Real.sin (uniform G 0 (2 * Real.pi) size s).1).get? I = some (Real.sin t) := by
      rw [amap_get]; exact congrArg (Option.map Real.sin) ht
    have st := (stack_get (unitVecToCart2d (uniform G 0 (2 * Real.pi) size s).1) (size.getD []) (by
      intro a ha
      simp only [unitVecToCart2d, List.mem_cons, List.not_mem_nil, or_false] at ha
      rcases ha with rfl | rfl <;> exact ⟨F.1, by simp only [amap, List.length_map]; exact F.2⟩) (by simp [unitVecToCart2d])).2 I hI
    exact ⟨t, ht, ht, t1.1, t1.2, hx, hy, (st 0 (by simp [unitVecToCart2d])).trans hx, (st 1 (by simp [unitVecToCart2d])).trans hy⟩

/-! A generator that keeps the contract: it counts its calls and returns the lower end, or the number of the call. -/

/-- An example. -/
noncomputable def exGen : Gen Nat where
  seeded := fun _ => 0
  step := fun op n => (match op with
    | .random z => { shape := z.getD [], data := List.replicate (z.getD []).prod 0 }
    | .uniform lo _ z => { shape := z.getD [], data := List.replicate (z.getD []).prod lo }
    | .standardNormal z => { shape := z.getD [], data := List.replicate (z.getD []).prod n }
    | .normal loc _ z => { shape := z.getD [], data := List.replicate (z.getD []).prod (loc + n) }, n + 1)

example : Contract exGen := by
  constructor
  · intro op s
    cases op <;> simp [exGen]
  · intro lo hi z s h v hv
    simp only [exGen, List.mem_replicate] at hv
    rw [hv.2]
    exact ⟨le_rfl, h⟩

example : (lgNormal exGen 1 1 (some [2]) 1).1.data = [100, 100] ∧ (lgNormal exGen 1 1 (some [2]) 1).2 = 2 := by
  have h : ((10 : ℝ) ^ ((1 : ℝ) + ((1 : ℕ) : ℝ))) = 100 := by
    rw [show ((1 : ℝ) + ((1 : ℕ) : ℝ)) = ((2 : ℕ) : ℝ) by norm_num, Real.rpow_natCast]; norm_num
  exact ⟨by simp only [lgNormal, normal, exGen, amap, Option.getD_some, List.prod_cons, List.prod_nil, mul_one, List.map_replicate, h]; rfl, rfl⟩


/-- C152: the plain draws make one call of the generator, of the same name and with the same arguments, and return its array; called without
arguments they ask for one number, from [0, 1] for `uniform` and with mean 0 and standard deviation 1 for `normal`. -/
theorem C152_forward (G : Gen σ) (hG : Contract G) (lo hi loc scale : ℝ) (size : Option (List Nat)) (s : σ) :
    random G size s = G.step (.random size) s ∧ uniform G lo hi size s = G.step (.uniform lo hi size) s ∧
    standardNormal G size s = G.step (.standardNormal size) s ∧ normal G loc scale size s = G.step (.normal loc scale size) s ∧
    random G (s := s) = G.step (.random none) s ∧ uniform G (s := s) = G.step (.uniform 0 1 none) s ∧
    standardNormal G (s := s) = G.step (.standardNormal none) s ∧ normal G (s := s) = G.step (.normal 0 1 none) s ∧
    (lo ≤ hi → ∀ v ∈ (uniform G lo hi size s).1.data, lo ≤ v ∧ v ≤ hi) ∧
    Full (random G size s).1 (size.getD []) ∧ Full (uniform G lo hi size s).1 (size.getD []) ∧
    Full (standardNormal G size s).1 (size.getD []) ∧ Full (normal G loc scale size s).1 (size.getD []) := by
  have F : ∀ op : GenOp, Full (G.step op s).1 ((match op with | .random z => z | .uniform _ _ z => z | .standardNormal z => z | .normal _ _ z => z).getD []) :=
    fun op => ⟨(hG.shape op s).2, (hG.shape op s).1.trans (congrArg List.prod (hG.shape op s).2)⟩
  exact ⟨rfl, rfl, rfl, rfl, rfl, rfl, rfl, rfl, fun h => hG.unif lo hi size s h, F (.random size), F (.uniform lo hi size), F (.standardNormal size),
    F (.normal loc scale size)⟩

end Pyhipp.RngArrays
