import Verif.Model.KernelReg
import Verif.Props.Regression
/-
C116: regression and density estimates see exactly the training points near the prediction point.
-/
namespace Pyhipp.KernelReg
open Pyhipp Reduction Stats Regression

/-! ### Specification -/

/-- Distance from training point `i` to `q`. -/
noncomputable def dTo (X : List (List ℝ)) (q : List ℝ) (i : Nat) : ℝ := dist (X.getD i []) q

/-- One row of a k-nearest-neighbour answer: `k` different training points with their distances, none of the others nearer. -/
def KnnRow (X : List (List ℝ)) (q : List ℝ) (k : Nat) (ds : List ℝ) (ids : List Nat) : Prop :=
  ids.Nodup ∧ ids.length = k ∧ (∀ i ∈ ids, i < X.length) ∧ ds = ids.map (dTo X q) ∧
  ∀ i ∈ ids, ∀ j < X.length, j ∉ ids → dTo X q i ≤ dTo X q j

/-- One row of a radius answer: exactly the training points within `r` (inclusive), in any order, with their distances. -/
def RadRow (X : List (List ℝ)) (q : List ℝ) (r : ℝ) (ids : List Nat) (ds : List ℝ) : Prop :=
  ids.Nodup ∧ (∀ i, i ∈ ids ↔ i < X.length ∧ dTo X q i ≤ r) ∧ ds = ids.map (dTo X q)

/-- The contract of sklearn's kd-tree. -/
structure KD.OK (T : KD) : Prop where
  query_len : ∀ X Q k, (T.query X Q k).1.length = Q.length ∧ (T.query X Q k).2.length = Q.length
  query_row : ∀ (X Q : List (List ℝ)) (k : Nat), k ≤ X.length → ∀ j < Q.length,
    KnnRow X (Q.getD j []) k ((T.query X Q k).1.getD j []) ((T.query X Q k).2.getD j [])
  radius_len : ∀ X Q r, (T.radius X Q r).1.length = Q.length ∧ (T.radius X Q r).2.length = Q.length
  radius_row : ∀ (X Q : List (List ℝ)) (r : ℝ), ∀ j < Q.length,
    RadRow X (Q.getD j []) r ((T.radius X Q r).1.getD j []) ((T.radius X Q r).2.getD j [])

/-- The training points within `r` of `q`, in training order. -/
noncomputable def within (X : List (List ℝ)) (q : List ℝ) (r : ℝ) : List Nat :=
  (List.range X.length).filter (fun i => decide (dTo X q i ≤ r))

/-- Weight of training point `i` seen from `q`: its training weight times the kernel at its distance (1 where not given). -/
noncomputable def wAt (X : List (List ℝ)) (w : Option (List ℝ)) (kernel : Option Kernel) (q : List ℝ) (i : Nat) : ℝ :=
  w.elim 1 (fun w => w.getD i 0) * kernel.elim 1 (fun k => k.eval (dTo X q i))

/-- The samples (value, weight) handed to a reduction. -/
def vals (l : List (ℝ × ℝ)) : List ℝ := l.map (fun p => p.1)
def wts (l : List (ℝ × ℝ)) (hasW : Bool) : Option (List ℝ) := if hasW then some (l.map (fun p => p.2)) else none

/-- A reduction that does not depend on the order of its samples. -/
def Sym {γ : Type} (red : Red1 γ) : Prop :=
  ∀ l l' : List (ℝ × ℝ), l.Perm l' → ∀ hasW, red (vals l) (wts l hasW) = red (vals l') (wts l' hasW)

/-- Are weights in play? -/
def hasWt (w : Option (List ℝ)) (kernel : Option Kernel) : Bool := w.isSome || kernel.isSome

/-- The training points `ids` as samples seen from `q`. -/
noncomputable def samples (X : List (List ℝ)) (y : List ℝ) (w : Option (List ℝ)) (kernel : Option Kernel) (q : List ℝ)
    (ids : List Nat) : List (ℝ × ℝ) := ids.map (fun i => (y.getD i 0, wAt X w kernel q i))

/-- A valid training set. -/
def TrainOK (X : List (List ℝ)) (y : List ℝ) (w : Option (List ℝ)) : Prop :=
  X ≠ [] ∧ (∃ d, 0 < d ∧ ∀ r ∈ X, r.length = d) ∧ y.length = X.length ∧ ∀ v, w = some v → v.length = X.length

/-- Query points of the dimension of the training set. -/
def QueryOK (X Q : List (List ℝ)) : Prop := Q ≠ [] ∧ ∀ r ∈ Q, r.length = (X.headD []).length

/-! ### The kd-tree contract is satisfiable: brute force -/

/-- Brute-force answers. -/
noncomputable def brute : KD where
  query X Q k :=
    let row := fun q => ((List.range X.length).mergeSort (fun i j => decide (dTo X q i ≤ dTo X q j))).take k
    (Q.map (fun q => (row q).map (dTo X q)), Q.map row)
  radius X Q r := (Q.map (fun q => within X q r), Q.map (fun q => (within X q r).map (dTo X q)))

theorem within_row (X : List (List ℝ)) (q : List ℝ) (r : ℝ) : RadRow X q r (within X q r) ((within X q r).map (dTo X q)) := by
  refine ⟨List.nodup_range.filter _, fun i => ?_, rfl⟩
  simp [within]

theorem getD_map' {β γ : Type} (f : β → γ) (l : List β) (j : Nat) (a : β) (b : γ) (h : j < l.length) :
    (l.map f).getD j b = f (l.getD j a) := by
  simp [List.getD_eq_getElem?_getD, List.getElem?_eq_getElem h]

theorem brute_ok : brute.OK where
  query_len X Q k := by simp [brute]
  query_row X Q k hk j hj := by
    simp only [brute]
    rw [getD_map' _ Q j [] _ hj, getD_map' _ Q j [] _ hj]
    generalize Q.getD j [] = q
    set L := (List.range X.length).mergeSort (fun i j => decide (dTo X q i ≤ dTo X q j)) with hL
    have hp : L.Perm (List.range X.length) := List.mergeSort_perm _ _
    have hn : L.Nodup := hp.nodup_iff.mpr List.nodup_range
    have hs : L.Pairwise (fun i j => dTo X q i ≤ dTo X q j) := by
      have := List.pairwise_mergeSort (le := fun i j => decide (dTo X q i ≤ dTo X q j))
        (fun a b c h1 h2 => by simp only [decide_eq_true_eq] at *; exact le_trans h1 h2)
        (fun a b => by simp only [Bool.or_eq_true, decide_eq_true_eq]; exact le_total _ _) (List.range X.length)
      exact this.imp (by intro a b h; simpa using h)
    refine ⟨hn.sublist (List.take_sublist _ _), ?_, ?_, rfl, ?_⟩
    · rw [List.length_take, hp.length_eq, List.length_range]; omega
    · intro i hi
      simpa using hp.mem_iff.mp (List.mem_of_mem_take hi)
    · intro i hi j hj hjn
      have hjL : j ∈ L := hp.mem_iff.mpr (by simpa using hj)
      rw [← List.take_append_drop k L] at hs hjL
      have hjd : j ∈ L.drop k := by
        rcases List.mem_append.mp hjL with h | h
        · exact absurd h hjn
        · exact h
      exact (List.pairwise_append.mp hs).2.2 i hi j hjd
  radius_len X Q r := by simp [brute]
  radius_row X Q r j hj := by
    simp only [brute]
    rw [getD_map' _ Q j [] _ hj, getD_map' _ Q j [] _ hj]
    exact within_row _ _ _


/-! ### C116 -/

theorem treeCheck_ok (X : List (List ℝ)) (y : List ℝ) (w : Option (List ℝ)) (h : TrainOK X y w) : treeCheck X = .ok () := by
  obtain ⟨hne, ⟨d, hd, hr⟩, _, _⟩ := h
  unfold treeCheck
  rw [if_neg]
  rintro (h | ⟨r, hr1, h | h⟩)
  · exact hne h
  · obtain ⟨a, t, rfl⟩ := List.exists_cons_of_ne_nil hne
    apply h
    rw [hr r hr1]
    simp only [List.headD_cons]
    rw [hr a (by simp)]
  · have := hr r hr1
    subst h
    simp at this
    omega

theorem queryCheck_ok (X Q : List (List ℝ)) (h : QueryOK X Q) : queryCheck X Q = .ok () := by
  unfold queryCheck
  rw [if_neg]
  rintro (h' | ⟨r, hr1, h'⟩)
  · exact h.1 h'
  · exact h' (h.2 r hr1)

theorem gatherCheck_ok (y : List ℝ) (ids : List (List Nat)) (h : ∀ r ∈ ids, ∀ i ∈ r, i < y.length) :
    gatherCheck y ids = .ok () := by
  unfold gatherCheck
  rw [if_pos]
  simp only [List.all_eq_true, decide_eq_true_eq]
  exact h

theorem weightCheck_ok (w : Option (List ℝ)) (ids : List (List Nat)) (n : Nat) (hw : ∀ v, w = some v → v.length = n)
    (h : ∀ r ∈ ids, ∀ i ∈ r, i < n) : weightCheck w ids = .ok () := by
  cases w with
  | none => rfl
  | some v => exact gatherCheck_ok v ids (by rw [hw v rfl]; exact h)

theorem mem_getD {β : Type} (l : List β) (a d : β) (h : a ∈ l) : ∃ j < l.length, l.getD j d = a := by
  obtain ⟨j, hj, e⟩ := List.getElem_of_mem h
  exact ⟨j, hj, by rw [getD_lt _ _ _ hj, e]⟩

theorem radius_valid (T : KD) (hT : T.OK) (X Q : List (List ℝ)) (r : ℝ) :
    ∀ row ∈ (T.radius X Q r).1, ∀ i ∈ row, i < X.length := by
  intro row hrow i hi
  obtain ⟨j, hj, e⟩ := mem_getD _ _ [] hrow
  rw [(hT.radius_len X Q r).1] at hj
  obtain ⟨_, h, _⟩ := hT.radius_row X Q r j hj
  rw [e] at h
  exact ((h i).mp hi).1

theorem query_valid (T : KD) (hT : T.OK) (X Q : List (List ℝ)) (k : Nat) (hk : k ≤ X.length) :
    ∀ row ∈ (T.query X Q k).2, ∀ i ∈ row, i < X.length := by
  intro row hrow i hi
  obtain ⟨j, hj, e⟩ := mem_getD _ _ [] hrow
  rw [(hT.query_len X Q k).2] at hj
  obtain ⟨_, _, h, _⟩ := hT.query_row X Q k hk j hj
  rw [e] at h
  exact h i hi

/-- Row weights as samples. -/
theorem rowW_samples (X : List (List ℝ)) (y : List ℝ) (w : Option (List ℝ)) (kernel : Option Kernel) (q : List ℝ)
    (ids : List Nat) :
    rowW w kernel (ids.map (dTo X q)) ids = wts (samples X y w kernel q ids) (hasWt w kernel) := by
  unfold rowW wts hasWt
  rcases w with _ | w <;> rcases kernel with _ | k <;> simp [samples, wt, wAt, List.zipWith_map_left, Function.comp_def]
  all_goals
    induction ids with
    | nil => rfl
    | cons a t ih => simp [ih]

theorem vals_samples (X : List (List ℝ)) (y : List ℝ) (w : Option (List ℝ)) (kernel : Option Kernel) (q : List ℝ)
    (ids : List Nat) : ids.map (fun i => y.getD i 0) = vals (samples X y w kernel q ids) := by
  simp [vals, samples]

/-- A radius row is the set of points within the radius, reordered. -/
theorem row_perm (X : List (List ℝ)) (q : List ℝ) (r : ℝ) (ids : List Nat) (ds : List ℝ) (h : RadRow X q r ids ds) :
    ids.Perm (within X q r) := by
  rw [List.perm_ext_iff_of_nodup h.1 (within_row X q r).1]
  intro i
  rw [h.2.1 i, (within_row X q r).2.1 i]

/-- Pointwise equality of a zip over answers with a map over the queries. -/
theorem zip_rows {γ : Type} (A : List (List ℝ)) (B : List (List Nat)) (Q : List (List ℝ)) (f : List ℝ → List Nat → γ)
    (g : List ℝ → γ) (hA : A.length = Q.length) (hB : B.length = Q.length)
    (h : ∀ j < Q.length, f (A.getD j []) (B.getD j []) = g (Q.getD j [])) :
    List.zipWith f A B = Q.map g := by
  apply List.ext_getElem
  · simp [hA, hB]
  · intro j h1 h2
    have hj : j < Q.length := by simpa using h2
    have := h j hj
    rw [getD_lt _ _ _ (by omega), getD_lt _ _ _ (by omega), getD_lt _ _ _ hj] at this
    simp [this]

/-- C116: `by_local_kernel`.  For every kd-tree that keeps its contract, every prediction is the reduction of exactly the
training points within the radius (inclusive) of its own prediction point, weighted by training weight times kernel; each entry
of `out['y']` has one value per prediction point, in order, and `out['y_<name>']` is the entry of the last reduction so
named.  Without `max_dx` the radius is a tenth of the mean standard deviation of the *prediction* points. -/
theorem C116_local {γ : Type} (T : KD) (hT : T.OK) (x xPred : In) (X Q : List (List ℝ)) (hx : cvt x = .ok X)
    (hq : cvt xPred = .ok Q) (y : List ℝ) (w : Option (List ℝ)) (ht : TrainOK X y w) (hQ : QueryOK X Q) (maxDx : Option ℝ)
    (reduce : List (String × Red1 γ)) (hsym : ∀ r ∈ reduce, Sym r.2) (kernel : Option Kernel) :
    ∃ named, regLocal T x y w xPred maxDx (.seq reduce) kernel = .ok (reduce.map (fun red => Q.map (fun q : List ℝ =>
        let s := samples X y w kernel q (within X q (maxDx.getD (defaultDx Q)))
        red.2 (vals s) (wts s (hasWt w kernel)))), named) ∧
      ∀ n, named.get? ("y_" ++ n) = (reduce.reverse.find? (fun r => r.1 = n)).map (fun red => Q.map (fun q : List ℝ =>
        let s := samples X y w kernel q (within X q (maxDx.getD (defaultDx Q)))
        red.2 (vals s) (wts s (hasWt w kernel)))) := by
  have hv := radius_valid T hT X Q (maxDx.getD (defaultDx Q))
  have hr := hT.radius_row X Q (maxDx.getD (defaultDx Q))
  have hl := hT.radius_len X Q (maxDx.getD (defaultDx Q))
  obtain ⟨named, e, hn⟩ := C54_local (γ := γ) y w (T.radius X Q (maxDx.getD (defaultDx Q))).2
    (T.radius X Q (maxDx.getD (defaultDx Q))).1 reduce kernel (by
      intro p hp
      obtain ⟨j, hj, e⟩ := mem_getD _ _ ([], []) hp
      have hj' : j < Q.length := by simp [hl.1, hl.2] at hj; exact hj
      have := (hr j hj').2.2
      rw [getD_lt _ _ _ hj, List.getElem_zip] at e
      rw [← e]
      have g1 := getD_lt (T.radius X Q (maxDx.getD (defaultDx Q))).1 j [] (by omega)
      have g2 := getD_lt (T.radius X Q (maxDx.getD (defaultDx Q))).2 j [] (by omega)
      rw [g1, g2] at this
      simp only
      rw [this]
      simp)
  have key : ∀ red ∈ reduce, List.zipWith (fun d id => red.2 (id.map (fun i => y.getD i 0)) (rowW w kernel d id))
      (T.radius X Q (maxDx.getD (defaultDx Q))).2 (T.radius X Q (maxDx.getD (defaultDx Q))).1
      = Q.map (fun q : List ℝ =>
        let s := samples X y w kernel q (within X q (maxDx.getD (defaultDx Q)))
        red.2 (vals s) (wts s (hasWt w kernel))) := by
    intro red hred
    apply zip_rows _ _ _ _ _ hl.2 hl.1
    intro j hj
    have h := hr j hj
    simp only
    rw [h.2.2, rowW_samples X y, vals_samples X y w kernel (Q.getD j [])]
    exact hsym red hred _ _ ((row_perm X _ _ _ _ h).map _) _
  refine ⟨named, ?_, fun n => ?_⟩
  · unfold regLocal
    rw [hx, hq]
    simp only [bind, Except.bind]
    rw [treeCheck_ok X y w ht, queryCheck_ok X Q hQ, gatherCheck_ok y _ (by rw [ht.2.2.1]; exact hv),
      weightCheck_ok w _ X.length ht.2.2.2 hv]
    simp only
    rw [e]
    congr 2
    exact List.map_congr_left key
  · rw [hn n]
    apply Option.map_congr
    intro red hred
    exact key red (by simpa using List.mem_of_find?_eq_some hred)

/-- C116: the order-independent reductions of the library. -/
theorem C116_symmetric (fill : ℝ) :
    Sym (fun x w => mean1d fill x w none) ∧ Sym (fun x w => sum1d x w none) ∧ Sym (fun x _ => count1d x none) ∧
    Sym (fun x w => stdDev1d fill x w none) := by
  have conv : ∀ (l : List (ℝ × ℝ)) (b : Bool), vals l = xs (l.map (fun p => (p.1, p.2, true))) ∧
      wts l b = ws (l.map (fun p => (p.1, p.2, true))) b ∧ (none : Option (List Bool)) = ms (l.map (fun p => (p.1, p.2, true))) false := by
    intro l b
    refine ⟨by simp [vals, xs], by simp [wts, ws, Function.comp_def], by simp [ms]⟩
  refine ⟨?_, ?_, ?_, ?_⟩ <;> intro l l' hp b <;> simp only [(conv l b).1, (conv l b).2.1, (conv l' b).1, (conv l' b).2.1]
  · have := (C45_perm fill _ _ (hp.map (fun p : ℝ × ℝ => (p.1, p.2, true))) b false).2.2
    simpa [ms] using this
  · have := (C45_perm fill _ _ (hp.map (fun p : ℝ × ℝ => (p.1, p.2, true))) b false).2.1
    simpa [ms] using this
  · have := (C45_perm fill _ _ (hp.map (fun p : ℝ × ℝ => (p.1, p.2, true))) b false).1
    simpa [ms] using this
  · have := C45_perm_stdDev fill _ _ (hp.map (fun p : ℝ × ℝ => (p.1, p.2, true))) b false
    simpa [ms] using this


/-- A training set as rows (point, target, weight). -/
abbrev Tr := List (List ℝ × ℝ × ℝ)
def Tr.X (t : Tr) : List (List ℝ) := t.map (fun p => p.1)
def Tr.y (t : Tr) : List ℝ := t.map (fun p => p.2.1)
def Tr.w (t : Tr) (hasW : Bool) : Option (List ℝ) := if hasW then some (t.map (fun p => p.2.2)) else none

/-- The samples of a prediction point, read off the rows of the training set. -/
theorem samples_rows (t : Tr) (hasW : Bool) (kernel : Option Kernel) (q : List ℝ) (r : ℝ) :
    samples t.X t.y (t.w hasW) kernel q (within t.X q r) = (t.filter (fun p => decide (dist p.1 q ≤ r))).map
      (fun p => (p.2.1, (if hasW then p.2.2 else 1) * kernel.elim 1 (fun k => k.eval (dist p.1 q)))) := by
  have hget : ∀ i (h : i < t.length), t.X.getD i [] = t[i].1 ∧ t.y.getD i 0 = t[i].2.1 ∧
      (t.w hasW).elim 1 (fun w => w.getD i 0) = if hasW then t[i].2.2 else 1 := by
    intro i h
    refine ⟨?_, ?_, ?_⟩
    · rw [getD_lt _ _ _ (by simpa [Tr.X] using h)]; simp [Tr.X]
    · rw [getD_lt _ _ _ (by simpa [Tr.y] using h)]; simp [Tr.y]
    · cases hasW
      · simp [Tr.w]
      · simp only [Tr.w, if_true, Option.elim]
        rw [getD_lt _ _ _ (by simpa using h)]; simp
  have ht : t = (List.range t.length).map (fun i => t.getD i ([], 0, 0)) := by
    apply List.ext_getElem
    · simp
    · intro i h1 h2
      simp [h1]
  conv_rhs => rw [ht]
  rw [List.filter_map, List.map_map]
  have hlen : t.X.length = t.length := by simp [Tr.X]
  unfold samples within
  rw [hlen]
  have hf : List.filter (fun i => decide (dTo t.X q i ≤ r)) (List.range t.length)
      = List.filter ((fun p : List ℝ × ℝ × ℝ => decide (dist p.1 q ≤ r)) ∘ fun i => t.getD i ([], 0, 0)) (List.range t.length) := by
    apply List.filter_congr
    intro i hi
    have hi' : i < t.length := by simpa using hi
    have e : List.getD t i ([], 0, 0) = t[i] := getD_lt _ _ _ hi'
    simp only [Function.comp, dTo, (hget i hi').1, e]
  rw [hf]
  apply List.map_congr_left
  intro i hi
  have hi' : i < t.length := by simpa using List.mem_of_mem_filter hi
  simp only [Function.comp, wAt, dTo, (hget i hi').1, (hget i hi').2.1, (hget i hi').2.2]
  rw [getD_lt _ _ _ hi']

/-- C116: the order of the training rows, the layout of the tree and the order in which it reports neighbours do not matter:
for any two trees that keep the contract and any rearrangement of the training rows, `out['y']` is the same. -/
theorem C116_train_order {γ : Type} (T T' : KD) (hT : T.OK) (hT' : T'.OK) (t t' : Tr) (hp : t.Perm t') (hasW : Bool)
    (ht : TrainOK t.X t.y (t.w hasW)) (xPred : In) (Q : List (List ℝ)) (hq : cvt xPred = .ok Q) (hQ : QueryOK t.X Q)
    (maxDx : Option ℝ) (reduce : List (String × Red1 γ)) (hsym : ∀ r ∈ reduce, Sym r.2) (kernel : Option Kernel) :
    ∃ out n n', regLocal T (.d2 t.X) t.y (t.w hasW) xPred maxDx (.seq reduce) kernel = .ok (out, n) ∧
      regLocal T' (.d2 t'.X) t'.y (t'.w hasW) xPred maxDx (.seq reduce) kernel = .ok (out, n') ∧ ∀ k, n.get? ("y_" ++ k) = n'.get? ("y_" ++ k) := by
  have hX : t.X.Perm t'.X := hp.map _
  obtain ⟨d, hd, hdim⟩ := ht.2.1
  have ht' : TrainOK t'.X t'.y (t'.w hasW) := by
    refine ⟨fun h => ht.1 (by rw [h] at hX; exact List.perm_nil.mp hX), ⟨d, hd, fun r hr => hdim r (hX.mem_iff.mpr hr)⟩,
      by simp [Tr.X, Tr.y], fun v hv => ?_⟩
    cases hasW
    · simp [Tr.w] at hv
    · simp only [Tr.w, if_true, Option.some.injEq] at hv
      subst hv
      simp [Tr.X]
  have hhead : ∀ L : List (List ℝ), L ≠ [] → (∀ r ∈ L, r.length = d) → (L.headD []).length = d := by
    intro L hL hr
    obtain ⟨a, l, rfl⟩ := List.exists_cons_of_ne_nil hL
    exact hr a (by simp)
  have hQ' : QueryOK t'.X Q := by
    refine ⟨hQ.1, fun r hr => ?_⟩
    rw [hQ.2 r hr, hhead t.X ht.1 hdim, hhead t'.X ht'.1 (fun r hr => hdim r (hX.mem_iff.mpr hr))]
  obtain ⟨n, e, hn⟩ := C116_local T hT (.d2 t.X) xPred t.X Q rfl hq t.y (t.w hasW) ht hQ maxDx reduce hsym kernel
  obtain ⟨n', e', hn'⟩ := C116_local T' hT' (.d2 t'.X) xPred t'.X Q rfl hq t'.y (t'.w hasW) ht' hQ' maxDx reduce hsym kernel
  have hw : hasWt (t.w hasW) kernel = hasWt (t'.w hasW) kernel := by
    cases hasW <;> simp [hasWt, Tr.w]
  have key : ∀ red ∈ reduce, Q.map (fun q : List ℝ =>
        let s := samples t'.X t'.y (t'.w hasW) kernel q (within t'.X q (maxDx.getD (defaultDx Q)))
        red.2 (vals s) (wts s (hasWt (t'.w hasW) kernel))) = Q.map (fun q : List ℝ =>
        let s := samples t.X t.y (t.w hasW) kernel q (within t.X q (maxDx.getD (defaultDx Q)))
        red.2 (vals s) (wts s (hasWt (t.w hasW) kernel))) := by
    intro red hred
    apply List.map_congr_left
    intro q _
    simp only
    rw [samples_rows, samples_rows, hw]
    exact hsym red hred _ _ (((hp.filter _).map _).symm) _
  refine ⟨_, n, n', e, ?_, fun k => ?_⟩
  · rw [e']
    congr 2
    exact List.map_congr_left key
  · rw [hn k, hn' k]
    apply Option.map_congr
    intro red hred
    exact (key red (by simpa using List.mem_of_find?_eq_some hred)).symm

/-- The `k` nearest training points, in training order: those with fewer than `k` strictly nearer ones. -/
noncomputable def nearest (X : List (List ℝ)) (q : List ℝ) (k : Nat) : List Nat :=
  (List.range X.length).filter (fun i => decide (((List.range X.length).filter (fun j => decide (dTo X q j < dTo X q i))).length < k))

/-- No two training points at the same distance from `q`. -/
def NoTies (X : List (List ℝ)) (q : List ℝ) : Prop :=
  ∀ i < X.length, ∀ j < X.length, dTo X q i = dTo X q j → i = j

/-- Without ties a k-nearest-neighbour row is determined up to order. -/
theorem knn_perm (X : List (List ℝ)) (q : List ℝ) (k : Nat) (ds : List ℝ) (ids : List Nat) (h : KnnRow X q k ds ids)
    (hnt : NoTies X q) : ids.Perm (nearest X q k) := by
  obtain ⟨hn, hl, hv, _, hmin⟩ := h
  unfold nearest
  rw [List.perm_ext_iff_of_nodup hn (List.nodup_range.filter _)]
  intro i
  rw [List.mem_filter, List.mem_range, decide_eq_true_eq]
  constructor
  · intro hi
    refine ⟨hv i hi, ?_⟩
    have hsub : ((List.range X.length).filter (fun j => decide (dTo X q j < dTo X q i))).Subperm (ids.erase i) := by
      apply List.subperm_of_subset (List.nodup_range.filter _)
      intro j hj
      rw [List.mem_filter, List.mem_range, decide_eq_true_eq] at hj
      rw [hn.mem_erase_iff]
      refine ⟨fun e => by subst e; exact absurd hj.2 (lt_irrefl _), ?_⟩
      by_contra hjn
      exact absurd hj.2 (not_lt.mpr (hmin i hi j hj.1 hjn))
    have := hsub.length_le
    rw [List.length_erase_of_mem hi] at this
    have : 0 < ids.length := List.length_pos_iff.mpr (List.ne_nil_of_mem hi)
    omega
  · rintro ⟨hi, hlt⟩
    by_contra hin
    have hsub : ids.Subperm ((List.range X.length).filter (fun j => decide (dTo X q j < dTo X q i))) := by
      apply List.subperm_of_subset hn
      intro j hj
      rw [List.mem_filter, List.mem_range, decide_eq_true_eq]
      refine ⟨hv j hj, lt_of_le_of_ne (hmin j hj i hi hin) fun e => ?_⟩
      have := hnt j (hv j hj) i hi e
      subst this
      exact hin hj
    have := hsub.length_le
    omega

/-- The counted neighbours of a row of distances and indices. -/
theorem neigh_eq (X : List (List ℝ)) (q : List ℝ) (maxDx : Option ℝ) (ids : List Nat) :
    neigh maxDx (ids.map (dTo X q)) ids = (ids.filter (fun i => maxDx.elim true (fun m => decide (dTo X q i < m)))).map
      (fun i => (dTo X q i, i)) := by
  unfold neigh
  induction ids with
  | nil => rfl
  | cons a t ih =>
      simp only [List.map_cons, List.zip_cons_cons, List.filter_cons]
      rw [ih]
      split_ifs <;> simp

/-- C116: `by_knn` with the mean.  Where no two training points are equally far from the prediction point, the prediction is
the weighted mean over the `k` nearest of them, cut (strictly) at `max_dx`; the fill value if none is left. -/
theorem C116_knn (T : KD) (hT : T.OK) (x xPred : In) (X Q : List (List ℝ)) (hx : cvt x = .ok X) (hq : cvt xPred = .ok Q)
    (y : List ℝ) (w : Option (List ℝ)) (ht : TrainOK X y w) (hQ : QueryOK X Q) (k : Nat) (hk : k ≤ X.length)
    (maxDx : Option ℝ) (kernel : Option Kernel) (fill : ℝ) :
    ∃ v named, regKnn T x y w xPred k maxDx [("mean", mean2d fill k)] kernel = .ok ([v], named) ∧
      named.get? "y_mean" = some v ∧ v.length = Q.length ∧ ∀ j < Q.length, NoTies X (Q.getD j []) →
        let near := (nearest X (Q.getD j []) k).filter (fun i => maxDx.elim true (fun m => decide (dTo X (Q.getD j []) i < m)))
        v[j]? = some (if near = [] then fill else
          (near.map (fun i => y.getD i 0 * wAt X w kernel (Q.getD j []) i)).sum /
          (near.map (wAt X w kernel (Q.getD j []))).sum) := by
  have hv := query_valid T hT X Q k hk
  have hr := hT.query_row X Q k hk
  have hl := hT.query_len X Q k
  have hQr : Query k (T.query X Q k).1 (T.query X Q k).2 := by
    refine ⟨by rw [hl.1, hl.2], ?_, ?_⟩
    · intro row hrow
      obtain ⟨j, hj, e⟩ := mem_getD _ _ [] hrow
      have := hr j (by omega)
      rw [← e, this.2.2.2.1, List.length_map, this.2.1]
    · intro row hrow
      obtain ⟨j, hj, e⟩ := mem_getD _ _ [] hrow
      have := hr j (by omega)
      rw [← e, this.2.1]
  refine ⟨mean2d fill k (gather y (T.query X Q k).2) (knnWeight w (T.query X Q k).1 (T.query X Q k).2 kernel)
    (knnMask (T.query X Q k).1 maxDx), _, by
      unfold regKnn
      rw [hx, hq]
      simp only [bind, Except.bind]
      rw [treeCheck_ok X y w ht, queryCheck_ok X Q hQ, gatherCheck_ok y _ (by rw [ht.2.2.1]; exact hv),
        weightCheck_ok w _ X.length ht.2.2.2 hv]
      simp only
      rw [if_neg (by omega)]
      rfl, ?_, ?_, ?_⟩
  · exact PyDict.get?_set_self _ _ _
  · have hq0 : 0 < Q.length := List.length_pos_iff.mpr hQ.1
    rw [(C54_mean fill k y w _ _ maxDx kernel hQr 0 (by omega) (by omega)).1, hl.2]
  · intro j hj hnt
    have h1 : j < (T.query X Q k).1.length := by omega
    have h2 : j < (T.query X Q k).2.length := by omega
    rw [(C54_mean fill k y w _ _ maxDx kernel hQr j h1 h2).2]
    have hrow := hr j hj
    rw [getD_lt (T.query X Q k).1 j [] h1, getD_lt (T.query X Q k).2 j [] h2] at hrow
    generalize Q.getD j [] = q at *
    have hperm := knn_perm X q k _ _ hrow hnt
    rw [hrow.2.2.2.1]
    generalize (T.query X Q k).2[j] = ids at *
    have hne := neigh_eq X q maxDx ids
    rw [hne]
    have hpf := hperm.filter (fun i => maxDx.elim true (fun m => decide (dTo X q i < m)))
    simp only [List.map_map, List.map_eq_nil_iff]
    have e0 : ((ids.filter (fun i => maxDx.elim true (fun m => decide (dTo X q i < m)))) = []) ↔
        ((nearest X q k).filter (fun i => maxDx.elim true (fun m => decide (dTo X q i < m)))) = [] := by
      constructor
      · intro h; rw [h] at hpf; exact List.nil_perm.mp hpf
      · intro h; rw [h] at hpf; exact List.perm_nil.mp hpf
    have s1 := (hpf.map (fun i => y.getD i 0 * wAt X w kernel q i)).sum_eq
    have s2 := (hpf.map (wAt X w kernel q)).sum_eq
    congr 1
    rw [← s1, ← s2]
    simp only [e0]
    rfl


/-- C116: refusals, none of which depends on the tree: arrays of more than two dimensions (AssertionError), an empty training
set, prediction points of another dimension, no prediction points, and more neighbours than training points (ValueError). -/
theorem C116_reject {γ : Type} (T : KD) (x xPred : In) (X Q : List (List ℝ)) (y : List ℝ) (w : Option (List ℝ)) (k : Nat)
    (maxDx : Option ℝ) (reduce : List (String × Red2 γ)) (kernel : Option Kernel) :
    regKnn T .other y w xPred k maxDx reduce kernel = .error .assertionError ∧
    (cvt x = .ok [] → regKnn T x y w xPred k maxDx reduce kernel = .error .valueError) ∧
    (cvt x = .ok X → TrainOK X y w → regKnn T x y w .other k maxDx reduce kernel = .error .assertionError) ∧
    (cvt x = .ok X → TrainOK X y w → cvt xPred = .ok Q →
      (Q = [] ∨ (∃ r ∈ Q, r.length ≠ (X.headD []).length) ∨ X.length < k) →
      regKnn T x y w xPred k maxDx reduce kernel = .error .valueError) := by
  refine ⟨rfl, fun h => ?_, fun h ht => ?_, fun h ht hq hc => ?_⟩
  · unfold regKnn
    rw [h]
    simp [treeCheck, bind, Except.bind]
  · unfold regKnn
    rw [h]
    simp [treeCheck_ok X y w ht, cvt, bind, Except.bind]
  · unfold regKnn
    rw [h, hq]
    simp only [bind, Except.bind, treeCheck_ok X y w ht]
    by_cases hb : Q = [] ∨ ∃ r ∈ Q, r.length ≠ (X.headD []).length
    · rw [queryCheck, if_pos hb]
    · rw [queryCheck, if_neg hb]
      have : X.length < k := by
        rcases hc with h1 | h1 | h1
        · exact absurd (Or.inl h1) hb
        · exact absurd (Or.inr h1) hb
        · exact h1
      simp only [this, if_true]

/-- One-dimensional arguments are columns. -/
theorem C116_column {γ : Type} (T : KD) (xs qs : List ℝ) (y : List ℝ) (w : Option (List ℝ)) (maxDx : Option ℝ)
    (reduce : Src (String × Red1 γ)) (kernel : Option Kernel) :
    regLocal T (.d1 xs) y w (.d1 qs) maxDx reduce kernel
      = regLocal T (.d2 (xs.map (fun a => [a]))) y w (.d2 (qs.map (fun a => [a]))) maxDx reduce kernel := rfl

/-- The spread of a single prediction point is zero. -/
theorem defaultDx_single (q : List ℝ) : defaultDx [q] = 0 := by
  have h : ∀ a : ℝ, npStd [a] = 0 := by intro a; simp [npStd, npMean]
  have : (List.range q.length).map (fun j => npStd (column [q] j)) = (List.range q.length).map (fun _ => (0 : ℝ)) := by
    apply List.map_congr_left
    intro j _
    simp [column, h]
  simp [defaultDx, npMean, this]

/-- C116 (defect): without `max_dx`, a single prediction point gets radius 0: unless it coincides with a training point no
neighbour is found and the mean is the fill value, whatever the training set. -/
theorem C116_default_radius_defect (T : KD) (hT : T.OK) (x : In) (X : List (List ℝ)) (hx : cvt x = .ok X) (q y : List ℝ)
    (w : Option (List ℝ)) (ht : TrainOK X y w) (hQ : QueryOK X [q]) (kernel : Option Kernel) (fill : ℝ)
    (hfar : ∀ i < X.length, 0 < dTo X q i) :
    ∃ named, regLocal T x y w (.d2 [q]) none (.seq [("mean", fun x w => mean1d fill x w none)]) kernel = .ok ([[fill]], named) := by
  obtain ⟨n, e, _⟩ := C116_local T hT x (.d2 [q]) X [q] hx rfl y w ht hQ none [("mean", fun x w => mean1d fill x w none)]
    (by intro r hr; simp only [List.mem_singleton] at hr; subst hr; exact (C116_symmetric fill).1) kernel
  refine ⟨n, ?_⟩
  rw [e]
  have hw : within X q 0 = [] := by
    unfold within
    rw [List.filter_eq_nil_iff]
    intro i hi
    have := hfar i (by simpa using hi)
    simpa using this
  simp [defaultDx_single, hw, samples, vals, wts, mean1d, count1d]

theorem dist_one (a b : ℝ) : dist [a] [b] = |a - b| := by
  simp [dist, Real.sqrt_sq_eq_abs]

/-- C116 (defect): the prediction at one point depends on which other points are asked for in the same call.  Training data
(0, 1), (1, 2), (2, 3); asked alone, the point 1/2 has no neighbour; asked together with 81/2 it gets the mean of all three. -/
theorem C116_batch_defect (T : KD) (hT : T.OK) (fill : ℝ) :
    (∃ n, regLocal T (.d1 [0, 1, 2]) [1, 2, 3] none (.d1 [1 / 2]) none (.seq [("mean", fun x w => mean1d fill x w none)]) none
      = .ok ([[fill]], n)) ∧
    (∃ n v, regLocal T (.d1 [0, 1, 2]) [1, 2, 3] none (.d1 [1 / 2, 81 / 2]) none
      (.seq [("mean", fun x w => mean1d fill x w none)]) none = .ok ([[2, v]], n)) := by
  have ht : TrainOK [[0], [1], [2]] [1, 2, 3] none := by
    refine ⟨by simp, ⟨1, by norm_num, by simp⟩, rfl, by simp⟩
  constructor
  · obtain ⟨n, e⟩ := C116_default_radius_defect T hT (.d1 [0, 1, 2]) [[0], [1], [2]] rfl [1 / 2] [1, 2, 3] none ht
      ⟨by simp, by simp⟩ none fill (by
        intro i hi
        simp only [List.length_cons, List.length_nil] at hi
        interval_cases i <;> simp only [dTo, List.getD_cons_zero, List.getD_cons_succ, dist_one] <;> norm_num)
    exact ⟨n, by rw [← e]; rfl⟩
  · obtain ⟨n, e, _⟩ := C116_local T hT (.d1 [0, 1, 2]) (.d1 [1 / 2, 81 / 2]) [[0], [1], [2]] [[1 / 2], [81 / 2]] rfl rfl
      [1, 2, 3] none ht ⟨by simp, by simp⟩ none [("mean", fun x w => mean1d fill x w none)]
      (by intro r hr; simp only [List.mem_singleton] at hr; subst hr; exact (C116_symmetric fill).1) none
    have hd : defaultDx [[1 / 2], [81 / 2]] = 2 := by
      have h1 : npStd [1 / 2, 81 / 2] = 20 := by
        unfold npStd npMean
        rw [show (20 : ℝ) = Real.sqrt (20 ^ 2) by rw [Real.sqrt_sq (by norm_num)]]
        congr 1
        norm_num
      simp only [defaultDx, List.headD_cons, List.length_singleton, List.range_one, List.map_cons, List.map_nil, column,
        List.getD_cons_zero, h1, npMean]
      norm_num
    have hw : within [[0], [1], [2]] [1 / 2] 2 = [0, 1, 2] := by
      unfold within
      change List.filter _ (List.range 3) = List.range 3
      rw [List.filter_eq_self]
      · intro i hi
        have hi' : i < 3 := by simpa using hi
        rw [decide_eq_true_eq]
        interval_cases i <;> simp only [dTo, List.getD_cons_zero, List.getD_cons_succ, dist_one] <;> norm_num [abs_le]
    have h2 : (let s := samples [[0], [1], [2]] [1, 2, 3] none none [1 / 2] (within [[0], [1], [2]] [1 / 2] 2)
        mean1d fill (vals s) (wts s (hasWt none none)) none) = 2 := by
      simp only [hw]
      norm_num [samples, vals, wts, hasWt, mean1d, count1d, sum1d, wTot]
    refine ⟨n, ?v, ?_⟩
    case right =>
      rw [e]
      simp only [List.map_cons, List.map_nil, Option.getD_none, hd]
      simp only at h2
      rw [h2]

/-! ### C117: density estimates -/

/-- C117: `DensityEstimationND.by_local_kernel`.  For every tree that keeps its contract: the density at a prediction point is
the weight fraction of the training points within the radius over the volume of the ball of that radius (with a kernel: the
kernel-weighted mean weight times their number), together with their number and the distance of the furthest.  (Exact
arithmetic: the quotients are meant for a positive radius and weights that do not sum to zero; see `C117_zero_volume`.) -/
theorem C117_local (T : KD) (hT : T.OK) (x xPred : In) (X Q : List (List ℝ)) (hx : cvt x = .ok X) (hq : cvt xPred = .ok Q)
    (w : Option (List ℝ)) (ht : TrainOK X (fitWeight X.length w) w) (hQ : QueryOK X Q) (maxDx : Option ℝ)
    (kernel : Option Kernel) :
    let r := maxDx.getD (defaultDx Q)
    let vol := ballVolumeNat r (X.headD []).length
    let W := fun i => (w.getD (X.map (fun _ => (1 : ℝ)))).getD i 0 / (w.getD (X.map (fun _ => (1 : ℝ)))).sum
    densLocal T x w xPred maxDx kernel = .ok
      (Q.map (fun q : List ℝ => kernel.elim (((within X q r).map W).sum / vol) (fun k =>
          if within X q r = [] then 0 else ((within X q r).map (fun i => W i * k.eval (dTo X q i))).sum /
            ((within X q r).map (fun i => k.eval (dTo X q i))).sum * (within X q r).length / vol)),
        Q.map (fun q => (within X q r).length),
        Q.map (fun q => ((within X q r).map (dTo X q)).foldl max 0)) := by
  intro r vol W
  have hv := radius_valid T hT X Q r
  have hr := hT.radius_row X Q r
  have hl := hT.radius_len X Q r
  have hW : ∀ i < X.length, (fitWeight X.length w).getD i 0 = W i := by
    intro i hi
    rcases w with _ | w
    · simp only [fitWeight, W, Option.getD_none]
      rw [getD_lt _ _ _ (by simpa using hi), getD_lt _ _ _ (by simpa using hi)]
      simp
    · have : w.length = X.length := ht.2.2.2 w rfl
      simp only [fitWeight, W, Option.getD_some]
      rw [getD_lt _ _ _ (by simpa [this] using hi), getD_lt _ _ _ (by simpa [this] using hi)]
      simp
  have hmax : ∀ l l' : List ℝ, l.Perm l' → l.foldl max 0 = l'.foldl max 0 := by
    intro l l' hp
    exact hp.foldl_eq' (by intro a _ b _ z; simp [max_assoc, max_comm a b]) 0
  unfold densLocal
  rw [hx, hq]
  simp only [bind, Except.bind]
  rw [treeCheck_ok X _ w ht, queryCheck_ok X Q hQ, gatherCheck_ok (fitWeight X.length w) _ (by rw [ht.2.2.1]; exact hv)]
  simp only [pure, Except.pure]
  congr 2
  · apply zip_rows _ _ _ _ _ hl.2 hl.1
    intro j hj
    have h := hr j hj
    generalize Q.getD j [] = q at *
    rw [h.2.2]
    have hp := row_perm X q r _ _ h
    have hin : ∀ i ∈ (T.radius X Q r).1.getD j [], i < X.length := fun i hi => ((h.2.1 i).mp hi).1
    change localDensity (fitWeight X.length w) vol kernel _ _ = _
    generalize (T.radius X Q r).1.getD j [] = ids at *
    obtain ⟨c1, c2⟩ := C96_local (fitWeight X.length w) vol (ids.map (dTo X q)) ids (by simp)
    have hmapW : ids.map (fun i => (fitWeight X.length w).getD i 0) = ids.map W :=
      List.map_congr_left (fun i hi => hW i (hin i hi))
    rcases kernel with _ | k
    · rw [c1, hmapW, (hp.map W).sum_eq]
      rfl
    · simp only [Option.elim]
      by_cases hne : ids = []
      · subst hne
        rw [List.nil_perm.mp hp]
        simp [localDensity]
      · rw [if_neg (fun h0 => hne (by rw [h0] at hp; exact List.perm_nil.mp hp)), c2 k hne]
        have e1 : (((ids.map (dTo X q)).zip ids).map (fun p => (fitWeight X.length w).getD p.2 0 * k.eval p.1))
            = ids.map (fun i => W i * k.eval (dTo X q i)) := by
          clear c1 c2 hmapW hp h hne
          induction ids with
          | nil => rfl
          | cons a t ih =>
              simp only [List.map_cons, List.zip_cons_cons]
              rw [ih (fun i hi => hin i (by simp [hi])), hW a (hin a (by simp))]
        rw [e1, List.map_map, (hp.map (fun i => W i * k.eval (dTo X q i))).sum_eq, (hp.map (k.eval ∘ dTo X q)).sum_eq, hp.length_eq]
        rfl
  · congr 1
    · apply List.ext_getElem
      · simpa using hl.1
      · intro j h1 h2
        have hj : j < Q.length := by simpa using h2
        have h := hr j hj
        rw [getD_lt (T.radius X Q r).1 j [] (by omega), getD_lt Q j [] hj] at h
        simp only [List.getElem_map]
        exact (row_perm X _ r _ _ h).length_eq
    · apply List.ext_getElem
      · simpa using hl.2
      · intro j h1 h2
        have hj : j < Q.length := by simpa using h2
        have h := hr j hj
        have e := h.2.2
        rw [getD_lt (T.radius X Q r).1 j [] (by omega), getD_lt Q j [] hj] at h
        rw [getD_lt (T.radius X Q r).2 j [] (by omega), getD_lt (T.radius X Q r).1 j [] (by omega), getD_lt Q j [] hj] at e
        simp only [List.getElem_map]
        rw [e]
        exact hmax _ _ ((row_perm X _ r _ _ h).map _)


/-- C117: the volume is positive for every positive radius. -/
theorem ballVolume_pos (r : ℝ) (hr : 0 < r) : ∀ n, 0 < ballVolumeNat r n := by
  have h : ∀ n, 0 < ballVolumeNat r n ∧ 0 < ballVolumeNat r (n + 1) := by
    intro n
    induction n with
    | zero => exact ⟨by simp [ballVolumeNat], by simp only [ballVolumeNat]; positivity⟩
    | succ n ih =>
        refine ⟨ih.2, ?_⟩
        have := ih.1
        simp only [ballVolumeNat]
        positivity
  exact fun n => (h n).1

/-- C117 (defect): without `max_dx`, a single prediction point gets a ball of radius and volume 0 in every dimension: the
density is 0/0 unless the point coincides with a training point, and then a positive number over 0. -/
theorem C117_zero_volume (q : List ℝ) (n : Nat) (hn : 0 < n) : ballVolumeNat (defaultDx [q]) n = 0 := by
  rw [defaultDx_single]
  obtain ⟨m, rfl⟩ : ∃ m, n = m + 1 := ⟨n - 1, by omega⟩
  cases m <;> simp [ballVolumeNat]

/-- C117: `DensityEstimationND.by_knn`.  Where no two training points are equally far from the prediction point: the count is
the number of the `k` nearest closer than `max_dx`, the radius the distance of the `k`-th nearest cut at `max_dx`, the density
their weight fraction (kernel-averaged) over the volume of that ball. -/
theorem C117_knn (T : KD) (hT : T.OK) (x xPred : In) (X Q : List (List ℝ)) (hx : cvt x = .ok X) (hq : cvt xPred = .ok Q)
    (w : Option (List ℝ)) (ht : TrainOK X (fitWeight X.length w) w) (hQ : QueryOK X Q) (k : Nat) (hk : k ≤ X.length)
    (hk0 : 0 < k) (maxDx : Option ℝ) (kernel : Option Kernel) :
    ∃ out, densKnn T x w xPred k maxDx kernel = .ok out ∧ out.length = Q.length ∧
      ∀ j < Q.length, NoTies X (Q.getD j []) →
        let q := Q.getD j []
        let near := (nearest X q k).filter (fun i => maxDx.elim true (fun m => decide (dTo X q i < m)))
        let W := fun i => (w.getD (X.map (fun _ => (1 : ℝ)))).getD i 0 / (w.getD (X.map (fun _ => (1 : ℝ)))).sum
        ∃ h r, out[j]? = some (h, near.length, r) ∧
          (∃ far ∈ nearest X q k, (∀ i ∈ nearest X q k, dTo X q i ≤ dTo X q far) ∧
            r = maxDx.elim (dTo X q far) (fun m => min (dTo X q far) m)) ∧
          (kernel = none → h = (near.map W).sum / ballVolumeNat r (X.headD []).length) ∧
          ∀ kn, kernel = some kn → near ≠ [] → h = (near.map (fun i => W i * kn.eval (dTo X q i))).sum *
            (near.length / (near.map (fun i => kn.eval (dTo X q i))).sum) / ballVolumeNat r (X.headD []).length := by
  have hv := query_valid T hT X Q k hk
  have hr := hT.query_row X Q k hk
  have hl := hT.query_len X Q k
  have hW : ∀ i < X.length, (fitWeight X.length w).getD i 0 =
      (w.getD (X.map (fun _ => (1 : ℝ)))).getD i 0 / (w.getD (X.map (fun _ => (1 : ℝ)))).sum := by
    intro i hi
    rcases w with _ | w
    · simp only [fitWeight, Option.getD_none]
      rw [getD_lt _ _ _ (by simpa using hi), getD_lt _ _ _ (by simpa using hi)]
      simp
    · have : w.length = X.length := ht.2.2.2 w rfl
      simp only [fitWeight, Option.getD_some]
      rw [getD_lt _ _ _ (by simpa [this] using hi), getD_lt _ _ _ (by simpa [this] using hi)]
      simp
  refine ⟨_, by
    unfold densKnn
    rw [hx, hq]
    simp only [bind, Except.bind]
    rw [treeCheck_ok X _ w ht, queryCheck_ok X Q hQ, gatherCheck_ok (fitWeight X.length w) _ (by rw [ht.2.2.1]; exact hv)]
    simp only
    rw [if_neg (by omega)]
    rfl, by simp [hl.1, hl.2], ?_⟩
  intro j hj hnt q near W
  have h := hr j hj
  have hp := knn_perm X q k _ _ h hnt
  have h1 : j < (T.query X Q k).1.length := by omega
  have h2 : j < (T.query X Q k).2.length := by omega
  have e1 := getD_lt (T.query X Q k).1 j [] h1
  have e2 := getD_lt (T.query X Q k).2 j [] h2
  rw [e1, e2] at h
  rw [e2] at hp
  have hd := h.2.2.2.1
  rw [List.getElem?_eq_getElem (by simp [hl.1, hl.2]; exact hj), List.getElem_zipWith, hd]
  have hin := h.2.2.1
  have hlen := h.2.1
  change List.Perm _ (nearest X q k) at hp
  change ∀ i ∈ (T.query X Q k).2[j], i < X.length at hin
  generalize (T.query X Q k).2[j] = ids at *
  change ∃ h r, some (knnDensity _ _ _ _ (ids.map (dTo X q)) ids) = _ ∧ _
  have hids : ids ≠ [] := by intro h0; rw [h0] at hlen; simp at hlen; omega
  obtain ⟨hh, r, c0, ⟨far, c1, c2, c3⟩, c4, c5⟩ := C96_knn (fitWeight X.length w) (X.headD []).length maxDx kernel
    (ids.map (dTo X q)) ids (by simp) (by simpa using hids) (by
      intro a ha
      obtain ⟨i, _, rfl⟩ := List.mem_map.mp ha
      exact Real.sqrt_nonneg _)
  have hne := neigh_eq X q maxDx ids
  have hpf : List.Perm _ near := hp.filter (fun i => maxDx.elim true (fun m => decide (dTo X q i < m)))
  have hin' : ∀ i ∈ ids.filter (fun i => maxDx.elim true (fun m => decide (dTo X q i < m))), (fitWeight X.length w).getD i 0 = W i :=
    fun i hi => hW i (hin i (List.mem_of_mem_filter hi))
  rw [hne] at c0 c4 c5
  generalize hf : ids.filter (fun i => maxDx.elim true (fun m => decide (dTo X q i < m))) = fl at *
  obtain ⟨fi, hfi, hfe⟩ := List.mem_map.mp c1
  refine ⟨hh, r, by rw [c0, List.length_map, hpf.length_eq], ⟨fi, hp.mem_iff.mp hfi, fun i hi => ?_, by rw [hfe]; exact c3⟩, fun hk => ?_,
    fun kn hk hnn => ?_⟩
  · rw [hfe]
    exact c2 _ (List.mem_map.mpr ⟨i, hp.mem_iff.mpr hi, rfl⟩)
  · rw [c4 hk, List.map_map, ← (hpf.map W).sum_eq]
    congr 2
    exact List.map_congr_left (fun i hi => hin' i hi)
  · have hfl : fl ≠ [] := fun h0 => hnn (by rw [h0] at hpf; exact List.nil_perm.mp hpf)
    rw [c5 kn hk (by simpa using hfl), List.map_map, List.map_map, List.length_map, hpf.length_eq,
      ← (hpf.map (fun i => W i * kn.eval (dTo X q i))).sum_eq, ← (hpf.map (fun i => kn.eval (dTo X q i))).sum_eq]
    have e3 : fl.map ((fun p : ℝ × Nat => (fitWeight X.length w).getD p.2 0 * kn.eval p.1) ∘ fun i => (dTo X q i, i))
        = fl.map (fun i => W i * kn.eval (dTo X q i)) :=
      List.map_congr_left (fun i hi => by simp only [Function.comp_def]; rw [hin' i hi])
    rw [e3]
    rfl

/-! Concrete instances of the hypotheses. -/
example : TrainOK [[0, 0], [1, 0], [0, 3]] [1, 2, 3] (some [1, 1, 2]) ∧ QueryOK [[0, 0], [1, 0], [0, 3]] [[1, 1], [0, 5]] := by
  refine ⟨⟨by simp, ⟨2, by norm_num, by simp⟩, rfl, ?_⟩, by simp [QueryOK]⟩
  intro v hv
  cases hv
  rfl
example : NoTies [[0], [1], [4]] [0] := by
  intro i hi j hj
  simp only [List.length_cons, List.length_nil] at hi hj
  interval_cases i <;> interval_cases j <;> simp only [dTo, List.getD_cons_zero, List.getD_cons_succ, dist_one] <;> norm_num
example : within [[0], [1], [4]] [0] 1 = [0, 1] := by
  have h : ∀ i < 3, dTo [[0], [1], [4]] [0] i = [0, 1, 4].getD i (0 : ℝ) := by
    intro i hi
    interval_cases i <;> simp only [dTo, List.getD_cons_zero, List.getD_cons_succ, dist_one] <;> norm_num
  simp only [within, List.length_cons, List.length_nil, show List.range (0 + 1 + 1 + 1) = [0, 1, 2] from rfl, List.filter_cons,
    List.filter_nil, h 0 (by norm_num), h 1 (by norm_num), h 2 (by norm_num), List.getD_cons_zero, List.getD_cons_succ]
  norm_num

end Pyhipp.KernelReg
