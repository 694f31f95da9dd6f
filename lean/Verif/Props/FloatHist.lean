import Verif.Model.FloatHist
import Verif.Props.FloatCIC
/-
C125: BinnedData in double precision.
-/
namespace Pyhipp.FloatHist
open Pyhipp F64 FloatBins

/-! ### Specification -/

/-- The weights of the elements that fall into bin `c`, in the order of the input. -/
def weightsIn (locate : Num → ℤ) (xs ws : List Num) (c : Nat) : List Num :=
  ((xs.zip ws).filter (fun p => locate p.1 = (c : ℤ))).map (·.2)

/-- Left-to-right sum in double precision, starting from `v`. -/
def seqSum (v : Num) : List Num → Num
  | [] => v
  | w :: ws => seqSum (Num.add v w) ws

/-! ### One bin at a time -/

/-- The effect of `put` on an array of the right length. -/
def putP (data : List Num) (id : ℤ) (w : Num) : List Num :=
  if 0 ≤ id ∧ id < data.length then data.set id.toNat (Num.add (data.getD id.toNat .nan) w) else data

theorem putP_length (data : List Num) (id : ℤ) (w : Num) : (putP data id w).length = data.length := by
  unfold putP
  split <;> simp

theorem put_eq (data : List Num) (id : ℤ) (w : Num) (n : Nat) (hn : n = data.length) : put n data id w = .ok (putP data id w) := by
  subst hn
  unfold put store putP
  by_cases h : 0 ≤ id ∧ id < (data.length : ℤ)
  · rw [if_pos (show id ≥ 0 ∧ id < (data.length : ℤ) from h), if_pos h, if_pos h]
  · rw [if_neg (show ¬ (id ≥ 0 ∧ id < (data.length : ℤ)) from h), if_neg h]

theorem foldlM_put (ps : List (ℤ × Num)) (data : List Num) (n : Nat) (hn : n = data.length) :
    ps.foldlM (fun d p => put n d p.1 p.2) data = (.ok (ps.foldl (fun d p => putP d p.1 p.2) data) : PyM (List Num)) := by
  induction ps generalizing data with
  | nil => rfl
  | cons p t ih =>
      rw [List.foldlM_cons, put_eq _ _ _ _ hn, List.foldl_cons]
      exact ih _ (by rw [putP_length]; exact hn)

theorem range_zip (ids : List ℤ) (ws : List Num) (h : ids.length = ws.length) (n : Nat) (data : List Num) :
    (List.range ids.length).foldlM (fun d i => put n d (ids.getD i 0) (ws.getD i .nan)) data = (ids.zip ws).foldlM (fun d p => put n d p.1 p.2) data := by
  have e : ids.zip ws = (List.range ids.length).map (fun i => (ids.getD i 0, ws.getD i .nan)) := by
    refine List.ext_getElem (by simp [h]) (fun i h1 h2 => ?_)
    simp at h1
    have a : i < ids.length := by omega
    have b : i < ws.length := by omega
    rw [List.getElem_zip, List.getElem_map, List.getElem_range, List.getD_eq_getElem?_getD, List.getD_eq_getElem?_getD, List.getElem?_eq_getElem a, List.getElem?_eq_getElem b]
    rfl
  rw [e, List.foldlM_map]

theorem putP_get (data : List Num) (id : ℤ) (w : Num) (c : Nat) (v : Num) (h : data[c]? = some v) :
    (putP data id w)[c]? = some (if id = c then Num.add v w else v) := by
  have hc : c < data.length := by
    by_contra hh
    rw [List.getElem?_eq_none (by omega)] at h
    exact absurd h (by simp)
  unfold putP
  by_cases hid : id = c
  · have e : id.toNat = c := by omega
    have hin : 0 ≤ id ∧ id < (data.length : ℤ) := by omega
    rw [if_pos hin, if_pos hid, e, List.getElem?_set_self hc, List.getD_eq_getElem?_getD, h]
    rfl
  · rw [if_neg hid]
    split
    · rename_i hin
      rw [List.getElem?_set_ne (by omega)]
      exact h
    · exact h

theorem add_some (locate : Num → ℤ) (data xs ws : List Num) (h : xs.length = ws.length) :
    add locate data xs (some ws) = .ok (((xs.map locate).zip ws).foldl (fun d p => putP d p.1 p.2) data) := by
  have hl : (xs.map locate).length = ws.length := by simpa using h
  simp only [add, addWeighted, pyAssert, hl, beq_self_eq_true, if_true, bind, Except.bind]
  rw [← hl, range_zip _ _ hl, foldlM_put _ _ _ rfl]

theorem add_mismatch (locate : Num → ℤ) (data xs ws : List Num) (h : xs.length ≠ ws.length) : add locate data xs (some ws) = .error .assertionError := by
  simp [add, addWeighted, pyAssert, h, bind, Except.bind]

theorem add_none (locate : Num → ℤ) (data xs : List Num) :
    add locate data xs none = .ok (((xs.map locate).map (fun i => (i, Num.fin 1))).foldl (fun d p => putP d p.1 p.2) data) := by
  rw [← foldlM_put _ _ _ rfl, List.foldlM_map]
  rfl

theorem seqSum_cons (v w : Num) (ws : List Num) : seqSum v (w :: ws) = seqSum (Num.add v w) ws := rfl

theorem seqSum_append (v : Num) (a b : List Num) : seqSum v (a ++ b) = seqSum (seqSum v a) b := by
  induction a generalizing v with
  | nil => rfl
  | cons x t ih => exact ih _

theorem fold_get (ps : List (ℤ × Num)) (data : List Num) (c : Nat) (v : Num) (h : data[c]? = some v) :
    (ps.foldl (fun d p => putP d p.1 p.2) data)[c]? = some (seqSum v ((ps.filter (fun p => p.1 = (c : ℤ))).map (·.2))) := by
  induction ps generalizing data v with
  | nil => simpa [seqSum] using h
  | cons p t ih =>
      rw [List.foldl_cons, ih _ _ (putP_get data p.1 p.2 c v h)]
      by_cases hp : p.1 = c
      · rw [if_pos hp, List.filter_cons_of_pos (by simpa using hp), List.map_cons, seqSum_cons]
      · rw [if_neg hp, List.filter_cons_of_neg (by simpa using hp)]

theorem fold_length (ps : List (ℤ × Num)) (data : List Num) : (ps.foldl (fun d p => putP d p.1 p.2) data).length = data.length := by
  induction ps generalizing data with
  | nil => rfl
  | cons p t ih => rw [List.foldl_cons, ih, putP_length]

theorem filter_zip (locate : Num → ℤ) (xs ws : List Num) (c : Nat) :
    ((((xs.map locate).zip ws).filter (fun p => p.1 = (c : ℤ))).map (·.2)) = weightsIn locate xs ws c := by
  unfold weightsIn
  induction xs generalizing ws with
  | nil => simp
  | cons x t ih =>
      cases ws with
      | nil => simp
      | cons w ws =>
          simp only [List.map_cons, List.zip_cons_cons]
          by_cases hp : locate x = c
          · rw [List.filter_cons_of_pos (by simpa using hp), List.filter_cons_of_pos (by simpa using hp), List.map_cons, List.map_cons, ih]
          · rw [List.filter_cons_of_neg (by simpa using hp), List.filter_cons_of_neg (by simpa using hp), ih]

/-- C125: a weighted `add` raises AssertionError exactly if the lengths differ; otherwise the array keeps its length and every bin is its
old value plus, one by one in the order of the input and each addition rounded, the weights of exactly the elements located in it —
for all doubles, NaN and infinities included.  So a NaN in one bin never spreads to another. -/
theorem C125_weighted (locate : Num → ℤ) (data xs ws : List Num) :
    (xs.length ≠ ws.length → add locate data xs (some ws) = .error .assertionError) ∧
    (xs.length = ws.length → ∃ d : List Num, add locate data xs (some ws) = .ok d ∧ d.length = data.length ∧
      ∀ (c : Nat) (v : Num), data[c]? = some v → d[c]? = some (seqSum v (weightsIn locate xs ws c))) := by
  constructor
  · exact add_mismatch locate data xs ws
  · intro h
    refine ⟨((xs.map locate).zip ws).foldl (fun d p => putP d p.1 p.2) data, ?_, fold_length _ _, ?_⟩
    · exact add_some locate data xs ws h
    · intro c v hv
      rw [fold_get _ _ c v hv, filter_zip]

/-- C125: an unweighted `add` never fails and is the weighted one with weight 1.0 for every element. -/
theorem C125_unweighted (locate : Num → ℤ) (data xs : List Num) :
    add locate data xs none = add locate data xs (some (xs.map fun _ => .fin 1)) := by
  have e : (xs.map locate).map (fun i => (i, Num.fin 1)) = (xs.map locate).zip (xs.map fun _ => .fin 1) := by
    induction xs with
    | nil => rfl
    | cons x t ih => simpa using ih
  rw [add_none, add_some _ _ _ _ (by simp), e]

/-- C125: adding two batches one after the other is bit for bit adding them in one call. -/
theorem C125_batches (locate : Num → ℤ) (data xs ws xs' ws' : List Num) (h : xs.length = ws.length) (d : List Num)
    (hd : add locate data xs (some ws) = .ok d) : add locate d xs' (some ws') = add locate data (xs ++ xs') (some (ws ++ ws')) := by
  rw [add_some _ _ _ _ h] at hd
  have e := Except.ok.inj hd
  subst e
  by_cases h' : xs'.length = ws'.length
  · rw [add_some _ _ _ _ h', add_some _ _ _ _ (by simp [h, h']), List.map_append, List.zip_append (by simpa using h), List.foldl_append]
  · rw [add_mismatch _ _ _ _ h', add_mismatch]
    simp only [List.length_append]
    omega

/-! ### Rounding -/

/-- One more rounded addition. -/
theorem sum_step {a u T S v x : ℚ} (hu : 0 ≤ u) (ha : 1 ≤ a) (hS : |S| ≤ T) (h : |v - S| ≤ (a - 1) * T) {r : ℚ}
    (hr : |r - (v + x)| ≤ u * |v + x|) : |r - (S + x)| ≤ (a * (1 + u) - 1) * (T + |x|) ∧ |v + x| ≤ a * (T + |x|) ∧ |S + x| ≤ T + |x| := by
  have hT : 0 ≤ T := le_trans (abs_nonneg _) hS
  have h1 : |v| ≤ a * T := by
    have := abs_add_le (v - S) S
    rw [sub_add_cancel] at this
    linarith
  have hx := abs_nonneg x
  have h2 : |v + x| ≤ a * (T + |x|) := by
    have := abs_add_le v x
    nlinarith
  refine ⟨?_, h2, le_trans (abs_add_le _ _) (by linarith)⟩
  have h3 : |r - (S + x)| ≤ |r - (v + x)| + |v - S| := by
    have := abs_add_le (r - (v + x)) (v - S)
    rwa [show r - (v + x) + (v - S) = r - (S + x) by ring] at this
  have h4 : u * |v + x| ≤ u * (a * (T + |x|)) := mul_le_mul_of_nonneg_left h2 hu
  have h5 : (a - 1) * T ≤ (a - 1) * (T + |x|) := mul_le_mul_of_nonneg_left (by linarith) (by linarith)
  linarith

/-- Total of the absolute values. -/
def absSum (ws : List ℚ) : ℚ := (ws.map fun w => |w|).sum

theorem absSum_cons (w : ℚ) (ws : List ℚ) : absSum (w :: ws) = |w| + absSum ws := by simp [absSum]

theorem absSum_nonneg (ws : List ℚ) : 0 ≤ absSum ws := by
  induction ws with
  | nil => simp [absSum]
  | cons w t ih => rw [absSum_cons]; have := abs_nonneg w; linarith

theorem seq_err (ws : List ℚ) (hF : ∀ w ∈ ws, IsF w) (k : Nat) (v S T : ℚ) (fv : IsF v) (hS : |S| ≤ T)
    (h : |v - S| ≤ ((1 + 2 ^ (-53 : ℤ)) ^ k - 1) * T) (hb : (1 + 2 ^ (-53 : ℤ)) ^ (k + ws.length) * (T + absSum ws) ≤ 2 ^ 1023) :
    ∃ r : ℚ, seqSum (.fin v) (ws.map .fin) = .fin r ∧ IsF r ∧
      |r - (S + ws.sum)| ≤ ((1 + 2 ^ (-53 : ℤ)) ^ (k + ws.length) - 1) * (T + absSum ws) := by
  induction ws generalizing k v S T with
  | nil => exact ⟨v, rfl, fv, by simpa [absSum] using h⟩
  | cons w t ih =>
      have hw := hF w (by simp)
      have hr := rnd_sub_err fv hw.neg
      rw [sub_neg_eq_add] at hr
      obtain ⟨s1, s2, s3⟩ := sum_step (pow_pos' (-53)).le (FloatMesh.one_le_growth k) hS h hr
      have e : Num.add (.fin v) (.fin w) = .fin (rnd (v + w)) := by
        refine ofQ_fin_le (le_trans s2 (le_trans ?_ hb)) FloatBins.pow1023 FloatBins.lt1024
        have g1 := FloatMesh.growth_mono (show k ≤ k + (w :: t).length by omega)
        have g0 := FloatMesh.one_le_growth k
        have := absSum_nonneg t
        have hw0 := abs_nonneg w
        have hT : 0 ≤ T := le_trans (abs_nonneg _) hS
        rw [absSum_cons]
        exact mul_le_mul g1 (by linarith) (by linarith) (by linarith)
      rw [List.map_cons, seqSum_cons, e]
      have hk : k + (w :: t).length = k + 1 + t.length := by simp; omega
      rw [hk, absSum_cons] at hb ⊢
      rw [← pow_succ] at s1
      obtain ⟨r, r1, r2, r3⟩ := ih (fun x hx => hF x (by simp [hx])) (k + 1) (rnd (v + w)) (S + w) (T + |w|) (isF_rnd _) s3 s1
        (by rw [add_assoc T]; exact hb)
      refine ⟨r, r1, r2, ?_⟩
      rw [List.sum_cons, ← add_assoc S, ← add_assoc T]
      exact r3


theorem zeros_get (n c : Nat) (hc : c < n) : (zeros n)[c]? = some (.fin 0) := by simp [zeros, hc]

/-- The weights of bin `c` as rationals. -/
def weightsQ (locate : Num → ℤ) (ps : List (Num × ℚ)) (c : Nat) : List ℚ := (ps.filter (fun p => locate p.1 = (c : ℤ))).map (·.2)

theorem weightsIn_eq (locate : Num → ℤ) (ps : List (Num × ℚ)) (c : Nat) :
    weightsIn locate (ps.map (·.1)) (ps.map (fun p => .fin p.2)) c = (weightsQ locate ps c).map .fin := by
  unfold weightsIn weightsQ
  induction ps with
  | nil => rfl
  | cons p t ih =>
      simp only [List.map_cons, List.zip_cons_cons]
      by_cases hp : locate p.1 = (c : ℤ)
      · rw [List.filter_cons_of_pos (by simpa using hp), List.filter_cons_of_pos (by simpa using hp), List.map_cons, List.map_cons, List.map_cons, ih]
      · rw [List.filter_cons_of_neg (by simpa using hp), List.filter_cons_of_neg (by simpa using hp), ih]

theorem first_exact (w : ℚ) (ws : List Num) (hw : IsF w) (hb : |w| < 2 ^ 1024) : seqSum (.fin 0) (.fin w :: ws) = seqSum (.fin w) ws := by
  rw [seqSum_cons]
  congr 1
  show ofQ (0 + w) = _
  rw [zero_add]
  unfold ofQ
  rw [hw, if_neg (not_le.mpr hb)]

/-- C125: weighted histogram of elements `x` with finite weights `w` of either sign, filled into new bins: the value of a bin with `k` elements
differs from the exact sum of their weights by at most `((1 + 2^-53)^(k-1) - 1) Σ|w|` — the elements of other bins do not matter — and
it is finite provided `(1 + 2^-53)^(k-1) Σ|w| ≤ 2^1023`. -/
theorem C125_error (locate : Num → ℤ) (n : Nat) (ps : List (Num × ℚ)) (hF : ∀ p ∈ ps, IsF p.2)
    (c : Nat) (hc : c < n)
    (hb : (1 + 2 ^ (-53 : ℤ)) ^ ((weightsQ locate ps c).length - 1) * absSum (weightsQ locate ps c) ≤ 2 ^ 1023) :
    ∃ (d : List Num) (r : ℚ), add locate (zeros n) (ps.map (·.1)) (some (ps.map fun p => .fin p.2)) = .ok d ∧ d.length = n ∧
      d[c]? = some (.fin r) ∧ IsF r ∧
      |r - (weightsQ locate ps c).sum| ≤ ((1 + 2 ^ (-53 : ℤ)) ^ ((weightsQ locate ps c).length - 1) - 1) * absSum (weightsQ locate ps c) := by
  obtain ⟨d, d1, d2, d3⟩ := (C125_weighted locate (zeros n) (ps.map (·.1)) (ps.map fun p => .fin p.2)).2 (by simp)
  have d4 := d3 c _ (zeros_get n c hc)
  rw [weightsIn_eq] at d4
  have hW : ∀ w ∈ weightsQ locate ps c, IsF w := by
    intro w hw
    obtain ⟨p, hp, rfl⟩ := List.mem_map.mp hw
    exact hF p (List.mem_filter.mp hp).1
  generalize weightsQ locate ps c = ws at *
  cases ws with
  | nil => exact ⟨d, 0, d1, by simpa [zeros] using d2, d4, rnd_zero, by simp [absSum]⟩
  | cons w t =>
      rw [List.length_cons, Nat.add_sub_cancel] at hb ⊢
      have hw0 : |w| ≤ 2 ^ 1023 := by
        refine le_trans ?_ hb
        have g := FloatMesh.one_le_growth t.length
        have h1 := absSum_nonneg t
        have h2 : |w| ≤ absSum (w :: t) := by rw [absSum_cons]; linarith
        have h3 := absSum_nonneg (w :: t)
        nlinarith
      rw [List.map_cons, first_exact w _ (hW w (by simp)) (lt_of_le_of_lt hw0 FloatBins.lt1024)] at d4
      obtain ⟨r, r1, r2, r3⟩ := seq_err t (fun x hx => hW x (by simp [hx])) 0 w w |w| (hW w (by simp)) le_rfl (by simp)
        (by rw [zero_add, ← absSum_cons]; exact hb)
      rw [r1] at d4
      rw [zero_add, ← absSum_cons, ← List.sum_cons] at r3
      exact ⟨d, r, d1, by simpa [zeros] using d2, d4, r2, r3⟩

/-- Integers add exactly as long as the total of the absolute values is at most 2^53. -/
theorem seq_int (ws : List ℤ) (v : ℤ) (hb : |v| + (ws.map fun w => |w|).sum ≤ 2 ^ 53) :
    seqSum (.fin v) (ws.map fun w : ℤ => .fin (w : ℚ)) = .fin ((v + ws.sum : ℤ) : ℚ) := by
  induction ws generalizing v with
  | nil => simp [seqSum]
  | cons w t ih =>
      simp only [List.map_cons, List.sum_cons] at hb ⊢
      have ht : 0 ≤ (t.map fun w : ℤ => |w|).sum := List.sum_nonneg (by
        intro x hx
        obtain ⟨y, _, rfl⟩ := List.mem_map.mp hx
        exact abs_nonneg y)
      have h1 := abs_add_le v w
      rw [seqSum_cons]
      have e : Num.add (.fin (v : ℚ)) (.fin (w : ℚ)) = .fin ((v + w : ℤ) : ℚ) := by
        have hi : IsF ((v + w : ℤ) : ℚ) := isF_int (by omega)
        show ofQ ((v : ℚ) + w) = _
        rw [← Int.cast_add]
        unfold ofQ
        rw [hi, if_neg]
        rw [not_le, ← Int.cast_abs]
        have h2 : |v + w| ≤ 2 ^ 53 := by omega
        have h3 : ((|v + w| : ℤ) : ℚ) ≤ ((2 ^ 53 : ℤ) : ℚ) := Int.cast_le.mpr h2
        refine lt_of_le_of_lt h3 ?_
        rw [Int.cast_pow]
        exact pow_lt_pow_right₀ (by norm_num) (show 53 < 1024 by omega)
      rw [e, ih (v + w) (by omega), add_assoc]

/-- C125: integer weights are summed exactly — in whatever order — while the absolute values of a bin add up to at most 2^53. -/
theorem C125_integers (locate : Num → ℤ) (n : Nat) (ps : List (Num × ℤ)) (c : Nat) (hc : c < n)
    (hb : ((ps.filter (fun p => locate p.1 = (c : ℤ))).map (fun p => |p.2|)).sum ≤ 2 ^ 53) :
    ∃ d : List Num, add locate (zeros n) (ps.map (·.1)) (some (ps.map fun p => .fin (p.2 : ℚ))) = .ok d ∧ d.length = n ∧
      d[c]? = some (.fin ((((ps.filter (fun p => locate p.1 = (c : ℤ))).map (·.2)).sum : ℤ) : ℚ)) := by
  obtain ⟨d, d1, d2, d3⟩ := (C125_weighted locate (zeros n) (ps.map (·.1)) (ps.map fun p => .fin (p.2 : ℚ))).2 (by simp)
  refine ⟨d, d1, by simpa [zeros] using d2, ?_⟩
  have d4 := d3 c _ (zeros_get n c hc)
  have e := weightsIn_eq locate (ps.map (fun p => (p.1, (p.2 : ℚ)))) c
  rw [List.map_map, List.map_map] at e
  have e2 : weightsQ locate (ps.map (fun p => (p.1, (p.2 : ℚ)))) c = ((ps.filter (fun p => locate p.1 = (c : ℤ))).map (·.2)).map (fun z : ℤ => (z : ℚ)) := by
    unfold weightsQ
    rw [List.filter_map, List.map_map, List.map_map]
    rfl
  rw [e2, List.map_map] at e
  have e3 : weightsIn locate (ps.map (·.1)) (ps.map fun p => .fin (p.2 : ℚ)) c = ((ps.filter (fun p => locate p.1 = (c : ℤ))).map (·.2)).map (fun z : ℤ => .fin (z : ℚ)) := e
  rw [e3] at d4
  have := seq_int ((ps.filter (fun p => locate p.1 = (c : ℤ))).map (·.2)) 0 (by
    rw [List.map_map, abs_zero, zero_add]
    exact hb)
  rw [Int.cast_zero, zero_add] at this
  rw [this] at d4
  exact d4

/-- C125: counts are exact: after `add` of at most 2^53 elements to new bins (in one call), bin `c` holds exactly the number of elements located in
it. -/
theorem C125_counts (locate : Num → ℤ) (n : Nat) (xs : List Num) (hx : xs.length ≤ 2 ^ 53) :
    ∃ d : List Num, add locate (zeros n) xs none = .ok d ∧ d.length = n ∧
      ∀ c : Nat, c < n → d[c]? = some (.fin (xs.countP (fun x => locate x = (c : ℤ)))) := by
  obtain ⟨d, d1, d2, d3⟩ := (C125_weighted locate (zeros n) xs (xs.map fun _ => .fin 1)).2 (by simp)
  refine ⟨d, by rw [C125_unweighted]; exact d1, by simpa [zeros] using d2, fun c hc => ?_⟩
  have key : ∀ b : Int, (((xs.map (fun x => (x, b))).filter (fun p => locate p.1 = (c : ℤ))).map (fun p => p.2)) =
      List.replicate (xs.countP (fun x => locate x = (c : ℤ))) b := by
    intro b
    rw [List.filter_map, List.map_map, List.countP_eq_length_filter]
    exact List.eq_replicate_iff.mpr ⟨by rw [List.length_map]; rfl, by simp; intros; subst_vars; rfl⟩
  have key2 : (((xs.map (fun x => (x, (1 : ℤ)))).filter (fun p => locate p.1 = (c : ℤ))).map (fun p => |p.2|)) =
      List.replicate (xs.countP (fun x => locate x = (c : ℤ))) 1 := by
    rw [List.filter_map, List.map_map, List.countP_eq_length_filter]
    exact List.eq_replicate_iff.mpr ⟨by rw [List.length_map]; rfl, by simp; intros; subst_vars; rfl⟩
  have hle : xs.countP (fun x => locate x = (c : ℤ)) ≤ 2 ^ 53 := le_trans List.countP_le_length hx
  obtain ⟨d', e1, e2, e3⟩ := C125_integers locate n (xs.map (fun x => (x, (1 : ℤ)))) c hc (by
    rw [key2, List.sum_replicate]
    simp only [smul_eq_mul, nsmul_eq_mul, mul_one]
    exact_mod_cast hle)
  simp only [List.map_map, Function.comp_def, Int.cast_one, List.map_id'] at e1
  rw [d1] at e1
  have := Except.ok.inj e1
  subst this
  rw [e3, key 1, List.sum_replicate]
  simp

/-- C125: the count of a full bin stops growing (recorded): a bin of 2^53 elements keeps the value 2^53 whatever is added afterwards. -/
theorem C125_saturation (locate : Num → ℤ) (data xs : List Num) (c : Nat) (hv : data[c]? = some (.fin (2 ^ 53))) (d : List Num)
    (hd : add locate data xs none = .ok d) : d[c]? = some (.fin (2 ^ 53)) := by
  obtain ⟨d', d1, d2, d3⟩ := (C125_weighted locate data xs (xs.map fun _ => .fin 1)).2 (by simp)
  rw [C125_unweighted, d1] at hd
  have := Except.ok.inj hd
  subst this
  rw [d3 c _ hv]
  have one : ∀ w ∈ weightsIn locate xs (xs.map fun _ => .fin 1) c, w = .fin 1 := by
    intro w hw
    obtain ⟨p, hp, rfl⟩ := List.mem_map.mp hw
    obtain ⟨y, -, hy⟩ := List.mem_map.mp (List.of_mem_zip (List.mem_filter.mp hp).1).2
    exact hy.symm
  have step : Num.add (.fin (2 ^ 53)) (.fin 1) = .fin (2 ^ 53) := by decide +kernel
  congr 1
  generalize weightsIn locate xs (xs.map fun _ => .fin 1) c = ws at *
  induction ws with
  | nil => rfl
  | cons w t ih =>
      rw [seqSum_cons, one w (by simp), step]
      exact ih (fun x hx => one x (by simp [hx]))

/-- The value bin `c` reaches in a program of `add` calls: the weights of the successful calls, one after the other. -/
def history (locate : Num → ℤ) (c : Nat) : List (List Num × Option (List Num)) → List Num
  | [] => []
  | (xs, none) :: cs => weightsIn locate xs (xs.map fun _ => .fin 1) c ++ history locate c cs
  | (xs, some ws) :: cs => (if xs.length = ws.length then weightsIn locate xs ws c else []) ++ history locate c cs

/-- C125: over any program of `add` calls, weighted and unweighted mixed and some of them failing, every bin is the rounded left-to-right sum of the
weights of its own elements of the calls that did not fail. -/
theorem C125_history (locate : Num → ℤ) (cs : List (List Num × Option (List Num))) (data : List Num) :
    (run locate data cs).length = data.length ∧
      ∀ (c : Nat) (v : Num), data[c]? = some v → (run locate data cs)[c]? = some (seqSum v (history locate c cs)) := by
  induction cs generalizing data with
  | nil => exact ⟨rfl, fun c v h => h⟩
  | cons p t ih =>
      obtain ⟨xs, o⟩ := p
      cases o with
      | none =>
          obtain ⟨d, d1, d2, d3⟩ := (C125_weighted locate data xs (xs.map fun _ => .fin 1)).2 (by simp)
          rw [← C125_unweighted] at d1
          simp only [run, d1]
          refine ⟨(ih d).1.trans d2, fun c v h => ?_⟩
          rw [(ih d).2 c _ (d3 c v h), history, seqSum_append]
      | some ws =>
          by_cases hl : xs.length = ws.length
          · obtain ⟨d, d1, d2, d3⟩ := (C125_weighted locate data xs ws).2 hl
            simp only [run, d1]
            refine ⟨(ih d).1.trans d2, fun c v h => ?_⟩
            rw [(ih d).2 c _ (d3 c v h), history, if_pos hl, seqSum_append]
          · simp only [run, (C125_weighted locate data xs ws).1 hl]
            refine ⟨(ih data).1, fun c v h => ?_⟩
            rw [(ih data).2 c v h, history, if_neg hl, List.nil_append]

/-! ### Examples -/

/-- C125 (defect): the upper edge 100 of the bins (0, 100) with 11 bins is counted in the last bin (the documentation excludes it). -/
theorem C125_edge_defect :
    add (bins100.locate Num.x86) (zeros 11) [.fin 100] none =
      .ok [.fin 0, .fin 0, .fin 0, .fin 0, .fin 0, .fin 0, .fin 0, .fin 0, .fin 0, .fin 0, .fin 1] := by
  decide +kernel

/-- Two bins of [0, 1). -/
def bins2 : EqBins := { b := .fin 0, e := .fin 1, n := 2, span := .fin 1, step := .fin (1 / 2) }

example : add (bins2.locate Num.x86) (zeros 2) [.fin (1 / 4), .fin (3 / 4), .fin 7, .nan, .fin (1 / 8)] none = .ok [.fin 2, .fin 1] := by
  decide +kernel

/-- Rounding is visible: 2^53 + 1 + 1 is 2^53 in this order, and 2^53 + 2 in the other order. -/
example : add (bins2.locate Num.x86) (zeros 2) [.fin 0, .fin 0, .fin 0] (some [.fin (2 ^ 53), .fin 1, .fin 1]) = .ok [.fin (2 ^ 53), .fin 0] ∧
    add (bins2.locate Num.x86) (zeros 2) [.fin 0, .fin 0, .fin 0] (some [.fin 1, .fin 1, .fin (2 ^ 53)]) = .ok [.fin (2 ^ 53 + 2), .fin 0] := by
  decide +kernel

/-- A NaN weight stays in its bin. -/
example : add (bins2.locate Num.x86) (zeros 2) [.fin 0, .fin (1 / 2)] (some [.nan, .fin 3]) = .ok [.nan, .fin 3] := by decide +kernel

example := C125_error (bins2.locate Num.x86) 2 [(.fin 0, 3 / 4), (.fin 0, -1 / 8), (.fin (1 / 2), 5)] (by decide +kernel) 0 (by decide)
  (by
    have e : weightsQ (bins2.locate Num.x86) [(.fin 0, 3 / 4), (.fin 0, -1 / 8), (.fin (1 / 2), 5)] 0 = [3 / 4, -1 / 8] := by decide +kernel
    rw [e]
    have h : (1 : ℚ) + 2 ^ (-53 : ℤ) ≤ 2 := by norm_num
    have h2 : absSum [3 / 4, -1 / 8] = 7 / 8 := by decide +kernel
    rw [h2]
    have h3 : (2 : ℚ) ^ 1 ≤ 2 ^ 1023 := pow_le_pow_right₀ (by norm_num) (by norm_num)
    simp only [List.length_cons, List.length_nil, Nat.reduceAdd, Nat.reduceSub, pow_one] at *
    generalize (2 : ℚ) ^ (-53 : ℤ) = u at *
    generalize (2 : ℚ) ^ 1023 = M at *
    linarith)

end Pyhipp.FloatHist
