import Verif.Model.Binning
import Mathlib.Tactic.FieldSimp
import Mathlib.Data.Rat.Floor
/-
C39-C43: binning (src/pyhipp/stats/binning.py).
-/
set_option linter.unusedSectionVars false
namespace Pyhipp.Binning
open Pyhipp

section B
variable {α : Type} [Field α] [LinearOrder α] [FloorRing α] [IsStrictOrderedRing α]

/-- `bs` came out of one of the two constructors. -/
def Built (bs : Bins α) : Prop :=
  (∃ b e n, equalSpaceInit b e n = .ok bs) ∨ (∃ es, biSearchInit es = .ok bs)

theorem linspace_length (b e : α) (n : Nat) : (linspace b e n).length = n + 1 := by
  simp [linspace]

theorem linspace_get (b e : α) (n i : Nat) (h : i < (linspace b e n).length) :
    (linspace b e n)[i] = b + (i : α) * ((e - b) / (n : α)) := by
  simp [linspace]

theorem linspace_strict (b e : α) (n : Nat) (hn : 0 < n) (hbe : b < e) :
    (linspace b e n).Pairwise (· < ·) := by
  rw [List.pairwise_iff_getElem]
  intro i j hi hj hij
  rw [linspace_get, linspace_get]
  have h1 : (0 : α) < (e - b) / (n : α) := div_pos (sub_pos.mpr hbe) (by exact_mod_cast hn)
  have h2 : (i : α) < (j : α) := by exact_mod_cast hij
  nlinarith

/-- C39: `EqualSpaceBins(x_range, n_bins)` is accepted iff `b < e` and `n_bins > 0`. -/
theorem C39_equal_init (b e : α) (n : Int) :
    (∃ bs, equalSpaceInit b e n = .ok bs) ↔ b < e ∧ 0 < n := by
  unfold equalSpaceInit pyAssert
  by_cases h1 : b < e <;> by_cases h2 : 0 < n <;> simp [h1, h2, Except.bind_ok, Except.bind_error]

/-- What a successful `EqualSpaceBins` looks like. -/
theorem equalInit_ok (b e : α) (n : Int) (bs : Bins α) (h : equalSpaceInit b e n = .ok bs) :
    b < e ∧ 0 < n ∧ bs = .equal b e n.toNat ((e - b) / (n.toNat : α)) := by
  have h12 := (C39_equal_init b e n).mp ⟨bs, h⟩
  refine ⟨h12.1, h12.2, ?_⟩
  unfold equalSpaceInit pyAssert at h
  simp [h12.1, h12.2, Except.bind_ok] at h
  rw [← h]
  have : ((n.toNat : Nat) : α) = (n : α) := by
    have : ((n.toNat : Nat) : Int) = n := by omega
    exact_mod_cast congrArg (Int.cast (R := α)) this
  rw [this]

/-- C39: `BiSearchBins(edges)` accepts any array of at least two numbers and sorts it. -/
theorem C39_bisearch_init (es : List α) :
    biSearchInit es = if 2 ≤ es.length then .ok (.bisearch (npSort es))
      else .error .assertionError := by
  unfold biSearchInit pyAssert
  simp only [npSort_length]
  by_cases h : 2 ≤ es.length <;> simp [h, Except.bind_ok, Except.bind_error]

/-- C39: the stored edges are a sorted rearrangement of the given ones. -/
theorem C39_bisearch_edges (es : List α) (bs : Bins α) (h : biSearchInit es = .ok bs) :
    bs.edges.Perm es ∧ bs.edges.Pairwise (· ≤ ·) := by
  rw [C39_bisearch_init] at h
  split at h
  · cases h; exact ⟨npSort_perm es, npSort_sorted es⟩
  · cases h

/-- C39: the edges of any constructed `Bins` are sorted and there is one more than bins. -/
theorem C39_edges (bs : Bins α) (hb : Built bs) :
    bs.edges.length = bs.nBins + 1 ∧ 1 ≤ bs.nBins ∧ bs.edges.Pairwise (· ≤ ·) := by
  rcases hb with ⟨b, e, n, h⟩ | ⟨es, h⟩
  · obtain ⟨h1, h2, rfl⟩ := equalInit_ok b e n bs h
    refine ⟨linspace_length _ _ _, ?_, pw_lt_le (linspace_strict b e _ (by omega) h1)⟩
    simp only [Bins.nBins]; omega
  · rw [C39_bisearch_init] at h
    split at h
    · rename_i h2
      cases h
      simp only [Bins.edges, Bins.nBins, npSort_length]
      exact ⟨by omega, by omega, npSort_sorted es⟩
    · cases h

/-- C39: the edges of `EqualSpaceBins` start at the lower end of the range, finish at the upper
end and are equally spaced. -/
theorem C39_equal_edges (b e : α) (n : Int) (bs : Bins α) (h : equalSpaceInit b e n = .ok bs) :
    (bs.nBins : Int) = n ∧ bs.edges.head? = some b ∧ bs.edges.getLast? = some e ∧
    ∀ i (hi : i + 1 < bs.edges.length), bs.edges[i + 1] - bs.edges[i] = (e - b) / (n : α) := by
  obtain ⟨h1, h2, rfl⟩ := equalInit_ok b e n bs h
  have hn : ((n.toNat : Nat) : α) = (n : α) := by
    have : ((n.toNat : Nat) : Int) = n := by omega
    exact_mod_cast congrArg (Int.cast (R := α)) this
  have hn0 : (n : α) ≠ 0 := by exact_mod_cast h2.ne'
  have hl := linspace_length b e n.toNat
  refine ⟨by simp only [Bins.nBins]; omega, ?_, ?_, ?_⟩
  · simp [Bins.edges, linspace, List.range_succ_eq_map]
  · simp only [Bins.edges]
    rw [List.getLast?_eq_getElem?, hl, List.getElem?_eq_getElem (by omega), linspace_get]
    simp only [Nat.add_sub_cancel, hn]
    rw [mul_div_cancel₀ _ hn0]; congr 1; ring
  · intro i hi
    simp only [Bins.edges]
    rw [linspace_get, linspace_get, hn]
    push_cast; ring

/-- C39: the documented contract of `locate`, for both implementations: the result is in
`[-1, n_bins]` and the edges at or below `x` are exactly those with index up to the result. -/
theorem C39_locate (bs : Bins α) (hb : Built bs) (x : α) :
    -1 ≤ bs.locate x ∧ bs.locate x ≤ bs.nBins ∧
      ∀ j (hj : j < bs.edges.length), bs.edges[j] ≤ x ↔ (j : Int) ≤ bs.locate x := by
  have hed := C39_edges bs hb
  rcases hb with ⟨b, e, n, h⟩ | ⟨es, h⟩
  · obtain ⟨h1, h2, rfl⟩ := equalInit_ok b e n bs h
    have hn : 0 < n.toNat := by omega
    have hs : (0 : α) < (e - b) / ((n.toNat : Nat) : α) :=
      div_pos (sub_pos.mpr h1) (by exact_mod_cast hn)
    simp only [Bins.locate, clipInt, Bins.nBins]
    refine ⟨by omega, by omega, ?_⟩
    intro j hj
    simp only [Bins.edges] at hj ⊢
    rw [linspace_get]
    rw [linspace_length] at hj
    have key : b + (j : α) * ((e - b) / ((n.toNat : Nat) : α)) ≤ x ↔
        (j : Int) ≤ ⌊(x - b) / ((e - b) / ((n.toNat : Nat) : α))⌋ := by
      rw [Int.le_floor, le_div_iff₀ hs]
      push_cast
      constructor <;> intro h <;> linarith
    rw [key]
    omega
  · rw [C39_bisearch_init] at h
    split at h
    · cases h
      simp only [Bins.edges, Bins.nBins, Bins.locate] at hed ⊢
      have := ssRight_le_length (npSort es) x
      refine ⟨by omega, by omega, ?_⟩
      intro j hj
      rw [ssRight_spec _ _ hed.2.2 j hj]; omega
    · cases h

/-- C39: in words of the docstring: -1 below the range, `n_bins` at or above its end, and inside
`edges[i] <= x < edges[i+1]`. -/
theorem C39_locate_cases (bs : Bins α) (hb : Built bs) (x : α) :
    ∃ h0 : 0 < bs.edges.length, ∃ hn : bs.nBins < bs.edges.length,
    (x < bs.edges[0] → bs.locate x = -1) ∧
    (bs.edges[bs.nBins] ≤ x → bs.locate x = bs.nBins) ∧
    (bs.edges[0] ≤ x → x < bs.edges[bs.nBins] →
      ∃ i : Nat, ∃ hi : i < bs.nBins, bs.locate x = i ∧ bs.edges[i] ≤ x ∧ x < bs.edges[i + 1]) := by
  obtain ⟨hl, hn, -⟩ := C39_edges bs hb
  obtain ⟨h0, h1, h⟩ := C39_locate bs hb x
  refine ⟨by omega, by omega, fun hx => ?_, fun hx => ?_, fun hx hy => ?_⟩
  · have := h 0 (by omega)
    have h2 := not_le.mpr hx
    rw [this] at h2; omega
  · have := (h bs.nBins (by omega)).mp hx; omega
  · have a := (h 0 (by omega)).mp hx
    have b := not_le.mpr hy
    rw [h bs.nBins (by omega)] at b
    refine ⟨(bs.locate x).toNat, by omega, by omega, ?_, ?_⟩
    · exact (h _ (by omega)).mpr (by omega)
    · apply not_le.mp; rw [h _ (by omega)]; omega

/-- C39: two `Bins` objects with the same edges locate every point in the same bin, whatever
their classes. -/
theorem C39_agree (bs bs' : Bins α) (hb : Built bs) (hb' : Built bs') (he : bs.edges = bs'.edges)
    (x : α) : bs.locate x = bs'.locate x := by
  obtain ⟨hl, hn, hs⟩ := C39_edges bs hb
  obtain ⟨hl', hn', hs'⟩ := C39_edges bs' hb'
  obtain ⟨h0, h1, h⟩ := C39_locate bs hb x
  obtain ⟨h0', h1', h'⟩ := C39_locate bs' hb' x
  have e1 := ssRight_unique bs.edges x hs (bs.locate x) h0 (by omega) h
  have e2 := ssRight_unique bs'.edges x hs' (bs'.locate x) h0' (by omega) h'
  rw [← e1, ← e2, he]

/-- C39: in particular `BiSearchBins(EqualSpaceBins(...).x_edges)` behaves like the original. -/
theorem C39_agree_equal (b e : α) (n : Int) (bs : Bins α) (h : equalSpaceInit b e n = .ok bs) :
    ∃ bs', biSearchInit bs.edges = .ok bs' ∧ bs'.edges = bs.edges ∧
      ∀ x, bs'.locate x = bs.locate x := by
  have hb : Built bs := .inl ⟨b, e, n, h⟩
  obtain ⟨hl, hn, hs⟩ := C39_edges bs hb
  have hi : biSearchInit bs.edges = .ok (.bisearch bs.edges) := by
    rw [C39_bisearch_init, if_pos (by omega), npSort_of_sorted _ hs]
  exact ⟨_, hi, rfl, fun x => C39_agree _ bs (.inr ⟨_, hi⟩) hb rfl x⟩

example : ∃ bs : Bins ℚ, equalSpaceInit 0 2 4 = .ok bs ∧ bs.edges = [0, 1/2, 1, 3/2, 2] ∧
    bs.locate (7/5) = 2 ∧ bs.locate (-3) = -1 ∧ bs.locate 2 = 4 := by
  refine ⟨.equal 0 2 4 (2 / 4), ?_, ?_, ?_, ?_, ?_⟩
  · norm_num [equalSpaceInit, pyAssert, Except.bind_ok]; rfl
  · norm_num [Bins.edges, linspace, List.range_succ_eq_map]
  all_goals norm_num [Bins.locate, clipInt]; try rfl

/-- C40: `locate_bound` always gives a valid bin, and agrees with `locate` whenever that is one;
below and above the range the end bins are used. -/
theorem C40_locateBound (bs : Bins α) (hb : Built bs) (x : α) :
    0 ≤ bs.locateBound x ∧ bs.locateBound x < bs.nBins ∧
    (0 ≤ bs.locate x → bs.locate x < bs.nBins → bs.locateBound x = bs.locate x) ∧
    (bs.locate x < 0 → bs.locateBound x = 0) ∧
    (bs.nBins ≤ bs.locate x → bs.locateBound x = (bs.nBins : Int) - 1) := by
  obtain ⟨hl, hn, -⟩ := C39_edges bs hb
  simp only [Bins.locateBound, clipInt, if_true]
  refine ⟨?_, ?_, ?_, ?_, ?_⟩ <;> omega

/-- C40: with only one side requested only that side is bounded. -/
theorem C40_locateBound_sides (bs : Bins α) (hb : Built bs) (x : α) :
    bs.locateBound x true false = max (bs.locate x) 0 ∧
    bs.locateBound x false true = min (bs.locate x) ((bs.nBins : Int) - 1) ∧
    bs.locateBound x false false = bs.locate x := by
  simp [Bins.locateBound, clipInt]

/-- C40: `locate_nearest` returns the index of an edge that is at least as close to `x` as every
other edge, for every `x` inside or outside the range. -/
theorem C40_locateNearest (bs : Bins α) (hb : Built bs) (x : α) :
    ∃ i : Nat, ∃ hi : i < bs.edges.length, bs.locateNearest x = .ok (i : Int) ∧
      ∀ j (hj : j < bs.edges.length), |x - bs.edges[i]| ≤ |x - bs.edges[j]| := by
  obtain ⟨hl, hn, hs⟩ := C39_edges bs hb
  obtain ⟨h0, h1, h⟩ := C39_locate bs hb x
  obtain ⟨b0, b1, b2, b3, b4⟩ := C40_locateBound bs hb x
  obtain ⟨k, hk⟩ : ∃ k : Nat, bs.locateBound x = (k : Int) := ⟨_, (Int.toNat_of_nonneg b0).symm⟩
  rw [hk] at b0 b1 b2 b3 b4
  have hk1 : k + 1 < bs.edges.length := by omega
  have g1 : pyGet bs.edges (k : Int) = .ok bs.edges[k] := pyGet_ofNat _ k (by omega)
  have g2 : pyGet bs.edges ((k : Int) + 1) = .ok bs.edges[k + 1] := by
    have := pyGet_ofNat bs.edges (k + 1) hk1
    push_cast at this; exact this
  have hval : bs.locateNearest x
      = .ok (if x - bs.edges[k] < bs.edges[k + 1] - x then (k : Int) else (k : Int) + 1) := by
    simp only [Bins.locateNearest, hk, g1, g2, Except.bind_ok]; rfl
  have hkk : bs.edges[k] ≤ bs.edges[k + 1] := pw_le hs (by omega) hk1
  -- edges left of k are at most e_k, edges right of k+1 at least e_{k+1}
  have hleft : ∀ j (hj : j < bs.edges.length), j ≤ k → bs.edges[j] ≤ bs.edges[k] :=
    fun j hj hjk => pw_le hs hjk (by omega)
  have hright : ∀ j (hj : j < bs.edges.length), k + 1 ≤ j → bs.edges[k + 1] ≤ bs.edges[j] :=
    fun j hj hjk => pw_le hs hjk hj
  have habs : ∀ a b : α, (a ≤ |a|) ∧ (-a ≤ |a|) := fun a b => ⟨le_abs_self a, neg_le_abs a⟩
  by_cases hlt : x - bs.edges[k] < bs.edges[k + 1] - x
  · refine ⟨k, by omega, by rw [hval, if_pos hlt], ?_⟩
    have hx1 : x < bs.edges[k + 1] := by linarith
    intro j hj
    rcases Nat.lt_or_ge k j with hjk | hjk
    · have := hright j hj hjk
      have hR : |x - bs.edges[j]| = bs.edges[j] - x := by
        rw [abs_of_nonpos (by linarith)]; ring
      rw [hR]
      rcases le_total bs.edges[k] x with hx | hx
      · rw [abs_of_nonneg (by linarith)]; linarith
      · rw [abs_of_nonpos (by linarith)]; linarith
    · have hjle := hleft j hj hjk
      rcases le_total bs.edges[k] x with hx | hx
      · rw [abs_of_nonneg (by linarith), abs_of_nonneg (by linarith)]; linarith
      · -- then x is not above e_k, so k is the first bin
        rcases eq_or_lt_of_le hx with heq | hlt'
        · have hz : x - bs.edges[k] = 0 := sub_eq_zero.mpr heq
          rw [hz, abs_zero]; exact abs_nonneg _
        · have hneg : ¬ bs.edges[k] ≤ x := not_le.mpr hlt'
          rw [h k (by omega)] at hneg
          have hk0 : k = 0 := by
            rcases lt_or_ge (bs.locate x) 0 with hc | hc
            · have := b3 hc; omega
            · have : bs.locate x < bs.nBins := by omega
              have := b2 hc this; omega
          have : j = k := by omega
          subst this; exact le_refl _
  · refine ⟨k + 1, hk1, by rw [hval, if_neg hlt]; push_cast; rfl, ?_⟩
    have hge := not_lt.mp hlt
    have hx0 : bs.edges[k] ≤ x := by
      by_contra hc; push Not at hc; linarith
    intro j hj
    rcases Nat.lt_or_ge k j with hjk | hjk
    · have := hright j hj hjk
      rcases le_total x bs.edges[k + 1] with hx | hx
      · rw [abs_of_nonpos (by linarith), abs_of_nonpos (by linarith)]; linarith
      · rcases eq_or_lt_of_le this with heq | hlt'
        · rw [heq]
        · -- x ≥ e_{k+1} only in the last bin
          have hc := (h (k + 1) hk1).mp hx
          have : bs.nBins ≤ bs.locate x := by
            by_contra hcc
            have := b2 (by omega) (by omega); omega
          have := b4 this
          have : j = k + 1 := by omega
          subst this; exact le_refl _
    · have hjle := hleft j hj hjk
      rw [abs_of_nonneg (show (0:α) ≤ x - bs.edges[j] by linarith)]
      rcases le_total x bs.edges[k + 1] with hx | hx
      · rw [abs_of_nonpos (by linarith)]; linarith
      · rw [abs_of_nonneg (by linarith)]; linarith

example : (Bins.bisearch [0, 1, 5] : Bins ℚ).locateNearest 2 = .ok 1 ∧
    (Bins.bisearch [0, 1, 5] : Bins ℚ).locateNearest 9 = .ok 2 ∧
    (Bins.bisearch [0, 1, 5] : Bins ℚ).locateNearest (-9) = .ok 0 := by
  refine ⟨?_, ?_, ?_⟩ <;> decide +kernel

/-! ### C41 -/

/-- The weighted points an accepted `add` call contributes (weight 1 if none given); a call
whose weights do not match its points is rejected and contributes nothing. -/
def pointsOf (call : List α × Option (List α)) : List (α × α) :=
  match call.2 with
  | none => call.1.map (fun x => (x, 1))
  | some ws => if call.1.length = ws.length then call.1.zip ws else []

/-- Total weight of the points that belong to bin `b`. -/
def weightIn (bs : Bins α) (b : Nat) (pts : List (α × α)) : α :=
  ((pts.filter (fun p => decide (bs.locate p.1 = (b : Int)))).map (fun p => p.2)).sum

theorem addOne_length (d : List α) (i : Int) (w : α) : (addOne d i w).length = d.length := by
  unfold addOne; split <;> simp

theorem addOne_get (d : List α) (i : Int) (w : α) (b : Nat) (hb : b < d.length) :
    (addOne d i w)[b]'(by rw [addOne_length]; exact hb) = d[b] + if i = b then w else 0 := by
  unfold addOne
  split
  · rename_i h
    simp only [List.getElem_modify]
    by_cases hi : i.toNat = b
    · have : i = b := by omega
      simp [this]
    · have : ¬ i = b := by omega
      simp [hi, this]
  · rename_i h
    have : ¬ i = b := by omega
    simp [this]

theorem addFold_get (bs : Bins α) (pts : List (α × α)) (d : List α) :
    ∃ hl : (pts.foldl (fun d p => addOne d (bs.locate p.1) p.2) d).length = d.length,
    ∀ b (hb : b < d.length),
      (pts.foldl (fun d p => addOne d (bs.locate p.1) p.2) d)[b]'(by rw [hl]; exact hb)
        = d[b] + weightIn bs b pts := by
  induction pts generalizing d with
  | nil => exact ⟨rfl, fun b hb => by simp [weightIn]⟩
  | cons p t ih =>
      obtain ⟨hl, hg⟩ := ih (addOne d (bs.locate p.1) p.2)
      refine ⟨by rw [List.foldl_cons, hl, addOne_length], ?_⟩
      intro b hb
      have := hg b (by rw [addOne_length]; exact hb)
      simp only [List.foldl_cons]
      rw [this, addOne_get _ _ _ _ hb]
      by_cases hc : bs.locate p.1 = b
      · simp only [weightIn, hc, if_true, List.filter_cons, decide_true, List.map_cons,
          List.sum_cons]; ring
      · simp only [weightIn, hc, if_false, List.filter_cons, decide_false]
        simp

theorem addPoints_eq (bs : Bins α) (d : List α) (x : List α) (w : Option (List α)) :
    addPoints bs d x w = (match w with
      | none => .ok ((pointsOf (x, w)).foldl (fun d p => addOne d (bs.locate p.1) p.2) d)
      | some ws => if x.length = ws.length
          then .ok ((pointsOf (x, w)).foldl (fun d p => addOne d (bs.locate p.1) p.2) d)
          else .error .assertionError) := by
  rcases w with _ | ws
  · simp [addPoints, pointsOf, List.foldl_map]
  · simp only [addPoints, pointsOf, List.length_map]
    split
    · congr 1
      rw [List.zip_map_left, List.foldl_map]; rfl
    · rfl

theorem runAdds_eq (bs : Bins α) (d : List α) (hist : List (List α × Option (List α))) :
    runAdds bs d hist
      = (hist.flatMap pointsOf).foldl (fun d p => addOne d (bs.locate p.1) p.2) d := by
  induction hist generalizing d with
  | nil => rfl
  | cons c t ih =>
      obtain ⟨x, w⟩ := c
      simp only [runAdds, List.flatMap_cons, List.foldl_append]
      rw [addPoints_eq]
      rcases w with _ | ws
      · simp only; rw [ih]
      · simp only
        by_cases h : x.length = ws.length
        · simp only [h, if_true]; rw [ih]
        · simp only [h, if_false, pointsOf]; rw [ih]; rfl

/-- C41: after any history of `add` calls on a fresh object, entry `b` is the total weight of all
points ever added that lie in bin `b`; points outside the range contribute to no entry (their
`locate` is -1 or `n_bins`). -/
theorem C41_histogram (bs : Bins α) (hist : List (List α × Option (List α))) :
    (runAdds bs (newData bs) hist).length = bs.nBins ∧
    ∀ b : Nat, b < bs.nBins →
      (runAdds bs (newData bs) hist)[b]? = some (weightIn bs b (hist.flatMap pointsOf)) := by
  rw [runAdds_eq]
  obtain ⟨hl, hg⟩ := addFold_get bs (hist.flatMap pointsOf) (newData bs)
  have hz : (newData bs).length = bs.nBins := by simp [newData]
  refine ⟨by rw [hl, hz], ?_⟩
  intro b hb
  rw [List.getElem?_eq_getElem (by rw [hl, hz]; exact hb), hg b (by rw [hz]; exact hb)]
  simp [newData]

/-- C41: only the multiset of added points matters: any reordering or regrouping of the calls
gives the same data. -/
theorem C41_order_free (bs : Bins α) (h1 h2 : List (List α × Option (List α)))
    (hp : (h1.flatMap pointsOf).Perm (h2.flatMap pointsOf)) :
    runAdds bs (newData bs) h1 = runAdds bs (newData bs) h2 := by
  obtain ⟨l1, g1⟩ := C41_histogram bs h1
  obtain ⟨l2, g2⟩ := C41_histogram bs h2
  apply List.ext_getElem?
  intro b
  by_cases hb : b < bs.nBins
  · rw [g1 b hb, g2 b hb]
    congr 1
    exact ((hp.filter _).map _).sum_eq
  · rw [List.getElem?_eq_none (by omega), List.getElem?_eq_none (by omega)]

/-- C41: weights of the wrong length are rejected with AssertionError, otherwise `add` succeeds. -/
theorem C41_reject (bs : Bins α) (d x ws : List α) :
    (addPoints bs d x (some ws) = .error .assertionError ↔ x.length ≠ ws.length) ∧
    (∃ d', addPoints bs d x none = .ok d') := by
  constructor
  · rw [addPoints_eq]
    by_cases h : x.length = ws.length <;> simp [h]
  · exact ⟨_, rfl⟩

/-- C41: without weights, the entries sum up to the number of in-range points. -/
theorem C41_total (bs : Bins α) (pts : List (α × α)) :
    ((List.range bs.nBins).map (fun b => weightIn bs b pts)).sum
      = ((pts.filter (fun p => decide (0 ≤ bs.locate p.1 ∧ bs.locate p.1 < bs.nBins))).map
          (fun p => p.2)).sum := by
  induction pts with
  | nil => simp [weightIn]
  | cons p t ih =>
      have step : ∀ b : Nat, weightIn bs b (p :: t)
          = (if bs.locate p.1 = (b : Int) then p.2 else 0) + weightIn bs b t := by
        intro b
        by_cases hc : bs.locate p.1 = b
        · simp [weightIn, hc]
        · simp [weightIn, hc]
      have hsum : ∀ n : Nat, ((List.range n).map (fun b : Nat =>
          (if bs.locate p.1 = (b : Int) then p.2 else 0))).sum
          = if 0 ≤ bs.locate p.1 ∧ bs.locate p.1 < n then p.2 else 0 := by
        intro n
        induction n with
        | zero => simp
        | succ n ihn =>
            rw [List.range_succ, List.map_append, List.sum_append, ihn]
            simp only [List.map_cons, List.map_nil, List.sum_singleton]
            by_cases h1 : bs.locate p.1 = n
            · rw [if_neg (by omega), if_pos h1, if_pos (by push_cast; omega)]; ring
            · rw [if_neg h1, add_zero]
              congr 1
              apply propext; push_cast; omega
      simp only [step]
      rw [List.sum_map_add, hsum, ih]
      by_cases hc : 0 ≤ bs.locate p.1 ∧ bs.locate p.1 < bs.nBins
      · simp [hc]
      · simp [hc]

example : runAdds (.bisearch [0, 1, 2] : Bins ℚ) [0, 0]
    [([1/2, 3, 1], none), ([0, 1], some [2, 5]), ([0], some [])] = [3, 6] := by decide +kernel

/-! ### C42 -/

theorem flatMap_block {β γ : Type} (l : List β) (m : Nat) (f : β → List γ)
    (hf : ∀ a, (f a).length = m) (i j : Nat) (hi : i < l.length) (hj : j < m) :
    (l.flatMap f)[i * m + j]? = (f l[i])[j]? := by
  induction l generalizing i with
  | nil => simp at hi
  | cons a t ih =>
      rw [List.flatMap_cons]
      rcases i with _ | i
      · rw [List.getElem?_append_left (by rw [hf]; omega)]; simp
      · rw [List.getElem?_append_right (by rw [hf]; nlinarith), hf]
        have : (i + 1) * m + j - m = i * m + j := by
          rw [Nat.add_mul]; omega
        rw [this, ih i (by simpa using hi)]; simp

/-- C42: refining non-empty edges by `s >= 1`: the new array has `(len(e)-1) s + 1` entries, entry
`i s + j` is the `j`-th of `s` equally spaced points of interval `i`, and the last entry is the
last edge. -/
theorem C42_insert (e : List α) (s : Nat) (hs : 1 ≤ s) (hne : e ≠ []) :
    ∃ r, insertSubBins e s = .ok r ∧ r.length = (e.length - 1) * s + 1 ∧
      (∀ i j (hi : i + 1 < e.length), j < s →
        r[i * s + j]? = some (e[i] + (j : α) * ((e[i + 1] - e[i]) / (s : α)))) ∧
      r.getLast? = e.getLast? := by
  have hl : 0 < e.length := List.length_pos_iff.mpr hne
  by_cases h1 : s = 1
  · subst h1
    refine ⟨e, by simp [insertSubBins], by omega, ?_, rfl⟩
    intro i j hi hj
    have : j = 0 := by omega
    subst this
    simp only [Nat.mul_one, Nat.add_zero, Nat.cast_zero, zero_mul, add_zero]
    exact List.getElem?_eq_getElem _
  · set f : α × α → List α := fun p =>
      (List.range s).map (fun j : Nat => p.1 + (j : α) * ((p.2 - p.1) / (s : α))) with hf
    have hfl : ∀ p, (f p).length = s := by intro p; simp [hf]
    have hzl : (List.zip e (e.drop 1)).length = e.length - 1 := by simp
    refine ⟨(List.zip e (e.drop 1)).flatMap f ++ [e.getLast hne], ?_, ?_, ?_, ?_⟩
    · unfold insertSubBins
      rw [if_neg h1, pyGet_last e hne]
      simp only [Except.bind_ok]; rfl
    · rw [List.length_append, List.length_flatMap]
      simp [hfl]
    · intro i j hi hj
      have hlt : i * s + j < ((List.zip e (e.drop 1)).flatMap f).length := by
        rw [List.length_flatMap]
        have : (List.map (fun a => (f a).length) (e.zip (List.drop 1 e))).sum = (e.length - 1) * s := by
          simp [hfl]
        rw [this]
        have : (i + 1) * s ≤ (e.length - 1) * s := Nat.mul_le_mul_right _ (by omega)
        nlinarith
      rw [List.getElem?_append_left hlt, flatMap_block _ s f hfl i j (by rw [hzl]; omega) hj]
      simp [hf, hj, Nat.add_comm]
    · rw [List.getLast?_append]; simp [List.getLast?_eq_getLast_of_ne_nil, hne]

/-- C42: every original edge `e[i]` reappears at position `i s`. -/
theorem C42_insert_keeps_edges (e : List α) (s : Nat) (hs : 1 ≤ s) (hne : e ≠ []) (r : List α)
    (hr : insertSubBins e s = .ok r) (i : Nat) (hi : i < e.length) :
    r[i * s]? = some e[i] := by
  obtain ⟨r', h1, h2, h3, h4⟩ := C42_insert e s hs hne
  rw [h1] at hr; cases hr
  by_cases hlast : i + 1 < e.length
  · have := h3 i 0 hlast (by omega)
    simpa using this
  · have hi' : i = e.length - 1 := by omega
    rw [List.getLast?_eq_getElem?, List.getLast?_eq_getElem?, h2] at h4
    simp only [Nat.add_sub_cancel] at h4
    rw [← hi'] at h4
    rw [h4, List.getElem?_eq_getElem hi]

/-- C42: sorted edges stay sorted. -/
theorem C42_insert_sorted (e : List α) (s : Nat) (hs : 1 ≤ s) (hne : e ≠ [])
    (he : e.Pairwise (· ≤ ·)) (r : List α) (hr : insertSubBins e s = .ok r) :
    r.Pairwise (· ≤ ·) := by
  obtain ⟨q, h1, h2, h3, h4⟩ := C42_insert e s hs hne
  rw [h1] at hr; cases hr
  have hl : 0 < e.length := List.length_pos_iff.mpr hne
  have hs0 : (0 : α) < (s : α) := by exact_mod_cast hs
  have hkeep := fun i hi => C42_insert_keeps_edges e s hs hne r h1 i hi
  rw [← List.isChain_iff_pairwise, List.isChain_iff_getElem]
  intro k hk
  rw [h2] at hk
  have hdm := Nat.div_add_mod k s
  have hmod := Nat.mod_lt k (show 0 < s by omega)
  set i := k / s with hi
  set j := k % s with hj
  have hie : i + 1 < e.length := by
    by_contra hc
    have : (e.length - 1) * s ≤ i * s := Nat.mul_le_mul_right _ (by omega)
    nlinarith
  have hk' : k = i * s + j := by rw [Nat.mul_comm]; omega
  have g0 := h3 i j hie hmod
  rw [← hk', List.getElem?_eq_getElem (by omega)] at g0
  have v0 : r[k] = _ := Option.some.inj g0
  have hd : e[i] ≤ e[i + 1] := pw_le he (by omega) hie
  have hdd : (0 : α) ≤ (e[i + 1] - e[i]) / (s : α) := div_nonneg (sub_nonneg.mpr hd) hs0.le
  by_cases hjs : j + 1 < s
  · have g1 := h3 i (j + 1) hie hjs
    rw [show i * s + (j + 1) = k + 1 by omega, List.getElem?_eq_getElem (by omega)] at g1
    have v1 : r[k + 1] = _ := Option.some.inj g1
    rw [v0, v1]; push_cast; nlinarith
  · have hks : k + 1 = (i + 1) * s := by rw [Nat.add_mul]; omega
    have g1 := hkeep (i + 1) hie
    rw [← hks, List.getElem?_eq_getElem (by omega)] at g1
    have v1 : r[k + 1] = _ := Option.some.inj g1
    rw [v0, v1]
    have hj' : (j : α) ≤ (s : α) := by exact_mod_cast hmod.le
    have : (j : α) * ((e[i + 1] - e[i]) / (s : α)) ≤ e[i + 1] - e[i] := by
      calc (j : α) * ((e[i + 1] - e[i]) / (s : α)) ≤ (s : α) * ((e[i + 1] - e[i]) / (s : α)) :=
            mul_le_mul_of_nonneg_right hj' hdd
        _ = e[i + 1] - e[i] := by field_simp
    linarith

example : insertSubBins ([0, 2, 3] : List ℚ) 2 = .ok [0, 1, 2, 5/2, 3] := by decide +kernel

/-- C42: merged centres and widths: entry `i` refers to the interval from edge `i` to edge
`i + stride`. -/
theorem C42_centers_widths (e : List α) (stride : Nat) (hst : stride ≤ e.length) :
    (edgesToCenters e stride).length = e.length - stride ∧
    (edgesToWidths e stride).length = e.length - stride ∧
    ∀ i (hi : i + stride < e.length),
      (edgesToCenters e stride)[i]? = some ((1 / 2) * (e[i] + e[i + stride])) ∧
      (edgesToWidths e stride)[i]? = some (e[i + stride] - e[i]) := by
  refine ⟨by simp [edgesToCenters, strided], by simp [edgesToWidths, strided], ?_⟩
  intro i hi
  have hlt : i < (strided e stride).length := by simp [strided]; omega
  have hv : (strided e stride)[i] = (e[i], e[i + stride]) := by
    simp [strided, Nat.add_comm]
  constructor
  · rw [edgesToCenters, List.getElem?_map, List.getElem?_eq_getElem hlt, hv]; rfl
  · rw [edgesToWidths, List.getElem?_map, List.getElem?_eq_getElem hlt, hv]; rfl

theorem combine_fold (x : List α) (n m : Nat) (hm : n + m ≤ x.length) :
    ∃ hl : ((List.range m).foldl (fun xo b0 =>
        List.zipWith (fun a b => a + b) xo ((x.drop (b0 + 1)).take n)) (x.take n)).length = n,
    ∀ i (hi : i < n),
      ((List.range m).foldl (fun xo b0 =>
        List.zipWith (fun a b => a + b) xo ((x.drop (b0 + 1)).take n)) (x.take n))[i]'(by omega)
      = ((x.drop i).take (m + 1)).sum := by
  induction m with
  | zero =>
      refine ⟨by simp; omega, ?_⟩
      intro i hi
      simp only [List.range_zero, List.foldl_nil, List.getElem_take]
      rw [List.drop_eq_getElem_cons (by omega)]
      simp only [Nat.zero_add, List.take_succ_cons, List.take_zero, List.sum_cons, List.sum_nil,
        add_zero]
  | succ m ih =>
      obtain ⟨hl, hg⟩ := ih (by omega)
      simp only [List.range_succ, List.foldl_append, List.foldl_cons, List.foldl_nil]
      refine ⟨by rw [List.length_zipWith, hl]; simp; omega, ?_⟩
      intro i hi
      rw [List.getElem_zipWith, hg i hi]
      rw [List.take_succ_eq_append_getElem (i := m + 1) (by simp; omega), List.sum_append,
        List.sum_singleton]
      simp only [List.getElem_take, List.getElem_drop]
      congr 2
      omega

/-- C42: `combine_adjacent_bins(x, m)` is accepted iff `1 <= m <= len(x)`, and then has
`len(x)-m+1` entries, the i-th being `x[i] + ... + x[i+m-1]`; otherwise AssertionError. -/
theorem C42_combine (x : List α) (m : Int) :
    (1 ≤ m ∧ m ≤ x.length → ∃ r, combineAdjacent x m = .ok r ∧
      (r.length : Int) = x.length - m + 1 ∧
      ∀ i : Nat, (i : Int) < x.length - m + 1 → r[i]? = some ((x.drop i).take m.toNat).sum) ∧
    (¬ (1 ≤ m ∧ m ≤ x.length) → combineAdjacent x m = .error .assertionError) := by
  constructor
  · rintro ⟨h1, h2⟩
    obtain ⟨hl, hg⟩ := combine_fold x ((x.length : Int) - m + 1).toNat (m.toNat - 1) (by omega)
    have hval : combineAdjacent x m = .ok ((List.range (m.toNat - 1)).foldl (fun xo b0 =>
        List.zipWith (fun a b => a + b) xo
          ((x.drop (b0 + 1)).take ((x.length : Int) - m + 1).toNat))
        (x.take ((x.length : Int) - m + 1).toNat)) := by
      unfold combineAdjacent pyAssert
      simp only [show m ≥ 1 from h1, show (x.length : Int) - m + 1 > 0 by omega, decide_true,
        if_true, Except.bind_ok]; rfl
    refine ⟨_, hval, by rw [hl]; omega, ?_⟩
    intro i hi
    rw [List.getElem?_eq_getElem (by omega), hg i (by omega)]
    have : m.toNat - 1 + 1 = m.toNat := by omega
    rw [this]
  · intro h
    unfold combineAdjacent pyAssert
    by_cases h1 : m ≥ 1
    · have : ¬ ((x.length : Int) - m + 1 > 0) := by omega
      simp [h1, this, Except.bind_ok, Except.bind_error]
    · simp [h1, Except.bind_error]

example : combineAdjacent ([1, 2, 3, 4] : List ℚ) 2 = .ok [3, 5, 7] := by decide +kernel

/-- C42: `parse_sub_bin_spec` with edges returns refined edges together with their own range; an
explicit range is an AssertionError. -/
theorem C42_parse_edges (e : List α) (hne : e ≠ []) (s : Int) (hs : 1 ≤ s) :
    (∃ r lo hi, parseSubBinSpec (.edges e) s none = .ok (.edges r, s, (lo, hi)) ∧
      insertSubBins e s.toNat = .ok r ∧ e.head? = some lo ∧ e.getLast? = some hi) ∧
    (∀ r, parseSubBinSpec (.edges e) s (some r) = .error .assertionError) := by
  obtain ⟨r, h1, h2, h3, h4⟩ := C42_insert e s.toNat (by omega) hne
  have hl : 0 < e.length := List.length_pos_iff.mpr hne
  have hrne : r ≠ [] := by intro h; rw [h] at h2; simp at h2
  have hk := C42_insert_keeps_edges e s.toNat (by omega) hne r h1 0 hl
  rw [Nat.zero_mul] at hk
  have hr0 : 0 < r.length := by omega
  rw [List.getElem?_eq_getElem hr0] at hk
  have p0 : pyGet r 0 = .ok e[0] := by
    have := pyGet_ofNat r 0 hr0
    rw [Option.some.inj hk] at this; exact this
  have p1 : pyGet r (-1) = .ok (e.getLast hne) := by
    rw [pyGet_last r hrne]
    rw [List.getLast?_eq_getLast_of_ne_nil hrne, List.getLast?_eq_getLast_of_ne_nil hne] at h4
    rw [Option.some.inj h4]
  constructor
  · refine ⟨r, e[0], e.getLast hne, ?_, h1, by simp [List.head?_eq_getElem?], by
      rw [List.getLast?_eq_getLast_of_ne_nil hne]⟩
    simp only [parseSubBinSpec, pyAssert, h1, p0, p1, Except.bind_ok, Option.isNone_none,
      decide_eq_true hs, ge_iff_le, if_true]
    rfl
  · intro q
    simp [parseSubBinSpec, pyAssert, h1, Except.bind_ok, Except.bind_error, hs]

/-- C42: `parse_sub_bin_spec` with a number of bins multiplies it and needs a range. -/
theorem C42_parse_num (n s : Int) (r : α × α) (hs : 1 ≤ s) :
    parseSubBinSpec (.num n) s (some r) = .ok (.num (n * s), s, r) ∧
    parseSubBinSpec (.num n : BinSpec α) s none = .error .assertionError := by
  simp [parseSubBinSpec, pyAssert, hs, Except.bind_ok]

/-! ### C43 -/

/-- Does sample `v` belong to the interval `[lo, hi)`, closed at the top if `last`? -/
def InInterval (lo hi : α) (last : Prop) (v : α) : Prop := lo ≤ v ∧ (v < hi ∨ last ∧ v = hi)

open Classical in
/-- Total weight of the samples in an interval. -/
noncomputable def weightOf (xw : List (α × α)) (P : α → Prop) : α :=
  ((xw.filter (fun p => decide (P p.1))).map (fun p => p.2)).sum

theorem weightOf_congr (xw : List (α × α)) (P Q : α → Prop) (h : ∀ v, P v ↔ Q v) :
    weightOf xw P = weightOf xw Q := by
  have : P = Q := funext fun v => propext (h v)
  rw [this]

theorem weightOf_or (xw : List (α × α)) (P Q : α → Prop) (h : ∀ v, ¬ (P v ∧ Q v)) :
    weightOf xw P + weightOf xw Q = weightOf xw (fun v => P v ∨ Q v) := by
  classical
  unfold weightOf
  induction xw with
  | nil => simp
  | cons p t ih =>
      simp only [List.filter_cons]
      by_cases h1 : P p.1
      · have h2 : ¬ Q p.1 := fun hq => h _ ⟨h1, hq⟩
        simp only [h1, h2, decide_true, decide_false, if_true, true_or, List.map_cons, List.sum_cons,
          ← ih]
        simp only [Bool.false_eq_true, if_false]; ring
      · by_cases h2 : Q p.1
        · simp only [h1, h2, decide_true, decide_false, if_true, or_true, List.map_cons,
            List.sum_cons, ← ih, Bool.false_eq_true, if_false]; ring
        · simp only [h1, h2, decide_false, or_false, Bool.false_eq_true, if_false, ih]

theorem histCounts_length (e : List α) (xw : List (α × α)) :
    (histCounts e xw).length = e.length - 1 := by simp [histCounts]

theorem histCounts_get (e : List α) (xw : List (α × α)) (i : Nat) (hi : i + 1 < e.length) :
    (histCounts e xw)[i]'(by rw [histCounts_length]; omega)
      = weightOf xw (InInterval e[i] e[i + 1] (i + 2 = e.length)) := by
  classical
  simp only [histCounts, List.getElem_map, List.getElem_range, weightOf]
  congr 2
  apply List.filter_congr
  intro p _
  rw [Bool.eq_iff_iff, decide_eq_true_iff]
  unfold inBin InInterval
  rw [getD_lt e i 0 (by omega), getD_lt e (i + 1) 0 hi]
  simp only [Bool.and_eq_true, Bool.or_eq_true, decide_eq_true_iff]

/-- Consecutive sub-bins merge to one interval. -/
theorem hist_merge (e : List α) (he : e.Pairwise (· ≤ ·)) (xw : List (α × α)) (i m : Nat)
    (hi : i + m + 1 < e.length) :
    (((histCounts e xw).drop i).take (m + 1)).sum
      = weightOf xw (InInterval e[i] e[i + m + 1] (i + m + 2 = e.length)) := by
  induction m with
  | zero =>
      rw [List.drop_eq_getElem_cons (by rw [histCounts_length]; omega)]
      simp only [Nat.zero_add, List.take_succ_cons, List.take_zero, List.sum_cons, List.sum_nil,
        add_zero]
      exact histCounts_get e xw i (by omega)
  | succ m ih =>
      rw [List.take_succ_eq_append_getElem (i := m + 1) (by simp [histCounts_length]; omega),
        List.sum_append, List.sum_singleton, ih (by omega)]
      simp only [List.getElem_drop]
      have hg := histCounts_get e xw (i + m + 1) (by omega)
      have : (histCounts e xw)[i + (m + 1)]'(by rw [histCounts_length]; omega)
          = weightOf xw (InInterval e[i + m + 1] e[i + m + 1 + 1] (i + m + 1 + 2 = e.length)) := hg
      rw [this, weightOf_or]
      · apply weightOf_congr
        intro v
        have h1 : e[i] ≤ e[i + m + 1] := pw_le he (by omega) (by omega)
        have h2 : e[i + m + 1] ≤ e[i + m + 1 + 1] := pw_le he (by omega) (by omega)
        simp only [InInterval]
        have hne : ¬ (i + m + 2 = e.length) := by omega
        simp only [hne, false_and, or_false]
        have hidx : e[i + (m + 1) + 1] = e[i + m + 1 + 1] := rfl
        rw [hidx]
        constructor
        · rintro (⟨a, b⟩ | ⟨a, b⟩)
          · exact ⟨a, .inl (lt_of_lt_of_le b h2)⟩
          · refine ⟨le_trans h1 a, ?_⟩
            rcases b with b | ⟨b, c⟩
            · exact .inl b
            · exact .inr ⟨by omega, c⟩
        · rintro ⟨a, b⟩
          rcases lt_or_ge v e[i + m + 1] with hv | hv
          · exact .inl ⟨a, hv⟩
          · refine .inr ⟨hv, ?_⟩
            rcases b with b | ⟨b, c⟩
            · exact .inl b
            · exact .inr ⟨by omega, c⟩
      · rintro v ⟨⟨a, b⟩, c, d⟩
        rcases b with b | ⟨b, -⟩
        · exact absurd b (not_lt.mpr c)
        · omega

/-- The edges np.histogram uses are sorted. -/
theorem histEdges_sorted (bins : BinSpec α) (range : α × α) (e : List α)
    (h : histEdges bins range = .ok e) : e.Pairwise (· ≤ ·) := by
  unfold histEdges at h
  split at h
  · split at h
    · cases h
    · split at h
      · cases h
      · rename_i n h1 h2
        split at h
        · cases h
          exact pw_lt_le (linspace_strict _ _ _ (by omega) (by rename_i hh; rw [hh]; linarith))
        · cases h
          rename_i hh
          exact pw_lt_le (linspace_strict _ _ _ (by omega)
            (lt_of_le_of_ne (not_lt.mp h1) hh))
  · split at h
    · rename_i hh
      cases h
      rw [← List.isChain_iff_pairwise, List.isChain_iff_getElem]
      intro i hi
      have hl : i < (npDiff e).length := by rw [npDiff_length]; omega
      rw [List.all_eq_true] at hh
      have := hh _ (List.getElem_mem hl)
      rw [npDiff_getElem] at this
      simpa using this
    · cases h

/-- C43: a successful overlapped-bin histogram with refinement `s` on sub-edges `e`: for each `i`
with `i + s` a valid edge, `x[i]`, `dx[i]` are centre and width of `[e_i, e_{i+s}]` and `h[i]` is
the total weight (count, if no weights) of the samples in `[e_i, e_{i+s})` (closed at the top for
the last one); there are exactly `n_sub - s + 1` entries. -/
theorem C43_overlap (x : List α) (bins : BinSpec α) (s : Int) (range : α × α)
    (w : Option (List α)) (r : OverlapHist α)
    (h : fromOverlappedBins x bins s range w = .ok r) :
    1 ≤ s ∧ histEdges bins range = .ok r.subE ∧ r.subE.Pairwise (· ≤ ·) ∧
    s + 1 ≤ r.subE.length ∧
    (r.h.length : Int) = r.subE.length - s ∧ r.x.length = r.h.length ∧ r.dx.length = r.h.length ∧
    ∀ i (hi : i + s.toNat < r.subE.length),
      r.x[i]? = some ((1 / 2) * (r.subE[i] + r.subE[i + s.toNat])) ∧
      r.dx[i]? = some (r.subE[i + s.toNat] - r.subE[i]) ∧
      r.h[i]? = some (weightOf (x.zip (w.getD (x.map (fun _ => 1))))
        (InInterval r.subE[i] r.subE[i + s.toNat] (i + s.toNat + 1 = r.subE.length))) := by
  unfold fromOverlappedBins at h
  simp only at h
  split at h
  · cases h
  rename_i hlen
  cases he : histEdges bins range with
  | error q => rw [he] at h; simp [Except.bind_error] at h
  | ok e =>
    rw [he] at h
    simp only [Except.bind_ok] at h
    set xw := x.zip (w.getD (x.map (fun _ => 1))) with hxw
    obtain ⟨c1, c2⟩ := C42_combine (histCounts e xw) s
    by_cases hc : 1 ≤ s ∧ s ≤ (histCounts e xw).length
    · obtain ⟨q, q1, q2, q3⟩ := c1 hc
      rw [q1] at h
      simp only [Except.bind_ok] at h
      cases h
      simp only
      rw [histCounts_length] at hc q2 q3
      have hs := histEdges_sorted bins range e he
      obtain ⟨w1, w2, w3⟩ := C42_centers_widths e s.toNat (by omega)
      refine ⟨hc.1, trivial, hs, by omega, by omega, by omega, by omega, ?_⟩
      intro i hi
      obtain ⟨v1, v2⟩ := w3 i hi
      refine ⟨v1, v2, ?_⟩
      rw [q3 i (by omega)]
      have hm := hist_merge e hs xw i (s.toNat - 1) (by omega)
      have e1 : s.toNat - 1 + 1 = s.toNat := by omega
      rw [e1] at hm
      rw [hm]
      have e2 : i + (s.toNat - 1) + 1 = i + s.toNat := by omega
      have e3 : (i + (s.toNat - 1) + 2 = e.length) = (i + s.toNat + 1 = e.length) := by
        apply propext; omega
      simp only [e2, e3]
    · rw [c2 hc] at h
      simp [Except.bind_error] at h

/-- C43 (violated part): the entry 'sub_h' is documented by its name and by its companion 'sub_e'
to be the histogram of the sub-bins, but it is the combined histogram: it always equals 'h', and
whenever `s > 1` it does not even have one entry per sub-bin. -/
theorem C43_subH_defect (x : List α) (bins : BinSpec α) (s : Int) (range : α × α)
    (w : Option (List α)) (r : OverlapHist α)
    (h : fromOverlappedBins x bins s range w = .ok r) :
    r.subH = r.h ∧ (1 < s → r.subH.length ≠ r.subE.length - 1) := by
  have hsub : r.subH = r.h := by
    unfold fromOverlappedBins at h
    simp only at h
    split at h
    · cases h
    cases he : histEdges bins range with
    | error q => rw [he] at h; simp [Except.bind_error] at h
    | ok e =>
      rw [he] at h
      simp only [Except.bind_ok] at h
      cases hc : combineAdjacent (histCounts e (x.zip (w.getD (x.map (fun _ => 1))))) s with
      | error q => rw [hc] at h; simp [Except.bind_error] at h
      | ok q => rw [hc] at h; simp only [Except.bind_ok] at h; cases h; rfl
  refine ⟨hsub, ?_⟩
  intro hs
  have := C43_overlap x bins s range w r h
  rw [hsub]
  omega

example : ∃ r, fromOverlappedBins ([0, 1/2, 1, 3/2, 2] : List ℚ) (.num 4) 2 (0, 2) none = .ok r ∧
    r.h = [2, 2, 3] ∧ r.x = [1/2, 1, 3/2] ∧ r.subE = [0, 1/2, 1, 3/2, 2] := by
  refine ⟨⟨[1/2, 1, 3/2], [1, 1, 1], [2, 2, 3], [0, 1/2, 1, 3/2, 2], [2, 2, 3]⟩, ?_, rfl, rfl, rfl⟩
  have : histEdges (.num 4 : BinSpec ℚ) (0, 2) = .ok [0, 1/2, 1, 3/2, 2] := by
    norm_num [histEdges, linspace, List.range_succ_eq_map]
    norm_num [Int.toNat, List.range_succ_eq_map]
  unfold fromOverlappedBins
  rw [if_neg (by simp), this]
  simp only [Except.bind_ok]
  have h1 : combineAdjacent (histCounts [0, 1/2, 1, 3/2, 2] (List.zip [0, 1/2, 1, 3/2, 2]
    (none.getD (List.map (fun _ => 1) ([0, 1/2, 1, 3/2, 2] : List ℚ))))) 2 = .ok [2, 2, (3 : ℚ)] := by
    decide +kernel
  have h2 : edgesToCenters [0, 1/2, 1, 3/2, 2] (Int.toNat 2) = [1/2, 1, (3/2 : ℚ)] := by
    decide +kernel
  have h3 : edgesToWidths [0, 1/2, 1, 3/2, 2] (Int.toNat 2) = [1, 1, (1 : ℚ)] := by
    decide +kernel
  rw [h1, h2, h3]; rfl

end B
end Pyhipp.Binning
