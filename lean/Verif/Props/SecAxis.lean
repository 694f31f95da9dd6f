import Verif.Model.SecAxis
import Verif.Props.Axes
import Mathlib.Tactic.FieldSimp
import Mathlib.Tactic.Ring
import Mathlib.Tactic.Linarith
/-
C106: secondary axes and filled bands (src/pyhipp/astro/plot/shortcuts.py).
-/
set_option linter.unusedSectionVars false
namespace Pyhipp.Plot
open Pyhipp

variable {φ : Type}

/-! ### C106: placing the axis -/

/-- Spec: a location names a side: top and bottom have x axes, left and right y axes. -/
inductive Side : PV → Bool → Str → Prop
  | top : Side (.str "top".toList) true "top".toList
  | bottom : Side (.str "bottom".toList) true "bottom".toList
  | left : Side (.str "left".toList) false "left".toList
  | right : Side (.str "right".toList) false "right".toList

theorem sideOf_iff (location : PV) (isX : Bool) (s : Str) :
    sideOf location = some (isX, s) ↔ Side location isX s := by
  constructor
  · intro h
    cases location <;> simp only [sideOf] at h <;> try cases h
    rename_i t
    split at h
    · rename_i h1
      cases h
      rcases h1 with rfl | rfl
      · exact .top
      · exact .bottom
    · split at h
      · rename_i h1
        cases h
        rcases h1 with rfl | rfl
        · exact .left
        · exact .right
      · cases h
  · rintro (_ | _ | _ | _) <;> rfl

/-- Spec: the calls that label and tick the new axis (x or y): nothing for None. -/
def secCalls (axis : Str) (ticks label : PV) : List Call :=
  oneCall axis "label".toList label [] ++ oneCall axis "ticks".toList ticks []

theorem secFrame_sent (accepts : Call → Bool) (isX : Bool) (ticks label : PV) :
    let axis := if isX then "x".toList else "y".toList
    let r := Ax.new.fmtFrame accepts (secFrame axis ticks label)
    r.1 = (sendAll accepts (secCalls axis ticks label) []).1 ∧
      r.2.sent = (sendAll accepts (secCalls axis ticks label) []).2 := by
  intro axis r
  have hm : ∀ (what : Str) (v : PV), ∃ cs, cs = oneCall axis what v [] ∧
      Asks what (if v.isNone then .none else .map [(axis, v)]) cs := by
    intro what v
    by_cases hn : v.isNone = true
    · have : v = .none := by cases v <;> simp [PV.isNone] at hn ⊢
      subst this
      exact ⟨[], rfl, .none⟩
    · rw [if_neg hn]
      refine ⟨_, rfl, ?_⟩
      have := Asks.map (what := what) [(axis, v)] (by show [axis].Nodup; simp)
      cases isX
      · exact this
      · have e : oneCall "y".toList what (valOr [("x".toList, v)] "y".toList) (List.filter
            (fun p : Str × PV => decide (p.1 ≠ "x".toList ∧ p.1 ≠ "y".toList)) [("x".toList, v)]) = [] := rfl
        simp only [axis, if_true, e, List.append_nil] at this ⊢
        exact this
  obtain ⟨c1, e1, a1⟩ := hm "label".toList label
  obtain ⟨c2, e2, a2⟩ := hm "ticks".toList ticks
  have hframe : ∃ d : Fmt, FrameAsks d (c1 ++ c2) ∧ Ax.new.frame.update [secFrame axis ticks label] [] = (.ok (), d) := by
    refine ⟨Fmt.frame (label := if label.isNone then .none else .map [(axis, label)])
      (ticks := if ticks.isNone then .none else .map [(axis, ticks)]), ⟨_, _, _, _, _, _, _, [], c1, [], c2, [], [], [],
      ⟨rfl, rfl, rfl, rfl, rfl, rfl, rfl⟩, ⟨.none, a1, .none, a2, .none, .none, rfl⟩, by simp⟩, ?_⟩
    unfold secFrame
    cases label.isNone <;> cases ticks.isNone <;> rfl
  obtain ⟨d, hd, hu⟩ := hframe
  have hr : r = ((sendAll accepts (c1 ++ c2) []).1, { Ax.new with frame := d, sent := (sendAll accepts (c1 ++ c2) []).2 }) := by
    simp only [r, Ax.fmtFrame, hu, axThen]
    rw [C99_apply accepts d _ hd]
    rfl
  rw [hr, e1, e2]
  exact ⟨rfl, rfl⟩

/-- C106: adding a secondary axis.  With a side for a location and keywords matplotlib accepts, exactly
one secondary axis is added after the existing ones, of the right kind, at that location, with exactly
these transformations and keywords; the calls sent to it label and tick it on its own axis only; when
all of them are accepted the ticks of the first axes are switched off on that side if asked for (the
effect is that of `tick_params` with `which='both'` and that side False), and otherwise the first axes
is not touched. -/
theorem C106_secondary (accepts : Call → Bool) (acceptsSec : PyDict Str PV → Bool) (w : SecW φ) (fwd bwd : φ)
    (location ticks label : PV) (hide : Bool) (kw : PyDict Str PV) (isX : Bool) (side : Str)
    (hside : Side location isX side) (hf : kw.has "functions".toList = false) (hk : acceptsSec kw = true) :
    let axis := if isX then "x".toList else "y".toList
    let r := addSecondary accepts acceptsSec w fwd bwd location ticks label hide kw
    ∃ sax : Ax, r.2.secs = w.secs ++ [⟨isX, side, fwd, bwd, kw, sax⟩] ∧
      sax.sent = (secCalls axis ticks label).takeWhile accepts ∧
      ((¬ (secCalls axis ticks label).all accepts) → r.1 = .error .valueError ∧ r.2.ax = w.ax) ∧
      ((secCalls axis ticks label).all accepts → hide = false → r.1 = .ok () ∧ r.2.ax = w.ax) ∧
      ((secCalls axis ticks label).all accepts → hide = true → (r.1, r.2.ax) = w.ax.tickParams accepts
        (if isX then .map [("which".toList, .str "both".toList), (side, .bool false)] else .none)
        (if isX then .none else .map [("which".toList, .str "both".toList), (side, .bool false)]) .none []) := by
  intro axis r
  obtain ⟨s1, s2⟩ := secFrame_sent accepts isX ticks label
  have hs := (sideOf_iff location isX side).mpr hside
  have hr : r = (match Ax.new.fmtFrame accepts (secFrame axis ticks label) with
        | (.error e, sax) => (.error e, { w with secs := w.secs ++ [⟨isX, side, fwd, bwd, kw, sax⟩] })
        | (.ok (), sax) =>
            if hide then
              ((hideTicks accepts isX side w.ax).1, { w with secs := w.secs ++ [⟨isX, side, fwd, bwd, kw, sax⟩], ax := (hideTicks accepts isX side w.ax).2 })
            else (.ok (), { w with secs := w.secs ++ [⟨isX, side, fwd, bwd, kw, sax⟩] })) := by
    simp only [r, addSecondary, hs, hf, hk]
    rfl
  obtain ⟨o, sax, hq⟩ : ∃ o sax, Ax.new.fmtFrame accepts (secFrame axis ticks label) = (o, sax) := ⟨_, _, rfl⟩
  have s1' : o = (sendAll accepts (secCalls axis ticks label) []).1 := by
    have := s1; rw [show Ax.new.fmtFrame accepts (secFrame (if isX then "x".toList else "y".toList) ticks label) = (o, sax) from hq] at this
    exact this
  have s2' : sax.sent = (sendAll accepts (secCalls axis ticks label) []).2 := by
    have := s2; rw [show Ax.new.fmtFrame accepts (secFrame (if isX then "x".toList else "y".toList) ticks label) = (o, sax) from hq] at this
    exact this
  rw [hq] at hr
  have hsent : sax.sent = (secCalls axis ticks label).takeWhile accepts := by
    rw [s2']; simp [sendAll]
  by_cases hall : (secCalls axis ticks label).all accepts = true
  · have ho : o = .ok () := by rw [s1']; simp only [sendAll, hall, if_true]
    subst ho
    refine ⟨sax, ?_, hsent, fun h => absurd hall h, fun _ hh => ?_, fun _ hh => ?_⟩
    · rw [hr]; cases hide <;> rfl
    · subst hh; rw [hr]; exact ⟨rfl, rfl⟩
    · subst hh; rw [hr]; cases isX <;> rfl
  · have ho : o = .error .valueError := by rw [s1']; simp only [sendAll, hall, if_false]; rfl
    subst ho
    refine ⟨sax, by rw [hr], hsent, fun _ => by rw [hr]; exact ⟨rfl, rfl⟩, fun h => absurd h hall, fun h => absurd h hall⟩

/-- C106: any other location (another name, a number, None) is a ValueError; so are keywords matplotlib
does not accept, and the keyword `functions`, which the method passes itself, is a TypeError; nothing has changed then. -/
theorem C106_reject (accepts : Call → Bool) (acceptsSec : PyDict Str PV → Bool) (w : SecW φ) (fwd bwd : φ)
    (location ticks label : PV) (hide : Bool) (kw : PyDict Str PV) :
    ((∀ isX side, ¬ Side location isX side) →
      addSecondary accepts acceptsSec w fwd bwd location ticks label hide kw = (.error .valueError, w)) ∧
    (kw.has "functions".toList = false → acceptsSec kw = false →
      addSecondary accepts acceptsSec w fwd bwd location ticks label hide kw = (.error .valueError, w)) ∧
    (∀ isX side, Side location isX side → kw.has "functions".toList = true →
      addSecondary accepts acceptsSec w fwd bwd location ticks label hide kw = (.error .typeError, w)) := by
  refine ⟨?_, ?_, fun isX side hl hf => by simp only [addSecondary, (sideOf_iff location isX side).mpr hl, hf]; rfl⟩
  · intro h
    have hs : sideOf location = none := by
      cases hq : sideOf location with
      | none => rfl
      | some q => exact absurd ((sideOf_iff location q.1 q.2).mp hq) (h q.1 q.2)
    simp only [addSecondary, hs]
  · intro hf hk
    cases hq : sideOf location with
    | none => simp only [addSecondary, hq]
    | some q =>
        obtain ⟨b, t⟩ := q
        simp only [addSecondary, hq, hf, hk]
        rfl

example : ∀ isX side, ¬ Side (.str "above".toList) isX side := by
  intro isX side h
  have := (sideOf_iff _ _ _).mpr h
  cases this

/-- Example: a labelled axis on the right, with the first ticks hidden. -/
example : ∃ w', addSecondary (φ := Unit) (fun _ => true) (fun _ => true) ⟨Ax.new, []⟩ () () (.str "right".toList) .none
      (.str "t".toList) true [] = (.ok (), w') ∧
    w'.ax.sent = [⟨"tick_params".toList, [], [("axis".toList, .str "y".toList), ("which".toList, .str "both".toList),
      ("right".toList, .bool false)]⟩] ∧
    w'.secs.map (fun s => s.ax.sent) = [[⟨"set_ylabel".toList, [.str "t".toList], []⟩]] := ⟨_, rfl, rfl, rfl⟩

/-- C106 (defect, recorded): `add_secondary_identical_axis` always raises TypeError, and does nothing,
even where `add_secondary_axis` with the identity would succeed. -/
theorem C106_identical_defect (accepts : Call → Bool) (acceptsSec : PyDict Str PV → Bool) (w : SecW φ)
    (location ticks label : PV) (hide : Bool) (kw : PyDict Str PV) :
    addSecondaryIdentical accepts acceptsSec w location ticks label hide kw = (.error .typeError, w) := rfl

example : (addSecondary (φ := Unit) (fun _ => true) (fun _ => true) ⟨Ax.new, []⟩ () ()).1 = .ok () := rfl

/-! ### C106: redshift -/

/-- C106: the redshift axis uses lg(1+z) -> z and z -> lg(1+z): exact inverses of each other (for
z > -1, the image of the first), strictly increasing, with 0 at 0; by default at the top, labelled z, with
the usual ticks and the ticks below hidden. -/
theorem C106_redshift (accepts : Call → Bool) (acceptsSec : PyDict Str PV → Bool) (w : SecW (ℝ → ℝ))
    (location ticks label : PV) (hide : Bool) (kw : PyDict Str PV) :
    ∃ f g : ℝ → ℝ,
      addSecondaryZ accepts acceptsSec w location ticks label hide kw
        = addSecondary accepts acceptsSec w f g location ticks label hide kw ∧
      addSecondaryZ accepts acceptsSec w = addSecondary accepts acceptsSec w f g (.str "top".toList)
        (.seq [.num 0, .num 1, .num 2, .num 3, .num 4, .num 5, .num 7, .num 10, .num 14]) (.str "$z$".toList) true [] ∧
      (∀ l, 1 + f l = (10 : ℝ) ^ l) ∧ (∀ l, -1 < f l) ∧ (∀ l, g (f l) = l) ∧ (∀ z, -1 < z → f (g z) = z) ∧
      StrictMono f ∧ (∀ z z', -1 < z → z < z' → g z < g z') ∧ f 0 = 0 ∧ g 0 = 0 := by
  have h10 : (1 : ℝ) < 10 := by norm_num
  have hpos : ∀ l : ℝ, (0 : ℝ) < (10 : ℝ) ^ l := fun l => Real.rpow_pos_of_pos (by norm_num) l
  refine ⟨lgzp1ToZ, zToLgzp1, rfl, rfl, ?_, ?_, ?_, ?_, ?_, ?_, ?_, ?_⟩
  · intro l; simp [lgzp1ToZ]
  · intro l; have := hpos l; simp only [lgzp1ToZ]; linarith
  · intro l
    simp only [lgzp1ToZ, zToLgzp1]
    rw [show (1 : ℝ) + (10 ^ l - 1) = 10 ^ l by ring, Real.logb_rpow (by norm_num) (by norm_num)]
  · intro z hz
    simp only [lgzp1ToZ, zToLgzp1]
    rw [Real.rpow_logb (by norm_num) (by norm_num) (by linarith)]
    ring
  · intro a b hab
    have := Real.rpow_lt_rpow_of_exponent_lt h10 hab
    simp only [lgzp1ToZ]; linarith
  · intro z z' hz hzz
    exact Real.logb_lt_logb h10 (by linarith) (by linarith)
  · simp [lgzp1ToZ]
  · simp [zToLgzp1]

/-! ### C106: interpolated axis -/

theorem strict_get (K : List (ℝ × ℝ)) (hK : (K.map (fun p => p.1)).Pairwise (· < ·)) (a b : Nat)
    (ha : a < K.length) (hb : b < K.length) (hab : a < b) : (K[a]).1 < (K[b]).1 := by
  have := List.pairwise_iff_getElem.mp hK a b (by simpa using ha) (by simpa using hb) hab
  simpa using this

/-- The piece that is evaluated. -/
theorem plin_piece (K : List (ℝ × ℝ)) (hK : (K.map (fun p => p.1)).Pairwise (· < ·)) (hn : 2 ≤ K.length)
    (v : ℝ) : ∃ (j : Nat) (h : j + 1 < K.length), plin K v = segVal K j v ∧ (j = 0 ∨ (K[j]).1 ≤ v) ∧
      (j + 2 = K.length ∨ v < (K[j + 1]).1) := by
  have hle : (K.map (fun p => p.1)).Pairwise (· ≤ ·) := hK.imp le_of_lt
  have hss := fun j (hj : j < K.length) => ssRight_spec (K.map (fun p => p.1)) v hle j (by simpa using hj)
  have hml : ssRight (K.map (fun p => p.1)) v ≤ K.length := by
    have := ssRight_le_length (K.map (fun p => p.1)) v
    simpa using this
  refine ⟨min (ssRight (K.map (fun p => p.1)) v - 1) (K.length - 2), by omega, rfl, ?_, ?_⟩
  · by_cases h : min (ssRight (K.map (fun p => p.1)) v - 1) (K.length - 2) = 0
    · exact Or.inl h
    · right
      have := (hss (min (ssRight (K.map (fun p => p.1)) v - 1) (K.length - 2)) (by omega)).mpr (by omega)
      simpa using this
  · by_cases h : min (ssRight (K.map (fun p => p.1)) v - 1) (K.length - 2) + 2 = K.length
    · exact Or.inl h
    · right
      by_contra hcon
      have hcon' : (K.map (fun p => p.1))[min (ssRight (K.map (fun p => p.1)) v - 1) (K.length - 2) + 1]'(by
          rw [List.length_map]; omega) ≤ v := by simpa using not_lt.mp hcon
      have := (hss (min (ssRight (K.map (fun p => p.1)) v - 1) (K.length - 2) + 1) (by omega)).mp hcon'
      omega

theorem segVal_eq (K : List (ℝ × ℝ)) (i : Nat) (hi : i + 1 < K.length) (v : ℝ) :
    segVal K i v = (K[i]).2 + (v - (K[i]).1) * (((K[i + 1]).2 - (K[i]).2) / ((K[i + 1]).1 - (K[i]).1)) := by
  unfold segVal
  rw [getD_lt K i _ (by omega), getD_lt K (i + 1) _ (by omega)]

/-- Neighbouring pieces agree at their common knot: any piece that may be used gives the value. -/
theorem plin_seg (K : List (ℝ × ℝ)) (hK : (K.map (fun p => p.1)).Pairwise (· < ·))
    (i : Nat) (hi : i + 1 < K.length) (v : ℝ) (h1 : i = 0 ∨ (K[i]).1 ≤ v)
    (h2 : i + 2 = K.length ∨ v ≤ (K[i + 1]).1) : plin K v = segVal K i v := by
  obtain ⟨j, hj1, he, hA, hB⟩ := plin_piece K hK (by omega) v
  rw [he]
  have hlt := strict_get K hK
  rcases lt_trichotomy i j with h | h | h
  · have hij : i + 2 ≠ K.length := by omega
    have hv2 := h2.resolve_left hij
    have hv1 := hA.resolve_left (by omega)
    have hij' : j = i + 1 := by
      by_contra hne
      have := hlt (i + 1) j (by omega) (by omega) (by omega)
      linarith
    subst hij'
    have hveq : v = (K[i + 1]).1 := le_antisymm hv2 hv1
    rw [segVal_eq K (i + 1) hj1, segVal_eq K i hi, hveq]
    have := hlt i (i + 1) (by omega) (by omega) (by omega)
    have hd : (K[i + 1]).1 - (K[i]).1 ≠ 0 := by
      have : 0 < (K[i + 1]).1 - (K[i]).1 := by linarith
      exact this.ne'
    field_simp
    ring
  · rw [h]
  · exfalso
    have hv1 := h1.resolve_left (by omega)
    have hv2 := hB.resolve_left (by omega)
    have : (K[j + 1]).1 ≤ (K[i]).1 := by
      rcases Nat.eq_or_lt_of_le (show j + 1 ≤ i by omega) with h' | h'
      · simp only [h']; exact le_refl _
      · exact le_of_lt (hlt _ _ (by omega) (by omega) h')
    linarith

theorem inv_line (a b c d v : ℝ) (h1 : b - a ≠ 0) (h2 : d - c ≠ 0) :
    a + ((c + (v - a) * ((d - c) / (b - a))) - c) * ((b - a) / (d - c)) = v := by
  field_simp
  ring

theorem inv_line' (a b c d v : ℝ) (h1 : b - a ≠ 0) (h2 : d - c ≠ 0) :
    b + ((c + (v - a) * ((d - c) / (b - a))) - d) * ((a - b) / (c - d)) = v := by
  have h3 : c - d ≠ 0 := by intro h; apply h2; linarith
  field_simp
  ring

/-- Increasing knots: the swapped spline is the inverse. -/
theorem plin_inv_inc (K : List (ℝ × ℝ)) (hK : (K.map (fun p => p.1)).Pairwise (· < ·))
    (hK2 : (K.map (fun p => p.2)).Pairwise (· < ·)) (hn : 2 ≤ K.length) (v : ℝ) :
    plin (K.map Prod.swap) (plin K v) = v := by
  obtain ⟨j, hj, he, hA, hB⟩ := plin_piece K hK hn v
  have hlt := strict_get K hK
  have hlt2 : ∀ a b (ha : a < K.length) (hb : b < K.length), a < b → (K[a]).2 < (K[b]).2 := by
    intro a b ha hb hab
    have := List.pairwise_iff_getElem.mp hK2 a b (by simpa using ha) (by simpa using hb) hab
    simpa using this
  have d1 : 0 < (K[j + 1]).1 - (K[j]).1 := sub_pos.mpr (hlt j (j + 1) (by omega) hj (by omega))
  have d2 : 0 < (K[j + 1]).2 - (K[j]).2 := sub_pos.mpr (hlt2 j (j + 1) (by omega) hj (by omega))
  have hsl : 0 < ((K[j + 1]).2 - (K[j]).2) / ((K[j + 1]).1 - (K[j]).1) := div_pos d2 d1
  rw [he, segVal_eq K j hj]
  rw [plin_seg (K.map Prod.swap) (by simpa [Function.comp_def] using hK2) j (by simpa using hj)]
  · rw [segVal_eq _ j (by simpa using hj)]
    simp only [List.getElem_map, Prod.fst_swap, Prod.snd_swap]
    exact inv_line _ _ _ _ v d1.ne' d2.ne'
  · rcases hA with h | h
    · exact Or.inl h
    · right
      simp only [List.getElem_map, Prod.fst_swap]
      have := mul_nonneg (sub_nonneg.mpr h) hsl.le
      linarith
  · rcases hB with h | h
    · left; simpa using h
    · right
      simp only [List.getElem_map, Prod.fst_swap]
      have h3 : (v - (K[j]).1) * (((K[j + 1]).2 - (K[j]).2) / ((K[j + 1]).1 - (K[j]).1))
          ≤ ((K[j + 1]).1 - (K[j]).1) * (((K[j + 1]).2 - (K[j]).2) / ((K[j + 1]).1 - (K[j]).1)) :=
        mul_le_mul_of_nonneg_right (by linarith) hsl.le
      rw [mul_div_cancel₀ _ d1.ne'] at h3
      linarith

/-- Decreasing knots: the swapped and reversed spline is the inverse. -/
theorem plin_inv_dec (K : List (ℝ × ℝ)) (hK : (K.map (fun p => p.1)).Pairwise (· < ·))
    (hK2 : (K.map (fun p => p.2)).Pairwise (· > ·)) (hn : 2 ≤ K.length) (v : ℝ) :
    plin (K.map Prod.swap).reverse (plin K v) = v := by
  obtain ⟨j, hj, he, hA, hB⟩ := plin_piece K hK hn v
  have hlt := strict_get K hK
  have hlt2 : ∀ a b (ha : a < K.length) (hb : b < K.length), a < b → (K[b]).2 < (K[a]).2 := by
    intro a b ha hb hab
    have := List.pairwise_iff_getElem.mp hK2 a b (by simpa using ha) (by simpa using hb) hab
    simpa using this
  have d1 : 0 < (K[j + 1]).1 - (K[j]).1 := sub_pos.mpr (hlt j (j + 1) (by omega) hj (by omega))
  have d2 : (K[j + 1]).2 - (K[j]).2 < 0 := sub_neg.mpr (hlt2 j (j + 1) (by omega) hj (by omega))
  have hsl : ((K[j + 1]).2 - (K[j]).2) / ((K[j + 1]).1 - (K[j]).1) < 0 := div_neg_of_neg_of_pos d2 d1
  have hget : ∀ m (hm : m < K.length) (hm' : K.length - 1 - m < (K.map Prod.swap).reverse.length),
      (K.map Prod.swap).reverse[K.length - 1 - m] = (K[m]).swap := by
    intro m hm hm'
    rw [List.getElem_reverse, List.getElem_map]
    simp only [List.length_map]
    congr 2
    omega
  have hlen : (K.map Prod.swap).reverse.length = K.length := by simp
  have i1 : K.length - 2 - j = K.length - 1 - (j + 1) := by omega
  have i2 : K.length - 2 - j + 1 = K.length - 1 - j := by omega
  have g1 : (K.map Prod.swap).reverse[K.length - 2 - j]'(by omega) = (K[j + 1]).swap := by
    rw [← hget (j + 1) hj (by omega)]; simp only [i1]
  have g2 : (K.map Prod.swap).reverse[K.length - 2 - j + 1]'(by omega) = (K[j]).swap := by
    rw [← hget j (by omega) (by omega)]; simp only [i2]
  rw [he, segVal_eq K j hj]
  rw [plin_seg (K.map Prod.swap).reverse (by
      rw [List.map_reverse, List.map_map, List.pairwise_reverse]
      exact hK2) (K.length - 2 - j) (by omega)]
  · rw [segVal_eq _ _ (by omega), g1, g2]
    simp only [Prod.fst_swap, Prod.snd_swap]
    exact inv_line' _ _ _ _ v d1.ne' d2.ne
  · rcases hB with h | h
    · left; omega
    · right
      rw [g1]
      simp only [Prod.fst_swap]
      have h3 : ((K[j + 1]).1 - (K[j]).1) * (((K[j + 1]).2 - (K[j]).2) / ((K[j + 1]).1 - (K[j]).1))
          ≤ (v - (K[j]).1) * (((K[j + 1]).2 - (K[j]).2) / ((K[j + 1]).1 - (K[j]).1)) :=
        mul_le_mul_of_nonpos_right (by linarith) hsl.le
      rw [mul_div_cancel₀ _ d1.ne'] at h3
      linarith
  · rcases hA with h | h
    · left; omega
    · right
      rw [g2]
      simp only [Prod.fst_swap]
      have := mul_nonpos_of_nonneg_of_nonpos (sub_nonneg.mpr h) hsl.le
      linarith

theorem interpExt_ok (x y : List ℝ) (hl : x.length = y.length) (hn : 2 ≤ x.length) (hnd : x.Nodup) :
    ∃ K : List (ℝ × ℝ), interpExt x y = .ok (plin K) ∧ K.Perm (x.zip y) ∧
      (K.map (fun p => p.1)).Pairwise (· < ·) := by
  set K := (x.zip y).mergeSort (fun p q => decide (p.1 ≤ q.1)) with hKdef
  have hp : K.Perm (x.zip y) := List.mergeSort_perm _ _
  have hfst : ((x.zip y).map (fun p => p.1)) = x := List.map_fst_zip (by omega)
  have hnd' : (K.map (fun p => p.1)).Nodup := by
    rw [(hp.map (fun p => p.1)).nodup_iff, hfst]; exact hnd
  have hs : K.Pairwise (fun p q => p.1 ≤ q.1) := by
    have := List.pairwise_mergeSort (le := fun p q : ℝ × ℝ => decide (p.1 ≤ q.1))
      (fun a b c h1 h2 => by simp at *; exact le_trans h1 h2)
      (fun a b => by simp; exact le_total a.1 b.1) (x.zip y)
    simpa using this
  refine ⟨K, ?_, hp, ?_⟩
  · unfold interpExt
    rw [if_neg (by simpa using hl), if_neg (by omega)]
    simp only
    rw [if_pos hnd']
  · have h1 : (K.map (fun p => p.1)).Pairwise (· ≤ ·) := by rw [List.pairwise_map]; exact hs
    exact (h1.and hnd').imp (fun h => lt_of_le_of_ne h.1 h.2)

theorem strict_perm_eq (A B : List (ℝ × ℝ)) (h : A.Perm B) (hA : (A.map (fun p => p.1)).Pairwise (· < ·))
    (hB : (B.map (fun p => p.1)).Pairwise (· < ·)) : A = B := by
  rw [List.pairwise_map] at hA hB
  exact h.eq_of_pairwise (le := fun p q : ℝ × ℝ => p.1 < q.1)
    (fun a b _ _ h1 h2 => absurd h1 (not_lt.mpr h2.le)) hA hB

theorem swap_perm (x y : List ℝ) (K : List (ℝ × ℝ)) (hp : K.Perm (x.zip y)) : (K.map Prod.swap).Perm (y.zip x) := by
  have := hp.map Prod.swap
  rwa [List.zip_swap] at this

/-- Spec: two consecutive points of a table, none of whose abscissae lies strictly between. -/
def Adjacent (T : List (ℝ × ℝ)) (p q : ℝ × ℝ) : Prop :=
  p ∈ T ∧ q ∈ T ∧ p.1 < q.1 ∧ ∀ r ∈ T, ¬ (p.1 < r.1 ∧ r.1 < q.1)

/-- The spline is the line through two consecutive points between them (and beyond, at the ends). -/
theorem plin_adjacent (K T : List (ℝ × ℝ)) (hp : K.Perm T) (hK : (K.map (fun p => p.1)).Pairwise (· < ·))
    (p q : ℝ × ℝ) (ha : Adjacent T p q) (v : ℝ) (h1 : p.1 ≤ v ∨ ∀ r ∈ T, p.1 ≤ r.1)
    (h2 : v ≤ q.1 ∨ ∀ r ∈ T, r.1 ≤ q.1) :
    plin K v = p.2 + (v - p.1) * ((q.2 - p.2) / (q.1 - p.1)) := by
  obtain ⟨pm, qm, hpq, hno⟩ := ha
  obtain ⟨i, hi, rfl⟩ := List.getElem_of_mem (hp.mem_iff.mpr pm)
  obtain ⟨k, hk, rfl⟩ := List.getElem_of_mem (hp.mem_iff.mpr qm)
  have hlt := strict_get K hK
  have hik : k = i + 1 := by
    rcases lt_trichotomy k (i + 1) with h | h | h
    · exfalso
      rcases Nat.eq_or_lt_of_le (show k ≤ i by omega) with h' | h'
      · subst h'; exact lt_irrefl _ hpq
      · exact absurd (hlt k i hk hi h') (not_lt.mpr hpq.le)
    · exact h
    · exfalso
      exact hno (K[i + 1]'(by omega)) (hp.mem_iff.mp (List.getElem_mem _))
        ⟨hlt i (i + 1) hi (by omega) (by omega), hlt (i + 1) k (by omega) hk h⟩
  subst hik
  rw [plin_seg K hK i hk v ?_ ?_, segVal_eq K i hk]
  · rcases h1 with h | h
    · exact Or.inr h
    · left
      by_contra h0
      have := h K[0] (hp.mem_iff.mp (List.getElem_mem _))
      exact absurd (hlt 0 i (by omega) hi (by omega)) (not_lt.mpr this)
  · rcases h2 with h | h
    · exact Or.inr h
    · left
      by_contra h0
      have := h (K[i + 2]'(by omega)) (hp.mem_iff.mp (List.getElem_mem _))
      exact absurd (hlt (i + 1) (i + 2) (by omega) (by omega) (by omega)) (not_lt.mpr this)

theorem plin_knot (K T : List (ℝ × ℝ)) (hp : K.Perm T) (hK : (K.map (fun p => p.1)).Pairwise (· < ·))
    (hn : 2 ≤ K.length) (p : ℝ × ℝ) (pm : p ∈ T) : plin K p.1 = p.2 := by
  obtain ⟨i, hi, rfl⟩ := List.getElem_of_mem (hp.mem_iff.mpr pm)
  have hlt := strict_get K hK
  by_cases h : i + 1 < K.length
  · rw [plin_seg K hK i h _ (Or.inr le_rfl) (Or.inr (hlt i (i + 1) hi h (by omega)).le), segVal_eq K i h]
    ring
  · have hi' : i - 1 + 1 < K.length := by omega
    have hieq : i - 1 + 1 = i := by omega
    have hl1 := hlt (i - 1) i (by omega) hi (by omega)
    rw [plin_seg K hK (i - 1) hi' _ (Or.inr hl1.le) (Or.inl (by omega)), segVal_eq K (i - 1) hi']
    simp only [hieq]
    have hd : (K[i]).1 - (K[i - 1]).1 ≠ 0 := by
      have : 0 < (K[i]).1 - (K[i - 1]).1 := by linarith
      exact this.ne'
    field_simp
    ring

/-- C106: the interpolated axis.  For two arrays of equal length (at least two) with distinct `x`, along
which `x_new` is strictly increasing or strictly decreasing (in any order of the points), the secondary
axis is made with two transformations that are exact inverses of each other on the whole real line; the
first passes through all points, is linear between consecutive ones and continues the first and the
last line outside. -/
theorem C106_interp (w : SecW (ℝ → ℝ)) (x x_new : List ℝ) (hl : x.length = x_new.length) (hn : 2 ≤ x.length)
    (hnd : x.Nodup)
    (hmono : (∀ p ∈ x.zip x_new, ∀ q ∈ x.zip x_new, p.1 < q.1 → p.2 < q.2) ∨
      (∀ p ∈ x.zip x_new, ∀ q ∈ x.zip x_new, p.1 < q.1 → q.2 < p.2)) :
    ∃ f g : ℝ → ℝ, (∀ k, addSecondaryInterp w x x_new k = k f g) ∧
      (∀ v, g (f v) = v) ∧ (∀ u, f (g u) = u) ∧
      (∀ p ∈ x.zip x_new, f p.1 = p.2 ∧ g p.2 = p.1) ∧
      ∀ p q, Adjacent (x.zip x_new) p q → ∀ v, (p.1 ≤ v ∨ ∀ r ∈ x.zip x_new, p.1 ≤ r.1) →
        (v ≤ q.1 ∨ ∀ r ∈ x.zip x_new, r.1 ≤ q.1) →
        f v = p.2 + (v - p.1) * ((q.2 - p.2) / (q.1 - p.1)) := by
  obtain ⟨K, k1, k2, k3⟩ := interpExt_ok x x_new hl hn hnd
  have hKl : 2 ≤ K.length := by rw [k2.length_eq]; simp; omega
  have hKm : K.Pairwise (fun p q => p.1 < q.1) := List.pairwise_map.mp k3
  have hmem : ∀ p ∈ K, p ∈ x.zip x_new := fun p hp => k2.mem_iff.mp hp
  have hsnd : ((x.zip x_new).map (fun p => p.2)) = x_new := List.map_snd_zip (by omega)
  have hinv : ∃ K' : List (ℝ × ℝ), interpExt x_new x = .ok (plin K') ∧ K'.Perm (x_new.zip x) ∧
      (K'.map (fun p => p.1)).Pairwise (· < ·) ∧ (∀ v, plin K' (plin K v) = v) ∧ ∀ u, plin K (plin K' u) = u := by
    have hnd2 : x_new.Nodup := by
      rw [← hsnd, ← (k2.map (fun p => p.2)).nodup_iff, List.nodup_iff_pairwise_ne, List.pairwise_map]
      have := hKm.imp_of_mem (S := fun p q => p.2 ≠ q.2) (fun hp hq h => by
        rcases hmono with hm | hm
        · exact (hm _ (hmem _ hp) _ (hmem _ hq) h).ne
        · exact (hm _ (hmem _ hp) _ (hmem _ hq) h).ne')
      exact this
    obtain ⟨K', j1, j2, j3⟩ := interpExt_ok x_new x hl.symm (by omega) hnd2
    have hK'l : 2 ≤ K'.length := by rw [j2.length_eq]; simp; omega
    refine ⟨K', j1, j2, j3, ?_⟩
    rcases hmono with hm | hm
    · have hs2 : (K.map (fun p => p.2)).Pairwise (· < ·) := by
        rw [List.pairwise_map]
        exact hKm.imp_of_mem (fun hp hq h => hm _ (hmem _ hp) _ (hmem _ hq) h)
      have e : K' = K.map Prod.swap := strict_perm_eq _ _ (j2.trans (swap_perm x x_new K k2).symm) j3
        (by rw [List.map_map]; exact hs2)
      have e' : K = K'.map Prod.swap := by rw [e, List.map_map]; simp
      refine ⟨fun v => by rw [e]; exact plin_inv_inc K k3 hs2 hKl v, fun u => ?_⟩
      have hs2' : (K'.map (fun p => p.2)).Pairwise (· < ·) := by rw [e, List.map_map]; exact k3
      have := plin_inv_inc K' j3 hs2' hK'l u
      rwa [← e'] at this
    · have hs2 : (K.map (fun p => p.2)).Pairwise (· > ·) := by
        rw [List.pairwise_map]
        exact hKm.imp_of_mem (fun hp hq h => hm _ (hmem _ hp) _ (hmem _ hq) h)
      have e : K' = (K.map Prod.swap).reverse := strict_perm_eq _ _
        (j2.trans ((List.reverse_perm _).trans (swap_perm x x_new K k2)).symm) j3
        (by rw [List.map_reverse, List.map_map, List.pairwise_reverse]; exact hs2)
      have e' : K = (K'.map Prod.swap).reverse := by rw [e, List.map_reverse, List.map_map]; simp
      refine ⟨fun v => by rw [e]; exact plin_inv_dec K k3 hs2 hKl v, fun u => ?_⟩
      have hs2' : (K'.map (fun p => p.2)).Pairwise (· > ·) := by
        rw [e, List.map_reverse, List.map_map, List.pairwise_reverse]; exact k3
      have := plin_inv_dec K' j3 hs2' hK'l u
      rwa [← e'] at this
  obtain ⟨K', j1, j2, j3, i1, i2⟩ := hinv
  refine ⟨plin K, plin K', fun k => by simp only [addSecondaryInterp, k1, j1], i1, i2, fun p hp => ?_, ?_⟩
  · have := plin_knot K _ k2 k3 hKl p hp
    refine ⟨this, ?_⟩
    rw [← this]; exact i1 _
  · intro p q ha v h1 h2
    exact plin_adjacent K _ k2 k3 p q ha v h1 h2

/-- The hypotheses are met, by a decreasing table given out of order. -/
example : (∀ p ∈ [(2 : ℝ), 0, 1].zip [(0 : ℝ), 5, 4], ∀ q ∈ [(2 : ℝ), 0, 1].zip [(0 : ℝ), 5, 4], p.1 < q.1 → q.2 < p.2) := by
  intro p hp q hq
  simp at hp hq
  rcases hp with rfl | rfl | rfl <;> rcases hq with rfl | rfl | rfl <;> norm_num

/-- C106: tables of different or insufficient length, and tables that repeat an `x` or an `x_new`, are a
ValueError and nothing is made. -/
theorem C106_interp_reject (w : SecW (ℝ → ℝ)) (x x_new : List ℝ) (k : (ℝ → ℝ) → (ℝ → ℝ) → PyM Unit × SecW (ℝ → ℝ))
    (h : x.length ≠ x_new.length ∨ x.length < 2 ∨ ¬ x.Nodup ∨ ¬ x_new.Nodup) :
    addSecondaryInterp w x x_new k = (.error .valueError, w) := by
  have hbad : ∀ a b : List ℝ, (a.length ≠ b.length ∨ a.length < 2 ∨ ¬ a.Nodup) → interpExt a b = .error .valueError := by
    intro a b hab
    unfold interpExt
    by_cases h1 : a.length = b.length
    · rw [if_neg (by simpa using h1)]
      by_cases h2 : a.length < 2
      · rw [if_pos h2]
      · rw [if_neg h2]
        simp only
        rw [if_neg]
        have hnd : ¬ a.Nodup := by tauto
        intro hcon
        apply hnd
        rw [((List.mergeSort_perm (a.zip b) (fun p q => decide (p.1 ≤ q.1))).map (fun p => p.1)).nodup_iff] at hcon
        rwa [show ((a.zip b).map (fun p => p.1)) = a from List.map_fst_zip (by omega)] at hcon
    · rw [if_pos h1]
  by_cases hx : x.length ≠ x_new.length ∨ x.length < 2 ∨ ¬ x.Nodup
  · simp only [addSecondaryInterp, hbad x x_new hx]
  · push Not at hx
    obtain ⟨K, k1, -⟩ := interpExt_ok x x_new hx.1 hx.2.1 hx.2.2
    have hy : x_new.length ≠ x.length ∨ x_new.length < 2 ∨ ¬ x_new.Nodup := by
      right; right
      rcases h with h | h | h | h
      · exact absurd hx.1 h
      · exact absurd h (not_lt.mpr hx.2.1)
      · exact absurd hx.2.2 h
      · exact h
    simp only [addSecondaryInterp, k1, hbad x_new x hy]

/-! ### C106: filled band -/

/-- C106: the polygon between two curves runs along the first and back along the second: its vertices
are the points of curve 1 in order, then those of curve 2 in reverse order. -/
theorem C106_polygon (c1 c2 : List (ℝ × ℝ)) :
    fillVertices (c1.map Prod.fst) (c1.map Prod.snd) (c2.map Prod.fst) (c2.map Prod.snd)
      = .ok (c1 ++ c2.reverse) := by
  unfold fillVertices
  rw [if_pos (by simp)]
  rw [List.zip_append (by simp), ← List.map_reverse, ← List.map_reverse]
  congr 1
  have hz : ∀ l : List (ℝ × ℝ), (l.map Prod.fst).zip (l.map Prod.snd) = l := fun l => by
    rw [List.zip_map']; simp
  rw [hz, hz]

/-- C106: the arrays are accepted iff there are as many abscissae as ordinates in total (recorded: not
per curve, so two mismatched curves can compensate each other; then ordinates are paired with
abscissae of the other curve). -/
theorem C106_polygon_lengths (x1 y1 x2 y2 : List ℝ) :
    (x1.length + x2.length = y1.length + y2.length → ∃ v, fillVertices x1 y1 x2 y2 = .ok v ∧
      v.length = x1.length + x2.length) ∧
    (x1.length + x2.length ≠ y1.length + y2.length → fillVertices x1 y1 x2 y2 = .error .valueError) ∧
    fillVertices [0, 1] [5] [2] [7, 8] = .ok [(0, 5), (1, 8), (2, 7)] := by
  refine ⟨fun h => ?_, fun h => ?_, ?_⟩
  · unfold fillVertices
    rw [if_pos (by simpa using h)]
    exact ⟨_, rfl, by simp; omega⟩
  · unfold fillVertices
    rw [if_neg (by simpa using h)]
  · rfl

end Pyhipp.Plot
