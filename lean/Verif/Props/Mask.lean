import Verif.Props.Dataproc
/-
Property theorems C29-C31 (core/dataproc/{mask,filter}.py).
-/
namespace Pyhipp.Dataproc
open Pyhipp
set_option linter.unusedSectionVars false

/-! ### C29 -/

/-- Specification of a masked zip at one position: the array belonging to the first true mask. -/
def firstTrue {α : Type _} (default : α) (i : Nat) : List (List Bool × List α) → Option α
  | [] => some default
  | (m, a) :: t => match m[i]? with
    | some true => a[i]?
    | some false => firstTrue default i t
    | none => none

theorem length_copyWhere {α : Type _} (res choice : List α) (cond : List Bool) :
    (copyWhere res choice cond).length = min res.length (min choice.length cond.length) := by
  simp [copyWhere]

theorem copyWhere_getElem? {α : Type _} (res choice : List α) (cond : List Bool)
    (h1 : res.length = choice.length) (h2 : cond.length = choice.length) (i : Nat) :
    (copyWhere res choice cond)[i]? =
      match cond[i]? with
      | some true => choice[i]?
      | some false => res[i]?
      | none => none := by
  unfold copyWhere
  by_cases hi : i < choice.length
  · have hl : i < (List.zipWith (fun r cc => if cc.2 then cc.1 else r) res (choice.zip cond)).length := by
      simp; omega
    rw [List.getElem?_eq_getElem hl, List.getElem_zipWith, List.getElem_zip]
    rw [List.getElem?_eq_getElem (show i < cond.length by omega)]
    cases hc : cond[i]'(by omega)
    · simp
    · simp
  · rw [List.getElem?_eq_none (by simp; omega), List.getElem?_eq_none (show cond.length ≤ i by omega)]

/-- C29: for masks and arrays of one common length `n` the result has length `n` and position `i`
comes from the array of the first mask that is true there, otherwise it is the default (zero
when not given). -/
theorem C29_zip {α : Type _} (masks : List (List Bool)) (arrays : List (List α))
    (default? : Option α) (zero : α) (n : Nat) (hne : masks ≠ [])
    (hlen : masks.length = arrays.length) (hm : ∀ m ∈ masks, m.length = n)
    (ha : ∀ a ∈ arrays, a.length = n) :
    ∃ out, maskZip masks arrays default? zero = .ok out ∧ out.length = n ∧
      ∀ i, i < n → out[i]? = firstTrue (default?.getD zero) i (masks.zip arrays) := by
  obtain ⟨m0, ms, rfl⟩ := List.exists_cons_of_ne_nil hne
  have hn : m0.length = n := hm m0 (by simp)
  have hall : (m0 :: ms).all (fun m => m.length == m0.length) = true := by
    rw [List.all_eq_true]; intro m h; simp [hm m h, hn]
  have hall2 : arrays.all (fun a => a.length == m0.length) = true := by
    rw [List.all_eq_true]; intro m h; simp [ha m h, hn]
  have hok : maskZip (m0 :: ms) arrays default? zero
      = .ok (((m0 :: ms).zip arrays).foldr (fun ma res => copyWhere res ma.2 ma.1)
        (List.replicate m0.length (default?.getD zero))) := by
    simp only [maskZip, hlen, ne_eq, not_true_eq_false, if_false]
    rw [hall, hall2]; rfl
  have key : ∀ (l : List (List Bool × List α)),
      (∀ p ∈ l, p.1.length = n ∧ p.2.length = n) →
      (l.foldr (fun ma res => copyWhere res ma.2 ma.1) (List.replicate n (default?.getD zero))).length = n ∧
      ∀ i, i < n → (l.foldr (fun ma res => copyWhere res ma.2 ma.1)
        (List.replicate n (default?.getD zero)))[i]? = firstTrue (default?.getD zero) i l := by
    intro l
    induction l with
    | nil => intro _; refine ⟨by simp, ?_⟩; intro i hi; simp [firstTrue, hi]
    | cons p t ih =>
        intro h
        obtain ⟨m, a⟩ := p
        obtain ⟨h1, h2⟩ := h (m, a) (by simp)
        simp only at h1 h2
        obtain ⟨ihl, ihv⟩ := ih (fun p hp => h p (by simp [hp]))
        simp only [List.foldr_cons]
        refine ⟨by rw [length_copyWhere, ihl, h1, h2]; simp, ?_⟩
        intro i hi
        rw [copyWhere_getElem? _ _ _ (by rw [ihl, h2]) (by rw [h1, h2])]
        simp only [firstTrue]
        cases m[i]? with
        | none => rfl
        | some b => cases b
                    · exact ihv i hi
                    · rfl
  have hp : ∀ p ∈ (m0 :: ms).zip arrays, p.1.length = n ∧ p.2.length = n := by
    intro p hp
    have := List.of_mem_zip (a := p.1) (b := p.2) hp
    exact ⟨hm _ this.1, ha _ this.2⟩
  rw [hn] at hok
  exact ⟨_, hok, (key _ hp).1, (key _ hp).2⟩

/-- C29: no masks, or different numbers of masks and arrays, is a ValueError. -/
theorem C29_zip_error {α : Type _} (masks : List (List Bool)) (arrays : List (List α))
    (default? : Option α) (zero : α) (h : masks = [] ∨ masks.length ≠ arrays.length) :
    maskZip masks arrays default? zero = .error .valueError := by
  rcases h with rfl | h
  · unfold maskZip; split <;> rfl
  · simp [maskZip, h]

example : maskZip [[true, false, false], [true, true, false]] [[1, 2, 3], [4, 5, 6]] (some 9) 0
    = .ok [1, 5, 9] := by decide

/-! ### C30 -/

/-- C30: `put` keeps the length, leaves positions with a false mask alone and writes
`src[i mod len(src)]` at positions with a true mask. -/
theorem C30_put {α : Type _} (dst src : List α) (mask : List Bool) (hs : src ≠ [])
    (hm : mask.length = dst.length) :
    ∃ out, maskPut dst src mask = .ok out ∧ out.length = dst.length ∧
      ∀ i, i < dst.length →
        (mask[i]? = some true → out[i]? = src[i % src.length]?) ∧
        (mask[i]? = some false → out[i]? = dst[i]?) := by
  have hpos : 0 < src.length := List.length_pos_iff.mpr hs
  refine ⟨_, by simp [maskPut, hm, hs]; rfl, by simp [hm], ?_⟩
  intro i hi
  have hmod : i % src.length < src.length := Nat.mod_lt _ hpos
  constructor
  · intro h
    rw [List.getElem?_eq_getElem (by omega)] at h
    have hb : mask[i]'(by omega) = true := by simpa using h
    rw [List.getElem?_eq_getElem (by simpa [hm] using hi)]
    simp [hb, hmod]
  · intro h
    rw [List.getElem?_eq_getElem (by omega)] at h
    have hb : mask[i]'(by omega) = false := by simpa using h
    rw [List.getElem?_eq_getElem (by simpa [hm] using hi)]
    simp [hb, hi]

/-- C30: a mask of another size is refused. -/
theorem C30_put_size {α : Type _} (dst src : List α) (mask : List Bool)
    (hm : mask.length ≠ dst.length) : maskPut dst src mask = .error .valueError := by
  simp [maskPut, hm]

/-- The positions a selector picks from an array of length `n` (specification): every
selector is one list of row numbers, the same for every array of that length. -/
def Sel.positions (s : Sel) (n : Nat) : PyM (List Nat) :=
  match s with
  | .mask b => if b.length ≠ n then .error .indexError else .ok (boolToIdx b)
  | .idx is => is.mapM (wrapIdx n)
  | .slice b e s => slicePos n b e s

theorem filter_zip_eq {α : Type _} (a : List α) (b : List Bool) (k : Nat) (pre : List α)
    (hpre : pre.length = k) (h : b.length = a.length) :
    ((a.zip b).filter (fun p => p.2)).map (fun p => p.1)
      = (boolToIdxFrom k b).filterMap (fun i => (pre ++ a)[i]?) := by
  induction b generalizing a k pre with
  | nil =>
      have : a = [] := by simpa using h.symm
      subst this; simp [boolToIdxFrom]
  | cons x t ih =>
      cases a with
      | nil => simp at h
      | cons y a =>
          have e : pre ++ y :: a = (pre ++ [y]) ++ a := by simp
          have := ih a (k + 1) (pre ++ [y]) (by simp [hpre]) (by simpa using h)
          cases x
          · simp only [List.zip_cons_cons, boolToIdxFrom, Bool.false_eq_true, if_false,
              List.filter_cons_of_neg, e, not_false_eq_true]
            exact this
          · simp only [List.zip_cons_cons, boolToIdxFrom, if_true, List.filter_cons_of_pos,
              List.map_cons, List.filterMap_cons]
            rw [this, e]
            have hk : ((pre ++ [y]) ++ a)[k]? = some y := by
              rw [List.getElem?_append_left (by simp [hpre]), List.getElem?_append_right (by omega)]
              simp [hpre]
            rw [hk]

/-- C30: selecting rows with a mask / index array / slice is reading the positions of the selector,
in order; it fails exactly when the selector does not fit the length. -/
theorem C30_onArray {α : Type _} (s : Sel) (a : List α) :
    onArray s a = (match s.positions a.length with
      | .ok ps => .ok (ps.filterMap (fun i => a[i]?))
      | .error e => .error e) ∧
    (∀ ps, s.positions a.length = .ok ps → ∀ i ∈ ps, i < a.length) := by
  cases s with
  | mask b =>
      by_cases h : b.length = a.length
      · constructor
        · simp only [onArray, Sel.apply, Sel.positions, h, ne_eq, not_true_eq_false, if_false]
          congr 1
          simpa [boolToIdx] using filter_zip_eq a b 0 [] rfl h
        · intro ps hps i hi
          simp [Sel.positions, h] at hps
          subst hps
          have := ((C28_boolToIdx b).2 i).mp hi
          by_contra hc
          rw [List.getElem?_eq_none (by omega)] at this; cases this
      · constructor
        · simp [onArray, Sel.apply, Sel.positions, h]
        · intro ps hps; simp [Sel.positions, h] at hps
  | idx is =>
      have one : ∀ i : Int, (∃ k, wrapIdx a.length i = .ok k ∧ k < a.length ∧ ∃ v, a[k]? = some v ∧ pyGet a i = .ok v)
          ∨ (wrapIdx a.length i = .error .indexError ∧ pyGet a i = .error .indexError) := by
        intro i
        by_cases h : -(a.length : Int) ≤ i ∧ i < a.length
        · left
          by_cases h0 : 0 ≤ i
          · refine ⟨i.toNat, by simp [wrapIdx, h0, h.2], by omega, a[i.toNat]'(by omega),
              List.getElem?_eq_getElem _, pyGet_nonneg a i h0 (by omega)⟩
          · refine ⟨(i + a.length).toNat, ?_, by omega, a[(i + a.length).toNat]'(by omega),
              List.getElem?_eq_getElem _, pyGet_neg a i (by omega) (by omega) (by omega)⟩
            unfold wrapIdx; rw [if_neg (by omega), if_pos (by omega)]
        · right
          refine ⟨?_, pyGet_oob a i (by omega)⟩
          unfold wrapIdx; rw [if_neg (by omega), if_neg (by omega)]
      constructor
      · simp only [onArray, Sel.apply, Sel.positions]
        induction is with
        | nil => rfl
        | cons i t ih =>
            rw [List.mapM_cons, List.mapM_cons, ih]
            rcases one i with ⟨k, h1, _, v, h2, h3⟩ | ⟨h1, h3⟩
            · rw [h1, h3]
              cases t.mapM (wrapIdx a.length) with
              | error e => rfl
              | ok ps => simp [h2]
            · rw [h1, h3]; rfl
      · intro ps hps
        simp only [Sel.positions] at hps
        induction is generalizing ps with
        | nil => simp at hps; subst hps; simp
        | cons i t ih =>
            rw [List.mapM_cons] at hps
            rcases one i with ⟨k, h1, hk, _⟩ | ⟨h1, _⟩
            · rw [h1] at hps
              cases hm : t.mapM (wrapIdx a.length) with
              | error e => rw [hm] at hps; simp at hps
              | ok qs =>
                  rw [hm] at hps
                  simp at hps
                  subst hps
                  intro j hj
                  rcases List.mem_cons.mp hj with rfl | hj
                  · exact hk
                  · exact ih qs hm j hj
            · rw [h1] at hps; simp at hps
  | slice b e st =>
      constructor
      · simp only [onArray, Sel.apply, Sel.positions]
        cases slicePos a.length b e st <;> rfl
      · intro ps hps i hi
        exact slicePos_ok hps i hi

/-- C30: a slice `b:e:s` selects, in order, the elements at `start`, `start + step`, … strictly before `stop`; the bounds count from the end if negative, are moved into
the range of positions, and default to the whole array in the direction of the step; step 0 is a ValueError. -/
theorem C30_slice {α : Type _} (a : List α) (b e s : Option Int) (st B E : Int) (hst : st = s.getD 1)
    (hB : B = match b with | none => (if st < 0 then a.length - 1 else 0) | some x => (if st < 0 then clamp a.length (-1) (a.length - 1) x else clamp a.length 0 a.length x))
    (hE : E = match e with | none => (if st < 0 then -1 else a.length) | some x => (if st < 0 then clamp a.length (-1) (a.length - 1) x else clamp a.length 0 a.length x)) :
    (st = 0 → onArray (.slice b e s) a = .error .valueError) ∧
    (st ≠ 0 → ∃ r, onArray (.slice b e s) a = .ok r ∧
      ∀ (k : Nat) (v : α), r[k]? = some v ↔ ∃ p : Nat, (p : Int) = B + k * st ∧ (0 < st → B + k * st < E) ∧ (st < 0 → E < B + k * st) ∧ a[p]? = some v) := by
  subst hst
  constructor
  · intro h
    simp [onArray, Sel.apply, slicePos, h, bind, Except.bind]
  · intro h
    obtain ⟨ps, h1, h2⟩ := slicePos_step a.length b e s h B E (by cases b <;> exact hB) (by cases e <;> exact hE)
    refine ⟨ps.filterMap (fun i => a[i]?), by simp [onArray, Sel.apply, h1], ?_⟩
    intro k v
    have hf : ∀ (ps : List Nat) (j : Nat), (∀ i ∈ ps, i < a.length) →
        (ps.filterMap (fun i => a[i]?))[j]? = (ps[j]?).bind (fun i => a[i]?) := by
      intro ps
      induction ps with
      | nil => intro j _; simp
      | cons x l ih =>
          intro j h
          have hx := h x (by simp)
          rw [List.filterMap_cons, List.getElem?_eq_getElem hx]
          simp only
          cases j with
          | zero => simp [hx]
          | succ j => simpa using ih j (fun i hi => h i (by simp [hi]))
    rw [hf ps k (slicePos_ok h1), Option.bind_eq_some_iff]
    constructor
    · rintro ⟨p, hp, hv⟩
      obtain ⟨q1, q2, q3⟩ := (h2 k p).mp hp
      exact ⟨p, q1, q2, q3, hv⟩
    · rintro ⟨p, q1, q2, q3, hv⟩
      exact ⟨p, (h2 k p).mpr ⟨q1, q2, q3⟩, hv⟩

/-- C30: `on_arrays` applies one and the same list of positions to all arrays of one length, so
rows stay aligned. -/
theorem C30_onArrays_aligned {α : Type} (s : Sel) (a : List α) (others : List (List α))
    (hl : ∀ o ∈ others, o.length = a.length) :
    onArrays s a others = (match s.positions a.length with
      | .ok ps => .ok ((a :: others).map (fun x => ps.filterMap (fun i => x[i]?)))
      | .error e => .error e) := by
  unfold onArrays
  rw [(C30_onArray s a).1]
  cases hp : s.positions a.length with
  | error e => rfl
  | ok ps =>
      simp only [Except.bind_ok]
      have : ∀ l : List (List α), (∀ o ∈ l, o.length = a.length) →
          l.mapM (onArray s) = .ok (l.map (fun x => ps.filterMap (fun i => x[i]?))) := by
        intro l
        induction l with
        | nil => intro _; rfl
        | cons x t ih =>
            intro h
            rw [List.mapM_cons, (C30_onArray s x).1, h x (by simp), hp,
              ih (fun o ho => h o (by simp [ho]))]
            rfl
      rw [this others hl]
      rfl

/-- C30: `on_dict` keeps keys and their order and applies the selector to every column. -/
theorem C30_onDict {κ α : Type} [DecidableEq κ] (d : PyDict κ (List α)) (hwf : d.WF) (s : Sel)
    (n : Nat) (hl : ∀ p ∈ d, p.2.length = n) (ps : List Nat) (hs : s.positions n = .ok ps) :
    onDict d s = .ok (d.map (fun p => (p.1, ps.filterMap (fun i => p.2[i]?)))) := by
  unfold onDict
  have key : ∀ (pre t : PyDict κ (List α)), (pre ++ t).WF → (∀ p ∈ t, p.2.length = n) →
      List.foldlM (fun (out : PyDict κ (List α)) (kv : κ × List α) => do
        let v ← onArray s kv.2
        return out.set kv.1 v) (pre.map (fun p => (p.1, ps.filterMap (fun i => p.2[i]?)))) t
      = .ok ((pre ++ t).map (fun p => (p.1, ps.filterMap (fun i => p.2[i]?)))) := by
    intro pre t
    induction t generalizing pre with
    | nil => intro _ _; simp
    | cons p t ih =>
        intro h hl
        rw [List.foldlM_cons, (C30_onArray s p.2).1, hl p (by simp), hs]
        simp only [Except.bind_ok, Except.pure_ok]
        have hnot : p.1 ∉ PyDict.keys (pre.map (fun p => (p.1, ps.filterMap (fun i => p.2[i]?)))) := by
          rw [PyDict.keys_map (fun (x : List α) => ps.filterMap (fun i => x[i]?)) pre]
          simp only [PyDict.WF, PyDict.keys, List.map_append, List.map_cons, List.nodup_append] at h
          intro hp
          exact h.2.2 _ hp p.1 (by simp) rfl
        rw [PyDict.set_of_not_mem _ _ _ hnot]
        have := ih (pre ++ [p]) (by simpa using h) (fun q hq => hl q (by simp [hq]))
        simpa using this
  simpa using key [] d (by simpa using hwf) hl

example : onArray (.mask [true, false, true]) [1, 2, 3] = .ok [1, 3] ∧
    onArray (.idx [-1, 0, 0]) [1, 2, 3] = .ok [3, 1, 1] ∧
    onArray (.slice (some 1) (some (-1)) none) [1, 2, 3, 4] = .ok [2, 3] ∧
    onArray (.slice none none (some (-2))) [1, 2, 3, 4] = .ok [4, 2] := by decide

/-! ### C31 -/

section C31
variable {α : Type _} [LinearOrder α]

/-- C31: an element passes iff it is within the half-open interval given by the bounds that are
present; NaN passes only when no bound is given. -/
theorem C31_keep_iff (min max : Option (Fl α)) (x : Fl α) :
    rangeKeep min max x = true ↔
      (∀ lo, min = some lo → ∃ a b, x = .num a ∧ lo = .num b ∧ b ≤ a) ∧
      (∀ hi, max = some hi → ∃ a b, x = .num a ∧ hi = .num b ∧ a < b) := by
  rcases min with _ | (_ | lo) <;> rcases max with _ | (_ | hi) <;> rcases x with _ | a <;>
    simp [rangeKeep]

/-- C31: the filter returns, in order, exactly the passing elements (with multiplicity). -/
theorem C31_filter (min max : Option (Fl α)) (xs : List (Fl α)) :
    (rangeFilter min max xs).Sublist xs ∧
    (∀ x, x ∈ rangeFilter min max xs ↔ x ∈ xs ∧ rangeKeep min max x = true) ∧
    (∀ x, rangeKeep min max x = true → [DecidableEq α] →
      (rangeFilter min max xs).count x = xs.count x) := by
  refine ⟨List.filter_sublist, fun x => by simp [rangeFilter], ?_⟩
  intro x hx _
  exact List.count_filter hx

/-- C31: filtering is idempotent, filters commute, and a filter chain is the intersection. -/
theorem C31_compose (min max min' max' : Option (Fl α)) (xs : List (Fl α)) :
    rangeFilter min max (rangeFilter min max xs) = rangeFilter min max xs ∧
    rangeFilter min max (rangeFilter min' max' xs) = rangeFilter min' max' (rangeFilter min max xs) ∧
    rangeFilter min max (rangeFilter min' max' xs)
      = xs.filter (fun x => rangeKeep min max x && rangeKeep min' max' x) := by
  refine ⟨?_, ?_, ?_⟩
  · simp [rangeFilter]
  · simp only [rangeFilter, List.filter_filter]
    congr 1; funext x; exact Bool.and_comm _ _
  · simp [rangeFilter, List.filter_filter]

example : rangeFilter (some (.num 1)) (some (.num 3)) [.num 0, .num 1, .nan, .num 2, .num 3]
    = ([.num 1, .num 2] : List (Fl Int)) := by decide

end C31
end Pyhipp.Dataproc
