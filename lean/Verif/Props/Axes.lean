import Verif.Model.Axes
import Verif.Props.Plot
/-
C99: the frame of an axes.  C100: styles of drawing methods.  C101: error bands and legends.  C102: arrays of axes.
-/
namespace Pyhipp.Plot
open Pyhipp

/-! ### C99 -/

/-- Spec: the call for one axis; none for None. -/
def oneCall (axis what : Str) (v : PV) (kw : PyDict Str PV) : List Call := match v with
  | .none => []
  | v => [⟨"set_".toList ++ axis ++ what, [v], kw⟩]

/-- Spec: `m[k]`, None if absent. -/
def valOr (m : PyDict Str PV) (k : Str) : PV := (m.get? k).getD .none

/-- Spec: the calls a setting (lim, label, scale, ticks, ticklabels) stands for. -/
inductive Asks (what : Str) : PV → List Call → Prop
  | none : Asks what .none []
  | pair (x y : PV) : Asks what (.seq [x, y]) (oneCall "x".toList what x [] ++ oneCall "y".toList what y [])
  | map (m : PyDict Str PV) (hm : m.WF) : Asks what (.map m)
      (oneCall "x".toList what (valOr m "x".toList) (m.filter (fun p : Str × PV => decide (p.1 ≠ "x".toList ∧ p.1 ≠ "y".toList))) ++
       oneCall "y".toList what (valOr m "y".toList) (m.filter (fun p : Str × PV => decide (p.1 ≠ "x".toList ∧ p.1 ≠ "y".toList))))

/-- Spec: the call of `tick_params` for one of x, y, both: none for None, otherwise the given mapping and the common keywords, which must not overlap. -/
inductive TickAsks (axis : Str) (kw : PyDict Str PV) : PV → List Call → Prop
  | none : TickAsks axis kw .none []
  | map (m : PyDict Str PV) (h1 : ∀ k ∈ PyDict.keys m, k ∉ kw.keys) (h2 : "axis".toList ∉ PyDict.keys m) (h3 : "axis".toList ∉ kw.keys) :
      TickAsks axis kw (.map m) [⟨"tick_params".toList, [], ("axis".toList, .str axis) :: (m ++ kw)⟩]

/-- Spec: the calls of the setting tick_params. -/
inductive TicksAsk : PV → List Call → Prop
  | none : TicksAsk .none []
  | map (m kw : PyDict Str PV) (hm : m.WF)
      (hkw : kw = m.filter (fun p : Str × PV => decide (p.1 ≠ "x".toList ∧ p.1 ≠ "y".toList ∧ p.1 ≠ "both".toList))) (cx cy cb : List Call)
      (hx : TickAsks "x".toList kw (valOr m "x".toList) cx) (hy : TickAsks "y".toList kw (valOr m "y".toList) cy)
      (hb : TickAsks "both".toList kw (valOr m "both".toList) cb) : TicksAsk (.map m) (cx ++ cy ++ cb)

/-- Spec: the calls sent to matplotlib, in order, up to the first it rejects. -/
def sendAll (accepts : Call → Bool) (cs done : List Call) : PyM Unit × List Call :=
  (if cs.all accepts then .ok () else .error .valueError, done ++ cs.takeWhile accepts)

theorem calls_spec (accepts : Call → Bool) (cs done : List Call) : calls accepts cs done = sendAll accepts cs done := by
  induction cs generalizing done with
  | nil => simp [calls, sendAll]
  | cons c cs ih =>
      rw [calls, call]
      by_cases h : accepts c = true
      · rw [if_pos h]
        simp only
        rw [ih]
        simp [sendAll, h]
      · rw [if_neg h]
        simp [sendAll, h]

theorem seq_sendAll (accepts : Call → Bool) (a b done : List Call) (f : List Call → PyM Unit × List Call) (hf : ∀ d, f d = sendAll accepts b d) :
    seqCalls (sendAll accepts a done) f = sendAll accepts (a ++ b) done := by
  unfold sendAll seqCalls
  by_cases h : a.all accepts = true
  · have ht : a.takeWhile accepts = a := by
      clear hf
      induction a with
      | nil => rfl
      | cons c a ih =>
          simp only [List.all_cons, Bool.and_eq_true] at h
          rw [List.takeWhile_cons, if_pos h.1, ih h.2]
    have ht2 : (a ++ b).takeWhile accepts = a ++ b.takeWhile accepts := by
      rw [List.takeWhile_append, ht]; simp
    simp only [h, if_true, ht]
    rw [hf, sendAll, ht2, List.all_append, h, List.append_assoc]
    simp
  · have ht : (a ++ b).takeWhile accepts = a.takeWhile accepts := by
      rw [List.takeWhile_append, if_neg]
      intro hl
      apply h
      have he : a.takeWhile accepts = a := (List.takeWhile_prefix accepts).eq_of_length hl
      have := List.all_takeWhile (l := a) (p := accepts)
      rw [he] at this
      exact this
    have hn : ((a ++ b).all accepts) = false := by
      rw [List.all_append]
      simp only [Bool.not_eq_true] at h
      rw [h]; rfl
    simp only [hn, ht]
    simp only [Bool.not_eq_true] at h
    rw [h]
    rfl

theorem del_filter (m : PyDict Str PV) (hm : m.WF) (k : Str) : m.del k = m.filter (fun p : Str × PV => decide (p.1 ≠ k)) := by
  induction m with
  | nil => rfl
  | cons p m ih =>
      obtain ⟨k', v⟩ := p
      have hm' := hm
      simp only [PyDict.WF, PyDict.keys_cons, List.nodup_cons] at hm'
      rw [PyDict.del, List.filter_cons]
      by_cases hk : k' = k
      · subst hk
        rw [if_pos rfl, if_neg (by simp)]
        rw [← ih hm'.2, PyDict.del_of_not_mem _ _ hm'.1]
      · rw [if_neg hk, if_pos (by simpa using hk), ih hm'.2]

theorem xyCalls_of (what : Str) (v : PV) (cs : List Call) (h : Asks what v cs) (hn : v.isNone = false) : xyCalls what v = .ok cs := by
  have hone : ∀ (axis : String) (x : PV) (kw : PyDict Str PV), (if x.isNone = true then [] else [(⟨"set_".toList ++ axis.toList ++ what, [x], kw⟩ : Call)]) = oneCall axis.toList what x kw := by
    intro axis x kw; cases x <;> rfl
  cases h with
  | none => simp [PV.isNone] at hn
  | pair x y =>
      have e : splitXY (.seq [x, y]) = .ok (x, y, []) := rfl
      simp only [xyCalls, e, bind, Except.bind, pure, Except.pure]
      rw [← hone "x" x, ← hone "y" y]; rfl
  | map m hm =>
      have hy : PyDict.get? (PyDict.del m "x".toList) "y".toList = PyDict.get? m "y".toList := by
        rw [PyDict.get?_del _ _ _ hm, if_neg (by decide)]
      have hk : PyDict.del (PyDict.del m "x".toList) "y".toList = m.filter (fun p : Str × PV => decide (p.1 ≠ "x".toList ∧ p.1 ≠ "y".toList)) := by
        rw [del_filter _ (PyDict.WF_del _ _ hm), del_filter _ hm, List.filter_filter]
        apply List.filter_congr
        intro p _
        rw [Bool.eq_iff_iff]
        simp only [Bool.and_eq_true, decide_eq_true_eq]
        tauto
      have e : splitXY (.map m) = .ok (valOr m "x".toList, valOr m "y".toList, m.filter (fun p : Str × PV => decide (p.1 ≠ "x".toList ∧ p.1 ≠ "y".toList))) := by
        simp only [splitXY, PV.asMap, popNone, hy, hk, valOr]
      simp only [xyCalls, e, bind, Except.bind, pure, Except.pure]
      rw [← hone "x", ← hone "y"]; rfl

theorem tickPart_of (accepts : Call → Bool) (axis : Str) (v : PV) (kw : PyDict Str PV) (cs : List Call) (h : TickAsks axis kw v cs) (done : List Call) :
    tickPart accepts axis v kw done = sendAll accepts cs done := by
  cases h with
  | none => simp [tickPart, PV.isNone, sendAll]
  | map m h1 h2 h3 =>
      have hc : tickCall axis (.map m) kw = .ok ⟨"tick_params".toList, [], ("axis".toList, .str axis) :: (m ++ kw)⟩ := by
        simp only [tickCall, PV.asMap]
        rw [if_neg]
        · rfl
        · rw [Bool.or_eq_true, List.any_eq_true]
          rintro (⟨p, hp, hq⟩ | hq)
          · rw [Bool.or_eq_true] at hq
            have hpk : p.1 ∈ PyDict.keys m := List.mem_map_of_mem hp
            rcases hq with hq | hq
            · rw [beq_iff_eq] at hq; exact h2 (hq ▸ hpk)
            · exact h1 _ hpk ((PyDict.has_iff _ _).mp hq)
          · exact h3 ((PyDict.has_iff _ _).mp hq)
      rw [tickPart]
      simp only [PV.isNone, Bool.false_eq_true, if_false, hc]
      rw [← calls_spec]
      simp only [calls, call]
      split <;> simp_all

theorem applyTick_of (accepts : Call → Bool) (v : PV) (cs : List Call) (h : TicksAsk v cs) (hn : v.isNone = false) (done : List Call) :
    applyTickParams accepts v done = sendAll accepts cs done := by
  cases h with
  | none => simp [PV.isNone] at hn
  | map m kw hm hkw cx cy cb hx hy hb =>
      have h1 := PyDict.WF_del m "x".toList hm
      have h2 := PyDict.WF_del _ "y".toList h1
      have gy : PyDict.get? (PyDict.del m "x".toList) "y".toList = PyDict.get? m "y".toList := by
        rw [PyDict.get?_del _ _ _ hm, if_neg (by decide)]
      have gb : PyDict.get? (PyDict.del (PyDict.del m "x".toList) "y".toList) "both".toList = PyDict.get? m "both".toList := by
        rw [PyDict.get?_del _ _ _ h1, if_neg (by decide), PyDict.get?_del _ _ _ hm, if_neg (by decide)]
      have hk : PyDict.del (PyDict.del (PyDict.del m "x".toList) "y".toList) "both".toList = kw := by
        rw [del_filter _ h2, del_filter _ h1, del_filter _ hm, List.filter_filter, List.filter_filter, hkw]
        apply List.filter_congr
        intro p _
        rw [Bool.eq_iff_iff]
        simp only [Bool.and_eq_true, decide_eq_true_eq]
        tauto
      simp only [applyTickParams, PV.asMap, popNone, gy, gb, hk]
      rw [show (PyDict.get? m "x".toList).getD .none = valOr m "x".toList from rfl, show (PyDict.get? m "y".toList).getD .none = valOr m "y".toList from rfl,
        show (PyDict.get? m "both".toList).getD .none = valOr m "both".toList from rfl, tickPart_of accepts _ _ _ _ hx, List.append_assoc]
      apply seq_sendAll
      intro d
      rw [tickPart_of accepts _ _ _ _ hy]
      exact seq_sendAll _ _ _ _ _ (fun d => tickPart_of accepts _ _ _ _ hb d)

/-- Spec: a frame formatter with these settings and the calls they stand for. -/
structure FrameAsks (d : Fmt) (cs : List Call) : Prop where
  ex : ∃ lim label scale ticks ticklabels tick_params outer c1 c2 c3 c4 c5 c6 c7,
    (d.get? "lim".toList = some lim ∧ d.get? "label".toList = some label ∧ d.get? "scale".toList = some scale ∧ d.get? "ticks".toList = some ticks ∧
      d.get? "ticklabels".toList = some ticklabels ∧ d.get? "tick_params".toList = some tick_params ∧ d.get? "label_outer".toList = some outer) ∧
    (Asks "lim".toList lim c1 ∧ Asks "label".toList label c2 ∧ Asks "scale".toList scale c3 ∧ Asks "ticks".toList ticks c4 ∧
      Asks "ticklabels".toList ticklabels c5 ∧ TicksAsk tick_params c6 ∧ c7 = if outer.truth then [⟨"label_outer".toList, [], []⟩] else []) ∧
    cs = c1 ++ c2 ++ c3 ++ c4 ++ c5 ++ c6 ++ c7

theorem applyOne_xy (accepts : Call → Bool) (d : Fmt) (k : Str) (hk : '/' ∉ k) (h1 : k ≠ "tick_params".toList) (h2 : k ≠ "label_outer".toList) (v : PV)
    (hv : d.get? k = some v) (cs : List Call) (ha : Asks k v cs) (done : List Call) : applyOne accepts d k done = sendAll accepts cs done := by
  have hg : d.getItem k = .ok v := by rw [Fmt.getItem, if_pos hk, Fmt.direct, hv]
  rw [applyOne, hg]
  simp only
  by_cases hn : v.isNone = true
  · rw [if_pos hn]
    have : v = .none := by cases v <;> simp [PV.isNone] at hn ⊢
    subst this
    cases ha
    simp [sendAll]
  · rw [if_neg hn, if_neg h1, if_neg h2, applyXY, xyCalls_of k v cs ha (by simpa using hn)]
    exact calls_spec _ _ _

/-- C99: for every frame formatter whose settings are None, pairs or mappings, applying it sends exactly the calls the settings stand for: limits, labels,
scales, ticks, tick labels, tick parameters, outer labels, in this order, x before y, nothing for None, a mapping's further items as keywords; up to the
first call matplotlib rejects, whose exception is raised. -/
theorem C99_apply (accepts : Call → Bool) (d : Fmt) (cs : List Call) (h : FrameAsks d cs) (done : List Call) :
    d.apply accepts done = sendAll accepts cs done := by
  obtain ⟨lim, label, scale, ticks, ticklabels, tick_params, outer, c1, c2, c3, c4, c5, c6, c7, ⟨g1, g2, g3, g4, g5, g6, g7⟩, ⟨a1, a2, a3, a4, a5, a6, a7⟩, rfl⟩ := h.ex
  have s6 : ∀ done, applyOne accepts d "tick_params".toList done = sendAll accepts c6 done := by
    intro done
    have hg : d.getItem "tick_params".toList = .ok tick_params := by rw [Fmt.getItem, if_pos (by decide), Fmt.direct, g6]
    rw [applyOne, hg]
    simp only
    by_cases hn : tick_params.isNone = true
    · rw [if_pos hn]
      have : tick_params = .none := by cases tick_params <;> simp [PV.isNone] at hn ⊢
      subst this
      cases a6
      simp [sendAll]
    · rw [if_neg hn]
      exact applyTick_of accepts _ _ a6 (by simpa using hn) done
  have s7 : ∀ done, applyOne accepts d "label_outer".toList done = sendAll accepts c7 done := by
    intro done
    have hg : d.getItem "label_outer".toList = .ok outer := by rw [Fmt.getItem, if_pos (by decide), Fmt.direct, g7]
    rw [applyOne, hg, a7]
    simp only
    by_cases hn : outer.isNone = true
    · rw [if_pos hn]
      have : outer = .none := by cases outer <;> simp [PV.isNone] at hn ⊢
      subst this
      simp [sendAll, PV.truth]
    · rw [if_neg hn, if_neg (by decide)]
      simp only [if_true, applyLabelOuter]
      by_cases ht : outer.truth = true
      · rw [if_pos ht, if_pos ht, ← calls_spec]
        simp only [calls]
        unfold call
        split <;> rfl
      · rw [if_neg ht, if_neg ht]; simp [sendAll]
  unfold Fmt.apply frameKeys
  simp only [applyKeys, List.append_assoc]
  rw [applyOne_xy accepts d _ (by decide) (by decide) (by decide) _ g1 _ a1]
  refine seq_sendAll _ _ _ _ _ (fun done => ?_)
  rw [applyOne_xy accepts d _ (by decide) (by decide) (by decide) _ g2 _ a2]
  refine seq_sendAll _ _ _ _ _ (fun done => ?_)
  rw [applyOne_xy accepts d _ (by decide) (by decide) (by decide) _ g3 _ a3]
  refine seq_sendAll _ _ _ _ _ (fun done => ?_)
  rw [applyOne_xy accepts d _ (by decide) (by decide) (by decide) _ g4 _ a4]
  refine seq_sendAll _ _ _ _ _ (fun done => ?_)
  rw [applyOne_xy accepts d _ (by decide) (by decide) (by decide) _ g5 _ a5]
  refine seq_sendAll _ _ _ _ _ (fun done => ?_)
  rw [s6]
  refine seq_sendAll _ _ _ _ _ (fun done => ?_)
  rw [s7]
  have := seq_sendAll accepts c7 [] done (applyKeys accepts d []) (fun d => by simp [applyKeys, sendAll])
  rw [List.append_nil] at this
  exact this


/-- C99: a tick_params setting that is neither None nor a mapping is a NameError when it is applied (recorded defect: pairs are accepted by the other settings). -/
theorem C99_tick_params_pair (accepts : Call → Bool) (x y : PV) (done : List Call) : applyTickParams accepts (.seq [x, y]) done = (.error .nameError, done) := rfl

/-- C99: a part 'x', 'y' or 'both' of the tick parameters must be None or a mapping: if 'x' is anything else, it is a TypeError before anything is sent. -/
theorem C99_tick_part (accepts : Call → Bool) (m : PyDict Str PV) (v : PV) (h : PyDict.get? m "x".toList = some v) (hn : v ≠ .none)
    (hm : ¬ ∃ es, v = .map es) (done : List Call) : applyTickParams accepts (.map m) done = (.error .typeError, done) := by
  have hx : popNone m "x".toList = (v, PyDict.del m "x".toList) := by simp only [popNone, h]; rfl
  have ha : v.asMap = Option.none := by
    cases v with
    | map es => exact absurd ⟨es, rfl⟩ hm
    | _ => rfl
  have hi : v.isNone = false := by
    cases v with
    | none => exact absurd rfl hn
    | _ => rfl
  have ht : ∀ axis kw, tickPart accepts axis v kw done = (.error .typeError, done) := by
    intro axis kw
    simp only [tickPart, hi, Bool.false_eq_true, if_false, tickCall, ha]
  have hmap : (PV.map m).asMap = some m := rfl
  simp only [applyTickParams, hmap, hx, ht, seqCalls]

/-- C99: the other settings reject everything but None, mappings and things that unpack into two: numbers and booleans are a TypeError, sequences of another length
a ValueError; nothing is sent for this setting. -/
theorem C99_malformed (accepts : Call → Bool) (what : Str) (q : ℚ) (b : Bool) (l : List PV) (hl : l.length ≠ 2) (done : List Call) :
    applyXY accepts what (.num q) done = (.error .typeError, done) ∧ applyXY accepts what (.bool b) done = (.error .typeError, done) ∧
    applyXY accepts what (.seq l) done = (.error .valueError, done) := by
  refine ⟨rfl, rfl, ?_⟩
  have : splitXY (.seq l) = .error .valueError := by
    match l, hl with
    | [], _ => rfl
    | [_], _ => rfl
    | [_, _], h => exact absurd rfl h
    | _ :: _ :: _ :: _, _ => rfl
  simp [applyXY, xyCalls, this, bind, Except.bind]

/-- The names of the frame's settings. -/
def frameNames : List Str := ["lim", "label", "scale", "ticks", "ticklabels", "tick_params", "label_outer"].map String.toList

/-- C99: `fmt_frame` with known settings stores them and sends the calls of all stored settings, not only of the new ones; an unknown setting is a KeyError and
nothing is sent (the settings before it stay stored). -/
theorem C99_fmt_frame (accepts : Call → Bool) (ax : Ax) (hkeys : ax.frame.keys = frameNames) (kw : PyDict Str PV) (hkw : kw.WF) :
    ((∀ k ∈ kw.keys, k ∈ frameNames) → ∃ d : Fmt, d.keys = frameNames ∧ (∀ k, d.get? k = (kw.get? k).or (ax.frame.get? k)) ∧
      ∀ cs, FrameAsks d cs → ax.fmtFrame accepts kw = ((sendAll accepts cs ax.sent).1, { ax with frame := d, sent := (sendAll accepts cs ax.sent).2 })) ∧
    ((∃ k ∈ kw.keys, k ∉ frameNames) → (ax.fmtFrame accepts kw).1 = .error .keyError ∧ (ax.fmtFrame accepts kw).2.sent = ax.sent) := by
  have hs := ior_spec kw ax.frame
  have hu : ax.frame.update [kw] [] = ax.frame.ior kw := by rw [update_eq]; simp
  have hiff : (∀ p ∈ kw, p.1 ∈ ax.frame.keys) ↔ ∀ k ∈ kw.keys, k ∈ frameNames := by
    rw [hkeys]; simp [PyDict.keys]
  constructor
  · intro h
    refine ⟨(ax.frame.ior kw).2, hs.1.trans hkeys, ?_, ?_⟩
    · intro k
      have := C88_success ax.frame (.ior kw) (by show (ax.frame.ior kw).1 = _; rw [hs.2.2, if_pos (hiff.mpr h)]) k
      rw [show (Op.ior kw).run ax.frame = ax.frame.ior kw from rfl] at this
      rw [this]
      congr 1
      show lastVal kw k = _
      clear hs hu hiff h this
      induction kw with
      | nil => rfl
      | cons p t ih =>
          have hw : PyDict.WF t := (List.nodup_cons.mp hkw).2
          have hnp : p.1 ∉ PyDict.keys t := (List.nodup_cons.mp hkw).1
          have iht := ih hw
          unfold lastVal at iht ⊢
          rw [List.reverse_cons, List.find?_append]
          obtain ⟨k', v⟩ := p
          rw [PyDict.get?]
          by_cases hk : k' = k
          · subst hk
            rw [if_pos rfl]
            have : List.find? (fun p : Str × PV => decide (p.1 = k')) (List.reverse t) = none := by
              rw [List.find?_eq_none]
              intro q hq
              simp only [decide_eq_true_eq]
              intro he
              have hm : q.1 ∈ PyDict.keys t := List.mem_map_of_mem (f := Prod.fst) (List.mem_reverse.mp hq)
              exact hnp (he ▸ hm)
            rw [this]
            simp
          · rw [if_neg hk, ← iht]
            have : List.find? (fun p : Str × PV => decide (p.1 = k)) [(k', v)] = none := by simp [hk]
            rw [this, Option.or_none]
    · intro cs hcs
      rw [Ax.fmtFrame, hu]
      simp only
      have h1 : (ax.frame.ior kw).1 = .ok () := by rw [hs.2.2, if_pos (hiff.mpr h)]
      rw [h1]
      simp only [axThen]
      rw [C99_apply accepts _ cs hcs]
  · intro h
    have h1 : (ax.frame.ior kw).1 = .error .keyError := by
      rw [hs.2.2, if_neg]
      intro h'
      obtain ⟨k, hk, hn⟩ := h
      exact hn ((hiff.mp h') k hk)
    rw [Ax.fmtFrame, hu]
    simp only
    rw [h1]
    exact ⟨rfl, rfl⟩

/-- C99: `lim`, `scale`, `tick_params`, `label_outer` and `label` are `fmt_frame` with the setting of that name; labels are wrapped by the text style (C88), missing ones
stay None. -/
theorem C99_shortcuts (accepts : Call → Bool) (ax : Ax) (x y b : PV) (kw : PyDict Str PV) (lx ly wx wy : Str) (hx : ax.text.wrapText lx = .ok wx)
    (hy : ax.text.wrapText ly = .ok wy) :
    ax.lim accepts x y = ax.fmtFrame accepts [("lim".toList, .map [("x".toList, x), ("y".toList, y)])] ∧
    ax.scale accepts x y = ax.fmtFrame accepts [("scale".toList, .map [("x".toList, x), ("y".toList, y)])] ∧
    ax.tickParams accepts x y b kw = ax.fmtFrame accepts [("tick_params".toList, .map (("x".toList, x) :: ("y".toList, y) :: ("both".toList, b) :: kw))] ∧
    ax.labelOuter accepts = ax.fmtFrame accepts [("label_outer".toList, .bool true)] ∧
    ax.label accepts (some lx) (some ly) = ax.fmtFrame accepts [("label".toList, .map [("x".toList, .str wx), ("y".toList, .str wy)])] ∧
    ax.label accepts none (some ly) = ax.fmtFrame accepts [("label".toList, .map [("x".toList, .none), ("y".toList, .str wy)])] ∧
    ax.label accepts (some lx) none = ax.fmtFrame accepts [("label".toList, .map [("x".toList, .str wx), ("y".toList, .none)])] := by
  refine ⟨rfl, rfl, rfl, rfl, ?_, ?_, ?_⟩ <;>
    simp only [Ax.label, wrapOpt, hx, hy, bind, Except.bind, pure, Except.pure, xy]

/-- Example: limits and labels on fresh axes: the limits are sent again with the label. -/
example : ((Ax.new.lim (fun _ => true) (.seq [.num 0, .num 1]) .none).2.label (fun _ => true) (some "m".toList) none).2.sent =
      [⟨"set_xlim".toList, [.seq [.num 0, .num 1]], []⟩, ⟨"set_xlim".toList, [.seq [.num 0, .num 1]], []⟩, ⟨"set_xlabel".toList, [.str "$m$".toList], []⟩] := rfl


/-! ### C100 -/

/-- Something a user does with an `Axes`. -/
inductive AxOp where
  | fmtLine (kw : PyDict Str PV)
  | fmtErrorbar (kw : PyDict Str PV)
  | fmtText (kw : PyDict Str PV)
  | fmtMarker (style c a : PV) (kw : PyDict Str PV)
  | fmtFill (c a : PV) (kw : PyDict Str PV)
  | color (col al : PV)
  | fmtFrame (kw : PyDict Str PV)
  | lim (x y : PV)
  | label (x y : Option Str)
  | scale (x y : PV)
  | tickParams (x y both : PV) (kw : PyDict Str PV)
  | labelOuter
  | plot (x y label : PV) (user : PyDict Str PV)
  | scatter (x y label : PV) (user : PyDict Str PV)
  | errorbar (x y yerr xerr label : PV) (lims : Lims) (user : PyDict Str PV)
  | fillBetween (x y1 y2 whr interpolate label step : PV) (user : PyDict Str PV)
  | stairs (values edges orientation baseline fill label : PV) (user : PyDict Str PV)
  | hist (x bins range density weights histtype log align rwidth orientation : PV) (user : PyDict Str PV)
  | text (transAxes : PV) (content : Str) (coords va ha : PV) (user : PyDict Str PV)
  | errorfill (x : PV) (y : List ℚ) (yerr : YErr) (label fill_label : PV) (fill_kw plot_kw : PyDict Str PV)
  | leg (args : List PV) (loc : Str) (opts user : PyDict Str PV)

section
variable (toRgba : PV → PyM (PV × PV × PV × PV)) (accepts : Call → Bool)

/-- The method. -/
def AxOp.run (ax : Ax) : AxOp → AxR
  | .fmtLine kw => ax.fmtLine kw
  | .fmtErrorbar kw => ax.fmtErrorbar kw
  | .fmtText kw => ax.fmtText kw
  | .fmtMarker s c a kw => ax.fmtMarker s c a kw
  | .fmtFill c a kw => ax.fmtFill c a kw
  | .color c a => ax.c c a
  | .fmtFrame kw => ax.fmtFrame accepts kw
  | .lim x y => ax.lim accepts x y
  | .label x y => ax.label accepts x y
  | .scale x y => ax.scale accepts x y
  | .tickParams x y b kw => ax.tickParams accepts x y b kw
  | .labelOuter => ax.labelOuter accepts
  | .plot x y l u => ax.plot toRgba accepts x y l u
  | .scatter x y l u => ax.scatter toRgba accepts x y l u
  | .errorbar x y ye xe l lims u => ax.errorbarDraw toRgba accepts x y ye xe l lims u
  | .fillBetween x y1 y2 w i l s u => ax.fillBetween toRgba accepts x y1 y2 w i l s u
  | .stairs v e o b f l u => ax.stairs toRgba accepts v e o b f l u
  | .hist x b r d w h l al rw o u => ax.hist toRgba accepts x b r d w h l al rw o u
  | .text t ct co va ha u => ax.textDraw toRgba accepts t ct co va ha u
  | .errorfill x y ye l fl fk pk => ax.errorfill toRgba accepts x y ye l fl fk pk
  | .leg args loc o u => ax.leg accepts args loc o u

/-- A history; exceptions are caught by the caller. -/
def axHistory (ax : Ax) (ops : List AxOp) : Ax := ops.foldl (fun ax op => (op.run toRgba accepts ax).2) ax

end

/-- Spec: the assignments an operation asks of the line style. -/
def AxOp.line : AxOp → List (Str × PV)
  | .fmtLine kw => kw
  | .color c a => given "c" c ++ given "a" a
  | _ => []

/-- Spec: of the error-bar style. -/
def AxOp.errbar : AxOp → List (Str × PV)
  | .fmtErrorbar kw => kw
  | .color c a => given "c" c ++ given "a" a
  | _ => []

/-- Spec: of the marker style: `fmt_marker` always assigns the style, also when it is not given. -/
def AxOp.marker : AxOp → List (Str × PV)
  | .fmtMarker s c a kw => given "fc" c ++ given "fa" a ++ (given "ec" c ++ given "ea" a) ++ ("style".toList, s) :: kw
  | .color c a => given "fc" c ++ given "fa" a ++ (given "ec" c ++ given "ea" a)
  | _ => []

/-- Spec: of the fill style. -/
def AxOp.fill : AxOp → List (Str × PV)
  | .fmtFill c a kw => given "fc" c ++ given "fa" a ++ (given "ec" c ++ given "ea" a) ++ kw
  | .color c a => given "fc" c ++ given "fa" a ++ (given "ec" c ++ given "ea" a)
  | _ => []

/-- Spec: of the text style. -/
def AxOp.textStyle : AxOp → List (Str × PV)
  | .fmtText kw => kw
  | _ => []

def lineNames : List Str := ["c", "a", "lw", "ls"].map String.toList
def errbarNames : List Str := ["c", "a", "lw", "capsize", "capthick"].map String.toList
def markerNames : List Str := ["style", "ec", "fc", "ea", "fa", "s", "elw"].map String.toList
def fillNames : List Str := ["fc", "ec", "fa", "ea", "lw", "ls"].map String.toList
def textNames : List Str := ["use_tex", "c", "a", "s"].map String.toList

/-- Every formatter has its settings. -/
structure Settings (ax : Ax) : Prop where
  line : ax.line.keys = lineNames
  errorbar : ax.errorbar.keys = errbarNames
  marker : ax.marker.keys = markerNames
  fill : ax.fill.keys = fillNames
  text : ax.text.keys = textNames

/-- The style formatters of two axes are the same. -/
structure SameFmts (a b : Ax) : Prop where
  line : a.line = b.line
  errorbar : a.errorbar = b.errorbar
  marker : a.marker = b.marker
  fill : a.fill = b.fill
  text : a.text = b.text

theorem SameFmts.refl (a : Ax) : SameFmts a a := ⟨rfl, rfl, rfl, rfl, rfl⟩
theorem SameFmts.trans {a b c : Ax} (h : SameFmts a b) (g : SameFmts b c) : SameFmts a c :=
  ⟨h.line.trans g.line, h.errorbar.trans g.errorbar, h.marker.trans g.marker, h.fill.trans g.fill, h.text.trans g.text⟩

theorem draw_same (accepts : Call → Bool) (ax : Ax) (c : Call) : SameFmts (ax.draw accepts c).2 ax := by
  unfold Ax.draw; split <;> exact ⟨rfl, rfl, rfl, rfl, rfl⟩

theorem drawWith_same (accepts : Call → Bool) (ax : Ax) (name : String) (args : List PV) (base : PyM (PyDict Str PV)) (user : PyDict Str PV) :
    SameFmts (ax.drawWith accepts name args base user).2 ax := by
  unfold Ax.drawWith; cases base
  · exact SameFmts.refl _
  · exact draw_same _ _ _

theorem axThen_same (r : AxR) (f : Ax → AxR) (a : Ax) (h : SameFmts r.2 a) (hf : ∀ b, SameFmts (f b).2 b) : SameFmts (axThen r f).2 a := by
  obtain ⟨r1, r2⟩ := r
  cases r1 with
  | ok u => exact (hf r2).trans h
  | error e => exact h

theorem fmtFrame_same (accepts : Call → Bool) (ax : Ax) (kw : PyDict Str PV) : SameFmts (ax.fmtFrame accepts kw).2 ax :=
  axThen_same _ _ _ ⟨rfl, rfl, rfl, rfl, rfl⟩ (fun _ => ⟨rfl, rfl, rfl, rfl, rfl⟩)

/-- The formatters after one operation. -/
theorem run_fmts (toRgba : PV → PyM (PV × PV × PV × PV)) (accepts : Call → Bool) (ax : Ax) (h : Settings ax) (op : AxOp) :
    (op.run toRgba accepts ax).2.line = (ax.line.ior op.line).2 ∧ (op.run toRgba accepts ax).2.errorbar = (ax.errorbar.ior op.errbar).2 ∧
    (op.run toRgba accepts ax).2.marker = (ax.marker.ior op.marker).2 ∧ (op.run toRgba accepts ax).2.fill = (ax.fill.ior op.fill).2 ∧
    (op.run toRgba accepts ax).2.text = (ax.text.ior op.textStyle).2 := by
  have same : ∀ r : AxR, SameFmts r.2 ax → r.2.line = (ax.line.ior []).2 ∧ r.2.errorbar = (ax.errorbar.ior []).2 ∧ r.2.marker = (ax.marker.ior []).2 ∧
      r.2.fill = (ax.fill.ior []).2 ∧ r.2.text = (ax.text.ior []).2 := fun r hr => ⟨hr.line, hr.errorbar, hr.marker, hr.fill, hr.text⟩
  have hu : ∀ (d : Fmt) (kw : PyDict Str PV), d.update [kw] [] = d.ior kw := by intro d kw; rw [update_eq]; simp
  have hfe : ∀ (d : Fmt) (c a : PV), d.cFaceEdge c a = d.ior (given "fc" c ++ given "fa" a ++ (given "ec" c ++ given "ea" a)) := fun d c a => run_eq d (.cFaceEdge c a)
  have hl : ∀ (d : Fmt) (c a : PV), d.cLine c a = d.ior (given "c" c ++ given "a" a) := fun d c a => run_eq d (.cLine c a)
  cases op with
  | fmtLine kw => exact ⟨by rw [← hu]; rfl, rfl, rfl, rfl, rfl⟩
  | fmtErrorbar kw => exact ⟨rfl, by rw [← hu]; rfl, rfl, rfl, rfl⟩
  | fmtText kw => exact ⟨rfl, rfl, rfl, rfl, by rw [← hu]; rfl⟩
  | fmtMarker s c a kw =>
      refine ⟨rfl, rfl, ?_, rfl, rfl⟩
      show (andThen (andThen (ax.marker.cFaceEdge c a) (fun d => d.ior [("style".toList, s)])) (fun d => d.update [kw] [])).2 = _
      rw [hfe, ← ior_append]
      simp only [hu]
      rw [← ior_append]
      simp [AxOp.marker]
  | fmtFill c a kw =>
      refine ⟨rfl, rfl, rfl, ?_, rfl⟩
      show (andThen (ax.fill.cFaceEdge c a) (fun d => d.update [kw] [])).2 = _
      rw [hfe]
      simp only [hu]
      rw [← ior_append]
      rfl
  | color c a =>
      have ok : ∀ (d : Fmt) (m : List (Str × PV)), (∀ p ∈ m, p.1 ∈ d.keys) → (d.ior m).1 = .ok () := by
        intro d m hm; rw [(ior_spec m d).2.2, if_pos hm]
      have mem : ∀ (k : String) (v : PV) (names : List Str), k.toList ∈ names → ∀ p ∈ given k v, p.1 ∈ names := by
        intro k v names hk p hp
        cases v <;> simp [given] at hp <;> rw [hp] <;> exact hk
      have o1 : (ax.line.cLine c a).1 = .ok () := by
        rw [hl]; apply ok; rw [h.line]; intro p hp
        rcases List.mem_append.mp hp with hp | hp
        · exact mem "c" c _ (by decide) p hp
        · exact mem "a" a _ (by decide) p hp
      have o2 : (ax.marker.cFaceEdge c a).1 = .ok () := by
        rw [hfe]; apply ok; rw [h.marker]; intro p hp
        rcases List.mem_append.mp hp with hp | hp <;> rcases List.mem_append.mp hp with hp | hp
        · exact mem "fc" c _ (by decide) p hp
        · exact mem "fa" a _ (by decide) p hp
        · exact mem "ec" c _ (by decide) p hp
        · exact mem "ea" a _ (by decide) p hp
      have o3 : (ax.errorbar.cLine c a).1 = .ok () := by
        rw [hl]; apply ok; rw [h.errorbar]; intro p hp
        rcases List.mem_append.mp hp with hp | hp
        · exact mem "c" c _ (by decide) p hp
        · exact mem "a" a _ (by decide) p hp
      have e : (ax.c c a).2 = { ax with line := (ax.line.cLine c a).2, marker := (ax.marker.cFaceEdge c a).2, errorbar := (ax.errorbar.cLine c a).2, fill := (ax.fill.cFaceEdge c a).2 } := by
        unfold Ax.c
        simp only [o1, o2, o3, axThen]
      show (ax.c c a).2.line = _ ∧ (ax.c c a).2.errorbar = _ ∧ (ax.c c a).2.marker = _ ∧ (ax.c c a).2.fill = _ ∧ (ax.c c a).2.text = _
      rw [e]
      exact ⟨congrArg Prod.snd (hl ax.line c a), congrArg Prod.snd (hl ax.errorbar c a), congrArg Prod.snd (hfe ax.marker c a), congrArg Prod.snd (hfe ax.fill c a), rfl⟩
  | fmtFrame kw => exact same _ (fmtFrame_same _ _ _)
  | lim x y => exact same _ (fmtFrame_same _ _ _)
  | label x y =>
      refine same _ ?_
      show SameFmts (ax.label accepts x y).2 ax
      unfold Ax.label
      split
      · exact SameFmts.refl _
      · split
        · exact SameFmts.refl _
        · exact fmtFrame_same _ _ _
  | scale x y => exact same _ (fmtFrame_same _ _ _)
  | tickParams x y b kw => exact same _ (fmtFrame_same _ _ _)
  | labelOuter => exact same _ (fmtFrame_same _ _ _)
  | plot x y l u => exact same _ (drawWith_same _ _ _ _ _ _)
  | scatter x y l u => exact same _ (drawWith_same _ _ _ _ _ _)
  | errorbar x y ye xe l lims u => exact same _ (drawWith_same _ _ _ _ _ _)
  | fillBetween x y1 y2 w i l s u => exact same _ (drawWith_same _ _ _ _ _ _)
  | stairs v e o b f l u => exact same _ (drawWith_same _ _ _ _ _ _)
  | hist x b r d w hh l al rw' o u => exact same _ (drawWith_same _ _ _ _ _ _)
  | text t ct co va ha u =>
      refine same _ ?_
      show SameFmts (ax.textDraw toRgba accepts t ct co va ha u).2 ax
      unfold Ax.textDraw
      split
      · exact SameFmts.refl _
      · exact draw_same _ _ _
  | errorfill x y ye l fl fk pk =>
      refine same _ ?_
      show SameFmts (ax.errorfill toRgba accepts x y ye l fl fk pk).2 ax
      unfold Ax.errorfill
      split
      · exact SameFmts.refl _
      · exact axThen_same _ _ _ (drawWith_same _ _ _ _ _ _) (fun _ => drawWith_same _ _ _ _ _ _)
  | leg args loc o u => exact same _ (draw_same _ _ _)

theorem run_settings (toRgba : PV → PyM (PV × PV × PV × PV)) (accepts : Call → Bool) (ax : Ax) (h : Settings ax) (op : AxOp) :
    Settings (op.run toRgba accepts ax).2 := by
  obtain ⟨h1, h2, h3, h4, h5⟩ := run_fmts toRgba accepts ax h op
  exact ⟨by rw [h1, (ior_spec _ _).1, h.line], by rw [h2, (ior_spec _ _).1, h.errorbar], by rw [h3, (ior_spec _ _).1, h.marker],
    by rw [h4, (ior_spec _ _).1, h.fill], by rw [h5, (ior_spec _ _).1, h.text]⟩

/-- C100: `fmt_line`, `fmt_errorbar`, `fmt_text`, `fmt_marker` and `fmt_fill` succeed exactly if all names given are settings of that style, otherwise they raise KeyError. -/
theorem C100_unknown_setting (ax : Ax) (h : Settings ax) (kw : PyDict Str PV) (s c a : PV) :
    ((ax.fmtLine kw).1 = if ∀ k ∈ kw.keys, k ∈ lineNames then .ok () else .error .keyError) ∧
    ((ax.fmtErrorbar kw).1 = if ∀ k ∈ kw.keys, k ∈ errbarNames then .ok () else .error .keyError) ∧
    ((ax.fmtText kw).1 = if ∀ k ∈ kw.keys, k ∈ textNames then .ok () else .error .keyError) ∧
    ((ax.fmtMarker s c a kw).1 = if ∀ k ∈ kw.keys, k ∈ markerNames then .ok () else .error .keyError) ∧
    ((ax.fmtFill c a kw).1 = if ∀ k ∈ kw.keys, k ∈ fillNames then .ok () else .error .keyError) := by
  have hu : ∀ (d : Fmt) (kw : PyDict Str PV), d.update [kw] [] = d.ior kw := by intro d kw; rw [update_eq]; simp
  have hfe : ∀ (d : Fmt) (c a : PV), d.cFaceEdge c a = d.ior (given "fc" c ++ given "fa" a ++ (given "ec" c ++ given "ea" a)) := fun d c a => run_eq d (.cFaceEdge c a)
  have mem : ∀ (k : String) (v : PV) (names : List Str), k.toList ∈ names → ∀ p ∈ given k v, p.1 ∈ names := by
    intro k v names hk p hp
    cases v <;> simp [given] at hp <;> rw [hp] <;> exact hk
  have fe : ∀ names : List Str, "fc".toList ∈ names → "fa".toList ∈ names → "ec".toList ∈ names → "ea".toList ∈ names →
      ∀ p ∈ given "fc" c ++ given "fa" a ++ (given "ec" c ++ given "ea" a), p.1 ∈ names := by
    intro names h1 h2 h3 h4 p hp
    rcases List.mem_append.mp hp with hp | hp <;> rcases List.mem_append.mp hp with hp | hp
    · exact mem "fc" c _ h1 p hp
    · exact mem "fa" a _ h2 p hp
    · exact mem "ec" c _ h3 p hp
    · exact mem "ea" a _ h4 p hp
  have key : ∀ (d : Fmt) (names : List Str) (pre : List (Str × PV)), d.keys = names → (∀ p ∈ pre, p.1 ∈ names) →
      (d.ior (pre ++ kw)).1 = if ∀ k ∈ kw.keys, k ∈ names then .ok () else .error .keyError := by
    intro d names pre hd hp
    rw [(ior_spec _ _).2.2, hd]
    have hiff : (∀ p ∈ pre ++ kw, p.1 ∈ names) ↔ ∀ k ∈ kw.keys, k ∈ names := by
      constructor
      · intro g k hk
        obtain ⟨p, hp, rfl⟩ := List.mem_map.mp hk
        exact g p (List.mem_append_right _ hp)
      · intro g p hp'
        rcases List.mem_append.mp hp' with h1 | h1
        · exact hp p h1
        · exact g _ (List.mem_map_of_mem (f := Prod.fst) h1)
    by_cases hc : ∀ k ∈ kw.keys, k ∈ names
    · rw [if_pos (hiff.mpr hc), if_pos hc]
    · rw [if_neg (fun g => hc (hiff.mp g)), if_neg hc]
  refine ⟨?_, ?_, ?_, ?_, ?_⟩
  · show (ax.line.update [kw] []).1 = _
    rw [hu]; exact key _ _ [] h.line (by simp)
  · show (ax.errorbar.update [kw] []).1 = _
    rw [hu]; exact key _ _ [] h.errorbar (by simp)
  · show (ax.text.update [kw] []).1 = _
    rw [hu]; exact key _ _ [] h.text (by simp)
  · show (andThen (andThen (ax.marker.cFaceEdge c a) (fun d => d.ior [("style".toList, s)])) (fun d => d.update [kw] [])).1 = _
    rw [hfe, ← ior_append]
    simp only [hu]
    rw [← ior_append]
    refine key _ _ _ h.marker ?_
    intro p hp
    rcases List.mem_append.mp hp with hp | hp
    · exact fe _ (by decide) (by decide) (by decide) (by decide) p hp
    · rw [List.mem_singleton.mp hp]; show "style".toList ∈ markerNames; decide
  · show (andThen (ax.fill.cFaceEdge c a) (fun d => d.update [kw] [])).1 = _
    rw [hfe]
    simp only [hu]
    rw [← ior_append]
    exact key _ _ _ h.fill (fe _ (by decide) (by decide) (by decide) (by decide))

/-- C100: over any history of formatting, framing and drawing calls (exceptions caught by the caller) every style setting of an axes is the last value accepted
for it by its own methods (or by `c`, which reaches lines, markers, error bars and fills); drawing, framing and the methods of other styles leave it alone. -/
theorem C100_history (toRgba : PV → PyM (PV × PV × PV × PV)) (accepts : Call → Bool) (ops : List AxOp) (ax : Ax) (h : Settings ax) :
    Settings (axHistory toRgba accepts ax ops) ∧ ∀ k,
    (axHistory toRgba accepts ax ops).line.get? k = (lastVal (ops.flatMap (fun op => accepted lineNames op.line)) k).or (ax.line.get? k) ∧
    (axHistory toRgba accepts ax ops).errorbar.get? k = (lastVal (ops.flatMap (fun op => accepted errbarNames op.errbar)) k).or (ax.errorbar.get? k) ∧
    (axHistory toRgba accepts ax ops).marker.get? k = (lastVal (ops.flatMap (fun op => accepted markerNames op.marker)) k).or (ax.marker.get? k) ∧
    (axHistory toRgba accepts ax ops).fill.get? k = (lastVal (ops.flatMap (fun op => accepted fillNames op.fill)) k).or (ax.fill.get? k) ∧
    (axHistory toRgba accepts ax ops).text.get? k = (lastVal (ops.flatMap (fun op => accepted textNames op.textStyle)) k).or (ax.text.get? k) := by
  induction ops generalizing ax with
  | nil => exact ⟨h, fun k => by simp [axHistory, lastVal]⟩
  | cons op ops ih =>
      have hs := run_settings toRgba accepts ax h op
      obtain ⟨h1, h2, h3, h4, h5⟩ := run_fmts toRgba accepts ax h op
      obtain ⟨i1, i2⟩ := ih (op.run toRgba accepts ax).2 hs
      refine ⟨i1, fun k => ?_⟩
      have lv : ∀ (A B : List (Str × PV)) (o : Option PV), (lastVal (A ++ B) k).or o = (lastVal B k).or ((lastVal A k).or o) := by
        intro A B o
        unfold lastVal
        rw [List.reverse_append, List.find?_append]
        cases List.find? (fun p : Str × PV => decide (p.1 = k)) B.reverse <;> simp
      have i2 := i2 k
      have e : axHistory toRgba accepts ax (op :: ops) = axHistory toRgba accepts (op.run toRgba accepts ax).2 ops := rfl
      rw [e]
      simp only [List.flatMap_cons, lv]
      rw [h1, h2, h3, h4, h5] at i2
      simp only [(ior_spec _ _).2.1] at i2
      rw [h.line, h.errorbar, h.marker, h.fill, h.text] at i2
      exact i2

/-- C100: fresh axes have all settings; markers are off. -/
theorem C100_new : Settings Ax.new ∧ Ax.new.marker.get? "style".toList = some .none ∧ Ax.new.lastDraw = .error .indexError :=
  ⟨⟨rfl, rfl, rfl, rfl, rfl⟩, rfl, rfl⟩

/-- C100 (recorded hazard): `fmt_marker` without a style switches the markers off, whatever style was set before. -/
theorem C100_marker_style_reset (ax : Ax) (h : Settings ax) (c a : PV) (kw : PyDict Str PV) (hkw : ∀ p ∈ kw, p.1 ≠ "style".toList) :
    (ax.fmtMarker .none c a kw).2.marker.get? "style".toList = some .none := by
  have hr := (run_fmts (fun _ => .error .valueError) (fun _ => true) ax h (.fmtMarker .none c a kw)).2.2.1
  have hr : (ax.fmtMarker .none c a kw).2.marker = _ := hr
  rw [hr, (ior_spec _ _).2.1, h.marker]
  have key : lastVal (accepted markerNames (AxOp.marker (.fmtMarker .none c a kw))) "style".toList = some .none := by
    have hacc : ∃ rest, accepted markerNames (AxOp.marker (.fmtMarker .none c a kw)) =
        (given "fc" c ++ given "fa" a ++ (given "ec" c ++ given "ea" a)) ++ ("style".toList, .none) :: rest ∧ ∀ p ∈ rest, p ∈ kw := by
      have mem : ∀ (k : String) (v : PV) (names : List Str), k.toList ∈ names → ∀ p ∈ given k v, p.1 ∈ names := by
        intro k v names hk p hp
        cases v <;> simp [given] at hp <;> rw [hp] <;> exact hk
      have hall : ∀ p ∈ given "fc" c ++ given "fa" a ++ (given "ec" c ++ given "ea" a), decide (p.1 ∈ markerNames) = true := by
        intro p hp
        rw [decide_eq_true_eq]
        rcases List.mem_append.mp hp with hp | hp <;> rcases List.mem_append.mp hp with hp | hp
        · exact mem "fc" c _ (by decide) p hp
        · exact mem "fa" a _ (by decide) p hp
        · exact mem "ec" c _ (by decide) p hp
        · exact mem "ea" a _ (by decide) p hp
      refine ⟨kw.takeWhile (fun p : Str × PV => decide (p.1 ∈ markerNames)), ?_, fun p hp => (List.takeWhile_prefix _).subset hp⟩
      unfold accepted AxOp.marker
      rw [List.takeWhile_append_of_pos hall, List.takeWhile_cons_of_pos (by decide)]
    obtain ⟨rest, h1, h2⟩ := hacc
    rw [h1]
    unfold lastVal
    rw [List.reverse_append, List.reverse_cons, List.append_assoc, List.find?_append]
    have : List.find? (fun p : Str × PV => decide (p.1 = "style".toList)) rest.reverse = none := by
      rw [List.find?_eq_none]
      intro q hq
      simp only [decide_eq_true_eq]
      exact hkw q (h2 q (List.mem_reverse.mp hq))
    rw [this]
    rfl
  rw [key]
  rfl


/-- C100: `fmt(frame=..., marker=..., ...)` is the methods in the order frame, marker, fill, line, errorbar, text, those not given skipped, stopping at the first exception. -/
theorem C100_fmt (accepts : Call → Bool) (ax : Ax) (frame marker fill line errorbar text : Option (PyDict Str PV)) :
    ax.fmt accepts frame marker fill line errorbar text =
    ([frame.map (fun m ax => Ax.fmtFrame accepts ax m), marker.map (fun m ax => Ax.fmtMarkerKw ax m), fill.map (fun m ax => Ax.fmtFillKw ax m),
      line.map (fun m ax => Ax.fmtLine ax m), errorbar.map (fun m ax => Ax.fmtErrorbar ax m), text.map (fun m ax => Ax.fmtText ax m)].filterMap id).foldl axThen (.ok (), ax) := by
  have step : ∀ (m : Option (PyDict Str PV)) (f : Ax → PyDict Str PV → AxR) (r : AxR) (l : List (Option (Ax → AxR))),
      ((m.map (fun m ax => f ax m) :: l).filterMap id).foldl axThen r = (l.filterMap id).foldl axThen (axThen r (optStep m f)) := by
    intro m f r l
    cases m with
    | none =>
        have : axThen r (optStep none f) = r := by obtain ⟨⟨⟩ | ⟨⟩, ax⟩ := r <;> rfl
        rw [this]; rfl
    | some m => rfl
  rw [step, step, step, step, step, step]
  have assoc : ∀ (r : AxR) (f g : Ax → AxR), axThen (axThen r f) g = axThen r (fun ax => axThen (f ax) g) := by
    intro r f g; obtain ⟨⟨⟩ | ⟨⟩, ax⟩ := r <;> rfl
  simp only [List.filterMap_nil, List.foldl_nil, assoc]
  rfl

theorem del_eq_filter (d : PyDict Str PV) (k : Str) (h : d.WF) : d.del k = d.filter (fun p => decide (p.1 ≠ k)) := by
  induction d with
  | nil => rfl
  | cons p t ih =>
    obtain ⟨k', v⟩ := p
    have hn := List.nodup_cons.mp h
    rw [PyDict.del]
    by_cases hk : k' = k
    · subst hk
      rw [if_pos rfl, List.filter_cons_of_neg (by simp)]
      symm
      rw [List.filter_eq_self]
      intro q hq
      simp only [decide_eq_true_eq]
      intro he
      exact hn.1 (List.mem_map.mpr ⟨q, hq, he⟩)
    · rw [if_neg hk, List.filter_cons_of_pos (by simpa using hk), ih hn.2]

/-- C100: the dictionaries passed to `fmt` are keywords: "style", "c" and "a" (for fill "c" and "a") go to the parameters of these names (None if absent), all others, in order,
to the remaining keywords. -/
theorem C100_fmt_kw (ax : Ax) (m : PyDict Str PV) (hm : m.WF) :
    (∃ rest : PyDict Str PV, ax.fmtMarkerKw m = ax.fmtMarker ((m.get? "style".toList).getD .none) ((m.get? "c".toList).getD .none) ((m.get? "a".toList).getD .none) rest ∧
      rest = m.filter (fun p => decide (p.1 ∉ ["style".toList, "c".toList, "a".toList]))) ∧
    (∃ rest : PyDict Str PV, ax.fmtFillKw m = ax.fmtFill ((m.get? "c".toList).getD .none) ((m.get? "a".toList).getD .none) rest ∧
      rest = m.filter (fun p => decide (p.1 ∉ ["c".toList, "a".toList]))) := by
  have h1 := PyDict.WF_del m "style".toList hm
  have h2 := PyDict.WF_del _ "c".toList h1
  have h3 := PyDict.WF_del m "c".toList hm
  refine ⟨⟨_, rfl, ?_⟩, ⟨_, rfl, ?_⟩⟩
  · rw [del_eq_filter _ _ h2, del_eq_filter _ _ h1, del_eq_filter _ _ hm, List.filter_filter, List.filter_filter]
    refine List.filter_congr ?_
    intro p _
    by_cases h1 : p.1 = "style".toList <;> by_cases h2 : p.1 = "c".toList <;> by_cases h3 : p.1 = "a".toList <;> simp_all
  · rw [del_eq_filter _ _ h3, del_eq_filter _ _ hm, List.filter_filter]
    refine List.filter_congr ?_
    intro p _
    by_cases h2 : p.1 = "c".toList <;> by_cases h3 : p.1 = "a".toList <;> simp_all

/-- Spec: the colour of two settings: the colour specification as matplotlib reads it, with the alpha setting as its fourth component unless that is None. -/
def ColorOf (toRgba : PV → PyM (PV × PV × PV × PV)) (d : Fmt) (ck ak : String) (col : PV) : Prop :=
  ∃ r g b alpha, toRgba (valOr d ck.toList) = .ok (r, g, b, alpha) ∧ col = .seq [r, g, b, orKeep (valOr d ak.toList) alpha]

theorem get_valOr (d : Fmt) (k : Str) (h : k ∈ d.keys) : d.get? k = some (valOr d k) := by
  have := (PyDict.get?_isSome_iff d k).mpr h
  obtain ⟨v, hv⟩ := Option.isSome_iff_exists.mp this
  simp [valOr, hv]

theorem getItem_valOr (d : Fmt) (k : Str) (hk : '/' ∉ k) (h : k ∈ d.keys) : d.getItem k = .ok (valOr d k) := by
  rw [Fmt.getItem, if_pos hk, Fmt.direct, get_valOr d k h]

theorem color_of (toRgba : PV → PyM (PV × PV × PV × PV)) (d : Fmt) (ck ak : String) (h1 : '/' ∉ ck.toList) (h2 : '/' ∉ ak.toList) (m1 : ck.toList ∈ d.keys)
    (m2 : ak.toList ∈ d.keys) (col : PV) (h : ColorOf toRgba d ck ak col) : d.color toRgba ck.toList ak.toList = .ok col := by
  obtain ⟨r, g, b, alpha, e1, rfl⟩ := h
  exact (C88_color toRgba d _ _ h1 h2 _ _ (get_valOr d _ m1) (get_valOr d _ m2)).1 r g b alpha e1

/-- Spec: the call made by a drawing method: the given positional arguments, and as keywords the user's, and where the user gives none those of the list. -/
def DrawsAs (accepts : Call → Bool) (ax : Ax) (r : AxR) (name : String) (args : List PV) (base : List (String × PV)) (user : PyDict Str PV) : Prop :=
  ∃ kw, r = ax.draw accepts ⟨name.toList, args, kw⟩ ∧ ∀ k, PyDict.get? kw k = (user.get? k).or (PyDict.get? (base.map (fun p : String × PV => (p.1.toList, p.2))) k)

section
variable {toRgba : PV → PyM (PV × PV × PV × PV)} (accepts : Call → Bool) (ax : Ax) (h : Settings ax) (user : PyDict Str PV) (hu : user.WF)
include h

theorem lineKw_of {c : PV} (hc : ColorOf toRgba ax.line "c" "a" c) :
    lineKw toRgba ax = .ok [("c".toList, c), ("lw".toList, valOr ax.line "lw".toList), ("ls".toList, valOr ax.line "ls".toList)] := by
  simp only [lineKw, color_of toRgba ax.line "c" "a" (by decide) (by decide) (by rw [h.line]; decide) (by rw [h.line]; decide) c hc,
    getItem_valOr ax.line "lw".toList (by decide) (by rw [h.line]; decide), getItem_valOr ax.line "ls".toList (by decide) (by rw [h.line]; decide), bind, Except.bind, pure, Except.pure]

theorem markerKw_of {ce cf : PV} (he : ColorOf toRgba ax.marker "ec" "ea" ce) (hf : ColorOf toRgba ax.marker "fc" "fa" cf) :
    markerKw toRgba ax = .ok [("marker".toList, valOr ax.marker "style".toList), ("ms".toList, valOr ax.marker "s".toList), ("mew".toList, valOr ax.marker "elw".toList),
      ("mec".toList, ce), ("mfc".toList, cf)] := by
  simp only [markerKw, color_of toRgba ax.marker "ec" "ea" (by decide) (by decide) (by rw [h.marker]; decide) (by rw [h.marker]; decide) ce he,
    color_of toRgba ax.marker "fc" "fa" (by decide) (by decide) (by rw [h.marker]; decide) (by rw [h.marker]; decide) cf hf,
    getItem_valOr ax.marker "style".toList (by decide) (by rw [h.marker]; decide), getItem_valOr ax.marker "s".toList (by decide) (by rw [h.marker]; decide),
    getItem_valOr ax.marker "elw".toList (by decide) (by rw [h.marker]; decide), bind, Except.bind, pure, Except.pure]

theorem fillKw_of {ce cf : PV} (he : ColorOf toRgba ax.fill "ec" "ea" ce) (hf : ColorOf toRgba ax.fill "fc" "fa" cf) :
    fillKw toRgba ax = .ok [("ec".toList, ce), ("fc".toList, cf), ("lw".toList, valOr ax.fill "lw".toList), ("ls".toList, valOr ax.fill "ls".toList)] := by
  simp only [fillKw, color_of toRgba ax.fill "ec" "ea" (by decide) (by decide) (by rw [h.fill]; decide) (by rw [h.fill]; decide) ce he,
    color_of toRgba ax.fill "fc" "fa" (by decide) (by decide) (by rw [h.fill]; decide) (by rw [h.fill]; decide) cf hf,
    getItem_valOr ax.fill "lw".toList (by decide) (by rw [h.fill]; decide), getItem_valOr ax.fill "ls".toList (by decide) (by rw [h.fill]; decide), bind, Except.bind, pure, Except.pure]

include hu

/-- C100: `plot` passes the line's colour, width and style and the marker's style, size, edge width and colours, as they are set at the time of the call; the
user's keywords replace them. -/
theorem C100_plot (x y label c ce cf : PV) (hc : ColorOf toRgba ax.line "c" "a" c) (he : ColorOf toRgba ax.marker "ec" "ea" ce) (hf : ColorOf toRgba ax.marker "fc" "fa" cf) :
    DrawsAs accepts ax (ax.plot toRgba accepts x y label user) "plot" [x, y]
      [("c", c), ("lw", valOr ax.line "lw".toList), ("ls", valOr ax.line "ls".toList), ("marker", valOr ax.marker "style".toList), ("ms", valOr ax.marker "s".toList),
        ("mew", valOr ax.marker "elw".toList), ("mec", ce), ("mfc", cf), ("label", label)] user := by
  unfold Ax.plot Ax.drawWith
  simp only [lineKw_of ax h hc, markerKw_of ax h he hf, bind, Except.bind, pure, Except.pure]
  exact ⟨_, rfl, fun k => PyDict.get?_update _ _ _ hu⟩

/-- C100: `scatter` uses the marker settings. -/
theorem C100_scatter (x y label ce cf : PV) (he : ColorOf toRgba ax.marker "ec" "ea" ce) (hf : ColorOf toRgba ax.marker "fc" "fa" cf) :
    DrawsAs accepts ax (ax.scatter toRgba accepts x y label user) "scatter" [x, y]
      [("s", valOr ax.marker "s".toList), ("linewidths", valOr ax.marker "elw".toList), ("marker", valOr ax.marker "style".toList), ("edgecolors", ce), ("facecolors", cf),
        ("label", label)] user := by
  unfold Ax.scatter Ax.drawWith
  simp only [color_of toRgba ax.marker "ec" "ea" (by decide) (by decide) (by rw [h.marker]; decide) (by rw [h.marker]; decide) ce he,
    color_of toRgba ax.marker "fc" "fa" (by decide) (by decide) (by rw [h.marker]; decide) (by rw [h.marker]; decide) cf hf,
    getItem_valOr ax.marker "style".toList (by decide) (by rw [h.marker]; decide), getItem_valOr ax.marker "s".toList (by decide) (by rw [h.marker]; decide),
    getItem_valOr ax.marker "elw".toList (by decide) (by rw [h.marker]; decide), bind, Except.bind, pure, Except.pure]
  exact ⟨_, rfl, fun k => PyDict.get?_update _ _ _ hu⟩

/-- C100: `errorbar` uses the line, error-bar and marker settings. -/
theorem C100_errorbar (x y yerr xerr label c cb ce cf : PV) (lims : Lims) (hc : ColorOf toRgba ax.line "c" "a" c) (hb : ColorOf toRgba ax.errorbar "c" "a" cb)
    (he : ColorOf toRgba ax.marker "ec" "ea" ce) (hf : ColorOf toRgba ax.marker "fc" "fa" cf) :
    DrawsAs accepts ax (ax.errorbarDraw toRgba accepts x y yerr xerr label lims user) "errorbar" [x, y]
      [("yerr", yerr), ("xerr", xerr), ("c", c), ("lw", valOr ax.line "lw".toList), ("ls", valOr ax.line "ls".toList), ("ecolor", cb),
        ("elinewidth", valOr ax.errorbar "lw".toList), ("capsize", valOr ax.errorbar "capsize".toList), ("capthick", valOr ax.errorbar "capthick".toList),
        ("marker", valOr ax.marker "style".toList), ("ms", valOr ax.marker "s".toList), ("mew", valOr ax.marker "elw".toList), ("mec", ce), ("mfc", cf), ("label", label),
        ("lolims", lims.lo), ("uplims", lims.up), ("xlolims", lims.xlo), ("xuplims", lims.xup)] user := by
  unfold Ax.errorbarDraw Ax.drawWith
  simp only [lineKw_of ax h hc, markerKw_of ax h he hf,
    color_of toRgba ax.errorbar "c" "a" (by decide) (by decide) (by rw [h.errorbar]; decide) (by rw [h.errorbar]; decide) cb hb,
    getItem_valOr ax.errorbar "lw".toList (by decide) (by rw [h.errorbar]; decide), getItem_valOr ax.errorbar "capsize".toList (by decide) (by rw [h.errorbar]; decide),
    getItem_valOr ax.errorbar "capthick".toList (by decide) (by rw [h.errorbar]; decide), bind, Except.bind, pure, Except.pure]
  exact ⟨_, rfl, fun k => PyDict.get?_update _ _ _ hu⟩

/-- C100: `fill_between`, `stairs` and `hist` use the fill settings. -/
theorem C100_fills (ce cf : PV) (he : ColorOf toRgba ax.fill "ec" "ea" ce) (hf : ColorOf toRgba ax.fill "fc" "fa" cf) (x y1 y2 whr interpolate label step values edges orientation
    baseline fill bins range density weights histtype log align rwidth : PV) :
    DrawsAs accepts ax (ax.fillBetween toRgba accepts x y1 y2 whr interpolate label step user) "fill_between" [x, y1]
      [("y2", y2), ("ec", ce), ("fc", cf), ("lw", valOr ax.fill "lw".toList), ("ls", valOr ax.fill "ls".toList), ("where", whr), ("interpolate", interpolate), ("step", step),
        ("label", label)] user ∧
    DrawsAs accepts ax (ax.stairs toRgba accepts values edges orientation baseline fill label user) "stairs" [values, edges]
      [("orientation", orientation), ("baseline", baseline), ("fill", fill), ("label", label), ("ec", ce), ("fc", cf), ("lw", valOr ax.fill "lw".toList),
        ("ls", valOr ax.fill "ls".toList)] user ∧
    DrawsAs accepts ax (ax.hist toRgba accepts x bins range density weights histtype log align rwidth orientation user) "hist" [x]
      [("bins", bins), ("range", range), ("density", density), ("weights", weights), ("ec", ce), ("fc", cf), ("lw", valOr ax.fill "lw".toList), ("ls", valOr ax.fill "ls".toList),
        ("histtype", histtype), ("log", log), ("align", align), ("rwidth", rwidth), ("orientation", orientation)] user := by
  unfold Ax.fillBetween Ax.stairs Ax.hist Ax.drawWith
  simp only [fillKw_of ax h he hf, bind, Except.bind, pure, Except.pure]
  exact ⟨⟨_, rfl, fun k => PyDict.get?_update _ _ _ hu⟩, ⟨_, rfl, fun k => PyDict.get?_update _ _ _ hu⟩, ⟨_, rfl, fun k => PyDict.get?_update _ _ _ hu⟩⟩

/-- C100: `text` passes the coordinates and the text, in dollar signs if `use_tex` is set, in the text colour and size, positioned relative to the axes unless the
user says otherwise. -/
theorem C100_text (trans va ha x y c : PV) (content : Str) (hc : ColorOf toRgba ax.text "c" "a" c) :
    DrawsAs accepts ax (ax.textDraw toRgba accepts trans content (.seq [x, y]) va ha user) "text"
      [x, y, .str (if (valOr ax.text "use_tex".toList).truth then "$".toList ++ content ++ "$".toList else content)]
      [("transform", trans), ("color", c), ("fontsize", valOr ax.text "s".toList), ("va", va), ("ha", ha)] user := by
  unfold Ax.textDraw
  simp only [color_of toRgba ax.text "c" "a" (by decide) (by decide) (by rw [h.text]; decide) (by rw [h.text]; decide) c hc,
    getItem_valOr ax.text "s".toList (by decide) (by rw [h.text]; decide), Fmt.wrapText,
    getItem_valOr ax.text "use_tex".toList (by decide) (by rw [h.text]; decide), PV.iter, bind, Except.bind, pure, Except.pure]
  exact ⟨_, rfl, fun k => PyDict.get?_update _ _ _ hu⟩

/-- C100: coordinates given as a mapping are its keys (`*coords`), a text its characters; a number is a TypeError and nothing is drawn. -/
theorem C100_text_coords (trans va ha c : PV) (content : Str) (hc : ColorOf toRgba ax.text "c" "a" c) (es : List (Str × PV)) (q : ℚ) :
    ax.textDraw toRgba accepts trans content (.map es) va ha user = ax.textDraw toRgba accepts trans content (.seq (es.map (fun p => .str p.1))) va ha user ∧
    ax.textDraw toRgba accepts trans content (.num q) va ha user = (.error .typeError, ax) := by
  refine ⟨rfl, ?_⟩
  unfold Ax.textDraw
  simp only [color_of toRgba ax.text "c" "a" (by decide) (by decide) (by rw [h.text]; decide) (by rw [h.text]; decide) c hc,
    getItem_valOr ax.text "s".toList (by decide) (by rw [h.text]; decide), Fmt.wrapText,
    getItem_valOr ax.text "use_tex".toList (by decide) (by rw [h.text]; decide), PV.iter, bind, Except.bind, pure, Except.pure]

end

/-- C100: an invalid line colour is an exception of `plot` and `errorbar`, and nothing is drawn. -/
theorem C100_bad_color (toRgba : PV → PyM (PV × PV × PV × PV)) (accepts : Call → Bool) (ax : Ax) (h : Settings ax) (e : PyErr)
    (hc : toRgba (valOr ax.line "c".toList) = .error e) (x y l ye xe : PV) (lims : Lims) (u : PyDict Str PV) :
    ax.plot toRgba accepts x y l u = (.error e, ax) ∧ ax.errorbarDraw toRgba accepts x y ye xe l lims u = (.error e, ax) := by
  have hk : lineKw toRgba ax = .error e := by
    have := (C88_color toRgba ax.line "c".toList "a".toList (by decide) (by decide) _ _ (get_valOr ax.line _ (by rw [h.line]; decide)) (get_valOr ax.line _ (by rw [h.line]; decide))).2 e hc
    simp only [lineKw, this, bind, Except.bind]
  constructor
  · simp only [Ax.plot, Ax.drawWith, hk, bind, Except.bind]
  · simp only [Ax.errorbarDraw, Ax.drawWith, hk, bind, Except.bind]

/-- C100: a drawing call that matplotlib accepts is appended to the drawn artists and is `last_draw`; a rejected one raises and changes nothing. -/
theorem C100_last_draw (accepts : Call → Bool) (ax : Ax) (c : Call) :
    (accepts c = true → (ax.draw accepts c).1 = .ok () ∧ (ax.draw accepts c).2.lastDraw = .ok c ∧ (ax.draw accepts c).2.draws = ax.draws ++ [c]) ∧
    (accepts c = false → ax.draw accepts c = (.error .valueError, ax)) := by
  constructor
  · intro h
    simp [Ax.draw, h, Ax.lastDraw]
  · intro h
    simp [Ax.draw, h]

/-! ### C101 -/

/-- Spec: matplotlib's legend locations. -/
def validLocs : List Str := ["best", "upper right", "upper left", "lower left", "lower right", "right", "center left", "center right", "lower center", "upper center",
  "center"].map String.toList

/-- C101: the legend's location: abbreviations are expanded into valid locations; valid ones pass unchanged, except 'center left' and 'center right', which are turned
into the invalid 'cl' and 'cr' (recorded defect); there is no abbreviation for 'center right' and 'lower center'. -/
theorem C101_legend_location :
    (∀ p ∈ [("r", "right"), ("lr", "lower right"), ("ll", "lower left"), ("cl", "center left"), ("ur", "upper right"), ("ul", "upper left"), ("uc", "upper center"), ("c", "center")],
      legLoc (String.toList p.1) = p.2.toList ∧ p.2.toList ∈ validLocs) ∧
    (∀ l ∈ validLocs, l ≠ "center left".toList → l ≠ "center right".toList → legLoc l = l) ∧
    legLoc "center left".toList ∉ validLocs ∧ legLoc "center right".toList ∉ validLocs ∧ legLoc "cr".toList ∉ validLocs ∧ legLoc "lc".toList ∉ validLocs := by
  decide +kernel

/-- C101: `leg` draws one legend with the mapped location and the options; the user's keywords replace them. -/
theorem C101_legend (accepts : Call → Bool) (ax : Ax) (args : List PV) (loc : Str) (opts user : PyDict Str PV) (hu : user.WF) :
    ∃ kw, ax.leg accepts args loc opts user = ax.draw accepts ⟨"legend".toList, args, kw⟩ ∧
      ∀ k, PyDict.get? kw k = (user.get? k).or (if k = "loc".toList then some (.str (legLoc loc)) else opts.get? k) := by
  refine ⟨_, rfl, fun k => ?_⟩
  rw [PyDict.get?_update _ _ _ hu, PyDict.get?]
  by_cases hk : k = "loc".toList
  · rw [if_pos hk.symm, if_pos hk]
  · rw [if_neg (fun e => hk e.symm), if_neg hk]

/-- Spec: `lo` and `hi` at position i are y - its lower error, y + its upper error. -/
def BandOf (y : List ℚ) (el eu : Nat → ℚ) (lo hi : List ℚ) : Prop :=
  lo.length = y.length ∧ hi.length = y.length ∧ ∀ (i : Nat) (v : ℚ), y[i]? = some v → lo[i]? = some (v - el i) ∧ hi[i]? = some (v + eu i)

/-- C101: the band of `errorfill`: a number is the error on both sides of every point, a list one error per point, a pair of lists the errors below and above. -/
theorem C101_band (y : List ℚ) (q : ℚ) (l u : List ℚ) (hl : l.length = y.length) (hu : u.length = y.length) :
    (∃ lo hi, band y (.scalar q) = .ok (lo, hi) ∧ BandOf y (fun _ => q) (fun _ => q) lo hi) ∧
    (∃ lo hi, band y (.arr1 l) = .ok (lo, hi) ∧ BandOf y (fun i => l.getD i 0) (fun i => l.getD i 0) lo hi) ∧
    (∃ lo hi, band y (.arr2 [l, u]) = .ok (lo, hi) ∧ BandOf y (fun i => l.getD i 0) (fun i => u.getD i 0) lo hi) := by
  have hb : ∀ (f : ℚ → ℚ → ℚ) (e : List ℚ), e.length = y.length → bcast f y e = .ok (List.zipWith f y e) := by
    intro f e he; unfold bcast; rw [if_pos he.symm]
  have hz : ∀ (f : ℚ → ℚ → ℚ) (e : List ℚ), e.length = y.length → (List.zipWith f y e).length = y.length ∧
      ∀ (i : Nat) (v : ℚ), y[i]? = some v → (List.zipWith f y e)[i]? = some (f v (e.getD i 0)) := by
    intro f e he
    refine ⟨by simp [he], ?_⟩
    intro i v hv
    obtain ⟨hi, rfl⟩ := List.getElem?_eq_some_iff.mp hv
    rw [List.getElem?_eq_getElem (by simp [he]; omega), List.getElem_zipWith]
    rw [List.getD_eq_getElem?_getD, List.getElem?_eq_getElem (by omega)]
    rfl
  refine ⟨⟨_, _, rfl, by simp, by simp, fun i v hv => by simp [hv]⟩, ?_, ?_⟩
  · refine ⟨_, _, by simp only [band, hb _ _ hl, bind, Except.bind, pure, Except.pure], (hz _ _ hl).1, (hz _ _ hl).1, fun i v hv => ⟨(hz _ _ hl).2 i v hv, (hz _ _ hl).2 i v hv⟩⟩
  · refine ⟨_, _, by simp only [band, hb _ _ hl, hb _ _ hu, bind, Except.bind, pure, Except.pure], (hz _ _ hl).1, (hz _ _ hu).1,
      fun i v hv => ⟨(hz _ _ hl).2 i v hv, (hz _ _ hu).2 i v hv⟩⟩

/-- C101: errors that are one number in a list count for every point; errors of another length than the curve are refused with ValueError (unless one of them has length one,
numpy's broadcasting). -/
theorem C101_band_shapes (y l u : List ℚ) (q : ℚ) :
    band y (.arr1 [q]) = band y (.scalar q) ∧
    (l.length ≠ y.length → l.length ≠ 1 → y.length ≠ 1 → band y (.arr1 l) = .error .valueError ∧ band y (.arr2 [l, u]) = .error .valueError ∧
      (u.length = y.length → band y (.arr2 [u, l]) = .error .valueError)) := by
  constructor
  · have h1 : ∀ f : ℚ → ℚ → ℚ, bcast f y [q] = .ok (y.map (fun v => f v q)) := by
      intro f
      unfold bcast
      match y with
      | [] => simp
      | [v] => simp
      | v :: w :: t => simp
    simp only [band, h1, bind, Except.bind, pure, Except.pure]
  · intro h2 h3 h4
    have h1 : ∀ f : ℚ → ℚ → ℚ, bcast f y l = .error .valueError := by
      intro f
      unfold bcast
      rw [if_neg (fun e => h2 e.symm)]
      match y, l, h3, h4 with
      | [v], _, _, h => exact absurd rfl h
      | [], [q], h, _ => exact absurd rfl h
      | _ :: _ :: _, [q], h, _ => exact absurd rfl h
      | [], [], _, _ => rfl
      | [], _ :: _ :: _, _, _ => rfl
      | _ :: _ :: _, [], _, _ => rfl
      | _ :: _ :: _, _ :: _ :: _, _, _ => rfl
    refine ⟨?_, ?_, fun hu => ?_⟩
    · simp only [band, h1, bind, Except.bind]
    · simp only [band, h1, bind, Except.bind]
    · have : ∀ f : ℚ → ℚ → ℚ, bcast f y u = .ok (List.zipWith f y u) := by
        intro f; unfold bcast; rw [if_pos hu.symm]
      simp only [band, h1, this, bind, Except.bind]

/-- C101: `errorfill` draws the curve first and then the band, in the fill style, with the band's edges; if the curve is rejected nothing is drawn, if the band is
rejected the curve stays. -/
theorem C101_errorfill (toRgba : PV → PyM (PV × PV × PV × PV)) (accepts : Call → Bool) (ax : Ax) (x : PV) (y : List ℚ) (yerr : YErr) (label fl : PV) (pk : PyDict Str PV)
    (lo hi : List ℚ) (hb : band y yerr = .ok (lo, hi)) :
    ax.errorfill toRgba accepts x y yerr label fl [] pk =
      axThen (ax.plot toRgba accepts x (.seq (y.map .num)) label pk) (fun ax => ax.fillBetween toRgba accepts x (.seq (lo.map .num)) (.seq (hi.map .num)) .none (.bool false) fl .none []) := by
  unfold Ax.errorfill
  rw [hb]
  rfl

/-- C101: `fill_between_kw` reaches the band: its `where`, `interpolate`, `step` and `label` (which replaces `fill_label`), the other items as keywords. -/
theorem C101_errorfill_kw (toRgba : PV → PyM (PV × PV × PV × PV)) (accepts : Call → Bool) (ax : Ax) (x : PV) (y : List ℚ) (yerr : YErr) (label fl : PV)
    (fk pk : PyDict Str PV) (hfk : fk.WF) (lo hi : List ℚ) (hb : band y yerr = .ok (lo, hi)) :
    ∃ kw, ax.errorfill toRgba accepts x y yerr label fl fk pk =
      axThen (ax.plot toRgba accepts x (.seq (y.map .num)) label pk) (fun ax => ax.fillBetween toRgba accepts x (.seq (lo.map .num)) (.seq (hi.map .num)) (valOr fk "where".toList)
        ((fk.get? "interpolate".toList).getD (.bool false)) ((fk.get? "label".toList).getD fl) (valOr fk "step".toList) kw) ∧
      ∀ k, PyDict.get? kw k = if k ∈ ["where", "interpolate", "label", "step"].map String.toList then none else fk.get? k := by
  have hw0 : PyDict.WF [("label".toList, fl)] := by show ["label".toList].Nodup; decide
  have hw := PyDict.WF_update [("label".toList, fl)] fk hw0
  have w1 := PyDict.WF_del _ "where".toList hw
  have w2 := PyDict.WF_del _ "interpolate".toList w1
  have w3 := PyDict.WF_del _ "label".toList w2
  have hg : ∀ k, PyDict.get? (PyDict.update [("label".toList, fl)] fk) k = (fk.get? k).or (if k = "label".toList then some fl else none) := by
    intro k
    rw [PyDict.get?_update _ _ _ hfk, PyDict.get?]
    by_cases hk : k = "label".toList
    · rw [if_pos hk.symm, if_pos hk]
    · rw [if_neg (fun e => hk e.symm), if_neg hk]; rfl
  refine ⟨((((PyDict.update [("label".toList, fl)] fk).del "where".toList).del "interpolate".toList).del "label".toList).del "step".toList, ?_, ?_⟩
  · unfold Ax.errorfill
    rw [hb]
    simp only [kwVal, hg]
    have e1 : (fk.get? "where".toList).or (if "where".toList = "label".toList then some fl else none) = fk.get? "where".toList := by rw [if_neg (by decide)]; simp
    have e2 : (fk.get? "interpolate".toList).or (if "interpolate".toList = "label".toList then some fl else none) = fk.get? "interpolate".toList := by
      rw [if_neg (by decide)]; simp
    have e3 : (fk.get? "step".toList).or (if "step".toList = "label".toList then some fl else none) = fk.get? "step".toList := by rw [if_neg (by decide)]; simp
    have e4 : ((fk.get? "label".toList).or (if True then some fl else none)).getD .none = (fk.get? "label".toList).getD fl := by
      rw [if_pos trivial]; cases fk.get? "label".toList <;> rfl
    rw [e1, e2, e3, e4]
    rfl
  · intro k
    rw [PyDict.get?_del _ _ _ w3, PyDict.get?_del _ _ _ w2, PyDict.get?_del _ _ _ w1, PyDict.get?_del _ _ _ hw, hg]
    by_cases h4 : k = "step".toList
    · rw [if_pos h4, if_pos (by rw [h4]; decide)]
    rw [if_neg h4]
    by_cases h3 : k = "label".toList
    · rw [if_pos h3, if_pos (by rw [h3]; decide)]
    rw [if_neg h3]
    by_cases h2 : k = "interpolate".toList
    · rw [if_pos h2, if_pos (by rw [h2]; decide)]
    rw [if_neg h2]
    by_cases h1 : k = "where".toList
    · rw [if_pos h1, if_pos (by rw [h1]; decide)]
    rw [if_neg h1, if_neg h3, Option.or_none, if_neg]
    simp only [List.map_cons, List.map_nil, List.mem_cons, List.not_mem_nil, or_false, not_or]
    exact ⟨h1, h2, h3, h4⟩

/-- C101 (recorded defect): with the default `yerr=None`, `errorfill` always raises TypeError and draws nothing; so does (with ValueError) a two-dimensional error without two
rows. -/
theorem C101_errorfill_default (toRgba : PV → PyM (PV × PV × PV × PV)) (accepts : Call → Bool) (ax : Ax) (x : PV) (y : List ℚ) (label fl : PV) (fk pk : PyDict Str PV)
    (rows : List (List ℚ)) (hr : rows.length ≠ 2) :
    ax.errorfill toRgba accepts x y .none label fl fk pk = (.error .typeError, ax) ∧ ax.errorfill toRgba accepts x y (.arr2 rows) label fl fk pk = (.error .valueError, ax) := by
  refine ⟨rfl, ?_⟩
  have : band y (.arr2 rows) = .error .valueError := by
    match rows, hr with
    | [], _ => rfl
    | [_], _ => rfl
    | [_, _], h => exact absurd rfl h
    | _ :: _ :: _ :: _, _ => rfl
  unfold Ax.errorfill
  rw [this]

/-! ### C102 -/

theorem visitList_append (f : Nat → (Nat → Ax) → PyM Unit × (Nat → Ax)) (a b : List AxArr) (w : Nat → Ax) :
    AxArr.visitList f (a ++ b) w = match AxArr.visitList f a w with
      | (.ok (), w') => AxArr.visitList f b w'
      | (.error e, w') => (.error e, w') := by
  induction a generalizing w with
  | nil => rw [AxArr.visitList]; rfl
  | cons x a ih =>
      rw [List.cons_append, AxArr.visitList, AxArr.visitList]
      rcases AxArr.visit f x w with ⟨⟨⟩ | ⟨⟩, w'⟩
      · rfl
      · exact ih w'

/-- Spec: `f` for each number in order, stopping at the first exception. -/
def eachOf (f : Nat → (Nat → Ax) → PyM Unit × (Nat → Ax)) : List Nat → (Nat → Ax) → PyM Unit × (Nat → Ax)
  | [], w => (.ok (), w)
  | i :: t, w => match f i w with
      | (.ok (), w') => eachOf f t w'
      | (.error e, w') => (.error e, w')

theorem eachOf_append (f : Nat → (Nat → Ax) → PyM Unit × (Nat → Ax)) (a b : List Nat) (w : Nat → Ax) :
    eachOf f (a ++ b) w = match eachOf f a w with
      | (.ok (), w') => eachOf f b w'
      | (.error e, w') => (.error e, w') := by
  induction a generalizing w with
  | nil => rfl
  | cons x a ih =>
      rw [List.cons_append, eachOf, eachOf]
      rcases f x w with ⟨⟨⟩ | ⟨⟩, w'⟩
      · rfl
      · exact ih w'

mutual
theorem visit_eq (f : Nat → (Nat → Ax) → PyM Unit × (Nat → Ax)) (a : AxArr) (w : Nat → Ax) : AxArr.visit f a w = eachOf f a.flat w := by
  cases a with
  | one i =>
      rw [AxArr.visit, AxArr.flat, eachOf]
      rcases f i w with ⟨⟨⟩ | ⟨⟩, w'⟩ <;> rfl
  | sub l => rw [AxArr.visit, AxArr.flat]; exact visitList_eq f l w
theorem visitList_eq (f : Nat → (Nat → Ax) → PyM Unit × (Nat → Ax)) (l : List AxArr) (w : Nat → Ax) :
    AxArr.visitList f l w = eachOf f (l.map AxArr.flat).flatten w := by
  cases l with
  | nil => rw [AxArr.visitList]; rfl
  | cons a t =>
      rw [AxArr.visitList, List.map_cons, List.flatten_cons, eachOf_append, visit_eq f a w]
      rcases eachOf f a.flat w with ⟨⟨⟩ | ⟨⟩, w'⟩
      · rfl
      · exact visitList_eq f t w'
end

/-- C102: a method of an array of axes, of any number of dimensions and any shape, is the method of each of its axes in C order, each exactly as often as it is in the
array, stopping at the first exception. -/
theorem C102_all (m : Ax → AxR) (l : List AxArr) (w : Nat → Ax) : (AxArr.sub l).all m w = eachOf (onAx m) (AxArr.sub l).flat w := by
  rw [AxArr.all, AxArr.items]
  simp only
  rw [visitList_eq, AxArr.flat]

/-- C102: if the axes are distinct and the method succeeds on each, afterwards each axes of the array is the method's result and the others are unchanged. -/
theorem C102_effect (m : Ax → AxR) (l : List AxArr) (w : Nat → Ax) (hd : (AxArr.sub l).flat.Nodup) (hok : ∀ i ∈ (AxArr.sub l).flat, (m (w i)).1 = .ok ()) :
    ((AxArr.sub l).all m w).1 = .ok () ∧ ∀ j, ((AxArr.sub l).all m w).2 j = if j ∈ (AxArr.sub l).flat then (m (w j)).2 else w j := by
  rw [C102_all]
  generalize (AxArr.sub l).flat = is at hd hok
  induction is generalizing w with
  | nil => exact ⟨rfl, fun j => by simp [eachOf]⟩
  | cons i t ih =>
      have h1 := hok i (by simp)
      rw [List.nodup_cons] at hd
      have he : eachOf (onAx m) (i :: t) w = eachOf (onAx m) t (onAx m i w).2 := by
        rw [eachOf]
        have : (onAx m i w).1 = .ok () := h1
        rcases ho : onAx m i w with ⟨⟨⟩ | ⟨⟩, w'⟩
        · rw [ho] at this; cases this
        · rfl
      have hw : ∀ j, j ≠ i → (onAx m i w).2 j = w j := fun j hj => by simp [onAx, hj]
      have hi : (onAx m i w).2 i = (m (w i)).2 := by simp [onAx]
      obtain ⟨g1, g2⟩ := ih (onAx m i w).2 hd.2 (fun j hj => by rw [hw j (by rintro rfl; exact hd.1 hj)]; exact hok j (by simp [hj]))
      rw [he]
      refine ⟨g1, fun j => ?_⟩
      rw [g2 j]
      by_cases hj : j ∈ t
      · have hji : j ≠ i := by rintro rfl; exact hd.1 hj
        rw [if_pos hj, hw j hji, if_pos (by simp [hj])]
      · rw [if_neg hj]
        by_cases hji : j = i
        · subst hji; rw [hi, if_pos (by simp)]
        · rw [hw j hji, if_neg (by simp [hj, hji])]

/-- C102: a 0-dimensional array has no length and cannot be iterated: every method is a TypeError. -/
theorem C102_zero_dim (m : Ax → AxR) (i : Nat) (w : Nat → Ax) : (AxArr.one i).all m w = (.error .typeError, w) := rfl

/-- Example: a 2 × 2 array. -/
example : (AxArr.sub [.sub [.one 0, .one 1], .sub [.one 2, .one 3]]).flat = [0, 1, 2, 3] := by simp [AxArr.flat]

end Pyhipp.Plot
