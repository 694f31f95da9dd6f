import Verif.Model.Stats
import Verif.Lemmas.NpInterp
import Mathlib.Analysis.SpecialFunctions.Log.Base
import Mathlib.MeasureTheory.Measure.Lebesgue.VolumeOfBalls
/-
Properties C50-C53, C56, C94, C95: bootstrap, standardisation, probability transform, kernels,
random number generators and noise.
-/
set_option linter.unusedSectionVars false
set_option linter.unusedVariables false
set_option linter.unusedSimpArgs false
namespace Pyhipp.Stats
open Pyhipp Reduction

/-! ### C50: Bootstrap -/
section C50
variable {σ β κ : Type}

theorem takeIds_ok (v : List β) (ids : List Nat) (h : ∀ j ∈ ids, j < v.length) :
    takeIds v ids = .ok (ids.filterMap (fun j => v[j]?)) := by
  induction ids with
  | nil => rfl
  | cons a t ih =>
      have ha := h a (by simp)
      have := ih (fun j hj => h j (by simp [hj]))
      simp only [takeIds, List.mapM_cons] at this ⊢
      rw [List.getElem?_eq_getElem ha]
      simp only [pure_bind, bind, Except.bind, this, pure, Except.pure]
      simp [ha]

theorem filterMap_some (v : List β) (ids : List Nat) (h : ∀ j ∈ ids, j < v.length) :
    (ids.filterMap (fun j => v[j]?)).map some = ids.map (fun j => v[j]?) := by
  induction ids with
  | nil => rfl
  | cons a t ih =>
      have ha := h a (by simp)
      simp [ha, ih (fun j hj => h j (by simp [hj]))]

theorem resampleCols_some (choice : Nat → Nat → σ → List Nat × σ) (maxN : Int) (ids : List Nat)
    (cols : List (String × List β)) (out : PyDict String (List β)) (s : σ)
    (h : ∀ kv ∈ cols, ∀ j ∈ ids, j < kv.2.length) :
    resampleCols choice maxN (some ids) cols (out, s) =
      .ok (out.update (cols.map (fun kv => (kv.1, ids.filterMap (fun j => kv.2[j]?)))), s) := by
  induction cols generalizing out with
  | nil => rfl
  | cons c t ih =>
      obtain ⟨k, v⟩ := c
      have := takeIds_ok v ids (h (k, v) (by simp))
      simp only [resampleCols, bind, Except.bind, this, pure, Except.pure]
      rw [ih _ (fun kv hkv => h kv (by simp [hkv]))]
      rfl

/-- numpy's contract for `choice(n, size)`: `size` indices below `n`. -/
def ChoiceOK (choice : Nat → Nat → σ → List Nat × σ) : Prop :=
  ∀ n k s, k ≤ n → (choice n k s).1.length = k ∧ ∀ i ∈ (choice n k s).1, i < n

theorem resampleCols_none (choice : Nat → Nat → σ → List Nat × σ) (hc : ChoiceOK choice) (maxN : Int)
    (hm : 0 ≤ maxN) (d : PyDict String (List β)) (out : PyDict String (List β)) (s : σ) (n : Nat)
    (h : ∀ kv ∈ d, kv.2.length = n) :
    ∃ (ids : List Nat) (s' : σ), resampleCols choice maxN none d (out, s) =
        .ok (out.update (d.map (fun kv => (kv.1, ids.filterMap (fun j => kv.2[j]?)))), s') ∧
      (d ≠ [] → (ids.length : Int) = min (n : Int) maxN) ∧ ∀ j ∈ ids, j < n := by
  rcases d with _ | ⟨⟨k, v⟩, t⟩
  · exact ⟨[], s, rfl, by simp, by simp⟩
  · have hv : v.length = n := h (k, v) (by simp)
    obtain ⟨c1, c2⟩ := hc n (min (n : Int) maxN).toNat s (by omega)
    refine ⟨(choice n (min (n : Int) maxN).toNat s).1, (choice n (min (n : Int) maxN).toNat s).2,
      ?_, fun _ => by rw [c1]; omega, c2⟩
    have htk := takeIds_ok v (choice n (min (n : Int) maxN).toNat s).1 (by rw [hv]; exact c2)
    simp only [resampleCols, hv, Int.toNat_natCast]
    rw [if_neg (by omega)]
    simp only [bind, Except.bind, htk]
    rw [resampleCols_some]
    · rfl
    · intro kv hkv j hj
      rw [h kv (by simp [hkv])]; exact c2 j hj

theorem update_append (d a b : PyDict String β) : d.update (a ++ b) = (d.update a).update b := by
  simp [PyDict.update, List.foldl_append]

theorem resampleSets_spec (choice : Nat → Nat → σ → List Nat × σ) (hc : ChoiceOK choice)
    (l : List (PyDict String (List β) × Int)) (hl : ∀ q ∈ l, 0 ≤ q.2)
    (hn : ∀ q ∈ l, ∃ n, ∀ kv ∈ q.1, kv.2.length = n)
    (out : PyDict String (List β)) (s : σ) :
    ∃ (ids : List (List Nat)) (s' : σ), ids.length = l.length ∧
      resampleSets choice l (out, s) = .ok (out.update ((l.zip ids).flatMap (fun q =>
        q.1.1.map (fun kv => (kv.1, q.2.filterMap (fun j => kv.2[j]?))))), s') ∧
      ∀ i (h : i < l.length) (h' : i < ids.length), ∀ kv ∈ (l[i]).1,
        ((ids[i]).length : Int) = min (kv.2.length : Int) (l[i]).2 ∧ ∀ j ∈ ids[i], j < kv.2.length := by
  induction l generalizing out s with
  | nil => exact ⟨[], s, rfl, rfl, by simp⟩
  | cons q t ih =>
      obtain ⟨d, maxN⟩ := q
      obtain ⟨n, hn0⟩ := hn (d, maxN) (by simp)
      obtain ⟨ids0, s1, e1, e2, e3⟩ := resampleCols_none choice hc maxN (hl (d, maxN) (by simp)) d out s n hn0
      obtain ⟨ids, s2, f1, f2, f3⟩ := ih (fun q hq => hl q (by simp [hq])) (fun q hq => hn q (by simp [hq]))
        (out.update (d.map (fun kv => (kv.1, ids0.filterMap (fun j => kv.2[j]?))))) s1
      refine ⟨ids0 :: ids, s2, by simp [f1], ?_, ?_⟩
      · simp only [resampleSets, bind, Except.bind, e1, f2]
        rw [List.zip_cons_cons, List.flatMap_cons, update_append]
      · intro i h h' kv hkv
        rcases i with _ | i
        · simp only [List.getElem_cons_zero] at hkv ⊢
          rw [hn0 kv hkv]
          exact ⟨e2 (List.ne_nil_of_mem hkv), e3⟩
        · simp only [List.getElem_cons_succ] at hkv ⊢
          exact f3 i (by simpa using h) (by simpa using h') kv hkv

/-- C50: a list of maximum sizes that does not have one entry per data set is an AssertionError. -/
theorem C50_reject (choice : Nat → Nat → σ → List Nat × σ) (dsets : List (PyDict String (List β)))
    (l : List Int) (s : σ) (h : l.length ≠ dsets.length) :
    resample choice dsets (some l) s = .error .assertionError := by
  have : (l.length == dsets.length) = false := by simpa using h
  simp [resample, pyAssert, this, bind, Except.bind]

example : ([3, 4] : List Int).length ≠ ([[("a", [1, 2])]] : List (PyDict String (List Nat))).length := by decide

/-- C50: one resample.  For columns of equal length per data set, non-negative maximum sizes (one
per data set; default 2^60) and no column name used twice, the call succeeds, and there is ONE index
list per data set such that every column `v` of data set `i` comes out as `v[ids_i]`: same rows for
all columns, `min(n, max)` of them, all existing rows of the input.  Nothing else is passed on. -/
theorem C50_resample (choice : Nat → Nat → σ → List Nat × σ) (hc : ChoiceOK choice)
    (dsets : List (PyDict String (List β))) (maxs : Option (List Int)) (s : σ)
    (hmax : ∀ l, maxs = some l → l.length = dsets.length ∧ ∀ m ∈ l, 0 ≤ m)
    (hn : ∀ d ∈ dsets, ∃ n, ∀ kv ∈ d, kv.2.length = n)
    (hdist : (dsets.flatMap (fun d => d.map (fun kv => kv.1))).Nodup) :
    ∃ (out : PyDict String (List β)) (s' : σ) (ids : List (List Nat)),
      resample choice dsets maxs s = .ok (out, s') ∧ ids.length = dsets.length ∧
      out.map (fun kv => kv.1) = dsets.flatMap (fun d => d.map (fun kv => kv.1)) ∧
      ∀ i (h : i < dsets.length) (h' : i < ids.length), ∀ k v, (k, v) ∈ dsets[i] →
        ((ids[i]).length : Int) = min (v.length : Int) (maxs.elim (2 ^ 60) (fun l => l.getD i 0)) ∧
        (∀ j ∈ ids[i], j < v.length) ∧
        ∃ col, out.get? k = some col ∧ col.map some = (ids[i]).map (fun j => v[j]?) := by
  set ms := maxs.getD (dsets.map (fun _ => 2 ^ 60)) with hms
  have hml : ms.length = dsets.length := by
    rcases maxs with _ | l
    · simp [hms]
    · simpa [hms] using (hmax l rfl).1
  have hm0 : ∀ m ∈ ms, 0 ≤ m := by
    rcases maxs with _ | l
    · intro m hm
      simp [hms] at hm
      rw [hm.2]; norm_num
    · simpa [hms] using (hmax l rfl).2
  obtain ⟨ids, s', e1, e2, e3⟩ := resampleSets_spec choice hc (dsets.zip ms)
    (fun q hq => hm0 _ (List.of_mem_zip hq).2) (fun q hq => hn _ (List.of_mem_zip hq).1) [] s
  have hzl : (dsets.zip ms).length = dsets.length := by simp [hml]
  set F := ((dsets.zip ms).zip ids).flatMap (fun q =>
        q.1.1.map (fun kv => (kv.1, q.2.filterMap (fun j => kv.2[j]?)))) with hF
  have hkeys : F.map (fun kv => kv.1) = dsets.flatMap (fun d => d.map (fun kv => kv.1)) := by
    have e : dsets = ((dsets.zip ms).zip ids).map (fun q => q.1.1) := by
      have h1 : ((dsets.zip ms).zip ids).map (fun q => q.1) = dsets.zip ms :=
        List.map_fst_zip (by omega)
      have h2 : (dsets.zip ms).map (fun q => q.1) = dsets := List.map_fst_zip (by omega)
      conv_lhs => rw [← h2, ← h1, List.map_map]
      rfl
    conv_rhs => rw [e, List.flatMap_map]
    rw [hF, List.map_flatMap]
    congr 1
    funext q
    simp
  have hwf : PyDict.WF F := by unfold PyDict.WF PyDict.keys; rw [hkeys]; exact hdist
  rw [PyDict.update_nil F hwf] at e2
  refine ⟨F, s', ids, ?_, by omega, hkeys, ?_⟩
  · simp only [resample, ← hms, hml, beq_self_eq_true, pyAssert, if_true, bind, Except.bind, e2]
  · intro i h h' k v hkv
    have hz : i < (dsets.zip ms).length := by omega
    have hget : (dsets.zip ms)[i] = (dsets[i], ms[i]) := by simp
    have := e3 i hz h' (k, v) (by rw [hget]; exact hkv)
    rw [hget] at this
    refine ⟨?_, this.2, _, ?_, filterMap_some v _ this.2⟩
    · rw [this.1]
      congr 1
      rcases maxs with _ | l
      · simp [hms]
      · have : i < l.length := by have := (hmax l rfl).1; omega
        simp [hms, this]
    · apply PyDict.get?_of_mem F hwf
      rw [hF, List.mem_flatMap]
      have hi : i < ((dsets.zip ms).zip ids).length := by simp; omega
      refine ⟨((dsets.zip ms).zip ids)[i], List.getElem_mem hi, ?_⟩
      simp only [List.getElem_zip, List.mem_map]
      exact ⟨(k, v), hkv, rfl⟩

/-- A trivial generator meets numpy's contract: always the first rows. -/
example : ChoiceOK (fun _ k (s : Unit) => (List.range k, s)) := by
  intro n k s hk
  exact ⟨by simp, fun i hi => by simp at hi; omega⟩
example : (∀ d ∈ ([[("x", [1, 2, 3]), ("y", [4, 5, 6])], [("z", [7])]] : List (PyDict String (List Nat))),
      ∃ n, ∀ kv ∈ d, kv.2.length = n) ∧
    (([[("x", [1, 2, 3]), ("y", [4, 5, 6])], [("z", [7])]] : List (PyDict String (List Nat))).flatMap
      (fun d => d.map (fun kv => kv.1))).Nodup := by
  refine ⟨?_, by decide⟩
  intro d hd
  simp only [List.mem_cons, List.not_mem_nil, or_false] at hd
  rcases hd with rfl | rfl
  · exact ⟨3, by simp⟩
  · exact ⟨1, by simp⟩

/-- The names written for one output key. -/
def namesOf (keep : Bool) (k : String) : List String :=
  if keep then [k, k ++ "_sd", k ++ "_samples"] else [k, k ++ "_sd"]

theorem mapM_get (outs : List (PyDict String (List ℝ))) (key : String)
    (h : ∀ d ∈ outs, ∃ v, d.get? key = some v) :
    outs.mapM (fun d => getItem d key)
      = .ok (outs.map (fun d => (d.get? key).getD [])) := by
  induction outs with
  | nil => rfl
  | cons d t ih =>
      obtain ⟨v, hv⟩ := h d (by simp)
      rw [List.mapM_cons, ih (fun d hd => h d (by simp [hd]))]
      simp [getItem, bind, Except.bind, pure, Except.pure, hv]

theorem collectKey_ok (keep : Bool) (outs : List (PyDict String (List ℝ))) (key : String) (m : Nat)
    (hne : outs ≠ []) (h : ∀ d ∈ outs, ∃ v, d.get? key = some v ∧ v.length = m)
    (res : PyDict String BVal) :
    collectKey keep outs key res = .ok
      (let vals := outs.map (fun d => (d.get? key).getD [])
       let r := (res.set key (.vec (meanAndSd m vals).1)).set (key ++ "_sd") (.vec (meanAndSd m vals).2)
       if keep then r.set (key ++ "_samples") (.mat vals) else r) := by
  unfold collectKey
  rw [mapM_get outs key (fun d hd => (h d hd).imp fun v hv => hv.1)]
  have hl : ∀ v ∈ outs.map (fun d => (d.get? key).getD []), v.length = m := by
    intro v hv
    obtain ⟨d, hd, rfl⟩ := List.mem_map.mp hv
    obtain ⟨v, h1, h2⟩ := h d hd
    rw [h1]; exact h2
  have hh : ((outs.map (fun d => (d.get? key).getD [])).headD []).length = m := by
    rcases outs with _ | ⟨d, t⟩
    · exact absurd rfl hne
    · exact hl _ (by simp)
  simp only [bind, Except.bind, hh]
  rw [if_pos (by simpa using hl)]
  rfl

theorem collect_fold (keep : Bool) (outs : List (PyDict String (List ℝ))) (hne : outs ≠ [])
    (keys : List String) (hk : ∀ key ∈ keys, ∃ m, ∀ d ∈ outs, ∃ v, d.get? key = some v ∧ v.length = m)
    (hnd : (keys.flatMap (namesOf keep)).Nodup) (res : PyDict String BVal) :
    ∃ res', keys.foldlM (fun res key => collectKey keep outs key res) res = .ok res' ∧
      (∀ k, k ∉ keys.flatMap (namesOf keep) → res'.get? k = res.get? k) ∧
      ∀ key ∈ keys, ∀ m, (∀ d ∈ outs, ∃ v, d.get? key = some v ∧ v.length = m) →
        res'.get? key = some (.vec (meanAndSd m (outs.map (fun d => (d.get? key).getD []))).1) ∧
        res'.get? (key ++ "_sd") = some (.vec (meanAndSd m (outs.map (fun d => (d.get? key).getD []))).2) ∧
        (keep = true → res'.get? (key ++ "_samples") =
          some (.mat (outs.map (fun d => (d.get? key).getD [])))) := by
  induction keys generalizing res with
  | nil => exact ⟨res, rfl, fun _ _ => rfl, by simp⟩
  | cons key t ih =>
      obtain ⟨m, hm⟩ := hk key (by simp)
      rw [List.flatMap_cons, List.nodup_append] at hnd
      obtain ⟨n1, n2, n3⟩ := hnd
      have e := collectKey_ok keep outs key m hne hm res
      simp only at e
      obtain ⟨res', r1, r2, r3⟩ := ih (fun k hk' => hk k (by simp [hk'])) n2
        (if keep then ((res.set key (.vec (meanAndSd m (outs.map (fun d => (d.get? key).getD []))).1)).set
          (key ++ "_sd") (.vec (meanAndSd m (outs.map (fun d => (d.get? key).getD []))).2)).set
          (key ++ "_samples") (.mat (outs.map (fun d => (d.get? key).getD []))) else
          (res.set key (.vec (meanAndSd m (outs.map (fun d => (d.get? key).getD []))).1)).set
          (key ++ "_sd") (.vec (meanAndSd m (outs.map (fun d => (d.get? key).getD []))).2))
      refine ⟨res', ?_, ?_, ?_⟩
      · rw [List.foldlM_cons, e]
        simp only [bind, Except.bind]
        exact r1
      · intro k hk'
        rw [List.flatMap_cons, List.mem_append, not_or] at hk'
        rw [r2 k hk'.2]
        have := hk'.1
        cases keep <;> simp [namesOf] at this ⊢ <;> simp [PyDict.get?_set, this]
      · intro key' hkey' m' hm'
        rcases List.mem_cons.mp hkey' with rfl | hkt
        · have hmm : m' = m := by
            obtain ⟨d, hd⟩ := List.exists_mem_of_ne_nil _ hne
            obtain ⟨v, h1, h2⟩ := hm d hd
            obtain ⟨v', h1', h2'⟩ := hm' d hd
            rw [h1] at h1'; cases h1'; omega
          subst hmm
          have hnot : ∀ k ∈ namesOf keep key', k ∉ t.flatMap (namesOf keep) := fun k hk1 hk2 =>
            n3 k hk1 k hk2 rfl
          cases keep
          · simp only [namesOf, Bool.false_eq_true, if_false] at n1 hnot ⊢
            rw [r2 _ (hnot _ (by simp)), r2 _ (hnot (key' ++ "_sd") (by simp))]
            simp at n1
            simp [PyDict.get?_set, n1]
          · simp only [namesOf, if_true] at n1 hnot ⊢
            rw [r2 _ (hnot _ (by simp)), r2 _ (hnot (key' ++ "_sd") (by simp)),
              r2 _ (hnot (key' ++ "_samples") (by simp))]
            simp at n1
            simp [PyDict.get?_set, n1]
        · exact r3 key' hkt m' hm'

theorem setdefault_fold (first : PyDict String (List ℝ)) (hw : first.WF) (res : PyDict String BVal)
    (k : String) :
    (first.foldl (fun (res : PyDict String BVal) kv => if res.has kv.1 then res else res.set kv.1 (.vec kv.2)) res).get? k
      = (res.get? k).or ((first.get? k).map BVal.vec) := by
  induction first generalizing res with
  | nil => simp
  | cons kv t ih =>
      obtain ⟨k0, v0⟩ := kv
      have hw' : PyDict.WF t := by
        unfold PyDict.WF at hw ⊢; simp at hw; exact hw.2
      have hk0 : PyDict.get? t k0 = none := by
        rw [PyDict.get?_eq_none_iff]
        unfold PyDict.WF at hw; simp at hw
        exact hw.1
      rw [List.foldl_cons, ih hw']
      by_cases hh : res.has k0
      · rw [if_pos hh]
        by_cases hk : k0 = k
        · subst hk
          have : (res.get? k0).isSome := hh
          obtain ⟨b, hb⟩ := Option.isSome_iff_exists.mp this
          simp [hb]
        · simp [PyDict.get?, hk]
      · rw [if_neg hh, PyDict.get?_set]
        by_cases hk : k0 = k
        · subst hk
          have : res.get? k0 = none := by
            simpa [PyDict.has] using hh
          simp [this, PyDict.get?]
        · simp [PyDict.get?, hk, Ne.symm hk]

/-- C50: the result.  When every resample produced, for each output key, an array of one common
size `m key`, and the written names do not collide, then for each output key the result holds the
mean and the (population) standard deviation over the resamples, entry by entry, the samples
themselves iff requested, and every other entry of the first sample unchanged; nothing else. -/
theorem C50_output (keysOut : List String) (keep : Bool) (first : PyDict String (List ℝ))
    (rest : List (PyDict String (List ℝ))) (hfirst : first.WF) (m : String → Nat)
    (hk : ∀ key ∈ keysOut, ∀ d ∈ first :: rest, ∃ v, d.get? key = some v ∧ v.length = m key)
    (hnd : (keysOut.flatMap (namesOf keep)).Nodup) :
    ∃ res, collect keysOut keep (first :: rest) = .ok res ∧
      (∀ key ∈ keysOut, ∃ mean sd, res.get? key = some (.vec mean) ∧
        res.get? (key ++ "_sd") = some (.vec sd) ∧ mean.length = m key ∧ sd.length = m key ∧
        (∀ j < m key, ∃ vals : List ℝ,
          vals = (first :: rest).map (fun d => ((d.get? key).getD []).getD j 0) ∧
          mean[j]? = some (vals.sum / (vals.length : ℝ)) ∧
          sd[j]? = some (Real.sqrt ((vals.map (fun a => (a - vals.sum / (vals.length : ℝ)) ^ 2)).sum
            / (vals.length : ℝ)))) ∧
        (keep = true → res.get? (key ++ "_samples") =
          some (.mat ((first :: rest).map (fun d => (d.get? key).getD []))))) ∧
      ∀ k, k ∉ keysOut.flatMap (namesOf keep) → res.get? k = (first.get? k).map BVal.vec := by
  obtain ⟨res', r1, r2, r3⟩ := collect_fold keep (first :: rest) (by simp) keysOut
    (fun key h => ⟨m key, hk key h⟩) hnd []
  refine ⟨_, by simp only [collect, r1, bind, Except.bind, pure, Except.pure]; rfl, ?_, ?_⟩
  · intro key hkey
    obtain ⟨a, b, c⟩ := r3 key hkey (m key) (hk key hkey)
    refine ⟨_, _, by rw [setdefault_fold first hfirst, a]; rfl, by rw [setdefault_fold first hfirst, b]; rfl,
      by simp [meanAndSd], by simp [meanAndSd], ?_, fun h => by rw [setdefault_fold first hfirst, c h]; rfl⟩
    intro j hj
    refine ⟨_, rfl, ?_, ?_⟩
    · simp [meanAndSd, hj, npMean, column, Function.comp_def]
    · simp [meanAndSd, hj, npMean, npStd, column, Function.comp_def]
  · intro k hk'
    rw [setdefault_fold first hfirst, r2 k hk']
    simp

example : (["a", "b"].flatMap (namesOf true)).Nodup := by decide

/-- C50: a result without an output key that was asked for is a KeyError (asked for first; the other keys are present in `C50_output`). -/
theorem C50_missing_key (keep : Bool) (key : String) (keysOut : List String) (pre : List (PyDict String (List ℝ))) (bad : PyDict String (List ℝ))
    (post : List (PyDict String (List ℝ))) (hpre : ∀ d ∈ pre, ∃ v, d.get? key = some v) (hbad : bad.get? key = none) :
    collect (key :: keysOut) keep (pre ++ bad :: post) = .error .keyError := by
  have : (pre ++ bad :: post).mapM (fun d => getItem d key) = .error .keyError := by
    induction pre with
    | nil => simp [getItem, hbad, bind, Except.bind]
    | cons d pre ih =>
        obtain ⟨v, hv⟩ := hpre d (by simp)
        rw [List.cons_append, List.mapM_cons, ih (fun d hd => hpre d (by simp [hd]))]
        simp [getItem, hv, bind, Except.bind]
  simp only [collect, List.foldlM_cons, collectKey, this, bind, Except.bind]

/-- C50: the rows drawn for the first column of a data set are taken from all its columns; a column with fewer rows than a drawn index is an IndexError. -/
theorem C50_short_column (choice : Nat → Nat → σ → List Nat × σ) (k k' : String) (v v' : List β) (s : σ)
    (h : ∀ j ∈ (choice v.length (min (v.length : Int) (2 ^ 60)).toNat s).1, j < v.length)
    (hshort : ∃ j ∈ (choice v.length (min (v.length : Int) (2 ^ 60)).toNat s).1, v'.length ≤ j) :
    resample choice [[(k, v), (k', v')]] none s = .error .indexError := by
  have h0 : ¬ (min (v.length : Int) (2 ^ 60) < 0) := by omega
  have t1 := takeIds_ok v _ h
  have t2 : takeIds v' (choice v.length (min (v.length : Int) (2 ^ 60)).toNat s).1 = .error .indexError := by
    generalize (choice v.length (min (v.length : Int) (2 ^ 60)).toNat s).1 = ids at hshort
    unfold takeIds
    induction ids with
    | nil => obtain ⟨j, hj, -⟩ := hshort; cases hj
    | cons i ids ih =>
        rw [List.mapM_cons]
        rcases hi : v'[i]? with _ | b
        · simp [bind, Except.bind]
        · have : ∃ j ∈ ids, v'.length ≤ j := by
            obtain ⟨j, hj, hl⟩ := hshort
            rcases List.mem_cons.mp hj with rfl | hj
            · rw [List.getElem?_eq_none hl] at hi; cases hi
            · exact ⟨j, hj, hl⟩
          have := ih this
          simp only [bind, Except.bind] at this ⊢
          rw [this]
  simp only [resample, Option.getD_none, List.map_cons, List.map_nil, List.length_cons, List.length_nil, pyAssert, BEq.rfl, if_true,
    bind, Except.bind, List.zip_cons_cons, List.zip_nil_right, resampleSets, resampleCols, h0, if_false, Int.toNat_natCast]
  rw [t1]
  dsimp only
  rw [t2]

/-- A data set whose second column is shorter. -/
example : resample (fun _ m (s : Nat) => (List.range m, s)) [[("a", [1, 2, 3]), ("b", [4, 5])]] none 0 = .error .indexError :=
  C50_short_column _ _ _ _ _ _ (by decide) (by decide)

/-- C50 (recorded): with no resample at all the call ends in an IndexError. -/
theorem C50_no_resample (choice : Nat → Nat → σ → List Nat × σ)
    (statsFn : PyDict String (Arg β κ) → PyM (PyDict String (List ℝ)))
    (dsets : Src (PyDict String (List β))) (keysOut : List String) (kw : PyDict String κ)
    (n : Int) (hn : n ≤ 0) (keep : Bool) (maxs : Option (Src Int)) (s : σ) :
    resampledCall choice statsFn dsets keysOut kw n keep maxs s = .error .indexError := by
  have e : n.toNat = 0 := by omega
  have : ∀ res, ∃ r, keysOut.foldlM (fun res key => collectKey keep [] key res) res = .ok r := by
    induction keysOut with
    | nil => exact fun res => ⟨res, rfl⟩
    | cons k t ih =>
        intro res
        rw [List.foldlM_cons]
        have : ∃ r, collectKey keep [] k res = .ok r := by
          exact ⟨_, rfl⟩
        obtain ⟨r, hr⟩ := this
        rw [hr]
        exact ih r
  obtain ⟨r, hr⟩ := this []
  simp only [resampledCall, e, resampleLoop, collect, bind, Except.bind]
  rw [hr]

/-- C50 (defect, recorded): when the data sets are given as a one-shot iterator, all resamples
after the first call the statistic with the keyword arguments only, without any data. -/
theorem C50_one_shot_defect (choice : Nat → Nat → σ → List Nat × σ)
    (statsFn : PyDict String (Arg β κ) → PyM (PyDict String (List ℝ)))
    (l : List (PyDict String (List β))) (kw : PyDict String κ) (n : Nat) (s : σ)
    (outs : List (PyDict String (List ℝ)))
    (h : resampleLoop choice statsFn kw n (.oneShot l) none s = .ok outs) :
    outs.length = n ∧ ∀ o ∈ outs.tail,
      statsFn (PyDict.update [] (kw.map (fun p => (p.1, Arg.kw p.2)))) = .ok o := by
  have key : ∀ n s outs, resampleLoop choice statsFn kw n
      (.oneShot ([] : List (PyDict String (List β)))) none s = .ok outs →
      outs.length = n ∧ ∀ o ∈ outs, statsFn (PyDict.update [] (kw.map (fun p => (p.1, Arg.kw p.2)))) = .ok o := by
    intro n
    induction n with
    | zero => intro s outs h; cases h; simp
    | succ n ih =>
        intro s outs h
        simp only [resampleLoop, readOpt, Src.read, resample, resampleSets, pyAssert, bind, Except.bind,
          Option.getD_none, List.map_nil, List.length_nil, beq_self_eq_true, if_true, List.zip_nil_left] at h
        split at h
        · cases h
        · rename_i o ho
          split at h
          · cases h
          · rename_i r hr
            cases h
            obtain ⟨h1, h2⟩ := ih s _ hr
            refine ⟨by simp [h1], ?_⟩
            intro o' ho'
            rcases List.mem_cons.mp ho' with rfl | h'
            · exact ho
            · exact h2 o' h'
  rcases n with _ | n
  · cases h; simp
  · simp only [resampleLoop, readOpt, Src.read, bind, Except.bind] at h
    split at h
    · cases h
    · split at h
      · cases h
      · split at h
        · cases h
        · rename_i r hr
          cases h
          obtain ⟨h1, h2⟩ := key n _ _ hr
          exact ⟨by simp [h1], h2⟩

/-- C50 (defect, recorded): when the maximal sizes are given as a one-shot iterator, they are used up by the first resample: with more
than one resample (and at least one data set) the call raises AssertionError, unless the first resample itself fails. -/
theorem C50_one_shot_sizes_defect (choice : Nat → Nat → σ → List Nat × σ)
    (statsFn : PyDict String (Arg β κ) → PyM (PyDict String (List ℝ)))
    (l : List (PyDict String (List β))) (hl : l ≠ []) (ms : List Int) (kw : PyDict String κ) (n : Nat) (s : σ) :
    (∃ o, resampleLoop choice statsFn kw 1 (.seq l) (some (.oneShot ms)) s = .ok o) →
      resampleLoop choice statsFn kw (n + 2) (.seq l) (some (.oneShot ms)) s = .error .assertionError := by
  rintro ⟨o, ho⟩
  have h2 : ∀ s', resampleLoop choice statsFn kw (n + 1) (.seq l) (some (.oneShot [])) s' = .error .assertionError := by
    intro s'
    have : (([] : List Int).length == l.length) = false := by
      rcases l with _ | ⟨a, t⟩
      · exact absurd rfl hl
      · rfl
    simp only [resampleLoop, readOpt, Src.read, resample, bind, Except.bind, Option.getD_some, this, pyAssert, Bool.false_eq_true, if_false]
  rw [resampleLoop] at ho
  rw [resampleLoop]
  simp only [readOpt, Src.read, bind, Except.bind, pure, Except.pure] at ho ⊢
  cases hr : resample choice l (some ms) s with
  | error e => rw [hr] at ho; cases ho
  | ok q =>
      rw [hr] at ho
      simp only at ho ⊢
      split at ho
      · cases ho
      · simp only [h2]

/-- C50: the loop.  With re-iterable arguments there are exactly `n_resample` samples, each the
value of the statistic on one resample (C50_resample) plus the keyword arguments, which win over a
column of the same name. -/
theorem C50_loop (choice : Nat → Nat → σ → List Nat × σ)
    (statsFn : PyDict String (Arg β κ) → PyM (PyDict String (List ℝ)))
    (l : List (PyDict String (List β))) (ms : Option (List Int)) (kw : PyDict String κ) (hkw : kw.WF)
    (n : Nat) (s : σ) (outs : List (PyDict String (List ℝ)))
    (h : resampleLoop choice statsFn kw n (.seq l) (ms.map Src.seq) s = .ok outs) :
    outs.length = n ∧ ∀ o ∈ outs, ∃ s0 inp s1 args, resample choice l ms s0 = .ok (inp, s1) ∧
      statsFn args = .ok o ∧
      ∀ k, args.get? k = ((kw.get? k).map Arg.kw).or ((inp.get? k).map Arg.col) := by
  induction n generalizing s outs with
  | zero => cases h; simp
  | succ n ih =>
      have hs : readOpt (ms.map Src.seq) = (ms, ms.map Src.seq) := by
        rcases ms with _ | m <;> rfl
      simp only [resampleLoop, Src.read, hs, bind, Except.bind] at h
      split at h
      · cases h
      · rename_i q hq
        split at h
        · cases h
        · rename_i o ho
          split at h
          · cases h
          · rename_i r hr
            cases h
            obtain ⟨h1, h2⟩ := ih _ _ hr
            refine ⟨by simp [h1], ?_⟩
            intro o' ho'
            rcases List.mem_cons.mp ho' with rfl | h'
            · refine ⟨_, _, _, _, hq, ho, fun k => ?_⟩
              rw [PyDict.get?_update _ _ _ (by
                unfold PyDict.WF at hkw ⊢; rw [PyDict.keys_map]; exact hkw),
                PyDict.get?_map, PyDict.get?_map]
            · exact h2 o' h'

end C50

/-! ### C51: Standardize -/
section C51

theorem standardize_zip (d : Nat) (train : List (List ℝ)) (lb : ℝ) :
    (standardizeInit d train lb).1.zip (standardizeInit d train lb).2 =
      (List.range d).map (fun j => (npMean (column train j), max (npStd (column train j)) lb)) := by
  simp only [standardizeInit]
  rw [List.zip_map', ]

theorem roundtrip_aux (f g : ℝ → ℝ × ℝ → ℝ) (h : ∀ a q, 0 < q.2 → f (g a q) q = a)
    (x : List ℝ) (L : List (ℝ × ℝ)) (hl : x.length = L.length) (hL : ∀ q ∈ L, 0 < q.2) :
    List.zipWith f (List.zipWith g x L) L = x := by
  induction x generalizing L with
  | nil => simp
  | cons a t ih =>
      rcases L with _ | ⟨q, L⟩
      · simp at hl
      · simp only [List.zipWith_cons_cons]
        rw [h a q (hL q (by simp)), ih L (by simpa using hl) (fun q hq => hL q (by simp [hq]))]

/-- C51: forward and backward transforms are inverse to each other for every row of `d` numbers,
for every training set, whenever `sd_lb > 0`. -/
theorem C51_roundtrip (d : Nat) (train : List (List ℝ)) (lb : ℝ) (hlb : 0 < lb) (x : List ℝ)
    (hx : x.length = d) :
    standardizeBwd (standardizeInit d train lb) (standardizeFwd (standardizeInit d train lb) x) = x ∧
    standardizeFwd (standardizeInit d train lb) (standardizeBwd (standardizeInit d train lb) x) = x := by
  have hL : ∀ q ∈ (List.range d).map (fun j => (npMean (column train j),
      max (npStd (column train j)) lb)), 0 < q.2 := by
    intro q hq
    obtain ⟨j, -, rfl⟩ := List.mem_map.mp hq
    exact lt_max_of_lt_right hlb
  unfold standardizeBwd standardizeFwd
  rw [standardize_zip]
  constructor
  · exact roundtrip_aux _ _ (fun a q hq => by field_simp; ring) x _ (by simp [hx]) hL
  · exact roundtrip_aux _ _ (fun a q hq => by field_simp; ring) x _ (by simp [hx]) hL

theorem fwd_column (d : Nat) (train : List (List ℝ)) (lb : ℝ) (j : Nat) (hj : j < d)
    (rows : List (List ℝ)) (hrow : ∀ r ∈ rows, r.length = d) :
    column (rows.map (standardizeFwd (standardizeInit d train lb))) j =
      (column rows j).map (fun a => (a - npMean (column train j)) / max (npStd (column train j)) lb) := by
  simp only [column, List.map_map]
  apply List.map_congr_left
  intro r hr
  have hl := hrow r hr
  simp only [Function.comp]
  unfold standardizeFwd
  rw [standardize_zip]
  have h1 : j < (List.zipWith (fun a (q : ℝ × ℝ) => (a - q.1) / q.2) r ((List.range d).map
      (fun j => (npMean (column train j), max (npStd (column train j)) lb)))).length := by
    simp [hl, hj]
  rw [getD_lt _ _ _ h1, getD_lt r j 0 (by omega)]
  simp [column]

theorem npMean_affine (x : List ℝ) (hne : x ≠ []) (a c : ℝ) :
    npMean (x.map (fun v => (v - a) * c)) = (npMean x - a) * c := by
  have hn : (x.length : ℝ) ≠ 0 := by
    have := List.length_pos_iff.mpr hne
    exact_mod_cast this.ne'
  have e : (x.map (fun v => (v - a) * c)).sum = (x.sum - (x.length : ℝ) * a) * c := by
    clear hn hne
    induction x with
    | nil => simp
    | cons b t ih => simp only [List.map_cons, List.sum_cons, ih, List.length_cons]; push_cast; ring
  unfold npMean
  rw [e, List.length_map]
  field_simp

/-- C51: the training columns themselves are mapped to mean 0, and to standard deviation
`sd / max(sd, sd_lb)`: exactly 1 when the column's sd is not below `sd_lb`, at most 1 otherwise. -/
theorem C51_train (d : Nat) (train : List (List ℝ)) (hne : train ≠ []) (lb : ℝ) (hlb : 0 < lb)
    (hrow : ∀ r ∈ train, r.length = d) (j : Nat) (hj : j < d) :
    npMean (column (train.map (standardizeFwd (standardizeInit d train lb))) j) = 0 ∧
    (lb ≤ npStd (column train j) →
      npStd (column (train.map (standardizeFwd (standardizeInit d train lb))) j) = 1) ∧
    npStd (column (train.map (standardizeFwd (standardizeInit d train lb))) j) ≤ 1 := by
  set c := column train j with hc
  have hcne : c ≠ [] := by simpa [hc, column] using hne
  have hpos : 0 < max (npStd c) lb := lt_max_of_lt_right hlb
  rw [fwd_column d train lb j hj train hrow, ← hc]
  set S := max (npStd c) lb with hS
  have hmean : npMean (c.map (fun a => (a - npMean c) / S)) = 0 := by
    have := npMean_affine c hcne (npMean c) S⁻¹
    simp only [← div_eq_mul_inv] at this
    rw [this]; simp
  have hstd : npStd (c.map (fun a => (a - npMean c) / S)) = npStd c / S := by
    unfold npStd
    rw [hmean, List.map_map]
    have : (fun a => (a - 0) ^ 2) ∘ (fun a => (a - npMean c) / S)
        = (fun a => (a - 0) * (S ^ 2)⁻¹) ∘ (fun a => (a - npMean c) ^ 2) := by
      funext a; simp only [Function.comp]; field_simp; ring
    rw [this, ← List.map_map, npMean_affine _ (by simpa using hcne)]
    rw [sub_zero, Real.sqrt_mul', Real.sqrt_inv, Real.sqrt_sq hpos.le, div_eq_mul_inv]
    positivity
  refine ⟨hmean, fun h => ?_, ?_⟩
  · rw [hstd, hS, max_eq_left h, div_self (by linarith)]
  · rw [hstd, div_le_one hpos]; exact le_max_left _ _

example : ([[1, 2], [3, 2]] : List (List ℝ)) ≠ [] ∧ ∀ r ∈ ([[1, 2], [3, 2]] : List (List ℝ)), r.length = 2 := by
  simp
end C51

/-! ### C52: ProbTransToNorm -/
section C52
variable {α : Type} [Field α] [LinearOrder α] [IsStrictOrderedRing α]

/-- Piecewise linear interpolation of strictly increasing tables is inverted by exchanging the
tables, on the whole range. -/
theorem npInterp_inv (xp fp : List α) (hl : fp.length = xp.length) (h0 : 0 < xp.length)
    (hx : xp.Pairwise (· < ·)) (hf : fp.Pairwise (· < ·)) (x : α)
    (h1 : xp[0] ≤ x) (h2 : x ≤ xp[xp.length - 1]'(by omega)) :
    npInterp (npInterp x xp fp) fp xp = x ∧ fp[0] ≤ npInterp x xp fp ∧
      npInterp x xp fp ≤ fp[fp.length - 1]'(by omega) := by
  have hxne : xp ≠ [] := List.length_pos_iff.mp h0
  have hfne : fp ≠ [] := List.length_pos_iff.mp (by omega)
  obtain ⟨hm0, hm1, hm2⟩ := npInterp_mem x xp fp hl hxne (pw_lt_le hx) (pw_lt_le hf)
  refine ⟨?_, hm1, hm2⟩
  have back := npInterp_cases (npInterp x xp fp) fp xp hl.symm hfne (pw_lt_le hf)
  have flast : ∀ i (hi : i < fp.length), fp[i] ≤ fp[fp.length - 1]'(by omega) :=
    fun i hi => pw_le (pw_lt_le hf) (by omega) (by omega)
  rcases npInterp_cases x xp fp hl hxne (pw_lt_le hx) with ⟨h, a, e⟩ | ⟨h, a, e⟩ | ⟨i, h, a, b, e⟩
  · linarith
  · have ex : x = xp[xp.length - 1]'(by omega) := le_antisymm h2 a
    have ey : npInterp x xp fp = fp[fp.length - 1]'(by omega) := by
      rw [e]; congr 1; omega
    rcases back with ⟨h', a', e'⟩ | ⟨h', a', e'⟩ | ⟨k, h', a', b', e'⟩
    · linarith
    · rw [e', ex]; congr 1; omega
    · exfalso
      have := flast (k + 1) h'
      linarith
  · have hi1 : i + 1 < fp.length := by omega
    have hxd : 0 < xp[i + 1] - xp[i] := by
      have := pw_lt hx (Nat.lt_succ_self i) h; linarith
    have hfd : 0 < fp[i + 1] - fp[i] := by
      have := pw_lt hf (Nat.lt_succ_self i) hi1; linarith
    have r1 : 0 ≤ (x - xp[i]) / (xp[i + 1] - xp[i]) := div_nonneg (by linarith) hxd.le
    have r2 : (x - xp[i]) / (xp[i + 1] - xp[i]) < 1 := by rw [div_lt_one hxd]; linarith
    have ey : npInterp x xp fp = fp[i] + (x - xp[i]) / (xp[i + 1] - xp[i]) * (fp[i + 1] - fp[i]) := by
      rw [e]; field_simp
    have y1 : fp[i] ≤ npInterp x xp fp := by
      rw [ey]; nlinarith
    have y2 : npInterp x xp fp < fp[i + 1] := by
      rw [ey]; nlinarith
    rcases back with ⟨h', a', e'⟩ | ⟨h', a', e'⟩ | ⟨k, h', a', b', e'⟩
    · linarith
    · exfalso
      have := flast (i + 1) hi1
      linarith
    · have hik : k = i := by
        rcases lt_trichotomy k i with hlt | heq | hgt
        · exfalso
          have := pw_le (pw_lt_le hf) (i := k + 1) (j := i) (by omega) (by omega)
          linarith
        · exact heq
        · exfalso
          have := pw_le (pw_lt_le hf) (i := i + 1) (j := k) (by omega) (by omega)
          linarith
      subst hik
      rw [e', ey]
      field_simp
      ring

/-- C52: the constructor accepts exactly the samples with at least two values, all distinct. -/
theorem C52_accept (xs : List α) :
    (∃ t, probInit xs = .ok t) ↔ 2 ≤ xs.length ∧ xs.Nodup := by
  have hs := npSort_sorted xs
  have hp := npSort_perm xs
  have hiff : ((npDiff (npSort xs)).all (fun d => decide (0 < d)) = true) ↔ xs.Nodup := by
    have h1 : (npSort xs).Pairwise (· < ·) ↔ xs.Nodup := by
      rw [← hp.nodup_iff]
      constructor
      · exact fun h => h.imp (fun h => h.ne)
      · intro h
        exact (List.Pairwise.and hs h).imp (fun ⟨a, b⟩ => lt_of_le_of_ne a b)
    rw [← h1, ← List.isChain_iff_pairwise, List.isChain_iff_getElem]
    simp only [List.all_eq_true, decide_eq_true_eq]
    constructor
    · intro h i hi
      have := h ((npDiff (npSort xs))[i]'(by rw [npDiff_length]; omega)) (List.getElem_mem _)
      rw [npDiff_getElem] at this
      linarith
    · intro h d hd
      obtain ⟨i, hi, rfl⟩ := List.getElem_of_mem hd
      rw [npDiff_getElem]
      rw [npDiff_length] at hi
      have := h i (by omega)
      linarith
  unfold probInit
  by_cases h : xs.length ≤ 1
  · simp only [h, if_true]
    constructor
    · rintro ⟨t, ht⟩; cases ht
    · intro h'; omega
  · simp only [h, if_false]
    by_cases h2 : (npDiff (npSort xs)).all (fun d => decide (0 < d)) = true
    · rw [h2]
      exact ⟨fun _ => ⟨by omega, hiff.mp h2⟩, fun _ => ⟨_, rfl⟩⟩
    · rw [Bool.not_eq_true] at h2
      rw [h2]
      constructor
      · rintro ⟨t, ht⟩; cases ht
      · intro h'
        have := hiff.mpr h'.2
        rw [h2] at this; cases this

theorem headD_get (l : List α) (d : α) (h : 0 < l.length) : l.headD d = l[0] := by
  rcases l with _ | ⟨a, t⟩
  · simp at h
  · simp

/-- What the constructor stores. -/
theorem probInit_spec (xs : List α) (h2 : 2 ≤ xs.length) (hnd : xs.Nodup) :
    ∃ ps, probInit xs = .ok (npSort xs, ps) ∧ ps.length = xs.length ∧ ps.Pairwise (· < ·) ∧
      (∀ i (h : i < ps.length), ps[i] = (i : α) / ((xs.length : α) - 1)) := by
  obtain ⟨t, ht⟩ := (C52_accept xs).mpr ⟨h2, hnd⟩
  have hne : ¬ xs.length ≤ 1 := by omega
  have hc : (0 : α) < (xs.length : α) - 1 := by
    have : (2 : α) ≤ (xs.length : α) := by exact_mod_cast h2
    linarith
  refine ⟨(List.range xs.length).map (fun i : Nat => (i : α) / ((xs.length : α) - 1)), ?_, by simp, ?_, by simp⟩
  · rw [ht]
    unfold probInit at ht
    simp only [hne, if_false, pyAssert] at ht
    split at ht
    · cases ht; rfl
    · cases ht
  · rw [← List.isChain_iff_pairwise, List.isChain_iff_getElem]
    intro i hi
    simp only [List.getElem_map, List.getElem_range]
    rw [div_lt_div_iff_of_pos_right hc]
    exact_mod_cast Nat.lt_succ_self i

/-- C52: round trips, for every sample with distinct values: `forw` succeeds exactly on the range
of the sample, `back(forw(x)) = x` there; `back` succeeds exactly on [0, 1] and
`forw(back(p)) = p` there; `forw` is strictly increasing from 0 at the minimum to 1 at the maximum.
With the normal step the first round trip needs `cdf (ppf p) = p`, the second `ppf (cdf y) = y`. -/
theorem C52_roundtrip (xs : List α) (h2 : 2 ≤ xs.length) (hnd : xs.Nodup) (lo hi : α)
    (hlo : lo ∈ xs ∧ ∀ a ∈ xs, lo ≤ a) (hhi : hi ∈ xs ∧ ∀ a ∈ xs, a ≤ hi) (ppf cdf : α → α) :
    ∃ t, probInit xs = .ok t ∧
      (∀ x, lo ≤ x → x ≤ hi → ∃ p, probForw t ppf false x = .ok p ∧ 0 ≤ p ∧ p ≤ 1 ∧
        probBack t cdf false p = .ok x ∧
        (cdf (ppf p) = p → ∃ y, probForw t ppf true x = .ok y ∧ probBack t cdf true y = .ok x)) ∧
      (∀ p, 0 ≤ p → p ≤ 1 → ∃ x, probBack t cdf false p = .ok x ∧ lo ≤ x ∧ x ≤ hi ∧
        probForw t ppf false x = .ok p) ∧
      (∀ x, ¬ (lo ≤ x ∧ x ≤ hi) → ∀ b, probForw t ppf b x = .error .valueError) ∧
      (∀ p, ¬ (0 ≤ p ∧ p ≤ 1) → probBack t cdf false p = .error .valueError) ∧
      (∀ x y p q, x < y → probForw t ppf false x = .ok p → probForw t ppf false y = .ok q → p < q) ∧
      probForw t ppf false lo = .ok 0 ∧ probForw t ppf false hi = .ok 1 := by
  obtain ⟨ps, e, pl, pinc, pget⟩ := probInit_spec xs h2 hnd
  have hlen := npSort_length xs
  have hperm := npSort_perm xs
  have hs := npSort_sorted xs
  set X := npSort xs with hX
  have hXinc : X.Pairwise (· < ·) :=
    (List.Pairwise.and hs (hperm.nodup_iff.mpr hnd)).imp (fun ⟨a, b⟩ => lt_of_le_of_ne a b)
  have hc : (0 : α) < (xs.length : α) - 1 := by
    have : (2 : α) ≤ (xs.length : α) := by exact_mod_cast h2
    linarith
  have p0 : ps[0]'(by omega) = 0 := by rw [pget]; simp
  have p1 : ps[ps.length - 1]'(by omega) = 1 := by
    rw [pget, pl, Nat.cast_sub (by omega)]; simp only [Nat.cast_one]; exact div_self hc.ne'
  have elo : X[0]'(by omega) = lo := by
    apply le_antisymm
    · obtain ⟨i, hi', rfl⟩ := List.getElem_of_mem (hperm.mem_iff.mpr hlo.1)
      exact pw_le hs (by omega) hi'
    · exact hlo.2 _ (hperm.mem_iff.mp (List.getElem_mem _))
  have ehi : X[X.length - 1]'(by omega) = hi := by
    apply le_antisymm
    · exact hhi.2 _ (hperm.mem_iff.mp (List.getElem_mem _))
    · obtain ⟨i, hi', rfl⟩ := List.getElem_of_mem (hperm.mem_iff.mpr hhi.1)
      exact pw_le hs (by omega) (by omega)
  have hXh : X.headD 0 = lo := by
    rw [← elo]; exact headD_get X 0 (by omega)
  have hXl : X.getLastD 0 = hi := by
    rw [← ehi, List.getLastD_eq_getLast?, List.getLast?_eq_getElem?,
      List.getElem?_eq_getElem (by omega)]; rfl
  have hPh : ps.headD 0 = 0 := by
    rw [headD_get ps 0 (by omega)]; exact p0
  have hPl : ps.getLastD 0 = 1 := by
    rw [← p1, List.getLastD_eq_getLast?, List.getLast?_eq_getElem?,
      List.getElem?_eq_getElem (by omega)]; rfl
  have okF : ∀ x, lo ≤ x → x ≤ hi → interp1d X ps x = .ok (npInterp x X ps) := by
    intro x a b
    unfold interp1d
    rw [hXh, hXl, if_neg]
    rintro (h | h)
    · exact absurd h (not_lt.mpr a)
    · exact absurd h (not_lt.mpr b)
  have okB : ∀ p, 0 ≤ p → p ≤ 1 → interp1d ps X p = .ok (npInterp p ps X) := by
    intro x a b
    unfold interp1d
    rw [hPh, hPl, if_neg]
    rintro (h | h)
    · exact absurd h (not_lt.mpr a)
    · exact absurd h (not_lt.mpr b)
  have invF : ∀ x, lo ≤ x → x ≤ hi → npInterp (npInterp x X ps) ps X = x ∧ 0 ≤ npInterp x X ps ∧
      npInterp x X ps ≤ 1 := by
    intro x a b
    obtain ⟨i1, i2, i3⟩ := npInterp_inv X ps (by omega) (by omega) hXinc pinc x
      (by rw [elo]; exact a) (by rw [ehi]; exact b)
    exact ⟨i1, p0 ▸ i2, p1 ▸ i3⟩
  have invB : ∀ p, 0 ≤ p → p ≤ 1 → npInterp (npInterp p ps X) X ps = p ∧ lo ≤ npInterp p ps X ∧
      npInterp p ps X ≤ hi := by
    intro x a b
    obtain ⟨i1, i2, i3⟩ := npInterp_inv ps X (by omega) (by omega) pinc hXinc x
      (by rw [p0]; exact a) (by rw [p1]; exact b)
    exact ⟨i1, elo ▸ i2, ehi ▸ i3⟩
  have hlohi : lo ≤ hi := hlo.2 _ hhi.1
  refine ⟨(X, ps), e, ?_, ?_, ?_, ?_, ?_, ?_, ?_⟩
  · intro x a b
    obtain ⟨i1, i2, i3⟩ := invF x a b
    refine ⟨npInterp x X ps, by simp [probForw, okF x a b, bind, Except.bind, pure, Except.pure], i2, i3,
      by simp [probBack, okB _ i2 i3, i1], fun hn => ⟨ppf (npInterp x X ps),
        by simp [probForw, okF x a b, bind, Except.bind, pure, Except.pure], ?_⟩⟩
    simp [probBack, hn, okB _ i2 i3, i1]
  · intro p a b
    obtain ⟨i1, i2, i3⟩ := invB p a b
    exact ⟨npInterp p ps X, by simp [probBack, okB p a b], i2, i3,
      by simp [probForw, okF _ i2 i3, i1, bind, Except.bind, pure, Except.pure]⟩
  · intro x hx b
    have : interp1d X ps x = .error .valueError := by
      unfold interp1d
      rw [hXh, hXl, if_pos]
      by_contra hcon
      push Not at hcon
      exact hx hcon
    simp [probForw, this, bind, Except.bind]
  · intro x hx
    simp only [probBack]
    unfold interp1d
    rw [if_pos]
    simp only [hPh, hPl, Bool.false_eq_true, if_false]
    by_contra hcon
    push Not at hcon
    exact hx hcon
  · intro x y p q hxy hp hq
    have hin : ∀ z r, probForw (X, ps) ppf false z = .ok r → lo ≤ z ∧ z ≤ hi ∧ r = npInterp z X ps := by
      intro z r hr
      unfold probForw interp1d at hr
      rw [hXh, hXl] at hr
      by_cases hc : z < lo ∨ hi < z
      · rw [if_pos hc] at hr; cases hr
      · rw [if_neg hc] at hr
        push Not at hc
        cases hr
        exact ⟨hc.1, hc.2, rfl⟩
    obtain ⟨a1, a2, rfl⟩ := hin x p hp
    obtain ⟨b1, b2, rfl⟩ := hin y q hq
    refine lt_of_le_of_ne (npInterp_mono x y hxy.le X ps (by omega) (List.length_pos_iff.mp (by omega))
      hs (pw_lt_le pinc)) ?_
    intro heq
    have := (invF x a1 a2).1
    rw [heq, (invF y b1 b2).1] at this
    exact hxy.ne this.symm
  · have := (invB 0 le_rfl zero_le_one)
    have hlo0 : npInterp lo X ps = 0 := by
      rcases npInterp_cases lo X ps (by omega) (List.length_pos_iff.mp (by omega)) hs with
        ⟨h, a, e⟩ | ⟨h, a, e⟩ | ⟨i, h, a, b, e⟩
      · rw [elo] at a; exact absurd a (lt_irrefl _)
      · exfalso
        have := pw_lt hXinc (i := 0) (j := X.length - 1) (by omega) (by omega)
        rw [elo] at this; exact absurd a (not_le.mpr this)
      · have hi0 : i = 0 := by
          by_contra hne
          have := pw_lt hXinc (i := 0) (j := i) (by omega) (by omega)
          rw [elo] at this; exact absurd a (not_le.mpr this)
        subst hi0
        rw [e]
        simp only [elo, sub_self, zero_mul, add_zero]
        exact p0
    simp [probForw, okF lo le_rfl hlohi, hlo0, bind, Except.bind, pure, Except.pure]
  · have hhi1 : npInterp hi X ps = 1 := by
      rcases npInterp_cases hi X ps (by omega) (List.length_pos_iff.mp (by omega)) hs with
        ⟨h, a, e⟩ | ⟨h, a, e⟩ | ⟨i, h, a, b, e⟩
      · rw [elo] at a; exact absurd hlohi (not_le.mpr a)
      · rw [e, ← p1]; congr 1; omega
      · exfalso
        have := pw_le hs (i := i + 1) (j := X.length - 1) (by omega) (by omega)
        rw [ehi] at this; exact absurd b (not_lt.mpr this)
    simp [probForw, okF hi hlohi le_rfl, hhi1, bind, Except.bind, pure, Except.pure]

example : 2 ≤ ([3, 1, 7] : List ℚ).length ∧ ([3, 1, 7] : List ℚ).Nodup ∧
    ((1 : ℚ) ∈ ([3, 1, 7] : List ℚ) ∧ ∀ a ∈ ([3, 1, 7] : List ℚ), 1 ≤ a) := by decide +kernel
end C52

/-! ### C53: kernels -/
section C53

/-- C53: Gaussian kernel: values in (0, 1], 1 at 0, even, non-increasing in |d|, never 1 away
from 0 (sigma ≠ 0). -/
theorem C53_gaussian (sigma : ℝ) (hs : sigma ≠ 0) :
    (∀ d, 0 < gaussian sigma d ∧ gaussian sigma d ≤ 1) ∧ gaussian sigma 0 = 1 ∧
    (∀ d, gaussian sigma (-d) = gaussian sigma d) ∧
    (∀ d d', |d| < |d'| → gaussian sigma d' < gaussian sigma d) ∧
    (∀ d, gaussian sigma d = Real.exp (-(d / sigma) ^ 2 / 2)) := by
  have hs2 : 0 < sigma * sigma := mul_self_pos.mpr hs
  refine ⟨fun d => ⟨Real.exp_pos _, ?_⟩, by simp [gaussian], fun d => by simp [gaussian], ?_, ?_⟩
  · unfold gaussian
    rw [Real.exp_le_one_iff]
    apply div_nonpos_of_nonpos_of_nonneg _ hs2.le
    nlinarith [mul_self_nonneg d]
  · intro d d' h
    unfold gaussian
    apply Real.exp_lt_exp.mpr
    apply (div_lt_div_iff_of_pos_right hs2).mpr
    have : d ^ 2 < d' ^ 2 := sq_lt_sq.mpr h
    nlinarith
  · intro d
    unfold gaussian
    congr 1
    field_simp

/-- C53: top-hat kernel: exactly the indicator of `d < radius`. -/
theorem C53_tophat (radius d : ℝ) :
    (tophat radius d = 1 ↔ d < radius) ∧ (tophat radius d = 0 ↔ radius ≤ d) := by
  unfold tophat
  by_cases h : d < radius
  · simp [h]
  · simp [h, not_lt.mp h]

theorem ballVolumeNat_eq (r : ℝ) (n : Nat) :
    ballVolumeNat r n = r ^ n * (Real.sqrt Real.pi ^ n / Real.Gamma ((n : ℝ) / 2 + 1)) := by
  induction n using Nat.strong_induction_on with
  | _ n ih =>
    rcases n with _ | _ | n
    · simp [ballVolumeNat, Real.Gamma_one]
    · have : Real.Gamma ((1 : ℝ) / 2 + 1) = 1 / 2 * Real.sqrt Real.pi := by
        rw [Real.Gamma_add_one (by norm_num), Real.Gamma_one_half_eq]
      simp only [ballVolumeNat, Nat.zero_add, Nat.cast_one, this, pow_one]
      have hp : Real.sqrt Real.pi ≠ 0 := by positivity
      field_simp
    · have hg : Real.Gamma (((n + 2 : ℕ) : ℝ) / 2 + 1)
          = ((n : ℝ) / 2 + 1) * Real.Gamma ((n : ℝ) / 2 + 1) := by
        rw [← Real.Gamma_add_one (by positivity)]
        congr 1; push_cast; ring
      have hgp : Real.Gamma ((n : ℝ) / 2 + 1) ≠ 0 := (Real.Gamma_pos_of_pos (by positivity)).ne'
      have hsq : Real.sqrt Real.pi ^ (n + 2) = Real.sqrt Real.pi ^ n * Real.pi := by
        rw [pow_add, Real.sq_sqrt Real.pi_pos.le]
      have hn : (n : ℝ) + 2 ≠ 0 := by positivity
      rw [show n + 1 + 1 = n + 2 from rfl]
      simp only [ballVolumeNat]
      rw [ih n (by omega), hg, hsq, pow_add]
      push_cast
      field_simp

open MeasureTheory in
/-- C53: `Tophat.volume(n, max_radius)` IS the n-dimensional Lebesgue volume of the Euclidean ball
of radius min(radius, max_radius), in every dimension >= 1 (dimension 0: 1, C53_volume_closed). -/
theorem C53_volume (n : Nat) (hn : 1 ≤ n) (radius maxR : ℝ) (h : 0 ≤ min maxR radius) :
    tophatVolume radius (n : Int) (some maxR) =
      .ok (volume (Metric.ball (0 : EuclideanSpace ℝ (Fin n)) (min maxR radius))).toReal := by
  simp only [tophatVolume, ballVolume, pyAssert, Int.natCast_nonneg, decide_true, if_true, bind,
    Except.bind, pure, Except.pure, Int.toNat_natCast, ballVolumeNat_eq]
  congr 1
  rcases n with _ | n
  · omega
  · rw [EuclideanSpace.volume_ball]
    simp only [Fintype.card_fin]
    rw [ENNReal.toReal_mul, ENNReal.toReal_pow, ENNReal.toReal_ofReal h, ENNReal.toReal_ofReal]
    have := Real.Gamma_pos_of_pos (s := ((n + 1 : ℕ) : ℝ) / 2 + 1) (by positivity)
    positivity

/-- C53: closed form, every dimension. -/
theorem C53_volume_closed (n : Nat) (r : ℝ) :
    ballVolume (n : Int) r = .ok (Real.pi ^ ((n : ℝ) / 2) * r ^ n / Real.Gamma ((n : ℝ) / 2 + 1)) := by
  simp only [ballVolume, pyAssert, Int.natCast_nonneg, decide_true, if_true, bind,
    Except.bind, pure, Except.pure, Int.toNat_natCast, ballVolumeNat_eq]
  congr 1
  have : Real.pi ^ ((n : ℝ) / 2) = Real.sqrt Real.pi ^ n := by
    rw [Real.sqrt_eq_rpow, ← Real.rpow_natCast, ← Real.rpow_mul Real.pi_pos.le]
    congr 1; ring
  rw [this]; ring

/-- C53 (recorded): a negative dimension is rejected; `max_radius=None` works in dimension 0 only. -/
theorem C53_volume_reject (radius : ℝ) :
    (∀ n < 0, ∀ m, tophatVolume radius n m = .error .assertionError) ∧
    (∀ n > 0, tophatVolume radius n none = .error .typeError) := by
  constructor
  · intro n hn m
    rcases m with _ | m
    · simp [tophatVolume, hn]
    · simp [tophatVolume, ballVolume, pyAssert, not_le.mpr hn, bind, Except.bind]
  · intro n hn
    have h1 : ¬ n < 0 := by omega
    have h2 : ¬ n = 0 := by omega
    simp [tophatVolume, h1, h2]

/-- C53: kernel specifications.  An object stands for itself, a number for a Gaussian of that
sigma, a name for the kernel with its default scale 1; anything created evaluates accordingly;
unknown names are rejected. -/
theorem C53_create :
    (∀ x, create (.obj (.gaussian x)) = .ok ("gaussian", .gaussian x) ∧ create (.obj (.tophat x)) = .ok ("tophat", .tophat x)) ∧
    (∀ x, ∃ k, create (.scalar x) = .ok ("gaussian", k) ∧ ∀ d, k.eval d = gaussian x d) ∧
    (∃ k, create (.name "gaussian") = .ok ("gaussian", k) ∧ ∀ d, k.eval d = gaussian 1 d) ∧
    (∃ k, create (.name "tophat") = .ok ("tophat", k) ∧ ∀ d, k.eval d = tophat 1 d) ∧
    (∀ x, ∃ k, create (.pair "tophat" "radius" x) = .ok ("tophat", k) ∧ ∀ d, k.eval d = tophat x d) ∧
    (∀ x, ∃ k, create (.pair "gaussian" "sigma" x) = .ok ("gaussian", k) ∧ ∀ d, k.eval d = gaussian x d) ∧
    (∀ s, s ≠ "gaussian" → s ≠ "tophat" → create (.name s) = .error .keyError ∧ ∀ k x, create (.pair s k x) = .error .keyError) ∧
    (∀ k x, (k ≠ "sigma" → create (.pair "gaussian" k x) = .error .typeError) ∧ (k ≠ "radius" → create (.pair "tophat" k x) = .error .typeError)) := by
  refine ⟨fun k => ⟨rfl, rfl⟩, fun x => ⟨.gaussian x, ?_, fun d => rfl⟩, ⟨.gaussian 1, ?_, fun d => rfl⟩,
    ⟨.tophat 1, ?_, fun d => rfl⟩, fun x => ⟨.tophat x, ?_, fun d => rfl⟩,
    fun x => ⟨.gaussian x, ?_, fun d => rfl⟩, ?_, fun k x => ⟨fun h => ?_, fun h => ?_⟩⟩ <;>
  first
    | simp [create, construct, h, bind, Except.bind]
    | (intro s h1 h2; simp [create, construct, h1, h2, bind, Except.bind])
    | simp [create, construct, bind, Except.bind, pure, Except.pure]
end C53

/-! ### C56: random number generators -/
section C56
variable {σ Op Out : Type}

/-- Reference: one numpy Generator used alone for a sequence of calls. -/
def runAlone (G : NpGen σ Op Out) : σ → List Op → List Out
  | _, [] => []
  | s, op :: t => (G.step op s).1 :: runAlone G (G.step op s).2 t

/-- State of that generator afterwards. -/
def stateAlone (G : NpGen σ Op Out) : σ → List Op → σ
  | s, [] => s
  | s, op :: t => stateAlone G (G.step op s).2 t

/-- The events on generator `g`. -/
def onGen (g : Nat) (es : List (Event Op Out)) : List (Event Op Out) :=
  es.filter (fun e => e.gen == g)

theorem onGen_append (g : Nat) (a b : List (Event Op Out)) : onGen g (a ++ b) = onGen g a ++ onGen g b := by
  simp [onGen]

theorem callGen_spec (G : NpGen σ Op Out) (w : World σ) (g : Nat) (s : σ) (hg : w.gens[g]? = some s)
    (g' : Nat) (op : Op) :
    (w.callGen G g' op).1.gens[g]? =
      some (stateAlone G s ((onGen g (w.callGen G g' op).2).map (fun e => e.op))) ∧
    (onGen g (w.callGen G g' op).2).map (fun e => e.out) =
      runAlone G s ((onGen g (w.callGen G g' op).2).map (fun e => e.op)) ∧
    (w.callGen G g' op).1.rngs = w.rngs := by
  unfold World.callGen
  rcases hw : w.gens[g']? with _ | s'
  · simp [onGen, runAlone, stateAlone, hg]
  · simp only
    have hlt : g' < w.gens.length := by
      rw [List.getElem?_eq_some_iff] at hw; exact hw.1
    by_cases h : g' = g
    · subst h
      rw [hg] at hw; cases hw
      simp [onGen, runAlone, stateAlone, hlt]
    · have : (g' == g) = false := by simpa using h
      simp [onGen, runAlone, stateAlone, this, hg, List.getElem?_set, h]

theorem exec_spec (G : NpGen σ Op Out) (w : World σ) (g : Nat) (s : σ) (hg : w.gens[g]? = some s)
    (c : Cmd σ Op) :
    (w.exec G c).1.gens[g]? =
      some (stateAlone G s ((onGen g (w.exec G c).2).map (fun e => e.op))) ∧
    (onGen g (w.exec G c).2).map (fun e => e.out) =
      runAlone G s ((onGen g (w.exec G c).2).map (fun e => e.op)) ∧
    w.rngs <+: (w.exec G c).1.rngs := by
  have hlt : g < w.gens.length := by rw [List.getElem?_eq_some_iff] at hg; exact hg.1
  rcases c with sd | ⟨r, op⟩ | ⟨g', op⟩
  · rcases sd with e | n | g' | r | _
    · simp [World.exec, World.newRng, onGen, runAlone, stateAlone, List.getElem?_append_left hlt, hg]
    · simp [World.exec, World.newRng, onGen, runAlone, stateAlone, List.getElem?_append_left hlt, hg]
    · by_cases h : g' < w.gens.length <;>
        simp [World.exec, World.newRng, onGen, runAlone, stateAlone, hg, h]
    · rcases h : w.rngs[r]? with _ | g' <;>
        simp [World.exec, World.newRng, onGen, runAlone, stateAlone, hg, h]
    · simp [World.exec, World.newRng, onGen, runAlone, stateAlone, hg]
  · simp only [World.exec]
    rcases h : w.rngs[r]? with _ | g'
    · simp [onGen, runAlone, stateAlone, hg]
    · obtain ⟨a, b, c⟩ := callGen_spec G w g s hg g' op
      exact ⟨a, b, by rw [c]⟩
  · obtain ⟨a, b, c⟩ := callGen_spec G w g s hg g' op
    simp only [World.exec]
    exact ⟨a, b, by rw [c]⟩

theorem runAlone_append (G : NpGen σ Op Out) (s : σ) (a b : List Op) :
    runAlone G s (a ++ b) = runAlone G s a ++ runAlone G (stateAlone G s a) b ∧
    stateAlone G s (a ++ b) = stateAlone G (stateAlone G s a) b := by
  induction a generalizing s with
  | nil => simp [runAlone, stateAlone]
  | cons x t ih => simp [runAlone, stateAlone, ih]

/-- C56 (one common stream): in every session, whatever other objects are created and used in
between, the calls that reach one Generator, through whichever `Rng` object or directly, return
exactly what this Generator returns when it is used alone for the same sequence of calls. -/
theorem C56_stream (G : NpGen σ Op Out) (w : World σ) (g : Nat) (s : σ) (hg : w.gens[g]? = some s)
    (cmds : List (Cmd σ Op)) :
    (onGen g (w.run G cmds).2).map (fun e => e.out) =
      runAlone G s ((onGen g (w.run G cmds).2).map (fun e => e.op)) ∧
    w.rngs <+: (w.run G cmds).1.rngs := by
  induction cmds generalizing w s with
  | nil => simp [World.run, onGen, runAlone]
  | cons c t ih =>
      obtain ⟨a, b, p⟩ := exec_spec G w g s hg c
      obtain ⟨i1, i2⟩ := ih _ _ a
      simp only [World.run, onGen_append, List.map_append]
      refine ⟨?_, p.trans i2⟩
      rw [b, i1, (runAlone_append G s _ _).1]

/-- C56 (determinism): create an `Rng` from the same integer seed in two arbitrary sessions; if the
same calls reach its Generator afterwards, they return the same values, independently of everything
else that happens in the two sessions. -/
theorem C56_seed (G : NpGen σ Op Out) (n : Int) (w1 w2 : World σ) (c1 c2 : List (Cmd σ Op)) :
    ∃ w1' w2', w1.newRng G (.int n) = .ok w1' ∧ w2.newRng G (.int n) = .ok w2' ∧
      let e1 := onGen w1.gens.length (w1'.run G c1).2
      let e2 := onGen w2.gens.length (w2'.run G c2).2
      e1.map (fun e => e.op) = e2.map (fun e => e.op) →
      e1.map (fun e => e.out) = e2.map (fun e => e.out) := by
  refine ⟨_, _, rfl, rfl, ?_⟩
  intro e1 e2 h
  have h1 := (C56_stream G ⟨w1.gens ++ [G.seeded n], w1.rngs ++ [w1.gens.length]⟩ w1.gens.length
    (G.seeded n) (by simp) c1).1
  have h2 := (C56_stream G ⟨w2.gens ++ [G.seeded n], w2.rngs ++ [w2.gens.length]⟩ w2.gens.length
    (G.seeded n) (by simp) c2).1
  simp only [e1, e2] at h ⊢
  rw [h1, h2, h]

/-- Generators that exist. -/
def World.OK (w : World σ) : Prop := ∀ g ∈ w.rngs, g < w.gens.length

/-- C56 (sharing): which Generator a new `Rng` uses.  `Rng(rng)` and `Rng(generator)` use the very
Generator of the argument; an integer seed or None makes a new one that no existing `Rng` uses;
anything else is rejected with an AssertionError.  Later steps never change the Generator an existing
`Rng` uses (so C56_stream makes all sharers consume one stream). -/
theorem C56_sharing (G : NpGen σ Op Out) (w : World σ) (hw : w.OK) :
    (∀ r g, w.rngs[r]? = some g → ∃ w', w.newRng G (.rng r) = .ok w' ∧
      w'.rngs = w.rngs ++ [g] ∧ w'.gens = w.gens) ∧
    (∀ g < w.gens.length, ∃ w', w.newRng G (.gen g) = .ok w' ∧
      w'.rngs = w.rngs ++ [g] ∧ w'.gens = w.gens) ∧
    (∀ n, ∃ w' g, w.newRng G (.int n) = .ok w' ∧ w'.rngs = w.rngs ++ [g] ∧ g ∉ w.rngs ∧
      w'.gens = w.gens ++ [G.seeded n]) ∧
    (∀ e, ∃ w' g, w.newRng G (.none e) = .ok w' ∧ w'.rngs = w.rngs ++ [g] ∧ g ∉ w.rngs) ∧
    w.newRng G .other = .error .assertionError ∧
    (∀ cmds, (w.run G cmds).1.OK ∧ w.rngs <+: (w.run G cmds).1.rngs) := by
  have fresh : w.gens.length ∉ w.rngs := fun h => absurd (hw _ h) (lt_irrefl _)
  refine ⟨fun r g h => ⟨{ w with rngs := w.rngs ++ [g] }, by simp [World.newRng, h], rfl, rfl⟩,
    fun g h => ⟨{ w with rngs := w.rngs ++ [g] }, by simp [World.newRng, h], rfl, rfl⟩, fun n => ⟨_, _, rfl, rfl, fresh, rfl⟩,
    fun e => ⟨_, _, rfl, rfl, fresh⟩, rfl, ?_⟩
  intro cmds
  clear fresh
  induction cmds generalizing w with
  | nil => exact ⟨hw, List.prefix_rfl⟩
  | cons c t ih =>
      have hcall : ∀ g' op, (w.callGen G g' op).1.OK ∧ w.rngs <+: (w.callGen G g' op).1.rngs := by
        intro g' op
        unfold World.callGen
        rcases w.gens[g']? with _ | s
        · exact ⟨hw, List.prefix_rfl⟩
        · exact ⟨fun g hg => by simpa using hw g hg, List.prefix_rfl⟩
      have step : (w.exec G c).1.OK ∧ w.rngs <+: (w.exec G c).1.rngs := by
        rcases c with sd | ⟨r, op⟩ | ⟨g', op⟩
        · rcases sd with e | n | g' | r | _
          · refine ⟨?_, by simp [World.exec, World.newRng]⟩
            intro g hg
            simp [World.exec, World.newRng] at hg ⊢
            rcases hg with hg | rfl
            · have := hw g hg; omega
            · omega
          · refine ⟨?_, by simp [World.exec, World.newRng]⟩
            intro g hg
            simp [World.exec, World.newRng] at hg ⊢
            rcases hg with hg | rfl
            · have := hw g hg; omega
            · omega
          · by_cases h : g' < w.gens.length
            · refine ⟨?_, by simp [World.exec, World.newRng, h]⟩
              intro g hg
              simp [World.exec, World.newRng, h] at hg ⊢
              rcases hg with hg | rfl
              · exact hw g hg
              · exact h
            · simp [World.exec, World.newRng, h]; exact hw
          · rcases h : w.rngs[r]? with _ | g'
            · simp [World.exec, World.newRng, h]; exact hw
            · refine ⟨?_, by simp [World.exec, World.newRng, h]⟩
              intro g hg
              simp [World.exec, World.newRng, h] at hg ⊢
              rcases hg with hg | rfl
              · exact hw g hg
              · exact hw _ (List.mem_of_getElem? h)
          · exact ⟨hw, List.prefix_rfl⟩
        · simp only [World.exec]
          rcases h : w.rngs[r]? with _ | g'
          · exact ⟨hw, List.prefix_rfl⟩
          · exact hcall g' op
        · exact hcall g' op
      obtain ⟨i1, i2⟩ := ih _ step.1
      exact ⟨i1, step.2.trans i2⟩

/-- A counter as generator: two sharers really interleave on one stream. -/
example : ((⟨[], []⟩ : World Nat).run ⟨fun n => n.toNat, fun (_ : Unit) s => (s, s + 1)⟩
    [.new (.int 5), .new (.rng 0), .call 0 (), .call 1 (), .call 0 ()]).2.map (fun e => e.out) = [5, 6, 7] := rfl
example : (⟨[3], [0]⟩ : World Nat).OK := by simp [World.OK]
end C56

/-! ### C94: random directions -/
section C94

/-- C94: for every draw with cos(theta) in [-1, 1], `uniform_sphere` returns unit vectors whose z
component is the drawn value; the polar form has theta in [0, pi]; `uniform_circle` returns unit
vectors of the plane.  One vector per draw. -/
theorem C94_unit (c p : List ℝ) (h : c.length = p.length) (hc : ∀ a ∈ c, -1 ≤ a ∧ a ≤ 1) :
    (uniformSphereCart c p).length = c.length ∧
    (∀ v ∈ uniformSphereCart c p, v.1 ^ 2 + v.2.1 ^ 2 + v.2.2 ^ 2 = 1) ∧
    (uniformSphereCart c p).map (fun v => v.2.2) = c ∧
    (∀ q ∈ uniformSpherePolar c p, 0 ≤ q.1 ∧ q.1 ≤ Real.pi) ∧
    (uniformSpherePolar c p).map (fun q => Real.cos q.1) = c ∧
    (uniformSpherePolar c p).map (fun q => q.2) = p ∧
    (∀ v ∈ uniformCircleCart p, v.1 ^ 2 + v.2 ^ 2 = 1) ∧ (uniformCircleCart p).length = p.length := by
  refine ⟨by simp [uniformSphereCart, h], ?_, ?_, ?_, ?_, ?_, ?_, by simp [uniformCircleCart]⟩
  · intro v hv
    simp only [uniformSphereCart, List.mem_iff_getElem] at hv
    obtain ⟨i, hi, rfl⟩ := hv
    simp only [List.getElem_zipWith]
    nlinarith [Real.sin_sq_add_cos_sq (Real.arccos (c[i]'(by simp at hi; omega))),
      Real.sin_sq_add_cos_sq (p[i]'(by simp at hi; omega))]
  · apply List.ext_getElem
    · simp [uniformSphereCart, h]
    · intro i h1 h2
      have := hc _ (List.getElem_mem h2)
      simp [uniformSphereCart, Real.cos_arccos this.1 this.2]
  · intro q hq
    simp only [uniformSpherePolar, List.mem_iff_getElem] at hq
    obtain ⟨i, hi, rfl⟩ := hq
    simp only [List.getElem_zipWith]
    exact ⟨Real.arccos_nonneg _, Real.arccos_le_pi _⟩
  · apply List.ext_getElem
    · simp [uniformSpherePolar, h]
    · intro i h1 h2
      have := hc _ (List.getElem_mem h2)
      simp [uniformSpherePolar, Real.cos_arccos this.1 this.2]
  · apply List.ext_getElem
    · simp [uniformSpherePolar, h]
    · intro i h1 h2
      simp [uniformSpherePolar]
  · intro v hv
    obtain ⟨t, ht, rfl⟩ := List.mem_map.mp hv
    simpa [add_comm] using Real.sin_sq_add_cos_sq t

example : ∀ a ∈ ([1/2, -1] : List ℝ), -1 ≤ a ∧ a ≤ 1 := by
  intro a ha
  simp at ha
  rcases ha with rfl | rfl <;> norm_num
end C94

/-! ### C95: noise -/
section C95

/-- C95: additive noise shifts every value by sigma times its draw; logarithmic noise multiplies it
by 10^(sigma z), so its sign is kept and lg(out/x) = sigma z; sigma = 0 returns copies of `x`; there
is one row per repeat, each of the length of `x`. -/
theorem C95_noise (sigma : ℝ) (inLg : Bool) (x : List ℝ) (z : List (List ℝ))
    (hz : ∀ r ∈ z, r.length = x.length) :
    (addNoise sigma inLg x z).length = z.length ∧
    (∀ r ∈ addNoise sigma inLg x z, r.length = x.length) ∧
    (sigma = 0 → ∀ r ∈ addNoise sigma inLg x z, r = x) ∧
    ∀ i j, (hi : i < z.length) → (hj : j < x.length) → (hj' : j < z[i].length) → ∃ row,
      (addNoise sigma inLg x z)[i]? = some row ∧
      (inLg = false → row[j]? = some (x[j] + sigma * z[i][j])) ∧
      (inLg = true → ∃ o, row[j]? = some o ∧ SignType.sign o = SignType.sign x[j] ∧
        (x[j] ≠ 0 → Real.logb 10 (o / x[j]) = sigma * z[i][j])) := by
  have hlen : ∀ r ∈ addNoise sigma inLg x z, r.length = x.length := by
    intro r hr
    obtain ⟨row, hrow, rfl⟩ := List.mem_map.mp hr
    simp [hz row hrow]
  refine ⟨by simp [addNoise], hlen, ?_, ?_⟩
  · intro hs r hr
    have hl := hlen r hr
    obtain ⟨row, hrow, rfl⟩ := List.mem_map.mp hr
    apply List.ext_getElem hl
    intro j h1 h2
    simp only [List.getElem_zipWith, hs]
    cases inLg <;> simp
  · intro i j hi hj hj'
    refine ⟨_, by simp only [addNoise, List.getElem?_map, List.getElem?_eq_getElem hi, Option.map_some]; rfl, ?_, ?_⟩
    · intro hb
      simp [List.getElem?_zipWith, hj, hj', hb, mul_comm]
    · intro hb
      refine ⟨x[j] * (10 : ℝ) ^ (z[i][j] * sigma), by simp [List.getElem?_zipWith, hj, hj', hb], ?_, ?_⟩
      · rw [sign_mul, sign_pos (Real.rpow_pos_of_pos (by norm_num) _), mul_one]
      · intro hx
        rw [mul_div_cancel_left₀ _ hx, Real.logb_rpow (by norm_num) (by norm_num), mul_comm]

example : ∀ r ∈ ([[1, 2], [3, 4]] : List (List ℝ)), r.length = ([5, 6] : List ℝ).length := by simp
end C95
end Pyhipp.Stats
