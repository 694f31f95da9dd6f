import Verif.Model.Cache
import Mathlib.Data.List.Basic
import Mathlib.Data.List.Nodup
/-
C84: the caches call a fallback at most once per key.
-/
namespace Pyhipp.Cache
open Pyhipp

variable {K V S : Type} [DecidableEq K] [DecidableEq S]

/-! ### One call -/

/-- C84: a cached key is returned without running the fallback and without any change. -/
theorem C84_hit (k : K) (fb : Prog K V) (c : PyDict K V) (log : Log K V) (v : V) (h : c.get? k = some v) :
    getCacheOr k (exec fb) (c, log) = (.ok v, c, log) := by simp [getCacheOr, h]

/-- C84: otherwise the fallback runs once on the object; its value is returned and stored, its exception is passed on and nothing is
stored for the key by this call. -/
theorem C84_miss (k : K) (fb : Prog K V) (c : PyDict K V) (log : Log K V) (h : c.get? k = none) :
    let r := exec fb (c, log)
    getCacheOr k (exec fb) (c, log) = match r.1 with
      | .ok v => (.ok v, r.2.1.set k v, r.2.2 ++ [(k, .ok v)])
      | .error e => (.error e, r.2.1, r.2.2 ++ [(k, .error e)]) := by
  simp only [getCacheOr, h]
  rcases exec fb (c, log) with ⟨r | r, c', l⟩ <;> rfl

/-- C84: in particular for a fallback that does not use the cache: the next request for the key returns the same value, whatever its fallback. -/
theorem C84_again (k : K) (v : V) (c : PyDict K V) (log : Log K V) (h : c.get? k = none) (fb : Prog K V) :
    exec (.getOr k (.ret v) (fun _ => .getOr k fb (fun r => match r with | .ok x => .ret x | .error e => .raise e))) (c, log) =
      (.ok v, c.set k v, log ++ [(k, .ok v)]) := by
  have hs : (c.set k v).get? k = some v := PyDict.get?_set_self c k v
  simp [exec, getCacheOr, h, hs]

/-- C84: a fallback that raises leaves the key absent, so it is run again at the next request. -/
theorem C84_retry (k : K) (e : PyErr) (v : V) (c : PyDict K V) (log : Log K V) (h : c.get? k = none) :
    exec (.getOr k (.raise e) (fun _ => .getOr k (.ret v) (fun r => match r with | .ok x => .ret x | .error e => .raise e))) (c, log) =
      (.ok v, c.set k v, log ++ [(k, .error e), (k, .ok v)]) := by
  simp [exec, getCacheOr, h]

/-! ### Any history -/

/-- A program that never uses `put_cache` and in which the fallback of a key does not ask for that same key (`opn`: keys whose
fallbacks are running). -/
def Safe : List K → Prog K V → Prop
  | _, .ret _ => True
  | _, .raise _ => True
  | _, .put _ _ _ => False
  | opn, .getOr k fb cont => k ∉ opn ∧ Safe (k :: opn) fb ∧ ∀ r, Safe opn (cont r)

/-- The values obtained from fallbacks, in order. -/
def stored (log : Log K V) : List (K × V) := log.filterMap (fun x => match x.2 with | .ok v => some (x.1, v) | .error _ => none)

/-- The cache is what was there at the beginning plus what the fallbacks returned, one value per key. -/
structure Inv (c0 : PyDict K V) (s : PyDict K V × Log K V) : Prop where
  nodup : ((stored s.2).map (·.1)).Nodup
  fresh : ∀ x ∈ stored s.2, c0.get? x.1 = none
  cache : ∀ k, s.1.get? k = match c0.get? k with
    | some v => some v
    | none => ((stored s.2).find? (fun x => x.1 = k)).map (·.2)

theorem stored_append (a b : Log K V) : stored (a ++ b) = stored a ++ stored b := List.filterMap_append

theorem Inv.notMem {c0 : PyDict K V} {s : PyDict K V × Log K V} (i : Inv c0 s) {k : K} (h : s.1.get? k = none) :
    c0.get? k = none ∧ k ∉ (stored s.2).map (·.1) := by
  have := i.cache k
  rw [h] at this
  cases hc : c0.get? k with
  | some v => rw [hc] at this; simp at this
  | none =>
      rw [hc] at this
      refine ⟨rfl, ?_⟩
      simp only [Option.map_eq_none_iff, List.find?_eq_none, decide_eq_true_eq] at this
      have this := this.symm
      simp only [Option.map_eq_none_iff, List.find?_eq_none, decide_eq_true_eq] at this
      intro hm
      rw [List.mem_map] at hm
      obtain ⟨x, hx, hk⟩ := hm
      exact this x hx hk

theorem exec_inv (p : Prog K V) : ∀ (opn : List K), Safe opn p → ∀ (c0 : PyDict K V) (s : PyDict K V × Log K V), Inv c0 s →
    Inv c0 (exec p s).2 ∧ (∀ k v, s.1.get? k = some v → (exec p s).2.1.get? k = some v) ∧ (∀ k ∈ opn, (exec p s).2.1.get? k = s.1.get? k) ∧
    ∃ l, (exec p s).2.2 = s.2 ++ l := by
  induction p with
  | ret v => intro opn _ c0 s i; exact ⟨i, fun _ _ h => h, fun _ _ => rfl, [], by simp [exec]⟩
  | raise e => intro opn _ c0 s i; exact ⟨i, fun _ _ h => h, fun _ _ => rfl, [], by simp [exec]⟩
  | put k v cont ih => intro opn h; simp [Safe] at h
  | getOr k fb cont ihf ihc =>
      intro opn h c0 s i
      obtain ⟨hk, hfb, hcont⟩ := h
      have key : Inv c0 (getCacheOr k (exec fb) s).2 ∧ (∀ k' v, s.1.get? k' = some v → (getCacheOr k (exec fb) s).2.1.get? k' = some v) ∧
          (∀ k' ∈ opn, (getCacheOr k (exec fb) s).2.1.get? k' = s.1.get? k') ∧ ∃ l, (getCacheOr k (exec fb) s).2.2 = s.2 ++ l := by
        unfold getCacheOr
        cases hc : s.1.get? k with
        | some v => exact ⟨i, fun _ _ h => h, fun _ _ => rfl, [], by simp⟩
        | none =>
            obtain ⟨i', hm, ho, l, hl⟩ := ihf (k :: opn) hfb c0 s i
            dsimp only
            rcases hr : exec fb s with ⟨r, c, log⟩
            rw [hr] at i' hm ho hl
            dsimp only at i' hm ho hl
            have hck : c.get? k = none := by rw [ho k (by simp)]; exact hc
            obtain ⟨hn0, hnm⟩ := i'.notMem hck
            cases r with
            | error e =>
                refine ⟨⟨?_, ?_, ?_⟩, hm, fun k' hk' => ho k' (by simp [hk']), l ++ [(k, .error e)], by simp [hl]⟩
                · simpa [stored] using i'.nodup
                · simpa [stored] using i'.fresh
                · simpa [stored] using i'.cache
            | ok out =>
                have hst : stored (log ++ [(k, Except.ok out)]) = stored log ++ [(k, out)] := by rw [stored_append]; rfl
                refine ⟨⟨?_, ?_, ?_⟩, ?_, ?_, l ++ [(k, .ok out)], by simp [hl]⟩
                · dsimp only
                  rw [hst, List.map_append]
                  simp only [List.map_cons, List.map_nil]
                  rw [List.nodup_append]
                  refine ⟨i'.nodup, by simp, ?_⟩
                  intro a ha b hb
                  rw [List.mem_singleton] at hb
                  subst hb
                  intro e; subst e; exact hnm ha
                · dsimp only
                  rw [hst]
                  intro x hx
                  rw [List.mem_append, List.mem_singleton] at hx
                  rcases hx with hx | hx
                  · exact i'.fresh x hx
                  · subst hx; exact hn0
                · intro k'
                  dsimp only
                  rw [hst, PyDict.get?_set, List.find?_append]
                  by_cases e : k' = k
                  · subst e
                    rw [if_pos rfl, hn0]
                    have : (stored log).find? (fun x => x.1 = k') = none := by
                      rw [List.find?_eq_none]
                      intro x hx hxk
                      exact hnm (List.mem_map.mpr ⟨x, hx, by simpa using hxk⟩)
                    simp [this]
                  · rw [if_neg e, i'.cache k']
                    have : List.find? (fun x => decide (x.1 = k')) [(k, out)] = none := by simp [Ne.symm e]
                    rw [this]
                    cases c0.get? k' <;> simp
                · intro k' v hv
                  rw [PyDict.get?_set]
                  by_cases e : k' = k
                  · subst e; rw [hc] at hv; simp at hv
                  · rw [if_neg e]; exact hm k' v hv
                · intro k' hk'
                  rw [PyDict.get?_set, if_neg (show ¬ k' = k from fun e => hk (e ▸ hk'))]
                  exact ho k' (by simp [hk'])
      obtain ⟨i1, m1, o1, l1, e1⟩ := key
      have hx : exec (.getOr k fb cont) s = exec (cont (getCacheOr k (exec fb) s).1) (getCacheOr k (exec fb) s).2 := rfl
      rw [hx]
      obtain ⟨i2, m2, o2, l2, e2⟩ := ihc _ opn (hcont _) c0 _ i1
      exact ⟨i2, fun k' v h => m2 k' v (m1 k' v h), fun k' h => (o2 k' h).trans (o1 k' h), l1 ++ l2, by rw [e2, e1, List.append_assoc]⟩

/-- C84: over any history of requests, with fallbacks that may use the cache for other keys, catch exceptions and raise: a key once cached
keeps its value; for each key at most one fallback run delivers a value, none if the key was cached at the beginning; and the cached
value of a key is the initial one or the one its fallback delivered. -/
theorem C84_once (p : Prog K V) (hp : Safe [] p) (c : PyDict K V) :
    let r := exec p (c, [])
    (∀ k v, c.get? k = some v → r.2.1.get? k = some v) ∧
    (∀ k, ((stored r.2.2).filter (fun x => x.1 = k)).length ≤ 1) ∧
    (∀ k v, (k, v) ∈ stored r.2.2 → c.get? k = none ∧ r.2.1.get? k = some v) ∧
    (∀ k v, r.2.1.get? k = some v → c.get? k = some v ∨ (k, v) ∈ stored r.2.2) := by
  have i0 : Inv c (c, []) := ⟨by simp [stored], by simp [stored], by intro k; cases c.get? k <;> rfl⟩
  obtain ⟨i, m, -, -⟩ := exec_inv p [] hp c (c, []) i0
  have uniq : ∀ k v, (k, v) ∈ stored (exec p (c, [])).2.2 → (stored (exec p (c, [])).2.2).find? (fun x => x.1 = k) = some (k, v) := by
    have hn := i.nodup
    generalize stored (exec p (c, [])).2.2 = l at hn
    induction l with
    | nil => intro k v h; simp at h
    | cons a t ih =>
        intro k v h
        simp only [List.map_cons, List.nodup_cons] at hn
        rcases List.mem_cons.mp h with h | h
        · subst h; simp
        · have : a.1 ≠ k := by intro e; subst e; exact hn.1 (List.mem_map.mpr ⟨_, h, rfl⟩)
          rw [List.find?_cons_of_neg (by simpa using this)]
          exact ih hn.2 k v h
  refine ⟨m, ?_, ?_, ?_⟩
  · intro k
    have hn := i.nodup
    generalize stored (exec p (c, [])).2.2 = l at hn
    induction l with
    | nil => simp
    | cons a t ih =>
        simp only [List.map_cons, List.nodup_cons] at hn
        by_cases ha : a.1 = k
        · subst ha
          have : t.filter (fun x => x.1 = a.1) = [] := by
            rw [List.filter_eq_nil_iff]
            intro x hx hxa
            exact hn.1 (List.mem_map.mpr ⟨x, hx, by simpa using hxa⟩)
          simp [this]
        · rw [List.filter_cons_of_neg (by simpa using ha)]; exact ih hn.2
  · intro k v h
    have h0 := i.fresh _ h
    refine ⟨h0, ?_⟩
    rw [i.cache k, h0, uniq k v h]; rfl
  · intro k v h
    rw [i.cache k] at h
    cases hc : c.get? k with
    | some w => rw [hc] at h; simp at h; left; rw [h]
    | none =>
        rw [hc] at h
        right
        simp only [Option.map_eq_some_iff] at h
        obtain ⟨x, hx, rfl⟩ := h
        have := List.find?_some hx
        simp only [decide_eq_true_eq] at this
        subst this
        exact List.mem_of_find?_eq_some hx

/-- Example of a program meeting the hypothesis: key 0 computed from key 1, then both requested again. -/
example : Safe [] (.getOr 0 (.getOr 1 (.ret 5) (fun r => match r with | .ok v => .ret (v + 1) | .error e => .raise e))
    (fun _ => .getOr 1 (.ret 7) (fun _ => .ret 0)) : Prog Nat Nat) := by
  refine ⟨by simp, ⟨by simp, trivial, fun r => by cases r <;> trivial⟩, fun r => ⟨by simp, trivial, fun r => trivial⟩⟩

/-- C84 (limit): a fallback that asks for its own key breaks the rule: the inner value is cached and delivered, then replaced by the outer one. -/
theorem C84_reentrant (k : K) (v w : V) (c : PyDict K V) (h : c.get? k = none) :
    let p : Prog K V := .getOr k (.getOr k (.ret v) (fun _ => .ret w)) (fun _ => .ret w)
    (exec p (c, [])).2.1.get? k = some w ∧ stored (exec p (c, [])).2.2 = [(k, v), (k, w)] := by
  simp [exec, getCacheOr, h, stored, PyDict.get?_set_self]

/-- C84: `put_cache` sets the value that later requests return, without running their fallbacks. -/
theorem C84_put (k : K) (v : V) (fb : Prog K V) (c : PyDict K V) :
    exec (.put k v (.getOr k fb (fun r => match r with | .ok x => .ret x | .error e => .raise e))) (c, []) = (.ok v, c.set k v, []) := by
  have hs : (c.set k v).get? k = some v := PyDict.get?_set_self c k v
  simp [exec, putCache, getCacheOr, hs]

/-! ### Two levels -/

/-- A program without `put_cache`. -/
def NoPut : Prog K V → Prop
  | .ret _ => True
  | .raise _ => True
  | .put _ _ _ => False
  | .getOr _ fb cont => NoPut fb ∧ ∀ r, NoPut (cont r)

/-- Both caches hold the same values. -/
def Same (d : PyDict (K × S) V) (m : PyDict K (PyDict S V)) : Prop := ∀ k s, d.get? (k, s) = ((m.get? k).getD []).get? s

/-- C84: a `HasMultiCache` behaves for every program exactly as a `HasCache` with the pairs (key, subkey) as keys: same results, same
fallback runs, same contents.  So the statements above hold for it, too. -/
theorem C84_multi (p : Prog (K × S) V) (hp : NoPut p) (d : PyDict (K × S) V) (m : PyDict K (PyDict S V)) (log : Log (K × S) V) (h : Same d m) :
    (multiExec p (m, log)).1 = (exec p (d, log)).1 ∧ (multiExec p (m, log)).2.2 = (exec p (d, log)).2.2 ∧
    Same (exec p (d, log)).2.1 (multiExec p (m, log)).2.1 := by
  induction p generalizing d m log with
  | ret v => exact ⟨rfl, rfl, h⟩
  | raise e => exact ⟨rfl, rfl, h⟩
  | put k v cont ih => simp [NoPut] at hp
  | getOr k fb cont ihf ihc =>
      obtain ⟨hfb, hcont⟩ := hp
      have hm0 : Same d (touch m k.1) := by
        unfold touch
        cases hk : m.get? k.1 with
        | some _ => exact h
        | none =>
            intro a s
            dsimp only
            rw [h a s, PyDict.get?_set]
            by_cases e : a = k.1
            · subst e; simp [hk]
            · rw [if_neg e]
      have key : (multiGetOr k.1 k.2 (multiExec fb) (m, log)).1 = (getCacheOr k (exec fb) (d, log)).1 ∧
          (multiGetOr k.1 k.2 (multiExec fb) (m, log)).2.2 = (getCacheOr k (exec fb) (d, log)).2.2 ∧
          Same (getCacheOr k (exec fb) (d, log)).2.1 (multiGetOr k.1 k.2 (multiExec fb) (m, log)).2.1 := by
        unfold multiGetOr getCacheOr
        dsimp only
        generalize touch m k.1 = m0 at hm0 ⊢
        have hd : d.get? k = ((m0.get? k.1).getD []).get? k.2 := hm0 k.1 k.2
        rw [← hd]
        cases hk : d.get? k with
        | some v => exact ⟨rfl, rfl, hm0⟩
        | none =>
            obtain ⟨e1, e2, e3⟩ := ihf hfb d m0 log hm0
            dsimp only
            rcases hr : exec fb (d, log) with ⟨r, c, l⟩
            rcases hr' : multiExec fb (m0, log) with ⟨r', c', l'⟩
            rw [hr, hr'] at e1 e2 e3
            dsimp only at e1 e2 e3
            subst e1 e2
            cases r' with
            | error e => exact ⟨rfl, rfl, e3⟩
            | ok out =>
                refine ⟨rfl, rfl, ?_⟩
                intro a s
                dsimp only
                rw [PyDict.get?_set, PyDict.get?_set]
                by_cases ha : a = k.1
                · rw [if_pos ha]
                  simp only [Option.getD_some, PyDict.get?_set]
                  by_cases hs : s = k.2
                  · rw [if_pos hs, if_pos (by rw [ha, hs])]
                  · rw [if_neg hs, if_neg (by intro e; exact hs (by rw [← e])), e3 a s, ha]
                · rw [if_neg ha, if_neg (by intro e; exact ha (by rw [← e])), e3 a s]
      obtain ⟨k1, k2, k3⟩ := key
      have hx : exec (.getOr k fb cont) (d, log) = exec (cont (getCacheOr k (exec fb) (d, log)).1) (getCacheOr k (exec fb) (d, log)).2 := rfl
      have hx' : multiExec (.getOr k fb cont) (m, log) = multiExec (cont (multiGetOr k.1 k.2 (multiExec fb) (m, log)).1) (multiGetOr k.1 k.2 (multiExec fb) (m, log)).2 := rfl
      rw [hx, hx', k1]
      have := ihc _ (hcont (getCacheOr k (exec fb) (d, log)).1) _ _ (getCacheOr k (exec fb) (d, log)).2.2 k3
      have e2 : (multiGetOr k.1 k.2 (multiExec fb) (m, log)).2 = ((multiGetOr k.1 k.2 (multiExec fb) (m, log)).2.1, (getCacheOr k (exec fb) (d, log)).2.2) := by rw [← k2]
      rw [e2]
      exact this

/-- An empty `HasMultiCache` and an empty `HasCache`. -/
example : Same ([] : PyDict (Nat × Nat) Nat) [] := fun _ _ => rfl

/-- C84: a `HasMultiCache` whose fallback raised holds no value for the pair (only the empty dictionary of its first key). -/
theorem C84_multi_raise (k : K) (s : S) (e : PyErr) (m : PyDict K (PyDict S V)) (h : m.get? k = none) :
    let r := multiExec (.getOr (k, s) (.raise e) (fun r => match r with | .ok x => .ret x | .error e => .raise e)) (m, [])
    r.1 = .error e ∧ r.2.1.get? k = some [] ∧ ∀ k', k' ≠ k → r.2.1.get? k' = m.get? k' := by
  have hs : (m.set k []).get? k = some ([] : PyDict S V) := PyDict.get?_set_self m k []
  have hg : PyDict.get? ([] : PyDict S V) s = none := rfl
  refine ⟨?_, ?_, ?_⟩ <;> simp [multiExec, multiGetOr, touch, h, hs, hg]
  intro k' hk'
  exact PyDict.get?_set_ne _ _ _ _ hk'

end Pyhipp.Cache
