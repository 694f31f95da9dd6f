import Verif.Model.DataDictRepr
import Verif.Props.DataDict
/-
C145: DataDict.to_simple_repr.
-/
namespace Pyhipp.DataDict
open Pyhipp

local notation "Ref" => Nat

variable {A : Type}

/-! ### Specification -/

/-- Every object of `h` is still there, unchanged, in `h'`. -/
def Keeps (h h' : Heap A) : Prop := h.next ≤ h'.next ∧ ∀ r, r < h.next → h'.obj r = h.obj r

/-- `Inside h d p v`: `v` is found in the DataDict `d` under the keys `p`, going through DataDicts only. -/
inductive Inside (h : Heap A) : Ref → List Str → Val A → Prop where
  | here {d i} : h.obj d = some (.dataDict i) → Inside h d [] (.ref d)
  | entry {d i k v} : h.obj d = some (.dataDict i) → (h.entries i).get? k = some v → Inside h d [k] v
  | down {d i k c p v} : h.obj d = some (.dataDict i) → (h.entries i).get? k = some (.ref c) → Inside h c p v →
      Inside h d (k :: p) v

/-- `v'` (in heap `h'`) is what becomes of the value `v` (in heap `h`): leaves are converted, tuples and built-in dicts are the same
object, and a DataDict becomes a new built-in dict with the same keys in the same order, holding what becomes of the values. -/
inductive Becomes (rep : A → PyM A) (h h' : Heap A) : Val A → Val A → Prop where
  | atom {a a'} : rep a = .ok a' → Becomes rep h h' (.atom a) (.atom a')
  | tup {vs} : Becomes rep h h' (.tup vs) (.tup vs)
  | same {r} : (∀ i, h.obj r ≠ some (.dataDict i)) → Becomes rep h h' (.ref r) (.ref r)
  | new {d i o out} : h.obj d = some (.dataDict i) → h.next ≤ o → o < h'.next → h'.obj o = some (.dict out) →
      out.keys = (h.entries i).keys →
      (∀ k x y, (h.entries i).get? k = some x → out.get? k = some y → Becomes rep h h' x y) → Becomes rep h h' (.ref d) (.ref o)

/-! ### Lemmas -/

theorem Keeps.refl (h : Heap A) : Keeps h h := ⟨Nat.le_refl _, fun _ _ => rfl⟩

theorem Keeps.trans {h h' h'' : Heap A} (a : Keeps h h') (b : Keeps h' h'') : Keeps h h'' :=
  ⟨Nat.le_trans a.1 b.1, fun r hr => (b.2 r (Nat.lt_of_lt_of_le hr a.1)).trans (a.2 r hr)⟩

theorem Keeps.alloc (h : Heap A) (o : Obj A) : Keeps h (h.alloc o).2 :=
  ⟨Nat.le_succ _, fun r hr => if_neg (by omega)⟩

theorem Becomes.mono {rep : A → PyM A} {h h' h'' : Heap A} (hk : Keeps h' h'') {v v' : Val A} (hb : Becomes rep h h' v v') :
    Becomes rep h h'' v v' := by
  induction hb with
  | atom e => exact .atom e
  | tup => exact .tup
  | same e => exact .same e
  | new a b c d e _ ih => exact .new a b (Nat.lt_of_lt_of_le c hk.1) ((hk.2 _ c).trans d) e ih

/-- All objects mentioned in `h0` exist. -/
def NoDangling (h : Heap A) : Prop := ∀ r es k x, h.obj r = some (.dict es) → es.get? k = some (.ref x) → x < h.next

theorem entries_keeps {h0 h : Heap A} (hk : Keeps h0 h) (i : Ref) (hi : i < h0.next) : h.entries i = h0.entries i := by
  unfold Heap.entries; rw [hk.2 i hi]

/-- What the loop does, given what the calls do. -/
theorem conv_ok (rep : A → PyM A) (call : Heap A → Ref → PyM Ref × Heap A) (h0 : Heap A) (good : Ref → Prop)
    (hcall : ∀ h d o h', Keeps h0 h → (∃ i, h0.obj d = some (.dataDict i)) → d < h0.next → call h d = (.ok o, h') →
      Keeps h h' ∧ Becomes rep h0 h' (.ref d) (.ref o) ∧ good d) :
    ∀ (es : List (Str × Val A)) (h : Heap A) (acc : PyDict Str (Val A)) (out : PyDict Str (Val A)) (h' : Heap A),
      Keeps h0 h → PyDict.WF es → (∀ k ∈ PyDict.keys es, k ∉ acc.keys) → (∀ k x, (k, Val.ref x) ∈ es → x < h0.next) →
      convItems rep call h es acc = (.ok out, h') →
      Keeps h h' ∧ out.keys = acc.keys ++ PyDict.keys es ∧ (∀ k, k ∈ acc.keys → out.get? k = acc.get? k) ∧
      (∀ k x, PyDict.get? es k = some x → ∃ y, out.get? k = some y ∧ Becomes rep h0 h' x y) ∧
      (∀ k d i, PyDict.get? es k = some (.ref d) → h0.obj d = some (.dataDict i) → good d) := by
  intro es
  induction es with
  | nil =>
      intro h acc out h' hk _ _ _ hc
      simp only [convItems] at hc
      cases hc
      exact ⟨Keeps.refl _, by simp, fun _ _ => rfl, fun k x hx => by simp at hx, fun k x i hx => by simp at hx⟩
  | cons e rest ih =>
      obtain ⟨k, v⟩ := e
      intro h acc out h' hk hwf hd hlt hc
      have hwf' : PyDict.WF rest := by
        unfold PyDict.WF at hwf ⊢; rw [PyDict.keys_cons] at hwf; exact (List.nodup_cons.mp hwf).2
      have hkr : k ∉ PyDict.keys rest := by
        unfold PyDict.WF at hwf; rw [PyDict.keys_cons] at hwf; exact (List.nodup_cons.mp hwf).1
      have hka : k ∉ acc.keys := hd k (by simp)
      -- common continuation
      have cont : ∀ (h1 : Heap A) (v' : Val A), Keeps h h1 → Becomes rep h0 h1 v v' →
          (∀ d i, v = .ref d → h0.obj d = some (.dataDict i) → good d) →
          convItems rep call h1 rest (acc.set k v') = (.ok out, h') →
          Keeps h h' ∧ out.keys = acc.keys ++ PyDict.keys ((k, v) :: rest) ∧ (∀ k, k ∈ acc.keys → out.get? k = acc.get? k) ∧
          (∀ k1 x, PyDict.get? ((k, v) :: rest) k1 = some x → ∃ y, out.get? k1 = some y ∧ Becomes rep h0 h' x y) ∧
          (∀ k1 d i, PyDict.get? ((k, v) :: rest) k1 = some (.ref d) → h0.obj d = some (.dataDict i) → good d) := by
        intro h1 v' k1 hb hg hc1
        have hset : (acc.set k v').keys = acc.keys ++ [k] := PyDict.keys_set_of_not_mem _ _ _ hka
        obtain ⟨a, b, c, d, g⟩ := ih h1 (acc.set k v') out h' (hk.trans k1) hwf'
          (by
            intro x hx hm
            rw [hset] at hm
            rcases List.mem_append.mp hm with hm | hm
            · exact hd x (by simp [hx]) hm
            · simp only [List.mem_singleton] at hm; subst hm; exact hkr hx)
          (fun x y hxy => hlt x y (List.mem_cons_of_mem _ hxy)) hc1
        refine ⟨k1.trans a, by rw [b, hset]; simp, ?_, ?_, ?_⟩
        · intro x hx
          have hne : x ≠ k := fun h => hka (h ▸ hx)
          rw [c x (by rw [hset]; exact List.mem_append_left _ hx), PyDict.get?_set_ne _ _ _ _ hne]
        · intro x y hxy
          by_cases hx : x = k
          · subst hx
            have hy : y = v := by simpa [PyDict.get?] using hxy.symm
            subst hy
            exact ⟨v', by rw [c x (by rw [hset]; simp), PyDict.get?_set_self], hb.mono a⟩
          · exact d x y (by
              have hx' : ¬ k = x := fun h => hx h.symm
              simpa [PyDict.get?, hx, hx'] using hxy)
        · intro x y i hxy hi
          by_cases hx : x = k
          · subst hx
            have hy : Val.ref y = v := by simpa [PyDict.get?] using hxy.symm
            exact hg y i hy.symm hi
          · exact g x y i (by
              have hx' : ¬ k = x := fun h => hx h.symm
              simpa [PyDict.get?, hx, hx'] using hxy) hi
      cases v with
      | atom a =>
          simp only [convItems] at hc
          cases hr : rep a with
          | error e => rw [hr] at hc; cases hc
          | ok a' =>
              rw [hr] at hc
              exact cont h (.atom a') (Keeps.refl _) (.atom hr) (fun _ _ he => by cases he) hc
      | tup vs =>
          simp only [convItems] at hc
          exact cont h (.tup vs) (Keeps.refl _) .tup (fun _ _ he => by cases he) hc
      | ref r =>
          have hr : r < h0.next := hlt k r (by simp)
          simp only [convItems] at hc
          have hobj := hk.2 r hr
          cases ho : h0.obj r with
          | none =>
              rw [hobj, ho] at hc
              exact cont h (.ref r) (Keeps.refl _) (.same (by intro i hi; rw [ho] at hi; cases hi))
                (fun d i he hi => by cases he; rw [ho] at hi; cases hi) hc
          | some ob =>
              cases ob with
              | dict es' =>
                  rw [hobj, ho] at hc
                  exact cont h (.ref r) (Keeps.refl _) (.same (by intro i hi; rw [ho] at hi; cases hi))
                    (fun d i he hi => by cases he; rw [ho] at hi; cases hi) hc
              | dataDict i =>
                  rw [hobj, ho] at hc
                  simp only at hc
                  cases hcl : call h r with
                  | mk res h1 =>
                      rw [hcl] at hc
                      cases res with
                      | error e => cases hc
                      | ok o =>
                          obtain ⟨p, q, s⟩ := hcall h r o h1 hk ⟨i, ho⟩ hr hcl
                          exact cont h1 (.ref o) p q (fun d i he hi => by cases he; exact s) hc

theorem inner_facts {h : Heap A} (hw : h.WF) (hn : NoDangling h) {d i : Ref} (hd : h.obj d = some (.dataDict i)) :
    d < h.next ∧ i < h.next ∧ (h.entries i).WF ∧ ∀ k x, (k, Val.ref x) ∈ h.entries i → x < h.next := by
  obtain ⟨es, he⟩ := hw.inner d i hd
  refine ⟨lt_next h hw d _ hd, lt_next h hw i _ he, WF_entries h hw i, ?_⟩
  intro k x hx
  have hen : h.entries i = es := by unfold Heap.entries; rw [he]
  rw [hen] at hx
  exact hn i es k x he (PyDict.get?_of_mem es (hw.keys i es he) k _ hx)

theorem toSimple_ok (rep : A → PyM A) (h0 : Heap A) (hw : h0.WF) (hn : NoDangling h0) : ∀ (n : Nat) (h : Heap A) (d o : Ref) (h' : Heap A),
    Keeps h0 h → (∃ i, h0.obj d = some (.dataDict i)) → d < h0.next → toSimple rep n h d = (.ok o, h') →
    Keeps h h' ∧ Becomes rep h0 h' (.ref d) (.ref o) ∧
      (∀ p r i, Inside h0 d p (.ref r) → h0.obj r = some (.dataDict i) → p.length < n) := by
  intro n
  induction n with
  | zero => intro h d o h' _ _ _ hc; simp only [toSimple] at hc; cases hc
  | succ n ih =>
      intro h d o h' hk hdd hd hc
      obtain ⟨i, hi⟩ := hdd
      obtain ⟨f1, f2, f3, f4⟩ := inner_facts hw hn hi
      simp only [toSimple, hk.2 d hd, hi] at hc
      rw [entries_keeps hk i f2] at hc
      cases hcv : convItems rep (toSimple rep n) h (h0.entries i) [] with
      | mk res h1 =>
          rw [hcv] at hc
          cases res with
          | error e => cases hc
          | ok out =>
              simp only at hc
              obtain ⟨a, b, _, c, g⟩ := conv_ok rep (toSimple rep n) h0
                (fun d => ∀ p r i, Inside h0 d p (.ref r) → h0.obj r = some (.dataDict i) → p.length < n) ih
                (h0.entries i) h [] out h1 hk f3 (by simp) f4 hcv
              have ho : o = h1.next := by
                have := congrArg Prod.fst hc
                exact (Except.ok.inj this).symm
              have hh : h' = (h1.alloc (.dict out)).2 := (congrArg Prod.snd hc).symm
              have hal := Keeps.alloc h1 (.dict out)
              subst hh
              refine ⟨a.trans hal, ?_, ?_⟩
              · refine .new hi (ho ▸ (hk.trans a).1) (by rw [ho]; exact Nat.lt_succ_self _) (out := out)
                  (by rw [ho]; exact if_pos rfl) (by simpa using b) ?_
                intro k x y hx hy
                obtain ⟨y', hy', hb⟩ := c k x hx
                rw [hy] at hy'
                cases hy'
                exact hb.mono hal
              · intro p r j hin hr
                cases hin with
                | here _ => exact Nat.succ_pos _
                | @entry i' _ k _ h1' h2' =>
                    rw [hi] at h1'; cases h1'
                    have := g k r j h2' hr [] r j (.here hr) hr
                    simp only [List.length_cons, List.length_nil] at this ⊢
                    omega
                | @down _ i' k c p v h1' h2' h3' =>
                    rw [hi] at h1'; cases h1'
                    have hcdd : ∃ j', h0.obj c = some (.dataDict j') := by
                      cases h3' with
                      | here q => exact ⟨_, q⟩
                      | entry q _ => exact ⟨_, q⟩
                      | down q _ _ => exact ⟨_, q⟩
                    obtain ⟨j', hj'⟩ := hcdd
                    have := g k c j' h2' hj' p r j h3' hr
                    simp only [List.length_cons]
                    omega

/-- Why the loop fails. -/
theorem conv_err (rep : A → PyM A) (call : Heap A → Ref → PyM Ref × Heap A) (h0 : Heap A)
    (hcall : ∀ h d o h', Keeps h0 h → (∃ i, h0.obj d = some (.dataDict i)) → d < h0.next → call h d = (.ok o, h') → Keeps h h') :
    ∀ (es : List (Str × Val A)) (h : Heap A) (acc : PyDict Str (Val A)) (e : PyErr) (h' : Heap A),
      Keeps h0 h → (∀ k x, (k, Val.ref x) ∈ es → x < h0.next) →
      convItems rep call h es acc = (.error e, h') →
      (∃ k a, (k, Val.atom a) ∈ es ∧ rep a = .error e) ∨
      (∃ k d i h1 h2, (k, Val.ref d) ∈ es ∧ h0.obj d = some (.dataDict i) ∧ Keeps h0 h1 ∧ call h1 d = (.error e, h2)) := by
  intro es
  induction es with
  | nil => intro h acc e h' _ _ hc; simp only [convItems] at hc; cases hc
  | cons en rest ih =>
      obtain ⟨k, v⟩ := en
      intro h acc e h' hk hlt hc
      have cont : ∀ (h1 : Heap A) (acc' : PyDict Str (Val A)), Keeps h0 h1 → convItems rep call h1 rest acc' = (.error e, h') →
          (∃ k1 a, (k1, Val.atom a) ∈ (k, v) :: rest ∧ rep a = .error e) ∨
          (∃ k1 d i h1 h2, (k1, Val.ref d) ∈ (k, v) :: rest ∧ h0.obj d = some (.dataDict i) ∧ Keeps h0 h1 ∧
            call h1 d = (.error e, h2)) := by
        intro h1 acc' k1 hc1
        rcases ih h1 acc' e h' k1 (fun x y hxy => hlt x y (List.mem_cons_of_mem _ hxy)) hc1 with
          ⟨x, a, m, r⟩ | ⟨x, d, i, g1, g2, m, r⟩
        · exact .inl ⟨x, a, List.mem_cons_of_mem _ m, r⟩
        · exact .inr ⟨x, d, i, g1, g2, List.mem_cons_of_mem _ m, r⟩
      cases v with
      | atom a =>
          simp only [convItems] at hc
          cases hr : rep a with
          | error e' =>
              rw [hr] at hc
              have : e' = e := Except.error.inj (congrArg Prod.fst hc)
              subst this
              exact .inl ⟨k, a, List.mem_cons_self, hr⟩
          | ok a' => rw [hr] at hc; exact cont h _ hk hc
      | tup vs => simp only [convItems] at hc; exact cont h _ hk hc
      | ref r =>
          have hr : r < h0.next := hlt k r (by simp)
          simp only [convItems] at hc
          have hobj := hk.2 r hr
          cases ho : h0.obj r with
          | none => rw [hobj, ho] at hc; exact cont h _ hk hc
          | some ob =>
              cases ob with
              | dict es' => rw [hobj, ho] at hc; exact cont h _ hk hc
              | dataDict i =>
                  rw [hobj, ho] at hc
                  simp only at hc
                  cases hcl : call h r with
                  | mk res h1 =>
                      rw [hcl] at hc
                      cases res with
                      | error e' =>
                          have h3 : e' = e := Except.error.inj (congrArg Prod.fst hc)
                          subst h3
                          exact .inr ⟨k, r, i, h, h1, List.mem_cons_self, ho, hk, hcl⟩
                      | ok o => exact cont h1 _ (hk.trans (hcall h r o h1 hk ⟨i, ho⟩ hr hcl)) hc

theorem toSimple_err (rep : A → PyM A) (h0 : Heap A) (hw : h0.WF) (hn : NoDangling h0) : ∀ (n : Nat) (h : Heap A) (d i : Ref)
    (e : PyErr) (h' : Heap A), Keeps h0 h → h0.obj d = some (.dataDict i) → toSimple rep n h d = (.error e, h') →
    (∃ p a, Inside h0 d p (.atom a) ∧ rep a = .error e) ∨
    (e = .runtimeError ∧ ∃ p r j, Inside h0 d p (.ref r) ∧ h0.obj r = some (.dataDict j) ∧ p.length = n) := by
  intro n
  induction n with
  | zero =>
      intro h d i e h' hk hi hc
      simp only [toSimple] at hc
      have h3 : PyErr.runtimeError = e := Except.error.inj (congrArg Prod.fst hc)
      exact .inr ⟨h3.symm, [], d, i, .here hi, hi, rfl⟩
  | succ n ih =>
      intro h d i e h' hk hi hc
      obtain ⟨f1, f2, f3, f4⟩ := inner_facts hw hn hi
      simp only [toSimple, hk.2 d f1, hi] at hc
      rw [entries_keeps hk i f2] at hc
      cases hcv : convItems rep (toSimple rep n) h (h0.entries i) [] with
      | mk res h1 =>
          rw [hcv] at hc
          cases res with
          | ok out => simp only at hc; cases hc
          | error e' =>
              have h3 : e' = e := Except.error.inj (congrArg Prod.fst hc)
              subst h3
              rcases conv_err rep (toSimple rep n) h0
                (fun h d o h' q1 q2 q3 q4 => (toSimple_ok rep h0 hw hn n h d o h' q1 q2 q3 q4).1) (h0.entries i) h [] e' h1 hk f4 hcv with
                ⟨k, a, m, r⟩ | ⟨k, c, j, g1, g2, m, hj, kg, hcl⟩
              · exact .inl ⟨[k], a, .entry hi (PyDict.get?_of_mem _ f3 k _ m), r⟩
              · have hm := PyDict.get?_of_mem _ f3 k _ m
                rcases ih g1 c j e' g2 kg hj hcl with ⟨p, a, q, r⟩ | ⟨q, p, r, j', s, t, u⟩
                · exact .inl ⟨k :: p, a, .down hi hm q, r⟩
                · exact .inr ⟨q, k :: p, r, j', .down hi hm s, t, by simp [u]⟩

theorem becomes_atoms {rep : A → PyM A} {h h' : Heap A} {d o : Ref} (hb : Becomes rep h h' (.ref d) (.ref o)) {p : List Str} {v : Val A}
    (hin : Inside h d p v) : ∀ a, v = .atom a → ∃ a', rep a = .ok a' := by
  induction hin generalizing o with
  | here _ => intro a ha; cases ha
  | @entry d i k v h1 h2 =>
      intro a ha
      cases hb with
      | same hs => exact absurd h1 (hs i)
      | @new _ i' _ out g1 g2 g3 g4 g5 g6 =>
          rw [h1] at g1; cases g1
          have hk : k ∈ out.keys := by rw [g5]; exact (PyDict.get?_isSome_iff _ _).mp (by rw [h2]; rfl)
          obtain ⟨y, hy⟩ := Option.isSome_iff_exists.mp ((PyDict.get?_isSome_iff _ _).mpr hk)
          subst ha
          have := g6 k _ y h2 hy
          cases this with
          | atom e => exact ⟨_, e⟩
  | @down d i k c p v h1 h2 h3 ih =>
      cases hb with
      | same hs => exact absurd h1 (hs i)
      | @new _ i' _ out g1 g2 g3 g4 g5 g6 =>
          rw [h1] at g1; cases g1
          have hk : k ∈ out.keys := by rw [g5]; exact (PyDict.get?_isSome_iff _ _).mp (by rw [h2]; rfl)
          obtain ⟨y, hy⟩ := Option.isSome_iff_exists.mp ((PyDict.get?_isSome_iff _ _).mpr hk)
          have hb' := g6 k _ y h2 hy
          cases hb' with
          | same hs => exact ih (.same hs)
          | new q1 q2 q3 q4 q5 q6 => exact ih (.new q1 q2 q3 q4 q5 q6)

/-! ### C145 -/

/-- C145: `d.to_simple_repr()` changes no object, and what it returns is a new built-in dict: the keys of `d`, and at every level reached
through DataDicts a new built-in dict with the same keys in the same order and the converted values. -/
theorem C145_becomes (rep : A → PyM A) (n : Nat) (h : Heap A) (hw : h.WF) (hn : NoDangling h) (d : Ref) (hd : IsDD h d) (o : Ref)
    (h' : Heap A) (hc : toSimple rep n h d = (.ok o, h')) :
    Keeps h h' ∧ h.next ≤ o ∧ Becomes rep h h' (.ref d) (.ref o) := by
  obtain ⟨i, hi⟩ := hd
  obtain ⟨a, b, _⟩ := toSimple_ok rep h hw hn n h d o h' (Keeps.refl _) ⟨i, hi⟩ (lt_next h hw d _ hi) hc
  refine ⟨a, ?_, b⟩
  cases b with
  | same hs => exact absurd hi (hs i)
  | new _ q _ _ _ _ => exact q

/-- C145: it succeeds exactly if every leaf found through DataDicts can be converted and the nesting of DataDicts is below the recursion
limit; otherwise it raises the error of a leaf, or RecursionError. -/
theorem C145_succeeds (rep : A → PyM A) (n : Nat) (h : Heap A) (hw : h.WF) (hn : NoDangling h) (d : Ref) (hd : IsDD h d) :
    ((∃ o h', toSimple rep n h d = (.ok o, h')) ↔
      (∀ p a, Inside h d p (.atom a) → ∃ a', rep a = .ok a') ∧
      (∀ p r, Inside h d p (.ref r) → IsDD h r → p.length < n)) ∧
    (∀ e h', toSimple rep n h d = (.error e, h') →
      (∃ p a, Inside h d p (.atom a) ∧ rep a = .error e) ∨ (e = .runtimeError ∧ ∃ p r, Inside h d p (.ref r) ∧ IsDD h r ∧ p.length = n)) := by
  obtain ⟨i, hi⟩ := hd
  have herr : ∀ e h', toSimple rep n h d = (.error e, h') →
      (∃ p a, Inside h d p (.atom a) ∧ rep a = .error e) ∨
        (e = .runtimeError ∧ ∃ p r, Inside h d p (.ref r) ∧ IsDD h r ∧ p.length = n) := by
    intro e h' hc
    rcases toSimple_err rep h hw hn n h d i e h' (Keeps.refl _) hi hc with q | ⟨q, p, r, j, s, t, u⟩
    · exact .inl q
    · exact .inr ⟨q, p, r, s, ⟨j, t⟩, u⟩
  refine ⟨⟨?_, ?_⟩, herr⟩
  · rintro ⟨o, h', hc⟩
    obtain ⟨a, b, c⟩ := toSimple_ok rep h hw hn n h d o h' (Keeps.refl _) ⟨i, hi⟩ (lt_next h hw d _ hi) hc
    exact ⟨fun p x hx => becomes_atoms b hx x rfl, fun p r hr hdd => c p r _ hr hdd.choose_spec⟩
  · rintro ⟨h1, h2⟩
    cases hc : toSimple rep n h d with
    | mk res h' =>
        cases res with
        | ok o => exact ⟨o, h', rfl⟩
        | error e =>
            exfalso
            rcases herr e h' hc with ⟨p, a, q, r⟩ | ⟨_, p, r, q, s, t⟩
            · obtain ⟨a', ha'⟩ := h1 p a q
              rw [r] at ha'; cases ha'
            · have := h2 p r q s; omega

theorem inside_trans {h : Heap A} {d c : Ref} {p q : List Str} {v w : Val A} (h1 : Inside h d p w) :
    w = .ref c → Inside h c q v → Inside h d (p ++ q) v := by
  induction h1 with
  | here _ => intro hw h2; cases hw; exact h2
  | entry a b => intro hw h2; subst hw; exact .down a b h2
  | down a b _ ih => intro hw h2; exact .down a b (ih hw h2)

/-- C145: a DataDict that contains itself (through DataDicts) has no representation, whatever the recursion limit. -/
theorem C145_cycle (rep : A → PyM A) (h : Heap A) (hw : h.WF) (hn : NoDangling h) (d : Ref) (hd : IsDD h d) (p : List Str)
    (hp : p ≠ []) (hin : Inside h d p (.ref d)) (n : Nat) : ∃ e h', toSimple rep n h d = (.error e, h') := by
  cases hc : toSimple rep n h d with
  | mk res h' =>
      cases res with
      | error e => exact ⟨e, h', rfl⟩
      | ok o =>
          exfalso
          have h2 := ((C145_succeeds rep n h hw hn d hd).1.mp ⟨o, h', hc⟩).2
          have hall : ∀ m : Nat, ∃ q, Inside h d q (.ref d) ∧ m ≤ q.length := by
            intro m
            induction m with
            | zero => exact ⟨[], .here hd.choose_spec, Nat.zero_le _⟩
            | succ m ih =>
                obtain ⟨q, q1, q2⟩ := ih
                refine ⟨p ++ q, inside_trans hin rfl q1, ?_⟩
                have : 0 < p.length := List.length_pos_iff.mpr hp
                rw [List.length_append]; omega
          obtain ⟨q, q1, q2⟩ := hall n
          exact absurd (h2 q d q1 hd) (by omega)

theorem walk_keeps {h h' : Heap A} (hw : h.WF) (hn : NoDangling h) (hk : Keeps h h') : ∀ (p : List Str) (v : Val A),
    (∀ r, v = .ref r → r < h.next) → walk h' v p = walk h v p := by
  intro p
  induction p with
  | nil => intro v _; rfl
  | cons k p ih =>
      intro v hv
      have hres : resolve h' v = resolve h v := by
        cases v with
        | ref r => simp only [resolve, hk.2 r (hv r rfl)]
        | _ => rfl
      simp only [walk, step, hres]
      cases hr : resolve h v with
      | error e => rfl
      | ok r =>
          obtain ⟨es, hes⟩ := resolve_dict h hw v r hr
          have hen : h.entries r = es := by unfold Heap.entries; rw [hes]
          have hen' : h'.entries r = h.entries r := entries_keeps hk r (lt_next h hw r _ hes)
          simp only [bind, Except.bind, hen']
          cases hg : (h.entries r).get? k with
          | none => rfl
          | some x =>
              refine ih x ?_
              intro y hy
              subst hy
              rw [hen] at hg
              exact hn r es k y hes hg

/-- C145: a look-up along any keys gives in the representation the same error as in `d`, or what the value of `d` becomes. -/
theorem C145_paths (rep : A → PyM A) (n : Nat) (h : Heap A) (hw : h.WF) (hn : NoDangling h) (d : Ref) (hd : IsDD h d) (o : Ref)
    (h' : Heap A) (hc : toSimple rep n h d = (.ok o, h')) (p : List Str) :
    (∀ e, walk h (.ref d) p = .error e → walk h' (.ref o) p = .error e) ∧
    (∀ v, walk h (.ref d) p = .ok v → ∃ v', walk h' (.ref o) p = .ok v' ∧ (v' = v ∨ Becomes rep h h' v v')) := by
  obtain ⟨hk, _, hb⟩ := C145_becomes rep n h hw hn d hd o h' hc
  have key : ∀ (p : List Str) (v v' : Val A), (∀ r, v = .ref r → r < h.next) → Becomes rep h h' v v' →
      (∀ e, walk h v p = .error e → walk h' v' p = .error e) ∧
      (∀ x, walk h v p = .ok x → ∃ x', walk h' v' p = .ok x' ∧ (x' = x ∨ Becomes rep h h' x x')) := by
    intro p
    induction p with
    | nil =>
        intro v v' _ hb
        exact ⟨fun e he => by simp [walk] at he, fun x hx => ⟨v', rfl, .inr (by simp only [walk] at hx; cases hx; exact hb)⟩⟩
    | cons k p ih =>
        intro v v' hv hb
        cases hb with
        | atom e => exact ⟨fun e he => by simpa [walk, step, resolve, bind, Except.bind] using he,
            fun x hx => by simp [walk, step, resolve, bind, Except.bind] at hx⟩
        | tup => exact ⟨fun e he => by simpa [walk, step, resolve, bind, Except.bind] using he,
            fun x hx => by simp [walk, step, resolve, bind, Except.bind] at hx⟩
        | @same r hs =>
            have := walk_keeps hw hn hk (k :: p) (.ref r) hv
            rw [this]
            exact ⟨fun e he => he, fun x hx => ⟨x, hx, .inl rfl⟩⟩
        | @new d i o out g1 g2 g3 g4 g5 g6 =>
            obtain ⟨f1, f2, f3, f4⟩ := inner_facts hw hn g1
            have h1 : walk h (.ref d) (k :: p) = match (h.entries i).get? k with
                | some x => walk h x p
                | none => .error .keyError := by
              simp only [walk, step, resolve, g1, bind, Except.bind]
              cases (h.entries i).get? k <;> rfl
            have h2 : walk h' (.ref o) (k :: p) = match out.get? k with
                | some x => walk h' x p
                | none => .error .keyError := by
              have : h'.entries o = out := by unfold Heap.entries; rw [g4]
              simp only [walk, step, resolve, g4, bind, Except.bind, this]
              cases out.get? k <;> rfl
            rw [h1, h2]
            cases hg : (h.entries i).get? k with
            | none =>
                have : out.get? k = none := by
                  rw [PyDict.get?_eq_none_iff] at hg ⊢; rw [g5]; exact hg
                rw [this]
                exact ⟨fun e he => he, fun x hx => by cases hx⟩
            | some x =>
                have hk' : k ∈ out.keys := by rw [g5]; exact (PyDict.get?_isSome_iff _ _).mp (by rw [hg]; rfl)
                obtain ⟨y, hy⟩ := Option.isSome_iff_exists.mp ((PyDict.get?_isSome_iff _ _).mpr hk')
                rw [hy]
                exact ih x y (fun r hr => f4 k r (by subst hr; exact PyDict.mem_of_get? _ _ _ hg)) (g6 k x y hg hy)
  exact key p (.ref d) (.ref o) (fun r hr => by cases hr; exact lt_next h hw d _ hd.choose_spec) hb

theorem inside_becomes {rep : A → PyM A} {h h' : Heap A} {d o : Ref} (hb : Becomes rep h h' (.ref d) (.ref o)) {p : List Str} {v : Val A}
    (hin : Inside h d p v) : ∃ v', walk h' (.ref o) p = .ok v' ∧ Becomes rep h h' v v' := by
  have look : ∀ {o : Ref} {out : PyDict Str (Val A)} {k : Str} {y : Val A} (p : List Str), h'.obj o = some (.dict out) →
      out.get? k = some y → walk h' (.ref o) (k :: p) = walk h' y p := by
    intro o out k y p h1 h2
    have : h'.entries o = out := by unfold Heap.entries; rw [h1]
    simp only [walk, step, resolve, h1, bind, Except.bind, this, h2]
    rfl
  induction hin generalizing o with
  | here _ => exact ⟨.ref o, rfl, hb⟩
  | @entry d i k v h1 h2 =>
      cases hb with
      | same hs => exact absurd h1 (hs i)
      | @new _ i' _ out g1 g2 g3 g4 g5 g6 =>
          rw [h1] at g1; cases g1
          have hk : k ∈ out.keys := by rw [g5]; exact (PyDict.get?_isSome_iff _ _).mp (by rw [h2]; rfl)
          obtain ⟨y, hy⟩ := Option.isSome_iff_exists.mp ((PyDict.get?_isSome_iff _ _).mpr hk)
          exact ⟨y, look [] g4 hy, g6 k v y h2 hy⟩
  | @down d i k c p v h1 h2 h3 ih =>
      cases hb with
      | same hs => exact absurd h1 (hs i)
      | @new _ i' _ out g1 g2 g3 g4 g5 g6 =>
          rw [h1] at g1; cases g1
          have hk : k ∈ out.keys := by rw [g5]; exact (PyDict.get?_isSome_iff _ _).mp (by rw [h2]; rfl)
          obtain ⟨y, hy⟩ := Option.isSome_iff_exists.mp ((PyDict.get?_isSome_iff _ _).mpr hk)
          have hb' := g6 k _ y h2 hy
          rw [look p g4 hy]
          cases hb' with
          | same hs => exact ih (.same hs)
          | new q1 q2 q3 q4 q5 q6 => exact ih (.new q1 q2 q3 q4 q5 q6)

/-- C145: which objects the representation shares with `d`: a DataDict inside `d` becomes an object that did not exist before, so that
changing it in any way (`put`: its entries become `es`) is never visible in `d`; a built-in dict inside `d` is itself in the representation,
so that assigning in the representation assigns in `d`. -/
theorem C145_sharing (rep : A → PyM A) (n : Nat) (h : Heap A) (hw : h.WF) (hn : NoDangling h) (d : Ref) (hd : IsDD h d) (o : Ref)
    (h' : Heap A) (hc : toSimple rep n h d = (.ok o, h')) (p : List Str) (r : Ref) (hin : Inside h d p (.ref r)) :
    (IsDD h r → ∃ r', walk h' (.ref o) p = .ok (.ref r') ∧ (∃ es, h'.obj r' = some (.dict es)) ∧ h.obj r' = none ∧
      ∀ es q, walk (h'.put r' es) (.ref d) q = walk h (.ref d) q) ∧
    (∀ es, h.obj r = some (.dict es) → walk h' (.ref o) p = .ok (.ref r) ∧
      ∀ k v, ∃ h'', store h' (.ref r) k v = (.ok (), h'') ∧ step h'' (.ref r) k = .ok v) := by
  obtain ⟨hk, _, hb⟩ := C145_becomes rep n h hw hn d hd o h' hc
  obtain ⟨v', hv', hb'⟩ := inside_becomes hb hin
  constructor
  · rintro ⟨j, hj⟩
    cases hb' with
    | same hs => exact absurd hj (hs j)
    | @new _ _ r' out g1 g2 g3 g4 g5 g6 =>
        refine ⟨r', hv', ⟨out, g4⟩, hw.fresh r' g2, fun es q => ?_⟩
        have hk2 : Keeps h (h'.put r' es) := by
          refine ⟨hk.1, fun x hx => ?_⟩
          have : x ≠ r' := by omega
          show (if x = r' then _ else h'.obj x) = _
          rw [if_neg this]; exact hk.2 x hx
        exact walk_keeps hw hn hk2 q (.ref d) (fun x hx => by cases hx; exact lt_next h hw d _ hd.choose_spec)
  · intro es hes
    cases hb' with
    | new g1 _ _ _ _ _ => rw [hes] at g1; cases g1
    | same hs =>
        refine ⟨hv', fun k v => ?_⟩
        have hr' : h'.obj r = some (.dict es) := (hk.2 r (lt_next h hw r _ hes)).trans hes
        refine ⟨h'.put r ((h'.entries r).set k v), by simp only [store, resolve, hr'], ?_⟩
        generalize hset : (h'.entries r).set k v = es1
        have h1 : (h'.put r es1).obj r = some (.dict es1) := if_pos rfl
        have h2 : es1.get? k = some v := by rw [← hset]; exact PyDict.get?_set_self _ _ _
        simp only [step, resolve, h1, bind, Except.bind, Heap.entries, h2]
        rfl

/-- C145 (recorded): only DataDicts are looked into: a DataDict that sits in a built-in dict (or in a tuple) is still a DataDict in the
representation, and json.dumps / yaml.dump get to see it. -/
theorem C145_hidden (rep : A → PyM A) (n : Nat) (h : Heap A) (hw : h.WF) (hn : NoDangling h) (d : Ref) (hd : IsDD h d) (o : Ref)
    (h' : Heap A) (hc : toSimple rep n h d = (.ok o, h')) (p : List Str) (r : Ref) (es : PyDict Str (Val A))
    (hin : Inside h d p (.ref r)) (hr : h.obj r = some (.dict es)) (k : Str) (c : Ref) (hk : es.get? k = some (.ref c)) (hcd : IsDD h c) :
    walk h' (.ref o) (p ++ [k]) = .ok (.ref c) ∧ IsDD h' c := by
  obtain ⟨hkeep, _, hb⟩ := C145_becomes rep n h hw hn d hd o h' hc
  obtain ⟨h1, _⟩ := (C145_sharing rep n h hw hn d hd o h' hc p r hin).2 es hr
  obtain ⟨j, hj⟩ := hcd
  refine ⟨?_, j, (hkeep.2 c (lt_next h hw c _ hj)).trans hj⟩
  have hr' : h'.obj r = some (.dict es) := (hkeep.2 r (lt_next h hw r _ hr)).trans hr
  rw [walk_append, h1]
  simp only [bind, Except.bind, walk, step, resolve, hr', Heap.entries, hk]
  rfl

/-- `d = DataDict({'a': DataDict({'b': 1}), 'c': {'e': DataDict({'b': 1})}})`: object 1 is `d`, 3 the nested DataDict, 4 the built-in dict. -/
def exRepr : Heap Nat where
  next := 5
  obj := fun r => if r = 0 then some (.dict [("a".toList, .ref 3), ("c".toList, .ref 4)])
    else if r = 1 then some (.dataDict 0)
    else if r = 2 then some (.dict [("b".toList, .atom 1)])
    else if r = 3 then some (.dataDict 2)
    else if r = 4 then some (.dict [("e".toList, .ref 3)]) else none

theorem exRepr_cases (r : Ref) (o : Obj Nat) (ho : exRepr.obj r = some o) :
    (r = 0 ∧ o = .dict [("a".toList, .ref 3), ("c".toList, .ref 4)]) ∨ (r = 1 ∧ o = .dataDict 0) ∨
    (r = 2 ∧ o = .dict [("b".toList, .atom 1)]) ∨ (r = 3 ∧ o = .dataDict 2) ∨ (r = 4 ∧ o = .dict [("e".toList, .ref 3)]) := by
  simp only [exRepr] at ho
  split at ho
  · cases ho; simp_all
  · split at ho
    · cases ho; simp_all
    · split at ho
      · cases ho; simp_all
      · split at ho
        · cases ho; simp_all
        · split at ho
          · cases ho; simp_all
          · cases ho

theorem exRepr_WF : exRepr.WF := by
  refine ⟨?_, ?_, ?_⟩
  · intro r hr
    simp only [exRepr] at hr ⊢
    rw [if_neg (by omega), if_neg (by omega), if_neg (by omega), if_neg (by omega), if_neg (by omega)]
  · intro r es he
    rcases exRepr_cases r _ he with ⟨_, h⟩ | ⟨_, h⟩ | ⟨_, h⟩ | ⟨_, h⟩ | ⟨_, h⟩ <;> cases h <;> (unfold PyDict.WF; decide)
  · intro r i he
    rcases exRepr_cases r _ he with ⟨_, h⟩ | ⟨_, h⟩ | ⟨_, h⟩ | ⟨_, h⟩ | ⟨_, h⟩ <;> cases h
    · exact ⟨_, rfl⟩
    · exact ⟨_, rfl⟩

theorem exRepr_nd : NoDangling exRepr := by
  intro r es k x he hg
  have hx : x = 3 ∨ x = 4 := by
    rcases exRepr_cases r _ he with ⟨_, h⟩ | ⟨_, h⟩ | ⟨_, h⟩ | ⟨_, h⟩ | ⟨_, h⟩ <;> cases h
    all_goals
      have hm := PyDict.mem_of_get? _ _ _ hg
      simp at hm
      try omega
  show x < 5
  omega

/-- The hypotheses of C145 hold for it: with a recursion limit of 2 the representation is `{'a': {'b': 1}, 'c': <the same dict>}`; with 1
it is a RecursionError. -/
example : exRepr.WF ∧ NoDangling exRepr ∧ IsDD exRepr 1 ∧ (toSimple (fun a => .ok a) 2 exRepr 1).1 = .ok 6 ∧
    (toSimple (fun a => .ok a) 2 exRepr 1).2.entries 6 = [("a".toList, .ref 5), ("c".toList, .ref 4)] ∧
    (toSimple (fun a => .ok a) 2 exRepr 1).2.entries 5 = [("b".toList, .atom 1)] ∧
    (toSimple (fun a => .ok a) 1 exRepr 1).1 = .error .runtimeError ∧
    Inside exRepr 1 ["a".toList] (.ref 3) ∧ Inside exRepr 1 ["c".toList] (.ref 4) ∧ IsDD exRepr 3 :=
  ⟨exRepr_WF, exRepr_nd, ⟨0, rfl⟩, rfl, rfl, rfl, rfl, .entry (i := 0) rfl rfl, .entry (i := 0) rfl rfl, ⟨2, rfl⟩⟩

end Pyhipp.DataDict
