import Verif.Model.ReduceSpec
import Mathlib.Data.List.Forall2
/-
C118: specifications of reductions.
-/
namespace Pyhipp.ReduceSpec
open Pyhipp

variable {R K : Type}

/-- The names a user may write, with the class each stands for. -/
def Names (s : Str) (c : Cls) : Prop :=
  (s, c) ∈ [("count".toList, Cls.count), ("cnt".toList, Cls.count), ("sum".toList, Cls.sum), ("mean".toList, Cls.mean),
    ("std_dev".toList, Cls.stdDev), ("std".toList, Cls.stdDev), ("sd".toList, Cls.stdDev), ("quantile".toList, Cls.quantile),
    ("qs".toList, Cls.quantile), ("median".toList, Cls.median), ("errorbar".toList, Cls.errorbar)]

instance (s : Str) (c : Cls) : Decidable (Names s c) := by unfold Names; infer_instance

theorem names_iff (s : Str) (c : Cls) : Names s c ↔ PyDict.get? table s = some c := by
  have hw : PyDict.WF table := by
    show (table.map (fun p => p.1)).Nodup
    decide
  exact ⟨fun h => PyDict.get?_of_mem table hw s c h, fun h => PyDict.mem_of_get? table s c h⟩

theorem no_slash (s : Str) (c : Cls) (h : Names s c) : '/' ∉ s := by
  simp only [Names, List.mem_cons, Prod.mk.injEq, List.not_mem_nil, or_false] at h
  rcases h with h | h | h | h | h | h | h | h | h | h | h <;> rw [h.1] <;> decide

theorem lookupStr_name (s : Str) (c : Cls) (h : Names s c) : lookupStr s = .ok c := by
  unfold lookupStr
  rw [if_pos (no_slash s c h), (names_iff s c).mp h]

/-- C118: a name stands for its class with the default arguments; the label is the name as written. -/
theorem C118_name (init : Cls → List (Str × K) → PyM R) (s : Str) (c : Cls) (h : Names s c) (r : R) (hr : init c [] = .ok r) :
    create init (.str s) = .ok (s, r) ∧ iter init (.str s) = .ok [(s, r)] := by
  have : create init (.str s) = .ok (s, r) := by
    simp only [create, build, lookup]
    rw [lookupStr_name s c h]
    simp [bind, Except.bind, pure, Except.pure, hr]
  refine ⟨this, ?_⟩
  simp [iter, this, bind, Except.bind, pure, Except.pure]

/-- C118: a pair (name, keyword arguments) builds that class with exactly those arguments - written as a tuple, or as a list
inside a collection. -/
theorem C118_pair (init : Cls → List (Str × K) → PyM R) (s : Str) (c : Cls) (h : Names s c) (d : List (Str × K)) :
    create init (.tuple [.str s, .kw d]) = (init c d).map (fun r => (s, r)) ∧
    create init (.list [.str s, .kw d]) = (init c d).map (fun r => (s, r)) ∧
    iter init (.tuple [.str s, .kw d]) = (init c d).map (fun r => [(s, r)]) := by
  have h1 : create init (.tuple [.str s, .kw d]) = (init c d).map (fun r => (s, r)) := by
    simp only [create, unpack2, build, bind, Except.bind, lookup]
    rw [lookupStr_name s c h]
    simp only [bind, Except.bind, pure, Except.pure]
    cases init c d <;> rfl
  refine ⟨h1, ?_, ?_⟩
  · simp only [create, unpack2, build, bind, Except.bind, lookup]
    rw [lookupStr_name s c h]
    simp only [bind, Except.bind, pure, Except.pure]
    cases init c d <;> rfl
  · simp only [iter, h1]
    cases init c d <;> rfl

/-- C118: an object is used as it is, labelled with the key of its class - which is also a valid name for that class. -/
theorem C118_object (init : Cls → List (Str × K) → PyM R) (c : Cls) (r : R) :
    create init (.obj c r) = .ok (c.key, r) ∧ iter init (.obj c r) = .ok [(c.key, r)] ∧ Names c.key c := by
  refine ⟨rfl, rfl, ?_⟩
  cases c <;> decide

/-- C118: an unknown name is a KeyError, in every form. -/
theorem C118_unknown (init : Cls → List (Str × K) → PyM R) (s : Str) (hs : '/' ∉ s) (h : ∀ c, ¬ Names s c) (d : List (Str × K)) :
    create init (.str s) = .error .keyError ∧ create init (.tuple [.str s, .kw d]) = .error .keyError ∧
    iter init (.str s) = .error .keyError := by
  have hl : lookupStr s = .error .keyError := by
    unfold lookupStr
    rw [if_pos hs]
    cases e : PyDict.get? table s with
    | none => rfl
    | some c => exact absurd ((names_iff s c).mpr e) (h c)
  refine ⟨?_, ?_, ?_⟩ <;> simp [create, iter, unpack2, build, lookup, hl, bind, Except.bind]

theorem mapM_spec {A B : Type} (f : A → PyM B) (l : List A) (bs : List B) :
    l.mapM f = .ok bs ↔ List.Forall₂ (fun a b => f a = .ok b) l bs := by
  induction l generalizing bs with
  | nil =>
      simp only [List.mapM_nil, pure, Except.pure, List.forall₂_nil_left_iff]
      constructor
      · intro h; exact (Except.ok.inj h).symm
      · rintro rfl; rfl
  | cons a t ih =>
      rw [List.mapM_cons]
      cases hf : f a with
      | error e =>
          simp only [bind, Except.bind]
          constructor
          · intro h; cases h
          · intro h
            cases h with
            | cons h1 _ => rw [hf] at h1; cases h1
      | ok b =>
          cases ht : t.mapM f with
          | error e =>
              simp only [bind, Except.bind]
              constructor
              · intro h; cases h
              · intro h
                cases h with
                | cons h1 h2 => rw [(ih _).mpr h2] at ht; cases ht
          | ok cs =>
              simp only [bind, Except.bind, pure, Except.pure]
              constructor
              · intro h
                have := Except.ok.inj h
                subst this
                exact List.Forall₂.cons hf ((ih _).mp ht)
              · intro h
                cases h with
                | cons h1 h2 =>
                    rw [hf] at h1
                    have e1 := Except.ok.inj h1
                    have e2 := (ih _).mpr h2
                    rw [ht] at e2
                    have e3 := Except.ok.inj e2
                    rw [e1, e3]

/-- C118: a collection gives one named reduction per item, in order; it fails exactly if one of them does. -/
theorem C118_collection (init : Cls → List (Str × K) → PyM R) (l : List (Arg R K)) (out : List (Str × R)) :
    iter init (.list l) = .ok out ↔ List.Forall₂ (fun a o => create init a = .ok o) l out :=
  mapM_spec _ _ _

/-- C118 (defect): a *tuple* of names or objects is never accepted as a collection: whatever its length it is read as a pair
(name, kwargs) and raises. -/
theorem C118_tuple_defect (init : Cls → List (Str × K) → PyM R) (l : List (Arg R K))
    (hl : ∀ a ∈ l, (∃ s, a = .str s) ∨ ∃ c r, a = .obj c r) :
    ∃ e, iter init (.tuple l) = .error e := by
  match l with
  | [] => exact ⟨_, rfl⟩
  | [a] => exact ⟨_, rfl⟩
  | a :: b :: c :: t => exact ⟨_, rfl⟩
  | [a, b] =>
      have hb : ∀ d, b ≠ .kw d := by
        rintro d rfl
        rcases hl _ (by simp : Arg.kw d ∈ [a, Arg.kw d]) with ⟨s, h⟩ | ⟨c, r, h⟩ <;> cases h
      have hbd : ∃ e, build init a b = .error e := by
        unfold build
        cases hlk : lookup a with
        | error e => exact ⟨e, rfl⟩
        | ok c =>
            cases b with
            | kw d => exact absurd rfl (hb d)
            | obj _ _ => exact ⟨_, rfl⟩
            | str _ => exact ⟨_, rfl⟩
            | tuple _ => exact ⟨_, rfl⟩
            | list _ => exact ⟨_, rfl⟩
      obtain ⟨e, he⟩ := hbd
      exact ⟨e, by simp only [iter, create, unpack2, bind, Except.bind, he]⟩

/-- C118: in particular two valid names in a tuple are a TypeError, any other number of names a ValueError. -/
theorem C118_tuple_error (init : Cls → List (Str × K) → PyM R) (s s' : Str) (c : Cls) (h : Names s c) (l : List Str)
    (hl : l.length ≠ 2) :
    iter init (.tuple [.str s, .str s']) = .error .typeError ∧
    iter init (.tuple (l.map (fun x => Arg.str x))) = .error .valueError := by
  constructor
  · simp only [iter, create, unpack2, build, bind, Except.bind, lookup]
    rw [lookupStr_name s c h]
    simp [bind, Except.bind, pure, Except.pure]
  · match l, hl with
    | [], _ => rfl
    | [a], _ => rfl
    | a :: b :: c :: t, _ => rfl
    | [a, b], hl => exact absurd rfl hl

/-- C118 (defect): a mapping name ↦ kwargs is accepted as a collection of its *keys*: the keyword arguments are silently
dropped. -/
theorem C118_mapping_defect (init : Cls → List (Str × K) → PyM R) (d : List (Str × K)) :
    iter init (.kw d) = iter init (.list (d.map (fun p => Arg.str p.1))) := by
  simp only [iter, List.mapM_map]
  rfl

/-- C118: surrounding slashes are accepted by the look-up but stay in the label. -/
theorem C118_slash (init : Cls → List (Str × K) → PyM R) (s k : Str) (c : Cls) (h : Names k c) (hs : '/' ∈ s)
    (hc : Str.comps '/' s = [k]) (r : R) (hr : init c [] = .ok r) : create init (.str s) = .ok (s, r) := by
  have hl : lookupStr s = .ok c := by
    unfold lookupStr
    rw [if_neg (by simpa using hs), hc]
    simp only
    rw [(names_iff k c).mp h]
    simp
  simp only [create, build, lookup]
  rw [hl]
  simp [bind, Except.bind, pure, Except.pure, hr]

example : Names "sd".toList .stdDev ∧ Names "qs".toList .quantile ∧ ∀ c, ¬ Names "average".toList c := by
  refine ⟨by decide, by decide, fun c => ?_⟩
  cases c <;> decide
example : Str.comps '/' "/mean/".toList = ["mean".toList] := by decide
example : iter (fun c (_ : List (Str × Nat)) => .ok c) (.list [.str "mean".toList, .tuple [.str "qs".toList, .kw [("ps".toList, 3)]], .obj .sum .sum])
    = .ok [("mean".toList, .mean), ("qs".toList, .quantile), ("sum".toList, .sum)] := by rfl


/-- C118: a pair whose name is not a string never makes a reduction: an object, or a tuple of known names (the empty one
included), is a TypeError; a list or mapping of names is a TypeError, except that one with the entry '/' is an
AttributeError. -/
theorem C118_pair_bad_name (init : Cls → List (Str × K) → PyM R) (d : List (Str × K)) (c : Cls) (r : R) (l : List (Str))
    (e : List (Str × K)) :
    create init (.tuple [.obj c r, .kw d]) = .error .typeError ∧
    ((∀ s ∈ l, ∃ c, Names s c) → create init (.tuple [.tuple (l.map .str), .kw d]) = .error .typeError) ∧
    create init (.tuple [.list (l.map .str), .kw d])
      = (if "/".toList ∈ l then .error .attributeError else .error .typeError) ∧
    create init (.tuple [.kw e, .kw d])
      = (if "/".toList ∈ e.map Prod.fst then .error .attributeError else .error .typeError) := by
  refine ⟨?_, ?_, ?_, ?_⟩
  · simp [create, unpack2, build, lookup, bind, Except.bind]
  · intro hl
    have : lookupAll (l.map (Arg.str (R := R) (K := K))) = .ok () := by
      induction l with
      | nil => simp [lookupAll]
      | cons s t ih =>
        obtain ⟨c, hc⟩ := hl s (by simp)
        simp only [List.map_cons, lookupAll, lookup, lookupStr_name s c hc, bind, Except.bind, pure, Except.pure]
        exact ih (fun x hx => hl x (by simp [hx]))
    simp only [create, unpack2, build, lookup, this, bind, Except.bind, pure, Except.pure]
  · have : slashIn (l.map (Arg.str (R := R) (K := K))) = decide ("/".toList ∈ l) := by
      induction l with
      | nil => simp [slashIn]
      | cons s t ih =>
        simp only [List.map_cons, slashIn, ih, List.mem_cons, Bool.decide_or]
        congr 1
        by_cases h : s = "/".toList
        · subst h; simp
        · have h' : ¬ "/".toList = s := fun q => h q.symm
          simp only [h', decide_false]
          simpa using h
    by_cases h : "/".toList ∈ l
    · simp only [create, unpack2, build, lookup, this, h, decide_true, if_true, bind, Except.bind]
    · simp only [create, unpack2, build, lookup, this, h, decide_false, if_false, bind, Except.bind]
      simp
  · have : e.any (fun p => p.1 == "/".toList) = decide ("/".toList ∈ e.map Prod.fst) := by
      rw [Bool.eq_iff_iff, List.any_eq_true, decide_eq_true_iff, List.mem_map]
      constructor
      · rintro ⟨p, hp, h⟩; exact ⟨p, hp, by simpa using h⟩
      · rintro ⟨p, hp, h⟩; exact ⟨p, hp, by simpa using h⟩
    by_cases h : "/".toList ∈ e.map Prod.fst
    · simp only [create, unpack2, build, lookup, this, h, decide_true, if_true, bind, Except.bind]
    · simp only [create, unpack2, build, lookup, this, h, decide_false, if_false, bind, Except.bind]
      simp

example : create (R := Nat) (K := Nat) (fun _ _ => .ok 0) (.tuple [.list [.str "mean".toList, .str "/".toList], .kw []])
    = .error .attributeError := by
  simpa using (C118_pair_bad_name (R := Nat) (K := Nat) (fun _ _ => .ok 0) [] .mean 0 ["mean".toList, "/".toList] []).2.2.1

end Pyhipp.ReduceSpec
