import Verif.Model.H5What
import Verif.Props.H5Objs
/-
C23: the tree listing.
-/
namespace Pyhipp.H5
open Pyhipp

variable {DT E : Type}

/-! ### Specification -/

/-- One line of the listing: an object below the group, and whether it is marked as the last of its group. -/
structure Entry (DT E : Type) where
  path : List Str
  last : Bool
  node : Node DT E

/-- Is this kind of object listed? -/
def shown (o : WhatOpts) : Node DT E → Bool
  | .dset _ _ => o.dset
  | .grp _ _ => o.group

/-- The description of one object. -/
def descr (fmt : Fmt DT E) (o : WhatOpts) : Node DT E → Str
  | .dset d at' => dsetWhat fmt o.attr d at'
  | .grp _ at' => "/".toList ++ (if o.attr then attrWhat fmt at' else [])

/-- The text of a line: indented once per level. -/
def Entry.render (fmt : Fmt DT E) (o : WhatOpts) (e : Entry DT E) : Str :=
  indent^[e.path.length - 1] ((if e.last then "\n└─ ".toList else "\n├─ ".toList) ++ e.path.getLastD [] ++ indent (descr fmt o e.node))

/-- The same line seen from the parent. -/
def Entry.under (k : Str) (e : Entry DT E) : Entry DT E := { e with path := k :: e.path }

/-- The lines of the children, given each child with its own lines. -/
def place (o : WhatOpts) : List (Str × Node DT E × List (Entry DT E)) → List (Entry DT E)
  | [] => []
  | (k, n, es) :: rest => (if shown o n then ⟨[k], rest.isEmpty, n⟩ :: es.map (Entry.under k) else []) ++ place o rest

mutual
/-- The lines below an object, down to `lim` levels (`none`: no limit). -/
def entries (o : WhatOpts) : Option Nat → Node DT E → List (Entry DT E)
  | _, .dset _ _ => []
  | lim, .grp ch _ => if lim = some 0 then [] else place o (sortNames (entryKids o (lim.map (· - 1)) ch))
/-- The children with their own lines. -/
def entryKids (o : WhatOpts) : Option Nat → List (Str × Node DT E) → List (Str × Node DT E × List (Entry DT E))
  | _, [] => []
  | lim, (k, n) :: rest => (k, n, entries o lim n) :: entryKids o lim rest
end

/-- The names in every group are distinct. -/
def TreeWF (n : Node DT E) : Prop := ∀ p ch a, lookup n p = some (.grp ch a) → PyDict.WF ch

/-! ### Lemmas -/

theorem entryKids_map (o : WhatOpts) (lim : Option Nat) (ch : List (Str × Node DT E)) :
    entryKids o lim ch = ch.map (fun p => (p.1, p.2, entries o lim p.2)) := by
  induction ch with
  | nil => simp [entryKids]
  | cons p ch ih => obtain ⟨k, n⟩ := p; simp [entryKids, ih]

theorem sortNames_map {β γ : Type} (f : Str × β → Str × γ) (hf : ∀ p, (f p).1 = p.1) (l : List (Str × β)) :
    sortNames (l.map f) = (sortNames l).map f := by
  unfold sortNames
  refine (List.map_insertionSort (fun a b : Str × β => a.1 ≤ b.1) (fun a b : Str × γ => a.1 ≤ b.1) f l (fun a _ b _ => ?_)).symm
  simp only [hf]

theorem entries_grp (o : WhatOpts) (lim : Option Nat) (ch : List (Str × Node DT E)) (a : List (Str × Dset DT E)) :
    entries o lim (.grp ch a) = if lim = some 0 then [] else
      place o ((sortNames ch).map (fun p => (p.1, p.2, entries o (lim.map (· - 1)) p.2))) := by
  rw [entries, entryKids_map, sortNames_map (fun p => (p.1, p.2, entries o (lim.map (· - 1)) p.2)) (fun _ => rfl)]

theorem mem_place (o : WhatOpts) (l : List (Str × Node DT E × List (Entry DT E))) (e : Entry DT E) :
    e ∈ place o l ↔ ∃ pre k n es post, l = pre ++ (k, n, es) :: post ∧ shown o n = true ∧
      (e = ⟨[k], post.isEmpty, n⟩ ∨ ∃ e' ∈ es, e = e'.under k) := by
  induction l with
  | nil => simp [place]
  | cons x l ih =>
      obtain ⟨k, n, es⟩ := x
      simp only [place, List.mem_append, ih]
      constructor
      · rintro (h | ⟨pre, k', n', es', post, rfl, h1, h2⟩)
        · split at h
          · rename_i hs
            rcases List.mem_cons.mp h with h | h
            · exact ⟨[], k, n, es, l, rfl, hs, Or.inl h⟩
            · obtain ⟨e', he', rfl⟩ := List.mem_map.mp h
              exact ⟨[], k, n, es, l, rfl, hs, Or.inr ⟨e', he', rfl⟩⟩
          · simp at h
        · exact ⟨(k, n, es) :: pre, k', n', es', post, rfl, h1, h2⟩
      · rintro ⟨pre, k', n', es', post, he, h1, h2⟩
        cases pre with
        | nil =>
            simp only [List.nil_append, List.cons.injEq, Prod.mk.injEq] at he
            obtain ⟨⟨rfl, rfl, rfl⟩, rfl⟩ := he
            left
            rw [if_pos h1]
            rcases h2 with h2 | ⟨e', he', rfl⟩
            · exact List.mem_cons.mpr (Or.inl h2)
            · exact List.mem_cons.mpr (Or.inr (List.mem_map.mpr ⟨e', he', rfl⟩))
        | cons y pre =>
            simp only [List.cons_append, List.cons.injEq] at he
            exact Or.inr ⟨pre, k', n', es', post, he.2, h1, h2⟩

theorem entries_path_ne (o : WhatOpts) (lim : Option Nat) (n : Node DT E) (e : Entry DT E) (h : e ∈ entries o lim n) : e.path ≠ [] := by
  cases n with
  | dset d a => simp [entries] at h
  | grp ch a =>
      rw [entries_grp] at h
      split at h
      · simp at h
      · obtain ⟨pre, k, n, es, post, -, -, rfl | ⟨e', -, rfl⟩⟩ := (mem_place o _ e).mp h
        · simp
        · simp [Entry.under]

theorem indent_append (s t : Str) : indent (s ++ t) = indent s ++ indent t := by simp [indent]

theorem indent_flatMap {α : Type} (f : α → Str) (l : List α) : indent (l.flatMap f) = l.flatMap (fun x => indent (f x)) := by
  induction l with
  | nil => rfl
  | cons x l ih => rw [List.flatMap_cons, indent_append, ih, List.flatMap_cons]

theorem render_under (fmt : Fmt DT E) (o : WhatOpts) (k : Str) (e : Entry DT E) (h : e.path ≠ []) :
    (e.under k).render fmt o = indent (e.render fmt o) := by
  obtain ⟨p, l, n⟩ := e
  cases p with
  | nil => exact absurd rfl h
  | cons x p =>
      simp only [Entry.render, Entry.under, List.length_cons, Nat.add_sub_cancel, List.getLastD_cons]
      rw [Function.iterate_succ_apply']
      rfl

theorem assemble_place (fmt : Fmt DT E) (o : WhatOpts) (nKeys : Nat) (l : List (Str × Node DT E × List (Entry DT E)))
    (hl : ∀ x ∈ l, ∀ e ∈ x.2.2, e.path ≠ []) : ∀ i, i + l.length = nKeys →
    assemble nKeys i (l.map (fun x => (x.1, if shown o x.2.1 then some (descr fmt o x.2.1 ++ x.2.2.flatMap (Entry.render fmt o)) else none))) =
      (place o l).flatMap (Entry.render fmt o) := by
  induction l with
  | nil => intro i _; rfl
  | cons x l ih =>
      intro i hi
      obtain ⟨k, n, es⟩ := x
      have ih' := ih (fun y hy => hl y (by simp [hy])) (i + 1) (by simp at hi; omega)
      simp only [List.map_cons, place]
      cases hs : shown o n with
      | false => simpa [assemble, hs] using ih'
      | true =>
          simp only [if_true, assemble, List.flatMap_append, ih', List.flatMap_cons]
          congr 1
          rw [indent_append, indent_flatMap, List.flatMap_map, ← List.append_assoc]
          congr 1
          · have : (i = nKeys - 1) ↔ l = [] := by
              rw [← hi]
              cases l with
              | nil => simp
              | cons y l => simp
            cases l with
            | nil => simp [Entry.render, this]
            | cons y l => simp [Entry.render, this]
          · refine List.flatMap_congr ?_
            intro e he
            rw [render_under fmt o k e (hl (k, n, es) (by simp) e he)]

/-- How many levels are left at a given depth. -/
def levels (m : Int) (depth : Nat) : Option Nat := if ((depth + 1 : Nat) : Int) ≤ m then some (m - ((depth + 1 : Nat) : Int)).toNat else none

theorem levels_zero (m : Int) (depth : Nat) : levels m depth = some 0 ↔ ((depth + 1 : Nat) : Int) = m := by
  unfold levels
  split
  · simp only [Option.some.injEq]; omega
  · simp only [reduceCtorEq, false_iff]; omega

theorem levels_succ (m : Int) (depth : Nat) (h : ¬ ((depth + 1 : Nat) : Int) = m) : (levels m depth).map (· - 1) = levels m (depth + 1) := by
  unfold levels
  split
  · rw [if_pos (by omega)]
    simp only [Option.map_some, Option.some.injEq]
    omega
  · rw [if_neg (by omega)]; rfl

mutual
theorem what_entries (fmt : Fmt DT E) (o : WhatOpts) (m : Int) (depth : Nat) (n : Node DT E) :
    what fmt o m depth n = descr fmt o n ++ (entries o (levels m depth) n).flatMap (Entry.render fmt o) := by
  match n with
  | .dset d at' => simp [what, descr, entries]
  | .grp ch at' =>
      rw [what, entries]
      simp only [levels_zero, descr]
      by_cases h : ((depth + 1 : Nat) : Int) = m
      · simp [h]
      · rw [if_neg h, if_neg h, levels_succ m depth h]
        congr 1
        rw [whatKids_entries fmt o m (depth + 1) ch, sortNames_map (fun x : Str × Node DT E × List (Entry DT E) =>
          (x.1, if shown o x.2.1 then some (descr fmt o x.2.1 ++ x.2.2.flatMap (Entry.render fmt o)) else none)) (fun _ => rfl)]
        refine assemble_place fmt o ch.length _ ?_ 0 ?_
        · intro x hx e he
          have hx' := (sortNames_perm _).mem_iff.mp hx
          rw [entryKids_map] at hx'
          obtain ⟨p, -, rfl⟩ := List.mem_map.mp hx'
          exact entries_path_ne o _ _ e he
        · rw [(sortNames_perm _).length_eq, entryKids_map, List.length_map]; omega
theorem whatKids_entries (fmt : Fmt DT E) (o : WhatOpts) (m : Int) (depth : Nat) (ch : List (Str × Node DT E)) :
    whatKids fmt o m depth ch = (entryKids o (levels m depth) ch).map
      (fun x => (x.1, if shown o x.2.1 then some (descr fmt o x.2.1 ++ x.2.2.flatMap (Entry.render fmt o)) else none)) := by
  match ch with
  | [] => simp [whatKids, entryKids]
  | (k, .dset d at') :: rest =>
      simp only [whatKids, entryKids, List.map_cons, shown, descr, entries, whatKids_entries fmt o m depth rest, List.flatMap_nil, List.append_nil]
  | (k, .grp c at') :: rest =>
      simp only [whatKids, entryKids, List.map_cons, shown, whatKids_entries fmt o m depth rest, what_entries fmt o m depth (.grp c at')]
      rfl
end

/-- C23: the text of `what(max_depth=m)`: the description of the group, then one line per entry, each indented once per level;
the entries go down m - 1 levels, or are not limited if m < 1. -/
theorem C23_text (fmt : Fmt DT E) (o : WhatOpts) (m : Int) (n : Node DT E) :
    what fmt o m 0 n = descr fmt o n ++ (entries o (if 1 ≤ m then some (m - 1).toNat else none) n).flatMap (Entry.render fmt o) := by
  rw [what_entries]
  rfl

theorem treeWF_child {ch : List (Str × Node DT E)} {a : List (Str × Dset DT E)} (h : TreeWF (.grp ch a)) {k : Str} {c : Node DT E}
    (hc : PyDict.get? ch k = some c) : TreeWF c := by
  intro p ch' a' hl
  exact h (k :: p) ch' a' (by rw [lookup, hc]; exact hl)

theorem split_sort {β : Type} {l : List (Str × β)} (hwf : PyDict.WF l) (k : Str) (v : β) (h : PyDict.get? l k = some v) :
    ∃ pre post, sortNames l = pre ++ (k, v) :: post := by
  have hm : (k, v) ∈ sortNames l := (sortNames_perm l).mem_iff.mpr (PyDict.mem_of_get? l k v h)
  obtain ⟨pre, post, h⟩ := List.append_of_mem hm
  exact ⟨pre, post, h⟩

/-- C23: which entries there are: exactly the objects below the group, down to the limit, of the kinds that are to be listed
(below a group only if groups are listed). -/
theorem C23_entries (o : WhatOpts) (p : List Str) : ∀ (lim : Option Nat) (n c : Node DT E), TreeWF n →
    ((∃ b, (⟨p, b, c⟩ : Entry DT E) ∈ entries o lim n) ↔
      p ≠ [] ∧ lookup n p = some c ∧ (∀ L, lim = some L → p.length ≤ L) ∧ shown o c = true ∧ (1 < p.length → o.group = true)) := by
  induction p with
  | nil =>
      intro lim n c _
      simp only [ne_eq, not_true_eq_false, false_and, iff_false, not_exists]
      intro b h
      exact entries_path_ne o lim n _ h rfl
  | cons k q ih =>
      intro lim n c hwf
      cases n with
      | dset d a => simp [entries, lookup]
      | grp ch a =>
          have hch : PyDict.WF ch := hwf [] ch a rfl
          rw [entries_grp]
          by_cases hz : lim = some 0
          · simp only [if_pos hz, List.not_mem_nil, exists_false, false_iff]
            rintro ⟨-, -, h3, -, -⟩
            have := h3 0 hz
            simp at this
          · simp only [if_neg hz, mem_place, ne_eq, List.cons_ne_nil, not_false_eq_true, true_and, lookup]
            constructor
            · rintro ⟨b, pre, k', n', es, post, hsplit, hs, h⟩
              have hmem : (k', n', es) ∈ (sortNames ch).map (fun p => (p.1, p.2, entries o (lim.map (· - 1)) p.2)) := by rw [hsplit]; simp
              obtain ⟨⟨k0, n0⟩, hx, he⟩ := List.mem_map.mp hmem
              simp only [Prod.mk.injEq] at he
              obtain ⟨rfl, rfl, rfl⟩ := he
              have hg : PyDict.get? ch k0 = some n0 := PyDict.get?_of_mem ch hch _ _ ((sortNames_perm ch).mem_iff.mp hx)
              rcases h with h | ⟨e', he', h⟩
              · simp only [Entry.mk.injEq, List.cons.injEq] at h
                obtain ⟨⟨rfl, rfl⟩, -, rfl⟩ := h
                refine ⟨by simp [hg, lookup], fun L hL => ?_, hs, by simp⟩
                have : L ≠ 0 := fun e => hz (by rw [hL, e])
                simp; omega
              · simp only [Entry.under, Entry.mk.injEq, List.cons.injEq] at h
                obtain ⟨⟨rfl, rfl⟩, rfl, rfl⟩ := h
                obtain ⟨h1, h2, h3, h4, h5⟩ := (ih _ n0 _ (treeWF_child hwf hg)).mp ⟨_, he'⟩
                refine ⟨by rw [hg]; exact h2, fun L hL => ?_, h4, fun _ => ?_⟩
                · have := h3 (L - 1) (by rw [hL]; rfl)
                  have : L ≠ 0 := fun e => hz (by rw [hL, e])
                  simp only [List.length_cons]; omega
                · cases n0 with
                  | dset d a => simp [entries] at he'
                  | grp _ _ => exact hs
            · rintro ⟨h2, h3, h4, h5⟩
              cases hg : PyDict.get? ch k with
              | none => rw [hg] at h2; cases h2
              | some c0 =>
                  rw [hg] at h2
                  obtain ⟨pre, post, hsp⟩ := split_sort hch k c0 hg
                  cases q with
                  | nil =>
                      simp only [lookup, Option.some.injEq] at h2
                      subst h2
                      refine ⟨(post.map (fun p => (p.1, p.2, entries o (lim.map (· - 1)) p.2))).isEmpty, pre.map (fun p => (p.1, p.2, entries o (lim.map (· - 1)) p.2)),
                        k, c0, _, post.map (fun p => (p.1, p.2, entries o (lim.map (· - 1)) p.2)), by rw [hsp, List.map_append, List.map_cons], h4, Or.inl rfl⟩
                  | cons k2 q =>
                      have hgr : shown o c0 = true := by
                        cases c0 with
                        | dset d a => simp [lookup] at h2
                        | grp _ _ => exact h5 (by simp)
                      obtain ⟨b, hb⟩ := (ih (lim.map (· - 1)) c0 c (treeWF_child hwf hg)).mpr ⟨by simp, h2, fun L hL => by
                        cases lim with
                        | none => cases hL
                        | some L0 =>
                            simp only [Option.map_some, Option.some.injEq] at hL
                            have := h3 L0 rfl
                            simp only [List.length_cons] at this ⊢
                            omega, h4, fun _ => h5 (by simp)⟩
                      exact ⟨b, pre.map (fun p => (p.1, p.2, entries o (lim.map (· - 1)) p.2)),
                        k, c0, _, post.map (fun p => (p.1, p.2, entries o (lim.map (· - 1)) p.2)), by rw [hsp, List.map_append, List.map_cons], hgr, Or.inr ⟨_, hb, rfl⟩⟩

theorem place_sorted (o : WhatOpts) (l : List (Str × Node DT E × List (Entry DT E)))
    (hk : (l.map (·.1)).Pairwise (· < ·)) (hp : ∀ x ∈ l, (x.2.2.map Entry.path).Pairwise (· < ·)) (hne : ∀ x ∈ l, ∀ e ∈ x.2.2, e.path ≠ []) :
    ((place o l).map Entry.path).Pairwise (· < ·) := by
  induction l with
  | nil => simp [place]
  | cons x l ih =>
      obtain ⟨k, n, es⟩ := x
      rw [List.map_cons, List.pairwise_cons] at hk
      simp only [place, List.map_append]
      rw [List.pairwise_append]
      refine ⟨?_, ih hk.2 (fun y hy => hp y (by simp [hy])) (fun y hy => hne y (by simp [hy])), ?_⟩
      · split
        · simp only [List.map_cons, List.map_map, List.pairwise_cons]
          refine ⟨?_, ?_⟩
          · intro q hq
            obtain ⟨e, he, rfl⟩ := List.mem_map.mp hq
            have := hne (k, n, es) (by simp) e he
            simp only [Function.comp, Entry.under]
            rw [List.cons_lt_cons_iff]
            right
            refine ⟨rfl, ?_⟩
            cases hep : e.path with
            | nil => exact absurd hep this
            | cons y ys => exact List.nil_lt_cons _ _
          · have := hp (k, n, es) (by simp)
            rw [List.pairwise_map] at this ⊢
            refine this.imp ?_
            intro e e' h
            simp only [Function.comp, Entry.under]
            rw [List.cons_lt_cons_iff]
            exact Or.inr ⟨rfl, h⟩
        · simp
      · intro p hp' q hq
        obtain ⟨e, he, rfl⟩ := List.mem_map.mp hp'
        obtain ⟨e', he', rfl⟩ := List.mem_map.mp hq
        have h1 : ∃ t, e.path = k :: t := by
          split at he
          · rcases List.mem_cons.mp he with rfl | he
            · exact ⟨[], rfl⟩
            · obtain ⟨e0, -, rfl⟩ := List.mem_map.mp he
              exact ⟨_, rfl⟩
          · simp at he
        obtain ⟨pre, k', n', es', post, rfl, -, h2⟩ := (mem_place o l e').mp he'
        have h3 : ∃ t, e'.path = k' :: t := by
          rcases h2 with rfl | ⟨e0, -, rfl⟩
          · exact ⟨[], rfl⟩
          · exact ⟨_, rfl⟩
        obtain ⟨t, ht⟩ := h1
        obtain ⟨t', ht'⟩ := h3
        rw [ht, ht', List.cons_lt_cons_iff]
        exact Or.inl (hk.1 k' (by simp))

mutual
theorem entries_sorted (o : WhatOpts) (lim : Option Nat) (n : Node DT E) (hwf : TreeWF n) :
    ((entries o lim n).map Entry.path).Pairwise (· < ·) := by
  match n with
  | .dset d a => simp [entries]
  | .grp ch a =>
      have hch : PyDict.WF ch := hwf [] ch a rfl
      rw [entries]
      split
      · simp
      · have hkids := kids_sorted o (lim.map (· - 1)) ch (fun p hp => treeWF_child hwf (PyDict.get?_of_mem ch hch _ _ hp))
        refine place_sorted o _ ?_ ?_ ?_
        · rw [entryKids_map, sortNames_map (fun p => (p.1, p.2, entries o (lim.map (· - 1)) p.2)) (fun _ => rfl), List.map_map]
          exact keys_sorted ch hch
        · intro x hx
          exact hkids x ((sortNames_perm _).mem_iff.mp hx)
        · intro x hx e he
          have hx' := (sortNames_perm _).mem_iff.mp hx
          rw [entryKids_map] at hx'
          obtain ⟨p, -, rfl⟩ := List.mem_map.mp hx'
          exact entries_path_ne o _ _ e he
theorem kids_sorted (o : WhatOpts) (lim : Option Nat) (ch : List (Str × Node DT E)) (hwf : ∀ p ∈ ch, TreeWF p.2) :
    ∀ x ∈ entryKids o lim ch, (x.2.2.map Entry.path).Pairwise (· < ·) := by
  match ch with
  | [] => simp [entryKids]
  | (k, n) :: rest =>
      intro x hx
      rw [entryKids] at hx
      rcases List.mem_cons.mp hx with rfl | hx
      · exact entries_sorted o lim n (hwf (k, n) (by simp))
      · exact kids_sorted o lim rest (fun p hp => hwf p (by simp [hp])) x hx
end

/-- C23: every entry is listed once, parents before their contents, siblings in increasing order of names (the order of the
paths). -/
theorem C23_order (o : WhatOpts) (lim : Option Nat) (n : Node DT E) (hwf : TreeWF n) : ((entries o lim n).map Entry.path).Pairwise (· < ·) :=
  entries_sorted o lim n hwf

theorem place_filter (o : WhatOpts) (L : Nat) (l : List (Str × Node DT E × List (Entry DT E))) :
    place o (l.map (fun x => (x.1, x.2.1, x.2.2.filter (fun e => decide (e.path.length ≤ L))))) =
      (place o l).filter (fun e => decide (e.path.length ≤ L + 1)) := by
  induction l with
  | nil => rfl
  | cons x l ih =>
      obtain ⟨k, n, es⟩ := x
      simp only [List.map_cons, place, List.filter_append, ih]
      congr 1
      split
      · rw [List.filter_cons]
        simp only [List.length_singleton, Nat.le_add_left, decide_true, if_true]
        congr 1
        · simp
        · rw [List.filter_map]
          congr 1
          refine List.filter_congr ?_
          intro e _
          simp [Function.comp, Entry.under]
      · rfl

mutual
theorem entries_filter (o : WhatOpts) (L : Nat) (n : Node DT E) :
    entries o (some L) n = (entries o none n).filter (fun e => decide (e.path.length ≤ L)) := by
  match n with
  | .dset d a => simp [entries]
  | .grp ch a =>
      cases L with
      | zero =>
          rw [entries, if_pos rfl]
          symm
          rw [List.filter_eq_nil_iff]
          intro e he
          have := entries_path_ne o none _ e he
          simp only [Nat.le_zero, List.length_eq_zero_iff, decide_eq_true_eq]
          exact this
      | succ L =>
          rw [entries, if_neg (by simp), entries, if_neg (by simp)]
          simp only [Option.map_some, Nat.add_sub_cancel, Option.map_none]
          rw [kids_filter o L ch, sortNames_map (fun x : Str × Node DT E × List (Entry DT E) =>
            (x.1, x.2.1, x.2.2.filter (fun e => decide (e.path.length ≤ L)))) (fun _ => rfl), place_filter]
theorem kids_filter (o : WhatOpts) (L : Nat) (ch : List (Str × Node DT E)) :
    entryKids o (some L) ch = (entryKids o none ch).map (fun x => (x.1, x.2.1, x.2.2.filter (fun e => decide (e.path.length ≤ L)))) := by
  match ch with
  | [] => simp [entryKids]
  | (k, n) :: rest => rw [entryKids, entryKids, List.map_cons, kids_filter o L rest, entries_filter o L n]
end

/-- C23: the limited listing is the unlimited one without the deeper entries: with m ≥ 1 exactly the entries at most m - 1 levels
down, in the same order and with the same marks. -/
theorem C23_limited (o : WhatOpts) (L : Nat) (n : Node DT E) :
    entries o (some L) n = (entries o none n).filter (fun e => decide (e.path.length ≤ L)) := entries_filter o L n

/-- C23: if the tree is shallower than m, `what(max_depth=m)` is the unlimited listing; a limit below 1 is no limit. -/
theorem C23_shallow (fmt : Fmt DT E) (o : WhatOpts) (m : Int) (n : Node DT E) (hwf : TreeWF n)
    (h : ∀ p c, lookup n p = some c → ((p.length : Nat) : Int) < m) : what fmt o m 0 n = what fmt o 0 0 n := by
  have hm : 1 ≤ m := by have := h [] n rfl; simp at this; omega
  rw [C23_text, C23_text, if_pos hm, if_neg (by omega), C23_limited]
  congr 2
  rw [List.filter_eq_self]
  intro e he
  obtain ⟨p, b, c⟩ := e
  have := ((C23_entries o p none n c hwf).mp ⟨b, he⟩).2.1
  have := h p c this
  simp only [decide_eq_true_eq]
  omega

theorem C23_no_limit (fmt : Fmt DT E) (o : WhatOpts) (m : Int) (hm : m < 1) (n : Node DT E) : what fmt o m 0 n = what fmt o 0 0 n := by
  rw [C23_text, C23_text, if_neg (by omega), if_neg (by omega)]

/-- C23: the mark: an entry has the mark of a last item iff no child of its group (listed or not) has a greater name. -/
theorem C23_last_mark (o : WhatOpts) (p : List Str) : ∀ (lim : Option Nat) (n c : Node DT E) (b : Bool), TreeWF n →
    (⟨p, b, c⟩ : Entry DT E) ∈ entries o lim n →
    ∃ ch a, lookup n p.dropLast = some (.grp ch a) ∧ (b = true ↔ ¬ ∃ k ∈ PyDict.keys ch, p.getLastD [] < k) := by
  induction p with
  | nil => intro lim n c b _ h; exact absurd rfl (entries_path_ne o lim n _ h)
  | cons k q ih =>
      intro lim n c b hwf h
      cases n with
      | dset d a => simp [entries] at h
      | grp ch a =>
          have hch : PyDict.WF ch := hwf [] ch a rfl
          rw [entries_grp] at h
          split at h
          · simp at h
          · obtain ⟨pre, k', n', es, post, hsplit, hs, h⟩ := (mem_place o _ _).mp h
            have hmem : (k', n', es) ∈ (sortNames ch).map (fun p => (p.1, p.2, entries o (lim.map (· - 1)) p.2)) := by rw [hsplit]; simp
            obtain ⟨⟨k0, n0⟩, hx, he⟩ := List.mem_map.mp hmem
            simp only [Prod.mk.injEq] at he
            obtain ⟨rfl, rfl, rfl⟩ := he
            have hg : PyDict.get? ch k0 = some n0 := PyDict.get?_of_mem ch hch _ _ ((sortNames_perm ch).mem_iff.mp hx)
            rcases h with h | ⟨e', he', h⟩
            · simp only [Entry.mk.injEq, List.cons.injEq] at h
              obtain ⟨⟨rfl, rfl⟩, rfl, rfl⟩ := h
              refine ⟨ch, a, rfl, ?_⟩
              have hkeys : PyDict.keys (sortNames ch) = pre.map (·.1) ++ k :: post.map (·.1) := by
                have := congrArg (List.map (·.1)) hsplit
                rw [List.map_map] at this
                simp only [List.map_append, List.map_cons] at this
                exact this
              have hsort := keys_sorted ch hch
              rw [hkeys, List.pairwise_append, List.pairwise_cons] at hsort
              have hmk : ∀ x, x ∈ PyDict.keys ch ↔ x ∈ PyDict.keys (sortNames ch) := fun x => ((sortNames_perm ch).map (·.1)).mem_iff.symm
              simp only [List.getLastD_cons, List.getLastD_nil, List.isEmpty_iff]
              constructor
              · rintro rfl ⟨x, hx, hlt⟩
                rw [hmk, hkeys] at hx
                simp only [List.map_nil, List.mem_append, List.mem_singleton] at hx
                rcases hx with hx | hx
                · exact List.lt_asymm hlt (hsort.2.2 x hx k (by simp))
                · rw [hx] at hlt; exact List.lt_irrefl _ hlt
              · intro hno
                cases post with
                | nil => rfl
                | cons y post =>
                    refine absurd ⟨y.1, ?_, hsort.2.1.1 y.1 (by simp)⟩ hno
                    rw [hmk, hkeys]; simp
            · simp only [Entry.under, Entry.mk.injEq, List.cons.injEq] at h
              obtain ⟨⟨rfl, rfl⟩, rfl, rfl⟩ := h
              have hne := entries_path_ne o _ n0 e' he'
              obtain ⟨ch', a', h1, h2⟩ := ih _ n0 _ _ (treeWF_child hwf hg) he'
              refine ⟨ch', a', ?_, ?_⟩
              · rw [List.dropLast_cons_of_ne_nil hne, lookup, hg]; exact h1
              · cases hp : e'.path with
                | nil => exact absurd hp hne
                | cons y ys => rw [hp] at h2; simpa using h2

/-- C23 (recorded): if the last child of a group is not listed, no line of the group is marked as the last one. -/
theorem C23_last_mark_example :
    what ⟨fun _ => "v".toList, fun _ => "i8".toList, fun _ => "(2,)".toList⟩ ⟨true, false, true⟩ 16 0
      (.grp [("g".toList, .grp [] []), ("x".toList, .dset ⟨1, [2], [3, 4]⟩ [])] [] : Node Nat Nat) = "/\n├─ g/".toList := by decide

/-- A tree with two levels, listed completely and with max_depth=2. -/
example :
    let n : Node Nat Nat := .grp [("g".toList, .grp [("y".toList, .dset ⟨1, [], [3]⟩ [])] [("u".toList, ⟨1, [], [1]⟩)]), ("a".toList, .dset ⟨1, [2], [3, 4]⟩ [])] []
    let fmt : Fmt Nat Nat := ⟨fun _ => "v".toList, fun _ => "i8".toList, fun _ => "(2,)".toList⟩
    what fmt ⟨true, true, true⟩ 16 0 n = "/\n├─ a(i8, (2,))\n└─ g/[u=v]\n   └─ y(i8)".toList ∧
    what fmt ⟨true, true, true⟩ 2 0 n = "/\n├─ a(i8, (2,))\n└─ g/[u=v]".toList ∧ what fmt ⟨true, true, true⟩ 1 0 n = "/".toList := by
  decide


/-- C23: the description of a dataset is its dtype and, unless it is a scalar, its shape; with `attr` the attributes follow, if
there are any, as name=value in the order of names. -/
theorem C23_dataset (fmt : Fmt DT E) (d : Dset DT E) (at' : List (Str × Dset DT E)) (m : Int) (o : WhatOpts) :
    what fmt o m 0 (.dset d at') =
      "(".toList ++ fmt.dt d.dt ++ (if d.shape = [] then [] else ", ".toList ++ fmt.shape d.shape) ++ ")".toList ++
      (if o.attr = true ∧ at' ≠ [] then
        "[".toList ++ commaJoin ((sortNames at').map (fun p => p.1 ++ "=".toList ++ fmt.attr p.2)) ++ "]".toList else []) := by
  have hs : (if d.shape.length > 0 then ", ".toList ++ fmt.shape d.shape else []) = if d.shape = [] then [] else ", ".toList ++ fmt.shape d.shape := by
    cases d.shape <;> simp
  rw [what, dsetWhat]
  simp only [hs]
  cases ha : o.attr with
  | false => simp
  | true =>
      cases at' with
      | nil => simp [attrWhat]
      | cons p r => simp [attrWhat, attrItems]


/-- C23: indentation puts three spaces after each line break and changes nothing else. -/
theorem C23_indent (s t : Str) : ('\n' ∉ s → indent s = s) ∧ indent (s ++ '\n' :: t) = indent s ++ "\n   ".toList ++ indent t := by
  constructor
  · intro h
    induction s with
    | nil => rfl
    | cons c s ih =>
        have h1 : c ≠ '\n' := fun hc => h (by simp [hc])
        have h2 := ih (fun hc => h (by simp [hc]))
        unfold indent at h2 ⊢
        rw [List.flatMap_cons, h2, if_neg h1]; rfl
  · unfold indent
    simp

end Pyhipp.H5
