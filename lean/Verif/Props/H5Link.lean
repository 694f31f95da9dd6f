import Verif.Model.H5Link
import Verif.Props.H5Objs
import Mathlib.Data.List.Induction
/-
C15 and C24 for links: `create_soft_link`, `create_external_link`, `del g[k]`.
-/
namespace Pyhipp.H5
open Pyhipp

variable {DT E : Type}

/-! ### Specification -/

/-- What a name refers to, without the children of a group (those are at other places). -/
inductive Head (DT E : Type) where
  | dset (d : Dset DT E) (attrs : List (Str × Dset DT E))
  | grp (attrs : List (Str × Dset DT E))
  | soft (target : Str)
  | ext (file path : Str)

/-- The head of a node. -/
def LNode.head : LNode DT E → Head DT E
  | .dset d a => .dset d a
  | .grp _ a => .grp a
  | .soft t => .soft t
  | .ext f t => .ext f t

/-- Specification: what is at a place.  The contents of all files are given by this function (up to the order of names). -/
def headAt (fs : LFS DT E) (l : Loc) : Option (Head DT E) := (fs.at l).map LNode.head

/-! ### Lemmas -/

theorem nodeAt_append (p q : List Str) : ∀ n : LNode DT E, nodeAt n (p ++ q) = (nodeAt n p).bind (fun c => nodeAt c q) := by
  induction p with
  | nil => intro n; rfl
  | cons k ks ih =>
      intro n
      cases n with
      | grp ch a =>
          simp only [List.cons_append, nodeAt]
          cases PyDict.get? ch k with
          | none => rfl
          | some c => exact ih c
      | dset d a => rfl
      | soft t => rfl
      | ext f t => rfl

theorem nodeAt_replace_in (n' : LNode DT E) (p : List Str) : ∀ (n old : LNode DT E) (_ : nodeAt n p = some old) (q : List Str),
    nodeAt (replaceAt n' n p) (p ++ q) = nodeAt n' q := by
  induction p with
  | nil => intro n old _ q; rfl
  | cons k ks ih =>
      intro n old h q
      cases n with
      | grp ch a =>
          simp only [nodeAt] at h
          cases hg : PyDict.get? ch k with
          | none => rw [hg] at h; cases h
          | some c =>
              rw [hg] at h
              simp only [replaceAt, hg, List.cons_append, nodeAt, PyDict.get?_set_self]
              exact ih c old h q
      | dset d a => cases h
      | soft t => cases h
      | ext f t => cases h

theorem nodeAt_replace_out (n' : LNode DT E) (p : List Str) : ∀ (n : LNode DT E) (q : List Str), ¬ p <+: q →
    (nodeAt (replaceAt n' n p) q).map LNode.head = (nodeAt n q).map LNode.head := by
  induction p with
  | nil => intro n q h; exact absurd List.nil_prefix h
  | cons k ks ih =>
      intro n q h
      cases n with
      | grp ch a =>
          cases hg : PyDict.get? ch k with
          | none => simp only [replaceAt, hg]
          | some c =>
              simp only [replaceAt, hg]
              cases q with
              | nil => rfl
              | cons k' q =>
                  simp only [nodeAt]
                  by_cases hk : k' = k
                  · subst hk
                    rw [PyDict.get?_set_self, hg]
                    exact ih c q (fun hp => h (List.cons_prefix_cons.mpr ⟨rfl, hp⟩))
                  · rw [PyDict.get?_set_ne _ _ _ _ hk]
      | dset d a => rfl
      | soft t => rfl
      | ext f t => rfl

theorem headAt_put_out (fs : LFS DT E) (l : Loc) (n' : LNode DT E) (loc : Loc) (h : loc.file ≠ l.file ∨ ¬ l.path <+: loc.path) :
    headAt (fs.put l n') loc = headAt fs loc := by
  unfold headAt LFS.at LFS.put
  by_cases hf : loc.file = l.file
  · have h : ¬ l.path <+: loc.path := h.resolve_left (not_not_intro hf)
    rw [if_pos hf]
    cases fs loc.file with
    | none => rfl
    | some root => exact nodeAt_replace_out n' l.path root loc.path h
  · rw [if_neg hf]

theorem at_put_in (fs : LFS DT E) (l : Loc) (n' old : LNode DT E) (h : fs.at l = some old) (q : List Str) :
    (fs.put l n').at ⟨l.file, l.path ++ q⟩ = nodeAt n' q := by
  unfold LFS.at LFS.put at *
  simp only [if_true]
  cases hr : fs l.file with
  | none => rw [hr] at h; cases h
  | some root =>
      rw [hr] at h
      exact nodeAt_replace_in n' l.path root old h q

theorem at_in (fs : LFS DT E) (l : Loc) (old : LNode DT E) (h : fs.at l = some old) (q : List Str) :
    fs.at ⟨l.file, l.path ++ q⟩ = nodeAt old q := by
  unfold LFS.at at *
  cases hr : fs l.file with
  | none => rw [hr] at h; cases h
  | some root => rw [hr] at h; simp only at h ⊢; rw [nodeAt_append, h]; rfl

theorem headAt_child (fs : LFS DT E) (l : Loc) (ch : List (Str × LNode DT E)) (a : List (Str × Dset DT E)) (h : fs.at l = some (.grp ch a)) (k : Str) :
    fs.at (l.child k) = PyDict.get? ch k := by
  have := at_in fs l _ h [k]
  unfold Loc.child
  rw [this]
  simp only [nodeAt]
  cases PyDict.get? ch k <;> rfl

/-- A node without children. -/
def IsLink (n : LNode DT E) : Prop := (∃ t, n = .soft t) ∨ ∃ f t, n = .ext f t

theorem nodeAt_link {n : LNode DT E} (h : IsLink n) (k : Str) (q : List Str) : nodeAt n (k :: q) = none := by
  rcases h with ⟨t, rfl⟩ | ⟨f, t, rfl⟩ <;> rfl

/-- The groups that are created for the missing parents, and the link. -/
theorem nodeAt_chain (link : LNode DT E) (hl : IsLink link) (ks : List Str) : ∀ q : List Str,
    (nodeAt (ks.foldr (fun k n => LNode.grp [(k, n)] []) link) q).map LNode.head =
      if q = ks then some link.head else if q <+: ks then some (.grp []) else none := by
  induction ks with
  | nil =>
      intro q
      cases q with
      | nil => rfl
      | cons k q => rw [List.foldr_nil, nodeAt_link hl, if_neg (by simp), if_neg (by simp)]; rfl
  | cons k ks ih =>
      intro q
      cases q with
      | nil => rw [if_neg (by simp), if_pos List.nil_prefix]; rfl
      | cons k' q =>
          simp only [List.foldr_cons, nodeAt]
          by_cases hk : k' = k
          · subst hk
            simp only [PyDict.get?, if_true, List.cons.injEq, true_and, List.cons_prefix_cons]
            exact ih q
          · have : PyDict.get? [(k, List.foldr (fun k n => LNode.grp [(k, n)] []) link ks)] k' = none := by simp [PyDict.get?, Ne.symm hk]
            rw [this, if_neg (by simp [hk]), if_neg (by simp [hk])]; rfl

theorem headAt_add (fs : LFS DT E) (p : Loc) (ch : List (Str × LNode DT E)) (a : List (Str × Dset DT E)) (h : fs.at p = some (.grp ch a)) (k : Str)
    (hk : PyDict.get? ch k = none) (ks : List Str) (link : LNode DT E) (hl : IsLink link) (loc : Loc) :
    headAt (fs.put p (.grp (PyDict.set ch k (ks.foldr (fun k n => .grp [(k, n)] []) link)) a)) loc =
      if loc = ⟨p.file, p.path ++ k :: ks⟩ then some link.head
      else if loc.file = p.file ∧ p.path ++ [k] <+: loc.path ∧ loc.path <+: p.path ++ k :: ks then some (.grp [])
      else headAt fs loc := by
  by_cases ho : loc.file ≠ p.file ∨ ¬ p.path <+: loc.path
  · rw [headAt_put_out _ _ _ _ ho, if_neg, if_neg]
    · rintro ⟨h1, h2, -⟩
      rcases ho with ho | ho
      · exact ho h1
      · exact ho ((List.prefix_append p.path [k]).trans h2)
    · rintro rfl
      rcases ho with ho | ho
      · exact ho rfl
      · exact ho (List.prefix_append p.path (k :: ks))
  · push Not at ho
    obtain ⟨hf, q, hq⟩ := ho
    obtain ⟨file, path⟩ := loc
    simp only at hf hq
    subst hf hq
    unfold headAt
    rw [at_put_in fs p _ _ h q, at_in fs p _ h q]
    simp only [Loc.mk.injEq, true_and, List.append_cancel_left_eq, List.prefix_append_right_inj]
    cases q with
    | nil => rw [if_neg (by simp), if_neg (by simp)]; rfl
    | cons k' qs =>
        simp only [nodeAt]
        by_cases hkk : k' = k
        · subst hkk
          rw [PyDict.get?_set_self, hk]
          simp only [List.cons.injEq, true_and, List.cons_prefix_cons, List.nil_prefix]
          rw [nodeAt_chain link hl ks qs]; rfl
        · rw [PyDict.get?_set_ne _ _ _ _ hkk, if_neg (by simp [hkk]), if_neg (by simp [hkk])]

theorem headAt_del (fs : LFS DT E) (p : Loc) (ch : List (Str × LNode DT E)) (a : List (Str × Dset DT E)) (h : fs.at p = some (.grp ch a)) (hwf : PyDict.WF ch)
    (k : Str) (loc : Loc) :
    headAt (fs.put p (.grp (PyDict.del ch k) a)) loc = if loc.file = p.file ∧ (p.child k).path <+: loc.path then none else headAt fs loc := by
  by_cases ho : loc.file ≠ p.file ∨ ¬ p.path <+: loc.path
  · rw [headAt_put_out _ _ _ _ ho, if_neg]
    rintro ⟨h1, h2⟩
    rcases ho with ho | ho
    · exact ho h1
    · exact ho ((List.prefix_append p.path [k]).trans h2)
  · push Not at ho
    obtain ⟨hf, q, hq⟩ := ho
    obtain ⟨file, path⟩ := loc
    simp only at hf hq
    subst hf hq
    unfold headAt
    rw [at_put_in fs p _ _ h q, at_in fs p _ h q]
    simp only [Loc.child, List.prefix_append_right_inj, true_and]
    cases q with
    | nil => rw [if_neg (by simp)]; rfl
    | cons k' qs =>
        simp only [nodeAt, PyDict.get?_del ch k k' hwf]
        by_cases hkk : k' = k
        · subst hkk
          rw [if_pos rfl, if_pos (by simp)]; rfl
        · rw [if_neg hkk, if_neg (by simp [Ne.symm hkk])]

/-! ### Following paths -/

theorem walkWith_heads (fs fs' : LFS DT E) (follow follow' : Loc → List Str → Option Loc) (hs : ∀ l h, headAt fs l = some h → headAt fs' l = some h)
    (hf : ∀ l q r, follow l q = some r → follow' l q = some r) (q : List Str) : ∀ (l r : Loc), walkWith fs follow l q = some r → walkWith fs' follow' l q = some r := by
  have hat : ∀ l n, fs.at l = some n → ∃ n', fs'.at l = some n' ∧ n'.head = n.head := by
    intro l n hn
    have := hs l n.head (by unfold headAt; rw [hn]; rfl)
    unfold headAt at this
    cases hn' : fs'.at l with
    | none => rw [hn'] at this; cases this
    | some n' => rw [hn'] at this; exact ⟨n', rfl, by simpa using this⟩
  induction q with
  | nil =>
      intro l r h
      simp only [walkWith] at h ⊢
      cases hn : fs.at l with
      | none => rw [hn] at h; cases h
      | some n =>
          rw [hn] at h
          obtain ⟨n', h1, -⟩ := hat l n hn
          rw [h1]; exact h
  | cons k ks ih =>
      intro l r h
      simp only [walkWith] at h ⊢
      cases hn : fs.at (l.child k) with
      | none => rw [hn] at h; cases h
      | some n =>
          rw [hn] at h
          obtain ⟨n', h1, h2⟩ := hat _ n hn
          rw [h1]
          cases n <;> cases n' <;> simp only [LNode.head, reduceCtorEq, Head.soft.injEq, Head.ext.injEq, Head.dset.injEq, Head.grp.injEq] at h2 <;> simp only at h ⊢
          · exact ih _ _ h
          · exact ih _ _ h
          · subst h2; exact hf _ _ _ h
          · obtain ⟨rfl, rfl⟩ := h2; exact hf _ _ _ h

/-- A path that leads somewhere leads to the same place with more links allowed and in files with more in them. -/
theorem walk_mono (fs fs' : LFS DT E) (hs : ∀ l h, headAt fs l = some h → headAt fs' l = some h) (m : Nat) : ∀ (n : Nat) (_ : m ≤ n) (l : Loc) (q : List Str) (r : Loc),
    walk fs m l q = some r → walk fs' n l q = some r := by
  induction m with
  | zero =>
      intro n _ l q r h
      cases n with
      | zero => exact walkWith_heads fs fs' _ _ hs (fun _ _ _ h => by cases h) q l r h
      | succ n => exact walkWith_heads fs fs' _ _ hs (fun _ _ _ h => by cases h) q l r h
  | succ m ih =>
      intro n hn l q r h
      cases n with
      | zero => omega
      | succ n => exact walkWith_heads fs fs' _ _ hs (fun l q r h => ih n (by omega) l q r h) q l r h

theorem walk_append (fs : LFS DT E) (m : Nat) : ∀ (n : Nat) (ps qs : List Str) (l p r : Loc), walk fs m l ps = some p → walk fs n p qs = some r →
    walk fs (m + n) l (ps ++ qs) = some r := by
  have key : ∀ (n N : Nat) (_ : n ≤ N) (follow follow' : Loc → List Str → Option Loc)
      (_ : ∀ l ps qs p r, follow l ps = some p → walk fs n p qs = some r → follow' l (ps ++ qs) = some r)
      (_ : ∀ l q, walk fs N l q = walkWith fs follow' l q) (ps qs : List Str) (l p r : Loc),
      walkWith fs follow l ps = some p → walk fs n p qs = some r → walkWith fs follow' l (ps ++ qs) = some r := by
    intro n N hN follow follow' hf hw ps
    induction ps with
    | nil =>
        intro qs l p r h1 h2
        simp only [walkWith] at h1
        cases hn : fs.at l with
        | none => rw [hn] at h1; cases h1
        | some c =>
            rw [hn] at h1
            cases h1
            rw [List.nil_append, ← hw]
            exact walk_mono fs fs (fun _ _ h => h) n N hN l qs r h2
    | cons k ks ih =>
        intro qs l p r h1 h2
        simp only [walkWith, List.cons_append] at h1 ⊢
        cases hn : fs.at (l.child k) with
        | none => rw [hn] at h1; cases h1
        | some c =>
            rw [hn] at h1
            cases c with
            | soft t => simp only at h1 ⊢; rw [← List.append_assoc]; exact hf _ _ _ _ _ h1 h2
            | ext f t => simp only at h1 ⊢; rw [← List.append_assoc]; exact hf _ _ _ _ _ h1 h2
            | dset d a => exact ih qs _ p r h1 h2
            | grp ch a => exact ih qs _ p r h1 h2
  induction m with
  | zero =>
      intro n ps qs l p r h1 h2
      rw [Nat.zero_add]
      cases n with
      | zero => exact key 0 0 (Nat.le_refl _) _ _ (fun _ _ _ _ _ h _ => by cases h) (fun _ _ => rfl) ps qs l p r h1 h2
      | succ n => exact key (n + 1) (n + 1) (Nat.le_refl _) _ _ (fun _ _ _ _ _ h _ => by cases h) (fun _ _ => rfl) ps qs l p r h1 h2
  | succ m ih =>
      intro n ps qs l p r h1 h2
      have e : m + 1 + n = (m + n) + 1 := by omega
      rw [e]
      exact key n (m + n + 1) (by omega) (walk fs m) (walk fs (m + n)) (fun l ps qs p r h1 h2 => ih n ps qs l p r h1 h2) (fun _ _ => rfl) ps qs l p r h1 h2

theorem walk_append_none (fs : LFS DT E) (k : Str) (m : Nat) : ∀ (ps qs : List Str) (l p : Loc), walk fs m l ps = some p → fs.at (p.child k) = none →
    walk fs m l (ps ++ k :: qs) = none := by
  have key : ∀ (follow : Loc → List Str → Option Loc)
      (_ : ∀ ps qs l p, follow l ps = some p → fs.at (p.child k) = none → follow l (ps ++ k :: qs) = none) (ps qs : List Str) (l p : Loc),
      walkWith fs follow l ps = some p → fs.at (p.child k) = none → walkWith fs follow l (ps ++ k :: qs) = none := by
    intro follow hf ps
    induction ps with
    | nil =>
        intro qs l p h1 h2
        simp only [walkWith] at h1
        cases hn : fs.at l with
        | none => rw [hn] at h1; cases h1
        | some c => rw [hn] at h1; cases h1; simp only [List.nil_append, walkWith, h2]
    | cons k' ks ih =>
        intro qs l p h1 h2
        simp only [walkWith, List.cons_append] at h1 ⊢
        cases hn : fs.at (l.child k') with
        | none => rfl
        | some c =>
            rw [hn] at h1
            cases c with
            | soft t => simp only at h1 ⊢; rw [← List.append_assoc]; exact hf _ _ _ _ h1 h2
            | ext f t => simp only at h1 ⊢; rw [← List.append_assoc]; exact hf _ _ _ _ h1 h2
            | dset d a => exact ih qs _ p h1 h2
            | grp ch a => exact ih qs _ p h1 h2
  induction m with
  | zero => exact key _ (fun _ _ _ _ h => by cases h)
  | succ m ih => exact key _ ih

theorem walk_at (fs : LFS DT E) (m : Nat) : ∀ (q : List Str) (l r : Loc), walk fs m l q = some r → ∃ n, fs.at r = some n := by
  have key : ∀ (follow : Loc → List Str → Option Loc) (_ : ∀ l q r, follow l q = some r → ∃ n, fs.at r = some n) (q : List Str) (l r : Loc),
      walkWith fs follow l q = some r → ∃ n, fs.at r = some n := by
    intro follow hf q
    induction q with
    | nil =>
        intro l r h
        simp only [walkWith] at h
        cases hn : fs.at l with
        | none => rw [hn] at h; cases h
        | some c => rw [hn] at h; cases h; exact ⟨c, hn⟩
    | cons k ks ih =>
        intro l r h
        simp only [walkWith] at h
        cases hn : fs.at (l.child k) with
        | none => rw [hn] at h; cases h
        | some c =>
            rw [hn] at h
            cases c with
            | soft t => exact hf _ _ _ h
            | ext f t => exact hf _ _ _ h
            | dset d a => exact ih _ _ h
            | grp ch a => exact ih _ _ h
  induction m with
  | zero => exact key _ (fun _ _ _ h => by cases h)
  | succ m ih => exact key _ (fun l q r h => ih q l r h)


theorem rawLinkAt_some (fs : LFS DT E) (fuel : Nat) (link : LNode DT E) (g p : Loc) (rp : List Str) (h : walk fs fuel g rp.reverse = some p) (k : Str) (ks : List Str) :
    rawLinkAt fs fuel link g rp k ks = linkHere fs link p k ks := by
  cases rp with
  | nil => rw [List.reverse_nil] at h; rw [rawLinkAt, h]
  | cons y rp => rw [rawLinkAt, h]

theorem rawLinkAt_found (fs : LFS DT E) (fuel : Nat) (link : LNode DT E) (g p : Loc) (ch : List (Str × LNode DT E)) (a : List (Str × Dset DT E)) (ps : List Str)
    (hw : walk fs fuel g ps = some p) (hp : fs.at p = some (.grp ch a)) (k : Str) (hk : PyDict.get? ch k = none) :
    ∀ (ks rp : List Str) (last : Str), ps ++ k :: ks = rp.reverse ++ [last] → ∀ rest : List Str,
      rawLinkAt fs fuel link g rp last rest = (.ok (), fs.put p (.grp (PyDict.set ch k ((ks ++ rest).foldr (fun k n => .grp [(k, n)] []) link)) a)) := by
  intro ks
  induction ks using List.reverseRecOn with
  | nil =>
      intro rp last he rest
      obtain ⟨h1, h2⟩ := List.append_inj' he rfl
      cases h2
      rw [rawLinkAt_some fs fuel link g p rp (by rw [← h1]; exact hw), linkHere, hp]
      simp only [PyDict.has, hk, List.nil_append]
      rfl
  | append_singleton ks x ih =>
      intro rp last he rest
      have he' : (ps ++ k :: ks) ++ [x] = rp.reverse ++ [last] := by rw [← he]; simp
      obtain ⟨h1, h2⟩ := List.append_inj' he' rfl
      cases h2
      have hnone : walk fs fuel g rp.reverse = none := by
        rw [← h1]
        exact walk_append_none fs k fuel ps ks g p hw (by rw [headAt_child fs p ch a hp]; exact hk)
      cases rp with
      | nil => simp at h1
      | cons y rp =>
          rw [rawLinkAt, hnone]
          simp only
          rw [ih rp y (by rw [h1]; simp) (x :: rest)]
          simp

/-! ### C15 and C24 -/

/-- C15: an unknown flag is rejected by the link functions, and nothing changes. -/
theorem C15_unknown_flag_link (fs : LFS DT E) (fuel : Nat) (w : Bool) (g : Loc) (key file path : Str) (flag : String)
    (h : flag ≠ "x" ∧ flag ≠ "ac" ∧ flag ≠ "ca") :
    createSoftLink fs fuel w g key path flag = (.error .valueError, fs) ∧ createExternalLink fs fuel w g key file path flag = (.error .valueError, fs) := by
  have hf := flagOk_false h
  constructor <;> simp [createSoftLink, createExternalLink, createLink, hf]

/-- C24: on a key that leads to an object, with 'x' the link functions raise ValueError, with 'ac' and 'ca' they do nothing;
in no case does anything change. -/
theorem C24_existing (fs : LFS DT E) (fuel : Nat) (w : Bool) (g : Loc) (key file path : Str) (h : ∃ n, linkGet fs fuel g key = some n) :
    createSoftLink fs fuel w g key path "x" = (.error .valueError, fs) ∧ createExternalLink fs fuel w g key file path "x" = (.error .valueError, fs) ∧
    ∀ flag, flag = "ac" ∨ flag = "ca" →
      createSoftLink fs fuel w g key path flag = (.ok (), fs) ∧ createExternalLink fs fuel w g key file path flag = (.ok (), fs) := by
  have hc : linkContains fs fuel g key = true := by
    obtain ⟨n, hn⟩ := h
    unfold linkGet at hn
    unfold linkContains
    cases hw : walk fs fuel g (pathOf key) with
    | none => rw [hw] at hn; cases hn
    | some l => rfl
  have hfx : flagOk "x" = true := rfl
  have hfa : flagOk "ac" = true := rfl
  have hfc : flagOk "ca" = true := rfl
  refine ⟨by simp [createSoftLink, createLink, hc, hfx], by simp [createExternalLink, createLink, hc, hfx], ?_⟩
  rintro flag (rfl | rfl)
  · exact ⟨by simp [createSoftLink, createLink, hc, hfa], by simp [createExternalLink, createLink, hc, hfa]⟩
  · exact ⟨by simp [createSoftLink, createLink, hc, hfc], by simp [createExternalLink, createLink, hc, hfc]⟩

theorem createLink_new (fs : LFS DT E) (fuel : Nat) (g : Loc) (key : Str) (link : LNode DT E) (hl : IsLink link) (flag : String) (hf : flagOk flag = true)
    (ps ks : List Str) (k : Str) (hkey : pathOf key = ps ++ k :: ks) (p : Loc) (hw : walk fs fuel g ps = some p)
    (ch : List (Str × LNode DT E)) (a : List (Str × Dset DT E)) (hp : fs.at p = some (.grp ch a)) (hk : k ∉ PyDict.keys ch) :
    ∃ fs', createLink fs fuel true g key link flag = (.ok (), fs') ∧
      ∀ loc, headAt fs' loc =
        if loc = ⟨p.file, p.path ++ k :: ks⟩ then some link.head
        else if loc.file = p.file ∧ p.path ++ [k] <+: loc.path ∧ loc.path <+: p.path ++ k :: ks then some (.grp [])
        else headAt fs loc := by
  have hg : PyDict.get? ch k = none := (PyDict.get?_eq_none_iff ch k).mpr hk
  have hnone : walk fs fuel g (pathOf key) = none := by
    rw [hkey]; exact walk_append_none fs k fuel ps ks g p hw (by rw [headAt_child fs p ch a hp]; exact hg)
  have hc : linkContains fs fuel g key = false := by unfold linkContains; rw [hnone]; rfl
  refine ⟨fs.put p (.grp (PyDict.set ch k (ks.foldr (fun k n => .grp [(k, n)] []) link)) a), ?_, fun loc => headAt_add fs p ch a hp k hg ks link hl loc⟩
  unfold createLink
  simp only [hf, hc, Bool.not_true, Bool.false_eq_true, if_false, if_true]
  unfold rawLink
  cases hr : (pathOf key).reverse with
  | nil => rw [hkey] at hr; simp at hr
  | cons last rp =>
      simp only
      have := rawLinkAt_found fs fuel link g p ch a ps hw hp k hg ks rp last (by rw [← hkey]; have := congrArg List.reverse hr; simpa using this) []
      rw [this, List.append_nil]

/-- C24: if the parents of the key (the components `ps`) lead to the group at `p`, which has no child `k`, a soft link is created
at `p/k` (with `k :: ks` for a longer key, below new groups for the missing parents), and nothing else changes. -/
theorem C24_soft_link (fs : LFS DT E) (fuel : Nat) (g : Loc) (key target : Str) (flag : String) (hf : flag = "x" ∨ flag = "ac" ∨ flag = "ca")
    (ps ks : List Str) (k : Str) (hkey : pathOf key = ps ++ k :: ks) (p : Loc) (hw : walk fs fuel g ps = some p)
    (ch : List (Str × LNode DT E)) (a : List (Str × Dset DT E)) (hp : fs.at p = some (.grp ch a)) (hk : k ∉ PyDict.keys ch) :
    ∃ fs', createSoftLink fs fuel true g key target flag = (.ok (), fs') ∧
      ∀ loc, headAt fs' loc =
        if loc = ⟨p.file, p.path ++ k :: ks⟩ then some (.soft target)
        else if loc.file = p.file ∧ p.path ++ [k] <+: loc.path ∧ loc.path <+: p.path ++ k :: ks then some (.grp [])
        else headAt fs loc :=
  createLink_new fs fuel g key (.soft target) (Or.inl ⟨target, rfl⟩) flag (by rcases hf with rfl | rfl | rfl <;> rfl) ps ks k hkey p hw ch a hp hk

/-- C24: the same for external links. -/
theorem C24_external_link (fs : LFS DT E) (fuel : Nat) (g : Loc) (key file target : Str) (flag : String) (hf : flag = "x" ∨ flag = "ac" ∨ flag = "ca")
    (ps ks : List Str) (k : Str) (hkey : pathOf key = ps ++ k :: ks) (p : Loc) (hw : walk fs fuel g ps = some p)
    (ch : List (Str × LNode DT E)) (a : List (Str × Dset DT E)) (hp : fs.at p = some (.grp ch a)) (hk : k ∉ PyDict.keys ch) :
    ∃ fs', createExternalLink fs fuel true g key file target flag = (.ok (), fs') ∧
      ∀ loc, headAt fs' loc =
        if loc = ⟨p.file, p.path ++ k :: ks⟩ then some (.ext file target)
        else if loc.file = p.file ∧ p.path ++ [k] <+: loc.path ∧ loc.path <+: p.path ++ k :: ks then some (.grp [])
        else headAt fs loc :=
  createLink_new fs fuel g key (.ext file target) (Or.inr ⟨file, target, rfl⟩) flag (by rcases hf with rfl | rfl | rfl <;> rfl) ps ks k hkey p hw ch a hp hk

theorem createLink_resolves (fs : LFS DT E) (fuel : Nat) (g : Loc) (key : Str) (link : LNode DT E) (hl : IsLink link) (flag : String) (hf : flagOk flag = true)
    (ps : List Str) (k : Str) (hkey : pathOf key = ps ++ [k]) (p : Loc) (m n : Nat) (hw : walk fs m g ps = some p)
    (ch : List (Str × LNode DT E)) (a : List (Str × Dset DT E)) (hp : fs.at p = some (.grp ch a)) (hk : k ∉ PyDict.keys ch)
    (base : Loc) (q : List Str) (hstep : ∀ fs' : LFS DT E, fs'.at (p.child k) = some link → walk fs' (n + 1) p [k] = walk fs' n base q)
    (loc : Loc) (ht : walk fs n base q = some loc) (hfuel : m + (n + 1) ≤ fuel) :
    ∃ fs', createLink fs fuel true g key link flag = (.ok (), fs') ∧ walk fs' fuel g (pathOf key) = some loc := by
  obtain ⟨fs', h1, h2⟩ := createLink_new fs fuel g key link hl flag hf ps [] k hkey p (walk_mono fs fs (fun _ _ h => h) m fuel (by omega) g ps p hw) ch a hp hk
  have hch : fs.at (p.child k) = none := by rw [headAt_child fs p ch a hp]; exact (PyDict.get?_eq_none_iff ch k).mpr hk
  have hsub : ∀ l h, headAt fs l = some h → headAt fs' l = some h := by
    intro l h hl
    rw [h2]
    have hne : l ≠ ⟨p.file, p.path ++ [k]⟩ := by
      rintro rfl
      unfold headAt at hl
      have hch : fs.at ⟨p.file, p.path ++ [k]⟩ = none := hch
      rw [hch] at hl; cases hl
    rw [if_neg hne, if_neg]
    · exact hl
    · rintro ⟨e1, e2, e3⟩
      have : l.path = p.path ++ [k] := e3.eq_of_length_le e2.length_le
      apply hne
      obtain ⟨lf, lp⟩ := l
      simp only at e1 this
      rw [e1, this]
  refine ⟨fs', h1, ?_⟩
  have hnew : ∃ c, fs'.at (p.child k) = some c ∧ c.head = link.head := by
    have := h2 (p.child k)
    rw [if_pos (show p.child k = ⟨p.file, p.path ++ [k]⟩ from rfl)] at this
    unfold headAt at this
    cases hc : fs'.at (p.child k) with
    | none => rw [hc] at this; cases this
    | some c => rw [hc] at this; exact ⟨c, rfl, by simpa using this⟩
  obtain ⟨c, hc, hh⟩ := hnew
  have hc' : fs'.at (p.child k) = some link := by
    rw [hc]
    rcases hl with ⟨t, rfl⟩ | ⟨f, t, rfl⟩ <;> cases c <;> simp_all [LNode.head]
  have hlast : walk fs' (n + 1) p [k] = some loc := by
    rw [hstep fs' hc']
    exact walk_mono fs fs' hsub n n (Nat.le_refl _) _ _ _ ht
  rw [hkey]
  have := walk_append fs' m (n + 1) ps [k] g p loc (walk_mono fs fs' hsub m m (Nat.le_refl _) g ps p hw) hlast
  exact walk_mono fs' fs' (fun _ _ h => h) _ fuel hfuel g _ _ this

/-- C24: looking up a new soft link leads to where its target path leads: from the root of the file for an absolute path, else from
the group that holds the link.  (`m` and `n` are the numbers of links to follow on the way to the group and to the
target; HDF5 follows `fuel` at most.) -/
theorem C24_soft_link_resolves (fs : LFS DT E) (fuel : Nat) (g : Loc) (key target : Str) (flag : String) (hf : flag = "x" ∨ flag = "ac" ∨ flag = "ca")
    (ps : List Str) (k : Str) (hkey : pathOf key = ps ++ [k]) (p : Loc) (m n : Nat) (hw : walk fs m g ps = some p)
    (ch : List (Str × LNode DT E)) (a : List (Str × Dset DT E)) (hp : fs.at p = some (.grp ch a)) (hk : k ∉ PyDict.keys ch)
    (loc : Loc) (ht : walk fs n (if target.head? = some '/' then ⟨p.file, []⟩ else p) (pathOf target) = some loc) (hfuel : m + (n + 1) ≤ fuel) :
    ∃ fs', createSoftLink fs fuel true g key target flag = (.ok (), fs') ∧ walk fs' fuel g (pathOf key) = some loc :=
  createLink_resolves fs fuel g key (.soft target) (Or.inl ⟨target, rfl⟩) flag (by rcases hf with rfl | rfl | rfl <;> rfl) ps k hkey p m n hw ch a hp hk _ _
    (fun fs' h => by rw [walk, walkWith, h]; simp only [List.append_nil, linkBase]) loc ht hfuel

/-- C24: the same for an external link: its target path is followed from the root of the other file. -/
theorem C24_external_link_resolves (fs : LFS DT E) (fuel : Nat) (g : Loc) (key file target : Str) (flag : String) (hf : flag = "x" ∨ flag = "ac" ∨ flag = "ca")
    (ps : List Str) (k : Str) (hkey : pathOf key = ps ++ [k]) (p : Loc) (m n : Nat) (hw : walk fs m g ps = some p)
    (ch : List (Str × LNode DT E)) (a : List (Str × Dset DT E)) (hp : fs.at p = some (.grp ch a)) (hk : k ∉ PyDict.keys ch)
    (loc : Loc) (ht : walk fs n ⟨file, []⟩ (pathOf target) = some loc) (hfuel : m + (n + 1) ≤ fuel) :
    ∃ fs', createExternalLink fs fuel true g key file target flag = (.ok (), fs') ∧ walk fs' fuel g (pathOf key) = some loc :=
  createLink_resolves fs fuel g key (.ext file target) (Or.inr ⟨file, target, rfl⟩) flag (by rcases hf with rfl | rfl | rfl <;> rfl) ps k hkey p m n hw ch a hp hk _ _
    (fun fs' h => by rw [walk, walkWith, h]; simp only [List.append_nil]) loc ht hfuel

/-- C24 (recorded): if the name is taken by a dangling link, `key in group` is false and creating a link under the name raises
for every flag, also 'ac'; nothing changes. -/
theorem C24_dangling (fs : LFS DT E) (fuel : Nat) (w : Bool) (g : Loc) (key file target : Str) (flag : String)
    (ps : List Str) (k : Str) (hkey : pathOf key = ps ++ [k]) (p : Loc) (hw : walk fs fuel g ps = some p) (hk : headAt fs (p.child k) ≠ none)
    (hd : walk fs fuel g (pathOf key) = none) :
    linkContains fs fuel g key = false ∧ createSoftLink fs fuel w g key target flag = (.error .valueError, fs) ∧
      createExternalLink fs fuel w g key file target flag = (.error .valueError, fs) := by
  have hc : linkContains fs fuel g key = false := by unfold linkContains; rw [hd]; rfl
  have hr : ∀ link, rawLink fs fuel link g (pathOf key) = (.error .valueError, fs) := by
    intro link
    unfold rawLink
    rw [hkey]
    simp only [List.reverse_append, List.reverse_cons, List.reverse_nil, List.nil_append, List.cons_append]
    rw [rawLinkAt_some fs fuel link g p _ (by rw [List.reverse_reverse]; exact hw), linkHere]
    cases hp : fs.at p with
    | none => rfl
    | some n =>
        cases n with
        | grp ch a =>
            simp only
            rw [if_pos]
            unfold headAt at hk
            rw [headAt_child fs p ch a hp] at hk
            unfold PyDict.has
            cases hg : PyDict.get? ch k with
            | none => rw [hg] at hk; exact absurd rfl hk
            | some c => rfl
        | dset d a => rfl
        | soft t => rfl
        | ext f t => rfl
  refine ⟨hc, ?_, ?_⟩
  · unfold createSoftLink createLink
    rw [hc, hr]
    split
    · rfl
    · simp
  · unfold createExternalLink createLink
    rw [hc, hr]
    split
    · rfl
    · simp

/-- C24: a failing link function changes nothing. -/
theorem C24_failure (fs fs' : LFS DT E) (fuel : Nat) (w : Bool) (g : Loc) (key file target : Str) (flag : String) (e : PyErr)
    (h : createSoftLink fs fuel w g key target flag = (.error e, fs') ∨ createExternalLink fs fuel w g key file target flag = (.error e, fs')) : fs' = fs := by
  have hh : ∀ (link : LNode DT E) (p : Loc) (k : Str) (ks : List Str) (fs' : LFS DT E) (e : PyErr), linkHere fs link p k ks = (.error e, fs') → fs' = fs := by
    intro link p k ks fs' e h
    unfold linkHere at h
    split at h
    · split at h
      · exact (Prod.mk.inj h).2.symm
      · cases (Prod.mk.inj h).1
    · exact (Prod.mk.inj h).2.symm
  have hat : ∀ (link : LNode DT E) (rp : List Str) (k : Str) (ks : List Str) (fs' : LFS DT E) (e : PyErr),
      rawLinkAt fs fuel link g rp k ks = (.error e, fs') → fs' = fs := by
    intro link rp
    induction rp with
    | nil =>
        intro k ks fs' e h
        rw [rawLinkAt] at h
        split at h
        · exact hh _ _ _ _ _ _ h
        · exact (Prod.mk.inj h).2.symm
    | cons y rp ih =>
        intro k ks fs' e h
        rw [rawLinkAt] at h
        split at h
        · exact hh _ _ _ _ _ _ h
        · exact ih _ _ _ _ h
  have key : ∀ link, createLink fs fuel w g key link flag = (.error e, fs') → fs' = fs := by
    intro link h
    unfold createLink at h
    split at h
    · exact (Prod.mk.inj h).2.symm
    · split at h
      · split at h
        · exact (Prod.mk.inj h).2.symm
        · cases (Prod.mk.inj h).1
      · split at h
        · unfold rawLink at h
          split at h
          · exact (Prod.mk.inj h).2.symm
          · exact hat _ _ _ _ _ _ h
        · exact (Prod.mk.inj h).2.symm
  rcases h with h | h
  · exact key _ h
  · exact key _ h

/-- C24: `del g[key]` removes the last name of the key from the group that the others lead to, with everything below it in the
tree (for a link: the link, not what it refers to), and nothing else; without such a name it raises KeyError. -/
theorem C24_del (fs : LFS DT E) (fuel : Nat) (g : Loc) (key : Str) (ps : List Str) (k : Str) (hkey : pathOf key = ps ++ [k]) (p : Loc)
    (hw : walk fs fuel g ps = some p) (ch : List (Str × LNode DT E)) (a : List (Str × Dset DT E)) (hp : fs.at p = some (.grp ch a)) (hwf : PyDict.WF ch) :
    (k ∈ PyDict.keys ch → ∃ fs', linkDel fs fuel true g key = (.ok (), fs') ∧
      ∀ loc, headAt fs' loc = if loc.file = p.file ∧ p.path ++ [k] <+: loc.path then none else headAt fs loc) ∧
    (k ∉ PyDict.keys ch → linkDel fs fuel true g key = (.error .keyError, fs)) ∧ linkDel fs fuel false g key = (.error .keyError, fs) := by
  have hl : (pathOf key).getLast? = some k := by rw [hkey]; simp
  have hd : (pathOf key).dropLast = ps := by rw [hkey]; simp
  refine ⟨fun hk => ?_, fun hk => ?_, ?_⟩
  · refine ⟨fs.put p (.grp (PyDict.del ch k) a), ?_, fun loc => headAt_del fs p ch a hp hwf k loc⟩
    unfold linkDel
    rw [hl, hd]
    simp only [hw, hp, (PyDict.has_iff ch k).mpr hk, Bool.and_true, if_true]
  · unfold linkDel
    rw [hl, hd]
    have : PyDict.has ch k = false := by
      rw [Bool.eq_false_iff]; exact fun h => hk ((PyDict.has_iff ch k).mp h)
    simp only [hw, hp, this, Bool.false_and, Bool.false_eq_true, if_false]
  · unfold linkDel
    rw [hl, hd]
    simp only [hw, hp, Bool.and_false, Bool.false_eq_true, if_false]

/-! ### Agreement with the model without links -/

mutual
/-- A tree without links. -/
def Node.toL : Node DT E → LNode DT E
  | .dset d a => .dset d a
  | .grp ch a => .grp (Node.toLs ch) a
/-- The same for the children. -/
def Node.toLs : List (Str × Node DT E) → List (Str × LNode DT E)
  | [] => []
  | (k, n) :: rest => (k, n.toL) :: Node.toLs rest
end

theorem get?_toLs (ch : List (Str × Node DT E)) (k : Str) : PyDict.get? (Node.toLs ch) k = (PyDict.get? ch k).map Node.toL := by
  induction ch with
  | nil => simp [Node.toLs]
  | cons p rest ih =>
      obtain ⟨k', n⟩ := p
      rw [Node.toLs]
      simp only [PyDict.get?]
      split
      · rfl
      · exact ih

theorem nodeAt_toL (p : List Str) : ∀ n : Node DT E, nodeAt n.toL p = (lookup n p).map Node.toL := by
  induction p with
  | nil => intro n; rw [lookup]; rfl
  | cons k ks ih =>
      intro n
      cases n with
      | dset d a => rw [Node.toL]; rfl
      | grp ch a =>
          rw [Node.toL]
          simp only [nodeAt, lookup, get?_toLs]
          cases PyDict.get? ch k with
          | none => rfl
          | some c => exact ih c

/-- C24: in a file without links, `raw[key]` in this model is the look-up of the model without links. -/
theorem C24_no_links (fs : LFS DT E) (fuel : Nat) (file : Str) (root : Node DT E) (h : fs file = some root.toL) (key : Str) :
    linkGet fs fuel ⟨file, []⟩ key = (lookup root (pathOf key)).map Node.toL := by
  have hat : ∀ p, fs.at ⟨file, p⟩ = (lookup root p).map Node.toL := by
    intro p; unfold LFS.at; simp only [h]; exact nodeAt_toL p root
  have hw : ∀ (follow : Loc → List Str → Option Loc) (q p : List Str), walkWith fs follow ⟨file, p⟩ q =
      match lookup root (p ++ q) with | some _ => some ⟨file, p ++ q⟩ | none => none := by
    intro follow q
    induction q with
    | nil =>
        intro p
        rw [walkWith, hat, List.append_nil]
        cases lookup root p <;> rfl
    | cons k ks ih =>
        intro p
        have hch : (⟨file, p⟩ : Loc).child k = ⟨file, p ++ [k]⟩ := rfl
        rw [walkWith, hch, hat]
        have happ : p ++ k :: ks = (p ++ [k]) ++ ks := by simp
        cases hl : lookup root (p ++ [k]) with
        | none =>
            have : lookup root (p ++ k :: ks) = none := by
              rw [happ]
              have h1 : ∀ (x y : List Str) (n : Node DT E), lookup n x = none → lookup n (x ++ y) = none := by
                intro x y
                induction x with
                | nil => intro n h; simp [lookup] at h
                | cons k x ih =>
                    intro n h
                    cases n with
                    | dset d a => rfl
                    | grp ch a =>
                        simp only [List.cons_append, lookup] at h ⊢
                        cases hg : PyDict.get? ch k with
                        | none => rfl
                        | some c => rw [hg] at h; exact ih c h
              exact h1 _ _ _ hl
            rw [this]; rfl
        | some c =>
            simp only [Option.map_some]
            have := ih (p ++ [k])
            rw [← happ] at this
            cases c with
            | dset d a => rw [Node.toL]; exact this
            | grp ch a => rw [Node.toL]; exact this
  unfold linkGet
  have : walk fs fuel ⟨file, []⟩ (pathOf key) = match lookup root (pathOf key) with | some _ => some ⟨file, pathOf key⟩ | none => none := by
    cases fuel with
    | zero => exact hw _ (pathOf key) []
    | succ n => exact hw _ (pathOf key) []
  rw [this]
  cases hl : lookup root (pathOf key) with
  | none => rfl
  | some c => simp only; rw [hat, hl]

/-- A file with a dataset and a group: a relative and an absolute soft link in the group, an external link to it from another file. -/
example :
    let fs : LFS Nat Nat := fun f => if f = "a".toList then some (.grp [("x".toList, .dset ⟨1, [], [5]⟩ []), ("g".toList, .grp [("y".toList, .dset ⟨1, [], [6]⟩ [])] [])] [])
      else if f = "b".toList then some (.grp [] []) else none
    let fs1 := (createSoftLink fs 16 true ⟨"a".toList, []⟩ "g/rel".toList "y".toList "x").2
    let fs2 := (createSoftLink fs1 16 true ⟨"a".toList, []⟩ "g/abs".toList "/x".toList "x").2
    let fs3 := (createExternalLink fs2 16 true ⟨"b".toList, []⟩ "p/e".toList "a".toList "/g".toList "ac").2
    walk fs3 16 ⟨"a".toList, []⟩ (pathOf "g/rel".toList) = some ⟨"a".toList, ["g".toList, "y".toList]⟩ ∧
    walk fs3 16 ⟨"a".toList, []⟩ (pathOf "g/abs".toList) = some ⟨"a".toList, ["x".toList]⟩ ∧
    walk fs3 16 ⟨"b".toList, []⟩ (pathOf "p/e/rel".toList) = some ⟨"a".toList, ["g".toList, "y".toList]⟩ ∧
    walk fs3 16 ⟨"b".toList, []⟩ (pathOf "p/e/abs".toList) = some ⟨"a".toList, ["x".toList]⟩ ∧
    linkContains (linkDel fs3 16 true ⟨"b".toList, []⟩ "p/e/rel".toList).2 16 ⟨"a".toList, []⟩ "g/y".toList = true ∧
    linkContains (linkDel fs3 16 true ⟨"b".toList, []⟩ "p/e/y".toList).2 16 ⟨"a".toList, []⟩ "g/rel".toList = false := by
  decide +kernel


/-- A dangling link: the hypotheses of C24_dangling are met. -/
example :
    let fs : LFS Nat Nat := fun _ => some (.grp [("l".toList, .soft "none".toList)] [])
    walk fs 16 ⟨[], []⟩ [] = some ⟨[], []⟩ ∧ (headAt fs ((⟨[], []⟩ : Loc).child "l".toList)).isSome = true ∧ walk fs 16 ⟨[], []⟩ (pathOf "l".toList) = none := by
  decide +kernel

/-- Links in a circle are not followed for ever. -/
example :
    let fs : LFS Nat Nat := fun _ => some (.grp [("l".toList, .soft "m".toList), ("m".toList, .soft "/l".toList)] [])
    walk fs 16 ⟨[], []⟩ (pathOf "l".toList) = none := by decide +kernel

end Pyhipp.H5
