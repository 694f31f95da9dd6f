/-
Python's insertion-ordered `dict` as an association list.  `set` replaces the value of an
existing key in place and appends a new key at the end; `del` removes the entry.
Invariant (maintained by all operations, kept as a separate predicate): keys are distinct.
-/
namespace Pyhipp

abbrev PyDict (κ β : Type _) := List (κ × β)

namespace PyDict
variable {κ : Type u} {β : Type v} [DecidableEq κ]

/-- `d.get(k)` as an Option. -/
def get? (d : PyDict κ β) (k : κ) : Option β :=
  match d with
  | [] => none
  | (k', v) :: t => if k' = k then some v else get? t k

/-- `d[k] = v` -/
def set (d : PyDict κ β) (k : κ) (v : β) : PyDict κ β :=
  match d with
  | [] => [(k, v)]
  | (k', v') :: t => if k' = k then (k', v) :: t else (k', v') :: set t k v

/-- `del d[k]` for a present key (no effect for an absent one). -/
def del (d : PyDict κ β) (k : κ) : PyDict κ β :=
  match d with
  | [] => []
  | (k', v') :: t => if k' = k then t else (k', v') :: del t k

/-- `list(d)` -/
def keys (d : PyDict κ β) : List κ := d.map (·.1)

/-- `k in d` -/
def has (d : PyDict κ β) (k : κ) : Bool := (d.get? k).isSome

/-- `d.update(m)`: assignments in the order of `m`'s items. -/
def update (d m : PyDict κ β) : PyDict κ β := m.foldl (fun d kv => set d kv.1 kv.2) d

/-- The representation invariant. -/
def WF (d : PyDict κ β) : Prop := d.keys.Nodup

@[simp] theorem get?_nil (k : κ) : get? ([] : PyDict κ β) k = none := rfl
omit [DecidableEq κ] in
@[simp] theorem keys_nil : keys ([] : PyDict κ β) = [] := rfl
omit [DecidableEq κ] in
@[simp] theorem keys_cons (p : κ × β) (d : PyDict κ β) : keys (p :: d) = p.1 :: keys d := rfl

omit [DecidableEq κ] in
theorem WF_nil : WF ([] : PyDict κ β) := List.nodup_nil

theorem get?_set_self (d : PyDict κ β) (k : κ) (v : β) : (d.set k v).get? k = some v := by
  induction d with
  | nil => simp [set, get?]
  | cons p t ih =>
      obtain ⟨k', v'⟩ := p
      by_cases h : k' = k
      · simp [set, get?, h]
      · simp [set, get?, h, ih]

theorem get?_set_ne (d : PyDict κ β) (k k₂ : κ) (v : β) (hne : k₂ ≠ k) :
    (d.set k v).get? k₂ = d.get? k₂ := by
  induction d with
  | nil => simp [set, get?, Ne.symm hne]
  | cons p t ih =>
      obtain ⟨k', v'⟩ := p
      by_cases h : k' = k
      · subst h; simp [set, get?, Ne.symm hne]
      · simp only [set, h, if_false, get?]; split <;> simp_all

theorem get?_set (d : PyDict κ β) (k k₂ : κ) (v : β) :
    (d.set k v).get? k₂ = if k₂ = k then some v else d.get? k₂ := by
  split
  · subst_vars; exact get?_set_self d _ v
  · exact get?_set_ne d k k₂ v ‹_›

theorem get?_eq_none_iff (d : PyDict κ β) (k : κ) : d.get? k = none ↔ k ∉ d.keys := by
  induction d with
  | nil => simp
  | cons p t ih =>
      obtain ⟨k', v'⟩ := p
      by_cases h : k' = k
      · simp [get?, h]
      · simp [get?, h, ih, Ne.symm h]

theorem get?_isSome_iff (d : PyDict κ β) (k : κ) : (d.get? k).isSome ↔ k ∈ d.keys := by
  have := get?_eq_none_iff d k
  cases h : d.get? k <;> simp_all

theorem has_iff (d : PyDict κ β) (k : κ) : d.has k = true ↔ k ∈ d.keys := get?_isSome_iff d k

theorem mem_of_get? (d : PyDict κ β) (k : κ) (v : β) (h : d.get? k = some v) : (k, v) ∈ d := by
  induction d with
  | nil => simp at h
  | cons p t ih =>
      obtain ⟨k', v'⟩ := p
      by_cases hk : k' = k
      · simp [get?, hk] at h; simp [hk, h]
      · simp [get?, hk] at h; exact List.mem_cons_of_mem _ (ih h)

theorem get?_of_mem (d : PyDict κ β) (hwf : d.WF) (k : κ) (v : β) (h : (k, v) ∈ d) :
    d.get? k = some v := by
  induction d with
  | nil => simp at h
  | cons p t ih =>
      obtain ⟨k', v'⟩ := p
      simp only [WF, keys_cons, List.nodup_cons] at hwf
      rcases List.mem_cons.mp h with h | h
      · cases h; simp [get?]
      · have : k' ≠ k := by
          rintro rfl; exact hwf.1 (List.mem_map.mpr ⟨(_, v), h, rfl⟩)
        simp [get?, this]; exact ih hwf.2 h

theorem keys_set_of_mem (d : PyDict κ β) (k : κ) (v : β) (h : k ∈ d.keys) :
    (d.set k v).keys = d.keys := by
  induction d with
  | nil => simp at h
  | cons p t ih =>
      obtain ⟨k', v'⟩ := p
      by_cases hk : k' = k
      · simp [set, hk]
      · have : k ∈ keys t := by
          rcases List.mem_cons.mp h with h | h
          · exact absurd h.symm hk
          · exact h
        simp [set, hk, ih this]

theorem keys_set_of_not_mem (d : PyDict κ β) (k : κ) (v : β) (h : k ∉ d.keys) :
    (d.set k v).keys = d.keys ++ [k] := by
  induction d with
  | nil => simp [set]
  | cons p t ih =>
      obtain ⟨k', v'⟩ := p
      simp only [keys_cons, List.mem_cons, not_or] at h
      simp [set, Ne.symm h.1, ih h.2]

theorem set_of_not_mem (d : PyDict κ β) (k : κ) (v : β) (h : k ∉ d.keys) :
    d.set k v = d ++ [(k, v)] := by
  induction d with
  | nil => simp [set]
  | cons p t ih =>
      obtain ⟨k', v'⟩ := p
      simp only [keys_cons, List.mem_cons, not_or] at h
      simp [set, Ne.symm h.1, ih h.2]

theorem mem_keys_set (d : PyDict κ β) (k k₂ : κ) (v : β) :
    k₂ ∈ (d.set k v).keys ↔ k₂ = k ∨ k₂ ∈ d.keys := by
  by_cases h : k ∈ d.keys
  · rw [keys_set_of_mem d k v h]
    constructor
    · exact Or.inr
    · rintro (rfl | h')
      · exact h
      · exact h'
  · rw [keys_set_of_not_mem d k v h]; simp [or_comm]

theorem WF_set (d : PyDict κ β) (k : κ) (v : β) (h : d.WF) : (d.set k v).WF := by
  unfold WF at *
  by_cases hk : k ∈ d.keys
  · rw [keys_set_of_mem d k v hk]; exact h
  · rw [keys_set_of_not_mem d k v hk]
    rw [List.nodup_append]
    refine ⟨h, by simp, ?_⟩
    intro a ha b hb
    simp at hb; subst hb
    rintro rfl; exact hk ha

theorem set_get?_self (d : PyDict κ β) (k : κ) (v : β) (h : d.get? k = some v) :
    d.set k v = d := by
  induction d with
  | nil => simp at h
  | cons p t ih =>
      obtain ⟨k', v'⟩ := p
      by_cases hk : k' = k
      · simp [get?, hk] at h; simp [set, hk, h]
      · simp [get?, hk] at h; simp [set, hk, ih h]

theorem set_set (d : PyDict κ β) (k : κ) (v w : β) : (d.set k v).set k w = d.set k w := by
  induction d with
  | nil => simp [set]
  | cons p t ih =>
      obtain ⟨k', v'⟩ := p
      by_cases hk : k' = k
      · simp [set, hk]
      · simp [set, hk, ih]

theorem keys_del (d : PyDict κ β) (k : κ) (h : d.WF) :
    (d.del k).keys = d.keys.filter (fun x => decide (x ≠ k)) := by
  induction d with
  | nil => simp [del]
  | cons p t ih =>
      obtain ⟨k', v'⟩ := p
      simp only [WF, keys_cons, List.nodup_cons] at h
      by_cases hk : k' = k
      · subst hk
        simp only [del, if_true, keys_cons]
        rw [List.filter_cons_of_neg (by simp), List.filter_eq_self.mpr]
        intro a ha
        simp only [ne_eq, decide_not, Bool.not_eq_true', decide_eq_false_iff_not]
        rintro rfl; exact h.1 ha
      · simp [del, hk, ih h.2]

theorem get?_del (d : PyDict κ β) (k k₂ : κ) (h : d.WF) :
    (d.del k).get? k₂ = if k₂ = k then none else d.get? k₂ := by
  induction d with
  | nil => simp [del]
  | cons p t ih =>
      obtain ⟨k', v'⟩ := p
      simp only [WF, keys_cons, List.nodup_cons] at h
      by_cases hk : k' = k
      · subst hk
        simp only [del, if_true, get?]
        by_cases h2 : k₂ = k'
        · subst h2; simp [(get?_eq_none_iff t _).mpr h.1]
        · simp [h2, Ne.symm h2]
      · simp only [del, hk, if_false, get?, ih h.2]
        by_cases h2 : k₂ = k
        · subst h2; simp [hk]
        · simp [h2]

theorem WF_del (d : PyDict κ β) (k : κ) (h : d.WF) : (d.del k).WF := by
  unfold WF; rw [keys_del d k h]; exact h.filter _

theorem del_of_not_mem (d : PyDict κ β) (k : κ) (h : k ∉ d.keys) : d.del k = d := by
  induction d with
  | nil => rfl
  | cons p t ih =>
      obtain ⟨k', v'⟩ := p
      simp only [keys_cons, List.mem_cons, not_or] at h
      simp [del, Ne.symm h.1, ih h.2]

theorem WF_update (d m : PyDict κ β) (h : d.WF) : (d.update m).WF := by
  unfold update
  induction m generalizing d with
  | nil => exact h
  | cons p t ih => exact ih _ (WF_set d _ _ h)

theorem get?_update (d m : PyDict κ β) (k : κ) (hm : m.WF) :
    (d.update m).get? k = (m.get? k).or (d.get? k) := by
  unfold update
  induction m generalizing d with
  | nil => simp
  | cons p t ih =>
      obtain ⟨k', v'⟩ := p
      simp only [WF, keys_cons, List.nodup_cons] at hm
      simp only [List.foldl_cons]
      rw [ih _ hm.2, get?_set]
      simp only [get?]
      by_cases hk : k' = k
      · subst hk; simp [(get?_eq_none_iff t _).mpr hm.1]
      · simp [hk, Ne.symm hk]

theorem keys_update (d m : PyDict κ β) (hm : m.WF) :
    (d.update m).keys = d.keys ++ m.keys.filter (fun k => decide (k ∉ d.keys)) := by
  unfold update
  induction m generalizing d with
  | nil => simp
  | cons p t ih =>
      obtain ⟨k', v'⟩ := p
      simp only [WF, keys_cons, List.nodup_cons] at hm
      simp only [List.foldl_cons]
      rw [ih _ hm.2]
      by_cases hk : k' ∈ d.keys
      · rw [keys_set_of_mem d _ _ hk]
        simp [hk]
      · rw [keys_set_of_not_mem d _ _ hk]
        simp only [keys_cons, List.append_assoc, List.cons_append, List.nil_append]
        congr 1
        rw [List.filter_cons_of_pos (by simpa using hk)]
        congr 1
        apply List.filter_congr
        intro x hx
        have : x ≠ k' := by rintro rfl; exact hm.1 hx
        simp [this]

theorem mem_keys_update (d m : PyDict κ β) (k : κ) :
    k ∈ (d.update m).keys ↔ k ∈ d.keys ∨ k ∈ m.keys := by
  unfold update
  induction m generalizing d with
  | nil => simp
  | cons p t ih =>
      simp only [List.foldl_cons]
      rw [ih, mem_keys_set]
      simp only [keys_cons, List.mem_cons]
      constructor
      · rintro ((h | h) | h) <;> simp [h]
      · rintro (h | h | h) <;> simp [h]

/-- `update` into an empty dict rebuilds the argument. -/
theorem update_nil (m : PyDict κ β) (hm : m.WF) : update ([] : PyDict κ β) m = m := by
  have key : ∀ (pre t : PyDict κ β), (pre ++ t).WF → update pre t = pre ++ t := by
    intro pre t
    induction t generalizing pre with
    | nil => intro _; simp [update]
    | cons p t ih =>
        intro h
        have hnot : p.1 ∉ keys pre := by
          simp only [WF, keys, List.map_append, List.map_cons, List.nodup_append] at h
          intro hp
          exact h.2.2 _ hp p.1 (by simp) rfl
        have : update pre (p :: t) = update (set pre p.1 p.2) t := rfl
        rw [this, set_of_not_mem _ _ _ hnot, ih]
        · simp
        · simpa using h
  simpa using key [] m (by simpa using hm)

theorem get?_append (d e : PyDict κ β) (k : κ) :
    get? (d ++ e) k = (d.get? k).or (get? e k) := by
  induction d with
  | nil => simp
  | cons p t ih =>
      obtain ⟨k', v'⟩ := p
      by_cases h : k' = k
      · simp [get?, h]
      · simp [get?, h, ih]

theorem get?_map {γ : Type w} (f : β → γ) (d : PyDict κ β) (k : κ) :
    get? (d.map (fun p => (p.1, f p.2))) k = (d.get? k).map f := by
  induction d with
  | nil => rfl
  | cons p t ih =>
      obtain ⟨k', v'⟩ := p
      by_cases h : k' = k
      · simp [get?, h]
      · simp [get?, h, ih]

omit [DecidableEq κ] in
theorem keys_map {γ : Type w} (f : β → γ) (d : PyDict κ β) :
    keys (d.map (fun p => (p.1, f p.2))) = d.keys := by
  simp [keys]

/-- Two well-formed dicts with the same key order and the same look-ups are equal. -/
theorem ext (d e : PyDict κ β) (hd : d.WF) (hk : d.keys = e.keys)
    (hg : ∀ k, d.get? k = e.get? k) : d = e := by
  induction d generalizing e with
  | nil => cases e with
    | nil => rfl
    | cons p t => simp at hk
  | cons p t ih =>
      cases e with
      | nil => simp at hk
      | cons q s =>
          obtain ⟨k, v⟩ := p
          obtain ⟨k', v'⟩ := q
          simp only [keys_cons, List.cons.injEq] at hk
          obtain ⟨rfl, hk⟩ := hk
          have h0 := hg k
          simp [get?] at h0
          subst h0
          have hwf := hd
          simp only [WF, keys_cons, List.nodup_cons] at hwf
          have ht : t = s := by
            refine ih s hwf.2 hk ?_
            intro k2
            by_cases h2 : k2 = k
            · subst h2
              rw [(get?_eq_none_iff t _).mpr hwf.1, (get?_eq_none_iff s _).mpr (hk ▸ hwf.1)]
            · have := hg k2
              simpa [get?, Ne.symm h2] using this
          rw [ht]

end PyDict
end Pyhipp
