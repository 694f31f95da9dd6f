/-
Python `str` as a list of characters, with `str.split(sep)` and `sep.join` for a one-character
separator.
-/
namespace Pyhipp

abbrev Str := List Char

namespace Str

/-- `s.split(sep)`: always at least one piece, pieces may be empty. -/
def split (sep : Char) : Str → List Str
  | [] => [[]]
  | c :: t =>
      if c = sep then [] :: split sep t
      else match split sep t with
        | h :: r => (c :: h) :: r
        | [] => [[c]]

/-- `sep.join(pieces)` -/
def join (sep : Char) : List Str → Str
  | [] => []
  | [a] => a
  | a :: b :: t => a ++ sep :: join sep (b :: t)

theorem split_ne_nil (sep : Char) (s : Str) : split sep s ≠ [] := by
  cases s with
  | nil => simp [split]
  | cons c t =>
      unfold split
      split
      · simp
      · split <;> simp

theorem split_nosep (sep : Char) (s : Str) (h : sep ∉ s) : split sep s = [s] := by
  induction s with
  | nil => rfl
  | cons c t ih =>
      simp only [List.mem_cons, not_or] at h
      unfold split
      rw [if_neg (Ne.symm h.1), ih h.2]

theorem split_append_sep (sep : Char) (a b : Str) : split sep (a ++ sep :: b) = split sep a ++ split sep b := by
  induction a with
  | nil => simp [split]
  | cons c t ih =>
      rw [List.cons_append]
      by_cases h : c = sep
      · simp [split, h, ih]
      · simp only [split, h, if_false, ih]
        cases hs : split sep t with
        | nil => exact absurd hs (split_ne_nil sep t)
        | cons x r => simp

theorem split_join (sep : Char) (cs : List Str) (hne : cs ≠ []) (h : ∀ c ∈ cs, sep ∉ c) :
    split sep (join sep cs) = cs := by
  induction cs with
  | nil => exact absurd rfl hne
  | cons a t ih =>
      cases t with
      | nil => exact split_nosep sep a (h a (by simp))
      | cons b t =>
          rw [join, split_append_sep, split_nosep sep a (h a (by simp)), ih (by simp) (fun c hc => h c (by simp [hc]))]
          rfl

theorem join_split (sep : Char) (s : Str) : join sep (split sep s) = s := by
  induction s with
  | nil => rfl
  | cons c t ih =>
      unfold split
      split
      · rename_i h
        cases hs : split sep t with
        | nil => exact absurd hs (split_ne_nil sep t)
        | cons x r =>
            rw [hs] at ih
            rw [join, List.nil_append, ih, h]
      · split
        · rename_i x r hs
          rw [hs] at ih
          cases r with
          | nil => simp [join] at ih ⊢; exact ih
          | cons y r => simp only [join, List.cons_append] at ih ⊢; rw [ih]
        · rename_i hs; exact absurd hs (split_ne_nil sep t)

theorem nosep_of_mem_split (sep : Char) (s : Str) : ∀ c ∈ split sep s, sep ∉ c := by
  induction s with
  | nil => simp [split]
  | cons c t ih =>
      unfold split
      split
      · intro x hx
        rcases List.mem_cons.mp hx with rfl | hx
        · simp
        · exact ih x hx
      · rename_i hc
        split
        · rename_i x r hs
          intro y hy
          rcases List.mem_cons.mp hy with rfl | hy
          · simp only [List.mem_cons, not_or]
            exact ⟨Ne.symm hc, ih x (by rw [hs]; simp)⟩
          · exact ih y (by rw [hs]; simp [hy])
        · rename_i hs; exact absurd hs (split_ne_nil sep t)

/-- `[k for k in s.split(sep) if len(k) > 0]` -/
def comps (sep : Char) (s : Str) : List Str := (split sep s).filter (fun c => decide (c ≠ []))

theorem comps_append_sep (sep : Char) (a b : Str) : comps sep (a ++ sep :: b) = comps sep a ++ comps sep b := by
  unfold comps; rw [split_append_sep, List.filter_append]

theorem comps_cons_sep (sep : Char) (b : Str) : comps sep (sep :: b) = comps sep b := by
  have := comps_append_sep sep [] b
  simpa [comps, split] using this

theorem comps_nosep (sep : Char) (a : Str) (h : sep ∉ a) (hne : a ≠ []) : comps sep a = [a] := by
  unfold comps; rw [split_nosep sep a h]; simp [hne]

theorem comps_replicate (sep : Char) (n : Nat) (b : Str) : comps sep (List.replicate n sep ++ b) = comps sep b := by
  induction n with
  | zero => simp
  | succ n ih => rw [List.replicate_succ, List.cons_append, comps_cons_sep, ih]

theorem mem_comps (sep : Char) (s c : Str) (h : c ∈ comps sep s) : sep ∉ c ∧ c ≠ [] := by
  unfold comps at h
  rw [List.mem_filter] at h
  exact ⟨nosep_of_mem_split sep s c h.1, by simpa using h.2⟩

theorem comps_join (sep : Char) (cs : List Str) (h : ∀ c ∈ cs, sep ∉ c ∧ c ≠ []) : comps sep (join sep cs) = cs := by
  by_cases hne : cs = []
  · subst hne; simp [join, comps, split]
  · unfold comps
    rw [split_join sep cs hne (fun c hc => (h c hc).1), List.filter_eq_self]
    intro c hc
    simpa using (h c hc).2

end Str
end Pyhipp
