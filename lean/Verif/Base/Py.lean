/-
Python run-time notions shared by all model files: exceptions as values, list/array
indexing with Python's negative wrap-around, and Python slices with non-negative bounds.
-/
namespace Pyhipp

/-- Exception classes that the modelled code can raise (only the class is modelled, not the
message). -/
inductive PyErr
  | keyError | valueError | typeError | assertionError | indexError
  | attributeError | zeroDivisionError | fileNotFoundError | fileExistsError
  | osError | notImplementedError | runtimeError | permissionError | unicodeError
  | nameError
  deriving DecidableEq, Repr

/-- Result of a pure computation that may raise. -/
abbrev PyM (α : Type _) := Except PyErr α

/-- `assert c` -/
def pyAssert (c : Bool) : PyM Unit := if c then .ok () else .error .assertionError

/-- `xs[i]` for a sequence / 1-d array: negative indices wrap around once, anything outside
`[-n, n)` raises IndexError.  (numba does not check bounds; the theorems show that the
modelled calls never leave the range.) -/
def pyGet {α : Type _} (xs : List α) (i : Int) : PyM α :=
  if 0 ≤ i then
    match xs[i.toNat]? with
    | some a => .ok a
    | none => .error .indexError
  else
    if 0 ≤ i + xs.length then
      match xs[(i + xs.length).toNat]? with
      | some a => .ok a
      | none => .error .indexError
    else .error .indexError

/-- Python clamps a slice bound of a sequence of length `n`: negative bounds count from the
end, then the bound is clipped to `[0, n]`. -/
def pyClamp (n : Nat) (i : Int) : Nat :=
  if i < 0 then (i + n).toNat else min i.toNat n

/-- `xs[b:e]` (step 1). -/
def pySlice {α : Type _} (xs : List α) (b e : Int) : List α :=
  (xs.drop (pyClamp xs.length b)).take (pyClamp xs.length e - pyClamp xs.length b)

theorem pyGet_ofNat {α : Type _} (xs : List α) (i : Nat) (h : i < xs.length) :
    pyGet xs (i : Int) = .ok xs[i] := by
  simp [pyGet, h]

theorem pyGet_nonneg {α : Type _} (xs : List α) (i : Int) (h0 : 0 ≤ i)
    (h : i.toNat < xs.length) : pyGet xs i = .ok xs[i.toNat] := by
  simp [pyGet, h0, h]

theorem pyGet_neg {α : Type _} (xs : List α) (i : Int) (h0 : i < 0) (h1 : 0 ≤ i + xs.length)
    (h : (i + xs.length).toNat < xs.length) :
    pyGet xs i = .ok xs[(i + xs.length).toNat] := by
  have : ¬ (0 ≤ i) := by omega
  simp [pyGet, this, h1, h]

theorem pyGet_last {α : Type _} (xs : List α) (h : xs ≠ []) :
    pyGet xs (-1) = .ok (xs.getLast h) := by
  have hl : 0 < xs.length := List.length_pos_iff.mpr h
  have e : ((-1 : Int) + xs.length).toNat = xs.length - 1 := by omega
  rw [pyGet_neg xs (-1) (by omega) (by omega) (by omega)]
  simp only [e]
  rw [List.getLast_eq_getElem]

theorem pyGet_oob {α : Type _} (xs : List α) (i : Int)
    (h : i < -(xs.length : Int) ∨ (xs.length : Int) ≤ i) : pyGet xs i = .error .indexError := by
  unfold pyGet
  rcases h with h | h
  · rw [if_neg (by omega), if_neg (by omega)]
  · rw [if_pos (by omega), List.getElem?_eq_none (by omega)]

theorem pyGet_ok_iff {α : Type _} (xs : List α) (i : Int) :
    (∃ a, pyGet xs i = .ok a) ↔ -(xs.length : Int) ≤ i ∧ i < xs.length := by
  constructor
  · rintro ⟨a, ha⟩
    by_cases h : i < -(xs.length : Int) ∨ (xs.length : Int) ≤ i
    · rw [pyGet_oob xs i h] at ha; cases ha
    · omega
  · rintro ⟨h1, h2⟩
    by_cases h0 : 0 ≤ i
    · exact ⟨_, pyGet_nonneg xs i h0 (by omega)⟩
    · exact ⟨_, pyGet_neg xs i (by omega) (by omega) (by omega)⟩

@[simp] theorem Except.pure_ok {ε α : Type _} (a : α) :
    (pure a : Except ε α) = Except.ok a := rfl
@[simp] theorem Except.bind_ok {ε α β : Type _} (a : α) (f : α → Except ε β) :
    (Except.ok a >>= f) = f a := rfl
@[simp] theorem Except.bind_error {ε α β : Type _} (e : ε) (f : α → Except ε β) :
    (Except.error e >>= f) = Except.error e := rfl

theorem mapM_ok_of {α β : Type _} {ε : Type _} (f : α → Except ε β) (g : α → β) (l : List α)
    (h : ∀ a ∈ l, f a = .ok (g a)) : l.mapM f = .ok (l.map g) := by
  induction l with
  | nil => rfl
  | cons a t ih =>
      rw [List.mapM_cons, h a (by simp), ih (fun b hb => h b (by simp [hb]))]
      rfl

theorem getD_lt {α : Type _} (xs : List α) (i : Nat) (d : α) (h : i < xs.length) :
    xs.getD i d = xs[i] := by simp [List.getD, h]

end Pyhipp
