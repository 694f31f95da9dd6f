import Verif.Model.ArrayObj
/-
C93: array objects.
-/
namespace Pyhipp.ArrayObj
open Pyhipp

/-- C93 (defect): `argsort()` of any array, in any version of numpy, raises: the permutation and the number of elements are passed in the wrong order. -/
theorem C93_argsort_raises (strict : Bool) (order : List Int → List Int) (hord : ∀ l, (order l).length = l.length) (orderAxis : Arr → Int → Arr) (a : Arr) :
    argsort strict order orderAxis a none = .error (if strict = true then .valueError else if a.size = 1 then .assertionError else .typeError) := by
  cases strict with
  | true => rfl
  | false =>
      have hl := hord a.data
      unfold argsort Arr.size
      dsimp only
      generalize order a.data = o at *
      match o, hl with
      | [], hl => rw [← hl]; rfl
      | [i], hl => rw [← hl]; rfl
      | _ :: _ :: _, hl =>
          rw [← hl, if_neg (by simp), if_neg (by simp)]
          rfl

/-- C93: the constructor itself is sound: with the arguments the other way round the index array holds the permutation and the number of elements, for
every array. -/
theorem C93_flat_index (strict : Bool) (n : Int) (out : List Int) (copy : Bool) :
    mkFlatIndex strict (.scalar n) (.arr ⟨[out.length], out⟩) copy = .ok ⟨n, ⟨[out.length], out⟩⟩ := rfl

/-- C93: index arrays must be one-dimensional: other data raises AssertionError. -/
theorem C93_flat_index_dims (strict : Bool) (n : Int) (a : Arr) (h : a.shape.length ≠ 1) (copy : Bool) :
    mkFlatIndex strict (.scalar n) (.arr a) copy = .error .assertionError := by
  simp [mkFlatIndex, mkArray, pyInt, pyAssert, h, bind, Except.bind]

/-- C93: sorting along an axis returns numpy's indices. -/
theorem C93_argsort_axis (strict : Bool) (order : List Int → List Int) (orderAxis : Arr → Int → Arr) (a : Arr) (k : Int) :
    argsort strict order orderAxis a (some k) = .ok (.ints (orderAxis a k)) := rfl

/-- C93 (defect): constructing an `IndexArray` raises for every argument. -/
theorem C93_index_array_raises (strict : Bool) (s d : Like) (copy : Bool) : ∃ e, mkIndexArray strict s d copy = .error e := by
  unfold mkIndexArray
  cases mkArray strict d copy with
  | error e => exact ⟨e, rfl⟩
  | ok a =>
      cases hs : mkShape strict s with
      | error e => exact ⟨e, by simp [bind, Except.bind]⟩
      | ok b =>
          by_cases h : a.shape.length = 2
          · exact ⟨.typeError, by simp [bind, Except.bind, pyAssert, h]⟩
          · exact ⟨.assertionError, by simp [bind, Except.bind, pyAssert, h]⟩

/-- C93: in particular for an (n, d) array of indices into a d-dimensional shape. -/
theorem C93_index_array_valid (strict : Bool) (n d : Nat) (data : List Int) (shape : List Int) (copy : Bool) :
    mkIndexArray strict (.seq shape) (.arr ⟨[n, d], data⟩) copy = .error .typeError := by
  simp [mkIndexArray, mkArray, mkShape, pyAssert, bind, Except.bind, pure, Except.pure]

/-- C93: `Shape` keeps a sequence as it is; a single number, and every array that is not one-dimensional, raise AssertionError. -/
theorem C93_shape (strict : Bool) :
    (∀ l : List Int, mkShape strict (.seq l) = .ok ⟨[l.length], l⟩) ∧ (∀ i, mkShape strict (.scalar i) = .error .assertionError) ∧
    ∀ a : Arr, (∃ r, mkShape strict (.arr a) = .ok r) ↔ a.shape.length = 1 := by
  refine ⟨fun l => ?_, fun i => ?_, fun a => ?_⟩
  · simp [mkShape, mkArray, pyAssert, bind, Except.bind, pure, Except.pure]
  · simp [mkShape, mkArray, pyAssert, bind, Except.bind]
  · by_cases h : a.shape.length = 1 <;> simp [mkShape, mkArray, pyAssert, h, bind, Except.bind, pure, Except.pure]

/-- C93: with `copy=False` numpy 2 refuses data that is not an array yet (ValueError), older versions copy it; with `copy=True` and for arrays there is
no difference. -/
theorem C93_copy (n : Int) (l : List Int) :
    mkFlatIndex true (.scalar n) (.seq l) false = .error .valueError ∧
    mkFlatIndex false (.scalar n) (.seq l) false = .ok ⟨n, ⟨[l.length], l⟩⟩ ∧
    ∀ strict, mkFlatIndex strict (.scalar n) (.seq l) true = .ok ⟨n, ⟨[l.length], l⟩⟩ := by
  refine ⟨rfl, rfl, fun strict => ?_⟩
  cases strict <;> rfl

/-- Example: sorting [3, 1, 2]. -/
example : argsort false (fun _ => [1, 2, 0]) (fun a _ => a) ⟨[3], [3, 1, 2]⟩ none = .error .typeError ∧
    mkFlatIndex true (.scalar 3) (.arr ⟨[3], [1, 2, 0]⟩) false = .ok ⟨3, ⟨[3], [1, 2, 0]⟩⟩ := ⟨rfl, rfl⟩

end Pyhipp.ArrayObj
