import Verif.Model.GridApplied
import Verif.Props.Grid
/-
C38: `GridMd.applied` in full.
-/
namespace Pyhipp.GridApplied
open Pyhipp Pyhipp.Grid

variable {α β : Type} [Inhabited α]

/-- Specification: entry `r` of the input is the point `p`. -/
def PointAt (inp : FIn α) (r : Nat) (p : List α) : Prop :=
  match inp with
  | .stacked rows => rows[r]? = some p
  | .args cols => cols.map (fun c => c[r]?) = p.map some

/-- Specification: the input has `n` points in `m` dimensions. -/
def Sized (inp : FIn α) (stack : Bool) (n m : Nat) : Prop :=
  match inp with
  | .stacked rows => stack = true ∧ rows.length = n ∧ ∀ p ∈ rows, p.length = m
  | .args cols => stack = false ∧ cols.length = m ∧ ∀ c ∈ cols, c.length = n

/-- Specification: an index within a shape. -/
abbrev Within (I s : List Nat) : Prop := List.Forall₂ (fun i n => i < n) I s

/-- Specification: the array `v` is the array `a` of one row per grid point, with the first axis unfolded into the axes `sh` of the grid. -/
def Unfolded (sh : List Nat) (a v : NDArr β) : Prop :=
  v.shape = sh ++ a.shape.tail ∧ ∀ I K, Within I sh → Within K a.shape.tail → v.get? (I ++ K) = a.get? (flatIdx sh I :: K)

theorem flatIdx_append (s t I K : List Nat) (h : Within I s) : flatIdx (s ++ t) (I ++ K) = flatIdx s I * t.prod + flatIdx t K := by
  induction h with
  | nil => simp [flatIdx]
  | @cons i n I s hi _ ih =>
    simp only [List.cons_append, flatIdx, ih, List.prod_append]
    ring

theorem unfolded (sh : List Nat) (a : NDArr β) (T : List Nat) (hs : a.shape = sh.prod :: T) : Unfolded sh a { shape := sh ++ T, data := a.data } := by
  refine ⟨by rw [hs]; rfl, fun I K hI hK => ?_⟩
  rw [hs] at hK
  have hlt := (indices_flatIdx sh I hI).1
  unfold NDArr.get?
  have h1 : List.Forall₂ (fun i n => i < n) (I ++ K) (sh ++ T) := List.rel_append hI hK
  have h2 : List.Forall₂ (fun i n => i < n) (flatIdx sh I :: K) (sh.prod :: T) := List.Forall₂.cons hlt hK
  rw [hs, if_pos h1, if_pos h2]
  simp only
  rw [flatIdx_append sh T I K hI]
  rfl

theorem shape_head (grids : List (List α)) (hne : grids ≠ []) (xy : Bool) :
    ((meshgrid grids xy).map fun l => l.shape).headD [] = if xy then swap01 (grids.map List.length) else grids.map List.length := by
  match grids, hne with
  | g :: t, _ => simp [meshgrid]

theorem prod_swap (xy : Bool) (l : List Nat) : (if xy then swap01 l else l).prod = l.prod := by
  cases xy with
  | false => rfl
  | true =>
    match l with
    | [] => rfl
    | [_] => rfl
    | a :: b :: t => simp only [swap01, if_true, List.prod_cons]; ring

theorem cols_length (grids : List (List α)) (xy : Bool) (c : List α) (hc : c ∈ (meshgrid grids xy).map fun l => l.data) :
    c.length = (grids.map List.length).prod := by
  obtain ⟨l, hl, rfl⟩ := List.mem_map.mp hc
  simp only [meshgrid, List.mem_mapIdx] at hl
  obtain ⟨i, h, rfl⟩ := hl
  show ((indices _).map _).length = _
  rw [List.length_map, indices_length, prod_swap]

theorem rows_get (grids : List (List α)) (hne : grids ≠ []) (xy : Bool) (I : List Nat)
    (hI : Within I (if xy then swap01 (grids.map List.length) else grids.map List.length)) :
    (List.range ((((meshgrid grids xy).map fun l => l.data).headD []).length)).map (fun r => ((meshgrid grids xy).map fun l => l.data).map fun l => l.getD r default) =
      (List.range (grids.map List.length).prod).map (fun r => ((meshgrid grids xy).map fun l => l.data).map fun l => l.getD r default) ∧
    ((meshgrid grids xy).map fun l => l.data).map (fun l => l.getD (flatIdx (if xy then swap01 (grids.map List.length) else grids.map List.length) I) default) =
      gridPoint grids (if xy then swap01 I else I) := by
  have hlen : (((meshgrid grids xy).map fun l => l.data).headD []).length = (grids.map List.length).prod := by
    match grids, hne with
    | g :: t, _ => exact cols_length (g :: t) xy _ (by simp [meshgrid])
  refine ⟨by rw [hlen], ?_⟩
  obtain ⟨a, h1, h2, h3⟩ := applied_get grids hne (id : List α → List α) xy
  have h3 := h3 I (by rw [h2]; exact hI)
  unfold Grid.applied at h1
  simp only [List.map_id] at h1
  split at h1
  · cases h1
    unfold NDArr.get? at h3
    rw [shape_head grids hne xy] at h3
    simp only [hI, if_true] at h3
    have hlt := (indices_flatIdx _ I hI).1
    rw [prod_swap] at hlt
    rw [hlen, List.getElem?_map, List.getElem?_range hlt] at h3
    exact Option.some.inj h3
  · cases h1

/-- C38 (the points): what `applied` calls the function with.  With `stack_input=True` it is one array with a row per grid point, otherwise one array per axis
of the grid; point number `flatIdx sh I` (counting row by row through the array of shape `sh`) is the grid point with index `I`, the first two entries of which
are exchanged for xy indexing. -/
theorem C38_points (grids : List (List α)) (hne : grids ≠ []) (xy stack : Bool) :
    Sized (input grids xy stack) stack (grids.map List.length).prod grids.length ∧
    ∀ I, Within I (if xy then swap01 (grids.map List.length) else grids.map List.length) →
      PointAt (input grids xy stack) (flatIdx (if xy then swap01 (grids.map List.length) else grids.map List.length) I)
        (gridPoint grids (if xy then swap01 I else I)) := by
  have hlen : (((meshgrid grids xy).map fun l => l.data).headD []).length = (grids.map List.length).prod := by
    match grids, hne with
    | g :: t, _ => exact cols_length (g :: t) xy _ (by simp [meshgrid])
  have hm : (meshgrid grids xy).length = grids.length := by simp [meshgrid]
  cases stack with
  | true =>
    refine ⟨⟨rfl, by rw [List.length_map, List.length_range]; exact hlen, ?_⟩, fun I hI => ?_⟩
    · intro p hp
      obtain ⟨r, -, rfl⟩ := List.mem_map.mp hp
      simp [hm]
    · obtain ⟨e1, e2⟩ := rows_get grids hne xy I hI
      have hlt := (indices_flatIdx _ I hI).1
      rw [prod_swap] at hlt
      show (List.map _ (List.range _))[_]? = _
      rw [hlen, List.getElem?_map, List.getElem?_range hlt, ← e2]
      rfl
  | false =>
    refine ⟨⟨rfl, by simp [hm], fun c hc => cols_length grids xy c hc⟩, fun I hI => ?_⟩
    obtain ⟨e1, e2⟩ := rows_get grids hne xy I hI
    have hlt := (indices_flatIdx _ I hI).1
    rw [prod_swap] at hlt
    show List.map (fun c : List α => c[_]?) ((meshgrid grids xy).map fun l => l.data) = _
    rw [← e2]
    show _ = List.map some (List.map _ ((meshgrid grids xy).map fun l => l.data))
    rw [List.map_map (l := (meshgrid grids xy).map fun l => l.data)]
    refine List.map_congr_left fun c hc => ?_
    have := cols_length grids xy c hc
    rw [Function.comp, getD_lt _ _ _ (by omega), List.getElem?_eq_getElem]

/-- C38 (the result): the function is called once, with `input grids xy stack` (see `C38_points`).  If it raises, so does `applied`.  An array of one row per grid
point comes back with its first axis unfolded into the axes of the grid, the other axes after them; several such arrays come back as a list, each unfolded the
same way; the result also holds the coordinates (the grid as arrays of that shape) and the axes.  An array with another number of rows is a ValueError, a result
that is neither an array nor iterable a TypeError, and an element without a shape, with good ones before it, an AttributeError. -/
theorem C38_result (grids : List (List α)) (hne : grids ≠ []) (xy stack : Bool) (f : FIn α → PyM (FOut β)) :
    let sh := if xy then swap01 (grids.map List.length) else grids.map List.length
    (∀ e, f (input grids xy stack) = .error e → applied grids f xy stack = .error e) ∧
    (f (input grids xy stack) = .ok .other → applied grids f xy stack = .error .typeError) ∧
    (∀ a T, f (input grids xy stack) = .ok (.array a) → a.shape = sh.prod :: T →
      ∃ v, applied grids f xy stack = .ok ⟨.one v, meshgrid grids xy, grids⟩ ∧ Unfolded sh a v ∧ v.data = a.data) ∧
    (∀ a n T, f (input grids xy stack) = .ok (.array a) → a.shape = n :: T → n ≠ sh.prod → 0 < T.prod → applied grids f xy stack = .error .valueError) ∧
    (∀ as : List (NDArr β), f (input grids xy stack) = .ok (.many (as.map some)) → (∀ a ∈ as, ∃ T, a.shape = sh.prod :: T) →
      ∃ vs, applied grids f xy stack = .ok ⟨.many vs, meshgrid grids xy, grids⟩ ∧ List.Forall₂ (fun a v => Unfolded sh a v ∧ v.data = a.data) as vs) ∧
    (∀ (as : List (NDArr β)) rest, f (input grids xy stack) = .ok (.many (as.map some ++ none :: rest)) → (∀ a ∈ as, ∃ T, a.shape = sh.prod :: T) →
      applied grids f xy stack = .error .attributeError) := by
  intro sh
  have shp : ((meshgrid grids xy).map fun l => l.shape).headD [] = sh := shape_head grids hne xy
  have good : ∀ (a : NDArr β) T, a.shape = sh.prod :: T → outShaping (some a) (meshgrid grids xy) = .ok { shape := sh ++ T, data := a.data } := by
    intro a T h
    simp only [outShaping, shp, h, List.drop_succ_cons, List.drop_zero, List.prod_append, List.prod_cons, if_true]
  refine ⟨fun e h => ?_, fun h => ?_, fun a T h hs => ?_, fun a n T h hs hn hT => ?_, fun as h hs => ?_, fun as rest h hs => ?_⟩
  · unfold applied
    rw [h]; rfl
  · unfold applied
    rw [h]; rfl
  · refine ⟨_, ?_, unfolded sh a T hs, rfl⟩
    unfold applied
    rw [h]
    show (outShaping (some a) (meshgrid grids xy) >>= _) = _
    rw [good a T hs]
    rfl
  · unfold applied
    rw [h]
    show (outShaping (some a) (meshgrid grids xy) >>= _) = _
    have : outShaping (some a) (meshgrid grids xy) = .error .valueError := by
      simp only [outShaping, shp, hs, List.drop_succ_cons, List.drop_zero, List.prod_append, List.prod_cons]
      rw [if_neg]
      intro e
      exact hn (Nat.eq_of_mul_eq_mul_right hT e).symm
    rw [this]
    rfl
  · have key : ∀ as : List (NDArr β), (∀ a ∈ as, ∃ T, a.shape = sh.prod :: T) →
        ∃ vs, (as.map some).mapM (fun o => outShaping o (meshgrid grids xy)) = .ok vs ∧ List.Forall₂ (fun a v => Unfolded sh a v ∧ v.data = a.data) as vs := by
      intro as
      induction as with
      | nil => intro _; exact ⟨[], rfl, .nil⟩
      | cons a t ih =>
        intro hs
        obtain ⟨T, hT⟩ := hs a (by simp)
        obtain ⟨vs, e, hv⟩ := ih fun b hb => hs b (by simp [hb])
        refine ⟨{ shape := sh ++ T, data := a.data } :: vs, ?_, .cons ⟨unfolded sh a T hT, rfl⟩ hv⟩
        rw [List.map_cons, List.mapM_cons, good a T hT, e]
        rfl
    obtain ⟨vs, e, hv⟩ := key as hs
    refine ⟨vs, ?_, hv⟩
    unfold applied
    rw [h]
    show ((as.map some).mapM (fun o => outShaping o (meshgrid grids xy)) >>= _) = _
    rw [e]
    rfl
  · have key : ∀ as : List (NDArr β), (∀ a ∈ as, ∃ T, a.shape = sh.prod :: T) →
        (as.map some ++ none :: rest).mapM (fun o => outShaping o (meshgrid grids xy)) = .error .attributeError := by
      intro as
      induction as with
      | nil => intro _; rfl
      | cons a t ih =>
        intro hs
        obtain ⟨T, hT⟩ := hs a (by simp)
        rw [List.map_cons, List.cons_append, List.mapM_cons, good a T hT, ih fun b hb => hs b (by simp [hb])]
        rfl
    unfold applied
    rw [h]
    show ((as.map some ++ none :: rest).mapM (fun o => outShaping o (meshgrid grids xy)) >>= _) = _
    rw [key as hs]
    rfl

/-- C38 (an array of any size whose product fits): what decides is the number of elements: a result with an empty trailing axis has none, and is accepted with any
number of rows. -/
theorem C38_empty_rows (grids : List (List α)) (hne : grids ≠ []) (xy stack : Bool) (n : Nat) :
    ∃ v : NDArr β, applied grids (fun _ => .ok (.array { shape := [n, 0], data := [] })) xy stack = .ok ⟨.one v, meshgrid grids xy, grids⟩ ∧
      v.shape = (if xy then swap01 (grids.map List.length) else grids.map List.length) ++ [0] ∧ v.data = [] := by
  refine ⟨{ shape := (if xy then swap01 (grids.map List.length) else grids.map List.length) ++ [0], data := [] }, ?_, rfl, rfl⟩
  show (outShaping (some _) (meshgrid grids xy) >>= _) = _
  simp only [outShaping, shape_head grids hne xy, List.drop_succ_cons, List.drop_zero, List.prod_append, List.prod_cons, Nat.zero_mul, Nat.mul_zero, if_true]
  rfl

/-- Two grid axes, a function of the separate coordinates with two results, one with a trailing axis. -/
example : (applied [[10, 20], [1, 2, 3]] (fun i => match i with
      | .args [x, y] => .ok (.many [some ⟨[6], List.zipWith (· + ·) x y⟩, some ⟨[6, 2], (x.zip y).flatMap fun p => [p.1, p.2]⟩])
      | _ => .error .typeError) true false).map (fun r => match r.values with | .many l => l.map (fun a => (a.shape, a.data)) | .one a => [(a.shape, a.data)])
    = .ok [([3, 2], [11, 21, 12, 22, (13 : Nat), 23]), ([3, 2, 2], [10, 1, 20, 1, 10, 2, 20, 2, 10, 3, 20, 3])] := by rfl

end Pyhipp.GridApplied
