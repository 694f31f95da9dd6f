import Verif.Model.Fortran
import Mathlib.Data.List.Basic
/-
C87: sections of Fortran files.
-/
namespace Pyhipp.Fortran
open Pyhipp

variable {V : Type}

/-! ### Specification -/

/-- The four bytes of a record mark, little endian. -/
def mark (n : Nat) : List (Fin 256) :=
  [⟨n % 256, by omega⟩, ⟨n / 256 % 256, by omega⟩, ⟨n / 65536 % 256, by omega⟩, ⟨n / 16777216 % 256, by omega⟩]

/-- What a section with this payload holds for a reader with this dtype: `n` items of `size` bytes, or one scalar. -/
def value (dt : DType V) (n : Option Nat) (payload : List (Fin 256)) : Rec V := match n with
  | none => .scalar (dt.decode payload)
  | some k => .array ((List.range k).map (fun i => dt.decode ((payload.drop (i * dt.size)).take dt.size)))

/-- A section: how it is read, and its bytes between the marks. -/
structure Sect (V : Type) where
  dt : DType V
  n : Option Nat
  payload : List (Fin 256)

/-- The payload has the announced length, which fits a record mark. -/
structure Sect.Valid (s : Sect V) : Prop where
  size : 0 < s.dt.size
  len : s.payload.length = s.dt.size * s.n.getD 1
  fits : s.payload.length < 2147483648

/-- The bytes Fortran writes for a section. -/
def Sect.encode (s : Sect V) : List (Fin 256) := mark s.payload.length ++ s.payload ++ mark s.payload.length

/-- Load a section or skip it. -/
inductive Action where
  | load
  | skip

/-- Loading and skipping sections in turn; the first exception ends it. -/
def play (f : File) : List (Sect V × Action) → PyM (List (Option (Rec V))) × File
  | [] => (.ok [], f)
  | (s, .load) :: rest => match loadSect f s.dt (s.n.map Int.ofNat) with
      | (.error e, f') => (.error e, f')
      | (.ok v, f') => match play f' rest with
          | (.ok vs, f'') => (.ok (some v :: vs), f'')
          | (.error e, f'') => (.error e, f'')
  | (s, .skip) :: rest => match skipSect f s.dt (s.n.map Int.ofNat) with
      | (.error e, f') => (.error e, f')
      | (.ok (), f') => match play f' rest with
          | (.ok vs, f'') => (.ok (none :: vs), f'')
          | (.error e, f'') => (.error e, f'')

/-! ### Lemmas -/

theorem mark_length (n : Nat) : (mark n).length = 4 := rfl

/-- C87: the record mark read for a section of n bytes is the number n. -/
theorem C87_mark (n : Nat) (h : n < 2147483648) : int32.decode (mark n) = n := by
  have e : le4 (mark n) = n := by
    rw [mark, le4]
    dsimp only
    omega
  change signed32 (le4 (mark n)) = n
  rw [e, signed32, if_pos h]

theorem decode_inj {a b : List (Fin 256)} (ha : a.length = 4) (hb : b.length = 4) (h : int32.decode a = int32.decode b) : a = b := by
  change signed32 (le4 a) = signed32 (le4 b) at h
  match a, ha with
  | [a0, a1, a2, a3], _ => match b, hb with
    | [b0, b1, b2, b3], _ =>
      rw [le4, le4] at h
      have e0 : a0 = b0 ∧ a1 = b1 ∧ a2 = b2 ∧ a3 = b3 := by
        have := a0.isLt; have := a1.isLt; have := a2.isLt; have := a3.isLt
        have := b0.isLt; have := b1.isLt; have := b2.isLt; have := b3.isLt
        simp only [Fin.ext_iff]
        unfold signed32 at h
        split at h <;> split at h <;> omega
      obtain ⟨rfl, rfl, rfl, rfl⟩ := e0
      rfl

theorem chunks_eq (size : Nat) (n : Nat) (bs : List (Fin 256)) : chunks size n bs = (List.range n).map (fun i => (bs.drop (i * size)).take size) := by
  induction n generalizing bs with
  | zero => rfl
  | succ n ih =>
      rw [chunks, ih, List.range_succ_eq_map, List.map_cons, List.map_map]
      simp only [Nat.zero_mul, List.drop_zero]
      congr 1
      apply List.map_congr_left
      intro i _
      simp only [Function.comp, List.drop_drop]
      congr 2
      rw [Nat.succ_mul, Nat.add_comm]

theorem chunks_append (size n : Nat) (p t : List (Fin 256)) (h : p.length = n * size) : chunks size n (p ++ t) = chunks size n p := by
  rw [chunks_eq, chunks_eq]
  apply List.map_congr_left
  intro i hi
  rw [List.mem_range] at hi
  have hle : i * size + size ≤ p.length := by
    rw [h]; calc i * size + size = (i + 1) * size := by rw [Nat.succ_mul]
      _ ≤ n * size := Nat.mul_le_mul_right _ hi
  rw [List.drop_append_of_le_length (by omega), List.take_append_of_le_length (by rw [List.length_drop]; omega)]

theorem rest_advance (f : File) (p t : List (Fin 256)) (h : f.rest = p ++ t) : ({ f with pos := f.pos + p.length } : File).rest = t := by
  unfold File.rest at h ⊢
  simp only
  rw [← List.drop_drop, h, List.drop_left]

theorem fromfile_exact (f : File) (dt : DType V) (hs : 0 < dt.size) (n : Nat) (p t : List (Fin 256)) (h : f.rest = p ++ t) (hp : p.length = n * dt.size) :
    fromfile f dt (n : Int) = ((chunks dt.size n p).map dt.decode, { f with pos := f.pos + p.length }) := by
  have hle : n ≤ f.rest.length / dt.size := by
    rw [h, List.length_append, hp, Nat.le_div_iff_mul_le hs]; omega
  unfold fromfile
  rw [if_neg (by omega)]
  simp only [Int.toNat_natCast]
  rw [if_pos hle, h, chunks_append _ _ _ _ hp, hp]

theorem loadMark_exact (f : File) (a t : List (Fin 256)) (h : f.rest = a ++ t) (ha : a.length = 4) :
    loadMark f = (.ok (int32.decode a), { f with pos := f.pos + 4 }) := by
  have := fromfile_exact f int32 (by decide) 1 a t h (by simpa [int32] using ha)
  unfold loadMark
  have e : ((1 : Nat) : Int) = 1 := rfl
  rw [← e, this]
  simp only [chunks, List.map_cons, List.map_nil, ha]
  rw [List.take_of_length_le (by simp [int32, ha])]

theorem loadMark_short (f : File) (h : f.rest.length < 4) : loadMark f = (.error .indexError, { f with pos := f.pos + f.rest.length }) := by
  have : f.rest.length / int32.size = 0 := Nat.div_eq_of_lt h
  simp [loadMark, fromfile, this, chunks]

theorem loadRec_exact (f : File) (dt : DType V) (hs : 0 < dt.size) (n : Option Nat) (p t : List (Fin 256)) (h : f.rest = p ++ t) (hp : p.length = dt.size * n.getD 1) :
    loadRec f dt (n.map Int.ofNat) = (.ok (value dt n p), { f with pos := f.pos + p.length }) := by
  cases n with
  | none =>
      have hp' : p.length = dt.size := by simpa using hp
      have := fromfile_exact f dt hs 1 p t h (by simpa using hp')
      have e : ((1 : Nat) : Int) = 1 := rfl
      rw [e] at this
      simp only [loadRec, Option.map_none, this, chunks, List.map_cons, List.map_nil, value]
      rw [List.take_of_length_le (by omega)]
  | some k =>
      have := fromfile_exact f dt hs k p t h (by rw [hp, Nat.mul_comm]; rfl)
      simp only [loadRec, Option.map_some, Int.ofNat_eq_natCast, this, value, chunks_eq, List.map_map]
      rfl

theorem skipRec_exact (f : File) (dt : DType V) (hf : dt.form = .dtype) (n : Option Nat) : skipRec f dt (n.map Int.ofNat) = (.ok (), { f with pos := f.pos + dt.size * n.getD 1 }) := by
  have : (n.map Int.ofNat).getD 1 = ((n.getD 1 : Nat) : Int) := by cases n <;> rfl
  simp only [skipRec, recSize, hf, this, seekRel]
  have e : ((f.pos : Int) + (dt.size : Int) * ((n.getD 1 : Nat) : Int)) = ((f.pos + dt.size * n.getD 1 : Nat) : Int) := by push_cast; rfl
  rw [e, if_pos (by omega), Int.toNat_natCast]

theorem loadSect_marks (f : File) (dt : DType V) (hs : 0 < dt.size) (n : Option Nat) (a p b t : List (Fin 256)) (h : f.rest = a ++ p ++ b ++ t)
    (ha : a.length = 4) (hb : b.length = 4) (hp : p.length = dt.size * n.getD 1) :
    loadSect f dt (n.map Int.ofNat) = (if a = b then .ok (value dt n p) else .error .assertionError, { f with pos := f.pos + (8 + p.length) }) := by
  have h1 := loadMark_exact f a (p ++ b ++ t) (by simpa using h) ha
  have r1 := rest_advance f a (p ++ b ++ t) (by simpa using h)
  rw [ha] at r1
  have h2 := loadRec_exact { f with pos := f.pos + 4 } dt hs n p (b ++ t) (by simpa using r1) hp
  have r2 := rest_advance { f with pos := f.pos + 4 } p (b ++ t) (by simpa using r1)
  have h3 := loadMark_exact { f with pos := f.pos + 4 + p.length } b t r2 hb
  have e : f.pos + 4 + p.length + 4 = f.pos + (8 + p.length) := by omega
  simp only [loadSect, h1, h2, h3, e]
  by_cases hab : a = b
  · subst hab; simp [pyAssert]
  · have : int32.decode a ≠ int32.decode b := fun e => hab (decode_inj ha hb e)
    simp [pyAssert, this, hab]

theorem skipSect_marks (f : File) (dt : DType V) (hf : dt.form = .dtype) (n : Option Nat) (a p b t : List (Fin 256)) (h : f.rest = a ++ p ++ b ++ t)
    (ha : a.length = 4) (hb : b.length = 4) (hp : p.length = dt.size * n.getD 1) :
    skipSect f dt (n.map Int.ofNat) = (if a = b then .ok () else .error .assertionError, { f with pos := f.pos + (8 + p.length) }) := by
  have h1 := loadMark_exact f a (p ++ b ++ t) (by simpa using h) ha
  have r1 := rest_advance f a (p ++ b ++ t) (by simpa using h)
  rw [ha] at r1
  have h2 := skipRec_exact { f with pos := f.pos + 4 } dt hf n
  rw [← hp] at h2
  have r2 := rest_advance { f with pos := f.pos + 4 } p (b ++ t) (by simpa using r1)
  have h3 := loadMark_exact { f with pos := f.pos + 4 + p.length } b t r2 hb
  have e : f.pos + 4 + p.length + 4 = f.pos + (8 + p.length) := by omega
  simp only [skipSect, h1, h2, h3, e]
  by_cases hab : a = b
  · subst hab; simp [pyAssert]
  · have : int32.decode a ≠ int32.decode b := fun e => hab (decode_inj ha hb e)
    simp [pyAssert, this, hab]

/-! ### Theorems -/

/-- C87: reading a section returns its contents and leaves the position right behind it. -/
theorem C87_load (f : File) (s : Sect V) (hv : s.Valid) (t : List (Fin 256)) (h : f.rest = s.encode ++ t) :
    loadSect f s.dt (s.n.map Int.ofNat) = (.ok (value s.dt s.n s.payload), { f with pos := f.pos + s.encode.length }) := by
  rw [loadSect_marks f s.dt hv.size s.n _ s.payload _ t h (mark_length _) (mark_length _) hv.len, if_pos rfl]
  simp only [Sect.encode, List.length_append, mark_length]
  congr 3; omega

/-- C87: so does skipping it, which returns nothing. -/
theorem C87_skip (f : File) (s : Sect V) (hv : s.Valid) (hf : s.dt.form = .dtype) (t : List (Fin 256)) (h : f.rest = s.encode ++ t) :
    skipSect f s.dt (s.n.map Int.ofNat) = (.ok (), { f with pos := f.pos + s.encode.length }) := by
  rw [skipSect_marks f s.dt hf s.n _ s.payload _ t h (mark_length _) (mark_length _) hv.len, if_pos rfl]
  simp only [Sect.encode, List.length_append, mark_length]
  congr 3; omega

/-- C87: any mixture of loads and skips over any file of sections: every load returns the contents of its own section, and the
position ends right behind the last section. -/
theorem C87_schedule (sched : List (Sect V × Action)) (f : File) (t : List (Fin 256)) (hv : ∀ x ∈ sched, x.1.Valid)
    (hf : ∀ x ∈ sched, x.2 = .skip → x.1.dt.form = .dtype) (h : f.rest = (sched.map (fun x => x.1.encode)).flatten ++ t) :
    play f sched = (.ok (sched.map (fun x => match x.2 with | .load => some (value x.1.dt x.1.n x.1.payload) | .skip => none)),
      { f with pos := f.pos + (sched.map (fun x => x.1.encode)).flatten.length }) := by
  induction sched generalizing f with
  | nil => simp [play]
  | cons x rest ih =>
      obtain ⟨s, a⟩ := x
      simp only [List.map_cons, List.flatten_cons, List.append_assoc] at h
      have r := rest_advance f s.encode _ h
      have := ih { f with pos := f.pos + s.encode.length } (fun x hx => hv x (by simp [hx])) (fun x hx => hf x (by simp [hx])) r
      have e : f.pos + s.encode.length + (rest.map (fun x => x.1.encode)).flatten.length = f.pos + (s.encode.length + (rest.map (fun x => x.1.encode)).flatten.length) := by omega
      cases a with
      | load =>
          rw [play, C87_load f s (hv (s, .load) (by simp)) _ h]
          simp only [this, e, List.map_cons, List.flatten_cons, List.length_append]
      | skip =>
          rw [play, C87_skip f s (hv (s, .skip) (by simp)) (hf (s, .skip) (by simp) rfl) _ h]
          simp only [this, e, List.map_cons, List.flatten_cons, List.length_append]

/-- Example: a file of two sections (three one-byte items; a scalar), the first one skipped. -/
example : let dt : DType Nat := ⟨.dtype, 1, fun bs => match bs with | [b] => b.val | _ => 0⟩
    let s1 : Sect Nat := ⟨dt, some 3, [7, 8, 9]⟩
    let s2 : Sect Nat := ⟨dt, none, [5]⟩
    s1.Valid ∧ s2.Valid ∧ s1.encode = [3, 0, 0, 0, 7, 8, 9, 3, 0, 0, 0] ∧ (loadSect ⟨s1.encode ++ s2.encode, 0⟩ dt (some 3)).2.pos = 11 := by
  refine ⟨⟨by decide, by decide, by decide⟩, ⟨by decide, by decide, by decide⟩, by decide, by decide⟩

/-- C87: the two marks of a section are compared, nothing else: load and skip accept exactly the sections whose marks agree, and raise
AssertionError otherwise (corrupt mark, or a read with a count that does not end at the mark). -/
theorem C87_marks (f : File) (dt : DType V) (hs : 0 < dt.size) (n : Option Nat) (a p b t : List (Fin 256)) (h : f.rest = a ++ p ++ b ++ t)
    (ha : a.length = 4) (hb : b.length = 4) (hp : p.length = dt.size * n.getD 1) :
    ((loadSect f dt (n.map Int.ofNat)).1 = if a = b then .ok (value dt n p) else .error .assertionError) ∧
    (dt.form = .dtype → (skipSect f dt (n.map Int.ofNat)).1 = if a = b then .ok () else .error .assertionError) := by
  refine ⟨by rw [loadSect_marks f dt hs n a p b t h ha hb hp], fun hf => by rw [skipSect_marks f dt hf n a p b t h ha hb hp]⟩

/-- C87 (limit): the mark is not compared with the length of the payload: a section with two equal wrong marks is accepted. -/
theorem C87_length_unchecked (dt : DType V) (hs : 0 < dt.size) (n m : Nat) (p : List (Fin 256)) (hp : p.length = dt.size * n) :
    (loadSect ⟨mark m ++ p ++ mark m, 0⟩ dt (some n)).1 = .ok (value dt (some n) p) := by
  have := (C87_marks ⟨mark m ++ p ++ mark m, 0⟩ dt hs (some n) (mark m) p (mark m) [] (by simp [File.rest]) (mark_length _) (mark_length _) hp).1
  simpa using this

/-- C87: a file that ends before the section does gives IndexError, for loading and for skipping. -/
theorem C87_truncated (f : File) (dt : DType V) (hs : 0 < dt.size) (n : Option Nat) (h : f.rest.length < 8 + dt.size * n.getD 1) :
    (loadSect f dt (n.map Int.ofNat)).1 = .error .indexError ∧ (dt.form = .dtype → (skipSect f dt (n.map Int.ofNat)).1 = .error .indexError) := by
  by_cases h4 : f.rest.length < 4
  · simp [loadSect, skipSect, loadMark_short f h4]
  · have hsplit : f.rest = f.rest.take 4 ++ f.rest.drop 4 := (List.take_append_drop 4 f.rest).symm
    have hl : (f.rest.take 4).length = 4 := by rw [List.length_take]; omega
    have h1 := loadMark_exact f _ _ hsplit hl
    have r1 := rest_advance f _ _ hsplit
    rw [hl] at r1
    have rl : ({ f with pos := f.pos + 4 } : File).rest.length = f.rest.length - 4 := by rw [r1, List.length_drop]
    constructor
    · -- after the items fewer than four bytes are left
      have key : ∀ (r : PyM (Rec V)) (f2 : File), loadRec { f with pos := f.pos + 4 } dt (n.map Int.ofNat) = (r, f2) → (r = .error .indexError ∨ (∃ d, r = .ok d) ∧ f2.rest.length < 4) := by
        intro r f2 hr
        have ff : ∀ k : Nat, k = n.getD 1 → k ≤ ({ f with pos := f.pos + 4 } : File).rest.length / dt.size ∧ (fromfile { f with pos := f.pos + 4 } dt (k : Int)).2.rest.length < 4 ∨
            ({ f with pos := f.pos + 4 } : File).rest.length / dt.size < k ∧ (fromfile { f with pos := f.pos + 4 } dt (k : Int)).2.rest.length < 4 := by
          intro k hk
          by_cases hka : k ≤ ({ f with pos := f.pos + 4 } : File).rest.length / dt.size
          · left
            refine ⟨hka, ?_⟩
            unfold fromfile
            rw [if_neg (by omega)]
            simp only [Int.toNat_natCast]
            rw [if_pos hka]
            have : ({ bytes := f.bytes, pos := f.pos + 4 + k * dt.size } : File).rest.length = f.rest.length - 4 - k * dt.size := by
              simp only [File.rest, List.length_drop]; omega
            simp only [this]
            rw [← hk, Nat.mul_comm] at h
            omega
          · right
            refine ⟨by omega, ?_⟩
            unfold fromfile
            rw [if_neg (by omega)]
            simp only [Int.toNat_natCast]
            rw [if_neg hka]
            have : ({ bytes := f.bytes, pos := f.pos + 4 + ({ f with pos := f.pos + 4 } : File).rest.length } : File).rest.length = 0 := by
              simp only [File.rest, List.length_drop]; omega
            simp only [this]; omega
        cases n with
        | some k =>
            right
            simp only [Option.map_some, loadRec, Int.ofNat_eq_natCast] at hr
            have := ff k rfl
            rcases hq : fromfile { f with pos := f.pos + 4 } dt (k : Int) with ⟨vs, f'⟩
            rw [hq] at hr this
            simp only [Prod.mk.injEq] at hr
            obtain ⟨e1, e2⟩ := hr
            subst e2
            refine ⟨⟨_, e1.symm⟩, ?_⟩
            rcases this with this | this <;> exact this.2
        | none =>
            have := ff 1 rfl
            simp only [Option.map_none, loadRec] at hr
            have e : ((1 : Nat) : Int) = 1 := rfl
            rw [e] at this
            rcases hq : fromfile { f with pos := f.pos + 4 } dt 1 with ⟨vs, f'⟩
            rw [hq] at hr this
            cases vs with
            | nil => simp only [Prod.mk.injEq] at hr; left; exact hr.1.symm
            | cons v vs =>
                simp only [Prod.mk.injEq] at hr
                obtain ⟨e1, e2⟩ := hr
                subst e2
                right
                refine ⟨⟨_, e1.symm⟩, ?_⟩
                rcases this with this | this <;> exact this.2
      rcases hr : loadRec { f with pos := f.pos + 4 } dt (n.map Int.ofNat) with ⟨r, f2⟩
      rcases key r f2 hr with hx | ⟨⟨d, hd⟩, h2⟩
      · simp [loadSect, h1, hr, hx]
      · simp [loadSect, h1, hr, hd, loadMark_short f2 h2]
    · intro hf
      have h2 := skipRec_exact { f with pos := f.pos + 4 } dt hf n
      have h3 : ({ bytes := f.bytes, pos := f.pos + 4 + dt.size * n.getD 1 } : File).rest.length < 4 := by
        have e : ({ bytes := f.bytes, pos := f.pos + 4 + dt.size * n.getD 1 } : File).rest.length = f.rest.length - (4 + dt.size * n.getD 1) := by
          simp only [File.rest, List.length_drop]; omega
        rw [e]; omega
      simp [skipSect, h1, h2, loadMark_short _ h3]

/-- C87 (defect): `skip_sect` needs an `np.dtype` object; a scalar type such as np.int32, which `load_sect` accepts, is a TypeError, raised after the
leading mark has already been consumed. -/
theorem C87_skip_forms (f : File) (dt : DType V) (n : Option Int) (a t : List (Fin 256)) (h : f.rest = a ++ t) (ha : a.length = 4) :
    (dt.form = .scalarType → skipSect f dt n = (.error .typeError, { f with pos := f.pos + 4 })) ∧
    (dt.form = .name → skipSect f dt n = (.error .attributeError, { f with pos := f.pos + 4 })) := by
  have h1 := loadMark_exact f a t h ha
  constructor <;> intro hf <;> simp [skipSect, h1, skipRec, recSize, hf]

/-- C87: `load_bytes` and `load_rec` read on from where the last read ended: reading k bytes and then l bytes is reading k + l bytes. -/
theorem C87_bytes (f : File) (k l : Nat) :
    (loadBytes f k).1 ++ (loadBytes (loadBytes f k).2 l).1 = (loadBytes f ((k + l : Nat) : Int)).1 ∧
    (loadBytes (loadBytes f k).2 l).2.pos = (loadBytes f ((k + l : Nat) : Int)).2.pos := by
  simp only [loadBytes]
  rw [if_neg (by omega), if_neg (by omega), if_neg (by omega)]
  simp only [Int.toNat_natCast]
  have e : ({ f with pos := f.pos + min k f.rest.length } : File).rest = f.rest.drop k := by
    simp only [File.rest]
    rw [← List.drop_drop]
    by_cases hk : k ≤ (f.bytes.drop f.pos).length
    · rw [Nat.min_eq_left hk]
    · rw [Nat.min_eq_right (by omega), List.drop_length, List.drop_of_length_le (by omega)]
  rw [e]
  constructor
  · rw [List.take_add]
  · rw [List.length_drop]; omega


/-- C87: an absolute seek to any position, also behind the end, determines what is read next: the bytes of the file from there; a negative position
raises ValueError and moves nothing. -/
theorem C87_seek (f : File) (n k : Nat) :
    (seekAbs f n).1 = .ok () ∧ (loadBytes (seekAbs f n).2 k).1 = (f.bytes.drop n).take k ∧ (seekAbs f n).2.bytes = f.bytes ∧ (seekAbs f n).2.pos = n ∧
    (∀ m : Int, m < 0 → seekAbs f m = (.error .valueError, f)) := by
  refine ⟨by simp [seekAbs], ?_, by simp [seekAbs], by simp [seekAbs], fun m hm => by simp [seekAbs]; omega⟩
  have : ¬ ((k : Int) < 0) := by omega
  simp [seekAbs, loadBytes, File.rest, this]

/-- C87: relative seeks add up, as long as the file position stays non-negative; below zero is an OSError. -/
theorem C87_seek_relative (f : File) (a b : Int) (h : 0 ≤ f.pos + a) :
    (seekRel f a).1 = .ok () ∧ seekRel (seekRel f a).2 b = seekRel f (a + b) ∨ f.pos + a + b < 0 ∧ (seekRel (seekRel f a).2 b).1 = .error .osError := by
  by_cases h2 : 0 ≤ f.pos + a + b
  · left
    refine ⟨by simp [seekRel, h], ?_⟩
    have e1 : ((f.pos + a).toNat : Int) = f.pos + a := Int.toNat_of_nonneg h
    simp only [seekRel, if_pos h]
    rw [if_pos (by omega), if_pos (by omega), e1]
    congr 3; rw [Int.add_assoc]
  · right
    have e1 : ((f.pos + a).toNat : Int) = f.pos + a := Int.toNat_of_nonneg h
    refine ⟨by omega, ?_⟩
    simp only [seekRel, if_pos h]
    rw [if_neg (by omega)]

end Pyhipp.Fortran
