import Verif.Model.HistDensity
import Verif.Props.Regression
/-
C150: `DensityEstimationND.by_histogram` on whole arrays.
-/
namespace Pyhipp.HistDensity
open Pyhipp Regression

variable {α : Type} [Field α] [LinearOrder α] [IsStrictOrderedRing α]

/-- Specification: usable axes: at least two edges, in ascending order (repetitions allowed). -/
def AxesOK (grids : List (List α)) : Prop := ∀ g ∈ grids, 2 ≤ g.length ∧ g.Pairwise (· ≤ ·)

/-- Specification: the point `p` lies in the half-open cell `I` of the axes `gs`. -/
def InHalfOpen (gs : List (List α)) (I : List Nat) (p : List α) : Prop :=
  I.length = gs.length ∧ ∀ k (h1 : k < gs.length) (h2 : k < I.length),
    ∃ h3 : k < p.length, ∃ h4 : I[k] + 1 < gs[k].length, gs[k][I[k]] ≤ p[k] ∧ p[k] < gs[k][I[k] + 1]

/-- Specification: the point `p` is beyond the first or the last edge of some axis (or on the last edge). -/
def Beyond (gs : List (List α)) (p : List α) : Prop :=
  ∃ k, ∃ h1 : k < gs.length, ∃ h3 : k < p.length, ∃ h4 : 0 < gs[k].length, p[k] < gs[k][0] ∨ gs[k][gs[k].length - 1] ≤ p[k]

theorem locate_in (g : List α) (hs : g.Pairwise (· ≤ ·)) (x : α) (i : Nat) (h4 : i + 1 < g.length) (c1 : g[i] ≤ x) (c2 : x < g[i + 1]) :
    Grid.locate g x = (i : Int) := by
  apply Grid.C37_locate_unique _ hs _ _ (by omega) (by omega)
  intro j hj
  constructor
  · intro hle
    by_contra hcon
    have : g[i + 1] ≤ g[j] := pw_le hs (by omega) hj
    exact absurd (lt_of_lt_of_le c2 (le_trans this hle)) (lt_irrefl _)
  · intro hle
    exact le_trans (pw_le hs (by omega) (by omega)) c1

theorem locate_out (g : List α) (hs : g.Pairwise (· ≤ ·)) (x : α) (h4 : 0 < g.length) :
    outside g (Grid.locate g x) = true ↔ (x < g[0] ∨ g[g.length - 1] ≤ x) := by
  obtain ⟨b0, b1, hb⟩ := Grid.C37_locate g hs x
  have h0 := hb 0 h4
  have h1 := hb (g.length - 1) (by omega)
  simp only [outside, Bool.or_eq_true, decide_eq_true_eq]
  have h0' : x < g[0] ↔ ¬ (0 : Int) ≤ Grid.locate g x := by
    rw [← not_le, h0]; simp
  rw [h1, h0']
  constructor
  · rintro (h | h)
    · left; omega
    · right; omega
  · rintro (h | h)
    · left; omega
    · right; omega

/-- C150: the two cases of `C150_call` and `C150_value` exclude each other, and the cell is unique. -/
theorem C150_cases (grids : List (List α)) (hg : AxesOK grids) (p : List α) (I : List Nat) (hI : InHalfOpen grids I p) :
    ¬ Beyond grids p ∧ ∀ I', InHalfOpen grids I' p → I' = I := by
  obtain ⟨hl, hc⟩ := hI
  constructor
  · rintro ⟨k, h1, h3, h4, ho⟩
    obtain ⟨_, h5, c1, c2⟩ := hc k h1 (by omega)
    have hs := (hg _ (List.getElem_mem h1)).2
    rcases ho with ho | ho
    · exact absurd (lt_of_lt_of_le ho (le_trans (pw_le hs (Nat.zero_le _) (by omega)) c1)) (lt_irrefl _)
    · have : grids[k][I[k] + 1] ≤ grids[k][grids[k].length - 1] := pw_le hs (by omega) (by omega)
      exact absurd (lt_of_lt_of_le c2 (le_trans this ho)) (lt_irrefl _)
  · rintro I' ⟨hl', hc'⟩
    apply List.ext_getElem (by omega)
    intro k k1 k2
    obtain ⟨_, h5, c1, c2⟩ := hc k (by omega) k2
    obtain ⟨_, h5', c1', c2'⟩ := hc' k (by omega) k1
    have hs := (hg _ (List.getElem_mem (show k < grids.length by omega))).2
    have a := locate_in _ hs _ _ h5 c1 c2
    have b := locate_in _ hs _ _ h5' c1' c2'
    rw [a] at b
    exact_mod_cast b.symm

/-- The located indices as a list over the axes. -/
theorem ids_get (used : List (List α)) (rows : List (List α)) (k : Nat) (hk : k < used.length) (hk' : k < (Grid.locateMd used rows).length) :
    (Grid.locateMd used rows)[k] = rows.map (fun r => Grid.locate used[k] (r.getD k 0)) := by
  simp [Grid.locateMd]

theorem ids_len (used : List (List α)) (rows : List (List α)) : (Grid.locateMd used rows).length = used.length := by
  simp [Grid.locateMd]

theorem flag_iff (used rows : List (List α)) (hg : AxesOK used) (j : Nat) (hj : j < rows.length)
    (hl : used.length ≤ rows[j].length) :
    flag used (Grid.locateMd used rows) j = true ↔ Beyond used rows[j] := by
  unfold flag
  rw [List.any_eq_true]
  constructor
  · rintro ⟨q, hq, ho⟩
    obtain ⟨k, hk, rfl⟩ := List.getElem_of_mem hq
    have hk' : k < used.length := by simp [ids_len] at hk; omega
    have hlk : k < (Grid.locateMd used rows).length := by rw [ids_len]; exact hk'
    simp only [List.getElem_zip, ids_get used rows k hk' hlk] at ho
    have hgk := hg _ (List.getElem_mem hk')
    rw [getD_lt _ _ _ (by simpa using hj)] at ho
    simp only [List.getElem_map] at ho
    rw [getD_lt _ _ _ (by omega), locate_out _ hgk.2 _ (by omega)] at ho
    exact ⟨k, hk', by omega, by omega, ho⟩
  · rintro ⟨k, h1, h3, h4, ho⟩
    have hlk : k < (Grid.locateMd used rows).length := by rw [ids_len]; exact h1
    have hz : k < ((Grid.locateMd used rows).zip used).length := by simp [ids_len]; exact h1
    refine ⟨_, List.getElem_mem hz, ?_⟩
    simp only [List.getElem_zip, ids_get used rows k h1 hlk]
    rw [getD_lt _ _ _ (by simpa using hj)]
    simp only [List.getElem_map]
    rw [getD_lt _ _ _ (by omega), locate_out _ (hg _ (List.getElem_mem h1)).2 _ h4]
    exact ho

theorem clip_range (g : List α) (h2 : 2 ≤ g.length) (i : Int) : 0 ≤ clip g i ∧ clip g i < (g.length : Int) - 1 := by
  unfold clip Binning.clipInt
  simp only [max_def, min_def]
  split_ifs <;> constructor <;> omega

/-- The clipped indices of the used axes. -/
def clips (used rows : List (List α)) : List (List Int) :=
  List.zipWith (fun id g => id.map (clip g)) (Grid.locateMd used rows) used

theorem clips_len (used rows : List (List α)) : (clips used rows).length = used.length := by simp [clips, ids_len]

theorem clips_get (used rows : List (List α)) (k : Nat) (hk : k < used.length) (hk' : k < (clips used rows).length) :
    (clips used rows)[k] = rows.map (fun r => clip used[k] (Grid.locate used[k] (r.getD k 0))) := by
  simp [clips, Grid.locateMd]

/-- Every axis of the histogram has one entry less than the grid has edges. -/
theorem gather_ok (grids rows : List (List α)) (m : Nat) (hg : AxesOK grids) (h : Grid.NDArr α) (hs : h.shape = histShape grids)
    (isOut : List Bool) (n : Nat) (outFill : α) :
    gather h (clips (grids.take m) rows) isOut n outFill = .ok
      { shape := n :: h.shape.drop (grids.take m).length,
        data := (Grid.indices (n :: h.shape.drop (grids.take m).length)).map (fun K =>
          if isOut.getD (K.headD 0) false then outFill
          else (h.get? (at_ (clips (grids.take m) rows) (K.headD 0) ++ K.tail)).getD 0) } := by
  unfold gather
  rw [if_pos, clips_len]
  rw [List.all_eq_true]
  intro q hq
  obtain ⟨k, hk, rfl⟩ := List.getElem_of_mem hq
  have hk2 : k < (grids.take m).length := by simp [clips_len] at hk; simp; omega
  have hk3 : k < grids.length := by simp at hk2; omega
  simp only [List.getElem_zip, clips_get _ rows k hk2 (by rw [clips_len]; exact hk2)]
  rw [List.all_eq_true]
  intro i hi
  obtain ⟨r, -, rfl⟩ := List.mem_map.mp hi
  have h2 := (hg _ (List.getElem_mem hk3)).1
  have hc := clip_range (grids.take m)[k] (by simpa using h2) (Grid.locate (grids.take m)[k] (r.getD k 0))
  simp only [hs, histShape, List.getElem_map, Bool.and_eq_true, decide_eq_true_eq]
  have e : (grids.take m)[k] = grids[k] := by simp
  rw [e] at hc ⊢
  refine ⟨hc.1, ?_⟩
  omega

theorem call_eq (grids : List (List α)) (hg : AxesOK grids) (h : Grid.NDArr α) (hs : h.shape = histShape grids) (outFill : α)
    (x : In α) (cols : Nat) (rows : List (List α)) (hx : cvt x = .ok (cols, rows)) (hc : 0 < cols) (hne : grids ≠ []) :
    call grids h outFill x = .ok
      { ids := Grid.locateMd (grids.take cols) rows,
        clipped := clips (grids.take cols) rows,
        h := { shape := rows.length :: h.shape.drop (grids.take cols).length,
               data := (Grid.indices (rows.length :: h.shape.drop (grids.take cols).length)).map (fun K =>
                 if ((List.range rows.length).map (flag (grids.take cols) (Grid.locateMd (grids.take cols) rows))).getD (K.headD 0) false
                 then outFill else (h.get? (at_ (clips (grids.take cols) rows) (K.headD 0) ++ K.tail)).getD 0) },
        isOut := (List.range rows.length).map (flag (grids.take cols) (Grid.locateMd (grids.take cols) rows)) } := by
  have hids : (Grid.locateMd (grids.take cols) rows).isEmpty = false := by
    have hl := ids_len (grids.take cols) rows
    have hp : 0 < grids.length := List.length_pos_iff.mpr hne
    cases hh : Grid.locateMd (grids.take cols) rows with
    | nil => rw [hh] at hl; simp at hl; omega
    | cons a t => rfl
  have hgo := gather_ok grids rows cols hg h hs ((List.range rows.length).map (flag (grids.take cols) (Grid.locateMd (grids.take cols) rows)))
    rows.length outFill
  unfold call
  rw [hx]
  simp only [bind, Except.bind, hids]
  unfold clips at hgo
  rw [if_neg (by simp), hgo]
  rfl

/-- C150: the evaluation, for a query array of any number of columns (at least one).  With `m` = the smaller of the numbers of
columns and axes, every row is one point of the first `m` axes.  The result has one entry per row for every index of the remaining
axes: where the point lies in the half-open cell `I`, the histogram at `I` (and the remaining index); beyond the axes, and on a
last edge, `out_fill` and the flag.  Every point is one or the other. -/
theorem C150_call (grids : List (List α)) (hg : AxesOK grids) (h : Grid.NDArr α) (hs : h.shape = histShape grids)
    (hd : h.data.length = (histShape grids).prod) (outFill : α) (x : In α) (cols : Nat) (rows : List (List α))
    (hx : cvt x = .ok (cols, rows)) (hr : ∀ r ∈ rows, r.length = cols) (hc : 0 < cols) (hne : grids ≠ []) :
    ∃ o, call grids h outFill x = .ok o ∧
      o.h.shape = rows.length :: h.shape.drop (min cols grids.length) ∧ o.isOut.length = rows.length ∧
      ∀ j (hj : j < rows.length),
        ((Beyond (grids.take cols) rows[j] ∧ o.isOut[j]? = some true ∧
          ∀ J, List.Forall₂ (fun i n => i < n) J (h.shape.drop (min cols grids.length)) → o.h.get? (j :: J) = some outFill) ∨
        (∃ I, InHalfOpen (grids.take cols) I rows[j] ∧ o.isOut[j]? = some false ∧
          (∀ k (hk : k < I.length), (o.ids[k]?.bind (fun l => l[j]?)) = some ((I[k] : Nat) : Int) ∧
            (o.clipped[k]?.bind (fun l => l[j]?)) = some ((I[k] : Nat) : Int)) ∧
          ∀ J, List.Forall₂ (fun i n => i < n) J (h.shape.drop (min cols grids.length)) →
            ∃ v, h.get? (I ++ J) = some v ∧ o.h.get? (j :: J) = some v)) := by
  have hmin : (grids.take cols).length = min cols grids.length := by simp
  have hgu : AxesOK (grids.take cols) := fun g hg' => hg g (List.mem_of_mem_take hg')
  refine ⟨_, call_eq grids hg h hs outFill x cols rows hx hc hne, by rw [hmin], by simp, ?_⟩
  intro j hj
  have hlen : (grids.take cols).length ≤ rows[j].length := by
    rw [hr _ (List.getElem_mem hj)]; simp
  have hflag := flag_iff (grids.take cols) rows hgu j hj hlen
  have hget : ∀ J, List.Forall₂ (fun i n => i < n) J (h.shape.drop (min cols grids.length)) →
      (({ shape := rows.length :: h.shape.drop (grids.take cols).length,
          data := (Grid.indices (rows.length :: h.shape.drop (grids.take cols).length)).map (fun K =>
            if ((List.range rows.length).map (flag (grids.take cols) (Grid.locateMd (grids.take cols) rows))).getD (K.headD 0) false
            then outFill else (h.get? (at_ (clips (grids.take cols) rows) (K.headD 0) ++ K.tail)).getD 0) } : Grid.NDArr α).get? (j :: J))
      = some (if flag (grids.take cols) (Grid.locateMd (grids.take cols) rows) j then outFill
          else (h.get? (at_ (clips (grids.take cols) rows) j ++ J)).getD 0) := by
    intro J hJ
    rw [← hmin] at hJ
    have hK : List.Forall₂ (fun i n => i < n) (j :: J) (rows.length :: h.shape.drop (grids.take cols).length) :=
      List.Forall₂.cons hj hJ
    simp only [Grid.NDArr.get?, hK, if_true, List.getElem?_map, (Grid.indices_flatIdx _ _ hK).2, Option.map_some, List.headD_cons,
      List.tail_cons]
    have hfl : ((List.range rows.length).map (flag (grids.take cols) (Grid.locateMd (grids.take cols) rows))).getD j false
        = flag (grids.take cols) (Grid.locateMd (grids.take cols) rows) j := by
      rw [getD_lt _ _ _ (by simpa using hj)]; simp
    simp only [hfl]
    split <;> rfl
  by_cases hb : Beyond (grids.take cols) rows[j]
  · left
    refine ⟨hb, by simp [hj, hflag.mpr hb], ?_⟩
    intro J hJ
    rw [hget J hJ, if_pos (hflag.mpr hb)]
  · right
    have hnf : flag (grids.take cols) (Grid.locateMd (grids.take cols) rows) j = false := by
      rw [← Bool.not_eq_true, hflag]; exact hb
    -- every axis has an interval
    have hex : ∀ k (h1 : k < (grids.take cols).length), ∃ i : Nat, ∃ h4 : i + 1 < (grids.take cols)[k].length,
        (grids.take cols)[k][i] ≤ rows[j][k]'(by omega) ∧ rows[j][k]'(by omega) < (grids.take cols)[k][i + 1] := by
      intro k h1
      have hgk := hgu _ (List.getElem_mem h1)
      obtain ⟨b0, b1, hbb⟩ := Grid.C37_locate (grids.take cols)[k] hgk.2 (rows[j][k]'(by omega))
      have hno : ¬ (rows[j][k]'(by omega) < (grids.take cols)[k][0] ∨
          (grids.take cols)[k][(grids.take cols)[k].length - 1] ≤ rows[j][k]'(by omega)) :=
        fun hcon => hb ⟨k, h1, by omega, by omega, hcon⟩
      rw [← locate_out _ hgk.2 _ (by omega)] at hno
      simp only [outside, Bool.or_eq_true, decide_eq_true_eq, not_or, not_lt, ge_iff_le, not_le] at hno
      obtain ⟨i, hi⟩ := Int.eq_ofNat_of_zero_le hno.1
      refine ⟨i, by omega, (hbb i (by omega)).mpr (by omega), ?_⟩
      rw [← not_le]
      intro hle
      have := (hbb (i + 1) (by omega)).mp hle
      omega
    choose f hf using hex
    let I : List Nat := List.ofFn (fun k : Fin (grids.take cols).length => f k k.2)
    have hIl : I.length = (grids.take cols).length := by simp [I]
    have hIk : ∀ k (h1 : k < (grids.take cols).length), I[k]'(by omega) = f k h1 := by
      intro k h1; simp [I]
    have hloc : ∀ k (h1 : k < (grids.take cols).length),
        Grid.locate (grids.take cols)[k] (rows[j].getD k 0) = (f k h1 : Int) := by
      intro k h1
      obtain ⟨h4, c1, c2⟩ := hf k h1
      rw [getD_lt _ _ _ (by omega)]
      exact locate_in _ (hgu _ (List.getElem_mem h1)).2 _ _ h4 c1 c2
    have hclip : ∀ k (h1 : k < (grids.take cols).length), clip (grids.take cols)[k] ((f k h1 : Nat) : Int) = (f k h1 : Int) := by
      intro k h1
      obtain ⟨h4, -, -⟩ := hf k h1
      unfold clip Binning.clipInt
      simp only [max_def, min_def]
      split_ifs <;> omega
    have hat : at_ (clips (grids.take cols) rows) j = I := by
      apply List.ext_getElem
      · simp [at_, clips_len, hIl]
      · intro k k1 k2
        have h1 : k < (grids.take cols).length := by rw [← hIl]; exact k2
        simp only [at_, List.getElem_map]
        rw [clips_get _ rows k h1 (by rw [clips_len]; exact h1), getD_lt _ _ _ (by simpa using hj)]
        simp only [List.getElem_map]
        rw [hloc k h1, hclip k h1, hIk k h1]
        simp
    refine ⟨I, ⟨hIl, ?_⟩, by simp [hj, hnf], ?_, ?_⟩
    · intro k h1 h2
      obtain ⟨h4, c1, c2⟩ := hf k h1
      refine ⟨by omega, by rw [hIk k h1]; exact h4, ?_⟩
      simp only [hIk k h1]
      exact ⟨c1, c2⟩
    · intro k hk
      have h1 : k < (grids.take cols).length := by rw [← hIl]; exact hk
      have k1 : k < (Grid.locateMd (grids.take cols) rows).length := by rw [ids_len]; exact h1
      have k2 : k < (clips (grids.take cols) rows).length := by rw [clips_len]; exact h1
      dsimp only
      rw [List.getElem?_eq_getElem k1, List.getElem?_eq_getElem k2]
      simp only [Option.bind_some, ids_get _ rows k h1 k1, clips_get _ rows k h1 k2, List.getElem?_map, List.getElem?_eq_getElem hj,
        Option.map_some]
      rw [hloc k h1, hclip k h1, hIk k h1]
      exact ⟨rfl, rfl⟩
    · intro J hJ
      have hIJ : List.Forall₂ (fun i n => i < n) (I ++ J) (histShape grids) := by
        have e : histShape grids = histShape (grids.take cols) ++ (histShape grids).drop (min cols grids.length) := by
          rw [← hmin]
          unfold histShape
          conv_lhs => rw [← List.take_append_drop cols grids]
          rw [List.map_append, List.map_drop]
          congr 1
          by_cases hcl : cols ≤ grids.length
          · simp [hcl, List.map_drop]
          · have hge : grids.length ≤ cols := by omega
            simp [List.drop_eq_nil_of_le, hge]
        rw [e]
        refine List.rel_append ?_ (hs ▸ hJ)
        rw [List.forall₂_iff_get]
        refine ⟨by simp only [histShape, List.length_map]; exact hIl, ?_⟩
        intro k k1 k2
        have h1 : k < (grids.take cols).length := by rw [← hIl]; exact k1
        obtain ⟨h4, -, -⟩ := hf k h1
        simp only [List.get_eq_getElem, histShape, List.getElem_map]
        rw [hIk k h1]
        omega
      have hv : ∃ v, h.get? (I ++ J) = some v := by
        have hidx := Grid.indices_flatIdx (histShape grids) (I ++ J) hIJ
        have : Grid.flatIdx (histShape grids) (I ++ J) < h.data.length := by
          rw [hd, ← Grid.indices_length]
          exact (List.getElem?_eq_some_iff.mp hidx.2).1
        exact ⟨_, by simp only [Grid.NDArr.get?, hs, hIJ, if_true]; exact List.getElem?_eq_getElem this⟩
      obtain ⟨v, hv⟩ := hv
      refine ⟨v, hv, ?_⟩
      rw [hget J hJ, hnf, hat, hv]
      rfl

theorem fit_ok (grids : List (List α)) (hg : GridsOK grids) (density : Bool) (x : In α) (X : List (List α))
    (hx : cvt x = .ok (grids.length, X)) (hr : ∀ r ∈ X, r.length = grids.length) (w : Option (List α))
    (hw : ∀ v, w = some v → v.length = X.length) :
    ∃ h, fit grids density x w = .ok h ∧ h.shape = histShape grids ∧ h.data.length = (histShape grids).prod ∧
    ∀ I, List.Forall₂ (fun i n => i < n) I (histShape grids) → h.get? I = some (
      let cnt := cellCount grids (X.zip (w.getD (X.map (fun _ => 1)))) I
      if density then cnt / cellVol grids I / boxWeight grids (X.zip (w.getD (X.map (fun _ => 1)))) else cnt) := by
  obtain ⟨h, e, hs, hget⟩ := C55_fit grids hg density X w hr hw
  refine ⟨h, by simp [fit, hx, bind, Except.bind, pyAssert, e], hs, ?_, hget⟩
  have e' := e
  unfold histFit at e'
  have hlen : (w.getD (X.map (fun _ => 1))).length = X.length := by
    rcases w with _ | v
    · simp
    · simpa using hw v rfl
  have hall : X.all (fun r => r.length == grids.length) = true := by simpa using hr
  simp only [hall, pyAssert, if_true, bind, Except.bind, hlen, ne_eq, not_true_eq_false, if_false,
    pure, Except.pure, Except.ok.injEq] at e'
  rw [← e']
  cases density <;> simp [Grid.indices_length]

theorem AxesOK.of {grids : List (List α)} (hg : GridsOK grids) : AxesOK grids := fun g h => ⟨(hg g h).1, pw_lt_le (hg g h).2⟩

/-- C150: `by_histogram` on whole arrays, data and queries having as many columns as the grid has axes: one value and one flag per
query point.  A point in the half-open cell `I` gets the weight of the data in the cell (over the cell's volume and the total
weight in the box for `density`), any other `out_fill`. -/
theorem C150_value (grids : List (List α)) (hg : GridsOK grids) (hne : grids ≠ []) (density : Bool) (x xPred : In α)
    (X Q : List (List α)) (hx : cvt x = .ok (grids.length, X)) (hX : ∀ r ∈ X, r.length = grids.length)
    (hq : cvt xPred = .ok (grids.length, Q)) (hQ : ∀ r ∈ Q, r.length = grids.length)
    (w : Option (List α)) (hw : ∀ v, w = some v → v.length = X.length) (outFill : α) :
    ∃ o, byHistogram grids x xPred density w outFill = .ok o ∧ o.h.shape = [Q.length] ∧ o.isOut.length = Q.length ∧
      ∀ j (hj : j < Q.length),
        (Beyond grids Q[j] ∧ o.isOut[j]? = some true ∧ o.h.get? [j] = some outFill) ∨
        (∃ I, InHalfOpen grids I Q[j] ∧ o.isOut[j]? = some false ∧ o.h.get? [j] = some (
          let cnt := cellCount grids (X.zip (w.getD (X.map (fun _ => 1)))) I
          if density then cnt / cellVol grids I / boxWeight grids (X.zip (w.getD (X.map (fun _ => 1)))) else cnt)) := by
  obtain ⟨h, hf, hs, hd, hget⟩ := fit_ok grids hg density x X hx hX w hw
  have hpos : 0 < grids.length := List.length_pos_iff.mpr hne
  obtain ⟨o, ho, h1, h2, h3⟩ := C150_call grids (AxesOK.of hg) h hs hd outFill xPred grids.length Q hq hQ hpos hne
  have hdrop : h.shape.drop (min grids.length grids.length) = [] := by
    rw [hs]; simp [histShape]
  rw [hdrop] at h1 h3
  rw [List.take_length] at h3
  refine ⟨o, by simp [byHistogram, hf, bind, Except.bind, ho], h1, h2, ?_⟩
  intro j hj
  rcases h3 j hj with ⟨a, b, c⟩ | ⟨I, a, b, -, c⟩
  · exact Or.inl ⟨a, b, c [] List.Forall₂.nil⟩
  · refine Or.inr ⟨I, a, b, ?_⟩
    obtain ⟨v, v1, v2⟩ := c [] List.Forall₂.nil
    rw [List.append_nil] at v1
    have hI : List.Forall₂ (fun i n => i < n) I (histShape grids) := by
      by_contra hcon
      rw [Grid.NDArr.get?, hs, if_neg hcon] at v1
      exact absurd v1 (by simp)
    rw [hget I hI] at v1
    rw [v2, ← v1]

theorem flag_row (used rows : List (List α)) (j : Nat) (hj : j < rows.length) :
    flag used (Grid.locateMd used rows) j = (used.mapIdx (fun k g => outside g (Grid.locate g (rows[j].getD k 0)))).any id := by
  unfold flag
  have : ((Grid.locateMd used rows).zip used).map (fun q => outside q.2 (q.1.getD j 0))
      = used.mapIdx (fun k g => outside g (Grid.locate g (rows[j].getD k 0))) := by
    apply List.ext_getElem
    · simp [ids_len]
    · intro k k1 k2
      have h1 : k < used.length := by simpa using k2
      simp only [List.getElem_map, List.getElem_zip, List.getElem_mapIdx]
      rw [ids_get used rows k h1 (by rw [ids_len]; exact h1), getD_lt _ _ _ (by simpa using hj)]
      simp
  rw [← this, List.any_map]
  rfl

theorem at_row (used rows : List (List α)) (j : Nat) (hj : j < rows.length) :
    at_ (clips used rows) j = used.mapIdx (fun k g => (clip g (Grid.locate g (rows[j].getD k 0))).toNat) := by
  apply List.ext_getElem
  · simp [at_, clips_len]
  · intro k k1 k2
    have h1 : k < used.length := by simpa using k2
    simp only [at_, List.getElem_map, List.getElem_mapIdx]
    rw [clips_get used rows k h1 (by rw [clips_len]; exact h1), getD_lt _ _ _ (by simpa using hj)]
    simp

theorem out_get (n : Nat) (rest : List Nat) (f : Nat → List Nat → α) (j : Nat) (hj : j < n) (J : List Nat) :
    ({ shape := n :: rest, data := (Grid.indices (n :: rest)).map (fun K => f (K.headD 0) K.tail) } : Grid.NDArr α).get? (j :: J)
      = if List.Forall₂ (fun i n => i < n) J rest then some (f j J) else none := by
  by_cases hJ : List.Forall₂ (fun i n => i < n) J rest
  · have hK : List.Forall₂ (fun i n => i < n) (j :: J) (n :: rest) := List.Forall₂.cons hj hJ
    rw [if_pos hJ, Grid.NDArr.get?, if_pos hK]
    simp only [List.getElem?_map, (Grid.indices_flatIdx _ _ hK).2, Option.map_some, List.headD_cons, List.tail_cons]
  · rw [if_neg hJ, Grid.NDArr.get?, if_neg]
    intro hcon
    rw [List.forall₂_cons] at hcon
    exact hJ hcon.2

/-- C150: the result at a point depends on the point alone, not on the other points queried with it, their order or their number:
equal rows of two query arrays of the same number of columns get the same flag and the same values. -/
theorem C150_pointwise (grids : List (List α)) (hg : AxesOK grids) (hne : grids ≠ []) (h : Grid.NDArr α) (hs : h.shape = histShape grids)
    (outFill : α) (x y : In α) (cols : Nat) (rx ry : List (List α)) (hx : cvt x = .ok (cols, rx)) (hy : cvt y = .ok (cols, ry))
    (hc : 0 < cols) (i j : Nat) (hi : i < rx.length) (hj : j < ry.length) (he : rx[i] = ry[j]) :
    ∃ ox oy, call grids h outFill x = .ok ox ∧ call grids h outFill y = .ok oy ∧ ox.isOut[i]? = oy.isOut[j]? ∧
      ∀ J, ox.h.get? (i :: J) = oy.h.get? (j :: J) := by
  refine ⟨_, _, call_eq grids hg h hs outFill x cols rx hx hc hne, call_eq grids hg h hs outFill y cols ry hy hc hne, ?_, ?_⟩
  · simp only [List.getElem?_map, List.getElem?_range hi, List.getElem?_range hj, Option.map_some]
    rw [flag_row _ rx i hi, flag_row _ ry j hj, he]
  · intro J
    have hfi : ((List.range rx.length).map (flag (grids.take cols) (Grid.locateMd (grids.take cols) rx))).getD i false
        = flag (grids.take cols) (Grid.locateMd (grids.take cols) rx) i := by
      rw [getD_lt _ _ _ (by simpa using hi)]; simp
    have hfj : ((List.range ry.length).map (flag (grids.take cols) (Grid.locateMd (grids.take cols) ry))).getD j false
        = flag (grids.take cols) (Grid.locateMd (grids.take cols) ry) j := by
      rw [getD_lt _ _ _ (by simpa using hj)]; simp
    have a := out_get rx.length (h.shape.drop (grids.take cols).length) (fun k K =>
      if ((List.range rx.length).map (flag (grids.take cols) (Grid.locateMd (grids.take cols) rx))).getD k false
      then outFill else (h.get? (at_ (clips (grids.take cols) rx) k ++ K)).getD 0) i hi J
    have b := out_get ry.length (h.shape.drop (grids.take cols).length) (fun k K =>
      if ((List.range ry.length).map (flag (grids.take cols) (Grid.locateMd (grids.take cols) ry))).getD k false
      then outFill else (h.get? (at_ (clips (grids.take cols) ry) k ++ K)).getD 0) j hj J
    refine a.trans (Eq.trans ?_ b.symm)
    simp only [hfi, hfj, flag_row _ rx i hi, flag_row _ ry j hj, at_row _ rx i hi, at_row _ ry j hj, he]

/-- C150: columns of the query beyond the axes of the grid are ignored without a word. -/
theorem C150_extra_columns (grids : List (List α)) (h : Grid.NDArr α) (outFill : α) (cols : Nat) (rows : List (List α))
    (hc : grids.length ≤ cols) :
    call grids h outFill (.d2 cols rows) = call grids h outFill (.d2 grids.length (rows.map (fun r => r.take grids.length))) := by
  have hl : Grid.locateMd grids rows = Grid.locateMd grids (rows.map (fun r => r.take grids.length)) := by
    apply List.ext_getElem
    · simp [ids_len]
    · intro k k1 k2
      have h1 : k < grids.length := by rw [ids_len] at k1; exact k1
      rw [ids_get _ _ k h1 k1, ids_get _ _ k h1 k2, List.map_map]
      apply List.map_congr_left
      intro r _
      simp [List.getD, List.getElem?_take, h1]
  simp only [call, cvt, bind, Except.bind, List.take_of_length_le hc, List.take_length, hl, List.length_map]

/-- C150: with fewer query columns than axes nothing is refused either: `h` is no longer one number per point but, per point, the
slice of the histogram over the remaining axes. -/
theorem C150_fewer_columns (grids : List (List α)) (hg : AxesOK grids) (h : Grid.NDArr α) (hs : h.shape = histShape grids)
    (outFill : α) (cols : Nat) (rows : List (List α)) (hc : 0 < cols) (hlt : cols < grids.length) :
    ∃ o, call grids h outFill (.d2 cols rows) = .ok o ∧ o.h.shape = rows.length :: (grids.drop cols).map (fun g => g.length - 1) ∧
      o.h.shape.length = 1 + (grids.length - cols) ∧ o.ids.length = cols ∧ o.isOut.length = rows.length := by
  have hne : grids ≠ [] := by rintro rfl; simp at hlt
  refine ⟨_, call_eq grids hg h hs outFill (.d2 cols rows) cols rows rfl hc hne, ?_, ?_, ?_, by simp⟩
  · simp [hs, histShape, List.map_drop, Nat.min_eq_left hlt.le]
  · simp [hs, histShape, Nat.min_eq_left hlt.le]; omega
  · simp [ids_len, Nat.min_eq_left hlt.le]

/-- C150: what is refused: data whose number of columns is not the number of axes, and arrays of other than one or two dimensions
(AssertionError); a query of no columns (IndexError).  A 1-D array is one column. -/
theorem C150_refused (grids : List (List α)) (density : Bool) (w : Option (List α)) (outFill : α) (h : Grid.NDArr α) :
    (∀ cols rows xPred, cols ≠ grids.length → byHistogram grids (.d2 cols rows) xPred density w outFill = .error .assertionError) ∧
    (∀ l xPred, grids.length ≠ 1 → byHistogram grids (.d1 l) xPred density w outFill = .error .assertionError) ∧
    (∀ xPred, byHistogram grids .other xPred density w outFill = .error .assertionError) ∧
    call grids h outFill .other = .error .assertionError ∧
    (∀ rows, call grids h outFill (.d2 0 rows) = .error .indexError) ∧
    (∀ l xPred, byHistogram grids (.d1 l) xPred density w outFill = byHistogram grids (.d2 1 (l.map fun a => [a])) xPred density w outFill) ∧
    (∀ x l, byHistogram grids x (.d1 l) density w outFill = byHistogram grids x (.d2 1 (l.map fun a => [a])) density w outFill) := by
  refine ⟨?_, ?_, ?_, rfl, ?_, fun _ _ => rfl, fun _ _ => rfl⟩
  · intro cols rows xPred hc
    simp [byHistogram, fit, cvt, bind, Except.bind, pyAssert, hc]
  · intro l xPred hc
    simp [byHistogram, fit, cvt, bind, Except.bind, pyAssert, Ne.symm hc]
  · intro xPred
    simp [byHistogram, fit, cvt, bind, Except.bind]
  · intro rows
    simp [call, cvt, bind, Except.bind, Grid.locateMd]

theorem cellCount_perm (grids : List (List α)) (a b : List (List α × α)) (hp : a.Perm b) (I : List Nat) :
    cellCount grids a I = cellCount grids b I := ((hp.filter _).map _).sum_eq

theorem histFit_eq (grids : List (List α)) (density : Bool) (x : List (List α)) (w : Option (List α))
    (hw : ∀ v, w = some v → v.length = x.length) :
    histFit grids density x w = (if x.all (fun r => r.length == grids.length) then
      .ok { shape := histShape grids,
            data := if density then (Grid.indices (histShape grids)).map (fun I =>
                cellCount grids (x.zip (w.getD (x.map (fun _ => 1)))) I / cellVol grids I
                  / ((Grid.indices (histShape grids)).map (cellCount grids (x.zip (w.getD (x.map (fun _ => 1)))))).sum)
              else (Grid.indices (histShape grids)).map (cellCount grids (x.zip (w.getD (x.map (fun _ => 1))))) }
      else .error .assertionError) := by
  have hlen : (w.getD (x.map (fun _ => 1))).length = x.length := by
    rcases w with _ | v
    · simp
    · simpa using hw v rfl
  unfold histFit
  by_cases h : x.all (fun r => r.length == grids.length) = true
  · rw [if_pos h]
    simp only [h, pyAssert, if_true, bind, Except.bind, hlen, ne_eq, not_true_eq_false, if_false, pure, Except.pure]
  · rw [if_neg h]
    simp only [h, pyAssert, bind, Except.bind]
    simp

/-- C150: the order of the data does not matter. -/
theorem C150_data_order (grids : List (List α)) (density : Bool) (outFill : α) (xPred : In α) (cols : Nat)
    (a b : List (List α × α)) (hp : a.Perm b) :
    byHistogram grids (.d2 cols (a.map Prod.fst)) xPred density (some (a.map Prod.snd)) outFill
      = byHistogram grids (.d2 cols (b.map Prod.fst)) xPred density (some (b.map Prod.snd)) outFill ∧
    byHistogram grids (.d2 cols (a.map Prod.fst)) xPred density none outFill
      = byHistogram grids (.d2 cols (b.map Prod.fst)) xPred density none outFill := by
  have zz : ∀ l : List (List α × α), (l.map Prod.fst).zip (l.map Prod.snd) = l := by
    intro l; induction l with
    | nil => rfl
    | cons p t ih => simp [ih]
  have z1 : ∀ l : List (List α × α), (l.map Prod.fst).zip ((l.map Prod.fst).map (fun _ => (1 : α))) = l.map (fun p => (p.1, (1 : α))) := by
    intro l; induction l with
    | nil => rfl
    | cons p t ih => simp only [List.map_cons, List.zip_cons_cons, ih]
  have hall : (a.map Prod.fst).all (fun r => r.length == grids.length) = (b.map Prod.fst).all (fun r => r.length == grids.length) :=
    (hp.map _).all_eq
  have c1 : cellCount grids a = cellCount grids b := funext (cellCount_perm grids a b hp)
  have c2 : cellCount grids (a.map (fun p => (p.1, (1 : α)))) = cellCount grids (b.map (fun p => (p.1, (1 : α)))) :=
    funext (cellCount_perm grids _ _ (hp.map _))
  constructor
  · simp only [byHistogram, fit, cvt, bind, Except.bind]
    rw [histFit_eq _ _ _ _ (by intro v hv; cases hv; simp), histFit_eq _ _ _ _ (by intro v hv; cases hv; simp)]
    simp only [Option.getD_some, zz, hall, c1]
  · simp only [byHistogram, fit, cvt, bind, Except.bind]
    rw [histFit_eq _ _ _ _ (by simp), histFit_eq _ _ _ _ (by simp)]
    simp only [Option.getD_none, z1, hall, c2]

theorem cellCount_scale (grids : List (List α)) (c : α) (X : List (List α)) (ws : List α) (I : List Nat) :
    cellCount grids (X.zip (ws.map (fun a => c * a))) I = c * cellCount grids (X.zip ws) I := by
  induction X generalizing ws with
  | nil => simp [cellCount]
  | cons x X ih =>
      cases ws with
      | nil => simp [cellCount]
      | cons b ws =>
          have := ih ws
          unfold cellCount at this ⊢
          by_cases hi : inCell grids I x
          · simp [List.filter_cons, hi, this]; ring
          · simp [List.filter_cons, hi, this]

/-- C150: for `density` only the proportions of the weights matter; without it the result is proportional to the weights. -/
theorem C150_weight_scale (grids : List (List α)) (hg : GridsOK grids) (x : In α) (X : List (List α))
    (hx : cvt x = .ok (grids.length, X)) (hX : ∀ r ∈ X, r.length = grids.length) (w : List α) (hw : w.length = X.length) (c : α) :
    (c ≠ 0 → fit grids true x (some (w.map fun a => c * a)) = fit grids true x (some w)) ∧
    (∃ h h', fit grids false x (some w) = .ok h ∧ fit grids false x (some (w.map fun a => c * a)) = .ok h' ∧
      ∀ I, h'.get? I = (h.get? I).map (fun v => c * v)) := by
  have hall : X.all (fun r => r.length == grids.length) = true := by simpa using hX
  have e1 := fun d => histFit_eq grids d X (some w) (by intro v hv; cases hv; exact hw)
  have e2 := fun d => histFit_eq grids d X (some (w.map fun a => c * a)) (by intro v hv; cases hv; simpa using hw)
  have hc : cellCount grids (X.zip (w.map fun a => c * a)) = fun I => c * cellCount grids (X.zip w) I :=
    funext (cellCount_scale grids c X w)
  constructor
  · intro hc0
    simp only [fit, hx, bind, Except.bind, pyAssert]
    simp only [e1, e2, Option.getD_some, hc, List.sum_map_mul_left, if_true, hall]
    simp only [beq_self_eq_true, if_true]
    congr 2
    apply List.map_congr_left
    intro I _
    rw [mul_div_assoc, mul_div_mul_left _ _ hc0]
  · refine ⟨_, _, by simp only [fit, hx, bind, Except.bind, pyAssert, e1, hall, beq_self_eq_true, if_true]; rfl,
      by simp only [fit, hx, bind, Except.bind, pyAssert, e2, hall, beq_self_eq_true, if_true]; rfl, ?_⟩
    intro I
    simp only [Grid.NDArr.get?, Option.getD_some, hc]
    split
    · simp [List.getElem?_map, Function.comp_def]
    · rfl

/-- C150: without `density`, the histogram of two data sets together is the sum of their histograms. -/
theorem C150_additive (grids : List (List α)) (X Y : List (List α)) (hX : ∀ r ∈ X, r.length = grids.length)
    (hY : ∀ r ∈ Y, r.length = grids.length) (u v : List α) (hu : u.length = X.length) (hv : v.length = Y.length) :
    ∃ a b c, fit grids false (.d2 grids.length X) (some u) = .ok a ∧ fit grids false (.d2 grids.length Y) (some v) = .ok b ∧
      fit grids false (.d2 grids.length (X ++ Y)) (some (u ++ v)) = .ok c ∧
      ∀ I p q, a.get? I = some p → b.get? I = some q → c.get? I = some (p + q) := by
  have hall : X.all (fun r => r.length == grids.length) = true := by simpa using hX
  have hall' : Y.all (fun r => r.length == grids.length) = true := by simpa using hY
  have hall2 : (X ++ Y).all (fun r => r.length == grids.length) = true := by rw [List.all_append, hall, hall']; rfl
  have e1 := histFit_eq grids false X (some u) (by intro v hv; cases hv; exact hu)
  have e2 := histFit_eq grids false Y (some v) (by intro w hw; cases hw; exact hv)
  have e3 := histFit_eq grids false (X ++ Y) (some (u ++ v)) (by intro w hw; cases hw; simp [hu, hv])
  refine ⟨_, _, _, by simp only [fit, cvt, bind, Except.bind, pyAssert, e1, hall, beq_self_eq_true, if_true]; rfl,
    by simp only [fit, cvt, bind, Except.bind, pyAssert, e2, hall', beq_self_eq_true, if_true]; rfl,
    by simp only [fit, cvt, bind, Except.bind, pyAssert, e3, hall2, beq_self_eq_true, if_true]; rfl, ?_⟩
  intro I p q hp hq
  have hz : (X ++ Y).zip (u ++ v) = X.zip u ++ Y.zip v := List.zip_append hu.symm
  have hcc : ∀ K, cellCount grids (X.zip u ++ Y.zip v) K = cellCount grids (X.zip u) K + cellCount grids (Y.zip v) K := by
    intro K; simp [cellCount]
  have hI : List.Forall₂ (fun i n => i < n) I (histShape grids) := by
    by_contra hcon
    rw [Grid.NDArr.get?, if_neg hcon] at hp
    exact absurd hp (by simp)
  simp only [Grid.NDArr.get?, Option.getD_some, hI, if_true, List.getElem?_map, (Grid.indices_flatIdx _ _ hI).2, Option.map_some,
    Bool.false_eq_true, if_false, Option.some.injEq] at hp hq ⊢
  rw [hz, hcc, hp, hq]

/-! A concrete case: two axes, three points, queries inside, on a last edge and outside; the query of one column. -/
example : AxesOK ([[0, 1, 3], [0, 2]] : List (List ℚ)) ∧ GridsOK ([[0, 1, 3], [0, 2]] : List (List ℚ)) := by
  constructor <;> intro g hg <;> simp at hg <;> rcases hg with rfl | rfl <;> decide +kernel
example : ((byHistogram ([[0, 1, 3], [0, 2]] : List (List ℚ)) (.d2 2 [[1/2, 1], [1, 0], [3, 2]])
    (.d2 2 [[1/2, 0], [3, 1], [-1, 1], [2, 1]]) false none (-7)).map (fun o => (o.h.shape, o.h.data, o.isOut)))
    = .ok ([4], [1, -7, -7, 2], [false, true, true, false]) := by decide +kernel
example : ((byHistogram ([[0, 1, 3], [0, 1, 2]] : List (List ℚ)) (.d2 2 [[1/2, 1], [1, 0], [3, 2]])
    (.d1 [1/2, 3]) false none (-7)).map (fun o => (o.h.shape, o.h.data, o.isOut)))
    = .ok ([2, 2], [0, 1, -7, -7], [false, true]) := by decide +kernel

end Pyhipp.HistDensity
