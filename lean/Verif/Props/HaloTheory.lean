import Verif.Model.HaloTheory
import Verif.Props.NFW
import Verif.Props.Repr
import Verif.Props.LambdaCDM
/-
C114: the halo mass function.  C115: the tabulated functions of HaloTheory.
-/
namespace Pyhipp.LCDM
open Pyhipp Pyhipp.Cosmology

variable {X Y : Type}

/-! ### C114 -/

/-- The mass definitions, with the name that hmf uses (none for 'custom'). -/
inductive MassDef : Str → Option Str → Prop
  | crit : MassDef "200crit".toList (some "SOCritical".toList)
  | mean : MassDef "200mean".toList (some "SOMean".toList)
  | custom : MassDef "custom".toList none

/-- The four keywords that are always set. -/
noncomputable def fixedKw (lgMin lgMax dlg z : ℝ) (k : Str) : Option (HV X) :=
  if k = "Mmin".toList then some (.num (lgMin + 10))
  else if k = "Mmax".toList then some (.num (lgMax + 10 + dlg / 1000))
  else if k = "dlog10m".toList then some (.num dlg)
  else if k = "z".toList then some (.num z)
  else none

/-- The keywords of a mass definition. -/
def defKw (d : Option Str) (k : Str) : Option (HV X) := d.bind (fun name =>
  if k = "mdef_model".toList then some (.text name)
  else if k = "mdef_params".toList then some (.dict [("overdensity".toList, 200)])
  else none)

theorem massArgs_wf (a b c z : ℝ) : PyDict.WF (massArgs a b c z : PyDict Str (HV X)) := by
  show ["Mmin".toList, "Mmax".toList, "dlog10m".toList, "z".toList].Nodup
  decide

theorem get?_cons {B : Type} (k1 : Str) (v : B) (r : PyDict Str B) (k : Str) :
    PyDict.get? ((k1, v) :: r) k = if k = k1 then some v else PyDict.get? r k := by
  by_cases h : k = k1
  · rw [if_pos h, h]; simp [PyDict.get?]
  · rw [if_neg h]; simp [PyDict.get?, Ne.symm h]

theorem get?_massArgs (a b c z : ℝ) (k : Str) : PyDict.get? (massArgs a b c z : PyDict Str (HV X)) k = fixedKw a b c z k := by
  unfold massArgs fixedKw
  rw [show a + 10.0 = a + 10 by norm_num, show b + 10.0 + c * 0.001 = b + 10 + c / 1000 by norm_num; ring]
  rw [get?_cons, get?_cons, get?_cons, get?_cons]; rfl

theorem get?_overdensity (n : Str) (k : Str) : PyDict.get? (overdensity n : PyDict Str (HV X)) k = defKw (some n) k := by
  unfold overdensity defKw
  rw [get?_cons, get?_cons]; rfl

variable (hmf : PyDict Str (HV X) → PyM (List ℝ × List ℝ))

/-- C114: what the package gets: masses shifted to Msun/h, the upper end enlarged by a thousandth of a step, step and redshift from the arguments; the mass definition
from `impl_kw` if given there, otherwise from `mass_def`; everything else from `impl_kw`.  The masses returned are log10(m) - 10; an exception is passed on. -/
theorem C114_sent (T : Halo Y) (lgMin lgMax dlg z : ℝ) (massDef : Str) (d : Option Str) (hd : MassDef massDef d) (kw : PyDict Str (HV X)) (hw : PyDict.WF kw) :
    ∃ sent, (∀ k, PyDict.get? sent k = (fixedKw lgMin lgMax dlg z k).or ((PyDict.get? kw k).or (defKw d k))) ∧
      (∀ m dn, hmf sent = .ok (m, dn) → (T.massFunction hmf lgMin lgMax dlg z massDef kw).1 = .ok ⟨m.map (fun x => Real.logb 10 x - 10), dn⟩) ∧
      (∀ e, hmf sent = .error e → (T.massFunction hmf lgMin lgMax dlg z massDef kw).1 = .error e) := by
  have hrun : ∀ sent, (∀ m dn, hmf sent = .ok (m, dn) → runHmf hmf sent = .ok ⟨m.map (fun x => Real.logb 10 x - 10), dn⟩) ∧
      (∀ e, hmf sent = .error e → runHmf hmf sent = .error e) := by
    intro sent
    constructor
    · intro m dn h; unfold runHmf; rw [h]
    · intro e h; unfold runHmf; rw [h]
  cases hd with
  | crit =>
      refine ⟨_, ?_, hrun _⟩
      intro k
      rw [PyDict.get?_update _ _ _ (massArgs_wf _ _ _ _), PyDict.get?_update _ _ _ hw, get?_massArgs, get?_overdensity]
  | mean =>
      have e : T.massFunction hmf lgMin lgMax dlg z "200mean".toList kw =
        (runHmf hmf (PyDict.update (PyDict.update (overdensity "SOMean".toList) kw) (massArgs lgMin lgMax dlg z)), kw) := by
        rw [Halo.massFunction, if_neg (by decide), if_pos rfl]
      rw [e]
      refine ⟨_, ?_, hrun _⟩
      intro k
      rw [PyDict.get?_update _ _ _ (massArgs_wf _ _ _ _), PyDict.get?_update _ _ _ hw, get?_massArgs, get?_overdensity]
  | custom =>
      have e : T.massFunction hmf lgMin lgMax dlg z "custom".toList kw =
        (runHmf hmf (PyDict.update kw (massArgs lgMin lgMax dlg z)), PyDict.update kw (massArgs lgMin lgMax dlg z)) := by
        rw [Halo.massFunction, if_neg (by decide), if_neg (by decide), if_pos rfl]
      rw [e]
      refine ⟨_, ?_, hrun _⟩
      intro k
      rw [PyDict.get?_update _ _ _ (massArgs_wf _ _ _ _), get?_massArgs]
      have e0 : (defKw none k : Option (HV X)) = none := rfl
      rw [e0, Option.or_none]

/-- C114: an unknown mass definition is a ValueError; the package is not called and the dictionary is not changed. -/
theorem C114_unknown (T : Halo Y) (lgMin lgMax dlg z : ℝ) (massDef : Str) (hd : ¬ ∃ d, MassDef massDef d) (kw : PyDict Str (HV X)) :
    T.massFunction hmf lgMin lgMax dlg z massDef kw = (.error .valueError, kw) := by
  have h1 : massDef ≠ "200crit".toList := fun h => hd ⟨_, by rw [h]; exact MassDef.crit⟩
  have h2 : massDef ≠ "200mean".toList := fun h => hd ⟨_, by rw [h]; exact MassDef.mean⟩
  have h3 : massDef ≠ "custom".toList := fun h => hd ⟨_, by rw [h]; exact MassDef.custom⟩
  rw [Halo.massFunction, if_neg h1, if_neg h2, if_neg h3]

/-- C114: the caller's dictionary stays as it is for '200crit' and '200mean'.  Recorded defect: with 'custom' the four keywords of the call are written into it,
even if the package raises. -/
theorem C114_mutation (T : Halo Y) (lgMin lgMax dlg z : ℝ) (kw : PyDict Str (HV X)) :
    (T.massFunction hmf lgMin lgMax dlg z "200crit".toList kw).2 = kw ∧ (T.massFunction hmf lgMin lgMax dlg z "200mean".toList kw).2 = kw ∧
    (∀ k, PyDict.get? (T.massFunction hmf lgMin lgMax dlg z "custom".toList kw).2 k = (fixedKw lgMin lgMax dlg z k).or (PyDict.get? kw k)) := by
  refine ⟨rfl, rfl, ?_⟩
  have e : T.massFunction hmf lgMin lgMax dlg z "custom".toList kw =
    (runHmf hmf (PyDict.update kw (massArgs lgMin lgMax dlg z)), PyDict.update kw (massArgs lgMin lgMax dlg z)) := by
    rw [Halo.massFunction, if_neg (by decide), if_neg (by decide), if_pos rfl]
  rw [e]
  intro k
  rw [PyDict.get?_update _ _ _ (massArgs_wf _ _ _ _), get?_massArgs]

/-- The package sees only the keyword values, not their order. -/
def SeesValues : Prop := ∀ d d' : PyDict Str (HV X), (∀ k, PyDict.get? d k = PyDict.get? d' k) → hmf d = hmf d'

/-- A dictionary that holds nothing but the four keywords. -/
def OnlyFixed (d : PyDict Str (HV X)) : Prop := ∀ k, PyDict.get? d k ≠ none → k ∈ ["Mmin".toList, "Mmax".toList, "dlog10m".toList, "z".toList]

theorem fixed_some (a b c z : ℝ) (k : Str) : k ∈ ["Mmin".toList, "Mmax".toList, "dlog10m".toList, "z".toList] ↔ (fixedKw a b c z k : Option (HV X)) ≠ none := by
  simp only [List.mem_cons, List.not_mem_nil, or_false]
  unfold fixedKw
  generalize "Mmin".toList = k1
  generalize "Mmax".toList = k2
  generalize "dlog10m".toList = k3
  generalize "z".toList = k4
  by_cases h1 : k = k1
  · rw [if_pos h1]; simp [h1]
  · rw [if_neg h1]
    by_cases h2 : k = k2
    · rw [if_pos h2]; simp [h2]
    · rw [if_neg h2]
      by_cases h3 : k = k3
      · rw [if_pos h3]; simp [h3]
      · rw [if_neg h3]
        by_cases h4 : k = k4
        · rw [if_pos h4]; simp [h4]
        · rw [if_neg h4]; simp [h1, h2, h3, h4]

/-- C114: the defect is harmless for the default value of `impl_kw`, which is one dictionary shared by all calls: after any history of calls (of any objects, with the
default or with other dictionaries) a call that does not pass `impl_kw` gives what it would give with an empty dictionary. -/
theorem C114_shared_default (hs : SeesValues hmf) (D : Nat → PyDict Str (HV X)) (h0 : D 0 = []) (history : List (Halo Y × MassCall)) (T : Halo Y)
    (lgMin lgMax dlg z : ℝ) (massDef : Str) :
    (T.massFunction hmf lgMin lgMax dlg z massDef (history.foldl (fun D c => massStep hmf c.1 D c.2) D 0)).1 =
    (T.massFunction hmf lgMin lgMax dlg z massDef []).1 := by
  have inv : ∀ (hist : List (Halo Y × MassCall)) (D : Nat → PyDict Str (HV X)), PyDict.WF (D 0) ∧ OnlyFixed (D 0) →
      PyDict.WF (hist.foldl (fun D c => massStep hmf c.1 D c.2) D 0) ∧ OnlyFixed (hist.foldl (fun D c => massStep hmf c.1 D c.2) D 0) := by
    intro hist
    induction hist with
    | nil => intro D h; exact h
    | cons c hist ih =>
        intro D h
        refine ih _ ?_
        show PyDict.WF (massStep hmf c.1 D c.2 0) ∧ OnlyFixed (massStep hmf c.1 D c.2 0)
        unfold massStep
        by_cases hr : 0 = c.2.ref
        · rw [if_pos hr, ← hr]
          by_cases hd : ∃ d, MassDef c.2.massDef d
          · obtain ⟨d, hd⟩ := hd
            generalize c.2.massDef = md at hd
            cases hd with
            | crit => rw [(C114_mutation hmf _ _ _ _ _ _).1]; exact h
            | mean => rw [(C114_mutation hmf _ _ _ _ _ _).2.1]; exact h
            | custom =>
                have e : (c.1.massFunction hmf c.2.lgMin c.2.lgMax c.2.dlg c.2.z "custom".toList (D 0)).2 = PyDict.update (D 0) (massArgs c.2.lgMin c.2.lgMax c.2.dlg c.2.z) := by
                  rw [Halo.massFunction, if_neg (by decide), if_neg (by decide), if_pos rfl]
                constructor
                · rw [e]; exact PyDict.WF_update _ _ h.1
                · intro k hk
                  rw [(C114_mutation hmf _ _ _ _ _ _).2.2 k] at hk
                  by_cases hf : (fixedKw c.2.lgMin c.2.lgMax c.2.dlg c.2.z k : Option (HV X)) = none
                  · rw [hf, Option.none_or] at hk
                    exact h.2 k hk
                  · exact (fixed_some _ _ _ _ k).2 hf
          · rw [C114_unknown hmf _ _ _ _ _ _ hd]; exact h
        · rw [if_neg hr]; exact h
  obtain ⟨hw, ho⟩ := inv history D (by rw [h0]; exact ⟨PyDict.WF_nil, fun k hk => absurd rfl hk⟩)
  generalize history.foldl (fun D c => massStep hmf c.1 D c.2) D 0 = kw at hw ho
  by_cases hd : ∃ d, MassDef massDef d
  · obtain ⟨d, hd⟩ := hd
    obtain ⟨s1, g1, ok1, er1⟩ := C114_sent hmf T lgMin lgMax dlg z massDef d hd kw hw
    obtain ⟨s2, g2, ok2, er2⟩ := C114_sent hmf T lgMin lgMax dlg z massDef d hd [] PyDict.WF_nil
    have hsame : hmf s1 = hmf s2 := by
      apply hs
      intro k
      rw [g1, g2]
      by_cases hf : (fixedKw lgMin lgMax dlg z k : Option (HV X)) = none
      · have hk : PyDict.get? kw k = none := by
          by_contra hn
          exact (fixed_some lgMin lgMax dlg z k).1 (ho k hn) hf
        rw [hk]; rfl
      · cases hfk : (fixedKw lgMin lgMax dlg z k : Option (HV X)) with
        | none => exact absurd hfk hf
        | some v => rfl
    cases hres : hmf s1 with
    | ok r => rw [ok1 r.1 r.2 hres, ok2 r.1 r.2 (hsame ▸ hres)]
    | error e => rw [er1 e hres, er2 e (hsame ▸ hres)]
  · rw [C114_unknown hmf _ _ _ _ _ _ hd, C114_unknown hmf _ _ _ _ _ _ hd]

/-- C114 (recorded defect): the cosmology of the model is not used: any two models give the same mass function for the same arguments. -/
theorem C114_cosmology_ignored (m m' : Model Y) (lgMin lgMax dlg z : ℝ) (massDef : Str) (kw : PyDict Str (HV X)) :
    m.haloTheory.massFunction hmf lgMin lgMax dlg z massDef kw = m'.haloTheory.massFunction hmf lgMin lgMax dlg z massDef kw := rfl

/-- `np.arange(a, b, s)` -/
noncomputable def npArange (a b s : ℝ) : List ℝ := (List.range ⌈(b - a) / s⌉.toNat).map (fun i : Nat => a + i * s)

/-- Specification of the package: the masses are 10 ** np.arange(Mmin, Mmax, dlog10m), with one value for each. -/
def OnGrid : Prop := ∀ d m dn a b s, PyDict.get? d "Mmin".toList = some (.num a) → PyDict.get? d "Mmax".toList = some (.num b) →
  PyDict.get? d "dlog10m".toList = some (.num s) → hmf d = .ok (m, dn) → m = (npArange a b s).map (fun x => (10 : ℝ) ^ x) ∧ dn.length = m.length

/-- C114: the masses returned are lgM_min, lgM_min + dlgM, ... up to lgM_max inclusive (with a tolerance of a thousandth of a step), whatever is in `impl_kw`; if
the range is a whole number of steps, the last one is lgM_max. -/
theorem C114_grid (hg : OnGrid hmf) (T : Halo Y) (lgMin lgMax dlg z : ℝ) (hpos : 0 < dlg) (massDef : Str) (kw : PyDict Str (HV X)) (hw : PyDict.WF kw) (r : HMF)
    (h : (T.massFunction hmf lgMin lgMax dlg z massDef kw).1 = .ok r) :
    (∀ i : Nat, i < r.lgM.length ↔ lgMin + i * dlg < lgMax + dlg / 1000) ∧ (∀ (i : Nat) (hi : i < r.lgM.length), r.lgM[i] = lgMin + i * dlg) ∧
    r.dn.length = r.lgM.length ∧ (∀ n : Nat, lgMax = lgMin + n * dlg → r.lgM.length = n + 1) := by
  by_cases hd : ∃ d, MassDef massDef d
  swap
  · rw [C114_unknown hmf _ _ _ _ _ _ hd] at h; cases h
  obtain ⟨d, hd⟩ := hd
  obtain ⟨s, g, ok, er⟩ := C114_sent hmf T lgMin lgMax dlg z massDef d hd kw hw
  cases hres : hmf s with
  | error e => rw [er e hres] at h; cases h
  | ok p =>
      obtain ⟨m, dn⟩ := p
      rw [ok m dn hres] at h
      cases h
      have f1 : fixedKw lgMin lgMax dlg z "Mmin".toList = some (HV.num (lgMin + 10) : HV X) := by unfold fixedKw; rw [if_pos rfl]
      have f2 : fixedKw lgMin lgMax dlg z "Mmax".toList = some (HV.num (lgMax + 10 + dlg / 1000) : HV X) := by
        unfold fixedKw; rw [if_neg (by decide), if_pos rfl]
      have f3 : fixedKw lgMin lgMax dlg z "dlog10m".toList = some (HV.num dlg : HV X) := by
        unfold fixedKw; rw [if_neg (by decide), if_neg (by decide), if_pos rfl]
      obtain ⟨hm, hl⟩ := hg s m dn (lgMin + 10) (lgMax + 10 + dlg / 1000) dlg (by rw [g, f1]; rfl) (by rw [g, f2]; rfl) (by rw [g, f3]; rfl) hres
      have hlen : ((m.map (fun x => Real.logb 10 x - 10)).length : Nat) = ⌈(lgMax + 10 + dlg / 1000 - (lgMin + 10)) / dlg⌉.toNat := by
        rw [hm]; simp [npArange]
      have hlt : ∀ i : Nat, i < (m.map (fun x => Real.logb 10 x - 10)).length ↔ lgMin + i * dlg < lgMax + dlg / 1000 := by
        intro i
        rw [hlen, Int.lt_toNat, Int.lt_ceil, lt_div_iff₀ hpos]
        push_cast
        constructor <;> intro h <;> linarith
      refine ⟨hlt, ?_, by simpa using hl, ?_⟩
      · intro i hi
        simp only [hm, npArange, List.getElem_map, List.getElem_range]
        rw [Real.logb_rpow (by norm_num) (by norm_num)]
        ring
      · intro n hn
        have a1 := (hlt n).2 (by rw [hn]; linarith)
        have a2 : ¬ (n + 1 < (m.map (fun x => Real.logb 10 x - 10)).length) := by
          rw [hlt, hn]
          push_cast
          rw [not_lt]
          nlinarith
        exact Nat.le_antisymm (Nat.not_lt.1 a2) a1

/-- A package as specified exists, and is called with success. -/
example : ∃ hmf : PyDict Str (HV X) → PyM (List ℝ × List ℝ), SeesValues hmf ∧ OnGrid hmf ∧
    ∀ (T : Halo Y), ∃ r, (T.massFunction hmf 0 5 1 0 "200crit".toList []).1 = .ok r := by
  refine ⟨fun d => match PyDict.get? d "Mmin".toList, PyDict.get? d "Mmax".toList, PyDict.get? d "dlog10m".toList with
    | some (.num a), some (.num b), some (.num s) => .ok ((npArange a b s).map (fun x => (10 : ℝ) ^ x), (npArange a b s).map (fun _ => 0))
    | _, _, _ => .error .valueError, ?_, ?_, ?_⟩
  · intro d d' h
    simp only [h]
  · intro d m dn a b s h1 h2 h3 h4
    simp only [h1, h2, h3] at h4
    cases h4
    exact ⟨rfl, by simp⟩
  · intro T
    exact ⟨_, rfl⟩

/-! ### C115 -/

/-- The tables of a data file: the five datasets at their places. -/
structure Holds (f : DataFile) (t : Tables) : Prop where
  groups : ∃ g s, PyDict.get? f "LgDeltaC".toList = some g ∧ PyDict.get? f "LgSigma".toList = some s ∧
    PyDict.get? g "z".toList = some t.z ∧ PyDict.get? g "lg_delta_c".toList = some t.lgDeltaC ∧
    PyDict.get? s "lg_m".toList = some t.lgM ∧ PyDict.get? s "lg_sigma".toList = some t.lgSigma ∧ PyDict.get? s "dlg_sigma_dlg_m".toList = some t.dSigma

/-- Tables that can be interpolated. -/
def Usable (t : Tables) : Prop := t.lgM.length = t.lgSigma.length ∧ t.lgM.length = t.dSigma.length ∧ t.z.length = t.lgDeltaC.length ∧
  2 ≤ t.lgM.length ∧ 2 ≤ t.z.length ∧ t.lgM.Nodup ∧ t.z.Nodup

theorem itemOf_cases {B : Type} (d : PyDict Str B) (k : Str) : (∃ v, PyDict.get? d k = some v ∧ itemOf d k = .ok v) ∨ (PyDict.get? d k = none ∧ itemOf d k = .error .keyError) := by
  unfold itemOf
  cases PyDict.get? d k with
  | none => exact Or.inr ⟨rfl, rfl⟩
  | some v => exact Or.inl ⟨v, rfl, rfl⟩

theorem readTables_cases (f : DataFile) : (∃ t, Holds f t ∧ readTables (some f) = .ok t) ∨ ((¬ ∃ t, Holds f t) ∧ readTables (some f) = .error .keyError) := by
  simp only [readTables, bind, Except.bind, pure, Except.pure]
  rcases itemOf_cases f "LgDeltaC".toList with ⟨g, hg, eg⟩ | ⟨hg, eg⟩ <;> rw [eg]
  swap
  · refine Or.inr ⟨?_, rfl⟩
    rintro ⟨t, ⟨g', s', h, -⟩⟩; rw [hg] at h; cases h
  simp only
  rcases itemOf_cases g "z".toList with ⟨z, hz, ez⟩ | ⟨hz, ez⟩ <;> rw [ez]
  swap
  · refine Or.inr ⟨?_, rfl⟩
    rintro ⟨t, ⟨g', s', h, -, h2, -⟩⟩; rw [hg] at h; cases h; rw [hz] at h2; cases h2
  simp only
  rcases itemOf_cases g "lg_delta_c".toList with ⟨dc, hdc, edc⟩ | ⟨hdc, edc⟩ <;> rw [edc]
  swap
  · refine Or.inr ⟨?_, rfl⟩
    rintro ⟨t, ⟨g', s', h, -, -, h2, -⟩⟩; rw [hg] at h; cases h; rw [hdc] at h2; cases h2
  simp only
  rcases itemOf_cases f "LgSigma".toList with ⟨s, hs, es⟩ | ⟨hs, es⟩ <;> rw [es]
  swap
  · refine Or.inr ⟨?_, rfl⟩
    rintro ⟨t, ⟨g', s', -, h, -⟩⟩; rw [hs] at h; cases h
  simp only
  rcases itemOf_cases s "lg_m".toList with ⟨lm, hlm, elm⟩ | ⟨hlm, elm⟩ <;> rw [elm]
  swap
  · refine Or.inr ⟨?_, rfl⟩
    rintro ⟨t, ⟨g', s', -, h, -, -, h2, -⟩⟩; rw [hs] at h; cases h; rw [hlm] at h2; cases h2
  simp only
  rcases itemOf_cases s "lg_sigma".toList with ⟨ls, hls, els⟩ | ⟨hls, els⟩ <;> rw [els]
  swap
  · refine Or.inr ⟨?_, rfl⟩
    rintro ⟨t, ⟨g', s', -, h, -, -, -, h2, -⟩⟩; rw [hs] at h; cases h; rw [hls] at h2; cases h2
  simp only
  rcases itemOf_cases s "dlg_sigma_dlg_m".toList with ⟨ds, hds, eds⟩ | ⟨hds, eds⟩ <;> rw [eds]
  swap
  · refine Or.inr ⟨?_, rfl⟩
    rintro ⟨t, ⟨g', s', -, h, -, -, -, -, h2⟩⟩; rw [hs] at h; cases h; rw [hds] at h2; cases h2
  exact Or.inl ⟨⟨z, dc, lm, ls, ds⟩, ⟨⟨g, s, hg, hs, hz, hdc, hlm, hls, hds⟩⟩, rfl⟩

theorem Holds.unique {f : DataFile} {t t' : Tables} (h : Holds f t) (h' : Holds f t') : t = t' := by
  obtain ⟨g, s, hg, hs, a1, a2, a3, a4, a5⟩ := h.groups
  obtain ⟨g', s', hg', hs', b1, b2, b3, b4, b5⟩ := h'.groups
  rw [hg] at hg'; cases hg'
  rw [hs] at hs'; cases hs'
  rw [a1] at b1; rw [a2] at b2; rw [a3] at b3; rw [a4] at b4; rw [a5] at b5
  cases t; cases t'
  simp only [Option.some.injEq] at b1 b2 b3 b4 b5
  simp only [Tables.mk.injEq]
  exact ⟨b1, b2, b3, b4, b5⟩

theorem loadTables_eq (f : Option DataFile) : loadTables f = match readTables f with
    | .error e => .error e
    | .ok t => by classical exact if Usable t then .ok t else .error .valueError := by
  classical
  unfold loadTables
  simp only [bind, Except.bind, pure, Except.pure]
  cases readTables f with
  | error e => rfl
  | ok t =>
      simp only [checkInterp]
      by_cases hu : Usable t
      · obtain ⟨a, b, c, d, e, n1, n2⟩ := hu
        rw [if_pos ⟨a, d, n1⟩, if_pos ⟨b, d, n1⟩, if_pos ⟨c, e, n2⟩]
        exact (if_pos ⟨a, b, c, d, e, n1, n2⟩).symm
      · refine Eq.trans ?_ (if_neg hu).symm
        by_cases h1 : t.lgM.length = t.lgSigma.length ∧ 2 ≤ t.lgM.length ∧ t.lgM.Nodup
        · rw [if_pos h1]
          by_cases h2 : t.lgM.length = t.dSigma.length ∧ 2 ≤ t.lgM.length ∧ t.lgM.Nodup
          · rw [if_pos h2]
            by_cases h3 : t.z.length = t.lgDeltaC.length ∧ 2 ≤ t.z.length ∧ t.z.Nodup
            · exact absurd ⟨h1.1, h2.1, h3.1, h1.2.1, h3.2.1, h1.2.2, h3.2.2⟩ hu
            · rw [if_neg h3]
          · rw [if_neg h2]
        · rw [if_neg h1]

/-- C115: reading the data file: it must exist, hold the five datasets (KeyError) and these must be usable tables: equal lengths, at least two points, no point
twice (ValueError). -/
theorem C115_load (fs : Str → Option DataFile) (T : Halo Y) (hc : T.cached = none) (q : Tab) (v : ℝ) :
    (fs T.dataFile = none → (T.eval fs q v).1 = .error .fileNotFoundError) ∧
    (∀ f, fs T.dataFile = some f → (¬ ∃ t, Holds f t) → (T.eval fs q v).1 = .error .keyError) ∧
    (∀ f t, fs T.dataFile = some f → Holds f t → ¬ Usable t → (T.eval fs q v).1 = .error .valueError) ∧
    (∀ f t, fs T.dataFile = some f → Holds f t → Usable t → (T.eval fs q v).1 = interp1d (t.xy q).1 (t.xy q).2 v) := by
  have key : ∀ r, loadTables (fs T.dataFile) = r → (T.eval fs q v).1 = match r with | .ok t => interp1d (t.xy q).1 (t.xy q).2 v | .error e => .error e := by
    intro r hr
    simp only [Halo.eval, Halo.interp, hc, hr]
    cases r <;> rfl
  refine ⟨?_, ?_, ?_, ?_⟩
  · intro h
    exact key (.error .fileNotFoundError) (by rw [loadTables_eq, h]; rfl)
  · intro f h hn
    rcases readTables_cases f with ⟨t, ht, -⟩ | ⟨-, e⟩
    · exact absurd ⟨t, ht⟩ hn
    · exact key (.error .keyError) (by rw [loadTables_eq, h, e])
  · intro f t h ht hu
    rcases readTables_cases f with ⟨t', ht', e⟩ | ⟨hn, -⟩
    · have := ht.unique ht'; subst this
      exact key (.error .valueError) (by rw [loadTables_eq, h, e]; exact if_neg hu)
    · exact absurd ⟨t, ht⟩ hn
  · intro f t h ht hu
    rcases readTables_cases f with ⟨t', ht', e⟩ | ⟨hn, -⟩
    · have := ht.unique ht'; subst this
      exact key (.ok t) (by rw [loadTables_eq, h, e]; exact if_pos hu)
    · exact absurd ⟨t, ht⟩ hn

/-- C115: the file is read once: after the first evaluation that finds usable tables, every later evaluation of any of the three functions uses these tables, whatever
happens to the file.  A failing attempt leaves no trace. -/
theorem C115_frozen (fs : Str → Option DataFile) (T : Halo Y) (hc : T.cached = none) (q : Tab) (v : ℝ) :
    (∀ t, loadTables (fs T.dataFile) = .ok t → ∀ (history : List ((Str → Option DataFile) × Tab × ℝ)) (fs' : Str → Option DataFile) (q' : Tab) (v' : ℝ),
      ((history.foldl (fun T c => (T.eval c.1 c.2.1 c.2.2).2) (T.eval fs q v).2).eval fs' q' v').1 = interp1d (t.xy q').1 (t.xy q').2 v') ∧
    (∀ e, loadTables (fs T.dataFile) = .error e → (T.eval fs q v) = (.error e, T)) := by
  constructor
  · intro t ht history fs' q' v'
    have h1 : (T.eval fs q v).2.cached = some t := by simp only [Halo.eval, Halo.interp, hc, ht]
    have step : ∀ (U : Halo Y) (g : Str → Option DataFile) (a : Tab) (b : ℝ), U.cached = some t → (U.eval g a b) = (interp1d (t.xy a).1 (t.xy a).2 b, U) := by
      intro U g a b hU
      simp only [Halo.eval, Halo.interp, hU]
    have inv : ∀ (history : List ((Str → Option DataFile) × Tab × ℝ)) (U : Halo Y), U.cached = some t →
        (history.foldl (fun T c => (T.eval c.1 c.2.1 c.2.2).2) U).cached = some t := by
      intro history
      induction history with
      | nil => intro U hU; exact hU
      | cons c hist ih =>
          intro U hU
          refine ih _ ?_
          show (U.eval c.1 c.2.1 c.2.2).2.cached = some t
          rw [step U _ _ _ hU]; exact hU
    rw [step _ _ _ _ (inv history _ h1)]
  · intro e he
    simp only [Halo.eval, Halo.interp, hc, he]

theorem nodes_facts (x y : List ℝ) (hl : x.length = y.length) (hn : x.Nodup) :
    ((interp1dNodes x y).map Prod.fst).Pairwise (· < ·) ∧ (interp1dNodes x y).Perm (x.zip y) ∧
    (∀ v, interp1d x y v = interp1d ((interp1dNodes x y).map Prod.fst) ((interp1dNodes x y).map Prod.snd) v) := by
  classical
  have hp : (interp1dNodes x y).Perm (x.zip y) := List.perm_insertionSort _ _
  have hz : (x.zip y).map Prod.fst = x := List.map_fst_zip (le_of_eq hl)
  have hnd : ((interp1dNodes x y).map Prod.fst).Nodup := by
    rw [(hp.map Prod.fst).nodup_iff, hz]; exact hn
  have hle : (interp1dNodes x y).Pairwise (fun a b => a.1 ≤ b.1) := by
    haveI : Std.Total (fun a b : ℝ × ℝ => a.1 ≤ b.1) := ⟨fun a b => le_total a.1 b.1⟩
    haveI : IsTrans (ℝ × ℝ) (fun a b => a.1 ≤ b.1) := ⟨fun a b c h1 h2 => le_trans h1 h2⟩
    exact List.pairwise_insertionSort _ _
  have hs : ((interp1dNodes x y).map Prod.fst).Pairwise (· < ·) := by
    have h1 : ((interp1dNodes x y).map Prod.fst).Pairwise (· ≤ ·) := List.pairwise_map.2 hle
    exact (h1.and hnd).imp (fun h => lt_of_le_of_ne h.1 h.2)
  refine ⟨hs, hp, ?_⟩
  intro v
  have hzz : ((interp1dNodes x y).map Prod.fst).zip ((interp1dNodes x y).map Prod.snd) = interp1dNodes x y := by
    generalize interp1dNodes x y = l
    induction l with
    | nil => rfl
    | cons a l ih => rw [List.map_cons, List.map_cons, List.zip_cons_cons, ih]
  have hn2 : interp1dNodes ((interp1dNodes x y).map Prod.fst) ((interp1dNodes x y).map Prod.snd) = interp1dNodes x y := by
    rw [interp1dNodes, hzz]
    exact List.Pairwise.insertionSort_eq hle
  conv_rhs => rw [interp1d, hn2]
  rw [interp1d]

/-- C115: the tabulated functions are piecewise linear interpolations: exact at the tabulated points, on the chord between two neighbouring points, ValueError outside
the tabulated range (no extrapolation); the order of the points in the file does not matter. -/
theorem C115_values (x y : List ℝ) (hl : x.length = y.length) (hn : x.Nodup) (hx : x ≠ []) :
    (∀ a b, (a, b) ∈ x.zip y → interp1d x y a = .ok b) ∧
    (∀ a b c d v, (a, b) ∈ x.zip y → (c, d) ∈ x.zip y → a < c → (∀ p ∈ x, ¬ (a < p ∧ p < c)) → a ≤ v → v ≤ c →
      interp1d x y v = .ok (b + (d - b) * (v - a) / (c - a))) ∧
    (∀ v, (∀ p ∈ x, v < p) ∨ (∀ p ∈ x, p < v) → interp1d x y v = .error .valueError) := by
  obtain ⟨hs, hp, he⟩ := nodes_facts x y hl hn
  have hz : (x.zip y).map Prod.fst = x := List.map_fst_zip (le_of_eq hl)
  generalize hns : interp1dNodes x y = ns at hs hp he
  have hne : ns.map Prod.fst ≠ [] := by
    intro h
    have := (hp.map Prod.fst).length_eq
    rw [hz, h] at this
    exact hx (List.length_eq_zero_iff.1 this.symm)
  have hmem : ∀ p, p ∈ x ↔ p ∈ ns.map Prod.fst := by
    intro p
    rw [(hp.map Prod.fst).mem_iff, hz]
  have hval : ∀ v, (∃ p ∈ x, p ≤ v) → (∃ p ∈ x, v ≤ p) → interp1d x y v = Interpolate.Linear.valueAt ⟨ns.map Prod.fst, ns.map Prod.snd⟩ v := by
    intro v h1 h2
    rw [he, interp1d_sorted _ _ (by simp) hs hne, if_neg]
    rintro (hv | hv)
    · obtain ⟨p, hp1, hp2⟩ := h1
      obtain ⟨i, hi, rfl⟩ := List.getElem_of_mem ((hmem p).1 hp1)
      have : (ns.map Prod.fst).head hne ≤ (ns.map Prod.fst)[i] := by
        rw [← List.getElem_zero_eq_head (List.length_pos_iff.mpr hne)]
        rcases Nat.eq_zero_or_pos i with rfl | h0
        · exact le_refl _
        · exact le_of_lt (List.pairwise_iff_getElem.mp hs 0 i _ hi h0)
      linarith
    · obtain ⟨p, hp1, hp2⟩ := h2
      obtain ⟨i, hi, rfl⟩ := List.getElem_of_mem ((hmem p).1 hp1)
      have : (ns.map Prod.fst)[i] ≤ (ns.map Prod.fst).getLast hne := by
        rw [List.getLast_eq_getElem]
        rcases Nat.lt_or_ge i ((ns.map Prod.fst).length - 1) with h0 | h0
        · exact le_of_lt (List.pairwise_iff_getElem.mp hs i _ hi (by omega) h0)
        · have : i = (ns.map Prod.fst).length - 1 := by omega
          subst this; exact le_refl _
      linarith
  have hidx : ∀ a b, (a, b) ∈ x.zip y → ∃ i, ∃ hi : i < ns.length, ns[i] = (a, b) := by
    intro a b h
    obtain ⟨i, hi, e⟩ := List.getElem_of_mem (hp.mem_iff.2 h)
    exact ⟨i, hi, e⟩
  have hmx : ∀ a b, (a, b) ∈ x.zip y → a ∈ x := fun a b h => (List.of_mem_zip h).1
  refine ⟨?_, ?_, ?_⟩
  · intro a b h
    obtain ⟨i, hi, e⟩ := hidx a b h
    rw [hval a ⟨a, hmx _ _ h, le_refl _⟩ ⟨a, hmx _ _ h, le_refl _⟩]
    have := Interpolate.C59_at_node ⟨ns.map Prod.fst, ns.map Prod.snd⟩ hs (by simp) i (by simpa using hi)
    simpa [e] using this
  · intro a b c d v h1 h2 hac hno hv1 hv2
    obtain ⟨i, hi, ei⟩ := hidx a b h1
    obtain ⟨j, hj, ej⟩ := hidx c d h2
    have hlt := fun (m n : Nat) (hm : m < ns.length) (hn : n < ns.length) (hmn : m < n) =>
      List.pairwise_iff_getElem.mp hs m n (by simpa using hm) (by simpa using hn) hmn
    simp only [List.getElem_map] at hlt
    have hij : i < j := by
      rcases Nat.lt_trichotomy i j with h | h | h
      · exact h
      · subst h; rw [ei] at ej; simp only [Prod.mk.injEq] at ej; linarith [ej.1]
      · have := hlt j i hj hi h
        rw [ei, ej] at this
        linarith
    have hj' : j = i + 1 := by
      by_contra hne'
      have hi1 : i + 1 < ns.length := by omega
      have l1 := hlt i (i + 1) hi hi1 (Nat.lt_succ_self i)
      have l2 := hlt (i + 1) j hi1 hj (by omega)
      rw [ei] at l1; rw [ej] at l2
      refine hno _ ((hmem _).2 (List.mem_map.2 ⟨_, List.getElem_mem hi1, rfl⟩)) ⟨l1, l2⟩
    subst hj'
    rw [hval v ⟨a, hmx _ _ h1, hv1⟩ ⟨c, hmx _ _ h2, hv2⟩]
    have := Interpolate.C59_inside ⟨ns.map Prod.fst, ns.map Prod.snd⟩ hs (by simp) i (by simpa using hj) v (by simpa [ei] using hv1) (by simpa [ej] using hv2)
    simpa [ei, ej] using this
  · intro v h
    rw [he, interp1d_sorted _ _ (by simp) hs hne, if_pos]
    rcases h with h | h
    · exact Or.inl (h _ ((hmem _).2 (List.head_mem hne)))
    · exact Or.inr (h _ ((hmem _).2 (List.getLast_mem hne)))

/-- C115: which table is which: `lg_sigma` and `dlg_sigma_dlg_m` take the value in the file's dataset of that name at the position of the argument in 'lg_m',
`lg_delta_c` that of 'lg_delta_c' at the position of the argument in 'z'. -/
theorem C115_tables (fs : Str → Option DataFile) (T : Halo Y) (hc : T.cached = none) (f : DataFile) (t : Tables) (hf : fs T.dataFile = some f)
    (ht : Holds f t) (hu : Usable t) :
    (∀ a b, (a, b) ∈ t.lgM.zip t.lgSigma → (T.eval fs .lgSigma a).1 = .ok b) ∧
    (∀ a b, (a, b) ∈ t.lgM.zip t.dSigma → (T.eval fs .dSigma a).1 = .ok b) ∧
    (∀ a b, (a, b) ∈ t.z.zip t.lgDeltaC → (T.eval fs .lgDeltaC a).1 = .ok b) := by
  obtain ⟨a, b, c, d, e, n1, n2⟩ := id hu
  have k1 : t.lgM ≠ [] := by intro h; rw [h] at d; simp at d
  have k2 : t.z ≠ [] := by intro h; rw [h] at e; simp at e
  refine ⟨fun x y h => ?_, fun x y h => ?_, fun x y h => ?_⟩
  · rw [(C115_load fs T hc .lgSigma x).2.2.2 f t hf ht hu]
    exact (C115_values _ _ a n1 k1).1 x y h
  · rw [(C115_load fs T hc .dSigma x).2.2.2 f t hf ht hu]
    exact (C115_values _ _ b n1 k1).1 x y h
  · rw [(C115_load fs T hc .lgDeltaC x).2.2.2 f t hf ht hu]
    exact (C115_values _ _ c n2 k2).1 x y h

/-- C115 (recorded): the tables belong to the data directory, not to the parameters: two models with the same directory have the same functions.  Of the shipped
models, '_737' uses the directory of 'tng', and 'elucid_wmap9', 'millennium' and 'millennium_wmap7' that of 'elucid'. -/
theorem C115_shared (m m' : Model Y) (h : m.dataDir = m'.dataDir) (fs : Str → Option DataFile) (q : Tab) (v : ℝ) :
    (m.haloTheory.eval fs q v).1 = (m'.haloTheory.eval fs q v).1 := by
  unfold Model.haloTheory
  rw [h]
  simp only [Halo.eval, Halo.interp, Halo.new]
  cases loadTables (fs (joinPath m'.dataDir "data.hdf5".toList)) <;> rfl

theorem diffs_sum (x : List ℝ) (hx : x ≠ []) : (diffs x).sum = x.getLast hx - x.head hx ∧ (diffs x).length = x.length - 1 := by
  constructor
  · induction x with
    | nil => exact absurd rfl hx
    | cons a x ih =>
        cases x with
        | nil => simp [diffs]
        | cons b x =>
            have := ih (by simp)
            have e : diffs (a :: b :: x) = (b - a) :: diffs (b :: x) := rfl
            rw [e, List.sum_cons, this]
            simp
  · unfold diffs
    rw [List.length_zipWith, List.length_tail]
    omega

/-- C115: the range and the step in the representation: first and last entry, and their distance over the number of steps (not the actual step if the table is not
equidistant). -/
theorem C115_info (x : List ℝ) (hx : 2 ≤ x.length) : ∃ hne : x ≠ [],
    quantityInfo x = .ok (x.head hne, x.getLast hne, (x.getLast hne - x.head hne) / ((x.length : ℝ) - 1)) := by
  have hne : x ≠ [] := by rintro rfl; simp at hx
  refine ⟨hne, ?_⟩
  obtain ⟨h1, h2⟩ := diffs_sum x hne
  have g0 : pyGet x 0 = .ok (x.head hne) := by
    have := pyGet_ofNat x 0 (by omega)
    rw [List.getElem_zero_eq_head] at this
    exact this
  have g1 : pyGet x (-1) = .ok (x.getLast hne) := by
    unfold pyGet
    rw [if_neg (by norm_num), if_pos (by omega)]
    have e : ((-1 : Int) + x.length).toNat = x.length - 1 := by omega
    rw [e, List.getElem?_eq_getElem (by omega), List.getLast_eq_getElem]
  simp only [quantityInfo, g0, g1, bind, Except.bind, pure, Except.pure, h1, h2]
  rw [Nat.cast_sub (by omega)]
  norm_num

/-- C115: the representation of an object with usable tables exists, names the data file and has the entries of the five quantities and of the three functions; because of
the latter `to_json` is a TypeError. -/
theorem C115_repr (fs : Str → Option DataFile) (T : Halo Y) (t : Tables) (h : (T.interp fs).1 = .ok t) (hu : Usable t) :
    ∃ r es, (T.simpleRepr fs).1 = .ok r ∧ r = .dict [("data_file".toList, .str (T.interp fs).2.dataFile), ("__interp".toList, .dict es)] ∧
      PyDict.keys es = (["z", "lg_delta_c", "lg_m", "lg_sigma", "dlg_sigma_dlg_m", "f_lg_sigma_at_lg_m", "f_dlg_sigma_dlg_m_at_lg_m", "f_lg_delta_c_at_z"].map String.toList) ∧
      (∀ name x i, (name, x) ∈ [("z".toList, t.z), ("lg_delta_c".toList, t.lgDeltaC), ("lg_m".toList, t.lgM), ("lg_sigma".toList, t.lgSigma), ("dlg_sigma_dlg_m".toList, t.dSigma)] →
        quantityInfo x = .ok i → PyDict.get? es name = some (.dict [("range".toList, .tuple [.leaf (.num i.1), .leaf (.num i.2.1)]), ("step".toList, .leaf (.num i.2.2))])) ∧
      (∀ name ∈ ["f_lg_sigma_at_lg_m".toList, "f_dlg_sigma_dlg_m_at_lg_m".toList, "f_lg_delta_c_at_z".toList], PyDict.get? es name = some (.leaf .func)) ∧
      Repr.dumps TV.jsonOk r = .error .typeError := by
  obtain ⟨a, b, c, d, e, n1, n2⟩ := hu
  obtain ⟨_, i1⟩ := C115_info t.z e
  obtain ⟨_, i2⟩ := C115_info t.lgDeltaC (by omega)
  obtain ⟨_, i3⟩ := C115_info t.lgM d
  obtain ⟨_, i4⟩ := C115_info t.lgSigma (by omega)
  obtain ⟨_, i5⟩ := C115_info t.dSigma (by omega)
  generalize hi : T.interp fs = p at h
  obtain ⟨p1, p2⟩ := p
  simp only at h
  subst h
  simp only [Halo.simpleRepr, hi, i1, i2, i3, i4, i5, bind, Except.bind, pure, Except.pure]
  refine ⟨_, _, rfl, rfl, rfl, ?_, ?_, ?_⟩
  · intro name x i hm hii
    simp only [List.mem_cons, Prod.mk.injEq, List.not_mem_nil, or_false] at hm
    rcases hm with ⟨rfl, rfl⟩ | ⟨rfl, rfl⟩ | ⟨rfl, rfl⟩ | ⟨rfl, rfl⟩ | ⟨rfl, rfl⟩
    · rw [i1] at hii; cases hii; rfl
    · rw [i2] at hii; cases hii; rfl
    · rw [i3] at hii; cases hii; rfl
    · rw [i4] at hii; cases hii; rfl
    · rw [i5] at hii; cases hii; rfl
  · intro name hm
    simp only [List.mem_cons, List.not_mem_nil, or_false] at hm
    rcases hm with rfl | rfl | rfl <;> rfl
  · rfl

/-- Example: a usable file. -/
example : ∃ (f : DataFile) (t : Tables), Holds f t ∧ Usable t := by
  refine ⟨[("LgDeltaC".toList, [("z".toList, [0, 1]), ("lg_delta_c".toList, [0.2, 0.4])]),
    ("LgSigma".toList, [("lg_m".toList, [0, 1, 2]), ("lg_sigma".toList, [3, 2, 1]), ("dlg_sigma_dlg_m".toList, [-1, -1, -1])])], ⟨[0, 1], [0.2, 0.4], [0, 1, 2], [3, 2, 1], [-1, -1, -1]⟩,
    ⟨⟨_, _, rfl, rfl, rfl, rfl, rfl, rfl, rfl⟩⟩, ?_⟩
  refine ⟨rfl, rfl, rfl, by simp, by simp, ?_, ?_⟩
  · norm_num
  · norm_num

end Pyhipp.LCDM
