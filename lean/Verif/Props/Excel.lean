import Verif.Model.Excel
import Mathlib.Data.List.Basic
import Mathlib.Data.List.Nodup
/-
C86: nested dictionaries and sheet names.
-/
namespace Pyhipp.Excel
open Pyhipp

variable {D : Type}

/-! ### Specification -/

mutual
/-- The tables of a tree with the keys leading to them, in order. -/
def paths : Tree D → List (List Str × D)
  | .df d => [([], d)]
  | .dict es => pathsItems es
/-- The same for the items of a dict. -/
def pathsItems : List (Str × Tree D) → List (List Str × D)
  | [] => []
  | (k, t) :: es => (paths t).map (fun p => (k :: p.1, p.2)) ++ pathsItems es
end

mutual
/-- A tree that can be stored: keys not empty, without a dot, distinct within a dict; no empty dict. -/
def Storable : Tree D → Prop
  | .df _ => True
  | .dict es => es ≠ [] ∧ StorableItems es
/-- The same for the items of a dict. -/
def StorableItems : List (Str × Tree D) → Prop
  | [] => True
  | (k, t) :: es => k ≠ [] ∧ '.' ∉ k ∧ k ∉ es.map (·.1) ∧ Storable t ∧ StorableItems es
end

/-! ### Dumping -/

theorem sheetName_join (pre : List Str) (k : Str) (hp : ∀ x ∈ pre, x ≠ []) : sheetName (Str.join '.' pre) k = Str.join '.' (pre ++ [k]) := by
  cases pre with
  | nil => simp [sheetName, Str.join]
  | cons a t =>
      have hne : ∀ (a : Str) (t : List Str), a ≠ [] → (Str.join '.' (a :: t)).length > 0 := by
        intro a t ha
        cases t with
        | nil => simpa [Str.join, List.length_pos_iff] using ha
        | cons b t => simp [Str.join]; omega
      have hj : ∀ (t : List Str) (a : Str), Str.join '.' (a :: t ++ [k]) = Str.join '.' (a :: t) ++ '.' :: k := by
        intro t
        induction t with
        | nil => intro a; simp [Str.join]
        | cons b t ih => intro a; have := ih b; simp only [List.cons_append] at this ⊢; rw [Str.join, this, Str.join]; simp
      unfold sheetName
      rw [if_pos (hne a t (hp a (by simp))), hj]

/-- The write of one table. -/
def put (accepts : Str → Bool) (w : Book D) (x : List Str × D) : PyM (Book D) := toExcel accepts w (Str.join '.' x.1) x.2

theorem foldlM_append_ok {α β : Type} (f : β → α → PyM β) (l l' : List α) (b : β) :
    (l ++ l').foldlM f b = match l.foldlM f b with
      | .ok b' => l'.foldlM f b'
      | .error e => .error e := by
  rw [List.foldlM_append]; cases l.foldlM f b <;> rfl

mutual
theorem dumpTree_paths (accepts : Str → Bool) (pre : List Str) (hp : ∀ x ∈ pre, x ≠ []) : (t : Tree D) → (w : Book D) → Storable t →
    dumpTree accepts (Str.join '.' pre) t w = ((paths t).map (fun p => (pre ++ p.1, p.2))).foldlM (put accepts) w
  | .df d, w, _ => by rw [dumpTree, paths]; simp [put]; cases toExcel accepts w (Str.join '.' pre) d <;> rfl
  | .dict es, w, h => by rw [dumpTree, paths]; exact dumpItems_paths accepts pre hp es w (by rw [Storable] at h; exact h.2)
theorem dumpItems_paths (accepts : Str → Bool) (pre : List Str) (hp : ∀ x ∈ pre, x ≠ []) : (es : List (Str × Tree D)) → (w : Book D) → StorableItems es →
    dumpItems accepts (Str.join '.' pre) es w = ((pathsItems es).map (fun p => (pre ++ p.1, p.2))).foldlM (put accepts) w
  | [], w, _ => by rw [dumpItems, pathsItems]; rfl
  | (k, t) :: es, w, h => by
      rw [StorableItems] at h
      obtain ⟨h1, -, -, h4, h5⟩ := h
      rw [dumpItems, pathsItems, sheetName_join pre k hp, dumpTree_paths accepts (pre ++ [k]) (by
        intro x hx; rw [List.mem_append, List.mem_singleton] at hx; rcases hx with hx | rfl; exact hp x hx; exact h1) t w h4]
      rw [List.map_append, foldlM_append_ok, List.map_map]
      have e : ((fun p : List Str × D => (pre ++ p.1, p.2)) ∘ fun p : List Str × D => (k :: p.1, p.2)) = fun p => (pre ++ [k] ++ p.1, p.2) := by
        funext p; simp
      rw [e]
      cases (List.map (fun p : List Str × D => (pre ++ [k] ++ p.1, p.2)) (paths t)).foldlM (put accepts) w with
      | error e => rfl
      | ok w' => exact dumpItems_paths accepts pre hp es w' h5
end

theorem join_inj {a b : List Str} (ha : a ≠ []) (hb : b ≠ []) (na : ∀ c ∈ a, '.' ∉ c) (nb : ∀ c ∈ b, '.' ∉ c) (h : Str.join '.' a = Str.join '.' b) : a = b := by
  rw [← Str.split_join '.' a ha na, h, Str.split_join '.' b hb nb]

mutual
theorem paths_dotless : (t : Tree D) → Storable t → ∀ p ∈ paths t, ∀ c ∈ p.1, '.' ∉ c ∧ c ≠ []
  | .df d, _ => by rw [paths]; simp
  | .dict es, h => by rw [paths]; rw [Storable] at h; exact fun p hp => (pathsItems_dotless es h.2 p hp).2
theorem pathsItems_dotless : (es : List (Str × Tree D)) → StorableItems es → ∀ p ∈ pathsItems es, (∃ k ∈ es.map (·.1), p.1.head? = some k) ∧ ∀ c ∈ p.1, '.' ∉ c ∧ c ≠ []
  | [], _ => by rw [pathsItems]; simp
  | (k, t) :: es, h => by
      rw [StorableItems] at h
      obtain ⟨h1, h2, -, h4, h5⟩ := h
      rw [pathsItems]
      intro p hp
      rw [List.mem_append, List.mem_map] at hp
      rcases hp with ⟨q, hq, rfl⟩ | hp
      · refine ⟨⟨k, by simp, rfl⟩, ?_⟩
        intro c hc
        rcases List.mem_cons.mp hc with rfl | hc
        · exact ⟨h2, h1⟩
        · exact paths_dotless t h4 q hq c hc
      · obtain ⟨⟨k', hk', e⟩, hd⟩ := pathsItems_dotless es h5 p hp
        exact ⟨⟨k', by simp [hk'], e⟩, hd⟩
end

mutual
theorem paths_nodup : (t : Tree D) → Storable t → ((paths t).map (·.1)).Nodup
  | .df d, _ => by rw [paths]; simp
  | .dict es, h => by rw [paths]; rw [Storable] at h; exact pathsItems_nodup es h.2
theorem pathsItems_nodup : (es : List (Str × Tree D)) → StorableItems es → ((pathsItems es).map (·.1)).Nodup
  | [], _ => by rw [pathsItems]; simp
  | (k, t) :: es, h => by
      have h' := h
      rw [StorableItems] at h
      obtain ⟨h1, h2, h3, h4, h5⟩ := h
      rw [pathsItems, List.map_append, List.nodup_append]
      refine ⟨?_, pathsItems_nodup es h5, ?_⟩
      · rw [List.map_map]
        have : ((fun x : List Str × D => x.1) ∘ fun p : List Str × D => (k :: p.1, p.2)) = (fun l => k :: l) ∘ (fun x : List Str × D => x.1) := rfl
        rw [this, ← List.map_map]
        exact (paths_nodup t h4).map (fun a b e => (List.cons.inj e).2)
      · intro a ha b hb e
        subst e
        rw [List.mem_map] at ha hb
        obtain ⟨p, hp, rfl⟩ := ha
        obtain ⟨q, hq, hqe⟩ := hb
        rw [List.mem_map] at hp
        obtain ⟨p', _, rfl⟩ := hp
        obtain ⟨⟨k', hk', e⟩, -⟩ := pathsItems_dotless es h5 q hq
        rw [hqe] at e
        simp at e
        subst e
        exact h3 hk'
end

theorem foldlM_put (accepts : Str → Bool) (l : List (List Str × D)) (w : Book D) (hn : (l.map (fun p => Str.join '.' p.1)).Nodup)
    (hw : ∀ p ∈ l, Str.join '.' p.1 ∉ w.keys) (ha : ∀ p ∈ l, accepts (Str.join '.' p.1) = true) :
    l.foldlM (put accepts) w = .ok (w ++ l.map (fun p => (Str.join '.' p.1, p.2))) := by
  induction l generalizing w with
  | nil => simp [pure, Except.pure]
  | cons a t ih =>
      simp only [List.map_cons, List.nodup_cons] at hn
      rw [List.foldlM_cons]
      have : put accepts w a = .ok (w ++ [(Str.join '.' a.1, a.2)]) := by
        simp [put, toExcel, ha a (by simp), PyDict.set_of_not_mem _ _ _ (hw a (by simp))]
      rw [this]
      simp only [bind, Except.bind]
      rw [ih _ hn.2 ?_ (fun p hp => ha p (by simp [hp]))]
      · simp
      · intro p hp
        simp only [PyDict.keys, List.map_append, List.map_cons, List.map_nil, List.mem_append, List.mem_singleton, not_or]
        refine ⟨hw p (by simp [hp]), ?_⟩
        intro e
        exact hn.1 (List.mem_map.mpr ⟨p, hp, e⟩)

/-- C86: dumping writes one sheet per table, named by its keys joined with dots (after the prefix), in order; no two tables share a sheet. -/
theorem C86_sheets (accepts : Str → Bool) (pre : List Str) (hp : ∀ x ∈ pre, x ≠ [] ∧ '.' ∉ x) (es : List (Str × Tree D)) (hne : es ≠ []) (h : StorableItems es)
    (hpath : pathsItems es ≠ []) (ha : ∀ p ∈ pathsItems es, accepts (Str.join '.' (pre ++ p.1)) = true) :
    dumpFile accepts (Str.join '.' pre) (.dict es) = .ok ((pathsItems es).map (fun p => (Str.join '.' (pre ++ p.1), p.2))) ∧
    ((pathsItems es).map (fun p => Str.join '.' (pre ++ p.1))).Nodup := by
  have hn : ((pathsItems es).map (fun p => Str.join '.' (pre ++ p.1))).Nodup := by
    have h0 := pathsItems_nodup es h
    have e : (pathsItems es).map (fun p => Str.join '.' (pre ++ p.1)) = ((pathsItems es).map (·.1)).map (fun l => Str.join '.' (pre ++ l)) := by
      rw [List.map_map]; rfl
    rw [e]
    refine List.Nodup.map_on ?_ h0
    intro a ha b hb hab
    rw [List.mem_map] at ha hb
    obtain ⟨p, hp1, rfl⟩ := ha
    obtain ⟨q, hq1, rfl⟩ := hb
    obtain ⟨⟨k, -, ek⟩, hd⟩ := pathsItems_dotless es h p hp1
    obtain ⟨⟨k', -, ek'⟩, hd'⟩ := pathsItems_dotless es h q hq1
    have := join_inj (a := pre ++ p.1) (b := pre ++ q.1) (by intro e; simp at e; rw [e.2] at ek; simp at ek) (by intro e; simp at e; rw [e.2] at ek'; simp at ek')
      (by intro c hc; rw [List.mem_append] at hc; rcases hc with hc | hc; exact (hp c hc).2; exact (hd c hc).1)
      (by intro c hc; rw [List.mem_append] at hc; rcases hc with hc | hc; exact (hp c hc).2; exact (hd' c hc).1) hab
    exact List.append_cancel_left this
  refine ⟨?_, hn⟩
  have hd : dumpTree accepts (Str.join '.' pre) (.dict es) ([] : Book D) = .ok ((pathsItems es).map (fun p => (Str.join '.' (pre ++ p.1), p.2))) := by
    rw [dumpTree_paths accepts pre (fun x hx => (hp x hx).1) _ _ (by rw [Storable]; exact ⟨hne, h⟩), paths]
    rw [foldlM_put]
    · simp
    · rw [List.map_map]; exact hn
    · simp [PyDict.keys]
    · intro p hp'
      rw [List.mem_map] at hp'
      obtain ⟨q, hq, rfl⟩ := hp'
      exact ha q hq
  unfold dumpFile
  rw [hd]
  cases hc : (pathsItems es).map (fun p => (Str.join '.' (pre ++ p.1), p.2)) with
  | nil => simp at hc; exact absurd hc hpath
  | cons s ss => rfl

/-! ### Loading -/

/-- The insertion of one table at its keys. -/
def ins (setCol : D → Str → D → PyM D) (out : List (Str × Tree D)) (x : List Str × D) : PyM (List (Str × Tree D)) :=
  insertAt setCol x.1.dropLast (x.1.getLast?.getD []) x.2 out

theorem reorder_paths (setCol : D → Str → D → PyM D) (l : List (List Str × D)) (out : List (Str × Tree D)) (h : ∀ p ∈ l, p.1 ≠ [] ∧ ∀ c ∈ p.1, '.' ∉ c) :
    reorder setCol (l.map (fun p => (Str.join '.' p.1, p.2))) out = l.foldlM (ins setCol) out := by
  induction l generalizing out with
  | nil => rfl
  | cons a t ih =>
      obtain ⟨hne, hd⟩ := h a (by simp)
      rw [List.map_cons, List.foldlM_cons, reorder]
      have ih' := fun o => ih o (fun p hp => h p (by simp [hp]))
      by_cases hc : '.' ∉ Str.join '.' a.1
      · rw [if_pos hc]
        have h1 : a.1 = [Str.join '.' a.1] := by
          have := Str.split_join '.' a.1 hne hd
          rw [Str.split_nosep _ _ hc] at this
          exact this.symm
        have : ins setCol out a = .ok (PyDict.set out (Str.join '.' a.1) (.df a.2)) := by
          unfold ins; rw [h1]; simp [insertAt, Str.join]
        rw [this]; exact ih' _
      · rw [if_neg hc]
        simp only [Str.split_join '.' a.1 hne hd]
        unfold ins at ih' ⊢
        cases insertAt setCol a.1.dropLast (a.1.getLast?.getD []) a.2 out with
        | error e => rfl
        | ok o => exact ih' o

theorem dropLast_cons_ne {k : Str} {l : List Str} (h : l ≠ []) : (k :: l).dropLast = k :: l.dropLast := by
  cases l with
  | nil => exact absurd rfl h
  | cons a t => rfl

theorem getLast?_cons_ne {k : Str} {l : List Str} (h : l ≠ []) : (k :: l).getLast? = l.getLast? := by
  cases l with
  | nil => exact absurd rfl h
  | cons a t => rw [List.getLast?_cons_cons]

/-- Inserting below an existing or new dict `k` at the end of the output. -/
theorem ins_below (setCol : D → Str → D → PyM D) (acc : List (Str × Tree D)) (k : Str) (hk : k ∉ acc.map (·.1)) (sub : List (Str × Tree D)) (x : List Str × D) (hx : x.1 ≠ []) :
    ins setCol (acc ++ [(k, .dict sub)]) (k :: x.1, x.2) = (ins setCol sub x).map (fun s => acc ++ [(k, .dict s)]) := by
  have hg : PyDict.get? (acc ++ [(k, Tree.dict sub)]) k = some (.dict sub) := by
    rw [PyDict.get?_append, (PyDict.get?_eq_none_iff acc k).mpr hk]; simp [PyDict.get?]
  have hset : ∀ s : List (Str × Tree D), PyDict.set (acc ++ [(k, Tree.dict sub)]) k (.dict s) = acc ++ [(k, .dict s)] := by
    intro s
    have e : acc ++ [(k, Tree.dict sub)] = PyDict.set acc k (.dict sub) := (PyDict.set_of_not_mem acc k _ hk).symm
    rw [e, PyDict.set_set, PyDict.set_of_not_mem acc k _ hk]
  unfold ins
  rw [dropLast_cons_ne hx, getLast?_cons_ne hx, insertAt, hg]
  dsimp only
  cases insertAt setCol x.1.dropLast (x.1.getLast?.getD []) x.2 sub with
  | error e => rfl
  | ok s => simp [Except.map, hset]

theorem ins_new (setCol : D → Str → D → PyM D) (acc : List (Str × Tree D)) (k : Str) (hk : k ∉ acc.map (·.1)) (x : List Str × D) (hx : x.1 ≠ []) :
    ins setCol acc (k :: x.1, x.2) = ins setCol (acc ++ [(k, .dict [])]) (k :: x.1, x.2) := by
  rw [ins_below setCol acc k hk [] x hx]
  unfold ins
  rw [dropLast_cons_ne hx, getLast?_cons_ne hx, insertAt, (PyDict.get?_eq_none_iff acc k).mpr hk]
  dsimp only
  cases insertAt setCol x.1.dropLast (x.1.getLast?.getD []) x.2 [] with
  | error e => rfl
  | ok s => simp [Except.map, PyDict.set_of_not_mem acc k _ hk]

theorem foldlM_below (setCol : D → Str → D → PyM D) (acc : List (Str × Tree D)) (k : Str) (hk : k ∉ acc.map (·.1)) (l : List (List Str × D)) (hl : ∀ x ∈ l, x.1 ≠ [])
    (sub : List (Str × Tree D)) : (l.map (fun p => (k :: p.1, p.2))).foldlM (ins setCol) (acc ++ [(k, .dict sub)]) =
      (l.foldlM (ins setCol) sub).map (fun s => acc ++ [(k, .dict s)]) := by
  induction l generalizing sub with
  | nil => rfl
  | cons a t ih =>
      rw [List.map_cons, List.foldlM_cons, List.foldlM_cons, ins_below setCol acc k hk sub a (hl a (by simp))]
      cases ins setCol sub a with
      | error e => rfl
      | ok s => exact ih (fun x hx => hl x (by simp [hx])) s

theorem pathsItems_ne (es : List (Str × Tree D)) : ∀ p ∈ pathsItems es, p.1 ≠ [] := by
  induction es with
  | nil => rw [pathsItems]; simp
  | cons a t ih =>
      obtain ⟨k, v⟩ := a
      rw [pathsItems]
      intro p hp
      rw [List.mem_append, List.mem_map] at hp
      rcases hp with ⟨q, _, rfl⟩ | hp
      · simp
      · exact ih p hp

mutual
theorem paths_nonempty : (t : Tree D) → Storable t → paths t ≠ []
  | .df d, _ => by rw [paths]; simp
  | .dict es, h => by rw [paths]; rw [Storable] at h; exact pathsItems_nonempty es h.2 h.1
theorem pathsItems_nonempty : (es : List (Str × Tree D)) → StorableItems es → es ≠ [] → pathsItems es ≠ []
  | [], _, hne => absurd rfl hne
  | (k, t) :: es, h, _ => by
      rw [StorableItems] at h
      rw [pathsItems]
      intro e
      rw [List.append_eq_nil_iff, List.map_eq_nil_iff] at e
      exact paths_nonempty t h.2.2.2.1 e.1
end

mutual
theorem rebuild (setCol : D → Str → D → PyM D) : (t : Tree D) → Storable t → (acc : List (Str × Tree D)) → (k : Str) → k ∉ acc.map (·.1) →
    ((paths t).map (fun p => (k :: p.1, p.2))).foldlM (ins setCol) acc = .ok (acc ++ [(k, t)])
  | .df d, _, acc, k, hk => by
      rw [paths]
      simp [List.foldlM_cons, ins, insertAt, PyDict.set_of_not_mem acc k _ hk, bind, Except.bind, pure, Except.pure]
  | .dict es, h, acc, k, hk => by
      rw [Storable] at h
      have hne := pathsItems_nonempty es h.2 h.1
      have hr := rebuildItems setCol es h.2 [] (by simp)
      rw [paths]
      have hl : ∀ x ∈ pathsItems es, x.1 ≠ [] := pathsItems_ne es
      have hb := foldlM_below setCol acc k hk (pathsItems es) hl []
      rw [hr] at hb
      simp only [List.nil_append, Except.map] at hb
      rw [← hb]
      cases hc : pathsItems es with
      | nil => exact absurd hc hne
      | cons a t =>
          rw [List.map_cons, List.foldlM_cons, List.foldlM_cons, ins_new setCol acc k hk a (hl a (by rw [hc]; simp))]
theorem rebuildItems (setCol : D → Str → D → PyM D) : (es : List (Str × Tree D)) → StorableItems es → (acc : List (Str × Tree D)) →
    (∀ k ∈ es.map (·.1), k ∉ acc.map (·.1)) → (pathsItems es).foldlM (ins setCol) acc = .ok (acc ++ es)
  | [], _, acc, _ => by rw [pathsItems]; simp [pure, Except.pure]
  | (k, t) :: es, h, acc, hk => by
      rw [StorableItems] at h
      obtain ⟨h1, h2, h3, h4, h5⟩ := h
      rw [pathsItems, foldlM_append_ok, rebuild setCol t h4 acc k (hk k (by simp))]
      dsimp only
      rw [rebuildItems setCol es h5 (acc ++ [(k, t)]) (by
        intro k' hk'
        simp only [List.map_append, List.map_cons, List.map_nil, List.mem_append, List.mem_singleton, not_or]
        exact ⟨hk k' (by simp only [List.map_cons, List.mem_cons]; exact Or.inr hk'), fun e => h3 (e ▸ hk')⟩)]
      simp
end

/-- C86: loading what was dumped rebuilds the same nested dictionary, in the same order. -/
theorem C86_roundtrip (accepts : Str → Bool) (setCol : D → Str → D → PyM D) (es : List (Str × Tree D)) (hne : es ≠ []) (h : StorableItems es)
    (ha : ∀ p ∈ pathsItems es, accepts (Str.join '.' p.1) = true) :
    ∃ book, dumpFile accepts [] (.dict es) = .ok book ∧ loadFile setCol book false true = .ok es := by
  obtain ⟨h1, -⟩ := C86_sheets accepts [] (by simp) es hne h (pathsItems_nonempty es h hne) (by simpa using ha)
  refine ⟨_, h1, ?_⟩
  simp only [loadFile, Bool.false_and, Bool.false_eq_true, if_false, if_true, List.nil_append]
  rw [reorder_paths setCol _ _ (fun p hp => ⟨pathsItems_ne es p hp, fun c hc => ((pathsItems_dotless es h p hp).2 c hc).1⟩)]
  rw [rebuildItems setCol es h [] (by simp)]
  rfl

/-- C86: with a sheet prefix, the dictionary is found under the prefix; a single table is found under its sheet name. -/
theorem C86_prefix (accepts : Str → Bool) (setCol : D → Str → D → PyM D) (pre : Str) (hp : pre ≠ [] ∧ '.' ∉ pre) (t : Tree D) (h : Storable t)
    (ha : ∀ p ∈ paths t, accepts (Str.join '.' (pre :: p.1)) = true) :
    ∃ book, dumpFile accepts pre t = .ok book ∧ loadFile setCol book false true = .ok [(pre, t)] := by
  have hs : StorableItems [(pre, t)] := by
    rw [StorableItems]; exact ⟨hp.1, hp.2, by simp, h, by rw [StorableItems]; trivial⟩
  have hpi : pathsItems [(pre, t)] = (paths t).map (fun p => (pre :: p.1, p.2)) := by
    rw [pathsItems, pathsItems]; simp
  obtain ⟨book, h1, h2⟩ := C86_roundtrip accepts setCol [(pre, t)] (by simp) hs (by
    rw [hpi]; intro p hp'; rw [List.mem_map] at hp'; obtain ⟨q, hq, rfl⟩ := hp'; exact ha q hq)
  refine ⟨book, ?_, h2⟩
  have : dumpTree accepts [] (.dict [(pre, t)]) ([] : Book D) = dumpTree accepts pre t [] := by
    rw [dumpTree, dumpItems]
    have e : sheetName [] pre = pre := rfl
    rw [e]
    cases dumpTree accepts pre t ([] : Book D) with
    | error e => rfl
    | ok w => dsimp only; rw [dumpItems]
  unfold dumpFile at h1 ⊢
  rw [this] at h1
  exact h1

/-- C86: without reordering the sheets are returned as they are. -/
theorem C86_flat (setCol : D → Str → D → PyM D) (book : Book D) : loadFile setCol book false false = .ok (book.map (fun kv => (kv.1, .df kv.2))) := rfl

/-- C86 (defect): asking for DataTables always fails. -/
theorem C86_as_datatables (setCol : D → Str → D → PyM D) (book : Book D) (h : book ≠ []) (b : Bool) : loadFile setCol book true b = .error .valueError := by
  cases book with
  | nil => exact absurd rfl h
  | cons a t => rfl

/-- Example: a nested dictionary of three tables meets the hypotheses. -/
example : let es : List (Str × Tree Nat) := [("a".toList, .dict [("x".toList, .df 1), ("y".toList, .dict [("z".toList, .df 2)])]), ("b".toList, .df 3)]
    StorableItems es ∧ dumpFile (fun _ => true) [] (.dict es) = .ok [("a.x".toList, 1), ("a.y.z".toList, 2), ("b".toList, 3)] := by
  refine ⟨?_, by decide⟩
  simp [StorableItems, Storable]

/-! ### Where the round trip fails -/

/-- C86 (limit): an empty sub-dictionary is lost, an entirely empty one cannot be saved. -/
theorem C86_empty_lost (setCol : D → Str → D → PyM D) (d : D) :
    dumpFile (fun _ => true) [] (.dict [(['a'], .df d), (['b'], .dict [])]) = .ok [(['a'], d)] ∧
    loadFile setCol [(['a'], d)] false true = .ok [(['a'], .df d)] ∧
    dumpFile (fun _ => true) [] (.dict [] : Tree D) = .error .indexError := ⟨rfl, rfl, rfl⟩

/-- C86 (limit): a key with a dot can collide with a nested key: only the later table survives. -/
theorem C86_dot_collision (d d' : D) :
    dumpFile (fun _ => true) [] (.dict [(['a', '.', 'b'], .df d), (['a'], .dict [(['b'], .df d')])]) = .ok [(['a', '.', 'b'], d')] := rfl

/-- C86 (limit): an empty key is dropped from the path. -/
theorem C86_empty_key (d : D) : dumpFile (fun _ => true) [] (.dict [([], .dict [(['a'], .df d)])]) = .ok [(['a'], d)] := rfl

/-- C86 (limit): if a sheet 'a' precedes a sheet 'a.b', loading does not build a dictionary: the table 'a.b' is assigned as a column of the table 'a'. -/
theorem C86_sheet_and_sub (setCol : D → Str → D → PyM D) (d d' c : D) (h : setCol d ['b'] d' = .ok c) :
    loadFile setCol [(['a'], d), (['a', '.', 'b'], d')] false true = .ok [(['a'], .df c)] ∧
    loadFile setCol [(['a'], d), (['a', '.', 'b', '.', 'c'], d')] false true = .error .attributeError := by
  constructor
  · simp [loadFile, reorder, PyDict.set, Str.split, insertAt, PyDict.get?, h]
  · simp [loadFile, reorder, PyDict.set, Str.split, insertAt, PyDict.get?]

end Pyhipp.Excel
