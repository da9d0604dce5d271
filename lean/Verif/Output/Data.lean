import Verif.Output.DataModel

/-!
# Data kept for output (C105)
-/

namespace Plato.Output

open Plato.Mech Plato.Thermal

/-! ## Specification: values in place of references -/

/-- The rows of `view` put at the cells of a domain; the other rows are those of the old entry, or
zero. -/
noncomputable def placed (nelems : Nat) (cells : List Nat) (view : V2 ℝ) (old : Option (V2 ℝ)) : V2 ℝ :=
  ⟨nelems, view.d1, fun g i => if g ∈ cells then view.e (cells.idxOf g) i
    else (old.map fun o => o.e g i).getD 0⟩

/-- Output data as values: what is there now, and what was there when a state was saved. -/
structure Values where
  cur : String → Option (V2 ℝ)
  saved : List (String → Option (V2 ℝ))

/-- Meaning of an operation. -/
noncomputable def Values.step (h : Values) : Op → Values
  | .domain name nelems cells _ view =>
    { h with cur := upd h.cur name (placed nelems cells view (h.cur name)) }
  | .plain name view => { h with cur := upd h.cur name view }
  | .save => { h with saved := h.saved ++ [h.cur] }
  | .clear => { h with saved := [] }

/-- Meaning of a history. -/
noncomputable def Values.after (h : Values) (ops : List Op) : Values := ops.foldl Values.step h

/-- Two entries with the same extents and content. -/
def Same (a b : Option (V2 ℝ)) : Prop :=
  match a, b with
  | none, none => True
  | some v, some w => v.d0 = w.d0 ∧ v.d1 = w.d1 ∧ ∀ g i, g < v.d0 → i < v.d1 → v.e g i = w.e g i
  | _, _ => False

theorem Same.refl (a : Option (V2 ℝ)) : Same a a := by
  cases a
  · trivial
  · exact ⟨rfl, rfl, fun _ _ _ _ => rfl⟩

theorem Same.trans {a b c : Option (V2 ℝ)} (h : Same a b) (h' : Same b c) : Same a c := by
  cases a <;> cases b <;> cases c <;> simp only [Same] at h h' ⊢
  obtain ⟨h0, h1, h2⟩ := h
  obtain ⟨g0, g1, g2⟩ := h'
  exact ⟨h0.trans g0, h1.trans g1, fun g i hg hi => (h2 g i hg hi).trans (g2 g i (by omega) (by omega))⟩

/-- Operations that fit a mesh with `N` cells: a name is always used in the same way (`dom`), with
the same number of components (`wid`), and the cells of a domain are different cells of the mesh. -/
def OpOk (N : Nat) (dom : String → Prop) (wid : String → Nat) : Op → Prop
  | .domain name nelems cells order view => dom name ∧ nelems = N ∧ IsSchedule order cells.length ∧
    cells.Nodup ∧ (∀ g ∈ cells, g < N) ∧ cells.length ≤ view.d0 ∧ view.d1 = wid name
  | .plain name _ => ¬ dom name
  | .save => True
  | .clear => True

theorem upd_self {α : Type} (m : String → Option α) (n : String) (a : α) : upd m n a n = some a :=
  if_pos rfl

theorem upd_ne {α : Type} (m : String → Option α) {n n' : String} (h : n' ≠ n) (a : α) :
    upd m n a n' = m n' := if_neg h

/-- The references of a `Data` and the values of a history. -/
structure Rep (N : Nat) (dom : String → Prop) (wid : String → Nat) (s : Data) (h : Values) : Prop where
  own : ∃ o : Nat → String, ∀ n a, (s.cur n = some a ∨ ∃ m ∈ s.saved, m n = some a) →
    a < s.heap.length ∧ o a = n
  cur : ∀ n, Same (read s s.cur n) (h.cur n)
  shape : ∀ n v, dom n → read s s.cur n = some v → v.d0 = N ∧ v.d1 = wid n
  len : s.saved.length = h.saved.length
  alias' : ∀ n, dom n → ∀ m ∈ s.saved, ∀ a, m n = some a → s.cur n = some a
  plain : ∀ n, ¬ dom n → ∀ k (hk : k < s.saved.length) (hk' : k < h.saved.length),
    Same (read s s.saved[k] n) (h.saved[k] n)
  pres : ∀ n k (hk : k < s.saved.length) (hk' : k < h.saved.length),
    h.saved[k] n ≠ none → s.saved[k] n ≠ none

theorem read_append {s : Data} {m : Refs} {n : String} (v : V2 ℝ) (c : Refs)
    (hlt : ∀ a, m n = some a → a < s.heap.length) :
    read { s with heap := s.heap ++ [v], cur := c } m n = read s m n := by
  unfold read
  cases hm : m n with
  | none => rfl
  | some a =>
    have := hlt a hm
    simp [List.getElem?_append_left this]

theorem read_set {s : Data} {m : Refs} {n : String} {b : Nat} (v : V2 ℝ)
    (hne : ∀ a, m n = some a → a ≠ b) :
    read { s with heap := s.heap.set b v } m n = read s m n := by
  unfold read
  cases hm : m n with
  | none => rfl
  | some a =>
    have := hne a hm
    simp [List.getElem?_set, Ne.symm this]

theorem mem_cells {cells : List Nat} {c : Nat} (hc : c < cells.length) : atN cells c ∈ cells := by
  unfold atN at0
  rw [List.getElem?_eq_getElem hc]
  exact List.getElem_mem hc

theorem atN_idxOf {cells : List Nat} {g : Nat} (hg : g ∈ cells) : atN cells (cells.idxOf g) = g := by
  unfold atN at0
  rw [List.getElem?_eq_getElem (List.idxOf_lt_length_iff.2 hg)]
  exact List.getElem_idxOf _

/-- What `toMap` makes of an entry. -/
theorem toMap_placed {N : Nat} {cells order : List Nat} {view : V2 ℝ} {entry old : Option (V2 ℝ)}
    (hs : IsSchedule order cells.length) (hnd : cells.Nodup) (hlt : ∀ g ∈ cells, g < N)
    (hin : cells.length ≤ view.d0) (he : ∀ v, entry = some v → v.d0 = N ∧ v.d1 = view.d1)
    (ho : Same entry old) :
    (Dyn.toMap N cells order view entry).Sat fun d => d.d0 = N ∧ d.d1 = view.d1 ∧
      Same (some d) (some (placed N cells view old)) := by
  refine (Dyn.toMap_ok hs hnd hlt hin he).mono ?_
  rintro d ⟨h0, h1, h2, h3⟩
  refine ⟨h0, h1, h0, h1, fun g i hg hi => ?_⟩
  unfold placed
  dsimp only
  by_cases hgc : g ∈ cells
  · rw [if_pos hgc]
    have := h2 (cells.idxOf g) i (List.idxOf_lt_length_iff.2 hgc) (by omega)
    rwa [atN_idxOf hgc] at this
  · rw [if_neg hgc, h3 g i hgc]
    cases entry with
    | none =>
      cases old with
      | none => rfl
      | some o => exact absurd ho (by simp [Same])
    | some v =>
      cases old with
      | none => exact absurd ho (by simp [Same])
      | some o =>
        obtain ⟨e0, e1⟩ := he v rfl
        exact ho.2.2 g i (by omega) (by omega)

section Step

variable {N : Nat} {dom : String → Prop} {wid : String → Nat} {s : Data} {h : Values}

/-- A new entry at the end of the memory. -/
theorem Rep.append (hr : Rep N dom wid s h) {name : String} {v w : V2 ℝ}
    (hnew : dom name → s.cur name = none) (hv : Same (some v) (some w))
    (hsh : dom name → v.d0 = N ∧ v.d1 = wid name) :
    Rep N dom wid { s with heap := s.heap ++ [v], cur := upd s.cur name s.heap.length }
      { h with cur := upd h.cur name w } := by
  obtain ⟨o, ho⟩ := hr.own
  have hrd : ∀ n, read { s with heap := s.heap ++ [v], cur := upd s.cur name s.heap.length }
      (upd s.cur name s.heap.length) n = if n = name then some v else read s s.cur n := by
    intro n
    by_cases hn : n = name
    · subst hn
      rw [if_pos rfl]
      simp [read, upd_self]
    · rw [if_neg hn]
      have := read_append (s := s) (m := s.cur) (n := n) v (upd s.cur name s.heap.length)
        fun a ha => (ho n a (Or.inl ha)).1
      rw [← this]
      unfold read
      rw [upd_ne _ hn]
  refine ⟨⟨fun a => if a = s.heap.length then name else o a, ?_⟩, ?_, ?_, hr.len, ?_, ?_, hr.pres⟩
  · intro n a ha
    dsimp only at ha ⊢
    rw [List.length_append, List.length_singleton]
    by_cases hn : n = name
    · subst hn
      rcases ha with ha | ⟨m, hm, ha⟩
      · rw [upd_self] at ha
        cases ha
        exact ⟨by omega, if_pos rfl⟩
      · obtain ⟨h1, h2⟩ := ho n a (Or.inr ⟨m, hm, ha⟩)
        exact ⟨by omega, by rw [if_neg (by omega), h2]⟩
    · rw [upd_ne _ hn] at ha
      obtain ⟨h1, h2⟩ := ho n a ha
      exact ⟨by omega, by rw [if_neg (by omega), h2]⟩
  · intro n
    dsimp only
    rw [hrd n]
    by_cases hn : n = name
    · subst hn
      rw [if_pos rfl, upd_self]
      exact hv
    · rw [if_neg hn, upd_ne _ hn]
      exact hr.cur n
  · intro n u hd hu
    rw [hrd n] at hu
    by_cases hn : n = name
    · subst hn
      rw [if_pos rfl] at hu
      cases hu
      exact hsh hd
    · rw [if_neg hn] at hu
      exact hr.shape n u hd hu
  · intro n hd m hm a ha
    have := hr.alias' n hd m hm a ha
    dsimp only
    by_cases hn : n = name
    · subst hn
      rw [hnew hd] at this
      cases this
    · rw [upd_ne _ hn]
      exact this
  · intro n hd k hk hk'
    dsimp only at hk hk' ⊢
    rw [read_append v _ fun a ha => (ho n a (Or.inr ⟨_, List.getElem_mem hk, ha⟩)).1]
    exact hr.plain n hd k hk hk'

/-- An entry written in place. -/
theorem Rep.inPlace (hr : Rep N dom wid s h) {name : String} {a : Nat} {v w : V2 ℝ}
    (hd : dom name) (ha : s.cur name = some a) (hv : Same (some v) (some w))
    (hsh : v.d0 = N ∧ v.d1 = wid name) :
    Rep N dom wid { s with heap := s.heap.set a v } { h with cur := upd h.cur name w } := by
  obtain ⟨o, ho⟩ := hr.own
  obtain ⟨hlt, hoa⟩ := ho name a (Or.inl ha)
  have hne : ∀ n, n ≠ name → ∀ b, (s.cur n = some b ∨ ∃ m ∈ s.saved, m n = some b) → b ≠ a := by
    rintro n hn b hb rfl
    exact hn ((ho n b hb).2.symm.trans hoa)
  have hrd : ∀ n, read { s with heap := s.heap.set a v } s.cur n
      = if n = name then some v else read s s.cur n := by
    intro n
    by_cases hn : n = name
    · subst hn
      rw [if_pos rfl]
      simp [read, ha, hlt]
    · rw [if_neg hn]
      exact read_set v fun b hb => hne n hn b (Or.inl hb)
  refine ⟨⟨o, fun n b hb => ?_⟩, fun n => ?_, fun n u hdn hu => ?_, hr.len, hr.alias', ?_, hr.pres⟩
  · dsimp only
    rw [List.length_set]
    exact ho n b hb
  · dsimp only
    rw [hrd n]
    by_cases hn : n = name
    · subst hn
      rw [if_pos rfl, upd_self]
      exact hv
    · rw [if_neg hn, upd_ne _ hn]
      exact hr.cur n
  · rw [hrd n] at hu
    by_cases hn : n = name
    · subst hn
      rw [if_pos rfl] at hu
      cases hu
      exact hsh
    · rw [if_neg hn] at hu
      exact hr.shape n u hdn hu
  · intro n hdn k hk hk'
    have hn : n ≠ name := fun e => hdn (e ▸ hd)
    dsimp only at hk hk' ⊢
    rw [read_set v fun b hb => hne n hn b (Or.inr ⟨_, List.getElem_mem hk, hb⟩)]
    exact hr.plain n hdn k hk hk'

theorem Rep.exec (hr : Rep N dom wid s h) {op : Op} (hop : OpOk N dom wid op) :
    (Output.exec op s).Sat fun s' => Rep N dom wid s' (h.step op) := by
  cases op with
  | domain name nelems cells order view =>
    obtain ⟨hd, rfl, hs, hnd, hlt, hin, hw⟩ := hop
    have hc := hr.cur name
    change (putDomain name nelems cells order view s).Sat _
    unfold putDomain
    cases ha : s.cur name with
    | none =>
      have hrd : read s s.cur name = none := by simp [read, ha]
      rw [hrd] at hc
      dsimp only
      refine (toMap_placed hs hnd hlt hin (fun v e => by cases e) hc).bind ?_
      rintro d ⟨h0, h1, hsame⟩
      rw [Res.sat_pure]
      exact hr.append (fun _ => ha) hsame fun _ => ⟨h0, h1.trans hw⟩
    | some a =>
      obtain ⟨o, ho⟩ := hr.own
      have hlta := (ho name a (Or.inl ha)).1
      have hrd : read s s.cur name = some s.heap[a] := by simp [read, ha, hlta]
      have hsh := hr.shape name _ hd hrd
      rw [hrd] at hc
      dsimp only
      rw [rd_eq hlta, Res.ok_bind]
      refine (toMap_placed hs hnd hlt hin (fun v e => by
        cases e
        exact ⟨hsh.1, hsh.2.trans hw.symm⟩) hc).bind ?_
      rintro d ⟨h0, h1, hsame⟩
      rw [wr_eq hlta, Res.ok_bind, Res.sat_pure]
      exact hr.inPlace hd ha hsame ⟨h0, h1.trans hw⟩
  | plain name view =>
    unfold Output.exec
    rw [Res.sat_ok]
    exact hr.append (fun hd => absurd hd hop) (Same.refl _) fun hd => absurd hd hop
  | save =>
    unfold Output.exec save
    rw [Res.sat_ok]
    obtain ⟨o, ho⟩ := hr.own
    refine ⟨⟨o, fun n a ha => ho n a ?_⟩, hr.cur, hr.shape, ?_, ?_, ?_, ?_⟩
    · rcases ha with ha | ⟨m, hm, ha⟩
      · exact Or.inl ha
      · rcases List.mem_append.1 hm with hm | hm
        · exact Or.inr ⟨m, hm, ha⟩
        · rw [List.mem_singleton] at hm
          subst hm
          exact Or.inl ha
    · simp [Values.step, hr.len]
    · intro n hd m hm a ha
      rcases List.mem_append.1 hm with hm | hm
      · exact hr.alias' n hd m hm a ha
      · rw [List.mem_singleton] at hm
        subst hm
        exact ha
    · intro n hd k hk hk'
      dsimp only [Values.step] at hk hk' ⊢
      have hl := hr.len
      by_cases hks : k < s.saved.length
      · rw [List.getElem_append_left hks, List.getElem_append_left (by omega)]
        exact hr.plain n hd k hks (by omega)
      · rw [List.getElem_append_right (by omega), List.getElem_append_right (by omega),
          List.getElem_singleton, List.getElem_singleton]
        exact hr.cur n
    · intro n k hk hk' hne
      dsimp only [Values.step] at hk hk' hne ⊢
      have hl := hr.len
      by_cases hks : k < s.saved.length
      · rw [List.getElem_append_left (by omega)] at hne
        rw [List.getElem_append_left hks]
        exact hr.pres n k hks (by omega) hne
      · rw [List.getElem_append_right (by omega), List.getElem_singleton] at hne
        rw [List.getElem_append_right (by omega), List.getElem_singleton]
        intro hnone
        have hc := hr.cur n
        have : read s s.cur n = none := by simp [read, hnone]
        rw [this] at hc
        cases hv : h.cur n with
        | none => exact hne hv
        | some v => rw [hv] at hc; exact hc
  | clear =>
    unfold Output.exec clear
    rw [Res.sat_ok]
    obtain ⟨o, ho⟩ := hr.own
    refine ⟨⟨o, fun n a ha => ho n a ?_⟩, hr.cur, hr.shape, rfl, ?_, ?_, ?_⟩
    · rcases ha with ha | ⟨m, hm, ha⟩
      · exact Or.inl ha
      · simp at hm
    · intro n hd m hm
      simp at hm
    · intro n hd k hk
      simp at hk
    · intro n k hk
      simp at hk

theorem Rep.run : ∀ {ops : List Op} {s : Data} {h : Values}, Rep N dom wid s h →
    (∀ op ∈ ops, OpOk N dom wid op) →
    (Output.run ops s).Sat fun s' => Rep N dom wid s' (h.after ops)
  | [], _, _, hr, _ => by rw [Output.run, Res.sat_ok]; exact hr
  | op :: ops, s, h, hr, hop => by
    rw [Output.run]
    exact (hr.exec (hop op (by simp))).bind fun s' hr' =>
      Rep.run hr' fun op' h' => hop op' (by simp [h'])

end Step

/-- Data of a new problem. -/
def Data.new : Data := ⟨[], fun _ => none, []⟩

/-- Values of a new problem. -/
def Values.new : Values := ⟨fun _ => none, []⟩

theorem rep_new (N : Nat) (dom : String → Prop) (wid : String → Nat) :
    Rep N dom wid Data.new Values.new where
  own := ⟨fun _ => "", fun n a h => by rcases h with h | ⟨m, hm, -⟩ <;> simp_all [Data.new]⟩
  cur := fun _ => trivial
  shape := fun n v _ h => by simp [read, Data.new] at h
  len := rfl
  alias' := fun _ _ m hm => by simp [Data.new] at hm
  plain := fun _ _ k hk => by simp [Data.new] at hk
  pres := fun _ k hk => by simp [Data.new] at hk

/-- **C105**: after every history the current entries are the ones written last, put together from
the domains. -/
theorem C105_current {N : Nat} {dom : String → Prop} {wid : String → Nat} {ops : List Op}
    (hop : ∀ op ∈ ops, OpOk N dom wid op) :
    (run ops Data.new).Sat fun s => s.saved.length = (Values.new.after ops).saved.length ∧
      ∀ n, Same (read s s.cur n) ((Values.new.after ops).cur n) :=
  ((rep_new N dom wid).run hop).mono fun _ h => ⟨h.len, h.cur⟩

/-- **C105**: entries that are stored as views of their own keep, in every saved state, the content
they had when the state was saved, whatever comes later.  `_partial`: entries stored by domain are
excluded, see `C105_saved_false`. -/
theorem C105_saved_partial {N : Nat} {dom : String → Prop} {wid : String → Nat} {ops : List Op}
    (hop : ∀ op ∈ ops, OpOk N dom wid op) :
    (run ops Data.new).Sat fun s => ∀ n, ¬ dom n → ∀ k (hk : k < (Values.new.after ops).saved.length),
      ∃ m, getState s k = Res.ok m ∧ Same (read s m n) ((Values.new.after ops).saved[k] n) := by
  refine ((rep_new N dom wid).run hop).mono fun s h n hd k hk => ?_
  have hk' : k < s.saved.length := by rw [h.len]; exact hk
  refine ⟨s.saved[k], ?_, h.plain n hd k hk' hk⟩
  unfold getState
  rw [if_neg (by omega), List.getElem?_eq_getElem hk']

/-- Entries stored by domain have, in every saved state that has them, the content that they have
now: saving a state does not keep them. -/
theorem C105_saved_false {N : Nat} {dom : String → Prop} {wid : String → Nat} {ops : List Op}
    (hop : ∀ op ∈ ops, OpOk N dom wid op) :
    (run ops Data.new).Sat fun s => ∀ n, dom n → ∀ k m, k < s.saved.length →
      getState s k = Res.ok m → read s m n ≠ none → read s m n = read s s.cur n := by
  refine ((rep_new N dom wid).run hop).mono fun s h n hd k m hk hm hne => ?_
  unfold getState at hm
  rw [if_neg (by omega), List.getElem?_eq_getElem hk] at hm
  cases hm
  unfold read at hne ⊢
  cases ha : s.saved[k] n with
  | none => rw [ha] at hne; exact absurd rfl hne
  | some a => rw [h.alias' n hd _ (List.getElem_mem hk) a ha]

/-- A request for a state that was not saved is refused. -/
theorem C105_refused (s : Data) (k : Nat) (h0 : s.saved.length ≠ 0) (hk : s.saved.length ≤ k) :
    getState s k = throwErr "Requested a state that doesn't exist" := by
  unfold getState
  rw [if_neg h0, List.getElem?_eq_none hk]

/-! ## The hyperbolic problem -/

theorem after_append (h : Values) (a b : List Op) : h.after (a ++ b) = (h.after a).after b :=
  List.foldl_append

theorem placed_all {N : Nat} (v : V2 ℝ) (old : Option (V2 ℝ)) (hv : v.d0 = N) :
    Same (some (placed N (List.range N) v old)) (some v) := by
  refine ⟨hv.symm, rfl, fun g i hg _ => ?_⟩
  have hg : g < N := hg
  unfold placed
  dsimp only
  rw [if_pos (List.mem_range.2 hg)]
  congr 1
  have := List.nodup_range.idxOf_getElem g (by simpa using hg : g < (List.range N).length)
  simpa using this

/-- In the hyperbolic problem every saved state has the stress of the last step, where the stress of
its own step was to be kept: for all numbers of cells and steps and all stresses. -/
theorem C105_hyperbolic_false {N W : Nat} {order : List Nat} (ho : IsSchedule order N)
    {views : List (V2 ℝ)} {last : V2 ℝ}
    (hv : ∀ v ∈ views ++ [last], v.d0 = N ∧ v.d1 = W) :
    (run (hyperbolicOps N order (views ++ [last])) Data.new).Sat fun s =>
      s.saved.length = views.length + 1 ∧
      ∀ k m, k ≤ views.length → getState s k = Res.ok m → Same (read s m "stress") (some last) := by
  have hop : ∀ op ∈ hyperbolicOps N order (views ++ [last]),
      OpOk N (fun _ => True) (fun _ => W) op := by
    intro op hmem
    unfold hyperbolicOps at hmem
    rcases List.mem_cons.1 hmem with rfl | hmem
    · trivial
    · obtain ⟨v, hvm, hmem⟩ := List.mem_flatMap.1 hmem
      obtain ⟨h0, h1⟩ := hv v hvm
      simp only [List.mem_cons, List.not_mem_nil, or_false] at hmem
      rcases hmem with rfl | rfl
      · exact ⟨trivial, rfl, by rw [List.length_range]; exact ho, List.nodup_range,
          fun g hg => List.mem_range.1 hg, by rw [List.length_range, h0], h1⟩
      · trivial
  -- meaning of the history
  have hfold : ∀ (vs : List (V2 ℝ)) (h : Values), ((h.after (vs.flatMap fun v =>
      [.domain "stress" N (List.range N) order v, .save])).saved.length = h.saved.length + vs.length) ∧
      ∀ m ∈ (h.after (vs.flatMap fun v =>
        [.domain "stress" N (List.range N) order v, .save])).saved, m ∈ h.saved ∨ m "stress" ≠ none := by
    intro vs
    induction vs with
    | nil => intro h; exact ⟨rfl, fun m hm => Or.inl hm⟩
    | cons v vs ih =>
      intro h
      rw [List.flatMap_cons, after_append]
      obtain ⟨i1, i2⟩ := ih (h.after [.domain "stress" N (List.range N) order v, .save])
      refine ⟨?_, fun m hm => ?_⟩
      · rw [i1]
        simp [Values.after, Values.step]
        omega
      · rcases i2 m hm with hm | hm
        · simp only [Values.after, List.foldl_cons, List.foldl_nil, Values.step] at hm
          rcases List.mem_append.1 hm with hm | hm
          · exact Or.inl hm
          · rw [List.mem_singleton] at hm
            subst hm
            exact Or.inr (by rw [upd_self]; simp)
        · exact Or.inr hm
  have hsp : Values.new.after (hyperbolicOps N order (views ++ [last])) =
      ((Values.new.step .clear).after ((views).flatMap fun v =>
        [.domain "stress" N (List.range N) order v, .save])).after
        [.domain "stress" N (List.range N) order last, .save] := by
    rw [← after_append]
    unfold hyperbolicOps
    rw [List.flatMap_append]
    simp [Values.after]
  have hlen : (Values.new.after (hyperbolicOps N order (views ++ [last]))).saved.length
      = views.length + 1 := by
    rw [hsp]
    have := (hfold views (Values.new.step .clear)).1
    simp only [Values.after, List.foldl_cons, List.foldl_nil, Values.step, List.length_append,
      List.length_singleton] at this ⊢
    rw [this]
    simp
  have hcur : Same ((Values.new.after (hyperbolicOps N order (views ++ [last]))).cur "stress")
      (some last) := by
    rw [hsp]
    simp only [Values.after, List.foldl_cons, List.foldl_nil, Values.step, upd_self]
    exact placed_all _ _ (hv last (by simp)).1
  obtain ⟨s, e, h⟩ := (rep_new N (fun _ => True) (fun _ => W)).run hop
  refine ⟨s, e, by rw [h.len, hlen], fun k m hk hm => ?_⟩
  have hks : k < s.saved.length := by rw [h.len, hlen]; omega
  have hkh : k < (Values.new.after (hyperbolicOps N order (views ++ [last]))).saved.length := by
    rw [hlen]; omega
  unfold getState at hm
  rw [if_neg (by omega), List.getElem?_eq_getElem hks] at hm
  cases hm
  have hall : ∀ m ∈ (Values.new.after (hyperbolicOps N order (views ++ [last]))).saved,
      m "stress" ≠ none := by
    intro m hm
    have : Values.new.after (hyperbolicOps N order (views ++ [last])) =
        (Values.new.step .clear).after ((views ++ [last]).flatMap fun v =>
          [.domain "stress" N (List.range N) order v, .save]) := rfl
    rw [this] at hm
    rcases (hfold (views ++ [last]) (Values.new.step .clear)).2 m hm with hm | hm
    · simp [Values.step] at hm
    · exact hm
  have hp := h.pres "stress" k hks hkh (hall _ (List.getElem_mem hkh))
  have hr : read s s.saved[k] "stress" = read s s.cur "stress" := by
    unfold read
    cases ha : s.saved[k] "stress" with
    | none => exact absurd ha hp
    | some a => rw [h.alias' "stress" trivial _ (List.getElem_mem hks) a ha]
  rw [hr]
  have hc := h.cur "stress"
  revert hc hcur
  generalize read s s.cur "stress" = A
  generalize (Values.new.after (hyperbolicOps N order (views ++ [last]))).cur "stress" = B
  intro h1 h2
  exact h2.trans h1

/-- One cell with one component. -/
def cellOf (x : ℝ) : V2 ℝ := ⟨1, 1, fun _ _ => x⟩

/-- Two steps with the stresses 1 and 2: the state saved for the first has the stress 2. -/
example : (run (hyperbolicOps 1 [0] [cellOf 1, cellOf 2]) Data.new).Sat fun s =>
    s.saved.length = 2 ∧ ∀ k m, k ≤ 1 → getState s k = Res.ok m →
      Same (read s m "stress") (some (cellOf 2)) :=
  C105_hyperbolic_false (views := [cellOf 1]) (last := cellOf 2) (IsSchedule.range 1) (W := 1) (by
    intro v hv
    simp only [List.mem_append, List.mem_cons, List.not_mem_nil, or_false] at hv
    rcases hv with rfl | rfl <;> exact ⟨rfl, rfl⟩)

/-- The history of two steps of the thermomechanical problem, with views of their own. -/
def plainEx : List Op := [.clear, .plain "stress" (cellOf 1), .save, .plain "stress" (cellOf 2), .save]

theorem plainEx_ok : ∀ op ∈ plainEx, OpOk 1 (fun _ => False) (fun _ => 1) op := by
  intro op hop
  simp only [plainEx, List.mem_cons, List.not_mem_nil, or_false] at hop
  rcases hop with rfl | rfl | rfl | rfl | rfl <;> first | trivial | exact not_false

/-- There the first saved state keeps the stress 1. -/
example : (run plainEx Data.new).Sat fun s => ∃ m, getState s 0 = Res.ok m ∧
    Same (read s m "stress") (some (cellOf 1)) :=
  (C105_saved_partial plainEx_ok).mono fun s h => by
    have := h "stress" not_false 0 (by simp [plainEx, Values.after, Values.step, Values.new])
    exact this

end Plato.Output
