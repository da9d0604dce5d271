import Verif.App.UnusedModel

/-!
# C37: the report of unused parameters is complete and contains no used parameter
-/

namespace Plato.App
open Plato

/-! ## Specification -/

/-- There is a parameter with this text and flag at this path. -/
inductive LeafAt : List Param → List String → String → Bool → Prop
  | here {es : List Param} {n t : String} {u : Bool} : Param.value n t u ∈ es → LeafAt es [n] t u
  | there {es sub : List Param} {n t : String} {p : List String} {u : Bool} :
      Param.list n sub ∈ es → LeafAt sub p t u → LeafAt es (n :: p) t u

/-- There is a list with these entries at this path. -/
inductive ListAt : List Param → List String → List Param → Prop
  | here {es sub : List Param} {n : String} : Param.list n sub ∈ es → ListAt es [n] sub
  | there {es sub r : List Param} {n : String} {p : List String} :
      Param.list n sub ∈ es → ListAt sub p r → ListAt es (n :: p) r

/-- No parameter in the list is used. -/
def NoneUsed (es : List Param) : Prop := ∀ p t, ¬ LeafAt es p t true

/-- The names of the entries of every list are distinct, as the map behind a list makes them. -/
inductive Distinct : List Param → Prop
  | mk {es : List Param} : (es.map Param.name).Nodup → (∀ n sub, Param.list n sub ∈ es → Distinct sub) → Distinct es

theorem LeafAt.cons {p : Param} {ps : List Param} {q : List String} {t : String} {u : Bool} (h : LeafAt ps q t u) :
    LeafAt (p :: ps) q t u := by
  cases h with
  | here h => exact .here (List.mem_cons_of_mem _ h)
  | there h h' => exact .there (List.mem_cons_of_mem _ h) h'

theorem leafAt_cons_iff {p : Param} {ps : List Param} {q : List String} {t : String} {u : Bool} :
    LeafAt (p :: ps) q t u ↔ LeafAt [p] q t u ∨ LeafAt ps q t u := by
  constructor
  · intro h
    cases h with
    | here h =>
      rcases List.mem_cons.1 h with h | h
      · exact .inl (.here (by simp [h]))
      · exact .inr (.here h)
    | there h h' =>
      rcases List.mem_cons.1 h with h | h
      · exact .inl (.there (by simp [h]) h')
      · exact .inr (.there h h')
  · rintro (h | h)
    · cases h with
      | here h => exact .here (by simp at h; simp [h])
      | there h h' => exact .there (by simp at h; simp [h]) h'
    · exact h.cons

theorem ListAt.cons {p : Param} {ps : List Param} {q : List String} {r : List Param} (h : ListAt ps q r) :
    ListAt (p :: ps) q r := by
  cases h with
  | here h => exact .here (List.mem_cons_of_mem _ h)
  | there h h' => exact .there (List.mem_cons_of_mem _ h) h'

theorem ListAt.single {p : Param} {ps : List Param} {q : List String} {r : List Param} (h : ListAt [p] q r) :
    ListAt (p :: ps) q r := by
  cases h with
  | here h => exact .here (by simp at h; simp [h])
  | there h h' => exact .there (by simp at h; simp [h]) h'

theorem noneUsed_cons {p : Param} {ps : List Param} : NoneUsed (p :: ps) ↔ NoneUsed [p] ∧ NoneUsed ps := by
  constructor
  · intro h
    exact ⟨fun q t hl => h q t (leafAt_cons_iff.2 (.inl hl)), fun q t hl => h q t hl.cons⟩
  · rintro ⟨h1, h2⟩ q t hl
    rcases leafAt_cons_iff.1 hl with h | h
    · exact h1 q t h
    · exact h2 q t h

theorem noneUsed_nil : NoneUsed [] := by
  intro p t h
  cases h with
  | here h => simp at h
  | there h _ => simp at h

theorem noneUsed_list {n : String} {sub : List Param} : NoneUsed [.list n sub] ↔ NoneUsed sub := by
  constructor
  · intro h q t hl
    exact h (n :: q) t (.there (by simp) hl)
  · intro h q t hl
    cases hl with
    | here hl => simp at hl
    | there hl h' =>
      simp at hl
      obtain ⟨rfl, rfl⟩ := hl
      exact h _ _ h'

/-! ## The lines -/

/-- A line reported below `path` is about something unused in `es`. -/
def LineOk (path : List String) (es : List Param) (l : Line) : Prop :=
  (∃ q t, l = .parameter (path ++ q) t ∧ LeafAt es q t false) ∨
  (∃ q sub, l = .block (path ++ q) ∧ ListAt es q sub ∧ NoneUsed sub)

/-- The line speaks for the parameter at `q`. -/
def Covers (path q : List String) (t : String) (l : Line) : Prop :=
  l = .parameter (path ++ q) t ∨ ∃ q', q' <+: q ∧ q' ≠ q ∧ l = .block (path ++ q')

theorem LineOk.cons {path : List String} {p : Param} {ps : List Param} {l : Line} (h : LineOk path ps l) :
    LineOk path (p :: ps) l := by
  rcases h with ⟨q, t, rfl, h⟩ | ⟨q, sub, rfl, h, hn⟩
  · exact .inl ⟨q, t, rfl, h.cons⟩
  · exact .inr ⟨q, sub, rfl, h.cons, hn⟩

theorem LineOk.single {path : List String} {p : Param} {ps : List Param} {l : Line} (h : LineOk path [p] l) :
    LineOk path (p :: ps) l := by
  rcases h with ⟨q, t, rfl, h⟩ | ⟨q, sub, rfl, h, hn⟩
  · exact .inl ⟨q, t, rfl, leafAt_cons_iff.2 (.inl h)⟩
  · exact .inr ⟨q, sub, rfl, h.single, hn⟩

theorem LineOk.sub {path : List String} {n : String} {sub : List Param} {l : Line} (h : LineOk (path ++ [n]) sub l) :
    LineOk path [.list n sub] l := by
  rcases h with ⟨q, t, rfl, h⟩ | ⟨q, r, rfl, h, hn⟩
  · exact .inl ⟨n :: q, t, by simp, .there (by simp) h⟩
  · exact .inr ⟨n :: q, r, by simp, .there (by simp) h, hn⟩

/-- What the loop does: it adds lines to `os` and to `not_used`. -/
def LoopSpec (path : List String) (es : List Param) (s s' : UnusedState) : Prop :=
  ∃ dn dos, s'.2.1 = s.2.1 ++ dn ∧ s'.2.2 = s.2.2 ++ dos ∧ (s'.1 = true ↔ s.1 = true ∧ NoneUsed es) ∧
    (∀ l ∈ dn ++ dos, LineOk path es l) ∧
    (∀ q t, LeafAt es q t false → ∃ l ∈ dn ++ dos, Covers path q t l) ∧
    (NoneUsed es → dos = [])

mutual
theorem loop_spec (path : List String) : ∀ (es : List Param) (s : UnusedState),
    LoopSpec path es s (unusedLoop path es s)
  | [], s => by
    refine ⟨[], [], by simp [unusedLoop], by simp [unusedLoop], ?_, by simp, ?_, fun _ => rfl⟩
    · simp [unusedLoop, noneUsed_nil]
    · intro q t h
      cases h with
      | here h => simp at h
      | there h _ => simp at h
  | p :: ps, s => by
    obtain ⟨n1, o1, a1, b1, c1, d1, e1, f1⟩ := entry_spec path p s
    obtain ⟨n2, o2, a2, b2, c2, d2, e2, f2⟩ := loop_spec path ps (unusedEntry path p s)
    refine ⟨n1 ++ n2, o1 ++ o2, ?_, ?_, ?_, ?_, ?_, ?_⟩
    · rw [unusedLoop, a2, a1, List.append_assoc]
    · rw [unusedLoop, b2, b1, List.append_assoc]
    · rw [unusedLoop, c2, c1, noneUsed_cons (p := p) (ps := ps), and_assoc]
    · intro l hl
      simp only [List.mem_append] at hl d1 d2
      rcases hl with (h | h) | (h | h)
      · exact (d1 l (.inl h)).single
      · exact (d2 l (.inl h)).cons
      · exact (d1 l (.inr h)).single
      · exact (d2 l (.inr h)).cons
    · intro q t h
      rcases leafAt_cons_iff.1 h with h | h
      · obtain ⟨l, hl, hc⟩ := e1 q t h
        refine ⟨l, ?_, hc⟩
        simp only [List.mem_append] at hl ⊢
        rcases hl with h | h <;> simp [h]
      · obtain ⟨l, hl, hc⟩ := e2 q t h
        refine ⟨l, ?_, hc⟩
        simp only [List.mem_append] at hl ⊢
        rcases hl with h | h <;> simp [h]
    · intro h
      obtain ⟨h1, h2⟩ := noneUsed_cons.1 h
      rw [f1 h1, f2 h2, List.append_nil]
theorem entry_spec (path : List String) : ∀ (p : Param) (s : UnusedState),
    LoopSpec path [p] s (unusedEntry path p s)
  | .value n t true, (a, nu, os) => by
    have hu : ¬ NoneUsed [Param.value n t true] := fun h => h [n] t (.here (by simp))
    refine ⟨[], [], by simp [unusedEntry], by simp [unusedEntry], by simp [unusedEntry, hu], by simp, ?_,
      fun _ => rfl⟩
    intro q t' h
    cases h with
    | here h => simp at h
    | there h _ => simp at h
  | .value n t false, (a, nu, os) => by
    have hu : NoneUsed [Param.value n t false] := by
      intro q t' h
      cases h with
      | here h => simp at h
      | there h _ => simp at h
    refine ⟨[.parameter (path ++ [n]) t], [], by simp [unusedEntry], by simp [unusedEntry],
      by simp [unusedEntry, hu], ?_, ?_, fun _ => rfl⟩
    · intro l hl
      simp only [List.append_nil, List.mem_singleton] at hl
      exact .inl ⟨[n], t, hl, .here (by simp)⟩
    · intro q t' h
      cases h with
      | here h =>
        simp at h
        obtain ⟨rfl, rfl⟩ := h
        exact ⟨_, by simp, .inl rfl⟩
      | there h _ => simp at h
  | .list n es, (a, nu, os) => by
    obtain ⟨dn, dos, h1, h2, h3, h4, h5, h6⟩ := loop_spec (path ++ [n]) es (true, [], os)
    simp only [true_and] at h3
    have hleaf : ∀ q t, LeafAt [Param.list n es] q t false → ∃ q', q = n :: q' ∧ LeafAt es q' t false := by
      intro q t h
      cases h with
      | here h => simp at h
      | there h h' =>
        simp at h
        obtain ⟨rfl, rfl⟩ := h
        exact ⟨_, rfl, h'⟩
    by_cases hn : NoneUsed es
    · have hr : (unusedLoop (path ++ [n]) es (true, [], os)).1 = true := h3.2 hn
      refine ⟨[.block (path ++ [n])], [], by simp [unusedEntry, hr], by simp [unusedEntry, hr, h2, h6 hn],
        by simp [unusedEntry, hr, noneUsed_list.2 hn], ?_, ?_, fun _ => rfl⟩
      · intro l hl
        simp only [List.append_nil, List.mem_singleton] at hl
        exact .inr ⟨[n], es, hl, .here (by simp), hn⟩
      · intro q t h
        obtain ⟨q', rfl, h'⟩ := hleaf q t h
        refine ⟨_, by simp, .inr ⟨[n], by simp, ?_, rfl⟩⟩
        cases h' <;> simp
    · have hr : (unusedLoop (path ++ [n]) es (true, [], os)).1 = false := by
        cases hh : (unusedLoop (path ++ [n]) es (true, [], os)).1
        · rfl
        · exact absurd (h3.1 hh) hn
      refine ⟨[], dos ++ dn, by simp [unusedEntry, hr], by simp [unusedEntry, hr, h1, h2],
        by simp [unusedEntry, hr, noneUsed_list, hn], ?_, ?_, fun h => absurd (noneUsed_list.1 h) hn⟩
      · intro l hl
        refine (h4 l ?_).sub
        simp only [List.nil_append, List.mem_append] at hl ⊢
        exact hl.symm
      · intro q t h
        obtain ⟨q', rfl, h'⟩ := hleaf q t h
        obtain ⟨l, hl, hc⟩ := h5 q' t h'
        refine ⟨l, ?_, ?_⟩
        · simp only [List.nil_append, List.mem_append] at hl ⊢
          exact hl.symm
        · rcases hc with rfl | ⟨q'', hp, hne, rfl⟩
          · exact .inl (by simp)
          · exact .inr ⟨n :: q'', by simpa using hp, by simpa using hne, by simp⟩
end

/-! ## C37 -/

/-- **C37** for a problem in which something is used. -/
theorem C37_report {es : List Param} {p : List String} {t : String} (hu : LeafAt es p t true) :
    (∀ q s, LeafAt es q s false → Line.parameter q s ∈ (unused es [] []).2 ∨
      ∃ q', q' <+: q ∧ q' ≠ q ∧ Line.block q' ∈ (unused es [] []).2) ∧
    (∀ q s, Line.parameter q s ∈ (unused es [] []).2 → LeafAt es q s false) ∧
    (∀ q, Line.block q ∈ (unused es [] []).2 → ∃ sub, ListAt es q sub ∧ NoneUsed sub) := by
  obtain ⟨dn, dos, h1, h2, h3, h4, h5, -⟩ := loop_spec [] es (true, [], [])
  have hf : (unusedLoop [] es (true, [], [])).1 = false := by
    cases hh : (unusedLoop [] es (true, [], [])).1
    · rfl
    · exact absurd hu ((h3.1 hh).2 p t)
  have ho : (unused es [] []).2 = dos ++ dn := by simp [unused, hf, h1, h2]
  rw [ho]
  refine ⟨fun q s h => ?_, fun q s h => ?_, fun q h => ?_⟩
  · obtain ⟨l, hl, hc⟩ := h5 q s h
    have hl' : l ∈ dos ++ dn := by simp only [List.mem_append] at hl ⊢; exact hl.symm
    rcases hc with rfl | ⟨q', hp, hne, rfl⟩
    · exact .inl hl'
    · exact .inr ⟨q', hp, hne, hl'⟩
  · rcases h4 _ (by simp only [List.mem_append] at h ⊢; exact h.symm) with ⟨q', s', he, hl⟩ | ⟨q', sub, he, -⟩
    · simp at he
      obtain ⟨rfl, rfl⟩ := he
      exact hl
    · simp at he
  · rcases h4 _ (by simp only [List.mem_append] at h ⊢; exact h.symm) with ⟨q', s', he, hl⟩ | ⟨q', sub, he, hl⟩
    · simp at he
    · simp at he
      subst he
      exact ⟨sub, hl⟩

theorem mem_unique {es : List Param} (hd : (es.map Param.name).Nodup) {a b : Param} (ha : a ∈ es) (hb : b ∈ es)
    (h : a.name = b.name) : a = b := by
  induction es with
  | nil => simp at ha
  | cons p ps ih =>
    rw [List.map_cons, List.nodup_cons] at hd
    rcases List.mem_cons.1 ha with rfl | ha' <;> rcases List.mem_cons.1 hb with rfl | hb'
    · rfl
    · exact absurd (h ▸ List.mem_map_of_mem hb') hd.1
    · exact absurd (h ▸ List.mem_map_of_mem ha') hd.1
    · exact ih hd.2 ha' hb'

/-- With distinct names, what lies below the path of a list lies in the list. -/
theorem leaf_of_prefix {es sub : List Param} {q p : List String} {t : String} {u : Bool} (hd : Distinct es)
    (hl : ListAt es q sub) (hp : LeafAt es p t u) (hq : q <+: p) : ∃ r, LeafAt sub r t u := by
  induction hl generalizing p with
  | here h =>
    obtain ⟨hd1, -⟩ := hd
    cases hp with
    | here h' =>
      have : _ = _ := (List.cons_prefix_cons.1 hq).1
      exact absurd (mem_unique hd1 h h' (by simp [Param.name, this])) (by simp)
    | there h' hr =>
      have : _ = _ := (List.cons_prefix_cons.1 hq).1
      have e := mem_unique hd1 h h' (by simp [Param.name, this])
      simp at e
      exact ⟨_, e.2 ▸ hr⟩
  | there h _ ih =>
    obtain ⟨hd1, hd2⟩ := hd
    cases hp with
    | here h' =>
      have : _ = _ := (List.cons_prefix_cons.1 hq).1
      exact absurd (mem_unique hd1 h h' (by simp [Param.name, this])) (by simp)
    | there h' hr =>
      have hq' := List.cons_prefix_cons.1 hq
      have e := mem_unique hd1 h h' (by simp [Param.name, hq'.1])
      simp at e
      obtain ⟨-, rfl⟩ := e
      exact ih (hd2 _ _ h) hr hq'.2

/-- **C37**: no used parameter is reported, neither itself nor through a block. -/
theorem C37_sound {es : List Param} {p : List String} {t : String} (hd : Distinct es) (hu : LeafAt es p t true) :
    (∀ s, Line.parameter p s ∉ (unused es [] []).2) ∧ ∀ q, q <+: p → Line.block q ∉ (unused es [] []).2 := by
  obtain ⟨-, h2, h3⟩ := C37_report hu
  refine ⟨fun s h => ?_, fun q hq h => ?_⟩
  · have hl := h2 p s h
    have key : ∀ {es : List Param} {p : List String} {t s : String} {u v : Bool}, Distinct es → LeafAt es p t u →
        LeafAt es p s v → u = v := by
      intro es p t s u v hd hu
      induction hu with
      | here h =>
        intro hl
        obtain ⟨hd1, -⟩ := hd
        cases hl with
        | here h' =>
          have := mem_unique hd1 h h' rfl
          simp at this
          exact this.2
        | there h' hr => cases hr
      | there h hr ih =>
        intro hl
        obtain ⟨hd1, hd2⟩ := hd
        cases hl with
        | here h' => cases hr
        | there h' hr' =>
          have e := mem_unique hd1 h h' rfl
          simp at e
          obtain rfl := e
          exact ih (hd2 _ _ h) hr'
    exact absurd (key hd hu hl) (by simp)
  · obtain ⟨sub, hs, hn⟩ := h3 q h
    obtain ⟨r, hr⟩ := leaf_of_prefix hd hs hu hq
    exact hn r t hr

/-- A problem in which nothing is used gives an empty report (`No Unused Parameters`). -/
theorem C37_all_unused {es : List Param} (hn : NoneUsed es) : unused es [] [] = (true, []) := by
  obtain ⟨dn, dos, -, h2, h3, -, -, h6⟩ := loop_spec [] es (true, [], [])
  have : (unusedLoop [] es (true, [], [])).1 = true := h3.2 ⟨rfl, hn⟩
  simp [unused, this, h2, h6 hn]

/-! ## The report at the end of a run -/

theorem setEntry_mem (v : Param) (es : List Param) : v ∈ setEntry v es := by
  induction es with
  | nil => simp [setEntry]
  | cons p ps ih =>
    unfold setEntry
    split
    · simp
    · simp [ih]

theorem setEntry_keep {v : Param} {es : List Param} {a : Param} (ha : a ∈ es) (hn : a.name ≠ v.name) :
    a ∈ setEntry v es := by
  induction es with
  | nil => simp at ha
  | cons p ps ih =>
    unfold setEntry
    rcases List.mem_cons.1 ha with rfl | ha
    · rw [if_neg hn]; simp
    · split
      · simp [ha]
      · simp [ih ha]

theorem setEntry_from {v : Param} {es : List Param} {a : Param} (ha : a ∈ setEntry v es) : a = v ∨ a ∈ es := by
  induction es with
  | nil => simp [setEntry] at ha; exact .inl ha
  | cons p ps ih =>
    unfold setEntry at ha
    split at ha
    · rcases List.mem_cons.1 ha with rfl | ha
      · exact .inl rfl
      · exact .inr (by simp [ha])
    · rcases List.mem_cons.1 ha with rfl | ha
      · exact .inr (by simp)
      · rcases ih ha with h | h
        · exact .inl h
        · exact .inr (by simp [h])

theorem addTimings_spec {time : String} : ∀ {es es' : List Param}, addTimings time es = .ok es' →
    LeafAt es' ["Runtime", "Execution Time in Sec"] time true ∧
    ∀ p t u, LeafAt es p t u → ¬ ["Runtime", "Execution Time in Sec"] <+: p → LeafAt es' p t u
  | [], es', h => by
    simp only [addTimings, Res.ok.injEq] at h
    subst h
    refine ⟨.there (List.mem_singleton.2 rfl) (.here (List.mem_singleton.2 rfl)), fun p t u h => ?_⟩
    cases h with
    | here h => simp at h
    | there h _ => simp at h
  | .value n t u :: ps, es', h => by
    unfold addTimings at h
    split at h
    · simp at h
    · cases hr : addTimings time ps with
      | ok r =>
        rw [hr] at h
        simp only [Res.ok_bind, Res.pure_eq, Res.ok.injEq] at h
        subst h
        obtain ⟨i1, i2⟩ := addTimings_spec hr
        refine ⟨i1.cons, fun p t u hl hp => ?_⟩
        rcases leafAt_cons_iff.1 hl with hl | hl
        · exact leafAt_cons_iff.2 (.inl hl)
        · exact (i2 p t u hl hp).cons
      | err m => rw [hr] at h; simp at h
      | ub => rw [hr] at h; simp at h
  | .list n es :: ps, es', h => by
    unfold addTimings at h
    split at h
    · next hn =>
      subst hn
      simp only [Res.ok.injEq] at h
      subst h
      refine ⟨.there (List.mem_cons_self) (.here (setEntry_mem _ _)), fun p t u hl hp => ?_⟩
      rcases leafAt_cons_iff.1 hl with hl | hl
      · cases hl with
        | here hm => simp at hm
        | there hm hr =>
          obtain ⟨rfl, rfl⟩ := Param.list.inj (List.mem_singleton.1 hm)
          refine .there List.mem_cons_self ?_
          cases hr with
          | here hr =>
            refine .here (setEntry_keep hr fun hc => hp ?_)
            simp only [Param.name] at hc
            subst hc
            exact List.prefix_refl _
          | there hr hr' =>
            refine .there (setEntry_keep hr fun hc => hp ?_) hr'
            simp only [Param.name] at hc
            subst hc
            simp
      · exact hl.cons
    · cases hr : addTimings time ps with
      | ok r =>
        rw [hr] at h
        simp only [Res.ok_bind, Res.pure_eq, Res.ok.injEq] at h
        subst h
        obtain ⟨i1, i2⟩ := addTimings_spec hr
        refine ⟨i1.cons, fun p t u hl hp => ?_⟩
        rcases leafAt_cons_iff.1 hl with hl | hl
        · exact leafAt_cons_iff.2 (.inl hl)
        · exact (i2 p t u hl hp).cons
      | err m => rw [hr] at h; simp at h
      | ub => rw [hr] at h; simp at h

/-- **C37**: the report at the end of a run names every unused parameter of the input, itself or through
an enclosing block, except one at the place where the run stores its own time. -/
theorem C37_echo {time : String} {es es' : List Param} {os : List Line} (h : inputFileEcho time es = .ok (es', os)) :
    (∀ q s, LeafAt es q s false → ¬ ["Runtime", "Execution Time in Sec"] <+: q →
      Line.parameter q s ∈ os ∨ ∃ q', q' <+: q ∧ q' ≠ q ∧ Line.block q' ∈ os) ∧
    (∀ q s, Line.parameter q s ∈ os → LeafAt es' q s false) ∧
    (∀ q, Line.block q ∈ os → ∃ sub, ListAt es' q sub ∧ NoneUsed sub) := by
  unfold inputFileEcho at h
  cases hr : addTimings time es with
  | ok r =>
    rw [hr] at h
    simp only [Res.ok_bind, Res.pure_eq, Res.ok.injEq, Prod.mk.injEq] at h
    obtain ⟨rfl, rfl⟩ := h
    obtain ⟨i1, i2⟩ := addTimings_spec hr
    obtain ⟨j1, j2, j3⟩ := C37_report i1
    exact ⟨fun q s hl hp => j1 q s (i2 q s false hl hp), j2, j3⟩
  | err m => rw [hr] at h; simp at h
  | ub => rw [hr] at h; simp at h

/-- A problem with used and unused parameters and an unused block. -/
def exProblem : List Param :=
  [.value "a" "1" true, .value "b" "2" false, .list "c" [.value "d" "3" false], .list "e" [.value "f" "4" true,
    .value "g" "5" false]]

example : Distinct exProblem ∧ LeafAt exProblem ["a"] "1" true ∧
    (unused exProblem [] []).2 = [.parameter ["e", "g"] "5", .parameter ["b"] "2", .block ["c"]] := by
  refine ⟨.mk (by decide) ?_, .here (by simp [exProblem]), by decide⟩
  intro n sub h
  simp [exProblem] at h
  rcases h with ⟨-, rfl⟩ | ⟨-, rfl⟩
  · exact .mk (by decide) (by simp)
  · exact .mk (by decide) (by simp)

end Plato.App
