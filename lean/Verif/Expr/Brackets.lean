import Verif.Expr.Safe

/-!
# C14: bracket errors are always detected, and the parser stays inside its tree

For every text without an abbreviated `sqrt` and without words of 127 or more characters,
`parse_expression` reads and writes live nodes only, never reaches one of its "Developer error"
exceptions, leaks nothing, and throws whenever a bracket is unmatched.  The two exclusions are
necessary: see `C14_false`, `C14_sqr_ub` and `C14_long_ub`.
-/

namespace Plato.Ee

variable {K : Type}

/-- The whole tree below the root. -/
def plug : List (Frame K) → Tree K → Tree K
  | [], t => t
  | f :: fs, t => plug fs (.node f.it f.left t)

theorem ZAt.toRoot {m : Mem K} {root : Nat} : ∀ {fs : List (Frame K)} {t : Tree K} {cur : Nat},
    ZAt m root fs t cur → ZAt m root [] (plug fs t) root
  | [], t, cur, h => by
    obtain ⟨rfl, _⟩ := h.top
    exact h
  | f :: fs, t, cur, h => by
    obtain ⟨c, par, _, _, _, h'⟩ := h.up
    exact h'.toRoot

/-- The end of `parse_expression` on an intact tree. -/
theorem finish_ok {root : Nat} {st : PState K} {fs : List (Frame K)} {t : Tree K}
    (hz : ZAt st.mem root fs t st.current) (atEnd : Bool) (hb : ¬ (st.bad = true ∧ atEnd = true)) :
    ∃ out ev, finish root st atEnd = .ok (out, ev) ∧
      ((out = .threw ∧ ev.Holds .nil ∧ ev.tree = none ∧
        ((st.bad || !atEnd || !st.parenLocs.isEmpty || !st.barLocs.isEmpty ||
          !st.twoParam.isEmpty) = true ∨ plug fs t = .nil)) ∨
       (out = .returned ∧ ev.Holds (plug fs t) ∧ plug fs t ≠ .nil ∧ st.bad = false ∧
        atEnd = true ∧ st.parenLocs = [] ∧ st.barLocs = [] ∧ st.twoParam = [])) := by
  obtain ⟨hbd, rp, ft, fp, ⟨-, hroot, rfl⟩, ht, hn, hlive⟩ := hz.toRoot
  have hnd := List.nodup_append.mp hn
  have hrft : root ∉ ft := fun hx => hnd.2.2 root hx root (by simp) rfl
  obtain ⟨m1, hm1, hnx1, ht1, hfr1, hlv1⟩ := reparent_refines ht hnd.1 none
  have hroot1 : m1.cell root = some ⟨rootItem, none, rp, none⟩ := by rw [hfr1 root hrft, hroot]
  have hb1 : ∀ a, m1.cell a ≠ none → a < m1.next := fun a ha => by
    rw [hnx1]; exact hbd a ((hlv1 a).mp ha)
  have hlv : ∀ a, m1.cell a ≠ none ↔ a ∈ ft ++ [root] := fun a => (hlv1 a).trans (hlive a)
  have hdepth : (plug fs t).depth < m1.next + 1 := by
    have h1 := ht1.depth_le
    have h2 := nodup_bound hn fun a ha => hb1 a ((hlv a).mpr ha)
    simp at h2
    omega
  simp only [finish, if_neg hb, Mem.ld_some hroot, Res.ok_bind, hm1]
  have hnil := ht.isNil
  generalize hfail : (st.bad || !atEnd || !st.parenLocs.isEmpty || !st.barLocs.isEmpty ||
    !st.twoParam.isEmpty) = failed
  by_cases hcond : (failed || rp.isNone) = true
  · rw [if_pos hcond]
    obtain ⟨m2, hm2, hnx2, hc2⟩ := delete_refines _ ht1 hnd.1 hdepth
    have hroot2 : m2.cell root = some ⟨rootItem, none, rp, none⟩ := by
      rw [hc2, if_neg hrft, hroot1]
    refine ⟨.threw, ⟨m2.upd root none, none⟩, by simp [hm2, Mem.free, Mem.ld_some hroot2], .inl
      ⟨rfl, ⟨?_, [], ⟨rfl, rfl⟩, List.nodup_nil, ?_⟩, rfl, ?_⟩⟩
    · intro a ha
      simp only [Mem.upd] at ha ⊢
      split_ifs at ha with h1
      · simp at ha
      · rw [hc2] at ha
        split_ifs at ha with h2
        · simp at ha
        · rw [hnx2]; exact hb1 a ha
    · intro a
      simp only [Mem.upd, List.not_mem_nil, iff_false, not_not]
      split_ifs with h1
      · rfl
      · rw [hc2]
        split_ifs with h2
        · rfl
        · by_contra hne
          have := (hlv a).mp hne
          simp [h1, h2] at this
    · rcases Bool.or_eq_true_iff.mp hcond with h1 | h1
      · exact .inl h1
      · right
        have h2 : rp = none := by simpa using h1
        rw [h2] at hnil
        cases hp : plug fs t with
        | nil => rfl
        | node it l r => rw [hp] at hnil; simp [Tree.isNil] at hnil
  · rw [if_neg hcond]
    have h1 : failed = false := by
      cases failed with
      | false => rfl
      | true => simp at hcond
    have h2 : rp ≠ none := by
      intro e; simp [e] at hcond
    refine ⟨.returned, ⟨m1.upd root none, rp⟩, by simp [Mem.free, Mem.ld_some hroot1], .inr
      ⟨rfl, ⟨?_, ft, ?_, hnd.1, ?_⟩, ?_, ?_⟩⟩
    · intro a ha
      simp only [Mem.upd] at ha ⊢
      split_ifs at ha with h1
      · simp at ha
      · exact hb1 a ha
    · exact ht1.congr fun a ha => by
        have : a ≠ root := fun e => hrft (e ▸ ha)
        simp [Mem.upd, this]
    · intro a
      simp only [Mem.upd]
      split_ifs with h3
      · simp [h3, hrft]
      · rw [hlv a]; simp [h3]
    · intro e
      rw [e] at hnil
      simp [Tree.isNil] at hnil
      exact h2 hnil
    · rw [h1] at hfail
      simpa [and_assoc] using hfail

/-- The loop on an arbitrary text. -/
theorem loop_ok {root : Nat} (ops : Ops K) (total : Nat) : ∀ (n : Nat) {st : PState K}
    {fs : List (Frame K)} {t : Tree K} {stk : List Br} (text : List Char), Inv root st fs t stk →
    st.bad = false → SqrtSpelled text → ShortWords text → text.length < n →
    ∃ st' rest atEnd, loop ops total n st text = .ok (st', rest, atEnd) ∧ st'.bad = false ∧
      if atEnd = true then ∃ fs' t' stk', Inv root st' fs' t' stk' ∧ brRun stk text = some stk'
      else ∃ fs' t', ZAt st'.mem root fs' t' st'.current
  | 0, st, fs, t, stk, text, h, hb, hq, hw, hn => by omega
  | n + 1, st, fs, t, stk, [], h, hb, hq, hw, hn => ⟨st, [], true, rfl, hb, fs, t, stk, h, rfl⟩
  | n + 1, st, fs, t, stk, c :: cs, h, hb, hq, hw, hn => by
    obtain ⟨tok, w, rest, hs, hsplit, hcons⟩ := scan_spec (by simp) hq hw
    obtain ⟨p, hp, hrest⟩ := step_ok ops h (total - rest.length - 1) hcons
    rw [hsplit] at hq hw
    have hlen : rest.length < n := by
      have h1 : (c :: cs).length = w.length + rest.length := by rw [hsplit]; simp
      have h2 : 0 < w.length := List.length_pos_of_ne_nil hcons.ne
      omega
    simp only [loop, hs, Res.ok_bind, Bool.false_eq_true, if_false, hp]
    cases p with
    | brk st' => exact ⟨st', rest, false, rfl, hrest.1.trans hb, by simpa using hrest.2⟩
    | cont st' =>
      obtain ⟨hbad, fs', t', h', hrun⟩ := hrest
      obtain ⟨st2, rest2, ae, e1, e2, e3⟩ := loop_ok ops total n rest h' (hbad.trans hb) hq.suffix
        hw.suffix hlen
      refine ⟨st2, rest2, ae, e1, e2, ?_⟩
      rw [hsplit, brRun_append, hrun]
      exact e3
    | item st' node info =>
      obtain ⟨st2, go, hpost, hbad, hgo⟩ := hrest
      simp only [hpost, Res.ok_bind]
      cases go with
      | false => exact ⟨st2, rest, false, rfl, hbad.trans hb, by simpa using hgo⟩
      | true =>
        simp only [if_true] at hgo ⊢
        obtain ⟨fs', t', stk', h', hrun⟩ := hgo
        obtain ⟨st3, rest3, ae, e1, e2, e3⟩ := loop_ok ops total n rest h' (hbad.trans hb)
          hq.suffix hw.suffix hlen
        refine ⟨st3, rest3, ae, e1, e2, ?_⟩
        rw [hsplit, brRun_append, hrun]
        exact e3

/-- The state before the loop. -/
theorem init_inv {m : Mem K} (hm : ∀ a, m.cell a = none) :
    Inv (initState m).current (initState m) [] .nil [] := by
  refine ⟨⟨?_, none, [], [m.next], ⟨rfl, by simp [initState, Mem.alloc, rootItem], rfl⟩, ⟨rfl, rfl⟩,
    by simp, ?_⟩, rfl, by simp, rfl, rfl, rfl, rfl, rfl, by simp, by simp [initState], trivial⟩
  · intro a ha
    simp only [initState, Mem.alloc] at ha ⊢
    split_ifs at ha with h1
    · omega
    · exact absurd (hm a) ha
  · intro a
    simp only [initState, Mem.alloc, List.nil_append, List.mem_singleton]
    split_ifs with h1
    · simp [h1]
    · simp [h1, hm]

/-- Deleting the previous expression at the start of `parse_expression`. -/
theorem parse_start {ev : Evaluator K} {t0 : Tree K} (hev : ev.Holds t0) :
    ∃ ev1 : Evaluator K, (∀ a, ev1.mem.cell a = none) ∧ ∀ (ops : Ops K) (text : List Char),
      ev.parse ops text = (do
        let (st, _, atEnd) ← loop ops text.length (text.length + 1) (initState ev1.mem) text
        finish (initState ev1.mem).current st atEnd) := by
  cases htr : ev.tree with
  | none =>
    refine ⟨ev, ?_, fun ops text => by simp [Evaluator.parse, htr]⟩
    obtain ⟨hb, fp, ht, hn, hlive⟩ := hev
    rw [htr] at ht
    have hfp : fp = [] := by
      cases t0 with
      | nil => exact ht.2
      | node it l r => obtain ⟨_, _, _, _, _, h, _⟩ := ht; simp at h
    subst hfp
    intro a
    by_contra hne
    simpa using (hlive a).mp hne
  | some p =>
    obtain ⟨ev1, h1, h2, _⟩ := hev.delete
    refine ⟨ev1, ?_, fun ops text => by simp [Evaluator.parse, htr, h1]⟩
    obtain ⟨hb, fp, ⟨_, rfl⟩, hn, hlive⟩ := h2
    intro a
    by_contra hne
    simpa using (hlive a).mp hne

/-- **C14.**  On every text in which `sqr` only occurs as part of `sqrt` and words are shorter than
127 characters, and for every earlier use of the evaluator: `parse_expression` ends normally or
throws, never touching a null or freed node; afterwards the object owns exactly the nodes of the tree
it holds; after an exception it holds nothing; and it throws whenever the brackets do not match. -/
theorem C14_partial (ops : Ops K) {ev : Evaluator K} {t0 : Tree K} (hev : ev.Holds t0)
    {text : List Char} (hq : SqrtSpelled text) (hw : ShortWords text) :
    ∃ out ev' t, ev.parse ops text = .ok (out, ev') ∧ ev'.Holds t ∧
      (out = .threw → t = .nil) ∧ (out = .returned → t ≠ .nil) ∧
      (¬ Balanced text → out = .threw) := by
  obtain ⟨ev1, hempty, hparse⟩ := parse_start hev
  have hinv := init_inv hempty
  obtain ⟨st, rest, ae, hl, hbad, hres⟩ := loop_ok ops text.length (text.length + 1) text hinv rfl
    hq hw (by omega)
  have hz : ∃ fs t, ZAt st.mem (initState ev1.mem).current fs t st.current ∧
      (ae = true → ∃ stk', Inv (initState ev1.mem).current st fs t stk' ∧
        brRun [] text = some stk') := by
    cases ae with
    | false =>
      obtain ⟨fs, t, h⟩ := by simpa using hres
      exact ⟨fs, t, h, by simp⟩
    | true =>
      obtain ⟨fs, t, stk', h, hrun⟩ := by simpa using hres
      exact ⟨fs, t, h.z, fun _ => ⟨stk', h, hrun⟩⟩
  obtain ⟨fs, t, hz, hend⟩ := hz
  obtain ⟨out, ev', hfin, hcases⟩ := finish_ok hz ae (by simp [hbad])
  rcases hcases with ⟨rfl, h1, _, _⟩ | ⟨rfl, h1, h2, _, hae, hpl, hbl, _⟩
  · exact ⟨.threw, ev', .nil, by rw [hparse, hl]; simpa using hfin, h1, fun _ => rfl, by simp,
      fun _ => rfl⟩
  · refine ⟨.returned, ev', _, by rw [hparse, hl]; simpa using hfin, h1, by simp, fun _ => h2, ?_⟩
    intro hnb
    exfalso
    obtain ⟨stk', hI, hrun⟩ := hend hae
    have e1 := hI.pl
    have e2 := hI.bl
    rw [hpl] at e1
    rw [hbl] at e2
    have hs : stk' = [] := by
      cases stk' with
      | nil => rfl
      | cons b s => cases b <;> simp at e1 e2
    subst hs
    exact hnb hrun

/-- After a rejected text the evaluator evaluates to zero. -/
theorem C14_rejected_zero (ops : Ops K) (params : List Char → Option K) {ev : Evaluator K}
    {t0 : Tree K} (hev : ev.Holds t0) {text : List Char} (hq : SqrtSpelled text)
    (hw : ShortWords text) (hnb : ¬ Balanced text) :
    ∃ ev', ev.parse ops text = .ok (.threw, ev') ∧ ev'.evaluate ops params = .ok ops.zero := by
  obtain ⟨out, ev', t, h1, h2, h3, _, h4⟩ := C14_partial ops hev hq hw
  have := h4 hnb
  subst this
  have ht := h3 rfl
  subst ht
  exact ⟨ev', h1, h2.evaluate ops params⟩

/-- The hypotheses of `C14_partial` hold of a text with unmatched brackets. -/
example : SqrtSpelled "(1+|x)".toList ∧ ShortWords "(1+|x)".toList ∧ ¬ Balanced "(1+|x)".toList := by
  have hl : "(1+|x)".toList.length = 6 := by decide
  refine ⟨?_, ?_, by decide⟩
  · intro a b h
    have h1 := congrArg (fun l => decide ('s' ∈ l)) h
    simp at h1
  · intro a w b h _
    have := congrArg List.length h
    simp only [List.length_append, hl] at this
    omega

/-- Whether a result is undefined behaviour. -/
def isUb {α : Type} : Res α → Bool
  | .ub => true
  | _ => false

theorem eq_ub_of_isUb {α : Type} {r : Res α} (h : isUb r = true) : r = .ub := by
  cases r <;> simp_all [isUb]

/-- Parse with a new evaluator, validate, and evaluate. -/
def run (ops : Ops K) (params : List Char → Option K) (text : List Char) :
    Res (Outcome × Bool × K) := do
  let (out, ev) ← Evaluator.new.parse ops text
  let b ← ev.validate
  let v ← ev.evaluate ops params
  pure (out, b, v)

set_option maxHeartbeats 4000000 in
/-- The full statement of C14 is false: a text with an unmatched parenthesis is accepted, because
`sqr` is compared with three characters of `sqrt` but four are skipped
(ExpressionEvaluator.cpp:696-699). -/
theorem C14_false (ops : Ops K) (params : List Char → Option K) :
    ¬ Balanced "sqr((4)".toList ∧
    run ops params "sqr((4)".toList = .ok (.returned, false, ops.sqrt (ops.lit ['4'])) :=
  ⟨by decide, rfl⟩

/-- A text ending in `sqr` makes the parser read behind the end of the text. -/
theorem C14_sqr_ub (ops : Ops K) : Evaluator.new.parse ops "1+sqr".toList = .ub := rfl

set_option maxRecDepth 100000 in
set_option maxHeartbeats 4000000 in
/-- A number of 127 digits makes the error report call `strlen` behind the end of the text
(ExpressionEvaluator.cpp:923). -/
theorem C14_long_ub (ops : Ops K) : Evaluator.new.parse ops (List.replicate 127 '1') = .ub :=
  eq_ub_of_isUb rfl

end Plato.Ee
