import Verif.Expr.Walk
import Verif.Expr.Scan
import Mathlib.Tactic.SplitIfs

/-!
# The parser on arbitrary texts: memory safety and bracket errors (C14)

The loop invariant `Inv` ties the counters kept by `parse_expression` (`numOpenParens`,
`numOpenAbsBars`, `beginABS`, the two location vectors) and the bracket nodes on the right spine to
the stack of open brackets of the specification `brRun`.
-/

namespace Plato.Ee

variable {K : Type}

/-- The bracket a frame stands for. -/
def brOf (f : Frame K) : Option Br :=
  if f.it.id = .openP then some .paren else if f.it.id = .openBar then some .bar else none

/-- Precedences of the frames on the spine. -/
structure FrameOK (f : Frame K) : Prop where
  paren : f.it.id = .openP → f.it.prec = 0 ∧ f.left = .nil
  bar : f.it.id = .openBar → f.it.prec = 1
  op : f.it.id ≠ .openP → f.it.id ≠ .openBar → 2 ≤ f.it.prec

/-- The counters that encode a stack of open brackets: `numOpenParens` and `numOpenAbsBars`, each a
last element and the elements before it. -/
def enc : List Br → (Nat × List Nat) × (Nat × List Nat)
  | [] => ((0, []), (0, []))
  | .paren :: s => (((enc s).1.1 + 1, (enc s).1.2), (0, (enc s).2.1 :: (enc s).2.2))
  | .bar :: s => ((0, (enc s).1.1 :: (enc s).1.2), ((enc s).2.1 + 1, (enc s).2.2))

/-- Directly inside a bar there is no bar. -/
def Alt : List Br → Prop
  | [] => True
  | [_] => True
  | a :: b :: s => ¬ (a = .bar ∧ b = .bar) ∧ Alt (b :: s)

theorem Alt.tail {b : Br} {s : List Br} (h : Alt (b :: s)) : Alt s := by
  cases s with
  | nil => trivial
  | cons c s => exact h.2

/-- The loop invariant of `parse_expression`. -/
structure Inv (root : Nat) (st : PState K) (fs : List (Frame K)) (t : Tree K) (stk : List Br) :
    Prop where
  z : ZAt st.mem root fs t st.current
  br : fs.filterMap brOf = stk
  ok : ∀ f ∈ fs, FrameOK f
  parens : st.numParens = (enc stk).1.1 :: (enc stk).1.2
  bars : st.numBars = (enc stk).2.1 :: (enc stk).2.2
  abs : st.beginABS = decide ((enc stk).2.1 ≠ 0)
  pl : st.parenLocs.length = stk.count .paren
  bl : st.barLocs.length = stk.count .bar
  hole : t ≠ .nil → st.previous = .closeP ∨ st.previous = .closeBar
  two : ∀ f ∈ st.twoParam, f = .power
  alt : Alt stk

theorem zclimb_br {pass : Nat → Bool} (hp : ∀ q, pass q = true → 2 ≤ q) :
    ∀ (fs : List (Frame K)) (t : Tree K), (∀ f ∈ fs, FrameOK f) →
      (zclimb pass fs t).1.filterMap brOf = fs.filterMap brOf ∧
      ∀ f ∈ (zclimb pass fs t).1, FrameOK f
  | [], t, h => by simp [zclimb]
  | f :: fs, t, h => by
    by_cases hf : pass f.it.prec = true
    · have hfo := h f (by simp)
      have h2 := hp _ hf
      have hbr : brOf f = none := by
        have h3 : f.it.id ≠ .openP := fun e => by have := (hfo.paren e).1; omega
        have h4 : f.it.id ≠ .openBar := fun e => by have := hfo.bar e; omega
        simp [brOf, h3, h4]
      have ih := zclimb_br hp fs (.node f.it f.left t) fun g hg => h g (by simp [hg])
      simp only [zclimb, hf, if_true, List.filterMap_cons, hbr]
      exact ih
    · simp only [zclimb, hf]
      exact ⟨rfl, h⟩

theorem zclimb_to {pass : Nat → Bool} (hp : ∀ q, 2 ≤ q → pass q = true) (b : Br)
    (hb : ∀ f : Frame K, FrameOK f → brOf f = some b → pass f.it.prec = false) (s : List Br) :
    ∀ (fs : List (Frame K)) (t : Tree K), (∀ f ∈ fs, FrameOK f) → fs.filterMap brOf = b :: s →
      ∃ f fs', (zclimb pass fs t).1 = f :: fs' ∧ brOf f = some b ∧ fs'.filterMap brOf = s ∧
        FrameOK f ∧ ∀ g ∈ fs', FrameOK g
  | [], t, h, he => by simp at he
  | f :: fs, t, h, he => by
    have hfo := h f (by simp)
    cases hbr : brOf f with
    | none =>
      have h2 : 2 ≤ f.it.prec := by
        refine hfo.op ?_ ?_ <;> intro e <;> simp [brOf, e] at hbr
      simp only [zclimb, hp _ h2, if_true]
      refine zclimb_to hp b hb s fs _ (fun g hg => h g (by simp [hg])) ?_
      simpa [List.filterMap_cons, hbr] using he
    | some b' =>
      simp only [List.filterMap_cons, hbr, List.cons.injEq] at he
      obtain ⟨rfl, he⟩ := he
      have hpf := hb f hfo hbr
      exact ⟨f, fs, by simp [zclimb, hpf], hbr, he, hfo, fun g hg => h g (by simp [hg])⟩

/-- What the checks need to know about an inserted item that is not a closing bracket. -/
structure PlainItem (item : Item K) (info : NodeInfo) : Prop where
  has : info ≠ .noInfo
  notClose : item.id ≠ .closeP ∧ item.id ≠ .closeBar
  pass : ∀ q, passes info item.prec q = true → 2 ≤ q

theorem PlainItem.zero {item : Item K} {info : NodeInfo} (h : PlainItem item info) :
    passes info item.prec 0 = false := by
  by_contra hne
  have := h.pass 0 (by simpa using hne)
  omega

/-- Inserting a node that is not a bracket. -/
theorem place_plain {root : Nat} {st : PState K} {fs : List (Frame K)} {t : Tree K}
    {item : Item K} {info : NodeInfo} (hz : ZAt st.mem root fs t st.current)
    (hp : PlainItem item info) : ∃ m' cur', place st item info =
      .ok ({ st with mem := m', current := cur', previous := item.id }, true) ∧
      ZAt m' root (⟨item, (zclimb (passes info item.prec) fs t).2⟩ ::
        (zclimb (passes info item.prec) fs t).1) .nil cur' := by
  have hins : zinsert fs t item info = some (⟨item, (zclimb (passes info item.prec) fs t).2⟩ ::
      (zclimb (passes info item.prec) fs t).1, .nil) := by
    simp [zinsert, hp.notClose.1, hp.notClose.2]
  obtain ⟨m', cur', h1, h2⟩ := insert_refines hz hp.has hp.zero hins
    (fun e => absurd e hp.notClose.1)
  exact ⟨m', cur', by simp [place, h1], h2⟩

/-- State changes of `pre` for the tokens that insert a node which is not a bracket. -/
theorem Inv.plain {root : Nat} {st : PState K} {fs : List (Frame K)} {t : Tree K} {stk : List Br}
    (h : Inv root st fs t stk) {item : Item K} {info : NodeInfo} (hp : PlainItem item info)
    (ho : item.id ≠ .openP) (hb : item.id ≠ .openBar) (h2 : 2 ≤ item.prec) :
    ∃ st', place st item info = .ok (st', true) ∧ st'.previous = item.id ∧ st'.bad = st.bad ∧
      st'.twoParam = st.twoParam ∧
      Inv root st' (⟨item, (zclimb (passes info item.prec) fs t).2⟩ ::
        (zclimb (passes info item.prec) fs t).1) .nil stk := by
  obtain ⟨m', cur', h1, hz'⟩ := place_plain h.z hp
  obtain ⟨hc1, hc2⟩ := zclimb_br hp.pass fs t h.ok
  refine ⟨_, h1, rfl, rfl, rfl, hz', ?_, ?_, h.parens, h.bars, h.abs, h.pl, h.bl, by simp, h.two, h.alt⟩
  · rw [List.filterMap_cons]
    simp only [brOf, ho, hb, if_false]
    exact hc1.trans h.br
  · intro f hf
    rcases List.mem_cons.mp hf with rfl | hf
    · exact ⟨fun e => absurd e ho, fun e => absurd e hb, fun _ _ => h2⟩
    · exact hc2 f hf

/-- The result of one iteration, on states with the invariant: either the loop stops with an error
message and an intact tree, or the invariant holds for the stack after the consumed characters. -/
def StepOK (root : Nat) (ops : Ops K) (st : PState K) (stk : List Br) (loc : Nat) (tok : Tok)
    (w : List Char) : Prop :=
  ∃ p, pre ops st loc tok = .ok p ∧
    match p with
    | .brk st' => st'.bad = st.bad ∧ ∃ fs t, ZAt st'.mem root fs t st'.current
    | .cont st' => st'.bad = st.bad ∧ ∃ fs t, Inv root st' fs t stk ∧ brRun stk w = some stk
    | .item st' node info => ∃ st'' go, post st' node info = .ok (st'', go) ∧ st''.bad = st.bad ∧
        if go then ∃ fs t stk', Inv root st'' fs t stk' ∧ brRun stk w = some stk'
        else ∃ fs t, ZAt st''.mem root fs t st''.current

theorem post_plain {root : Nat} {st : PState K} {fs : List (Frame K)} {t : Tree K} {stk : List Br}
    (h : Inv root st fs t stk) {item : Item K} {info : NodeInfo} (hp : PlainItem item info)
    (ho : item.id ≠ .openP) (hb : item.id ≠ .openBar) (h2 : 2 ≤ item.prec) :
    ∃ st' go, post st item info = .ok (st', go) ∧ st'.bad = st.bad ∧
      if go then ∃ fs t, Inv root st' fs t stk else ∃ fs t, ZAt st'.mem root fs t st'.current := by
  simp only [post, ho, false_and, if_false, Res.pure_eq, Res.ok_bind]
  obtain ⟨st', h1, _, hbad, _, hinv⟩ := h.plain hp ho hb h2
  simp only [Bool.true_eq_false, if_false]
  split_ifs
  · exact ⟨st, false, rfl, rfl, fs, t, h.z⟩
  · exact ⟨st, false, rfl, rfl, fs, t, h.z⟩
  · exact ⟨st', true, h1, hbad, _, _, hinv⟩

theorem StepOK.ofPlain {root : Nat} {ops : Ops K} {st st' : PState K} {stk : List Br} {loc : Nat}
    {tok : Tok} {w : List Char} {fs : List (Frame K)} {t : Tree K} {item : Item K} {info : NodeInfo}
    (h : Inv root st' fs t stk) (hbad : st'.bad = st.bad)
    (hpre : pre ops st loc tok = .ok (.item st' item info)) (hp : PlainItem item info)
    (ho : item.id ≠ .openP) (hb : item.id ≠ .openBar) (h2 : 2 ≤ item.prec)
    (hw : ∀ c ∈ w, notBr c) : StepOK root ops st stk loc tok w := by
  refine ⟨_, hpre, ?_⟩
  obtain ⟨st'', go, h1, hb', h3⟩ := post_plain h hp ho hb h2
  refine ⟨st'', go, h1, hb'.trans hbad, ?_⟩
  cases go with
  | false => simpa using h3
  | true =>
    obtain ⟨fs', t', h4⟩ := by simpa using h3
    exact ⟨fs', t', stk, h4, brRun_notBr hw⟩

/-- Opening a bracket: the right subtree of `current` is empty at that point. -/
theorem Inv.opened {root : Nat} {st : PState K} {fs : List (Frame K)} {stk : List Br}
    (hz : ZAt st.mem root fs .nil st.current) (item : Item K)
    (hid : item.id = .openP ∨ item.id = .openBar) : ∃ m' cur', place st item .skip =
      .ok ({ st with mem := m', current := cur', previous := item.id }, true) ∧
      ZAt m' root (⟨item, .nil⟩ :: fs) .nil cur' := by
  have hp : PlainItem item .skip := ⟨by simp, by rcases hid with h | h <;> simp [h],
    fun q hq => by simp [passes] at hq⟩
  obtain ⟨m', cur', h1, h2⟩ := place_plain hz hp
  refine ⟨m', cur', h1, ?_⟩
  cases fs with
  | nil => simpa [zclimb, passes] using h2
  | cons f fs => simpa [zclimb, passes] using h2

theorem enc_paren_top {s : List Br} : (enc (.paren :: s)).2.1 = 0 := rfl

/-- Every token preserves the invariant or stops the loop. -/
theorem step_ok {root : Nat} (ops : Ops K) {st : PState K} {fs : List (Frame K)} {t : Tree K}
    {stk : List Br} (h : Inv root st fs t stk) (loc : Nat) {tok : Tok} {w : List Char}
    (hc : Consumed tok w) : StepOK root ops st stk loc tok w := by
  have pl : ∀ {p info id}, info = .left ∨ info = .right → 2 ≤ p → id ≠ .closeP →
      id ≠ .closeBar → ∀ n s, PlainItem (⟨id, p, n, s⟩ : Item K) info := by
    intro p info id hi h2 h3 h4 n s
    refine ⟨by rcases hi with rfl | rfl <;> simp, ⟨h3, h4⟩, fun q hq => ?_⟩
    rcases hi with rfl | rfl <;> simp [passes] at hq <;> omega
  have sk : ∀ {p id}, id ≠ .closeP → id ≠ .closeBar → ∀ n s,
      PlainItem (⟨id, p, n, s⟩ : Item K) .skip := by
    intro p id h3 h4 n s
    exact ⟨by simp, ⟨h3, h4⟩, fun q hq => by simp [passes] at hq⟩
  cases tok with
  | space => exact ⟨_, rfl, rfl, fs, t, h, brRun_notBr (hc.plain rfl)⟩
  | bad => exact ⟨_, rfl, rfl, fs, t, h.z⟩
  | powName =>
    refine ⟨_, rfl, rfl, fs, t, ⟨h.z, h.br, h.ok, h.parens, h.bars, h.abs, h.pl, h.bl, h.hole, ?_, h.alt⟩,
      brRun_notBr (hc.plain rfl)⟩
    intro f hf
    rcases List.mem_cons.mp hf with rfl | hf
    · rfl
    · exact h.two f hf
  | star =>
    refine StepOK.ofPlain (item := ⟨.multiplication, 3, none, []⟩) (info := .left) h rfl rfl
      (pl (.inl rfl) ?_ ?_ ?_ _ _) ?_ ?_ ?_ (hc.plain rfl) <;> simp
  | slash =>
    refine StepOK.ofPlain (item := ⟨.division, 3, none, []⟩) (info := .left) h rfl rfl
      (pl (.inl rfl) ?_ ?_ ?_ _ _) ?_ ?_ ?_ (hc.plain rfl) <;> simp
  | caret =>
    refine StepOK.ofPlain (item := ⟨.power, 4, none, []⟩) (info := .right) h rfl rfl
      (pl (.inr rfl) ?_ ?_ ?_ _ _) ?_ ?_ ?_ (hc.plain rfl) <;> simp
  | bang =>
    refine StepOK.ofPlain (item := ⟨.factorial, 6, none, []⟩) (info := .left) h rfl rfl
      (pl (.inl rfl) ?_ ?_ ?_ _ _) ?_ ?_ ?_ (hc.plain rfl) <;> simp
  | pi =>
    refine StepOK.ofPlain (item := ⟨.number, 7, some ops.pi, []⟩) (info := .left) h rfl rfl
      (pl (.inl rfl) ?_ ?_ ?_ _ _) ?_ ?_ ?_ (hc.plain rfl) <;> simp
  | num s =>
    refine StepOK.ofPlain (item := ⟨.number, 7, some (ops.lit s), []⟩) (info := .left) h rfl rfl
      (pl (.inl rfl) ?_ ?_ ?_ _ _) ?_ ?_ ?_ (hc.plain rfl) <;> simp
  | var s =>
    refine StepOK.ofPlain (item := ⟨.var, 7, none, s⟩) (info := .left) h rfl rfl
      (pl (.inl rfl) ?_ ?_ ?_ _ _) ?_ ?_ ?_ (hc.plain rfl) <;> simp
  | fn f =>
    have hf := hc.fn f rfl
    have h1 : f ≠ .closeP ∧ f ≠ .closeBar ∧ f ≠ .openP ∧ f ≠ .openBar := by
      refine ⟨?_, ?_, ?_, ?_⟩ <;> rintro rfl <;> simp [isFn] at hf
    refine StepOK.ofPlain (item := ⟨f, 7, none, []⟩) (info := .left) h rfl rfl
      (pl (.inl rfl) ?_ h1.1 h1.2.1 _ _) h1.2.2.1 h1.2.2.2 ?_ (hc.plain rfl) <;> simp
  | comma =>
    cases htw : st.twoParam with
    | nil => exact ⟨.brk st, by simp [pre, htw], rfl, fs, t, h.z⟩
    | cons f l =>
      have hf : f = .power := h.two f (by simp [htw])
      subst hf
      have h' : Inv root { st with twoParam := l } fs t stk :=
        ⟨h.z, h.br, h.ok, h.parens, h.bars, h.abs, h.pl, h.bl, h.hole,
          fun g hg => h.two g (by simp [htw, hg]), h.alt⟩
      refine StepOK.ofPlain (item := ⟨.power, 5, none, []⟩) (info := .left) h' rfl
        (by simp [pre, htw]) (pl (.inl rfl) ?_ ?_ ?_ _ _) ?_ ?_ ?_ (hc.plain rfl) <;> simp
  | plus =>
    by_cases hv : st.previous = .number ∨ st.previous = .var ∨ st.previous = .factorial ∨
       st.previous = .closeP ∨ st.previous = .closeBar
    · refine StepOK.ofPlain (item := ⟨.addition, 2, none, []⟩) (info := .left) h rfl
        (by simp only [pre, if_pos hv]) (pl (.inl rfl) ?_ ?_ ?_ _ _) ?_ ?_ ?_ (hc.plain rfl) <;> simp
    · refine StepOK.ofPlain (item := ⟨.positive, 5, none, []⟩) (info := .skip) h rfl
        (by simp only [pre, if_neg hv]) (sk ?_ ?_ _ _) ?_ ?_ ?_ (hc.plain rfl) <;> simp
  | minus =>
    by_cases hv : st.previous = .number ∨ st.previous = .var ∨ st.previous = .factorial ∨
       st.previous = .closeP ∨ st.previous = .closeBar
    · refine StepOK.ofPlain (item := ⟨.subtraction, 2, none, []⟩) (info := .left) h rfl
        (by simp only [pre, if_pos hv]) (pl (.inl rfl) ?_ ?_ ?_ _ _) ?_ ?_ ?_ (hc.plain rfl) <;> simp
    · refine StepOK.ofPlain (item := ⟨.negative, 5, none, []⟩) (info := .skip) h rfl
        (by simp only [pre, if_neg hv]) (sk ?_ ?_ _ _) ?_ ?_ ?_ (hc.plain rfl) <;> simp
  | openP =>
    have hw := hc.openP rfl
    subst hw
    have hrun : brRun stk ['('] = some (.paren :: stk) := by simp [brRun, brStep]
    -- the counters after the bookkeeping
    set st1 : PState K := { st with
        numParens := ((enc stk).1.1 + 1) :: (enc stk).1.2
        parenLocs := loc :: st.parenLocs
        numBars := 0 :: st.numBars
        beginABS := false } with hst1
    refine ⟨.item st1 ⟨.openP, 0, none, []⟩ .skip, by simp [pre, h.parens, hst1], ?_⟩
    -- insertion of the open parenthesis below any frames with an empty hole
    have fin : ∀ (st2 : PState K) (gs : List (Frame K)), ZAt st2.mem root gs .nil st2.current →
        gs.filterMap brOf = stk → (∀ f ∈ gs, FrameOK f) → st2.numParens = st1.numParens →
        st2.numBars = st1.numBars → st2.beginABS = st1.beginABS → st2.parenLocs = st1.parenLocs →
        st2.barLocs = st1.barLocs → st2.twoParam = st1.twoParam → st2.bad = st1.bad →
        ∃ st3, place st2 ⟨.openP, 0, none, []⟩ .skip = .ok (st3, true) ∧ st3.bad = st.bad ∧
          ∃ fs' t' stk', Inv root st3 fs' t' stk' ∧ brRun stk ['('] = some stk' := by
      intro st2 gs hz hbr hok e1 e2 e3 e4 e5 e6 e7
      obtain ⟨m', cur', h1, h2⟩ := Inv.opened (stk := stk) hz ⟨.openP, 0, none, []⟩ (.inl rfl)
      refine ⟨_, h1, by simp [e7, hst1], _, .nil, .paren :: stk, ⟨h2, ?_, ?_, ?_, ?_, ?_, ?_, ?_,
        by simp, ?_, ?_⟩, hrun⟩
      · simp [brOf]; exact hbr
      · intro f hf
        rcases List.mem_cons.mp hf with rfl | hf
        · exact ⟨fun _ => ⟨rfl, rfl⟩, by simp, by simp⟩
        · exact hok f hf
      · simp [e1, hst1, enc]
      · simp [e2, hst1, enc, h.bars]
      · simp [e3, hst1, enc]
      · simp [e4, hst1, h.pl]
      · simp [e5, hst1, h.bl]
      · simpa [e6, hst1] using h.two
      · have := h.alt
        cases stk with
        | nil => trivial
        | cons b s => exact ⟨by simp, this⟩
    by_cases hprev : st.previous = .closeP
    · -- implicit multiplication
      obtain ⟨m', cur', h1, h2⟩ := place_plain (st := st1) (item := ⟨.multiplication, 3, none, []⟩)
        (info := .left) h.z (pl (.inl rfl) (by simp) (by simp) (by simp) none [])
      obtain ⟨hc1, hc2⟩ := zclimb_br (pass := passes .left 3)
        (fun q hq => by simp [passes] at hq; omega) fs t h.ok
      have hprev1 : st1.previous = .closeP := hprev
      set st2 : PState K := ⟨m', cur', .multiplication, st1.beginABS, st1.twoParam, st1.barLocs,
        st1.parenLocs, st1.numParens, st1.numBars, st1.bad⟩ with hst2
      obtain ⟨st3, h3, h4, h5⟩ := fin st2 _ h2 (by
          simp only [List.filterMap_cons, brOf]
          simpa using hc1.trans h.br) (by
          intro f hf
          rcases List.mem_cons.mp hf with rfl | hf
          · exact ⟨by simp, by simp, by simp⟩
          · exact hc2 f hf) rfl rfl rfl rfl rfl rfl rfl
      refine ⟨st3, true, ?_, h4, by simpa using h5⟩
      simp only [post, hprev1, and_self, if_true, h1, Res.ok_bind]
      simpa using h3
    · by_cases hval : st.previous = .closeBar ∨ st.previous = .factorial ∨
          st.previous = .number ∨ st.previous = .var
      · refine ⟨st1, false, ?_, rfl, fs, t, h.z⟩
        simp only [post, hst1, hprev, and_false, if_false, Res.pure_eq, Res.ok_bind]
        simp [hval]
      · have ht : t = .nil := by
          by_contra hne
          rcases h.hole hne with e | e
          · exact hprev e
          · exact hval (.inl e)
        subst ht
        obtain ⟨st3, h3, h4, h5⟩ := fin st1 fs h.z h.br h.ok rfl rfl rfl rfl rfl rfl rfl
        refine ⟨st3, true, ?_, h4, by simpa using h5⟩
        have hprev1 : ¬ st1.previous = .closeP := hprev
        have hval1 : ¬ (st1.previous = .closeBar ∨ st1.previous = .factorial ∨
            st1.previous = .number ∨ st1.previous = .var) := hval
        simp only [post, hprev1, and_false, if_false, Res.pure_eq, Res.ok_bind]
        simpa only [hval1, and_false, if_false, reduceCtorEq, or_self, false_and, or_false,
          Bool.true_eq_false] using h3
  | closeP =>
    have hw := hc.closeP rfl
    subst hw
    cases stk with
    | nil => exact ⟨.brk st, by simp [pre, h.parens, h.bars, enc], rfl, fs, t, h.z⟩
    | cons b s =>
      cases b with
      | bar => exact ⟨.brk st, by simp [pre, h.parens, h.bars, enc], rfl, fs, t, h.z⟩
      | paren =>
        have hpl := h.pl
        obtain ⟨l, ls, hls⟩ : ∃ l ls, st.parenLocs = l :: ls := by
          cases hh : st.parenLocs with
          | nil => simp [hh] at hpl
          | cons l ls => exact ⟨l, ls, rfl⟩
        set st1 : PState K := { st with
            numParens := (enc s).1.1 :: (enc s).1.2
            numBars := (enc s).2.1 :: (enc s).2.2
            parenLocs := ls
            beginABS := decide ((enc s).2.1 ≠ 0) } with hst1
        refine ⟨.item st1 ⟨.closeP, 0, none, []⟩ .right, ?_, ?_⟩
        · simp [pre, h.parens, h.bars, enc, hls, hst1]
        · obtain ⟨f, fs', hzc, hbr, hfm, hfo, hoks⟩ := zclimb_to (pass := passes .right 0)
            (fun q hq => by simp [passes]; omega) .paren (by
              intro f hfo hbr
              have hid : f.it.id = .openP := by
                by_contra hne
                simp only [brOf, hne, if_false] at hbr
                split_ifs at hbr
                simp at hbr
              simp [passes, (hfo.paren hid).1]) s fs t h.ok h.br
          have hid : f.it.id = .openP := by
            by_contra hne
            simp only [brOf, hne, if_false] at hbr
            split_ifs at hbr
            simp at hbr
          obtain ⟨m', cur', h1, h2⟩ := insert_refines (item := ⟨.closeP, 0, none, []⟩)
            (info := .right) (fs' := fs') (t' := (zclimb (passes .right 0) fs t).2) h.z (by simp)
            (by simp [passes]) (by
              simp only [zinsert]
              generalize zclimb (passes .right 0) fs t = Z at hzc
              obtain ⟨A, B⟩ := Z
              simp only at hzc
              subst hzc
              simp) (by
              intro _ g hg
              rw [hzc] at hg
              simp at hg
              subst hg
              exact (hfo.paren hid).2)
          refine ⟨{ st1 with mem := m', current := cur', previous := .closeP }, true, ?_, rfl, ?_⟩
          · have h1' : insertNodeItem st1.mem (some st1.current) (⟨.closeP, 0, none, []⟩ : Item K)
                .right = .ok (m', some cur') := h1
            simp [post, place, h1']
          · simp only [if_true]
            refine ⟨fs', _, s, ⟨h2, hfm, hoks, rfl, rfl, rfl, ?_, ?_, by simp, h.two, h.alt.tail⟩, ?_⟩
            · have := h.pl
              simp [hls] at this
              simpa [hst1] using this
            · simpa [hst1] using h.bl
            · simp [brRun, brStep]
  | bar =>
    have hw := hc.bar rfl
    subst hw
    have openCase : st.beginABS = false → (enc stk).2.1 = 0 → brRun stk ['|'] = some (.bar :: stk) →
        StepOK root ops st stk loc .bar ['|'] := by
      intro hb h0 hrun
      set st1 : PState K := { st with
          beginABS := true
          numBars := ((enc stk).2.1 + 1) :: (enc stk).2.2
          barLocs := loc :: st.barLocs
          numParens := 0 :: st.numParens } with hst1
      refine ⟨.item st1 ⟨.openBar, 1, none, []⟩ .skip, by simp [pre, h.parens, h.bars, hb, hst1], ?_⟩
      by_cases hval : st.previous = .closeP ∨ st.previous = .closeBar ∨ st.previous = .factorial ∨
          st.previous = .number ∨ st.previous = .var
      · refine ⟨st1, false, ?_, rfl, fs, t, h.z⟩
        have hval1 : st1.previous = .closeP ∨ st1.previous = .closeBar ∨ st1.previous = .factorial ∨
          st1.previous = .number ∨ st1.previous = .var := hval
        simp only [post, false_and, if_false, Res.pure_eq, Res.ok_bind, reduceCtorEq]
        simp [hval1]
      · have ht : t = .nil := by
          by_contra hne
          rcases h.hole hne with e | e
          · exact hval (.inl e)
          · exact hval (.inr (.inl e))
        subst ht
        obtain ⟨m', cur', h1, h2⟩ := Inv.opened (stk := stk) (st := st1) h.z
          ⟨.openBar, 1, none, []⟩ (.inr rfl)
        set st2 : PState K := ⟨m', cur', .openBar, st1.beginABS, st1.twoParam, st1.barLocs,
          st1.parenLocs, st1.numParens, st1.numBars, st1.bad⟩ with hst2
        refine ⟨st2, true, ?_, rfl, ?_⟩
        rotate_left
        · simp only [if_true]
          refine ⟨_, .nil, .bar :: stk, ⟨h2, ?_, ?_, ?_, ?_, ?_, ?_, ?_, by simp, ?_, ?_⟩, hrun⟩
          · simp [brOf]; exact h.br
          · intro f hf
            rcases List.mem_cons.mp hf with rfl | hf
            · exact ⟨by simp, by simp, by simp⟩
            · exact h.ok f hf
          · simp [hst2, hst1, enc, h.parens]
          · simp [hst2, hst1, enc]
          · simp [hst2, hst1, enc]
          · simp [hst2, hst1, h.pl]
          · simp [hst2, hst1, h.bl]
          · simpa [hst2, hst1] using h.two
          · have := h.alt
            cases stk with
            | nil => trivial
            | cons b s =>
              refine ⟨?_, this⟩
              rintro ⟨_, rfl⟩
              simp [enc] at h0
        · have hval1 : ¬ (st1.previous = .closeP ∨ st1.previous = .closeBar ∨
            st1.previous = .factorial ∨ st1.previous = .number ∨ st1.previous = .var) := hval
          simp only [post, false_and, if_false, Res.pure_eq, Res.ok_bind, reduceCtorEq]
          simp only [hval1, and_false, if_false]
          simpa using h1
    cases stk with
    | nil => exact openCase (by simp [h.abs, enc]) (by simp [enc]) (by simp [brRun, brStep])
    | cons b s =>
      cases b with
      | paren => exact openCase (by simp [h.abs, enc]) (by simp [enc]) (by simp [brRun, brStep])
      | bar =>
        have hbl := h.bl
        obtain ⟨l, ls, hls⟩ : ∃ l ls, st.barLocs = l :: ls := by
          cases hh : st.barLocs with
          | nil => simp [hh] at hbl
          | cons l ls => exact ⟨l, ls, rfl⟩
        have hbegin : st.beginABS = true := by simp [h.abs, enc]
        set st1 : PState K := { st with
            beginABS := false
            numBars := (enc s).2.1 :: (enc s).2.2
            numParens := (enc s).1.1 :: (enc s).1.2
            barLocs := ls } with hst1
        refine ⟨.item st1 ⟨.closeBar, 1, none, []⟩ .right, ?_, ?_⟩
        · simp [pre, h.parens, h.bars, enc, hls, hst1, hbegin]
        · obtain ⟨f, fs', hzc, hbr, hfm, hfo, hoks⟩ := zclimb_to (pass := passes .right 1)
            (fun q hq => by simp [passes]; omega) .bar (by
              intro f hfo hbr
              have hid : f.it.id = .openBar := by
                by_contra hne
                simp only [brOf, hne, if_false] at hbr
                split_ifs at hbr
                simp at hbr
              simp [passes, hfo.bar hid]) s fs t h.ok h.br
          obtain ⟨m', cur', h1, h2⟩ := insert_refines (item := ⟨.closeBar, 1, none, []⟩)
            (info := .right) (fs' := fs') (t' := .node { f.it with id := .abs } f.left
              (zclimb (passes .right 1) fs t).2) h.z (by simp)
            (by simp [passes]) (by
              simp only [zinsert]
              generalize zclimb (passes .right 1) fs t = Z at hzc
              obtain ⟨A, B⟩ := Z
              simp only at hzc
              subst hzc
              simp) (by simp)
          refine ⟨{ st1 with mem := m', current := cur', previous := .closeBar }, true, ?_, rfl, ?_⟩
          · have h1' : insertNodeItem st1.mem (some st1.current) (⟨.closeBar, 1, none, []⟩ : Item K)
                .right = .ok (m', some cur') := h1
            simp [post, place, h1']
          · simp only [if_true]
            refine ⟨fs', _, s, ⟨h2, hfm, hoks, rfl, rfl, ?_, ?_, ?_, by simp, h.two, h.alt.tail⟩, ?_⟩
            · -- a bar is never opened directly below another bar
              have := h.alt
              cases s with
              | nil => simp [hst1, enc]
              | cons b s =>
                cases b with
                | paren => simp [hst1, enc]
                | bar => exact absurd ⟨rfl, rfl⟩ this.1
            · simpa [hst1] using h.pl
            · have := h.bl
              simp [hls] at this
              simpa [hst1] using this
            · simp [brRun, brStep]

end Plato.Ee
