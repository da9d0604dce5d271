import Verif.Expr.Brackets

/-!
# The parser as a machine on frames

`cstep` describes the effect of one token on the spine of frames, for the tokens that are accepted.
`sim_step` shows that the iterations of `parse_expression` compute it.
-/

namespace Plato.Ee

variable {K : Type}

/-- The state of the parser in terms of trees. -/
structure Cfg (K : Type) where
  fs : List (Frame K)
  t : Tree K
  prev : NodeID
  stk : List Br
  two : List NodeID

/-- The nodes after which no value may follow. -/
def isValue : NodeID → Bool
  | .closeP | .closeBar | .factorial | .number | .var => true
  | _ => false

def isSign : NodeID → Bool
  | .positive | .negative => true
  | _ => false

/-- Insertion of a node. -/
def cplace (c : Cfg K) (it : Item K) (info : NodeInfo) : Cfg K :=
  ⟨⟨it, (zclimb (passes info it.prec) c.fs c.t).2⟩ :: (zclimb (passes info it.prec) c.fs c.t).1,
    .nil, it.id, c.stk, c.two⟩

/-- The items of the tokens. -/
def itMul : Item K := ⟨.multiplication, 3, none, []⟩

/-- A close parenthesis before an open one is a multiplication. -/
def cmul (c : Cfg K) : Cfg K := if c.prev = .closeP then cplace c itMul .left else c

/-- One accepted token. -/
def cstep (ops : Ops K) (c : Cfg K) : Tok → Option (Cfg K)
  | .space => some c
  | .openP =>
    if isValue (cmul c).prev then none
    else some ⟨⟨⟨.openP, 0, none, []⟩, .nil⟩ :: (cmul c).fs, .nil, .openP, .paren :: c.stk, c.two⟩
  | .closeP =>
    match c.stk, zclimb (passes .right 0) c.fs c.t with
    | .paren :: s, (_ :: fs, t) => some ⟨fs, t, .closeP, s, c.two⟩
    | _, _ => none
  | .bar =>
    match c.stk, zclimb (passes .right 1) c.fs c.t with
    | .bar :: s, (f :: fs, t) =>
      some ⟨fs, .node { f.it with id := .abs } f.left t, .closeBar, s, c.two⟩
    | .bar :: _, ([], _) => none
    | s, _ =>
      if isValue c.prev then none
      else some ⟨⟨⟨.openBar, 1, none, []⟩, .nil⟩ :: c.fs, .nil, .openBar, .bar :: s, c.two⟩
  | .plus =>
    if isValue c.prev then some (cplace c ⟨.addition, 2, none, []⟩ .left)
    else if isSign c.prev then none else some (cplace c ⟨.positive, 5, none, []⟩ .skip)
  | .minus =>
    if isValue c.prev then some (cplace c ⟨.subtraction, 2, none, []⟩ .left)
    else if isSign c.prev then none else some (cplace c ⟨.negative, 5, none, []⟩ .skip)
  | .star => some (cplace c itMul .left)
  | .slash => some (cplace c ⟨.division, 3, none, []⟩ .left)
  | .caret => some (cplace c ⟨.power, 4, none, []⟩ .right)
  | .bang => some (cplace c ⟨.factorial, 6, none, []⟩ .left)
  | .fn f => if isFn f then some (cplace c ⟨f, 7, none, []⟩ .left) else none
  | .powName => some ⟨c.fs, c.t, c.prev, c.stk, .power :: c.two⟩
  | .comma =>
    match c.two with
    | f :: l => some (cplace ⟨c.fs, c.t, c.prev, c.stk, l⟩ ⟨f, 5, none, []⟩ .left)
    | [] => none
  | .pi =>
    if isValue c.prev then none else some (cplace c ⟨.number, 7, some ops.pi, []⟩ .left)
  | .num s =>
    if isValue c.prev then none else some (cplace c ⟨.number, 7, some (ops.lit s), []⟩ .left)
  | .var s => if isValue c.prev then none else some (cplace c ⟨.var, 7, none, s⟩ .left)
  | .bad => none

/-- A list of accepted tokens. -/
def crun (ops : Ops K) : Cfg K → List Tok → Option (Cfg K)
  | c, [] => some c
  | c, tok :: l => (cstep ops c tok).bind fun c' => crun ops c' l

theorem crun_append (ops : Ops K) (c : Cfg K) (a b : List Tok) :
    crun ops c (a ++ b) = (crun ops c a).bind fun c' => crun ops c' b := by
  induction a generalizing c with
  | nil => rfl
  | cons x a ih =>
    simp only [List.cons_append, crun]
    cases cstep ops c x with
    | none => rfl
    | some c' => simp [ih]

/-- The state of the parser and its description. -/
structure Sim (root : Nat) (st : PState K) (c : Cfg K) : Prop where
  inv : Inv root st c.fs c.t c.stk
  prev : st.previous = c.prev
  two : st.twoParam = c.two
  bad : st.bad = false

theorem isValue_iff {id : NodeID} : isValue id = true ↔
    (id = .closeP ∨ id = .closeBar ∨ id = .factorial ∨ id = .number ∨ id = .var) := by
  cases id <;> simp [isValue]

theorem isSign_iff {id : NodeID} : isSign id = true ↔ (id = .positive ∨ id = .negative) := by
  cases id <;> simp [isSign]

theorem sim_plain {root : Nat} {st : PState K} {c : Cfg K} (h : Sim root st c)
    {item : Item K} {info : NodeInfo} (hp : PlainItem item info)
    (ho : item.id ≠ .openP) (hb : item.id ≠ .openBar) (h2 : 2 ≤ item.prec)
    (hv : item.id = .number ∨ item.id = .var → isValue c.prev = false)
    (hs : isSign item.id = true → isSign c.prev = false) :
    ∃ st', post st item info = .ok (st', true) ∧ Sim root st' (cplace c item info) := by
  obtain ⟨st', h1, h3, hbad, h4, hinv⟩ := h.inv.plain hp ho hb h2
  refine ⟨st', ?_, hinv, h3, h4.trans h.two, hbad.trans h.bad⟩
  simp only [post, ho, false_and, if_false, Res.pure_eq, Res.ok_bind, Bool.true_eq_false]
  rw [if_neg, if_neg, h1]
  · rw [← isSign_iff, ← isSign_iff, h.prev]
    rintro ⟨a, b⟩
    rw [hs a] at b
    simp at b
  · rw [← isValue_iff, h.prev]
    rintro ⟨a, b⟩
    simp only [ho, hb, false_or] at a
    rw [hv a] at b
    simp at b

theorem plain_left {p : Nat} {info : NodeInfo} {id : NodeID} (hi : info = .left ∨ info = .right)
    (h2 : 2 ≤ p) (h3 : id ≠ .closeP) (h4 : id ≠ .closeBar) (n : Option K) (s : List Char) :
    PlainItem (⟨id, p, n, s⟩ : Item K) info := by
  refine ⟨by rcases hi with rfl | rfl <;> simp, ⟨h3, h4⟩, fun q hq => ?_⟩
  rcases hi with rfl | rfl <;> simp [passes] at hq <;> omega

theorem plain_skip {p : Nat} {id : NodeID} (h3 : id ≠ .closeP) (h4 : id ≠ .closeBar)
    (n : Option K) (s : List Char) : PlainItem (⟨id, p, n, s⟩ : Item K) .skip :=
  ⟨by simp, ⟨h3, h4⟩, fun q hq => by simp [passes] at hq⟩

/-- One iteration of the loop after the token has been recognised. -/
def Accepts (root : Nat) (ops : Ops K) (st : PState K) (loc : Nat) (tok : Tok) (c' : Cfg K) : Prop :=
  ∃ p, pre ops st loc tok = .ok p ∧
    match p with
    | .brk _ => False
    | .cont st' => Sim root st' c'
    | .item st' node info => ∃ st'', post st' node info = .ok (st'', true) ∧ Sim root st'' c'

theorem pre_sign {st : PState K} {x y : Res (Pre K)} : (if st.previous = .number ∨
      st.previous = .var ∨ st.previous = .factorial ∨ st.previous = .closeP ∨
      st.previous = .closeBar then x else y) = if isValue st.previous then x else y := by
  by_cases h : isValue st.previous = true
  · rw [if_pos h, if_pos]
    rw [isValue_iff] at h
    tauto
  · rw [if_neg h, if_neg]
    rw [isValue_iff] at h
    tauto

theorem brOf_paren {f : Frame K} (h : brOf f = some .paren) : f.it.id = .openP := by
  by_contra hne
  simp only [brOf, hne, if_false] at h
  split_ifs at h
  simp at h

theorem brOf_bar {f : Frame K} (h : brOf f = some .bar) : f.it.id = .openBar := by
  by_contra hne
  simp only [brOf, hne, if_false] at h
  split_ifs at h
  simp at h

theorem sim_open {root : Nat} {st : PState K} {c : Cfg K} (h : Sim root st c)
    (hv : isValue (cmul c).prev = false) (loc : Nat) {ops : Ops K} :
    Accepts root ops st loc .openP
      ⟨⟨⟨.openP, 0, none, []⟩, .nil⟩ :: (cmul c).fs, .nil, .openP, .paren :: c.stk, c.two⟩ := by
  obtain ⟨hi, hprev, htwo, hbad⟩ := h
  set st1 : PState K := { st with
      numParens := ((enc c.stk).1.1 + 1) :: (enc c.stk).1.2
      parenLocs := loc :: st.parenLocs
      numBars := 0 :: st.numBars
      beginABS := false } with hst1
  refine ⟨.item st1 ⟨.openP, 0, none, []⟩ .skip, by simp [pre, hi.parens, hst1], ?_⟩
  have fin : ∀ (st2 : PState K) (gs : List (Frame K)), ZAt st2.mem root gs .nil st2.current →
      gs.filterMap brOf = c.stk → (∀ f ∈ gs, FrameOK f) → st2.numParens = st1.numParens →
      st2.numBars = st1.numBars → st2.beginABS = st1.beginABS → st2.parenLocs = st1.parenLocs →
      st2.barLocs = st1.barLocs → st2.twoParam = st1.twoParam → st2.bad = st1.bad →
      ∃ st3, place st2 ⟨.openP, 0, none, []⟩ .skip = .ok (st3, true) ∧
        Sim root st3 ⟨⟨⟨.openP, 0, none, []⟩, .nil⟩ :: gs, .nil, .openP, .paren :: c.stk, c.two⟩ := by
    intro st2 gs hz hbr hok e1 e2 e3 e4 e5 e6 e7
    obtain ⟨m', cur', h1, h2⟩ := Inv.opened (stk := c.stk) hz ⟨.openP, 0, none, []⟩ (.inl rfl)
    refine ⟨_, h1, ⟨h2, ?_, ?_, ?_, ?_, ?_, ?_, ?_, by simp, ?_, ?_⟩, rfl, ?_, ?_⟩
    · simp [brOf]; exact hbr
    · intro f hf
      rcases List.mem_cons.mp hf with rfl | hf
      · exact ⟨fun _ => ⟨rfl, rfl⟩, by simp, by simp⟩
      · exact hok f hf
    · simp [e1, hst1, enc]
    · simp [e2, hst1, enc, hi.bars]
    · simp [e3, hst1, enc]
    · simp [e4, hst1, hi.pl]
    · simp [e5, hst1, hi.bl]
    · simpa [e6, hst1] using hi.two
    · have := hi.alt
      show Alt (.paren :: c.stk)
      cases hs : c.stk with
      | nil => trivial
      | cons b s => rw [hs] at this; exact ⟨by simp, this⟩
    · simpa [e6, hst1] using htwo
    · simpa [e7, hst1] using hbad
  by_cases hcp : st.previous = .closeP
  · obtain ⟨m', cur', h1, h2⟩ := place_plain (st := st1) (item := itMul)
      (info := .left) hi.z (plain_left (.inl rfl) (by simp) (by simp) (by simp) none [])
    obtain ⟨hc1, hc2⟩ := zclimb_br (pass := passes .left 3)
      (fun q hq => by simp [passes] at hq; omega) c.fs c.t hi.ok
    have hprev1 : st1.previous = .closeP := hcp
    set st2 : PState K := ⟨m', cur', .multiplication, st1.beginABS, st1.twoParam, st1.barLocs,
      st1.parenLocs, st1.numParens, st1.numBars, st1.bad⟩ with hst2
    obtain ⟨st3, h3, h4⟩ := fin st2 _ h2 (by
        simp only [List.filterMap_cons, brOf, itMul]
        simpa using hc1.trans hi.br) (by
        intro f hf
        rcases List.mem_cons.mp hf with rfl | hf
        · exact ⟨by simp [itMul], by simp [itMul], by simp [itMul]⟩
        · exact hc2 f hf) rfl rfl rfl rfl rfl rfl rfl
    refine ⟨st3, ?_, ?_⟩
    · have h1' : place st1 ⟨.multiplication, 3, none, []⟩ .left = .ok (st2, true) := h1
      simp only [post, hprev1, and_self, if_true, h1', Res.ok_bind]
      simpa using h3
    · have : cmul c = cplace c itMul .left := by rw [cmul, if_pos (hprev ▸ hcp)]
      rw [this]
      exact h4
  · have hcm : cmul c = c := by rw [cmul, if_neg (hprev ▸ hcp)]
    rw [hcm] at hv ⊢
    have hval : ¬ (st.previous = .closeP ∨ st.previous = .closeBar ∨ st.previous = .factorial ∨
        st.previous = .number ∨ st.previous = .var) := by
      rw [← isValue_iff, hprev, hv]; simp
    have ht : c.t = .nil := by
      by_contra hne
      rcases hi.hole hne with e | e <;> exact hval (by simp [e])
    obtain ⟨st3, h3, h4⟩ := fin st1 c.fs (ht ▸ hi.z) hi.br hi.ok rfl rfl rfl rfl rfl rfl rfl
    refine ⟨st3, ?_, h4⟩
    have hprev1 : ¬ st1.previous = .closeP := hcp
    have hval1 : ¬ (st1.previous = .closeP ∨ st1.previous = .closeBar ∨ st1.previous = .factorial ∨
        st1.previous = .number ∨ st1.previous = .var) := hval
    simp only [post, hprev1, and_false, if_false, Res.pure_eq, Res.ok_bind, Bool.true_eq_false]
    rw [if_neg (fun h => hval1 (by simpa [hprev1] using h.2)), if_neg (by simp)]
    exact h3

theorem sim_close {root : Nat} {st : PState K} {c : Cfg K} (h : Sim root st c) {s : List Br}
    (hstk : c.stk = .paren :: s) {g : Frame K} {gs : List (Frame K)} {u : Tree K}
    (hcl : zclimb (passes .right 0) c.fs c.t = (g :: gs, u)) (loc : Nat) {ops : Ops K} :
    Accepts root ops st loc .closeP ⟨gs, u, .closeP, s, c.two⟩ := by
  obtain ⟨h, hprev, htwo, hbad⟩ := h
  rw [hstk] at h
  have hpl := h.pl
  obtain ⟨l, ls, hls⟩ : ∃ l ls, st.parenLocs = l :: ls := by
    cases hh : st.parenLocs with
    | nil => simp [hh] at hpl
    | cons l ls => exact ⟨l, ls, rfl⟩
  set st1 : PState K := { st with
      numParens := (enc s).1.1 :: (enc s).1.2
      numBars := (enc s).2.1 :: (enc s).2.2
      parenLocs := ls
      beginABS := decide ((enc s).2.1 ≠ 0) } with hst1
  refine ⟨.item st1 ⟨.closeP, 0, none, []⟩ .right, ?_, ?_⟩
  · simp [pre, h.parens, h.bars, enc, hls, hst1]
  · obtain ⟨f, fs', hzc, hbr, hfm, hfo, hoks⟩ := zclimb_to (pass := passes .right 0)
      (fun q hq => by simp [passes]; omega) .paren (by
        intro f hfo hbr
        simp [passes, (hfo.paren (brOf_paren hbr)).1]) s c.fs c.t h.ok h.br
    have hid := brOf_paren hbr
    have hee : g = f ∧ gs = fs' := by rw [hcl] at hzc; simpa using hzc
    obtain ⟨rfl, rfl⟩ := hee
    obtain ⟨m', cur', h1, h2⟩ := insert_refines (item := ⟨.closeP, 0, none, []⟩)
      (info := .right) (fs' := gs) (t' := u) h.z (by simp)
      (by simp [passes]) (by simp only [zinsert, hcl]; simp) (by
        intro _ g' hg
        rw [hcl] at hg
        simp at hg
        subst hg
        exact (hfo.paren hid).2)
    refine ⟨{ st1 with mem := m', current := cur', previous := .closeP }, ?_, ?_⟩
    · have h1' : insertNodeItem st1.mem (some st1.current) (⟨.closeP, 0, none, []⟩ : Item K)
          .right = .ok (m', some cur') := h1
      simp [post, place, h1']
    · refine ⟨⟨h2, hfm, hoks, rfl, rfl, rfl, ?_, ?_, by simp, h.two, h.alt.tail⟩, rfl, htwo, hbad⟩
      · have := h.pl
        simp [hls] at this
        simpa [hst1] using this
      · simpa [hst1] using h.bl

theorem sim_bar_close {root : Nat} {st : PState K} {c : Cfg K} (h : Sim root st c) {s : List Br}
    (hstk : c.stk = .bar :: s) {g : Frame K} {gs : List (Frame K)} {u : Tree K}
    (hcl : zclimb (passes .right 1) c.fs c.t = (g :: gs, u)) (loc : Nat) {ops : Ops K} :
    Accepts root ops st loc .bar
      ⟨gs, .node { g.it with id := .abs } g.left u, .closeBar, s, c.two⟩ := by
  obtain ⟨h, hprev, htwo, hbad⟩ := h
  rw [hstk] at h
  have hbl := h.bl
  obtain ⟨l, ls, hls⟩ : ∃ l ls, st.barLocs = l :: ls := by
    cases hh : st.barLocs with
    | nil => simp [hh] at hbl
    | cons l ls => exact ⟨l, ls, rfl⟩
  have hbegin : st.beginABS = true := by simp [h.abs, enc]
  set st1 : PState K := { st with
      beginABS := false
      numBars := (enc s).2.1 :: (enc s).2.2
      numParens := (enc s).1.1 :: (enc s).1.2
      barLocs := ls } with hst1
  refine ⟨.item st1 ⟨.closeBar, 1, none, []⟩ .right, ?_, ?_⟩
  · simp [pre, h.parens, h.bars, enc, hls, hst1, hbegin]
  · obtain ⟨f, fs', hzc, hbr, hfm, hfo, hoks⟩ := zclimb_to (pass := passes .right 1)
      (fun q hq => by simp [passes]; omega) .bar (by
        intro f hfo hbr
        simp [passes, hfo.bar (brOf_bar hbr)]) s c.fs c.t h.ok h.br
    have hee : g = f ∧ gs = fs' := by rw [hcl] at hzc; simpa using hzc
    obtain ⟨rfl, rfl⟩ := hee
    obtain ⟨m', cur', h1, h2⟩ := insert_refines (item := ⟨.closeBar, 1, none, []⟩)
      (info := .right) (fs' := gs) (t' := .node { g.it with id := .abs } g.left u) h.z (by simp)
      (by simp [passes]) (by simp only [zinsert, hcl]; simp) (by simp)
    refine ⟨{ st1 with mem := m', current := cur', previous := .closeBar }, ?_, ?_⟩
    · have h1' : insertNodeItem st1.mem (some st1.current) (⟨.closeBar, 1, none, []⟩ : Item K)
          .right = .ok (m', some cur') := h1
      simp [post, place, h1']
    · refine ⟨⟨h2, hfm, hoks, rfl, rfl, ?_, ?_, ?_, by simp, h.two, h.alt.tail⟩, rfl, htwo, hbad⟩
      · have := h.alt
        cases s with
        | nil => simp [hst1, enc]
        | cons b s =>
          cases b with
          | paren => simp [hst1, enc]
          | bar => exact absurd ⟨rfl, rfl⟩ this.1
      · simpa [hst1] using h.pl
      · have := h.bl
        simp [hls] at this
        simpa [hst1] using this

theorem sim_bar_open {root : Nat} {st : PState K} {c : Cfg K} (h : Sim root st c)
    (hstk : ∀ s, c.stk ≠ .bar :: s) (hv : isValue c.prev = false) (loc : Nat) {ops : Ops K} :
    Accepts root ops st loc .bar
      ⟨⟨⟨.openBar, 1, none, []⟩, .nil⟩ :: c.fs, .nil, .openBar, .bar :: c.stk, c.two⟩ := by
  obtain ⟨h, hprev, htwo, hbad⟩ := h
  have h0 : (enc c.stk).2.1 = 0 := by
    cases hs : c.stk with
    | nil => rfl
    | cons b s =>
      cases b with
      | paren => rfl
      | bar => exact absurd hs (hstk s)
  have hb : st.beginABS = false := by simp [h.abs, h0]
  set st1 : PState K := { st with
      beginABS := true
      numBars := ((enc c.stk).2.1 + 1) :: (enc c.stk).2.2
      barLocs := loc :: st.barLocs
      numParens := 0 :: st.numParens } with hst1
  refine ⟨.item st1 ⟨.openBar, 1, none, []⟩ .skip, by simp [pre, h.parens, h.bars, hb, hst1], ?_⟩
  have hval : ¬ (st.previous = .closeP ∨ st.previous = .closeBar ∨ st.previous = .factorial ∨
      st.previous = .number ∨ st.previous = .var) := by
    rw [← isValue_iff, hprev, hv]; simp
  have ht : c.t = .nil := by
    by_contra hne
    rcases h.hole hne with e | e <;> exact hval (by simp [e])
  obtain ⟨m', cur', h1, h2⟩ := Inv.opened (stk := c.stk) (st := st1) (ht ▸ h.z)
    ⟨.openBar, 1, none, []⟩ (.inr rfl)
  set st2 : PState K := ⟨m', cur', .openBar, st1.beginABS, st1.twoParam, st1.barLocs,
    st1.parenLocs, st1.numParens, st1.numBars, st1.bad⟩ with hst2
  refine ⟨st2, ?_, ⟨⟨h2, ?_, ?_, ?_, ?_, ?_, ?_, ?_, by simp, ?_, ?_⟩, rfl, htwo, hbad⟩⟩
  · have hval1 : ¬ (st1.previous = .closeP ∨ st1.previous = .closeBar ∨
      st1.previous = .factorial ∨ st1.previous = .number ∨ st1.previous = .var) := hval
    simp only [post, false_and, if_false, Res.pure_eq, Res.ok_bind, reduceCtorEq]
    simp only [hval1, and_false, if_false]
    simpa using h1
  · simp [brOf]; exact h.br
  · intro f hf
    rcases List.mem_cons.mp hf with rfl | hf
    · exact ⟨by simp, by simp, by simp⟩
    · exact h.ok f hf
  · simp [hst2, hst1, enc, h.parens]
  · simp [hst2, hst1, enc]
  · simp [hst2, hst1, enc]
  · simp [hst2, hst1, h.pl]
  · simp [hst2, hst1, h.bl]
  · simpa [hst2, hst1] using h.two
  · have := h.alt
    show Alt (.bar :: c.stk)
    cases hs : c.stk with
    | nil => trivial
    | cons b s =>
      rw [hs] at this
      refine ⟨?_, this⟩
      rintro ⟨_, rfl⟩
      exact hstk s hs

theorem isFn_ne {f : NodeID} (hf : isFn f = true) : f ≠ .closeP ∧ f ≠ .closeBar ∧ f ≠ .openP ∧
    f ≠ .openBar ∧ isSign f = false ∧ ¬ (f = .number ∨ f = .var) := by
  revert hf
  cases f <;> decide

/-- The loop body computes `cstep`. -/
theorem sim_step {root : Nat} {ops : Ops K} {st : PState K} {c c' : Cfg K} (h : Sim root st c)
    (loc : Nat) {tok : Tok} (hs : cstep ops c tok = some c') : Accepts root ops st loc tok c' := by
  have pl : ∀ {p info id n s}, info = .left ∨ info = .right → 2 ≤ p → id ≠ .closeP →
      id ≠ .closeBar → id ≠ .openP → id ≠ .openBar → isSign id = false →
      (id = .number ∨ id = .var → isValue c.prev = false) →
      ∃ st', post st (⟨id, p, n, s⟩ : Item K) info = .ok (st', true) ∧
        Sim root st' (cplace c ⟨id, p, n, s⟩ info) := by
    intro p info id n s hi h2 h3 h4 h5 h6 h7 h8
    exact sim_plain h (plain_left hi h2 h3 h4 n s) h5 h6 h2 h8 (by simp [h7])
  have val : ∀ {p id n s}, 2 ≤ p → (id = .number ∨ id = .var) →
      (if isValue c.prev then none else some (cplace c ⟨id, p, n, s⟩ .left)) = some c' →
      ∃ st', post st (⟨id, p, n, s⟩ : Item K) .left = .ok (st', true) ∧ Sim root st' c' := by
    intro p id n s h2 hid he
    split_ifs at he with hv
    cases he
    refine pl (.inl rfl) h2 ?_ ?_ ?_ ?_ ?_ fun _ => by simpa using hv
    all_goals rcases hid with rfl | rfl <;> simp [isSign]
  have sgn : ∀ {x y : NodeID}, (x = .addition ∨ x = .subtraction) → (isSign y = true) →
      (if isValue c.prev then some (cplace c ⟨x, 2, none, []⟩ .left)
        else if isSign c.prev then none else some (cplace c ⟨y, 5, none, []⟩ .skip)) = some c' →
      ∃ p, (if isValue st.previous then Res.ok (Pre.item st (⟨x, 2, none, []⟩ : Item K) .left)
        else Res.ok (Pre.item st (⟨y, 5, none, []⟩ : Item K) .skip)) = .ok p ∧
        match p with
        | .brk _ => False
        | .cont st' => Sim root st' c'
        | .item st' node info => ∃ st'', post st' node info = .ok (st'', true) ∧ Sim root st'' c' := by
    intro x y hx hy he
    rw [h.prev]
    split_ifs at he with hv hsg
    · cases he
      rw [if_pos hv]
      refine ⟨_, rfl, pl (.inl rfl) (by simp) ?_ ?_ ?_ ?_ ?_ ?_⟩
      all_goals rcases hx with rfl | rfl <;> simp [isSign]
    · cases he
      rw [if_neg hv]
      refine ⟨_, rfl, sim_plain h (plain_skip ?_ ?_ _ _) ?_ ?_ (by simp) ?_ fun _ => by
        simpa using hsg⟩
      all_goals rcases isSign_iff.mp hy with rfl | rfl <;> simp
  cases tok with
  | space => cases hs; exact ⟨_, rfl, h⟩
  | bad => simp [cstep] at hs
  | powName =>
    cases hs
    refine ⟨_, rfl, ⟨h.inv.z, h.inv.br, h.inv.ok, h.inv.parens, h.inv.bars, h.inv.abs, h.inv.pl,
      h.inv.bl, h.inv.hole, ?_, h.inv.alt⟩, h.prev, by simp [h.two], h.bad⟩
    intro f hf
    rcases List.mem_cons.mp hf with rfl | hf
    · rfl
    · exact h.inv.two f hf
  | star => cases hs; exact ⟨_, rfl, pl (.inl rfl) (by simp) (by simp) (by simp) (by simp) (by simp) rfl (by simp)⟩
  | slash => cases hs; exact ⟨_, rfl, pl (.inl rfl) (by simp) (by simp) (by simp) (by simp) (by simp) rfl (by simp)⟩
  | caret => cases hs; exact ⟨_, rfl, pl (.inr rfl) (by simp) (by simp) (by simp) (by simp) (by simp) rfl (by simp)⟩
  | bang => cases hs; exact ⟨_, rfl, pl (.inl rfl) (by simp) (by simp) (by simp) (by simp) (by simp) rfl (by simp)⟩
  | pi => exact ⟨_, rfl, val (by simp) (.inl rfl) hs⟩
  | num s => exact ⟨_, rfl, val (by simp) (.inl rfl) hs⟩
  | var s => exact ⟨_, rfl, val (by simp) (.inr rfl) hs⟩
  | fn f =>
    simp only [cstep] at hs
    split_ifs at hs with hf
    cases hs
    have hfn := isFn_ne hf
    exact ⟨_, rfl, pl (.inl rfl) (by simp) hfn.1 hfn.2.1 hfn.2.2.1 hfn.2.2.2.1 hfn.2.2.2.2.1
      fun h => absurd h hfn.2.2.2.2.2⟩
  | comma =>
    simp only [cstep] at hs
    cases htw : c.two with
    | nil => simp [htw] at hs
    | cons f l =>
      rw [htw] at hs
      simp only [Option.some.injEq] at hs
      have htw' : st.twoParam = f :: l := h.two.trans htw
      have hf : f = .power := h.inv.two f (by simp [htw'])
      subst hf
      have h' : Sim root { st with twoParam := l } ⟨c.fs, c.t, c.prev, c.stk, l⟩ :=
        ⟨⟨h.inv.z, h.inv.br, h.inv.ok, h.inv.parens, h.inv.bars, h.inv.abs, h.inv.pl, h.inv.bl,
          h.inv.hole, fun g hg => h.inv.two g (by simp [htw', show g ∈ l from hg]), h.inv.alt⟩,
          h.prev, rfl, h.bad⟩
      subst hs
      refine ⟨.item { st with twoParam := l } ⟨.power, 5, none, []⟩ .left, by simp [pre, htw'],
        sim_plain h' (plain_left (.inl rfl) ?_ ?_ ?_ _ _) ?_ ?_ ?_ ?_ ?_⟩
      all_goals simp [isSign]
  | plus =>
    simp only [Accepts, pre, pre_sign]
    exact sgn (.inl rfl) rfl hs
  | minus =>
    simp only [Accepts, pre, pre_sign]
    exact sgn (.inr rfl) rfl hs
  | openP =>
    simp only [cstep] at hs
    split_ifs at hs with hv
    cases hs
    exact sim_open h (by simpa using hv) loc
  | closeP =>
    simp only [cstep] at hs
    split at hs
    · rename_i s _ fs t e1 e2
      cases hs
      exact sim_close h e1 e2 loc
    · simp at hs
  | bar =>
    simp only [cstep] at hs
    split at hs
    · rename_i s f fs t e1 e2
      cases hs
      exact sim_bar_close h e1 e2 loc
    · simp at hs
    · rename_i s z hne1 hne2
      split_ifs at hs with hv
      cases hs
      refine sim_bar_open h ?_ (by simpa using hv) loc
      intro s' hs'
      generalize hz : zclimb (passes .right 1) c.fs c.t = Z at *
      obtain ⟨A, B⟩ := Z
      cases A with
      | nil => exact hne2 _ _ hs' rfl
      | cons a A => exact hne1 _ _ _ _ hs' rfl

end Plato.Ee
