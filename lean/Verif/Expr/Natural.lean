import Verif.Expr.Lex

/-!
# C12, C13: the natural expression grammar

For every well formed expression, however it is laid out, `parse_expression` succeeds,
`validate_expression` returns 0, and `evaluate_expression` returns the value of the expression.
Arithmetic is arbitrary (`Ops K`).
-/

namespace Plato.Ee

variable {K : Type}

theorem tree_not_nil (ops : Ops K) : ∀ e : Expr, (e.tree ops).isNil = false
  | .paren e => tree_not_nil ops e
  | .num _ | .pi | .var _ | .bars _ | .sgn _ _ | .bin _ _ _ | .fact _ | .fn _ _ | .pow2 _ _
  | .juxt _ _ => rfl

theorem nil_isNil : (Tree.nil : Tree K).isNil = true := rfl

theorem validate_tree (ops : Ops K) : ∀ e : Expr, tvalidate (e.tree ops) = .ok .empty
  | .paren e => validate_tree ops e
  | .num _ => rfl
  | .pi => rfl
  | .var _ => rfl
  | .bars e => by
    simp [Expr.tree, tvalidate, validate_tree ops e, tree_not_nil, nil_isNil]
  | .sgn neg e => by
    cases neg <;> simp [Expr.tree, tvalidate, validate_tree ops e, tree_not_nil, nil_isNil]
  | .bin op a b => by
    cases op <;> simp [Expr.tree, tvalidate, validate_tree ops a, validate_tree ops b, tree_not_nil,
      BinOp.id]
  | .fact e => by
    simp [Expr.tree, tvalidate, validate_tree ops e, tree_not_nil, nil_isNil]
  | .fn f e => by
    cases f <;> simp [Expr.tree, tvalidate, validate_tree ops e, tree_not_nil, nil_isNil, Fn.id]
  | .pow2 a b => by
    simp [Expr.tree, tvalidate, validate_tree ops a, validate_tree ops b, tree_not_nil]
  | .juxt a b => by
    simp [Expr.tree, tvalidate, validate_tree ops a, validate_tree ops b, tree_not_nil]

/-- The result of `evaluate_expression` for a value: an unknown variable throws. -/
def Gives (r : Res K) : Option K → Prop
  | some v => r = .ok v
  | none => ∃ msg, r = .err msg

theorem Gives.map {r : Res K} {v : Option K} (h : Gives r v) (f : K → K) {r' : Res K}
    (hr : r' = (do let x ← r; pure (f x))) : Gives r' (v.map f) := by
  cases v with
  | none => obtain ⟨msg, rfl⟩ := h; exact ⟨msg, hr⟩
  | some v => cases h; exact hr

theorem Gives.map₂ {r s : Res K} {v w : Option K} (h : Gives r v) (h' : Gives s w) (f : K → K → K)
    {r' : Res K} (hr : r' = (do let x ← r; let y ← s; pure (f x y))) :
    Gives r' (v.bind fun x => w.map (f x)) := by
  cases v with
  | none => obtain ⟨msg, rfl⟩ := h; exact ⟨msg, hr⟩
  | some v =>
    cases h
    cases w with
    | none => obtain ⟨msg, rfl⟩ := h'; exact ⟨msg, hr⟩
    | some w => cases h'; exact hr

theorem eval_tree (ops : Ops K) (params : List Char → Option K) : ∀ e : Expr,
    Gives (teval ops params (e.tree ops)) (e.value ops params)
  | .paren e => eval_tree ops params e
  | .num _ => rfl
  | .pi => rfl
  | .var s => by
    simp only [Expr.tree, teval, Expr.value, Res.ok_bind]
    cases h : params s with
    | none => exact ⟨"Teuchos: no such parameter", by simp [getParam, h]⟩
    | some v => simp [Gives, getParam, h]
  | .bars e => (eval_tree ops params e).map ops.abs (by simp [Expr.tree, teval])
  | .sgn neg e => (eval_tree ops params e).map (if neg then ops.neg else ops.pos) (by
      cases neg <;> simp [Expr.tree, teval])
  | .fact e => (eval_tree ops params e).map ops.fact (by simp [Expr.tree, teval])
  | .fn f e => (eval_tree ops params e).map (f.apply ops) (by
      cases f <;> simp [Expr.tree, teval, Fn.id, Fn.apply])
  | .bin op a b => (eval_tree ops params a).map₂ (eval_tree ops params b) (op.apply ops) (by
      cases op <;> simp [Expr.tree, teval, BinOp.id, BinOp.apply]
      congr 1
      funext x
      congr 1
      funext y
      split <;> rfl)
  | .pow2 a b => (eval_tree ops params a).map₂ (eval_tree ops params b) ops.pow (by
      simp [Expr.tree, teval])
  | .juxt a b => (eval_tree ops params a).map₂ (eval_tree ops params b) ops.mul (by
      simp [Expr.tree, teval])

/-- A text whose tokens are all accepted, with every bracket and every `pow` completed. -/
theorem parse_accepted (ops : Ops K) {ev : Evaluator K} {t0 : Tree K} (hev : ev.Holds t0)
    {toks : List Tok} (hch : toks.IsChain Sep) (hok : ∀ t ∈ toks, TokOK t) {c' : Cfg K}
    (hrun : crun ops ⟨[], .nil, .empty, [], []⟩ toks = some c') (hstk : c'.stk = [])
    (htwo : c'.two = []) {t : Tree K} (htree : plug c'.fs c'.t = t) (hnil : t.isNil = false)
    {text : List Char} (hl : Layout (toks.map spell) text) :
    ∃ ev', ev.parse ops text = .ok (.returned, ev') ∧ ev'.Holds t := by
  obtain ⟨ev1, hempty, hparse⟩ := parse_start hev
  have hinv := init_inv hempty
  have hsim : Sim (initState ev1.mem).current (initState ev1.mem) ⟨[], .nil, .empty, [], []⟩ :=
    ⟨hinv, rfl, rfl, rfl⟩
  obtain ⟨st, hloop, hs⟩ := loop_layout (total := text.length) (n := text.length + 1) hl hch hok hsim
    hrun (by omega)
  obtain ⟨out, ev', hfin, hcases⟩ := finish_ok hs.inv.z true (by simp [hs.bad])
  have hpl' : st.parenLocs = [] := by
    have := hs.inv.pl; rw [hstk] at this; simpa using this
  have hbl' : st.barLocs = [] := by
    have := hs.inv.bl; rw [hstk] at this; simpa using this
  rcases hcases with ⟨-, -, -, h | h⟩ | ⟨rfl, hholds, -⟩
  · simp [hs.bad, hpl', hbl', hs.two, htwo] at h
  · rw [htree] at h
    rw [h] at hnil
    simp [Tree.isNil] at hnil
  · rw [htree] at hholds
    refine ⟨ev', ?_, hholds⟩
    rw [hparse, hloop]
    exact hfin

/-- **C12.**  For every evaluator in any consistent earlier state, every well formed expression and
every layout of its words: the text is parsed without exception, validation returns 0, and evaluation
returns the value of the expression (or throws when one of its variables has no value).

Missing from the full statement: function names followed by a number, a name or another function
(`C12_false_fn`), variables whose names begin with a reserved word (`C12_false_name`), arguments of
`pow` with an unbracketed operator (`C13_false`), and words of more than 126 characters. -/
theorem C12_partial (ops : Ops K) (params : List Char → Option K) {ev : Evaluator K} {t0 : Tree K}
    (hev : ev.Holds t0) {e : Expr} (hwf : e.WF false) {text : List Char}
    (hl : Layout e.words text) :
    ∃ ev', ev.parse ops text = .ok (.returned, ev') ∧ ev'.validate = .ok false ∧
      Gives (ev'.evaluate ops params) (e.value ops params) ∧ ∃ t, ev'.Holds t := by
  obtain ⟨c', hrun, ⟨F, hF, hpl, -⟩, -, -, hstk, htwo⟩ := build ops e false
    ⟨[], .nil, .empty, [], []⟩ hwf (fun _ s => by simp) rfl rfl (by simp [isSign])
    (.inl (by have := level_le e; simp [topPrec]; omega))
  rw [words_eq] at hl
  obtain ⟨ev', h1, hholds⟩ := parse_accepted ops hev (toks_chain e _ hwf) (toks_ok e _ hwf) hrun hstk
    htwo (t := e.tree ops) (by rw [hF]; simpa using hpl) (tree_not_nil ops e) hl
  refine ⟨ev', h1, ?_, ?_, _, hholds⟩
  · rw [hholds.validate, validate_tree]
    rfl
  · rw [hholds.evaluate]
    exact eval_tree ops params e

/-- An expression that meets the hypotheses: `-2 * (x + 1.5e-3)^2!(y)`. -/
example : (Expr.juxt (.bin .mul (.sgn true (.num ['2'])) (.bin .pow
      (.paren (.bin .add (.var ['x']) (.num "1.5e-3".toList))) (.paren (.fact (.num ['2'])))))
      (.paren (.var ['y']))).WF false := by
  have hx : ∀ c : Char, c = 'x' ∨ c = 'y' → VarName [c] := by
    rintro c (rfl | rfl)
    · exact ⟨'x', [], rfl, by decide, by decide, by decide, by decide⟩
    · exact ⟨'y', [], rfl, by decide, by decide, by decide, by decide⟩
  have h2 : NumLit ['2'] := ⟨'2', [], rfl, by decide, by decide, by decide⟩
  have h3 : NumLit "1.5e-3".toList := ⟨'1', ".5e-3".toList, by decide, by decide, by decide, by decide⟩
  refine ⟨by decide, by decide, rfl, rfl, ⟨by simp [BinOp.left, BinOp.level, Expr.level], by
    simp [BinOp.right, BinOp.level, Expr.level], ⟨by decide, h2⟩, by
      simp [BinOp.left, Expr.level], by simp [BinOp.right, Expr.level],
      ⟨by simp [BinOp.left, BinOp.level, Expr.level], by simp [BinOp.right, BinOp.level, Expr.level],
        hx _ (.inl rfl), h3⟩, ⟨by decide, h2⟩⟩, hx _ (.inr rfl)⟩

/-- **C13.**  `pow(a,b)` is `a` raised to `b`, in every layout, for all arguments in which every
operator weaker than a sign is bracketed.  Without that condition it is false: `C13_false`. -/
theorem C13_partial (ops : Ops K) (params : List Char → Option K) {ev : Evaluator K} {t0 : Tree K}
    (hev : ev.Holds t0) {a b : Expr} (ha : a.WF false) (hb : b.WF false) (hla : 5 ≤ a.level)
    (hlb : 5 ≤ b.level) {x y : K} (hx : a.value ops params = some x) (hy : b.value ops params = some y)
    {text : List Char} (hl : Layout (Expr.pow2 a b).words text) :
    ∃ ev', ev.parse ops text = .ok (.returned, ev') ∧ ev'.validate = .ok false ∧
      ev'.evaluate ops params = .ok (ops.pow x y) := by
  obtain ⟨ev', h1, h2, h3, -⟩ := C12_partial ops params hev (e := .pow2 a b)
    ⟨hla, hlb, ha, hb⟩ hl
  refine ⟨ev', h1, h2, ?_⟩
  simpa [Expr.value, hx, hy, Gives] using h3

/-- Brackets make every argument acceptable: `pow((a),(b))` works for all `a` and `b`. -/
theorem C13_bracketed (ops : Ops K) (params : List Char → Option K) {ev : Evaluator K} {t0 : Tree K}
    (hev : ev.Holds t0) {a b : Expr} (ha : a.WF false) (hb : b.WF false) {x y : K}
    (hx : a.value ops params = some x) (hy : b.value ops params = some y) {text : List Char}
    (hl : Layout (Expr.pow2 (.paren a) (.paren b)).words text) :
    ∃ ev', ev.parse ops text = .ok (.returned, ev') ∧ ev'.validate = .ok false ∧
      ev'.evaluate ops params = .ok (ops.pow x y) :=
  C13_partial ops params hev (a := .paren a) (b := .paren b) ha hb (by simp [Expr.level])
    (by simp [Expr.level]) hx hy hl

/-- The text of an expression without blanks. -/
def Expr.text (e : Expr) : List Char := e.words.flatten

theorem layout_flatten : ∀ ws : List (List Char), Layout ws ws.flatten
  | [] => .nil (by simp)
  | w :: ws => by
    have := Layout.cons (b := []) (w := w) (by simp) (layout_flatten ws)
    simpa using this

/-- The expression `pow(1+2,3)`, and `pow(2,3+1)`. -/
def powSum : Expr := .pow2 (.bin .add (.num ['1']) (.num ['2'])) (.num ['3'])

@[inherit_doc powSum]
def powSum' : Expr := .pow2 (.num ['2']) (.bin .add (.num ['3']) (.num ['1']))

/-- The full statement of C13 is false: an unbracketed sum as an argument of `pow` is regrouped.
`pow(1+2,3)` gives `1 + 2^3`, and `pow(2,3+1)` gives `2^3 + 1`, in every layout. -/
theorem C13_false (ops : Ops K) (params : List Char → Option K) {ev : Evaluator K} {t0 : Tree K}
    (hev : ev.Holds t0) :
    (∀ text, Layout powSum.words text → ∃ ev', ev.parse ops text = .ok (.returned, ev') ∧
      ev'.evaluate ops params =
        .ok (ops.add (ops.lit ['1']) (ops.pow (ops.lit ['2']) (ops.lit ['3'])))) ∧
    (∀ text, Layout powSum'.words text → ∃ ev', ev.parse ops text = .ok (.returned, ev') ∧
      ev'.evaluate ops params =
        .ok (ops.add (ops.pow (ops.lit ['2']) (ops.lit ['3'])) (ops.lit ['1']))) ∧
    powSum.value ops params =
      some (ops.pow (ops.add (ops.lit ['1']) (ops.lit ['2'])) (ops.lit ['3'])) ∧
    powSum'.value ops params =
      some (ops.pow (ops.lit ['2']) (ops.add (ops.lit ['3']) (ops.lit ['1']))) := by
  have hd : ∀ c : Char, c = '1' ∨ c = '2' ∨ c = '3' → NumLit [c] := by
    rintro c (rfl | rfl | rfl)
    · exact ⟨'1', [], rfl, by decide, by decide, by decide⟩
    · exact ⟨'2', [], rfl, by decide, by decide, by decide⟩
    · exact ⟨'3', [], rfl, by decide, by decide, by decide⟩
  have h1 := hd _ (.inl rfl)
  have h2 := hd _ (.inr (.inl rfl))
  have h3 := hd _ (.inr (.inr rfl))
  have hch : powSum.toks.IsChain Sep ∧ powSum'.toks.IsChain Sep := by
    constructor <;> simp [powSum, powSum', Expr.toks, BinOp.tok, Sep, isWordTok, isSymTok]
  refine ⟨fun text hl => ?_, fun text hl => ?_, rfl, rfl⟩
  · rw [words_eq] at hl
    obtain ⟨ev', e1, e2⟩ := parse_accepted ops hev hch.1 (by
      intro t ht
      simp [powSum, Expr.toks, BinOp.tok] at ht
      rcases ht with rfl | rfl | rfl | rfl | rfl | rfl | rfl | rfl <;>
        trivial) rfl rfl rfl rfl rfl hl
    exact ⟨ev', e1, by rw [e2.evaluate]; rfl⟩
  · rw [words_eq] at hl
    obtain ⟨ev', e1, e2⟩ := parse_accepted ops hev hch.2 (by
      intro t ht
      simp [powSum', Expr.toks, BinOp.tok] at ht
      rcases ht with rfl | rfl | rfl | rfl | rfl | rfl | rfl | rfl <;>
        trivial) rfl rfl rfl rfl rfl hl
    exact ⟨ev', e1, by rw [e2.evaluate]; rfl⟩

set_option maxHeartbeats 4000000 in
/-- Variables whose name begins with the name of a function are not recognised: `cost` is read as
`cos` applied to nothing. -/
theorem C12_false_name (ops : Ops K) (params : List Char → Option K) :
    run ops params "cost".toList = .err "No value" := rfl

set_option maxHeartbeats 4000000 in
/-- A function name must be followed by a bracket or a sign. -/
theorem C12_false_fn (ops : Ops K) (params : List Char → Option K) :
    run ops params "sin 2".toList = .err "No value" := rfl

set_option maxHeartbeats 4000000 in
/-- A sign binds more strongly than `^`: `-2^2` is the square of `-2`. -/
theorem C12_sign_power (ops : Ops K) (params : List Char → Option K) :
    run ops params "-2^2".toList =
      .ok (.returned, false, ops.pow (ops.neg (ops.lit ['2'])) (ops.lit ['2'])) := rfl

end Plato.Ee
