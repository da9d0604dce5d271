import Verif.Expr.Grammar
import Verif.Expr.Steps

/-!
# Well formed expressions build their tree
-/

namespace Plato.Ee

variable {K : Type}

/-- The tokens of an expression. -/
def Fn.id : Fn → NodeID
  | .sin => .sin | .cos => .cos | .tan => .tan | .exp => .exponential | .log => .log
  | .sqrt => .sqrt | .abs => .abs

def BinOp.tok : BinOp → Tok
  | .add => .plus | .sub => .minus | .mul => .star | .div => .slash | .pow => .caret

def BinOp.id : BinOp → NodeID
  | .add => .addition | .sub => .subtraction | .mul => .multiplication | .div => .division
  | .pow => .power

def Expr.toks : Expr → List Tok
  | .num s => [.num s]
  | .pi => [.pi]
  | .var s => [.var s]
  | .paren e => .openP :: (e.toks ++ [.closeP])
  | .bars e => .bar :: (e.toks ++ [.bar])
  | .sgn neg e => (if neg then .minus else .plus) :: e.toks
  | .bin op a b => a.toks ++ op.tok :: b.toks
  | .fact e => e.toks ++ [.bang]
  | .fn f e => .fn f.id :: e.toks
  | .pow2 a b => .powName :: .openP :: (a.toks ++ .comma :: (b.toks ++ [.closeP]))
  | .juxt a b => a.toks ++ b.toks

/-- The tree of an expression. -/
def Expr.tree (ops : Ops K) : Expr → Tree K
  | .num s => .node ⟨.number, 7, some (ops.lit s), []⟩ .nil .nil
  | .pi => .node ⟨.number, 7, some ops.pi, []⟩ .nil .nil
  | .var s => .node ⟨.var, 7, none, s⟩ .nil .nil
  | .paren e => e.tree ops
  | .bars e => .node ⟨.abs, 1, none, []⟩ .nil (e.tree ops)
  | .sgn neg e => .node ⟨if neg then .negative else .positive, 5, none, []⟩ .nil (e.tree ops)
  | .bin op a b => .node ⟨op.id, op.level, none, []⟩ (a.tree ops) (b.tree ops)
  | .fact e => .node ⟨.factorial, 6, none, []⟩ (e.tree ops) .nil
  | .fn f e => .node ⟨f.id, 7, none, []⟩ .nil (e.tree ops)
  | .pow2 a b => .node ⟨.power, 5, none, []⟩ (a.tree ops) (b.tree ops)
  | .juxt a b => .node ⟨.multiplication, 3, none, []⟩ (a.tree ops) (b.tree ops)

/-- Precedence of the innermost frame. -/
def topPrec : List (Frame K) → Nat
  | [] => 0
  | f :: _ => f.it.prec

theorem zclimb_append {pass : Nat → Bool} : ∀ (F S : List (Frame K)) (t : Tree K),
    (∀ f ∈ F, pass f.it.prec = true) → zclimb pass (F ++ S) t = zclimb pass S (plug F t)
  | [], S, t, _ => rfl
  | f :: F, S, t, h => by
    simp only [List.cons_append, zclimb, h f (by simp), if_true, plug]
    exact zclimb_append F S _ fun g hg => h g (by simp [hg])

theorem zclimb_stop {pass : Nat → Bool} {S : List (Frame K)} {t : Tree K}
    (h : S = [] ∨ pass (topPrec S) = false) : zclimb pass S t = (S, t) := by
  cases S with
  | nil => rfl
  | cons f S =>
    rcases h with h | h
    · simp at h
    · simp only [zclimb, topPrec] at h ⊢
      simp [h]

theorem zclimb_all {pass : Nat → Bool} {F S : List (Frame K)} {t : Tree K}
    (hF : ∀ f ∈ F, pass f.it.prec = true) (hS : pass (topPrec S) = false) :
    zclimb pass (F ++ S) t = (S, plug F t) := by
  rw [zclimb_append F S t hF, zclimb_stop (.inr hS)]

theorem plug_append (F G : List (Frame K)) (t : Tree K) : plug (F ++ G) t = plug G (plug F t) := by
  induction F generalizing t with
  | nil => rfl
  | cons f F ih => simp [plug, ih]

/-- The context in which an expression may stand: the precedence of the innermost frame. -/
def Expr.fits (q : Nat) (e : Expr) : Prop :=
  q < e.level ∨ (q = e.level ∧ (q = 4 ∨ q = 5)) ∨ e.isArg = true

/-- The configuration after the tokens of an expression. -/
structure Built (ops : Ops K) (e : Expr) (S : List (Frame K)) (stk : List Br) (two : List NodeID)
    (c : Cfg K) : Prop where
  spine : ∃ F, c.fs = F ++ S ∧ plug F c.t = e.tree ops ∧ ∀ f ∈ F, e.level ≤ f.it.prec
  prev : isValue c.prev = true
  paren : e.endsParen = true → c.prev = .closeP
  stk : c.stk = stk
  two : c.two = two

theorem level_le (e : Expr) : 2 ≤ e.level ∧ e.level ≤ 7 := by
  cases e with
  | bin op a b => cases op <;> simp [Expr.level, BinOp.level]
  | fn f e => simp only [Expr.level]; split <;> omega
  | _ => simp [Expr.level]

theorem cstep_bar_open {ops : Ops K} {c : Cfg K} (h : ∀ s, c.stk ≠ .bar :: s)
    (hv : isValue c.prev = false) : cstep ops c .bar = some
      ⟨⟨⟨.openBar, 1, none, []⟩, .nil⟩ :: c.fs, .nil, .openBar, .bar :: c.stk, c.two⟩ := by
  simp only [cstep]
  split
  · rename_i s _ _ _ e _; exact absurd e (h s)
  · rename_i s _ e _; exact absurd e (h _)
  · simp [hv]

theorem cstep_open {ops : Ops K} {c : Cfg K} (hv : isValue c.prev = false) :
    cstep ops c .openP = some
      ⟨⟨⟨.openP, 0, none, []⟩, .nil⟩ :: c.fs, .nil, .openP, .paren :: c.stk, c.two⟩ := by
  have h : cmul c = c := by
    rw [cmul, if_neg]
    intro e; rw [e] at hv; simp [isValue] at hv
  simp [cstep, h, hv]

theorem startsParen_toks : ∀ (e : Expr), e.startsParen = true →
    ∃ l, e.toks = .openP :: l ∨ e.toks = .powName :: .openP :: l
  | .paren e, _ => ⟨_, .inl rfl⟩
  | .pow2 a b, _ => ⟨_, .inr rfl⟩
  | .bin op a b, h => by
    obtain ⟨l, hl | hl⟩ := startsParen_toks a h
    · exact ⟨l ++ op.tok :: b.toks, .inl (by simp [Expr.toks, hl])⟩
    · exact ⟨l ++ op.tok :: b.toks, .inr (by simp [Expr.toks, hl])⟩
  | .fact e, h => by
    obtain ⟨l, hl | hl⟩ := startsParen_toks e h
    · exact ⟨l ++ [.bang], .inl (by simp [Expr.toks, hl])⟩
    · exact ⟨l ++ [.bang], .inr (by simp [Expr.toks, hl])⟩
  | .juxt a b, h => by
    obtain ⟨l, hl | hl⟩ := startsParen_toks a h
    · exact ⟨l ++ b.toks, .inl (by simp [Expr.toks, hl])⟩
    · exact ⟨l ++ b.toks, .inr (by simp [Expr.toks, hl])⟩

/-- The implicit multiplication acts like an explicit one. -/
theorem crun_implicit {ops : Ops K} {c : Cfg K} (hp : c.prev = .closeP) {e : Expr}
    (hs : e.startsParen = true) : crun ops c e.toks = crun ops (cplace c itMul .left) e.toks := by
  obtain ⟨l, hl | hl⟩ := startsParen_toks e hs
  · rw [hl]
    simp only [crun, cstep]
    simp [cmul, hp, cplace, itMul]
  · rw [hl]
    simp only [crun, cstep, Option.bind_some]
    simp [cmul, hp, cplace, itMul]

theorem binop_step {ops : Ops K} {c : Cfg K} (op : BinOp) (hv : isValue c.prev = true) :
    cstep ops c op.tok = some (cplace c ⟨op.id, op.level, none, []⟩
      (if op = .pow then .right else .left)) := by
  cases op <;> simp [BinOp.tok, cstep, hv, BinOp.id, BinOp.level, itMul]

/-- The part shared by explicit and implicit binary operators. -/
theorem built_bin {ops : Ops K} {a b : Expr} {op : BinOp} {S : List (Frame K)} {stk : List Br}
    {two : List NodeID} {c1 : Cfg K} (ha : Built ops a S stk two c1) (hl : op.left a.level)
    (hr : op.right b.level)
    (hq : topPrec S < op.level ∨ (topPrec S = op.level ∧ op.level = 4))
    (ihb : ∀ c : Cfg K, c.stk = stk → c.t = .nil → isValue c.prev = false →
      isSign c.prev = false → b.fits (topPrec c.fs) →
      ∃ c', crun ops c b.toks = some c' ∧ Built ops b c.fs c.stk c.two c') :
    ∃ c', crun ops (cplace c1 ⟨op.id, op.level, none, []⟩ (if op = .pow then .right else .left))
      b.toks = some c' ∧ (∃ F, c'.fs = F ++ S ∧ plug F c'.t =
        .node ⟨op.id, op.level, none, []⟩ (a.tree ops) (b.tree ops) ∧
        ∀ f ∈ F, op.level ≤ f.it.prec) ∧ isValue c'.prev = true ∧
      (b.endsParen = true → c'.prev = .closeP) ∧ c'.stk = stk ∧ c'.two = two := by
  obtain ⟨⟨F, hF, hpl, hprec⟩, hpv, -, hstk, htwo⟩ := ha
  have hcl : zclimb (passes (if op = .pow then .right else .left) op.level) c1.fs c1.t =
      (S, a.tree ops) := by
    rw [hF, ← hpl]
    refine zclimb_all (fun f hf => ?_) ?_
    · have := hprec f hf
      cases op <;> simp [passes, BinOp.left, BinOp.level] at hl ⊢ <;> omega
    · cases op <;> simp [passes, BinOp.level] at hq ⊢ <;> omega
  have hc2 : cplace c1 ⟨op.id, op.level, none, []⟩ (if op = .pow then .right else .left) =
      ⟨⟨⟨op.id, op.level, none, []⟩, a.tree ops⟩ :: S, .nil, op.id, stk, two⟩ := by
    simp only [cplace, hcl, hstk, htwo]
  rw [hc2]
  obtain ⟨c', h1, ⟨F', hF', hpl', hprec'⟩, hv', hp', hs', ht'⟩ := ihb
    ⟨⟨⟨op.id, op.level, none, []⟩, a.tree ops⟩ :: S, .nil, op.id, stk, two⟩ rfl rfl
    (by cases op <;> rfl) (by cases op <;> rfl) (by
      simp only [topPrec, Expr.fits]
      cases op <;> simp [BinOp.right, BinOp.level] at hr ⊢ <;> omega)
  refine ⟨c', h1, ⟨F' ++ [⟨⟨op.id, op.level, none, []⟩, a.tree ops⟩], by simp [hF'], ?_, ?_⟩, hv', hp',
    hs', ht'⟩
  · rw [plug_append, hpl']; rfl
  · intro f hf
    rcases List.mem_append.mp hf with hf | hf
    · have := hprec' f hf
      cases op <;> simp [BinOp.right, BinOp.level] at hr ⊢ <;> omega
    · simp at hf; subst hf; exact le_refl _

theorem zclimb_skip {p : Nat} (S : List (Frame K)) (t : Tree K) :
    zclimb (passes .skip p) S t = (S, t) := zclimb_stop (.inr rfl)

theorem cplace_seven {c : Cfg K} {id : NodeID} {n : Option K} {s : List Char} (ht : c.t = .nil)
    (hq : topPrec c.fs < 7) : cplace c ⟨id, 7, n, s⟩ .left =
      ⟨⟨⟨id, 7, n, s⟩, .nil⟩ :: c.fs, .nil, id, c.stk, c.two⟩ := by
  simp only [cplace]
  rw [zclimb_stop (.inr (by simp [passes]; omega)), ht]

/-- The innermost bracket is not a bar unless the expression allows for it. -/
def BarOK (inb : Bool) (stk : List Br) : Prop := inb = false → ∀ s, stk ≠ .bar :: s

/-- The tokens of a well formed expression build its tree. -/
theorem build (ops : Ops K) : ∀ (e : Expr) (inb : Bool) (c : Cfg K), e.WF inb → BarOK inb c.stk →
    c.t = .nil → isValue c.prev = false → (isSign c.prev = true → 6 ≤ e.level) →
    e.fits (topPrec c.fs) → ∃ c', crun ops c e.toks = some c' ∧ Built ops e c.fs c.stk c.two c'
  | .num s, inb, c, hwf, hbar, ht, hv, hs, hf => by
    have hq : topPrec c.fs < 7 := by simp [Expr.fits, Expr.level, Expr.isArg] at hf; omega
    refine ⟨⟨⟨⟨.number, 7, some (ops.lit s), []⟩, .nil⟩ :: c.fs, .nil, .number, c.stk, c.two⟩, ?_, ⟨[_], rfl, rfl, by
      simp [Expr.level]⟩, rfl, by simp [Expr.endsParen], rfl, rfl⟩
    simp [Expr.toks, crun, cstep, hv, cplace_seven ht hq]
  | .pi, inb, c, hwf, hbar, ht, hv, hs, hf => by
    have hq : topPrec c.fs < 7 := by simp [Expr.fits, Expr.level, Expr.isArg] at hf; omega
    refine ⟨⟨⟨⟨.number, 7, some ops.pi, []⟩, .nil⟩ :: c.fs, .nil, .number, c.stk, c.two⟩, ?_, ⟨[_], rfl, rfl, by
      simp [Expr.level]⟩, rfl, by simp [Expr.endsParen], rfl, rfl⟩
    simp [Expr.toks, crun, cstep, hv, cplace_seven ht hq]
  | .var s, inb, c, hwf, hbar, ht, hv, hs, hf => by
    have hq : topPrec c.fs < 7 := by simp [Expr.fits, Expr.level, Expr.isArg] at hf; omega
    refine ⟨⟨⟨⟨.var, 7, none, s⟩, .nil⟩ :: c.fs, .nil, .var, c.stk, c.two⟩, ?_, ⟨[_], rfl, rfl, by
      simp [Expr.level]⟩, rfl, by simp [Expr.endsParen], rfl, rfl⟩
    simp [Expr.toks, crun, cstep, hv, cplace_seven ht hq]
  | .paren e, inb, c, hwf, hbar, ht, hv, hs, hf => by
    obtain ⟨c1, h1, ⟨F, hF, hpl, hprec⟩, hv1, -, hs1, ht1⟩ := build ops e false
      ⟨⟨⟨.openP, 0, none, []⟩, .nil⟩ :: c.fs, .nil, .openP, .paren :: c.stk, c.two⟩ hwf
      (fun _ s => by simp) rfl rfl (by simp [isSign])
      (.inl (by have := level_le e; simp [topPrec]; omega))
    have hcl : zclimb (passes .right 0) c1.fs c1.t =
        (⟨⟨.openP, 0, none, []⟩, .nil⟩ :: c.fs, e.tree ops) := by
      rw [hF, ← hpl]
      refine zclimb_all (fun f hf => ?_) (by simp [passes, topPrec])
      have := hprec f hf
      have := level_le e
      simp [passes]; omega
    refine ⟨⟨c.fs, e.tree ops, .closeP, c.stk, c.two⟩, ?_, ⟨[], rfl, rfl, by simp⟩, rfl,
      fun _ => rfl, rfl, rfl⟩
    simp only [Expr.toks, crun, cstep_open hv, Option.bind_some, crun_append, h1]
    simp [cstep, hs1, hcl, ht1]
  | .bars e, inb, c, hwf, hbar, ht, hv, hs, hf => by
    obtain ⟨c1, h1, ⟨F, hF, hpl, hprec⟩, hv1, -, hs1, ht1⟩ := build ops e true
      ⟨⟨⟨.openBar, 1, none, []⟩, .nil⟩ :: c.fs, .nil, .openBar, .bar :: c.stk, c.two⟩ hwf.2
      (fun h => by simp at h) rfl rfl (by simp [isSign])
      (.inl (by have := level_le e; simp [topPrec]; omega))
    have hcl : zclimb (passes .right 1) c1.fs c1.t =
        (⟨⟨.openBar, 1, none, []⟩, .nil⟩ :: c.fs, e.tree ops) := by
      rw [hF, ← hpl]
      refine zclimb_all (fun f hf => ?_) (by simp [passes, topPrec])
      have := hprec f hf
      have := level_le e
      simp [passes]; omega
    refine ⟨⟨c.fs, .node ⟨.abs, 1, none, []⟩ .nil (e.tree ops), .closeBar, c.stk, c.two⟩, ?_,
      ⟨[], rfl, rfl, by simp⟩, rfl, by simp [Expr.endsParen], rfl, rfl⟩
    simp only [Expr.toks, crun, cstep_bar_open (hbar hwf.1) hv, Option.bind_some, crun_append, h1]
    simp [cstep, hs1, hcl, ht1]
  | .sgn neg e, inb, c, hwf, hbar, ht, hv, hs, hf => by
    have hns : isSign c.prev = false := by
      cases h : isSign c.prev with
      | false => rfl
      | true => have := hs h; simp [Expr.level] at this
    have hstep : cstep ops c (if neg then .minus else .plus) = some
        ⟨⟨⟨if neg then .negative else .positive, 5, none, []⟩, .nil⟩ :: c.fs, .nil,
          if neg then .negative else .positive, c.stk, c.two⟩ := by
      cases neg <;> simp [cstep, hv, hns, cplace, zclimb_skip, ht]
    obtain ⟨c1, h1, ⟨F, hF, hpl, hprec⟩, hv1, hp1, hs1, ht1⟩ := build ops e inb
      ⟨⟨⟨if neg then .negative else .positive, 5, none, []⟩, .nil⟩ :: c.fs, .nil,
          if neg then .negative else .positive, c.stk, c.two⟩ hwf.2
      hbar rfl (by cases neg <;> rfl) (fun _ => hwf.1)
      (.inl (by have := hwf.1; simp [topPrec]; omega))
    refine ⟨c1, ?_, ⟨F ++ [⟨⟨if neg then .negative else .positive, 5, none, []⟩, .nil⟩], by simp [hF],
      ?_, ?_⟩, hv1, hp1, hs1, ht1⟩
    · simp only [Expr.toks, crun, hstep, Option.bind_some, h1]
    · rw [plug_append, hpl]; rfl
    · intro f hf
      rcases List.mem_append.mp hf with hf | hf
      · have := hprec f hf
        have := hwf.1
        simp [Expr.level]; omega
      · simp at hf; subst hf; simp [Expr.level]
  | .bin op a b, inb, c, hwf, hbar, ht, hv, hs, hf => by
    obtain ⟨hl, hr, hwa, hwb⟩ := hwf
    have hlev : op.level ≤ 4 := by cases op <;> simp [BinOp.level]
    have hns : isSign c.prev = false := by
      cases h : isSign c.prev with
      | false => rfl
      | true => have := hs h; simp [Expr.level] at this; omega
    have hq : topPrec c.fs < op.level ∨ (topPrec c.fs = op.level ∧ op.level = 4) := by
      simp [Expr.fits, Expr.level, Expr.isArg] at hf; omega
    obtain ⟨c1, h1, hB⟩ := build ops a inb c hwa hbar ht hv (by simp [hns]) (.inl (by
      cases op <;> simp [BinOp.left, BinOp.level] at hl hq ⊢ <;> omega))
    obtain ⟨c', h2, h3, h4, h5, h6, h7⟩ := built_bin hB hl hr hq fun c2 e1 e2 e3 e4 e5 =>
      build ops b inb c2 hwb (e1 ▸ hbar) e2 e3 (by simp [e4]) e5
    refine ⟨c', ?_, h3, h4, h5, h6, h7⟩
    simp only [Expr.toks, crun_append, h1, Option.bind_some, crun, binop_step op hB.prev, h2]
  | .juxt a b, inb, c, hwf, hbar, ht, hv, hs, hf => by
    obtain ⟨hl, hr, hea, hsb, hwa, hwb⟩ := hwf
    have hns : isSign c.prev = false := by
      cases h : isSign c.prev with
      | false => rfl
      | true => have := hs h; simp [Expr.level] at this
    have hq : topPrec c.fs < 3 := by simp [Expr.fits, Expr.level, Expr.isArg] at hf; omega
    obtain ⟨c1, h1, hB⟩ := build ops a inb c hwa hbar ht hv (by simp [hns]) (.inl (by omega))
    obtain ⟨c', h2, h3, h4, h5, h6, h7⟩ := built_bin (op := .mul) hB hl hr (.inl hq)
      fun c2 e1 e2 e3 e4 e5 => build ops b inb c2 hwb (e1 ▸ hbar) e2 e3 (by simp [e4]) e5
    refine ⟨c', ?_, h3, h4, h5, h6, h7⟩
    simp only [Expr.toks, crun_append, h1, Option.bind_some]
    rw [crun_implicit (hB.paren hea) hsb]
    exact h2
  | .fact e, inb, c, hwf, hbar, ht, hv, hs, hf => by
    have hq : topPrec c.fs < 6 := by simp [Expr.fits, Expr.level, Expr.isArg] at hf; omega
    obtain ⟨c1, h1, ⟨F, hF, hpl, hprec⟩, hv1, hp1, hs1, ht1⟩ := build ops e inb c hwf.2 hbar ht hv
      (fun _ => hwf.1) (.inl (by have := hwf.1; omega))
    have hcl : zclimb (passes .left 6) c1.fs c1.t = (c.fs, e.tree ops) := by
      rw [hF, ← hpl]
      refine zclimb_all (fun f hf => ?_) (by simp [passes]; omega)
      have := hprec f hf
      have := hwf.1
      simp [passes]; omega
    refine ⟨⟨⟨⟨.factorial, 6, none, []⟩, e.tree ops⟩ :: c.fs, .nil, .factorial, c.stk, c.two⟩, ?_,
      ⟨[_], rfl, rfl, by simp [Expr.level]⟩, rfl, by simp [Expr.endsParen], rfl, rfl⟩
    simp only [Expr.toks, crun_append, h1, Option.bind_some, crun, cstep, cplace, hcl, hs1, ht1]
  | .fn f e, inb, c, hwf, hbar, ht, hv, hs, hf => by
    have hq : topPrec c.fs < 7 := by
      simp only [Expr.fits, Expr.level, Expr.isArg] at hf
      split at hf <;> simp at hf <;> omega
    have hstep : cstep ops c (.fn f.id) = some
        ⟨⟨⟨f.id, 7, none, []⟩, .nil⟩ :: c.fs, .nil, f.id, c.stk, c.two⟩ := by
      have : isFn f.id = true := by cases f <;> rfl
      simp [cstep, this, cplace_seven ht hq]
    obtain ⟨c1, h1, ⟨F, hF, hpl, hprec⟩, hv1, hp1, hs1, ht1⟩ := build ops e inb
      ⟨⟨⟨f.id, 7, none, []⟩, .nil⟩ :: c.fs, .nil, f.id, c.stk, c.two⟩ hwf.2
      hbar rfl (by cases f <;> rfl) (by cases f <;> simp [Fn.id, isSign]) (.inr (.inr hwf.1))
    refine ⟨c1, ?_, ⟨F ++ [⟨⟨f.id, 7, none, []⟩, .nil⟩], by simp [hF], ?_, ?_⟩, hv1, hp1, hs1, ht1⟩
    · simp only [Expr.toks, crun, hstep, Option.bind_some, h1]
    · rw [plug_append, hpl]; rfl
    · intro g hg
      rcases List.mem_append.mp hg with hg | hg
      · have := hprec g hg
        have ha := hwf.1
        cases e <;> simp [Expr.isArg] at ha <;> simp [Expr.level, Expr.isSgn] at this ⊢ <;> exact this
      · simp at hg; subst hg
        exact (level_le (.fn f e)).2
  | .pow2 a b, inb, c, hwf, hbar, ht, hv, hs, hf => by
    obtain ⟨hla, hlb, hwa, hwb⟩ := hwf
    obtain ⟨c1, h1, ⟨F, hF, hpl, hprec⟩, hv1, -, hs1, ht1⟩ := build ops a false
      ⟨⟨⟨.openP, 0, none, []⟩, .nil⟩ :: c.fs, .nil, .openP, .paren :: c.stk, .power :: c.two⟩ hwa
      (fun _ s => by simp) rfl rfl (by simp [isSign])
      (.inl (by have := level_le a; simp [topPrec]; omega))
    have hcl : zclimb (passes .left 5) c1.fs c1.t =
        (⟨⟨.openP, 0, none, []⟩, .nil⟩ :: c.fs, a.tree ops) := by
      rw [hF, ← hpl]
      refine zclimb_all (fun f hf => ?_) (by simp [passes, topPrec])
      have := hprec f hf
      simp [passes]; omega
    have hcomma : cstep ops c1 .comma = some ⟨⟨⟨.power, 5, none, []⟩, a.tree ops⟩ ::
        ⟨⟨.openP, 0, none, []⟩, .nil⟩ :: c.fs, .nil, .power, .paren :: c.stk, c.two⟩ := by
      simp [cstep, ht1, cplace, hcl, hs1]
    obtain ⟨c2, h2, ⟨F', hF', hpl', hprec'⟩, hv2, -, hs2, ht2⟩ := build ops b false
      ⟨⟨⟨.power, 5, none, []⟩, a.tree ops⟩ ::
        ⟨⟨.openP, 0, none, []⟩, .nil⟩ :: c.fs, .nil, .power, .paren :: c.stk, c.two⟩ hwb
      (fun _ s => by simp) rfl rfl (by simp [isSign])
      ((Nat.lt_or_eq_of_le hlb).elim .inl fun h => .inr (.inl ⟨h, .inr rfl⟩))
    have hcl2 : zclimb (passes .right 0) c2.fs c2.t = (⟨⟨.openP, 0, none, []⟩, .nil⟩ :: c.fs,
        .node ⟨.power, 5, none, []⟩ (a.tree ops) (b.tree ops)) := by
      have e : c2.fs = (F' ++ [⟨⟨.power, 5, none, []⟩, a.tree ops⟩]) ++
          (⟨⟨.openP, 0, none, []⟩, .nil⟩ :: c.fs) := by simp [hF']
      rw [e, zclimb_all (fun f hf => ?_) (by simp [passes, topPrec]), plug_append, hpl']
      · rfl
      · rcases List.mem_append.mp hf with hf | hf
        · have := hprec' f hf
          simp [passes]; omega
        · simp at hf; subst hf; simp [passes]
    refine ⟨⟨c.fs, .node ⟨.power, 5, none, []⟩ (a.tree ops) (b.tree ops), .closeP, c.stk, c.two⟩, ?_,
      ⟨[], rfl, rfl, by simp⟩, rfl, fun _ => rfl, rfl, rfl⟩
    have hopen := cstep_open (ops := ops)
      (c := ⟨c.fs, c.t, c.prev, c.stk, NodeID.power :: c.two⟩) hv
    simp only [Expr.toks, crun]
    rw [show cstep ops c .powName = some ⟨c.fs, c.t, c.prev, c.stk, NodeID.power :: c.two⟩ from rfl]
    simp only [Option.bind_some, hopen, crun_append, h1, crun, hcomma, h2]
    simp [cstep, hs2, hcl2, ht2]

end Plato.Ee
