import Verif.Expr.Model

/-!
# Expressions: the specification (C12, C13)

Abstract expressions, their value, and how they are written.  Nothing here refers to the parser.

Precedence levels, from weak to strong: `+ -` (2, left to right), `* /` and juxtaposed parentheses
(3, left to right), `^` (4, right to left), signs (5), `!` (6), and numbers, variables, brackets,
function applications (7).
-/

namespace Plato.Ee

variable {K : Type}

/-- Functions of one argument. -/
inductive Fn where
  | sin | cos | tan | exp | log | sqrt | abs
  deriving DecidableEq, Repr

/-- Binary operators. -/
inductive BinOp where
  | add | sub | mul | div | pow
  deriving DecidableEq, Repr

/-- Expressions as written: brackets are kept. -/
inductive Expr where
  | num (s : List Char)
  | pi
  | var (s : List Char)
  /-- `( e )` -/
  | paren (e : Expr)
  /-- `| e |` -/
  | bars (e : Expr)
  /-- `- e` or `+ e` -/
  | sgn (neg : Bool) (e : Expr)
  | bin (op : BinOp) (a b : Expr)
  /-- `e !` -/
  | fact (e : Expr)
  /-- `sin e` -/
  | fn (f : Fn) (e : Expr)
  /-- `pow ( a , b )` -/
  | pow2 (a b : Expr)
  /-- `a b`, where `a` ends with `)` and `b` begins with `(` -/
  | juxt (a b : Expr)
  deriving Repr

/-! ### Values -/

def Fn.apply (ops : Ops K) : Fn → K → K
  | .sin => ops.sin | .cos => ops.cos | .tan => ops.tan | .exp => ops.exp | .log => ops.log
  | .sqrt => ops.sqrt | .abs => ops.abs

/-- Division by zero is defined to give zero. -/
def BinOp.apply (ops : Ops K) : BinOp → K → K → K
  | .add => ops.add | .sub => ops.sub | .mul => ops.mul | .pow => ops.pow
  | .div => fun a b => if ops.isZero b = true then ops.zero else ops.div a b

/-- The value of an expression; none when a variable has no value. -/
def Expr.value (ops : Ops K) (params : List Char → Option K) : Expr → Option K
  | .num s => some (ops.lit s)
  | .pi => some ops.pi
  | .var s => params s
  | .paren e => e.value ops params
  | .bars e => (e.value ops params).map ops.abs
  | .sgn neg e => (e.value ops params).map (if neg then ops.neg else ops.pos)
  | .bin op a b => (a.value ops params).bind fun x => (b.value ops params).map (op.apply ops x)
  | .fact e => (e.value ops params).map ops.fact
  | .fn f e => (e.value ops params).map (f.apply ops)
  | .pow2 a b => (a.value ops params).bind fun x => (b.value ops params).map (ops.pow x)
  | .juxt a b => (a.value ops params).bind fun x => (b.value ops params).map (ops.mul x)

/-! ### Writing -/

def Fn.name : Fn → List Char
  | .sin => ['s', 'i', 'n'] | .cos => ['c', 'o', 's'] | .tan => ['t', 'a', 'n']
  | .exp => ['e', 'x', 'p'] | .log => ['l', 'o', 'g'] | .sqrt => ['s', 'q', 'r', 't']
  | .abs => ['a', 'b', 's']

def BinOp.sym : BinOp → Char
  | .add => '+' | .sub => '-' | .mul => '*' | .div => '/' | .pow => '^'

/-- The words of an expression. -/
def Expr.words : Expr → List (List Char)
  | .num s => [s]
  | .pi => [['P', 'I']]
  | .var s => [s]
  | .paren e => ['('] :: (e.words ++ [[')']])
  | .bars e => ['|'] :: (e.words ++ [['|']])
  | .sgn neg e => (if neg then ['-'] else ['+']) :: e.words
  | .bin op a b => a.words ++ [op.sym] :: b.words
  | .fact e => e.words ++ [['!']]
  | .fn f e => f.name :: e.words
  | .pow2 a b => ['p', 'o', 'w'] :: ['('] :: (a.words ++ [','] :: (b.words ++ [[')']]))
  | .juxt a b => a.words ++ b.words

def isBlank (c : Char) : Bool := c == ' ' || c == '\t' || c == '\r' || c == '\n'

/-- `text` consists of the words, with any blanks before, between and after them. -/
inductive Layout : List (List Char) → List Char → Prop
  | nil {b : List Char} : (∀ c ∈ b, isBlank c = true) → Layout [] b
  | cons {b w text : List Char} {ws : List (List Char)} : (∀ c ∈ b, isBlank c = true) →
      Layout ws text → Layout (w :: ws) (b ++ w ++ text)

/-! ### Well formed expressions -/

def BinOp.level : BinOp → Nat
  | .add => 2 | .sub => 2 | .mul => 3 | .div => 3 | .pow => 4

/-- A bracket or a signed expression: what a function name may be followed by. -/
def Expr.isArg : Expr → Bool
  | .paren _ | .bars _ | .sgn _ _ => true
  | _ => false

def Expr.isSgn : Expr → Bool
  | .sgn _ _ => true
  | _ => false

/-- The weakest operator outside brackets. -/
def Expr.level : Expr → Nat
  | .sgn _ _ => 5
  | .bin op _ _ => op.level
  | .fact _ => 6
  | .fn _ e => if e.isSgn then 5 else 7
  | .juxt _ _ => 3
  | _ => 7

/-- Whether `b` may be the right operand. -/
def BinOp.right (op : BinOp) (l : Nat) : Prop :=
  match op with
  | .pow => 4 ≤ l
  | op => op.level < l

/-- Whether `a` may be the left operand. -/
def BinOp.left (op : BinOp) (l : Nat) : Prop :=
  match op with
  | .pow => 4 < l
  | op => op.level ≤ l

/-- The first word is `(` or `pow`. -/
def Expr.startsParen : Expr → Bool
  | .paren _ | .pow2 _ _ => true
  | .bin _ a _ => a.startsParen
  | .fact e => e.startsParen
  | .juxt a _ => a.startsParen
  | _ => false

/-- The last word is `)`. -/
def Expr.endsParen : Expr → Bool
  | .paren _ | .pow2 _ _ => true
  | .bin _ _ b => b.endsParen
  | .sgn _ e => e.endsParen
  | .fn _ e => e.endsParen
  | .juxt _ b => b.endsParen
  | _ => false

/-- The part of a number after its first digit: digits, points, and `e` followed by a digit or
sign. -/
def numTail : List Char → Bool
  | [] => true
  | 'e' :: d :: r => (d.isDigit || d == '+' || d == '-') && numTail r
  | c :: r => (c.isDigit || c == '.') && numTail r

/-- Numbers of at most 126 characters. -/
def NumLit (s : List Char) : Prop :=
  ∃ c r, s = c :: r ∧ c.isDigit = true ∧ numTail r = true ∧ s.length ≤ 126

/-- The words that the parser recognises before variables. -/
def reserved : List (List Char) :=
  [['s', 'i', 'n'], ['c', 'o', 's'], ['t', 'a', 'n'], ['e', 'x', 'p'], ['l', 'o', 'g'],
    ['s', 'q', 'r'], ['a', 'b', 's'], ['p', 'o', 'w'], ['P', 'I']]

def isLetter (c : Char) : Bool := c.isAlpha || c == '_'

/-- Names of at most 126 characters that do not begin with a reserved word. -/
def VarName (s : List Char) : Prop :=
  ∃ c r, s = c :: r ∧ isLetter c = true ∧ (∀ d ∈ r, (isLetter d || d.isDigit) = true) ∧
    s.length ≤ 126 ∧ ∀ w ∈ reserved, ¬ w <+: s

/-- Well formed expressions; `inBar` says that the innermost enclosing bracket is a bar. -/
def Expr.WF : Bool → Expr → Prop
  | _, .num s => NumLit s
  | _, .pi => True
  | _, .var s => VarName s
  | _, .paren e => e.WF false
  | b, .bars e => b = false ∧ e.WF true
  | b, .sgn _ e => 6 ≤ e.level ∧ e.WF b
  | b, .bin op x y => op.left x.level ∧ op.right y.level ∧ x.WF b ∧ y.WF b
  | b, .fact e => 6 ≤ e.level ∧ e.WF b
  | b, .fn _ e => e.isArg = true ∧ e.WF b
  | _, .pow2 x y => 5 ≤ x.level ∧ 5 ≤ y.level ∧ x.WF false ∧ y.WF false
  | b, .juxt x y => 3 ≤ x.level ∧ 3 < y.level ∧ x.endsParen = true ∧ y.startsParen = true ∧
      x.WF b ∧ y.WF b

end Plato.Ee
