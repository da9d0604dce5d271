import Verif.Common.Res

/-!
# The natural expression evaluator, at the level of nodes, pointers and characters

Model of `/repo/src/ExpressionEvaluator.cpp` and `.hpp`.  Nodes live in a store with addresses; every
dereference is checked (`nullptr` and freed cells are undefined behaviour); `new` and `delete` are
modelled.  Characters are consumed one iteration at a time as in the source.

Simplifications, all stated at the definitions:
* the text of an error message is not modelled, only whether one was written;
* `memcmp(expPtr-1, "sin", 3)` is a comparison that stops at the terminating NUL (in C++ it may read
  up to two bytes beyond it);
* arithmetic (`+`, `exp`, `sscanf("%lf")`, ...) is a parameter `Ops K`: nothing is assumed about it,
  so every theorem holds for IEEE doubles as well as for real numbers.
-/

namespace Plato.Ee

/-- `enum NodeID`, ExpressionEvaluator.hpp:26-56. -/
inductive NodeID where
  | empty | openP | closeP | openBar | closeBar | positive | negative
  | addition | subtraction | multiplication | division
  | exponential | log | power | sqrt | factorial | abs | sin | cos | tan
  | number | var
  deriving DecidableEq, Repr

/-- `enum NodeInfo`, ExpressionEvaluator.hpp:59-65. -/
inductive NodeInfo where
  | noInfo | skip | right | left
  deriving DecidableEq, Repr

/-- The arithmetic of the host: nothing is assumed about these functions. -/
structure Ops (K : Type) where
  /-- `sscanf(number, "%lf", &node.number)` -/
  lit : List Char → K
  /-- `M_PI` -/
  pi : K
  zero : K
  isZero : K → Bool
  pos : K → K
  neg : K → K
  add : K → K → K
  sub : K → K → K
  mul : K → K → K
  div : K → K → K
  exp : K → K
  log : K → K
  pow : K → K → K
  sqrt : K → K
  fact : K → K
  abs : K → K
  sin : K → K
  cos : K → K
  tan : K → K

/-- The part of `struct Node` copied by `*node = item`: identity, precedence and payload
(ExpressionEvaluator.hpp:69-78).  `number = none`: the member was never written. -/
structure Item (K : Type) where
  id : NodeID
  prec : Nat
  number : Option K := none
  name : List Char := []
  deriving DecidableEq, Repr

/-- `struct Node` (ExpressionEvaluator.hpp:69-78): payload and the three pointers. -/
structure Cell (K : Type) where
  item : Item K
  left : Option Nat
  right : Option Nat
  parent : Option Nat
  deriving DecidableEq, Repr

/-- The store of nodes: live cells and the next fresh address. -/
structure Mem (K : Type) where
  cell : Nat → Option (Cell K)
  next : Nat

variable {K : Type}

/-- Dereference for reading. -/
def Mem.ld (m : Mem K) (a : Nat) : Res (Cell K) :=
  match m.cell a with
  | some c => .ok c
  | none => .ub

/-- Overwrite the cell `a` (helper of the writes below). -/
def Mem.upd (m : Mem K) (a : Nat) (c : Option (Cell K)) : Mem K :=
  ⟨fun x => if x = a then c else m.cell x, m.next⟩

/-- `a->right = p`. -/
def Mem.setRight (m : Mem K) (a : Nat) (p : Option Nat) : Res (Mem K) := do
  let c ← m.ld a
  pure (m.upd a (some { c with right := p }))

/-- `a->parent = p`. -/
def Mem.setParent (m : Mem K) (a : Nat) (p : Option Nat) : Res (Mem K) := do
  let c ← m.ld a
  pure (m.upd a (some { c with parent := p }))

/-- `a->ID = id`. -/
def Mem.setId (m : Mem K) (a : Nat) (id : NodeID) : Res (Mem K) := do
  let c ← m.ld a
  pure (m.upd a (some { c with item := { c.item with id := id } }))

/-- `new Node`. -/
def Mem.alloc (m : Mem K) (c : Cell K) : Mem K × Nat :=
  (⟨fun x => if x = m.next then some c else m.cell x, m.next + 1⟩, m.next)

/-- `delete a` (deleting a freed cell is undefined). -/
def Mem.free (m : Mem K) (a : Nat) : Res (Mem K) := do
  let _ ← m.ld a
  pure (m.upd a none)

/-- `if( p != nullptr ) p->parent = q`. -/
def Mem.reparent (m : Mem K) (p : Option Nat) (q : Option Nat) : Res (Mem K) :=
  match p with
  | none => .ok m
  | some a => m.setParent a q

/-- `while( current && pass(current->precedence) ) current = current->parent;`
ExpressionEvaluator.cpp:384-394.  Running out of fuel models non-termination. -/
def climb (m : Mem K) (pass : Nat → Bool) : Nat → Option Nat → Res (Option Nat)
  | 0, _ => .ub
  | _ + 1, none => .ok none
  | n + 1, some a => do
      let c ← m.ld a
      if pass c.item.prec then climb m pass n c.parent else .ok (some a)

/-- Which nodes are climbed over, ExpressionEvaluator.cpp:381-399. -/
def passes (info : NodeInfo) (p : Nat) (q : Nat) : Bool :=
  match info with
  | .right => decide (q > p)
  | .left => decide (q ≥ p)
  | .skip => false
  | .noInfo => false

/-- `insert_node_item`, ExpressionEvaluator.cpp:367-468. -/
def insertNodeItem (m : Mem K) (current : Option Nat) (item : Item K) (info : NodeInfo) :
    Res (Mem K × Option Nat) := do
  if info = .noInfo then
    throwErr "Developer error: Can not add node, no node information."
  else
    let current ← climb m (passes info item.prec) (m.next + 1) current
    match current with
    | none => throwErr "Developer error: Can not add node, the current node is null."
    | some cur =>
      let c ← m.ld cur
      if item.id = .closeP then
        match c.parent with
        | some node =>
          let m ← m.setRight node c.right
          let m ← m.reparent c.right (some node)
          let m ← m.free cur
          pure (m, some node)
        | none => throwErr "Invalid expression: Found a close parenthesis"
      else if item.id = .closeBar then
        let m ← m.setId cur .abs
        pure (m, c.parent)
      else
        let (m, node) := m.alloc ⟨item, c.right, none, none⟩
        let m ← m.reparent c.right (some node)
        let m ← m.setRight cur (some node)
        let m ← m.setParent node (some cur)
        pure (m, some node)

/-- What the characters at `expPtr` stand for; one case per branch of the chain of
`else if` in `parse_expression`, ExpressionEvaluator.cpp:528-845. -/
inductive Tok where
  | space | openP | closeP | bar | plus | minus | star | slash | caret | bang
  /-- `sin`, `cos`, `tan`, `exp`, `log`, `sqrt`, `abs` -/
  | fn (f : NodeID)
  /-- `pow` -/
  | powName
  | comma
  | pi
  | num (s : List Char)
  | var (s : List Char)
  | bad
  deriving DecidableEq, Repr

def isDigit (c : Char) : Bool := decide ('0' ≤ c) && decide (c ≤ '9')

/-- First character of a variable, ExpressionEvaluator.cpp:801-803. -/
def isNameStart (c : Char) : Bool :=
  (decide ('a' ≤ c) && decide (c ≤ 'z')) || (decide ('A' ≤ c) && decide (c ≤ 'Z')) || c == '_'

/-- Following characters of a variable, ExpressionEvaluator.cpp:828-832. -/
def isNameChar (c : Char) : Bool := isNameStart c || isDigit c

/-- The loop that collects a number, ExpressionEvaluator.cpp:741-797.  `buf` are the characters
already stored (the array has 128 bytes).  Returns the number, the remaining text, and whether the
"exceeds the digit limit" message was written. -/
def scanNumber (buf : List Char) (c : Char) : List Char → List Char × List Char × Bool
  | [] =>
    let buf := buf ++ [c]
    if buf.length + 1 = 128 then (buf, [], true) else (buf, [], false)
  | d :: rest =>
    let buf := buf ++ [c]
    if buf.length + 1 = 128 then (buf, d :: rest, true)
    else if isDigit d || d == '.' then scanNumber buf d rest
    else if d == 'e' then
      let buf := buf ++ ['e']
      if buf.length + 1 = 128 then (buf, rest, true)
      else match rest with
        | [] => (buf, [], false)
        | d' :: rest' =>
          if isDigit d' || d' == '+' || d' == '-' then scanNumber buf d' rest'
          else (buf, d' :: rest', false)
    else (buf, d :: rest, false)

/-- The loop that collects a variable name, ExpressionEvaluator.cpp:805-836. -/
def scanName (buf : List Char) (c : Char) : List Char → List Char × List Char × Bool
  | [] =>
    let buf := buf ++ [c]
    if buf.length + 1 = 128 then (buf, [], true) else (buf, [], false)
  | d :: rest =>
    let buf := buf ++ [c]
    if buf.length + 1 = 128 then (buf, d :: rest, true)
    else if isNameChar d then scanName buf d rest
    else (buf, d :: rest, false)

/-- `0 == memcmp(expPtr-1, w, n)`. -/
def looksAt (w : List Char) (text : List Char) : Bool := w.isPrefixOf text

/-- Recognition of the next token: ExpressionEvaluator.cpp:526-845.  The text is not empty.
Returns the token, the text after it and whether an over-length message was written.  Skipping
beyond the terminating NUL (`"sqr"` at the end of the text) is undefined behaviour. -/
def scan (text : List Char) : Res (Tok × List Char × Bool) :=
  match text with
  | [] => .ub
  | c :: rest =>
    if c == ' ' || c == '\t' || c == '\r' || c == '\n' then .ok (.space, rest, false)
    else if c == '(' then .ok (.openP, rest, false)
    else if c == ')' then .ok (.closeP, rest, false)
    else if c == '|' then .ok (.bar, rest, false)
    else if c == '+' then .ok (.plus, rest, false)
    else if c == '-' then .ok (.minus, rest, false)
    else if c == '*' then .ok (.star, rest, false)
    else if c == '/' then .ok (.slash, rest, false)
    else if c == '^' then .ok (.caret, rest, false)
    else if c == '!' then .ok (.bang, rest, false)
    else if looksAt ['s', 'i', 'n'] text then .ok (.fn .sin, text.drop 3, false)
    else if looksAt ['c', 'o', 's'] text then .ok (.fn .cos, text.drop 3, false)
    else if looksAt ['t', 'a', 'n'] text then .ok (.fn .tan, text.drop 3, false)
    else if looksAt ['e', 'x', 'p'] text then .ok (.fn .exponential, text.drop 3, false)
    else if looksAt ['l', 'o', 'g'] text then .ok (.fn .log, text.drop 3, false)
    else if looksAt ['s', 'q', 'r'] text then
      if text.length < 4 then .ub else .ok (.fn .sqrt, text.drop 4, false)
    else if looksAt ['a', 'b', 's'] text then .ok (.fn .abs, text.drop 3, false)
    else if looksAt ['p', 'o', 'w'] text then .ok (.powName, text.drop 3, false)
    else if c == ',' then .ok (.comma, rest, false)
    else if looksAt ['P', 'I'] text then .ok (.pi, text.drop 2, false)
    else if isDigit c then
      let (s, rest, over) := scanNumber [] c rest
      .ok (.num s, rest, over)
    else if isNameStart c then
      let (s, rest, over) := scanName [] c rest
      .ok (.var s, rest, over)
    else .ok (.bad, rest, false)

/-- The local variables of `parse_expression`, ExpressionEvaluator.cpp:481-513.  Vectors are lists
with `back()` at the head; `previous` is only ever used through its `ID`; `bad` says that
`errorMsg` is not empty. -/
structure PState (K : Type) where
  mem : Mem K
  current : Nat
  previous : NodeID
  beginABS : Bool
  twoParam : List NodeID
  barLocs : List Nat
  parenLocs : List Nat
  numParens : List Nat
  numBars : List Nat
  bad : Bool

/-- What the chain of `else if` decides. -/
inductive Pre (K : Type) where
  /-- `errorMsg << ...; break;` -/
  | brk (st : PState K)
  /-- `continue;` -/
  | cont (st : PState K)
  /-- fall through with `node` and `info` set -/
  | item (st : PState K) (node : Item K) (info : NodeInfo)

/-- The effect of one recognised token before the node is inserted,
ExpressionEvaluator.cpp:528-845.  `loc` is `strlen(expression) - strlen(expPtr) - 1`. -/
def pre (ops : Ops K) (st : PState K) (loc : Nat) : Tok → Res (Pre K)
  | .space => .ok (.cont st)
  | .openP =>
    match st.numParens with
    | [] => .ub
    | n :: ns => .ok (.item { st with
        numParens := (n + 1) :: ns
        parenLocs := loc :: st.parenLocs
        numBars := 0 :: st.numBars
        beginABS := false } ⟨.openP, 0, none, []⟩ .skip)
  | .closeP =>
    match st.numParens, st.numBars with
    | n :: ns, b :: bs =>
      if n = 0 then .ok (.brk st)
      else if b > 0 then .ok (.brk st)
      else match bs, st.parenLocs with
        | b' :: _, _ :: ls => .ok (.item { st with
            numParens := (n - 1) :: ns
            numBars := bs
            parenLocs := ls
            beginABS := decide (b' ≠ 0) } ⟨.closeP, 0, none, []⟩ .right)
        | _, _ => .ub
    | _, _ => .ub
  | .bar =>
    match st.numParens, st.numBars with
    | n :: ns, b :: bs =>
      if st.beginABS = false then
        .ok (.item { st with
          beginABS := true
          numBars := (b + 1) :: bs
          barLocs := loc :: st.barLocs
          numParens := 0 :: st.numParens } ⟨.openBar, 1, none, []⟩ .skip)
      else
        if b = 0 then .ok (.brk { st with beginABS := false })
        else if n > 0 then .ok (.brk { st with beginABS := false })
        else match st.barLocs with
          | _ :: ls => .ok (.item { st with
              beginABS := false
              numBars := (b - 1) :: bs
              numParens := ns
              barLocs := ls } ⟨.closeBar, 1, none, []⟩ .right)
          | [] => .ub
    | _, _ => .ub
  | .plus =>
    if st.previous = .number ∨ st.previous = .var ∨ st.previous = .factorial ∨
       st.previous = .closeP ∨ st.previous = .closeBar then
      .ok (.item st ⟨.addition, 2, none, []⟩ .left)
    else .ok (.item st ⟨.positive, 5, none, []⟩ .skip)
  | .minus =>
    if st.previous = .number ∨ st.previous = .var ∨ st.previous = .factorial ∨
       st.previous = .closeP ∨ st.previous = .closeBar then
      .ok (.item st ⟨.subtraction, 2, none, []⟩ .left)
    else .ok (.item st ⟨.negative, 5, none, []⟩ .skip)
  | .star => .ok (.item st ⟨.multiplication, 3, none, []⟩ .left)
  | .slash => .ok (.item st ⟨.division, 3, none, []⟩ .left)
  | .caret => .ok (.item st ⟨.power, 4, none, []⟩ .right)
  | .bang => .ok (.item st ⟨.factorial, 6, none, []⟩ .left)
  | .fn f => .ok (.item st ⟨f, 7, none, []⟩ .left)
  | .powName => .ok (.cont { st with twoParam := .power :: st.twoParam })
  | .comma =>
    match st.twoParam with
    | f :: fs => .ok (.item { st with twoParam := fs } ⟨f, 5, none, []⟩ .left)
    | [] => .ok (.brk st)
  | .pi => .ok (.item st ⟨.number, 7, some ops.pi, []⟩ .left)
  | .num s => .ok (.item st ⟨.number, 7, some (ops.lit s), []⟩ .left)
  | .var s => .ok (.item st ⟨.var, 7, none, s⟩ .left)
  | .bad => .ok (.brk st)

/-- Insert a node and advance `current`/`previous`, ExpressionEvaluator.cpp:899-909 (and 861-864 for
the implicit multiplication). `current == nullptr` after the insertion is an error. -/
def place (st : PState K) (node : Item K) (info : NodeInfo) : Res (PState K × Bool) := do
  let (m, cur) ← insertNodeItem st.mem (some st.current) node info
  match cur with
  | none => pure ({ st with mem := m }, false)
  | some a => pure ({ st with mem := m, current := a, previous := node.id }, true)

/-- The checks after the chain and the insertion, ExpressionEvaluator.cpp:847-910.  The second
component is false when the loop is left by `break` with an error. -/
def post (st : PState K) (node : Item K) (info : NodeInfo) : Res (PState K × Bool) := do
  -- 847-867: a close parenthesis followed by an open one is a multiplication
  let (st, go) ← if node.id = .openP ∧ st.previous = .closeP then
      place st ⟨.multiplication, 3, none, []⟩ .left
    else pure (st, true)
  if go = false then
    -- `insert_node_item` never returns null for a multiplication; the source would go on with
    -- a null pointer here
    Res.ub
  -- 871-883: value after value
  else if (node.id = .openP ∨ node.id = .openBar ∨ node.id = .number ∨ node.id = .var) ∧
     (st.previous = .closeP ∨ st.previous = .closeBar ∨ st.previous = .factorial ∨
      st.previous = .number ∨ st.previous = .var) then
    pure (st, false)
  -- 887-898: sign after sign
  else if (node.id = .positive ∨ node.id = .negative) ∧
     (st.previous = .positive ∨ st.previous = .negative) then
    pure (st, false)
  else
    place st node info

/-- The `while( true )` loop, ExpressionEvaluator.cpp:515-910.  Returns the state, the text at
`expPtr`, and whether the loop was left at the terminating NUL (otherwise by an error `break`).
Every iteration consumes a character, so `text.length + 1` iterations suffice. -/
def loop (ops : Ops K) (total : Nat) : Nat → PState K → List Char →
    Res (PState K × List Char × Bool)
  | 0, _, _ => .ub
  | _ + 1, st, [] => .ok (st, [], true)
  | n + 1, st, c :: cs => do
    let (tok, rest, over) ← scan (c :: cs)
    let st := if over then { st with bad := true } else st
    let p ← pre ops st (total - rest.length - 1) tok
    match p with
    | .brk st => pure (st, rest, false)
    | .cont st => loop ops total n st rest
    | .item st node info =>
      let (st, go) ← post st node info
      if go then loop ops total n st rest else pure (st, rest, false)

/-- `deleteNode`, ExpressionEvaluator.cpp:141-150. -/
def deleteNode : Nat → Mem K → Option Nat → Res (Mem K)
  | 0, _, _ => .ub
  | _ + 1, m, none => .ok m
  | n + 1, m, some a => do
    let c ← m.ld a
    let m ← deleteNode n m c.left
    let m ← deleteNode n m c.right
    m.free a

/-- The object: its nodes and `mTree`. -/
structure Evaluator (K : Type) where
  mem : Mem K
  tree : Option Nat

/-- A newly constructed evaluator: ExpressionEvaluator.cpp:22-25, .hpp:110. -/
def Evaluator.new : Evaluator K := ⟨⟨fun _ => none, 0⟩, none⟩

/-- `delete_expression`, ExpressionEvaluator.cpp:154-159. -/
def Evaluator.delete (ev : Evaluator K) : Res (Evaluator K) := do
  let m ← deleteNode (ev.mem.next + 1) ev.mem ev.tree
  pure ⟨m, none⟩

/-- How `parse_expression` ends. -/
inductive Outcome where
  | returned | threw
  deriving DecidableEq, Repr

/-- The end of `parse_expression`, ExpressionEvaluator.cpp:912-1029: `atEnd` says that the loop was
left at the terminating NUL.  If an over-length message was written and the loop then ran to the
end, `strlen(expPtr)` starts behind the terminating NUL, which is undefined. -/
def finish (root : Nat) (st : PState K) (atEnd : Bool) : Res (Outcome × Evaluator K) := do
  if st.bad = true ∧ atEnd = true then Res.ub
  else
    let failed : Bool := st.bad || !atEnd || !st.parenLocs.isEmpty || !st.barLocs.isEmpty ||
      !st.twoParam.isEmpty
    let r ← st.mem.ld root
    let m ← st.mem.reparent r.right none
    if failed || r.right.isNone then
      let m ← deleteNode (m.next + 1) m r.right
      -- leaving the function ends the life time of the local `root`
      let m ← m.free root
      pure (.threw, ⟨m, none⟩)
    else
      let m ← m.free root
      pure (.returned, ⟨m, r.right⟩)

/-- The local variables at the start, ExpressionEvaluator.cpp:489-513; `root` is allocated. -/
def initState (m : Mem K) : PState K :=
  let (m, root) := m.alloc ⟨⟨.empty, 0, none, []⟩, none, none, none⟩
  { mem := m, current := root, previous := .empty, beginABS := false, twoParam := [],
    barLocs := [], parenLocs := [], numParens := [0], numBars := [0], bad := false }

/-- `parse_expression`, ExpressionEvaluator.cpp:472-1030, for a text that is not a null pointer.
An exception is reported as the outcome `threw` together with the state it leaves behind. -/
def Evaluator.parse (ops : Ops K) (ev : Evaluator K) (text : List Char) :
    Res (Outcome × Evaluator K) := do
  let ev ← match ev.tree with
    | some _ => ev.delete
    | none => pure ev
  let st0 := initState ev.mem
  let (st, _, atEnd) ← loop ops text.length (text.length + 1) st0 text
  finish st0.current st atEnd

/-- The recursion of `validateNode`, ExpressionEvaluator.cpp:165-291: throws or returns
`EMPTY_NODE`. -/
def validateNode (m : Mem K) : Nat → Option Nat → Res NodeID
  | 0, _ => .ub
  | _ + 1, none => .ok .empty
  | n + 1, some a => do
    let c ← m.ld a
    let l ← validateNode m n c.left
    if l ≠ .empty then pure l else
    let r ← validateNode m n c.right
    if r ≠ .empty then pure r else
    match c.item.id with
    | .addition | .subtraction | .multiplication | .division | .power =>
      if c.left = none then throwErr "No left side value"
      else if c.right = none then throwErr "No right side value"
      else pure .empty
    | .positive | .negative | .exponential | .log | .sqrt | .abs | .sin | .cos | .tan =>
      if c.right = none then throwErr "No value"
      else if c.left ≠ none then throwErr "Found a left side value"
      else pure .empty
    | .factorial =>
      if c.left = none then throwErr "No value"
      else if c.right ≠ none then throwErr "Found a right side value"
      else pure .empty
    | .openP | .closeP | .openBar | .closeBar => throwErr "bracket"
    | _ => pure .empty

/-- `validate_expression`, ExpressionEvaluator.cpp:295-300. -/
def Evaluator.validate (ev : Evaluator K) : Res Bool := do
  let r ← validateNode ev.mem (ev.mem.next + 1) ev.tree
  pure (decide (r ≠ .empty))

/-- `mParamList.get<Plato::Scalar>(name)`: throws when there is no such parameter. -/
def getParam (params : List Char → Option K) (name : List Char) : Res K :=
  match params name with
  | some v => .ok v
  | none => .err "Teuchos: no such parameter"

/-- `evaluateNode`, ExpressionEvaluator.cpp:316-356.  Reading a number that was never written is
undefined behaviour. -/
def evaluateNode (ops : Ops K) (params : List Char → Option K) (m : Mem K) :
    Nat → Option Nat → Res K
  | 0, _ => .ub
  | _ + 1, none => .ok ops.zero
  | n + 1, some a => do
    let c ← m.ld a
    let left ← evaluateNode ops params m n c.left
    let right ← evaluateNode ops params m n c.right
    if c.item.id = .division ∧ ops.isZero right = true then pure ops.zero
    else match c.item.id with
    | .positive => pure (ops.pos right)
    | .negative => pure (ops.neg right)
    | .addition => pure (ops.add left right)
    | .subtraction => pure (ops.sub left right)
    | .multiplication => pure (ops.mul left right)
    | .division => pure (ops.div left right)
    | .exponential => pure (ops.exp right)
    | .log => pure (ops.log right)
    | .power => pure (ops.pow left right)
    | .sqrt => pure (ops.sqrt right)
    | .factorial => pure (ops.fact left)
    | .abs => pure (ops.abs right)
    | .sin => pure (ops.sin right)
    | .cos => pure (ops.cos right)
    | .tan => pure (ops.tan right)
    | .number => match c.item.number with
      | some v => pure v
      | none => Res.ub
    | .var => getParam params c.item.name
    | _ => pure ops.zero

/-- `evaluate_expression`, ExpressionEvaluator.cpp:360-363. -/
def Evaluator.evaluate (ops : Ops K) (params : List Char → Option K) (ev : Evaluator K) : Res K :=
  evaluateNode ops params ev.mem (ev.mem.next + 1) ev.tree

end Plato.Ee
