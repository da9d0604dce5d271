import Verif.Common.Res

/-!
# Custom equations of materials

Model of `CustomMaterial::GetCustomExpressionValue` (CustomMaterial.cpp): an equation of the parameter list, or one of
a table in a file, is found and evaluated.

A file is the list of its characters; `std::getline` is modelled with the flags of the stream, because it leaves the
line as it is when the stream is not good.  Parsing, validation and evaluation of the expression are a parameter
(`ExpressionEvaluator` is modelled in Verif/Expr).
-/

namespace Plato.Bingo
open Plato

abbrev Line := List Char

/-- Characters of an input stream that are left, and its flags `eofbit` and `failbit`. -/
structure Stream where
  rest : List Char
  eof : Bool
  fail : Bool
  deriving DecidableEq

/-- `std::getline(stream, line)`: success, stream and line.  A stream that is not good fails and leaves the line; else
the line is erased and filled up to a newline or the end; no character at all is a failure. -/
def getline (s : Stream) (line : Line) : Bool × Stream × Line :=
  if s.eof || s.fail then (false, { s with fail := true }, line)
  else
    match s.rest.dropWhile (· ≠ '\n') with
    | _ :: r => (true, ⟨r, false, false⟩, s.rest.takeWhile (· ≠ '\n'))
    | [] => if s.rest = [] then (false, ⟨[], true, true⟩, []) else (true, ⟨[], true, false⟩, s.rest)

/-- `line.find(text) != std::string::npos`. -/
def contains : Line → Line → Bool
  | [], text => text.isEmpty
  | c :: line, text => text.isPrefixOf (c :: line) || contains line text

/-- Header of the table, CustomMaterial.cpp:86-88. -/
def isHeader (line : Line) : Bool :=
  contains line ['F', 'I', 'T', 'N', 'E', 'S', 'S'] && contains line ['C', 'O', 'M', 'P', 'L', 'E', 'X', 'I', 'T', 'Y'] && contains line ['E', 'Q', 'U', 'A', 'T', 'I', 'O', 'N']

/-- `while( std::getline(infile, line) && equationIndex > 0) --equationIndex;`, CustomMaterial.cpp:93-94. -/
def skip : Nat → Stream → Line → Nat × Stream × Line
  | 0, s, line => let g := getline s line; (0, g.2)
  | n + 1, s, line =>
    let g := getline s line
    if g.1 then skip n g.2.1 g.2.2 else (n + 1, g.2)

/-- `line.substr(found + 1)` behind the last comma, CustomMaterial.cpp:102-111. -/
def afterComma (line : Line) : Option Line :=
  if ',' ∈ line then some (line.reverse.takeWhile (· ≠ ',')).reverse else none

/-- The loop over the lines of the file, CustomMaterial.cpp:79-117; `fuel` is larger than the number of lines
(`scan_fuel` in Verif/Bingo/Props.lean).  Arguments: number of the equation, stream, line, equation found before. -/
def scan : Nat → Nat → Stream → Line → Line → Res Line
  | 0, _, _, _, found => .ok found
  | fuel + 1, idx, s, line, found =>
    let g := getline s line
    if !g.1 then .ok found
    else if g.2.2.isEmpty then scan fuel idx g.2.1 g.2.2 found
    else if isHeader g.2.2 then
      let q := skip idx g.2.1 []
      if q.2.2.isEmpty || q.1 != 0 then .err "Cannot find Bingo equation requested."
      else
        match afterComma q.2.2 with
        | some eq => scan fuel q.1 q.2.1 q.2.2 eq
        | none => .err "Malformed Bingo equation found"
    else scan fuel idx g.2.1 g.2.2 found

/-- The equation of a file, CustomMaterial.cpp:72-122; `none` is a file that cannot be opened. -/
def fromFile (idx : Nat) : Option (List Char) → Res Line
  | none => .err "Cannot open Bingo file"
  | some text => scan (text.length + 2) idx ⟨text, false, false⟩ [] []

/-- What the parameter list has: the equation, the file, the number of the equation. -/
structure Params where
  equation : Option Line
  file : Option (Option (List Char))
  number : Option Int

/-- Number of the equation, CustomMaterial.cpp:45-57.  A negative number of the parameter list is used as it is: the loop
does not skip and the test `equationIndex != 0` throws. -/
def numberOf (arg : Int) (p : Params) : Int :=
  if arg < 0 then p.number.getD 0 else arg

/-- The string of the equation, CustomMaterial.cpp:30-128. -/
def equationOf (arg : Int) (p : Params) : Res Line := do
  let eq ← match p.equation, p.file with
    | some e, _ => pure e
    | none, some f =>
      if numberOf arg p < 0 then
        match f with
        | none => .err "Cannot open Bingo file"
        | some text => negative (text.length + 2) ⟨text, false, false⟩ []
      else fromFile (numberOf arg p).toNat f
    | none, none => pure []
  if eq.isEmpty then .err "No custom equation found." else pure eq
where
  /-- The loop with a negative number: the first header throws. -/
  negative : Nat → Stream → Line → Res Line
    | 0, _, _ => .ok []
    | fuel + 1, s, line =>
      let g := getline s line
      if !g.1 then .ok []
      else if g.2.2.isEmpty then negative fuel g.2.1 g.2.2
      else if isHeader g.2.2 then .err "Cannot find Bingo equation requested."
      else negative fuel g.2.1 g.2.2

/-- `GetCustomExpressionValue`, CustomMaterial.cpp:24-155.  `eval` parses, validates (`none` if the expression is not
valid) and evaluates. -/
def value {R : Type} [Zero R] (eval : Line → Res (Option R)) (arg : Int) (p : Params) : Res R := do
  let eq ← equationOf arg p
  let v ← eval eq
  match v with
  | some x => pure x
  | none => pure 0

end Plato.Bingo
