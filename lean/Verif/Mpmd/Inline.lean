import Verif.Common.Res
import Mathlib.Data.Real.Basic

/-!
# Model of parameters named by a target (/repo/src/Analyze_App.cpp:1473-1548)

`split`, `parseInline`, `getInnerList`, `setParameterValue`: a target such as `[Material]:[Steel]:Density` or
`Traction(1)` names an entry of a parameter list.  Texts are lists of characters.  A `Teuchos::ParameterList` with its
sublists is the map of its entries by path.
-/

namespace Plato.Mpmd
open Plato

/-- `std::string`. -/
abbrev Str := List Char

/-- An entry of a parameter list that is not a list. -/
inductive Entry where
  | num (v : ℝ)
  | int (v : Int)
  | arr (v : List ℝ)
  | text (v : Str)

/-- `Teuchos::ParameterList` with sublists: the entries by their path, and the paths that are lists. -/
structure Params where
  val : List Str → Option Entry
  isSub : List Str → Bool

/-- `set(name, e)` in the list at a path; `q` is the path of the entry.  A list of this name is replaced. -/
def Params.set (p : Params) (q : List Str) (e : Entry) : Params where
  val r := if r = q then some e else if q <+: r then none else p.val r
  isSub r := if q <+: r then false else p.isSub r

/-- Loop of `split`, Analyze_App.cpp:1473-1489, with the characters of the present token.  `std::getline` gives no token
for an end of the text right after a delimiter. -/
def splitGo (d : Char) : Str → Str → List Str
  | cur, [] => if cur = [] then [] else [cur]
  | cur, c :: s => if c = d then cur :: splitGo d [] s else splitGo d (cur ++ [c]) s

/-- `split`, Analyze_App.cpp:1473-1489. -/
def split (s : Str) (d : Char) : List Str := splitGo d [] s

/-- `getInnerList`, Analyze_App.cpp:1506-1522: the path of the list and the remaining tokens.  The first of no tokens
and the first character of an empty token are read without a check; `sublist(name, true)` throws. -/
def getInnerList (p : Params) : List Str → List Str → Res (List Str × List Str)
  | _, [] => .ub
  | _, [] :: _ => .ub
  | path, (c :: tok) :: rest =>
    if c = '[' ∧ (c :: tok).getLast? = some ']' then
      let name := ((c :: tok).drop 1).take ((c :: tok).length - 2)
      if p.isSub (path ++ [name]) then getInnerList p (path ++ [name]) rest else throwErr "sublist does not exist"
    else .ok (path, (c :: tok) :: rest)

/-- Characters that `std::stoi` and `atoi` skip at the start. -/
def isSpace (c : Char) : Bool := c == ' ' || c == '\t' || c == '\n' || c == '\r'

/-- Number written by the digits at the start of a text. -/
def digitsVal : Nat → Str → Nat
  | n, [] => n
  | n, c :: s => if c.isDigit then digitsVal (10 * n + (c.toNat - 48)) s else n

/-- Number at the start of a text as read by `strtol`, `none` if there is none. -/
def strtol (s : Str) : Option Int :=
  match s.dropWhile isSpace with
  | [] => none
  | '-' :: c :: s => if c.isDigit then some (-(digitsVal 0 (c :: s) : Int)) else none
  | '+' :: c :: s => if c.isDigit then some (digitsVal 0 (c :: s) : Int) else none
  | c :: s => if c.isDigit then some (digitsVal 0 (c :: s) : Int) else none

/-- Range of `int`. -/
def IntRange (n : Int) : Prop := -2147483648 ≤ n ∧ n ≤ 2147483647

instance (n : Int) : Decidable (IntRange n) := inferInstanceAs (Decidable (_ ∧ _))

/-- `std::stoi`. -/
def stoi (s : Str) : Res Int :=
  match strtol s with
  | none => throwErr "stoi"
  | some n => if IntRange n then .ok n else throwErr "stoi"

/-- `std::atoi`; the result of a number that does not fit is undefined. -/
def atoi (s : Str) : Res Int :=
  match strtol s with
  | none => .ok 0
  | some n => if IntRange n then .ok n else .ub

/-- `setParameterValue`, Analyze_App.cpp:1525-1548, in the list at a path.  `get` throws for a missing entry and for
one of another type; the index is not checked; `substr` with a wrapped length gives the rest of the text. -/
def setParameterValue (p : Params) (path : List Str) (tokens : List Str) (v : ℝ) : Res Params := do
  let token ← rd tokens 0
  match token.findIdx? (· == '('), token.findIdx? (· == ')') with
  | some p1, some p2 =>
    let vecName := token.take p1
    match p.val (path ++ [vecName]) with
    | some (.arr vec) =>
      let i ← stoi (if p1 < p2 then (token.drop (p1 + 1)).take (p2 - p1 - 1) else token.drop (p1 + 1))
      if i < 0 then .ub
      else
        let vec ← wr vec i.toNat v
        pure (p.set (path ++ [vecName]) (.arr vec))
    | _ => throwErr "InvalidParameter"
  | _, _ => pure (p.set (path ++ [token]) (.num v))

/-- `parseInline`, Analyze_App.cpp:1492-1502. -/
def parseInline (p : Params) (target : Str) (v : ℝ) : Res Params := do
  let (path, tokens) ← getInnerList p [] (split target ':')
  setParameterValue p path tokens v

end Plato.Mpmd
