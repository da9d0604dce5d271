import Verif.Common.Res

/-!
# Model of the report of unused parameters (/repo/src/alg/ParseInput.cpp:62-105, 208-223)

A `Teuchos::ParameterList` is the list of its entries in iteration order.  A path is the list of its
names instead of their concatenation with `::`; a report is a list of lines instead of one string.
-/

namespace Plato.App
open Plato

/-- An entry of a parameter list: a value, with the text of the value and the flag `isUsed`, or a list. -/
inductive Param where
  | value (name text : String) (used : Bool)
  | list (name : String) (entries : List Param)

/-- Name of an entry. -/
def Param.name : Param → String
  | .value n _ _ => n
  | .list n _ => n

/-- A line of the report: `Parameter path : value` or `Block path`. -/
inductive Line where
  | parameter (path : List String) (text : String)
  | block (path : List String)
  deriving DecidableEq

/-- State of the loop: `all_unused`, `not_used`, `os`. -/
abbrev UnusedState := Bool × List Line × List Line

mutual
/-- The loop of `unused` over the entries, ParseInput.cpp:84-102. -/
def unusedLoop (path : List String) : List Param → UnusedState → UnusedState
  | [], s => s
  | p :: ps, s => unusedLoop path ps (unusedEntry path p s)
/-- One entry; the recursive call of `unused` is written out. -/
def unusedEntry (path : List String) : Param → UnusedState → UnusedState
  | .value n t used, (a, nu, os) =>
    if used then (false, nu, os) else (a, nu ++ [.parameter (path ++ [n]) t], os)
  | .list n es, (a, nu, os) =>
    let r := unusedLoop (path ++ [n]) es (true, [], os)
    if r.1 then (a, nu ++ [.block (path ++ [n])], r.2.2) else (false, nu, r.2.2 ++ r.2.1)
end

/-- `unused`, ParseInput.cpp:78-105. -/
def unused (problem : List Param) (path : List String) (os : List Line) : Bool × List Line :=
  let r := unusedLoop path problem (true, [], os)
  (r.1, if r.1 then r.2.2 else r.2.2 ++ r.2.1)

/-- `ParameterList::set`: replaces an entry of that name, or adds one. -/
def setEntry (v : Param) : List Param → List Param
  | [] => [v]
  | p :: ps => if p.name = v.name then v :: ps else p :: setEntry v ps

/-- `add_timings`, ParseInput.cpp:62-76: the list `Runtime` is found or made, the time is stored and read,
which marks it as used.  `sublist` throws when there is a value of that name. -/
def addTimings (time : String) : List Param → Res (List Param)
  | [] => .ok [.list "Runtime" [.value "Execution Time in Sec" time true]]
  | .value n t u :: ps =>
    if n = "Runtime" then .err "parameter is not a list" else do
      let r ← addTimings time ps
      pure (.value n t u :: r)
  | .list n es :: ps =>
    if n = "Runtime" then .ok (.list n (setEntry (.value "Execution Time in Sec" time true) es) :: ps) else do
      let r ← addTimings time ps
      pure (.list n es :: r)

/-- The report of `input_file_echo`, ParseInput.cpp:208-220. -/
def inputFileEcho (time : String) (problem : List Param) : Res (List Param × List Line) := do
  let p ← addTimings time problem
  pure (p, (unused p [] []).2)

end Plato.App
