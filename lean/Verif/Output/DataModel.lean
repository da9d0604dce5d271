import Verif.Dyn.Output

/-!
# Model of the data kept for output

Modelled source: `Plato::DataMap` (`/repo/src/PlatoStaticsTypes.hpp`) with `Plato::toMap`
(`/repo/src/ToMap.hpp`), and the order in which `HyperbolicProblem::solution` fills it.

A `Kokkos::View` is a reference to memory; copying a `DataMap` copies references.  The model has
addresses into a list of views.  Of the maps only `scalarMultiVectors` is modelled, the others are
treated alike in the code.  A `std::map` is a function to optional values.
-/

namespace Plato.Output

open Plato.Mech Plato.Thermal

/-- References by name: `scalarMultiVectors`, /repo/src/PlatoStaticsTypes.hpp:76. -/
abbrev Refs := String → Option Nat

/-- Assignment to an entry of a map. -/
def upd {α : Type} (m : String → Option α) (name : String) (a : α) : String → Option α := fun n =>
  if n = name then some a else m n

/-- A `DataMap` with the memory that it refers to, /repo/src/PlatoStaticsTypes.hpp:72-117. -/
structure Data where
  heap : List (V2 ℝ)
  cur : Refs
  saved : List Refs

/-- `toMap` with a domain, /repo/src/ToMap.hpp:133-169: the entry is made once and written in place
afterwards. -/
def putDomain (name : String) (nelems : Nat) (cells order : List Nat) (view : V2 ℝ) (s : Data) :
    Res Data :=
  match s.cur name with
  | none => do
    let d ← Dyn.toMap nelems cells order view none
    return { s with heap := s.heap ++ [d], cur := upd s.cur name s.heap.length }
  | some a => do
    let old ← rd s.heap a
    let d ← Dyn.toMap nelems cells order view (some old)
    let heap ← wr s.heap a d
    return { s with heap := heap }

/-- `toMap` without a domain, /repo/src/ToMap.hpp:112-122, for a view that the caller has just
allocated: the entry becomes the view. -/
def putView (name : String) (view : V2 ℝ) (s : Data) : Data :=
  { s with heap := s.heap ++ [view], cur := upd s.cur name s.heap.length }

/-- `DataMap::saveState` with `getState()`, /repo/src/PlatoStaticsTypes.hpp:86-96: the references are
copied. -/
def save (s : Data) : Data := { s with saved := s.saved ++ [s.cur] }

/-- `DataMap::clearStates`, /repo/src/PlatoStaticsTypes.hpp:81-84. -/
def clear (s : Data) : Data := { s with saved := [] }

/-- `DataMap::getState(aStateIndex)`, /repo/src/PlatoStaticsTypes.hpp:98-116. -/
def getState (s : Data) (k : Nat) : Res Refs :=
  if s.saved.length = 0 then Res.ok s.cur
  else match s.saved[k]? with
    | some m => Res.ok m
    | none => throwErr "Requested a state that doesn't exist"

/-- Content of an entry. -/
def read (s : Data) (m : Refs) (name : String) : Option (V2 ℝ) := (m name).bind fun a => s.heap[a]?

/-- What a computation does to its output data. -/
inductive Op where
  | domain (name : String) (nelems : Nat) (cells order : List Nat) (view : V2 ℝ)
  | plain (name : String) (view : V2 ℝ)
  | save
  | clear

/-- One operation. -/
def exec : Op → Data → Res Data
  | .domain name nelems cells order view, s => putDomain name nelems cells order view s
  | .plain name view, s => Res.ok (putView name view s)
  | .save, s => Res.ok (save s)
  | .clear, s => Res.ok (clear s)

/-- A history of operations. -/
def run : List Op → Data → Res Data
  | [], s => Res.ok s
  | op :: ops, s => exec op s >>= run ops

/-- Operations of `HyperbolicProblem::solution` on the entry "stress" of a mesh with one block, with
"Plottable" in the input, /repo/src/hyperbolic/HyperbolicProblem.hpp:271-282 and 359-364 with
/repo/src/hyperbolic/ElastomechanicsResidual.hpp:229: the residual is evaluated at the new state of
each step (`views`, the initial state first) and the state is saved.  The evaluations within a step
come before and write the same entry; they are left out. -/
def hyperbolicOps (nelems : Nat) (order : List Nat) (views : List (V2 ℝ)) : List Op :=
  .clear :: views.flatMap fun v => [.domain "stress" nelems (List.range nelems) order v, .save]

end Plato.Output
