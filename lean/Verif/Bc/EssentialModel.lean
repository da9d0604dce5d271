import Verif.Common.Res

/-!
# Model of the essential boundary conditions

`/repo/src/EssentialBCs.hpp`.

A Teuchos parameter list is a list of named entries.  Of a boundary condition block the five
entries that are read are kept; an entry of the wrong type counts as absent (as `isType` does).  The
text of `Function` is represented by the function of time it stands for (the expression parser is
modelled separately).  Ordinals are natural numbers.  The mesh node sets are an association list.
-/

namespace Plato
variable {K : Type}

/-- A boundary condition block of the input. -/
structure BcParams (K : Type) where
  type? : Option String
  sides? : Option String
  index? : Option Nat
  value? : Option K
  func? : Option (K → K)

/-- An entry of the `Essential Boundary Conditions` block: a parameter or a sublist. -/
inductive BcEntry (K : Type) where
  | param
  | list (p : BcParams K)

/-- `EssentialBC`, members /repo/src/EssentialBCs.hpp:100-105; `expr?` is `mMathExpr`. -/
structure EssentialBC (K : Type) where
  nsName : String
  dof : Nat
  value : K
  expr? : Option (K → K)
  scale : K

/-- `Teuchos::ParameterList::get<std::string>(key)` without default throws when absent. -/
def getRequired {α : Type} (o : Option α) (key : String) : Res α :=
  match o with
  | some a => Res.ok a
  | none => Res.err key

/-- Constructor of `EssentialBC`, /repo/src/EssentialBCs.hpp:26-55.  `value` is left
uninitialised when a function is given; the model puts zero. -/
def EssentialBC.make [Zero K] (p : BcParams K) (scale : K) : Res (EssentialBC K) := do
  let ns ← getRequired p.sides? "Sides"
  match p.value?, p.func? with
  | some _, some _ => Res.err "Specify either 'Value' or 'Function'"
  | none, none => Res.err "Specify either 'Value' or 'Function'"
  | some v, none => pure ⟨ns, p.index?.getD 0, v, none, scale⟩
  | none, some f => pure ⟨ns, p.index?.getD 0, 0, some f, scale⟩

/-- `get_value`, /repo/src/EssentialBCs.hpp:87-97. -/
def EssentialBC.getValue [Div K] (b : EssentialBC K) (t : K) : K :=
  match b.expr? with
  | none => b.value / b.scale
  | some f => f t / b.scale

/-- Look-up of a node set, /repo/src/EssentialBCs.hpp:160-168 and 194-202. -/
def findSet (sets : List (String × List Nat)) (name : String) : Res (List Nat) :=
  match sets.lookup name with
  | some s => Res.ok s
  | none => Res.err "Could not find Node Set"

/-- `get_length`, /repo/src/EssentialBCs.hpp:156-179 (the warning is not modelled). -/
def EssentialBC.getLength (b : EssentialBC K) (sets : List (String × List Nat)) : Res Nat := do
  let s ← findSet sets b.nsName
  pure s.length

/-- Kernel of `EssentialBC::get`, /repo/src/EssentialBCs.hpp:213-217. -/
def bcWrite (D dof offset : Nat) (v : K) (nodes : List Nat) (i : Nat) (s : List Nat × List K) :
    Res (List Nat × List K) := do
  let nd ← rd nodes i
  let ds ← wr s.1 (offset + i) (D * nd + dof)
  let vs ← wr s.2 (offset + i) v
  pure (ds, vs)

/-- `EssentialBC::get`, /repo/src/EssentialBCs.hpp:182-218; `order` is the kernel schedule. -/
def EssentialBC.get [Div K] (D : Nat) (b : EssentialBC K) (sets : List (String × List Nat))
    (time : K) (order : List Nat) (offset : Nat) (s : List Nat × List K) :
    Res (List Nat × List K) := do
  let nodes ← findSet sets b.nsName
  parFor order s (bcWrite D b.dof offset (b.getValue time) nodes)

/-- One entry of the constructors of `EssentialBCs`, /repo/src/EssentialBCs.hpp:232-251 and
268-295.  `factor` is the look-up in the scale factor map (constant one for the first
constructor). -/
def makeOne [Zero K] [One K] (factor : Nat → Option K) : BcEntry K → Res (EssentialBC K)
  | .param => Res.err "Expect lists only"
  | .list p => do
    let t ← getRequired p.type? "Type"
    let sc := (factor (p.index?.getD 0)).getD 1
    if t = "Zero Value" then EssentialBC.make { p with value? := some 0 } sc
    else if t = "Fixed Value" ∨ t = "Time Dependent" then EssentialBC.make p sc
    else Res.err "Boundary Condition type invalid"

/-- The constructors of `EssentialBCs`, /repo/src/EssentialBCs.hpp:221-297. -/
def makeAll [Zero K] [One K] (factor : Nat → Option K) :
    List (BcEntry K) → Res (List (EssentialBC K))
  | [] => Res.ok []
  | e :: es => do
    let b ← makeOne factor e
    let bs ← makeAll factor es
    pure (b :: bs)

/-- `Kokkos::resize`: keeps the old contents, zero in new places. -/
def resizeL {α : Type} (z : α) (v : List α) (n : Nat) : List α :=
  v.take n ++ List.replicate (n - v.length) z

/-- First loop of `EssentialBCs::get`, /repo/src/EssentialBCs.hpp:310-312. -/
def totalLength (sets : List (String × List Nat)) : List (EssentialBC K) → Nat → Res Nat
  | [], n => Res.ok n
  | b :: bs, n => do
    let l ← b.getLength sets
    totalLength sets bs (n + l)

/-- Second loop of `EssentialBCs::get`, /repo/src/EssentialBCs.hpp:317-322; `orders` gives the
schedule of each kernel launch. -/
def getAll [Div K] (D : Nat) (sets : List (String × List Nat)) (time : K)
    (orders : Nat → List Nat) : List (EssentialBC K) → Nat → Nat → List Nat × List K →
    Res (List Nat × List K)
  | [], _, _, s => Res.ok s
  | b :: bs, launch, offset, s => do
    let s ← b.get D sets time (orders launch) offset s
    let l ← b.getLength sets
    getAll D sets time orders bs (launch + 1) (offset + l) s

/-- `EssentialBCs::get`, /repo/src/EssentialBCs.hpp:300-323; `s` holds the views passed in. -/
def essentialGet [Zero K] [Div K] (D : Nat) (sets : List (String × List Nat)) (time : K)
    (orders : Nat → List Nat) (bcs : List (EssentialBC K)) (s : List Nat × List K) :
    Res (List Nat × List K) := do
  let n ← totalLength sets bcs 0
  getAll D sets time orders bcs 0 0 (resizeL 0 s.1 n, resizeL 0 s.2 n)

end Plato
