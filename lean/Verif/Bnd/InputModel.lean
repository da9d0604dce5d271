import Verif.Bnd.Model

/-!
# Model of the input of natural boundary conditions

Modelled sources: `/repo/src/NaturalBCs.hpp` (constructor, `appendNaturalBC`, `setUniformNaturalBC`,
`setUniformPressureNaturalBC`, `setUniformComponentNaturalBC`) and `/repo/src/NaturalBC.hpp` (constructor,
`natural_boundary_condition_type`, `get` up to the choice of the integral).

Of a block of the input the entries that are read are kept, with their types.  The text of an expression is
represented by the function of time it stands for.  The side set is looked up elsewhere.
Entries "Type", "Sides" and "Component" that are no text and an "Index" that is no integer are left out: reading
them throws.  A text that is no expression is left out too.
-/

namespace Plato.Bnd
open Plato

/-- Entry "Value": a number, an expression, or something of another type. -/
inductive ValueEntry where
  | num (a : ℝ)
  | expr (f : ℝ → ℝ)
  | other

/-- Entry "Values": numbers, expressions, or something of another type. -/
inductive ValuesEntry where
  | nums (v : List ℝ)
  | exprs (v : List (ℝ → ℝ))
  | other

/-- A block of the input. -/
structure Block where
  type? : Option String
  sides? : Option String
  value? : Option ValueEntry := none
  values? : Option ValuesEntry := none
  component? : Option String := none
  index? : Option Int := none

/-- Entry "Vector" that the block is completed with. -/
inductive Vector where
  | nums (v : List ℝ)
  | exprs (v : List (ℝ → ℝ))

/-- Types of `Neumann`, NaturalBC.hpp:24-33. -/
inductive Kind where
  | uniform
  | pressure
  | component
deriving DecidableEq

/-- `natural_boundary_condition_type`, NaturalBC.hpp:41-61. -/
def kindOf (s : String) : Res Kind :=
  if s = "Uniform" then .ok .uniform
  else if s = "Uniform Pressure" then .ok .pressure
  else if s = "Uniform Component" then .ok .component
  else throwErr "Natural Boundary Condition: 'Type' Parameter Keyword is not supported."

/-- `get` without default throws when the entry is absent. -/
def need {α : Type} (o : Option α) : Res α :=
  match o with
  | some a => .ok a
  | none => throwErr "The parameter does not exist."

/-- A write to an element of `Teuchos::Array` by a signed index. -/
def wrInt {α : Type} (v : List α) (i : Int) (a : α) : Res (List α) := if i < 0 then Res.ub else wr v i.toNat a

/-- `setUniformNaturalBC`, NaturalBCs.hpp:150-224. -/
def setUniform (n : Nat) (b : Block) : Res Vector :=
  match b.values?, b.value? with
  | some (.nums _), some (.num _) | some (.nums _), some (.expr _) | some (.exprs _), some (.num _)
  | some (.exprs _), some (.expr _) => throwErr "Natural Boundary Condition: 'Values' OR 'Value' Parameter Keyword is NOT defined."
  | some (.nums v), _ => .ok (.nums v)
  | some (.exprs v), _ => .ok (.exprs v)
  | _, some (.num a) => do
    let v ← wrInt (List.replicate n 0) (b.index?.getD 0) a
    pure (.nums v)
  | _, some (.expr f) => do
    let v ← wrInt (List.replicate n fun _ => 0) (b.index?.getD 0) f
    pure (.exprs v)
  | _, _ => throwErr "Natural Boundary Condition: Uniform Boundary Condition was NOT parsed."

/-- `get<Plato::Scalar>("Value")` throws for other types. -/
def getNum : Option ValueEntry → Res ℝ
  | some (.num a) => .ok a
  | some _ => throwErr "The parameter has another type."
  | none => throwErr "Natural Boundary Condition: 'Value' Parameter Keyword is NOT defined."

/-- `setUniformPressureNaturalBC`, NaturalBCs.hpp:229-247. -/
def setPressure (n : Nat) (b : Block) : Res Vector := do
  let a ← getNum b.value?
  pure (.nums (List.replicate n a))

/-- Component of a name, NaturalBCs.hpp:277-298: the tests are on the number of unknowns of a node. -/
def componentOf (dofs : Nat) (c : String) : Option Nat :=
  if c = "x" ∨ c = "X" then some 0
  else if (c = "y" ∨ c = "Y") ∧ 1 < dofs then some 1
  else if (c = "z" ∨ c = "Z") ∧ 2 < dofs then some 2
  else none

/-- `setUniformComponentNaturalBC`, NaturalBCs.hpp:252-303: the array has a component of the flux for each
`NumDofs`. -/
def setComponent (Y : Layout) (b : Block) : Res Vector := do
  let a ← getNum b.value?
  let c ← (match b.component? with
    | some c => .ok c
    | none => throwErr "Natural Boundary Condition: 'Component' Parameter Keyword is NOT defined." : Res String)
  match componentOf Y.dofsPerNode c with
  | some i => do
    let v ← wr (List.replicate Y.numDofs 0) i a
    pure (.nums v)
  | none => throwErr "Natural Boundary Condition: 'Component' Parameter Keyword is NOT supported."

/-- A condition: members of `NaturalBC`, NaturalBC.hpp:76-80. -/
structure Condition where
  kind : Kind
  sides : String
  flux : List ℝ
  exprs : Option (List (ℝ → ℝ))

/-- Constructor of `NaturalBC`, NaturalBC.hpp:88-115. -/
def Condition.make (n : Nat) (k : Kind) (b : Block) (v : Vector) : Res Condition := do
  let s ← need b.sides?
  match v with
  | .nums v => do
    let f ← forRange 0 n (List.replicate n (0 : ℝ)) fun i f => do
      let a ← rd v i
      wr f i a
    pure ⟨k, s, f, none⟩
  | .exprs v => do
    let (f, e) ← forRange 0 n (List.replicate n (0 : ℝ), List.replicate n fun (_ : ℝ) => (0 : ℝ)) fun i s => do
      let a ← rd v i
      let e ← wr s.2 i a
      let f ← wr s.1 i (a 0)
      pure (f, e)
    pure ⟨k, s, f, some e⟩

/-- `appendNaturalBC`, NaturalBCs.hpp:113-145. -/
def appendBC (Y : Layout) (b : Block) : Res Condition := do
  let t ← need b.type?
  let k ← kindOf t
  let v ← (match k with
    | .uniform => setUniform Y.numDofs b
    | .pressure => setPressure Y.numDofs b
    | .component => setComponent Y b : Res Vector)
  Condition.make Y.numDofs k b v

/-- Flux and kind at a time, start of `NaturalBC::get`, NaturalBC.hpp:197-227; `sets` are the side sets of the mesh. -/
def Condition.at (c : Condition) (sets : String → List Nat) (t : ℝ) : NaturalBC :=
  let flux := match c.exprs with
    | none => fun k => c.flux.getD k 0
    | some e => fun k => (e.getD k fun _ => 0) t
  match c.kind with
  | .pressure => .pressure (sets c.sides) flux
  | _ => .load (sets c.sides) flux

/-- Residuals by what they pass as time: `ElastomechanicsResidual` (hyperbolic/ElastomechanicsResidual.hpp:361)
passes the current time; the others (elliptic/ElastostaticResidual.hpp:240, parabolic/HeatEquationResidual.hpp:207,
parabolic/TransientThermomechResidual.hpp:250, InfinitesimalStrainPlasticityResidual.hpp:274,
InfinitesimalStrainThermoPlasticityResidual.hpp:286-292) leave it out. -/
inductive Caller where
  | hyperbolic
  | other

/-- Time that the conditions are evaluated at in a step at time `t`; the default is 0, NaturalBCs.hpp:106. -/
noncomputable def Caller.time : Caller → ℝ → ℝ
  | .hyperbolic, t => t
  | .other, _ => 0

/-- An entry of the list of conditions: a parameter or a block. -/
inductive Item where
  | param
  | block (b : Block)

/-- Constructor of `NaturalBCs`, NaturalBCs.hpp:308-339. -/
def makeBCs (Y : Layout) (l : List Item) : Res (List Condition) :=
  l.foldlM (fun done i =>
    match i with
    | .param => throwErr "Natural Boundary Condition: Parameter in Boundary Conditions block not valid.  Expect lists only."
    | .block b =>
      if b.type?.isNone then throwErr "Natural Boundary Condition: 'Type' Parameter Keyword is NOT defined."
      else do
        let c ← appendBC Y b
        pure (done ++ [c])) []

end Plato.Bnd
