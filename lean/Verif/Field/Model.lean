import Verif.Blas.Vector

/-!
# Model of computed fields and initial states

Modelled source: `/repo/src/ComputedField.hpp`, the blocks "Computed Fields" and "Initial State" of
the constructors in `/repo/src/parabolic/Problem.hpp` and `/repo/src/hyperbolic/HyperbolicProblem.hpp`,
and the names of the degrees of freedom given in the constructors of the transient residuals.

Simplifications: a parameter list is the list of its entries in order (`Teuchos` keeps the names of
a list different from each other, which the theorems assume).  The reader of expressions
(`Omega_h::ExprReader`) is a parameter: it gets the text and the registered variables and returns one
value per node, or throws.  Kokkos' sizes and `int` are integers without overflow.
-/

namespace Plato.Field

variable {K : Type} [Zero K]

/-- An entry of a parameter list, as far as it is read: a sublist, with the text found under the one
name that is looked up in it (`none` if it is not there), or anything else. -/
inductive Entry where
  | list (text : Option String)
  | other
  deriving DecidableEq

/-- A parameter list. -/
abbrev Params := List (String × Entry)

/-- The loop "fill coords" for one node, /repo/src/ComputedField.hpp:58-60. -/
def fillNode (dim : Nat) (coords : List K) (p : Nat) (vars : List (List K)) :
    Res (List (List K)) :=
  forRange 0 dim vars fun k vars => do
    let c ← rd coords (p * dim + k)
    let a ← rd vars k
    let a ← wr a p c
    wr vars k a

/-- `ComputedField::initialize`, /repo/src/ComputedField.hpp:43-76: arrays of coordinates (lines
50-61), registered as far as the dimension goes (63-66), the expression (68-70), the copy (72-75).
`read` is the reader with `repeat`. -/
def fieldInit (read : String → Nat → List (List K) → Res (List K)) (order order' : List Nat)
    (dim n : Nat) (coords : List K) (fn : String) : Res (List K) := do
  let vars ← parFor order (List.replicate 3 (List.replicate n 0)) (fillNode dim coords)
  let fxn ← read fn n (vars.take dim)
  parFor order' (List.replicate n 0) fun p values => do
    let v ← rd fxn p
    wr values p v

/-- `ComputedField::get(aValues, aOffset, aStride)`, /repo/src/ComputedField.hpp:88-101; the offset
is an `int`. -/
def getStrided (order : List Nat) (field : List K) (u : List K) (offset : Int) (stride : Nat) :
    Res (List K) :=
  if field.length * stride ≠ u.length then
    throwErr "Size mismatch in field initialization:  Mod(view, stride) != 0"
  else
    parFor order u fun p u => do
      let v ← rd field p
      let i : Int := stride * p + offset
      if i < 0 then Res.ub else wr u i.toNat v

/-- Constructor of `ComputedFields`, /repo/src/ComputedField.hpp:126-140: names and values. -/
def construct (init : String → Res (List K)) : Params → Res (List (String × List K))
  | [] => Res.ok []
  | (_, .other) :: _ =>
    throwErr "Parameter in Computed Fields block not valid.  Expect lists only."
  | (_, .list none) :: _ => throwErr "The parameter 'Function' does not exist!"
  | (name, .list (some fn)) :: ps => do
    let v ← init fn
    let rest ← construct init ps
    return (name, v) :: rest

/-- `ComputedFields::get(aName, aOffset, aStride, aValues)`, /repo/src/ComputedField.hpp:168-178. -/
def getNamed (order : List Nat) (cfs : List (String × List K)) (name : String) (offset : Int)
    (stride : Nat) (u : List K) : Res (List K) :=
  match cfs.find? fun cf => cf.1 = name with
  | some cf => getStrided order cf.2 u offset stride
  | none => throwErr "Requested a Computed Field that doesn't exist."

/-- The loop over the names in the parabolic problem, /repo/src/parabolic/Problem.hpp:177-183: no
`break`, the last match stays. -/
def lastIndex (name : String) : List String → Nat → Int → Int
  | [], _, r => r
  | d :: ds, j, r => lastIndex name ds (j + 1) (if d = name then j else r)

/-- The loops over the names in the hyperbolic problem, /repo/src/hyperbolic/HyperbolicProblem.hpp:
163-169 and 176-181: left at the first match. -/
def firstIndex (name : String) : List String → Nat → Int
  | [], _ => -1
  | d :: ds, j => if d = name then j else firstIndex name ds (j + 1)

/-- The loop over the entries of "Initial State" in the parabolic problem,
/repo/src/parabolic/Problem.hpp:170-186. -/
def parEntries (order : List Nat) (cfs : List (String × List K)) (dofs : List String) :
    Params → List K → Res (List K)
  | [], u => Res.ok u
  | (_, .other) :: ps, u => parEntries order cfs dofs ps u
  | (_, .list none) :: _, _ => throwErr "The parameter 'Computed Field' does not exist!"
  | (name, .list (some c)) :: ps, u => do
    let u ← getNamed order cfs c (lastIndex name dofs 0 (-1)) dofs.length u
    parEntries order cfs dofs ps u

/-- The loop over the entries of "Initial State" in the hyperbolic problem,
/repo/src/hyperbolic/HyperbolicProblem.hpp:154-193, on displacements and velocities. -/
def hypEntries (order : List Nat) (cfs : List (String × List K)) (dofs dots : List String) :
    Params → List K × List K → Res (List K × List K)
  | [], s => Res.ok s
  | (_, .other) :: ps, s => hypEntries order cfs dofs dots ps s
  | (_, .list none) :: _, _ => throwErr "The parameter 'Computed Field' does not exist!"
  | (name, .list (some c)) :: ps, (u, v) =>
    if firstIndex name dofs 0 ≠ -1 then do
      let u ← getNamed order cfs c (firstIndex name dofs 0) dofs.length u
      hypEntries order cfs dofs dots ps (u, v)
    else if firstIndex name dots 0 ≠ -1 then do
      let v ← getNamed order cfs c (firstIndex name dots 0) dots.length v
      hypEntries order cfs dofs dots ps (u, v)
    else throwErr "Attempted to initialize state variable that doesn't exist."

/-- The two blocks of the input: "Computed Fields" and "Initial State"; `none` if the block is not
there. -/
structure Input where
  computed : Option Params
  initial : Option Params

/-- The block "Computed Fields", /repo/src/parabolic/Problem.hpp:155-158,
/repo/src/hyperbolic/HyperbolicProblem.hpp:137-140. -/
def constructed (init : String → Res (List K)) : Option Params →
    Res (Option (List (String × List K)))
  | none => Res.ok none
  | some ps => do
    let c ← construct init ps
    return some c

/-- The part of the constructors common to both problems, /repo/src/parabolic/Problem.hpp:153-169,
/repo/src/hyperbolic/HyperbolicProblem.hpp:137-151. -/
def withFields {σ : Type} (init : String → Res (List K)) (inp : Input)
    (entries : List (String × List K) → Params → σ → Res σ) (s : σ) : Res σ := do
  let cfs ← constructed init inp.computed
  match inp.initial, cfs with
  | none, _ => Res.ok s
  | some _, none => throwErr "No 'Computed Fields' have been defined"
  | some ps, some cfs => entries cfs ps s

/-- The first row of the states of the parabolic problem after construction,
/repo/src/parabolic/Problem.hpp:153-188: `D` degrees of freedom per node, `dofs` the names given by
the residual. -/
def parabolic (init : String → Res (List K)) (order : List Nat) (n D : Nat) (dofs : List String)
    (inp : Input) : Res (List K) :=
  withFields init inp (fun cfs ps u => parEntries order cfs dofs ps u) (List.replicate (n * D) 0)

/-- Initial displacements and velocities of the hyperbolic problem after construction,
/repo/src/hyperbolic/HyperbolicProblem.hpp:94-95 and 137-194. -/
def hyperbolic (init : String → Res (List K)) (order : List Nat) (n D : Nat)
    (dofs dots : List String) (inp : Input) : Res (List K × List K) :=
  withFields init inp (fun cfs ps s => hypEntries order cfs dofs dots ps s)
    (List.replicate (n * D) 0, List.replicate (n * D) 0)

/-- Names of `HeatEquationResidual`, /repo/src/parabolic/HeatEquationResidual.hpp:77. -/
def heatDofs : List String := ["Temperature"]

/-- Names of `TransientThermomechResidual`, /repo/src/parabolic/TransientThermomechResidual.hpp:94,
for every dimension. -/
def thermomechDofs : List String :=
  ["Displacement X", "Displacement Y", "Displacement Z", "Temperature"]

/-- Names of `hyperbolic/ElastomechanicsResidual.hpp`, line 80, for every dimension. -/
def elasticDofs : List String := ["Displacement X", "Displacement Y", "Displacement Z"]

/-- Names of the rates, `hyperbolic/ElastomechanicsResidual.hpp`, line 81, for every dimension. -/
def elasticDots : List String := ["Velocity X", "Velocity Y", "Velocity Z"]

end Plato.Field
