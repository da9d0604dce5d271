import Verif.Common.Res
import Mathlib.Data.Real.Basic

/-!
# Model of the continuation of penalties of plasticity

Modelled sources in `/repo/src`: `updateProblem` of `PlasticityProblem.hpp`, `LocalVectorFunctionInc.hpp`,
`GlobalVectorFunctionInc.hpp`, `VectorFunctionVMS.hpp`, `BasicLocalScalarFunction.hpp`,
`WeightedLocalScalarFunction.hpp`, `J2PlasticityLocalResidual.hpp`, `InfinitesimalStrainPlasticityResidual.hpp`,
`InfinitesimalStrainThermoPlasticityResidual.hpp`, `ElasticWorkCriterion.hpp`, `PlasticWorkCriterion.hpp`,
`PressureGradientProjectionResidual.hpp`; `MSIMP::update` of `Simp.hpp`; the parsing of the penalties.

Every function holds, for every domain, one object for its value and one for each derivative, each with its own
exponent.  Simplifications: the penalty of the projection is of type "SIMP"; console output is left out; the sums of
a weighted criterion are elastic or plastic works.
-/

namespace Plato.Plast

variable {R : Type}

/-- `updateProblem` of the residuals and criteria (InfinitesimalStrainPlasticityResidual.hpp:534-547,
InfinitesimalStrainThermoPlasticityResidual.hpp:587-600, J2PlasticityLocalResidual.hpp:226-231 and 243-248,
ElasticWorkCriterion.hpp:252-263, PlasticWorkCriterion.hpp:253-265) and `MSIMP::update` (Simp.hpp:57-67): the exponent
grows by a step until a bound. -/
def nextExponent [Add R] (ge : R → R → Bool) (step bound p : R) : R := if ge (p + step) bound then bound else p + step

/-- Exponents of a function: step and bound of each domain, exponent of each domain and each of its objects. -/
structure Copies (R : Type) where
  step : Nat → R
  bound : Nat → R
  p : Nat → Nat → R

/-- Calls `updateProblem` of the given objects, one after the other. -/
def Copies.visit [Add R] (ge : R → R → Bool) (visits : List (Nat × Nat)) (C : Copies R) : Copies R :=
  { C with p := visits.foldl (fun p v => fun k t =>
      if k = v.1 ∧ t = v.2 then nextExponent ge (C.step k) (C.bound k) (p k t) else p k t) C.p }

/-- Objects of all domains, in the given order. -/
def allDomains (order : List Nat) (domains : Nat) : List (Nat × Nat) :=
  (List.range domains).flatMap fun k => order.map fun t => (k, t)

/-- Objects of `LocalVectorFunctionInc`, LocalVectorFunctionInc.hpp:959-971: residual, current and previous global state,
current and previous local state, configuration, control. -/
def localVisits (domains : Nat) : List (Nat × Nat) := allDomains [0, 1, 2, 3, 4, 5, 6] domains

/-- Objects of `GlobalVectorFunctionInc`, numbered as in its constructor (GlobalVectorFunctionInc.hpp:767-780), in the
order of `updateProblem`, GlobalVectorFunctionInc.hpp:1223-1234: residual, configuration, control, current and previous
local state, current and previous global state, projected gradient. -/
def globalVisits (domains : Nat) : List (Nat × Nat) := allDomains [0, 6, 5, 3, 4, 1, 2, 7] domains

/-- Objects of `VectorFunctionVMS`, VectorFunctionVMS.hpp:1377-1393: residual, state, node state, configuration,
control of each domain; then those of the boundary, which are the objects of the first domain (VectorFunctionVMS.hpp:120-124). -/
def projectionVisits (domains : Nat) : List (Nat × Nat) :=
  allDomains [0, 1, 2, 3, 4] domains ++ [(0, 0), (0, 1), (0, 2), (0, 3), (0, 4)]

/-- Objects of `BasicLocalScalarFunction`, BasicLocalScalarFunction.hpp:679-689: value, control, configuration, previous
local and global state, current local and global state. -/
def scalarVisits (domains : Nat) : List (Nat × Nat) := allDomains [0, 1, 2, 3, 4, 5, 6] domains

/-- A criterion: `BasicLocalScalarFunction` or `WeightedLocalScalarFunction`. -/
inductive Criterion (R : Type) where
  | basic (c : Copies R)
  | weighted (cs : List (Copies R))

/-- `updateProblem` of a criterion, BasicLocalScalarFunction.hpp:674-690, WeightedLocalScalarFunction.hpp:198-214. -/
def Criterion.update [Add R] (ge : R → R → Bool) (domains : Nat) : Criterion R → Res (Criterion R)
  | .basic c => .ok (.basic (c.visit ge (scalarVisits domains)))
  | .weighted cs =>
    if cs.length = 0 then throwErr "LOCAL SCALAR FUNCTION CONTAINER IS EMPTY"
    else .ok (.weighted (cs.map fun c => c.visit ge (scalarVisits domains)))

/-- Exponents of a problem. -/
structure Penalties (R : Type) where
  elastic : Copies R
  plastic : Copies R
  global : Copies R
  projection : Copies R
  criteria : List (Criterion R)

/-- `PlasticityProblem::updateProblem`, PlasticityProblem.hpp:333-345. -/
def Penalties.update [Add R] (ge : R → R → Bool) (domains : Nat) (E : Penalties R) : Res (Penalties R) := do
  let el := E.elastic.visit ge (localVisits domains)
  let pl := E.plastic.visit ge (localVisits domains)
  let gl := E.global.visit ge (globalVisits domains)
  let pr := E.projection.visit ge (projectionVisits domains)
  let cs ← E.criteria.foldlM (fun (done : List (Criterion R)) c => do
    let c ← c.update ge domains
    pure (done ++ [c])) []
  pure ⟨el, pl, gl, pr, cs⟩

/-- `n` updates, one after the other. -/
def Penalties.updates [Add R] (ge : R → R → Bool) (domains : Nat) : Nat → Penalties R → Res (Penalties R)
  | 0, E => .ok E
  | n + 1, E => do
    let E ← E.updates ge domains n
    E.update ge domains

/-! ## Input -/

/-- A list "Penalty Function": an entry is there or not. -/
structure PenaltyInput where
  exponent : Option ℝ := none
  step : Option ℝ := none
  bound : Option ℝ := none

/-- Exponent, step and bound. -/
structure PenaltyParams where
  exponent : ℝ
  step : ℝ
  bound : ℝ

/-- `parseMaterialPenaltyInputs`, InfinitesimalStrainPlasticityResidual.hpp:143-161 with the defaults of the
constructor (356-359); InfinitesimalStrainThermoPlasticityResidual.hpp:141-159 is alike. -/
noncomputable def residualPenalty : Option PenaltyInput → PenaltyParams
  | some i => ⟨i.exponent.getD 1, i.step.getD 0.1, i.bound.getD 4⟩
  | none => ⟨3, 0.1, 4⟩

/-- `parsePenaltyModelParams`, ElasticWorkCriterion.hpp:270-281. -/
noncomputable def elasticWorkPenalty (i : PenaltyInput) : PenaltyParams := ⟨i.exponent.getD 3, i.step.getD 1.1, i.bound.getD 4⟩

/-- `parsePenaltyModelParams`, PlasticWorkCriterion.hpp:272-283. -/
noncomputable def plasticWorkPenalty (i : PenaltyInput) : PenaltyParams := ⟨i.exponent.getD 3, i.step.getD 0.1, i.bound.getD 4⟩

/-- Exponents of a function whose objects have all read the same list. -/
def Copies.ofParams (q : Nat → PenaltyParams) : Copies ℝ := ⟨fun k => (q k).step, fun k => (q k).bound, fun k _ => (q k).exponent⟩

end Plato.Plast
