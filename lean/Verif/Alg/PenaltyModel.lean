import Mathlib.Analysis.SpecialFunctions.Pow.Real
import Mathlib.Analysis.SpecialFunctions.Trigonometric.DerivHyp
import Verif.Common.Res

/-!
# Model of the penalty models, the projections and `conditional_expression`

Scalars are real numbers; `T_PI` is `π`.
-/

namespace Plato
noncomputable section

/-- Members of the penalty classes: `MSIMP` /repo/src/Simp.hpp:18-21, `RAMP`
/repo/src/Ramp.hpp:17-20, `Heaviside` /repo/src/Heaviside.hpp:20-24 (the only one with a
regularization length). -/
structure PenaltyData where
  minValue : ℝ
  penalty : ℝ
  upper : ℝ
  increment : ℝ
  regLength : ℝ

/-- `update`, identical in the three classes: /repo/src/Simp.hpp:57-67, /repo/src/Ramp.hpp:49-59,
/repo/src/Heaviside.hpp:58-68. -/
def PenaltyData.update (m : PenaltyData) : PenaltyData :=
  let suggested := m.penalty + m.increment
  { m with penalty := if suggested ≥ m.upper then m.upper else suggested }

/-- `MSIMP::operator()`, /repo/src/Simp.hpp:129-134. -/
def simp (m : PenaltyData) (x : ℝ) : ℝ := m.minValue + (1 - m.minValue) * x ^ m.penalty

/-- `RAMP::operator()`, /repo/src/Ramp.hpp:93-100. -/
def ramp (m : PenaltyData) (x : ℝ) : ℝ :=
  m.minValue + (1 - m.minValue) * x / (1 + m.penalty * (1 - x))

/-- `Heaviside::operator()`, /repo/src/Heaviside.hpp:109-125. -/
def heaviside (m : PenaltyData) (x : ℝ) : ℝ :=
  if x ≤ -m.regLength then m.minValue
  else if x ≥ m.regLength then 1
  else m.minValue + (1 - m.minValue) *
    (1 / 2 * (1 + Real.sin (Real.pi * x / (2 * m.regLength)))) ^ m.penalty

/-- `it = aInputs.find(key); if (it == end()) { member = default; } member = it->second;`:
the dereference of `end()` is undefined behaviour. -/
def findDeref (inputs : List (String × ℝ)) (key : String) : Res ℝ :=
  match inputs.lookup key with
  | some v => Res.ok v
  | none => Res.ub

/-- `MSIMP::setParameters`, /repo/src/Simp.hpp:73-95, and `RAMP::setParameters`,
/repo/src/Ramp.hpp:65-87. -/
def setParametersSimp (inputs : List (String × ℝ)) (m : PenaltyData) : Res PenaltyData := do
  let p ← findDeref inputs "Exponent"
  let m := { m with penalty := p }
  let v ← findDeref inputs "Minimum Value"
  let m := { m with minValue := v }
  let a ← findDeref inputs "Additive Continuation"
  pure { m with increment := a }

/-- `Heaviside::setParameters`, /repo/src/Heaviside.hpp:74-103; line 95 assigns the regularization
length to `mMinValue`. -/
def setParametersHeaviside (inputs : List (String × ℝ)) (m : PenaltyData) : Res PenaltyData := do
  let p ← findDeref inputs "Exponent"
  let m := { m with penalty := p }
  let v ← findDeref inputs "Minimum Value"
  let m := { m with minValue := v }
  let r ← findDeref inputs "Regularization Length"
  let m := { m with minValue := r }
  let a ← findDeref inputs "Additive Continuation"
  pure { m with increment := a }

/-- Members of `HyperbolicTangentProjection`,
/repo/src/HyperbolicTangentProjection.hpp:112-116. -/
structure TanhData where
  eta : ℝ
  beta : ℝ
  denominator : ℝ
  betaTimesEta : ℝ
  betaTimesOneMinusEta : ℝ

/-- Constructor, /repo/src/HyperbolicTangentProjection.hpp:45-53 (and 65-73). -/
def TanhData.make (beta eta : ℝ) : TanhData :=
  { eta := eta, beta := beta, betaTimesEta := beta * eta, betaTimesOneMinusEta := beta * (1 - eta),
    denominator := Real.tanh (beta * eta) + Real.tanh (beta * (1 - eta)) }

/-- `apply`, /repo/src/HyperbolicTangentProjection.hpp:76-81. -/
def TanhData.apply (d : TanhData) (x : ℝ) : ℝ :=
  (Real.tanh d.betaTimesEta + Real.tanh (d.beta * (x - d.eta))) / d.denominator

/-- Setter calls on a projection object. -/
inductive TanhOp where
  | setBeta (b : ℝ)
  | setEta (e : ℝ)
  | setBoth (b e : ℝ)

/-- The setters, /repo/src/HyperbolicTangentProjection.hpp:84-109. -/
def TanhData.exec (d : TanhData) : TanhOp → TanhData
  | .setBeta b =>
    let d := { d with beta := b }
    let d := { d with betaTimesEta := d.beta * d.eta }
    let d := { d with betaTimesOneMinusEta := d.beta * (1 - d.eta) }
    { d with denominator := Real.tanh d.betaTimesEta + Real.tanh d.betaTimesOneMinusEta }
  | .setEta e =>
    let d := { d with eta := e }
    let d := { d with betaTimesEta := d.beta * d.eta }
    let d := { d with betaTimesOneMinusEta := d.beta * (1 - d.eta) }
    { d with denominator := Real.tanh d.betaTimesEta + Real.tanh d.betaTimesOneMinusEta }
  | .setBoth b e =>
    let d := { d with eta := e }
    let d := { d with beta := b }
    let d := { d with betaTimesEta := d.beta * d.eta }
    let d := { d with betaTimesOneMinusEta := d.beta * (1 - d.eta) }
    { d with denominator := Real.tanh d.betaTimesEta + Real.tanh d.betaTimesOneMinusEta }

/-- `HeavisideProjection`, members /repo/src/HeavisideProjection.hpp:67-68. -/
structure HeavisideProj where
  beta : ℝ
  expBeta : ℝ

/-- Constructor (42-46) and `setCurvatureParameterBeta` (60-64) of
/repo/src/HeavisideProjection.hpp. -/
def HeavisideProj.make (beta : ℝ) : HeavisideProj := ⟨beta, Real.exp (-beta)⟩

/-- `apply`, /repo/src/HeavisideProjection.hpp:49-57. -/
def HeavisideProj.apply (d : HeavisideProj) (rho : ℝ) : ℝ :=
  let oneMinusRho := 1 - rho
  let betaTimes := d.beta * oneMinusRho
  1 - Real.exp (-betaTimes) + oneMinusRho * d.expBeta

/-- `ApplyProjection::operator()`, /repo/src/ApplyProjection.hpp:58-73, for one cell with control
values `c`; `f` is the `apply` member of the projection. -/
def applyProjection (f : ℝ → ℝ) (c : List ℝ) : Res ℝ := do
  let s ← forRange 0 c.length (0 : ℝ) fun i acc => do
    let x ← rd c i
    pure (acc + x)
  pure (f (s / c.length))

/-- `conditional_expression`, /repo/src/PlatoMathHelpers.hpp:36-48.  The conversion of the double to
`Plato::OrdinalType` truncates; the argument is positive, so truncation is the floor. -/
def conditionalExpression (x y a b : ℝ) : ℝ :=
  let t := x - y - 1
  let t := Real.exp t
  let coeff : ℤ := ⌊min 1 t⌋
  let c : ℝ := coeff
  c * b + (1 - c) * a

end
end Plato
