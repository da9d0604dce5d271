import Verif.Alg.PenaltyModel

/-!
# Choice of the penalty function of a criterion

Model of the functions `createScalarFunction` of the factories of the physics, as far as they read the penalty function
of a criterion, of the constructors of the penalty functions from a list, and of the use of the criterion by
`PhysicsScalarFunction`.

Simplified: parameters are text or numbers, a parameter of another type than the one asked for counts as missing; the
criteria are represented by the name of their class and their penalty function.  Criteria without such a penalty
(stress constraints and density penalty of `Mechanics` and `Thermomechanics`) are an argument `other`.
-/

namespace Plato.Crit.Choice
open Plato

/-- `Teuchos::ParameterList`: text and numbers by their path. -/
structure Input where
  str : List String → Option String
  num : List String → Option ℝ

/-- `auto q = p.sublist(name)`: a copy; a list that is missing is created empty. -/
def Input.sub (p : Input) (name : String) : Input := ⟨fun q => p.str (name :: q), fun q => p.num (name :: q)⟩

/-- `get<std::string>(name)`: throws if the parameter is missing. -/
def Input.text (p : Input) (name : String) : Res String :=
  match p.str [name] with
  | some s => .ok s
  | none => throwErr "parameter does not exist"

/-- `get<std::string>(name, default)`. -/
def Input.textD (p : Input) (name dflt : String) : String := (p.str [name]).getD dflt

/-- `get<Scalar>(name, default)`. -/
def Input.numD (p : Input) (name : String) (dflt : ℝ) : ℝ := (p.num [name]).getD dflt

/-- The classes of the penalty functions. -/
inductive Kind where
  | simp | ramp | heaviside | noPenalty

/-- Constructors of the penalty functions from a list: `MSIMP` Simp.hpp:42-53, `RAMP` Ramp.hpp:38-44, `Heaviside`
Heaviside.hpp:46-53, `NoPenalty` NoPenalty.hpp:35-37.  Members that a class does not have are zero. -/
noncomputable def Kind.data (k : Kind) (p : Input) : PenaltyData :=
  match k with
  | .simp => { penalty := p.numD "Exponent" 3, minValue := p.numD "Minimum Value" (1 / 10 ^ 9),
               upper := p.numD "Penalty Exponent Upper Bound" 3, increment := p.numD "Additive Continuation" (1 / 10),
               regLength := 0 }
  | .ramp => { penalty := p.numD "Exponent" 3, minValue := p.numD "Minimum Value" 0,
               increment := p.numD "Additive Continuation" (1 / 10), upper := p.numD "Penalty Exponent Upper Bound" 3,
               regLength := 0 }
  | .heaviside => { penalty := p.numD "Exponent" 1, regLength := p.numD "Regularization Length" 1,
                    minValue := p.numD "Minimum Value" 0, increment := p.numD "Additive Continuation" (1 / 10),
                    upper := p.numD "Penalty Exponent Upper Bound" 1 }
  | .noPenalty => ⟨0, 0, 0, 0, 0⟩

/-- A criterion: its class, the class of its penalty function and the members of the latter. -/
structure Criterion where
  cls : String
  kind : Kind
  data : PenaltyData

/-- `operator()` of the penalty function; NoPenalty.hpp:51-55 for the last. -/
noncomputable def Criterion.weight (c : Criterion) (x : ℝ) : ℝ :=
  match c.kind with
  | .simp => Plato.simp c.data x
  | .ramp => Plato.ramp c.data x
  | .heaviside => Plato.heaviside c.data x
  | .noPenalty => 1

/-- `std::make_shared<Class<EvaluationType, Penalty>>(…, aPenaltyParams, …)`: all classes construct their penalty
function from the list they are given. -/
noncomputable def make (cls : String) (k : Kind) (p : Input) : Res (Option Criterion) := .ok (some ⟨cls, k, k.data p⟩)

/-- Chain of comparisons with three penalties, e.g. Geometrical.hpp:34-55, Thermal.hpp:131-152. -/
noncomputable def three (cls type : String) (p : Input) : Res (Option Criterion) :=
  if type = "SIMP" then make cls .simp p
  else if type = "RAMP" then make cls .ramp p
  else if type = "Heaviside" then make cls .heaviside p
  else throwErr "Unknown 'Type' specified in 'Penalty Function' ParameterList"

/-- Chain with four penalties that throws, Electromechanics.hpp:96-121 and 125-151. -/
noncomputable def four (cls type : String) (p : Input) : Res (Option Criterion) :=
  if type = "SIMP" then make cls .simp p
  else if type = "RAMP" then make cls .ramp p
  else if type = "Heaviside" then make cls .heaviside p
  else if type = "NoPenalty" then make cls .noPenalty p
  else throwErr "Unknown 'Type' specified in 'Penalty Function' ParameterList"

/-- Chain with four penalties that does not throw: the pointer stays null, Mechanics.hpp:202-229, 248-274, 294-320,
StabilizedMechanics.hpp:118-153. -/
noncomputable def fourOrNull (cls type : String) (p : Input) : Res (Option Criterion) :=
  if type = "SIMP" then make cls .simp p
  else if type = "RAMP" then make cls .ramp p
  else if type = "Heaviside" then make cls .heaviside p
  else if type = "NoPenalty" then make cls .noPenalty p
  else .ok none

/-- `GeometryFactory`, Geometrical.hpp:22-61. -/
noncomputable def geometrical (p : Input) (func name : String) : Res (Option Criterion) := do
  if func = "Volume" then
    let pen := ((p.sub "Criteria").sub name).sub "Penalty Function"
    let type ← pen.text "Type"
    three "Geometric::Volume" type pen
  else throwErr "Unknown 'Objective' specified in 'Plato Problem' ParameterList"

/-- `ThermalFactory`, elliptic, Thermal.hpp:119-178. -/
noncomputable def thermal (p : Input) (func name : String) : Res (Option Criterion) := do
  let pen := ((p.sub "Criteria").sub name).sub "Penalty Function"
  let type ← pen.text "Type"
  if func = "Internal Thermal Energy" then three "Elliptic::InternalThermalEnergy" type pen
  else if func = "Flux P-Norm" then three "Elliptic::FluxPNorm" type pen
  else throwErr "Unknown 'Objective' specified in 'Plato Problem' ParameterList"

/-- `ThermalFactory`, parabolic, Thermal.hpp:182-244. -/
noncomputable def thermalParabolic (p : Input) (func name : String) : Res (Option Criterion) := do
  let pen := ((p.sub "Criteria").sub name).sub "Penalty Function"
  let type ← pen.text "Type"
  if func = "Internal Thermal Energy" then three "Parabolic::InternalThermalEnergy" type pen
  else if func = "Temperature Average" then three "Parabolic::TemperatureAverage" type pen
  else throwErr "Unknown 'Objective' specified in 'Plato Problem' ParameterList"

/-- `ElectromechanicsFactory`, Electromechanics.hpp:82-157. -/
noncomputable def electromechanics (p : Input) (func name : String) : Res (Option Criterion) :=
  let pen := ((p.sub "Criteria").sub name).sub "Penalty Function"
  let type := pen.textD "Type" "SIMP"
  if func = "Internal Electroelastic Energy" then four "Elliptic::InternalElectroelasticEnergy" type pen
  else if func = "Stress P-Norm" then four "Elliptic::EMStressPNorm" type pen
  else throwErr "Unknown 'Objective' specified in 'Plato Problem' ParameterList"

/-- `ThermomechanicsFactory`, elliptic, Thermomechanics.hpp:187-285; `NOPE` is not defined. -/
noncomputable def thermomechanics (other : String → Res (Option Criterion)) (p : Input) (func name : String) :
    Res (Option Criterion) :=
  let pen := ((p.sub "Criteria").sub name).sub "Penalty Function"
  let type := pen.textD "Type" "SIMP"
  if func = "Internal Thermoelastic Energy" then three "Elliptic::InternalThermoelasticEnergy" type pen
  else if func = "Stress Constraint Quadratic" then other func
  else if func = "Volume" then three "Elliptic::Volume" type pen
  else throwErr "Unknown 'Objective' specified in 'Plato Problem' ParameterList"

/-- `ThermomechanicsFactory`, parabolic, Thermomechanics.hpp:290-328. -/
noncomputable def thermomechanicsParabolic (p : Input) (func name : String) : Res (Option Criterion) := do
  let pen := ((p.sub "Criteria").sub name).sub "Penalty Function"
  let type ← pen.text "Type"
  if func = "Internal Thermoelastic Energy" then three "Parabolic::InternalThermoelasticEnergy" type pen
  else throwErr "Unknown 'PDE Constraint' specified in 'Plato Problem' ParameterList"

/-- `Hyperbolic::FunctionFactory`, hyperbolic/HyperbolicMechanics.hpp:72-124.  The criteria are given the list of the
criterion and take the list of the penalty from it (HyperbolicInternalElasticEnergy.hpp:84,
HyperbolicStressPNorm.hpp:73). -/
noncomputable def hyperbolic (p : Input) (func name : String) : Res (Option Criterion) := do
  let params := (p.sub "Criteria").sub name
  let type ← (params.sub "Penalty Function").text "Type"
  if func = "Internal Elastic Energy" then
    three "Hyperbolic::InternalElasticEnergy" type (params.sub "Penalty Function")
  else if func = "Stress P-Norm" then three "Hyperbolic::StressPNorm" type (params.sub "Penalty Function")
  else throwErr "Unknown 'Criterion' specified in 'Plato Problem' ParameterList"

/-- `MechanicsFactory`, Mechanics.hpp:401-448 with `internal_elastic_energy` (195-230), `stress_p_norm` (241-275) and
`effective_energy` (287-321). -/
noncomputable def mechanics (other : String → Res (Option Criterion)) (p : Input) (func name : String) :
    Res (Option Criterion) :=
  let pen := ((p.sub "Criteria").sub name).sub "Penalty Function"
  let type := pen.textD "Type" "SIMP"
  if func = "Internal Elastic Energy" then fourOrNull "Elliptic::InternalElasticEnergy" type pen
  else if func = "Stress P-Norm" then fourOrNull "Elliptic::StressPNorm" type pen
  else if func = "Effective Energy" then fourOrNull "Elliptic::EffectiveEnergy" type pen
  else if func = "Stress Constraint" then other func
  else if func = "Stress Constraint General" then other func
  else if func = "Stress Constraint Quadratic" then other func
  else if func = "Density Penalty" then other func
  else .ok none

/-- `StabilizedMechanicsFactory`, StabilizedMechanics.hpp:109-154.  The list is looked for beside "Criteria". -/
noncomputable def stabilized (p : Input) (func name : String) : Res (Option Criterion) :=
  let pen := (p.sub name).sub "Penalty Function"
  if func = "Internal Elastic Energy" then
    let type := pen.textD "Type" "SIMP"
    fourOrNull "StabilizedElastostaticEnergy" type pen
  else throwErr "Unknown scalar function specified in 'Plato Problem' ParameterList"

/-- The physics whose factories are modelled. -/
inductive Physics where
  | geometrical | thermal | thermalParabolic | electromechanics | thermomechanics | thermomechanicsParabolic
  | hyperbolic | mechanics | stabilized

/-- `PhysicsT::FunctionFactory::createScalarFunction`. -/
noncomputable def Physics.create (ph : Physics) (other : String → Res (Option Criterion)) (p : Input)
    (func name : String) : Res (Option Criterion) :=
  match ph with
  | .geometrical => Choice.geometrical p func name
  | .thermal => Choice.thermal p func name
  | .thermalParabolic => Choice.thermalParabolic p func name
  | .electromechanics => Choice.electromechanics p func name
  | .thermomechanics => Choice.thermomechanics other p func name
  | .thermomechanicsParabolic => Choice.thermomechanicsParabolic p func name
  | .hyperbolic => Choice.hyperbolic p func name
  | .mechanics => Choice.mechanics other p func name
  | .stabilized => Choice.stabilized p func name

/-- `PhysicsScalarFunction::initialize`, elliptic/PhysicsScalarFunction.hpp:65-90: the type of the criterion is in its
list in "Criteria".  The pointer is stored as it is. -/
noncomputable def Physics.initializeCriterion (ph : Physics) (other : String → Res (Option Criterion)) (p : Input)
    (name : String) : Res (Option Criterion) :=
  ph.create other p (((p.sub "Criteria").sub name).textD "Scalar Function Type" "") name

/-- `mValueFunctions.at(tName)->evaluate(…)`, elliptic/PhysicsScalarFunction.hpp:272: the criterion that is evaluated;
the null pointer has none. -/
def deref (c : Option Criterion) : Res Criterion :=
  match c with
  | some c => .ok c
  | none => .ub

end Plato.Crit.Choice
