import Verif.Tm.Model
import Verif.Material.Model
import Verif.Crit.PhysicsModel

/-!
# Internal energy and material of thermomechanics

Modelled sources in `/repo/src`: `elliptic/InternalThermoelasticEnergy.hpp`, `parabolic/InternalThermoelasticEnergy.hpp`
(the same body, with the rates as an argument that is not read), `ThermoelasticMaterial.hpp`, and the constructor of
`TMKinetics` (`TMKinetics.hpp`).  The functors are in `Verif.Tm.Model` and `Verif.Mech.Model`, the constructors of the
tables in `Verif.Material.Model` and `Verif.Thermal.Model`.

The members of the criterion are those of the residual (`Tm`): dimension, cubature rule, material, penalty function;
`mass`, `bodyLoads` and `plottable` are not read.
-/

namespace Plato.TmCrit
open Plato Plato.Mech Plato.Thermal Plato.Tm Plato.Crit

section
variable {R : Type} [CommRing R] [Div R] (fabs : R → R)

/-- Body of the loop of `InternalThermoelasticEnergy::evaluate`, elliptic: 160-184, parabolic: 142-166.  Gradients,
volume, kinematics, temperature and kinetics are those of the residual. -/
def energyCell (P : Tm R) (state control : V2 R) (config : V3 R) (c : Nat) (s : MViews R × List R) :
    Res (MViews R × List R) := do
  let w ← P.front fabs state config c s.1
  let σ ← applyWeighting (P.d + 1) (numVoigt P.d) P.pen c w.stress control
  let q ← applyWeighting (P.d + 1) P.d P.pen c w.flux control
  let r ← scalarProduct (numVoigt P.d) c s.2 σ w.strain w.vol 1
  let r ← scalarProduct P.d c r q w.tgrad w.vol 1
  pure ({ w with stress := σ, flux := q }, r)

/-- `InternalThermoelasticEnergy::evaluate`, elliptic: 118-185, parabolic: 99-167. -/
def thermoelasticEnergy (P : Nat → Tm R) (sch : Nat → List Nat) : ScalarEvaluator R := fun k s z x r _ => do
  let (_, r) ← parFor (sch k) (MViews.new (P k).d s.d0, r) (energyCell fabs (P k) s z x)
  pure r

end

/-! ## Input -/

/-- `Teuchos::ParameterList` with sublists: numbers and booleans by their path, and the paths that are lists. -/
structure PList where
  val : List String → Option Material.PVal
  flag : List String → Option Bool
  isSub : List String → Bool

/-- Assignment from `sublist(name)` to a variable declared `auto`: a copy. -/
def PList.sub (p : PList) (name : String) : PList :=
  ⟨fun q => p.val (name :: q), fun q => p.flag (name :: q), fun q => p.isSub (name :: q)⟩

/-- The parameters of a list itself. -/
def PList.params (p : PList) : Material.Params := fun n => p.val [n]

/-- `p.sublist(list).set(name, v)`; the sublist is created if there is none. -/
def PList.setIn (p : PList) (list name : String) (v : ℝ) : PList :=
  { p with
    val := fun q => if q = [list, name] then some (.scalar v) else p.val q
    isSub := fun q => q == [list] || p.isSub q }

/-- What `parseTensor` and `parseScalar` look for, MaterialModel.hpp:522-534. -/
def PList.property (p : PList) (name : String) : PropertyInput :=
  match p.val [name] with
  | some (.scalar v) => .number v
  | _ => if p.isSub [name] then .list (p.sub name).params else .missing

/-- A stiffness that was not set: the maps of `MaterialModel` construct it with zeros
(MaterialModel.hpp:219, 270, 377-399). -/
def noStiff : Nat → Nat → ℝ := fun _ _ => 0

/-- `ThermoelasticMaterial::parseElasticStiffness`, ThermoelasticMaterial.hpp:40-59, with `parseRank4Voigt`
(MaterialModel.hpp:561-582): the constant and the functor stored under the name "Elastic Stiffness".
`parseRank4Voigt` is called with the list "Elastic Stiffness", and looks in it for a list of this name. -/
noncomputable def parseStiffness (d : Nat) (nonlinear : Bool) (p : PList) : Res (Table ℝ) :=
  if p.isSub ["Elastic Stiffness"] = false then throwErr "sublist does not exist"
  else
    let e := p.sub "Elastic Stiffness"
    if e.isSub ["Youngs Modulus"] then do
      let f ← Material.isoFunctor d e.params (e.sub "Youngs Modulus").params
      pure ⟨numVoigt d, noStiff, f.c0.e, f.c1.e, f.c2.e⟩
    else if e.params.isScalar "Youngs Modulus" then do
      let c ← Material.isoConstant d e.params
      pure ⟨numVoigt d, c.e, noStiff, noStiff, noStiff⟩
    else if e.isSub ["Elastic Stiffness"] then
      if nonlinear then do
        let f ← Material.rank4Functor d (e.sub "Elastic Stiffness").params
        pure ⟨numVoigt d, noStiff, f.c0.e, f.c1.e, f.c2.e⟩
      else do
        let c ← Material.rank4Constant d (e.sub "Elastic Stiffness").params
        pure ⟨numVoigt d, c.e, noStiff, noStiff, noStiff⟩
    else throwErr "Required input missing. 'Elastic Stiffness' must be provided as a ParameterList"

/-- `parseTensor` of a property (MaterialModel.hpp:520-553): the tables of `FluxLaw.ofInput`. -/
def parseTable (d : Nat) (nonlinear : Bool) (p : PList) (name : String) : Res (Table ℝ) := do
  let t ← FluxLaw.ofInput d nonlinear (p.property name)
  pure ⟨d, t.const, t.c0, t.c1, t.c2⟩

/-- Constructor of `ThermoelasticMaterial` (ThermoelasticMaterial.hpp:26-37, MaterialModel.hpp:362-370) and of
`TMKinetics` (TMKinetics.hpp:47-65).  A temperature dependent model reads the functors, the other the constants. -/
noncomputable def thermoelasticMaterial (d : Nat) (p : PList) : Res (TmLaw ℝ) := do
  let nonlinear := (p.flag ["Temperature Dependent"]).getD false
  let stiff ← parseStiffness d nonlinear p
  let expand ← parseTable d nonlinear p "Thermal Expansivity"
  let cond ← parseTable d nonlinear p "Thermal Conductivity"
  pure ⟨nonlinear, stiff, expand, cond, p.params.getD "Reference Temperature" 23, p.params.getD "Temperature Scaling" 1⟩

/-- `ThermoelasticModelFactory::create`, ThermoelasticMaterial.hpp:76-108, for the use of its result: a null pointer
is dereferenced by `TMKinetics`. -/
noncomputable def createMaterial (d : Nat) (p : PList) (name : String) : Res (TmLaw ℝ) :=
  if p.isSub ["Material Models"] = false then .ub
  else
    let models := p.sub "Material Models"
    if models.isSub [name] = false then throwErr "Requested a material model that isn't defined"
    else if (models.sub name).isSub ["Thermoelastic"] then thermoelasticMaterial d ((models.sub name).sub "Thermoelastic")
    else throwErr "Expected 'Thermoelastic' ParameterList"

/-- The material of the criterion: constructor of the elliptic `InternalThermoelasticEnergy`, lines 84-110.  `problem`
is a copy of the input, and so is `m`; `m` is not used afterwards. -/
noncomputable def energyMaterial (d : Nat) (input : PList) (fn name : String) : Res (TmLaw ℝ) := do
  let problem := input
  if input.isSub ["Material Models"] = false then throwErr "Required input list ('Material Models') is missing."
  else if input.isSub ["Material Models", name] = false then throwErr "Specified material model is not defined"
  else
    let m :=
      if (input.flag [fn, "Include Thermal Strain"]).getD true = false then
        let m := (problem.sub "Material Models").sub name
        let m := m.setIn "Cubic Linear Thermoelastic" "a11" 0
        let m := m.setIn "Cubic Linear Thermoelastic" "a22" 0
        m.setIn "Cubic Linear Thermoelastic" "a33" 0
      else (problem.sub "Material Models").sub name
    let _ := m
    createMaterial d problem name

end Plato.TmCrit
