import Mathlib.Analysis.SpecialFunctions.Pow.Real
import Mathlib.Analysis.SpecialFunctions.Trigonometric.Basic

/-!
# Model of the algebraic rocket model (/repo/src/Plato_AlgebraicRocketModel.hpp,
/repo/src/Plato_Cylinder.hpp) and of the objective of the rocket application
(/repo/src/PlatoRocketApp.cpp)

Floating point numbers are real numbers, and `none` stands for a value that is not a finite number.
Every comparison with such a value is false.  `mNumNewtonItr` is a natural number.
-/

namespace Plato.Rocket
open Classical

/-- A floating point number: a real number, or `none` for a value that is not finite. -/
abbrev Num := Option ℝ

/-- `std::pow`: finite for a positive base, for a zero base with an exponent that is not negative, and
for a negative base with an integral exponent. -/
noncomputable def cpow (x : Num) (a : ℝ) : Num := do
  let v ← x
  if 0 < v ∨ (v = 0 ∧ 0 ≤ a) ∨ (v < 0 ∧ ∃ n : ℤ, a = n) then some (v ^ a) else none

/-- Division. -/
noncomputable def cdiv (x y : Num) : Num := do
  let v ← x
  let w ← y
  if w = 0 then none else some (v / w)

/-- Product. -/
noncomputable def cmul (x y : Num) : Num := do
  let v ← x
  let w ← y
  some (v * w)

/-- Sum. -/
noncomputable def cadd (x y : Num) : Num := do
  let v ← x
  let w ← y
  some (v + w)

/-- Difference. -/
noncomputable def csub (x y : Num) : Num := do
  let v ← x
  let w ← y
  some (v - w)

/-- `std::abs(x) < t`. -/
noncomputable def absLt (x : Num) (t : ℝ) : Bool :=
  match x with
  | some v => decide (|v| < t)
  | none => false

/-- `AlgebraicRocketInputs`, Plato_AlgebraicRocketModel.hpp:68-104 (`mNumTimeSteps` is not used by
`solve`). -/
structure Inputs where
  alpha : ℝ
  dt : ℝ
  refPressure : ℝ
  totalBurnTime : ℝ
  throatDiameter : ℝ
  newtonTolerance : ℝ
  ambientPressure : ℝ
  charVelocity : ℝ
  maxNewton : ℕ

/-- `mInvPrefAlpha`, Plato_AlgebraicRocketModel.hpp:291. -/
noncomputable def Inputs.invPrefAlpha (I : Inputs) : Num := cdiv (some 1) (cpow (some I.refPressure) I.alpha)

/-- `tThroatArea`, Plato_AlgebraicRocketModel.hpp:292. -/
noncomputable def Inputs.throatArea (I : Inputs) : ℝ :=
  Real.pi * I.throatDiameter * I.throatDiameter / 4

/-- `jacobian`, Plato_AlgebraicRocketModel.hpp:360-366. -/
noncomputable def jacobian (I : Inputs) (rate p : Num) (area : ℝ) : Num :=
  csub (cmul (cmul (cmul rate (some I.alpha)) I.invPrefAlpha) (cpow p (I.alpha - 1)))
    (cdiv (some area) (some I.charVelocity))

/-- `residual`, Plato_AlgebraicRocketModel.hpp:374-380. -/
noncomputable def residual (I : Inputs) (rate p : Num) (area : ℝ) : Num :=
  csub (cmul (cmul rate I.invPrefAlpha) (cpow p I.alpha))
    (cdiv (cmul (some area) p) (some I.charVelocity))

/-- `tDeltaPressure`, Plato_AlgebraicRocketModel.hpp:341-343. -/
noncomputable def delta (I : Inputs) (rate p : Num) (area : ℝ) : Num :=
  cdiv (cmul (some (-1)) (residual I rate p area)) (jacobian I rate p area)

/-- The loop of `newton`, Plato_AlgebraicRocketModel.hpp:339-349: the pressure and the number of
iterations when it stops. -/
noncomputable def newtonLoop (I : Inputs) (rate : Num) (area : ℝ) (p : Num) (itr : ℕ) : Num × ℕ :=
  if absLt (delta I rate p area) I.newtonTolerance = true ∨ itr + 1 > I.maxNewton then
    (cadd p (delta I rate p area), itr + 1)
  else
    newtonLoop I rate area (cadd p (delta I rate p area)) (itr + 1)
termination_by I.maxNewton - itr
decreasing_by omega

/-- `newton`, Plato_AlgebraicRocketModel.hpp:333-352. -/
noncomputable def newton (I : Inputs) (rate p : Num) (area : ℝ) : Num := (newtonLoop I rate area p 0).1

/-- The part of `GeometryModel` used by `solve`: `referenceMassProductionRate` and `evolveGeometry`. -/
structure Geometry (G : Type) where
  rate : G → Num
  evolve : G → ℝ → Num → G

/-- The local variables and the members changed by the loop of `solve`. -/
structure State (G : Type) where
  time : ℝ
  thrust : Num
  pressure : Num
  geom : G
  times : List ℝ
  thrusts : List Num
  pressures : List Num

/-- `tThrust`, Plato_AlgebraicRocketModel.hpp:314-316. -/
noncomputable def thrustOf (I : Inputs) (p : Num) : Num :=
  cdiv (cmul (some (269 * (98 / 10) * I.throatArea)) (csub p (some I.ambientPressure))) (some I.charVelocity)

/-- `tBurnRateMultiplier`, Plato_AlgebraicRocketModel.hpp:318. -/
noncomputable def multiplierOf (I : Inputs) (p : Num) : Num := cmul (cpow p I.alpha) I.invPrefAlpha

/-- The body of the loop of `solve`, Plato_AlgebraicRocketModel.hpp:301-320 (without the printing). -/
noncomputable def solveBody {G : Type} (I : Inputs) (M : Geometry G) (s : State G) : State G :=
  let p := newton I (M.rate s.geom) s.pressure I.throatArea
  { time := s.time + I.dt
    thrust := thrustOf I p
    pressure := p
    geom := M.evolve s.geom I.dt (multiplierOf I p)
    times := s.times ++ [s.time]
    thrusts := s.thrusts ++ [s.thrust]
    pressures := s.pressures ++ [s.pressure] }

/-- The loop of `solve`, Plato_AlgebraicRocketModel.hpp:299-323: `Burns I M s t` when the loop entered
with `s` stops with `t`. -/
inductive Burns {G : Type} (I : Inputs) (M : Geometry G) : State G → State G → Prop
  | last (s : State G) :
      ¬ ((solveBody I M s).time + I.newtonTolerance < I.totalBurnTime) → Burns I M s (solveBody I M s)
  | next (s t : State G) :
      (solveBody I M s).time + I.newtonTolerance < I.totalBurnTime →
      Burns I M (solveBody I M s) t → Burns I M s t

/-- State before the loop, Plato_AlgebraicRocketModel.hpp:283-297. -/
def start {G : Type} (I : Inputs) (g : G) : State G := ⟨0, some 0, some I.refPressure, g, [], [], []⟩

/-- `solve`, Plato_AlgebraicRocketModel.hpp:281-324: it returns with the state `t` when called with the
geometry `g`. -/
def Solve {G : Type} (I : Inputs) (M : Geometry G) (g : G) (t : State G) : Prop := Burns I M (start I g) t

/-- `Cylinder`, Plato_Cylinder.hpp:168-172. -/
structure Cylinder where
  radius : Num
  length : ℝ
  density : ℝ
  burnRate : ℝ

/-- `area`, Plato_Cylinder.hpp:107-111. -/
noncomputable def Cylinder.area (c : Cylinder) : Num :=
  cmul (cmul (some (2 * Real.pi)) c.radius) (some c.length)

/-- `gradient`, Plato_Cylinder.hpp:126-131. -/
noncomputable def Cylinder.gradient (c : Cylinder) : Num × Num :=
  (some (2 * Real.pi * c.length), cmul (some (2 * Real.pi)) c.radius)

/-- `referenceMassProductionRate`, Plato_Cylinder.hpp:117-120, and `evolveGeometry`, 161-164. -/
noncomputable def cylinder : Geometry Cylinder where
  rate c := cmul (some (c.burnRate * c.density)) c.area
  evolve c dt mult :=
    { c with radius := cadd c.radius (cmul (cmul mult (some c.burnRate)) (some dt)) }

/-- `ProblemParams`: the members read by `updateGeometry`. -/
structure Params where
  geometry : List ℝ
  refBurnRate : List ℝ
  density : ℝ

/-- `updateGeometry`, Plato_Cylinder.hpp:146-154.  The assertions on the sizes are a failed match. -/
def Cylinder.update (P : Params) : Option Cylinder :=
  match P.geometry, P.refBurnRate with
  | [_, len, rad], [b, _] => some ⟨some rad, len, P.density, b⟩
  | _, _ => none

/-- `RocketMocks::set_constant_burn_rate_problem`, Plato_RocketMocks.hpp:22-35; `density` is the
default of `ProblemParams`. -/
def constantBurnRateProblem (density maxRadius len rad burn : ℝ) : Params :=
  ⟨[maxRadius, len, rad], [burn, 0], density⟩

/-- The sum of the loop of `computeObjFuncValue`, PlatoRocketApp.cpp:383-395: half the mean square
distance between two profiles divided by `norm` (the squared norm of the target). -/
noncomputable def misfit (trial target : List ℝ) (norm : ℝ) : ℝ :=
  1 / (2 * (target.length : ℝ) * norm)
    * (((List.range target.length).map fun i =>
        (trial.getD i 0 - target.getD i 0) * (trial.getD i 0 - target.getD i 0)).sum)

/-- One pass of the loop of `computeObjFuncGrad`, PlatoRocketApp.cpp:343-360: `copy` is `tControlCopy`
and `out` is `aOutput`; `value` is `computeObjFuncValue` with the target profile. -/
noncomputable def objGradBody (value : List ℝ → ℝ) (control : List ℝ) (s : List ℝ × List ℝ) (i : ℕ) :
    List ℝ × List ℝ :=
  let eps : ℝ := 1 / 10000
  let copy := s.1.set i (control.getD i 0 + control.getD i 0 * eps)
  let forward := value copy
  let copy := copy.set i (control.getD i 0 - control.getD i 0 * eps)
  let backward := value copy
  let copy := copy.set i (control.getD i 0)
  (copy, s.2.set i ((forward - backward) / (2 * eps)))

/-- `computeObjFuncGrad`, PlatoRocketApp.cpp:336-361. -/
noncomputable def objGrad (value : List ℝ → ℝ) (control out : List ℝ) : List ℝ :=
  ((List.range control.length).foldl (objGradBody value control) (control, out)).2

end Plato.Rocket
