import Verif.Bnd.Model
import Verif.Thermal.Model
import Verif.Tm.Model

/-!
# Model of the boundary terms of heat conduction and thermomechanics

Modelled sources: `evaluate_boundary` of `/repo/src/elliptic/ThermostaticResidual.hpp` (191-207),
`/repo/src/parabolic/HeatEquationResidual.hpp` (193-209), `/repo/src/elliptic/ThermoelastostaticResidual.hpp`
(208-229) and `/repo/src/parabolic/TransientThermomechResidual.hpp` (236-256).  The surface integrals are those of
`Verif.Bnd.Model`.
-/

namespace Plato.HeatBnd
open Plato Plato.Bnd Plato.Mech Plato.Thermal Plato.Tm

/-- A member of type `NaturalBCs` of a residual with the scale that it is evaluated with; `init` and `orders` are
what the integrals of its conditions start with and the orders of their loops. -/
structure LoadBlock where
  Y : Layout
  scale : ℝ
  bcs : List NaturalBC
  init : Nat → Nat → Nat → Nat
  orders : Nat → List Nat

/-- Evaluation of the members one after the other. -/
noncomputable def loadBlocks (d : Nat) (c2n : List Nat) (F : Faces) (normal : Nat → Nat → Nat → ℝ) (cub : ℝ)
    (l : List LoadBlock) (g : V3 ℝ) (r : V2 ℝ) : Res (V2 ℝ) :=
  l.foldlM (fun r B => naturalBCs Real.sqrt id d B.Y c2n F normal B.scale cub B.init B.orders g B.bcs r) r

/-- Conditions of a residual: those for forces and those for heat. -/
structure Conditions where
  mech : List NaturalBC
  heat : List NaturalBC
  init : Nat → Nat → Nat → Nat
  orders : Nat → List Nat
  initT : Nat → Nat → Nat → Nat
  ordersT : Nat → List Nat

/-- `NaturalBCs<mSpaceDim, mNumDofsPerNode>` with scale 1, ThermostaticResidual.hpp:65,205; the same with the default
scale 1 (NaturalBCs.hpp:105) in HeatEquationResidual.hpp:63,207. -/
def heatBlocks (B : Conditions) : List LoadBlock := [⟨⟨1, 1, 0⟩, 1, B.heat, B.initT, B.ordersT⟩]

/-- Members of ThermoelastostaticResidual.hpp:65-66 with scale -1 (221,226); the same in
TransientThermomechResidual.hpp:78-79 (250,254). -/
def thermoBlocks (d : Nat) (B : Conditions) : List LoadBlock :=
  [⟨⟨d, d + 1, 0⟩, -1, B.mech, B.init, B.orders⟩, ⟨⟨1, d + 1, d⟩, -1, B.heat, B.initT, B.ordersT⟩]

/-- The evaluator of a parabolic residual with natural boundary conditions (parabolic/VectorFunction.hpp:203-243):
`evaluate_boundary` of the first domain runs on the worksets of the whole mesh. -/
def parWithBoundary (M : FeModel) (ev : ParEvaluator ℝ) (bnd : V3 ℝ → V2 ℝ → Res (V2 ℝ)) : ParEvaluator ℝ :=
  fun k s v z x r => if k < M.domains.length then ev k s v z x r else bnd x r

end Plato.HeatBnd
