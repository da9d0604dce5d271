import Verif.Em.Model

/-!
# Norm of the stress in electromechanics

Model of `EMStressPNorm` (elliptic/EMStressPNorm.hpp).  Gradients, volume, kinematics and kinetics are those of the
residual (`Em.front`), the norms are those of `StressPNorm` (Verif/Crit/PhysicsModel.lean).  Of the members of `Em` the
body loads and the names of the output are not read.
-/

namespace Plato.Em
open Plato Plato.Mech Plato.Crit

variable {R : Type} [CommRing R] [Div R] (fabs : R → R)

/-- Body of the loop, EMStressPNorm.hpp:114-131.  The electric displacement is not weighted. -/
def Em.normCell (P : Em R) (state control : V2 R) (config : V3 R) (c : Nat) (w : EViews R) : Res (EViews R) := do
  let w ← P.front fabs state config c w
  let σ ← applyWeighting (P.d + 1) (numVoigt P.d) P.pen c w.stress control
  pure { w with stress := σ }

/-- `evaluate`, EMStressPNorm.hpp:82-135.  `norm` is the functor of `mNorm`, called with the exponent converted to an
integer. -/
noncomputable def emStressPNorm (norm : Nat → Nat → Int → Nat → List R → V2 R → List R → Res (List R)) (exponent : ℝ)
    (P : Nat → Em R) (sch : Nat → Nat → List Nat) : ScalarEvaluator R := fun k s z x r _ => do
  let w ← parFor (sch k 0) (EViews.new (P k).d s.d0) ((P k).normCell fabs s z x)
  parFor (sch k 1) r fun c r => norm k (numVoigt (P k).d) (toOrdinal exponent) c r w.stress w.vol

end Plato.Em
