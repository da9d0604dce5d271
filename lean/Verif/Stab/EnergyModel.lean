import Verif.Stab.Model

/-!
# Internal elastic energy of elastostatics with pressure

Model of `StabilizedElastostaticEnergy::evaluate` (StabilizedElastostaticEnergy.hpp), the criterion "Internal Elastic
Energy" of stabilised mechanics (StabilizedMechanics.hpp:120-146).
-/

namespace Plato.Stab
open Plato Plato.Mech Plato.Thermal Plato.Plast

variable {R : Type} [CommRing R]

/-- Normal stresses with the pressure, StabilizedElastostaticEnergy.hpp:158-161.  Other components are not written. -/
def totalStress (d cell : Nat) (dev : V2 R) (press : List R) (tot : V2 R) : Res (V2 R) :=
  forRange 0 d tot fun i tot => do
    let a ← vrd2 dev cell i
    let p ← rd press cell
    vwr2 tot cell i (a + p)

variable [Div R]

/-- Body of the loop, StabilizedElastostaticEnergy.hpp:134-171.  The projected gradient is a new view, never written. -/
def Stab.energyCell (P : Stab R) (fabs pow23 : R → R) (K G : R) (state control : V2 R) (config : V3 R) (cell : Nat)
    (s : (SViews R × V2 R) × List R) : Res ((SViews R × V2 R) × List R) := do
  let w ← P.kin fabs state config cell s.1.1
  let press ← interpolate1 (P.d + 1) P.ndof P.d cell P.basis state w.press
  let w ← P.kinetics pow23 K G cell { w with press := press }
  let tot ← totalStress P.d cell w.dev w.press s.1.2
  let tot ← applyWeighting (P.d + 1) (numVoigt P.d) P.pen cell tot control
  let r ← scalarProduct (numVoigt P.d) cell s.2 tot w.strain w.vol 1
  pure ((w, tot), r)

/-- `evaluate`, StabilizedElastostaticEnergy.hpp:100-172. -/
def Stab.energy (P : Stab R) (fabs pow23 : R → R) (order : List Nat) (nc : Nat) (state control : V2 R) (config : V3 R)
    (result : List R) : Res (List R) := do
  let K ← P.bulk
  let G ← P.shear
  let (_, r) ← parFor order ((SViews.new P.d nc, ⟨nc, numVoigt P.d, fun _ _ => 0⟩), result)
    (P.energyCell fabs pow23 K G state control config)
  pure r

end Plato.Stab
