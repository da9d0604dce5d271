import Verif.Tm.Model
import Verif.Crit.AugLagModel

/-!
# Von Mises stress of thermomechanics

Model of `ThermalVonMisesLocalMeasure::operator()` (ThermalVonMisesLocalMeasure.hpp).  Gradients, strain, temperature and
stress are those of the residual (`Tm.front`), the yield function is that of mechanics.
-/

namespace Plato.Tm
open Plato Plato.Mech Plato.Crit

/-- `operator()`, ThermalVonMisesLocalMeasure.hpp:78-118.  The code does not multiply the volume, which nothing reads, by
a weight. -/
def thermalVonMises {R : Type} [CommRing R] [Div R] (fabs sqrt : R → R) (half : R) (P : Nat → Tm R)
    (sch : Nat → List Nat) : Measure R := fun k s x r => do
  let p ← parFor (sch k) (MViews.new (P k).d r.length, r) fun c (p : MViews R × List R) => do
    let w ← (P k).front fabs s x c p.1
    let r ← vonMises sqrt half (P k).d c w.stress p.2
    pure (w, r)
  pure p.2

end Plato.Tm
