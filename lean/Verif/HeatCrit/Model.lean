import Verif.Thermal.Model
import Verif.Crit.PhysicsModel

/-!
# Criteria of heat conduction

Modelled sources in `/repo/src`: `elliptic/InternalThermalEnergy.hpp`, `elliptic/FluxPNorm.hpp`,
`VectorPNorm.hpp`.  The functors they call are in `Verif.Thermal.Model` and `Verif.Mech.Model`.  The members of
the criteria are those of the residual (`Thermal`): dimension, cubature weight, material, penalty function;
`basis`, `mass` and `bodyLoads` are not read.
-/

namespace Plato.HeatCrit
open Plato Plato.Mech Plato.Thermal Plato.Crit

section
variable {R : Type} [CommRing R] [Div R] (fabs : R → R)

/-- Common part of the parallel loops, InternalThermalEnergy.hpp:130-143 and FluxPNorm.hpp:117-130: gradient
operator, volume, temperature gradient, flux without temperature, weighting. -/
def fluxCell (P : Thermal R) (state control : V2 R) (config : V3 R) (c : Nat) (w : TViews R) : Res (TViews R) := do
  let (g, v) ← computeGradient fabs P.d c w.grad config w.vol
  let x ← rd v c
  let v ← wr v c (x * P.cubWeight)
  let tg ← scalarGrad P.d c w.tgrad state g
  let q ← P.law.fluxNoTemp P.d c w.flux tg
  let q ← applyWeighting (P.d + 1) P.d P.pen c q control
  pure ⟨g, v, tg, q, w.temp, w.rate, w.energy⟩

/-- `InternalThermalEnergy::evaluate`, elliptic/InternalThermalEnergy.hpp:96-150. -/
def thermalEnergy (P : Nat → Thermal R) (sch : Nat → List Nat) : ScalarEvaluator R := fun k s z x r _ => do
  let (_, r) ← parFor (sch k) (TViews.new (P k).d s.d0, r) fun c (w, r) => do
    let w ← fluxCell fabs (P k) s z x c w
    let r ← scalarProduct (P k).d c r w.flux w.tgrad w.vol (-1)
    pure (w, r)
  pure r

/-- `VectorPNorm::operator()`, VectorPNorm.hpp:21-38. -/
noncomputable def vectorPNorm (pow : R → ℝ → R) (len : Nat) (p : Int) (c : Nat) (pnorm : List R) (arg : V2 R)
    (vol : List R) : Res (List R) := do
  let pnorm ← wr pnorm c 0
  let pnorm ← forRange 0 len pnorm fun i pnorm => do
    let a ← vrd2 arg c i
    let b ← vrd2 arg c i
    let x ← rd pnorm c
    wr pnorm c (x + a * b)
  let x ← rd pnorm c
  let pnorm ← wr pnorm c (pow x ((p : ℝ) / 2))
  let x ← rd pnorm c
  let v ← rd vol c
  wr pnorm c (x * v)

/-- `FluxPNorm::evaluate`, elliptic/FluxPNorm.hpp:81-137.  The member `mExponent` is an ordinal: the constructor
truncates the number given in the input, lines 55 and 77. -/
noncomputable def fluxPNorm (pow : R → ℝ → R) (exponent : ℝ) (P : Nat → Thermal R) (sch : Nat → List Nat) :
    ScalarEvaluator R := fun k s z x r _ => do
  let (_, r) ← parFor (sch k) (TViews.new (P k).d s.d0, r) fun c (w, r) => do
    let w ← fluxCell fabs (P k) s z x c w
    let r ← vectorPNorm pow (P k).d (toOrdinal exponent) c r w.flux w.vol
    pure (w, r)
  pure r

end

/-- `FluxPNorm::postEvaluate`, elliptic/FluxPNorm.hpp:139-160: the truncated exponent is used here too. -/
noncomputable def fluxPost (exponent : ℝ) (order : Nat → List Nat) : Post where
  val v := v ^ (1 / (toOrdinal exponent : ℝ))
  grad g v := parFor (order g.length) g fun q g => do
    let a ← rd g q
    wr g q (a * (v ^ ((1 - (toOrdinal exponent : ℝ)) / (toOrdinal exponent : ℝ)) / (toOrdinal exponent : ℝ)))

end Plato.HeatCrit
