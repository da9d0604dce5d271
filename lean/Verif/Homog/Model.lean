import Verif.Mech.Model
import Verif.Crit.PhysicsModel

/-!
# Effective energy of a periodic cell

Modelled sources in `/repo/src`: `elliptic/EffectiveEnergy.hpp`, `HomogenizedStress.hpp` and the second operator
of `ScalarProduct.hpp`.  The cell problem itself is the elastostatic problem with `CellForcing`
(`Elastostatic.forcing` in `Verif.Mech.Model`).  Plot output is left out.
-/

namespace Plato.Homog
open Plato Plato.Mech Plato.Crit

section
variable {R : Type} [CommRing R]

/-- `HomogenizedStress::operator()`, HomogenizedStress.hpp:35-50. -/
def homogenizedStress (nv : Nat) (C : Nat → Nat → R) (col cell : Nat) (stress strain : V2 R) : Res (V2 R) :=
  forRange 0 nv stress fun i stress => do
    let stress ← vwr2 stress cell i (C col i)
    forRange 0 nv stress fun j stress => do
      let e ← vrd2 strain cell j
      let old ← vrd2 stress cell i
      vwr2 stress cell i (old - e * C j i)

/-- `ScalarProduct::operator()` with a vector, ScalarProduct.hpp:46-66.  The vector has fixed size and is indexed
within bounds. -/
def scalarProductVec (terms cell : Nat) (prod : List R) (t1 : V2 R) (t2 : Nat → R) (vol : List R) (scale : R) :
    Res (List R) := do
  let inc ← forRange 0 terms (0 : R) fun t inc => do
    let a ← vrd2 t1 cell t
    pure (inc + a * t2 t)
  let v ← rd vol cell
  let x ← rd prod cell
  wr prod cell (x + scale * inc * v)

variable [Div R] (fabs : R → R)

/-- Body of the parallel loop, EffectiveEnergy.hpp:148-165. -/
def effectiveCell (P : Elastostatic R) (col : Nat) (assumed : Nat → R) (state control : V2 R) (config : V3 R)
    (c : Nat) (s : Views R × List R) : Res (Views R × List R) := do
  let w := s.1
  let (g, v) ← computeGradient fabs P.d c w.grad config w.vol
  let x ← rd v c
  let v ← wr v c (x * P.cubWeight)
  let e ← strain P.d P.d c w.strain state g
  let q ← homogenizedStress (numVoigt P.d) P.stiff col c w.stress e
  let q ← applyWeighting (P.d + 1) (numVoigt P.d) P.pen c q control
  let r ← scalarProductVec (numVoigt P.d) c s.2 q assumed v 1
  pure (⟨g, v, e, q⟩, r)

/-- `EffectiveEnergy::evaluate`, EffectiveEnergy.hpp:110-172. -/
def effectiveEnergy (P : Nat → Elastostatic R) (col : Nat) (assumed : Nat → R) (sch : Nat → List Nat) :
    ScalarEvaluator R := fun k s z x r _ => do
  let (_, r) ← parFor (sch k) (Views.new (P k).d s.d0, r) (effectiveCell fabs (P k) col assumed s z x)
  pure r

end

/-- What the constructor of `EffectiveEnergy` reads from the input, EffectiveEnergy.hpp:81-98: the entries of
`Assumed Strain`, whose number is checked by an `assert` only (compiled out in a release build, the access is
not checked), and the column of `Cell Problem Forcing`, which stays uninitialised when that list is missing. -/
def effectiveInput (nv : Nat) (assumed : List ℝ) (forcing : Option Nat) : Res (List ℝ × Nat) := do
  let a ← forRange 0 nv [] fun i a => do
    let v ← rd assumed i
    pure (a ++ [v])
  match forcing with
  | some col => pure (a, col)
  | none => Res.ub

end Plato.Homog
