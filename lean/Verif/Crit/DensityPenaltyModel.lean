import Verif.Crit.AugLagModel
import Verif.Simplex.Model
import Mathlib.Analysis.SpecialFunctions.Trigonometric.Basic

/-!
# Penalty of intermediate densities

Model of `IntermediateDensityPenalty` (IntermediateDensityPenalty.hpp), the criterion "Density Penalty" of mechanics
(Mechanics.hpp:439-443).
-/

namespace Plato.Crit
open Plato

/-- The parameter list of the problem, as far as the constructor reads it: the sublists of the list itself (`top`) and of
its sublist "Criteria", by name.  A sublist is the value of its "Penalty Amplitude", if it has one. -/
structure PenaltyInput where
  top : String → Option (Option ℝ)
  criteria : String → Option (Option ℝ)

/-- `mPenaltyAmplitude`, IntermediateDensityPenalty.hpp:51-52.  `get` of a list that does not exist throws. -/
def PenaltyInput.amplitude (I : PenaltyInput) (name : String) : Res ℝ :=
  match I.top name with
  | none => .err "InvalidParameterName"
  | some value => .ok (value.getD 1)

/-- Body of the loop, IntermediateDensityPenalty.hpp:92-96. -/
noncomputable def densityPenaltyCell (d : Nat) (A : ℝ) (basis : List ℝ) (control : V2 ℝ) (c : Nat) (r : List ℝ) :
    Res (List ℝ) := do
  let m ← cellMass (d + 1) c basis control
  wr r c (A / 2 * (1 - Real.cos (2 * Real.pi * m)))

/-- `evaluate`, IntermediateDensityPenalty.hpp:69-99. -/
noncomputable def densityPenalty (d : Nat) (A : ℝ) (order : List Nat) (control : V2 ℝ) (r : List ℝ) :
    Res (List ℝ) := do
  let rule ← linearTetCubRule (K := ℝ) d
  parFor order r (densityPenaltyCell d A rule.basis control)

end Plato.Crit
