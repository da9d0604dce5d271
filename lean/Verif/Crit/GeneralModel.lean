import Verif.Crit.AugLagModel

/-!
# Model of the general augmented Lagrangian stress criterion

`Plato::AugLagStressCriterionGeneral` (/repo/src/Plato_AugLagStressCriterionGeneral.hpp), built for the
elastostatic problem by /repo/src/Mechanics.hpp:151: mass and stress in one function.

The temporaries that the loops index by the cell are local values, except the views of gradient, volume,
strain, stress and von Mises stress; the plot field left in the data map is not modelled.
-/

namespace Plato.Crit
open Plato Plato.Mech

/-- Members, lines 53-66: those shared with the quadratic criterion, weights of mass and stress, density of
the material, normalisation of the mass. -/
structure General where
  base : AugLag
  massWeight : ℝ
  stressWeight : ℝ
  density : ℝ
  norm : ℝ

/-- Inputs, lines 92-105 (`readInputs`) and 80-81 (density of the material). -/
structure GeneralInputs where
  simp : PenaltyData
  limit : ℝ
  penalty : ℝ
  bound : ℝ
  expansion : ℝ
  lam0 : ℝ
  massWeight : ℝ
  stressWeight : ℝ
  density : ℝ
  /-- "Mass Normalization Multiplier" -/
  norm : ℝ

/-- The object before the mass is computed, lines 73-105: multipliers for all the cells of the mesh. -/
def GeneralInputs.members (I : GeneralInputs) (nelems : Nat) : General :=
  ⟨AugLag.new I.simp I.limit I.penalty I.bound I.expansion I.lam0 nelems, I.massWeight, I.stressWeight, I.density,
    I.norm⟩

/-- The constructor, lines 123-145 with `initialize` and `computeStructuralMass` (440-466): `n` is the number
of cells of the domain, `x` the coordinates of the mesh. -/
noncomputable def General.new (M : FeModel) (I : GeneralInputs) (weight : ℝ) (basis : List ℝ) (n : Nat) (x : List ℝ)
    (cfg order : List Nat) (chunks : List (List Nat)) : Res General := do
  let G := I.members M.nc
  let m ← structuralMass M weight G.density basis n x cfg order chunks
  pure { G with norm := m }

/-- The penalised constraint of a cell, lines 333-345 and 417-429: `over` is the von Mises stress divided by
the limit. -/
noncomputable def generalConstraint {R : Type} [CommRing R] (val : R → ℝ) (over pen : R) : R :=
  let e := over - 1
  let value := e * e * e * e + e * e
  let trial := pen * value
  if 1 < val over then trial else 0

/-- Body of the loop of `evaluate`, lines 325-359; `n` is the number of cells of the domain, `basis` the
values of the basis functions at the point of the rule. -/
noncomputable def General.evalCell {R : Type} [CommRing R] [Div R] (fabs sqrt : R → R) (val : R → ℝ) (ofReal : ℝ → R)
    (pen : PenaltyData → R → R) (G : General) (P : Elastostatic R) (basis : List ℝ) (n : Nat)
    (state control : V2 R) (config : V3 R) (c : Nat) (p : Views R × List R × List R) :
    Res (Views R × List R × List R) := do
  let w ← P.stressCell fabs state config c p.1
  let vm ← vonMises sqrt (ofReal (1 / 2)) P.d c w.stress p.2.1
  let m ← rd vm c
  let rho ← cellDensity (P.d + 1) c control
  let t := generalConstraint val (m / ofReal G.base.limit) (pen G.base.simp rho)
  let l ← rd G.base.lam c
  let constraint := ofReal (1 / n) * (ofReal l * t + ofReal (1 / 2) * ofReal G.base.penalty * t * t)
  let mass ← cellMass (P.d + 1) c (basis.map ofReal) control
  let v ← rd w.vol c
  let objective := mass * ofReal G.density * v / ofReal G.norm
  let r ← wr p.2.2 c (ofReal G.massWeight * objective + ofReal G.stressWeight * constraint)
  pure (w, vm, r)

/-- `evaluate`, lines 275-362.  `G` are the objects of the domains; `sch` the orders of the iterations. -/
noncomputable def generalEval {R : Type} [CommRing R] [Div R] (fabs sqrt : R → R) (val : R → ℝ) (ofReal : ℝ → R)
    (pen : PenaltyData → R → R) (P : Nat → Elastostatic R) (basis : List ℝ) (G : Nat → General)
    (sch : Nat → List Nat) : ScalarEvaluator R := fun k s z x r _ => do
  let p ← parFor (sch k) (Views.new (P k).d r.length, List.replicate r.length 0, r)
    ((G k).evalCell fabs sqrt val ofReal pen (P k) basis r.length s z x)
  pure p.2.2

/-- Body of the loop of `updateLagrangeMultipliers`, lines 408-434. -/
noncomputable def General.updateCell (G : General) (P : Elastostatic ℝ) (state control : V2 ℝ) (config : V3 ℝ) (c : Nat)
    (p : Views ℝ × List ℝ × List ℝ) : Res (Views ℝ × List ℝ × List ℝ) := do
  let w ← P.stressCell abs state config c p.1
  let vm ← vonMises Real.sqrt (1 / 2) P.d c w.stress p.2.1
  let m ← rd vm c
  let rho ← cellDensity (P.d + 1) c control
  let t := generalConstraint id (m / G.base.limit) (Plato.simp G.base.simp rho)
  let l ← rd p.2.2 c
  let lam ← wr p.2.2 c (max (l + G.base.penalty * t) 0)
  pure (w, vm, lam)

/-- `updateProblem`, lines 259-265 with 110-114 and 370-435; `n` is the number of cells of the domain. -/
noncomputable def General.update (G : General) (P : Elastostatic ℝ) (n : Nat) (order : List Nat)
    (s z : V2 ℝ) (x : V3 ℝ) : Res General := do
  let p ← parFor order (Views.new P.d n, List.replicate n 0, G.base.lam) (G.updateCell P s z x)
  let A : AugLag := { G.base with lam := p.2.2 }
  pure { G with base := A.updatePenalty }

/-- The four evaluators of a domain, each with its own state. -/
structure GenCopies where
  value : General
  gradU : General
  gradZ : General
  gradX : General

/-- `PhysicsScalarFunction::updateProblem`, /repo/src/elliptic/PhysicsScalarFunction.hpp:191-214; `F` are the
evaluators of the domains. -/
noncomputable def genUpdateProblem (M : FeModel) (P : Nat → Elastostatic ℝ) (x : List ℝ) (sc : UpdateSched)
    (u z : List ℝ) (F : Nat → GenCopies) : Res (Nat → GenCopies) :=
  forRange 0 M.domains.length F fun k F => do
    let cells ← rd M.domains k
    let s ← workset plainOf M.npc M.ndof M.c2n (some cells) u (sc.st k) ⟨cells.length, M.npc * M.ndof, fun _ _ => 0⟩
    let c ← workset plainOf M.npc 1 M.c2n (some cells) z (sc.ctl k) ⟨cells.length, M.npc, fun _ _ => 0⟩
    let g ← worksetConfig plainOf M.npc M.dim M.c2n (some cells) x (sc.cfg k)
      ⟨cells.length, M.npc, M.dim, fun _ _ _ => 0⟩
    let a ← (F k).value.update (P k) cells.length (sc.upd k 0) s c g
    let b ← (F k).gradU.update (P k) cells.length (sc.upd k 1) s c g
    let d ← (F k).gradZ.update (P k) cells.length (sc.upd k 2) s c g
    let e ← (F k).gradX.update (P k) cells.length (sc.upd k 3) s c g
    pure (Function.update F k ⟨a, b, d, e⟩)

/-- A history of calls. -/
noncomputable def genUpdates (M : FeModel) (P : Nat → Elastostatic ℝ) (x : List ℝ) :
    List (UpdateSched × List ℝ × List ℝ) → (Nat → GenCopies) → Res (Nat → GenCopies)
  | [], F => .ok F
  | (sc, u, z) :: l, F => do
    let F ← genUpdateProblem M P x sc u z F
    genUpdates M P x l F

end Plato.Crit
