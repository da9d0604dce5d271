import Verif.Plast.Model

/-!
# Stabilised elastostatics (displacements and pressure)

Model of `StabilizedElastostaticResidual::evaluate` (StabilizedElastostaticResidual.hpp), `StabilizedKinematics`
(Kinematics.hpp) and `StabilizedKinetics` (Kinetics.hpp).  Reused: gradient and volume of a cell, strain, weighting,
stress divergence, body loads (Verif/Mech/Model.lean), interpolation, flux divergence, projection to nodes
(Verif/Thermal/Model.lean), gradient of a scalar, pressure divergence (Verif/Plast/Model.lean).

Not modelled: copies for output (`toMap`), parsing of the lists, boundary loads (`evaluate_boundary`).
-/

namespace Plato.Stab
open Plato Plato.Mech Plato.Thermal Plato.Plast

variable {R : Type} [CommRing R]

/-- Members of `StabilizedElastostaticResidual`: spatial dimensions, stiffness, reference strain (read by the material,
LinearElasticMaterial.hpp:30) and pressure scaling of the material, penalty function, weight and basis of the one point
rule, body loads. -/
structure Stab (R : Type) where
  d : Nat
  stiff : Nat → Nat → R
  refStrain : Nat → R
  kappa : R
  pen : R → R
  cubWeight : R
  basis : List R
  bodyLoads : List (BodyLoad R)

/-- `mNumDofsPerNode`, SimplexStabilizedMechanics.hpp:25. -/
abbrev Stab.ndof (P : Stab R) : Nat := P.d + 1

/-- Views allocated by `evaluate`. -/
structure SViews (R : Type) where
  vol : List R
  press : List R
  volStrain : List R
  grad : V3 R
  strain : V2 R
  pgrad : V2 R
  proj : V2 R
  dev : V2 R
  stab : V2 R

/-- Freshly allocated views, StabilizedElastostaticResidual.hpp:177-185. -/
def SViews.new (d nc : Nat) : SViews R where
  vol := List.replicate nc 0
  press := List.replicate nc 0
  volStrain := List.replicate nc 0
  grad := ⟨nc, d + 1, d, fun _ _ _ => 0⟩
  strain := ⟨nc, numVoigt d, fun _ _ => 0⟩
  pgrad := ⟨nc, d, fun _ _ => 0⟩
  proj := ⟨nc, d, fun _ _ => 0⟩
  dev := ⟨nc, numVoigt d, fun _ _ => 0⟩
  stab := ⟨nc, d, fun _ _ => 0⟩

/-- Stress, Kinetics.hpp:84-92. -/
def hookeStress (d : Nat) (C : Nat → Nat → R) (cell : Nat) (strn out : V2 R) : Res (V2 R) :=
  forRange 0 (numVoigt d) out fun i out => do
    let out ← vwr2 out cell i 0
    forRange 0 (numVoigt d) out fun j out => do
      let e ← vrd2 strn cell j
      accum2 out cell i (e * C i j)

/-- Sum of the normal components, Kinetics.hpp:93-97 and 108-112. -/
def normalSum (d cell : Nat) (y : V2 R) : Res R :=
  forRange 0 d (0 : R) fun k s => do
    let a ← vrd2 y cell k
    pure (s + a)

variable [Div R]

/-- Subtraction of the mean stress, Kinetics.hpp:98-101. -/
def subtractMean (d cell : Nat) (tr : R) (out : V2 R) : Res (V2 R) :=
  forRange 0 d out fun k out => do
    let a ← vrd2 out cell k
    vwr2 out cell k (a - tr / 3)

/-- `mBulkModulus`, Kinetics.hpp:44-48. -/
def Stab.bulk (P : Stab R) : Res R := do
  let s ← forRange 0 P.d (0 : R) fun j s => pure (s + P.stiff 0 j)
  pure (s / (P.d : R))

/-- `mShearModulus`, Kinetics.hpp:50-55.  On the line this divides by zero shear terms. -/
def Stab.shear (P : Stab R) : Res R := do
  let s ← forRange 0 (numVoigt P.d - P.d) (0 : R) fun j s => pure (s + P.stiff (j + P.d) (j + P.d))
  pure (s / ((numVoigt P.d - P.d : Nat) : R))

/-- Geometry and kinematics of a cell, StabilizedElastostaticResidual.hpp:198-203 and Kinematics.hpp:36-85. -/
def Stab.kin (P : Stab R) (fabs : R → R) (state : V2 R) (config : V3 R) (cell : Nat) (w : SViews R) :
    Res (SViews R) := do
  let (g, v) ← computeGradient fabs P.d cell w.grad config w.vol
  let a ← rd v cell
  let v ← wr v cell (a * P.cubWeight)
  let e ← strain P.d P.ndof cell w.strain state g
  let pg ← scalarGradAt P.d P.ndof P.d cell state g w.pgrad
  pure { w with grad := g, vol := v, strain := e, pgrad := pg }

/-- `StabilizedKinetics::operator()`, Kinetics.hpp:72-128.  The pressure is scaled in place. -/
def Stab.kinetics (P : Stab R) (pow23 : R → R) (K G : R) (cell : Nat) (w : SViews R) : Res (SViews R) := do
  let dev ← hookeStress P.d P.stiff cell w.strain w.dev
  let tr ← normalSum P.d cell dev
  let dev ← subtractMean P.d cell tr dev
  let dv ← normalSum P.d cell w.strain
  let p ← rd w.press cell
  let press ← wr w.press cell (p * P.kappa)
  let p ← rd press cell
  let vs ← wr w.volStrain cell (P.kappa * (dv - p / K))
  let stab ← stabilization pow23 P.kappa G P.d cell w.vol w.pgrad w.proj w.stab
  pure { w with dev := dev, press := press, volStrain := vs, stab := stab }

/-- Values at the integration point, constitutive response and weighting,
StabilizedElastostaticResidual.hpp:207-222. -/
def Stab.kinet (P : Stab R) (pow23 : R → R) (K G : R) (state node control : V2 R) (cell : Nat) (w : SViews R) :
    Res (SViews R) := do
  let proj ← interpolateN (P.d + 1) P.d 0 P.d cell P.basis node w.proj
  let press ← interpolate1 (P.d + 1) P.ndof P.d cell P.basis state w.press
  let w ← P.kinetics pow23 K G cell { w with proj := proj, press := press }
  let dev ← applyWeighting (P.d + 1) (numVoigt P.d) P.pen cell w.dev control
  let stab ← applyWeighting (P.d + 1) P.d P.pen cell w.stab control
  let press ← applyWeighting1 (P.d + 1) P.pen cell w.press control
  let vs ← applyWeighting1 (P.d + 1) P.pen cell w.volStrain control
  pure { w with dev := dev, stab := stab, press := press, volStrain := vs }

omit [Div R] in
/-- The result, StabilizedElastostaticResidual.hpp:226-230. -/
def Stab.add (P : Stab R) (table : V2 Nat) (cell : Nat) (w : SViews R) (out : V2 R) : Res (V2 R) := do
  let out ← stressDivergence P.d P.ndof 0 table cell out w.dev w.grad w.vol 1
  let out ← pressureDivergence P.d P.ndof 0 cell out w.press w.grad w.vol 1
  let out ← fluxDivergence P.d P.ndof P.d cell out w.stab w.grad w.vol (-1)
  project1 (P.d + 1) P.ndof P.d cell w.vol P.basis w.volStrain out 1

/-- Body of the loop over the cells, StabilizedElastostaticResidual.hpp:194-232. -/
def Stab.cellBody (P : Stab R) (fabs pow23 : R → R) (K G : R) (table : V2 Nat) (state node control : V2 R)
    (config : V3 R) (cell : Nat) (s : SViews R × V2 R) : Res (SViews R × V2 R) := do
  let w ← P.kin fabs state config cell s.1
  let w ← P.kinet pow23 K G state node control cell w
  let out ← P.add table cell w s.2
  pure (w, out)

/-- `evaluate`, StabilizedElastostaticResidual.hpp:149-237.  `sched 0` is the order of the loop over the cells, the
others are those of the body loads. -/
def Stab.evaluate (P : Stab R) (fabs pow23 : R → R) (init : Nat → Nat → Nat) (sched : Nat → List Nat)
    (cells : List Nat) (state node control : V2 R) (config : V3 R) (result : V2 R) : Res (V2 R) := do
  let K ← P.bulk
  let G ← P.shear
  let table ← voigtTable P.d init
  let (_, out) ← parFor (sched 0) (SViews.new P.d cells.length, result)
    (P.cellBody fabs pow23 K G table state node control config)
  let (out, _) ← P.bodyLoads.foldlM (fun (s : V2 R × Nat) L => do
    let y ← L.get P.d P.ndof cells (sched s.2) control s.1 (-1)
    pure (y, s.2 + 1)) (out, 1)
  pure out

end Plato.Stab
