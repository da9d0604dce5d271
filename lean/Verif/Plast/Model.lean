import Verif.J2.Model
import Verif.Thermal.Model

/-!
# Model of the global residual of plasticity and of the function of global unknowns

Modelled sources in `/repo/src`: `InfinitesimalStrainPlasticityResidual.hpp` and
`InfinitesimalStrainThermoPlasticityResidual.hpp` (`evaluate`, `addBodyForces`, `setLoadControlMultiplier`), `ComputeStabilization.hpp`, `PressureDivergence.hpp`, `StrainDivergence.hpp`,
`ComputeCauchyStress.hpp`, `ScalarGrad.hpp` (fourth operator), `InterpolateGradientFromScalarNodal.hpp`,
`Plato_TopOptFunctors.hpp` (`apply_penalty`), `J2PlasticityUtilities.hpp` (`get...`),
`PressureGradientProjectionResidual.hpp`, `PressureGradient.hpp`, `GlobalVectorFunctionInc.hpp` (`value`, the
seven gradients).

Unknowns of a node: displacement, temperature in the thermal case, pressure.

Simplifications: one scalar type; the functions `MSIMP` (Simp.hpp) and `pow(·, 2/3)` are parameters; loads on
the boundary are a parameter of the function of global unknowns; the class templates are used for two and
three dimensions only, here three is the case of all other numbers.
-/

namespace Plato.Plast
open Plato Plato.Mech Plato.Thermal Plato.J2

variable {R : Type} [CommRing R]

/-- Members of the residual: material, cubature weight, bulk modulus, pressure scaling, conductivity, penalty
function, body loads and the entry "LoadControlConstant" of the data map
(InfinitesimalStrainPlasticityResidual.hpp:84-104, InfinitesimalStrainThermoPlasticityResidual.hpp:79-101).  Of
the material `mat` the fields of the local residual are not used. -/
structure Plast (R : Type) where
  mat : J2 R
  cubWeight : R
  bulk : R
  kappa : R
  cond : R
  pen : R → R
  bodyLoads : List (BodyLoad R)
  load : R

/-- Spatial dimensions. -/
abbrev Plast.d (P : Plast R) : Nat := P.mat.d

/-- `mNumGlobalDofsPerNode`. -/
abbrev Plast.ndof (P : Plast R) : Nat := P.mat.ndof

/-- `mPressureDofOffset`, SimplexPlasticity.hpp:27 and SimplexThermoPlasticity.hpp:28. -/
def Plast.poff (P : Plast R) : Nat := if P.mat.thermal then P.d + 1 else P.d

/-! ## Functors -/

/-- `ScalarGrad::operator()` with offset, ScalarGrad.hpp:91-110, and
`InterpolateGradientFromScalarNodal::operator()`, InterpolateGradientFromScalarNodal.hpp:54-69. -/
def scalarGradAt (d ndof off cell : Nat) (state : V2 R) (g : V3 R) (out : V2 R) : Res (V2 R) :=
  forRange 0 d out fun k out => do
    let out ← vwr2 out cell k 0
    forRange 0 (d + 1) out fun n out => do
      let s ← vrd2 state cell (n * ndof + off)
      let b ← vrd3 g cell n k
      accum2 out cell k (s * b)

/-- Components of the sum, StrainDivergence.hpp:60 and 83-84. -/
def divTable (d : Nat) : List Nat := if d = 2 then [0, 1] else [0, 1, 2]

/-- `StrainDivergence::operator()`, StrainDivergence.hpp:53-61 and 76-85. -/
def strainDivergence (d cell : Nat) (strn : V2 R) (out : List R) : Res (List R) := do
  let s ← (divTable d).foldlM (fun s (i : Nat) => do
    let a ← vrd2 strn cell i
    pure (s + a)) (0 : R)
  wr out cell s

/-- `ComputeStabilization::operator()`, ComputeStabilization.hpp:90-108 and 126-141. -/
def stabilization [Div R] (pow23 : R → R) (kappa shear : R) (d cell : Nat) (vol : List R)
    (pgrad proj out : V2 R) : Res (V2 R) := do
  let v ← rd vol cell
  let tau := pow23 v / (2 * shear)
  forRange 0 d out fun k out => do
    let a ← vrd2 pgrad cell k
    let b ← vrd2 proj cell k
    vwr2 out cell k (kappa * tau * (kappa * a - b))

/-- `apply_penalty`, Plato_TopOptFunctors.hpp:76-84. -/
def applyPenalty (n cell : Nat) (pen : R) (out : V2 R) : Res (V2 R) :=
  forRange 0 n out fun i out => do
    let a ← vrd2 out cell i
    vwr2 out cell i (a * pen)

/-- `PressureDivergence::operator()`, PressureDivergence.hpp:46-62. -/
def pressureDivergence (d ndof off cell : Nat) (out : V2 R) (p : List R) (g : V3 R) (vol : List R) (scale : R) :
    Res (V2 R) :=
  forRange 0 d out fun k out =>
    forRange 0 (d + 1) out fun n out => do
      let v ← rd vol cell
      let a ← rd p cell
      let b ← vrd3 g cell n k
      accum2 out cell (n * ndof + k + off) (scale * v * a * b)

/-- Components that `ComputeCauchyStress` adds to what it calls the trace, ComputeCauchyStress.hpp:71 (three
dimensions) and 106 (two). -/
def cauchyTrace (d : Nat) : Nat × Nat × Nat := if d = 2 then (0, 1, 3) else (0, 1, 3)

/-- Normal components, ComputeCauchyStress.hpp:75-85 and 110-117. -/
def cauchyNormal (d : Nat) : List Nat := if d = 2 then [0, 1, 3] else [0, 1, 2]

/-- Shear components, ComputeCauchyStress.hpp:88-90 and 120. -/
def cauchyShear (d : Nat) : List Nat := if d = 2 then [2] else [3, 4, 5]

/-- `ComputeCauchyStress::operator()`, ComputeCauchyStress.hpp:60-91 and 96-121. -/
def cauchyStress [Div R] (d cell : Nat) (bulk shear : R) (strn stress : V2 R) : Res (V2 R) := do
  let a ← vrd2 strn cell (cauchyTrace d).1
  let b ← vrd2 strn cell (cauchyTrace d).2.1
  let c ← vrd2 strn cell (cauchyTrace d).2.2
  let tr := a + b + c
  let stress ← (cauchyNormal d).foldlM (fun s (i : Nat) => do
    let e ← vrd2 strn cell i
    vwr2 s cell i (2 * shear * (e - tr / 3))) stress
  let stress ← (cauchyNormal d).foldlM (fun s (i : Nat) => do
    let e ← vrd2 s cell i
    vwr2 s cell i (e + bulk * tr)) stress
  (cauchyShear d).foldlM (fun s (i : Nat) => do
    let e ← vrd2 strn cell i
    vwr2 s cell i (shear * e)) stress

/-- `getPlasticStrainTensor`, J2PlasticityUtilities.hpp:769-772 and 786-791: component and component of the
local state. -/
def plasticStrainTable (d : Nat) : List (Nat × Nat) :=
  if d = 2 then [(0, 2), (1, 3), (2, 4), (3, 5)] else [(0, 2), (1, 3), (2, 4), (3, 5), (4, 6), (5, 7)]

/-- `getBackstressTensor`, J2PlasticityUtilities.hpp:808-811 and 825-830. -/
def backstressTable (d : Nat) : List (Nat × Nat) :=
  if d = 2 then [(0, 6), (1, 7), (2, 8), (3, 9)] else [(0, 8), (1, 9), (2, 10), (3, 11), (4, 12), (5, 13)]

/-- Copies components of the local state. -/
def copyTable (table : List (Nat × Nat)) (cell : Nat) (locl out : V2 R) : Res (V2 R) :=
  table.foldlM (fun y (i : Nat × Nat) => do
    let a ← vrd2 locl cell i.2
    vwr2 y cell i.1 a) out

/-! ## The residual -/

/-- Views of a call, InfinitesimalStrainPlasticityResidual.hpp:435-452 and
InfinitesimalStrainThermoPlasticityResidual.hpp:464-485. -/
structure PViews (R : Type) where
  vol : List R
  press : List R
  volStrain : List R
  div : List R
  temp : List R
  thermVol : List R
  grad : V3 R
  total : V2 R
  elastic : V2 R
  pgrad : V2 R
  proj : V2 R
  dev : V2 R
  stab : V2 R
  tgrad : V2 R
  flux : V2 R
  cauchy : V2 R
  accum : List R
  mult : List R
  plastic : V2 R
  back : V2 R

/-- Views are allocated with zeros. -/
def PViews.new (d nc : Nat) : PViews R where
  vol := List.replicate nc 0
  press := List.replicate nc 0
  volStrain := List.replicate nc 0
  div := List.replicate nc 0
  temp := List.replicate nc 0
  thermVol := List.replicate nc 0
  grad := ⟨nc, d + 1, d, fun _ _ _ => 0⟩
  total := ⟨nc, stressTerms d, fun _ _ => 0⟩
  elastic := ⟨nc, stressTerms d, fun _ _ => 0⟩
  pgrad := ⟨nc, d, fun _ _ => 0⟩
  proj := ⟨nc, d, fun _ _ => 0⟩
  dev := ⟨nc, stressTerms d, fun _ _ => 0⟩
  stab := ⟨nc, d, fun _ _ => 0⟩
  tgrad := ⟨nc, d, fun _ _ => 0⟩
  flux := ⟨nc, d, fun _ _ => 0⟩
  cauchy := ⟨nc, stressTerms d, fun _ _ => 0⟩
  accum := List.replicate nc 0
  mult := List.replicate nc 0
  plastic := ⟨nc, stressTerms d, fun _ _ => 0⟩
  back := ⟨nc, stressTerms d, fun _ _ => 0⟩

variable [Div R]

/-- First part of the loop: geometry, temperature, strains, InfinitesimalStrainPlasticityResidual.hpp:466-472 and
InfinitesimalStrainThermoPlasticityResidual.hpp:503-517. -/
def Plast.kin (P : Plast R) (fabs : R → R) (global locl : V2 R) (config : V3 R) (cell : Nat)
    (w : PViews R) : Res (PViews R) := do
  let (g, v) ← computeGradient fabs P.d cell w.grad config w.vol
  let a ← rd v cell
  let v ← wr v cell (a * P.cubWeight)
  let (temp, tgrad, tv) ← (if P.mat.thermal then do
    let temp ← interpolate1 (P.d + 1) P.ndof P.d cell P.mat.basis global w.temp
    let tgrad ← scalarGradAt P.d P.ndof P.d cell global g w.tgrad
    let t ← rd temp cell
    let tv ← wr w.thermVol cell (3 * P.mat.alpha * (P.mat.tscale * t - P.mat.tref))
    pure (temp, tgrad, tv)
    else pure (w.temp, w.tgrad, w.thermVol) : Res (List R × V2 R × List R))
  let tot ← strain P.d P.ndof cell w.total global g
  let el ← elasticStrain P.mat cell global locl tot w.elastic
  pure { w with grad := g, vol := v, temp := temp, tgrad := tgrad, thermVol := tv, total := tot, elastic := el }

/-- Second part of the loop: pressure, stress, volume equation, stabilisation, heat flux,
InfinitesimalStrainPlasticityResidual.hpp:474-499 and InfinitesimalStrainThermoPlasticityResidual.hpp:519-550. -/
def Plast.kinet (P : Plast R) (pow23 : R → R) (global node control : V2 R) (cell : Nat)
    (w : PViews R) : Res (PViews R) := do
  let pgrad ← scalarGradAt P.d P.ndof P.poff cell global w.grad w.pgrad
  let press ← interpolate1 (P.d + 1) P.ndof P.poff cell P.mat.basis global w.press
  let proj ← interpolateN (P.d + 1) P.d 0 P.d cell P.mat.basis node w.proj
  let rho ← cellDensity (P.d + 1) cell control
  let pen := P.pen rho
  let dev ← devStress P.d cell (pen * P.mat.shear) w.elastic w.dev
  let div ← strainDivergence P.d cell w.total w.div
  let p ← rd press cell
  let press ← wr press cell (p * P.kappa)
  let dv ← rd div cell
  let p ← rd press cell
  let tv ← rd w.thermVol cell
  let vs ← wr w.volStrain cell (if P.mat.thermal then P.kappa * (dv - tv - p / (pen * P.bulk))
    else P.kappa * (dv - p / (pen * P.bulk)))
  let stab ← stabilization pow23 P.kappa P.mat.shear P.d cell w.vol pgrad proj w.stab
  let stab ← applyPenalty P.d cell pen stab
  let flux ← (if P.mat.thermal then
    forRange 0 P.d w.flux fun k q => do
      let t ← vrd2 w.tgrad cell k
      vwr2 q cell k (-1 * (pen * P.cond) * P.mat.tscale * t)
    else pure w.flux : Res (V2 R))
  pure { w with pgrad := pgrad, press := press, proj := proj, dev := dev, div := div, volStrain := vs,
                stab := stab, flux := flux }

omit [Div R] in
/-- Third part of the loop: the result, InfinitesimalStrainPlasticityResidual.hpp:501-505 and
InfinitesimalStrainThermoPlasticityResidual.hpp:552-557.  `table` is the index table of `StressDivergence`. -/
def Plast.add (P : Plast R) (table : V2 Nat) (cell : Nat) (w : PViews R) (out : V2 R) : Res (V2 R) := do
  let out ← stressDivergence P.d P.ndof 0 table cell out w.dev w.grad w.vol 1
  let out ← (if P.mat.thermal then fluxDivergence P.d P.ndof P.d cell out w.flux w.grad w.vol (-1) else pure out :
    Res (V2 R))
  let out ← pressureDivergence P.d P.ndof 0 cell out w.press w.grad w.vol 1
  let out ← fluxDivergence P.d P.ndof P.poff cell out w.stab w.grad w.vol (-1)
  project1 (P.d + 1) P.ndof P.poff cell w.vol P.mat.basis w.volStrain out 1

/-- Last part of the loop: quantities for the output, InfinitesimalStrainPlasticityResidual.hpp:507-512 and
InfinitesimalStrainThermoPlasticityResidual.hpp:559-564. -/
def Plast.plots (P : Plast R) (locl control : V2 R) (cell : Nat) (w : PViews R) : Res (PViews R) := do
  let rho ← cellDensity (P.d + 1) cell control
  let pen := P.pen rho
  let cauchy ← cauchyStress P.d cell (pen * P.bulk) (pen * P.mat.shear) w.elastic w.cauchy
  let a ← vrd2 locl cell 1
  let mult ← wr w.mult cell a
  let a ← vrd2 locl cell 0
  let accum ← wr w.accum cell a
  let plastic ← copyTable (plasticStrainTable P.d) cell locl w.plastic
  let back ← copyTable (backstressTable P.d) cell locl w.back
  pure { w with cauchy := cauchy, mult := mult, accum := accum, plastic := plastic, back := back }

/-- Body of the loop. -/
def Plast.cellBody (P : Plast R) (fabs pow23 : R → R) (table : V2 Nat) (global locl node control : V2 R)
    (config : V3 R) (cell : Nat) (s : PViews R × V2 R) : Res (PViews R × V2 R) := do
  let w ← P.kin fabs global locl config cell s.1
  let w ← P.kinet pow23 global node control cell w
  let out ← P.add table cell w s.2
  let w ← P.plots locl control cell w
  pure (w, out)

/-- `evaluate`, InfinitesimalStrainPlasticityResidual.hpp:397-526 and
InfinitesimalStrainThermoPlasticityResidual.hpp:420-579, with `addBodyForces`
(InfinitesimalStrainPlasticityResidual.hpp:286-303).  The views are returned as well: `outputData` copies them.
`sched 0` is the order of the loop over the cells, the others are those of the body loads. -/
def Plast.evaluate (P : Plast R) (fabs pow23 : R → R) (init : Nat → Nat → Nat) (sched : Nat → List Nat)
    (cells : List Nat) (global locl node control : V2 R) (config : V3 R) (result : V2 R) :
    Res (V2 R × PViews R) := do
  let table ← voigtTable P.d init
  let (w, out) ← parFor (sched 0) (PViews.new P.d cells.length, result)
    (P.cellBody fabs pow23 table global locl node control config)
  let (out, _) ← P.bodyLoads.foldlM (fun (s : V2 R × Nat) L => do
    let y ← L.get P.d P.ndof cells (sched s.2) control s.1 (-1 * P.load)
    pure (y, s.2 + 1)) (out, 1)
  pure (out, w)

/-! ## Projection of the pressure gradient -/

omit [Div R] in
/-- `PressureGradient::operator()`, PressureGradient.hpp:47-62. -/
def pressureGradient (kappa : R) (d cell : Nat) (out press : V2 R) (g : V3 R) : Res (V2 R) :=
  forRange 0 d out fun k out => do
    let out ← vwr2 out cell k 0
    forRange 0 (d + 1) out fun n out => do
      let p ← vrd2 press cell n
      let b ← vrd3 g cell n k
      accum2 out cell k (kappa * p * b)

/-- Members of `PressureGradientProjectionResidual`, PressureGradientProjectionResidual.hpp:46-50. -/
structure Proj (R : Type) where
  d : Nat
  basis : List R
  cubWeight : R
  kappa : R
  pen : R → R

/-- Views, PressureGradientProjectionResidual.hpp:115-118. -/
structure QViews (R : Type) where
  vol : List R
  grad : V3 R
  pgrad : V2 R
  proj : V2 R

omit [Div R] in
def QViews.new (d nc : Nat) : QViews R where
  vol := List.replicate nc 0
  grad := ⟨nc, d + 1, d, fun _ _ _ => 0⟩
  pgrad := ⟨nc, d, fun _ _ => 0⟩
  proj := ⟨nc, d, fun _ _ => 0⟩

/-- Body of the loop, PressureGradientProjectionResidual.hpp:125-150. -/
def Proj.cellBody (P : Proj R) (fabs : R → R) (nodal press control : V2 R) (config : V3 R) (cell : Nat)
    (s : QViews R × V2 R) : Res (QViews R × V2 R) := do
  let w := s.1
  let (g, v) ← computeGradient fabs P.d cell w.grad config w.vol
  let a ← rd v cell
  let v ← wr v cell (a * P.cubWeight)
  let pgrad ← pressureGradient P.kappa P.d cell w.pgrad press g
  let proj ← interpolateN (P.d + 1) P.d 0 P.d cell P.basis nodal w.proj
  let pgrad ← applyWeighting (P.d + 1) P.d P.pen cell pgrad control
  let proj ← applyWeighting (P.d + 1) P.d P.pen cell proj control
  let out ← projectN (P.d + 1) P.d 0 cell v P.basis proj s.2 1
  let out ← projectN (P.d + 1) P.d 0 cell v P.basis pgrad out (-1)
  pure (⟨v, g, pgrad, proj⟩, out)

/-- `PressureGradientProjectionResidual::evaluate`, PressureGradientProjectionResidual.hpp:99-151. -/
def Proj.evaluate (P : Proj R) (fabs : R → R) (order : List Nat) (nc : Nat) (nodal press control : V2 R)
    (config : V3 R) (result : V2 R) : Res (V2 R) := do
  let (_, out) ← parFor order (QViews.new P.d nc, result) (P.cellBody fabs nodal press control config)
  pure out

end Plato.Plast
