import Verif.Tm.Model
import Verif.Crit.PhysicsModel
import Verif.Material.Model

/-!
# Model of electromechanics

Modelled sources in `/repo/src`: `EMKinematics.hpp` (class `EMKinematics`), `EMKinetics.hpp` (class
`EMKinetics`), `LinearElectroelasticMaterial.hpp` and `.cpp`, `elliptic/ElectroelastostaticResidual.hpp` and
`elliptic/InternalElectroelasticEnergy.hpp`.

As in `Verif.Mech.Model` there is one scalar type.  Natural boundary conditions are in `Verif.Bnd`.  A node
carries `d` displacements followed by the electric potential.  The matrices of the material have fixed extents
and the loops stay inside, so they are functions here.
-/

namespace Plato.Em
open Plato Plato.Mech Plato.Thermal Plato.Dyn

variable {R : Type} [CommRing R]

/-! ## Functors -/

/-- Members of `EMKinetics`, EMKinetics.hpp:52-57: stiffness, piezoelectric coupling (rows are directions,
columns Voigt terms), permittivity, scaling; `mAlpha2` is its square. -/
structure EmLaw (R : Type) where
  stiff : Nat → Nat → R
  piezo : Nat → Nat → R
  perm : Nat → Nat → R
  alpha : R

/-- `EMKinematics::operator()`, EMKinematics.hpp:28-67.  The loops for the strain are those of
`Strain::operator()`. -/
def emKinematics (d ndof cell : Nat) (strn efield state : V2 R) (g : V3 R) : Res (V2 R × V2 R) := do
  let strn ← strain d ndof cell strn state g
  let efield ← forRange 0 d efield fun k efield => do
    let efield ← vwr2 efield cell k 0
    forRange 0 (d + 1) efield fun n efield => do
      let s ← vrd2 state cell (n * ndof + d)
      let b ← vrd3 g cell n k
      accum2 efield cell k (-(s * b))
  pure (strn, efield)

/-- `EMKinetics::operator()`, EMKinetics.hpp:69-99. -/
def emKinetics (d : Nat) (L : EmLaw R) (cell : Nat) (stress edisp strn efield : V2 R) : Res (V2 R × V2 R) := do
  let stress ← forRange 0 (numVoigt d) stress fun i stress => do
    let stress ← vwr2 stress cell i 0
    let stress ← forRange 0 (numVoigt d) stress fun j stress => do
      let e ← vrd2 strn cell j
      accum2 stress cell i (e * L.stiff i j)
    forRange 0 d stress fun j stress => do
      let f ← vrd2 efield cell j
      accum2 stress cell i (-(L.alpha * f * L.piezo j i))
  let edisp ← forRange 0 d edisp fun i edisp => do
    let edisp ← vwr2 edisp cell i 0
    let edisp ← forRange 0 d edisp fun j edisp => do
      let f ← vrd2 efield cell j
      accum2 edisp cell i (L.alpha * L.alpha * f * L.perm i j)
    forRange 0 (numVoigt d) edisp fun j edisp => do
      let e ← vrd2 strn cell j
      accum2 edisp cell i (L.alpha * e * L.piezo i j)
  pure (stress, edisp)

/-! ## Residual -/

/-- Members of `ElectroelastostaticResidual`, ElectroelastostaticResidual.hpp:60-73: cubature weight, material,
penalty function, body loads, names of the output. -/
structure Em (R : Type) where
  d : Nat
  cubWeight : R
  law : EmLaw R
  pen : R → R
  bodyLoads : List (BodyLoad R)
  plottable : List String

/-- Views allocated by `evaluate`. -/
structure EViews (R : Type) where
  grad : V3 R
  vol : List R
  strain : V2 R
  efield : V2 R
  stress : V2 R
  edisp : V2 R

/-- Freshly allocated views, ElectroelastostaticResidual.hpp:150-158 and
InternalElectroelasticEnergy.hpp:123-131. -/
def EViews.new (d nc : Nat) : EViews R :=
  ⟨⟨nc, d + 1, d, fun _ _ _ => 0⟩, List.replicate nc 0, ⟨nc, numVoigt d, fun _ _ => 0⟩, ⟨nc, d, fun _ _ => 0⟩,
    ⟨nc, numVoigt d, fun _ _ => 0⟩, ⟨nc, d, fun _ _ => 0⟩⟩

variable [Div R] (fabs : R → R)

/-- Body of the first loop of the residual, ElectroelastostaticResidual.hpp:161-174, and first half of the loop
of the energy, InternalElectroelasticEnergy.hpp:139-148: gradients, volume, strain and electric field, stress and
electric displacement. -/
def Em.front (P : Em R) (state : V2 R) (config : V3 R) (c : Nat) (w : EViews R) : Res (EViews R) := do
  let (g, v) ← computeGradient fabs P.d c w.grad config w.vol
  let x ← rd v c
  let v ← wr v c (x * P.cubWeight)
  let (e, f) ← emKinematics P.d (P.d + 1) c w.strain w.efield state g
  let (σ, q) ← emKinetics P.d P.law c w.stress w.edisp e f
  pure ⟨g, v, e, f, σ, q⟩

/-- `ApplyWeighting` for stress and electric displacement, ElectroelastostaticResidual.hpp:182-183 and
InternalElectroelasticEnergy.hpp:152-153. -/
def Em.weight (P : Em R) (control : V2 R) (c : Nat) (w : EViews R) : Res (EViews R) := do
  let σ ← applyWeighting (P.d + 1) (numVoigt P.d) P.pen c w.stress control
  let q ← applyWeighting (P.d + 1) P.d P.pen c w.edisp control
  pure { w with stress := σ, edisp := q }

/-- Body of the second loop, ElectroelastostaticResidual.hpp:178-189: weighting and divergence. -/
def Em.back (P : Em R) (table : V2 Nat) (control : V2 R) (c : Nat) (s : EViews R × V2 R) :
    Res (EViews R × V2 R) := do
  let w ← P.weight control c s.1
  let out ← stressDivergence P.d (P.d + 1) 0 table c s.2 w.stress w.grad w.vol 1
  let out ← fluxDivergence P.d (P.d + 1) P.d c out w.edisp w.grad w.vol 1
  pure (w, out)

/-- What the residual stores as output, ElectroelastostaticResidual.hpp:196-199: name and view. -/
def Em.plots (P : Em R) (w : EViews R) : List (String × V2 R) :=
  (if "strain" ∈ P.plottable then [("strain", w.strain)] else []) ++
  (if "efield" ∈ P.plottable then [("efield", w.strain)] else []) ++
  (if "stress" ∈ P.plottable then [("stress", w.stress)] else []) ++
  (if "edisp" ∈ P.plottable then [("edisp", w.stress)] else [])

/-- `ElectroelastostaticResidual::evaluate`, ElectroelastostaticResidual.hpp:129-201: the result and what is
stored as output.  `init` is the uninitialised index table of `StressDivergence`. -/
def Em.static (P : Em R) (init : Nat → Nat → Nat) (sched : Nat → List Nat) (cells : List Nat)
    (state control : V2 R) (config : V3 R) (result : V2 R) : Res (V2 R × List (String × V2 R)) := do
  let table ← voigtTable P.d init
  let w ← parFor (sched 0) (EViews.new P.d cells.length) (P.front fabs state config)
  let (w, result) ← parFor (sched 1) (w, result) (P.back table control)
  let (result, _) ← P.bodyLoads.foldlM (fun (s : V2 R × Nat) L => do
      let y ← L.get P.d (P.d + 1) cells (sched s.2) control s.1 (-1)
      pure (y, s.2 + 1)) (result, 2)
  pure (result, P.plots w)

/-- The residual of every domain as evaluator of the elliptic vector function; without natural boundary
conditions `evaluate_boundary` leaves the result as it is (ElectroelastostaticResidual.hpp:203-223). -/
def electroelastic (M : FeModel) (P : Nat → Em R) (init : Nat → Nat → Nat → Nat) (sch : Nat → Nat → List Nat) :
    Evaluator R := fun k s z x r =>
  match M.part k with
  | some cells => do
    let (r, _) ← (P k).static fabs (init k) (sch k) cells s z x r
    pure r
  | none => .ok r

/-! ## Energy -/

/-- Body of the loop of `InternalElectroelasticEnergy::evaluate`, InternalElectroelasticEnergy.hpp:137-160. -/
def Em.energyCell (P : Em R) (state control : V2 R) (config : V3 R) (c : Nat) (s : EViews R × List R) :
    Res (EViews R × List R) := do
  let w ← P.front fabs state config c s.1
  let w ← P.weight control c w
  let r ← scalarProduct (numVoigt P.d) c s.2 w.stress w.strain w.vol 1
  let r ← scalarProduct P.d c r w.edisp w.efield w.vol (-1)
  pure (w, r)

/-- What the energy stores as output, InternalElectroelasticEnergy.hpp:162-164. -/
def Em.energyPlots (P : Em R) (w : EViews R) : List (String × V2 R) :=
  (if "strain" ∈ P.plottable then [("strain", w.strain)] else []) ++
  (if "stress" ∈ P.plottable then [("stress", w.stress)] else []) ++
  (if "edisp" ∈ P.plottable then [("edisp", w.stress)] else [])

/-- `InternalElectroelasticEnergy::evaluate`, InternalElectroelasticEnergy.hpp:102-166. -/
def Em.energy (P : Em R) (order : List Nat) (nc : Nat) (state control : V2 R) (config : V3 R)
    (result : List R) : Res (List R × List (String × V2 R)) := do
  let (w, r) ← parFor order (EViews.new P.d nc, result) (P.energyCell fabs state control config)
  pure (r, P.energyPlots w)

/-- The energy of each domain as evaluator of the scalar function. -/
def electroelasticEnergy (P : Nat → Em R) (sch : Nat → List Nat) : Crit.ScalarEvaluator R := fun k s z x r _ => do
  let (r, _) ← (P k).energy fabs (sch k) s.d0 s z x r
  pure r

/-! ## Material -/

/-- The assignments to the coupling, LinearElectroelasticMaterial.cpp:22, 48-50 and 81-85. -/
def piezoEntries (d : Nat) (e15 e31 e33 : ℝ) : List (Nat × Nat × ℝ) :=
  if d = 3 then [(2, 0, e31), (2, 1, e31), (2, 2, e33), (1, 3, e15), (0, 4, e15)]
  else if d = 2 then [(0, 2, e15), (1, 0, e31), (1, 1, e33)]
  else [(0, 0, e33)]

/-- The assignments to the permittivity, LinearElectroelasticMaterial.cpp:23, 52-53 and 87-89. -/
def permEntries (d : Nat) (p11 p33 : ℝ) : List (Nat × Nat × ℝ) :=
  if d = 3 then [(0, 0, p11), (1, 1, p11), (2, 2, p33)]
  else if d = 2 then [(0, 0, p11), (1, 1, p33)]
  else [(0, 0, p33)]

open Plato.Material in
/-- `mAlpha`, LinearElectroelasticMaterial.cpp:12-14, 32-34 and 62-64, default in
LinearElectroelasticMaterial.hpp:57.  In one and two dimensions the member becomes the outcome of
`isType<Scalar>("Alpha")`, a truth value converted to a number. -/
def alphaOf (d : Nat) (p : Params) : Res ℝ :=
  if p.isScalar "Alpha" then
    if d = 3 then p.get "Alpha" else pure (if p.isScalar "Alpha" then 1 else 0)
  else pure 1

open Plato.Material in
/-- Constructors of `IsotropicLinearElectroelasticMaterial`, LinearElectroelasticMaterial.cpp:6-90.  In one
dimension "e15", "e31" and "p11" are not read. -/
noncomputable def electroelasticMaterial (d : Nat) (p : Params) : Res (EmLaw ℝ) := do
  let a ← alphaOf d p
  let v ← p.get "Poissons Ratio"
  let E ← p.get "Youngs Modulus"
  let e15 ← if d = 1 then pure 0 else p.get "e15"
  let e31 ← if d = 1 then pure 0 else p.get "e31"
  let e33 ← p.get "e33"
  let p11 ← if d = 1 then pure 0 else p.get "p11"
  let p33 ← p.get "p33"
  let C ← assign (zeroStiff d) (isoEntries d (isoCoeff E v) v)
  let e ← assign ⟨d, voigt d, fun _ _ => 0⟩ (piezoEntries d e15 e31 e33)
  let k ← assign ⟨d, d, fun _ _ => 0⟩ (permEntries d p11 p33)
  pure ⟨C.e, e.e, k.e, a⟩

end Plato.Em
