import Verif.Simplex.Model
import Verif.Fem.AssemblyModel

/-!
# Model of the elastostatic element

Modelled sources in `/repo/src`: `Strain.hpp`, `StressDivergence.hpp`, `LinearStress.hpp`,
`ApplyWeighting.hpp`, `CellForcing.hpp`, `ScalarProduct.hpp`, `BodyLoads.hpp` (class `BodyLoad`),
`elliptic/ElastostaticResidual.hpp` and `elliptic/InternalElasticEnergy.hpp`.

The code is templated over the scalar types of state, control, configuration and result.  The model
has one scalar type `R`, a commutative ring with a division: numbers, or automatic differentiation
values.  In the code the arguments that are not differentiated are plain numbers; here they are
automatic differentiation values with zero derivatives.
-/

namespace Plato.Mech

variable {R : Type} [CommRing R]

/-- `SimplexMechanics::mNumVoigtTerms`, SimplexMechanics.hpp:21-23. -/
def numVoigt (d : Nat) : Nat := if d = 3 then 6 else if d = 2 then 3 else if d = 1 then 1 else 0

/-- `y(cell, t) += a`. -/
def accum2 (y : V2 R) (cell t : Nat) (a : R) : Res (V2 R) := do
  let v ← vrd2 y cell t
  vwr2 y cell t (v + a)

/-- A loop `for(j = hi - 1; j >= lo; j--)` with a signed index. -/
def forDown {σ : Type} (hi lo : Nat) (s : σ) (body : Nat → σ → Res σ) : Res σ :=
  forRange 0 (hi - lo) s fun a s => body (hi - 1 - a) s

/-- One normal term of `Strain::operator()`, Strain.hpp:73-80. -/
def strainNormal (d ndof cell k vt : Nat) (u : V2 R) (g : V3 R) (s : V2 R) : Res (V2 R) := do
  let s ← vwr2 s cell vt 0
  forRange 0 (d + 1) s fun n s => do
    let a ← vrd2 u cell (n * ndof + k)
    let b ← vrd3 g cell n k
    accum2 s cell vt (a * b)

/-- One shear term of `Strain::operator()`, Strain.hpp:86-92: it adds to the previous contents. -/
def strainShear (d ndof cell i j vt : Nat) (u : V2 R) (g : V3 R) (s : V2 R) : Res (V2 R) :=
  forRange 0 (d + 1) s fun n s => do
    let uj ← vrd2 u cell (n * ndof + j)
    let gi ← vrd3 g cell n i
    let ui ← vrd2 u cell (n * ndof + i)
    let gj ← vrd3 g cell n j
    accum2 s cell vt (uj * gi + ui * gj)

/-- `Strain::operator()` with the gradients of the basis functions, Strain.hpp:55-96. -/
def strain (d ndof cell : Nat) (s u : V2 R) (g : V3 R) : Res (V2 R) := do
  let (s, vt) ← forRange 0 d (s, 0) fun k (st : V2 R × Nat) => do
    let s ← strainNormal d ndof cell k st.2 u g st.1
    pure (s, st.2 + 1)
  let (s, _) ← forDown d 1 (s, vt) fun j st =>
    forDown j 0 st fun i (st : V2 R × Nat) => do
      let s ← strainShear d ndof cell i j st.2 u g st.1
      pure (s, st.2 + 1)
  pure s

/-- The index table built by the constructor of `StressDivergence`, StressDivergence.hpp:33-47; `init`
is the uninitialised array. -/
def voigtTable (d : Nat) (init : Nat → Nat → Nat) : Res (V2 Nat) := do
  let (t, vt) ← forRange 0 d ((⟨d, d, init⟩ : V2 Nat), 0) fun k (st : V2 Nat × Nat) => do
    let t ← vwr2 st.1 k k st.2
    pure (t, st.2 + 1)
  let (t, _) ← forDown d 1 (t, vt) fun j st =>
    forDown j 0 st fun i (st : V2 Nat × Nat) => do
      let t ← vwr2 st.1 i j st.2
      let t ← vwr2 t j i st.2
      pure (t, st.2 + 1)
  pure t

/-- `StressDivergence::operator()`, StressDivergence.hpp:71-88. -/
def stressDivergence (d ndof off : Nat) (table : V2 Nat) (cell : Nat) (out stress : V2 R) (g : V3 R)
    (vol : List R) (scale : R) : Res (V2 R) :=
  forRange 0 d out fun i out =>
    forRange 0 (d + 1) out fun n out =>
      forRange 0 d out fun j out => do
        let v ← rd vol cell
        let t ← vrd2 table i j
        let s ← vrd2 stress cell t
        let b ← vrd3 g cell n j
        accum2 out cell (n * ndof + i + off) (scale * v * s * b)

/-- `LinearStress::operator()` without velocity gradient, LinearStress.hpp:58-75; `C` and `e0` are the
members `mCellStiffness` and `mReferenceStrain`, arrays of fixed size indexed within bounds. -/
def linearStress (d : Nat) (C : Nat → Nat → R) (e0 : Nat → R) (cell : Nat) (stress strain : V2 R) :
    Res (V2 R) :=
  forRange 0 (numVoigt d) stress fun t stress => do
    let stress ← vwr2 stress cell t 0
    forRange 0 (numVoigt d) stress fun s stress => do
      let e ← vrd2 strain cell s
      accum2 stress cell t ((e - e0 s) * C t s)

/-- Sum of the control values of a cell, ApplyWeighting.hpp:52-56 (also `cell_density`,
Plato_TopOptFunctors.hpp:55-60). -/
def cellSum (npc cell : Nat) (control : V2 R) : Res R :=
  forRange 0 npc (0 : R) fun n s => do
    let z ← vrd2 control cell n
    pure (s + z)

variable [Div R]

/-- `cell_density`, Plato_TopOptFunctors.hpp:51-62, and the average in ApplyWeighting.hpp:52-57. -/
def cellDensity (npc cell : Nat) (control : V2 R) : Res R := do
  let s ← cellSum npc cell control
  pure (s / (npc : R))

/-- `ApplyWeighting::operator()` in place, ApplyWeighting.hpp:45-62. -/
def applyWeighting (npc terms : Nat) (pen : R → R) (cell : Nat) (inout control : V2 R) :
    Res (V2 R) := do
  let rho ← cellDensity npc cell control
  forRange 0 terms inout fun t y => do
    let v ← vrd2 y cell t
    vwr2 y cell t (v * pen rho)

omit [Div R] in
/-- Body of the loop in `CellForcing::add`, CellForcing.hpp:44-50. -/
def addForcing (C : Nat → Nat → R) (col cell : Nat) (tensor : V2 R) : Res (V2 R) :=
  forRange 0 tensor.d1 tensor fun t y => do
    let v ← vrd2 y cell t
    vwr2 y cell t (v - C t col)

/-- Data of a `BodyLoad` after evaluation of the integrand: number of integration points, their
weights, values of the basis functions (field, point), integrand values, absolute values of the
Jacobian determinants of the cells of the domain, and the index of the degree of freedom.  The weights
and basis values come from `Cubature::getCubature` and `Basis::getValues`; the integrand from the
expression library of Omega_h, not modelled. -/
structure BodyLoad (R : Type) where
  numPoints : Nat
  weights : List R
  basis : V2 R
  values : List R
  det : List R
  dof : Nat

/-- `BodyLoad::get`, the loop BodyLoads.hpp:182-203; `cells` are the cell ordinals of the domain, the
determinant is looked up by global cell ordinal. -/
def BodyLoad.get (L : BodyLoad R) (d ndof : Nat) (cells order : List Nat) (control result : V2 R)
    (scale : R) : Res (V2 R) :=
  parFor order result fun c y => do
    let gc ← rd cells c
    let det ← rd L.det gc
    let rho ← cellDensity (d + 1) c control
    forRange 0 L.numPoints y fun p y => do
      let f ← rd L.values (c * L.numPoints + p)
      let w ← rd L.weights p
      forRange 0 (d + 1) y fun a y => do
        let b ← vrd2 L.basis a p
        accum2 y c (a * ndof + L.dof) (scale * w * det * f * b * rho)

/-- Members of `ElastostaticResidual`. -/
structure Elastostatic (R : Type) where
  /-- `SpaceDim` -/
  d : Nat
  /-- material stiffness and reference strain -/
  stiff : Nat → Nat → R
  refStrain : Nat → R
  /-- penalty function applied to the cell density -/
  pen : R → R
  /-- weight of the one point rule -/
  cubWeight : R
  /-- column of the cell problem forcing -/
  forcing : Option Nat
  bodyLoads : List (BodyLoad R)

/-- Views allocated by `evaluate`. -/
structure Views (R : Type) where
  grad : V3 R
  vol : List R
  strain : V2 R
  stress : V2 R

variable (fabs : R → R)

/-- Freshly allocated views (Kokkos initialises them with zero), ElastostaticResidual.hpp:161-172. -/
def Views.new (d nc : Nat) : Views R :=
  ⟨⟨nc, d + 1, d, fun _ _ _ => 0⟩, List.replicate nc 0, ⟨nc, numVoigt d, fun _ _ => 0⟩,
    ⟨nc, numVoigt d, fun _ _ => 0⟩⟩

/-- Body of the first parallel loop, ElastostaticResidual.hpp:175-186. -/
def Elastostatic.stressCell (P : Elastostatic R) (state : V2 R) (config : V3 R) (c : Nat)
    (w : Views R) : Res (Views R) := do
  let (g, v) ← computeGradient fabs P.d c w.grad config w.vol
  let x ← rd v c
  let v ← wr v c (x * P.cubWeight)
  let e ← strain P.d P.d c w.strain state g
  let s ← linearStress P.d P.stiff P.refStrain c w.stress e
  pure ⟨g, v, e, s⟩

omit [Div R] in
/-- `mCellForcing->add(tCellStress)` when there is a forcing, ElastostaticResidual.hpp:188-191 and
CellForcing.hpp:36-53. -/
def Elastostatic.applyForcing (P : Elastostatic R) (order : List Nat) (stress : V2 R) : Res (V2 R) :=
  match P.forcing with
  | some col => parFor order stress (addForcing P.stiff col)
  | none => Res.ok stress

/-- Body of the second parallel loop, ElastostaticResidual.hpp:194-201. -/
def Elastostatic.divCell (P : Elastostatic R) (table : V2 Nat) (control : V2 R) (w : Views R) (c : Nat)
    (s : V2 R × V2 R) : Res (V2 R × V2 R) := do
  let stress ← applyWeighting (P.d + 1) (numVoigt P.d) P.pen c s.1 control
  let out ← stressDivergence P.d P.d 0 table c s.2 stress w.grad w.vol 1
  pure (stress, out)

/-- `ElastostaticResidual::evaluate`, ElastostaticResidual.hpp:144-211, without the output of plot
fields; `cells` are the cell ordinals of the domain, `sched` the order in which the iterations of each
parallel loop run, `init` the contents of the uninitialised index table. -/
def Elastostatic.evaluate (P : Elastostatic R) (init : Nat → Nat → Nat) (sched : Nat → List Nat)
    (cells : List Nat) (state control : V2 R) (config : V3 R) (result : V2 R) : Res (V2 R) := do
  let table ← voigtTable P.d init
  let w ← parFor (sched 0) (Views.new P.d cells.length) (P.stressCell fabs state config)
  let stress ← P.applyForcing (sched 1) w.stress
  let (_, result) ← parFor (sched 2) (stress, result) (P.divCell table control w)
  let (result, _) ← P.bodyLoads.foldlM (fun (s : V2 R × Nat) L => do
      let y ← L.get P.d P.d cells (sched s.2) control s.1 (-1)
      pure (y, s.2 + 1)) (result, 3)
  pure result

/-- `ScalarProduct::operator()`, ScalarProduct.hpp:29-44. -/
def scalarProduct (terms cell : Nat) (prod : List R) (t1 t2 : V2 R) (vol : List R) (scale : R) :
    Res (List R) := do
  let inc ← forRange 0 terms (0 : R) fun t inc => do
    let a ← vrd2 t1 cell t
    let b ← vrd2 t2 cell t
    pure (inc + a * b)
  let v ← rd vol cell
  let x ← rd prod cell
  wr prod cell (x + scale * inc * v)

/-- Body of the parallel loop of `InternalElasticEnergy::evaluate`, InternalElasticEnergy.hpp:136-158;
`half` is the literal 0.5. -/
def Elastostatic.energyCell (P : Elastostatic R) (half : R) (state control : V2 R) (config : V3 R)
    (c : Nat) (s : Views R × List R) : Res (Views R × List R) := do
  let w ← P.stressCell fabs state config c s.1
  let stress ← applyWeighting (P.d + 1) (numVoigt P.d) P.pen c w.stress control
  let r ← scalarProduct (numVoigt P.d) c s.2 stress w.strain w.vol half
  pure (⟨w.grad, w.vol, w.strain, stress⟩, r)

/-- `InternalElasticEnergy::evaluate`, InternalElasticEnergy.hpp:99-163. -/
def Elastostatic.energy (P : Elastostatic R) (half : R) (order : List Nat) (nc : Nat)
    (state control : V2 R) (config : V3 R) (result : List R) : Res (List R) := do
  let (_, r) ← parFor order (Views.new P.d nc, result) (P.energyCell fabs half state control config)
  pure r

end Plato.Mech
