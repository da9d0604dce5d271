import Verif.Thermal.Model

/-!
# Model of structural dynamics

Modelled sources in `/repo/src`: `hyperbolic/ElastomechanicsResidual.hpp` (class
`TransientMechanicsResidual`), `hyperbolic/InertialContent.hpp`, the damped operator of
`LinearStress.hpp`, `hyperbolic/HyperbolicVectorFunction.hpp`, and from `ToMap.hpp` the function that
stores a view of a domain as output.

As in `Verif.Mech.Model` there is one scalar type.  Natural boundary conditions are in `Verif.Bnd`.
-/

namespace Plato.Dyn
open Plato Plato.Mech Plato.Thermal

variable {R : Type} [CommRing R]

/-! ## Functors -/

/-- `LinearStress::operator()` with velocity gradient, LinearStress.hpp:85-103; `b` is `mRayleighB`. -/
def dampedStress (d : Nat) (C : Nat → Nat → R) (e0 : Nat → R) (b : R) (cell : Nat)
    (stress strain velgrad : V2 R) : Res (V2 R) :=
  forRange 0 (numVoigt d) stress fun t stress => do
    let stress ← vwr2 stress cell t 0
    forRange 0 (numVoigt d) stress fun s stress => do
      let e ← vrd2 strain cell s
      let g ← vrd2 velgrad cell s
      accum2 stress cell t ((e - e0 s) * C t s + g * C t s * b)

/-- `InertialContent::operator()` without velocity, InertialContent.hpp:28-42. -/
def inertia (d : Nat) (rho : R) (cell : Nat) (content acc : V2 R) : Res (V2 R) :=
  forRange 0 d content fun i content => do
    let a ← vrd2 acc cell i
    vwr2 content cell i (a * rho)

/-- `InertialContent::operator()` with velocity, InertialContent.hpp:44-60; `al` is `mRayleighA`. -/
def dampedInertia (d : Nat) (rho al : R) (cell : Nat) (content vel acc : V2 R) : Res (V2 R) :=
  forRange 0 d content fun i content => do
    let a ← vrd2 acc cell i
    let v ← vrd2 vel cell i
    vwr2 content cell i (a * rho + v * rho * al)

/-! ## The residual -/

/-- Members of `TransientMechanicsResidual`: those it shares with `ElastostaticResidual` (there is no cell
problem: `el.forcing` is not used), values of the basis at the integration point, mass density and
Rayleigh coefficients of the material, and `mRayleighDamping`. -/
structure Dyn (R : Type) where
  el : Elastostatic R
  basis : List R
  density : R
  rayA : R
  rayB : R
  damped : Bool
  plottable : List String

/-- `mRayleighDamping` as computed by the constructor, ElastomechanicsResidual.hpp:96-97. -/
noncomputable def rayleighDamping (a b : ℝ) : Bool :=
  open Classical in decide (a ≠ 0) || decide (b ≠ 0)

/-- Views allocated by `evaluateWithDamping`; `evaluateWithoutDamping` allocates all of them but `velgrad`
and `vel`. -/
structure DViews (R : Type) where
  grad : V3 R
  vol : List R
  strain : V2 R
  velgrad : V2 R
  stress : V2 R
  acc : V2 R
  vel : V2 R
  content : V2 R

/-- Freshly allocated views, ElastomechanicsResidual.hpp:173-190 and 267-290. -/
def DViews.new (d nc : Nat) : DViews R :=
  ⟨⟨nc, d + 1, d, fun _ _ _ => 0⟩, List.replicate nc 0, ⟨nc, numVoigt d, fun _ _ => 0⟩,
    ⟨nc, numVoigt d, fun _ _ => 0⟩, ⟨nc, numVoigt d, fun _ _ => 0⟩, ⟨nc, d, fun _ _ => 0⟩,
    ⟨nc, d, fun _ _ => 0⟩, ⟨nc, d, fun _ _ => 0⟩⟩

variable [Div R] (fabs : R → R)

/-- Body of the parallel loop of `evaluateWithoutDamping`, ElastomechanicsResidual.hpp:198-227. -/
def Dyn.plainCell (P : Dyn R) (table : V2 Nat) (state acc control : V2 R) (config : V3 R) (c : Nat)
    (s : DViews R × V2 R) : Res (DViews R × V2 R) := do
  let w := s.1
  let d := P.el.d
  let (g, v) ← computeGradient fabs d c w.grad config w.vol
  let x ← rd v c
  let v ← wr v c (x * P.el.cubWeight)
  let e ← strain d d c w.strain state g
  let σ ← linearStress d P.el.stiff P.el.refStrain c w.stress e
  let σ ← applyWeighting (d + 1) (numVoigt d) P.el.pen c σ control
  let out ← stressDivergence d d 0 table c s.2 σ g v 1
  let a ← interpolateN (d + 1) d 0 d c P.basis acc w.acc
  let m ← inertia d P.density c w.content a
  let m ← applyWeighting (d + 1) d P.el.pen c m control
  let out ← projectN (d + 1) d 0 c v P.basis m out 1
  pure (⟨g, v, e, w.velgrad, σ, a, w.vel, m⟩, out)

/-- Body of the parallel loop of `evaluateWithDamping`, ElastomechanicsResidual.hpp:298-333. -/
def Dyn.dampedCell (P : Dyn R) (table : V2 Nat) (state vel acc control : V2 R) (config : V3 R) (c : Nat)
    (s : DViews R × V2 R) : Res (DViews R × V2 R) := do
  let w := s.1
  let d := P.el.d
  let (g, v) ← computeGradient fabs d c w.grad config w.vol
  let x ← rd v c
  let v ← wr v c (x * P.el.cubWeight)
  let e ← strain d d c w.strain state g
  let r ← strain d d c w.velgrad vel g
  let σ ← dampedStress d P.el.stiff P.el.refStrain P.rayB c w.stress e r
  let σ ← applyWeighting (d + 1) (numVoigt d) P.el.pen c σ control
  let out ← stressDivergence d d 0 table c s.2 σ g v 1
  let a ← interpolateN (d + 1) d 0 d c P.basis acc w.acc
  let u ← interpolateN (d + 1) d 0 d c P.basis vel w.vel
  let m ← dampedInertia d P.density P.rayA c w.content u a
  let m ← applyWeighting (d + 1) d P.el.pen c m control
  let out ← projectN (d + 1) d 0 c v P.basis m out 1
  pure (⟨g, v, e, r, σ, a, u, m⟩, out)

/-- The parallel loop of the two functions; the branch of `evaluate`, ElastomechanicsResidual.hpp:136-143.
`init` is the uninitialised index table of `StressDivergence`. -/
def Dyn.loop (P : Dyn R) (init : Nat → Nat → Nat) (order : List Nat) (nc : Nat)
    (state vel acc control : V2 R) (config : V3 R) (result : V2 R) : Res (DViews R × V2 R) := do
  let table ← voigtTable P.el.d init
  parFor order (DViews.new P.el.d nc, result) fun c s =>
    if P.damped then P.dampedCell fabs table state vel acc control config c s
    else P.plainCell fabs table state acc control config c s

/-- What the residual stores as output, ElastomechanicsResidual.hpp:229-230 and 335-337: names and views.
All three names store the stress. -/
def Dyn.plots (P : Dyn R) (w : DViews R) : List (String × V2 R) :=
  (if "stress" ∈ P.plottable then [("stress", w.stress)] else []) ++
  (if "strain" ∈ P.plottable then [("strain", w.stress)] else []) ++
  (if P.damped ∧ "velgrad" ∈ P.plottable then [("velgrad", w.stress)] else [])

/-- `TransientMechanicsResidual::evaluate`, ElastomechanicsResidual.hpp:122-343: the result and what is
stored as output. -/
def Dyn.evaluate (P : Dyn R) (init : Nat → Nat → Nat) (sched : Nat → List Nat) (cells : List Nat)
    (state vel acc control : V2 R) (config : V3 R) (result : V2 R) : Res (V2 R × List (String × V2 R)) := do
  let (w, result) ← P.loop fabs init (sched 0) cells.length state vel acc control config result
  let (result, _) ← P.el.bodyLoads.foldlM (fun (s : V2 R × Nat) L => do
      let y ← L.get P.el.d P.el.d cells (sched s.2) control s.1 (-1)
      pure (y, s.2 + 1)) (result, 1)
  pure (result, P.plots w)

/-- `toMap` for a view over the cells of a domain, ToMap.hpp:133-169: the rows go to the global cells; an
entry that exists must have the extents of the mesh. -/
def toMap (nelems : Nat) (cells order : List Nat) (input : V2 ℝ) (entry : Option (V2 ℝ)) : Res (V2 ℝ) := do
  let data := entry.getD ⟨nelems, input.d1, fun _ _ => 0⟩
  if data.d0 ≠ nelems then
    throwErr "DataMap error: attempted to insert domain data into an incompatible view"
  else if data.d1 ≠ input.d1 then
    throwErr "DataMap error: attempted to insert domain data into an incompatible view"
  else parFor order data fun c data => do
    let g ← rd cells c
    forRange 0 input.d1 data fun i data => do
      let x ← vrd2 input c i
      vwr2 data g i x

/-! ## The hyperbolic vector function -/

/-- An evaluator of the hyperbolic vector function: state, velocity, acceleration, control,
configuration, result. -/
abbrev HypEvaluator (R : Type) := Nat → V2 R → V2 R → V2 R → V2 R → V3 R → V2 R → Res (V2 R)

/-- The residual of structural dynamics as evaluator; `evaluate_boundary`
(ElastomechanicsResidual.hpp:345-363) without natural boundary conditions. -/
def dynamics (M : FeModel) (P : Nat → Dyn R) (init : Nat → Nat → Nat → Nat) (sch : Nat → Nat → List Nat) :
    HypEvaluator R := fun k s v a z x r =>
  match M.part k with
  | some cells => do
    let (r, _) ← (P k).evaluate fabs (init k) (sch k) cells s v a z x r
    pure r
  | none => .ok r

section Hyp
variable {K : Type}

omit [Div R] in
/-- The common part of the six functions, HyperbolicVectorFunction.hpp:196-238 and its copies: worksets of
state, velocity, acceleration, control and configuration, evaluation.  In the gradients the order in which
the worksets are filled differs; they are filled independently of each other.  `sch k 4` and `sch k 5` are
the schedules of the worksets of velocity and acceleration. -/
def hypResults (M : FeModel) (mkS mkV mkA mkZ mkX : Nat → K → R) (ev : HypEvaluator R)
    (dom : Option (List Nat)) (k : Nat) (sch : Nat → Nat → List Nat) (u v a z x : List K) : Res (V2 R) := do
  let s ← workset mkS M.npc M.ndof M.c2n dom u (sch k 0) ⟨M.size dom, M.npc * M.ndof, fun _ _ => 0⟩
  let t ← workset mkV M.npc M.ndof M.c2n dom v (sch k 4) ⟨M.size dom, M.npc * M.ndof, fun _ _ => 0⟩
  let b ← workset mkA M.npc M.ndof M.c2n dom a (sch k 5) ⟨M.size dom, M.npc * M.ndof, fun _ _ => 0⟩
  let c ← workset mkZ M.npc 1 M.c2n dom z (sch k 1) ⟨M.size dom, M.npc, fun _ _ => 0⟩
  let g ← worksetConfig mkX M.npc M.dim M.c2n dom x (sch k 2) ⟨M.size dom, M.npc, M.dim, fun _ _ _ => 0⟩
  ev k s t b c g ⟨M.size dom, M.npc * M.ndof, fun _ _ => 0⟩

/-- `VectorFunction::value`, HyperbolicVectorFunction.hpp:177-281 -/
def hypValue (M : FeModel) (ev : HypEvaluator ℝ) (sch : Nat → Nat → List Nat) (u v a z x : List ℝ) :
    Res (List ℝ) :=
  M.overDomains (fun dom k y => do
    let r ← hypResults M plainOf plainOf plainOf plainOf plainOf ev dom k sch u v a z x
    assembleResidual M.npc M.ndof M.c2n dom (M.size dom) (V2.view2 r) (sch k 3) y)
    (List.replicate (M.ndof * M.nn) 0)

/-- `VectorFunction::gradient_u`, HyperbolicVectorFunction.hpp:402-515 -/
noncomputable def hypGradientU (M : FeModel) (ev : HypEvaluator Fad) (o : List Nat)
    (sch : Nat → Nat → List Nat) (u v a z x : List ℝ) : Res (Crs ℝ) := do
  let A ← createBlockMatrix M.ndof M.ndof o M.orm M.oab
  M.overDomains (fun dom k A => do
    let r ← hypResults M seedOf constOf constOf constOf constOf ev dom k sch u v a z x
    assembleJacobian (blockEntryOrdinal M.npc M.ndof M.ndof A M.c2n) dom (M.size dom)
      (M.npc * M.ndof) (M.npc * M.ndof) (V2.fadView r (M.npc * M.ndof)) (sch k 3) A) A

/-- `VectorFunction::gradient_v`, HyperbolicVectorFunction.hpp:519-632 -/
noncomputable def hypGradientV (M : FeModel) (ev : HypEvaluator Fad) (o : List Nat)
    (sch : Nat → Nat → List Nat) (u v a z x : List ℝ) : Res (Crs ℝ) := do
  let A ← createBlockMatrix M.ndof M.ndof o M.orm M.oab
  M.overDomains (fun dom k A => do
    let r ← hypResults M constOf seedOf constOf constOf constOf ev dom k sch u v a z x
    assembleJacobian (blockEntryOrdinal M.npc M.ndof M.ndof A M.c2n) dom (M.size dom)
      (M.npc * M.ndof) (M.npc * M.ndof) (V2.fadView r (M.npc * M.ndof)) (sch k 3) A) A

/-- `VectorFunction::gradient_a`, HyperbolicVectorFunction.hpp:636-749 -/
noncomputable def hypGradientA (M : FeModel) (ev : HypEvaluator Fad) (o : List Nat)
    (sch : Nat → Nat → List Nat) (u v a z x : List ℝ) : Res (Crs ℝ) := do
  let A ← createBlockMatrix M.ndof M.ndof o M.orm M.oab
  M.overDomains (fun dom k A => do
    let r ← hypResults M constOf constOf seedOf constOf constOf ev dom k sch u v a z x
    assembleJacobian (blockEntryOrdinal M.npc M.ndof M.ndof A M.c2n) dom (M.size dom)
      (M.npc * M.ndof) (M.npc * M.ndof) (V2.fadView r (M.npc * M.ndof)) (sch k 3) A) A

/-- `VectorFunction::gradient_z`, HyperbolicVectorFunction.hpp:753-866 -/
noncomputable def hypGradientZ (M : FeModel) (ev : HypEvaluator Fad) (o : List Nat)
    (sch : Nat → Nat → List Nat) (u v a z x : List ℝ) : Res (Crs ℝ) := do
  let A ← createBlockMatrix 1 M.ndof o M.orm M.oab
  M.overDomains (fun dom k A => do
    let r ← hypResults M constOf constOf constOf seedOf constOf ev dom k sch u v a z x
    assembleTransposeJacobian (blockEntryOrdinal M.npc 1 M.ndof A M.c2n) dom (M.size dom)
      (M.npc * M.ndof) (M.npc * 1) (V2.fadView r (M.npc * 1)) (sch k 3) A) A

/-- `VectorFunction::gradient_x`, HyperbolicVectorFunction.hpp:285-398 -/
noncomputable def hypGradientX (M : FeModel) (ev : HypEvaluator Fad) (o : List Nat)
    (sch : Nat → Nat → List Nat) (u v a z x : List ℝ) : Res (Crs ℝ) := do
  let A ← createBlockMatrix M.dim M.ndof o M.orm M.oab
  M.overDomains (fun dom k A => do
    let r ← hypResults M constOf constOf constOf constOf seedOf ev dom k sch u v a z x
    assembleTransposeJacobian (blockEntryOrdinal M.npc M.dim M.ndof A M.c2n) dom (M.size dom)
      (M.npc * M.ndof) (M.npc * M.dim) (V2.fadView r (M.npc * M.dim)) (sch k 3) A) A

end Hyp

end Plato.Dyn
