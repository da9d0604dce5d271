import Verif.Mech.Model
import Verif.Mech.VectorWorkset
import Verif.Material.Model

/-!
# Model of heat conduction

Modelled sources in `/repo/src`: `InterpolateFromNodal.hpp`, `ProjectToNode.hpp`, `ScalarGrad.hpp`,
`ThermalFlux.hpp`, `ThermalContent.hpp`, `FluxDivergence.hpp`, the scalar form of `ApplyWeighting.hpp`,
`elliptic/ThermostaticResidual.hpp`, `parabolic/HeatEquationResidual.hpp`,
`parabolic/VectorFunction.hpp`, and from `MaterialModel.hpp`/`.cpp` the classes `ScalarFunctor`,
`TensorFunctor`, `TensorConstant` with `parseScalar` and `parseTensor`.

As in `Verif.Mech.Model` there is one scalar type.  Plot output is left out; natural boundary conditions
are in `Verif.Bnd`.
-/

namespace Plato.Thermal
open Plato Plato.Mech

variable {R : Type} [CommRing R]

/-! ## Functors -/

/-- `v(cell) += a`. -/
def accum1 (v : List R) (cell : Nat) (a : R) : Res (List R) := do
  let x ← rd v cell
  wr v cell (x + a)

/-- `InterpolateFromNodal::operator()` to a scalar, InterpolateFromNodal.hpp:54-68. -/
def interpolate1 (npc ndof off cell : Nat) (basis : List R) (state : V2 R) (out : List R) :
    Res (List R) := do
  let out ← wr out cell 0
  forRange 0 npc out fun n out => do
    let b ← rd basis n
    let s ← vrd2 state cell (ndof * n + off)
    accum1 out cell (b * s)

/-- `InterpolateFromNodal::operator()` to `ndofs` components, InterpolateFromNodal.hpp:86-103. -/
def interpolateN (npc ndof off ndofs cell : Nat) (basis : List R) (state out : V2 R) : Res (V2 R) :=
  forRange 0 ndofs out fun i out => do
    let out ← vwr2 out cell i 0
    forRange 0 npc out fun n out => do
      let b ← rd basis n
      let s ← vrd2 state cell (ndof * n + off + i)
      accum2 out cell i (b * s)

/-- `ProjectToNode::operator()` of several components, ProjectToNode.hpp:31-49. -/
def projectN (npc ndof off cell : Nat) (vol basis : List R) (state out : V2 R) (scale : R) :
    Res (V2 R) :=
  forRange 0 npc out fun n out =>
    forRange 0 state.d1 out fun i out => do
      let b ← rd basis n
      let s ← vrd2 state cell i
      let v ← rd vol cell
      accum2 out cell (ndof * n + i + off) (scale * b * s * v)

/-- `ProjectToNode::operator()` of a scalar, ProjectToNode.hpp:60-74. -/
def project1 (npc ndof off cell : Nat) (vol basis state : List R) (out : V2 R) (scale : R) :
    Res (V2 R) :=
  forRange 0 npc out fun n out => do
    let b ← rd basis n
    let s ← rd state cell
    let v ← rd vol cell
    accum2 out cell (ndof * n + off) (scale * b * s * v)

/-- `ScalarGrad::operator()`, ScalarGrad.hpp:58-77. -/
def scalarGrad (d cell : Nat) (out state : V2 R) (g : V3 R) : Res (V2 R) :=
  forRange 0 d out fun k out => do
    let out ← vwr2 out cell k 0
    forRange 0 (d + 1) out fun n out => do
      let s ← vrd2 state cell n
      let b ← vrd3 g cell n k
      accum2 out cell k (s * b)

/-- `FluxDivergence::operator()`, FluxDivergence.hpp:31-48. -/
def fluxDivergence (d ndof off cell : Nat) (out flux : V2 R) (g : V3 R) (vol : List R) (scale : R) :
    Res (V2 R) :=
  forRange 0 (d + 1) out fun n out =>
    forRange 0 d out fun k out => do
      let q ← vrd2 flux cell k
      let b ← vrd3 g cell n k
      let v ← rd vol cell
      accum2 out cell (n * ndof + off) (scale * q * b * v)

/-- Members of `ThermalFlux`, ThermalFlux.hpp:20-24: the type of the model, the constant and the tables
of the functor.  The arrays have fixed size and are indexed within bounds. -/
structure FluxLaw (R : Type) where
  /-- `MaterialModelType::Nonlinear` -/
  nonlinear : Bool
  /-- `mConductivityConstant` -/
  const : Nat → Nat → R
  /-- `mConductivityFunctor` -/
  c0 : Nat → Nat → R
  c1 : Nat → Nat → R
  c2 : Nat → Nat → R

/-- The conductivity used with a temperature, ThermalFlux.hpp:56 and 66 with `TensorFunctor::operator()`,
MaterialModel.hpp:134-140. -/
def FluxLaw.cond (F : FluxLaw R) (T : R) (i j : Nat) : R :=
  if F.nonlinear then T * F.c1 i j + F.c0 i j + T * T * F.c2 i j else F.const i j

/-- Loop shared by the operators of `ThermalFlux`, ThermalFlux.hpp:53-58, 63-68 and 80-85. -/
def fluxLoop (d : Nat) (k : Nat → Nat → R) (cell : Nat) (flux grad : V2 R) : Res (V2 R) :=
  forRange 0 d flux fun i flux => do
    let flux ← vwr2 flux cell i 0
    forRange 0 d flux fun j flux => do
      let g ← vrd2 grad cell j
      let old ← vrd2 flux cell i
      vwr2 flux cell i (old - g * k i j)

/-- `ThermalFlux::operator()` with temperature, ThermalFlux.hpp:42-70.  In the linear case the temperature
is not read. -/
def FluxLaw.flux (F : FluxLaw R) (d cell : Nat) (flux grad : V2 R) (temp : List R) : Res (V2 R) :=
  if F.nonlinear then do
    let T ← rd temp cell
    fluxLoop d (F.cond T) cell flux grad
  else fluxLoop d F.const cell flux grad

/-- `ThermalFlux::operator()` without temperature, ThermalFlux.hpp:72-86: whatever the type of the model,
it uses `mConductivityConstant`. -/
def FluxLaw.fluxNoTemp (F : FluxLaw R) (d cell : Nat) (flux grad : V2 R) : Res (V2 R) :=
  fluxLoop d F.const cell flux grad

/-- `ScalarFunctor`, MaterialModel.hpp:20-80: `c0 + c1 x + c2 x^2`. -/
structure Quad (R : Type) where
  c0 : R
  c1 : R
  c2 : R

/-- `ScalarFunctor::operator()`, MaterialModel.hpp:71-78. -/
def Quad.at (q : Quad R) (x : R) : R := x * q.c1 + q.c0 + x * x * q.c2

/-- Members of `ThermalContent`, ThermalContent.hpp:20-28. -/
structure MassLaw (R : Type) where
  nonlinear : Bool
  rhoFn : Quad R
  cpFn : Quad R
  rho : R
  cp : R

/-- `ThermalContent::operator()`, ThermalContent.hpp:46-68. -/
def MassLaw.content (m : MassLaw R) (cell : Nat) (out rate temp : List R) : Res (List R) := do
  let T ← rd temp cell
  let r ← rd rate cell
  wr out cell (if m.nonlinear then r * m.rhoFn.at T * m.cpFn.at T else r * m.rho * m.cp)

variable [Div R]

/-- `ApplyWeighting::operator()` of a scalar, ApplyWeighting.hpp:101-116. -/
def applyWeighting1 (npc : Nat) (pen : R → R) (cell : Nat) (inout : List R) (control : V2 R) :
    Res (List R) := do
  let rho ← cellDensity npc cell control
  let v ← rd inout cell
  wr inout cell (v * pen rho)

/-! ## Residuals -/

/-- Members of `ThermostaticResidual` and `HeatEquationResidual`: cubature weight and values of the basis
at the point, material laws, penalty function, body loads. -/
structure Thermal (R : Type) where
  d : Nat
  cubWeight : R
  basis : List R
  law : FluxLaw R
  mass : MassLaw R
  pen : R → R
  bodyLoads : List (BodyLoad R)

/-- Views allocated by the two functions `evaluate`. -/
structure TViews (R : Type) where
  grad : V3 R
  vol : List R
  tgrad : V2 R
  flux : V2 R
  temp : List R
  rate : List R
  energy : List R

/-- Freshly allocated views, ThermostaticResidual.hpp:127-140 and HeatEquationResidual.hpp:121-129. -/
def TViews.new (d nc : Nat) : TViews R :=
  ⟨⟨nc, d + 1, d, fun _ _ _ => 0⟩, List.replicate nc 0, ⟨nc, d, fun _ _ => 0⟩, ⟨nc, d, fun _ _ => 0⟩,
    List.replicate nc 0, List.replicate nc 0, List.replicate nc 0⟩

variable (fabs : R → R)

/-- Body of the parallel loop, ThermostaticResidual.hpp:157-180. -/
def Thermal.staticCell (P : Thermal R) (state control : V2 R) (config : V3 R) (c : Nat)
    (s : TViews R × V2 R) : Res (TViews R × V2 R) := do
  let w := s.1
  let (g, v) ← computeGradient fabs P.d c w.grad config w.vol
  let x ← rd v c
  let v ← wr v c (x * P.cubWeight)
  let tg ← scalarGrad P.d c w.tgrad state g
  let T ← interpolate1 (P.d + 1) 1 0 c P.basis state w.temp
  let q ← P.law.flux P.d c w.flux tg T
  let q ← applyWeighting (P.d + 1) P.d P.pen c q control
  let out ← fluxDivergence P.d 1 0 c s.2 q g v (-1)
  pure (⟨g, v, tg, q, T, w.rate, w.energy⟩, out)

/-- `ThermostaticResidual::evaluate`, ThermostaticResidual.hpp:112-189. -/
def Thermal.static (P : Thermal R) (sched : Nat → List Nat) (cells : List Nat) (state control : V2 R)
    (config : V3 R) (result : V2 R) : Res (V2 R) := do
  let (_, result) ← parFor (sched 0) (TViews.new P.d cells.length, result)
    (P.staticCell fabs state control config)
  let (result, _) ← P.bodyLoads.foldlM (fun (s : V2 R × Nat) L => do
      let y ← L.get P.d 1 cells (sched s.2) control s.1 (-1)
      pure (y, s.2 + 1)) (result, 1)
  pure result

/-- Body of the parallel loop, HeatEquationResidual.hpp:148-189. -/
def Thermal.heatCell (P : Thermal R) (state rate control : V2 R) (config : V3 R) (c : Nat)
    (s : TViews R × V2 R) : Res (TViews R × V2 R) := do
  let w := s.1
  let (g, v) ← computeGradient fabs P.d c w.grad config w.vol
  let x ← rd v c
  let v ← wr v c (x * P.cubWeight)
  let tg ← scalarGrad P.d c w.tgrad state g
  let q ← P.law.fluxNoTemp P.d c w.flux tg
  let q ← applyWeighting (P.d + 1) P.d P.pen c q control
  let out ← fluxDivergence P.d 1 0 c s.2 q g v (-1)
  let r ← interpolate1 (P.d + 1) 1 0 c P.basis rate w.rate
  let T ← interpolate1 (P.d + 1) 1 0 c P.basis state w.temp
  let e ← P.mass.content c w.energy r T
  let e ← applyWeighting1 (P.d + 1) P.pen c e control
  let out ← project1 (P.d + 1) 1 0 c v P.basis e out 1
  pure (⟨g, v, tg, q, T, r, e⟩, out)

/-- `HeatEquationResidual::evaluate`, HeatEquationResidual.hpp:104-191. -/
def Thermal.heat (P : Thermal R) (order : List Nat) (nc : Nat) (state rate control : V2 R)
    (config : V3 R) (result : V2 R) : Res (V2 R) := do
  let (_, result) ← parFor order (TViews.new P.d nc, result) (P.heatCell fabs state rate control config)
  pure result

/-- The thermostatic residual of every domain as evaluator of the elliptic vector function; without
natural boundary conditions `evaluate_boundary` leaves the result as it is
(ThermostaticResidual.hpp:192-207). -/
def thermostatic (M : FeModel) (P : Nat → Thermal R) (sch : Nat → Nat → List Nat) : Evaluator R :=
  fun k s z x r =>
    match M.part k with
    | some cells => (P k).static fabs (sch k) cells s z x r
    | none => .ok r

/-- An evaluator of the parabolic vector function: state, rate, control, configuration, result. -/
abbrev ParEvaluator (R : Type) := Nat → V2 R → V2 R → V2 R → V3 R → V2 R → Res (V2 R)

/-- The residual of the heat equation as evaluator; `evaluate_boundary`
(HeatEquationResidual.hpp:193-209) without natural boundary conditions. -/
def heatEquation (M : FeModel) (P : Nat → Thermal R) (sch : Nat → List Nat) : ParEvaluator R :=
  fun k s v z x r =>
    match M.part k with
    | some cells => (P k).heat fabs (sch k) cells.length s v z x r
    | none => .ok r

/-! ## The parabolic vector function -/

section Par
variable {K : Type}

/-- The common part of the five functions, /repo/src/parabolic/VectorFunction.hpp:172-201 and its copies:
worksets of state, rate, control and configuration, evaluation.  In the gradients the workset of the
configuration is filled first and in `gradient_z` the control before the state; the worksets are filled
independently of each other.  `sch k 4` is the schedule of the workset of the rate. -/
def parResults [Zero R] (M : FeModel) (mkS mkV mkZ mkX : Nat → K → R) (ev : ParEvaluator R)
    (dom : Option (List Nat)) (k : Nat) (sch : Nat → Nat → List Nat) (u v z x : List K) : Res (V2 R) := do
  let s ← workset mkS M.npc M.ndof M.c2n dom u (sch k 0) ⟨M.size dom, M.npc * M.ndof, fun _ _ => 0⟩
  let t ← workset mkV M.npc M.ndof M.c2n dom v (sch k 4) ⟨M.size dom, M.npc * M.ndof, fun _ _ => 0⟩
  let c ← workset mkZ M.npc 1 M.c2n dom z (sch k 1) ⟨M.size dom, M.npc, fun _ _ => 0⟩
  let g ← worksetConfig mkX M.npc M.dim M.c2n dom x (sch k 2) ⟨M.size dom, M.npc, M.dim, fun _ _ _ => 0⟩
  ev k s t c g ⟨M.size dom, M.npc * M.ndof, fun _ _ => 0⟩

/-- `VectorFunction::value`, parabolic/VectorFunction.hpp:152-243 -/
def parValue (M : FeModel) (ev : ParEvaluator ℝ) (sch : Nat → Nat → List Nat) (u v z x : List ℝ) :
    Res (List ℝ) :=
  M.overDomains (fun dom k y => do
    let r ← parResults M plainOf plainOf plainOf plainOf ev dom k sch u v z x
    assembleResidual M.npc M.ndof M.c2n dom (M.size dom) (V2.view2 r) (sch k 3) y)
    (List.replicate (M.ndof * M.nn) 0)

/-- `VectorFunction::gradient_u`, parabolic/VectorFunction.hpp:349-452 -/
noncomputable def parGradientU (M : FeModel) (ev : ParEvaluator Fad) (o : List Nat)
    (sch : Nat → Nat → List Nat) (u v z x : List ℝ) : Res (Crs ℝ) := do
  let A ← createBlockMatrix M.ndof M.ndof o M.orm M.oab
  M.overDomains (fun dom k A => do
    let r ← parResults M seedOf constOf constOf constOf ev dom k sch u v z x
    assembleJacobian (blockEntryOrdinal M.npc M.ndof M.ndof A M.c2n) dom (M.size dom)
      (M.npc * M.ndof) (M.npc * M.ndof) (V2.fadView r (M.npc * M.ndof)) (sch k 3) A) A

/-- `VectorFunction::gradient_v`, parabolic/VectorFunction.hpp:454-557 -/
noncomputable def parGradientV (M : FeModel) (ev : ParEvaluator Fad) (o : List Nat)
    (sch : Nat → Nat → List Nat) (u v z x : List ℝ) : Res (Crs ℝ) := do
  let A ← createBlockMatrix M.ndof M.ndof o M.orm M.oab
  M.overDomains (fun dom k A => do
    let r ← parResults M constOf seedOf constOf constOf ev dom k sch u v z x
    assembleJacobian (blockEntryOrdinal M.npc M.ndof M.ndof A M.c2n) dom (M.size dom)
      (M.npc * M.ndof) (M.npc * M.ndof) (V2.fadView r (M.npc * M.ndof)) (sch k 3) A) A

/-- `VectorFunction::gradient_z`, parabolic/VectorFunction.hpp:559-661 -/
noncomputable def parGradientZ (M : FeModel) (ev : ParEvaluator Fad) (o : List Nat)
    (sch : Nat → Nat → List Nat) (u v z x : List ℝ) : Res (Crs ℝ) := do
  let A ← createBlockMatrix 1 M.ndof o M.orm M.oab
  M.overDomains (fun dom k A => do
    let r ← parResults M constOf constOf seedOf constOf ev dom k sch u v z x
    assembleTransposeJacobian (blockEntryOrdinal M.npc 1 M.ndof A M.c2n) dom (M.size dom)
      (M.npc * M.ndof) (M.npc * 1) (V2.fadView r (M.npc * 1)) (sch k 3) A) A

/-- `VectorFunction::gradient_x`, parabolic/VectorFunction.hpp:245-347 -/
noncomputable def parGradientX (M : FeModel) (ev : ParEvaluator Fad) (o : List Nat)
    (sch : Nat → Nat → List Nat) (u v z x : List ℝ) : Res (Crs ℝ) := do
  let A ← createBlockMatrix M.dim M.ndof o M.orm M.oab
  M.overDomains (fun dom k A => do
    let r ← parResults M constOf constOf constOf seedOf ev dom k sch u v z x
    assembleTransposeJacobian (blockEntryOrdinal M.npc M.dim M.ndof A M.c2n) dom (M.size dom)
      (M.npc * M.ndof) (M.npc * M.dim) (V2.fadView r (M.npc * M.dim)) (sch k 3) A) A

end Par

/-! ## Input -/

section Input
open Plato.Material

/-- Input of a scalar or tensor property: a number or a sublist (MaterialModel.hpp:436-470, 520-553). -/
inductive PropertyInput where
  | number (v : ℝ)
  | list (p : Params)
  | missing

/-- One table of `TensorFunctor(params)`, MaterialModel.cpp:7-54, and `TensorConstant(params)`, 56-83:
entry 11 is required or defaults to zero, entries 22 and 33 default to it, 12, 13 and 23 to zero. -/
def tensorTable (d : Nat) (req : Bool) (pre : String) (p : Params) : Res (Nat → Nat → ℝ) := do
  let c11 ← if req then p.getParam (pre ++ "11") else pure (p.getD (pre ++ "11") 0)
  let opt := fun n x => p.getD (pre ++ n) x
  pure fun i j =>
    if d ≤ i ∨ d ≤ j then 0
    else if i = 0 ∧ j = 0 then c11
    else if i = 1 ∧ j = 1 then opt "22" c11
    else if i = 2 ∧ j = 2 then opt "33" c11
    else if (i = 0 ∧ j = 1) ∨ (i = 1 ∧ j = 0) then opt "12" 0
    else if (i = 0 ∧ j = 2) ∨ (i = 2 ∧ j = 0) then opt "13" 0
    else opt "23" 0

/-- The diagonal tensor of a number, MaterialModel.hpp:107-113 and 171-177. -/
def diagTable (d : Nat) (v : ℝ) (i j : Nat) : ℝ := if i = j ∧ i < d then v else 0

/-- `MaterialModel` and `ThermalConductionModel` constructors with `parseTensor`
(MaterialModel.hpp:338-370, 520-553; ThermalConductivityMaterial.hpp:26-31) followed by the constructor of
`ThermalFlux` (ThermalFlux.hpp:28-39): what is not looked up is default constructed, that is zero. -/
def FluxLaw.ofInput (d : Nat) (tempDep : Bool) (inp : PropertyInput) : Res (FluxLaw ℝ) :=
  let zero : Nat → Nat → ℝ := fun _ _ => 0
  match inp with
  | .number v =>
    if tempDep then .ok ⟨true, zero, diagTable d v, zero, zero⟩
    else .ok ⟨false, diagTable d v, zero, zero, zero⟩
  | .list p =>
    if tempDep then do
      let c0 ← tensorTable d true "c0" p
      let c1 ← tensorTable d false "c1" p
      let c2 ← tensorTable d false "c2" p
      pure ⟨true, zero, c0, c1, c2⟩
    else do
      let c ← tensorTable d true "c" p
      pure ⟨false, c, zero, zero, zero⟩
  | .missing => throwErr "Required input missing."

/-- `ScalarFunctor(params)`, MaterialModel.hpp:43-63. -/
def Quad.ofParams (p : Params) : Res (Quad ℝ) :=
  if p.isScalar "c0" then do
    let c0 ← p.get "c0"
    pure ⟨c0, p.getD "c1" 0, p.getD "c2" 0⟩
  else throwErr "Missing required parameter 'c0'"

/-- `parseScalar`, MaterialModel.hpp:436-470: the constant and the functor under a name, zero when not
set. -/
def parseScalar (tempDep : Bool) (inp : PropertyInput) : Res (ℝ × Quad ℝ) :=
  match inp with
  | .number v => .ok (if tempDep then (0, ⟨v, 0, 0⟩) else (v, ⟨0, 0, 0⟩))
  | .list p =>
    if tempDep then do
      let q ← Quad.ofParams p
      pure (0, q)
    else throwErr "Found a temperature dependent constant in a linear model."
  | .missing => throwErr "Required input missing."

/-- `ThermalMassMaterial` (ThermalMassMaterial.hpp:23-30) followed by the constructor of `ThermalContent`
(ThermalContent.hpp:31-44). -/
def MassLaw.ofInput (tempDep : Bool) (density heat : PropertyInput) : Res (MassLaw ℝ) := do
  let a ← parseScalar tempDep density
  let b ← parseScalar tempDep heat
  pure ⟨tempDep, a.2, b.2, a.1, b.1⟩

end Input

end Plato.Thermal
