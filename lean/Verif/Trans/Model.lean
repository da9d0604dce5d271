import Verif.Crit.PhysicsModel
import Verif.Thermal.Model

/-!
# Model of criteria of transient problems

`Parabolic::PhysicsScalarFunction` (/repo/src/parabolic/PhysicsScalarFunction.hpp) and
`Hyperbolic::PhysicsScalarFunction` (/repo/src/hyperbolic/HyperbolicPhysicsScalarFunction.hpp).  The solution has
the fields state and rate, or displacement, velocity and acceleration, each with one vector for each step.  Both
classes have the same code for each field; the model has any number of fields.

The evaluators are found by position of the domain instead of by name; one control per node.  The copy of the
results that `value` leaves in the data map for output is left out.  A step index that does not exist is undefined
behaviour (the check in `gradient_u` is an `assert`).
-/

namespace Plato.Trans
open Plato Plato.Mech Plato.Crit

variable {R : Type}

/-- `AbstractScalarFunction::evaluate`: domain, worksets of the fields, control, configuration, result, time step
(/repo/src/parabolic/AbstractScalarFunction.hpp, /repo/src/hyperbolic/HyperbolicAbstractScalarFunction.hpp). -/
abbrev TEvaluator (R : Type) := Nat → (Nat → V2 R) → V2 R → V3 R → List R → ℝ → Res (List R)

/-- Orders in which the iterations of the kernels of one call run. -/
structure TSched where
  /-- control workset of a domain -/
  ctl : Nat → List Nat
  /-- configuration workset of a domain -/
  cfg : Nat → List Nat
  /-- workset of a domain, iteration and field -/
  st : Nat → Nat → Nat → List Nat
  /-- atomic additions of the assembly of a domain and iteration -/
  asm : Nat → Nat → List Nat
  /-- chunks of the reduction over the cells of a domain and iteration -/
  sum : Nat → Nat → List (List Nat)

/-- The worksets of all fields at step `t`, each made in the view of its field.  `pick` is the step that is read of
each field (parabolic: 190-197, hyperbolic: 204-217). -/
def fieldWorksets {K : Type} (M : FeModel) (F : Nat) (mkS : Nat → Nat → K → R) (cells : List Nat)
    (order : Nat → List Nat) (pick : Nat → Nat → Nat) (H : List (List (List K))) (t : Nat) (w : Nat → V2 R) :
    Res (Nat → V2 R) :=
  forRange 0 F w fun f w => do
    let h ← rd H f
    let u ← rd h (pick f t)
    let a ← workset (mkS f) M.npc M.ndof M.c2n (some cells) u (order f) (w f)
    pure fun g => if g = f then a else w g

/-- The loops over domains and over the given steps that the functions share.  The control and configuration
worksets are made once for each domain, those of the fields anew at each step in the same views, the result is zero
before each evaluation. -/
def overT {K σ : Type} [Zero R] (M : FeModel) (F : Nat) (mkS : Nat → Nat → K → R) (mkZ mkX : Nat → K → R)
    (ev : TEvaluator R) (sc : TSched) (pick : Nat → Nat → Nat) (steps : List Nat) (H : List (List (List K)))
    (z x : List K) (dt : ℝ) (body : List Nat → Nat → Nat → List R → σ → Res σ) (s : σ) : Res σ :=
  forRange 0 M.domains.length s fun k s => do
    let cells ← rd M.domains k
    let c ← workset mkZ M.npc 1 M.c2n (some cells) z (sc.ctl k) ⟨cells.length, M.npc, fun _ _ => 0⟩
    let g ← worksetConfig mkX M.npc M.dim M.c2n (some cells) x (sc.cfg k)
      ⟨cells.length, M.npc, M.dim, fun _ _ _ => 0⟩
    let p ← forRange 0 steps.length ((fun _ => (⟨cells.length, M.npc * M.ndof, fun _ _ => 0⟩ : V2 R)), s) fun i p => do
      let t ← rd steps i
      let w ← fieldWorksets M F mkS cells (sc.st k i) pick H t p.1
      let r ← ev k w c g (List.replicate cells.length 0) dt
      let s ← body cells k i r p.2
      pure (w, s)
    pure p.2

/-- The steps of `for(tStepIndex = tLastStepIndex; tStepIndex > 0; --tStepIndex)` with `tLastStepIndex` the number of
states less one (parabolic: 184-186, hyperbolic: 200-202).  Without any state the unsigned difference is the largest
number of the type, and the first step read does not exist. -/
def stepsDown {K : Type} (H : List (List (List K))) : Res (List Nat) := do
  let h ← rd H 0
  if h.length = 0 then Res.ub else pure ((List.range (h.length - 1)).map fun i => h.length - 1 - i)

/-- All fields are read at the same step. -/
def sameStep : Nat → Nat → Nat := fun _ t => t

/-- `Parabolic::PhysicsScalarFunction::gradient_z` reads the rate of the step before:
`subview(tStateDots, tStepIndex-1, ALL())`, PhysicsScalarFunction.hpp:509. -/
def lateRate : Nat → Nat → Nat := fun f t => if f = 1 then t - 1 else t

/-- `value`, parabolic: 145-212, hyperbolic: 158-233. -/
def transValue (M : FeModel) (F : Nat) (ev : TEvaluator ℝ) (post : Post) (sc : TSched) (H : List (List (List ℝ)))
    (z x : List ℝ) (dt : ℝ) : Res ℝ := do
  let steps ← stepsDown H
  let v ← overT M F (fun _ => plainOf) plainOf plainOf ev sc sameStep steps H z x dt
    (fun _ k i r v => do
      let a ← localResultSum (sc.sum k i) r
      pure (v + a)) 0
  if M.domains.length = 0 then Res.ub else pure (post.val v)

/-- The common part of the gradients: assembly of `d` entries for each node, and the value. -/
noncomputable def gradT (M : FeModel) (F d : Nat) (mkS : Nat → Nat → ℝ → Fad) (mkZ mkX : Nat → ℝ → Fad)
    (ev : TEvaluator Fad) (post : Post) (sc : TSched) (pick : Nat → Nat → Nat) (steps : List Nat)
    (H : List (List (List ℝ))) (z x : List ℝ) (dt : ℝ) : Res (List ℝ) := do
  let p ← overT M F mkS mkZ mkX ev sc pick steps H z x dt
    (fun cells k i r (p : List ℝ × ℝ) => do
      let g ← assembleResidual M.npc d M.c2n (some cells) cells.length (fadRows r (M.npc * d)) (sc.asm k i) p.1
      let a ← assembleScalarFuncValue (sc.sum k i) r
      pure (g, p.2 + a)) (List.replicate (d * M.nn) 0, 0)
  if M.domains.length = 0 then Res.ub else post.grad p.1 p.2

/-- `gradient_x`, parabolic: 222-291, hyperbolic: 243-322. -/
noncomputable def transGradX (M : FeModel) (F : Nat) (ev : TEvaluator Fad) (post : Post) (sc : TSched)
    (H : List (List (List ℝ))) (z x : List ℝ) (dt : ℝ) : Res (List ℝ) := do
  let steps ← stepsDown H
  gradT M F M.dim (fun _ => constOf) constOf seedOf ev post sc sameStep steps H z x dt

/-- `gradient_z`; `pick` is `lateRate` in the parabolic (456-527) and `sameStep` in the hyperbolic class (585-664). -/
noncomputable def transGradZ (M : FeModel) (F : Nat) (ev : TEvaluator Fad) (post : Post) (sc : TSched)
    (pick : Nat → Nat → Nat) (H : List (List (List ℝ))) (z x : List ℝ) (dt : ℝ) : Res (List ℝ) := do
  let steps ← stepsDown H
  gradT M F 1 (fun _ => constOf) seedOf constOf ev post sc pick steps H z x dt

/-- `gradient_u`, `gradient_v`, `gradient_a` at a step: field `f` has the independent variables, only the step
asked for is evaluated (parabolic: 302-370, 381-446; hyperbolic: 333-406, 417-490, 501-574). -/
noncomputable def transGradField (M : FeModel) (F f : Nat) (ev : TEvaluator Fad) (post : Post) (sc : TSched)
    (H : List (List (List ℝ))) (z x : List ℝ) (j : Nat) (dt : ℝ) : Res (List ℝ) :=
  gradT M F M.ndof (fun g => if g = f then seedOf else constOf) constOf constOf ev post sc sameStep [j] H z x dt

/-! ## Criteria -/

/-- A criterion that reads the state only.  `Parabolic::InternalThermalEnergy`, `Hyperbolic::InternalElasticEnergy`
and `Hyperbolic::StressPNorm` have the bodies of the criteria of steady problems, with the other fields as unused
arguments; the elastic energy has no factor 1/2
(/repo/src/parabolic/InternalThermalEnergy.hpp:83-137, /repo/src/hyperbolic/HyperbolicInternalElasticEnergy.hpp:104-164,
/repo/src/hyperbolic/HyperbolicStressPNorm.hpp:82-130). -/
def ofState (ev : ScalarEvaluator R) : TEvaluator R := fun k w z x r dt => ev k (w 0) z x r dt

section
variable [CommRing R]

/-- `StateValues::operator()`, /repo/src/StateValues.hpp:52-74. -/
def stateValues (cell : Nat) (basis : List R) (state out : V2 R) : Res (V2 R) := do
  let out ← forRange 0 out.d1 out fun i out => vwr2 out cell i 0
  forRange 0 basis.length out fun n out =>
    forRange 0 out.d1 out fun i out => do
      let b ← rd basis n
      let s ← vrd2 state cell (out.d1 * n + i)
      accum2 out cell i (b * s)

variable [Div R]

/-- `ApplyWeighting::operator()` into another view, /repo/src/ApplyWeighting.hpp:76-93. -/
def weightCopy (npc terms : Nat) (pen : R → R) (cell : Nat) (inp out control : V2 R) : Res (V2 R) := do
  let rho ← cellDensity npc cell control
  forRange 0 terms out fun t out => do
    let a ← vrd2 inp cell t
    vwr2 out cell t (pen rho * a)

variable (fabs : R → R)

/-- Body of the loop of `TemperatureAverage::evaluate`, /repo/src/parabolic/TemperatureAverage.hpp:99-114: the
weighted temperatures are a view of their own; the result is overwritten; the weight of the rule is not used. -/
def averageCell (P : Plato.Thermal.Thermal R) (state control : V2 R) (config : V3 R) (c : Nat)
    (s : V2 R × V2 R × List R) : Res (V2 R × V2 R × List R) := do
  let vol ← computeCellVolume fabs P.d c config
  let T ← stateValues c P.basis state s.1
  let W ← weightCopy (P.d + 1) 1 P.pen c T s.2.1 control
  let a ← vrd2 W c 0
  let r ← wr s.2.2 c (a * vol)
  pure (T, W, r)

/-- `TemperatureAverage::evaluate`, /repo/src/parabolic/TemperatureAverage.hpp:72-117. -/
def temperatureAverage (P : Nat → Plato.Thermal.Thermal R) (sch : Nat → List Nat) : ScalarEvaluator R :=
  fun k s z x r _ => do
    let (_, _, r) ← parFor (sch k) (⟨s.d0, 1, fun _ _ => 0⟩, ⟨s.d0, 1, fun _ _ => 0⟩, r)
      (averageCell fabs (P k) s z x)
    pure r

end

end Plato.Trans
