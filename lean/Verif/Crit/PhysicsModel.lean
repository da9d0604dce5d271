import Verif.Crit.Model
import Verif.Mech.Model
import Verif.Mech.VectorModel
import Mathlib.Analysis.SpecialFunctions.Pow.Real

/-!
# Model of criteria that are sums over the cells

`Elliptic::PhysicsScalarFunction` (/repo/src/elliptic/PhysicsScalarFunction.hpp) and its copy without a
state, `Geometric::GeometryScalarFunction` (/repo/src/geometric/GeometryScalarFunction.hpp), with the
assembly functions of /repo/src/Assembly.hpp:21-29, 353-361, 451-479, 552-577 (the last two are
`assembleResidual` applied to the derivative components).

The evaluators are found by position of the domain instead of by name; one control per node.  The copy
of the results that `value` leaves in the data map for output is left out.
-/

namespace Plato.Crit
open Plato Plato.Mech

variable {R : Type}

/-- `AbstractScalarFunction::evaluate`: domain, state, control, configuration, result, time step. -/
abbrev ScalarEvaluator (R : Type) := Nat → V2 R → V2 R → V3 R → List R → ℝ → Res (List R)

/-- Orders in which the iterations of the kernels of one call run. -/
structure Sched where
  /-- control workset of a domain -/
  ctl : Nat → List Nat
  /-- configuration workset of a domain -/
  cfg : Nat → List Nat
  /-- state workset of a domain and step -/
  st : Nat → Nat → List Nat
  /-- atomic additions of the assembly of a domain and step -/
  asm : Nat → Nat → List Nat
  /-- chunks of the reduction over the cells of a domain and step -/
  sum : Nat → Nat → List (List Nat)

/-- `local_result_sum`, /repo/src/Assembly.hpp:21-29 -/
def localResultSum (chunks : List (List Nat)) (r : List ℝ) : Res ℝ :=
  parReduce chunks 0 (· + ·) fun c s => do
    let a ← rd r c
    pure (s + a)

/-- `assemble_scalar_func_value`, /repo/src/Assembly.hpp:353-361 -/
noncomputable def assembleScalarFuncValue (chunks : List (List Nat)) (r : List Fad) : Res ℝ :=
  parReduce chunks 0 (· + ·) fun c s => do
    let a ← rd r c
    pure (s + a.val)

/-- The derivative components of the cell results, as the assembly reads them: `aGradient(cell).dx(l)`. -/
noncomputable def fadRows (r : List Fad) (n : Nat) : View2 ℝ := ⟨r.length, n, fun c l => (at0 r c).dx l⟩

/-- The loops over domains and steps that the functions share.  The control and configuration worksets
are made once for each domain, the state workset is made anew at each step in the same view, the result
is set to zero before each evaluation (PhysicsScalarFunction.hpp:238-282, 305-350, 442-486). -/
def overSteps {K σ : Type} [Zero R] (M : FeModel) (mkS mkZ mkX : Nat → K → R) (ev : ScalarEvaluator R)
    (sc : Sched) (states : List (List K)) (z x : List K) (dt : ℝ)
    (body : List Nat → Nat → Nat → List R → σ → Res σ) (s : σ) : Res σ :=
  forRange 0 M.domains.length s fun k s => do
    let cells ← rd M.domains k
    let c ← workset mkZ M.npc 1 M.c2n (some cells) z (sc.ctl k) ⟨cells.length, M.npc, fun _ _ => 0⟩
    let g ← worksetConfig mkX M.npc M.dim M.c2n (some cells) x (sc.cfg k)
      ⟨cells.length, M.npc, M.dim, fun _ _ _ => 0⟩
    let p ← forRange 0 states.length ((⟨cells.length, M.npc * M.ndof, fun _ _ => 0⟩ : V2 R), s) fun t p => do
      let u ← rd states t
      let w ← workset mkS M.npc M.ndof M.c2n (some cells) u (sc.st k t) p.1
      let r ← ev k w c g (List.replicate cells.length 0) dt
      let s ← body cells k t r p.2
      pure (w, s)
    pure p.2

/-- `postEvaluate` of a criterion, for values and for gradients. -/
structure Post where
  /-- `postEvaluate(Scalar&)` -/
  val : ℝ → ℝ
  /-- `postEvaluate(ScalarVector, Scalar)` -/
  grad : List ℝ → ℝ → Res (List ℝ)

/-- The base class does nothing, /repo/src/elliptic/AbstractScalarFunction.hpp:81-89. -/
def Post.none : Post := ⟨fun v => v, fun g _ => .ok g⟩

/-- `value`, /repo/src/elliptic/PhysicsScalarFunction.hpp:224-285.  `Domains[0]` of a model without
domains is undefined. -/
def physicsValue (M : FeModel) (ev : ScalarEvaluator ℝ) (post : Post) (sc : Sched)
    (states : List (List ℝ)) (z x : List ℝ) (dt : ℝ) : Res ℝ := do
  let v ← overSteps M plainOf plainOf plainOf ev sc states z x dt
    (fun _ k t r v => do
      let a ← localResultSum (sc.sum k t) r
      pure (v + a)) 0
  if M.domains.length = 0 then Res.ub else pure (post.val v)

/-- The common part of the gradients: assembly of `d` entries for each node, and the value. -/
noncomputable def gradSteps (M : FeModel) (d : Nat) (mkS mkZ mkX : Nat → ℝ → Fad) (ev : ScalarEvaluator Fad)
    (post : Post) (sc : Sched) (states : List (List ℝ)) (z x : List ℝ) (dt : ℝ) : Res (List ℝ) := do
  let p ← overSteps M mkS mkZ mkX ev sc states z x dt
    (fun cells k t r (p : List ℝ × ℝ) => do
      let g ← assembleResidual M.npc d M.c2n (some cells) cells.length (fadRows r (M.npc * d)) (sc.asm k t) p.1
      let a ← assembleScalarFuncValue (sc.sum k t) r
      pure (g, p.2 + a)) (List.replicate (d * M.nn) 0, 0)
  if M.domains.length = 0 then Res.ub else post.grad p.1 p.2

/-- `subview(states, step)` with a signed step. -/
def stepOf (states : List (List ℝ)) (k : Int) : Res (List ℝ) :=
  if 0 ≤ k then rd states k.toNat else Res.ub

/-- `PhysicsScalarFunction`: `gradient_x` (294-355), `gradient_u` (365-421; only the step asked for is
evaluated), `gradient_z` (432-490).  Each evaluation type has its own evaluators. -/
noncomputable def physicsCriterion (M : FeModel) (evR : ScalarEvaluator ℝ) (evX evU evZ : ScalarEvaluator Fad)
    (post : Post) (sv sx su sz : Sched) : Criterion where
  value := fun s z x dt => physicsValue M evR post sv s z x dt
  gradX := fun s z x dt => gradSteps M M.dim constOf constOf seedOf evX post sx s z x dt
  gradU := fun s z x k dt => do
    let u ← stepOf s k
    gradSteps M M.ndof seedOf constOf constOf evU post su [u] z x dt
  gradZ := fun s z x dt => gradSteps M 1 constOf seedOf constOf evZ post sz s z x dt

/-- `GeometryScalarFunction`, /repo/src/geometric/GeometryScalarFunction.hpp:198-386: the same without a
state.  It is the function of one step with an evaluator that does not read the state; the model has a
state of zeros that nothing reads. -/
noncomputable def geometryCriterion (M : FeModel) (evR : ScalarEvaluator ℝ) (evX evZ : ScalarEvaluator Fad)
    (post : Post) (sv sx sz : Sched) : GeoCriterion where
  value := fun z x => physicsValue M evR post sv [List.replicate (M.nn * M.ndof) 0] z x 0
  gradX := fun z x => gradSteps M M.dim constOf constOf seedOf evX post sx [List.replicate (M.nn * M.ndof) 0] z x 0
  gradZ := fun z x => gradSteps M 1 constOf seedOf constOf evZ post sz [List.replicate (M.nn * M.ndof) 0] z x 0

/-! ## Criteria -/

/-- `InternalElasticEnergy` of each domain as evaluator (the factory builds one for each domain). -/
def elasticEnergy {R : Type} [CommRing R] [Div R] (fabs : R → R) (half : R) (P : Nat → Elastostatic R)
    (sch : Nat → List Nat) : ScalarEvaluator R := fun k s z x r _ =>
  (P k).energy fabs half (sch k) s.d0 s z x r

/-- Body of the loop of `Volume::evaluate`, /repo/src/elliptic/Volume.hpp:83-96 and
/repo/src/geometric/Volume.hpp; `ApplyWeighting` of a scalar is the case of one term
(third overload in /repo/src/ApplyWeighting.hpp). -/
def volumeCell {R : Type} [CommRing R] [Div R] (fabs : R → R) (d : Nat) (weight : R) (pen : R → R) (z : V2 R) (x : V3 R)
    (c : Nat) (r : List R) : Res (List R) := do
  let v ← computeCellVolume fabs d c x
  let r ← wr r c (v * weight)
  let rho ← cellDensity (d + 1) c z
  let a ← rd r c
  wr r c (a * pen rho)

/-- `Volume::evaluate`, /repo/src/elliptic/Volume.hpp:67-97. -/
def volumeEval {R : Type} [CommRing R] [Div R] (fabs : R → R) (d : Nat) (weight : Nat → R) (pen : Nat → R → R)
    (sch : Nat → List Nat) : ScalarEvaluator R := fun k _ z x r _ =>
  parFor (sch k) r (volumeCell fabs d (weight k) (pen k) z x)

/-- The weight of the one point rule as the constructors compute it, /repo/src/elliptic/Volume.hpp:59-64
and /repo/src/elliptic/StressPNorm.hpp:74-78. -/
def quadratureWeight {R : Type} [CommRing R] [Div R] (d : Nat) : Res R :=
  forRange 2 (d + 1) (1 : R) fun i w => pure (w / (i : R))

/-- The part that the norm functors share: sum of the squares of the Voigt terms,
/repo/src/TensorPNorm.hpp:37-41 and 89-93. -/
def squareSum {R : Type} [CommRing R] (terms c : Nat) (r : List R) (t : V2 R) : Res (List R) := do
  let r ← wr r c 0
  forRange 0 terms r fun i r => do
    let a ← vrd2 t c i
    let x ← rd r c
    wr r c (x + a * a)

/-- `TensorPNormFunctor::operator()`, /repo/src/TensorPNorm.hpp:28-45; the exponent is an integer. -/
noncomputable def tensorPNormFunctor {R : Type} [CommRing R] (pow : R → ℝ → R) (terms : Nat) (p : Int) (c : Nat) (r : List R)
    (t : V2 R) (vol : List R) : Res (List R) := do
  let r ← squareSum terms c r t
  let x ← rd r c
  let r ← wr r c (pow x (p / 2))
  let x ← rd r c
  let v ← rd vol c
  wr r c (x * v)

/-- `WeightedNormFunctor::operator()`, /repo/src/TensorPNorm.hpp:79-100. -/
noncomputable def weightedNormFunctor {R : Type} [CommRing R] [Div R] (pow : R → ℝ → R) (sqrt : R → R) (spw ref : R)
    (terms : Nat) (p : Int) (c : Nat) (r : List R) (t : V2 R) (vol : List R) : Res (List R) := do
  let r ← squareSum terms c r t
  let x ← rd r c
  let r ← wr r c (sqrt (spw * x))
  let x ← rd r c
  let r ← wr r c (x / ref)
  let x ← rd r c
  let r ← wr r c (pow x p)
  let x ← rd r c
  let v ← rd vol c
  wr r c (x * v)

/-- Body of the loop of `StressPNorm::evaluate`, /repo/src/elliptic/StressPNorm.hpp:124-142. -/
def weightedStressCell {R : Type} [CommRing R] [Div R] (fabs : R → R) (P : Elastostatic R) (state control : V2 R)
    (config : V3 R) (c : Nat) (w : Views R) : Res (Views R) := do
  let w ← P.stressCell fabs state config c w
  let stress ← applyWeighting (P.d + 1) (numVoigt P.d) P.pen c w.stress control
  pure ⟨w.grad, w.vol, w.strain, stress⟩

/-- `StressPNorm::evaluate`, /repo/src/elliptic/StressPNorm.hpp:90-146, with `TensorPNorm::evaluate`,
`WeightedNorm::evaluate` (/repo/src/TensorPNorm.hpp:335-351, 405-422).  `norm` is the functor; it is called
with the exponent converted to an integer. -/
noncomputable def stressPNorm {R : Type} [CommRing R] [Div R] (fabs : R → R)
    (norm : Nat → Nat → Int → Nat → List R → V2 R → List R → Res (List R)) (exponent : ℝ)
    (P : Nat → Elastostatic R) (sch : Nat → Nat → List Nat) : ScalarEvaluator R := fun k s z x r _ => do
  let w ← parFor (sch k 0) (Views.new (P k).d s.d0) (weightedStressCell fabs (P k) s z x)
  parFor (sch k 1) r fun c r => norm k (numVoigt (P k).d) (toOrdinal exponent) c r w.stress w.vol

/-- `TensorNormBase::postEvaluate`, /repo/src/TensorPNorm.hpp:295-313.  `order` gives the order of the
iterations for each length of the gradient. -/
noncomputable def normPost (exponent : ℝ) (order : Nat → List Nat) : Post where
  val v := v ^ (1 / exponent)
  grad g v := parFor (order g.length) g fun q g => do
    let a ← rd g q
    wr g q (a * (v ^ ((1 - exponent) / exponent) / exponent))

/-- `LinearStress` made from a stiffness only has no reference strain, /repo/src/LinearStress.hpp:33-45. -/
def noReference {R : Type} [CommRing R] (P : Elastostatic R) : Elastostatic R :=
  ⟨P.d, P.stiff, fun _ => 0, P.pen, P.cubWeight, P.forcing, P.bodyLoads⟩

end Plato.Crit
