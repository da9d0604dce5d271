import Verif.Crit.PhysicsModel
import Verif.Alg.PenaltyModel
import Verif.Mech.Elastic

/-!
# Model of the augmented Lagrangian stress criteria

`Plato::AugLagStressCriterionQuadratic` (/repo/src/Plato_AugLagStressCriterionQuadratic.hpp) with the
local measure `VonMisesLocalMeasure` (/repo/src/VonMisesLocalMeasure.hpp), the updates of
`Plato::AugLagStressCriterion` (/repo/src/Plato_AugLagStressCriterion.hpp), and
`PhysicsScalarFunction::updateProblem` (/repo/src/elliptic/PhysicsScalarFunction.hpp:191-214).

The temporaries that the loops index by the cell are local values, `pow(a, 2)` is a product; the plot
field left in the data map is not modelled.
-/

namespace Plato.Crit
open Plato Plato.Mech

/-- `VonMisesYieldFunction::operator()`, /repo/src/VonMisesYieldFunction.hpp:48-75 (3D), 88-105 (2D),
117-126 (1D); `half` is the literal 0.5. -/
def vonMises {R : Type} [CommRing R] (sqrt : R → R) (half : R) (d c : Nat) (stress : V2 R) (r : List R) :
    Res (List R) :=
  if d = 3 then do
    let s0 ← vrd2 stress c 0
    let s1 ← vrd2 stress c 1
    let s2 ← vrd2 stress c 2
    let s3 ← vrd2 stress c 3
    let s4 ← vrd2 stress c 4
    let s5 ← vrd2 stress c 5
    let principal := (s0 - s1) * (s0 - s1) + (s1 - s2) * (s1 - s2) + (s2 - s0) * (s2 - s0)
    let shear := 3 * (s3 * s3 + s4 * s4 + s5 * s5)
    wr r c (sqrt (half * principal + shear))
  else if d = 2 then do
    let s0 ← vrd2 stress c 0
    let s1 ← vrd2 stress c 1
    let s2 ← vrd2 stress c 2
    wr r c (sqrt (s0 * s0 - s0 * s1 + s1 * s1 + 3 * (s2 * s2)))
  else do
    let s0 ← vrd2 stress c 0
    wr r c s0

/-- `AbstractLocalMeasure::operator()`: domain, state, configuration, result. -/
abbrev Measure (R : Type) := Nat → V2 R → V3 R → List R → Res (List R)

/-- `VonMisesLocalMeasure::operator()`, /repo/src/VonMisesLocalMeasure.hpp:79-108.  The body of the loop is
that of the residual followed by the yield function; the code does not multiply the volume, which nothing
reads, by a weight. -/
def vonMisesMeasure {R : Type} [CommRing R] [Div R] (fabs sqrt : R → R) (half : R) (P : Nat → Elastostatic R)
    (sch : Nat → List Nat) : Measure R := fun k s x r => do
  let p ← parFor (sch k) (Views.new (P k).d r.length, r) fun c (p : Views R × List R) => do
    let w ← (P k).stressCell fabs s x c p.1
    let r ← vonMises sqrt half (P k).d c w.stress p.2
    pure (w, r)
  pure p.2

/-- Members of `AugLagStressCriterionQuadratic`, lines 44-58: the penalty model made from the first two
members, limit of the measure, penalty with bound and expansion, multipliers. -/
structure AugLag where
  simp : PenaltyData
  limit : ℝ
  penalty : ℝ
  bound : ℝ
  expansion : ℝ
  lam : List ℝ

/-- The constructor, lines 104-124 with 66-90: multipliers for all the cells of the mesh. -/
def AugLag.new (simp : PenaltyData) (limit penalty bound expansion lam0 : ℝ) (nelems : Nat) : AugLag :=
  ⟨simp, limit, penalty, bound, expansion, List.replicate nelems lam0⟩

/-- The penalised constraint of a cell, lines 273-285 and 331-345: `over` is the measure divided by the
limit. -/
noncomputable def trueConstraint {R : Type} [CommRing R] (val : R → ℝ) (over pen : R) : R :=
  if 1 < val over then pen * ((over - 1) * (over - 1)) else 0

/-- Body of the loop of `evaluate`, lines 271-290; `n` is the number of cells of the domain. -/
noncomputable def AugLag.evalCell {R : Type} [CommRing R] [Div R] (val : R → ℝ) (ofReal : ℝ → R)
    (pen : PenaltyData → R → R) (A : AugLag) (npc n : Nat) (control : V2 R) (measure : List R) (c : Nat)
    (r : List R) : Res (List R) := do
  let m ← rd measure c
  let rho ← cellDensity npc c control
  let t := trueConstraint val (m / ofReal A.limit) (pen A.simp rho)
  let l ← rd A.lam c
  wr r c (ofReal (1 / n) * (ofReal l * t + ofReal (1 / 2) * ofReal A.penalty * t * t))

/-- `evaluate`, lines 238-295.  `A` are the objects of the domains; `sch` the orders of the iterations. -/
noncomputable def augLagEval {R : Type} [CommRing R] [Div R] (val : R → ℝ) (ofReal : ℝ → R)
    (pen : PenaltyData → R → R) (npc : Nat) (meas : Measure R) (A : Nat → AugLag) (sch : Nat → List Nat) :
    ScalarEvaluator R := fun k s z x r _ => do
  let m ← meas k s x (List.replicate r.length 0)
  parFor (sch k) r ((A k).evalCell val ofReal pen npc r.length z m)

/-- Body of the loop of `updateLagrangeMultipliers`, lines 329-352. -/
noncomputable def AugLag.updateCell (A : AugLag) (npc : Nat) (control : V2 ℝ) (measure : List ℝ) (c : Nat)
    (lam : List ℝ) : Res (List ℝ) := do
  let m ← rd measure c
  let rho ← cellDensity npc c control
  let t := trueConstraint id (m / A.limit) (Plato.simp A.simp rho)
  let l ← rd lam c
  wr lam c (max (l + A.penalty * t) 0)

/-- `updateAugLagPenaltyMultipliers`, lines 91-95. -/
noncomputable def AugLag.updatePenalty (A : AugLag) : AugLag :=
  ⟨A.simp, A.limit, min (A.expansion * A.penalty) A.bound, A.bound, A.expansion, A.lam⟩

/-- `updateProblem`, lines 219-228 with 303-353. -/
noncomputable def AugLag.update (A : AugLag) (npc k n : Nat) (meas : Measure ℝ) (order : List Nat)
    (s z : V2 ℝ) (x : V3 ℝ) : Res AugLag := do
  let m ← meas k s x (List.replicate n 0)
  let lam ← parFor order A.lam (A.updateCell npc z m)
  pure (AugLag.updatePenalty ⟨A.simp, A.limit, A.penalty, A.bound, A.expansion, lam⟩)

/-- The four evaluators of a domain, each with its own state. -/
structure Copies where
  value : AugLag
  gradU : AugLag
  gradZ : AugLag
  gradX : AugLag

/-- Orders of the iterations in one call of `updateProblem`. -/
structure UpdateSched where
  st : Nat → List Nat
  ctl : Nat → List Nat
  cfg : Nat → List Nat
  /-- domain and copy -/
  upd : Nat → Nat → List Nat

/-- `PhysicsScalarFunction::updateProblem`, /repo/src/elliptic/PhysicsScalarFunction.hpp:191-214; `F` are the
evaluators of the domains. -/
noncomputable def updateProblem (M : FeModel) (meas : Measure ℝ) (x : List ℝ) (sc : UpdateSched)
    (u z : List ℝ) (F : Nat → Copies) : Res (Nat → Copies) :=
  forRange 0 M.domains.length F fun k F => do
    let cells ← rd M.domains k
    let s ← workset plainOf M.npc M.ndof M.c2n (some cells) u (sc.st k) ⟨cells.length, M.npc * M.ndof, fun _ _ => 0⟩
    let c ← workset plainOf M.npc 1 M.c2n (some cells) z (sc.ctl k) ⟨cells.length, M.npc, fun _ _ => 0⟩
    let g ← worksetConfig plainOf M.npc M.dim M.c2n (some cells) x (sc.cfg k)
      ⟨cells.length, M.npc, M.dim, fun _ _ _ => 0⟩
    let a ← (F k).value.update M.npc k cells.length meas (sc.upd k 0) s c g
    let b ← (F k).gradU.update M.npc k cells.length meas (sc.upd k 1) s c g
    let d ← (F k).gradZ.update M.npc k cells.length meas (sc.upd k 2) s c g
    let e ← (F k).gradX.update M.npc k cells.length meas (sc.upd k 3) s c g
    pure (Function.update F k ⟨a, b, d, e⟩)

/-- A history of calls. -/
noncomputable def updates (M : FeModel) (meas : Measure ℝ) (x : List ℝ) :
    List (UpdateSched × List ℝ × List ℝ) → (Nat → Copies) → Res (Nat → Copies)
  | [], F => .ok F
  | (sc, u, z) :: l, F => do
    let F ← updateProblem M meas x sc u z F
    updates M meas x l F

/-- The criterion with its four evaluators. -/
noncomputable def augLagCriterion (M : FeModel) (measR : Measure ℝ) (measX measU measZ : Measure Fad) (F : Nat → Copies)
    (eR eX eU eZ : Nat → List Nat) (sv sx su sz : Sched) : Criterion :=
  physicsCriterion M (augLagEval id id Plato.simp M.npc measR (fun k => (F k).value) eR)
    (augLagEval Fad.val Fad.const simpFad M.npc measX (fun k => (F k).gradX) eX)
    (augLagEval Fad.val Fad.const simpFad M.npc measU (fun k => (F k).gradU) eU)
    (augLagEval Fad.val Fad.const simpFad M.npc measZ (fun k => (F k).gradZ) eZ) Post.none sv sx su sz

/-! ## The criterion with mass multipliers -/

/-- State of `AugLagStressCriterion` of a cell: Lagrange multiplier, mass multiplier. -/
structure StressCell where
  lam : ℝ
  mass : ℝ

/-- Body of the loop of `updateMultipliers`, /repo/src/Plato_AugLagStressCriterion.hpp:447-489: `over` is the
von Mises stress divided by the limit, `rho` the density. -/
noncomputable def stressUpdateCell (m : PenaltyData) (penalty lower upper over rho : ℝ) (s : StressCell) : StressCell :=
  let measure := over * rho ^ (1 / 2 : ℝ)
  let one := 7 / 10 * s.mass - 1 / 10
  let two := 5 / 2 * s.mass + 1 / 2
  let mass := if measure > 1 then max one lower else min two upper
  let c := if over > 1 then Plato.simp m rho * (over - 1) * (over - 1) else 0
  let relaxed := max c (-1 * s.lam / penalty)
  ⟨max (s.lam + penalty * relaxed) 0, mass⟩

/-- `updateAugLagPenaltyMultipliers`, /repo/src/Plato_AugLagStressCriterion.hpp:125-130: penalty and upper
bound of the mass multipliers. -/
noncomputable def stressUpdatePenalty (expansion bound reduction : ℝ) (p : ℝ × ℝ) : ℝ × ℝ :=
  (min (expansion * p.1) bound, p.2 * reduction)

/-- `updateProblem` for one cell, /repo/src/Plato_AugLagStressCriterion.hpp:310-316, along a history of stresses
(over the limit) and densities.  The state is the cell, the penalty and the upper bound. -/
noncomputable def stressUpdates (m : PenaltyData) (lower expansion bound reduction : ℝ) :
    List (ℝ × ℝ) → StressCell × ℝ × ℝ → StressCell × ℝ × ℝ
  | [], s => s
  | (over, rho) :: l, (c, p) => stressUpdates m lower expansion bound reduction l
      (stressUpdateCell m p.1 lower p.2 over rho c, stressUpdatePenalty expansion bound reduction p)

/-- `cell_mass`, /repo/src/Plato_TopOptFunctors.hpp:23-41. -/
def cellMass {R : Type} [CommRing R] (npc c : Nat) (basis : List R) (control : V2 R) : Res R :=
  forRange 0 npc 0 fun i m => do
    let nodal ← forRange 0 npc 0 fun j s => do
      let a ← rd basis i
      let b ← rd basis j
      let z ← vrd2 control c j
      pure (s + a * b * z)
    pure (m + nodal)

/-- `computeStructuralMass`, /repo/src/Plato_AugLagStressCriterion.hpp:495-521: configuration workset of the
first `n` cells of the mesh (`workset_config_scalar` without a domain, /repo/src/Assembly.hpp:1009-1168), `n`
the number of cells of the domain; sum of the cell masses at density one. -/
noncomputable def structuralMass (M : FeModel) (weight density : ℝ) (basis : List ℝ) (n : Nat) (x : List ℝ)
    (cfg order : List Nat) (chunks : List (List Nat)) : Res ℝ := do
  let g ← worksetConfig plainOf M.npc M.dim M.c2n none x cfg ⟨n, M.npc, M.dim, fun _ _ _ => 0⟩
  let m ← parFor order (List.replicate n 0) fun c r => do
    let v ← computeCellVolume abs M.dim c g
    let a ← cellMass M.npc c basis ⟨n, M.npc, fun _ _ => 1⟩
    wr r c (a * density * v * weight)
  localResultSum chunks m

end Plato.Crit
