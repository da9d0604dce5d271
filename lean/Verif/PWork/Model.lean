import Verif.Plast.Model
import Verif.Crit.PhysicsModel
import Verif.Blas.Model

/-!
# Model of the criteria of plasticity

Modelled sources in `/repo/src`: `ElasticWorkCriterion.hpp` and `PlasticWorkCriterion.hpp` (`evaluate`),
`J2PlasticityUtilities.hpp` (`computePlasticStrainMisfit`), `BasicLocalScalarFunction.hpp` (`value`, the six
gradients), `WeightedLocalScalarFunction.hpp` (`value`, the six gradients), `Assembly.hpp`
(`transform_ad_type_to_pod_2Dview` for a domain) and from `PlasticityProblem.hpp` `getPreviousState`,
`evaluateCriterion`, `addCriterionPartialDerivativeZ` and `addCriterionPartialDerivativeX`.

Simplifications: one scalar type; the function `MSIMP` (Simp.hpp) is a parameter; the copy of the value that
`value` leaves in the data map for output is left out; evaluators are found by position of the domain instead
of by name.
-/

namespace Plato.PWork
open Plato Plato.Mech Plato.J2 Plato.Plast

variable {R : Type} [CommRing R]

/-- Members of the criteria (ElasticWorkCriterion.hpp:69-81, PlasticWorkCriterion.hpp:70-82).  `plastic` tells
`PlasticWorkCriterion` from `ElasticWorkCriterion`.  Of the material `mat` the fields of the local residual are
not used. -/
structure WorkCrit (R : Type) where
  mat : J2 R
  plastic : Bool
  cubWeight : R
  bulk : R
  pen : R → R

/-- Views of a call, ElasticWorkCriterion.hpp:184-199, PlasticWorkCriterion.hpp:177-190. -/
structure WViews (R : Type) where
  vol : List R
  grad : V3 R
  prevTotal : V2 R
  prevElastic : V2 R
  prevCauchy : V2 R
  total : V2 R
  elastic : V2 R
  cauchy : V2 R
  avg : V2 R
  misfit : V2 R

/-- Views are allocated with zeros. -/
def WViews.new (d nc : Nat) : WViews R where
  vol := List.replicate nc 0
  grad := ⟨nc, d + 1, d, fun _ _ _ => 0⟩
  prevTotal := ⟨nc, stressTerms d, fun _ _ => 0⟩
  prevElastic := ⟨nc, stressTerms d, fun _ _ => 0⟩
  prevCauchy := ⟨nc, stressTerms d, fun _ _ => 0⟩
  total := ⟨nc, stressTerms d, fun _ _ => 0⟩
  elastic := ⟨nc, stressTerms d, fun _ _ => 0⟩
  cauchy := ⟨nc, stressTerms d, fun _ _ => 0⟩
  avg := ⟨nc, stressTerms d, fun _ _ => 0⟩
  misfit := ⟨nc, stressTerms d, fun _ _ => 0⟩

/-- `computePlasticStrainMisfit`, J2PlasticityUtilities.hpp:436-441 and 466-469: component and component of the
local states. -/
def misfitTable (d : Nat) : List (Nat × Nat) :=
  if d = 2 then [(0, 2), (1, 3), (2, 4), (3, 5)] else [(0, 2), (1, 3), (2, 4), (3, 5), (4, 6), (5, 7)]

/-- `computePlasticStrainMisfit`, J2PlasticityUtilities.hpp:431-442 and 461-470. -/
def plasticMisfit (d cell : Nat) (one two out : V2 R) : Res (V2 R) :=
  (misfitTable d).foldlM (fun y (i : Nat × Nat) => do
    let a ← vrd2 one cell i.2
    let b ← vrd2 two cell i.2
    vwr2 y cell i.1 (a - b)) out

/-- Difference of the elastic strains, ElasticWorkCriterion.hpp:226-227. -/
def elasticMisfit (n cell : Nat) (one two out : V2 R) : Res (V2 R) :=
  forRange 0 n out fun t y => do
    let a ← vrd2 one cell t
    let b ← vrd2 two cell t
    vwr2 y cell t (a - b)

/-- Mean of the stresses, ElasticWorkCriterion.hpp:238-240, PlasticWorkCriterion.hpp:230-232. -/
def average [Div R] (n cell : Nat) (one two out : V2 R) : Res (V2 R) :=
  forRange 0 n out fun t y => do
    let a ← vrd2 one cell t
    let b ← vrd2 two cell t
    vwr2 y cell t (1 / 2 * (a + b))

/-- Double dot product, times the volume, ElasticWorkCriterion.hpp:242-246, PlasticWorkCriterion.hpp:234-238. -/
def doubleDot (n cell : Nat) (stress strn : V2 R) (vol out : List R) : Res (List R) := do
  let out ← wr out cell 0
  let out ← forRange 0 n out fun t y => do
    let a ← vrd2 stress cell t
    let b ← vrd2 strn cell t
    let s ← rd y cell
    wr y cell (s + a * b)
  let v ← rd vol cell
  let s ← rd out cell
  wr out cell (s * v)

variable [Div R]

/-- Geometry and strains, ElasticWorkCriterion.hpp:212-227, PlasticWorkCriterion.hpp:202-218. -/
def WorkCrit.kin (P : WorkCrit R) (fabs : R → R) (w : LocalWs R) (cell : Nat) (v : WViews R) : Res (WViews R) := do
  let (g, vol) ← computeGradient fabs P.mat.d cell v.grad w.config v.vol
  let a ← rd vol cell
  let vol ← wr vol cell (a * P.cubWeight)
  let mis ← (if P.plastic then plasticMisfit P.mat.d cell w.locl w.prevLocl v.misfit else pure v.misfit : Res (V2 R))
  let pt ← strain P.mat.d P.mat.ndof cell v.prevTotal w.prevGlobal g
  let pe ← elasticStrain P.mat cell w.prevGlobal w.prevLocl pt v.prevElastic
  let t ← strain P.mat.d P.mat.ndof cell v.total w.global g
  let e ← elasticStrain P.mat cell w.global w.locl t v.elastic
  let mis ← (if P.plastic then pure mis else elasticMisfit (stressTerms P.mat.d) cell e pe mis : Res (V2 R))
  pure { v with grad := g, vol := vol, misfit := mis, prevTotal := pt, prevElastic := pe, total := t, elastic := e }

/-- Body of the loop, ElasticWorkCriterion.hpp:210-247, PlasticWorkCriterion.hpp:200-239. -/
def WorkCrit.cellBody (P : WorkCrit R) (fabs : R → R) (w : LocalWs R) (cell : Nat) (s : WViews R × List R) :
    Res (WViews R × List R) := do
  let v ← P.kin fabs w cell s.1
  let rho ← cellDensity (P.mat.d + 1) cell w.control
  let pen := P.pen rho
  let pc ← cauchyStress P.mat.d cell (pen * P.bulk) (pen * P.mat.shear) v.prevElastic v.prevCauchy
  let c ← cauchyStress P.mat.d cell (pen * P.bulk) (pen * P.mat.shear) v.elastic v.cauchy
  let avg ← average (stressTerms P.mat.d) cell c pc v.avg
  let out ← doubleDot (stressTerms P.mat.d) cell avg v.misfit v.vol s.2
  pure ({ v with prevCauchy := pc, cauchy := c, avg := avg }, out)

/-- `evaluate`, ElasticWorkCriterion.hpp:157-248, PlasticWorkCriterion.hpp:157-240. -/
def WorkCrit.evaluate (P : WorkCrit R) (fabs : R → R) (order : List Nat) (nc : Nat) (w : LocalWs R)
    (result : List R) : Res (List R) := do
  let (_, out) ← parFor order (WViews.new P.mat.d nc, result) (P.cellBody fabs w)
  pure out

/-! ## The function of a criterion -/

section Function
omit [CommRing R] [Div R]

/-- A criterion for each domain: `mValueFunctions`, ... -/
abbrev WorkEv (R : Type) := Nat → LocalWs R → List R → Res (List R)

/-- Worksets, fresh result and evaluation. -/
def scalarResults [Zero R] (M : FeModel) (nl : Nat) (mk : Makers ℝ R) (ev : WorkEv R) (cells : List Nat) (k : Nat)
    (sch : Nat → List Nat) (A : Args ℝ) : Res (List R) := do
  let w ← localWs M nl mk (some cells) cells sch A
  ev k w (List.replicate cells.length 0)

/-- `BasicLocalScalarFunction::value`, BasicLocalScalarFunction.hpp:152-216.  `chunks k` are the chunks of the
reduction over the cells of domain `k`. -/
def basicValue (M : FeModel) (nl : Nat) (ev : WorkEv ℝ) (mult : ℝ) (sch : Nat → Nat → List Nat)
    (chunks : Nat → List (List Nat)) (A : Args ℝ) : Res ℝ := do
  let s ← overCells M (fun cells k s => do
    let r ← scalarResults M nl plainMk ev cells k (sch k) A
    let a ← Crit.localResultSum (chunks k) r
    pure (s + a)) 0
  pure (mult * s)

/-- `transform_ad_type_to_pod_2Dview` for a domain, Assembly.hpp:212-240. -/
noncomputable def toPod2 (cols : Nat) (cells : List Nat) (input : List Fad) (order : List Nat) (out : V2 ℝ) :
    Res (V2 ℝ) :=
  if input.length ≠ cells.length then
    throwErr "Dimension mismatch, input container and domain have different number of rows."
  else if cols ≠ out.d1 then
    throwErr "Input number of degrees of freedom does not match the number of columns in output container."
  else parFor order out fun cell out => do
    let gc ← rd cells cell
    forRange 0 cols out fun j out => do
      let a ← rd input cell
      vwr2 out gc j (a.dx j)

/-- The six gradients of `BasicLocalScalarFunction`: `width` is the number of columns of the result, `cols` the
template argument of the conversion.  `o` is the order of the loop of `blas2::scale`. -/
noncomputable def basicGradient (M : FeModel) (nl width cols : Nat) (mk : Makers ℝ Fad) (ev : WorkEv Fad) (mult : ℝ)
    (sch : Nat → Nat → List Nat) (o : List Nat) (A : Args ℝ) : Res (V2 ℝ) := do
  let g ← overCells M (fun cells k J => do
    let r ← scalarResults M nl mk ev cells k (sch k) A
    toPod2 cols cells r (sch k 6) J) ⟨M.nc, width, fun _ _ => 0⟩
  blas2.scale o mult g

/-- `gradient_z`, BasicLocalScalarFunction.hpp:228-297. -/
noncomputable def gradientZ (M : FeModel) (nl : Nat) :=
  basicGradient M nl M.npc M.npc ⟨constOf, constOf, constOf, constOf, seedOf, constOf⟩

/-- `gradient_u`, BasicLocalScalarFunction.hpp:303-369. -/
noncomputable def gradientU (M : FeModel) (nl : Nat) :=
  basicGradient M nl (M.npc * M.ndof) (M.npc * M.ndof) ⟨seedOf, constOf, constOf, constOf, constOf, constOf⟩

/-- `gradient_up`, BasicLocalScalarFunction.hpp:378-444. -/
noncomputable def gradientUp (M : FeModel) (nl : Nat) :=
  basicGradient M nl (M.npc * M.ndof) (M.npc * M.ndof) ⟨constOf, seedOf, constOf, constOf, constOf, constOf⟩

/-- `gradient_c`, BasicLocalScalarFunction.hpp:453-517. -/
noncomputable def gradientC (M : FeModel) (nl : Nat) :=
  basicGradient M nl nl nl ⟨constOf, constOf, seedOf, constOf, constOf, constOf⟩

/-- `gradient_cp`, BasicLocalScalarFunction.hpp:527-592. -/
noncomputable def gradientCp (M : FeModel) (nl : Nat) :=
  basicGradient M nl nl nl ⟨constOf, constOf, constOf, seedOf, constOf, constOf⟩

/-- `gradient_x`, BasicLocalScalarFunction.hpp:602-665: the result has a column for each coordinate of each node,
the template argument of the conversion is the number of spatial dimensions. -/
noncomputable def gradientX (M : FeModel) (nl : Nat) :=
  basicGradient M nl (M.npc * M.dim) M.dim ⟨constOf, constOf, constOf, constOf, constOf, seedOf⟩

/-! ## Weighted sums -/

/-- `WeightedLocalScalarFunction::value`, WeightedLocalScalarFunction.hpp:240-283. -/
def weightedValue (fs : List (Args ℝ → Res ℝ)) (ws : List ℝ) (A : Args ℝ) : Res ℝ :=
  if fs.length = 0 then throwErr "LOCAL SCALAR FUNCTION CONTAINER IS EMPTY"
  else if fs.length ≠ ws.length then
    throwErr "DIMENSION MISMATCH: NUMBER OF LOCAL SCALAR FUNCTIONS DOES NOT MATCH THE NUMBER OF WEIGHTS"
  else forRange 0 fs.length 0 fun i s => do
    let w ← rd ws i
    let f ← rd fs i
    let v ← f A
    pure (s + w * v)

/-- The six gradients of `WeightedLocalScalarFunction`, WeightedLocalScalarFunction.hpp:299-319 and its copies.  `sch i` is the
order of the loop of `blas2::update` for the i-th function. -/
noncomputable def weightedGradient (n width : Nat) (fs : List (Args ℝ → Res (V2 ℝ))) (ws : List ℝ) (sch : Nat → List Nat)
    (A : Args ℝ) : Res (V2 ℝ) :=
  forRange 0 fs.length ⟨n, width, fun _ _ => 0⟩ fun i y => do
    let w ← rd ws i
    let f ← rd fs i
    let g ← f A
    blas2.update (sch i) w g 1 y

/-! ## Steps of a problem -/

/-- `getPreviousState`, PlasticityProblem.hpp:904-919: before the first step all unknowns are zero. -/
def previousState (states : List (List ℝ)) (k n : Nat) : Res (List ℝ) :=
  if k = 0 then .ok (List.replicate n 0) else rd states (k - 1)

/-- Arguments of step `k`. -/
def stepArgs (M : FeModel) (nl : Nat) (us cs : List (List ℝ)) (z x : List ℝ) (k : Nat) : Res (Args ℝ) := do
  let u ← rd us k
  let c ← rd cs k
  let cp ← previousState cs k (M.nc * nl)
  let up ← previousState us k (M.nn * M.ndof)
  pure ⟨u, up, c, cp, z, x⟩

/-- `evaluateCriterion`, PlasticityProblem.hpp:929-954. -/
def evaluateCriterion (M : FeModel) (nl steps : Nat) (val : Nat → Args ℝ → Res ℝ) (us cs : List (List ℝ))
    (z x : List ℝ) : Res ℝ :=
  forRange 0 steps 0 fun k s => do
    let A ← stepArgs M nl us cs z x k
    let v ← val k A
    pure (s + v)

/-- `addCriterionPartialDerivativeZ` (PlasticityProblem.hpp:963-983, `d = 1`) and `addCriterionPartialDerivativeX`
(992-1012, `d` the number of spatial dimensions), with `assembleScalarGradientZ` and `assembleVectorGradientX`. -/
noncomputable def addPartial (M : FeModel) (nl d steps : Nat) (grad : Nat → Args ℝ → Res (V2 ℝ)) (sch : Nat → List Nat)
    (us cs : List (List ℝ)) (z x : List ℝ) (g : List ℝ) : Res (List ℝ) :=
  forRange 0 steps g fun k g => do
    let A ← stepArgs M nl us cs z x k
    let J ← grad k A
    assembleResidual M.npc d M.c2n none M.nc ⟨J.d0, J.d1, J.e⟩ (sch k) g

end Function

end Plato.PWork
