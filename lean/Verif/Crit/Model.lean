import Verif.Common.Res
import Verif.Blas.Model
import Mathlib.Data.Real.Basic
import Mathlib.Algebra.Order.Floor.Ring
import Mathlib.Algebra.Order.Archimedean.Real.Basic
import Mathlib.Analysis.Real.Sqrt

/-!
# Model of the composite criteria

/repo/src/elliptic/{WeightedSumFunction,DivisionFunction,LeastSquaresFunction,SolutionFunction}.hpp and
their copies without a state in /repo/src/geometric.

A criterion answers four questions: its value and its gradients with respect to configuration, state
and control.  The configuration is read from the mesh; it is an argument `x` here.  A solution is the
list of the states of all steps.

Simplifications: numbers are real; `std::vector` and Kokkos views are lists; console output is left
out; `mFunctionName` and the data map are left out; the criteria found by the factory are given.
-/

namespace Plato.Crit
open Plato

/-- `Plato::Elliptic::ScalarFunctionBase`, /repo/src/elliptic/ScalarFunctionBase.hpp:25-90.  Arguments:
states, control, coordinates, (step index,) time step. -/
structure Criterion where
  /-- `value` -/
  value : List (List ℝ) → List ℝ → List ℝ → ℝ → Res ℝ
  /-- `gradient_x` -/
  gradX : List (List ℝ) → List ℝ → List ℝ → ℝ → Res (List ℝ)
  /-- `gradient_u` -/
  gradU : List (List ℝ) → List ℝ → List ℝ → Int → ℝ → Res (List ℝ)
  /-- `gradient_z` -/
  gradZ : List (List ℝ) → List ℝ → List ℝ → ℝ → Res (List ℝ)

/-- `Plato::Geometric::ScalarFunctionBase`, /repo/src/geometric/ScalarFunctionBase.hpp. -/
structure GeoCriterion where
  /-- `value` -/
  value : List ℝ → List ℝ → Res ℝ
  /-- `gradient_x` -/
  gradX : List ℝ → List ℝ → Res (List ℝ)
  /-- `gradient_z` -/
  gradZ : List ℝ → List ℝ → Res (List ℝ)

/-- Implicit conversion of `Plato::Scalar` to `Plato::OrdinalType`: truncation. -/
noncomputable def toOrdinal (t : ℝ) : Int := if 0 ≤ t then ⌊t⌋ else ⌈t⌉

/-! ## Weighted sums -/

/-- The entries of the parameter list of one criterion that the constructors read. -/
structure CritParams where
  /-- `Functions` -/
  functions : Option (List String) := none
  /-- `Weights` -/
  weights : Option (List ℝ) := none
  /-- `Gold Values` -/
  gold : Option (List ℝ) := none
  /-- `Numerator` -/
  numerator : Option String := none
  /-- `Denominator` -/
  denominator : Option String := none

/-- The parameter lists of the problem: section, criterion, entries.  `ParameterList::sublist` creates
an empty list when there is none. -/
abbrev Params := String → String → CritParams

/-- `ParameterList::get` without default. -/
def get {α : Type} (what : String) : Option α → Res α
  | some a => .ok a
  | none => throwErr ("The parameter \"" ++ what ++ "\" does not exist")

/-- `WeightedSumFunction::initialize`, /repo/src/geometric/WeightedSumFunction.hpp:51-82 and
/repo/src/elliptic/WeightedSumFunction.hpp:56-89; `create` is the factory. -/
def weightedInit {α : Type} (p : Params) (name : String) (create : String → Res α) :
    Res (List α × List ℝ) := do
  let names ← get "Functions" (p "Criteria" name).functions
  let ws ← get "Weights" (p "Criteria" name).weights
  if names.length ≠ ws.length then
    throwErr "Number of 'Functions' does not equal the number of 'Weights'"
  else
    forRange 0 names.length (([], []) : List α × List ℝ) fun i s => do
      let nm ← rd names i
      let f ← create nm
      let w ← rd ws i
      pure (s.1 ++ [f], s.2 ++ [w])

/-- `DivisionFunction::initialize`, /repo/src/geometric/DivisionFunction.hpp:44-61 and
/repo/src/elliptic/DivisionFunction.hpp:45-62. -/
def divisionInit {α : Type} (p : Params) (name : String) (create : String → Res α) : Res (α × α) := do
  let num ← get "Numerator" (p "Criteria" name).numerator
  let den ← get "Denominator" (p "Criteria" name).denominator
  let f ← create num
  let h ← create den
  pure (f, h)

/-- The loop of `value`, /repo/src/geometric/WeightedSumFunction.hpp:159-171 and
/repo/src/elliptic/WeightedSumFunction.hpp:167-181; `val i` evaluates function `i`. -/
noncomputable def weightedValue (n : Nat) (ws : List ℝ) (val : Nat → Res ℝ) : Res ℝ :=
  forRange 0 n 0 fun i r => do
    let w ← rd ws i
    let v ← val i
    pure (r + w * v)

/-- The loop of the gradients, /repo/src/geometric/WeightedSumFunction.hpp:178-192 and 199-213,
/repo/src/elliptic/WeightedSumFunction.hpp:190-206, 215-232 and 241-257. -/
noncomputable def weightedGrad (n m : Nat) (ws : List ℝ) (sch : Nat → List Nat) (grad : Nat → Res (List ℝ)) :
    Res (List ℝ) :=
  forRange 0 n (List.replicate m 0) fun i g => do
    let w ← rd ws i
    let gi ← grad i
    parFor (sch i) g fun q g => do
      let a ← rd g q
      let b ← rd gi q
      wr g q (a + w * b)

/-- `Elliptic::WeightedSumFunction`, /repo/src/elliptic/WeightedSumFunction.hpp:167-257.  `nx`, `nu`,
`nz` are the numbers of configuration, state and control variables.  `gradient_u` hands its time step
to a function whose third argument is the step index. -/
noncomputable def weightedSum (fs : List Criterion) (ws : List ℝ) (nx nu nz : Nat) (sch : Nat → List Nat) :
    Criterion where
  value s z x dt := weightedValue fs.length ws fun i => do
    let f ← rd fs i
    f.value s z x dt
  gradX s z x dt := weightedGrad fs.length nx ws sch fun i => do
    let f ← rd fs i
    f.gradX s z x dt
  gradU s z x _ dt := weightedGrad fs.length nu ws sch fun i => do
    let f ← rd fs i
    f.gradU s z x (toOrdinal dt) 0
  gradZ s z x dt := weightedGrad fs.length nz ws sch fun i => do
    let f ← rd fs i
    f.gradZ s z x dt

/-- `Geometric::WeightedSumFunction`, /repo/src/geometric/WeightedSumFunction.hpp:159-213. -/
noncomputable def geoWeightedSum (fs : List GeoCriterion) (ws : List ℝ) (nx nz : Nat) (sch : Nat → List Nat) :
    GeoCriterion where
  value z x := weightedValue fs.length ws fun i => do
    let f ← rd fs i
    f.value z x
  gradX z x := weightedGrad fs.length nx ws sch fun i => do
    let f ← rd fs i
    f.gradX z x
  gradZ z x := weightedGrad fs.length nz ws sch fun i => do
    let f ← rd fs i
    f.gradZ z x

/-! ## Quotients -/

/-- `DivisionFunction::value`, /repo/src/geometric/DivisionFunction.hpp:135-146 and
/repo/src/elliptic/DivisionFunction.hpp:139-153. -/
noncomputable def quotValue (num den : Res ℝ) : Res ℝ := do
  let a ← num
  let b ← den
  let r := a / b
  if b = 0 then throwErr "Denominator of division function evaluated to 0!" else pure r

/-- The gradients of `DivisionFunction`, /repo/src/geometric/DivisionFunction.hpp:154-197 and
/repo/src/elliptic/DivisionFunction.hpp:162-243. -/
noncomputable def quotGrad (m : Nat) (order : List Nat) (num den : Res ℝ) (gnum gden : Res (List ℝ)) :
    Res (List ℝ) := do
  let a ← num
  let b ← den
  let ga ← gnum
  let gb ← gden
  parFor order (List.replicate m 0) fun q g => do
    let x ← rd ga q
    let y ← rd gb q
    wr g q ((x * b - y * a) / b ^ 2)

/-- `Elliptic::DivisionFunction`, /repo/src/elliptic/DivisionFunction.hpp:139-243. -/
noncomputable def division (f h : Criterion) (nx nu nz : Nat) (order : List Nat) : Criterion where
  value s z x dt := quotValue (f.value s z x dt) (h.value s z x dt)
  gradX s z x dt := quotGrad nx order (f.value s z x dt) (h.value s z x dt) (f.gradX s z x dt) (h.gradX s z x dt)
  gradU s z x _ dt := quotGrad nu order (f.value s z x dt) (h.value s z x dt)
    (f.gradU s z x (toOrdinal dt) 0) (h.gradU s z x (toOrdinal dt) 0)
  gradZ s z x dt := quotGrad nz order (f.value s z x dt) (h.value s z x dt) (f.gradZ s z x dt) (h.gradZ s z x dt)

/-- `Geometric::DivisionFunction`, /repo/src/geometric/DivisionFunction.hpp:135-197. -/
noncomputable def geoDivision (f h : GeoCriterion) (nx nz : Nat) (order : List Nat) : GeoCriterion where
  value z x := quotValue (f.value z x) (h.value z x)
  gradX z x := quotGrad nx order (f.value z x) (h.value z x) (f.gradX z x) (h.gradX z x)
  gradZ z x := quotGrad nz order (f.value z x) (h.value z x) (f.gradZ z x) (h.gradZ z x)

/-! ## Least squares -/

/-- The data of `LeastSquaresFunction`: weights, gold values, normalisations and the flag
`mGradientWRTStateIsZero`. -/
structure LeastSquares where
  /-- `mFunctionWeights` -/
  weights : List ℝ
  /-- `mFunctionGoldValues` -/
  gold : List ℝ
  /-- `mFunctionNormalization` -/
  scale : List ℝ
  /-- `mGradientWRTStateIsZero` -/
  stateZero : Bool := false

/-- `mFunctionNormalizationCutoff`, /repo/src/geometric/LeastSquaresFunction.hpp:46 and
/repo/src/elliptic/LeastSquaresFunction.hpp:48. -/
noncomputable def cutoff : ℝ := 1 / 10

/-- `appendGoldFunctionValue`, /repo/src/elliptic/LeastSquaresFunction.hpp:153-164. -/
noncomputable def LeastSquares.appendGold (L : LeastSquares) (g : ℝ) (useAsScale : Bool := true) : LeastSquares :=
  let L := ⟨L.weights, L.gold ++ [g], L.scale, L.stateZero⟩
  if useAsScale then
    ⟨L.weights, L.gold, L.scale ++ [if |g| > cutoff then |g| else 1], L.stateZero⟩
  else L

/-- `appendFunctionNormalization`, /repo/src/elliptic/LeastSquaresFunction.hpp:170-177. -/
noncomputable def LeastSquares.appendScale (L : LeastSquares) (s : ℝ) : LeastSquares :=
  ⟨L.weights, L.gold, L.scale ++ [if |s| > cutoff then |s| else cutoff], L.stateZero⟩

/-- `appendFunctionWeight`, /repo/src/elliptic/LeastSquaresFunction.hpp:143-146. -/
def LeastSquares.appendWeight (L : LeastSquares) (w : ℝ) : LeastSquares :=
  ⟨L.weights ++ [w], L.gold, L.scale, L.stateZero⟩

/-- `LeastSquaresFunction::initialize`, /repo/src/elliptic/LeastSquaresFunction.hpp:53-99 with `sec`
equal to `Criterial` and /repo/src/geometric/LeastSquaresFunction.hpp:52-98 with `sec` equal to
`Criteria`. -/
noncomputable def leastInit {α : Type} (sec : String) (p : Params) (name : String) (create : String → Res α) :
    Res (List α × LeastSquares) := do
  let names ← get "Functions" (p sec name).functions
  let ws ← get "Weights" (p sec name).weights
  let gold ← get "Gold Values" (p sec name).gold
  if names.length ≠ ws.length then
    throwErr "Number of 'Functions' does not equal the number of 'Weights'"
  else if names.length ≠ gold.length then
    throwErr "Number of 'Gold Values' does not equal the number of 'Functions'"
  else
    forRange 0 names.length (([], ⟨[], [], [], false⟩) : List α × LeastSquares) fun i s => do
      let nm ← rd names i
      let f ← create nm
      let w ← rd ws i
      let g ← rd gold i
      pure (s.1 ++ [f], (s.2.appendWeight w).appendGold g)

/-- The constructor of the elliptic least squares function, /repo/src/elliptic/LeastSquaresFunction.hpp:65:
the section is misspelt. -/
noncomputable def ellipticLeastInit {α : Type} (p : Params) (name : String) (create : String → Res α) :
    Res (List α × LeastSquares) := leastInit "Criterial" p name create

/-- The constructor of the geometric least squares function, /repo/src/geometric/LeastSquaresFunction.hpp:64. -/
noncomputable def geoLeastInit {α : Type} (p : Params) (name : String) (create : String → Res α) :
    Res (List α × LeastSquares) := leastInit "Criteria" p name create

/-- The loop of `value`, /repo/src/elliptic/LeastSquaresFunction.hpp:209-241 and
/repo/src/geometric/LeastSquaresFunction.hpp:204-234. -/
noncomputable def leastValue (n : Nat) (L : LeastSquares) (val : Nat → Res ℝ) : Res ℝ :=
  forRange 0 n 0 fun i r => do
    let w ← rd L.weights i
    let g ← rd L.gold i
    let c ← rd L.scale i
    let v ← val i
    pure (r + w * ((v - g) / c) ^ 2)

/-- The loop of the gradients, /repo/src/elliptic/LeastSquaresFunction.hpp:250-270, 279-308 and
316-336, /repo/src/geometric/LeastSquaresFunction.hpp:241-284. -/
noncomputable def leastGrad (n m : Nat) (L : LeastSquares) (sch : Nat → List Nat) (val : Nat → Res ℝ)
    (grad : Nat → Res (List ℝ)) : Res (List ℝ) :=
  forRange 0 n (List.replicate m 0) fun i g => do
    let w ← rd L.weights i
    let gold ← rd L.gold i
    let c ← rd L.scale i
    let v ← val i
    let gi ← grad i
    parFor (sch i) g fun q g => do
      let a ← rd g q
      let b ← rd gi q
      wr g q (a + 2 * w * (v - gold) * b / (c * c))

/-- `Elliptic::LeastSquaresFunction`, /repo/src/elliptic/LeastSquaresFunction.hpp:209-336. -/
noncomputable def leastSquares (fs : List Criterion) (L : LeastSquares) (nx nu nz : Nat) (sch : Nat → List Nat) :
    Criterion where
  value s z x dt := leastValue fs.length L fun i => do
    let f ← rd fs i
    f.value s z x dt
  gradX s z x dt := leastGrad fs.length nx L sch (fun i => do let f ← rd fs i; f.value s z x dt) fun i => do
    let f ← rd fs i
    f.gradX s z x dt
  gradU s z x _ dt := if L.stateZero then .ok (List.replicate nu 0) else
    leastGrad fs.length nu L sch (fun i => do let f ← rd fs i; f.value s z x dt) fun i => do
      let f ← rd fs i
      f.gradU s z x (toOrdinal dt) 0
  gradZ s z x dt := leastGrad fs.length nz L sch (fun i => do let f ← rd fs i; f.value s z x dt) fun i => do
    let f ← rd fs i
    f.gradZ s z x dt

/-- `Geometric::LeastSquaresFunction`, /repo/src/geometric/LeastSquaresFunction.hpp:204-284. -/
noncomputable def geoLeastSquares (fs : List GeoCriterion) (L : LeastSquares) (nx nz : Nat) (sch : Nat → List Nat) :
    GeoCriterion where
  value z x := leastValue fs.length L fun i => do
    let f ← rd fs i
    f.value z x
  gradX z x := leastGrad fs.length nx L sch (fun i => do let f ← rd fs i; f.value z x) fun i => do
    let f ← rd fs i
    f.gradX z x
  gradZ z x := leastGrad fs.length nz L sch (fun i => do let f ← rd fs i; f.value z x) fun i => do
    let f ← rd fs i
    f.gradZ z x

/-! ## Averages of the solution over a node set -/

/-- `SolutionFunction`: direction, node set, magnitude flag. -/
structure Solution where
  /-- `mNormal` -/
  normal : List ℝ
  /-- the node ordinals of the set `mDomainName` -/
  nodes : List Nat
  /-- `mMagnitude` -/
  magnitude : Bool

/-- The direction read by `initialize`, /repo/src/elliptic/SolutionFunction.hpp:60-110, with
`mNormal{0.0}` of line 140. -/
noncomputable def solutionNormal (nd : Nat) : Option (List ℝ) → Res (List ℝ)
  | none => if nd ≠ 1 then throwErr "Parsing 'Solution' criterion:  'Normal' parameter missing."
      else .ok [1]
  | some a => forRange 0 (min a.length nd) (List.replicate nd 0) fun i v => do
      let b ← rd a i
      wr v i b

/-- The local length of lines 178-186 and 259-267. -/
noncomputable def nodeLength (S : Solution) (u : List ℝ) (node : Nat) : Res ℝ := do
  let ds ← forRange 0 S.normal.length 0 fun i ds => do
    let n ← rd S.normal i
    let dv ← rd u (S.normal.length * node + i)
    pure (ds + (n * dv) * (n * dv))
  pure (if ds > 0 then Real.sqrt ds else ds)

/-- The local sum of lines 196-203. -/
noncomputable def nodeSum (S : Solution) (u : List ℝ) (node : Nat) (s : ℝ) : Res ℝ :=
  forRange 0 S.normal.length s fun i r => do
    let n ← rd S.normal i
    let dv ← rd u (S.normal.length * node + i)
    pure (r + n * dv)

/-- One iteration of the reduction of `value`. -/
noncomputable def nodeTerm (S : Solution) (u : List ℝ) (q : Nat) (s : ℝ) : Res ℝ := do
  let node ← rd S.nodes q
  if S.magnitude then
    let ds ← nodeLength S u node
    pure (s + ds)
  else nodeSum S u node s

/-- `SolutionFunction::value`, /repo/src/elliptic/SolutionFunction.hpp:153-210: the last state.  The
reduction runs in chunks `ch`. -/
noncomputable def Solution.value (S : Solution) (ch : List (List Nat)) (states : List (List ℝ)) : Res ℝ := do
  let u ← rd states (states.length - 1)
  let r ← parReduce ch 0 (· + ·) (nodeTerm S u)
  pure (r / (S.nodes.length : ℝ))

/-- One iteration of the loop of `gradient_u`, lines 255-280 and 288-293. -/
noncomputable def nodeGrad (S : Solution) (u : List ℝ) (q : Nat) (g : List ℝ) : Res (List ℝ) := do
  let node ← rd S.nodes q
  if S.magnitude then
    let ds ← nodeLength S u node
    forRange 0 S.normal.length g fun i g => do
      let n ← rd S.normal i
      let dv ← rd u (S.normal.length * node + i)
      wr g (S.normal.length * node + i) (if ds ≠ 0 then n * (n * dv) / (ds * (S.nodes.length : ℝ)) else 0)
  else
    forRange 0 S.normal.length g fun i g => do
      let n ← rd S.normal i
      wr g (S.normal.length * node + i) (n / (S.nodes.length : ℝ))

/-- `SolutionFunction::gradient_u`, /repo/src/elliptic/SolutionFunction.hpp:236-298: the state of step
`step`. -/
noncomputable def Solution.gradU (S : Solution) (nu : Nat) (order : List Nat) (states : List (List ℝ))
    (step : Int) : Res (List ℝ) := do
  let u ← if step < 0 then .ub else rd states step.toNat
  parFor order (List.replicate nu 0) (nodeGrad S u)

/-- `Elliptic::SolutionFunction`, /repo/src/elliptic/SolutionFunction.hpp:153-318. -/
noncomputable def solutionCrit (S : Solution) (nx nu nz : Nat) (ch : List (List Nat)) (order : List Nat) :
    Criterion where
  value s _ _ _ := S.value ch s
  gradX _ _ _ _ := .ok (List.replicate nx 0)
  gradU s _ _ k _ := S.gradU nu order s k
  gradZ _ _ _ _ := .ok (List.replicate nz 0)

end Plato.Crit
