import Verif.Crit.AugLagModel
import Verif.Simplex.Model
import Mathlib.LinearAlgebra.Matrix.Notation
import Mathlib.Data.String.Basic
import Mathlib.Data.List.Sort
import Mathlib.Data.List.Destutter

/-!
# Model of mass moments and of the mass properties criterion

/repo/src/geometric/MassMoment.hpp and /repo/src/geometric/MassPropertiesFunction.hpp, with the reading of
the input of their copies in /repo/src/elliptic.

Simplifications: numbers are real; assertions are compiled out, as in a release build; the evaluators
are found by position of the domain instead of by name; console output, function names and
`updateProblem` are left out.  The eigenvalue decomposition comes from another library
(`Omega_h::decompose_eigen_jacobi`): it is an argument.
-/

namespace Plato.Mass
open Plato Plato.Mech Plato.Crit

section Moment
variable {R : Type} [CommRing R] [Div R]

/-- `mapQuadraturePoint`, /repo/src/geometric/MassMoment.hpp:287-316: node `n < d` with the reference
coordinate `n`, the last node with the rest. -/
def mapPoint (d : Nat) (ref : List R) (x : V3 R) (order : List Nat) (pts : V2 R) : Res (V2 R) :=
  parFor order ⟨pts.d0, pts.d1, fun _ _ => 0⟩ fun c p => do
    let s ← forRange 0 d (p, (1 : R)) fun n s => do
      let v ← rd ref n
      let p ← forRange 0 d s.1 fun i p => do
        let a ← vrd3 x c n i
        accum2 p c i (v * a)
      pure (p, s.2 - v)
    forRange 0 d s.1 fun i p => do
      let a ← vrd3 x c d i
      accum2 p c i (s.2 * a)

/-- The part of the three loops before the moment arm, /repo/src/geometric/MassMoment.hpp:167-173,
213-221 and 265-275: mass, density and volume of a cell. -/
def massFactor (fabs : R → R) (d : Nat) (rule : CubRule R) (dens : R) (z : V2 R) (x : V3 R) (c : Nat) : Res R := do
  let v ← computeCellVolume fabs d c x
  let v := v * rule.weight
  let m ← cellMass (d + 1) c rule.basis z
  pure (m * dens * v)

/-- `computeStructuralMass`, /repo/src/geometric/MassMoment.hpp:147-176. -/
def structuralMass (fabs : R → R) (d : Nat) (rule : CubRule R) (dens : R) (sch : List Nat) (z : V2 R) (x : V3 R)
    (r : List R) : Res (List R) :=
  parFor sch r fun c r => do
    let m ← massFactor fabs d rule dens z x c
    wr r c m

/-- `computeFirstMoment`, /repo/src/geometric/MassMoment.hpp:185-224. -/
def firstMoment (fabs : R → R) (d : Nat) (rule : CubRule R) (dens : R) (sch : Nat → List Nat) (i : Nat) (z : V2 R)
    (x : V3 R) (r : List R) : Res (List R) := do
  let pts ← mapPoint d rule.coords x (sch 0) ⟨x.d0, d, fun _ _ => 0⟩
  parFor (sch 1) r fun c r => do
    let m ← massFactor fabs d rule dens z x c
    let a ← vrd2 pts c i
    wr r c (m * a)

/-- `computeSecondMoment`, /repo/src/geometric/MassMoment.hpp:235-278. -/
def secondMoment (fabs : R → R) (d : Nat) (rule : CubRule R) (dens : R) (sch : Nat → List Nat) (i j : Nat) (z : V2 R)
    (x : V3 R) (r : List R) : Res (List R) := do
  let pts ← mapPoint d rule.coords x (sch 0) ⟨x.d0, d, fun _ _ => 0⟩
  parFor (sch 1) r fun c r => do
    let m ← massFactor fabs d rule dens z x c
    let a ← vrd2 pts c i
    let b ← vrd2 pts c j
    wr r c (m * (a * b))

/-- `MassMoment::evaluate`, /repo/src/geometric/MassMoment.hpp:108-139 and
/repo/src/elliptic/MassMoment.hpp:111-144.  `dens k` is the density set for domain `k`. -/
def momentEval (fabs : R → R) (d : Nat) (rule : CubRule R) (dens : Nat → R) (type : String)
    (sch : Nat → Nat → List Nat) : ScalarEvaluator R := fun k _ z x r _ =>
  if type = "Mass" then structuralMass fabs d rule (dens k) (sch k 1) z x r
  else if type = "FirstX" then firstMoment fabs d rule (dens k) (sch k) 0 z x r
  else if type = "FirstY" then firstMoment fabs d rule (dens k) (sch k) 1 z x r
  else if type = "FirstZ" then firstMoment fabs d rule (dens k) (sch k) 2 z x r
  else if type = "SecondXX" then secondMoment fabs d rule (dens k) (sch k) 0 0 z x r
  else if type = "SecondYY" then secondMoment fabs d rule (dens k) (sch k) 1 1 z x r
  else if type = "SecondZZ" then secondMoment fabs d rule (dens k) (sch k) 2 2 z x r
  else if type = "SecondXY" then secondMoment fabs d rule (dens k) (sch k) 0 1 z x r
  else if type = "SecondXZ" then secondMoment fabs d rule (dens k) (sch k) 0 2 z x r
  else if type = "SecondYZ" then secondMoment fabs d rule (dens k) (sch k) 1 2 z x r
  else throwErr "Specified mass moment calculation type not implemented."

end Moment

/-- The constants of the rule in the type of automatic differentiation. -/
def liftRule (rule : CubRule ℝ) : CubRule Fad :=
  ⟨Fad.const rule.weight, rule.basis.map Fad.const, rule.coords.map Fad.const⟩

/-! ## The functions of which the criterion is made -/

/-- Orders of the loops of one scalar function: kernels of the evaluators for values and for the two
gradients, the loops around them, and the loops of composite functions over configuration and control. -/
structure Orders where
  /-- kernels of the evaluator of values: domain, kernel -/
  eR : Nat → Nat → List Nat
  /-- kernels of the evaluator of the gradient with respect to the configuration -/
  eX : Nat → Nat → List Nat
  /-- kernels of the evaluator of the gradient with respect to the control -/
  eZ : Nat → Nat → List Nat
  /-- loops around the evaluator of values -/
  sv : Sched
  /-- loops around the evaluator of the gradient with respect to the configuration -/
  sx : Sched
  /-- loops around the evaluator of the gradient with respect to the control -/
  sz : Sched
  /-- additions to the gradient with respect to the configuration, for each component -/
  ox : Nat → List Nat
  /-- additions to the gradient with respect to the control, for each component -/
  oz : Nat → List Nat

/-- Two criteria that differ in the order of the loops of their gradients. -/
def joinOrders (a b : GeoCriterion) : GeoCriterion := ⟨a.value, a.gradX, b.gradZ⟩

/-- What all functions share: model, rule, densities. -/
structure Body where
  /-- the model -/
  M : FeModel
  /-- `LinearTetCubRuleDegreeOne` -/
  rule : CubRule ℝ
  /-- `mMaterialDensities` of the domains -/
  dens : Nat → ℝ

/-- A `GeometryScalarFunction` with `MassMoment` evaluators for all domains: `getMassFunction`
(/repo/src/geometric/MassPropertiesFunction.hpp:434-466), the numerator of `getFirstMomentOverMassRatio`
(482-507) and `getSecondMassMoment` (529-566). -/
noncomputable def momentFn (B : Body) (type : String) (o : Orders) : GeoCriterion :=
  geometryCriterion B.M (momentEval abs B.M.dim B.rule B.dens type o.eR)
    (momentEval Fad.fabs B.M.dim (liftRule B.rule) (fun k => Fad.const (B.dens k)) type o.eX)
    (momentEval Fad.fabs B.M.dim (liftRule B.rule) (fun k => Fad.const (B.dens k)) type o.eZ) Post.none o.sv o.sx o.sz

/-- A `WeightedSumFunction` made by hand. -/
noncomputable def sumFn (B : Body) (fs : List GeoCriterion) (ws : List ℝ) (o : Orders) : GeoCriterion :=
  joinOrders (geoWeightedSum fs ws (B.M.nn * B.M.dim) B.M.nn o.ox) (geoWeightedSum fs ws (B.M.nn * B.M.dim) B.M.nn o.oz)

/-- `getFirstMomentOverMassRatio`, /repo/src/geometric/MassPropertiesFunction.hpp:474-521.  `o p` are the
orders of the function at position `p` of the tree of functions. -/
noncomputable def ratioFn (B : Body) (type : String) (o : List Nat → Orders) : GeoCriterion :=
  let num := momentFn B type (o [0])
  let den := momentFn B "Mass" (o [1])
  joinOrders (geoDivision num den (B.M.nn * B.M.dim) B.M.nn ((o []).ox 0))
    (geoDivision num den (B.M.nn * B.M.dim) B.M.nn ((o []).oz 0))

/-- `getMomentOfInertia`, /repo/src/geometric/MassPropertiesFunction.hpp:575-639. -/
noncomputable def inertiaFn (B : Body) (axes : String) (o : List Nat → Orders) : Res GeoCriterion :=
  if axes = "XX" then pure (sumFn B [momentFn B "SecondYY" (o [0]), momentFn B "SecondZZ" (o [1])] [1, 1] (o []))
  else if axes = "YY" then pure (sumFn B [momentFn B "SecondXX" (o [0]), momentFn B "SecondZZ" (o [1])] [1, 1] (o []))
  else if axes = "ZZ" then pure (sumFn B [momentFn B "SecondXX" (o [0]), momentFn B "SecondYY" (o [1])] [1, 1] (o []))
  else if axes = "XY" then pure (sumFn B [momentFn B "SecondXY" (o [0])] [-1] (o []))
  else if axes = "XZ" then pure (sumFn B [momentFn B "SecondXZ" (o [0])] [-1] (o []))
  else if axes = "YZ" then pure (sumFn B [momentFn B "SecondYZ" (o [0])] [-1] (o []))
  else throwErr "Specified axes not implemented for moment of inertia calculation."

/-! ## Rotation into the principal frame of the gold values -/

/-- A tensor in space. -/
abbrev Tensor := Matrix (Fin 3) (Fin 3) ℝ

/-- What `computeRotationAndParallelAxisTheoremMatrices` stores. -/
structure Frame where
  /-- `mInertiaRotationMatrix` -/
  Q : Tensor
  /-- `mInertiaPrincipalValues` -/
  l : Fin 3 → ℝ
  /-- `mMinusRotatedParallelAxisTheoremMatrix` -/
  minusP : Tensor

/-- `tParallelAxisTheoremMatrix`, /repo/src/geometric/MassPropertiesFunction.hpp:309-314. -/
def parallelAxis (g : Fin 3 → ℝ) : Tensor := (g ⬝ᵥ g) • (1 : Tensor) - Matrix.vecMulVec g g

/-- `computeRotationAndParallelAxisTheoremMatrices`, /repo/src/geometric/MassPropertiesFunction.hpp:293-330.
`gold` looks a value up, `eig` is `decompose_eigen_jacobi<3>`. -/
noncomputable def frameOf (eig : Tensor → Tensor × (Fin 3 → ℝ)) (gold : String → ℝ) : Frame :=
  let mass := gold "Mass"
  let P := parallelAxis ![gold "CGx", gold "CGy", gold "CGz"]
  let I : Tensor := !![gold "Ixx", gold "Ixy", gold "Ixz"; gold "Ixy", gold "Iyy", gold "Iyz"; gold "Ixz", gold "Iyz", gold "Izz"]
  let e := eig (I - mass • P)
  ⟨e.1, e.2, -(1 : ℝ) • (e.1.transpose * (P * e.1))⟩

/-- `getInertiaAndMassWeights`, /repo/src/geometric/MassPropertiesFunction.hpp:682-772. -/
noncomputable def inertiaWeights (F : Frame) (axes : String) : Res (List ℝ × ℝ) :=
  let Q11 := F.Q 0 0
  let Q12 := F.Q 0 1
  let Q13 := F.Q 0 2
  let Q21 := F.Q 1 0
  let Q22 := F.Q 1 1
  let Q23 := F.Q 1 2
  let Q31 := F.Q 2 0
  let Q32 := F.Q 2 1
  let Q33 := F.Q 2 2
  if axes = "XX" then pure ([Q11*Q11, Q21*Q21, Q31*Q31, 2*Q11*Q21, 2*Q11*Q31, 2*Q21*Q31], F.minusP 0 0)
  else if axes = "YY" then pure ([Q12*Q12, Q22*Q22, Q32*Q32, 2*Q12*Q22, 2*Q12*Q32, 2*Q22*Q32], F.minusP 1 1)
  else if axes = "ZZ" then pure ([Q13*Q13, Q23*Q23, Q33*Q33, 2*Q13*Q23, 2*Q13*Q33, 2*Q23*Q33], F.minusP 2 2)
  else if axes = "XY" then
    pure ([Q11*Q12, Q21*Q22, Q31*Q32, Q11*Q22 + Q12*Q21, Q11*Q32 + Q12*Q31, Q21*Q32 + Q22*Q31], F.minusP 0 1)
  else if axes = "XZ" then
    pure ([Q11*Q13, Q21*Q23, Q31*Q33, Q11*Q23 + Q13*Q21, Q11*Q33 + Q13*Q31, Q21*Q33 + Q23*Q31], F.minusP 0 2)
  else if axes = "YZ" then
    pure ([Q12*Q13, Q22*Q23, Q32*Q33, Q12*Q23 + Q13*Q22, Q12*Q33 + Q13*Q32, Q22*Q33 + Q23*Q32], F.minusP 1 2)
  else throwErr "Specified axes not implemented for inertia and mass weights calculation."

/-- Orders of a component of a composite function. -/
def under (o : List Nat → Orders) (i : Nat) : List Nat → Orders := fun p => o (i :: p)

/-- `getMomentOfInertiaRotatedAboutCG`, /repo/src/geometric/MassPropertiesFunction.hpp:646-674. -/
noncomputable def rotatedFn (B : Body) (F : Frame) (axes : String) (o : List Nat → Orders) : Res GeoCriterion := do
  let w ← inertiaWeights F axes
  let xx ← inertiaFn B "XX" (under o 0)
  let yy ← inertiaFn B "YY" (under o 1)
  let zz ← inertiaFn B "ZZ" (under o 2)
  let xy ← inertiaFn B "XY" (under o 3)
  let xz ← inertiaFn B "XZ" (under o 4)
  let yz ← inertiaFn B "YZ" (under o 5)
  pure (sumFn B [xx, yy, zz, xy, xz, yz, momentFn B "Mass" (o [6])] (w.1 ++ [w.2]) (o []))

/-! ## The least squares function -/

/-- `computeMeshExtent`, /repo/src/geometric/MassPropertiesFunction.hpp:800-842: the three extents of the
mesh with `n` vertices in space dimension `d`.  The assertion on the dimension is compiled out. -/
noncomputable def meshExtent (d n : Nat) (coords : List ℝ) (order : List Nat) (chunks : List (List Nat))
    (lowest highest : ℝ) : Res (ℝ × ℝ × ℝ) := do
  let v ← parFor order (List.replicate n (0 : ℝ), List.replicate n (0 : ℝ), List.replicate n (0 : ℝ)) fun i s => do
    let x ← rd coords (i * d + 0)
    let y ← rd coords (i * d + 1)
    let z ← rd coords (i * d + 2)
    let xs ← wr s.1 i x
    let ys ← wr s.2.1 i y
    let zs ← wr s.2.2 i z
    pure (xs, ys, zs)
  let xmin ← blas1.min chunks highest v.1
  let xmax ← blas1.max chunks lowest v.1
  let ymin ← blas1.min chunks highest v.2.1
  let ymax ← blas1.max chunks lowest v.2.1
  let zmin ← blas1.min chunks highest v.2.2
  let zmax ← blas1.max chunks lowest v.2.2
  pure (|xmax - xmin|, |ymax - ymin|, |zmax - zmin|)

/-- `tAllPropertiesVector`, /repo/src/geometric/MassPropertiesFunction.hpp:158-159. -/
def allNames : List String := ["Mass", "CGx", "CGy", "CGz", "Ixx", "Iyy", "Izz", "Ixy", "Ixz", "Iyz"]

/-- `std::sort` of names. -/
def sortNames (l : List String) : List String := l.insertionSort (· ≤ ·)

/-- `allPropertiesSpecified`, /repo/src/geometric/MassPropertiesFunction.hpp:139-193; `destutter` is
`std::unique`. -/
def allSpecified (names : List String) : Res Bool :=
  let sorted := (sortNames names).destutter (· ≠ ·)
  if names.length ≠ sorted.length then throwErr "User specified mass properties vector contains duplicate entries!"
  else if names.length < 10 then pure false
  else
    let all := sortNames allNames
    if sorted.length ≠ all.length then pure false
    else
      let rec go : List String → List String → Res Bool
        | a :: l, b :: m =>
          if a ∉ allNames then throwErr "Specified mass property not implemented."
          else if a ≠ b then pure false
          else go l m
        | _, _ => pure true
      go sorted all

/-- `std::map`: `insert` keeps the first value of a key, `operator[]` of a missing key is zero. -/
noncomputable def lookUp (names : List String) (vs : List ℝ) (key : String) : ℝ := ((names.zip vs).lookup key).getD 0

/-- The parts of a least squares function that is made step by step. -/
abbrev Parts := List GeoCriterion × LeastSquares

/-- A component with its gold value as normalisation. -/
noncomputable def Parts.add (s : Parts) (f : GeoCriterion) (w g : ℝ) : Parts :=
  (s.1 ++ [f], (s.2.appendWeight w).appendGold g)

/-- A component with another normalisation. -/
noncomputable def Parts.addScaled (s : Parts) (f : GeoCriterion) (w g scale : ℝ) : Parts :=
  (s.1 ++ [f], ((s.2.appendWeight w).appendGold g false).appendScale scale)

/-- One pass of the loop of `createItemizedLeastSquaresFunction`,
/repo/src/geometric/MassPropertiesFunction.hpp:356-425. -/
noncomputable def addItem (B : Body) (ext : ℝ × ℝ × ℝ) (o : List Nat → Orders) (name : String) (w g : ℝ) (s : Parts) :
    Res Parts :=
  if name = "Mass" then pure (s.add (momentFn B "Mass" (o [])) w g)
  else if name = "CGx" then pure (s.addScaled (ratioFn B "FirstX" o) w g ext.1)
  else if name = "CGy" then pure (s.addScaled (ratioFn B "FirstY" o) w g ext.2.1)
  else if name = "CGz" then pure (s.addScaled (ratioFn B "FirstZ" o) w g ext.2.2)
  else if name = "Ixx" then do pure (s.add (← inertiaFn B "XX" o) w g)
  else if name = "Iyy" then do pure (s.add (← inertiaFn B "YY" o) w g)
  else if name = "Izz" then do pure (s.add (← inertiaFn B "ZZ" o) w g)
  else if name = "Ixy" then do pure (s.add (← inertiaFn B "XY" o) w g)
  else if name = "Ixz" then do pure (s.add (← inertiaFn B "XZ" o) w g)
  else if name = "Iyz" then do pure (s.add (← inertiaFn B "YZ" o) w g)
  else throwErr "Specified mass property not implemented."

/-- `createItemizedLeastSquaresFunction`, /repo/src/geometric/MassPropertiesFunction.hpp:340-427. -/
noncomputable def itemized (B : Body) (ext : ℝ × ℝ × ℝ) (o : List Nat → Orders) (names : List String) (ws gold : List ℝ) :
    Res Parts :=
  forRange 0 names.length (([], ⟨[], [], [], false⟩) : Parts) fun i s => do
    let nm ← rd names i
    let w ← rd ws i
    let g ← rd gold i
    addItem B ext (under o i) nm w g s

/-- `createAllMassPropertiesLeastSquaresFunction`, /repo/src/geometric/MassPropertiesFunction.hpp:203-287. -/
noncomputable def allProperties (B : Body) (eig : Tensor → Tensor × (Fin 3 → ℝ)) (ext : ℝ × ℝ × ℝ)
    (o : List Nat → Orders) (names : List String) (ws gold : List ℝ) : Res Parts := do
  let w := lookUp names ws
  let g := lookUp names gold
  let F := frameOf eig g
  let s : Parts := ([], ⟨[], [], [], false⟩)
  let s := s.add (momentFn B "Mass" (under o 0 [])) (w "Mass") (g "Mass")
  let s := s.addScaled (ratioFn B "FirstX" (under o 1)) (w "CGx") (g "CGx") ext.1
  let s := s.addScaled (ratioFn B "FirstY" (under o 2)) (w "CGy") (g "CGy") ext.2.1
  let s := s.addScaled (ratioFn B "FirstZ" (under o 3)) (w "CGz") (g "CGz") ext.2.2
  let xx ← rotatedFn B F "XX" (under o 4)
  let s := s.add xx (w "Ixx") (F.l 0)
  let yy ← rotatedFn B F "YY" (under o 5)
  let s := s.add yy (w "Iyy") (F.l 1)
  let zz ← rotatedFn B F "ZZ" (under o 6)
  let s := s.add zz (w "Izz") (F.l 2)
  let minimum := min (F.l 0) (min (F.l 1) (F.l 2))
  let xy ← rotatedFn B F "XY" (under o 7)
  let s := s.addScaled xy (w "Ixy") 0 minimum
  let xz ← rotatedFn B F "XZ" (under o 8)
  let s := s.addScaled xz (w "Ixz") 0 minimum
  let yz ← rotatedFn B F "YZ" (under o 9)
  pure (s.addScaled yz (w "Iyz") 0 minimum)

/-! ## Reading of the input -/

/-- The list of the criterion. -/
structure PropertyList where
  /-- `Properties` -/
  properties : Option (List String) := none
  /-- `Weights` -/
  weights : Option (List ℝ) := none
  /-- `Gold Values` -/
  gold : Option (List ℝ) := none

/-- The lists of the problem that are read.  `sublist` of a missing list makes an empty one. -/
structure Input where
  /-- `Material Models`: for the name of a material its list, of which only the entry `Density` is read -/
  materials : Option (String → Option (Option ℝ))
  /-- the entry `Density` of a list at the top -/
  top : String → Option ℝ
  /-- the lists in `Criteria` -/
  criteria : String → PropertyList
  /-- the same for lists at the top -/
  topCriteria : String → PropertyList

/-- The density that an evaluator of a domain gets, /repo/src/geometric/MassPropertiesFunction.hpp:72-83 and
449: `operator[]` of a missing key is zero. -/
noncomputable def geoDensity (p : Input) (material : String) : Res ℝ := do
  let m ← get "Material Models" p.materials
  match m material with
  | some l => pure (l.getD 1)
  | none => pure 0

/-- The same in /repo/src/elliptic/MassPropertiesFunction.hpp:71-81: the list of the material is taken from
the top. -/
noncomputable def ellipticDensity (p : Input) (material : String) : Res ℝ := do
  let m ← get "Material Models" p.materials
  match m material with
  | some _ => pure ((p.top material).getD 1)
  | none => pure 0

/-- `createLeastSquaresFunction`, /repo/src/geometric/MassPropertiesFunction.hpp:92-132, from the list of the
criterion. -/
noncomputable def createLeast (B : Body) (eig : Tensor → Tensor × (Fin 3 → ℝ)) (o : List Nat → Orders)
    (extent : Res (ℝ × ℝ × ℝ)) (l : PropertyList) : Res Parts := do
  let names ← get "Properties" l.properties
  let ws ← get "Weights" l.weights
  let gold ← get "Gold Values" l.gold
  if names.length ≠ ws.length then throwErr "Number of 'Properties' does not equal the number of 'Weights'"
  else if names.length ≠ gold.length then throwErr "Number of 'Gold Values' does not equal the number of 'Properties'"
  else do
    let all ← allSpecified names
    let ext ← extent
    if all then allProperties B eig ext o names ws gold else itemized B ext o names ws gold

/-- The list that the geometric function reads, /repo/src/geometric/MassPropertiesFunction.hpp:98. -/
def geoList (p : Input) (name : String) : PropertyList := p.criteria name

/-- The list that the elliptic function reads, /repo/src/elliptic/MassPropertiesFunction.hpp:96. -/
def ellipticList (p : Input) (name : String) : PropertyList := p.topCriteria name

/-- `MassPropertiesFunction`: value and gradients are those of the least squares function,
/repo/src/geometric/MassPropertiesFunction.hpp:858-884. -/
noncomputable def massProperties (B : Body) (s : Parts) (o : Orders) : GeoCriterion :=
  joinOrders (geoLeastSquares s.1 s.2 (B.M.nn * B.M.dim) B.M.nn o.ox)
    (geoLeastSquares s.1 s.2 (B.M.nn * B.M.dim) B.M.nn o.oz)

end Plato.Mass
