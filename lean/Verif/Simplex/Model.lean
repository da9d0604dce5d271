import Mathlib.Algebra.Field.Defs
import Mathlib.Algebra.Order.Field.Basic
import Mathlib.Algebra.Order.Group.Abs
import Verif.Blas.Model

/-!
# Model of the simplex element: cubature, basis and gradients

Modelled sources: `/repo/src/alg/Cubature.cpp`, `/repo/src/alg/Basis.cpp`,
`/repo/src/LinearTetCubRuleDegreeOne.hpp`, and from `/repo/src/ImplicitFunctors.hpp` the functors
`ComputeGradientWorkset`, `ComputeCellVolume` and `ComputeVolume`.
-/

namespace Plato

variable {K : Type}

/-! ## Cubature rules -/

/-- The decimal literals of Cubature.cpp, as stored: `sqrt3_3` (line 102), `0.1381966011...` (`a`) and
`0.5854101966...` (`b`), lines 169-183. -/
structure CubLits (K : Type) where
  sqrt3_3 : K
  a : K
  b : K

/-- `Cubature::getNumCubaturePoints`, alg/Cubature.cpp:15-63. -/
def getNumCubaturePoints (dim degree : Int) : Res Nat :=
  if dim = 1 then
    if degree ≤ 1 then .ok 1 else if degree ≤ 3 then .ok 2 else throwErr "Unsupported degree"
  else if dim = 2 then
    if degree ≤ 1 then .ok 1 else if degree = 2 then .ok 3 else if degree = 3 then .ok 4
    else throwErr "Unsupported degree"
  else if dim = 3 then
    if degree ≤ 1 then .ok 1 else if degree = 2 then .ok 4 else if degree = 3 then .ok 5
    else throwErr "Unsupported degree"
  else throwErr "Unsupported spaceDim"

/-- `Cubature::getCubature`, alg/Cubature.cpp:65-225; `p` and `w` are the host mirrors of the two
views, one write per assignment.  A negative `spaceDim` converted to unsigned never equals an extent
that fits an `int`; it is rejected before by `getNumCubaturePoints`. -/
def getCubature [Field K] (lits : CubLits K) (dim degree : Int) (points : V2 K) (weights : List K) :
    Res (V2 K × List K) := do
  let n ← getNumCubaturePoints dim degree
  if points.d0 ≠ n then throwErr "points should have dimensions(numCubPoints, spaceDim)"
  else if (points.d1 : Int) ≠ dim then throwErr "points should have dimensions(numCubPoints, spaceDim)"
  else if weights.length ≠ n then throwErr "weights should have dimensions(numCubPoints)"
  else
    let p := points
    let w := weights
    if dim = 1 then
      if degree ≤ 1 then do
        let p ← vwr2 p 0 0 (1 / 2)
        let w ← wr w 0 1
        pure (p, w)
      else if degree ≤ 3 then do
        let p ← vwr2 p 0 0 ((lits.sqrt3_3 + 1) / 2)
        let p ← vwr2 p 1 0 ((-lits.sqrt3_3 + 1) / 2)
        let w ← wr w 0 (1 / 2)
        let w ← wr w 1 (1 / 2)
        pure (p, w)
      else throwErr "Unsupported degree"
    else if dim = 2 then
      if degree ≤ 1 then do
        let p ← vwr2 p 0 0 (1 / 3)
        let p ← vwr2 p 0 1 (1 / 3)
        let w ← wr w 0 (1 / 2)
        pure (p, w)
      else if degree = 2 then do
        let p ← vwr2 p 0 0 (1 / 6)
        let p ← vwr2 p 0 1 (1 / 6)
        let p ← vwr2 p 1 0 (1 / 6)
        let p ← vwr2 p 1 1 (2 / 3)
        let p ← vwr2 p 2 0 (2 / 3)
        let p ← vwr2 p 2 1 (1 / 6)
        let w ← wr w 0 (1 / 6)
        let w ← wr w 1 (1 / 6)
        let w ← wr w 2 (1 / 6)
        pure (p, w)
      else if degree = 3 then do
        let p ← vwr2 p 0 0 (1 / 3)
        let p ← vwr2 p 0 1 (1 / 3)
        let p ← vwr2 p 1 0 (1 / 5)
        let p ← vwr2 p 1 1 (1 / 5)
        let p ← vwr2 p 2 0 (1 / 5)
        let p ← vwr2 p 2 1 (3 / 5)
        let p ← vwr2 p 3 0 (3 / 5)
        let p ← vwr2 p 3 1 (1 / 5)
        let w ← wr w 0 (-9 / 32)
        let w ← wr w 1 (25 / 96)
        let w ← wr w 2 (25 / 96)
        let w ← wr w 3 (25 / 96)
        pure (p, w)
      else throwErr "Unsupported degree"
    else if dim = 3 then
      if degree ≤ 1 then do
        let p ← vwr2 p 0 0 (1 / 4)
        let p ← vwr2 p 0 1 (1 / 4)
        let p ← vwr2 p 0 2 (1 / 4)
        let w ← wr w 0 (1 / 6)
        pure (p, w)
      else if degree = 2 then do
        let p ← vwr2 p 0 0 lits.a
        let p ← vwr2 p 0 1 lits.a
        let p ← vwr2 p 0 2 lits.a
        let p ← vwr2 p 1 0 lits.b
        let p ← vwr2 p 1 1 lits.a
        let p ← vwr2 p 1 2 lits.a
        let p ← vwr2 p 2 0 lits.a
        let p ← vwr2 p 2 1 lits.b
        let p ← vwr2 p 2 2 lits.a
        let p ← vwr2 p 3 0 lits.a
        let p ← vwr2 p 3 1 lits.a
        let p ← vwr2 p 3 2 lits.b
        let w ← wr w 0 (1 / 24)
        let w ← wr w 1 (1 / 24)
        let w ← wr w 2 (1 / 24)
        let w ← wr w 3 (1 / 24)
        pure (p, w)
      else if degree = 3 then do
        let p ← vwr2 p 0 0 (1 / 4)
        let p ← vwr2 p 0 1 (1 / 4)
        let p ← vwr2 p 0 2 (1 / 4)
        let p ← vwr2 p 1 0 (1 / 6)
        let p ← vwr2 p 1 1 (1 / 6)
        let p ← vwr2 p 1 2 (1 / 6)
        let p ← vwr2 p 2 0 (1 / 6)
        let p ← vwr2 p 2 1 (1 / 6)
        let p ← vwr2 p 2 2 (1 / 2)
        let p ← vwr2 p 3 0 (1 / 6)
        let p ← vwr2 p 3 1 (1 / 2)
        let p ← vwr2 p 3 2 (1 / 6)
        let p ← vwr2 p 4 0 (1 / 2)
        let p ← vwr2 p 4 1 (1 / 6)
        let p ← vwr2 p 4 2 (1 / 6)
        let w ← wr w 0 (-2 / 15)
        let w ← wr w 1 (3 / 40)
        let w ← wr w 2 (3 / 40)
        let w ← wr w 3 (3 / 40)
        let w ← wr w 4 (3 / 40)
        pure (p, w)
      else throwErr "Unsupported degree"
    else throwErr "Unsupported spaceDim"

/-- The state of `LinearTetCubRuleDegreeOne`: weight, basis functions, point coordinates. -/
structure CubRule (K : Type) where
  weight : K
  basis : List K
  coords : List K

/-- `LinearTetCubRuleDegreeOne<SpaceDim>`: constructor and `initialize`,
LinearTetCubRuleDegreeOne.hpp:23-31 and 74-130. -/
def linearTetCubRule [Field K] (dim : Nat) : Res (CubRule K) := do
  let weight ← forRange 2 (dim + 1) (1 : K) fun d w => pure (w / (d : K))
  let c := List.replicate dim (0 : K)
  let c ← if dim = 3 then do
      let c ← wr c 0 (1 / 4)
      let c ← wr c 1 (1 / 4)
      wr c 2 (1 / 4)
    else if dim = 2 then do
      let c ← wr c 0 (1 / 3)
      wr c 1 (1 / 3)
    else wr c 0 (1 / 2)
  let b := List.replicate (dim + 1) (0 : K)
  let b ← if dim = 3 then do
      let b ← wr b 0 (1 - (← rd c 0) - (← rd c 1) - (← rd c 2))
      let b ← wr b 1 (← rd c 0)
      let b ← wr b 2 (← rd c 1)
      wr b 3 (← rd c 2)
    else if dim = 2 then do
      let b ← wr b 0 (1 - (← rd c 0) - (← rd c 1))
      let b ← wr b 1 (← rd c 0)
      wr b 2 (← rd c 1)
    else do
      let b ← wr b 0 (1 - (← rd c 0))
      wr b 1 (← rd c 0)
  pure ⟨weight, b, c⟩

/-! ## Nodal basis -/

/-- `Basis::getRefCoords`, alg/Basis.cpp:9-26. -/
def getRefCoords [Field K] (order : List Nat) (coords : V2 K) : Res (V2 K) :=
  parFor order { coords with e := fun _ _ => 0 } fun b c => vwr2 c b b 1

/-- `Basis::getValues`, alg/Basis.cpp:28-43; the number of fields is taken from the extent of the
points. -/
def getBasisValues [Field K] (order : List Nat) (refCoords values : V2 K) : Res (V2 K) :=
  parFor order values fun pt values => do
    let (values, final) ← forRange 0 refCoords.d1 (values, (1 : K)) fun b (s : V2 K × K) => do
      let x ← vrd2 refCoords pt b
      let v ← vwr2 s.1 b pt x
      pure (v, s.2 - x)
    vwr2 values refCoords.d1 pt final

/-- `Basis::getGradientValues`, alg/Basis.cpp:45-61. -/
def getBasisGradients [Field K] (order : List Nat) (dim : Nat) (grad : V3 K) : Res (V3 K) :=
  parFor order { grad with e := fun _ _ _ => 0 } fun pt g => do
    let g ← forRange 0 dim g fun b g => vwr3 g b pt b 1
    forRange 0 dim g fun d g => vwr3 g dim pt d (-1)

/-! ## Gradients and volumes of a cell -/

/-! The functors are templates over the scalar type: the model is over a commutative ring with a
division and an absolute value (`fabs`), instantiated with numbers and with automatic
differentiation values. -/

variable {R : Type} [CommRing R] [Div R] (fabs : R → R)

/-- The determinant of the nine differences, ImplicitFunctors.hpp:180-181 and 311-312. -/
def detj3 (j11 j12 j13 j21 j22 j23 j31 j32 j33 : R) : R :=
  j11*j22*j33+j12*j23*j31+j13*j21*j32-j11*j23*j32-j12*j21*j33-j13*j22*j31

/-- `ComputeGradientWorkset<3>::operator()`, ImplicitFunctors.hpp:165-215. -/
def computeGradient3 (cell : Nat) (g cfg : V3 R) (vol : List R) : Res (V3 R × List R) := do
  let j11 := (← vrd3 cfg cell 0 0) - (← vrd3 cfg cell 3 0)
  let j12 := (← vrd3 cfg cell 1 0) - (← vrd3 cfg cell 3 0)
  let j13 := (← vrd3 cfg cell 2 0) - (← vrd3 cfg cell 3 0)
  let j21 := (← vrd3 cfg cell 0 1) - (← vrd3 cfg cell 3 1)
  let j22 := (← vrd3 cfg cell 1 1) - (← vrd3 cfg cell 3 1)
  let j23 := (← vrd3 cfg cell 2 1) - (← vrd3 cfg cell 3 1)
  let j31 := (← vrd3 cfg cell 0 2) - (← vrd3 cfg cell 3 2)
  let j32 := (← vrd3 cfg cell 1 2) - (← vrd3 cfg cell 3 2)
  let j33 := (← vrd3 cfg cell 2 2) - (← vrd3 cfg cell 3 2)
  let detj := detj3 j11 j12 j13 j21 j22 j23 j31 j32 j33
  let i11 := (j22*j33-j23*j32)/detj
  let i12 := (j13*j32-j12*j33)/detj
  let i13 := (j12*j23-j13*j22)/detj
  let i21 := (j23*j31-j21*j33)/detj
  let i22 := (j11*j33-j13*j31)/detj
  let i23 := (j13*j21-j11*j23)/detj
  let i31 := (j21*j32-j22*j31)/detj
  let i32 := (j12*j31-j11*j32)/detj
  let i33 := (j11*j22-j12*j21)/detj
  let vol ← wr vol cell (fabs detj)
  let g ← vwr3 g cell 0 0 i11
  let g ← vwr3 g cell 0 1 i12
  let g ← vwr3 g cell 0 2 i13
  let g ← vwr3 g cell 1 0 i21
  let g ← vwr3 g cell 1 1 i22
  let g ← vwr3 g cell 1 2 i23
  let g ← vwr3 g cell 2 0 i31
  let g ← vwr3 g cell 2 1 i32
  let g ← vwr3 g cell 2 2 i33
  let g ← vwr3 g cell 3 0 (-(i11+i21+i31))
  let g ← vwr3 g cell 3 1 (-(i12+i22+i32))
  let g ← vwr3 g cell 3 2 (-(i13+i23+i33))
  pure (g, vol)

/-- `ComputeGradientWorkset<2>::operator()`, ImplicitFunctors.hpp:219-250. -/
def computeGradient2 (cell : Nat) (g cfg : V3 R) (vol : List R) : Res (V3 R × List R) := do
  let j11 := (← vrd3 cfg cell 0 0) - (← vrd3 cfg cell 2 0)
  let j12 := (← vrd3 cfg cell 1 0) - (← vrd3 cfg cell 2 0)
  let j21 := (← vrd3 cfg cell 0 1) - (← vrd3 cfg cell 2 1)
  let j22 := (← vrd3 cfg cell 1 1) - (← vrd3 cfg cell 2 1)
  let detj := j11*j22-j12*j21
  let i11 := j22/detj
  let i12 := -j12/detj
  let i21 := -j21/detj
  let i22 := j11/detj
  let vol ← wr vol cell (fabs detj)
  let g ← vwr3 g cell 0 0 i11
  let g ← vwr3 g cell 0 1 i12
  let g ← vwr3 g cell 1 0 i21
  let g ← vwr3 g cell 1 1 i22
  let g ← vwr3 g cell 2 0 (-(i11+i21))
  let g ← vwr3 g cell 2 1 (-(i12+i22))
  pure (g, vol)

/-- `ComputeGradientWorkset<1>::operator()`, ImplicitFunctors.hpp:253-271. -/
def computeGradient1 (cell : Nat) (g cfg : V3 R) (vol : List R) : Res (V3 R × List R) := do
  let j11 := (← vrd3 cfg cell 0 0) - (← vrd3 cfg cell 1 0)
  let detj := j11
  let i11 := 1/detj
  let vol ← wr vol cell (fabs detj)
  let g ← vwr3 g cell 0 0 i11
  let g ← vwr3 g cell 1 0 (-i11)
  pure (g, vol)

/-- `ComputeGradientWorkset<SpaceDim>`: the specialisation is chosen by the template argument; there is
none for other dimensions. -/
def computeGradient (dim : Nat) (cell : Nat) (g cfg : V3 R) (vol : List R) : Res (V3 R × List R) :=
  if dim = 1 then computeGradient1 fabs cell g cfg vol
  else if dim = 2 then computeGradient2 fabs cell g cfg vol
  else if dim = 3 then computeGradient3 fabs cell g cfg vol
  else Res.ub

/-- `ComputeCellVolume<3>::operator()`, ImplicitFunctors.hpp:288-311. -/
def computeCellVolume3 (cell : Nat) (cfg : V3 R) : Res R := do
  let j11 := (← vrd3 cfg cell 0 0) - (← vrd3 cfg cell 3 0)
  let j12 := (← vrd3 cfg cell 1 0) - (← vrd3 cfg cell 3 0)
  let j13 := (← vrd3 cfg cell 2 0) - (← vrd3 cfg cell 3 0)
  let j21 := (← vrd3 cfg cell 0 1) - (← vrd3 cfg cell 3 1)
  let j22 := (← vrd3 cfg cell 1 1) - (← vrd3 cfg cell 3 1)
  let j23 := (← vrd3 cfg cell 2 1) - (← vrd3 cfg cell 3 1)
  let j31 := (← vrd3 cfg cell 0 2) - (← vrd3 cfg cell 3 2)
  let j32 := (← vrd3 cfg cell 1 2) - (← vrd3 cfg cell 3 2)
  let j33 := (← vrd3 cfg cell 2 2) - (← vrd3 cfg cell 3 2)
  pure (fabs (detj3 j11 j12 j13 j21 j22 j23 j31 j32 j33))

/-- `ComputeCellVolume<2>::operator()`, ImplicitFunctors.hpp:313-329. -/
def computeCellVolume2 (cell : Nat) (cfg : V3 R) : Res R := do
  let j11 := (← vrd3 cfg cell 0 0) - (← vrd3 cfg cell 2 0)
  let j12 := (← vrd3 cfg cell 1 0) - (← vrd3 cfg cell 2 0)
  let j21 := (← vrd3 cfg cell 0 1) - (← vrd3 cfg cell 2 1)
  let j22 := (← vrd3 cfg cell 1 1) - (← vrd3 cfg cell 2 1)
  pure (fabs (j11*j22-j12*j21))

/-- `ComputeCellVolume<1>::operator()`, ImplicitFunctors.hpp:331-344. -/
def computeCellVolume1 (cell : Nat) (cfg : V3 R) : Res R := do
  let j11 := (← vrd3 cfg cell 0 0) - (← vrd3 cfg cell 1 0)
  pure (fabs j11)

/-- `ComputeCellVolume<SpaceDim>`. -/
def computeCellVolume (dim : Nat) (cell : Nat) (cfg : V3 R) : Res R :=
  if dim = 1 then computeCellVolume1 fabs cell cfg
  else if dim = 2 then computeCellVolume2 fabs cell cfg
  else if dim = 3 then computeCellVolume3 fabs cell cfg
  else Res.ub

/-- `ComputeVolume<SpaceDim>::operator()`, ImplicitFunctors.hpp:489-505: `det` is the value of the
library function `Omega_h::determinant` on the matrix of differences. -/
def computeVolume (dim : Nat) (det : R) : R :=
  (if dim = 2 then 1 / 2 else 1 / 6) * fabs det

end Plato
