import Verif.Mech.VectorModel
import Verif.Mech.Model
import Verif.Simplex.Model
import Mathlib.LinearAlgebra.Matrix.Determinant.Basic
import Mathlib.Data.Real.Basic

/-!
# Model of the data of a body load

/repo/src/BodyLoads.hpp: `mapPoints` (61-103), `getFunctionValues` (21-58) and the part of
`BodyLoad::get` that prepares the loop (148-181), with `JacobianDet`
(/repo/src/ImplicitFunctors.hpp:61-85).  All of it reads the coordinates of the mesh, none of it the
configuration workset.

Not modelled: the expression library of Omega_h; a load is given by its function of the point.
-/

namespace Plato.Mech
open Plato

section
variable {K : Type} [CommRing K]

/-- Body of the loop over the points, BodyLoads.hpp:82-99; `gc` is the cell ordinal of the mesh. -/
def mapPoint (d : Nat) (c2n : List Nat) (coords : List K) (ref : V2 K) (gc c p : Nat) (mp : V3 K) :
    Res (V3 K) := do
  let s ← forRange 0 d ((1 : K), mp) fun n s => do
    let nv ← vrd2 ref p n
    let mp ← forRange 0 d s.2 fun k mp => do
      let x ← nodeCoordinate (d + 1) d c2n coords gc n k
      let old ← vrd3 mp c p k
      vwr3 mp c p k (old + nv * x)
    pure (s.1 - nv, mp)
  forRange 0 d s.2 fun k mp => do
    let x ← nodeCoordinate (d + 1) d c2n coords gc d k
    let old ← vrd3 mp c p k
    vwr3 mp c p k (old + s.1 * x)

/-- `mapPoints`, BodyLoads.hpp:61-103; `deep_copy` fills the points with zero. -/
def mapPoints (d : Nat) (c2n : List Nat) (coords : List K) (cells order : List Nat) (ref : V2 K)
    (mp : V3 K) : Res (V3 K) :=
  parFor order ⟨mp.d0, mp.d1, mp.d2, fun _ _ _ => 0⟩ fun c z => do
    let gc ← rd cells c
    forRange 0 mp.d1 z (mapPoint d c2n coords ref gc c)

/-- `JacobianDet::operator()`, ImplicitFunctors.hpp:72-84; `Omega_h::determinant` is the determinant. -/
def jacobianDet (d : Nat) (c2n : List Nat) (coords : List K) (gc : Nat) : Res K := do
  let J ← forRange 0 d (⟨d, d, fun _ _ => 0⟩ : V2 K) fun i J =>
    forRange 0 d J fun j J => do
      let x ← nodeCoordinate (d + 1) d c2n coords gc j i
      let y ← nodeCoordinate (d + 1) d c2n coords gc d i
      vwr2 J i j (x - y)
  pure (Matrix.of fun i j : Fin d => J.e i j).det

end

/-- A body load: degree of freedom and function of the point (BodyLoads.hpp:119-132). -/
structure LoadFn where
  dof : Nat
  f : (Nat → ℝ) → ℝ

/-- The determinants of the cells, in the order of the mesh. -/
def cellDets (d : Nat) (c2n : List Nat) (coords : List ℝ) (nc : Nat) : Res (List ℝ) :=
  (List.range nc).mapM fun gc => do
    let j ← jacobianDet d c2n coords gc
    pure |j|

/-- The data `BodyLoad::get` prepares for its loop, BodyLoads.hpp:148-181: cubature of degree one, values
of the basis, integrand at the mapped points, absolute values of the determinants. -/
noncomputable def LoadFn.onMesh (L : LoadFn) (lits : CubLits ℝ) (d : Nat) (c2n : List Nat) (nc : Nat)
    (coords : List ℝ) (cells : List Nat) (oB oM : List Nat) : Res (BodyLoad ℝ) := do
  let n ← getNumCubaturePoints d 1
  let (pts, w) ← getCubature lits d 1 ⟨n, d, fun _ _ => 0⟩ (List.replicate n 0)
  let basis ← getBasisValues oB pts ⟨d + 1, n, fun _ _ => 0⟩
  let mp ← mapPoints d c2n coords cells oM pts ⟨cells.length, n, d, fun _ _ _ => 0⟩
  let values := (List.range (cells.length * n)).map fun i => L.f (mp.e (i / n) (i % n))
  let det ← cellDets d c2n coords nc
  pure ⟨n, w, basis, values, det, L.dof⟩

/-- The residual with the body loads of the mesh. -/
def Elastostatic.withLoads {R : Type} (P : Elastostatic R) (Bs : List (BodyLoad R)) : Elastostatic R :=
  ⟨P.d, P.stiff, P.refStrain, P.pen, P.cubWeight, P.forcing, Bs⟩

/-- `ElastostaticResidual` as evaluator of the vector function, with the body loads evaluated on the
mesh with coordinates `coords`; `up` turns the plain numbers of the load into the scalar type of the
result.  As `elastostatic` without natural boundary conditions
(/repo/src/elliptic/ElastostaticResidual.hpp:144-242). -/
noncomputable def elastostaticMesh {R : Type} [CommRing R] [Div R] (fabs : R → R) (M : FeModel)
    (P : Nat → Elastostatic R) (up : BodyLoad ℝ → BodyLoad R) (loads : Nat → List LoadFn)
    (lits : CubLits ℝ) (oB : List Nat) (oM : Nat → List Nat) (coords : List ℝ)
    (init : Nat → Nat → Nat → Nat) (sch : Nat → Nat → List Nat) : Evaluator R := fun k s z x r =>
  if k < M.domains.length then do
    let cells := M.domains[k]?.getD []
    let Bs ← (loads k).mapM fun L => L.onMesh lits M.dim M.c2n M.nc coords cells oB (oM k)
    ((P k).withLoads (Bs.map up)).evaluate fabs (init k) (sch k) cells s z x r
  else .ok r

end Plato.Mech
