import Verif.Plast.Model
import Verif.Mech.VectorWorkset
import Verif.Mech.VectorModel
import Verif.Blas.Model
import Verif.Crs.Model

/-!
# Model of the projection of the pressure gradient

Modelled sources: `/repo/src/VectorFunctionVMS.hpp` (`value`, `gradient_u`), `/repo/src/Plato_Solve.hpp`,
`/repo/src/PlasticityProblem.hpp` (`updateProjectedPressureGradient`).

Simplifications: `VectorFunctionVMS` is the vector function of `Verif.Mech.VectorModel` with one more workset, that of
the node state, which is filled after the others (none reads another); the projection has no terms of the boundary
(`evaluate_boundary` of `AbstractVectorFunctionVMS.hpp:94-102` does nothing), so the second block of `value` and
of `gradient_u` assembles zeros.
-/

namespace Plato.Plast
open Plato Plato.Mech

variable {R : Type}

/-- The evaluations in `VectorFunctionVMS::value` (VectorFunctionVMS.hpp:262-342) and `gradient_u` (688-763): workset
of the node state, then `evaluate` of the residual of the domain.  `sn k` and `se k` are the orders of the
two loops of part `k`. -/
def projEv [CommRing R] [Div R] (fabs : R → R) (M : FeModel) (P : Nat → Proj R) (mkN : Nat → ℝ → R) (press : List ℝ)
    (sn se : Nat → List Nat) : Evaluator R := fun k s z x r => do
  let p ← workset mkN M.npc 1 M.c2n (M.part k) press (sn k) ⟨M.size (M.part k), M.npc, fun _ _ => 0⟩
  match M.part k with
  | some cells => (P k).evaluate fabs (se k) cells.length s p z x r
  | none => .ok r

/-- `Plato::Solve::RowSummed`, Plato_Solve.hpp:21-45, with `RowSum` and `InverseWeight`
(PlatoMathFunctors.hpp:39-67, 88-102). -/
def rowSummed {K : Type} [Zero K] [One K] [Add K] [Div K] [Mul K] (n : Nat) (order : List Nat) (A : Crs K)
    (x b : List K) : Res (List K) := do
  let st ← parFor order (List.replicate x.length (0 : K), x) fun node st => do
    let sum ← rowSumRow A node st.1
    let x ← inverseWeightRow n 1 sum b node st.2
    pure (sum, x)
  pure st.2

/-- Orders of the loops of one projection. -/
structure ProjSched where
  extract : List Nat
  fill : List Nat
  value : Nat → Nat → List Nat
  node : Nat → List Nat
  eval : Nat → List Nat
  create : List Nat
  matrix : Nat → Nat → List Nat
  nodeU : Nat → List Nat
  evalU : Nat → List Nat
  scale : List Nat
  rows : List Nat

/-- A residual instantiated with automatic differentiation values. -/
def Proj.lift (P : Proj ℝ) (penF : Fad → Fad) : Proj Fad :=
  ⟨P.d, P.basis.map Fad.const, Fad.const P.cubWeight, Fad.const P.kappa, penF⟩

/-- `updateProjectedPressureGradient`, PlasticityProblem.hpp:877-896, when there is a next step: `M` is the mesh with
`dim` unknowns per node, `ndof` and `off` the layout of the global state, `old` what the row of the next step held. -/
noncomputable def updateProjected (M : FeModel) (P : Nat → Proj ℝ) (penF : Nat → Fad → Fad) (ndof off : Nat)
    (S : ProjSched) (state z x old : List ℝ) : Res (List ℝ) := do
  let press ← blas1.extract S.extract ndof off state (List.replicate M.nn 0)
  let y ← blas1.fill S.fill (fun _ => true) 0 old
  let r ← M.value (projEv abs M P plainOf press S.node S.eval) S.value y z x
  let A ← M.gradientU (projEv Fad.fabs M (fun k => (P k).lift (penF k)) constOf press S.nodeU S.evalU) S.create S.matrix y z x
  let r ← blas1.scale S.scale (fun _ => true) (-1) r
  rowSummed M.dim S.rows A y r

end Plato.Plast
