import Verif.Plast.GlobalModel
import Verif.Plast.ProjectionModel
import Verif.Blas.Inverse
import Verif.Blas.Model
import Verif.Crs.Model
import Verif.Fem.AssemblyModel

/-!
# Model of the condensed systems of plasticity

Modelled sources: `/repo/src/NewtonRaphsonSolver.hpp` (the system of one iteration),
`/repo/src/PathDependentAdjointSolver.hpp` (one step of the adjoint and its part of the gradient).

The equations and the criterion are interfaces, as in the code: a record of what their methods return for the
arguments they are given.  The linear solver is outside: the systems are returned before the constraints are applied.
All worksets of these functions are over all the cells of the mesh.
-/

namespace Plato.Cond
open Plato Plato.Mech Plato.J2 Plato.Plast

/-- `ForwardStates`, /repo/src/PathDependentAdjointSolver.hpp:42-90 (and `CurrentStates` of the Newton solver): the
arguments of the equations at one step, the pressure and the number of the step. -/
structure FState where
  g : GArgs ℝ
  press : List ℝ
  step : Nat

/-- The methods of `GlobalVectorFunctionInc` and `LocalVectorFunctionInc` that the solvers call.  The first argument
holds the states and the control, the second is the number of the step. -/
structure Eqs where
  r : GArgs ℝ → Nat → Res (List ℝ)
  rU : GArgs ℝ → Nat → Res (V3 ℝ)
  rUp : GArgs ℝ → Nat → Res (V3 ℝ)
  rC : GArgs ℝ → Nat → Res (V3 ℝ)
  rCp : GArgs ℝ → Nat → Res (V3 ℝ)
  rZ : GArgs ℝ → Nat → Res (V3 ℝ)
  rX : GArgs ℝ → Nat → Res (V3 ℝ)
  rNT : GArgs ℝ → Nat → Res (Crs ℝ)
  h : Args ℝ → Nat → Res (V2 ℝ)
  hU : Args ℝ → Nat → Res (V3 ℝ)
  hUp : Args ℝ → Nat → Res (V3 ℝ)
  hC : Args ℝ → Nat → Res (V3 ℝ)
  hCp : Args ℝ → Nat → Res (V3 ℝ)
  hZ : Args ℝ → Nat → Res (V3 ℝ)
  hX : Args ℝ → Nat → Res (V3 ℝ)

/-- The methods of `VectorFunctionVMS` that the adjoint calls; arguments: projected pressure gradient, pressure,
control, number of the step. -/
structure ProjEq where
  pN : List ℝ → List ℝ → List ℝ → Nat → Res (V3 ℝ)
  pZ : List ℝ → List ℝ → List ℝ → Nat → Res (V3 ℝ)
  pX : List ℝ → List ℝ → List ℝ → Nat → Res (V3 ℝ)
  pUT : List ℝ → List ℝ → List ℝ → Nat → Res (Crs ℝ)

/-- The methods of `LocalScalarFunctionInc` that the adjoint calls. -/
structure Cri where
  fU : Args ℝ → Nat → Res (V2 ℝ)
  fUp : Args ℝ → Nat → Res (V2 ℝ)
  fC : Args ℝ → Nat → Res (V2 ℝ)
  fCp : Args ℝ → Nat → Res (V2 ℝ)

/-- Orders of the loops: `cell i` and `inv i` run over the cells, `dofs i` over the degrees of freedom, `create`,
`rows` and `prod` over the nodes, `jac` and `vec i` are the orders of the atomic additions of an assembly. -/
structure Sched where
  cell : Nat → List Nat
  dofs : Nat → List Nat
  create : List Nat
  rows : List Nat
  prod : List Nat
  jac : List Nat
  vec : Nat → List Nat
  grad : List Nat

/-- A view of the cells by rows and columns, as the assembly reads it. -/
def V3.view (w : V3 ℝ) : View3 ℝ := ⟨w.d0, w.d1, w.d2, w.e⟩
/-- A view of the cells by rows, as the assembly reads it. -/
def V2.view (w : V2 ℝ) : View2 ℝ := ⟨w.d0, w.d1, w.e⟩

section
variable (M : FeModel) (nl : Nat) (E : Eqs) (S : Sched)

/-- `mNumGlobalDofsPerCell`. -/
abbrev ng : Nat := M.npc * M.ndof

/-- Freshly allocated worksets hold zeros. -/
def zero2 (n : Nat) : V2 ℝ := ⟨M.nc, n, fun _ _ => 0⟩
def zero3 (n m : Nat) : V3 ℝ := ⟨M.nc, n, m, fun _ _ _ => 0⟩

/-- `updateInverseLocalJacobian`, NewtonRaphsonSolver.hpp:104-113 and PathDependentAdjointSolver.hpp:701-710; the output
has been allocated by the caller with the right size. -/
noncomputable def inverseC (A : FState) (out : V3 ℝ) : Res (V3 ℝ) := do
  let J ← E.hC A.g.loc A.step
  let r ← blas3.inverse (S.cell 0) (S.cell 1) nl M.nc J out
  pure r.2

/-- `computeSchurComplement`, NewtonRaphsonSolver.hpp:206-233 and PathDependentAdjointSolver.hpp:199-226. -/
noncomputable def schur (A : FState) (inv : V3 ℝ) : Res (V3 ℝ) := do
  let hU ← E.hU A.g.loc A.step
  let B ← blas3.multiply (S.cell 2) M.nc 1 inv hU 0 (zero3 M nl (ng M))
  let rC ← E.rC A.g A.step
  blas3.multiply (S.cell 3) M.nc 1 rC B 0 (zero3 M (ng M) (ng M))

/-- First part of `assembleTangentMatrix`, NewtonRaphsonSolver.hpp:255-269 and PathDependentAdjointSolver.hpp:248-263. -/
noncomputable def cellTangent (A : FState) (inv : V3 ℝ) : Res (V3 ℝ) := do
  let s ← schur M nl E S A inv
  let rU ← E.rU A.g A.step
  blas3.update (S.cell 4) M.nc (-1) s 1 rU

/-- `assembleTangentMatrix`, NewtonRaphsonSolver.hpp:250-279. -/
noncomputable def tangentMatrix (A : FState) (inv : V3 ℝ) : Res (Crs ℝ) := do
  let k ← cellTangent M nl E S A inv
  let K ← createBlockMatrix M.ndof M.ndof S.create M.orm M.oab
  assembleJacobian (blockEntryOrdinal M.npc M.ndof M.ndof K M.c2n) none M.nc (ng M) (ng M) (V3.view k) S.jac K

/-- `assembleTangentMatrix`, PathDependentAdjointSolver.hpp:243-273: the transpose is assembled. -/
noncomputable def tangentMatrixT (A : FState) (inv : V3 ℝ) : Res (Crs ℝ) := do
  let k ← cellTangent M nl E S A inv
  let K ← createBlockMatrix M.ndof M.ndof S.create M.orm M.oab
  assembleTransposeJacobian (blockEntryOrdinal M.npc M.ndof M.ndof K M.c2n) none M.nc (ng M) (ng M) (V3.view k) S.jac K

/-- `assembleResidual`, NewtonRaphsonSolver.hpp:295-331, with `assembleResidual` of WorksetBase.hpp:417-424. -/
noncomputable def condensedResidual (A : FState) (inv : V3 ℝ) : Res (List ℝ) := do
  let r ← E.r A.g A.step
  let h ← E.h A.g.loc A.step
  let v ← blas2.matrixTimesVector (S.cell 5) 'N' 1 inv h 0 (zero2 M nl)
  let rC ← E.rC A.g A.step
  let w ← blas2.matrixTimesVector (S.cell 6) 'N' 1 rC v 0 (zero2 M (ng M))
  let c ← assembleResidual M.npc M.ndof M.c2n none M.nc (V2.view w) (S.vec 0) (List.replicate (M.ndof * M.nn) 0)
  blas1.axpy (S.dofs 0) (-1) c r

/-- The system of one iteration of `solve` before the constraints are applied, NewtonRaphsonSolver.hpp:590-598. -/
noncomputable def newtonSystem (A : FState) (out : V3 ℝ) : Res (Crs ℝ × List ℝ) := do
  let inv ← inverseC M nl E S A out
  let r ← condensedResidual M nl E S A inv
  let f ← blas1.scale (S.dofs 1) (fun _ => true) (-1) r
  let K ← tangentMatrix M nl E S A inv
  pure (K, f)

/-- `AdjointStates`: global, local and projected adjoint of the step that was treated before, i.e. of the next step of
the pseudo time. -/
structure Adj where
  lam : List ℝ
  mu : List ℝ
  gam : List ℝ

/-- `mWorksetBase.worksetState`, `worksetNodeState` and `worksetLocalState` for all cells. -/
noncomputable def lamWs (i : Nat) (lam : List ℝ) : Res (V2 ℝ) :=
  workset plainOf M.npc M.ndof M.c2n none lam (S.cell i) (zero2 M (ng M))
noncomputable def gamWs (i : Nat) (gam : List ℝ) : Res (V2 ℝ) :=
  workset plainOf M.npc M.dim M.c2n none gam (S.cell i) (zero2 M (M.npc * M.dim))
noncomputable def muWs (i : Nat) (mu : List ℝ) : Res (V2 ℝ) :=
  worksetLocal plainOf nl none mu (S.cell i) (zero2 M nl)

variable (C : Cri) (P : ProjEq) (last off : Nat)

/-- The terms of the next step in `computeLocalAdjointRHS`, PathDependentAdjointSolver.hpp:306-330, and in
`updateLocalAdjointVars`, 841-863: `f` is what has been summed before. -/
noncomputable def nextLocalTerms (B : FState) (a : Adj) (f : V2 ℝ) : Res (V2 ℝ) := do
  let fCp ← C.fCp B.g.loc B.step
  let f ← blas2.update (S.cell 7) 1 fCp 1 f
  let mu ← muWs M nl S 8 a.mu
  let hCp ← E.hCp B.g.loc B.step
  let f ← blas2.matrixTimesVector (S.cell 9) 'T' 1 hCp mu 1 f
  let lam ← lamWs M S 10 a.lam
  let rCp ← E.rCp B.g B.step
  blas2.matrixTimesVector (S.cell 11) 'T' 1 rCp lam 1 f

/-- `computeLocalAdjointRHS`, PathDependentAdjointSolver.hpp:294-346; `A` holds the states of this step, `B` those of the
next one; `last` is the number of the last step. -/
noncomputable def localRhs (A B : FState) (a : Adj) (inv : V3 ℝ) : Res (V2 ℝ) := do
  let f ← C.fC A.g.loc A.step
  let f ← if A.step ≠ last then nextLocalTerms M nl E S C B a f else pure f
  let v ← blas2.matrixTimesVector (S.cell 12) 'T' 1 inv f 0 (zero2 M nl)
  let hU ← E.hU A.g.loc A.step
  blas2.matrixTimesVector (S.cell 13) 'T' 1 hU v 0 (zero2 M (ng M))

/-- `computeProjPressGradAdjointRHS`, PathDependentAdjointSolver.hpp:365-387. -/
noncomputable def projRhs (A B : FState) (a : Adj) : Res (V2 ℝ) := do
  let pN ← P.pN B.g.n A.press A.g.loc.z B.step
  let gam ← gamWs M S 14 a.gam
  blas2.matrixTimesVector (S.cell 15) 'T' 1 pN gam 0 (zero2 M M.npc)

/-- The terms of the next step in `assembleGlobalAdjointRHS`, PathDependentAdjointSolver.hpp:423-449; `off` is the number
of the pressure among the unknowns of a node. -/
noncomputable def nextGlobalTerms (A B : FState) (a : Adj) (f : V2 ℝ) : Res (V2 ℝ) := do
  let fUp ← C.fUp B.g.loc B.step
  let f ← blas2.update (S.cell 16) 1 fUp 1 f
  let p ← projRhs M S P A B a
  let f ← blas2.axpy (S.cell 17) M.ndof off 1 p f
  let lam ← lamWs M S 18 a.lam
  let rUp ← E.rUp B.g B.step
  let f ← blas2.matrixTimesVector (S.cell 19) 'T' 1 rUp lam 1 f
  let mu ← muWs M nl S 20 a.mu
  let hUp ← E.hUp B.g.loc B.step
  blas2.matrixTimesVector (S.cell 21) 'T' 1 hUp mu 1 f

/-- `assembleGlobalAdjointRHS`, PathDependentAdjointSolver.hpp:409-465. -/
noncomputable def globalRhs (A B : FState) (a : Adj) (inv : V3 ℝ) : Res (List ℝ) := do
  let f ← C.fU A.g.loc A.step
  let f ← if A.step ≠ last then nextGlobalTerms M nl E S C P off A B a f else pure f
  let l ← localRhs M nl E S C last A B a inv
  let f ← blas2.update (S.cell 22) (-1) l 1 f
  let v ← blas1.fill (S.dofs 2) (fun _ => true) 0 (List.replicate (M.nn * M.ndof) (0 : ℝ))
  let v ← assembleResidual M.npc M.ndof M.c2n none M.nc (V2.view f) (S.vec 1) v
  blas1.scale (S.dofs 3) (fun _ => true) (-1) v

/-- The system of the global adjoint before the constraints, PathDependentAdjointSolver.hpp:701-710 and 774-783. -/
noncomputable def adjointSystem (A B : FState) (a : Adj) (out : V3 ℝ) : Res (V3 ℝ × Crs ℝ × List ℝ) := do
  let inv ← inverseC M nl E S A out
  let K ← tangentMatrixT M nl E S A inv
  let f ← globalRhs M nl E S C P last off A B a inv
  pure (inv, K, f)

/-- `updateLocalAdjointVars`, PathDependentAdjointSolver.hpp:819-871, with the global adjoint `lam` of this step;
`old` is what the vector of the local adjoint held. -/
noncomputable def localAdjoint (A B : FState) (a : Adj) (inv : V3 ℝ) (lam old : List ℝ) : Res (List ℝ) := do
  let f ← C.fC A.g.loc A.step
  let l ← lamWs M S 23 lam
  let rC ← E.rC A.g A.step
  let f ← blas2.matrixTimesVector (S.cell 24) 'T' 1 rC l 1 f
  let f ← if A.step ≠ last then nextLocalTerms M nl E S C B a f else pure f
  let mu ← blas2.matrixTimesVector (S.cell 25) 'T' (-1) inv f 0 (zero2 M nl)
  flatten nl none M.nc mu (S.cell 26) old

/-- `updateProjPressGradAdjointVars`, PathDependentAdjointSolver.hpp:732-765; `old` is what the vector held. -/
noncomputable def projAdjoint (A : FState) (lam old : List ℝ) : Res (List ℝ) := do
  if A.step = 0 then blas1.fill (S.dofs 4) (fun _ => true) 0 old
  else do
    let rNT ← E.rNT A.g A.step
    let v ← matvecPlus S.prod rNT lam (List.replicate (M.nn * M.dim) 0)
    let v ← blas1.scale (S.dofs 4) (fun _ => true) (-1) v
    let p ← blas1.extract S.prod M.ndof off A.g.loc.up (List.replicate A.press.length 0)
    let pUT ← P.pUT A.g.n p A.g.loc.z A.step
    let y ← blas1.fill (S.dofs 4) (fun _ => true) 0 old
    rowSummed M.dim S.rows pUT y v

/-- The products of `addPDEpartialDerivativeZ`, PathDependentAdjointSolver.hpp:518-543, and of
`addPDEpartialDerivativeX`, 576-604: `cols` is the number of columns of the three derivatives. -/
noncomputable def pdeProducts (cols : Nat) (dR dP dH : Res (V3 ℝ)) (a : Adj) : Res (V2 ℝ) := do
  let lam ← lamWs M S 27 a.lam
  let r ← dR
  let g ← blas2.matrixTimesVector (S.cell 28) 'T' 1 r lam 0 (zero2 M cols)
  let gam ← gamWs M S 29 a.gam
  let p ← dP
  let g ← blas2.matrixTimesVector (S.cell 30) 'T' 1 p gam 1 g
  let mu ← muWs M nl S 31 a.mu
  let h ← dH
  blas2.matrixTimesVector (S.cell 32) 'T' 1 h mu 1 g

/-- `addPDEpartialDerivativeZ`, PathDependentAdjointSolver.hpp:512-546; `a` holds the adjoints of this step. -/
noncomputable def addPdeZ (A : FState) (a : Adj) (out : List ℝ) : Res (List ℝ) := do
  let g ← pdeProducts M nl S M.npc (E.rZ A.g A.step) (P.pZ A.g.n A.press A.g.loc.z A.step) (E.hZ A.g.loc A.step) a
  assembleResidual M.npc 1 M.c2n none M.nc (V2.view g) S.grad out

/-- `addPDEpartialDerivativeX`, PathDependentAdjointSolver.hpp:570-607, with `assembleVectorGradientX`
(WorksetBase.hpp:485-489). -/
noncomputable def addPdeX (A : FState) (a : Adj) (out : List ℝ) : Res (List ℝ) := do
  let g ← pdeProducts M nl S (M.npc * M.dim) (E.rX A.g A.step) (P.pX A.g.n A.press A.g.loc.z A.step) (E.hX A.g.loc A.step) a
  assembleResidual M.npc M.dim M.c2n none M.nc (V2.view g) S.grad out

end
end Plato.Cond
