import Verif.Cond.Model
import Verif.Bc.ConstraintsModel

/-!
# Model of the gradient of a criterion of plasticity by the control

Modelled sources: `/repo/src/PlasticityProblem.hpp` (`criterionGradient`, `backwardTimeIntegration`,
`updateAdjointState`, `addCriterionPartialDerivativeZ`) and `/repo/src/PathDependentAdjointSolver.hpp`
(`applyConstraints`, `updateAdjointVariables`).

The linear solver is a function of the matrix, of what the vector of the unknowns holds and of the right hand side.
The states of all steps are given, as the problem holds them after `solution`.
-/

namespace Plato.Cond
open Plato Plato.Mech Plato.J2 Plato.Plast

/-- The constrained degrees of freedom, and the orders of the loops that apply them. -/
structure Bcs where
  dofs : List Nat
  sched : List (List (CMicro ℝ)) → List (Nat × CMicro ℝ)
  vals : List Nat
  rows : List Nat

/-- The record of adjoints, PathDependentAdjointSolver.hpp (`AdjointStates`): current and previous adjoints, the inverse of
the local Jacobian; and the gradient that is being summed. -/
structure Sweep where
  cur : Adj
  prev : Adj
  inv : V3 ℝ
  grad : List ℝ

section
variable (M : FeModel) (nl : Nat) (E : Eqs) (S : Sched) (C : Cri) (P : ProjEq) (last off : Nat)

/-- `applyConstraints`, PathDependentAdjointSolver.hpp:472-490; the assembled matrix is a block matrix. -/
noncomputable def constrain (D : Bcs) (K : Crs ℝ) (f : List ℝ) : Res (Crs ℝ × List ℝ) := do
  if D.dofs.length ≤ 0 then throwErr "Path-Dependent Adjoint Solver: Essential Boundary Conditions are empty."
  else do
    let v ← blas1.scale D.vals (fun _ => true) 0 (List.replicate D.dofs.length (0 : ℝ))
    applyBlockConstraints M.ndof D.sched D.rows 1 K f D.dofs v

/-- End of `updateGlobalAdjointVars`, PathDependentAdjointSolver.hpp:785-792. -/
noncomputable def globalAdjoint (ls : Crs ℝ → List ℝ → List ℝ → Res (List ℝ)) (D : Bcs) (K : Crs ℝ) (f old : List ℝ) :
    Res (List ℝ) := do
  let s ← constrain M D K f
  let x ← blas1.fill (S.dofs 1) (fun _ => true) 0 old
  ls s.1 x s.2

/-- `updateAdjointState`, PlasticityProblem.hpp:1113-1120. -/
noncomputable def copyAdjoint (cur prev : Adj) : Res Adj := do
  let mu ← blas1.update (S.dofs 5) (fun _ => true) 1 cur.mu 0 prev.mu
  let lam ← blas1.update (S.dofs 0) (fun _ => true) 1 cur.lam 0 prev.lam
  let gam ← blas1.update (S.dofs 4) (fun _ => true) 1 cur.gam 0 prev.gam
  pure ⟨lam, mu, gam⟩

/-- `PartialDerivative::CONTROL` and `CONFIGURATION`. -/
inductive Wrt where
  | control
  | configuration

/-- `addContributionFromPDE`, PathDependentAdjointSolver.hpp:898-921. -/
noncomputable def addContribution (w : Wrt) (A : FState) (a : Adj) (out : List ℝ) : Res (List ℝ) :=
  match w with
  | .control => addPdeZ M nl E S P A a out
  | .configuration => addPdeX M nl E S P A a out

/-- One pass of the loop of `backwardTimeIntegration`, PlasticityProblem.hpp:1049-1060, with `updateAdjointVariables`,
PathDependentAdjointSolver.hpp:880-889. -/
noncomputable def sweepStep (w : Wrt) (ls : Crs ℝ → List ℝ → List ℝ → Res (List ℝ)) (D : Bcs) (A B : FState) (s : Sweep) : Res Sweep := do
  let prev ← copyAdjoint S s.cur s.prev
  let k ← adjointSystem M nl E S C P last off A B prev s.inv
  let lam ← globalAdjoint M S ls D k.2.1 k.2.2 s.cur.lam
  let mu ← localAdjoint M nl E S C last A B prev k.1 lam s.cur.mu
  let gam ← projAdjoint M E S P off A lam s.cur.gam
  let grad ← addContribution M nl E S P w A ⟨lam, mu, gam⟩ s.grad
  pure ⟨⟨lam, mu, gam⟩, prev, k.1, grad⟩

/-- Freshly allocated adjoints. -/
noncomputable def zeroAdj : Adj := ⟨List.replicate (M.nn * M.ndof) 0, List.replicate (M.nc * nl) 0, List.replicate (M.nn * M.dim) 0⟩

/-- `backwardTimeIntegration`, PlasticityProblem.hpp:1033-1062, for `n` steps; `FS k` holds the states of step `k`. -/
noncomputable def backward (w : Wrt) (ls : Crs ℝ → List ℝ → List ℝ → Res (List ℝ)) (D : Bcs) (Sk : Nat → Sched) (n : Nat) (FS : Nat → FState)
    (out : List ℝ) : Res Sweep :=
  ((List.range n).reverse).foldlM (fun s k => sweepStep M nl E (Sk k) C P (n - 1) off w ls D (FS k) (FS (k + 1)) s)
    ⟨zeroAdj M nl, zeroAdj M nl, zero3 M nl nl, out⟩

/-- `addCriterionPartialDerivativeZ`, PlasticityProblem.hpp:960-984; `fZ k` is what `gradient_z` returns for step `k`. -/
noncomputable def addCriterionZ (Sk : Nat → Sched) (n : Nat) (fZ : Nat → Res (V2 ℝ)) (out : List ℝ) : Res (List ℝ) :=
  (List.range n).foldlM (fun g k => do
    let w ← fZ k
    assembleResidual M.npc 1 M.c2n none M.nc (V2.view w) (Sk k).grad g) out

/-- `criterionGradient`, PlasticityProblem.hpp:554-580. -/
noncomputable def criterionGradientZ (ls : Crs ℝ → List ℝ → List ℝ → Res (List ℝ)) (D : Bcs) (Sk : Nat → Sched) (n : Nat)
    (FS : Nat → FState) (fZ : Nat → Res (V2 ℝ)) : Res (List ℝ) := do
  let s ← backward M nl E C P off .control ls D Sk n FS (List.replicate M.nn 0)
  addCriterionZ M Sk n fZ s.grad

/-- `criterionGradientX`, PlasticityProblem.hpp:660-684: the vector has an entry for every coordinate of one cell
(`mNumConfigDofsPerCell`); `fX k` is what `gradient_x` of the criterion returns for step `k`. -/
noncomputable def criterionGradientX (ls : Crs ℝ → List ℝ → List ℝ → Res (List ℝ)) (D : Bcs) (Sk : Nat → Sched) (n : Nat)
    (FS : Nat → FState) (fX : Nat → Res (V2 ℝ)) : Res (List ℝ) := do
  let s ← backward M nl E C P off .configuration ls D Sk n FS (List.replicate (M.npc * M.dim) 0)
  (List.range n).foldlM (fun g k => do
    let w ← fX k
    assembleResidual M.npc M.dim M.c2n none M.nc (V2.view w) (Sk k).grad g) s.grad

end
end Plato.Cond
