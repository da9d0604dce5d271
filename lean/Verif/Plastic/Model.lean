import Mathlib.Algebra.Order.Floor.Semiring
import Mathlib.Data.Rat.Floor
import Verif.Time.Adjoint
import Verif.Plastic.Newton

/-!
# The elasto-plastic problem: forward solve, retries, backward sweep (C33, C34, C35)

Modelled sources: `/repo/src/PlasticityProblem.hpp`, `/repo/src/NewtonRaphsonSolver.hpp`,
`/repo/src/PathDependentAdjointSolver.hpp`, `/repo/src/Plato_Solve.hpp`.

Vectors are functions on degrees of freedom: `ι` global, `κ` local (all cells), `π` projected
pressure gradient, `ν` pressure (nodes), `ζ` design, `η` nodes.  Simplifications: the residuals and
their derivative matrices are fields of a structure (`PlasEq`), in assembled form, while the code
condenses and transposes cell by cell before assembling; exact field arithmetic in the states;
convergence is decided with `Flt` numbers computed by `nrm`; the "Dirichlet" arrays are functions
on a set of degrees of freedom; output, the data map of the visualisation and the criteria update
are left out.  `log` is a ghost.
-/

namespace Plato

open Matrix Finset

/-- The current and previous, global and local states passed to every function. -/
structure PlasIn (K ι κ : Type) where
  u : ι → K
  up : ι → K
  c : κ → K
  cp : κ → K

/-- The residuals of the global equation `r`, of the local equation `h`, of the projection equation
`proj`, the derivatives the code evaluates, and `LocalVectorFunctionInc::updateLocalState`.  The
scalar argument of `r` is the entry `LoadControlConstant` of the data map, which multiplies the
loads (/repo/src/InfinitesimalStrainPlasticityResidual.hpp:258-303). -/
structure PlasEq (K ι κ π ν ζ : Type) where
  r : PlasIn K ι κ → (π → K) → (ζ → K) → K → Nat → ι → K
  rU : PlasIn K ι κ → (π → K) → (ζ → K) → K → Nat → Matrix ι ι K
  rUp : PlasIn K ι κ → (π → K) → (ζ → K) → K → Nat → Matrix ι ι K
  rC : PlasIn K ι κ → (π → K) → (ζ → K) → K → Nat → Matrix ι κ K
  rCp : PlasIn K ι κ → (π → K) → (ζ → K) → K → Nat → Matrix ι κ K
  rP : PlasIn K ι κ → (π → K) → (ζ → K) → K → Nat → Matrix ι π K
  rZ : PlasIn K ι κ → (π → K) → (ζ → K) → K → Nat → Matrix ι ζ K
  h : PlasIn K ι κ → (ζ → K) → Nat → κ → K
  hU : PlasIn K ι κ → (ζ → K) → Nat → Matrix κ ι K
  hUp : PlasIn K ι κ → (ζ → K) → Nat → Matrix κ ι K
  hC : PlasIn K ι κ → (ζ → K) → Nat → Matrix κ κ K
  hCp : PlasIn K ι κ → (ζ → K) → Nat → Matrix κ κ K
  hZ : PlasIn K ι κ → (ζ → K) → Nat → Matrix κ ζ K
  proj : (π → K) → (ν → K) → (ζ → K) → Nat → π → K
  projP : (π → K) → (ν → K) → (ζ → K) → Nat → Matrix π π K
  projN : (π → K) → (ν → K) → (ζ → K) → Nat → Matrix π ν K
  projZ : (π → K) → (ν → K) → (ζ → K) → Nat → Matrix π ζ K
  updLocal : PlasIn K ι κ → (ζ → K) → Nat → κ → K

/-- Value and partial derivatives of a criterion (`LocalScalarFunctionInc`). -/
structure PlasCriterion (K ι κ ζ : Type) where
  val : PlasIn K ι κ → (ζ → K) → Nat → K
  fU : PlasIn K ι κ → (ζ → K) → Nat → ι → K
  fUp : PlasIn K ι κ → (ζ → K) → Nat → ι → K
  fC : PlasIn K ι κ → (ζ → K) → Nat → κ → K
  fCp : PlasIn K ι κ → (ζ → K) → Nat → κ → K
  fZ : PlasIn K ι κ → (ζ → K) → Nat → ζ → K

/-- Constant data of `PlasticityProblem`, its Newton solver and its adjoint solver. -/
structure PlasProblem (F K ι κ π ν ζ η : Type) where
  eq : PlasEq K ι κ π ν ζ
  /-- `mLinearSolver->solve` -/
  solve : LinSolver K ι
  /-- `blas3::inverse` of the local Jacobian -/
  inv : Matrix κ κ K → Matrix κ κ K
  /-- degrees of freedom in `mDirichletDofs` -/
  isDir : ι → Bool
  /-- `mEssentialBCs->get(…, time)` -/
  bc : K → ι → K
  /-- global degree of freedom that stores the pressure of a node -/
  pres : ν → ι
  /-- displacement degrees of freedom of a node -/
  nodeDofs : η → List ι
  /-- `blas1::norm` -/
  nrm : (ι → K) → F
  nr : NrParams F
  /-- `mEndTime` -/
  endTime : K
  /-- `mMaxNumPseudoTimeSteps` -/
  maxSteps : Nat
  /-- `mPseudoTimeStepMultiplier` -/
  mult : ℚ

/-- What one pseudo-time step did (ghost). -/
structure StepLog (K ι : Type) where
  incr : ι → K
  load : K
  evals : Nat

/-- The members that change. -/
structure PlasState (K ι κ π η : Type) where
  /-- `mGlobalStates` -/
  u : Nat → ι → K
  /-- `mLocalStates` -/
  c : Nat → κ → K
  /-- `mProjectedPressGrad` -/
  p : Nat → π → K
  /-- `mReactionForce` -/
  react : Nat → η → K
  /-- `mDirichletValues` -/
  dirVals : ι → K
  /-- `mPreviousStepDirichletValues` -/
  prevDir : ι → K
  /-- `LoadControlConstant` -/
  load : K
  /-- `mNumPseudoTimeSteps` -/
  numSteps : Nat
  /-- `mPseudoTimeStep` -/
  stepSize : K
  /-- `mMaxNumPseudoTimeStepsReached` -/
  maxReached : Bool
  /-- `mStopOptimization` -/
  stopOpt : Bool
  log : List (StepLog K ι)

section
variable {F K ι κ π ν ζ η : Type} [Flt F] [Field K] [Fintype ι] [DecidableEq ι] [Fintype κ]
  [Fintype π] [Fintype ν] [Fintype ζ]

/-- `getPreviousState`, /repo/src/PlasticityProblem.hpp:904-919. -/
def prevOf {α : Type} (h : Nat → α → K) (k : Nat) : α → K := if k = 0 then 0 else h (k - 1)

/-- The states of step `k`: `cacheStateData`, `updateForwardState`,
/repo/src/PlasticityProblem.hpp:1069-1107. -/
def PlasState.at (s : PlasState K ι κ π η) (k : Nat) : PlasIn K ι κ :=
  ⟨s.u k, prevOf s.u k, s.c k, prevOf s.c k⟩

namespace PlasProblem
variable (P : PlasProblem F K ι κ π ν ζ η)

/-- `mDirichletDofs` with the values `v`. -/
def con (v : ι → K) : Dirichlet K ι := fun i => if P.isDir i then some (v i) else none

/-- The node pressures in a global state: `blas1::extract<mNumGlobalDofsPerNode,
mPressureDofOffset>`, /repo/src/PlasticityProblem.hpp:887. -/
def pressure (u : ι → K) : ν → K := fun n => u (P.pres n)

/-- `assembleTangentMatrix`, /repo/src/NewtonRaphsonSolver.hpp:206-278 and (before the transpose)
/repo/src/PathDependentAdjointSolver.hpp:198-267. -/
def tangent (a : PlasIn K ι κ) (p : π → K) (z : ζ → K) (load : K) (k : Nat) : Matrix ι ι K :=
  P.eq.rU a p z load k - P.eq.rC a p z load k * (P.inv (P.eq.hC a z k) * P.eq.hU a z k)

/-- `assembleResidual`, /repo/src/NewtonRaphsonSolver.hpp:294-332. -/
def residual (a : PlasIn K ι κ) (p : π → K) (z : ζ → K) (load : K) (k : Nat) : ι → K :=
  P.eq.r a p z load k - P.eq.rC a p z load k *ᵥ (P.inv (P.eq.hC a z k) *ᵥ P.eq.h a z k)

/-- One iteration of the Newton-Raphson solver, /repo/src/NewtonRaphsonSolver.hpp:591-623, with
`applyConstraints` (120-152), `updateGlobalStates` (164-189).  The prescribed increments are used
in iteration 0 and zeros later. -/
def nrSys (z : ζ → K) (up : ι → K) (cp : κ → K) (p : π → K) (load : K) (incr : ι → K) (k : Nat) :
    NrSys F ((ι → K) × (κ → K)) (Matrix ι ι K × (ι → K)) where
  eval it uc :=
    let a : PlasIn K ι κ := ⟨uc.1, up, uc.2, cp⟩
    let b := -(P.residual a p z load k)
    let J := P.tangent a p z load k
    let c := P.con (if it = 0 then incr else 0)
    if ∀ i, P.isDir i = false then throwErr "Essential Boundary Conditions are empty."
    else Res.ok (P.nrm (conRhs 1 c J b), (conMat c J, conRhs 1 c J b))
  upd _ sys uc :=
    let u := uc.1 + P.solve sys.1 0 sys.2
    Res.ok (u, P.eq.updLocal ⟨u, up, uc.2, cp⟩ z k)

/-- `NewtonRaphsonSolver::solve`, /repo/src/NewtonRaphsonSolver.hpp:570-628, with
`initializeSolver`: start from the previous states and update the local state (elastic trial).
The cut-off of the `while(true)` loop has no effect (C32). -/
def newton (z : ζ → K) (up : ι → K) (cp : κ → K) (p : π → K) (load : K) (incr : ι → K) (k : Nat) :
    Res (NrResult F ((ι → K) × (κ → K))) := do
  let c0 := P.eq.updLocal ⟨up, up, cp, cp⟩ z k
  match ← nrLoop P.nr (P.nrSys z up cp p load incr k) (P.nr.maxIter.toNat + 1) 0 NrOut.init []
      (up, c0) with
  | some r => Res.ok r
  | none => Res.ub

/-- `updateDispAndLoadControlMultipliers`, /repo/src/PlasticityProblem.hpp:848-870; the increment is
`dirVals - prevDir`. -/
def multipliers (k : Nat) (s : PlasState K ι κ π η) : PlasState K ι κ π η :=
  { s with
    load := s.stepSize * ((k + 1 : Nat) : K)
    prevDir := if k ≠ 0 then s.dirVals else 0
    dirVals := P.bc (s.stepSize * ((k + 1 : Nat) : K)) }

/-- `computeReactionForce`, /repo/src/PlasticityProblem.hpp:691-707. -/
def reaction (z : ζ → K) (k : Nat) (s : PlasState K ι κ π η) : PlasState K ι κ π η :=
  let f := P.eq.r (s.at k) (s.p k) z 0 k
  { s with
    load := 0
    react := Function.update s.react k fun n => s.react k n + ((P.nodeDofs n).map f).sum }

/-- `Plato::Solve::RowSummed`, /repo/src/Plato_Solve.hpp:22-45. -/
def rowSummed {α : Type} [Fintype α] (A : Matrix α α K) (b : α → K) : α → K := fun i =>
  b i / ∑ j, A i j

/-- `updateProjectedPressureGradient`, /repo/src/PlasticityProblem.hpp:877-896. -/
def project (z : ζ → K) (k : Nat) (s : PlasState K ι κ π η) : PlasState K ι κ π η :=
  if s.numSteps ≤ k + 1 then s
  else
    let n := P.pressure (s.u k)
    { s with
      p := Function.update s.p (k + 1)
        (rowSummed (P.eq.projP 0 n z (k + 1)) (-(P.eq.proj 0 n z (k + 1)))) }

/-- Body of the loop of `solveForwardProblem`, /repo/src/PlasticityProblem.hpp:807-838; the flag
tells whether the Newton-Raphson solver converged. -/
def forwardStep (z : ζ → K) (k : Nat) (s : PlasState K ι κ π η) : Res (PlasState K ι κ π η × Bool) :=
  do
  let s := P.multipliers k s
  let incr := s.dirVals - s.prevDir
  let r ← P.newton z (prevOf s.u k) (prevOf s.c k) (s.p k) s.load incr k
  let s : PlasState K ι κ π η := { s with
    u := Function.update s.u k r.state.1
    c := Function.update s.c k r.state.2
    log := s.log ++ [⟨incr, s.load, r.norms.length⟩] }
  let s := P.reaction z k s
  if didConverge r.crit = false then Res.ok (s, false)
  else Res.ok (P.project z k s, true)

/-- Loop of `solveForwardProblem`: `n` steps to go, from step `k`. -/
def forwardLoop (z : ζ → K) : Nat → Nat → PlasState K ι κ π η → Res (PlasState K ι κ π η × Bool)
  | 0, _, s => Res.ok (s, true)
  | n + 1, k, s => do
    let r ← P.forwardStep z k s
    if r.2 = false then Res.ok r else forwardLoop z n (k + 1) r.1

/-- `blas2::fill(0.0, …)` of the histories, /repo/src/PlasticityProblem.hpp:800-802. -/
def clear (s : PlasState K ι κ π η) : PlasState K ι κ π η :=
  { s with
    u := fun _ => 0
    c := fun _ => 0
    p := fun _ => 0
    log := [] }

/-- `solveForwardProblem`, /repo/src/PlasticityProblem.hpp:791-842. -/
def forward (z : ζ → K) (s : PlasState K ι κ π η) : Res (PlasState K ι κ π η × Bool) :=
  P.forwardLoop z s.numSteps 0 (clear s)

/-- `resizeTimeDependentStates`, /repo/src/PlasticityProblem.hpp:753-769 (`Kokkos::resize` keeps the
old contents; the new rows are zero). -/
def resize (s : PlasState K ι κ π η) : PlasState K ι κ π η :=
  let n := ⌊(s.numSteps : ℚ) * P.mult⌋₊
  let full := decide (P.maxSteps ≤ n)
  let n := if full then P.maxSteps else n
  { s with
    numSteps := n
    maxReached := s.maxReached || full
    stepSize := P.endTime / (n : K)
    prevDir := 0 }

/-- `solution`, /repo/src/PlasticityProblem.hpp:352-399; the `while` loop is cut off after `fuel`
attempts (`none`).  The flag is the verdict of the last attempt. -/
def solution (z : ζ → K) : Nat → PlasState K ι κ π η → Res (Option (PlasState K ι κ π η × Bool))
  | 0, _ => Res.ok none
  | fuel + 1, s => do
    let r ← P.forward z s
    if r.2 then Res.ok (some r)
    else if r.1.maxReached then Res.ok (some ({ r.1 with stopOpt := true }, false))
    else solution z fuel (P.resize r.1)

/-- Constructor and `initialize`, /repo/src/PlasticityProblem.hpp:215-271,715-733: the size of the
pseudo-time step is computed before the number of steps is cut down to the maximum. -/
def create (initialSteps : Nat) : PlasState K ι κ π η where
  u := fun _ => 0
  c := fun _ => 0
  p := fun _ => 0
  react := fun _ => 0
  dirVals := 0
  prevDir := 0
  load := 0
  numSteps := if P.maxSteps ≤ initialSteps then P.maxSteps else initialSteps
  stepSize := P.endTime / (initialSteps : K)
  maxReached := decide (P.maxSteps ≤ initialSteps)
  stopOpt := false
  log := []

/-- `AdjointStates`, /repo/src/PathDependentAdjointSolver.hpp (current values; the previous ones are
their copies at the beginning of a step, `updateAdjointState`). -/
structure Adj (K ι κ π : Type) where
  lam : ι → K
  mu : κ → K
  gam : π → K

/-- The terms of the next step in the local right hand sides,
/repo/src/PathDependentAdjointSolver.hpp:305-330,840-864. -/
def nextLocal (C : PlasCriterion K ι κ ζ) (z : ζ → K) (s : PlasState K ι κ π η) (k : Nat)
    (A : Adj K ι κ π) : κ → K :=
  if k ≠ s.numSteps - 1 then
    C.fCp (s.at (k + 1)) z (k + 1) + (P.eq.hCp (s.at (k + 1)) z (k + 1))ᵀ *ᵥ A.mu +
      (P.eq.rCp (s.at (k + 1)) (s.p (k + 1)) z s.load (k + 1))ᵀ *ᵥ A.lam
  else 0

/-- `computeProjPressGradAdjointRHS`, added to the pressure degrees of freedom,
/repo/src/PathDependentAdjointSolver.hpp:365-387,430-432. -/
def nextProj (z : ζ → K) (s : PlasState K ι κ π η) (k : Nat) (A : Adj K ι κ π) : ι → K := fun i =>
  ∑ n, if P.pres n = i then
    ((P.eq.projN (s.p (k + 1)) (P.pressure (s.u k)) z (k + 1))ᵀ *ᵥ A.gam) n else 0

/-- The terms of the next step in the global right hand side,
/repo/src/PathDependentAdjointSolver.hpp:421-450. -/
def nextGlobal (C : PlasCriterion K ι κ ζ) (z : ζ → K) (s : PlasState K ι κ π η) (k : Nat)
    (A : Adj K ι κ π) : ι → K :=
  if k ≠ s.numSteps - 1 then
    C.fUp (s.at (k + 1)) z (k + 1) + P.nextProj z s k A +
      (P.eq.rUp (s.at (k + 1)) (s.p (k + 1)) z s.load (k + 1))ᵀ *ᵥ A.lam +
      (P.eq.hUp (s.at (k + 1)) z (k + 1))ᵀ *ᵥ A.mu
  else 0

/-- `updateAdjointVariables`, /repo/src/PathDependentAdjointSolver.hpp:880-889, with
`updateGlobalAdjointVars` (774-793), `assembleGlobalAdjointRHS` (409-465),
`computeLocalAdjointRHS` (294-346), `updateLocalAdjointVars` (819-871),
`updateProjPressGradAdjointVars` (732-765). -/
def adjointStep (C : PlasCriterion K ι κ ζ) (z : ζ → K) (s : PlasState K ι κ π η) (k : Nat)
    (A : Adj K ι κ π) : Adj K ι κ π :=
  let a := s.at k
  let inv := P.inv (P.eq.hC a z k)
  let T := (P.tangent a (s.p k) z s.load k)ᵀ
  let loc := C.fC a z k + P.nextLocal C z s k A
  let rhs := -(C.fU a z k + P.nextGlobal C z s k A - (P.eq.hU a z k)ᵀ *ᵥ (invᵀ *ᵥ loc))
  let lam := P.solve (conMat (P.con 0) T) 0 (conRhs 1 (P.con 0) T rhs)
  let mu := -(invᵀ *ᵥ (C.fC a z k + (P.eq.rC a (s.p k) z s.load k)ᵀ *ᵥ lam +
    P.nextLocal C z s k A))
  let gam := if k = 0 then 0 else
    rowSummed (P.eq.projP (s.p k) (P.pressure (prevOf s.u k)) z k)ᵀ
      (-((P.eq.rP a (s.p k) z s.load k)ᵀ *ᵥ lam))
  ⟨lam, mu, gam⟩

/-- `addPDEpartialDerivativeZ`, /repo/src/PathDependentAdjointSolver.hpp:512-546. -/
def pdeGrad (z : ζ → K) (s : PlasState K ι κ π η) (k : Nat) (A : Adj K ι κ π) : ζ → K :=
  (P.eq.rZ (s.at k) (s.p k) z s.load k)ᵀ *ᵥ A.lam +
    (P.eq.projZ (s.p k) (P.pressure (s.u k)) z k)ᵀ *ᵥ A.gam + (P.eq.hZ (s.at k) z k)ᵀ *ᵥ A.mu

/-- One pass of the backward loop, /repo/src/PlasticityProblem.hpp:1048-1061. -/
def backwardStep (C : PlasCriterion K ι κ ζ) (z : ζ → K) (s : PlasState K ι κ π η) (k : Nat)
    (st : Adj K ι κ π × (ζ → K)) : Adj K ι κ π × (ζ → K) :=
  let A := P.adjointStep C z s k st.1
  (A, st.2 + P.pdeGrad z s k A)

/-- `criterionGradient`, /repo/src/PlasticityProblem.hpp:551-579, with `backwardTimeIntegration`
(1033-1062) and `addCriterionPartialDerivativeZ` (963-983); the adjoint solver throws when there are no prescribed
degrees of freedom (/repo/src/PathDependentAdjointSolver.hpp:474-477). -/
def criterionGradient (C : PlasCriterion K ι κ ζ) (z : ζ → K) (s : PlasState K ι κ π η) :
    Res (ζ → K) :=
  if s.stopOpt then throwErr "Newton-Raphson solver failed to converge during optimization."
  else if s.numSteps ≠ 0 ∧ ∀ i, P.isDir i = false then
    throwErr "Essential Boundary Conditions are empty."
  else
    let r := loopDown (fun j st => P.backwardStep C z s (j - 1) st) s.numSteps (⟨0, 0, 0⟩, 0)
    Res.ok (r.2 + ∑ k ∈ range s.numSteps, C.fZ (s.at k) z k)

/-- `evaluateCriterion`, /repo/src/PlasticityProblem.hpp:929-954. -/
def criterionValue (C : PlasCriterion K ι κ ζ) (z : ζ → K) (s : PlasState K ι κ π η) : K :=
  ∑ k ∈ range s.numSteps, C.val (s.at k) z k

end PlasProblem

end

end Plato
