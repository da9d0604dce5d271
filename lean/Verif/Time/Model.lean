import Mathlib.Algebra.Field.Defs
import Verif.Time.Constrain

/-!
# Model of the steady, parabolic and hyperbolic problem drivers

Modelled sources: `/repo/src/elliptic/Problem.hpp`, `/repo/src/parabolic/Problem.hpp`,
`/repo/src/parabolic/TrapezoidIntegrator.hpp`, `/repo/src/hyperbolic/HyperbolicProblem.hpp`,
`/repo/src/hyperbolic/Newmark.hpp`.

Simplifications: a state vector is a function on a finite index type `ι` of degrees of freedom, a
design vector (controls `z` or configuration `x`: the two gradient functions differ only in which
derivative of the criterion and of the residual they use) a function on `ζ`; sparse matrices are
represented by the dense matrix they stand for (C01, C07, C09 connect the two).  The assembled
residual and its derivative matrices are parameters, as is the linear solver, which receives the
initial guess as the C++ solver does.  Norm tests are arbitrary predicates.  Output (`std::cout`)
and the data map used for visualisation are left out.
-/

namespace Plato

open Matrix

variable {K ι ζ : Type} [Field K] [Fintype ι] [DecidableEq ι]

/-- `for(k = lo; k < lo + n; k++) body`. -/
def loopUp {σ : Type*} (body : Nat → σ → σ) : Nat → Nat → σ → σ
  | 0, _, s => s
  | n + 1, lo, s => loopUp body n (lo + 1) (body lo s)

/-- `for(k = n; k > 0; k--) body`. -/
def loopDown {σ : Type*} (body : Nat → σ → σ) : Nat → σ → σ
  | 0, s => s
  | n + 1, s => loopDown body n (body (n + 1) s)

/-- Replace one row of a history (`Kokkos::subview(m, k, ALL())` written to). -/
def setStep (h : Nat → ι → K) (k : Nat) (x : ι → K) : Nat → ι → K := Function.update h k x

/-- A linear solver: matrix, initial guess, right hand side. `mSolver->solve(A, x, b)`. -/
abbrev LinSolver (K ι : Type) := Matrix ι ι K → (ι → K) → (ι → K) → (ι → K)

/-- Scale of the prescribed values in Newton iteration `it`: `tScale` in
/repo/src/parabolic/Problem.hpp:330 and /repo/src/elliptic/Problem.hpp:284. -/
def newtonScale (it : Nat) : K := if it = 0 then 1 else 0

/-! ## Newmark integrator -/

/-- `Plato::NewmarkIntegrator`, /repo/src/hyperbolic/Newmark.hpp:11-24. -/
structure Newmark (K : Type) where
  gamma : K
  beta : K

namespace Newmark
variable (m : Newmark K)

/-- /repo/src/hyperbolic/Newmark.hpp:31-37 -/
def vGradU (dt : K) : K := -m.gamma / (m.beta * dt)
/-- /repo/src/hyperbolic/Newmark.hpp:39-45 -/
def vGradUPrev (dt : K) : K := m.gamma / (m.beta * dt)
/-- /repo/src/hyperbolic/Newmark.hpp:47-53 -/
def vGradVPrev (_dt : K) : K := m.gamma / m.beta - 1
/-- /repo/src/hyperbolic/Newmark.hpp:55-61 -/
def vGradAPrev (dt : K) : K := (m.gamma / (2 * m.beta) - 1) * dt
/-- /repo/src/hyperbolic/Newmark.hpp:63-69 -/
def aGradU (dt : K) : K := -1 / (m.beta * dt * dt)
/-- /repo/src/hyperbolic/Newmark.hpp:71-77 -/
def aGradUPrev (dt : K) : K := 1 / (m.beta * dt * dt)
/-- /repo/src/hyperbolic/Newmark.hpp:79-85 -/
def aGradVPrev (dt : K) : K := 1 / (m.beta * dt)
/-- /repo/src/hyperbolic/Newmark.hpp:87-93 -/
def aGradAPrev (_dt : K) : K := 1 / (2 * m.beta) - 1

/-- `v_value`, /repo/src/hyperbolic/Newmark.hpp:95-119 -/
def vValue (U Up V Vp _A Ap : ι → K) (dt : K) : ι → K := fun i =>
  let predV := Vp i + (1 - m.gamma) * dt * Ap i
  let predU := Up i + dt * Vp i + dt * dt / 2 * (1 - 2 * m.beta) * Ap i
  V i - predV - m.gamma / (m.beta * dt) * (U i - predU)

/-- `a_value`, /repo/src/hyperbolic/Newmark.hpp:121-143 -/
def aValue (U Up _V Vp A Ap : ι → K) (dt : K) : ι → K := fun i =>
  let predU := Up i + dt * Vp i + dt * dt / 2 * (1 - 2 * m.beta) * Ap i
  A i - 1 / (m.beta * dt * dt) * (U i - predU)

end Newmark

/-! ## Hyperbolic problem -/

/-- The assembled residual `mPDEConstraint` and its derivative matrices
(/repo/src/hyperbolic/HyperbolicVectorFunction.hpp); the last argument is the current time.
`gradZ` is assembled transposed: row = design variable, column = degree of freedom. -/
structure HypPde (K ι ζ : Type) where
  value : (ι → K) → (ι → K) → (ι → K) → (ζ → K) → K → ι → K
  gradU : (ι → K) → (ι → K) → (ι → K) → (ζ → K) → K → Matrix ι ι K
  gradV : (ι → K) → (ι → K) → (ι → K) → (ζ → K) → K → Matrix ι ι K
  gradA : (ι → K) → (ι → K) → (ι → K) → (ζ → K) → K → Matrix ι ι K
  gradZ : (ι → K) → (ι → K) → (ι → K) → (ζ → K) → K → Matrix ζ ι K

/-- Time history of displacement, velocity and acceleration. -/
structure HypHist (K ι : Type) where
  U : Nat → ι → K
  V : Nat → ι → K
  A : Nat → ι → K

/-- Partial derivatives of a criterion, with respect to the history of a step and the design. -/
structure HypCriterion (K ι ζ : Type) where
  gradU : HypHist K ι → (ζ → K) → Nat → ι → K
  gradV : HypHist K ι → (ζ → K) → Nat → ι → K
  gradA : HypHist K ι → (ζ → K) → Nat → ι → K
  gradZ : HypHist K ι → (ζ → K) → ζ → K

/-- Constant data of `HyperbolicProblem`, /repo/src/hyperbolic/HyperbolicProblem.hpp:30-77. -/
structure HypProblem (K ι ζ : Type) where
  pde : HypPde K ι ζ
  integ : Newmark K
  dt : K
  numSteps : Nat
  /-- `mStateBoundaryConditions.get(…, time)` -/
  bc : K → Dirichlet K ι
  solve : LinSolver K ι
  initU : ι → K
  initV : ι → K
  initA : ι → K

/-- Member variables written by the modelled functions. -/
structure HypState (K ι : Type) where
  hist : HypHist K ι
  adjU : Nat → ι → K
  adjV : Nat → ι → K
  adjA : Nat → ι → K
  /-- `mStateBcDofs`, `mStateBcValues` -/
  con : Dirichlet K ι
  /-- `tCurrentTime` -/
  time : K

namespace HypProblem
variable (P : HypProblem K ι ζ)

/-- One pass of the time loop, /repo/src/hyperbolic/HyperbolicProblem.hpp:285-365. -/
def forwardStep (z : ζ → K) (k : Nat) (s : HypState K ι) : HypState K ι :=
  let t := s.time + P.dt
  let Up := s.hist.U (k - 1)
  let Vp := s.hist.V (k - 1)
  let Ap := s.hist.A (k - 1)
  let U := s.hist.U k
  let V := s.hist.V k
  let A := s.hist.A k
  let res := -P.pde.value U V A z t
  let resV := P.integ.vValue U Up V Vp A Ap P.dt
  let Jv := P.pde.gradV U V A z t
  let res := res + Jv *ᵥ resV
  let resA := P.integ.aValue U Up V Vp A Ap P.dt
  let Ja := P.pde.gradA U V A z t
  let res := res + Ja *ᵥ resA
  let Ju := P.pde.gradU U V A z t
  let Rvu := P.integ.vGradU P.dt
  let Ju := Ju + (-Rvu) • Jv
  let Rau := P.integ.aGradU P.dt
  let Ju := Ju + (-Rau) • Ja
  let con := P.bc t
  let d := P.solve (conMat con Ju) 0 (conRhs 1 con Ju res)
  let resV := resV + Rvu • d
  let V := V - resV
  let resA := resA + Rau • d
  let A := A - resA
  let U := U + d
  { s with
    hist := ⟨setStep s.hist.U k U, setStep s.hist.V k V, setStep s.hist.A k A⟩
    con := con
    time := t }

/-- `solution`, /repo/src/hyperbolic/HyperbolicProblem.hpp:266-367: the histories are set to zero
(272-274), the initial conditions copied (278-280), then the time loop runs. -/
def solution (z : ζ → K) (s : HypState K ι) : HypState K ι :=
  loopUp (P.forwardStep z) (P.numSteps - 1) 1
    { s with
      hist := ⟨setStep (fun _ => 0) 0 P.initU, setStep (fun _ => 0) 0 P.initV,
        setStep (fun _ => 0) 0 P.initA⟩
      time := 0 }

/-- One pass of the backward loop of `criterionGradient`,
/repo/src/hyperbolic/HyperbolicProblem.hpp:494-610 (and, with configuration variables in place of
controls, of `criterionGradientX`, lines 690-806). -/
def backwardStep (F : HypCriterion K ι ζ) (z : ζ → K) (k : Nat) (s : HypState K ι × (ζ → K)) :
    HypState K ι × (ζ → K) :=
  let st := s.1
  let U := st.hist.U k
  let V := st.hist.V k
  let A := st.hist.A k
  let more := k ≠ P.numSteps - 1
  let Lv := st.adjV (k + 1)
  let La := st.adjA (k + 1)
  let dFdu := F.gradU st.hist z k
  let dFdv := F.gradV st.hist z k
  let dFda := F.gradA st.hist z k
  let dFdu := if more then dFdu + P.integ.vGradUPrev P.dt • Lv + P.integ.aGradUPrev P.dt • La
    else dFdu
  let dFdv := if more then dFdv + P.integ.vGradVPrev P.dt • Lv + P.integ.aGradVPrev P.dt • La
    else dFdv
  let dFda := if more then dFda + P.integ.vGradAPrev P.dt • Lv + P.integ.aGradAPrev P.dt • La
    else dFda
  let Rvu := P.integ.vGradU P.dt
  let Rau := P.integ.aGradU P.dt
  let rhs := -dFdu + Rvu • dFdv + Rau • dFda
  let Ju := P.pde.gradU U V A z st.time
  let Jv := P.pde.gradV U V A z st.time
  let Ja := P.pde.gradA U V A z st.time
  let J := Ju + (-Rvu) • Jv + (-Rau) • Ja
  let Lu := P.solve (conMat st.con J) (st.adjU k) (conRhs 1 st.con J rhs)
  let dFdv := dFdv + Jv *ᵥ Lu
  let dFda := dFda + Ja *ᵥ Lu
  let Rz := P.pde.gradZ U V A z st.time
  ({ st with
      adjU := setStep st.adjU k Lu
      adjV := setStep st.adjV k (-dFdv)
      adjA := setStep st.adjA k (-dFda)
      time := st.time - P.dt },
    s.2 + Rz *ᵥ Lu)

/-- `criterionGradient(aControl, aSolution, aCriterion)`,
/repo/src/hyperbolic/HyperbolicProblem.hpp:475-613.  The solution argument is not used (line 487);
the loop starts at time `dt * numSteps` (line 493). -/
def criterionGradient (F : HypCriterion K ι ζ) (z : ζ → K) (s : HypState K ι) :
    HypState K ι × (ζ → K) :=
  loopDown (P.backwardStep F z) (P.numSteps - 1)
    ({ s with time := P.dt * (P.numSteps : K) }, F.gradZ s.hist z)

end HypProblem

/-! ## Trapezoid integrator and parabolic problem -/

/-- `Plato::Parabolic::TrapezoidIntegrator`, /repo/src/parabolic/TrapezoidIntegrator.hpp:13-25. -/
structure Trapezoid (K : Type) where
  alpha : K

namespace Trapezoid
variable (m : Trapezoid K)

/-- /repo/src/parabolic/TrapezoidIntegrator.hpp:32-38 -/
def vGradU (dt : K) : K := -1 / (m.alpha * dt)
/-- /repo/src/parabolic/TrapezoidIntegrator.hpp:40-46 -/
def vGradUPrev (dt : K) : K := 1 / (m.alpha * dt)
/-- /repo/src/parabolic/TrapezoidIntegrator.hpp:48-54 -/
def vGradVPrev (_dt : K) : K := (1 - m.alpha) / m.alpha

/-- `v_value`, /repo/src/parabolic/TrapezoidIntegrator.hpp:57-76 -/
def vValue (U Up V Vp : ι → K) (dt : K) : ι → K := fun i =>
  V i - 1 / (m.alpha * dt) * (U i - Up i - dt * (1 - m.alpha) * Vp i)

end Trapezoid

/-- The assembled residual and its derivative matrices
(/repo/src/parabolic/VectorFunction.hpp). -/
structure ParPde (K ι ζ : Type) where
  value : (ι → K) → (ι → K) → (ζ → K) → ι → K
  gradU : (ι → K) → (ι → K) → (ζ → K) → Matrix ι ι K
  gradV : (ι → K) → (ι → K) → (ζ → K) → Matrix ι ι K
  gradZ : (ι → K) → (ι → K) → (ζ → K) → Matrix ζ ι K

/-- Time history of state and state rate. -/
structure ParHist (K ι : Type) where
  U : Nat → ι → K
  V : Nat → ι → K

/-- Partial derivatives of a criterion. -/
structure ParCriterion (K ι ζ : Type) where
  gradU : ParHist K ι → (ζ → K) → Nat → ι → K
  gradV : ParHist K ι → (ζ → K) → Nat → ι → K
  gradZ : ParHist K ι → (ζ → K) → ζ → K

/-- Constant data of `Parabolic::Problem`, /repo/src/parabolic/Problem.hpp:30-82.  `resSmall` and
`incSmall` are the tests `norm < mNewtonResTol` and `norm < mNewtonIncTol`. -/
structure ParProblem (K ι ζ : Type) where
  pde : ParPde K ι ζ
  integ : Trapezoid K
  dt : K
  numSteps : Nat
  numNewton : Nat
  resSmall : (ι → K) → Bool
  incSmall : (ι → K) → Bool
  /-- `mStateBcDofs`, `mStateBcValues`: read once in the constructor -/
  con : Dirichlet K ι
  solve : LinSolver K ι

namespace ParProblem
variable (P : ParProblem K ι ζ)

/-- Result of one pass of the Newton loop. -/
structure NewtonPass (K ι : Type) where
  U : ι → K
  V : ι → K
  /-- the increment was computed and added (not the `break` of line 326) -/
  updated : Bool
  /-- the loop is left -/
  stop : Bool

/-- One pass of the Newton loop, /repo/src/parabolic/Problem.hpp:296-356. -/
def newtonPass (z : ζ → K) (Up Vp : ι → K) (it : Nat) (U V : ι → K) : NewtonPass K ι :=
  let res := -P.pde.value U V z
  let resV := P.integ.vValue U Up V Vp P.dt
  let Jv := P.pde.gradV U V z
  let res := res + Jv *ᵥ resV
  let Ju := P.pde.gradU U V z
  let Rvu := P.integ.vGradU P.dt
  let Ju := Ju + (-Rvu) • Jv
  if P.numNewton > 1 ∧ P.resSmall res = true then ⟨U, V, false, true⟩
  else
    let d := P.solve (conMat P.con Ju) 0 (conRhs (newtonScale it) P.con Ju res)
    let resV := resV + Rvu • d
    ⟨U + d, V - resV, true, decide (P.numNewton > 1) && P.incSmall d⟩

/-- The Newton loop from iteration `it` on, with `fuel` iterations left. -/
def newtonLoop (z : ζ → K) (Up Vp : ι → K) : Nat → Nat → (ι → K) → (ι → K) → (ι → K) × (ι → K)
  | 0, _, U, V => (U, V)
  | fuel + 1, it, U, V =>
    let r := P.newtonPass z Up Vp it U V
    if r.stop then (r.U, r.V) else newtonLoop z Up Vp fuel (it + 1) r.U r.V

/-- One time step, /repo/src/parabolic/Problem.hpp:289-364. -/
def forwardStep (z : ζ → K) (k : Nat) (h : ParHist K ι) : ParHist K ι :=
  let r := P.newtonLoop z (h.U (k - 1)) (h.V (k - 1)) P.numNewton 0 (h.U k) (h.V k)
  ⟨setStep h.U k r.1, setStep h.V k r.2⟩

/-- `solution`, /repo/src/parabolic/Problem.hpp:276-366.  The stored history is *not* reset. -/
def solution (z : ζ → K) (h : ParHist K ι) : ParHist K ι :=
  loopUp (P.forwardStep z) (P.numSteps - 1) 1 h

/-- One pass of the backward loop of `criterionGradient`,
/repo/src/parabolic/Problem.hpp:514-578 (and of `criterionGradientX`, lines 669-735). -/
def backwardStep (F : ParCriterion K ι ζ) (z : ζ → K) (h : ParHist K ι) (k : Nat)
    (s : ((Nat → ι → K) × (Nat → ι → K)) × (ζ → K)) :
    ((Nat → ι → K) × (Nat → ι → K)) × (ζ → K) :=
  let U := h.U k
  let V := h.V k
  let more := k ≠ P.numSteps - 1
  let Lv := s.1.2 (k + 1)
  let dFdu := F.gradU h z k
  let dFdv := F.gradV h z k
  let dFdu := if more then dFdu + P.integ.vGradUPrev P.dt • Lv else dFdu
  let dFdv := if more then dFdv + P.integ.vGradVPrev P.dt • Lv else dFdv
  let Rvu := P.integ.vGradU P.dt
  let rhs := -dFdu + Rvu • dFdv
  let Ju := P.pde.gradU U V z
  let Jv := P.pde.gradV U V z
  let J := Ju + (-Rvu) • Jv
  let Lu := P.solve (conMat P.con J) (s.1.1 k) (conRhs 1 P.con J rhs)
  let dFdv := dFdv + Jv *ᵥ Lu
  let Rz := P.pde.gradZ U V z
  ((setStep s.1.1 k Lu, setStep s.1.2 k (-dFdv)), s.2 + Rz *ᵥ Lu)

/-- `criterionGradient`, /repo/src/parabolic/Problem.hpp:496-581; `adj` are the stored adjoint
vectors of earlier calls. -/
def criterionGradient (F : ParCriterion K ι ζ) (z : ζ → K) (h : ParHist K ι)
    (adj : (Nat → ι → K) × (Nat → ι → K)) : ((Nat → ι → K) × (Nat → ι → K)) × (ζ → K) :=
  loopDown (P.backwardStep F z h) (P.numSteps - 1) (adj, F.gradZ h z)

end ParProblem

/-! ## Elliptic (steady) problem -/

/-- The assembled residual and its derivative matrices (/repo/src/elliptic/VectorFunction.hpp):
`gradUT` is assembled by `gradient_u_T`. -/
structure EllPde (K ι ζ : Type) where
  value : (ι → K) → (ζ → K) → ι → K
  gradU : (ι → K) → (ζ → K) → Matrix ι ι K
  gradUT : (ι → K) → (ζ → K) → Matrix ι ι K
  gradZ : (ι → K) → (ζ → K) → Matrix ζ ι K

/-- Partial derivatives of a criterion. -/
structure EllCriterion (K ι ζ : Type) where
  gradU : (ι → K) → (ζ → K) → ι → K
  gradZ : (ι → K) → (ζ → K) → ζ → K

/-- Constant data of `Elliptic::Problem`, /repo/src/elliptic/Problem.hpp:40-100. -/
structure EllProblem (K ι ζ : Type) where
  pde : EllPde K ι ζ
  numNewton : Nat
  resSmall : (ι → K) → Bool
  incSmall : (ι → K) → Bool
  con : Dirichlet K ι
  solve : LinSolver K ι
  selfAdjoint : Bool

namespace EllProblem
variable (P : EllProblem K ι ζ)

/-- One pass of the Newton loop, /repo/src/elliptic/Problem.hpp:268-301: the new state and whether
the loop is left. -/
def newtonPass (z : ζ → K) (it : Nat) (u : ι → K) : (ι → K) × Bool :=
  let res := -P.pde.value u z
  if P.numNewton > 1 ∧ P.resSmall res = true then (u, true)
  else
    let J := P.pde.gradU u z
    let d := P.solve (conMat P.con J) 0 (conRhs (newtonScale it) P.con J res)
    (u + d, decide (P.numNewton > 1) && P.incSmall d)

/-- The Newton loop from iteration `it` on, with `fuel` iterations left. -/
def newtonLoop (z : ζ → K) : Nat → Nat → (ι → K) → (ι → K)
  | 0, _, u => u
  | fuel + 1, it, u =>
    let r := P.newtonPass z it u
    if r.2 then r.1 else newtonLoop z fuel (it + 1) r.1

/-- `solution`, /repo/src/elliptic/Problem.hpp:258-311: the state `_old` of an earlier call is
overwritten with zeros (line 263). -/
def solution (z : ζ → K) (_old : ι → K) : ι → K :=
  P.newtonLoop z P.numNewton 0 0

/-- `criterionGradient`, /repo/src/elliptic/Problem.hpp:412-468, with `applyAdjointConstraints`
(lines 701-713: zero prescribed values, default scale). -/
def criterionGradient (F : EllCriterion K ι ζ) (z : ζ → K) (u adj : ι → K) : ζ → K :=
  if P.selfAdjoint then -F.gradZ u z
  else
    let rhs := -F.gradU u z
    let J := P.pde.gradUT u z
    let con0 : Dirichlet K ι := fun i => (P.con i).map fun _ => 0
    let L := P.solve (conMat con0 J) adj (conRhs 1 con0 J rhs)
    F.gradZ u z + P.pde.gradZ u z *ᵥ L

/-- `criterionGradientX`, /repo/src/elliptic/Problem.hpp:509-559: uses `gradient_u` and
`applyStateConstraints(…, 1.0)` (lines 540-541). -/
def criterionGradientX (F : EllCriterion K ι ζ) (x : ζ → K) (u adj : ι → K) : ζ → K :=
  if P.selfAdjoint then -F.gradZ u x
  else
    let rhs := -F.gradU u x
    let J := P.pde.gradU u x
    let L := P.solve (conMat P.con J) adj (conRhs 1 P.con J rhs)
    F.gradZ u x + P.pde.gradZ u x *ᵥ L

end EllProblem

end Plato
