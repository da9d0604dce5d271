import Verif.Time.TotalDeriv

/-!
# Model of the stabilised problem with a projected pressure gradient

Modelled source: `/repo/src/EllipticVMSProblem.hpp`, with `Plato::Solve::RowSummed`
(`/repo/src/Plato_Solve.hpp`) and `Plato::Condense` (`/repo/src/PlatoMathHelpers.hpp`).

Simplifications, as in `Verif/Time/Model.lean`: vectors are functions on finite index types (`ι`
degrees of freedom, `ν` nodes, `π` components of the projected gradient, `ζ` design variables:
controls or coordinates), sparse matrices are the dense matrices they stand for (C04 gives the
dense content of `Condense`), the assembled residuals with their derivative matrices and the linear
solver are parameters.  Left out: output to files, the look-up of criteria by name, the exceptions
for empty boundary conditions and for an empty control or state.
-/

namespace Plato.Vms

open Matrix

variable {K ι ν π ζ : Type} [Field K] [Fintype ι] [DecidableEq ι] [Fintype ν] [Fintype π]

/-- The assembled residual `mPDEConstraint` (`Plato::VectorFunctionVMS`,
/repo/src/VectorFunctionVMS.hpp) of the state, the projected gradient and the design.  `gradUT`,
`gradNT` and `gradZ` are assembled transposed. -/
structure Pde (K ι π ζ : Type) where
  value : (ι → K) → (π → K) → (ζ → K) → ι → K
  gradU : (ι → K) → (π → K) → (ζ → K) → Matrix ι ι K
  gradUT : (ι → K) → (π → K) → (ζ → K) → Matrix ι ι K
  gradNT : (ι → K) → (π → K) → (ζ → K) → Matrix π ι K
  gradZ : (ι → K) → (π → K) → (ζ → K) → Matrix ζ ι K

/-- The assembled projection residual `mStateProjection` of the projected gradient, the projected
field (one value per node) and the design.  `gradNT` and `gradZ` are assembled transposed. -/
structure Proj (K ν π ζ : Type) where
  value : (π → K) → (ν → K) → (ζ → K) → π → K
  gradU : (π → K) → (ν → K) → (ζ → K) → Matrix π π K
  gradNT : (π → K) → (ν → K) → (ζ → K) → Matrix ν π K
  gradZ : (π → K) → (ν → K) → (ζ → K) → Matrix ζ π K

/-- Partial derivatives of a criterion, with respect to the state of a step and the design. -/
structure Criterion (K ι ζ : Type) where
  gradU : (Nat → ι → K) → (ζ → K) → Nat → ι → K
  gradZ : (Nat → ι → K) → (ζ → K) → ζ → K

/-- Constant data of `EllipticVMSProblem`, /repo/src/EllipticVMSProblem.hpp:50-81. -/
structure Problem (K ι ν π ζ : Type) where
  pde : Pde K ι π ζ
  proj : Proj K ν π ζ
  numSteps : Nat
  numNewton : Nat
  con : Dirichlet K ι
  solve : LinSolver K ι
  /-- the entry of the state that `blas1::extract<mNumDofsPerNode, mProjectionDof>` reads for a
  node: `node * mNumDofsPerNode + mProjectionDof` -/
  pick : ν → ι
  /-- the entry that is read for a node when the whole state is handed over as if it had one value
  per node: the entry with the index of the node -/
  raw : ν → ι

/-- Members written by the modelled functions; `inc` is the local `tStateIncrement`, the initial
guess of the linear solver. -/
structure St (K ι ν π : Type) where
  hist : Nat → ι → K
  pgrad : π → K
  pstate : ν → K
  inc : ι → K
  lambda : Nat → ι → K
  eta : π → K

/-- `Plato::RowSum`, /repo/src/PlatoMathFunctors.hpp:13-66. -/
def rowSum (M : Matrix π π K) (i : π) : K := ∑ j, M i j

/-- `Plato::Solve::RowSummed`, /repo/src/Plato_Solve.hpp:21-45: the entries are assigned. -/
def rowSummed (M : Matrix π π K) (b : π → K) : π → K := fun i => 1 / rowSum M i * b i

/-- `Plato::RowSummedInverseMultiply`, /repo/src/PlatoMathHelpers.hpp:148-161: the second matrix is
replaced. -/
def rowScaled (C : Matrix π π K) (D : Matrix π ι K) : Matrix π ι K := fun i j => D i j / rowSum C i

/-- The rows of a matrix with one row per node placed at the entries of the projected field,
/repo/src/PlatoMathHelpers.hpp:492-493 (`aRowStride`, `aRowOffset`). -/
def spread (pick : ν → ι) (M : Matrix ν ι K) : Matrix ι ι K := fun i j =>
  ∑ v, if pick v = i then M v j else 0

namespace Problem
variable (P : Problem K ι ν π ζ)

/-- State of the Newton loop of one step. -/
structure Inner (K ι ν π : Type) where
  u : ι → K
  pgrad : π → K
  pstate : ν → K
  inc : ι → K

/-- One pass of the Newton loop, /repo/src/EllipticVMSProblem.hpp:305-329, with `applyConstraints`
(lines 223-244: prescribed values in the first pass, zeros afterwards). -/
def newtonPass (z : ζ → K) (it : Nat) (s : Inner K ι ν π) : Inner K ι ν π :=
  let res := -P.proj.value s.pgrad s.pstate z
  let jac := P.proj.gradU s.pgrad s.pstate z
  let pg := rowSummed jac res
  let J := P.pde.gradU s.u pg z
  let d := P.solve (conMat P.con J) s.inc
    (conRhs (newtonScale it) P.con J (-P.pde.value s.u pg z))
  let u := s.u + d
  ⟨u, pg, fun v => u (P.pick v), d⟩

/-- One step of the outer loop, /repo/src/EllipticVMSProblem.hpp:296-333: state, projected gradient
and projected field start from zero. -/
def step (z : ζ → K) (k : Nat) (s : St K ι ν π) : St K ι ν π :=
  let r := loopUp (P.newtonPass z) P.numNewton 0 ⟨0, 0, 0, s.inc⟩
  { s with hist := setStep s.hist k r.u, pgrad := r.pgrad, pstate := r.pstate, inc := r.inc }

/-- `solution`, /repo/src/EllipticVMSProblem.hpp:287-335. -/
def solution (z : ζ → K) (s : St K ι ν π) : St K ι ν π :=
  loopUp (P.step z) (P.numSteps - 1) 1 { s with inc := 0 }

/-- One pass of the backward loop of `criterionGradient`,
/repo/src/EllipticVMSProblem.hpp:489-543, and, with coordinates in place of controls, of
`criterionGradientX`, lines 639-695.  `Condense` (line 517) replaces `t_dg_dPI_T` by the scaled
matrix, which line 526 uses; line 539 hands over the whole state. -/
def backwardStep (F : Criterion K ι ζ) (z : ζ → K) (h : Nat → ι → K) (k : Nat)
    (s : St K ι ν π × (ζ → K)) : St K ι ν π × (ζ → K) :=
  let u := h k
  let rhs := -F.gradU h z k
  let n : ν → K := fun v => u (P.pick v)
  let res := -P.proj.value 0 n z
  let jac := P.proj.gradU 0 n z
  let pg := rowSummed jac res
  let B := P.proj.gradNT pg n z
  let D := rowScaled jac (P.pde.gradNT u pg z)
  let J := P.pde.gradUT u pg z - spread P.pick (B * D)
  let con0 : Dirichlet K ι := fun i => (P.con i).map fun _ => 0
  let L := P.solve (conMat con0 J) (s.1.lambda k) (conRhs 1 con0 J rhs)
  let eta := rowSummed jac (D *ᵥ L)
  let g := s.2 + P.pde.gradZ u pg z *ᵥ L
  ({ s.1 with lambda := setStep s.1.lambda k L, pgrad := pg, pstate := n, eta := eta },
    g + P.proj.gradZ pg (fun v => u (P.raw v)) z *ᵥ eta)

/-- `criterionGradient(aControl, aSolution, aCriterion)`, /repo/src/EllipticVMSProblem.hpp:464-546;
`criterionGradientX`, lines 615-698. -/
def criterionGradient (F : Criterion K ι ζ) (z : ζ → K) (h : Nat → ι → K) (s : St K ι ν π) :
    St K ι ν π × (ζ → K) :=
  loopDown (P.backwardStep F z h) (P.numSteps - 1) (s, F.gradZ h z)

end Problem

/-- The numbering of /repo/src/EllipticVMSProblem.hpp:327-328 with `D` degrees of freedom per node:
entry read by `extract`. -/
def pickOf {n D : Nat} (off : Fin D) (v : Fin n) : Fin (n * D) :=
  ⟨v * D + off, by
    calc v * D + off < v * D + D := by omega
      _ = (v + 1) * D := by ring
      _ ≤ n * D := Nat.mul_le_mul_right _ (by omega)⟩

/-- Entry read when the whole state is taken for a field with one value per node. -/
def rawOf {n D : Nat} (off : Fin D) (v : Fin n) : Fin (n * D) :=
  ⟨v, lt_of_lt_of_le v.2 (Nat.le_mul_of_pos_right _ off.pos)⟩

end Plato.Vms
