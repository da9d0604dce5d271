import Verif.Mech.Fad
import Verif.Fem.AssemblyModel
import Verif.Fem.GraphModel
import Verif.Blas.Model

/-!
# Model of the vector function: residual and its three gradients

/repo/src/elliptic/VectorFunction.hpp: `value` (230-315), `gradient_x` (317-408), `gradient_u_T`
(410-502), `gradient_u` (503-597), `gradient_z` (598-693), with the worksets of
/repo/src/Assembly.hpp:596-1168.

Each of the five functions is instantiated with its own evaluation type: the residual with plain
numbers, the gradients with automatic differentiation values of which exactly one of state, control and
configuration is seeded.  `mk l v` below builds the entry with local number `l` from the plain number
`v`: a constant or a seeded independent variable.

Simplifications: the evaluators are found by position of the domain instead of by name; one control
per node; the time step is part of the evaluator.
-/

namespace Plato.Mech
open Plato

variable {K R : Type}

/-- A finite element mesh with its domains: what `SpatialModel` and the mesh tell the function.
`c2n` is the cell-to-node table with `npc` nodes per cell, `orm`/`oab` the node-to-node graph. -/
structure FeModel where
  /-- spatial dimensions -/
  dim : Nat
  /-- unknowns per node -/
  ndof : Nat
  /-- cells of the mesh -/
  nc : Nat
  /-- nodes of the mesh -/
  nn : Nat
  /-- cell to node -/
  c2n : List Nat
  /-- node to node offsets -/
  orm : List Nat
  /-- node to node entries -/
  oab : List Nat
  /-- cell ordinals of each domain -/
  domains : List (List Nat)

/-- Nodes per cell of a simplex. -/
def FeModel.npc (M : FeModel) : Nat := M.dim + 1

/-- Cells of a part: a domain or, for the boundary terms, the mesh. -/
def FeModel.size (M : FeModel) : Option (List Nat) → Nat
  | some cells => cells.length
  | none => M.nc

/-- `workset_state_scalar_scalar`, `workset_state_scalar_fad` (/repo/src/Assembly.hpp:741-895);
`workset_control_scalar_scalar`, `workset_control_scalar_fad` (596-737) are the case `d = 1`.
`StateFad(numDofsPerCell, localNumber, value)`: the seeded variant. -/
def workset (mk : Nat → K → R) (npc d : Nat) (c2n : List Nat) (dom : Option (List Nat)) (u : List K)
    (order : List Nat) (ws : V2 R) : Res (V2 R) :=
  parFor order ws fun c ws => do
    let gc ← cellOf dom c
    forRange 0 d ws fun dof ws =>
      forRange 0 npc ws fun node ws => do
        let p ← vectorEntryOrdinal npc d c2n gc node dof
        let a ← rd u p
        vwr2 ws c (node * d + dof) (mk (node * d + dof) a)

/-- `NodeCoordinate::operator()`, /repo/src/ImplicitFunctors.hpp:51-58 -/
def nodeCoordinate (npc dim : Nat) (c2n : List Nat) (coords : List K) (cell node k : Nat) : Res K := do
  let a ← rd c2n (cell * npc + node)
  rd coords (a * dim + k)

/-- `workset_config_scalar` and `workset_config_fad`, /repo/src/Assembly.hpp:1009-1168. -/
def worksetConfig (mk : Nat → K → R) (npc dim : Nat) (c2n : List Nat) (dom : Option (List Nat))
    (coords : List K) (order : List Nat) (ws : V3 R) : Res (V3 R) :=
  parFor order ws fun c ws => do
    let gc ← cellOf dom c
    forRange 0 dim ws fun k ws =>
      forRange 0 npc ws fun node ws => do
        let x ← nodeCoordinate npc dim c2n coords gc node k
        vwr3 ws c node k (mk (node * dim + k) x)

/-- An evaluator: `mResidualFunctions`, `mJacobianUFunctions`, ...  `evaluate k` is the function of
domain `k`; for `k` equal to the number of domains it is `evaluate_boundary` of the first one. -/
abbrev Evaluator (R : Type) := Nat → V2 R → V2 R → V3 R → V2 R → Res (V2 R)

/-- The common part of the five functions: worksets, fresh result, evaluation
(/repo/src/elliptic/VectorFunction.hpp:255-277 and its copies). -/
def FeModel.cellResults [Zero R] (M : FeModel) (mkS mkZ mkX : Nat → K → R) (ev : Evaluator R)
    (dom : Option (List Nat)) (k : Nat) (sch : Nat → Nat → List Nat) (u z x : List K) : Res (V2 R) := do
  let s ← workset mkS M.npc M.ndof M.c2n dom u (sch k 0) ⟨M.size dom, M.npc * M.ndof, fun _ _ => 0⟩
  let c ← workset mkZ M.npc 1 M.c2n dom z (sch k 1) ⟨M.size dom, M.npc, fun _ _ => 0⟩
  let g ← worksetConfig mkX M.npc M.dim M.c2n dom x (sch k 2) ⟨M.size dom, M.npc, M.dim, fun _ _ _ => 0⟩
  ev k s c g ⟨M.size dom, M.npc * M.ndof, fun _ _ => 0⟩

/-- The loop over the domains followed by the block for the boundary.  `Domains.front()` of a model
without domains is undefined. -/
def FeModel.overDomains {σ : Type} (M : FeModel) (body : Option (List Nat) → Nat → σ → Res σ) (s : σ) :
    Res σ := do
  let s ← forRange 0 M.domains.length s fun k s => do
    let cells ← rd M.domains k
    body (some cells) k s
  if M.domains.length = 0 then Res.ub else body none M.domains.length s

/-- A residual workset as the assembly functions read it. -/
def V2.view2 (r : V2 R) : View2 R := ⟨r.d0, r.d1, r.e⟩

/-- The derivative components of a workset, as `assemble_jacobian_fad` reads them
(/repo/src/Assembly.hpp: `aJacobianWorkset(cell, row).dx(column)`). -/
noncomputable def V2.fadView (r : V2 Fad) (n : Nat) : View3 ℝ := ⟨r.d0, r.d1, n, fun c i k => (r.e c i).dx k⟩

/-- Seeds of the independent variables and constants for the others. -/
noncomputable def seedOf : Nat → ℝ → Fad := fun l v => Fad.seed l v
/-- Plain numbers as automatic differentiation values. -/
noncomputable def constOf : Nat → ℝ → Fad := fun _ v => Fad.const v
/-- Plain numbers. -/
def plainOf : Nat → ℝ → ℝ := fun _ v => v

/-- `VectorFunction::value`, /repo/src/elliptic/VectorFunction.hpp:230-315 -/
def FeModel.value (M : FeModel) (ev : Evaluator ℝ) (sch : Nat → Nat → List Nat) (u z x : List ℝ) :
    Res (List ℝ) :=
  M.overDomains (fun dom k v => do
    let r ← M.cellResults plainOf plainOf plainOf ev dom k sch u z x
    assembleResidual M.npc M.ndof M.c2n dom (M.size dom) (V2.view2 r) (sch k 3) v)
    (List.replicate (M.ndof * M.nn) 0)

/-- `VectorFunction::gradient_u`, /repo/src/elliptic/VectorFunction.hpp:503-597 -/
noncomputable def FeModel.gradientU (M : FeModel) (ev : Evaluator Fad) (o : List Nat)
    (sch : Nat → Nat → List Nat) (u z x : List ℝ) : Res (Crs ℝ) := do
  let A ← createBlockMatrix M.ndof M.ndof o M.orm M.oab
  M.overDomains (fun dom k A => do
    let r ← M.cellResults seedOf constOf constOf ev dom k sch u z x
    assembleJacobian (blockEntryOrdinal M.npc M.ndof M.ndof A M.c2n) dom (M.size dom)
      (M.npc * M.ndof) (M.npc * M.ndof) (V2.fadView r (M.npc * M.ndof)) (sch k 3) A) A

/-- `VectorFunction::gradient_u_T`, /repo/src/elliptic/VectorFunction.hpp:410-502 -/
noncomputable def FeModel.gradientUT (M : FeModel) (ev : Evaluator Fad) (o : List Nat)
    (sch : Nat → Nat → List Nat) (u z x : List ℝ) : Res (Crs ℝ) := do
  let A ← createBlockMatrix M.ndof M.ndof o M.orm M.oab
  M.overDomains (fun dom k A => do
    let r ← M.cellResults seedOf constOf constOf ev dom k sch u z x
    assembleJacobian (blockTransposeEntryOrdinal M.npc M.ndof A M.c2n) dom (M.size dom)
      (M.npc * M.ndof) (M.npc * M.ndof) (V2.fadView r (M.npc * M.ndof)) (sch k 3) A) A

/-- `VectorFunction::gradient_z`, /repo/src/elliptic/VectorFunction.hpp:598-693: the transpose of the
derivative, one row for each control. -/
noncomputable def FeModel.gradientZ (M : FeModel) (ev : Evaluator Fad) (o : List Nat)
    (sch : Nat → Nat → List Nat) (u z x : List ℝ) : Res (Crs ℝ) := do
  let A ← createBlockMatrix 1 M.ndof o M.orm M.oab
  M.overDomains (fun dom k A => do
    let r ← M.cellResults constOf seedOf constOf ev dom k sch u z x
    assembleTransposeJacobian (blockEntryOrdinal M.npc 1 M.ndof A M.c2n) dom (M.size dom)
      (M.npc * M.ndof) (M.npc * 1) (V2.fadView r (M.npc * 1)) (sch k 3) A) A

/-- `VectorFunction::gradient_x`, /repo/src/elliptic/VectorFunction.hpp:317-408: the transpose of the
derivative, `dim` rows for each node. -/
noncomputable def FeModel.gradientX (M : FeModel) (ev : Evaluator Fad) (o : List Nat)
    (sch : Nat → Nat → List Nat) (u z x : List ℝ) : Res (Crs ℝ) := do
  let A ← createBlockMatrix M.dim M.ndof o M.orm M.oab
  M.overDomains (fun dom k A => do
    let r ← M.cellResults constOf constOf seedOf ev dom k sch u z x
    assembleTransposeJacobian (blockEntryOrdinal M.npc M.dim M.ndof A M.c2n) dom (M.size dom)
      (M.npc * M.ndof) (M.npc * M.dim) (V2.fadView r (M.npc * M.dim)) (sch k 3) A) A

end Plato.Mech
