import Verif.Crs.Model

/-!
# Model of entry look-up and of element assembly

`/repo/src/ImplicitFunctors.hpp:15-32, 556-722` and `/repo/src/Assembly.hpp`.

A kernel that updates a global view only with `Kokkos::atomic_add` is modelled in two steps: the
list of all atomic updates its threads issue (positions and values do not depend on the view that
is updated), and the execution of these updates in an arbitrary order.
-/

namespace Plato
variable {K : Type}

/-! ## Views of rank two and three -/

/-- `Kokkos::View<T**>` with its extents. -/
structure View2 (K : Type) where
  n0 : Nat
  n1 : Nat
  data : Nat → Nat → K

/-- `Kokkos::View<T***>`, or a view `(cell,row)` of automatic differentiation values with `n2`
derivative components (`.dx(k)`). -/
structure View3 (K : Type) where
  n0 : Nat
  n1 : Nat
  n2 : Nat
  data : Nat → Nat → Nat → K

/-- checked read of a rank two view -/
def rd2 (w : View2 K) (i j : Nat) : Res K :=
  if i < w.n0 ∧ j < w.n1 then Res.ok (w.data i j) else Res.ub

/-- checked write of a rank two view -/
def wr2 (w : View2 K) (i j : Nat) (a : K) : Res (View2 K) :=
  if i < w.n0 ∧ j < w.n1 then
    Res.ok { w with data := fun i' j' => if i' = i ∧ j' = j then a else w.data i' j' }
  else Res.ub

/-- checked read of a rank three view -/
def rd3 (w : View3 K) (i j k : Nat) : Res K :=
  if i < w.n0 ∧ j < w.n1 ∧ k < w.n2 then Res.ok (w.data i j k) else Res.ub

/-- checked write of a rank three view -/
def wr3 (w : View3 K) (i j k : Nat) (a : K) : Res (View3 K) :=
  if i < w.n0 ∧ j < w.n1 ∧ k < w.n2 then
    Res.ok { w with data := fun i' j' k' => if i' = i ∧ j' = j ∧ k' = k then a else w.data i' j' k' }
  else Res.ub

/-! ## Entry look-up -/

/-- The search loop shared by the look-ups, e.g. /repo/src/ImplicitFunctors.hpp:671-678: first
position in `[lo, lo+n)` whose column is `tgt`; `none` when the loop ends without a match. -/
def findCol (cols : List Nat) (tgt : Nat) : Nat → Nat → Res (Option Nat)
  | 0, _ => Res.ok none
  | n + 1, lo => do
    let c ← rd cols lo
    if c = tgt then Res.ok (some lo) else findCol cols tgt n (lo + 1)

/-- `BlockMatrixEntryOrdinal::operator()`, /repo/src/ImplicitFunctors.hpp:659-680; `npc` is
`SpaceDim+1`; the return value -1 (line 679) is `none`. -/
def blockEntryOrdinal (npc di dj : Nat) (A : Crs K) (c2n : List Nat) (cell i j : Nat) :
    Res (Option Nat) := do
  let iLoc ← rd c2n (cell * npc + i / di)
  let jLoc ← rd c2n (cell * npc + j / dj)
  let lo ← rd A.rowMap iLoc
  let hi ← rd A.rowMap (iLoc + 1)
  let r ← findCol A.cols jLoc (hi - lo) lo
  pure (r.map fun e => e * di * dj + i % di * dj + j % dj)

/-- `BlockMatrixTransposeEntryOrdinal::operator()`, /repo/src/ImplicitFunctors.hpp:620-641. -/
def blockTransposeEntryOrdinal (npc d : Nat) (A : Crs K) (c2n : List Nat) (cell i j : Nat) :
    Res (Option Nat) := do
  let iLoc ← rd c2n (cell * npc + i / d)
  let jLoc ← rd c2n (cell * npc + j / d)
  let lo ← rd A.rowMap jLoc
  let hi ← rd A.rowMap (jLoc + 1)
  let r ← findCol A.cols iLoc (hi - lo) lo
  pure (r.map fun e => e * d * d + j % d * d + i % d)

/-- `MatrixEntryOrdinal::operator()`, /repo/src/ImplicitFunctors.hpp:701-721. -/
def matrixEntryOrdinal (npc d : Nat) (A : Crs K) (c2n : List Nat) (cell i j : Nat) :
    Res (Option Nat) := do
  let iLoc ← rd c2n (cell * npc + i / d)
  let jLoc ← rd c2n (cell * npc + j / d)
  let lo ← rd A.rowMap (d * iLoc + i % d)
  let hi ← rd A.rowMap (d * iLoc + i % d + 1)
  findCol A.cols (d * jLoc + j % d) (hi - lo) lo

/-- `VectorEntryOrdinal::operator()`, /repo/src/ImplicitFunctors.hpp:26-31. -/
def vectorEntryOrdinal (npc d : Nat) (c2n : List Nat) (cell node dof : Nat) : Res Nat := do
  let v ← rd c2n (cell * npc + node)
  pure (v * d + dof)

/-! ## Atomic updates -/

/-- `Kokkos::atomic_add(&v(p), a)`. -/
def atomicAdd [Add K] (v : List K) (p : Nat) (a : K) : Res (List K) := do
  let x ← rd v p
  wr v p (x + a)

/-- Execution of the atomic updates `ops` in the order given by `order`. -/
def runAtomics [Add K] (order : List Nat) (ops : List (Nat × K)) (v : List K) : Res (List K) :=
  parFor order v fun t v => do
    let op ← rd ops t
    atomicAdd v op.1 op.2

/-- Position an update refers to; the look-up value -1 is an access outside the view. -/
def entryPos : Option Nat → Res Nat
  | some p => Res.ok p
  | none => Res.ub

/-- Global cell ordinal: `aDomain.cellOrdinals()[aCellOrdinal]` in the versions that take a
`SpatialDomain` (`some l`), the loop index itself in the others (`none`). -/
def cellOf : Option (List Nat) → Nat → Res Nat
  | some l, c => rd l c
  | none, c => Res.ok c

/-- Updates issued by `assemble_jacobian` (/repo/src/Assembly.hpp:1264-1283, `dom = none`) and
`assemble_jacobian_fad` (1339-1402, both versions; the workset entry `(cell,row).dx(col)` is the
entry `(cell,row,col)` of the rank three view). -/
def jacobianOps (lookup : Nat → Nat → Nat → Res (Option Nat)) (dom : Option (List Nat))
    (nCells nRows nCols : Nat) (ws : View3 K) : Res (List (Nat × K)) :=
  forRange 0 nCells [] fun c ops => do
    let gc ← cellOf dom c
    forRange 0 nRows ops fun r ops =>
      forRange 0 nCols ops fun s ops => do
        let e ← lookup gc r s
        let p ← entryPos e
        let a ← rd3 ws c r s
        pure (ops ++ [(p, a)])

/-- Updates issued by `assemble_jacobian_transpose_pod` (/repo/src/Assembly.hpp:1301-1320) and
`assemble_transpose_jacobian` (1420-1484, both versions): the look-up arguments are swapped. -/
def transposeJacobianOps (lookup : Nat → Nat → Nat → Res (Option Nat)) (dom : Option (List Nat))
    (nCells nRows nCols : Nat) (ws : View3 K) : Res (List (Nat × K)) :=
  forRange 0 nCells [] fun c ops => do
    let gc ← cellOf dom c
    forRange 0 nRows ops fun r ops =>
      forRange 0 nCols ops fun s ops => do
        let e ← lookup gc s r
        let p ← entryPos e
        let a ← rd3 ws c r s
        pure (ops ++ [(p, a)])

/-- `assemble_jacobian`/`assemble_jacobian_fad` into the entries of a matrix. -/
def assembleJacobian [Add K] (lookup : Nat → Nat → Nat → Res (Option Nat))
    (dom : Option (List Nat)) (nCells nRows nCols : Nat) (ws : View3 K) (order : List Nat)
    (A : Crs K) : Res (Crs K) := do
  let ops ← jacobianOps lookup dom nCells nRows nCols ws
  let v ← runAtomics order ops A.vals
  pure { A with vals := v }

/-- `assemble_transpose_jacobian`/`assemble_jacobian_transpose_pod` into the entries of a
matrix. -/
def assembleTransposeJacobian [Add K] (lookup : Nat → Nat → Nat → Res (Option Nat))
    (dom : Option (List Nat)) (nCells nRows nCols : Nat) (ws : View3 K) (order : List Nat)
    (A : Crs K) : Res (Crs K) := do
  let ops ← transposeJacobianOps lookup dom nCells nRows nCols ws
  let v ← runAtomics order ops A.vals
  pure { A with vals := v }

/-- Updates issued by `assemble_residual`, /repo/src/Assembly.hpp:1187-1246 (both versions); the
same loop is `assemble_vector_gradient` (381-399) and `assemble_vector_gradient_fad` (417-479). -/
def residualOps (npc d : Nat) (c2n : List Nat) (dom : Option (List Nat)) (nCells : Nat)
    (ws : View2 K) : Res (List (Nat × K)) :=
  forRange 0 nCells [] fun c ops => do
    let gc ← cellOf dom c
    forRange 0 npc ops fun node ops =>
      forRange 0 d ops fun dof ops => do
        let p ← vectorEntryOrdinal npc d c2n gc node dof
        let a ← rd2 ws c (node * d + dof)
        pure (ops ++ [(p, a)])

/-- `assemble_residual`, /repo/src/Assembly.hpp:1187-1246. -/
def assembleResidual [Add K] (npc d : Nat) (c2n : List Nat) (dom : Option (List Nat))
    (nCells : Nat) (ws : View2 K) (order : List Nat) (v : List K) : Res (List K) := do
  let ops ← residualOps npc d c2n dom nCells ws
  runAtomics order ops v

/-- Body of `workset_state_scalar_scalar`, /repo/src/Assembly.hpp:751-763 and 791-802. -/
def gatherCell (npc d : Nat) (c2n : List Nat) (dom : Option (List Nat)) (u : List K) (c : Nat)
    (ws : View2 K) : Res (View2 K) := do
  let gc ← cellOf dom c
  forRange 0 d ws fun dof ws =>
    forRange 0 npc ws fun node ws => do
      let p ← vectorEntryOrdinal npc d c2n gc node dof
      let a ← rd u p
      wr2 ws c (node * d + dof) a

/-- `workset_state_scalar_scalar`, /repo/src/Assembly.hpp:741-804 (both versions);
`workset_control_scalar_scalar` (596-652) is the case `d = 1`. -/
def gatherState (npc d : Nat) (c2n : List Nat) (dom : Option (List Nat)) (u : List K)
    (order : List Nat) (ws : View2 K) : Res (View2 K) :=
  parFor order ws (gatherCell npc d c2n dom u)

end Plato
