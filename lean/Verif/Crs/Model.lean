import Mathlib.Algebra.Field.Defs
import Verif.Common.Res

/-!
# Model of the compressed-row-storage matrix and its kernels

Modelled sources: `/repo/src/alg/CrsMatrix.hpp`, `/repo/src/PlatoMathHelpers.hpp`,
`/repo/src/PlatoMathFunctors.hpp`.
-/

namespace Plato

variable {K : Type}

/-- `Plato::CrsMatrix`, /repo/src/alg/CrsMatrix.hpp:20-36.  Views are lists.  An unset size
(`-1`, lines 49-54 and 67-80) is `none`. -/
structure Crs (K : Type) where
  rowMap : List Nat
  cols : List Nat
  vals : List K
  numRows? : Option Nat
  numCols? : Option Nat
  rpb : Nat
  cpb : Nat

namespace Crs

/-- `isBlockMatrix()`, /repo/src/alg/CrsMatrix.hpp:39, 65, 80, 97. -/
def isBlock (A : Crs K) : Bool := decide (A.cpb * A.rpb > 1)

/-- `numRows()`, /repo/src/alg/CrsMatrix.hpp:43-44: throws when the value is unset. -/
def numRows (A : Crs K) : Res Nat :=
  match A.numRows? with
  | some n => Res.ok n
  | none => throwErr "requested unset value"

/-- `numCols()`, /repo/src/alg/CrsMatrix.hpp:46-47: throws when the value is unset. -/
def numCols (A : Crs K) : Res Nat :=
  match A.numCols? with
  | some n => Res.ok n
  | none => throwErr "requested unset value"

end Crs

section Matvec
variable [Zero K] [Add K] [Mul K]

/-- Loop body of the block branch of `MatrixTimesVectorPlusVector`,
/repo/src/PlatoMathHelpers.hpp:89-115 (one node row). -/
def matvecBlockRow (A : Crs K) (x : List K) (node : Nat) (b : List K) : Res (List K) := do
  let rowStart ← rd A.rowMap node
  let rowEnd ← rd A.rowMap (node + 1)
  forRange rowStart rowEnd b fun k b => do
    let c ← rd A.cols k
    let fromCol := A.cpb * c
    let toCol := fromCol + A.cpb
    let fromRow := A.rpb * node
    let toRow := fromRow + A.rpb
    let st ← forRange fromRow toRow (A.rpb * A.cpb * k, b) fun i st => do
      let inner ← forRange fromCol toCol ((0 : K), st.1) fun j s => do
        let a ← rd A.vals s.2
        let xj ← rd x j
        pure (s.1 + a * xj, s.2 + 1)
      let bi ← rd st.2 i
      let b' ← wr st.2 i (bi + inner.1)
      pure (inner.2, b')
    pure st.2

/-- Loop body of the scalar branch of `MatrixTimesVectorPlusVector`,
/repo/src/PlatoMathHelpers.hpp:124-135 (one row). -/
def matvecRow (A : Crs K) (x : List K) (row : Nat) (b : List K) : Res (List K) := do
  let rowStart ← rd A.rowMap row
  let rowEnd ← rd A.rowMap (row + 1)
  let sum ← forRange rowStart rowEnd (0 : K) fun k sum => do
    let c ← rd A.cols k
    let a ← rd A.vals k
    let xc ← rd x c
    pure (sum + a * xc)
  let bi ← rd b row
  wr b row (bi + sum)

/-- `MatrixTimesVectorPlusVector`, /repo/src/PlatoMathHelpers.hpp:57-137.  `order` is the
order in which the parallel loop over `0 .. rowMap.size()-2` runs its rows. -/
def matvecPlus (order : List Nat) (A : Crs K) (x b : List K) : Res (List K) := do
  let nc ← A.numCols
  if nc ≠ x.length then throwErr "INPUT VECTOR LENGTH DOES NOT MATCH THE NUMBER OF COLUMNS"
  else do
    let nr ← A.numRows
    if nr ≠ b.length then throwErr "OUTPUT VECTOR LENGTH DOES NOT MATCH THE NUMBER OF ROWS"
    else if A.isBlock then parFor order b (matvecBlockRow A x)
    else parFor order b (matvecRow A x)

end Matvec

section RowSum
variable [Zero K] [Add K] [Div K]

/-- `RowSum::operator()`, /repo/src/PlatoMathFunctors.hpp:39-67. -/
def rowSumRow (A : Crs K) (node : Nat) (sum : List K) : Res (List K) := do
  let rowStart ← rd A.rowMap node
  let rowEnd ← rd A.rowMap (node + 1)
  let total := A.rpb * A.cpb
  forRange rowStart rowEnd sum fun k sum => do
    let off := total * k
    forRange 0 A.rpb sum fun i sum => do
      let vec := node * A.rpb + i
      let mat := off + A.cpb * i
      forRange 0 A.cpb sum fun j sum => do
        let a ← rd A.vals (mat + j)
        let s ← rd sum vec
        wr sum vec (s + a)

/-- `DiagonalInverseMultiply::operator()`, /repo/src/PlatoMathFunctors.hpp:134-160.  The
entries of `B` are updated in place. -/
def diagInvRow (B : Crs K) (node : Nat) (diag : List K) (vals : List K) : Res (List K) := do
  let rowStart ← rd B.rowMap node
  let rowEnd ← rd B.rowMap (node + 1)
  let total := B.rpb * B.cpb
  forRange rowStart rowEnd vals fun k vals => do
    let off := total * k
    forRange 0 B.rpb vals fun i vals => do
      let vec := node * B.rpb + i
      let mat := off + B.cpb * i
      forRange 0 B.cpb vals fun j vals => do
        let a ← rd vals (mat + j)
        let d ← rd diag vec
        wr vals (mat + j) (a / d)

/-- `RowSummedInverseMultiply`, /repo/src/PlatoMathHelpers.hpp:148-161.  The state of the
parallel loop is the row-sum vector (allocated with `numRows` zeros, line 156) and the entries
of the second matrix; both functors run for a block row before the next one (lines 157-160). -/
def rowSummedInverseMultiply (order : List Nat) (A B : Crs K) : Res (Crs K) := do
  let nr ← A.numRows
  let st ← parFor order (List.replicate nr (0 : K), B.vals) fun node st => do
    let sum ← rowSumRow A node st.1
    let vals ← diagInvRow B node sum st.2
    pure (sum, vals)
  pure { B with vals := st.2 }

/-- `InverseWeight::operator()`, /repo/src/PlatoMathFunctors.hpp:88-102, with
`NumDofsPerNode_I = n`. -/
def inverseWeightRow [Mul K] (n : Nat) (scale : K) (rowSum rhs : List K) (node : Nat)
    (lhs : List K) : Res (List K) :=
  forRange 0 n lhs fun i lhs => do
    let v := node * n + i
    let b ← rd rhs v
    let r ← rd rowSum v
    wr lhs v (b / r * scale)

end RowSum

end Plato
