import Verif.Crs.ConvertModel
import Verif.Crs.Model

/-!
# Model of sparse products, differences and `Condense`

`/repo/src/PlatoMathHelpers.hpp:394-576`.  The KokkosKernels calls `spgemm_symbolic`,
`spgemm_numeric`, `spadd_symbolic` and `spadd_numeric` are external: they are parameters of the
model, described by `SpgemmSpec` and `SpaddSpec` in `CondenseSpec.lean`.
-/

namespace Plato
variable {K : Type}

/-- Scalar CRS data: row map, column map, values. -/
abbrev Csr (K : Type) := List Nat × List Nat × List K

/-- Schedules of the kernels of one product or difference: the two kernels of
`getDataAsNonBlock` for each operand, and the three of `setDataFromNonBlock`; `g1`, `g2` are the
words found behind the row maps of the operands (see `rdSlack`). -/
structure OpEnv where
  a1 : List Nat
  a2 : List Nat
  b1 : List Nat
  b2 : List Nat
  s0 : List Nat
  s1 : List Nat
  s2 : List Nat
  g1 : Option Nat
  g2 : Option Nat

/-- `MatrixMatrixMultiply`, /repo/src/PlatoMathHelpers.hpp:394-469.  Returns the new output
matrix. -/
def matrixMatrixMultiply [Zero K] (spgemm : Nat → Nat → Nat → Csr K → Csr K → Res (Csr K))
    (e : OpEnv) (M1 M2 Out : Crs K) : Res (Crs K) := do
  let nr1 ← M1.numRows
  let nc1 ← M1.numCols
  let nr2 ← M2.numRows
  let nc2 ← M2.numCols
  let nro ← Out.numRows
  let nco ← Out.numCols
  if nr2 ≠ nc1 then throwErr "input matrices have incompatible shapes"
  else if nro ≠ nr1 then throwErr "output matrix has incorrect shape"
  else if nco ≠ nc2 then throwErr "output matrix has incorrect shape"
  else do
    let d1 ← getDataAsNonBlock e.a1 e.a2 e.g1 M1 1 0
    let d2 ← getDataAsNonBlock e.b1 e.b2 e.g2 M2 1 0
    let out ← spgemm nr1 nr2 nc2 d1 d2
    setDataFromNonBlock e.s0 e.s1 e.s2 Out out.1 out.2.1 out.2.2

/-- `MatrixMinusMatrix`, /repo/src/PlatoMathHelpers.hpp:479-548.  Returns the new first
matrix. `spadd n d1 a d2 b` stands for the two spadd calls with factors `a` and `b`. -/
def matrixMinusMatrix [Zero K] [One K] [Neg K]
    (spadd : Nat → Csr K → K → Csr K → K → Res (Csr K))
    (e : OpEnv) (M1 M2 : Crs K) (offset : Nat) : Res (Crs K) := do
  let nr1 ← M1.numRows
  let nc1 ← M1.numCols
  let _ ← M2.numRows
  let nc2 ← M2.numCols
  if nc1 ≠ nc2 then throwErr "matrices have incompatible shape"
  else do
    let d1 ← getDataAsNonBlock e.a1 e.a2 e.g1 M1 1 0
    let d2 ← getDataAsNonBlock e.b1 e.b2 e.g2 M2 M1.rpb offset
    let out ← spadd nr1 d1 1 d2 (-1)
    setDataFromNonBlock e.s0 e.s1 e.s2 M1 out.1 out.2.1 out.2.2

/-- `Condense`, /repo/src/PlatoMathHelpers.hpp:560-576.  Returns the new `aA` and the new `aD`
(which is overwritten by its row-scaled version, line 566). -/
def condense [Field K] (spgemm : Nat → Nat → Nat → Csr K → Csr K → Res (Csr K))
    (spadd : Nat → Csr K → K → Csr K → K → Res (Csr K))
    (o : List Nat) (e1 e2 : OpEnv) (A B C D : Crs K) (offset : Nat) : Res (Crs K × Crs K) := do
  let D' ← rowSummedInverseMultiply o C D
  let nr ← B.numRows
  let nc ← D'.numCols
  let BD : Crs K := { rowMap := [], cols := [], vals := [], numRows? := some nr,
                      numCols? := some nc, rpb := B.rpb, cpb := D'.cpb }
  let P ← matrixMatrixMultiply spgemm e1 B D' BD
  let A' ← matrixMinusMatrix spadd e2 A P offset
  pure (A', D')

end Plato
