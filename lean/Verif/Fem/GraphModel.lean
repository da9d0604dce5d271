import Verif.Crs.Model

/-!
# Model of the matrix graph creation

`/repo/src/ImplicitFunctors.hpp:735-902`.  The Omega_h node-node graph is given by its two
arrays `a2ab` (`orm`) and `ab2b` (`oab`).
-/

namespace Plato
variable {K : Type}

/-- Decision to store the diagonal at position `i`, /repo/src/ImplicitFunctors.hpp:776-791
(the same code at 862-877). -/
def insertDiagonal (oab : List Nat) (lo hi row i ioh : Nat) : Res Bool :=
  if ioh = i ∧ ioh + lo ≥ hi then pure true
  else if ioh = i then do
    let c ← rd oab (ioh + lo)
    pure (decide (c > row))
  else pure false

/-- One pass of the column loop of `CreateBlockMatrix`, /repo/src/ImplicitFunctors.hpp:773-803;
state `(i_oh, columnIndices)`.  `i_oh--` followed by the loop increment `i_oh++` leaves `i_oh`
unchanged (the intermediate value -1 is never used as an index). -/
def blockColStep (oab : List Nat) (lo hi row i : Nat) (s : Nat × List Nat) :
    Res (Nat × List Nat) := do
  let ins ← insertDiagonal oab lo hi row i s.1
  if ins then do
    let cols ← wr s.2 (lo + row + i) row
    pure (s.1, cols)
  else do
    let c ← rd oab (s.1 + lo)
    let cols ← wr s.2 (lo + row + i) c
    pure (s.1 + 1, cols)

/-- Body of the row kernel of `CreateBlockMatrix`, /repo/src/ImplicitFunctors.hpp:763-804; state
`(rowMap, columnIndices)`. -/
def blockGraphRow (orm oab : List Nat) (row : Nat) (st : List Nat × List Nat) :
    Res (List Nat × List Nat) := do
  let lo ← rd orm row
  let hi ← rd orm (row + 1)
  let rm ← wr st.1 row (lo + row)
  let rm ← wr rm (row + 1) (hi + row + 1)
  let res ← forRange 0 ((hi + row + 1) - (lo + row)) (0, st.2) (blockColStep oab lo hi row)
  pure (rm, res.2)

/-- `CreateBlockMatrix`, /repo/src/ImplicitFunctors.hpp:733-808, with `DofsPerNode_I = di`,
`DofsPerNode_J = dj`; `o` is the schedule of the row kernel. -/
def createBlockMatrix [Zero K] (di dj : Nat) (o : List Nat) (orm oab : List Nat) :
    Res (Crs K) := do
  let n := orm.length - 1
  let nnz := oab.length + n
  let st ← parFor o (List.replicate (n + 1) 0, List.replicate nnz 0) (blockGraphRow orm oab)
  pure { rowMap := st.1, cols := st.2, vals := List.replicate (nnz * (di * dj)) 0,
         numRows? := some (n * di), numCols? := some (n * dj), rpb := di, cpb := dj }

/-- One pass of the column loop of `CreateMatrix`, /repo/src/ImplicitFunctors.hpp:859-891; state
`(i_oh, columnIndices)`; `R0 = lo + row`. -/
def scalarColStep (d : Nat) (oab : List Nat) (lo hi row i : Nat) (s : Nat × List Nat) :
    Res (Nat × List Nat) := do
  let ins ← insertDiagonal oab lo hi row i s.1
  if ins then do
    let cols ← forRange 0 d s.2 fun iDof cols => wr cols (d * d * (lo + row) + d * i + iDof) (d * row + iDof)
    pure (s.1, cols)
  else do
    let cols ← forRange 0 d s.2 fun iDof cols => do
      let c ← rd oab (s.1 + lo)
      wr cols (d * d * (lo + row) + d * i + iDof) (d * c + iDof)
    pure (s.1 + 1, cols)

/-- Body of the row kernel of `CreateMatrix`, /repo/src/ImplicitFunctors.hpp:846-898. -/
def scalarGraphRow (d : Nat) (orm oab : List Nat) (row : Nat) (st : List Nat × List Nat) :
    Res (List Nat × List Nat) := do
  let lo ← rd orm row
  let hi ← rd orm (row + 1)
  let nn := (hi + row + 1) - (lo + row)
  let off := d * d * (lo + row)
  let rm ← forRange 0 (d + 1) st.1 fun iDof rm => wr rm (d * row + iDof) (off + iDof * (nn * d))
  let res ← forRange 0 nn (0, st.2) (scalarColStep d oab lo hi row)
  let cols ← forRange 0 (nn * d) res.2 fun iDof cols =>
    forRange 1 d cols fun jDof cols => do
      let c ← rd cols (off + iDof)
      wr cols (off + jDof * (nn * d) + iDof) c
  pure (rm, cols)

/-- `CreateMatrix`, /repo/src/ImplicitFunctors.hpp:818-902: `numRows`/`numCols` stay unset because
the three-argument constructor is used (line 900). -/
def createMatrix [Zero K] (d : Nat) (o : List Nat) (orm oab : List Nat) : Res (Crs K) := do
  let n := orm.length - 1
  let nnz := oab.length + n
  let st ← parFor o (List.replicate (n * d + 1) 0, List.replicate (nnz * (d * d)) 0)
    (scalarGraphRow d orm oab)
  pure { rowMap := st.1, cols := st.2, vals := List.replicate (nnz * (d * d)) 0,
         numRows? := none, numCols? := none, rpb := 1, cpb := 1 }

end Plato
