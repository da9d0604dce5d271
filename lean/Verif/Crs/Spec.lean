import Verif.Common.Sum
import Verif.Common.Par
import Verif.Crs.Model

/-!
# Specification: the dense matrix a CRS matrix stands for
-/

namespace Plato
open Finset
variable {K : Type}

/-- Entry of a list of ordinals, zero outside. -/
abbrev atN (v : List Nat) (i : Nat) : Nat := at0 v i

theorem rd_atN {v : List Nat} {i : Nat} (h : i < v.length) : rd v i = Res.ok (atN v i) := rd_at0 h

theorem atN_set {v : List Nat} {i k a : Nat} (h : i < v.length) :
    atN (v.set i a) k = if k = i then a else atN v k := at0_set h

/-- The dense entry `(i,j)` of a block CRS matrix: the sum over all stored blocks of the block
row of `i` that lie in the block column of `j`. -/
def Crs.dense [AddCommMonoid K] (A : Crs K) (i j : Nat) : K :=
  ∑ k ∈ Ico (atN A.rowMap (i / A.rpb)) (atN A.rowMap (i / A.rpb + 1)),
    if atN A.cols k = j / A.cpb then
      at0 A.vals (A.rpb * A.cpb * k + A.cpb * (i % A.rpb) + j % A.cpb)
    else 0

/-- A CRS matrix with `nb` block rows and `mb` block columns whose arrays have consistent
extents.  This is what `CreateBlockMatrix`/`CreateMatrix` produce. -/
structure Crs.WF (A : Crs K) (nb mb : Nat) : Prop where
  rpb_pos : 0 < A.rpb
  cpb_pos : 0 < A.cpb
  rowMap_length : A.rowMap.length = nb + 1
  rowMap_zero : atN A.rowMap 0 = 0
  rowMap_mono : ∀ i, i < nb → atN A.rowMap i ≤ atN A.rowMap (i + 1)
  rowMap_last : atN A.rowMap nb = A.cols.length
  cols_lt : ∀ k, k < A.cols.length → atN A.cols k < mb
  vals_length : A.vals.length = A.rpb * A.cpb * A.cols.length
  numRows_eq : A.numRows? = some (nb * A.rpb)
  numCols_eq : A.numCols? = some (mb * A.cpb)

end Plato
