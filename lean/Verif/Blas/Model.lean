import Mathlib.Algebra.Field.Defs
import Mathlib.Algebra.Order.Group.Defs
import Mathlib.Analysis.Real.Sqrt
import Verif.Common.Sum
import Verif.Common.Par

/-!
# Model of the dense kernels

Modelled sources: `/repo/src/BLAS1.hpp`, `/repo/src/BLAS2.hpp`, `/repo/src/BLAS3.hpp`, except
`blas1::random`, `blas3::inverse` (its factorisation is a library call).

A two or three dimensional view is a pair of extents and entries; the memory layout is left out.
Every access is checked against the extents.  Floating point numbers are elements of a field; the
test `std::isfinite` is an arbitrary predicate `fin`.
-/

namespace Plato

variable {K : Type}

/-- `Kokkos::View<K**>`. -/
structure V2 (K : Type) where
  d0 : Nat
  d1 : Nat
  e : Nat → Nat → K

/-- `Kokkos::View<K***>`. -/
structure V3 (K : Type) where
  d0 : Nat
  d1 : Nat
  d2 : Nat
  e : Nat → Nat → Nat → K

def V2.size (v : V2 K) : Nat := v.d0 * v.d1
def V3.size (v : V3 K) : Nat := v.d0 * v.d1 * v.d2

/-- `v(i,j)` -/
def vrd2 (v : V2 K) (i j : Nat) : Res K :=
  if i < v.d0 ∧ j < v.d1 then Res.ok (v.e i j) else Res.ub

/-- `v(i,j) = a` -/
def vwr2 (v : V2 K) (i j : Nat) (a : K) : Res (V2 K) :=
  if i < v.d0 ∧ j < v.d1 then
    Res.ok { v with e := fun r c => if r = i ∧ c = j then a else v.e r c }
  else Res.ub

/-- `v(i,j,k)` -/
def vrd3 (v : V3 K) (i j k : Nat) : Res K :=
  if i < v.d0 ∧ j < v.d1 ∧ k < v.d2 then Res.ok (v.e i j k) else Res.ub

/-- `v(i,j,k) = a` -/
def vwr3 (v : V3 K) (i j k : Nat) (a : K) : Res (V3 K) :=
  if i < v.d0 ∧ j < v.d1 ∧ k < v.d2 then
    Res.ok { v with e := fun r c q => if r = i ∧ c = j ∧ q = k then a else v.e r c q }
  else Res.ub

/-- `Kokkos::parallel_reduce`: the index range is cut into chunks, every thread folds its chunk
starting from the identity `z`, and the partial results are joined. -/
def parReduce (chunks : List (List Nat)) (z : K) (join : K → K → K) (body : Nat → K → Res K) :
    Res K := do
  let rec part : List Nat → K → Res K
    | [], s => pure s
    | i :: is, s => body i s >>= part is
  let rec all : List (List Nat) → K → Res K
    | [], s => pure s
    | c :: cs, s => do
      let p ← part c z
      all cs (join s p)
  all chunks z

/-- Every index of `0 .. n-1` is in exactly one chunk. -/
def IsPartition (chunks : List (List Nat)) (n : Nat) : Prop := chunks.flatten.Perm (List.range n)

namespace blas1
variable [Field K]

/-- /repo/src/BLAS1.hpp:47-67 -/
def dot (chunks : List (List Nat)) (x y : List K) : Res K :=
  if y.length ≠ x.length then throwErr "BLAS1 DOT: DIMENSION MISMATCH"
  else parReduce chunks 0 (· + ·) fun i s => do
    let a ← rd x i
    let b ← rd y i
    pure (s + a * b)

/-- /repo/src/BLAS1.hpp:75-87 -/
noncomputable def norm (chunks : List (List Nat)) (x : List ℝ) : Res ℝ :=
  if x.length ≤ 0 then throwErr "BLAS 1 NORM: INPUT VECTOR IS EMPTY"
  else do
    let d ← dot chunks x x
    pure (Real.sqrt d)

/-- /repo/src/BLAS1.hpp:95-115 -/
def fill (order : List Nat) (fin : K → Bool) (a : K) (x : List K) : Res (List K) :=
  if x.length ≤ 0 then throwErr "BLAS 1 FILL: INPUT VECTOR IS EMPTY"
  else if fin a = false then throwErr "BLAS 1 FILL: INPUT SCALAR IS NOT A FINITE NUMBER"
  else parFor order x fun i x => wr x i a

/-- /repo/src/BLAS1.hpp:125-164: the loop runs over the *output* length. -/
def fillIndexed (order : List Nat) (fin : K → Bool) (m : K) (ords : List Nat) (vals : List K)
    (out : List K) : Res (List K) :=
  if out.length ≤ 0 then throwErr "BLAS 1 FILL: OUTPUT VECTOR IS EMPTY"
  else if vals.length ≤ 0 then throwErr "BLAS 1 FILL: INPUT VECTOR IS EMPTY"
  else if fin m = false then throwErr "BLAS 1 FILL: SCALAR MULTIPLIER IS NOT A FINITE NUMBER"
  else if ords.length ≠ vals.length then throwErr "BLAS 1 FILL: DIMENSION MISMATCH"
  else parFor order out fun i out => do
    let o ← rd ords i
    let v ← rd vals i
    wr out o (m * v)

/-- /repo/src/BLAS1.hpp:172-188 -/
def copy (order : List Nat) (x y : List K) : Res (List K) :=
  if x.length ≠ y.length then throwErr "BLAS 1 COPY: DIMENSION MISMATCH"
  else parFor order y fun i y => do
    let a ← rd x i
    wr y i a

/-- /repo/src/BLAS1.hpp:196-216 -/
def scale (order : List Nat) (fin : K → Bool) (a : K) (x : List K) : Res (List K) :=
  if fin a = false then throwErr "BLAS 1 SCALE: SCALAR MULTIPLIER IS NOT A FINITE NUMBER"
  else if x.length ≤ 0 then throwErr "BLAS 1 SCALE: INPUT VECTOR IS EMPTY"
  else parFor order x fun i x => do
    let v ← rd x i
    wr x i (v * a)

/-- /repo/src/BLAS1.hpp:225-242 -/
def axpy (order : List Nat) (a : K) (x y : List K) : Res (List K) :=
  if x.length ≠ y.length then throwErr "DIMENSION MISMATCH"
  else parFor order y fun i y => do
    let v ← rd x i
    let w ← rd y i
    wr y i (w + a * v)

/-- /repo/src/BLAS1.hpp:251-278 -/
def update (order : List Nat) (fin : K → Bool) (a : K) (x : List K) (b : K) (y : List K) :
    Res (List K) :=
  if fin a = false then throwErr "BLAS 1 UPDATE: SCALAR MULTIPLIER 'ALPHA' IS NOT FINITE"
  else if fin b = false then throwErr "BLAS 1 UPDATE: SCALAR MULTIPLIER 'BETA' IS NOT FINITE"
  else if x.length ≠ y.length then throwErr "BLAS 1 UPDATE: DIMENSION MISMATCH"
  else parFor order y fun i y => do
    let v ← rd x i
    let w ← rd y i
    wr y i (a * v + b * w)

/-- /repo/src/BLAS1.hpp:286-303 -/
def localSum (chunks : List (List Nat)) (x : List K) : Res K :=
  if x.length ≤ 0 then throwErr "BLAS 1 LOCAL_SUM: INPUT VECTOR IS EMPTY"
  else parReduce chunks 0 (· + ·) fun i s => do
    let a ← rd x i
    pure (s + a)

/-- /repo/src/BLAS1.hpp:311-331; `lowest` is the identity of `Kokkos::Max`. -/
def max [Max K] (chunks : List (List Nat)) (lowest : K) (x : List K) : Res K :=
  if x.length ≤ 0 then throwErr "BLAS 1 MAX: INPUT VECTOR IS EMPTY"
  else parReduce chunks lowest Max.max fun i s => do
    let a ← rd x i
    pure (Max.max s a)

/-- /repo/src/BLAS1.hpp:339-359; `highest` is the identity of `Kokkos::Min`. -/
def min [Min K] (chunks : List (List Nat)) (highest : K) (x : List K) : Res K :=
  if x.length ≤ 0 then throwErr "BLAS 1 MIN: INPUT VECTOR IS EMPTY"
  else parReduce chunks highest Min.min fun i s => do
    let a ← rd x i
    pure (Min.min s a)

/-- /repo/src/BLAS1.hpp:374-397 -/
def extract (order : List Nat) (stride offset : Nat) (x y : List K) : Res (List K) :=
  if x.length ≤ 0 then throwErr "BLAS 1 EXTRACT: FROM VECTOR IS EMPTY"
  else if y.length ≤ 0 then throwErr "BLAS 1 EXTRACT: TO VECTOR IS EMPTY"
  else parFor order y fun i y => do
    let a ← rd x (i * stride + offset)
    wr y i a

end blas1

namespace blas2
variable [Field K]

/-- /repo/src/BLAS2.hpp:30-46; `orders i` is the schedule of the loop for row `i`. -/
def extract (orders : Nat → List Nat) (stride offset : Nat) (x y : V2 K) : Res (V2 K) :=
  forRange 0 x.d0 y fun i y =>
    parFor (orders i) y fun j y => do
      let a ← vrd2 x i (j * stride + offset)
      vwr2 y i j a

/-- /repo/src/BLAS2.hpp:63-79 -/
def extractDims (orders : Nat → List Nat) (stride dim offset : Nat) (x y : V2 K) : Res (V2 K) :=
  forRange 0 x.d0 y fun i y =>
    parFor (orders i) y fun j y =>
      forRange 0 dim y fun d y => do
        let a ← vrd2 x i (j * stride + d + offset)
        vwr2 y i (j * dim + d) a

/-- /repo/src/BLAS2.hpp:90-107 -/
def fill (order : List Nat) (a : K) (x : V2 K) : Res (V2 K) :=
  if x.size ≤ 0 then throwErr "INPUT VECTOR IS EMPTY"
  else parFor order x fun i x => forRange 0 x.d1 x fun j x => vwr2 x i j a

/-- /repo/src/BLAS2.hpp:119-136 -/
def scale (order : List Nat) (a : K) (x : V2 K) : Res (V2 K) :=
  if x.size ≤ 0 then throwErr "INPUT VECTOR IS EMPTY"
  else parFor order x fun i x => forRange 0 x.d1 x fun j x => do
    let v ← vrd2 x i j
    vwr2 x i j (a * v)

/-- /repo/src/BLAS2.hpp:150-180 -/
def update (order : List Nat) (a : K) (x : V2 K) (b : K) (y : V2 K) : Res (V2 K) :=
  if x.d0 ≠ y.d0 then throwErr "DIMENSION MISMATCH. DIM(0)"
  else if x.d1 ≠ y.d1 then throwErr "DIMENSION MISMATCH. DIM(1)"
  else parFor order y fun i y => forRange 0 x.d1 y fun j y => do
    let v ← vrd2 x i j
    let w ← vrd2 y i j
    vwr2 y i j (a * v + b * w)

/-- /repo/src/BLAS2.hpp:193-222 -/
def axpy (order : List Nat) (stride offset : Nat) (a : K) (x y : V2 K) : Res (V2 K) :=
  if y.size ≤ 0 then throwErr "OUT ARRAY IS EMPTY"
  else if x.size ≤ 0 then throwErr "IN ARRAY IS EMPTY"
  else if y.d0 ≠ x.d0 then throwErr "DIMENSION MISMATCH. DIM(0)"
  else parFor order y fun i y => forRange 0 x.d1 y fun j y => do
    let o := stride * j + offset
    let w ← vrd2 y i o
    let v ← vrd2 x i j
    vwr2 y i o (a * w + v)

/-- Cell kernel of `matrix_times_vector`, no transpose, /repo/src/BLAS2.hpp:290-305. -/
def mtvCell (alpha : K) (A : V3 K) (x : V2 K) (beta : K) (cell : Nat) (y : V2 K) : Res (V2 K) := do
  let y ← forRange 0 A.d1 y fun r y => do
    let w ← vrd2 y cell r
    vwr2 y cell r (beta * w)
  forRange 0 A.d1 y fun r y =>
    forRange 0 A.d2 y fun c y => do
      let w ← vrd2 y cell r
      let a ← vrd3 A cell r c
      let v ← vrd2 x cell c
      vwr2 y cell r (w + alpha * a * v)

/-- Cell kernel of `matrix_times_vector`, transpose, /repo/src/BLAS2.hpp:309-324. -/
def mtvTCell (alpha : K) (A : V3 K) (x : V2 K) (beta : K) (cell : Nat) (y : V2 K) :
    Res (V2 K) := do
  let y ← forRange 0 A.d2 y fun c y => do
    let w ← vrd2 y cell c
    vwr2 y cell c (beta * w)
  forRange 0 A.d1 y fun r y =>
    forRange 0 A.d2 y fun c y => do
      let w ← vrd2 y cell c
      let a ← vrd3 A cell r c
      let v ← vrd2 x cell r
      vwr2 y cell c (w + alpha * a * v)

/-- `matrix_times_vector`, /repo/src/BLAS2.hpp:245-327; `trans` is `aTransA[0]`. -/
def matrixTimesVector (order : List Nat) (trans : Char) (alpha : K) (A : V3 K) (x : V2 K) (beta : K)
    (y : V2 K) : Res (V2 K) :=
  if A.size ≤ 0 then throwErr "Input matrix A is empty"
  else if x.size ≤ 0 then throwErr "Input vector X is empty"
  else if y.size ≤ 0 then throwErr "Output vector Y is empty"
  else if A.d0 ≠ x.d0 then throwErr "matrix A and vector X have different number of cells"
  else if A.d0 ≠ y.d0 then throwErr "matrix A and vector Y have different number of cells"
  else if ¬ (trans = 'N' ∨ trans = 'n' ∨ trans = 'T' ∨ trans = 't') then
    throwErr "transA[0]: valid values include 'N' or 'n' and 'T' or 't'"
  else if trans = 'N' ∨ trans = 'n' then parFor order y (mtvCell alpha A x beta)
  else parFor order y (mtvTCell alpha A x beta)

end blas2

namespace blas3
variable [Field K]

/-- /repo/src/BLAS3.hpp:41-63 -/
def identity (order : List Nat) (nr nc numCells : Nat) (I : V3 K) : Res (V3 K) :=
  if I.size ≤ 0 then throwErr "Input 3-D view is empty"
  else if I.d0 ≠ numCells then throwErr "Number of cell mismatch"
  else parFor order I fun cell I =>
    forRange 0 nr I fun r I => forRange 0 nc I fun c I =>
      vwr3 I cell r c (if r = c then 1 else 0)

/-- /repo/src/BLAS3.hpp:123-147 -/
def fill (order : List Nat) (nr nc numCells : Nat) (a : K) (X : V3 K) : Res (V3 K) :=
  if X.size ≤ 0 then throwErr "Input 3D array is empty"
  else if numCells ≤ 0 then throwErr "Invalid number of input cells"
  else parFor order X fun cell X =>
    forRange 0 nr X fun r X => forRange 0 nc X fun c X => vwr3 X cell r c a

/-- /repo/src/BLAS3.hpp:162-203 -/
def update (order : List Nat) (numCells : Nat) (alpha : K) (A : V3 K) (beta : K) (B : V3 K) :
    Res (V3 K) :=
  if A.size ≤ 0 then throwErr "Input 3D array is empty"
  else if B.size ≤ 0 then throwErr "Output 3D array is empty"
  else if A.d1 ≠ B.d1 then throwErr "number of rows do not match"
  else if A.d2 ≠ B.d2 then throwErr "number of columns do not match"
  else if numCells ≤ 0 then throwErr "Number of input cells is less or equal to zero"
  else parFor order B fun cell B =>
    forRange 0 A.d1 B fun r B => forRange 0 A.d2 B fun c B => do
      let a ← vrd3 A cell r c
      let b ← vrd3 B cell r c
      vwr3 B cell r c (alpha * a + beta * b)

/-- Cell kernel of `multiply`, /repo/src/BLAS3.hpp:284-310. -/
def multiplyCell (alpha : K) (A B : V3 K) (beta : K) (cell : Nat) (C : V3 K) : Res (V3 K) := do
  let nr := C.d1
  let nc := C.d2
  let C ← forRange 0 nr C fun r C => forRange 0 nc C fun c C => do
    let w ← vrd3 C cell r c
    vwr3 C cell r c (beta * w)
  forRange 0 nr C fun r C => forRange 0 nc C fun c C => do
    let v ← forRange 0 A.d2 (0 : K) fun k v => do
      let a ← vrd3 A cell r k
      let b ← vrd3 B cell k c
      pure (v + alpha * a * b)
    let w ← vrd3 C cell r c
    vwr3 C cell r c (w + v)

/-- `multiply`, /repo/src/BLAS3.hpp:224-312. -/
def multiply (order : List Nat) (numCells : Nat) (alpha : K) (A B : V3 K) (beta : K) (C : V3 K) :
    Res (V3 K) :=
  if A.size ≤ 0 then throwErr "Input 3D array A is empty"
  else if B.size ≤ 0 then throwErr "Input 3D array B is empty"
  else if C.size ≤ 0 then throwErr "Output 3D array C is empty"
  else if A.d2 ≠ B.d1 then throwErr "columns in A do not match rows in B"
  else if A.d1 ≠ C.d1 then throwErr "Mismatch in A and C row count"
  else if B.d2 ≠ C.d2 then throwErr "Mismatch in B and C column count"
  else if A.d0 ≠ numCells then throwErr "number of cells of matrix A does not match"
  else if B.d0 ≠ numCells then throwErr "number of cells of matrix B does not match"
  else if C.d0 ≠ numCells then throwErr "number of cells of matrix C does not match"
  else parFor order C (multiplyCell alpha A B beta)

end blas3

end Plato
