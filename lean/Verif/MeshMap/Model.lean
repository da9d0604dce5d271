import Mathlib.Algebra.Order.Field.Basic
import Verif.Fem.AssemblyModel

/-!
# Model of the mesh map

`/repo/src/Plato_MeshMap.hpp`.  The bounding volume hierarchy of ArborX is external: its answers
(the views `tIndices` and `tOffset`) are parameters.  Views of points `(3,N)` are three lists.
-/

namespace Plato

variable {K : Type}

/-- `MeshMap::SparseMatrix`, /repo/src/Plato_MeshMap.hpp:441-448. -/
structure SpMat (K : Type) where
  rowMap : List Nat
  cols : List Nat
  ents : List K
  numRows : Nat
  numCols : Nat

/-! ## Products -/

/-- Row kernel of `matvec`, /repo/src/Plato_MeshMap.hpp:908-918. -/
def spMatvecRow [Zero K] [Add K] [Mul K] (A : SpMat K) (x : List K) (row : Nat) (out : List K) :
    Res (List K) := do
  let lo ← rd A.rowMap row
  let hi ← rd A.rowMap (row + 1)
  let sum ← forRange lo hi (0 : K) fun k sum => do
    let c ← rd A.cols k
    let a ← rd A.ents k
    let xc ← rd x c
    pure (sum + a * xc)
  wr out row sum

/-- `matvec`, /repo/src/Plato_MeshMap.hpp:901-920; `o` is the schedule. -/
def spMatvec [Zero K] [Add K] [Mul K] (o : List Nat) (A : SpMat K) (x out : List K) :
    Res (List K) :=
  parFor o out (spMatvecRow A x)

/-- `matvec` in place, /repo/src/Plato_MeshMap.hpp:891-897; returns the overwritten vector. -/
def spMatvecInPlace [Zero K] [Add K] [Mul K] (o : List Nat) (A : SpMat K) (x : List K) :
    Res (List K) :=
  spMatvec o A x (List.replicate x.length 0)

/-! ## Transpose -/

/-- The atomic increments of the first kernel of `createTranspose`,
/repo/src/Plato_MeshMap.hpp:701-710. -/
def transposeCountOps (A : SpMat K) : Res (List (Nat × Nat)) :=
  forRange 0 A.numRows [] fun r ops => do
    let lo ← rd A.rowMap r
    let hi ← rd A.rowMap (r + 1)
    forRange lo hi ops fun e ops => do
      let c ← rd A.cols e
      pure (ops ++ [(c, 1)])

/-- Body of the `parallel_scan`s, /repo/src/Plato_MeshMap.hpp:713-722 (also 621-630 and 791-800);
`parallel_scan` is specified to give the result of the serial loop. -/
def scanStep (i : Nat) (s : List Nat × Nat) : Res (List Nat × Nat) := do
  let v ← rd s.1 i
  let rm ← wr s.1 i s.2
  pure (rm, s.2 + v)

/-- `parallel_scan` over `0 .. n` (inclusive). -/
def scan (n : Nat) (counts : List Nat) : Res (List Nat × Nat) :=
  forRange 0 (n + 1) (counts, 0) scanStep

/-- Memory operations of a thread of the last kernel of `createTranspose` for one entry `e`. -/
inductive TMicro where
  /-- `tMyOffset = Kokkos::atomic_fetch_add(&tOffsetT(iRowIndexT), 1)`,
  /repo/src/Plato_MeshMap.hpp:733 -/
  | fetch (e : Nat)
  /-- `tColMapT(iEntryIndexT) = iRowOrdinal`, line 735 -/
  | setCol (e : Nat)
  /-- `tEntriesT(iEntryIndexT) = tEntries(iEntryIndex)`, line 736 -/
  | setEnt (e : Nat)
  deriving DecidableEq

/-- Shared memory of the last kernel and the local variable `tMyOffset` of every thread and
entry. -/
structure TState (K : Type) where
  offs : List Nat
  colT : List Nat
  entT : List K
  tmp : Nat → Nat → Nat

/-- Execution of one memory operation by the thread of row `t`. -/
def TMicro.exec (A : SpMat K) (rowMapT : List Nat) (t : Nat) (op : TMicro) (s : TState K) :
    Res (TState K) :=
  match op with
  | .fetch e => do
    let c ← rd A.cols e
    let o ← rd s.offs c
    let offs ← wr s.offs c (o + 1)
    pure { s with offs := offs, tmp := fun t' e' => if t' = t ∧ e' = e then o else s.tmp t' e' }
  | .setCol e => do
    let c ← rd A.cols e
    let b ← rd rowMapT c
    let colT ← wr s.colT (b + s.tmp t e) t
    pure { s with colT := colT }
  | .setEnt e => do
    let c ← rd A.cols e
    let b ← rd rowMapT c
    let a ← rd A.ents e
    let entT ← wr s.entT (b + s.tmp t e) a
    pure { s with entT := entT }

/-- The program of the thread of row `r`, /repo/src/Plato_MeshMap.hpp:728-737. -/
def transposeThread (A : SpMat K) (r : Nat) : Res (List TMicro) := do
  let lo ← rd A.rowMap r
  let hi ← rd A.rowMap (r + 1)
  forRange lo hi [] fun e ops => pure (ops ++ [.fetch e, .setCol e, .setEnt e])

/-- The programs of all threads. -/
def transposeThreads (A : SpMat K) : Res (List (List TMicro)) :=
  forRange 0 A.numRows [] fun r ps => do
    let p ← transposeThread A r
    pure (ps ++ [p])

/-- Execution of an interleaving. -/
def runTMicro (A : SpMat K) (rowMapT : List Nat) : List (Nat × TMicro) → TState K → Res (TState K)
  | [], s => Res.ok s
  | x :: xs, s => do
    let s ← TMicro.exec A rowMapT x.1 x.2 s
    runTMicro A rowMapT xs s

/-- `createTranspose`, /repo/src/Plato_MeshMap.hpp:678-740; `o` orders the atomic increments,
`sched` interleaves the threads of the last kernel. -/
def createTranspose [Zero K] (o : List Nat) (sched : List (List TMicro) → List (Nat × TMicro))
    (A : SpMat K) : Res (SpMat K) := do
  let ops ← transposeCountOps A
  let counts ← runAtomics o ops (List.replicate A.rowMap.length 0)
  let rm ← scan A.numRows counts
  let progs ← transposeThreads A
  let s ← runTMicro A rm.1 (sched progs)
    { offs := List.replicate A.numRows 0, colT := List.replicate A.cols.length 0,
      entT := List.replicate A.ents.length 0, tmp := fun _ _ => 0 }
  pure { rowMap := rm.1, cols := s.colT, ents := s.entT, numRows := A.numCols,
         numCols := A.numRows }

/-! ## Application -/

/-- Members of `MeshMap`, /repo/src/Plato_MeshMap.hpp:455-459. -/
structure MeshMapData (K : Type) where
  mat : SpMat K
  matT : SpMat K
  filter : Option (SpMat K)
  filterT : Option (SpMat K)
  filterFirst : Bool

/-- `apply`, /repo/src/Plato_MeshMap.hpp:867-886; `o1`, `o2` are the schedules of the products. -/
def MeshMapData.apply [Zero K] [Add K] [Mul K] (m : MeshMapData K) (o1 o2 : List Nat)
    (x out : List K) : Res (List K) :=
  match m.filter with
  | some f =>
    if m.filterFirst then do
      let y ← spMatvec o1 f x out
      spMatvecInPlace o2 m.mat y
    else do
      let y ← spMatvec o1 m.mat x out
      spMatvecInPlace o2 f y
  | none => spMatvec o1 m.mat x out

/-- `applyT`, /repo/src/Plato_MeshMap.hpp:926-945. -/
def MeshMapData.applyT [Zero K] [Add K] [Mul K] (m : MeshMapData K) (o1 o2 : List Nat)
    (x out : List K) : Res (List K) :=
  match m.filterT with
  | some f =>
    if !m.filterFirst then do
      let y ← spMatvec o1 f x out
      spMatvecInPlace o2 m.matT y
    else do
      let y ← spMatvec o1 m.matT x out
      spMatvecInPlace o2 f y
  | none => spMatvec o1 m.matT x out

/-- The second half of the constructor of `MeshMapDerived`,
/repo/src/Plato_MeshMap.hpp:991-999, with `createTranspose` of a shared pointer (660-673): the
transposes are computed from the matrices. -/
def MeshMapData.make [Zero K] (o1 o2 : List Nat)
    (s1 s2 : List (List TMicro) → List (Nat × TMicro)) (mat : SpMat K) (filter : Option (SpMat K))
    (filterFirst : Bool) : Res (MeshMapData K) := do
  let matT ← createTranspose o1 s1 mat
  match filter with
  | some f => do
    let fT ← createTranspose o2 s2 f
    pure ⟨mat, matT, some f, some fT, filterFirst⟩
  | none => pure ⟨mat, matT, none, none, filterFirst⟩

/-! ## Linear filter -/

/-- A view of points `(3,N)`. -/
structure Pts (K : Type) where
  x : List K
  y : List K
  z : List K

/-- First kernel of `setLinearFilterMatrixValues`, /repo/src/Plato_MeshMap.hpp:785-788. -/
def filterCount (offset : List Nat) (r : Nat) (rm : List Nat) : Res (List Nat) := do
  let hi ← rd offset (r + 1)
  let lo ← rd offset r
  wr rm r (hi - lo)

/-- The weight of one neighbour, /repo/src/Plato_MeshMap.hpp:817-822 (`tEntry`); `sqrt` is the
square root function. -/
def filterWeight [Zero K] [Add K] [Sub K] [Mul K] [LT K] [DecidableLT K] (sqrt : K → K)
    (radius : K) (P : Pts K) (x y z : K) (v : Nat) : Res K := do
  let vx ← rd P.x v
  let vy ← rd P.y v
  let vz ← rd P.z v
  let dx := x - vx
  let dy := y - vy
  let dz := z - vz
  let d2 := dx * dx + dy * dy + dz * dz
  pure (radius - if 0 < d2 then sqrt d2 else 0)

/-- State of the second kernel: column map and entries. -/
abbrev ColEnt (K : Type) := List Nat × List K

/-- Body of the second kernel of `setLinearFilterMatrixValues`,
/repo/src/Plato_MeshMap.hpp:807-832. -/
def filterRow [Zero K] [Add K] [Sub K] [Mul K] [Div K] [LT K] [DecidableLT K] (sqrt : K → K)
    (radius : K) (P : Pts K) (indices offset rowMap : List Nat) (r : Nat) (s : ColEnt K) :
    Res (ColEnt K) := do
  let i0 ← rd rowMap r
  let x ← rd P.x r
  let y ← rd P.y r
  let z ← rd P.z r
  let lo ← rd offset r
  let hi ← rd offset (r + 1)
  let st ← forRange lo hi (i0, (0 : K), s) fun k st => do
    let v ← rd indices k
    let cs ← wr st.2.2.1 st.1 v
    let w ← filterWeight sqrt radius P x y z v
    let es ← wr st.2.2.2 st.1 w
    pure (st.1 + 1, st.2.1 + w, cs, es)
  let total := st.2.1
  let st ← forRange lo hi (i0, st.2.2) fun _ st => do
    let a ← rd st.2.2 st.1
    let es ← wr st.2.2 st.1 (a / total)
    pure (st.1 + 1, st.2.1, es)
  pure st.2

/-- `setLinearFilterMatrixValues`, /repo/src/Plato_MeshMap.hpp:772-835; `o1`, `o2` schedules of the
kernels. -/
def linearFilter [Zero K] [Add K] [Sub K] [Mul K] [Div K] [LT K] [DecidableLT K] (sqrt : K → K)
    (o1 o2 : List Nat) (radius : K) (P : Pts K) (indices offset : List Nat) : Res (SpMat K) := do
  let n := P.x.length
  let rm ← parFor o1 (List.replicate (n + 1) 0) (filterCount offset)
  let sc ← scan n rm
  let s ← parFor o2 (List.replicate sc.2 0, List.replicate sc.2 (0 : K))
    (filterRow sqrt radius P indices offset sc.1)
  pure { rowMap := sc.1, cols := s.1, ents := s.2, numRows := n, numCols := n }

/-- `createFilter`, /repo/src/Plato_MeshMap.hpp:841-859; `type?` is the filter type in upper case,
`query` the answers of the sphere query. -/
def createFilter [Zero K] [Add K] [Sub K] [Mul K] [Div K] [LT K] [DecidableLT K] [LE K]
    [DecidableLE K] (sqrt : K → K) (o1 o2 : List Nat) (type : String) (radius : K) (P : Pts K)
    (indices offset : List Nat) : Res (Option (SpMat K)) :=
  if type = "LINEAR" then
    if radius ≤ 0 then Res.err "Filter 'Radius' must be greater than zero."
    else do
      let F ← linearFilter sqrt o1 o2 radius P indices offset
      pure (some F)
  else pure none

/-! ## Parent elements -/

/-- `GetBasis::basis`, /repo/src/Plato_MeshMap.hpp:308-336, with the vertex coordinates as
arguments; the result is `(b0,b1,b2,b3)`. -/
def getBasis [Field K] (xh yh zh x0 y0 z0 x1 y1 z1 x2 y2 z2 x3 y3 z3 : K) : K × K × K × K :=
  let a11 := x0 - x3; let a12 := x1 - x3; let a13 := x2 - x3
  let a21 := y0 - y3; let a22 := y1 - y3; let a23 := y2 - y3
  let a31 := z0 - z3; let a32 := z1 - z3; let a33 := z2 - z3
  let detA := a11*a22*a33+a12*a23*a31+a13*a21*a32-a11*a23*a32-a12*a21*a33-a13*a22*a31
  let b11 := (a22*a33-a23*a32)/detA; let b12 := (a13*a32-a12*a33)/detA
  let b13 := (a12*a23-a13*a22)/detA
  let b21 := (a23*a31-a21*a33)/detA; let b22 := (a11*a33-a13*a31)/detA
  let b23 := (a13*a21-a11*a23)/detA
  let b31 := (a21*a32-a22*a31)/detA; let b32 := (a12*a31-a11*a32)/detA
  let b33 := (a11*a22-a12*a21)/detA
  let fx := xh - x3; let fy := yh - y3; let fz := zh - z3
  let b0 := b11*fx+b12*fy+b13*fz
  let b1 := b21*fx+b22*fy+b23*fz
  let b2 := b31*fx+b32*fy+b33*fz
  (b0, b1, b2, 1 - b0 - b1 - b2)

/-- The mesh as seen by the map: connectivity (`ask_elem_verts`) and coordinates (`coords`). -/
structure MapMesh (K : Type) where
  c2n : List Nat
  coords : List K

/-- The four vertices of an element, /repo/src/Plato_MeshMap.hpp:364-367. -/
def MapMesh.verts (m : MapMesh K) (e : Nat) : Res (Nat × Nat × Nat × Nat) := do
  let i0 ← rd m.c2n (e * 4)
  let i1 ← rd m.c2n (e * 4 + 1)
  let i2 ← rd m.c2n (e * 4 + 2)
  let i3 ← rd m.c2n (e * 4 + 3)
  pure (i0, i1, i2, i3)

/-- Coordinates of a vertex, /repo/src/Plato_MeshMap.hpp:315-318. -/
def MapMesh.point (m : MapMesh K) (i : Nat) : Res (K × K × K) := do
  let x ← rd m.coords (i * 3)
  let y ← rd m.coords (i * 3 + 1)
  let z ← rd m.coords (i * 3 + 2)
  pure (x, y, z)

/-- `GetBasis::operator()`, /repo/src/Plato_MeshMap.hpp:395-420: vertices and basis values. -/
def elemBasis [Field K] (m : MapMesh K) (L : Pts K) (node e : Nat) :
    Res ((Nat × Nat × Nat × Nat) × (K × K × K × K)) := do
  let xh ← rd L.x node
  let yh ← rd L.y node
  let zh ← rd L.z node
  let v ← m.verts e
  let p0 ← m.point v.1
  let p1 ← m.point v.2.1
  let p2 ← m.point v.2.2.1
  let p3 ← m.point v.2.2.2
  pure (v, getBasis xh yh zh p0.1 p0.2.1 p0.2.2 p1.1 p1.2.1 p1.2.2 p2.1 p2.2.1 p2.2.2
    p3.1 p3.2.1 p3.2.2)

/-- The smallest basis value, /repo/src/Plato_MeshMap.hpp:572-576. -/
def minBasis [LT K] [DecidableLT K] (b : K × K × K × K) : K :=
  let m := b.1
  let m := if b.2.1 < m then b.2.1 else m
  let m := if b.2.2.1 < m then b.2.2.1 else m
  if b.2.2.2 < m then b.2.2.2 else m

/-- Bounding box of an element in one coordinate direction, with the vertex values in order,
/repo/src/Plato_MeshMap.hpp:502-533: (min, max) enlarged by one percent of the extent. -/
def boxRange [Field K] [LT K] [DecidableLT K] (c0 c1 c2 c3 : K) : K × K :=
  let step := fun (s : K × K) (c : K) =>
    if c < s.1 then (c, s.2) else if s.2 < c then (s.1, c) else s
  let s := step (step (step (c0, c0) c1) c2) c3
  let len := s.2 - s.1
  (s.1 - 1 / 100 * len, s.2 + 1 / 100 * len)

/-- Parent element as stored: -1 is `unmapped`, -2 is `notFound`. -/
inductive Parent where
  | unmapped
  | notFound
  | elem (e : Nat)
  deriving DecidableEq

/-- Body of the kernel of `findParentElements`, /repo/src/Plato_MeshMap.hpp:555-588, for one node
with candidate elements `cands` (the answer of the tree); `notFound` is `cNotFound = -1e8`. -/
def findParent [Field K] [LT K] [DecidableLT K] [DecidableEq K] (m : MapMesh K) (notFound : K)
    (L M : Pts K) (cands : List Nat) (node : Nat) : Res Parent := do
  let lx ← rd L.x node
  let ly ← rd L.y node
  let lz ← rd L.z node
  let mx ← rd M.x node
  let my ← rd M.y node
  let mz ← rd M.z node
  if lx ≠ mx ∨ ly ≠ my ∨ lz ≠ mz then do
    let s ← forRange 0 cands.length (notFound, Parent.notFound) fun k s => do
      let e ← rd cands k
      let b ← elemBasis m M node e
      if notFound < minBasis b.2 then pure (minBasis b.2, Parent.elem e) else pure s
    if notFound < s.1 then pure s.2 else pure Parent.notFound
  else pure Parent.unmapped

/-- Kernel of `findParentElements`, /repo/src/Plato_MeshMap.hpp:553-588; `cands node` are the
elements whose bounding box contains the image of the node (answer of the tree), `n` is the number
of vertices. -/
def findParents [Field K] [LT K] [DecidableLT K] [DecidableEq K] (o : List Nat) (m : MapMesh K)
    (notFound : K) (L M : Pts K) (cands : Nat → List Nat) (n : Nat) : Res (List Parent) :=
  parFor o (List.replicate n Parent.unmapped) fun node ps => do
    let p ← findParent m notFound L M (cands node) node
    wr ps node p

/-- First kernel of `setMatrixValues`, /repo/src/Plato_MeshMap.hpp:603-619. -/
def mapCount (parents : List Parent) (r : Nat) (rm : List Nat) : Res (List Nat) := do
  let p ← rd parents r
  match p with
  | .notFound => wr rm r 0
  | .unmapped => wr rm r 1
  | .elem _ => wr rm r 4

/-- Second kernel of `setMatrixValues`, /repo/src/Plato_MeshMap.hpp:637-651.  A node without parent
goes to the last branch with element ordinal -2: the read of the connectivity at -8 is outside the
view. -/
def mapRow [Field K] (m : MapMesh K) (M : Pts K) (parents : List Parent) (rowMap : List Nat)
    (r : Nat) (s : ColEnt K) : Res (ColEnt K) := do
  let i ← rd rowMap r
  let p ← rd parents r
  match p with
  | .unmapped => do
    let cs ← wr s.1 i r
    let es ← wr s.2 i 1
    pure (cs, es)
  | .notFound => Res.ub
  | .elem e => do
    let b ← elemBasis m M r e
    let cs ← wr s.1 i b.1.1
    let cs ← wr cs (i + 1) b.1.2.1
    let cs ← wr cs (i + 2) b.1.2.2.1
    let cs ← wr cs (i + 3) b.1.2.2.2
    let es ← wr s.2 i b.2.1
    let es ← wr es (i + 1) b.2.2.1
    let es ← wr es (i + 2) b.2.2.2.1
    let es ← wr es (i + 3) b.2.2.2.2
    pure (cs, es)

/-- `setMatrixValues`, /repo/src/Plato_MeshMap.hpp:594-654; `n` is the number of vertices. -/
def setMatrixValues [Field K] (o1 o2 : List Nat) (m : MapMesh K) (n : Nat) (parents : List Parent)
    (M : Pts K) : Res (SpMat K) := do
  let rm ← parFor o1 (List.replicate (n + 1) 0) (mapCount parents)
  let sc ← scan n rm
  let s ← parFor o2 (List.replicate sc.2 0, List.replicate sc.2 (0 : K)) (mapRow m M parents sc.1)
  pure { rowMap := sc.1, cols := s.1, ents := s.2, numRows := n, numCols := n }

/-- `findParentElements` followed by `setMatrixValues`, as in the constructor of `MeshMapDerived`,
/repo/src/Plato_MeshMap.hpp:983-990. -/
def mapMatrix [Field K] [LT K] [DecidableLT K] [DecidableEq K] (o o1 o2 : List Nat) (m : MapMesh K)
    (notFound : K) (L M : Pts K) (cands : Nat → List Nat) (n : Nat) : Res (SpMat K) := do
  let ps ← findParents o m notFound L M cands n
  setMatrixValues o1 o2 m n ps M

/-! ## Symmetry plane -/

/-- `SymmetryPlane`, members /repo/src/Plato_MeshMap.hpp:207-208. -/
structure Plane (K : Type) where
  origin : K × K × K
  normal : K × K × K

/-- Constructor of `SymmetryPlane`, /repo/src/Plato_MeshMap.hpp:210-234. -/
def Plane.make [Zero K] [Add K] [Mul K] [Div K] [DecidableEq K] (sqrt : K → K)
    (origin normal : K × K × K) : Res (Plane K) :=
  let len := normal.1 * normal.1 + normal.2.1 * normal.2.1 + normal.2.2 * normal.2.2
  if len = 0 then Res.err "SymmetryPlane: Normal vector has zero length."
  else
    let len := sqrt len
    pure ⟨origin, (normal.1 / len, normal.2.1 / len, normal.2.2 / len)⟩

/-- `SymmetryPlane::operator()`, /repo/src/Plato_MeshMap.hpp:236-253, on one point. -/
def Plane.map [Field K] [LT K] [DecidableLT K] (pl : Plane K) (p : K × K × K) : K × K × K :=
  let proj := 0 + (p.1 - pl.origin.1) * pl.normal.1
  let proj := proj + (p.2.1 - pl.origin.2.1) * pl.normal.2.1
  let proj := proj + (p.2.2 - pl.origin.2.2) * pl.normal.2.2
  if proj < 0 then
    (p.1 - 2 * proj * pl.normal.1, p.2.1 - 2 * proj * pl.normal.2.1, p.2.2 - 2 * proj * pl.normal.2.2)
  else p

end Plato
