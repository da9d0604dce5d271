import Verif.Crs.SortModel

/-!
# Model of the conversion between block and scalar storage

`/repo/src/PlatoMathHelpers.hpp:185-378`.
-/

namespace Plato
variable {K : Type}

/-- Read of a row-map entry.  `slack = none`: an access behind the end of the view is undefined
behaviour.  `slack = some g`: one word behind the allocation happens to be readable and holds
`g` (this describes what a build without bounds checks does at
/repo/src/PlatoMathHelpers.hpp:213 and :224). -/
def rdSlack (slack : Option Nat) (v : List Nat) (i : Nat) : Res Nat :=
  if i < v.length then rd v i
  else if i = v.length then
    match slack with
    | some g => Res.ok g
    | none => Res.ub
  else Res.ub

/-- Row-map kernel of `getDataAsNonBlock`, /repo/src/PlatoMathHelpers.hpp:209-216 (`R` is the
number of rows per block) and 220-227 (`R` is `aRowStride`).  Line 213/224 reads
`tRowMap(tBlockRowIndex+1)` also for the extra index `tNumMatrixRows`.  The difference
`tTo - tFrom` is a C++ int; natural subtraction only differs where it is multiplied by zero. -/
def nonBlockRowMapStep (slack : Option Nat) (A : Crs K) (R : Nat) (i : Nat) (rm : List Nat) :
    Res (List Nat) := do
  let lo ← rd A.rowMap (i / R)
  let hi ← rdSlack slack A.rowMap (i / R + 1)
  wr rm i (lo * (R * A.cpb) + i % R * (hi - lo) * A.cpb)

/-- Value copied by the kernels of `getDataAsNonBlock`: /repo/src/PlatoMathHelpers.hpp:249-251
(`stride = 1`) and 270-272 (`stride ≠ 1`). -/
def nonBlockValue [Zero K] (A : Crs K) (stride offset R i k off : Nat) : Res K :=
  if stride = 1 then rd A.vals (k * (A.rpb * A.cpb) + i % R * A.cpb + off)
  else if i % R = offset then rd A.vals (k * A.cpb + off) else pure 0

/-- Column/value kernel of `getDataAsNonBlock`, /repo/src/PlatoMathHelpers.hpp:238-255
(`stride = 1`) and 259-276 (`stride ≠ 1`).  State: (column map, values). -/
def nonBlockEntryStep [Zero K] (A : Crs K) (stride offset R : Nat) (rm : List Nat) (i : Nat)
    (st : List Nat × List K) : Res (List Nat × List K) := do
  let lo ← rd A.rowMap (i / R)
  let hi ← rd A.rowMap (i / R + 1)
  let from' ← rd rm i
  let res ← forRange lo hi (from', st) fun k s =>
    forRange 0 A.cpb s fun off s => do
      let c ← rd A.cols k
      let a ← nonBlockValue A stride offset R i k off
      let cs ← wr s.2.1 s.1 (c * A.cpb + off)
      let vs ← wr s.2.2 s.1 a
      pure (s.1 + 1, (cs, vs))
  pure res.2

/-- `getDataAsNonBlock`, /repo/src/PlatoMathHelpers.hpp:185-278.  `o1`, `o2` are the schedules
of the two kernels; the result is (row map, column map, values).  A zero number of rows per
block would be an integer division by zero. -/
def getDataAsNonBlock [Zero K] (o1 o2 : List Nat) (slack : Option Nat) (A : Crs K)
    (stride offset : Nat) : Res (List Nat × List Nat × List K) := do
  let nr0 ← A.numRows
  let nr := nr0 * stride
  let R := if stride = 1 then A.rpb else stride
  if R = 0 then Res.ub else do
    let rm ← parFor o1 (List.replicate (nr + 1) 0) (nonBlockRowMapStep slack A R)
    let n := A.cols.length * (A.rpb * A.cpb) * stride
    let st ← parFor o2 (List.replicate n 0, List.replicate n (0 : K))
      (nonBlockEntryStep A stride offset R rm)
    pure (rm, st.1, st.2)

/-- Row-map kernel of `setDataFromNonBlock`, /repo/src/PlatoMathHelpers.hpp:342-347. -/
def blockRowMapStep (rpb bs : Nat) (rm : List Nat) (i : Nat) (out : List Nat) : Res (List Nat) :=
  if i % rpb = 0 then do
    let p ← rd rm i
    wr out (i / rpb) (p / bs)
  else pure out

/-- Block column written once per block, by the first local row,
/repo/src/PlatoMathHelpers.hpp:365-368. -/
def blockColWrite (rpb cpb : Nat) (c : List Nat) (i k pos : Nat) (out : List Nat) :
    Res (List Nat) :=
  if i % rpb = 0 then do
    let cc ← rd c pos
    wr out k (cc / cpb)
  else pure out

/-- Column/value kernel of `setDataFromNonBlock`, /repo/src/PlatoMathHelpers.hpp:357-375.
State: (block column map, block values). -/
def blockEntryStep (rpb cpb : Nat) (rm : List Nat) (c : List Nat) (v : List K)
    (rowMap : List Nat) (i : Nat) (st : List Nat × List K) : Res (List Nat × List K) := do
  let lo ← rd rowMap (i / rpb)
  let hi ← rd rowMap (i / rpb + 1)
  let from' ← rd rm i
  let res ← forRange lo hi (from', st) fun k s => do
    let cs ← blockColWrite rpb cpb c i k s.1 s.2.1
    forRange 0 cpb (s.1, (cs, s.2.2)) fun off s => do
      let a ← rd v s.1
      let vs ← wr s.2.2 (k * (rpb * cpb) + i % rpb * cpb + off) a
      pure (s.1 + 1, (s.2.1, vs))
  pure res.2

/-- `setDataFromNonBlock`, /repo/src/PlatoMathHelpers.hpp:323-378; `o0`, `o1`, `o2` are the
schedules of the sort and of the two kernels. -/
def setDataFromNonBlock [Zero K] (o0 o1 o2 : List Nat) (M : Crs K) (rm c : List Nat) (v : List K) :
    Res (Crs K) := do
  let st ← sortColumnEntries o0 rm (c, v)
  let nr ← M.numRows
  let bs := M.rpb * M.cpb
  if bs = 0 then Res.ub else do
    let rowMap ← parFor o1 (List.replicate (nr / M.rpb + 1) 0) (blockRowMapStep M.rpb bs rm)
    let res ← parFor o2 (List.replicate (st.2.length / bs) 0, List.replicate st.2.length (0 : K))
      (blockEntryStep M.rpb M.cpb rm st.1 st.2 rowMap)
    pure { M with rowMap := rowMap, cols := res.1, vals := res.2 }

end Plato
