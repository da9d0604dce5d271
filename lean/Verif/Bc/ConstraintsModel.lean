import Verif.Crs.Model

/-!
# Model of the application of essential boundary conditions to a linear system

`/repo/src/ApplyConstraints.hpp`.

The first kernel has data races: one thread clears matrix entries that another thread reads.  Each
thread is therefore modelled as a list of single memory operations (a load of a matrix entry into
a temporary, the atomic add, plain stores), and the kernel is run under an arbitrary interleaving
of these lists.
-/

namespace Plato
variable {K : Type}

/-- One memory operation of a thread of the first kernel.  Temporaries are named by the matrix
position they were loaded from. -/
inductive CMicro (K : Type) where
  /-- `tMatrixEntries(p) = 1.0`, /repo/src/ApplyConstraints.hpp:46 -/
  | one (p : Nat)
  /-- load of `tMatrixEntries(p)`, line 52 -/
  | load (p : Nat)
  /-- `Kokkos::atomic_add(&aRhs(c), -tMatrixEntries(p)*v)` with the loaded value, line 52 -/
  | add (p c : Nat) (v : K)
  /-- `tMatrixEntries(p) = 0.0`, lines 53 and 65 -/
  | zero (p : Nat)

/-- Shared memory and the temporaries of all threads. -/
structure CState (K : Type) where
  vals : List K
  rhs : List K
  tmp : Nat → Nat → K

/-- Execution of one memory operation by thread `t`. -/
def CMicro.exec [Zero K] [One K] [Add K] [Neg K] [Mul K] (t : Nat) (op : CMicro K) (s : CState K) :
    Res (CState K) :=
  match op with
  | .one p => do
    let v ← wr s.vals p 1
    pure { s with vals := v }
  | .zero p => do
    let v ← wr s.vals p 0
    pure { s with vals := v }
  | .load p => do
    let a ← rd s.vals p
    pure { s with tmp := fun t' p' => if t' = t ∧ p' = p then a else s.tmp t' p' }
  | .add p c v => do
    let b ← rd s.rhs c
    let r ← wr s.rhs c (b + -s.tmp t p * v)
    pure { s with rhs := r }

/-- Execution of a list of operations, each with the thread that issues it. -/
def runMicro [Zero K] [One K] [Add K] [Neg K] [Mul K] : List (Nat × CMicro K) → CState K →
    Res (CState K)
  | [], s => Res.ok s
  | x :: xs, s => do
    let s ← CMicro.exec x.1 x.2 s
    runMicro xs s

/-- Operations clearing the (column, row) entry, one candidate:
/repo/src/ApplyConstraints.hpp:58-66. -/
def clearStep (D dof lr lc : Nat) (A : Crs K) (m : Nat) (ops : List (CMicro K)) :
    Res (List (CMicro K)) := do
  let c ← rd A.cols m
  if D * c + lr = dof then pure (ops ++ [.zero (D * D * m + D * lc + lr)]) else pure ops

/-- Operations for one stored entry of the constrained row, /repo/src/ApplyConstraints.hpp:40-69. -/
def entryOps (D dof : Nat) (v : K) (A : Crs K) (k lc : Nat) (ops : List (CMicro K)) :
    Res (List (CMicro K)) := do
  let col ← rd A.cols k
  let lr := dof % D
  let p := D * D * k + D * lr + lc
  if D * col + lc = dof then pure (ops ++ [.one p])
  else do
    let lo ← rd A.rowMap col
    let hi ← rd A.rowMap (col + 1)
    forRange lo hi (ops ++ [.load p, .add p (D * col + lc) v, .zero p]) (clearStep D dof lr lc A)

/-- All operations of one thread of `applyBlockConstraints`, /repo/src/ApplyConstraints.hpp:30-71;
`v` is `aScale*aDirichletValues[aBcOrdinal]`. -/
def blockThread (D dof : Nat) (v : K) (A : Crs K) : Res (List (CMicro K)) := do
  let lo ← rd A.rowMap (dof / D)
  let hi ← rd A.rowMap (dof / D + 1)
  forRange lo hi [] fun k ops => forRange 0 D ops fun lc ops => entryOps D dof v A k lc ops

/-- Clearing step of the scalar version, /repo/src/ApplyConstraints.hpp:121-129. -/
def scalarClearStep (dof : Nat) (A : Crs K) (m : Nat) (ops : List (CMicro K)) :
    Res (List (CMicro K)) := do
  let c ← rd A.cols m
  if c = dof then pure (ops ++ [.zero m]) else pure ops

/-- Operations for one stored entry, scalar version, /repo/src/ApplyConstraints.hpp:106-131. -/
def scalarEntryOps (dof : Nat) (v : K) (A : Crs K) (k : Nat) (ops : List (CMicro K)) :
    Res (List (CMicro K)) := do
  let col ← rd A.cols k
  if col = dof then pure (ops ++ [.one k])
  else do
    let lo ← rd A.rowMap col
    let hi ← rd A.rowMap (col + 1)
    forRange lo hi (ops ++ [.load k, .add k col v, .zero k]) (scalarClearStep dof A)

/-- All operations of one thread of `applyConstraints`, /repo/src/ApplyConstraints.hpp:100-132. -/
def scalarThread (dof : Nat) (v : K) (A : Crs K) : Res (List (CMicro K)) := do
  let lo ← rd A.rowMap dof
  let hi ← rd A.rowMap (dof + 1)
  forRange lo hi [] (scalarEntryOps dof v A)

/-- The programs of all threads (boundary condition `t` is handled by thread `t`). -/
def allThreads [Mul K] (thread : Nat → K → Crs K → Res (List (CMicro K))) (scale : K) (A : Crs K)
    (dofs : List Nat) (bvals : List K) : Res (List (List (CMicro K))) :=
  forRange 0 dofs.length [] fun t progs => do
    let dof ← rd dofs t
    let v ← rd bvals t
    let p ← thread dof (scale * v) A
    pure (progs ++ [p])

/-- Second kernel, /repo/src/ApplyConstraints.hpp:73-77 and 134-139. -/
def setConstrainedRhs [Mul K] (scale : K) (dofs : List Nat) (bvals : List K) (t : Nat)
    (rhs : List K) : Res (List K) := do
  let dof ← rd dofs t
  let v ← rd bvals t
  wr rhs dof (scale * v)

/-- The two kernels; `sched` merges the thread programs of the first kernel, `o2` is the schedule
of the second. -/
def applyConstraintsWith [Zero K] [One K] [Add K] [Neg K] [Mul K]
    (thread : Nat → K → Crs K → Res (List (CMicro K)))
    (sched : List (List (CMicro K)) → List (Nat × CMicro K)) (o2 : List Nat) (scale : K)
    (A : Crs K) (rhs : List K) (dofs : List Nat) (bvals : List K) : Res (Crs K × List K) := do
  let progs ← allThreads thread scale A dofs bvals
  let s ← runMicro (sched progs) { vals := A.vals, rhs := rhs, tmp := fun _ _ => 0 }
  let b ← parFor o2 s.rhs (setConstrainedRhs scale dofs bvals)
  pure ({ A with vals := s.vals }, b)

/-- `applyBlockConstraints`, /repo/src/ApplyConstraints.hpp:10-79. -/
def applyBlockConstraints [Zero K] [One K] [Add K] [Neg K] [Mul K] (D : Nat)
    (sched : List (List (CMicro K)) → List (Nat × CMicro K)) (o2 : List Nat) (scale : K)
    (A : Crs K) (rhs : List K) (dofs : List Nat) (bvals : List K) : Res (Crs K × List K) :=
  applyConstraintsWith (blockThread D) sched o2 scale A rhs dofs bvals

/-- `applyConstraints`, /repo/src/ApplyConstraints.hpp:82-143 (the template argument
`NumDofPerNode` is not used there). -/
def applyConstraints [Zero K] [One K] [Add K] [Neg K] [Mul K]
    (sched : List (List (CMicro K)) → List (Nat × CMicro K)) (o2 : List Nat) (scale : K)
    (A : Crs K) (rhs : List K) (dofs : List Nat) (bvals : List K) : Res (Crs K × List K) :=
  applyConstraintsWith scalarThread sched o2 scale A rhs dofs bvals

end Plato
