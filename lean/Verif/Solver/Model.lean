import Mathlib.Data.Rat.Defs
import Verif.Crs.Spec

/-!
# Model of the interfaces to the linear solvers

Modelled sources: `/repo/src/alg/EpetraLinearSolver.cpp`, `/repo/src/alg/TpetraLinearSolver.cpp`,
`/repo/src/alg/PlatoSolverFactory.cpp`.

The libraries are parameters: what a library does with a matrix, an initial guess, a right hand side
and options is an arbitrary function that returns a vector and whether it converged.  A library
matrix is the function of its entries; inserted values are added.  One process, so that the maps of
the libraries number all degrees of freedom.  The AmgX interface (compiled for CUDA only) hands the
arrays over as they are and is not modelled, nor are the preconditioners of the libraries.
-/

namespace Plato.Solver

variable {K : Type}

/-- A matrix of a library: its entries. -/
abbrev Mat (K : Type) := Nat → Nat → K

/-- Insertion of a value into a library matrix: values of the same entry are added. -/
def insert [Add K] (M : Mat K) (i j : Nat) (v : K) : Mat K := fun r s =>
  if r = i ∧ s = j then M r s + v else M r s

/-- `TpetraSystem::fromMatrix`, /repo/src/alg/TpetraLinearSolver.cpp:165-213.  `N` is the number of
degrees of freedom of the map; the two vectors filled for one row of a block (lines 192-205) are
inserted entry by entry. -/
def tpetraMatrix [Zero K] [Add K] (N : Nat) (A : Crs K) : Res (Mat K) :=
  if A.rowMap.length = 0 then Res.ub
  else
    let rows := A.rowMap.length - 1
    if rows * A.rpb ≠ N then throwErr "Input Plato::CrsMatrix size does not match TpetraSystem map."
    else forRange 0 rows (fun _ _ => (0 : K)) fun i M => do
      let a ← rd A.rowMap i
      let b ← rd A.rowMap (i + 1)
      forRange a b M fun k M => do
        let c ← rd A.cols k
        forRange 0 A.rpb M fun j M =>
          forRange 0 A.cpb M fun q M => do
            let v ← rd A.vals (k * (A.rpb * A.cpb) + j * A.cpb + q)
            pure (insert M (i * A.rpb + j) (c * A.cpb + q) v)

/-- Largest number of blocks in a row, /repo/src/alg/EpetraLinearSolver.cpp:33-41. -/
def maxEntries (n : Nat) (A : Crs K) : Res Nat :=
  forRange 0 n 0 fun i m => do
    let b ← rd A.rowMap (i + 1)
    let a ← rd A.rowMap i
    pure (if b - a > m then b - a else m)

/-- `EpetraSystem::fromMatrix`, /repo/src/alg/EpetraLinearSolver.cpp:26-82.  The map has `n` nodes
with `D` degrees of freedom each; the number of rows of the matrix is not looked at.  The block
filled in lines 66-72 is inserted entry by entry.  What the library does with blocks of another
size than `D` is not modelled (`ub`). -/
def epetraMatrix [Zero K] [Add K] (n D : Nat) (A : Crs K) : Res (Mat K) := do
  let m ← maxEntries n A
  if A.rpb ≠ D ∨ A.cpb ≠ D then Res.ub
  else forRange 0 n (fun _ _ => (0 : K)) fun i M => do
    let a ← rd A.rowMap i
    let b ← rd A.rowMap (i + 1)
    let cs ← forRange 0 (b - a) (List.replicate m 0) fun q cs => do
      let c ← rd A.cols (a + q)
      wr cs q c
    forRange a b M fun k M => do
      let c ← rd cs (k - a)
      forRange 0 A.rpb M fun j M =>
        forRange 0 A.cpb M fun q M => do
          let v ← rd A.vals (k * (A.cpb * A.rpb) + j * A.cpb + q)
          pure (insert M (i * D + j) (c * D + q) v)

/-- `fromVector`, /repo/src/alg/EpetraLinearSolver.cpp:87-103 and
/repo/src/alg/TpetraLinearSolver.cpp:218-232. -/
def fromVector (N : Nat) (x : List K) : Res (List K) :=
  if x.length ≠ N then throwErr "ScalarVector size does not match the map" else Res.ok x

/-- `toVector`, /repo/src/alg/EpetraLinearSolver.cpp:107-122 and
/repo/src/alg/TpetraLinearSolver.cpp:237-253. -/
def toVector (N : Nat) (out y : List K) : Res (List K) :=
  if y.length ≠ N then throwErr "map does not match"
  else if out.length ≠ N then throwErr "ScalarVector does not match the map"
  else Res.ok y

/-- Options of a library that are set from the input. -/
structure Opts where
  iterations : Nat
  /-- exponents and mantissas do not matter: the tolerance is any value -/
  tolerance : ℚ
  deriving DecidableEq

/-- A library: matrix, initial guess, right hand side and options give a vector and whether the
iteration converged. -/
abbrev Lib (K : Type) := Mat K → List K → List K → Opts → List K × Bool

/-- `EpetraLinearSolver::solve`, /repo/src/alg/EpetraLinearSolver.cpp:160-181: the status of the
iteration is not looked at.  Returns the vector `aX`. -/
def epetraSolve [Zero K] [Add K] (lib : Lib K) (n D : Nat) (o : Opts) (A : Crs K) (x b : List K) :
    Res (List K) := do
  let M ← epetraMatrix n D A
  let s ← fromVector (n * D) x
  let f ← fromVector (n * D) b
  toVector (n * D) x (lib M s f o).1

/-- Entries of a parameter list. -/
inductive Val where
  | int (i : Nat)
  | real (r : ℚ)
  | str (s : String)
  | opts (o : Opts)
  deriving DecidableEq

/-- A parameter list. -/
abbrev Params := String → Option Val

/-- `isType<int>(…) ? get<int>(…) : default`. -/
def intOr (p : Params) (k : String) (d : Nat) : Nat :=
  match p k with
  | some (.int i) => i
  | _ => d

/-- `isType<double>(…) ? get<double>(…) : default`. -/
def realOr (p : Params) (k : String) (d : ℚ) : ℚ :=
  match p k with
  | some (.real r) => r
  | _ => d

/-- `isType<std::string>(…) ? get<std::string>(…) : default`. -/
def strOr (p : Params) (k : String) (d : String) : String :=
  match p k with
  | some (.str s) => s
  | _ => d

/-- Constructor of `EpetraLinearSolver`, /repo/src/alg/EpetraLinearSolver.cpp:129-155. -/
def epetraOpts (p : Params) : Opts :=
  ⟨intOr p "Iterations" 300, realOr p "Tolerance" (1 / 10 ^ 14)⟩

/-- `if(isType<int>("Tolerance")) get<double>("Tolerance") else 1e-14`,
/repo/src/alg/TpetraLinearSolver.cpp:327-331: `get` throws for another type. -/
def tpetraTolerance (p : Params) : Res ℚ :=
  match p "Tolerance" with
  | some (.int _) => throwErr "get<double>: the parameter has another type"
  | _ => Res.ok (1 / 10 ^ 14)

/-- Members of `TpetraLinearSolver`. -/
structure Tpetra where
  solverPackage : String
  solver : String
  opts : Opts
  precPackage : String

/-- Constructor of `TpetraLinearSolver`, /repo/src/alg/TpetraLinearSolver.cpp:299-349.  Without
"Solver Options" another package than Belos has empty options (`other`). -/
def tpetraNew (other : Opts) (p : Params) : Res Tpetra := do
  let pkg := strOr p "Solver Package" "Belos"
  let solver ← (match p "Solver" with
    | some (.str s) => Res.ok s
    | _ => if pkg = "Belos" then Res.ok "GMRES"
      else throwErr "Solver not specified in input parameter list." : Res String)
  let opts ← (match p "Solver Options" with
    | some (.opts o) => Res.ok o
    | _ => if pkg = "Belos" then do
        let t ← tpetraTolerance p
        pure ⟨intOr p "Iterations" 300, t⟩
      else Res.ok other : Res Opts)
  pure ⟨pkg, solver, opts, strOr p "Preconditioner Package" "IFpack2"⟩

/-- `TpetraLinearSolver::solve`, /repo/src/alg/TpetraLinearSolver.cpp:388-420, with `belosSolve`
(lines 351-383: no convergence is a line of output). -/
def tpetraSolve [Zero K] [Add K] (lib : Lib K) (N : Nat) (t : Tpetra) (A : Crs K) (x b : List K) :
    Res (List K) := do
  let M ← tpetraMatrix N A
  let s ← fromVector N x
  let f ← fromVector N b
  if t.precPackage ≠ "IFpack2" ∧ t.precPackage ≠ "MueLu" then
    throwErr "Preconditioner Package is not currently a valid option"
  else if t.solverPackage ≠ "Belos" then
    throwErr "Solver Package is not currently a valid option"
  else toVector N x (lib M s f t.opts).1

/-- Compile options. -/
structure Build where
  amgx : Bool
  tpetra : Bool

inductive Stack where
  | epetra
  | tpetra
  | amgx
  deriving DecidableEq

/-- `determineSolverStack`, /repo/src/alg/PlatoSolverFactory.cpp:5-24. -/
def stackName (c : Build) (p : Params) : String :=
  match p "Solver Stack" with
  | some (.str s) => s
  | _ => if c.amgx then "AmgX" else if c.tpetra then "Tpetra" else "Epetra"

/-- `SolverFactory::create`, /repo/src/alg/PlatoSolverFactory.cpp:29-60. -/
def create (c : Build) (p : Params) : Res Stack :=
  let s := stackName c p
  if s = "Epetra" then Res.ok .epetra
  else if s = "Tpetra" then
    (if c.tpetra then Res.ok .tpetra else throwErr "Not compiled with Tpetra")
  else if s = "AmgX" then (if c.amgx then Res.ok .amgx else throwErr "Not compiled with AmgX")
  else throwErr "Requested solver stack not found"

end Plato.Solver
