import Verif.Mpmd.Inline
import Mathlib.Algebra.Order.Archimedean.Real.Basic

/-!
# Model of the application (/repo/src/Analyze_App.cpp, /repo/src/Analyze_App.hpp)

`MPMD_App`: problem definitions, operations, imported and exported data.  An optimizer imports data, calls operations by
their names and exports data, in any order; the members of the application keep what the calls leave behind.

* The problems (`Plato::AbstractProblem`), the mesh reader and the files are a parameter, `Sim`.
* An exception leaves the members as they are at this point (`Out.err`).
* A Kokkos view that is a member is the list of its entries.  The states shared by the application and the problem are
  kept by the application only.
* `Kokkos::deep_copy` of views of different length throws.  A missing element of a `std::map` is created by `operator[]`.
* Not modelled: operations for ESP and moving least squares (compiled with `PLATO_ESP`, `PLATO_GEOMETRY`), element
  fields, reports on the console, output for visualization.  One process.
-/

namespace Plato.Mpmd
open Plato

/-! ## Outcomes with the state that an exception leaves behind -/

/-- Outcome of a call: value and state, exception and state, undefined behaviour. -/
inductive Out (σ α : Type) where
  | ok (a : α) (s : σ)
  | err (msg : String) (s : σ)
  | ub

/-- A function that reads and writes the members. -/
def Act (σ α : Type) := σ → Out σ α

/-- Sequencing. -/
def Act.bind {σ α β : Type} (m : Act σ α) (f : α → Act σ β) : Act σ β := fun s =>
  match m s with
  | .ok a s => f a s
  | .err e s => .err e s
  | .ub => .ub

instance {σ : Type} : Monad (Act σ) where
  pure a := fun s => .ok a s
  bind := Act.bind

/-- The present members. -/
def get {σ : Type} : Act σ σ := fun s => .ok s s

/-- Assignment to members. -/
def modify {σ : Type} (f : σ → σ) : Act σ Unit := fun s => .ok () (f s)

/-- A call of a function that does not use the members. -/
def lift {σ α : Type} (r : Res α) : Act σ α := fun s =>
  match r with
  | .ok a => .ok a s
  | .err e => .err e s
  | .ub => .ub

/-! ## What the application calls -/

/-- What the application needs to know of a mesh. -/
structure Mesh where
  nverts : Nat
  nelems : Nat

/-- States of a solution, one vector for each step. -/
abbrev Sol := List (List ℝ)

/-- Files, mesh reader and problems (`Plato::AbstractProblem`, /repo/src/PlatoAbstractProblem.hpp).  The methods of a
problem may change it. -/
structure Sim where
  Files : Type
  Prob : Type
  /-- `updateParametersFromXmlFileAndBroadcast` -/
  load : Files → Str → Res Params
  /-- the keyword "Input Mesh", `read_mesh_file`, associations and sets, Analyze_App.cpp:233-256 -/
  readMesh : Files → Params → Res Mesh
  /-- `get<int>("Spatial Dimension")` -/
  dims : Params → Res Nat
  /-- `ProblemFactory::create` -/
  make : Mesh → Nat → Params → Res Prob
  globalSolution : Prob → Sol
  numDofs : Prob → Nat
  isLinear : Prob → Str → Bool
  solution : Prob → List ℝ → Res (Sol × Prob)
  value : Prob → List ℝ → Sol → Str → Res (ℝ × Prob)
  gradZ : Prob → List ℝ → Sol → Str → Res (List ℝ × Prob)
  gradX : Prob → List ℝ → Sol → Str → Res (List ℝ × Prob)
  update : Prob → List ℝ → Sol → Res Prob

/-- `MeshMap::apply`, `MeshMap::applyT` (`Plato.MeshMapData.apply`, `Plato.MeshMapData.applyT`). -/
structure MapFns where
  apply : List ℝ → Res (List ℝ)
  applyT : List ℝ → Res (List ℝ)

/-! ## Members -/

/-- `ProblemDefinition`, Analyze_App.hpp:75-84. -/
structure Defn where
  params : Params
  modified : Bool

/-- `Parameter`, Analyze_App.hpp:87-98. -/
structure Parm where
  target : Str
  value : ℝ

/-- The class of an operation with its members. -/
inductive Kind where
  | solution
  | reinitialize (onChange : Bool)
  | update
  | criterion (c : Str) (target : ℝ)
  | criterionX (c : Str) (target : ℝ)
  | value (c : Str) (target : ℝ)
  | gradient (c : Str)
  | gradientX (c : Str)
  | mapX (c : Str) (inputs : List Str)
  | difference (delta : ℝ)
  | reloadMesh
  | hdf5 (names : List Str)
  | output

/-- `LocalOp`, with the problem definition by its name and `mLocalState` of `OnChangeOp`. -/
structure Op where
  kind : Kind
  defn : Str
  parms : Str → Option Parm
  last : List ℝ

/-- Members of `MPMD_App`, and the files. -/
structure App (S : Sim) where
  files : S.Files
  mesh : Mesh
  dims : Nat
  ndofs : Nat
  /-- `mCurrentProblemName` -/
  current : Str
  /-- name and parameters of `mDefaultProblem` -/
  default : Str × Params
  /-- `mProblemDefinitions` -/
  defs : Str → Option Defn
  /-- `mProblem` -/
  prob : Option S.Prob
  /-- `mGlobalSolution.State` -/
  sol : Sol
  control : List ℝ
  /-- `mCriterionValues` -/
  values : Str → Option ℝ
  gradsZ : Str → Option (List ℝ)
  gradsX : Str → Option (List ℝ)
  /-- `mValueNameToCriterionName` -/
  valueName : Str → Option Str
  gradZName : Str → Option Str
  gradXName : Str → Option Str
  /-- `mValuesMap` -/
  vals : Str → Option (List ℝ)
  /-- `mOperationMap` -/
  ops : Str → Option Op
  meshMap : Option MapFns
  /-- the last file of `OutputToHDF5` -/
  file : List (Str × List ℝ)

/-- Assignment to an element of a map. -/
def upd {β : Type} (f : Str → Option β) (k : Str) (v : β) : Str → Option β := fun x => if x = k then some v else f x

/-- Assignment to members of an element of a map. -/
def alter {β : Type} (f : Str → Option β) (k : Str) (g : β → β) : Str → Option β :=
  fun x => if x = k then (f x).map g else f x

section
variable {S : Sim}

/-- `*mProblem`. -/
def deref : Act (App S) S.Prob := do
  let a ← get
  match a.prob with
  | some p => pure p
  | none => lift .ub

/-! ## Problems -/

/-- Creation of the problem by dimension, Analyze_App.cpp:260-288.  Without one of the three dimensions the problem is
left as it is. -/
def build (m : Mesh) (d : Nat) (params : Params) : Act (App S) Unit :=
  if d = 3 ∨ d = 2 ∨ d = 1 then do
    modify fun a => { a with prob := none }
    let p ← lift (S.make m d params)
    modify fun a => { a with prob := some p }
  else pure ()

/-- `createProblem`, Analyze_App.cpp:220-291.  The name is set first.  `clear` is the assignment to `modified` of the definition. -/
def createProblem (name : Str) (params : Params) (clear : App S → App S) : Act (App S) Unit := do
  modify fun a => { a with current := name }
  let a ← get
  let m ← lift (S.readMesh a.files params)
  modify fun a => { a with mesh := m }
  let d ← lift (S.dims params)
  modify fun a => { a with dims := d }
  build m d params
  modify clear

/-- `aDefinition.modified = false` for a definition of the map. -/
def clearDef (name : Str) (a : App S) : App S :=
  { a with defs := alter a.defs name fun d => { d with modified := false } }

/-- `createProblem(*mProblemDefinitions[name])`. -/
def createFrom (name : Str) : Act (App S) Unit := do
  let a ← get
  match a.defs name with
  | some d => createProblem name d.params (clearDef name)
  | none => lift .ub

/-- `resetProblemMetaData`, Analyze_App.cpp:294-316.  The loops over the gradients resize copies of the views. -/
def resetProblemMetaData : Act (App S) Unit := do
  let p ← deref
  modify fun a => { a with sol := S.globalSolution p, ndofs := S.numDofs p }
  modify fun a =>
    if a.control.length ≠ a.mesh.nverts then { a with control := List.replicate a.mesh.nverts 1 } else a

/-! ## Operations -/

/-- `mProblem->solution(mControl)` assigned to `mGlobalSolution`. -/
def solve : Act (App S) Unit := do
  let p ← deref
  let a ← get
  let (s, p) ← lift (S.solution p a.control)
  modify fun a => { a with sol := s, prob := some p }

/-- The solution unless the criterion does not need it, Analyze_App.cpp:682-685, 743-746, 855-858. -/
def solveFor (c : Str) : Act (App S) Unit := do
  let p ← deref
  if S.isLinear p c = false then solve else pure ()

/-- The solution and the value less the target: the first part of `ComputeCriterion`, `ComputeCriterionX` and
`ComputeCriterionValue`, Analyze_App.cpp:677-688, 738-748, 850-860. -/
def criterionValue (c : Str) (target : ℝ) : Act (App S) Unit := do
  solveFor c
  let p ← deref
  let a ← get
  let (v, p) ← lift (S.value p a.control a.sol c)
  modify fun a => { a with values := upd a.values c (v - target), prob := some p }

/-- `criterionGradient`, Analyze_App.cpp:689, 901-905. -/
def criterionGradZ (c : Str) : Act (App S) Unit := do
  let p ← deref
  let a ← get
  let (g, p) ← lift (S.gradZ p a.control a.sol c)
  modify fun a => { a with gradsZ := upd a.gradsZ c g, prob := some p }

/-- `criterionGradientX`, Analyze_App.cpp:749, 944-948. -/
def criterionGradX (c : Str) : Act (App S) Unit := do
  let p ← deref
  let a ← get
  let (g, p) ← lift (S.gradX p a.control a.sol c)
  modify fun a => { a with gradsX := upd a.gradsX c g, prob := some p }

open Classical in
/-- `hasChanged`, Analyze_App.cpp:1182-1205, of the operation with the given name. -/
noncomputable def hasChanged (o : Str) (op : Op) (onChange : Bool) (input : List ℝ) : Act (App S) Bool := do
  if onChange then
    if op.last.length = 0 then
      modify fun a => { a with ops := alter a.ops o fun op => { op with last := input } }
      pure true
    else if op.last = input then pure false
    else
      modify fun a => { a with ops := alter a.ops o fun op => { op with last := input } }
      pure true
  else pure true

/-- The names of values. -/
def sParameters : Str := "Parameters".toList
def sSensitivity : Str := "Criterion Sensitivity".toList
def sInitial : Str := "Initial Value".toList
def sPerturbed : Str := "Perturbed Value".toList
def sGradient : Str := "Gradient".toList
def sIndex : Str := "Perturbed Index".toList
def sLength : Str := "Vector Length".toList
def sTopology : Str := "Topology".toList
def sSolution : Str := "Solution".toList
def sSolutionX : Str := "Solution X".toList
def sSolutionY : Str := "Solution Y".toList
def sSolutionZ : Str := "Solution Z".toList

/-- The sum of `MapCriterionGradientX` for one input, Analyze_App.cpp:996-1004. -/
def mapSum (f d : List ℝ) : Res ℝ :=
  forRange 0 d.length 0 fun i v => do
    let x ← rd f i
    let y ← rd d i
    pure (v + x * y)

/-- The loop of `MapCriterionGradientX` over the inputs, Analyze_App.cpp:992-1006.  An input may have the name of the
output. -/
def mapLoop (f : List ℝ) (vals : Str → Option (List ℝ)) : List Str → Nat → List ℝ → Res (List ℝ)
  | [], _, out => .ok out
  | n :: ns, k, out => do
    let v ← mapSum f ((upd vals sSensitivity out n).getD [])
    let out ← wr out k v
    mapLoop f vals ns (k + 1) out

open Classical in
/-- `std::round`: halves away from zero. -/
noncomputable def roundAway (x : ℝ) : Int :=
  if 0 ≤ x then ⌊x + 1 / 2⌋ else ⌈x - 1 / 2⌉

/-- `ComputeFiniteDifference::operator()`, Analyze_App.cpp:1259-1278.  Division by zero is 0 here; a difference
without "Perturbed Index" divides by zero. -/
noncomputable def difference (op : Op) (delta : ℝ) : Act (App S) Unit := do
  let a ← get
  let (i, δ) := match op.parms sIndex with
    | some q => (roundAway q.value, delta)
    | none => (0, 0)
  let p ← lift (rd ((a.vals sPerturbed).getD []) 0)
  let q ← lift (rd ((a.vals sInitial).getD []) 0)
  if i < 0 then lift .ub
  else
    let out ← lift (wr ((a.vals sGradient).getD []) i.toNat ((p - q) / δ))
    modify fun a => { a with vals := upd a.vals sGradient out }

/-- `getVectorComponent`, Analyze_App.cpp:1440-1450.  Every iteration writes an element of its own, in any order. -/
def getVectorComponent (v : List ℝ) (comp : Int) (stride : Nat) : Res (List ℝ) :=
  if stride = 0 then .ub
  else (List.range (v.length / stride)).mapM fun (i : Nat) =>
    if (stride * i : Int) + comp < 0 then .ub else rd v ((stride * i : Int) + comp).toNat

/-- Name and index of a field, Analyze_App.hpp:298-305, Analyze_App.cpp:1557-1563. -/
def fieldName (name : Str) : Res (Str × Int) := do
  let tokens := split name '@'
  let f ← rd tokens 0
  if 1 < tokens.length then do
    let t ← rd tokens 1
    let i ← atoi t
    pure (f, i)
  else pure (f, 0)

/-- `getScalarFieldHostMirror`, Analyze_App.cpp:1551-1606.  The criterion of a gradient by the coordinates is looked
up among the gradients by the controls, and the look-up creates an entry. -/
def hostMirror (name : Str) : Act (App S) (List ℝ) := do
  let (f, i) ← lift (fieldName name)
  let a ← get
  match a.gradZName f with
  | some c => pure ((a.gradsZ c).getD [])
  | none =>
    if name = sSolution then do
      let u ← lift (rd a.sol 0)
      lift (getVectorComponent u 0 1)
    else if name = sSolutionX then do
      let u ← lift (rd a.sol 0)
      lift (getVectorComponent u 0 a.dims)
    else if name = sSolutionY then do
      let u ← lift (rd a.sol 0)
      lift (getVectorComponent u 1 a.dims)
    else if name = sSolutionZ then do
      let u ← lift (rd a.sol 0)
      lift (getVectorComponent u 2 a.dims)
    else match a.gradXName f with
      | some _ => do
        let c : Str := (a.gradZName f).getD []
        modify fun a => { a with gradZName := upd a.gradZName f c }
        let a ← get
        let g := (a.gradsX c).getD []
        modify fun a => { a with gradsX := upd a.gradsX c g }
        lift (getVectorComponent g i a.dims)
      | none => pure []

/-- The loop of `OutputToHDF5::operator()`, Analyze_App.cpp:1323-1335. -/
def hdf5Loop : List Str → Act (App S) Unit
  | [] => pure ()
  | n :: ns => do
    let d ← hostMirror n
    modify fun a => { a with file := a.file ++ [(n, d)] }
    hdf5Loop ns

/-- `operator()` of the operation with the given name. -/
noncomputable def runOp (o : Str) (op : Op) : Act (App S) Unit :=
  match op.kind with
  | .solution => solve                                   -- Analyze_App.cpp:1080-1103
  | .reinitialize onChange => do                         -- Analyze_App.cpp:1116-1140
    let a ← get
    let input := (a.vals sParameters).getD []
    modify fun a => { a with vals := upd a.vals sParameters input }
    let ch ← hasChanged o op onChange input
    if ch then do
      let a ← get
      createFrom a.current
      resetProblemMetaData
    else pure ()
  | .update => do                                        -- Analyze_App.cpp:1218-1225
    let p ← deref
    let a ← get
    let p ← lift (S.update p a.control a.sol)
    modify fun a => { a with prob := some p }
  | .criterion c t => do                                 -- Analyze_App.cpp:669-703
    criterionValue c t
    criterionGradZ c
  | .criterionX c t => do                                -- Analyze_App.cpp:730-764
    criterionValue c t
    criterionGradX c
  | .value c t => criterionValue c t                     -- Analyze_App.cpp:843-872
  | .gradient c => criterionGradZ c                      -- Analyze_App.cpp:893-916
  | .gradientX c => criterionGradX c                     -- Analyze_App.cpp:936-959
  | .mapX c inputs => do                                 -- Analyze_App.cpp:979-1007
    let a ← get
    let out ← lift (mapLoop ((a.gradsX c).getD []) a.vals inputs 0 ((a.vals sSensitivity).getD []))
    modify fun a => { a with vals := upd a.vals sSensitivity out }
  | .difference δ => difference op δ
  | .reloadMesh => do                                    -- Analyze_App.cpp:1289-1300
    let a ← get
    createProblem a.default.1 a.default.2 id
    resetProblemMetaData
  | .hdf5 names => do                                    -- Analyze_App.cpp:1317-1339
    modify fun a => { a with file := [] }
    hdf5Loop names
  | .output => pure ()                                   -- Analyze_App.cpp:1237, 1351-1372

/-- Creation of another problem definition, Analyze_App.cpp:522-530.  The solution is reset with another definition
only. -/
def prepare (current name : Str) (d : Defn) : Act (App S) Unit :=
  if name ≠ current then do
    createFrom name
    resetProblemMetaData
  else if d.modified then createFrom name
  else pure ()

/-- `compute`, Analyze_App.cpp:508-535, with `getOperation`, 487-505. -/
noncomputable def compute (o : Str) : Act (App S) Unit := do
  let a ← get
  match a.ops o with
  | none => lift (throwErr "Request for operation that doesn't exist.")
  | some op =>
    match a.defs op.defn with
    | none => lift .ub
    | some d => do
      prepare a.current op.defn d
      runOp o op

/-! ## Import and export -/

/-- `copyFieldIntoAnalyze`, Analyze_App.hpp:468-494: the new content of a view. -/
def copyInto (old new : List ℝ) : Res (List ℝ) :=
  if new.length = old.length then .ok new else throwErr "deep_copy: extents of views don't match"

/-- `copyFieldFromAnalyze`, Analyze_App.hpp:496-521, for a shared field of length `n`. -/
def copyFrom (n : Nat) (v : List ℝ) : Res (List ℝ) :=
  if v.length = n then .ok v else throwErr "deep_copy: extents of views don't match"

/-- `importScalarField`, Analyze_App.hpp:217-236.  Other names are ignored. -/
def importField (name : Str) (data : List ℝ) : Act (App S) Unit := do
  let a ← get
  if name = sTopology then do
    let z ← lift (copyInto a.control data)
    modify fun a => { a with control := z }
    match a.meshMap with
    | none => pure ()
    | some m => do
      let y ← lift (m.apply z)
      modify fun a => { a with control := y }
  else if name = sSolution then do
    let u ← lift (rd a.sol 0)
    let u ← lift (copyInto u data)
    let s ← lift (wr a.sol 0 u)
    modify fun a => { a with sol := s }
  else pure ()

/-- `importScalarParameter`, Analyze_App.hpp:243-255, and `updateParameters`, Analyze_App.cpp:612-640, for the
operation `o`.  The value is assigned before the target is parsed. -/
def importParameter (o name : Str) (data : List ℝ) : Act (App S) Unit := do
  let a ← get
  match a.ops o with
  | none => lift (throwErr "Request for operation that doesn't exist.")
  | some op => do
    let v ← lift (rd data 0)
    match op.parms name with
    | none => lift (throwErr "Attempted to update a parameter that wasn't defined for this operation")
    | some q => do
      modify fun a =>
        { a with ops := alter a.ops o fun op => { op with parms := alter op.parms name fun q => { q with value := v } } }
      if q.target = [] then pure ()
      else match a.defs op.defn with
        | none => lift .ub
        | some d => do
          let p ← lift (parseInline d.params q.target v)
          modify fun a => { a with defs := upd a.defs op.defn ⟨p, true⟩ }

/-- `importScalarValue`, Analyze_App.hpp:262-288. -/
def importValue (name : Str) (data : List ℝ) : Act (App S) Unit := do
  let a ← get
  match a.vals name with
  | none => lift (throwErr "Attempted to import SharedValue that doesn't exist.")
  | some _ => modify fun a => { a with vals := upd a.vals name data }

/-- `exportScalarValue`, Analyze_App.hpp:326-357, for shared data of length `n`.  A criterion gives one value; other
values are resized in place. -/
def exportValue (name : Str) (n : Nat) : Act (App S) (List ℝ) := do
  let a ← get
  match a.valueName name with
  | some c => pure [(a.values c).getD 0]
  | none =>
    match a.vals name with
    | none => lift (throwErr "Attempted to export SharedValue that doesn't exist.")
    | some v => do
      let v := v.take n ++ List.replicate (n - v.length) 0
      modify fun a => { a with vals := upd a.vals name v }
      pure v

/-- The last step, Analyze_App.hpp:417: with no step the index is out of range. -/
def lastStep (s : Sol) : Res (List ℝ) := if s.length = 0 then .ub else rd s (s.length - 1)

/-- The gradient mapped in place, Analyze_App.hpp:399-405. -/
def unmapGrad (m : Option MapFns) (c : Str) (g : List ℝ) : Act (App S) (List ℝ) :=
  match m with
  | some m =>
    if g.length ≠ 0 then do
      let h ← lift (m.applyT g)
      modify fun a => { a with gradsZ := upd a.gradsZ c h }
      pure h
    else pure g
  | none => pure g

/-- `exportScalarField`, Analyze_App.hpp:388-443, for a shared field of length `n`: the data that is written, `none` if
the shared field is not touched.  With a mesh map the gradient is mapped in place. -/
def exportField (name : Str) (n : Nat) (i : Int) : Act (App S) (Option (List ℝ)) := do
  let a ← get
  if name = sTopology then do
    let v ← lift (copyFrom n a.control)
    pure (some v)
  else match a.gradZName name with
    | some c => do
      let g := (a.gradsZ c).getD []
      modify fun a => { a with gradsZ := upd a.gradsZ c g }
      let g ← unmapGrad a.meshMap c g
      let v ← lift (copyFrom n g)
      pure (some v)
    | none =>
      if name = sSolution then do
        let u ← lift (rd a.sol 0)
        let w ← lift (getVectorComponent u 0 1)
        let v ← lift (copyFrom n w)
        pure (some v)
      else if name = sSolutionX then do
        let u ← lift (lastStep a.sol)
        let w ← lift (getVectorComponent u 0 a.ndofs)
        let v ← lift (copyFrom n w)
        pure (some v)
      else if name = sSolutionY then do
        let u ← lift (lastStep a.sol)
        let w ← lift (getVectorComponent u 1 a.ndofs)
        let v ← lift (copyFrom n w)
        pure (some v)
      else if name = sSolutionZ then do
        let u ← lift (lastStep a.sol)
        let w ← lift (getVectorComponent u 2 a.ndofs)
        let v ← lift (copyFrom n w)
        pure (some v)
      else match a.gradXName name with
        | some c => do
          let g := (a.gradsX c).getD []
          modify fun a => { a with gradsX := upd a.gradsX c g }
          let w ← lift (getVectorComponent g i a.dims)
          let v ← lift (copyFrom n w)
          pure (some v)
        | none => pure none

/-- Layout of shared data; element fields are left out. -/
inductive Layout where
  | field
  | scalar

/-- `exportDataT`, Analyze_App.hpp:295-319. -/
def exportData (name : Str) (l : Layout) (n : Nat) : Act (App S) (Option (List ℝ)) := do
  let (f, i) ← lift (fieldName name)
  match l with
  | .field => exportField f n i
  | .scalar => do
    let v ← exportValue f n
    pure (some v)

/-- `exportDataMap` for nodes, Analyze_App.cpp:1406-1436. -/
def exportNodeMap (a : App S) : List Nat := (List.range a.mesh.nverts).map (· + 1)

/-! ## Construction -/

/-- An `Operation` element of the input.  `kind` is the function with its keywords, `none` a function that is not
known. -/
structure Node where
  name : Str
  kind : Option Kind
  defn : Str
  /-- `Output`: argument and argument name -/
  outputs : List (Str × Str)
  /-- `Parameter`: argument name, target, initial value -/
  parms : List (Str × Str × ℝ)

/-- `addUnique`, Analyze_App.cpp:32-62. -/
def addUnique (m : Str → Option Str) (key v : Str) : Res (Str → Option Str) :=
  if key = [] then .ok m
  else match m key with
    | some w => if w ≠ v then throwErr "ArgumentName is already associated" else .ok m
    | none => .ok (upd m key v)

/-- `getArgumentName`, Analyze_App.cpp:80-120, not required. -/
def getArgumentName (arg : Str) : List (Str × Str) → Res Str
  | [] => .ok []
  | (a, n) :: rest =>
    if a = arg then (if n = [] then throwErr "'ArgumentName' missing" else .ok n) else getArgumentName arg rest

/-- Parameters of an operation, constructor of `LocalOp`, Analyze_App.cpp:538-560. -/
def readParms : List (Str × Str × ℝ) → (Str → Option Parm) → Res (Str → Option Parm)
  | [], m => .ok m
  | (n, t, v) :: rest, m =>
    match m n with
    | some _ => throwErr "ArgumentNames must be unique."
    | none => readParms rest (upd m n ⟨t, v⟩)

/-- Make an element of a map if there is none. -/
def ensure {β : Type} (f : Str → Option β) (k : Str) (v : β) : Str → Option β :=
  match f k with
  | some _ => f
  | none => upd f k v

/-- `CriterionOp`, Analyze_App.cpp:562-575. -/
def checkCriterion (c : Str) : Act (App S) Unit :=
  if c = [] then lift (throwErr "Required keyword ('Criterion') missing.") else pure ()

/-- Registration of a value, Analyze_App.cpp:653-657. -/
def registerValue (c n : Str) : Act (App S) Unit := do
  modify fun a => { a with values := ensure a.values c 0 }
  let a ← get
  let m ← lift (addUnique a.valueName n c)
  modify fun a => { a with valueName := m }

/-- Registration of a gradient by the controls, Analyze_App.cpp:659-665. -/
def registerGradZ (c n : Str) : Act (App S) Unit := do
  modify fun a => { a with gradsZ := ensure a.gradsZ c (List.replicate a.mesh.nverts 0) }
  let a ← get
  let m ← lift (addUnique a.gradZName n c)
  modify fun a => { a with gradZName := m }

/-- Registration of a gradient by the coordinates, Analyze_App.cpp:718-726. -/
def registerGradX (c n : Str) : Act (App S) Unit := do
  modify fun a => { a with gradsX := ensure a.gradsX c (List.replicate (a.dims * a.mesh.nverts) 0) }
  let a ← get
  let m ← lift (addUnique a.gradXName n c)
  modify fun a => { a with gradXName := m }

def sValue : Str := "Value".toList

/-- What the constructors of the operations do to the application.  The constructor of `ComputeCriterionX` creates the gradient before it registers the
name of the value; the two do not depend on each other. -/
noncomputable def register (nd : Node) (q : Str → Option Parm) : Kind → Act (App S) Unit
  | .criterion c _ => do                                 -- Analyze_App.cpp:645-666
    checkCriterion c
    let v ← lift (getArgumentName sValue nd.outputs)
    let g ← lift (getArgumentName sGradient nd.outputs)
    registerValue c v
    registerGradZ c g
  | .criterionX c _ => do                                -- Analyze_App.cpp:706-727
    checkCriterion c
    let v ← lift (getArgumentName sValue nd.outputs)
    let g ← lift (getArgumentName sGradient nd.outputs)
    registerValue c v
    registerGradX c g
  | .value c _ => do                                     -- Analyze_App.cpp:828-840
    checkCriterion c
    let v ← lift (getArgumentName sValue nd.outputs)
    registerValue c v
  | .gradient c => do                                    -- Analyze_App.cpp:875-888
    checkCriterion c
    let g ← lift (getArgumentName sGradient nd.outputs)
    registerGradZ c g
  | .gradientX c => do                                   -- Analyze_App.cpp:919-931
    checkCriterion c
    let g ← lift (getArgumentName sGradient nd.outputs)
    registerGradX c g
  | .mapX c inputs => do                                 -- Analyze_App.cpp:962-974
    checkCriterion c
    modify fun a => { a with vals := inputs.foldl (fun m n => upd m n []) a.vals }
    modify fun a => { a with vals := upd a.vals sSensitivity (List.replicate inputs.length 0) }
  | .reinitialize _ =>                                   -- Analyze_App.cpp:578-585, 1107-1112
    modify fun a => { a with vals := upd a.vals sParameters [] }
  | .difference _ => do                                  -- Analyze_App.cpp:1241-1256
    modify fun a => { a with vals := upd (upd a.vals sInitial []) sPerturbed [] }
    match q sLength with
    | none => lift .ub
    | some l =>
      if roundAway l.value < 0 then lift (throwErr "length_error")
      else modify fun a => { a with vals := upd a.vals sGradient (List.replicate (roundAway l.value).toNat 0) }
  | _ => pure ()

/-- Constructor of an operation. -/
noncomputable def construct (nd : Node) (k : Kind) : Act (App S) Op := do
  let q ← lift (readParms nd.parms fun _ => none)
  register nd q k
  pure ⟨k, nd.defn, q, []⟩

/-- First loop of `initialize`, Analyze_App.cpp:334-346. -/
def readDefs : List Node → Act (App S) Unit
  | [] => pure ()
  | nd :: rest => do
    let a ← get
    match a.defs nd.defn with
    | some _ => readDefs rest
    | none => do
      let p ← lift (S.load a.files nd.defn)
      modify fun a => { a with defs := upd a.defs nd.defn ⟨p, false⟩ }
      readDefs rest

/-- Body of the second loop of `initialize`; functions that are not known are skipped. -/
noncomputable def readOp (nd : Node) : Act (App S) Unit :=
  match nd.kind with
  | none => pure ()
  | some k => do
    let op ← construct nd k
    modify fun a => { a with ops := upd a.ops nd.name op }

/-- Second loop of `initialize`, Analyze_App.cpp:351-459. -/
noncomputable def readOps : List Node → Act (App S) Unit
  | [] => pure ()
  | nd :: rest => do
    readOp nd
    readOps rest

/-- `initialize`, Analyze_App.cpp:319-460. -/
noncomputable def initApp (nodes : List Node) : Act (App S) Unit := do
  modify fun a => { a with control := List.replicate a.mesh.nverts 1 }
  readDefs nodes
  readOps nodes

/-! ## Histories -/

/-- What the optimizer does, and changes of files by other programs. -/
inductive Cmd (S : Sim) where
  | importField (name : Str) (data : List ℝ)
  | importParameter (op name : Str) (data : List ℝ)
  | importValue (name : Str) (data : List ℝ)
  | compute (op : Str)
  | export (name : Str) (l : Layout) (n : Nat)
  | files (f : S.Files)

/-- One command. -/
noncomputable def Cmd.run : Cmd S → Act (App S) Unit
  | .importField n d => Mpmd.importField n d
  | .importParameter o n d => Mpmd.importParameter o n d
  | .importValue n d => Mpmd.importValue n d
  | .compute o => Mpmd.compute o
  | .export n l k => do
    let _ ← exportData n l k
    pure ()
  | .files f => modify fun a => { a with files := f }

/-- A history in which all commands return. -/
noncomputable def exec : List (Cmd S) → Act (App S) Unit
  | [] => pure ()
  | c :: cs => do
    c.run
    exec cs

/-- The members after a history in which commands return or throw; after an exception the history goes on. -/
noncomputable def execAll : List (Cmd S) → App S → Option (App S)
  | [], a => some a
  | c :: cs, a =>
    match c.run a with
    | .ok _ b => execAll cs b
    | .err _ b => execAll cs b
    | .ub => none

end

end Plato.Mpmd
