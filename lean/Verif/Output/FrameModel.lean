import Verif.Mech.Model
import Verif.Blas.Vector

/-!
# Model of the native output

Modelled source: `/repo/src/AnalyzeOutput.hpp` with `Plato::copy` and `copy_2Dview_to_write`
(`/repo/src/PlatoUtilities.hpp`) and `add_element_state_tags` (`/repo/src/OmegaHUtilities.hpp`), as
called by the operation ComputeSolution (`/repo/src/Analyze_App.cpp:1080-1104`); for the combinations
of "Physics" and "PDE Constraint", `/repo/src/PlatoProblemFactory.hpp`.

Simplifications: a mesh is what is needed here, its numbers of nodes and cells and its tags; a tag
has a number of components and data, and adding a tag of a name that is there replaces it.  The
writer (`Omega_h::vtk::Writer`) is a list of frames, each with the tags of the mesh at that moment.
Of the data of a saved state the maps with one and with two indices are there, as lists in the order
of the names.
-/

namespace Plato.Output

open Plato.Mech

variable {K : Type} [Zero K]

/-- Tags of a mesh, for nodes or for cells. -/
abbrev Tags (K : Type) := String → Option (Nat × List K)

/-- `Mesh::add_tag`. -/
def addTag (t : Tags K) (name : String) (comps : Nat) (data : List K) : Tags K := fun n =>
  if n = name then some (comps, data) else t n

/-- One output of the writer. -/
structure Frame (K : Type) where
  index : Nat
  nodes : Tags K
  elems : Tags K

/-- A mesh with its tags, and the frames written. -/
structure Mesh (K : Type) where
  nverts : Nat
  nelems : Nat
  nodes : Tags K
  elems : Tags K
  frames : List (Frame K)

/-- `Plato::copy<D, C>(off, n, input, output)`, /repo/src/PlatoUtilities.hpp:296-312, into a new
array. -/
def copyNodes (D C off n : Nat) (order : List Nat) (input : List K) : Res (List K) :=
  parFor order (List.replicate (n * C) 0) fun p out =>
    forRange 0 C out fun c out => do
      let x ← rd input (p * D + (off + c))
      wr out (p * C + c) x

/-- Data of a saved state: `scalarVectors` and `scalarMultiVectors`. -/
structure StateData (K : Type) where
  vectors : List (String × List K)
  multi : List (String × V2 K)

/-- `copy_1Dview_to_write`, /repo/src/PlatoUtilities.hpp:339-346. -/
def copy1D (order : List Nat) (input : List K) : Res (List K) :=
  parFor order (List.replicate input.length 0) fun i out => do
    let x ← rd input i
    wr out i x

/-- `copy_2Dview_to_write`, /repo/src/PlatoUtilities.hpp:320-332. -/
def copy2D (order : List Nat) (input : V2 K) : Res (List K) :=
  parFor order (List.replicate (input.d0 * input.d1) 0) fun g out =>
    forRange 0 input.d1 out fun i out => do
      let x ← vrd2 input g i
      wr out (g * input.d1 + i) x

/-- The loop over `scalarVectors` in `add_element_state_tags`, /repo/src/OmegaHUtilities.hpp:45-59. -/
def vectorTags (nelems : Nat) (order : List Nat) : List (String × List K) → Tags K → Res (Tags K)
  | [], t => Res.ok t
  | (name, v) :: vs, t =>
    if v.length = nelems then do
      let data ← copy1D order v
      vectorTags nelems order vs (addTag t name 1 data)
    else vectorTags nelems order vs t

/-- The loop over `scalarMultiVectors`, /repo/src/OmegaHUtilities.hpp:60-76. -/
def multiTags (nelems : Nat) (order : List Nat) : List (String × V2 K) → Tags K → Res (Tags K)
  | [], t => Res.ok t
  | (name, v) :: vs, t =>
    if v.d0 = nelems then do
      let data ← copy2D order v
      multiTags nelems order vs (addTag t name v.d1 data)
    else multiTags nelems order vs t

/-- `add_element_state_tags`, /repo/src/OmegaHUtilities.hpp:40-77. -/
def elementTags (nelems : Nat) (order : List Nat) (d : StateData K) (t : Tags K) : Res (Tags K) := do
  let t ← vectorTags nelems order d.vectors t
  multiTags nelems order d.multi t

/-- A field of the state: name of its tag, number of components, position within a node. -/
structure FieldSpec where
  tag : String
  comps : Nat
  off : Nat
  deriving DecidableEq

/-- The fields of one step as tags. -/
def fieldTags (D n : Nat) (order : List Nat) (state : List K) : List FieldSpec → Tags K → Res (Tags K)
  | [], t => Res.ok t
  | f :: fs, t => do
    let data ← copyNodes D f.comps f.off n order state
    fieldTags D n order state fs (addTag t f.tag f.comps data)

/-- A solution: states, rates and second rates, one row per step. -/
structure Solution (K : Type) where
  state : List (List K)
  dot : List (List K)
  dotdot : List (List K)

/-- The element data of a step, if the function adds them and the step has been saved, e.g.
/repo/src/AnalyzeOutput.hpp:283-286. -/
def stepElems (elems : Bool) (saved : List (StateData K)) (orderE : List Nat) (k nelems : Nat)
    (t : Tags K) : Res (Tags K) :=
  match elems, saved[k]? with
  | true, some d => elementTags nelems orderE d t
  | _, _ => Res.ok t

/-- One pass of the loop of an output function: the groups of fields, each with its rows and its
degrees of freedom per node (a group without rows is passed over), element data if the function adds
them and the step has been saved, a frame. -/
def stepOut (groups : List (List (List K) × Nat × List FieldSpec)) (elems : Bool)
    (saved : List (StateData K)) (order orderE : List Nat) (index : Nat → Nat) (k : Nat)
    (m : Mesh K) : Res (Mesh K) := do
  let nodes ← groups.foldlM (fun t g =>
    if g.1.length = 0 then Res.ok t
    else do
      let row ← rd g.1 k
      fieldTags g.2.1 m.nverts order row g.2.2 t) m.nodes
  let el ← stepElems elems saved orderE k m.nelems m.elems
  return { m with nodes := nodes, elems := el, frames := m.frames ++ [⟨index k, nodes, el⟩] }

/-- `electromechanical_output`, /repo/src/AnalyzeOutput.hpp:29-60: the first step, as frame 1,
without element data. -/
def electromechanical (dim : Nat) (sol : Solution K) (order orderE : List Nat) (m : Mesh K) :
    Res (Mesh K) :=
  stepOut [(sol.state, dim + 1, [⟨"Displacements", dim, 0⟩, ⟨"Potential", 1, dim⟩])] false []
    order orderE (fun _ => 1) 0 m

/-- The loop over the steps. -/
def steps (groups : List (List (List K) × Nat × List FieldSpec)) (elems : Bool)
    (saved : List (StateData K)) (order orderE : List Nat) (num : Nat) (m : Mesh K) : Res (Mesh K) :=
  forRange 0 num m fun k m => stepOut groups elems saved order orderE id k m

/-- `output`, /repo/src/AnalyzeOutput.hpp:398-456, with the functions for the kinds of physics:
`stabilized_thermomechanical_output` (lines 71-113), `stabilized_thermoplasticity_output` (124-166),
`thermomechanical_output` (177-219), `mechanical_output` (230-291), `stabilized_mechanical_output`
(302-342), `thermal_output` (353-387).  The temporaries of the fields of a step are filled before the
tags are added; the order of the tags does not show. -/
def output (physics pde : String) (dim : Nat) (sol : Solution K) (saved : List (StateData K))
    (order orderE : List Nat) (m : Mesh K) : Res (Mesh K) :=
  if physics = "Electromechanical" then electromechanical dim sol order orderE m
  else if physics = "Thermomechanical" then
    if pde = "Stabilized Elliptic" then
      steps [(sol.state, dim + 2,
        [⟨"Displacements", dim, 0⟩, ⟨"Pressure", 1, dim⟩, ⟨"Temperature", 1, dim + 1⟩])] false saved
        order orderE sol.state.length m
    else
      steps [(sol.state, dim + 1, [⟨"Displacements", dim, 0⟩, ⟨"Temperature", 1, dim⟩])] true saved
        order orderE sol.state.length m
  else if physics = "Mechanical" then
    steps [(sol.state, dim, [⟨"Displacements", dim, 0⟩]), (sol.dot, dim, [⟨"Velocity", dim, 0⟩]),
      (sol.dotdot, dim, [⟨"Acceleration", dim, 0⟩])] true saved order orderE sol.state.length m
  else if physics = "Plasticity" ∨ physics = "Stabilized Mechanical" then
    steps [(sol.state, dim + 1, [⟨"Displacements", dim, 0⟩, ⟨"Pressure", 1, dim⟩])] true saved
      order orderE sol.state.length m
  else if physics = "Thermoplasticity" then
    steps [(sol.state, dim + 2,
      [⟨"Displacements", dim, 0⟩, ⟨"Pressure", 1, dim + 1⟩, ⟨"Temperature", 1, dim⟩])] false saved
      order orderE sol.state.length m
  else if physics = "StructuralDynamics" then Res.ok m
  else if physics = "Thermal" then
    steps [(sol.state, 1, [⟨"Temperature", 1, 0⟩])] true saved order orderE sol.state.length m
  else Res.ok m

/-- `write`, /repo/src/AnalyzeOutput.hpp:468-508, all three dimensions compiled. -/
def write (physics pde : String) (dim : Nat) (sol : Solution K) (control : List K)
    (saved : List (StateData K)) (order orderE : List Nat) (m : Mesh K) : Res (Mesh K) := do
  let c ← copyNodes 1 1 0 m.nverts order control
  let m := { m with nodes := addTag m.nodes "Control" 1 c }
  if dim = 1 ∨ dim = 2 ∨ dim = 3 then output physics pde dim sol saved order orderE m
  else Res.ok m

end Plato.Output
