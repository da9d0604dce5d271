import Verif.Mech.VectorModel
import Verif.Mech.Model

/-!
# Model of the natural boundary conditions

/repo/src/SurfaceLoadIntegral.hpp (93-160), /repo/src/SurfacePressureIntegral.hpp (88-168),
/repo/src/NaturalBCUtilities.hpp (54-325), /repo/src/OmegaHUtilities.hpp (95-110), and the loop over the
conditions of /repo/src/NaturalBCs.hpp.

The kernel of a surface integral runs over the faces of the side set.  Each face reads the configuration
and adds to rows of the result workset with `+=`, which is a load followed by a store and not atomic.
The model computes the list of additions of each face in program order (`faceAdds`).  `surfaceIntegral`
carries them out face by face; `runAdds` carries them out in any interleaving of the loads and stores of
the faces.

Simplifications: row `aFaceI` of the array of Jacobians is used by thread `aFaceI` only and is not part of
the interleaving; all additions of a face are listed before the first of them is carried out, which no
read of the kernel can observe.

Not modelled: `Omega_h::get_side_vector` (the normal is given as a function), the mesh data base
(adjacency is given as tables), the check that the cubature weight is finite, the expressions for the flux.
-/

namespace Plato.Bnd
open Plato Plato.Mech

/-- Faces of the mesh: `ask_verts_of(dim-1)`, `ask_up(dim-1, dim)` and `ask_down(dim, dim-1)`. -/
structure Faces where
  /-- face to node, `dim` nodes per face -/
  f2n : List Nat
  /-- offsets of the cells of each face -/
  up : List Nat
  /-- cells of the faces -/
  upCells : List Nat
  /-- cell to face, `dim + 1` faces per cell -/
  c2f : List Nat

variable {R : Type} [CommRing R]

/-- `CreateFaceLocalNode2ElemLocalNodeIndexMap`, NaturalBCUtilities.hpp:54-127: the last node of the cell
that is the node of the face.  The array is not initialised: `init` holds what it starts with. -/
def faceLocalNodes (d : Nat) (c2n f2n : List Nat) (cell face : Nat) (init : Nat → Nat) : Res (Nat → Nat) :=
  forRange 0 d init fun i loc =>
    forRange 0 (d + 1) loc fun j loc => do
      let a ← rd f2n (face * d + i)
      let b ← rd c2n (cell * (d + 1) + j)
      pure (if a = b then Function.update loc i j else loc)

/-- `ComputeSurfaceJacobians`, NaturalBCUtilities.hpp:172-237; the one-dimensional version is empty. -/
def surfaceJacobian (d cell f : Nat) (loc : Nat → Nat) (x J : V3 R) : Res (V3 R) :=
  if d = 1 then pure J else
    forRange 0 (d - 1) J fun n J =>
      forRange 0 d J fun k J => do
        let a ← vrd3 x cell (loc n) k
        let b ← vrd3 x cell (loc (d - 1)) k
        vwr3 J f n k (a - b)

/-- `ComputeSurfaceIntegralWeight<2>`, NaturalBCUtilities.hpp:291-303 -/
def surfaceWeight2 (sqrt : R → R) (f : Nat) (m : R) (J : V3 R) : Res R := do
  let a ← vrd3 J f 0 0
  let b ← vrd3 J f 0 1
  pure (m * sqrt (a * a + b * b))

/-- `ComputeSurfaceIntegralWeight<3>`, NaturalBCUtilities.hpp:308-323 -/
def surfaceWeight3 (sqrt : R → R) (f : Nat) (m : R) (J : V3 R) : Res R := do
  let j00 ← vrd3 J f 0 0
  let j01 ← vrd3 J f 0 1
  let j02 ← vrd3 J f 0 2
  let j10 ← vrd3 J f 1 0
  let j11 ← vrd3 J f 1 1
  let j12 ← vrd3 J f 1 2
  let j23 := j01 * j12 - j02 * j11
  let j31 := j02 * j10 - j00 * j12
  let j12' := j00 * j11 - j01 * j10
  pure (m * sqrt (j23 * j23 + j31 * j31 + j12' * j12'))

/-- `ComputeSurfaceIntegralWeight`, NaturalBCUtilities.hpp:274-323; only one to three dimensions exist. -/
def surfaceWeight (sqrt : R → R) (d f : Nat) (m : R) (J : V3 R) : Res R :=
  if d = 1 then pure m
  else if d = 2 then surfaceWeight2 sqrt f m J
  else if d = 3 then surfaceWeight3 sqrt f m J
  else Res.err "no specialization"

/-- One addition to the result workset: cell, row and term. -/
abbrev Add (R : Type) := (Nat × Nat) × R

/-- Unknowns of a surface integral: `NumDofs` components of the flux, `DofsPerNode` unknowns per node,
the first component belongs to the unknown `DofOffset`. -/
structure Layout where
  numDofs : Nat
  dofsPerNode : Nat
  offset : Nat

/-- What one cell of a face adds, SurfaceLoadIntegral.hpp:147-156: for each node of the face and each
component. -/
def cellAdds (d : Nat) (Y : Layout) (cell : Nat) (loc : Nat → Nat) (t : Nat → R) : List (Add R) :=
  (List.range d).flatMap fun n => (List.range Y.numDofs).map fun k =>
    ((cell, loc n * Y.dofsPerNode + k + Y.offset), t k)

/-- Body of the kernel for entry `f` of the side set, SurfaceLoadIntegral.hpp:127-157; `val cell face w` is
the term of each component given the weight. -/
def faceAdds (sqrt : R → R) (d : Nat) (Y : Layout) (c2n : List Nat) (F : Faces) (set : List Nat) (m : R)
    (val : Nat → Nat → R → Res (Nat → R)) (init : Nat → Nat) (x : V3 R) (f : Nat) (J : V3 R) :
    Res (V3 R × List (Add R)) := do
  let face ← rd set f
  let lo ← rd F.up face
  let hi ← rd F.up (face + 1)
  forRange lo hi (J, []) fun e s => do
    let cell ← rd F.upCells e
    let loc ← faceLocalNodes d c2n F.f2n cell face init
    let J ← surfaceJacobian d cell f loc x s.1
    let w ← surfaceWeight sqrt d f m J
    let t ← val cell face w
    pure (J, s.2 ++ cellAdds d Y cell loc t)

/-- The additions of a face carried out without interruption. -/
def applyAdds (r : V2 R) : List (Add R) → Res (V2 R)
  | [] => pure r
  | a :: rest => do
    let old ← vrd2 r a.1.1 a.1.2
    let r ← vwr2 r a.1.1 a.1.2 (old + a.2)
    applyAdds r rest

/-- `SurfaceLoadIntegral::operator()` and `SurfacePressureIntegral::operator()`, faces in the order
`order`. -/
def surfaceIntegral (sqrt : R → R) (d : Nat) (Y : Layout) (c2n : List Nat) (F : Faces) (set : List Nat) (m : R)
    (val : Nat → Nat → R → Res (Nat → R)) (init : Nat → Nat → Nat) (order : List Nat) (x : V3 R) (r : V2 R) :
    Res (V2 R) := do
  let s ← parFor order ((⟨set.length, d - 1, d, fun _ _ _ => 0⟩ : V3 R), r) fun f s => do
    let p ← faceAdds sqrt d Y c2n F set m val (init f) x f s.1
    let r ← applyAdds s.2 p.2
    pure (p.1, r)
  pure s.2

/-- Term of `SurfaceLoadIntegral`, SurfaceLoadIntegral.hpp:154 -/
def loadTerm (flux : Nat → R) (_cell _face : Nat) (w : R) : Res (Nat → R) := pure fun k => w * flux k

/-- `get_face_ordinal`, OmegaHUtilities.hpp:95-110.  The function returns -100 if the face is not one of the
cell; the caller uses the result as an index, hence undefined. -/
def getFaceOrdinal (d : Nat) (c2f : List Nat) (cell face : Nat) : Nat → Nat → Res Nat
  | 0, _ => Res.ub
  | fuel + 1, j => do
    let a ← rd c2f (cell * (d + 1) + j)
    if a = face then pure j else getFaceOrdinal d c2f cell face fuel (j + 1)

/-- Term of `SurfacePressureIntegral`, SurfacePressureIntegral.hpp:150-163.  `normal cell side k` is the
component of the unit normal computed from the coordinates of the mesh (`NodeCoordinate`, plain numbers),
not from the configuration workset. -/
def pressureTerm (d : Nat) (c2f : List Nat) (normal : Nat → Nat → Nat → R) (flux : Nat → R) (cell face : Nat)
    (w : R) : Res (Nat → R) := do
  let side ← getFaceOrdinal d c2f cell face (d + 1) 0
  pure fun k => normal cell side k * flux k * w

/-! ## Interleaving -/

/-- Memory operations of a thread on the result workset: `load` into its register, `store` of register
plus term. -/
inductive AMicro (R : Type) where
  | load (p : Nat × Nat)
  | store (p : Nat × Nat) (v : R)

/-- `aResult(c,i) += v` is a load and a store. -/
def prog (adds : List (Add R)) : List (AMicro R) := adds.flatMap fun a => [.load a.1, .store a.1 a.2]

/-- Result workset and the registers of the threads. -/
structure AState (R : Type) where
  r : V2 R
  reg : Nat → R

/-- One operation of thread `t`. -/
def AMicro.exec (t : Nat) : AMicro R → AState R → Res (AState R)
  | .load p, s => do
    let v ← vrd2 s.r p.1 p.2
    pure ⟨s.r, Function.update s.reg t v⟩
  | .store p v, s => do
    let r ← vwr2 s.r p.1 p.2 (s.reg t + v)
    pure ⟨r, s.reg⟩

/-- A list of operations, each with its thread. -/
def runAdds : List (Nat × AMicro R) → AState R → Res (AState R)
  | [], s => pure s
  | x :: rest, s => do
    let s ← AMicro.exec x.1 x.2 s
    runAdds rest s

/-- Operations of thread `t`, in order. -/
def threadOps (t : Nat) (M : List (Nat × AMicro R)) : List (AMicro R) :=
  (M.filter fun x => decide (x.1 = t)).map Prod.snd

/-- `M` is an interleaving of the programs of the faces. -/
def Interleaves (adds : List (List (Add R))) (M : List (Nat × AMicro R)) : Prop :=
  (∀ x ∈ M, x.1 < adds.length) ∧ ∀ t, t < adds.length → threadOps t M = prog (adds.getD t [])

/-! ## Loads of a model -/

/-- One natural boundary condition: side set, flux, and normal for pressures
(/repo/src/NaturalBC.hpp: types "Uniform" and "Uniform Component", or "Uniform Pressure"). -/
inductive NaturalBC where
  | load (set : List Nat) (flux : Nat → ℝ)
  | pressure (set : List Nat) (flux : Nat → ℝ)

/-- Faces of the condition. -/
def NaturalBC.set : NaturalBC → List Nat
  | .load s _ => s
  | .pressure s _ => s

/-- `NaturalBC::get`, /repo/src/NaturalBC.hpp, for the unknowns of an elastic problem; `up` turns plain
numbers into the scalar type of the result. `cub` is the weight of the cubature rule of degree one. -/
def NaturalBC.get (sqrt : R → R) (up : ℝ → R) (d : Nat) (Y : Layout) (c2n : List Nat) (F : Faces)
    (normal : Nat → Nat → Nat → ℝ) (scale cub : ℝ) (init : Nat → Nat → Nat) (order : List Nat) (x : V3 R)
    (r : V2 R) : NaturalBC → Res (V2 R)
  | .load s flux => surfaceIntegral sqrt d Y c2n F s (up (scale * cub)) (loadTerm fun k => up (flux k)) init order x r
  | .pressure s flux => surfaceIntegral sqrt d Y c2n F s (up (scale * cub))
      (pressureTerm d F.c2f (fun c j k => up (normal c j k)) fun k => up (flux k)) init order x r

/-- `NaturalBCs::get`, /repo/src/NaturalBCs.hpp: the conditions one after the other; condition number `b`
runs in the order `orders b`. -/
def naturalBCs (sqrt : R → R) (up : ℝ → R) (d : Nat) (Y : Layout) (c2n : List Nat) (F : Faces)
    (normal : Nat → Nat → Nat → ℝ) (scale cub : ℝ) (init : Nat → Nat → Nat → Nat) (orders : Nat → List Nat)
    (x : V3 R) (bcs : List NaturalBC) (r : V2 R) : Res (V2 R) :=
  forRange 0 bcs.length r fun b r => do
    let B ← rd bcs b
    B.get sqrt up d Y c2n F normal scale cub (init b) (orders b) x r

/-- The evaluator of a residual with natural boundary conditions: `evaluate_boundary`
(/repo/src/elliptic/ElastostaticResidual.hpp:229-242, scale -1) of the first domain runs on the worksets of
the whole mesh; `ev` evaluates the domains. -/
def withBoundary (M : FeModel) (ev : Evaluator R) (bnd : V3 R → V2 R → Res (V2 R)) : Evaluator R :=
  fun k s z x r => if k < M.domains.length then ev k s z x r else bnd x r

end Plato.Bnd
