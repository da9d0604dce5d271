import Mathlib.Analysis.SpecialFunctions.Trigonometric.Basic
import Verif.Blas.Vector

/-!
# Model of the moving level set of the rocket model

Modelled source: `/repo/src/HamiltonJacobi.hpp` as used by `/repo/src/Plato_LevelSetCylinderInBox.hpp`
and `/repo/src/Plato_LevelSetOnExternalMesh.hpp`, and the history kept by these classes.

Simplifications: scalars are real numbers.  Volumes and gradients of the basis functions of an element
(`ComputeGradient`, `ComputeVolume`, `/repo/src/ImplicitFunctors.hpp:413-506`) are parameters.  The
values of an element are read once; the loops that only add up in local variables are finite sums.  A
division by zero of the source gives a number that is not compared as greater than zero (NaN), and all
contributions behind it are guarded by such comparisons; the zero of a division by zero in Lean takes
the same branches.  The only place where this is not so is the mean residual of
`assemble_and_update_Eikonal`, which is an optional number here.  `compute_arrival_time` is not
modelled: `mComputeArrivalTime` is never set.
-/

namespace Plato.LevelSet

open Finset

/-- A mesh: `conn` is `ask_elem_verts()`, `vol` and `grad` (element, local node, dimension) are the
results of `ComputeGradient`, `size` the one of `ComputeVolume`. -/
structure Mesh where
  dim : Nat
  nverts : Nat
  nelems : Nat
  conn : List Nat
  vol : Nat → ℝ
  size : Nat → ℝ
  grad : Nat → Nat → Nat → ℝ

/-- `ProblemFields`, /repo/src/HamiltonJacobi.hpp:52-64, without the history. -/
structure Fields where
  rhs : List ℝ
  norm : List ℝ
  elemSpeed : List ℝ
  nodalSpeed : List ℝ
  levelSet : V2 ℝ
  cur : Nat
  useElem : Bool

/-- The local numbers of the nodes of an element. -/
def Mesh.nodes (M : Mesh) (e : Nat) : Res (List Nat) :=
  forRange 0 (M.dim + 1) [] fun n l => do
    let v ← rd M.conn (e * (M.dim + 1) + n)
    pure (l ++ [v])

/-- The present values of the level set at the nodes of an element. -/
noncomputable def Fields.values (F : Fields) (nodes : List Nat) : Res (List ℝ) :=
  forRange 0 nodes.length [] fun n l => do
    let v ← rd nodes n
    let x ← vrd2 F.levelSet v F.cur
    pure (l ++ [x])

/-- Gradient of the level set on an element before `unitize`, lines 504-510: `g` gradients of the basis
functions, `φ` values at the nodes. -/
noncomputable def direction (d : Nat) (g : Nat → Nat → ℝ) (φ : Nat → ℝ) (k : Nat) : ℝ :=
  ∑ n ∈ range (d + 1), g n k * φ n

/-- `length`, lines 25-32, of the gradient. -/
noncomputable def slope (d : Nat) (g : Nat → Nat → ℝ) (φ : Nat → ℝ) : ℝ :=
  Real.sqrt (∑ k ∈ range d, direction d g φ k * direction d g φ k)

/-- `volHamiltonianCoeffs[n]`, line 523 (with `unitize`, lines 14-23, and `dot`, 43-50). -/
noncomputable def coeff (d : Nat) (g : Nat → Nat → ℝ) (φ : Nat → ℝ) (vol speed : ℝ) (n : Nat) : ℝ :=
  vol * speed * ∑ k ∈ range d, direction d g φ k / slope d g φ * g n k

/-- `volHamiltonian`, line 524. -/
noncomputable def hamiltonian (d : Nat) (φ K : Nat → ℝ) : ℝ := ∑ n ∈ range (d + 1), K n * φ n

/-- `sumNegCoeffs`, lines 526-528. -/
noncomputable def sumNeg (d : Nat) (K : Nat → ℝ) : ℝ := ∑ n ∈ range (d + 1), if K n < 0 then K n else 0

/-- `sumPosCoeffs`, lines 531-534. -/
noncomputable def sumPos (d : Nat) (K : Nat → ℝ) : ℝ := ∑ n ∈ range (d + 1), if K n < 0 then 0 else K n

/-- `sumNegContrib`, line 529. -/
noncomputable def negContrib (d : Nat) (φ K : Nat → ℝ) : ℝ :=
  ∑ n ∈ range (d + 1), if K n < 0 then K n * φ n else 0

/-- `alpha[n]`, lines 541-546, and the weight in line 655 of the nodal scheme. -/
noncomputable def alpha (d : Nat) (φ K : Nat → ℝ) (n : Nat) : ℝ :=
  if 0 < K n then
    K n / sumPos d K * (negContrib d φ K - sumNeg d K * φ n) / hamiltonian d φ K
  else 0

/-- `sumPosAlpha`, line 547. -/
noncomputable def sumPosAlpha (d : Nat) (φ K : Nat → ℝ) : ℝ :=
  ∑ n ∈ range (d + 1), if 0 < alpha d φ K n then alpha d φ K n else 0

/-- The two atomic additions, lines 559-560 and 658-659. -/
noncomputable def contribute (node : Nat) (a b : ℝ) (s : List ℝ × List ℝ) : Res (List ℝ × List ℝ) := do
  let x ← rd s.1 node
  let r ← wr s.1 node (x + a)
  let y ← rd s.2 node
  let q ← wr s.2 node (y + b)
  pure (r, q)

/-- `get_element_speed`, lines 477-487. -/
noncomputable def elementSpeed (M : Mesh) (F : Fields) (e : Nat) (nodes : List Nat) : Res ℝ :=
  if F.useElem then rd F.elemSpeed e
  else do
    let s ← forRange 0 (M.dim + 1) 0 fun n s => do
      let v ← rd nodes n
      let x ← rd F.nodalSpeed v
      pure (s + x)
    pure (s / (M.dim + 1 : ℕ))

/-- `AssembleElementSpeedHamiltonian::operator()`, lines 496-563, on `mRHS` and `mRHSNorm`. -/
noncomputable def assembleElem (M : Mesh) (F : Fields) (e : Nat) (s : List ℝ × List ℝ) :
    Res (List ℝ × List ℝ) := do
  let nodes ← M.nodes e
  let φ ← F.values nodes
  let speed ← elementSpeed M F e nodes
  let K := coeff M.dim (M.grad e) (at0 φ) (M.vol e) speed
  forRange 0 (M.dim + 1) s fun n s => do
    let v ← rd nodes n
    if 0 < alpha M.dim (at0 φ) K n then
      let wt := alpha M.dim (at0 φ) K n / sumPosAlpha M.dim (at0 φ) K
      contribute v (wt * hamiltonian M.dim (at0 φ) K) (wt * M.vol e) s
    else pure s

/-- `zero_RHS`, lines 666-676, for one of the vectors. -/
noncomputable def zeroOut (order : List Nat) (v : List ℝ) : Res (List ℝ) :=
  parFor order v fun i v => wr v i 0

/-- `evolve_level_set`, lines 735-762. -/
noncomputable def evolve (M : Mesh) (o1 o2 oe on : List Nat) (dt : ℝ) (F : Fields) : Res Fields := do
  let rhs ← zeroOut o1 F.rhs
  let norm ← zeroOut o2 F.norm
  let s ← parFor oe (rhs, norm) (assembleElem M F)
  let next := (F.cur + 1) % 2
  let ls ← parFor on F.levelSet fun i ls => do
    let r ← rd s.1 i
    let q ← rd s.2 i
    let x ← vrd2 ls i F.cur
    vwr2 ls i next (x - dt * (if 0 < q then r / q else 0))
  pure { F with rhs := s.1, norm := s.2, levelSet := ls, cur := next }

/-- `tSign` of lines 598-601 and 705-709. -/
noncomputable def signOf (eps x : ℝ) : ℝ := x / Real.sqrt (x * x + eps * eps)

/-- `AssembleNodalSpeedHamiltonian::operator()`, lines 607-663, without arrival time: the speed of a
node is its sign. -/
noncomputable def assembleNodal (M : Mesh) (F : Fields) (eps : ℝ) (e : Nat) (s : List ℝ × List ℝ) :
    Res (List ℝ × List ℝ) := do
  let nodes ← M.nodes e
  let φ ← F.values nodes
  forRange 0 (M.dim + 1) s fun n s => do
    let v ← rd nodes n
    let K := coeff M.dim (M.grad e) (at0 φ) (M.vol e) (signOf eps (at0 φ n))
    if 0 < alpha M.dim (at0 φ) K n then
      contribute v (alpha M.dim (at0 φ) K n * hamiltonian M.dim (at0 φ) K)
        (alpha M.dim (at0 φ) K n * M.vol e) s
    else pure s

/-- `assemble_and_update_Eikonal`, lines 678-733, without arrival time.  Returns the fields and the sum
and number of the residuals (lines 717-723). -/
noncomputable def eikonal (M : Mesh) (o1 o2 oe on : List Nat) (eps dtau : ℝ) (F : Fields) :
    Res (Fields × ℝ × Nat) := do
  let rhs ← zeroOut o1 F.rhs
  let norm ← zeroOut o2 F.norm
  let s ← parFor oe (rhs, norm) (assembleNodal M F eps)
  let next := (F.cur + 1) % 2
  let t ← parFor on (F.levelSet, (0 : ℝ), 0) fun i t => do
    let r ← rd s.1 i
    let q ← rd s.2 i
    let x ← vrd2 t.1 i F.cur
    let h := if 0 < q then r / q else 0
    let y := x - dtau * (h - signOf eps x)
    let ls ← vwr2 t.1 i next y
    if |y| < eps then pure (ls, t.2.1 + (h - signOf eps x) * (h - signOf eps x), t.2.2 + 1)
    else pure (ls, t.2)
  pure ({ F with rhs := s.1, norm := s.2, levelSet := t.1, cur := next }, t.2)

/-- `averageNodalResidual < aConvergedTol`, lines 731-732 and 847; without residuals the mean is not a
number and the comparison is false. -/
noncomputable def small (r : ℝ × Nat) (tol : ℝ) : Bool :=
  if r.2 = 0 then false else decide (Real.sqrt (r.1 / r.2) < tol)

/-- Schedules of one pass. -/
structure Sched where
  o1 : List Nat
  o2 : List Nat
  oe : List Nat
  on : List Nat

/-- The loop of `reinitialize_level_set`, lines 837-854; `sch` are the schedules of the passes. -/
noncomputable def reinitLoop (M : Mesh) (eps dtau tol : ℝ) : List Sched → Fields → Res Fields
  | [], F => .ok F
  | c :: cs, F => do
    let (F', r) ← eikonal M c.o1 c.o2 c.oe c.on eps dtau F
    if small r tol then pure F' else reinitLoop M eps dtau tol cs F'

/-- `domain_contains_interface`, lines 251-270. -/
def contains (n : Nat) (x : Nat → ℝ) : Prop := (∃ i, i < n ∧ x i < 0) ∧ ∃ i, i < n ∧ 0 < x i

open Classical in
/-- `reinitialize_level_set`, lines 820-860, as called: ten passes at most. -/
noncomputable def reinitialize (M : Mesh) (eps dtau : ℝ) (sch : List Sched) (F : Fields) : Res Fields :=
  if contains M.nverts (fun i => F.levelSet.e i F.cur) then
    reinitLoop M eps dtau (1 / 100) (sch.take 10) F
  else .ok F

/-- `Delta`, lines 117-124. -/
noncomputable def delta (x eps : ℝ) : ℝ :=
  if x < -eps ∨ x > eps then 0 else 1 / 2 / eps * (1 + Real.cos (Real.pi * x / eps))

/-- Mean of the level set on an element, lines 138-142. -/
noncomputable def mean (M : Mesh) (F : Fields) (nodes : List Nat) : Res ℝ :=
  forRange 0 (M.dim + 1) 0 fun n a => do
    let v ← rd nodes n
    let x ← vrd2 F.levelSet v F.cur
    pure (a + x / (M.dim + 1 : ℕ))

/-- `level_set_area`, lines 126-149 and 197-204, the elements in any order (`parallel_reduce`). -/
noncomputable def area (M : Mesh) (F : Fields) (order : List Nat) (eps : ℝ) : Res ℝ :=
  parFor order 0 fun e a => do
    let nodes ← M.nodes e
    let m ← mean M F nodes
    pure (a + M.size e * delta m eps)

/-- `level_set_volume_rate_of_change`, lines 151-185, with speeds of elements. -/
noncomputable def rate (M : Mesh) (F : Fields) (order : List Nat) (eps : ℝ) : Res ℝ :=
  parFor order 0 fun e a => do
    let nodes ← M.nodes e
    let m ← mean M F nodes
    let s ← rd F.elemSpeed e
    pure (a + M.size e * s * delta m eps)

/-! ## The history -/

/-- Members of `LevelSetCylinderInBox` for the history, with the present level set. -/
structure Box where
  ls : List ℝ
  hist : List (List ℝ)
  step : Nat
  times : List ℝ
  time : ℝ

/-- `initialize`, /repo/src/Plato_LevelSetCylinderInBox.hpp:242-247 with 231-236, 308-336 and
`declare_fields` (/repo/src/HamiltonJacobi.hpp:66-85): a new history of zeros, a new level set; the
number of the step stays.  The call of `cacheData` in `buildBoundingBox` (line 379) meets views without
entries. -/
def Box.initialize (init : List ℝ) (numSteps : Nat) (b : Box) : Box :=
  ⟨init, List.replicate numSteps (List.replicate init.length 0), b.step, [], 0⟩

/-- `updateImmersedGeometry` with `cacheData`, lines 272-277 and 283-302; `move` is what the step does
to the level set. -/
def Box.evolve (move : List ℝ → List ℝ) (dt : ℝ) (b : Box) : Res Box := do
  let ls := move b.ls
  let hist ← wr b.hist (b.step + 1) ls
  pure ⟨ls, hist, b.step + 1, b.times ++ [b.time + dt], b.time + dt⟩

/-- Steps of a run (`AlgebraicRocketModel::solve` calls `evolveGeometry` once per step); the movements
depend on the burn rate of the step. -/
def Box.run (dt : ℝ) : List (List ℝ → List ℝ) → Box → Res Box
  | [], b => .ok b
  | f :: fs, b => b.evolve f dt >>= Box.run dt fs

/-- `outputLevelSetField`, lines 253-267: times and level sets. -/
def Box.output (b : Box) : Res (List (ℝ × List ℝ)) :=
  forRange 0 b.times.length [] fun k out => do
    let h ← rd b.hist k
    let t ← rd b.times k
    pure (out ++ [(t, h)])

end Plato.LevelSet
