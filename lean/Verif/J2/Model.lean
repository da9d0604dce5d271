import Verif.Mech.Model
import Verif.Mech.VectorModel

/-!
# Model of J2 plasticity with return mapping and of the function of local unknowns

Modelled sources in `/repo/src`: `J2PlasticityUtilities.hpp` (updates and residuals for two and three
dimensions), `ThermoPlasticityUtilities.hpp` (`computeElasticStrain`, with and without temperature),
`ComputeDeviatoricStress.hpp` (two and three dimensions), `J2PlasticityLocalResidual.hpp` (`evaluate`,
`updateLocalState`), `LocalVectorFunctionInc.hpp` (`updateLocalState`, `value`, `valueWorkSet`, the six
gradients) and from `Assembly.hpp` `flatten_vector_workset`, `assemble_vector_workset`,
`transform_ad_type_to_pod_3Dview` and the worksets of the local state.

The local state of a cell has 10 numbers in two and 14 in three dimensions: accumulated plastic strain,
increment of the plastic multiplier, plastic strain (shear components doubled), backstress (shear components
not doubled).  In two dimensions the components are 11, 22, 12, 33; in three 11, 22, 33, 23, 13, 12.

Every sequence of assignments of the source is a list of index tuples, one for each assignment, in the order
of the source.

Simplifications: one scalar type; the two functions `MSIMP` (Simp.hpp) are parameters; the class templates
exist for two and three dimensions only, here three is the case of all other numbers.
-/

namespace Plato.J2
open Plato Plato.Mech

variable {R : Type} [CommRing R]

/-- Members of `J2PlasticityLocalResidual` (J2PlasticityLocalResidual.hpp:35-79), of
`ThermoPlasticityUtilities` (thermal expansion, reference temperature, scaling) and the constants √(3/2), √(2/3)
of `J2PlasticityUtilities`.  `thermal` tells `SimplexThermoPlasticity` from `SimplexPlasticity`. -/
structure J2 (R : Type) where
  d : Nat
  thermal : Bool
  basis : List R
  shear : R
  alpha : R
  tref : R
  tscale : R
  hardIso : R
  hardKin : R
  yield0 : R
  penE : R → R
  penP : R → R
  s32 : R
  s23 : R

/-- `mNumDofsPerNode`: displacement and pressure (SimplexPlasticity.hpp:25), or displacement, temperature and
pressure (SimplexThermoPlasticity.hpp:25). -/
def J2.ndof (P : J2 R) : Nat := if P.thermal then P.d + 2 else P.d + 1

/-- `mNumStressTerms`, SimplexPlasticity.hpp:17-18. -/
def stressTerms (d : Nat) : Nat := if d = 2 then 4 else 6

/-- `mNumLocalDofsPerCell`, SimplexPlasticity.hpp:30-31. -/
def localDofs (d : Nat) : Nat := if d = 2 then 10 else 14

/-! ## `ThermoPlasticityUtilities` -/

/-- Strain component and local state component of the assignments in `computeElasticStrain`,
ThermoPlasticityUtilities.hpp:89-92 and 111-116. -/
def elasticTable (d : Nat) : List (Nat × Nat) :=
  if d = 2 then [(0, 2), (1, 3), (2, 4), (3, 5)] else [(0, 2), (1, 3), (2, 4), (3, 5), (4, 6), (5, 7)]

/-- Components from which the thermal strain is subtracted, ThermoPlasticityUtilities.hpp:155-157 and
196-198. -/
def thermalTable (d : Nat) : List Nat := if d = 2 then [0, 1, 3] else [0, 1, 2]

/-- `computeElasticStrain`, ThermoPlasticityUtilities.hpp:79-121 (mechanical) and 130-202 (with temperature). -/
def elasticStrain (P : J2 R) (cell : Nat) (global locl total elastic : V2 R) : Res (V2 R) := do
  let elastic ← (elasticTable P.d).foldlM (fun e (i : Nat × Nat) => do
    let a ← vrd2 total cell i.1
    let b ← vrd2 locl cell i.2
    vwr2 e cell i.1 (a - b)) elastic
  if P.thermal then
    let T ← forRange 0 (P.d + 1) (0 : R) fun n T => do
      let s ← vrd2 global cell (n * P.ndof + P.d)
      let b ← rd P.basis n
      pure (T + s * b)
    let T := T * P.tscale
    let th := P.alpha * (T - P.tref)
    (thermalTable P.d).foldlM (fun e (i : Nat) => do
      let a ← vrd2 e cell i
      vwr2 e cell i (a - th)) elastic
  else pure elastic

/-! ## `ComputeDeviatoricStress` -/

/-- Components of the trace, ComputeDeviatoricStress.hpp:87-89 and 114-116. -/
def traceTable (d : Nat) : Nat × Nat × Nat := if d = 2 then (0, 1, 3) else (0, 1, 2)

/-- Component and whether it is a normal one, ComputeDeviatoricStress.hpp:92-99 and 119-126. -/
def devTable (d : Nat) : List (Nat × Bool) :=
  if d = 2 then [(0, true), (1, true), (2, false), (3, true)]
  else [(0, true), (1, true), (2, true), (3, false), (4, false), (5, false)]

/-- `ComputeDeviatoricStress::operator()`, ComputeDeviatoricStress.hpp:76-127. -/
def devStress [Div R] (d cell : Nat) (mu : R) (strn stress : V2 R) : Res (V2 R) := do
  let a ← vrd2 strn cell (traceTable d).1
  let b ← vrd2 strn cell (traceTable d).2.1
  let c ← vrd2 strn cell (traceTable d).2.2
  let third := (a + b + c) / 3
  (devTable d).foldlM (fun s (i : Nat × Bool) => do
    let e ← vrd2 strn cell i.1
    vwr2 s cell i.1 (if i.2 then 2 * mu * (e - third) else mu * e)) stress

/-! ## `J2PlasticityUtilities` -/

/-- Component and local state component of the assignments, J2PlasticityUtilities.hpp:352-355 and 384-389. -/
def etaTable (d : Nat) : List (Nat × Nat) :=
  if d = 2 then [(0, 6), (1, 7), (2, 8), (3, 9)] else [(0, 8), (1, 9), (2, 10), (3, 11), (4, 12), (5, 13)]

/-- Terms of the norm and whether they are doubled, J2PlasticityUtilities.hpp:357-360 and 391-396. -/
def normTable (d : Nat) : List (Nat × Bool) :=
  if d = 2 then [(0, false), (1, false), (3, false), (2, true)]
  else [(0, false), (1, false), (2, false), (3, true), (4, true), (5, true)]

/-- Components divided by the norm, J2PlasticityUtilities.hpp:363-366 and 399-404. -/
def unitTable (d : Nat) : List Nat := if d = 2 then [0, 1, 2, 3] else [0, 1, 2, 3, 4, 5]

/-- `computeDeviatoricStressMinusBackstressNormalized`, J2PlasticityUtilities.hpp:344-408. -/
def normalized [Div R] (sqrt : R → R) (d cell : Nat) (dev locl normal : V2 R) (norm : List R) :
    Res (V2 R × List R) := do
  let normal ← (etaTable d).foldlM (fun y (i : Nat × Nat) => do
    let a ← vrd2 dev cell i.1
    let b ← vrd2 locl cell i.2
    vwr2 y cell i.1 (a - b)) normal
  let s ← (normTable d).foldlM (fun s (i : Nat × Bool) => do
    let a ← vrd2 normal cell i.1
    pure (s + if i.2 then 2 * (a * a) else a * a)) (0 : R)
  let norm ← wr norm cell (sqrt s)
  let normal ← (unitTable d).foldlM (fun y (i : Nat) => do
    let a ← vrd2 y cell i
    let n ← rd norm cell
    vwr2 y cell i (a / n)) normal
  pure (normal, norm)

/-- Local state components of plastic strain and backstress, J2PlasticityUtilities.hpp:290-298 and 313-325. -/
def elasticStepTable (d : Nat) : List Nat :=
  if d = 2 then [2, 3, 4, 5, 6, 7, 8, 9] else [2, 3, 4, 5, 6, 7, 8, 9, 10, 11, 12, 13]

/-- `updatePlasticStrainAndBackstressElasticStep`, J2PlasticityUtilities.hpp:284-328. -/
def updateElasticStep (d cell : Nat) (prev locl : V2 R) : Res (V2 R) :=
  (elasticStepTable d).foldlM (fun y (i : Nat) => do
    let a ← vrd2 prev cell i
    vwr2 y cell i a) locl

/-- Local state component, component of the normal and whether the term is doubled,
J2PlasticityUtilities.hpp:231-234 and 258-263. -/
def plasticStepTable (d : Nat) : List (Nat × Nat × Bool) :=
  if d = 2 then [(2, 0, false), (3, 1, false), (4, 2, true), (5, 3, false)]
  else [(2, 0, false), (3, 1, false), (4, 2, false), (5, 3, true), (6, 4, true), (7, 5, true)]

/-- Local state component and component of the normal, J2PlasticityUtilities.hpp:238-241 and 267-272. -/
def backstressStepTable (d : Nat) : List (Nat × Nat) :=
  if d = 2 then [(6, 0), (7, 1), (8, 2), (9, 3)]
  else [(8, 0), (9, 1), (10, 2), (11, 3), (12, 4), (13, 5)]

/-- `updatePlasticStrainAndBackstressPlasticStep`, J2PlasticityUtilities.hpp:222-274. -/
def updatePlasticStep (P : J2 R) (cell : Nat) (prev normal : V2 R) (hardKin : R) (locl : V2 R) :
    Res (V2 R) := do
  let g ← vrd2 locl cell 1
  let m := g * P.s32
  let locl ← (plasticStepTable P.d).foldlM (fun y (i : Nat × Nat × Bool) => do
    let a ← vrd2 prev cell i.1
    let n ← vrd2 normal cell i.2.1
    vwr2 y cell i.1 (a + if i.2.2 then 2 * m * n else m * n)) locl
  let g ← vrd2 locl cell 1
  let m := g * P.s23 * hardKin
  (backstressStepTable P.d).foldlM (fun y (i : Nat × Nat) => do
    let a ← vrd2 prev cell i.1
    let n ← vrd2 normal cell i.2
    vwr2 y cell i.1 (a + m * n)) locl

/-- Components of the plastic strain, J2PlasticityUtilities.hpp:623-626 and 641-646. -/
def strainResidualTable (d : Nat) : List Nat := if d = 2 then [2, 3, 4, 5] else [2, 3, 4, 5, 6, 7]

/-- Components of the backstress, J2PlasticityUtilities.hpp:665-668 and 683-688. -/
def backstressResidualTable (d : Nat) : List Nat := if d = 2 then [6, 7, 8, 9] else [8, 9, 10, 11, 12, 13]

/-- `fillPlasticStrainTensorResidualElasticStep` (J2PlasticityUtilities.hpp:617-649) and
`fillBackstressTensorResidualElasticStep` (659-691) with their tables. -/
def fillElasticStep (table : List Nat) (cell : Nat) (locl prev out : V2 R) : Res (V2 R) :=
  table.foldlM (fun y (i : Nat) => do
    let a ← vrd2 locl cell i
    let b ← vrd2 prev cell i
    vwr2 y cell i (a - b)) out

/-- Local state component, component of the normal and whether the term is doubled,
J2PlasticityUtilities.hpp:489-503 and 519-530. -/
def strainResidualPlasticTable (d : Nat) : List (Nat × Nat × Bool) :=
  if d = 2 then [(2, 0, false), (3, 1, false), (4, 2, true), (5, 3, false)]
  else [(2, 0, false), (3, 1, false), (4, 2, false), (5, 3, true), (6, 4, true), (7, 5, true)]

/-- `fillPlasticStrainTensorResidualPlasticStep`, J2PlasticityUtilities.hpp:482-533. -/
def fillStrainPlasticStep (P : J2 R) (cell : Nat) (locl prev normal out : V2 R) : Res (V2 R) :=
  (strainResidualPlasticTable P.d).foldlM (fun y (i : Nat × Nat × Bool) => do
    let a ← vrd2 locl cell i.1
    let b ← vrd2 prev cell i.1
    let g ← vrd2 locl cell 1
    let n ← vrd2 normal cell i.2.1
    vwr2 y cell i.1 (a - b - if i.2.2 then 2 * P.s32 * g * n else P.s32 * g * n)) out

/-- Local state component and component of the normal, J2PlasticityUtilities.hpp:550-569 and 586-604. -/
def backstressResidualPlasticTable (d : Nat) : List (Nat × Nat) :=
  if d = 2 then [(6, 0), (7, 1), (8, 2), (9, 3)]
  else [(8, 0), (9, 1), (10, 2), (11, 3), (12, 4), (13, 5)]

/-- `fillBackstressTensorResidualPlasticStep`, J2PlasticityUtilities.hpp:542-607. -/
def fillBackstressPlasticStep (P : J2 R) (cell : Nat) (hardKin : R) (locl prev normal out : V2 R) :
    Res (V2 R) :=
  (backstressResidualPlasticTable P.d).foldlM (fun y (i : Nat × Nat) => do
    let a ← vrd2 locl cell i.1
    let b ← vrd2 prev cell i.1
    let g ← vrd2 locl cell 1
    let n ← vrd2 normal cell i.2
    vwr2 y cell i.1 (a - b - P.s23 * g * hardKin * n)) out

/-! ## `J2PlasticityLocalResidual` -/

/-- Views of a call, J2PlasticityLocalResidual.hpp:324-330 and 449-455. -/
structure JViews (R : Type) where
  vol : List R
  norm : List R
  grad : V3 R
  dev : V2 R
  normal : V2 R
  total : V2 R
  elastic : V2 R

/-- Views are allocated with zeros. -/
def JViews.new (d nc : Nat) : JViews R where
  vol := List.replicate nc 0
  norm := List.replicate nc 0
  grad := ⟨nc, d + 1, d, fun _ _ _ => 0⟩
  dev := ⟨nc, stressTerms d, fun _ _ => 0⟩
  normal := ⟨nc, stressTerms d, fun _ _ => 0⟩
  total := ⟨nc, stressTerms d, fun _ _ => 0⟩
  elastic := ⟨nc, stressTerms d, fun _ _ => 0⟩

variable [Div R]

/-- Body of the loop in `evaluate`, J2PlasticityLocalResidual.hpp:350-407.  `pos` is the test `> 0.0`. -/
def J2.evaluateCell (P : J2 R) (fabs sqrt : R → R) (pos : R → Bool) (global locl prev control : V2 R)
    (config : V3 R) (cell : Nat) (st : JViews R × V2 R) : Res (JViews R × V2 R) := do
  let w := st.1
  let out := st.2
  let (g, v) ← computeGradient fabs P.d cell w.grad config w.vol
  let tot ← strain P.d P.ndof cell w.total global g
  let el ← elasticStrain P cell global locl tot w.elastic
  let rho ← cellDensity (P.d + 1) cell control
  let mu := P.penE rho * P.shear
  let dev ← devStress P.d cell mu el w.dev
  let (normal, norm) ← normalized sqrt P.d cell dev locl w.normal w.norm
  let pen := P.penP rho
  let hardIso := pen * P.hardIso
  let hardKin := pen * P.hardKin
  let yield0 := pen * P.yield0
  let c0 ← vrd2 locl cell 0
  let yld := yield0 + hardIso * c0
  let p0 ← vrd2 prev cell 0
  let out ← vwr2 out cell 0 (c0 - p0)
  let c1 ← vrd2 locl cell 1
  let out ← vwr2 out cell 1 c1
  let out ← fillElasticStep (strainResidualTable P.d) cell locl prev out
  let out ← fillElasticStep (backstressResidualTable P.d) cell locl prev out
  let w' : JViews R := ⟨v, norm, g, dev, normal, tot, el⟩
  if pos c1 then
    let out ← vwr2 out cell 0 (c0 - p0 - c1)
    let n ← rd norm cell
    let out ← vwr2 out cell 1 (P.s32 * n - yld)
    let out ← fillStrainPlasticStep P cell locl prev normal out
    let out ← fillBackstressPlasticStep P cell hardKin locl prev normal out
    pure (w', out)
  else pure (w', out)

/-- `J2PlasticityLocalResidual::evaluate`, J2PlasticityLocalResidual.hpp:291-409. -/
def J2.evaluate (P : J2 R) (fabs sqrt : R → R) (pos : R → Bool) (nc : Nat) (order : List Nat)
    (global locl prev control : V2 R) (config : V3 R) (out : V2 R) : Res (V2 R) := do
  let (_, out) ← parFor order (JViews.new P.d nc, out)
    (P.evaluateCell fabs sqrt pos global locl prev control config)
  pure out

/-- Body of the loop in `updateLocalState`, J2PlasticityLocalResidual.hpp:475-523.  `pos` is the test
`> 1.0e-10`. -/
def J2.updateCell (P : J2 R) (fabs sqrt : R → R) (pos : R → Bool) (global prev control : V2 R)
    (config : V3 R) (cell : Nat) (st : JViews R × V2 R) : Res (JViews R × V2 R) := do
  let w := st.1
  let locl := st.2
  let (g, v) ← computeGradient fabs P.d cell w.grad config w.vol
  let p0 ← vrd2 prev cell 0
  let locl ← vwr2 locl cell 0 p0
  let locl ← vwr2 locl cell 1 0
  let locl ← updateElasticStep P.d cell prev locl
  let tot ← strain P.d P.ndof cell w.total global g
  let el ← elasticStrain P cell global locl tot w.elastic
  let rho ← cellDensity (P.d + 1) cell control
  let mu := P.penE rho * P.shear
  let dev ← devStress P.d cell mu el w.dev
  let (normal, norm) ← normalized sqrt P.d cell dev locl w.normal w.norm
  let pen := P.penP rho
  let hardIso := pen * P.hardIso
  let hardKin := pen * P.hardKin
  let yield0 := pen * P.yield0
  let c0 ← vrd2 locl cell 0
  let yld := yield0 + hardIso * c0
  let n ← rd norm cell
  let f := P.s32 * n - yld
  let w' : JViews R := ⟨v, norm, g, dev, normal, tot, el⟩
  if pos f then
    let locl ← vwr2 locl cell 1 (f / (3 * mu + hardIso + hardKin))
    let c1 ← vrd2 locl cell 1
    let locl ← vwr2 locl cell 0 (p0 + c1)
    let locl ← updatePlasticStep P cell prev normal hardKin locl
    pure (w', locl)
  else pure (w', locl)

/-- `J2PlasticityLocalResidual::updateLocalState`, J2PlasticityLocalResidual.hpp:421-524. -/
def J2.updateLocalState (P : J2 R) (fabs sqrt : R → R) (pos : R → Bool) (nc : Nat) (order : List Nat)
    (global prev control : V2 R) (config : V3 R) (locl : V2 R) : Res (V2 R) := do
  let (_, locl) ← parFor order (JViews.new P.d nc, locl)
    (P.updateCell fabs sqrt pos global prev control config)
  pure locl

/-! ## Worksets and results of the function of local unknowns -/

section Local
variable {K R : Type}

/-- `workset_local_state_scalar_scalar` and `workset_local_state_scalar_fad` for a domain,
Assembly.hpp:904-924 and 997-1018, and for all cells (938-951, 968-981). -/
def worksetLocal (mk : Nat → K → R) (nl : Nat) (dom : Option (List Nat)) (c : List K) (order : List Nat)
    (ws : V2 R) : Res (V2 R) :=
  parFor order ws fun cell ws => do
    let gc ← cellOf dom cell
    forRange 0 nl ws fun i ws => do
      let a ← rd c (gc * nl + i)
      vwr2 ws cell i (mk i a)

/-- `flatten_vector_workset`, Assembly.hpp:44-71 (no domain) and 84-117 (with domain). -/
def flatten (nl : Nat) (dom : Option (List Nat)) (n : Nat) (input : V2 K) (order : List Nat)
    (out : List K) : Res (List K) :=
  if input.size = 0 then throwErr "\nInput Kokkos::View is empty, i.e. size <= 0.\n"
  else if out.length = 0 then throwErr "\nOutput Kokkos::View is empty, i.e. size <= 0.\n"
  else if n = 0 then throwErr "\nNumber of cells, i.e. elements, argument is <= zero.\n"
  else parFor order out fun cell out => do
    let gc ← cellOf dom cell
    forRange 0 nl out fun i out => do
      let a ← vrd2 input cell i
      wr out (gc * nl + i) a

/-- `assemble_vector_workset`, Assembly.hpp:131-163. -/
def assembleWorkset (nl : Nat) (cells : List Nat) (input : V2 K) (order : List Nat) (out : V2 K) :
    Res (V2 K) :=
  if input.size = 0 then throwErr "\nInput Kokkos::View is empty, i.e. size <= 0.\n"
  else if out.size = 0 then throwErr "\nOutput Kokkos::View is empty, i.e. size <= 0.\n"
  else if cells.length = 0 then throwErr "\nNumber of cells, i.e. elements, argument is <= zero.\n"
  else parFor order out fun cell out => do
    let gc ← rd cells cell
    forRange 0 nl out fun i out => do
      let a ← vrd2 input cell i
      vwr2 out gc i a

/-- `transform_ad_type_to_pod_3Dview` for a domain, Assembly.hpp:250-288: the entries are assigned. -/
noncomputable def toPod (rows cols : Nat) (cells : List Nat) (input : V2 Fad) (order : List Nat)
    (out : V3 ℝ) : Res (V3 ℝ) :=
  if input.size = 0 then throwErr "\nInput 2D array size is zero.\n"
  else if cells.length = 0 then throwErr "\nNumber of input cells, i.e. elements, is zero.\n"
  else if out.size = 0 then throwErr "\nOutput 3D array size is zero.\n"
  else parFor order out fun cell out => do
    let gc ← rd cells cell
    forRange 0 rows out fun i out =>
      forRange 0 cols out fun j out => do
        let a ← vrd2 input cell i
        vwr3 out gc i j (a.dx j)

/-- `transform_ad_type_to_pod_3Dview` for a number of cells, Assembly.hpp:303-335: the entries are added. -/
noncomputable def toPodAdd (rows cols n : Nat) (input : V2 Fad) (order : List Nat) (out : V3 ℝ) :
    Res (V3 ℝ) :=
  if input.size = 0 then throwErr "\nInput 2D array size is zero.\n"
  else if n = 0 then throwErr "\nNumber of input cells, i.e. elements, is zero.\n"
  else if out.size = 0 then throwErr "\nOutput 3D array size is zero.\n"
  else parFor order out fun cell out =>
    forRange 0 rows out fun i out =>
      forRange 0 cols out fun j out => do
        let a ← vrd2 input cell i
        let b ← vrd3 out cell i j
        vwr3 out cell i j (b + a.dx j)

/-- The six worksets of a cell block. -/
structure LocalWs (R : Type) where
  global : V2 R
  prevGlobal : V2 R
  locl : V2 R
  prevLocl : V2 R
  control : V2 R
  config : V3 R

/-- How the entries of the six worksets are made. -/
structure Makers (K R : Type) where
  u : Nat → K → R
  up : Nat → K → R
  c : Nat → K → R
  cp : Nat → K → R
  z : Nat → K → R
  x : Nat → K → R

/-- Arguments of the function of local unknowns: global state and its previous value, local state and its
previous value, control; the coordinates belong to the mesh. -/
structure Args (K : Type) where
  u : List K
  up : List K
  c : List K
  cp : List K
  z : List K
  x : List K

/-- The six worksets of a domain, LocalVectorFunctionInc.hpp:339-366 and its copies.  `sch i` is the order of
the loop that fills the i-th one; `domU` is the domain that fills the global state. -/
def localWs [Zero R] (M : FeModel) (nl : Nat) (mk : Makers K R) (domU : Option (List Nat))
    (cells : List Nat) (sch : Nat → List Nat) (A : Args K) : Res (LocalWs R) := do
  let n := cells.length
  let x ← worksetConfig mk.x M.npc M.dim M.c2n (some cells) A.x (sch 0) ⟨n, M.npc, M.dim, fun _ _ _ => 0⟩
  let u ← workset mk.u M.npc M.ndof M.c2n domU A.u (sch 1) ⟨n, M.npc * M.ndof, fun _ _ => 0⟩
  let up ← workset mk.up M.npc M.ndof M.c2n (some cells) A.up (sch 2) ⟨n, M.npc * M.ndof, fun _ _ => 0⟩
  let c ← worksetLocal mk.c nl (some cells) A.c (sch 3) ⟨n, nl, fun _ _ => 0⟩
  let cp ← worksetLocal mk.cp nl (some cells) A.cp (sch 4) ⟨n, nl, fun _ _ => 0⟩
  let z ← workset mk.z M.npc 1 M.c2n (some cells) A.z (sch 5) ⟨n, M.npc, fun _ _ => 0⟩
  pure ⟨u, up, c, cp, z, x⟩

/-- The loop over `mSpatialModel.Domains`. -/
def overCells {σ : Type} (M : FeModel) (body : List Nat → Nat → σ → Res σ) (s : σ) : Res σ :=
  forRange 0 M.domains.length s fun k s => do
    let cells ← rd M.domains k
    body cells k s

/-- A function of local unknowns for each domain: `mResidualFunctions`, ... -/
abbrev LocalEv (R : Type) := Nat → LocalWs R → V2 R → Res (V2 R)

/-- Worksets, fresh result and evaluation. -/
def localResults [Zero R] (M : FeModel) (nl : Nat) (mk : Makers K R) (domU : Option (List Nat))
    (ev : LocalEv R) (cells : List Nat) (k : Nat) (sch : Nat → List Nat) (A : Args K) : Res (V2 R) := do
  let w ← localWs M nl mk domU cells sch A
  ev k w ⟨cells.length, nl, fun _ _ => 0⟩

/-- All entries are plain numbers. -/
def plainMk : Makers ℝ ℝ := ⟨plainOf, plainOf, plainOf, plainOf, plainOf, plainOf⟩

/-- `LocalVectorFunctionInc::updateLocalState`, LocalVectorFunctionInc.hpp:237-299.  The order in which the
worksets are filled does not matter as none is written by another; the second argument of `ev` is the
workset of the local state. -/
def updateLocal (M : FeModel) (nl : Nat) (ev : LocalEv ℝ) (sch : Nat → Nat → List Nat) (A : Args ℝ) :
    Res (List ℝ) :=
  overCells M (fun cells k c => do
    let w ← localWs M nl plainMk (some cells) cells (sch k) { A with c := c }
    let r ← ev k w w.locl
    flatten nl (some cells) cells.length r (sch k 6) c) A.c

/-- `LocalVectorFunctionInc::value`, LocalVectorFunctionInc.hpp:311-380: the call of `flatten_vector_workset`
is the one without the domain. -/
def localValue (M : FeModel) (nl : Nat) (ev : LocalEv ℝ) (sch : Nat → Nat → List Nat) (A : Args ℝ) :
    Res (List ℝ) :=
  overCells M (fun cells k v => do
    let r ← localResults M nl plainMk (some cells) ev cells k (sch k) A
    flatten nl none cells.length r (sch k 6) v) (List.replicate (M.nc * nl) 0)

/-- `LocalVectorFunctionInc::valueWorkSet`, LocalVectorFunctionInc.hpp:392-462. -/
def localValueWs (M : FeModel) (nl : Nat) (ev : LocalEv ℝ) (sch : Nat → Nat → List Nat) (A : Args ℝ) :
    Res (V2 ℝ) :=
  overCells M (fun cells k v => do
    let r ← localResults M nl plainMk (some cells) ev cells k (sch k) A
    assembleWorkset nl cells r (sch k 6) v) ⟨M.nc, nl, fun _ _ => 0⟩

/-- `gradient_u` (LocalVectorFunctionInc.hpp:555-623), `gradient_up` (635-703), `gradient_c` (715-783) and
`gradient_cp` (795-863): alike but for the seeded argument and the number of columns. -/
noncomputable def localGradient (M : FeModel) (nl cols : Nat) (mk : Makers ℝ Fad) (ev : LocalEv Fad)
    (sch : Nat → Nat → List Nat) (A : Args ℝ) : Res (V3 ℝ) :=
  overCells M (fun cells k J => do
    let r ← localResults M nl mk (some cells) ev cells k (sch k) A
    toPod nl cols cells r (sch k 6) J) ⟨M.nc, nl, cols, fun _ _ _ => 0⟩

/-- `gradient_x`, LocalVectorFunctionInc.hpp:474-543: the workset of the global state is filled without the
domain, that is, from the first cells of the mesh by a loop over all cells of the mesh. -/
noncomputable def localGradientX (M : FeModel) (nl : Nat) (ev : LocalEv Fad) (sch : Nat → Nat → List Nat)
    (A : Args ℝ) : Res (V3 ℝ) :=
  overCells M (fun cells k J => do
    let r ← localResults M nl ⟨constOf, constOf, constOf, constOf, constOf, seedOf⟩ none ev cells k (sch k) A
    toPod nl (M.npc * M.dim) cells r (sch k 6) J) ⟨M.nc, nl, M.npc * M.dim, fun _ _ _ => 0⟩

/-- `gradient_z`, LocalVectorFunctionInc.hpp:875-943: the results are added by a loop over all cells of the
mesh and without the domain. -/
noncomputable def localGradientZ (M : FeModel) (nl : Nat) (ev : LocalEv Fad) (sch : Nat → Nat → List Nat)
    (A : Args ℝ) : Res (V3 ℝ) :=
  overCells M (fun cells k J => do
    let r ← localResults M nl ⟨constOf, constOf, constOf, constOf, seedOf, constOf⟩ (some cells) ev cells k
      (sch k) A
    toPodAdd nl M.npc M.nc r (sch k 6) J) ⟨M.nc, nl, M.npc, fun _ _ _ => 0⟩

end Local

end Plato.J2
