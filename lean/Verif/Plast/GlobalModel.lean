import Verif.Plast.Model
import Verif.Mech.VectorModel
import Verif.Bnd.Model

/-!
# Model of the function of global unknowns of plasticity

Modelled source: `/repo/src/GlobalVectorFunctionInc.hpp` (`value`, the seven gradients and what they call).

Simplifications: the worksets are filled in the order configuration, states, control, projected gradient
(none is read by the filling of another); the worksets of all cells are those of a domain with all cells; the
loads on the boundary read the configuration and nothing else.
-/

namespace Plato.Plast
open Plato Plato.Mech Plato.J2

variable {K R : Type}

/-- Arguments: those of the function of local unknowns and the projected pressure gradient. -/
structure GArgs (K : Type) where
  loc : Args K
  n : List K

/-- How the entries of the seven worksets are made. -/
structure GMakers (K R : Type) where
  loc : Makers K R
  n : Nat → K → R

/-- The seven worksets. -/
structure GlobalWs (R : Type) where
  loc : LocalWs R
  node : V2 R

/-- The seven worksets of a domain, GlobalVectorFunctionInc.hpp:180-212 and its copies; those of all cells,
GlobalVectorFunctionInc.hpp:108-139. -/
def globalWs [Zero R] (M : FeModel) (nl : Nat) (mk : GMakers K R) (cells : List Nat) (sch : Nat → List Nat)
    (A : GArgs K) : Res (GlobalWs R) := do
  let w ← localWs M nl mk.loc (some cells) cells sch A.loc
  let n ← workset mk.n M.npc M.dim M.c2n (some cells) A.n (sch 6) ⟨cells.length, M.npc * M.dim, fun _ _ => 0⟩
  pure ⟨w, n⟩

/-- A residual for each domain: `mResidualFunctions`, `mJacobianCUFunctions`, ... -/
abbrev GlobalEv (R : Type) := Nat → GlobalWs R → V2 R → Res (V2 R)

/-- `residualWorkset`, GlobalVectorFunctionInc.hpp:166-225, and the seven functions `jacobian...Workset`
(239-298, 312-371, 385-449, 463-522, 536-595, 609-668, 682-741). -/
def globalResults [Zero R] (M : FeModel) (nl : Nat) (mk : GMakers K R) (ev : GlobalEv R) (cells : List Nat) (k : Nat)
    (sch : Nat → List Nat) (A : GArgs K) : Res (V2 R) := do
  let w ← globalWs M nl mk cells sch A
  ev k w ⟨cells.length, M.npc * M.ndof, fun _ _ => 0⟩

/-- All entries are plain numbers. -/
def plainG : GMakers ℝ ℝ := ⟨plainMk, plainOf⟩

/-- `value`, GlobalVectorFunctionInc.hpp:909-940, with `residualBoundaryWorkset` (98-153).  `bnd` is
`evaluate_boundary` of the residual of the first domain.  `sch k j`, for `j` up to 6 the orders in which the
worksets are filled and for 7 that of the atomic additions, `k` a domain or, last, the boundary. -/
def globalValue (M : FeModel) (nl : Nat) (ev : GlobalEv ℝ) (bnd : V3 ℝ → V2 ℝ → Res (V2 ℝ))
    (sch : Nat → Nat → List Nat) (A : GArgs ℝ) : Res (List ℝ) := do
  let v ← overCells M (fun cells k v => do
    let r ← globalResults M nl plainG ev cells k (sch k) A
    assembleResidual M.npc M.ndof M.c2n (some cells) cells.length (V2.view2 r) (sch k 7) v)
    (List.replicate (M.ndof * M.nn) 0)
  let w ← globalWs M nl plainG (List.range M.nc) (sch M.domains.length) A
  let r ← bnd w.loc.config ⟨M.nc, M.npc * M.ndof, fun _ _ => 0⟩
  assembleResidual M.npc M.ndof M.c2n none M.nc (V2.view2 r) (sch M.domains.length 7) v

/-- Unknowns the mechanical loads on the boundary act on: `NaturalBCs<mSpaceDim, mNumGlobalDofsPerNode>`
(InfinitesimalStrainPlasticityResidual.hpp:103), that is all unknowns of a node, and with temperature
`NaturalBCs<mSpaceDim, mNumDisplacementDims, mNumGlobalDofsPerNode, mDisplacementDofOffset>`
(InfinitesimalStrainThermoPlasticityResidual.hpp:98). -/
def mechLayout (P : Plast R) : Bnd.Layout := if P.mat.thermal then ⟨P.d, P.ndof, 0⟩ else ⟨P.ndof, P.ndof, 0⟩

/-- Those of the thermal loads, InfinitesimalStrainThermoPlasticityResidual.hpp:100. -/
def heatLayout (P : Plast R) : Bnd.Layout := ⟨1, P.ndof, P.d⟩

/-- A pressure that acts somewhere. -/
def pressureOn : Bnd.NaturalBC → Bool
  | .load _ _ => false
  | .pressure s _ => !s.isEmpty

/-- Loads on the boundary of a problem; `init` and `orders` as for `naturalBCs`. -/
structure Loads where
  F : Bnd.Faces
  normal : Nat → Nat → Nat → ℝ
  cub : ℝ
  mech : List Bnd.NaturalBC
  heat : List Bnd.NaturalBC
  init : Nat → Nat → Nat → Nat
  orders : Nat → List Nat
  initT : Nat → Nat → Nat → Nat
  ordersT : Nat → List Nat

/-- `evaluate_boundary` with `addExternalForces`, InfinitesimalStrainPlasticityResidual.hpp:258-275 and 563-577,
InfinitesimalStrainThermoPlasticityResidual.hpp:270-296 and 617-632.  A pressure multiplies each component of
the load with that of the normal, which has as many as there are dimensions; without temperature the loop goes
over one more (SurfacePressureIntegral.hpp:158-162). -/
noncomputable def boundary (P : Plast ℝ) (c2n : List Nat) (B : Loads) (g : V3 ℝ) (r : V2 ℝ) : Res (V2 ℝ) := do
  if P.mat.thermal = false ∧ B.mech.any pressureOn then Res.ub
  else
    let r ← Bnd.naturalBCs Real.sqrt id P.d (mechLayout P) c2n B.F B.normal (-1 * P.load) B.cub B.init B.orders g B.mech r
    if P.mat.thermal then
      Bnd.naturalBCs Real.sqrt id P.d (heatLayout P) c2n B.F B.normal (-1 * P.load) B.cub B.initT B.ordersT g B.heat r
    else pure r

/-- `gradient_z` (GlobalVectorFunctionInc.hpp:952-972), `gradient_x` (984-1004), `gradient_u` (1017-1037),
`gradient_up` (1050-1069), `gradient_c` (1082-1099) and `gradient_cp` (1113-1131): alike but for the seeded
argument and the number of columns.  None has a term of the boundary. -/
noncomputable def globalGradient (M : FeModel) (nl cols : Nat) (mk : GMakers ℝ Fad) (ev : GlobalEv Fad)
    (sch : Nat → Nat → List Nat) (A : GArgs ℝ) : Res (V3 ℝ) :=
  overCells M (fun cells k J => do
    let r ← globalResults M nl mk ev cells k (sch k) A
    toPod (M.npc * M.ndof) cols cells r (sch k 7) J) ⟨M.nc, M.npc * M.ndof, cols, fun _ _ _ => 0⟩

/-- `gradient_n_T_assembled`, GlobalVectorFunctionInc.hpp:1145-1205. -/
noncomputable def globalGradientN (M : FeModel) (nl : Nat) (ev : GlobalEv Fad) (o : List Nat)
    (sch : Nat → Nat → List Nat) (A : GArgs ℝ) : Res (Crs ℝ) := do
  let B ← createBlockMatrix M.dim M.ndof o M.orm M.oab
  overCells M (fun cells k B => do
    let r ← globalResults M nl ⟨⟨constOf, constOf, constOf, constOf, constOf, constOf⟩, seedOf⟩ ev cells k (sch k) A
    assembleTransposeJacobian (blockEntryOrdinal M.npc M.dim M.ndof B M.c2n) (some cells) cells.length
      (M.npc * M.ndof) (M.npc * M.dim) (V2.fadView r (M.npc * M.dim)) (sch k 7) B) B

end Plato.Plast
