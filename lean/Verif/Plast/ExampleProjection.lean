import Verif.Plast.ProjectionLinear
import Verif.Plast.Example
import Verif.Thermal.Example

/-!
# C75 on a triangle; the first step
-/

namespace Plato.Plast
open Finset Plato Plato.Mech Plato.Thermal Plato.Dyn
open Plato.J2 (dom localDofs atN_mem)

/-- The projection on the triangle, with pressure scaling 2. -/
noncomputable def triQ : Proj ℝ := ⟨2, [1 / 3, 1 / 3, 1 / 3], 1 / 2, 2, id⟩

theorem triQ_ok : ProjOk (vecMesh triM) fun _ => triQ where
  dim := .inr (.inl rfl)
  ndof := rfl
  d := fun _ _ => rfl
  basis := fun _ _ => rfl

/-- Orders of the loops. -/
def triS : ProjSched :=
  ⟨List.range 3, List.range 6, seqSched (vecMesh triM) 6, fun _ => [0], fun _ => [0], List.range 3, seqSched (vecMesh triM) 36,
    fun _ => [0], fun _ => [0], List.range 6, List.range 3⟩

theorem tri_size (k : Nat) : (vecMesh triM).size ((vecMesh triM).part k) = 1 := by
  unfold FeModel.part
  split_ifs with hk
  · have hk : k < 1 := hk
    interval_cases k
    rfl
  · rfl

theorem triS_ok : triS.Ok (vecMesh triM) where
  extract := List.Perm.refl _
  fill := List.Perm.refl _
  value := seqSched_ok _ _
  node := fun k => by rw [tri_size]; exact List.Perm.refl _
  eval := fun k => by rw [tri_size]; exact List.Perm.refl _
  create := List.Perm.refl _
  matrix := seqSched_ok _ _
  nodeU := fun k => by rw [tri_size]; exact List.Perm.refl _
  evalU := fun k => by rw [tri_size]; exact List.Perm.refl _
  scale := List.Perm.refl _
  rows := List.Perm.refl _

theorem triQ_good : ∀ c, c < triM.nc → projGood (vecMesh triM) (fun _ => triQ) (fun _ => id) (triM.cellZ triA.loc.z c) (triM.cellX triA.loc.x c) := by
  intro c hc
  have hc : c < 1 := hc
  interval_cases c
  refine ⟨?_, fun _ _ => penOk_id _⟩
  norm_num [triA, vecMesh, triM, Bnd.tri, FeModel.cellX, cellNode, FeModel.npc, at0, atN, detForm, edge]

theorem tri_linear : LinearPressure triM triM.ndof 2 triA.loc.u triA.loc.x 1 fun j => if j = 0 then 2 else 4 := by
  intro n hn
  have hn : n < 3 := hn
  interval_cases n <;> norm_num [triA, triM, Bnd.tri, at0, sum_range_succ]

theorem tri_weight {n : Nat} (hn : n < triM.nn) : cellSum (vecMesh triM) (share (vecMesh triM) (fun _ => triQ) triA.loc.z triA.loc.x n) ≠ 0 := by
  refine (weight_pos (M := vecMesh triM) (k := 0) (c := 0) (a := n) ?_ ?_ (by decide) (by decide) hn ?_).ne'
  · intro k a _ ha
    have ha : a < 3 := ha
    interval_cases a <;> norm_num [triQ, at0]
  · intro k c hk hc
    have hk : k < 1 := hk
    interval_cases k
    have hc : c < 1 := hc
    interval_cases c
    norm_num [Proj.mass, triQ, meanDensity, FeModel.cellZ, FeModel.cellX, triA, vecMesh, triM, Bnd.tri, cellNode, FeModel.npc, at0, atN, gcell, FeModel.part,
      detForm, edge, sum_range_succ]
  · have hn : n < 3 := hn
    interval_cases n <;> rfl

/-- The hypotheses of C75 hold: the projected gradient is twice the gradient of the pressure. -/
example : (updateProjected (vecMesh triM) (fun _ => triQ) (fun _ => id) 3 2 triS triA.loc.u triA.loc.z triA.loc.x [1, 2, 3, 4, 5, 6]).Sat fun y =>
    ∀ n, n < 3 → at0 y (n * 2 + 0) = 4 ∧ at0 y (n * 2 + 1) = 8 := by
  have hV : (vecMesh triM).Ok := ⟨triM_ok.dim, triM_ok.dim, triM_ok.mesh, triM_ok.adj, triM_ok.graph, triM_ok.some_domain, triM_ok.cells⟩
  refine (C75_linear (κ := 2) hV triQ_ok (fun _ _ => ?_) (by decide) (by decide) triA_ok.loc.u rfl triA_ok.loc.z triA_ok.loc.x triQ_good triS_ok
    (fun _ _ => rfl) tri_linear).mono ?_
  · norm_num [vecMesh, triM, Bnd.tri, triQ, at0, sum_range_succ]
  · rintro y ⟨-, hy⟩ n hn
    have h0 := hy n 0 hn (by decide) (tri_weight hn)
    have h1 := hy n 1 hn (by decide) (tri_weight hn)
    rw [if_pos rfl] at h0
    rw [if_neg (by decide)] at h1
    exact ⟨h0.trans (by norm_num), h1.trans (by norm_num)⟩

/-- The stabilisation of the next step does no work. -/
example (h2 : ℝ → ℝ) (w : Nat → ℝ) : (updateProjected (vecMesh triM) (fun _ => triQ) (fun _ => id) 3 2 triS triA.loc.u triA.loc.z triA.loc.x
    [1, 2, 3, 4, 5, 6]).Sat fun y => meshStab triM (fun _ => triP) h2 { triA with n := y } w = 0 := by
  refine C75_stabilisation (κ := 2) triM_ok triP_ok triQ_ok (fun _ _ => ⟨rfl, rfl⟩) (by decide) (fun _ _ => rfl) (fun _ _ => ⟨?_, ?_⟩) (by decide)
    triA_ok rfl triQ_good triS_ok (fun n hn => tri_weight hn) tri_linear h2 w
  · norm_num [triM, Bnd.tri, triP, J2.slabJ, at0, sum_range_succ]
  · norm_num [triM, Bnd.tri, triQ, at0, sum_range_succ]

/-- **C75**, the first step: its projected gradient is zero, so the stabilisation works on a linear pressure. -/
theorem C75_first_step_false : meshStab triM (fun _ => triP) (fun _ => 1) { triA with n := List.replicate 6 0 } (at0 triA.loc.u) ≠ 0 := by
  norm_num [meshStab, Plast.stabWork, gNumbers, gData, J2.cellData, Plast.gradOf, Plast.projOf, Plast.penOf, interp, scalarField, gradForm, cofForm, detForm, edge,
    meanDensity, dofs, cellDof, cellNode, triM, triP, triA, J2.slabJ, Bnd.tri, dom, FeModel.npc, at0, atN, plainG, J2.plainMk, plainOf, sum_range_succ,
    Plast.d, Plast.poff, Plast.ndof, J2.J2.ndof]

end Plato.Plast
