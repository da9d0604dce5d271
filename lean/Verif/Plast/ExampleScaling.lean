import Verif.Plast.Length
import Verif.Plast.ExampleGradient

/-!
# C73 and C74 on a triangle
-/

namespace Plato.Plast
open Finset Plato Plato.Mech Plato.Thermal Plato.J2 Plato.Dyn
open Plato.Bnd hiding Add

/-! ## C73 -/

/-- A load in the first direction on one edge. -/
noncomputable def triE : Loads := { triB with mech := [.load [1] fun k => if k = 0 then 1 else 0] }

theorem triE_ok : LoadsOk triM triP triE where
  mech := by
    refine ⟨?_, by decide, ?_⟩
    · intro B hB
      have hB : B = .load [1] fun k => if k = 0 then 1 else 0 := by simpa [triE] using hB
      subst hB
      exact Bnd.tri_facesOk _ fun f hf => by rw [List.mem_singleton.1 hf]; omega
    · intro B hB hp
      have hB : B = .load [1] fun k => if k = 0 then 1 else 0 := by simpa [triE] using hB
      subst hB
      exact absurd hp id
  heat := triB_ok.heat
  cub := triB_ok.cub
  orders := by
    intro b C hC
    match b, hC with
    | 0, hC =>
      have hC : C = .load [1] fun k => if k = 0 then 1 else 0 := by simpa [triE] using hC.symm
      subst hC
      exact List.Perm.refl _
    | b + 1, hC => simp [triE] at hC
  ordersT := triB_ok.ordersT
  pressure := by
    intro _ C hC
    have hC : C = .load [1] fun k => if k = 0 then 1 else 0 := by simpa [triE] using hC
    subst hC
    rfl

theorem tri_free : PressureFree triM (fun _ => triP) triE triA.loc.x := by
  refine ⟨fun k _ L hL => ?_, fun q hq => ?_⟩
  · have hL : L = weightLoad := by simpa [triP] using hL
    subst hL
    simp [weightLoad, Plast.poff, triP, slabJ]
  · have hq : q % 3 = 2 := hq
    have hm : mechLayout triP = ⟨3, 3, 0⟩ := rfl
    have h0 : ∀ face t, (∀ k, k = 2 → t k = 0) → faceForce triM.dim (mechLayout triP) triE.F triA.loc.x face t q = 0 := by
      intro face t ht
      unfold faceForce
      rw [hm]
      refine sum_eq_zero fun n _ => sum_eq_zero fun k hk => ?_
      have hk : k < 3 := mem_range.1 hk
      split
      · rename_i he
        have : k = 2 := by
          have he : 3 * triE.F.node triM.dim face n + (k + 0) = q := he
          omega
        rw [ht k this]
        simp [faceIntegral]
      · rfl
    unfold boundaryForce bndForce
    rw [if_neg (by simp [triP, slabJ]), add_zero]
    refine List.sum_eq_zero fun b hb => ?_
    obtain ⟨B, hB, rfl⟩ := List.mem_map.1 hb
    have hB : B = .load [1] fun k => if k = 0 then 1 else 0 := by simpa [triE] using hB
    subst hB
    refine List.sum_eq_zero fun b hb => ?_
    obtain ⟨face, -, rfl⟩ := List.mem_map.1 hb
    refine List.sum_eq_zero fun b hb => ?_
    obtain ⟨cell, -, rfl⟩ := List.mem_map.1 hb
    exact h0 _ _ fun k hk => by subst hk; simp [NaturalBC.traction]

/-- C73 with pressure scaling 2, weight and a load on an edge. -/
example (pow23 : ℝ → ℝ) : (plastResidual triM (fun _ => triP) pow23 triE (fun _ _ _ => 0) (fun _ _ => [0]) triSch triA).Sat fun r =>
    (plastResidual triM (fun _ => triP.unscaled) pow23 triE (fun _ _ _ => 0) (fun _ _ => [0]) triSch (physical triP triA)).Sat fun r' =>
      r.length = r'.length ∧ ∀ q, at0 r q = triP.weight (q % triM.ndof) * at0 r' q :=
  C73_residual triM_ok triP_ok (fun _ _ => ⟨rfl, rfl, rfl⟩) pow23 triE_ok _ _ tri_ev tri_ev triA_ok tri_free tri_ws tri_add tri_ws
    tri_add

/-! ## C74 -/

/-- Without body loads. -/
noncomputable def triN : Plast ℝ := { triP with bodyLoads := [] }

theorem triN_ok : POk triM fun _ => triN := ⟨triP_ok.j, fun _ _ L hL => (List.not_mem_nil hL).elim⟩

/-- Without loads on edges. -/
noncomputable def triO : Loads := { triB with mech := [] }

theorem triO_ok : LoadsOk triM triN triO where
  mech := ⟨fun B hB => (List.not_mem_nil hB).elim, by decide, fun B hB => (List.not_mem_nil hB).elim⟩
  heat := triB_ok.heat
  cub := triB_ok.cub
  orders := fun b C hC => by simp [triO] at hC
  ordersT := triB_ok.ordersT
  pressure := fun _ C hC => (List.not_mem_nil hC).elim

theorem tri_unloaded : Unloaded triM (fun _ => triN) triO := ⟨fun _ _ => rfl, rfl, rfl⟩

theorem tri_stab : meshStab triM (fun _ => triN) twoThirds triA (at0 triA.loc.u) = 9 * twoThirds (1 / 2) := by
  have hl : triM.domains.length = 1 := rfl
  have hd : dom triM 0 = [0] := rfl
  unfold meshStab
  rw [hl]
  simp only [range_one, sum_singleton, hd, List.length_singleton]
  have hdet : detForm triM.dim (gNumbers triM triA (atN [0] 0)).loc.x = 1 := by
    norm_num [gNumbers, gData, cellData, triA, triM, Bnd.tri, cellNode, FeModel.npc, at0, atN, plainG, plainMk, plainOf, detForm, edge]
  rw [hdet, show triN.cubWeight = 1 / 2 from rfl, abs_one, one_mul]
  unfold Plast.stabWork
  rw [show triN.d = triM.dim from rfl, hdet]
  norm_num [gNumbers, gData, cellData, triA, triM, Bnd.tri, cellNode, cellDof, FeModel.npc, at0, atN, plainG, plainMk, plainOf,
    triN, triP, slabJ, Plast.penOf, meanDensity, Plast.gradOf, Plast.projOf, scalarField, interp, gradForm, cofForm, detForm, edge,
    sum_range_succ, Plast.poff, Plast.ndof, J2.ndof, Plast.d, dofs]
  try ring

/-- **C74 fails** in two dimensions: with coordinates and displacements in another unit of length the residual of the
same body is another. -/
theorem C74_plane_false : ∃ (M : FeModel) (P : Nat → Plast ℝ) (B : Loads) (A : GArgs ℝ) (eR sch : Nat → Nat → List Nat)
    (r r' : List ℝ), M.Ok ∧ POk M P ∧ LoadsOk M (P 0) B ∧ Unloaded M P B ∧ A.Ok M (localDofs M.dim) ∧ EvSched M eR ∧
    WsSched M sch ∧ AddSched M (M.npc * M.ndof) sch ∧ M.dim = 2 ∧
    plastResidual M P twoThirds B (fun _ _ _ => 0) eR sch A = .ok r ∧
    plastResidual M (fun k => (P k).inUnit 8) twoThirds B (fun _ _ _ => 0) eR sch (inUnit (P 0) 8 A) = .ok r' ∧
    ¬ ∀ q, at0 r' q = (if q % M.ndof < M.dim then 8 ^ 2 / 8 else 8 ^ 2) * at0 r q := by
  obtain ⟨r, hr, r', hr', hw⟩ := C74_plane_partial triM_ok triN_ok (a := 8) (by norm_num) rfl (fun _ _ => by norm_num [triN, triP])
    triO_ok tri_unloaded (fun _ _ _ => 0) (fun _ _ _ => 0) tri_ev tri_ev triA_ok tri_ws tri_add tri_ws tri_add
  refine ⟨triM, fun _ => triN, triO, triA, _, _, r, r', triM_ok, triN_ok, triO_ok, tri_unloaded, triA_ok, tri_ev, tri_ws, tri_add,
    rfl, hr, hr', fun hq => ?_⟩
  have h1 := hw (at0 triA.loc.u)
  have h2 : ∑ q ∈ range (triM.nn * triM.ndof), at0 r' q * scaled triM.ndof (triN.lengths 8) (at0 triA.loc.u) q =
      8 ^ 2 * ∑ q ∈ range (triM.nn * triM.ndof), at0 r q * at0 triA.loc.u q := by
    rw [mul_sum]
    refine sum_congr rfl fun q _ => ?_
    rw [hq q]
    unfold scaled Plast.lengths
    rw [show triN.d = triM.dim from rfl]
    split <;> ring
  rw [h2, tri_stab] at h1
  have hp : 0 < twoThirds (1 / 2) := Real.rpow_pos_of_pos (by norm_num) _
  have hlt : |(8 : ℝ)| ^ (-(2 / 3) : ℝ) < 1 := Real.rpow_lt_one_of_one_lt_of_neg (by norm_num) (by norm_num)
  nlinarith

end Plato.Plast
