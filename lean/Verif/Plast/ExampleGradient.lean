import Verif.Plast.Example
import Verif.Plast.Gradient

/-!
# C72 on a triangle; the derivative by the coordinates lacks the loads on the boundary
-/

namespace Plato.Plast
open Finset Plato Plato.Mech Plato.Thermal Plato.J2 Plato.Dyn
open Plato.Bnd hiding Add

theorem tri_blocks : Blocks triM := by
  refine ⟨fun k hk => ?_, fun k hk => ?_, fun j k hj hk hjk => ?_⟩
  · have hk : k < 1 := hk
    interval_cases k
    decide
  · have hk : k < 1 := hk
    interval_cases k
    decide
  · have hj : j < 1 := hj
    have hk : k < 1 := hk
    omega

theorem tri_gsched : GSched triM fun _ _ => [0] := by
  intro k j hk _
  have hk : k < 1 := hk
  interval_cases k
  exact List.Perm.refl _

/-- The power 2/3 with its derivative. -/
noncomputable def pow23 (a : ℝ) : ℝ := a ^ (2 / 3 : ℝ)

noncomputable def pow23F (a : Fad) : Fad := ⟨pow23 a.val, fun l => (2 / 3 : ℝ) * a.val ^ ((2 / 3 : ℝ) - 1) * a.dx l⟩

theorem pow23_ok {v : ℝ} (hv : 0 < v) : PenOk pow23F pow23 v :=
  ⟨_, Real.hasDerivAt_rpow_const (.inl hv.ne'), fun a ha => ⟨by rw [← ha]; rfl, fun l => by
    show (2 / 3 : ℝ) * a.val ^ ((2 / 3 : ℝ) - 1) * a.dx l = _
    rw [ha]⟩⟩

/-- The material of the triangle is regular wherever the triangle has an area and the density is not zero. -/
theorem tri_regular {D : GData ℝ} (hx : detForm 2 D.loc.x ≠ 0) (hz : meanDensity 3 D.loc.z ≠ 0) :
    Regular triP (fun a => a) pow23F pow23 D where
  det := hx
  pen := penOk_id _
  bulk := mul_ne_zero hz (by norm_num [triP])
  shear := by norm_num [triP, slabJ]
  pow := pow23_ok (mul_pos (abs_pos.2 hx) (by norm_num [triP]))

theorem tri_density : meanDensity 3 (gNumbers triM triA 0).loc.z ≠ 0 := by
  norm_num [meanDensity, gNumbers, gData, cellData, triA, triM, Bnd.tri, cellNode, FeModel.npc, at0, atN, plainG, plainMk, plainOf,
    sum_range_succ]

/-- All hypotheses of C72 hold for the triangle. -/
example := C72_gradient_c (c := fun _ => 1) (pE := fun _ a => a) (pP := fun _ a => a) (pF := fun _ a => a) triM_ok triP_ok triB_ok
  (fun _ _ _ => 0) tri_blocks triA_ok tri_ev tri_ws tri_add tri_ev tri_gsched
  (tri_each (tri_regular (tri_det 0 (by decide) 0 (by simp [dom, triM, Bnd.tri])) tri_density))

/-- Force at node 1, direction 1, of the load on the edge from node 1 to node 2. -/
theorem tri_load (x : List ℝ) : boundaryForce triM triP triB x 4 =
    1 / 2 * Real.sqrt ((at0 x 2 - at0 x 4) * (at0 x 2 - at0 x 4) + (at0 x 3 - at0 x 5) * (at0 x 3 - at0 x 5)) := by
  have c0 : triFaces.cellsOf 1 = [0] := by decide
  have n0 : triFaces.node 2 1 0 = 1 := by decide
  have n1 : triFaces.node 2 1 1 = 2 := by decide
  have hw := C48_weight (d := 2) (by omega) 1 (triFaces.coords 2 x 1) (n := 0) (by omega)
  rw [one_mul, one_mul] at hw
  unfold boundaryForce bndForce
  simp only [show triM.dim = 2 from rfl, show triB.F = triFaces from rfl, show triB.mech = [.load [1] fun k => k] from rfl,
    show triP.mat.thermal = false from rfl, show mechLayout triP = ⟨3, 3, 0⟩ from rfl,
    List.map_singleton, List.sum_singleton, NaturalBC.set, c0]
  unfold faceForce
  simp only [sum_range_succ, sum_range_zero, n0, n1, NaturalBC.traction, faceIntegral_const_mul]
  rw [← hw]
  simp [weightForm, Faces.coords, n0, n1, Nat.factorial]

theorem triX_line (t : ℝ) : List.ofFn ((![0, 1, 0, 0, 1, 0] : Fin 6 → ℝ) + t • Pi.single (4 : Fin 6) (1 : ℝ)) =
    [0, 1, 0, 0, 1 + t, 0] := by
  have : (![0, 1, 0, 0, 1, 0] : Fin 6 → ℝ) + t • Pi.single (4 : Fin 6) (1 : ℝ) = ![0, 1, 0, 0, 1 + t, 0] := by
    funext i
    fin_cases i <;> simp [Pi.single_apply]
  rw [this]
  simp [List.ofFn_succ]

/-- **C72, refutation for the coordinates**: on a triangle with a load on an edge every function returns, the cell is
regular, and the matrices are not the derivative of the residual: the length of the edge is missing. -/
theorem C72_gradient_x_false : ∃ (M : FeModel) (P : Nat → Plast ℝ) (B : Loads) (A : GArgs ℝ) (eR sch schF : Nat → Nat → List Nat)
    (x : Fin (M.nn * M.dim) → ℝ) (r : (Fin (M.nn * M.dim) → ℝ) → List ℝ) (J : V3 ℝ),
    M.Ok ∧ Blocks M ∧ POk M P ∧ LoadsOk M (P 0) B ∧
    (EachCell M fun k cell => Regular (P k) (fun a => a) pow23F pow23
      (gNumbers M { A with loc := { A.loc with x := List.ofFn x } } cell)) ∧
    (∀ y, plastResidual M P pow23 B (fun _ _ _ => 0) eR sch { A with loc := { A.loc with x := List.ofFn y } } = .ok (r y)) ∧
    globalGradient M (localDofs M.dim) (M.npc * M.dim) (seeds 5)
      (plastF pow23F M P (fun _ a => a) (fun _ a => a) (fun _ a => a) (fun _ _ _ => 0) eR) schF
      { A with loc := { A.loc with x := List.ofFn x } } = .ok J ∧
    ¬ IsGradient M (fun y q => at0 (r y) q) (M.npc * M.dim) (cellDof M.npc M.dim M.c2n) J x := by
  let x0 : Fin (triM.nn * triM.dim) → ℝ := (![0, 1, 0, 0, 1, 0] : Fin 6 → ℝ)
  let v0 : Fin (triM.nn * triM.dim) → ℝ := (Pi.single (4 : Fin 6) (1 : ℝ) : Fin 6 → ℝ)
  have hR : EachCell triM fun _ cell => Regular triP (fun a => a) pow23F pow23
      (gNumbers triM { triA with loc := { triA.loc with x := List.ofFn x0 } } cell) := by
    refine tri_each (tri_regular ?_ tri_density)
    have e : List.ofFn x0 = [0, 1, 0, 0, 1, 0] := by
      show List.ofFn (![0, 1, 0, 0, 1, 0] : Fin 6 → ℝ) = _
      simp [List.ofFn_succ]
    rw [e]
    norm_num [gNumbers, gData, cellData, triA, triM, Bnd.tri, cellNode, FeModel.npc, at0, atN, plainG, plainMk, plainOf, detForm, edge]
  obtain ⟨r, J, h1, h2, h3⟩ := C72_gradient_x_partial (x := x0) (pE := fun _ a => a) (pP := fun _ a => a) (pF := fun _ a => a)
    triM_ok triP_ok triB_ok (fun _ _ _ => 0) tri_blocks triA_ok tri_ev tri_ws tri_add tri_ev tri_gsched hR
  refine ⟨triM, fun _ => triP, triB, triA, fun _ _ => [0], triSch, fun _ _ => [0], x0, r, J, triM_ok, tri_blocks, triP_ok, triB_ok,
    hR, fun y => (h1 y).1, h2, fun hg => ?_⟩
  have hb := (h3 fun q => if q = 4 then 1 else 0).sub (hg fun q => if q = 4 then 1 else 0)
  rw [sub_self] at hb
  have hl := hb.hasLineDerivAt v0
  unfold HasLineDerivAt at hl
  have hf : (fun t : ℝ => boundaryWork triM (fun _ => triP) triB
      { triA with loc := { triA.loc with x := List.ofFn (x0 + t • v0) } }
      fun q => if q = 4 then 1 else 0) = fun t => 1 / 2 * (1 / 2 * |1 + t|) := by
    funext t
    have e : List.ofFn (x0 + t • v0) = [0, 1, 0, 0, 1 + t, 0] := triX_line t
    unfold boundaryWork
    rw [e]
    simp only [mul_ite, mul_one, mul_zero, sum_ite_eq', mem_range]
    rw [if_pos (show 4 < triM.nn * triM.ndof by decide), tri_load]
    simp only [at0, triP]
    norm_num
    rw [← Real.sqrt_mul_self_eq_abs]
    congr 1
    ring
  have hl' : HasDerivAt (fun t : ℝ => 1 / 2 * (1 / 2 * |1 + t|)) 0 0 := by
    refine hl.congr_of_eventuallyEq (Filter.Eventually.of_forall fun t => ?_)
    refine (congrFun hf t).symm.trans ?_
    simp only [Pi.sub_apply]
    exact (add_sub_cancel_left _ _).symm
  have h0 : HasDerivAt (fun t : ℝ => 1 / 2 * (1 / 2 * |1 + t|)) (1 / 2 * (1 / 2 * 1)) 0 := by
    have ha : HasDerivAt (fun t : ℝ => |1 + t|) 1 0 := by
      have h1 : HasDerivAt (fun t : ℝ => 1 + t) 1 0 := (hasDerivAt_id 0).const_add 1
      refine h1.congr_of_eventuallyEq ?_
      filter_upwards [Ioi_mem_nhds (show (-1 : ℝ) < 0 by norm_num)] with t ht
      exact abs_of_pos (by have : -1 < t := ht; linarith)
    exact (ha.const_mul _).const_mul _
  have := hl'.unique h0
  norm_num at this

end Plato.Plast
