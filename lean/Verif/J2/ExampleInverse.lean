import Verif.J2.Example
import Verif.J2.Inverse
import Verif.Mech.LoadFalse

/-!
# C65 and C66 on the square
-/

namespace Plato.J2
open Finset Plato Plato.Mech

/-- The material with modulus `h` of isotropic hardening. -/
noncomputable def slabH (h : ℝ) : J2 ℝ := { slabJ with hardIso := h }

theorem slabH_ok (h : ℝ) : JOk Tm.slab fun _ => slabH h :=
  ⟨.inl rfl, fun _ _ => rfl, fun _ _ => rfl, fun _ _ => by simp [slabH, slabJ, Tm.slab]⟩

theorem slabH_consts (h : ℝ) : Consts Tm.slab fun _ => slabH h := fun _ _ => ⟨rfl, rfl⟩

theorem slab_sq (h : ℝ) (cell : Nat) (hc : cell < 2) {C : ℕ → ℝ} (hC : ∀ i, 2 ≤ i → C i = 0) :
    sqForm 2 ((slabH h).eta (numbers Tm.slab slabA cell).u C (numbers Tm.slab slabA cell).z
      (numbers Tm.slab slabA cell).x) = 200 := by
  have hd := slab_density cell hc
  have ht : ∀ t, (slabH h).total (numbers Tm.slab slabA cell).u (numbers Tm.slab slabA cell).x t = if t = 2 then 10 else 0 :=
    fun t => slab_strain cell t hc
  unfold J2.eta
  simp only [show (slabH h).d = 2 from rfl, show (2 + 1 : Nat) = 3 from rfl, hd]
  norm_num [sqForm, etaForm, devForm, third, isNormal, stressTerms, J2.elasticOf, ht, J2.therm,
    show (slabH h).d = 2 from rfl, show (slabH h).thermal = false from rfl, show (slabH h).shear = 1 from rfl,
    show (slabH h).penE = id from rfl, hC, sum_range_succ]

theorem slab_det2 (cell : Nat) (hc : cell < 2) : detForm 2 (numbers Tm.slab slabA cell).x ≠ 0 := Tm.slab_det hc

theorem slab_pen (cell : Nat) : PenOk (fun a => a) (slabH 1).penE (meanDensity 3 (numbers Tm.slab slabA cell).z) :=
  penOk_id _

/-- A state of plastic flow: the multiplier is one in both cells. -/
noncomputable def slabC : Args ℝ :=
  { slabA with c := [0, 1, 0, 0, 0, 0, 0, 0, 0, 0, 0, 1, 0, 0, 0, 0, 0, 0, 0, 0] }

theorem slabC_ok : slabC.Ok Tm.slab (localDofs Tm.slab.dim) := by
  constructor <;> simp [slabC, slabA, Tm.slab, localDofs, Tm.slabX]

theorem slabC_flow (cell : Nat) (hc : cell < 2) : at0 slabC.c (cell * 10 + 1) = 1 := by
  interval_cases cell <;> simp [slabC, at0]

/-- The hypotheses on the cells of C65 and C66, also without isotropic hardening. -/
theorem slabC_smooth (h : ℝ) (hh : 0 ≤ h) (cell : Nat) (hc : cell < 2) :
    Smooth (slabH h) (fun a => a) (fun a => a) (numbers Tm.slab slabC cell) ∧
      Regular (slabH h) (numbers Tm.slab slabC cell) ∧ (matOf Tm.slab (fun _ => slabH h) slabC cell cell).K = h := by
  have hd : meanDensity 3 (numbers Tm.slab slabC cell).z = 1 := slab_density cell hc
  have hC : ∀ i, 2 ≤ i → i < 10 → (numbers Tm.slab slabC cell).c i = 0 := fun i h1 h2 => by
    show at0 slabC.c (cell * 10 + i) = 0
    interval_cases cell <;> interval_cases i <;> simp [slabC, at0]
  have hK : (matOf Tm.slab (fun _ => slabH h) slabC cell cell).K = h := by
    simp only [matOf, J2.mat, slabH, slabJ, id]
    rw [hd, one_mul]
  refine ⟨⟨slab_det2 cell hc, penOk_id _, penOk_id _, ?_⟩, ⟨?_, hh.trans_eq hK.symm, ?_, ?_⟩, hK⟩
  · have e := sqForm_congr (d := 2) fun t ht => eta_congr (P := slabH h) (U := (numbers Tm.slab slabC cell).u)
      (Z := (numbers Tm.slab slabC cell).z) (X := (numbers Tm.slab slabC cell).x)
      (C := (numbers Tm.slab slabC cell).c) (C' := fun _ => 0) (.inl rfl) (fun i h1 h2 => hC i h1 h2) t ht
    show sqForm 2 _ ≠ 0
    rw [e]
    exact ne_of_eq_of_ne (slab_sq h cell hc (C := fun _ => 0) fun _ _ => rfl) (by norm_num)
  · simp only [J2.mat, slabH, slabJ, id]
    rw [hd]; norm_num
  · simp only [J2.mat, slabH, slabJ, id]
    rw [hd]; norm_num
  · rw [show (slabH h).d = 2 from rfl]
    simp [point, stressTensor, Matrix.trace_fin_three, stressTerms, hC]

theorem slab_cov (cell : Nat) (hc : cell < Tm.slab.nc) : ∃ k, k < Tm.slab.domains.length ∧ cell ∈ dom Tm.slab k := by
  have hc : cell < 2 := hc
  interval_cases cell
  · exact ⟨0, by decide, by rw [slab_dom0]; simp⟩
  · exact ⟨1, by decide, by rw [slab_dom1]; simp⟩

/-- With isotropic hardening the inverse is computed. -/
example : ∃ J I : V3 ℝ, localGradient Tm.slab 10 10 ⟨constOf, constOf, seedOf, constOf, constOf, constOf⟩
      (residualF Tm.slab (fun _ => slabH 1) (fun _ a => a) (fun _ a => a) fun _ => [0]) (fun _ _ => [0]) slabC = .ok J ∧
    inverseLocalJacobian Tm.slab 10 (residualF Tm.slab (fun _ => slabH 1) (fun _ a => a) (fun _ a => a) fun _ => [0])
      (fun _ _ => [0]) [0, 1] [0, 1] slabC ⟨2, 10, 10, fun _ _ _ => 7⟩ = .ok I ∧ (I.d0 = 2 ∧ I.d1 = 10 ∧ I.d2 = 10) ∧
    ∀ cell, cell < Tm.slab.nc → blas3.IsInverse 10 (J.e cell) (I.e cell) :=
  C66_local_jacobian_partial Tm.slab_ok slab_blocks slab_cov (slabH_ok 1) (slabH_consts 1) slabC_ok slab_ord slab_sched
    (List.Perm.refl _) (List.Perm.refl _) ⟨rfl, rfl, rfl⟩ (by decide) (slab_each
      (fun _ => ⟨(slabC_smooth 1 (by norm_num) 0 (by omega)).1, (slabC_smooth 1 (by norm_num) 0 (by omega)).2.1, by
        rw [(slabC_smooth 1 (by norm_num) 0 (by omega)).2.2]; norm_num⟩)
      fun _ => ⟨(slabC_smooth 1 (by norm_num) 1 (by omega)).1, (slabC_smooth 1 (by norm_num) 1 (by omega)).2.1, by
        rw [(slabC_smooth 1 (by norm_num) 1 (by omega)).2.2]; norm_num⟩)

/-- At the states returned by the update it is computed too. -/
example := C66_update_partial (pE := fun _ a => a) (pP := fun _ a => a) (out := ⟨2, 10, 10, fun _ _ _ => 7⟩)
  Tm.slab_ok slab_blocks slab_cov slabJ_ok slab_consts slabA_ok slab_ord slab_sched
  (List.Perm.refl [0, 1]) (List.Perm.refl [0, 1])
  (slab_each ⟨slab_mat _ _ (by omega), by
      simp only [matOf, J2.mat, slabJ, id]; rw [slab_density 0 (by omega)]; norm_num⟩
    ⟨slab_mat _ _ (by omega), by
      simp only [matOf, J2.mat, slabJ, id]; rw [slab_density 1 (by omega)]; norm_num⟩)
  (slab_each (slab_state _) (slab_state _))
  (slab_each ⟨slab_det2 0 (by omega), penOk_id _, penOk_id _⟩ ⟨slab_det2 1 (by omega), penOk_id _, penOk_id _⟩)
  ⟨rfl, rfl, rfl⟩ (by decide) slab_ord slab_sched

/-- **C66, refutation on the square**: the material hardens kinematically only, both cells flow, their matrices are
regular, the inverse is not computed. -/
theorem C66_square_false :
    ∃ J : V3 ℝ, localGradient Tm.slab 10 10 ⟨constOf, constOf, seedOf, constOf, constOf, constOf⟩
      (residualF Tm.slab (fun _ => slabH 0) (fun _ a => a) (fun _ a => a) fun _ => [0]) (fun _ _ => [0]) slabC = .ok J ∧
    (∃ b, blas3.IsInverse 10 (J.e 0) b) ∧
    inverseLocalJacobian Tm.slab 10 (residualF Tm.slab (fun _ => slabH 0) (fun _ a => a) (fun _ a => a) fun _ => [0])
      (fun _ _ => [0]) [0, 1] [0, 1] slabC ⟨2, 10, 10, fun _ _ _ => 7⟩ = .ub :=
  C66_inverse_false (k := 0) (cell := 0) Tm.slab_ok slab_blocks (slabH_ok 0) (slabH_consts 0) slabC_ok slab_ord slab_sched
    (List.Perm.refl _) (List.Perm.refl _) ⟨rfl, rfl, rfl⟩ (by decide) (by rw [slab_dom0]; simp)
    (by rw [show localDofs Tm.slab.dim = 10 from rfl, slabC_flow 0 (by omega)]; norm_num)
    (slabC_smooth 0 le_rfl 0 (by omega)).1 (slabC_smooth 0 le_rfl 0 (by omega)).2.1
    (slabC_smooth 0 le_rfl 0 (by omega)).2.2

/-! ## C65 -/

/-- The derivatives by the local state of the square in plastic flow. -/
example : ∃ (r : (Fin 20 → ℝ) → V2 ℝ) (J : V3 ℝ),
    (∀ y, j2Residual Tm.slab (fun _ => slabH 1) (fun _ => [0]) (fun _ _ => [0]) { slabA with c := List.ofFn y } =
      .ok (r y)) ∧
    localGradient Tm.slab 10 10 ⟨constOf, constOf, seedOf, constOf, constOf, constOf⟩
      (residualF Tm.slab (fun _ => slabH 1) (fun _ a => a) (fun _ a => a) fun _ => [0]) (fun _ _ => [0])
      { slabA with c := List.ofFn fun i : Fin 20 => at0 slabC.c i } = .ok J ∧
    EachCell Tm.slab fun _ cell => ∀ i, i < 10 → HasFDerivAt (fun y => (r y).e cell i)
      (∑ l ∈ range 10, J.e cell i l • coord 20 (cell * 10 + l)) fun i : Fin 20 => at0 slabC.c i := by
  have eL : (List.ofFn fun i : Fin 20 => at0 slabC.c i) = slabC.c := by
    simp [slabC, List.ofFn_succ, at0]
  have hn : ∀ cell, numbers Tm.slab { slabA with c := List.ofFn fun i : Fin 20 => at0 slabC.c i } cell =
      numbers Tm.slab slabC cell := fun cell => by rw [eL]; rfl
  have hv : ∀ cell, cell < 2 → coord 20 (cell * 10 + 1) (fun i : Fin 20 => at0 slabC.c i) = 1 := fun cell hc => by
    rw [← at0_ofFn, eL, slabC_flow cell hc]
  obtain ⟨r, J, h1, h2, h3⟩ := C65_gradient_c_partial (pE := fun _ a => a) (pP := fun _ a => a)
    (c := fun i : Fin 20 => at0 slabC.c i) Tm.slab_ok slab_blocks (slabH_ok 1) slabA_ok slab_ord slab_sched
    (fun _ => slab_ord) (fun _ => slab_sched)
  refine ⟨r, J, h1, h2, slab_each (h3 0 (by decide) 0 (by rw [slab_dom0]; simp) ?_ fun _ => ?_)
    (h3 1 (by decide) 1 (by rw [slab_dom1]; simp) ?_ fun _ => ?_)⟩
  · exact (ne_of_eq_of_ne (hv 0 (by omega)) one_ne_zero)
  · exact (hn 0).symm ▸ (slabC_smooth 1 (by norm_num) 0 (by omega)).1
  · exact (ne_of_eq_of_ne (hv 1 (by omega)) one_ne_zero)
  · exact (hn 1).symm ▸ (slabC_smooth 1 (by norm_num) 1 (by omega)).1

/-- **C65, refutation on the square**: at the local state zero the yield function is positive, and the residual has no
derivative. -/
theorem C65_square_false : ∃ r : (Fin 20 → ℝ) → V2 ℝ,
    (∀ y, j2Residual Tm.slab (fun _ => slabJ) (fun _ => [0]) (fun _ _ => [0]) { slabA with c := List.ofFn y } =
      .ok (r y)) ∧ ¬ DifferentiableAt ℝ (fun y => (r y).e 0 1) 0 := by
  obtain ⟨r, h1, h2⟩ := C65_gradient_c_false (c := (0 : Fin 20 → ℝ)) Tm.slab_ok slab_blocks slabJ_ok slabA_ok
    (fun _ => slab_ord) (fun _ => slab_sched)
  refine ⟨r, h1, h2 0 (by decide) 0 (by rw [slab_dom0]; simp) (map_zero _) ?_⟩
  have h := slab_yields 0 (by omega)
  have e := trial_tensor (P := slabJ) (.inl rfl) (numbers Tm.slab slabA 0).u (numbers Tm.slab slabA 0).cp
    (numbers Tm.slab slabA 0).z (numbers Tm.slab slabA 0).x rfl
  have e' : tolerance < slabJ.trial Real.sqrt (numbers Tm.slab slabA 0).u (numbers Tm.slab slabA 0).cp
      (numbers Tm.slab slabA 0).z (numbers Tm.slab slabA 0).x := lt_of_lt_of_eq h e.symm
  have e2 : slabJ.trial Real.sqrt (numbers Tm.slab slabA 0).u (numbers Tm.slab { slabA with c := List.ofFn (0 : Fin 20 → ℝ) } 0).c
      (numbers Tm.slab slabA 0).z (numbers Tm.slab slabA 0).x = slabJ.trial Real.sqrt (numbers Tm.slab slabA 0).u
      (numbers Tm.slab slabA 0).cp (numbers Tm.slab slabA 0).z (numbers Tm.slab slabA 0).x := by
    refine trial_same (P := slabJ) (.inl rfl) (fun _ _ => rfl) (fun i _ => ?_) (fun _ _ => rfl) (fun _ _ _ _ => rfl) _
    show at0 (List.ofFn (0 : Fin 20 → ℝ)) _ = at0 slabA.cp _
    rw [slab_zero, at0_ofFn, map_zero]
  refine ne_of_gt (lt_of_le_of_lt tolerance_nonneg ?_)
  exact lt_of_lt_of_eq e' e2.symm

end Plato.J2
