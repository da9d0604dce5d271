import Verif.J2.Props

/-!
# C63 and C64 on a square of two cells and two domains
-/

namespace Plato.J2
open Finset Plato Plato.Mech

/-- Unit material with hardening, on `slab`. -/
noncomputable def slabJ : J2 ℝ where
  d := 2
  thermal := false
  basis := List.replicate 3 (1 / 3)
  shear := 1
  alpha := 0
  tref := 0
  tscale := 1
  hardIso := 1
  hardKin := 2
  yield0 := 1
  penE := id
  penP := id
  s32 := √(3 / 2)
  s23 := √(2 / 3)

theorem slabJ_ok : JOk Tm.slab fun _ => slabJ :=
  ⟨.inl rfl, fun _ _ => rfl, fun _ _ => rfl, fun _ _ => by simp [slabJ, Tm.slab]⟩

theorem slab_dom0 : dom Tm.slab 0 = [0] := rfl
theorem slab_dom1 : dom Tm.slab 1 = [1] := rfl

theorem slab_blocks : Blocks Tm.slab := by
  refine ⟨?_, ?_, ?_⟩
  · intro k hk
    have hk : k < 2 := hk
    interval_cases k <;> decide
  · intro k hk
    have hk : k < 2 := hk
    interval_cases k <;> decide
  · intro j k hj hk
    have hj : j < 2 := hj
    have hk : k < 2 := hk
    interval_cases j <;> interval_cases k <;> decide

/-- Both cells are sheared by 10; no plastic strain so far. -/
noncomputable def slabA : Args ℝ where
  u := [0, 0, 0, 0, 0, 0, 10, 0, 0, 10, 0, 0]
  up := List.replicate 12 0
  c := List.replicate 20 7
  cp := List.replicate 20 0
  z := [1, 1, 1, 1]
  x := Tm.slabX

theorem slabA_ok : slabA.Ok Tm.slab (localDofs Tm.slab.dim) := by
  constructor <;> simp [slabA, Tm.slab, localDofs, Tm.slabX]

theorem slab_sched : LSched Tm.slab fun _ _ => [0] := by
  intro k j hk _
  have hk : k < 2 := hk
  interval_cases k <;> exact List.Perm.refl _

theorem slab_ord : OrdOk Tm.slab fun _ => [0] := by
  intro k hk
  have hk : k < 2 := hk
  interval_cases k <;> exact List.Perm.refl _

theorem slab_consts : Consts Tm.slab fun _ => slabJ := fun _ _ => ⟨rfl, rfl⟩

theorem slab_each {p : Nat → Nat → Prop} (h0 : p 0 0) (h1 : p 1 1) : EachCell Tm.slab p := by
  intro k hk cell hc
  have hk : k < 2 := hk
  interval_cases k
  · rw [slab_dom0] at hc; simp at hc; subst hc; exact h0
  · rw [slab_dom1] at hc; simp at hc; subst hc; exact h1

theorem slab_density (cell : Nat) (hc : cell < 2) : meanDensity 3 (numbers Tm.slab slabA cell).z = 1 := by
  interval_cases cell <;>
    norm_num [meanDensity, numbers, cellData, slabA, Tm.slab, cellNode, FeModel.npc, at0, atN, plainMk, plainOf,
      sum_range_succ]

theorem slab_mat (k cell : Nat) (hc : cell < 2) : (matOf Tm.slab (fun _ => slabJ) slabA k cell).Ok := by
  have h := slab_density cell hc
  constructor <;> simp only [matOf, J2.mat, slabJ, id] <;> rw [h] <;> norm_num

theorem slab_zero (i : Nat) : at0 slabA.cp i = 0 := by
  simp only [slabA, at0, List.getElem?_replicate]
  split_ifs <;> rfl

theorem slab_strain (cell t : Nat) (hc : cell < 2) : slabJ.total (numbers Tm.slab slabA cell).u
    (numbers Tm.slab slabA cell).x t = if t = 2 then 10 else 0 := by
  unfold J2.total
  rw [show slabJ.d = 2 from rfl, show numVoigt 2 = 3 from rfl, show slabJ.ndof = 3 from rfl]
  by_cases ht : t < 3
  · rw [if_pos ht]
    interval_cases cell <;> interval_cases t <;>
      norm_num [numbers, cellData, slabA, Tm.slab, Tm.slabX, cellNode, cellDof, FeModel.npc, at0, atN, plainMk, plainOf,
        sum_range_succ, voigtStrain, voigtPair, fieldGrad, gradForm, cofForm, detForm, edge]
  · rw [if_neg ht, if_neg (by omega)]

theorem slab_state (cell : Nat) : (stateOf Tm.slab slabA.cp cell).Ok := by
  constructor
  · simp [stateOf, point, slab_zero]
  · simp [stateOf, point, slab_zero, stressTensor, Tm.slab, Matrix.trace_fin_three]
  · simp [stateOf, point, slab_zero, strainTensor, Tm.slab, Matrix.trace_fin_three]

/-- The hypotheses of the theorems on C63 hold for this square, and both cells yield: the trial value of the yield
function is beyond the tolerance. -/
theorem slab_yields (cell : Nat) (hc : cell < 2) :
    tolerance < (matOf Tm.slab (fun _ => slabJ) slabA cell cell).f
      (strainOf Tm.slab (fun _ => slabJ) slabA cell cell) (stateOf Tm.slab slabA.cp cell) := by
  have e := trial_tensor (P := slabJ) (.inl rfl) (numbers Tm.slab slabA cell).u (numbers Tm.slab slabA cell).cp
    (numbers Tm.slab slabA cell).z (numbers Tm.slab slabA cell).x rfl
  have e' : slabJ.trial Real.sqrt (numbers Tm.slab slabA cell).u (numbers Tm.slab slabA cell).cp
    (numbers Tm.slab slabA cell).z (numbers Tm.slab slabA cell).x = _ := e
  show _ < Mat.f (slabJ.mat (numbers Tm.slab slabA cell).z) (slabJ.mechStrain _ _) (point 2 _)
  refine lt_of_lt_of_eq ?_ e'
  have h := slab_density cell hc
  have h0 : ∀ i, (numbers Tm.slab slabA cell).cp i = 0 := fun i => slab_zero _
  have hq : sqForm 2 (slabJ.eta (numbers Tm.slab slabA cell).u (numbers Tm.slab slabA cell).cp
      (numbers Tm.slab slabA cell).z (numbers Tm.slab slabA cell).x) = 200 := by
    unfold J2.eta
    simp only [show slabJ.d = 2 from rfl, show (2 + 1 : Nat) = 3 from rfl, h]
    norm_num [sqForm, etaForm, devForm, third, isNormal, stressTerms, J2.elasticOf, slab_strain cell _ hc, J2.therm,
      show slabJ.d = 2 from rfl, show slabJ.thermal = false from rfl, show slabJ.shear = 1 from rfl,
      show slabJ.penE = id from rfl, h0, sum_range_succ]
  unfold J2.trial J2.norm
  simp only [show slabJ.d = 2 from rfl, show (2 + 1 : Nat) = 3 from rfl, h, hq, h0]
  simp only [slabJ, id]
  have h1 : √(3 / 2 : ℝ) * √200 = √300 := by
    rw [← Real.sqrt_mul (by norm_num)]; norm_num
  have h2 : (10 : ℝ) ≤ √300 := Real.le_sqrt_of_sq_le (by norm_num)
  rw [h1]
  unfold tolerance
  norm_num
  linarith

/-- All hypotheses hold, so the theorems apply to this square. -/
example : (j2Update Tm.slab (fun _ => slabJ) (fun _ => [0]) (fun _ _ => [0]) slabA).Sat fun c =>
    EachCell Tm.slab fun k cell => Returned (matOf Tm.slab (fun _ => slabJ) slabA k cell) tolerance
      (strainOf Tm.slab (fun _ => slabJ) slabA k cell) (stateOf Tm.slab slabA.cp cell) (stateOf Tm.slab c cell) :=
  (C63_update Tm.slab_ok slab_blocks slabJ_ok slab_consts slabA_ok
    (slab_each (slab_mat _ _ (by omega)) (slab_mat _ _ (by omega)))
    (slab_each (slab_state _) (slab_state _)) slab_ord slab_sched).mono fun _ h => h.2.1

/-! ## Refutations on the square -/

/-- Local residual as a list. -/
noncomputable def j2Value (M : FeModel) (P : Nat → J2 ℝ) (ord : Nat → List Nat)
    (sch : Nat → Nat → List Nat) (A : Args ℝ) : Res (List ℝ) :=
  localValue M (localDofs M.dim)
    (residualEv M P (fun a => |a|) Real.sqrt (fun f => decide (0 < f)) ord) sch A

/-- Only the state of the second cell differs from the previous one. -/
noncomputable def slabB : Args ℝ := { slabA with c := List.replicate 10 0 ++ 1 :: List.replicate 9 0 }

theorem slabB_ok : slabB.Ok Tm.slab (localDofs Tm.slab.dim) := by
  constructor <;> simp [slabB, slabA, Tm.slab, localDofs, Tm.slabX]

/-- **Refutation of the list of residuals**: the residual of the second cell is stored as that of the first
one, for which the residual is zero. -/
theorem C64_value_false : ∃ (M : FeModel) (P : Nat → J2 ℝ) (ord : Nat → List Nat) (sch : Nat → Nat → List Nat)
    (A : Args ℝ), M.Ok ∧ Blocks M ∧ JOk M P ∧ OrdOk M ord ∧ LSched M sch ∧ A.Ok M (localDofs M.dim) ∧
    (j2Value M P ord sch A).Sat fun v => (j2Residual M P ord sch A).Sat fun r =>
      at0 v 0 = 1 ∧ r.e 0 0 = 0 ∧ at0 v (1 * localDofs M.dim) = 0 ∧ r.e 1 0 = 1 := by
  refine ⟨Tm.slab, fun _ => slabJ, fun _ => [0], fun _ _ => [0], slabB, Tm.slab_ok, slab_blocks, slabJ_ok, slab_ord,
    slab_sched, slabB_ok, ?_⟩
  have f0 : ∀ k, (fun k D i => ((fun _ => slabJ) k : J2 ℝ).evalForm Real.sqrt (decide (0 < D.c 1)) D.u D.c D.cp D.z D.x i :
      Nat → CellData ℝ → Nat → ℝ) k (cellData Tm.slab (localDofs Tm.slab.dim) plainMk slabB 0) 0 = 0 := by
    intro k
    norm_num [J2.evalForm, cellData, plainMk, plainOf, slabB, slabA, at0, Tm.slab, localDofs]
  have f1 : ∀ k, (fun k D i => ((fun _ => slabJ) k : J2 ℝ).evalForm Real.sqrt (decide (0 < D.c 1)) D.u D.c D.cp D.z D.x i :
      Nat → CellData ℝ → Nat → ℝ) k (cellData Tm.slab (localDofs Tm.slab.dim) plainMk slabB 1) 0 = 1 := by
    intro k
    norm_num [J2.evalForm, cellData, plainMk, plainOf, slabB, slabA, at0, Tm.slab, localDofs]
  refine (localValue_ok Tm.slab_ok slab_blocks localDofs_pos slab_sched (residualEv_rowWise slabJ_ok slab_ord _ _ _)
    slabB_ok).mono ?_
  rintro v ⟨-, v1⟩
  refine (C64_residual Tm.slab_ok slab_blocks localDofs_pos slab_sched (residualEv_rowWise slabJ_ok slab_ord _ _ _)
    slabB_ok).mono ?_
  rintro r ⟨-, r1, -⟩
  have a0 := (v1 0 0 (by decide) (by decide)).1 1 (by decide) (by decide) (by
    intro k' h h'
    have h' : k' < 2 := h'
    omega)
  have a1 := (v1 1 0 (by decide) (by decide)).2 (by
    intro k h
    have h : k < 2 := h
    interval_cases k <;> decide)
  refine ⟨?_, ?_, a1, ?_⟩
  · have := a0.trans (f1 1)
    simpa using this
  · exact (r1 0 (by decide) 0 (by decide) 0 (by decide)).trans (f0 0)
  · exact (r1 1 (by decide) 1 (by decide) 0 (by decide)).trans (f1 1)

end Plato.J2
