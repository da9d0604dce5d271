import Verif.HeatCrit.Props

/-!
# Concrete cases for C87
-/

namespace Plato.HeatCrit
open Finset Plato Plato.Mech Plato.Thermal Plato.Crit

/-- A rod of conductivity one. -/
noncomputable def unitLaw : FluxLaw ℝ := ⟨false, diagTable 1 1, fun _ _ => 0, fun _ _ => 0, fun _ _ => 0⟩

noncomputable def unitRod : Nat → Thermal ℝ := fun _ => exThermal 1 unitLaw ⟨true, ⟨1, 0, 0⟩, ⟨1, 0, 0⟩, 0, 0⟩

theorem unitRod_ok : ThermOk rod unitRod :=
  ⟨.inl rfl, rfl, fun _ _ => rfl, fun _ _ => rfl, fun _ _ _ B hB => by cases hB⟩

theorem rod_grad (P : Thermal ℝ) (hd : P.d = 1) {l : ℝ} (hl : l ≠ 0) (a b : ℝ) :
    P.gradT (onCell rod (at0 [a, b]) 0) (rod.cellX [0, l] 0) 0 = (b - a) / l := by
  have e : detForm 1 (rod.cellX [0, l] 0) = -l := by
    show (_ : ℝ) = _
    norm_num [rod, detForm, edge, FeModel.cellX, cellNode, FeModel.npc, at0, atN]
  have k0 : gradForm 1 (rod.cellX [0, l] 0) 0 0 = -1 / l := by
    unfold gradForm
    rw [if_pos (by decide), e]
    norm_num [cofForm]
    field_simp
  have k1 : gradForm 1 (rod.cellX [0, l] 0) 1 0 = 1 / l := by
    unfold gradForm
    rw [if_neg (by decide), sum_range_one, e]
    norm_num [cofForm]
  have n0 : cellNode rod.npc rod.c2n 0 0 = 0 := by decide
  have n1 : cellNode rod.npc rod.c2n 0 1 = 1 := by decide
  unfold Thermal.gradT scalarField
  rw [hd]
  simp only [sum_range_succ, sum_range_zero, k0, k1, onCell, n0, n1]
  norm_num [at0, atN]
  ring

theorem rod_volume {P : Thermal ℝ} (hd : P.d = 1) (hw : P.cubWeight = 1) (l : ℝ) :
    P.volForm abs (rod.cellX [0, l] 0) = |l| := by
  unfold Thermal.volForm
  rw [hd, hw]
  have e : detForm 1 (rod.cellX [0, l] 0) = -l := by
    show (_ : ℝ) = _
    norm_num [rod, detForm, edge, FeModel.cellX, cellNode, FeModel.npc, at0, atN]
  rw [e, abs_neg, mul_one]

theorem rod_density : meanDensity (1 + 1) (rod.cellZ [(1 : ℝ), 1] 0) = 1 := by
  norm_num [meanDensity, rod, FeModel.cellZ, cellNode, sum_range_succ, at0, atN, FeModel.npc]

/-- Integral of a power of the flux of the rod of length four at the temperatures 0 and 4. -/
theorem rod_fluxSum (p : ℝ) : fluxSum rod unitRod p [[0, 4]] [1, 1] [0, 4] = 4 := by
  unfold fluxSum
  rw [show rod.domains.length = 1 from rfl, sum_range_one, show [[(0 : ℝ), 4]].length = 1 from rfl, sum_range_one,
    show rod.size (rod.part 0) = 1 from rfl, sum_range_one, show gcell (rod.part 0) 0 = 0 by decide,
    rod_volume rfl (by simp [unitRod, exThermal])]
  unfold fluxLength
  rw [show (unitRod 0).d = 1 from rfl, sum_range_one, sum_range_one, rod_density]
  simp only [List.getElem?_cons_zero, Option.getD_some]
  rw [rod_grad _ rfl (by norm_num)]
  have : (unitRod 0).law.const 0 0 = 1 := by norm_num [unitRod, exThermal, unitLaw, diagTable]
  rw [this, show (unitRod 0).pen = id from rfl]
  norm_num

/-- **C87 is false** for exponents that are not integers: with the exponent 5/2 the criterion reports 2 for a rod
whose flux has the norm of exponent 5/2 equal to the fifth root of 16. -/
theorem C87_exponent_false (order : Nat → List Nat) (dt : ℝ) :
    physicsValue rod (fluxPNorm abs (fun a q => a ^ q) (5 / 2) unitRod fun k => List.range (rod.size (rod.part k)))
      (fluxPost (5 / 2) order) (seqSch rod 2) [[0, 4]] [1, 1] [0, 4] dt = .ok 2 ∧
    fluxSum rod unitRod (5 / 2) [[0, 4]] [1, 1] [0, 4] ^ (1 / (5 / 2) : ℝ) < 2 := by
  have ht : toOrdinal (5 / 2) = 2 := by
    unfold toOrdinal
    rw [if_pos (by norm_num), Int.floor_eq_iff]
    norm_num
  refine ⟨?_, ?_⟩
  · rw [C87_norm rod_ok unitRod_ok (fun _ => IsSchedule.range _) (by simp [rod]) rfl rfl (seqSch_ok rod 1 2),
      ht, rod_fluxSum]
    congr 1
    rw [show (4 : ℝ) = 2 ^ (2 : ℝ) by norm_num, ← Real.rpow_mul (by norm_num)]
    norm_num
  · rw [rod_fluxSum]
    calc (4 : ℝ) ^ (1 / (5 / 2) : ℝ) < 4 ^ (1 / 2 : ℝ) :=
          Real.rpow_lt_rpow_of_exponent_lt (by norm_num) (by norm_num)
      _ = 2 := by
          rw [show (4 : ℝ) = 2 ^ (2 : ℝ) by norm_num, ← Real.rpow_mul (by norm_num)]
          norm_num

/-- The conduction form of a rod of unit length at the temperatures 0 and 1. -/
theorem rod_conduction_self : conduction rod rodThermal [1, 1] [0, 1] (at0 [0, 1]) (at0 [0, 1]) = 1 := by
  unfold conduction
  rw [show rod.domains.length = 1 from rfl, sum_range_one,
    show rod.size (rod.part 0) = 1 from rfl, sum_range_one, show gcell (rod.part 0) 0 = 0 by decide]
  unfold cellConduction
  rw [show (rodThermal 0).d = 1 from rfl, sum_range_one, sum_range_one, rod_density, rod_grad _ rfl one_ne_zero,
    rod_volume rfl (by simp [rodThermal, exThermal])]
  have cnd : ∀ T, (rodThermal 0).law.cond T 0 0 = 1 := by
    intro T
    norm_num [rodThermal, exThermal, rodLaw, FluxLaw.cond, diagTable]
  rw [cnd, show (rodThermal 0).pen = id from rfl]
  norm_num

/-- **C87 is false** for the conductivity 1 declared as temperature dependent: conduction in the rod at the
temperatures 0 and 1, which drives the residual (C57), is one, and the internal thermal energy is zero. -/
theorem C87_rod_false (dt : ℝ) :
    (∀ k, FluxLaw.ofInput (rodThermal k).d true (.number 1) = .ok (rodThermal k).law) ∧
    conduction rod rodThermal [1, 1] [0, 1] (at0 [0, 1]) (at0 [0, 1]) = 1 ∧
    physicsValue rod (thermalEnergy abs rodThermal fun k => List.range (rod.size (rod.part k))) Post.none
      (seqSch rod 2) [[0, 1]] [1, 1] [0, 1] dt = .ok 0 := by
  have ht : toOrdinal 2 ≠ 0 := by
    unfold toOrdinal
    norm_num
  exact ⟨fun _ => rfl, rod_conduction_self, (C87_nonlinear_false rod_ok rodThermal_ok (fun _ => IsSchedule.range _)
    (by simp [rod]) rfl rfl (seqSch_ok rod 1 2) (fun k _ => ⟨.number 1, rfl⟩) dt ht fun m => List.range m).1⟩

/-- A case of the theorems on values and derivatives: the rod of length four meets their hypotheses, with an
exponent of three. -/
example : rod.Ok ∧ ThermOk rod unitRod ∧ (∀ k, (unitRod k).law.nonlinear = false) ∧
    (∀ c, c < rod.nc → goodFlux rod unitRod (fun _ => id) 3 (cellS rod [0, 4] c) (rod.cellZ [1, 1] c)
      (rod.cellX [0, 4] c)) ∧ fluxSum rod unitRod 3 [[0, 4]] [1, 1] [0, 4] ≠ 0 := by
  refine ⟨rod_ok, unitRod_ok, fun _ => rfl, fun c hc => ⟨⟨?_, fun k _ => penOk_id _⟩, fun _ _ => .inr (by norm_num)⟩,
    by rw [rod_fluxSum]; norm_num⟩
  have hc : c < 1 := hc
  interval_cases c
  show (_ : ℝ) ≠ 0
  norm_num [rod, detForm, edge, FeModel.cellX, cellNode, FeModel.npc, at0, atN]

end Plato.HeatCrit
