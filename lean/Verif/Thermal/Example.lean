import Verif.Thermal.Heat
import Verif.Mech.LoadFalse

/-!
# Concrete cases for heat conduction

A plate of two domains meets the hypotheses of the theorems on C46, C57 and C58, and a rod shows that the
same temperature dependent conductivity that drives a steady problem is absent from the transient one.
-/

namespace Plato.Thermal
open Finset Plato Plato.Mech

/-- A square of two triangles, each a domain, one unknown per node. -/
def plate : FeModel :=
  ⟨2, 1, 2, 4, [0, 1, 2, 1, 3, 2], [0, 2, 5, 8, 10], [1, 2, 0, 2, 3, 0, 1, 3, 1, 2], [[0], [1]]⟩

theorem plate_ok : plate.Ok where
  dim := by decide
  ndof := by decide
  mesh := ⟨by decide, by decide⟩
  adj := ⟨by decide, by decide, by decide, by decide, by decide⟩
  graph := by
    intro cell a b hc ha hb
    have ha : a < 3 := ha
    have hb : b < 3 := hb
    have hc : cell < 2 := hc
    interval_cases cell <;> interval_cases a <;> interval_cases b <;> decide
  some_domain := by decide
  cells := by decide

theorem parSeq_ok (M : FeModel) (w : Nat) : ParSchedOk M (seqSched M w) w :=
  ⟨seqSched_ok M w, fun k _ => by
    rw [show seqSched M w k 4 = List.range (M.size (M.part k)) from if_neg (by omega)]
    exact IsSchedule.range _⟩

/-- Members for a conductivity `law` and a mass `mass`, no body loads, no penalty. -/
noncomputable def exThermal (d : Nat) (law : FluxLaw ℝ) (mass : MassLaw ℝ) : Thermal ℝ :=
  ⟨d, if d = 1 then 1 else 1 / 2, List.replicate (d + 1) (1 / ((d : ℝ) + 1)), law, mass, id, []⟩

theorem exThermal_basis {d : Nat} (law : FluxLaw ℝ) (mass : MassLaw ℝ) :
    ∑ n ∈ range (d + 1), at0 (exThermal d law mass).basis n = 1 := by
  have e : ∀ n ∈ range (d + 1), at0 (exThermal d law mass).basis n = 1 / ((d : ℝ) + 1) := by
    intro n hn
    unfold exThermal
    rw [at0_eq (by rw [List.length_replicate]; exact mem_range.1 hn), List.getElem_replicate]
  rw [sum_congr rfl e, sum_const, card_range, nsmul_eq_mul]
  push_cast
  have : (d : ℝ) + 1 ≠ 0 := by positivity
  field_simp

/-- Conductivity of a number in the first domain, an anisotropic table in the second. -/
noncomputable def plateLaw (k : Nat) : FluxLaw ℝ :=
  if k = 0 then ⟨false, diagTable 2 3, fun _ _ => 0, fun _ _ => 0, fun _ _ => 0⟩
  else ⟨false, fun i j => if i = j then 2 else 1, fun _ _ => 0, fun _ _ => 0, fun _ _ => 0⟩

/-- Density and heat capacity grow with temperature. -/
noncomputable def plateMass : MassLaw ℝ := ⟨true, ⟨1, 1, 0⟩, ⟨2, 0, 1⟩, 0, 0⟩

/-- The hypotheses of C57 and C58 hold for the plate: its members, every cell, symmetric conductivities, the
basis, and at the temperature 1 the heat content grows with temperature. -/
example : plate.Ok ∧ ThermOk plate (fun k => exThermal 2 (plateLaw k) plateMass) ∧
    (∀ c, c < plate.nc → thermGood plate (fun k => exThermal 2 (plateLaw k) plateMass) (fun _ => id)
      (plate.cellZ [1, 1, 1, 1] c) (plate.cellX [0, 0, 1, 0, 0, 1, 1, 1] c)) ∧
    (∀ k i j, (plateLaw k).const i j = (plateLaw k).const j i) ∧
    (∀ k, (plateLaw k).nonlinear = false) ∧
    (∀ k, ∑ n ∈ range 3, at0 (exThermal 2 (plateLaw k) plateMass).basis n = 1) ∧
    0 ≤ plateMass.rateOf 1 1 := by
  refine ⟨plate_ok, ⟨.inr (.inl rfl), rfl, fun _ _ => rfl, fun _ _ => rfl, fun _ _ _ B hB => by cases hB⟩,
    fun c hc => ?_, fun k i j => ?_, fun k => ?_, fun k => exThermal_basis _ _, ?_⟩
  · have hc : c < 2 := hc
    interval_cases c <;> refine ⟨?_, fun k _ => penOk_id _⟩ <;> show (_ : ℝ) ≠ 0 <;>
      norm_num [detForm, edge, FeModel.cellX, plate, cellNode, FeModel.npc, at0, atN]
  · unfold plateLaw
    split_ifs
    · exact diagTable_symm _ _ _ _
    · simp only [eq_comm]
  · unfold plateLaw
    split_ifs <;> rfl
  · norm_num [plateMass, MassLaw.rateOf, Quad.at]

/-- Views that meet the hypotheses of the theorems on C46. -/
example : ∃ out' tmp', projectN 2 2 0 0 [(3 : ℝ)] [1 / 2, 1 / 2] ⟨1, 2, fun _ i => i⟩ ⟨1, 4, fun _ _ => 0⟩ (-1) =
      .ok out' ∧
    interpolateN 2 2 0 2 0 [1 / 2, 1 / 2] ⟨1, 4, fun _ l => (l : ℝ)⟩ ⟨1, 2, fun _ _ => 0⟩ = .ok tmp' := by
  obtain ⟨o, t, h1, h2, -⟩ := C46_adjoint (npc := 2) (ndof := 2) (off := 0) (c := 0) (vol := [(3 : ℝ)])
    (basis := [1 / 2, 1 / 2]) (state := ⟨1, 2, fun _ i => i⟩) (tmp := ⟨1, 2, fun _ _ => 0⟩)
    (out := ⟨1, 4, fun _ _ => 0⟩) (W := ⟨1, 4, fun _ l => (l : ℝ)⟩) (scale := -1) (by decide) (by simp) (by simp)
    (by decide) (by decide) rfl (by decide) (by decide) (by decide) rfl
  exact ⟨o, t, h1, h2⟩

/-! ## The rod -/

/-- Conductivity one, declared temperature dependent. -/
noncomputable def rodLaw : FluxLaw ℝ := ⟨true, fun _ _ => 0, diagTable 1 1, fun _ _ => 0, fun _ _ => 0⟩

noncomputable def rodThermal : Nat → Thermal ℝ := fun _ => exThermal 1 rodLaw ⟨true, ⟨1, 0, 0⟩, ⟨1, 0, 0⟩, 0, 0⟩

theorem rodThermal_ok : ThermOk rod rodThermal :=
  ⟨.inl rfl, rfl, fun _ _ => rfl, fun _ _ => rfl, fun _ _ _ B hB => by cases hB⟩

theorem rod_conduction : conduction rod rodThermal [1, 1] [0, 1] (at0 [0, 1]) (Pi.single 0 1) = -1 := by
  unfold conduction
  rw [show rod.domains.length = 1 from rfl, sum_range_one, show rod.size (rod.part 0) = 1 from rfl, sum_range_one]
  have g0 : gcell (rod.part 0) 0 = 0 := by decide
  rw [g0]
  have X0 : rod.cellX [(0 : ℝ), 1] 0 = fun a i => at0 [(0 : ℝ), 1] (rod.dim * cellNode rod.npc rod.c2n 0 a + i) := rfl
  have m : meanDensity (1 + 1) (rod.cellZ [(1 : ℝ), 1] 0) = 1 := by
    norm_num [meanDensity, rod, FeModel.cellZ, cellNode, sum_range_succ, at0, atN, FeModel.npc]
  have e : detForm 1 (rod.cellX [(0 : ℝ), 1] 0) = -1 := by
    show (_ : ℝ) = _
    norm_num [rod, detForm, edge, FeModel.cellX, cellNode, FeModel.npc, at0, atN]
  have k0 : gradForm 1 (rod.cellX [(0 : ℝ), 1] 0) 0 0 = -1 := by
    unfold gradForm
    rw [if_pos (by decide), e]
    norm_num [cofForm]
  have k1 : gradForm 1 (rod.cellX [(0 : ℝ), 1] 0) 1 0 = 1 := by
    unfold gradForm
    rw [if_neg (by decide), sum_range_one, e]
    norm_num [cofForm]
  have n0 : cellNode rod.npc rod.c2n 0 0 = 0 := by decide
  have n1 : cellNode rod.npc rod.c2n 0 1 = 1 := by decide
  have d1 : (rodThermal 0).d = 1 := rfl
  have pid : (rodThermal 0).pen = id := rfl
  have vw : (rodThermal 0).cubWeight = 1 := by
    simp [rodThermal, exThermal]
  have cnd : ∀ T, (rodThermal 0).law.cond T 0 0 = 1 := by
    intro T
    norm_num [rodThermal, exThermal, rodLaw, FluxLaw.cond, diagTable]
  unfold cellConduction Thermal.volForm Thermal.gradT scalarField
  rw [d1, pid, vw, m, e]
  simp only [sum_range_succ, sum_range_zero, k0, k1, cnd, onCell, n0, n1, Pi.single_eq_same]
  norm_num [at0, atN]

/-- **C58 is false** for a conductivity given in the input as temperature dependent: on a rod with the
temperatures 0 and 1 the steady residual of the same material, mesh and temperature is −1 at the first
node, and the residual of the heat equation with a rate of zero vanishes. -/
theorem C58_rod_false : ∃ (M : FeModel) (P : Nat → Thermal ℝ) (eS schS sch : Nat → Nat → List Nat)
    (eR : Nat → List Nat) (u v z x r r' : List ℝ), M.Ok ∧ ThermOk M P ∧
      (∀ k, FluxLaw.ofInput (P k).d true (.number 1) = .ok (P k).law) ∧
      M.value (thermostatic abs M P eS) schS u z x = .ok r ∧
      parValue M (heatEquation abs M P eR) sch u v z x = .ok r' ∧ (∀ q, at0 v q = 0) ∧
      at0 r 0 = -1 ∧ ∀ q, q < M.nn → at0 r' q = 0 := by
  have hin : ∀ k, FluxLaw.ofInput (rodThermal k).d true (.number 1) = .ok (rodThermal k).law := fun _ => rfl
  have h0 : ∀ q, at0 [(0 : ℝ), 0] q = 0 := by
    intro q
    rcases q with _ | _ | q <;> rfl
  obtain ⟨r, e, -, hw⟩ := C57_work (M := rod) rod_ok rodThermal_ok
    (eR := fun k _ => List.range (rod.size (rod.part k))) (fun _ _ => IsSchedule.range _)
    (u := [0, 1]) (z := [1, 1]) (x := [0, 1]) rfl rfl rfl (seqSched_ok rod (rod.npc * rod.ndof))
  obtain ⟨r', e', h'⟩ := C58_conduction_false (M := rod) rod_ok rodThermal_ok
    (eR := fun k => List.range (rod.size (rod.part k))) (fun _ => IsSchedule.range _)
    (u := [0, 1]) (v := [0, 0]) (z := [1, 1]) (x := [0, 1]) rfl rfl rfl rfl (parSeq_ok rod (rod.npc * rod.ndof))
    (fun k _ => ⟨_, hin k⟩) h0
  refine ⟨rod, rodThermal, _, _, _, _, _, _, _, _, r, r', rod_ok, rodThermal_ok, hin, e, e', h0, ?_, h'⟩
  have h1 := hw (Pi.single 0 1)
  simp only [mul_comm (at0 _ _)] at h1
  rw [sum_single_left (by decide), rod_conduction] at h1
  rw [h1]
  have : source rod rodThermal [1, 1] (Pi.single 0 1) = 0 :=
    sum_eq_zero fun k _ => sum_eq_zero fun c _ => rfl
  rw [this, sub_zero]

end Plato.Thermal
