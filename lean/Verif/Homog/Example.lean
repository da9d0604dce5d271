import Verif.Homog.Props
import Verif.Crit.NormProps

/-!
# Concrete case for C88: a rod of two elements of different stiffness
-/

namespace Plato.Homog
open Finset Plato Plato.Mech Plato.Crit

/-- A rod of two elements. -/
def rod2 : FeModel := ⟨1, 1, 2, 3, [0, 1, 1, 2], [0, 1, 3, 4], [1, 0, 2, 1], [[0, 1]]⟩

theorem rod2_ok : rod2.Ok where
  dim := by decide
  ndof := by decide
  mesh := ⟨by decide, by decide⟩
  adj := ⟨by decide, by decide, by decide, by decide, by decide⟩
  graph := by
    intro cell a b hc ha hb
    have ha : a < 2 := ha
    have hb : b < 2 := hb
    have hc : cell < 2 := hc
    interval_cases cell <;> interval_cases a <;> interval_cases b <;> decide
  some_domain := by decide
  cells := by decide

/-- Unit material with the unit forcing. -/
def cellMat : Nat → Elastostatic ℝ := fun _ => ⟨1, fun i j => if i = j then 1 else 0, fun _ => 0, id, 1, some 0, []⟩

theorem cellMat_ok : ResOk rod2 cellMat := ⟨.inl rfl, rfl, fun _ _ => rfl, fun _ _ _ B hB => by cases hB⟩

theorem cellMat_problem : CellProblem rod2 cellMat 0 :=
  ⟨fun _ _ => Nat.one_pos, fun _ _ => rfl, fun _ _ _ _ => rfl, fun _ _ => rfl⟩

theorem cellMat_symm : Symm rod2 cellMat := by
  intro k t s _ _ _
  simp [cellMat, eq_comm]

theorem rod2_strain (w : Nat → ℝ) : strainOf rod2 cellMat [0, 1, 2] w 0 0 0 = w 1 - w 0 ∧
    strainOf rod2 cellMat [0, 1, 2] w 0 1 0 = w 2 - w 1 := by
  constructor <;>
  · norm_num [strainOf, Elastostatic.strainForm, cellMat, voigtStrain, fieldGrad, FeModel.cellX, rod2, cellDof, cellNode,
      FeModel.npc, sum_range_succ, gradForm, cofForm, detForm, edge, at0, atN, voigtPair, numVoigt, FeModel.part, gcell]
    ring

theorem rod2_vol : (cellMat 0).volForm abs (rod2.cellX [0, 1, 2] 0) = 1 ∧
    (cellMat 0).volForm abs (rod2.cellX [0, 1, 2] 1) = 1 := by
  constructor <;>
  norm_num [Elastostatic.volForm, cellMat, detForm, edge, FeModel.cellX, rod2, cellNode, FeModel.npc, at0, atN]

theorem rod2_density : meanDensity (1 + 1) (rod2.cellZ [(1 : ℝ), 1, 3] 0) = 1 ∧
    meanDensity (1 + 1) (rod2.cellZ [(1 : ℝ), 1, 3] 1) = 2 := by
  constructor <;>
  norm_num [meanDensity, rod2, FeModel.cellZ, cellNode, sum_range_succ, at0, atN, FeModel.npc]

/-- The stiffness form of the two elements. -/
theorem rod2_stored (f g : Nat → Nat → Nat → ℝ) : stored rod2 cellMat [1, 1, 3] [0, 1, 2] f g =
    f 0 0 0 * g 0 0 0 + 2 * (f 0 1 0 * g 0 1 0) := by
  unfold stored
  rw [show rod2.domains.length = 1 from rfl, sum_range_one, show rod2.size (rod2.part 0) = 2 from rfl, sum_range_succ,
    sum_range_one, show gcell (rod2.part 0) 0 = 0 by decide, show gcell (rod2.part 0) 1 = 1 by decide]
  rw [show numVoigt (cellMat 0).d = 1 from rfl]
  simp only [sum_range_one]
  rw [rod2_vol.1, rod2_vol.2, show (cellMat 0).d = 1 from rfl, rod2_density.1, rod2_density.2,
    show (cellMat 0).pen = id from rfl, show (cellMat 0).stiff 0 0 = 1 by simp [cellMat]]
  simp only [id]
  ring

theorem cellMat_pos : Semidefinite rod2 cellMat [1, 1, 3] := by
  refine ⟨fun _ _ => zero_le_one, ?_, ?_⟩
  · intro k c hk hc
    have hk : k < 1 := hk
    have hk : k = 0 := by omega
    subst hk
    have hc : c < 2 := hc
    have hc : c = 0 ∨ c = 1 := by omega
    rcases hc with rfl | rfl
    · rw [show gcell (rod2.part 0) 0 = 0 by decide, show (cellMat 0).d = 1 from rfl, rod2_density.1]
      exact zero_le_one
    · rw [show gcell (rod2.part 0) 1 = 1 by decide, show (cellMat 0).d = 1 from rfl, rod2_density.2]
      exact zero_le_two
  · intro k g _
    rw [show numVoigt (cellMat k).d = 1 from rfl]
    simp only [sum_range_one]
    rw [show (cellMat k).stiff 0 0 = 1 by simp [cellMat], mul_one]
    exact mul_self_nonneg _

/-- A case of C88: two elements of stiffness 1 and 2.  The displacement (0, -1/3, 0) solves the cell problem among
the displacements with equal ends, and the effective energy is 8/3, twice the harmonic mean 4/3, below twice the
arithmetic mean, 3. -/
theorem C88_rod (dt : ℝ) : ∃ r, rod2.value (elastostatic abs rod2 cellMat (fun _ _ _ => 0)
      fun k _ => List.range (rod2.size (rod2.part k))) (seqSched rod2 2) [0, -1 / 3, 0] [1, 1, 3] [0, 1, 2] = .ok r ∧
    (∀ w : Nat → ℝ, w 0 = w 2 → ∑ q ∈ range (rod2.nn * rod2.ndof), at0 r q * w q = 0) ∧
    physicsValue rod2 (effectiveEnergy abs cellMat 0 (unit 0) fun k => List.range (rod2.size (rod2.part k))) Post.none
      (seqSch rod2 2) [[0, -1 / 3, 0]] [1, 1, 3] [0, 1, 2] dt = .ok (8 / 3) ∧
    stored rod2 cellMat [1, 1, 3] [0, 1, 2] (excess rod2 cellMat [0, 1, 2] 0 0)
      (excess rod2 cellMat [0, 1, 2] 0 0) = 3 := by
  obtain ⟨r, hr, -, hw⟩ := C88_residual rod2_ok cellMat_ok cellMat_problem (init := fun _ _ _ => 0)
    (eR := fun k _ => List.range (rod2.size (rod2.part k))) (fun _ _ => IsSchedule.range _) (u := [0, -1 / 3, 0])
    (z := [1, 1, 3]) (x := [0, 1, 2]) rfl rfl rfl (seqSched_ok rod2 (rod2.npc * rod2.ndof))
  have ex : ∀ w : Nat → ℝ, excess rod2 cellMat [0, 1, 2] 0 w 0 0 0 = 1 - (w 1 - w 0) ∧
      excess rod2 cellMat [0, 1, 2] 0 w 0 1 0 = 1 - (w 2 - w 1) := by
    intro w
    unfold excess
    rw [(rod2_strain w).1, (rod2_strain w).2]
    simp [unit]
  have hw0 : ∀ w : Nat → ℝ, w 0 = w 2 → ∑ q ∈ range (rod2.nn * rod2.ndof), at0 r q * w q = 0 := by
    intro w he
    rw [hw w, rod2_stored, (ex _).1, (ex _).2, (rod2_strain w).1, (rod2_strain w).2, he]
    norm_num [at0]
    ring
  refine ⟨r, hr, hw0, ?_, ?_⟩
  · rw [C88_energy rod2_ok cellMat_ok cellMat_problem (fun _ _ => IsSchedule.range _) (fun _ => IsSchedule.range _) rfl rfl
      rfl (seqSched_ok rod2 _) (seqSch_ok rod2 1 2) cellMat_symm hr (l := 0) (v := at0 [0, -1 / 3, 0]) (hw0 _ rfl) dt,
      rod2_stored, (ex _).1, (ex _).2]
    norm_num [at0]
  · rw [rod2_stored, (ex _).1, (ex _).2]
    norm_num

/-- The hypotheses of `C88_minimum` and `C88_gradient` on the same rod. -/
example : Semidefinite rod2 cellMat [1, 1, 3] ∧ ∀ c, c < rod2.nc →
    goodCell rod2 cellMat (fun _ => id) (rod2.cellZ [1, 1, 3] c) (rod2.cellX [0, 1, 2] c) := by
  refine ⟨cellMat_pos, fun c hc => ⟨?_, fun k _ => penOk_id _⟩⟩
  have hc : c < 2 := hc
  interval_cases c <;>
  · show (_ : ℝ) ≠ 0
    norm_num [detForm, edge, FeModel.cellX, rod2, cellNode, FeModel.npc, at0, atN]

end Plato.Homog
