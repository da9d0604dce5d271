import Verif.TmCrit.Props
import Verif.TmCrit.Material

/-!
# C90 and C91 in concrete cases
-/

namespace Plato.TmCrit
open Finset Plato Plato.Mech Plato.Thermal Plato.Dyn Plato.Tm Plato.Crit Plato.Trans

/-- Isotropic expansion with unit coefficient, reference temperature zero. -/
noncomputable def slabIso : Tm ℝ := slabTm (fun i j => if i = j then 1 else 0) 0 1

theorem slabIso_ok : TmOk slab fun _ => slabIso := slabTm_ok _ _ _

/-- One degree, and half of the displacements of the free expansion. -/
noncomputable def slabHalf : List ℝ := [0, 0, 1, 1 / 2, 0, 1, 0, 1 / 2, 1, 1 / 2, 1 / 2, 1]

/-- **The sign is wrong** on the square of two triangles: the hypotheses of `C90_sign_false` hold. -/
theorem C90_slab_negative (dt : ℝ) (w : Nat) :
    (physicsValue slab (thermoelasticEnergy abs (fun _ => slabIso) fun k => List.range (slab.size (slab.part k)))
      Post.none (seqSch slab w) [slabHalf] [1, 1, 1, 1] slabX dt).Sat fun v => v < 0 := by
  refine C90_sign_false slab_ok slabIso_ok (fun k => IsSchedule.range _) rfl rfl rfl (seqSch_ok slab 1 w)
    (fun k _ => slabTm_basis _ _ _) (fun c hc => slab_det hc) (T := 1) (θ := 1) one_ne_zero ?_ ?_ ?_ ?_ ?_ ?_
    ⟨0, 0, by decide, by decide⟩ dt
  · intro k i j _ hi hj
    simp [slabIso, slabTm, slabLaw, constTable, Table.at]
  · intro n hn
    have hn : n < 4 := hn
    interval_cases n <;> norm_num [slab, slabHalf, at0]
  · intro n i hn hi
    have hn : n < 4 := hn
    have hi : i < 2 := hi
    interval_cases n <;> interval_cases i <;> norm_num [slab, slabHalf, slabX, at0]
  · intro k _
    norm_num [slabIso, slabTm]
  · intro k c hk hc
    have hk : k < 2 := hk
    interval_cases k <;>
    · have hc : c < 1 := hc
      interval_cases c
      norm_num [slabIso, slabTm, meanDensity, FeModel.cellZ, slab, cellNode, FeModel.npc, FeModel.part, gcell, atN, at0,
        sum_range_succ]
  · intro k _
    refine lt_of_lt_of_eq (b := 2) (by norm_num) ?_
    rw [show slab.dim = 2 from rfl]
    simp only [sum_range_succ, sum_range_zero, slabIso, slabTm, slabLaw, constTable, Table.at]
    norm_num

/-- The hypotheses of the positive theorems on C90 hold there, for any temperatures and displacements. -/
example (u : Fin (slab.nn * slab.ndof) → ℝ) (z : Fin slab.nn → ℝ) (dt : ℝ) (w : Nat)
    (x : Fin (slab.nn * slab.dim) → ℝ) (hx : ∀ c, c < slab.nc → detForm slab.dim (slab.cellX (List.ofFn x) c) ≠ 0) :
    Differentiates (physicsCriterion slab
      (thermoelasticEnergy abs (fun _ => slabIso) fun k => List.range (slab.size (slab.part k)))
      (thermoelasticEnergy Fad.fabs (fun _ => slabIso.lift id) fun k => List.range (slab.size (slab.part k)))
      (thermoelasticEnergy Fad.fabs (fun _ => slabIso.lift id) fun k => List.range (slab.size (slab.part k)))
      (thermoelasticEnergy Fad.fabs (fun _ => slabIso.lift id) fun k => List.range (slab.size (slab.part k)))
      Post.none (seqSch slab w) (seqSch slab (slab.npc * slab.dim)) (seqSch slab (slab.npc * slab.ndof))
      (seqSch slab (slab.npc * 1))) (slab.nn * slab.dim) (slab.nn * slab.ndof) slab.nn [List.ofFn u] z x 0 u dt :=
  C90_gradient slab_ok slabIso_ok (penF := fun _ => id) (fun k => IsSchedule.range _) (fun k => IsSchedule.range _)
    (fun k => IsSchedule.range _) (fun k => IsSchedule.range _) dt rfl (by simp)
    (fun c hc => ⟨hx c hc, fun k _ => penOk_id _⟩) (seqSch_ok slab 1 _) (seqSch_ok slab 1 _) (seqSch_ok slab 1 _)
    (seqSch_ok slab 1 _)

/-! ## Input -/

/-- Steel: the material list of an input deck, with a number or a list for Young's modulus. -/
noncomputable def steel (tempDep youngList : Bool) : PList where
  val q :=
    if q = ["Elastic Stiffness", "Youngs Modulus"] ∧ youngList = false then some (.scalar 200)
    else if q = ["Elastic Stiffness", "Youngs Modulus", "c0"] ∧ youngList = true then some (.scalar 200)
    else if q = ["Elastic Stiffness", "Youngs Modulus", "c1"] ∧ youngList = true then some (.scalar (-1 / 10))
    else if q = ["Elastic Stiffness", "Poissons Ratio"] then some (.scalar (3 / 10))
    else if q = ["Thermal Expansivity"] then some (.scalar 12)
    else if q = ["Thermal Conductivity"] then some (.scalar 45)
    else none
  flag q := if q = ["Temperature Dependent"] then some tempDep else none
  isSub q := q == ["Elastic Stiffness"] || (q == ["Elastic Stiffness", "Youngs Modulus"] && youngList)

/-- The hypotheses of C91 hold for steel, in all four combinations. -/
example :
    ((thermoelasticMaterial 3 (steel false false)).Sat fun L => ∀ T,
      Material.Hooke 3 (Material.lame 200 (3 / 10)) (Material.shear 200 (3 / 10)) (stiffAt 3 L T)) ∧
    ((thermoelasticMaterial 3 (steel true true)).Sat fun L => ∀ T,
      Material.Hooke 3 (Material.lame (200 + -1 / 10 * T + 0 * T ^ 2) (3 / 10))
        (Material.shear (200 + -1 / 10 * T + 0 * T ^ 2) (3 / 10)) (stiffAt 3 L T)) ∧
    ((thermoelasticMaterial 3 (steel true false)).Sat fun L => ∀ T i j, L.stiff.at L.nonlinear T i j = 0) ∧
    ((thermoelasticMaterial 3 (steel false true)).Sat fun L => ∀ T i j, L.stiff.at L.nonlinear T i j = 0) := by
  refine ⟨?_, ?_, ?_, ?_⟩
  · refine (C91_constant (.inr rfl) (p := steel false false) (by decide) (α := 12) (κ := 45) (by simp [steel])
      (by simp [steel]) (E := 200) (v := 3 / 10) (by simp [steel]) (by decide) (by simp [steel]) (by simp [steel])
      (by norm_num) (by norm_num)).mono fun L hL T => (hL.2.1 T).2
  · refine (C91_temperature (.inr rfl) (p := steel true true) (by decide) (α := 12) (κ := 45) (by simp [steel])
      (by simp [steel]) (v := 3 / 10) (E0 := 200) (by simp [steel]) (by decide) (by simp [steel]) (by simp [steel])
      (by norm_num) (by norm_num)).mono fun L hL T => ?_
    have := (hL.2.1 T).2
    have e1 : (((steel true true).sub "Elastic Stiffness").sub "Youngs Modulus").params.getD "c1" 0 = -1 / 10 := by
      simp [PList.sub, PList.params, Material.Params.getD, steel]
    have e2 : (((steel true true).sub "Elastic Stiffness").sub "Youngs Modulus").params.getD "c2" 0 = 0 := by
      simp [PList.sub, PList.params, Material.Params.getD, steel]
    rwa [e1, e2] at this
  · exact C91_number_false (.inr rfl) (p := steel true false) (by decide) (α := 12) (κ := 45) (by simp [steel])
      (by simp [steel]) (E := 200) (v := 3 / 10) (by simp [steel]) (by decide) (by simp [steel]) (by simp [steel])
      (by norm_num) (by norm_num)
  · exact C91_list_false (.inr rfl) (p := steel false true) (by decide) (α := 12) (κ := 45) (by simp [steel])
      (by simp [steel]) (v := 3 / 10) (E0 := 200) (by simp [steel]) (by decide) (by simp [steel]) (by simp [steel])
      (by norm_num) (by norm_num)

/-- A whole input deck with steel, whose criterion asks to leave the thermal strain out. -/
noncomputable def deck : PList where
  val
    | "Material Models" :: "steel" :: "Thermoelastic" :: q => (steel false false).val q
    | _ => none
  flag
    | ["Energy", "Include Thermal Strain"] => some false
    | "Material Models" :: "steel" :: "Thermoelastic" :: q => (steel false false).flag q
    | _ => none
  isSub
    | ["Material Models"] => true
    | ["Material Models", "steel"] => true
    | ["Material Models", "steel", "Thermoelastic"] => true
    | "Material Models" :: "steel" :: "Thermoelastic" :: q => (steel false false).isSub q
    | _ => false

/-- **The option has no effect**: the criterion asks to leave the thermal strain out, and its material expands. -/
theorem C90_option_steel : (energyMaterial 3 deck "Energy" "steel").Sat fun L => ∀ T, L.expand.at L.nonlinear T 0 0 = 12 := by
  rw [(C90_option_false 3 deck "Energy" "steel" none).2 rfl rfl]
  have e : createMaterial 3 deck "steel" = thermoelasticMaterial 3 (steel false false) := by
    unfold createMaterial
    rw [if_neg (by decide)]
    dsimp only
    rw [if_neg (by decide), if_pos (by decide)]
    unfold thermoelasticMaterial parseStiffness parseTable PList.property
    rfl
  rw [e]
  refine (C91_constant (.inr rfl) (p := steel false false) (by decide) (α := 12) (κ := 45) (by simp [steel])
      (by simp [steel]) (E := 200) (v := 3 / 10) (by simp [steel]) (by decide) (by simp [steel]) (by simp [steel])
      (by norm_num) (by norm_num)).mono fun L hL T => ?_
  rw [hL.2.2.1]
  simp

end Plato.TmCrit
