import Verif.TmCrit.Model
import Verif.Tm.Element
import Verif.Material.Isotropic

/-!
# C91: the material of thermomechanics is the one of the input

Also the option "Include Thermal Strain" of the energy (C90).
-/

namespace Plato.TmCrit
open Finset Plato Plato.Mech Plato.Thermal Plato.Tm
open Plato.Material (Params IsStiffness Hooke lame voigt)

/-- Stiffness of a material at a temperature. -/
def stiffAt (d : Nat) (L : TmLaw ℝ) (T : ℝ) : V2 ℝ := ⟨voigt d, voigt d, fun i j => L.stiff.at L.nonlinear T i j⟩

theorem numVoigt_eq {d : Nat} (hd : d = 2 ∨ d = 3) : numVoigt d = voigt d := by rcases hd with rfl | rfl <;> rfl

/-! ## Stages -/

section
variable {d : Nat} {p : PList}

theorem parseTable_number {nonlinear : Bool} {name : String} {a : ℝ} (ha : p.val [name] = some (.scalar a)) :
    ∃ F, parseTable d nonlinear p name = .ok F ∧ F.n = d ∧
      ∀ T i j, F.at nonlinear T i j = if i = j ∧ i < d then a else 0 := by
  unfold parseTable PList.property FluxLaw.ofInput
  rw [ha]
  cases nonlinear
  · exact ⟨_, rfl, rfl, fun T i j => rfl⟩
  · refine ⟨_, rfl, rfl, fun T i j => ?_⟩
    simp only [Table.at, if_true, mul_zero, zero_add, add_zero]
    rfl

theorem parseTable_missing {nonlinear : Bool} {name : String} (ha : p.val [name] = none) (hs : p.isSub [name] = false) :
    ∃ m, parseTable d nonlinear p name = .err m := by
  unfold parseTable PList.property FluxLaw.ofInput
  rw [ha, hs]
  exact ⟨_, rfl⟩

/-- The whole material, once its three tensors are read. -/
theorem material_ok {nonlinear : Bool} (hn : (p.flag ["Temperature Dependent"]).getD false = nonlinear)
    {C A K : Table ℝ} (hC : parseStiffness d nonlinear p = .ok C)
    (hA : parseTable d nonlinear p "Thermal Expansivity" = .ok A)
    (hK : parseTable d nonlinear p "Thermal Conductivity" = .ok K) :
    thermoelasticMaterial d p = .ok ⟨nonlinear, C, A, K, p.params.getD "Reference Temperature" 23,
      p.params.getD "Temperature Scaling" 1⟩ := by
  subst hn
  unfold thermoelasticMaterial
  dsimp only
  rw [hC, Res.ok_bind, hA, Res.ok_bind, hK, Res.ok_bind]
  rfl

end

section
variable {d : Nat} (hd : d = 2 ∨ d = 3) {p : PList} (hE : p.isSub ["Elastic Stiffness"] = true)
  {α κ : ℝ} (hα : p.val ["Thermal Expansivity"] = some (.scalar α))
  (hκ : p.val ["Thermal Conductivity"] = some (.scalar κ))
include hd hE hα hκ

/-- **C91, constant properties**: with numbers for Young's modulus, Poisson's ratio, expansivity and conductivity the
material is isotropic with these numbers at every temperature.  Reference temperature and scaling are those of the
input, or 23 and 1. -/
theorem C91_constant {E v : ℝ} (hn : (p.flag ["Temperature Dependent"]).getD false = false)
    (hys : p.isSub ["Elastic Stiffness", "Youngs Modulus"] = false)
    (hy : p.val ["Elastic Stiffness", "Youngs Modulus"] = some (.scalar E))
    (hv : p.val ["Elastic Stiffness", "Poissons Ratio"] = some (.scalar v)) (h1 : 1 + v ≠ 0) (h2 : 1 - 2 * v ≠ 0) :
    (thermoelasticMaterial d p).Sat fun L => L.Ok d ∧
      (∀ T, IsStiffness d (stiffAt d L T) ∧ Hooke d (lame E v) (Material.shear E v) (stiffAt d L T)) ∧
      (∀ T i j, L.expand.at L.nonlinear T i j = if i = j ∧ i < d then α else 0) ∧
      (∀ T i j, L.cond.at L.nonlinear T i j = if i = j ∧ i < d then κ else 0) ∧
      L.tref = p.params.getD "Reference Temperature" 23 ∧ L.scale = p.params.getD "Temperature Scaling" 1 := by
  obtain ⟨A, eA, nA, hA⟩ := parseTable_number (d := d) (nonlinear := false) hα
  obtain ⟨K, eK, nK, hK⟩ := parseTable_number (d := d) (nonlinear := false) hκ
  obtain ⟨C, eC, hC, hH⟩ := Material.C40_isotropic_constant (d := d) (.inr hd) (p := (p.sub "Elastic Stiffness").params)
    (E := E) (v := v) hy hv h1 h2
  have hS : parseStiffness d false p = .ok ⟨numVoigt d, C.e, noStiff, noStiff, noStiff⟩ := by
    unfold parseStiffness
    rw [if_neg (by rw [hE]; decide)]
    dsimp only
    rw [if_neg (by show ¬p.isSub ["Elastic Stiffness", "Youngs Modulus"] = true; rw [hys]; decide), if_pos ?_, eC,
      Res.ok_bind]
    · rfl
    · unfold Material.Params.isScalar
      rw [show (p.sub "Elastic Stiffness").params "Youngs Modulus" = _ from hy]
  refine ⟨_, material_ok hn hS eA eK, ⟨rfl, nA, nK⟩, fun T => ?_, hA, hK, rfl, rfl⟩
  have e : stiffAt d ⟨false, ⟨numVoigt d, C.e, noStiff, noStiff, noStiff⟩, A, K,
      p.params.getD "Reference Temperature" 23, p.params.getD "Temperature Scaling" 1⟩ T = C := by
    obtain ⟨r, c, e⟩ := C
    obtain ⟨hr, hc, -⟩ := hC
    dsimp only at hr hc
    subst hr hc
    rfl
  rw [e]
  exact ⟨hC, hH⟩

omit hα hκ in
theorem functor_ok {nonlinear : Bool} {v E0 : ℝ} (hys : p.isSub ["Elastic Stiffness", "Youngs Modulus"] = true)
    (hy0 : p.val ["Elastic Stiffness", "Youngs Modulus", "c0"] = some (.scalar E0))
    (hv : p.val ["Elastic Stiffness", "Poissons Ratio"] = some (.scalar v)) (h1 : 1 + v ≠ 0) (h2 : 1 - 2 * v ≠ 0) :
    ∃ c0 c1 c2 : V2 ℝ, parseStiffness d nonlinear p = .ok ⟨numVoigt d, noStiff, c0.e, c1.e, c2.e⟩ ∧
      (IsStiffness d c0 ∧ Hooke d (lame E0 v) (Material.shear E0 v) c0) ∧
      (let E1 := ((p.sub "Elastic Stiffness").sub "Youngs Modulus").params.getD "c1" 0
       IsStiffness d c1 ∧ Hooke d (lame E1 v) (Material.shear E1 v) c1) ∧
      (let E2 := ((p.sub "Elastic Stiffness").sub "Youngs Modulus").params.getD "c2" 0
       IsStiffness d c2 ∧ Hooke d (lame E2 v) (Material.shear E2 v) c2) := by
  obtain ⟨c0, e0, g0⟩ := Material.assign_hooke (d := d) (.inr hd) (E := E0) h1 h2
  obtain ⟨c1, e1, g1⟩ := Material.assign_hooke (d := d) (.inr hd)
    (E := ((p.sub "Elastic Stiffness").sub "Youngs Modulus").params.getD "c1" 0) h1 h2
  obtain ⟨c2, e2, g2⟩ := Material.assign_hooke (d := d) (.inr hd)
    (E := ((p.sub "Elastic Stiffness").sub "Youngs Modulus").params.getD "c2" 0) h1 h2
  refine ⟨c0, c1, c2, ?_, g0, g1, g2⟩
  unfold parseStiffness
  rw [if_neg (by rw [hE]; decide)]
  dsimp only
  rw [if_pos (by exact hys)]
  unfold Material.isoFunctor
  rw [if_neg (by omega)]
  have hp : (p.sub "Elastic Stiffness").params.getParam "Poissons Ratio" = .ok v :=
    Material.Params.Has.getParam (p := (p.sub "Elastic Stiffness").params) hv
  have hc : ((p.sub "Elastic Stiffness").sub "Youngs Modulus").params.getParam "c0" = .ok E0 :=
    Material.Params.Has.getParam (p := ((p.sub "Elastic Stiffness").sub "Youngs Modulus").params) hy0
  dsimp only
  rw [hp, Res.ok_bind, hc, Res.ok_bind]
  simp only [Material.isoCoeff'_eq]
  rw [e0, Res.ok_bind, e1, Res.ok_bind, e2, Res.ok_bind]
  rfl

/-- **C91, temperature dependent properties**: with a list for Young's modulus the stiffness at the temperature `T` is
isotropic with the modulus `c0 + c1 T + c2 T²`; coefficients that are not given are zero. -/
theorem C91_temperature {v E0 : ℝ} (hn : p.flag ["Temperature Dependent"] = some true)
    (hys : p.isSub ["Elastic Stiffness", "Youngs Modulus"] = true)
    (hy0 : p.val ["Elastic Stiffness", "Youngs Modulus", "c0"] = some (.scalar E0))
    (hv : p.val ["Elastic Stiffness", "Poissons Ratio"] = some (.scalar v)) (h1 : 1 + v ≠ 0) (h2 : 1 - 2 * v ≠ 0) :
    (thermoelasticMaterial d p).Sat fun L => L.Ok d ∧
      (∀ T, let E := E0 + ((p.sub "Elastic Stiffness").sub "Youngs Modulus").params.getD "c1" 0 * T +
          ((p.sub "Elastic Stiffness").sub "Youngs Modulus").params.getD "c2" 0 * T ^ 2
        IsStiffness d (stiffAt d L T) ∧ Hooke d (lame E v) (Material.shear E v) (stiffAt d L T)) ∧
      (∀ T i j, L.expand.at L.nonlinear T i j = if i = j ∧ i < d then α else 0) ∧
      (∀ T i j, L.cond.at L.nonlinear T i j = if i = j ∧ i < d then κ else 0) ∧
      L.tref = p.params.getD "Reference Temperature" 23 ∧ L.scale = p.params.getD "Temperature Scaling" 1 := by
  obtain ⟨A, eA, nA, hA⟩ := parseTable_number (d := d) (nonlinear := true) hα
  obtain ⟨K, eK, nK, hK⟩ := parseTable_number (d := d) (nonlinear := true) hκ
  obtain ⟨c0, c1, c2, hS, ⟨i0, g0⟩, ⟨i1, g1⟩, ⟨i2, g2⟩⟩ := functor_ok hd hE (nonlinear := true) hys hy0 hv h1 h2
  refine ⟨_, material_ok (by rw [hn]; rfl) hS eA eK, ⟨rfl, nA, nK⟩, fun T => ⟨⟨rfl, rfl, fun i j hi hj => ?_⟩, ?_⟩, hA, hK,
    rfl, rfl⟩
  · simp only [stiffAt, Table.at, if_true]
    rw [i0.symm i j hi hj, i1.symm i j hi hj, i2.symm i j hi hj]
  · intro e t ht
    have k0 := g0 e t ht
    have k1 := g1 e t ht
    have k2 := g2 e t ht
    unfold Material.stress at k0 k1 k2 ⊢
    rw [i0.cols] at k0
    rw [i1.cols] at k1
    rw [i2.cols] at k2
    have : ∑ s ∈ range (voigt d), (T * c1.e t s + c0.e t s + T * T * c2.e t s) * e s =
        T * ∑ s ∈ range (voigt d), c1.e t s * e s + ∑ s ∈ range (voigt d), c0.e t s * e s +
          T * T * ∑ s ∈ range (voigt d), c2.e t s * e s := by
      rw [mul_sum, mul_sum, ← sum_add_distrib, ← sum_add_distrib]
      exact sum_congr rfl fun s _ => by ring
    simp only [stiffAt, Table.at, if_true]
    rw [this, k0, k1, k2]
    unfold lame Material.shear
    generalize ((p.sub "Elastic Stiffness").sub "Youngs Modulus").params.getD "c1" 0 = E1
    generalize ((p.sub "Elastic Stiffness").sub "Youngs Modulus").params.getD "c2" 0 = E2
    split_ifs <;> ring

/-- **C91 is false for a constant modulus in a temperature dependent material**: a number for Young's modulus is
accepted, but the stiffness is zero at all temperatures, and no error is reported. -/
theorem C91_number_false {E v : ℝ} (hn : p.flag ["Temperature Dependent"] = some true)
    (hys : p.isSub ["Elastic Stiffness", "Youngs Modulus"] = false)
    (hy : p.val ["Elastic Stiffness", "Youngs Modulus"] = some (.scalar E))
    (hv : p.val ["Elastic Stiffness", "Poissons Ratio"] = some (.scalar v)) (h1 : 1 + v ≠ 0) (h2 : 1 - 2 * v ≠ 0) :
    (thermoelasticMaterial d p).Sat fun L => ∀ T i j, L.stiff.at L.nonlinear T i j = 0 := by
  obtain ⟨A, eA, nA, hA⟩ := parseTable_number (d := d) (nonlinear := true) hα
  obtain ⟨K, eK, nK, hK⟩ := parseTable_number (d := d) (nonlinear := true) hκ
  obtain ⟨C, eC, -⟩ := Material.C40_isotropic_constant (d := d) (.inr hd) (p := (p.sub "Elastic Stiffness").params)
    (E := E) (v := v) hy hv h1 h2
  have hS : parseStiffness d true p = .ok ⟨numVoigt d, C.e, noStiff, noStiff, noStiff⟩ := by
    unfold parseStiffness
    rw [if_neg (by rw [hE]; decide)]
    dsimp only
    rw [if_neg (by show ¬p.isSub ["Elastic Stiffness", "Youngs Modulus"] = true; rw [hys]; decide), if_pos ?_, eC,
      Res.ok_bind]
    · rfl
    · unfold Material.Params.isScalar
      rw [show (p.sub "Elastic Stiffness").params "Youngs Modulus" = _ from hy]
  refine ⟨_, material_ok (by rw [hn]; rfl) hS eA eK, fun T i j => ?_⟩
  simp [Table.at, noStiff]

/-- **C91 is false for a list in a material that is not temperature dependent**: a list for Young's modulus is
accepted, but the stiffness is zero, and no error is reported. -/
theorem C91_list_false {v E0 : ℝ} (hn : (p.flag ["Temperature Dependent"]).getD false = false)
    (hys : p.isSub ["Elastic Stiffness", "Youngs Modulus"] = true)
    (hy0 : p.val ["Elastic Stiffness", "Youngs Modulus", "c0"] = some (.scalar E0))
    (hv : p.val ["Elastic Stiffness", "Poissons Ratio"] = some (.scalar v)) (h1 : 1 + v ≠ 0) (h2 : 1 - 2 * v ≠ 0) :
    (thermoelasticMaterial d p).Sat fun L => ∀ T i j, L.stiff.at L.nonlinear T i j = 0 := by
  obtain ⟨A, eA, nA, hA⟩ := parseTable_number (d := d) (nonlinear := false) hα
  obtain ⟨K, eK, nK, hK⟩ := parseTable_number (d := d) (nonlinear := false) hκ
  obtain ⟨c0, c1, c2, hS, -⟩ := functor_ok hd hE (nonlinear := false) hys hy0 hv h1 h2
  refine ⟨_, material_ok hn hS eA eK, fun T i j => ?_⟩
  simp [Table.at, noStiff]

omit hα hκ hd hE in
/-- **C91 is false for components**: stiffness components in the list "Elastic Stiffness", whatever their values, are
rejected; the components are looked for in a list "Elastic Stiffness" inside this list. -/
theorem C91_components_false (hy : (p.sub "Elastic Stiffness").params.isScalar "Youngs Modulus" = false)
    (hys : p.isSub ["Elastic Stiffness", "Youngs Modulus"] = false)
    (hnest : p.isSub ["Elastic Stiffness", "Elastic Stiffness"] = false) (d : Nat) :
    ∃ m, thermoelasticMaterial d p = .err m := by
  unfold thermoelasticMaterial parseStiffness
  dsimp only
  cases hp : p.isSub ["Elastic Stiffness"]
  · rw [if_pos rfl]
    exact ⟨_, rfl⟩
  · rw [if_neg (by decide), if_neg (by show ¬p.isSub ["Elastic Stiffness", "Youngs Modulus"] = true; rw [hys]; decide),
      if_neg (by rw [hy]; decide),
      if_neg (by show ¬p.isSub ["Elastic Stiffness", "Elastic Stiffness"] = true; rw [hnest]; decide)]
    exact ⟨_, rfl⟩

omit hd in
/-- Components in the inner list are read. -/
theorem C91_components_partial (hn : (p.flag ["Temperature Dependent"]).getD false = false)
    (hy : (p.sub "Elastic Stiffness").params.isScalar "Youngs Modulus" = false)
    (hys : p.isSub ["Elastic Stiffness", "Youngs Modulus"] = false)
    (hnest : p.isSub ["Elastic Stiffness", "Elastic Stiffness"] = true) {C : V2 ℝ}
    (hC : Material.rank4Constant d ((p.sub "Elastic Stiffness").sub "Elastic Stiffness").params = .ok C) :
    (thermoelasticMaterial d p).Sat fun L => ∀ T i j, L.stiff.at L.nonlinear T i j = C.e i j := by
  obtain ⟨A, eA, nA, hA⟩ := parseTable_number (d := d) (nonlinear := false) hα
  obtain ⟨K, eK, nK, hK⟩ := parseTable_number (d := d) (nonlinear := false) hκ
  have hS : parseStiffness d false p = .ok ⟨numVoigt d, C.e, noStiff, noStiff, noStiff⟩ := by
    unfold parseStiffness
    rw [if_neg (by rw [hE]; decide)]
    dsimp only
    rw [if_neg (by show ¬p.isSub ["Elastic Stiffness", "Youngs Modulus"] = true; rw [hys]; decide),
      if_neg (by rw [hy]; decide), if_pos (by exact hnest), if_neg (by decide), hC, Res.ok_bind]
    rfl
  exact ⟨_, material_ok hn hS eA eK, fun T i j => rfl⟩

end

/-! ## Include Thermal Strain -/

/-- The input with the option "Include Thermal Strain" of a criterion set or left out. -/
def PList.withOption (p : PList) (fn : String) (b : Option Bool) : PList :=
  { p with flag := fun q => if q = [fn, "Include Thermal Strain"] then b else p.flag q }

/-- **C90 is false for the option "Include Thermal Strain"**: the material of the criterion is the same whether the
option is true, false or left out, for every input.  It is the material of the residual. -/
theorem C90_option_false (d : Nat) (p : PList) (fn name : String) (b : Option Bool) :
    energyMaterial d (p.withOption fn b) fn name = energyMaterial d p fn name ∧
    (p.isSub ["Material Models"] = true → p.isSub ["Material Models", name] = true →
      energyMaterial d p fn name = createMaterial d p name) := by
  constructor
  · have key : createMaterial d (p.withOption fn b) name = createMaterial d p name := by
      unfold createMaterial thermoelasticMaterial
      have hf : ((((p.withOption fn b).sub "Material Models").sub name).sub "Thermoelastic").flag ["Temperature Dependent"]
          = (((p.sub "Material Models").sub name).sub "Thermoelastic").flag ["Temperature Dependent"] := by
        simp [PList.sub, PList.withOption]
      dsimp only
      rw [hf]
      rfl
    unfold energyMaterial
    dsimp only
    rw [key]
    rfl
  · intro h1 h2
    unfold energyMaterial
    rw [if_neg (by rw [h1]; decide), if_neg (by rw [h2]; decide)]

end Plato.TmCrit
