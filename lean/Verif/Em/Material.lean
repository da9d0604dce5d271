import Verif.Em.Element
import Verif.Material.Isotropic

/-!
# Material of electromechanics

The constants of the input and what `IsotropicLinearElectroelasticMaterial` makes of them.
-/

namespace Plato.Em
open Finset Plato Plato.Mech Plato.Material

/-- The constants of the input, `a` the value of "Alpha" if there is one. -/
structure Constants (d : Nat) (p : Params) (E v e15 e31 e33 p11 p33 : ℝ) : Prop where
  young : p.Has "Youngs Modulus" E
  poisson : p.Has "Poissons Ratio" v
  e15 : p.Has "e15" e15
  e31 : p.Has "e31" e31
  e33 : p.Has "e33" e33
  p11 : p.Has "p11" p11
  p33 : p.Has "p33" p33

/-- The coupling of a piezoelectric material poled along its last axis: the field along the axis acts on the normal
stresses, by `e33` along and `e31` across; a field across acts on the shear stress in its plane with the axis by
`e15`. -/
def piezoSpec (d : Nat) (e15 e31 e33 : ℝ) (i t : Nat) : ℝ :=
  if (voigtPair d t).1 = (voigtPair d t).2 then
    if i + 1 = d then (if (voigtPair d t).1 + 1 = d then e33 else e31) else 0
  else if i + 1 ≠ d ∧ ((voigtPair d t).1 = i ∧ (voigtPair d t).2 + 1 = d ∨
    (voigtPair d t).2 = i ∧ (voigtPair d t).1 + 1 = d) then e15 else 0

/-- The permittivity: `p33` along the axis, `p11` across. -/
def permSpec (d : Nat) (p11 p33 : ℝ) (i j : Nat) : ℝ :=
  if i = j then (if i + 1 = d then p33 else p11) else 0

/-- A material with Hooke's law, transversely isotropic coupling and permittivity. -/
structure IsElectroelastic (d : Nat) (E v e15 e31 e33 p11 p33 : ℝ) (L : EmLaw ℝ) : Prop where
  symm : ∀ i j, i < voigt d → j < voigt d → L.stiff i j = L.stiff j i
  hooke : ∀ e : Nat → ℝ, ∀ t, t < voigt d → ∑ s ∈ range (voigt d), L.stiff t s * e s =
    if t < d then lame E v * ∑ k ∈ range d, e k + 2 * shear E v * e t else shear E v * e t
  piezo : ∀ i t, i < d → t < voigt d → L.piezo i t = piezoSpec d e15 e31 e33 i t
  perm : ∀ i j, i < d → j < d → L.perm i j = permSpec d p11 p33 i j

section
variable {d : Nat} (hd : d = 1 ∨ d = 2 ∨ d = 3) {p : Params} {E v e15 e31 e33 p11 p33 : ℝ}
  (hp : Constants d p E v e15 e31 e33 p11 p33) (hv : 1 + v ≠ 0) (hv2 : 1 - 2 * v ≠ 0)
include hd hp hv hv2

theorem material_of_alpha {a : ℝ} (ha : alphaOf d p = .ok a) :
    (electroelasticMaterial d p).Sat fun L => IsElectroelastic d E v e15 e31 e33 p11 p33 L ∧ L.alpha = a := by
  unfold electroelasticMaterial
  rw [ha, Res.ok_bind, hp.poisson.get, Res.ok_bind, hp.young.get, Res.ok_bind, hp.e15.get, hp.e31.get, hp.e33.get,
    hp.p11.get, hp.p33.get]
  obtain ⟨C, hC, hS, hH⟩ := assign_hooke hd (E := E) hv hv2
  have hH' : ∀ e : Nat → ℝ, ∀ t, t < voigt d → ∑ s ∈ range (voigt d), C.e t s * e s =
      if t < d then lame E v * ∑ k ∈ range d, e k + 2 * shear E v * e t else shear E v * e t := fun e t ht => by
    have := hH e t ht
    unfold stress at this
    rwa [hS.cols] at this
  rcases hd with rfl | rfl | rfl
  · simp only [if_true, Res.pure_eq, Res.ok_bind]
    rw [hC, Res.ok_bind, assign_ok _ _ (by simp [piezoEntries, voigt]), Res.ok_bind,
      assign_ok _ _ (by simp [permEntries]), Res.ok_bind, Res.sat_ok]
    refine ⟨⟨hS.symm, fun e t ht => hH' e t ht, fun i t hi ht => ?_, fun i j hi hj => ?_⟩, rfl⟩
    · have ht : t < 1 := ht
      interval_cases i; interval_cases t
      simp [piezoEntries, piezoSpec, voigtPair]
    · interval_cases i; interval_cases j
      simp [permEntries, permSpec]
  · simp only [show (2 : Nat) ≠ 1 by decide, if_false, Res.pure_eq, Res.ok_bind]
    rw [hC, Res.ok_bind, assign_ok _ _ (by simp [piezoEntries, voigt]), Res.ok_bind,
      assign_ok _ _ (by simp [permEntries]), Res.ok_bind, Res.sat_ok]
    refine ⟨⟨hS.symm, fun e t ht => hH' e t ht, fun i t hi ht => ?_, fun i j hi hj => ?_⟩, rfl⟩
    · have ht : t < 3 := ht
      interval_cases i <;> interval_cases t <;> simp [piezoEntries, piezoSpec, voigtPair]
    · interval_cases i <;> interval_cases j <;> simp [permEntries, permSpec]
  · simp only [show (3 : Nat) ≠ 1 by decide, if_false, Res.pure_eq, Res.ok_bind]
    rw [hC, Res.ok_bind, assign_ok _ _ (by simp [piezoEntries, voigt]), Res.ok_bind,
      assign_ok _ _ (by simp [permEntries]), Res.ok_bind, Res.sat_ok]
    refine ⟨⟨hS.symm, fun e t ht => hH' e t ht, fun i t hi ht => ?_, fun i j hi hj => ?_⟩, rfl⟩
    · have ht : t < 6 := ht
      interval_cases i <;> interval_cases t <;> simp [piezoEntries, piezoSpec, voigtPair]
    · interval_cases i <;> interval_cases j <;> simp [permEntries, permSpec]

/-- **C67**, material without "Alpha": Hooke's law, in the plane as plane strain, the coupling of a material poled
along its last axis, its permittivity, and no scaling. -/
theorem C67_material (hA : p.isScalar "Alpha" = false) :
    (electroelasticMaterial d p).Sat fun L => IsElectroelastic d E v e15 e31 e33 p11 p33 L ∧ L.alpha = 1 :=
  material_of_alpha hd hp hv hv2 (by unfold alphaOf; rw [hA]; rfl)

/-- **C67**, material with "Alpha" in three dimensions: the scaling is the one given. -/
theorem C67_material_alpha_partial (h3 : d = 3) {a : ℝ} (hA : p.Has "Alpha" a) :
    (electroelasticMaterial d p).Sat fun L => IsElectroelastic d E v e15 e31 e33 p11 p33 L ∧ L.alpha = a :=
  material_of_alpha hd hp hv hv2 (by
    unfold alphaOf
    rw [if_pos h3, if_pos (by unfold Params.isScalar; rw [show p "Alpha" = _ from hA]), hA.get])

/-- **C67 is false for "Alpha" in one and two dimensions**: whatever the value given, the scaling is 1. -/
theorem C67_alpha_false (h3 : d ≠ 3) {a : ℝ} (hA : p.Has "Alpha" a) :
    (electroelasticMaterial d p).Sat fun L => IsElectroelastic d E v e15 e31 e33 p11 p33 L ∧ L.alpha = 1 :=
  material_of_alpha hd hp hv hv2 (by
    unfold alphaOf
    have : p.isScalar "Alpha" = true := by unfold Params.isScalar; rw [show p "Alpha" = _ from hA]
    rw [if_neg h3, if_pos this, if_pos this]
    rfl)

end

/-- The constants of lead zirconate titanate, with a scaling of a thousand: the hypotheses hold. -/
example : ∃ p : Params, Constants 2 p 60 (3 / 10) 12 (-5) 15 1 1 ∧ p.Has "Alpha" 1000 :=
  ⟨fun n => if n = "Youngs Modulus" then some (.scalar 60) else if n = "Poissons Ratio" then some (.scalar (3 / 10))
    else if n = "e15" then some (.scalar 12) else if n = "e31" then some (.scalar (-5))
    else if n = "e33" then some (.scalar 15) else if n = "p11" then some (.scalar 1)
    else if n = "p33" then some (.scalar 1) else some (.scalar 1000),
    ⟨rfl, rfl, rfl, rfl, rfl, rfl, rfl⟩, rfl⟩

end Plato.Em
