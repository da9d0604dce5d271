import Verif.Material.Tables
import Verif.Mech.Stiffness

/-!
# The material stiffness in the elastostatic matrix (C40, C47)
-/

namespace Plato.Material
open Plato Finset Plato.Mech

theorem voigt_eq {d : Nat} (hd : d = 1 ∨ d = 2 ∨ d = 3) : numVoigt d = voigt d := by
  rcases hd with rfl | rfl | rfl <;> rfl

/-- The residual of a domain uses the stiffness of its material. -/
def Uses (P : Elastostatic ℝ) (C : V2 ℝ) : Prop := ∀ i j, i < numVoigt P.d → j < numVoigt P.d → P.stiff i j = C.e i j

theorem Uses.energy {P : Elastostatic ℝ} {C : V2 ℝ} (hu : Uses P C) (hd : P.d = 1 ∨ P.d = 2 ∨ P.d = 3)
    (hC : IsStiffness P.d C) (e : Nat → ℝ) : voigtEnergy P e = work C e := by
  unfold voigtEnergy work stress
  rw [hC.rows, hC.cols, voigt_eq hd]
  refine sum_congr rfl fun t ht => ?_
  rw [mul_sum]
  refine sum_congr rfl fun s hs => ?_
  rw [hu t s (by rw [voigt_eq hd]; exact mem_range.1 ht) (by rw [voigt_eq hd]; exact mem_range.1 hs)]
  ring

/-- **C40 with C47**: with a material of symmetric positive definite stiffness in every domain, positive
penalty and cubature weight, the stiffness matrix of the elastostatic problem is symmetric, positive
semidefinite, and only displacements without strain carry no energy. -/
theorem C47_material {M : FeModel} (hM : M.Ok) {P : Nat → Elastostatic ℝ} {penF : Nat → Fad → Fad}
    (h : ResOk M P) {initF : Nat → Nat → Nat → Nat} {eF : Nat → Nat → List Nat}
    (heF : ∀ k j, IsSchedule (eF k j) (M.size (M.part k)))
    {o : List Nat} (ho : IsSchedule o M.nn) {sch : Nat → Nat → List Nat}
    {u z x : List ℝ} (hu : u.length = M.nn * M.ndof) (hz : z.length = M.nn)
    (hx : x.length = M.nn * M.dim) (hgood : ∀ c, c < M.nc → goodCell M P penF (M.cellZ z c) (M.cellX x c))
    (hs : SchedOk M sch (M.npc * M.ndof * (M.npc * M.ndof)))
    (hw : ∀ k, k < M.domains.length → 0 < (P k).cubWeight)
    (hp : ∀ k c, k < M.domains.length → c < M.size (M.part k) →
      0 < (P k).pen (meanDensity ((P k).d + 1) (M.cellZ z (gcell (M.part k) c))))
    (hd : ∀ k, (P k).d = 1 ∨ (P k).d = 2 ∨ (P k).d = 3)
    {C : Nat → V2 ℝ} (hC : ∀ k, IsStiffness (P k).d (C k)) (hdef : ∀ k, Definite (P k).d (C k))
    (huse : ∀ k, Uses (P k) (C k)) :
    (M.gradientU (elastostatic Fad.fabs M (fun k => (P k).lift (penF k)) initF eF) o sch u z x).Sat fun J =>
      (∀ i j, i < M.nn * M.ndof → j < M.nn * M.ndof → J.dense i j = J.dense j i) ∧
      (∀ v : Nat → ℝ, 0 ≤ ∑ q ∈ range (M.nn * M.ndof), v q * ∑ j ∈ range (M.nn * M.ndof), J.dense q j * v j) ∧
      ∀ v : Nat → ℝ,
        ∑ q ∈ range (M.nn * M.ndof), v q * ∑ j ∈ range (M.nn * M.ndof), J.dense q j * v j = 0 ↔
          ∀ k c s, k < M.domains.length → c < M.size (M.part k) → s < numVoigt (P k).d →
            (P k).strainForm (fun l => v (cellDof M.npc M.ndof M.c2n (gcell (M.part k) c) l))
              (M.cellX x (gcell (M.part k) c)) s = 0 := by
  have hpos : ∀ k e, (∃ s, s < numVoigt (P k).d ∧ e s ≠ 0) → 0 < voigtEnergy (P k) e := by
    rintro k e ⟨s, h1, h2⟩
    rw [(huse k).energy (hd k) (hC k)]
    exact hdef k e ⟨s, by rw [← voigt_eq (hd k)]; exact h1, h2⟩
  have hnn : ∀ k e, 0 ≤ voigtEnergy (P k) e := by
    intro k e
    by_cases he : ∃ s, s < numVoigt (P k).d ∧ e s ≠ 0
    · exact (hpos k e he).le
    · have he' : ∀ s, s < numVoigt (P k).d → e s = 0 := fun s hs => by
        by_contra h0
        exact he ⟨s, hs, h0⟩
      unfold voigtEnergy
      rw [sum_eq_zero]
      intro t ht
      exact sum_eq_zero fun s _ => by rw [he' t (mem_range.1 ht), mul_zero]
  obtain ⟨J, hJ, h1⟩ := C47_definite hM h heF ho hu hz hx hgood hs hw hp fun k e _ => hpos k e
  obtain ⟨J', hJ', h2⟩ := C47_semidefinite hM h heF ho hu hz hx hgood hs (fun k hk => (hw k hk).le)
    (fun k c hk hc => (hp k c hk hc).le) fun k e _ => hnn k e
  obtain ⟨J'', hJ'', h3⟩ := C47_symmetric hM h heF ho hu hz hx hgood hs (fun k t s ht hs => by
    rw [huse k t s ht hs, huse k s t hs ht]
    exact (hC k).symm t s (by rw [← voigt_eq (hd k)]; exact ht) (by rw [← voigt_eq (hd k)]; exact hs))
  rw [hJ] at hJ' hJ''
  cases hJ'; cases hJ''
  exact ⟨J, hJ, h3, h2, h1⟩

/-- Name of the input parameter for an entry of the reference strain, first index not above the second. -/
def strainName (i j : Nat) : String := "e" ++ toString (i + 1) ++ toString (j + 1)

/-- **C40**: the reference strain `e12` is subtracted from the shear strain of directions 1 and 2, and so for
every pair of directions: the parameter of an entry is stored where the strain stores that entry. -/
theorem C40_reference_strain {d i j : Nat} (hd : d = 1 ∨ d = 2 ∨ d = 3) (hij : i ≤ j) (hj : j < d) (p : Params) :
    (refStrain d p)[voigtIndex d i j]? = some (p.getD (strainName i j) 0) := by
  rcases hd with rfl | rfl | rfl <;> interval_cases j <;> interval_cases i <;> rfl

/-- Every material built from a parameter list carries that reference strain. -/
theorem C40_reference_strain_kept {d : Nat} (p : Params) (coeff : Res ℝ) {m : Elastic}
    (h : isotropic d p = .ok m ∨ custom d coeff p = .ok m ∨ cubic d p = .ok m) : m.refStrain = refStrain d p := by
  have key : ∀ {α : Type} {x : Res α} {f : α → Res Elastic}, (∀ a, f a = .ok m → m.refStrain = refStrain d p) →
      (x >>= f) = .ok m → m.refStrain = refStrain d p := by
    intro α x f hf hx
    cases x with
    | ok a => exact hf a hx
    | err _ => cases hx
    | ub => cases hx
  rcases h with h | h | h
  · refine key (fun v hv => key (fun E hE => key (fun C hC => ?_) hE) hv) h
    cases hC
    rfl
  · refine key (fun v hv => key (fun E hE => key (fun c hc => key (fun C hC => ?_) hc) hE) hv) h
    cases hC
    rfl
  · unfold cubic at h
    refine key (fun v hv => ?_) h
    split_ifs at hv
    · refine key (fun a ha => key (fun b hb => key (fun C hC => ?_) hb) ha) hv
      cases hC
      rfl
    · refine key (fun a ha => key (fun b hb => key (fun C hC => ?_) hb) ha) hv
      cases hC
      rfl

end Plato.Material
