import Verif.Tm.Track
import Verif.Dyn.Form

/-!
# Forms of thermomechanics

What stress, heat flux and heat content do on a virtual displacement and temperature, as forms over the mesh.
-/

namespace Plato.Tm
open Finset Plato Plato.Mech Plato.Thermal Plato.Dyn

/-! ## Specification -/

/-- Thermal strain in Voigt notation, all components of the expansivity: `α_ij (T - T₀)`, and twice this in
shear, with the temperature in units of the scaling. -/
noncomputable def expansion (L : TmLaw ℝ) (d : Nat) (T : ℝ) (t : Nat) : ℝ :=
  (if (voigtPair d t).1 = (voigtPair d t).2 then 1 else 2) *
    (L.scale * L.expand.at L.nonlinear T (voigtPair d t).1 (voigtPair d t).2 * (T - L.tref))

/-- Work in a cell for the thermal strain `θ`, which depends on the material, the dimension and the
temperature: volume, penalty, and the work of the stress on the virtual strain plus that of the flux on the
virtual temperature gradient. -/
noncomputable def cellThermo (θ : TmLaw ℝ → Nat → ℝ → Nat → ℝ) (P : Tm ℝ) (Z : Nat → ℝ) (X : Nat → Nat → ℝ)
    (U W : Nat → ℝ) : ℝ :=
  P.volForm abs X * P.pen (meanDensity (P.d + 1) Z) *
    (∑ t ∈ range (numVoigt P.d), ∑ s ∈ range (numVoigt P.d),
        (P.strainForm U X s - θ P.law P.d (P.tempAt U) s) *
          P.law.stiff.at P.law.nonlinear (P.tempAt U) t s * P.strainForm W X t +
      ∑ i ∈ range P.d, ∑ j ∈ range P.d, P.law.scale * P.law.scale * P.gradT U X j *
        P.law.cond.at P.law.nonlinear (P.tempAt U) i j * P.gradT W X i)

/-- Rate of the heat content of a cell on a virtual temperature. -/
noncomputable def cellHeat (P : Tm ℝ) (Z : Nat → ℝ) (X : Nat → Nat → ℝ) (U V W : Nat → ℝ) : ℝ :=
  P.volForm abs X * P.pen (meanDensity (P.d + 1) Z) * P.mass.rateOf (P.tempAt U) (P.tempAt V) * P.tempAt W

/-- Work of stress and flux in the mesh. -/
noncomputable def thermoForm (θ : TmLaw ℝ → Nat → ℝ → Nat → ℝ) (M : FeModel) (P : Nat → Tm ℝ) :
    List ℝ → List ℝ → (Nat → ℝ) → (Nat → ℝ) → ℝ :=
  meshForm M fun k Z X U W => cellThermo θ (P k) Z X U W

/-- Rate of the heat content of the mesh. -/
noncomputable def heatOf (M : FeModel) (P : Nat → Tm ℝ) (z x : List ℝ) (u v w : Nat → ℝ) : ℝ :=
  ∑ k ∈ range M.domains.length, ∑ c ∈ range (M.size (M.part k)),
    cellHeat (P k) (M.cellZ z (gcell (M.part k) c)) (M.cellX x (gcell (M.part k) c))
      (dofs M u (gcell (M.part k) c)) (dofs M v (gcell (M.part k) c)) (dofs M w (gcell (M.part k) c))

/-! ## Work of a cell -/

section
variable (P : Tm ℝ)

theorem fluxRow_work (d : Nat) (v : ℝ) (q : Nat → ℝ) (G : Nat → Nat → ℝ) (W : Nat → ℝ) :
    ∑ l ∈ range ((d + 1) * (d + 1)), fluxRow d (d + 1) d v q G l * W l =
      v * ∑ k ∈ range d, q k * scalarField d (fun n => W (n * (d + 1) + d)) G k := by
  unfold fluxRow scalarField
  simp only [Finset.sum_apply, sum_mul, mul_sum]
  rw [sum_comm, sum_comm (s := range d)]
  refine sum_congr rfl fun n hn => ?_
  rw [single_pairing (dof_lt (mem_range.1 hn) (Nat.lt_succ_self _)), sum_mul]
  exact sum_congr rfl fun k _ => by ring

theorem heatRow_work (d : Nat) (B : Nat → ℝ) (v f : ℝ) (W : Nat → ℝ) :
    ∑ l ∈ range ((d + 1) * (d + 1)), heatRow d (d + 1) d B v f l * W l =
      v * f * interp (d + 1) B fun n => W ((d + 1) * n + d) := by
  unfold heatRow interp
  simp only [Finset.sum_apply, sum_mul, mul_sum]
  rw [sum_comm]
  refine sum_congr rfl fun n hn => ?_
  have : (d + 1) * n + d < (d + 1) * (d + 1) := by
    have := dof_lt (d := d) (ndof := d + 1) (i := d) (mem_range.1 hn) (Nat.lt_succ_self _)
    rw [Nat.mul_comm (d + 1) n]
    omega
  rw [single_pairing this]
  ring

theorem solidRow_work (hd : P.d = 1 ∨ P.d = 2 ∨ P.d = 3) (U Z : Nat → ℝ) (X : Nat → Nat → ℝ) (W : Nat → ℝ) :
    ∑ l ∈ range ((P.d + 1) * (P.d + 1)), P.solidRow abs U Z X l * W l =
      cellThermo TmLaw.normalStrain P Z X U W := by
  have e1 := stressRow_work hd (Nat.le_succ _) (P.volForm abs X) (P.stressForm U Z X) (gradForm P.d X) W
  have e2 := fluxRow_work P.d (P.volForm abs X) (P.fluxForm U Z X) (gradForm P.d X) W
  have e : ∀ l, P.solidRow abs U Z X l * W l =
      stressRow P.d (P.d + 1) (P.volForm abs X) (P.stressForm U Z X) (gradForm P.d X) l * W l +
      fluxRow P.d (P.d + 1) P.d (P.volForm abs X) (P.fluxForm U Z X) (gradForm P.d X) l * W l := by
    intro l
    rw [← add_mul]
    rfl
  rw [sum_congr rfl fun l _ => e l, sum_add_distrib, e1, e2]
  unfold cellThermo
  rw [mul_add]
  congr 1
  · rw [mul_sum, mul_sum]
    refine sum_congr rfl fun t _ => ?_
    unfold Tm.stressForm Tm.solidStress
    rw [show voigtStrain P.d (fun n i => W (n * (P.d + 1) + i)) (gradForm P.d X) t = P.strainForm W X t from rfl,
      sum_mul, sum_mul, mul_sum, mul_sum]
    exact sum_congr rfl fun s _ => by ring
  · rw [mul_sum, mul_sum]
    refine sum_congr rfl fun k _ => ?_
    unfold Tm.fluxForm Tm.solidFlux
    rw [show scalarField P.d (fun n => W (n * (P.d + 1) + P.d)) (gradForm P.d X) k = P.gradT W X k from rfl,
      sum_mul, sum_mul, mul_sum, mul_sum]
    exact sum_congr rfl fun s _ => by ring

theorem tmHeat_work (U V Z : Nat → ℝ) (X : Nat → Nat → ℝ) (W : Nat → ℝ) :
    ∑ l ∈ range ((P.d + 1) * (P.d + 1)),
      heatRow P.d (P.d + 1) P.d (at0 P.basis) (P.volForm abs X) (P.heatForm U V Z) l * W l = cellHeat P Z X U V W := by
  rw [heatRow_work]
  unfold cellHeat Tm.heatForm
  rw [show interp (P.d + 1) (at0 P.basis) (fun n => W ((P.d + 1) * n + P.d)) = P.tempAt W from rfl]
  ring

/-- Without shear expansion the thermal strain of the code is the thermal strain. -/
theorem normalStrain_eq {L : TmLaw ℝ} {d : Nat} (hd : d = 2 ∨ d = 3) {T : ℝ}
    (h0 : ∀ i j, i < d → j < d → i ≠ j → L.expand.at L.nonlinear T i j = 0) {t : Nat} (ht : t < numVoigt d) :
    L.normalStrain d T t = expansion L d T t := by
  unfold TmLaw.normalStrain expansion
  rcases hd with rfl | rfl
  · change t < 3 at ht
    have := h0 0 1 (by decide) (by decide) (by decide)
    interval_cases t <;> simp [voigtPair, this]
  · change t < 6 at ht
    have h01 := h0 0 1 (by decide) (by decide) (by decide)
    have h02 := h0 0 2 (by decide) (by decide) (by decide)
    have h12 := h0 1 2 (by decide) (by decide) (by decide)
    interval_cases t <;> simp [voigtPair, h01, h02, h12]

end

/-! ## Fields on a cell -/

section
variable {P : Tm ℝ} (hd : P.d = 1 ∨ P.d = 2 ∨ P.d = 3) {X : Nat → Nat → ℝ} (hdet : detForm P.d X ≠ 0)
include hd hdet

/-- Strain of a displacement that is affine in the coordinates. -/
theorem strain_affine {U b : Nat → ℝ} {A : Nat → Nat → ℝ}
    (hU : ∀ n i, n < P.d + 1 → i < P.d → U (n * (P.d + 1) + i) = b i + ∑ j ∈ range P.d, A i j * X n j) (t : Nat) :
    P.strainForm U X t = if (voigtPair P.d t).1 = (voigtPair P.d t).2 then A (voigtPair P.d t).1 (voigtPair P.d t).1
      else A (voigtPair P.d t).1 (voigtPair P.d t).2 + A (voigtPair P.d t).2 (voigtPair P.d t).1 := by
  have hR := gradForm_reproduces hd X (by rwa [← detForm_eq hd])
  have hf : ∀ i k, i < P.d → k < P.d →
      fieldGrad P.d (fun n i => U (n * (P.d + 1) + i)) (gradForm P.d X) i k = A i k := by
    intro i k hi hk
    have := hR (b i) (fun j => A i j) ⟨k, hk⟩
    rw [← show _ = A i k from this, fieldGrad, sum_range]
    refine sum_congr rfl fun n _ => ?_
    rw [hU n i n.2 hi, sum_range]
    rfl
  obtain ⟨h1, h2⟩ := voigtPair_lt hd (t := t)
  unfold Tm.strainForm voigtStrain
  rw [hf _ _ h1 h1, hf _ _ h1 h2, hf _ _ h2 h1]

theorem strain_const {U b : Nat → ℝ} (hU : ∀ n i, n < P.d + 1 → i < P.d → U (n * (P.d + 1) + i) = b i) (t : Nat) :
    P.strainForm U X t = 0 := by
  rw [strain_affine hd hdet (b := b) (A := fun _ _ => 0) (fun n i hn hi => by simp [hU n i hn hi])]
  simp

/-- Gradient of a uniform temperature. -/
theorem tmGradT_const {U : Nat → ℝ} {a : ℝ} (hU : ∀ n, n < P.d + 1 → U (n * (P.d + 1) + P.d) = a) {k : Nat}
    (hk : k < P.d) : P.gradT U X k = 0 := by
  have hR := gradForm_reproduces hd X (by rwa [← detForm_eq hd])
  have := hR a (fun _ => 0) ⟨k, hk⟩
  rw [← show _ = (0 : ℝ) from this, Tm.gradT, scalarField, sum_range]
  refine sum_congr rfl fun n _ => ?_
  rw [hU n n.2]
  simp

end

theorem tempAt_const {P : Tm ℝ} (hb : ∑ n ∈ range (P.d + 1), at0 P.basis n = 1) {U : Nat → ℝ} {a : ℝ}
    (hU : ∀ n, n < P.d + 1 → U ((P.d + 1) * n + P.d) = a) : P.tempAt U = a := by
  unfold Tm.tempAt interp
  rw [sum_congr rfl fun n hn => show _ = at0 P.basis n * a by rw [← hU n (mem_range.1 hn)], ← sum_mul, hb, one_mul]

/-! ## Dofs of a cell -/

section
variable {M : FeModel} {P : Nat → Tm ℝ} (h : TmOk M P)
include h

theorem dofs_at (w : Nat → ℝ) (c n i : Nat) (hi : i < M.dim + 1) :
    dofs M w c (n * (M.dim + 1) + i) = w ((M.dim + 1) * cellNode M.npc M.c2n c n + i) := by
  unfold dofs cellDof
  rw [h.ndof, Nat.mul_comm n, Nat.mul_add_div (by omega), Nat.div_eq_of_lt hi, Nat.mul_add_mod,
    Nat.mod_eq_of_lt hi]
  rfl

end

end Plato.Tm
