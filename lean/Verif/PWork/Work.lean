import Verif.PWork.Function
import Verif.J2.Return

/-!
# Elastic and plastic work

The specification speaks of symmetric tensors: Hooke's law, the density of the elastic energy, and the work of
the mean stress of a step.
-/

namespace Plato.PWork
open Finset Plato Plato.Mech Plato.J2 Plato.Plast

/-! ## Specification -/

/-- Hooke's law. -/
noncomputable def hooke (K mu : ℝ) (E : Tensor) : Tensor := (2 * mu) • deviator E + (K * E.trace) • (1 : Tensor)

/-- Density of the elastic energy. -/
noncomputable def density (K mu : ℝ) (E : Tensor) : ℝ := dot (hooke K mu E) E / 2

section Spec
variable (M : FeModel) (P : Nat → WorkCrit ℝ) (A : Args ℝ) (k cell : Nat)

/-- Volume of a cell. -/
noncomputable def volume : ℝ := |detForm M.dim (numbers M A cell).x| * (P k).cubWeight

/-- Penalty of a cell. -/
noncomputable def penalty : ℝ := (P k).pen (meanDensity (M.dim + 1) (numbers M A cell).z)

/-- Elastic strain of a cell. -/
noncomputable def elasticTensor : Tensor := strainOf M (fun k => (P k).mat) A k cell - (stateOf M A.c cell).ep

/-- Stress of a cell. -/
noncomputable def stress : Tensor :=
  hooke (penalty M P A k cell * (P k).bulk) (penalty M P A k cell * (P k).mat.shear) (elasticTensor M P A k cell)

/-- The previous states in place of the current ones. -/
def old (A : Args ℝ) : Args ℝ := ⟨A.up, A.up, A.cp, A.cp, A.z, A.x⟩

/-- Mean of the stresses at the beginning and at the end of the step. -/
noncomputable def meanStress : Tensor := (1 / 2 : ℝ) • (stress M P A k cell + stress M P (old A) k cell)

/-- Sum over the cells of all domains. -/
noncomputable def cellSum (M : FeModel) (f : Nat → Nat → ℝ) : ℝ :=
  ∑ k ∈ range M.domains.length, ∑ c ∈ range (dom M k).length, f k (atN (dom M k) c)

/-- Elastic energy of the body. -/
noncomputable def energy : ℝ := cellSum M fun k cell => volume M P A k cell *
  density (penalty M P A k cell * (P k).bulk) (penalty M P A k cell * (P k).mat.shear) (elasticTensor M P A k cell)

end Spec

/-! ## Algebra -/

theorem dot_hooke (K mu : ℝ) (A B : Tensor) :
    dot (hooke K mu A) B = 2 * mu * (dot A B - A.trace * B.trace / 3) + K * A.trace * B.trace := by
  unfold dot hooke deviator Matrix.trace
  simp only [Fin.sum_univ_three, Matrix.add_apply, Matrix.smul_apply, Matrix.sub_apply, Matrix.one_apply, smul_eq_mul,
    Matrix.diag_apply]
  simp
  ring

theorem dot_comm (A B : Tensor) : dot A B = dot B A := by
  unfold dot
  exact sum_congr rfl fun i _ => sum_congr rfl fun j _ => mul_comm _ _

theorem dot_add (A B C : Tensor) : dot (A + B) C = dot A C + dot B C := by
  unfold dot
  simp only [Matrix.add_apply, add_mul, sum_add_distrib]

theorem dot_smul (a : ℝ) (A C : Tensor) : dot (a • A) C = a * dot A C := by
  unfold dot
  simp only [Matrix.smul_apply, smul_eq_mul, mul_sum, mul_assoc]

theorem dot_sub (A B C : Tensor) : dot A (B - C) = dot A B - dot A C := by
  unfold dot
  simp only [Matrix.sub_apply, mul_sub, sum_sub_distrib]

/-- The work of the mean stress is the change of the energy. -/
theorem mean_work (K mu : ℝ) (A B : Tensor) :
    dot ((1 / 2 : ℝ) • (hooke K mu A + hooke K mu B)) (A - B) = density K mu A - density K mu B := by
  unfold density
  rw [dot_smul, dot_add, dot_sub, dot_sub]
  simp only [dot_hooke]
  rw [dot_comm B A]
  ring

theorem dot_dev (A : Tensor) : dot A A - A.trace * A.trace / 3 = dot (deviator A) (deviator A) := by
  unfold dot deviator Matrix.trace
  simp only [Fin.sum_univ_three, Matrix.smul_apply, Matrix.sub_apply, Matrix.one_apply, smul_eq_mul, Matrix.diag_apply]
  simp
  ring

theorem density_eq (K mu : ℝ) (E : Tensor) : density K mu E = mu * nrm (deviator E) ^ 2 + K / 2 * E.trace ^ 2 := by
  unfold density
  rw [dot_hooke, dot_dev, dot_self]
  ring

theorem density_nonneg {K mu : ℝ} (hK : 0 ≤ K) (hmu : 0 ≤ mu) (E : Tensor) : 0 ≤ density K mu E := by
  rw [density_eq]
  positivity

theorem density_zero {K mu : ℝ} (hK : 0 < K) (hmu : 0 < mu) {E : Tensor} (h : density K mu E = 0) : E = 0 := by
  rw [density_eq] at h
  have h1 : 0 ≤ mu * nrm (deviator E) ^ 2 := by positivity
  have h2 : 0 ≤ K / 2 * E.trace ^ 2 := by positivity
  have h3 : nrm (deviator E) = 0 := by
    have : mu * nrm (deviator E) ^ 2 = 0 := by linarith
    simpa [hmu.ne'] using this
  have h4 : E.trace = 0 := by
    have : K / 2 * E.trace ^ 2 = 0 := by linarith
    simpa [hK.ne'] using this
  have := nrm_eq_zero h3
  unfold deviator at this
  rw [h4] at this
  simpa using this

/-- What `ComputeCauchyStress` adds to the work: the components 0, 1 and 3 are not the trace in three dimensions. -/
theorem cauchy_dot {d : Nat} (hd : d = 2 ∨ d = 3) (K mu : ℝ) (A B : Nat → ℝ) :
    ∑ t ∈ range (stressTerms d), cauchyForm d K mu A t * B t =
      dot (hooke K mu (strainTensor d A)) (strainTensor d B) +
        (K - 2 * mu / 3) * (if d = 2 then 0 else A 3 - A 2) * (strainTensor d B).trace := by
  rw [dot_hooke]
  rcases hd with rfl | rfl
  · simp only [stressTerms, reduceIte, sum_range_succ, sum_range_zero, cauchyForm, isNormal, strainTensor, dot, Matrix.trace,
      Fin.sum_univ_three, Matrix.diag_apply]
    simp
    ring
  · rw [show stressTerms 3 = 6 from rfl]
    simp only [sum_range_succ, sum_range_zero, cauchyForm, isNormal, strainTensor, dot, Matrix.trace,
      Fin.sum_univ_three, Matrix.diag_apply]
    simp
    ring

theorem strainTensor_sub (d : Nat) (A B : Nat → ℝ) :
    strainTensor d (fun t => A t - B t) = strainTensor d A - strainTensor d B := by
  unfold strainTensor
  split
  · ext i j; fin_cases i <;> fin_cases j <;> simp <;> ring
  · ext i j; fin_cases i <;> fin_cases j <;> simp <;> ring

/-! ## The work of a cell -/

section Cell
variable {P : WorkCrit ℝ} (hd : P.mat.d = 2 ∨ P.mat.d = 3) (D : CellData ℝ)
include hd

/-- Elastic strain of a cell, current. -/
theorem elasticAt_tensor (U C : Nat → ℝ) (X : Nat → Nat → ℝ) :
    strainTensor P.mat.d (P.elasticAt U C X) = P.mat.mechStrain U X - (point P.mat.d C).ep :=
  elastic_tensor hd U C X

/-- The work of a cell in tensors, for the stress of `ComputeCauchyStress`. -/
theorem work_tensor : P.work (fun a => |a|) D = P.volOf (fun a => |a|) D.x *
    (dot ((1 / 2 : ℝ) • (hooke (P.penOf D.z * P.bulk) (P.penOf D.z * P.mat.shear)
        (P.mat.mechStrain D.u D.x - (point P.mat.d D.c).ep) +
      hooke (P.penOf D.z * P.bulk) (P.penOf D.z * P.mat.shear) (P.mat.mechStrain D.up D.x - (point P.mat.d D.cp).ep)))
      (strainTensor P.mat.d (P.misfitOf D)) +
    (P.penOf D.z * P.bulk - 2 * (P.penOf D.z * P.mat.shear) / 3) * (1 / 2 * (if P.mat.d = 2 then 0 else
      P.elasticAt D.u D.c D.x 3 - P.elasticAt D.u D.c D.x 2 + (P.elasticAt D.up D.cp D.x 3 - P.elasticAt D.up D.cp D.x 2))) *
      (strainTensor P.mat.d (P.misfitOf D)).trace) := by
  unfold WorkCrit.work WorkCrit.stressOf
  have e : ∀ t, 1 / 2 * (cauchyForm P.mat.d (P.penOf D.z * P.bulk) (P.penOf D.z * P.mat.shear) (P.elasticAt D.u D.c D.x) t +
      cauchyForm P.mat.d (P.penOf D.z * P.bulk) (P.penOf D.z * P.mat.shear) (P.elasticAt D.up D.cp D.x) t) * P.misfitOf D t =
      1 / 2 * (cauchyForm P.mat.d (P.penOf D.z * P.bulk) (P.penOf D.z * P.mat.shear) (P.elasticAt D.u D.c D.x) t *
        P.misfitOf D t) + 1 / 2 * (cauchyForm P.mat.d (P.penOf D.z * P.bulk) (P.penOf D.z * P.mat.shear)
        (P.elasticAt D.up D.cp D.x) t * P.misfitOf D t) := fun t => by ring
  simp only [e]
  rw [sum_add_distrib, ← mul_sum, ← mul_sum, cauchy_dot hd, cauchy_dot hd, elasticAt_tensor hd, elasticAt_tensor hd, dot_smul,
    dot_add]
  split <;> ring

end Cell

/-! ## The mesh -/

section Mesh
variable {M : FeModel} {P : Nat → WorkCrit ℝ} (hJ : WOk M P) {A : Args ℝ} {k : Nat} (hk : k < M.domains.length)
  (cell : Nat)
include hJ hk

/-- The elastic work of a cell. -/
theorem elastic_cell (hp : (P k).plastic = false) (h2 : M.dim = 2) :
    (P k).work (fun a => |a|) (numbers M A cell) = volume M P A k cell *
      dot (meanStress M P A k cell) (elasticTensor M P A k cell - elasticTensor M P (old A) k cell) := by
  have e : (P k).mat.d = M.dim := hJ.d k hk
  have hd : (P k).mat.d = 2 ∨ (P k).mat.d = 3 := by rw [e]; exact hJ.dim
  have hm : strainTensor (P k).mat.d ((P k).misfitOf (numbers M A cell)) =
      elasticTensor M P A k cell - elasticTensor M P (old A) k cell := by
    have : (P k).misfitOf (numbers M A cell) = fun t => (P k).elasticAt (numbers M A cell).u (numbers M A cell).c
        (numbers M A cell).x t - (P k).elasticAt (numbers M A cell).up (numbers M A cell).cp (numbers M A cell).x t := by
      funext t
      unfold WorkCrit.misfitOf
      rw [hp, if_neg (by simp)]
    rw [this, strainTensor_sub, elasticAt_tensor hd, elasticAt_tensor hd, e]
    rfl
  rw [work_tensor hd, hm, if_pos (by omega)]
  unfold meanStress stress volume penalty elasticTensor strainOf stateOf WorkCrit.volOf WorkCrit.penOf
  rw [e]
  simp only [mul_zero, zero_mul, add_zero]
  rfl

/-- The plastic work of a cell. -/
theorem plastic_cell (hp : (P k).plastic = true) (ht : M.dim = 2 ∨
      ((stateOf M A.c cell).ep - (stateOf M A.cp cell).ep).trace = 0) :
    (P k).work (fun a => |a|) (numbers M A cell) = volume M P A k cell *
      dot (meanStress M P A k cell) ((stateOf M A.c cell).ep - (stateOf M A.cp cell).ep) := by
  have e : (P k).mat.d = M.dim := hJ.d k hk
  have hd : (P k).mat.d = 2 ∨ (P k).mat.d = 3 := by rw [e]; exact hJ.dim
  have hm : strainTensor (P k).mat.d ((P k).misfitOf (numbers M A cell)) =
      (stateOf M A.c cell).ep - (stateOf M A.cp cell).ep := by
    have : (P k).misfitOf (numbers M A cell) = fun t => (numbers M A cell).c (2 + t) - (numbers M A cell).cp (2 + t) := by
      funext t
      unfold WorkCrit.misfitOf
      rw [hp, if_pos rfl]
    rw [this, strainTensor_sub, e]
    rfl
  rw [work_tensor hd, hm]
  have hz : (if (P k).mat.d = 2 then (0 : ℝ) else (P k).elasticAt (numbers M A cell).u (numbers M A cell).c (numbers M A cell).x 3
      - (P k).elasticAt (numbers M A cell).u (numbers M A cell).c (numbers M A cell).x 2 +
      ((P k).elasticAt (numbers M A cell).up (numbers M A cell).cp (numbers M A cell).x 3 -
        (P k).elasticAt (numbers M A cell).up (numbers M A cell).cp (numbers M A cell).x 2)) *
      ((stateOf M A.c cell).ep - (stateOf M A.cp cell).ep).trace = 0 := by
    rcases ht with ht | ht
    · rw [if_pos (by omega), zero_mul]
    · rw [ht, mul_zero]
  rw [mul_assoc (_ - _), mul_assoc (1 / 2), hz]
  unfold meanStress stress volume penalty elasticTensor strainOf stateOf WorkCrit.volOf WorkCrit.penOf
  rw [e]
  simp only [mul_zero, add_zero]
  rfl

end Mesh

end Plato.PWork
