import Verif.Bnd.Kernel
import Verif.Mech.LoadResultant
import Mathlib.LinearAlgebra.Matrix.Determinant.Basic

/-!
# C48: the weight of a face is the integral of its shape functions

The face is parametrised over the reference simplex of dimension `d - 1`; its area element is the square
root of the Gram determinant of its edges.  The kernel multiplies the flux by one number, the same for each
node of the face: that number is the surface integral of the shape function of the node.
-/

namespace Plato.Bnd
open Finset Plato Plato.Mech MeasureTheory

/-- Gram matrix of the edges of a face with the nodes `X`, the last node being the origin. -/
noncomputable def gram (d : Nat) (X : Nat → Nat → ℝ) : Matrix (Fin (d - 1)) (Fin (d - 1)) ℝ :=
  fun i j => ∑ k ∈ range d, (X i k - X (d - 1) k) * (X j k - X (d - 1) k)

/-- Shape function of node `n` of a face in reference coordinates. -/
noncomputable def faceShape (d n : Nat) (ξ : Fin (d - 1) → ℝ) : ℝ :=
  if h : n < d - 1 then ξ ⟨n, h⟩ else 1 - ∑ i, ξ i

/-- Surface integral over the face with the nodes `X` of a function given in reference coordinates. -/
noncomputable def faceIntegral (d : Nat) (X : Nat → Nat → ℝ) (φ : (Fin (d - 1) → ℝ) → ℝ) : ℝ :=
  ∫ ξ in simplexSet (d - 1) 1, φ ξ * Real.sqrt (gram d X).det

/-- Area of a face. -/
noncomputable def faceArea (d : Nat) (X : Nat → Nat → ℝ) : ℝ := faceIntegral d X fun _ => 1

/-- The shape functions are a partition of unity. -/
theorem faceShape_sum {d : Nat} (hd : d ≠ 0) (ξ : Fin (d - 1) → ℝ) : ∑ n ∈ range d, faceShape d n ξ = 1 := by
  obtain ⟨m, rfl⟩ : ∃ m, d = m + 1 := ⟨d - 1, by omega⟩
  rw [sum_range_succ]
  have e : faceShape (m + 1) m ξ = 1 - ∑ i, ξ i := dif_neg (by omega)
  rw [e, sum_range]
  have : ∀ i : Fin m, faceShape (m + 1) i ξ = ξ i := fun i => dif_pos i.2
  simp only [this]
  show (∑ i : Fin m, ξ i) + (1 - ∑ i : Fin m, ξ i) = 1
  ring

theorem integral_shape {d n : Nat} (hn : n < d) :
    ∫ ξ in simplexSet (d - 1) 1, faceShape d n ξ = 1 / (d.factorial : ℝ) := by
  obtain ⟨m, rfl⟩ : ∃ m, d = m + 1 := ⟨d - 1, by omega⟩
  have hf : ((m + 1).factorial : ℝ) = (m + 1) * m.factorial := by rw [Nat.factorial_succ]; push_cast; ring
  have h1 : (m.factorial : ℝ) ≠ 0 := by exact_mod_cast m.factorial_ne_zero
  have h2 : (m + 1 : ℝ) ≠ 0 := by positivity
  by_cases h : n < m
  · have := integral_affine m 0 (Pi.single (⟨n, h⟩ : Fin m) 1)
    simp only [Pi.single_apply, ite_mul, one_mul, zero_mul, sum_ite_eq', mem_univ, if_true, zero_add] at this
    have e : ∀ ξ : Fin (m + 1 - 1) → ℝ, faceShape (m + 1) n ξ = ξ ⟨n, h⟩ := fun ξ => dif_pos h
    simp only [e]
    refine Eq.trans this ?_
    rw [hf]
    field_simp
  · have := integral_affine m 1 (fun _ => -1)
    have e : ∀ ξ : Fin (m + 1 - 1) → ℝ, faceShape (m + 1) n ξ = 1 + ∑ i, -1 * ξ i := fun ξ => by
      have : faceShape (m + 1) n ξ = 1 - ∑ i, ξ i := dif_neg h
      rw [this, ← mul_sum]
      ring
    simp only [e]
    refine Eq.trans this ?_
    rw [hf, ← sum_mul, sum_const, card_univ, Fintype.card_fin, nsmul_eq_mul]
    field_simp
    ring

/-- The number the kernel computes for a face. -/
theorem weightForm_eq {d : Nat} (hd : d = 1 ∨ d = 2 ∨ d = 3) (m : ℝ) (X : Nat → Nat → ℝ) :
    weightForm Real.sqrt d m X = m * Real.sqrt (gram d X).det := by
  unfold weightForm
  rcases hd with rfl | rfl | rfl
  · have : (gram 1 X).det = 1 := Matrix.det_isEmpty (n := Fin 0)
    rw [if_pos rfl, this, Real.sqrt_one, mul_one]
  · have : (gram 2 X).det = (X 0 0 - X 1 0) * (X 0 0 - X 1 0) + (X 0 1 - X 1 1) * (X 0 1 - X 1 1) := by
      have := Matrix.det_fin_one (gram 2 X)
      refine Eq.trans this ?_
      simp [gram, sum_range_succ]
    rw [this]
    simp
  · have : (gram 3 X).det = gram 3 X 0 0 * gram 3 X 1 1 - gram 3 X 0 1 * gram 3 X 1 0 :=
      Matrix.det_fin_two (gram 3 X)
    rw [this]
    simp only [if_neg (show ¬ 3 = 1 by omega), if_neg (show ¬ 3 = 2 by omega)]
    congr 2
    simp only [gram, sum_range_succ, sum_range_zero]
    show _ = (0 + (X 0 0 - X 2 0) * (X 0 0 - X 2 0) + (X 0 1 - X 2 1) * (X 0 1 - X 2 1) + (X 0 2 - X 2 2) * (X 0 2 - X 2 2)) *
      (0 + (X 1 0 - X 2 0) * (X 1 0 - X 2 0) + (X 1 1 - X 2 1) * (X 1 1 - X 2 1) + (X 1 2 - X 2 2) * (X 1 2 - X 2 2)) -
      (0 + (X 0 0 - X 2 0) * (X 1 0 - X 2 0) + (X 0 1 - X 2 1) * (X 1 1 - X 2 1) + (X 0 2 - X 2 2) * (X 1 2 - X 2 2)) *
      (0 + (X 1 0 - X 2 0) * (X 0 0 - X 2 0) + (X 1 1 - X 2 1) * (X 0 1 - X 2 1) + (X 1 2 - X 2 2) * (X 0 2 - X 2 2))
    ring

/-- **C48**, quadrature: the weight of a face, with the weight `1 / d!` of the cubature rule of degree one, is
the surface integral of the shape function of each of its nodes. -/
theorem C48_weight {d : Nat} (hd : d = 1 ∨ d = 2 ∨ d = 3) (scale : ℝ) (X : Nat → Nat → ℝ) {n : Nat} (hn : n < d) :
    weightForm Real.sqrt d (scale * (1 / (d.factorial : ℝ))) X = scale * faceIntegral d X (faceShape d n) := by
  rw [weightForm_eq hd]
  unfold faceIntegral
  rw [integral_mul_const, integral_shape hn]
  ring

/-- ... which is the area of the face shared equally among its nodes. -/
theorem C48_weight_area {d : Nat} (hd : d = 1 ∨ d = 2 ∨ d = 3) (scale : ℝ) (X : Nat → Nat → ℝ) :
    weightForm Real.sqrt d (scale * (1 / (d.factorial : ℝ))) X = scale * (faceArea d X / d) := by
  rw [weightForm_eq hd]
  unfold faceArea faceIntegral
  have h := integral_affine (d - 1) 1 fun _ => 0
  simp only [zero_mul, sum_const_zero, add_zero, mul_one] at h
  rw [integral_mul_const, h]
  rcases hd with rfl | rfl | rfl
  · norm_num
  · norm_num [Nat.factorial]; ring
  · norm_num [Nat.factorial]; ring

/-- The edge from (0,0) to (3,4) has length five. -/
example : faceArea 2 (fun n k => if n = 1 then (if k = 0 then 3 else 4) else 0) = 5 := by
  have h := C48_weight_area (d := 2) (by omega) 1 (fun n k => if n = 1 then (if k = 0 then 3 else 4) else 0)
  rw [weightForm_eq (by omega)] at h
  have e : (gram 2 fun n k => if n = 1 then (if k = 0 then 3 else 4) else 0).det = 5 * 5 := by
    refine Eq.trans (Matrix.det_fin_one _) ?_
    simp [gram, sum_range_succ]
    norm_num
  rw [e, Real.sqrt_mul_self (by norm_num)] at h
  norm_num [Nat.factorial] at h
  linarith

end Plato.Bnd
