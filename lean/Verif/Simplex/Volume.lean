import Mathlib.MeasureTheory.Measure.Lebesgue.EqHaar
import Mathlib.Analysis.Convex.Combination
import Mathlib.LinearAlgebra.Matrix.ToLin
import Verif.Simplex.Integral
import Verif.Simplex.Gradient

/-!
# The volume of a simplex

Specification side of C20: the Lebesgue measure of the convex hull of `d + 1` points.
-/

namespace Plato

open MeasureTheory Finset Set

variable {d : ℕ}

theorem simplexSet_convex (d : ℕ) (s : ℝ) : Convex ℝ (simplexSet d s) := by
  rintro x ⟨hx0, hxs⟩ y ⟨hy0, hys⟩ a b ha hb hab
  refine ⟨fun i => ?_, ?_⟩
  · have := mul_nonneg ha (hx0 i)
    have := mul_nonneg hb (hy0 i)
    simp only [Pi.add_apply, Pi.smul_apply, smul_eq_mul]
    linarith
  · simp only [Pi.add_apply, Pi.smul_apply, smul_eq_mul, Finset.sum_add_distrib, ← Finset.mul_sum]
    calc a * ∑ i, x i + b * ∑ i, y i ≤ a * s + b * s :=
          add_le_add (mul_le_mul_of_nonneg_left hxs ha) (mul_le_mul_of_nonneg_left hys hb)
      _ = s := by rw [← add_mul, hab, one_mul]

/-- The volume of the reference simplex. -/
theorem volume_simplexSet (d : ℕ) : volume.real (simplexSet d 1) = 1 / (d.factorial : ℝ) := by
  have h := integral_simplex_monomial d 1 zero_le_one (fun _ => 0)
  simpa using h

/-- A simplex is the affine image of the reference simplex. -/
theorem convexHull_eq_image (X : Fin (d + 1) → Fin d → ℝ) :
    convexHull ℝ (range X) =
      (fun y => X (Fin.last d) + y) '' (Matrix.toLin' (edges X) '' simplexSet d 1) := by
  apply Set.Subset.antisymm
  · refine convexHull_min ?_ ?_
    · rintro _ ⟨n, rfl⟩
      refine Fin.lastCases ?_ (fun j => ?_) n
      · exact ⟨0, ⟨0, ⟨fun i => le_rfl, by simp⟩, by simp⟩, by simp⟩
      · refine ⟨_, ⟨Pi.single j 1, ⟨fun i => ?_, by simp⟩, rfl⟩, ?_⟩
        · by_cases h : i = j
          · subst h; simp
          · simp [Pi.single_eq_of_ne h]
        · funext i
          simp [Matrix.toLin'_apply, edges]
    · exact ((simplexSet_convex d 1).linear_image _).translate _
  · rintro _ ⟨_, ⟨x, ⟨h0, h1⟩, rfl⟩, rfl⟩
    have hc := convex_convexHull ℝ (range X)
    have hm := hc.sum_mem (t := Finset.univ) (w := Fin.snoc (α := fun _ => ℝ) x (1 - ∑ i, x i))
      (z := X) (fun n _ => ?_) ?_ (fun n _ => subset_convexHull ℝ _ (mem_range_self n))
    · convert hm using 1
      rw [Fin.sum_univ_castSucc]
      funext i
      simp only [Matrix.toLin'_apply, Pi.add_apply, Matrix.mulVec, dotProduct, edges, Matrix.of_apply,
        Fin.snoc_castSucc, Fin.snoc_last, Finset.sum_apply, Pi.smul_apply, smul_eq_mul, sub_mul, mul_comm (x _),
        Finset.sum_sub_distrib, one_mul, ← Finset.mul_sum, mul_comm (∑ i, x i)]
      ring
    · refine Fin.lastCases ?_ (fun j => ?_) n
      · simpa using h1
      · simpa using h0 j
    · rw [Fin.sum_univ_castSucc]
      simp

/-- The volume of a simplex: determinant of the edge vectors over `d!`. -/
theorem volume_simplex (X : Fin (d + 1) → Fin d → ℝ) :
    volume.real (convexHull ℝ (range X)) = |(edges X).det| / d.factorial := by
  rw [convexHull_eq_image, measureReal_def, Set.image_add_left, measure_preimage_add,
    Measure.addHaar_image_linearMap, ENNReal.toReal_mul, LinearMap.det_toLin',
    ENNReal.toReal_ofReal (abs_nonneg _), ← measureReal_def, volume_simplexSet]
  ring

end Plato
