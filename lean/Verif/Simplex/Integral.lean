import Mathlib.MeasureTheory.Constructions.Pi
import Mathlib.MeasureTheory.Integral.IntervalIntegral.Basic
import Mathlib.MeasureTheory.Integral.Prod
import Mathlib.MeasureTheory.Measure.Lebesgue.Basic
import Mathlib.Analysis.SpecialFunctions.Integrals.Basic
import Mathlib.MeasureTheory.Integral.IntegralEqImproper
import Mathlib.Tactic.Ring
import Mathlib.Tactic.FieldSimp
import Mathlib.Tactic.Linarith
import Mathlib.Tactic.Positivity

/-!
# Integrals of polynomials over the reference simplex

Part of the specification of the cubature rules: the Lebesgue integral over the set
`{ x | 0 ≤ x i, ∑ x i ≤ 1 }`, and the value of the integral of a monomial (Dirichlet's formula).
Nothing here refers to the modelled code.
-/

namespace Plato

open MeasureTheory Finset
open scoped BigOperators

/-- The simplex with corners at the origin and at distance `s` on the axes. -/
def simplexSet (d : ℕ) (s : ℝ) : Set (Fin d → ℝ) := {x | (∀ i, 0 ≤ x i) ∧ ∑ i, x i ≤ s}

theorem simplexSet_isClosed (d : ℕ) (s : ℝ) : IsClosed (simplexSet d s) := by
  have h1 : IsClosed {x : Fin d → ℝ | ∀ i, 0 ≤ x i} := by
    simp only [Set.ofPred_forall]
    exact isClosed_iInter fun i => isClosed_le continuous_const (continuous_apply i)
  have h2 : IsClosed {x : Fin d → ℝ | ∑ i, x i ≤ s} :=
    isClosed_le (continuous_finsetSum _ fun i _ => continuous_apply i) continuous_const
  exact h1.inter h2

theorem simplexSet_isCompact (d : ℕ) (s : ℝ) : IsCompact (simplexSet d s) := by
  refine (isCompact_univ_pi (fun _ : Fin d => isCompact_Icc (a := (0 : ℝ)) (b := s))).of_isClosed_subset
    (simplexSet_isClosed d s) ?_
  rintro x ⟨h0, hs⟩ i -
  exact ⟨h0 i, (Finset.single_le_sum (fun j _ => h0 j) (Finset.mem_univ i)).trans hs⟩

theorem simplexSet_measurable (d : ℕ) (s : ℝ) : MeasurableSet (simplexSet d s) :=
  (simplexSet_isClosed d s).measurableSet

theorem simplexSet_cons {d : ℕ} {s t : ℝ} {y : Fin d → ℝ} :
    (Fin.cons t y : Fin (d + 1) → ℝ) ∈ simplexSet (d + 1) s ↔ 0 ≤ t ∧ y ∈ simplexSet d (s - t) := by
  simp only [simplexSet, Set.mem_ofPred_eq, Fin.forall_fin_succ, Fin.cons_zero, Fin.cons_succ,
    Fin.sum_univ_succ]
  constructor
  · rintro ⟨⟨h1, h2⟩, h3⟩; exact ⟨h1, h2, by linarith⟩
  · rintro ⟨h1, h2, h3⟩; exact ⟨⟨h1, h2⟩, by linarith⟩

theorem simplexSet_neg {d : ℕ} {s : ℝ} (hs : s < 0) : simplexSet d s = ∅ := by
  ext x
  simp only [simplexSet, Set.mem_ofPred_eq, Set.mem_empty_iff_false, iff_false, not_and, not_le]
  intro h
  exact hs.trans_le (Finset.sum_nonneg fun i _ => h i)

/-- Cutting the simplex into slices. -/
theorem integral_simplex_succ {d : ℕ} {s : ℝ} (hs : 0 ≤ s) {f : (Fin (d + 1) → ℝ) → ℝ}
    (hf : Continuous f) :
    ∫ x in simplexSet (d + 1) s, f x =
      ∫ t in (0 : ℝ)..s, ∫ y in simplexSet d (s - t), f (Fin.cons t y) := by
  have hmp := (volume_preserving_piFinSuccAbove (fun _ : Fin (d + 1) => ℝ) 0).symm
  have hint : IntegrableOn f (simplexSet (d + 1) s) :=
    hf.continuousOn.integrableOn_compact (simplexSet_isCompact _ _)
  rw [← integral_indicator (simplexSet_measurable _ _)]
  rw [← integrable_indicator_iff (simplexSet_measurable _ _)] at hint
  set g := (simplexSet (d + 1) s).indicator f with hg
  rw [← hmp.integral_comp' g]
  have hint' := (hmp.integrable_comp_emb (MeasurableEquiv.measurableEmbedding _)).mpr hint
  rw [Measure.volume_eq_prod] at hint' ⊢
  have hprod := integral_prod _ hint'
  simp only [Function.comp_apply] at hprod
  rw [hprod, intervalIntegral.integral_of_le hs, ← integral_Icc_eq_integral_Ioc,
    ← integral_indicator measurableSet_Icc]
  congr 1
  funext t
  have key : ∀ y : Fin d → ℝ, (MeasurableEquiv.piFinSuccAbove (fun _ => ℝ) 0).symm (t, y) =
      (Fin.cons t y : Fin (d + 1) → ℝ) := by
    intro y
    simp [MeasurableEquiv.piFinSuccAbove, Fin.insertNthEquiv, Fin.insertNth_zero']
  by_cases ht : t ∈ Set.Icc 0 s
  · rw [Set.indicator_of_mem ht, ← integral_indicator (simplexSet_measurable _ _)]
    congr 1
    funext y
    rw [key, hg]
    by_cases hy : y ∈ simplexSet d (s - t)
    · rw [Set.indicator_of_mem hy, Set.indicator_of_mem (simplexSet_cons.mpr ⟨ht.1, hy⟩)]
    · rw [Set.indicator_of_notMem hy, Set.indicator_of_notMem fun h => hy (simplexSet_cons.mp h).2]
  · rw [Set.indicator_of_notMem ht]
    have : ∀ y : Fin d → ℝ, g ((MeasurableEquiv.piFinSuccAbove (fun _ => ℝ) 0).symm (t, y)) = 0 := by
      intro y
      rw [key, hg]
      refine Set.indicator_of_notMem (fun h => ht ⟨(simplexSet_cons.mp h).1, ?_⟩) _
      by_contra hlt
      have := simplexSet_neg (d := d) (s := s - t) (by linarith)
      have h2 := (simplexSet_cons.mp h).2
      rw [this] at h2
      exact h2
    simp only [this, integral_zero]

/-- `∫₀ˢ t^a (s-t)^b dt`. -/
theorem integral_beta (s : ℝ) : ∀ b a : ℕ, ∫ t in (0 : ℝ)..s, t ^ a * (s - t) ^ b =
    s ^ (a + b + 1) * (a.factorial * b.factorial / (a + b + 1).factorial)
  | 0, a => by
    simp only [pow_zero, mul_one, integral_pow, Nat.factorial_zero, Nat.cast_one, add_zero]
    rw [Nat.factorial_succ]
    have : (a.factorial : ℝ) ≠ 0 := by positivity
    push_cast
    field_simp
    simp
  | b + 1, a => by
    have h := intervalIntegral.integral_mul_deriv_eq_deriv_mul (a := 0) (b := s)
      (u := fun t => (s - t) ^ (b + 1)) (u' := fun t => -((b + 1 : ℕ) * (s - t) ^ b))
      (v := fun t => t ^ (a + 1) / (a + 1)) (v' := fun t => t ^ a)
      (fun t _ => by
        have := ((hasDerivAt_const t s).sub (hasDerivAt_id t)).pow (b + 1)
        simpa using! this)
      (fun t _ => by
        have := (hasDerivAt_pow (a + 1) t).div_const ((a : ℝ) + 1)
        have h0 : (a : ℝ) + 1 ≠ 0 := by positivity
        simpa [mul_div_cancel_left₀, h0] using this)
      (Continuous.intervalIntegrable (by fun_prop) _ _)
      (Continuous.intervalIntegrable (by fun_prop) _ _)
    have ih := integral_beta s b (a + 1)
    have e1 : ∫ t in (0 : ℝ)..s, t ^ a * (s - t) ^ (b + 1) =
        ∫ t in (0 : ℝ)..s, (s - t) ^ (b + 1) * t ^ a := by
      congr 1; funext t; ring
    have e2 : ∫ t in (0 : ℝ)..s, -((b + 1 : ℕ) * (s - t) ^ b) * (t ^ (a + 1) / (a + 1)) =
        -((b + 1 : ℕ) / (a + 1)) * ∫ t in (0 : ℝ)..s, t ^ (a + 1) * (s - t) ^ b := by
      rw [← intervalIntegral.integral_const_mul]
      congr 1; funext t; ring
    rw [e1, h, e2, ih]
    have h1 : a + 1 + b + 1 = a + (b + 1) + 1 := by omega
    rw [h1, Nat.factorial_succ a, Nat.factorial_succ b]
    push_cast
    have h0 : (a : ℝ) + 1 ≠ 0 := by positivity
    have h2 : ((a + (b + 1) + 1).factorial : ℝ) ≠ 0 := by positivity
    simp
    field_simp

/-- Dirichlet's formula for the integral of a monomial over the simplex. -/
theorem integral_simplex_monomial : ∀ (d : ℕ) (s : ℝ) (_ : 0 ≤ s) (a : Fin d → ℕ),
    ∫ x in simplexSet d s, ∏ i, x i ^ a i =
      s ^ (∑ i, a i + d) * ((∏ i, ((a i).factorial : ℝ)) / (∑ i, a i + d).factorial)
  | 0, s, hs, a => by
    have : simplexSet 0 s = Set.univ := by
      ext x; simp [simplexSet, hs]
    simp [this, Measure.real, volume_pi]
  | d + 1, s, hs, a => by
    rw [integral_simplex_succ hs (by fun_prop)]
    have h : ∀ t ∈ Set.uIcc 0 s, ∫ y in simplexSet d (s - t),
        ∏ i, (Fin.cons t y : Fin (d + 1) → ℝ) i ^ a i =
        t ^ a 0 * (s - t) ^ (∑ i : Fin d, a i.succ + d) *
          ((∏ i : Fin d, ((a i.succ).factorial : ℝ)) / (∑ i : Fin d, a i.succ + d).factorial) := by
      intro t ht
      rw [Set.uIcc_of_le hs] at ht
      simp only [Fin.prod_univ_succ, Fin.cons_zero, Fin.cons_succ]
      rw [integral_const_mul, integral_simplex_monomial d (s - t) (by linarith [ht.2])]
      ring
    rw [intervalIntegral.integral_congr h, intervalIntegral.integral_mul_const, integral_beta,
      Fin.sum_univ_succ, Fin.prod_univ_succ]
    have e : a 0 + (∑ i : Fin d, a i.succ + d) + 1 = a 0 + ∑ i : Fin d, a i.succ + (d + 1) := by omega
    rw [e]
    have h1 : ((∑ i : Fin d, a i.succ + d).factorial : ℝ) ≠ 0 := by positivity
    have h2 : ((a 0 + ∑ i : Fin d, a i.succ + (d + 1)).factorial : ℝ) ≠ 0 := by positivity
    field_simp

end Plato
