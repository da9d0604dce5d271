import Verif.Mech.LoadResultant

/-!
# Integrals of products of affine functions over a cell

The integral of a product of two affine functions over a simplex, in terms of their values at the
nodes.
-/

namespace Plato.Mass
open Plato Plato.Mech Finset MeasureTheory

theorem integral_ref_pair (d : Nat) (i j : Fin d) :
    ∫ ξ in simplexSet d 1, ξ i * ξ j = (if i = j then 2 else 1) / ((d + 2).factorial : ℝ) := by
  have h := integral_simplex_monomial d 1 zero_le_one (Pi.single i 1 + Pi.single j 1)
  have hp : ∀ ξ : Fin d → ℝ, ∏ k, ξ k ^ ((Pi.single i 1 + Pi.single j 1 : Fin d → ℕ)) k = ξ i * ξ j := by
    intro ξ
    simp only [Pi.add_apply, pow_add, prod_mul_distrib]
    congr 1
    · rw [prod_eq_single i]
      · simp
      · intro k _ hk; rw [Pi.single_eq_of_ne hk, pow_zero]
      · simp
    · rw [prod_eq_single j]
      · simp
      · intro k _ hk; rw [Pi.single_eq_of_ne hk, pow_zero]
      · simp
  have hs : ∑ k, (Pi.single i 1 + Pi.single j 1 : Fin d → ℕ) k = 2 := by
    simp only [Pi.add_apply, sum_add_distrib, sum_pi_single', mem_univ, if_true]
  have hf : ∏ k, (((Pi.single i 1 + Pi.single j 1 : Fin d → ℕ) k).factorial : ℝ) = if i = j then 2 else 1 := by
    by_cases hij : i = j
    · subst hij
      rw [if_pos rfl, prod_eq_single i]
      · simp
      · intro k _ hk; simp [Pi.single_eq_of_ne hk]
      · simp
    · rw [if_neg hij]
      refine prod_eq_one fun k _ => ?_
      by_cases hk : k = i
      · subst hk; simp [Pi.single_eq_of_ne hij]
      · by_cases hk' : k = j
        · subst hk'; simp [Pi.single_eq_of_ne hk]
        · simp [Pi.single_eq_of_ne hk, Pi.single_eq_of_ne hk']
  simp only [hp] at h
  rw [h, hs, hf, one_pow, one_mul, Nat.add_comm]

theorem integral_ref_coord (d : Nat) (i : Fin d) : ∫ ξ in simplexSet d 1, ξ i = 1 / ((d + 1).factorial : ℝ) := by
  have := integral_affine d 0 (Pi.single i 1)
  simp only [Pi.single_apply, ite_mul, one_mul, zero_mul, sum_ite_eq', mem_univ, if_true, zero_add] at this
  rw [this, Nat.factorial_succ]
  push_cast
  field_simp

theorem integral_ref_one (d : Nat) : ∫ _ in simplexSet d 1, (1 : ℝ) = 1 / (d.factorial : ℝ) := by
  have := integral_affine d 1 0
  simpa using this

/-- Product of affine functions over the reference cell. -/
theorem integral_ref_product (d : Nat) (c c' : ℝ) (g g' : Fin d → ℝ) :
    ∫ ξ in simplexSet d 1, (c + ∑ i, g i * ξ i) * (c' + ∑ i, g' i * ξ i) =
      c * c' / (d.factorial : ℝ) + (c * ∑ i, g' i + c' * ∑ i, g i) / ((d + 1).factorial : ℝ) +
        ((∑ i, g i) * (∑ i, g' i) + ∑ i, g i * g' i) / ((d + 2).factorial : ℝ) := by
  have hint : ∀ f : (Fin d → ℝ) → ℝ, Continuous f → Integrable f (volume.restrict (simplexSet d 1)) :=
    fun f hf => hf.continuousOn.integrableOn_compact (simplexSet_isCompact d 1)
  have e : ∀ ξ : Fin d → ℝ, (c + ∑ i, g i * ξ i) * (c' + ∑ i, g' i * ξ i) =
      c * c' * 1 + ∑ i, (c * g' i + c' * g i) * ξ i + ∑ i, ∑ j, g i * g' j * (ξ i * ξ j) := by
    intro ξ
    have : ∑ i, ∑ j, g i * g' j * (ξ i * ξ j) = (∑ i, g i * ξ i) * ∑ i, g' i * ξ i := by
      rw [sum_mul_sum]
      exact sum_congr rfl fun i _ => sum_congr rfl fun j _ => by ring
    have h2 : ∑ i, (c * g' i + c' * g i) * ξ i = c * (∑ i, g' i * ξ i) + c' * ∑ i, g i * ξ i := by
      rw [mul_sum, mul_sum, ← sum_add_distrib]
      exact sum_congr rfl fun i _ => by ring
    rw [this, h2]
    ring
  simp only [e]
  rw [integral_add (hint _ (by fun_prop)) (hint _ (by fun_prop)), integral_add (hint _ (by fun_prop)) (hint _ (by fun_prop)),
    integral_const_mul, integral_ref_one, integral_finsetSum _ fun i _ => hint _ (by fun_prop),
    integral_finsetSum _ fun i _ => hint _ (by fun_prop)]
  have e2 : ∀ i : Fin d, ∫ ξ in simplexSet d 1, ∑ j, g i * g' j * (ξ i * ξ j) =
      ∑ j, g i * g' j * ((if i = j then 2 else 1) / ((d + 2).factorial : ℝ)) := by
    intro i
    rw [integral_finsetSum _ fun j _ => hint _ (by fun_prop)]
    exact sum_congr rfl fun j _ => by rw [integral_const_mul, integral_ref_pair]
  simp only [e2, integral_const_mul, integral_ref_coord]
  have e3 : ∑ i, ∑ j, g i * g' j * ((if i = j then 2 else 1) / ((d + 2).factorial : ℝ)) =
      ((∑ i, g i) * (∑ i, g' i) + ∑ i, g i * g' i) / ((d + 2).factorial : ℝ) := by
    have : ∀ i j : Fin d, g i * g' j * ((if i = j then 2 else 1) / ((d + 2).factorial : ℝ)) =
        g i * g' j / ((d + 2).factorial : ℝ) + if i = j then g i * g' i / ((d + 2).factorial : ℝ) else 0 := by
      intro i j
      by_cases h : i = j
      · subst h; rw [if_pos rfl, if_pos rfl]; ring
      · rw [if_neg h, if_neg h]; ring
    simp only [this, sum_add_distrib, sum_ite_eq, mem_univ, if_true]
    rw [sum_mul_sum, add_div, sum_div, sum_div]
    simp only [sum_div]
  rw [e3, ← sum_mul, sum_add_distrib, ← mul_sum, ← mul_sum]
  ring

/-- Centre of values at the nodes of a cell. -/
noncomputable def mean (d : Nat) (v : Nat → ℝ) : ℝ := (∑ a ∈ range (d + 1), v a) / (d + 1 : ℝ)

/-- Spread of two families of values at the nodes of a cell. -/
noncomputable def spread (d : Nat) (v w : Nat → ℝ) : ℝ :=
  (∑ a ∈ range (d + 1), (v a - mean d v) * (w a - mean d w)) / ((d + 1 : ℝ) * (d + 2 : ℝ))

theorem spread_nonneg (d : Nat) (v : Nat → ℝ) : 0 ≤ spread d v v :=
  div_nonneg (sum_nonneg fun _ _ => mul_self_nonneg _) (by positivity)

theorem spread_pos {d : Nat} {v : Nat → ℝ} {a b : Nat} (ha : a < d + 1) (hb : b < d + 1) (h : v a ≠ v b) :
    0 < spread d v v := by
  refine div_pos ?_ (by positivity)
  have : v a - mean d v ≠ 0 ∨ v b - mean d v ≠ 0 := by
    by_contra hc
    push Not at hc
    exact h (by linarith [hc.1, hc.2])
  rcases this with h' | h'
  · exact sum_pos' (fun _ _ => mul_self_nonneg _) ⟨a, mem_range.2 ha, mul_self_pos.2 h'⟩
  · exact sum_pos' (fun _ _ => mul_self_nonneg _) ⟨b, mem_range.2 hb, mul_self_pos.2 h'⟩

theorem spread_const (d : Nat) (v : Nat → ℝ) {w : Nat → ℝ} {t : ℝ} (h : ∀ a, a < d + 1 → w a = t) :
    spread d v w = 0 ∧ spread d w v = 0 := by
  have hd : (d + 1 : ℝ) ≠ 0 := by positivity
  have hm : mean d w = t := by
    unfold mean
    rw [sum_congr rfl fun a ha => h a (mem_range.1 ha), sum_const, card_range, nsmul_eq_mul]
    push_cast
    field_simp
  unfold spread
  constructor
  · rw [sum_eq_zero fun a ha => by rw [hm, h a (mem_range.1 ha)]; ring, zero_div]
  · rw [sum_eq_zero fun a ha => by rw [hm, h a (mem_range.1 ha)]; ring, zero_div]

/-- The integral over a cell of a product of two affine functions. -/
theorem integral_cell_product {d : Nat} (hd : d = 1 ∨ d = 2 ∨ d = 3) {X : Nat → Nat → ℝ} (h : detForm d X ≠ 0)
    (c c' : ℝ) (g g' : Nat → ℝ) :
    ∫ p in cellSet d X, affineFn d c g (extPoint p) * affineFn d c' g' (extPoint p) =
      |detForm d X| / (d.factorial : ℝ) * (mean d (fun a => affineFn d c g (X a)) * mean d (fun a => affineFn d c' g' (X a)) +
        spread d (fun a => affineFn d c g (X a)) fun a => affineFn d c' g' (X a)) := by
  have hd1 : (d : ℝ) + 1 ≠ 0 := by positivity
  have hd2 : (d : ℝ) + 2 ≠ 0 := by positivity
  have hdf : (d.factorial : ℝ) ≠ 0 := by positivity
  rw [detForm_eq hd] at h ⊢
  rw [integral_cell h]
  have e : ∀ (c : ℝ) (g : Nat → ℝ) (ξ : Fin d → ℝ), affineFn d c g (extPoint (refMap d X ξ)) =
      affineFn d c g (X d) + ∑ a : Fin d, (affineFn d c g (X a) - affineFn d c g (X d)) * ξ a := by
    intro c g ξ
    rw [affine_ext]
    unfold affineFn refMap
    simp only [mul_add, sum_add_distrib, mul_sum, add_assoc, sum_range]
    congr 2
    rw [sum_comm]
    refine sum_congr rfl fun a _ => ?_
    rw [add_sub_add_left_eq_sub, ← sum_sub_distrib, sum_mul]
    exact sum_congr rfl fun k _ => by ring
  simp only [e]
  rw [integral_ref_product]
  generalize hA : (fun a => affineFn d c g (X a)) = A
  generalize hB : (fun a => affineFn d c' g' (X a)) = B
  have hA' : ∀ a, affineFn d c g (X a) = A a := fun a => by rw [← hA]
  have hB' : ∀ a, affineFn d c' g' (X a) = B a := fun a => by rw [← hB]
  simp only [hA', hB']
  have key : spread d A B = ((∑ a ∈ range (d + 1), A a * B a) - (d + 1) * (mean d A * mean d B)) /
      ((d + 1 : ℝ) * (d + 2 : ℝ)) := by
    unfold spread
    congr 1
    have e1 : ∑ a ∈ range (d + 1), A a = (d + 1) * mean d A := by unfold mean; field_simp
    have e2 : ∑ a ∈ range (d + 1), B a = (d + 1) * mean d B := by unfold mean; field_simp
    rw [sum_congr rfl fun a _ => show (A a - mean d A) * (B a - mean d B) =
      A a * B a - A a * mean d B - mean d A * B a + mean d A * mean d B by ring]
    rw [sum_add_distrib, sum_sub_distrib, sum_sub_distrib, ← sum_mul, ← mul_sum, e1, e2, sum_const, card_range,
      nsmul_eq_mul]
    push_cast
    ring
  rw [key]
  unfold mean
  rw [sum_range_succ, sum_range_succ, sum_range_succ, sum_range, sum_range, sum_range, sum_sub_distrib, sum_sub_distrib,
    sum_congr rfl fun (a : Fin d) _ => show (A a - A d) * (B a - B d) =
      A a * B a - A a * B d - A d * B a + A d * B d by ring,
    sum_add_distrib, sum_sub_distrib, sum_sub_distrib, ← sum_mul, ← mul_sum]
  simp only [sum_const, card_univ, Fintype.card_fin, nsmul_eq_mul]
  rw [show (d + 2).factorial = (d + 2) * ((d + 1) * d.factorial) by
    rw [Nat.factorial_succ, Nat.factorial_succ], Nat.factorial_succ]
  push_cast
  field_simp
  ring

end Plato.Mass
