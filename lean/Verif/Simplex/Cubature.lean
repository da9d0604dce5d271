import Mathlib.Algebra.MvPolynomial.Degrees
import Mathlib.Topology.Algebra.MvPolynomial
import Mathlib.Tactic.IntervalCases
import Verif.Simplex.Integral
import Verif.Simplex.Model

/-!
# Cubature rules (C21)
-/

namespace Plato

open MeasureTheory Finset
open scoped BigOperators

/-- The weighted sum over the points stored in the two views. -/
noncomputable def cubSum (d : ℕ) (p : V2 ℝ) (w : List ℝ) (f : (Fin d → ℝ) → ℝ) : ℝ :=
  ∑ q ∈ range w.length, w.getD q 0 * f fun i => p.e q i

theorem cubSum_sum {d : ℕ} {p : V2 ℝ} {w : List ℝ} {ι : Type} (s : Finset ι)
    (f : ι → (Fin d → ℝ) → ℝ) :
    cubSum d p w (fun x => ∑ m ∈ s, f m x) = ∑ m ∈ s, cubSum d p w (f m) := by
  simp only [cubSum, Finset.mul_sum]
  exact Finset.sum_comm

/-- A bound for the error on monomials gives a bound for the error on polynomials. -/
theorem cub_error {d : ℕ} {p : V2 ℝ} {w : List ℝ} {k : ℕ} {δ : ℝ}
    (h : ∀ a : Fin d → ℕ, ∑ i, a i ≤ k → |cubSum d p w (fun x => ∏ i, x i ^ a i) -
      (∏ i, ((a i).factorial : ℝ)) / (∑ i, a i + d).factorial| ≤ δ)
    (P : MvPolynomial (Fin d) ℝ) (hP : P.totalDegree ≤ k) :
    |cubSum d p w (fun x => P.eval x) - ∫ x in simplexSet d 1, P.eval x| ≤
      δ * ∑ m ∈ P.support, |P.coeff m| := by
  have he : ∀ x : Fin d → ℝ, P.eval x = ∑ m ∈ P.support, P.coeff m * ∏ i, x i ^ m i :=
    fun x => MvPolynomial.eval_eq' x P
  have hint : ∫ x in simplexSet d 1, P.eval x = ∑ m ∈ P.support, P.coeff m *
      ((∏ i, ((m i).factorial : ℝ)) / (∑ i, m i + d).factorial) := by
    simp only [he]
    rw [integral_finsetSum]
    · refine Finset.sum_congr rfl fun m _ => ?_
      rw [integral_const_mul, integral_simplex_monomial d 1 zero_le_one]
      simp
    · intro m _
      exact ContinuousOn.integrableOn_compact (simplexSet_isCompact d 1) (by fun_prop)
  have hsum : cubSum d p w (fun x => P.eval x) = ∑ m ∈ P.support, P.coeff m *
      cubSum d p w (fun x => ∏ i, x i ^ m i) := by
    simp only [he]
    rw [cubSum_sum]
    refine Finset.sum_congr rfl fun m _ => ?_
    simp only [cubSum, Finset.mul_sum]
    exact Finset.sum_congr rfl fun q _ => by ring
  rw [hint, hsum, ← Finset.sum_sub_distrib, Finset.mul_sum]
  refine (Finset.abs_sum_le_sum_abs _ _).trans (Finset.sum_le_sum fun m hm => ?_)
  rw [← mul_sub, abs_mul, mul_comm]
  refine mul_le_mul_of_nonneg_right (h m ?_) (abs_nonneg _)
  have := MvPolynomial.le_totalDegree hm
  rw [Finsupp.sum_fintype _ _ (by simp)] at this
  exact this.trans hP

/-- How far the three literals are from the numbers they stand for. -/
structure CubLits.Near (lits : CubLits ℝ) (δ : ℝ) : Prop where
  line : |3 * lits.sqrt3_3 ^ 2 - 1| ≤ δ
  sum : |3 * lits.a + lits.b - 1| ≤ δ
  sq : |3 * lits.a ^ 2 + lits.b ^ 2 - 2 / 5| ≤ δ
  mixed : |2 * lits.a ^ 2 + 2 * lits.a * lits.b - 1 / 5| ≤ δ

/-- The request is one that the documentation supports. -/
def CubSupported (dim degree : ℤ) : Prop := (dim = 1 ∨ dim = 2 ∨ dim = 3) ∧ degree ≤ 3

theorem exps1 {k : ℕ} {a : Fin 1 → ℕ} (h : ∑ i, a i ≤ k) : ∃ x, a = ![x] ∧ x ≤ k :=
  ⟨a 0, by funext i; fin_cases i; rfl, by simpa using h⟩

theorem exps2 {k : ℕ} {a : Fin 2 → ℕ} (h : ∑ i, a i ≤ k) : ∃ x y, a = ![x, y] ∧ x + y ≤ k :=
  ⟨a 0, a 1, by funext i; fin_cases i <;> rfl, by simpa [Fin.sum_univ_succ] using h⟩

theorem exps3 {k : ℕ} {a : Fin 3 → ℕ} (h : ∑ i, a i ≤ k) :
    ∃ x y z, a = ![x, y, z] ∧ x + y + z ≤ k :=
  ⟨a 0, a 1, a 2, by funext i; fin_cases i <;> rfl, by
    simp [Fin.sum_univ_succ] at h; omega⟩

/-- The two views hold the given table. -/
structure HoldsTable {n d : ℕ} (p : V2 ℝ) (w : List ℝ) (x : Fin n → Fin d → ℝ) (c : Fin n → ℝ) :
    Prop where
  d0 : p.d0 = n
  d1 : p.d1 = d
  weights : w = List.ofFn c
  points : ∀ (q : Fin n) (i : Fin d), p.e q i = x q i

theorem HoldsTable.cubSum {n d : ℕ} {p : V2 ℝ} {w : List ℝ} {x : Fin n → Fin d → ℝ} {c : Fin n → ℝ}
    (h : HoldsTable p w x c) (f : (Fin d → ℝ) → ℝ) : Plato.cubSum d p w f = ∑ q, c q * f (x q) := by
  have hl : w.length = n := by simp [h.weights]
  rw [Plato.cubSum, hl, ← Fin.sum_univ_eq_sum_range
    (fun q => w.getD q 0 * f fun i => p.e q i) n]
  refine Finset.sum_congr rfl fun q _ => ?_
  have e1 : w.getD q 0 = c q := by simp [h.weights]
  have e2 : (fun i : Fin d => p.e q i) = x q := by funext i; exact h.points q i
  rw [e1, e2]

/-- The error of a table on one monomial. -/
noncomputable def monoErr {n d : ℕ} (x : Fin n → Fin d → ℝ) (c : Fin n → ℝ) (a : Fin d → ℕ) : ℝ :=
  ∑ q, c q * ∏ i, x q i ^ a i - (∏ i, ((a i).factorial : ℝ)) / (∑ i, a i + d).factorial

theorem near_of {δ x : ℝ} (c r : ℝ) (hr : |r| ≤ δ) (h0 : 0 ≤ c) (h1 : c ≤ 1) (h : x = c * r) :
    |x| ≤ δ := by
  rw [h, abs_mul, abs_of_nonneg h0]
  nlinarith [abs_nonneg r]

theorem near_zero {δ x : ℝ} (hδ : 0 ≤ δ) (h : x = 0) : |x| ≤ δ := by
  rw [h, abs_zero]; exact hδ

local macro "mono" : tactic => `(tactic|
  (rw [monoErr]
   conv_lhs =>
     arg 1
     simp [Fin.sum_univ_succ, Fin.prod_univ_succ, Nat.factorial]
   first
   | exact near_zero ‹_› (by first | rfl | ring1)
   | exact near_of (1 / 12) _ (CubLits.Near.line ‹_›) (by norm_num) (by norm_num) (by ring1)
   | exact near_of (1 / 8) _ (CubLits.Near.line ‹_›) (by norm_num) (by norm_num) (by ring1)
   | exact near_of (1 / 24) _ (CubLits.Near.sum ‹_›) (by norm_num) (by norm_num) (by ring1)
   | exact near_of (1 / 24) _ (CubLits.Near.sq ‹_›) (by norm_num) (by norm_num) (by ring1)
   | exact near_of (1 / 24) _ (CubLits.Near.mixed ‹_›) (by norm_num) (by norm_num) (by ring1)))

theorem len1 {w : List ℝ} (h : w.length = 1) : ∃ w0, w = [w0] := List.length_eq_one_iff.mp h

theorem len2 {w : List ℝ} (h : w.length = 2) : ∃ w0 w1, w = [w0, w1] := List.length_eq_two.mp h

theorem len3 {w : List ℝ} (h : w.length = 3) : ∃ w0 w1 w2, w = [w0, w1, w2] :=
  List.length_eq_three.mp h

theorem len4 {w : List ℝ} (h : w.length = 4) : ∃ w0 w1 w2 w3, w = [w0, w1, w2, w3] := by
  obtain ⟨a, t, rfl⟩ := List.exists_cons_of_length_eq_add_one h
  obtain ⟨b, c, d, rfl⟩ := len3 (w := t) (by simpa using h)
  exact ⟨a, b, c, d, rfl⟩

theorem len5 {w : List ℝ} (h : w.length = 5) : ∃ w0 w1 w2 w3 w4, w = [w0, w1, w2, w3, w4] := by
  obtain ⟨a, t, rfl⟩ := List.exists_cons_of_length_eq_add_one h
  obtain ⟨b, c, d, e, rfl⟩ := len4 (w := t) (by simpa using h)
  exact ⟨a, b, c, d, e, rfl⟩

variable {lits : CubLits ℝ} {δ : ℝ}

/-- The request is answered with a table whose error on monomials up to degree `k` is at most `δ`. -/
def Answered (lits : CubLits ℝ) (δ : ℝ) (d : ℕ) (degree : ℤ) (n k : ℕ) (points : V2 ℝ)
    (weights : List ℝ) : Prop :=
  ∃ p w, getCubature lits d degree points weights = .ok (p, w) ∧
    ∃ (x : Fin n → Fin d → ℝ) (c : Fin n → ℝ), HoldsTable p w x c ∧
      ∀ a : Fin d → ℕ, ∑ i, a i ≤ k → |monoErr x c a| ≤ δ

theorem cub_1_1 (hδ : 0 ≤ δ) {degree : ℤ} (hdeg : degree ≤ 1) {e : ℕ → ℕ → ℝ}
    {weights : List ℝ} (h2 : weights.length = 1) :
    Answered lits δ 1 degree 1 1 ⟨1, 1, e⟩ weights := by
  obtain ⟨w0, rfl⟩ := len1 h2
  refine ⟨_, _, by
    simp only [getCubature, getNumCubaturePoints, hdeg, if_true, Nat.cast_one, Nat.cast_ofNat, if_false,
      Int.reduceEq]
    rfl, ![![1 / 2]], ![1],
    ⟨rfl, rfl, by simp [List.ofFn_succ], fun q i => by fin_cases q <;> fin_cases i <;> rfl⟩,
    fun a ha => ?_⟩
  obtain ⟨x, rfl, hx⟩ := exps1 ha
  have hx : x ≤ 1 := by omega
  clear ha
  interval_cases x <;> first | omega | mono

theorem cub_1_2 (hδ : 0 ≤ δ) (hl : lits.Near δ) {e : ℕ → ℕ → ℝ}
    {weights : List ℝ} (h2 : weights.length = 2) :
    Answered lits δ 1 2 2 2 ⟨2, 1, e⟩ weights := by
  obtain ⟨w0, w1, rfl⟩ := len2 h2
  refine ⟨_, _, rfl, ![![((lits.sqrt3_3 + 1) / 2)], ![((-lits.sqrt3_3 + 1) / 2)]], ![(1 / 2), (1 / 2)],
    ⟨rfl, rfl, by simp [List.ofFn_succ], fun q i => by fin_cases q <;> fin_cases i <;> rfl⟩,
    fun a ha => ?_⟩
  obtain ⟨x, rfl, hx⟩ := exps1 ha
  have hx : x ≤ 2 := by omega
  clear ha
  interval_cases x <;> first | omega | mono

theorem cub_1_3 (hδ : 0 ≤ δ) (hl : lits.Near δ) {e : ℕ → ℕ → ℝ}
    {weights : List ℝ} (h2 : weights.length = 2) :
    Answered lits δ 1 3 2 3 ⟨2, 1, e⟩ weights := by
  obtain ⟨w0, w1, rfl⟩ := len2 h2
  refine ⟨_, _, rfl, ![![((lits.sqrt3_3 + 1) / 2)], ![((-lits.sqrt3_3 + 1) / 2)]], ![(1 / 2), (1 / 2)],
    ⟨rfl, rfl, by simp [List.ofFn_succ], fun q i => by fin_cases q <;> fin_cases i <;> rfl⟩,
    fun a ha => ?_⟩
  obtain ⟨x, rfl, hx⟩ := exps1 ha
  have hx : x ≤ 3 := by omega
  clear ha
  interval_cases x <;> first | omega | mono

theorem cub_2_1 (hδ : 0 ≤ δ) {degree : ℤ} (hdeg : degree ≤ 1) {e : ℕ → ℕ → ℝ}
    {weights : List ℝ} (h2 : weights.length = 1) :
    Answered lits δ 2 degree 1 1 ⟨1, 2, e⟩ weights := by
  obtain ⟨w0, rfl⟩ := len1 h2
  refine ⟨_, _, by
    simp only [getCubature, getNumCubaturePoints, hdeg, if_true, Nat.cast_one, Nat.cast_ofNat, if_false,
      Int.reduceEq]
    rfl, ![![1 / 3, 1 / 3]], ![(1 / 2)],
    ⟨rfl, rfl, by simp [List.ofFn_succ], fun q i => by fin_cases q <;> fin_cases i <;> rfl⟩,
    fun a ha => ?_⟩
  obtain ⟨x, y, rfl, hx⟩ := exps2 ha
  have hx : x ≤ 1 := by omega
  have hy : y ≤ 1 := by omega
  clear ha
  interval_cases x <;> interval_cases y <;> first | omega | mono

theorem cub_2_2 (hδ : 0 ≤ δ) {e : ℕ → ℕ → ℝ}
    {weights : List ℝ} (h2 : weights.length = 3) :
    Answered lits δ 2 2 3 2 ⟨3, 2, e⟩ weights := by
  obtain ⟨w0, w1, w2, rfl⟩ := len3 h2
  refine ⟨_, _, rfl, ![![1 / 6, 1 / 6], ![1 / 6, 2 / 3], ![2 / 3, 1 / 6]], ![(1 / 6), (1 / 6), (1 / 6)],
    ⟨rfl, rfl, by simp [List.ofFn_succ], fun q i => by fin_cases q <;> fin_cases i <;> rfl⟩,
    fun a ha => ?_⟩
  obtain ⟨x, y, rfl, hx⟩ := exps2 ha
  have hx : x ≤ 2 := by omega
  have hy : y ≤ 2 := by omega
  clear ha
  interval_cases x <;> interval_cases y <;> first | omega | mono

theorem cub_2_3 (hδ : 0 ≤ δ) {e : ℕ → ℕ → ℝ}
    {weights : List ℝ} (h2 : weights.length = 4) :
    Answered lits δ 2 3 4 3 ⟨4, 2, e⟩ weights := by
  obtain ⟨w0, w1, w2, w3, rfl⟩ := len4 h2
  refine ⟨_, _, rfl, ![![1 / 3, 1 / 3], ![1 / 5, 1 / 5], ![1 / 5, 3 / 5], ![3 / 5, 1 / 5]], ![(-9 / 32), (25 / 96), (25 / 96), (25 / 96)],
    ⟨rfl, rfl, by simp [List.ofFn_succ], fun q i => by fin_cases q <;> fin_cases i <;> rfl⟩,
    fun a ha => ?_⟩
  obtain ⟨x, y, rfl, hx⟩ := exps2 ha
  have hx : x ≤ 3 := by omega
  have hy : y ≤ 3 := by omega
  clear ha
  interval_cases x <;> interval_cases y <;> first | omega | mono

theorem cub_3_1 (hδ : 0 ≤ δ) {degree : ℤ} (hdeg : degree ≤ 1) {e : ℕ → ℕ → ℝ}
    {weights : List ℝ} (h2 : weights.length = 1) :
    Answered lits δ 3 degree 1 1 ⟨1, 3, e⟩ weights := by
  obtain ⟨w0, rfl⟩ := len1 h2
  refine ⟨_, _, by
    simp only [getCubature, getNumCubaturePoints, hdeg, if_true, Nat.cast_one, Nat.cast_ofNat, if_false,
      Int.reduceEq]
    rfl, ![![1 / 4, 1 / 4, 1 / 4]], ![(1 / 6)],
    ⟨rfl, rfl, by simp [List.ofFn_succ], fun q i => by fin_cases q <;> fin_cases i <;> rfl⟩,
    fun a ha => ?_⟩
  obtain ⟨x, y, z, rfl, hx⟩ := exps3 ha
  have hx : x ≤ 1 := by omega
  have hy : y ≤ 1 := by omega
  have hz : z ≤ 1 := by omega
  clear ha
  interval_cases x <;> interval_cases y <;> interval_cases z <;> first | omega | mono

theorem cub_3_2 (hδ : 0 ≤ δ) (hl : lits.Near δ) {e : ℕ → ℕ → ℝ}
    {weights : List ℝ} (h2 : weights.length = 4) :
    Answered lits δ 3 2 4 2 ⟨4, 3, e⟩ weights := by
  obtain ⟨w0, w1, w2, w3, rfl⟩ := len4 h2
  refine ⟨_, _, rfl, ![![lits.a, lits.a, lits.a], ![lits.b, lits.a, lits.a], ![lits.a, lits.b, lits.a], ![lits.a, lits.a, lits.b]], ![(1 / 24), (1 / 24), (1 / 24), (1 / 24)],
    ⟨rfl, rfl, by simp [List.ofFn_succ], fun q i => by fin_cases q <;> fin_cases i <;> rfl⟩,
    fun a ha => ?_⟩
  obtain ⟨x, y, z, rfl, hx⟩ := exps3 ha
  have hx : x ≤ 2 := by omega
  have hy : y ≤ 2 := by omega
  have hz : z ≤ 2 := by omega
  clear ha
  interval_cases x <;> interval_cases y <;> interval_cases z <;> first | omega | mono

theorem cub_3_3 (hδ : 0 ≤ δ) {e : ℕ → ℕ → ℝ}
    {weights : List ℝ} (h2 : weights.length = 5) :
    Answered lits δ 3 3 5 3 ⟨5, 3, e⟩ weights := by
  obtain ⟨w0, w1, w2, w3, w4, rfl⟩ := len5 h2
  refine ⟨_, _, rfl, ![![1 / 4, 1 / 4, 1 / 4], ![1 / 6, 1 / 6, 1 / 6], ![1 / 6, 1 / 6, 1 / 2], ![1 / 6, 1 / 2, 1 / 6], ![1 / 2, 1 / 6, 1 / 6]], ![(-2 / 15), (3 / 40), (3 / 40), (3 / 40), (3 / 40)],
    ⟨rfl, rfl, by simp [List.ofFn_succ], fun q i => by fin_cases q <;> fin_cases i <;> rfl⟩,
    fun a ha => ?_⟩
  obtain ⟨x, y, z, rfl, hx⟩ := exps3 ha
  have hx : x ≤ 3 := by omega
  have hy : y ≤ 3 := by omega
  have hz : z ≤ 3 := by omega
  clear ha
  interval_cases x <;> interval_cases y <;> interval_cases z <;> first | omega | mono

/-- Every supported request with views of the right extents is answered by a rule whose error on
polynomials is bounded by the error of the stored literals. -/
theorem cub_answered (hδ : 0 ≤ δ) (hl : lits.Near δ) {d : ℕ} {degree : ℤ}
    (hs : CubSupported d degree) {n : ℕ} (hn : getNumCubaturePoints d degree = .ok n)
    {points : V2 ℝ} {weights : List ℝ} (h0 : points.d0 = n) (h1 : points.d1 = d)
    (h2 : weights.length = n) :
    Answered lits δ d degree n (max 1 degree).toNat points weights := by
  obtain ⟨hd, hdeg⟩ := hs
  have hd : d = 1 ∨ d = 2 ∨ d = 3 := by omega
  have hdeg : degree ≤ 1 ∨ degree = 2 ∨ degree = 3 := by omega
  obtain ⟨d0, d1, e⟩ := points
  simp only at h0 h1
  subst h0 h1
  rcases hdeg with hdeg | rfl | rfl
  · rw [max_eq_left hdeg]
    rcases hd with rfl | rfl | rfl <;>
      simp only [getNumCubaturePoints, hdeg, if_true, if_false, Nat.cast_ofNat, Nat.cast_one,
        Int.reduceEq, Res.ok.injEq] at hn <;> subst hn
    · exact cub_1_1 hδ hdeg h2
    · exact cub_2_1 hδ hdeg h2
    · exact cub_3_1 hδ hdeg h2
  · rcases hd with rfl | rfl | rfl <;> cases hn
    · exact cub_1_2 hδ hl h2
    · exact cub_2_2 hδ h2
    · exact cub_3_2 hδ hl h2
  · rcases hd with rfl | rfl | rfl <;> cases hn
    · exact cub_1_3 hδ hl h2
    · exact cub_2_3 hδ h2
    · exact cub_3_3 hδ h2

/-- **C21**, with the literals of the source as real numbers near the exact points: for every
supported request the stored rule integrates every polynomial of the requested degree up to the
error of the literals, relative to the sum of the absolute values of its coefficients. -/
theorem C21_near (hδ : 0 ≤ δ) (hl : lits.Near δ) {d : ℕ} {degree : ℤ} (hs : CubSupported d degree)
    {n : ℕ} (hn : getNumCubaturePoints d degree = .ok n) {points : V2 ℝ} {weights : List ℝ}
    (h0 : points.d0 = n) (h1 : points.d1 = d) (h2 : weights.length = n) :
    ∃ p w, getCubature lits d degree points weights = .ok (p, w) ∧
      p.d0 = n ∧ p.d1 = d ∧ w.length = n ∧
      ∀ P : MvPolynomial (Fin d) ℝ, (P.totalDegree : ℤ) ≤ max 1 degree →
        |cubSum d p w (fun x => P.eval x) - ∫ x in simplexSet d 1, P.eval x| ≤
          δ * ∑ m ∈ P.support, |P.coeff m| := by
  obtain ⟨p, w, hr, x, c, ht, herr⟩ := cub_answered hδ hl hs hn h0 h1 h2
  refine ⟨p, w, hr, ht.d0, ht.d1, by simp [ht.weights], fun P hP => ?_⟩
  refine cub_error (k := (max 1 degree).toNat) (fun a ha => ?_) P (by omega)
  rw [ht.cubSum]
  exact herr a ha

/-- **C21.**  With the exact points every supported rule integrates every polynomial of the requested
degree (at least one) exactly. -/
theorem C21_exact (hl : lits.Near 0) {d : ℕ} {degree : ℤ} (hs : CubSupported d degree) {n : ℕ}
    (hn : getNumCubaturePoints d degree = .ok n) {points : V2 ℝ} {weights : List ℝ}
    (h0 : points.d0 = n) (h1 : points.d1 = d) (h2 : weights.length = n) :
    ∃ p w, getCubature lits d degree points weights = .ok (p, w) ∧
      p.d0 = n ∧ p.d1 = d ∧ w.length = n ∧
      ∀ P : MvPolynomial (Fin d) ℝ, (P.totalDegree : ℤ) ≤ max 1 degree →
        cubSum d p w (fun x => P.eval x) = ∫ x in simplexSet d 1, P.eval x := by
  obtain ⟨p, w, hr, h3, h4, h5, h⟩ := C21_near le_rfl hl hs hn h0 h1 h2
  refine ⟨p, w, hr, h3, h4, h5, fun P hP => ?_⟩
  have := h P hP
  rw [zero_mul] at this
  linarith [abs_nonpos_iff.mp this]

/-- The literals of Cubature.cpp, read as decimal numbers (before rounding to a double). -/
noncomputable def sourceLits : CubLits ℝ where
  sqrt3_3 := 0.5773502691896257645091487805019574556476
  a := 0.1381966011250105151795413165634361882280
  b := 0.5854101966249684544613760503096914353161

/-- The literals of the source are correct to 39 digits. -/
theorem sourceLits_near : sourceLits.Near (10⁻¹ ^ 39) := by
  constructor <;> simp only [sourceLits] <;> rw [abs_le] <;> constructor <;> norm_num

/-- There are literals for which the rules are exact. -/
theorem exactLits_near : (⟨√3 / 3, (5 - √5) / 20, (5 + 3 * √5) / 20⟩ : CubLits ℝ).Near 0 := by
  have h3 : √3 ^ 2 = 3 := Real.sq_sqrt (by norm_num)
  have h5 : √5 ^ 2 = 5 := Real.sq_sqrt (by norm_num)
  constructor <;> rw [abs_le] <;> constructor <;> simp only <;> nlinarith

/-- Requests that are not supported are rejected before anything is stored, and so are views with
other extents. -/
theorem C21_rejected {K : Type} [Field K] (lits : CubLits K) {dim degree : ℤ} (points : V2 K)
    (weights : List K) :
    (¬ CubSupported dim degree → ∃ m, getCubature lits dim degree points weights = .err m) ∧
    (∀ n, getNumCubaturePoints dim degree = .ok n →
      ¬ (points.d0 = n ∧ (points.d1 : ℤ) = dim ∧ weights.length = n) →
      ∃ m, getCubature lits dim degree points weights = .err m) := by
  constructor
  · intro h
    have : ∃ m, getNumCubaturePoints dim degree = .err m := by
      simp only [CubSupported, not_and_or, not_or, not_le] at h
      simp only [getNumCubaturePoints, throwErr]
      split
      · have : ¬ degree ≤ 1 ∧ ¬ degree ≤ 3 := by omega
        simp [this]
      · split
        · have : ¬ degree ≤ 1 ∧ ¬ degree = 2 ∧ ¬ degree = 3 := by omega
          simp [this]
        · split
          · have : ¬ degree ≤ 1 ∧ ¬ degree = 2 ∧ ¬ degree = 3 := by omega
            simp [this]
          · simp
    obtain ⟨m, hm⟩ := this
    exact ⟨m, by simp [getCubature, hm]⟩
  · intro n hn h
    rw [getCubature, hn, Res.ok_bind]
    by_cases c0 : points.d0 = n
    · rw [if_neg (not_not.mpr c0)]
      by_cases c1 : (points.d1 : ℤ) = dim
      · rw [if_neg (not_not.mpr c1), if_pos fun c2 => h ⟨c0, c1, c2⟩]
        exact ⟨_, rfl⟩
      · rw [if_pos c1]
        exact ⟨_, rfl⟩
    · rw [if_pos c0]
      exact ⟨_, rfl⟩

/-- The weights of every rule add up to the volume of the reference simplex. -/
theorem C21_weights {d : ℕ} {degree : ℤ} (hs : CubSupported d degree) {n : ℕ}
    (hn : getNumCubaturePoints d degree = .ok n) {points : V2 ℝ} {weights : List ℝ}
    (h0 : points.d0 = n) (h1 : points.d1 = d) (h2 : weights.length = n) :
    ∃ p w, getCubature sourceLits d degree points weights = .ok (p, w) ∧
      w.sum = volume.real (simplexSet d 1) ∧ w.sum = 1 / d.factorial := by
  obtain ⟨hd, hdeg⟩ := hs
  have hvol : volume.real (simplexSet d 1) = 1 / d.factorial := by
    have := integral_simplex_monomial d 1 zero_le_one (fun _ => 0)
    simpa using this
  suffices h : ∃ p w, getCubature sourceLits d degree points weights = .ok (p, w) ∧
      w.sum = 1 / d.factorial by
    obtain ⟨p, w, h, hw⟩ := h
    exact ⟨p, w, h, by rw [hvol, hw], hw⟩
  have hd : d = 1 ∨ d = 2 ∨ d = 3 := by omega
  have hdeg : degree ≤ 1 ∨ degree = 2 ∨ degree = 3 := by omega
  obtain ⟨d0, d1, e⟩ := points
  simp only at h0 h1
  subst h0 h1
  rcases hdeg with hdeg | rfl | rfl
  · rcases hd with rfl | rfl | rfl <;>
      simp only [getNumCubaturePoints, hdeg, if_true, if_false, Nat.cast_ofNat, Nat.cast_one,
        Int.reduceEq, Res.ok.injEq] at hn <;> subst hn <;> obtain ⟨w0, rfl⟩ := len1 h2 <;>
    refine ⟨_, _, by
      simp only [getCubature, getNumCubaturePoints, hdeg, if_true, Nat.cast_one, Nat.cast_ofNat,
        if_false, Int.reduceEq]
      rfl, ?_⟩ <;> norm_num [Nat.factorial]
  · rcases hd with rfl | rfl | rfl <;> cases hn
    · obtain ⟨_, _, rfl⟩ := len2 h2
      exact ⟨_, _, rfl, by norm_num [Nat.factorial]⟩
    · obtain ⟨_, _, _, rfl⟩ := len3 h2
      exact ⟨_, _, rfl, by norm_num [Nat.factorial]⟩
    · obtain ⟨_, _, _, _, rfl⟩ := len4 h2
      exact ⟨_, _, rfl, by norm_num [Nat.factorial]⟩
  · rcases hd with rfl | rfl | rfl <;> cases hn
    · obtain ⟨_, _, rfl⟩ := len2 h2
      exact ⟨_, _, rfl, by norm_num [Nat.factorial]⟩
    · obtain ⟨_, _, _, _, rfl⟩ := len4 h2
      exact ⟨_, _, rfl, by norm_num [Nat.factorial]⟩
    · obtain ⟨_, _, _, _, _, rfl⟩ := len5 h2
      exact ⟨_, _, rfl, by norm_num [Nat.factorial]⟩

/-- The hypotheses are met: the five point rule in three dimensions. -/
example : CubSupported (3 : ℕ) 3 ∧ getNumCubaturePoints (3 : ℕ) 3 = .ok 5 :=
  ⟨⟨by decide, by decide⟩, rfl⟩

/-- `LinearTetCubRuleDegreeOne`: the rule is exact for affine functions, its weight is the volume of
the reference simplex, and its basis functions are the barycentric coordinates of the point (all equal). -/
theorem C21_degree_one {d : ℕ} (hd : d = 1 ∨ d = 2 ∨ d = 3) :
    ∃ r : CubRule ℝ, linearTetCubRule d = .ok r ∧ r.coords.length = d ∧
      (∀ P : MvPolynomial (Fin d) ℝ, P.totalDegree ≤ 1 →
        r.weight * P.eval (fun i : Fin d => r.coords.getD i 0) = ∫ x in simplexSet d 1, P.eval x) ∧
      r.basis = List.replicate (d + 1) (1 / (d + 1 : ℝ)) := by
  have key : ∀ (c : List ℝ) (wt : ℝ), (∀ a : Fin d → ℕ, ∑ i, a i ≤ 1 →
      wt * ∏ i : Fin d, c.getD i 0 ^ a i = (∏ i, ((a i).factorial : ℝ)) / (∑ i, a i + d).factorial) →
      ∀ P : MvPolynomial (Fin d) ℝ, P.totalDegree ≤ 1 →
        wt * P.eval (fun i : Fin d => c.getD i 0) = ∫ x in simplexSet d 1, P.eval x := by
    intro c wt h P hP
    have := cub_error (d := d) (p := ⟨1, d, fun _ i => c.getD i 0⟩) (w := [wt]) (k := 1) (δ := 0)
      (fun a ha => by simp only [cubSum, List.length_singleton, Finset.sum_range_one,
        List.getD_cons_zero]; rw [h a ha]; simp) P hP
    simp only [cubSum, List.length_singleton, Finset.sum_range_one, List.getD_cons_zero, zero_mul]
      at this
    linarith [abs_nonpos_iff.mp this]
  rcases hd with rfl | rfl | rfl
  · refine ⟨_, rfl, rfl, key _ _ fun a ha => ?_, ?_⟩
    · obtain ⟨x, rfl, hx⟩ := exps1 ha
      interval_cases x <;> norm_num [Nat.factorial]
    · norm_num [List.replicate]
  · refine ⟨_, rfl, rfl, key _ _ fun a ha => ?_, ?_⟩
    · obtain ⟨x, y, rfl, hx⟩ := exps2 ha
      have hxx : x ≤ 1 := by omega
      have hyy : y ≤ 1 := by omega
      clear ha
      interval_cases x <;> interval_cases y <;> first | omega | norm_num [Nat.factorial, Fin.prod_univ_succ, Fin.sum_univ_succ]
    · norm_num [List.replicate]
  · refine ⟨_, rfl, rfl, key _ _ fun a ha => ?_, ?_⟩
    · obtain ⟨x, y, z, rfl, hx⟩ := exps3 ha
      have hxx : x ≤ 1 := by omega
      have hyy : y ≤ 1 := by omega
      have hzz : z ≤ 1 := by omega
      clear ha
      interval_cases x <;> interval_cases y <;> interval_cases z <;>
        first | omega | norm_num [Nat.factorial, Fin.prod_univ_succ, Fin.sum_univ_succ]
    · norm_num [List.replicate]

end Plato
