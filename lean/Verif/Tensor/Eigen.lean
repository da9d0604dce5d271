import Verif.Tensor.EigenModel
import Verif.Blas.Matrix
import Mathlib.Analysis.Matrix.Spectrum
import Mathlib.LinearAlgebra.Matrix.Notation
import Mathlib.Tactic.Linarith
import Mathlib.Tactic.Ring
import Mathlib.Tactic.FieldSimp
import Mathlib.Tactic.Positivity
import Mathlib.Tactic.FinCases
import Mathlib.Tactic.IntervalCases

/-!
# C36: principal values
-/

namespace Plato.Tensor
open Finset Plato

/-! ## Specification -/

/-- `l` is an eigenvalue of `A`. -/
def IsEigen {n : Nat} (A : Matrix (Fin n) (Fin n) ℝ) (l : ℝ) : Prop := ∃ v : Fin n → ℝ, v ≠ 0 ∧ A.mulVec v = l • v

/-- The symmetric tensor with the Voigt components `v` in the order xx, yy, zz, yz, xz, xy; the shear
components of a strain are twice the entries. -/
noncomputable def voigt3 (v : Nat → ℝ) (strain : Bool) : Matrix (Fin 3) (Fin 3) ℝ :=
  let h : ℝ := if strain then 1 / 2 else 1
  !![v 0, h * v 5, h * v 4; h * v 5, v 1, h * v 3; h * v 4, h * v 3, v 2]

/-- The same in two dimensions: xx, yy, xy. -/
noncomputable def voigt2 (v : Nat → ℝ) (strain : Bool) : Matrix (Fin 2) (Fin 2) ℝ :=
  let h : ℝ := if strain then 1 / 2 else 1
  !![v 0, h * v 2; h * v 2, v 1]

/-- Sum of the squares of the entries above the diagonal. -/
def offDiag (A : Matrix (Fin 3) (Fin 3) ℝ) : ℝ := A 0 1 ^ 2 + A 0 2 ^ 2 + A 1 2 ^ 2

/-! ## The rotation -/

theorem tangent_spec (tau : ℝ) : tangent tau ^ 2 + 2 * tau * tangent tau = 1 := by
  have h0 : 0 ≤ 1 + tau * tau := by nlinarith [mul_self_nonneg tau]
  have hs := Real.sq_sqrt h0
  have hp : 0 < Real.sqrt (1 + tau * tau) := Real.sqrt_pos.2 (by nlinarith [mul_self_nonneg tau])
  unfold tangent
  generalize Real.sqrt (1 + tau * tau) = r at *
  split_ifs with h
  · have : tau + r ≠ 0 := by linarith [h]
    field_simp
    nlinarith
  · have : r - tau ≠ 0 := by push Not at h; linarith
    field_simp
    nlinarith

theorem cos_sq (t : ℝ) : (1 / Real.sqrt (1 + t * t)) ^ 2 * (1 + t ^ 2) = 1 := by
  have h0 : 0 < 1 + t * t := by nlinarith [mul_self_nonneg t]
  rw [div_pow, Real.sq_sqrt h0.le, one_pow, ← sq]
  have : 1 + t ^ 2 ≠ 0 := by nlinarith
  field_simp

/-- Cosine and sine belong to a rotation. -/
theorem rotation_unit (T : Nat → Nat → ℝ) (p q : Nat) : (rotation T p q).1 ^ 2 + (rotation T p q).2 ^ 2 = 1 := by
  unfold rotation
  dsimp only
  split_ifs with h
  · have := cos_sq (tangent ((T q q - T p p) / (2 * T p q)))
    linear_combination this
  · norm_num

/-- The rotation removes the entry, unless it is small already, in which case nothing is done. -/
theorem rotation_zero (T : Nat → Nat → ℝ) (p q : Nat) :
    ((rotation T p q).1 ^ 2 - (rotation T p q).2 ^ 2) * T p q +
      (rotation T p q).1 * (rotation T p q).2 * (T p p - T q q) = 0 ∨
    (|T p q| ≤ 1 / 10 ^ 15 ∧ rotation T p q = (1, 0)) := by
  unfold rotation
  dsimp only
  split_ifs with h
  · left
    have h0 : T p q ≠ 0 := by
      rintro h'
      rw [h', abs_zero] at h
      exact absurd h (by norm_num)
    have ht := tangent_spec ((T q q - T p p) / (2 * T p q))
    generalize tangent ((T q q - T p p) / (2 * T p q)) = t at *
    generalize 1 / Real.sqrt (1 + t * t) = c at *
    have e : T q q - T p p = 2 * T p q * ((T q q - T p p) / (2 * T p q)) := by field_simp
    generalize (T q q - T p p) / (2 * T p q) = tau at *
    have e' : T p p - T q q = -(2 * T p q * tau) := by linarith
    rw [e']
    linear_combination (-(c ^ 2 * T p q)) * ht
  · exact .inr ⟨not_lt.1 h, rfl⟩

/-- The pivot is above the diagonal and no entry is larger. -/
theorem pivot_cases (T : Nat → Nat → ℝ) :
    (pivot T = (0, 1) ∧ |T 0 2| ≤ |T 0 1| ∧ |T 1 2| ≤ |T 0 1|) ∨
    (pivot T = (0, 2) ∧ |T 0 1| ≤ |T 0 2| ∧ |T 1 2| ≤ |T 0 2|) ∨
    (pivot T = (1, 2) ∧ |T 0 1| ≤ |T 1 2| ∧ |T 0 2| ≤ |T 1 2|) := by
  unfold pivot
  dsimp only
  by_cases h23 : |T 0 1| ≥ |T 0 2| ∧ |T 0 1| ≥ |T 1 2|
  · left
    rw [if_pos h23, if_neg (not_not.2 (.inr h23.2))]
    exact ⟨rfl, h23.1, h23.2⟩
  · right
    rw [if_neg h23]
    by_cases h13 : |T 0 2| ≥ |T 1 2| ∨ |T 0 1| ≥ |T 1 2|
    · left
      rw [if_neg (not_not.2 h13)]
      by_cases h2 : |T 0 1| ≥ |T 0 2|
      · have h3 : ¬ |T 0 1| ≥ |T 1 2| := fun h3 => h23 ⟨h2, h3⟩
        exact absurd ((h13.resolve_right h3).trans h2) h3
      · rcases h13 with h | h
        · exact ⟨rfl, (not_le.1 h2).le, h⟩
        · exact ⟨rfl, (not_le.1 h2).le, (h.trans (not_le.1 h2).le)⟩
    · right
      rw [if_pos h13]
      have h1 : ¬ |T 0 2| ≥ |T 1 2| := fun h => h13 (.inl h)
      have h3 : ¬ |T 0 1| ≥ |T 1 2| := fun h => h13 (.inr h)
      exact ⟨rfl, (not_le.1 h3).le, (not_le.1 h1).le⟩

/-! ## One step -/

/-- The local array as a matrix. -/
def mat (T : Nat → Nat → ℝ) : Matrix (Fin 3) (Fin 3) ℝ := Matrix.of fun i j => T i j

/-- The array is symmetric. -/
def Symm (T : Nat → Nat → ℝ) : Prop := T 1 0 = T 0 1 ∧ T 2 0 = T 0 2 ∧ T 2 1 = T 1 2

theorem rotate_symm (T G : Nat → Nat → ℝ) : Symm (rotate T G) := by
  refine ⟨?_, ?_, ?_⟩ <;> simp [rotate]

theorem mat_rotate {T : Nat → Nat → ℝ} (hT : Symm T) (G : Nat → Nat → ℝ) :
    mat (rotate T G) = (mat G).transpose * mat T * mat G := by
  obtain ⟨h1, h2, h3⟩ := hT
  ext i j
  fin_cases i <;> fin_cases j <;>
    simp [mat, rotate, Matrix.mul_apply, Fin.sum_univ_three, sum_range_succ, h1, h2, h3] <;> ring

theorem mat_givens {p q : Nat} (h : p = 0 ∧ q = 1 ∨ p = 0 ∧ q = 2 ∨ p = 1 ∧ q = 2) {c s : ℝ} (hcs : c ^ 2 + s ^ 2 = 1) :
    (mat (givens p q c s)).transpose * mat (givens p q c s) = 1 := by
  rcases h with ⟨rfl, rfl⟩ | ⟨rfl, rfl⟩ | ⟨rfl, rfl⟩ <;>
  · ext i j
    fin_cases i <;> fin_cases j <;>
      simp [mat, givens, Matrix.mul_apply, Fin.sum_univ_three] <;> linarith

theorem abs_le_sq {a b : ℝ} (h : |a| ≤ |b|) : a ^ 2 ≤ b ^ 2 := sq_le_sq.2 h

/-- One iteration: a similarity by a rotation, after which the off-diagonal part has lost a third, or is
negligible. -/
theorem jacobiStep_spec {T : Nat → Nat → ℝ} (hT : Symm T) :
    Symm (jacobiStep T) ∧
    (∃ G : Matrix (Fin 3) (Fin 3) ℝ, G.transpose * G = 1 ∧ mat (jacobiStep T) = G.transpose * mat T * G) ∧
    (offDiag (mat (jacobiStep T)) ≤ 2 / 3 * offDiag (mat T) ∨
      offDiag (mat (jacobiStep T)) = offDiag (mat T) ∧ offDiag (mat T) ≤ 3 / 10 ^ 30) := by
  have hj : jacobiStep T = rotate T (givens (pivot T).1 (pivot T).2 (rotation T (pivot T).1 (pivot T).2).1
    (rotation T (pivot T).1 (pivot T).2).2) := rfl
  have hpq : (pivot T).1 = 0 ∧ (pivot T).2 = 1 ∨ (pivot T).1 = 0 ∧ (pivot T).2 = 2 ∨
      (pivot T).1 = 1 ∧ (pivot T).2 = 2 := by
    rcases pivot_cases T with ⟨h, -⟩ | ⟨h, -⟩ | ⟨h, -⟩ <;> simp [h]
  have hu := rotation_unit T (pivot T).1 (pivot T).2
  refine ⟨hj ▸ rotate_symm _ _, ⟨_, mat_givens hpq hu, hj ▸ mat_rotate hT _⟩, ?_⟩
  have hz := rotation_zero T (pivot T).1 (pivot T).2
  rw [hj]
  obtain ⟨h1, h2, h3⟩ := hT
  have hsmall : ∀ a : ℝ, |a| ≤ 1 / 10 ^ 15 → a ^ 2 ≤ 1 / 10 ^ 30 := fun a ha => by
    rw [← sq_abs a]
    calc |a| ^ 2 ≤ (1 / 10 ^ 15) ^ 2 := by gcongr
      _ = 1 / 10 ^ 30 := by norm_num
  rcases pivot_cases T with ⟨h, ha, hb⟩ | ⟨h, ha, hb⟩ | ⟨h, ha, hb⟩ <;> rw [h] at hz hu ⊢ <;> dsimp only at hz hu ⊢ <;>
    rcases hz with hz | ⟨hm, hr⟩
  · left
    generalize (rotation T 0 1).1 = c at *
    generalize (rotation T 0 1).2 = s at *
    have e1 : mat (rotate T (givens 0 1 c s)) 0 1 = 0 := by
      simp only [mat, rotate, givens, Matrix.of_apply, sum_range_succ, sum_range_zero]
      simp [h1]
      linear_combination hz
    have e2 : mat (rotate T (givens 0 1 c s)) 0 2 = c * T 0 2 - s * T 1 2 := by
      simp [mat, rotate, givens, sum_range_succ]; ring
    have e3 : mat (rotate T (givens 0 1 c s)) 1 2 = s * T 0 2 + c * T 1 2 := by
      simp [mat, rotate, givens, sum_range_succ]
    unfold offDiag
    rw [e1, e2, e3]
    have : (c * T 0 2 - s * T 1 2) ^ 2 + (s * T 0 2 + c * T 1 2) ^ 2 = T 0 2 ^ 2 + T 1 2 ^ 2 := by
      linear_combination (T 0 2 ^ 2 + T 1 2 ^ 2) * hu
    show 0 ^ 2 + _ + _ ≤ 2 / 3 * (T 0 1 ^ 2 + T 0 2 ^ 2 + T 1 2 ^ 2)
    have a1 := abs_le_sq ha
    have a2 := abs_le_sq hb
    linarith
  · right
    refine ⟨?_, ?_⟩
    · rw [hr]
      simp [offDiag, mat, rotate, givens, sum_range_succ]
    · have a1 := abs_le_sq ha
      have a2 := abs_le_sq hb
      have a3 := hsmall _ hm
      show T 0 1 ^ 2 + T 0 2 ^ 2 + T 1 2 ^ 2 ≤ _
      linarith
  · left
    generalize (rotation T 0 2).1 = c at *
    generalize (rotation T 0 2).2 = s at *
    have e1 : mat (rotate T (givens 0 2 c s)) 0 2 = 0 := by
      simp only [mat, rotate, givens, Matrix.of_apply, sum_range_succ, sum_range_zero]
      simp [h2]
      linear_combination hz
    have e2 : mat (rotate T (givens 0 2 c s)) 0 1 = c * T 0 1 - s * T 1 2 := by
      simp [mat, rotate, givens, sum_range_succ, h3]; ring
    have e3 : mat (rotate T (givens 0 2 c s)) 1 2 = s * T 0 1 + c * T 1 2 := by
      simp [mat, rotate, givens, sum_range_succ, h1]; ring
    unfold offDiag
    rw [e1, e2, e3]
    have : (c * T 0 1 - s * T 1 2) ^ 2 + (s * T 0 1 + c * T 1 2) ^ 2 = T 0 1 ^ 2 + T 1 2 ^ 2 := by
      linear_combination (T 0 1 ^ 2 + T 1 2 ^ 2) * hu
    show _ + 0 ^ 2 + _ ≤ 2 / 3 * (T 0 1 ^ 2 + T 0 2 ^ 2 + T 1 2 ^ 2)
    have a1 := abs_le_sq ha
    have a2 := abs_le_sq hb
    linarith
  · right
    refine ⟨?_, ?_⟩
    · rw [hr]
      simp [offDiag, mat, rotate, givens, sum_range_succ]
    · have a1 := abs_le_sq ha
      have a2 := abs_le_sq hb
      have a3 := hsmall _ hm
      show T 0 1 ^ 2 + T 0 2 ^ 2 + T 1 2 ^ 2 ≤ _
      linarith
  · left
    generalize (rotation T 1 2).1 = c at *
    generalize (rotation T 1 2).2 = s at *
    have e1 : mat (rotate T (givens 1 2 c s)) 1 2 = 0 := by
      simp only [mat, rotate, givens, Matrix.of_apply, sum_range_succ, sum_range_zero]
      simp [h3]
      linear_combination hz
    have e2 : mat (rotate T (givens 1 2 c s)) 0 1 = c * T 0 1 - s * T 0 2 := by
      simp [mat, rotate, givens, sum_range_succ]; ring
    have e3 : mat (rotate T (givens 1 2 c s)) 0 2 = s * T 0 1 + c * T 0 2 := by
      simp [mat, rotate, givens, sum_range_succ]; ring
    unfold offDiag
    rw [e1, e2, e3]
    have : (c * T 0 1 - s * T 0 2) ^ 2 + (s * T 0 1 + c * T 0 2) ^ 2 = T 0 1 ^ 2 + T 0 2 ^ 2 := by
      linear_combination (T 0 1 ^ 2 + T 0 2 ^ 2) * hu
    show _ + _ + 0 ^ 2 ≤ 2 / 3 * (T 0 1 ^ 2 + T 0 2 ^ 2 + T 1 2 ^ 2)
    have a1 := abs_le_sq ha
    have a2 := abs_le_sq hb
    linarith
  · right
    refine ⟨?_, ?_⟩
    · rw [hr]
      simp [offDiag, mat, rotate, givens, sum_range_succ]
    · have a1 := abs_le_sq ha
      have a2 := abs_le_sq hb
      have a3 := hsmall _ hm
      show T 0 1 ^ 2 + T 0 2 ^ 2 + T 1 2 ^ 2 ≤ _
      linarith

/-! ## The loop -/

theorem jacobi_loop {T : Nat → Nat → ℝ} (hT : Symm T) (n : Nat) :
    (forRange 0 n T fun _ T => pure (jacobiStep T)).Sat fun D =>
      Symm D ∧ (∃ Q : Matrix (Fin 3) (Fin 3) ℝ, Q.transpose * Q = 1 ∧ mat D = Q.transpose * mat T * Q) ∧
      (offDiag (mat D) ≤ (2 / 3) ^ n * offDiag (mat T) ∨ offDiag (mat D) ≤ 3 / 10 ^ 30) := by
  refine (forRange_inv (fun m D => Symm D ∧
    (∃ Q : Matrix (Fin 3) (Fin 3) ℝ, Q.transpose * Q = 1 ∧ mat D = Q.transpose * mat T * Q) ∧
      (offDiag (mat D) ≤ (2 / 3) ^ m * offDiag (mat T) ∨ offDiag (mat D) ≤ 3 / 10 ^ 30)) (Nat.zero_le _)
    ⟨hT, ⟨1, by simp, by simp⟩, .inl (by simp)⟩ ?_)
  rintro m D - - ⟨hs, ⟨Q, hQ, hD⟩, ho⟩
  obtain ⟨g1, ⟨G, hG, hD'⟩, g3⟩ := jacobiStep_spec hs
  have hnn : 0 ≤ offDiag (mat D) := by unfold offDiag; positivity
  refine Res.Sat.ok ⟨g1, ⟨Q * G, ?_, ?_⟩, ?_⟩
  · rw [Matrix.transpose_mul, Matrix.mul_assoc, ← Matrix.mul_assoc Q.transpose, hQ, Matrix.one_mul, hG]
  · rw [hD', hD, Matrix.transpose_mul]
    simp only [Matrix.mul_assoc]
  · rcases g3 with g | ⟨g, g'⟩
    · rcases ho with ho | ho
      · left
        rw [pow_succ]
        nlinarith
      · right; linarith
    · right; linarith

/-! ## Distance to the eigenvalues -/

section Spectrum
variable {n : Nat} {A : Matrix (Fin n) (Fin n) ℝ}

/-- Near every number there is an eigenvalue of a symmetric matrix, at the distance of the residual of a
unit vector at most. -/
theorem exists_eigen_near (hA : A.transpose = A) (i : Fin n) (m : ℝ) :
    ∃ l, IsEigen A l ∧ (m - l) ^ 2 ≤ ∑ k, (A k i - if k = i then m else 0) ^ 2 := by
  have hH : A.IsHermitian := by
    unfold Matrix.IsHermitian
    rw [Matrix.conjTranspose_eq_transpose_of_trivial, hA]
  let b := hH.eigenvectorBasis
  have hb : ∀ j k, ∑ q, A k q * b j q = hH.eigenvalues j * b j k := fun j k => by
    have := congrFun (hH.mulVec_eigenvectorBasis j) k
    simpa [Matrix.mulVec, dotProduct] using this
  have hbe : ∀ j, IsEigen A (hH.eigenvalues j) := fun j => by
    refine ⟨b j, fun h0 => ?_, hH.mulVec_eigenvectorBasis j⟩
    have h1 := b.orthonormal.1 j
    rw [show b j = 0 from (WithLp.ofLp_injective 2) h0, norm_zero] at h1
    exact zero_ne_one h1
  have hs : ∀ x : Fin n → ℝ, ∑ j, (∑ k, b j k * x k) ^ 2 = ∑ k, x k ^ 2 := fun x => by
    have := b.sum_sq_inner_right (WithLp.toLp 2 x)
    rw [EuclideanSpace.real_norm_sq_eq] at this
    simp only [PiLp.inner_apply, RCLike.inner_apply, conj_trivial] at this
    rw [← this]
    refine sum_congr rfl fun j _ => ?_
    congr 1
    exact sum_congr rfl fun k _ => mul_comm _ _
  have h1 : ∑ j, b j i ^ 2 = 1 := by
    have := hs fun k => if k = i then 1 else 0
    simpa using this
  have h2 : ∑ j, ((hH.eigenvalues j - m) * b j i) ^ 2 = ∑ k, (A k i - if k = i then m else 0) ^ 2 := by
    rw [← hs fun k => A k i - if k = i then m else 0]
    refine sum_congr rfl fun j _ => ?_
    congr 1
    simp only [mul_sub, sum_sub_distrib, mul_ite, mul_zero, sum_ite_eq', mem_univ, if_true, sub_mul]
    rw [← hb j i, mul_comm m]
    congr 1
    refine sum_congr rfl fun k _ => ?_
    rw [mul_comm, ← congrFun (congrFun hA k) i]
    rfl
  by_contra hne
  push Not at hne
  have hlt : ∀ j, ∑ k, (A k i - if k = i then m else 0) ^ 2 < (m - hH.eigenvalues j) ^ 2 := fun j => hne _ (hbe j)
  obtain ⟨j0, -, hj0⟩ : ∃ j ∈ univ, b j i ^ 2 ≠ 0 := by
    by_contra hc
    push Not at hc
    rw [sum_eq_zero hc] at h1
    exact zero_ne_one h1
  have : ∑ k, (A k i - if k = i then m else 0) ^ 2 < ∑ k, (A k i - if k = i then m else 0) ^ 2 := by
    conv_rhs => rw [← h2]
    conv_lhs => rw [← mul_one (∑ k, _), ← h1, mul_sum]
    refine sum_lt_sum (fun j _ => ?_) ⟨j0, mem_univ _, ?_⟩
    · rw [mul_pow]
      refine mul_le_mul_of_nonneg_right ?_ (sq_nonneg _)
      have := (hlt j).le
      rwa [sub_sq_comm] at this
    · rw [mul_pow]
      refine mul_lt_mul_of_pos_right ?_ (lt_of_le_of_ne (sq_nonneg _) (Ne.symm hj0))
      have := hlt j0
      rwa [sub_sq_comm] at this
  exact lt_irrefl _ this

/-- Near every eigenvalue there is a diagonal entry. -/
theorem exists_diag_near {l : ℝ} (hl : IsEigen A l) :
    ∃ i, (A i i - l) ^ 2 ≤ ∑ k, ∑ j, (if k = j then 0 else A k j) ^ 2 := by
  obtain ⟨v, hv, hA⟩ := hl
  set F := ∑ k, ∑ j, (if k = j then 0 else A k j) ^ 2
  by_contra hne
  push Not at hne
  have hk : ∀ k, ((A k k - l) * v k) ^ 2 ≤ (∑ j, (if k = j then 0 else A k j) ^ 2) * ∑ j, v j ^ 2 := fun k => by
    have e : (A k k - l) * v k = -∑ j, (if k = j then 0 else A k j) * v j := by
      have := congrFun hA k
      simp only [Matrix.mulVec, dotProduct, Pi.smul_apply, smul_eq_mul] at this
      rw [sub_mul, ← this]
      have e2 : ∑ j, A k j * v j = A k k * v k + ∑ j, (if k = j then 0 else A k j) * v j := by
        rw [← Finset.add_sum_erase _ _ (mem_univ k), ← Finset.add_sum_erase univ (fun j => (if k = j then 0 else A k j) * v j) (mem_univ k)]
        simp only [if_true, zero_mul, zero_add]
        congr 1
        refine sum_congr rfl fun j hj => ?_
        rw [if_neg (Ne.symm (ne_of_mem_erase hj))]
      rw [e2]; ring
    rw [e, neg_sq]
    exact sum_mul_sq_le_sq_mul_sq _ _ _
  have hsum : ∑ k, ((A k k - l) * v k) ^ 2 ≤ F * ∑ j, v j ^ 2 := by
    rw [show F * ∑ j, v j ^ 2 = ∑ k, (∑ j, (if k = j then 0 else A k j) ^ 2) * ∑ j, v j ^ 2 by rw [sum_mul]]
    exact sum_le_sum fun k _ => hk k
  obtain ⟨j0, hj0⟩ : ∃ j, v j ≠ 0 := by
    by_contra hc
    push Not at hc
    exact hv (funext hc)
  have : F * ∑ j, v j ^ 2 < ∑ k, ((A k k - l) * v k) ^ 2 := by
    rw [mul_sum]
    refine sum_lt_sum (fun j _ => ?_) ⟨j0, mem_univ _, ?_⟩
    · rw [mul_pow]
      exact mul_le_mul_of_nonneg_right (hne j).le (sq_nonneg _)
    · rw [mul_pow]
      exact mul_lt_mul_of_pos_right (hne j0) (by positivity)
  exact lt_irrefl _ (this.trans_le hsum)

theorem isEigen_similar {Q : Matrix (Fin n) (Fin n) ℝ} (hQ : Q.transpose * Q = 1) {l : ℝ} :
    IsEigen (Q.transpose * A * Q) l ↔ IsEigen A l := by
  have hQ' : Q * Q.transpose = 1 := mul_eq_one_comm.1 hQ
  constructor
  · rintro ⟨v, hv, h⟩
    refine ⟨Q.mulVec v, fun h0 => hv ?_, ?_⟩
    · have := congrArg Q.transpose.mulVec h0
      rwa [Matrix.mulVec_mulVec, hQ, Matrix.one_mulVec, Matrix.mulVec_zero] at this
    · have := congrArg Q.mulVec h
      rw [Matrix.mulVec_smul, Matrix.mulVec_mulVec, ← Matrix.mul_assoc, ← Matrix.mul_assoc, hQ', Matrix.one_mul] at this
      rw [Matrix.mulVec_mulVec, this]
  · rintro ⟨v, hv, h⟩
    refine ⟨Q.transpose.mulVec v, fun h0 => hv ?_, ?_⟩
    · have := congrArg Q.mulVec h0
      rwa [Matrix.mulVec_mulVec, hQ', Matrix.one_mulVec, Matrix.mulVec_zero] at this
    · rw [Matrix.mulVec_mulVec, Matrix.mul_assoc, hQ', Matrix.mul_one, ← Matrix.mulVec_mulVec, h, Matrix.mulVec_smul]

end Spectrum

/-! ## C36 -/

theorem fillTensor_spec {cell : Nat} {voigt : V2 ℝ} (h0 : cell < voigt.d0) (h1 : 6 ≤ voigt.d1) (strain : Bool) :
    (fillTensor cell voigt strain).Sat fun T => Symm T ∧ mat T = voigt3 (voigt.e cell) strain := by
  unfold fillTensor
  simp only [vrd2, h0, show 0 < voigt.d1 by omega, show 1 < voigt.d1 by omega, show 2 < voigt.d1 by omega,
    show 3 < voigt.d1 by omega, show 4 < voigt.d1 by omega, show 5 < voigt.d1 by omega, and_self, if_true, Res.ok_bind]
  refine Res.Sat.ok ⟨⟨rfl, rfl, rfl⟩, ?_⟩
  ext i j
  fin_cases i <;> fin_cases j <;> simp [mat, voigt3, shear] <;> split_ifs <;> ring

/-- **C36, three dimensions.**  The returned values are the diagonal of a tensor similar to the given
one by a rotation; every iteration takes a third of its off-diagonal part, until that is negligible. -/
theorem C36_similar {cell : Nat} {voigt eig : V2 ℝ} (h0 : cell < voigt.d0) (h1 : 6 ≤ voigt.d1)
    (h2 : cell < eig.d0) (h3 : 3 ≤ eig.d1) (strain : Bool) (n : Nat) :
    ∃ (r : V2 ℝ) (Q D : Matrix (Fin 3) (Fin 3) ℝ), eigenvalues3 n cell voigt eig strain = .ok r ∧
      Q.transpose * Q = 1 ∧ D = Q.transpose * voigt3 (voigt.e cell) strain * Q ∧ D.transpose = D ∧
      (∀ i : Fin 3, r.e cell i = D i i) ∧ (∀ c, c ≠ cell → r.e c = eig.e c) ∧
      (offDiag D ≤ (2 / 3) ^ n * offDiag (voigt3 (voigt.e cell) strain) ∨ offDiag D ≤ 3 / 10 ^ 30) := by
  obtain ⟨T, e1, hs, hT⟩ := fillTensor_spec h0 h1 strain
  obtain ⟨D, e2, ⟨d1, d2, d3⟩, ⟨Q, hQ, hD⟩, ho⟩ := jacobi_loop hs n
  have e : ∃ r, eigenvalues3 n cell voigt eig strain = .ok r ∧ (∀ i : Fin 3, r.e cell i = mat D i i) ∧
      ∀ c, c ≠ cell → r.e c = eig.e c := by
    unfold eigenvalues3
    rw [e1, Res.ok_bind, e2, Res.ok_bind]
    simp only [vwr2, h2, show 0 < eig.d1 by omega, show 1 < eig.d1 by omega, show 2 < eig.d1 by omega, and_self,
      if_true, Res.ok_bind]
    refine ⟨_, rfl, ?_, ?_⟩
    · intro i
      fin_cases i <;> simp [mat]
    · intro c hc
      funext j
      simp [hc]
  obtain ⟨r, er, hr, hr'⟩ := e
  refine ⟨r, Q, mat D, er, hQ, by rw [← hT]; exact hD, ?_, hr, hr', by rw [← hT]; exact ho⟩
  ext i j
  fin_cases i <;> fin_cases j <;> simp [mat, d1, d2, d3]

/-- **C36, three dimensions.**  After any number of iterations the values have the trace of the tensor,
each is close to an eigenvalue and close to each eigenvalue is one of them. -/
theorem C36_eigenvalues3 {cell : Nat} {voigt eig : V2 ℝ} (h0 : cell < voigt.d0) (h1 : 6 ≤ voigt.d1)
    (h2 : cell < eig.d0) (h3 : 3 ≤ eig.d1) (strain : Bool) (n : Nat) :
    ∃ (r : V2 ℝ) (err : ℝ), eigenvalues3 n cell voigt eig strain = .ok r ∧
      (err ≤ (2 / 3) ^ n * offDiag (voigt3 (voigt.e cell) strain) ∨ err ≤ 3 / 10 ^ 30) ∧
      ∑ i ∈ range 3, r.e cell i = (voigt3 (voigt.e cell) strain).trace ∧
      (∀ i, i < 3 → ∃ l, IsEigen (voigt3 (voigt.e cell) strain) l ∧ (r.e cell i - l) ^ 2 ≤ err) ∧
      ∀ l, IsEigen (voigt3 (voigt.e cell) strain) l → ∃ i, i < 3 ∧ (r.e cell i - l) ^ 2 ≤ 2 * err := by
  obtain ⟨r, Q, D, er, hQ, hD, hs, hr, -, ho⟩ := C36_similar h0 h1 h2 h3 strain n
  have hsym : ∀ i j, D i j = D j i := fun i j => congrFun (congrFun hs j) i
  refine ⟨r, offDiag D, er, ho, ?_, ?_, ?_⟩
  · rw [sum_range_succ, sum_range_succ, sum_range_one, show r.e cell 0 = D 0 0 from hr 0,
      show r.e cell 1 = D 1 1 from hr 1, show r.e cell 2 = D 2 2 from hr 2]
    have : D.trace = (voigt3 (voigt.e cell) strain).trace := by
      rw [hD, Matrix.trace_mul_comm, ← Matrix.mul_assoc, mul_eq_one_comm.1 hQ, Matrix.one_mul]
    rw [← this, Matrix.trace, Fin.sum_univ_three]
    rfl
  · intro i hi
    obtain ⟨l, hl, hd⟩ := exists_eigen_near hs ⟨i, hi⟩ (D ⟨i, hi⟩ ⟨i, hi⟩)
    refine ⟨l, (isEigen_similar hQ).1 (hD ▸ hl), ?_⟩
    rw [show r.e cell i = D ⟨i, hi⟩ ⟨i, hi⟩ from hr ⟨i, hi⟩]
    refine hd.trans ?_
    rw [Fin.sum_univ_three]
    unfold offDiag
    have p1 := sq_nonneg (D 0 1)
    have p2 := sq_nonneg (D 0 2)
    have p3 := sq_nonneg (D 1 2)
    interval_cases i <;> simp [hsym 1 0, hsym 2 0, hsym 2 1] <;> linarith
  · intro l hl
    obtain ⟨i, hi⟩ := exists_diag_near (A := D) (hD ▸ (isEigen_similar hQ).2 hl)
    refine ⟨i, i.2, ?_⟩
    rw [hr i]
    refine hi.trans (le_of_eq ?_)
    simp [Fin.sum_univ_three, offDiag, hsym 1 0, hsym 2 0, hsym 2 1]
    ring

/-- The result of the program in two dimensions. -/
theorem eigenvalues2_eq {cell : Nat} {voigt eig : V2 ℝ} (h0 : cell < voigt.d0) (h1 : 3 ≤ voigt.d1)
    (h2 : cell < eig.d0) (h3 : 2 ≤ eig.d1) (strain : Bool) :
    ∃ r, eigenvalues2 cell voigt eig strain = .ok r ∧
      (0 ≤ voigt.e cell 2 → r.e cell 0 + r.e cell 1 = (voigt2 (voigt.e cell) strain).trace ∧
        r.e cell 0 * r.e cell 1 = (voigt2 (voigt.e cell) strain).det) ∧
      (voigt.e cell 2 ≤ 0 → r.e cell 0 = voigt.e cell 0 ∧ r.e cell 1 = voigt.e cell 1) := by
  unfold eigenvalues2
  simp only [vrd2, vwr2, h0, h2, show 0 < voigt.d1 by omega, show 1 < voigt.d1 by omega, show 2 < voigt.d1 by omega,
    show 0 < eig.d1 by omega, show 1 < eig.d1 by omega, and_self, if_true, Res.ok_bind]
  have hsh : shear strain (voigt.e cell 2) = (if strain then 1 / 2 else 1) * voigt.e cell 2 := by
    unfold shear; split_ifs <;> ring
  have hpos : 0 < shear strain (voigt.e cell 2) ↔ 0 < voigt.e cell 2 := by
    rw [hsh]; split_ifs <;> constructor <;> intro h <;> linarith
  refine ⟨_, rfl, fun hv => ?_, fun hv => ?_⟩
  all_goals simp only [true_and, zero_ne_one, if_false, if_true, one_ne_zero, Matrix.trace_fin_two, Matrix.det_fin_two]
  · simp only [voigt2, Matrix.of_apply, Matrix.cons_val', Matrix.cons_val_zero, Matrix.cons_val_one,
      Matrix.cons_val_fin_one]
    rw [← hsh]
    rcases eq_or_lt_of_le hv with hz | hz
    · have hs0 : shear strain (voigt.e cell 2) = 0 := by rw [hsh, ← hz, mul_zero]
      rw [hs0]
      norm_num
    · have hp := hpos.2 hz
      generalize shear strain (voigt.e cell 2) = b at *
      simp only [gt_iff_lt, if_pos hp]
      have ht := tangent_spec ((voigt.e cell 1 - voigt.e cell 0) / (2 * b))
      have e : voigt.e cell 1 - voigt.e cell 0 = 2 * b * ((voigt.e cell 1 - voigt.e cell 0) / (2 * b)) := by
        field_simp
      generalize (voigt.e cell 1 - voigt.e cell 0) / (2 * b) = tau at *
      have hc := cos_sq (tangent tau)
      generalize tangent tau = t at *
      generalize 1 / Real.sqrt (1 + t * t) = c at *
      have ed : voigt.e cell 1 = voigt.e cell 0 + 2 * b * tau := by linarith
      rw [ed]
      generalize voigt.e cell 0 = a at *
      have hoff : c ^ 2 * (b * (1 - t ^ 2) - t * (2 * b * tau)) = 0 := by linear_combination (-(c ^ 2 * b)) * ht
      refine ⟨?_, ?_⟩
      · linear_combination (2 * a + 2 * b * tau) * hc
      · have p1 : c * (a * c - b * (t * c)) - t * c * (b * c - (a + 2 * b * tau) * (t * c)) = a - b * t := by
          linear_combination (a - b * t) * hc + b * t * c ^ 2 * ht
        have p2 : c * ((a + 2 * b * tau) * c + b * (t * c)) + t * c * (b * c + a * (t * c)) =
            a + 2 * b * tau + b * t := by
          linear_combination (a + 2 * b * tau + b * t) * hc - (b * t * c ^ 2) * ht
        rw [p1, p2]
        linear_combination (-(b ^ 2)) * ht
  · have hn : ¬ shear strain (voigt.e cell 2) > 0 := by
      rw [gt_iff_lt, hpos]; exact not_lt.2 hv
    simp [hn]

/-- A matrix of two rows has the eigenvalues `a` and `b` when it has their sum as trace and their
product as determinant. -/
theorem isEigen_two {A : Matrix (Fin 2) (Fin 2) ℝ} {a b : ℝ} (ht : a + b = A.trace) (hd : a * b = A.det) (l : ℝ) :
    IsEigen A l ↔ l = a ∨ l = b := by
  have h1 : IsEigen A l ↔ (A - l • (1 : Matrix (Fin 2) (Fin 2) ℝ)).det = 0 := by
    rw [← Matrix.exists_mulVec_eq_zero_iff]
    unfold IsEigen
    refine exists_congr fun v => and_congr_right fun _ => ?_
    rw [Matrix.sub_mulVec, Matrix.smul_mulVec, Matrix.one_mulVec, sub_eq_zero]
  rw [h1, Matrix.det_fin_two]
  rw [Matrix.trace_fin_two] at ht
  rw [Matrix.det_fin_two] at hd
  simp only [Matrix.sub_apply, Matrix.smul_apply, Matrix.one_apply, smul_eq_mul, if_true, mul_one, mul_zero,
    Fin.zero_eq_one_iff, Fin.one_eq_zero_iff, OfNat.ofNat_ne_one, if_false, sub_zero]
  have : (A 0 0 - l) * (A 1 1 - l) - A 0 1 * A 1 0 = (l - a) * (l - b) := by
    linear_combination (-l) * ht.symm * (-1) * (-1) + hd.symm
  rw [this, mul_eq_zero, sub_eq_zero, sub_eq_zero]

/-- **C36, two dimensions, shear not negative**: the values are exactly the eigenvalues. -/
theorem C36_eigenvalues2_partial {cell : Nat} {voigt eig : V2 ℝ} (h0 : cell < voigt.d0) (h1 : 3 ≤ voigt.d1)
    (h2 : cell < eig.d0) (h3 : 2 ≤ eig.d1) (strain : Bool) (hs : 0 ≤ voigt.e cell 2) :
    ∃ r, eigenvalues2 cell voigt eig strain = .ok r ∧
      ∀ l, IsEigen (voigt2 (voigt.e cell) strain) l ↔ l = r.e cell 0 ∨ l = r.e cell 1 := by
  obtain ⟨r, er, h, -⟩ := eigenvalues2_eq h0 h1 h2 h3 strain
  exact ⟨r, er, fun l => isEigen_two (h hs).1 (h hs).2 l⟩

/-- **C36 is false in two dimensions** for every tensor with a negative shear component: neither of the
returned values is an eigenvalue. -/
theorem C36_eigenvalues2_false {cell : Nat} {voigt eig : V2 ℝ} (h0 : cell < voigt.d0) (h1 : 3 ≤ voigt.d1)
    (h2 : cell < eig.d0) (h3 : 2 ≤ eig.d1) (strain : Bool) (hs : voigt.e cell 2 < 0) :
    ∃ r, eigenvalues2 cell voigt eig strain = .ok r ∧ ¬ IsEigen (voigt2 (voigt.e cell) strain) (r.e cell 0) ∧
      ¬ IsEigen (voigt2 (voigt.e cell) strain) (r.e cell 1) := by
  obtain ⟨r, er, -, h⟩ := eigenvalues2_eq h0 h1 h2 h3 strain
  obtain ⟨e0, e1⟩ := h hs.le
  have key : ∀ l, IsEigen (voigt2 (voigt.e cell) strain) l →
      (voigt.e cell 0 - l) * (voigt.e cell 1 - l) = ((if strain then 1 / 2 else 1) * voigt.e cell 2) ^ 2 := by
    rintro l ⟨v, hv, hA⟩
    set b : ℝ := (if strain then 1 / 2 else 1) * voigt.e cell 2 with hb
    have a0 : voigt.e cell 0 * v 0 + b * v 1 = l * v 0 := by
      have := congrFun hA 0
      simpa [voigt2, Matrix.mulVec, dotProduct, Fin.sum_univ_two, hb] using this
    have a1 : b * v 0 + voigt.e cell 1 * v 1 = l * v 1 := by
      have := congrFun hA 1
      simpa [voigt2, Matrix.mulVec, dotProduct, Fin.sum_univ_two, hb] using this
    have q0 : ((voigt.e cell 0 - l) * (voigt.e cell 1 - l) - b ^ 2) * v 0 = 0 := by
      linear_combination (voigt.e cell 1 - l) * a0 - b * a1
    have q1 : ((voigt.e cell 0 - l) * (voigt.e cell 1 - l) - b ^ 2) * v 1 = 0 := by
      linear_combination (voigt.e cell 0 - l) * a1 - b * a0
    by_contra hne
    have hne' : (voigt.e cell 0 - l) * (voigt.e cell 1 - l) - b ^ 2 ≠ 0 := sub_ne_zero.2 hne
    refine hv (funext fun i => ?_)
    fin_cases i
    · exact (mul_eq_zero.1 q0).resolve_left hne'
    · exact (mul_eq_zero.1 q1).resolve_left hne'
  have hb : ((if strain then 1 / 2 else 1) * voigt.e cell 2) ^ 2 ≠ 0 := by
    refine pow_ne_zero 2 (mul_ne_zero ?_ hs.ne)
    split_ifs <;> norm_num
  refine ⟨r, er, fun hE => hb ?_, fun hE => hb ?_⟩
  · rw [← key _ hE, e0, sub_self, zero_mul]
  · rw [← key _ hE, e1, sub_self, mul_zero]

/-- **C36, one dimension.** -/
theorem C36_eigenvalues1 {cell : Nat} {voigt eig : V2 ℝ} (h0 : cell < voigt.d0) (h1 : 1 ≤ voigt.d1)
    (h2 : cell < eig.d0) (h3 : 1 ≤ eig.d1) (strain : Bool) :
    ∃ r, eigenvalues1 cell voigt eig strain = .ok r ∧ r.e cell 0 = voigt.e cell 0 := by
  unfold eigenvalues1
  simp [vrd2, vwr2, h0, h2, show 0 < voigt.d1 by omega, show 0 < eig.d1 by omega]

/-- A tensor with shear in all planes, which is not diagonal: the hypotheses of C36. -/
example : ∃ r, eigenvalues3 6 0 ⟨1, 6, fun _ j => j⟩ ⟨1, 3, fun _ _ => 0⟩ true = .ok r ∧
    ∑ i ∈ range 3, r.e 0 i = 3 := by
  obtain ⟨r, -, er, -, ht, -⟩ := C36_eigenvalues3 (cell := 0) (voigt := ⟨1, 6, fun _ j => j⟩)
    (eig := ⟨1, 3, fun _ _ => 0⟩) (by simp) (by simp) (by simp) (by simp) true 6
  refine ⟨r, er, ht.trans ?_⟩
  simp [voigt3, Matrix.trace, Fin.sum_univ_three]
  norm_num

end Plato.Tensor
