import Verif.Crit.BarlatModel
import Mathlib.Analysis.Matrix.Spectrum
import Mathlib.LinearAlgebra.Matrix.Charpoly.Coeff
import Mathlib.LinearAlgebra.Matrix.Determinant.Basic
import Mathlib.Analysis.SpecialFunctions.Pow.NNReal
import Mathlib.Tactic.LinearCombination
import Mathlib.Tactic.IntervalCases

/-!
# Barlat norm of a stress (C116)
-/

namespace Plato.Crit.Barlat
open Finset

/-! ## Specification -/

/-- The symmetric matrix of six components in the order xx, yy, zz, yz, xz, xy. -/
def mat (s : Nat → ℝ) : Matrix (Fin 3) (Fin 3) ℝ := !![s 0, s 5, s 4; s 5, s 1, s 3; s 4, s 3, s 2]

/-- `l` are the eigenvalues of `A`, with multiplicities. -/
def Eigenvalues (A : Matrix (Fin 3) (Fin 3) ℝ) (l : ℝ × ℝ × ℝ) : Prop :=
  ∀ x : ℝ, (Matrix.scalar (Fin 3) x - A).det = (x - l.1) * (x - l.2.1) * (x - l.2.2)

theorem char_det (s : Nat → ℝ) (x : ℝ) : (Matrix.scalar (Fin 3) x - mat s).det =
    x ^ 3 - 3 * H1 s * x ^ 2 - 3 * H2 s * x - 2 * H3 s := by
  rw [Matrix.det_fin_three]
  simp [mat, H1, H2, H3, Matrix.scalar_apply, Matrix.diagonal]
  ring

/-- A symmetric matrix has three real eigenvalues. -/
theorem exists_eigenvalues (s : Nat → ℝ) : ∃ l, Eigenvalues (mat s) l := by
  have hA : (mat s).IsHermitian := by
    ext i j
    fin_cases i <;> fin_cases j <;> simp [mat, Matrix.conjTranspose]
  refine ⟨(hA.eigenvalues 0, hA.eigenvalues 1, hA.eigenvalues 2), fun x => ?_⟩
  rw [← Matrix.eval_charpoly, hA.charpoly_eq]
  simp [Fin.prod_univ_three]

theorem sums {s : Nat → ℝ} {l : ℝ × ℝ × ℝ} (h : Eigenvalues (mat s) l) :
    3 * H1 s = l.1 + l.2.1 + l.2.2 ∧ 3 * H2 s = -(l.1 * l.2.1 + l.2.1 * l.2.2 + l.2.2 * l.1) ∧
      2 * H3 s = l.1 * l.2.1 * l.2.2 := by
  have h0 := h 0
  have h1 := h 1
  have h2 := h (-1)
  rw [char_det] at h0 h1 h2
  refine ⟨?_, ?_, ?_⟩ <;> linarith

/-- The radicand is never negative, and zero only if all eigenvalues are equal. -/
theorem radicand (s : Nat → ℝ) : H1 s * H1 s + H2 s = ((s 0 - s 1) ^ 2 + (s 1 - s 2) ^ 2 + (s 2 - s 0) ^ 2) / 18 +
    (s 3 ^ 2 + s 4 ^ 2 + s 5 ^ 2) / 3 := by
  unfold H1 H2
  ring

theorem radicand_nonneg (s : Nat → ℝ) : 0 ≤ H1 s * H1 s + H2 s := by
  rw [radicand]
  positivity

theorem P_eq (s : Nat → ℝ) : P s = H1 s * H1 s + H2 s := by
  unfold P
  split_ifs with h
  · rfl
  · exact le_antisymm (radicand_nonneg s) (not_lt.1 h)

theorem P_nonneg (s : Nat → ℝ) : 0 ≤ P s := by
  rw [P_eq]
  exact radicand_nonneg s

/-- The arc cosine is taken of a number between minus one and one. -/
theorem Q_sq_le (s : Nat → ℝ) : Q s ^ 2 ≤ P s ^ 3 := by
  obtain ⟨l, hl⟩ := exists_eigenvalues s
  obtain ⟨h1, h2, h3⟩ := sums hl
  have e1 : H1 s = (l.1 + l.2.1 + l.2.2) / 3 := by linarith
  have e2 : H2 s = -(l.1 * l.2.1 + l.2.1 * l.2.2 + l.2.2 * l.1) / 3 := by linarith
  have e3 : H3 s = l.1 * l.2.1 * l.2.2 / 2 := by linarith
  have e : P s ^ 3 - Q s ^ 2 = ((l.1 - l.2.1) * (l.2.1 - l.2.2) * (l.2.2 - l.1)) ^ 2 / 108 := by
    rw [P_eq]
    unfold Q
    rw [e1, e2, e3]
    ring
  have : 0 ≤ P s ^ 3 - Q s ^ 2 := by
    rw [e]
    positivity
  linarith

theorem pow_three_half {p : ℝ} (hp : 0 ≤ p) : p ^ (3 / 2 : ℝ) = Real.sqrt p ^ 3 := by
  rw [Real.sqrt_eq_rpow, ← Real.rpow_natCast, ← Real.rpow_mul hp]
  norm_num

theorem theta_eq {s : Nat → ℝ} (h : 0 < P s) : theta s = some (Real.arccos (Q s / Real.sqrt (P s) ^ 3)) ∧
    Real.cos (Real.arccos (Q s / Real.sqrt (P s) ^ 3)) = Q s / Real.sqrt (P s) ^ 3 := by
  have hs : 0 < Real.sqrt (P s) := Real.sqrt_pos.2 h
  have hle : |Q s / Real.sqrt (P s) ^ 3| ≤ 1 := by
    rw [abs_div, abs_of_pos (pow_pos hs 3), div_le_one (pow_pos hs 3)]
    refine abs_le_of_sq_le_sq ?_ (pow_pos hs 3).le
    have e : (Real.sqrt (P s) ^ 3) ^ 2 = P s ^ 3 := by
      rw [← pow_mul, Nat.mul_comm, pow_mul, Real.sq_sqrt h.le]
    rw [e]
    exact Q_sq_le s
  refine ⟨?_, Real.cos_arccos (abs_le.1 hle).1 (abs_le.1 hle).2⟩
  unfold theta
  rw [pow_three_half h.le, if_neg (pow_pos hs 3).ne', if_pos hle]

/-- Sums and products of the three cosines. -/
theorem cosines (φ : ℝ) : ∃ a b : ℝ,
    Real.cos (φ + 4 * Real.pi / 3) = a ∧ Real.cos (φ + 2 * Real.pi / 3) = b ∧ Real.cos φ + a + b = 0 ∧
    Real.cos φ * a + a * b + b * Real.cos φ = -(3 / 4) ∧ 4 * (Real.cos φ * a * b) = Real.cos (3 * φ) := by
  have c2 : Real.cos (2 * Real.pi / 3) = -(1 / 2) := by
    rw [show 2 * Real.pi / 3 = Real.pi - Real.pi / 3 by ring, Real.cos_pi_sub, Real.cos_pi_div_three]
  have s2 : Real.sin (2 * Real.pi / 3) = Real.sqrt 3 / 2 := by
    rw [show 2 * Real.pi / 3 = Real.pi - Real.pi / 3 by ring, Real.sin_pi_sub, Real.sin_pi_div_three]
  have c4 : Real.cos (4 * Real.pi / 3) = -(1 / 2) := by
    rw [show 4 * Real.pi / 3 = Real.pi / 3 + Real.pi by ring, Real.cos_add_pi, Real.cos_pi_div_three]
  have s4 : Real.sin (4 * Real.pi / 3) = -(Real.sqrt 3 / 2) := by
    rw [show 4 * Real.pi / 3 = Real.pi / 3 + Real.pi by ring, Real.sin_add_pi, Real.sin_pi_div_three]
  have h3 : Real.sqrt 3 ^ 2 = 3 := Real.sq_sqrt (by norm_num)
  have hsc := Real.sin_sq_add_cos_sq φ
  refine ⟨_, _, rfl, rfl, ?_, ?_, ?_⟩
  · rw [Real.cos_add, Real.cos_add, c2, s2, c4, s4]
    ring
  · rw [Real.cos_add, Real.cos_add, c2, s2, c4, s4]
    linear_combination (-(1 / 4) * Real.sin φ ^ 2) * h3 - (3 / 4) * hsc
  · rw [Real.cos_add, Real.cos_add, c2, s2, c4, s4, Real.cos_three_mul]
    linear_combination (-(Real.cos φ) * Real.sin φ ^ 2) * h3 - (3 * Real.cos φ) * hsc

/-- **C116, principal values**: unless the transformed stress is a multiple of the identity, the three numbers are the
eigenvalues of the transformed stress. -/
theorem C116_principal_partial {s : Nat → ℝ} (h : ∀ a : ℝ, mat s ≠ Matrix.scalar (Fin 3) a) :
    ∃ l, principal s = some l ∧ Eigenvalues (mat s) l := by
  have hP : 0 < P s := by
    refine lt_of_le_of_ne (P_nonneg s) fun h0 => h (s 0) ?_
    rw [P_eq, radicand] at h0
    have q1 := sq_nonneg (s 0 - s 1)
    have q2 := sq_nonneg (s 1 - s 2)
    have q3 := sq_nonneg (s 2 - s 0)
    have q4 := sq_nonneg (s 3)
    have q5 := sq_nonneg (s 4)
    have q6 := sq_nonneg (s 5)
    have r1 : s 0 - s 1 = 0 := pow_eq_zero_iff (two_ne_zero) |>.1 (by linarith)
    have r3 : s 2 - s 0 = 0 := pow_eq_zero_iff (two_ne_zero) |>.1 (by linarith)
    have r4 : s 3 = 0 := pow_eq_zero_iff (two_ne_zero) |>.1 (by linarith)
    have r5 : s 4 = 0 := pow_eq_zero_iff (two_ne_zero) |>.1 (by linarith)
    have r6 : s 5 = 0 := pow_eq_zero_iff (two_ne_zero) |>.1 (by linarith)
    have t1 : s 1 = s 0 := by linarith
    have t2 : s 2 = s 0 := by linarith
    ext i j
    fin_cases i <;> fin_cases j <;> simp [mat, r4, r5, r6, t1, t2, Matrix.scalar_apply, Matrix.diagonal]
  obtain ⟨ht, hc⟩ := theta_eq hP
  obtain ⟨θ, hθ⟩ : ∃ θ, θ = Real.arccos (Q s / Real.sqrt (P s) ^ 3) := ⟨_, rfl⟩
  rw [← hθ] at ht hc
  unfold principal
  rw [ht, Option.map_some]
  refine ⟨_, rfl, fun x => ?_⟩
  obtain ⟨a, b, ha, hb, k1, k2, k3⟩ := cosines (θ / 3)
  have hs : 0 < Real.sqrt (P s) := Real.sqrt_pos.2 hP
  have hq : Real.sqrt (P s) ^ 2 = P s := Real.sq_sqrt hP.le
  rw [char_det, Real.arccos_neg_one, show (θ + 4 * Real.pi) / 3 = θ / 3 + 4 * Real.pi / 3 by ring,
    show (θ + 2 * Real.pi) / 3 = θ / 3 + 2 * Real.pi / 3 by ring, ha, hb, ← P_eq]
  rw [show 3 * (θ / 3) = θ by ring, hc] at k3
  have k3' : 4 * (Real.cos (θ / 3) * a * b) * Real.sqrt (P s) ^ 3 = Q s := by
    rw [k3]
    field_simp
  have hPe : P s = H1 s * H1 s + H2 s := P_eq s
  have hQe : 2 * Q s = 2 * H1 s * H1 s * H1 s + 3 * H1 s * H2 s + 2 * H3 s := by unfold Q; ring
  generalize Real.sqrt (P s) = r at *
  generalize Real.cos (θ / 3) = c at *
  show _ = (x - (H1 s + 2 * r * c)) * (x - (H1 s + 2 * r * a)) * (x - (H1 s + 2 * r * b))
  linear_combination (2 * r * (x - H1 s) ^ 2) * k1 - (4 * r ^ 2 * (x - H1 s)) * k2 + 2 * k3' +
    (3 * (x - H1 s)) * hq + (3 * (x - H1 s)) * hPe + hQe

/-! ## Value -/

theorem eigenvalues_sums {A : Matrix (Fin 3) (Fin 3) ℝ} {l : ℝ × ℝ × ℝ} {α : Fin 3 → ℝ} (h : Eigenvalues A l)
    (hα : ∀ x : ℝ, (Matrix.scalar (Fin 3) x - A).det = ∏ i, (x - α i)) :
    l.1 + l.2.1 + l.2.2 = α 0 + α 1 + α 2 ∧
    l.1 * l.2.1 + l.2.1 * l.2.2 + l.2.2 * l.1 = α 0 * α 1 + α 1 * α 2 + α 2 * α 0 ∧
    l.1 * l.2.1 * l.2.2 = α 0 * α 1 * α 2 := by
  have e : ∀ x : ℝ, (x - l.1) * (x - l.2.1) * (x - l.2.2) = (x - α 0) * (x - α 1) * (x - α 2) := fun x => by
    rw [← h x, hα x, Fin.prod_univ_three]
  have h0 := e 0
  have h1 := e 1
  have h2 := e (-1)
  refine ⟨?_, ?_, ?_⟩ <;> linarith

/-- Sums of powers of three numbers depend on the elementary symmetric functions only. -/
theorem power_sums {a b c a' b' c' : ℝ} (h1 : a + b + c = a' + b' + c')
    (h2 : a * b + b * c + c * a = a' * b' + b' * c' + c' * a') (h3 : a * b * c = a' * b' * c') (n : Nat) :
    a ^ n + b ^ n + c ^ n = a' ^ n + b' ^ n + c' ^ n := by
  induction n using Nat.strong_induction_on with
  | _ n ih =>
    match n with
    | 0 => norm_num
    | 1 => simpa using h1
    | 2 => linear_combination (a + b + c + (a' + b' + c')) * h1 - 2 * h2
    | n + 3 =>
      have i0 := ih n (by omega)
      have i1 := ih (n + 1) (by omega)
      have i2 := ih (n + 2) (by omega)
      have e : ∀ x y z : ℝ, x ^ (n + 3) + y ^ (n + 3) + z ^ (n + 3) =
          (x + y + z) * (x ^ (n + 2) + y ^ (n + 2) + z ^ (n + 2)) -
          (x * y + y * z + z * x) * (x ^ (n + 1) + y ^ (n + 1) + z ^ (n + 1)) +
          x * y * z * (x ^ n + y ^ n + z ^ n) := fun x y z => by ring
      rw [e a b c, e a' b' c', h1, h2, h3, i0, i1, i2]

/-- The nine differences, by powers of the eigenvalues. -/
theorem nine (a b c x y z : ℝ) : (a - x) ^ 6 + (a - y) ^ 6 + (a - z) ^ 6 + (b - x) ^ 6 + (b - y) ^ 6 + (b - z) ^ 6 +
    (c - x) ^ 6 + (c - y) ^ 6 + (c - z) ^ 6 =
    3 * (a ^ 6 + b ^ 6 + c ^ 6) - 6 * (a ^ 5 + b ^ 5 + c ^ 5) * (x ^ 1 + y ^ 1 + z ^ 1) +
    15 * (a ^ 4 + b ^ 4 + c ^ 4) * (x ^ 2 + y ^ 2 + z ^ 2) - 20 * (a ^ 3 + b ^ 3 + c ^ 3) * (x ^ 3 + y ^ 3 + z ^ 3) +
    15 * (a ^ 2 + b ^ 2 + c ^ 2) * (x ^ 4 + y ^ 4 + z ^ 4) - 6 * (a ^ 1 + b ^ 1 + c ^ 1) * (x ^ 5 + y ^ 5 + z ^ 5) +
    3 * (x ^ 6 + y ^ 6 + z ^ 6) := by
  ring

/-- `α` are the eigenvalues of `A`, in any order. -/
def Spectrum (A : Matrix (Fin 3) (Fin 3) ℝ) (α : Fin 3 → ℝ) : Prop :=
  ∀ x : ℝ, (Matrix.scalar (Fin 3) x - A).det = ∏ i, (x - α i)

/-- The stress tensor of a cell from its Voigt components: xx, yy, zz, yz, xz, xy in space, xx, yy, xy in the plane. -/
def cauchy (terms : Nat) (σ : Nat → ℝ) : Matrix (Fin 3) (Fin 3) ℝ :=
  if terms = 6 then !![σ 0, σ 5, σ 4; σ 5, σ 1, σ 3; σ 4, σ 3, σ 2]
  else if terms = 3 then !![σ 0, σ 2, 0; σ 2, σ 1, 0; 0, 0, 0]
  else !![σ 0, 0, 0; 0, 0, 0; 0, 0, 0]

/-- Deviator of a tensor. -/
noncomputable def deviator (A : Matrix (Fin 3) (Fin 3) ℝ) : Matrix (Fin 3) (Fin 3) ℝ := A - Matrix.scalar (Fin 3) (A.trace / 3)

/-- Voigt components of a tensor in space. -/
def voigt (A : Matrix (Fin 3) (Fin 3) ℝ) : Nat → ℝ
  | 0 => A 0 0
  | 1 => A 1 1
  | 2 => A 2 2
  | 3 => A 1 2
  | 4 => A 0 2
  | _ => A 0 1

/-- The matrix of the stress of a cell after one of the two linear transformations of its deviator. -/
noncomputable def stressMat (T : Nat → Nat → ℝ) (terms : Nat) (σ : Nat → ℝ) : Matrix (Fin 3) (Fin 3) ℝ :=
  mat fun i => ∑ k ∈ range 6, T i k * voigt (deviator (cauchy terms σ)) k

theorem stressMat_eq (T : Nat → Nat → ℝ) {terms : Nat} (ht : terms = 1 ∨ terms = 3 ∨ terms = 6) (σ : Nat → ℝ) :
    stressMat T terms σ = mat (transformed T (six terms σ)) := by
  unfold stressMat
  congr 1
  funext i
  rcases ht with rfl | rfl | rfl <;>
    simp [transformed, six, coef, dev, sum_range_succ, voigt, deviator, cauchy, Matrix.trace, Fin.sum_univ_three,
      Matrix.scalar_apply, Matrix.diagonal] <;> ring

/-- **C116, value** with the exponent that the constructor sets: Barlat's function of the eigenvalues of the two
transformed stresses, in whatever order, unless one of them is a multiple of the identity. -/
theorem C116_value_partial {T1 T2 : Nat → Nat → ℝ} {terms : Nat} (ht : terms = 1 ∨ terms = 3 ∨ terms = 6) {σ : Nat → ℝ}
    (h1 : ∀ a : ℝ, stressMat T1 terms σ ≠ Matrix.scalar (Fin 3) a)
    (h2 : ∀ a : ℝ, stressMat T2 terms σ ≠ Matrix.scalar (Fin 3) a) {α β : Fin 3 → ℝ}
    (hα : Spectrum (stressMat T1 terms σ) α) (hβ : Spectrum (stressMat T2 terms σ) β) (ref vol : ℝ) (p : Int) :
    functor 6 ref T1 T2 terms p σ vol =
      some ((((∑ i, ∑ j, (α i - β j) ^ 6) / 4) ^ (1 / 6 : ℝ) / ref) ^ p * vol) := by
  rw [stressMat_eq _ ht] at hα hβ
  simp only [stressMat_eq _ ht] at h1 h2
  obtain ⟨a, ha, ea⟩ := C116_principal_partial h1
  obtain ⟨b, hb, eb⟩ := C116_principal_partial h2
  obtain ⟨a1, a2, a3⟩ := eigenvalues_sums ea hα
  obtain ⟨b1, b2, b3⟩ := eigenvalues_sums eb hβ
  have pa := power_sums a1 a2 a3
  have pb := power_sums b1 b2 b3
  unfold functor
  rw [ha, hb]
  show some _ = some _
  congr 5
  unfold effective
  have e : ∀ x : ℝ, x ^ (6 : Int) = x ^ 6 := fun x => by exact_mod_cast zpow_natCast x 6
  simp only [e, Fin.sum_univ_three]
  rw [nine, pa 6, pa 5, pa 4, pa 3, pa 2, pa 1, pb 6, pb 5, pb 4, pb 3, pb 2, pb 1, ← nine]
  norm_num
  congr 2
  ring

/-! ## Homogeneity and pressure -/

theorem six_scale (terms : Nat) (a : ℝ) (σ : Nat → ℝ) (i : Nat) :
    six terms (fun t => a * σ t) i = a * six terms σ i := by
  unfold six
  split_ifs <;> simp

theorem stressMat_scale (T : Nat → Nat → ℝ) {terms : Nat} (ht : terms = 1 ∨ terms = 3 ∨ terms = 6) (a : ℝ) (σ : Nat → ℝ) :
    stressMat T terms (fun t => a * σ t) = a • stressMat T terms σ := by
  have e : ∀ i, transformed T (six terms fun t => a * σ t) i = a * transformed T (six terms σ) i := by
    intro i
    unfold transformed
    rw [mul_sum]
    exact sum_congr rfl fun j _ => by rw [six_scale]; ring
  rw [stressMat_eq _ ht, stressMat_eq _ ht]
  unfold mat
  simp only [e]
  ext i j
  fin_cases i <;> fin_cases j <;> simp

theorem spectrum_scale {A : Matrix (Fin 3) (Fin 3) ℝ} {α : Fin 3 → ℝ} (h : Spectrum A α) {a : ℝ} (ha : a ≠ 0) :
    Spectrum (a • A) fun i => a * α i := by
  intro x
  have e : Matrix.scalar (Fin 3) x - a • A = a • (Matrix.scalar (Fin 3) (x / a) - A) := by
    rw [smul_sub]
    congr 1
    ext i j
    by_cases hij : i = j
    · subst hij
      simp [Matrix.scalar_apply]
      field_simp
    · simp [Matrix.scalar_apply, hij]
  rw [e, Matrix.det_smul, h (x / a), Fintype.card_fin, Fin.prod_univ_three, Fin.prod_univ_three]
  field_simp

theorem exists_spectrum (T : Nat → Nat → ℝ) {terms : Nat} (ht : terms = 1 ∨ terms = 3 ∨ terms = 6) (σ : Nat → ℝ) : ∃ α, Spectrum (stressMat T terms σ) α := by
  obtain ⟨l, hl⟩ := exists_eigenvalues (transformed T (six terms σ))
  exact ⟨![l.1, l.2.1, l.2.2], fun x => by rw [stressMat_eq _ ht]; exact (hl x).trans (by rw [Fin.prod_univ_three]; rfl)⟩

/-- **C116, homogeneity**: the stress multiplied by a number that is not zero multiplies the effective stress by its
absolute value. -/
theorem C116_homogeneous_partial {T1 T2 : Nat → Nat → ℝ} {terms : Nat} (ht : terms = 1 ∨ terms = 3 ∨ terms = 6)
    {σ : Nat → ℝ}
    (h1 : ∀ a : ℝ, stressMat T1 terms σ ≠ Matrix.scalar (Fin 3) a)
    (h2 : ∀ a : ℝ, stressMat T2 terms σ ≠ Matrix.scalar (Fin 3) a) {a : ℝ} (ha : a ≠ 0) (ref vol : ℝ) (p : Int) :
    ∃ v, functor 6 ref T1 T2 terms p σ vol = some v ∧
      functor 6 ref T1 T2 terms p (fun t => a * σ t) vol = some (|a| ^ p * v) := by
  obtain ⟨α, hα⟩ := exists_spectrum T1 ht σ
  obtain ⟨β, hβ⟩ := exists_spectrum T2 ht σ
  have hs : ∀ T : Nat → Nat → ℝ, (∀ c : ℝ, stressMat T terms σ ≠ Matrix.scalar (Fin 3) c) →
      ∀ c : ℝ, stressMat T terms (fun t => a * σ t) ≠ Matrix.scalar (Fin 3) c := by
    intro T hT c hc
    refine hT (c / a) ?_
    rw [stressMat_scale _ ht] at hc
    ext i j
    have := congrFun (congrFun hc i) j
    by_cases hij : i = j
    · subst hij
      simp [Matrix.scalar_apply] at this ⊢
      rw [← this]
      field_simp
    · simpa [Matrix.scalar_apply, hij, ha] using this
  refine ⟨_, C116_value_partial ht h1 h2 hα hβ ref vol p, ?_⟩
  rw [C116_value_partial ht (hs T1 h1) (hs T2 h2) (by rw [stressMat_scale _ ht]; exact spectrum_scale hα ha)
    (by rw [stressMat_scale _ ht]; exact spectrum_scale hβ ha)]
  have e : (∑ i, ∑ j, (a * α i - a * β j) ^ 6) / 4 = |a| ^ 6 * ((∑ i, ∑ j, (α i - β j) ^ 6) / 4) := by
    have : |a| ^ 6 = a ^ 6 := by
      rw [show (6 : Nat) = 2 * 3 from rfl, pow_mul, sq_abs, ← pow_mul]
    rw [this]
    simp only [← mul_sub, mul_pow, ← mul_sum]
    ring
  have hn : (0 : ℝ) ≤ (∑ i, ∑ j, (α i - β j) ^ 6) / 4 :=
    div_nonneg (sum_nonneg fun _ _ => sum_nonneg fun _ _ => by positivity) (by norm_num)
  have h6 : (|a| ^ 6) ^ (1 / 6 : ℝ) = |a| := by
    rw [← Real.rpow_natCast, ← Real.rpow_mul (abs_nonneg a)]
    norm_num
  rw [e, Real.mul_rpow (by positivity) hn, h6, mul_div_assoc, mul_zpow, mul_assoc]

/-- **C116, pressure**: in three dimensions a hydrostatic stress added to the stress does not change the value. -/
theorem C116_pressure (m : Int) (ref : ℝ) (T1 T2 : Nat → Nat → ℝ) (p : Int) (σ : Nat → ℝ) (vol q : ℝ) :
    functor m ref T1 T2 6 p (fun t => σ t + if t < 3 then q else 0) vol = functor m ref T1 T2 6 p σ vol := by
  have e : ∀ T : Nat → Nat → ℝ, transformed T (six 6 fun t => σ t + if t < 3 then q else 0) =
      transformed T (six 6 σ) := by
    intro T
    funext i
    simp [transformed, six, coef, dev, sum_range_succ]
    ring
  unfold functor
  rw [e T1, e T2]

/-- **C116 is false** for cells under pressure only, stress free cells among them: the value is not a number, for
every input. -/
theorem C116_unstressed_false (m : Int) (ref : ℝ) (T1 T2 : Nat → Nat → ℝ) (p : Int) (vol : ℝ) :
    (∀ terms, functor m ref T1 T2 terms p (fun _ => 0) vol = none) ∧
    ∀ q : ℝ, functor m ref T1 T2 6 p (fun t => if t < 3 then q else 0) vol = none := by
  have h : ∀ terms, functor m ref T1 T2 terms p (fun _ => 0) vol = none := by
    intro terms
    have e : transformed T1 (six terms fun _ => 0) = fun _ => 0 := by
      funext i
      simp [transformed, six]
    have ht : theta (fun _ => 0) = none := by
      unfold theta
      rw [P_eq, if_pos]
      norm_num [H1, H2]
    unfold functor principal
    rw [e, ht]
    rfl
  refine ⟨h, fun q => ?_⟩
  have := C116_pressure m ref T1 T2 p (fun _ => 0) vol q
  simp only [zero_add] at this
  rw [this, h]

/-- **C116 is false** for the exponent of the input: it is six whatever the input asks for, or an error. -/
theorem C116_exponent_false : (∀ n, exponent (some (.int n)) = .err "InvalidParameterType") ∧
    (∀ r, exponent (some (.real r)) = .ok 6) ∧ ∀ e n, exponent e = .ok n → n = 6 := by
  refine ⟨fun _ => rfl, fun _ => rfl, fun e n h => ?_⟩
  unfold exponent at h
  split at h
  · cases h
  · exact (Res.ok.inj h).symm

/-! ## A case -/

/-- Unit transformations. -/
def unitT (i j : Nat) : ℝ := if i = j then 1 else 0

theorem unit_mat (σ : ℝ) : stressMat unitT 1 (fun _ => σ) =
    !![2 / 3 * σ, 0, 0; 0, -1 / 3 * σ, 0; 0, 0, -1 / 3 * σ] := by
  rw [stressMat_eq _ (.inl rfl)]
  unfold mat
  ext i j
  fin_cases i <;> fin_cases j <;>
    simp [transformed, six, coef, dev, unitT, sum_range_succ]

/-- The effective stress of a bar under tension is the stress. -/
example (σ : ℝ) (hσ : 0 < σ) : functor 6 1 unitT unitT 1 1 (fun _ => σ) 1 = some σ := by
  have h : ∀ a : ℝ, stressMat unitT 1 (fun _ => σ) ≠ Matrix.scalar (Fin 3) a := by
    intro a ha
    rw [unit_mat] at ha
    have e0 := congrFun (congrFun ha 0) 0
    have e1 := congrFun (congrFun ha 1) 1
    simp [Matrix.scalar_apply] at e0 e1
    linarith
  have hs : Spectrum (stressMat unitT 1 fun _ => σ) ![2 / 3 * σ, -1 / 3 * σ, -1 / 3 * σ] := by
    intro x
    rw [unit_mat, Matrix.det_fin_three, Fin.prod_univ_three]
    simp [Matrix.scalar_apply, Matrix.diagonal]
  rw [C116_value_partial (.inl rfl) h h hs hs]
  have e : (∑ i, ∑ j, ((![2 / 3 * σ, -1 / 3 * σ, -1 / 3 * σ] : Fin 3 → ℝ) i -
      (![2 / 3 * σ, -1 / 3 * σ, -1 / 3 * σ] : Fin 3 → ℝ) j) ^ 6) / 4 = σ ^ 6 := by
    simp [Fin.sum_univ_three]
    ring
  rw [e, ← Real.rpow_natCast, ← Real.rpow_mul hσ.le]
  norm_num

end Plato.Crit.Barlat
