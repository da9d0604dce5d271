import Verif.Material.Model
import Mathlib.Algebra.BigOperators.Group.Finset.Basic
import Mathlib.Tactic.Linarith
import Mathlib.Tactic.FieldSimp
import Mathlib.Tactic.IntervalCases
import Mathlib.Tactic.Positivity

/-!
# Stiffness matrices of the elastic materials (C40)

Specification: Hooke's law `σ = λ tr(ε) I + 2 μ ε` for the isotropic materials, the compliance relations
for the orthotropic ones, positive work on every strain.
-/

namespace Plato.Material
open Plato Finset

/-! ## Specification -/

/-- Stress of a strain (Voigt order, engineering shear strains). -/
def stress (C : V2 ℝ) (e : Nat → ℝ) (t : Nat) : ℝ := ∑ s ∈ range C.d1, C.e t s * e s

/-- Twice the strain energy. -/
def work (C : V2 ℝ) (e : Nat → ℝ) : ℝ := ∑ t ∈ range C.d0, e t * stress C e t

/-- A symmetric matrix with the size of the Voigt vectors. -/
structure IsStiffness (d : Nat) (C : V2 ℝ) : Prop where
  rows : C.d0 = voigt d
  cols : C.d1 = voigt d
  symm : ∀ i j, i < voigt d → j < voigt d → C.e i j = C.e j i

/-- Every strain but zero costs work. -/
def Definite (d : Nat) (C : V2 ℝ) : Prop := ∀ e : Nat → ℝ, (∃ t, t < voigt d ∧ e t ≠ 0) → 0 < work C e

/-- The law of Hooke with Lamé constant `lam` and shear modulus `mu`. -/
def Hooke (d : Nat) (lam mu : ℝ) (C : V2 ℝ) : Prop := ∀ e : Nat → ℝ, ∀ t, t < voigt d →
  stress C e t = if t < d then lam * ∑ k ∈ range d, e k + 2 * mu * e t else mu * e t

/-- `m(i,j)` after a sequence of assignments: the last one counts. -/
theorem assign_ok (m : V2 ℝ) (l : List (Nat × Nat × ℝ)) (h : ∀ t ∈ l, t.1 < m.d0 ∧ t.2.1 < m.d1) :
    assign m l = .ok ⟨m.d0, m.d1, l.foldl (fun e t r c => if r = t.1 ∧ c = t.2.1 then t.2.2 else e r c) m.e⟩ := by
  unfold assign
  induction l generalizing m with
  | nil => rfl
  | cons t l ih =>
    rw [List.foldlM_cons]
    have ht := h t (List.mem_cons_self ..)
    rw [show vwr2 m t.1 t.2.1 t.2.2 = .ok ⟨m.d0, m.d1, fun r c => if r = t.1 ∧ c = t.2.1 then t.2.2 else m.e r c⟩
      from by unfold vwr2; rw [if_pos ht], Res.ok_bind]
    exact ih ⟨m.d0, m.d1, fun r c => if r = t.1 ∧ c = t.2.1 then t.2.2 else m.e r c⟩
      fun t' h' => h t' (List.mem_cons_of_mem _ h')

/-- In three dimensions: a block for the normal terms and a diagonal for the shear terms. -/
structure Block3 (a b c f g h p q r : ℝ) (C : V2 ℝ) : Prop where
  rows : C.d0 = 6
  cols : C.d1 = 6
  s0 : ∀ e, stress C e 0 = a * e 0 + b * e 1 + c * e 2
  s1 : ∀ e, stress C e 1 = b * e 0 + f * e 1 + g * e 2
  s2 : ∀ e, stress C e 2 = c * e 0 + g * e 1 + h * e 2
  s3 : ∀ e, stress C e 3 = p * e 3
  s4 : ∀ e, stress C e 4 = q * e 4
  s5 : ∀ e, stress C e 5 = r * e 5

/-- In two dimensions. -/
structure Block2 (a b f r : ℝ) (C : V2 ℝ) : Prop where
  rows : C.d0 = 3
  cols : C.d1 = 3
  s0 : ∀ e, stress C e 0 = a * e 0 + b * e 1
  s1 : ∀ e, stress C e 1 = b * e 0 + f * e 1
  s2 : ∀ e, stress C e 2 = r * e 2

/-- In one dimension. -/
structure Block1 (a : ℝ) (C : V2 ℝ) : Prop where
  rows : C.d0 = 1
  cols : C.d1 = 1
  s0 : ∀ e, stress C e 0 = a * e 0

/-- An entry is the stress of a unit strain. -/
theorem entry_eq (C : V2 ℝ) {i j : Nat} (hj : j < C.d1) : C.e i j = stress C (fun s => if s = j then 1 else 0) i := by
  unfold stress
  rw [sum_eq_single_of_mem j (mem_range.2 hj)]
  · simp
  · intro k _ hk; simp [hk]

theorem Block3.stiffness {a b c f g h p q r : ℝ} {C : V2 ℝ} (H : Block3 a b c f g h p q r C) : IsStiffness 3 C := by
  refine ⟨H.rows, H.cols, fun i j hi hj => ?_⟩
  have hi' : i < 6 := hi
  have hj' : j < 6 := hj
  rw [entry_eq C (by rw [H.cols]; exact hj), entry_eq C (by rw [H.cols]; exact hi)]
  interval_cases i <;> interval_cases j <;> simp [H.s0, H.s1, H.s2, H.s3, H.s4, H.s5]

theorem Block2.stiffness {a b f r : ℝ} {C : V2 ℝ} (H : Block2 a b f r C) : IsStiffness 2 C := by
  refine ⟨H.rows, H.cols, fun i j hi hj => ?_⟩
  have hi' : i < 3 := hi
  have hj' : j < 3 := hj
  rw [entry_eq C (by rw [H.cols]; exact hj), entry_eq C (by rw [H.cols]; exact hi)]
  interval_cases i <;> interval_cases j <;> simp [H.s0, H.s1, H.s2]

theorem Block1.stiffness {a : ℝ} {C : V2 ℝ} (H : Block1 a C) : IsStiffness 1 C := by
  refine ⟨H.rows, H.cols, fun i j hi hj => ?_⟩
  have hi' : i < 1 := hi
  have hj' : j < 1 := hj
  interval_cases i; interval_cases j; rfl

theorem Block3.work {a b c f g h p q r : ℝ} {C : V2 ℝ} (H : Block3 a b c f g h p q r C) (e : Nat → ℝ) :
    work C e = (a * e 0 ^ 2 + f * e 1 ^ 2 + h * e 2 ^ 2 + 2 * b * (e 0 * e 1) + 2 * c * (e 0 * e 2) +
      2 * g * (e 1 * e 2)) + (p * e 3 ^ 2 + q * e 4 ^ 2 + r * e 5 ^ 2) := by
  unfold Material.work
  rw [H.rows]
  simp only [sum_range_succ, range_zero, sum_empty, H.s0, H.s1, H.s2, H.s3, H.s4, H.s5]
  ring

theorem Block2.work {a b f r : ℝ} {C : V2 ℝ} (H : Block2 a b f r C) (e : Nat → ℝ) :
    work C e = (a * e 0 ^ 2 + f * e 1 ^ 2 + 2 * b * (e 0 * e 1)) + r * e 2 ^ 2 := by
  unfold Material.work
  rw [H.rows]
  simp only [sum_range_succ, range_zero, sum_empty, H.s0, H.s1, H.s2]
  ring

theorem Block1.work {a : ℝ} {C : V2 ℝ} (H : Block1 a C) (e : Nat → ℝ) : work C e = a * e 0 ^ 2 := by
  unfold Material.work
  rw [H.rows]
  simp only [sum_range_succ, range_zero, sum_empty, H.s0]
  ring

/-- Positive definite quadratic forms in two variables (Sylvester). -/
theorem quad2 {a b f : ℝ} : (0 < a ∧ 0 < a * f - b ^ 2) ↔
    ∀ x y : ℝ, (x ≠ 0 ∨ y ≠ 0) → 0 < a * x ^ 2 + f * y ^ 2 + 2 * b * (x * y) := by
  constructor
  · rintro ⟨ha, hd⟩ x y hxy
    have e : a * (a * x ^ 2 + f * y ^ 2 + 2 * b * (x * y)) = (a * x + b * y) ^ 2 + (a * f - b ^ 2) * y ^ 2 := by ring
    by_contra hn
    have h1 : a * (a * x ^ 2 + f * y ^ 2 + 2 * b * (x * y)) ≤ 0 :=
      mul_nonpos_of_nonneg_of_nonpos ha.le (not_lt.1 hn)
    rw [e] at h1
    have h2 := sq_nonneg (a * x + b * y)
    have hy : y = 0 := by
      by_contra h
      have : 0 < (a * f - b ^ 2) * y ^ 2 := by positivity
      linarith
    subst hy
    have hx : x = 0 := by
      by_contra h
      have : 0 < (a * x) ^ 2 := by positivity
      simp at h1
      nlinarith
    simp [hx] at hxy
  · intro h
    have ha : 0 < a := by simpa using h 1 0 (by simp)
    refine ⟨ha, ?_⟩
    have := h (-b) a (Or.inr ha.ne')
    have e : a * (-b) ^ 2 + f * a ^ 2 + 2 * b * (-b * a) = a * (a * f - b ^ 2) := by ring
    rw [e] at this
    exact (mul_pos_iff_of_pos_left ha).1 this

/-- Positive definite quadratic forms in three variables (Sylvester). -/
theorem quad3 {a b c f g h : ℝ} (ha : 0 < a) (h2 : 0 < a * f - b ^ 2)
    (h3 : 0 < a * (f * h - g ^ 2) - b * (b * h - g * c) + c * (b * g - f * c)) {x y z : ℝ}
    (hxyz : x ≠ 0 ∨ y ≠ 0 ∨ z ≠ 0) :
    0 < a * x ^ 2 + f * y ^ 2 + h * z ^ 2 + 2 * b * (x * y) + 2 * c * (x * z) + 2 * g * (y * z) := by
  set D := a * (f * h - g ^ 2) - b * (b * h - g * c) + c * (b * g - f * c) with hD
  set m := a * f - b ^ 2 with hm
  have e : a * m * (a * x ^ 2 + f * y ^ 2 + h * z ^ 2 + 2 * b * (x * y) + 2 * c * (x * z) + 2 * g * (y * z)) =
      m * (a * x + b * y + c * z) ^ 2 + (m * y + (a * g - b * c) * z) ^ 2 + a * D * z ^ 2 := by
    rw [hD, hm]; ring
  have ham : 0 < a * m := mul_pos ha h2
  by_contra hn
  have h1 := mul_nonpos_of_nonneg_of_nonpos ham.le (not_lt.1 hn)
  rw [e] at h1
  have p1 : 0 ≤ m * (a * x + b * y + c * z) ^ 2 := by positivity
  have p2 := sq_nonneg (m * y + (a * g - b * c) * z)
  have hz : z = 0 := by
    by_contra hz
    have : 0 < a * D * z ^ 2 := by positivity
    linarith
  subst hz
  simp only [mul_zero, add_zero, ne_eq, OfNat.ofNat_ne_zero, not_false_eq_true, zero_pow] at h1 p1 p2
  have hy : y = 0 := by
    by_contra hy
    have : 0 < (m * y) ^ 2 := by positivity
    linarith
  subst hy
  simp only [mul_zero, add_zero, ne_eq, OfNat.ofNat_ne_zero, not_false_eq_true, zero_pow] at h1 p1
  have hx : x = 0 := by
    by_contra hx
    have : 0 < m * (a * x) ^ 2 := by positivity
    linarith
  simp [hx] at hxyz

end Plato.Material
