import Verif.J2.Element
import Mathlib.LinearAlgebra.Matrix.Notation
import Mathlib.LinearAlgebra.Matrix.Trace
import Mathlib.Analysis.SpecialFunctions.Pow.Real

/-!
# Return mapping at a cell

The specification speaks of symmetric tensors, not of components: the conditions of rate independent
plasticity with von Mises yield function, linear isotropic and kinematic hardening.
-/

namespace Plato.J2
open Plato Plato.Mech Finset

/-! ## Specification -/

/-- Tensors of second order. -/
abbrev Tensor := Matrix (Fin 3) (Fin 3) ℝ

/-- Norm of a tensor. -/
noncomputable def nrm (A : Tensor) : ℝ := Real.sqrt (∑ i, ∑ j, A i j * A i j)

/-- Scalar product of tensors. -/
def dot (A B : Tensor) : ℝ := ∑ i, ∑ j, A i j * B i j

/-- Deviatoric part. -/
noncomputable def deviator (A : Tensor) : Tensor := A - (A.trace / 3) • (1 : Tensor)

/-- A material: shear modulus, moduli of isotropic and kinematic hardening, initial yield stress. -/
structure Mat where
  mu : ℝ
  K : ℝ
  H : ℝ
  sy : ℝ

/-- State of a material point: accumulated plastic strain, its increment, plastic strain, backstress. -/
structure Point where
  acc : ℝ
  inc : ℝ
  ep : Tensor
  back : Tensor

/-- Deviatoric stress minus backstress, for the strain `E` that is not thermal. -/
noncomputable def Mat.over (m : Mat) (E : Tensor) (p : Point) : Tensor :=
  (2 * m.mu) • deviator (E - p.ep) - p.back

/-- Yield function. -/
noncomputable def Mat.f (m : Mat) (E : Tensor) (p : Point) : ℝ :=
  √(3 / 2) * nrm (m.over E p) - (m.sy + m.K * p.acc)

/-- The conditions of the backward Euler step from `prev` to `cur` at strain `E`: loading and unloading
conditions and flow rule.  The yield function may exceed zero by `tol`. -/
structure Returned (m : Mat) (tol : ℝ) (E : Tensor) (prev cur : Point) : Prop where
  /-- the multiplier is nonnegative -/
  inc : 0 ≤ cur.inc
  /-- it accumulates -/
  acc : cur.acc = prev.acc + cur.inc
  /-- plastic strain and backstress flow along the deviatoric stress minus backstress -/
  flow : ∃ N : Tensor, m.over E cur = nrm (m.over E cur) • N ∧
    cur.ep = prev.ep + (√(3 / 2) * cur.inc) • N ∧ cur.back = prev.back + (√(2 / 3) * m.H * cur.inc) • N
  /-- the new state is admissible -/
  admissible : m.f E cur ≤ tol
  /-- a step with plastic flow ends on the yield surface -/
  consistent : 0 < cur.inc → m.f E cur = 0

/-- A stress from its components: 11, 22, 12, 33 in two and 11, 22, 33, 23, 13, 12 in three dimensions. -/
def stressTensor (d : Nat) (v : Nat → ℝ) : Tensor :=
  if d = 2 then !![v 0, v 2, 0; v 2, v 1, 0; 0, 0, v 3]
  else !![v 0, v 5, v 4; v 5, v 1, v 3; v 4, v 3, v 2]

/-- A strain from its components, of which the shear ones are doubled. -/
noncomputable def strainTensor (d : Nat) (v : Nat → ℝ) : Tensor :=
  if d = 2 then !![v 0, v 2 / 2, 0; v 2 / 2, v 1, 0; 0, 0, v 3]
  else !![v 0, v 5 / 2, v 4 / 2; v 5 / 2, v 1, v 3 / 2; v 4 / 2, v 3 / 2, v 2]

/-- The point stored in the local state of a cell. -/
noncomputable def point (d : Nat) (C : Nat → ℝ) : Point where
  acc := C 0
  inc := C 1
  ep := strainTensor d fun t => C (2 + t)
  back := stressTensor d fun t => C (2 + stressTerms d + t)

/-- Strain of a cell: symmetric part of the gradient of the displacement; plane strain in two dimensions. -/
noncomputable def smallStrain (d ndof : Nat) (U : Nat → ℝ) (X : Nat → Nat → ℝ) : Tensor := fun i j =>
  if i.1 < d ∧ j.1 < d then
    (fieldGrad d (fun n k => U (n * ndof + k)) (gradForm d X) i j +
      fieldGrad d (fun n k => U (n * ndof + k)) (gradForm d X) j i) / 2
  else 0

/-- Strain without the thermal one. -/
noncomputable def J2.mechStrain (P : J2 ℝ) (U : Nat → ℝ) (X : Nat → Nat → ℝ) : Tensor :=
  smallStrain P.d P.ndof U X - P.therm U • (1 : Tensor)

/-- Penalised material of a cell. -/
noncomputable def J2.mat (P : J2 ℝ) (Z : Nat → ℝ) : Mat where
  mu := P.penE (meanDensity (P.d + 1) Z) * P.shear
  K := P.penP (meanDensity (P.d + 1) Z) * P.hardIso
  H := P.penP (meanDensity (P.d + 1) Z) * P.hardKin
  sy := P.penP (meanDensity (P.d + 1) Z) * P.yield0

/-- Signs of the material parameters. -/
structure Mat.Ok (m : Mat) : Prop where
  mu : 0 < m.mu
  K : 0 ≤ m.K
  H : 0 ≤ m.H
  sy : 0 < m.sy

/-- What every reachable state satisfies. -/
structure Point.Ok (p : Point) : Prop where
  acc : 0 ≤ p.acc
  back : p.back.trace = 0
  ep : p.ep.trace = 0

/-! ## Algebra of tensors -/

theorem dot_self (A : Tensor) : dot A A = nrm A ^ 2 := by
  rw [nrm, Real.sq_sqrt]
  · rfl
  · exact sum_nonneg fun i _ => sum_nonneg fun j _ => mul_self_nonneg _

theorem nrm_smul (c : ℝ) (A : Tensor) : nrm (c • A) = |c| * nrm A := by
  unfold nrm
  rw [← Real.sqrt_sq_eq_abs, ← Real.sqrt_mul (sq_nonneg _)]
  congr 1
  rw [mul_sum]
  refine sum_congr rfl fun i _ => ?_
  rw [mul_sum]
  refine sum_congr rfl fun j _ => ?_
  rw [Matrix.smul_apply, smul_eq_mul]
  ring

theorem nrm_nonneg (A : Tensor) : 0 ≤ nrm A := Real.sqrt_nonneg _

theorem nrm_eq_zero {A : Tensor} (h : nrm A = 0) : A = 0 := by
  have h : dot A A = 0 := by rw [dot_self, h]; norm_num
  unfold dot at h
  ext i j
  have h1 := (sum_eq_zero_iff_of_nonneg fun i _ => sum_nonneg fun j _ => mul_self_nonneg _).1 h i (mem_univ _)
  have h2 := (sum_eq_zero_iff_of_nonneg fun j _ => mul_self_nonneg _).1 h1 j (mem_univ _)
  simpa using h2

theorem deviator_sub_smul (A B : Tensor) (c : ℝ) (hB : B.trace = 0) :
    deviator (A - c • B) = deviator A - c • B := by
  unfold deviator
  rw [Matrix.trace_sub, Matrix.trace_smul, hB]
  simp only [smul_eq_mul, mul_zero, sub_zero]
  abel

theorem deviator_trace (A : Tensor) : (deviator A).trace = 0 := by
  unfold deviator
  rw [Matrix.trace_sub, Matrix.trace_smul, Matrix.trace_one]
  simp

theorem over_trace {m : Mat} {E : Tensor} {p : Point} (hp : p.back.trace = 0) : (m.over E p).trace = 0 := by
  unfold Mat.over
  rw [Matrix.trace_sub, Matrix.trace_smul, deviator_trace, hp]
  simp

theorem s32_pos : 0 < √(3 / 2 : ℝ) := Real.sqrt_pos.2 (by norm_num)
theorem s23_pos : 0 < √(2 / 3 : ℝ) := Real.sqrt_pos.2 (by norm_num)
theorem s32_s23 : √(3 / 2 : ℝ) * √(2 / 3) = 1 := by
  rw [← Real.sqrt_mul (by norm_num)]; norm_num
theorem s32_sq : √(3 / 2 : ℝ) * √(3 / 2) = 3 / 2 := Real.mul_self_sqrt (by norm_num)
theorem s23_sq : √(2 / 3 : ℝ) * √(2 / 3) = 2 / 3 := Real.mul_self_sqrt (by norm_num)

/-! ## The step, in tensors -/

/-- The step of the code at a material point: with trial value `f` of the yield function, multiplier
`f / (3 μ + K + H)` along the trial direction. -/
noncomputable def radial (m : Mat) (tol : ℝ) (E : Tensor) (p : Point) : Point :=
  if tol < m.f E p then
    { acc := p.acc + m.f E p / (3 * m.mu + m.K + m.H)
      inc := m.f E p / (3 * m.mu + m.K + m.H)
      ep := p.ep + (m.f E p / (3 * m.mu + m.K + m.H) * √(3 / 2) / nrm (m.over E p)) • m.over E p
      back := p.back + (m.f E p / (3 * m.mu + m.K + m.H) * √(2 / 3) * m.H / nrm (m.over E p)) • m.over E p }
  else { p with inc := 0 }

section Radial
variable {m : Mat} (hm : m.Ok) {tol : ℝ} (ht : 0 ≤ tol) {E : Tensor} {p : Point} (hp : p.Ok)
include hm

/-- A trial state beyond the yield surface has a direction. -/
theorem norm_pos (hp : p.Ok) (h : 0 < m.f E p) : 0 < nrm (m.over E p) := by
  rcases (nrm_nonneg (m.over E p)).lt_or_eq with h1 | h1
  · exact h1
  · exfalso
    unfold Mat.f at h
    rw [← h1, mul_zero] at h
    have := mul_nonneg hm.K hp.acc
    linarith [hm.sy]

/-- A step along the trial direction scales the deviatoric stress minus backstress. -/
theorem over_step (hp : p.Ok) (g : ℝ) (hn : 0 < nrm (m.over E p)) (q : Point)
    (hq : q.ep = p.ep + (g * √(3 / 2) / nrm (m.over E p)) • m.over E p)
    (hb : q.back = p.back + (g * √(2 / 3) * m.H / nrm (m.over E p)) • m.over E p) :
    m.over E q = ((√(3 / 2) * nrm (m.over E p) - g * (3 * m.mu + m.H)) / (√(3 / 2) * nrm (m.over E p))) •
      m.over E p := by
  have h1 : deviator (E - q.ep) = deviator (E - p.ep) -
      (g * √(3 / 2) / nrm (m.over E p)) • m.over E p := by
    rw [hq, show E - (p.ep + (g * √(3 / 2) / nrm (m.over E p)) • m.over E p) =
      E - p.ep - (g * √(3 / 2) / nrm (m.over E p)) • m.over E p by abel,
      deviator_sub_smul _ _ _ (over_trace hp.back)]
  have h2 : m.over E q = m.over E p - (2 * m.mu * (g * √(3 / 2) / nrm (m.over E p)) +
      g * √(2 / 3) * m.H / nrm (m.over E p)) • m.over E p := by
    conv_lhs => rw [Mat.over, h1, hb]
    rw [smul_sub, smul_smul, add_smul]
    conv_rhs => rw [show m.over E p - (_ • m.over E p + _ • m.over E p) =
      (2 * m.mu) • deviator (E - p.ep) - p.back - (_ • m.over E p + _ • m.over E p) from rfl]
    abel
  rw [h2]
  conv_lhs => rw [show m.over E p - (2 * m.mu * (g * √(3 / 2) / nrm (m.over E p)) +
      g * √(2 / 3) * m.H / nrm (m.over E p)) • m.over E p = (1 - (2 * m.mu * (g * √(3 / 2) / nrm (m.over E p)) +
      g * √(2 / 3) * m.H / nrm (m.over E p))) • m.over E p by rw [sub_smul, one_smul]]
  congr 1
  have h3 := s32_sq
  have h4 := s32_s23
  have h5 := s32_pos
  rw [eq_div_iff (by positivity)]
  have hn' := hn.ne'
  field_simp
  linear_combination (-2 * m.mu * g) * h3 - (g * m.H) * h4

include ht hp

/-- **The step satisfies the conditions of plasticity.** -/
theorem radial_returned : Returned m tol E p (radial m tol E p) := by
  unfold radial
  by_cases h : tol < m.f E p
  · rw [if_pos h]
    have hf : 0 < m.f E p := lt_of_le_of_lt ht h
    have hn := norm_pos hm hp hf
    have hD : 0 < 3 * m.mu + m.K + m.H := by linarith [hm.mu, hm.K, hm.H]
    set g := m.f E p / (3 * m.mu + m.K + m.H) with hg
    have hg0 : 0 < g := div_pos hf hD
    have hgD : g * (3 * m.mu + m.K + m.H) = m.f E p := div_mul_cancel₀ _ hD.ne'
    set q : Point := ⟨p.acc + g, g, p.ep + (g * √(3 / 2) / nrm (m.over E p)) • m.over E p,
      p.back + (g * √(2 / 3) * m.H / nrm (m.over E p)) • m.over E p⟩ with hq
    have ho := over_step (E := E) hm hp g hn q rfl rfl
    have hs := s32_pos
    have hnum : √(3 / 2) * nrm (m.over E p) - g * (3 * m.mu + m.H) = m.sy + m.K * (p.acc + g) := by
      have : m.f E p = √(3 / 2) * nrm (m.over E p) - (m.sy + m.K * p.acc) := rfl
      linear_combination -hgD - this
    have hpos : 0 < m.sy + m.K * (p.acc + g) := by
      have := mul_nonneg hm.K (add_nonneg hp.acc hg0.le)
      linarith [hm.sy]
    rw [hnum] at ho
    have hnr : nrm (m.over E q) = (m.sy + m.K * (p.acc + g)) / √(3 / 2) := by
      rw [ho, nrm_smul, abs_of_pos (by positivity)]
      field_simp
    have hfq : m.f E q = 0 := by
      unfold Mat.f
      rw [hnr]
      simp only [hq]
      field_simp
      ring
    refine ⟨hg0.le, rfl, ⟨(1 / nrm (m.over E p)) • m.over E p, ?_, ?_, ?_⟩, by rw [hfq]; exact ht, fun _ => hfq⟩
    · rw [hnr, ho, smul_smul]
      congr 1
      field_simp
    · rw [smul_smul]
      simp only [hq]
      congr 2
      ring
    · rw [smul_smul]
      simp only [hq]
      congr 2
      ring
  · rw [if_neg h]
    have hd : ∃ N : Tensor, m.over E p = nrm (m.over E p) • N := by
      rcases eq_or_ne (nrm (m.over E p)) 0 with h0 | h0
      · exact ⟨0, by rw [nrm_eq_zero h0, smul_zero]⟩
      · exact ⟨(nrm (m.over E p))⁻¹ • m.over E p, by rw [smul_smul, mul_inv_cancel₀ h0, one_smul]⟩
    obtain ⟨N, hN⟩ := hd
    exact ⟨le_rfl, by simp, ⟨N, hN, by simp, by simp⟩, not_lt.1 h, fun h => absurd h (lt_irrefl _)⟩

omit ht hp in
/-- In a step with flow the direction has trace zero and norm one. -/
theorem Returned.unit (hp : p.Ok) {q : Point} (hq : Returned m tol E p q) (h0 : 0 < q.inc) {N : Tensor}
    (hN : m.over E q = nrm (m.over E q) • N) (hbk : q.back = p.back + (√(2 / 3) * m.H * q.inc) • N) :
    N.trace = 0 ∧ nrm N = 1 ∧ 0 < nrm (m.over E q) := by
  have hs2 := s23_pos
  have hf := hq.consistent h0
  have hacc := hq.acc
  have hy : √(3 / 2) * nrm (m.over E q) = m.sy + m.K * (p.acc + q.inc) := by
    unfold Mat.f at hf; rw [hacc] at hf; linarith
  have hpos : 0 < m.sy + m.K * (p.acc + q.inc) := by
    have := mul_nonneg hm.K (add_nonneg hp.acc h0.le)
    linarith [hm.sy]
  have hn : 0 < nrm (m.over E q) := by
    by_contra hc
    have : nrm (m.over E q) = 0 := le_antisymm (not_lt.1 hc) (nrm_nonneg _)
    rw [this, mul_zero] at hy
    linarith
  refine ⟨?_, ?_, hn⟩
  · have h1 : (m.over E q).trace = nrm (m.over E q) * N.trace := by
      conv_lhs => rw [hN, Matrix.trace_smul, smul_eq_mul]
    have h2 : (m.over E q).trace = -(√(2 / 3) * m.H * q.inc * N.trace) := by
      rw [Mat.over, Matrix.trace_sub, Matrix.trace_smul, deviator_trace, hbk, Matrix.trace_add,
        Matrix.trace_smul, hp.back]
      simp
    have h5 : (nrm (m.over E q) + √(2 / 3) * m.H * q.inc) * N.trace = 0 := by rw [add_mul, ← h1, h2]; ring
    have h6 : 0 ≤ √(2 / 3) * m.H * q.inc := mul_nonneg (mul_nonneg hs2.le hm.H) h0.le
    exact (mul_eq_zero.1 h5).resolve_left (by linarith)
  · have : nrm (m.over E q) = nrm (m.over E q) * nrm N := by
      conv_lhs => rw [hN, nrm_smul, abs_of_pos hn]
    exact (mul_eq_left₀ hn.ne').1 this.symm

omit ht hp in
/-- **Uniqueness.**  The conditions determine the state, but for trial values of the yield function between
zero and the tolerance. -/
theorem returned_unique (hp : p.Ok) {q : Point} (hq : Returned m tol E p q) (h : tol < m.f E p ∨ m.f E p ≤ 0) :
    q = radial m tol E p := by
  have hs := s32_pos
  have hs2 := s23_pos
  have h4 := s32_s23
  have h3 := s32_sq
  have hD : 0 < 3 * m.mu + m.K + m.H := by linarith [hm.mu, hm.K, hm.H]
  obtain ⟨N, hN, hep, hbk⟩ := hq.flow
  rcases hq.inc.lt_or_eq with h0 | h0
  · have hf := hq.consistent h0
    have hacc := hq.acc
    have hy : √(3 / 2) * nrm (m.over E q) = m.sy + m.K * (p.acc + q.inc) := by
      unfold Mat.f at hf; rw [hacc] at hf; linarith
    obtain ⟨htr, hN1, hn⟩ := hq.unit hm hp h0 hN hbk
    have hop : m.over E p = (nrm (m.over E q) + (2 * m.mu * (√(3 / 2) * q.inc) + √(2 / 3) * m.H * q.inc)) • N := by
      have h1 : deviator (E - q.ep) = deviator (E - p.ep) - (√(3 / 2) * q.inc) • N := by
        rw [hep, show E - (p.ep + (√(3 / 2) * q.inc) • N) = E - p.ep - (√(3 / 2) * q.inc) • N by abel,
          deviator_sub_smul _ _ _ htr]
      rw [add_smul, ← hN, Mat.over, Mat.over, h1, hbk, smul_sub, smul_smul, add_smul]
      abel
    have hk : 0 < nrm (m.over E q) + (2 * m.mu * (√(3 / 2) * q.inc) + √(2 / 3) * m.H * q.inc) := by
      have h6 : 0 ≤ √(2 / 3) * m.H * q.inc := mul_nonneg (mul_nonneg hs2.le hm.H) h0.le
      have h7 : 0 < 2 * m.mu * (√(3 / 2) * q.inc) := by have := hm.mu; positivity
      linarith
    have hnp : nrm (m.over E p) = nrm (m.over E q) + (2 * m.mu * (√(3 / 2) * q.inc) + √(2 / 3) * m.H * q.inc) := by
      rw [hop, nrm_smul, hN1, mul_one, abs_of_pos hk]
    have hfp : m.f E p = q.inc * (3 * m.mu + m.K + m.H) := by
      unfold Mat.f
      rw [hnp]
      linear_combination hy + (2 * m.mu * q.inc) * h3 + (m.H * q.inc) * h4
    have hfpos : 0 < m.f E p := by rw [hfp]; exact mul_pos h0 hD
    have htol : tol < m.f E p := h.resolve_right (not_le.2 hfpos)
    have hinc : m.f E p / (3 * m.mu + m.K + m.H) = q.inc := by
      rw [hfp, mul_div_assoc, div_self hD.ne', mul_one]
    have hNe : N = (1 / nrm (m.over E p)) • m.over E p := by
      conv_rhs => rw [hop, nrm_smul, hN1, mul_one, abs_of_pos hk, smul_smul, one_div, inv_mul_cancel₀ hk.ne', one_smul]
    unfold radial
    rw [if_pos htol, hinc]
    rw [hNe, smul_smul] at hep hbk
    obtain ⟨a, b, c, e⟩ := q
    simp only at hacc hep hbk
    rw [Point.mk.injEq]
    refine ⟨hacc, rfl, ?_, ?_⟩
    · rw [hep]; congr 2; ring
    · rw [hbk]; congr 2; ring
  · have hacc : q.acc = p.acc := by rw [hq.acc, ← h0, add_zero]
    rw [← h0, mul_zero, zero_smul, add_zero] at hep hbk
    have hfe : m.f E q = m.f E p := by unfold Mat.f Mat.over; rw [hep, hbk, hacc]
    have hnot : ¬ tol < m.f E p := by rw [← hfe]; exact not_lt.2 hq.admissible
    unfold radial
    rw [if_neg hnot]
    obtain ⟨a, b, c, e⟩ := q
    simp only at hacc hep hbk h0
    subst hacc hep hbk h0
    rfl

omit ht hp in
/-- **What a step preserves and what it does**, from the conditions alone: the new state is again a state,
accumulated plastic strain does not decrease, its increment is the norm of the increment of the plastic
strain, and the plastic work of the effective stress is nonnegative. -/
theorem returned_facts (hp : p.Ok) {q : Point} (hq : Returned m tol E p q) :
    q.Ok ∧ p.acc ≤ q.acc ∧ q.acc - p.acc = √(2 / 3) * nrm (q.ep - p.ep) ∧
      0 ≤ dot (m.over E q) (q.ep - p.ep) := by
  have hs := s32_pos
  obtain ⟨N, hN, hep, hbk⟩ := hq.flow
  have hacc := hq.acc
  rcases hq.inc.lt_or_eq with h0 | h0
  · obtain ⟨htr, hN1, hn⟩ := hq.unit hm hp h0 hN hbk
    have hde : q.ep - p.ep = (√(3 / 2) * q.inc) • N := by rw [hep]; abel
    refine ⟨⟨by rw [hacc]; linarith [hp.acc], ?_, ?_⟩, by rw [hacc]; linarith, ?_, ?_⟩
    · rw [hbk, Matrix.trace_add, Matrix.trace_smul, htr, hp.back]; simp
    · rw [hep, Matrix.trace_add, Matrix.trace_smul, htr, hp.ep]; simp
    · rw [hde, nrm_smul, hN1, abs_of_pos (by positivity), hacc]
      linear_combination (-q.inc) * s32_s23
    · rw [hde]
      conv_rhs => rw [hN]
      have : dot (nrm (m.over E q) • N) ((√(3 / 2) * q.inc) • N) =
          nrm (m.over E q) * (√(3 / 2) * q.inc) * dot N N := by
        unfold dot
        rw [mul_sum]
        refine sum_congr rfl fun i _ => ?_
        rw [mul_sum]
        refine sum_congr rfl fun j _ => ?_
        simp only [Matrix.smul_apply, smul_eq_mul]
        ring
      rw [this, dot_self, hN1]
      positivity
  · rw [← h0, mul_zero, zero_smul, add_zero] at hep hbk
    rw [← h0, add_zero] at hacc
    refine ⟨⟨by rw [hacc]; exact hp.acc, by rw [hbk]; exact hp.back, by rw [hep]; exact hp.ep⟩, by rw [hacc], ?_, ?_⟩
    · rw [hep, hacc, sub_self, sub_self]
      simp [nrm]
    · rw [hep, sub_self]
      simp [dot]

end Radial

/-! ## The code in tensors -/

theorem nrm_stress {d : Nat} (hd : d = 2 ∨ d = 3) (S : Nat → ℝ) :
    nrm (stressTensor d S) = Real.sqrt (sqForm d S) := by
  unfold nrm sqForm
  congr 1
  rcases hd with rfl | rfl
  · simp [stressTensor, Fin.sum_univ_three, sum_range_succ, stressTerms, isNormal]; ring
  · simp [stressTensor, Fin.sum_univ_three, sum_range_succ, stressTerms, isNormal]; ring

theorem dev_tensor {d : Nat} (hd : d = 2 ∨ d = 3) (mu : ℝ) (E : Nat → ℝ) :
    stressTensor d (devForm d mu E) = (2 * mu) • deviator (strainTensor d E) := by
  unfold stressTensor strainTensor deviator devForm third
  ext i j
  rcases hd with rfl | rfl <;> fin_cases i <;> fin_cases j <;>
    simp [isNormal, Matrix.trace, Fin.sum_univ_three] <;> ring

section Code
variable {P : J2 ℝ} (hd : P.d = 2 ∨ P.d = 3) (U C Z : Nat → ℝ) (X : Nat → Nat → ℝ)
include hd

theorem total_tensor : strainTensor P.d (P.total U X) = smallStrain P.d P.ndof U X := by
  ext i j
  rcases hd with h | h
  · unfold J2.total strainTensor smallStrain
    rw [h]
    fin_cases i <;> fin_cases j <;> simp [numVoigt, voigtStrain, voigtPair] <;> ring
  · unfold J2.total strainTensor smallStrain
    rw [h]
    fin_cases i <;> fin_cases j <;> simp [numVoigt, voigtStrain, voigtPair] <;> ring

theorem elastic_tensor : strainTensor P.d (P.elasticOf (P.total U X) U C) =
    P.mechStrain U X - (point P.d C).ep := by
  unfold J2.mechStrain
  rw [← total_tensor hd]
  unfold point strainTensor J2.elasticOf
  ext i j
  rcases hd with h | h <;> rw [h] <;> fin_cases i <;> fin_cases j <;> simp [isNormal] <;> ring

/-- The view of the code is deviatoric stress minus backstress. -/
theorem eta_tensor : stressTensor P.d (P.eta U C Z X) = (P.mat Z).over (P.mechStrain U X) (point P.d C) := by
  unfold Mat.over
  rw [← elastic_tensor hd, show (P.mat Z).mu = P.penE (meanDensity (P.d + 1) Z) * P.shear from rfl,
    ← dev_tensor hd]
  unfold J2.eta point stressTensor etaForm
  ext i j
  rcases hd with h | h <;> rw [h] <;> fin_cases i <;> fin_cases j <;> simp

theorem norm_tensor : P.norm Real.sqrt U C Z X = nrm ((P.mat Z).over (P.mechStrain U X) (point P.d C)) := by
  rw [← eta_tensor hd, nrm_stress hd]
  rfl

variable (h32 : P.s32 = √(3 / 2)) (h23 : P.s23 = √(2 / 3))
include h32

theorem trial_tensor : P.trial Real.sqrt U C Z X = (P.mat Z).f (P.mechStrain U X) (point P.d C) := by
  unfold J2.trial Mat.f
  rw [norm_tensor hd, h32]
  rfl

include h23

/-- **`updateLocalState` at a cell is the step `radial`.** -/
theorem upd_point (tol : ℝ) : point P.d (P.updForm Real.sqrt (decide (tol < P.trial Real.sqrt U C Z X)) U C Z X) =
    radial (P.mat Z) tol (P.mechStrain U X) (point P.d C) := by
  have hN : stressTensor P.d (P.dir Real.sqrt U C Z X) =
      (1 / P.norm Real.sqrt U C Z X) • stressTensor P.d (P.eta U C Z X) := by
    unfold J2.dir stressTensor
    ext i j
    rcases hd with h | h <;> rw [h] <;> fin_cases i <;> fin_cases j <;> simp <;> ring
  unfold radial
  rw [← trial_tensor hd U C Z X h32, ← norm_tensor hd, ← eta_tensor hd]
  by_cases h : tol < P.trial Real.sqrt U C Z X
  · rw [if_pos h, decide_eq_true h]
    rw [point, Point.mk.injEq]
    refine ⟨rfl, rfl, ?_, ?_⟩
    · have : (P.trial Real.sqrt U C Z X / (3 * (P.mat Z).mu + (P.mat Z).K + (P.mat Z).H) * √(3 / 2) /
          P.norm Real.sqrt U C Z X) • stressTensor P.d (P.eta U C Z X) =
          (P.incr Real.sqrt U C Z X * P.s32) • stressTensor P.d (P.dir Real.sqrt U C Z X) := by
        rw [hN, smul_smul, h32]
        congr 1
        unfold J2.incr
        rw [mul_one_div]
        rfl
      rw [this]
      unfold J2.updForm strainTensor point stressTensor
      ext i j
      rcases hd with h | h <;> rw [h] <;> fin_cases i <;> fin_cases j <;>
        simp [isNormal, stressTerms, strainTensor] <;> ring
    · have : (P.trial Real.sqrt U C Z X / (3 * (P.mat Z).mu + (P.mat Z).K + (P.mat Z).H) * √(2 / 3) * (P.mat Z).H /
          P.norm Real.sqrt U C Z X) • stressTensor P.d (P.eta U C Z X) =
          (P.incr Real.sqrt U C Z X * P.s23 * (P.mat Z).H) • stressTensor P.d (P.dir Real.sqrt U C Z X) := by
        rw [hN, smul_smul, h23]
        congr 1
        unfold J2.incr
        rw [mul_one_div]
        rfl
      rw [this]
      unfold J2.updForm point stressTensor J2.mat
      ext i j
      rcases hd with h | h <;> rw [h] <;> fin_cases i <;> fin_cases j <;> simp [stressTerms]
  · rw [if_neg h, decide_eq_false h]
    unfold J2.updForm point strainTensor stressTensor
    rw [Point.mk.injEq]
    refine ⟨by simp, by simp, ?_, ?_⟩
    · ext i j
      rcases hd with h | h <;> rw [h] <;> fin_cases i <;> fin_cases j <;> simp
    · ext i j
      rcases hd with h | h <;> rw [h] <;> fin_cases i <;> fin_cases j <;> simp [stressTerms]

end Code

/-! ## The local residual in tensors -/

theorem strainTensor_inj {d : Nat} (hd : d = 2 ∨ d = 3) {v w : Nat → ℝ} :
    strainTensor d v = strainTensor d w ↔ ∀ t, t < stressTerms d → v t = w t := by
  constructor
  · intro h
    have e := fun i j => congrFun (congrFun h i) j
    rcases hd with rfl | rfl
    · intro t ht
      change t < 4 at ht
      have e1 := e 0 0; have e2 := e 1 1; have e3 := e 0 1; have e4 := e 2 2
      simp [strainTensor] at e1 e2 e3 e4
      interval_cases t <;> linarith
    · intro t ht
      change t < 6 at ht
      have e1 := e 0 0; have e2 := e 1 1; have e3 := e 2 2; have e4 := e 1 2; have e5 := e 0 2; have e6 := e 0 1
      simp [strainTensor] at e1 e2 e3 e4 e5 e6
      interval_cases t <;> linarith
  · intro h
    rcases hd with rfl | rfl
    · unfold strainTensor
      rw [h 0 (by decide), h 1 (by decide), h 2 (by decide), h 3 (by decide)]
      simp
    · unfold strainTensor
      rw [h 0 (by decide), h 1 (by decide), h 2 (by decide), h 3 (by decide), h 4 (by decide), h 5 (by decide)]

theorem stressTensor_inj {d : Nat} (hd : d = 2 ∨ d = 3) {v w : Nat → ℝ} :
    stressTensor d v = stressTensor d w ↔ ∀ t, t < stressTerms d → v t = w t := by
  constructor
  · intro h
    have e := fun i j => congrFun (congrFun h i) j
    rcases hd with rfl | rfl
    · intro t ht
      change t < 4 at ht
      have e1 := e 0 0; have e2 := e 1 1; have e3 := e 0 1; have e4 := e 2 2
      simp [stressTensor] at e1 e2 e3 e4
      interval_cases t <;> linarith
    · intro t ht
      change t < 6 at ht
      have e1 := e 0 0; have e2 := e 1 1; have e3 := e 2 2; have e4 := e 1 2; have e5 := e 0 2; have e6 := e 0 1
      simp [stressTensor] at e1 e2 e3 e4 e5 e6
      interval_cases t <;> linarith
  · intro h
    rcases hd with rfl | rfl
    · unfold stressTensor
      rw [h 0 (by decide), h 1 (by decide), h 2 (by decide), h 3 (by decide)]
      simp
    · unfold stressTensor
      rw [h 0 (by decide), h 1 (by decide), h 2 (by decide), h 3 (by decide), h 4 (by decide), h 5 (by decide)]

theorem strain_add {d : Nat} (hd : d = 2 ∨ d = 3) (v N : Nat → ℝ) (g : ℝ) :
    strainTensor d v + g • stressTensor d N =
      strainTensor d fun t => v t + if isNormal d t then g * N t else 2 * g * N t := by
  unfold strainTensor stressTensor
  ext i j
  rcases hd with rfl | rfl <;> fin_cases i <;> fin_cases j <;> simp [isNormal] <;> ring

theorem stress_add {d : Nat} (hd : d = 2 ∨ d = 3) (v N : Nat → ℝ) (g : ℝ) :
    stressTensor d v + g • stressTensor d N = stressTensor d fun t => v t + g * N t := by
  unfold stressTensor
  ext i j
  rcases hd with rfl | rfl <;> fin_cases i <;> fin_cases j <;> simp

theorem dir_tensor {P : J2 ℝ} (hd : P.d = 2 ∨ P.d = 3) (U C Z : Nat → ℝ) (X : Nat → Nat → ℝ) :
    stressTensor P.d (P.dir Real.sqrt U C Z X) = (1 / nrm ((P.mat Z).over (P.mechStrain U X) (point P.d C))) •
      (P.mat Z).over (P.mechStrain U X) (point P.d C) := by
  rw [← norm_tensor hd, ← eta_tensor hd]
  unfold J2.dir stressTensor
  ext i j
  rcases hd with h | h <;> rw [h] <;> fin_cases i <;> fin_cases j <;> simp <;> ring

section Residual
variable {P : J2 ℝ} (hd : P.d = 2 ∨ P.d = 3) (h32 : P.s32 = √(3 / 2)) (h23 : P.s23 = √(2 / 3))
  {U C Cp Z : Nat → ℝ} {X : Nat → Nat → ℝ} (hm : (P.mat Z).Ok) (hp : (point P.d Cp).Ok)
include hd h32 h23 hm hp

/-- **Meaning of the local residual in a plastic step**: it vanishes exactly at the states that satisfy the
conditions of plasticity. -/
theorem evalForm_plastic (hC : 0 < C 1) :
    (∀ i, i < localDofs P.d → P.evalForm Real.sqrt true U C Cp Z X i = 0) ↔
      Returned (P.mat Z) 0 (P.mechStrain U X) (point P.d Cp) (point P.d C) := by
  have hle := stressTerms_eq hd
  set m := P.mat Z with hmdef
  set E := P.mechStrain U X with hE
  set N := stressTensor P.d (P.dir Real.sqrt U C Z X) with hN
  have hNd : N = (1 / nrm (m.over E (point P.d C))) • m.over E (point P.d C) := dir_tensor hd U C Z X
  -- the equations, one by one
  have q0 : P.evalForm Real.sqrt true U C Cp Z X 0 = 0 ↔ C 0 = Cp 0 + C 1 := by
    simp only [J2.evalForm, if_true]
    constructor <;> intro h <;> linarith
  have q1 : P.evalForm Real.sqrt true U C Cp Z X 1 = 0 ↔ m.f E (point P.d C) = 0 := by
    rw [← trial_tensor hd U C Z X h32]
    simp [J2.evalForm, J2.trial]
  have q2 : (∀ t, t < stressTerms P.d → P.evalForm Real.sqrt true U C Cp Z X (2 + t) = 0) ↔
      (point P.d C).ep = (point P.d Cp).ep + (√(3 / 2) * C 1) • N := by
    rw [hN, point, point, strain_add hd, strainTensor_inj hd]
    refine forall_congr' fun t => forall_congr' fun ht => ?_
    unfold J2.evalForm
    rw [if_pos rfl, if_neg (by omega), if_neg (by omega), if_pos (by omega), h32, Nat.add_sub_cancel_left]
    cases isNormal P.d t <;> simp only [if_true, if_false, Bool.false_eq_true] <;>
      constructor <;> intro h <;> linarith
  have q3 : (∀ t, t < stressTerms P.d → P.evalForm Real.sqrt true U C Cp Z X (2 + stressTerms P.d + t) = 0) ↔
      (point P.d C).back = (point P.d Cp).back + (√(2 / 3) * m.H * C 1) • N := by
    rw [hN, point, point, stress_add hd, stressTensor_inj hd]
    refine forall_congr' fun t => forall_congr' fun ht => ?_
    unfold J2.evalForm
    rw [if_pos rfl, if_neg (by omega), if_neg (by omega), if_neg (by omega), h23,
      show 2 + stressTerms P.d + t - 2 - stressTerms P.d = t by omega,
      show m.H = P.penP (meanDensity (P.d + 1) Z) * P.hardKin from rfl]
    constructor <;> intro h <;> linarith
  have hsplit : (∀ i, i < localDofs P.d → P.evalForm Real.sqrt true U C Cp Z X i = 0) ↔
      C 0 = Cp 0 + C 1 ∧ m.f E (point P.d C) = 0 ∧
      (point P.d C).ep = (point P.d Cp).ep + (√(3 / 2) * C 1) • N ∧
      (point P.d C).back = (point P.d Cp).back + (√(2 / 3) * m.H * C 1) • N := by
    rw [← q0, ← q1, ← q2, ← q3]
    constructor
    · intro h
      exact ⟨h 0 (by omega), h 1 (by omega), fun t ht => h _ (by omega), fun t ht => h _ (by omega)⟩
    · rintro ⟨h0, h1, h2, h3⟩ i hi
      rcases Nat.lt_or_ge i 2 with h | h
      · interval_cases i
        · exact h0
        · exact h1
      rcases Nat.lt_or_ge i (2 + stressTerms P.d) with h' | h'
      · have := h2 (i - 2) (by omega)
        rwa [Nat.add_sub_cancel' h] at this
      · have := h3 (i - 2 - stressTerms P.d) (by omega)
        rwa [show 2 + stressTerms P.d + (i - 2 - stressTerms P.d) = i by omega] at this
  rw [hsplit]
  constructor
  · rintro ⟨h0, h1, h2, h3⟩
    refine ⟨hC.le, h0, ⟨N, ?_, h2, h3⟩, h1.le, fun _ => h1⟩
    rw [hNd, smul_smul]
    rcases eq_or_ne (nrm (m.over E (point P.d C))) 0 with h | h
    · rw [nrm_eq_zero h, smul_zero]
    · rw [mul_one_div, div_self h, one_smul]
  · intro h
    obtain ⟨N', hN', hep, hbk⟩ := h.flow
    obtain ⟨-, -, hn⟩ := h.unit hm hp hC hN' hbk
    have : N' = N := by
      rw [hNd]
      conv_rhs => rw [hN', smul_smul, nrm_smul]
      have h1 : nrm (m.over E (point P.d C)) = nrm (m.over E (point P.d C)) * nrm N' := by
        conv_lhs => rw [hN', nrm_smul, abs_of_pos hn]
      rw [abs_of_pos hn, ← h1, one_div, inv_mul_cancel₀ hn.ne', one_smul]
    subst this
    exact ⟨h.acc, h.consistent hC, hep, hbk⟩

/-- **The updated state solves the local equations**, for the state `updateLocalState` leaves. -/
theorem evalForm_update {tol : ℝ} (ht : 0 ≤ tol) (hC : ∀ i, i < localDofs P.d →
    C i = P.updForm Real.sqrt (decide (tol < P.trial Real.sqrt U Cp Z X)) U Cp Z X i) {i : Nat}
    (hi : i < localDofs P.d) :
    P.evalForm Real.sqrt (decide (0 < C 1)) U C Cp Z X i = 0 := by
  have hle := stressTerms_eq hd
  have hpt : point P.d C = radial (P.mat Z) tol (P.mechStrain U X) (point P.d Cp) := by
    rw [← upd_point hd U Cp Z X h32 h23 tol]
    unfold point
    rw [Point.mk.injEq]
    exact ⟨hC 0 (by omega), hC 1 (by omega), (strainTensor_inj hd).2 fun t ht => hC _ (by omega),
      (stressTensor_inj hd).2 fun t ht => hC _ (by omega)⟩
  have hr := radial_returned (E := P.mechStrain U X) hm ht hp
  rw [← hpt] at hr
  by_cases h0 : 0 < C 1
  · rw [decide_eq_true h0]
    refine (evalForm_plastic hd h32 h23 hm hp h0).2 ⟨hr.inc, hr.acc, hr.flow, ?_, hr.consistent⟩ i hi
    exact (hr.consistent h0).le
  · rw [decide_eq_false h0]
    have h1 : C 1 = 0 := le_antisymm (not_lt.1 h0) hr.inc
    unfold J2.evalForm
    simp only [Bool.false_eq_true, if_false]
    by_cases hi1 : i = 1
    · rw [if_pos hi1, h1]
    rw [if_neg hi1]
    by_cases hf : tol < P.trial Real.sqrt U Cp Z X
    · exfalso
      have h2 := hC 1 (by omega)
      rw [decide_eq_true hf, h1] at h2
      simp only [J2.updForm, if_true, J2.incr, one_ne_zero, if_false] at h2
      have hD : 0 < 3 * (P.mat Z).mu + (P.mat Z).K + (P.mat Z).H := by linarith [hm.mu, hm.K, hm.H]
      have : 0 < P.trial Real.sqrt U Cp Z X / (3 * (P.mat Z).mu + (P.mat Z).K + (P.mat Z).H) :=
        div_pos (lt_of_le_of_lt ht hf) hD
      exact absurd h2 this.ne
    · rw [hC i hi, decide_eq_false hf]
      simp [J2.updForm, hi1]

end Residual
end Plato.J2
