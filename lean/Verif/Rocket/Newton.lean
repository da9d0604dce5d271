import Verif.Rocket.Model
import Mathlib.Analysis.Convex.SpecificFunctions.Basic
import Mathlib.Analysis.SpecialFunctions.Pow.Deriv

/-!
# The Newton solver of the rocket model (C39)
-/

namespace Plato.Rocket

/-- Inputs of a physical problem: positive constants and a pressure exponent between zero and one. -/
structure Inputs.Ok (I : Inputs) : Prop where
  alpha_pos : 0 < I.alpha
  alpha_lt : I.alpha < 1
  ref_pos : 0 < I.refPressure
  throat_pos : 0 < I.throatDiameter
  char_pos : 0 < I.charVelocity

/-- The equilibrium pressure: the rate `m (p / pref) ^ alpha` at which the propellant makes gas is the
rate `A p / c` at which it leaves through the throat. -/
def Equilibrium (I : Inputs) (m p : ℝ) : Prop :=
  0 < p ∧ m * (p / I.refPressure) ^ I.alpha = I.throatArea * p / I.charVelocity

/-- The pressure at which the rates grow equally fast. -/
def Critical (I : Inputs) (m p : ℝ) : Prop :=
  0 < p ∧ m * (I.alpha / p) * (p / I.refPressure) ^ I.alpha = I.throatArea / I.charVelocity

theorem Inputs.Ok.area_pos {I : Inputs} (h : I.Ok) : 0 < I.throatArea := by
  have := h.throat_pos
  unfold Inputs.throatArea
  positivity

theorem cpow_pos {v : ℝ} (h : 0 < v) (a : ℝ) : cpow (some v) a = some (v ^ a) := by
  simp [cpow, h]

theorem invPref_eq {I : Inputs} (h : I.Ok) :
    I.invPrefAlpha = some (1 / I.refPressure ^ I.alpha) := by
  have h1 : I.refPressure ^ I.alpha ≠ 0 := (Real.rpow_pos_of_pos h.ref_pos _).ne'
  simp [Inputs.invPrefAlpha, cpow_pos h.ref_pos, cdiv, h1]

/-- Real value of the residual. -/
noncomputable def resV (I : Inputs) (m p : ℝ) : ℝ :=
  m * (1 / I.refPressure ^ I.alpha) * p ^ I.alpha - I.throatArea * p / I.charVelocity

/-- Real value of the Jacobian. -/
noncomputable def jacV (I : Inputs) (m p : ℝ) : ℝ :=
  m * I.alpha * (1 / I.refPressure ^ I.alpha) * p ^ (I.alpha - 1) - I.throatArea / I.charVelocity

theorem residual_eq {I : Inputs} (h : I.Ok) (m : ℝ) {p : ℝ} (hp : 0 < p) :
    residual I (some m) (some p) I.throatArea = some (resV I m p) := by
  simp [residual, resV, invPref_eq h, cpow_pos hp, cmul, csub, cdiv, h.char_pos.ne']

theorem jacobian_eq {I : Inputs} (h : I.Ok) (m : ℝ) {p : ℝ} (hp : 0 < p) :
    jacobian I (some m) (some p) I.throatArea = some (jacV I m p) := by
  simp [jacobian, jacV, invPref_eq h, cpow_pos hp, cmul, csub, cdiv, h.char_pos.ne']

theorem delta_eq {I : Inputs} (h : I.Ok) (m : ℝ) {p : ℝ} (hp : 0 < p) (hj : jacV I m p ≠ 0) :
    delta I (some m) (some p) I.throatArea = some (-(resV I m p) / jacV I m p) := by
  simp [delta, residual_eq h m hp, jacobian_eq h m hp, cdiv, cmul, hj]

/-- **C39.** For every positive pressure, residual and Jacobian are finite, and the Jacobian is the
derivative of the residual with respect to the pressure. -/
theorem C39_jacobian {I : Inputs} (h : I.Ok) (m : ℝ) {p : ℝ} (hp : 0 < p) :
    ∃ (r : ℝ → ℝ) (j : ℝ),
      (∀ q, 0 < q → residual I (some m) (some q) I.throatArea = some (r q)) ∧
      jacobian I (some m) (some p) I.throatArea = some j ∧ HasDerivAt r j p := by
  refine ⟨resV I m, jacV I m p, fun q hq => residual_eq h m hq, jacobian_eq h m hp, ?_⟩
  have h1 : HasDerivAt (fun q : ℝ => q ^ I.alpha) (I.alpha * p ^ (I.alpha - 1)) p :=
    Real.hasDerivAt_rpow_const (Or.inl hp.ne')
  have h2 := h1.const_mul (m * (1 / I.refPressure ^ I.alpha))
  have h3 : HasDerivAt (fun q : ℝ => I.throatArea * q / I.charVelocity)
      (I.throatArea / I.charVelocity) p := by
    have := ((hasDerivAt_id p).const_mul I.throatArea).div_const I.charVelocity
    simpa using this
  have h4 := h2.sub h3
  have e : jacV I m p = m * (1 / I.refPressure ^ I.alpha) * (I.alpha * p ^ (I.alpha - 1))
      - I.throatArea / I.charVelocity := by
    unfold jacV
    ring
  rw [e]
  exact h4

/-- The power is below its tangents. -/
theorem rpow_tangent {a x y : ℝ} (h0 : 0 < a) (h1 : a < 1) (hx : 0 < x) (hy : 0 < y) :
    x ^ a ≤ y ^ a + a * y ^ (a - 1) * (x - y) := by
  have hs : -1 ≤ x / y - 1 := by
    have : 0 ≤ x / y := by positivity
    linarith
  have hb := _root_.rpow_one_add_le_one_add_mul_self hs h0.le h1.le
  rw [show 1 + (x / y - 1) = x / y by ring, Real.div_rpow hx.le hy.le] at hb
  have hya : 0 < y ^ a := Real.rpow_pos_of_pos hy a
  rw [div_le_iff₀ hya] at hb
  refine hb.trans (le_of_eq ?_)
  rw [Real.rpow_sub_one hy.ne']
  field_simp

variable {I : Inputs}

/-- Coefficients of residual and Jacobian. -/
theorem coeff (h : I.Ok) {m : ℝ} (hm : 0 < m) :
    0 < m * (1 / I.refPressure ^ I.alpha) ∧ 0 < I.throatArea / I.charVelocity := by
  have h1 := Real.rpow_pos_of_pos h.ref_pos I.alpha
  have h2 := h.area_pos
  have h3 := h.char_pos
  constructor <;> positivity

theorem res_tangent (h : I.Ok) {m : ℝ} (hm : 0 < m) {x y : ℝ} (hx : 0 < x) (hy : 0 < y) :
    resV I m x ≤ resV I m y + jacV I m y * (x - y) := by
  have h1 := rpow_tangent h.alpha_pos h.alpha_lt hx hy
  have h2 := mul_le_mul_of_nonneg_left h1 (coeff h hm).1.le
  have e : resV I m y + jacV I m y * (x - y)
      = m * (1 / I.refPressure ^ I.alpha) * (y ^ I.alpha + I.alpha * y ^ (I.alpha - 1) * (x - y))
        - I.throatArea * x / I.charVelocity := by
    unfold resV jacV
    ring
  rw [e]
  unfold resV
  linarith

theorem res_factor (m : ℝ) {p : ℝ} (hp : 0 < p) :
    resV I m p = p * (m * (1 / I.refPressure ^ I.alpha) * p ^ (I.alpha - 1)
      - I.throatArea / I.charVelocity) := by
  have : p ^ I.alpha = p * p ^ (I.alpha - 1) := by
    rw [Real.rpow_sub_one hp.ne']
    field_simp
  unfold resV
  rw [this]
  ring

theorem equilibrium_iff (h : I.Ok) (m : ℝ) {p : ℝ} (hp : 0 < p) :
    Equilibrium I m p ↔ resV I m p = 0 := by
  unfold Equilibrium resV
  rw [Real.div_rpow hp.le h.ref_pos.le]
  constructor
  · rintro ⟨_, e⟩
    rw [← e]
    ring
  · intro e
    refine ⟨hp, ?_⟩
    rw [← sub_eq_zero, ← e]
    ring

theorem critical_iff (h : I.Ok) (m : ℝ) {p : ℝ} (hp : 0 < p) :
    Critical I m p ↔ jacV I m p = 0 := by
  unfold Critical jacV
  rw [Real.div_rpow hp.le h.ref_pos.le, Real.rpow_sub_one hp.ne']
  constructor
  · rintro ⟨_, e⟩
    rw [← e]
    ring
  · intro e
    refine ⟨hp, ?_⟩
    rw [← sub_eq_zero, ← e]
    ring

/-- The Jacobian decreases strictly with the pressure. -/
theorem jac_strictAnti (h : I.Ok) {m : ℝ} (hm : 0 < m) {p q : ℝ} (hp : 0 < p) (hpq : p < q) :
    jacV I m q < jacV I m p := by
  have h1 : q ^ (I.alpha - 1) < p ^ (I.alpha - 1) :=
    Real.rpow_lt_rpow_of_neg hp hpq (by linarith [h.alpha_lt])
  have h2 := mul_lt_mul_of_pos_left h1 (mul_pos (coeff h hm).1 h.alpha_pos)
  unfold jacV
  nlinarith

theorem jac_eq_at (h : I.Ok) {m p : ℝ} (hp : Equilibrium I m p) :
    jacV I m p = -((1 - I.alpha) * (I.throatArea / I.charVelocity)) := by
  have h1 := (equilibrium_iff h m hp.1).1 hp
  rw [res_factor m hp.1] at h1
  have h2 := (mul_eq_zero.1 h1).resolve_left hp.1.ne'
  unfold jacV
  have : m * I.alpha * (1 / I.refPressure ^ I.alpha) * p ^ (I.alpha - 1)
      = I.alpha * (m * (1 / I.refPressure ^ I.alpha) * p ^ (I.alpha - 1)) := by ring
  rw [this, sub_eq_zero.1 h2]
  ring

/-- There is exactly one equilibrium pressure. -/
theorem equilibrium_exists (h : I.Ok) {m : ℝ} (hm : 0 < m) : ∃! p, Equilibrium I m p := by
  obtain ⟨ha, hb⟩ := coeff h hm
  set a := m * (1 / I.refPressure ^ I.alpha) with hadef
  set b := I.throatArea / I.charVelocity with hbdef
  have hne : I.alpha - 1 ≠ 0 := by linarith [h.alpha_lt]
  have hpos : 0 < (b / a) ^ (I.alpha - 1)⁻¹ := Real.rpow_pos_of_pos (by positivity) _
  refine ⟨(b / a) ^ (I.alpha - 1)⁻¹, ?_, ?_⟩
  · refine (equilibrium_iff h m hpos).2 ?_
    rw [res_factor m hpos, ← Real.rpow_mul (by positivity), inv_mul_cancel₀ hne, Real.rpow_one, ← hadef,
      ← hbdef]
    field_simp
    simp
  · intro q hq
    have h1 := (equilibrium_iff h m hq.1).1 hq
    rw [res_factor m hq.1, ← hadef, ← hbdef] at h1
    have h2 := sub_eq_zero.1 ((mul_eq_zero.1 h1).resolve_left hq.1.ne')
    have h3 : q ^ (I.alpha - 1) = b / a := by
      field_simp
      linarith
    rw [← h3, ← Real.rpow_mul hq.1.le, mul_inv_cancel₀ hne, Real.rpow_one]

/-- There is exactly one critical pressure. -/
theorem critical_exists (h : I.Ok) {m : ℝ} (hm : 0 < m) : ∃! p, Critical I m p := by
  obtain ⟨ha, hb⟩ := coeff h hm
  have hal := h.alpha_pos
  set a := m * (1 / I.refPressure ^ I.alpha) with hadef
  set b := I.throatArea / I.charVelocity with hbdef
  have hne : I.alpha - 1 ≠ 0 := by linarith [h.alpha_lt]
  have hj : ∀ q, jacV I m q = a * I.alpha * q ^ (I.alpha - 1) - b := by
    intro q
    unfold jacV
    rw [hadef, hbdef]
    ring
  have hpos : 0 < (b / (a * I.alpha)) ^ (I.alpha - 1)⁻¹ := Real.rpow_pos_of_pos (by positivity) _
  refine ⟨(b / (a * I.alpha)) ^ (I.alpha - 1)⁻¹, ?_, ?_⟩
  · refine (critical_iff h m hpos).2 ?_
    rw [hj, ← Real.rpow_mul (by positivity), inv_mul_cancel₀ hne, Real.rpow_one]
    field_simp
    simp
  · intro q hq
    have h1 := (critical_iff h m hq.1).1 hq
    rw [hj] at h1
    have h3 : q ^ (I.alpha - 1) = b / (a * I.alpha) := by
      field_simp
      linarith
    rw [← h3, ← Real.rpow_mul hq.1.le, mul_inv_cancel₀ hne, Real.rpow_one]

/-- Above the critical pressure the Jacobian is negative, below it is positive. -/
theorem jac_neg (h : I.Ok) {m : ℝ} (hm : 0 < m) {pc p : ℝ} (hc : Critical I m pc) (hp : pc < p) :
    jacV I m p < 0 := by
  have := jac_strictAnti h hm hc.1 hp
  rwa [(critical_iff h m hc.1).1 hc] at this

theorem jac_pos (h : I.Ok) {m : ℝ} (hm : 0 < m) {pc p : ℝ} (hc : Critical I m pc) (hp0 : 0 < p)
    (hp : p < pc) : 0 < jacV I m p := by
  have := jac_strictAnti h hm hp0 hp
  rwa [(critical_iff h m hc.1).1 hc] at this

/-- The critical pressure is below the equilibrium pressure. -/
theorem critical_lt_equilibrium (h : I.Ok) {m : ℝ} (hm : 0 < m) {pc pe : ℝ} (hc : Critical I m pc)
    (he : Equilibrium I m pe) : pc < pe := by
  by_contra hcon
  have h1 : jacV I m pc ≤ jacV I m pe := by
    rcases eq_or_lt_of_le (not_lt.1 hcon) with e | e
    · rw [e]
    · exact (jac_strictAnti h hm he.1 e).le
  rw [(critical_iff h m hc.1).1 hc, jac_eq_at h he] at h1
  have h2 := mul_pos (sub_pos.2 h.alpha_lt) (coeff h hm).2
  linarith

/-- One step from a pressure with a negative Jacobian does not go below the equilibrium. -/
theorem step_ge (h : I.Ok) {m : ℝ} (hm : 0 < m) {pe p : ℝ} (he : Equilibrium I m pe) (hp : 0 < p)
    (hj : jacV I m p < 0) : pe ≤ p + -(resV I m p) / jacV I m p := by
  have h1 := res_tangent h hm he.1 hp
  rw [(equilibrium_iff h m he.1).1 he] at h1
  have h2 : -(resV I m p) / jacV I m p ≥ pe - p := by
    rw [ge_iff_le, le_div_iff_of_neg hj]
    linarith
  linarith

/-- One step from a pressure above the equilibrium reduces the distance by the factor `alpha`. -/
theorem step_le (h : I.Ok) {m : ℝ} (hm : 0 < m) {pe p : ℝ} (he : Equilibrium I m pe) (hp : pe ≤ p) :
    jacV I m p < 0 ∧ -(resV I m p) / jacV I m p ≤ -((1 - I.alpha) * (p - pe)) := by
  have hp0 := he.1.trans_le hp
  have hje := jac_eq_at h he
  have hb := (coeff h hm).2
  have hal := sub_pos.2 h.alpha_lt
  have hje0 : jacV I m pe < 0 := by
    rw [hje]
    have := mul_pos hal hb
    linarith
  have hj : jacV I m p < 0 := by
    rcases eq_or_lt_of_le hp with e | e
    · rwa [← e]
    · exact (jac_strictAnti h hm he.1 e).trans hje0
  refine ⟨hj, ?_⟩
  have h1 := res_tangent h hm hp0 he.1
  rw [(equilibrium_iff h m he.1).1 he, hje, zero_add] at h1
  have hjb : -(I.throatArea / I.charVelocity) ≤ jacV I m p := by
    have : 0 < m * I.alpha * (1 / I.refPressure ^ I.alpha) * p ^ (I.alpha - 1) := by
      have h5 := mul_pos (mul_pos (coeff h hm).1 h.alpha_pos) (Real.rpow_pos_of_pos hp0 (I.alpha - 1))
      calc (0 : ℝ) < _ := h5
        _ = _ := by ring
    unfold jacV
    linarith
  rw [div_le_iff_of_neg hj]
  have hd : 0 ≤ (1 - I.alpha) * (p - pe) := mul_nonneg hal.le (sub_nonneg.2 hp)
  nlinarith [mul_nonneg hd (sub_nonneg.2 hjb)]

/-- The pressures of the iterations of `newton`: `iterate k` is `tNewTotalPressure` after `k` passes. -/
noncomputable def iter (I : Inputs) (rate p : Num) (area : ℝ) : ℕ → Num
  | 0 => p
  | k + 1 => cadd (iter I rate p area k) (delta I rate (iter I rate p area k) area)

theorem iter_shift (I : Inputs) (rate p : Num) (area : ℝ) (k : ℕ) :
    iter I rate (cadd p (delta I rate p area)) area k = iter I rate p area (k + 1) := by
  induction k with
  | zero => rfl
  | succ k ih => rw [iter, ih, ← iter]

/-- The loop returns an iterate, and says how many passes it made. -/
theorem newtonLoop_spec (I : Inputs) (rate : Num) (area : ℝ) (n : ℕ) :
    ∀ (p : Num) (itr : ℕ), I.maxNewton - itr ≤ n → itr ≤ I.maxNewton →
      ∃ k, (newtonLoop I rate area p itr).2 = itr + (k + 1) ∧
        itr + (k + 1) ≤ I.maxNewton + 1 ∧
        (newtonLoop I rate area p itr).1 = iter I rate p area (k + 1) ∧
        (absLt (delta I rate (iter I rate p area k) area) I.newtonTolerance = true ∨
          itr + (k + 1) = I.maxNewton + 1) ∧
        ∀ l < k, absLt (delta I rate (iter I rate p area l) area) I.newtonTolerance = false := by
  induction n with
  | zero =>
    intro p itr hn hi
    refine ⟨0, ?_, by omega, ?_, Or.inr (by omega), fun l hl => by omega⟩
    · rw [newtonLoop, if_pos (Or.inr (by omega))]
    · rw [newtonLoop, if_pos (Or.inr (by omega))]
      rfl
  | succ n ih =>
    intro p itr hn hi
    by_cases hc : absLt (delta I rate p area) I.newtonTolerance = true ∨ itr + 1 > I.maxNewton
    · refine ⟨0, ?_, by omega, ?_, ?_, fun l hl => by omega⟩
      · rw [newtonLoop, if_pos hc]
      · rw [newtonLoop, if_pos hc]
        rfl
      · rcases hc with hc | hc
        · exact Or.inl hc
        · exact Or.inr (by omega)
    · obtain ⟨k, h1, h2, h3, h4, h5⟩ := ih (cadd p (delta I rate p area)) (itr + 1) (by omega) (by
        by_contra hcon
        exact hc (Or.inr (by omega)))
      refine ⟨k + 1, ?_, by omega, ?_, ?_, ?_⟩
      · rw [newtonLoop, if_neg hc, h1]
        omega
      · rw [newtonLoop, if_neg hc, h3, iter_shift]
      · rw [iter_shift] at h4
        rcases h4 with h4 | h4
        · exact Or.inl h4
        · exact Or.inr (by omega)
      · intro l hl
        cases l with
        | zero => simpa [iter] using fun hcon => hc (Or.inl hcon)
        | succ l =>
          rw [← iter_shift]
          exact h5 l (by omega)

/-- **C39.** Every call of `newton` makes at least one and at most `max + 1` iterations, for all
inputs, and stops because the last change was below the tolerance, or because `max + 1` iterations
were made; the caller is not told which. -/
theorem C39_newton_count (I : Inputs) (rate p : Num) (area : ℝ) :
    ∃ k, (newtonLoop I rate area p 0).2 = k + 1 ∧ k + 1 ≤ I.maxNewton + 1 ∧
      newton I rate p area = iter I rate p area (k + 1) ∧
      (absLt (delta I rate (iter I rate p area k) area) I.newtonTolerance = true ∨
        k + 1 = I.maxNewton + 1) ∧
      ∀ l < k, absLt (delta I rate (iter I rate p area l) area) I.newtonTolerance = false := by
  obtain ⟨k, h1, h2, h3, h4, h5⟩ := newtonLoop_spec I rate area I.maxNewton p 0 (by omega) (by omega)
  exact ⟨k, by omega, by omega, h3, by simpa using h4, h5⟩

/-- One pass from a pressure above the critical pressure. -/
theorem iter_succ_ge (h : I.Ok) {m : ℝ} (hm : 0 < m) {pc pe : ℝ} (hc : Critical I m pc)
    (he : Equilibrium I m pe) {p : ℝ} (hp : pc < p) (k : ℕ) :
    ∃ q, iter I (some m) (some p) I.throatArea (k + 1) = some q ∧ pe ≤ q := by
  induction k with
  | zero =>
    have hp0 := hc.1.trans hp
    have hj := jac_neg h hm hc hp
    refine ⟨p + -(resV I m p) / jacV I m p, ?_, step_ge h hm he hp0 hj⟩
    simp [iter, delta_eq h m hp0 hj.ne, cadd]
  | succ k ih =>
    obtain ⟨q, e, hq⟩ := ih
    have hj := (step_le h hm he hq).1
    have hq0 := he.1.trans_le hq
    refine ⟨q + -(resV I m q) / jacV I m q, ?_, step_ge h hm he hq0 hj⟩
    rw [iter, e, delta_eq h m hq0 hj.ne]
    simp [cadd]

/-- **C39.** Started above the critical pressure, every iterate is a finite number; from the first on
the iterates are above the equilibrium pressure, decrease, and each is closer to it by the factor
`alpha` at least. -/
theorem C39_newton_monotone (h : I.Ok) {m : ℝ} (hm : 0 < m) {pc pe : ℝ} (hc : Critical I m pc)
    (he : Equilibrium I m pe) {p : ℝ} (hp : pc < p) (k : ℕ) :
    ∃ q q', iter I (some m) (some p) I.throatArea (k + 1) = some q ∧
      iter I (some m) (some p) I.throatArea (k + 2) = some q' ∧
      pe ≤ q' ∧ q' ≤ q ∧ q' - pe ≤ I.alpha * (q - pe) := by
  obtain ⟨q, e, hq⟩ := iter_succ_ge h hm hc he hp k
  obtain ⟨hj, hd⟩ := step_le h hm he hq
  have hq0 := he.1.trans_le hq
  have hal := sub_pos.2 h.alpha_lt
  have hd2 : 0 ≤ (1 - I.alpha) * (q - pe) := mul_nonneg hal.le (sub_nonneg.2 hq)
  refine ⟨q, q + -(resV I m q) / jacV I m q, e, ?_, step_ge h hm he hq0 hj, by linarith, ?_⟩
  · rw [iter, e, delta_eq h m hq0 hj.ne]
    simp [cadd]
  · nlinarith

/-- **C39.** The distance to the equilibrium pressure after `k + 1` iterations is at most `alpha ^ k`
times the distance after the first. -/
theorem C39_newton_rate (h : I.Ok) {m : ℝ} (hm : 0 < m) {pc pe : ℝ} (hc : Critical I m pc)
    (he : Equilibrium I m pe) {p q₁ : ℝ} (hp : pc < p)
    (h1 : iter I (some m) (some p) I.throatArea 1 = some q₁) (k : ℕ) :
    ∃ q, iter I (some m) (some p) I.throatArea (k + 1) = some q ∧
      0 ≤ q - pe ∧ q - pe ≤ I.alpha ^ k * (q₁ - pe) := by
  induction k with
  | zero =>
    obtain ⟨q, e, hq⟩ := iter_succ_ge h hm hc he hp 0
    rw [zero_add] at e
    have : q = q₁ := by
      rw [h1] at e
      simpa using e.symm
    exact ⟨q, e, sub_nonneg.2 hq, by simp [this]⟩
  | succ k ih =>
    obtain ⟨q, e, _, hle⟩ := ih
    obtain ⟨r, r', e1, e2, hge, _, hr⟩ := C39_newton_monotone h hm hc he hp k
    have : r = q := by
      rw [e] at e1
      simpa using e1.symm
    subst this
    refine ⟨r', e2, sub_nonneg.2 hge, hr.trans ?_⟩
    have := mul_le_mul_of_nonneg_left hle h.alpha_pos.le
    rw [pow_succ]
    nlinarith

/-- **C39.** The iterates converge to the equilibrium pressure. -/
theorem C39_newton_converges (h : I.Ok) {m : ℝ} (hm : 0 < m) {pc pe : ℝ} (hc : Critical I m pc)
    (he : Equilibrium I m pe) {p : ℝ} (hp : pc < p) :
    ∃ q : ℕ → ℝ, (∀ k, iter I (some m) (some p) I.throatArea k = some (q k)) ∧
      Filter.Tendsto q Filter.atTop (nhds pe) := by
  obtain ⟨q₁, h1, _⟩ := iter_succ_ge h hm hc he hp 0
  have hall : ∀ k, ∃ q, iter I (some m) (some p) I.throatArea k = some q := by
    intro k
    cases k with
    | zero => exact ⟨p, rfl⟩
    | succ k =>
      obtain ⟨q, e, _⟩ := iter_succ_ge h hm hc he hp k
      exact ⟨q, e⟩
  choose q hq using hall
  refine ⟨q, hq, ?_⟩
  rw [← Filter.tendsto_add_atTop_iff_nat 1]
  have hpow : Filter.Tendsto (fun k : ℕ => pe + I.alpha ^ k * (q₁ - pe)) Filter.atTop (nhds pe) := by
    have := (tendsto_pow_atTop_nhds_zero_of_lt_one h.alpha_pos.le h.alpha_lt).mul_const (q₁ - pe)
    have := this.const_add pe
    simpa using this
  refine tendsto_of_tendsto_of_tendsto_of_le_of_le tendsto_const_nhds hpow ?_ ?_
  · intro k
    obtain ⟨r, e, h0, _⟩ := C39_newton_rate h hm hc he hp h1 k
    rw [hq] at e
    have : q (k + 1) = r := by simpa using e
    show pe ≤ q (k + 1)
    linarith
  · intro k
    obtain ⟨r, e, _, h2⟩ := C39_newton_rate h hm hc he hp h1 k
    rw [hq] at e
    have : q (k + 1) = r := by simpa using e
    show q (k + 1) ≤ pe + I.alpha ^ k * (q₁ - pe)
    linarith

/-- **C39.** A call of `newton` started above the critical pressure returns a finite pressure above the
equilibrium pressure.  If it stopped after two or more iterations because of the tolerance, the
distance is less than the tolerance times `alpha / (1 - alpha)`. -/
theorem C39_newton_accuracy (h : I.Ok) {m : ℝ} (hm : 0 < m) {pc pe : ℝ} (hc : Critical I m pc)
    (he : Equilibrium I m pe) {p : ℝ} (hp : pc < p) :
    ∃ q, newton I (some m) (some p) I.throatArea = some q ∧ pe ≤ q ∧
      (1 < (newtonLoop I (some m) I.throatArea (some p) 0).2 →
        (newtonLoop I (some m) I.throatArea (some p) 0).2 ≤ I.maxNewton →
        q - pe < I.newtonTolerance * (I.alpha / (1 - I.alpha))) := by
  obtain ⟨k, hn, _, hit, hstop, _⟩ := C39_newton_count I (some m) (some p) I.throatArea
  obtain ⟨q, e, hq⟩ := iter_succ_ge h hm hc he hp k
  refine ⟨q, by rw [hit, e], hq, ?_⟩
  intro hk1 hk2
  rw [hn] at hk1 hk2
  obtain ⟨l, rfl⟩ : ∃ l, k = l + 1 := ⟨k - 1, by omega⟩
  have hst : absLt (delta I (some m) (iter I (some m) (some p) I.throatArea (l + 1)) I.throatArea)
      I.newtonTolerance = true := hstop.resolve_right (by omega)
  obtain ⟨r, e1, hr⟩ := iter_succ_ge h hm hc he hp l
  obtain ⟨hj, hd⟩ := step_le h hm he hr
  have hr0 := he.1.trans_le hr
  have e2 := e
  rw [iter, e1, delta_eq h m hr0 hj.ne] at e2
  have e3 : r + -(resV I m r) / jacV I m r = q := by simpa [cadd] using e2
  rw [e1, delta_eq h m hr0 hj.ne] at hst
  have h5 : |-(resV I m r) / jacV I m r| < I.newtonTolerance := by simpa [absLt] using hst
  have hal := sub_pos.2 h.alpha_lt
  have hneg : -(resV I m r) / jacV I m r ≤ 0 := by
    have := mul_nonneg hal.le (sub_nonneg.2 hr)
    linarith
  rw [abs_of_nonpos hneg] at h5
  rw [mul_div_assoc', lt_div_iff₀ hal]
  set d := -(resV I m r) / jacV I m r with hddef
  have hrpe : r - pe ≥ 0 := sub_nonneg.2 hr
  have h6 : q - pe = (r - pe) + d := by linarith
  have h7 : (q - pe) * (1 - I.alpha) ≤ I.alpha * (-d) := by
    rw [h6]
    nlinarith
  have h8 : I.alpha * (-d) < I.alpha * I.newtonTolerance := mul_lt_mul_of_pos_left h5 h.alpha_pos
  linarith [mul_comm I.alpha I.newtonTolerance]

/-- **C39.** Started above the critical pressure the loop stops after at most `n + 2` iterations once
`alpha ^ n * (q₁ - pe) < tolerance`, where `q₁` is the first iterate. -/
theorem C39_newton_tolerance (h : I.Ok) {m : ℝ} (hm : 0 < m) {pc pe : ℝ} (hc : Critical I m pc)
    (he : Equilibrium I m pe) {p q₁ : ℝ} (hp : pc < p)
    (h1 : iter I (some m) (some p) I.throatArea 1 = some q₁) (n : ℕ)
    (hsmall : I.alpha ^ n * (q₁ - pe) < I.newtonTolerance) :
    (newtonLoop I (some m) I.throatArea (some p) 0).2 ≤ n + 2 := by
  obtain ⟨k, hk, _, _, _, hbefore⟩ := C39_newton_count I (some m) (some p) I.throatArea
  rw [hk]
  by_contra hcon
  have hb := hbefore (n + 1) (by omega)
  obtain ⟨r, e, h0, hle⟩ := C39_newton_rate h hm hc he hp h1 n
  have hr : pe ≤ r := by linarith
  obtain ⟨hj, hd⟩ := step_le h hm he hr
  have hr0 := he.1.trans_le hr
  have hge := step_ge h hm he hr0 hj
  rw [e, delta_eq h m hr0 hj.ne] at hb
  have hal := sub_pos.2 h.alpha_lt
  have hneg : -(resV I m r) / jacV I m r ≤ 0 := by
    have := mul_nonneg hal.le (sub_nonneg.2 hr)
    linarith
  have : |-(resV I m r) / jacV I m r| < I.newtonTolerance := by
    rw [abs_of_nonpos hneg]
    linarith
  simp [absLt, this] at hb

/-- **C39, what happens below the critical pressure.** The first iterate is negative, whatever the
inputs. -/
theorem C39_below_critical (h : I.Ok) {m : ℝ} (hm : 0 < m) {pc : ℝ} (hc : Critical I m pc)
    {p : ℝ} (hp0 : 0 < p) (hp : p < pc) :
    ∃ q, iter I (some m) (some p) I.throatArea 1 = some q ∧ q < 0 := by
  have hj := jac_pos h hm hc hp0 hp
  refine ⟨p + -(resV I m p) / jacV I m p, by simp [iter, delta_eq h m hp0 hj.ne', cadd], ?_⟩
  have h1 : p * jacV I m p < resV I m p := by
    rw [res_factor m hp0]
    refine mul_lt_mul_of_pos_left ?_ hp0
    have h5 := mul_pos (coeff h hm).1 (Real.rpow_pos_of_pos hp0 (I.alpha - 1))
    have h6 := mul_pos (sub_pos.2 h.alpha_lt) h5
    unfold jacV
    nlinarith
  have h2 : p < resV I m p / jacV I m p := by
    rw [lt_div_iff₀ hj]
    exact h1
  rw [neg_div]
  linarith

/-- A negative pressure gives values that are not numbers. -/
theorem delta_neg (h : I.Ok) (m : Num) {q : ℝ} (hq : q < 0) (area : ℝ) :
    delta I m (some q) area = none := by
  have hno : ∀ n : ℤ, I.alpha ≠ n := by
    intro n hn
    have h1 := h.alpha_pos
    have h2 := h.alpha_lt
    rw [hn] at h1 h2
    have h1' : 0 < n := by exact_mod_cast h1
    have h2' : n < 1 := by exact_mod_cast h2
    omega
  have : cpow (some q) I.alpha = none := by
    unfold cpow
    simp only [Option.bind_eq_bind, Option.bind_some]
    rw [if_neg]
    rintro (h1 | ⟨h1, _⟩ | ⟨_, n, h1⟩)
    · linarith
    · linarith
    · exact hno n h1
  have hr : residual I m (some q) area = none := by
    unfold residual
    rw [this]
    cases m <;> cases I.invPrefAlpha <;> rfl
  unfold delta
  rw [hr]
  rfl

theorem delta_none (I : Inputs) (m : Num) (area : ℝ) : delta I m none area = none := by
  have hr : residual I m none area = none := by
    unfold residual
    cases m <;> cases I.invPrefAlpha <;> rfl
  unfold delta
  rw [hr]
  rfl

theorem iter_none (I : Inputs) (m p : Num) (area : ℝ) (k : ℕ)
    (hk : iter I m p area k = none) (l : ℕ) : iter I m p area (k + l) = none := by
  induction l with
  | zero => exact hk
  | succ l ih =>
    rw [← Nat.add_assoc, iter, ih]
    rfl

/-- **C39, what happens below the critical pressure.** If the first change is not below the tolerance,
`newton` makes all of its `max + 1` iterations and returns a value that is not a number. -/
theorem C39_below_critical_nan (h : I.Ok) {m : ℝ} (hm : 0 < m) {pc : ℝ} (hc : Critical I m pc)
    {p : ℝ} (hp0 : 0 < p) (hp : p < pc) (htol : I.newtonTolerance ≤ p) (hmax : 0 < I.maxNewton) :
    newton I (some m) (some p) I.throatArea = none ∧
      (newtonLoop I (some m) I.throatArea (some p) 0).2 = I.maxNewton + 1 := by
  obtain ⟨q, e, hq⟩ := C39_below_critical h hm hc hp0 hp
  obtain ⟨k, hn, hle, hit, hstop, _⟩ := C39_newton_count I (some m) (some p) I.throatArea
  have e1 := e
  have hj := jac_pos h hm hc hp0 hp
  have hd : delta I (some m) (some p) I.throatArea = some (q - p) := by
    rw [delta_eq h m hp0 hj.ne']
    have := e
    simp only [iter, delta_eq h m hp0 hj.ne', cadd, Option.bind_eq_bind, Option.bind_some,
      Option.some.injEq] at this
    rw [← this]
    simp
  have hno : ∀ l, absLt (delta I (some m) (iter I (some m) (some p) I.throatArea l) I.throatArea)
      I.newtonTolerance = false := by
    intro l
    match l with
    | 0 =>
      rw [iter, hd]
      have : ¬ |q - p| < I.newtonTolerance := by
        rw [abs_of_neg (by linarith)]
        linarith
      simp [absLt, this]
    | 1 => rw [e, delta_neg h _ hq]; rfl
    | l + 2 =>
      have h2 : iter I (some m) (some p) I.throatArea 2 = none := by
        rw [iter, e, delta_neg h _ hq]
        rfl
      have := iter_none I (some m) (some p) I.throatArea 2 h2 l
      rw [Nat.add_comm] at this
      rw [this, delta_none]
      rfl
  have hk : k + 1 = I.maxNewton + 1 := by
    rcases hstop with hs | hs
    · rw [hno k] at hs
      simp at hs
    · exact hs
  refine ⟨?_, by rw [hn, hk]⟩
  rw [hit]
  have h2 : iter I (some m) (some p) I.throatArea 2 = none := by
    rw [iter, e, delta_neg h _ hq]
    rfl
  have := iter_none I (some m) (some p) I.throatArea 2 h2 (k - 1)
  rwa [show 2 + (k - 1) = k + 1 by omega] at this

end Plato.Rocket
