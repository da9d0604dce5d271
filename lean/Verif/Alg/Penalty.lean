import Verif.Alg.PenaltyModel
import Verif.Common.Sum
import Mathlib.Tactic.Linarith
import Mathlib.Tactic.Positivity
import Mathlib.Tactic.FieldSimp
import Mathlib.Tactic.Ring

/-!
# Penalty models, projections, conditional expression (C15, C23, C24, C25)
-/

namespace Plato
noncomputable section

/-! ## C15 -/

/-- What the function computes: the switch happens at `x = y + 1`. -/
theorem conditionalExpression_eq (x y a b : ℝ) :
    conditionalExpression x y a b = if y + 1 ≤ x then b else a := by
  unfold conditionalExpression
  by_cases h : y + 1 ≤ x
  · have h1 : 1 ≤ Real.exp (x - y - 1) := Real.one_le_exp (by linarith)
    simp [h, min_eq_left h1]
  · have h1 : Real.exp (x - y - 1) < 1 := by rw [Real.exp_lt_one_iff]; linarith
    have h0 : 0 < Real.exp (x - y - 1) := Real.exp_pos _
    have : ⌊Real.exp (x - y - 1)⌋ = 0 := by
      rw [Int.floor_eq_zero_iff]
      exact ⟨h0.le, h1⟩
    simp [h, min_eq_right h1.le, this]

/-- **C15** fails: `x > y` does not select `b`. -/
theorem C15_false : ¬ ∀ x y a b : ℝ, conditionalExpression x y a b = if y < x then b else a := by
  intro h
  have := h (1 / 2) 0 0 1
  rw [conditionalExpression_eq] at this
  norm_num at this

/-- **C15**, what holds: the documented selection is made unless `y < x < y + 1`.  Missing for the
full statement: the values in that gap, where `a` is returned. -/
theorem C15_partial (x y a b : ℝ) (h : ¬ (y < x ∧ x < y + 1)) :
    conditionalExpression x y a b = if y < x then b else a := by
  rw [conditionalExpression_eq]
  by_cases h1 : y < x
  · rw [if_pos h1, if_pos (by by_contra h2; exact h ⟨h1, not_le.1 h2⟩)]
  · rw [if_neg h1, if_neg (by linarith)]

/-- In particular the selection is the documented one for whole numbers. -/
theorem C15_integers (x y : ℤ) (a b : ℝ) :
    conditionalExpression x y a b = if y < x then b else a := by
  rw [conditionalExpression_eq]
  refine if_congr ?_ rfl rfl
  rw [← Int.add_one_le_iff]
  exact_mod_cast Iff.rfl

/-! ## C23 -/

/-- Specification of an admissible penalty function on `[0,1]`. -/
structure PenaltyOn (f : ℝ → ℝ) (lo hi minValue : ℝ) : Prop where
  at_lo : f lo = minValue
  at_hi : f hi = 1
  mono : ∀ x y, lo ≤ x → x ≤ y → y ≤ hi → f x ≤ f y

theorem PenaltyOn.range {f : ℝ → ℝ} {lo hi m : ℝ} (h : PenaltyOn f lo hi m) {x : ℝ} (h0 : lo ≤ x)
    (h1 : x ≤ hi) : m ≤ f x ∧ f x ≤ 1 :=
  ⟨h.at_lo ▸ h.mono lo x le_rfl h0 h1, h.at_hi ▸ h.mono x hi h0 h1 le_rfl⟩

/-- **C23**, MSIMP. -/
theorem C23_simp (m : PenaltyData) (hp : 0 < m.penalty) (hm : m.minValue ≤ 1) :
    PenaltyOn (simp m) 0 1 m.minValue where
  at_lo := by unfold simp; rw [Real.zero_rpow hp.ne']; ring
  at_hi := by unfold simp; rw [Real.one_rpow]; ring
  mono := by
    intro x y hx hxy _
    unfold simp
    have := Real.rpow_le_rpow hx hxy hp.le
    have h1 : 0 ≤ 1 - m.minValue := by linarith
    nlinarith [mul_le_mul_of_nonneg_left this h1]

/-- **C23**, RAMP. -/
theorem C23_ramp (m : PenaltyData) (hp : 0 ≤ m.penalty) (hm : m.minValue ≤ 1) :
    PenaltyOn (ramp m) 0 1 m.minValue where
  at_lo := by unfold ramp; simp
  at_hi := by unfold ramp; simp
  mono := by
    intro x y hx hxy hy
    unfold ramp
    have h1 : 0 ≤ 1 - m.minValue := by linarith
    have d1 : 0 < 1 + m.penalty * (1 - x) := by nlinarith [mul_nonneg hp (by linarith : (0:ℝ) ≤ 1 - x)]
    have d2 : 0 < 1 + m.penalty * (1 - y) := by nlinarith [mul_nonneg hp (by linarith : (0:ℝ) ≤ 1 - y)]
    have key : (1 - m.minValue) * x / (1 + m.penalty * (1 - x)) ≤
        (1 - m.minValue) * y / (1 + m.penalty * (1 - y)) := by
      rw [div_le_div_iff₀ d1 d2]
      have : x * (1 + m.penalty * (1 - y)) ≤ y * (1 + m.penalty * (1 - x)) := by
        nlinarith [mul_nonneg hp (by linarith : (0:ℝ) ≤ y - x)]
      nlinarith [mul_le_mul_of_nonneg_left this h1]
    linarith

/-- **C23**, Heaviside: nondecreasing on the whole line, minimum value up to `-L`, one from `L`. -/
theorem C23_heaviside (m : PenaltyData) (hp : 0 < m.penalty) (hm : m.minValue ≤ 1)
    (hL : 0 < m.regLength) :
    (∀ x, x ≤ -m.regLength → heaviside m x = m.minValue) ∧
    (∀ x, m.regLength ≤ x → heaviside m x = 1) ∧
    (∀ x, m.minValue ≤ heaviside m x ∧ heaviside m x ≤ 1) ∧ Monotone (heaviside m) := by
  have h1 : 0 ≤ 1 - m.minValue := by linarith
  have hbase : ∀ x : ℝ, 0 ≤ 1 / 2 * (1 + Real.sin (Real.pi * x / (2 * m.regLength))) := by
    intro x; linarith [Real.neg_one_le_sin (Real.pi * x / (2 * m.regLength))]
  have hbase1 : ∀ x : ℝ, 1 / 2 * (1 + Real.sin (Real.pi * x / (2 * m.regLength))) ≤ 1 := by
    intro x; linarith [Real.sin_le_one (Real.pi * x / (2 * m.regLength))]
  have hlo : ∀ x, x ≤ -m.regLength → heaviside m x = m.minValue := by
    intro x hx; unfold heaviside; rw [if_pos hx]
  have hhi : ∀ x, m.regLength ≤ x → heaviside m x = 1 := by
    intro x hx; unfold heaviside; rw [if_neg (by linarith), if_pos hx]
  have hrange : ∀ x, m.minValue ≤ heaviside m x ∧ heaviside m x ≤ 1 := by
    intro x
    unfold heaviside
    split
    · exact ⟨le_rfl, hm⟩
    · split
      · exact ⟨hm, le_rfl⟩
      · have a := Real.rpow_nonneg (hbase x) m.penalty
        have b := Real.rpow_le_one (hbase x) (hbase1 x) hp.le
        constructor
        · nlinarith [mul_nonneg h1 a]
        · nlinarith [mul_le_mul_of_nonneg_left b h1]
  refine ⟨hlo, hhi, hrange, ?_⟩
  intro x y hxy
  by_cases hx : x ≤ -m.regLength
  · rw [hlo x hx]; exact (hrange y).1
  by_cases hy : m.regLength ≤ y
  · rw [hhi y hy]; exact (hrange x).2
  push_neg at hx hy
  unfold heaviside
  rw [if_neg (by linarith), if_neg (by linarith), if_neg (by linarith), if_neg (by linarith)]
  have hs : Real.sin (Real.pi * x / (2 * m.regLength)) ≤
      Real.sin (Real.pi * y / (2 * m.regLength)) := by
    apply Real.sin_le_sin_of_le_of_le_pi_div_two
    · rw [le_div_iff₀ (by positivity)]
      nlinarith [Real.pi_pos, mul_pos Real.pi_pos hL, mul_le_mul_of_nonneg_left hx.le Real.pi_pos.le]
    · rw [div_le_iff₀ (by positivity)]
      nlinarith [Real.pi_pos, mul_le_mul_of_nonneg_left hy.le Real.pi_pos.le]
    · gcongr
  have := Real.rpow_le_rpow (hbase x)
    (by linarith : 1 / 2 * (1 + Real.sin (Real.pi * x / (2 * m.regLength))) ≤
      1 / 2 * (1 + Real.sin (Real.pi * y / (2 * m.regLength)))) hp.le
  nlinarith [mul_le_mul_of_nonneg_left this h1]

/-- **C23**, continuation: after `n` updates the exponent is `min (upper) (p + n*increment)` and
the other settings are unchanged, so it never exceeds its bound and never decreases. -/
theorem C23_continuation (m : PenaltyData) (hp : m.penalty ≤ m.upper) (hi : 0 ≤ m.increment)
    (n : ℕ) :
    (PenaltyData.update^[n] m) =
      { m with penalty := min m.upper (m.penalty + n * m.increment) } := by
  induction n with
  | zero =>
    rcases m with ⟨a, b, c, d, e⟩
    simp only [Function.iterate_zero, id_eq, Nat.cast_zero, zero_mul, add_zero]
    rw [min_eq_right hp]
  | succ n ih =>
    rw [Function.iterate_succ_apply', ih]
    unfold PenaltyData.update
    simp only [PenaltyData.mk.injEq, true_and, and_true]
    push_cast
    by_cases h : m.penalty + n * m.increment ≤ m.upper
    · rw [min_eq_right h]
      split
      · rw [min_eq_left (by linarith)]
      · rw [min_eq_right (by linarith)]; ring
    · push_neg at h
      rw [min_eq_left h.le, if_pos (by linarith), min_eq_left (by linarith)]

/-- Bound and monotonicity in the number of updates, as a corollary. -/
theorem C23_continuation_bounds (m : PenaltyData) (hp : m.penalty ≤ m.upper)
    (hi : 0 ≤ m.increment) (n : ℕ) :
    m.penalty ≤ (PenaltyData.update^[n] m).penalty ∧
    (PenaltyData.update^[n] m).penalty ≤ (PenaltyData.update^[n + 1] m).penalty ∧
    (PenaltyData.update^[n] m).penalty ≤ m.upper := by
  rw [C23_continuation m hp hi, C23_continuation m hp hi]
  push_cast
  have hn : (0 : ℝ) ≤ n * m.increment := by positivity
  refine ⟨le_min hp (by linarith), min_le_min le_rfl (by nlinarith), min_le_left _ _⟩

/-- The hypothesis `penalty ≤ upper` is needed: an exponent above the bound (e.g. exponent 4 with
the default bound 3) is lowered by the first update. -/
theorem C23_continuation_lowers (m : PenaltyData) (hp : m.upper < m.penalty) (hi : 0 ≤ m.increment) :
    m.update.penalty = m.upper ∧ m.update.penalty < m.penalty := by
  have : m.update.penalty = m.upper := by
    unfold PenaltyData.update
    simp only
    rw [if_pos (by linarith)]
  exact ⟨this, this ▸ hp⟩

/-- A settings record that meets the hypotheses of the C23 theorems. -/
example : ∃ m : PenaltyData, 0 < m.penalty ∧ m.minValue ≤ 1 ∧ 0 < m.regLength ∧
    m.penalty ≤ m.upper ∧ 0 ≤ m.increment :=
  ⟨⟨0.001, 2, 3, 0.1, 1⟩, by norm_num, by norm_num, by norm_num, by norm_num, by norm_num⟩

/-! ## C24 -/

/-- **C24** fails: any input map that omits one of the keys makes the function dereference the end
of the map. -/
theorem C24_false (inputs : List (String × ℝ)) (m : PenaltyData)
    (h : inputs.lookup "Exponent" = none ∨ inputs.lookup "Minimum Value" = none ∨
      inputs.lookup "Additive Continuation" = none) :
    setParametersSimp inputs m = Res.ub := by
  unfold setParametersSimp findDeref
  cases h1 : inputs.lookup "Exponent" with
  | none => rfl
  | some p =>
    cases h2 : inputs.lookup "Minimum Value" with
    | none => rfl
    | some v =>
      cases h3 : inputs.lookup "Additive Continuation" with
      | none => rfl
      | some a => simp [h1, h2, h3] at h

/-- **C24**, what holds for MSIMP and RAMP: with all three keys present exactly these parameters are
set.  Missing: maps with a subset of the keys. -/
theorem C24_simp_partial (inputs : List (String × ℝ)) (m : PenaltyData) {p v a : ℝ}
    (h1 : inputs.lookup "Exponent" = some p) (h2 : inputs.lookup "Minimum Value" = some v)
    (h3 : inputs.lookup "Additive Continuation" = some a) :
    setParametersSimp inputs m = Res.ok { m with penalty := p, minValue := v, increment := a } := by
  unfold setParametersSimp findDeref
  rw [h1, h2, h3]; rfl

/-- **C24** fails for the Heaviside model even with all keys present: the regularization length is
never set and replaces the minimum value. -/
theorem C24_heaviside_false (inputs : List (String × ℝ)) (m : PenaltyData) {p v r a : ℝ}
    (h1 : inputs.lookup "Exponent" = some p) (h2 : inputs.lookup "Minimum Value" = some v)
    (h3 : inputs.lookup "Regularization Length" = some r)
    (h4 : inputs.lookup "Additive Continuation" = some a) :
    setParametersHeaviside inputs m =
      Res.ok { m with penalty := p, minValue := r, increment := a } := by
  unfold setParametersHeaviside findDeref
  rw [h1, h2, h3, h4]; rfl

/-- The consequence: a density below `-L` is mapped to the regularization length. -/
theorem C24_heaviside_consequence (inputs : List (String × ℝ)) (m m' : PenaltyData) {r : ℝ}
    (h3 : inputs.lookup "Regularization Length" = some r)
    (h : setParametersHeaviside inputs m = Res.ok m') (x : ℝ) (hx : x ≤ -m.regLength) :
    m'.regLength = m.regLength ∧ heaviside m' x = r := by
  unfold setParametersHeaviside findDeref at h
  rw [h3] at h
  cases h1 : inputs.lookup "Exponent" with
  | none => rw [h1] at h; cases h
  | some p =>
    cases h2 : inputs.lookup "Minimum Value" with
    | none => rw [h1, h2] at h; cases h
    | some v =>
      cases h4 : inputs.lookup "Additive Continuation" with
      | none => rw [h1, h2, h4] at h; cases h
      | some a =>
        rw [h1, h2, h4] at h
        cases h
        exact ⟨rfl, by unfold heaviside; rw [if_pos hx]⟩

example : setParametersSimp [("Exponent", 3), ("Minimum Value", 0), ("Additive Continuation", 1)]
    ⟨0, 1, 3, 0, 1⟩ = Res.ok ⟨0, 3, 3, 1, 1⟩ := by
  rw [C24_simp_partial _ _ rfl rfl rfl]

/-! ## C25 -/

/-- The cached constants agree with slope and threshold. -/
def TanhData.Consistent (d : TanhData) : Prop :=
  d.betaTimesEta = d.beta * d.eta ∧ d.betaTimesOneMinusEta = d.beta * (1 - d.eta) ∧
  d.denominator = Real.tanh (d.beta * d.eta) + Real.tanh (d.beta * (1 - d.eta))

/-- The documented projection, /repo/src/HyperbolicTangentProjection.hpp:28-29. -/
def tanhProjection (beta eta rho : ℝ) : ℝ :=
  (Real.tanh (beta * eta) + Real.tanh (beta * (rho - eta))) /
    (Real.tanh (beta * eta) + Real.tanh (beta * (1 - eta)))

/-- Last slope and threshold requested by a history of setter calls. -/
def lastParams : ℝ × ℝ → List TanhOp → ℝ × ℝ
  | p, [] => p
  | p, .setBeta b :: ops => lastParams (b, p.2) ops
  | p, .setEta e :: ops => lastParams (p.1, e) ops
  | _, .setBoth b e :: ops => lastParams (b, e) ops

/-- **C25**: after every history of setter calls the object evaluates the documented projection
with the slope and threshold requested last. -/
theorem C25_history (beta eta : ℝ) (ops : List TanhOp) (x : ℝ) :
    (ops.foldl TanhData.exec (TanhData.make beta eta)).apply x =
      tanhProjection (lastParams (beta, eta) ops).1 (lastParams (beta, eta) ops).2 x := by
  have key : ∀ (ops : List TanhOp) (d : TanhData), d.Consistent →
      (ops.foldl TanhData.exec d).Consistent ∧
      ((ops.foldl TanhData.exec d).beta, (ops.foldl TanhData.exec d).eta) =
        lastParams (d.beta, d.eta) ops := by
    intro ops
    induction ops with
    | nil => intro d hd; exact ⟨hd, rfl⟩
    | cons op ops ih =>
      intro d hd
      rw [List.foldl_cons]
      cases op with
      | setBeta b => exact ih _ ⟨rfl, rfl, rfl⟩
      | setEta e => exact ih _ ⟨rfl, rfl, rfl⟩
      | setBoth b e => exact ih _ ⟨rfl, rfl, rfl⟩
  obtain ⟨⟨h1, h2, h3⟩, h4⟩ := key ops (TanhData.make beta eta) ⟨rfl, rfl, rfl⟩
  have hb : (ops.foldl TanhData.exec (TanhData.make beta eta)).beta =
      (lastParams (beta, eta) ops).1 := congrArg Prod.fst h4
  have he : (ops.foldl TanhData.exec (TanhData.make beta eta)).eta =
      (lastParams (beta, eta) ops).2 := congrArg Prod.snd h4
  unfold TanhData.apply tanhProjection
  rw [h1, h3, hb, he]

theorem tanh_strictMono : StrictMono Real.tanh := by
  intro a b hab
  rw [Real.tanh_eq_sinh_div_cosh, Real.tanh_eq_sinh_div_cosh,
    div_lt_div_iff₀ (Real.cosh_pos _) (Real.cosh_pos _)]
  have := Real.sinh_pos_iff.2 (sub_pos.2 hab)
  rw [Real.sinh_sub] at this
  linarith

theorem tanhProjection_neg (beta eta rho : ℝ) :
    tanhProjection (-beta) eta rho = tanhProjection beta eta rho := by
  unfold tanhProjection
  rw [neg_mul, neg_mul, neg_mul, Real.tanh_neg, Real.tanh_neg, Real.tanh_neg, ← neg_add, ← neg_add,
    neg_div_neg_eq]

theorem tanhProjection_pos {beta : ℝ} (hb : 0 < beta) (eta : ℝ) :
    tanhProjection beta eta 0 = 0 ∧ tanhProjection beta eta 1 = 1 ∧
    StrictMono (tanhProjection beta eta) := by
  have hden : 0 < Real.tanh (beta * eta) + Real.tanh (beta * (1 - eta)) := by
    have : Real.tanh (-(beta * (1 - eta))) < Real.tanh (beta * eta) := tanh_strictMono (by linarith)
    rw [Real.tanh_neg] at this
    linarith
  refine ⟨?_, ?_, ?_⟩
  · unfold tanhProjection
    rw [zero_sub, mul_neg, Real.tanh_neg, add_neg_cancel, zero_div]
  · unfold tanhProjection
    exact div_self hden.ne'
  · intro x y hxy
    unfold tanhProjection
    have : Real.tanh (beta * (x - eta)) < Real.tanh (beta * (y - eta)) :=
      tanh_strictMono (by nlinarith)
    gcongr

/-- **C25**: for every nonzero slope and every threshold the tanh projection maps 0 to 0, 1 to 1 and
is strictly increasing, hence maps `[0,1]` into `[0,1]`. -/
theorem C25_tanh {beta : ℝ} (hb : beta ≠ 0) (eta : ℝ) :
    tanhProjection beta eta 0 = 0 ∧ tanhProjection beta eta 1 = 1 ∧
    StrictMono (tanhProjection beta eta) ∧
    ∀ x, 0 ≤ x → x ≤ 1 → 0 ≤ tanhProjection beta eta x ∧ tanhProjection beta eta x ≤ 1 := by
  have main : tanhProjection beta eta 0 = 0 ∧ tanhProjection beta eta 1 = 1 ∧
      StrictMono (tanhProjection beta eta) := by
    rcases lt_or_gt_of_ne hb with h | h
    · have := tanhProjection_pos (beta := -beta) (by linarith) eta
      have e : tanhProjection (-beta) eta = tanhProjection beta eta :=
        funext (tanhProjection_neg beta eta)
      rwa [e] at this
    · exact tanhProjection_pos h eta
  obtain ⟨h0, h1, hm⟩ := main
  refine ⟨h0, h1, hm, fun x hx0 hx1 => ⟨?_, ?_⟩⟩
  · rw [← h0]; exact hm.monotone hx0
  · rw [← h1]; exact hm.monotone hx1

/-- Onto: every value of `[0,1]` is the projection of some density in `[0,1]`. -/
theorem C25_tanh_onto {beta : ℝ} (hb : beta ≠ 0) (eta : ℝ) {v : ℝ} (hv0 : 0 ≤ v) (hv1 : v ≤ 1) :
    ∃ x, 0 ≤ x ∧ x ≤ 1 ∧ tanhProjection beta eta x = v := by
  obtain ⟨h0, h1, -, -⟩ := C25_tanh hb eta
  have hc : Continuous (tanhProjection beta eta) := by
    have ht : Continuous Real.tanh := by
      have : Real.tanh = fun x => Real.sinh x / Real.cosh x := funext Real.tanh_eq_sinh_div_cosh
      rw [this]
      exact Real.continuous_sinh.div Real.continuous_cosh fun x => (Real.cosh_pos x).ne'
    unfold tanhProjection
    fun_prop
  have := intermediate_value_Icc (zero_le_one' ℝ) hc.continuousOn
  obtain ⟨x, hx, he⟩ := this (show v ∈ Set.Icc _ _ from ⟨by rw [h0]; exact hv0, by rw [h1]; exact hv1⟩)
  exact ⟨x, hx.1, hx.2, he⟩

/-- The documented Heaviside projection `1 - H(1-ρ)`, /repo/src/HeavisideProjection.hpp:21-26. -/
def heavisideDoc (beta rho : ℝ) : ℝ :=
  1 - (1 - Real.exp (-beta * (1 - rho)) + (1 - rho) * Real.exp (-beta))

/-- What `HeavisideProjection::apply` returns is one minus the documented value. -/
theorem heavisideProj_eq (beta rho : ℝ) :
    (HeavisideProj.make beta).apply rho = 1 - heavisideDoc beta rho := by
  unfold HeavisideProj.apply HeavisideProj.make heavisideDoc
  rw [neg_mul]; ring

/-- **C25** fails for the Heaviside projection: it maps 0 to 1 and 1 to 0 and is strictly
decreasing for every nonnegative slope, so it never is the documented formula. -/
theorem C25_heaviside_false (beta : ℝ) (hb : 0 ≤ beta) :
    (HeavisideProj.make beta).apply 0 = 1 ∧ (HeavisideProj.make beta).apply 1 = 0 ∧
    StrictAnti (HeavisideProj.make beta).apply ∧
    (HeavisideProj.make beta).apply ≠ heavisideDoc beta := by
  have h0 : (HeavisideProj.make beta).apply 0 = 1 := by
    unfold HeavisideProj.apply HeavisideProj.make; simp
  have h1 : (HeavisideProj.make beta).apply 1 = 0 := by
    unfold HeavisideProj.apply HeavisideProj.make; simp
  refine ⟨h0, h1, ?_, ?_⟩
  · intro x y hxy
    unfold HeavisideProj.apply HeavisideProj.make
    have e1 : Real.exp (-(beta * (1 - x))) ≤ Real.exp (-(beta * (1 - y))) :=
      Real.exp_le_exp.2 (by nlinarith)
    have e2 : 0 < Real.exp (-beta) := Real.exp_pos _
    dsimp only
    nlinarith
  · intro h
    have := congrFun h 1
    rw [h1] at this
    unfold heavisideDoc at this
    simp at this

/-- `ApplyProjection` projects the mean of the nodal control values. -/
theorem C25_applyProjection (f : ℝ → ℝ) (c : List ℝ) :
    applyProjection f c = Res.ok (f (c.sum / c.length)) := by
  unfold applyProjection
  have : forRange 0 c.length (0 : ℝ) (fun i acc => do
      let x ← rd c i
      pure (acc + x)) = Res.ok c.sum := by
    apply Res.Sat.eq_ok
    refine (forRange_inv (fun j acc => acc = (c.take j).sum) (Nat.zero_le _) (by simp) ?_).mono ?_
    · rintro j s - hj rfl
      rw [rd_eq hj]
      refine Res.Sat.ok ?_
      rw [List.take_succ_eq_append_getElem hj, List.sum_append]
      simp
    · rintro s rfl; simp
  rw [this]; rfl

/-- With the tanh projection the element density stays in `[0,1]`. -/
theorem C25_applyProjection_tanh {beta : ℝ} (hb : beta ≠ 0) (eta : ℝ) (c : List ℝ) (hc : c ≠ [])
    (h : ∀ x ∈ c, 0 ≤ x ∧ x ≤ 1) :
    (applyProjection (TanhData.make beta eta).apply c).Sat fun v => 0 ≤ v ∧ v ≤ 1 := by
  rw [C25_applyProjection]
  refine Res.Sat.ok ?_
  have hlen : 0 < (c.length : ℝ) := by
    have : 0 < c.length := List.length_pos_iff.2 hc
    exact_mod_cast this
  have hs0 : 0 ≤ c.sum := List.sum_nonneg fun x hx => (h x hx).1
  have hs1 : c.sum ≤ c.length := by
    have := List.sum_le_card_nsmul c 1 fun x hx => (h x hx).2
    simpa using this
  have := C25_history beta eta [] (c.sum / c.length)
  rw [List.foldl_nil] at this
  rw [this]
  exact (C25_tanh hb eta).2.2.2 _ (div_nonneg hs0 hlen.le) ((div_le_one hlen).2 hs1)

end
end Plato
