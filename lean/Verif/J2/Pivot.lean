import Verif.J2.Track
import Verif.Blas.Inverse
import Mathlib.Tactic.LinearCombination

/-!
# C66: the inverse of the derivative of the local residual
-/

namespace Plato.J2
open Finset Plato Plato.Mech Plato.Thermal

/-! ## Algebra -/

section Algebra
variable {N : ℕ} {isN : ℕ → Bool}

/-- Weight of a component. -/
noncomputable def wt (b : Bool) : ℝ := if b then 1 else 2

/-- Scalar product of stresses. -/
noncomputable def ip (N : ℕ) (isN : ℕ → Bool) (a b : ℕ → ℝ) : ℝ := ∑ k ∈ range N, wt (isN k) * (a k * b k)

/-- Sum of the normal components. -/
noncomputable def tr (N : ℕ) (isN : ℕ → Bool) (a : ℕ → ℝ) : ℝ := ∑ k ∈ range N, if isN k then a k else 0

/-- Deviatoric stress of a strain. -/
noncomputable def dv (N : ℕ) (isN : ℕ → Bool) (mu : ℝ) (p : ℕ → ℝ) (k : ℕ) : ℝ :=
  if isN k then 2 * mu * (p k - tr N isN p / 3) else mu * p k

theorem ip_self_nonneg (a : ℕ → ℝ) : 0 ≤ ip N isN a a :=
  sum_nonneg fun k _ => mul_nonneg (by unfold wt; split <;> norm_num) (mul_self_nonneg _)

theorem ip_lin (a b c : ℕ → ℝ) (s t : ℝ) :
    ip N isN a (fun k => s * b k + t * c k) = s * ip N isN a b + t * ip N isN a c := by
  unfold ip
  rw [mul_sum, mul_sum, ← sum_add_distrib]
  exact sum_congr rfl fun k _ => by ring

theorem ip_comm (a b : ℕ → ℝ) : ip N isN a b = ip N isN b a :=
  sum_congr rfl fun k _ => by ring

theorem ip_congr {a a' b b' : ℕ → ℝ} (ha : ∀ k, k < N → a k = a' k) (hb : ∀ k, k < N → b k = b' k) :
    ip N isN a b = ip N isN a' b' :=
  sum_congr rfl fun k hk => by rw [ha k (mem_range.1 hk), hb k (mem_range.1 hk)]

theorem tr_lin (b c : ℕ → ℝ) (s t : ℝ) :
    tr N isN (fun k => s * b k + t * c k) = s * tr N isN b + t * tr N isN c := by
  unfold tr
  rw [mul_sum, mul_sum, ← sum_add_distrib]
  exact sum_congr rfl fun k _ => by split <;> ring

theorem ip_dv (mu : ℝ) (a p : ℕ → ℝ) : ip N isN a (dv N isN mu p) =
    2 * mu * ∑ k ∈ range N, a k * p k - 2 * mu * (tr N isN p / 3) * tr N isN a := by
  have : ip N isN a (dv N isN mu p) = ∑ k ∈ range N, (2 * mu * (a k * p k) - 2 * mu * (tr N isN p / 3) *
      if isN k then a k else 0) :=
    sum_congr rfl fun k _ => by unfold dv wt; split <;> ring
  rw [this, sum_sub_distrib, ← mul_sum, ← mul_sum]
  rfl

theorem tr_dv (h3 : tr N isN (fun _ => 1) = 3) (mu : ℝ) (p : ℕ → ℝ) : tr N isN (dv N isN mu p) = 0 := by
  have : tr N isN (dv N isN mu p) = tr N isN (fun k => 2 * mu * p k + (- (2 * mu * (tr N isN p / 3))) * 1) :=
    sum_congr rfl fun k _ => by unfold dv; split <;> ring
  rw [this, tr_lin (c := fun _ => 1), h3]
  ring

/-- Cauchy-Schwarz with a direction. -/
theorem cs {n δ : ℕ → ℝ} (h : ip N isN n n = 1) : ip N isN n δ ^ 2 ≤ ip N isN δ δ := by
  have h0 := ip_self_nonneg (N := N) (isN := isN) (fun k => 1 * δ k + (- ip N isN n δ) * n k)
  rw [ip_lin, ip_comm _ δ, ip_comm _ n, ip_lin, ip_lin, h, ip_comm δ n] at h0
  nlinarith

/-- The sum of three numbers. -/
theorem tr_sq (h3 : tr N isN (fun _ => 1) = 3) (a : ℕ → ℝ) : tr N isN a ^ 2 / 3 ≤ ip N isN a a := by
  have h0 : 0 ≤ ∑ k ∈ range N, (if isN k then (a k - tr N isN a / 3) ^ 2 else 0) :=
    sum_nonneg fun k _ => by split <;> positivity
  have e : ∑ k ∈ range N, (if isN k then (a k - tr N isN a / 3) ^ 2 else 0) =
      tr N isN (fun k => a k * a k) - tr N isN a ^ 2 / 3 := by
    have : ∑ k ∈ range N, (if isN k then (a k - tr N isN a / 3) ^ 2 else 0) =
        tr N isN (fun k => 1 * (a k * a k) + 1 * ((- (2 * (tr N isN a / 3))) * a k + (tr N isN a / 3) ^ 2 * 1)) :=
      sum_congr rfl fun k _ => by split <;> ring
    rw [this, tr_lin (fun k => a k * a k), tr_lin a (fun _ => 1), h3]
    ring
  have h1 : tr N isN (fun k => a k * a k) ≤ ip N isN a a :=
    sum_le_sum fun k _ => by
      unfold wt
      have := mul_self_nonneg (a k)
      split <;> linarith
  linarith

/-- A variation of the local state of a plastic cell, and what the rows of the derivative say about it. -/
structure Vary (N : ℕ) (isN : ℕ → Bool) (mu K s32 sH nrm g : ℝ) (n : ℕ → ℝ) (v0 v1 : ℝ) (p β δ Q : ℕ → ℝ) : Prop where
  h3 : tr N isN (fun _ => 1) = 3
  hmu : 0 < mu
  hK : 0 ≤ K
  hs32 : 0 < s32
  hsH : 0 ≤ sH
  hnrm : 0 < nrm
  hg : 0 < g
  unit : ip N isN n n = 1
  hδ : ∀ k, k < N → δ k = - dv N isN mu p k - β k
  hQ : ∀ k, k < N → Q k = v1 * n k + g * ((δ k - n k * ip N isN n δ) / nrm)
  r0 : v0 = v1
  r1 : s32 * ip N isN n δ = K * v0

variable {mu K s32 sH nrm g : ℝ} {n : ℕ → ℝ} {v0 v1 : ℝ} {p β δ Q : ℕ → ℝ}

/-- Rows of the backstress. -/
theorem Vary.back (h : Vary N isN mu K s32 sH nrm g n v0 v1 p β δ Q) (hK : 0 < K)
    (hp : ∀ k, k < N → p k = s32 * wt (isN k) * Q k) (hβ : ∀ k, k < N → β k = 0 ∨ β k = sH * Q k) :
    ∀ k, k < N → β k = 0 := by
  set c := ip N isN n δ with hc
  have hv1 : v1 = s32 * c / K := by
    rw [← h.r0]
    field_simp
    linarith [h.r1]
  have hcs := cs (δ := δ) h.unit
  rw [← hc] at hcs
  -- the variation of stress does positive work on the flow
  have hδQ : 0 ≤ ip N isN δ Q := by
    have e : ip N isN δ Q = ip N isN δ (fun k => (v1 - g * c / nrm) * n k + g / nrm * δ k) :=
      ip_congr (fun _ _ => rfl) fun k hk => by rw [h.hQ k hk]; have := h.hnrm; field_simp; ring
    rw [e, ip_lin, ip_comm δ n, ← hc, hv1]
    have : 0 ≤ s32 * c / K * c := by
      have : s32 * c / K * c = s32 / K * c ^ 2 := by ring
      rw [this]
      exact mul_nonneg (div_nonneg h.hs32.le h.hK) (sq_nonneg _)
    have h2 : 0 ≤ g / nrm * (ip N isN δ δ - c ^ 2) :=
      mul_nonneg (div_nonneg h.hg.le h.hnrm.le) (by linarith)
    have e2 : (s32 * c / K - g * c / nrm) * c + g / nrm * ip N isN δ δ =
        s32 * c / K * c + g / nrm * (ip N isN δ δ - c ^ 2) := by ring
    rw [e2]
    linarith
  have hdQ : 0 ≤ ip N isN Q (dv N isN mu p) := by
    have e : ip N isN Q (dv N isN mu p) = 2 * mu * s32 * (ip N isN Q Q - tr N isN Q ^ 2 / 3) := by
      rw [ip_dv]
      have e1 : ∑ k ∈ range N, Q k * p k = s32 * ip N isN Q Q := by
        unfold ip
        rw [mul_sum]
        exact sum_congr rfl fun k hk => by rw [hp k (mem_range.1 hk)]; ring
      have e2 : tr N isN p = s32 * tr N isN Q := by
        unfold tr
        rw [mul_sum]
        refine sum_congr rfl fun k hk => ?_
        rw [hp k (mem_range.1 hk)]
        unfold wt
        split <;> ring
      rw [e1, e2]; ring
    rw [e]
    exact mul_nonneg (mul_nonneg (mul_nonneg (by norm_num) h.hmu.le) h.hs32.le) (by linarith [tr_sq h.h3 Q])
  have hβQ : ip N isN β Q ≤ 0 := by
    have e : ip N isN β Q = - ip N isN δ Q - ip N isN Q (dv N isN mu p) := by
      have : ip N isN Q β = ip N isN Q (fun k => (-1) * δ k + (-1) * dv N isN mu p k) :=
        ip_congr (fun _ _ => rfl) fun k hk => by rw [h.hδ k hk]; ring
      rw [ip_comm, this, ip_lin, ip_comm Q δ]; ring
    rw [e]; linarith
  have hββ : ip N isN β β ≤ 0 := by
    have : ip N isN β β = sH * ip N isN β Q := by
      unfold ip
      rw [mul_sum]
      refine sum_congr rfl fun k hk => ?_
      rcases hβ k (mem_range.1 hk) with e | e
      · rw [e]; ring
      · rw [show wt (isN k) * (β k * β k) = wt (isN k) * (β k * (sH * Q k)) by rw [← e]]; ring
    rw [this]
    exact mul_nonpos_of_nonneg_of_nonpos h.hsH hβQ
  intro k hk
  have h0 : ∀ k ∈ range N, 0 ≤ wt (isN k) * (β k * β k) := fun k _ =>
    mul_nonneg (by unfold wt; split <;> norm_num) (mul_self_nonneg _)
  have := (sum_eq_zero_iff_of_nonneg h0).1 (le_antisymm hββ (ip_self_nonneg β)) k (mem_range.2 hk)
  unfold wt at this
  split at this <;> nlinarith

/-- Rows of the plastic strain. -/
theorem Vary.strain (h : Vary N isN mu K s32 sH nrm g n v0 v1 p β δ Q) (hK : 0 < K) (ht : tr N isN n = 0)
    (hp : ∀ k, k < N → p k = 0 ∨ p k = s32 * wt (isN k) * Q k) (hβ : ∀ k, k < N → β k = 0) :
    (∀ k, k < N → p k = 0) ∧ v0 = 0 := by
  set c := ip N isN n δ with hc
  have hv1 : v1 = s32 * c / K := by
    rw [← h.r0]
    field_simp
    linarith [h.r1]
  have hcs := cs (δ := δ) h.unit
  rw [← hc] at hcs
  have hδ' : ∀ k, k < N → δ k = - dv N isN mu p k := fun k hk => by rw [h.hδ k hk, hβ k hk, sub_zero]
  have hδt : tr N isN δ = 0 := by
    have : tr N isN δ = tr N isN fun k => (-1) * dv N isN mu p k + 0 * 0 :=
      sum_congr rfl fun k hk => by rw [hδ' k (mem_range.1 hk)]; split <;> ring
    rw [this, tr_lin (c := fun _ => 0), tr_dv h.h3]; ring
  have pair : ∀ a : ℕ → ℝ, tr N isN a = 0 → ∑ k ∈ range N, a k * p k = - ip N isN a δ / (2 * mu) := by
    intro a ha
    have h1 := ip_dv (N := N) (isN := isN) mu a p
    rw [ha, mul_zero, sub_zero] at h1
    have h2 : ip N isN a δ = - ip N isN a (dv N isN mu p) := by
      have : ip N isN a δ = ip N isN a (fun k => (-1) * dv N isN mu p k + 0 * 0) :=
        ip_congr (fun _ _ => rfl) fun k hk => by rw [hδ' k hk]; ring
      rw [this, ip_lin (c := fun _ => 0)]; ring
    have := h.hmu
    rw [h2, h1]
    field_simp
  have hQp : ∑ k ∈ range N, Q k * p k ≤ 0 := by
    have e : ∑ k ∈ range N, Q k * p k = (v1 - g * c / nrm) * ∑ k ∈ range N, n k * p k +
        g / nrm * ∑ k ∈ range N, δ k * p k := by
      rw [mul_sum, mul_sum, ← sum_add_distrib]
      refine sum_congr rfl fun k hk => ?_
      rw [h.hQ k (mem_range.1 hk)]
      have := h.hnrm
      field_simp
      ring
    rw [e, pair n ht, pair δ hδt, ← hc, hv1]
    have h1 : 0 ≤ s32 / K * c ^ 2 / (2 * mu) :=
      div_nonneg (mul_nonneg (div_nonneg h.hs32.le h.hK) (sq_nonneg _)) (by linarith [h.hmu])
    have h2 : 0 ≤ g / nrm * (ip N isN δ δ - c ^ 2) / (2 * mu) :=
      div_nonneg (mul_nonneg (div_nonneg h.hg.le h.hnrm.le) (by linarith)) (by linarith [h.hmu])
    have e2 : (s32 * c / K - g * c / nrm) * (-c / (2 * mu)) + g / nrm * (-ip N isN δ δ / (2 * mu)) =
        - (s32 / K * c ^ 2 / (2 * mu)) - g / nrm * (ip N isN δ δ - c ^ 2) / (2 * mu) := by ring
    rw [e2]
    linarith
  have hpp : ∑ k ∈ range N, p k * p k / wt (isN k) ≤ 0 := by
    have : ∑ k ∈ range N, p k * p k / wt (isN k) = s32 * ∑ k ∈ range N, Q k * p k := by
      rw [mul_sum]
      refine sum_congr rfl fun k hk => ?_
      have hw : wt (isN k) ≠ 0 := by unfold wt; split <;> norm_num
      rcases hp k (mem_range.1 hk) with e | e
      · rw [e]; ring
      · rw [show p k * p k / wt (isN k) = s32 * wt (isN k) * Q k * p k / wt (isN k) by rw [← e]]
        field_simp
    rw [this]
    exact mul_nonpos_of_nonneg_of_nonpos h.hs32.le hQp
  have h0 : ∀ k ∈ range N, 0 ≤ p k * p k / wt (isN k) := fun k _ =>
    div_nonneg (mul_self_nonneg _) (by unfold wt; split <;> norm_num)
  have hp0 : ∀ k, k < N → p k = 0 := by
    intro k hk
    have := (sum_eq_zero_iff_of_nonneg h0).1 (le_antisymm hpp (sum_nonneg h0)) k (mem_range.2 hk)
    rcases div_eq_zero_iff.1 this with h | h
    · exact mul_self_eq_zero.1 h
    · unfold wt at h; split at h <;> norm_num at h
  refine ⟨hp0, ?_⟩
  have hc0 : c = 0 := by
    have h1 := pair n ht
    rw [sum_eq_zero fun k hk => by rw [hp0 k (mem_range.1 hk), mul_zero], ← hc] at h1
    have := h.hmu
    field_simp at h1
    linarith
  have := h.r1
  rw [← hc, hc0, mul_zero] at this
  rcases mul_eq_zero.1 this.symm with h' | h'
  · exact absurd h' hK.ne'
  · exact h'

/-- All rows: here the isotropic hardening may vanish. -/
theorem Vary.whole (h : Vary N isN mu K s32 sH nrm g n v0 v1 p β δ Q) (ht : tr N isN n = 0)
    (hp : ∀ k, k < N → p k = s32 * wt (isN k) * Q k) (hβ : ∀ k, k < N → β k = sH * Q k) :
    v0 = 0 ∧ (∀ k, k < N → p k = 0) ∧ ∀ k, k < N → β k = 0 := by
  set c := ip N isN n δ with hc
  have eQ : ∀ a : ℕ → ℝ, ip N isN a Q = (v1 - g * c / nrm) * ip N isN a n + g / nrm * ip N isN a δ := by
    intro a
    rw [← ip_lin]
    exact ip_congr (fun _ _ => rfl) fun k hk => by rw [h.hQ k hk]; have := h.hnrm; field_simp; ring
  have eδ : ∀ a : ℕ → ℝ, ip N isN a δ = - (2 * mu * s32 * (ip N isN a Q - tr N isN Q * tr N isN a / 3)) -
      sH * ip N isN a Q := by
    intro a
    have h1 : ip N isN a δ = ip N isN a (fun k => (-1) * dv N isN mu p k + (- sH) * Q k) :=
      ip_congr (fun _ _ => rfl) fun k hk => by rw [h.hδ k hk, hβ k hk]; ring
    have e1 : ∑ k ∈ range N, a k * p k = s32 * ip N isN a Q := by
      unfold ip
      rw [mul_sum]
      exact sum_congr rfl fun k hk => by rw [hp k (mem_range.1 hk)]; ring
    have e2 : tr N isN p = s32 * tr N isN Q := by
      unfold tr
      rw [mul_sum]
      refine sum_congr rfl fun k hk => ?_
      rw [hp k (mem_range.1 hk)]
      unfold wt
      split <;> ring
    rw [h1, ip_lin, ip_dv, e1, e2]
    ring
  have h1 := eQ n
  have h2 := eδ n
  rw [h.unit, ← hc] at h1
  rw [ht, ← hc] at h2
  have hnQ : ip N isN n Q = v1 := by rw [h1]; ring
  rw [hnQ] at h2
  have hpos : 0 < K + s32 * (2 * mu * s32 + sH) := by
    have : 0 < s32 * (2 * mu * s32 + sH) :=
      mul_pos h.hs32 (add_pos_of_pos_of_nonneg (mul_pos (mul_pos two_pos h.hmu) h.hs32) h.hsH)
    linarith [h.hK]
  have hv1 : v1 = 0 := by
    have h3 := h.r1
    rw [← hc, h2, h.r0] at h3
    have : v1 * (K + s32 * (2 * mu * s32 + sH)) = 0 := by linear_combination - h3
    exact (mul_eq_zero.1 this).resolve_right hpos.ne'
  have hc0 : c = 0 := by rw [h2, hv1]; ring
  have h4 := eQ δ
  rw [hv1, hc0] at h4
  have h5 := eδ Q
  have hδδ : ip N isN δ δ ≤ 0 := by
    have h6 : ip N isN δ Q = g / nrm * ip N isN δ δ := by rw [h4]; ring
    have h7 : ip N isN δ Q ≤ 0 := by
      rw [ip_comm, h5]
      have a1 : 0 ≤ 2 * mu * s32 * (ip N isN Q Q - tr N isN Q * tr N isN Q / 3) :=
        mul_nonneg (mul_nonneg (mul_nonneg (by norm_num) h.hmu.le) h.hs32.le) (by
          have := tr_sq h.h3 Q
          rw [sq] at this
          linarith)
      have a2 := mul_nonneg h.hsH (ip_self_nonneg (N := N) (isN := isN) Q)
      linarith
    rw [h6] at h7
    by_contra hcon
    have := mul_pos (div_pos h.hg h.hnrm) (not_le.1 hcon)
    linarith
  have hδ0 : ∀ k, k < N → δ k = 0 := by
    intro k hk
    have h0 : ∀ k ∈ range N, 0 ≤ wt (isN k) * (δ k * δ k) := fun k _ =>
      mul_nonneg (by unfold wt; split <;> norm_num) (mul_self_nonneg _)
    have := (sum_eq_zero_iff_of_nonneg h0).1 (le_antisymm hδδ (ip_self_nonneg δ)) k (mem_range.2 hk)
    unfold wt at this
    split at this <;> nlinarith
  have hQ0 : ∀ k, k < N → Q k = 0 := fun k hk => by
    rw [h.hQ k hk, hv1, hδ0 k hk, ← hc, hc0]; ring
  exact ⟨h.r0.trans hv1, fun k hk => by rw [hp k hk, hQ0 k hk, mul_zero], fun k hk => by rw [hβ k hk, hQ0 k hk, mul_zero]⟩

end Algebra

/-! ## Derivative of the residual along a line -/

section Line
variable {P : J2 ℝ} (hd : P.d = 2 ∨ P.d = 3) {U C Cp Z v : ℕ → ℝ} {X : ℕ → ℕ → ℝ}

theorem third_eq (hd : P.d = 2 ∨ P.d = 3) (e : ℕ → ℝ) : third P.d e = tr (stressTerms P.d) (isNormal P.d) e / 3 := by
  rcases hd with h | h <;> rw [h] <;> simp [third, tr, stressTerms, isNormal, sum_range_succ]

theorem devForm_eq (hd : P.d = 2 ∨ P.d = 3) (mu : ℝ) (e : ℕ → ℝ) (k : ℕ) :
    devForm P.d mu e k = dv (stressTerms P.d) (isNormal P.d) mu e k := by
  unfold devForm dv
  rw [third_eq hd]

theorem sqForm_eq (S : ℕ → ℝ) : sqForm P.d S = ip (stressTerms P.d) (isNormal P.d) S S :=
  sum_congr rfl fun k _ => by unfold wt; split <;> ring

theorem three (hd : P.d = 2 ∨ P.d = 3) : tr (stressTerms P.d) (isNormal P.d) (fun _ => 1) = 3 := by
  rcases hd with h | h <;> rw [h] <;> unfold tr stressTerms isNormal <;> simp only [sum_range_succ, range_zero, sum_empty,
    reduceIte, Nat.reduceEqDiff] <;> norm_num

/-- Variation of stress minus backstress. -/
noncomputable def J2.vary (P : J2 ℝ) (Z v : ℕ → ℝ) (k : ℕ) : ℝ :=
  - dv (stressTerms P.d) (isNormal P.d) (P.mat Z).mu (fun t => v (2 + t)) k - v (2 + stressTerms P.d + k)

include hd in
theorem eta_line (t : ℝ) (k : ℕ) : P.eta U (fun i => C i + t * v i) Z X k = P.eta U C Z X k + t * P.vary Z v k := by
  unfold J2.eta etaForm J2.vary
  rw [devForm_eq hd, devForm_eq hd]
  have e : ∀ k, P.elasticOf (P.total U X) U (fun i => C i + t * v i) k =
      1 * P.elasticOf (P.total U X) U C k + (-t) * v (2 + k) := fun k => by unfold J2.elasticOf; ring
  have et : tr (stressTerms P.d) (isNormal P.d) (P.elasticOf (P.total U X) U (fun i => C i + t * v i)) =
      tr (stressTerms P.d) (isNormal P.d) (P.elasticOf (P.total U X) U C) +
        (-t) * tr (stressTerms P.d) (isNormal P.d) (fun k => v (2 + k)) := by
    rw [show P.elasticOf (P.total U X) U (fun i => C i + t * v i) = fun k =>
      1 * P.elasticOf (P.total U X) U C k + (-t) * v (2 + k) from funext e, tr_lin (c := fun k => v (2 + k)), one_mul]
  show dv _ _ (P.mat Z).mu _ k - _ = dv _ _ (P.mat Z).mu _ k - _ + _
  unfold dv
  rw [et, e k]
  split <;> ring

/-- The flow along a variation. -/
noncomputable def J2.flow (P : J2 ℝ) (U C Z : ℕ → ℝ) (X : ℕ → ℕ → ℝ) (v : ℕ → ℝ) (k : ℕ) : ℝ :=
  v 1 * P.dir Real.sqrt U C Z X k + C 1 * ((P.vary Z v k - P.dir Real.sqrt U C Z X k *
    ip (stressTerms P.d) (isNormal P.d) (P.dir Real.sqrt U C Z X) (P.vary Z v)) / P.norm Real.sqrt U C Z X)

/-- Row `i` of the derivative of the residual of a plastic cell, applied to `v`. -/
noncomputable def J2.row (P : J2 ℝ) (U C Z : ℕ → ℝ) (X : ℕ → ℕ → ℝ) (v : ℕ → ℝ) (i : ℕ) : ℝ :=
  if i = 0 then v 0 - v 1
  else if i = 1 then P.s32 * ip (stressTerms P.d) (isNormal P.d) (P.dir Real.sqrt U C Z X) (P.vary Z v) -
    (P.mat Z).K * v 0
  else if i < 2 + stressTerms P.d then v i - P.s32 * wt (isNormal P.d (i - 2)) * P.flow U C Z X v (i - 2)
  else v i - P.s23 * (P.mat Z).H * P.flow U C Z X v (i - 2 - stressTerms P.d)

include hd in
theorem norm_line (h : sqForm P.d (P.eta U C Z X) ≠ 0) :
    HasDerivAt (fun t : ℝ => P.norm Real.sqrt U (fun i => C i + t * v i) Z X)
      (ip (stressTerms P.d) (isNormal P.d) (P.dir Real.sqrt U C Z X) (P.vary Z v)) 0 := by
  have e : (fun t : ℝ => P.norm Real.sqrt U (fun i => C i + t * v i) Z X) = fun t =>
      √(ip (stressTerms P.d) (isNormal P.d) (P.eta U C Z X) (P.eta U C Z X) +
        2 * ip (stressTerms P.d) (isNormal P.d) (P.eta U C Z X) (P.vary Z v) * t +
        ip (stressTerms P.d) (isNormal P.d) (P.vary Z v) (P.vary Z v) * t ^ 2) := by
    funext t
    unfold J2.norm
    rw [sqForm_eq, show P.eta U (fun i => C i + t * v i) Z X = fun k => 1 * P.eta U C Z X k + t * P.vary Z v k from
      funext fun k => by rw [eta_line hd, one_mul], ip_lin, ip_comm _ (P.eta U C Z X), ip_comm _ (P.vary Z v), ip_lin,
      ip_lin, ip_comm (P.vary Z v) (P.eta U C Z X)]
    ring_nf
  rw [e]
  rw [sqForm_eq] at h
  have hq : HasDerivAt (fun t : ℝ => ip (stressTerms P.d) (isNormal P.d) (P.eta U C Z X) (P.eta U C Z X) +
        2 * ip (stressTerms P.d) (isNormal P.d) (P.eta U C Z X) (P.vary Z v) * t +
        ip (stressTerms P.d) (isNormal P.d) (P.vary Z v) (P.vary Z v) * t ^ 2)
      (2 * ip (stressTerms P.d) (isNormal P.d) (P.eta U C Z X) (P.vary Z v)) 0 := by
    have := (((hasDerivAt_id (0 : ℝ)).const_mul
      (2 * ip (stressTerms P.d) (isNormal P.d) (P.eta U C Z X) (P.vary Z v))).const_add
      (ip (stressTerms P.d) (isNormal P.d) (P.eta U C Z X) (P.eta U C Z X))).add
      ((hasDerivAt_pow 2 (0 : ℝ)).const_mul (ip (stressTerms P.d) (isNormal P.d) (P.vary Z v) (P.vary Z v)))
    refine this.congr_deriv ?_
    norm_num
  have h' : ip (stressTerms P.d) (isNormal P.d) (P.eta U C Z X) (P.eta U C Z X) +
        2 * ip (stressTerms P.d) (isNormal P.d) (P.eta U C Z X) (P.vary Z v) * 0 +
        ip (stressTerms P.d) (isNormal P.d) (P.vary Z v) (P.vary Z v) * 0 ^ 2 ≠ 0 := by simpa using h
  refine (hq.sqrt h').congr_deriv ?_
  have en : P.norm Real.sqrt U C Z X = √(ip (stressTerms P.d) (isNormal P.d) (P.eta U C Z X) (P.eta U C Z X)) := by
    unfold J2.norm; rw [sqForm_eq]
  have ed : ip (stressTerms P.d) (isNormal P.d) (P.dir Real.sqrt U C Z X) (P.vary Z v) =
      ip (stressTerms P.d) (isNormal P.d) (P.eta U C Z X) (P.vary Z v) / P.norm Real.sqrt U C Z X := by
    unfold ip
    rw [sum_div]
    exact sum_congr rfl fun k _ => by unfold J2.dir; ring
  rw [ed, en]
  simp only [mul_zero, add_zero, ne_eq, OfNat.ofNat_ne_zero, not_false_eq_true, zero_pow]
  ring

include hd in
theorem dir_line (h : sqForm P.d (P.eta U C Z X) ≠ 0) (k : ℕ) :
    HasDerivAt (fun t : ℝ => P.dir Real.sqrt U (fun i => C i + t * v i) Z X k)
      ((P.vary Z v k - P.dir Real.sqrt U C Z X k *
        ip (stressTerms P.d) (isNormal P.d) (P.dir Real.sqrt U C Z X) (P.vary Z v)) / P.norm Real.sqrt U C Z X) 0 := by
  have hn : P.norm Real.sqrt U C Z X ≠ 0 := by
    unfold J2.norm
    rw [Real.sqrt_ne_zero (sqForm_nonneg _)]
    exact h
  have hη : HasDerivAt (fun t : ℝ => P.eta U (fun i => C i + t * v i) Z X k) (P.vary Z v k) 0 := by
    simp only [eta_line hd]
    simpa using ((hasDerivAt_id (0 : ℝ)).mul_const (P.vary Z v k)).const_add (P.eta U C Z X k)
  have e0 : (fun i => C i + (0 : ℝ) * v i) = C := funext fun i => by ring
  unfold J2.dir
  refine (hη.div (norm_line hd (v := v) h) (by rw [e0]; exact hn)).congr_deriv ?_
  rw [e0]
  unfold J2.dir
  field_simp

include hd in
theorem row_line (h : sqForm P.d (P.eta U C Z X) ≠ 0) (i : ℕ) :
    HasDerivAt (fun t : ℝ => P.evalForm Real.sqrt true U (fun i => C i + t * v i) Cp Z X i)
      (P.row U C Z X v i) 0 := by
  have hC : ∀ i, HasDerivAt (fun t : ℝ => C i + t * v i) (v i) 0 := fun i => by
    simpa using ((hasDerivAt_id (0 : ℝ)).mul_const (v i)).const_add (C i)
  have e0 : (fun i => C i + (0 : ℝ) * v i) = C := funext fun i => by ring
  have hQ : ∀ k, HasDerivAt (fun t : ℝ => (C 1 + t * v 1) * P.dir Real.sqrt U (fun i => C i + t * v i) Z X k)
      (P.flow U C Z X v k) 0 := fun k => by
    refine ((hC 1).mul (dir_line hd h k)).congr_deriv ?_
    rw [e0]
    unfold J2.flow
    ring
  unfold J2.evalForm J2.row
  simp only [if_true]
  by_cases i0 : i = 0
  · simp only [i0, if_true]
    exact ((hC 0).sub_const _).sub (hC 1)
  by_cases i1 : i = 1
  · simp only [i1, if_true, if_false, Nat.one_ne_zero]
    exact ((norm_line hd h).const_mul _).sub (((hC 0).const_mul _).const_add _)
  simp only [i0, i1, if_false]
  by_cases i2 : i < 2 + stressTerms P.d
  · simp only [i2, if_true]
    refine ((hC i).sub_const _).sub ?_
    unfold wt
    split
    · refine ((hQ (i - 2)).const_mul P.s32).congr_deriv (by ring) |>.congr_of_eventuallyEq
        (Filter.Eventually.of_forall fun t => ?_)
      show P.s32 * (C 1 + t * v 1) * _ = P.s32 * ((C 1 + t * v 1) * _)
      ring
    · refine ((hQ (i - 2)).const_mul (2 * P.s32)).congr_deriv (by ring) |>.congr_of_eventuallyEq
        (Filter.Eventually.of_forall fun t => ?_)
      show 2 * P.s32 * (C 1 + t * v 1) * _ = 2 * P.s32 * ((C 1 + t * v 1) * _)
      ring
  · simp only [i2, if_false]
    refine ((hC i).sub_const _).sub ?_
    refine ((hQ (i - 2 - stressTerms P.d)).const_mul (P.s23 * (P.mat Z).H)).congr_of_eventuallyEq
        (Filter.Eventually.of_forall fun t => ?_)
    show P.s23 * (C 1 + t * v 1) * (P.mat Z).H * _ = P.s23 * (P.mat Z).H * ((C 1 + t * v 1) * _)
    ring

end Line

end Plato.J2
