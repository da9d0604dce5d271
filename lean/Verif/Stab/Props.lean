import Verif.Stab.Loop
import Verif.Material.Isotropic
import Verif.Material.Link
import Mathlib.Tactic.LinearCombination

/-!
# C109: stabilised elastostatics and plain elastostatics

Specification: the forces of Hooke's law at the nodes; the volume equation; patch test; rigid motions.
-/

namespace Plato.Stab
open Finset Plato Plato.Mech Plato.Thermal Plato.Plast Plato.Dyn Plato.Material
open Plato.Tm (fluxRow heatRow)

/-! ## Entries of a row -/

theorem idx_inj {m n n' i i' : Nat} (hi : i < m) (hi' : i' < m) : n * m + i = n' * m + i' ↔ n = n' ∧ i = i' := by
  constructor
  · intro h
    have h1 : (n * m + i) / m = (n' * m + i') / m := by rw [h]
    rw [Nat.mul_comm n, Nat.mul_comm n', Nat.mul_add_div (by omega), Nat.mul_add_div (by omega),
      Nat.div_eq_of_lt hi, Nat.div_eq_of_lt hi'] at h1
    have h2 : n = n' := by omega
    subst h2
    omega
  · rintro ⟨rfl, rfl⟩; rfl

theorem single_at {m n n' i i' : Nat} (hi : i < m) (hi' : i' < m) (a : ℝ) :
    (Pi.single (n' * m + i') a : Nat → ℝ) (n * m + i) = if n = n' ∧ i = i' then a else 0 := by
  rw [Pi.single_apply]
  by_cases h : n = n' ∧ i = i'
  · rw [if_pos ((idx_inj hi hi').2 h), if_pos h]
  · rw [if_neg (fun e => h ((idx_inj hi hi').1 e)), if_neg h]

/-- Entry of a sum over directions and nodes. -/
theorem grid_at {d n i : Nat} (hn : n < d + 1) (hi : i < d + 1) (f : Nat → Nat → ℝ) :
    (∑ k ∈ range d, ∑ a ∈ range (d + 1), (Pi.single (a * (d + 1) + k + 0) (f a k) : Nat → ℝ)) (n * (d + 1) + i) =
      if i < d then f n i else 0 := by
  rw [Finset.sum_apply]
  by_cases h : i < d
  · rw [if_pos h, sum_eq_single_of_mem i (mem_range.2 h), Finset.sum_apply, sum_eq_single_of_mem n (mem_range.2 hn),
      add_zero, single_at hi hi, if_pos ⟨rfl, rfl⟩]
    · intro a _ ha
      rw [add_zero, single_at hi hi, if_neg fun e => ha e.1.symm]
    · intro k hk hki
      rw [Finset.sum_apply]
      refine sum_eq_zero fun a _ => ?_
      have := mem_range.1 hk
      rw [add_zero, single_at hi (by omega), if_neg fun e => hki e.2.symm]
  · rw [if_neg h]
    refine sum_eq_zero fun k hk => ?_
    rw [Finset.sum_apply]
    refine sum_eq_zero fun a _ => ?_
    have := mem_range.1 hk
    rw [add_zero, single_at hi (by omega), if_neg fun e => by omega]

/-- Entry of a sum over nodes at the last degree of freedom. -/
theorem last_at {d n i : Nat} (hn : n < d + 1) (hi : i < d + 1) (f : Nat → ℝ) :
    (∑ a ∈ range (d + 1), (Pi.single (a * (d + 1) + d) (f a) : Nat → ℝ)) (n * (d + 1) + i) =
      if i = d then f n else 0 := by
  rw [Finset.sum_apply, sum_eq_single_of_mem n (mem_range.2 hn), single_at hi (by omega)]
  · simp
  · intro a _ ha
    rw [single_at hi (by omega), if_neg fun e => ha e.1.symm]

theorem last_at' {d n i : Nat} (hn : n < d + 1) (hi : i < d + 1) (f : Nat → ℝ) :
    (∑ a ∈ range (d + 1), (Pi.single ((d + 1) * a + d) (f a) : Nat → ℝ)) (n * (d + 1) + i) =
      if i = d then f n else 0 := by
  rw [← last_at hn hi]
  refine congrFun (sum_congr rfl fun a _ => ?_) _
  rw [Nat.mul_comm (d + 1) a]

section Entries
variable (P : Stab ℝ) (fabs pow23 : ℝ → ℝ) (U N Z : Nat → ℝ) (X : Nat → Nat → ℝ)

/-- Deviatoric stress and pressure together. -/
noncomputable def Stab.totalOf (t : Nat) : ℝ := P.devOf U X t + if t < P.d then P.pressOf U else 0

/-- Rows of the displacements: forces of the total stress. -/
theorem solidRow_mom {n i : Nat} (hn : n < P.d + 1) (hi : i < P.d) :
    P.solidRow fabs pow23 U N Z X (n * (P.d + 1) + i) =
      P.volOf fabs X * P.penOf Z * nodalForce P.d (P.totalOf U X) (gradForm P.d X) n i := by
  unfold Stab.solidRow stressRow pressRow fluxRow heatRow
  simp only [Pi.add_apply]
  rw [grid_at hn (by omega), grid_at hn (by omega), last_at hn (by omega), last_at' hn (by omega),
    if_pos hi, if_pos hi,
    if_neg (by omega), if_neg (by omega)]
  unfold nodalForce Stab.totalOf
  have e : ∀ j ∈ range P.d, (P.devOf U X (voigtIndex P.d i j) + if voigtIndex P.d i j < P.d then P.pressOf U else 0) *
      gradForm P.d X n j = P.devOf U X (voigtIndex P.d i j) * gradForm P.d X n j +
        if i = j then P.pressOf U * gradForm P.d X n j else 0 := by
    intro j hj
    have hj := mem_range.1 hj
    by_cases h : i = j
    · subst h
      have : voigtIndex P.d i i = i := if_pos rfl
      rw [this, if_pos hi, if_pos rfl]
      ring
    · have : ¬ voigtIndex P.d i j < P.d := by
        unfold voigtIndex
        rw [if_neg h]
        omega
      rw [if_neg this, if_neg h]
      ring
  rw [sum_congr rfl e, sum_add_distrib, sum_ite_eq, if_pos (mem_range.2 hi), mul_add, mul_sum, mul_sum]
  rw [sum_congr rfl fun j _ => (by ring : P.volOf fabs X * P.penOf Z * (P.devOf U X (voigtIndex P.d i j) *
    gradForm P.d X n j) = 1 * P.volOf fabs X * (P.devOf U X (voigtIndex P.d i j) * P.penOf Z * gradForm P.d X n j))]
  ring

/-- Rows of the pressure. -/
theorem solidRow_press {n : Nat} (hn : n < P.d + 1) :
    P.solidRow fabs pow23 U N Z X (n * (P.d + 1) + P.d) =
      P.volOf fabs X * P.penOf Z * (at0 P.basis n * P.gapOf U X -
        ∑ k ∈ range P.d, P.stabOf fabs pow23 U N X k * gradForm P.d X n k) := by
  unfold Stab.solidRow stressRow pressRow fluxRow heatRow
  simp only [Pi.add_apply]
  rw [grid_at hn (by omega), grid_at hn (by omega), last_at hn (by omega), last_at' hn (by omega),
    if_neg (by omega),
    if_neg (by omega), if_pos rfl, if_pos rfl]
  rw [sum_congr rfl fun k _ => (by ring : -(P.stabOf fabs pow23 U N X k * P.penOf Z) * gradForm P.d X n k =
    -P.penOf Z * (P.stabOf fabs pow23 U N X k * gradForm P.d X n k)), ← mul_sum]
  ring

end Entries

/-! ## Moduli and stress of an isotropic material -/

/-- The material of the residual has stiffness `C`. -/
def Of (P : Stab ℝ) (C : V2 ℝ) : Prop := ∀ i j, i < numVoigt P.d → j < numVoigt P.d → P.stiff i j = C.e i j

section Iso
variable {P : Stab ℝ} (hd : P.d = 2 ∨ P.d = 3) {C : V2 ℝ} (hC : IsStiffness P.d C) (hP : Of P C) {lam mu : ℝ}
  (H : Hooke P.d lam mu C)
include hd hC hP

theorem elasticOf_eq (U : Nat → ℝ) (X : Nat → Nat → ℝ) {t : Nat} (ht : t < numVoigt P.d) :
    P.elasticOf U X t = stress C (P.strainOf U X) t := by
  unfold Stab.elasticOf stress
  rw [hC.cols, ← voigt_eq (.inr hd)]
  exact sum_congr rfl fun s hs => by rw [hP t s ht (mem_range.1 hs), mul_comm]

include H

theorem elasticOf_hooke (U : Nat → ℝ) (X : Nat → Nat → ℝ) {t : Nat} (ht : t < numVoigt P.d) :
    P.elasticOf U X t = if t < P.d then lam * P.divOf U X + 2 * mu * P.strainOf U X t else mu * P.strainOf U X t := by
  rw [elasticOf_eq hd hC hP U X ht, H _ t (by rw [← voigt_eq (.inr hd)]; exact ht)]
  rfl

theorem le_voigt : P.d ≤ numVoigt P.d := by rcases hd with e | e <;> rw [e] <;> decide

theorem entry_hooke {i j : Nat} (hi : i < numVoigt P.d) (hj : j < numVoigt P.d) :
    P.stiff i j = if i < P.d then (if j < P.d then lam else 0) + (if i = j then 2 * mu else 0)
      else if i = j then mu else 0 := by
  rw [hP i j hi hj, entry_eq C (by rw [hC.cols, ← voigt_eq (.inr hd)]; exact hj),
    H _ i (by rw [← voigt_eq (.inr hd)]; exact hi), sum_ite_eq' (range P.d) j fun _ => (1 : ℝ)]
  by_cases h1 : i < P.d <;> by_cases h2 : j < P.d <;> by_cases h3 : i = j <;> simp [h1, h2, h3]

theorem bulk_hooke : P.bulkOf = lam + 2 * mu / P.d := by
  have hdv := le_voigt hd hC hP H
  have hp : 0 < P.d := by omega
  unfold Stab.bulkOf
  rw [sum_congr rfl fun j hj => by
    rw [entry_hooke hd hC hP H (show 0 < numVoigt P.d by omega) ((mem_range.1 hj).trans_le hdv), if_pos hp,
      if_pos (mem_range.1 hj)], sum_add_distrib, sum_ite_eq, if_pos (mem_range.2 hp), sum_const, card_range, nsmul_eq_mul]
  have : (P.d : ℝ) ≠ 0 := by positivity
  field_simp

theorem shear_hooke : P.shearOf = mu := by
  unfold Stab.shearOf
  have hn : P.d < numVoigt P.d := by rcases hd with e | e <;> rw [e] <;> decide
  rw [sum_congr rfl fun j hj => by
    have := mem_range.1 hj
    rw [entry_hooke hd hC hP H (show j + P.d < numVoigt P.d by omega) (show j + P.d < numVoigt P.d by omega),
      if_neg (by omega), if_pos rfl], sum_const, card_range, nsmul_eq_mul]
  have : ((numVoigt P.d - P.d : Nat) : ℝ) ≠ 0 := by
    have : 0 < numVoigt P.d - P.d := by omega
    positivity
  field_simp

/-- Total stress when the volume equation holds. -/
theorem totalOf_hooke {U : Nat → ℝ} {X : Nat → Nat → ℝ} (hp : P.pressOf U = (lam + 2 * mu / P.d) * P.divOf U X)
    {t : Nat} (ht : t < numVoigt P.d) :
    P.totalOf U X t = stress C (P.strainOf U X) t +
      if t < P.d then (1 - P.d / 3) * (lam + 2 * mu / P.d) * P.divOf U X else 0 := by
  have hdv := le_voigt hd hC hP H
  unfold Stab.totalOf Stab.devOf
  rw [elasticOf_eq hd hC hP U X ht]
  by_cases h : t < P.d
  · rw [if_pos h, if_pos h, if_pos h, hp, sum_congr rfl fun k hk => by
      rw [elasticOf_hooke hd hC hP H U X ((mem_range.1 hk).trans_le hdv), if_pos (mem_range.1 hk)], sum_add_distrib,
      sum_const, card_range, nsmul_eq_mul, ← mul_sum, show ∑ k ∈ range P.d, P.strainOf U X k = P.divOf U X from rfl]
    have : (P.d : ℝ) ≠ 0 := by
      have : 0 < P.d := by omega
      positivity
    field_simp
    ring
  · rw [if_neg h, if_neg h, if_neg h]
    ring

end Iso

/-! ## C109 -/

/-- **C109**: the moduli of a Hookean material. -/
theorem C109_moduli (P : Stab ℝ) {C : V2 ℝ} {lam mu : ℝ} (hd : P.d = 2 ∨ P.d = 3) (hC : IsStiffness P.d C)
    (hP : Of P C) (H : Hooke P.d lam mu C) : P.bulk = .ok (lam + 2 * mu / P.d) ∧ P.shear = .ok mu := by
  rw [bulk_ok, shear_ok, bulk_hooke hd hC hP H, shear_hooke hd hC hP H]
  exact ⟨rfl, rfl⟩

/-- Gradients of the basis functions add up to zero. -/
theorem gradForm_sum (d : Nat) (X : Nat → Nat → ℝ) (k : Nat) : ∑ n ∈ range (d + 1), gradForm d X n k = 0 := by
  rw [sum_range_succ]
  unfold gradForm
  rw [if_neg (lt_irrefl d), sum_congr rfl fun n hn => if_pos (mem_range.1 hn), add_neg_cancel]

section
variable (fabs pow23 : ℝ → ℝ) {P : Stab ℝ} (hB : P.basis.length = P.d + 1) {cells : List Nat}
  {state node control : V2 ℝ} {config : V3 ℝ} (hw : SWs P cells.length state node control config)
  (hL : ∀ L ∈ P.bodyLoads, L.Ok P.d (P.d + 1) cells) {sched : Nat → List Nat}
  (hs : ∀ k, IsSchedule (sched k) cells.length) (init : Nat → Nat → Nat) {result : V2 ℝ}
  (hr0 : cells.length ≤ result.d0) (hr1 : (P.d + 1) * (P.d + 1) ≤ result.d1)

/-- The change of volume that the displacements of cell `c` cause is the one that its pressure asks for. -/
def Balanced (P : Stab ℝ) (K : ℝ) (U : Nat → ℝ) (X : Nat → Nat → ℝ) : Prop := P.pressOf U = K * P.divOf U X

/-- The gradient of the pressure of the cell is the projected one. -/
def Projected (P : Stab ℝ) (U N : Nat → ℝ) (X : Nat → Nat → ℝ) : Prop :=
  ∀ k, k < P.d → P.projOf N k = P.kappa * P.pgradOf U X k

include hB hw hL hs hr0 hr1

/-- **C109** in space: with a Hookean material, in a cell whose pressure is the bulk modulus times the change of
volume, the rows of the displacements receive the forces of the stress of Hooke's law times penalty and volume, and
the body loads.  For every mesh, every order of the loops, every other cell. -/
theorem C109_space (h3 : P.d = 3) {C : V2 ℝ} (hC : IsStiffness 3 C) (hP : Of P C) {lam mu : ℝ}
    (H : Hooke 3 lam mu C) :
    ∃ y, P.evaluate fabs pow23 init sched cells state node control config result = .ok y ∧
      ∀ c, c < cells.length → Balanced P (lam + 2 * mu / 3) (state.e c) (config.e c) →
        ∀ n i, n < 4 → i < 3 → y.e c (n * 4 + i) = result.e c (n * 4 + i) +
          P.volOf fabs (config.e c) * P.penOf (control.e c) *
            nodalForce 3 (stress C (P.strainOf (state.e c) (config.e c))) (gradForm 3 (config.e c)) n i +
          P.loadRow c (atN cells c) (control.e c) (n * 4 + i) := by
  refine ⟨_, evaluate_ok fabs pow23 (.inr h3) hB hw hL hs init hr0 hr1, fun c hc hbal n i hn hi => ?_⟩
  have key := solidRow_mom P fabs pow23 (state.e c) (node.e c) (control.e c) (config.e c) (n := n) (i := i)
    (by omega) (by omega)
  unfold addRows
  dsimp only
  rw [if_pos hc, Pi.add_apply, Pi.add_apply, ← add_assoc]
  congr 2
  rw [h3] at key
  rw [show n * 4 + i = n * (3 + 1) + i from rfl, key]
  congr 1
  refine nodalForce_congr (.inr (.inr rfl)) hi (fun t ht => ?_) fun j _ => rfl
  rw [totalOf_hooke (.inr h3) (by rw [h3]; exact hC) hP (by rw [h3]; exact H) (by rw [h3]; exact_mod_cast hbal)
    (by rw [h3]; exact ht), h3]
  split_ifs <;> norm_num

/-- **C109**: in a cell with balanced volume whose pressure gradient is the projected one, the rows of the pressure
receive nothing but the loads. -/
theorem C109_pressure (hd : P.d = 2 ∨ P.d = 3) (hK : P.bulkOf ≠ 0) :
    ∃ y, P.evaluate fabs pow23 init sched cells state node control config result = .ok y ∧
      ∀ c, c < cells.length → Balanced P P.bulkOf (state.e c) (config.e c) →
        Projected P (state.e c) (node.e c) (config.e c) →
        ∀ n, n < P.d + 1 → y.e c (n * (P.d + 1) + P.d) = result.e c (n * (P.d + 1) + P.d) +
          P.loadRow c (atN cells c) (control.e c) (n * (P.d + 1) + P.d) := by
  refine ⟨_, evaluate_ok fabs pow23 hd hB hw hL hs init hr0 hr1, fun c hc hbal hpr n hn => ?_⟩
  unfold addRows
  dsimp only
  rw [if_pos hc, Pi.add_apply, Pi.add_apply, solidRow_press P fabs pow23 _ _ _ _ hn]
  have h1 : P.gapOf (state.e c) (config.e c) = 0 := by
    unfold Stab.gapOf
    rw [show P.pressOf (state.e c) = P.bulkOf * P.divOf (state.e c) (config.e c) from hbal, mul_div_cancel_left₀ _ hK]
    ring
  have h2 : ∀ k ∈ range P.d, P.stabOf fabs pow23 (state.e c) (node.e c) (config.e c) k *
      gradForm P.d (config.e c) n k = 0 := by
    intro k hk
    unfold Stab.stabOf
    rw [hpr k (mem_range.1 hk)]
    ring
  rw [h1, sum_eq_zero h2]
  ring

/-- **C109 in the plane** is about another material: with balanced volume the rows of the displacements receive the
forces of Hooke's law and in addition a third of the plane bulk modulus `λ + μ` times the change of volume as
pressure. -/
theorem C109_plane_partial (h2 : P.d = 2) {C : V2 ℝ} (hC : IsStiffness 2 C) (hP : Of P C) {lam mu : ℝ}
    (H : Hooke 2 lam mu C) :
    P.bulkOf = lam + mu ∧
    ∃ y, P.evaluate fabs pow23 init sched cells state node control config result = .ok y ∧
      ∀ c, c < cells.length → Balanced P (lam + mu) (state.e c) (config.e c) →
        ∀ n i, n < 3 → i < 2 → y.e c (n * 3 + i) = result.e c (n * 3 + i) +
          P.volOf fabs (config.e c) * P.penOf (control.e c) *
            (nodalForce 2 (stress C (P.strainOf (state.e c) (config.e c))) (gradForm 2 (config.e c)) n i +
              (lam + mu) / 3 * P.divOf (state.e c) (config.e c) * gradForm 2 (config.e c) n i) +
          P.loadRow c (atN cells c) (control.e c) (n * 3 + i) := by
  have hb := bulk_hooke (.inl h2) (by rw [h2]; exact hC) hP (by rw [h2]; exact H)
  refine ⟨by rw [hb, h2]; push_cast; ring, _, evaluate_ok fabs pow23 (.inl h2) hB hw hL hs init hr0 hr1,
    fun c hc hbal n i hn hi => ?_⟩
  have key := solidRow_mom P fabs pow23 (state.e c) (node.e c) (control.e c) (config.e c) (n := n) (i := i)
    (by omega) (by omega)
  unfold addRows
  dsimp only
  rw [if_pos hc, Pi.add_apply, Pi.add_apply, ← add_assoc]
  congr 2
  rw [h2] at key
  rw [show n * 3 + i = n * (2 + 1) + i from rfl, key]
  congr 1
  rw [nodalForce_congr (.inr (.inl rfl)) hi (fun t ht => totalOf_hooke (.inl h2) (by rw [h2]; exact hC) hP
    (by rw [h2]; exact H) (by
      rw [h2]; push_cast
      rw [show lam + 2 * mu / 2 = lam + mu by ring]; exact hbal) (by rw [h2]; exact ht)) fun j _ => rfl]
  unfold nodalForce
  rw [h2]
  simp only [sum_range_succ, sum_range_zero]
  interval_cases i <;> simp [voigtIndex] <;> ring

/-- **C109**: rigid motions without pressure cause no forces. -/
theorem C109_rigid (hd : P.d = 2 ∨ P.d = 3) :
    ∃ y, P.evaluate fabs pow23 init sched cells state node control config result = .ok y ∧
      ∀ c, c < cells.length → detForm P.d (config.e c) ≠ 0 →
        (∃ (b : Nat → ℝ) (S : Nat → Nat → ℝ), (∀ i j, S i j = -S j i) ∧
          (∀ n i, n < P.d + 1 → i < P.d →
            state.e c (n * (P.d + 1) + i) = b i + ∑ j ∈ range P.d, S i j * config.e c n j)) →
        (∀ n, n < P.d + 1 → state.e c (n * (P.d + 1) + P.d) = 0) →
        (∀ l, l < (P.d + 1) * P.d → node.e c l = 0) →
        ∀ l, l < (P.d + 1) * (P.d + 1) → y.e c l = result.e c l + P.loadRow c (atN cells c) (control.e c) l := by
  refine ⟨_, evaluate_ok fabs pow23 hd hB hw hL hs init hr0 hr1, fun c hc hdet ⟨b, S, hS, hU⟩ hp hN l hl => ?_⟩
  unfold addRows
  dsimp only
  rw [if_pos hc, Pi.add_apply, Pi.add_apply]
  have hd' : P.d = 1 ∨ P.d = 2 ∨ P.d = 3 := .inr hd
  have hR := gradForm_reproduces hd' (config.e c) (by rwa [← detForm_eq hd'])
  have hf : ∀ i k, i < P.d → k < P.d → fieldGrad P.d (fun n i => state.e c (n * (P.d + 1) + i))
      (gradForm P.d (config.e c)) i k = S i k := by
    intro i k hi hk
    have := hR (b i) (fun j => S i j) ⟨k, hk⟩
    rw [← show _ = S i k from this, fieldGrad, sum_range]
    refine sum_congr rfl fun n _ => ?_
    rw [hU n i n.2 hi, sum_range]
    rfl
  have h0 : ∀ s, P.strainOf (state.e c) (config.e c) s = 0 := by
    intro s
    obtain ⟨h1, h2⟩ := voigtPair_lt hd' (t := s)
    unfold Stab.strainOf voigtStrain
    rw [hf _ _ h1 h1, hf _ _ h1 h2, hf _ _ h2 h1]
    split_ifs with e
    · have := hS (voigtPair P.d s).1 (voigtPair P.d s).1
      linarith
    · rw [hS]; ring
  have hpr : P.pressOf (state.e c) = 0 := by
    unfold Stab.pressOf interp
    rw [sum_eq_zero, zero_mul]
    intro n hn
    dsimp only
    rw [Nat.mul_comm (P.d + 1) n, hp n (mem_range.1 hn), mul_zero]
  have hdv : P.divOf (state.e c) (config.e c) = 0 := sum_eq_zero fun k _ => h0 k
  have hel : ∀ t, P.elasticOf (state.e c) (config.e c) t = 0 := fun t =>
    sum_eq_zero fun s _ => by rw [h0, zero_mul]
  have hst : ∀ k, k < P.d → P.stabOf fabs pow23 (state.e c) (node.e c) (config.e c) k = 0 := by
    intro k hk
    have e1 : P.pgradOf (state.e c) (config.e c) k = 0 := by
      unfold Stab.pgradOf scalarField
      exact sum_eq_zero fun n hn => by dsimp only; rw [hp n (mem_range.1 hn), zero_mul]
    have e2 : P.projOf (node.e c) k = 0 := by
      unfold Stab.projOf interp
      refine sum_eq_zero fun n hn => ?_
      have := dof_lt (d := P.d) (ndof := P.d) (i := k) (mem_range.1 hn) hk
      dsimp only
      rw [hN _ (by rw [Nat.mul_comm P.d n]; omega), mul_zero]
    unfold Stab.stabOf
    rw [e1, e2]
    ring
  have hq := Nat.mod_lt l (show 0 < P.d + 1 by omega)
  have hn : l / (P.d + 1) < P.d + 1 := Nat.div_lt_of_lt_mul hl
  have hl' : l = l / (P.d + 1) * (P.d + 1) + l % (P.d + 1) := (Nat.div_add_mod' l (P.d + 1)).symm
  have key : P.solidRow fabs pow23 (state.e c) (node.e c) (control.e c) (config.e c) l = 0 := by
    by_cases hlt : l % (P.d + 1) < P.d
    · rw [hl', solidRow_mom P fabs pow23 _ _ _ _ hn hlt]
      unfold nodalForce
      rw [sum_eq_zero, mul_zero]
      intro j _
      unfold Stab.totalOf Stab.devOf
      rw [hel, sum_eq_zero fun k _ => hel k, hpr]
      simp
    · rw [hl', show l % (P.d + 1) = P.d by omega, solidRow_press P fabs pow23 _ _ _ _ hn,
        sum_eq_zero fun k hk => by rw [hst k (mem_range.1 hk), zero_mul]]
      unfold Stab.gapOf
      rw [hdv, hpr]
      simp
  rw [key, zero_add]

/-- **C109**: the rows of the displacements of a cell add up to the loads, whatever displacements and pressures. -/
theorem C109_equilibrium (hd : P.d = 2 ∨ P.d = 3) :
    ∃ y, P.evaluate fabs pow23 init sched cells state node control config result = .ok y ∧
      ∀ c, c < cells.length → ∀ i, i < P.d →
        ∑ n ∈ range (P.d + 1), y.e c (n * (P.d + 1) + i) = ∑ n ∈ range (P.d + 1), (result.e c (n * (P.d + 1) + i) +
          P.loadRow c (atN cells c) (control.e c) (n * (P.d + 1) + i)) := by
  refine ⟨_, evaluate_ok fabs pow23 hd hB hw hL hs init hr0 hr1, fun c hc i hi => ?_⟩
  unfold addRows
  dsimp only
  rw [if_pos hc]
  have e : ∀ n ∈ range (P.d + 1), (result.e c + (P.solidRow fabs pow23 (state.e c) (node.e c) (control.e c)
      (config.e c) + P.loadRow c (atN cells c) (control.e c))) (n * (P.d + 1) + i) =
      (result.e c (n * (P.d + 1) + i) + P.loadRow c (atN cells c) (control.e c) (n * (P.d + 1) + i)) +
        P.volOf fabs (config.e c) * P.penOf (control.e c) * nodalForce P.d (P.totalOf (state.e c) (config.e c))
          (gradForm P.d (config.e c)) n i := by
    intro n hn
    rw [Pi.add_apply, Pi.add_apply, solidRow_mom P fabs pow23 _ _ _ _ (mem_range.1 hn) hi]
    ring
  rw [sum_congr rfl e, sum_add_distrib, ← mul_sum]
  have z : ∑ n ∈ range (P.d + 1), nodalForce P.d (P.totalOf (state.e c) (config.e c)) (gradForm P.d (config.e c)) n i = 0 := by
    unfold nodalForce
    rw [sum_comm]
    refine sum_eq_zero fun j _ => ?_
    rw [← mul_sum, gradForm_sum, mul_zero]
  rw [z, mul_zero, add_zero]

/-- **C109**: the rows of the pressure of a cell add up to volume, penalty and pressure scaling times the difference of
the change of volume and the pressure over the bulk modulus: the stabilisation neither adds nor removes volume. -/
theorem C109_volume (hd : P.d = 2 ∨ P.d = 3) (hsum : ∑ n ∈ range (P.d + 1), at0 P.basis n = 1) :
    ∃ y, P.evaluate fabs pow23 init sched cells state node control config result = .ok y ∧
      ∀ c, c < cells.length →
        ∑ n ∈ range (P.d + 1), y.e c (n * (P.d + 1) + P.d) =
          ∑ n ∈ range (P.d + 1), (result.e c (n * (P.d + 1) + P.d) +
            P.loadRow c (atN cells c) (control.e c) (n * (P.d + 1) + P.d)) +
          P.volOf fabs (config.e c) * P.penOf (control.e c) *
            (P.kappa * (P.divOf (state.e c) (config.e c) - P.pressOf (state.e c) / P.bulkOf)) := by
  refine ⟨_, evaluate_ok fabs pow23 hd hB hw hL hs init hr0 hr1, fun c hc => ?_⟩
  unfold addRows
  dsimp only
  rw [if_pos hc]
  have e : ∀ n ∈ range (P.d + 1), (result.e c + (P.solidRow fabs pow23 (state.e c) (node.e c) (control.e c)
      (config.e c) + P.loadRow c (atN cells c) (control.e c))) (n * (P.d + 1) + P.d) =
      (result.e c (n * (P.d + 1) + P.d) + P.loadRow c (atN cells c) (control.e c) (n * (P.d + 1) + P.d)) +
        P.volOf fabs (config.e c) * P.penOf (control.e c) * (at0 P.basis n * P.gapOf (state.e c) (config.e c) -
        ∑ k ∈ range P.d, P.stabOf fabs pow23 (state.e c) (node.e c) (config.e c) k * gradForm P.d (config.e c) n k) := by
    intro n hn
    rw [Pi.add_apply, Pi.add_apply, solidRow_press P fabs pow23 _ _ _ _ (mem_range.1 hn)]
    ring
  have z : ∑ n ∈ range (P.d + 1), ∑ k ∈ range P.d, P.stabOf fabs pow23 (state.e c) (node.e c) (config.e c) k *
      gradForm P.d (config.e c) n k = 0 := by
    rw [sum_comm]
    refine sum_eq_zero fun k _ => ?_
    rw [← mul_sum, gradForm_sum, mul_zero]
  rw [sum_congr rfl e, sum_add_distrib, ← mul_sum, sum_sub_distrib, ← sum_mul, hsum, one_mul, z, sub_zero]
  rfl

/-- **C109, stability**: without projected gradient, the rows of the pressure weighted with the pressures of the nodes
add up to the work of the pressure on the change of volume less the energy of the pressure and less a multiple of the
squared gradient of the pressure that is not negative: the stabilisation damps.  In particular the sum is negative for
displacements without change of volume unless the pressure and its gradient are zero. -/
theorem C109_stable (hd : P.d = 2 ∨ P.d = 3) :
    ∃ y, P.evaluate fabs pow23 init sched cells state node control config result = .ok y ∧
      ∀ c, c < cells.length → (∀ l, l < (P.d + 1) * P.d → node.e c l = 0) →
        ∃ E, E = ∑ n ∈ range (P.d + 1), state.e c (n * (P.d + 1) + P.d) * (y.e c (n * (P.d + 1) + P.d) -
            result.e c (n * (P.d + 1) + P.d) - P.loadRow c (atN cells c) (control.e c) (n * (P.d + 1) + P.d)) ∧
          E = P.volOf fabs (config.e c) * P.penOf (control.e c) *
            (P.pressOf (state.e c) * P.divOf (state.e c) (config.e c) - P.pressOf (state.e c) ^ 2 / P.bulkOf -
              P.kappa ^ 2 * pow23 (P.volOf fabs (config.e c)) / (2 * P.shearOf) *
                ∑ k ∈ range P.d, P.pgradOf (state.e c) (config.e c) k ^ 2) ∧
          (0 < P.volOf fabs (config.e c) → 0 < P.penOf (control.e c) → 0 < P.bulkOf → 0 < P.shearOf → P.kappa ≠ 0 →
            0 < pow23 (P.volOf fabs (config.e c)) → P.divOf (state.e c) (config.e c) = 0 →
            E ≤ 0 ∧ (E = 0 → P.pressOf (state.e c) = 0 ∧
              ∀ k, k < P.d → P.pgradOf (state.e c) (config.e c) k = 0)) := by
  refine ⟨_, evaluate_ok fabs pow23 hd hB hw hL hs init hr0 hr1, fun c hc hN => ⟨_, rfl, ?_⟩⟩
  unfold addRows
  dsimp only
  rw [if_pos hc]
  have hpr : ∀ k, k < P.d → P.projOf (node.e c) k = 0 := by
    intro k hk
    unfold Stab.projOf interp
    refine sum_eq_zero fun n hn => ?_
    have : P.d * n + 0 + k < (P.d + 1) * P.d := by
      have := mem_range.1 hn
      have : P.d * n ≤ P.d * P.d := Nat.mul_le_mul_left _ (by omega)
      have : (P.d + 1) * P.d = P.d * P.d + P.d := by ring
      omega
    dsimp only
    rw [hN _ this, mul_zero]
  have e : ∀ n ∈ range (P.d + 1), state.e c (n * (P.d + 1) + P.d) * ((result.e c + (P.solidRow fabs pow23 (state.e c)
      (node.e c) (control.e c) (config.e c) + P.loadRow c (atN cells c) (control.e c))) (n * (P.d + 1) + P.d) -
      result.e c (n * (P.d + 1) + P.d) - P.loadRow c (atN cells c) (control.e c) (n * (P.d + 1) + P.d)) =
      P.volOf fabs (config.e c) * P.penOf (control.e c) * ((at0 P.basis n * state.e c (n * (P.d + 1) + P.d)) *
        P.gapOf (state.e c) (config.e c) - ∑ k ∈ range P.d, P.stabOf fabs pow23 (state.e c) (node.e c) (config.e c) k *
          (state.e c (n * (P.d + 1) + P.d) * gradForm P.d (config.e c) n k)) := by
    intro n hn
    rw [Pi.add_apply, Pi.add_apply, solidRow_press P fabs pow23 _ _ _ _ (mem_range.1 hn)]
    have : ∑ k ∈ range P.d, P.stabOf fabs pow23 (state.e c) (node.e c) (config.e c) k *
          (state.e c (n * (P.d + 1) + P.d) * gradForm P.d (config.e c) n k) =
        state.e c (n * (P.d + 1) + P.d) * ∑ k ∈ range P.d, P.stabOf fabs pow23 (state.e c) (node.e c) (config.e c) k *
          gradForm P.d (config.e c) n k := by
      rw [mul_sum]
      exact sum_congr rfl fun k _ => by ring
    rw [this]
    ring
  have hp : (∑ n ∈ range (P.d + 1), at0 P.basis n * state.e c (n * (P.d + 1) + P.d)) * P.kappa =
      P.pressOf (state.e c) := by
    unfold Stab.pressOf interp
    congr 1
    exact sum_congr rfl fun n _ => by rw [Nat.mul_comm n]
  have hg : ∑ n ∈ range (P.d + 1), ∑ k ∈ range P.d, P.stabOf fabs pow23 (state.e c) (node.e c) (config.e c) k *
      (state.e c (n * (P.d + 1) + P.d) * gradForm P.d (config.e c) n k) =
      P.kappa ^ 2 * pow23 (P.volOf fabs (config.e c)) / (2 * P.shearOf) *
        ∑ k ∈ range P.d, P.pgradOf (state.e c) (config.e c) k ^ 2 := by
    rw [sum_comm, mul_sum]
    refine sum_congr rfl fun k hk => ?_
    rw [← mul_sum]
    have : ∑ n ∈ range (P.d + 1), state.e c (n * (P.d + 1) + P.d) * gradForm P.d (config.e c) n k =
        P.pgradOf (state.e c) (config.e c) k := by
      unfold Stab.pgradOf scalarField
      exact sum_congr rfl fun n _ => by ring
    rw [this]
    unfold Stab.stabOf
    rw [hpr k (mem_range.1 hk)]
    ring
  have key := sum_congr rfl e
  rw [← mul_sum, sum_sub_distrib, ← sum_mul, hg] at key
  have hgap : (∑ n ∈ range (P.d + 1), at0 P.basis n * state.e c (n * (P.d + 1) + P.d)) *
      P.gapOf (state.e c) (config.e c) = P.pressOf (state.e c) * P.divOf (state.e c) (config.e c) -
        P.pressOf (state.e c) ^ 2 / P.bulkOf := by
    unfold Stab.gapOf
    rw [← mul_assoc, hp]
    ring
  rw [hgap] at key
  refine ⟨key, fun hv hpen hK hG hk ht hdiv => ?_⟩
  rw [key, hdiv]
  have hS : 0 ≤ ∑ k ∈ range P.d, P.pgradOf (state.e c) (config.e c) k ^ 2 := sum_nonneg fun k _ => sq_nonneg _
  have hcoef : 0 < P.kappa ^ 2 * pow23 (P.volOf fabs (config.e c)) / (2 * P.shearOf) := by positivity
  have h1 : 0 ≤ P.pressOf (state.e c) ^ 2 / P.bulkOf := by positivity
  have h2 := mul_nonneg hcoef.le hS
  have h3 : 0 < P.volOf fabs (config.e c) * P.penOf (control.e c) := mul_pos hv hpen
  constructor
  · exact mul_nonpos_of_nonneg_of_nonpos h3.le (by linarith)
  · intro h0
    have h0 := (mul_eq_zero.1 h0).resolve_left h3.ne'
    have a1 : P.pressOf (state.e c) ^ 2 / P.bulkOf = 0 := by linarith
    have a2 : P.kappa ^ 2 * pow23 (P.volOf fabs (config.e c)) / (2 * P.shearOf) *
      ∑ k ∈ range P.d, P.pgradOf (state.e c) (config.e c) k ^ 2 = 0 := by linarith
    refine ⟨?_, fun k hk => ?_⟩
    · have := (div_eq_zero_iff.1 a1).resolve_right hK.ne'
      exact pow_eq_zero_iff (two_ne_zero) |>.1 this
    · have := (mul_eq_zero.1 a2).resolve_left hcoef.ne'
      have := (sum_eq_zero_iff_of_nonneg fun k _ => sq_nonneg _).1 this k (mem_range.2 hk)
      exact pow_eq_zero_iff (two_ne_zero) |>.1 this

/-- **C109, patch test** in space: displacements `b + A x`, the same pressure `p` at all nodes with `κ p` equal to the
bulk modulus times the trace of `A`, no projected gradient.  The rows of the displacements receive the forces of the
uniform stress of Hooke's law, those of the pressure nothing. -/
theorem C109_patch (h3 : P.d = 3) {C : V2 ℝ} (hC : IsStiffness 3 C) (hP : Of P C) {lam mu : ℝ}
    (H : Hooke 3 lam mu C) (hK : lam + 2 * mu / 3 ≠ 0) (hsum : ∑ n ∈ range 4, at0 P.basis n = 1) :
    ∃ y, P.evaluate fabs pow23 init sched cells state node control config result = .ok y ∧
      ∀ c, c < cells.length → detForm 3 (config.e c) ≠ 0 → ∀ (b : Nat → ℝ) (A : Nat → Nat → ℝ) (p : ℝ),
        (∀ n i, n < 4 → i < 3 → state.e c (n * 4 + i) = b i + ∑ j ∈ range 3, A i j * config.e c n j) →
        (∀ n, n < 4 → state.e c (n * 4 + 3) = p) → p * P.kappa = (lam + 2 * mu / 3) * (A 0 0 + A 1 1 + A 2 2) →
        (∀ l, l < 12 → node.e c l = 0) →
        (∀ n i, n < 4 → i < 3 → y.e c (n * 4 + i) = result.e c (n * 4 + i) +
          P.volOf fabs (config.e c) * P.penOf (control.e c) *
            ∑ j ∈ range 3, ((if i = j then lam * (A 0 0 + A 1 1 + A 2 2) else 0) + mu * (A i j + A j i)) *
              gradForm 3 (config.e c) n j +
          P.loadRow c (atN cells c) (control.e c) (n * 4 + i)) ∧
        ∀ n, n < 4 → y.e c (n * 4 + 3) = result.e c (n * 4 + 3) +
          P.loadRow c (atN cells c) (control.e c) (n * 4 + 3) := by
  obtain ⟨y, ey, hy⟩ := C109_space fabs pow23 hB hw hL hs init hr0 hr1 h3 hC hP H
  have hb := bulk_hooke (.inr h3) (by rw [h3]; exact hC) hP (by rw [h3]; exact H)
  rw [h3] at hb
  push_cast at hb
  obtain ⟨y', ey', hy'⟩ := C109_pressure fabs pow23 hB hw hL hs init hr0 hr1 (.inr h3) (by rw [hb]; exact hK)
  have : y' = y := by rw [ey] at ey'; exact (Res.ok.inj ey').symm
  subst this
  refine ⟨y', ey, fun c hc hdet b A p hU hp hpK hN => ?_⟩
  have hd' : (3 : Nat) = 1 ∨ (3 : Nat) = 2 ∨ (3 : Nat) = 3 := .inr (.inr rfl)
  have hR := gradForm_reproduces hd' (config.e c) (by rwa [← detForm_eq hd'])
  have hf : ∀ i k, i < 3 → k < 3 → fieldGrad 3 (fun n i => state.e c (n * (3 + 1) + i))
      (gradForm 3 (config.e c)) i k = A i k := by
    intro i k hi hk
    have := hR (b i) (fun j => A i j) ⟨k, hk⟩
    rw [← show _ = A i k from this, fieldGrad, sum_range]
    refine sum_congr rfl fun n _ => ?_
    rw [hU n i n.2 hi, sum_range]
    rfl
  have hst : ∀ s, P.strainOf (state.e c) (config.e c) s = if (voigtPair 3 s).1 = (voigtPair 3 s).2 then
      A (voigtPair 3 s).1 (voigtPair 3 s).1 else
      A (voigtPair 3 s).1 (voigtPair 3 s).2 + A (voigtPair 3 s).2 (voigtPair 3 s).1 := by
    intro s
    obtain ⟨h1, h2⟩ := voigtPair_lt hd' (t := s)
    unfold Stab.strainOf voigtStrain
    rw [h3, hf _ _ h1 h1, hf _ _ h1 h2, hf _ _ h2 h1]
  have hdv : P.divOf (state.e c) (config.e c) = A 0 0 + A 1 1 + A 2 2 := by
    unfold Stab.divOf
    rw [h3]
    simp [sum_range_succ, hst, voigtPair]
  have hpr : P.pressOf (state.e c) = p * P.kappa := by
    unfold Stab.pressOf interp
    rw [h3]
    have e : ∀ n ∈ range (3 + 1), at0 P.basis n * state.e c ((3 + 1) * n + 3) = at0 P.basis n * p := by
      intro n hn
      rw [Nat.mul_comm (3 + 1) n, hp n (mem_range.1 hn)]
    dsimp only
    rw [sum_congr rfl e, ← sum_mul, hsum, one_mul]
  have hpg : ∀ k, k < 3 → P.pgradOf (state.e c) (config.e c) k = 0 := by
    intro k hk
    unfold Stab.pgradOf scalarField
    rw [h3]
    have e : ∀ n ∈ range (3 + 1), state.e c (n * (3 + 1) + 3) * gradForm 3 (config.e c) n k =
        p * gradForm 3 (config.e c) n k := by
      intro n hn
      rw [hp n (mem_range.1 hn)]
    dsimp only
    rw [sum_congr rfl e, ← mul_sum, gradForm_sum, mul_zero]
  have hpj : ∀ k, k < 3 → P.projOf (node.e c) k = 0 := by
    intro k hk
    unfold Stab.projOf interp
    rw [h3]
    refine sum_eq_zero fun n hn => ?_
    have := mem_range.1 hn
    dsimp only
    rw [hN _ (by omega), mul_zero]
  constructor
  · intro n i hn hi
    rw [hy c hc (by unfold Balanced; rw [hpr, hdv, hpK]) n i hn hi]
    congr 3
    unfold nodalForce
    refine sum_congr rfl fun j hj => ?_
    have hj := mem_range.1 hj
    rw [H _ _ (show voigtIndex 3 i j < 6 from voigtIndex_lt hd' hi hj)]
    simp only [hst, sum_range_succ, sum_range_zero]
    congr 1
    interval_cases i <;> interval_cases j <;>
      simp [voigtIndex, voigtPair, -mul_eq_mul_left_iff, -mul_eq_mul_right_iff] <;> ring
  · intro n hn
    have := hy' c hc (by unfold Balanced; rw [hpr, hdv, hpK, hb]) (by
      intro k hk
      rw [h3] at hk
      rw [hpj k hk, hpg k hk, mul_zero]) n (by omega)
    rw [h3] at this
    exact this

end

end Plato.Stab
