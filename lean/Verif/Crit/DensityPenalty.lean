import Verif.Crit.DensityPenaltyModel
import Verif.Crit.General
import Verif.Simplex.Cubature

/-!
# C113: penalty of intermediate densities
-/

namespace Plato.Crit
open Finset Plato

/-- Mean density of a cell of `npc` nodes. -/
noncomputable def mean (npc : Nat) (Z : Nat → ℝ) : ℝ := (∑ j ∈ range npc, Z j) / npc

theorem massForm_mean (d : Nat) (Z : Nat → ℝ) :
    massForm (d + 1) (List.replicate (d + 1) (1 / (d + 1 : ℝ))) Z = mean (d + 1) Z := by
  have hb : ∀ i, i < d + 1 → at0 (List.replicate (d + 1) (1 / (d + 1 : ℝ))) i = 1 / (d + 1 : ℝ) := by
    intro i hi
    simp [at0, hi]
  have hd : (d + 1 : ℝ) ≠ 0 := by positivity
  unfold massForm mean
  have e : ∀ i ∈ range (d + 1), ∑ j ∈ range (d + 1), at0 (List.replicate (d + 1) (1 / (d + 1 : ℝ))) i *
      at0 (List.replicate (d + 1) (1 / (d + 1 : ℝ))) j * Z j = 1 / (d + 1 : ℝ) * (1 / (d + 1 : ℝ)) * ∑ j ∈ range (d + 1), Z j := by
    intro i hi
    rw [mul_sum]
    refine sum_congr rfl fun j hj => ?_
    rw [hb i (mem_range.1 hi), hb j (mem_range.1 hj)]
  rw [sum_congr rfl e, sum_const, card_range, nsmul_eq_mul]
  push_cast
  field_simp

section
variable {d : Nat} (hd : d = 1 ∨ d = 2 ∨ d = 3) (A : ℝ) {nc : Nat} {order : List Nat} (hs : IsSchedule order nc)
  {control : V2 ℝ} (h0 : control.d0 = nc) (h1 : d + 1 ≤ control.d1) {r0 : List ℝ} (hr : r0.length = nc)
include hd hs h0 h1 hr

/-- **C113, value**: for every schedule the entry of every cell is the penalty of its mean density; what the entries
held before does not matter. -/
theorem C113_value : (densityPenalty d A order control r0).Sat fun r => r.length = nc ∧ ∀ c, c < nc →
    at0 r c = A / 2 * (1 - Real.cos (2 * Real.pi * mean (d + 1) (control.e c))) := by
  obtain ⟨rule, er, -, -, hb⟩ := C21_degree_one hd
  unfold densityPenalty
  rw [er, Res.ok_bind]
  refine (parFor_sched hs (fun D r => r.length = nc ∧ ∀ c ∈ D,
    at0 r c = A / 2 * (1 - Real.cos (2 * Real.pi * mean (d + 1) (control.e c)))) ⟨hr, by simp⟩ ?_).mono ?_
  · rintro D c r hc hD - ⟨i1, i2⟩
    unfold densityPenaltyCell
    rw [cellMass_ok (by rw [hb, List.length_replicate]) (by omega) h1, Res.ok_bind, hb, massForm_mean,
      wr_eq (by omega), Res.sat_ok]
    refine ⟨by rw [List.length_set]; exact i1, fun q hq => ?_⟩
    rw [at0_set (by omega)]
    by_cases h : q = c
    · rw [if_pos h, h]
    · rw [if_neg h]
      exact i2 q ((mem_insert.1 hq).resolve_left h)
  · rintro r ⟨i1, i2⟩
    exact ⟨i1, fun c hc => i2 c (mem_range.2 hc)⟩

/-- **C113, bounds**: between zero and the amplitude, which cells of mean density one half have. -/
theorem C113_bounds (hA : 0 ≤ A) : (densityPenalty d A order control r0).Sat fun r => ∀ c, c < nc →
    0 ≤ at0 r c ∧ at0 r c ≤ A ∧ (mean (d + 1) (control.e c) = 1 / 2 → at0 r c = A) := by
  refine (C113_value hd A hs h0 h1 hr).mono fun r ⟨_, h⟩ c hc => ?_
  rw [h c hc]
  have a := Real.cos_le_one (2 * Real.pi * mean (d + 1) (control.e c))
  have b := Real.neg_one_le_cos (2 * Real.pi * mean (d + 1) (control.e c))
  refine ⟨by nlinarith, by nlinarith, fun hm => ?_⟩
  rw [hm, show 2 * Real.pi * (1 / 2) = Real.pi by ring, Real.cos_pi]
  ring

/-- **C113, symmetry**: exchange of material and void does not change the penalty. -/
theorem C113_symmetric {flipped : V2 ℝ} (f0 : flipped.d0 = nc) (f1 : d + 1 ≤ flipped.d1)
    (hf : ∀ c j, c < nc → j < d + 1 → flipped.e c j = 1 - control.e c j) {order' : List Nat} (hs' : IsSchedule order' nc) :
    (densityPenalty d A order control r0).Sat fun r => (densityPenalty d A order' flipped r0).Sat fun r' =>
      ∀ c, c < nc → at0 r' c = at0 r c := by
  refine (C113_value hd A hs h0 h1 hr).mono fun r ⟨_, h⟩ => (C113_value hd A hs' f0 f1 hr).mono fun r' ⟨_, h'⟩ c hc => ?_
  rw [h c hc, h' c hc]
  have e : mean (d + 1) (flipped.e c) = 1 - mean (d + 1) (control.e c) := by
    unfold mean
    rw [sum_congr rfl fun j hj => hf c j hc (mem_range.1 hj), sum_sub_distrib, sum_const, card_range, nsmul_eq_mul, mul_one]
    have : ((d + 1 : Nat) : ℝ) ≠ 0 := by positivity
    field_simp
  rw [e, show 2 * Real.pi * (1 - mean (d + 1) (control.e c)) =
    2 * Real.pi - 2 * Real.pi * mean (d + 1) (control.e c) by ring, Real.cos_two_pi_sub]

/-- **C113, zeros**: of cells with densities between zero and one, those whose nodes are all void or all solid, and no
others, have no penalty. -/
theorem C113_zero (hA : 0 < A) (hz : ∀ c j, c < nc → j < d + 1 → 0 ≤ control.e c j ∧ control.e c j ≤ 1) :
    (densityPenalty d A order control r0).Sat fun r => ∀ c, c < nc →
      (at0 r c = 0 ↔ (∀ j, j < d + 1 → control.e c j = 0) ∨ ∀ j, j < d + 1 → control.e c j = 1) := by
  refine (C113_value hd A hs h0 h1 hr).mono fun r ⟨_, h⟩ c hc => ?_
  rw [h c hc]
  have hn : (0 : ℝ) < ((d + 1 : Nat) : ℝ) := by positivity
  have hpi := Real.pi_pos
  set S := ∑ j ∈ range (d + 1), control.e c j with hS
  have hS0 : 0 ≤ S := sum_nonneg fun j hj => (hz c j hc (mem_range.1 hj)).1
  have hS1 : S ≤ ((d + 1 : Nat) : ℝ) := by
    rw [hS]
    refine (sum_le_sum fun j hj => (hz c j hc (mem_range.1 hj)).2).trans ?_
    simp
  have hm : mean (d + 1) (control.e c) = S / ((d + 1 : Nat) : ℝ) := rfl
  constructor
  · intro he
    have hcos : Real.cos (2 * Real.pi * mean (d + 1) (control.e c)) = 1 := by
      have : 1 - Real.cos (2 * Real.pi * mean (d + 1) (control.e c)) = 0 :=
        (mul_eq_zero.1 he).resolve_left (by positivity)
      linarith
    obtain ⟨n, hn'⟩ := (Real.cos_eq_one_iff _).1 hcos
    have hnm : (n : ℝ) = mean (d + 1) (control.e c) := by
      have : ((n : ℝ) - mean (d + 1) (control.e c)) * (2 * Real.pi) = 0 := by linarith
      have := (mul_eq_zero.1 this).resolve_right (by positivity)
      linarith
    have l0 : 0 ≤ (n : ℝ) := by rw [hnm, hm]; positivity
    have l1 : (n : ℝ) ≤ 1 := by rw [hnm, hm, div_le_one hn]; exact hS1
    have l0' : 0 ≤ n := by exact_mod_cast l0
    have l1' : n ≤ 1 := by exact_mod_cast l1
    have hcase : n = 0 ∨ n = 1 := by omega
    rcases hcase with rfl | rfl
    · left
      have hz0 : S = 0 := by
        rw [hm] at hnm
        push_cast at hnm
        rcases div_eq_zero_iff.1 hnm.symm with e | e
        · exact e
        · exact absurd e (by positivity)
      intro j hj
      exact (sum_eq_zero_iff_of_nonneg fun j hj => (hz c j hc (mem_range.1 hj)).1).1 hz0 j (mem_range.2 hj)
    · right
      have hz1 : S = ((d + 1 : Nat) : ℝ) := by
        rw [hm, eq_div_iff hn.ne'] at hnm
        rw [← hnm]
        simp
      have hz2 : ∑ j ∈ range (d + 1), (1 - control.e c j) = 0 := by
        rw [sum_sub_distrib, ← hS, hz1]
        simp
      intro j hj
      have := (sum_eq_zero_iff_of_nonneg fun j hj => sub_nonneg.2 (hz c j hc (mem_range.1 hj)).2).1 hz2 j (mem_range.2 hj)
      linarith
  · rintro (he | he)
    · have : S = 0 := sum_eq_zero fun j hj => he j (mem_range.1 hj)
      rw [hm, this]
      simp
    · have : S = ((d + 1 : Nat) : ℝ) := by
        rw [hS, sum_congr rfl fun j hj => he j (mem_range.1 hj)]
        simp
      rw [hm, this, div_self hn.ne', mul_one, Real.cos_two_pi]
      ring

/-- **C113 is false for designs of zeros and ones**: every cell at the interface of material and void is penalised,
although no node has an intermediate density. -/
theorem C113_interface_false (hA : 0 < A) (hz : ∀ c j, c < nc → j < d + 1 → control.e c j = 0 ∨ control.e c j = 1) :
    (densityPenalty d A order control r0).Sat fun r => ∀ c, c < nc → ∀ i j, i < d + 1 → j < d + 1 →
      control.e c i = 0 → control.e c j = 1 → 0 < at0 r c := by
  have hz' : ∀ c j, c < nc → j < d + 1 → 0 ≤ control.e c j ∧ control.e c j ≤ 1 := by
    intro c j hc hj
    rcases hz c j hc hj with e | e <;> rw [e] <;> norm_num
  obtain ⟨r, er, h⟩ := C113_zero hd A hs h0 h1 hr hA hz'
  obtain ⟨r', er', h'⟩ := C113_bounds hd A hs h0 h1 hr hA.le
  obtain rfl : r = r' := by rw [er] at er'; exact Res.ok.inj er'
  refine ⟨r, er, fun c hc i j hi hj ei ej => lt_of_le_of_ne (h' c hc).1 fun e => ?_⟩
  rcases (h c hc).1 e.symm with e | e
  · have := e j hj
    rw [ej] at this
    norm_num at this
  · have := e i hi
    rw [ei] at this
    norm_num at this

end

/-- **C113 is false for the input**: the list of the function is looked for beside "Criteria", not in it.  With the list
in "Criteria" only, as the factory of the criteria requires it, the constructor throws; with lists at both places the
amplitude in "Criteria" does not matter. -/
theorem C113_list_false (I : PenaltyInput) (name : String) :
    (I.top name = none → ∃ m, I.amplitude name = .err m) ∧
      ∀ J : PenaltyInput, J.top = I.top → J.amplitude name = I.amplitude name := by
  refine ⟨fun h => ⟨_, by rw [PenaltyInput.amplitude, h]⟩, fun J h => ?_⟩
  rw [PenaltyInput.amplitude, h]
  rfl

/-- **C113, amplitude** of the list the constructor reads: one by default. -/
theorem C113_amplitude (I : PenaltyInput) (name : String) :
    (I.top name = some none → I.amplitude name = .ok 1) ∧
      ∀ A, I.top name = some (some A) → I.amplitude name = .ok A := by
  refine ⟨fun h => ?_, fun A h => ?_⟩ <;> rw [PenaltyInput.amplitude, h] <;> rfl

/-- An input as the factory requires it: the list is in "Criteria". -/
example : ∃ m, (⟨fun _ => none, fun n => if n = "Penalty" then some (some 2) else none⟩ : PenaltyInput).amplitude
    "Penalty" = .err m :=
  (C113_list_false _ _).1 rfl

/-- A bar of two cells with one solid node: the cells at the node have the largest penalty, that of density one half. -/
example : (densityPenalty 1 3 [1, 0] ⟨2, 2, fun c j => if c = 0 ∧ j = 1 ∨ c = 1 ∧ j = 0 then 1 else 0⟩ [7, 7]).Sat
    fun r => at0 r 0 = 3 ∧ at0 r 1 = 3 := by
  refine (C113_bounds (nc := 2) (Or.inl rfl) 3 (List.Perm.swap _ _ _) rfl le_rfl rfl (by norm_num)).mono fun r h =>
    ⟨(h 0 (by norm_num)).2.2 ?_, (h 1 (by norm_num)).2.2 ?_⟩ <;>
  norm_num [mean, sum_range_succ]

end Plato.Crit
